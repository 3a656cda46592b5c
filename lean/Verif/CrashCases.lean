import Verif.CrashAll
/-
C53: a document for which `C53_neat_partial` applies, and documents on which the program crashes.
-/
namespace Verif.Crash
open Verif.Dom Verif.Spec
open Verif.Dom (Res)
open Verif.Pipeline
open Verif.Cli (CleaningOptions)
open Verif.GroupDefs (isDefinition isScene)

/-! ### A check -/

/-- A check for `NeatAttr`. -/
def neatAttrB (f : Forest) (rank : Nat → Nat) (s n : Node) (x : Attr) : Bool :=
  decide (x.value ≠ .kw .inherit ∧ x.value ≠ .kw .currentColor) &&
  (decide (x.name ≠ .id .transform) || (svgKind n.kind && match x.value with | .transform _ => true | _ => false)) &&
  (decide (x.name ≠ .id .opacity) || match x.value with | .number _ => true | _ => false) &&
  (decide (x.name ≠ .id .points) || (decide (n.kind ≠ .elem .g) && decide (n.kind ≠ .elem .use))) &&
  (decide (x.name ≠ .id .d) || (decide (n.kind ≠ .elem .g) && decide (n.kind ≠ .elem .use) && match x.value with
    | .path [] => true
    | .path (⟨_, .moveTo _ _⟩ :: _) => true
    | .path _ => false
    | _ => true)) &&
  (decide (x.name ≠ .id .display) || decide (x.value ≠ .kw .none) || (decide (n ≠ s) && decide (n.kind ≠ .elem .defs))) &&
  f.nodes.all fun t => decide (x.value.target ≠ some t.key) ||
    (decide (n ≠ s) && decide (n.kind ≠ .elem .defs) && decide (n.kind ≠ .elem .filter) && decide (t ≠ s) && (match x.name with | .id _ => true | _ => false) &&
    if x.name = .id .xlinkHref then decide (n.kind ≠ .elem .g) && (decide (n.kind ≠ .elem .use) || (svgKind t.kind && decide (t.kind ≠ .elem .svg) && decide (t.kind ≠ .elem .stop) &&
      (!isDefinition t || decide (t.kind = .elem .symbol)) && decide (rank t.key < rank n.key)))
    else isDefinition t && decide (t.kind ≠ .elem .defs))

/-- A check for the rest of `NeatAttr`. -/
def gradAttrB (f : Forest) (rank : Nat → Nat) (n : Node) (x : Attr) : Bool :=
  (decide (x.name ≠ .id .gradientTransform) || match x.value with | .transform _ => true | _ => false) &&
  (decide (x.name ≠ .id .stopColor) || match x.value with | .color _ _ _ => true | _ => false) &&
  (decide (x.name ≠ .id .stopOpacity) || match x.value with | .number _ => true | _ => false) &&
  (!n.isGradient || f.nodes.all fun t => decide (x.value.target ≠ some t.key) || (decide (x.name = .id .xlinkHref) && t.isGradient && decide (rank t.key < rank n.key))) &&
  (!n.isGradient || decide (x.name ≠ .id .xlinkHref) || match x.value with | .link _ => true | _ => false) &&
  (decide (n.kind ≠ .elem .stop) || decide (x.value.target = none)) &&
  (!(n.isGradient || decide (n.kind = .elem .stop)) || decide (x.name ≠ .id .display) || decide (x.value ≠ .kw .none))

theorem neatAttr_of {f : Forest} {rank : Nat → Nat} {s n : Node} {x : Attr} (h : neatAttrB f rank s n x = true) (h' : gradAttrB f rank n x = true) :
    NeatAttr f rank s n x := by
  simp only [gradAttrB, Bool.and_eq_true, Bool.or_eq_true, Bool.not_eq_true', decide_eq_true_eq, List.all_eq_true] at h'
  obtain ⟨⟨⟨⟨⟨⟨g1, g2⟩, g3⟩, g4⟩, g5⟩, g6⟩, g7⟩ := h'
  simp only [neatAttrB, Bool.and_eq_true, Bool.or_eq_true, decide_eq_true_eq, List.all_eq_true] at h
  obtain ⟨⟨⟨⟨⟨⟨h1, h2⟩, h3⟩, h4⟩, h5⟩, h6⟩, h7⟩ := h
  have key : ∀ t ∈ f.nodes, x.value.target = some t.key → _ := fun t ht e => (h7 t ht).resolve_left (not_not.2 e)
  refine ⟨h1, fun e => ?_, fun e => ?_, fun e => h4.resolve_left (not_not.2 e), fun e => ?_, fun e1 e2 => ?_, fun t ht e => ?_, fun t ht e ne => ?_, fun t ht e he => ?_,
    fun e => ?_, fun e => ?_, fun e => ?_, fun hg t ht e => ?_, fun hg e => ?_, fun e => g6.resolve_left (not_not.2 e), fun hg e => ?_⟩
  · obtain ⟨p1, p2⟩ := h2.resolve_left (not_not.2 e)
    refine ⟨(svgKind_iff _).1 p1, ?_⟩
    generalize x.value = v at p2
    cases v <;> first | exact ⟨_, rfl⟩ | cases p2
  · have p2 := h3.resolve_left (not_not.2 e)
    generalize x.value = v at p2
    cases v <;> first | exact ⟨_, rfl⟩ | cases p2
  · obtain ⟨⟨p1, p2⟩, p3⟩ := h5.resolve_left (not_not.2 e)
    refine ⟨p1, p2, fun p e' => ?_⟩
    rw [e'] at p3
    split at p3
    next h => cases h; exact .inl rfl
    next h => cases h; exact .inr ⟨_, _, _, _, rfl⟩
    · cases p3
    next h => exact absurd rfl (h _)
  · rcases h6 with (h | h) | h
    · exact absurd e1 h
    · exact absurd e2 h
    · exact h
  · obtain ⟨⟨⟨⟨⟨p1, p2⟩, p3⟩, p4⟩, p5⟩, _⟩ := key t ht e
    refine ⟨p1, p2, p3, p4, ?_⟩
    generalize x.name = a at p5
    cases a with
    | id b => exact ⟨b, rfl⟩
    | name _ => cases p5
  · have p := (key t ht e).2
    rw [if_neg ne] at p
    simpa using p
  · have p := (key t ht e).2
    rw [if_pos he] at p
    simp only [Bool.and_eq_true, Bool.or_eq_true, decide_eq_true_eq, Bool.not_eq_true'] at p
    refine ⟨p.1, fun hu => ?_⟩
    obtain ⟨⟨⟨⟨q1, q2⟩, q5⟩, q3⟩, q4⟩ := p.2.resolve_left (not_not.2 hu)
    refine ⟨(svgKind_iff _).1 q1, q2, q5, fun hd => q3.resolve_left (by rw [hd]; decide), q4⟩
  · have p2 := g1.resolve_left (not_not.2 e)
    generalize x.value = v at p2
    cases v <;> first | exact ⟨_, rfl⟩ | cases p2
  · have p2 := g2.resolve_left (not_not.2 e)
    generalize x.value = v at p2
    cases v <;> first | exact ⟨_, _, _, rfl⟩ | cases p2
  · have p2 := g3.resolve_left (not_not.2 e)
    generalize x.value = v at p2
    cases v <;> first | exact ⟨_, rfl⟩ | cases p2
  · obtain ⟨⟨p1, p2⟩, p3⟩ := (g4.resolve_left (by rw [hg]; decide) t ht).resolve_left (not_not.2 e)
    exact ⟨p1, p2, p3⟩
  · rcases g5 with (p | p) | p
    · rw [hg] at p; cases p
    · exact absurd e p
    · generalize x.value = v at p
      cases v <;> first | exact ⟨_, rfl⟩ | cases p
  · rcases g7 with (p | p) | p
    · rcases hg with hg | hg <;> simp [hg] at p
    · exact absurd e p
    · exact p

/-- A check for `Neat`. -/
def neatB (f : Forest) (rank : Nat → Nat) : Bool :=
  decide f.UniqueKeys && (f.nodes.all fun n => decide (n.attrs.map (·.name)).Nodup) && (f.nodes.all fun n => n.links.all fun k => decide (k ∈ f.keys)) &&
  decide (2 * (f.nodes.length + 2) ≤ TrimIds.capacity) &&
  (match svgElement f with
    | some (s, _) => f.nodes.all fun n => n.attrs.all fun x => neatAttrB f rank s n x && gradAttrB f rank n x
    | none => false) &&
  (f.nodes.all fun n => !(decide (n.kind = .elem .filter) || n.isGradient) || decide (n.id ≠ "")) &&
  (f.nodes.all fun n => !n.isGradient || f.nodes.all fun m => decide (m.id ≠ n.id) || decide (m = n)) &&
  ((subs f).all fun x => x.2.top.all fun m => x.1.isGradient == decide (m.kind = .elem .stop)) &&
  ((subs f).all fun x => !x.1.isGradient || x.2.top.all fun m => match m.get .offset with
    | some (.length l) => decide (l.unit = .none) || decide (l.unit = .percent)
    | _ => true) &&
  ((subs f).all fun x => !x.1.isGradient || (x.1.has .xlinkHref == decide (x.2 = .nil))) &&
  ((subs f).all fun x => !isScene x.1 || x.2.top.all fun m => !isDefinition m) &&
  ((subs f).all fun x => decide (x.1.kind ≠ .elem .g) || x.2.top.all fun m => svgKind m.kind) &&
  ((subs f).all fun x => decide (x.1.kind ≠ .elem .use) || decide (x.2 = .nil)) &&
  (subs f).all fun x => x.2.nodes.all fun m => decide (rank m.key < rank x.1.key)

theorem neat_of {f : Forest} {rank : Nat → Nat} (h : neatB f rank = true) : Neat f rank := by
  unfold neatB at h
  cases hs : svgElement f with
  | none => rw [hs] at h; simp at h
  | some p =>
    obtain ⟨s, ks⟩ := p
    rw [hs] at h
    simp only [Bool.and_eq_true, Bool.or_eq_true, decide_eq_true_eq, List.all_eq_true, Bool.not_eq_true'] at h
    obtain ⟨⟨⟨⟨⟨⟨⟨⟨⟨⟨⟨⟨⟨h1, h2⟩, h3⟩, h4⟩, h5⟩, n1⟩, n2⟩, n3⟩, n4⟩, n5⟩, h8⟩, h9⟩, h10⟩, h11⟩ := h
    refine ⟨h1, h2, h3, h4, ⟨s, ks, hs, fun n hn x hx => neatAttr_of (h5 n hn x hx).1 (h5 n hn x hx).2⟩, fun n hn e => (n1 n hn).resolve_left ?_,
      fun n hn hg m hm e => ((n2 n hn).resolve_left (by rw [hg]; decide) m hm).resolve_left (not_not.2 e), fun x hx m hm => ?_, fun x hx hg m hm l e => ?_,
      fun x hx hg => ?_, fun x hx e => ?_,
      fun x hx e m hm => ?_, fun x hx e => (h10 x hx).resolve_left (not_not.2 e), h11⟩
    · rcases e with e | e <;> simp [e]
    · have := n3 x hx m hm
      rw [beq_iff_eq] at this
      rw [this, decide_eq_true_eq]
    · have := (n4 x hx).resolve_left (by rw [hg]; decide) m hm
      rw [e] at this
      simpa using this
    · have := (n5 x hx).resolve_left (by rw [hg]; decide)
      rw [beq_iff_eq] at this
      rw [this, decide_eq_true_eq]
    · exact (h8 x hx).resolve_left (by rw [e]; decide)
    · exact (svgKind_iff _).1 ((h9 x hx).resolve_left (not_not.2 e) m hm)

/-! ### A document -/

def box (k : Nat) : Node := el k .rect "" [(.width, px 5), (.height, px 5)]

def turn : Value := .transform ⟨0, 1, -1, 0, 0, 0⟩

/-- Definitions of all sorts in several places, `use` elements in a row, groups with styles and transforms, text, a path, a polyline with an
odd list of points. -/
def plainDoc : Forest :=
  doc (.cons (el 1 .defs "" []) (.cons (el 2 .symbol "sym" []) (leaf (el 3 .rect "" [(.width, px 5), (.height, px 5)]) (leaf (el 4 .use "" [(.xlinkHref, .link 7)]) .nil))
      (.cons (el 5 .clipPath "c" []) (leaf (el 6 .circle "" [(.r, px 5)]) .nil) (leaf (el 7 .rect "r" [(.fill, .funcLink 12), (.width, px 1)]) .nil)))
    (.cons (el 8 .g "" [(.transform, turn), (.opacity, .number (1/2)), (.clipPath, .funcLink 5)])
      (leaf (el 9 .use "" [(.xlinkHref, .link 2), (.x, px 3)])
      (.cons (el 10 .filter "f" []) (leaf (el 11 .feGaussianBlur "" [(.stdDeviation, .number 2)]) .nil)
      (.cons (el 12 .pattern "p" []) (.cons (el 13 .g "" [(.fill, .color 255 0 0)]) (leaf (el 14 .path "" [(.d, .path [⟨true, .moveTo 1 2⟩, ⟨false, .lineTo 3 4⟩])]) .nil) .nil)
      (leaf (el 15 .polyline "" [(.points, .numberList [1, 2, 3, 4, 5]), (.filter, .funcLink 10)]) .nil))))
    (.cons (el 16 .text "" [(.fontSize, px 8)]) (leaf ⟨17, .text "a < b", "", []⟩ .nil)
    (leaf ⟨18, .comment " end ", "", []⟩ (leaf (el 19 .use "" [(.xlinkHref, .link 7)]) .nil)))))

/-- Not vacuous: the theorem applies to this document. -/
theorem plainDoc_neat : Neat plainDoc fun k => if k = 0 then 100 else if k = 2 then 50 else if k = 8 then 90 else if k = 7 then 5 else if k = 4 then 10 else if k = 9 then 60
    else if k = 12 then 30 else if k = 13 then 20 else if k = 14 then 10 else if k = 1 then 80 else if k = 5 then 10 else if k = 6 then 1 else if k = 10 then 10
    else if k = 11 then 1 else if k = 16 then 2 else if k = 17 then 1 else 10 := neat_of (by decide +kernel)

example : Parsed plainDoc := by decide +kernel

/-- All options together, for example. -/
example : ∃ g, cleanDoc env allOn plainDoc = .ok g := by
  rcases C53_neat_partial env allOn (by unfold Round.InRange; decide) plainDoc_neat with ⟨e, h, _⟩ | ⟨⟨x, hx, h, _⟩, _⟩ | h
  · have h' : Simple.precleanChecks plainDoc = .ok () := by decide +kernel
    rw [h'] at h; cases h
  · have h' : ∀ x ∈ subs plainDoc, x.1.isGradient = false := by decide +kernel
    rw [h' x hx] at h; cases h
  · exact h

/-- Gradients of both kinds, one of which refers to another one for its stops and attributes, in several places; shapes that use them. -/
def gradDoc : Forest :=
  doc (.cons (el 1 .linearGradient "a" [(.gradientTransform, turn), (.x1, px 1)]) (leaf (el 2 .stop "" [(.offset, .length ⟨0, .percent⟩)])
      (leaf (el 3 .stop "" [(.offset, .length ⟨1, .none⟩), (.stopColor, .color 1 2 3), (.stopOpacity, .number (1/2))]) .nil))
    (.cons (el 4 .g "" [(.fill, .funcLink 6), (.transform, turn)])
      (leaf (box 5)
      (leaf (el 6 .radialGradient "b" [(.xlinkHref, .link 1), (.gradientUnits, .kw .userSpaceOnUse)])
      (.cons (el 7 .linearGradient "c" []) (leaf (el 8 .stop "" []) (leaf (el 9 .stop "" [(.offset, .length ⟨1, .none⟩)]) .nil))
      (leaf (el 10 .linearGradient "d" [(.xlinkHref, .link 7)])
      (leaf (el 11 .circle "" [(.r, px 2), (.fill, .funcLink 10), (.stroke, .funcLink 7), (.transform, turn)]) .nil)))))
    (.cons (el 12 .linearGradient "e" []) (leaf (el 13 .stop "" [(.offset, .length ⟨0, .none⟩)]) (leaf (el 14 .stop "" [(.offset, .length ⟨1, .none⟩)]) .nil))
    (leaf (el 15 .rect "" [(.fill, .funcLink 12), (.width, px 5), (.height, px 5)]) .nil))))

/-- Not vacuous: the theorem applies to this document. -/
theorem gradDoc_neat : Neat gradDoc fun k => if k = 0 then 100 else if k = 4 then 90 else if k = 10 ∨ k = 6 then 10 else if k = 1 ∨ k = 7 ∨ k = 12 then 5 else 1 :=
  neat_of (by decide +kernel)

example : Parsed gradDoc := by decide +kernel

example : ∃ g, cleanDoc env allOn gradDoc = .ok g := by
  rcases C53_neat_partial env allOn (by unfold Round.InRange; decide) gradDoc_neat with ⟨e, h, _⟩ | ⟨⟨x, hx, h, c, hc, h2⟩, _⟩ | h
  · have h' : Simple.precleanChecks gradDoc = .ok () := by decide +kernel
    rw [h'] at h; cases h
  · have h' : ∀ x ∈ subs gradDoc, x.1.isGradient = true → ∀ c ∈ x.2.top.tail, c.get .offset = some (.length ⟨1, .none⟩) := by decide +kernel
    exact absurd (h' x hx h c hc) (h2 _)
  · exact h

/-! ### Findings -/

/-- **Finding.** Removing invisible elements removes a root element that is not displayed; the program crashes afterwards. -/
theorem C53_refuted_hidden_root : let f : Forest := .cons (el 0 .svg "" [(.display, .kw .none)]) (leaf (box 1) .nil) .nil
    Parsed f ∧ cleanDoc env { removeInvisibleElements := true } f = .panic := by decide +kernel

/-- **Finding.** The same for a root element with an empty clip path. -/
theorem C53_refuted_clipped_root :
    let f : Forest := .cons (el 0 .svg "" [(.clipPath, .funcLink 2)]) (leaf (box 1) (leaf (el 2 .clipPath "c" []) .nil)) .nil
    Parsed f ∧ cleanDoc env { removeInvisibleElements := true } f = .panic := by decide +kernel

/-- **Finding.** Removing invisible elements crashes if `defs` is not displayed. -/
theorem C53_refuted_hidden_defs : let f := doc (.cons (el 1 .defs "" [(.display, .kw .none)]) (leaf (el 2 .clipPath "c" []) .nil) (leaf (box 3) .nil))
    Parsed f ∧ cleanDoc env { removeInvisibleElements := true } f = .panic := by decide +kernel

/-- **Finding.** A group with a transform and nothing but a comment in it: the comment gets the transform. -/
theorem C53_refuted_comment : let f := doc (.cons (el 1 .g "" [(.transform, turn)]) (leaf ⟨2, .comment "x", "", []⟩ .nil) (leaf (box 3) .nil))
    Parsed f ∧ cleanDoc env { ungroupGroups := true, applyTransformToShapes := true } f = .panic := by decide +kernel

/-- **Finding.** An element of another namespace with a transform. -/
theorem C53_refuted_foreign : let f := doc (leaf ⟨1, .other "x", "", [⟨.id .transform, turn, true⟩]⟩ (leaf (box 3) .nil))
    Parsed f ∧ cleanDoc env { applyTransformToShapes := true } f = .panic := by decide +kernel

/-- **Finding.** A group with an odd list of points hands it to a polyline in it, after the lists of points have been corrected. -/
theorem C53_refuted_points : let f := doc (.cons (el 1 .g "" [(.points, .numberList [1, 2, 3])]) (leaf (el 2 .polyline "" []) .nil) .nil)
    Parsed f ∧ cleanDoc env { ungroupGroups := true, convertShapes := true } f = .panic := by decide +kernel

/-- **Finding.** Two equal filters, the first one without an id: what refers to the second one cannot refer to the first one. -/
theorem C53_refuted_filter :
    let f := doc (.cons (el 1 .filter "" []) (leaf (el 2 .feGaussianBlur "" [(.stdDeviation, .number 2)]) .nil)
      (.cons (el 3 .filter "f" []) (leaf (el 4 .feGaussianBlur "" [(.stdDeviation, .number 2)]) .nil) (leaf (el 5 .rect "r" [(.filter, .funcLink 3)]) .nil)))
    Parsed f ∧ cleanDoc env { removeDuplFeGaussianBlur := true } f = .panic := by decide +kernel

end Verif.Crash
