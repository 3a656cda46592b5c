import Verif.DuplWhole
import Verif.DuplBlur
import Verif.GradCheck
/-
Property C32, last part: a document that meets the conditions, and documents that lose paints because they do not.
-/
namespace Verif.Dupl
open Verif.Dom Verif.Spec
open Verif.ApplyTs (elem px)

/-! ### The conditions can be checked -/

/-- What the parser and the passes before this one ensure; also, that gradients refer only to gradients. -/
structure Base (f : Forest) : Prop where
  unique : f.UniqueKeys
  links : f.LinksOk
  href : HrefOk f
  shown : ∀ n ∈ f.nodes, n.isGradient = true → written n .xlinkHref = n.get .xlinkHref
  only : Gradients.OnlyHref f
  form : LinkForm f
  attrs : UniqueAttrs f
  resolved : ∀ n ∈ f.nodes, n.isGradient = true → ∀ a ∈ gradientAttrs n.kind, a ≠ .gradientTransform → ∀ v, GradientValue f n a v → n.get a = some v
  transform : ∀ n ∈ f.nodes, n.isGradient = true → ∀ w, Effective f .gradientTransform n w →
    (n.get .gradientTransform).getD (.transform one) = w.getD (.transform one)

/-- **C32** as it is stated. -/
def C32_full : Prop := ∀ f, Base f →
  (∃ g ρ, rmLinear f = some g ∧ Deduped f g ρ) ∧ (∃ g ρ, rmRadial f = some g ∧ Deduped f g ρ) ∧ ∃ g ρ, rmBlurs f = some g ∧ DedupedBlur f g ρ

/-- The value of an attribute by evaluation. -/
def evalValue (f : Forest) (n : Node) (a : AId) : Option (Option Value) :=
  (evalAttr 9 f a n).bind fun w => (evalAttr 9 f (follows a) n).map fun w' => w.or (w'.or (gradientDefault n.kind (follows a)))

theorem value_of_eval {f : Forest} {n : Node} {a : AId} {w : Option Value} (h : evalValue f n a = some w) {v : Value} (hv : GradientValue f n a v) : w = some v := by
  unfold evalValue at h
  obtain ⟨w1, h1, h⟩ := Option.bind_eq_some_iff.1 h
  obtain ⟨w2, h2, rfl⟩ := Option.map_eq_some_iff.1 h
  have e1 := effective_of_eval h1
  have e2 := effective_of_eval h2
  rcases hv with (hv | ⟨hv, hd⟩) | ⟨hk, c, hc, hv, hp⟩
  · rw [e1.unique hv]; rfl
  · rw [e1.unique hv]
    cases hc : centreOf a with
    | none =>
      rw [follows, hc] at e2 ⊢
      rw [Option.getD_none] at e2 ⊢
      rw [e2.unique hv, hd]; rfl
    | some c =>
      exfalso
      cases a <;> first | (simp [centreOf] at hc; done) | skip
      all_goals
        obtain ⟨k, kd, i, as⟩ := n
        revert hd
        cases kd with
        | elem e => cases e <;> simp [gradientDefault]
        | _ => simp [gradientDefault]
  · rw [e1.unique hv]
    rw [follows, hc, Option.getD_some] at e2 ⊢
    rcases hp with hp | ⟨hp, hd⟩
    · rw [e2.unique hp]; rfl
    · rw [e2.unique hp, hd]; rfl

def baseB (f : Forest) (rank : Nat → Nat) : Bool :=
  decide f.UniqueKeys && decide f.LinksOk && rankedB f rank &&
  (f.nodes.all fun n => !n.isGradient ||
    (decide (written n .xlinkHref = n.get .xlinkHref) &&
    (n.attrs.all fun x => decide (x.value.target = none) || decide (x.name = .id .xlinkHref)) &&
    ((gradientAttrs n.kind).all fun a => decide (a = .gradientTransform) || match evalValue f n a with
      | some (some v) => decide (n.get a = some v)
      | some none => true
      | none => false) &&
    match evalAttr 9 f .gradientTransform n with
      | some w => decide ((n.get .gradientTransform).getD (.transform one) = w.getD (.transform one))
      | none => false)) &&
  f.nodes.all fun n => decide (n.attrs.map (·.name)).Nodup && n.attrs.all fun x => match x.name, x.value with
    | .id .xlinkHref, .link _ => x.visible
    | .id a, .funcLink _ => x.visible && decide (a ≠ .xlinkHref)
    | _, v => decide (v.target = none)

theorem base_of {f : Forest} {rank : Nat → Nat} (h : baseB f rank = true) : Base f := by
  simp only [baseB, Bool.and_eq_true, decide_eq_true_eq] at h
  obtain ⟨⟨⟨⟨h1, h2⟩, h3⟩, h4⟩, h5⟩ := h
  have h4' : ∀ n ∈ f.nodes, n.isGradient = true → _ := fun n hn hg => by
    have := List.all_eq_true.1 h4 n hn
    simp only [hg, Bool.not_true, Bool.false_or, Bool.and_eq_true, decide_eq_true_eq] at this
    exact this
  have h5' : ∀ n ∈ f.nodes, _ := fun n hn => by
    have := List.all_eq_true.1 h5 n hn
    simp only [Bool.and_eq_true, decide_eq_true_eq] at this
    exact this
  refine ⟨h1, h2, ⟨rank, ranked_of h3⟩, fun n hn hg => (h4' n hn hg).1.1.1, ?_, ?_, fun n hn => (h5' n hn).1, ?_, ?_⟩
  · intro n hn hg x hx ht
    have := List.all_eq_true.1 (h4' n hn hg).1.1.2 x hx
    simp only [Bool.or_eq_true, decide_eq_true_eq] at this
    exact this.resolve_left ht
  · intro n hn x hx ht
    have := List.all_eq_true.1 (h5' n hn).2 x hx
    obtain ⟨nm, v, vis⟩ := x
    dsimp only at this ht ⊢
    split at this
    · exact ⟨this, .inl ⟨rfl, _, rfl⟩⟩
    · simp only [Bool.and_eq_true, decide_eq_true_eq] at this
      exact ⟨this.1, .inr ⟨_, this.2, rfl, _, rfl⟩⟩
    · exact absurd (of_decide_eq_true this) ht
  · intro n hn hg a ha hne v hv
    have := List.all_eq_true.1 (h4' n hn hg).1.2 a ha
    simp only [hne, decide_false, Bool.false_or] at this
    cases he : evalValue f n a with
    | none => simp only [he] at this; cases this
    | some w =>
      have e := value_of_eval he hv
      subst e
      simpa [he] using this
  · intro n hn hg w hw
    have := (h4' n hn hg).2
    cases he : evalAttr 9 f .gradientTransform n with
    | none => simp only [he] at this; cases this
    | some u =>
      have e := (effective_of_eval he).unique hw
      subst e
      simpa [he] using this

def goodB (f : Forest) (rank : Nat → Nat) : Bool :=
  baseB f rank &&
  (f.nodes.all fun n => !n.isGradient || decide (n.id ≠ "")) &&
  (f.nodes.all fun n => !n.isGradient || f.nodes.all fun x => !decide (x.id = n.id) || decide (x = n)) &&
  ((subs f).all fun x => !x.1.isGradient || ((x.2.top.all fun d => decide (d.kind = .elem .stop)) &&
    (x.2.nodes.all fun d => decide (d.isGradient = false) && decide (f.isUsed d.key = false) && decide (d.links = [])) &&
    (decide (x.2.top = []) == decide (written x.1 .xlinkHref ≠ none)))) &&
  (f.nodes.all fun n => !decide (n.kind = .elem .stop) || decide (n.get .stopColor ≠ some (.kw .currentColor))) &&
  f.nodes.all fun n => !n.isGradient || ((allAttrs.all fun a => decide (written n a = none) || decide (a ∈ gradientAttrs n.kind)) &&
    (decide (written n .xlinkHref = none) || ((decide (written n .cx = none) || decide (written n .fx ≠ none)) && (decide (written n .cy = none) || decide (written n .fy ≠ none)))))

theorem good_of {f : Forest} {rank : Nat → Nat} (h : goodB f rank = true) : Good f := by
  simp only [goodB, Bool.and_eq_true] at h
  obtain ⟨⟨⟨⟨⟨h1, h0⟩, h2⟩, h3⟩, h4⟩, h5⟩ := h
  have hb := base_of h1
  have h3' : ∀ x ∈ subs f, x.1.isGradient = true → _ := fun x hx hg => by
    have := List.all_eq_true.1 h3 x hx
    simp only [hg, Bool.not_true, Bool.false_or, Bool.and_eq_true, beq_iff_eq, decide_eq_decide, List.all_eq_true, decide_eq_true_eq] at this
    exact this
  have h5' : ∀ n ∈ f.nodes, n.isGradient = true → _ := fun n hn hg => by
    have := List.all_eq_true.1 h5 n hn
    simp only [hg, Bool.not_true, Bool.false_or, Bool.and_eq_true, Bool.or_eq_true, List.all_eq_true, decide_eq_true_eq] at this
    exact this
  refine ⟨hb.unique, hb.links, hb.href, hb.shown, hb.only, hb.form, hb.attrs, ?_, ?_, ?_, ?_, ?_, ?_, ?_, hb.resolved, hb.transform⟩
  · intro n hn hg
    have := List.all_eq_true.1 h0 n hn
    simpa [hg] using this
  · intro n hn hg x hx e
    have := List.all_eq_true.1 h2 n hn
    simp only [hg, Bool.not_true, Bool.false_or] at this
    have := List.all_eq_true.1 this x hx
    simpa [e] using this
  · exact fun x hx hg => ⟨(h3' x hx hg).1.1, fun d hd => ⟨((h3' x hx hg).1.2 d hd).1.1, ((h3' x hx hg).1.2 d hd).1.2, ((h3' x hx hg).1.2 d hd).2⟩⟩
  · intro n hn hk
    have := List.all_eq_true.1 h4 n hn
    simpa [hk] using this
  · exact fun x hx hg => (h3' x hx hg).2
  · exact fun n hn hg a ha hw => ((h5' n hn hg).1 a ha).resolve_left hw
  · intro n hn hg hh a c hc hw
    have h := (h5' n hn hg).2.resolve_left hh
    cases a <;> first | (simp [centreOf] at hc; done) | skip
    all_goals
      simp only [centreOf, Option.some.injEq] at hc
      subst hc
    · exact h.1.resolve_left hw
    · exact h.2.resolve_left hw

/-! ### Documents -/

def stop (k : Nat) (c : Nat) (r : Forest) : Forest := .cons (elem k .stop [(.offset, .number 0), (.stopColor, .color c 0 0)]) .nil r

/-- A gradient with an id, visible and hidden attributes. -/
def grad (k : Nat) (i : String) (e : EId) (as hs : List (AId × Value)) : Node :=
  ⟨k, .elem e, i, as.map (fun x => ⟨.id x.1, x.2, true⟩) ++ hs.map fun x => ⟨.id x.1, x.2, false⟩⟩

def units : AId × Value := (.gradientUnits, .kw .objectBoundingBox)
def pad : AId × Value := (.spreadMethod, .kw .pad)
def zero (a : AId) : AId × Value := (a, .length ⟨0, .percent⟩)
def half (a : AId) : AId × Value := (a, .length ⟨50, .percent⟩)
def full (a : AId) : AId × Value := (a, .length ⟨100, .percent⟩)

def lin (k : Nat) (i : String) (as : List (AId × Value)) : Node :=
  grad k i .linearGradient as ([zero .x1, zero .y1, full .x2, zero .y2, units, pad].filter fun x => x.1 ∉ as.map Prod.fst)

/-- Two equal gradients, two that refer to them and are equal after that, and shapes. -/
def twins : Forest :=
  .cons (elem 0 .svg [])
    (.cons (lin 1 "a" [(.x1, px 5)]) (stop 10 1 (stop 11 2 .nil))
    (.cons (lin 2 "b" [(.x1, px 5), (.gradientTransform, .transform one)]) (stop 12 1 (stop 13 2 .nil))
    (.cons (grad 3 "c" .linearGradient [(.xlinkHref, .link 1)] [(.x1, px 5), zero .y1, full .x2, zero .y2, units, pad]) .nil
    (.cons (grad 4 "d" .linearGradient [(.xlinkHref, .link 2)] [(.x1, px 5), zero .y1, full .x2, zero .y2, units, pad]) .nil
    (.cons (elem 5 .rect [(.fill, .funcLink 2), (.stroke, .funcLink 4)]) .nil .nil)))))
  .nil

def twinsAfter : Forest :=
  .cons (elem 0 .svg [])
    (.cons (lin 1 "a" [(.x1, px 5)]) (stop 10 1 (stop 11 2 .nil))
    (.cons (grad 3 "c" .linearGradient [(.xlinkHref, .link 1)] [(.x1, px 5), zero .y1, full .x2, zero .y2, units, pad]) .nil
    (.cons (elem 5 .rect [(.fill, .funcLink 1), (.stroke, .funcLink 3)]) .nil .nil)))
  .nil

example : Good twins := good_of (rank := id) (by decide +kernel)
example : rmLinear twins = some twinsAfter := by decide +kernel

def radials : Forest :=
  .cons (elem 0 .svg [])
    (.cons (grad 1 "a" .radialGradient [(.cx, px 5)] [half .cy, half .r, (.fx, px 5), half .fy, units, pad]) (stop 10 1 .nil)
    (.cons (grad 2 "b" .radialGradient [(.cx, px 5), (.fx, px 5)] [half .cy, half .r, half .fy, units, pad]) (stop 12 1 .nil)
    (.cons (elem 5 .rect [(.fill, .funcLink 2)]) .nil .nil)))
  .nil

example : Good radials := good_of (rank := id) (by decide +kernel)
example : rmRadial radials = some (.cons (elem 0 .svg [])
    (.cons (grad 1 "a" .radialGradient [(.cx, px 5)] [half .cy, half .r, (.fx, px 5), half .fy, units, pad]) (stop 10 1 .nil)
    (.cons (elem 5 .rect [(.fill, .funcLink 1)]) .nil .nil))
  .nil) := by decide +kernel

/-! ### Documents that lose paints -/

theorem not_deduped {f g : Forest} {ρ : Nat → Nat} {n m : Node} (hn : n ∈ f.nodes) (hg : n.isGradient = true) (hm : m ∈ g.nodes) (hp : ¬ PaintSame f n g m)
    (h : Deduped f g ρ) (hk : ρ n.key = m.key) : False := by
  obtain ⟨x, hx, e, _, hs⟩ := h.paint n hn hg
  have := Forest.eq_of_key h.unique hx hm (e.trans hk)
  subst this
  exact hp hs

/-- The first gradient refers to the second one, takes its coordinate, and has the same stops. -/
def own1 : Node := grad 1 "a" .linearGradient [(.xlinkHref, .link 2)] [(.x1, px 5), zero .y1, full .x2, zero .y2, units, pad]
def lost1 : Node := grad 1 "a" .linearGradient [] [(.x1, px 5), zero .y1, full .x2, zero .y2, units, pad]
def refers : Forest :=
  .cons (elem 0 .svg []) (.cons own1 (stop 10 1 .nil) (.cons (lin 2 "b" [(.x1, px 5)]) (stop 12 1 .nil) .nil)) .nil
def refersAfter : Forest := .cons (elem 0 .svg []) (.cons lost1 (stop 10 1 .nil) .nil) .nil

/-- **Finding.** A gradient that is equal to the one it refers to loses the attributes that it takes from it. -/
theorem C32_refuted_referrer : Base refers ∧ rmLinear refers = some refersAfter ∧ ¬ ∃ ρ, Deduped refers refersAfter ρ := by
  refine ⟨base_of (rank := fun k => 9 - k) (by decide +kernel), by decide +kernel, ?_⟩
  rintro ⟨ρ, h⟩
  refine not_deduped (n := own1) (m := lost1) (by decide +kernel) (by decide +kernel) (by decide +kernel) ?_ h (h.same 1 (by decide +kernel))
  exact not_paint_of_value (a := .x1) (v := px 5) (w := none) (by decide) (by decide) rfl (effective_of_eval (fuel := 9) (by decide +kernel))
    (effective_of_eval (fuel := 9) (by decide +kernel)) (by decide) (fun _ => by decide +kernel)

/-- A gradient without stops, and one that has the stops of another one. -/
def bare2 : Node := grad 2 "b" .linearGradient [(.xlinkHref, .link 3)] [zero .x1, zero .y1, full .x2, zero .y2, units, pad]
def bare : Forest :=
  .cons (elem 0 .svg [])
    (.cons (lin 1 "a" []) .nil
    (.cons bare2 .nil
    (.cons (lin 3 "c" []) (stop 10 1 .nil)
    (.cons (elem 5 .rect [(.fill, .funcLink 2)]) .nil .nil))))
  .nil
def bareAfter : Forest :=
  .cons (elem 0 .svg [])
    (.cons (lin 1 "a" []) .nil
    (.cons (lin 3 "c" []) (stop 10 1 .nil)
    (.cons (elem 5 .rect [(.fill, .funcLink 1)]) .nil .nil)))
  .nil

/-- **Finding.** A gradient that takes its stops from another one is taken for a gradient without stops. -/
theorem C32_refuted_stops : Base bare ∧ rmLinear bare = some bareAfter ∧ ¬ ∃ ρ, Deduped bare bareAfter ρ := by
  refine ⟨base_of (rank := fun k => 9 - k) (by decide +kernel), by decide +kernel, ?_⟩
  rintro ⟨ρ, h⟩
  have hr := h.others (elem 5 .rect [(.fill, .funcLink 2)]) (by decide +kernel) (by decide +kernel) (by
    rintro ⟨x, hx, hg, hn⟩
    revert x
    decide +kernel)
  have hk : ρ 2 = 1 := by
    have e := Forest.eq_of_key h.unique hr (n := elem 5 .rect [(.fill, .funcLink 1)]) (by decide +kernel) rfl
    simpa [rename, elem, renameValue] using e
  refine not_deduped (n := bare2) (m := lin 1 "a" []) (by decide +kernel) (by decide +kernel) (by decide +kernel) ?_ h hk
  exact not_paint_of_stops (gstops_of_eval (fuel := 9) (l := [elem 10 .stop [(.offset, .number 0), (.stopColor, .color 1 0 0)]]) (by decide +kernel))
    (gstops_of_eval (fuel := 9) (l := []) (by decide +kernel)) (by decide)

/-- Two equal radial gradients, one with a focal point; a third one that refers to the other one and has a centre. -/
def focus3 : Node := grad 3 "c" .radialGradient [(.xlinkHref, .link 2), (.cx, px 8)] [half .cy, half .r, (.fx, px 8), half .fy, units, pad]
def moved3 : Node := grad 3 "c" .radialGradient [(.xlinkHref, .link 1), (.cx, px 8)] [half .cy, half .r, (.fx, px 8), half .fy, units, pad]
def focus : Forest :=
  .cons (elem 0 .svg [])
    (.cons (grad 1 "a" .radialGradient [(.cx, px 5), (.fx, px 5)] [half .cy, half .r, half .fy, units, pad]) (stop 10 1 .nil)
    (.cons (grad 2 "b" .radialGradient [(.cx, px 5)] [half .cy, half .r, (.fx, px 5), half .fy, units, pad]) (stop 12 1 .nil)
    (.cons focus3 .nil .nil)))
  .nil
def focusAfter : Forest :=
  .cons (elem 0 .svg [])
    (.cons (grad 1 "a" .radialGradient [(.cx, px 5), (.fx, px 5)] [half .cy, half .r, half .fy, units, pad]) (stop 10 1 .nil)
    (.cons moved3 .nil .nil))
  .nil

/-- **Finding.** A gradient gets a focal point if it refers to a duplicate that has none. -/
theorem C32_refuted_focus : Base focus ∧ rmRadial focus = some focusAfter ∧ ¬ ∃ ρ, Deduped focus focusAfter ρ := by
  refine ⟨base_of (rank := id) (by decide +kernel), by decide +kernel, ?_⟩
  rintro ⟨ρ, h⟩
  refine not_deduped (n := focus3) (m := moved3) (by decide +kernel) (by decide +kernel) (by decide +kernel) ?_ h (h.same 3 (by decide +kernel))
  intro hp
  have h1 : GradientValue focus focus3 .fx (px 8) := .inr ⟨rfl, .cx, rfl, effective_of_eval (fuel := 9) (by decide +kernel), .inl (effective_of_eval (fuel := 9) (by decide +kernel))⟩
  have h2 := (hp.values .fx (by decide) (by decide) _).1 h1
  have h3 := value_of_eval (w := some (px 5)) (by decide +kernel) h2
  exact absurd h3 (by decide)

/-- Two equal gradients with stops of the current colour, in two places. -/
def colours : Forest :=
  .cons (elem 0 .svg [])
    (.cons (elem 6 .defs [(.color, .color 255 0 0)])
      (.cons (lin 1 "a" []) (.cons (elem 10 .stop [(.stopColor, .kw .currentColor)]) .nil .nil) .nil)
    (.cons (lin 2 "b" []) (.cons (elem 11 .stop [(.stopColor, .kw .currentColor)]) .nil .nil)
    (.cons (elem 5 .rect [(.fill, .funcLink 2)]) .nil .nil)))
  .nil
def coloursAfter : Forest :=
  .cons (elem 0 .svg [])
    (.cons (elem 6 .defs [(.color, .color 255 0 0)])
      (.cons (lin 1 "a" []) (.cons (elem 10 .stop [(.stopColor, .kw .currentColor)]) .nil .nil) .nil)
    (.cons (elem 5 .rect [(.fill, .funcLink 1)]) .nil .nil))
  .nil

/-- **Finding.** Stops of the current colour are taken for equal. -/
theorem C32_refuted_current : Base colours ∧ rmLinear colours = some coloursAfter ∧ ¬ ∃ ρ, Deduped colours coloursAfter ρ := by
  refine ⟨base_of (rank := id) (by decide +kernel), by decide +kernel, ?_⟩
  rintro ⟨ρ, h⟩
  have hr := h.others (elem 5 .rect [(.fill, .funcLink 2)]) (by decide +kernel) (by decide +kernel) (by
    rintro ⟨x, hx, hg, hn⟩
    revert x
    decide +kernel)
  have hk : ρ 2 = 1 := by
    have e := Forest.eq_of_key h.unique hr (n := elem 5 .rect [(.fill, .funcLink 1)]) (by decide +kernel) rfl
    simpa [rename, elem, renameValue] using e
  refine not_deduped (n := lin 2 "b" []) (m := lin 1 "a" []) (by decide +kernel) (by decide +kernel) (by decide +kernel) (fun hp => ?_) h hk
  obtain ⟨l, l', a, b, c⟩ := hp.stops
  cases a.unique (gstops_of_eval (fuel := 9) (l := [elem 11 .stop [(.stopColor, .kw .currentColor)]]) (by decide +kernel))
  cases b.unique (gstops_of_eval (fuel := 9) (l := [elem 10 .stop [(.stopColor, .kw .currentColor)]]) (by decide +kernel))
  cases c with
  | cons x _ =>
    have := x.current (by decide +kernel)
    revert this
    decide +kernel

/-- Two equal gradients, the first one without an id; a shape without an id refers to the second one. -/
def nameless : Forest :=
  .cons (elem 0 .svg [])
    (.cons (lin 1 "" []) (stop 10 1 .nil)
    (.cons (lin 2 "b" []) (stop 11 1 .nil)
    (.cons (elem 5 .rect [(.fill, .funcLink 2)]) .nil .nil)))
  .nil
def namelessAfter : Forest :=
  .cons (elem 0 .svg []) (.cons (lin 1 "" []) (stop 10 1 .nil) (.cons (elem 5 .rect []) .nil .nil)) .nil

/-- **Finding.** If the first of the gradients has no id (and unused definitions are not removed), shapes without ids lose their paints:
they are taken for the gradient itself, since the ids are compared. -/
theorem C32_refuted_ids : Base nameless ∧ rmLinear nameless = some namelessAfter ∧ ¬ ∃ ρ, Deduped nameless namelessAfter ρ := by
  refine ⟨base_of (rank := id) (by decide +kernel), by decide +kernel, ?_⟩
  rintro ⟨ρ, h⟩
  have hr := h.others (elem 5 .rect [(.fill, .funcLink 2)]) (by decide +kernel) (by decide +kernel) (by
    rintro ⟨x, hx, hg, hn⟩
    revert x
    decide +kernel)
  have e := Forest.eq_of_key h.unique hr (n := elem 5 .rect []) (by decide +kernel) rfl
  simp [rename, elem] at e

/-- Two gradients that are equal, and a third one between them: it refers to the second one, the first one refers to it. -/
def ring : Forest :=
  .cons (elem 0 .svg [])
    (.cons (grad 1 "a" .linearGradient [(.xlinkHref, .link 3), zero .x1] [zero .y1, full .x2, zero .y2, units, pad]) (stop 10 1 .nil)
    (.cons (lin 2 "b" []) (stop 11 1 .nil)
    (.cons (grad 3 "c" .linearGradient [(.xlinkHref, .link 2), (.x1, px 8)] [zero .y1, full .x2, zero .y2, units, pad]) .nil .nil)))
  .nil

/-- **Finding.** Then the pass crashes: svgdom does not allow two elements to refer to each other. -/
theorem C32_refuted_crash : Base ring ∧ rmLinear ring = none :=
  ⟨base_of (rank := fun k => if k = 1 then 9 else k) (by decide +kernel), by decide +kernel⟩

/-! ### Filters -/

def goodBlurB (f : Forest) : Bool :=
  decide f.UniqueKeys && decide f.LinksOk &&
  (f.nodes.all fun n => n.attrs.all fun x => match x.name, x.value with
    | .id .xlinkHref, .link _ => x.visible
    | .id a, .funcLink _ => x.visible && decide (a ≠ .xlinkHref)
    | _, v => decide (v.target = none)) &&
  (f.nodes.all fun n => if n.kind = .elem .filter then decide (n.id ≠ "") && (f.nodes.all fun x => !decide (x.id = n.id) || decide (x = n)) &&
    (n.attrs.all fun x => x.visible && (decide (x.value.target = none) || decide (x.name = .id .xlinkHref)))
    else decide (written n .colorInterpolationFilters = none)) &&
  ((subs f).all fun x => !decide (x.1.kind = .elem .filter) || x.2.nodes.all fun d => decide (d.kind ≠ .elem .filter)) &&
  ((subs f).all fun x => !decide (x.1.kind = .elem .feGaussianBlur) || (decide (x.2 = .nil) &&
    x.1.attrs.all fun y => decide (y.value.target = none) && (decide (y.name = .id .stdDeviation) || decide (y.name = .id .in_) || decide (y.name = .id .result))))

theorem goodBlur_of {f : Forest} (h : goodBlurB f = true) : GoodBlur f := by
  simp only [goodBlurB, Bool.and_eq_true, decide_eq_true_eq] at h
  obtain ⟨⟨⟨⟨⟨h1, h2⟩, h3⟩, h4⟩, h5⟩, h6⟩ := h
  have h4' : ∀ n ∈ f.nodes, n.kind = .elem .filter → _ := fun n hn hk => by
    have := List.all_eq_true.1 h4 n hn
    simp only [hk, if_true, Bool.and_eq_true, decide_eq_true_eq, List.all_eq_true, Bool.or_eq_true] at this
    exact this
  have h6' : ∀ n ∈ f.nodes, n.kind = .elem .feGaussianBlur →
      (n.attrs.all fun y => decide (y.value.target = none) && (decide (y.name = .id .stdDeviation) || decide (y.name = .id .in_) || decide (y.name = .id .result))) = true := fun n hn hk => by
    obtain ⟨c, hc⟩ := UnusedDefs.mem_subs_of_node hn
    have := List.all_eq_true.1 h6 _ hc
    simp only [hk, decide_true, Bool.not_true, Bool.false_or, Bool.and_eq_true] at this
    exact this.2
  refine ⟨h1, h2, ?_, fun n hn hk => (h4' n hn hk).1.1, ?_, fun n hn hk x hx => ?_, ?_, ?_, ?_, ?_, ?_⟩
  · intro n hn x hx ht
    have := List.all_eq_true.1 (List.all_eq_true.1 h3 n hn) x hx
    obtain ⟨nm, v, vis⟩ := x
    dsimp only at this ht ⊢
    split at this
    · exact ⟨this, .inl ⟨rfl, _, rfl⟩⟩
    · simp only [Bool.and_eq_true, decide_eq_true_eq] at this
      exact ⟨this.1, .inr ⟨_, this.2, rfl, _, rfl⟩⟩
    · exact absurd (of_decide_eq_true this) ht
  · intro n hn hk x hx e
    have := (h4' n hn hk).1.2 x hx
    simpa [e] using this
  · have := (h4' n hn hk).2 x hx
    exact ⟨this.1, fun ht => this.2.resolve_left ht⟩
  · intro x hx hk
    have := List.all_eq_true.1 h5 x hx
    simpa [hk] using this
  · intro n hn hk
    have := List.all_eq_true.1 h4 n hn
    simpa [hk] using this
  · intro n hn hk a v hv
    unfold Node.get at hv
    obtain ⟨y, hy, rfl⟩ := Option.map_eq_some_iff.1 hv
    have := List.all_eq_true.1 (h6' n hn hk) y (List.mem_of_find?_eq_some hy)
    have h2 : y.name = .id a := by simpa using List.find?_some hy
    simp only [h2, Bool.and_eq_true, Bool.or_eq_true, decide_eq_true_eq, AName.id.injEq] at this
    tauto
  · intro n hn hk v hv
    unfold Node.get at hv
    obtain ⟨y, hy, rfl⟩ := Option.map_eq_some_iff.1 hv
    have := List.all_eq_true.1 (h6' n hn hk) y (List.mem_of_find?_eq_some hy)
    simp only [Bool.and_eq_true, decide_eq_true_eq] at this
    exact this.1
  · intro x hx hk
    have := List.all_eq_true.1 h6 x hx
    simp only [hk, decide_true, Bool.not_true, Bool.false_or, Bool.and_eq_true, decide_eq_true_eq] at this
    exact this.1

def filt (k : Nat) (i : String) (as : List (AId × Value)) : Node := ⟨k, .elem .filter, i, as.map fun x => ⟨.id x.1, x.2, true⟩⟩
def gauss (k : Nat) (as : List (AId × Value)) : Forest := .cons (elem k .feGaussianBlur as) .nil .nil

/-- Two equal filters, one that is different, and shapes. -/
def filters : Forest :=
  .cons (elem 0 .svg [])
    (.cons (filt 1 "a" [(.x, px 1)]) (gauss 10 [(.stdDeviation, .number 2)])
    (.cons (filt 2 "b" [(.x, px 2)]) (gauss 11 [(.stdDeviation, .number 2)])
    (.cons (filt 3 "c" [(.x, px 1)]) (gauss 12 [(.stdDeviation, .number 2)])
    (.cons (elem 4 .rect [(.filter, .funcLink 2)]) .nil
    (.cons (elem 5 .rect [(.filter, .funcLink 3)]) .nil .nil)))))
  .nil

example : GoodBlur filters := goodBlur_of (by decide +kernel)
example : rmBlurs filters = some (.cons (elem 0 .svg [])
    (.cons (filt 1 "a" [(.x, px 1)]) (gauss 10 [(.stdDeviation, .number 2)])
    (.cons (filt 2 "b" [(.x, px 2)]) (gauss 11 [(.stdDeviation, .number 2)])
    (.cons (elem 4 .rect [(.filter, .funcLink 2)]) .nil
    (.cons (elem 5 .rect [(.filter, .funcLink 1)]) .nil .nil))))
  .nil) := by decide +kernel

/-- Two filters whose blurs have different regions. -/
def regions : Forest :=
  .cons (elem 0 .svg [])
    (.cons (filt 1 "a" []) (gauss 10 [(.stdDeviation, .number 2)])
    (.cons (filt 2 "b" []) (gauss 11 [(.stdDeviation, .number 2), (.x, px 9)])
    (.cons (elem 5 .rect [(.filter, .funcLink 2)]) .nil .nil)))
  .nil
def regionsAfter : Forest :=
  .cons (elem 0 .svg [])
    (.cons (filt 1 "a" []) (gauss 10 [(.stdDeviation, .number 2)])
    (.cons (elem 5 .rect [(.filter, .funcLink 1)]) .nil .nil))
  .nil

/-- **Finding.** Filters are taken for equal although their blurs have different regions. -/
theorem C32_refuted_region : Base regions ∧ rmBlurs regions = some regionsAfter ∧ ¬ ∃ ρ, DedupedBlur regions regionsAfter ρ := by
  refine ⟨base_of (rank := id) (by decide +kernel), by decide +kernel, ?_⟩
  rintro ⟨ρ, h⟩
  have hr := h.others (elem 5 .rect [(.filter, .funcLink 2)]) (by decide +kernel) (by decide +kernel) (by
    rintro ⟨x, hx, hg, hn⟩
    revert x
    decide +kernel)
  have hk : ρ 2 = 1 := by
    have e := Forest.eq_of_key h.unique hr (n := elem 5 .rect [(.filter, .funcLink 1)]) (by decide +kernel) rfl
    simpa [rename, elem, renameValue] using e
  obtain ⟨m, hm, e, hs⟩ := h.filters (filt 2 "b" []) (by decide +kernel) (by decide +kernel)
  obtain ⟨c, d, h1, h2, h3⟩ := hs.kids
  rw [e, show (filt 2 "b" []).key = 2 from rfl, hk] at h2
  have h2' : regionsAfter.kidsOf 1 = some (gauss 10 [(.stdDeviation, .number 2)]) := by decide +kernel
  rw [h2'] at h2
  cases h2
  have h1' : regions.kidsOf 2 = some (gauss 11 [(.stdDeviation, .number 2), (.x, px 9)]) := by decide +kernel
  rw [show (filt 2 "b" []).key = 2 from rfl, h1'] at h1
  cases h1
  have := h3.2.1 .x
  simp [Node.get, getAttr, elem] at this

/-- Two filters without an attribute, in places with different values of an inherited attribute. -/
def spaces : Forest :=
  .cons (elem 0 .svg [])
    (.cons (elem 6 .defs [(.colorInterpolationFilters, .kw (.other "sRGB"))]) (.cons (filt 1 "a" []) (gauss 10 [(.stdDeviation, .number 2)]) .nil)
    (.cons (filt 2 "b" []) (gauss 11 [(.stdDeviation, .number 2)])
    (.cons (elem 5 .rect [(.filter, .funcLink 2)]) .nil .nil)))
  .nil
def spacesAfter : Forest :=
  .cons (elem 0 .svg [])
    (.cons (elem 6 .defs [(.colorInterpolationFilters, .kw (.other "sRGB"))]) (.cons (filt 1 "a" []) (gauss 10 [(.stdDeviation, .number 2)]) .nil)
    (.cons (elem 5 .rect [(.filter, .funcLink 1)]) .nil .nil))
  .nil

/-- **Finding.** Filters are taken for equal although their ancestors give them different colour spaces. -/
theorem C32_refuted_space : Base spaces ∧ rmBlurs spaces = some spacesAfter ∧ ¬ ∃ ρ, DedupedBlur spaces spacesAfter ρ := by
  refine ⟨base_of (rank := id) (by decide +kernel), by decide +kernel, ?_⟩
  rintro ⟨ρ, h⟩
  have hr := h.others (elem 5 .rect [(.filter, .funcLink 2)]) (by decide +kernel) (by decide +kernel) (by
    rintro ⟨x, hx, hg, hn⟩
    revert x
    decide +kernel)
  have hk : ρ 2 = 1 := by
    have e := Forest.eq_of_key h.unique hr (n := elem 5 .rect [(.filter, .funcLink 1)]) (by decide +kernel) rfl
    simpa [rename, elem, renameValue] using e
  obtain ⟨m, hm, e, hs⟩ := h.filters (filt 2 "b" []) (by decide +kernel) (by decide +kernel)
  have := hs.space
  rw [e, show (filt 2 "b" []).key = 2 from rfl, hk] at this
  revert this
  decide +kernel

/-- The property does not hold as it is stated. -/
theorem C32_refuted : ¬ C32_full := by
  intro h
  obtain ⟨⟨g, ρ, h1, h2⟩, _⟩ := h refers C32_refuted_referrer.1
  rw [C32_refuted_referrer.2.1] at h1
  cases h1
  exact C32_refuted_referrer.2.2 ⟨ρ, h2⟩

end Verif.Dupl
