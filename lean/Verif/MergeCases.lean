import Verif.MergeWhole
import Verif.GradCheck
/-
Property C33, last part: a document that meets the conditions, and documents that lose paints because they do not.
-/
namespace Verif.Merge
open Verif.Dom Verif.Spec
open Verif.ApplyTs (elem px)

/-! ### The conditions can be checked -/

/-- What the passes before this one ensure. -/
structure Base (f : Forest) : Prop where
  unique : f.UniqueKeys
  links : f.LinksOk
  shown : ∀ n ∈ f.nodes, n.isGradient = true → written n .xlinkHref = n.get .xlinkHref
  resolved : ∀ n ∈ f.nodes, n.isGradient = true → ∀ a ∈ gradientAttrs n.kind, ∀ v, Effective f a n (some v) → n.get a = some v

/-- **C33** as it is stated. -/
def C33_full : Prop := ∀ f, Base f → ∃ g, mergeGradients f = some g ∧ Merged f g

def baseB (f : Forest) : Bool :=
  decide f.UniqueKeys && decide f.LinksOk && f.nodes.all fun n => !n.isGradient ||
    (decide (written n .xlinkHref = n.get .xlinkHref) &&
    (gradientAttrs n.kind).all fun a => match evalAttr 9 f a n with
      | some (some v) => decide (n.get a = some v)
      | some none => true
      | none => false)

theorem base_of {f : Forest} (h : baseB f = true) : Base f := by
  simp only [baseB, Bool.and_eq_true, decide_eq_true_eq] at h
  refine ⟨h.1.1, h.1.2, fun n hn hg => ?_, fun n hn hg a ha v hv => ?_⟩
  · have := List.all_eq_true.1 h.2 n hn
    simp only [hg, Bool.not_true, Bool.false_or, Bool.and_eq_true, decide_eq_true_eq] at this
    exact this.1
  · have := List.all_eq_true.1 h.2 n hn
    simp only [hg, Bool.not_true, Bool.false_or, Bool.and_eq_true, decide_eq_true_eq] at this
    have := List.all_eq_true.1 this.2 a ha
    cases he : evalAttr 9 f a n with
    | none => simp only [he] at this; cases this
    | some w =>
      have e := (effective_of_eval he).unique hv
      subst e
      simpa [he] using this

def goodB (f : Forest) (rank : Nat → Nat) : Bool :=
  baseB f && rankedB f rank &&
  (f.nodes.all fun p => !p.isGradient || f.nodes.all fun n => !decide (written p .xlinkHref = some (.link n.key)) ||
    f.nodes.all fun m => !decide (written n .xlinkHref = some (.link m.key)) ||
      (gradientAttrs p.kind).all fun a => decide (a ∈ gradientAttrs n.kind) || decide (evalAttr 9 f a m = some none)) &&
  ((subs f).all fun x => !x.1.isGradient || (x.2.top.all (fun d => decide (d.kind = .elem .stop)) && x.2.nodes.all fun d => !d.isGradient && !f.isUsed d.key)) &&
  f.nodes.all fun n => !decide (n.kind = .elem .stop) || decide (n.get .stopColor ≠ some (.kw .currentColor))

theorem good_of {f : Forest} {rank : Nat → Nat} (h : goodB f rank = true) : Good f := by
  simp only [goodB, Bool.and_eq_true] at h
  obtain ⟨⟨⟨⟨h1, h2⟩, h3⟩, h4⟩, h5⟩ := h
  have hb := base_of h1
  refine ⟨hb.unique, hb.links, ⟨rank, ranked_of h2⟩, hb.shown, hb.resolved, ?_, ?_, ?_⟩
  · intro p hp hpg n hn hpn m hm hnm a ha
    have := List.all_eq_true.1 h3 p hp
    simp only [hpg, Bool.not_true, Bool.false_or] at this
    have := List.all_eq_true.1 this n hn
    simp only [hpn, decide_true, Bool.not_true, Bool.false_or] at this
    have := List.all_eq_true.1 this m hm
    simp only [hnm, decide_true, Bool.not_true, Bool.false_or] at this
    have := List.all_eq_true.1 this a ha
    simp only [Bool.or_eq_true, decide_eq_true_eq] at this
    exact this.imp id effective_of_eval
  · intro x hx hg
    have := List.all_eq_true.1 h4 x hx
    simp only [hg, Bool.not_true, Bool.false_or, Bool.and_eq_true, List.all_eq_true, decide_eq_true_eq, Bool.not_eq_true'] at this
    exact this
  · intro n hn hk
    have := List.all_eq_true.1 h5 n hn
    simpa [hk] using this

/-! ### An example -/

def stop (k : Nat) (c : Nat) (r : Forest) : Forest := .cons (elem k .stop [(.offset, .number 0), (.stopColor, .color c 0 0)]) .nil r

/-- A gradient, with visible and hidden attributes. -/
def grad (k : Nat) (e : EId) (as hs : List (AId × Value)) : Node :=
  ⟨k, .elem e, "", as.map (fun x => ⟨.id x.1, x.2, true⟩) ++ hs.map fun x => ⟨.id x.1, x.2, false⟩⟩

/-- A chain of three gradients; the last one has the stops and a coordinate. -/
def chain : Forest :=
  .cons (elem 0 .svg [])
    (.cons (grad 1 .linearGradient [(.x1, px 1), (.spreadMethod, .kw (.other "pad"))] []) (stop 10 1 (stop 11 2 .nil))
    (.cons (grad 2 .linearGradient [(.xlinkHref, .link 1), (.y1, px 2)] [(.x1, px 1), (.spreadMethod, .kw (.other "pad"))]) .nil
    (.cons (grad 3 .radialGradient [(.xlinkHref, .link 2), (.cx, px 2)] [(.spreadMethod, .kw (.other "pad"))]) .nil
    (.cons (elem 4 .rect [(.fill, .funcLink 3)]) .nil .nil))))
  .nil

/-- The example after the pass. -/
def chainAfter : Forest :=
  .cons (elem 0 .svg [])
    (.cons (grad 3 .radialGradient [(.cx, px 2), (.spreadMethod, .kw (.other "pad"))] []) (stop 10 1 (stop 11 2 .nil))
    (.cons (elem 4 .rect [(.fill, .funcLink 3)]) .nil .nil))
  .nil

example : Good chain := good_of (rank := id) (by decide +kernel)
example : mergeGradients chain = some chainAfter := by decide +kernel

/-! ### Documents that lose paints -/

theorem not_merged {f g : Forest} {n0 n : Node} (hf : f.UniqueKeys) (h0 : n0 ∈ f.nodes) (hn : n ∈ g.nodes) (hg : n.isGradient = true) (hk : n0.key = n.key)
    (hp : ¬ PaintSame f n0 g n) : ¬ Merged f g := by
  intro h
  obtain ⟨m, hm, e, _, h'⟩ := h.paint n hn hg
  have := Forest.eq_of_key hf hm h0 (e.trans hk.symm)
  subst this
  exact hp h'

/-- A radial gradient that takes its centre from another one through a linear one. -/
def mixed : Forest :=
  .cons (elem 0 .svg [])
    (.cons (grad 1 .radialGradient [(.cx, px 7)] [(.fx, px 7)]) (stop 10 1 .nil)
    (.cons (grad 2 .linearGradient [(.xlinkHref, .link 1)] []) .nil
    (.cons (grad 3 .radialGradient [(.xlinkHref, .link 2)] [(.cx, px 7), (.fx, px 7)]) .nil .nil)))
  .nil

def mixedAfter : Forest :=
  .cons (elem 0 .svg []) (.cons (grad 3 .radialGradient [] [(.cx, px 7), (.fx, px 7)]) (stop 10 1 .nil) .nil) .nil

/-- **Finding.** In a chain radial → linear → radial the first gradient loses the attributes of the last one. -/
theorem C33_refuted_mixed : Base mixed ∧ HrefOk mixed ∧ mergeGradients mixed = some mixedAfter ∧ ¬ Merged mixed mixedAfter := by
  refine ⟨base_of (by decide +kernel), ⟨id, ranked_of (by decide +kernel)⟩, by decide +kernel, ?_⟩
  refine not_merged (n0 := grad 3 .radialGradient [(.xlinkHref, .link 2)] [(.cx, px 7), (.fx, px 7)])
    (n := grad 3 .radialGradient [] [(.cx, px 7), (.fx, px 7)]) (by decide +kernel) (by decide +kernel) (by decide +kernel) (by decide) rfl ?_
  exact not_paint_of_value (a := .cx) (v := px 7) (w := none) (by decide) (by decide) rfl (effective_of_eval (fuel := 9) (by decide +kernel))
    (effective_of_eval (fuel := 9) (by decide +kernel)) (by decide) (fun _ => by decide +kernel)

/-- A gradient without stops, but with a description. -/
def described : Forest :=
  .cons (elem 0 .svg [])
    (.cons (grad 1 .linearGradient [] []) (stop 10 1 .nil)
    (.cons (grad 2 .linearGradient [(.xlinkHref, .link 1)] []) (.cons (elem 5 .desc []) .nil .nil)
    (.cons (elem 4 .rect [(.fill, .funcLink 2)]) .nil .nil)))
  .nil

def describedAfter : Forest :=
  .cons (elem 0 .svg [])
    (.cons (grad 2 .linearGradient [] []) (.cons (elem 5 .desc []) .nil .nil)
    (.cons (elem 4 .rect [(.fill, .funcLink 2)]) .nil .nil))
  .nil

/-- **Finding.** A gradient with any child, be it a `desc` element, does not get the stops of the gradient it refers to. -/
theorem C33_refuted_desc : Base described ∧ HrefOk described ∧ mergeGradients described = some describedAfter ∧ ¬ Merged described describedAfter := by
  refine ⟨base_of (by decide +kernel), ⟨id, ranked_of (by decide +kernel)⟩, by decide +kernel, ?_⟩
  refine not_merged (n0 := grad 2 .linearGradient [(.xlinkHref, .link 1)] []) (n := grad 2 .linearGradient [] [])
    (by decide +kernel) (by decide +kernel) (by decide +kernel) (by decide) rfl ?_
  exact not_paint_of_stops (gstops_of_eval (fuel := 9) (l := [elem 10 .stop [(.offset, .number 0), (.stopColor, .color 1 0 0)]]) (by decide +kernel))
    (gstops_of_eval (fuel := 9) (l := []) (by decide +kernel)) (by decide)

/-- A gradient that refers to a shape. -/
def strange : Forest :=
  .cons (elem 0 .svg [])
    (.cons (grad 1 .linearGradient [(.xlinkHref, .link 4)] []) (stop 10 1 .nil)
    (.cons (elem 4 .rect [(.width, px 5), (.height, px 5)]) .nil .nil))
  .nil

def strangeAfter : Forest := .cons (elem 0 .svg []) (.cons (grad 1 .linearGradient [] []) (stop 10 1 .nil) .nil) .nil

/-- **Finding.** A shape that a gradient refers to is removed. -/
theorem C33_refuted_shape : Base strange ∧ mergeGradients strange = some strangeAfter ∧ ¬ Merged strange strangeAfter := by
  refine ⟨base_of (by decide +kernel), by decide +kernel, fun h => ?_⟩
  have := h.drawn
  revert this
  decide +kernel

/-- A gradient with stops of the current colour, in another place than the one that refers to it. -/
def current : Forest :=
  .cons (elem 0 .svg [])
    (.cons (elem 6 .defs [(.color, .color 255 0 0)])
      (.cons (grad 1 .linearGradient [] []) (.cons (elem 10 .stop [(.stopColor, .kw .currentColor)]) .nil .nil) .nil)
    (.cons (grad 2 .linearGradient [(.xlinkHref, .link 1)] []) .nil
    (.cons (elem 4 .rect [(.fill, .funcLink 2)]) .nil .nil)))
  .nil

def currentAfter : Forest :=
  .cons (elem 0 .svg [])
    (.cons (elem 6 .defs [(.color, .color 255 0 0)]) .nil
    (.cons (grad 2 .linearGradient [] []) (.cons (elem 10 .stop [(.stopColor, .kw .currentColor)]) .nil .nil)
    (.cons (elem 4 .rect [(.fill, .funcLink 2)]) .nil .nil)))
  .nil

/-- **Finding.** Stops of the current colour change it. -/
theorem C33_refuted_current : Base current ∧ HrefOk current ∧ mergeGradients current = some currentAfter ∧ ¬ Merged current currentAfter := by
  refine ⟨base_of (by decide +kernel), ⟨id, ranked_of (by decide +kernel)⟩, by decide +kernel, ?_⟩
  refine not_merged (n0 := grad 2 .linearGradient [(.xlinkHref, .link 1)] []) (n := grad 2 .linearGradient [] [])
    (by decide +kernel) (by decide +kernel) (by decide +kernel) (by decide) rfl fun h => ?_
  obtain ⟨l, l', a, b, c⟩ := h.stops
  cases a.unique (gstops_of_eval (fuel := 9) (l := [elem 10 .stop [(.stopColor, .kw .currentColor)]]) (by decide +kernel))
  cases b.unique (gstops_of_eval (fuel := 9) (l := [elem 10 .stop [(.stopColor, .kw .currentColor)]]) (by decide +kernel))
  cases c with
  | cons x _ =>
    have := x.current (by decide +kernel)
    revert this
    decide +kernel

/-- A gradient that refers to the element it is in. -/
def around : Forest :=
  .cons (elem 0 .svg [])
    (.cons (elem 6 .defs []) (.cons (grad 1 .linearGradient [(.xlinkHref, .link 0)] []) .nil .nil)
    (.cons (elem 4 .rect [(.fill, .funcLink 1), (.width, px 5), (.height, px 5)]) .nil .nil))
  .nil

/-- **Finding.** A gradient that refers to the root element takes all the document into itself, which crashes or leaves nothing. -/
theorem C33_refuted_cycle : Base around ∧ mergeGradients around = none :=
  ⟨base_of (by decide +kernel), by decide +kernel⟩

/-- The property does not hold as it is stated. -/
theorem C33_refuted : ¬ C33_full := by
  intro h
  obtain ⟨g, h1, h2⟩ := h mixed C33_refuted_mixed.1
  rw [C33_refuted_mixed.2.2.1] at h1
  cases h1
  exact C33_refuted_mixed.2.2.2 h2

end Verif.Merge
