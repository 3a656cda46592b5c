import Verif.RegroupResolve
import Verif.MergeCases
/-
Property C40: a document that meets the conditions, and documents that lose paints because they do not.
-/
namespace Verif.Regroup
open Verif.Dom Verif.Spec
open Verif.ApplyTs (elem px)
open Verif.Merge (stop grad)

/-- What the passes before this one ensure. -/
structure Base (f : Forest) : Prop where
  unique : f.UniqueKeys
  links : f.LinksOk
  href : HrefOk f
  shown : ∀ n ∈ f.nodes, n.isGradient = true → written n .xlinkHref = n.get .xlinkHref

/-- **C40** as it is stated. -/
def C40_full : Prop := ∀ f, Base f → ∃ g, regroup f = some g ∧ Regrouped f g

/-! ### The conditions can be checked -/

def baseB (f : Forest) (rank : Nat → Nat) : Bool :=
  decide f.UniqueKeys && decide f.LinksOk && rankedB f rank && f.nodes.all fun n => !n.isGradient || decide (written n .xlinkHref = n.get .xlinkHref)

theorem base_of {f : Forest} {rank : Nat → Nat} (h : baseB f rank = true) : Base f := by
  simp only [baseB, Bool.and_eq_true, decide_eq_true_eq] at h
  refine ⟨h.1.1.1, h.1.1.2, ⟨rank, ranked_of h.1.2⟩, fun n hn hg => ?_⟩
  have := List.all_eq_true.1 h.2 n hn
  simpa [hg] using this

def goodB (f : Forest) (rank : Nat → Nat) : Bool :=
  baseB f rank && (f.nodes.all fun n => !n.isGradient || n.links.all fun k => decide (written n .xlinkHref = some (.link k))) &&
  ((subs f).all fun x => !x.1.isGradient || (x.2.top.all (fun d => decide (d.kind = .elem .stop)) && x.2.nodes.all fun d => !d.isGradient && !f.isUsed d.key)) &&
  f.nodes.all fun n => !decide (n.kind = .elem .stop) || decide (n.get .stopColor ≠ some (.kw .currentColor))

theorem good_of {f : Forest} {rank : Nat → Nat} (h : goodB f rank = true) : Good f := by
  simp only [goodB, Bool.and_eq_true] at h
  obtain ⟨⟨⟨h1, h2⟩, h3⟩, h4⟩ := h
  have hb := base_of h1
  refine ⟨hb.unique, hb.links, hb.href, hb.shown, ?_, ?_, ?_⟩
  · intro n hn hg k hk
    have := List.all_eq_true.1 h2 n hn
    simp only [hg, Bool.not_true, Bool.false_or] at this
    simpa using List.all_eq_true.1 this k hk
  · intro x hx hg
    have := List.all_eq_true.1 h3 x hx
    simp only [hg, Bool.not_true, Bool.false_or, Bool.and_eq_true, List.all_eq_true, decide_eq_true_eq, Bool.not_eq_true'] at this
    exact this
  · intro n hn hk
    have := List.all_eq_true.1 h4 n hn
    simpa [hk] using this

/-! ### An example -/

/-- The resolved attributes of a linear gradient. -/
def deflt : List (AId × Value) :=
  [(.gradientUnits, .kw .objectBoundingBox), (.spreadMethod, .kw .pad), (.y1, .length ⟨0, .percent⟩), (.x2, .length ⟨100, .percent⟩), (.y2, .length ⟨0, .percent⟩)]

/-- Three gradients with the same stops and one with others. -/
def four : Forest :=
  .cons (elem 0 .svg [])
    (.cons ⟨1, .elem .linearGradient, "lg1", (grad 1 .linearGradient [(.x1, px 1)] deflt).attrs⟩ (stop 10 1 (stop 11 2 .nil))
    (.cons ⟨2, .elem .radialGradient, "b", [⟨.id .cx, px 4, true⟩]⟩ (stop 12 1 (stop 13 2 .nil))
    (.cons ⟨3, .elem .linearGradient, "c", (grad 3 .linearGradient [(.x1, px 3)] deflt).attrs⟩ (stop 14 5 .nil)
    (.cons ⟨4, .elem .linearGradient, "d", (grad 4 .linearGradient [(.x1, px 4)] deflt).attrs⟩ (stop 15 1 (stop 16 2 .nil))
    (.cons (elem 5 .rect [(.fill, .funcLink 4), (.stroke, .funcLink 2)]) .nil .nil)))))
  .nil

/-- The new gradient has the key 17 and takes the id `lg2`. -/
def fourAfter : Forest :=
  .cons (elem 0 .svg [])
    (.cons ⟨17, .elem .linearGradient, "lg2", (grad 17 .linearGradient [] [(.gradientUnits, .kw .objectBoundingBox), (.spreadMethod, .kw .pad), (.x1, .length ⟨0, .percent⟩),
      (.y1, .length ⟨0, .percent⟩), (.x2, .length ⟨100, .percent⟩), (.y2, .length ⟨0, .percent⟩)]).attrs⟩ (stop 10 1 (stop 11 2 .nil))
    (.cons ⟨1, .elem .linearGradient, "lg1", (grad 1 .linearGradient [(.x1, px 1)] deflt).attrs ++ [⟨.id .xlinkHref, .link 17, true⟩]⟩ .nil
    (.cons ⟨2, .elem .radialGradient, "b", [⟨.id .cx, px 4, true⟩, ⟨.id .xlinkHref, .link 17, true⟩]⟩ .nil
    (.cons ⟨3, .elem .linearGradient, "c", (grad 3 .linearGradient [(.x1, px 3)] deflt).attrs⟩ (stop 14 5 .nil)
    (.cons ⟨4, .elem .linearGradient, "d", (grad 4 .linearGradient [(.x1, px 4)] deflt).attrs ++ [⟨.id .xlinkHref, .link 17, true⟩]⟩ .nil
    (.cons (elem 5 .rect [(.fill, .funcLink 4), (.stroke, .funcLink 2)]) .nil .nil))))))
  .nil

example : Good four := good_of (rank := id) (by decide +kernel)
example : regroup four = some fourAfter := by decide +kernel

/-! ### Documents that lose paints -/

theorem not_regrouped {f g : Forest} {n m : Node} (hg : g.UniqueKeys) (h0 : n ∈ f.nodes) (hm : m ∈ g.nodes) (hn : n.isGradient = true) (hk : m.key = n.key)
    (hp : ¬ PaintSame f n g m) : ¬ Regrouped f g := by
  intro h
  obtain ⟨y, hy, e, _, h'⟩ := h.paint n h0 hn
  have := Forest.eq_of_key hg hy hm (e.trans hk.symm)
  subst this
  exact hp h'

def currentStop (k : Nat) : Forest := .cons (elem k .stop [(.offset, .number 0), (.stopColor, .kw .currentColor)]) .nil .nil

/-- Two gradients whose stops have the current colour, in different places. -/
def current : Forest :=
  .cons (elem 0 .svg [])
    (.cons (elem 6 .defs [(.color, .color 255 0 0)]) (.cons (grad 1 .linearGradient [] deflt) (currentStop 10) .nil)
    (.cons (elem 7 .defs [(.color, .color 0 0 255)]) (.cons (grad 2 .linearGradient [] deflt) (currentStop 11) .nil)
    (.cons (elem 4 .rect [(.fill, .funcLink 2)]) .nil .nil)))
  .nil

def currentAfter : Forest :=
  .cons (elem 0 .svg [])
    (.cons (elem 6 .defs [(.color, .color 255 0 0)])
      (.cons ⟨12, .elem .linearGradient, "lg1", (grad 17 .linearGradient [] [(.gradientUnits, .kw .objectBoundingBox), (.spreadMethod, .kw .pad), (.x1, .length ⟨0, .percent⟩),
          (.y1, .length ⟨0, .percent⟩), (.x2, .length ⟨100, .percent⟩), (.y2, .length ⟨0, .percent⟩)]).attrs⟩ (currentStop 10)
      (.cons ⟨1, .elem .linearGradient, "", (grad 1 .linearGradient [] deflt).attrs ++ [⟨.id .xlinkHref, .link 12, true⟩, ⟨.id .x1, .length ⟨0, .percent⟩, false⟩]⟩ .nil .nil))
    (.cons (elem 7 .defs [(.color, .color 0 0 255)])
      (.cons ⟨2, .elem .linearGradient, "", (grad 2 .linearGradient [] deflt).attrs ++ [⟨.id .xlinkHref, .link 12, true⟩, ⟨.id .x1, .length ⟨0, .percent⟩, false⟩]⟩ .nil .nil)
    (.cons (elem 4 .rect [(.fill, .funcLink 2)]) .nil .nil)))
  .nil

/-- **Finding.** Stops of the current colour change it. -/
theorem C40_refuted_current : Base current ∧ regroup current = some currentAfter ∧ ¬ Regrouped current currentAfter := by
  refine ⟨base_of (rank := id) (by decide +kernel), by decide +kernel, ?_⟩
  refine not_regrouped (n := grad 2 .linearGradient [] deflt)
    (m := ⟨2, .elem .linearGradient, "", (grad 2 .linearGradient [] deflt).attrs ++ [⟨.id .xlinkHref, .link 12, true⟩, ⟨.id .x1, .length ⟨0, .percent⟩, false⟩]⟩)
    (by decide +kernel) (by decide +kernel) (by decide +kernel) (by decide) rfl fun h => ?_
  obtain ⟨l, l', a, b, c⟩ := h.stops
  cases a.unique (gstops_of_eval (fuel := 9) (l := [elem 11 .stop [(.offset, .number 0), (.stopColor, .kw .currentColor)]]) (by decide +kernel))
  cases b.unique (gstops_of_eval (fuel := 9) (l := [elem 10 .stop [(.offset, .number 0), (.stopColor, .kw .currentColor)]]) (by decide +kernel))
  cases c with
  | cons x _ =>
    have := x.current (by decide +kernel)
    revert this
    decide +kernel

/-- A gradient with a stop, and one without stops whose child has attributes of a stop. -/
def described : Forest :=
  .cons (elem 0 .svg [])
    (.cons (grad 1 .linearGradient [(.x1, px 1)] deflt) (stop 10 1 .nil)
    (.cons (grad 2 .linearGradient [(.x1, px 1)] deflt) (.cons (elem 11 .desc [(.offset, .number 0), (.stopColor, .color 1 0 0)]) .nil .nil)
    (.cons (elem 4 .rect [(.fill, .funcLink 2)]) .nil .nil)))
  .nil

def describedNode : Node := ⟨2, .elem .linearGradient, "", (grad 2 .linearGradient [(.x1, px 1)] deflt).attrs ++ [⟨.id .xlinkHref, .link 12, true⟩]⟩

def describedAfter : Forest :=
  .cons (elem 0 .svg [])
    (.cons ⟨12, .elem .linearGradient, "lg1", (grad 17 .linearGradient [] [(.gradientUnits, .kw .objectBoundingBox), (.spreadMethod, .kw .pad), (.x1, .length ⟨0, .percent⟩),
          (.y1, .length ⟨0, .percent⟩), (.x2, .length ⟨100, .percent⟩), (.y2, .length ⟨0, .percent⟩)]).attrs⟩ (stop 10 1 .nil)
    (.cons ⟨1, .elem .linearGradient, "", (grad 1 .linearGradient [(.x1, px 1)] deflt).attrs ++ [⟨.id .xlinkHref, .link 12, true⟩]⟩ .nil
    (.cons describedNode .nil
    (.cons (elem 4 .rect [(.fill, .funcLink 2)]) .nil .nil))))
  .nil

/-- **Finding.** Children that are no stops are taken for stops. -/
theorem C40_refuted_desc : Base described ∧ regroup described = some describedAfter ∧ ¬ Regrouped described describedAfter := by
  refine ⟨base_of (rank := id) (by decide +kernel), by decide +kernel, ?_⟩
  refine not_regrouped (n := grad 2 .linearGradient [(.x1, px 1)] deflt) (m := describedNode)
    (by decide +kernel) (by decide +kernel) (by decide +kernel) (by decide) rfl ?_
  exact not_paint_of_stops (gstops_of_eval (fuel := 9) (l := []) (by decide +kernel))
    (gstops_of_eval (fuel := 9) (l := [elem 10 .stop [(.offset, .number 0), (.stopColor, .color 1 0 0)]]) (by decide +kernel)) (by decide)

/-- The property does not hold as it is stated. -/
theorem C40_refuted : ¬ C40_full := by
  intro h
  obtain ⟨g, h1, h2⟩ := h current C40_refuted_current.1
  rw [C40_refuted_current.2.1] at h1
  cases h1
  exact C40_refuted_current.2.2 h2

end Verif.Regroup
