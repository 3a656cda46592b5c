import Verif.GradPaint
/-
Evaluation of the specification of gradients, for the examples.
-/
namespace Verif.Spec
open Verif.Dom

/-- `Effective` by evaluation. -/
def evalAttr : Nat → Forest → AId → Node → Option (Option Value)
  | 0, _, _, _ => none
  | fuel + 1, f, a, n => match written n a with
    | some v => some (some v)
    | none => match written n .xlinkHref with
      | none => some none
      | some (.link k) => (f.find k).bind (evalAttr fuel f a)
      | some _ => none

theorem effective_of_eval {fuel : Nat} {f : Forest} {a : AId} {n : Node} {v : Option Value} (h : evalAttr fuel f a n = some v) : Effective f a n v := by
  induction fuel generalizing n with
  | zero => cases h
  | succ fuel ih =>
    rw [evalAttr] at h
    cases hw : written n a with
    | some w => rw [hw] at h; cases h; exact .own hw
    | none =>
      simp only [hw] at h
      cases hh : written n .xlinkHref with
      | none => simp only [hh] at h; cases h; exact .stop hw hh
      | some x =>
        simp only [hh] at h
        cases x <;> try (cases h; done)
        case link k =>
          obtain ⟨m, hm, h⟩ := Option.bind_eq_some_iff.1 h
          exact .ref hw hh hm (ih h)

/-- `GStops` by evaluation. -/
def evalStops : Nat → Forest → Node → Option (List Node)
  | 0, _, _ => none
  | fuel + 1, f, n => match f.kidsOf n.key with
    | none => none
    | some c => if stopKids c ≠ [] then some (stopKids c) else match written n .xlinkHref with
      | none => some []
      | some (.link k) => (f.find k).bind (evalStops fuel f)
      | some _ => none

theorem gstops_of_eval {fuel : Nat} {f : Forest} {n : Node} {l : List Node} (h : evalStops fuel f n = some l) : GStops f n l := by
  induction fuel generalizing n with
  | zero => cases h
  | succ fuel ih =>
    rw [evalStops] at h
    cases hc : f.kidsOf n.key with
    | none => simp only [hc] at h; cases h
    | some c =>
      simp only [hc] at h
      by_cases hs : stopKids c = []
      · rw [if_neg (by simpa using hs)] at h
        cases hh : written n .xlinkHref with
        | none => simp only [hh] at h; cases h; exact .none hc hs hh
        | some x =>
          simp only [hh] at h
          cases x <;> try (cases h; done)
          case link k =>
            obtain ⟨m, hm, h⟩ := Option.bind_eq_some_iff.1 h
            exact .ref hc hs hh hm (ih h)
      · rw [if_pos hs] at h
        cases h
        exact .own hc hs

/-- `HrefRanked` by evaluation. -/
def rankedB (f : Forest) (rank : Nat → Nat) : Bool :=
  f.nodes.all fun n => !n.isGradient || match written n .xlinkHref with
    | none => true
    | some (.link k) => match f.find k with
      | some m => m.isGradient && decide (rank m.key < rank n.key)
      | none => false
    | some _ => false

theorem ranked_of {f : Forest} {rank : Nat → Nat} (h : rankedB f rank = true) : HrefRanked f rank := by
  intro n hn hg v hv
  have := List.all_eq_true.1 h n hn
  simp only [hg, hv, Bool.not_true, Bool.false_or] at this
  cases v <;> try (cases this; done)
  case link k =>
    simp only at this
    split at this
    next m hm =>
      obtain ⟨h1, h2⟩ := Forest.find_some hm
      simp only [Bool.and_eq_true, decide_eq_true_eq] at this
      exact ⟨m, h1, by rw [h2], this.1, this.2⟩
    · cases this

/-- Two gradients with different values of an attribute are not the same paint. -/
theorem not_paint_of_value {f g : Forest} {n m : Node} {a : AId} (ha : a ∈ gradientAttrs n.kind) (hne : a ≠ .gradientTransform)
    (hc : centreOf a = none) {v : Value} (h1 : Effective f a n (some v)) {w : Option Value} (h2 : Effective g a m w)
    (hd : w ≠ some v) (hd' : w = none → gradientDefault m.kind a ≠ some v) : ¬ PaintSame f n g m := by
  intro h
  have := (h.values a ha hne v).1 (.inl (.inl h1))
  rcases this with this | ⟨_, c, e, _⟩
  · rcases this with this | ⟨h3, h4⟩
    · exact hd (h2.unique this)
    · exact hd' (h2.unique h3) h4
  · rw [hc] at e; cases e

/-- Nor are gradients with different numbers of stops. -/
theorem not_paint_of_stops {f g : Forest} {n m : Node} {l l' : List Node} (h1 : GStops f n l) (h2 : GStops g m l') (hd : l.length ≠ l'.length) :
    ¬ PaintSame f n g m := by
  intro h
  obtain ⟨k, k', a, b, c⟩ := h.stops
  cases h1.unique a
  cases h2.unique b
  exact hd c.length_eq

end Verif.Spec
