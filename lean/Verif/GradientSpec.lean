import Verif.DomSpec
/-
Specification of gradient attributes (SVG 1.1, 13.2): attributes that a gradient does not have are taken from the
gradient it refers to.  Written from the standard; nothing here is used by the model of the code.
-/
namespace Verif.Spec
open Verif.Dom Verif.Paths

/-- The value of an attribute in the written file, found along the chain of references; `none` if no gradient of the
chain has it. -/
inductive Effective (f : Forest) (a : AId) : Node → Option Value → Prop
  | own {n v} : written n a = some v → Effective f a n (some v)
  | ref {n k m v} : written n a = none → written n .xlinkHref = some (.link k) → f.find k = some m →
      Effective f a m v → Effective f a n v
  | stop {n} : written n a = none → written n .xlinkHref = none → Effective f a n none

/-- The initial values of gradient attributes (13.2.2 and 13.2.3), but for the focal point. -/
def gradientDefault : Kind → AId → Option Value
  | .elem .linearGradient, .gradientUnits | .elem .radialGradient, .gradientUnits => some (.kw .objectBoundingBox)
  | .elem .linearGradient, .spreadMethod | .elem .radialGradient, .spreadMethod => some (.kw .pad)
  | .elem .linearGradient, .x1 | .elem .linearGradient, .y1 | .elem .linearGradient, .y2 => some (.length ⟨0, .percent⟩)
  | .elem .linearGradient, .x2 => some (.length ⟨100, .percent⟩)
  | .elem .radialGradient, .cx | .elem .radialGradient, .cy | .elem .radialGradient, .r => some (.length ⟨50, .percent⟩)
  | _, _ => none

/-- The centre attribute that a missing focal-point attribute follows. -/
def centreOf : AId → Option AId
  | .fx => some .cx
  | .fy => some .cy
  | _ => none

/-- The value of an attribute found along the chain, else its initial value. -/
def PlainValue (f : Forest) (n : Node) (a : AId) (v : Value) : Prop :=
  Effective f a n (some v) ∨ (Effective f a n none ∧ gradientDefault n.kind a = some v)

/-- The value the standard gives to an attribute of a gradient: found along the chain, else its initial value; for the
focal point of a radial gradient, the centre. -/
def GradientValue (f : Forest) (n : Node) (a : AId) (v : Value) : Prop :=
  PlainValue f n a v ∨
  (n.kind = .elem .radialGradient ∧ ∃ c, centreOf a = some c ∧ Effective f a n none ∧ PlainValue f n c v)

/-- The attributes of linear and of radial gradients. -/
def gradientAttrs : Kind → List AId
  | .elem .linearGradient => [.gradientUnits, .spreadMethod, .x1, .y1, .x2, .y2, .gradientTransform]
  | .elem .radialGradient => [.gradientUnits, .spreadMethod, .cx, .cy, .r, .fx, .fy, .gradientTransform]
  | _ => []

/-- References between gradients are references to gradients and have no cycles. -/
def HrefRanked (f : Forest) (rank : Nat → Nat) : Prop :=
  ∀ n ∈ f.nodes, n.isGradient → ∀ v, written n .xlinkHref = some v →
    ∃ t ∈ f.nodes, v = .link t.key ∧ t.isGradient ∧ rank t.key < rank n.key

def HrefOk (f : Forest) : Prop := ∃ rank, HrefRanked f rank

theorem Effective.unique {f : Forest} {a : AId} {n : Node} {v w : Option Value} (h1 : Effective f a n v)
    (h2 : Effective f a n w) : v = w := by
  induction h1 generalizing w with
  | own h => cases h2 with
    | own h' => rw [h] at h'; exact h'
    | ref h' => rw [h] at h'; cases h'
    | stop h' => rw [h] at h'; cases h'
  | ref h1 h2' h3 _ ih => cases h2 with
    | own h' => rw [h1] at h'; cases h'
    | ref _ g2 g3 g4 =>
      rw [h2'] at g2; cases g2
      rw [h3] at g3; cases g3
      exact ih g4
    | stop _ h' => rw [h2'] at h'; cases h'
  | stop h1 h2' => cases h2 with
    | own h' => rw [h1] at h'; cases h'
    | ref _ g2 => rw [h2'] at g2; cases g2
    | stop => rfl

theorem PlainValue.unique {f : Forest} {a : AId} {n : Node} {v w : Value} (h1 : PlainValue f n a v)
    (h2 : PlainValue f n a w) : v = w := by
  rcases h1 with h1 | ⟨h1, h1'⟩ <;> rcases h2 with h2 | ⟨h2, h2'⟩
  · exact Option.some.inj (h1.unique h2)
  · cases h1.unique h2
  · cases h1.unique h2
  · rw [h1'] at h2'; exact Option.some.inj h2'

theorem gradientDefault_focal {k : Kind} {a c : AId} (h : centreOf a = some c) : gradientDefault k a = none := by
  unfold centreOf at h
  split at h <;> cases h <;> (unfold gradientDefault; split <;> simp_all)

theorem GradientValue.unique {f : Forest} {a : AId} {n : Node} {v w : Value} (h1 : GradientValue f n a v)
    (h2 : GradientValue f n a w) : v = w := by
  have aux : ∀ {v w}, PlainValue f n a v → (∃ c, centreOf a = some c ∧ Effective f a n none ∧ PlainValue f n c w) → False := by
    rintro v w (h | ⟨_, h⟩) ⟨c, hc, he, _⟩
    · cases h.unique he
    · rw [gradientDefault_focal hc] at h; cases h
  rcases h1 with h1 | ⟨_, h1⟩ <;> rcases h2 with h2 | ⟨_, h2⟩
  · exact h1.unique h2
  · exact (aux h1 h2).elim
  · exact (aux h2 h1).elim
  · obtain ⟨c, hc, _, hp⟩ := h1
    obtain ⟨c', hc', _, hp'⟩ := h2
    rw [hc] at hc'; cases hc'
    exact hp.unique hp'

end Verif.Spec
