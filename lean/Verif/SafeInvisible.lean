import Verif.SafeTree
import Verif.Invisible
/-
C22 and C55 for `remove_invisible_elements`.
-/
namespace Verif.Spec
open Verif.Dom
open Verif.Invisible

theorem Step.rmServer (k : Nat) (f : Forest) : Step f (rmServer k f) := (Step.rmKeys _ _).trans (Step.rmKey _ _)

theorem step_clipKids (ks : List Nat) (f : Forest) : Step f (clipKidsStep ks f).1 := by
  induction ks generalizing f with
  | nil => exact Step.refl f
  | cons k ks ih =>
    have h : Step f (clipKidsStep ks (rmKeys (badKids f k) f)).1 := (Step.rmKeys _ f).trans (ih _)
    show Step f (match (rmKeys (badKids f k) f).kidsOf k with
      | some c => if c.isEmpty then ((clipKidsStep ks (rmKeys (badKids f k) f)).1, k :: (clipKidsStep ks (rmKeys (badKids f k) f)).2)
        else clipKidsStep ks (rmKeys (badKids f k) f)
      | none => clipKidsStep ks (rmKeys (badKids f k) f)).1
    split
    · split
      · exact h
      · exact h
    · exact h

theorem step_clip (f : Forest) : Step f (clipStep f).1 := by
  unfold clipStep
  exact (step_clipKids _ f).trans (Step.foldl (fun g k => Step.rmServer k g) _ _)

theorem mild_noneLinks (k : Nat) (n : Node) : Mild n (noneLinks k n) := by
  refine ⟨mark_eq rfl rfl rfl, fun j hj => ?_⟩
  obtain ⟨x, hx, e⟩ := Node.mem_links.1 hj
  obtain ⟨y, hy, rfl⟩ := List.mem_map.1 hx
  refine Node.mem_links.2 ⟨y, hy, ?_⟩
  split at e
  · split at e
    · cases e
    · exact e
  · exact e

theorem mild_solidLinks (k : Nat) {col : Value} (hc : col.target = none) (op : ℚ) (n : Node) : Mild n (solidLinks k col op n) := by
  unfold solidLinks
  refine Mild.foldl (fun n a => ?_) _ n
  have h := Mild.set n a hc
  simp only
  split
  · exact h
  · split
    · exact h.trans (Mild.set _ _ rfl)
    · exact h.trans (Mild.set _ _ rfl)
    · exact h

theorem step_solidSteps {l : List (Nat × Node)} {f g : Forest} (h : solidSteps l f = some g) : Step f g := by
  induction l generalizing f with
  | nil => cases h; exact Step.refl _
  | cons x xs ih =>
    rw [solidSteps] at h
    obtain ⟨f1, h1, h⟩ := Option.bind_eq_some_iff.1 h
    refine Step.trans ?_ (ih h)
    unfold solidStep at h1
    split at h1
    · split at h1
      · cases h1
        refine Step.mildMap fun n _ => ?_
        split
        · exact Mild.refl n
        · exact mild_solidLinks _ rfl _ n
      · cases h1
    · cases h1

theorem step_gradient {f : Forest} {x : Forest × Bool} (h : gradientStep f = some x) : Step f x.1 := by
  unfold gradientStep at h
  obtain ⟨g, h1, rfl⟩ := Option.map_eq_some_iff.1 h
  refine Step.trans (Step.foldl (fun g k => ?_) (emptyGradients f) f) ((step_solidSteps h1).trans (Step.rmKeys _ _))
  exact Step.mildMap fun n _ => mild_noneLinks k n

theorem tame_removeInvisible {f g : Forest} (h : removeInvisible f = some g) : Tame f g := by
  unfold removeInvisible at h
  simp only at h
  obtain ⟨x, h1, h⟩ := Option.bind_eq_some_iff.1 h
  have hs : Step f (rectStep x.1).1 := by
    have h2 : Step f (displayStep f).1 := Step.rmKeys _ f
    have h3 : ∀ f, Step f (pathStep f).1 := Step.drain _
    have h4 : ∀ f, Step f (filterStep f).1 := fun f => Step.foldl (fun g k => Step.rmServer k g) _ f
    have h5 : ∀ f, Step f (matrixStep f) := Step.drain _
    have h6 : ∀ f, Step f (useStep f).1 := Step.drain _
    have h7 : ∀ f, Step f (rectStep f).1 := Step.drain _
    exact h2.trans ((h3 _).trans ((step_clip _).trans ((h4 _).trans ((h5 _).trans ((h6 _).trans ((step_gradient h1).trans (h7 _)))))))
  split at h
  · exact hs.tame.trans (tame_removeUnusedDefs h)
  · cases h; exact hs.tame

end Verif.Spec
