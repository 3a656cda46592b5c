import Verif.IdemProps
import Verif.ShadeApply
/-
C67: the transforms of gradients.
-/
namespace Verif.Idem
open Verif.Dom Verif.Spec Verif.Pipeline
open Verif.Gradients (OnlyHref)
open Verif.ApplyTs (moveGradient gradientBody applyToGradients SameBut geoAttrs linkHasTransform isValidTransform isValidCoords)
open Verif.Paths (Transform)

/-! ### One gradient -/

theorem putAttr_keeps {as : List Attr} {x y : Attr} (h : y ∈ as) (e : y.name ≠ x.name) : y ∈ putAttr as x := by
  unfold putAttr
  split
  · exact List.mem_map.2 ⟨y, h, if_neg e⟩
  · exact List.mem_append_left _ h

/-- Attributes that a transform is not applied to stay. -/
theorem moved_keeps {n : Node} {t : Transform} {y : Attr} (h : y ∈ n.attrs) (e : ∀ a ∈ geoAttrs, y.name ≠ .id a) : y ∈ (moveGradient n t).attrs := by
  have set : ∀ {n : Node} {a : AId} {v : Value}, a ∈ geoAttrs → y ∈ n.attrs → y ∈ (n.set a v).attrs := fun ha h => putAttr_keeps h (e _ ha)
  have coords : ∀ {n : Node} {a b : AId}, a ∈ geoAttrs → b ∈ geoAttrs → y ∈ n.attrs → y ∈ (ApplyTs.transformCoords n a b t).attrs :=
    fun ha hb h => set hb (set ha h)
  have scale : ∀ {n : Node} {s : ℚ}, y ∈ n.attrs → y ∈ (ApplyTs.scaleCoord n .r s).attrs :=
    fun h => List.mem_map.2 ⟨y, h, if_neg (e .r (by decide))⟩
  unfold moveGradient
  dsimp only
  refine List.mem_filter.2 ⟨?_, by simpa using e .gradientTransform (by decide)⟩
  split
  · exact coords (by decide) (by decide) (coords (by decide) (by decide) h)
  · split
    · exact scale (coords (by decide) (by decide) (coords (by decide) (by decide) h))
    · exact coords (by decide) (by decide) (coords (by decide) (by decide) h)

/-- What the loop body does. -/
theorem gradientBody_cases {k : Nat} {f g : Forest} (h : gradientBody k f = some g) : g = f ∨
    ∃ n t, f.find k = some n ∧ n.isGradient = true ∧ (f.linkedNodes k).any (fun m => m.isGradient) = false ∧ g = f.modify k (fun n => moveGradient n t) := by
  unfold gradientBody at h
  split at h
  · exact .inl (Option.some.inj h).symm
  · rename_i n hn
    split at h
    · rename_i hg
      split at h
      · exact .inl (Option.some.inj h).symm
      · rename_i hl
        split at h
        · exact .inl (Option.some.inj h).symm
        · split at h
          · rename_i t _
            by_cases h1 : (!isValidTransform t) = true
            · rw [if_pos h1] at h
              exact .inl (Option.some.inj h).symm
            · rw [if_neg h1] at h
              by_cases h2 : (!isValidCoords n (if n.isTag .linearGradient = true then .linearGradient else .radialGradient)) = true
              · rw [if_pos h2] at h
                exact .inl (Option.some.inj h).symm
              · rw [if_neg h2] at h
                exact .inr ⟨n, t, hn, (Bool.and_eq_true_iff.1 hg).1, Bool.not_eq_true _ ▸ hl, (Option.some.inj h).symm⟩
          · cases h
    · exact .inl (Option.some.inj h).symm

theorem moved_same_key (k : Nat) (t : Transform) (x : Node) : (if x.key = k then moveGradient x t else x).key = x.key := by
  split
  · exact (ApplyTs.moveGradient_same x t).key
  · rfl

theorem moved_same_kind (k : Nat) (t : Transform) (x : Node) : (if x.key = k then moveGradient x t else x).kind = x.kind := by
  split
  · exact (ApplyTs.moveGradient_same x t).kind
  · rfl

theorem modify_find {f : Forest} {j : Nat} (t : Transform) (k : Nat) :
    (f.modify j (fun n => moveGradient n t)).find k = (f.find k).map fun x => if x.key = j then moveGradient x t else x :=
  Forest.find_map (moved_same_key j t) f k

/-- A gradient that has been handled stays as it is. -/
theorem body_quiet {k : Nat} {f g : Forest} (h : gradientBody k f = some g) : gradientBody k g = some g := by
  rcases gradientBody_cases h with rfl | ⟨n, t, hn, _, _, rfl⟩
  · exact h
  · have hk := (Forest.find_some hn).2
    have hf : (f.modify k (fun n => moveGradient n t)).find k = some (moveGradient n t) := by rw [modify_find, hn, Option.map_some, if_pos hk]
    have hh : (moveGradient n t).has .gradientTransform = false := by
      have := Shade.moved_transform n t
      rw [Node.get, Option.map_eq_none_iff] at this
      rw [Node.has, this]
      rfl
    unfold gradientBody
    rw [hf]
    dsimp only
    rw [if_neg (by rw [hh, Bool.and_false]; exact Bool.false_ne_true)]

/-- Handling another gradient does not change that. -/
theorem body_other {j k : Nat} {f g : Forest} (ho : OnlyHref f) (hq : gradientBody k f = some f) (h : gradientBody j f = some g) :
    gradientBody k g = some g := by
  rcases gradientBody_cases h with rfl | ⟨n, t, hn, hg, hl, rfl⟩
  · exact hq
  by_cases hjk : k = j
  · subst hjk
    exact body_quiet h
  have hfind : (f.modify j (fun n => moveGradient n t)).find k = f.find k := by
    rw [modify_find]
    cases hx : f.find k with
    | none => rfl
    | some x => rw [Option.map_some, if_neg (by rw [(Forest.find_some hx).2]; exact hjk)]
  unfold gradientBody at hq ⊢
  rw [hfind]
  cases hx : f.find k with
  | none => rfl
  | some x =>
    obtain ⟨hxm, hxk⟩ := Forest.find_some hx
    rw [hx] at hq
    dsimp only at hq ⊢
    by_cases hgx : (x.isGradient && x.has .gradientTransform) = true
    · rw [if_pos hgx] at hq ⊢
      by_cases hlx : ((f.linkedNodes k).any fun m => m.isGradient) = true
      · rw [if_pos]
        obtain ⟨m, hm, hmg⟩ := List.any_eq_true.1 hlx
        obtain ⟨hm, hmk⟩ := List.mem_filter.1 hm
        refine List.any_eq_true.2 ⟨if m.key = j then moveGradient m t else m, List.mem_filter.2 ⟨?_, ?_⟩, ?_⟩
        · unfold Forest.modify
          rw [Forest.nodes_map]
          exact List.mem_map_of_mem hm
        · rw [decide_eq_true_iff] at hmk ⊢
          split
          · obtain ⟨y, hy, ht⟩ := Node.mem_links.1 hmk
            have hyn := ho m hm hmg y hy (by rw [ht]; simp)
            exact Node.mem_links.2 ⟨y, moved_keeps hy (by rw [hyn]; decide), ht⟩
          · exact hmk
        · rw [Stops.isGradient_congr (moved_same_kind j t m)]
          exact hmg
      · rw [if_neg hlx] at hq
        by_cases hlt : linkHasTransform f x = true
        · have : linkHasTransform (f.modify j (fun n => moveGradient n t)) x = true := by
            unfold linkHasTransform at hlt ⊢
            split at hlt
            · rename_i i hi
              have hij : i ≠ j := by
                rintro rfl
                rw [List.any_eq_false] at hl
                refine hl x (List.mem_filter.2 ⟨hxm, ?_⟩) (Bool.and_eq_true_iff.1 hgx).1
                rw [decide_eq_true_iff, Node.mem_links]
                rw [Node.get, Option.map_eq_some_iff] at hi
                obtain ⟨y, hy, e⟩ := hi
                exact ⟨y, getAttr_mem hy, by rw [e]; rfl⟩
              rw [modify_find]
              cases hm : f.find i with
              | none => rw [hm] at hlt; exact hlt
              | some m =>
                rw [hm] at hlt
                rw [Option.map_some, if_neg (by rw [(Forest.find_some hm).2]; exact hij)]
                exact hlt
            · cases hlt
          rw [if_pos this, ite_self]
        · rw [if_neg hlt] at hq
          have hget : x.get .gradientTransform ≠ none := by
            have := (Bool.and_eq_true_iff.1 hgx).2
            intro e
            rw [Node.get, Option.map_eq_none_iff] at e
            rw [Node.has, e] at this
            cases this
          split at hq
          · rename_i T hT
            by_cases h1 : (!isValidTransform T) = true
            · rw [if_pos h1, ite_self, ite_self]
            · rw [if_neg h1] at hq ⊢
              by_cases h2 : (!isValidCoords x (if x.isTag .linearGradient = true then .linearGradient else .radialGradient)) = true
              · rw [if_pos h2, ite_self, ite_self]
              · rw [if_neg h2] at hq
                exfalso
                have := congrArg (fun f => Forest.find f k) (Option.some.inj hq)
                rw [modify_find, hx, Option.map_some, if_pos hxk] at this
                exact hget ((Option.some.inj this) ▸ Shade.moved_transform x T)
          · cases hq
    · rw [if_neg hgx]

/-- References of gradients are still `xlink:href` only. -/
theorem body_href {k : Nat} {f g : Forest} (ho : OnlyHref f) (h : gradientBody k f = some g) : OnlyHref g := by
  rcases gradientBody_cases h with rfl | ⟨n, t, _, _, _, rfl⟩
  · exact ho
  · intro m hm hg x hx ht
    unfold Forest.modify at hm
    rw [Forest.nodes_map] at hm
    obtain ⟨z, hz, rfl⟩ := List.mem_map.1 hm
    rw [Stops.isGradient_congr (moved_same_kind k t z)] at hg
    refine ho z hz hg x ?_ ht
    split at hx
    · exact Shade.moved_from hx ht
    · exact hx

/-! ### All gradients -/

theorem forEach_quiet {l done : List Nat} {f g : Forest} (ho : OnlyHref f) (hd : ∀ k ∈ done, gradientBody k f = some f)
    (h : Gradients.forEach gradientBody l f = some g) : ∀ k ∈ done ++ l, gradientBody k g = some g := by
  induction l generalizing f done with
  | nil =>
    cases h
    rwa [List.append_nil]
  | cons j t ih =>
    obtain ⟨f', hf', h⟩ := Option.bind_eq_some_iff.1 h
    have := ih (done := done ++ [j]) (body_href ho hf') (fun k hk => by
      rcases List.mem_append.1 hk with hk | hk
      · exact body_other ho (hd k hk) hf'
      · rw [List.mem_singleton.1 hk]
        exact body_quiet hf') h
    simpa using this

theorem forEach_still {l : List Nat} {g : Forest} (h : ∀ k ∈ l, gradientBody k g = some g) : Gradients.forEach gradientBody l g = some g := by
  induction l with
  | nil => rfl
  | cons j t ih =>
    unfold Gradients.forEach
    rw [h j (List.mem_cons_self ..), Option.bind_some]
    exact ih fun k hk => h k (List.mem_cons_of_mem _ hk)

theorem body_keys {k : Nat} {f g : Forest} (h : gradientBody k f = some g) : g.keys = f.keys := by
  rcases gradientBody_cases h with rfl | ⟨n, t, _, _, _, rfl⟩
  · rfl
  · exact Forest.keys_map (moved_same_key k t) f

theorem forEach_keys {l : List Nat} {f g : Forest} (h : Gradients.forEach gradientBody l f = some g) : g.keys = f.keys := by
  induction l generalizing f with
  | nil => cases h; rfl
  | cons j t ih =>
    obtain ⟨f', hf', h⟩ := Option.bind_eq_some_iff.1 h
    rw [ih h, body_keys hf']

/-- **C67** for `apply-transform-to-gradients`, if gradients refer to others by `xlink:href` only. -/
theorem C67_apply_gradients : Settles OnlyHref (may applyToGradients) := by
  refine settles_may fun f g ho h => ?_
  unfold applyToGradients at h ⊢
  have := forEach_quiet (done := []) ho (fun k hk => absurd hk (List.not_mem_nil)) h
  rw [List.nil_append] at this
  rw [forEach_keys h]
  exact forEach_still this

/-! ### Cases -/

/-- Gradients with transforms: one that another one refers to, that one, and one alone. -/
def movedDoc : Forest := doc (leaf (grad 1 "a" [(.gradientTransform, .transform ⟨2, 0, 0, 2, 5, 5⟩)])
  (leaf (grad 2 "b" [(.xlinkHref, .link 1), (.gradientTransform, .transform ⟨2, 0, 0, 2, 5, 5⟩)])
  (leaf (grad 3 "c" [(.gradientTransform, .transform ⟨3, 0, 0, 3, 0, 5⟩)]) .nil)))

instance (f : Forest) : Decidable (OnlyHref f) := by unfold OnlyHref; infer_instance

example : OnlyHref movedDoc := by decide +kernel

example : ∃ g, applyToGradients movedDoc = some g ∧ g ≠ movedDoc :=
  ⟨(applyToGradients movedDoc).get (by decide +kernel), by decide +kernel, by decide +kernel⟩

/-- A gradient that refers to another one with a coordinate. -/
def oddDoc : Forest := doc (leaf (grad 1 "a" [(.gradientTransform, .transform ⟨2, 0, 0, 2, 5, 5⟩)])
  (leaf (el 2 .linearGradient "b" [(.x1, .link 1), (.y1, px 0), (.x2, px 1), (.y2, px 1), (.gradientTransform, .transform ⟨2, 0, 0, 2, 5, 5⟩)]) .nil))

/-- The reference goes with the transform, and then the other gradient can be changed. -/
theorem C67_refuted_moved : ¬ Settles Parsed (may applyToGradients) :=
  unsettled' (f := oddDoc) (by decide +kernel) (by decide +kernel)

end Verif.Idem
