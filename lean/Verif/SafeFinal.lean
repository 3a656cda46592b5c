import Verif.SafeGroup
import Verif.FinalProps
/-
C22 and C55 for `remove_unreferenced_ids`, `trim_ids`, `ungroup_defs` and `remove_empty_defs`.
-/
namespace Verif.Spec
open Verif.Dom Verif.Simple
open Verif.Regroup (IdsUnique)

/-- Nodes are taken out, with the references to them. -/
theorem Step.unlinkAll {f g : Forest} {ks : List Nat} (hs : g.nodes.Sublist f.nodes) (hk : ∀ n ∈ f.nodes, n ∈ g.nodes ∨ n.key ∈ ks) :
    Step f (unlinkAll ks g) := by
  have hn : (Simple.unlinkAll ks g).nodes = g.nodes.map fun n => n.unlink fun k => decide (k ∈ ks) := Forest.nodes_map _ _
  refine ⟨?_, ?_, ?_⟩
  · rw [hn, marks_map fun n _ => mark_unlink n _]
    exact (hs.map mark).subperm
  · intro m hm k hk
    rw [hn] at hm
    obtain ⟨n, hn, rfl⟩ := List.mem_map.1 hm
    exact .inl ⟨n, hs.subset hn, links_unlink hk⟩
  · intro hl m hm k hkm
    rw [hn] at hm
    obtain ⟨n, hng, rfl⟩ := List.mem_map.1 hm
    rw [Node.links_unlink, List.mem_filter] at hkm
    obtain ⟨t, ht, rfl⟩ := Forest.mem_keys.1 (hl n (hs.subset hng) k hkm.1)
    rcases hk t ht with h | h
    · rw [keys_mark, hn, marks_map fun n _ => mark_unlink n _, ← keys_mark]
      exact Forest.key_mem h
    · simp [h] at hkm

theorem step_ungroupDefs (f : Forest) : Step f (ungroupDefs f) := by
  obtain ⟨h1, h2⟩ := ungroupDefsGo_nodes f false
  exact Step.unlinkAll h1 fun n hn => (h2 n hn).imp id And.right

theorem step_removeEmptyDefs {f g : Forest} (h : removeEmptyDefs f = some g) : Step f g := by
  unfold removeEmptyDefs at h
  obtain ⟨⟨n, k⟩, hs, h⟩ := Option.map_eq_some_iff.1 h
  cases h
  obtain ⟨A, B, e1, e2⟩ := setSvg_split hs
  dsimp only at e1 e2 ⊢
  have hk : (dropEmptyDefs k).1.nodes.Sublist k.nodes ∧ ∀ x ∈ k.nodes, x ∈ (dropEmptyDefs k).1.nodes ∨ x.key ∈ (dropEmptyDefs k).2 := by
    rcases dropEmptyDefs_spec k with ⟨_, h2⟩ | ⟨d, _, h2, l, r, h3, h4, _⟩
    · rw [h2]; exact ⟨List.Sublist.refl _, fun x hx => .inl hx⟩
    · rw [h3, h4, h2]
      refine ⟨(List.sublist_cons_self d r).append_left l, fun x hx => ?_⟩
      rcases List.mem_append.1 hx with hx | hx
      · exact .inl (List.mem_append_left _ hx)
      · rcases List.mem_cons.1 hx with rfl | hx
        · exact .inr (List.mem_cons_self ..)
        · exact .inl (List.mem_append_right _ hx)
  refine Step.unlinkAll ?_ ?_
  · rw [e1, e2]
    exact ((hk.1.append_right B).cons_cons n).append_left A
  · intro x hx
    rw [e1] at hx
    rw [e2]
    rcases List.mem_append.1 hx with hx | hx
    · exact .inl (List.mem_append_left _ hx)
    · rcases List.mem_cons.1 hx with rfl | hx
      · exact .inl (by simp)
      · rcases List.mem_append.1 hx with hx | hx
        · exact (hk.2 x hx).imp (fun h => by simp [h]) id
        · exact .inl (by simp [hx])

theorem safe_removeUnreferencedIds (f : Forest) : Safe f (removeUnreferencedIds f) := fun hu hl => by
  obtain ⟨e, _, _⟩ := C15_unreferenced_ids f
  have hf : ∀ n : Node, (if ∃ m ∈ f.nodes, n.key ∈ m.links then n else noId n).key = n.key := fun n => by split <;> rfl
  have hkd : ∀ n : Node, (if ∃ m ∈ f.nodes, n.key ∈ m.links then n else noId n).kind = n.kind := fun n => by split <;> rfl
  have hlk : ∀ n : Node, (if ∃ m ∈ f.nodes, n.key ∈ m.links then n else noId n).links = n.links := fun n => by split <;> rfl
  have hid : ∀ n : Node, (if ∃ m ∈ f.nodes, n.key ∈ m.links then n else noId n).id ≠ "" →
      (if ∃ m ∈ f.nodes, n.key ∈ m.links then n else noId n).id = n.id := fun n => by
    split
    · intro _; rfl
    · intro h; exact absurd rfl h
  have hkeys : (removeUnreferencedIds f).keys = f.keys := by
    unfold Forest.keys
    rw [e, List.map_map]
    exact List.map_congr_left fun n _ => hf n
  refine ⟨by unfold Forest.UniqueKeys; rw [hkeys]; exact hu, ?_, ?_, ?_, ?_⟩
  · intro m hm k hk
    rw [e] at hm
    obtain ⟨n, hn, rfl⟩ := List.mem_map.1 hm
    rw [hlk] at hk
    rw [hkeys]
    exact hl n hn k hk
  · intro m hm _
    rw [e] at hm
    obtain ⟨n, hn, rfl⟩ := List.mem_map.1 hm
    exact ⟨n, hn, (hf n).symm, (hkd n).symm⟩
  · intro ht m hm k hk
    rw [e] at hm
    obtain ⟨n, hn, rfl⟩ := List.mem_map.1 hm
    rw [hlk] at hk
    obtain ⟨t, ht, rfl, hti⟩ := ht n hn k hk
    refine ⟨t, ?_, rfl, hti⟩
    rw [e]
    exact List.mem_map.2 ⟨t, ht, by rw [if_pos ⟨n, hn, hk⟩]⟩
  · intro hi ho
    refine ⟨fun x hx y hy hne exy => ?_, fun x hx hne => ?_⟩
    · rw [e] at hx hy
      obtain ⟨a, ha, rfl⟩ := List.mem_map.1 hx
      obtain ⟨b, hb, rfl⟩ := List.mem_map.1 hy
      rw [hf, hf]
      have hb' := hid b (by rw [← exy]; exact hne)
      exact hi a ha b hb (by rw [← hid a hne]; exact hne) (by rw [← hid a hne, exy, hb'])
    · rw [e] at hx
      obtain ⟨a, ha, rfl⟩ := List.mem_map.1 hx
      have := ho a ha (by rw [← hid a hne]; exact hne)
      unfold Node.isSvgElem at this ⊢
      rw [hkd]; exact this

theorem forall₂_of_map {α β : Type} {g : α → β} {l l' : List α} (h : l'.map g = l.map g) : List.Forall₂ (fun n m => g m = g n) l l' := by
  induction l generalizing l' with
  | nil => cases l' with
    | nil => exact .nil
    | cons => simp at h
  | cons a l ih => cases l' with
    | nil => simp at h
    | cons b l' =>
      simp only [List.map_cons, List.cons.injEq] at h
      exact .cons h.1 (ih h.2)

theorem forall₂_and {α β : Type} {R S : α → β → Prop} {l : List α} {l' : List β} (h : List.Forall₂ R l l') (h' : List.Forall₂ S l l') :
    List.Forall₂ (fun a b => R a b ∧ S a b) l l' := by
  induction h with
  | nil => exact .nil
  | cons h _ ih => cases h' with | cons a b => exact .cons ⟨h, a⟩ (ih b)

theorem safe_trimIds {f g : Forest} (h : trimIds f = some g) : Safe f g := fun hu hl => by
  unfold trimIds at h
  obtain ⟨⟨g', d'⟩, hgo, e0⟩ := Option.map_eq_some_iff.1 h
  dsimp only at e0
  subst e0
  obtain ⟨j, _, _, e, q, _, nd⟩ := trimGo_spec f TrimIds.numNew 0 rfl g' d' hgo
  obtain ⟨ek, en⟩ := map_noId_eq e
  have hall := forall₂_and (forall₂_of_map en) q
  have hmem : ∀ m ∈ g'.nodes, ∃ n ∈ f.nodes, noId m = noId n ∧ (n.id = "" ↔ m.id = "") ∧ (n.isSvgElem = false → m = n) := fun m hm =>
    Simple.forall₂_mem_right hall hm
  have hk : ∀ {m n : Node}, noId m = noId n → m.key = n.key := fun h => congrArg (fun x : Node => x.key) (a₁ := noId _) (a₂ := noId _) h
  have hkd : ∀ {m n : Node}, noId m = noId n → m.kind = n.kind := fun h => congrArg (fun x : Node => x.kind) (a₁ := noId _) (a₂ := noId _) h
  have hat : ∀ {m n : Node}, noId m = noId n → m.attrs = n.attrs := fun h => congrArg (fun x : Node => x.attrs) (a₁ := noId _) (a₂ := noId _) h
  have hlk : ∀ {m n : Node}, noId m = noId n → m.links = n.links := fun h => by unfold Node.links; rw [hat h]
  refine ⟨by unfold Forest.UniqueKeys; rw [ek]; exact hu, ?_, ?_, ?_, ?_⟩
  · intro m hm k hkm
    obtain ⟨n, hn, e, _⟩ := hmem m hm
    rw [hlk e] at hkm
    rw [ek]
    exact hl n hn k hkm
  · intro m hm _
    obtain ⟨n, hn, e, _⟩ := hmem m hm
    exact ⟨n, hn, (hk e).symm, (hkd e).symm⟩
  · intro ht m hm k hkm
    obtain ⟨n, hn, e, _⟩ := hmem m hm
    rw [hlk e] at hkm
    obtain ⟨t, htf, rfl, hti⟩ := ht n hn k hkm
    obtain ⟨t', ht', ekt⟩ := Forest.mem_keys.1 (ek ▸ Forest.key_mem htf : t.key ∈ g'.keys)
    obtain ⟨t2, ht2, e2, h2, _⟩ := hmem t' ht'
    have : t2 = t := Forest.eq_of_key hu ht2 htf ((hk e2).symm.trans ekt)
    exact ⟨t', ht', ekt, fun h => hti (this ▸ h2.2 h)⟩
  · intro _ ho
    have hsv : ∀ x ∈ g'.nodes, x.id ≠ "" → x.isSvgElem = true := by
      intro x hx hne
      obtain ⟨n, hn, e, h1, _⟩ := hmem x hx
      have := ho n hn (fun h => hne (h1.1 h))
      unfold Node.isSvgElem at this ⊢
      rw [hkd e]; exact this
    refine ⟨fun x hx y hy hne exy => ?_, hsv⟩
    have := List.inj_on_of_nodup_map nd (x := x) (y := y) (by simp [hx, hne, hsv x hx hne]) (by simp [hy, exy ▸ hne, hsv y hy (exy ▸ hne)]) exy
    rw [this]

end Verif.Spec
