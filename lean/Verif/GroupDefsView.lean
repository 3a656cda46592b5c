import Verif.GroupDefsStep
import Verif.ResolveUseLook
/-
C35: the whole pass and the picture.
-/
namespace Verif.GroupDefs
open Verif.Dom Verif.Spec Verif.Render
open Verif.ResolveUse (subtree)
open Verif.UnusedDefs (Bare)

theorem spots_parent {p : Kind} {f : Forest} {z : Kind × Node × Forest} (h : z ∈ spots p f) :
    (z.2.1 ∈ f.top ∧ z.1 = p) ∨ ∃ x ∈ subs f, z.2.1 ∈ x.2.top ∧ z.1 = x.1.kind := by
  induction f generalizing p with
  | nil => cases h
  | cons n k r ihk ihr =>
    simp only [spots, List.mem_cons, List.mem_append] at h
    rcases h with rfl | h | h
    · exact .inl ⟨by simp [Forest.top], rfl⟩
    · rcases ihk h with ⟨h1, h2⟩ | ⟨x, hx, h1, h2⟩
      · exact .inr ⟨(n, k), by simp [subs], h1, h2⟩
      · exact .inr ⟨x, by simp [subs, hx], h1, h2⟩
    · rcases ihr h with ⟨h1, h2⟩ | ⟨x, hx, h1, h2⟩
      · exact .inl ⟨by simp [Forest.top, h1], h2⟩
      · exact .inr ⟨x, by simp [subs, hx], h1, h2⟩

theorem Inv.refs {u y Q : Nat → Prop} {d : Nat} {s dn : Node} {l : List Nat} {f : Forest} (I : Inv u y Q d s dn f) (hyu : ∀ x, y x → u x)
    (hl : ∀ k ∈ l, k ≠ d ∧ k ≠ s.key ∧ Q k) (hdef : ∀ m ∈ f.nodes, m.key ∈ l → isDefinition m = true) {g : Forest}
    (h : moveRefs d l f = some g) : Inv u y Q d s dn g ∧ Moved u y f g := by
  induction l generalizing f with
  | nil => cases h; exact ⟨I, .refl _ _ _⟩
  | cons k t ih =>
    obtain ⟨f1, h1, h⟩ := Option.bind_eq_some_iff.1 h
    obtain ⟨a, b, c⟩ := hl k (by simp)
    obtain ⟨I1, M1⟩ := I.resolve a b h1
    obtain ⟨D, r, P⟩ := I.placed
    obtain ⟨e, he, hg, -⟩ := resolveAttrs_grown P.unique h1
    have hd1 : ∀ m ∈ f1.nodes, m.key ∈ k :: t → isDefinition m = true := by
      intro m hm hk
      rw [he, Forest.nodes_map] at hm
      obtain ⟨m0, h0, rfl⟩ := List.mem_map.1 hm
      rw [(hg m0).key] at hk
      have := hdef m0 h0 hk
      unfold isDefinition at this ⊢
      rwa [(hg m0).kind]
    obtain ⟨I2, M2⟩ := I1.move hyu a b c (fun z hz hk => .inl (hd1 _ (spots_nodes hz) (by simp [hk])))
    obtain ⟨D1, r1, P1⟩ := I1.placed
    have hperm := moveTo_nodes P1.unique P1.mem (P1.clear (l := [k]) (by simpa using b.symm) (by simpa using a.symm))
    obtain ⟨I3, M3⟩ := ih I2 (fun j hj => hl j (by simp [hj])) (fun m hm hk => hd1 m (hperm.mem_iff.1 hm) (by simp [hk])) h
    exact ⟨I3, (M1.trans M2).trans M3⟩

theorem Inv.all {u y Q : Nat → Prop} {d : Nat} {s dn : Node} {l : List Nat} {f : Forest} (I : Inv u y Q d s dn f) (hyu : ∀ x, y x → u x)
    (hl : ∀ k ∈ l, k ≠ d ∧ k ≠ s.key ∧ Q k) (hpos : ∀ z ∈ spots top f, z.2.1.key ∈ l → z.1 = .elem .defs) :
    Inv u y Q d s dn (moveAll d l f) ∧ Moved u y f (moveAll d l f) := by
  induction l generalizing f with
  | nil => exact ⟨I, .refl _ _ _⟩
  | cons k t ih =>
    obtain ⟨a, b, c⟩ := hl k (by simp)
    obtain ⟨I2, M2⟩ := I.move hyu a b c (fun z hz hk => .inr (hpos z hz (by simp [hk])))
    obtain ⟨D, r, P⟩ := I.placed
    obtain ⟨I3, M3⟩ := ih I2 (fun j hj => hl j (by simp [hj])) (fun z hz hk => by
      rcases (spots_moveTo P hz).2 with ⟨ks, h⟩ | h
      · exact hpos (z.1, z.2.1, ks) h (by simp [hk])
      · exact h.1)
    exact ⟨I3, M2.trans M3⟩

/-! ### The `defs` elements that are taken away -/

theorem Inv.drop {u y Q : Nat → Prop} {d : Nat} {s dn : Node} {f : Forest} (I : Inv u y Q d s dn f) (hyu : ∀ x, y x → u x) {q : Node → Bool}
    (hq : ∀ n ∈ f.nodes, q n = true → n.kind = .elem .defs) (hleaf : ∀ x ∈ subs f, q x.1 = true → x.2 = .nil) :
    f.remove q = f.prune q ∧ Moved u y f (f.prune q) := by
  obtain ⟨D, r, P⟩ := I.placed
  obtain ⟨-, p2⟩ := prune_leaves hleaf
  have hun : ∀ k, u k → k ∉ f.prunedKeys q := by
    intro k hk h
    rw [p2] at h
    obtain ⟨n, hn, rfl⟩ := List.mem_map.1 h
    obtain ⟨hn, hqn⟩ := List.mem_filter.1 hn
    exact I.used n hn (hq n hn hqn) hk
  have hh : Harmless q top f := by
    intro z hz he
    have hk := hq _ (spots_nodes hz) he
    have hd : isDefinition z.2.1 = true := by unfold isDefinition; rw [hk]
    exact .inl ⟨I.spot z hz hd, (neverRendered_def hd).1⟩
  refine ⟨?_, fun π env => ?_, fun x anc n ks hx hz => ?_⟩
  · unfold Forest.remove
    refine Forest.map_id' fun n hn => ?_
    refine ResolveUse.unlink_none fun k hk => ?_
    have := hun k (I.links n ((Forest.nodes_prune_sublist _ _).mem hn) k hk)
    simpa using this
  · exact Skip.stack (pics_prune hh (by decide) π env Ctx.start) (by decide) _
  · have hs : SameInst n ks n (ks.prune q) := by
      refine sameInst_prune (hh.kids (locate_mem hz).2) fun hd => I.used n (UnusedDefs.node_of_subs (locate_mem hz).2) hd ?_
      rw [show n.key = x from (locate_mem hz).1]
      exact hx
    exact ⟨anc, n, ks.prune q, by rw [locate_prune (hun x hx), hz]; rfl, rfl, rfl, hs.here _, fun _ => hs⟩

end Verif.GroupDefs
