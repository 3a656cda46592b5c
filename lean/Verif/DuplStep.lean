import Verif.Dupl
import Verif.DuplSpec
import Verif.MergeWhole
/-
Property C32, first part: what removing a duplicate does to the tree.
-/
namespace Verif.Dupl
open Verif.Dom Verif.Spec
open Verif.UnusedDefs (kidsOf_subs subs_kidsOf mem_subs_of_node node_of_subs)
open Verif.GroupDefs (kidsOf_prune kidsOf_map prune_id drawn_prune subs_unique)
open Verif.Invisible (rmKey unlink_pruned)

/-- References to `k2` become references to `k1`. -/
def sub (k2 k1 : Nat) (k : Nat) : Nat := if k = k2 then k1 else k

/-- What is needed to remove the node with the key `k2` in favour of `n1`. -/
structure Fusable (f : Forest) (n1 n2 : Node) : Prop where
  unique : f.UniqueKeys
  form : LinkForm f
  mem1 : n1 ∈ f.nodes
  mem2 : n2 ∈ f.nodes
  ne : n1.key ≠ n2.key
  ids : ∀ x ∈ f.nodes, x.id = n1.id → n2.key ∉ x.links
  named : n1.id ≠ ""
  cross : ∀ x ∈ f.nodes, n2.key ∈ x.links → x.key ∉ n1.links
  inside : ∀ c, f.kidsOf n2.key = some c → n1.key ∉ c.keys ∧ ∀ d ∈ c.nodes, f.isUsed d.key = false

def fused (f : Forest) (n1 n2 : Node) : Forest := (f.map (rename (sub n2.key n1.key))).prune fun m => decide (m.key = n2.key)

theorem relinkAttr_eq {f : Forest} (h : LinkForm f) {n : Node} (hn : n ∈ f.nodes) {x : Attr} (hx : x ∈ n.attrs) (k1 k2 : Nat) :
    relinkAttr k1 k2 x = { x with value := renameValue (sub k2 k1) x.value } := by
  obtain ⟨nm, v, vis⟩ := x
  by_cases ht : v.target = none
  · rw [renameValue_none _ ht]
    cases nm with
    | id a =>
      simp only [relinkAttr, ht]
      rw [if_neg (by simp)]
    | name => rfl
  · obtain ⟨h1, h2⟩ := h n hn _ hx ht
    dsimp only at h1 h2
    subst h1
    rcases h2 with ⟨rfl, k, rfl⟩ | ⟨a, ha, rfl, k, rfl⟩
    · simp only [relinkAttr, Value.target, Option.some.injEq, renameValue, sub, nodeValue, if_true]
      split <;> rfl
    · simp only [relinkAttr, Value.target, Option.some.injEq, renameValue, sub, nodeValue, if_neg ha]
      split <;> rfl

section fuse
variable {f : Forest} {n1 n2 : Node} (h : Fusable f n1 n2)
include h

theorem sub_ne (k : Nat) : sub n2.key n1.key k ≠ n2.key := by
  unfold sub
  split
  · exact h.ne
  next e => exact e

theorem fuse_eq : fuse n1 n2.key f = some (fused f n1 n2) := by
  have hs : strayLink f n2.key = false := by
    rw [Bool.eq_false_iff]
    intro hc
    simp only [strayLink, List.any_eq_true, Bool.and_eq_true, decide_eq_true_eq] at hc
    obtain ⟨n, hn, x, hx, ht, hm⟩ := hc
    rcases (h.form n hn x hx (by simp [ht])).2 with ⟨e, _⟩ | ⟨a, _, e, _⟩ <;> simp [e] at hm
  have hc : crossLink f n1 n2.key = false := by
    rw [Bool.eq_false_iff]
    intro hc
    simp only [crossLink, List.any_eq_true, Bool.and_eq_true, Bool.or_eq_true, decide_eq_true_eq] at hc
    obtain ⟨x, hx, ⟨_, hl⟩, hor⟩ := hc
    exact hor.elim h.named (h.cross x hx hl)
  unfold fuse
  rw [hs, hc]
  simp only [Bool.or_self, Bool.false_eq_true, if_false, Option.some.injEq]
  have hm : (f.map fun n => if n.id = n1.id then n else { n with attrs := n.attrs.map (relinkAttr n1.key n2.key) }) =
      f.map (rename (sub n2.key n1.key)) := by
    refine GroupDefs.map_congr_nodes fun n hn => ?_
    split
    next e =>
      refine (rename_id fun k hk => ?_).symm
      unfold sub
      rw [if_neg]
      rintro rfl
      exact h.ids n hn e hk
    · unfold rename
      congr 1
      exact List.map_congr_left fun x hx => relinkAttr_eq h.form hn hx _ _
  rw [hm]
  have hk := rename_key (sub n2.key n1.key)
  have hu : ∀ j ∈ (f.map (rename (sub n2.key n1.key))).prunedKeys (fun m => decide (m.key = n2.key)),
      (f.map (rename (sub n2.key n1.key))).isUsed j = false := by
    intro j hj
    rw [Bool.eq_false_iff]
    intro hc
    obtain ⟨y, hy, hl⟩ := Forest.isUsed_iff.1 hc
    rw [Forest.nodes_map] at hy
    obtain ⟨x, hx, rfl⟩ := List.mem_map.1 hy
    obtain ⟨i, hi, e⟩ := mem_rename_links.1 hl
    obtain ⟨z, hz, ez, hjz⟩ := Merge.mem_prunedKeys hj
    have ez : z.1.key = n2.key := by simpa using ez
    rcases hjz with rfl | hjz
    · exact sub_ne h i (e.trans ez)
    · have hkz := kidsOf_subs ((Forest.uniqueKeys_map hk).2 h.unique) (n := z.1) (c := z.2) hz
      rw [ez, kidsOf_map hk] at hkz
      obtain ⟨c, hc, e2⟩ := Option.map_eq_some_iff.1 hkz
      obtain ⟨i1, i2⟩ := h.inside c hc
      rw [← e2, Forest.keys_map hk] at hjz
      obtain ⟨d, hd, ed⟩ := Forest.mem_keys.1 hjz
      unfold sub at e
      split at e
      · exact i1 (e ▸ hjz)
      · have := i2 d hd
        rw [ed, ← e, Forest.isUsed_iff.2 ⟨x, hx, hi⟩] at this
        cases this
  exact Forest.map_id' fun n hn => unlink_pruned hu ((Forest.nodes_prune_sublist _ _).mem hn)

theorem fused_mem {y : Node} (hy : y ∈ (fused f n1 n2).nodes) : ∃ x ∈ f.nodes, x.key ≠ n2.key ∧ y = rename (sub n2.key n1.key) x := by
  have h1 := (Forest.nodes_prune_sublist _ _).mem hy
  rw [Forest.nodes_map] at h1
  obtain ⟨x, hx, rfl⟩ := List.mem_map.1 h1
  refine ⟨x, hx, ?_, rfl⟩
  exact of_decide_eq_false (Forest.mem_prune hy)

theorem fused_keep {x : Node} (hx : x ∈ f.nodes) (hk : x.key ≠ n2.key) (hc : ∀ c, f.kidsOf n2.key = some c → x ∉ c.nodes) :
    rename (sub n2.key n1.key) x ∈ (fused f n1 n2).nodes := by
  have hm : rename (sub n2.key n1.key) x ∈ (f.map (rename (sub n2.key n1.key))).nodes := by
    rw [Forest.nodes_map]; exact List.mem_map_of_mem hx
  obtain ⟨c, hs⟩ := mem_subs_of_node hm
  rcases GroupDefs.subs_pruned (p := fun m => decide (m.key = n2.key)) hs with ⟨_, h'⟩ | ⟨y, hy, hp, h'⟩
  · exact node_of_subs h'
  · have hp : y.1.key = n2.key := by simpa using hp
    rcases h' with h' | h'
    · rw [← h'] at hp; exact absurd hp hk
    · have hyk := kidsOf_subs ((Forest.uniqueKeys_map (rename_key (sub n2.key n1.key))).2 h.unique) (n := y.1) (c := y.2) hy
      rw [hp, kidsOf_map (rename_key (sub n2.key n1.key))] at hyk
      obtain ⟨d, hd, e⟩ := Option.map_eq_some_iff.1 hyk
      have := (Forest.nodes_prune_sublist _ _).mem (node_of_subs h')
      rw [← e, Forest.nodes_map] at this
      obtain ⟨z, hz, ez⟩ := List.mem_map.1 this
      have hzf : z ∈ f.nodes := by
        obtain ⟨w, _, hw⟩ := subs_kidsOf hd
        exact (Stops.subs_kids_sub hw).1.mem hz
      have := Forest.eq_of_key h.unique hzf hx (by have := congrArg Node.key ez; exact this)
      subst this
      exact absurd hz (hc d hd)

theorem fused_unique : (fused f n1 n2).UniqueKeys := Forest.uniqueKeys_prune ((Forest.uniqueKeys_map (rename_key _)).2 h.unique)

theorem fused_kids {x : Node} (hx : rename (sub n2.key n1.key) x ∈ (fused f n1 n2).nodes) :
    (fused f n1 n2).kidsOf x.key = (f.kidsOf x.key).map fun c => (c.map (rename (sub n2.key n1.key))).prune fun m => decide (m.key = n2.key) := by
  have := Forest.key_mem hx
  rw [rename_key] at this
  unfold fused at this ⊢
  rw [kidsOf_prune ((Forest.uniqueKeys_map (rename_key _)).2 h.unique) this, kidsOf_map (rename_key _), Option.map_map]
  rfl

theorem fused_drawn (hn : neverRendered n2.kind = true) : drawn (fused f n1 n2) = (drawn f).map (rename (sub n2.key n1.key)) := by
  have : fused f n1 n2 = (f.map (rename (sub n2.key n1.key))).prune fun m => decide (m.key = n2.key) && neverRendered m.kind := by
    refine GroupDefs.prune_congr fun m hm => ?_
    rw [Forest.nodes_map] at hm
    obtain ⟨x, hx, rfl⟩ := List.mem_map.1 hm
    by_cases e : x.key = n2.key
    · rw [rename_kind, Forest.eq_of_key h.unique hx h.mem2 e, hn]; simp
    · simp [rename_key, e]
  rw [this, drawn_prune fun m hm => ?_, GroupDefs.drawn_map_nodes fun m _ => rename_kind _ m]
  simp only [Bool.and_eq_true] at hm
  exact hm.2

end fuse

end Verif.Dupl
