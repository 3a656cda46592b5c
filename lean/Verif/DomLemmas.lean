import Verif.Dom
import Mathlib.Data.List.Perm.Basic
import Mathlib.Data.List.Nodup
/- Lemmas about the DOM model. -/
namespace Verif.Dom

/-! ### Attributes -/

theorem getAttr_rm (as : List Attr) (a b : AName) : getAttr (rmAttr as b) a = if a = b then none else getAttr as a := by
  unfold getAttr rmAttr
  induction as with
  | nil => simp
  | cons x t ih =>
    by_cases hx : x.name = b
    · rw [List.filter_cons_of_neg (by simp [hx]), ih]
      by_cases h : a = b
      · simp [h]
      · have : ¬ x.name = a := fun e => h (e ▸ hx)
        simp [h, this]
    · rw [List.filter_cons_of_pos (by simp [hx])]
      by_cases h : x.name = a
      · subst h; simp [hx]
      · simp only [List.find?_cons, h, decide_false]
        exact ih

theorem getAttr_map_same (as : List Attr) (x : Attr) (a : AName) (h : a ≠ x.name) :
    getAttr (as.map (fun y => if y.name = x.name then x else y)) a = getAttr as a := by
  unfold getAttr
  induction as with
  | nil => rfl
  | cons y t ih =>
    simp only [List.map_cons, List.find?_cons]
    by_cases hy : y.name = x.name
    · simp only [hy, if_true]
      have : ¬ x.name = a := fun e => h e.symm
      simp [this, ih]
    · simp only [hy, if_false]; rw [ih]

theorem getAttr_map_new (as : List Attr) (x : Attr) (h : as.any (fun y => decide (y.name = x.name))) :
    getAttr (as.map (fun y => if y.name = x.name then x else y)) x.name = some x := by
  unfold getAttr
  induction as with
  | nil => simp at h
  | cons y t ih =>
    simp only [List.map_cons, List.find?_cons]
    by_cases hy : y.name = x.name
    · simp [hy]
    · simp only [hy, if_false, decide_false]
      apply ih
      simpa [hy] using h

theorem getAttr_put (as : List Attr) (x : Attr) (a : AName) :
    getAttr (putAttr as x) a = if a = x.name then some x else getAttr as a := by
  unfold putAttr
  by_cases hany : as.any (fun y => decide (y.name = x.name))
  · rw [if_pos hany]
    by_cases h : a = x.name
    · rw [if_pos h, h]; exact getAttr_map_new as x hany
    · rw [if_neg h]; exact getAttr_map_same as x a h
  · rw [if_neg hany]
    unfold getAttr
    rw [List.find?_append]
    by_cases h : a = x.name
    · subst h
      have : as.find? (fun y => decide (y.name = x.name)) = none := by
        rw [List.find?_eq_none]; intro y hy hc; exact hany (List.any_eq_true.2 ⟨y, hy, hc⟩)
      simp [this]
    · have : ¬ x.name = a := fun e => h e.symm
      simp [h, this]

theorem getAttr_hide (as : List Attr) (a b : AName) :
    getAttr (hideAttr as b) a = (getAttr as a).map (fun x => if a = b then { x with visible := false } else x) := by
  unfold getAttr hideAttr
  induction as with
  | nil => rfl
  | cons x t ih =>
    simp only [List.map_cons, List.find?_cons]
    by_cases hx : x.name = b
    · simp only [hx, if_true]
      by_cases h : b = a
      · subst h; simp [hx]
      · simp only [h, decide_false]; exact ih
    · simp only [hx, if_false]
      by_cases h : x.name = a
      · subst h; simp [hx]
      · simp only [h, decide_false]; exact ih

theorem getAttr_name {as : List Attr} {a : AName} {x : Attr} (h : getAttr as a = some x) : x.name = a := by
  have := List.find?_some h; simpa using this

theorem getAttr_mem {as : List Attr} {a : AName} {x : Attr} (h : getAttr as a = some x) : x ∈ as :=
  List.mem_of_find?_eq_some h

namespace Node

@[simp] theorem get_rm (n : Node) (a b : AId) : (n.rm b).get a = if a = b then none else n.get a := by
  unfold get rm; simp only [getAttr_rm]; by_cases h : a = b <;> simp [h]

@[simp] theorem has_rm (n : Node) (a b : AId) : (n.rm b).has a = if a = b then false else n.has a := by
  unfold has rm; simp only [getAttr_rm]; by_cases h : a = b <;> simp [h]

@[simp] theorem get_set (n : Node) (a b : AId) (v : Value) : (n.set b v).get a = if a = b then some v else n.get a := by
  unfold get set; simp only [getAttr_put]; by_cases h : a = b <;> simp [h]

@[simp] theorem has_set (n : Node) (a b : AId) (v : Value) : (n.set b v).has a = if a = b then true else n.has a := by
  unfold has set; simp only [getAttr_put]; by_cases h : a = b <;> simp [h]

@[simp] theorem get_hide (n : Node) (a b : AId) : (n.hide b).get a = n.get a := by
  unfold get hide; simp only [getAttr_hide, Option.map_map]
  cases getAttr n.attrs (.id a) with
  | none => rfl
  | some x => simp only [Option.map_some, Function.comp]; split <;> rfl

@[simp] theorem has_hide (n : Node) (a b : AId) : (n.hide b).has a = n.has a := by
  unfold has hide; simp [getAttr_hide]

@[simp] theorem key_rm (n : Node) (a : AId) : (n.rm a).key = n.key := rfl
@[simp] theorem key_set (n : Node) (a : AId) (v) : (n.set a v).key = n.key := rfl
@[simp] theorem key_hide (n : Node) (a : AId) : (n.hide a).key = n.key := rfl
@[simp] theorem kind_rm (n : Node) (a : AId) : (n.rm a).kind = n.kind := rfl
@[simp] theorem kind_set (n : Node) (a : AId) (v) : (n.set a v).kind = n.kind := rfl
@[simp] theorem kind_hide (n : Node) (a : AId) : (n.hide a).kind = n.kind := rfl
@[simp] theorem id_rm (n : Node) (a : AId) : (n.rm a).id = n.id := rfl
@[simp] theorem id_set (n : Node) (a : AId) (v) : (n.set a v).id = n.id := rfl
@[simp] theorem id_hide (n : Node) (a : AId) : (n.hide a).id = n.id := rfl
@[simp] theorem key_unlink (n : Node) (s) : (n.unlink s).key = n.key := rfl
@[simp] theorem kind_unlink (n : Node) (s) : (n.unlink s).kind = n.kind := rfl
@[simp] theorem id_unlink (n : Node) (s) : (n.unlink s).id = n.id := rfl

theorem isTag_iff (n : Node) (e : EId) : n.isTag e = true ↔ n.kind = .elem e := by simp [isTag]

theorem has_eq (n : Node) (a : AId) : n.has a = (n.get a).isSome := by unfold has get; simp

theorem links_unlink (n : Node) (s : Nat → Bool) : (n.unlink s).links = n.links.filter (fun k => !s k) := by
  unfold links unlink
  simp only
  generalize n.attrs = as
  induction as with
  | nil => rfl
  | cons x t ih =>
    simp only [List.filter_cons, List.filterMap_cons]
    cases ht : x.value.target with
    | none => simp [ht, ih]
    | some k =>
      by_cases hs : s k
      · simp [hs, ih]
      · simp [hs, ht, ih]

theorem mem_links {n : Node} {k : Nat} : k ∈ n.links ↔ ∃ x ∈ n.attrs, x.value.target = some k := by
  simp [links, List.mem_filterMap]

theorem links_rm_subset (n : Node) (a : AId) {k : Nat} (h : k ∈ (n.rm a).links) : k ∈ n.links := by
  rw [mem_links] at *
  obtain ⟨x, hx, hk⟩ := h
  exact ⟨x, List.mem_of_mem_filter hx, hk⟩

theorem links_hide (n : Node) (a : AId) : (n.hide a).links = n.links := by
  unfold links hide hideAttr; simp only [List.filterMap_map]
  congr 1; funext x; simp only [Function.comp]; split <;> rfl

theorem mem_putAttr {as : List Attr} {x y : Attr} (h : y ∈ putAttr as x) : y = x ∨ y ∈ as := by
  unfold putAttr at h
  split at h
  · simp only [List.mem_map] at h
    obtain ⟨z, hz, he⟩ := h
    split at he
    · exact .inl he.symm
    · exact .inr (he ▸ hz)
  · simp only [List.mem_append, List.mem_singleton] at h
    tauto

theorem links_set_subset (n : Node) (a : AId) (v : Value) {k : Nat} (h : k ∈ (n.set a v).links) :
    v.target = some k ∨ k ∈ n.links := by
  rw [mem_links] at *
  obtain ⟨x, hx, hk⟩ := h
  rcases mem_putAttr hx with rfl | hx
  · exact .inl hk
  · exact .inr ⟨x, hx, hk⟩

end Node

/-! ### Forests -/
namespace Forest

@[simp] theorem nodes_nil : nodes nil = [] := rfl
@[simp] theorem nodes_cons (n k r) : nodes (cons n k r) = n :: (k.nodes ++ r.nodes) := rfl
@[simp] theorem nil_append (f : Forest) : nil ++ f = f := rfl
@[simp] theorem cons_append (n k r) (f : Forest) : cons n k r ++ f = cons n k (r ++ f) := rfl

@[simp] theorem append_nil (f : Forest) : f ++ nil = f := by
  induction f with
  | nil => rfl
  | cons n k r _ ih => simp [ih]

theorem append_assoc (f g h : Forest) : (f ++ g) ++ h = f ++ (g ++ h) := by
  induction f with
  | nil => rfl
  | cons n k r _ ih => simp [ih]

@[simp] theorem nodes_append (f g : Forest) : (f ++ g).nodes = f.nodes ++ g.nodes := by
  induction f with
  | nil => rfl
  | cons n k r _ ih => simp [ih]

@[simp] theorem nodes_map (g : Node → Node) (f : Forest) : (f.map g).nodes = f.nodes.map g := by
  induction f with
  | nil => rfl
  | cons n k r ih1 ih2 => simp [map, ih1, ih2]

@[simp] theorem map_nil (g : Node → Node) : map g nil = nil := rfl
@[simp] theorem map_cons (g : Node → Node) (n k r) : map g (cons n k r) = cons (g n) (k.map g) (r.map g) := rfl

@[simp] theorem map_append (g : Node → Node) (f h : Forest) : (f ++ h).map g = f.map g ++ h.map g := by
  induction f with
  | nil => rfl
  | cons n k r _ ih => simp [ih]

theorem map_map (g h : Node → Node) (f : Forest) : (f.map g).map h = f.map (fun n => h (g n)) := by
  induction f with
  | nil => rfl
  | cons n k r ih1 ih2 => simp [ih1, ih2]

theorem map_congr {g h : Node → Node} {f : Forest} (e : ∀ n ∈ f.nodes, g n = h n) : f.map g = f.map h := by
  induction f with
  | nil => rfl
  | cons n k r ih1 ih2 =>
    simp only [map_cons]
    rw [e n (by simp), ih1 (fun m hm => e m (by simp [hm])), ih2 (fun m hm => e m (by simp [hm]))]

theorem map_id' {g : Node → Node} {f : Forest} (e : ∀ n ∈ f.nodes, g n = n) : f.map g = f := by
  induction f with
  | nil => rfl
  | cons n k r ih1 ih2 =>
    simp only [map_cons]
    rw [e n (by simp), ih1 (fun m hm => e m (by simp [hm])), ih2 (fun m hm => e m (by simp [hm]))]

@[simp] theorem keys_nil : keys nil = [] := rfl
@[simp] theorem keys_cons (n k r) : keys (cons n k r) = n.key :: (k.keys ++ r.keys) := by simp [keys]
@[simp] theorem keys_append (f g : Forest) : (f ++ g).keys = f.keys ++ g.keys := by simp [keys]

theorem keys_map {g : Node → Node} (h : ∀ n, (g n).key = n.key) (f : Forest) : (f.map g).keys = f.keys := by
  simp [keys, h, Function.comp_def]

theorem mem_keys {f : Forest} {k : Nat} : k ∈ f.keys ↔ ∃ n ∈ f.nodes, n.key = k := by simp [keys]

theorem key_mem {f : Forest} {n : Node} (h : n ∈ f.nodes) : n.key ∈ f.keys := mem_keys.2 ⟨n, h, rfl⟩

theorem nodes_prune_sublist (p : Node → Bool) (f : Forest) : (f.prune p).nodes.Sublist f.nodes := by
  induction f with
  | nil => exact List.Sublist.refl _
  | cons n k r ih1 ih2 =>
    simp only [prune]
    split
    · simp only [nodes_cons]
      exact (ih2.trans (List.sublist_append_right _ _)).cons _
    · simp only [nodes_cons]
      exact (ih1.append ih2).cons_cons _

theorem mem_prune {p : Node → Bool} {f : Forest} {n : Node} (h : n ∈ (f.prune p).nodes) : p n = false := by
  induction f with
  | nil => simp [prune] at h
  | cons m k r ih1 ih2 =>
    simp only [prune] at h
    split at h
    · exact ih2 h
    · simp only [nodes_cons, List.mem_cons, List.mem_append] at h
      rename_i hp
      rcases h with rfl | h | h
      · simpa using hp
      · exact ih1 h
      · exact ih2 h

theorem keys_prune_perm (p : Node → Bool) (f : Forest) : (f.prunedKeys p ++ (f.prune p).keys).Perm f.keys := by
  induction f with
  | nil => exact .refl _
  | cons n k r ih1 ih2 =>
    simp only [prune, prunedKeys]
    split
    · simp only [keys_cons, List.cons_append, List.append_assoc]
      exact ((List.Perm.append_left _ ih2)).cons _
    · simp only [keys_cons]
      have h1 := ih1.append ih2
      calc (k.prunedKeys p ++ r.prunedKeys p) ++ n.key :: ((k.prune p).keys ++ (r.prune p).keys)
          |>.Perm (n.key :: ((k.prunedKeys p ++ r.prunedKeys p) ++ ((k.prune p).keys ++ (r.prune p).keys))) :=
            List.perm_middle
        _ |>.Perm (n.key :: ((k.prunedKeys p ++ (k.prune p).keys) ++ (r.prunedKeys p ++ (r.prune p).keys))) := by
            refine List.Perm.cons _ ?_
            simp only [List.append_assoc]
            refine List.Perm.append_left _ ?_
            exact List.perm_append_comm_assoc _ _ _
        _ |>.Perm (n.key :: (k.keys ++ r.keys)) := h1.cons _

/-- In a document with unique keys a dropped key is not the key of a kept node. -/
theorem not_mem_pruned {p : Node → Bool} {f : Forest} (h : f.UniqueKeys) {k : Nat} (hk : k ∈ (f.prune p).keys) :
    k ∉ f.prunedKeys p := by
  have := (keys_prune_perm p f).nodup_iff.2 h
  intro hc
  exact (List.nodup_append.1 this).2.2 _ hc _ hk rfl

theorem uniqueKeys_prune {p : Node → Bool} {f : Forest} (h : f.UniqueKeys) : (f.prune p).UniqueKeys := by
  have := (keys_prune_perm p f).nodup_iff.2 h
  exact (List.nodup_append.1 this).2.1

theorem keys_remove (p : Node → Bool) (f : Forest) : (f.remove p).keys = (f.prune p).keys :=
  keys_map (by simp) _

theorem uniqueKeys_remove {p : Node → Bool} {f : Forest} (h : f.UniqueKeys) : (f.remove p).UniqueKeys := by
  unfold UniqueKeys; rw [keys_remove]; exact uniqueKeys_prune h

theorem linksOk_remove {p : Node → Bool} {f : Forest} (h : f.LinksOk) : (f.remove p).LinksOk := by
  intro n hn k hk
  rw [keys_remove]
  simp only [remove, nodes_map, List.mem_map] at hn
  obtain ⟨m, hm, rfl⟩ := hn
  rw [Node.links_unlink] at hk
  simp only [List.mem_filter, Bool.not_eq_eq_eq_not, Bool.not_true, decide_eq_false_iff_not] at hk
  have hk' := h m ((nodes_prune_sublist p f).subset hm) k hk.1
  have := (keys_prune_perm p f).mem_iff.2 hk'
  simp only [List.mem_append] at this
  exact this.resolve_left hk.2

theorem mem_remove {p : Node → Bool} {f : Forest} {n : Node} (h : n ∈ (f.remove p).nodes) :
    ∃ m ∈ (f.prune p).nodes, n = m.unlink (fun k => decide (k ∈ f.prunedKeys p)) := by
  simp only [remove, nodes_map, List.mem_map] at h
  obtain ⟨m, hm, rfl⟩ := h
  exact ⟨m, hm, rfl⟩

theorem find_some {f : Forest} {k : Nat} {n : Node} (h : f.find k = some n) : n ∈ f.nodes ∧ n.key = k := by
  have h1 := List.mem_of_find?_eq_some h
  have h2 := List.find?_some h
  exact ⟨h1, by simpa using h2⟩

theorem eq_of_key {f : Forest} (h : f.UniqueKeys) {m n : Node} (hm : m ∈ f.nodes) (hn : n ∈ f.nodes)
    (e : m.key = n.key) : m = n := by
  have := List.inj_on_of_nodup_map (f := Node.key) h
  exact this hm hn e

theorem find_of_mem {f : Forest} (h : f.UniqueKeys) {n : Node} (hn : n ∈ f.nodes) : f.find n.key = some n := by
  unfold find
  cases hc : f.nodes.find? (fun m => decide (m.key = n.key)) with
  | none =>
    rw [List.find?_eq_none] at hc
    exact absurd (hc n hn) (by simp)
  | some m =>
    have h1 := List.mem_of_find?_eq_some hc
    have h2 := List.find?_some hc
    rw [eq_of_key h h1 hn (by simpa using h2)]

theorem find_isSome {f : Forest} {k : Nat} (h : k ∈ f.keys) : ∃ n, f.find k = some n := by
  obtain ⟨n, hn, hk⟩ := mem_keys.1 h
  cases hc : f.find k with
  | some m => exact ⟨m, rfl⟩
  | none =>
    unfold find at hc
    rw [List.find?_eq_none] at hc
    exact absurd (hc n hn) (by simp [hk])

theorem find_none {f : Forest} {k : Nat} (h : k ∉ f.keys) : f.find k = none := by
  cases hc : f.find k with
  | none => rfl
  | some m => exact absurd (mem_keys.2 ⟨m, find_some hc⟩) h

theorem find_map {g : Node → Node} (hg : ∀ n, (g n).key = n.key) (f : Forest) (k : Nat) :
    (f.map g).find k = (f.find k).map g := by
  unfold find
  rw [nodes_map, List.find?_map]
  congr 1
  congr 1
  funext n
  simp [hg]

theorem isUsed_iff {f : Forest} {k : Nat} : f.isUsed k = true ↔ ∃ n ∈ f.nodes, k ∈ n.links := by
  simp [isUsed]

theorem uniqueKeys_map {g : Node → Node} (hg : ∀ n, (g n).key = n.key) {f : Forest} :
    (f.map g).UniqueKeys ↔ f.UniqueKeys := by
  unfold UniqueKeys; rw [keys_map hg]

theorem linksOk_map {g : Node → Node} (hg : ∀ n, (g n).key = n.key)
    (hl : ∀ n, ∀ k ∈ (g n).links, k ∈ n.links) {f : Forest} (h : f.LinksOk) : (f.map g).LinksOk := by
  intro n hn k hk
  rw [keys_map hg]
  simp only [nodes_map, List.mem_map] at hn
  obtain ⟨m, hm, rfl⟩ := hn
  exact h m hm k (hl m k hk)

end Forest

end Verif.Dom
