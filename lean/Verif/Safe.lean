import Verif.SafeSpec
/-
The tools for C22 and C55: a task that neither makes nodes nor gives them other names keeps everything.
-/
namespace Verif.Spec
open Verif.Dom
open Verif.Simple (Targeted OnlySvgIds)
open Verif.Regroup (IdsUnique)

theorem foreign_iff {n : Node} : Foreign n ↔ n.isSvgElem = false := by
  obtain ⟨k, kind, i, as⟩ := n
  cases kind <;> simp [Foreign, Node.isSvgElem]

theorem Keeps.trans {f g h : Forest} (h1 : Keeps f g) (h2 : Keeps g h) : Keeps f h where
  unique := h2.unique
  links := h2.links
  lasting m hm hf := by
    obtain ⟨n, hn, e1, e2⟩ := h2.lasting m hm hf
    obtain ⟨l, hl, e3, e4⟩ := h1.lasting n hn (fun e => by rw [e2]; exact hf e)
    exact ⟨l, hl, e3.trans e1, e4.trans e2⟩
  targeted h := h2.targeted (h1.targeted h)
  ids hi ho := h2.ids (h1.ids hi ho).1 (h1.ids hi ho).2

theorem Safe.trans {f g h : Forest} (h1 : Safe f g) (h2 : Safe g h) : Safe f h :=
  fun hu hl => (h1 hu hl).trans (h2 (h1 hu hl).unique (h1 hu hl).links)

theorem Safe.refl (f : Forest) : Safe f f :=
  fun hu hl => ⟨hu, hl, fun m hm _ => ⟨m, hm, rfl, rfl⟩, id, fun h1 h2 => ⟨h1, h2⟩⟩

/-- What a task must not change of a node, unless it is a task that does. -/
def loose (n : Node) : Bool := match n.kind with
  | .elem e => remade e
  | _ => false

theorem loose_svg {n : Node} (h : loose n = true) : n.isSvgElem = true := by
  obtain ⟨k, kind, i, as⟩ := n
  cases kind <;> simp_all [loose, Node.isSvgElem]

theorem lasting_iff {n : Node} : Lasting n ↔ loose n = false := by
  obtain ⟨k, kind, i, as⟩ := n
  cases kind <;> simp [Lasting, loose]

/-- Key, id and, unless it is one of those that the cleaner makes or replaces, kind. -/
def mark (n : Node) : Nat × String × Option Kind := (n.key, n.id, if loose n then none else some n.kind)

/-- The references of a document are among those of another one, or go to nodes that had an id there. -/
def Named (f g : Forest) : Prop :=
  ∀ m ∈ g.nodes, ∀ k ∈ m.links, (∃ n ∈ f.nodes, k ∈ n.links) ∨ ∃ t ∈ f.nodes, t.key = k ∧ t.id ≠ ""

theorem mem_mark {f g : Forest} (h : (g.nodes.map mark).Subperm (f.nodes.map mark)) {m : Node} (hm : m ∈ g.nodes) : ∃ n ∈ f.nodes, mark n = mark m := by
  have := h.subset (List.mem_map_of_mem (f := mark) hm)
  obtain ⟨n, hn, e⟩ := List.mem_map.1 this
  exact ⟨n, hn, e⟩

theorem mark_key {n m : Node} (h : mark n = mark m) : n.key = m.key := congrArg Prod.fst h
theorem mark_id {n m : Node} (h : mark n = mark m) : n.id = m.id := congrArg (fun x => x.2.1) h

theorem mark_loose {n m : Node} (h : mark n = mark m) : loose n = loose m := by
  have h3 : (if loose n then none else some n.kind) = (if loose m then none else some m.kind) := congrArg (fun x => x.2.2) h
  cases hn : loose n <;> cases hm : loose m <;> simp_all

theorem mark_kind {n m : Node} (h : mark n = mark m) (hm : loose m = false) : n.kind = m.kind := by
  have h3 : (if loose n then none else some n.kind) = (if loose m then none else some m.kind) := congrArg (fun x => x.2.2) h
  rw [if_neg (by rw [mark_loose h, hm]; simp), if_neg (by simp [hm])] at h3
  exact Option.some.inj h3

theorem mark_svg {n m : Node} (h : mark n = mark m) : n.isSvgElem = m.isSvgElem := by
  cases hm : loose m
  · unfold Node.isSvgElem; rw [mark_kind h hm]
  · rw [loose_svg hm, loose_svg ((mark_loose h).trans hm)]

theorem mark_eq {n m : Node} (h1 : n.key = m.key) (h2 : n.id = m.id) (h3 : n.kind = m.kind) : mark n = mark m := by
  unfold mark loose; rw [h1, h2, h3]

theorem keys_mark (f : Forest) : f.keys = (f.nodes.map mark).map Prod.fst := by
  simp [Forest.keys, mark, Function.comp_def]

/-- A task that makes no nodes and gives them no other names. -/
structure Step (f g : Forest) : Prop where
  marks : (g.nodes.map mark).Subperm (f.nodes.map mark)
  named : Named f g
  links : f.LinksOk → g.LinksOk

theorem Step.unique {f g : Forest} (h : Step f g) (hu : f.UniqueKeys) : g.UniqueKeys := by
  unfold Forest.UniqueKeys at *
  rw [keys_mark] at *
  obtain ⟨l, hp, hs⟩ := h.marks
  exact (hp.map Prod.fst).nodup_iff.1 ((hs.map Prod.fst).nodup hu)

theorem Step.refl (f : Forest) : Step f f := ⟨List.Subperm.refl _, fun m hm _ hk => .inl ⟨m, hm, hk⟩, id⟩

theorem Step.trans {f g h : Forest} (h1 : Step f g) (h2 : Step g h) : Step f h where
  marks := h2.marks.trans h1.marks
  named m hm k hk := by
    rcases h2.named m hm k hk with ⟨n, hn, hk⟩ | ⟨t, ht, e, hi⟩
    · exact h1.named n hn k hk
    · obtain ⟨t', ht', e'⟩ := mem_mark h1.marks ht
      exact .inr ⟨t', ht', (mark_key e').trans e, by rw [mark_id e']; exact hi⟩
  links h := h2.links (h1.links h)

theorem Step.safe {f g : Forest} (h : Step f g) : Safe f g := fun hu hl => by
  have hgl := h.links hl
  refine ⟨h.unique hu, hgl, ?_, ?_, ?_⟩
  · intro m hm hf
    obtain ⟨n, hn, e⟩ := mem_mark h.marks hm
    exact ⟨n, hn, mark_key e, mark_kind e (lasting_iff.1 hf)⟩
  · intro ht m hm k hk
    obtain ⟨t, htg, rfl⟩ := Forest.mem_keys.1 (hgl m hm k hk)
    refine ⟨t, htg, rfl, ?_⟩
    obtain ⟨n, hn, e⟩ := mem_mark h.marks htg
    have : ∃ s ∈ f.nodes, s.key = t.key ∧ s.id ≠ "" := by
      rcases h.named m hm _ hk with ⟨x, hx, hk⟩ | hx
      · exact ht x hx _ hk
      · exact hx
    obtain ⟨s, hs, e1, e2⟩ := this
    have : s = n := Forest.eq_of_key hu hs hn (e1.trans (mark_key e).symm)
    rw [← mark_id e, ← this]; exact e2
  · intro hi ho
    refine ⟨fun x hx y hy hne e => ?_, fun x hx hne => ?_⟩
    · obtain ⟨a, ha, ea⟩ := mem_mark h.marks hx
      obtain ⟨b, hb, eb⟩ := mem_mark h.marks hy
      rw [← mark_key ea, ← mark_key eb]
      exact hi a ha b hb (by rw [mark_id ea]; exact hne) (by rw [mark_id ea, mark_id eb]; exact e)
    · obtain ⟨a, ha, ea⟩ := mem_mark h.marks hx
      rw [← mark_svg ea]
      exact ho a ha (by rw [mark_id ea]; exact hne)

theorem marks_map {l : List Node} {h : Node → Node} (hm : ∀ n ∈ l, mark (h n) = mark n) : (l.map h).map mark = l.map mark := by
  rw [List.map_map]
  exact List.map_congr_left hm

theorem Step.of_nodes {f g : Forest} {h : Node → Node} (e : g.nodes = f.nodes.map h) (hm : ∀ n ∈ f.nodes, mark (h n) = mark n)
    (hl : ∀ n ∈ f.nodes, ∀ k ∈ (h n).links, (∃ m ∈ f.nodes, k ∈ m.links) ∨ ∃ t ∈ f.nodes, t.key = k ∧ t.id ≠ "") : Step f g where
  marks := by
    rw [e, marks_map hm]
  named m hm k hk := by
    rw [e] at hm
    obtain ⟨n, hn, rfl⟩ := List.mem_map.1 hm
    exact hl n hn k hk
  links h m hm' k hk := by
    have hkeys : g.keys = f.keys := by
      rw [keys_mark, keys_mark, e, marks_map hm]
    rw [hkeys]
    rw [e] at hm'
    obtain ⟨n, hn, rfl⟩ := List.mem_map.1 hm'
    rcases hl n hn k hk with ⟨m, hm, hk⟩ | ⟨t, ht, rfl, _⟩
    · exact h m hm k hk
    · exact Forest.key_mem ht

theorem Step.map {f : Forest} {h : Node → Node} (hm : ∀ n ∈ f.nodes, mark (h n) = mark n)
    (hl : ∀ n ∈ f.nodes, ∀ k ∈ (h n).links, (∃ m ∈ f.nodes, k ∈ m.links) ∨ ∃ t ∈ f.nodes, t.key = k ∧ t.id ≠ "") : Step f (f.map h) :=
  Step.of_nodes (Forest.nodes_map _ _) hm hl

theorem Step.map' {f : Forest} {h : Node → Node} (hm : ∀ n ∈ f.nodes, mark (h n) = mark n) (hl : ∀ n ∈ f.nodes, ∀ k ∈ (h n).links, k ∈ n.links) :
    Step f (f.map h) := Step.map hm fun n hn k hk => .inl ⟨n, hn, hl n hn k hk⟩

/-- The nodes are changed one by one. -/
theorem Step.forall₂ {f g : Forest} (h : List.Forall₂ (fun n m => mark m = mark n ∧ ∀ k ∈ m.links, (∃ x ∈ f.nodes, k ∈ x.links) ∨ ∃ t ∈ f.nodes, t.key = k ∧ t.id ≠ "") f.nodes g.nodes) :
    Step f g := by
  have hmarks : g.nodes.map mark = f.nodes.map mark := by
    have : ∀ {l l' : List Node} {P : Node → Prop}, List.Forall₂ (fun n m => mark m = mark n ∧ P m) l l' → l'.map mark = l.map mark := by
      intro l l' P h
      induction h with
      | nil => rfl
      | cons h _ ih => simp only [List.map_cons, h.1, ih]
    exact this h
  have hmem : ∀ {m}, m ∈ g.nodes → ∀ k ∈ m.links, (∃ x ∈ f.nodes, k ∈ x.links) ∨ ∃ t ∈ f.nodes, t.key = k ∧ t.id ≠ "" := by
    intro m hm
    obtain ⟨n, _, hn⟩ := Simple.forall₂_mem_right h hm
    exact hn.2
  refine ⟨hmarks ▸ List.Subperm.refl _, fun m hm => hmem hm, fun hl m hm k hk => ?_⟩
  have hkeys : g.keys = f.keys := by rw [keys_mark, keys_mark, hmarks]
  rw [hkeys]
  rcases hmem hm k hk with ⟨m, hm, hk⟩ | ⟨t, ht, rfl, _⟩
  · exact hl m hm k hk
  · exact Forest.key_mem ht

theorem mark_unlink (n : Node) (s : Nat → Bool) : mark (n.unlink s) = mark n := mark_eq rfl rfl rfl

theorem links_unlink {n : Node} {s : Nat → Bool} {k : Nat} (h : k ∈ (n.unlink s).links) : k ∈ n.links := by
  rw [Node.links_unlink] at h
  exact List.mem_of_mem_filter h

theorem Step.remove (p : Node → Bool) (f : Forest) : Step f (f.remove p) where
  marks := by
    unfold Forest.remove
    rw [Forest.nodes_map, marks_map fun n _ => mark_unlink n _]
    exact ((Forest.nodes_prune_sublist p f).map mark).subperm
  named m hm k hk := by
    obtain ⟨n, hn, rfl⟩ := Forest.mem_remove hm
    exact .inl ⟨n, (Forest.nodes_prune_sublist p f).subset hn, links_unlink hk⟩
  links := Forest.linksOk_remove

theorem Step.rmKey (k : Nat) (f : Forest) : Step f (Invisible.rmKey k f) := Step.remove _ f

theorem Step.rmKeys (ks : List Nat) (f : Forest) : Step f (Invisible.rmKeys ks f) := by
  unfold Invisible.rmKeys
  induction ks generalizing f with
  | nil => exact Step.refl f
  | cons k t ih => exact (Step.rmKey k f).trans (ih _)

theorem Step.foldl {α : Type} {g : Forest → α → Forest} (h : ∀ f x, Step f (g f x)) (l : List α) (f : Forest) : Step f (l.foldl g f) := by
  induction l generalizing f with
  | nil => exact Step.refl f
  | cons x t ih => exact (h f x).trans (ih _)

theorem Step.foldl_fst {α β : Type} {g : Forest × β → α → Forest × β} (h : ∀ x a, Step x.1 (g x a).1) (l : List α) (x : Forest × β) :
    Step x.1 (l.foldl g x).1 := by
  induction l generalizing x with
  | nil => exact Step.refl _
  | cons a t ih => exact (h x a).trans (ih _)

theorem Step.drain (p : Node → Forest → Bool) (f : Forest) : Step f (Invisible.drain p f).1 := by
  unfold Invisible.drain
  refine Step.foldl_fst (x := (f, false)) (fun x k => ?_) _
  split
  · split
    · exact Step.rmKey _ _
    · exact Step.refl _
  · exact Step.refl _

theorem Step.forEach {g : Nat → Forest → Option Forest} (h : ∀ k f f', g k f = some f' → Step f f') {l : List Nat} {f f' : Forest}
    (e : Gradients.forEach g l f = some f') : Step f f' := by
  induction l generalizing f with
  | nil => cases e; exact Step.refl _
  | cons k t ih =>
    simp only [Gradients.forEach] at e
    obtain ⟨f1, h1, h2⟩ := Option.bind_eq_some_iff.1 e
    exact (h k f f1 h1).trans (ih h2)

end Verif.Spec
