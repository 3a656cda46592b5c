import Verif.SafeTree
import Verif.RegroupWhole
import Verif.ResolveUseLook
/-
C22 and C55 for `resolve_use` and `regroup_gradient_stops`.
-/
namespace Verif.Spec
open Verif.Dom
open Verif.UnusedDefs (kidsOf_subs subs_kidsOf setKids_self nodes_setKids node_of_subs)

/-! ### resolve_use.rs -/

section
open Verif.ResolveUse

theorem nodes_insertAfter {u : Nat} {l : Node} {lk f : Forest} (hf : f.UniqueKeys) (hu : u ∈ f.keys) :
    (insertAfter f u l lk).nodes.Perm ((l :: lk.nodes) ++ f.nodes) := by
  induction f with
  | nil => cases hu
  | cons n ks r ihk ihr =>
    obtain ⟨h1, h2, h3, h4, h5⟩ := UnusedDefs.nodup_cons hf
    simp only [insertAfter]
    by_cases hn : n.key = u
    · rw [if_pos hn]
      simp only [Forest.nodes]
      refine List.Perm.trans (List.Perm.cons _ ?_) List.perm_middle.symm
      have : ks.nodes ++ l :: (lk.nodes ++ r.nodes) = ks.nodes ++ ((l :: lk.nodes) ++ r.nodes) := rfl
      rw [this, ← List.append_assoc, ← List.append_assoc]
      exact List.Perm.append_right _ List.perm_append_comm
    · rw [if_neg hn]
      simp only [Forest.keys_cons] at hu
      simp only [Forest.nodes]
      rcases List.mem_cons.1 hu with hu | hu
      · exact absurd hu.symm hn
      · rcases List.mem_append.1 hu with hu | hu
        · rw [insertAfter_absent (h5 _ hu)]
          refine (List.Perm.cons _ (List.Perm.append_right _ (ihk h3 hu))).trans ?_
          rw [List.append_assoc]
          exact List.perm_middle.symm
        · rw [insertAfter_absent (fun e => h5 _ e hu)]
          refine (List.Perm.cons _ (List.Perm.append_left _ (ihr h4 hu))).trans ?_
          refine List.Perm.trans (List.Perm.cons _ ?_) List.perm_middle.symm
          rw [← List.append_assoc, ← List.append_assoc]
          exact List.Perm.append_right _ List.perm_append_comm

/-- One node is changed and put elsewhere. -/
theorem Step.swap {f g : Forest} {l l' : Node} {L : List Node} (hf : f.nodes.Perm (l :: L)) (hg : g.nodes.Perm (l' :: L)) (hm : mark l' = mark l)
    (hl : ∀ k ∈ l'.links, ∃ n ∈ f.nodes, k ∈ n.links) : Step f g := by
  have hall : ∀ m ∈ g.nodes, ∀ k ∈ m.links, ∃ n ∈ f.nodes, k ∈ n.links := by
    intro m hm k hk
    rcases List.mem_cons.1 (hg.mem_iff.1 hm) with rfl | hm
    · exact hl k hk
    · exact ⟨m, hf.mem_iff.2 (List.mem_cons_of_mem _ hm), hk⟩
  have hp : (g.nodes.map mark).Perm (f.nodes.map mark) := by
    refine (hg.map mark).trans (List.Perm.trans ?_ (hf.map mark).symm)
    rw [List.map_cons, List.map_cons, hm]
  refine ⟨hp.subperm, fun m hm k hk => .inl (hall m hm k hk), fun h m hm k hk => ?_⟩
  obtain ⟨n, hn, hk⟩ := hall m hm k hk
  have := h n hn k hk
  rw [keys_mark] at this ⊢
  exact (hp.map Prod.fst).mem_iff.2 this

theorem mild_shifted {n n' : Node} (h : shifted n = some n') : Mild n n' := by
  unfold shifted at h
  simp only at h
  split at h
  · split at h
    · cases h
    · cases h
      exact (((Mild.rm n _).trans (Mild.set _ _ rfl)).trans (Mild.rm _ _)).trans (Mild.rm _ _)
  · cases h; exact Mild.rm n _

theorem mark_copyAttrs (l : Node) (as : List Attr) : mark (copyAttrs l as) = mark l := by
  unfold copyAttrs
  induction as generalizing l with
  | nil => rfl
  | cons x t ih => rw [List.foldl_cons, ih]; exact mark_eq rfl rfl rfl

theorem tame_resolveOne {f g : Forest} {p : Node × Nat} (h : resolveOne f p = some g) : Tame f g := fun hu _ => by
  unfold resolveOne at h
  split at h
  next n l lk hn hs =>
    obtain ⟨hn, _⟩ := Forest.find_some hn
    obtain ⟨hs, hk⟩ := GroupDefs.subtree_mem hs
    split at h
    · cases h; exact Step.modify (fun n _ => Mild.rm n _) _
    next n' hn' =>
      split at h
      · cases h
      next hno =>
        cases h
        refine Step.trans ?_ (Step.remove _ _)
        have hk : l.key = p.2 := hk
        have hp : f.nodes.Perm ((f.prune fun m => decide (m.key = p.2)).nodes ++ l :: lk.nodes) := by
          have := GroupDefs.nodes_prune_one hu hs
          rwa [hk] at this
        have hup : (f.prune fun m => decide (m.key = p.2)).UniqueKeys := Forest.uniqueKeys_prune hu
        have hnp : n.key ∈ (f.prune fun m => decide (m.key = p.2)).keys := by
          have := (hp.map Node.key).mem_iff.1 (List.mem_map_of_mem (f := Node.key) hn)
          rw [List.map_append, List.map_cons] at this
          exact (List.mem_append.1 this).resolve_right hno
        refine Step.swap (l := l) (l' := copyAttrs l n'.attrs) (L := lk.nodes ++ (f.prune fun m => decide (m.key = p.2)).nodes) ?_ ?_ (mark_copyAttrs l _) ?_
        · exact hp.trans (List.perm_append_comm)
        · exact nodes_insertAfter hup hnp
        · intro k hk
          rcases copyAttrs_links hk with hk | hk
          · exact ⟨l, node_of_subs hs, hk⟩
          · exact ⟨n, hn, (mild_shifted hn').links k hk⟩
  · cases h

theorem tame_resolveUse {f g : Forest} (h : resolveUse f = some g) : Tame f g := by
  unfold resolveUse at h
  generalize pairs f = ps at h
  induction ps generalizing f with
  | nil => cases h; exact Tame.refl _
  | cons p ps ih =>
    rw [resolveAll] at h
    obtain ⟨f1, h1, h⟩ := Option.bind_eq_some_iff.1 h
    exact (tame_resolveOne h1).trans (ih h)

end

/-! ### regroup_gradient_stops.rs -/

section
open Verif.Regroup
open Verif.GroupStyle (freshKey)
open Verif.Invisible (rmKey rmKeys)

theorem rmKeys_pruned (ks : List Nat) (f : Forest) :
    ∃ h : Node → Node, (∀ n, mark (h n) = mark n) ∧ rmKeys ks f = (f.prune fun m => decide (m.key ∈ ks)).map h := by
  induction ks generalizing f with
  | nil =>
    refine ⟨id, fun _ => rfl, ?_⟩
    rw [Merge.map_id, GroupDefs.prune_id (by simp)]
    rfl
  | cons t ks ih =>
    obtain ⟨h, h1, h2⟩ := ih (rmKey t f)
    refine ⟨fun n => h (n.unlink fun k => decide (k ∈ f.prunedKeys fun m => decide (m.key = t))), fun n => (h1 _).trans (mark_unlink n _), ?_⟩
    show rmKeys ks (rmKey t f) = _
    rw [h2]
    unfold rmKey Forest.remove
    rw [GroupDefs.prune_map (h := fun n => n.unlink fun k => decide (k ∈ f.prunedKeys fun m => decide (m.key = t))) (fun _ => rfl) (fun k => decide (k ∈ ks)),
      GroupDefs.prune_prune, Forest.map_map]
    congr 2
    funext m
    simp [Bool.decide_or]

theorem Grow.safe {f g : Forest} (h : f.UniqueKeys → f.LinksOk → Grow f g) : Safe f g := fun hu hl => (h hu hl).keeps hu hl

theorem grow_split {f : Forest} {k : Nat} {c : Forest} (hc : f.kidsOf k = some c) {id : String} (hid : ∀ x ∈ f.nodes, x.id ≠ id) (hne : id ≠ "")
    (hu : f.UniqueKeys) (hl : f.LinksOk) :
    Grow f (split k (freshKey f) id f) ∧ ∃ t ∈ (split k (freshKey f) id f).nodes, t.key = freshKey f ∧ t.id ≠ "" := by
  obtain ⟨y, ey, hy⟩ := subs_kidsOf hc
  have hk : k ∈ f.keys := ey ▸ Forest.key_mem (node_of_subs hy)
  obtain ⟨A, hA⟩ := nodes_setKids hu hk
  have pf : f.nodes.Perm (A ++ c.nodes) := by
    have := hA c
    rwa [setKids_self hu hc] at this
  have p1 : (f.setKids k .nil).nodes.Perm A := by simpa [Forest.nodes] using hA .nil
  have hfr := fresh_key f
  let h : Node → Node := fun n => if n.key = k then n.set .xlinkHref (.link (freshKey f)) else n
  have hmk : ∀ n, mark (h n) = mark n := fun n => by
    show mark (if _ then _ else _) = _
    split
    · exact mark_eq rfl rfl rfl
    · rfl
  have hhk : ∀ n, (h n).key = n.key := fun n => mark_key (hmk n)
  have hnd : ((A ++ c.nodes).map Node.key).Nodup := (pf.map Node.key).nodup_iff.1 hu
  have hu2 : ((f.setKids k .nil).map h).UniqueKeys := by
    refine (Forest.uniqueKeys_map hhk).2 ?_
    refine (p1.map Node.key).nodup_iff.2 ?_
    rw [List.map_append] at hnd
    exact (List.nodup_append.1 hnd).1
  have hk2 : k ∈ ((f.setKids k .nil).map h).keys := by
    rw [Forest.keys_map hhk]
    obtain ⟨z, ez, hz⟩ := subs_kidsOf (UnusedDefs.kidsOf_setKids hc .nil)
    have := Forest.key_mem (node_of_subs hz)
    rwa [ez] at this
  have e : split k (freshKey f) id f = ((f.setKids k .nil).map h).insertBefore k (newNode (freshKey f) id) c := by
    unfold split; rw [hc]; rfl
  have hg : (split k (freshKey f) id f).nodes.Perm (newNode (freshKey f) id :: (c.nodes ++ A.map h)) := by
    rw [e]
    refine (nodes_insertBefore hu2 hk2 _ _).trans (List.Perm.cons _ (List.Perm.append_left _ ?_))
    rw [Forest.nodes_map]
    exact p1.map h
  have hkeys : (split k (freshKey f) id f).keys.Perm (freshKey f :: f.keys) := by
    refine (hg.map Node.key).trans ?_
    rw [List.map_cons, List.map_append, List.map_map]
    refine List.Perm.cons _ ?_
    refine List.Perm.trans ?_ (pf.map Node.key).symm
    rw [List.map_append]
    refine List.perm_append_comm.trans (List.Perm.append_right _ ?_)
    rw [List.map_congr_left (f := Node.key ∘ h) (g := Node.key) fun n _ => hhk n]
  have hmem : ∀ m ∈ (split k (freshKey f) id f).nodes, m = newNode (freshKey f) id ∨ ∃ n ∈ f.nodes, mark n = mark m ∧ ∀ j ∈ m.links, j = freshKey f ∨ j ∈ n.links := by
    intro m hm
    rcases List.mem_cons.1 (hg.mem_iff.1 hm) with rfl | hm
    · exact .inl rfl
    · rcases List.mem_append.1 hm with hm | hm
      · exact .inr ⟨m, pf.mem_iff.2 (List.mem_append_right _ hm), rfl, fun _ h => .inr h⟩
      · obtain ⟨n, hn, rfl⟩ := List.mem_map.1 hm
        refine .inr ⟨n, pf.mem_iff.2 (List.mem_append_left _ hn), (hmk n).symm, fun j hj => ?_⟩
        have hj : j ∈ (if n.key = k then n.set .xlinkHref (.link (freshKey f)) else n).links := hj
        split at hj
        · exact (Node.links_set_subset n _ _ hj).imp (fun h => Option.some.inj h.symm) _root_.id
        · exact .inr hj
  have hnew : newNode (freshKey f) id ∈ (split k (freshKey f) id f).nodes := hg.mem_iff.2 (by simp)
  refine ⟨⟨?_, ?_, ?_, ?_, ?_⟩, newNode (freshKey f) id, hnew, rfl, hne⟩
  · refine hkeys.nodup_iff.2 (List.nodup_cons.2 ⟨hfr, hu⟩)
  · intro m hm j hj
    rw [hkeys.mem_iff]
    rcases hmem m hm with rfl | ⟨n, hn, _, h⟩
    · simp [newNode, Node.links] at hj
    · rcases h j hj with rfl | hj
      · simp
      · exact List.mem_cons_of_mem _ (hl n hn j hj)
  · intro m hm
    rcases hmem m hm with rfl | ⟨n, hn, h, _⟩
    · exact .inr ⟨rfl, hfr, fun n hn _ => hid n hn⟩
    · exact .inl ⟨n, hn, h⟩
  · intro m hm m' hm' h1 h2 _ _
    rcases hmem m hm with rfl | ⟨n, hn, h, _⟩
    · rcases hmem m' hm' with rfl | ⟨n, hn, h, _⟩
      · rfl
      · exact absurd (mark_key h ▸ Forest.key_mem hn) h2
    · exact absurd (mark_key h ▸ Forest.key_mem hn) h1
  · intro m hm j hj
    rcases hmem m hm with rfl | ⟨n, hn, _, h⟩
    · simp [newNode, Node.links] at hj
    · rcases h j hj with rfl | hj
      · exact .inr (.inr ⟨_, hnew, rfl, hne⟩)
      · exact .inl ⟨n, hn, hj⟩

theorem tame_join {key j : Nat} {f : Forest} (hno : encloses key f j = false) (hu : f.UniqueKeys) (ht : ∃ t ∈ f.nodes, t.key = key ∧ t.id ≠ "") :
    Step f (join key f j) ∧ ∃ t ∈ (join key f j).nodes, t.key = key ∧ t.id ≠ "" := by
  unfold join
  unfold encloses at hno
  split
  next c hc =>
    rw [hc] at hno
    obtain ⟨h, h1, h2⟩ := rmKeys_pruned (c.top.map Node.key) f
    rw [prune_kids hu hc] at h2
    obtain ⟨t, ht, htk, hti⟩ := ht
    obtain ⟨y, ey, hy⟩ := subs_kidsOf hc
    have hj : j ∈ f.keys := ey ▸ Forest.key_mem (node_of_subs hy)
    obtain ⟨A, hA⟩ := nodes_setKids hu hj
    have pf : f.nodes.Perm (A ++ c.nodes) := by
      have := hA c
      rwa [setKids_self hu hc] at this
    have p1 : (f.setKids j .nil).nodes.Perm A := by simpa [Forest.nodes] using hA .nil
    have htA : t ∈ (f.setKids j .nil).nodes := by
      rcases List.mem_append.1 (pf.mem_iff.1 ht) with h | h
      · exact p1.mem_iff.2 h
      · have := Forest.key_mem h
        rw [htk] at this
        simp [this] at hno
    have ht' : ∃ t ∈ (rmKeys (c.top.map Node.key) f).nodes, t.key = key ∧ t.id ≠ "" := by
      refine ⟨h t, ?_, (mark_key (h1 t)).trans htk, by rw [mark_id (h1 t)]; exact hti⟩
      rw [h2, Forest.nodes_map]
      exact List.mem_map_of_mem htA
    have hm : ∀ n : Node, mark (if n.key = j then n.set .xlinkHref (.link key) else n) = mark n := fun n => by
      split
      · exact mark_eq rfl rfl rfl
      · rfl
    refine ⟨(Step.rmKeys _ f).trans (Step.map (fun n _ => hm n) fun n hn k hk => ?_), ?_⟩
    · split at hk
      · rcases Node.links_set_subset n _ _ hk with e | hk
        · obtain rfl : key = k := Option.some.inj e
          exact .inr ht'
        · exact .inl ⟨n, hn, hk⟩
      · exact .inl ⟨n, hn, hk⟩
    · obtain ⟨t, ht, e1, e2⟩ := ht'
      refine ⟨_, ?_, (mark_key (hm t)).trans e1, by rw [mark_id (hm t)]; exact e2⟩
      show _ ∈ (Forest.map _ _).nodes
      rw [Forest.nodes_map]
      exact List.mem_map_of_mem (f := fun n : Node => if n.key = j then n.set .xlinkHref (.link key) else n) ht
  · exact ⟨Step.refl f, ht⟩

theorem safe_joinAll {key : Nat} {js : List Nat} {f g : Forest} (h : joinAll key js f = some g) (ht : ∃ t ∈ f.nodes, t.key = key ∧ t.id ≠ "") : Tame f g := by
  induction js generalizing f with
  | nil => cases h; exact Tame.refl _
  | cons j js ih =>
    rw [joinAll] at h
    split at h
    · cases h
    next hno =>
      intro hu hl
      obtain ⟨h1, h2⟩ := tame_join (by simpa using hno) hu ht
      exact h1.trans (ih h h2 (h1.unique hu) (h1.links hl))

theorem safe_groupOne {k : Nat} {js : List Nat} {f g : Forest} {c : Forest} (hc : f.kidsOf k = some c) (h : groupOne k js f = some g) : Safe f g := by
  obtain ⟨i, _, hid, hfresh, _⟩ := GenId.C41_fresh f "lg"
  unfold groupOne at h
  rw [hid] at h
  intro hu hl
  obtain ⟨h1, h2⟩ := grow_split hc hfresh (by
    intro e
    have := congrArg String.length e
    rw [String.length_append] at this
    simp at this) hu hl
  exact (Safe.trans (g := split k (freshKey f) ("lg" ++ toString i) f) (Grow.safe fun _ _ => h1) (safe_joinAll h h2).safe) hu hl

theorem safe_regroupLoop {fuel : Nat} {ks : List Nat} {f : Forest} {r : Forest × Bool} (h : regroupLoop fuel ks f = some r) : Safe f r.1 := by
  induction fuel generalizing ks f r with
  | zero => cases ks <;> cases h <;> exact Safe.refl _
  | succ fuel ih =>
    cases ks with
    | nil => cases h; exact Safe.refl _
    | cons k ks =>
      rw [regroupLoop] at h
      split at h
      · exact ih h
      next hne =>
        obtain ⟨g, h1, h⟩ := Option.bind_eq_some_iff.1 h
        obtain ⟨r', h2, rfl⟩ := Option.map_eq_some_iff.1 h
        obtain ⟨j, hj⟩ := List.exists_mem_of_ne_nil (ks.filter (alike f k)) (fun e => hne (by rw [e]; rfl))
        obtain ⟨c, _, hc, _⟩ := alike_iff.1 (List.mem_filter.1 hj).2
        exact (safe_groupOne hc h1).trans (ih (r := r') h2)

theorem safe_regroup {f g : Forest} (h : regroup f = some g) : Safe f g := by
  unfold regroup at h
  obtain ⟨r, h1, h⟩ := Option.bind_eq_some_iff.1 h
  have := safe_regroupLoop h1
  split at h
  · exact this.trans (step_resolveLinear h).tame.safe
  · cases h; exact this

end

end Verif.Spec
