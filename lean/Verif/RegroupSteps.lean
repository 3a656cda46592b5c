import Verif.RegroupProps
/-
Property C40, second part: the two steps of the pass.
-/
namespace Verif.Regroup
open Verif.Dom Verif.Spec
open Verif.UnusedDefs (kidsOf_none setKids_not_mem kidsOf_subs subs_kidsOf kidsOf_setKids setKids_self nodes_setKids drawn_setKids mem_subs_of_node
  node_of_subs nodup_cons)
open Verif.GroupDefs (kidsOf_prune kidsOf_map prune_id drawn_prune)
open Verif.Merge (written_link written_some written_none isGradient_kind mem_drawn)
open Verif.Invisible (rmKey rmKeys unlink_pruned)

/-- A gradient that can take its stops from another one. -/
structure Cand (f : Forest) (n : Node) : Prop where
  mem : n ∈ f.nodes
  grad : n.isGradient = true
  free : n.get .xlinkHref = none
  kids : ∃ c, f.kidsOf n.key = some c ∧ c.top ≠ []

theorem never {x : Node} (h : x.isGradient = true) : neverRendered x.kind = true := by
  rcases isGradient_kind.1 h with h | h <;> rw [h] <;> rfl

/-! ### A new gradient -/

theorem insertBefore_not_mem {f : Forest} {k : Nat} (h : k ∉ f.keys) (n : Node) (c : Forest) : f.insertBefore k n c = f := by
  induction f with
  | nil => rfl
  | cons x a r ih1 ih2 =>
    rw [Forest.keys_cons] at h
    simp only [List.mem_cons, List.mem_append, not_or] at h
    rw [Forest.insertBefore, if_neg fun e => h.1 e.symm, ih1 h.2.1, ih2 h.2.2]

theorem nodes_insertBefore {f : Forest} (hu : f.UniqueKeys) {k : Nat} (hk : k ∈ f.keys) (n : Node) (c : Forest) :
    (f.insertBefore k n c).nodes.Perm (n :: (c.nodes ++ f.nodes)) := by
  induction f with
  | nil => simp at hk
  | cons x a r ih1 ih2 =>
    obtain ⟨h1, h2, h3, h4, h5⟩ := nodup_cons hu
    rw [Forest.insertBefore]
    split
    · simp [Forest.nodes]
    next hx =>
      rw [Forest.keys_cons] at hk
      rcases List.mem_cons.1 hk with rfl | hk
      · exact absurd rfl hx
      · rcases List.mem_append.1 hk with hk | hk
        · have hr : k ∉ r.keys := fun hr => h5 k hk hr
          rw [insertBefore_not_mem hr]
          simp only [Forest.nodes]
          have := ih1 h3 hk
          refine (List.Perm.cons x (this.append_right _)).trans ?_
          rw [List.cons_append]
          refine (List.Perm.swap _ _ _).trans (List.Perm.cons _ ?_)
          rw [List.append_assoc]
          exact (List.perm_middle (l₁ := c.nodes) (a := x) (l₂ := a.nodes ++ r.nodes)).symm
        · have ha : k ∉ a.keys := fun ha => h5 k ha hk
          rw [insertBefore_not_mem ha]
          simp only [Forest.nodes]
          have := ih2 h4 hk
          refine (List.Perm.cons x (this.append_left _)).trans ?_
          refine (List.Perm.cons x List.perm_middle).trans ((List.Perm.swap _ _ _).trans (List.Perm.cons _ ?_))
          refine (List.Perm.cons x ?_).trans (List.perm_middle (l₁ := c.nodes) (a := x) (l₂ := a.nodes ++ r.nodes)).symm
          rw [← List.append_assoc, ← List.append_assoc]
          exact List.perm_append_comm.append_right _

theorem kidsOf_insertBefore_new {f : Forest} {k : Nat} (hk : k ∈ f.keys) {n : Node} (hn : n.key ∉ f.keys) (c : Forest) :
    (f.insertBefore k n c).kidsOf n.key = some c := by
  induction f with
  | nil => simp at hk
  | cons x a r ih1 ih2 =>
    rw [Forest.keys_cons] at hk hn
    simp only [List.mem_cons, List.mem_append, not_or] at hn
    rw [Forest.insertBefore]
    split
    · rw [Forest.kidsOf, if_pos rfl]
    next hx =>
      rw [Forest.kidsOf, if_neg fun e => hn.1 e.symm]
      by_cases ha : k ∈ a.keys
      · rw [ih1 ha hn.2.1]; rfl
      · rw [insertBefore_not_mem ha, kidsOf_none hn.2.1, Option.none_or]
        refine ih2 ?_ hn.2.2
        simp only [List.mem_cons, List.mem_append] at hk
        rcases hk with rfl | hk | hk
        · exact absurd rfl hx
        · exact absurd hk ha
        · exact hk

theorem kidsOf_insertBefore {f : Forest} (hu : f.UniqueKeys) {k j : Nat} {n : Node} {c : Forest} (hj : j ≠ n.key) (hc : j ∉ c.keys) :
    (f.insertBefore k n c).kidsOf j = (f.kidsOf j).map (·.insertBefore k n c) := by
  induction f with
  | nil => rfl
  | cons x a r ih1 ih2 =>
    obtain ⟨h1, h2, h3, h4, h5⟩ := nodup_cons hu
    rw [Forest.insertBefore]
    by_cases e : x.key = k
    · subst e
      rw [if_pos rfl, Forest.kidsOf, if_neg fun e => hj e.symm, kidsOf_none hc, Option.none_or]
      have hid : ∀ d, (Forest.cons x a r).kidsOf j = some d → x.key ∉ d.keys := by
        intro d hd hx
        rw [Forest.kidsOf] at hd
        split at hd
        · cases hd; exact h1 hx
        · cases ha : a.kidsOf j with
          | some d' =>
            rw [ha] at hd
            cases hd
            obtain ⟨y, _, hy⟩ := subs_kidsOf ha
            exact h1 (GroupDefs.kids_subs hy hx)
          | none =>
            rw [ha, Option.none_or] at hd
            obtain ⟨y, _, hy⟩ := subs_kidsOf hd
            exact h2 (GroupDefs.kids_subs hy hx)
      cases hd : (Forest.cons x a r).kidsOf j with
      | none => rfl
      | some d => rw [Option.map_some, insertBefore_not_mem (hid d hd)]
    · rw [if_neg e, Forest.kidsOf, Forest.kidsOf]
      split
      · rfl
      · rw [ih1 h3, ih2 h4]
        cases a.kidsOf j <;> rfl

theorem drawn_insertBefore (f : Forest) (k : Nat) {n : Node} (hn : neverRendered n.kind = true) (c : Forest) : drawn (f.insertBefore k n c) = drawn f := by
  induction f with
  | nil => rfl
  | cons x a r ih1 ih2 =>
    rw [Forest.insertBefore]
    split
    · rw [drawn, if_pos hn]
    · rw [drawn, drawn, ih1, ih2]

theorem split_ok {f : Forest} (hf : Good f) {n : Node} (hn : Cand f n) {key : Nat} (hk : key ∉ f.keys) (id : String) :
    Relink f (split n.key key id f) n (newNode key id) ∧ (split n.key key id f).nodes.Perm (newNode key id :: f.nodes.map (point n key)) ∧
      drawn (split n.key key id f) = drawn f ∧ (split n.key key id f).kidsOf key = f.kidsOf n.key := by
  obtain ⟨c, hc, htop⟩ := hn.kids
  have hu := hf.unique
  have hnk := Forest.key_mem hn.mem
  have hnc := hf.inside hn.mem hn.grad hc hn.mem hn.grad
  have hkn : n.key ≠ key := fun e => hk (e ▸ hnk)
  obtain ⟨A, hA⟩ := nodes_setKids hu hnk
  have pf : f.nodes.Perm (A ++ c.nodes) := by
    have := hA c
    rwa [setKids_self hu hc] at this
  have p1 : (f.setKids n.key .nil).nodes.Perm A := by simpa using hA .nil
  have hmap : c.nodes.map (point n key) = c.nodes := by
    conv => rhs; rw [← List.map_id c.nodes]
    exact List.map_congr_left fun d hd => point_ne fun e => hnc (e ▸ Forest.key_mem hd)
  have e : split n.key key id f = ((f.setKids n.key .nil).map (point n key)).insertBefore n.key (newNode key id) c := by
    unfold split; rw [hc]; rfl
  have hcf : ∀ d ∈ c.nodes, d ∈ f.nodes := fun d hd => (Stops.subs_kids_sub (hf.kids hn.mem hc)).1.mem hd
  have hkc : key ∉ c.keys := by
    intro h
    obtain ⟨d, hd, rfl⟩ := Forest.mem_keys.1 h
    exact hk (Forest.key_mem (hcf d hd))
  have hu1 : (f.setKids n.key .nil).UniqueKeys := by
    have h1 : (f.setKids n.key .nil).keys.Perm (A.map Node.key) := p1.map Node.key
    have h2 : f.keys.Perm ((A ++ c.nodes).map Node.key) := pf.map Node.key
    have h3 : ((A ++ c.nodes).map Node.key).Nodup := h2.nodup_iff.1 hu
    rw [List.map_append] at h3
    exact h1.nodup_iff.2 (List.nodup_append.1 h3).1
  have hu2 : ((f.setKids n.key .nil).map (point n key)).UniqueKeys := (Forest.uniqueKeys_map (point_key n key)).2 hu1
  have hnA : n ∈ A := by
    rcases List.mem_append.1 (pf.mem_iff.1 hn.mem) with h | h
    · exact h
    · exact absurd (Forest.key_mem h) hnc
  have hin : n.key ∈ ((f.setKids n.key .nil).map (point n key)).keys := by
    rw [Forest.keys_map (point_key n key)]
    exact Forest.key_mem (p1.mem_iff.2 hnA)
  have hnew : key ∉ ((f.setKids n.key .nil).map (point n key)).keys := by
    rw [Forest.keys_map (point_key n key)]
    intro h
    obtain ⟨d, hd, rfl⟩ := Forest.mem_keys.1 h
    exact hk (Forest.key_mem (pf.mem_iff.2 (List.mem_append_left _ (p1.mem_iff.1 hd))))
  have hp : (split n.key key id f).nodes.Perm (newNode key id :: f.nodes.map (point n key)) := by
    rw [e]
    refine (nodes_insertBefore hu2 hin _ c).trans (List.Perm.cons _ ?_)
    rw [Forest.nodes_map]
    refine ((p1.map _).append_left _).trans ?_
    rw [← hmap, ← List.map_append]
    exact ((List.perm_append_comm).trans pf.symm).map _
  have kids : ∀ x ∈ f.nodes, x.isGradient = true → (split n.key key id f).kidsOf x.key =
      ((f.setKids n.key .nil).kidsOf x.key).map fun d => (d.map (point n key)).insertBefore n.key (newNode key id) c := by
    intro x hx hg
    rw [e, kidsOf_insertBefore hu2 (fun e => hk (by rw [show key = x.key from e.symm]; exact Forest.key_mem hx)) (hf.inside hn.mem hn.grad hc hx hg),
      kidsOf_map (point_key n key), Option.map_map]
    rfl
  have hkid : (split n.key key id f).kidsOf key = f.kidsOf n.key := by
    rw [e, hc]
    exact kidsOf_insertBefore_new (n := newNode key id) hin hnew c
  refine ⟨⟨hn.mem, hn.grad, written_none hn.free, hkn, rfl, rfl, .inr hk, ?_, ?_, ?_, ?_, ?_, ?_, ?_, ?_⟩, hp, ?_, hkid⟩
  · have : (split n.key key id f).keys.Perm (key :: f.keys) := by
      have := hp.map Node.key
      rwa [List.map_cons, List.map_map, show Node.key ∘ point n key = Node.key from funext fun x => point_key n key x] at this
    exact this.nodup_iff.2 (List.nodup_cons.2 ⟨hk, hu⟩)
  · intro y hy
    rcases List.mem_cons.1 (hp.mem_iff.1 hy) with h | h
    · exact .inl h
    · exact .inr (List.mem_map.1 h)
  · exact hp.mem_iff.2 (List.mem_cons_self ..)
  · exact fun x hx _ => hp.mem_iff.2 (List.mem_cons_of_mem _ (List.mem_map_of_mem hx))
  · intro x hx hg hne
    rw [kids x hx hg, Merge.kidsOf_setKids_ne hne (by simp)]
    · obtain ⟨d, hd⟩ := kidsOf_isSome (Forest.key_mem hx)
      have hnd := hf.inside hx hg hd hn.mem hn.grad
      have hm : d.map (point n key) = d := Forest.map_id' fun y hy => point_ne fun e => hnd (e ▸ Forest.key_mem hy)
      rw [hd, Option.map_some, Option.map_some, setKids_not_mem hnd, hm, insertBefore_not_mem hnd]
    · intro y hy ey
      have h1 := kidsOf_subs hu (n := y.1) (c := y.2) hy
      rw [ey, hc] at h1
      rw [← Option.some.inj h1]
      exact hf.inside hn.mem hn.grad hc hx hg
  · rw [kids n hn.mem hn.grad, kidsOf_setKids hc]
    rfl
  · refine ⟨c, c, hc, hkid.trans hc, htop, ?_⟩
    generalize c.top = l
    induction l with
    | nil => exact .nil
    | cons s l ih => exact .cons (by simp [Dupl.sameStop]) ih
  · exact ⟨n, hn.mem, hn.grad, hkid.symm⟩
  · rw [e, drawn_insertBefore _ _ rfl, GroupDefs.drawn_map_nodes fun x _ => point_kind n key x,
      drawn_setKids fun x hx ex => ?_]
    · refine Forest.map_id' fun x hx => point_ne fun ex => ?_
      have := Forest.eq_of_key hu (mem_drawn hx).1 hn.mem ex
      have h2 := (mem_drawn hx).2
      rw [this, never hn.grad] at h2
      cases h2
    · rw [Forest.eq_of_key hu hx hn.mem ex]; exact never hn.grad

/-! ### A gradient that takes the new stops -/

theorem prune_kids {f : Forest} (hu : f.UniqueKeys) {k : Nat} {c : Forest} (hc : f.kidsOf k = some c) :
    (f.prune fun m => decide (m.key ∈ c.top.map Node.key)) = f.setKids k .nil := by
  have top : ∀ (c : Forest) (p : Node → Bool), (∀ d ∈ c.top, p d = true) → c.prune p = .nil := by
    intro c
    induction c with
    | nil => intros; rfl
    | cons d a r _ ih =>
      intro p hp
      rw [Forest.prune, if_pos (hp d (by simp [Forest.top]))]
      exact ih p fun e he => hp e (by simp [Forest.top, he])
  have tk : ∀ {c : Forest} {j : Nat}, j ∈ c.top.map Node.key → j ∈ c.keys := by
    intro c j hj
    exact (List.Sublist.map Node.key (Stops.top_sub_nodes c)).mem hj
  have out : ∀ {r : Forest}, (∀ j ∈ c.top.map Node.key, j ∉ r.keys) → (r.prune fun m => decide (m.key ∈ c.top.map Node.key)) = r := by
    intro r h
    refine prune_id fun d hd => ?_
    rw [decide_eq_false_iff_not]
    exact fun hj => h _ hj (Forest.key_mem hd)
  induction f with
  | nil => rfl
  | cons x a r ih1 ih2 =>
    obtain ⟨h1, h2, h3, h4, h5⟩ := nodup_cons hu
    rw [Forest.kidsOf] at hc
    rw [Forest.prune, Forest.setKids]
    by_cases e : x.key = k
    · subst e
      rw [if_pos rfl] at hc ⊢
      cases hc
      have hx : ¬ (x.key ∈ c.top.map Node.key) := fun h => h1 (tk h)
      rw [if_neg (by simpa using hx), top c _ fun d hd => by simpa using ⟨d, hd, rfl⟩, out fun j hj hr => h5 j (tk hj) hr, setKids_not_mem h2]
    · rw [if_neg e] at hc ⊢
      cases ha : a.kidsOf k with
      | some d =>
        rw [ha] at hc
        cases hc
        obtain ⟨y, ey, hy⟩ := subs_kidsOf ha
        have hsub : ∀ j ∈ c.top.map Node.key, j ∈ a.keys := fun j hj => GroupDefs.kids_subs hy (tk hj)
        have hx : ¬ (x.key ∈ c.top.map Node.key) := fun h => h1 (hsub _ h)
        have hkr : k ∉ r.keys := fun hr => h5 k (ey ▸ GroupDefs.key_subs hy) hr
        rw [if_neg (by simpa using hx), ih1 h3 ha, out fun j hj hr => h5 j (hsub j hj) hr, setKids_not_mem hkr]
      | none =>
        rw [ha, Option.none_or] at hc
        obtain ⟨y, ey, hy⟩ := subs_kidsOf hc
        have hsub : ∀ j ∈ c.top.map Node.key, j ∈ r.keys := fun j hj => GroupDefs.kids_subs hy (tk hj)
        have hx : ¬ (x.key ∈ c.top.map Node.key) := fun h => h2 (hsub _ h)
        have hka : k ∉ a.keys := fun hr => h5 k hr (ey ▸ GroupDefs.key_subs hy)
        rw [if_neg (by simpa using hx), ih2 h4 hc, out fun j hj hr => h5 j hr (hsub j hj), setKids_not_mem hka]

/-- Removing what nothing refers to. -/
theorem rmKeys_prune {f : Forest} {ks : List Nat} (h : ∀ x ∈ subs f, x.1.key ∈ ks → f.isUsed x.1.key = false ∧ ∀ d ∈ x.2.nodes, f.isUsed d.key = false) :
    rmKeys ks f = f.prune fun m => decide (m.key ∈ ks) := by
  induction ks generalizing f with
  | nil =>
    show f = _
    rw [prune_id]
    simp
  | cons t ks ih =>
    have h0 : rmKey t f = f.prune fun m => decide (m.key = t) := by
      refine Forest.map_id' fun n hn => unlink_pruned (fun j hj => ?_) ((Forest.nodes_prune_sublist _ _).mem hn)
      obtain ⟨x, hx, e, h'⟩ := Merge.mem_prunedKeys hj
      have e : x.1.key = t := by simpa using e
      obtain ⟨h1, h2⟩ := h x hx (by simp [e])
      rcases h' with rfl | h'
      · exact h1
      · obtain ⟨d, hd, rfl⟩ := Forest.mem_keys.1 h'
        exact h2 d hd
    show rmKeys ks (rmKey t f) = _
    rw [h0, ih]
    · rw [GroupDefs.prune_prune]
      refine GroupDefs.prune_congr fun m _ => ?_
      simp [Bool.decide_or]
    · intro y hy hk
      obtain ⟨x, hx, e1, e2⟩ := Stops.subs_prune hy
      rw [e1] at hk ⊢
      obtain ⟨h1, h2⟩ := h x hx (by simp [hk])
      have low : ∀ {j}, f.isUsed j = false → (f.prune fun m => decide (m.key = t)).isUsed j = false := by
        intro j hj
        rw [Bool.eq_false_iff] at hj ⊢
        intro hc
        obtain ⟨z, hz, hl⟩ := Forest.isUsed_iff.1 hc
        exact hj (Forest.isUsed_iff.2 ⟨z, (Forest.nodes_prune_sublist _ _).mem hz, hl⟩)
      refine ⟨low h1, fun d hd => low (h2 d ?_)⟩
      rw [e2] at hd
      exact (Forest.nodes_prune_sublist _ _).mem hd

theorem join_ok {f : Forest} (hf : Good f) {n : Node} (hn : Cand f n) {m : Node} (hm : m ∈ f.nodes) (hmg : m.isGradient = true) (hb : m.attrs = [])
    (hne : n.key ≠ m.key) {c c' : Forest} (hc : f.kidsOf n.key = some c) (hc' : f.kidsOf m.key = some c')
    (hs : List.Forall₂ (fun s t => Dupl.sameStop s t = true) c.top c'.top) :
    Relink f (join m.key f n.key) n m ∧ join m.key f n.key = (f.setKids n.key .nil).map (point n m.key) ∧
      drawn (join m.key f n.key) = drawn f ∧ (join m.key f n.key).kidsOf m.key = some c' := by
  have hu := hf.unique
  have hnk := Forest.key_mem hn.mem
  have hnc := hf.inside hn.mem hn.grad hc hn.mem hn.grad
  have hkids := hf.kids hn.mem hc
  have hrm : rmKeys (c.top.map Node.key) f = f.setKids n.key .nil := by
    rw [rmKeys_prune, prune_kids hu hc]
    intro x hx hk
    obtain ⟨d, hd, e⟩ := List.mem_map.1 hk
    have hdc : d ∈ c.nodes := (Stops.top_sub_nodes c).mem hd
    have hflat := (hf.flat _ hkids hn.grad).2
    have hdf : d ∈ f.nodes := (Stops.subs_kids_sub hkids).1.mem hdc
    have hxd := Forest.eq_of_key hu (node_of_subs hx) hdf e.symm
    refine ⟨by rw [hxd]; exact (hflat d hdc).2, fun y hy => (hflat y ?_).2⟩
    obtain ⟨b, hb⟩ := mem_subs_of_node hdc
    have hb' : (d, b) ∈ subs f := UnusedDefs.subs_trans hkids hb
    have := GroupDefs.subs_unique hu hx hb' (by rw [hxd])
    subst this
    exact (Stops.subs_kids_sub hb).1.mem hy
  have e : join m.key f n.key = (f.setKids n.key .nil).map (point n m.key) := by
    unfold join
    rw [hc]
    simp only
    rw [show (c.top.map fun x => x.key) = c.top.map Node.key from rfl, hrm]
    rfl
  have hpr : f.setKids n.key .nil = f.prune fun m => decide (m.key ∈ c.top.map Node.key) := (prune_kids hu hc).symm
  have hsub : (f.setKids n.key .nil).nodes.Sublist f.nodes := by rw [hpr]; exact Forest.nodes_prune_sublist _ _
  have kids : ∀ x ∈ f.nodes, x.isGradient = true → x.key ≠ n.key → (join m.key f n.key).kidsOf x.key = f.kidsOf x.key := by
    intro x hx hg hxn
    rw [e, kidsOf_map (point_key n m.key), Merge.kidsOf_setKids_ne hxn (by simp)]
    · obtain ⟨d, hd⟩ := kidsOf_isSome (Forest.key_mem hx)
      have hnd := hf.inside hx hg hd hn.mem hn.grad
      have hmm : d.map (point n m.key) = d := Forest.map_id' fun y hy => point_ne fun e => hnd (e ▸ Forest.key_mem hy)
      rw [hd, Option.map_some, Option.map_some, setKids_not_mem hnd, hmm]
    · intro y hy ey
      have h1 := kidsOf_subs hu (n := y.1) (c := y.2) hy
      rw [ey, hc] at h1
      rw [← Option.some.inj h1]
      exact hf.inside hn.mem hn.grad hc hx hg
  have keep : ∀ x ∈ f.nodes, ¬ InGradient f x → point n m.key x ∈ (join m.key f n.key).nodes := by
    intro x hx hi
    rw [e, Forest.nodes_map]
    refine List.mem_map_of_mem ?_
    obtain ⟨A, hA⟩ := nodes_setKids hu hnk
    have pf : f.nodes.Perm (A ++ c.nodes) := by
      have := hA c
      rwa [setKids_self hu hc] at this
    have p1 : (f.setKids n.key .nil).nodes.Perm A := by simpa using hA .nil
    rcases List.mem_append.1 (pf.mem_iff.1 hx) with h | h
    · exact p1.mem_iff.2 h
    · exact absurd ⟨_, hkids, hn.grad, h⟩ hi
  have hmk := kids m hm hmg hne.symm
  obtain ⟨c0, hc0, htop⟩ := hn.kids
  have e0 : c0 = c := by rw [hc] at hc0; exact (Option.some.inj hc0).symm
  subst e0
  refine ⟨⟨hn.mem, hn.grad, written_none hn.free, hne, hmg, hb, .inl hm, ?_, ?_, ?_, keep, kids, ?_, ⟨c0, c', hc, hmk.trans hc', htop, hs⟩,
    ⟨m, hm, hmg, hmk.symm⟩⟩, e, ?_, hmk.trans hc'⟩
  · rw [e]
    refine (Forest.uniqueKeys_map (point_key n m.key)).2 ?_
    rw [hpr]
    exact Forest.uniqueKeys_prune hu
  · intro y hy
    rw [e, Forest.nodes_map] at hy
    obtain ⟨x, hx, rfl⟩ := List.mem_map.1 hy
    exact .inr ⟨x, hsub.mem hx, rfl⟩
  · have := keep m hm (hf.outside hmg)
    rwa [point_ne hne.symm] at this
  · rw [e, kidsOf_map (point_key n m.key), kidsOf_setKids hc]
    rfl
  · rw [e, GroupDefs.drawn_map_nodes fun x _ => point_kind n m.key x, drawn_setKids fun x hx ex => ?_]
    · refine Forest.map_id' fun x hx => point_ne fun ex => ?_
      have := Forest.eq_of_key hu (mem_drawn hx).1 hn.mem ex
      have h2 := (mem_drawn hx).2
      rw [this, never hn.grad] at h2
      cases h2
    · rw [Forest.eq_of_key hu hx hn.mem ex]; exact never hn.grad

end Verif.Regroup
