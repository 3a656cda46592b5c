import Verif.SafeNodes
import Verif.GroupDefsCases
import Verif.MergeWhole
import Verif.Dupl
/-
C22 and C55 for the tasks that change the tree.
-/
namespace Verif.Spec
open Verif.Dom
open Verif.Simple (Targeted OnlySvgIds)
open Verif.Regroup (IdsUnique)

/-- Of a document as svgdom makes them. -/
def Tame (f g : Forest) : Prop := f.UniqueKeys → f.LinksOk → Step f g

theorem Step.tame {f g : Forest} (h : Step f g) : Tame f g := fun _ _ => h
theorem Tame.refl (f : Forest) : Tame f f := (Step.refl f).tame
theorem Tame.trans {f g h : Forest} (h1 : Tame f g) (h2 : Tame g h) : Tame f h :=
  fun hu hl => (h1 hu hl).trans (h2 ((h1 hu hl).unique hu) ((h1 hu hl).links hl))
theorem Tame.safe {f g : Forest} (h : Tame f g) : Safe f g := fun hu hl => (h hu hl).safe hu hl

/-- A task that makes nodes. -/
structure Grow (f g : Forest) : Prop where
  unique : g.UniqueKeys
  links : g.LinksOk
  marks : ∀ m ∈ g.nodes, (∃ n ∈ f.nodes, mark n = mark m) ∨ (loose m = true ∧ m.key ∉ f.keys ∧ ∀ n ∈ f.nodes, m.id ≠ "" → n.id ≠ m.id)
  fresh : ∀ m ∈ g.nodes, ∀ m' ∈ g.nodes, m.key ∉ f.keys → m'.key ∉ f.keys → m.id ≠ "" → m.id = m'.id → m.key = m'.key
  named : ∀ m ∈ g.nodes, ∀ k ∈ m.links, (∃ n ∈ f.nodes, k ∈ n.links) ∨ (∃ t ∈ f.nodes, t.key = k ∧ t.id ≠ "") ∨ ∃ t ∈ g.nodes, t.key = k ∧ t.id ≠ ""

theorem Grow.keeps {f g : Forest} (h : Grow f g) (hu : f.UniqueKeys) (hl : f.LinksOk) : Keeps f g where
  unique := h.unique
  links := h.links
  lasting m hm hf := by
    rcases h.marks m hm with ⟨n, hn, e⟩ | ⟨hs, _⟩
    · exact ⟨n, hn, mark_key e, mark_kind e (lasting_iff.1 hf)⟩
    · rw [lasting_iff.1 hf] at hs; cases hs
  targeted ht m hm k hk := by
    have old : (∃ s ∈ f.nodes, s.key = k ∧ s.id ≠ "") → ∃ t ∈ g.nodes, t.key = k ∧ t.id ≠ "" := by
      rintro ⟨s, hs, e1, e2⟩
      obtain ⟨t, htg, rfl⟩ := Forest.mem_keys.1 (h.links m hm k hk)
      refine ⟨t, htg, rfl, ?_⟩
      rcases h.marks t htg with ⟨n, hn, e⟩ | ⟨_, hno, _⟩
      · rw [← mark_id e, ← Forest.eq_of_key hu hs hn (e1.trans (mark_key e).symm)]; exact e2
      · exact absurd (e1 ▸ Forest.key_mem hs) hno
    rcases h.named m hm k hk with ⟨x, hx, hk⟩ | hx | hx
    · exact old (ht x hx k hk)
    · exact old hx
    · exact hx
  ids hi ho := by
    refine ⟨fun x hx y hy hne e => ?_, fun x hx hne => ?_⟩
    · rcases h.marks x hx with ⟨a, ha, ea⟩ | ⟨_, hx1, hx2⟩ <;> rcases h.marks y hy with ⟨b, hb, eb⟩ | ⟨_, hy1, hy2⟩
      · rw [← mark_key ea, ← mark_key eb]
        exact hi a ha b hb (by rw [mark_id ea]; exact hne) (by rw [mark_id ea, mark_id eb]; exact e)
      · exact absurd ((mark_id ea).trans e) (hy2 a ha (e ▸ hne))
      · exact absurd ((mark_id eb).trans e.symm) (hx2 b hb hne)
      · exact h.fresh x hx y hy hx1 hy1 hne e
    · rcases h.marks x hx with ⟨a, ha, ea⟩ | ⟨hs, _⟩
      · rw [← mark_svg ea]
        exact ho a ha (by rw [mark_id ea]; exact hne)
      · exact loose_svg hs

/-- No references are made, and the new nodes have no ids. -/
theorem Grow.of {f g : Forest} (hu : g.UniqueKeys) (hl : g.LinksOk)
    (hm : ∀ m ∈ g.nodes, (∃ n ∈ f.nodes, mark n = mark m) ∨ (loose m = true ∧ m.key ∉ f.keys ∧ m.id = ""))
    (hn : ∀ m ∈ g.nodes, ∀ k ∈ m.links, ∃ n ∈ f.nodes, k ∈ n.links) : Grow f g where
  unique := hu
  links := hl
  marks m h := (hm m h).imp id fun ⟨a, b, c⟩ => ⟨a, b, fun _ _ hne => absurd c hne⟩
  fresh m h _ _ h1 _ hne _ := by
    rcases hm m h with ⟨n, hn, e⟩ | ⟨_, _, c⟩
    · exact absurd (mark_key e ▸ Forest.key_mem hn) h1
    · exact absurd c hne
  named m h k hk := .inl (hn m h k hk)

/-! ### rm_unused_defs.rs -/

theorem tame_removeUnusedDefs {f g : Forest} (h : UnusedDefs.removeUnusedDefs f = some g) : Tame f g := fun hu hl => by
  have hr := UnusedDefs.C25_references hu hl h
  obtain ⟨d, c, c', hc, hs⟩ := UnusedDefs.main hu h
  obtain ⟨A, hA⟩ := UnusedDefs.nodes_setKids hu (Forest.key_mem (UnusedDefs.node_of_subs hc.before))
  obtain ⟨R, hR, _⟩ := hs.gone
  have hf : f.nodes.Perm (A ++ c.nodes) := by
    have := hA c
    rwa [UnusedDefs.setKids_self hu (UnusedDefs.kidsOf_subs hu hc.before)] at this
  have hg : g.nodes.Perm (A ++ c'.nodes) := by
    have := hA c'
    rwa [← hs.tree] at this
  have hall : f.nodes.Perm (g.nodes ++ R) := by
    refine hf.trans ((List.Perm.append_left A hR).trans ?_)
    rw [← List.append_assoc]
    exact hg.symm.append_right _
  refine ⟨?_, fun m hm k hk => .inl ⟨m, hall.mem_iff.2 (List.mem_append_left _ hm), hk⟩, fun _ => hr.2⟩
  have := hall.map mark
  rw [List.map_append] at this
  exact (List.sublist_append_left _ _).subperm.trans this.symm.subperm

/-! ### group_defs.rs -/

theorem safe_groupDefs {f g : Forest} (h : GroupDefs.groupDefs f = some g) : Safe f g := fun hu hl => by
  have hw := GroupDefs.C35_wellformed hu hl h
  obtain ⟨s, ks, d, D, e, C⟩ := GroupDefs.C35_collected hu h
  have old : ∀ n ∈ f.nodes, mark n = mark (e n) ∧ ∀ k ∈ (e n).links, ∃ x ∈ f.nodes, k ∈ x.links := by
    intro n hn
    have hk := C.kept n hn
    refine ⟨mark_eq (C.key hn).symm hk.id.symm hk.kind.symm, fun k hkl => ?_⟩
    obtain ⟨x, hx, e⟩ := Node.mem_links.1 hkl
    obtain ⟨more, hm, hmore⟩ := hk.attrs
    rw [hm] at hx
    rcases List.mem_append.1 (List.mem_of_mem_filter hx) with hx | hx
    · exact ⟨n, hn, Node.mem_links.2 ⟨x, hx, e⟩⟩
    · obtain ⟨⟨p, hp, hxp⟩, _⟩ := hmore x hx
      exact ⟨p, hp, Node.mem_links.2 ⟨x, hxp, e⟩⟩
  have all : ∀ m ∈ g.nodes, (∃ n ∈ f.nodes, m = e n) ∨ (m.kind = .elem .defs ∧ m.attrs = [] ∧ m.id = "" ∧ m.key ∉ f.keys) := by
    intro m hm
    rcases List.mem_cons.1 (C.nodes.mem_iff.1 hm) with rfl | hm
    · rcases C.same with ⟨n, hn, e⟩ | ⟨_, h1, h2, h3⟩
      · exact .inl ⟨n, List.mem_of_find?_eq_some hn, e⟩
      · exact .inr ⟨C.main, h1, h2, h3⟩
    · obtain ⟨n, hn, e⟩ := List.mem_map.1 hm
      exact .inl ⟨n, (List.mem_filter.1 hn).1, e.symm⟩
  refine (Grow.of hw.1 hw.2 (fun m hm => ?_) fun m hm k hk => ?_).keeps hu hl
  · rcases all m hm with ⟨n, hn, rfl⟩ | ⟨h1, _, h2, h3⟩
    · exact .inl ⟨n, hn, (old n hn).1⟩
    · exact .inr ⟨by unfold loose; rw [h1]; rfl, h3, h2⟩
  · rcases all m hm with ⟨n, hn, rfl⟩ | ⟨_, h1, _⟩
    · exact (old n hn).2 k hk
    · obtain ⟨x, hx, _⟩ := Node.mem_links.1 hk
      rw [h1] at hx; cases hx

/-! ### rm_dupl_defs/*.rs -/

section
open Verif.Dupl

theorem step_fuse {n1 : Node} {k2 : Nat} {f g : Forest} (hn1 : n1 ∈ f.nodes) (h : fuse n1 k2 f = some g) : Step f g := by
  unfold fuse at h
  split at h
  · cases h
  next hno =>
    cases h
    refine Step.trans (Step.map (fun n _ => ?_) fun n hn k hk => ?_) (Step.rmKey _ _)
    · split
      · rfl
      · exact mark_eq rfl rfl rfl
    · split at hk
      · exact .inl ⟨n, hn, hk⟩
      next hne =>
        obtain ⟨x, hx, e⟩ := Node.mem_links.1 hk
        obtain ⟨y, hy, rfl⟩ := List.mem_map.1 hx
        unfold relinkAttr at e
        split at e
        · split at e
          next ht =>
            have hk1 : k = n1.key := by
              unfold nodeValue at e
              split at e <;> exact (Option.some.inj e).symm
            refine .inr ⟨n1, hn1, hk1.symm, fun hid => ?_⟩
            rw [Bool.or_eq_true, not_or] at hno
            refine hno.2 (List.any_eq_true.2 ⟨n, hn, ?_⟩)
            simp only [Bool.and_eq_true, Bool.or_eq_true, decide_eq_true_eq]
            exact ⟨⟨hne, Node.mem_links.2 ⟨y, hy, ht⟩⟩, .inl hid⟩
          · exact .inl ⟨n, hn, Node.mem_links.2 ⟨y, hy, e⟩⟩
        · exact .inl ⟨n, hn, Node.mem_links.2 ⟨y, hy, e⟩⟩

theorem step_rmInner {cmp : Forest → Nat → Nat → Option Bool} {k1 : Nat} {ks : List Nat} {f : Forest} {r : List Nat × Forest}
    (h : rmInner cmp k1 ks f = some r) : Step f r.2 := by
  induction ks generalizing f r with
  | nil => cases h; exact Step.refl _
  | cons k2 ks ih =>
    rw [rmInner] at h
    obtain ⟨b, _, h⟩ := Option.bind_eq_some_iff.1 h
    cases b with
    | true =>
      rw [if_pos rfl] at h
      obtain ⟨n1, hn1, h⟩ := Option.bind_eq_some_iff.1 h
      obtain ⟨g, hg, h⟩ := Option.bind_eq_some_iff.1 h
      exact (step_fuse (Forest.find_some hn1).1 hg).trans (ih h)
    | false =>
      rw [if_neg (by simp)] at h
      obtain ⟨r', h', rfl⟩ := Option.map_eq_some_iff.1 h
      exact ih (r := r') h'

theorem step_rmOuter {cmp : Forest → Nat → Nat → Option Bool} {fuel : Nat} {ks : List Nat} {f g : Forest}
    (h : rmOuter cmp fuel ks f = some g) : Step f g := by
  induction fuel generalizing ks f with
  | zero => cases ks <;> cases h <;> exact Step.refl _
  | succ fuel ih =>
    cases ks with
    | nil => cases h; exact Step.refl _
    | cons k ks =>
      rw [rmOuter] at h
      obtain ⟨r, h1, h⟩ := Option.bind_eq_some_iff.1 h
      exact (step_rmInner h1).trans (ih h)

theorem step_rmLinear {f g : Forest} (h : rmLinear f = some g) : Step f g := step_rmOuter h
theorem step_rmRadial {f g : Forest} (h : rmRadial f = some g) : Step f g := step_rmOuter h
theorem step_rmBlurs {f g : Forest} (h : rmBlurs f = some g) : Step f g := step_rmOuter h

end

/-! ### merge_gradients.rs -/

section
open Verif.Merge

theorem mild_reveal (m : Node) (l : List AId) (n : Node) : Mild n (reveal m l n) := by
  refine Mild.foldl (fun n a => ?_) l n
  unfold revealOne
  split
  · split
    · refine ⟨mark_eq rfl rfl rfl, fun k hk => ?_⟩
      obtain ⟨x, hx, e⟩ := Node.mem_links.1 hk
      obtain ⟨y, hy, rfl⟩ := List.mem_map.1 hx
      refine Node.mem_links.2 ⟨y, hy, ?_⟩
      split at e <;> exact e
    · exact Mild.refl n
  · exact Mild.refl n

theorem Step.perm {f g : Forest} (h : g.nodes.Perm f.nodes) : Step f g where
  marks := (h.map mark).subperm
  named m hm k hk := .inl ⟨m, h.mem_iff.1 hm, hk⟩
  links hl m hm k hk := ((h.map Node.key).mem_iff).2 (hl m (h.mem_iff.1 hm) k hk)

theorem moveKids_perm {f : Forest} (hu : f.UniqueKeys) {n m : Node} (hn : n.key ∈ f.keys) (hne : n.key ≠ m.key)
    (hc : ¬ ((f.kidsOf n.key == some .nil) && (f.kidsOf m.key).any fun c => decide (n.key ∈ c.keys)) = true) :
    (moveKids n m f).nodes.Perm f.nodes := by
  unfold moveKids
  split
  next c hn' hm' =>
    have hm : m.key ∈ f.keys := by
      obtain ⟨x, e, hx⟩ := UnusedDefs.subs_kidsOf hm'
      exact e ▸ Forest.key_mem (UnusedDefs.node_of_subs hx)
    have hnc : n.key ∉ c.keys := by
      intro h
      apply hc
      rw [hn', hm']
      simpa using h
    obtain ⟨A, hA⟩ := UnusedDefs.nodes_setKids hu hm
    have pf : f.nodes.Perm (A ++ c.nodes) := by
      have := hA c
      rwa [UnusedDefs.setKids_self hu hm'] at this
    have p1 : (f.setKids m.key .nil).nodes.Perm A := by simpa [Forest.nodes] using hA .nil
    have hu1 : (f.setKids m.key .nil).UniqueKeys := by
      have h1 : (f.setKids m.key .nil).keys.Perm (A.map Node.key) := p1.map Node.key
      have h2 : f.keys.Perm ((A ++ c.nodes).map Node.key) := pf.map Node.key
      have h3 : ((A ++ c.nodes).map Node.key).Nodup := h2.nodup_iff.1 hu
      rw [List.map_append] at h3
      exact h1.nodup_iff.2 (List.nodup_append.1 h3).1
    have hnA : n.key ∈ (f.setKids m.key .nil).keys := by
      have h2 : f.keys.Perm ((A ++ c.nodes).map Node.key) := pf.map Node.key
      have := h2.mem_iff.1 hn
      rw [List.map_append] at this
      exact ((p1.map Node.key).mem_iff).2 ((List.mem_append.1 this).resolve_right hnc)
    obtain ⟨B, hB⟩ := UnusedDefs.nodes_setKids hu1 hnA
    have hcn1 : (f.setKids m.key .nil).kidsOf n.key = some .nil := by
      rw [kidsOf_setKids_ne hne (by simp [Forest.keys, Forest.nodes]) fun y hy e => ?_, hn']
      · rfl
      · have h1 := UnusedDefs.kidsOf_subs hu (n := y.1) (c := y.2) hy
        rw [e, hm'] at h1
        rw [← Option.some.inj h1]
        exact hnc
    have p2 : A.Perm B := by
      have := hB .nil
      rw [UnusedDefs.setKids_self hu1 hcn1] at this
      exact p1.symm.trans (by simpa [Forest.nodes] using this)
    exact (hB c).trans ((p2.symm.append_right _).trans pf.symm)
  · exact .rfl

theorem tame_mergeKeys {ks : List Nat} {s t : Forest × List Nat} (h : mergeKeys ks s = some t) : Tame s.1 t.1 := by
  induction ks generalizing s with
  | nil => cases h; exact Tame.refl _
  | cons k ks ih =>
    rw [mergeKeys] at h
    split at h
    · cases h
    next hc =>
      refine Tame.trans (fun hu hl => ?_) (ih h)
      unfold mergeNode
      split
      next n hn =>
        obtain ⟨hn', hk⟩ := Forest.find_some hn
        subst hk
        split
        next m hm =>
          have hne : n.key ≠ m.key := by
            unfold source at hm
            split at hm
            next l hl =>
              obtain ⟨hm1, hm2⟩ := Option.filter_eq_some_iff.1 hm
              intro e
              obtain ⟨hm3, hk⟩ := Forest.find_some hm1
              have := Forest.eq_of_key hu hn' hm3 e
              subst this
              simp only [Bool.and_eq_true, Bool.not_eq_true'] at hm2
              have := hm2.2
              unfold Node.get at hl
              unfold Node.has at this
              obtain ⟨x, hx, _⟩ := Option.map_eq_some_iff.1 hl
              rw [hx] at this
              cases this
            · cases hm
          unfold cyclic at hc
          simp only [hn, hm] at hc
          refine (Step.perm (moveKids_perm hu (Forest.key_mem hn') hne hc)).trans ?_
          exact Step.modify (fun n _ => (Mild.rm n _).trans (mild_reveal _ _ _)) _
        · exact Step.refl _
      · exact Step.refl _

theorem tame_mergeLoop {fuel : Nat} {f g : Forest} (h : mergeLoop fuel f = some g) : Tame f g := by
  induction fuel generalizing f with
  | zero => cases h
  | succ fuel ih =>
    rw [mergeLoop] at h
    obtain ⟨s, h1, h⟩ := Option.bind_eq_some_iff.1 h
    have := tame_mergeKeys h1
    split at h
    · cases h; exact this
    · exact this.trans ((Step.rmKeys _ _).tame.trans (ih h))

theorem tame_mergeGradients {f g : Forest} (h : mergeGradients f = some g) : Tame f g := tame_mergeLoop h

end

end Verif.Spec
