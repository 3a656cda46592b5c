import Verif.CrashUngroup
/-
C53: `resolve_use` does not crash.
-/
namespace Verif.Crash
open Verif.Dom Verif.Spec
open Verif.Dom (Res)
open Verif.Pipeline
open Verif.ResolveUse

variable {C : Ctx}

theorem top_insertAfter {f : Forest} {u : Nat} {l : Node} {lk : Forest} {m : Node} (h : m ∈ (insertAfter f u l lk).top) :
    m ∈ f.top ∨ (m = l ∧ ∃ q ∈ f.top, q.key = u) := by
  induction f with
  | nil => cases h
  | cons n k r _ ih =>
    rw [insertAfter] at h
    split at h
    next e =>
      simp only [Forest.top, List.mem_cons] at h ⊢
      rcases h with rfl | rfl | h
      · exact .inl (.inl rfl)
      · exact .inr ⟨rfl, n, .inl rfl, e⟩
      · exact .inl (.inr h)
    · simp only [Forest.top, List.mem_cons] at h ⊢
      rcases h with rfl | h
      · exact .inl (.inl rfl)
      · exact (ih h).imp .inr fun ⟨e, q, hq, eq⟩ => ⟨e, q, .inr hq, eq⟩

theorem top_insertAfter_keep {f : Forest} {u : Nat} {l : Node} {lk : Forest} {m : Node} (h : m ∈ f.top) : m ∈ (insertAfter f u l lk).top := by
  induction f with
  | nil => cases h
  | cons n k r _ ih =>
    rw [insertAfter]
    simp only [Forest.top, List.mem_cons] at h
    split
    · simp only [Forest.top, List.mem_cons]; tauto
    · simp only [Forest.top, List.mem_cons]
      rcases h with h | h
      · exact .inl h
      · exact .inr (ih h)

theorem keys_insertAfter {f : Forest} {u : Nat} {l : Node} {lk : Forest} {j : Nat} (h : j ∈ (insertAfter f u l lk).keys) :
    j ∈ f.keys ∨ (u ∈ f.keys ∧ j ∈ l.key :: lk.keys) := by
  induction f with
  | nil => cases h
  | cons n k r ih1 ih2 =>
    rw [insertAfter] at h
    simp only [Forest.keys_cons, List.mem_cons, List.mem_append]
    split at h
    next e =>
      simp only [Forest.keys_cons, List.mem_cons, List.mem_append] at h
      rcases h with h | h | h | h | h
      · exact .inl (.inl h)
      · exact .inl (.inr (.inl h))
      · exact .inr ⟨.inl e.symm, .inl h⟩
      · exact .inr ⟨.inl e.symm, .inr h⟩
      · exact .inl (.inr (.inr h))
    next e =>
      simp only [Forest.keys_cons, List.mem_cons, List.mem_append] at h
      rcases h with h | h | h
      · exact .inl (.inl h)
      · rcases ih1 h with h | ⟨h1, h2⟩
        · exact .inl (.inr (.inl h))
        · exact .inr ⟨.inr (.inl h1), List.mem_cons.1 h2⟩
      · rcases ih2 h with h | ⟨h1, h2⟩
        · exact .inl (.inr (.inr h))
        · exact .inr ⟨.inr (.inr h1), List.mem_cons.1 h2⟩

/-- What is put in the place of a `use` element. -/
structure Fit (C : Ctx) (u : Nat) (l : Node) (lk : Forest) : Prop where
  node : NodeOk C l
  tree : TreeOk C l lk
  kids : Part C lk
  svg : svgKind l.kind = true
  keys : ∀ j ∈ l.key :: lk.keys, defKind (C.kind j) = false ∧ j ≠ C.s ∧ j ≠ C.d ∧ C.rank j < C.rank u ∧ C.kind j ≠ .elem .stop
  use : C.kind u = .elem .use

theorem part_insertAfter (he : ¬ C.early) {f : Forest} {u : Nat} {l : Node} {lk : Forest} (h : Part C f) (hl : Fit C u l lk) : Part C (insertAfter f u l lk) := by
  induction f with
  | nil => exact h
  | cons n k r ih1 ih2 =>
    obtain ⟨h1, h2, h3, h4⟩ := Part.cons.1 h
    rw [insertAfter]
    split
    · exact Part.cons.2 ⟨h1, h2, h3, Part.cons.2 ⟨hl.node, hl.tree, hl.kids, h4⟩⟩
    next e =>
      refine Part.cons.2 ⟨h1, ⟨fun eg m hm => ?_, fun eu => ?_, fun eg m hm => ?_, fun e => absurd e he, fun a b j hj => ?_⟩, ih1 h3, ih2 h4⟩
      · rcases top_insertAfter hm with hm | ⟨rfl, _⟩
        · exact h2.group eg m hm
        · exact hl.svg
      · refine List.eq_nil_iff_forall_not_mem.2 fun j hj => ?_
        have hno := h2.leaf eu
        rcases keys_insertAfter hj with hj | ⟨hj, _⟩ <;> (rw [hno] at hj; cases hj)
      · rcases top_insertAfter hm with hm | ⟨_, q, hq, e⟩
        · exact h2.stops eg m hm
        · have := (h3.nodes q (GroupStyle.mem_top_nodes hq)).kind
          rw [(h2.stops eg q hq).1, e, hl.use] at this
          exact absurd ((this.ne (by decide) rfl).2 rfl) (by decide)
      · rcases keys_insertAfter hj with hj | ⟨hu, hj⟩
        · exact h2.below a b j hj
        · obtain ⟨p1, p2, p3, p4, p5⟩ := hl.keys j hj
          exact ⟨p1, p2, p3, fun e => ⟨p4.trans ((h2.below a b u hu).2.2.2 e).1, p5⟩⟩

theorem part_flow {f g : Forest} (h : Part C f) (hf : Flow C f g) : Part C g where
  nodes n hn := by
    obtain ⟨k, hk⟩ := nodes_subs hn
    obtain ⟨x, hx, ht, _⟩ := hf _ hk
    exact (h.nodes x.1 (subs_nodes hx)).tame ht
  trees y hy := by
    obtain ⟨x, hx, ht, hk, hg⟩ := hf y hy
    exact (h.trees x hx).flow ht hk hg.1 hg.2

theorem anchored_insertAfter {f : Forest} {u : Nat} {l : Node} {lk : Forest} (h : Anchored C f) (hu : u ≠ C.s) (hl : l.kind ≠ .elem .svg) : Anchored C (insertAfter f u l lk) := by
  obtain ⟨S, ks, D, h1, h2, h3, h4, h5⟩ := h
  have hl' : l.isTag .svg = false := by simp [Node.isTag, hl]
  have : ∃ ks', svgElement (insertAfter f u l lk) = some (S, ks') ∧ D ∈ ks'.top := by
    induction f with
    | nil => cases h1
    | cons n k r _ ih =>
      rw [svgElement] at h1
      rw [insertAfter]
      split at h1
      next e =>
        cases h1
        rw [if_neg (by rw [h2]; exact hu.symm), svgElement, if_pos e]
        exact ⟨_, rfl, top_insertAfter_keep h3⟩
      next e =>
        by_cases eu : n.key = u
        · rw [if_pos eu, svgElement, if_neg e, svgElement, if_neg (by rw [hl']; simp)]
          exact ⟨ks, h1, h3⟩
        · rw [if_neg eu, svgElement, if_neg e]
          exact ih h1
  obtain ⟨ks', e, hD⟩ := this
  exact ⟨S, ks', D, e, h2, hD, h4, h5⟩

/-- Only a node without children is removed. -/
theorem keys_remove_leaf {f : Forest} {u : Nat} (h : ∀ x ∈ subs f, x.1.key = u → x.2.keys = []) {j : Nat} (hj : j ∈ f.keys) (hne : j ≠ u) :
    j ∈ (f.remove fun m => decide (m.key = u)).keys := by
  unfold Forest.remove
  rw [Forest.keys_map (g := fun n => n.unlink _) (fun _ => rfl)]
  induction f with
  | nil => cases hj
  | cons n k r ih1 ih2 =>
    rw [Forest.prune]
    simp only [Forest.keys_cons, List.mem_cons, List.mem_append] at hj
    have i1 := ih1 fun x hx => h x (by simp [subs, hx])
    have i2 := ih2 fun x hx => h x (by simp [subs, hx])
    by_cases e : n.key = u
    · rw [if_pos (by simpa using e)]
      have := h (n, k) (by simp [subs]) e
      dsimp only at this
      rw [this] at hj
      rcases hj with hj | hj | hj
      · exact absurd (hj.trans e) hne
      · cases hj
      · exact i2 hj
    · rw [if_neg (by simpa using e)]
      simp only [Forest.keys_cons, List.mem_cons, List.mem_append]
      rcases hj with hj | hj | hj
      · exact .inl hj
      · exact .inr (.inl (i1 hj))
      · exact .inr (.inr (i2 hj))

/-! ### One element -/

/-- A `use` element and the element to put in its place. -/
structure Pair (C : Ctx) (p : Node × Nat) : Prop where
  use : C.kind p.1.key = .elem .use
  nos : p.2 ≠ C.s
  nod : p.2 ≠ C.d
  nodef : defKind (C.kind p.2) = false
  svg : svgKind (C.kind p.2) = true
  noroot : C.kind p.2 ≠ .elem .svg
  nouse : C.kind p.2 ≠ .elem .use
  rank : C.rank p.2 < C.rank p.1.key
  nostop : C.kind p.2 ≠ .elem .stop

theorem shifted_attrs {n n' : Node} (hn : NodeOk C n) (h : shifted n = some n') (hs : n.isSvgElem = true) : ∀ x ∈ n'.attrs, AttrOk C n x.name x.value ∧ x.name ≠ .id .xlinkHref := by
  unfold shifted at h
  simp only at h
  have h1 : ∀ x ∈ (n.rm .xlinkHref).attrs, AttrOk C n x.name x.value ∧ x.name ≠ .id .xlinkHref := fun x hx => by
    obtain ⟨hx, e⟩ := List.mem_filter.1 hx
    exact ⟨hn.attrs x hx, by simpa using e⟩
  split at h
  · split at h
    · cases h
    · cases h
      intro x hx
      have hx := List.mem_of_mem_filter (List.mem_of_mem_filter hx)
      rcases Node.mem_putAttr hx with rfl | hx
      · exact ⟨⟨⟨fun e => (by cases e), fun e => (by cases e), fun e => (by cases e), fun _ e => (by cases e), fun _ k e => (by cases e), fun _ e => (by cases e), fun _ => rfl⟩, fun _ => ⟨hs, _, rfl⟩, fun e => (by cases e), fun e => (by cases e), fun e => (by cases e), fun e => (by cases e), fun k e => (by cases e)⟩, fun e => by cases e⟩
      · exact h1 x hx
  · cases h; exact h1

theorem copyAttrs_mem {l : Node} {as : List Attr} {x : Attr} (h : x ∈ (copyAttrs l as).attrs) : x ∈ l.attrs ∨ x ∈ as := by
  unfold copyAttrs at h
  induction as generalizing l with
  | nil => exact .inl h
  | cons y t ih =>
    rcases ih h with h | h
    · rcases Node.mem_putAttr h with rfl | h
      · exact .inr (by simp)
      · exact .inl h
    · exact .inr (by simp [h])

theorem copyAttrs_same (l : Node) (as : List Attr) : (copyAttrs l as).key = l.key ∧ (copyAttrs l as).kind = l.kind ∧ (copyAttrs l as).id = l.id := by
  unfold copyAttrs
  induction as generalizing l with
  | nil => exact ⟨rfl, rfl, rfl⟩
  | cons y t ih => exact ih _

theorem Inv.resolveOne (he : ¬ C.early) (hq : ¬ C.uniq) {f : Forest} (hf : Inv C f) {p : Node × Nat} (hp : Pair C p) (h1 : p.1.key ∈ f.keys) (h2 : p.2 ∈ f.keys) :
    ∃ g, ResolveUse.resolveOne f p = some g ∧ Inv C g ∧ ∀ j ∈ f.keys, j ≠ p.1.key → j ∈ g.keys := by
  obtain ⟨n, hn, ek⟩ := Forest.mem_keys.1 h1
  obtain ⟨⟨l, lk⟩, hl, el⟩ := GroupDefs.subs_of_key h2
  dsimp only at el
  have hfind : f.find p.1.key = some n := ek ▸ Forest.find_of_mem hf.unique hn
  have hsub : subtree p.2 f = some (l, lk) := el ▸ GroupDefs.subtree_of hf.unique hl
  have hnode := hf.nodes n hn
  have hkn : n.kind = .elem .use := (hnode.kind.ne (by decide) rfl).2 (by rw [ek]; exact hp.use)
  have hln := hf.nodes l (subs_nodes hl)
  have hlk := hln.kind
  rw [el] at hlk
  have hlt := hf.trees _ hl
  dsimp only at hlt
  have hlg : gradKind l.kind = false := by
    cases e : gradKind l.kind with
    | false => rfl
    | true =>
      have h0 := hp.nodef
      rw [← hlk.def] at h0
      cases hk : l.kind with
      | elem a => rw [hk] at e h0; cases a <;> first | cases e; done | cases h0
      | _ => rw [hk] at e; cases e
  have hlstop : l.kind ≠ .elem .stop := fun e => hp.nostop ((hlk.ne (by decide) rfl).1 e)
  have hb := hlt.below (by rw [el]; exact hp.nos) (by rw [el]; exact hp.nod)
  have hsvg : n.isSvgElem = true := by rw [isSvgElem_eq, hkn]; rfl
  have hone : ResolveUse.resolveOne f p = (match shifted n with
    | none => some (f.modify n.key (·.rm .xlinkHref))
    | some n' =>
      if n.key ∈ l.key :: lk.keys then none else
      some ((insertAfter (f.prune (fun m => decide (m.key = p.2))) n.key (copyAttrs l n'.attrs) lk).remove (fun m => decide (m.key = n.key)))) := by
    unfold ResolveUse.resolveOne
    rw [hfind, hsub]
    rfl
  cases hsh : shifted n with
  | none =>
    rw [hsh] at hone
    refine ⟨_, hone, ?_, fun j hj _ => ?_⟩
    · refine hf.along (Along.map fun m hm => ?_)
      split
      next e => exact Tame.rm C m (href_not_wanted _) fun hg => (by
        have h := (hf.nodes m hm).kind
        have e : m.key = n.key := by simpa using e
        rw [e, ek, hp.use] at h
        rw [show m.kind = .elem .use from (h.ne (by decide) rfl).2 rfl] at hg
        cases hg)
      · exact Tame.refl C m
    · unfold Forest.modify
      rw [Forest.keys_map (fun m => by split <;> rfl)]
      exact hj
  | some n' =>
    have hno : n.key ∉ l.key :: lk.keys := by
      intro h
      have hr := hp.rank
      rw [← ek, ← el] at hr
      rcases List.mem_cons.1 h with h | h
      · rw [h] at hr; exact absurd hr (Nat.lt_irrefl _)
      · have := ((hb _ h).2.2.2 hlg).1
        exact absurd (hr.trans this) (Nat.lt_irrefl _)
    rw [hsh] at hone
    dsimp only at hone
    rw [if_neg hno] at hone
    obtain ⟨c1, c2, c3⟩ := copyAttrs_same l n'.attrs
    have hok : NodeOk C (copyAttrs l n'.attrs) := by
      refine ⟨by rw [c1, c2]; exact hln.kind, fun e => (by rw [c2, hlg] at e; cases e), by rw [c2, c3]; exact hln.named, fun e => (by rw [c2, hlg] at e; cases e), fun x hx => ?_⟩
      have : AttrOk C l x.name x.value := by
        rcases copyAttrs_mem hx with hx | hx
        · exact hln.attrs x hx
        · obtain ⟨a, b⟩ := shifted_attrs hnode hsh hsvg x hx
          refine ⟨⟨a.grad.ts, a.grad.color, a.grad.opacity, fun e => (by rw [hlg] at e; cases e), fun e => (by rw [hlg] at e; cases e), fun e => e.elim (fun e => (by rw [hlg] at e; cases e)) (fun e => absurd e hlstop), fun e => absurd e hlstop⟩, fun e => ⟨by rw [isSvgElem_eq, hlk.svg]; exact hp.svg, (a.transform e).2⟩, a.opacity, fun e => absurd hkn (a.points e).2.1, fun e => absurd hkn (a.d e).2.1,
            fun _ _ => by rw [el]; exact ⟨hp.nos, hp.nod⟩, fun k e => ?_⟩
          obtain ⟨l1, l2, l3, l4, l5, l6, l7⟩ := a.link k e
          refine ⟨by rw [el]; exact hp.nos, by rw [el]; exact hp.nod, fun e => ?_, l4, l5, l6, fun e => absurd e b⟩
          have := hp.nodef
          rw [← hlk.def, e] at this; cases this
      exact Kin.attr c1 (.inl c2) this
    have hfit : Fit C n.key (copyAttrs l n'.attrs) lk := by
      refine ⟨hok, ⟨by rw [c2]; exact hlt.group, by rw [c2]; exact hlt.leaf, by rw [c2]; exact hlt.stops, fun e => absurd e he, by rw [c1, c2]; exact hlt.below⟩,
        ⟨fun m hm => hf.nodes m ?_, fun x hx => hf.trees x (UnusedDefs.subs_trans hl hx)⟩, by rw [c2, hlk.svg]; exact hp.svg, fun j hj => ?_, by rw [ek]; exact hp.use⟩
      · obtain ⟨k, hk⟩ := nodes_subs hm
        exact subs_nodes (UnusedDefs.subs_trans hl hk)
      · rw [c1] at hj
        have hr := hp.rank
        rw [← ek, ← el] at hr
        rcases List.mem_cons.1 hj with rfl | hj
        · exact ⟨by rw [el]; exact hp.nodef, by rw [el]; exact hp.nos, by rw [el]; exact hp.nod, hr, by rw [el]; exact hp.nostop⟩
        · obtain ⟨q1, q2, q3, q4⟩ := hb j hj
          exact ⟨q1, q2, q3, (q4 hlg).1.trans hr, (q4 hlg).2⟩
    have p1 : Part C (f.prune fun m => decide (m.key = p.2)) := part_flow hf.part (flow_prune fun e => absurd e he)
    have p2 := part_insertAfter he p1 hfit
    have p3 := part_flow p2 (flow_remove (p := fun m => decide (m.key = n.key)) p2.nodes fun e => absurd e he)
    have a1 : Anchored C (f.prune fun m => decide (m.key = p.2)) := by
      obtain ⟨S, ks, D, g1, g2, g3, g4, g5⟩ := hf.root
      exact ⟨S, _, D, svgElement_prune g1 (by simp [g2, hp.nos.symm]), g2, top_prune_keep g3 (by simp [g4, hp.nod.symm]), g4, g5⟩
    have hns := hf.tagKey hn hkn (by decide) (by decide)
    have a2 : Anchored C (insertAfter (f.prune fun m => decide (m.key = p.2)) n.key (copyAttrs l n'.attrs) lk) := by
      refine anchored_insertAfter a1 hns.1 ?_
      rw [c2]
      intro e
      exact hp.noroot ((hlk.ne (by decide) rfl).1 e)
    have a3 := anchored_remove (p := fun m => decide (m.key = n.key)) p2.nodes a2 (fun m _ e => by simp [e, hns.1.symm]) (fun m _ e => by simp [e, hns.2.symm]) fun e => absurd e he
    have hsafe := (tame_resolveOne hone).safe hf.unique hf.links
    refine ⟨_, hone, ⟨hsafe.unique, hsafe.links, p3.nodes, p3.trees, a3, Nat.lt_of_le_of_lt (length_step (tame_resolveOne hone hf.unique hf.links)) hf.count, fun e => absurd e hq⟩, fun j hj hne => ?_⟩
    have hperm : f.nodes.Perm ((f.prune fun m => decide (m.key = p.2)).nodes ++ l :: lk.nodes) := by
      have := GroupDefs.nodes_prune_one hf.unique hl
      rwa [show (l, lk).1.key = p.2 from el] at this
    have hup : (f.prune fun m => decide (m.key = p.2)).UniqueKeys := Forest.uniqueKeys_prune hf.unique
    have hnp : n.key ∈ (f.prune fun m => decide (m.key = p.2)).keys := by
      have := (hperm.map Node.key).mem_iff.1 (List.mem_map_of_mem (f := Node.key) hn)
      rw [List.map_append, List.map_cons] at this
      exact (List.mem_append.1 this).resolve_right hno
    refine keys_remove_leaf (fun x hx e => (p2.trees x hx).leaf ?_) ?_ (by rw [ek]; exact hne)
    · have := (p2.nodes x.1 (subs_nodes hx)).kind
      rw [e, ek] at this
      exact (this.ne (by decide) rfl).2 hp.use
    · have h3 := (nodes_insertAfter (l := copyAttrs l n'.attrs) (lk := lk) hup hnp).map Node.key
      refine h3.mem_iff.2 ?_
      have := (hperm.map Node.key).mem_iff.1 hj
      simp only [List.map_append, List.map_cons, List.mem_append, List.mem_cons] at this ⊢
      rw [c1]
      tauto

theorem Inv.resolveAll (he : ¬ C.early) (hq : ¬ C.uniq) {ps : List (Node × Nat)} {f : Forest} (hf : Inv C f) (hp : ∀ p ∈ ps, Pair C p ∧ p.1.key ∈ f.keys ∧ p.2 ∈ f.keys) (hn : (ps.map fun p => p.1.key).Nodup) :
    ∃ g, ResolveUse.resolveAll ps f = some g ∧ Inv C g := by
  induction ps generalizing f with
  | nil => exact ⟨f, rfl, hf⟩
  | cons p t ih =>
    obtain ⟨hp0, h1, h2⟩ := hp p (by simp)
    obtain ⟨g, e, hg, hk⟩ := hf.resolveOne he hq hp0 h1 h2
    rw [List.map_cons, List.nodup_cons] at hn
    obtain ⟨g', e', hg'⟩ := ih hg (fun q hq => by
      obtain ⟨q0, q1, q2⟩ := hp q (by simp [hq])
      refine ⟨q0, hk _ q1 fun e => hn.1 (List.mem_map.2 ⟨q, hq, e⟩), hk _ q2 fun e => ?_⟩
      have := q0.nouse
      rw [e] at this
      exact this hp0.use) hn.2
    exact ⟨g', by rw [ResolveUse.resolveAll, e]; exact e', hg'⟩

theorem holds_resolveUse (he : ¬ C.early) (hq : ¬ C.uniq) : Holds (Inv C) (may resolveUse) := by
  refine Holds.may fun f hf => ?_
  refine hf.resolveAll he hq (fun p hp => ?_) ?_
  · unfold pairs at hp
    obtain ⟨n, hn, e⟩ := List.mem_filterMap.1 hp
    obtain ⟨k, hk, rfl⟩ := Option.map_eq_some_iff.1 e
    obtain ⟨hn, ht⟩ := List.mem_filter.1 hn
    have hkn := (Node.isTag_iff _ _).1 ht
    unfold target at hk
    split at hk
    · cases hk
    · split at hk
      next k' hget =>
        split at hk
        · cases hk
        next l hl =>
          split at hk
          · cases hk
          · split at hk
            · cases hk
            next hsym =>
              split at hk
              · cases hk
              next huse =>
                split at hk
                · cases hk
                · cases hk
                  have hno := hf.nodes n hn
                  obtain ⟨l1, l2, l3, l4, l5, l6, l7⟩ := (hno.get hget).link k rfl
                  obtain ⟨m1, m2⟩ := l7 rfl
                  obtain ⟨q1, q2, q3, q4, q5⟩ := m2 hkn
                  obtain ⟨hlm, hlk⟩ := Forest.find_some hl
                  have hkk := (hf.nodes l hlm).kind
                  rw [hlk] at hkk
                  refine ⟨⟨(hno.kind.ne (by decide) rfl).1 hkn, l4, q1, ?_, q3, q4, ?_, q5.1, q5.2⟩, Forest.key_mem hn, hlk ▸ Forest.key_mem hlm⟩
                  · cases hd : defKind (C.kind k) with
                    | false => rfl
                    | true =>
                      have := (hkk.ne (by decide) rfl).2 (q2 hd)
                      exact absurd ((Node.isTag_iff _ _).2 this) hsym
                  · intro e
                    have := (hkk.ne (by decide) rfl).2 e
                    exact absurd ((Node.isTag_iff _ _).2 this) huse
      · cases hk
  · have hs : ((pairs f).map fun p => p.1.key).Sublist f.keys := by
      unfold pairs
      have : ∀ L : List Node, ((L.filterMap fun n => (target f n).map fun k => (n, k)).map fun p => p.1.key).Sublist (L.map Node.key) := by
        intro L
        induction L with
        | nil => exact List.Sublist.refl _
        | cons a t ih =>
          rw [List.filterMap_cons]
          cases target f a with
          | none => exact ih.cons _
          | some k => exact ih.cons_cons _
      exact (this _).trans (List.filter_sublist.map _)
    exact hf.unique.sublist hs

end Verif.Crash
