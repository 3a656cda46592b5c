import Verif.CrashTree
import Verif.DuplBlur
/-
C53: stops and transforms of gradients; equal gradients and blurs.
-/
namespace Verif.Crash
open Verif.Dom Verif.Spec
open Verif.Dom (Res)
open Verif.Pipeline

variable {C : Ctx}

/-! ### Gradients -/

theorem top_unique {f : Forest} (hu : f.UniqueKeys) {x : Node × Forest} (hx : x ∈ subs f) : (x.2.top.map Node.key).Nodup :=
  List.Nodup.sublist (((Stops.top_sub_nodes _).trans (Stops.subs_kids_sub hx).1).map _) hu

theorem holds_removeInvalidStops : Holds (Inv C) (sure Stops.removeInvalidStops) := by
  refine Holds.sure fun f hf => ?_
  have hstop : ∀ n ∈ f.nodes, n.key ∈ Stops.invalidStops f → ∃ x ∈ subs f, gradKind x.1.kind = true ∧ n ∈ x.2.top ∧ n.key ∈ Stops.dupL none x.2.top := by
    intro n hn h
    rw [Stops.invalidStops_eq] at h
    obtain ⟨x, hx, h⟩ := List.mem_flatMap.1 h
    split at h
    next hg =>
      rw [Stops.dupStops_eq] at h
      obtain ⟨c, hc, e⟩ := Stops.dupL_sub h
      have : c = n := Forest.eq_of_key hf.unique (GroupDefs.kid_nodes hx hc) hn e
      exact ⟨x, hx, by rw [gradKind_eq]; exact hg, this ▸ hc, h⟩
    · cases h
  have hkind : ∀ n ∈ f.nodes, n.key ∈ Stops.invalidStops f → n.kind = .elem .stop := fun n hn h => by
    obtain ⟨x, hx, hg, hc, _⟩ := hstop n hn h
    exact ((hf.trees x hx).stops hg n hc).1
  have a1 : ∀ n ∈ f.nodes, n.key = C.s → decide (n.key ∈ Stops.invalidStops f) = false := fun n hn e => by
    rw [decide_eq_false_iff_not]; intro h
    have := hkind n hn h
    rw [hf.kindS hn e] at this; cases this
  have a2 : ∀ n ∈ f.nodes, n.key = C.d → decide (n.key ∈ Stops.invalidStops f) = false := fun n hn e => by
    rw [decide_eq_false_iff_not]; intro h
    have := hkind n hn h
    rw [hf.kindD hn e] at this; cases this
  refine hf.remove a1 a2 fun he x hx hg => ⟨fun k hk hp => ?_, fun h0 => ?_⟩
  · obtain ⟨y, hy, e⟩ := Node.mem_links.1 hk
    have h1 := (((hf.nodes x.1 (subs_nodes hx)).attrs y hy).grad.link hg k e).2.1
    obtain ⟨z, hz, hpz, e⟩ := Merge.mem_prunedKeys hp
    have hzn := subs_nodes hz
    have hzs := hkind z.1 hzn (by simpa using hpz)
    rcases e with rfl | e
    · rw [← (hf.nodes z.1 hzn).kind.grad, hzs] at h1
      cases h1
    · have := ((hf.trees z hz).below (fun e => by rw [a1 z.1 hzn e] at hpz; cases hpz) (fun e => by rw [a2 z.1 hzn e] at hpz; cases hpz) k e).1
      rw [gradKind_def h1] at this
      cases this
  · obtain ⟨c, t, ht⟩ := List.exists_cons_of_ne_nil h0
    have hc : c ∈ x.2.top := by rw [ht]; simp
    refine ⟨c, hc, ?_⟩
    rw [decide_eq_false_iff_not]
    intro h
    obtain ⟨y, hy, _, hcy, hd⟩ := hstop c (GroupDefs.kid_nodes hx hc) h
    have : y = x := Stops.parent_unique hf.unique hy hx hcy hc rfl
    subst this
    have hn := top_unique hf.unique hx
    rw [ht] at hd hn
    obtain ⟨d, hd, e⟩ := Stops.dupL_sub (show c.key ∈ Stops.dupL (some c) t from hd)
    rw [List.map_cons, List.nodup_cons] at hn
    exact hn.1 (List.mem_map.2 ⟨d, hd, e⟩)

theorem tame_moveGradient (n : Node) (t : Paths.Transform) : Tame C n (ApplyTs.moveGradient n t) := by
  unfold ApplyTs.moveGradient
  refine Tame.trans ?_ (Tame.rmFree C _ (by decide))
  split
  · exact (tame_transformCoords n (by decide) (by decide) t).trans (tame_transformCoords _ (by decide) (by decide) t)
  · simp only
    split
    · exact ((tame_transformCoords n (by decide) (by decide) t).trans (tame_transformCoords _ (by decide) (by decide) t)).trans (tame_scaleCoord _ (by decide) _)
    · exact (tame_transformCoords n (by decide) (by decide) t).trans (tame_transformCoords _ (by decide) (by decide) t)

theorem Inv.modify {f : Forest} (hf : Inv C f) {k : Nat} {u : Node → Node} (hu : ∀ n ∈ f.nodes, n.key = k → Tame C n (u n)) : Inv C (f.modify k u) :=
  hf.map fun n hn => by
    split
    next e => exact hu n hn e
    · exact Tame.refl C n

theorem holds_applyToGradients : Holds (Inv C) (may ApplyTs.applyToGradients) := by
  refine Holds.may fun f hf => ?_
  unfold ApplyTs.applyToGradients
  generalize f.keys = l
  induction l generalizing f with
  | nil => exact ⟨f, rfl, hf⟩
  | cons k t ih =>
    have : ∃ g, ApplyTs.gradientBody k f = some g ∧ Inv C g := by
      unfold ApplyTs.gradientBody
      split
      · exact ⟨f, rfl, hf⟩
      next n e =>
        obtain ⟨hn, rfl⟩ := Forest.find_some e
        split
        next hg =>
          simp only [Bool.and_eq_true] at hg
          split
          · exact ⟨f, rfl, hf⟩
          split
          · exact ⟨f, rfl, hf⟩
          obtain ⟨v, hv⟩ := has_get hg.2
          obtain ⟨t, rfl⟩ := ((hf.nodes n hn).get hv).grad.ts rfl
          rw [hv]
          dsimp only
          split
          · exact ⟨f, rfl, hf⟩
          by_cases hc : (!ApplyTs.isValidCoords n (if n.isTag .linearGradient then .linearGradient else .radialGradient)) = true
          · rw [if_pos hc]; exact ⟨f, rfl, hf⟩
          rw [if_neg hc]
          refine ⟨_, rfl, hf.modify fun m hm em => ?_⟩
          rw [Forest.eq_of_key hf.unique hm hn em]
          exact tame_moveGradient n t
        · exact ⟨f, rfl, hf⟩
    obtain ⟨g, e, hg⟩ := this
    obtain ⟨g', e', hg'⟩ := ih g hg
    exact ⟨g', by rw [Gradients.forEach, e]; exact e', hg'⟩

/-! ### Nodes are changed one by one, with new references -/

theorem href_not_wanted (k : Kind) : AId.xlinkHref ∉ wanted k := by
  cases k with
  | elem e => cases e <;> simp [Crash.wanted]
  | _ => simp [Crash.wanted]

theorem Inv.mapOk {f : Forest} (h : Inv C f) {u : Node → Node} (hk : ∀ n, (u n).key = n.key) (ht : ∀ n, (u n).kind = n.kind) (hi : ∀ n, (u n).id = n.id)
    (hh : ∀ n a, (a = .xlinkHref → C.early) → (u n).has a = n.has a) (hn : ∀ n ∈ f.nodes, NodeOk C (u n)) (hl : ∀ n ∈ f.nodes, ∀ k ∈ (u n).links, k ∈ f.keys) : Inv C (f.map u) where
  count := by rw [Forest.nodes_map, List.length_map]; exact h.count
  unique := (Forest.uniqueKeys_map hk).2 h.unique
  links m hm k hkm := by
    rw [Forest.nodes_map] at hm
    obtain ⟨n, hn, rfl⟩ := List.mem_map.1 hm
    rw [Forest.keys_map hk]
    exact hl n hn k hkm
  nodes m hm := by
    rw [Forest.nodes_map] at hm
    obtain ⟨n, hn', rfl⟩ := List.mem_map.1 hm
    exact hn n hn'
  ids hu n hn hg m hm e := by
    rw [Forest.nodes_map] at hn hm
    obtain ⟨n, hn', rfl⟩ := List.mem_map.1 hn
    obtain ⟨m, hm', rfl⟩ := List.mem_map.1 hm
    rw [hk, hk]
    rw [ht] at hg
    rw [hi, hi] at e
    exact h.ids hu n hn' hg m hm' e
  trees y hy := by
    rw [Stops.subs_map] at hy
    obtain ⟨x, hx, rfl⟩ := List.mem_map.1 hy
    have := h.trees x hx
    refine ⟨fun e m hm => ?_, fun e => ?_, fun e m hm => ?_, fun he e => ?_, fun e1 e2 j hj => ?_⟩
    · rw [Stops.top_map] at hm
      obtain ⟨n, hn, rfl⟩ := List.mem_map.1 hm
      rw [ht]; exact this.group ((ht _).symm.trans e) n hn
    · rw [Forest.keys_map hk]; exact this.leaf ((ht _).symm.trans e)
    · dsimp only at *
      rw [ht] at e
      rw [Stops.top_map] at hm
      obtain ⟨n, hn, rfl⟩ := List.mem_map.1 hm
      rw [ht]
      refine ⟨(this.stops e n hn).1, fun a ha => ?_⟩
      rw [hh _ _ fun e => absurd (e ▸ ha) (href_not_wanted _)]; exact (this.stops e n hn).2 a ha
    · dsimp only at *
      rw [ht] at e
      rw [hh _ _ fun _ => he, Stops.top_map, List.map_eq_nil_iff]
      exact this.early he e
    · rw [Forest.keys_map hk] at hj
      dsimp only at *
      rw [hk] at *
      rw [ht]
      exact this.below e1 e2 j hj
  root := by
    obtain ⟨S, ks, D, h1, h2, h3, h4, h5⟩ := h.root
    exact ⟨u S, ks.map u, u D, GroupDefs.svgElement_map h1 ht, (hk S).trans h2, by rw [Stops.top_map]; exact List.mem_map.2 ⟨D, h3, rfl⟩, (hk D).trans h4, (ht D).trans h5⟩

/-! ### Equal blurs -/

section
open Verif.Dupl

theorem target_relink {k1 k2 : Nat} {x : Attr} {k : Nat} (h : (relinkAttr k1 k2 x).value.target = some k) : x.value.target = some k ∨ (x.value.target = some k2 ∧ k = k1) := by
  unfold relinkAttr at h
  split at h
  · split at h
    next e =>
      refine .inr ⟨e, ?_⟩
      simp only [nodeValue] at h
      split at h <;> (simp only [Value.target, Option.some.injEq] at h; exact h.symm)
    · exact .inl h
  · exact .inl h

theorem relink_ok {n : Node} {k1 k2 : Nat} (h1 : defKind (C.kind k1) = true) (h2 : defKind (C.kind k2) = true) (h3 : C.kind k2 ≠ .elem .symbol) (hs : k1 ≠ C.s)
    (hgr : gradKind n.kind = true → k2 ∈ n.links → gradKind (C.kind k1) = true ∧ C.rank k1 < C.rank n.key)
    {x : Attr} (hx : x ∈ n.attrs) (h : AttrOk C n x.name x.value) : AttrOk C n (relinkAttr k1 k2 x).name (relinkAttr k1 k2 x).value := by
  unfold relinkAttr
  split
  next a ea =>
    split
    next e =>
      have hkl := Node.mem_links.2 ⟨x, hx, e⟩
      have ht : ∀ q, (nodeValue a k1) ≠ .transform q := by unfold nodeValue; intro q; split <;> simp
      have hnum : ∀ q, (nodeValue a k1) ≠ .number q := by unfold nodeValue; intro q; split <;> simp
      have hl : ∀ q, (nodeValue a k1) ≠ .numberList q := by unfold nodeValue; intro q; split <;> simp
      have hp : ∀ q, (nodeValue a k1) ≠ .path q := by unfold nodeValue; intro q; split <;> simp
      have hkw : ∀ q, (nodeValue a k1) ≠ .kw q := by unfold nodeValue; intro q; split <;> simp
      have htg : (nodeValue a k1).target = some k1 := by unfold nodeValue; split <;> rfl
      rw [ea] at h
      obtain ⟨l1, l2, l3, l4, l5, l6, l7⟩ := h.link k2 e
      refine ⟨⟨fun e' => ?_, fun e' => ?_, fun e' => ?_, fun hg e' => ?_, fun hg k e' => ?_, fun _ e' => hkw _, fun hs => ?_⟩,
        fun e' => ?_, fun e' => ?_, fun e' => ?_, fun e' => ?_, fun _ e' => absurd e' (hkw _), fun k e' => ?_⟩
      · obtain ⟨t, et⟩ := h.grad.ts e'; rw [et] at e; cases e
      · obtain ⟨_, _, _, et⟩ := h.grad.color e'; rw [et] at e; cases e
      · obtain ⟨t, et⟩ := h.grad.opacity e'; rw [et] at e; cases e
      · injection e' with e'
        exact ⟨k1, by unfold nodeValue; rw [if_pos e']⟩
      · rw [htg] at e'; cases e'
        exact ⟨(h.grad.link hg k2 e).1, hgr hg hkl⟩
      · rw [h.grad.stop hs] at e; cases e
      · obtain ⟨_, t, et⟩ := h.transform e'; rw [et] at e; cases e
      · obtain ⟨t, et⟩ := h.opacity e'; rw [et] at e; cases e
      · exact ⟨(h.points e').1, (h.points e').2.1, fun _ _ l el => absurd el (hl l)⟩
      · exact ⟨(h.d e').1, (h.d e').2.1, fun p ep => absurd ep (hp p)⟩
      · rw [htg] at e'; cases e'
        refine ⟨l1, l2, l3, hs, l5, fun _ => h1, fun eh => ⟨(l7 eh).1, fun eu => ?_⟩⟩
        exact absurd (((l7 eh).2 eu).2.1 h2) h3
    · exact h
  · exact h

theorem hrefs_relink (a b : Nat) (n : Node) : hrefs { n with attrs := n.attrs.map (relinkAttr a b) } = hrefs n := by
  unfold hrefs
  rw [List.filter_map, List.length_map]
  refine congrArg _ (List.filter_congr fun x _ => ?_)
  have : (relinkAttr a b x).name = x.name := by
    unfold relinkAttr
    split
    next e => split <;> first | rfl | exact e.symm
    · rfl
  simp only [Function.comp, this]

theorem has_relink (k1 k2 : Nat) (n : Node) (a : AId) : ({ n with attrs := n.attrs.map (relinkAttr k1 k2) } : Node).has a = n.has a := by
  have hn : ∀ x : Attr, (relinkAttr k1 k2 x).name = x.name := fun x => by
    unfold relinkAttr
    split
    next e => split <;> first | rfl | exact e.symm
    · rfl
  rw [Bool.eq_iff_iff, has_iff, has_iff]
  constructor
  · rintro ⟨x, hx, e⟩
    obtain ⟨y, hy, rfl⟩ := List.mem_map.1 hx
    exact ⟨y, hy, by rw [← hn]; exact e⟩
  · rintro ⟨x, hx, e⟩
    exact ⟨_, List.mem_map.2 ⟨x, hx, rfl⟩, by rw [hn]; exact e⟩

/-- What refers to one definition refers to another one, and the first one is removed. -/
theorem Inv.fuseOk {f : Forest} (hf : Inv C f) {n1 : Node} (hn1 : n1 ∈ f.nodes) {n2 : Node} (hne : n1.key ≠ n2.key)
    (s1 : n1.key ≠ C.s) (s2 : n2.key ≠ C.s ∧ n2.key ≠ C.d) (d1 : defKind (C.kind n1.key) = true) (d2 : defKind (C.kind n2.key) = true)
    (d3 : C.kind n2.key ≠ .elem .symbol) (d4 : C.kind n2.key ≠ .elem .stop)
    (hgr : ∀ n ∈ f.nodes, gradKind n.kind = true → n2.key ∈ n.links → n.id ≠ n1.id → gradKind (C.kind n1.key) = true ∧ C.rank n1.key < C.rank n.key)
    (hleft : C.early → ∀ n ∈ f.nodes, gradKind n.kind = true → n.id = n1.id → n2.key ∉ n.links)
    (hcross : crossLink f n1 n2.key = false) : ∃ g, fuse n1 n2.key f = some g ∧ Inv C g := by
  have hstray : strayLink f n2.key = false := by
    unfold strayLink
    rw [List.any_eq_false]
    intro n hn h
    obtain ⟨x, hx, h⟩ := List.any_eq_true.1 h
    simp only [Bool.and_eq_true, decide_eq_true_eq] at h
    obtain ⟨b, e⟩ := (((hf.nodes n hn).attrs x hx).link _ h.1).2.2.2.2.1
    have := h.2
    rw [e] at this
    cases this
  have hlinks : ∀ n ∈ f.nodes, ∀ k ∈ ({ n with attrs := n.attrs.map (relinkAttr n1.key n2.key) } : Node).links, (k ∈ n.links ∧ k ≠ n2.key) ∨ (n2.key ∈ n.links ∧ k = n1.key) := by
    intro n hn k hk
    obtain ⟨y, hy, e⟩ := Node.mem_links.1 hk
    obtain ⟨x, hx, rfl⟩ := List.mem_map.1 hy
    rcases target_relink e with e' | ⟨e', rfl⟩
    · refine .inl ⟨Node.mem_links.2 ⟨x, hx, e'⟩, ?_⟩
      rintro rfl
      obtain ⟨b, eb⟩ := (((hf.nodes n hn).attrs x hx).link _ e').2.2.2.2.1
      unfold relinkAttr at e
      rw [eb] at e
      simp only at e
      rw [if_pos e'] at e
      have htg : (nodeValue b n1.key).target = some n1.key := by unfold nodeValue; split <;> rfl
      rw [htg] at e
      exact hne (Option.some.inj e)
    · exact .inr ⟨Node.mem_links.2 ⟨x, hx, e'⟩, rfl⟩
  have hm : Inv C (f.map fun n => if n.id = n1.id then n else { n with attrs := n.attrs.map (relinkAttr n1.key n2.key) }) := by
    refine hf.mapOk (fun n => by split <;> rfl) (fun n => by split <;> rfl) (fun n => by split <;> rfl) (fun n a _ => ?_) (fun n hn => ?_) (fun n hn k hk => ?_)
    · split
      · rfl
      · exact has_relink _ _ n a
    · split
      · exact hf.nodes n hn
      next hid =>
        have := hf.nodes n hn
        refine ⟨this.kind, fun e hb a ha => ?_, this.named, fun hg => ?_, fun y hy => ?_⟩
        · rw [has_relink]; exact this.full e hb a ha
        · rw [hrefs_relink]; exact this.single hg
        · obtain ⟨x, hx, rfl⟩ := List.mem_map.1 hy
          exact Kin.attr (n := n) (m := { n with attrs := n.attrs.map (relinkAttr n1.key n2.key) }) rfl (.inl rfl)
            (relink_ok d1 d2 d3 s1 (fun hg hk => hgr n hn hg hk hid) hx (this.attrs x hx))
    · split at hk
      · exact hf.links n hn k hk
      · rcases hlinks n hn k hk with ⟨h, _⟩ | ⟨_, rfl⟩
        · exact hf.links n hn k h
        · exact Forest.key_mem hn1
  refine ⟨_, by rw [Dupl.fuse, hstray, hcross]; rfl, hm.rmUnused s2.1 s2.2 d4 fun he m hm' hg => ?_⟩
  rw [Forest.nodes_map] at hm'
  obtain ⟨n, hn, rfl⟩ := List.mem_map.1 hm'
  intro hk
  split at hk
  next hid =>
    rw [if_pos hid] at hg
    exact hleft he n hn hg hid hk
  next hid =>
    rcases hlinks n hn _ hk with ⟨_, h⟩ | ⟨_, h⟩
    · exact h rfl
    · exact hne h.symm

theorem subs_of_prune {p : Node → Bool} {f : Forest} {y : Node × Forest} (h : y ∈ subs (f.prune p)) : ∃ x ∈ subs f, y = (x.1, x.2.prune p) := by
  induction f with
  | nil => cases h
  | cons n k r ih1 ih2 =>
    rw [Forest.prune] at h
    split at h
    · obtain ⟨x, hx, e⟩ := ih2 h; exact ⟨x, by simp [subs, hx], e⟩
    · simp only [subs, List.mem_cons, List.mem_append] at h
      rcases h with rfl | h | h
      · exact ⟨(n, k), by simp [subs], rfl⟩
      · obtain ⟨x, hx, e⟩ := ih1 h; exact ⟨x, by simp [subs, hx], e⟩
      · obtain ⟨x, hx, e⟩ := ih2 h; exact ⟨x, by simp [subs, hx], e⟩

/-- The filters with children. -/
def Full (f : Forest) (k : Nat) : Prop := ∀ x ∈ subs f, x.1.key = k → x.1.kind = .elem .filter ∧ x.2.top ≠ []

theorem Inv.fuse {f : Forest} (hf : Inv C f) {n1 : Node} (hn1 : n1 ∈ f.nodes) (hk1 : n1.kind = .elem .filter) {n2 : Node} (hn2 : n2 ∈ f.nodes) (hk2 : n2.kind = .elem .filter)
    (hne : n1.key ≠ n2.key) : ∃ g, fuse n1 n2.key f = some g ∧ Inv C g ∧ ∀ k, k ≠ n2.key → Full f k → Full g k := by
  have c1 : C.kind n1.key = .elem .filter := ((hf.nodes n1 hn1).kind.ne (by decide) rfl).1 hk1
  have c2 : C.kind n2.key = .elem .filter := ((hf.nodes n2 hn2).kind.ne (by decide) rfl).1 hk2
  have s1 := hf.tagKey hn1 hk1 (by decide) (by decide)
  have s2 := hf.tagKey hn2 hk2 (by decide) (by decide)
  have hno : n1.links = [] := by
    refine List.eq_nil_iff_forall_not_mem.2 fun k hk => ?_
    obtain ⟨x, hx, e⟩ := Node.mem_links.1 hk
    exact (((hf.nodes n1 hn1).attrs x hx).link k e).2.2.1 hk1
  have hgl : ∀ n ∈ f.nodes, gradKind n.kind = true → n2.key ∉ n.links := fun n hn hg hk => by
    obtain ⟨x, hx, e⟩ := Node.mem_links.1 hk
    have := (((hf.nodes n hn).attrs x hx).grad.link hg _ e).2.1
    rw [c2] at this; cases this
  have hcross : crossLink f n1 n2.key = false := by
    unfold crossLink
    rw [List.any_eq_false]
    intro n hn h
    simp only [Bool.and_eq_true, decide_eq_true_eq, Bool.or_eq_true] at h
    rcases h.2 with h' | h'
    · exact (hf.nodes n1 hn1).named (.inl hk1) h'
    · rw [hno] at h'; cases h'
  obtain ⟨g, hg, hi⟩ := hf.fuseOk hn1 hne s1.1 s2 (by rw [c1]; rfl) (by rw [c2]; rfl) (by rw [c2]; decide) (by rw [c2]; decide)
    (fun n hn hg hk => absurd hk (hgl n hn hg)) (fun _ n hn hg _ => hgl n hn hg) hcross
  refine ⟨g, hg, hi, fun k hk hfull y hy e => ?_⟩
  unfold Dupl.fuse at hg
  split at hg
  · cases hg
  cases hg
  unfold Invisible.rmKey Forest.remove at hy
  rw [Stops.subs_map] at hy
  obtain ⟨x, hx, rfl⟩ := List.mem_map.1 hy
  obtain ⟨x', hx', rfl⟩ := subs_of_prune hx
  rw [Stops.subs_map] at hx'
  obtain ⟨x, hx0, rfl⟩ := List.mem_map.1 hx'
  clear hx hx'
  have hx := hx0
  have ek : ∀ n : Node, (if n.id = n1.id then n else { n with attrs := n.attrs.map (relinkAttr n1.key n2.key) }).key = n.key := fun n => by split <;> rfl
  have et : ∀ n : Node, (if n.id = n1.id then n else { n with attrs := n.attrs.map (relinkAttr n1.key n2.key) }).kind = n.kind := fun n => by split <;> rfl
  have e' : x.1.key = k := by
    rw [← ek x.1]; exact e
  obtain ⟨h1, h2⟩ := hfull x hx e'
  refine ⟨(et x.1).trans h1, ?_⟩
  dsimp only
  rw [Stops.top_map, Stops.top_prune, Stops.top_map]
  have sx := hf.tagKey (subs_nodes hx) h1 (by decide) (by decide)
  obtain ⟨a, ha⟩ := List.exists_mem_of_ne_nil _ h2
  intro h0
  rw [List.map_eq_nil_iff, List.filter_eq_nil_iff] at h0
  have := h0 _ (List.mem_map.2 ⟨a, ha, rfl⟩)
  rw [ek] at this
  have h3 : a.key = n2.key := by simpa using this
  have := ((hf.trees x hx).below sx.1 sx.2 a.key (Forest.mem_keys.2 ⟨a, GroupStyle.mem_top_nodes ha, rfl⟩)).1
  rw [h3, c2] at this; cases this

theorem cmpBlurs_some {f : Forest} {k1 k2 : Nat} (h1 : Full f k1) (h2 : Full f k2) :
    ∃ b, cmpBlurs f k1 k2 = some b ∧ (b = true → (∃ n1, f.find k1 = some n1) ∧ ∃ n2, f.find k2 = some n2) := by
  unfold cmpBlurs
  split
  next n1 n2 c1 c2 e1 e2 e3 e4 =>
    split
    · obtain ⟨m1, g1, p1⟩ := UnusedDefs.subs_kidsOf e3
      obtain ⟨m2, g2, p2⟩ := UnusedDefs.subs_kidsOf e4
      have q1 := (h1 _ p1 g1).2
      have q2 := (h2 _ p2 g2).2
      dsimp only at q1 q2
      cases t1 : c1.top with
      | nil => exact absurd t1 q1
      | cons d1 r1 =>
        cases t2 : c2.top with
        | nil => exact absurd t2 q2
        | cons d2 r2 => exact ⟨_, rfl, fun _ => ⟨⟨n1, e1⟩, ⟨n2, e2⟩⟩⟩
    · exact ⟨false, rfl, fun h => by cases h⟩
  · exact ⟨false, rfl, fun h => by cases h⟩

theorem Inv.inner {f : Forest} (hf : Inv C f) {k1 : Nat} {ks : List Nat} (hn : (k1 :: ks).Nodup) (h1 : Full f k1) (hk : ∀ k ∈ ks, Full f k) :
    ∃ l g, rmInner cmpBlurs k1 ks f = some (l, g) ∧ Inv C g ∧ l.Sublist ks ∧ (∀ k, k ∉ ks → Full f k → Full g k) ∧ ∀ k ∈ l, Full g k := by
  induction ks generalizing f with
  | nil => exact ⟨[], f, rfl, hf, List.Sublist.refl _, fun _ _ h => h, by simp⟩
  | cons k2 t ih =>
    obtain ⟨b, hb, hfind⟩ := cmpBlurs_some h1 (hk k2 (by simp))
    have hn' : (k1 :: t).Nodup := by
      rw [List.nodup_cons] at hn ⊢
      exact ⟨fun h => hn.1 (by simp [h]), (List.nodup_cons.1 hn.2).2⟩
    have hne : k1 ≠ k2 := fun e => (List.nodup_cons.1 hn).1 (by simp [e])
    have hk2 : k2 ∉ t := (List.nodup_cons.1 (List.nodup_cons.1 hn).2).1
    cases b with
    | false =>
      obtain ⟨l, g, e, i, s, p, q⟩ := ih hf hn' h1 fun k hk' => hk k (by simp [hk'])
      refine ⟨k2 :: l, g, by rw [rmInner, hb]; simp [e], i, s.cons_cons _, fun k hk' => p k fun h => hk' (by simp [h]), fun k hk' => ?_⟩
      rcases List.mem_cons.1 hk' with rfl | hk'
      · exact p _ hk2 (hk _ (by simp))
      · exact q k hk'
    | true =>
      obtain ⟨⟨n1, f1⟩, ⟨n2, f2⟩⟩ := hfind rfl
      obtain ⟨m1, e1⟩ := Forest.find_some f1
      obtain ⟨m2, rfl⟩ := Forest.find_some f2
      obtain ⟨c1, s1⟩ := nodes_subs m1
      obtain ⟨c2, s2⟩ := nodes_subs m2
      obtain ⟨g, hg, ig, kg⟩ := hf.fuse m1 (h1 _ s1 e1).1 m2 (hk _ (by simp) _ s2 rfl).1 (e1 ▸ hne)
      obtain ⟨l, g', e, i, s, p, q⟩ := ih ig hn' (kg _ hne h1) fun k hk' => kg k (fun e => hk2 (e ▸ hk')) (hk k (by simp [hk']))
      refine ⟨l, g', by rw [rmInner, hb]; simp [f1, hg, e], i, s.cons _, fun k hk' hfull => p k (fun h => hk' (by simp [h])) (kg k (fun h => hk' (by simp [h])) hfull), q⟩

theorem Inv.outer {fuel : Nat} {f : Forest} (hf : Inv C f) {ks : List Nat} (hn : ks.Nodup) (hk : ∀ k ∈ ks, Full f k) : ∃ g, rmOuter cmpBlurs fuel ks f = some g ∧ Inv C g := by
  induction fuel generalizing f ks with
  | zero => exact ⟨f, by cases ks <;> rfl, hf⟩
  | succ fuel ih =>
    cases ks with
    | nil => exact ⟨f, rfl, hf⟩
    | cons k t =>
      obtain ⟨l, g, e, i, s, _, q⟩ := hf.inner hn (hk k (by simp)) fun j hj => hk j (by simp [hj])
      obtain ⟨g', e', i'⟩ := ih i ((List.nodup_cons.1 hn).2.sublist s) q
      exact ⟨g', by rw [rmOuter, e]; exact e', i'⟩

theorem holds_rmBlurs : Holds (Inv C) (may rmBlurs) := by
  refine Holds.may fun f hf => ?_
  refine hf.outer (nodup_blurs hf.unique) fun k hk x hx e => ?_
  unfold blurs at hk
  obtain ⟨y, hy, e'⟩ := List.mem_map.1 hk
  obtain ⟨hy, hb⟩ := List.mem_filter.1 hy
  have : y = x := GroupDefs.subs_unique hf.unique hy hx (e'.trans e.symm)
  subst this
  simp only [Bool.and_eq_true, blurOk, decide_eq_true_eq] at hb
  refine ⟨(Node.isTag_iff _ _).1 hb.1, fun h0 => ?_⟩
  have := hb.2.1.1
  rw [h0] at this; cases this

/-! ### Equal gradients -/

/-- Another order of the gradients. -/
theorem Inv.rerank {f : Forest} (h : Inv C f) {r : Nat → Nat} (h1 : ∀ k, gradKind (C.kind k) = false → r k = C.rank k)
    (h2 : ∀ n ∈ f.nodes, gradKind n.kind = true → ∀ k ∈ n.links, r k < r n.key) : Inv { C with rank := r } f where
  unique := h.unique
  links := h.links
  root := h.root
  count := h.count
  ids := h.ids
  nodes n hn := ⟨(h.nodes n hn).kind, (h.nodes n hn).full, (h.nodes n hn).named, (h.nodes n hn).single, fun x hx => by
    have := (h.nodes n hn).attrs x hx
    refine ⟨⟨this.grad.ts, this.grad.color, this.grad.opacity, this.grad.href, fun hg k e => ?_, this.grad.shown, this.grad.stop⟩, this.transform, this.opacity, this.points,
      this.d, this.shown, fun k e => ?_⟩
    · obtain ⟨a, b, _⟩ := this.grad.link hg k e
      exact ⟨a, b, h2 n hn hg k (Node.mem_links.2 ⟨x, hx, e⟩)⟩
    · obtain ⟨p1, p2, p3, p4, p5, p6, p7⟩ := this.link k e
      refine ⟨p1, p2, p3, p4, p5, p6, fun ea => ⟨(p7 ea).1, fun eu => ?_⟩⟩
      obtain ⟨q1, q2, q3, q4, q5, q6⟩ := (p7 ea).2 eu
      refine ⟨q1, q2, q3, q4, ?_, q6⟩
      show r k < r n.key
      rw [h1 k, h1 n.key]
      · exact q5
      · rw [← (h.nodes n hn).kind.grad, eu]; rfl
      · cases hg : gradKind (C.kind k) with
        | false => rfl
        | true => rw [q2 (gradKind_def hg)] at hg; cases hg⟩
  trees x hx := by
    have := h.trees x hx
    refine ⟨this.group, this.leaf, this.stops, this.early, fun e1 e2 j hj => ?_⟩
    obtain ⟨p1, p2, p3, p4⟩ := this.below e1 e2 j hj
    refine ⟨p1, p2, p3, fun hg => ⟨?_, (p4 hg).2⟩⟩
    show r j < r x.1.key
    rw [h1 j, h1 x.1.key]
    · exact (p4 hg).1
    · rw [← (h.nodes x.1 (subs_nodes hx)).kind.grad]; exact hg
    · cases hg : gradKind (C.kind j) with
      | false => rfl
      | true => rw [gradKind_def hg] at p1; cases p1

theorem attrsEqual_some {n1 n2 : Node} {as : List AId} (h1 : ∀ a ∈ as, n1.has a = true) (h2 : ∀ a ∈ as, n2.has a = true) : ∃ b, attrsEqual n1 n2 as = some b := by
  induction as with
  | nil => exact ⟨true, rfl⟩
  | cons a t ih =>
    obtain ⟨v, hv⟩ := has_get (h1 a (by simp))
    obtain ⟨w, hw⟩ := has_get (h2 a (by simp))
    rw [attrsEqual, hv, hw]
    simp only [Option.bind_some]
    split
    · exact ih (fun a ha => h1 a (by simp [ha])) fun a ha => h2 a (by simp [ha])
    · exact ⟨false, rfl⟩

theorem gradientsEqual_href {as : List AId} {n1 n2 : Node} (h : gradientsEqual as n1 n2 = some true) : sameHref n1 n2 = true := by
  unfold gradientsEqual at h
  split at h
  · split at h
    next e => exact e
    · cases h
  · cases h

/-- Two equal gradients. -/
theorem Inv.twin {f : Forest} (hf : Inv C f) (he : C.early) (hu : C.uniq) (hb : ∀ k, ¬ C.bare k) {e : EId} (hge : gradKind (.elem e) = true) {as : List AId}
    (has : ∀ a ∈ as, a ∈ wanted (.elem e)) {k1 k2 : Nat} (hne : k1 ≠ k2) (c1 : C.kind k1 = .elem e) (c2 : C.kind k2 = .elem e) :
    ∃ b, cmpGradients as f k1 k2 = some b ∧ (b = true → ∃ n1, f.find k1 = some n1 ∧ ∃ g, Dupl.fuse n1 k2 f = some g ∧ ∃ r, Inv { C with rank := r } g) := by
  unfold cmpGradients
  split
  swap
  · exact ⟨false, rfl, fun h => by cases h⟩
  next n1 n2 d1 d2 e1 e2 e3 e4 =>
  obtain ⟨hn1, rfl⟩ := Forest.find_some e1
  obtain ⟨hn2, rfl⟩ := Forest.find_some e2
  have o1 := hf.nodes n1 hn1
  have o2 := hf.nodes n2 hn2
  have g1 : gradKind n1.kind = true := by rw [o1.kind.grad, c1]; exact hge
  have g2 : gradKind n2.kind = true := by rw [o2.kind.grad, c2]; exact hge
  have w1 : wanted n1.kind = wanted (.elem e) := by rw [o1.kind.wanted, c1]
  have w2 : wanted n2.kind = wanted (.elem e) := by rw [o2.kind.wanted, c2]
  have heq : ∃ b, gradientsEqual as n1 n2 = some b := by
    unfold gradientsEqual
    split
    · split
      · exact attrsEqual_some (fun a ha => o1.full g1 (hb _) a (by rw [w1]; exact has a ha)) fun a ha => o2.full g2 (hb _) a (by rw [w2]; exact has a ha)
      · exact ⟨false, rfl⟩
    · exact ⟨false, rfl⟩
  obtain ⟨b, hbq⟩ := heq
  rw [hbq]
  refine ⟨_, rfl, fun hbt => ⟨n1, e1, ?_⟩⟩
  rw [Bool.and_eq_true] at hbt
  obtain ⟨rfl, hst⟩ := hbt
  have hhref := gradientsEqual_href hbq
  obtain ⟨m1, q1, s1⟩ := UnusedDefs.subs_kidsOf e3
  obtain ⟨m2, q2, s2⟩ := UnusedDefs.subs_kidsOf e4
  obtain rfl := Forest.eq_of_key hf.unique (subs_nodes s1) hn1 q1
  obtain rfl := Forest.eq_of_key hf.unique (subs_nodes s2) hn2 q2
  have t1 := (hf.trees _ s1).early he g1
  have t2 := (hf.trees _ s2).early he g2
  dsimp only at t1 t2
  have htop : d1.top = [] ↔ d2.top = [] := by
    have := equalStops_forall hst
    constructor
    · intro h; rw [h] at this; exact List.forall₂_nil_left_iff.1 this
    · intro h; rw [h] at this; exact List.forall₂_nil_right_iff.1 this
  -- both refer to the same gradient
  have hget : ∀ (n : Node), n ∈ f.nodes → gradKind n.kind = true → ∀ k ∈ n.links, n.get .xlinkHref = some (.link k) := by
    intro n hn hg k hk
    obtain ⟨x, hx, ex⟩ := Node.mem_links.1 hk
    have hxn := (((hf.nodes n hn).attrs x hx).grad.link hg k ex).1
    obtain ⟨v, hv⟩ := has_get (has_iff.2 ⟨x, hx, hxn⟩)
    obtain ⟨j, rfl⟩ := ((hf.nodes n hn).get hv).grad.href hg rfl
    have hj : j ∈ n.links := by
      unfold Node.get at hv
      obtain ⟨y, hy, ey⟩ := Option.map_eq_some_iff.1 hv
      exact Node.mem_links.2 ⟨y, getAttr_mem hy, by rw [ey]; rfl⟩
    rw [hv, (hf.nodes n hn).one hg j hj k hk]
  have hsame : ∀ k ∈ m1.links, k ∈ m2.links := by
    intro k hk
    have h1 := hget m1 hn1 g1 k hk
    have hh1 : m1.has .xlinkHref = true := by rw [Node.has_eq, h1]; rfl
    have hh2 : m2.has .xlinkHref = true := t2.2 (htop.1 (t1.1 hh1))
    unfold sameHref at hhref
    rw [hh1, hh2] at hhref
    have h2 : m2.get .xlinkHref = some (.link k) := by rw [← h1]; simpa [eq_comm] using hhref
    unfold Node.get at h2
    obtain ⟨y, hy, ey⟩ := Option.map_eq_some_iff.1 h2
    exact Node.mem_links.2 ⟨y, getAttr_mem hy, by rw [ey]; rfl⟩
  have hrank : ∀ (n : Node), n ∈ f.nodes → gradKind n.kind = true → ∀ k ∈ n.links, C.rank k < C.rank n.key := by
    intro n hn hg k hk
    obtain ⟨x, hx, ex⟩ := Node.mem_links.1 hk
    exact (((hf.nodes n hn).attrs x hx).grad.link hg k ex).2.2
  have hno : m2.key ∉ m1.links := fun h => absurd (hrank m2 hn2 g2 _ (hsame _ h)) (by omega)
  have z1 : ∀ n ∈ f.nodes, gradKind n.kind = true → n.key ≠ C.s ∧ n.key ≠ C.d := fun n hn hg => by
    constructor
    · intro h; rw [hf.kindS hn h] at hg; cases hg
    · intro h; rw [hf.kindD hn h] at hg; cases hg
  have hcross : crossLink f m1 m2.key = false := by
    unfold crossLink
    rw [List.any_eq_false]
    intro n hn h
    simp only [Bool.and_eq_true, decide_eq_true_eq, Bool.or_eq_true] at h
    rcases h.2 with h' | h'
    · exact o1.named (.inr g1) h'
    · obtain ⟨x, hx, ex⟩ := Node.mem_links.1 h'
      have hgn := ((o1.attrs x hx).grad.link g1 _ ex).2.1
      rw [← (hf.nodes n hn).kind.grad] at hgn
      have a1 := hrank n hn hgn _ h.1.2
      have a2 := hrank m2 hn2 g2 _ (hsame _ h')
      omega
  have hf' : Inv { C with rank := fun k => if k = m1.key then min (C.rank m1.key) (C.rank m2.key) else C.rank k } f := by
    refine hf.rerank (fun k hk => ?_) fun n hn hg k hk => ?_
    · rw [if_neg]
      rintro rfl
      rw [c1, hge] at hk; cases hk
    · have := hrank n hn hg k hk
      by_cases hk1 : k = m1.key
      · subst hk1
        rw [if_pos rfl, if_neg]
        · omega
        · intro h; rw [h] at this; omega
      · rw [if_neg hk1]
        by_cases hn1' : n.key = m1.key
        · rw [if_pos hn1']
          have := Forest.eq_of_key hf.unique hn hn1 hn1'
          subst this
          have := hrank m2 hn2 g2 k (hsame k hk)
          omega
        · rw [if_neg hn1']; exact this
  have dk : ∀ k, C.kind k = .elem e → defKind (C.kind k) = true := fun k h => by rw [h]; exact gradKind_def hge
  have ns : C.kind m2.key ≠ .elem .symbol := by rw [c2]; intro h; rw [h] at hge; cases hge
  have nt : C.kind m2.key ≠ .elem .stop := by rw [c2]; intro h; rw [h] at hge; cases hge
  suffices H : ∃ g, Dupl.fuse m1 m2.key f = some g ∧ Inv { C with rank := fun k => if k = m1.key then min (C.rank m1.key) (C.rank m2.key) else C.rank k } g by
    obtain ⟨g, hg, hi⟩ := H
    exact ⟨g, hg, _, hi⟩
  refine hf'.fuseOk (n2 := m2) hn1 hne (z1 m1 hn1 g1).1 (z1 m2 hn2 g2) (dk _ c1) (dk _ c2) ns nt (fun n hn hgn hk hid => ?_) (fun _ n hn hgn hid => ?_) hcross
  · refine ⟨by show gradKind (C.kind m1.key) = true; rw [c1]; exact hge, ?_⟩
    have := hrank n hn hgn _ hk
    show (if m1.key = m1.key then _ else _) < (if n.key = m1.key then _ else _)
    rw [if_pos rfl, if_neg]
    · omega
    · intro h
      exact hid (by rw [Forest.eq_of_key hf.unique hn hn1 h])
  · have := hf.ids hu m1 hn1 g1 n hn hid
    rw [Forest.eq_of_key hf.unique hn hn1 this]
    exact hno

theorem Inv.twins {f : Forest} (hf : Inv C f) (he : C.early) (hu : C.uniq) (hb : ∀ k, ¬ C.bare k) {e : EId} (hge : gradKind (.elem e) = true) {as : List AId}
    (has : ∀ a ∈ as, a ∈ wanted (.elem e)) {k1 : Nat} {ks : List Nat} (hn : (k1 :: ks).Nodup) (hk : ∀ k ∈ k1 :: ks, C.kind k = .elem e) :
    ∃ l g r, rmInner (cmpGradients as) k1 ks f = some (l, g) ∧ Inv { C with rank := r } g ∧ l.Sublist ks := by
  induction ks generalizing f C with
  | nil => exact ⟨[], f, C.rank, rfl, hf, List.Sublist.refl _⟩
  | cons k2 t ih =>
    have hne : k1 ≠ k2 := fun e => (List.nodup_cons.1 hn).1 (by simp [e])
    have hn' : (k1 :: t).Nodup := by
      rw [List.nodup_cons] at hn ⊢
      exact ⟨fun h => hn.1 (by simp [h]), (List.nodup_cons.1 hn.2).2⟩
    obtain ⟨b, hb', h⟩ := hf.twin he hu hb hge has hne (hk k1 (by simp)) (hk k2 (by simp))
    have hk' : ∀ k ∈ k1 :: t, C.kind k = .elem e := fun k h => hk k (by
      rcases List.mem_cons.1 h with h | h
      · simp [h]
      · simp [h])
    cases b with
    | false =>
      obtain ⟨l, g, r, e, i, s⟩ := ih hf he hu hb hn' hk'
      exact ⟨k2 :: l, g, r, by rw [rmInner, hb']; simp [e], i, s.cons_cons _⟩
    | true =>
      obtain ⟨n1, f1, g, hg, r, hi⟩ := h rfl
      obtain ⟨l, g', r', e, i, s⟩ := ih hi he hu hb hn' hk'
      exact ⟨l, g', r', by rw [rmInner, hb']; simp [f1, hg, e], i, s.cons _⟩

theorem Inv.twinsAll {fuel : Nat} {f : Forest} (hf : Inv C f) (he : C.early) (hu : C.uniq) (hb : ∀ k, ¬ C.bare k) {e : EId} (hge : gradKind (.elem e) = true) {as : List AId}
    (has : ∀ a ∈ as, a ∈ wanted (.elem e)) {ks : List Nat} (hn : ks.Nodup) (hk : ∀ k ∈ ks, C.kind k = .elem e) :
    ∃ g r, rmOuter (cmpGradients as) fuel ks f = some g ∧ Inv { C with rank := r } g := by
  induction fuel generalizing f ks C with
  | zero => exact ⟨f, C.rank, by cases ks <;> rfl, hf⟩
  | succ fuel ih =>
    cases ks with
    | nil => exact ⟨f, C.rank, rfl, hf⟩
    | cons k t =>
      obtain ⟨l, g, r, e, i, s⟩ := hf.twins he hu hb hge has hn hk
      obtain ⟨g', r', e', i'⟩ := ih i he hu hb ((List.nodup_cons.1 hn).2.sublist s) fun j hj => hk j (by simp [s.subset hj])
      exact ⟨g', r', by rw [rmOuter, e]; exact e', i'⟩

theorem Inv.rmKind {f : Forest} (hf : Inv C f) (he : C.early) (hu : C.uniq) (hb : ∀ k, ¬ C.bare k) {e : EId} (hge : gradKind (.elem e) = true) {as : List AId}
    (has : ∀ a ∈ as, a ∈ wanted (.elem e)) : ∃ g r, rmLoop (cmpGradients as) (Gradients.ofKind f e) f = some g ∧ Inv { C with rank := r } g := by
  refine hf.twinsAll he hu hb hge has ?_ fun k hk => ?_
  · exact List.Nodup.sublist (List.filter_sublist.map _) hf.unique
  · unfold Gradients.ofKind at hk
    obtain ⟨n, hn, rfl⟩ := List.mem_map.1 hk
    obtain ⟨hn, ht⟩ := List.mem_filter.1 hn
    have ht := (Node.isTag_iff _ _).1 ht
    rw [← (hf.nodes n hn).kind.eq' ?_]
    · exact ht
    · rw [ht]; intro h; rw [h] at hge; cases hge

end

end Verif.Crash
