import Verif.Regroup
import Verif.MergeWhole
import Verif.GroupStyleLook
/-
Property C40: regrouping stops keeps the paint of every gradient.
-/
namespace Verif.Regroup
open Verif.Dom Verif.Spec
open Verif.UnusedDefs (kidsOf_none setKids_not_mem kidsOf_subs subs_kidsOf kidsOf_setKids setKids_self nodes_setKids drawn_setKids mem_subs_of_node
  node_of_subs nodup_cons)
open Verif.GroupDefs (kidsOf_prune kidsOf_map prune_id)
open Verif.Merge (written_link written_some written_none href_not_mem isGradient_kind gstops_mem stops_refl mem_drawn)
open Verif.Invisible (rmKey rmKeys)

/-! ### The conditions -/

/-- What the theorem needs to know of the document. -/
structure Good (f : Forest) : Prop where
  unique : f.UniqueKeys
  links : f.LinksOk
  /-- Gradients refer to gradients with `xlink:href`, without cycles. -/
  href : HrefOk f
  shown : ∀ n ∈ f.nodes, n.isGradient = true → written n .xlinkHref = n.get .xlinkHref
  /-- They refer to nothing else. -/
  only : ∀ n ∈ f.nodes, n.isGradient = true → ∀ k ∈ n.links, written n .xlinkHref = some (.link k)
  /-- The children of gradients are stops; in a gradient there is no gradient, and nothing that is referred to. -/
  flat : ∀ x ∈ subs f, x.1.isGradient = true → (∀ d ∈ x.2.top, d.kind = .elem .stop) ∧ ∀ d ∈ x.2.nodes, d.isGradient = false ∧ f.isUsed d.key = false
  /-- The colours of stops do not depend on where they stand. -/
  plain : ∀ n ∈ f.nodes, n.kind = .elem .stop → n.get .stopColor ≠ some (.kw .currentColor)

theorem Good.outside {f : Forest} (hf : Good f) {y : Node} (hyg : y.isGradient = true) : ¬ InGradient f y := by
  rintro ⟨x, hx, hg, h⟩
  rw [((hf.flat x hx hg).2 y h).1] at hyg
  cases hyg

theorem Good.inside {f : Forest} (hf : Good f) {x : Node} (hx : x ∈ f.nodes) (hg : x.isGradient = true) {c : Forest} (hc : f.kidsOf x.key = some c)
    {y : Node} (hy : y ∈ f.nodes) (hyg : y.isGradient = true) : y.key ∉ c.keys := by
  intro h
  obtain ⟨x', e, hs⟩ := subs_kidsOf hc
  have := Forest.eq_of_key hf.unique (node_of_subs hs) hx e
  dsimp only at this
  subst this
  obtain ⟨d, hd, e⟩ := Forest.mem_keys.1 h
  have hdf : d ∈ f.nodes := (Stops.subs_kids_sub hs).1.mem hd
  have := Forest.eq_of_key hf.unique hdf hy e
  subst this
  rw [((hf.flat _ hs hg).2 d hd).1] at hyg
  cases hyg

theorem Good.kids {f : Forest} (hf : Good f) {x : Node} (hx : x ∈ f.nodes) {c : Forest} (hc : f.kidsOf x.key = some c) : (x, c) ∈ subs f := by
  obtain ⟨x', e, hs⟩ := subs_kidsOf hc
  have := Forest.eq_of_key hf.unique (node_of_subs hs) hx e
  dsimp only at this
  subst this
  exact hs

theorem Good.target {f : Forest} (hf : Good f) {x y : Node} {k : Nat} (hx : x ∈ f.nodes) (hg : x.isGradient = true)
    (h : written x .xlinkHref = some (.link k)) (hy : f.find k = some y) : y ∈ f.nodes ∧ y.isGradient = true ∧ y.key = k := by
  obtain ⟨rank, hr⟩ := hf.href
  obtain ⟨t, ht, e, htg, _⟩ := hr x hx hg _ h
  have e : k = t.key := Value.link.inj e
  subst e
  rw [Forest.find_of_mem hf.unique ht] at hy
  cases hy
  exact ⟨ht, htg, rfl⟩

/-! ### A gradient that takes its stops from another one -/

/-- What happens to the nodes when `n` shall refer to the node with the key `k`. -/
def point (n : Node) (k : Nat) (x : Node) : Node := if x.key = n.key then x.set .xlinkHref (.link k) else x

theorem point_same (n : Node) (k : Nat) (x : Node) : (point n k x).key = x.key ∧ (point n k x).kind = x.kind ∧ (point n k x).id = x.id ∧
    (point n k x).isGradient = x.isGradient := by
  unfold point
  split <;> exact ⟨rfl, rfl, rfl, rfl⟩

theorem point_key (n : Node) (k : Nat) (x : Node) : (point n k x).key = x.key := (point_same n k x).1
theorem point_kind (n : Node) (k : Nat) (x : Node) : (point n k x).kind = x.kind := (point_same n k x).2.1
theorem point_id (n : Node) (k : Nat) (x : Node) : (point n k x).id = x.id := (point_same n k x).2.2.1
theorem point_gradient (n : Node) (k : Nat) (x : Node) : (point n k x).isGradient = x.isGradient := (point_same n k x).2.2.2
theorem point_ne {n x : Node} {k : Nat} (h : x.key ≠ n.key) : point n k x = x := if_neg h
theorem point_self (n : Node) (k : Nat) : point n k n = n.set .xlinkHref (.link k) := if_pos rfl

theorem point_links (n : Node) (k : Nat) (x : Node) : ∀ j ∈ (point n k x).links, j = k ∧ x.key = n.key ∨ j ∈ x.links := by
  intro j hj
  unfold point at hj
  split at hj
  next e =>
    rcases Node.links_set_subset _ _ _ hj with h | h
    · exact .inl ⟨by simpa [Value.target] using h.symm, e⟩
    · exact .inr h
  · exact .inr hj

theorem point_written (n : Node) (k : Nat) (x : Node) {a : AId} (h : a ≠ .xlinkHref) : written (point n k x) a = written x a := by
  unfold point
  split
  · rw [ApplyTs.written_set, if_neg h]
  · rfl

/-- `n` now takes its stops from `m`, which has no attributes and the same stops. -/
structure Relink (f g : Forest) (n m : Node) : Prop where
  mem : n ∈ f.nodes
  grad : n.isGradient = true
  free : written n .xlinkHref = none
  ne : n.key ≠ m.key
  mgrad : m.isGradient = true
  bare : m.attrs = []
  known : m ∈ f.nodes ∨ m.key ∉ f.keys
  unique : g.UniqueKeys
  back : ∀ y ∈ g.nodes, y = m ∨ ∃ x ∈ f.nodes, point n m.key x = y
  there : m ∈ g.nodes
  keep : ∀ x ∈ f.nodes, ¬ InGradient f x → point n m.key x ∈ g.nodes
  same : ∀ x ∈ f.nodes, x.isGradient = true → x.key ≠ n.key → g.kidsOf x.key = f.kidsOf x.key
  empty : g.kidsOf n.key = some .nil
  stops : ∃ c c', f.kidsOf n.key = some c ∧ g.kidsOf m.key = some c' ∧ c.top ≠ [] ∧ List.Forall₂ (fun s t => Dupl.sameStop s t = true) c.top c'.top
  from_ : ∃ x, x ∈ f.nodes ∧ x.isGradient = true ∧ f.kidsOf x.key = g.kidsOf m.key

theorem bare_written {m : Node} (h : m.attrs = []) (a : AId) : written m a = none := by
  unfold written getAttr; rw [h]; rfl

section relink
variable {f g : Forest} {n m : Node} (hf : Good f) (h : Relink f g n m)
include hf h

theorem re_find {x : Node} (hx : x ∈ f.nodes) (hg : x.isGradient = true) : g.find x.key = some (point n m.key x) := by
  have := Forest.find_of_mem h.unique (h.keep x hx (hf.outside hg))
  rwa [point_key] at this

theorem re_m {x : Node} (hx : x ∈ f.nodes) (e : x.key = m.key) : x = m := by
  rcases h.known with hm | hm
  · exact Forest.eq_of_key hf.unique hx hm e
  · exact absurd (e ▸ Forest.key_mem hx) hm

theorem re_eff {x : Node} {a : AId} (ha : a ≠ .xlinkHref) {v : Option Value} (hx : x ∈ f.nodes) (hxg : x.isGradient = true) (he : Effective f a x v) :
    Effective g a (point n m.key x) v := by
  induction he with
  | own hw => exact .own (by rw [point_written _ _ _ ha]; exact hw)
  | @ref x k y v h1 h2 h3 h4 ih =>
    obtain ⟨hym, hyg, rfl⟩ := hf.target hx hxg h2 h3
    have e : x.key ≠ n.key := by
      intro e
      rw [Forest.eq_of_key hf.unique hx h.mem e, h.free] at h2
      cases h2
    rw [point_ne e]
    exact .ref h1 h2 (re_find hf h hym hyg) (ih hym hyg)
  | @stop x h1 h2 =>
    by_cases e : x.key = n.key
    · have := Forest.eq_of_key hf.unique hx h.mem e
      subst this
      refine .ref (by rw [point_written _ _ _ ha]; exact h1) (by rw [point_self, ApplyTs.written_set, if_pos rfl]) (Forest.find_of_mem h.unique h.there) ?_
      exact .stop (bare_written h.bare _) (bare_written h.bare _)
    · rw [point_ne e]; exact .stop h1 h2

theorem stopKids_all {x : Node} (hx : x ∈ f.nodes) (hg : x.isGradient = true) {c : Forest} (hc : f.kidsOf x.key = some c) : stopKids c = c.top := by
  refine List.filter_eq_self.2 fun d hd => ?_
  simpa using (hf.flat _ (hf.kids hx hc) hg).1 d hd

theorem re_stops {x : Node} {l : List Node} (hx : x ∈ f.nodes) (hxg : x.isGradient = true) (he : GStops f x l) :
    ∃ l', GStops g (point n m.key x) l' ∧ List.Forall₂ (fun s t => StopSame f s g t) l l' := by
  induction he with
  | @own x c h1 h2 =>
    by_cases e : x.key = n.key
    · have := Forest.eq_of_key hf.unique hx h.mem e
      subst this
      obtain ⟨d, c', hd, hc', _, hs⟩ := h.stops
      rw [h1] at hd
      cases hd
      obtain ⟨z, hz, hzg, hzk⟩ := h.from_
      rw [hc'] at hzk
      have e1 := stopKids_all hf h hx hxg h1
      have e2 := stopKids_all hf h hz hzg hzk
      refine ⟨stopKids c', ?_, ?_⟩
      · refine .ref (c := .nil) (by rw [point_key]; exact h.empty) rfl (by rw [point_self, ApplyTs.written_set, if_pos rfl])
          (Forest.find_of_mem h.unique h.there) (.own hc' ?_)
        intro h0
        rw [e2] at h0
        rw [h0] at hs
        rw [e1] at h2
        cases hc : c.top with
        | nil => exact h2 hc
        | cons a b => rw [hc] at hs; cases hs
      · rw [e1, e2]
        have hp := gstops_mem (GStops.own h1 h2)
        rw [e1] at hp
        clear h1 h2 e1 e2 hc' hzk
        revert hp hs
        generalize c.top = l, c'.top = l'
        intro hs hp
        induction hs with
        | nil => exact .nil
        | @cons s t l l' hst _ ih =>
          simp only [Dupl.sameStop, Bool.and_eq_true, decide_eq_true_eq] at hst
          obtain ⟨p1, p2⟩ := hp s (by simp)
          exact .cons ⟨hst.1.1, hst.2, hst.1.2, fun hc => absurd hc (hf.plain s p1 p2)⟩ (ih fun u hu => hp u (by simp [hu]))
    · refine ⟨_, .own (by rw [point_key, h.same x hx hxg e, h1]) h2, stops_refl hf.plain (gstops_mem (GStops.own h1 h2))⟩
  | @ref x c k y l h1 h2 h3 h4 h5 ih =>
    obtain ⟨hym, hyg, rfl⟩ := hf.target hx hxg h3 h4
    have e : x.key ≠ n.key := by
      intro e
      rw [Forest.eq_of_key hf.unique hx h.mem e, h.free] at h3
      cases h3
    obtain ⟨l', h6, h7⟩ := ih hym hyg
    refine ⟨l', ?_, h7⟩
    rw [point_ne e]
    exact .ref (by rw [h.same x hx hxg e, h1]) h2 h3 (re_find hf h hym hyg) h6
  | @none x c h1 h2 h3 =>
    have e : x.key ≠ n.key := by
      intro e
      have := Forest.eq_of_key hf.unique hx h.mem e
      subst this
      obtain ⟨d, c', hd, _, hne, _⟩ := h.stops
      rw [h1] at hd
      cases hd
      rw [stopKids_all hf h hx hxg h1] at h2
      exact hne h2
    refine ⟨[], ?_, .nil⟩
    rw [point_ne e]
    exact .none (by rw [h.same x hx hxg e, h1]) h2 h3

/-- The paints are as before. -/
theorem re_paint {x : Node} (hx : x ∈ f.nodes) (hxg : x.isGradient = true) : PaintSame f x g (point n m.key x) := by
  obtain ⟨rank, hr⟩ := hf.href
  refine paint_of_effective (point_kind _ _ _).symm (fun a ha => ?_) hxg ?_
  · obtain ⟨v, hv⟩ := effective_total hf.unique hr a hx hxg
    exact ⟨v, hv, re_eff hf h (href_not_mem ha) hx hxg hv⟩
  · obtain ⟨l, hl⟩ := gstops_total hf.unique hr hx hxg
    obtain ⟨l', h1, h2⟩ := re_stops hf h hx hxg hl
    exact ⟨l, l', hl, h1, h2⟩

theorem re_inside {y : Node × Forest} (hy : y ∈ subs g) (hg : y.1.isGradient = true) : y.2 = .nil ∨ ∃ x, (x, y.2) ∈ subs f ∧ x.isGradient = true := by
  have hk := kidsOf_subs h.unique (n := y.1) (c := y.2) hy
  rcases h.back _ (node_of_subs hy) with e | ⟨x, hx, e⟩
  · obtain ⟨z, hz, hzg, hzk⟩ := h.from_
    rw [← e, hk] at hzk
    exact .inr ⟨z, hf.kids hz hzk, hzg⟩
  · have hxg : x.isGradient = true := by rw [← e, point_gradient] at hg; exact hg
    rw [← e, point_key] at hk
    by_cases e1 : x.key = n.key
    · rw [e1, h.empty] at hk
      exact .inl (Option.some.inj hk).symm
    · rw [h.same x hx hxg e1] at hk
      exact .inr ⟨x, hf.kids hx hk, hxg⟩

theorem re_used {k : Nat} (hk : f.isUsed k = false) (hm : k ≠ m.key) : g.isUsed k = false := by
  rw [Bool.eq_false_iff] at hk ⊢
  intro hc
  obtain ⟨y, hy, hl⟩ := Forest.isUsed_iff.1 hc
  rcases h.back y hy with rfl | ⟨x, hx, rfl⟩
  · simp [Node.links, h.bare] at hl
  · rcases point_links _ _ _ _ hl with e | hl
    · exact hm e.1
    · exact hk (Forest.isUsed_iff.2 ⟨x, hx, hl⟩)

theorem re_good : Good g where
  unique := h.unique
  links := by
    intro y hy k hk
    rcases h.back y hy with rfl | ⟨x, hx, rfl⟩
    · simp [Node.links, h.bare] at hk
    · rcases point_links _ _ _ _ hk with e | hl
      · rw [e.1]; exact Forest.key_mem h.there
      · obtain ⟨t, ht, rfl⟩ := Forest.mem_keys.1 (hf.links x hx k hl)
        have hni : ¬ InGradient f t := by
          rintro ⟨z, hz, hzg, hc⟩
          have := ((hf.flat z hz hzg).2 t hc).2
          rw [Forest.isUsed_iff.2 ⟨x, hx, hl⟩] at this
          cases this
        have := Forest.key_mem (h.keep t ht hni)
        rwa [point_key] at this
  href := by
    obtain ⟨rank, hr⟩ := hf.href
    refine ⟨fun k => if k = m.key then 0 else rank k + 1, fun y hy hg v hv => ?_⟩
    rcases h.back y hy with rfl | ⟨x, hx, rfl⟩
    · rw [bare_written h.bare] at hv; cases hv
    · rw [point_gradient] at hg
      by_cases e : x.key = n.key
      · have := Forest.eq_of_key hf.unique hx h.mem e
        subst this
        rw [point_self, ApplyTs.written_set, if_pos rfl] at hv
        cases hv
        refine ⟨m, h.there, rfl, h.mgrad, ?_⟩
        dsimp only
        rw [if_pos rfl, point_key, if_neg h.ne]
        omega
      · rw [point_ne e] at hv ⊢
        obtain ⟨t, ht, rfl, htg, hlt⟩ := hr x hx hg v hv
        refine ⟨_, h.keep t ht (hf.outside htg), by rw [point_key], by rw [point_gradient]; exact htg, ?_⟩
        have hxm : x.key ≠ m.key := by
          intro e'
          rw [re_m hf h hx e', bare_written h.bare] at hv
          cases hv
        dsimp only
        rw [if_neg hxm, point_key]
        split <;> omega
  shown := by
    intro y hy hg
    rcases h.back y hy with rfl | ⟨x, hx, rfl⟩
    · rw [bare_written h.bare]
      unfold Node.get getAttr; rw [h.bare]; rfl
    · rw [point_gradient] at hg
      by_cases e : x.key = n.key
      · unfold point
        rw [if_pos e, ApplyTs.written_set, if_pos rfl, ApplyTs.get_set, if_pos rfl]
      · rw [point_ne e]; exact hf.shown x hx hg
  only := by
    intro y hy hg k hk
    rcases h.back y hy with rfl | ⟨x, hx, rfl⟩
    · simp [Node.links, h.bare] at hk
    · rw [point_gradient] at hg
      rcases point_links _ _ _ _ hk with ⟨e1, e2⟩ | hl
      · unfold point
        rw [if_pos e2, ApplyTs.written_set, if_pos rfl, e1]
      · have hw := hf.only x hx hg k hl
        rw [point_ne]
        · exact hw
        · intro e
          rw [Forest.eq_of_key hf.unique hx h.mem e, h.free] at hw
          cases hw
  flat := by
    intro y hy hg
    rcases re_inside hf h hy hg with h' | ⟨x, hx, hxg⟩
    · rw [h']; simp [Forest.top]
    · obtain ⟨h1, h2⟩ := hf.flat _ hx hxg
      refine ⟨h1, fun d hd => ⟨(h2 d hd).1, re_used hf h (h2 d hd).2 fun e => ?_⟩⟩
      have := re_m hf h ((Stops.subs_kids_sub hx).1.mem hd) e
      have e2 := (h2 d hd).1
      rw [this, h.mgrad] at e2
      cases e2
  plain := by
    intro y hy hk
    rcases h.back y hy with rfl | ⟨x, hx, rfl⟩
    · have := h.mgrad
      rcases isGradient_kind.1 this with h' | h' <;> rw [hk] at h' <;> cases h'
    · rw [point_kind] at hk
      have : x.key ≠ n.key := by
        intro e
        rw [Forest.eq_of_key hf.unique hx h.mem e] at hk
        rcases isGradient_kind.1 h.grad with h' | h' <;> rw [hk] at h' <;> cases h'
      rw [point_ne this]
      exact hf.plain x hx hk

end relink

end Verif.Regroup
