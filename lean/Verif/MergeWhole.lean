import Verif.MergePaint
/-
Property C33, third part: the removal of the merged gradients, and the whole pass.
-/
namespace Verif.Merge
open Verif.Dom Verif.Spec
open Verif.UnusedDefs (kidsOf_subs subs_kidsOf mem_subs_of_node node_of_subs)
open Verif.GroupDefs (kidsOf_prune prune_id drawn_prune subs_unique)
open Verif.Invisible (rmKey rmKeys unlink_pruned)

/-! ### Removing a gradient that nothing refers to -/

theorem mem_prunedKeys {p : Node → Bool} {f : Forest} {j : Nat} (h : j ∈ f.prunedKeys p) : ∃ x ∈ subs f, p x.1 = true ∧ (j = x.1.key ∨ j ∈ x.2.keys) := by
  induction f with
  | nil => simp [Forest.prunedKeys] at h
  | cons n k r ih1 ih2 =>
    rw [Forest.prunedKeys] at h
    split at h
    next hp =>
      rcases List.mem_append.1 h with h | h
      · exact ⟨(n, k), by simp [subs], hp, List.mem_cons.1 h⟩
      · obtain ⟨x, hx, h'⟩ := ih2 h
        exact ⟨x, by simp [subs, hx], h'⟩
    · rcases List.mem_append.1 h with h | h
      · obtain ⟨x, hx, h'⟩ := ih1 h
        exact ⟨x, by simp [subs, hx], h'⟩
      · obtain ⟨x, hx, h'⟩ := ih2 h
        exact ⟨x, by simp [subs, hx], h'⟩

/-- A key that can be removed. -/
def Loose (f : Forest) (t : Nat) : Prop := ∀ n ∈ f.nodes, n.key = t → n.isGradient = true ∧ written n .xlinkHref = none ∧ f.isUsed t = false

theorem rmKey_prune {f : Forest} (hf : Good f) {t : Nat} (ht : Loose f t) : rmKey t f = f.prune fun m => decide (m.key = t) := by
  have hu : ∀ j ∈ f.prunedKeys (fun m => decide (m.key = t)), f.isUsed j = false := by
    intro j hj
    obtain ⟨x, hx, e, h⟩ := mem_prunedKeys hj
    have e : x.1.key = t := by simpa using e
    obtain ⟨h1, _, h3⟩ := ht x.1 (node_of_subs hx) e
    rcases h with rfl | h
    · rw [e]; exact h3
    · obtain ⟨d, hd, rfl⟩ := Forest.mem_keys.1 h
      exact ((hf.flat x hx h1).2 d hd).2
  exact Forest.map_id' fun n hn => unlink_pruned hu ((Forest.nodes_prune_sublist _ _).mem hn)

section removal
variable {f : Forest} (hf : Good f) {t : Nat} (ht : Loose f t)
include hf ht

theorem rm_mem {n : Node} (h : n ∈ (rmKey t f).nodes) : n ∈ f.nodes ∧ n.key ≠ t := by
  rw [rmKey_prune hf ht] at h
  exact ⟨(Forest.nodes_prune_sublist _ _).mem h, by simpa using Forest.mem_prune h⟩

theorem rm_unique : (rmKey t f).UniqueKeys := Forest.uniqueKeys_remove hf.unique

theorem rm_links : (rmKey t f).LinksOk := Forest.linksOk_remove hf.links

theorem rm_used {k : Nat} (hk : f.isUsed k = false) : (rmKey t f).isUsed k = false := by
  rw [Bool.eq_false_iff] at hk ⊢
  intro hc
  obtain ⟨y, hy, hl⟩ := Forest.isUsed_iff.1 hc
  exact hk (Forest.isUsed_iff.2 ⟨y, (rm_mem hf ht hy).1, hl⟩)

theorem rm_kids {n : Node} (h : n ∈ (rmKey t f).nodes) (hg : n.isGradient = true) : f.kidsOf n.key = (rmKey t f).kidsOf n.key := by
  have hm := (rm_mem hf ht h).1
  have hk := Forest.key_mem h
  rw [rmKey_prune hf ht] at hk ⊢
  rw [kidsOf_prune hf.unique hk]
  obtain ⟨c, hc⟩ := kidsOf_isSome (Forest.key_mem hm)
  rw [hc, Option.map_some, prune_id fun d hd => ?_]
  rw [decide_eq_false_iff_not]
  rintro rfl
  have hdf : d ∈ f.nodes := by
    obtain ⟨x, e, hx⟩ := subs_kidsOf hc
    exact (Stops.subs_kids_sub hx).1.mem hd
  exact hf.inside hm hg hc hdf (ht d hdf rfl).1 (Forest.key_mem hd)

/-- The gradients that are left refer to gradients that are left. -/
theorem rm_target {n : Node} (h : n ∈ (rmKey t f).nodes) (hg : n.isGradient = true) {v : Value} (hv : written n .xlinkHref = some v) :
    ∃ m ∈ (rmKey t f).nodes, v = .link m.key ∧ m.isGradient = true ∧ f.find m.key = some m ∧ (rmKey t f).find m.key = some m := by
  obtain ⟨rank, hr⟩ := hf.href
  obtain ⟨m, hm, rfl, hmg, _⟩ := hr n (rm_mem hf ht h).1 hg v hv
  obtain ⟨y, hy, e⟩ := Forest.mem_keys.1 (rm_links hf ht n h m.key (written_link hv))
  have := Forest.eq_of_key hf.unique (rm_mem hf ht hy).1 hm e
  subst this
  exact ⟨y, hy, rfl, hmg, Forest.find_of_mem hf.unique hm, Forest.find_of_mem (rm_unique hf ht) hy⟩

theorem rm_eff {n : Node} (h : n ∈ (rmKey t f).nodes) (hg : n.isGradient = true) {a : AId} {v : Option Value} :
    Effective f a n v ↔ Effective (rmKey t f) a n v := by
  constructor
  · refine effective_part (S := fun x => x ∈ (rmKey t f).nodes ∧ x.isGradient = true) (fun x hx k hk => ?_) ⟨h, hg⟩
    obtain ⟨m, hm, e, hmg, h1, h2⟩ := rm_target hf ht hx.1 hx.2 hk
    cases e
    exact ⟨m, ⟨hm, hmg⟩, h1, h2⟩
  · refine effective_part (S := fun x => x ∈ (rmKey t f).nodes ∧ x.isGradient = true) (fun x hx k hk => ?_) ⟨h, hg⟩
    obtain ⟨m, hm, e, hmg, h1, h2⟩ := rm_target hf ht hx.1 hx.2 hk
    cases e
    exact ⟨m, ⟨hm, hmg⟩, h2, h1⟩

theorem rm_stops {n : Node} (h : n ∈ (rmKey t f).nodes) (hg : n.isGradient = true) {l : List Node} (hl : GStops f n l) : GStops (rmKey t f) n l := by
  refine gstops_part (S := fun x => x ∈ (rmKey t f).nodes ∧ x.isGradient = true) (fun x hx => ⟨rm_kids hf ht hx.1 hx.2, fun k hk => ?_⟩) ⟨h, hg⟩ hl
  obtain ⟨m, hm, e, hmg, h1, h2⟩ := rm_target hf ht hx.1 hx.2 hk
  cases e
  exact ⟨m, ⟨hm, hmg⟩, h1, h2⟩

theorem rm_paint {n : Node} (h : n ∈ (rmKey t f).nodes) (hg : n.isGradient = true) : PaintSame f n (rmKey t f) n := by
  obtain ⟨rank, hr⟩ := hf.href
  refine paint_of_effective rfl (fun a _ => ?_) hg ?_
  · obtain ⟨v, hv⟩ := effective_total hf.unique hr a (rm_mem hf ht h).1 hg
    exact ⟨v, hv, (rm_eff hf ht h hg).1 hv⟩
  · obtain ⟨l, hl⟩ := gstops_total hf.unique hr (rm_mem hf ht h).1 hg
    exact ⟨l, l, hl, rm_stops hf ht h hg hl, stops_refl hf.plain (gstops_mem hl)⟩

theorem rm_inside {y : Node × Forest} (hy : y ∈ subs (rmKey t f)) (hg : y.1.isGradient = true) : y ∈ subs f := by
  have hm := node_of_subs hy
  have h1 := rm_kids hf ht hm hg
  rw [kidsOf_subs (rm_unique hf ht) (n := y.1) (c := y.2) hy] at h1
  obtain ⟨x, e, hx⟩ := subs_kidsOf h1
  have := Forest.eq_of_key hf.unique (node_of_subs hx) (rm_mem hf ht hm).1 e
  dsimp only at this
  subst this
  exact hx

theorem rm_good : Good (rmKey t f) where
  unique := rm_unique hf ht
  links := rm_links hf ht
  href := by
    obtain ⟨rank, hr⟩ := hf.href
    refine ⟨rank, fun n hn hg v hv => ?_⟩
    obtain ⟨m, hm, rfl, hmg, _, _⟩ := rm_target hf ht hn hg hv
    obtain ⟨m', hm', e, _, hlt⟩ := hr n (rm_mem hf ht hn).1 hg _ hv
    have e : m.key = m'.key := Value.link.inj e
    exact ⟨m, hm, rfl, hmg, e ▸ hlt⟩
  shown n hn hg := hf.shown n (rm_mem hf ht hn).1 hg
  resolved n hn hg a ha v hv := hf.resolved n (rm_mem hf ht hn).1 hg a ha v ((rm_eff hf ht hn hg).2 hv)
  fits p hp hpg n hn hpn m hm hnm a ha := by
    have hng := (hf.target (rm_mem hf ht hp).1 hpg hpn (Forest.find_of_mem hf.unique (rm_mem hf ht hn).1)).2.1
    have hmg := (hf.target (rm_mem hf ht hn).1 hng hnm (Forest.find_of_mem hf.unique (rm_mem hf ht hm).1)).2.1
    rcases hf.fits p (rm_mem hf ht hp).1 hpg n (rm_mem hf ht hn).1 hpn m (rm_mem hf ht hm).1 hnm a ha with h | h
    · exact .inl h
    · exact .inr ((rm_eff hf ht hm hmg).1 h)
  flat y hy hg := by
    obtain ⟨h1, h2⟩ := hf.flat y (rm_inside hf ht hy hg) hg
    exact ⟨h1, fun d hd => ⟨(h2 d hd).1, rm_used hf ht (h2 d hd).2⟩⟩
  plain n hn := hf.plain n (rm_mem hf ht hn).1

theorem rm_drawn : drawn (rmKey t f) = drawn f := by
  rw [rmKey_prune hf ht]
  by_cases h : ∃ n ∈ f.nodes, n.key = t
  · obtain ⟨n, hn, rfl⟩ := h
    have : (f.prune fun m => decide (m.key = n.key)) = f.prune fun m => decide (m.key = n.key) && m.isGradient := by
      refine GroupDefs.prune_congr fun m hm => ?_
      by_cases e : m.key = n.key
      · rw [(ht m hm e).1]; simp
      · simp [e]
    rw [this]
    refine drawn_prune (fun m hm => ?_) f
    simp only [Bool.and_eq_true] at hm
    rcases isGradient_kind.1 hm.2 with h | h <;> rw [h] <;> rfl
  · rw [prune_id fun n hn => ?_]
    rw [decide_eq_false_iff_not]
    exact fun e => h ⟨n, hn, e⟩

/-- What is not inside of a gradient stays. -/
theorem rm_stay {n : Node} (hn : n ∈ f.nodes) (hk : n.key ≠ t) (hi : ∀ x ∈ subs f, x.1.isGradient = true → n ∉ x.2.nodes) : n ∈ (rmKey t f).nodes := by
  rw [rmKey_prune hf ht]
  obtain ⟨c, hc⟩ := mem_subs_of_node hn
  rcases GroupDefs.subs_pruned (p := fun m => decide (m.key = t)) hc with ⟨_, h⟩ | ⟨y, hy, hp, h⟩
  · exact node_of_subs h
  · have hp : y.1.key = t := by simpa using hp
    rcases h with h | h
    · rw [← h] at hp; exact absurd hp hk
    · have := node_of_subs h
      exact absurd ((Forest.nodes_prune_sublist _ _).mem this) (hi y hy (ht y.1 (node_of_subs hy) hp).1)

end removal

/-! ### The whole pass -/

/-- What has happened so far, if the gradients `T` wait for being removed. -/
structure Inv (f0 f : Forest) (T : List Nat) : Prop where
  good : Good f
  loose : ∀ t ∈ T, Loose f t
  back : ∀ n ∈ f.nodes, n.isGradient = true → n.key ∉ T → ∃ n0 ∈ f0.nodes, n0.key = n.key ∧ n0.id = n.id ∧ PaintSame f0 n0 f n ∧
    ∀ v, written n .xlinkHref = some v → written n0 .xlinkHref = some v
  others : ∀ n ∈ f.nodes, n.isGradient = false → n ∈ f0.nodes
  stay : ∀ n ∈ f0.nodes, n.isGradient = false → ¬ InGradient f0 n → n ∈ f.nodes ∧ ¬ InGradient f n
  kept : ∀ n ∈ f0.nodes, n.isGradient = true → (∃ m ∈ f.nodes, m.key = n.key ∧ m.isGradient = true ∧ m.key ∉ T) ∨ ∃ p ∈ f0.nodes, p.isGradient = true ∧ written p .xlinkHref = some (.link n.key)
  drawn : drawn f = drawn f0

theorem Good.inv {f : Forest} (hf : Good f) : Inv f f [] where
  good := hf
  loose _ h := by cases h
  back n hn hg _ := by
    obtain ⟨rank, hr⟩ := hf.href
    refine ⟨n, hn, rfl, rfl, paint_of_effective rfl (fun a _ => ?_) hg ?_, fun _ h => h⟩
    · obtain ⟨v, hv⟩ := effective_total hf.unique hr a hn hg
      exact ⟨v, hv, hv⟩
    · obtain ⟨l, hl⟩ := gstops_total hf.unique hr hn hg
      exact ⟨l, l, hl, hl, stops_refl hf.plain (gstops_mem hl)⟩
  others _ h _ := h
  stay _ h _ h' := ⟨h, h'⟩
  kept n h hg := .inl ⟨n, h, rfl, hg, by simp⟩
  drawn := rfl

theorem Inv.step {f0 f g : Forest} {T : List Nat} {n m : Node} (h : Inv f0 f T) (hs : Source f n m) (hst : Step f g n m) : Inv f0 g (T ++ [m.key]) := by
  have hnT : n.key ∉ T := by
    intro hT
    have := (h.loose _ hT n hs.mem rfl).2.1
    rw [hs.href] at this
    cases this
  refine ⟨hst.good h.good hs, ?_, ?_, ?_, ?_, ?_, hst.drawn.trans h.drawn⟩
  · intro t ht y hy e
    obtain ⟨x, hx, rfl⟩ := hst.mem.1 hy
    rw [change_key] at e
    subst e
    rw [change_gradient]
    rcases List.mem_append.1 ht with ht | ht
    · obtain ⟨h1, h2, h3⟩ := h.loose _ ht x hx rfl
      refine ⟨h1, ?_, hst.used h3⟩
      rw [change_ne fun e => hnT (e ▸ ht)]
      exact h2
    · have e : x.key = m.key := by simpa using ht
      have := Forest.eq_of_key h.good.unique hx hs.target e
      subst this
      refine ⟨hs.tgrad, ?_, ?_⟩
      · rw [change_ne hs.ne.symm]; exact hs.last
      · rw [Bool.eq_false_iff]
        intro hc
        obtain ⟨y, hy, hl⟩ := Forest.isUsed_iff.1 hc
        obtain ⟨z, hz, rfl⟩ := hst.mem.1 hy
        have := hs.once z hz (change_links _ _ _ _ hl)
        subst this
        rw [change_self, joined, (reveal_same _ _ _).2.2.2.1] at hl
        exact hs.only _ hl rfl
  · intro y hy hg hk
    obtain ⟨x, hx, rfl⟩ := hst.mem.1 hy
    rw [change_gradient] at hg
    rw [change_key, List.mem_append, not_or] at hk
    obtain ⟨n0, h1, h2, h3, h4, h5⟩ := h.back x hx hg hk.1
    refine ⟨n0, h1, by rw [change_key]; exact h2, by rw [change_id]; exact h3,
      h4.trans (paint_step h.good hs hst hx hg (by simpa using hk.2)), fun v hv => h5 v (change_href n m x hv).2⟩
  · intro y hy hg
    obtain ⟨x, hx, rfl⟩ := hst.mem.1 hy
    rw [change_gradient] at hg
    rw [change_ne ?_]
    · exact h.others x hx hg
    · intro e
      rw [Forest.eq_of_key h.good.unique hx hs.mem e, hs.grad] at hg
      cases hg
  · intro x hx hg hi
    obtain ⟨h1, h2⟩ := h.stay x hx hg hi
    constructor
    · refine hst.mem.2 ⟨x, h1, change_ne fun e => ?_⟩
      rw [Forest.eq_of_key h.good.unique h1 hs.mem e, hs.grad] at hg
      cases hg
    · rintro ⟨y, hy, hyg, hxy⟩
      rcases hst.inside h.good hs hy hyg with h' | ⟨z, hz, hzg⟩
      · rw [h'] at hxy; simp at hxy
      · exact h2 ⟨_, hz, hzg, hxy⟩
  · intro x hx hg
    rcases h.kept x hx hg with ⟨y, hy, hk, hyg, hT⟩ | h'
    · by_cases e : x.key = m.key
      · right
        obtain ⟨n0, a, b, _, hp, d⟩ := h.back n hs.mem hs.grad hnT
        refine ⟨n0, a, ?_, e ▸ d _ hs.href⟩
        have := hs.grad
        unfold Node.isGradient Node.isTag at this ⊢
        rw [hp.kind]; exact this
      · refine .inl ⟨_, hst.mem.2 ⟨y, hy, rfl⟩, by rw [change_key]; exact hk, by rw [change_gradient]; exact hyg, ?_⟩
        rw [change_key, List.mem_append, not_or]
        exact ⟨hT, by simpa [hk] using e⟩
    · exact .inr h'

theorem Inv.remove {f0 f : Forest} {t : Nat} {T : List Nat} (h : Inv f0 f (t :: T)) : Inv f0 (rmKey t f) T := by
  have ht := h.loose t (by simp)
  have hf := h.good
  refine ⟨rm_good hf ht, ?_, ?_, ?_, ?_, ?_, (rm_drawn hf ht).trans h.drawn⟩
  · intro s hs n hn e
    obtain ⟨h1, h2, h3⟩ := h.loose s (by simp [hs]) n (rm_mem hf ht hn).1 e
    exact ⟨h1, h2, rm_used hf ht h3⟩
  · intro n hn hg hk
    obtain ⟨hm, hne⟩ := rm_mem hf ht hn
    obtain ⟨n0, h1, h2, h3, h4, h5⟩ := h.back n hm hg (by simp [hne, hk])
    exact ⟨n0, h1, h2, h3, h4.trans (rm_paint hf ht hn hg), h5⟩
  · exact fun n hn => h.others n (rm_mem hf ht hn).1
  · intro n hn hg hi
    obtain ⟨h1, h2⟩ := h.stay n hn hg hi
    constructor
    · refine rm_stay hf ht h1 (fun e => ?_) fun x hx hxg hc => h2 ⟨x, hx, hxg, hc⟩
      rw [(ht n h1 e).1] at hg; cases hg
    · rintro ⟨y, hy, hyg, hc⟩
      exact h2 ⟨y, rm_inside hf ht hy hyg, hyg, hc⟩
  · intro n hn hg
    rcases h.kept n hn hg with ⟨m, hm, e, hmg, hT⟩ | h'
    · simp only [List.mem_cons, not_or] at hT
      refine .inl ⟨m, rm_stay hf ht hm hT.1 fun x hx hxg hc => ?_, e, hmg, hT.2⟩
      have := ((hf.flat x hx hxg).2 m hc).1
      rw [hmg] at this; cases this
    · exact .inr h'

theorem Inv.removeAll {f0 f : Forest} {T : List Nat} (h : Inv f0 f T) : Inv f0 (rmKeys T f) [] := by
  induction T generalizing f with
  | nil => exact h
  | cons t T ih => exact ih h.remove

/-- What is known while the gradients are walked through. -/
structure Walk (f0 f : Forest) (s : Forest × List Nat) : Prop where
  inv : Inv f0 s.1 s.2
  keys : s.1.keys.Perm f.keys
  there : ∀ t ∈ s.2, t ∈ s.1.keys
  grads : ∀ n ∈ s.1.nodes, ∃ x ∈ f.nodes, x.key = n.key ∧ x.isGradient = n.isGradient

theorem walk_one {f0 f : Forest} (hu : f.UniqueKeys) {s : Forest × List Nat} (h : Walk f0 f s) {k : Nat} (hk : ∀ x ∈ f.nodes, x.key = k → x.isGradient = true) :
    Walk f0 f (mergeNode s k) := by
  unfold mergeNode
  split
  next n hn' =>
    obtain ⟨hn, rfl⟩ := Forest.find_some hn'
    split
    next m hm =>
      obtain ⟨x, hx, e, hg⟩ := h.grads n hn
      have hs := source_ok h.inv.good hn (hg ▸ hk x hx e) hm
      have hst := step_ok h.inv.good hs
      refine ⟨h.inv.step hs hst, hst.keys.trans h.keys, ?_, ?_⟩
      · intro t ht
        rcases List.mem_append.1 ht with ht | ht
        · exact hst.keys.mem_iff.2 (h.there t ht)
        · rw [List.mem_singleton.1 ht]
          exact hst.keys.mem_iff.2 (Forest.key_mem hs.target)
      · intro y hy
        obtain ⟨z, hz, rfl⟩ := hst.mem.1 hy
        rw [change_key, change_gradient]
        exact h.grads z hz
    · exact h
  · exact h

theorem not_cyclic {f0 f : Forest} {s : Forest × List Nat} (h : Walk f0 f s) {k : Nat} (hk : ∀ x ∈ f.nodes, x.key = k → x.isGradient = true) :
    cyclic s.1 k = false := by
  unfold cyclic
  split
  next n hn' =>
    obtain ⟨hn, rfl⟩ := Forest.find_some hn'
    split
    next m hm =>
      obtain ⟨x, hx, e, hg⟩ := h.grads n hn
      have hs := source_ok h.inv.good hn (hg ▸ hk x hx e) hm
      rw [Bool.and_eq_false_iff]
      right
      cases hc : s.1.kidsOf m.key with
      | none => rfl
      | some c =>
        have := h.inv.good.inside hs.target hs.tgrad hc hn hs.grad
        simpa using this
    · rfl
  · rfl

theorem walk_all {f0 f : Forest} (hu : f.UniqueKeys) {ks : List Nat} {s : Forest × List Nat} (h : Walk f0 f s)
    (hk : ∀ k ∈ ks, ∀ x ∈ f.nodes, x.key = k → x.isGradient = true) :
    mergeKeys ks s = some (ks.foldl mergeNode s) ∧ Walk f0 f (ks.foldl mergeNode s) := by
  induction ks generalizing s with
  | nil => exact ⟨rfl, h⟩
  | cons k ks ih =>
    obtain ⟨h1, h2⟩ := ih (walk_one hu h (hk k (by simp))) fun j hj => hk j (by simp [hj])
    refine ⟨?_, h2⟩
    rw [mergeKeys, if_neg (by rw [not_cyclic h (hk k (by simp))]; simp), h1]
    rfl

/-- The round without the crashes. -/
def totalRound (f : Forest) : Forest × List Nat := ((f.nodes.filter (·.isGradient)).map (·.key)).foldl mergeNode (f, [])

theorem round_ok {f0 f : Forest} (h : Inv f0 f []) : mergeRound f = some (totalRound f) ∧ Walk f0 f (totalRound f) := by
  refine walk_all h.good.unique ⟨h, .rfl, (fun _ h => nomatch h), fun n hn => ⟨n, hn, rfl, rfl⟩⟩ (fun k hk x hx e => ?_)
  obtain ⟨y, hy, rfl⟩ := List.mem_map.1 hk
  obtain ⟨hy, hg⟩ := List.mem_filter.1 hy
  rw [Forest.eq_of_key h.good.unique hx hy e]
  exact hg

theorem length_rmKeys {T : List Nat} {f : Forest} : (rmKeys T f).nodes.length ≤ f.nodes.length := by
  induction T generalizing f with
  | nil => exact Nat.le_refl _
  | cons t T ih =>
    refine Nat.le_trans ih ?_
    show (Forest.map _ _).nodes.length ≤ _
    rw [Forest.nodes_map, List.length_map]
    exact (Forest.nodes_prune_sublist _ _).length_le

theorem round_less {f0 f : Forest} (h : Inv f0 f []) (hT : (totalRound f).2 ≠ []) : (rmKeys (totalRound f).2 (totalRound f).1).nodes.length < f.nodes.length := by
  have hw := (round_ok h).2
  have e : (totalRound f).1.nodes.length = f.nodes.length := by
    have := hw.keys.length_eq
    rwa [Forest.keys, Forest.keys, List.length_map, List.length_map] at this
  rw [← e]
  have there := hw.there
  generalize (totalRound f).1 = g at there ⊢
  cases hl : (totalRound f).2 with
  | nil => exact absurd hl hT
  | cons t T =>
    refine Nat.lt_of_le_of_lt (length_rmKeys (T := T) (f := rmKey t g)) ?_
    show (Forest.map _ _).nodes.length < _
    rw [Forest.nodes_map, List.length_map]
    refine Nat.lt_of_le_of_ne (Forest.nodes_prune_sublist _ _).length_le fun e => ?_
    have := (Forest.nodes_prune_sublist (fun m => decide (m.key = t)) g).eq_of_length e
    obtain ⟨n, hn, e⟩ := Forest.mem_keys.1 (there t (by rw [hl]; simp))
    rw [← this] at hn
    have := Forest.mem_prune hn
    simp [e] at this

/-- Nothing can be merged. -/
def Merged1 (f : Forest) : Prop := ∀ n ∈ f.nodes, n.isGradient = true → source f n = none

theorem mergeNode_grow (s : Forest × List Nat) (k : Nat) : s.2 <+: (mergeNode s k).2 := by
  unfold mergeNode
  split
  · split
    · exact List.prefix_append _ _
    · exact List.prefix_rfl
  · exact List.prefix_rfl

theorem round_grow (ks : List Nat) (s : Forest × List Nat) : s.2 <+: (ks.foldl mergeNode s).2 := by
  induction ks generalizing s with
  | nil => exact List.prefix_rfl
  | cons k ks ih => exact (mergeNode_grow s k).trans (ih _)

theorem round_still {f : Forest} (hu : f.UniqueKeys) {ks : List Nat} (h : (ks.foldl mergeNode (f, [])).2 = []) :
    (ks.foldl mergeNode (f, [])).1 = f ∧ ∀ n ∈ f.nodes, n.key ∈ ks → source f n = none := by
  induction ks with
  | nil => exact ⟨rfl, fun _ _ h => by cases h⟩
  | cons k ks ih =>
    have hne : (mergeNode (f, []) k).2 = [] := by
      have := round_grow ks (mergeNode (f, []) k)
      rw [List.foldl_cons] at h
      rw [h] at this
      exact List.prefix_nil.1 this
    have h1 : mergeNode (f, []) k = (f, []) ∧ ∀ n ∈ f.nodes, n.key = k → source f n = none := by
      unfold mergeNode at hne ⊢
      cases hn : f.find k with
      | none =>
        refine ⟨by simp only [hn], fun n hm e => ?_⟩
        rw [← e, Forest.find_of_mem hu hm] at hn; cases hn
      | some n =>
        simp only [hn] at hne ⊢
        cases hs : source f n with
        | none =>
          refine ⟨rfl, fun x hx e => ?_⟩
          rw [← e, Forest.find_of_mem hu hx] at hn
          cases hn
          exact hs
        | some m => simp only [hs] at hne; simp at hne
    rw [List.foldl_cons, h1.1] at h ⊢
    refine ⟨(ih h).1, fun n hn hk => ?_⟩
    rcases List.mem_cons.1 hk with hk | hk
    · exact h1.2 n hn hk
    · exact (ih h).2 n hn hk

theorem loop_ok {f0 f : Forest} (h : Inv f0 f []) {fuel : Nat} (hl : f.nodes.length < fuel) : ∃ g, mergeLoop fuel f = some g ∧ Inv f0 g [] ∧ Merged1 g := by
  induction fuel generalizing f with
  | zero => omega
  | succ fuel ih =>
    rw [mergeLoop, (round_ok h).1, Option.bind_some]
    by_cases hT : (totalRound f).2 = []
    · rw [if_pos (by rw [hT]; rfl)]
      obtain ⟨h1, h2⟩ := round_still h.good.unique hT
      refine ⟨_, rfl, ?_, ?_⟩
      · rw [show (totalRound f).1 = f from h1]; exact h
      · rw [show (totalRound f).1 = f from h1]
        exact fun n hn hg => h2 n hn (List.mem_map.2 ⟨n, List.mem_filter.2 ⟨hn, hg⟩, rfl⟩)
    · rw [if_neg (by simpa using hT)]
      exact ih (round_ok h).2.inv.removeAll (by have := round_less h hT; omega)

/-! ### The property -/

/-- The paints are the same in the document `g` that came from `f`. -/
structure Merged (f g : Forest) : Prop where
  /-- What is drawn and what is no gradient is as it was: -/
  drawn : drawn g = drawn f
  others : ∀ n, n.isGradient = false → ¬ InGradient f n → (n ∈ g.nodes ↔ n ∈ f.nodes) 
  /-- Every gradient gives the same paint as the gradient with its id before. -/
  paint : ∀ n ∈ g.nodes, n.isGradient = true → ∃ n0 ∈ f.nodes, n0.key = n.key ∧ n0.id = n.id ∧ PaintSame f n0 g n
  /-- Only gradients that other gradients refer to are gone. -/
  kept : ∀ n ∈ f.nodes, n.isGradient = true → n.key ∈ g.keys ∨ ∃ p ∈ f.nodes, p.isGradient = true ∧ written p .xlinkHref = some (.link n.key)
  unique : g.UniqueKeys
  links : g.LinksOk

/-- **C33** for documents with the conditions of `Good`: the pass ends, with all paints as they were.  What is missing: see the
refutations below. -/
theorem C33_merged_partial {f : Forest} (hf : Good f) : ∃ g, mergeGradients f = some g ∧ Merged f g := by
  obtain ⟨g, h1, h2, _⟩ := loop_ok hf.inv (Nat.lt_succ_self f.nodes.length)
  refine ⟨g, h1, h2.drawn, fun n hg hi => ⟨fun h => h2.others n h hg, fun h => (h2.stay n h hg hi).1⟩, fun n hn hg => ?_, fun n hn hg => ?_, h2.good.unique, h2.good.links⟩
  · obtain ⟨n0, a, b, c, d, _⟩ := h2.back n hn hg (by simp)
    exact ⟨n0, a, b, c, d⟩
  · rcases h2.kept n hn hg with ⟨m, hm, e, _⟩ | h
    · exact .inl (e ▸ Forest.key_mem hm)
    · exact .inr h

/-- Afterwards every reference of a gradient goes to one that refers to another one, or that is used elsewhere. -/
theorem C33_all {f g : Forest} (hf : Good f) (h : mergeGradients f = some g) {n m : Node} (hn : n ∈ g.nodes) (hg : n.isGradient = true) (hm : m ∈ g.nodes)
    (hw : written n .xlinkHref = some (.link m.key)) : m.has .xlinkHref = true ∨ g.usesCount m.key ≠ 1 := by
  obtain ⟨g', h1, h2, h3⟩ := loop_ok hf.inv (Nat.lt_succ_self f.nodes.length)
  have : mergeGradients f = some g' := h1
  rw [h] at this
  cases this
  have := h3 n hn hg
  unfold source at this
  rw [written_some hw] at this
  simp only [Forest.find_of_mem h2.good.unique hm, Option.filter_eq_none_iff] at this
  by_contra hc
  rw [not_or, not_not, Bool.not_eq_true] at hc
  exact this m rfl (by rw [hc.1, hc.2]; rfl)

end Verif.Merge
