import Verif.MergeProps
/-
Property C33, second part: what one merge does to the paints.
-/
namespace Verif.Merge
open Verif.Dom Verif.Spec
open Verif.UnusedDefs (kidsOf_none setKids_not_mem kidsOf_subs subs_kidsOf mem_subs_of_node node_of_subs)

theorem Step.mem {f g : Forest} {n m : Node} (h : Step f g n m) {y : Node} : y ∈ g.nodes ↔ ∃ x ∈ f.nodes, change n m x = y := by
  rw [h.nodes.mem_iff, List.mem_map]

theorem Step.keys {f g : Forest} {n m : Node} (h : Step f g n m) : g.keys.Perm f.keys := by
  have := h.nodes.map Node.key
  rwa [List.map_map, show Node.key ∘ change n m = Node.key from funext fun x => change_key n m x] at this

theorem Step.unique {f g : Forest} {n m : Node} (h : Step f g n m) (hf : f.UniqueKeys) : g.UniqueKeys := h.keys.nodup_iff.2 hf

theorem Step.find {f g : Forest} {n m : Node} (h : Step f g n m) (hf : f.UniqueKeys) {x : Node} (hx : x ∈ f.nodes) : g.find x.key = some (change n m x) := by
  have := Forest.find_of_mem (h.unique hf) (h.mem.2 ⟨x, hx, rfl⟩)
  rwa [change_key] at this

/-- A gradient and an attribute that it has or can have. -/
def Knows (f : Forest) (x : Node) (a : AId) : Prop :=
  written x a ≠ none ∨ written x .xlinkHref = none ∨ a ∈ gradientAttrs x.kind ∨ Effective f a x none

theorem change_ne {n m x : Node} (h : x.key ≠ n.key) : change n m x = x := if_neg h
theorem change_self (n m : Node) : change n m n = joined m n := if_pos rfl

theorem Good.target {f : Forest} (hf : Good f) {x y : Node} {k : Nat} (hx : x ∈ f.nodes) (hg : x.isGradient = true)
    (h : written x .xlinkHref = some (.link k)) (hy : f.find k = some y) : y ∈ f.nodes ∧ y.isGradient = true ∧ y.key = k := by
  obtain ⟨rank, hr⟩ := hf.href
  obtain ⟨t, ht, e, htg, _⟩ := hr x hx hg _ h
  have e : k = t.key := Value.link.inj e
  subst e
  rw [Forest.find_of_mem hf.unique ht] at hy
  cases hy
  exact ⟨ht, htg, rfl⟩

theorem knows_next {f : Forest} (hf : Good f) {x y : Node} {k : Nat} {a : AId} (hx : x ∈ f.nodes) (hg : x.isGradient = true)
    (h0 : written x a = none) (h : written x .xlinkHref = some (.link k)) (hy : f.find k = some y) (hk : Knows f x a) : Knows f y a := by
  obtain ⟨hym, hyg, rfl⟩ := hf.target hx hg h hy
  rcases hk with hk | hk | hk | hk
  · exact absurd h0 hk
  · rw [h] at hk; cases hk
  · cases hh : written y .xlinkHref with
    | none => exact .inr (.inl hh)
    | some v =>
      obtain ⟨rank, hr⟩ := hf.href
      obtain ⟨t, ht, rfl, _, _⟩ := hr y hym hyg _ hh
      rcases hf.fits x hx hg y hym h t ht hh a hk with h' | h'
      · exact .inr (.inr (.inl h'))
      · cases hw : written y a with
        | some v => left; rw [hw]; simp
        | none => exact .inr (.inr (.inr (.ref hw hh (Forest.find_of_mem hf.unique ht) h')))
  · cases hk with
    | ref _ h2 h3 h4 =>
      rw [h] at h2
      cases h2
      rw [hy] at h3
      cases h3
      exact .inr (.inr (.inr h4))
    | stop _ h2 => rw [h] at h2; cases h2

theorem eff_step {f g : Forest} {n m : Node} (hf : Good f) (hs : Source f n m) (hst : Step f g n m) {a : AId} (ha : a ≠ .xlinkHref) {x : Node}
    {v : Option Value} (hx : x ∈ f.nodes) (hxg : x.isGradient = true) (hk : Knows f x a) (h : Effective f a x v) : Effective g a (change n m x) v := by
  induction h with
  | @own x w h =>
    refine .own ?_
    by_cases e : x.key = n.key
    · rw [change, if_pos e, written_joined m _ ha]
      split
      · exact written_some h
      · exact h
    · rw [change_ne e]; exact h
  | @ref x k y v h1 h2 h3 h4 ih =>
    obtain ⟨hym, hyg, rfl⟩ := hf.target hx hxg h2 h3
    by_cases e : x.key = n.key
    · have := Forest.eq_of_key hf.unique hx hs.mem e
      subst this
      rw [hs.href] at h2
      have e2 : m.key = y.key := Value.link.inj (Option.some.inj h2)
      have := Forest.eq_of_key hf.unique hs.target hym e2
      subst this
      rw [change_self]
      cases hw : written m a with
      | some w =>
        have hv : v = some w := h4.unique (.own hw)
        subst hv
        have hag : a ∈ gradientAttrs x.kind := by
          rcases hk with hk | hk | hk | hk
          · exact absurd h1 hk
          · rw [hs.href] at hk; cases hk
          · exact hk
          · have := hk.unique (.ref h1 hs.href h3 h4); cases this
        refine .own ?_
        rw [written_joined m x ha, if_pos ⟨(attrList_iff hxg).2 hag, by rw [hw]; rfl⟩]
        exact hf.resolved x hx hxg a hag w (.ref h1 hs.href h3 h4)
      | none =>
        have hv : v = none := h4.unique (.stop hw hs.last)
        subst hv
        refine .stop ?_ (written_joined_href _ _)
        rw [written_joined m x ha, if_neg (by rw [hw]; simp), h1]
    · rw [change_ne e]
      exact .ref h1 h2 (hst.find hf.unique hym) (ih hym hyg (knows_next hf hx hxg h1 h2 h3 hk))
  | @stop x h1 h2 =>
    have e : x.key ≠ n.key := by
      intro e
      rw [Forest.eq_of_key hf.unique hx hs.mem e, hs.href] at h2
      cases h2
    rw [change_ne e]
    exact .stop h1 h2

theorem stopKids_nil {f : Forest} (hf : Good f) {x : Node} (hx : x ∈ f.nodes) (hg : x.isGradient = true) {c : Forest} (hc : f.kidsOf x.key = some c)
    (h : stopKids c = []) : c = .nil := by
  obtain ⟨x', e, hs⟩ := subs_kidsOf hc
  have := Forest.eq_of_key hf.unique (node_of_subs hs) hx e
  dsimp only at this
  subst this
  cases c with
  | nil => rfl
  | cons d k r =>
    have hd := (hf.flat _ hs hg).1 d (by simp [Forest.top])
    simp [stopKids, Forest.top, hd] at h

theorem stops_step {f g : Forest} {n m : Node} (hf : Good f) (hs : Source f n m) (hst : Step f g n m) {x : Node}
    {l : List Node} (hx : x ∈ f.nodes) (hxg : x.isGradient = true) (hxm : x.key ≠ m.key) (h : GStops f x l) : GStops g (change n m x) l := by
  induction h with
  | @own x c h1 h2 =>
    refine .own ?_ h2
    rw [change_key]
    by_cases e : x.key = n.key
    · rw [e] at h1 ⊢
      rw [hst.keep, h1]
      intro h
      rw [h1] at h
      cases h
      exact h2 rfl
    · rw [hst.same x hx hxg e hxm, h1]
  | @ref x c k y l h1 h2 h3 h4 h5 ih =>
    obtain ⟨hym, hyg, rfl⟩ := hf.target hx hxg h3 h4
    by_cases e : x.key = n.key
    · have := Forest.eq_of_key hf.unique hx hs.mem e
      subst this
      rw [hs.href] at h3
      have e2 : m.key = y.key := Value.link.inj (Option.some.inj h3)
      have := Forest.eq_of_key hf.unique hs.target hym e2
      subst this
      have hc := stopKids_nil hf hx hxg h1 h2
      subst hc
      have hk := hst.take h1
      rw [change_self]
      cases h5 with
      | own a b => exact .own (by rw [joined_key, hk, a]) b
      | ref _ _ a => rw [hs.last] at a; cases a
      | none a b _ => exact .none (by rw [joined_key, hk, a]) b (written_joined_href _ _)
    · have hne : y.key ≠ m.key := by
        intro e'
        rw [e'] at h3
        exact e (by rw [hs.once x hx (written_link h3)])
      rw [change_ne e]
      refine .ref ?_ h2 h3 (hst.find hf.unique hym) (ih hym hyg hne)
      rw [hst.same x hx hxg e hxm, h1]
  | @none x c h1 h2 h3 =>
    have e : x.key ≠ n.key := by
      intro e
      rw [Forest.eq_of_key hf.unique hx hs.mem e, hs.href] at h3
      cases h3
    rw [change_ne e]
    refine .none ?_ h2 h3
    rw [hst.same x hx hxg e hxm, h1]

theorem gstops_mem {f : Forest} {x : Node} {l : List Node} (h : GStops f x l) : ∀ s ∈ l, s ∈ f.nodes ∧ s.kind = .elem .stop := by
  induction h with
  | own h1 h2 =>
    intro s hs
    obtain ⟨hs, hk⟩ := List.mem_filter.1 hs
    obtain ⟨y, e, hy⟩ := subs_kidsOf h1
    exact ⟨(Stops.subs_kids_sub hy).1.mem ((Stops.top_sub_nodes _).mem hs), by simpa using hk⟩
  | ref _ _ _ _ _ ih => exact ih
  | none => intro s hs; cases hs

theorem stops_refl {f g : Forest} (hp : ∀ n ∈ f.nodes, n.kind = .elem .stop → n.get .stopColor ≠ some (.kw .currentColor)) {l : List Node}
    (hl : ∀ s ∈ l, s ∈ f.nodes ∧ s.kind = .elem .stop) : List.Forall₂ (fun s t => StopSame f s g t) l l := by
  induction l with
  | nil => exact .nil
  | cons s l ih =>
    obtain ⟨h1, h2⟩ := hl s (by simp)
    exact .cons ⟨rfl, rfl, rfl, fun h => absurd h (hp s h1 h2)⟩ (ih fun t ht => hl t (by simp [ht]))

theorem href_not_mem {k : Kind} {a : AId} (h : a ∈ gradientAttrs k) : a ≠ .xlinkHref := by
  rintro rfl
  unfold gradientAttrs at h
  split at h <;> revert h <;> decide

/-- A merge changes no paint, but that of the gradient that will be removed. -/
theorem paint_step {f g : Forest} {n m : Node} (hf : Good f) (hs : Source f n m) (hst : Step f g n m) {x : Node} (hx : x ∈ f.nodes)
    (hxg : x.isGradient = true) (hxm : x.key ≠ m.key) : PaintSame f x g (change n m x) := by
  obtain ⟨rank, hr⟩ := hf.href
  refine paint_of_effective (change_kind n m x).symm (fun a ha => ?_) hxg ?_
  · obtain ⟨v, hv⟩ := effective_total hf.unique hr a hx hxg
    exact ⟨v, hv, eff_step hf hs hst (href_not_mem ha) hx hxg (.inr (.inr (.inl ha))) hv⟩
  · obtain ⟨l, hl⟩ := gstops_total hf.unique hr hx hxg
    exact ⟨l, l, hl, stops_step hf hs hst hx hxg hxm hl, stops_refl hf.plain (gstops_mem hl)⟩

theorem Step.used {f g : Forest} {n m : Node} (h : Step f g n m) {k : Nat} (hk : f.isUsed k = false) : g.isUsed k = false := by
  rw [Bool.eq_false_iff] at hk ⊢
  intro hc
  obtain ⟨y, hy, hl⟩ := Forest.isUsed_iff.1 hc
  obtain ⟨x, hx, rfl⟩ := h.mem.1 hy
  exact hk (Forest.isUsed_iff.2 ⟨x, hx, change_links n m x k hl⟩)

/-- What the gradients contain afterwards. -/
theorem Step.inside {f g : Forest} {n m : Node} (hf : Good f) (hs : Source f n m) (h : Step f g n m) {y : Node × Forest} (hy : y ∈ subs g) (hg : y.1.isGradient = true) :
    y.2 = .nil ∨ ∃ x, (x, y.2) ∈ subs f ∧ x.isGradient = true := by
  have hk := kidsOf_subs (h.unique hf.unique) (n := y.1) (c := y.2) hy
  obtain ⟨x, hx, e⟩ := h.mem.1 (node_of_subs hy)
  have hxg : x.isGradient = true := by rw [← e, change_gradient] at hg; exact hg
  have ek : y.1.key = x.key := by rw [← e, change_key]
  rw [ek] at hk
  have fin : ∀ z ∈ f.nodes, z.isGradient = true → f.kidsOf z.key = some y.2 → ∃ x, (x, y.2) ∈ subs f ∧ x.isGradient = true := by
    intro z hz hzg hzk
    obtain ⟨z', e, hz'⟩ := subs_kidsOf hzk
    have := Forest.eq_of_key hf.unique (node_of_subs hz') hz e
    dsimp only at this
    subst this
    exact ⟨_, hz', hzg⟩
  by_cases e1 : x.key = n.key
  · by_cases hn : f.kidsOf n.key = some .nil
    · rw [e1, h.take hn] at hk
      exact .inr (fin m hs.target hs.tgrad hk)
    · rw [e1, h.keep hn] at hk
      exact .inr (fin n hs.mem hs.grad hk)
  · by_cases e2 : x.key = m.key
    · rw [e2] at hk
      rcases h.rest with h' | h'
      · rw [h'] at hk; exact .inl (Option.some.inj hk).symm
      · rw [h'] at hk; exact .inr (fin m hs.target hs.tgrad hk)
    · rw [h.same x hx hxg e1 e2] at hk
      exact .inr (fin x hx hxg hk)

theorem Step.good {f g : Forest} {n m : Node} (hf : Good f) (hs : Source f n m) (h : Step f g n m) : Good g where
  unique := h.unique hf.unique
  links := by
    intro y hy k hk
    obtain ⟨x, hx, rfl⟩ := h.mem.1 hy
    exact h.keys.mem_iff.2 (hf.links x hx k (change_links n m x k hk))
  href := by
    obtain ⟨rank, hr⟩ := hf.href
    refine ⟨rank, fun y hy hg v hv => ?_⟩
    obtain ⟨x, hx, rfl⟩ := h.mem.1 hy
    rw [change_gradient] at hg
    obtain ⟨_, hw⟩ := change_href n m x hv
    obtain ⟨t, ht, e, htg, hlt⟩ := hr x hx hg v hw
    exact ⟨_, h.mem.2 ⟨t, ht, rfl⟩, by rw [change_key]; exact e, by rw [change_gradient]; exact htg, by rw [change_key, change_key]; exact hlt⟩
  shown := by
    intro y hy hg
    obtain ⟨x, hx, rfl⟩ := h.mem.1 hy
    rw [change_gradient] at hg
    by_cases e : x.key = n.key
    · rw [change, if_pos e, written_joined_href, get_joined_href]
    · rw [change_ne e]; exact hf.shown x hx hg
  resolved := by
    intro y hy hg a ha v hv
    obtain ⟨x, hx, rfl⟩ := h.mem.1 hy
    rw [change_gradient] at hg
    rw [change_kind] at ha
    rw [change_get n m x (href_not_mem ha)]
    obtain ⟨rank, hr⟩ := hf.href
    obtain ⟨w, hw⟩ := effective_total hf.unique hr a hx hg
    have := eff_step hf hs h (href_not_mem ha) hx hg (.inr (.inr (.inl ha))) hw
    have e := hv.unique this
    subst e
    exact hf.resolved x hx hg a ha v hw
  fits := by
    intro p' hp' hpg n' hn' hpn m' hm' hnm a ha
    obtain ⟨p, hp, rfl⟩ := h.mem.1 hp'
    obtain ⟨q, hq, rfl⟩ := h.mem.1 hn'
    obtain ⟨t, ht, rfl⟩ := h.mem.1 hm'
    rw [change_gradient] at hpg
    rw [change_kind] at ha ⊢
    rw [change_key] at hpn hnm
    obtain ⟨_, hpn⟩ := change_href n m p hpn
    obtain ⟨_, hnm⟩ := change_href n m q hnm
    have hqg := (hf.target hp hpg hpn (Forest.find_of_mem hf.unique hq)).2.1
    have htg := (hf.target hq hqg hnm (Forest.find_of_mem hf.unique ht)).2.1
    rcases hf.fits p hp hpg q hq hpn t ht hnm a ha with h' | h'
    · exact .inl h'
    · exact .inr (eff_step hf hs h (href_not_mem ha) ht htg (.inr (.inr (.inr h'))) h')
  flat := by
    intro y hy hg
    rcases h.inside hf hs hy hg with h' | ⟨x, hx, hxg⟩
    · rw [h']; simp [Forest.top]
    · obtain ⟨h1, h2⟩ := hf.flat _ hx hxg
      exact ⟨h1, fun d hd => ⟨(h2 d hd).1, h.used (h2 d hd).2⟩⟩
  plain := by
    intro y hy hk
    obtain ⟨x, hx, rfl⟩ := h.mem.1 hy
    rw [change_kind] at hk
    rw [change_get n m x (by decide)]
    exact hf.plain x hx hk

end Verif.Merge
