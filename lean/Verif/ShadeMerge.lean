import Verif.ShadeFuse
import Verif.MergeWhole
/-
C72: merging gradients (C33).
-/
namespace Verif.Shade
open Verif.Dom Verif.Spec Verif.Render Verif.Reader Verif.Merge
open Verif.Paths (Transform Pt)
open Verif.Gradients (OnlyHref)

/-- What is needed of a document that is made of `f0`. -/
structure Made (f0 f : Forest) : Prop where
  attrs : UniqueAttrs f
  decent : ∀ m ∈ f.nodes, m.isGradient = true → Decent m
  stops : ∀ y ∈ subs f, y.1.isGradient = true → ∀ s ∈ stopKids y.2, ∃ x ∈ subs f0, x.1.isGradient = true ∧ s ∈ stopKids x.2
  place : ∀ z ∈ fringe top f, z ∈ fringe top f0
  only : OnlyHref f0 → OnlyHref f
  back : ∀ y ∈ f.nodes, y.isGradient = true → ∃ x ∈ f0.nodes, x.key = y.key ∧ x.kind = y.kind ∧
    ∀ a, a ≠ .xlinkHref → y.get a = x.get a ∧ ∀ v, written x a = some v → written y a = some v

theorem Page.made {f : Forest} (hf : Page f) : Made f f :=
  ⟨hf.attrs, fun _ hm hg => hf.decent hm hg, fun y hy hg _ hs => ⟨y, hy, hg, hs⟩, fun _ h => h, fun h => h, fun y hy _ => ⟨y, hy, rfl, rfl, fun _ _ => ⟨rfl, fun _ h => h⟩⟩⟩

theorem fringe_setKids {f : Forest} {k : Nat} {c : Forest} {p : Kind} (h : ∀ x ∈ f.nodes, x.key = k → neverRendered x.kind = true) :
    fringe p (f.setKids k c) = fringe p f := by
  induction f generalizing p with
  | nil => rfl
  | cons n q r ihq ihr =>
    have h1 := ihr (p := p) fun x hx => h x (by simp [Forest.nodes, hx])
    have h2 := ihq (p := n.kind) fun x hx => h x (by simp [Forest.nodes, hx])
    rw [Forest.setKids]
    by_cases e : n.key = k
    · have hn := h n (by simp [Forest.nodes]) e
      rw [if_pos e, fringe, fringe, if_pos hn, if_pos hn, h1]
    · rw [if_neg e, fringe, fringe, h1, h2]

theorem nodes_setKids {f : Forest} {k : Nat} {c : Forest} {x : Node} (h : x ∈ (f.setKids k c).nodes) : x ∈ f.nodes ∨ x ∈ c.nodes := by
  induction f with
  | nil => cases h
  | cons n q r ihq ihr =>
    rw [Forest.setKids] at h
    split at h
    · simp only [Forest.nodes, List.mem_cons, List.mem_append] at h ⊢
      rcases h with h | h | h
      · exact .inl (.inl h)
      · exact .inr h
      · exact (ihr h).elim (fun h => .inl (.inr (.inr h))) .inr
    · simp only [Forest.nodes, List.mem_cons, List.mem_append] at h ⊢
      rcases h with h | h | h
      · exact .inl (.inl h)
      · exact (ihq h).elim (fun h => .inl (.inr (.inl h))) .inr
      · exact (ihr h).elim (fun h => .inl (.inr (.inr h))) .inr

theorem gradient_hidden {n : Node} (h : n.isGradient = true) : neverRendered n.kind = true := by
  obtain ⟨e, he, hk⟩ := Invisible.grad_kind h
  rw [hk]
  rcases he with rfl | rfl <;> rfl

theorem fringe_moveKids {f : Forest} (hu : f.UniqueKeys) {n m : Node} (hs : Source f n m) {p : Kind} : fringe p (moveKids n m f) = fringe p f := by
  have key : ∀ x ∈ f.nodes, x.key = n.key ∨ x.key = m.key → neverRendered x.kind = true := by
    rintro x hx (e | e)
    · rw [Forest.eq_of_key hu hx hs.mem e]; exact gradient_hidden hs.grad
    · rw [Forest.eq_of_key hu hx hs.target e]; exact gradient_hidden hs.tgrad
  unfold moveKids
  split
  · rw [fringe_setKids, fringe_setKids]
    · exact fun x hx e => key x hx (.inr e)
    · intro x hx e
      rcases nodes_setKids hx with h | h
      · exact key x h (.inl e)
      · cases h
  · rfl

theorem show_names (n : Node) (a : AId) : (showAttr n a).attrs.map Attr.name = n.attrs.map Attr.name := by
  unfold showAttr
  rw [List.map_map]
  refine List.map_congr_left fun x _ => ?_
  simp only [Function.comp]
  split <;> rfl

theorem reveal_names (m : Node) (l : List AId) (n : Node) : (reveal m l n).attrs.map Attr.name = n.attrs.map Attr.name := by
  induction l generalizing n with
  | nil => rfl
  | cons a l ih =>
    rw [reveal_cons, ih]
    split
    · exact show_names _ _
    · rfl

theorem joined_names (m : Node) {n : Node} (h : (n.attrs.map Attr.name).Nodup) : ((joined m n).attrs.map Attr.name).Nodup := by
  unfold joined
  rw [reveal_names]
  exact rm_names _ h

theorem reveal_from (m : Node) (l : List AId) (n : Node) {x : Attr} (h : x ∈ (reveal m l n).attrs) : ∃ y ∈ n.attrs, y.name = x.name ∧ y.value = x.value := by
  induction l generalizing n with
  | nil => exact ⟨x, h, rfl, rfl⟩
  | cons a l ih =>
    rw [reveal_cons] at h
    obtain ⟨y, hy, h1, h2⟩ := ih _ h
    split at hy
    · obtain ⟨z, hz, rfl⟩ := List.mem_map.1 hy
      refine ⟨z, hz, ?_, ?_⟩
      · rw [← h1]; split <;> rfl
      · rw [← h2]; split <;> rfl
    · exact ⟨y, hy, h1, h2⟩

/-- The attributes after a merge are attributes of one of the two. -/
theorem joined_written {f : Forest} (hg : Merge.Good f) {n m : Node} (hs : Source f n m) {a : AId} {v : Value} (h : written (joined m n) a = some v) :
    written n a = some v ∨ written m a = some v := by
  by_cases ha : a = .xlinkHref
  · subst ha
    rw [written_joined_href] at h
    cases h
  · rw [written_joined m n ha] at h
    split at h
    next hc =>
      cases hw : written n a with
      | some v' =>
        rw [written_some hw] at h
        exact .inl h
      | none =>
        obtain ⟨v', hv'⟩ := Option.isSome_iff_exists.1 hc.2
        have he : Effective f a n (some v') := .ref hw hs.href (Forest.find_of_mem hg.unique hs.target) (.own hv')
        have := hg.resolved n hs.mem hs.grad a ((attrList_iff hs.grad).1 hc.1) v' he
        rw [this] at h
        cases h
        exact .inr hv'
    · exact .inl h

theorem Made.step {f0 f : Forest} (h : Made f0 f) (hg : Merge.Good f) {n m : Node} (hs : Source f n m) :
    Made f0 ((moveKids n m f).modify n.key fun n => reveal m (attrList n) (n.rm .xlinkHref)) := by
  have hst := step_ok hg hs
  have e : ((moveKids n m f).modify n.key fun n => reveal m (attrList n) (n.rm .xlinkHref)) = (moveKids n m f).map (change n m) := rfl
  refine ⟨?_, ?_, ?_, ?_, ?_, ?_⟩
  · intro y hy
    obtain ⟨x, hx, rfl⟩ := hst.mem.1 hy
    unfold change
    split
    · exact joined_names m (h.attrs x hx)
    · exact h.attrs x hx
  · intro y hy hyg
    obtain ⟨x, hx, rfl⟩ := hst.mem.1 hy
    by_cases ek : x.key = n.key
    · have := Forest.eq_of_key hg.unique hx hs.mem ek
      subst this
      rw [change_self]
      have d1 := h.decent x hs.mem hs.grad
      have d2 := h.decent m hs.target hs.tgrad
      refine ⟨fun a ha k hk => ?_, fun a ha v hv => ?_, fun v hv => ?_, fun a h1 h2 v hv => ?_⟩
      · exact (joined_written hg hs hk).elim (d1.plain a ha k) (d2.plain a ha k)
      · exact (joined_written hg hs hv).elim (d1.coords a ha v) (d2.coords a ha v)
      · exact (joined_written hg hs hv).elim (d1.moved v) (d2.moved v)
      · exact (joined_written hg hs hv).elim (d1.words a h1 h2 v) (d2.words a h1 h2 v)
    · rw [change_ne ek] at hyg ⊢
      exact h.decent x hx hyg
  · intro y hy hyg s hss
    rcases hst.inside hg hs hy hyg with h' | ⟨z, hz, hzg⟩
    · rw [h'] at hss; cases hss
    · exact h.stops _ hz hzg s hss
  · intro z hz
    rw [e, fringe_map fun x _ => change_kind n m x, fringe_moveKids hg.unique hs] at hz
    exact h.place z hz
  · intro h0 y hy hyg z hz ht
    obtain ⟨x, hx, rfl⟩ := hst.mem.1 hy
    rw [change_gradient] at hyg
    unfold change at hz
    split at hz
    · obtain ⟨w, hw, e1, e2⟩ := reveal_from _ _ _ hz
      rw [← e1]
      exact h.only h0 x hx hyg w (List.mem_filter.1 hw).1 (e2 ▸ ht)
    · exact h.only h0 x hx hyg z hz ht
  · intro y hy hyg
    obtain ⟨x, hx, rfl⟩ := hst.mem.1 hy
    rw [change_gradient] at hyg
    obtain ⟨z, hz, e1, e2, e3⟩ := h.back x hx hyg
    refine ⟨z, hz, e1.trans (change_key n m x).symm, e2.trans (change_kind n m x).symm, fun a ha => ?_⟩
    obtain ⟨e4, e5⟩ := e3 a ha
    by_cases ek : x.key = n.key
    · have := Forest.eq_of_key hg.unique hx hs.mem ek
      subst this
      rw [change_self]
      have hj : (joined m x).get a = x.get a := by
        unfold joined
        rw [(reveal_same _ _ _).2.2.2.2, ApplyTs.get_rm, if_neg ha]
      refine ⟨hj.trans e4, fun v hv => ?_⟩
      rw [written_joined m x ha]
      split
      · exact written_some (e5 v hv)
      · exact e5 v hv
    · rw [change_ne ek]
      exact ⟨e4, e5⟩

theorem Made.rm {f0 f : Forest} (h : Made f0 f) (hg : Merge.Good f) {t : Nat} (ht : Loose f t) : Made f0 (Invisible.rmKey t f) := by
  refine ⟨fun y hy => h.attrs y (rm_mem hg ht hy).1, fun y hy hyg => h.decent y (rm_mem hg ht hy).1 hyg,
    fun y hy hyg => h.stops y (rm_inside hg ht hy hyg) hyg, fun z hz => ?_, fun h0 y hy => h.only h0 y (rm_mem hg ht hy).1,
    fun y hy => h.back y (rm_mem hg ht hy).1⟩
  rw [rmKey_prune hg ht] at hz
  exact h.place z (fringe_prune hz)

theorem Made.rmAll {f0 f1 f : Forest} {T : List Nat} (h : Made f0 f) (hi : Merge.Inv f1 f T) : Made f0 (Invisible.rmKeys T f) := by
  induction T generalizing f with
  | nil => exact h
  | cons t T ih => exact ih (h.rm hi.good (hi.loose t (by simp))) hi.remove

theorem Made.walk {f0 f1 f : Forest} (hu : f.UniqueKeys) {s : Forest × List Nat} (hw : Walk f1 f s) (h : Made f0 s.1) {k : Nat}
    (hk : ∀ x ∈ f.nodes, x.key = k → x.isGradient = true) : Made f0 (mergeNode s k).1 := by
  unfold mergeNode
  split
  next n hn' =>
    obtain ⟨hn, rfl⟩ := Forest.find_some hn'
    split
    next m hm =>
      obtain ⟨x, hx, e, hg⟩ := hw.grads n hn
      exact h.step hw.inv.good (source_ok hw.inv.good hn (hg ▸ hk x hx e) hm)
    · exact h
  · exact h

theorem Made.walkAll {f0 f1 f : Forest} (hu : f.UniqueKeys) {ks : List Nat} {s : Forest × List Nat} (hw : Walk f1 f s) (h : Made f0 s.1)
    (hk : ∀ k ∈ ks, ∀ x ∈ f.nodes, x.key = k → x.isGradient = true) : Made f0 (ks.foldl mergeNode s).1 := by
  induction ks generalizing s with
  | nil => exact h
  | cons k ks ih => exact ih (walk_one hu hw (hk k (by simp))) (Made.walk hu hw h (hk k (by simp))) fun j hj => hk j (by simp [hj])

theorem Made.round {f0 f1 f : Forest} (hi : Merge.Inv f1 f []) (h : Made f0 f) : Made f0 (totalRound f).1 := by
  refine Made.walkAll hi.good.unique (s := (f, [])) ⟨hi, .rfl, (fun _ h => nomatch h), fun n hn => ⟨n, hn, rfl, rfl⟩⟩ h (fun k hk x hx e => ?_)
  obtain ⟨y, hy, rfl⟩ := List.mem_map.1 hk
  obtain ⟨hy, hg⟩ := List.mem_filter.1 hy
  rw [Forest.eq_of_key hi.good.unique hx hy e]
  exact hg

theorem Made.loop {f0 f1 f g : Forest} {fuel : Nat} (hi : Merge.Inv f1 f []) (h : Made f0 f) (e : mergeLoop fuel f = some g) : Made f0 g ∧ Merge.Inv f1 g [] := by
  induction fuel generalizing f with
  | zero => cases e
  | succ fuel ih =>
    rw [mergeLoop, (round_ok hi).1, Option.bind_some] at e
    have hr := h.round hi
    have hw := (round_ok hi).2.inv
    by_cases hT : (totalRound f).2 = []
    · rw [if_pos (by rw [hT]; rfl)] at e
      cases e
      rw [hT] at hw
      exact ⟨hr, hw⟩
    · rw [if_neg (by simpa using hT)] at e
      exact ih hw.removeAll (hr.rmAll hw) e

/-- **C72** Merging gradients does not change what is drawn. -/
theorem C72_merged_partial {f g : Forest} (hf : Page f) (hg : Merge.Good f) (h : mergeGradients f = some g) : Page g ∧ SameShade (onPaper f) (onPaper g) := by
  obtain ⟨hm, hi⟩ := Made.loop hg.inv hf.made h
  have hd : drawn g = (drawn f).map (rename id) := by
    rw [hi.drawn]
    exact (Forest.map_id' fun n _ => rename_id fun _ _ => rfl).symm
  have there : ∀ n ∈ f.nodes, n.isGradient = true → (∃ x ∈ (drawn f).nodes, n.key ∈ x.links) →
      ∃ m ∈ g.nodes, m.key = n.key ∧ m.isGradient = true ∧ PaintSame f n g m := by
    rintro n hn hng ⟨x, hx, hl⟩
    rw [← hi.drawn] at hx
    obtain ⟨m, hmg, e⟩ := Forest.mem_keys.1 (hi.good.links x (drawn_sub_nodes hx) n.key hl)
    have hgm : m.isGradient = true := by
      cases hc : m.isGradient with
      | true => rfl
      | false =>
        have := Forest.eq_of_key hf.unique (hi.others m hmg hc) hn e
        rw [this, hng] at hc
        cases hc
    obtain ⟨n0, h1, h2, _, hp, _⟩ := hi.back m hmg hgm (by simp)
    have := Forest.eq_of_key hf.unique h1 hn (h2.trans e)
    subst this
    exact ⟨m, hmg, e, hgm, hp⟩
  have page : Page g := page_from hf hm.attrs hi.good.unique hi.good.href hm.decent hm.stops hd
    (fun n hn hng hx => by
      obtain ⟨m, h1, h2, h3, _⟩ := there n hn hng hx
      exact ⟨m, h1, h2, h3⟩) fun z hz => hf.place (hm.place z hz)
  refine ⟨page, shade_pages hf page hd fun n hn hng hx => ?_⟩
  obtain ⟨m, h1, h2, h3, h4⟩ := there n hn hng hx
  exact ⟨m, h1, h2, h3, fun l l' a b _ _ => a.alike hng b h4⟩

end Verif.Shade
