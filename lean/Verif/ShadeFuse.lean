import Verif.ShadeMove
import Verif.DuplWhole
/-
C72: removing duplicates of gradients (C32).
-/
namespace Verif.Shade
open Verif.Dom Verif.Spec Verif.Render Verif.Reader
open Verif.Paths (Transform Pt)

/-- The attributes of a gradient in the documents in question. -/
structure Decent (m : Node) : Prop where
  plain : ∀ a ∈ [AId.mask, .clipPath, .filter], ∀ k, written m a ≠ some (.funcLink k)
  coords : ∀ a ∈ coordAttrs, ∀ v, written m a = some v → ∃ x, v = .length x
  moved : ∀ v, written m .gradientTransform = some v → ∃ T, v = .transform T
  words : ∀ a, a ≠ .xlinkHref → isOwn (.id a) = true → ∀ v, written m a = some v → v.target = none

theorem plainEffects_iff {n : Node} : Invisible.plainEffects n = true ↔ ∀ a ∈ [AId.mask, .clipPath, .filter], ∀ k, n.get a ≠ some (.funcLink k) := by
  unfold Invisible.plainEffects
  rw [List.all_eq_true]
  refine forall_congr' fun a => forall_congr' fun _ => ?_
  constructor
  · intro h k e
    rw [e] at h
    cases h
  · intro h
    split
    next k e => exact absurd e (h k)
    · rfl

theorem Page.decent {f : Forest} (hf : Page f) {n : Node} (hn : n ∈ f.nodes) (hg : n.isGradient = true) : Decent n := by
  have get0 : ∀ a, (paper n).get a = written n a := fun a => get_paper (hf.attrs n hn) a
  refine ⟨?_, ?_, ?_, ?_⟩
  · intro a ha k
    rw [← get0]
    exact plainEffects_iff.1 (hf.sheet.plain (paper n) (mem_paper hn) hg) a ha k
  · intro a ha v hv
    exact hf.sheet.coords (paper n) (mem_paper hn) hg a ha v (by rw [get0]; exact hv)
  · intro v hv
    exact hf.sheet.moved (paper n) (mem_paper hn) hg v (by rw [get0]; exact hv)
  · intro a h1 h2 v hv
    exact hf.sheet.words (paper n) (mem_paper hn) hg a h1 h2 v (by rw [get0]; exact hv)

theorem Decent.rename {n : Node} (h : Decent n) (ρ : Nat → Nat) : Decent (rename ρ n) := by
  refine ⟨?_, ?_, ?_, ?_⟩
  · intro a ha k e
    rw [written_rename] at e
    obtain ⟨v, hv, e⟩ := Option.map_eq_some_iff.1 e
    cases v <;> cases e
    exact h.plain a ha _ hv
  · intro a ha v e
    rw [written_rename] at e
    obtain ⟨v, hv, rfl⟩ := Option.map_eq_some_iff.1 e
    obtain ⟨x, rfl⟩ := h.coords a ha v hv
    exact ⟨x, rfl⟩
  · intro v e
    rw [written_rename] at e
    obtain ⟨v, hv, rfl⟩ := Option.map_eq_some_iff.1 e
    obtain ⟨x, rfl⟩ := h.moved v hv
    exact ⟨x, rfl⟩
  · intro a h1 h2 v e
    rw [written_rename] at e
    obtain ⟨v, hv, rfl⟩ := Option.map_eq_some_iff.1 e
    rw [renameValue_target, h.words a h1 h2 v hv]
    rfl

theorem href_paper {g : Forest} (ha : UniqueAttrs g) (h : HrefOk g) : HrefOk (onPaper g) := by
  obtain ⟨rank, hr⟩ := h
  refine ⟨rank, fun x hx hg v hv => ?_⟩
  obtain ⟨n, hn, rfl⟩ := of_paper hx
  rw [written_paper (ha n hn)] at hv
  obtain ⟨t, ht, e, htg, hlt⟩ := hr n hn hg v hv
  exact ⟨paper t, mem_paper ht, e, htg, hlt⟩

theorem Page.place {f : Forest} (hf : Page f) {z : Kind × Kind} (hz : z ∈ fringe top f) : gone z.1 z.2 = true := by
  refine hf.sheet.place z ?_
  rw [onPaper_map, fringe_map (w := paper) (fun _ _ => rfl)]
  exact hz

/-- What is to be shown for a document that is made from another one. -/
theorem page_from {f g : Forest} {ρ : Nat → Nat} (hf : Page f) (ha : UniqueAttrs g) (hu : g.UniqueKeys) (hr : HrefOk g)
    (hd : ∀ m ∈ g.nodes, m.isGradient = true → Decent m)
    (hs : ∀ y ∈ subs g, y.1.isGradient = true → ∀ s ∈ stopKids y.2, ∃ x ∈ subs f, x.1.isGradient = true ∧ s ∈ stopKids x.2)
    (hw : drawn g = (drawn f).map (rename ρ))
    (ht : ∀ n ∈ f.nodes, n.isGradient = true → (∃ x ∈ (drawn f).nodes, n.key ∈ x.links) → ∃ m ∈ g.nodes, m.key = ρ n.key ∧ m.isGradient = true)
    (hp : ∀ z ∈ fringe top g, gone z.1 z.2 = true) : Page g := by
  have get : ∀ {m}, m ∈ g.nodes → ∀ a, (paper m).get a = written m a := fun hm a => get_paper (ha _ hm) a
  refine ⟨ha, ⟨?_, ?_, href_paper ha hr, ?_, ?_, ?_, ?_, ?_, ?_, ?_⟩, ?_⟩
  · unfold Forest.UniqueKeys at hu ⊢
    rw [onPaper_map, Forest.keys_map (g := paper) (fun _ => rfl)]
    exact hu
  · intro x hx y hy
    obtain ⟨m, _, rfl⟩ := of_paper hx
    exact (List.mem_filter.1 hy).2
  · intro x hx hg
    obtain ⟨m, hm, rfl⟩ := of_paper hx
    exact plainEffects_iff.2 fun a h k => by rw [get hm]; exact (hd m hm hg).plain a h k
  · intro x hx hg a h v hv
    obtain ⟨m, hm, rfl⟩ := of_paper hx
    rw [get hm] at hv
    exact (hd m hm hg).coords a h v hv
  · intro x hx hg v hv
    obtain ⟨m, hm, rfl⟩ := of_paper hx
    rw [get hm] at hv
    exact (hd m hm hg).moved v hv
  · intro x hx hg a h1 h2 v hv
    obtain ⟨m, hm, rfl⟩ := of_paper hx
    rw [get hm] at hv
    exact (hd m hm hg).words a h1 h2 v hv
  · intro x hx hg s hst
    obtain ⟨y, hy, rfl⟩ := subs_paper hx
    rw [stopKids_paper] at hst
    obtain ⟨s', hs', rfl⟩ := List.mem_map.1 hst
    obtain ⟨z, hz, hzg, hzs⟩ := hs y hy hg s' hs'
    refine hf.sheet.stops (paper z.1, onPaper z.2) ?_ hzg _ ?_
    · rw [onPaper_map, Stops.subs_map]
      exact List.mem_map.2 ⟨z, hz, by rw [onPaper_map]⟩
    · rw [stopKids_paper]
      exact List.mem_map_of_mem hzs
  · intro x hx y hy k hk
    rw [drawn_paper, hw, Forest.map_map, Forest.nodes_map] at hx
    obtain ⟨n, hn, rfl⟩ := List.mem_map.1 hx
    have hx' : paper n ∈ (drawn (onPaper f)).nodes := by rw [drawn_paper, Forest.nodes_map]; exact List.mem_map_of_mem hn
    obtain ⟨hy1, hy2⟩ := List.mem_filter.1 hy
    obtain ⟨z, hz, rfl⟩ := List.mem_map.1 hy1
    dsimp only at hk hy2
    rw [renameValue_target] at hk
    obtain ⟨k', hk', rfl⟩ := Option.map_eq_some_iff.1 hk
    obtain ⟨h1, h2, m, hm, e, hmg⟩ := hf.sheet.links (paper n) hx' z (List.mem_filter.2 ⟨hz, hy2⟩) k' hk'
    obtain ⟨t, htm, rfl⟩ := of_paper hm
    obtain ⟨t', ht', e', htg⟩ := ht t htm hmg ⟨n, hn, Node.mem_links.2 ⟨z, hz, by rw [hk']; exact congrArg some e.symm⟩⟩
    refine ⟨h1, h2, paper t', mem_paper ht', ?_, htg⟩
    rw [← e]
    exact e'
  · intro z hz
    rw [onPaper_map, fringe_map (w := paper) (fun _ _ => rfl)] at hz
    exact hp z hz
  · intro y hy hg s hst
    obtain ⟨z, hz, hzg, hzs⟩ := hs y hy hg s hst
    exact hf.stops z hz hzg s hzs

theorem fringe_prune {P : Node → Bool} {p : Kind} {f : Forest} {z : Kind × Kind} (h : z ∈ fringe p (f.prune P)) : z ∈ fringe p f := by
  induction f generalizing p with
  | nil => exact h
  | cons n k r ihk ihr =>
    unfold Forest.prune at h
    by_cases hn : neverRendered n.kind = true
    · rw [fringe, if_pos hn]
      split at h
      · exact List.mem_cons_of_mem _ (ihr h)
      · rw [fringe, if_pos hn] at h
        exact (List.mem_cons.1 h).elim (fun e => e ▸ List.mem_cons_self) fun h => List.mem_cons_of_mem _ (ihr h)
    · rw [fringe, if_neg hn]
      split at h
      · exact List.mem_append_right _ (ihr h)
      · rw [fringe, if_neg hn] at h
        exact (List.mem_append.1 h).elim (fun h => List.mem_append_left _ (ihk h)) fun h => List.mem_append_right _ (ihr h)

theorem fuse_shade {f : Forest} (hf : Page f) (hg : Dupl.Good f) {n1 n2 : Node} (ht : Dupl.Twins f n1 n2) :
    Page (Dupl.fused f n1 n2) ∧ SameShade (onPaper f) (onPaper (Dupl.fused f n1 n2)) := by
  have hfu := Dupl.twins_fusable hg ht
  have hgg := Dupl.good_fused hg ht
  have hn2 : neverRendered n2.kind = true := by
    obtain ⟨e, he, hk⟩ := Invisible.grad_kind ht.grad2
    rw [hk]
    rcases he with rfl | rfl <;> rfl
  have hdr := Dupl.fused_drawn hfu hn2
  have page : Page (Dupl.fused f n1 n2) := by
    refine page_from hf hgg.attrs hgg.unique hgg.href ?_ ?_ hdr ?_ ?_
    · intro m hm hmg
      obtain ⟨x, hx, _, rfl⟩ := Dupl.fused_mem hfu hm
      exact (hf.decent hx hmg).rename _
    · intro y hy hyg s hs
      obtain ⟨x, hx, _, e⟩ := Dupl.inside_fused hg ht hy hyg
      exact ⟨_, hx, by rw [e] at hyg; exact hyg, hs⟩
    · intro n hn hng _
      refine ⟨Dupl.image n1 n2 n, Dupl.image_mem hg ht hn hng, Dupl.image_key n, ?_⟩
      rw [isGradient_congr (Dupl.image_kind hg ht hn)]
      exact hng
    · intro z hz
      have := fringe_prune hz
      rw [fringe_map (w := rename _) fun _ _ => rfl] at this
      exact hf.place this
  refine ⟨page, shade_pages hf page hdr fun n hn hng _ => ?_⟩
  refine ⟨Dupl.image n1 n2 n, Dupl.image_mem hg ht hn hng, Dupl.image_key n, ?_, fun l l' h1 h2 _ _ => ?_⟩
  · rw [isGradient_congr (Dupl.image_kind hg ht hn)]
    exact hng
  · exact h1.alike hng h2 (Dupl.paint_image hg ht hn hng)

theorem fuse_all {e : EId} (he : e = .linearGradient ∨ e = .radialGradient) {as : List AId} (has : ∀ a, a ∈ as ↔ a ∈ gradientAttrs (.elem e) ∧ a ≠ .gradientTransform)
    {f : Forest} (hf : Page f) (hg : Dupl.Good f) :
    ∃ g, Dupl.rmLoop (Dupl.cmpGradients as) (Gradients.ofKind f e) f = some g ∧ (Dupl.Good g ∧ ∃ ρ, Dupl.Deduped f g ρ) ∧ Page g ∧ SameShade (onPaper f) (onPaper g) := by
  obtain ⟨g, ρ, h1, h2, h3⟩ := Dupl.loop_ok (P := fun g => Page g ∧ SameShade (onPaper f) (onPaper g)) hg.unique he has
    (fun f' n1 n2 hg' ht hp => by
      obtain ⟨p, s⟩ := fuse_shade hp.1 hg' ht
      exact ⟨p, hp.2.trans s⟩) hg ⟨hf, SameShade.refl _⟩
  exact ⟨g, h1, ⟨h2.good, ρ, h2.done⟩, h3⟩

/-- **C72** Removing duplicates of linear gradients does not change what is drawn. -/
theorem C72_linear_partial {f : Forest} (hf : Page f) (hg : Dupl.Good f) :
    ∃ g, Dupl.rmLinear f = some g ∧ Dupl.Good g ∧ Page g ∧ SameShade (onPaper f) (onPaper g) := by
  obtain ⟨g, h1, h2, h3⟩ := fuse_all (.inl rfl) Dupl.linear_attrs hf hg
  exact ⟨g, h1, h2.1, h3⟩

/-- **C72** Removing duplicates of radial gradients does not change what is drawn. -/
theorem C72_radial_partial {f : Forest} (hf : Page f) (hg : Dupl.Good f) :
    ∃ g, Dupl.rmRadial f = some g ∧ Dupl.Good g ∧ Page g ∧ SameShade (onPaper f) (onPaper g) := by
  obtain ⟨g, h1, h2, h3⟩ := fuse_all (.inr rfl) Dupl.radial_attrs hf hg
  exact ⟨g, h1, h2.1, h3⟩

end Verif.Shade
