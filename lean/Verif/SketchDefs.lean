import Verif.SketchView
import Verif.UnusedDefsLook
/-
C66: removing unused definitions from a drawing.
-/
namespace Verif.Draft
open Verif.Dom Verif.Spec Verif.Render

variable [Flavour]

variable {f g : Forest}

theorem spots_split {p : Kind} {z : Kind × Node × Forest} (h : z ∈ spots p g) :
    (z.1 = p ∧ z.2.1 ∈ g.top) ∨ ∃ y ∈ subs g, z ∈ spots y.1.kind y.2 := by
  induction g generalizing p with
  | nil => cases h
  | cons n k r ihk ihr =>
    simp only [spots, List.mem_cons, List.mem_append] at h
    simp only [Forest.top, List.mem_cons, subs, List.mem_append]
    rcases h with rfl | h | h
    · exact .inl ⟨rfl, .inl rfl⟩
    · exact .inr ⟨(n, k), .inl rfl, h⟩
    · rcases ihr h with ⟨h1, h2⟩ | ⟨y, hy, h⟩
      · exact .inl ⟨h1, .inr h2⟩
      · exact .inr ⟨y, .inr (.inr hy), h⟩

theorem top_setKids (d : Nat) (X : Forest) (f : Forest) : (f.setKids d X).top = f.top := by
  induction f with
  | nil => rfl
  | cons n k r _ ih =>
    simp only [Forest.setKids]
    split <;> simp [Forest.top, ih]

/-- The nodes of a forest after one has got other children, with their children. -/
theorem spots_setKids' {d : Nat} {X : Forest} {p : Kind} {z : Kind × Node × Forest} (h : z ∈ spots p (f.setKids d X)) :
    (∃ ks, (z.1, z.2.1, ks) ∈ spots p f ∧ (z.2.1.key = d ∧ z.2.2 = X ∨ z.2.1.key ≠ d ∧ z.2.2 = ks.setKids d X)) ∨
      ∃ n ∈ f.nodes, n.key = d ∧ z ∈ spots n.kind X := by
  induction f generalizing p with
  | nil => cases h
  | cons n k r ihk ihr =>
    simp only [Forest.setKids] at h
    split at h
    next hn =>
      simp only [spots, List.mem_cons, List.mem_append] at h
      rcases h with rfl | h | h
      · exact .inl ⟨k, by simp [spots], .inl ⟨hn, rfl⟩⟩
      · exact .inr ⟨n, by simp, hn, h⟩
      · rcases ihr h with ⟨ks, hs, e⟩ | ⟨m, hm, e⟩
        · exact .inl ⟨ks, by simp [spots, hs], e⟩
        · exact .inr ⟨m, by simp [hm], e⟩
    next hn =>
      simp only [spots, List.mem_cons, List.mem_append] at h
      rcases h with rfl | h | h
      · exact .inl ⟨k, by simp [spots], .inr ⟨hn, rfl⟩⟩
      · rcases ihk h with ⟨ks, hs, e⟩ | ⟨m, hm, e⟩
        · exact .inl ⟨ks, by simp [spots, hs], e⟩
        · exact .inr ⟨m, by simp [hm], e⟩
      · rcases ihr h with ⟨ks, hs, e⟩ | ⟨m, hm, e⟩
        · exact .inl ⟨ks, by simp [spots, hs], e⟩
        · exact .inr ⟨m, by simp [hm], e⟩

/-- The elements in `defs`. -/
theorem Sketch.in_defs (hf : Sketch f) {d : Node} {c : Forest} (hk : d.kind = .elem .defs) (hd : (d, c) ∈ subs f) {x : Node × Forest} (hx : x ∈ subs c) :
    x.1.isGradient = true ∨ x.1.kind = .elem .stop := by
  have key : ∀ (c : Forest) (q : Kind), (q = .elem .defs ∨ q = .elem .linearGradient ∨ q = .elem .radialGradient ∨ q = .elem .stop) →
      (∀ x ∈ spots q c, fits x.1 x.2.1.kind = true) → ∀ x ∈ subs c, x.1.isGradient = true ∨ x.1.kind = .elem .stop := by
    intro c
    induction c with
    | nil => intro q _ _ x hx; cases hx
    | cons a b c ihb ihc =>
      intro q hq h x hx
      have ha := h (q, a, b) (by simp [spots])
      have hs : a.isGradient = true ∨ a.kind = .elem .stop := by
        rw [isGradient_iff]
        rcases hq with rfl | rfl | rfl | rfl
        · simp only [fits, Bool.or_eq_true, decide_eq_true_eq] at ha; exact .inl ha
        · simp only [fits, decide_eq_true_eq] at ha; exact .inr ha
        · simp only [fits, decide_eq_true_eq] at ha; exact .inr ha
        · cases ha
      simp only [subs, List.mem_cons, List.mem_append] at hx
      rcases hx with rfl | hx | hx
      · exact hs
      · refine ihb a.kind ?_ (fun x hx' => h x (by simp [spots, hx'])) x hx
        rcases hs with hs | hs
        · rcases isGradient_iff.1 hs with e | e <;> simp [e]
        · simp [hs]
      · exact ihc q hq (fun x hx' => h x (by simp [spots, hx'])) x hx
  obtain ⟨q, hq⟩ := Invisible.subs_spots (p := doc) hd
  exact key c d.kind (.inl hk) (fun x hx => (hf.nodes x (spots_of_subs hd x hx)).place) x hx

theorem Sketch.unusedDefs (hf : Sketch f) (h : UnusedDefs.removeUnusedDefs f = some g) : SameLook f g ∧ Sketch g := by
  have hd0 : ∀ d, UnusedDefs.firstDefs f = some d → f.isUsed d = false := by
    intro d hd
    obtain ⟨n, hn, hk, rfl⟩ := UnusedDefs.firstDefs_spec hd
    exact hf.unused hn (no_gradient hk (by decide) (by decide))
  refine ⟨UnusedDefs.C25_look_partial hf.keys h hd0 fun d c hd hc n ks hs _ ⟨k, hk, hu⟩ => ?_, ?_⟩
  · exfalso
    obtain ⟨dn, hdn, hkind, rfl⟩ := UnusedDefs.firstDefs_spec hd
    obtain ⟨m, hm, hsub⟩ := UnusedDefs.subs_kidsOf hc
    have := hf.same (UnusedDefs.node_of_subs hsub) hdn hm
    subst this
    have hin := hf.in_defs hkind hsub hs
    have hsf : (n, ks) ∈ subs f := UnusedDefs.subs_trans hsub hs
    obtain ⟨q, hq⟩ := Invisible.subs_spots (p := doc) hsf
    obtain ⟨m, hm, rfl⟩ := Forest.mem_keys.1 hk
    have := hf.kids_unused hq (by dsimp only at hin ⊢; rw [isGradient_iff] at hin; intro e; rw [e] at hin; simp at hin)
      (by dsimp only at hin ⊢; rw [isGradient_iff] at hin; intro e; rw [e] at hin; simp at hin) m hm
    rw [this] at hu; cases hu
  · obtain ⟨d, c, c', hc, hs⟩ := UnusedDefs.main hf.keys h
    have hdn : d ∈ f.nodes := UnusedDefs.node_of_subs hc.before
    obtain ⟨A, hA⟩ := UnusedDefs.nodes_setKids hf.keys (Forest.key_mem hdn)
    have hfn : f.nodes.Perm (A ++ c.nodes) := by
      have := hA c
      rwa [UnusedDefs.setKids_self hf.keys (UnusedDefs.kidsOf_subs hf.keys hc.before)] at this
    have hgn : g.nodes.Perm (A ++ c'.nodes) := by rw [hs.tree]; exact hA c'
    have hcc : ∀ n ∈ c'.nodes, n ∈ c.nodes := fun n hn => by
      obtain ⟨k, hk⟩ := UnusedDefs.mem_subs_of_node hn
      exact UnusedDefs.node_of_subs (hc.content _ hk)
    have hsub : ∀ n ∈ g.nodes, n ∈ f.nodes := fun n hn => by
      rw [hgn.mem_iff, List.mem_append] at hn
      rw [hfn.mem_iff, List.mem_append]
      exact hn.imp_right (hcc n)
    have hG : ∀ n ∈ g.nodes, ∀ y ∈ n.attrs, ∀ t, y.value.target = some t → Grad f t → Grad g t := by
      rintro n hn y hy t ht ⟨m, hm, rfl, hmg⟩
      refine ⟨m, ?_, rfl, hmg⟩
      rw [hfn.mem_iff, List.mem_append] at hm
      rw [hgn.mem_iff, List.mem_append]
      rcases hm with hm | hm
      · exact .inl hm
      · by_cases hm' : m ∈ c'.nodes
        · exact .inr hm'
        · exact absurd (Node.mem_links.2 ⟨y, hy, ht⟩) ((hc.deleted m hm hm').1 n hn)
    have hkeys : g.UniqueKeys := by
      obtain ⟨R, hR, _⟩ := hs.gone
      have h1 : f.nodes.Perm ((A ++ c'.nodes) ++ R) := by
        rw [List.append_assoc]
        exact hfn.trans (hR.append_left A)
      have h2 : (f.nodes.map Node.key).Nodup := hf.keys
      have h3 := ((h1.map Node.key).nodup_iff).1 h2
      rw [List.map_append] at h3
      exact ((hgn.map Node.key).nodup_iff).2 h3.of_append_left
    -- the nodes of `c'`
    have hcont : ∀ z ∈ spots d.kind c', fits z.1 z.2.1.kind = true ∧ ∃ q, (q, z.2) ∈ spots doc f := by
      intro z hz
      have hzs : z.2 ∈ subs c' := spots_subs hz
      have hzf : z.2 ∈ subs f := UnusedDefs.subs_trans hc.before (hc.content _ hzs)
      refine ⟨?_, Invisible.subs_spots hzf⟩
      rcases spots_split hz with ⟨h1, h2⟩ | ⟨y, hy, hzy⟩
      · have hzn : z.2.1 ∈ f.nodes := UnusedDefs.node_of_subs hzf
        have hgr : z.2.1.isGradient = true := by
          rcases hc.minimal _ h2 with ⟨m, hm, hl⟩ | e | e
          · obtain ⟨x, hx, hk, hxg⟩ := hf.used (Forest.isUsed_iff.2 ⟨m, hsub m hm, hl⟩)
            rw [← hf.same hx hzn hk]; exact hxg
          · have := hf.no_tag hzn (e := .font) rfl (by decide)
            rw [(Node.isTag_iff _ _).2 e] at this; cases this
          · have := hf.no_tag hzn (e := .fontFace) rfl (by decide)
            rw [(Node.isTag_iff _ _).2 e] at this; cases this
        rw [h1, hc.defs]
        rcases isGradient_iff.1 hgr with e | e <;> rw [e] <;> rfl
      · exact (hf.nodes z (spots_of_subs (UnusedDefs.subs_trans hc.before (hc.content _ hy)) z hzy)).place
    refine ⟨hkeys, fun z hz => ?_⟩
    have hzg : z.2.1 ∈ g.nodes := (spots_nodes hz).1
    obtain ⟨q, n, ks⟩ := z
    dsimp only at hzg ⊢
    have hz' := hz
    rw [hs.tree] at hz'
    rcases spots_setKids' hz' with ⟨ks', h1, h2⟩ | ⟨m, hm, hk, h1⟩
    · dsimp only at h1 h2
      have h0 := hf.nodes _ h1
      dsimp only at h0
      refine ⟨h0.place, h0.names, fun y hy => (h0.attrs y hy).weaken (hG n hzg y hy), fun hk => ?_, fun hg s hs' => ?_, h0.extra⟩
      · rcases h2 with ⟨h2, rfl⟩ | ⟨h2, rfl⟩
        · have : n = d := hf.same (spots_nodes h1).1 hdn h2
          rw [this, hc.defs] at hk; cases hk
        · rw [top_setKids]; exact h0.anchor hk
      · rcases h2 with ⟨h2, rfl⟩ | ⟨h2, rfl⟩
        · have : n = d := hf.same (spots_nodes h1).1 hdn h2
          rw [this, isGradient_iff, hc.defs] at hg; simp at hg
        · rw [top_setKids] at hs'; exact h0.single hg s hs'
    · have := hf.same hm hdn hk
      subst this
      obtain ⟨hp, r, hr⟩ := hcont _ h1
      dsimp only at hp hr
      have h0 := hf.nodes _ hr
      dsimp only at h0
      exact ⟨hp, h0.names, fun y hy => (h0.attrs y hy).weaken (hG n hzg y hy), h0.anchor, h0.single, h0.extra⟩

open Verif.Invisible in
theorem Sketch.invisible (hf : Sketch f) (h : removeInvisible f = some g) : SameView f g ∧ Sketch g := by
  unfold removeInvisible at h
  simp only at h
  obtain ⟨v1, s1⟩ := hf.hidden
  obtain ⟨v2, s2⟩ := s1.paths
  have e3 := s2.clips
  have e4 := s2.filters
  have e5 := s2.matrices
  have e6 := s2.uses
  obtain ⟨⟨g7, b7⟩, h7, h⟩ := Option.bind_eq_some_iff.1 h
  rw [e3, e4, e5, e6] at h7
  obtain ⟨v7, s7⟩ := s2.gradients h7
  obtain ⟨v8, s8⟩ := s7.rects
  have v : SameView f (rectStep g7).1 := ((v1.trans v2).view.trans v7).trans v8.view
  simp only at h
  split at h
  · obtain ⟨v9, s9⟩ := s8.unusedDefs h
    exact ⟨v.trans v9.view, s9⟩
  · cases h
    exact ⟨v, s8⟩

end Verif.Draft
