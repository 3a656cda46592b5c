import Verif.ShadeRegroup
/-
C73: the passes over gradients one after another, from the document that has been read.
-/
namespace Verif.Shade
open Verif.Dom Verif.Spec Verif.Render Verif.Reader
open Verif.Gradients (OnlyHref AllVisible NoLinearToRadial checkAttr resolveLinear resolveRadial resolveLinearNode resolveRadialNode forEach)
open Verif.Stops (setHidden get_of_getAttr)

/-! ### Resolving attributes adds nothing to the file -/

/-- Only attributes that are not written have been added. -/
structure Same (f g : Forest) : Prop where
  paper : onPaper g = onPaper f
  names : UniqueAttrs f → UniqueAttrs g
  keys : g.keys = f.keys

theorem Same.refl (f : Forest) : Same f f := ⟨rfl, id, rfl⟩
theorem Same.trans {f g h : Forest} (h1 : Same f g) (h2 : Same g h) : Same f h :=
  ⟨h2.paper.trans h1.paper, fun h => h2.names (h1.names h), h2.keys.trans h1.keys⟩

theorem paper_setHidden {n : Node} {a : AId} (h : n.has a = false) (v : Value) : paper (setHidden n a v) = paper n := by
  have : (n.attrs.any fun y => decide (y.name = .id a)) = false := by
    unfold Node.has getAttr at h
    rw [Option.isSome_eq_false_iff, Option.isNone_iff_eq_none, List.find?_eq_none] at h
    rw [List.any_eq_false]
    exact h
  unfold paper setHidden putAttr
  dsimp only
  rw [this]
  simp

theorem checkAttr_same {k : Nat} {a : AId} {d : Option Value} {f g : Forest} (hu : f.UniqueKeys) (h : checkAttr k a d f = some g) : Same f g := by
  unfold checkAttr at h
  obtain ⟨n, hn, h⟩ := Option.bind_eq_some_iff.1 h
  obtain ⟨hm, rfl⟩ := Forest.find_some hn
  split at h
  · cases h; exact Same.refl _
  next hh =>
    obtain ⟨v, _, h⟩ := Option.map_eq_some_iff.1 h
    cases v with
    | none => cases h; exact Same.refl _
    | some v =>
      dsimp only at h
      subst h
      refine ⟨?_, fun hu' y hy => ?_, ?_⟩
      · unfold Forest.modify
        rw [onPaper_map, onPaper_map, Forest.map_map]
        refine GroupDefs.map_congr_nodes fun x hx => ?_
        dsimp only
        split
        next e =>
          rw [Forest.eq_of_key hu hx hm e]
          exact paper_setHidden (by simpa using hh) v
        · rfl
      · unfold Forest.modify at hy
        rw [Forest.nodes_map] at hy
        obtain ⟨x, hx, rfl⟩ := List.mem_map.1 hy
        dsimp only
        split
        · exact Ungroup.putAttr_names _ _ (hu' x hx)
        · exact hu' x hx
      · unfold Forest.modify
        exact Forest.keys_map (fun x => by split <;> rfl) f

theorem Same.unique {f g : Forest} (h : Same f g) (hu : f.UniqueKeys) : g.UniqueKeys := by
  unfold Forest.UniqueKeys at hu ⊢
  rw [h.keys]; exact hu

theorem Same.bind {f g : Forest} {x : Option Forest} {y : Forest → Option Forest} (hu : f.UniqueKeys) (hx : ∀ f', x = some f' → Same f f')
    (hy : ∀ f' g', f'.UniqueKeys → y f' = some g' → Same f' g') (h : x.bind y = some g) : Same f g := by
  obtain ⟨f', h1, h2⟩ := Option.bind_eq_some_iff.1 h
  exact (hx _ h1).trans (hy _ _ ((hx _ h1).unique hu) h2)

theorem linearNode_same {k : Nat} {f g : Forest} (hu : f.UniqueKeys) (h : resolveLinearNode k f = some g) : Same f g := by
  unfold resolveLinearNode at h
  iterate 6
    refine Same.bind hu (fun _ h => checkAttr_same hu h) (fun f g hu h => ?_) h
    clear * - h hu
  exact checkAttr_same hu h

theorem radialNode_same {k : Nat} {f g : Forest} (hu : f.UniqueKeys) (h : resolveRadialNode k f = some g) : Same f g := by
  unfold resolveRadialNode at h
  iterate 5
    refine Same.bind hu (fun _ h => checkAttr_same hu h) (fun f g hu h => ?_) h
    clear * - h hu
  obtain ⟨n, _, h⟩ := Option.bind_eq_some_iff.1 h
  iterate 2
    refine Same.bind hu (fun _ h => checkAttr_same hu h) (fun f g hu h => ?_) h
    clear * - h hu
  exact checkAttr_same hu h

theorem forEach_same {b : Nat → Forest → Option Forest} (hb : ∀ {k f g}, f.UniqueKeys → b k f = some g → Same f g) {l : List Nat} {f g : Forest} (hu : f.UniqueKeys)
    (h : forEach b l f = some g) : Same f g := by
  induction l generalizing f with
  | nil => cases h; exact Same.refl _
  | cons k l ih =>
    obtain ⟨f1, h1, h2⟩ := Option.bind_eq_some_iff.1 h
    exact (hb hu h1).trans (ih ((hb hu h1).unique hu) h2)

/-- The two passes that resolve attributes. -/
def resolved (f : Forest) : Option Forest := (resolveLinear f).bind resolveRadial

theorem resolved_same {f g : Forest} (hu : f.UniqueKeys) (h : resolved f = some g) : Same f g := by
  refine Same.bind hu (fun f' h => ?_) (fun f' g' hu h => ?_) h
  · obtain ⟨o, _, h⟩ := Option.bind_eq_some_iff.1 h
    exact forEach_same linearNode_same hu h
  · obtain ⟨o, _, h⟩ := Option.bind_eq_some_iff.1 h
    exact forEach_same radialNode_same hu h

/-! ### The document that has been read -/

/-- What the theorem needs to know of the document that has been read. -/
structure Fresh (f : Forest) : Prop where
  page : Page f
  unique : f.UniqueKeys
  links : f.LinksOk
  /-- All attributes are written. -/
  visible : AllVisible f
  /-- References are made with `xlink:href` by gradients and with functional notation by others. -/
  only : OnlyHref f
  form : LinkForm f
  /-- Linear gradients do not refer to radial ones. -/
  linear : NoLinearToRadial f
  /-- Gradients have ids of their own. -/
  named : ∀ n ∈ f.nodes, n.isGradient = true → n.id ≠ ""
  ids : ∀ n ∈ f.nodes, n.isGradient = true → ∀ x ∈ f.nodes, x.id = n.id → x = n
  /-- The children of gradients are stops; in a gradient there is no gradient, no reference and nothing that is referred to. -/
  flat : ∀ x ∈ subs f, x.1.isGradient = true → (∀ d ∈ x.2.top, d.kind = .elem .stop) ∧
    ∀ d ∈ x.2.nodes, d.isGradient = false ∧ f.isUsed d.key = false ∧ d.links = []
  /-- The colours of stops do not depend on where they stand. -/
  plain : ∀ n ∈ f.nodes, n.kind = .elem .stop → n.get .stopColor ≠ some (.kw .currentColor)
  /-- A gradient has stops or refers to another one, but not both. -/
  either : ∀ x ∈ subs f, x.1.isGradient = true → (x.2.top = [] ↔ x.1.get .xlinkHref ≠ none)
  /-- Linear gradients do not have attributes of radial ones, and vice versa. -/
  own : ∀ n ∈ f.nodes, n.isGradient = true → ∀ a ∈ Dupl.allAttrs, n.get a ≠ none → a ∈ gradientAttrs n.kind
  /-- A gradient that refers to another one and has a centre has a focal point. -/
  focal : ∀ n ∈ f.nodes, n.isGradient = true → n.get .xlinkHref ≠ none → ∀ a c, centreOf a = some c → n.get c ≠ none → n.get a ≠ none
  /-- Transforms do something. -/
  moves : ∀ n ∈ f.nodes, n.isGradient = true → n.get .gradientTransform ≠ some (.transform one)

theorem href_of_paper {f : Forest} (ha : UniqueAttrs f) (h : HrefOk (onPaper f)) : HrefOk f := by
  obtain ⟨rank, hr⟩ := h
  refine ⟨rank, fun n hn hg v hv => ?_⟩
  obtain ⟨t, ht, e, htg, hlt⟩ := hr (paper n) (mem_paper hn) hg v (by rw [written_paper (ha n hn)]; exact hv)
  obtain ⟨m, hm, rfl⟩ := of_paper ht
  exact ⟨m, hm, e, htg, hlt⟩

theorem own_gradient {k : Kind} {a : AId} (h : a ∈ gradientAttrs k) : isOwn (.id a) = true ∧ a ≠ .xlinkHref := by
  have := Dupl.gradientAttrs_all h
  simp only [Dupl.allAttrs, List.mem_cons, List.not_mem_nil, or_false] at this
  rcases this with rfl | rfl | rfl | rfl | rfl | rfl | rfl | rfl | rfl | rfl | rfl | rfl <;> exact ⟨rfl, by decide⟩

theorem default_target {k : Kind} {a : AId} {v : Value} (h : gradientDefault k a = some v) : v.target = none := by
  unfold gradientDefault at h
  split at h <;> cases h <;> rfl

theorem gradientAttrs_isGradient {n : Node} {a : AId} (h : a ∈ gradientAttrs n.kind) : n.isGradient = true := by
  unfold gradientAttrs at h
  split at h
  next e => simp [Node.isGradient, Node.isTag, e]
  next e => simp [Node.isGradient, Node.isTag, e]
  · cases h

/-- What resolving leaves. -/
theorem resolved_fresh {f r : Forest} (hf : Fresh f) (h : resolved f = some r) : Page r ∧ Dupl.Good r ∧ onPaper r = onPaper f ∧ NoLinearToRadial r ∧
    ∀ n ∈ r.nodes, n.isGradient = true → n.get .gradientTransform ≠ some (.transform one) := by
  have hs := resolved_same hf.unique h
  have hr : HrefOk f := href_of_paper hf.page.attrs hf.page.sheet.href
  obtain ⟨w, hw, hn⟩ := Gradients.C26_resolved_partial hf.unique hf.visible hr h
  have hru : r.UniqueKeys := hs.unique hf.unique
  have hra : UniqueAttrs r := hs.names hf.page.attrs
  have mem : ∀ {y}, y ∈ r.nodes → ∃ x ∈ f.nodes, w x = y := by
    intro y hy
    rw [hw, Forest.nodes_map] at hy
    exact List.mem_map.1 hy
  have put : ∀ {x}, x ∈ f.nodes → w x ∈ r.nodes := by
    intro x hx
    rw [hw, Forest.nodes_map]
    exact List.mem_map_of_mem hx
  have sub : ∀ {y}, y ∈ subs r → ∃ x ∈ subs f, y = (w x.1, x.2.map w) := by
    intro y hy
    rw [hw, Stops.subs_map] at hy
    obtain ⟨x, hx, rfl⟩ := List.mem_map.1 hy
    exact ⟨x, hx, rfl⟩
  have grad : ∀ {x}, x ∈ f.nodes → (w x).isGradient = x.isGradient := fun hx => isGradient_congr (hn _ hx).2.1
  have wr : ∀ {x}, x ∈ f.nodes → ∀ a, written (w x) a = x.get a := by
    intro x hx a
    rw [(hn x hx).2.2.2.2.2.1, Gradients.written_eq hf.visible hx]
  obtain ⟨rank, hrank⟩ := hr
  have eff := fun {x : Node} (hx : x ∈ f.nodes) (a : AId) (v : Option Value) =>
    ApplyTs.effective_written (a := a) hf.unique hw (fun n hn' => (hn n hn').1) (fun n hn' => (hn n hn').2.2.2.2.2.1) hx v
  -- values refer to nothing
  have word : ∀ {x}, x ∈ f.nodes → ∀ a ∈ gradientAttrs x.kind, ∀ v, GradientValue f x a v → v.target = none := by
    intro x hx a ha v hv
    have hg := gradientAttrs_isGradient ha
    have he : ∀ c ∈ gradientAttrs x.kind, ∀ v, PlainValue f x c v → v.target = none := by
      rintro c hc v (h | ⟨_, h⟩)
      · obtain ⟨m, hm, hmg, hmw⟩ := effective_mem hf.unique hrank hx hg h rfl
        exact (hf.page.decent hm hmg).words c (own_gradient hc).2 (own_gradient hc).1 v hmw
      · exact default_target h
    rcases hv with hv | ⟨hk, c, hc, _, hv⟩
    · exact he a ha v hv
    · refine he c ?_ v hv
      rw [hk]
      unfold centreOf at hc
      split at hc <;> cases hc <;> decide
  have old : ∀ {x}, x ∈ f.nodes → ∀ y ∈ (w x).attrs, y.value.target ≠ none → y ∈ x.attrs := by
    intro x hx y hy ht
    have hy' := GradUnits.getAttr_of_mem (hra _ (put hx)) hy
    by_cases hc : ∃ a ∈ gradientAttrs x.kind, y.name = .id a
    · obtain ⟨a, ha, e⟩ := hc
      cases ho : getAttr x.attrs y.name with
      | some z =>
        have := (hn x hx).2.2.2.2.1 _ _ ho
        rw [hy'] at this
        rw [Option.some.inj this]
        exact getAttr_mem ho
      | none =>
        have hgv := ((hn x hx).2.2.2.2.2.2 a ha (.inr hf.linear) y.value).1 (by unfold Node.get; rw [← e, hy']; rfl)
        exact absurd (word hx a ha _ hgv) ht
    · push Not at hc
      rw [(hn x hx).2.2.2.1 _ fun a ha e => hc a ha e] at hy'
      exact getAttr_mem hy'
  have same : ∀ {x}, x ∈ f.nodes → x.isGradient = false → ∀ b, getAttr (w x).attrs b = getAttr x.attrs b := by
    intro x hx hg b
    refine (hn x hx).2.2.2.1 b fun a ha => ?_
    rw [gradientAttrs_isGradient ha] at hg
    cases hg
  have lk : ∀ {x}, x ∈ f.nodes → ∀ k, k ∈ (w x).links → k ∈ x.links := by
    intro x hx k hk
    obtain ⟨y, hy, e⟩ := Node.mem_links.1 hk
    exact Node.mem_links.2 ⟨y, old hx y hy (by rw [e]; simp), e⟩
  have used : ∀ {k}, f.isUsed k = false → r.isUsed k = false := by
    intro k hk
    rw [Bool.eq_false_iff] at hk ⊢
    intro hc
    obtain ⟨y, hy, hl⟩ := Forest.isUsed_iff.1 hc
    obtain ⟨x, hx, rfl⟩ := mem hy
    exact hk (Forest.isUsed_iff.2 ⟨x, hx, lk hx k hl⟩)
  have page : Page r := by
    refine ⟨hra, hs.paper ▸ hf.page.sheet, fun x hx hg s hss y hy => ?_⟩
    obtain ⟨z, hz, rfl⟩ := sub hx
    have hzn := UnusedDefs.node_of_subs hz
    unfold stopKids at hss
    rw [Stops.top_map] at hss
    obtain ⟨h1, h2⟩ := List.mem_filter.1 hss
    obtain ⟨t, ht, rfl⟩ := List.mem_map.1 h1
    have htn : t ∈ f.nodes := (Stops.subs_kids_sub hz).1.mem (Invisible.top_nodes ht)
    have hk := ((hf.flat z hz (by rw [← grad hzn]; exact hg)).1 t ht)
    have hyt := GradUnits.getAttr_of_mem (hra _ (put htn)) hy
    rw [same htn (by simp [Node.isGradient, Node.isTag, hk])] at hyt
    exact .inl (hf.visible t htn y (getAttr_mem hyt))
  refine ⟨page, ⟨hru, ?_, href_of_paper hra page.sheet.href, ?_, ?_, ?_, hra, ?_, ?_, ?_, ?_, ?_, ?_, ?_, ?_, ?_⟩, hs.paper, ?_, ?_⟩
  · intro y hy k hk
    obtain ⟨x, hx, rfl⟩ := mem hy
    rw [hs.keys]
    exact hf.links x hx k (lk hx k hk)
  · intro y hy hg
    obtain ⟨x, hx, rfl⟩ := mem hy
    rw [wr hx]
    exact (get_of_getAttr ((hn x hx).2.2.2.1 _ fun a ha e => by cases e; exact Gradients.href_notMem _ ha)).symm
  · intro y hy hg z hz ht
    obtain ⟨x, hx, rfl⟩ := mem hy
    exact hf.only x hx (by rw [← grad hx]; exact hg) z (old hx z hz ht) ht
  · intro y hy z hz ht
    obtain ⟨x, hx, rfl⟩ := mem hy
    exact hf.form x hx z (old hx z hz ht) ht
  · intro y hy hg
    obtain ⟨x, hx, rfl⟩ := mem hy
    rw [(hn x hx).2.2.1]
    exact hf.named x hx (by rw [← grad hx]; exact hg)
  · intro y hy hg z hz e
    obtain ⟨x, hx, rfl⟩ := mem hy
    obtain ⟨t, ht, rfl⟩ := mem hz
    rw [(hn x hx).2.2.1, (hn t ht).2.2.1] at e
    rw [hf.ids x hx (by rw [← grad hx]; exact hg) t ht e]
  · intro y hy hg
    obtain ⟨x, hx, rfl⟩ := sub hy
    have hxn := UnusedDefs.node_of_subs hx
    obtain ⟨h1, h2⟩ := hf.flat x hx (by rw [← grad hxn]; exact hg)
    constructor
    · intro d hd
      rw [Stops.top_map] at hd
      obtain ⟨t, ht, rfl⟩ := List.mem_map.1 hd
      have htn : t ∈ f.nodes := (Stops.subs_kids_sub hx).1.mem (Invisible.top_nodes ht)
      rw [(hn t htn).2.1]
      exact h1 t ht
    · intro d hd
      rw [Forest.nodes_map] at hd
      obtain ⟨t, ht, rfl⟩ := List.mem_map.1 hd
      have htn : t ∈ f.nodes := (Stops.subs_kids_sub hx).1.mem ht
      obtain ⟨a, b, c⟩ := h2 t ht
      refine ⟨(grad htn).trans a, ?_, ?_⟩
      · rw [(hn t htn).1]; exact used b
      · rw [List.eq_nil_iff_forall_not_mem]
        intro k hk
        have := lk htn k hk
        rw [c] at this
        cases this
  · intro y hy hk
    obtain ⟨x, hx, rfl⟩ := mem hy
    rw [(hn x hx).2.1] at hk
    rw [get_of_getAttr (same hx (by simp [Node.isGradient, Node.isTag, hk]) _)]
    exact hf.plain x hx hk
  · intro y hy hg
    obtain ⟨x, hx, rfl⟩ := sub hy
    have hxn := UnusedDefs.node_of_subs hx
    dsimp only at hg ⊢
    rw [wr hxn, Stops.top_map, List.map_eq_nil_iff]
    exact hf.either x hx (by rw [← grad hxn]; exact hg)
  · intro y hy hg a ha
    obtain ⟨x, hx, rfl⟩ := mem hy
    rw [wr hx, (hn x hx).2.1]
    exact hf.own x hx (by rw [← grad hx]; exact hg) a ha
  · intro y hy hg
    obtain ⟨x, hx, rfl⟩ := mem hy
    simp only [wr hx]
    exact hf.focal x hx (by rw [← grad hx]; exact hg)
  · intro y hy hg a ha _ v hv
    obtain ⟨x, hx, rfl⟩ := mem hy
    rw [(hn x hx).2.1] at ha
    refine ((hn x hx).2.2.2.2.2.2 a ha (.inr hf.linear) v).2 ?_
    exact (ApplyTs.gradientValue_congr (hn x hx).2.1 (eff hx a) (fun c _ => eff hx c) v).1 hv
  · intro y hy hg u hu
    obtain ⟨x, hx, rfl⟩ := mem hy
    have hxg : x.isGradient = true := by rw [← grad hx]; exact hg
    have ha : AId.gradientTransform ∈ gradientAttrs x.kind := by
      rcases Merge.isGradient_kind.1 hxg with e | e <;> rw [e] <;> decide
    have hiff := (hn x hx).2.2.2.2.2.2 _ ha (.inr hf.linear)
    rw [eff hx] at hu
    cases u with
    | some v => rw [(hiff v).2 (.inl (.inl hu))]
    | none =>
      cases hg' : (w x).get .gradientTransform with
      | none => rfl
      | some v =>
        rcases (hiff v).1 hg' with (h1 | ⟨_, h1⟩) | ⟨_, c, h1, _⟩
        · cases hu.unique h1
        · unfold gradientDefault at h1; split at h1 <;> simp_all
        · cases h1
  · intro y hy hk k hw' m hm
    obtain ⟨x, hx, rfl⟩ := mem hy
    obtain ⟨hmn, rfl⟩ := Forest.find_some hm
    obtain ⟨t, ht, rfl⟩ := mem hmn
    rw [(hn x hx).2.1] at hk
    rw [(hn x hx).2.2.2.2.2.1, (hn t ht).1] at hw'
    rw [(hn t ht).2.1]
    exact hf.linear x hx hk _ hw' t (Forest.find_of_mem hf.unique ht)
  · intro y hy hg e
    obtain ⟨x, hx, rfl⟩ := mem hy
    have hxg : x.isGradient = true := by rw [← grad hx]; exact hg
    have ha : AId.gradientTransform ∈ gradientAttrs x.kind := by
      rcases Merge.isGradient_kind.1 hxg with e | e <;> rw [e] <;> decide
    rcases ((hn x hx).2.2.2.2.2.2 _ ha (.inr hf.linear) _).1 e with (h1 | ⟨_, h1⟩) | ⟨_, c, h1, _⟩
    · obtain ⟨m, hm, hmg, hmw⟩ := effective_mem hf.unique hrank hx hxg h1 rfl
      rw [Gradients.written_eq hf.visible hm] at hmw
      exact hf.moves m hm hmg hmw
    · unfold gradientDefault at h1; split at h1 <;> simp_all
    · cases h1

/-! ### One after another -/

theorem Deduped.linear {f g : Forest} {ρ : Nat → Nat} (hg : Dupl.Good f) (hd : Dupl.Deduped f g ρ) (hl : NoLinearToRadial f) : NoLinearToRadial g := by
  intro m hm hk k hw y hy
  obtain ⟨n, hn, rfl⟩ := hd.back m hm
  rw [written_rename] at hw
  obtain ⟨v, hv, e⟩ := Option.map_eq_some_iff.1 hw
  obtain ⟨rank, hr⟩ := hg.href
  have hng : n.isGradient = true := by
    have : n.kind = .elem .linearGradient := hk
    simp [Node.isGradient, Node.isTag, this]
  obtain ⟨t, ht, rfl, htg, _⟩ := hr n hn hng v hv
  cases e
  obtain ⟨u, hu, e, _, hp⟩ := hd.paint t ht htg
  rw [← e] at hy
  rw [Forest.find_of_mem hd.unique hu] at hy
  cases hy
  rw [← hp.kind]
  exact hl n hn hk _ hv t (Forest.find_of_mem hg.unique ht)

theorem Deduped.moves {f g : Forest} {ρ : Nat → Nat} (hd : Dupl.Deduped f g ρ)
    (h : ∀ n ∈ f.nodes, n.isGradient = true → n.get .gradientTransform ≠ some (.transform one)) :
    ∀ n ∈ g.nodes, n.isGradient = true → n.get .gradientTransform ≠ some (.transform one) := by
  intro m hm hg e
  obtain ⟨n, hn, rfl⟩ := hd.back m hm
  rw [get_rename] at e
  obtain ⟨v, hv, e⟩ := Option.map_eq_some_iff.1 e
  refine h n hn hg ?_
  rw [hv]
  cases v <;> first | exact congrArg some e | cases e

/-- Attributes of one kind of gradient only, along the references. -/
theorem effective_foreign {f : Forest} (hg : Dupl.Good f) (hl : NoLinearToRadial f) {a : AId} (ha : a ∈ Dupl.allAttrs) (hn : a ∉ gradientAttrs (.elem .linearGradient))
    {m : Node} {v : Option Value} (h : Effective f a m v) (hm : m ∈ f.nodes) (hk : m.kind = .elem .linearGradient) : v = none := by
  have isg : ∀ {m : Node}, m.kind = .elem .linearGradient → m.isGradient = true := fun h => by simp [Node.isGradient, Node.isTag, h]
  induction h with
  | own h => exact absurd (hk ▸ hg.own _ hm (isg hk) a ha (by rw [h]; simp)) hn
  | ref h1 h2 h3 _ ih =>
    obtain ⟨hmm, rfl⟩ := Forest.find_some h3
    refine ih hmm ?_
    obtain ⟨rank, hr⟩ := hg.href
    obtain ⟨t, ht, e, htg, _⟩ := hr _ hm (isg hk) _ h2
    have := Forest.eq_of_key hg.unique hmm ht (Value.link.inj e)
    subst this
    rcases Merge.isGradient_kind.1 htg with h | h
    · exact h
    · exact absurd h (hl _ hm hk _ h2 _ h3)
  | stop => rfl

theorem merge_good {f : Forest} (hg : Dupl.Good f) (hl : NoLinearToRadial f)
    (hm : ∀ n ∈ f.nodes, n.isGradient = true → n.get .gradientTransform ≠ some (.transform one)) (hp : Page f) : Merge.Good f := by
  obtain ⟨rank, hr⟩ := hg.href
  refine ⟨hg.unique, hg.links, hg.href, hg.shown, ?_, ?_, fun x hx h => ⟨(hg.flat x hx h).1, fun d hd => ⟨((hg.flat x hx h).2 d hd).1, ((hg.flat x hx h).2 d hd).2.1⟩⟩, hg.plain⟩
  · intro n hn hng a ha v hv
    by_cases e : a = .gradientTransform
    · subst e
      have h1 := hg.transform n hn hng _ hv
      obtain ⟨m, hmm, hmg, hw⟩ := effective_mem hg.unique hr hn hng hv rfl
      have hne : v ≠ .transform one := by
        rintro rfl
        refine hm m hmm hmg ?_
        unfold written at hw
        unfold Node.get
        cases hq : getAttr m.attrs (.id .gradientTransform) with
        | none => rw [hq] at hw; cases hw
        | some y =>
          rw [hq] at hw
          dsimp only at hw
          split at hw
          · exact hw
          · cases hw
      cases hc : n.get .gradientTransform with
      | none => rw [hc] at h1; exact absurd h1.symm hne
      | some u => rw [hc] at h1; exact congrArg some h1
    · exact hg.resolved n hn hng a ha e v (.inl (.inl hv))
  · intro p hpm hpg n hn hw m hm' hw' a ha
    obtain ⟨t, ht, e, htg, _⟩ := hr p hpm hpg _ hw
    have := Forest.eq_of_key hg.unique hn ht (Value.link.inj e)
    subst this
    by_cases hin : a ∈ gradientAttrs n.kind
    · exact .inl hin
    · right
      obtain ⟨t, ht, e, hmg, _⟩ := hr n hn htg _ hw'
      have := Forest.eq_of_key hg.unique hm' ht (Value.link.inj e)
      subst this
      obtain ⟨u, hu⟩ := ApplyTs.effective_total hg.unique hg.href a hm' hmg
      rcases Merge.isGradient_kind.1 htg with hk | hk
      · rw [hk] at hin
        have hmk : m.kind = .elem .linearGradient := by
          rcases Merge.isGradient_kind.1 hmg with h | h
          · exact h
          · exact absurd h (hl _ hn hk _ hw' _ (Forest.find_of_mem hg.unique hm'))
        rw [effective_foreign hg hl (Dupl.gradientAttrs_all ha) hin hu hm' hmk] at hu
        exact hu
      · exfalso
        rcases Merge.isGradient_kind.1 hpg with h | h
        · exact hl p hpm h _ hw n (Forest.find_of_mem hg.unique hn) hk
        · rw [h] at ha; rw [hk] at hin; exact hin ha

theorem regroup_good {f : Forest} (hg : Merge.Good f) (ha : UniqueAttrs f) (ho : OnlyHref f) : Regroup.Good f := by
  refine ⟨hg.unique, hg.links, hg.href, hg.shown, ?_, hg.flat, hg.plain⟩
  intro n hn hng k hk
  obtain ⟨y, hy, e⟩ := Node.mem_links.1 hk
  have h1 := ho n hn hng y hy (by rw [e]; simp)
  have h2 := GradUnits.getAttr_of_mem (ha n hn) hy
  have h3 : written n .xlinkHref = some y.value := by
    rw [hg.shown n hn hng]
    unfold Node.get
    rw [← h1, h2]; rfl
  obtain ⟨rank, hr⟩ := hg.href
  obtain ⟨t, _, h4, _⟩ := hr n hn hng _ h3
  rw [h4] at e
  cases e
  rw [h3, h4]

end Verif.Shade
