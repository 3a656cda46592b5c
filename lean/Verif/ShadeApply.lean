import Verif.ShadeChain
import Verif.Cli
/-
C73: applying transforms keeps the conditions of the other passes.
-/
namespace Verif.Shade
open Verif.Dom Verif.Spec Verif.Render Verif.Reader
open Verif.Gradients (OnlyHref NoLinearToRadial)
open Verif.ApplyTs (put moveGradient gradientBody applyToGradients RadiusShown GradientOk ResolvedDoc SameBut geoAttrs gcoords isGradient_iff)
open Verif.Paths (Transform)

/-! ### Changed gradients -/

/-- The attributes of a changed gradient: references are as they were. -/
theorem moved_from {n : Node} {T : Transform} {y : Attr} (h : y ∈ (moveGradient n T).attrs) (ht : y.value.target ≠ none) : y ∈ n.attrs := by
  have set : ∀ {n : Node} {a : AId} {x}, y ∈ (n.set a (.length x)).attrs → y ∈ n.attrs := by
    intro n a x h
    rcases Node.mem_putAttr h with rfl | h
    · exact absurd rfl ht
    · exact h
  have coords : ∀ {n : Node} {a b : AId}, y ∈ (ApplyTs.transformCoords n a b T).attrs → y ∈ n.attrs := fun h => set (set h)
  have scale : ∀ {n : Node} {a : AId} {s}, y ∈ (ApplyTs.scaleCoord n a s).attrs → y ∈ n.attrs := by
    intro n a s h
    unfold ApplyTs.scaleCoord Stops.modValue at h
    obtain ⟨z, hz, rfl⟩ := List.mem_map.1 h
    obtain ⟨nm, v, vis⟩ := z
    dsimp only at ht ⊢
    by_cases e : nm = .id a
    · rw [if_pos e] at ht ⊢
      cases v <;> first | exact absurd rfl ht | exact hz
    · rw [if_neg e]
      exact hz
  unfold moveGradient at h
  dsimp only at h
  have h := (List.mem_filter.1 h).1
  split at h
  · exact coords (coords h)
  · split at h
    · exact coords (coords (scale h))
    · exact coords (coords h)

/-- Only attributes of gradients of this kind are added. -/
theorem moved_own {n : Node} {T : Transform} {a : AId} (hg : n.isGradient = true) (h : written (moveGradient n T) a ≠ none) :
    written n a ≠ none ∨ a ∈ gradientAttrs n.kind := by
  rcases (isGradient_iff n).1 hg with hk | hk
  · have hm : moveGradient n T = (ApplyTs.transformCoords (ApplyTs.transformCoords n .x1 .y1 T) .x2 .y2 T).rm .gradientTransform := by
      unfold moveGradient; simp [Node.isTag, hk]
    rw [hm, ApplyTs.written_rm, ApplyTs.written_coords, ApplyTs.written_coords] at h
    rw [hk]
    by_cases e : a ∈ gradientAttrs (.elem .linearGradient)
    · exact .inr e
    · left
      simp only [gradientAttrs, List.mem_cons, List.not_mem_nil, or_false, not_or] at e
      simpa only [e, if_false] using h
  · have hm : moveGradient n T = (if ApplyTs.hasScale T then ApplyTs.scaleCoord (ApplyTs.transformCoords (ApplyTs.transformCoords n .cx .cy T) .fx .fy T) .r T.a
      else ApplyTs.transformCoords (ApplyTs.transformCoords n .cx .cy T) .fx .fy T).rm .gradientTransform := by
      unfold moveGradient; simp [Node.isTag, hk]
    rw [hk]
    by_cases e : a ∈ gradientAttrs (.elem .radialGradient)
    · exact .inr e
    · left
      simp only [gradientAttrs, List.mem_cons, List.not_mem_nil, or_false, not_or] at e
      rw [hm, ApplyTs.written_rm] at h
      cases hs : ApplyTs.hasScale T
      · rw [hs] at h
        simpa [ApplyTs.written_coords, e] using h
      · rw [hs] at h
        simpa [ApplyTs.written_coords, ApplyTs.scaleCoord, ApplyTs.written_mod, e] using h

theorem moved_transform (n : Node) (T : Transform) : (moveGradient n T).get .gradientTransform = none := by
  unfold moveGradient
  dsimp only
  rw [ApplyTs.get_rm, if_pos rfl]

/-! ### One gradient of the document -/

/-- `g` is `f`, but for a gradient whose transform has been applied. -/
structure Turn (f g : Forest) (w : Node → Node) : Prop where
  eq : g = f.map w
  cases : ∀ x ∈ f.nodes, w x = x ∨ x.isGradient = true ∧ ∃ T, w x = moveGradient x T

theorem put_turn {f : Forest} (hu : f.UniqueKeys) {n : Node} (hn : n ∈ f.nodes) (hg : n.isGradient = true) (T : Transform) :
    Turn f (put f n (moveGradient n T)) (fun x => if x.key = n.key then moveGradient n T else x) := by
  refine ⟨rfl, fun x hx => ?_⟩
  by_cases e : x.key = n.key
  · have := Forest.eq_of_key hu hx hn e
    subst this
    exact .inr ⟨hg, T, if_pos rfl⟩
  · exact .inl (if_neg e)

section turn
variable {f g : Forest} {w : Node → Node} (ht : Turn f g w)
include ht

theorem Turn.same {x : Node} (hx : x ∈ f.nodes) : SameBut geoAttrs x (w x) := by
  rcases ht.cases x hx with e | ⟨_, T, e⟩ <;> rw [e]
  · exact SameBut.refl _ _
  · exact ApplyTs.moveGradient_same x T

theorem Turn.grad {x : Node} (hx : x ∈ f.nodes) : (w x).isGradient = x.isGradient := isGradient_congr (ht.same hx).kind

theorem Turn.other {x : Node} (hx : x ∈ f.nodes) (hg : x.isGradient = false) : w x = x := by
  rcases ht.cases x hx with e | ⟨h, _⟩
  · exact e
  · rw [hg] at h; cases h

theorem Turn.old {x : Node} (hx : x ∈ f.nodes) {y : Attr} (hy : y ∈ (w x).attrs) (h : y.value.target ≠ none) : y ∈ x.attrs := by
  rcases ht.cases x hx with e | ⟨_, T, e⟩ <;> rw [e] at hy
  · exact hy
  · exact moved_from hy h

theorem Turn.lk {x : Node} (hx : x ∈ f.nodes) {k : Nat} (hk : k ∈ (w x).links) : k ∈ x.links := by
  obtain ⟨y, hy, e⟩ := Node.mem_links.1 hk
  exact Node.mem_links.2 ⟨y, ht.old hx hy (by rw [e]; simp), e⟩

theorem Turn.mem {y : Node} (hy : y ∈ g.nodes) : ∃ x ∈ f.nodes, w x = y := by
  rw [ht.eq, Forest.nodes_map] at hy
  exact List.mem_map.1 hy

theorem Turn.keys : g.keys = f.keys := by
  unfold Forest.keys
  rw [ht.eq, Forest.nodes_map, List.map_map]
  exact List.map_congr_left fun x hx => (ht.same hx).key

theorem Turn.unique (h : f.UniqueKeys) : g.UniqueKeys := by
  unfold Forest.UniqueKeys
  rw [ht.keys]
  exact h

theorem Turn.sub {y : Node × Forest} (hy : y ∈ subs g) : ∃ x ∈ subs f, y = (w x.1, x.2.map w) := by
  rw [ht.eq, Stops.subs_map] at hy
  obtain ⟨x, hx, rfl⟩ := List.mem_map.1 hy
  exact ⟨x, hx, rfl⟩

theorem Turn.used {k : Nat} (hk : f.isUsed k = false) : g.isUsed k = false := by
  rw [Bool.eq_false_iff] at hk ⊢
  intro hc
  obtain ⟨y, hy, hl⟩ := Forest.isUsed_iff.1 hc
  obtain ⟨x, hx, rfl⟩ := ht.mem hy
  exact hk (Forest.isUsed_iff.2 ⟨x, hx, ht.lk hx hl⟩)

theorem Turn.href {x : Node} (hx : x ∈ f.nodes) : written (w x) .xlinkHref = written x .xlinkHref := ApplyTs.written_same (ht.same hx) (by decide)

theorem Turn.links (h : f.LinksOk) : g.LinksOk := by
  intro y hy k hk
  obtain ⟨x, hx, rfl⟩ := ht.mem hy
  rw [ht.keys]
  exact h x hx k (ht.lk hx hk)

theorem Turn.flat (h : ∀ x ∈ subs f, x.1.isGradient = true → (∀ d ∈ x.2.top, d.kind = .elem .stop) ∧ ∀ d ∈ x.2.nodes, d.isGradient = false ∧ f.isUsed d.key = false) :
    ∀ x ∈ subs g, x.1.isGradient = true → (∀ d ∈ x.2.top, d.kind = .elem .stop) ∧ ∀ d ∈ x.2.nodes, d.isGradient = false ∧ g.isUsed d.key = false := by
  intro y hy hg
  obtain ⟨x, hx, rfl⟩ := ht.sub hy
  have hxn := UnusedDefs.node_of_subs hx
  obtain ⟨h1, h2⟩ := h x hx (by rw [← ht.grad hxn]; exact hg)
  constructor
  · intro d hd
    rw [Stops.top_map] at hd
    obtain ⟨t, htt, rfl⟩ := List.mem_map.1 hd
    rw [(ht.same ((Stops.subs_kids_sub hx).1.mem (Invisible.top_nodes htt))).kind]
    exact h1 t htt
  · intro d hd
    rw [Forest.nodes_map] at hd
    obtain ⟨t, htt, rfl⟩ := List.mem_map.1 hd
    have htn : t ∈ f.nodes := (Stops.subs_kids_sub hx).1.mem htt
    rw [(ht.same htn).key, ht.grad htn]
    exact ⟨(h2 t htt).1, ht.used (h2 t htt).2⟩

theorem Turn.plain (h : ∀ n ∈ f.nodes, n.kind = .elem .stop → n.get .stopColor ≠ some (.kw .currentColor)) :
    ∀ n ∈ g.nodes, n.kind = .elem .stop → n.get .stopColor ≠ some (.kw .currentColor) := by
  intro y hy hk
  obtain ⟨x, hx, rfl⟩ := ht.mem hy
  rw [(ht.same hx).kind] at hk
  rw [ht.other hx (by simp [Node.isGradient, Node.isTag, hk])]
  exact h x hx hk

/-- The conditions for regrouping stops. -/
theorem Turn.regroup (hf : Regroup.Good f) (ha : ApplyTs.Good g) : Regroup.Good g := by
  refine ⟨ha.uniq, ht.links hf.links, ha.href, fun n hn hg => (ha.ok n hn hg).1.href, ?_, ht.flat hf.flat, ht.plain hf.plain⟩
  intro y hy hg k hk
  obtain ⟨x, hx, rfl⟩ := ht.mem hy
  rw [ht.href hx]
  exact hf.only x hx (by rw [← ht.grad hx]; exact hg) k (ht.lk hx hk)

/-- The conditions for removing duplicates. -/
theorem Turn.dupl (hf : Dupl.Good f) (ha : ApplyTs.Good g) (hn : UniqueAttrs g)
    (hm : ∀ n ∈ g.nodes, n.isGradient = true → n.get .gradientTransform ≠ some (.transform one)) : Dupl.Good g := by
  refine ⟨ha.uniq, ht.links hf.links, ha.href, fun n hn hg => (ha.ok n hn hg).1.href, ?_, ?_, hn, ?_, ?_, ?_, ht.plain hf.plain, ?_, ?_, ?_, ?_, ?_⟩
  · intro y hy hg z hz hzt
    obtain ⟨x, hx, rfl⟩ := ht.mem hy
    exact hf.only x hx (by rw [← ht.grad hx]; exact hg) z (ht.old hx hz hzt) hzt
  · intro y hy z hz hzt
    obtain ⟨x, hx, rfl⟩ := ht.mem hy
    exact hf.form x hx z (ht.old hx hz hzt) hzt
  · intro y hy hg
    obtain ⟨x, hx, rfl⟩ := ht.mem hy
    rw [(ht.same hx).id]
    exact hf.named x hx (by rw [← ht.grad hx]; exact hg)
  · intro y hy hg z hz e
    obtain ⟨x, hx, rfl⟩ := ht.mem hy
    obtain ⟨t, htn, rfl⟩ := ht.mem hz
    rw [(ht.same hx).id, (ht.same htn).id] at e
    rw [hf.ids x hx (by rw [← ht.grad hx]; exact hg) t htn e]
  · intro y hy hg
    have := ht.flat (fun x hx h => ⟨(hf.flat x hx h).1, fun d hd => ⟨((hf.flat x hx h).2 d hd).1, ((hf.flat x hx h).2 d hd).2.1⟩⟩) y hy hg
    refine ⟨this.1, fun d hd => ⟨(this.2 d hd).1, (this.2 d hd).2, ?_⟩⟩
    obtain ⟨x, hx, rfl⟩ := ht.sub hy
    have hxn := UnusedDefs.node_of_subs hx
    rw [Forest.nodes_map] at hd
    obtain ⟨t, htt, rfl⟩ := List.mem_map.1 hd
    have htn : t ∈ f.nodes := (Stops.subs_kids_sub hx).1.mem htt
    have h2 := (hf.flat x hx (by rw [← ht.grad hxn]; exact hg)).2 t htt
    rw [ht.other htn h2.1]
    exact h2.2.2
  · intro y hy hg
    obtain ⟨x, hx, rfl⟩ := ht.sub hy
    have hxn := UnusedDefs.node_of_subs hx
    dsimp only at hg ⊢
    rw [ht.href hxn, Stops.top_map, List.map_eq_nil_iff]
    exact hf.either x hx (by rw [← ht.grad hxn]; exact hg)
  · intro y hy hg a ha' hw
    obtain ⟨x, hx, rfl⟩ := ht.mem hy
    rw [(ht.same hx).kind]
    rcases ht.cases x hx with e | ⟨hxg, T, e⟩
    · rw [e] at hg hw
      exact hf.own x hx hg a ha' hw
    · rw [e] at hw
      rcases moved_own hxg hw with h | h
      · exact hf.own x hx hxg a ha' h
      · exact h
  · intro y hy hg hh a c hc hw
    obtain ⟨x, hx, rfl⟩ := ht.mem hy
    rcases ht.cases x hx with e | ⟨hxg, T, e⟩
    · rw [e] at hg hh hw ⊢
      exact hf.focal x hx hg hh a c hc hw
    · rw [e] at hw ⊢
      rcases (isGradient_iff x).1 hxg with hk | hk
      · exfalso
        have h1 : c ∈ gradientAttrs x.kind := by
          rcases moved_own hxg hw with h | h
          · refine hf.own x hx hxg c ?_ h
            unfold centreOf at hc
            split at hc <;> cases hc <;> decide
          · exact h
        rw [hk] at h1
        unfold centreOf at hc
        split at hc <;> cases hc <;> revert h1 <;> decide
      · obtain ⟨_, _, h1, h2, _⟩ := ApplyTs.moveRadial_coords x T hk
        unfold centreOf at hc
        split at hc <;> cases hc
        · rw [h1.written]; simp
        · rw [h2.written]; simp
  · exact fun n hn hg a ha' _ v hv => (ha.resolved n hn hg a ha' v).2 hv
  · intro y hy hg u hu
    have ha' : AId.gradientTransform ∈ gradientAttrs y.kind := by
      rcases Merge.isGradient_kind.1 hg with e | e <;> rw [e] <;> decide
    have hiff := ha.resolved y hy hg _ ha'
    cases u with
    | some v => rw [(hiff v).2 (.inl (.inl hu))]
    | none =>
      cases hg' : y.get .gradientTransform with
      | none => rfl
      | some v =>
        rcases (hiff v).1 hg' with (h1 | ⟨_, h1⟩) | ⟨_, c, h1, _⟩
        · cases hu.unique h1
        · unfold gradientDefault at h1; split at h1 <;> simp_all
        · cases h1

theorem Turn.linear (hf : f.UniqueKeys) (h : NoLinearToRadial f) : NoLinearToRadial g := by
  intro y hy hk k hw m hm
  obtain ⟨x, hx, rfl⟩ := ht.mem hy
  obtain ⟨hmn, rfl⟩ := Forest.find_some hm
  obtain ⟨t, htn, rfl⟩ := ht.mem hmn
  rw [(ht.same hx).kind] at hk
  rw [ht.href hx, (ht.same htn).key] at hw
  rw [(ht.same htn).kind]
  exact h x hx hk _ hw t (Forest.find_of_mem hf htn)

theorem Turn.moves (h : ∀ n ∈ f.nodes, n.isGradient = true → n.get .gradientTransform ≠ some (.transform one)) :
    ∀ n ∈ g.nodes, n.isGradient = true → n.get .gradientTransform ≠ some (.transform one) := by
  intro y hy hg
  obtain ⟨x, hx, rfl⟩ := ht.mem hy
  rcases ht.cases x hx with e | ⟨hxg, T, e⟩
  · rw [e] at hg ⊢
    exact h x hx hg
  · rw [e, moved_transform]
    simp

theorem Turn.radius (h : ∀ n ∈ f.nodes, n.isGradient = true → RadiusShown n) : ∀ n ∈ g.nodes, n.isGradient = true → RadiusShown n := by
  intro y hy hg
  obtain ⟨x, hx, rfl⟩ := ht.mem hy
  rcases ht.cases x hx with e | ⟨hxg, T, e⟩
  · rw [e] at hg ⊢
    exact h x hx hg
  · rw [e]
    intro _ t h1
    rw [moved_transform] at h1
    cases h1

end turn

/-! ### What is needed to apply transforms -/

theorem value_total {f : Forest} (hu : f.UniqueKeys) (hr : HrefOk f) {n : Node} (hn : n ∈ f.nodes) (hg : n.isGradient = true) {a : AId} (ha : a ∈ gradientAttrs n.kind)
    (e : a ≠ .gradientTransform) : ∃ v, GradientValue f n a v := by
  have pl : ∀ w, gradientDefault n.kind a = some w → ∃ v, GradientValue f n a v := by
    intro w hb
    obtain ⟨v, hv⟩ := ApplyTs.effective_total hu hr a hn hg
    cases v with
    | some v => exact ⟨v, .inl (.inl hv)⟩
    | none => exact ⟨w, .inl (.inr ⟨hv, hb⟩)⟩
  by_cases hc : a ∈ gcoords n.kind
  · exact ApplyTs.coord_total hu hr hn hg hc
  · rcases (isGradient_iff n).1 hg with hk | hk <;> rw [hk] at ha hc pl <;> simp only [gradientAttrs, gcoords, List.mem_cons, List.not_mem_nil, or_false] at ha hc
    · rcases ha with rfl | rfl | rfl | rfl | rfl | rfl | rfl
      · exact pl _ rfl
      · exact pl _ rfl
      all_goals first | exact absurd rfl e | simp at hc
    · rcases ha with rfl | rfl | rfl | rfl | rfl | rfl | rfl | rfl
      · exact pl _ rfl
      · exact pl _ rfl
      all_goals first | exact absurd rfl e | simp at hc

/-- The values are of the right types. -/
theorem apt_of {f : Forest} (hp : Page f) (hr : ResolvedDoc f) (hs : ∀ n ∈ f.nodes, n.isGradient = true → written n .xlinkHref = n.get .xlinkHref)
    (hrad : ∀ n ∈ f.nodes, n.isGradient = true → RadiusShown n) : ApplyTs.Good f := by
  refine ⟨hp.unique, hp.href, hr, fun n hn hg => ⟨⟨hs n hn hg, ?_, ?_⟩, hrad n hn hg⟩⟩
  · intro a ha v hv
    have hag : a ∈ gradientAttrs n.kind := by
      clear hv
      rcases (isGradient_iff n).1 hg with hk | hk <;> rw [hk] at ha ⊢ <;> revert a <;> decide
    have hc : ∀ c ∈ coordAttrs, ∀ v, PlainValue f n c v → ∃ l, v = .length l := by
      rintro c hc v (h | ⟨_, h⟩)
      · obtain ⟨rank, hrank⟩ := hp.href
        obtain ⟨m, hm, hmg, hw⟩ := effective_mem hp.unique hrank hn hg h rfl
        exact (hp.decent hm hmg).coords c hc v hw
      · unfold gradientDefault at h
        split at h <;> cases h <;> first | exact ⟨_, rfl⟩ | exact absurd hc (by decide)
    rcases (hr n hn hg a hag v).1 hv with h | ⟨_, c, h1, _, h⟩
    · refine hc a ?_ v h
      rcases (isGradient_iff n).1 hg with hk | hk <;> rw [hk] at ha <;> revert ha <;> clear h hv hag <;> revert a <;> decide
    · refine hc c ?_ v h
      unfold centreOf at h1
      split at h1 <;> cases h1 <;> decide
  · intro v hv
    have hag : AId.gradientTransform ∈ gradientAttrs n.kind := by
      rcases (isGradient_iff n).1 hg with hk | hk <;> rw [hk] <;> decide
    rcases (hr n hn hg _ hag v).1 hv with (h | ⟨_, h⟩) | ⟨_, c, h1, _⟩
    · obtain ⟨rank, hrank⟩ := hp.href
      obtain ⟨m, hm, hmg, hw⟩ := effective_mem hp.unique hrank hn hg h rfl
      exact (hp.decent hm hmg).moved v hw
    · unfold gradientDefault at h; split at h <;> simp_all
    · cases h1

/-- What the passes before merging keep; `b` is whether transforms are applied. -/
structure Steady (b : Bool) (f : Forest) : Prop where
  page : Page f
  good : Dupl.Good f
  linear : NoLinearToRadial f
  moves : ∀ n ∈ f.nodes, n.isGradient = true → n.get .gradientTransform ≠ some (.transform one)
  radius : b = true → ∀ n ∈ f.nodes, n.isGradient = true → RadiusShown n

theorem Steady.resolved {b : Bool} {f : Forest} (hf : Steady b f) : ResolvedDoc f := by
  intro n hn hg a ha v
  by_cases e : a = .gradientTransform
  · subst e
    obtain ⟨w, hw⟩ := ApplyTs.effective_total hf.good.unique hf.good.href .gradientTransform hn hg
    constructor
    · intro hv
      have h1 := hf.good.transform n hn hg w hw
      rw [hv] at h1
      cases w with
      | some u =>
        have : v = u := h1
        exact .inl (.inl (this ▸ hw))
      | none =>
        have : v = .transform one := h1
        exact absurd (this ▸ hv) (hf.moves n hn hg)
    · rintro ((h | ⟨_, h⟩) | ⟨_, c, h, _⟩)
      · exact (merge_good hf.good hf.linear hf.moves hf.page).resolved n hn hg _ ha v h
      · unfold gradientDefault at h; split at h <;> simp_all
      · cases h
  · obtain ⟨u, hu⟩ := value_total hf.good.unique hf.good.href hn hg ha e
    have := hf.good.resolved n hn hg a ha e u hu
    constructor
    · intro hv
      rw [this] at hv
      cases hv
      exact hu
    · exact hf.good.resolved n hn hg a ha e v

theorem Steady.apt {f : Forest} (hf : Steady true f) : ApplyTs.Good f := apt_of hf.page hf.resolved hf.good.shown (hf.radius rfl)

theorem Steady.body {f g : Forest} {k : Nat} (hf : Steady true f) (h : gradientBody k f = some g) : Steady true g ∧ SameShade (onPaper f) (onPaper g) := by
  obtain ⟨p, s⟩ := body_shade hf.page hf.apt h
  have ha := (ApplyTs.gradientBody_spec hf.apt h).1
  refine ⟨?_, s⟩
  rcases body_shape hf.page.unique h with rfl | ⟨n, hn, hng, T, rfl⟩
  · exact hf
  have ht := put_turn hf.page.unique hn hng T
  have hm := ht.moves hf.moves
  exact ⟨p, ht.dupl hf.good ha p.attrs hm, ht.linear hf.page.unique hf.linear, hm, fun _ => ht.radius (hf.radius rfl)⟩

theorem Steady.apply {f : Forest} (hf : Steady true f) : ∃ g, applyToGradients f = some g ∧ Steady true g ∧ SameShade (onPaper f) (onPaper g) := by
  obtain ⟨g, h⟩ := ApplyTs.C30_no_crash hf.apt
  refine ⟨g, h, ?_⟩
  unfold applyToGradients at h
  generalize f.keys = ks at h
  induction ks generalizing f with
  | nil => cases h; exact ⟨hf, SameShade.refl _⟩
  | cons k t ih =>
    simp only [Gradients.forEach, Option.bind_eq_some_iff] at h
    obtain ⟨f1, h1, h2⟩ := h
    obtain ⟨p1, s1⟩ := hf.body h1
    obtain ⟨p2, s2⟩ := ih p1 h2
    exact ⟨p2, s1.trans s2⟩

/-- What the passes from merging on keep. -/
structure Late (b : Bool) (f : Forest) : Prop where
  page : Page f
  good : Regroup.Good f
  apt : b = true → ApplyTs.Good f

theorem Late.apply {f : Forest} (hf : Late true f) : ∃ g, applyToGradients f = some g ∧ Late true g ∧ SameShade (onPaper f) (onPaper g) := by
  obtain ⟨g, h⟩ := ApplyTs.C30_no_crash (hf.apt rfl)
  refine ⟨g, h, ?_⟩
  unfold applyToGradients at h
  generalize f.keys = ks at h
  induction ks generalizing f with
  | nil => cases h; exact ⟨hf, SameShade.refl _⟩
  | cons k t ih =>
    simp only [Gradients.forEach, Option.bind_eq_some_iff] at h
    obtain ⟨f1, h1, h2⟩ := h
    obtain ⟨p1, s1⟩ := body_shade hf.page (hf.apt rfl) h1
    have ha := (ApplyTs.gradientBody_spec (hf.apt rfl) h1).1
    have hl : Late true f1 := by
      refine ⟨p1, ?_, fun _ => ha⟩
      rcases body_shape hf.page.unique h1 with rfl | ⟨n, hn, hng, T, rfl⟩
      · exact hf.good
      · exact (put_turn hf.page.unique hn hng T).regroup hf.good ha
    obtain ⟨p2, s2⟩ := ih hl h2
    exact ⟨p2, s1.trans s2⟩

/-! ### From one pass to the next -/

/-- Radii are written where there are transforms that scale. -/
def RadiiWritten (f : Forest) : Prop := ∀ n ∈ f.nodes, n.kind = .elem .radialGradient → ∀ T, Effective f .gradientTransform n (some (.transform T)) → T.a ≠ 1 →
  written n .r ≠ none

theorem resolved_radius {f r : Forest} (hf : Fresh f) (h : Shade.resolved f = some r) (hr : RadiiWritten f) : ∀ n ∈ r.nodes, n.isGradient = true → RadiusShown n := by
  obtain ⟨w, hw, hn⟩ := Gradients.C26_resolved_partial hf.unique hf.visible (href_of_paper hf.page.attrs hf.page.sheet.href) h
  intro y hy hg hk T hT ha
  rw [hw, Forest.nodes_map] at hy
  obtain ⟨x, hx, rfl⟩ := List.mem_map.1 hy
  obtain ⟨_, h2, _, _, _, h6, h7⟩ := hn x hx
  rw [h2] at hk
  have hag : AId.gradientTransform ∈ gradientAttrs x.kind := by rw [hk]; decide
  have he : Effective f .gradientTransform x (some (.transform T)) := by
    rcases (h7 _ hag (.inr hf.linear) _).1 hT with (h | ⟨_, h⟩) | ⟨_, c, h, _⟩
    · exact h
    · unfold gradientDefault at h; split at h <;> simp_all
    · cases h
  have h8 := hr x hx hk T he ha
  rw [← h6] at h8
  obtain ⟨v, hv⟩ := Option.ne_none_iff_exists'.1 h8
  rw [hv, Merge.written_some hv]

theorem fresh_steady {b : Bool} {f r : Forest} (hf : Fresh f) (hr : b = true → RadiiWritten f) (h : Shade.resolved f = some r) : Steady b r ∧ onPaper r = onPaper f := by
  obtain ⟨p, g, e, l, m⟩ := resolved_fresh hf h
  exact ⟨⟨p, g, l, m, fun hb => resolved_radius hf h (hr hb)⟩, e⟩

theorem Steady.fuse {b : Bool} {e : EId} (he : e = .linearGradient ∨ e = .radialGradient) {as : List AId} (has : ∀ a, a ∈ as ↔ a ∈ gradientAttrs (.elem e) ∧ a ≠ .gradientTransform)
    {f : Forest} (hf : Steady b f) :
    ∃ g, Dupl.rmLoop (Dupl.cmpGradients as) (Gradients.ofKind f e) f = some g ∧ Steady b g ∧ SameShade (onPaper f) (onPaper g) := by
  obtain ⟨g, h, ⟨hg, ρ, hd⟩, p, s⟩ := fuse_all he has hf.page hf.good
  refine ⟨g, h, ⟨p, hg, Deduped.linear hf.good hd hf.linear, Deduped.moves hd hf.moves, fun hb y hy hyg hk T hT ha => ?_⟩, s⟩
  obtain ⟨x, hx, rfl⟩ := hd.back y hy
  rw [get_rename] at hT
  obtain ⟨v, hv, e⟩ := Option.map_eq_some_iff.1 hT
  have hv' : x.get .gradientTransform = some (.transform T) := by
    rw [hv]
    cases v <;> first | exact congrArg some e | cases e
  rw [written_rename, get_rename, hf.radius hb x hx hyg hk T hv' ha]

theorem Steady.late {b : Bool} {f : Forest} (hf : Steady b f) : Late b f := by
  refine ⟨hf.page, ?_, fun hb => by subst hb; exact hf.apt⟩
  exact regroup_good (merge_good hf.good hf.linear hf.moves hf.page) hf.page.attrs hf.good.only

theorem Steady.merge_origin {b : Bool} {f g : Forest} (hf : Steady b f) (hc : Merge.mergeGradients f = some g) :
    ∀ y ∈ g.nodes, y.isGradient = true → ∃ x ∈ f.nodes, x.isGradient = true ∧ x.kind = y.kind ∧ PaintSame f x g y ∧
      ∀ a, a ≠ .xlinkHref → y.get a = x.get a ∧ ∀ v, written x a = some v → written y a = some v := by
  obtain ⟨hm, hi⟩ := Made.loop (merge_good hf.good hf.linear hf.moves hf.page).inv hf.page.made hc
  intro y hy hyg
  obtain ⟨x, hx, e1, e2, e3⟩ := hm.back y hy hyg
  obtain ⟨z, hz, e4, _, e5, _⟩ := hi.back y hy hyg (by simp)
  have := Forest.eq_of_key hf.page.unique hx hz (e1.trans e4.symm)
  subst this
  exact ⟨x, hx, (isGradient_congr e2).trans hyg, e2, e5, e3⟩

theorem Steady.merge_resolved {b : Bool} {f g : Forest} (hf : Steady b f) (hc : Merge.mergeGradients f = some g) : ResolvedDoc g := by
  obtain ⟨hm, hi⟩ := Made.loop (merge_good hf.good hf.linear hf.moves hf.page).inv hf.page.made hc
  intro y hy hyg a ha v
  obtain ⟨x, hx, hxg, hk, hp, hv⟩ := hf.merge_origin hc y hy hyg
  have hax : a ∈ gradientAttrs x.kind := by rw [hk]; exact ha
  rw [(hv a (own_gradient ha).2).1]
  by_cases e : a = .gradientTransform
  · subst e
    constructor
    · intro h
      have h1 := (hf.resolved x hx hxg _ hax v).1 h
      obtain ⟨rank, hrank⟩ := hf.page.href
      have h2 : Effective f .gradientTransform x (some v) := by
        rcases h1 with (h1 | ⟨_, h1⟩) | ⟨_, c, h1, _⟩
        · exact h1
        · unfold gradientDefault at h1; split at h1 <;> simp_all
        · cases h1
      obtain ⟨m, hmm, hmg, hw⟩ := effective_mem hf.page.unique hrank hx hxg h2 rfl
      obtain ⟨T, rfl⟩ := (hf.page.decent hmm hmg).moved v hw
      rcases (hp.transform T).1 (.inl h2) with h3 | ⟨_, h3⟩
      · exact .inl (.inl h3)
      · exact absurd (h3 ▸ h) (hf.moves x hx hxg)
    · intro h
      rw [← (hv _ (by decide)).1]
      rcases h with (h | ⟨_, h⟩) | ⟨_, c, h, _⟩
      · exact hi.good.resolved y hy hyg _ ha v h
      · unfold gradientDefault at h; split at h <;> simp_all
      · cases h
  · rw [hf.resolved x hx hxg a hax v]
    exact hp.values a hax e v

theorem Steady.merge {b : Bool} {f : Forest} (hf : Steady b f) : ∃ g, Merge.mergeGradients f = some g ∧ Late b g ∧ SameShade (onPaper f) (onPaper g) := by
  have mg := merge_good hf.good hf.linear hf.moves hf.page
  obtain ⟨g, hc, _⟩ := Merge.C33_merged_partial mg
  obtain ⟨p, s⟩ := C72_merged_partial hf.page mg hc
  obtain ⟨hm, hi⟩ := Made.loop mg.inv hf.page.made hc
  refine ⟨g, hc, ⟨p, regroup_good hi.good hm.attrs (hm.only hf.good.only), fun hb => ?_⟩, s⟩
  refine apt_of p (hf.merge_resolved hc) hi.good.shown ?_
  · intro y hy hyg hk T hT ha
    obtain ⟨x, hx, hxg, hk', hp, hv⟩ := hf.merge_origin hc y hy hyg
    rw [(hv _ (by decide)).1] at hT
    have h1 := hf.radius hb x hx hxg (hk'.trans hk) T hT ha
    obtain ⟨h2, h3⟩ := hv .r (by decide)
    cases hw : written x .r with
    | some v =>
      rw [h3 v hw, h2, ← h1, hw]
    | none =>
      rw [hw] at h1
      rw [h2, ← h1]
      refine Merge.written_none ?_
      rw [h2, ← h1]

/-! ### All passes -/

/-- A pass that depends on an option. -/
def opt (b : Bool) (t : Forest → Option Forest) (f : Forest) : Option Forest := if b then t f else some f

/-- The passes over gradients, `src/cleaner.rs:77-78`, `122-152` and `181-185`: attributes are resolved, transforms are applied, duplicates are
removed, gradients are merged, transforms are applied again, and stops are regrouped, as the options say.  Simplification: nothing else happens
in between (`remove_invalid_stops`, filters, groups, shapes and paths), and nothing afterwards. -/
def gradientPasses (o : Cli.CleaningOptions) (f : Forest) : Option Forest :=
  (Shade.resolved f).bind fun f => (opt o.applyTransformToGradients applyToGradients f).bind fun f =>
  (opt o.removeDuplLinearGradients Dupl.rmLinear f).bind fun f => (opt o.removeDuplRadialGradients Dupl.rmRadial f).bind fun f =>
  (opt o.mergeGradients Merge.mergeGradients f).bind fun f => (opt o.applyTransformToGradients applyToGradients f).bind fun f =>
  opt o.regroupGradientStops Regroup.regroup f

theorem opt_ok {S : Forest → Prop} {t : Forest → Option Forest} (b : Bool) {f : Forest} (hf : S f)
    (h : b = true → ∃ g, t f = some g ∧ S g ∧ SameShade (onPaper f) (onPaper g)) : ∃ g, opt b t f = some g ∧ S g ∧ SameShade (onPaper f) (onPaper g) := by
  cases b with
  | false => exact ⟨f, rfl, hf, SameShade.refl _⟩
  | true => exact h rfl

/-- **C73** The passes over gradients, one after another, with any choice of options, end and do not change what is drawn. -/
theorem C73_passes_partial (o : Cli.CleaningOptions) {f : Forest} (hf : Fresh f) (hr : o.applyTransformToGradients = true → RadiiWritten f) :
    ∃ g, gradientPasses o f = some g ∧ Page g ∧ SameShade f (onPaper g) := by
  obtain ⟨f0, h0⟩ := Gradients.C26_no_crash hf.unique hf.visible (href_of_paper hf.page.attrs hf.page.sheet.href) hf.only hf.page.attrs
  have h0 : Shade.resolved f = some f0 := h0
  obtain ⟨i0, e0⟩ := fresh_steady (b := o.applyTransformToGradients) hf hr h0
  obtain ⟨f1, h1, i1, s1⟩ := opt_ok (t := applyToGradients) o.applyTransformToGradients i0 fun hb => by
    rw [hb] at i0 ⊢
    exact i0.apply
  obtain ⟨f2, h2, i2, s2⟩ := opt_ok (t := Dupl.rmLinear) o.removeDuplLinearGradients i1 fun _ => i1.fuse (.inl rfl) Dupl.linear_attrs
  obtain ⟨f3, h3, i3, s3⟩ := opt_ok (t := Dupl.rmRadial) o.removeDuplRadialGradients i2 fun _ => i2.fuse (.inr rfl) Dupl.radial_attrs
  have h4 : ∃ g, opt o.mergeGradients Merge.mergeGradients f3 = some g ∧ Late o.applyTransformToGradients g ∧ SameShade (onPaper f3) (onPaper g) := by
    cases o.mergeGradients with
    | false => exact ⟨f3, rfl, i3.late, SameShade.refl _⟩
    | true => exact i3.merge
  obtain ⟨f4, h4, i4, s4⟩ := h4
  obtain ⟨f5, h5, i5, s5⟩ := opt_ok (t := applyToGradients) o.applyTransformToGradients i4 fun hb => by
    rw [hb] at i4 ⊢
    exact i4.apply
  obtain ⟨f6, h6, p6, s6⟩ := opt_ok (S := Page) (t := Regroup.regroup) o.regroupGradientStops i5.page fun _ => C72_regrouped_partial i5.page i5.good
  have e : onPaper f = f := by
    rw [onPaper_map]
    refine Forest.map_id' fun n hn => ?_
    unfold paper
    rw [List.filter_eq_self.2 (hf.visible n hn)]
  refine ⟨f6, ?_, p6, ?_⟩
  · unfold gradientPasses
    rw [h0, Option.bind_some, h1, Option.bind_some, h2, Option.bind_some, h3, Option.bind_some, h4, Option.bind_some, h5, Option.bind_some]
    exact h6
  · rw [e0, e] at s1
    exact ((s1.trans s2).trans (s3.trans s4)).trans (s5.trans s6)

end Verif.Shade
