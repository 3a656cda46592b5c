import Verif.WholePaths
import Verif.IdemProps
/-
C71: the steps that change gradients, and those that remove attributes.
-/
namespace Verif.Whole
open Verif.Dom Verif.Spec Verif.Render Verif.Draft
open Verif.Cli (CleaningOptions)
open Verif.Paths hiding Kind size
open Verif.Reader (fontRelative isTextual SameRead Heeds)
open Verif.Plot (markerAttrs)
open Verif.Pipeline (Along)
open Verif.Ungroup (groupAttr)

/-! ### Steps that find nothing to do -/

theorem filter_none {f : Forest} {p : Node → Bool} (h : ∀ n ∈ f.nodes, p n = false) : f.nodes.filter p = [] :=
  List.filter_eq_nil_iff.2 fun n hn => by rw [h n hn]; decide

theorem subs_none {f : Forest} {p : Node × Forest → Bool} (h : ∀ x ∈ subs f, p x = false) : (subs f).filter p = [] :=
  List.filter_eq_nil_iff.2 fun n hn => by rw [h n hn]; decide

def NoGradients (f : Forest) : Prop := ∀ n ∈ f.nodes, n.isGradient = false

theorem NoGradients.stops {f : Forest} (h : NoGradients f) : Stops.removeInvalidStops f = f := by
  have e : ∀ g : Forest, (∀ n ∈ g.nodes, n.isGradient = false) → Stops.invalidStops g = [] := by
    intro g
    induction g with
    | nil => intro _; rfl
    | cons n k r ih1 ih2 =>
      intro hg
      unfold Stops.invalidStops
      rw [hg n (by simp), ih1 fun m hm => hg m (by simp [hm]), ih2 fun m hm => hg m (by simp [hm])]
      rfl
  unfold Stops.removeInvalidStops
  rw [e f h]
  exact Idem.remove_none fun _ _ => by simp

theorem NoGradients.transforms {f g : Forest} (h : NoGradients f) (hg : ApplyTs.applyToGradients f = some g) : g = f := by
  unfold ApplyTs.applyToGradients at hg
  generalize f.keys = l at hg
  induction l with
  | nil => cases hg; rfl
  | cons k t ih =>
    have e : ApplyTs.gradientBody k f = some f := by
      unfold ApplyTs.gradientBody
      split
      · rfl
      next n hn => rw [h n (Forest.find_some hn).1]; rfl
    unfold Gradients.forEach at hg
    rw [e] at hg
    exact ih hg

theorem isTag_none {f : Forest} (h : NoGradients f) {e : EId} (he : e = .linearGradient ∨ e = .radialGradient) : Gradients.ofKind f e = [] := by
  unfold Gradients.ofKind
  rw [filter_none]
  · rfl
  · intro n hn
    have := h n hn
    unfold Node.isGradient at this
    rw [Bool.or_eq_false_iff] at this
    rcases he with rfl | rfl
    · exact this.1
    · exact this.2

theorem NoGradients.linear {f g : Forest} (h : NoGradients f) (hg : Dupl.rmLinear f = some g) : g = f := by
  unfold Dupl.rmLinear at hg
  rw [isTag_none h (.inl rfl)] at hg
  cases hg; rfl

theorem NoGradients.radial {f g : Forest} (h : NoGradients f) (hg : Dupl.rmRadial f = some g) : g = f := by
  unfold Dupl.rmRadial at hg
  rw [isTag_none h (.inr rfl)] at hg
  cases hg; rfl

theorem NoGradients.merge {f g : Forest} (h : NoGradients f) (hg : Merge.mergeGradients f = some g) : g = f := by
  unfold Merge.mergeGradients Merge.mergeLoop Merge.mergeRound at hg
  rw [filter_none h] at hg
  cases hg; rfl

theorem NoGradients.regroup {f g : Forest} (h : NoGradients f) (hg : Regroup.regroup f = some g) : g = f := by
  unfold Regroup.regroup at hg
  have e : Regroup.candidates f = [] := by
    unfold Regroup.candidates
    rw [subs_none]
    · rfl
    · intro x hx
      rw [h x.1 (GroupStyle.mem_nodes_of_subs hx)]; rfl
  rw [e] at hg
  cases hg; rfl

theorem NoGradients.attributes {f g : Forest} (h : NoGradients f) (hg : GradUnits.removeGradientAttributes f = some g) : g = f := by
  unfold GradUnits.removeGradientAttributes at hg
  have e1 : GradUnits.startOrder f = [] := by
    unfold GradUnits.startOrder
    rw [filter_none]
    · rfl
    · intro n hn; rw [h n hn]; rfl
  have e2 : GradUnits.rmEqual f = some f := by
    unfold GradUnits.rmEqual GradUnits.equalLoop
    rw [e1, if_pos rfl]
  have e3 : GradUnits.parents f = [] := by
    unfold GradUnits.parents
    rw [filter_none]
    · rfl
    · intro n hn; rw [h n hn]; rfl
  rw [e2] at hg
  change GradUnits.groupToParent f = some g at hg
  unfold GradUnits.groupToParent at hg
  rw [e3] at hg
  cases hg; rfl

section
variable {ini : AId → Option Value} {o : CleaningOptions} {b : Stage}

theorem Apt.gradients {f : Forest} (h : Apt ini b o f) : GradientsOff o ∨ NoGradients f := by
  by_cases hn : NoGradients f
  · exact .inr hn
  · left
    unfold NoGradients at hn
    push Not at hn
    obtain ⟨n, hn, hg⟩ := hn
    let : Flavour := apt ini b o
    obtain ⟨p, ks, _, hx⟩ := Sketch.node h hn
    have hk : KindApt o n.kind := hx.extra
    rcases isGradient_iff.1 (by simpa using hg) with e | e
    · rw [e] at hk; exact hk.2 (.inl rfl)
    · rw [e] at hk; exact hk.2 (.inr rfl)

theorem Apt.kind {f : Forest} (h : Apt ini b o f) {n : Node} (hn : n ∈ f.nodes) : KindApt o n.kind := by
  let : Flavour := apt ini b o
  obtain ⟨p, ks, _, hx⟩ := Sketch.node h hn
  exact hx.extra

theorem Apt.blurs {f g : Forest} (h : Apt ini b o f) (hg : Dupl.rmBlurs f = some g) : g = f := by
  unfold Dupl.rmBlurs at hg
  have e : Dupl.blurs f = [] := by
    unfold Dupl.blurs
    rw [subs_none]
    · rfl
    · intro x hx
      cases ht : x.1.isTag .filter with
      | false => rfl
      | true =>
        exfalso
        have hk := (Node.isTag_iff _ _).1 ht
        obtain ⟨p, ks, _, hx⟩ := h.sketch.node (GroupStyle.mem_nodes_of_subs hx)
        have := hx.place
        rw [hk] at this
        revert this
        cases p with
        | elem e => cases e <;> decide
        | _ => intro h; cases h
  rw [e] at hg
  cases hg; rfl

end

/-! ### Hidden attributes -/

/-- In memory the two elements say the same. -/
def SameVal (n m : Node) : Prop := m.key = n.key ∧ m.kind = n.kind ∧ ∀ x, Reader.val m x = Reader.val n x

theorem SameVal.get {n m : Node} (h : SameVal n m) (a : AId) : m.get a = n.get a := h.2.2 (.id a)

theorem leaves_same {ini : AId → Option Value} {f g : Forest} (h : Along SameVal f g) (hf : ∀ n ∈ f.nodes, n.kind ≠ .elem .use ∧ ∀ t, n.kind ≠ .other t) (s : Plot.Inherited) :
    Reader.Leaves ini s s f g := by
  induction h generalizing s with
  | nil => exact .nil s s
  | @cons n m k k' r r' hn hk hr ih1 ih2 =>
    have hg := hn.get
    have hi := Reader.inh_congr (fun a _ => hg a) s
    have hkind := hf n (by simp)
    refine .cons (Reader.Trimmed.of_own hn.1 hn.2.1 (fun a _ => hg a) fun e _ x _ => .inl (hn.2.2 x)) ?_ ?_ (ih2 (fun x hx => hf x (by simp [hx])) s)
    · unfold Reader.Drawn
      split
      next => exact ⟨Reader.Ink.refl _ _ _, .inl rfl⟩
      next => trivial
      next t ht => exact hkind.2 t ht
      next e he =>
        rw [hi]
        exact ⟨fun e' => hkind.1 (by rw [he, e']), ⟨true, Reader.Ink.refl _ _ _, .inl rfl⟩, .inl rfl⟩
    · rw [hi]
      exact ih1 (fun x hx => hf x (by simp [hx])) _

theorem mem_hideAll {n : Node} {l : List AId} {y : Attr} (h : y ∈ (Simple.hideAll n l).attrs) :
    ∃ z ∈ n.attrs, y = z ∨ ∃ a ∈ l, z.name = .id a ∧ y = { z with visible := false } := by
  unfold Simple.hideAll at h
  induction l generalizing n with
  | nil => exact ⟨y, h, .inl rfl⟩
  | cons a t ih =>
    rw [List.foldl_cons] at h
    obtain ⟨z, hz, hy⟩ := ih h
    unfold Node.hide hideAttr at hz
    obtain ⟨w, hw, rfl⟩ := List.mem_map.1 hz
    refine ⟨w, hw, ?_⟩
    by_cases e : w.name = .id a
    · rw [if_pos e] at hy
      right
      rcases hy with rfl | ⟨b, _, _, rfl⟩ <;> exact ⟨a, by simp, e, rfl⟩
    · rw [if_neg e] at hy
      rcases hy with rfl | ⟨b, hb, hn, rfl⟩
      · exact .inl rfl
      · exact .inr ⟨b, by simp [hb], hn, rfl⟩

theorem hideAll_val (n : Node) (l : List AId) : SameVal n (Simple.hideAll n l) := by
  refine ⟨Simple.hideAll_key n l, (DefaultAttrs.hideAll_kind n l).1, fun x => ?_⟩
  unfold Reader.val
  rw [DefaultAttrs.getAttr_hideAll, Option.map_map]
  congr 1
  funext y
  simp only [Function.comp]
  split <;> rfl

theorem hideAll_names (n : Node) (l : List AId) : (Simple.hideAll n l).attrs.map Attr.name = n.attrs.map Attr.name := by
  unfold Simple.hideAll
  induction l generalizing n with
  | nil => rfl
  | cons a t ih =>
    rw [List.foldl_cons, ih]
    unfold Node.hide hideAttr
    rw [List.map_map]
    congr 1
    funext y
    simp only [Function.comp]
    split <;> rfl

theorem along_body {R : Node → Node → Prop} {body : List Node → Node → Option Node} {f g : Forest} {anc : List Node}
    (hb : ∀ n ∈ f.nodes, ∀ anc m, body anc n = some m → R n m) (h : f.mapCtx body anc = some g) : Along R f g := by
  induction f generalizing g anc with
  | nil => simp [Forest.mapCtx] at h; rw [← h]; exact .nil
  | cons n k r ih1 ih2 =>
    simp only [Forest.mapCtx, Option.bind_eq_some_iff, Option.map_eq_some_iff] at h
    obtain ⟨m, hm, k', hk, r', hr, rfl⟩ := h
    exact .cons (hb n (by simp) anc m hm) (ih1 (fun x hx => hb x (by simp [hx])) hk) (ih2 (fun x hx => hb x (by simp [hx])) hr)

theorem along_mono {R S : Node → Node → Prop} (hrs : ∀ n m, R n m → S n m) {f g : Forest} (h : Along R f g) : Along S f g := by
  induction h with
  | nil => exact .nil
  | cons hn _ _ ih1 ih2 => exact .cons (hrs _ _ hn) ih1 ih2

theorem fits_kinds {p : Kind} {e : EId} (h : fits p (.elem e) = true) :
    DefaultAttrs.isPrimitive e = false ∧ (DefaultAttrs.isTextChunk e = true → e = .tspan) ∧ e ≠ .fontFace ∧ e ≠ .pattern ∧ e ≠ .filter ∧ e ≠ .clipPath ∧ e ≠ .use := by
  rcases fits_elem h with h | h <;> revert h <;> cases e <;> decide

section
variable {ini : AId → Option Value} {o : CleaningOptions} {b : Stage}

theorem Apt.fits {f : Forest} (h : Apt ini b o f) {n : Node} (hn : n ∈ f.nodes) : ∃ p, fits p n.kind = true := by
  obtain ⟨p, ks, _, hx⟩ := h.sketch.node hn
  exact ⟨p, hx.place⟩

theorem Apt.not_foreign {f : Forest} (h : Apt ini b o f) {n : Node} (hn : n ∈ f.nodes) : n.kind ≠ .elem .use ∧ ∀ t, n.kind ≠ .other t :=
  ⟨h.no_use hn, fun t e => by have := h.kind hn; rw [e] at this; exact this⟩

/-- An attribute that is hidden because it has the default value means nothing. -/
theorem default_nothing {root : Option Nat} {anc : List Node} {n : Node} {p : Kind} {e : EId} {a : AId} {y : Attr} (hp : fits p (.elem e) = true) (ha : y.name = .id a) (hy : AttrApt ini b o (.elem e) y)
    (h : DefaultAttrs.toHide ini root anc n e a y.value = some true) :
    (a.isPresentation = true ∧ ini a = some y.value) ∨ (a.isPresentation = false ∧ DefaultAttrs.meansNothing e a y.value = true ∧ DefaultAttrs.isTemplated e = false) := by
  unfold DefaultAttrs.toHide at h
  split at h
  next hpr =>
    split at h
    next hi => exact .inl ⟨hpr, hi⟩
    next =>
      split at h
      next ho => exact absurd (by rw [ha, ho]) hy.over
      next => cases h
  next hpr =>
    refine .inr ⟨by simpa using hpr, ?_, ?_⟩
    · obtain ⟨k1, k2, k3, _⟩ := fits_kinds hp
      refine DefaultAttrs.isDefault_sound (Option.some.inj h) (fun hc hx => ?_) (fun hf => absurd hf k3)
      rcases hc with hc | hc
      · rw [k1] at hc; cases hc
      · exact hy.spot.chunk (by rw [k2 hc]) (by rcases hx with rfl | rfl <;> simp [ha])
    · have h := Option.some.inj h
      obtain ⟨_, _, _, k4, k5, _⟩ := fits_kinds hp
      cases ht : DefaultAttrs.isTemplated e with
      | false => rfl
      | true =>
        exfalso
        unfold DefaultAttrs.isDefault at h
        cases e <;> first | (cases ht; done) | (cases h; done) | (exact k4 rfl) | (exact k5 rfl)

theorem hush_default {root : Option Nat} {anc : List Node} {n : Node} {p : Kind} {e : EId} {a : AId} {y : Attr} (hp : fits p (.elem e) = true) (ha : y.name = .id a) (hy : AttrApt ini b o (.elem e) y)
    (h : DefaultAttrs.toHide ini root anc n e a y.value = some true) : Hush ini (.elem e) y :=
  ⟨a, e, ha, rfl, (default_nothing hp ha hy h).imp id .inl⟩

theorem AttrFine.hide {G : Nat → Prop} {k : Kind} {y : Attr} (hy : @AttrFine (apt ini .late o) G k y) (hh : Hush ini k y) :
    @AttrFine (apt ini .late o) G k { y with visible := false } := by
  let : Flavour := apt ini .late o
  have hx : AttrApt ini .late o k y := attr_apt hy
  refine ⟨hy.paint, hy.cond, hy.inherit, hy.transform, hy.display, fun e => ?_, hy.defs, ?_⟩
  · have := hy.group e
    unfold groupAttr at this ⊢
    exact this
  · exact AttrApt.mk hx.current hx.width hx.paint hx.over ⟨hx.spot.chunk, hx.spot.root, hx.spot.radius⟩ hx.units (fun e => by cases e) (fun e => absurd rfl e) (fun _ => hh)

theorem hide_edit {G : Nat → Prop} {n : Node} {l : List AId} (hl : ∀ a ∈ l, ∀ y ∈ n.attrs, y.name = .id a → @AttrFine (apt ini .late o) G n.kind y → Hush ini n.kind y) :
    Edit (@AttrFine (apt ini .late o) G n.kind) n (Simple.hideAll n l) where
  key := (hideAll_val n l).1
  kind := (hideAll_val n l).2.1
  names h := by
    have := hideAll_names n l
    unfold Attr.name at this
    rw [show (Simple.hideAll n l).attrs.map (fun x => x.name) = n.attrs.map (fun x => x.name) from hideAll_names n l]
    exact h
  attrs hn y hy := by
    obtain ⟨z, hz, rfl | ⟨a, ha, e, rfl⟩⟩ := mem_hideAll hy
    · exact hn _ hz
    · exact AttrFine.hide (hn z hz) (hl a ha z hz e (hn z hz))
  keep _ a _ := (hideAll_val n l).get a

theorem Apt.defaults {f g : Forest} (hf : Apt ini .late o f) (h : DefaultAttrs.removeDefaults ini f = some g) : SameDrawing ini f g ∧ Apt ini .late o g := by
  unfold DefaultAttrs.removeDefaults at h
  have hb : Along (fun n m => n ∈ f.nodes ∧ ∃ l, m = Simple.hideAll n l ∧ ∀ a ∈ l, ∀ y ∈ n.attrs, y.name = .id a → @AttrFine (apt ini .late o) (Grad f) n.kind y → Hush ini n.kind y) f g := by
    refine along_body (fun n hn anc m hm => ⟨hn, ?_⟩) h
    unfold DefaultAttrs.body at hm
    split at hm
    next e hk =>
      obtain ⟨l, hl, rfl⟩ := Option.map_eq_some_iff.1 hm
      refine ⟨l, rfl, fun a ha y hy hya hy' => ?_⟩
      obtain ⟨x, hx, hxn, hxt⟩ := (DefaultAttrs.mem_rmList hl a).1 ha
      obtain ⟨p, hp⟩ := hf.fits hn
      obtain ⟨_, _, _, hfine⟩ := hf.sketch.node hn
      have : x = y := by
        have hnd := hfine.names
        exact List.inj_on_of_nodup_map hnd hx hy (hxn.trans hya.symm)
      subst this
      rw [hk] at hp hy' ⊢
      exact hush_default hp hya (attr_apt hy') hxt
    next => cases hm; exact ⟨[], rfl, fun a ha => by cases ha⟩
  refine ⟨.of_read (leaves_same (along_mono (fun n m hm => ?_) hb) (fun n hn => hf.not_foreign hn) _).picture, @Sketch.along (apt ini .late o) f g hf (along_mono (fun n m hm => ?_) hb)⟩
  · obtain ⟨_, l, rfl, _⟩ := hm
    exact hideAll_val n l
  · obtain ⟨_, l, rfl, hl⟩ := hm
    exact @Edit.alter _ _ (apt ini .late o) _ (hide_edit hl)

end

/-! ### Text attributes -/

section
variable {ini : AId → Option Value} {o : CleaningOptions} {b : Stage}

theorem stripped_along {f g : Forest} (h : Reader.Stripped f g) : Along Reader.Strip f g := by
  induction h with
  | nil => exact .nil
  | cons a _ _ ih1 ih2 => exact .cons a ih1 ih2

theorem Apt.text {f g : Forest} (ho : o.removeTextAttributes = true) (hf : Apt ini b o f) (h : TextAttrs.removeText f = some g) : SameDrawing ini f g ∧ Apt ini b o g := by
  refine ⟨.of_read (Reader.C70_text_partial (fun n hn => ⟨?_, fun y hy => (attr_apt (hf.attr hn hy)).units ho⟩) h),
    @Sketch.along (apt ini b o) f g hf (along_mono (fun n m hm => @Edit.alter _ _ (apt ini b o) _ ⟨hm.gone.same.1, hm.gone.same.2.1, hm.names, fun hn y hy => hn y (hm.sub y hy), fun _ a ha => ?_⟩)
      (stripped_along (Reader.stripped_text h)))⟩
  · have hk := hf.kind hn
    have hu := hf.no_use hn
    cases e : n.kind with
    | elem c =>
      rw [e] at hk hu
      exact .inr ⟨c, rfl, fun h => hu (by rw [h]), hk.1 ho⟩
    | other t => rw [e] at hk; exact hk.elim
    | text s => rw [e] at hk; rw [show o.removeTextAttributes = false from hk] at ho; cases ho
    | comment s => rw [e] at hk; rw [show o.removeTextAttributes = false from hk] at ho; cases ho
  · refine Reader.strip_get hm ?_
    have : ∀ a ∈ stopKeep, TextAttrs.concernsText a = false := by decide
    exact this a ha

end

/-! ### Needless attributes -/

section
variable {ini : AId → Option Value} {o : CleaningOptions} {b : Stage} {G : Nat → Prop} {n m : Node}

/-- `fill` and `stroke` may be set to `none`, except on `defs`. -/
theorem fine_none {k : Kind} {a : AId} (ha : a = .fill ∨ a = .stroke) (hk : k ≠ .elem .defs) : @AttrFine (apt ini b o) G k ⟨.id a, .kw .none, true⟩ := by
  refine @AttrFine.mk (apt ini b o) _ _ _ (fun t ht => by cases ht) (fun c hc e => ?_) (by simp) (fun e => ?_) (fun e => ?_) (fun _ => ?_) (fun e => absurd e hk) ?_
  · injection e with e
    subst e
    rcases ha with rfl | rfl <;> cases hc
  · rcases ha with rfl | rfl <;> cases e
  · rcases ha with rfl | rfl <;> cases e
  · rcases ha with rfl | rfl <;> rfl
  · rcases ha with rfl | rfl <;> exact AttrApt.of (by simp) (by decide) (by simp) rfl (by decide) (fun _ => rfl)

theorem not_defs {k : Kind} (hn : ∀ y ∈ n.attrs, @AttrFine (apt ini b o) G k y) {a : AId} (ha : inherits a = true) {v : Value} (h : n.get a = some v) : k ≠ .elem .defs := by
  rintro rfl
  obtain ⟨y, hy, e, _⟩ := get_attr h
  have := @AttrFine.defs (apt ini b o) _ _ _ (hn y hy) rfl a e
  rw [ha] at this
  cases this

theorem Edit.filter {P : Attr → Prop} (n : Node) (p : Attr → Bool) (hk : n.kind ≠ .elem .stop) : Edit P n { n with attrs := n.attrs.filter p } where
  key := rfl
  kind := rfl
  names h := h.sublist (List.filter_sublist.map _)
  attrs hn y hy := hn y (List.mem_filter.1 hy).1
  keep e := absurd e hk

theorem fill_edit {leaf : Bool} (hn : ∀ y ∈ n.attrs, @AttrFine (apt ini b o) G n.kind y) : Tweak ini b o G n (Needless.processFill leaf n) := by
  unfold Needless.processFill
  simp only
  split
  · have b1 : Tweak ini b o G n (if n.get .fill = some (.kw .none) then (n.rm .fillRule).rm .fillOpacity else n) := by
      split
      · exact (Edit.rm _ _ (.inr (by decide))).trans (.rm _ _ (.inr (by decide)))
      · exact .refl _
    generalize hm : (if n.get .fill = some (.kw .none) then (n.rm .fillRule).rm .fillOpacity else n) = m at b1
    split
    next h0 =>
      have hd := not_defs (b1.attrs hn) rfl h0
      exact b1.trans (((Edit.set _ (fine_none (.inl rfl) hd) (.inr (by decide))).trans (.rm _ _ (.inr (by decide)))).trans (.rm _ _ (.inr (by decide))))
    · exact b1
  · exact .refl _

theorem stroke_edit {leaf : Bool} {anc : List Node} (hn : ∀ y ∈ n.attrs, @AttrFine (apt ini b o) G n.kind y) : Tweak ini b o G n (Needless.processStroke leaf anc n) := by
  have b1 : Tweak ini b o G n (Needless.rmAll (n.rm .stroke) Needless.strokeAttributes) := (Edit.rm _ _ (.inr (by decide))).trans (.rmAll _ _ (.inr (by decide)))
  have b2 : Tweak ini b o G n (Needless.rmAll n Needless.strokeAttributes) := .rmAll _ _ (.inr (by decide))
  have hd : Needless.strokeInvisible n = true → n.kind ≠ .elem .defs := by
    intro h
    unfold Needless.strokeInvisible at h
    split at h
    · cases h
    · rcases Bool.or_eq_true _ _ ▸ h with h | h
      · split at h
        next l e => exact not_defs hn rfl e
        next => cases h
      · split at h
        next l e => exact not_defs hn rfl e
        next => cases h
  unfold Needless.processStroke
  generalize Needless.rmAll (n.rm .stroke) Needless.strokeAttributes = m1 at *
  generalize Needless.rmAll n Needless.strokeAttributes = m2 at *
  simp only
  split
  · split
    next hi =>
      split
      · split
        · exact b1.trans (Edit.set _ (fine_none (.inr rfl) (hd hi)) (.inr (by decide)))
        · exact b1
      · exact b1
    · split
      · split
        · exact b2
        · exact b2.trans (.rm _ _ (.inr (by decide)))
      · exact .refl _
  · exact .refl _

theorem body_edit {used : Nat → Bool} {anc : List Node} {leaf : Bool} (hc : ∀ p ∈ anc, p.kind ≠ .elem .clipPath) (hn : ∀ y ∈ n.attrs, @AttrFine (apt ini b o) G n.kind y) :
    Tweak ini b o G n (Needless.body used anc leaf n) := by
  have h1 : Needless.clipStep used anc n = n := by
    unfold Needless.clipStep
    split
    next p t =>
      rw [if_neg]
      intro h
      rw [Bool.and_eq_true, Node.isTag_iff] at h
      exact hc p (by simp) h.1
    next => rfl
  unfold Needless.body
  rw [h1]
  split
  next e he =>
    unfold Needless.element
    have a1 : Tweak ini b o G n (Needless.processShape e n) := by
      unfold Needless.processShape
      split
      next l hl =>
        refine Edit.filter _ _ ?_
        rw [he]
        intro h
        injection h with h
        subst h
        cases hl
      next => exact .refl n
    have a2 : Tweak ini b o G n ((Needless.processShape e n).rm .color) := a1.trans (Edit.rm _ .color (.inr (by decide)))
    generalize (Needless.processShape e n).rm .color = n2 at a2
    have a3 : Tweak ini b o G n (Needless.processBackground e n2) := a2.trans (by unfold Needless.processBackground; split; exacts [.refl _, .rm _ _ (.inr (by decide))])
    generalize Needless.processBackground e n2 = n3 at a3
    have a4 : Tweak ini b o G n (Needless.processFill leaf n3) := Edit.next (P := fun _ => True) a3 (fill_edit (by rw [a3.kind]; exact a3.attrs hn))
    generalize Needless.processFill leaf n3 = n4 at a4
    have a5 : Tweak ini b o G n (Needless.processStroke leaf anc n4) := Edit.next (P := fun _ => True) a4 (stroke_edit (by rw [a4.kind]; exact a4.attrs hn))
    refine a5.trans ?_
    unfold Needless.processOverflow
    split <;> first | exact .refl _ | exact .rm _ _ (.inr (by decide))
  next => exact .refl n

theorem along_needless {used : Nat → Bool} {f : Forest} {anc : List Node} (hf : ∀ n ∈ f.nodes, n.kind ≠ .elem .clipPath ∧ ∀ y ∈ n.attrs, @AttrFine (apt ini b o) G n.kind y)
    (hc : ∀ p ∈ anc, p.kind ≠ .elem .clipPath) : Along (Tweak ini b o G) f (Needless.go used anc f) := by
  induction f generalizing anc with
  | nil => exact .nil
  | cons n k r ih1 ih2 =>
    have hn := hf n (by simp)
    have t := body_edit (used := used) (leaf := k.isEmpty) hc hn.2
    refine .cons t (ih1 (fun x hx => hf x (by simp [hx])) fun p hp => ?_) (ih2 (fun x hx => hf x (by simp [hx])) hc)
    rcases List.mem_cons.1 hp with rfl | hp
    · rw [t.kind]; exact hn.1
    · exact hc p hp

theorem Apt.simple {f : Forest} (h : Apt ini b o f) (hn : n ∈ f.nodes) : Reader.Simple n := by
  obtain ⟨p, ks, _, hx⟩ := h.sketch.node hn
  refine ⟨hx.names, h.not_foreign hn, fun y hy => ⟨(h.sketch.attr hn hy).inherit, (attr_apt (h.attr hn hy)).current⟩, fun y hy ht => ?_⟩
  obtain ⟨t, ht⟩ := Option.ne_none_iff_exists'.1 ht
  rcases ((h.sketch.attr hn hy).paint t ht).1 with e | e
  · exact ⟨_, e, .inl rfl⟩
  · exact ⟨_, e, .inl rfl⟩

theorem Apt.no_clip {f : Forest} (h : Apt ini b o f) (hn : n ∈ f.nodes) : n.kind ≠ .elem .clipPath := by
  intro e
  obtain ⟨p, hp⟩ := h.fits hn
  rw [e] at hp
  exact (fits_kinds hp).2.2.2.2.2.1 rfl

theorem Apt.needless {f : Forest} (hs : Reader.Standard ini) (hf : Apt ini b o f) : SameDrawing ini f (Needless.removeNeedless f) ∧ Apt ini b o (Needless.removeNeedless f) := by
  refine ⟨.of_read (Reader.C70_needless_partial hs fun n hn => ⟨hf.simple hn, hf.no_clip hn, fun a ha v hv => hf.no_marker hn ha hv⟩), ?_⟩
  exact @Sketch.along (apt ini b o) f _ hf (along_mono (fun n m hm => @Edit.alter _ _ (apt ini b o) _ hm)
    (along_needless (fun n hn => ⟨hf.no_clip hn, fun y hy => hf.attr hn hy⟩) (by simp)))

/-! ### Unused coordinates -/

theorem Apt.placed {f : Forest} (h : Apt ini b o f) (ho : o.removeUnusedCoordinates = true) (hn : n ∈ f.nodes) (top : Bool) : Reader.Placed top n where
  root _ hk := by
    constructor
    · cases hv : n.get .x with
      | none => rfl
      | some v =>
        obtain ⟨y, hy, e, _⟩ := get_attr hv
        exact absurd e ((attr_apt (h.attr hn hy)).spot.root hk).1
    · cases hv : n.get .y with
      | none => rfl
      | some v =>
        obtain ⟨y, hy, e, _⟩ := get_attr hv
        exact absurd e ((attr_apt (h.attr hn hy)).spot.root hk).2
  radius hk l hv := by
    obtain ⟨y, hy, e, hv⟩ := get_attr hv
    obtain ⟨l', e', hu⟩ := (attr_apt (h.attr hn hy)).spot.radius hk e
    rw [hv] at e'
    cases e'
    exact hu
  lengths hk v hv := by
    obtain ⟨y, hy, e, rfl⟩ := get_attr hv
    obtain ⟨l', e', hu⟩ := (attr_apt (h.attr hn hy)).spot.radius hk e
    exact ⟨l', e'⟩
  focus hk := by
    have := h.kind hn
    rw [hk] at this
    have := (this.2 (.inr rfl)).coords
    rw [ho] at this
    cases this

theorem along_coords {R : Node → Node → Prop} {doc f : Forest} {top : Bool} (h : ∀ n ∈ f.nodes, ∀ top, R n (Simple.hideAll n (Simple.unusedCoords doc top n))) :
    Along R f (Simple.removeUnusedCoordsGo doc top f) := by
  induction f generalizing top with
  | nil => exact .nil
  | cons n k r ih1 ih2 => exact .cons (h n (by simp) top) (ih1 fun x hx => h x (by simp [hx])) (ih2 fun x hx => h x (by simp [hx]))

theorem Apt.coords {f : Forest} (ho : o.removeUnusedCoordinates = true) (hf : Apt ini .late o f) :
    SameDrawing ini f (Simple.removeUnusedCoords f) ∧ Apt ini .late o (Simple.removeUnusedCoords f) := by
  unfold Simple.removeUnusedCoords
  refine ⟨.of_read (leaves_same (along_coords fun n _ top => hideAll_val n _) (fun n hn => hf.not_foreign hn) _).picture,
    @Sketch.along (apt ini .late o) f _ hf (along_coords fun n hn top => @Edit.alter _ _ (apt ini .late o) _ (hide_edit fun a ha y hy hya _ => ?_))⟩
  rcases Reader.coords_cases (doc := f) (hf.placed ho hn top) with e | ⟨e, hk, _⟩
  · rw [e] at ha; cases ha
  · rw [e] at ha
    simp only [List.mem_cons, List.not_mem_nil, or_false] at ha
    subst ha
    exact ⟨_, _, hya, hk, .inr (.inr ⟨rfl, rfl⟩)⟩

end

end Verif.Whole
