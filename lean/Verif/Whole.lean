import Verif.SketchRun
import Verif.ZoomProps
import Verif.ReaderNeedless
import Verif.ReaderMore
/-
C71: which drawings a whole run leaves as they look, and what the steps that rewrite shapes and paths make of them.
-/
namespace Verif.Whole
open Verif.Dom Verif.Spec Verif.Render Verif.Draft
open Verif.Cli (CleaningOptions)
open Verif.Paths hiding Kind size
open Verif.Paths (Transform)
open Verif.Reader (fontRelative isTextual SameRead Heeds)
open Verif.Plot (Plots SamePlot markerAttrs)
open Verif.Zoom (Zooms SameZoom)
open Verif.ApplyTs (strokeAttrs coordAttrs)
open Verif.Ungroup (groupAttr)

/-! ### Specification -/

/-- The two documents are drawn the same by all renderers that draw shapes by their outlines, wherever these are scaled, and that take the
initial values `ini` for what is not there, when they follow references to any sufficiently large depth. -/
def SameDrawing (ini : AId → Option Value) (f g : Forest) : Prop :=
  ∀ (P : Type) (π : Painter P) (u : ConvShapes.Units), Plots π u → Zooms π → Heeds π ini → ∃ D, ∀ d ≥ D, picture π d f = picture π d g

/-- Path data that can be rewritten: it starts with a moveto, and conversion and removal of segments are as C17 and C18 ask. -/
def DataApt (o : CleaningOptions) (p : Path) : Prop :=
  p = [] ∨ StartsWithMove p ∧ (o.convertSegments = true → ControlsBetween (trace p)) ∧
    (o.removeUnusedSegments = true → NoLoops (if o.convertSegments then badCurve else badSmooth) (trace p))

/-- The conditions on the attributes that describe outlines. -/
structure OutlineApt (o : CleaningOptions) (k : Kind) (y : Attr) : Prop where
  size : k = .elem .rect → y.name = .id .width ∨ y.name = .id .height → ∀ l, y.value = .length l → 0 ≤ l.num
  points : k = .elem .polyline ∨ k = .elem .polygon → y.name = .id .points → y.value ≠ .numberList []
  data : k = .elem .path → y.name = .id .d → ∀ p, y.value = .path p → DataApt o p
  /-- Segments are removed only where nothing is stroked. -/
  stroke : o.removeUnusedSegments = true → y.name = .id .stroke → y.value = .kw .none

/-- How far a run has got: the outlines are as they were, the outlines have been rewritten, attributes have been hidden (they are not written to
the file). -/
inductive Stage
  | shapes | paths | late
  deriving DecidableEq

/-- A hidden attribute means nothing: it is a property with its initial value, or an attribute with the value that is taken if there is none, or
the vertical radius of a rectangle (then the horizontal one is the same, `Veiled`). -/
def Hush (ini : AId → Option Value) (k : Kind) (y : Attr) : Prop :=
  ∃ a e, y.name = .id a ∧ k = .elem e ∧ ((a.isPresentation = true ∧ ini a = some y.value) ∨ (a.isPresentation = false ∧ DefaultAttrs.meansNothing e a y.value = true ∧ DefaultAttrs.isTemplated e = false) ∨
    (a = .ry ∧ e = .rect))

/-- Conditions on some attributes that say where something is: a `tspan` has no position that the code takes for the default (C42), the root
element has none at all, and the radius of corners is not a percentage (C46). -/
structure SpotApt (k : Kind) (y : Attr) : Prop where
  chunk : k = .elem .tspan → y.name = .id .x ∨ y.name = .id .y → y.value ≠ DefaultAttrs.len 0 .none
  root : k = .elem .svg → y.name ≠ .id .x ∧ y.name ≠ .id .y
  radius : k = .elem .rect → y.name = .id .rx → ∃ l, y.value = .length l ∧ l.unit ≠ .percent

theorem SpotApt.of_name {k : Kind} {y : Attr} (h : ∀ a, a = .x ∨ a = .y ∨ a = .rx → y.name ≠ .id a) : SpotApt k y :=
  ⟨fun _ e => (e.elim (h _ (.inl rfl)) (h _ (.inr (.inl rfl)))).elim, fun _ => ⟨h _ (.inl rfl), h _ (.inr (.inl rfl))⟩, fun _ e => absurd e (h _ (.inr (.inr rfl)))⟩

theorem SpotApt.of_kind {k : Kind} {y : Attr} (h1 : k ≠ .elem .tspan) (h2 : k ≠ .elem .svg) (h3 : k = .elem .rect → y.name = .id .rx → ∃ l, y.value = .length l ∧ l.unit ≠ .percent) : SpotApt k y :=
  ⟨fun e => absurd e h1, fun e => absurd e h2, h3⟩

/-- The conditions on an attribute of an element of the given kind. -/
structure AttrApt (ini : AId → Option Value) (s : Stage) (o : CleaningOptions) (k : Kind) (y : Attr) : Prop where
  current : y.value ≠ .kw .currentColor
  width : y.name = .id .strokeWidth ∨ y.name = .id .strokeDashoffset → ∃ l, y.value = .length l
  paint : y.name = .id .fill ∨ y.name = .id .stroke → ∀ t, y.value ≠ .link t
  over : y.name ≠ .id .overflow
  spot : SpotApt k y
  /-- If text attributes are removed, no lengths are in units of the font size. -/
  units : o.removeTextAttributes = true → fontRelative y.value = false
  outline : s = .shapes → OutlineApt o k y
  shown : s ≠ .late → y.visible = true
  hush : y.visible = false → Hush ini k y

/-- The options that change gradients. -/
structure GradientsOff (o : CleaningOptions) : Prop where
  invalidStops : o.removeInvalidStops = false
  gradientTs : o.applyTransformToGradients = false
  duplLinear : o.removeDuplLinearGradients = false
  duplRadial : o.removeDuplRadialGradients = false
  merge : o.mergeGradients = false
  regroup : o.regroupGradientStops = false
  gradientAttrs : o.removeGradientAttributes = false
  coords : o.removeUnusedCoordinates = false

/-- The conditions on the kind of a node: only elements of SVG (and text, if text attributes are not removed); gradients, if the options that
change them are off. -/
def KindApt (o : CleaningOptions) : Kind → Prop
  | .elem e => (o.removeTextAttributes = true → isTextual e = false) ∧ (e = .linearGradient ∨ e = .radialGradient → GradientsOff o)
  | .other _ => False
  | _ => o.removeTextAttributes = false

section
variable {ini : AId → Option Value} {b : Stage} {o : CleaningOptions}

theorem AttrApt.of {k : Kind} {a : AId} {v : Value} (h1 : v ≠ .kw .currentColor) (h2 : a ≠ .strokeWidth ∧ a ≠ .strokeDashoffset)
    (h3 : ∀ t, v ≠ .link t) (h4 : fontRelative v = false) (h5 : a ≠ .width ∧ a ≠ .height ∧ a ≠ .points ∧ a ≠ .d ∧ a ≠ .overflow ∧ a ≠ .x ∧ a ≠ .y ∧ a ≠ .rx) (h6 : a = .stroke → v = .kw .none) :
    AttrApt ini b o k ⟨.id a, v, true⟩ where
  current := h1
  width e := by rcases e with e | e <;> injection e with e; exacts [absurd e h2.1, absurd e h2.2]
  paint _ := h3
  over e := by injection e with e; exact h5.2.2.2.2.1 e
  spot := .of_name fun c hc e => by injection e with e; subst e; obtain ⟨_, _, _, _, _, a1, a2, a3⟩ := h5; rcases hc with e | e | e; exacts [a1 e, a2 e, a3 e]
  units _ := h4
  outline _ := ⟨fun _ e => by rcases e with e | e <;> injection e with e; exacts [absurd e h5.1, absurd e h5.2.1], fun _ e => by injection e with e; exact absurd e h5.2.2.1,
    fun _ e => by injection e with e; exact absurd e h5.2.2.2.1, fun _ e => by injection e with e; exact h6 e⟩
  shown _ := rfl
  hush e := by cases e

theorem hush_give {k k' : Kind} {y : Attr} (hk : ∃ e, k' = .elem e) (hg : groupAttr y = true) (h : Hush ini k y) : Hush ini k' y := by
  obtain ⟨a, e, hn, rfl, h⟩ := h
  obtain ⟨e', rfl⟩ := hk
  refine ⟨a, e', hn, rfl, .inl ?_⟩
  rcases h with h | ⟨h1, h2, _⟩ | ⟨rfl, _⟩
  · exact h
  · exfalso
    unfold groupAttr at hg
    rw [hn] at hg
    cases a <;> first | (cases h1; done) | (cases h2; done) | (cases hg; done)
  · exfalso
    unfold groupAttr at hg
    rw [hn] at hg
    cases hg

theorem hush_transform {k : Kind} {v : Value} {b : Bool} (h : Hush ini k ⟨.id .transform, v, b⟩) : False := by
  obtain ⟨a, e, hn, _, h⟩ := h
  injection hn with hn
  subst hn
  rcases h with ⟨h, _⟩ | ⟨_, h, _⟩ | ⟨h, _⟩ <;> cases h

end

theorem fits_elem' {k : Kind} (h : fits (.elem .g) k = true) : ∃ e, k = .elem e := by
  cases k with
  | elem e => exact ⟨e, rfl⟩
  | _ => cases h

def apt (ini : AId → Option Value) (s : Stage) (o : CleaningOptions) : Flavour where
  kind := KindApt o
  attr := AttrApt ini s o
  give k y hk hg h := by
    have hs : ∀ a, a = .x ∨ a = .y ∨ a = .rx → y.name ≠ .id a := by
      intro a ha e
      unfold groupAttr at hg
      rw [e] at hg
      rcases ha with rfl | rfl | rfl <;> cases hg
    have hn : ∀ a, a = .width ∨ a = .height ∨ a = .points ∨ a = .d → y.name ≠ .id a := by
      intro a ha e
      unfold groupAttr at hg
      rw [e] at hg
      rcases ha with rfl | rfl | rfl | rfl <;> cases hg
    exact ⟨h.current, h.width, h.paint, h.over, .of_name hs, h.units, fun hb => ⟨fun _ e => e.elim (fun e => absurd e (hn _ (.inl rfl))) (fun e => absurd e (hn _ (.inr (.inl rfl)))),
      fun _ e => absurd e (hn _ (.inr (.inr (.inl rfl)))), fun _ e => absurd e (hn _ (.inr (.inr (.inr rfl)))), (h.outline hb).stroke⟩, h.shown, fun e => hush_give (fits_elem' hk) hg (h.hush e)⟩
  transform k t b hb := by
    cases b with
    | true => exact .of (by simp) (by decide) (by simp) rfl (by decide) (by simp)
    | false =>
      obtain ⟨k', v, h⟩ := hb rfl
      exact (hush_transform (h.hush rfl)).elim
  opacity k a q ha := by rcases ha with rfl | rfl | rfl <;> exact .of (by simp) (by decide) (by simp) rfl (by decide) (by simp)
  paint k y v ht hv h := by
    have h1 : v ≠ .kw .currentColor ∧ (∀ t, v ≠ .link t) ∧ fontRelative v = false ∧ (∀ l, v ≠ .length l) ∧ (∀ p, v ≠ .path p) ∧ ∀ l, v ≠ .numberList l := by
      rcases hv with rfl | ⟨r, g, b, rfl⟩ <;> simp [fontRelative]
    refine ⟨h1.1, fun e => ?_, fun _ => h1.2.1, h.over, ⟨fun _ _ => h1.2.2.2.1 _, h.spot.root, fun hk e => ?_⟩, fun _ => h1.2.2.1, fun hb => ⟨fun _ _ l e => absurd e (h1.2.2.2.1 l), fun _ _ => h1.2.2.2.2.2 _, fun _ _ p e => absurd e (h1.2.2.2.2.1 p), fun ho e => ?_⟩,
      fun _ => rfl, fun e => by cases e⟩
    · obtain ⟨l, e⟩ := h.width e
      rw [e] at ht
      exact absurd rfl ht
    · obtain ⟨l, e, _⟩ := h.spot.radius hk e
      rw [e] at ht
      exact absurd rfl ht
    · rw [(h.outline hb).stroke ho e] at ht
      exact absurd rfl ht

/-- Drawings that can be cleaned with the given options. -/
abbrev Apt (ini : AId → Option Value) (s : Stage) (o : CleaningOptions) (f : Forest) : Prop := @Sketch (apt ini s o) f

/-! ### Combining the steps -/

section
variable {ini : AId → Option Value}

theorem SameDrawing.refl (f : Forest) : SameDrawing ini f f := fun _ _ _ _ _ _ => ⟨0, fun _ _ => rfl⟩

theorem SameDrawing.trans {f g h : Forest} (h1 : SameDrawing ini f g) (h2 : SameDrawing ini g h) : SameDrawing ini f h := fun P π u a b c => by
  obtain ⟨D, hD⟩ := h1 P π u a b c
  obtain ⟨E, hE⟩ := h2 P π u a b c
  exact ⟨max D E, fun d hd => (hD d (le_trans (le_max_left _ _) hd)).trans (hE d (le_trans (le_max_right _ _) hd))⟩

theorem SameDrawing.of_view {f g : Forest} (h : SameView f g) : SameDrawing ini f g := fun P π _ _ _ _ => h P π
theorem SameDrawing.of_plot {f g : Forest} (h : SamePlot f g) : SameDrawing ini f g := fun P π u a _ _ => ⟨0, fun d _ => h P π u a d⟩
theorem SameDrawing.of_zoom {f g : Forest} (h : SameZoom f g) : SameDrawing ini f g := fun P π u a b _ => ⟨0, fun d _ => h P π u a b d⟩
theorem SameDrawing.of_read {f g : Forest} (h : SameRead ini f g) : SameDrawing ini f g := fun P π _ _ _ c => ⟨0, fun d _ => h P π c d⟩

end

theorem sketch_mono {X Y : Flavour} (hk : ∀ k, X.kind k → Y.kind k) (ha : ∀ k y, X.attr k y → Y.attr k y) {f : Forest} (h : @Sketch X f) : @Sketch Y f := by
  obtain ⟨h1, h2⟩ := h
  refine ⟨h1, fun x hx => ?_⟩
  obtain ⟨a1, a2, a3, a4, a5, a6⟩ := h2 x hx
  refine ⟨a1, a2, fun y hy => ?_, a4, a5, hk _ a6⟩
  obtain ⟨b1, b2, b3, b4, b5, b6, b7, b8⟩ := a3 y hy
  exact ⟨b1, b2, b3, b4, b5, b6, b7, ha _ _ b8⟩

theorem Apt.later {ini : AId → Option Value} {o : CleaningOptions} {f : Forest} (h : Apt ini .shapes o f) : Apt ini .paths o f :=
  sketch_mono (X := apt ini .shapes o) (Y := apt ini .paths o) (fun _ h => h)
    (fun _ _ h => AttrApt.mk h.current h.width h.paint h.over h.spot h.units (fun e => by cases e) (fun _ => h.shown (by decide)) h.hush) h

theorem Apt.last {ini : AId → Option Value} {o : CleaningOptions} {f : Forest} (h : Apt ini .paths o f) : Apt ini .late o f :=
  sketch_mono (X := apt ini .paths o) (Y := apt ini .late o) (fun _ h => h)
    (fun _ _ h => AttrApt.mk h.current h.width h.paint h.over h.spot h.units (fun e => by cases e) (fun e => absurd rfl e) h.hush) h

theorem Apt.sketch {ini : AId → Option Value} {b : Stage} {o : CleaningOptions} {f : Forest} (h : Apt ini b o f) : Sketch f :=
  sketch_mono (X := apt ini b o) (fun _ _ => trivial) (fun _ _ _ => trivial) h

/-! ### Changing attributes -/

/-- The attributes that say whether a stop is opaque and shown. -/
def stopKeep : List AId := [.stopOpacity, .mask, .clipPath, .filter, .display, .opacity, .requiredFeatures, .requiredExtensions, .systemLanguage]

/-- Attributes with `P` stay attributes with `P`. -/
structure Edit (P : Attr → Prop) (n m : Node) : Prop where
  key : m.key = n.key
  kind : m.kind = n.kind
  names : (n.attrs.map (·.name)).Nodup → (m.attrs.map (·.name)).Nodup
  attrs : (∀ y ∈ n.attrs, P y) → ∀ y ∈ m.attrs, P y
  keep : n.kind = .elem .stop → ∀ a ∈ stopKeep, m.get a = n.get a

section
variable {P : Attr → Prop} {n m l : Node}

theorem Edit.refl (n : Node) : Edit P n n := ⟨rfl, rfl, id, id, fun _ _ _ => rfl⟩

theorem Edit.trans (h : Edit P n m) (h' : Edit P m l) : Edit P n l :=
  ⟨h'.key.trans h.key, h'.kind.trans h.kind, fun x => h'.names (h.names x), fun x => h'.attrs (h.attrs x),
    fun e a ha => (h'.keep (h.kind.trans e) a ha).trans (h.keep e a ha)⟩

theorem Edit.set (n : Node) {a : AId} {v : Value} (h : P ⟨.id a, v, true⟩) (ha : n.kind ≠ .elem .stop ∨ a ∉ stopKeep) : Edit P n (n.set a v) where
  key := rfl
  kind := rfl
  names h := ResolveUse.set_names h _ _
  attrs hn y hy := by
    rcases Node.mem_putAttr hy with rfl | hy
    · exact h
    · exact hn y hy
  keep e b hb := by
    rw [Node.get_set, if_neg]
    rintro rfl
    exact ha.elim (fun h => h e) fun h => h hb

theorem Edit.rm (n : Node) (a : AId) (ha : n.kind ≠ .elem .stop ∨ a ∉ stopKeep) : Edit P n (n.rm a) where
  key := rfl
  kind := rfl
  names h := h.sublist (List.filter_sublist.map _)
  attrs hn y hy := hn y (List.mem_filter.1 hy).1
  keep e b hb := by
    rw [Node.get_rm, if_neg]
    rintro rfl
    exact ha.elim (fun h => h e) fun h => h hb

theorem Edit.mod (n : Node) {a : AId} {g : Value → Value} (hk : n.kind ≠ .elem .stop) (h : ∀ y, y.name = .id a → P y → P { y with value := g y.value }) :
    Edit P n (Stops.modValue n a g) where
  key := rfl
  kind := rfl
  names h := by
    unfold Stops.modValue
    simp only [List.map_map]
    rw [List.map_congr_left (g := Attr.name)]
    · exact h
    · intro y _
      simp only [Function.comp]
      split <;> rfl
  attrs hn y hy := by
    obtain ⟨z, hz, rfl⟩ := List.mem_map.1 hy
    split
    next e => exact h z e (hn z hz)
    next => exact hn z hz
  keep e := absurd e hk

theorem Edit.rmAll (n : Node) (l : List AId) (ha : n.kind ≠ .elem .stop ∨ ∀ a ∈ l, a ∉ stopKeep) : Edit P n (Needless.rmAll n l) := by
  unfold Needless.rmAll
  induction l generalizing n with
  | nil => exact .refl n
  | cons a l ih =>
    rw [List.foldl_cons]
    exact (Edit.rm n a (ha.imp id fun h => h a List.mem_cons_self)).trans (ih (n.rm a) (ha.imp id fun h b hb => h b (List.mem_cons_of_mem _ hb)))

theorem plainStop_get {n m : Node} (hk : m.kind = n.kind) (h : ∀ a ∈ stopKeep, m.get a = n.get a) : Invisible.plainStop m = Invisible.plainStop n := by
  unfold Invisible.plainStop Invisible.plainEffects Node.isTag
  simp only [Node.has_eq, List.all_cons, List.all_nil]
  rw [hk, h .stopOpacity (by decide), h .mask (by decide), h .clipPath (by decide), h .filter (by decide), h .display (by decide), h .opacity (by decide),
    h .requiredFeatures (by decide), h .requiredExtensions (by decide), h .systemLanguage (by decide)]

theorem Edit.alter [Flavour] {G : Nat → Prop} (h : Edit (AttrFine G n.kind) n m) : Alter G n m :=
  ⟨h.key, h.kind, h.names, h.attrs, fun e _ hp => by rw [plainStop_get h.kind (h.keep e)]; exact hp⟩

end

end Verif.Whole
