import Verif.GroupDefsLook
import Verif.InvisibleGradients
import Verif.ApplyGradTs
import Verif.ReaderProps
import Verif.DuplSpec
/-
C72, the specification: renderers that paint with gradients as the standard describes gradients, and documents that are drawn the same by all of
them.  Nothing here is used by the model of the code.
-/
namespace Verif.Shade
open Verif.Dom Verif.Spec Verif.Render
open Verif.Paths (Transform Pt)

/-- What is seen of a stop: its offset, opacity and colour. -/
structure StopLook where
  offset : Option Value
  opacity : Value
  colour : Value

/-- What is seen of a gradient: its kind, the attributes that it or a gradient it refers to has, and its stops. -/
structure GLook where
  kind : EId
  attr : AId → Option Value
  stops : List StopLook

/-- An attribute or its initial value (SVG 1.1, 13.2.2 and 13.2.3). -/
def GLook.plain (l : GLook) (a : AId) : Option Value := (l.attr a).or (gradientDefault (.elem l.kind) a)

/-- The value of an attribute; a missing focal point is the centre. -/
def GLook.value (l : GLook) (a : AId) : Option Value :=
  match centreOf a with
  | some c => if l.kind = .radialGradient then (l.attr a).or (l.plain c) else l.attr a
  | none => l.plain a

/-- `T` is the transform of the gradient, the identity if there is none. -/
def GLook.Moved (l : GLook) (T : Transform) : Prop := l.attr .gradientTransform = some (.transform T) ∨ l.attr .gradientTransform = none ∧ T = one

def GLook.Coord (u : ApplyTs.Viewport) (d : ApplyTs.Axis) (l : GLook) (a : AId) (q : ℚ) : Prop := ∃ x, l.value a = some (.length x) ∧ q = x.num * u.factor d x.unit

/-- The offset `t` (where to look in the stops) at the point `q`. -/
def GLook.At (u : ApplyTs.Viewport) (l : GLook) (q : Pt) (t : ℚ) : Prop :=
  ∃ T p, l.Moved T ∧ T.pt p = q ∧
    ((l.kind = .linearGradient ∧ ∃ x1 y1 x2 y2, l.Coord u .x .x1 x1 ∧ l.Coord u .y .y1 y1 ∧ l.Coord u .x .x2 x2 ∧ l.Coord u .y .y2 y2 ∧
        ApplyTs.LinearParam x1 y1 x2 y2 p t) ∨
     (l.kind = .radialGradient ∧ ∃ cx cy r fx fy, l.Coord u .x .cx cx ∧ l.Coord u .y .cy cy ∧ l.Coord u .other .r r ∧ l.Coord u .x .fx fx ∧
        l.Coord u .y .fy fy ∧ ApplyTs.RadialParam cx cy r fx fy p t))

/-- The coordinates of the gradient are lengths, and its transform is a transform. -/
structure GLook.Sound (l : GLook) : Prop where
  coords : ∀ a ∈ ApplyTs.gcoords (.elem l.kind), ∃ x, l.value a = some (.length x)
  moved : ∃ T, l.Moved T
  /-- The colours of the stops do not depend on where the gradient stands. -/
  colours : ∀ s ∈ l.stops, s.colour ≠ .kw .currentColor

/-- **The two gradients give the same paint**: they are of the same kind, have the same units, spread method and stops, and in every viewport
every point gets the same offset. -/
structure Alike (l m : GLook) : Prop where
  kind : l.kind = m.kind
  units : l.value .gradientUnits = m.value .gradientUnits
  spread : l.value .spreadMethod = m.value .spreadMethod
  stops : l.stops = m.stops
  offsets : ∀ u q t, l.At u q t ↔ m.At u q t

/-! ### What a renderer sees of a gradient -/

variable {P : Type}

/-- The value of an attribute that is no reference. -/
def plainAttr (as : Attrs P) (a : AId) : Option Value :=
  match as (.id a) with
  | some (.plain v) => some v
  | _ => none

/-- A stop is opaque and black if nothing else is said (SVG 1.1, 13.2.4). -/
def stopLook (as : Attrs P) : StopLook :=
  ⟨plainAttr as .offset, (plainAttr as .stopOpacity).getD (.number 1), (plainAttr as .stopColor).getD (.color 0 0 0)⟩

/-- The stops among the pictures of the children of a gradient. -/
inductive StopsOf (π : Painter P) : List (Pic P) → List StopLook → Prop
  | nil : StopsOf π [] []
  | stop {as st t kids ch l s} : StopsOf π l s → StopsOf π (⟨.elem .stop, ch, π.paint .stop as st t kids⟩ :: l) (stopLook as :: s)
  | skip {x l s} : x.kind ≠ .elem .stop → StopsOf π l s → StopsOf π (x :: l) s

/-- **The picture `q` is that of a gradient, with the look `l`** (SVG 1.1, 13.2: what the gradient does not have is taken from the one it refers to). -/
inductive Shows (π : Painter P) : P → GLook → Prop
  | root {e as st t kids s} : e = EId.linearGradient ∨ e = .radialGradient → as (.id .xlinkHref) = none → StopsOf π kids s →
      Shows π (π.paint e as st t kids) ⟨e, plainAttr as, s⟩
  | more {e as st t kids s q l} : e = EId.linearGradient ∨ e = .radialGradient → as (.id .xlinkHref) = some (.ref q) → Shows π q l → StopsOf π kids s →
      Shows π (π.paint e as st t kids) ⟨e, fun a => (plainAttr as a).or (l.attr a), if s = [] then l.stops else s⟩

/-- The two pictures are those of gradients that give the same paint. -/
def SamePaint (π : Painter P) (q r : P) : Prop := ∃ l m, Shows π q l ∧ Shows π r m ∧ l.Sound ∧ m.Sound ∧ Alike l m

/-- **A renderer that paints with gradients as the standard describes them**: for what is painted only the paint of a gradient matters. -/
structure Shades (π : Painter P) : Prop where
  paint : ∀ e as st t l a q r, (a = .fill ∨ a = .stroke) → st a = some (.ref q) → SamePaint π q r →
    π.paint e as st t l = π.paint e as (Function.update st a (some (.ref r))) t l
  chars : ∀ s st t a q r, (a = .fill ∨ a = .stroke) → st a = some (.ref q) → SamePaint π q r →
    π.chars s st t = π.chars s (Function.update st a (some (.ref r))) t
  foreign : ∀ s as st t l a q r, (a = .fill ∨ a = .stroke) → st a = some (.ref q) → SamePaint π q r →
    π.foreign s as st t l = π.foreign s as (Function.update st a (some (.ref r))) t l

/-- Two documents are drawn the same by all renderers that paint with gradients as the standard describes them, when references are followed
to any sufficiently large depth. -/
def SameShade (f g : Forest) : Prop := ∀ (P : Type) (π : Painter P), Shades π → ∃ D, ∀ d ≥ D, picture π d f = picture π d g

theorem SameShade.refl (f : Forest) : SameShade f f := fun _ _ _ => ⟨0, fun _ _ => rfl⟩

theorem SameShade.symm {f g : Forest} (h : SameShade f g) : SameShade g f := fun P π hπ => by
  obtain ⟨D, hD⟩ := h P π hπ
  exact ⟨D, fun d hd => (hD d hd).symm⟩

theorem SameShade.trans {f g h : Forest} (h1 : SameShade f g) (h2 : SameShade g h) : SameShade f h := fun P π hπ => by
  obtain ⟨D, hD⟩ := h1 P π hπ
  obtain ⟨E, hE⟩ := h2 P π hπ
  exact ⟨max D E, fun d hd => (hD d (le_trans (le_max_left _ _) hd)).trans (hE d (le_trans (le_max_right _ _) hd))⟩

/-- Documents that look the same to all renderers. -/
theorem SameShade.of_view {f g : Forest} (h : SameView f g) : SameShade f g := fun P π _ => h P π

/-- A stop that is shown as it is: no mask, clip path and filter, and neither hidden nor faded. -/
def plainStop (n : Node) : Bool :=
  Invisible.plainEffects n && [AId.display, .opacity, .requiredFeatures, .requiredExtensions, .systemLanguage].all fun a => !n.has a

/-- The attributes of gradients of either kind, and of stops. -/
def allAttrs : List AId := [.gradientUnits, .spreadMethod, .x1, .y1, .x2, .y2, .cx, .cy, .r, .fx, .fy, .gradientTransform]
def stopAttrs : List AId := [.offset, .stopOpacity, .stopColor]

/-- The kinds of the elements that are not drawn, in what is drawn, and of their parents. -/
def fringe (p : Kind) : Forest → List (Kind × Kind)
  | .nil => []
  | .cons n k r => if neverRendered n.kind then (p, n.kind) :: fringe p r else fringe n.kind k ++ fringe p r

/-- **Documents** in which references are made only by `fill` and `stroke` of SVG elements and by `xlink:href` of gradients, and are to
gradients; the types of the values are as the parser makes them. -/
structure Sheet (f : Forest) : Prop where
  unique : f.UniqueKeys
  /-- All attributes are written. -/
  shown : ∀ n ∈ f.nodes, ∀ x ∈ n.attrs, x.visible = true
  /-- Gradients refer to gradients, without cycles. -/
  href : HrefOk f
  /-- Gradients have no masks, clip paths and filters; coordinates are lengths. -/
  plain : ∀ n ∈ f.nodes, n.isGradient = true → Invisible.plainEffects n = true
  coords : ∀ n ∈ f.nodes, n.isGradient = true → ∀ a ∈ [AId.x1, .y1, .x2, .y2, .cx, .cy, .r, .fx, .fy], ∀ v, n.get a = some v → ∃ x, v = .length x
  moved : ∀ n ∈ f.nodes, n.isGradient = true → ∀ v, n.get .gradientTransform = some v → ∃ T, v = .transform T
  words : ∀ n ∈ f.nodes, n.isGradient = true → ∀ a, a ≠ .xlinkHref → isOwn (.id a) = true → ∀ v, n.get a = some v → v.target = none
  /-- Stops are shown as they are, and their colours do not depend on where they stand. -/
  stops : ∀ x ∈ subs f, x.1.isGradient = true → ∀ s ∈ stopKids x.2, plainStop s = true ∧ s.get .stopColor ≠ some (.kw .currentColor) ∧
    ∀ a ∈ stopAttrs, ∀ v, s.get a = some v → v.target = none
  /-- References of what is drawn. -/
  links : ∀ n ∈ (drawn f).nodes, ∀ x ∈ n.attrs, ∀ k, x.value.target = some k →
    (x.name = .id .fill ∨ x.name = .id .stroke) ∧ isElem n.kind = true ∧ ∃ m ∈ f.nodes, m.key = k ∧ m.isGradient = true
  /-- What is never drawn stands where this has no effect. -/
  place : ∀ z ∈ fringe top f, gone z.1 z.2 = true

/-- A document in memory, whose hidden attributes will not be written: in the file that is written, references are as above; hidden attributes
of stops have their initial values. -/
structure Page (f : Forest) : Prop where
  attrs : UniqueAttrs f
  sheet : Sheet (Reader.onPaper f)
  stops : ∀ x ∈ subs f, x.1.isGradient = true → ∀ s ∈ stopKids x.2, ∀ y ∈ s.attrs, y.visible = true ∨ y.name = .id .stopOpacity ∧ y.value = .number 1 ∨
    y.name = .id .stopColor ∧ y.value = .color 0 0 0

end Verif.Shade
