import Verif.WholeCases
/-
C71: the conditions can be checked; examples.
-/
namespace Verif.Whole
open Verif.Dom Verif.Spec Verif.Render Verif.Draft Verif.Pipeline
open Verif.Dom (Res)
open Verif.Cli (CleaningOptions)
open Verif.Simple
open Verif.Reader (Standard Sane onPaper svgInitial_sane svgInitial_standard draftsman draftsman_plots draftsman_zooms draftsman_heeds isTextual fontRelative)
open Verif.DefaultAttrs (svgInitial)
open Verif.Paths (Path Event Seg)

/-! ### The conditions can be checked -/

open Paths in
/-- Lines only (some may have the length zero), or no Bézier curve that returns to its start point or is a line. -/
def dataB (p : Path) : Bool :=
  (match p with | [] => true | ⟨_, .moveTo _ _⟩ :: _ => true | _ => false) &&
  (((trace p).all fun e => match e with | .draw .line (.line _ _) => true | .draw _ _ => false | _ => true) ||
   ((trace p).all fun e => match e with
     | .draw .cubic (.cubic p c1 c2 q) => decide (p ≠ q) && !decide ((c1.1 - p.1) * (q.2 - p.2) = (c1.2 - p.2) * (q.1 - p.1) ∧ (c2.1 - p.1) * (q.2 - p.2) = (c2.2 - p.2) * (q.1 - p.1))
     | .draw _ c => decide (c.src ≠ c.fin)
     | _ => true))

open Paths in
theorem data_of {o : CleaningOptions} {p : Path} (h : dataB p = true) : DataApt o p := by
  unfold dataB at h
  rw [Bool.and_eq_true, Bool.or_eq_true] at h
  obtain ⟨h1, h2⟩ := h
  match p, h1 with
  | [], _ => exact .inl rfl
  | ⟨b, .moveTo x y⟩ :: t, _ =>
    refine .inr ⟨⟨b, x, y, t, rfl⟩, ?_⟩
    generalize trace (⟨b, .moveTo x y⟩ :: t) = l at h2
    rcases h2 with h2 | h2
    · have hl : ∀ e ∈ l, ∀ k c, e = .draw k c → k = Paths.Kind.line ∧ ∃ p q, c = .line p q := by
        intro e he k c h
        have := List.all_eq_true.1 h2 e he
        rw [h] at this
        split at this
        · rename_i e2; cases e2; exact ⟨rfl, _, _, rfl⟩
        · cases this
        · rename_i h1 h2; exact absurd rfl (h2 _ _)
      exact ⟨fun _ => Plot.controls_lines l hl, fun _ => Plot.noLoops_lines l hl (by split <;> rfl)⟩
    · refine ⟨fun _ => ?_, fun _ => ?_⟩
      · induction l with
        | nil => trivial
        | cons e l ih =>
          rw [List.all_cons, Bool.and_eq_true] at h2
          refine ⟨fun p c1 c2 q he hc => ?_, ih h2.2⟩
          have := h2.1
          rw [he] at this
          simp only [Bool.and_eq_true, Bool.not_eq_true', decide_eq_false_iff_not] at this
          exact absurd hc this.2
      · induction l with
        | nil => trivial
        | cons e l ih =>
          rw [List.all_cons, Bool.and_eq_true] at h2
          refine ⟨fun k c he hc => ?_, ih h2.2⟩
          exfalso
          have := h2.1
          rw [he] at this
          split at this
          · rename_i e2
            cases e2
            rw [Bool.and_eq_true, decide_eq_true_eq] at this
            exact this.1 hc
          · rename_i e2
            cases e2
            exact of_decide_eq_true this hc
          · rename_i h1 h2; exact absurd rfl (h2 _ _)

/-- The further conditions, for attributes that are shown. -/
def aptB (o : CleaningOptions) (k : Kind) (y : Attr) : Bool :=
  y.visible && decide (y.value ≠ .kw .currentColor) &&
  (match y.name, y.value with
    | .id .strokeWidth, v | .id .strokeDashoffset, v => (match v with | .length _ => true | _ => false)
    | .id .fill, v => (match v with | .link _ => false | _ => true)
    | .id .stroke, v => (match v with | .link _ => false | _ => true) && (!o.removeUnusedSegments || decide (v = .kw .none))
    | .id .overflow, _ => false
    | .id .x, v | .id .y, v => decide (k ≠ .elem .svg) && (decide (k ≠ .elem .tspan) || decide (v ≠ DefaultAttrs.len 0 .none))
    | .id .rx, v => !decide (k = .elem .rect) || (match v with | .length l => decide (l.unit ≠ .percent) | _ => false)
    | .id .width, v | .id .height, v => !decide (k = .elem .rect) || (match v with | .length l => decide (0 ≤ l.num) | _ => true)
    | .id .points, v => decide (v ≠ .numberList [])
    | .id .d, v => (match v with | .path p => dataB p | _ => true)
    | _, _ => true) &&
  (!o.removeTextAttributes || !fontRelative y.value)

theorem apt_of {ini : AId → Option Value} {o : CleaningOptions} {k : Kind} {y : Attr} (h : aptB o k y = true) : AttrApt ini .shapes o k y := by
  obtain ⟨x, v, b⟩ := y
  simp only [aptB, Bool.and_eq_true, decide_eq_true_eq, Bool.or_eq_true, Bool.not_eq_true'] at h
  obtain ⟨⟨⟨h1, h2⟩, h3⟩, h4⟩ := h
  refine ⟨h2, ?_, ?_, ?_, ⟨?_, ?_, ?_⟩, fun ho => ?_, fun _ => ⟨?_, ?_, ?_, ?_⟩, fun _ => h1, fun e => ?_⟩
  · rintro (e | e) <;> (dsimp only at e; subst e; dsimp only at h3; split at h3; exacts [⟨_, rfl⟩, by cases h3])
  · rintro (e | e) t ht <;> (dsimp only at e ht; subst e ht; cases h3)
  · intro e; dsimp only at e; subst e; cases h3
  · rintro rfl (e | e) ht <;> (dsimp only at e ht; subst e ht; cases h3)
  · rintro rfl; constructor <;> (intro e; dsimp only at e; subst e; cases h3)
  · rintro rfl e
    dsimp only at e; subst e
    dsimp only at h3
    cases v with
    | length l => exact ⟨l, rfl, by simpa using h3⟩
    | _ => simp at h3
  · exact h4.resolve_left (by rw [ho]; simp)
  · rintro rfl (e | e) l hl <;> (dsimp only at e hl; subst e hl; simpa using h3)
  · rintro _ e ht; dsimp only at e ht; subst e ht; cases h3
  · rintro _ e p ht; dsimp only at e ht; subst e ht; exact data_of h3
  · rintro ho e
    dsimp only at e; subst e
    simp only [Bool.and_eq_true, Bool.or_eq_true, decide_eq_true_eq, ho] at h3
    simpa using h3.2
  · dsimp only at e; rw [h1] at e; cases e

def kindB (o : CleaningOptions) : Kind → Bool
  | .elem e => (!o.removeTextAttributes || !isTextual e) && (!decide (e = .linearGradient ∨ e = .radialGradient) ||
      !(o.removeInvalidStops || o.applyTransformToGradients || o.removeDuplLinearGradients || o.removeDuplRadialGradients || o.mergeGradients || o.regroupGradientStops ||
        o.removeGradientAttributes || o.removeUnusedCoordinates))
  | .other _ => false
  | _ => !o.removeTextAttributes

theorem kind_of {o : CleaningOptions} {k : Kind} (h : kindB o k = true) : KindApt o k := by
  cases k with
  | elem e =>
    simp only [kindB, Bool.and_eq_true, Bool.or_eq_true, Bool.not_eq_true', decide_eq_false_iff_not, Bool.or_eq_false_iff] at h
    refine ⟨fun ho => h.1.resolve_left (by rw [ho]; simp), fun he => ?_⟩
    obtain ⟨⟨⟨⟨⟨⟨⟨a, b⟩, c⟩, d⟩, e⟩, f⟩, g⟩, i⟩ := h.2.resolve_left (fun h => h he)
    exact ⟨a, b, c, d, e, f, g, i⟩
  | other _ => cases h
  | _ => simpa [kindB, KindApt] using h

def wholeB (o : CleaningOptions) (f : Forest) : Bool := sketchB f && f.nodes.all fun n => kindB o n.kind && n.attrs.all (aptB o n.kind)

theorem whole_of {ini : AId → Option Value} {o : CleaningOptions} {f : Forest} (h : wholeB o f = true) : Apt ini .shapes o f := by
  simp only [wholeB, Bool.and_eq_true, List.all_eq_true] at h
  have h1 := sketch_of h.1
  refine @Sketch.mk (apt ini .shapes o) f h1.keys fun x hx => ?_
  have hm : x.2.1 ∈ f.nodes := (Render.spots_nodes hx).1
  have hf := h1.nodes x hx
  refine @Fine.mk (apt ini .shapes o) _ _ _ _ hf.place hf.names (fun y hy => ?_) hf.anchor hf.single (kind_of (h.2 _ hm).1)
  have ha := hf.attrs y hy
  exact @AttrFine.mk (apt ini .shapes o) _ _ _ ha.paint ha.cond ha.inherit ha.transform ha.display ha.group ha.defs (apt_of ((h.2 _ hm).2 y hy))

/-! ### Examples -/

/-- All options (attributes are not joined). -/
def allOpts : CleaningOptions := { allOn with joinStyleAttributes := .none }

/-- A title, a group with a rectangle to be taken out, a hidden group, an empty rectangle, three shapes of the same colour, one of them scaled, one a
path with a segment of length zero, and an image; the root element has the initial value of `fill`. -/
def wholeDoc : Forest :=
  .cons (el 0 .svg "" [(.version, .str "1.1"), (.fill, .color 0 0 0)])
    (leaf (el 1 .title "" [])
    (.cons (el 2 .g "layer" [(.opacity, .number (1/2)), (.transform, .transform ⟨1, 0, 0, 1, 5, 5⟩)])
      (leaf (el 3 .rect "" [(.x, px 1), (.width, px 5), (.height, px 7), (.fill, .color 255 0 0)]) .nil)
    (.cons (el 4 .g "" [(.display, .kw .none)]) (leaf (el 5 .circle "" [(.r, px 5)]) .nil)
    (leaf (el 6 .rect "" [(.width, px 0), (.height, px 7)])
    (leaf (el 7 .circle "" [(.r, px 5), (.fill, .color 0 0 255), (.transform, .transform ⟨2, 0, 0, 2, 3, 0⟩)])
    (leaf (el 8 .polygon "" [(.points, .numberList [0, 0, 4, 4, 9, 0]), (.fill, .color 0 0 255)])
    (leaf (el 9 .path "" [(.d, .path [⟨true, .moveTo 1 1⟩, ⟨true, .lineTo 1 1⟩, ⟨true, .lineTo 5 5⟩, ⟨true, .lineTo 9 5⟩, ⟨true, .close⟩]), (.fill, .color 0 0 255), (.stroke, .kw .none), (.transform, .transform ⟨1, 0, 0, 1, 3, 4⟩)])
    (leaf (el 10 .image "" [(.x, px 0), (.y, px 3), (.width, px 8), (.height, px 8)]) .nil)))))))) .nil

/-- All options at once.  The rectangle and the polygon have become paths, the transforms are gone, a group has been taken out and one has been made,
the title, the hidden group and the empty rectangle are gone. -/
example : runUpTo svgEnv allOpts 8 wholeDoc = .ok (svgUpTo allOpts 8 wholeDoc) ∧ Apt svgInitial .shapes allOpts (svgUpTo allOpts 8 wholeDoc) ∧
    cleanDoc svgEnv allOpts wholeDoc = .ok (svgUpTo allOpts 42 wholeDoc) ∧ (svgUpTo allOpts 8 wholeDoc).keys = [0, 11, 1, 2, 3, 4, 5, 6, 7, 8, 9, 10] ∧
    (svgUpTo allOpts 42 wholeDoc).keys = [0, 3, 12, 7, 8, 9, 10] ∧
    (onPaper (svgUpTo allOpts 42 wholeDoc)).nodes.map (fun n => n.attrs.map Attr.name) = [[], [.id .fill, .id .opacity, .id .d], [.id .fill],
      [.id .r, .id .cx, .id .strokeWidth], [.id .d], [.id .d], [.id .y, .id .width, .id .height]] ∧
    SameDrawing svgInitial (svgUpTo allOpts 8 wholeDoc) (onPaper (svgUpTo allOpts 42 wholeDoc)) := by
  have h1 : runUpTo svgEnv allOpts 8 wholeDoc = .ok (svgUpTo allOpts 8 wholeDoc) := by decide +kernel
  have h2 : Apt svgInitial .shapes allOpts (svgUpTo allOpts 8 wholeDoc) := whole_of (by decide +kernel)
  have h3 : cleanDoc svgEnv allOpts wholeDoc = .ok (svgUpTo allOpts 42 wholeDoc) := by decide +kernel
  obtain ⟨d, _, _, _, h⟩ := C71_drawing_partial svgEnv allOpts svgInitial_standard svgInitial_sane h1 h2 h3
  exact ⟨h1, h2, h3, by decide +kernel, by decide +kernel, by decide +kernel, h rfl⟩

/-- What a renderer that satisfies the conditions of `SameDrawing` writes down, before and after: the same, and not nothing. -/
example : picture draftsman 1 (svgUpTo allOpts 8 wholeDoc) = picture draftsman 1 (onPaper (svgUpTo allOpts 42 wholeDoc)) ∧
    (picture draftsman 1 (svgUpTo allOpts 8 wholeDoc)).length = 5 := by decide +kernel

/-- Some options: gradients, text and strokes are allowed. -/
def someOpts : CleaningOptions :=
  { allOpts with
    removeInvalidStops := false, applyTransformToGradients := false, removeDuplLinearGradients := false, removeDuplRadialGradients := false
    mergeGradients := false, regroupGradientStops := false, removeGradientAttributes := false, removeUnusedCoordinates := false
    removeTextAttributes := false, removeUnusedSegments := false }

def pc (q : ℚ) : Value := .length ⟨q, .percent⟩

/-- Two gradients with all their attributes (the preparation adds missing ones, as hidden attributes), one of them is not used; text and strokes. -/
def someDoc : Forest :=
  .cons (el 0 .svg "" [(.version, .str "1.1")])
    (leaf (el 1 .title "" [])
    (.cons (el 2 .defs "" [])
      (.cons (el 5 .linearGradient "two" [(.x1, pc 0), (.y1, pc 0), (.x2, pc 100), (.y2, pc 0), (.gradientUnits, .kw .objectBoundingBox), (.spreadMethod, .kw .pad)]) (leaf (el 6 .stop "" [(.offset, px 0), (.stopColor, .color 1 2 3), (.stopOpacity, .number 1)]) (leaf (el 7 .stop "" [(.offset, px 1), (.stopColor, .color 4 5 6), (.stopOpacity, .number 1)]) .nil))
      (.cons (el 8 .radialGradient "three" [(.cx, pc 50), (.cy, pc 50), (.r, pc 50), (.fx, pc 50), (.fy, pc 50), (.gradientUnits, .kw .objectBoundingBox), (.spreadMethod, .kw .pad)]) (leaf (el 9 .stop "" [(.offset, px 0), (.stopColor, .color 1 2 3), (.stopOpacity, .number 1)]) .nil) .nil))
    (.cons (el 10 .g "" [(.opacity, .number (1/2)), (.transform, .transform ⟨1, 0, 0, 1, 5, 5⟩)]) (leaf (el 11 .rect "" [(.width, px 5), (.height, px 7), (.fill, .funcLink 5)]) .nil)
    (.cons (el 15 .text "" [(.stroke, .color 7 7 7)]) (leaf ⟨16, .text "text", "", []⟩ .nil)
    (leaf (el 17 .path "" [(.d, .path [⟨true, .moveTo 1 1⟩, ⟨true, .curveTo 1 5 5 1 5 5⟩, ⟨false, .smooth 1 1 2 3⟩, ⟨false, .hline 9⟩]), (.stroke, .color 7 7 7), (.strokeWidth, px 2), (.transform, .transform ⟨2, 0, 0, 2, 3, 0⟩)])
    (leaf (el 18 .circle "" [(.r, px 5), (.stroke, .color 7 7 7), (.fill, .color 0 0 0)]) .nil)))))) .nil

example : runUpTo svgEnv someOpts 8 someDoc = .ok (svgUpTo someOpts 8 someDoc) ∧ Apt svgInitial .shapes someOpts (svgUpTo someOpts 8 someDoc) ∧
    cleanDoc svgEnv someOpts someDoc = .ok (svgUpTo someOpts 42 someDoc) ∧ (svgUpTo someOpts 8 someDoc).keys = [0, 2, 5, 6, 7, 8, 9, 1, 10, 11, 15, 16, 17, 18] ∧
    (svgUpTo someOpts 42 someDoc).keys = [0, 5, 6, 7, 11, 19, 15, 16, 17, 18] ∧
    SameDrawing svgInitial (svgUpTo someOpts 8 someDoc) (onPaper (svgUpTo someOpts 42 someDoc)) := by
  have h1 : runUpTo svgEnv someOpts 8 someDoc = .ok (svgUpTo someOpts 8 someDoc) := by decide +kernel
  have h2 : Apt svgInitial .shapes someOpts (svgUpTo someOpts 8 someDoc) := whole_of (by decide +kernel)
  have h3 : cleanDoc svgEnv someOpts someDoc = .ok (svgUpTo someOpts 42 someDoc) := by decide +kernel
  obtain ⟨d, _, _, _, h⟩ := C71_drawing_partial svgEnv someOpts svgInitial_standard svgInitial_sane h1 h2 h3
  exact ⟨h1, h2, h3, by decide +kernel, by decide +kernel, h rfl⟩

end Verif.Whole
