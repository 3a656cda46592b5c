import Verif.PipelineEnds
/-
C61: no option is without effect.
-/
namespace Verif.Pipeline
open Verif.Dom Verif.Spec
open Verif.Dom (Res)
open Verif.Cli (CleaningOptions)
open Verif.Paths (mkAbs)

/-- There is a document on which runs with these options and with those both end, with different results. -/
def Differ (o o' : CleaningOptions) : Prop :=
  ∃ E f g h, Parsed f ∧ cleanDoc E o f = .ok g ∧ cleanDoc E o' f = .ok h ∧ g ≠ h

/-- Both runs end, with different results. -/
def differ (E : Env) (o o' : CleaningOptions) (f : Forest) : Bool :=
  match cleanDoc E o f, cleanDoc E o' f with
  | .ok g, .ok h => decide (g ≠ h)
  | _, _ => false

theorem Differ.of {o o' : CleaningOptions} (E : Env) (f : Forest) (hp : Parsed f) (h : differ E o o' f = true) : Differ o o' := by
  unfold differ at h
  split at h
  next g h' h1 h2 => exact ⟨E, f, g, h', hp, h1, h2, of_decide_eq_true h⟩
  · cases h

/-- Default values: of `fill-opacity` only. -/
def envD : Env := ⟨fun a => if a = .fillOpacity then some (.number 1) else none, fun _ => [], fun _ => []⟩

def rect (k : Nat) (as : List (AId × Value)) : Node := el k .rect "" ([(.width, px 10), (.height, px 5)] ++ as)
def grad (k : Nat) (e : EId) (i : String) (as : List (AId × Value)) (c d : Nat) : Forest → Forest :=
  .cons (el k e i as) (leaf (el (k + 1) .stop "" [(.offset, px 0), (.stopColor, .color c 2 3)])
    (leaf (el (k + 2) .stop "" [(.offset, px 1), (.stopColor, .color d 5 6)]) .nil))

def twoGradients (e : EId) : Forest :=
  doc (grad 10 e "a" [] 1 2 (grad 20 e "b" [] 1 2 (leaf (rect 1 [(.fill, .funcLink 10)]) (leaf (rect 2 [(.fill, .funcLink 20)]) .nil))))

def twoBlurs : Forest :=
  doc (.cons (el 10 .filter "a" []) (leaf (el 11 .feGaussianBlur "" [(.stdDeviation, .numberList [2])]) .nil)
    (.cons (el 20 .filter "b" []) (leaf (el 21 .feGaussianBlur "" [(.stdDeviation, .numberList [2])]) .nil)
      (leaf (rect 1 [(.filter, .funcLink 10)]) (leaf (rect 2 [(.filter, .funcLink 20)]) .nil))))

def aPath (as : List (AId × Value)) : Forest :=
  doc (leaf (el 1 .path "" ([(.d, .path [mkAbs (.moveTo 10 20), mkAbs (.lineTo 30 20), mkAbs (.lineTo 30 20), mkAbs (.lineTo 50 60)])] ++ as)) .nil)

def third : ℚ := 1 / 3

theorem C61_removeUnusedDefs : Differ {} { removeUnusedDefs := true } := .of env (doc (leaf (el 1 .linearGradient "" []) .nil)) (by decide +kernel) (by decide +kernel)
theorem C61_convertShapes : Differ {} { convertShapes := true } := .of env (doc (leaf (rect 1 []) .nil)) (by decide +kernel) (by decide +kernel)
theorem C61_removeTitle : Differ {} { removeTitle := true } := .of env (doc (leaf (el 1 .title "" []) .nil)) (by decide +kernel) (by decide +kernel)
theorem C61_removeDesc : Differ {} { removeDesc := true } := .of env (doc (leaf (el 1 .desc "" []) .nil)) (by decide +kernel) (by decide +kernel)
theorem C61_removeMetadata : Differ {} { removeMetadata := true } := .of env (doc (leaf (el 1 .metadata "" []) .nil)) (by decide +kernel) (by decide +kernel)
theorem C61_removeDuplLinearGradients : Differ {} { removeDuplLinearGradients := true } := .of env (twoGradients .linearGradient) (by decide +kernel) (by decide +kernel)
theorem C61_removeDuplRadialGradients : Differ {} { removeDuplRadialGradients := true } := .of env (twoGradients .radialGradient) (by decide +kernel) (by decide +kernel)
theorem C61_removeDuplFeGaussianBlur : Differ {} { removeDuplFeGaussianBlur := true } := .of env twoBlurs (by decide +kernel) (by decide +kernel)
theorem C61_ungroupGroups : Differ {} { ungroupGroups := true } := .of env (doc (.cons (el 1 .g "" []) (leaf (rect 2 []) .nil) .nil)) (by decide +kernel) (by decide +kernel)
theorem C61_ungroupDefs : Differ {} { ungroupDefs := true } := .of env (twoGradients .linearGradient) (by decide +kernel) (by decide +kernel)
theorem C61_groupByStyle : Differ {} { groupByStyle := true } :=
  .of env (doc (leaf (rect 1 [(.fill, .color 1 1 1)]) (leaf (rect 2 [(.fill, .color 1 1 1)]) (leaf (rect 3 [(.fill, .color 1 1 1)]) .nil)))) (by decide +kernel) (by decide +kernel)
theorem C61_mergeGradients : Differ {} { mergeGradients := true } := .of env sample (by decide +kernel) (by decide +kernel)
theorem C61_regroupGradientStops : Differ {} { regroupGradientStops := true } := .of env (twoGradients .linearGradient) (by decide +kernel) (by decide +kernel)
theorem C61_removeInvalidStops : Differ {} { removeInvalidStops := true } :=
  .of env (doc (.cons (el 1 .linearGradient "a" []) (leaf (el 2 .stop "" [(.offset, px 0)]) (leaf (el 3 .stop "" [(.offset, px 0)]) (leaf (el 4 .stop "" [(.offset, px 0)])
    (leaf (el 5 .stop "" [(.offset, px 1)]) .nil)))) .nil)) (by decide +kernel) (by decide +kernel)
theorem C61_removeInvisibleElements : Differ {} { removeInvisibleElements := true } := .of env (doc (leaf (rect 1 [(.display, .kw .none)]) .nil)) (by decide +kernel) (by decide +kernel)
theorem C61_resolveUse : Differ {} { resolveUse := true } :=
  .of env (doc (.cons (el 1 .defs "" []) (leaf (el 2 .rect "r" [(.width, px 10), (.height, px 5)]) .nil) (leaf (el 3 .use "" [(.xlinkHref, .link 2)]) .nil))) (by decide +kernel) (by decide +kernel)
theorem C61_removeVersion : Differ {} { removeVersion := true } := .of env (.cons (el 0 .svg "" [(.version, .str "1.1")]) .nil .nil) (by decide +kernel) (by decide +kernel)
theorem C61_removeUnreferencedIds : Differ {} { removeUnreferencedIds := true } := .of env (doc (leaf (el 1 .rect "r" []) .nil)) (by decide +kernel) (by decide +kernel)
theorem C61_trimIds : Differ {} { trimIds := true } := .of env (doc (leaf (el 1 .rect "rr" []) .nil)) (by decide +kernel) (by decide +kernel)
theorem C61_removeTextAttributes : Differ {} { removeTextAttributes := true } := .of env (doc (leaf (rect 1 [(.fontSize, px 10)]) .nil)) (by decide +kernel) (by decide +kernel)
theorem C61_removeUnusedCoordinates : Differ {} { removeUnusedCoordinates := true } := .of env (.cons (el 0 .svg "" [(.x, px 1)]) .nil .nil) (by decide +kernel) (by decide +kernel)
theorem C61_removeDefaultAttributes : Differ {} { removeDefaultAttributes := true } := .of envD (doc (leaf (rect 1 [(.fillOpacity, .number 1)]) .nil)) (by decide +kernel) (by decide +kernel)
theorem C61_removeXmlnsXlinkAttribute : Differ {} { removeXmlnsXlinkAttribute := true } := .of env (.cons (el 0 .svg "" [(.xmlnsXlink, .str "x")]) .nil .nil) (by decide +kernel) (by decide +kernel)
theorem C61_removeNeedlessAttributes : Differ {} { removeNeedlessAttributes := true } := .of env (doc (leaf (rect 1 [(.x1, px 3)]) .nil)) (by decide +kernel) (by decide +kernel)
theorem C61_removeGradientAttributes : Differ {} { removeGradientAttributes := true } :=
  .of env (doc (grad 10 .linearGradient "a" [(.gradientUnits, .kw .userSpaceOnUse)] 1 2
    (leaf (el 20 .linearGradient "b" [(.xlinkHref, .link 10), (.gradientUnits, .kw .userSpaceOnUse)]) .nil))) (by decide +kernel) (by decide +kernel)
theorem C61_applyTransformToGradients : Differ {} { applyTransformToGradients := true } :=
  .of env (doc (grad 10 .linearGradient "a" [(.gradientUnits, .kw .userSpaceOnUse), (.x1, px 1), (.x2, px 2), (.y1, px 3), (.y2, px 4), (.gradientTransform, .transform ⟨1, 0, 0, 1, 5, 5⟩)] 1 2
    (leaf (rect 1 [(.fill, .funcLink 10)]) .nil))) (by decide +kernel) (by decide +kernel)
theorem C61_applyTransformToShapes : Differ {} { applyTransformToShapes := true } :=
  .of env (doc (leaf (rect 1 [(.transform, .transform ⟨1, 0, 0, 1, 5, 5⟩)]) .nil)) (by decide +kernel) (by decide +kernel)
theorem C61_pathsToRelative : Differ {} { pathsToRelative := true } := .of env (aPath []) (by decide +kernel) (by decide +kernel)
theorem C61_removeUnusedSegments : Differ { pathsToRelative := true } { pathsToRelative := true, removeUnusedSegments := true } := .of env (aPath []) (by decide +kernel) (by decide +kernel)
theorem C61_convertSegments : Differ { pathsToRelative := true } { pathsToRelative := true, convertSegments := true } :=
  .of env (doc (leaf (el 1 .path "" [(.d, .path [mkAbs (.moveTo 10 20), mkAbs (.curveTo 10 20 30 50 30 50)])]) .nil)) (by decide +kernel) (by decide +kernel)
theorem C61_applyTransformToPaths : Differ { pathsToRelative := true } { pathsToRelative := true, applyTransformToPaths := true } :=
  .of env (aPath [(.transform, .transform ⟨1, 0, 0, 1, 5, 5⟩)]) (by decide +kernel) (by decide +kernel)
theorem C61_joinStyleAttributes : Differ {} { joinStyleAttributes := .all } ∧ Differ { joinStyleAttributes := .all } { joinStyleAttributes := .some } ∧
    Differ {} { joinStyleAttributes := .some } :=
  ⟨.of env (doc (leaf (rect 1 [(.fill, .color 1 1 1)]) .nil)) (by decide +kernel) (by decide +kernel),
   .of env (doc (leaf (rect 1 [(.fill, .color 1 1 1)]) .nil)) (by decide +kernel) (by decide +kernel),
   .of env (doc (leaf (rect 1 [(.fill, .color 1 1 1), (.opacity, .number 1), (.fillOpacity, .number 1), (.strokeOpacity, .number 1), (.stroke, .color 1 1 1), (.strokeWidth, px 2)]) .nil))
     (by decide +kernel) (by decide +kernel)⟩
theorem C61_coordinatesPrecision : Differ {} { coordinatesPrecision := 1 } := .of env (doc (leaf (el 1 .rect "" [(.width, px third)]) .nil)) (by decide +kernel) (by decide +kernel)
theorem C61_propertiesPrecision : Differ {} { propertiesPrecision := 1 } := .of env (doc (leaf (el 1 .rect "" [(.opacity, .number third)]) .nil)) (by decide +kernel) (by decide +kernel)
theorem C61_pathsCoordinatesPrecision : Differ {} { pathsCoordinatesPrecision := 1 } := .of env (doc (leaf (el 1 .path "" [(.d, .path [mkAbs (.moveTo third 0)])]) .nil)) (by decide +kernel) (by decide +kernel)
theorem C61_transformsPrecision : Differ {} { transformsPrecision := 1 } := .of env (doc (leaf (el 1 .rect "" [(.transform, .transform ⟨third, 0, 0, 1, 0, 0⟩)]) .nil)) (by decide +kernel) (by decide +kernel)

/-! ### C59 and C60 are not vacuous -/

def titled : Forest :=
  .cons (el 0 .svg "" [(.version, .str "1.1")]) (leaf (el 1 .title "" []) (.cons (el 2 .g "" []) (leaf (el 3 .desc "" []) (leaf (el 4 .metadata "" [])
    (leaf (el 5 .rect "r" [(.width, px 10), (.fill, .color 1 2 3), (.transform, .transform one)]) (leaf (el 6 .use "" [(.xlinkHref, .link 5)]) .nil)))) .nil)) .nil

example : Parsed titled ∧ titled.LinksOk ∧ Asked { removeTitle := true } .title ∧ ∃ g, cleanDoc env { removeTitle := true } titled = .ok g ∧ g.keys = [0, 2, 3, 4, 5, 6] :=
  ⟨by decide +kernel, by decide +kernel, .inl ⟨rfl, rfl⟩, after { removeTitle := true } titled, by decide +kernel, by decide +kernel⟩

def mostOn : CleaningOptions := { allOn with resolveUse := false, removeInvisibleElements := false }

example : ∃ g, cleanDoc env mostOn titled = .ok g ∧ g.nodes.all (fun m => m.kind ≠ .elem .desc) ∧ (∃ m ∈ g.nodes, (∃ e, m.kind = .elem e) ∧ m.get .xlinkHref ≠ none) :=
  ⟨after mostOn titled, by decide +kernel, by decide +kernel, el 6 .use "" [(.xlinkHref, .link 5), (.style, .str "")], by decide +kernel, ⟨.use, rfl⟩, by decide +kernel⟩

end Verif.Pipeline
