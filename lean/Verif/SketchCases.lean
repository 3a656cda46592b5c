import Verif.SketchRun
/-
C66: an example.
-/
namespace Verif.Draft
open Verif.Dom Verif.Spec Verif.Render Verif.Pipeline
open Verif.Cli (CleaningOptions)

/-- All options of C66. -/
def sceneOpts : CleaningOptions where
  removeTitle := true
  removeDesc := true
  removeMetadata := true
  removeUnusedDefs := true
  ungroupGroups := true
  removeInvisibleElements := true
  resolveUse := true
  groupByStyle := true
  removeVersion := true
  removeUnreferencedIds := true
  trimIds := true
  ungroupDefs := true
  removeXmlnsXlinkAttribute := true

theorem sceneOpts_only : SceneOnly sceneOpts := by constructor <;> rfl

/-- A title, a group to be taken out, a hidden group, an empty rectangle, a text, three rectangles with the same stroke, a gradient that is used, one
with a single stop, and one that is not used. -/
def sceneDoc : Forest :=
  .cons (el 0 .svg "" [(.version, .str "1.1")])
    (leaf (el 1 .title "" [])
    (.cons (el 2 .defs "" [])
      (.cons (el 3 .linearGradient "one" []) (leaf (el 4 .stop "" [(.offset, px 0), (.stopColor, .color 1 2 3)]) .nil)
      (.cons (el 5 .linearGradient "two" []) (leaf (el 6 .stop "" [(.offset, px 0), (.stopColor, .color 1 2 3)]) (leaf (el 7 .stop "" [(.offset, px 1), (.stopColor, .color 4 5 6)]) .nil))
      (.cons (el 8 .radialGradient "three" []) (leaf (el 9 .stop "" [(.offset, px 0), (.stopColor, .color 1 2 3)]) .nil) .nil)))
    (.cons (el 10 .g "" [(.opacity, .number (1/2)), (.transform, .transform ⟨1, 0, 0, 1, 5, 5⟩)]) (leaf (el 11 .rect "" [(.width, px 5), (.height, px 7), (.fill, .funcLink 3)]) .nil)
    (.cons (el 12 .g "" [(.display, .kw .none)]) (leaf (el 13 .rect "" [(.width, px 5), (.height, px 7), (.fill, .funcLink 8)]) .nil)
    (leaf (el 14 .rect "" [(.width, px 0), (.height, px 7)])
    (.cons (el 15 .text "" [(.stroke, .color 7 7 7)]) (leaf ⟨16, .text "text", "", []⟩ .nil)
    (leaf (el 17 .rect "" [(.width, px 5), (.height, px 7), (.fill, .funcLink 5), (.stroke, .color 7 7 7)])
    (leaf (el 18 .circle "" [(.r, px 5), (.stroke, .color 7 7 7)])
    (leaf (el 19 .rect "" [(.width, px 5), (.height, px 7), (.stroke, .color 7 7 7)]) .nil))))))))) .nil

/-- All options at once: the title, the hidden group, the empty rectangle and two gradients are gone, a group has been taken out and one has been made. -/
example : runUpTo env sceneOpts 8 sceneDoc = .ok (upTo sceneOpts 8 sceneDoc) ∧ Sketch (upTo sceneOpts 8 sceneDoc) ∧
    cleanDoc env sceneOpts sceneDoc = .ok (upTo sceneOpts 42 sceneDoc) ∧ (upTo sceneOpts 8 sceneDoc).keys = [0, 2, 3, 4, 5, 6, 7, 8, 9, 1, 10, 11, 12, 13, 14, 15, 16, 17, 18, 19] ∧
    (upTo sceneOpts 42 sceneDoc).keys = [0, 5, 6, 7, 11, 20, 15, 16, 17, 18, 19] ∧ SameView (upTo sceneOpts 8 sceneDoc) (upTo sceneOpts 42 sceneDoc) := by
  have h1 : runUpTo env sceneOpts 8 sceneDoc = .ok (upTo sceneOpts 8 sceneDoc) := by decide +kernel
  have h2 : Sketch (upTo sceneOpts 8 sceneDoc) := sketch_of (by decide +kernel)
  have h3 : cleanDoc env sceneOpts sceneDoc = .ok (upTo sceneOpts 42 sceneDoc) := by decide +kernel
  obtain ⟨d, _, _, h⟩ := C66_look_partial env sceneOpts sceneOpts_only h1 h2 h3
  exact ⟨h1, h2, h3, by decide +kernel, by decide +kernel, h rfl⟩

end Verif.Draft
