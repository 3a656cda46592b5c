import Verif.IdemResolve
/-
C67: more tasks that find something to do in their own result.
-/
namespace Verif.Idem
open Verif.Dom Verif.Spec Verif.Pipeline

/-- A path that a `use` element and a mask of another used element refer to. -/
def useDoc : Forest := doc (.cons (el 1 .defs "" []) (leaf (el 2 .path "a" []) (leaf (el 3 .rect "b" [(.mask, .funcLink 2)]) (leaf (el 4 .mask "m" []) .nil)))
  (leaf (el 5 .use "" [(.xlinkHref, .link 2)]) (leaf (el 6 .use "" [(.xlinkHref, .link 3), (.mask, .funcLink 4)]) .nil)))

/-- When the second `use` element is resolved, its mask replaces that of the element, and the path is used once only. -/
theorem C67_refuted_use : ¬ Settles Parsed (may ResolveUse.resolveUse) :=
  unsettled' (f := useDoc) (by decide +kernel) (by decide +kernel)

/-- A clip path with an invisible rectangle. -/
def clipRect : Forest := doc (.cons (el 9 .defs "" []) (.cons (el 1 .clipPath "c" []) (leaf (el 2 .rect "" [(.width, px 0), (.height, px 5)]) .nil) .nil)
  (leaf (el 3 .rect "" [(.width, px 5), (.height, px 5), (.clipPath, .funcLink 1)]) .nil))

/-- The rectangle goes after the clip paths have been looked at: the second run takes the clip path for an empty one. -/
theorem C67_refuted_invisible : ¬ Settles Parsed (may Invisible.removeInvisible) :=
  unsettled' (f := clipRect) (by decide +kernel) (by decide +kernel)

/-- A used group with a transform that cannot be given to the first of its children, an empty group. -/
def pushDoc : Forest := doc (.cons (el 1 .g "z" [(.transform, .transform ⟨1, 0, 0, 1, 5, 5⟩)]) (leaf (el 2 .g "" [(.transform, .transform ⟨1, 2, 0, 1, 5, 5⟩)])
  (.cons (el 3 .g "" [(.fill, red)]) (leaf (el 4 .rect "" [(.width, px 5)]) (leaf (el 5 .rect "" []) .nil)) .nil)) (leaf (el 6 .use "" [(.xlinkHref, .link 1)]) .nil))

/-- When the empty group is gone the transform moves by one level; the second run moves it further. -/
theorem C67_refuted_ungroup : ¬ Settles Parsed (tasks env { applyTransformToShapes := true }).ungroupGroups :=
  unsettled' (f := pushDoc) (by decide +kernel) (by decide +kernel)

open Verif.Paths in
/-- Two curves that continue each other smoothly, with a line without length between them. -/
def curves : List Seg := [⟨true, .moveTo 0 0⟩, ⟨true, .curveTo 0 5 5 10 10 10⟩, ⟨true, .lineTo 10 10⟩, ⟨true, .curveTo 15 10 20 20 30 40⟩]

def curveDoc : Forest := doc (leaf (el 1 .path "" [(.d, .path curves)]) .nil)

/-- When the line is gone, the second curve can be written as a smooth one. -/
theorem C67_refuted_paths : ¬ Settles Parsed (tasks env { convertSegments := true, removeUnusedSegments := true }).processPaths :=
  unsettled' (f := curveDoc) (by decide +kernel) (by decide +kernel)

def radial (k : Nat) (i : String) (more : List (AId × Value)) : Node := el k .radialGradient i
  ([(.cx, px 0), (.cy, px 0), (.r, px 1), (.fx, px 0), (.fy, px 0), (.gradientUnits, .kw .userSpaceOnUse), (.spreadMethod, .kw .pad)] ++ more)

def radialChain : Forest := doc (leaf (radial 1 "a" [(.xlinkHref, .link 3)]) (leaf (radial 2 "b" [(.xlinkHref, .link 4)]) (leaf (radial 3 "c" []) (leaf (radial 4 "d" []) .nil))))

theorem C67_refuted_radial_duplicates : ¬ Settles Parsed (may Dupl.rmRadial) :=
  unsettled' (f := radialChain) (by decide +kernel) (by decide +kernel)

def blurFilter (k : Nat) (i j : String) (more : List (AId × Value)) (r : Forest) : Forest :=
  .cons (el k .filter i more) (leaf (el (k + 1) .feGaussianBlur j [(.stdDeviation, .number 2)]) .nil) r

/-- Three equal blurs; the last one refers to the primitive of the first one. -/
def blurChain : Forest := doc (blurFilter 1 "a" "p" [] (blurFilter 3 "b" "" [] (blurFilter 5 "c" "" [(.fill, .funcLink 2)] .nil)))

/-- When the last filter is gone, the primitive of the first one is no longer used, and the second filter is a duplicate, too. -/
theorem C67_refuted_blurs : ¬ Settles Parsed (may Dupl.rmBlurs) :=
  unsettled' (f := blurChain) (by decide +kernel) (by decide +kernel)

/-- With join-style all, a second run replaces the style by an empty one. -/
theorem C67_refuted_join : ¬ Settles Parsed (sure (Simple.joinStyleAttributes (fun _ => ['f']) (fun _ => ['v']) .all)) :=
  unsettled' (f := doc (leaf (el 1 .rect "" [(.fill, red)]) .nil)) (by decide +kernel) (by decide +kernel)

end Verif.Idem
