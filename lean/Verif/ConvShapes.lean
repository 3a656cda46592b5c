import Verif.Simple
/-
Model of `src/task/conv_shapes.rs`.
-/
namespace Verif.Dom

/-- `for node in doc.descendants()` with a body that may panic (`none`) and changes only the node. -/
def Forest.mapOpt (g : Node → Option Node) : Forest → Option Forest
  | .nil => some .nil
  | .cons n k r => (g n).bind fun n' => (k.mapOpt g).bind fun k' => (r.mapOpt g).map fun r' => .cons n' k' r'

/-- `node.set_tag_name(e)` -/
def Node.retag (n : Node) (e : EId) : Node := { n with kind := .elem e }

end Verif.Dom

namespace Verif.ConvShapes
open Verif.Dom Verif.Paths

/-- `get_value!(attrs, Length, aid, Length::zero())`, `src/task/macros.rs:63-71` -/
def lenOf (n : Node) (a : AId) : Len :=
  match n.get a with
  | some (.length l) => l
  | _ => ⟨0, .none⟩

/-- `convert_line`, `src/task/conv_shapes.rs:48-75` -/
def convertLine (n : Node) : Node :=
  let x1 := lenOf n .x1
  let y1 := lenOf n .y1
  let x2 := lenOf n .x2
  let y2 := lenOf n .y2
  if x1.unit = .none ∧ y1.unit = .none ∧ x2.unit = .none ∧ y2.unit = .none then
    (((((n.set .d (.path [mkAbs (.moveTo x1.num y1.num), mkAbs (.lineTo x2.num y2.num)])).retag .path).rm .x1).rm
      .y1).rm .x2).rm .y2
  else n

/-- `convert_rect`, `src/task/conv_shapes.rs:77-120` -/
def convertRect (n : Node) : Node :=
  let rx := lenOf n .rx
  let ry := lenOf n .ry
  if rx.num ≠ 0 ∨ ry.num ≠ 0 then n
  else
    let w := lenOf n .width
    let h := lenOf n .height
    if w.num = 0 ∨ h.num = 0 then n
    else
      let x := lenOf n .x
      let y := lenOf n .y
      if x.unit = .none ∧ y.unit = .none ∧ w.unit = .none ∧ h.unit = .none then
        (((((((n.set .d (.path [mkAbs (.moveTo x.num y.num), mkAbs (.hline (x.num + w.num)), mkAbs (.vline (y.num + h.num)),
          mkAbs (.hline x.num), mkAbs .close])).retag .path).rm .x).rm .y).rm .rx).rm .ry).rm .width).rm .height
      else n

/-- The loop of `points_to_path`, `src/task/conv_shapes.rs:164-174`; `none` is an index out of bounds. -/
def pointSegs (first : Bool) : List ℚ → Option Path
  | [] => some []
  | [_] => none
  | x :: y :: t => (pointSegs false t).map fun p => mkAbs (if first then .moveTo x y else .lineTo x y) :: p

/-- `convert_polyline` and `convert_polygon`, `src/task/conv_shapes.rs:122-148`, with `points_to_path` (`150-177`). -/
def convertPoly (closed : Bool) (n : Node) : Option Node :=
  match n.get .points with
  | some (.numberList v) =>
    (pointSegs true v).map fun p =>
      ((n.retag .path).set .d (.path (if closed then p ++ [mkAbs .close] else p))).rm .points
  | _ => some n

/-- The `match` in `convert_shapes_to_paths`, `src/task/conv_shapes.rs:38-44`. -/
def convertNode (n : Node) : Option Node :=
  match n.kind with
  | .elem .line => some (convertLine n)
  | .elem .rect => some (convertRect n)
  | .elem .polyline => convertPoly false n
  | .elem .polygon => convertPoly true n
  | _ => some n

/-- `convert_shapes_to_paths`, `src/task/conv_shapes.rs:36-46` -/
def convertShapes (f : Forest) : Option Forest := f.mapOpt convertNode

end Verif.ConvShapes
