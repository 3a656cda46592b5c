import Verif.Stops
import Verif.ConvShapes
import Verif.Gradients
/-
Models of `src/task/apply_transforms/` (`mod.rs`, `gradients.rs`, `shapes.rs`, `preproc.rs`), of `recalc_stroke` in
`src/task/utils.rs` and of `process_paths` in `src/task/paths/mod.rs`.
-/
namespace Verif.Dom

/-- `for node in doc.descendants()` with a body that changes only the node, may panic (`none`) and may look at the
ancestors, which have been visited before. -/
def Forest.mapCtx (g : List Node → Node → Option Node) : List Node → Forest → Option Forest
  | _, .nil => some .nil
  | anc, .cons n k r =>
    (g anc n).bind fun n' => (k.mapCtx g (n' :: anc)).bind fun k' => (r.mapCtx g anc).map fun r' => .cons n' k' r'

end Verif.Dom

namespace Verif.ApplyTs
open Verif.Dom Verif.ConvShapes
open Verif.Paths hiding size
open Verif.Stops hiding size
open Verif.Stops (size)

/-! ### svgdom's `Transform` -/

/-- `Transform::has_skew` of svgdom: `atan2(d, c)` is not 90 degrees or `atan2(b, a)` is not 0. -/
def hasSkew (t : Transform) : Bool := !(decide (t.c = 0) && decide (0 < t.d) && decide (t.b = 0) && decide (0 < t.a))

/-- `Transform::has_scale` of svgdom, for a transform without skew: `get_scale` gives `(a, d)`. -/
def hasScale (t : Transform) : Bool := decide (t.a ≠ 1) || decide (t.d ≠ 1)

/-- `Transform::append` of svgdom: the matrix product `s * t`. -/
def append (s t : Transform) : Transform :=
  ⟨s.a * t.a + s.c * t.b, s.b * t.a + s.d * t.b, s.a * t.c + s.c * t.d, s.b * t.c + s.d * t.d,
   s.a * t.e + s.c * t.f + s.e, s.b * t.e + s.d * t.f + s.f⟩

/-! ### apply_transforms/mod.rs -/

/-- `is_valid_transform`, `src/task/apply_transforms/mod.rs:48-64`: no skew, and the same scale in both directions. -/
def isValidTransform (t : Transform) : Bool := !hasSkew t && decide (t.a = t.d)

/-- `get_ts`, `src/task/apply_transforms/mod.rs:146-151`; `none` is `unreachable!`. -/
def getTs (n : Node) : Option Transform :=
  match n.get .transform with
  | some (.transform t) => some t
  | _ => none

/-- `has_valid_transform`, `src/task/apply_transforms/mod.rs:39-46` -/
def hasValidTransform (n : Node) : Option Bool :=
  if n.has .transform then (getTs n).map isValidTransform else some true

/-- `is_valid_attr`, `src/task/apply_transforms/mod.rs:80-92`; the list is the node and its ancestors, nearest first. -/
def isValidAttr (a : AId) : List Node → Bool
  | [] => true
  | n :: t =>
    match n.get a with
    | some (.funcLink _) => false
    | some _ => true
    | none => isValidAttr a t

/-- `is_valid_attrs`, `src/task/apply_transforms/mod.rs:69-77` -/
def isValidAttrs (anc : List Node) : Bool :=
  [AId.fill, .stroke, .filter, .mask, .clipPath].all (fun a => isValidAttr a anc)

/-- `is_valid_coord`, `src/task/apply_transforms/mod.rs:110-116` -/
def isValidCoord (n : Node) (a : AId) : Bool :=
  match n.get a with
  | some (.length l) => decide (l.unit = .none)
  | _ => true

/-- `is_valid_coords`, `src/task/apply_transforms/mod.rs:95-125`, for an element with the tag name `e`. -/
def isValidCoords (n : Node) : EId → Bool
  | .rect => [AId.x, .y].all (isValidCoord n)
  | .circle | .ellipse => [AId.cx, .cy].all (isValidCoord n)
  | .line | .linearGradient => [AId.x1, .y1, .x2, .y2].all (isValidCoord n)
  | .radialGradient => [AId.cx, .cy, .fx, .fy, .r].all (isValidCoord n)
  | _ => false

/-- `transform_coords`, `src/task/apply_transforms/mod.rs:127-137` -/
def transformCoords (n : Node) (ax ay : AId) (t : Transform) : Node :=
  let p := t.apply (lenOf n ax).num (lenOf n ay).num
  (n.set ax (.length ⟨p.1, .none⟩)).set ay (.length ⟨p.2, .none⟩)

/-- `scale_coord`, `src/task/apply_transforms/mod.rs:139-143` -/
def scaleLen (s : ℚ) : Value → Value
  | .length l => .length ⟨l.num * s, l.unit⟩
  | v => v
def scaleCoord (n : Node) (a : AId) (s : ℚ) : Node := modValue n a (scaleLen s)

/-! ### utils.rs -/

/-- "Resolve current value", `src/task/utils.rs:35-46`, `60-70`: the own value, else that of the nearest ancestor. -/
def nearest (a : AId) (anc : List Node) : Option Value := anc.findSome? (fun m => m.get a)

/-- `AttributeValue::default_value` of svgdom, for the two attributes it is called with. -/
def strokeDefault : AId → Value
  | .strokeWidth => .length ⟨1, .none⟩
  | _ => .length ⟨0, .none⟩

/-- `recalc_stroke_num`, `src/task/utils.rs:33-54` -/
def recalcNum (anc : List Node) (n : Node) (a : AId) (s : ℚ) : Node :=
  match (nearest a (n :: anc)).getD (strokeDefault a) with
  | .length l => if l.num ≠ 0 then n.set a (.length ⟨l.num * s, l.unit⟩) else n
  | _ => n

/-- `recalc_stroke_dasharray`, `src/task/utils.rs:56-80` -/
def recalcDash (anc : List Node) (n : Node) (s : ℚ) : Node :=
  match nearest .strokeDasharray (n :: anc) with
  | some (.lengthList l) => n.set .strokeDasharray (.lengthList (l.map fun x => ⟨x.num * s, x.unit⟩))
  | _ => n

/-- `recalc_stroke`, `src/task/utils.rs:27-31` -/
def recalcStroke (anc : List Node) (n : Node) (s : ℚ) : Node :=
  recalcNum anc (recalcDash anc (recalcNum anc n .strokeWidth s) s) .strokeDashoffset s

/-- "if ts.has_scale() { ... recalc_stroke(node, sx) }", `src/task/apply_transforms/shapes.rs:60-64` and
`src/task/paths/mod.rs:54-60`. -/
def rescaleStroke (anc : List Node) (n : Node) (t : Transform) : Node := if hasScale t then recalcStroke anc n t.a else n

/-! ### apply_transforms/shapes.rs -/

/-- The closures of `process_rect`, `process_circle`, `process_ellipse` and `process_line`,
`src/task/apply_transforms/shapes.rs:67-111`. -/
def moveRect (n : Node) (t : Transform) : Node :=
  let n := transformCoords n .x .y t
  if hasScale t then scaleCoord (scaleCoord (scaleCoord (scaleCoord n .width t.a) .height t.a) .rx t.a) .ry t.a else n
def moveCircle (n : Node) (t : Transform) : Node :=
  let n := transformCoords n .cx .cy t
  if hasScale t then scaleCoord n .r t.a else n
def moveEllipse (n : Node) (t : Transform) : Node :=
  let n := transformCoords n .cx .cy t
  if hasScale t then scaleCoord (scaleCoord n .rx t.a) .ry t.a else n
def moveLine (n : Node) (t : Transform) : Node := transformCoords (transformCoords n .x1 .y1 t) .x2 .y2 t

/-- `process`, `src/task/apply_transforms/shapes.rs:43-65` -/
def processShape (move : Node → Transform → Node) (e : EId) (anc : List Node) (n : Node) : Option Node :=
  (hasValidTransform n).bind fun ok =>
    if !ok || !isValidAttrs (n :: anc) || !isValidCoords n e then some n
    else (getTs n).map fun t => rescaleStroke anc ((move n t).rm .transform) t

/-- The loop body of `apply_transform_to_shapes`, `src/task/apply_transforms/shapes.rs:31-40`; an element outside the
SVG namespace makes `tag_id().unwrap()` panic. -/
def shapeBody (anc : List Node) (n : Node) : Option Node :=
  if n.has .transform then
    match n.kind with
    | .elem .rect => processShape moveRect .rect anc n
    | .elem .circle => processShape moveCircle .circle anc n
    | .elem .ellipse => processShape moveEllipse .ellipse anc n
    | .elem .line => processShape moveLine .line anc n
    | .elem _ => some n
    | _ => none
  else some n

/-- `apply_transform_to_shapes`, `src/task/apply_transforms/shapes.rs:29-41` -/
def applyToShapes (f : Forest) : Option Forest := f.mapCtx shapeBody []

/-! ### paths/mod.rs -/

/-- The part of the loop body of `process_paths` that handles the transform, `src/task/paths/mod.rs:43-63`: the changed
node and the transform to be applied to the path. -/
def takeTransform (apply : Bool) (anc : List Node) (n : Node) : Option (Node × Option Transform) :=
  if apply && n.has .transform then
    (getTs n).map fun t =>
      if isValidTransform t && isValidAttrs (n :: anc) then (rescaleStroke anc (n.rm .transform) t, some t)
      else (n, none)
  else some (n, none)

/-- `process_path` for an attribute value, `src/task/paths/mod.rs:65-68`. -/
def processPathValue (hasMarker : Bool) (ts : Option Transform) (o : PathOpts) : Value → Option Value
  | .path p => (processPath p hasMarker (ts.map fun t => (t, t.a)) o).map .path
  | v => some v

/-- The loop body of `process_paths`, `src/task/paths/mod.rs:35-69`; `apply` is `apply_transform_to_paths`. -/
def pathBody (apply : Bool) (o : PathOpts) (anc : List Node) (n : Node) : Option Node :=
  if n.isTag .path then
    let hasMarker := n.has .marker || n.has .markerStart || n.has .markerMid || n.has .markerEnd
    (takeTransform apply anc n).bind fun (n, ts) =>
      match n.get .d with
      | some v => (processPathValue hasMarker ts o v).map fun v' => modValue n .d (fun _ => v')
      | none => some n
  else some n

/-- `process_paths`, `src/task/paths/mod.rs:34-70` -/
def processPaths (apply : Bool) (o : PathOpts) (f : Forest) : Option Forest := f.mapCtx (pathBody apply o) []

/-! ### apply_transforms/gradients.rs -/

/-- The changes to a gradient, `src/task/apply_transforms/gradients.rs:71-86`. -/
def moveGradient (n : Node) (t : Transform) : Node :=
  let m :=
    if n.isTag .linearGradient then transformCoords (transformCoords n .x1 .y1 t) .x2 .y2 t
    else
      let n := transformCoords (transformCoords n .cx .cy t) .fx .fy t
      if hasScale t then scaleCoord n .r t.a else n
  m.rm .gradientTransform

/-- "link.has_attribute(AId::GradientTransform)", `src/task/apply_transforms/gradients.rs:52-56` -/
def linkHasTransform (f : Forest) (n : Node) : Bool :=
  match n.get .xlinkHref with
  | some (.link k) => (match f.find k with | some m => m.has .gradientTransform | none => false)
  | _ => false

/-- The loop body of `apply_transform_to_gradients`, `src/task/apply_transforms/gradients.rs:33-87`, for the gradient
with key `k`. -/
def gradientBody (k : Nat) (f : Forest) : Option Forest :=
  match f.find k with
  | none => some f
  | some n =>
    if n.isGradient && n.has .gradientTransform then
      if (f.linkedNodes k).any (fun m => m.isGradient) then some f
      else if linkHasTransform f n then some f
      else
        match n.get .gradientTransform with
        | some (.transform t) =>
          if !isValidTransform t then some f
          else if !isValidCoords n (if n.isTag .linearGradient then .linearGradient else .radialGradient) then some f
          else some (f.modify k (fun n => moveGradient n t))
        | _ => none
    else some f

/-- `apply_transform_to_gradients`, `src/task/apply_transforms/gradients.rs:28-88` -/
def applyToGradients (f : Forest) : Option Forest := Gradients.forEach gradientBody f.keys f

/-! ### apply_transforms/preproc.rs -/

/-- The options `prepare_transforms` looks at. -/
structure TsOpts where
  shapes : Bool
  pathsToRelative : Bool
  paths : Bool
  deriving DecidableEq, Repr

/-- `valid_elems`, `src/task/apply_transforms/preproc.rs:32-46` (before `g` is added). -/
def validElems (o : TsOpts) : List EId :=
  (if o.shapes then [.rect, .circle, .ellipse, .line] else []) ++ (if o.pathsToRelative && o.paths then [.path] else [])

/-- The check of one child, `src/task/apply_transforms/preproc.rs:57-68`; `anc` are the group and its ancestors.
Rust's `&&` does not evaluate `has_valid_transform`, which may panic, for elements that are not valid. -/
def validChild (o : TsOpts) (anc : List Node) (n : Node) : Option Bool :=
  match n.kind with
  | .elem e =>
    if e ∈ EId.g :: validElems o then
      (hasValidTransform n).map fun ok =>
        ok && isValidAttrs (n :: anc) && (decide (e = .path) || decide (e = .g) || isValidCoords n e)
    else some false
  | _ => some true

/-- `all` over the children. -/
def validChildren (o : TsOpts) (anc : List Node) : Forest → Option Bool
  | .nil => some true
  | .cons n _ r => (validChild o anc n).bind fun b => if b then validChildren o anc r else some false

/-- `apply_ts_to_children`, `src/task/apply_transforms/preproc.rs:82-94` -/
def pushTransform (t : Transform) : Forest → Option Forest
  | .nil => some .nil
  | .cons n k r =>
    (if n.isSvgElem then
      if n.has .transform then (getTs n).map fun t2 => n.set .transform (.transform (append t t2))
      else some (n.set .transform (.transform t))
    else some n).bind fun n' => (pushTransform t r).map fun r' => .cons n' k r'

theorem pushTransform_size {t : Transform} {f g : Forest} (h : pushTransform t f = some g) : size g = size f := by
  induction f generalizing g with
  | nil => simp [pushTransform] at h; rw [← h]
  | cons n k r _ ih =>
    simp only [pushTransform, Option.bind_eq_some_iff, Option.map_eq_some_iff] at h
    obtain ⟨n', _, r', hr, rfl⟩ := h
    simp [size, ih hr]

/-- What `prepare_transforms` does to one group and its children, `src/task/apply_transforms/preproc.rs:51-75`; the
last component says that the loop body was not left by `continue`. -/
def prepareGroup (o : TsOpts) (anc : List Node) (n : Node) (k : Forest) : Option (Node × Forest × Bool) :=
  if n.isTag .g && n.has .transform then
    (hasValidTransform n).bind fun ok =>
      if !ok || !isValidAttrs (n :: anc) then some (n, k, false)
      else
        (validChildren o (n :: anc) k).bind fun v =>
          if v then (getTs n).bind fun t => (pushTransform t k).map fun k' => (n.rm .transform, k', true)
          else some (n, k, true)
  else some (n, k, false)

theorem prepareGroup_size {o : TsOpts} {anc : List Node} {n n' : Node} {k k' : Forest} {b : Bool}
    (h : prepareGroup o anc n k = some (n', k', b)) : size k' = size k := by
  unfold prepareGroup at h
  split at h
  · simp only [Option.bind_eq_some_iff] at h
    obtain ⟨ok, _, h⟩ := h
    split at h
    · cases h; rfl
    · simp only [Option.bind_eq_some_iff] at h
      obtain ⟨v, _, h⟩ := h
      split at h
      · simp only [Option.bind_eq_some_iff, Option.map_eq_some_iff] at h
        obtain ⟨t, _, k1, hk, h⟩ := h
        cases h
        exact pushTransform_size hk
      · cases h; rfl
  · cases h; rfl

/-- The loop of `prepare_transforms`, `src/task/apply_transforms/preproc.rs:48-79`, over a forest; `stop` says that the
loop has been left by `break`. -/
def prepareGo (o : TsOpts) (recursive : Bool) (anc : List Node) (f : Forest) (stop : Bool) : Option (Forest × Bool) :=
  match f with
  | .nil => some (.nil, stop)
  | .cons n k r =>
    if stop then some (.cons n k r, true)
    else
      match h : prepareGroup o anc n k with
      | none => none
      | some (n', k', tried) =>
        have := prepareGroup_size h
        if tried && !recursive then some (.cons n' k' r, true)
        else
          (prepareGo o recursive (n' :: anc) k' false).bind fun a =>
            (prepareGo o recursive anc r a.2).map fun b => (.cons n' a.1 b.1, b.2)
termination_by size f
decreasing_by all_goals simp only [size]; omega

/-- `prepare_transforms`, `src/task/apply_transforms/preproc.rs:31-80`, for the node `n` with the children `k`; `anc` are
the ancestors of `n`.  `parent.descendants()` starts with `parent` itself. -/
def prepareTransforms (o : TsOpts) (recursive : Bool) (anc : List Node) (n : Node) (k : Forest) : Option (Node × Forest) :=
  if validElems o = [] then some (n, k)
  else (prepareGo o recursive anc (.cons n k .nil) false).bind fun a =>
    match a.1 with
    | .cons n' k' _ => some (n', k')
    | .nil => none

end Verif.ApplyTs
