import Verif.Round
import Verif.ConvShapes
/-
Model of `round_numbers`, `src/task/round_numbers.rs:28-114`: which numbers of a document are rounded, and to how many places.
-/
namespace Verif.Round
open Verif.Dom

/-- The four precisions of `CleaningOptions`, `src/options.rs:64-71`. -/
structure Precisions where
  coordinates : Nat
  properties : Nat
  paths : Nat
  transforms : Nat
  deriving DecidableEq, Repr

/-- The attributes rounded with the precision of coordinates, `src/task/round_numbers.rs:39-48`. -/
def isCoord : AId → Bool
  | .x | .y | .dx | .dy | .x1 | .y1 | .x2 | .y2 | .r | .rx | .ry | .cx | .cy | .fx | .fy | .width | .height | .strokeDasharray => true
  | _ => false

/-- The attributes rounded with the precision of properties, `src/task/round_numbers.rs:62-70`. -/
def isProp : AId → Bool
  | .strokeDashoffset | .strokeMiterlimit | .strokeWidth | .opacity | .fillOpacity | .floodOpacity | .strokeOpacity | .stopOpacity
  | .fontSize => true
  | _ => false

/-- `src/task/round_numbers.rs:82-84` -/
def isTs : AId → Bool
  | .transform | .gradientTransform | .patternTransform => true
  | _ => false

/-- `round_number`, `src/task/round_numbers.rs:132-134`; `none` is a panic or NaN, i.e. a precision that is not in `1..12`. -/
def num (p : Nat) (q : ℚ) : Option ℚ :=
  match roundNumber p q with
  | .ok r => some r
  | _ => none

/-- A loop over numbers. -/
def nums (p : Nat) : List ℚ → Option (List ℚ)
  | [] => some []
  | q :: t => (num p q).bind fun q' => (nums p t).map fun t' => q' :: t'

/-- `round_number(&mut v.num, ..)` -/
def len (p : Nat) (l : Len) : Option Len := (num p l.num).map fun q => ⟨q, l.unit⟩

def lens (p : Nat) : List Len → Option (List Len)
  | [] => some []
  | l :: t => (len p l).bind fun l' => (lens p t).map fun t' => l' :: t'

/-- `src/task/round_numbers.rs:85-92` -/
def ts (o : Precisions) (t : Paths.Transform) : Option Paths.Transform :=
  (num o.transforms t.a).bind fun a => (num o.transforms t.b).bind fun b => (num o.transforms t.c).bind fun c =>
    (num o.transforms t.d).bind fun d => (num o.coordinates t.e).bind fun e => (num o.coordinates t.f).map fun f => ⟨a, b, c, d, e, f⟩

/-- `round_path`, `src/task/round_numbers.rs:136-192`, for a path of the document. -/
def path (p : Nat) (d : Paths.Path) : Option Paths.Path :=
  match powVec[p]? with
  | some pow => if pow = 0 then (if d = [] then some [] else none) else some (roundPath pow d)
  | none => if d = [] then some [] else none

/-- The `match` on the name of the attribute, `src/task/round_numbers.rs:38-111`. -/
def value (o : Precisions) (a : AId) (v : Value) : Option Value :=
  if isCoord a then
    match v with
    | .length l => (len o.coordinates l).map .length
    | .lengthList l => (lens o.coordinates l).map .lengthList
    | v => some v
  else if isProp a then
    match v with
    | .number q => (num o.properties q).map .number
    | .length l => (len o.properties l).map .length
    | v => some v
  else if isTs a then
    match v with
    | .transform t => (ts o t).map .transform
    | v => some v
  else if a = .d then
    match v with
    | .path d => (path o.paths d).map .path
    | v => some v
  else if a = .viewBox || a = .points then
    match v with
    | .numberList l => (nums o.paths l).map .numberList
    | v => some v
  else some v

/-- The loop over the attributes, `src/task/round_numbers.rs:37-112`: those with names of SVG. -/
def attrs (o : Precisions) : List Attr → Option (List Attr)
  | [] => some []
  | x :: t =>
    (match x.name with
      | .id a => (value o a x.value).map fun v => { x with value := v }
      | .name _ => some x).bind fun x' => (attrs o t).map fun t' => x' :: t'

/-- The loop body, `src/task/round_numbers.rs:34-113`. -/
def node (o : Precisions) (n : Node) : Option Node :=
  if n.isSvgElem then (attrs o n.attrs).map fun as => { n with attrs := as } else some n

/-- `round_numbers`, `src/task/round_numbers.rs:28-114`; `none`: a precision out of range. -/
def roundNumbers (o : Precisions) (f : Forest) : Option Forest := f.mapOpt (node o)

end Verif.Round
