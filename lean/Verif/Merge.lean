import Verif.GradPaint
import Verif.GroupDefsProps
import Verif.Invisible
/-
Model of `src/task/merge_gradients.rs`.
-/
namespace Verif.Merge
open Verif.Dom

/-- `LG_ATTRIBUTES` and `RG_ATTRIBUTES`, `src/task/merge_gradients.rs:29-48` and `100-104`. -/
def attrList (n : Node) : List AId :=
  if n.isTag .linearGradient then [.gradientUnits, .spreadMethod, .gradientTransform, .x1, .y1, .x2, .y2]
  else [.gradientUnits, .spreadMethod, .gradientTransform, .cx, .cy, .fx, .fy, .r]

/-- "n_attr.visible = true", `src/task/merge_gradients.rs:117-119`. -/
def showAttr (n : Node) (a : AId) : Node :=
  { n with attrs := n.attrs.map fun x => if x.name = .id a then { x with visible := true } else x }

/-- One round of the loop over the attributes, `src/task/merge_gradients.rs:109-121`: an attribute of `n` that is visible in `m`
becomes visible. -/
def revealOne (m n : Node) (a : AId) : Node :=
  match getAttr m.attrs (.id a) with
  | some x => if x.visible then showAttr n a else n
  | none => n

/-- `src/task/merge_gradients.rs:109-121`: attributes of `n` that are visible in `m` become visible. -/
def reveal (m : Node) (l : List AId) (n : Node) : Node := l.foldl (revealOne m) n

/-- "linked_node", `src/task/merge_gradients.rs:67-82`: the element a gradient refers to, if it can be merged. -/
def source (f : Forest) (n : Node) : Option Node :=
  match n.get .xlinkHref with
  | some (.link l) => (f.find l).filter fun m => decide (f.usesCount l = 1) && !m.has .xlinkHref
  | _ => none

/-- `src/task/merge_gradients.rs:84-90`: the children of `m` are moved to `n`, if that has none. -/
def moveKids (n m : Node) (f : Forest) : Forest :=
  match f.kidsOf n.key, f.kidsOf m.key with
  | some .nil, some c => (f.setKids m.key .nil).setKids n.key c
  | _, _ => f

/-- The body of the loop for the gradient with the key `k`, `src/task/merge_gradients.rs:66-125`, with the keys of the elements to be
removed. -/
def mergeNode (s : Forest × List Nat) (k : Nat) : Forest × List Nat :=
  match s.1.find k with
  | some n => match source s.1 n with
    | some m => ((moveKids n m s.1).modify k (fun n => reveal m (attrList n) (n.rm .xlinkHref)), s.2 ++ [m.key])
    | none => s
  | none => s

/-- The gradient with the key `k` is inside of the element whose children it is to get (`src/task/merge_gradients.rs:84-90`): svgdom
crashes if it is a child ("a node cannot be appended to itself"), and makes a cycle that is no longer part of the document
otherwise.  Simplification: both count as crashes. -/
def cyclic (f : Forest) (k : Nat) : Bool :=
  match f.find k with
  | some n => match source f n with
    | some m => (f.kidsOf k == some .nil) && (f.kidsOf m.key).any fun c => decide (k ∈ c.keys)
    | none => false
  | none => false

/-- The loop over the gradients, `src/task/merge_gradients.rs:65-125`. -/
def mergeKeys : List Nat → Forest × List Nat → Option (Forest × List Nat)
  | [], s => some s
  | k :: ks, s => if cyclic s.1 k then none else mergeKeys ks (mergeNode s k)

/-- `_merge_gradients`, `src/task/merge_gradients.rs:64-126`.  Simplification: the gradients are those at the beginning; the code
walks through the tree while it moves children, which makes a difference only for gradients inside of gradients. -/
def mergeRound (f : Forest) : Option (Forest × List Nat) := mergeKeys ((f.nodes.filter (·.isGradient)).map (·.key)) (f, [])

/-- The loop of `merge_gradients`, `src/task/merge_gradients.rs:50-62`, running at most `fuel` rounds; `none`: it has not ended. -/
def mergeLoop : Nat → Forest → Option Forest
  | 0, _ => none
  | fuel + 1, f => (mergeRound f).bind fun s => if s.2.isEmpty then some s.1 else mergeLoop fuel (Invisible.rmKeys s.2 s.1)

/-- `merge_gradients`, `src/task/merge_gradients.rs:50-62`.  Simplification: the loop is given one round more than there are nodes;
C33 shows that this is enough. -/
def mergeGradients (f : Forest) : Option Forest := mergeLoop (f.nodes.length + 1) f

end Verif.Merge
