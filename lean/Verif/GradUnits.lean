import Verif.Gradients
import Verif.DomMore
/-
Model of `src/task/rm_gradient_attrs.rs`.
-/
namespace Verif.GradUnits
open Verif.Dom Verif.Gradients

/-- `make_attr_invisible(node, GradientUnits)`, `src/task/rm_gradient_attrs.rs:173-176`; `none`: `unwrap` of a missing
attribute. -/
def hideUnits (k : Nat) (f : Forest) : Option Forest :=
  (f.find k).bind fun n =>
    if n.has .gradientUnits then some (f.modify k (fun n => n.hide .gradientUnits)) else none

/-- The body of the `for` loop for a gradient that is not used any more, `src/task/rm_gradient_attrs.rs:61-70`. -/
def equalStep (k : Nat) (f : Forest) : Option Forest :=
  (f.find k).bind fun n =>
    match n.get .xlinkHref with
    | some (.link l) =>
      (f.find l).bind fun t => if n.get .gradientUnits = t.get .gradientUnits then hideUnits k f else some f
    | _ => some f

/-- The number of nodes of a list that refer to `k` by `xlink:href`, `src/task/rm_gradient_attrs.rs:78-87`. -/
def refsFrom (f : Forest) (l : List Nat) (k : Nat) : Nat :=
  (l.filter (fun x => match f.find x with | some n => decide (n.get .xlinkHref = some (.link k)) | none => false)).length

/-- "Decrease usage count of processed gradients", `src/task/rm_gradient_attrs.rs:78-88`; `none`: subtraction below 0. -/
def decrease (f : Forest) (done : List Nat) : List (Nat × Nat) → Option (List (Nat × Nat))
  | [] => some []
  | (k, c) :: t =>
    if refsFrom f done k ≤ c then (decrease f done t).map ((k, c - refsFrom f done k) :: ·) else none

/-- The list of gradients with the numbers of gradients that use them, `src/task/rm_gradient_attrs.rs:43-49`. -/
def startOrder (f : Forest) : List (Nat × Nat) :=
  (f.nodes.filter (fun n => n.isGradient && n.has .xlinkHref)).map
    (fun n => (n.key, ((f.linkedAll n.key).filter (·.isGradient)).length))

/-- One round of the `while` loop, `src/task/rm_gradient_attrs.rs:55-90`. -/
def equalRound (f : Forest) (order : List (Nat × Nat)) : Option (Forest × List (Nat × Nat)) :=
  let done := (order.filter (fun p => decide (p.2 = 0))).map (·.1)
  (forEach equalStep done f).bind fun f' =>
    (decrease f' done (order.filter (fun p => decide (p.2 > 0)))).map fun o => (f', o)

/-- The `while` loop, `src/task/rm_gradient_attrs.rs:54-91`, running at most `fuel` rounds. -/
def equalLoop : Nat → Forest → List (Nat × Nat) → Option Forest
  | fuel, f, order =>
    if order = [] then some f
    else match fuel with
      | 0 => none
      | fuel + 1 => (equalRound f order).bind fun p => equalLoop fuel p.1 p.2

/-- `rm_equal`, `src/task/rm_gradient_attrs.rs:42-92`.  Simplification: the loop is given as many rounds as there are
gradients in the list; it never ends if that is not enough (a round that removes nothing repeats itself). -/
def rmEqual (f : Forest) : Option Forest := equalLoop (startOrder f).length f (startOrder f)

/-- The gradients treated by `group_to_parent`, `src/task/rm_gradient_attrs.rs:97-101`. -/
def parents (f : Forest) : List Nat :=
  (f.nodes.filter (fun n => n.isGradient && !n.has .xlinkHref && (f.linkedAll n.key).all (·.isGradient))).map (·.key)

/-- The loops at `src/task/rm_gradient_attrs.rs:136-145` and `152-161`: an attribute with the value `maj` is hidden, any
other gets the value `other`. -/
def shareUnits (maj other : Kw) (k : Nat) (f : Forest) : Option Forest :=
  (f.find k).bind fun n =>
    match n.get .gradientUnits with
    | some v =>
      if v = .kw maj then hideUnits k f
      else some (f.modify k (fun n => n.set .gradientUnits (.kw other)))
    | none => some f

/-- "if av == objectBoundingBox { make_attr_invisible(node, ...) }", `src/task/rm_gradient_attrs.rs:164-169`. -/
def hideDefault (k : Nat) (f : Forest) : Option Forest :=
  (f.find k).bind fun n =>
    if n.get .gradientUnits = some (.kw .objectBoundingBox) then hideUnits k f else some f

/-- The body of the loop of `group_to_parent`, `src/task/rm_gradient_attrs.rs:103-170`.  `(total as f32 / 2.0).round()` is
`(total + 1) / 2`. -/
def groupBody (k : Nat) (f : Forest) : Option Forest :=
  let linked := f.linkedAll k
  let total := f.usesCount k
  let count := (linked.filter (fun n => decide (n.get .gradientUnits = some (.kw .objectBoundingBox)))).length
  let setUnits (v : Kw) : Forest := f.modify k (fun n => n.set .gradientUnits (.kw v))
  (if count = total then forEach hideUnits (linked.map (·.key)) (setUnits .objectBoundingBox)
   else if count = 0 then forEach hideUnits (linked.map (·.key)) (setUnits .userSpaceOnUse)
   else if count ≥ (total + 1) / 2 then
     forEach (shareUnits .objectBoundingBox .userSpaceOnUse) (linked.map (·.key)) (setUnits .objectBoundingBox)
   else forEach (shareUnits .userSpaceOnUse .objectBoundingBox) (linked.map (·.key)) (setUnits .userSpaceOnUse)).bind
  fun f => hideDefault k f

/-- `group_to_parent`, `src/task/rm_gradient_attrs.rs:96-171`. -/
def groupToParent (f : Forest) : Option Forest := forEach groupBody (parents f) f

/-- `remove_gradient_attributes`, `src/task/rm_gradient_attrs.rs:29-38`. -/
def removeGradientAttributes (f : Forest) : Option Forest := (rmEqual f).bind groupToParent

end Verif.GradUnits
