import Verif.DuplStops
import Verif.GenId
import Verif.Gradients
import Verif.Invisible
import Verif.GroupStyle
/-
Model of `src/task/regroup_gradient_stops.rs`.
-/
namespace Verif.Regroup
open Verif.Dom
open Verif.GroupStyle (freshKey)

/-- The gradients that are looked at, `src/task/regroup_gradient_stops.rs:28-32`. -/
def candidates (f : Forest) : List Nat :=
  ((Spec.subs f).filter fun x => x.1.isGradient && !x.2.isEmpty && !x.1.has .xlinkHref).map fun x => x.1.key

/-- "is_equal_stops(&node1, &node2)", `src/task/regroup_gradient_stops.rs:47`, for the nodes with the keys `j` and `k`.
Simplification: false for nodes that are no longer in the tree, which only happens with gradients inside of gradients. -/
def alike (f : Forest) (j k : Nat) : Bool :=
  match f.kidsOf j, f.kidsOf k with
  | some c, some d => Dupl.equalStops c d
  | _, _ => false

/-- The new gradient, `src/task/regroup_gradient_stops.rs:58-60`. -/
def newNode (key : Nat) (id : String) : Node := ⟨key, .elem .linearGradient, id, []⟩

/-- `src/task/regroup_gradient_stops.rs:62-69`: the children of the node with the key `k` are moved to a new gradient before
it. -/
def split (k key : Nat) (id : String) (f : Forest) : Forest :=
  match f.kidsOf k with
  | some c => ((f.setKids k .nil).modify k fun n => n.set .xlinkHref (.link key)).insertBefore k (newNode key id) c
  | none => f

/-- `src/task/regroup_gradient_stops.rs:72-76`: the children of the node with the key `j` are removed; it refers to the new
gradient. -/
def join (key : Nat) (f : Forest) (j : Nat) : Forest :=
  match f.kidsOf j with
  | some c => (Invisible.rmKeys (c.top.map (·.key)) f).modify j fun n => n.set .xlinkHref (.link key)
  | none => f

/-- The new gradient is inside of the gradient with the key `j`, and would be removed with its children. -/
def encloses (key : Nat) (f : Forest) (j : Nat) : Bool := (f.kidsOf j).any fun c => decide (key ∈ c.keys)

/-- The loop at `src/task/regroup_gradient_stops.rs:71-79`.  Simplification: a gradient that is inside of another one with the same
stops, which would get a reference to nothing, counts as a crash; `group_defs` has put all gradients next to each other. -/
def joinAll (key : Nat) : List Nat → Forest → Option Forest
  | [], f => some f
  | j :: js, f => if encloses key f j then none else joinAll key js (join key f j)

/-- `src/task/regroup_gradient_stops.rs:56-79`, for the gradient with the key `k` and those that have the same stops. -/
def groupOne (k : Nat) (js : List Nat) (f : Forest) : Option Forest :=
  (GenId.genId f "lg").bind fun id => joinAll (freshKey f) js (split k (freshKey f) id f)

/-- The outer loop, `src/task/regroup_gradient_stops.rs:38-83`, with whether anything was changed.  The number of rounds is given by
the length of the list, which gets shorter in each. -/
def regroupLoop : Nat → List Nat → Forest → Option (Forest × Bool)
  | fuel + 1, k :: ks, f =>
    if (ks.filter (alike f k)).isEmpty then regroupLoop fuel ks f
    else (groupOne k (ks.filter (alike f k)) f).bind fun g =>
      (regroupLoop fuel (ks.filter fun j => !alike f k j) g).map fun r => (r.1, true)
  | _, _, f => some (f, false)

/-- `regroup_gradient_stops`, `src/task/regroup_gradient_stops.rs:27-89`. -/
def regroup (f : Forest) : Option Forest :=
  (regroupLoop (candidates f).length (candidates f) f).bind fun r => if r.2 then Gradients.resolveLinear r.1 else some r.1

end Verif.Regroup
