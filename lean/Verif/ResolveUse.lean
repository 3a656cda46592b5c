import Verif.DomMore
import Verif.ApplyTs
/-
Model of `src/task/resolve_use.rs`: a `use` element is replaced by the element it refers to.
-/
namespace Verif.ResolveUse
open Verif.Dom
open Verif.Paths (Transform)
open Verif.ApplyTs (append)

/-- Whether the node with the key `k` is a child of a `defs` element; `d` says so of the top level.
src/task/resolve_use.rs:41-44 (`link.parent()` is svgdom's root for a node of the top level, so the `unwrap` never fails). -/
def underDefs (k : Nat) (d : Bool) : Forest → Bool
  | .nil => false
  | .cons n ks r => if n.key = k then d else underDefs k (n.isTag .defs) ks || underDefs k d r

/-- The element that a `use` element is to be replaced with.  src/task/resolve_use.rs:32-62. -/
def target (f : Forest) (n : Node) : Option Nat :=
  -- The 'use' node should not be used by itself.
  if f.isUsed n.key then none else
  match n.get .xlinkHref with
  | some (.link k) =>
    match f.find k with
    | none => none
    | some l =>
      if !underDefs k false f then none
      else if l.isTag .symbol then none
      else if l.isTag .use then none
      else if f.usesCount k ≠ 1 then none
      else some k
  | _ => none

/-- The `use` elements to resolve, with the elements they refer to.  src/task/resolve_use.rs:29-64. -/
def pairs (f : Forest) : List (Node × Nat) :=
  (f.nodes.filter (·.isTag .use)).filterMap fun n => (target f n).map fun k => (n, k)

/-- `get_value!(attrs, Length, a, Length::zero())` (src/task/macros.rs:64-72). -/
def lenOr (n : Node) (a : AId) : Len :=
  match n.get a with
  | some (.length l) => l
  | _ => ⟨0, .none⟩

/-- `get_value!(attrs, Transform, AId::Transform, Transform::default())`. -/
def tsOr (n : Node) : Transform :=
  match n.get .transform with
  | some (.transform t) => t
  | _ => ⟨1, 0, 0, 1, 0, 0⟩

/-- The `use` element without `xlink:href`, and with `x` and `y` in its transform; `none` for the `continue` in line 83.
src/task/resolve_use.rs:67-93.  (`Transform::translate` of svgdom appends a translation.) -/
def shifted (n : Node) : Option Node :=
  let n := n.rm .xlinkHref
  if n.has .x || n.has .y then
    let x := lenOr n .x
    let y := lenOr n .y
    if !(decide (x.unit = .none) && decide (y.unit = .none)) then none
    else some (((n.set .transform (.transform (append (tsOr n) ⟨1, 0, 0, 1, x.num, y.num⟩))).rm .x).rm .y)
  else some n

/-- Lines 96-98: the attributes are copied, replacing those of the same name. -/
def copyAttrs (l : Node) (as : List Attr) : Node := as.foldl (fun l x => { l with attrs := putAttr l.attrs x }) l

/-- A node with its children. -/
def subtree (k : Nat) : Forest → Option (Node × Forest)
  | .nil => none
  | .cons n ks r => if n.key = k then some (n, ks) else (subtree k ks).or (subtree k r)

/-- `node.insert_after(new)`, where `new` has the children `c`. -/
def insertAfter : Forest → Nat → Node → Forest → Forest
  | .nil, _, _, _ => .nil
  | .cons n ks r, u, new, c =>
    if n.key = u then .cons n ks (.cons new c r)
    else .cons n (insertAfter ks u new c) (insertAfter r u new c)

/-- One `use` element.  `none`: one of the two nodes is no longer in the tree (it was removed together with another `use`
element that contained it), or the `use` element is inside the element it refers to; what svgdom does then is not modelled.
src/task/resolve_use.rs:66-105. -/
def resolveOne (f : Forest) (p : Node × Nat) : Option Forest :=
  match f.find p.1.key, subtree p.2 f with
  | some n, some (l, lk) =>
    match shifted n with
    | none => some (f.modify n.key (·.rm .xlinkHref))
    | some n' =>
      if n.key ∈ l.key :: lk.keys then none else
      -- `link.detach()`, `node.insert_after(&link)`, `node.remove()`
      some ((insertAfter (f.prune (fun m => decide (m.key = p.2))) n.key (copyAttrs l n'.attrs) lk).remove
        (fun m => decide (m.key = n.key)))
  | _, _ => none

def resolveAll : List (Node × Nat) → Forest → Option Forest
  | [], f => some f
  | p :: ps, f => (resolveOne f p).bind (resolveAll ps)

/-- `resolve_use`.  src/task/resolve_use.rs:28-106. -/
def resolveUse (f : Forest) : Option Forest := resolveAll (pairs f) f

end Verif.ResolveUse
