import Verif.RenderLemmas
import Verif.PreprocProps
/-
Model of `src/task/ungroup_groups.rs`.
-/
namespace Verif.Ungroup
open Verif.Dom Verif.Spec
open Verif.Stops (modValue)
open Verif.ApplyTs (TsOpts prepareTransforms append)

/-- "g.children().count() == 1" and "!child.is_used()", `src/task/ungroup_groups.rs:95-102`. -/
def singleUnused (used : Nat → Bool) : Forest → Bool
  | .cons c _ .nil => !used c.key
  | _ => false

/-- `can_ungroup`, `src/task/ungroup_groups.rs:63-133`, for a group `g` with the children `k` and the parent `p`. -/
def canUngroup (used : Nat → Bool) (p g : Node) (k : Forest) : Bool :=
  if k.isEmpty && !g.has .filter then true
  else if used g.key then false
  else if g.has .mask || g.has .clipPath || g.has .filter then false
  else if p.isTag .clipPath then false
  else if singleUnused used k then true
  else if p.isTag .switch then false
  else if g.attrs.isEmpty then true
  else if g.has .transform && decide (g.attrs.length = 1) then k.top.all (fun n => n.has .transform && !n.isTag .use)
  else false

/-- `child.set_attribute(attr.clone())`: the visibility is that of the copied attribute.  svgdom panics if the value is a
reference to the child itself.  (It also panics if the child is referred to by the target; that is not modelled.) -/
def copyAttr (x : Attr) (c : Node) : Option Node :=
  if x.value.target = some c.key then none else some { c with attrs := putAttr c.attrs x }

/-- "t1.append(ts); *ts = t1", `src/task/ungroup_groups.rs:161-168`. -/
def mulInto : Value → Value → Value
  | .transform t, .transform s => .transform (append t s)
  | _, v => v

/-- The loop body of `ungroup_group` for one attribute of the group and one child, `src/task/ungroup_groups.rs:138-183`; `none`
is `unreachable!` or a panic of svgdom. -/
def pushAttr (c : Node) (x : Attr) : Option Node :=
  match x.name with
  | .name _ => some c
  | .id a =>
    if a = .opacity && c.has a then
      match x.value, c.get a with
      | .number p, some (.number q) => some (c.set a (.number (p * q)))
      | _, _ => none
    else if a = .transform && c.has a then some (modValue c a (mulInto x.value))
    else if a = .display then copyAttr x c
    else if !c.has a then copyAttr x c
    else some c

/-- The loop of `ungroup_group` over the attributes, for one child, `src/task/ungroup_groups.rs:136-185`. -/
def pushAttrs : List Attr → Node → Option Node
  | [], c => some c
  | x :: t, c => (pushAttr c x).bind (pushAttrs t)

/-- `ungroup_group`, `src/task/ungroup_groups.rs:135-192`: the children that take the place of the group.  Simplification: the
code has the loop over the children inside of that over the attributes; the children do not depend on each other. -/
def pushAll (as : List Attr) : Forest → Option Forest
  | .nil => some .nil
  | .cons c k r => (pushAttrs as c).bind fun c' => (pushAll as r).map fun r' => .cons c' k r'

/-- `_ungroup_groups`, `src/task/ungroup_groups.rs:40-61`, up to `node.remove()`, for the children of `p`: the new children, the
key of the group that was taken out and that of its parent.  The inner `none`: there is no such group. -/
def scan (used : Nat → Bool) (p : Node) : Forest → Option (Option (Forest × Nat × Nat))
  | .nil => some none
  | .cons n k r =>
    if n.isTag .g && canUngroup used p n k then (pushAll n.attrs k).map fun k' => some (k' ++ r, n.key, p.key)
    else
      (scan used n k).bind fun
        | some (k', x) => some (some (.cons n k' r, x))
        | none => (scan used p r).map fun o => o.map fun y => (.cons n k y.1, y.2)

/-- `apply_transforms::prepare_transforms(parent, false, opt)`, `src/task/ungroup_groups.rs:47`, for the node with the key `k`;
`anc` are the ancestors, nearest first. -/
def prepareAt (o : TsOpts) (k : Nat) : List Node → Forest → Option Forest
  | _, .nil => some .nil
  | anc, .cons n c r =>
    if n.key = k then (prepareTransforms o false anc n c).map fun x => .cons x.1 x.2 r
    else (prepareAt o k (n :: anc) c).bind fun c' => (prepareAt o k anc r).map fun r' => .cons n c' r'

/-- One round of the loop, `src/task/ungroup_groups.rs:34`, `:40-61`: `node.remove()` also removes the attributes that refer to
the group.  The inner `none`: nothing to do. -/
def step (o : TsOpts) (f : Forest) : Option (Option Forest) :=
  (svgElement f).bind fun s =>
    (scan f.isUsed s.1 s.2).bind fun
      | none => some none
      | some (k', x, p) =>
        (prepareAt o p [] ((setSvgElement s.1 k' f).map (fun n => n.unlink (fun k => decide (k = x))))).map some

/-- The `while` loop, `src/task/ungroup_groups.rs:34`, running at most `fuel` rounds; the inner `none`: it has not ended. -/
def loop (o : TsOpts) : Nat → Forest → Option (Option Forest)
  | fuel, f =>
    (step o f).bind fun
      | none => some (some f)
      | some f' =>
        match fuel with
        | 0 => some none
        | fuel + 1 => loop o fuel f'

/-- `ungroup_groups`, `src/task/ungroup_groups.rs:29-35`.  The outer `none` is a panic, the inner one would be a loop that does
not end: it is given as many rounds as there are nodes; C36 shows that this is enough. -/
def ungroupGroups (o : TsOpts) (f : Forest) : Option (Option Forest) :=
  (svgElement f).bind fun s =>
    (prepareTransforms o true [] s.1 s.2).bind fun x => loop o f.nodes.length (setSvgElement x.1 x.2 f)

end Verif.Ungroup
