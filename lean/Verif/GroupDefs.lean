import Verif.ResolveUse
import Verif.UnusedDefs
import Verif.GroupStyle
/-
Model of `src/task/group_defs.rs`.
-/
namespace Verif.GroupDefs
open Verif.Dom Verif.Spec
open Verif.UnusedDefs (firstDefs)
open Verif.ResolveUse (subtree)
open Verif.Ungroup (copyAttr)

/-- The elements whose children get the attributes, `src/task/group_defs.rs:103-107`. -/
def carries (e : EId) : Bool :=
  match e with
  | .clipPath | .marker | .mask | .pattern | .symbol => true
  | _ => false

/-- The node with the key `k` and its ancestors, nearest first: the values of `parent` in the loop of
`src/task/group_defs.rs:108-122` (the document root, which has no attributes, is left out). -/
def chain (k : Nat) (anc : List Node) : Forest → Option (List Node)
  | .nil => none
  | .cons n ks r => if n.key = k then some (n :: anc) else (chain k (n :: anc) ks).or (chain k anc r)

/-- "attrs.iter_svg().filter(|&(_, a)| a.is_inheritable())", `src/task/group_defs.rs:111`. -/
def inheritable (x : Attr) : Bool :=
  match x.name with
  | .id a => a.isInheritable
  | .name _ => false

/-- The loop body for one attribute and one child, `src/task/group_defs.rs:113-117`; `none`: svgdom panics, since the attribute
refers to the child. -/
def give (x : Attr) (c : Node) : Option Node :=
  if (getAttr c.attrs x.name).isSome then some c else copyAttr x c

/-- The loops of `src/task/group_defs.rs:109-122` for one child. -/
def giveAll : List Attr → Node → Option Node
  | [], c => some c
  | x :: t, c => (give x c).bind (giveAll t)

/-- The same for all children.  Simplification: the code has the loop over the children inside of those over the ancestors and
attributes; the children do not depend on each other. -/
def giveKids (as : List Attr) : Forest → Option Forest
  | .nil => some .nil
  | .cons c k r => (giveAll as c).bind fun c' => (giveKids as r).map fun r' => .cons c' k r'

/-- `resolve_attrs`, `src/task/group_defs.rs:101-126`, for the node with the key `k`. -/
def resolveAttrs (k : Nat) (f : Forest) : Option Forest :=
  match chain k [] f, f.kidsOf k with
  | some (n :: anc), some c =>
    if n.tag.any carries then
      (giveKids ((n :: anc).flatMap fun p => p.attrs.filter inheritable) c).map fun c' => f.setKids k c'
    else some f
  | _, _ => some f

/-- "n.detach(); defs.append(n)", `src/task/group_defs.rs:60-61` and `77-78`. -/
def moveTo (d k : Nat) (f : Forest) : Forest :=
  match subtree k f with
  | some (n, c) =>
    let g := f.prune fun m => decide (m.key = k)
    g.setKids d ((g.kidsOf d).getD .nil ++ .cons n c .nil)
  | none => f

/-- "for n in &mut nodes", `src/task/group_defs.rs:58-62`. -/
def moveRefs (d : Nat) : List Nat → Forest → Option Forest
  | [], f => some f
  | k :: t, f => (resolveAttrs k f).bind fun g => moveRefs d t (moveTo d k g)

/-- "for n in &mut nodes", `src/task/group_defs.rs:76-79`. -/
def moveAll (d : Nat) (l : List Nat) (f : Forest) : Forest := l.foldl (fun f k => moveTo d k f) f

/-- "node.is_referenced()" and "parent != defs", `src/task/group_defs.rs:48-56`, with the key of the parent. -/
def strays (d : Nat) (p : Option Nat) : Forest → List Nat
  | .nil => []
  | .cons n k r =>
    (if n.tag.any EId.isReferenced && decide (p ≠ some d) then [n.key] else []) ++ (strays d (some n.key) k ++ strays d p r)

/-- "node.is_tag_name(EId::Defs) && node != defs", `src/task/group_defs.rs:69` and `86`. -/
def otherDefs (d : Nat) (n : Node) : Bool := n.isTag .defs && decide (n.key ≠ d)

/-- The children of the other `defs` elements, `src/task/group_defs.rs:67-74`. -/
def defsKids (d : Nat) : Forest → List Nat
  | .nil => []
  | .cons n k r => (if otherDefs d n then k.top.map (·.key) else []) ++ (defsKids d k ++ defsKids d r)

/-- A new `defs` element, `src/task/group_defs.rs:35`. -/
def newDefs (k : Nat) : Node := ⟨k, .elem .defs, "", []⟩

/-- The main `defs` element and its children, `src/task/group_defs.rs:33-36`. -/
def mainDefs (f : Forest) : Node × Forest :=
  match (firstDefs f).bind (subtree · f) with
  | some x => x
  | none => (newDefs (GroupStyle.freshKey f), .nil)

/-- The first child is the node with the key `d`. -/
def startsWith (d : Nat) : Forest → Bool
  | .cons n _ _ => decide (n.key = d)
  | .nil => false

/-- "Make 'defs' a first child of the 'svg'", `src/task/group_defs.rs:38-42`; `none`: there is no `svg` element, line 30. -/
def putFirst (d : Node × Forest) (f : Forest) : Option Forest :=
  (svgElement f).map fun s =>
    if startsWith d.1.key s.2 then f
    else
      let q := fun m : Node => decide (m.key = d.1.key)
      setSvgElement s.1 (.cons d.1 d.2 (s.2.prune q)) (f.prune q)

/-- `group_defs`, `src/task/group_defs.rs:28-97`.  Simplification: the other `defs` elements are removed all at once; they have
no children (C35). -/
def groupDefs (f : Forest) : Option Forest :=
  let d := (mainDefs f).1.key
  (putFirst (mainDefs f) f).bind fun f1 =>
    (moveRefs d (strays d none f1) f1).map fun f2 =>
      (moveAll d (defsKids d f2) f2).remove (otherDefs d)

end Verif.GroupDefs
