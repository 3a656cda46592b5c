import Verif.Ungroup
import Verif.Needless
/-
Model of `src/task/group_by_style.rs`.
-/
namespace Verif.GroupStyle
open Verif.Dom
open Verif.Stops (modValue)
open Verif.Needless (rmAll)
open Verif.Ungroup (copyAttr)
open Verif.ApplyTs (append isValidAttrs)
open Verif.Paths (Transform)

/-! ### The table -/

/-- `TableRow`, `src/task/group_by_style.rs:40-43`. -/
structure Row where
  attrs : List Attr
  flags : List Bool
  deriving DecidableEq, Repr

/-- `count_flags`, `src/task/group_by_style.rs:144-146`. -/
def count (l : List Bool) : Nat := (l.filter id).length

/-- The loop in `simplify`, `src/task/group_by_style.rs:80-101`: runs of one or two flags are cleared, unless they are at the end;
`c` is `count`. -/
def zeroRuns : Nat → List Bool → List Bool
  | c, [] => List.replicate c true
  | c, true :: t => zeroRuns (c + 1) t
  | c, false :: t => List.replicate c (decide (c ≠ 1 ∧ c ≠ 2)) ++ false :: zeroRuns 0 t

/-- `simplify`, `src/task/group_by_style.rs:61-107`; `min_nodes_count` is 2 (`:396-405`: the parent is `svg` or `g`). -/
def simplify (t : List Row) : List Row :=
  (((t.filter fun r => decide (2 ≤ count r.flags)).map fun r => { r with flags := zeroRuns 0 r.flags })).filter
    fun r => decide (2 ≤ count r.flags)

/-- `longest`, `src/task/group_by_style.rs:149-163`; the arguments are `max_count` and `count`. -/
def longest : Nat → Nat → List Bool → Nat
  | m, c, [] => max m c
  | m, c, true :: t => longest m (c + 1) t
  | m, c, false :: t => longest (max m c) 0 t

def insertRow (x : Row) : List Row → List Row
  | [] => [x]
  | y :: t => if longest 0 0 y.flags ≤ longest 0 0 x.flags then x :: y :: t else y :: insertRow x t

/-- `sort`, `src/task/group_by_style.rs:110-116`: a stable sort, longest first. -/
def sortRows : List Row → List Row
  | [] => []
  | x :: t => insertRow x (sortRows t)

/-- The loop of `join`, `src/task/group_by_style.rs:127-138`, at the row `r`. -/
def joinAt (r : Row) : List Row → List Row
  | [] => [r]
  | s :: t => if r.flags = s.flags then joinAt { r with attrs := r.attrs ++ s.attrs.take 1 } t else r :: joinAt s t

/-- `join`, `src/task/group_by_style.rs:119-139`. -/
def joinRows : List Row → List Row
  | [] => []
  | r :: t => joinAt r t

/-- The ranges of set flags, `src/task/group_by_style.rs:171-190`, as first and last index. -/
def runs : Nat → Option Nat → List Bool → List (Nat × Nat)
  | i, some s, [] => [(s, i - 1)]
  | _, none, [] => []
  | i, some s, true :: t => runs (i + 1) (some s) t
  | i, none, true :: t => runs (i + 1) (some i) t
  | i, some s, false :: t => (s, i - 1) :: runs (i + 1) none t
  | i, none, false :: t => runs (i + 1) none t

/-- "list.sort_by(|a, b| b.len().cmp(&a.len())); list[0]", `src/task/group_by_style.rs:192-194`: the first of the longest. -/
def firstLongest : List (Nat × Nat) → Option (Nat × Nat)
  | [] => none
  | x :: t =>
    match firstLongest t with
    | none => some x
    | some y => if y.2 - y.1 ≤ x.2 - x.1 then some x else some y

/-- `longest_range`, `src/task/group_by_style.rs:170-195`; `none` is a panic. -/
def longestRange (l : List Bool) : Option (Nat × Nat) := firstLongest (runs 0 none l)

/-! ### Filling the table -/

/-- Which attributes get a row, `src/task/group_by_style.rs:417-434`; `anc` are the parent and its ancestors. -/
def wants (anc : List Node) (n : Node) (x : Attr) : Bool :=
  x.visible &&
  match x.name with
  | .id a => if a = .transform then isValidAttrs (n :: anc) && isValidAttrs anc else a.isInheritable
  | .name _ => false

/-- `src/task/group_by_style.rs:414-441`: the rows, each with one attribute. -/
def rowAttrs (anc : List Node) (nodes : List Node) : List Attr :=
  nodes.foldl (fun t n => n.attrs.foldl (fun t x => if wants anc n x && !decide (x ∈ t) then t ++ [x] else t) t) []

/-- `src/task/group_by_style.rs:414-465`: the table, simplified, sorted and joined. -/
def table (anc : List Node) (nodes : List Node) : List Row :=
  joinRows (sortRows (simplify ((rowAttrs anc nodes).map fun x => ⟨[x], nodes.map fun n => decide (x ∈ n.attrs)⟩)))

/-! ### Moving nodes -/

def svgTop (f : Forest) : List Node := f.top.filter (·.isSvgElem)

/-- The children that are not SVG elements. -/
def nonSvg : Forest → Forest
  | .nil => .nil
  | .cons n k r => if n.isSvgElem then nonSvg r else .cons n k (nonSvg r)

/-- The SVG elements with index `i` to `j` among the children, without the given attributes: those that `move_nodes` moves,
`src/task/group_by_style.rs:537-543`; the third argument is the index of the first child. -/
def pick (as : List AId) (i j : Nat) : Nat → Forest → Forest
  | _, .nil => .nil
  | m, .cons n k r =>
    if n.isSvgElem then
      if i ≤ m ∧ m ≤ j then .cons (rmAll n as) k (pick as i j (m + 1) r) else pick as i j (m + 1) r
    else pick as i j m r

/-- The children after those with index `i` to `j` have been moved to the new element `g`, which was put before the first of them,
`src/task/group_by_style.rs:477-478`, `:505-508`. -/
def place (g : Node) (kids : Forest) (i j : Nat) : Nat → Forest → Forest
  | _, .nil => .nil
  | m, .cons n k r =>
    if n.isSvgElem then
      if m = i then .cons g kids (place g kids i j (m + 1) r)
      else if i < m ∧ m ≤ j then place g kids i j (m + 1) r
      else .cons n k (place g kids i j (m + 1) r)
    else .cons n k (place g kids i j m r)

def appendTo (t : Transform) : Value → Value
  | .transform s => .transform (append s t)
  | v => v

def appendValue (g : Node) : Value → Node
  | .transform t => modValue g .transform (appendTo t)
  | _ => g

/-- The loop body of `move_nodes` for one attribute, `src/task/group_by_style.rs:546-558`; `none` is a panic of svgdom. -/
def setOn (g : Node) (x : Attr) : Option Node :=
  if x.name = .id .transform && g.has .transform then some (appendValue g x.value) else copyAttr x g

def setAll : List Attr → Node → Option Node
  | [], g => some g
  | x :: t, g => (setOn g x).bind (setAll t)

/-- "attributes.iter().map(|a| a.id().unwrap())", `src/task/group_by_style.rs:535`. -/
def ids (as : List Attr) : List AId := as.filterMap fun x => match x.name with | .id a => some a | .name _ => none

/-- `create_element(EId::G)`. -/
def newG (k : Nat) : Node := ⟨k, .elem .g, "", []⟩

/-- Moving the longest range of a row to a new group, `src/task/group_by_style.rs:498-509`. -/
def wrapRow (d : Row) (f : Forest) (fresh : Nat) : Option (Forest × Nat) :=
  (longestRange d.flags).bind fun (i, j) =>
    (setAll d.attrs (newG fresh)).map fun g => (place g (pick (ids d.attrs) i j 0 f) i j 0 f, fresh + 1)

/-- `src/task/group_by_style.rs:489-509`: only the first of the remaining rows is looked at. -/
def wrapFirst (t : List Row) (f : Forest) (fresh : Nat) : Option (Forest × Nat) :=
  match t with
  | [] => some (f, fresh)
  | d :: _ => wrapRow d f fresh

/-- The children before the list of nodes is reset for the last time, and those after it, `src/task/group_by_style.rs:338-356`. -/
def splitTail (used : Nat → Bool) : Forest → Forest × Forest
  | .nil => (.nil, .nil)
  | .cons n k r =>
    let (b, t) := splitTail used r
    if !b.isEmpty then (.cons n k b, t)
    else if n.isSvgElem && (n.isTag .defs || used n.key) then (.cons n k .nil, t)
    else (.nil, .cons n k t)

/-- `_group_by_style` without the recursion, `src/task/group_by_style.rs:358-509`: the new element, its children and the next key
for a new element. -/
def regroup (used : Nat → Bool) (anc : List Node) (p : Node) (k : Forest) (fresh : Nat) : Option (Node × Forest × Nat) :=
  if !p.isTag .svg && !p.isTag .g then some (p, k, fresh)
  else
    let b := (splitTail used k).1
    let t := (splitTail used k).2
    let nodes := svgTop t
    if nodes.length < 2 then some (p, k, fresh)
    else
      match table (p :: anc) nodes with
      | [] => some (p, k, fresh)
      | d :: ds =>
        if count d.flags = nodes.length then
          let moved := pick (ids d.attrs) 0 (nodes.length - 1) 0 t
          if b.isEmpty then
            (setAll d.attrs p).bind fun p' => (wrapFirst ds moved fresh).map fun x => (p', nonSvg t ++ x.1, x.2)
          else
            (setAll d.attrs (newG fresh)).bind fun g =>
              (wrapFirst ds moved (fresh + 1)).map fun x => (p, b ++ place g x.1 0 (nodes.length - 1) 0 t, x.2)
        else (wrapRow d t fresh).map fun x => (p, b ++ x.1, x.2)

/-- `_group_by_style`, `src/task/group_by_style.rs:330-532`, for all children of a node: `anc` are the node and its ancestors.
Simplification: whether an element is referred to is looked up in the document as it was before the pass; the code looks at the
document as it is (the two differ if a reference of a group has been replaced by that of its children). -/
def groupKids (used : Nat → Bool) (anc : List Node) : Forest → Nat → Option (Forest × Nat)
  | .nil, fresh => some (.nil, fresh)
  | .cons n k r, fresh =>
    (if n.isSvgElem && !(n.isTag .defs || used n.key) && !k.isEmpty then
      (groupKids used (n :: anc) k fresh).bind fun x => regroup used anc n x.1 x.2
    else some (n, k, fresh)).bind fun y => (groupKids used anc r y.2.2).map fun z => (.cons y.1 y.2.1 z.1, z.2)

/-- A key that no node has and no attribute refers to. -/
def freshKey (f : Forest) : Nat := (f.nodes.flatMap fun n => n.key :: n.links).foldr max 0 + 1

/-- `group_by_style`, `src/task/group_by_style.rs:326-328`. -/
def groupByStyle (f : Forest) : Option Forest :=
  (svgElement f).bind fun s =>
    (groupKids f.isUsed [s.1] s.2 (freshKey f)).bind fun x =>
      (regroup f.isUsed [] s.1 x.1 x.2).map fun y => setSvgElement y.1 y.2.1 f

end Verif.GroupStyle
