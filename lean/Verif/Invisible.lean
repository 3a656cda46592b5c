import Verif.DomMore
import Verif.ResolveUse
import Verif.UnusedDefs
/-
Model of `src/task/rm_invisible_elems.rs`: elements that show nothing are removed.
-/
namespace Verif.Invisible
open Verif.Dom
open Verif.ResolveUse (subtree)

/-- `node.remove()` for the node with the key `k`; nothing happens if it has been removed already. -/
def rmKey (k : Nat) (f : Forest) : Forest := f.remove (fun m => decide (m.key = k))

/-- `utils::remove_nodes`, src/task/utils.rs:82-87. -/
def rmKeys (ks : List Nat) (f : Forest) : Forest := ks.foldl (fun g k => rmKey k g) f

/-- `doc.drain(p)` of svgdom: walks through the tree in document order and removes every node that satisfies `p` when it is
reached; here with whether anything was removed. -/
def drain (p : Node → Forest → Bool) (f : Forest) : Forest × Bool :=
  f.keys.foldl (fun g k => match subtree k g.1 with
    | some (n, ks) => if p n ks then (rmKey k g.1, true) else g
    | none => g) (f, false)

/-- `_process_display_attribute`, src/task/rm_invisible_elems.rs:140-154: the nodes to remove, in document order. -/
def hiddenKeys (f : Forest) : Forest → List Nat
  | .nil => []
  | .cons n k r =>
    (if n.isSvgElem then
      if decide (n.get .display = some (.kw .none)) && !f.isUsed n.key then
        if (n.key :: k.keys).any f.isUsed then [] else [n.key]
      else hiddenKeys f k
    else []) ++ hiddenKeys f r

/-- `process_display_attribute`, src/task/rm_invisible_elems.rs:128-138. -/
def displayStep (f : Forest) : Forest × Bool := (rmKeys (hiddenKeys f f) f, !(hiddenKeys f f).isEmpty)

/-- `is_invisible` of `process_paths`, src/task/rm_invisible_elems.rs:112-121. -/
def emptyPath (n : Node) (_ : Forest) : Bool :=
  n.isTag .path && match n.get .d with
    | some (.path d) => d.isEmpty
    | _ => true

/-- `process_paths`, src/task/rm_invisible_elems.rs:111-125. -/
def pathStep (f : Forest) : Forest × Bool := drain emptyPath f

/-- `is_valid_shape`, src/task/rm_invisible_elems.rs:93-97. -/
def validShape (n : Node) : Bool := (match n.tag with | some e => e.isBasicShape | none => false) || n.isTag .path || n.isTag .text

/-- `is_valid_clip_path_elem`, src/task/rm_invisible_elems.rs:90-108. -/
def validClip (f : Forest) (n : Node) : Bool :=
  if n.isTag .use then
    match n.get .xlinkHref with
    | some (.link k) => match f.find k with
      | some l => validShape l
      | none => false
    | _ => validShape n
  else validShape n

/-- The invalid children of the clip path with the key `k`, src/task/rm_invisible_elems.rs:62-66. -/
def badKids (f : Forest) (k : Nat) : List Nat :=
  match f.kidsOf k with
  | some c => (c.top.filter fun n => !validClip f n).map (·.key)
  | none => []

/-- Without the invalid children of the clip paths with the keys `ks`, and the clip paths that are empty then.
src/task/rm_invisible_elems.rs:60-73.  (A clip path that was removed together with another one is no longer in the tree.) -/
def clipKidsStep : List Nat → Forest → Forest × List Nat
  | [], f => (f, [])
  | k :: ks, f =>
    let g := rmKeys (badKids f k) f
    let r := clipKidsStep ks g
    match g.kidsOf k with
    | some c => if c.isEmpty then (r.1, k :: r.2) else r
    | none => r

/-- The elements that refer to `k` are removed, and then the element itself.  src/task/rm_invisible_elems.rs:83-86 and
169-172. -/
def rmServer (k : Nat) (f : Forest) : Forest := rmKey k (rmKeys ((f.linkedAll k).map (·.key)) f)

/-- `process_clip_paths`, src/task/rm_invisible_elems.rs:56-88. -/
def clipStep (f : Forest) : Forest × Bool :=
  let r := clipKidsStep ((f.nodes.filter (·.isTag .clipPath)).map (·.key)) f
  (r.2.reverse.foldl (fun g k => rmServer k g) r.1, !r.2.isEmpty)

/-- The filters without children, src/task/rm_invisible_elems.rs:158-160. -/
def emptyFilters : Forest → List Nat
  | .nil => []
  | .cons n k r => (if n.isTag .filter && k.isEmpty then [n.key] else []) ++ emptyFilters k ++ emptyFilters r

/-- `process_empty_filter`, src/task/rm_invisible_elems.rs:157-174. -/
def filterStep (f : Forest) : Forest × Bool := ((emptyFilters f).foldl (fun g k => rmServer k g) f, !(emptyFilters f).isEmpty)

/-- `is_default_matrix`, src/task/rm_invisible_elems.rs:178-209. -/
def defaultMatrix (n : Node) (ks : Forest) : Bool :=
  n.isTag .filter && match ks with
    | .cons c _ .nil => c.isTag .feColorMatrix && decide (c.get .type_ = some (.str "matrix")) &&
        decide (c.get .values = some (.str "1 0 0 0 0  0 1 0 0 0  0 0 1 0 0  0 0 0 1 0"))
    | _ => false

/-- `process_fe_color_matrix`, src/task/rm_invisible_elems.rs:177-212. -/
def matrixStep (f : Forest) : Forest := (drain defaultMatrix f).1

/-- src/task/rm_invisible_elems.rs:216. -/
def emptyUse (n : Node) (_ : Forest) : Bool := n.isTag .use && !n.has .xlinkHref

/-- `process_use`, src/task/rm_invisible_elems.rs:215-220. -/
def useStep (f : Forest) : Forest × Bool := drain emptyUse f

/-- `while let Some(aid) = find_link_attribute(&link, &n) { link.set_attribute((aid, ValueId::None)) }`,
src/task/rm_invisible_elems.rs:233-235 and 291-307: all SVG attributes that refer to `k`. -/
def noneLinks (k : Nat) (n : Node) : Node :=
  { n with attrs := n.attrs.map fun y => match y.name with
    | .id _ => if y.value.target = some k then ⟨y.name, .kw .none, true⟩ else y
    | .name _ => y }

/-- The names of the SVG attributes that refer to `k`. -/
def linkNames (k : Nat) (n : Node) : List AId :=
  n.attrs.filterMap fun y => match y.name with
    | .id a => if y.value.target = some k then some a else none
    | .name _ => none

/-- src/task/rm_invisible_elems.rs:269-278: all SVG attributes that refer to `k` get the colour; the opacity of the element is
replaced. -/
def solidLinks (k : Nat) (col : Value) (op : ℚ) (n : Node) : Node :=
  (linkNames k n).foldl (fun m a =>
    let m := m.set a col
    if op = 1 then m else match a with
      | .fill => m.set .fillOpacity (.number op)
      | .stroke => m.set .strokeOpacity (.number op)
      | _ => m) n

/-- Gradients without children and reference, src/task/rm_invisible_elems.rs:227-229. -/
def emptyGradients : Forest → List Nat
  | .nil => []
  | .cons n k r => (if n.isGradient && k.isEmpty && !n.has .xlinkHref then [n.key] else []) ++ emptyGradients k ++ emptyGradients r

/-- Gradients with one child and without reference, and their children.  src/task/rm_invisible_elems.rs:247-252. -/
def solidGradients : Forest → List (Nat × Node)
  | .nil => []
  | .cons n k r => (match k with
      | .cons s _ .nil => if n.isGradient && !n.has .xlinkHref then [(n.key, s)] else []
      | _ => []) ++ solidGradients k ++ solidGradients r

/-- Lines 231-236: the references to an empty gradient are replaced. -/
def noneStep (f : Forest) (k : Nat) : Forest := f.map (noneLinks k)

/-- Lines 254-279: the references to a gradient with one stop; `none` is the panic of `unreachable!`. -/
def solidStep (f : Forest) (x : Nat × Node) : Option Forest :=
  match x.2.get .stopColor with
  | some (.color r g b) => match x.2.get .stopOpacity with
    | some (.number op) => some (f.map fun n => if n.isGradient then n else solidLinks x.1 (.color r g b) op n)
    | _ => none
  | _ => none

def solidSteps : List (Nat × Node) → Forest → Option Forest
  | [], f => some f
  | x :: xs, f => (solidStep f x).bind (solidSteps xs)

/-- `process_gradients`, src/task/rm_invisible_elems.rs:222-289.  (The loops read only which nodes are gradients, their children
and whether they have `xlink:href`; none of this changes before line 288.) -/
def gradientStep (f : Forest) : Option (Forest × Bool) :=
  let g := (emptyGradients f).foldl noneStep f
  (solidSteps (solidGradients g) g).map fun h =>
    let ks := emptyGradients f ++ (solidGradients g).map (·.1)
    (rmKeys ks h, !ks.isEmpty)

/-- `is_invisible` of `process_rect`, src/task/rm_invisible_elems.rs:311-331. -/
def emptyRect (n : Node) (_ : Forest) : Bool :=
  n.isTag .rect && ((match n.get .width with | some (.length l) => decide (l.num = 0) | _ => false) ||
    match n.get .height with | some (.length l) => decide (l.num = 0) | _ => false)

/-- `process_rect`, src/task/rm_invisible_elems.rs:310-337. -/
def rectStep (f : Forest) : Forest × Bool := drain emptyRect f

/-- `remove_invisible_elements`, src/task/rm_invisible_elems.rs:38-52; `none` is a panic. -/
def removeInvisible (f : Forest) : Option Forest :=
  let f1 := displayStep f
  let f2 := pathStep f1.1
  let f3 := clipStep f2.1
  let f4 := filterStep f3.1
  let f5 := matrixStep f4.1
  let f6 := useStep f5
  (gradientStep f6.1).bind fun f7 =>
    let f8 := rectStep f7.1
    if f1.2 || f2.2 || f3.2 || f4.2 || f6.2 || f7.2 || f8.2 then UnusedDefs.removeUnusedDefs f8.1 else some f8.1

end Verif.Invisible
