import Verif.Dom
import Verif.TrimIds
import Verif.Cli
/-
Models of the small tasks: `preclean_checks.rs`, `rm_elems.rs`, `rm_version.rs`, `rm_default_transform.rs`,
`final_fixes.rs`, `rm_unref_ids.rs`, `trim_ids.rs` (its traversal), `ungroup_defs.rs`, `join_style_attrs.rs` and
`rm_unused_coords.rs` in `src/task/`.
-/
namespace Verif.Simple
open Verif.Dom

/-- `ErrorKind`, `src/error.rs:30-54` -/
inductive ErrKind
  | unresolvedAttribute (a : AId)
  | missingAttribute (tag attr : String)
  | scripting
  | animation
  | conditional
  | externalHref (s : String)
  deriving DecidableEq, Repr

/-! ### preclean_checks.rs -/

/-- The loop body of `check_for_unsupported_elements`, `src/task/preclean_checks.rs:41-55`. -/
def elementError (n : Node) : Option ErrKind :=
  match n.kind with
  | .elem .script => some .scripting
  | .elem .animate | .elem .animateColor | .elem .animateMotion | .elem .animateTransform | .elem .set => some .animation
  | _ => none

/-- The loop body of `check_for_script_attributes`, `src/task/preclean_checks.rs:61-70`. -/
def scriptError (n : Node) : Option ErrKind :=
  if n.isSvgElem && n.attrs.any (fun x => match x.name with | .id a => a.isEvent | .name _ => false)
  then some .scripting else none

/-- `check_attr!`, `src/task/preclean_checks.rs:78-88` -/
def conditionalAttr (n : Node) (a : AId) : Bool :=
  match n.get a with
  | some (.str s) => decide (s ≠ "")
  | _ => false

/-- The loop body of `check_for_conditional_attributes`, `src/task/preclean_checks.rs:90-93`. -/
def conditionalError (n : Node) : Option ErrKind :=
  if n.isSvgElem && (conditionalAttr n .requiredFeatures || conditionalAttr n .systemLanguage)
  then some .conditional else none

/-- The loop body of `check_for_external_xlink`, `src/task/preclean_checks.rs:99-116`. -/
def xlinkError (n : Node) : Option ErrKind :=
  match n.kind with
  | .elem .a | .elem .image | .elem .fontFaceUri | .elem .feImage => none
  | .elem _ =>
    match n.get .xlinkHref with
    | some (.str s) => some (.externalHref s)
    | _ => none
  | _ => none

/-- `preclean_checks`, `src/task/preclean_checks.rs:31-38`: four loops over the document, each stopping at its first
error. -/
def precleanChecks (f : Forest) : Except ErrKind Unit :=
  match f.nodes.findSome? elementError with
  | some e => .error e
  | none =>
  match f.nodes.findSome? scriptError with
  | some e => .error e
  | none =>
  match f.nodes.findSome? conditionalError with
  | some e => .error e
  | none =>
  match f.nodes.findSome? xlinkError with
  | some e => .error e
  | none => .ok ()

/-! ### rm_elems.rs, rm_version.rs, rm_default_transform.rs -/

/-- `remove_element`, `src/task/rm_elems.rs:24-26`; `Document::drain` removes the matching nodes from the top down. -/
def removeElement (e : EId) (f : Forest) : Forest := f.remove (fun n => n.isTag e)

/-- `remove_version`, `src/task/rm_version.rs:23-28`; `none` is the panic of `unwrap`. -/
def removeVersion (f : Forest) : Option Forest :=
  (svgElement f).map fun (n, k) => setSvgElement ((n.rm .version).rm .baseProfile) k f

/-- svgdom's default transform. -/
def identity : Paths.Transform := ⟨1, 0, 0, 1, 0, 0⟩

/-- The loop body of `remove_default_transform`, `src/task/rm_default_transform.rs:25-30`. -/
def dropDefault (n : Node) : Node :=
  match n.get .transform with
  | some (.transform t) => if t = identity then n.rm .transform else n
  | _ => n

/-- `remove_default_transform`, `src/task/rm_default_transform.rs:23-32` -/
def removeDefaultTransform (f : Forest) : Forest := f.map dropDefault

/-! ### final_fixes.rs -/

/-- The loop of `remove_empty_defs` over the children of the root element, `src/task/final_fixes.rs:31-36`.
The second component is the removed node's key. -/
def dropEmptyDefs : Forest → Forest × List Nat
  | .nil => (.nil, [])
  | .cons n k r =>
    if n.isTag .defs && k.isEmpty then (r, [n.key])
    else let p := dropEmptyDefs r; (.cons n k p.1, p.2)

/-- Removes the attributes that refer to one of the removed nodes, as `node.remove()` does. -/
def unlinkAll (ks : List Nat) (f : Forest) : Forest := f.map (fun n => n.unlink (fun k => decide (k ∈ ks)))

/-- `remove_empty_defs`, `src/task/final_fixes.rs:25-37` -/
def removeEmptyDefs (f : Forest) : Option Forest :=
  (svgElement f).map fun (n, k) =>
    unlinkAll (dropEmptyDefs k).2 (setSvgElement n (dropEmptyDefs k).1 f)

/-- `has_links` of `fix_xmlns_attribute`, `src/task/final_fixes.rs:43-54`. -/
def hasLinks (f : Forest) : Bool :=
  f.nodes.any fun n => n.isSvgElem && (f.isUsed n.key || n.has .xlinkHref)

/-- The change `fix_xmlns_attribute` makes to the root element, `src/task/final_fixes.rs:56-64`. -/
def fixXmlnsRoot (rmUnused links : Bool) (n : Node) : Node :=
  if !links && rmUnused && n.has .xmlnsXlink then n.rm .xmlnsXlink
  else if links && !n.has .xmlnsXlink then n.set .xmlnsXlink (.str "http://www.w3.org/1999/xlink")
  else n

/-- `fix_xmlns_attribute`, `src/task/final_fixes.rs:39-65` -/
def fixXmlnsAttribute (rmUnused : Bool) (f : Forest) : Option Forest :=
  (svgElement f).map fun (n, k) => setSvgElement (fixXmlnsRoot rmUnused (hasLinks f) n) k f

/-! ### rm_unref_ids.rs, trim_ids.rs -/

/-- `remove_unreferenced_ids`, `src/task/rm_unref_ids.rs:21-27`.  Clearing an id does not change who refers to what,
so the test can use the original document. -/
def removeUnreferencedIds (f : Forest) : Forest :=
  f.map fun n => if n.id ≠ "" ∧ f.isUsed n.key = false then { n with id := "" } else n

/-- The string of an id given as character codes. -/
def idString (s : List Nat) : String := String.ofList (s.map Char.ofNat)

/-- The loop body of `trim_ids`, `src/task/trim_ids.rs:107-112`: `d` is the state of the id generator.
`none` is the panic of `plus_one`. -/
def trimNode (d : List Nat) (n : Node) : Option (Node × List Nat) :=
  if n.isSvgElem && decide (n.id ≠ "") then
    (TrimIds.plusOne d).map fun d' => ({ n with id := idString (TrimIds.toBytes d) }, d')
  else some (n, d)

def trimGo : Forest → List Nat → Option (Forest × List Nat)
  | .nil, d => some (.nil, d)
  | .cons n k r, d =>
    (trimNode d n).bind fun a =>
    (trimGo k a.2).bind fun b =>
    (trimGo r b.2).map fun c => (.cons a.1 b.1 c.1, c.2)

/-- `trim_ids`, `src/task/trim_ids.rs:105-113` -/
def trimIds (f : Forest) : Option Forest := (trimGo f TrimIds.numNew).map (·.1)

/-! ### ungroup_defs.rs -/

/-- `child.is_referenced()` -/
def isReferencedNode (n : Node) : Bool := match n.kind with | .elem e => e.isReferenced | _ => false

/-- `ungroup_defs`, `src/task/ungroup_defs.rs:27-47`.  The result is the new forest, the removed `defs` nodes, and
whether the traversal was cut short.  The traversal has already stepped to the first child when the body runs, so it
goes on with the moved children; a childless `defs` has no child to step to and, being detached, ends the traversal. -/
def ungroupDefsGo : Forest → Bool → Forest × List Nat × Bool
  | .nil, s => (.nil, [], s)
  | .cons n k r, true => (.cons n k r, [], true)
  | .cons n k r, false =>
    if n.isTag .defs && k.top.all isReferencedNode then
      match k with
      | .nil => (r, [n.key], true)
      | .cons n1 k1 r1 =>
        let a := ungroupDefsGo (.cons n1 k1 r1) false
        let b := ungroupDefsGo r a.2.2
        (a.1 ++ b.1, n.key :: (a.2.1 ++ b.2.1), b.2.2)
    else
      let a := ungroupDefsGo k false
      let b := ungroupDefsGo r a.2.2
      (.cons n a.1 b.1, a.2.1 ++ b.2.1, b.2.2)

/-- `ungroup_defs` with the effect of `node.remove()` on attributes that refer to a removed `defs`. -/
def ungroupDefs (f : Forest) : Forest :=
  let a := ungroupDefsGo f false
  unlinkAll a.2.1 a.1

/-! ### join_style_attrs.rs -/

/-- `a.is_presentation() && a.visible`, `src/task/join_style_attrs.rs:39` -/
def joinable (x : Attr) : Bool := (match x.name with | .id a => a.isPresentation | .name _ => false) && x.visible

/-- The written name of an attribute. -/
def nameText (nameOf : AId → List Char) : AName → List Char
  | .id a => nameOf a
  | .name s => s.toList

/-- One `name:value;` piece, `src/task/join_style_attrs.rs:53-56`.  How svgdom names attributes and writes values
is a parameter of the model. -/
def stylePiece (nameOf : AId → List Char) (ser : Value → List Char) (x : Attr) : List Char :=
  nameText nameOf x.name ++ ':' :: (ser x.value ++ [';'])

/-- The text put in the `style` attribute, `src/task/join_style_attrs.rs:47-63`: the pieces, and `style.pop()` drops
the last `;`. -/
def styleText (nameOf : AId → List Char) (ser : Value → List Char) (as : List Attr) : List Char :=
  ((as.filter joinable).flatMap (stylePiece nameOf ser)).dropLast

/-- The loop body of `join_style_attributes`, `src/task/join_style_attrs.rs:36-72`. -/
def joinNode (nameOf : AId → List Char) (ser : Value → List Char) (mode : Cli.StyleJoinMode) (n : Node) : Node :=
  let count := (n.attrs.filter joinable).length
  if n.isSvgElem && ((decide (mode = .some) && decide (5 < count)) || decide (mode = .all)) then
    { n with attrs := (putAttr n.attrs ⟨.id .style, .str (String.ofList (styleText nameOf ser n.attrs)), true⟩).filter (fun x => !joinable x) }
  else n

/-- `join_style_attributes`, `src/task/join_style_attrs.rs:29-73` -/
def joinStyleAttributes (nameOf : AId → List Char) (ser : Value → List Char) (mode : Cli.StyleJoinMode)
    (f : Forest) : Forest :=
  if mode = .none then f else f.map (joinNode nameOf ser mode)

/-! ### rm_unused_coords.rs -/

/-- `rm_f!`, `src/task/rm_unused_coords.rs:72-87` -/
def rmF (f : Forest) (n : Node) (fa ca : AId) : List AId :=
  match n.get fa, n.get ca with
  | some v, some w =>
    if v = w ∧ ((f.linkedNodes n.key).filter (fun m => m.isTag .radialGradient)).length = 0 then [fa] else []
  | _, _ => []

/-- The `match` of `remove_unused_coordinates`, `src/task/rm_unused_coords.rs:34-95`: the attributes to hide.
`top` says that the node has no parent element. -/
def unusedCoords (f : Forest) (top : Bool) (n : Node) : List AId :=
  match n.kind with
  | .elem .svg => if top then (if n.has .x then [.x] else []) ++ (if n.has .y then [.y] else []) else []
  | .elem .rect => if n.has .rx && decide (n.get .rx = n.get .ry) then [.ry] else []
  | .elem .radialGradient =>
    let linked := match n.get .xlinkHref with
      | some (.link k) => (match f.find k with | some m => m.isTag .radialGradient | none => false)
      | _ => false
    if linked then [] else rmF f n .fx .cx ++ rmF f n .fy .cy
  | _ => []

/-- `src/task/rm_unused_coords.rs:98-104` -/
def hideAll (n : Node) (as : List AId) : Node := as.foldl (fun n a => n.hide a) n

/-- `remove_unused_coordinates`, `src/task/rm_unused_coords.rs:26-108`; hiding changes neither values nor links,
so the tests can use the original document. -/
def removeUnusedCoordsGo (doc : Forest) : Bool → Forest → Forest
  | _, .nil => .nil
  | top, .cons n k r =>
    .cons (hideAll n (unusedCoords doc top n)) (removeUnusedCoordsGo doc false k) (removeUnusedCoordsGo doc top r)

def removeUnusedCoords (f : Forest) : Forest := removeUnusedCoordsGo f true f

end Verif.Simple
