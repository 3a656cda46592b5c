import Verif.Pipeline
/-
What the generated modules `RepoTests*` need: running tasks on a document and comparing the outcome with the document the
repository's own unit test expects.  These modules test the model against the tests of the code; they prove no property.
-/
namespace Verif.RepoTest
open Verif.Dom Verif.Pipeline

/-- The place of a node in the document. -/
def place (f : Forest) (k : Nat) : Option Nat :=
  let i := (f.nodes.map Node.key).findIdx (fun j => decide (j = k))
  if i < f.nodes.length then some i else none

/-- The same value, in `f` and in `g`: a reference counts by the place of the node it points to. -/
def sameValue (f g : Forest) (v w : Value) : Bool :=
  match v, w with
  | .link j, .link k => decide (place f j = place g k)
  | .funcLink j, .funcLink k => decide (place f j = place g k)
  | v, w => decide (v = w)

def within (f g : Forest) (as bs : List Attr) : Bool :=
  as.all fun x => bs.any fun y => decide (x.name = y.name) && sameValue f g x.value y.value

/-- The same attributes, in any order (svgdom writes them in alphabetical order). -/
def sameAttrs (f g : Forest) (as bs : List Attr) : Bool :=
  decide (as.length = bs.length) && within f g as bs && within g f bs as

/-- The same document once written: hidden attributes are written only if `hidden`. -/
def same (hidden : Bool) (f g : Forest) : Forest → Forest → Bool
  | .nil, .nil => true
  | .cons n k r, .cons m l s =>
    decide (n.kind = m.kind) && decide (n.id = m.id) && sameAttrs f g (n.attrs.filter fun x => hidden || x.visible) m.attrs &&
      same hidden f g k l && same hidden f g r s
  | _, _ => false

/-- The tasks turn the first document into the second. -/
def gives (hidden : Bool) (ts : List Task) (f g : Forest) : Bool :=
  match runAll ts f with
  | .ok h => same hidden h g h g
  | _ => false

def isErr : Res Forest → Bool
  | .err _ => true
  | _ => false

/-- `prepare_transforms(&svg, true, &options)`, `src/task/apply_transforms/preproc.rs`, the tests. -/
def prepare (o : ApplyTs.TsOpts) : Task := may fun
  | .cons n k r => (ApplyTs.prepareTransforms o true [] n k).map fun x => .cons x.1 x.2 r
  | .nil => none

/-- `utils::recalc_stroke(&mut node, 2.0)` for the `path`, `src/task/utils.rs`, the tests. -/
def recalc (f : Forest) : Option Forest :=
  f.mapCtx (fun anc n => some (if n.isTag .path then ApplyTs.recalcStroke anc n 2 else n)) []

/-- `table_tests`, `src/task/group_by_style.rs`. -/
def tableTest (rows : List (List Bool)) : List (Nat × List Bool) :=
  let t := rows.map fun r => (⟨[⟨.id .fill, .str "red", true⟩], r⟩ : GroupStyle.Row)
  (GroupStyle.joinRows (GroupStyle.sortRows (GroupStyle.simplify t))).map fun r => (r.attrs.length, r.flags)

/-- The tests of `is_equal_stops`, `src/task/rm_dupl_defs/mod.rs`. -/
def stopsTest (f : Forest) : Option Bool :=
  match runAll [may Gradients.resolveLinear, may Gradients.resolveRadial, Stops.resolveStops] f with
  | .ok g =>
    match (g.nodes.filter fun n => n.isTag .linearGradient).map Node.key with
    | a :: b :: _ => (g.kidsOf a).bind fun c => (g.kidsOf b).map fun d => Dupl.equalStops c d
    | _ => none
  | _ => none

/-- svgdom's `AttributeValue::default_value`, for the attributes the tests use. -/
def initial : AId → Option Value := DefaultAttrs.svgInitial

/-! ### The tests that are functions of their own, translated by hand -/

/-- `test_1`, `src/task/trim_ids.rs:120-145` -/
def idText (n : Nat) : Option String := (TrimIds.genId n).map Simple.idString

example : idText 0 = some "a" ∧ idText 1 = some "b" ∧ idText 51 = some "Z" ∧ idText 52 = some "aa" ∧ idText 114 = some "ba" ∧
    idText 176 = some "ca" := by decide +kernel

set_option maxRecDepth 20000 in
example : idText (176 + 62 * 52) = some "aca" := by decide +kernel

/-- The names and values of the tests of `src/task/join_style_attrs.rs`. -/
def attrName : AId → List Char
  | .fill => "fill".toList
  | .stroke => "stroke".toList
  | .strokeWidth => "stroke-width".toList
  | .opacity => "opacity".toList
  | .fillOpacity => "fill-opacity".toList
  | .strokeOpacity => "stroke-opacity".toList
  | _ => []

def valueText : Value → List Char
  | .color 0 0 0 => "#000000".toList
  | .color 255 0 0 => "#ff0000".toList
  | .length ⟨1, .none⟩ => "1".toList
  | .number 1 => "1".toList
  | _ => []

def styled (as : List (AId × Value)) : Forest :=
  .cons ⟨0, .elem .svg, "", as.map fun x => ⟨.id x.1, x.2, true⟩⟩ .nil .nil

def joined (m : Cli.StyleJoinMode) (f : Forest) : Option Value :=
  ((Simple.joinStyleAttributes attrName valueText m f).nodes.head?).bind fun n => n.get .style

/-- `join_styles_1`, `src/task/join_style_attrs.rs:83-108` -/
def six : Forest := styled [(.fill, .color 0 0 0), (.stroke, .color 255 0 0), (.strokeWidth, .length ⟨1, .none⟩),
  (.opacity, .number 1), (.fillOpacity, .number 1), (.strokeOpacity, .number 1)]

example : joined .none six = none ∧ joined .some six =
    some (.str "fill:#000000;stroke:#ff0000;stroke-width:1;opacity:1;fill-opacity:1;stroke-opacity:1") := by decide +kernel

/-- `join_styles_2`, `src/task/join_style_attrs.rs:110-134` -/
def two : Forest := styled [(.fill, .color 0 0 0), (.stroke, .color 255 0 0)]

example : joined .some two = none ∧ joined .all two = some (.str "fill:#000000;stroke:#ff0000") := by decide +kernel

/-- A command line of the tests of `src/cli.rs`. -/
def line (inFile : String) (outFile : Option String) (switches : List String) (values : List (String × String)) : Cli.Args :=
  ⟨inFile, outFile, fun n => (values.find? fun x => x.1 = n).map (·.2), fun n => n ∈ switches⟩

/-- `cli_1` to `cli_4`, `src/cli.rs:594-648` -/
example : Cli.checkValues (line "in.svg" (some "out.svg") [] [("trim-paths", "false"), ("join-arcto-flags", "true")]) = some false ∧
    Cli.checkValues (line "in.svg" (some "out.svg") [] [("paths-to-relative", "false"), ("remove-unused-segments", "true")]) = some false ∧
    Cli.checkValues (line "in.svg" (some "out.svg") [] [("paths-to-relative", "false"), ("convert-segments", "true")]) = some false ∧
    Cli.checkValues (line "in.svg" (some "out.svg") [] [("paths-to-relative", "false"), ("apply-transform-to-paths", "true")]) = some false := by
  decide +kernel

/-- What the tests `default_1`, `no_defaults_1` and `no_defaults_2` look at. -/
def looked (a : Cli.Args) : Option (List Bool) := do
  let p ← Cli.genParseOptions a
  let w ← Cli.genWriteOptions a
  let c ← Cli.genCleaningOptions a
  return [p.parseComments, p.parseDeclarations, w.useCompactPathNotation, w.removeDuplicatedPathCommands, c.removeUnusedDefs,
    c.convertShapes, c.removeGradientAttributes]

/-- `default_1`, `no_defaults_1`, `no_defaults_2`, `src/cli.rs:650-725` -/
example : looked (line "in.svg" (some "out.svg") [] []) = some [false, false, true, true, true, true, false] ∧
    looked (line "in.svg" (some "out.svg") ["no-defaults"] []) = some [true, true, false, false, false, false, false] ∧
    looked (line "in.svg" (some "out.svg") ["no-defaults"]
      [("remove-comments", "true"), ("trim-paths", "true"), ("remove-unused-defs", "true")]) =
      some [false, true, true, false, true, false, false] := by decide +kernel

/-- `no_std`, `std_1`, `std_2`, `std_3`, `src/cli.rs:727-779` -/
example : Cli.input (line "in.svg" (some "out.svg") [] []) = .file "in.svg" ∧
    Cli.output (line "in.svg" (some "out.svg") [] []) = some (.file "out.svg") ∧
    Cli.input (line "-" none ["stdout"] []) = .stdin ∧ Cli.output (line "-" none ["stdout"] []) = some .stdout ∧
    Cli.input (line "in.svg" none ["stdout"] []) = .file "in.svg" ∧ Cli.output (line "in.svg" none ["stdout"] []) = some .stdout ∧
    Cli.input (line "out.svg" (some "-") [] []) = .stdin ∧ Cli.output (line "out.svg" (some "-") [] []) = some (.file "out.svg") := by
  decide +kernel

end Verif.RepoTest
