
/-
Model of command line handling: `src/cli.rs` and `src/options.rs`.

`clap` itself is not modelled; its result `ArgMatches` is (`Args`): for each long option name the value written by
the user (if any; clap rejects repeated options), the presence-only switches, and the two positional
arguments.  `clapAccepts` are the checks `prepare_app` (`src/cli.rs:210-310`) asks clap to perform.
`none` in the result of a `gen…` function stands for a panic (`unwrap`/`unreachable!`).
-/
namespace Verif.Cli

/-- `src/cli.rs:53-115` -/
inductive Key
  | removeComments
  | removeDeclarations
  | removeNonsvgElements
  | removeUnusedDefs
  | convertShapes
  | removeTitle
  | removeDesc
  | removeMetadata
  | removeDuplLinearGradients
  | removeDuplRadialGradients
  | removeDuplFeGaussianBlur
  | ungroupGroups
  | ungroupDefs
  | groupByStyle
  | mergeGradients
  | regroupGradientStops
  | removeInvalidStops
  | removeInvisibleElements
  | resolveUse
  | removeVersion
  | removeNonsvgAttributes
  | removeUnreferencedIds
  | trimIds
  | removeTextAttributes
  | removeUnusedCoordinates
  | removeDefaultAttributes
  | removeXmlnsXlinkAttribute
  | removeNeedlessAttributes
  | removeGradientAttributes
  | joinStyleAttributes
  | applyTransformToGradients
  | applyTransformToShapes
  | removeUnresolvedClasses
  | pathsToRelative
  | removeUnusedSegments
  | convertSegments
  | applyTransformToPaths
  | trimPaths
  | joinArcToFlags
  | removeDuplCmdInPaths
  | useImplicitCommands
  | trimColors
  | appendNewline
  | simplifyTransforms
  | coordinatesPrecision
  | propertiesPrecision
  | transformsPrecision
  | pathsCoordinatesPrecision
  | listSeparator
  | indent
  | noDefaults
  | multipass
  | allowBiggerFile
  | copyOnError
  | quiet
  | stdout
  deriving DecidableEq, Repr

/-- `_index as usize` (`src/cli.rs:119-125`): the position of the key in the enumeration. -/
def Key.index : Key → Nat
  | .removeComments => 0
  | .removeDeclarations => 1
  | .removeNonsvgElements => 2
  | .removeUnusedDefs => 3
  | .convertShapes => 4
  | .removeTitle => 5
  | .removeDesc => 6
  | .removeMetadata => 7
  | .removeDuplLinearGradients => 8
  | .removeDuplRadialGradients => 9
  | .removeDuplFeGaussianBlur => 10
  | .ungroupGroups => 11
  | .ungroupDefs => 12
  | .groupByStyle => 13
  | .mergeGradients => 14
  | .regroupGradientStops => 15
  | .removeInvalidStops => 16
  | .removeInvisibleElements => 17
  | .resolveUse => 18
  | .removeVersion => 19
  | .removeNonsvgAttributes => 20
  | .removeUnreferencedIds => 21
  | .trimIds => 22
  | .removeTextAttributes => 23
  | .removeUnusedCoordinates => 24
  | .removeDefaultAttributes => 25
  | .removeXmlnsXlinkAttribute => 26
  | .removeNeedlessAttributes => 27
  | .removeGradientAttributes => 28
  | .joinStyleAttributes => 29
  | .applyTransformToGradients => 30
  | .applyTransformToShapes => 31
  | .removeUnresolvedClasses => 32
  | .pathsToRelative => 33
  | .removeUnusedSegments => 34
  | .convertSegments => 35
  | .applyTransformToPaths => 36
  | .trimPaths => 37
  | .joinArcToFlags => 38
  | .removeDuplCmdInPaths => 39
  | .useImplicitCommands => 40
  | .trimColors => 41
  | .appendNewline => 42
  | .simplifyTransforms => 43
  | .coordinatesPrecision => 44
  | .propertiesPrecision => 45
  | .transformsPrecision => 46
  | .pathsCoordinatesPrecision => 47
  | .listSeparator => 48
  | .indent => 49
  | .noDefaults => 50
  | .multipass => 51
  | .allowBiggerFile => 52
  | .copyOnError => 53
  | .quiet => 54
  | .stdout => 55

/-- `src/cli.rs:127-188` -/
def KEYS : List String :=
  ["remove-comments",
   "remove-declarations",
   "remove-nonsvg-elements",
   "remove-unused-defs",
   "convert-shapes",
   "remove-title",
   "remove-desc",
   "remove-metadata",
   "remove-dupl-lineargradient",
   "remove-dupl-radialgradient",
   "remove-dupl-fegaussianblur",
   "ungroup-groups",
   "ungroup-defs",
   "group-by-style",
   "merge-gradients",
   "regroup-gradient-stops",
   "remove-invalid-stops",
   "remove-invisible-elements",
   "resolve-use",
   "remove-version",
   "remove-nonsvg-attributes",
   "remove-unreferenced-ids",
   "trim-ids",
   "remove-text-attributes",
   "remove-unused-coordinates",
   "remove-default-attributes",
   "remove-xmlns-xlink-attribute",
   "remove-needless-attributes",
   "remove-gradient-attributes",
   "join-style-attributes",
   "apply-transform-to-gradients",
   "apply-transform-to-shapes",
   "remove-unresolved-classes",
   "paths-to-relative",
   "remove-unused-segments",
   "convert-segments",
   "apply-transform-to-paths",
   "trim-paths",
   "join-arcto-flags",
   "remove-dupl-cmd-in-paths",
   "use-implicit-cmds",
   "trim-colors",
   "append-newline",
   "simplify-transforms",
   "coordinates-precision",
   "properties-precision",
   "transforms-precision",
   "paths-coordinates-precision",
   "list-separator",
   "indent",
   "no-defaults",
   "multipass",
   "allow-bigger-file",
   "copy-on-error",
   "quiet",
   "stdout"]

/-- `KEYS[key]`, `src/cli.rs:119-125`; out of range would be a panic (excluded by `keys_in_range`). -/
def Key.name (k : Key) : String := KEYS.getD k.index ""

/-- `src/cli.rs:41-51` -/
inductive InputFrom | stdin | file (path : String)
  deriving DecidableEq, Repr
inductive OutputTo | stdout | file (path : String)
  deriving DecidableEq, Repr

/-- What the user wrote on the command line, as parsed by clap. -/
structure Args where
  inFile : String
  outFile : Option String
  /-- value written for `--name` -/
  value : String → Option String
  /-- `--name` present (switches without value) -/
  present : String → Bool

/-- The `gen_flag!` lines of `prepare_app`, `src/cli.rs:242-295`: key and default value. -/
def flagArgs : List (Key × String) :=
  [(.removeComments, "true"),
   (.removeDeclarations, "true"),
   (.removeNonsvgElements, "true"),
   (.removeUnusedDefs, "true"),
   (.convertShapes, "true"),
   (.removeTitle, "true"),
   (.removeDesc, "true"),
   (.removeMetadata, "true"),
   (.removeDuplLinearGradients, "true"),
   (.removeDuplRadialGradients, "true"),
   (.removeDuplFeGaussianBlur, "true"),
   (.ungroupGroups, "true"),
   (.ungroupDefs, "true"),
   (.groupByStyle, "true"),
   (.mergeGradients, "true"),
   (.regroupGradientStops, "true"),
   (.removeInvalidStops, "true"),
   (.removeInvisibleElements, "true"),
   (.resolveUse, "true"),
   (.removeVersion, "true"),
   (.removeNonsvgAttributes, "true"),
   (.removeUnreferencedIds, "true"),
   (.trimIds, "true"),
   (.removeTextAttributes, "true"),
   (.removeUnusedCoordinates, "true"),
   (.removeDefaultAttributes, "true"),
   (.removeXmlnsXlinkAttribute, "true"),
   (.removeNeedlessAttributes, "true"),
   (.removeGradientAttributes, "false"),
   (.applyTransformToGradients, "true"),
   (.applyTransformToShapes, "true"),
   (.removeUnresolvedClasses, "true"),
   (.pathsToRelative, "true"),
   (.removeUnusedSegments, "true"),
   (.convertSegments, "true"),
   (.applyTransformToPaths, "false"),
   (.trimPaths, "true"),
   (.joinArcToFlags, "false"),
   (.removeDuplCmdInPaths, "true"),
   (.useImplicitCommands, "true"),
   (.trimColors, "true"),
   (.appendNewline, "false"),
   (.simplifyTransforms, "true")]

/-- The `gen_precision!` lines of `prepare_app`, `src/cli.rs:296-299`. -/
def precisionArgs : List (Key × String) :=
  [(.coordinatesPrecision, "6"),
   (.propertiesPrecision, "6"),
   (.transformsPrecision, "8"),
   (.pathsCoordinatesPrecision, "8")]

/-- The arguments with `possible_values`, `src/cli.rs:273-277, 300-309`: key, values, default. -/
def choiceArgs : List (Key × List String × String) :=
  [(.joinStyleAttributes, ["no", "some", "all"], "some"),
   (.listSeparator, ["space", "comma", "comma-space"], "space"),
   (.indent, ["none", "0", "1", "2", "3", "4", "tabs"], "none")]

/-- All `default_value`s, by option name. -/
def defaultOf (name : String) : Option String :=
  (flagArgs ++ precisionArgs ++ choiceArgs.map (fun x => (x.1, x.2.2))).findSome?
    (fun x => if x.1.name = name then some x.2 else none)

/-- clap's `ArgMatches::value_of` for an option: the written value, else the default. -/
def Args.valueOf (a : Args) (name : String) : Option String :=
  (a.value name).or (defaultOf name)

/-- `is_svg`, `src/cli.rs:312-318` -/
def isSvg (s : String) : Bool :=
  s.endsWith ".svg" || s.endsWith ".SVG" || s == "-"

/-- `str::parse::<u8>` of the Rust standard library: optional `+`, at least one decimal digit, value below 256. -/
def parseU8 (s : String) : Option Nat :=
  let cs := match s.toList with
    | '+' :: t => t
    | t => t
  if cs = [] then none
  else if cs.all (fun c => decide ('0' ≤ c) && decide (c ≤ '9')) then
    let n := cs.foldl (fun n c => 10 * n + (c.toNat - '0'.toNat)) 0
    if n < 256 then some n else none
  else none

/-- `is_precision`, `src/cli.rs:320-331` -/
def isPrecision (s : String) : Bool :=
  match parseU8 s with
  | none => false
  | some n => decide (1 ≤ n) && decide (n ≤ 12)

/-- `is_flag`, `src/cli.rs:333-340` -/
def isFlag (s : String) : Bool :=
  s == "true" || s == "false" || s == "yes" || s == "no" || s == "y" || s == "n"

/-- The checks clap performs for `prepare_app`, `src/cli.rs:210-310`. -/
def clapAccepts (a : Args) : Bool :=
  isSvg a.inFile
  && (a.outFile.isSome || a.present Key.stdout.name)
  && (match a.outFile with | some s => isSvg s | none => true)
  && flagArgs.all (fun x => match a.value x.1.name with | some v => isFlag v | none => true)
  && precisionArgs.all (fun x => match a.value x.1.name with | some v => isPrecision v | none => true)
  && choiceArgs.all (fun x => match a.value x.1.name with | some v => x.2.1.contains v | none => true)

/-- `get_flag`, `src/cli.rs:342-348`; `none` is a panic. -/
def getFlag (a : Args) (k : Key) : Option Bool :=
  match a.valueOf k.name with
  | none => none
  | some s =>
    if s = "true" ∨ s = "yes" ∨ s = "y" then some true
    else if s = "false" ∨ s = "no" ∨ s = "n" then some false
    else none

/-- `check_value`, `src/cli.rs:353-360` (without the message). -/
def checkValue (a : Args) (flag dep : Key) : Option Bool := do
  let x ← getFlag a flag
  if x then return true
  let y ← getFlag a dep
  return !y

/-- `check_values`, `src/cli.rs:351-381` -/
def checkValues (a : Args) : Option Bool := do
  if !(← checkValue a .trimPaths .joinArcToFlags) then return false
  if !(← checkValue a .pathsToRelative .removeUnusedSegments) then return false
  if !(← checkValue a .pathsToRelative .convertSegments) then return false
  if !(← checkValue a .pathsToRelative .applyTransformToPaths) then return false
  return true

/-- `Flags::_resolve`, `src/cli.rs:408-424`.  Outer `none`: panic; inner `none`: keep the value. -/
def resolve? (a : Args) (k : Key) : Option (Option Bool) :=
  if a.present Key.noDefaults.name then
    if (a.value k.name).isSome then (getFlag a k).map some
    else some none
  else (getFlag a k).map some

/-- `Flags::resolve`, `src/cli.rs:396-400`: the new value of the option, given its old value. -/
def resolve (a : Args) (old : Bool) (k : Key) : Option Bool :=
  (resolve? a k).map (fun r => r.getD old)

/-- `Flags::resolve_inv`, `src/cli.rs:402-406`. -/
def resolveInv (a : Args) (old : Bool) (k : Key) : Option Bool :=
  (resolve? a k).map (fun r => match r with | some v => !v | none => old)

/-- svgdom's `ParseOptions` as initialised at `src/cli.rs:428-438`. -/
structure ParseOptions where
  parseComments : Bool := true
  parseDeclarations : Bool := true
  parseUnknownElements : Bool := true
  parseUnknownAttributes : Bool := true
  parsePxUnit : Bool := false
  skipUnresolvedClasses : Bool := true
  skipInvalidAttributes : Bool := false
  skipInvalidCss : Bool := false
  skipPaintFallback : Bool := false
  deriving DecidableEq, Repr

/-- `gen_parse_options`, `src/cli.rs:427-449` -/
def genParseOptions (a : Args) : Option ParseOptions := do
  let o : ParseOptions := {}
  let o := { o with parseComments := ← resolveInv a o.parseComments .removeComments }
  let o := { o with parseDeclarations := ← resolveInv a o.parseDeclarations .removeDeclarations }
  let o := { o with parseUnknownElements := ← resolveInv a o.parseUnknownElements .removeNonsvgElements }
  let o := { o with parseUnknownAttributes := ← resolveInv a o.parseUnknownAttributes .removeNonsvgAttributes }
  let o := { o with skipUnresolvedClasses := ← resolve a o.skipUnresolvedClasses .removeUnresolvedClasses }
  return o

inductive Indent | none | spaces (n : Nat) | tabs
  deriving DecidableEq, Repr
inductive ListSeparator | space | comma | commaSpace
  deriving DecidableEq, Repr

/-- svgdom's `WriteOptions` as initialised at `src/cli.rs:459-473`
(`attributes_order` is the constant `Alphabetical` and left out). -/
structure WriteOptions where
  indent : Indent := .spaces 4
  attributesIndent : Indent := .none
  useSingleQuote : Bool := false
  trimHexColors : Bool := false
  writeHiddenAttributes : Bool := false
  removeLeadingZero : Bool := true
  useCompactPathNotation : Bool := false
  joinArcToFlags : Bool := false
  removeDuplicatedPathCommands : Bool := false
  useImplicitLinetoCommands : Bool := false
  simplifyTransformMatrices : Bool := false
  listSeparator : ListSeparator := .space
  deriving DecidableEq, Repr

/-- `src/cli.rs:486-491` -/
def parseSeparator (s : String) : Option ListSeparator :=
  if s = "space" then some .space else if s = "comma" then some .comma
  else if s = "comma-space" then some .commaSpace else none

/-- `src/cli.rs:493-502` -/
def parseIndent (s : String) : Option Indent :=
  if s = "none" then some .none else if s = "0" then some (.spaces 0) else if s = "1" then some (.spaces 1)
  else if s = "2" then some (.spaces 2) else if s = "3" then some (.spaces 3) else if s = "4" then some (.spaces 4)
  else if s = "tabs" then some .tabs else none

/-- `gen_write_options`, `src/cli.rs:451-505` -/
def genWriteOptions (a : Args) : Option WriteOptions := do
  let o : WriteOptions := {}
  let o := { o with useCompactPathNotation := ← resolve a o.useCompactPathNotation .trimPaths }
  let o := { o with removeDuplicatedPathCommands := ← resolve a o.removeDuplicatedPathCommands .removeDuplCmdInPaths }
  let o := { o with joinArcToFlags := ← resolve a o.joinArcToFlags .joinArcToFlags }
  let o := { o with useImplicitLinetoCommands := ← resolve a o.useImplicitLinetoCommands .useImplicitCommands }
  let o := { o with simplifyTransformMatrices := ← resolve a o.simplifyTransformMatrices .simplifyTransforms }
  let o := { o with trimHexColors := ← resolve a o.trimHexColors .trimColors }
  let o := { o with listSeparator := ← (a.valueOf Key.listSeparator.name).bind parseSeparator }
  let o := { o with indent := ← (a.valueOf Key.indent.name).bind parseIndent }
  return o

/-- `src/options.rs:20-24` -/
inductive StyleJoinMode | none | some | all
  deriving DecidableEq, Repr

/-- `CleaningOptions` with its `Default` instance, `src/options.rs:27-120`. -/
structure CleaningOptions where
  removeUnusedDefs : Bool := false
  convertShapes : Bool := false
  removeTitle : Bool := false
  removeDesc : Bool := false
  removeMetadata : Bool := false
  removeDuplLinearGradients : Bool := false
  removeDuplRadialGradients : Bool := false
  removeDuplFeGaussianBlur : Bool := false
  ungroupGroups : Bool := false
  ungroupDefs : Bool := false
  groupByStyle : Bool := false
  mergeGradients : Bool := false
  regroupGradientStops : Bool := false
  removeInvalidStops : Bool := false
  removeInvisibleElements : Bool := false
  resolveUse : Bool := false
  removeVersion : Bool := false
  removeUnreferencedIds : Bool := false
  trimIds : Bool := false
  removeTextAttributes : Bool := false
  removeUnusedCoordinates : Bool := false
  removeDefaultAttributes : Bool := false
  removeXmlnsXlinkAttribute : Bool := false
  removeNeedlessAttributes : Bool := false
  removeGradientAttributes : Bool := false
  applyTransformToGradients : Bool := false
  applyTransformToShapes : Bool := false
  pathsToRelative : Bool := false
  removeUnusedSegments : Bool := false
  convertSegments : Bool := false
  appendNewline : Bool := false
  applyTransformToPaths : Bool := false
  joinStyleAttributes : StyleJoinMode := .none
  coordinatesPrecision : Nat := 6
  propertiesPrecision : Nat := 6
  pathsCoordinatesPrecision : Nat := 8
  transformsPrecision : Nat := 8
  deriving DecidableEq, Repr

/-- `src/cli.rs:542-547` -/
def parseJoinMode (s : String) : Option StyleJoinMode :=
  if s = "no" then some .none else if s = "some" then some .some else if s = "all" then some .all else none

/-- `gen_cleaning_options`, `src/cli.rs:507-562` -/
def genCleaningOptions (a : Args) : Option CleaningOptions := do
  let o : CleaningOptions := {}
  let o := { o with removeUnusedDefs := ← resolve a o.removeUnusedDefs .removeUnusedDefs }
  let o := { o with convertShapes := ← resolve a o.convertShapes .convertShapes }
  let o := { o with removeTitle := ← resolve a o.removeTitle .removeTitle }
  let o := { o with removeDesc := ← resolve a o.removeDesc .removeDesc }
  let o := { o with removeMetadata := ← resolve a o.removeMetadata .removeMetadata }
  let o := { o with removeDuplLinearGradients := ← resolve a o.removeDuplLinearGradients .removeDuplLinearGradients }
  let o := { o with removeDuplRadialGradients := ← resolve a o.removeDuplRadialGradients .removeDuplRadialGradients }
  let o := { o with removeDuplFeGaussianBlur := ← resolve a o.removeDuplFeGaussianBlur .removeDuplFeGaussianBlur }
  let o := { o with ungroupGroups := ← resolve a o.ungroupGroups .ungroupGroups }
  let o := { o with ungroupDefs := ← resolve a o.ungroupDefs .ungroupDefs }
  let o := { o with groupByStyle := ← resolve a o.groupByStyle .groupByStyle }
  let o := { o with mergeGradients := ← resolve a o.mergeGradients .mergeGradients }
  let o := { o with regroupGradientStops := ← resolve a o.regroupGradientStops .regroupGradientStops }
  let o := { o with removeInvalidStops := ← resolve a o.removeInvalidStops .removeInvalidStops }
  let o := { o with removeInvisibleElements := ← resolve a o.removeInvisibleElements .removeInvisibleElements }
  let o := { o with resolveUse := ← resolve a o.resolveUse .resolveUse }
  let o := { o with removeVersion := ← resolve a o.removeVersion .removeVersion }
  let o := { o with removeUnreferencedIds := ← resolve a o.removeUnreferencedIds .removeUnreferencedIds }
  let o := { o with trimIds := ← resolve a o.trimIds .trimIds }
  let o := { o with removeTextAttributes := ← resolve a o.removeTextAttributes .removeTextAttributes }
  let o := { o with removeUnusedCoordinates := ← resolve a o.removeUnusedCoordinates .removeUnusedCoordinates }
  let o := { o with removeDefaultAttributes := ← resolve a o.removeDefaultAttributes .removeDefaultAttributes }
  let o := { o with removeXmlnsXlinkAttribute := ← resolve a o.removeXmlnsXlinkAttribute .removeXmlnsXlinkAttribute }
  let o := { o with removeNeedlessAttributes := ← resolve a o.removeNeedlessAttributes .removeNeedlessAttributes }
  let o := { o with removeGradientAttributes := ← resolve a o.removeGradientAttributes .removeGradientAttributes }
  let o := { o with applyTransformToGradients := ← resolve a o.applyTransformToGradients .applyTransformToGradients }
  let o := { o with applyTransformToShapes := ← resolve a o.applyTransformToShapes .applyTransformToShapes }
  let o := { o with joinStyleAttributes := ← (a.valueOf Key.joinStyleAttributes.name).bind parseJoinMode }
  let o := { o with pathsToRelative := ← resolve a o.pathsToRelative .pathsToRelative }
  let o := { o with removeUnusedSegments := ← resolve a o.removeUnusedSegments .removeUnusedSegments }
  let o := { o with convertSegments := ← resolve a o.convertSegments .convertSegments }
  let o := { o with applyTransformToPaths := ← resolve a o.applyTransformToPaths .applyTransformToPaths }
  let o := { o with appendNewline := ← resolve a o.appendNewline .appendNewline }
  let o := { o with coordinatesPrecision := ← (a.valueOf Key.coordinatesPrecision.name).bind parseU8 }
  let o := { o with propertiesPrecision := ← (a.valueOf Key.propertiesPrecision.name).bind parseU8 }
  let o := { o with pathsCoordinatesPrecision := ← (a.valueOf Key.pathsCoordinatesPrecision.name).bind parseU8 }
  let o := { o with transformsPrecision := ← (a.valueOf Key.transformsPrecision.name).bind parseU8 }
  return o

/-- `input`, `src/cli.rs:564-575` -/
def input (a : Args) : InputFrom :=
  if a.inFile = "-" ∧ a.present Key.stdout.name = true then .stdin
  else if a.outFile = some "-" then .stdin
  else .file a.inFile

/-- `output`, `src/cli.rs:577-588`; `none` is a panic (`out_file.unwrap()`). -/
def output (a : Args) : Option OutputTo :=
  if a.present Key.stdout.name then some .stdout
  else if a.outFile = some "-" then some (.file a.inFile)
  else a.outFile.map .file

end Verif.Cli
