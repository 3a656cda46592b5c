# A Lean 4 model of svgcleaner

`/repo` is RazrFalcon/svgcleaner (Rust). The model is a set of total Lean functions, one per Rust function, under
`lean/Verif/`. Each definition cites the file and lines it models and says where it simplifies. The properties are in
`properties.jsonl`, the theorems that settle them in `MANIFEST.json`.

## Conventions

* `Cxx_...` is a theorem for property Cxx. `Cxx_..._partial` proves it under conditions that the English claim does not have, or
  for a part of it; its doc comment says what is missing. `Cxx_full` (a `Prop`) states the claim without the conditions, and
  `Cxx_refuted_...` proves it false with a concrete document: these are findings about the code.
* Beside each theorem an `example` shows that a non-trivial document meets the hypotheses.
* A panic of the program (`unwrap` on `None`, `unreachable!`, an assertion) is an explicit outcome (`none`, `Res.panic`). A loop is a
  function with fuel, with a theorem that the fuel is enough (or, where the program can hang, that no fuel is).
* Specifications are in separate files that the model does not use: `PathSem` (what a path draws), `DomSpec` (documents),
  `GradientSpec` (gradient attributes, SVG 1.1 ch. 13), `Render`/`RenderDepth` (what a document looks like).

## What is modelled

| modules | code | properties |
|---|---|---|
| `Cli`, `CliProps` | `src/cli.rs`, `src/options.rs` | C05–C09 |
| `Driver`, `DriverProps` | `src/main.rs` | C01–C04, C56 |
| `Round`, `RoundProps` | `src/task/round_numbers.rs:116-192` | C10–C12 |
| `RoundDoc`, `RoundDocProps` | `src/task/round_numbers.rs:28-114` | C58 |
| `TrimIds`, `TrimIdsProps` | `src/task/trim_ids.rs` (`Num`) | C13, C14 |
| `Path`, `PathSem`, `PathLemmas`, `PathConv`, `PathUnused`, `PathProps` | `src/task/paths/*.rs`, `round_path` | C16–C20, C12 |
| `Dom`, `DomMore`, `DomLemmas`, `DomSpec` | svgdom (assumed) | all below |
| `Simple`, `SimpleProps`, `IdsProps`, `FinalProps` | `preclean_checks.rs`, `rm_elems.rs`, `rm_version.rs`, `rm_default_transform.rs`, `final_fixes.rs`, `rm_unref_ids.rs`, `trim_ids.rs`, `ungroup_defs.rs`, `join_style_attrs.rs`, `rm_unused_coords.rs` | C15, C23, C24, C46–C51 |
| `Stops`, `StopsProps` | `resolve_stop_attributes`, `fix_attrs.rs`, `rm_invalid_stops.rs` | C28, C29, C52, C57 |
| `ConvShapes`, `ConvShapesProps` | `conv_shapes.rs` | C21 |
| `Gradients`, `GradientSpec`, `GradientsProps` | `resolve_gradients.rs` | C26, C27 |
| `ApplyTs`, `ApplyTsProps`, `ApplyGradTs`, `PreprocProps` | `apply_transforms/*.rs`, `utils.rs: recalc_stroke`, `paths/mod.rs: process_paths` | C19, C30, C31 |
| `GradUnits`, `GradUnitsProps` | `rm_gradient_attrs.rs` | C45 |
| `GenId` | `regroup_gradient_stops.rs: gen_id` | C41 |
| `UnusedDefs`, `UnusedDefsLook` | `rm_unused_defs.rs` | C25 |
| `GroupDefs`, `GroupDefsProps`, `GroupDefsWhole`, `GroupDefsCases`, `RenderMove`, `GroupDefsLook`, `GroupDefsGive`, `GroupDefsStep`, `GroupDefsView`, `GroupDefsPicture`, `GroupDefsPort` | `group_defs.rs` | C35 |
| `GradPaint`, `GradCheck` | none (specification of the paint of gradients) | C32, C33, C40 |
| `Merge`, `MergeProps`, `MergePaint`, `MergeWhole`, `MergeCases` | `merge_gradients.rs` | C33 |
| `DuplStops`, `Regroup`, `RegroupProps`, `RegroupSteps`, `RegroupWhole`, `RegroupResolve`, `RegroupCases` | `regroup_gradient_stops.rs`, `is_equal_stops` | C40 |
| `Dupl`, `DuplSpec`, `DuplStep`, `DuplVal`, `DuplProps`, `DuplWhole`, `DuplBlur`, `DuplCases` | `rm_dupl_defs/*.rs` | C32 |
| `Inherit` | `resolve_inherit.rs` | C34 |
| `DefaultAttrs`, `Needless`, `TextAttrs` | `rm_default_attrs.rs`, `rm_needless_attrs.rs`, `rm_text_attrs.rs` | C42, C44, C43 |
| `Render`, `RenderLemmas`, `RenderDepth`, `RenderDrop`, `RenderPaint` | none (specification of pictures, and lemmas about it) | C25, C36–C39 |
| `Ungroup*` | `ungroup_groups.rs`, `apply_transforms/preproc.rs` | C36 |
| `GroupStyle*`, `GroupTable` | `group_by_style.rs` | C37 |
| `ResolveUse*` | `resolve_use.rs` | C39 |
| `Invisible*` | `rm_invisible_elems.rs`, `utils.rs: remove_nodes` | C38 |
| `Program`, `ProgramProps` | `src/main.rs: main`, with `cli.rs` and `clean_doc` | C63 |
| `CliChoice` | `src/cli.rs: gen_*_options`, documented values | C64 |
| `ProgramMsgs` | `src/main.rs`: messages, `--quiet`, `--copy-on-error` | C65 |
| `Pipeline`, `PipelineProps`, `PipelineOff`, `PipelineOpts`, `PipelineCases`, `PipelineCrash`, `CrashSpec`, `CrashInv`, `CrashNodes`, `CrashTree`, `CrashGrad`, `CrashUngroup`, `CrashUse`, `CrashMerge`, `CrashRegroup`, `CrashUnits`, `CrashEnd`, `CrashRound`, `CrashResolve`, `CrashStops`, `CrashGroup`, `CrashPrep`, `CrashAll`, `CrashCases`, `PipelineEnds`, `PipelineEffect`, `RenderMeta`, `FileOnly` | `src/cleaner.rs: clean_doc` | C22, C53–C55, C59–C62 |
| `Sketch*` | `src/cleaner.rs: clean_doc` | C66, C38 |
| `Idem*` | `src/cleaner.rs: clean_doc`, all of `src/task` | C67 |
| `Plot*` | `src/task/conv_shapes.rs`, `src/task/paths/mod.rs` (picture level) | C68 |
| `Zoom*` | `src/task/apply_transforms/shapes.rs`, `src/task/paths/mod.rs`, `src/task/utils.rs` (picture level) | C69 |
| `Reader*` | `src/task/rm_default_attrs.rs`, `rm_needless_attrs.rs`, `rm_text_attrs.rs`, `rm_unused_coords.rs` (picture level) | C70 |
| `Whole*`, `ProgramDraws` | `src/main.rs`, `src/cleaner.rs` `clean_doc`, with all the tasks (picture level) | C71 |
| `Shade`, `ShadeProps`, `ShadePages`, `ShadePasses`, `ShadeUnits`, `ShadeMove`, `ShadeFuse`, `ShadeMerge`, `ShadeRegroup`, `ShadeCases`, `ShadeChain*`, `ShadeApply`, `ShadeUnitsLast`, `ShadeAll` | `rm_gradient_attrs.rs`, `apply_transforms/gradients.rs`, `rm_dupl_defs`, `merge_gradients.rs`, `regroup_gradient_stops.rs` (picture level) | C72, C73 |
| `SafeSpec`, `Safe*` | none (what every task keeps of a document) | C22, C55 |

Not modelled: `src/error.rs` messages, `src/main.rs` logging and timing, the writing of documents (`svgdom::WriteOptions`), the parser, `clap`
itself, and the code under `#[cfg(test)]`.

## How each property is treated

* **C01–C04, C56** The parser, the cleaner and the writer are parameters (any functions); the file system is a record of effects
  (event log). The `loop` of `main` is a fuelled function over passes; theorems are by induction on the passes.
* **C05–C09** The parsed `ArgMatches` gives for each key the list of explicit occurrences; validators are functions on strings.
  Theorems are by case analysis over the key table, for all argument structures.
* **C10–C12** `f64` is exact rationals; `f64::round` is the nearest integer, ties away from 0. Rounding a relative path accumulates
  error (refuted); a bound linear in the number of commands is proved.
* **C13–C14** `Num` with its five digits is modelled literally, and related to a positional numeral by an invariant.
* **C16–C20** A path is a list of segments; its meaning is the list of drawn absolute curves computed by a pen written independently of
  the cleaning code. C17 and C18 are false in general; the conditions are stated in terms of the segments.
* **C21** Shapes and the paths they become have the same outline (`PathSem` against the geometry of SVG 1.1 ch. 9).
* **C15, C23, C24, C46–C51** Inductions on trees; the statements say which nodes and attributes differ between input and output.
* **C25** Fixpoint over the reference graph, with a bound on the number of rounds; plus the picture (`C25_look_partial`).
* **C26, C27, C45** `GradientValue f n a v` is the value that SVG 1.1 gives to attribute `a` of gradient `n`, an inductive relation along
  `xlink:href`. Invariants over the worklist order.
* **C32, C33, C40** `PaintSame`: all values of the attributes (`GradientValue`), the transform and the list of stops, found along
  `xlink:href`, are the same. Invariants over the loops of the passes; the loop of C33 ends because each round removes a node.
* **C28, C29, C52, C57** The ramp of a gradient is the function from offsets to colours; the passes keep it.
* **C30, C31, C19** The transformed geometry: totals of transforms along ancestors (`totals`), paint vectors of gradients, strokes.
* **C34, C42–C44** `computed`: the value of a property after inheritance; the passes keep it for every property and element.
* **C36–C39** The whole picture, in the sense of `Render` below.
* **C41** Generated ids are fresh; the search ends because ids are finitely many.
* **C22, C55** `clean_doc` is the list of its tasks (`plan`) with an `on option` in front of each optional one. `Keeps f g` (`SafeSpec`): references have
  targets, ids stay unique, foreign nodes keep their kind. Every task is proved to keep this, for every document; then induction on the list of tasks, so
  that the theorem holds for every option set and for every prefix of the run.
* **C54** `C54_independent`: the tasks of options that are off may be replaced by any functions at all, the run is the same.
  `C54_all_off`: with all options off only attributes change and definitions are collected. `C54_dependent`: options without effect on their own.
* **C53** False; a document for each crash, run through the whole `clean_doc`. `C53_all_off_partial` gives conditions on the document under which the mandatory
  tasks do not crash (their conditions are carried from task to task).
  `C53_neat_partial` is for all options, documents with and without gradients: an invariant (`Crash.Inv`: the root element with a `defs` child, attributes of the right types, references to
  elements that survive the tasks, an order for `use` elements and gradients, gradients with stops or a reference and with all the attributes that the
  preparation gives them) holds after the preparation on documents that meet `Spec.Neat` (written down apart from the
  proofs, in `CrashSpec`), and each of the 25 tasks up to `group-by-style` keeps it and does not crash; the rest needs only the root and enough short ids.
* **C58** The table of attributes and precisions of the documentation, against the `match` of the code.
* **C59** Every task keeps key and kind of all nodes but those that the cleaner makes or replaces (`Keeps.lasting`); so what is removed
  early in the run does not come back.
* **C60** The last five tasks, followed to the end of the run: what one of them establishes, the later ones keep.
* **C61** For each option a document, evaluated by the kernel; an existence claim, so a witness proves it.
* **C62** The picture (`Render.lean`) of the document after the preparation and of the result: node by node for ids, version, namespaces and identity transforms (`Twins`), subtrees that show nothing for descriptive elements (`Cut`), `defs` elements replaced by their children (`Shed`); composed along the list of tasks. Refuted for `defs` elements with a style.
* **C63** `main` with the cleaner in it (`Program.lean`): it refines the driver of C01–C04 unless the cleaner panics; the properties of options (C06), driver (C03, C04), references (C22) and removal (C59) are composed.
* **C64** the tables of documented words and values are literals in `CliChoice.lean`; every accepted command line is shown to pick its row (case analysis over clap's accepted words).
* **C65** on `main` of `Program.lean`: case analysis over the driver; `--quiet` by relating two runs (`run_quiet`).
* **C66** `Sketch` says, with the SVG content model as a table, what a drawing is; it implies the conditions of C25, C36, C37 and C38, and every one of these tasks keeps it (`Sketch*.lean`); the pictures are composed along the list of tasks. Also gives C38 with conditions on the input only.
* **C67** `Settles` is stated for the model of every task; per-node idempotence is lifted to trees; documents for which a second run finds more to do are the counterexamples.
* **C68** `Plots` is the law of renderers that draw a shape by its outline (as C21 and C16-C18 define it); `plotter` is one. Walk over the two trees with what is known about inherited markers and strokes; environments of references agree in the contexts of `use` elements.
* **C69** `Zooms` is the law of renderers for which a scale and translation of a shape is the shape with the image of its outline (C31's figures, C19's traces) and the scaled stroke lengths; `plotter` satisfies it, too. The induction carries the ancestors; contexts of `use` elements must agree with the place of what they show (`UsesAgree`).
* **C70** `Heeds` is the law of renderers that take the initial value of a property that is not given, do not look at attributes an element does not have, and paint the same marks for the same visible paint (`SameInk`, `SameOwn`); `draftsman` satisfies it together with the laws of C68 and C69. `onPaper` is what a reader of the file finds. `Leaves` relates two trees node by node together with the properties inherited in both; C42, C44, C46 and C43 give the steps.
* **C71** `SameDrawing` asks for the same pictures from all renderers with the laws of C68 (`Plots`), C69 (`Zooms`) and C70 (`Heeds`). `Apt` is the invariant: a drawing (`Sketch`, C66) with the further conditions of the tasks. Each task is shown to keep the picture and the invariant, in memory; a second invariant, `Pale`, says that hidden attributes mean nothing where they are, and is kept by all tasks after the first one that hides attributes, so that the written file (`onPaper`) has the same picture as the document in memory. `wholeB` checks the conditions; the examples run all options on a drawing. `WholeInput.lean` adds the preparation: for drawings without definitions it only adds an empty `defs` element (`addDefs`), so that `C71_input_partial` compares the file that is read with the file that is written; `ProgramDraws.lean` takes it to the command line (C63).
* **C72** `Shade.lean` says what a gradient looks like to a renderer (`Shows`: kind, attributes and stops, found along the references) and when two looks give the same paint (`Alike`: same kind, units, spread method, stops, and the same offset at every point in every viewport). `SameShade` compares the pictures by all renderers (`Shades`) for which gradients with the same paint are the same. `artist` is such a renderer, the finest one: it writes down the whole paint. `Page` is a document whose references are those of gradients; the written file (`onPaper`) is compared before and after each pass. `sheetB`/`pageB` check the conditions of the examples. `ShadeUnitsLast` runs regrouping and then the removal of common units: in between the new linear gradients have no units yet (`Half`), and the resolving that follows regrouping gives the default to all of them (`C27_order`), so the conditions of C45 (`Ready`) hold again.
* **C73** `gradientPasses` runs the passes of `clean_doc` that deal with gradients, as the options say, without the rest. `Fresh` is the condition on the file that is read; resolving only adds hidden attributes (`Same`), so the file is still the same (`onPaper`), and each pass keeps what the next one needs (`Steady`: `Page`, `Dupl.Good`, and what makes `ApplyTs.Good` and `Merge.Good`; after merging `Late`: `Page`, `Regroup.Good` and `ApplyTs.Good`). The pictures are compared by C72's theorems and `SameShade.trans`. `allGradientPasses` adds the removal of common units at the end, for which `Words` (units are one of two keywords), `OnlyHref` and `ResolvedDoc` are carried along.

## The specification of pictures (`Render`)

A `Painter P` is any way to draw: an arbitrary type `P` of pictures with operations for stacking, group opacity, masks/clips/filters,
frames, shapes and text, subject to laws that SVG 1.1 implies (stacking is a monoid; opacity 1 does nothing; an empty path, a rectangle of
width zero, a clip path without children, a gradient without stops show what the standard says they show; ...). `scribe` is one painter
that meets all laws, so they are consistent, and it is used for refutations. `picture π d f` draws document `f` with painter `π`, following
references (`use`, paint servers, masks, ...) `d` levels deep; inheritance, coordinate systems, conditional processing, `switch`, `display`
and `clipPath` content rules are explicit. `SameLook f g`: for every painter and depth the pictures are equal. `SameView f g`: equal from some depth
on; `RenderDepth` proves that without circular references the picture is constant from some depth on.

Assumptions of this specification: a painter sees of an element its own attributes, its inherited style, its coordinate system and the
pictures of its children; scripts, CSS selectors and animation are outside it (svgcleaner refuses documents with those).

## Trusted base

* Lean 4.33.0 kernel; axioms at most `propext`, `Classical.choice`, `Quot.sound` in every theorem (checked by `vcheck`); no axioms of our own.
* The reading of the Rust code (cited per definition).
* Numbers: `f64` is replaced by exact rationals; NaN, infinities and `-0.0` are not represented except where a division by zero is turned into
  the Boolean outcome Rust would compute; `fuzzy_eq`/`fuzzy_ne` (4 ulps) is exact equality.
* svgdom 0.10, svgparser 0.6 and clap 2 are not in the sandbox: their behaviour is modelled from their documentation, in `Dom`,
  `DomMore` and `Cli`. In particular:
  - a node has an identity (`key`); link attributes hold the key of their target; `remove()` removes a node with its descendants and all attributes
    elsewhere that refer to them; `detach()` keeps links;
  - `set_attribute` replaces in place or appends, and panics if an element is made to refer to itself; `get_value_mut` keeps the visibility;
  - `linked_nodes`/`uses_count` have one entry per referring attribute; `descendants()` is document order, including the node itself;
    `drain` evaluates its predicate when a node is reached;
  - `is_referenced`, `is_inheritable`, `is_presentation`, `is_container`, `is_basic_shape` are tables of SVG 1.1 written out in `Dom`;
  - whitespace-only text has been dropped by the parser; attribute names are unique per element.

## Seeded bugs

`seeded/mutants.jsonl` lists edits of the model that a realistic bug would make; `tools/mutate.py` applies each to a scratch copy, rebuilds, and
writes the theorems that fail to `seeded/LOG.jsonl`. Edits that survived led to tightened statements, noted there.

## The model against the repository's own tests

`tools/repotests.py` translates the unit tests of `/repo/src/task` (SVG or path text before and after) into Lean: `RepoTestsA`–`RepoTestsD`
run the model's functions on the same 296 documents, paths and tables and compare the outcome with the text the Rust test expects, up to the order of
attributes and up to the identity of nodes; `RepoTest` has the tests of `trim_ids`, `join_style_attrs` and `cli` (14 functions), translated by hand.
All agree. One test is left out (`group_by_style` `rm_4`: it calls `simplify(3)`, and the code only calls `simplify(2)`).
These are tests of the reading of the code and of the assumptions about svgdom (they show, for example, that svgdom reads `offset='0.5'` as a
length), not proofs, and `tools/mutate.py` does not count them as theorems.
