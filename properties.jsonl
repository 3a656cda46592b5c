{"id": "C01", "title": "Output is never bigger than the input", "statement": "Unless --allow-bigger-file is given, whatever file or stream the program writes holds at most as many bytes as the input (plus exactly one newline when --append-newline is on); if the cleaned result would be bigger, nothing cleaned is written.", "quantifier": "every input, every behaviour of the parser/cleaner/writer, every number of multipass passes, every flag combination", "why_tests_cant": "The size check happens after an unbounded loop; tests sample a few documents only.", "anchors": ["src/main.rs: main", "src/cleaner.rs: save_file, write_stdout"]}
{"id": "C02", "title": "A failed run never damages the output", "statement": "If the document cannot be parsed, is rejected by the cleaner, or gets bigger, no cleaned data is written anywhere; the destination is either untouched or (with --copy-on-error and two different file paths) a byte copy of the input.", "quantifier": "every input, every failing pass of the multipass loop, every outcome of the operating system's file copy", "why_tests_cant": "Needs every failure point including an I/O failure inside the error handler.", "anchors": ["src/main.rs: main, on_err"]}
{"id": "C03", "title": "Only the result of a completed pass is written, at most once", "statement": "In every execution at most one write to the destination happens, it happens after the last pass, and on a run with no error the written bytes are exactly the serialisation produced by the last pass (plus the optional newline).", "quantifier": "every input and every number of passes", "why_tests_cant": "Quantifies over all executions of a loop whose length depends on the data.", "anchors": ["src/main.rs: main"]}
{"id": "C04", "title": "Multipass discipline", "statement": "Without --multipass exactly one pass runs; with --multipass the program goes on feeding its own output back in until two consecutive passes give the same size, never stopping earlier except on an error, and it does stop if the sizes eventually repeat in two consecutive passes.", "quantifier": "every input and every sequence of pass results", "why_tests_cant": "The number of passes is unbounded and data dependent.", "anchors": ["src/main.rs: main (loop)"]}
{"id": "C05", "title": "In-place and stream destinations are those named on the command line", "statement": "The program reads only from the input named on the command line (stdin for '-') and writes only to the named output ('-' as second argument means: read stdin, write the first argument; --stdout means standard output).", "quantifier": "every accepted pair of positional arguments and every setting of --stdout", "why_tests_cant": "All combinations of path strings; corner combinations such as '- out.svg' are not tested.", "anchors": ["src/cli.rs: input, output, is_svg, prepare_app"]}
{"id": "C06", "title": "A flag written on the command line always decides its option", "statement": "For each documented boolean flag, if the user writes it, with or without --no-defaults, the corresponding behaviour is on exactly when the value is true/yes/y; if the user does not write it and --no-defaults is absent, the behaviour is the documented default.", "quantifier": "every command line accepted by the validator", "why_tests_cant": "2^45 flag combinations times --no-defaults.", "anchors": ["src/cli.rs: Flags::_resolve, gen_parse_options, gen_write_options, gen_cleaning_options, prepare_app", "data/help.txt"]}
{"id": "C07", "title": "--no-defaults turns off everything that is not asked for", "statement": "With --no-defaults, every documented cleaning flag the user does not mention behaves as if it were 'no'.", "quantifier": "every accepted command line containing --no-defaults", "why_tests_cant": "All subsets of mentioned flags.", "anchors": ["src/cli.rs: Flags::_resolve, gen_*_options", "src/options.rs: CleaningOptions::default", "data/help.txt: --no-defaults"]}
{"id": "C08", "title": "Dependent options never run without what they depend on", "statement": "An accepted command line never results in joined ArcTo flags without compact path notation, nor in requests to remove segments, convert segments or apply transforms to paths without paths being made relative.", "quantifier": "every accepted command line", "why_tests_cant": "All combinations of explicit flags, defaults and --no-defaults.", "anchors": ["src/cli.rs: check_values"]}
{"id": "C09", "title": "Validated arguments cannot crash option parsing, and precisions are in range", "statement": "Every command line the validators accept yields options without reaching an 'unreachable' branch, and all four precisions are between 1 and 12, so that the rounding table is never indexed out of range or at its zero entry.", "quantifier": "every string accepted by the validators", "why_tests_cant": "Strings are an infinite domain.", "anchors": ["src/cli.rs: is_flag, get_flag, is_precision", "src/task/round_numbers.rs: POW_VEC, round_number"]}
{"id": "C10", "title": "Rounding stays within half a unit of the chosen precision", "statement": "Rounding a number to p digits moves it by at most 0.5*10^-p and the result is a multiple of 10^-p; no multiple of 10^-p is closer.", "quantifier": "every rational number and every precision 1..12", "why_tests_cant": "Infinite domain.", "anchors": ["src/task/round_numbers.rs: round_number"]}
{"id": "C11", "title": "Rounding is idempotent, order preserving and symmetric", "statement": "Rounding twice equals rounding once, never reorders two numbers, commutes with negation, and leaves integers and already short numbers alone.", "quantifier": "all pairs of numbers, every precision", "why_tests_cant": "Infinite domain.", "anchors": ["src/task/round_numbers.rs: round_number"]}
{"id": "C12", "title": "Rounding a relative path does not accumulate error", "statement": "When path coordinates are rounded the document position of each segment's end stays within a fixed bound, independent of the length of the path.", "quantifier": "every path of any length", "why_tests_cant": "The error only shows in long paths; the bound must hold for every length.", "anchors": ["src/task/round_numbers.rs: round_path", "src/task/paths/mod.rs: process_path"]}
{"id": "C13", "title": "Shortened ids are unique", "statement": "trim-ids gives different elements different ids.", "quantifier": "every document with any number of referenced elements", "why_tests_cant": "Collisions would only appear at counter roll-over (52, 52*62, ... elements).", "anchors": ["src/task/trim_ids.rs: Num, gen_trimmed_ids, trim_ids"]}
{"id": "C14", "title": "Shortened ids are valid XML names and never run out", "statement": "Every id generated by trim-ids is a non-empty string of letters and digits that starts with a letter, and generation never crashes.", "quantifier": "every document", "why_tests_cant": "The failing documents have more than twelve million ids.", "anchors": ["src/task/trim_ids.rs: Num::increment, Num::write"]}
{"id": "C15", "title": "References survive id changes", "statement": "After trim-ids and remove-unreferenced-ids every reference in the document resolves, by id lookup, to the element it pointed to before, and an id is only dropped from an element that nothing references.", "quantifier": "every document and every set of references", "why_tests_cant": "All graphs of references.", "anchors": ["src/task/trim_ids.rs: trim_ids", "src/task/rm_unref_ids.rs: remove_unreferenced_ids"]}
{"id": "C16", "title": "Rewriting path commands preserves the drawn geometry", "statement": "Making paths relative, turning an initial relative MoveTo and MoveTos after ClosePath into explicit ones, and expanding/contracting horizontal and vertical lines never changes the sequence of drawn curves.", "quantifier": "every path of any length", "why_tests_cant": "Unbounded command sequences with a hidden pen state.", "anchors": ["src/task/paths/mod.rs: process_path, fix_m, conv_hv_to_l, conv_l_to_hv"]}
{"id": "C17", "title": "Shorter equivalent segments draw the same curve", "statement": "convert-segments replaces a segment by a shorter one (line for curve, smooth curve for curve, close for line) only when the drawn curve is the same point set traced in the same order.", "quantifier": "every path", "why_tests_cant": "Infinite domain of control points; the replacement conditions are inequalities.", "anchors": ["src/task/paths/conv_segments.rs: convert_segments and helpers"]}
{"id": "C18", "title": "Removing unused segments does not change the drawn geometry", "statement": "remove-unused-segments deletes only segments that draw nothing and does not change what any remaining segment draws.", "quantifier": "every path", "why_tests_cant": "Depends on neighbouring smooth segments and on sub-path starts.", "anchors": ["src/task/paths/rm_unused.rs: remove_unused_segments and helpers"]}
{"id": "C19", "title": "Applying a transform to a path gives the transformed outline", "statement": "When apply-transform-to-paths fires, the new path drawn without the transform is the image of the old path under the transform, stroke widths scaled accordingly.", "quantifier": "every path, every transform accepted", "why_tests_cant": "Infinite domain.", "anchors": ["src/task/paths/apply_transform.rs: apply_transform, process", "src/task/utils.rs: recalc_stroke"]}
{"id": "C20", "title": "Path processing never crashes and always finishes", "statement": "For every path (first segment a MoveTo, as the parser guarantees) the processing terminates without a panic and the result again starts with a MoveTo or is empty.", "quantifier": "every path", "why_tests_cant": "Loops with in-place removal and index arithmetic.", "anchors": ["src/task/paths/*.rs"]}
{"id": "C21", "title": "Shapes converted to paths keep their outline", "statement": "convert-shapes turns line, rect, polyline and polygon into paths that draw the same segments in the same order, with the same markers.", "quantifier": "every shape with any coordinates/number of points", "why_tests_cant": "Infinite domain.", "anchors": ["src/task/conv_shapes.rs"]}
{"id": "C22", "title": "Cleaning never leaves a dangling reference", "statement": "If every reference in the document points to an element of the document, the same holds after each task and after the whole cleaning run.", "quantifier": "every document and every option combination", "why_tests_cant": "All documents times all option sets times a forty-step pipeline.", "anchors": ["src/cleaner.rs: clean_doc", "src/task/*.rs"]}
{"id": "C23", "title": "Unsupported documents are rejected, and only those", "statement": "A document is rejected up front exactly when it contains a script element, an animation element, an event-handler attribute, a non-empty conditional-processing attribute or an unsupported external reference; nothing else is rejected at that point and the document is not modified.", "quantifier": "every document", "why_tests_cant": "All trees.", "anchors": ["src/task/preclean_checks.rs"]}
{"id": "C24", "title": "Removing titles, descriptions and metadata removes exactly these", "statement": "remove-title/desc/metadata delete every element of that kind with its content and nothing else.", "quantifier": "every document", "why_tests_cant": "All trees.", "anchors": ["src/task/rm_elems.rs: remove_element"]}
{"id": "C25", "title": "Removing unused definitions keeps everything that is used", "statement": "remove-unused-defs deletes only elements that nothing in the remaining document refers to and that are never drawn directly; every element that is referenced from the remaining document is still there; the procedure terminates.", "quantifier": "every document", "why_tests_cant": "Fixpoint over an arbitrary reference graph.", "anchors": ["src/task/rm_unused_defs.rs"]}
{"id": "C26", "title": "Gradient attribute resolution equals template inheritance", "statement": "After gradients are resolved each linear/radial gradient carries, for each gradient attribute, the value found by following the reference chain (own value, else the referenced gradient's, else the default), as the SVG standard prescribes.", "quantifier": "every set of gradients with acyclic references", "why_tests_cant": "Chains of arbitrary length and order in the file.", "anchors": ["src/task/resolve_gradients.rs"]}
{"id": "C27", "title": "Gradient ordering is a topological order and terminates", "statement": "The order in which gradients of a kind are processed lists every such gradient once and each before the gradients it references; computing it terminates for every acyclic reference structure.", "quantifier": "every acyclic reference graph", "why_tests_cant": "All graphs; termination.", "anchors": ["src/task/resolve_gradients.rs: gen_order"]}
{"id": "C28", "title": "Stop offsets are normalised without changing the gradient ramp", "statement": "fix-invalid-attributes makes every stop offset lie in [0,1] and not decrease, in the way the SVG standard prescribes, leaves valid offsets alone and is idempotent.", "quantifier": "every list of stops", "why_tests_cant": "Lists of any length.", "anchors": ["src/task/fix_attrs.rs: fix_stop"]}
{"id": "C29", "title": "Removing invalid stops leaves the gradient ramp unchanged", "statement": "remove-invalid-stops deletes a stop only if the colour ramp defined by the remaining stops is the same function of position.", "quantifier": "every list of stops with non-decreasing offsets", "why_tests_cant": "Lists of any length and real-valued positions.", "anchors": ["src/task/rm_invalid_stops.rs"]}
{"id": "C30", "title": "Applying a gradient transform keeps the paint", "statement": "When apply-transform-to-gradients removes a gradientTransform the paint at every point of the plane is unchanged.", "quantifier": "every gradient, every accepted transform, every point", "why_tests_cant": "Infinite domain.", "anchors": ["src/task/apply_transforms/gradients.rs"]}
{"id": "C31", "title": "Applying a transform to a shape keeps its outline", "statement": "When apply-transform-to-shapes removes a transform from a rect, circle, ellipse or line the outline is the transformed outline and the stroke width is scaled by the same factor.", "quantifier": "every shape and accepted transform", "why_tests_cant": "Infinite domain.", "anchors": ["src/task/apply_transforms/shapes.rs", "src/task/apply_transforms/preproc.rs", "src/task/utils.rs: recalc_stroke"]}
{"id": "C32", "title": "De-duplicating definitions only merges equivalent ones", "statement": "Two gradients or blur filters are merged only if they paint identically, each reference to a removed one is redirected to the kept one, and no element changes its effective paint.", "quantifier": "every document", "why_tests_cant": "All pairs of definitions, reference graphs.", "anchors": ["src/task/rm_dupl_defs/*.rs"]}
{"id": "C33", "title": "Merging gradients keeps the effective paint", "statement": "merge-gradients moves a referenced gradient's stops into the only gradient using it; each remaining gradient's effective attributes and stops are unchanged.", "quantifier": "every document", "why_tests_cant": "All reference structures.", "anchors": ["src/task/merge_gradients.rs"]}
{"id": "C34", "title": "'inherit' is resolved to the inherited value", "statement": "Every presentation attribute with the value 'inherit' gets the value of the nearest ancestor that has this attribute; if there is none and no default exists the run fails rather than guessing.", "quantifier": "every document", "why_tests_cant": "Trees of any depth.", "anchors": ["src/task/resolve_inherit.rs"]}
{"id": "C35", "title": "Definitions are collected in one defs element", "statement": "After grouping, the root element has exactly one 'defs' child (the first), it directly contains every referenced element, there is no other non-empty 'defs', no element is lost and computed styles inside moved definitions are unchanged.", "quantifier": "every document", "why_tests_cant": "Trees of any shape.", "anchors": ["src/task/group_defs.rs"]}
{"id": "C36", "title": "Ungrouping keeps the rendering", "statement": "ungroup-groups removes a group only if the painted result (order, computed properties, transforms, opacity) of every drawn element is unchanged; it terminates.", "quantifier": "every document", "why_tests_cant": "Trees of any depth, repeated application.", "anchors": ["src/task/ungroup_groups.rs"]}
{"id": "C37", "title": "Grouping by style keeps the rendering", "statement": "group-by-style moves attributes shared by consecutive elements to a group; drawing order and every element's computed properties and transform are unchanged, it terminates.", "quantifier": "every document", "why_tests_cant": "Table search over any number of children.", "anchors": ["src/task/group_by_style.rs"]}
{"id": "C38", "title": "Invisible-element removal removes only invisible content", "statement": "remove-invisible-elements deletes an element only if it draws nothing and nothing drawn depends on it.", "quantifier": "every document", "why_tests_cant": "All trees and references.", "anchors": ["src/task/rm_invisible_elems.rs"]}
{"id": "C39", "title": "Resolving 'use' keeps the rendering", "statement": "resolve-use replaces a use element by the element it references only if the painted result is the same.", "quantifier": "every document", "why_tests_cant": "All attribute combinations.", "anchors": ["src/task/resolve_use.rs"]}
{"id": "C40", "title": "Regrouping stops keeps each gradient's stops", "statement": "regroup-gradient-stops factors equal stop lists into a shared gradient with a fresh id; every gradient's effective stops and attributes are unchanged.", "quantifier": "every document", "why_tests_cant": "Reference structures and id sets of any size.", "anchors": ["src/task/regroup_gradient_stops.rs"]}
{"id": "C41", "title": "Generated ids are fresh and always found", "statement": "The id made up for a new shared gradient is different from every id in the document, and the search for it ends.", "quantifier": "every finite set of ids", "why_tests_cant": "Termination for arbitrary id sets.", "anchors": ["src/task/regroup_gradient_stops.rs: gen_id"]}
{"id": "C42", "title": "Dropping default attributes keeps computed values", "statement": "remove-default-attributes hides an attribute only if the computed value of this property on the element and all its descendants is unchanged.", "quantifier": "every document", "why_tests_cant": "Trees of any depth; inheritance.", "anchors": ["src/task/rm_default_attrs.rs"]}
{"id": "C43", "title": "Dropping text attributes keeps text rendering", "statement": "remove-text-attributes drops font/text properties only where no text (and no font-relative length) depends on them.", "quantifier": "every document", "why_tests_cant": "All trees.", "anchors": ["src/task/rm_text_attrs.rs"]}
{"id": "C44", "title": "Needless attributes are really needless", "statement": "remove-needless-attributes drops an attribute only from an element kind to which the attribute does not apply and from which nothing inherits it.", "quantifier": "every document", "why_tests_cant": "All trees.", "anchors": ["src/task/rm_needless_attrs.rs"]}
{"id": "C45", "title": "Factoring gradient attributes keeps effective values", "statement": "remove-gradient-attributes drops an attribute of a gradient only if it equals the value inherited through the reference, so that the effective value does not change.", "quantifier": "every document whose gradients have resolved units (as the earlier passes leave them) and refer to each other by xlink:href only, without circles", "why_tests_cant": "Chains of any length.", "anchors": ["src/task/rm_gradient_attrs.rs"]}
{"id": "C46", "title": "Dropping unused coordinates keeps geometry", "statement": "remove-unused-coordinates hides x/y/width/height-like attributes only when the default gives the same geometry.", "quantifier": "every element", "why_tests_cant": "All attribute combinations.", "anchors": ["src/task/rm_unused_coords.rs"]}
{"id": "C47", "title": "The xlink namespace declaration is present when needed", "statement": "After cleaning, if any element is written with an xlink attribute the root element declares the xlink namespace; the declaration is dropped only when unneeded and asked for.", "quantifier": "every document and option", "why_tests_cant": "All trees.", "anchors": ["src/task/final_fixes.rs: fix_xmlns_attribute"]}
{"id": "C48", "title": "Ungrouping defs loses nothing", "statement": "ungroup-defs only removes the 'defs' wrapper when all children are never rendered directly, so nothing starts being drawn, and remove-empty-defs removes only childless defs.", "quantifier": "every document", "why_tests_cant": "All trees.", "anchors": ["src/task/ungroup_defs.rs", "src/task/final_fixes.rs: remove_empty_defs"]}
{"id": "C49", "title": "Joining style attributes is loss-free", "statement": "join-style-attributes moves the presentation attributes into one style attribute holding exactly the same name/value pairs and touches nothing else.", "quantifier": "every document", "why_tests_cant": "All attribute sets.", "anchors": ["src/task/join_style_attrs.rs"]}
{"id": "C50", "title": "Removing version information touches only the root's version attributes", "statement": "remove-version removes version/baseProfile from the root svg element and nothing else.", "quantifier": "every document", "why_tests_cant": "All trees.", "anchors": ["src/task/rm_version.rs"]}
{"id": "C51", "title": "Identity transforms are dropped, others kept", "statement": "remove-default-transform removes exactly transforms equal to the identity, which does not change any element's total transform.", "quantifier": "every document", "why_tests_cant": "All trees.", "anchors": ["src/task/rm_default_transform.rs"]}
{"id": "C52", "title": "Invalid rect and poly attributes are fixed as the standard says", "statement": "fix-invalid-attributes: afterwards every rect has a width and a height that are not negative and no negative radius; every polyline/polygon has whole coordinate pairs or no points attribute; negative or missing sizes become 0, negative radii are dropped, the odd last coordinate is dropped; valid attributes and all other attributes are untouched, except that 'marker' is dropped everywhere.", "quantifier": "every element", "why_tests_cant": "Infinite domain.", "anchors": ["src/task/fix_attrs.rs"]}
{"id": "C53", "title": "Cleaning a valid document never crashes", "statement": "For every document the parser can produce, the cleaning run ends with success or a reported error and never panics.", "quantifier": "every document, every option set", "why_tests_cant": "All documents.", "anchors": ["src/cleaner.rs: clean_doc", "src/task/*.rs"]}
{"id": "C54", "title": "Options that are off have no effect", "statement": "Each optional task runs only if its option is on: with all options off only the mandatory preparation and final fixes modify the document.", "quantifier": "every document and option set", "why_tests_cant": "2^30 option sets.", "anchors": ["src/cleaner.rs: clean_doc"]}
{"id": "C55", "title": "Text and unknown content is never altered", "statement": "No task changes character data, comments or elements outside the SVG namespace, except by removing a whole subtree that contains them.", "quantifier": "every document and option set", "why_tests_cant": "All documents.", "anchors": ["src/task/*.rs"]}
{"id": "C56", "title": "Failures are reported", "statement": "Every run that does not write a cleaned file reports an error on stderr and, as a script would expect, ends with a non-zero exit status.", "quantifier": "every input, option set and failure point", "why_tests_cant": "Failure points are unbounded; a test sees a few.", "anchors": ["src/main.rs: main, process"]}
{"id": "C57", "title": "Stop attributes are resolved as the standard says", "statement": "resolve-stop-attributes never crashes; it fails exactly if a child of a gradient other than the first has no offset; otherwise percentages become fractions, a missing first offset is 0, missing colours become black and missing opacities 1 without being written out, and nothing else changes.", "quantifier": "every document", "why_tests_cant": "All documents.", "anchors": ["src/task/resolve_gradients.rs: resolve_stop_attributes"]}
{"id": "C58", "title": "Rounding a document changes only the listed numbers", "statement": "With precisions from 1 to 12, rounding a document never fails. The tree stays the same; every number in an attribute that the documentation lists for a precision is replaced by a number with that many digits at most half a unit away; units, other attributes and elements outside SVG stay the same.", "quantifier": "every document and all four precisions", "why_tests_cant": "All documents and numbers.", "anchors": ["src/task/round_numbers.rs: round_numbers"]}
{"id": "C59", "title": "What is asked to be removed is not in the output", "statement": "With remove-title, remove-desc or remove-metadata on, the written document contains no such element, whatever the other options are; and no element other than g, defs, linearGradient and path is ever made by the cleaner or turned into another one, except shapes into paths.", "quantifier": "every document and option set", "why_tests_cant": "All documents and all combinations with the other tasks.", "anchors": ["src/cleaner.rs: clean_doc", "src/task/rm_elems.rs", "src/task/*.rs"]}
{"id": "C60", "title": "The form of the written document", "statement": "After the whole run, with any options: no element has the identity as its transform; with remove-version the root has neither version nor baseProfile; with join-style-attributes=all no SVG element has a written presentation attribute, with some none has more than five; if an SVG element has xlink:href, the root declares the xlink prefix.", "quantifier": "every document and option set", "why_tests_cant": "All documents; a later task could undo what an earlier one did.", "anchors": ["src/cleaner.rs: clean_doc", "src/task/final_fixes.rs", "src/task/join_style_attrs.rs", "src/task/rm_version.rs", "src/task/rm_default_transform.rs"]}
{"id": "C61", "title": "No option is without effect", "statement": "For every cleaning option there is a valid document for which switching this option alone changes the result of the run.", "quantifier": "every option (an existence claim about runs of the whole pipeline)", "why_tests_cant": "A test can show this for an option; that all options are wired to their own task is a claim about the list of tasks as a whole.", "anchors": ["src/cleaner.rs: clean_doc", "src/options.rs: CleaningOptions"]}
{"id": "C62", "title": "Options that concern the file do not change the drawing", "statement": "remove-title, remove-desc, remove-metadata, remove-version, remove-unreferenced-ids, trim-ids, ungroup-defs and remove-xmlns-xlink-attribute, in any combination, leave the picture of the prepared document as it is, together with the final fixes that always run.", "quantifier": "every document and all 256 combinations of these options", "why_tests_cant": "Pictures of all documents; the tasks work on each other's results.", "anchors": ["src/cleaner.rs: clean_doc", "src/task/rm_elems.rs", "src/task/rm_version.rs", "src/task/trim_ids.rs", "src/task/rm_unref_ids.rs", "src/task/ungroup_defs.rs", "src/task/final_fixes.rs", "src/task/rm_default_transform.rs"]}
{"id": "C63", "title": "The program as a whole", "statement": "A run without an error message changes only the destination named on the command line; what it then holds is the written form of a document that the cleaner, with the options given by the command line, has made of the input, in one pass or, with --multipass, in several. All references of this document lead to its nodes, and it has no title, desc or metadata while the flag is in force. If the cleaner panics, no file has been touched.", "quantifier": "every command line, input, state of the file system, parser and serialiser", "why_tests_cant": "All command lines and inputs, and crash points inside the cleaner.", "anchors": ["src/main.rs: main", "src/cli.rs", "src/cleaner.rs: clean_doc, parse_data, write_buffer, save_file"]}
{"id": "C64", "title": "Options that take a value mean what the help says", "statement": "Every accepted command line gives list-separator, indent, join-style-attributes and the precisions the value that the help documents for the word written, or the documented default if the option is absent, with and without --no-defaults; a word that the help does not list is refused before any file is read. Settings that no option changes (hidden attributes are not written, leading zeros are dropped, double quotes, strict parsing) are the same for every command line.", "quantifier": "every command line", "why_tests_cant": "There are infinitely many combinations of the 50 options.", "anchors": ["src/cli.rs: gen_parse_options, gen_write_options, gen_cleaning_options, prepare_app, ARGS", "src/options.rs"]}
{"id": "C65", "title": "What a run reports, --quiet and --copy-on-error", "statement": "A successful run reports the ratio and nothing else, and with --quiet nothing at all. --quiet changes no file, no exit status and no message about an error. When the document cannot be read or cleaned or the result is bigger, without --copy-on-error no file changes; with it the output file becomes a copy of the input file and nothing else changes, or the failed copy is reported.", "quantifier": "every command line, input, state and failures of the file system, parser and serialiser", "why_tests_cant": "All command lines, inputs and faults of the operating system.", "anchors": ["src/main.rs: main", "src/cleaner.rs: load_file, save_file"]}
{"id": "C66", "title": "The options that change the structure of a drawing do not change its picture", "statement": "remove-unused-defs, remove-invisible-elements, ungroup-groups, resolve-use and group-by-style, in any combination with each other and with the options that concern the file only (C62), leave the picture of the prepared document as it is, through the whole run.", "quantifier": "every document and all combinations of these 13 options", "why_tests_cant": "Pictures of all documents; groups are taken out up to three times, and every task works on the results of the others.", "anchors": ["src/cleaner.rs: clean_doc", "src/task/rm_unused_defs.rs", "src/task/rm_invisible_elems.rs", "src/task/ungroup_groups.rs", "src/task/group_by_style.rs", "src/task/resolve_use.rs"]}
{"id": "C67", "title": "A second run of a task changes nothing", "statement": "Every task of a clean-up, run again on the document it has just made, succeeds and changes nothing: what the first run left is what it is meant to leave.", "quantifier": "every document and option set, and every task", "why_tests_cant": "All documents; a task may make work for itself.", "anchors": ["src/cleaner.rs: clean_doc", "src/task/*.rs"]}
{"id": "C68", "title": "Writing shapes in another way does not change the picture", "statement": "convert-shapes, paths-to-relative, convert-segments and remove-unused-segments (without applying transforms) leave the picture of the document as it is, for every renderer that draws a shape by its outline, whatever it does with colours, groups, clip paths, use elements and so on.", "quantifier": "every document, all options for paths, and every renderer that draws shapes by their outlines", "why_tests_cant": "Pictures of all documents, with inheritance of markers and strokes and copies made by use elements.", "anchors": ["src/task/conv_shapes.rs", "src/task/paths/mod.rs: process_paths"]}
{"id": "C69", "title": "Applying transforms to shapes and paths does not change the picture", "statement": "apply-transform-to-shapes and apply-transform-to-paths leave the picture of the document as it is, for every renderer that draws a scaled and moved shape like the shape with the scaled and moved outline and the scaled stroke: strokes that are inherited are scaled along, and copies made by use elements look the same.", "quantifier": "every document, all options for paths, and every renderer that draws shapes by their outlines", "why_tests_cant": "Pictures of all documents: the stroke is resolved from the ancestors of the element, while copies inherit from use elements elsewhere in the document.", "anchors": ["src/task/apply_transforms/shapes.rs", "src/task/paths/mod.rs: process_paths", "src/task/utils.rs: recalc_stroke"]}
{"id": "C70", "title": "Attributes that are left out of the file do not change the picture", "statement": "The picture of the file in which attributes with default values, needless attributes, unused coordinates and text attributes are left out is the picture of the document with them, for every renderer that takes the initial value for a property that is not there, paints what is to be painted, and does not look at attributes an element does not have.", "quantifier": "every document, every table of initial values, and every such renderer", "why_tests_cant": "Pictures of all documents: properties are inherited, so that what is left out in one place may be needed in another.", "anchors": ["src/task/rm_default_attrs.rs", "src/task/rm_needless_attrs.rs", "src/task/rm_text_attrs.rs", "src/task/rm_unused_coords.rs"]}
{"id": "C71", "title": "A whole run with all options leaves the drawing as it was", "statement": "With any choice of options, the file that is written is drawn as the document was after it had been read and prepared, by every renderer that draws shapes by their outlines wherever they are scaled, and takes the initial value of a property that is not there.", "quantifier": "every document, every choice of options, and every such renderer", "why_tests_cant": "The tasks are run one after the other, each on what the others leave, and attributes are only hidden in memory: that none of them breaks what another one relies on must hold for all documents and all choices of options.", "anchors": ["src/cleaner.rs: clean_doc", "src/task"]}
{"id": "C72", "title": "The gradient options do not change what is painted", "statement": "remove-gradient-attributes, apply-transform-to-gradients, removing duplicate linear and radial gradients, merging gradients, and regrouping the stops of gradients, leave the picture of the file as it is, for every renderer to which nothing but the paint of a gradient matters: its kind, units, spread method, stops, and the offset that each point gets.", "quantifier": "every document, and every renderer that paints with gradients as the standard describes them", "why_tests_cant": "Pictures of all documents: gradients take attributes and stops from others along chains of references, attributes are moved between them and hidden in memory, and shapes are given other gradients.", "anchors": ["src/task/rm_gradient_attrs.rs", "src/task/apply_transforms/gradients.rs", "src/task/rm_dupl_defs", "src/task/merge_gradients.rs"]}
{"id": "C73", "title": "The gradient passes one after another do not change what is painted", "statement": "When, with any choice of options, the attributes of gradients are resolved and then transforms are applied, duplicate gradients are removed, gradients are merged, transforms are applied again, stops are regrouped, and common gradientUnits are removed, one pass on what the other one leaves, then nothing crashes and the file that is written is painted as the file that was read, for every renderer that paints with gradients as the standard describes them.", "quantifier": "every document, every choice of options, and every renderer that paints with gradients as the standard describes them", "why_tests_cant": "Each pass relies on what the passes before it leave: attributes that were resolved into memory, stops that were moved, references that were changed.", "anchors": ["src/cleaner.rs: clean_doc", "src/task/resolve_gradients.rs", "src/task/apply_transforms/gradients.rs", "src/task/rm_dupl_defs", "src/task/merge_gradients.rs", "src/task/regroup_gradient_stops.rs", "src/task/rm_gradient_attrs.rs"]}
