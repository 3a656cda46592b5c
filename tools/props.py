#!/usr/bin/env python3
"""Generates properties.jsonl (one JSON object per line)."""
import json
P=[]
def p(i,title,statement,quant,why,*anchors):
    P.append(dict(id=i,title=title,statement=statement,quantifier=quant,why_tests_cant=why,anchors=list(anchors)))
# ---------------------------------------------------------------- driver
p("C01","Output is never bigger than the input",
  "Unless --allow-bigger-file is given, whatever file or stream the program writes holds at most as many bytes as the input (plus exactly one newline when --append-newline is on); if the cleaned result would be bigger, nothing cleaned is written.",
  "every input, every behaviour of the parser/cleaner/writer, every number of multipass passes, every flag combination",
  "The size check happens after an unbounded loop; tests sample a few documents only.",
  "src/main.rs: main", "src/cleaner.rs: save_file, write_stdout")
p("C02","A failed run never damages the output",
  "If the document cannot be parsed, is rejected by the cleaner, or gets bigger, no cleaned data is written anywhere; the destination is either untouched or (with --copy-on-error and two different file paths) a byte copy of the input.",
  "every input, every failing pass of the multipass loop, every outcome of the operating system's file copy",
  "Needs every failure point including an I/O failure inside the error handler.",
  "src/main.rs: main, on_err")
p("C03","Only the result of a completed pass is written, at most once",
  "In every execution at most one write to the destination happens, it happens after the last pass, and on a run with no error the written bytes are exactly the serialisation produced by the last pass (plus the optional newline).",
  "every input and every number of passes",
  "Quantifies over all executions of a loop whose length depends on the data.",
  "src/main.rs: main")
p("C04","Multipass discipline",
  "Without --multipass exactly one pass runs; with --multipass the program goes on feeding its own output back in until two consecutive passes give the same size, never stopping earlier except on an error, and it does stop if the sizes eventually repeat in two consecutive passes.",
  "every input and every sequence of pass results",
  "The number of passes is unbounded and data dependent.",
  "src/main.rs: main (loop)")
p("C05","In-place and stream destinations are those named on the command line",
  "The program reads only from the input named on the command line (stdin for '-') and writes only to the named output ('-' as second argument means: read stdin, write the first argument; --stdout means standard output).",
  "every accepted pair of positional arguments and every setting of --stdout",
  "All combinations of path strings; corner combinations such as '- out.svg' are not tested.",
  "src/cli.rs: input, output, is_svg, prepare_app")
# ---------------------------------------------------------------- cli
p("C06","A flag written on the command line always decides its option",
  "For each documented boolean flag, if the user writes it, with or without --no-defaults, the corresponding behaviour is on exactly when the value is true/yes/y; if the user does not write it and --no-defaults is absent, the behaviour is the documented default.",
  "every command line accepted by the validator",
  "2^45 flag combinations times --no-defaults.",
  "src/cli.rs: Flags::_resolve, gen_parse_options, gen_write_options, gen_cleaning_options, prepare_app", "data/help.txt")
p("C07","--no-defaults turns off everything that is not asked for",
  "With --no-defaults, every documented cleaning flag the user does not mention behaves as if it were 'no'.",
  "every accepted command line containing --no-defaults",
  "All subsets of mentioned flags.",
  "src/cli.rs: Flags::_resolve, gen_*_options", "src/options.rs: CleaningOptions::default", "data/help.txt: --no-defaults")
p("C08","Dependent options never run without what they depend on",
  "An accepted command line never results in joined ArcTo flags without compact path notation, nor in requests to remove segments, convert segments or apply transforms to paths without paths being made relative.",
  "every accepted command line",
  "All combinations of explicit flags, defaults and --no-defaults.",
  "src/cli.rs: check_values")
p("C09","Validated arguments cannot crash option parsing, and precisions are in range",
  "Every command line the validators accept yields options without reaching an 'unreachable' branch, and all four precisions are between 1 and 12, so that the rounding table is never indexed out of range or at its zero entry.",
  "every string accepted by the validators",
  "Strings are an infinite domain.",
  "src/cli.rs: is_flag, get_flag, is_precision", "src/task/round_numbers.rs: POW_VEC, round_number")
# ---------------------------------------------------------------- rounding
p("C10","Rounding stays within half a unit of the chosen precision",
  "Rounding a number to p digits moves it by at most 0.5*10^-p and the result is a multiple of 10^-p; no multiple of 10^-p is closer.",
  "every rational number and every precision 1..12", "Infinite domain.",
  "src/task/round_numbers.rs: round_number")
p("C11","Rounding is idempotent, order preserving and symmetric",
  "Rounding twice equals rounding once, never reorders two numbers, commutes with negation, and leaves integers and already short numbers alone.",
  "all pairs of numbers, every precision", "Infinite domain.",
  "src/task/round_numbers.rs: round_number")
p("C12","Rounding a relative path does not accumulate error",
  "When path coordinates are rounded the document position of each segment's end stays within a fixed bound, independent of the length of the path.",
  "every path of any length", "The error only shows in long paths; the bound must hold for every length.",
  "src/task/round_numbers.rs: round_path", "src/task/paths/mod.rs: process_path")
# ---------------------------------------------------------------- ids
p("C13","Shortened ids are unique",
  "trim-ids gives different elements different ids.",
  "every document with any number of referenced elements", "Collisions would only appear at counter roll-over (52, 52*62, ... elements).",
  "src/task/trim_ids.rs: Num, gen_trimmed_ids, trim_ids")
p("C14","Shortened ids are valid XML names and never run out",
  "Every id generated by trim-ids is a non-empty string of letters and digits that starts with a letter, and generation never crashes.",
  "every document", "The failing documents have more than twelve million ids.",
  "src/task/trim_ids.rs: Num::increment, Num::write")
p("C15","References survive id changes",
  "After trim-ids and remove-unreferenced-ids every reference in the document resolves, by id lookup, to the element it pointed to before, and an id is only dropped from an element that nothing references.",
  "every document and every set of references", "All graphs of references.",
  "src/task/trim_ids.rs: trim_ids", "src/task/rm_unref_ids.rs: remove_unreferenced_ids")
# ---------------------------------------------------------------- paths
p("C16","Rewriting path commands preserves the drawn geometry",
  "Making paths relative, turning an initial relative MoveTo and MoveTos after ClosePath into explicit ones, and expanding/contracting horizontal and vertical lines never changes the sequence of drawn curves.",
  "every path of any length", "Unbounded command sequences with a hidden pen state.",
  "src/task/paths/mod.rs: process_path, fix_m, conv_hv_to_l, conv_l_to_hv")
p("C17","Shorter equivalent segments draw the same curve",
  "convert-segments replaces a segment by a shorter one (line for curve, smooth curve for curve, close for line) only when the drawn curve is the same point set traced in the same order.",
  "every path", "Infinite domain of control points; the replacement conditions are inequalities.",
  "src/task/paths/conv_segments.rs: convert_segments and helpers")
p("C18","Removing unused segments does not change the drawn geometry",
  "remove-unused-segments deletes only segments that draw nothing and does not change what any remaining segment draws.",
  "every path", "Depends on neighbouring smooth segments and on sub-path starts.",
  "src/task/paths/rm_unused.rs: remove_unused_segments and helpers")
p("C19","Applying a transform to a path gives the transformed outline",
  "When apply-transform-to-paths fires, the new path drawn without the transform is the image of the old path under the transform, stroke widths scaled accordingly.",
  "every path, every transform accepted", "Infinite domain.",
  "src/task/paths/apply_transform.rs: apply_transform, process", "src/task/utils.rs: recalc_stroke")
p("C20","Path processing never crashes and always finishes",
  "For every path (first segment a MoveTo, as the parser guarantees) the processing terminates without a panic and the result again starts with a MoveTo or is empty.",
  "every path", "Loops with in-place removal and index arithmetic.",
  "src/task/paths/*.rs")
p("C21","Shapes converted to paths keep their outline",
  "convert-shapes turns line, rect, polyline and polygon into paths that draw the same segments in the same order, with the same markers.",
  "every shape with any coordinates/number of points", "Infinite domain.",
  "src/task/conv_shapes.rs")
# ---------------------------------------------------------------- dom
p("C22","Cleaning never leaves a dangling reference",
  "If every reference in the document points to an element of the document, the same holds after each task and after the whole cleaning run.",
  "every document and every option combination", "All documents times all option sets times a forty-step pipeline.",
  "src/cleaner.rs: clean_doc", "src/task/*.rs")
p("C23","Unsupported documents are rejected, and only those",
  "A document is rejected up front exactly when it contains a script element, an animation element, an event-handler attribute, a non-empty conditional-processing attribute or an unsupported external reference; nothing else is rejected at that point and the document is not modified.",
  "every document", "All trees.",
  "src/task/preclean_checks.rs")
p("C24","Removing titles, descriptions and metadata removes exactly these",
  "remove-title/desc/metadata delete every element of that kind with its content and nothing else.",
  "every document", "All trees.", "src/task/rm_elems.rs: remove_element")
p("C25","Removing unused definitions keeps everything that is used",
  "remove-unused-defs deletes only elements that nothing in the remaining document refers to and that are never drawn directly; every element that is referenced from the remaining document is still there; the procedure terminates.",
  "every document", "Fixpoint over an arbitrary reference graph.", "src/task/rm_unused_defs.rs")
p("C26","Gradient attribute resolution equals template inheritance",
  "After gradients are resolved each linear/radial gradient carries, for each gradient attribute, the value found by following the reference chain (own value, else the referenced gradient's, else the default), as the SVG standard prescribes.",
  "every set of gradients with acyclic references", "Chains of arbitrary length and order in the file.",
  "src/task/resolve_gradients.rs")
p("C27","Gradient ordering is a topological order and terminates",
  "The order in which gradients of a kind are processed lists every such gradient once and each before the gradients it references; computing it terminates for every acyclic reference structure.",
  "every acyclic reference graph", "All graphs; termination.", "src/task/resolve_gradients.rs: gen_order")
p("C28","Stop offsets are normalised without changing the gradient ramp",
  "fix-invalid-attributes makes every stop offset lie in [0,1] and not decrease, in the way the SVG standard prescribes, leaves valid offsets alone and is idempotent.",
  "every list of stops", "Lists of any length.", "src/task/fix_attrs.rs: fix_stop")
p("C29","Removing invalid stops leaves the gradient ramp unchanged",
  "remove-invalid-stops deletes a stop only if the colour ramp defined by the remaining stops is the same function of position.",
  "every list of stops with non-decreasing offsets", "Lists of any length and real-valued positions.", "src/task/rm_invalid_stops.rs")
p("C30","Applying a gradient transform keeps the paint",
  "When apply-transform-to-gradients removes a gradientTransform the paint at every point of the plane is unchanged.",
  "every gradient, every accepted transform, every point", "Infinite domain.", "src/task/apply_transforms/gradients.rs")
p("C31","Applying a transform to a shape keeps its outline",
  "When apply-transform-to-shapes removes a transform from a rect, circle, ellipse or line the outline is the transformed outline and the stroke width is scaled by the same factor.",
  "every shape and accepted transform", "Infinite domain.", "src/task/apply_transforms/shapes.rs", "src/task/apply_transforms/preproc.rs", "src/task/utils.rs: recalc_stroke")
p("C32","De-duplicating definitions only merges equivalent ones",
  "Two gradients or blur filters are merged only if they paint identically, each reference to a removed one is redirected to the kept one, and no element changes its effective paint.",
  "every document", "All pairs of definitions, reference graphs.", "src/task/rm_dupl_defs/*.rs")
p("C33","Merging gradients keeps the effective paint",
  "merge-gradients moves a referenced gradient's stops into the only gradient using it; each remaining gradient's effective attributes and stops are unchanged.",
  "every document", "All reference structures.", "src/task/merge_gradients.rs")
p("C34","'inherit' is resolved to the inherited value",
  "Every presentation attribute with the value 'inherit' gets the value of the nearest ancestor that has this attribute; if there is none and no default exists the run fails rather than guessing.",
  "every document", "Trees of any depth.", "src/task/resolve_inherit.rs")
p("C35","Definitions are collected in one defs element",
  "After grouping, the root element has exactly one 'defs' child (the first), it directly contains every referenced element, there is no other non-empty 'defs', no element is lost and computed styles inside moved definitions are unchanged.",
  "every document", "Trees of any shape.", "src/task/group_defs.rs")
p("C36","Ungrouping keeps the rendering",
  "ungroup-groups removes a group only if the painted result (order, computed properties, transforms, opacity) of every drawn element is unchanged; it terminates.",
  "every document", "Trees of any depth, repeated application.", "src/task/ungroup_groups.rs")
p("C37","Grouping by style keeps the rendering",
  "group-by-style moves attributes shared by consecutive elements to a group; drawing order and every element's computed properties and transform are unchanged, it terminates.",
  "every document", "Table search over any number of children.", "src/task/group_by_style.rs")
p("C38","Invisible-element removal removes only invisible content",
  "remove-invisible-elements deletes an element only if it draws nothing and nothing drawn depends on it.",
  "every document", "All trees and references.", "src/task/rm_invisible_elems.rs")
p("C39","Resolving 'use' keeps the rendering",
  "resolve-use replaces a use element by the element it references only if the painted result is the same.",
  "every document", "All attribute combinations.", "src/task/resolve_use.rs")
p("C40","Regrouping stops keeps each gradient's stops",
  "regroup-gradient-stops factors equal stop lists into a shared gradient with a fresh id; every gradient's effective stops and attributes are unchanged.",
  "every document", "Reference structures and id sets of any size.", "src/task/regroup_gradient_stops.rs")
p("C41","Generated ids are fresh and always found",
  "The id made up for a new shared gradient is different from every id in the document, and the search for it ends.",
  "every finite set of ids", "Termination for arbitrary id sets.", "src/task/regroup_gradient_stops.rs: gen_id")
p("C42","Dropping default attributes keeps computed values",
  "remove-default-attributes hides an attribute only if the computed value of this property on the element and all its descendants is unchanged.",
  "every document", "Trees of any depth; inheritance.", "src/task/rm_default_attrs.rs")
p("C43","Dropping text attributes keeps text rendering",
  "remove-text-attributes drops font/text properties only where no text (and no font-relative length) depends on them.",
  "every document", "All trees.", "src/task/rm_text_attrs.rs")
p("C44","Needless attributes are really needless",
  "remove-needless-attributes drops an attribute only from an element kind to which the attribute does not apply and from which nothing inherits it.",
  "every document", "All trees.", "src/task/rm_needless_attrs.rs")
p("C45","Factoring gradient attributes keeps effective values",
  "remove-gradient-attributes drops an attribute of a gradient only if it equals the value inherited through the reference, so that the effective value does not change.",
  "every document whose gradients have resolved units (as the earlier passes leave them) and refer to each other by xlink:href only, without circles", "Chains of any length.", "src/task/rm_gradient_attrs.rs")
p("C46","Dropping unused coordinates keeps geometry",
  "remove-unused-coordinates hides x/y/width/height-like attributes only when the default gives the same geometry.",
  "every element", "All attribute combinations.", "src/task/rm_unused_coords.rs")
p("C47","The xlink namespace declaration is present when needed",
  "After cleaning, if any element is written with an xlink attribute the root element declares the xlink namespace; the declaration is dropped only when unneeded and asked for.",
  "every document and option", "All trees.", "src/task/final_fixes.rs: fix_xmlns_attribute")
p("C48","Ungrouping defs loses nothing",
  "ungroup-defs only removes the 'defs' wrapper when all children are never rendered directly, so nothing starts being drawn, and remove-empty-defs removes only childless defs.",
  "every document", "All trees.", "src/task/ungroup_defs.rs", "src/task/final_fixes.rs: remove_empty_defs")
p("C49","Joining style attributes is loss-free",
  "join-style-attributes moves the presentation attributes into one style attribute holding exactly the same name/value pairs and touches nothing else.",
  "every document", "All attribute sets.", "src/task/join_style_attrs.rs")
p("C50","Removing version information touches only the root's version attributes",
  "remove-version removes version/baseProfile from the root svg element and nothing else.",
  "every document", "All trees.", "src/task/rm_version.rs")
p("C51","Identity transforms are dropped, others kept",
  "remove-default-transform removes exactly transforms equal to the identity, which does not change any element's total transform.",
  "every document", "All trees.", "src/task/rm_default_transform.rs")
p("C52","Invalid rect and poly attributes are fixed as the standard says",
  "fix-invalid-attributes: afterwards every rect has a width and a height that are not negative and no negative radius; every polyline/polygon has whole coordinate pairs or no points attribute; negative or missing sizes become 0, negative radii are dropped, the odd last coordinate is dropped; valid attributes and all other attributes are untouched, except that 'marker' is dropped everywhere.",
  "every element", "Infinite domain.", "src/task/fix_attrs.rs")
p("C53","Cleaning a valid document never crashes",
  "For every document the parser can produce, the cleaning run ends with success or a reported error and never panics.",
  "every document, every option set", "All documents.", "src/cleaner.rs: clean_doc", "src/task/*.rs")
p("C54","Options that are off have no effect",
  "Each optional task runs only if its option is on: with all options off only the mandatory preparation and final fixes modify the document.",
  "every document and option set", "2^30 option sets.", "src/cleaner.rs: clean_doc")
p("C55","Text and unknown content is never altered",
  "No task changes character data, comments or elements outside the SVG namespace, except by removing a whole subtree that contains them.",
  "every document and option set", "All documents.", "src/task/*.rs")
p("C56","Failures are reported",
  "Every run that does not write a cleaned file reports an error on stderr and, as a script would expect, ends with a non-zero exit status.",
  "every input, option set and failure point", "Failure points are unbounded; a test sees a few.", "src/main.rs: main, process")
p("C57","Stop attributes are resolved as the standard says",
  "resolve-stop-attributes never crashes; it fails exactly if a child of a gradient other than the first has no offset; otherwise percentages become fractions, a missing first offset is 0, missing colours become black and missing opacities 1 without being written out, and nothing else changes.",
  "every document", "All documents.", "src/task/resolve_gradients.rs: resolve_stop_attributes")
p("C58","Rounding a document changes only the listed numbers",
  "With precisions from 1 to 12, rounding a document never fails. The tree stays the same; every number in an attribute that the documentation lists for a precision is replaced by a number with that many digits at most half a unit away; units, other attributes and elements outside SVG stay the same.",
  "every document and all four precisions", "All documents and numbers.", "src/task/round_numbers.rs: round_numbers")
p("C59","What is asked to be removed is not in the output",
  "With remove-title, remove-desc or remove-metadata on, the written document contains no such element, whatever the other options are; and no element other than g, defs, linearGradient and path is ever made by the cleaner or turned into another one, except shapes into paths.",
  "every document and option set", "All documents and all combinations with the other tasks.", "src/cleaner.rs: clean_doc", "src/task/rm_elems.rs", "src/task/*.rs")
p("C60","The form of the written document",
  "After the whole run, with any options: no element has the identity as its transform; with remove-version the root has neither version nor baseProfile; with join-style-attributes=all no SVG element has a written presentation attribute, with some none has more than five; if an SVG element has xlink:href, the root declares the xlink prefix.",
  "every document and option set", "All documents; a later task could undo what an earlier one did.", "src/cleaner.rs: clean_doc", "src/task/final_fixes.rs", "src/task/join_style_attrs.rs", "src/task/rm_version.rs", "src/task/rm_default_transform.rs")
p("C61","No option is without effect",
  "For every cleaning option there is a valid document for which switching this option alone changes the result of the run.",
  "every option (an existence claim about runs of the whole pipeline)", "A test can show this for an option; that all options are wired to their own task is a claim about the list of tasks as a whole.", "src/cleaner.rs: clean_doc", "src/options.rs: CleaningOptions")
p("C62","Options that concern the file do not change the drawing",
  "remove-title, remove-desc, remove-metadata, remove-version, remove-unreferenced-ids, trim-ids, ungroup-defs and remove-xmlns-xlink-attribute, in any combination, leave the picture of the prepared document as it is, together with the final fixes that always run.",
  "every document and all 256 combinations of these options", "Pictures of all documents; the tasks work on each other's results.", "src/cleaner.rs: clean_doc", "src/task/rm_elems.rs", "src/task/rm_version.rs", "src/task/trim_ids.rs", "src/task/rm_unref_ids.rs", "src/task/ungroup_defs.rs", "src/task/final_fixes.rs", "src/task/rm_default_transform.rs")
p("C63","The program as a whole",
  "A run without an error message changes only the destination named on the command line; what it then holds is the written form of a document that the cleaner, with the options given by the command line, has made of the input, in one pass or, with --multipass, in several. All references of this document lead to its nodes, and it has no title, desc or metadata while the flag is in force. If the cleaner panics, no file has been touched.",
  "every command line, input, state of the file system, parser and serialiser", "All command lines and inputs, and crash points inside the cleaner.", "src/main.rs: main", "src/cli.rs", "src/cleaner.rs: clean_doc, parse_data, write_buffer, save_file")
p("C64","Options that take a value mean what the help says",
  "Every accepted command line gives list-separator, indent, join-style-attributes and the precisions the value that the help documents for the word written, or the documented default if the option is absent, with and without --no-defaults; a word that the help does not list is refused before any file is read. Settings that no option changes (hidden attributes are not written, leading zeros are dropped, double quotes, strict parsing) are the same for every command line.",
  "every command line", "There are infinitely many combinations of the 50 options.", "src/cli.rs: gen_parse_options, gen_write_options, gen_cleaning_options, prepare_app, ARGS", "src/options.rs")
p("C65","What a run reports, --quiet and --copy-on-error",
  "A successful run reports the ratio and nothing else, and with --quiet nothing at all. --quiet changes no file, no exit status and no message about an error. When the document cannot be read or cleaned or the result is bigger, without --copy-on-error no file changes; with it the output file becomes a copy of the input file and nothing else changes, or the failed copy is reported.",
  "every command line, input, state and failures of the file system, parser and serialiser", "All command lines, inputs and faults of the operating system.", "src/main.rs: main", "src/cleaner.rs: load_file, save_file")
p("C66","The options that change the structure of a drawing do not change its picture",
  "remove-unused-defs, remove-invisible-elements, ungroup-groups, resolve-use and group-by-style, in any combination with each other and with the options that concern the file only (C62), leave the picture of the prepared document as it is, through the whole run.",
  "every document and all combinations of these 13 options", "Pictures of all documents; groups are taken out up to three times, and every task works on the results of the others.", "src/cleaner.rs: clean_doc", "src/task/rm_unused_defs.rs", "src/task/rm_invisible_elems.rs", "src/task/ungroup_groups.rs", "src/task/group_by_style.rs", "src/task/resolve_use.rs")
p("C67","A second run of a task changes nothing",
  "Every task of a clean-up, run again on the document it has just made, succeeds and changes nothing: what the first run left is what it is meant to leave.",
  "every document and option set, and every task", "All documents; a task may make work for itself.", "src/cleaner.rs: clean_doc", "src/task/*.rs")
p("C68","Writing shapes in another way does not change the picture",
  "convert-shapes, paths-to-relative, convert-segments and remove-unused-segments (without applying transforms) leave the picture of the document as it is, for every renderer that draws a shape by its outline, whatever it does with colours, groups, clip paths, use elements and so on.",
  "every document, all options for paths, and every renderer that draws shapes by their outlines", "Pictures of all documents, with inheritance of markers and strokes and copies made by use elements.", "src/task/conv_shapes.rs", "src/task/paths/mod.rs: process_paths")
p("C69","Applying transforms to shapes and paths does not change the picture",
  "apply-transform-to-shapes and apply-transform-to-paths leave the picture of the document as it is, for every renderer that draws a scaled and moved shape like the shape with the scaled and moved outline and the scaled stroke: strokes that are inherited are scaled along, and copies made by use elements look the same.",
  "every document, all options for paths, and every renderer that draws shapes by their outlines", "Pictures of all documents: the stroke is resolved from the ancestors of the element, while copies inherit from use elements elsewhere in the document.", "src/task/apply_transforms/shapes.rs", "src/task/paths/mod.rs: process_paths", "src/task/utils.rs: recalc_stroke")
p("C70","Attributes that are left out of the file do not change the picture",
  "The picture of the file in which attributes with default values, needless attributes, unused coordinates and text attributes are left out is the picture of the document with them, for every renderer that takes the initial value for a property that is not there, paints what is to be painted, and does not look at attributes an element does not have.",
  "every document, every table of initial values, and every such renderer", "Pictures of all documents: properties are inherited, so that what is left out in one place may be needed in another.", "src/task/rm_default_attrs.rs", "src/task/rm_needless_attrs.rs", "src/task/rm_text_attrs.rs", "src/task/rm_unused_coords.rs")
p("C71","A whole run with all options leaves the drawing as it was",
  "With any choice of options, the file that is written is drawn as the document was after it had been read and prepared, by every renderer that draws shapes by their outlines wherever they are scaled, and takes the initial value of a property that is not there.",
  "every document, every choice of options, and every such renderer", "The tasks are run one after the other, each on what the others leave, and attributes are only hidden in memory: that none of them breaks what another one relies on must hold for all documents and all choices of options.", "src/cleaner.rs: clean_doc", "src/task")
p("C72","The gradient options do not change what is painted",
  "remove-gradient-attributes, apply-transform-to-gradients, removing duplicate linear and radial gradients, merging gradients, and regrouping the stops of gradients, leave the picture of the file as it is, for every renderer to which nothing but the paint of a gradient matters: its kind, units, spread method, stops, and the offset that each point gets.",
  "every document, and every renderer that paints with gradients as the standard describes them", "Pictures of all documents: gradients take attributes and stops from others along chains of references, attributes are moved between them and hidden in memory, and shapes are given other gradients.", "src/task/rm_gradient_attrs.rs", "src/task/apply_transforms/gradients.rs", "src/task/rm_dupl_defs", "src/task/merge_gradients.rs")
p("C73","The gradient passes one after another do not change what is painted",
  "When, with any choice of options, the attributes of gradients are resolved and then transforms are applied, duplicate gradients are removed, gradients are merged, transforms are applied again, stops are regrouped, and common gradientUnits are removed, one pass on what the other one leaves, then nothing crashes and the file that is written is painted as the file that was read, for every renderer that paints with gradients as the standard describes them.",
  "every document, every choice of options, and every renderer that paints with gradients as the standard describes them", "Each pass relies on what the passes before it leave: attributes that were resolved into memory, stops that were moved, references that were changed.", "src/cleaner.rs: clean_doc", "src/task/resolve_gradients.rs", "src/task/apply_transforms/gradients.rs", "src/task/rm_dupl_defs", "src/task/merge_gradients.rs", "src/task/regroup_gradient_stops.rs", "src/task/rm_gradient_attrs.rs")
with open('/verif/properties.jsonl','w') as f:
    for x in P: f.write(json.dumps(x)+"\n")
print(len(P))
