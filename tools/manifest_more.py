S="Verif.Simple."
c("C15","partial",n(S,"C15_trim_keeps_references C15_trim_total C15_unreferenced_ids C15_foreign_ids_needed"),"Proved if ids sit on SVG elements only; a renamed id can collide with the id of a foreign element (proved).")
c("C23","partial",n(S,"C23_rejected_iff_partial C23_error_is_true C23_reason_is_found C23_refuted_requiredExtensions"),"Proved for everything but requiredExtensions, which is accepted (proved).")
c("C24","proved",n(S,"C24_removes_exactly"))
c("C46","partial",n(S,"C46_rect_partial C46_gradient_partial C46_hides_only C46_document C46_refuted_percent C46_refuted_mixed_chain"),"False for percentage radii and for chains radial-linear-radial (both proved).")
c("C47","partial",n(S,"C47_declared_partial C47_refuted_other_xlink"),"Proved for xlink:href; other xlink attributes are not looked at and the declaration is dropped (proved).")
c("C48","partial",n(S,"C48_ungroup_draws_the_same C48_empty_defs C48_style_kept_partial C48_refuted_style_on_defs"),"Nothing starts being drawn and no element is lost (proved in full); presentation attributes on the removed defs are lost (proved).")
c("C49","partial",n(S,"C49_join_is_lossless_partial C49_document C49_refuted_semicolon C49_all_adds_empty_style"),"False for values containing a semicolon (proved).")
c("C50","proved",n(S,"C50_only_root_version C50_panics_iff"))
c("C51","proved",n(S,"C51_totals_unchanged C51_drops_exactly_identity"))

T="Verif.Stops."
c("C28","partial",n(T,"C28_C52_fixed C28_C52_shape C28_offsets_valid C28_valid_left_alone C28_idempotent C28_crashes_iff C28_no_crash_partial C28_refuted_unit_crash"),"Normalisation proved in full when the pass does not crash; it crashes on offsets with units such as mm (proved).")
c("C29","partial",n(T,"C29_ramp_partial C29_refuted_desc C29_refuted_currentColor"),"Proved if the children of gradients are stops with plain colours; false with other children or currentColor (proved).")
c("C52","proved",n(T,"C28_C52_fixed C28_C52_shape"))
c("C57","proved",n(T,"C57_resolved C57_fails_iff C57_rejects_desc"),"C57_rejects_desc: children that are not stops count as stops.")
c("C21","partial",n("Verif.ConvShapes.","C21_same_outline C21_crashes_iff C21_same_drawing_partial C21_refuted_markers"),"Outline proved in full; a rect that inherits a marker becomes a path that draws it (proved).")
G="Verif.Gradients."
c("C26","partial",n(G,"C26_resolved_partial C26_no_crash C26_refuted_mixed_chain C26_crash_foreign_href"),"Proved for every attribute of every acyclic set of gradients, except fx/fy when a linear gradient refers to a radial one, where it is false (proved).")
c("C27","proved",n(G,"C27_order C27_ends_iff C27_rounds C27_circle_hangs"),"Also: on cyclic references the loop never ends.")
A="Verif.ApplyTs."
c("C30","partial",n(A,"C30_paint_partial C30_document_partial C30_again C30_no_crash C30_refuted_inherited_radius"),"Proved, alone and after C26's passes, if a radial gradient with a scaling transform has its radius in the element itself; false if the radius is inherited (proved).")
c("C31","partial",n(A,"C31_shapes C31_points C31_no_crash C31_groups C31_refuted_copies C31_refuted_groups_copies"),"Figure, stroke and total transforms proved in full for elements where they stand; copies made by use elements change (proved).")
c("C45","proved",n("Verif.GradUnits.","C45_values_kept C45_ends C45_refuted_hang"),"For documents as the earlier passes leave them (Ready: acyclic references between gradients, nothing but xlink:href refers from gradient to gradient, resolved units). Outside that the pass can loop for ever (C45_refuted_hang).")
c("C25","proved",n("Verif.UnusedDefs.","C25_unused C25_references C25_drawn C25_ends C25_look_partial C25_refuted_inherit"),"The structural claims are proved in full. C25_look_partial adds that the whole picture stays the same if dissolved elements carry no inheritable attributes for used descendants; C25_refuted_inherit shows that this condition is needed.")
c("C41","proved",n("Verif.GenId.","C41_fresh"))
c("C34","partial",n("Verif.Inherit.","C34_resolved_partial C34_nothing_left C34_fails_iff C34_refuted_color C34_refuted_noninherited C34_crashes"),"Proved for inherited properties other than a color of currentColor; false for that colour and for properties that are not inherited; a reference to the element itself crashes (all proved).")
c("C42","partial",n("Verif.DefaultAttrs.","C42_own_partial C42_inherited C42_no_crash C42_refuted_primitive C42_refuted_slope C42_refuted_pattern C42_refuted_copies"),"Inherited properties in full; own attributes except on filter primitives, font slope, patterns and filters with xlink:href, where it is false, as it is for copies made by use (all proved).")
c("C44","partial",n("Verif.Needless.","C44_needless_partial C44_refuted_use C44_refuted_copies C44_refuted_markers C44_refuted_inherited_markers C44_refuted_foreign"),"Proved for every element where it stands; false for use elements and their copies, for markers and for content outside SVG (all proved).")
c("C43","partial",n("Verif.TextAttrs.","C43_text_partial C43_use_keeps C43_no_crash C43_refuted_use C43_refuted_em C43_refuted_foreign C43_refuted_newline"),"Proved for character data, tref elements and font-relative lengths on elements without children, all inside SVG elements; false for text shown through use, font-relative lengths on elements with children, text outside SVG and newlines under xml:space (all proved).")
c("C36","partial",n("Verif.Ungroup.","C36_look_partial C36_terminates C36_done C36_refuted_display C36_refuted_nested_svg C36_refuted_used_child C36_refuted_own C36_refuted_conditions C36_refuted_switch C36_refuted_switch_child"),"Termination for every document. The whole picture, for every way to draw, is proved unchanged if groups carry only attributes that apply to groups, display only hides, content of groups with transforms takes them and is not referred to, and conditional attributes are not nested; each condition is needed (proved).")
c("C37","partial",n("Verif.GroupStyle.","C37_look_partial C37_no_panic C37_refuted_root_transform C37_refuted_nested_transform C37_refuted_meaningless_transform C37_refuted_inherit"),"Always ends (structural); no panic if nothing refers to the root. The whole picture, for every way to draw, is proved unchanged if transforms are only used where they mean something, inherit has been resolved and every svg element has a child without transform (as in the pipeline); each condition is needed (proved).")
c("C39","partial",n("Verif.ResolveUse.","C39_look_partial C39_refuted_fill C39_refuted_transform C39_refuted_opacity C39_refuted_width C39_refuted_units C39_refuted_svg C39_refuted_switch"),"The whole picture, for every way to draw, is proved unchanged if the two elements have no attributes in common, x and y have no units, references are acyclic and the content moved is not referred to itself; each of the main conditions is needed (proved).")

c("C38","partial",n("Verif.Invisible.","C38_whole_partial C38_display_partial C38_paths_partial C38_clips_partial C38_filters_partial C38_matrix_partial C38_uses_partial C38_gradients_partial C38_rects_partial C38_tidy C38_refuted_switch C38_refuted_used C38_refuted_clip C38_refuted_kids C38_refuted_href C38_refuted_matrix C38_refuted_opacity C38_refuted_panic C38_refuted_current")+" "+n("Verif.Draft.","C38_drawing_partial"),"Each step, and the pass as a whole, is proved to keep the picture, for every way to draw, under explicit conditions; the claim without conditions is false, in the ways the refutations show. C38_drawing_partial proves the whole pass keeps the picture of every simple drawing (see C66), with conditions on the document only.")

c("C35","partial",n("Verif.GroupDefs.","C35_collected C35_one_defs C35_drawn C35_wellformed C35_no_crash C35_look_partial C35_refuted_first C35_refuted_symbol C35_refuted_defs C35_refuted_crash"),"The structural claims are proved for every document: one defs element, the first child of the root, with all definitions as direct children; nothing is lost or doubled; everything else is where it was, with the same attributes. The claim about styles is false in three ways, and the pass can crash (all proved); the picture is the same for every document whose definitions inherit just what the root element gives, with defs elements that have no inherited properties (C35_look_partial).")

c("C33","partial",n("Verif.Merge.","C33_merged_partial C33_all C33_refuted C33_refuted_mixed C33_refuted_desc C33_refuted_shape C33_refuted_current C33_refuted_cycle"),"Proved, with the end of the loop, if gradients refer to gradients without cycles, contain nothing but stops without currentColor, and no radial gradient takes its centre through a linear one; each condition is needed (proved).")

c("C40","partial",n("Verif.Regroup.","C40_regrouped_partial C40_refuted C40_refuted_current C40_refuted_desc"),"Proved, with the end of the loop and the freshness of the new ids, if gradients refer to gradients without cycles and contain nothing but stops without currentColor; the last conditions are needed (proved).")

c("C32","partial",n("Verif.Dupl.","C32_linear_partial C32_radial_partial C32_blur_partial C32_refuted C32_refuted_referrer C32_refuted_stops C32_refuted_focus C32_refuted_current C32_refuted_ids C32_refuted_crash C32_refuted_region C32_refuted_space"),"Proved, with no crash, for gradients with ids of their own that have either stops or a reference, no currentColor, and a focal point if they have a reference and a centre; and for filters whose blurs have no region of their own. The conditions are needed: eight documents that lose paints or crash (proved).")

P="Verif.Pipeline."
c("C22","proved",n(P,"C22_references C22_whole_run C22_by_id C22_style_text"),"For every document, every option set, and every prefix of the run; also as seen in the written file, by ids.")
c("C53","partial",n("Verif.Crash.","C53_neat_partial")+" "+n(P,"C53_all_off_partial C53_refuted C53_refuted_pattern C53_refuted_inherit C53_refuted_unit C53_refuted_ring C53_refuted_equal C53_refuted_merge C53_refuted_template")+" "+n("Verif.Crash.","C53_refuted_hidden_root C53_refuted_clipped_root C53_refuted_hidden_defs C53_refuted_comment C53_refuted_foreign C53_refuted_points C53_refuted_filter"),"False: fifteen documents on which the whole run crashes or hangs, four of them without any option (proved). Proved (C53_neat_partial): for every combination of options and precisions 1 to 12, the run ends with success, with an error of the checks before cleaning, or because a stop that is not the first one has no offset, on every document (with or without gradients, of any size) that has none of the features listed in Verif.Spec.Neat; these features are, for the most part, those of the refuting documents. C53_all_off_partial: with all options off, weaker conditions on the document. Not proved: that each condition of Neat is necessary.")
c("C54","proved",n(P,"C54_independent C54_dependent C54_all_off"),"")
c("C55","partial",n(P,"C55_content C55_refuted C55_refuted_ungroup C55_refuted_defs"),"Proved for every document and option set: no such node is new or has other content or another name. False: attributes of foreign elements change (ungrouping), and comments are removed on their own from defs.")
c("C58","proved",n("Verif.Round.","C58_document"),"")

c("C59","proved",n(P,"C59_removed"),"")
c("C60","proved",n(P,"C60_version C60_transform C60_style C60_xlink"),"")
c("C61","proved",n(P,"C61_removeUnusedDefs C61_convertShapes C61_removeTitle C61_removeDesc C61_removeMetadata C61_removeDuplLinearGradients C61_removeDuplRadialGradients C61_removeDuplFeGaussianBlur C61_ungroupGroups C61_ungroupDefs C61_groupByStyle C61_mergeGradients C61_regroupGradientStops C61_removeInvalidStops C61_removeInvisibleElements C61_resolveUse C61_removeVersion C61_removeUnreferencedIds C61_trimIds C61_removeTextAttributes C61_removeUnusedCoordinates C61_removeDefaultAttributes C61_removeXmlnsXlinkAttribute C61_removeNeedlessAttributes C61_removeGradientAttributes C61_applyTransformToGradients C61_applyTransformToShapes C61_pathsToRelative C61_removeUnusedSegments C61_convertSegments C61_applyTransformToPaths C61_joinStyleAttributes C61_coordinatesPrecision C61_propertiesPrecision C61_pathsCoordinatesPrecision C61_transformsPrecision"),"One theorem for each option; append-newline is not an option of the run but of the writer.")
c("C62","partial",n(P,"C62_look_partial C62_refuted_ungroup_defs"),"Proved for every combination and every way to draw, if descriptive elements and defs elements are not referred to, stand where they may stand, and defs elements have no attributes that are inherited. The last condition is needed: ungroup-defs drops the style of a defs element (proved).")
c("C63","proved",n("Verif.Program.","C63_success C63_panic C63_only_output C63_document"),"Parser and serialiser are arbitrary functions that do not panic; a task that never ends counts as a panic (the file claim is the same).")
c("C64","proved",n("Verif.Cli.","C64_values C64_refused"),"The documented words and values are literal tables in the statement. clap's check of possible_values is modelled (trusted).")
c("C65","proved",n("Verif.Program.","C65_success_message C65_quiet C65_copy_on_error"),"Message texts and the ratio's number are not modelled; parser and serialiser are arbitrary functions that do not panic.")
c("C66","partial",n("Verif.Draft.","C66_look_partial C66_refuted"),"Proved for every combination and every way to draw, for drawings: groups, shapes, images and text, painted with colours and with gradients that stand in defs; no other references, no conditional processing. The conditions are on the prepared document alone (Sketch.lean). False in general (proved; also by the refutations of C25, C36, C37 and C38).")
c("C67","partial",n("Verif.Idem.","C67_settled_partial C67_unused_defs C67_refuted C67_refuted_empty_defs C67_refuted_ungroup_defs C67_refuted_text C67_refuted_needless C67_refuted_duplicates C67_refuted_group C67_apply_gradients C67_inherit C67_invalid_stops C67_linear C67_radial C67_group_defs C67_regroup C67_units C67_refuted_moved C67_refuted_inherit C67_refuted_invalid_stops C67_refuted_use C67_refuted_invisible C67_refuted_ungroup C67_refuted_paths C67_refuted_radial_duplicates C67_refuted_blurs C67_refuted_join"),"Proved for every document for the checks, stops, repairs, rounding, title/desc/metadata, merging of gradients, transforms of shapes, shapes to paths, default attributes, unused coordinates, ids (both tasks), version, xmlns, default transforms, the joining of styles (modes other than all), and unused definitions; under stated conditions on references and colours also for inherit, the attributes of linear and radial gradients, invalid stops, the transforms and units of gradients, the regrouping of stops and (where references lead to nodes) the collecting of definitions. False (proved) for empty defs, ungroup-defs, ungroup-groups, paths, use, invisible elements, text attributes, needless attributes, duplicate gradients of both kinds, duplicate blurs, group-by-style, join-style all, and without these conditions for inherit, invalid stops and gradient transforms.")
c("C68","partial",n("Verif.Plot.","C68_shapes_partial C68_paths_partial C68_refuted_markers C68_refuted_dot C68_refuted_inherited_marker"),"Proved for every document and every such renderer: shapes, if no rectangle (and no use) has markers; paths, as far as C16-C18 hold for them, and where unused segments are removed for paths without stroke and markers or with markers of their own. False (proved): marked rectangles, dots, paths that inherit their markers.")
c("C69","partial",n("Verif.Zoom.","C69_shapes_partial C69_paths_partial C69_refuted_use C69_refuted_used_path"),"Proved for every document and every such renderer, if shapes and paths with transforms have no children and no markers, inherit has been resolved, and use elements that show such shapes give them the stroke lengths they have where they stand (and no paint server). False (proved): a use element with a stroke width of its own.")
c("C70","partial",n("Verif.Reader.","C70_defaults_partial C70_needless_partial C70_coords_partial C70_text_partial C70_refuted_copies C70_refuted_stroke"),"Proved for every document without use elements and elements outside SVG, with inherit and currentColor resolved; needless attributes: without clip paths and markers; coordinates: radii that are no percentages, no focal points; text attributes: in documents without text. False (proved): copies that use elements make.")
c("C71","partial",n("Verif.Whole.","C71_drawing_partial C71_input_partial C71_memory_partial C71_refuted_copies")+n("Verif.Program.","C71_program_partial C71_multipass_partial"),"Proved for drawings (groups, shapes, images, text, gradients) with all options; no gradients if an option that changes gradients is on (and they must have all their attributes, since the preparation adds missing ones as hidden attributes), no strokes if segments of paths are removed, no text if text attributes are removed. C71_input_partial: from the document that is read, with conditions on it alone (no definitions, numbers given to the precision of the options). C71_program_partial: from the command line to the file that is written, in one pass; C71_multipass_partial: in any number of passes, if what is written is read as it is on paper. False (proved): copies that use elements make.")
c("C72","partial",n("Verif.Shade.","C72_units_partial C72_transforms_partial C72_linear_partial C72_radial_partial C72_merged_partial C72_regrouped_partial C72_regroup_units_partial C72_refuted_inherited_radius artist_shades"),"Proved for documents in which references are made by fill, stroke and xlink:href of gradients only (the other conditions are those of C53, C30, C32, C33 and C40: attributes resolved, radii written where they are scaled). False (proved): a scaled radius that is inherited. Filters are not treated here.")
c("C73","partial",n("Verif.Shade.","C73_all_passes_partial C73_passes_partial C73_refuted_no_stops"),"From the file that is read to the file that is written, through resolving, transforms (twice), removing duplicate linear and radial gradients, merging, regrouping, and removing common gradientUnits, each as the options say, with conditions on the file that is read alone (Fresh; radii are written where transforms are applied that scale; gradientUnits have one of the two values of the standard). What happens between these passes and afterwards is not included. False (proved) in general: a gradient that takes its stops from another one is taken for an empty one.")
