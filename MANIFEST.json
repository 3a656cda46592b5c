{
 "claims": [
  {
   "property": "C01",
   "status": "proved",
   "theorems": [
    "Verif.Driver.C01_output_not_bigger"
   ],
   "note": ""
  },
  {
   "property": "C02",
   "status": "partial",
   "theorems": [
    "Verif.Driver.C02_failure_is_harmless_partial",
    "Verif.Driver.C02_only_output_touched",
    "Verif.Driver.C02_load_failure_no_effect",
    "Verif.Driver.C02_refuted_alias",
    "Verif.Driver.C02_refuted_copy_fails"
   ],
   "note": "The full claim is false (two counterexamples proved); proved when output and input are different files and the copy succeeds."
  },
  {
   "property": "C03",
   "status": "proved",
   "theorems": [
    "Verif.Driver.C03_success_writes_last_pass",
    "Verif.Driver.C03_good_result_is_written",
    "Verif.Driver.C03_effects_depend_only_on_final_buffer"
   ],
   "note": ""
  },
  {
   "property": "C04",
   "status": "partial",
   "theorems": [
    "Verif.Driver.C04_multipass_stops_at_first_stable",
    "Verif.Driver.C04_single_pass",
    "Verif.Driver.C04_multipass_terminates",
    "Verif.Driver.C04_multipass_may_diverge"
   ],
   "note": "Stops at the first stable pass; terminates if passes never grow forever; divergence possible for a cleaner that keeps changing its output (proved)."
  },
  {
   "property": "C05",
   "status": "partial",
   "theorems": [
    "Verif.Cli.C05_streams_partial",
    "Verif.Cli.C05_refuted_dash"
   ],
   "note": "A file named '-' breaks the claim (proved)."
  },
  {
   "property": "C06",
   "status": "proved",
   "theorems": [
    "Verif.Cli.C06_flag_resolution"
   ],
   "note": ""
  },
  {
   "property": "C07",
   "status": "partial",
   "theorems": [
    "Verif.Cli.C07_no_defaults_partial",
    "Verif.Cli.C07_refuted_unresolved_classes"
   ],
   "note": "remove_unresolved_classes stays on under --no-defaults (proved)."
  },
  {
   "property": "C08",
   "status": "partial",
   "theorems": [
    "Verif.Cli.C08_dependencies_partial",
    "Verif.Cli.C08_refuted_no_defaults"
   ],
   "note": "With --no-defaults the dependency checks can be bypassed (proved)."
  },
  {
   "property": "C09",
   "status": "proved",
   "theorems": [
    "Verif.Cli.C09_accepted_args_give_options",
    "Verif.Cli.C09_bad_precision_rejected",
    "Verif.Cli.C09_bad_flag_rejected"
   ],
   "note": ""
  },
  {
   "property": "C10",
   "status": "proved",
   "theorems": [
    "Verif.Round.C10_round_nearest",
    "Verif.Round.C10_range_needed"
   ],
   "note": ""
  },
  {
   "property": "C11",
   "status": "proved",
   "theorems": [
    "Verif.Round.C11_idempotent_monotone_odd"
   ],
   "note": ""
  },
  {
   "property": "C12",
   "status": "partial",
   "theorems": [
    "Verif.Round.C12_absolute_paths",
    "Verif.Round.C12_error_per_command_partial",
    "Verif.Round.C12_refuted_drift",
    "Verif.Round.C12_full_refuted"
   ],
   "note": "False for relative paths (unbounded drift proved); proved for absolute paths and, for all paths, a bound linear in the number of commands."
  },
  {
   "property": "C13",
   "status": "proved",
   "theorems": [
    "Verif.TrimIds.C13_ids_unique",
    "Verif.TrimIds.C13_lengths_nondecreasing"
   ],
   "note": ""
  },
  {
   "property": "C14",
   "status": "partial",
   "theorems": [
    "Verif.TrimIds.C14_ids_valid_partial",
    "Verif.TrimIds.C14_refuted_starts_with_digit",
    "Verif.TrimIds.C14_refuted_panic"
   ],
   "note": "The first character can be a digit and the numeral overflows (both proved)."
  },
  {
   "property": "C15",
   "status": "partial",
   "theorems": [
    "Verif.Simple.C15_trim_keeps_references",
    "Verif.Simple.C15_trim_total",
    "Verif.Simple.C15_unreferenced_ids",
    "Verif.Simple.C15_foreign_ids_needed"
   ],
   "note": "Proved if ids sit on SVG elements only; a renamed id can collide with the id of a foreign element (proved)."
  },
  {
   "property": "C16",
   "status": "proved",
   "theorems": [
    "Verif.Paths.C16_rewriting_keeps_trace"
   ],
   "note": ""
  },
  {
   "property": "C17",
   "status": "partial",
   "theorems": [
    "Verif.Paths.C17_conversion_draws_alike_partial",
    "Verif.Paths.C17_refuted_overshoot",
    "Verif.Paths.C17_refuted_point_before_start",
    "Verif.Paths.C17_refuted_smooth_after_straight",
    "Verif.Paths.C17_full_refuted"
   ],
   "note": "False in general (three counterexamples proved); proved if straight cubics keep their control points between their end points or plainly overshoot them (then they are kept), and no S follows them."
  },
  {
   "property": "C18",
   "status": "partial",
   "theorems": [
    "Verif.Paths.C18_removal_keeps_outline_partial",
    "Verif.Paths.C18_all_options_partial",
    "Verif.Paths.C18_refuted_equal_curves",
    "Verif.Paths.C18_refuted_smooth_after_zero_line",
    "Verif.Paths.C18_refuted_options_interact",
    "Verif.Paths.C18_full_refuted",
    "Verif.Paths.C18_closes_open_subpaths",
    "Verif.ApplyTs.C18_refuted_inherited_marker"
   ],
   "note": "False in general (counterexamples proved); proved without self-returning Bezier curves and without zero-length lines before smooth curves."
  },
  {
   "property": "C19",
   "status": "proved",
   "theorems": [
    "Verif.Paths.C19_transform_moves_outline",
    "Verif.Paths.C19_transform_exact",
    "Verif.ApplyTs.C19_paths",
    "Verif.ApplyTs.C19_paths_no_crash"
   ],
   "note": "C19_paths is the statement for documents, with strokes. Arcs: image under a uniform scale."
  },
  {
   "property": "C20",
   "status": "proved",
   "theorems": [
    "Verif.Paths.C20_never_panics",
    "Verif.Paths.C20_hypothesis_needed"
   ],
   "note": ""
  },
  {
   "property": "C21",
   "status": "partial",
   "theorems": [
    "Verif.ConvShapes.C21_same_outline",
    "Verif.ConvShapes.C21_crashes_iff",
    "Verif.ConvShapes.C21_same_drawing_partial",
    "Verif.ConvShapes.C21_refuted_markers"
   ],
   "note": "Outline proved in full; a rect that inherits a marker becomes a path that draws it (proved)."
  },
  {
   "property": "C22",
   "status": "proved",
   "theorems": [
    "Verif.Pipeline.C22_references",
    "Verif.Pipeline.C22_whole_run",
    "Verif.Pipeline.C22_by_id",
    "Verif.Pipeline.C22_style_text"
   ],
   "note": "For every document, every option set, and every prefix of the run; also as seen in the written file, by ids."
  },
  {
   "property": "C23",
   "status": "partial",
   "theorems": [
    "Verif.Simple.C23_rejected_iff_partial",
    "Verif.Simple.C23_error_is_true",
    "Verif.Simple.C23_reason_is_found",
    "Verif.Simple.C23_refuted_requiredExtensions"
   ],
   "note": "Proved for everything but requiredExtensions, which is accepted (proved)."
  },
  {
   "property": "C24",
   "status": "proved",
   "theorems": [
    "Verif.Simple.C24_removes_exactly"
   ],
   "note": ""
  },
  {
   "property": "C25",
   "status": "proved",
   "theorems": [
    "Verif.UnusedDefs.C25_unused",
    "Verif.UnusedDefs.C25_references",
    "Verif.UnusedDefs.C25_drawn",
    "Verif.UnusedDefs.C25_ends",
    "Verif.UnusedDefs.C25_look_partial",
    "Verif.UnusedDefs.C25_refuted_inherit"
   ],
   "note": "The structural claims are proved in full. C25_look_partial adds that the whole picture stays the same if dissolved elements carry no inheritable attributes for used descendants; C25_refuted_inherit shows that this condition is needed."
  },
  {
   "property": "C26",
   "status": "partial",
   "theorems": [
    "Verif.Gradients.C26_resolved_partial",
    "Verif.Gradients.C26_no_crash",
    "Verif.Gradients.C26_refuted_mixed_chain",
    "Verif.Gradients.C26_crash_foreign_href"
   ],
   "note": "Proved for every attribute of every acyclic set of gradients, except fx/fy when a linear gradient refers to a radial one, where it is false (proved)."
  },
  {
   "property": "C27",
   "status": "proved",
   "theorems": [
    "Verif.Gradients.C27_order",
    "Verif.Gradients.C27_ends_iff",
    "Verif.Gradients.C27_rounds",
    "Verif.Gradients.C27_circle_hangs"
   ],
   "note": "Also: on cyclic references the loop never ends."
  },
  {
   "property": "C28",
   "status": "partial",
   "theorems": [
    "Verif.Stops.C28_C52_fixed",
    "Verif.Stops.C28_C52_shape",
    "Verif.Stops.C28_offsets_valid",
    "Verif.Stops.C28_valid_left_alone",
    "Verif.Stops.C28_idempotent",
    "Verif.Stops.C28_crashes_iff",
    "Verif.Stops.C28_no_crash_partial",
    "Verif.Stops.C28_refuted_unit_crash"
   ],
   "note": "Normalisation proved in full when the pass does not crash; it crashes on offsets with units such as mm (proved)."
  },
  {
   "property": "C29",
   "status": "partial",
   "theorems": [
    "Verif.Stops.C29_ramp_partial",
    "Verif.Stops.C29_refuted_desc",
    "Verif.Stops.C29_refuted_currentColor"
   ],
   "note": "Proved if the children of gradients are stops with plain colours; false with other children or currentColor (proved)."
  },
  {
   "property": "C30",
   "status": "partial",
   "theorems": [
    "Verif.ApplyTs.C30_paint_partial",
    "Verif.ApplyTs.C30_document_partial",
    "Verif.ApplyTs.C30_again",
    "Verif.ApplyTs.C30_no_crash",
    "Verif.ApplyTs.C30_refuted_inherited_radius"
   ],
   "note": "Proved, alone and after C26's passes, if a radial gradient with a scaling transform has its radius in the element itself; false if the radius is inherited (proved)."
  },
  {
   "property": "C31",
   "status": "partial",
   "theorems": [
    "Verif.ApplyTs.C31_shapes",
    "Verif.ApplyTs.C31_points",
    "Verif.ApplyTs.C31_no_crash",
    "Verif.ApplyTs.C31_groups",
    "Verif.ApplyTs.C31_refuted_copies",
    "Verif.ApplyTs.C31_refuted_groups_copies"
   ],
   "note": "Figure, stroke and total transforms proved in full for elements where they stand; copies made by use elements change (proved)."
  },
  {
   "property": "C32",
   "status": "partial",
   "theorems": [
    "Verif.Dupl.C32_linear_partial",
    "Verif.Dupl.C32_radial_partial",
    "Verif.Dupl.C32_blur_partial",
    "Verif.Dupl.C32_refuted",
    "Verif.Dupl.C32_refuted_referrer",
    "Verif.Dupl.C32_refuted_stops",
    "Verif.Dupl.C32_refuted_focus",
    "Verif.Dupl.C32_refuted_current",
    "Verif.Dupl.C32_refuted_ids",
    "Verif.Dupl.C32_refuted_crash",
    "Verif.Dupl.C32_refuted_region",
    "Verif.Dupl.C32_refuted_space"
   ],
   "note": "Proved, with no crash, for gradients with ids of their own that have either stops or a reference, no currentColor, and a focal point if they have a reference and a centre; and for filters whose blurs have no region of their own. The conditions are needed: eight documents that lose paints or crash (proved)."
  },
  {
   "property": "C33",
   "status": "partial",
   "theorems": [
    "Verif.Merge.C33_merged_partial",
    "Verif.Merge.C33_all",
    "Verif.Merge.C33_refuted",
    "Verif.Merge.C33_refuted_mixed",
    "Verif.Merge.C33_refuted_desc",
    "Verif.Merge.C33_refuted_shape",
    "Verif.Merge.C33_refuted_current",
    "Verif.Merge.C33_refuted_cycle"
   ],
   "note": "Proved, with the end of the loop, if gradients refer to gradients without cycles, contain nothing but stops without currentColor, and no radial gradient takes its centre through a linear one; each condition is needed (proved)."
  },
  {
   "property": "C34",
   "status": "partial",
   "theorems": [
    "Verif.Inherit.C34_resolved_partial",
    "Verif.Inherit.C34_nothing_left",
    "Verif.Inherit.C34_fails_iff",
    "Verif.Inherit.C34_refuted_color",
    "Verif.Inherit.C34_refuted_noninherited",
    "Verif.Inherit.C34_crashes"
   ],
   "note": "Proved for inherited properties other than a color of currentColor; false for that colour and for properties that are not inherited; a reference to the element itself crashes (all proved)."
  },
  {
   "property": "C35",
   "status": "partial",
   "theorems": [
    "Verif.GroupDefs.C35_collected",
    "Verif.GroupDefs.C35_one_defs",
    "Verif.GroupDefs.C35_drawn",
    "Verif.GroupDefs.C35_wellformed",
    "Verif.GroupDefs.C35_no_crash",
    "Verif.GroupDefs.C35_look_partial",
    "Verif.GroupDefs.C35_refuted_first",
    "Verif.GroupDefs.C35_refuted_symbol",
    "Verif.GroupDefs.C35_refuted_defs",
    "Verif.GroupDefs.C35_refuted_crash"
   ],
   "note": "The structural claims are proved for every document: one defs element, the first child of the root, with all definitions as direct children; nothing is lost or doubled; everything else is where it was, with the same attributes. The claim about styles is false in three ways, and the pass can crash (all proved); the picture is the same for every document whose definitions inherit just what the root element gives, with defs elements that have no inherited properties (C35_look_partial)."
  },
  {
   "property": "C36",
   "status": "partial",
   "theorems": [
    "Verif.Ungroup.C36_look_partial",
    "Verif.Ungroup.C36_terminates",
    "Verif.Ungroup.C36_done",
    "Verif.Ungroup.C36_refuted_display",
    "Verif.Ungroup.C36_refuted_nested_svg",
    "Verif.Ungroup.C36_refuted_used_child",
    "Verif.Ungroup.C36_refuted_own",
    "Verif.Ungroup.C36_refuted_conditions",
    "Verif.Ungroup.C36_refuted_switch",
    "Verif.Ungroup.C36_refuted_switch_child"
   ],
   "note": "Termination for every document. The whole picture, for every way to draw, is proved unchanged if groups carry only attributes that apply to groups, display only hides, content of groups with transforms takes them and is not referred to, and conditional attributes are not nested; each condition is needed (proved)."
  },
  {
   "property": "C37",
   "status": "partial",
   "theorems": [
    "Verif.GroupStyle.C37_look_partial",
    "Verif.GroupStyle.C37_no_panic",
    "Verif.GroupStyle.C37_refuted_root_transform",
    "Verif.GroupStyle.C37_refuted_nested_transform",
    "Verif.GroupStyle.C37_refuted_meaningless_transform",
    "Verif.GroupStyle.C37_refuted_inherit"
   ],
   "note": "Always ends (structural); no panic if nothing refers to the root. The whole picture, for every way to draw, is proved unchanged if transforms are only used where they mean something, inherit has been resolved and every svg element has a child without transform (as in the pipeline); each condition is needed (proved)."
  },
  {
   "property": "C38",
   "status": "partial",
   "theorems": [
    "Verif.Invisible.C38_whole_partial",
    "Verif.Invisible.C38_display_partial",
    "Verif.Invisible.C38_paths_partial",
    "Verif.Invisible.C38_clips_partial",
    "Verif.Invisible.C38_filters_partial",
    "Verif.Invisible.C38_matrix_partial",
    "Verif.Invisible.C38_uses_partial",
    "Verif.Invisible.C38_gradients_partial",
    "Verif.Invisible.C38_rects_partial",
    "Verif.Invisible.C38_tidy",
    "Verif.Invisible.C38_refuted_switch",
    "Verif.Invisible.C38_refuted_used",
    "Verif.Invisible.C38_refuted_clip",
    "Verif.Invisible.C38_refuted_kids",
    "Verif.Invisible.C38_refuted_href",
    "Verif.Invisible.C38_refuted_matrix",
    "Verif.Invisible.C38_refuted_opacity",
    "Verif.Invisible.C38_refuted_panic",
    "Verif.Invisible.C38_refuted_current",
    "Verif.Draft.C38_drawing_partial"
   ],
   "note": "Each step, and the pass as a whole, is proved to keep the picture, for every way to draw, under explicit conditions; the claim without conditions is false, in the ways the refutations show. C38_drawing_partial proves the whole pass keeps the picture of every simple drawing (see C66), with conditions on the document only."
  },
  {
   "property": "C39",
   "status": "partial",
   "theorems": [
    "Verif.ResolveUse.C39_look_partial",
    "Verif.ResolveUse.C39_refuted_fill",
    "Verif.ResolveUse.C39_refuted_transform",
    "Verif.ResolveUse.C39_refuted_opacity",
    "Verif.ResolveUse.C39_refuted_width",
    "Verif.ResolveUse.C39_refuted_units",
    "Verif.ResolveUse.C39_refuted_svg",
    "Verif.ResolveUse.C39_refuted_switch"
   ],
   "note": "The whole picture, for every way to draw, is proved unchanged if the two elements have no attributes in common, x and y have no units, references are acyclic and the content moved is not referred to itself; each of the main conditions is needed (proved)."
  },
  {
   "property": "C40",
   "status": "partial",
   "theorems": [
    "Verif.Regroup.C40_regrouped_partial",
    "Verif.Regroup.C40_refuted",
    "Verif.Regroup.C40_refuted_current",
    "Verif.Regroup.C40_refuted_desc"
   ],
   "note": "Proved, with the end of the loop and the freshness of the new ids, if gradients refer to gradients without cycles and contain nothing but stops without currentColor; the last conditions are needed (proved)."
  },
  {
   "property": "C41",
   "status": "proved",
   "theorems": [
    "Verif.GenId.C41_fresh"
   ],
   "note": ""
  },
  {
   "property": "C42",
   "status": "partial",
   "theorems": [
    "Verif.DefaultAttrs.C42_own_partial",
    "Verif.DefaultAttrs.C42_inherited",
    "Verif.DefaultAttrs.C42_no_crash",
    "Verif.DefaultAttrs.C42_refuted_primitive",
    "Verif.DefaultAttrs.C42_refuted_slope",
    "Verif.DefaultAttrs.C42_refuted_pattern",
    "Verif.DefaultAttrs.C42_refuted_copies"
   ],
   "note": "Inherited properties in full; own attributes except on filter primitives, font slope, patterns and filters with xlink:href, where it is false, as it is for copies made by use (all proved)."
  },
  {
   "property": "C43",
   "status": "partial",
   "theorems": [
    "Verif.TextAttrs.C43_text_partial",
    "Verif.TextAttrs.C43_use_keeps",
    "Verif.TextAttrs.C43_no_crash",
    "Verif.TextAttrs.C43_refuted_use",
    "Verif.TextAttrs.C43_refuted_em",
    "Verif.TextAttrs.C43_refuted_foreign",
    "Verif.TextAttrs.C43_refuted_newline"
   ],
   "note": "Proved for character data, tref elements and font-relative lengths on elements without children, all inside SVG elements; false for text shown through use, font-relative lengths on elements with children, text outside SVG and newlines under xml:space (all proved)."
  },
  {
   "property": "C44",
   "status": "partial",
   "theorems": [
    "Verif.Needless.C44_needless_partial",
    "Verif.Needless.C44_refuted_use",
    "Verif.Needless.C44_refuted_copies",
    "Verif.Needless.C44_refuted_markers",
    "Verif.Needless.C44_refuted_inherited_markers",
    "Verif.Needless.C44_refuted_foreign"
   ],
   "note": "Proved for every element where it stands; false for use elements and their copies, for markers and for content outside SVG (all proved)."
  },
  {
   "property": "C45",
   "status": "proved",
   "theorems": [
    "Verif.GradUnits.C45_values_kept",
    "Verif.GradUnits.C45_ends",
    "Verif.GradUnits.C45_refuted_hang"
   ],
   "note": "For documents as the earlier passes leave them (Ready: acyclic references between gradients, nothing but xlink:href refers from gradient to gradient, resolved units). Outside that the pass can loop for ever (C45_refuted_hang)."
  },
  {
   "property": "C46",
   "status": "partial",
   "theorems": [
    "Verif.Simple.C46_rect_partial",
    "Verif.Simple.C46_gradient_partial",
    "Verif.Simple.C46_hides_only",
    "Verif.Simple.C46_document",
    "Verif.Simple.C46_refuted_percent",
    "Verif.Simple.C46_refuted_mixed_chain"
   ],
   "note": "False for percentage radii and for chains radial-linear-radial (both proved)."
  },
  {
   "property": "C47",
   "status": "partial",
   "theorems": [
    "Verif.Simple.C47_declared_partial",
    "Verif.Simple.C47_refuted_other_xlink"
   ],
   "note": "Proved for xlink:href; other xlink attributes are not looked at and the declaration is dropped (proved)."
  },
  {
   "property": "C48",
   "status": "partial",
   "theorems": [
    "Verif.Simple.C48_ungroup_draws_the_same",
    "Verif.Simple.C48_empty_defs",
    "Verif.Simple.C48_style_kept_partial",
    "Verif.Simple.C48_refuted_style_on_defs"
   ],
   "note": "Nothing starts being drawn and no element is lost (proved in full); presentation attributes on the removed defs are lost (proved)."
  },
  {
   "property": "C49",
   "status": "partial",
   "theorems": [
    "Verif.Simple.C49_join_is_lossless_partial",
    "Verif.Simple.C49_document",
    "Verif.Simple.C49_refuted_semicolon",
    "Verif.Simple.C49_all_adds_empty_style"
   ],
   "note": "False for values containing a semicolon (proved)."
  },
  {
   "property": "C50",
   "status": "proved",
   "theorems": [
    "Verif.Simple.C50_only_root_version",
    "Verif.Simple.C50_panics_iff"
   ],
   "note": ""
  },
  {
   "property": "C51",
   "status": "proved",
   "theorems": [
    "Verif.Simple.C51_totals_unchanged",
    "Verif.Simple.C51_drops_exactly_identity"
   ],
   "note": ""
  },
  {
   "property": "C52",
   "status": "proved",
   "theorems": [
    "Verif.Stops.C28_C52_fixed",
    "Verif.Stops.C28_C52_shape"
   ],
   "note": ""
  },
  {
   "property": "C53",
   "status": "partial",
   "theorems": [
    "Verif.Crash.C53_neat_partial",
    "Verif.Pipeline.C53_all_off_partial",
    "Verif.Pipeline.C53_refuted",
    "Verif.Pipeline.C53_refuted_pattern",
    "Verif.Pipeline.C53_refuted_inherit",
    "Verif.Pipeline.C53_refuted_unit",
    "Verif.Pipeline.C53_refuted_ring",
    "Verif.Pipeline.C53_refuted_equal",
    "Verif.Pipeline.C53_refuted_merge",
    "Verif.Pipeline.C53_refuted_template",
    "Verif.Crash.C53_refuted_hidden_root",
    "Verif.Crash.C53_refuted_clipped_root",
    "Verif.Crash.C53_refuted_hidden_defs",
    "Verif.Crash.C53_refuted_comment",
    "Verif.Crash.C53_refuted_foreign",
    "Verif.Crash.C53_refuted_points",
    "Verif.Crash.C53_refuted_filter"
   ],
   "note": "False: fifteen documents on which the whole run crashes or hangs, four of them without any option (proved). Proved (C53_neat_partial): for every combination of options and precisions 1 to 12, the run ends with success, with an error of the checks before cleaning, or because a stop that is not the first one has no offset, on every document (with or without gradients, of any size) that has none of the features listed in Verif.Spec.Neat; these features are, for the most part, those of the refuting documents. C53_all_off_partial: with all options off, weaker conditions on the document. Not proved: that each condition of Neat is necessary."
  },
  {
   "property": "C54",
   "status": "proved",
   "theorems": [
    "Verif.Pipeline.C54_independent",
    "Verif.Pipeline.C54_dependent",
    "Verif.Pipeline.C54_all_off"
   ],
   "note": ""
  },
  {
   "property": "C55",
   "status": "partial",
   "theorems": [
    "Verif.Pipeline.C55_content",
    "Verif.Pipeline.C55_refuted",
    "Verif.Pipeline.C55_refuted_ungroup",
    "Verif.Pipeline.C55_refuted_defs"
   ],
   "note": "Proved for every document and option set: no such node is new or has other content or another name. False: attributes of foreign elements change (ungrouping), and comments are removed on their own from defs."
  },
  {
   "property": "C56",
   "status": "partial",
   "theorems": [
    "Verif.Driver.C56_errors_are_reported_partial",
    "Verif.Driver.C56_refuted_exit_status"
   ],
   "note": "Exit status is 0 on errors (proved)."
  },
  {
   "property": "C57",
   "status": "proved",
   "theorems": [
    "Verif.Stops.C57_resolved",
    "Verif.Stops.C57_fails_iff",
    "Verif.Stops.C57_rejects_desc"
   ],
   "note": "C57_rejects_desc: children that are not stops count as stops."
  },
  {
   "property": "C58",
   "status": "proved",
   "theorems": [
    "Verif.Round.C58_document"
   ],
   "note": ""
  },
  {
   "property": "C59",
   "status": "proved",
   "theorems": [
    "Verif.Pipeline.C59_removed"
   ],
   "note": ""
  },
  {
   "property": "C60",
   "status": "proved",
   "theorems": [
    "Verif.Pipeline.C60_version",
    "Verif.Pipeline.C60_transform",
    "Verif.Pipeline.C60_style",
    "Verif.Pipeline.C60_xlink"
   ],
   "note": ""
  },
  {
   "property": "C61",
   "status": "proved",
   "theorems": [
    "Verif.Pipeline.C61_removeUnusedDefs",
    "Verif.Pipeline.C61_convertShapes",
    "Verif.Pipeline.C61_removeTitle",
    "Verif.Pipeline.C61_removeDesc",
    "Verif.Pipeline.C61_removeMetadata",
    "Verif.Pipeline.C61_removeDuplLinearGradients",
    "Verif.Pipeline.C61_removeDuplRadialGradients",
    "Verif.Pipeline.C61_removeDuplFeGaussianBlur",
    "Verif.Pipeline.C61_ungroupGroups",
    "Verif.Pipeline.C61_ungroupDefs",
    "Verif.Pipeline.C61_groupByStyle",
    "Verif.Pipeline.C61_mergeGradients",
    "Verif.Pipeline.C61_regroupGradientStops",
    "Verif.Pipeline.C61_removeInvalidStops",
    "Verif.Pipeline.C61_removeInvisibleElements",
    "Verif.Pipeline.C61_resolveUse",
    "Verif.Pipeline.C61_removeVersion",
    "Verif.Pipeline.C61_removeUnreferencedIds",
    "Verif.Pipeline.C61_trimIds",
    "Verif.Pipeline.C61_removeTextAttributes",
    "Verif.Pipeline.C61_removeUnusedCoordinates",
    "Verif.Pipeline.C61_removeDefaultAttributes",
    "Verif.Pipeline.C61_removeXmlnsXlinkAttribute",
    "Verif.Pipeline.C61_removeNeedlessAttributes",
    "Verif.Pipeline.C61_removeGradientAttributes",
    "Verif.Pipeline.C61_applyTransformToGradients",
    "Verif.Pipeline.C61_applyTransformToShapes",
    "Verif.Pipeline.C61_pathsToRelative",
    "Verif.Pipeline.C61_removeUnusedSegments",
    "Verif.Pipeline.C61_convertSegments",
    "Verif.Pipeline.C61_applyTransformToPaths",
    "Verif.Pipeline.C61_joinStyleAttributes",
    "Verif.Pipeline.C61_coordinatesPrecision",
    "Verif.Pipeline.C61_propertiesPrecision",
    "Verif.Pipeline.C61_pathsCoordinatesPrecision",
    "Verif.Pipeline.C61_transformsPrecision"
   ],
   "note": "One theorem for each option; append-newline is not an option of the run but of the writer."
  },
  {
   "property": "C62",
   "status": "partial",
   "theorems": [
    "Verif.Pipeline.C62_look_partial",
    "Verif.Pipeline.C62_refuted_ungroup_defs"
   ],
   "note": "Proved for every combination and every way to draw, if descriptive elements and defs elements are not referred to, stand where they may stand, and defs elements have no attributes that are inherited. The last condition is needed: ungroup-defs drops the style of a defs element (proved)."
  },
  {
   "property": "C63",
   "status": "proved",
   "theorems": [
    "Verif.Program.C63_success",
    "Verif.Program.C63_panic",
    "Verif.Program.C63_only_output",
    "Verif.Program.C63_document"
   ],
   "note": "Parser and serialiser are arbitrary functions that do not panic; a task that never ends counts as a panic (the file claim is the same)."
  },
  {
   "property": "C64",
   "status": "proved",
   "theorems": [
    "Verif.Cli.C64_values",
    "Verif.Cli.C64_refused"
   ],
   "note": "The documented words and values are literal tables in the statement. clap's check of possible_values is modelled (trusted)."
  },
  {
   "property": "C65",
   "status": "proved",
   "theorems": [
    "Verif.Program.C65_success_message",
    "Verif.Program.C65_quiet",
    "Verif.Program.C65_copy_on_error"
   ],
   "note": "Message texts and the ratio's number are not modelled; parser and serialiser are arbitrary functions that do not panic."
  },
  {
   "property": "C66",
   "status": "partial",
   "theorems": [
    "Verif.Draft.C66_look_partial",
    "Verif.Draft.C66_refuted"
   ],
   "note": "Proved for every combination and every way to draw, for drawings: groups, shapes, images and text, painted with colours and with gradients that stand in defs; no other references, no conditional processing. The conditions are on the prepared document alone (Sketch.lean). False in general (proved; also by the refutations of C25, C36, C37 and C38)."
  },
  {
   "property": "C67",
   "status": "partial",
   "theorems": [
    "Verif.Idem.C67_settled_partial",
    "Verif.Idem.C67_unused_defs",
    "Verif.Idem.C67_refuted",
    "Verif.Idem.C67_refuted_empty_defs",
    "Verif.Idem.C67_refuted_ungroup_defs",
    "Verif.Idem.C67_refuted_text",
    "Verif.Idem.C67_refuted_needless",
    "Verif.Idem.C67_refuted_duplicates",
    "Verif.Idem.C67_refuted_group",
    "Verif.Idem.C67_apply_gradients",
    "Verif.Idem.C67_inherit",
    "Verif.Idem.C67_invalid_stops",
    "Verif.Idem.C67_linear",
    "Verif.Idem.C67_radial",
    "Verif.Idem.C67_group_defs",
    "Verif.Idem.C67_regroup",
    "Verif.Idem.C67_units",
    "Verif.Idem.C67_refuted_moved",
    "Verif.Idem.C67_refuted_inherit",
    "Verif.Idem.C67_refuted_invalid_stops",
    "Verif.Idem.C67_refuted_use",
    "Verif.Idem.C67_refuted_invisible",
    "Verif.Idem.C67_refuted_ungroup",
    "Verif.Idem.C67_refuted_paths",
    "Verif.Idem.C67_refuted_radial_duplicates",
    "Verif.Idem.C67_refuted_blurs",
    "Verif.Idem.C67_refuted_join"
   ],
   "note": "Proved for every document for the checks, stops, repairs, rounding, title/desc/metadata, merging of gradients, transforms of shapes, shapes to paths, default attributes, unused coordinates, ids (both tasks), version, xmlns, default transforms, the joining of styles (modes other than all), and unused definitions; under stated conditions on references and colours also for inherit, the attributes of linear and radial gradients, invalid stops, the transforms and units of gradients, the regrouping of stops and (where references lead to nodes) the collecting of definitions. False (proved) for empty defs, ungroup-defs, ungroup-groups, paths, use, invisible elements, text attributes, needless attributes, duplicate gradients of both kinds, duplicate blurs, group-by-style, join-style all, and without these conditions for inherit, invalid stops and gradient transforms."
  },
  {
   "property": "C68",
   "status": "partial",
   "theorems": [
    "Verif.Plot.C68_shapes_partial",
    "Verif.Plot.C68_paths_partial",
    "Verif.Plot.C68_refuted_markers",
    "Verif.Plot.C68_refuted_dot",
    "Verif.Plot.C68_refuted_inherited_marker"
   ],
   "note": "Proved for every document and every such renderer: shapes, if no rectangle (and no use) has markers; paths, as far as C16-C18 hold for them, and where unused segments are removed for paths without stroke and markers or with markers of their own. False (proved): marked rectangles, dots, paths that inherit their markers."
  },
  {
   "property": "C69",
   "status": "partial",
   "theorems": [
    "Verif.Zoom.C69_shapes_partial",
    "Verif.Zoom.C69_paths_partial",
    "Verif.Zoom.C69_refuted_use",
    "Verif.Zoom.C69_refuted_used_path"
   ],
   "note": "Proved for every document and every such renderer, if shapes and paths with transforms have no children and no markers, inherit has been resolved, and use elements that show such shapes give them the stroke lengths they have where they stand (and no paint server). False (proved): a use element with a stroke width of its own."
  },
  {
   "property": "C70",
   "status": "partial",
   "theorems": [
    "Verif.Reader.C70_defaults_partial",
    "Verif.Reader.C70_needless_partial",
    "Verif.Reader.C70_coords_partial",
    "Verif.Reader.C70_text_partial",
    "Verif.Reader.C70_refuted_copies",
    "Verif.Reader.C70_refuted_stroke"
   ],
   "note": "Proved for every document without use elements and elements outside SVG, with inherit and currentColor resolved; needless attributes: without clip paths and markers; coordinates: radii that are no percentages, no focal points; text attributes: in documents without text. False (proved): copies that use elements make."
  },
  {
   "property": "C71",
   "status": "partial",
   "theorems": [
    "Verif.Whole.C71_drawing_partial",
    "Verif.Whole.C71_input_partial",
    "Verif.Whole.C71_memory_partial",
    "Verif.Whole.C71_refuted_copiesVerif.Program.C71_program_partial",
    "Verif.Program.C71_multipass_partial"
   ],
   "note": "Proved for drawings (groups, shapes, images, text, gradients) with all options; no gradients if an option that changes gradients is on (and they must have all their attributes, since the preparation adds missing ones as hidden attributes), no strokes if segments of paths are removed, no text if text attributes are removed. C71_input_partial: from the document that is read, with conditions on it alone (no definitions, numbers given to the precision of the options). C71_program_partial: from the command line to the file that is written, in one pass; C71_multipass_partial: in any number of passes, if what is written is read as it is on paper. False (proved): copies that use elements make."
  },
  {
   "property": "C72",
   "status": "partial",
   "theorems": [
    "Verif.Shade.C72_units_partial",
    "Verif.Shade.C72_transforms_partial",
    "Verif.Shade.C72_linear_partial",
    "Verif.Shade.C72_radial_partial",
    "Verif.Shade.C72_merged_partial",
    "Verif.Shade.C72_regrouped_partial",
    "Verif.Shade.C72_regroup_units_partial",
    "Verif.Shade.C72_refuted_inherited_radius",
    "Verif.Shade.artist_shades"
   ],
   "note": "Proved for documents in which references are made by fill, stroke and xlink:href of gradients only (the other conditions are those of C53, C30, C32, C33 and C40: attributes resolved, radii written where they are scaled). False (proved): a scaled radius that is inherited. Filters are not treated here."
  },
  {
   "property": "C73",
   "status": "partial",
   "theorems": [
    "Verif.Shade.C73_all_passes_partial",
    "Verif.Shade.C73_passes_partial",
    "Verif.Shade.C73_refuted_no_stops"
   ],
   "note": "From the file that is read to the file that is written, through resolving, transforms (twice), removing duplicate linear and radial gradients, merging, regrouping, and removing common gradientUnits, each as the options say, with conditions on the file that is read alone (Fresh; radii are written where transforms are applied that scale; gradientUnits have one of the two values of the standard). What happens between these passes and afterwards is not included. False (proved) in general: a gradient that takes its stops from another one is taken for an empty one."
  }
 ]
}