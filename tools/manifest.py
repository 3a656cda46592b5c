# generates MANIFEST.json
import json
C={}
def c(p,status,theorems,note=""):
    C[p]={"property":p,"status":status,"theorems":theorems.split(),"note":note}
D="Verif.Driver."
def n(ns,l): return " ".join(ns+x for x in l.split())
c("C01","proved",n("Verif.Driver.","C01_output_not_bigger"))
c("C02","partial",n("Verif.Driver.","C02_failure_is_harmless_partial C02_only_output_touched C02_load_failure_no_effect C02_refuted_alias C02_refuted_copy_fails"),"The full claim is false (two counterexamples proved); proved when output and input are different files and the copy succeeds.")
c("C03","proved",n("Verif.Driver.","C03_success_writes_last_pass C03_good_result_is_written C03_effects_depend_only_on_final_buffer"))
c("C04","partial",n("Verif.Driver.","C04_multipass_stops_at_first_stable C04_single_pass C04_multipass_terminates C04_multipass_may_diverge"),"Stops at the first stable pass; terminates if passes never grow forever; divergence possible for a cleaner that keeps changing its output (proved).")
c("C05","partial",n("Verif.Cli.","C05_streams_partial C05_refuted_dash"),"A file named '-' breaks the claim (proved).")
c("C06","proved",n("Verif.Cli.","C06_flag_resolution"))
c("C07","partial",n("Verif.Cli.","C07_no_defaults_partial C07_refuted_unresolved_classes"),"remove_unresolved_classes stays on under --no-defaults (proved).")
c("C08","partial",n("Verif.Cli.","C08_dependencies_partial C08_refuted_no_defaults"),"With --no-defaults the dependency checks can be bypassed (proved).")
c("C09","proved",n("Verif.Cli.","C09_accepted_args_give_options C09_bad_precision_rejected C09_bad_flag_rejected"))
c("C10","proved",n("Verif.Round.","C10_round_nearest C10_range_needed"))
c("C11","proved",n("Verif.Round.","C11_idempotent_monotone_odd"))
c("C12","partial",n("Verif.Round.","C12_absolute_paths C12_error_per_command_partial C12_refuted_drift C12_full_refuted"),"False for relative paths (unbounded drift proved); proved for absolute paths and, for all paths, a bound linear in the number of commands.")
c("C13","proved",n("Verif.TrimIds.","C13_ids_unique C13_lengths_nondecreasing"))
c("C14","partial",n("Verif.TrimIds.","C14_ids_valid_partial C14_refuted_starts_with_digit C14_refuted_panic"),"The first character can be a digit and the numeral overflows (both proved).")
c("C16","proved",n("Verif.Paths.","C16_rewriting_keeps_trace"))
c("C17","partial",n("Verif.Paths.","C17_conversion_draws_alike_partial C17_refuted_overshoot C17_refuted_point_before_start C17_refuted_smooth_after_straight C17_full_refuted"),"False in general (three counterexamples proved); proved if straight cubics keep their control points between their end points or plainly overshoot them (then they are kept), and no S follows them.")
c("C18","partial",n("Verif.Paths.","C18_removal_keeps_outline_partial C18_all_options_partial C18_refuted_equal_curves C18_refuted_smooth_after_zero_line C18_refuted_options_interact C18_full_refuted C18_closes_open_subpaths")+" Verif.ApplyTs.C18_refuted_inherited_marker","False in general (counterexamples proved); proved without self-returning Bezier curves and without zero-length lines before smooth curves.")
c("C19","proved",n("Verif.Paths.","C19_transform_moves_outline C19_transform_exact")+" Verif.ApplyTs.C19_paths Verif.ApplyTs.C19_paths_no_crash","C19_paths is the statement for documents, with strokes. Arcs: image under a uniform scale.")
c("C20","proved",n("Verif.Paths.","C20_never_panics C20_hypothesis_needed"))
c("C56","partial",n("Verif.Driver.","C56_errors_are_reported_partial C56_refuted_exit_status"),"Exit status is 0 on errors (proved).")
exec(open('/verif/tools/manifest_more.py').read()) if __import__('os').path.exists('/verif/tools/manifest_more.py') else None
json.dump({"claims":[C[k] for k in sorted(C)]},open('/verif/MANIFEST.json','w'),indent=1)
