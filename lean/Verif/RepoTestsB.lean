import Verif.RepoTest
/-
Generated by tools/repotests.py: the unit tests of the files under `src/task` named below, run on the model.
Each example is one test of the repository: the document (or path) it starts from and the one it expects.
-/
set_option maxRecDepth 20000
set_option maxHeartbeats 1000000
namespace Verif.RepoTest
open Verif.Dom Verif.Pipeline

-- group_defs.rs:303 move_attrs_2
example : gives false [may GroupDefs.groupDefs] (.cons ⟨0, .elem .svg, "", []⟩ (.cons ⟨1, .elem .linearGradient, "lg1", []⟩ .nil (.cons ⟨2, .elem .g, "", [⟨.id .fill, .funcLink 1, true⟩]⟩ (.cons ⟨3, .elem .marker, "", []⟩ (.cons ⟨4, .elem .path, "", []⟩ .nil .nil) .nil) .nil)) .nil) (.cons ⟨0, .elem .svg, "", []⟩ (.cons ⟨1, .elem .defs, "", []⟩ (.cons ⟨2, .elem .linearGradient, "lg1", []⟩ .nil (.cons ⟨3, .elem .marker, "", []⟩ (.cons ⟨4, .elem .path, "", [⟨.id .fill, .funcLink 2, true⟩]⟩ .nil .nil) .nil)) (.cons ⟨5, .elem .g, "", [⟨.id .fill, .funcLink 2, true⟩]⟩ .nil .nil)) .nil) = true := by decide +kernel

-- group_defs.rs:323 move_attrs_3
example : gives false [may GroupDefs.groupDefs] (.cons ⟨0, .elem .svg, "", []⟩ (.cons ⟨1, .elem .g, "", [⟨.id .fill, .kw .none, true⟩]⟩ (.cons ⟨2, .elem .mask, "", [⟨.id .fill, .color 255 0 0, true⟩]⟩ (.cons ⟨3, .elem .path, "", []⟩ .nil .nil) .nil) .nil) .nil) (.cons ⟨0, .elem .svg, "", []⟩ (.cons ⟨1, .elem .defs, "", []⟩ (.cons ⟨2, .elem .mask, "", [⟨.id .fill, .color 255 0 0, true⟩]⟩ (.cons ⟨3, .elem .path, "", [⟨.id .fill, .color 255 0 0, true⟩]⟩ .nil .nil) .nil) (.cons ⟨4, .elem .g, "", [⟨.id .fill, .kw .none, true⟩]⟩ .nil .nil)) .nil) = true := by decide +kernel

-- merge_gradients.rs:151 merge_1
example : gives false [may Gradients.resolveLinear, may Gradients.resolveRadial, Stops.resolveStops, may Merge.mergeGradients] (.cons ⟨0, .elem .svg, "", []⟩ (.cons ⟨1, .elem .linearGradient, "lg1", []⟩ .nil (.cons ⟨2, .elem .linearGradient, "", [⟨.id .xlinkHref, .link 1, true⟩]⟩ .nil .nil)) .nil) (.cons ⟨0, .elem .svg, "", []⟩ (.cons ⟨1, .elem .linearGradient, "", []⟩ .nil .nil) .nil) = true := by decide +kernel

-- merge_gradients.rs:163 merge_2
example : gives false [may Gradients.resolveLinear, may Gradients.resolveRadial, Stops.resolveStops, may Merge.mergeGradients] (.cons ⟨0, .elem .svg, "", []⟩ (.cons ⟨1, .elem .linearGradient, "lg1", []⟩ (.cons ⟨2, .elem .stop, "s1", [⟨.id .offset, .length ⟨0, .none⟩, true⟩]⟩ .nil (.cons ⟨3, .elem .stop, "s2", [⟨.id .offset, .length ⟨1, .none⟩, true⟩]⟩ .nil .nil)) (.cons ⟨4, .elem .linearGradient, "", [⟨.id .xlinkHref, .link 1, true⟩]⟩ .nil .nil)) .nil) (.cons ⟨0, .elem .svg, "", []⟩ (.cons ⟨1, .elem .linearGradient, "", []⟩ (.cons ⟨2, .elem .stop, "s1", [⟨.id .offset, .length ⟨0, .none⟩, true⟩]⟩ .nil (.cons ⟨3, .elem .stop, "s2", [⟨.id .offset, .length ⟨1, .none⟩, true⟩]⟩ .nil .nil)) .nil) .nil) = true := by decide +kernel

-- merge_gradients.rs:180 merge_3
example : gives false [may Gradients.resolveLinear, may Gradients.resolveRadial, Stops.resolveStops, may Merge.mergeGradients] (.cons ⟨0, .elem .svg, "", []⟩ (.cons ⟨1, .elem .linearGradient, "lg1", [⟨.id .x1, .length ⟨5, .none⟩, true⟩, ⟨.id .x2, .length ⟨5, .none⟩, true⟩]⟩ (.cons ⟨2, .elem .stop, "", [⟨.id .offset, .length ⟨0, .none⟩, true⟩]⟩ .nil (.cons ⟨3, .elem .stop, "", [⟨.id .offset, .length ⟨1, .none⟩, true⟩]⟩ .nil .nil)) (.cons ⟨4, .elem .linearGradient, "", [⟨.id .x1, .length ⟨10, .none⟩, true⟩, ⟨.id .xlinkHref, .link 1, true⟩]⟩ .nil .nil)) .nil) (.cons ⟨0, .elem .svg, "", []⟩ (.cons ⟨1, .elem .linearGradient, "", [⟨.id .x1, .length ⟨10, .none⟩, true⟩, ⟨.id .x2, .length ⟨5, .none⟩, true⟩]⟩ (.cons ⟨2, .elem .stop, "", [⟨.id .offset, .length ⟨0, .none⟩, true⟩]⟩ .nil (.cons ⟨3, .elem .stop, "", [⟨.id .offset, .length ⟨1, .none⟩, true⟩]⟩ .nil .nil)) .nil) .nil) = true := by decide +kernel

-- merge_gradients.rs:197 merge_4
example : gives false [may Gradients.resolveLinear, may Gradients.resolveRadial, Stops.resolveStops, may Merge.mergeGradients] (.cons ⟨0, .elem .svg, "", []⟩ (.cons ⟨1, .elem .linearGradient, "lg1", [⟨.id .x1, .length ⟨5, .none⟩, true⟩, ⟨.id .x2, .length ⟨5, .none⟩, true⟩]⟩ (.cons ⟨2, .elem .stop, "", [⟨.id .offset, .length ⟨0, .none⟩, true⟩]⟩ .nil (.cons ⟨3, .elem .stop, "", [⟨.id .offset, .length ⟨1, .none⟩, true⟩]⟩ .nil .nil)) (.cons ⟨4, .elem .linearGradient, "lg2", [⟨.id .xlinkHref, .link 1, true⟩]⟩ .nil (.cons ⟨5, .elem .linearGradient, "", [⟨.id .x1, .length ⟨10, .none⟩, true⟩, ⟨.id .xlinkHref, .link 4, true⟩]⟩ .nil .nil))) .nil) (.cons ⟨0, .elem .svg, "", []⟩ (.cons ⟨1, .elem .linearGradient, "", [⟨.id .x1, .length ⟨10, .none⟩, true⟩, ⟨.id .x2, .length ⟨5, .none⟩, true⟩]⟩ (.cons ⟨2, .elem .stop, "", [⟨.id .offset, .length ⟨0, .none⟩, true⟩]⟩ .nil (.cons ⟨3, .elem .stop, "", [⟨.id .offset, .length ⟨1, .none⟩, true⟩]⟩ .nil .nil)) .nil) .nil) = true := by decide +kernel

-- merge_gradients.rs:215 merge_5
example : gives false [may Gradients.resolveLinear, may Gradients.resolveRadial, Stops.resolveStops, may Merge.mergeGradients] (.cons ⟨0, .elem .svg, "", []⟩ (.cons ⟨1, .elem .linearGradient, "", [⟨.id .x1, .length ⟨10, .none⟩, true⟩, ⟨.id .xlinkHref, .link 2, true⟩]⟩ .nil (.cons ⟨2, .elem .linearGradient, "lg2", [⟨.id .xlinkHref, .link 3, true⟩]⟩ .nil (.cons ⟨3, .elem .linearGradient, "lg1", [⟨.id .x1, .length ⟨5, .none⟩, true⟩, ⟨.id .x2, .length ⟨5, .none⟩, true⟩]⟩ (.cons ⟨4, .elem .stop, "", [⟨.id .offset, .length ⟨0, .none⟩, true⟩]⟩ .nil (.cons ⟨5, .elem .stop, "", [⟨.id .offset, .length ⟨1, .none⟩, true⟩]⟩ .nil .nil)) .nil))) .nil) (.cons ⟨0, .elem .svg, "", []⟩ (.cons ⟨1, .elem .linearGradient, "", [⟨.id .x1, .length ⟨10, .none⟩, true⟩, ⟨.id .x2, .length ⟨5, .none⟩, true⟩]⟩ (.cons ⟨2, .elem .stop, "", [⟨.id .offset, .length ⟨0, .none⟩, true⟩]⟩ .nil (.cons ⟨3, .elem .stop, "", [⟨.id .offset, .length ⟨1, .none⟩, true⟩]⟩ .nil .nil)) .nil) .nil) = true := by decide +kernel

-- merge_gradients.rs:233 merge_6
example : gives false [may Gradients.resolveLinear, may Gradients.resolveRadial, Stops.resolveStops, may Merge.mergeGradients] (.cons ⟨0, .elem .svg, "", []⟩ (.cons ⟨1, .elem .linearGradient, "lg1", [⟨.id .x1, .length ⟨5, .none⟩, true⟩, ⟨.id .x2, .length ⟨5, .none⟩, true⟩]⟩ .nil (.cons ⟨2, .elem .radialGradient, "", [⟨.id .xlinkHref, .link 1, true⟩]⟩ .nil .nil)) .nil) (.cons ⟨0, .elem .svg, "", []⟩ (.cons ⟨1, .elem .radialGradient, "", []⟩ .nil .nil) .nil) = true := by decide +kernel

-- merge_gradients.rs:244 merge_7
example : gives false [may Gradients.resolveLinear, may Gradients.resolveRadial, Stops.resolveStops, may Merge.mergeGradients] (.cons ⟨0, .elem .svg, "", []⟩ (.cons ⟨1, .elem .linearGradient, "lg1", []⟩ (.cons ⟨2, .elem .stop, "s1", [⟨.id .offset, .length ⟨0, .none⟩, true⟩]⟩ .nil (.cons ⟨3, .elem .stop, "s2", [⟨.id .offset, .length ⟨1, .none⟩, true⟩]⟩ .nil .nil)) (.cons ⟨4, .elem .linearGradient, "lg2", [⟨.id .xlinkHref, .link 1, true⟩]⟩ (.cons ⟨5, .elem .stop, "s3", [⟨.id .offset, .length ⟨0, .none⟩, true⟩]⟩ .nil (.cons ⟨6, .elem .stop, "s4", [⟨.id .offset, .length ⟨1, .none⟩, true⟩]⟩ .nil .nil)) .nil)) .nil) (.cons ⟨0, .elem .svg, "", []⟩ (.cons ⟨1, .elem .linearGradient, "lg2", []⟩ (.cons ⟨2, .elem .stop, "s3", [⟨.id .offset, .length ⟨0, .none⟩, true⟩]⟩ .nil (.cons ⟨3, .elem .stop, "s4", [⟨.id .offset, .length ⟨1, .none⟩, true⟩]⟩ .nil .nil)) .nil) .nil) = true := by decide +kernel

-- paths/apply_transform.rs:102 apply_1
example : Paths.applyTransform ⟨1, 0, 0, 1, 10, 20⟩ 1 (Paths.convToAbsolute Paths.pos0 [⟨true, .moveTo 10 20⟩, ⟨true, .lineTo 30 40⟩]) = [⟨true, .moveTo 20 40⟩, ⟨true, .lineTo 40 60⟩] := by decide +kernel

-- paths/conv_segments.rs:266 conv_cs_1
example : Paths.convertSegments (Paths.convToAbsolute Paths.pos0 [⟨true, .moveTo 10 20⟩, ⟨true, .curveTo 10 10 25 10 25 20⟩, ⟨true, .curveTo 25 30 40 30 40 20⟩]) = some [⟨true, .moveTo 10 20⟩, ⟨true, .curveTo 10 10 25 10 25 20⟩, ⟨true, .smooth 40 30 40 20⟩] := by decide +kernel

-- paths/conv_segments.rs:269 conv_cs_2
example : Paths.convertSegments (Paths.convToAbsolute Paths.pos0 [⟨true, .moveTo 10 10⟩, ⟨true, .curveTo 10 10 10 20 30 40⟩, ⟨true, .curveTo 20 35 40 50 60 70⟩, ⟨true, .curveTo 80 90 10 20 30 40⟩]) = some [⟨true, .moveTo 10 10⟩, ⟨true, .smooth 10 20 30 40⟩, ⟨true, .curveTo 20 35 40 50 60 70⟩, ⟨true, .smooth 10 20 30 40⟩] := by decide +kernel

-- paths/conv_segments.rs:273 conv_cv_1
example : Paths.convertSegments (Paths.convToAbsolute Paths.pos0 [⟨true, .moveTo 10 10⟩, ⟨true, .curveTo 10 15 10 20 10 40⟩]) = some [⟨true, .moveTo 10 10⟩, ⟨true, .lineTo 10 40⟩] := by decide +kernel

-- paths/conv_segments.rs:277 conv_cv_2
example : Paths.convertSegments (Paths.convToAbsolute Paths.pos0 [⟨true, .moveTo 10 10⟩, ⟨true, .curveTo 10 5 10 20 10 40⟩]) = some [⟨true, .moveTo 10 10⟩, ⟨true, .curveTo 10 5 10 20 10 40⟩] := by decide +kernel

-- paths/conv_segments.rs:282 conv_cv_3
example : Paths.convertSegments (Paths.convToAbsolute Paths.pos0 [⟨true, .moveTo 10 10⟩, ⟨true, .curveTo 10 10 10 40 10 40⟩]) = some [⟨true, .moveTo 10 10⟩, ⟨true, .lineTo 10 40⟩] := by decide +kernel

-- paths/conv_segments.rs:286 conv_ch_1
example : Paths.convertSegments (Paths.convToAbsolute Paths.pos0 [⟨true, .moveTo 10 10⟩, ⟨true, .curveTo 15 10 25 10 40 10⟩]) = some [⟨true, .moveTo 10 10⟩, ⟨true, .lineTo 40 10⟩] := by decide +kernel

-- paths/conv_segments.rs:289 conv_ch_2
example : Paths.convertSegments (Paths.convToAbsolute Paths.pos0 [⟨true, .moveTo 10 10⟩, ⟨true, .curveTo 5 10 50 10 40 10⟩]) = some [⟨true, .moveTo 10 10⟩, ⟨true, .curveTo 5 10 50 10 40 10⟩] := by decide +kernel

-- paths/conv_segments.rs:292 conv_ch_3
example : Paths.convertSegments (Paths.convToAbsolute Paths.pos0 [⟨true, .moveTo 10 10⟩, ⟨true, .curveTo 10 10 40 10 40 10⟩]) = some [⟨true, .moveTo 10 10⟩, ⟨true, .lineTo 40 10⟩] := by decide +kernel

-- paths/conv_segments.rs:295 conv_cl_1
example : Paths.convertSegments (Paths.convToAbsolute Paths.pos0 [⟨true, .moveTo 10 118⟩, ⟨true, .curveTo 45 83 85 43 120 8⟩]) = some [⟨true, .moveTo 10 118⟩, ⟨true, .lineTo 120 8⟩] := by decide +kernel

-- paths/conv_segments.rs:298 conv_cl_2
example : Paths.convertSegments (Paths.convToAbsolute Paths.pos0 [⟨true, .moveTo 10 15⟩, ⟨true, .curveTo 10 15 (145 / 2) 10 (145 / 2) 55⟩, ⟨true, .curveTo (145 / 2) 100 135 100 135 55⟩, ⟨true, .lineTo 10 55⟩]) = some [⟨true, .moveTo 10 15⟩, ⟨true, .smooth (145 / 2) 10 (145 / 2) 55⟩, ⟨true, .smooth 135 100 135 55⟩, ⟨true, .lineTo 10 55⟩] := by decide +kernel

-- paths/mod.rs:163 empty
example : gives false [may (ApplyTs.processPaths true ⟨true, true⟩)] (.cons ⟨0, .elem .svg, "", []⟩ (.cons ⟨1, .elem .path, "", [⟨.id .d, .path [], true⟩]⟩ .nil .nil) .nil) (.cons ⟨0, .elem .svg, "", []⟩ (.cons ⟨1, .elem .path, "", [⟨.id .d, .path [], true⟩]⟩ .nil .nil) .nil) = true := by decide +kernel

-- paths/mod.rs:172 single
example : gives false [may (ApplyTs.processPaths true ⟨true, true⟩)] (.cons ⟨0, .elem .svg, "", []⟩ (.cons ⟨1, .elem .path, "", [⟨.id .d, .path [⟨true, .moveTo 10 20⟩], true⟩]⟩ .nil .nil) .nil) (.cons ⟨0, .elem .svg, "", []⟩ (.cons ⟨1, .elem .path, "", [⟨.id .d, .path [], true⟩]⟩ .nil .nil) .nil) = true := by decide +kernel

-- paths/mod.rs:181 invalid
example : gives false [may (ApplyTs.processPaths true ⟨true, true⟩)] (.cons ⟨0, .elem .svg, "", []⟩ (.cons ⟨1, .elem .path, "", [⟨.id .d, .path [], true⟩]⟩ .nil (.cons ⟨2, .elem .path, "", [⟨.id .d, .path [], true⟩]⟩ .nil .nil)) .nil) (.cons ⟨0, .elem .svg, "", []⟩ (.cons ⟨1, .elem .path, "", [⟨.id .d, .path [], true⟩]⟩ .nil (.cons ⟨2, .elem .path, "", [⟨.id .d, .path [], true⟩]⟩ .nil .nil)) .nil) = true := by decide +kernel

-- paths/mod.rs:192 transform_1
example : gives false [may (ApplyTs.processPaths true ⟨true, true⟩)] (.cons ⟨0, .elem .svg, "", []⟩ (.cons ⟨1, .elem .path, "valid", [⟨.id .d, .path [⟨true, .moveTo 10 20⟩, ⟨true, .lineTo 30 40⟩], true⟩, ⟨.id .transform, .transform ⟨1, 0, 0, 1, 10, 20⟩, true⟩]⟩ .nil (.cons ⟨2, .elem .path, "valid2", [⟨.id .d, .path [⟨true, .moveTo 10 20⟩, ⟨true, .lineTo 30 40⟩], true⟩, ⟨.id .transform, .transform ⟨2, 0, 0, 2, 0, 0⟩, true⟩]⟩ .nil (.cons ⟨3, .elem .path, "ignored", [⟨.id .d, .path [⟨true, .moveTo 10 20⟩, ⟨true, .lineTo 30 40⟩], true⟩, ⟨.id .transform, .transform ⟨(7800463371553963 / 9007199254740992), (9007199254740991 / 18014398509481984), (-9007199254740991 / 18014398509481984), (7800463371553963 / 9007199254740992), 0, 0⟩, true⟩]⟩ .nil .nil))) .nil) (.cons ⟨0, .elem .svg, "", []⟩ (.cons ⟨1, .elem .path, "valid", [⟨.id .d, .path [⟨false, .moveTo 20 40⟩, ⟨false, .lineTo 20 20⟩], true⟩]⟩ .nil (.cons ⟨2, .elem .path, "valid2", [⟨.id .d, .path [⟨false, .moveTo 20 40⟩, ⟨false, .lineTo 40 40⟩], true⟩, ⟨.id .strokeWidth, .length ⟨2, .none⟩, true⟩]⟩ .nil (.cons ⟨3, .elem .path, "ignored", [⟨.id .d, .path [⟨false, .moveTo 10 20⟩, ⟨false, .lineTo 20 20⟩], true⟩, ⟨.id .transform, .transform ⟨(7800463371553963 / 9007199254740992), (9007199254740991 / 18014398509481984), (-9007199254740991 / 18014398509481984), (7800463371553963 / 9007199254740992), 0, 0⟩, true⟩]⟩ .nil .nil))) .nil) = true := by decide +kernel

-- paths/mod.rs:206 transform_2
example : gives false [may (ApplyTs.processPaths true ⟨true, true⟩)] (.cons ⟨0, .elem .svg, "", []⟩ (.cons ⟨1, .elem .linearGradient, "lg1", []⟩ .nil (.cons ⟨2, .elem .g, "", [⟨.id .fill, .funcLink 1, true⟩]⟩ (.cons ⟨3, .elem .path, "valid", [⟨.id .d, .path [⟨true, .moveTo 10 20⟩, ⟨true, .lineTo 30 40⟩], true⟩, ⟨.id .transform, .transform ⟨1, 0, 0, 1, 10, 20⟩, true⟩]⟩ .nil .nil) .nil)) .nil) (.cons ⟨0, .elem .svg, "", []⟩ (.cons ⟨1, .elem .linearGradient, "lg1", []⟩ .nil (.cons ⟨2, .elem .g, "", [⟨.id .fill, .funcLink 1, true⟩]⟩ (.cons ⟨3, .elem .path, "valid", [⟨.id .d, .path [⟨false, .moveTo 10 20⟩, ⟨false, .lineTo 20 20⟩], true⟩, ⟨.id .transform, .transform ⟨1, 0, 0, 1, 10, 20⟩, true⟩]⟩ .nil .nil) .nil)) .nil) = true := by decide +kernel

-- paths/mod.rs:221 marker
example : gives false [may (ApplyTs.processPaths true ⟨true, true⟩)] (.cons ⟨0, .elem .svg, "", []⟩ (.cons ⟨1, .elem .marker, "m", []⟩ .nil (.cons ⟨2, .elem .path, "", [⟨.id .d, .path [⟨true, .moveTo 10 20⟩, ⟨true, .lineTo 30 40⟩], true⟩, ⟨.id .marker, .funcLink 1, true⟩]⟩ .nil (.cons ⟨3, .elem .path, "", [⟨.id .d, .path [⟨true, .moveTo 10 20⟩], true⟩, ⟨.id .marker, .funcLink 1, true⟩]⟩ .nil (.cons ⟨4, .elem .path, "", [⟨.id .d, .path [⟨true, .moveTo 10 20⟩], true⟩]⟩ .nil .nil)))) .nil) (.cons ⟨0, .elem .svg, "", []⟩ (.cons ⟨1, .elem .marker, "m", []⟩ .nil (.cons ⟨2, .elem .path, "", [⟨.id .d, .path [⟨false, .moveTo 10 20⟩, ⟨false, .lineTo 20 20⟩], true⟩, ⟨.id .marker, .funcLink 1, true⟩]⟩ .nil (.cons ⟨3, .elem .path, "", [⟨.id .d, .path [⟨false, .moveTo 10 20⟩], true⟩, ⟨.id .marker, .funcLink 1, true⟩]⟩ .nil (.cons ⟨4, .elem .path, "", [⟨.id .d, .path [], true⟩]⟩ .nil .nil)))) .nil) = true := by decide +kernel

-- paths/rm_unused.rs:239 rm_dulp_moveto_1
example : (Paths.hvToL (Paths.convToAbsolute Paths.pos0 [⟨false, .moveTo 10 10⟩, ⟨false, .moveTo 20 20⟩, ⟨false, .lineTo 10 20⟩])).bind Paths.removeUnused = some [⟨true, .moveTo 30 30⟩, ⟨true, .lineTo 40 50⟩] := by decide +kernel

-- paths/rm_unused.rs:243 rm_dulp_moveto_2
example : (Paths.hvToL (Paths.convToAbsolute Paths.pos0 [⟨false, .moveTo 10 10⟩, ⟨false, .lineTo 20 20⟩, ⟨false, .lineTo 10 20⟩])).bind Paths.removeUnused = some [⟨true, .moveTo 10 10⟩, ⟨true, .lineTo 30 30⟩, ⟨true, .lineTo 40 50⟩] := by decide +kernel

-- paths/rm_unused.rs:247 rm_dulp_moveto_3
example : (Paths.hvToL (Paths.convToAbsolute Paths.pos0 [⟨true, .moveTo 10 10⟩, ⟨true, .moveTo 10 10⟩, ⟨true, .moveTo 10 10⟩, ⟨true, .moveTo 10 10⟩, ⟨true, .lineTo 15 20⟩])).bind Paths.removeUnused = some [⟨true, .moveTo 10 10⟩, ⟨true, .lineTo 15 20⟩] := by decide +kernel

-- paths/rm_unused.rs:252 rm_single_1
example : (Paths.hvToL (Paths.convToAbsolute Paths.pos0 [⟨true, .moveTo 10 10⟩])).bind Paths.removeUnused = some [] := by decide +kernel

-- paths/rm_unused.rs:257 rm_mz_1
example : (Paths.hvToL (Paths.convToAbsolute Paths.pos0 [⟨true, .moveTo 10 10⟩, ⟨true, .close⟩])).bind Paths.removeUnused = some [] := by decide +kernel

-- paths/rm_unused.rs:261 rm_mz_2
example : (Paths.hvToL (Paths.convToAbsolute Paths.pos0 [⟨true, .moveTo 10 10⟩, ⟨true, .close⟩, ⟨true, .moveTo 10 10⟩, ⟨true, .close⟩, ⟨true, .moveTo 10 10⟩, ⟨true, .close⟩])).bind Paths.removeUnused = some [] := by decide +kernel

-- paths/rm_unused.rs:265 rm_mz_3
example : (Paths.hvToL (Paths.convToAbsolute Paths.pos0 [⟨true, .moveTo 10 10⟩, ⟨true, .lineTo 15 20⟩, ⟨true, .moveTo 10 20⟩, ⟨true, .close⟩, ⟨true, .moveTo 10 20⟩, ⟨true, .lineTo 15 30⟩])).bind Paths.removeUnused = some [⟨true, .moveTo 10 10⟩, ⟨true, .lineTo 15 20⟩, ⟨true, .moveTo 10 20⟩, ⟨true, .lineTo 15 30⟩] := by decide +kernel

-- paths/rm_unused.rs:270 rm_z_1
example : (Paths.hvToL (Paths.convToAbsolute Paths.pos0 [⟨true, .moveTo 10 10⟩, ⟨true, .close⟩, ⟨true, .close⟩, ⟨true, .close⟩])).bind Paths.removeUnused = some [] := by decide +kernel

-- paths/rm_unused.rs:274 rm_z_2
example : (Paths.hvToL (Paths.convToAbsolute Paths.pos0 [⟨true, .moveTo 10 10⟩, ⟨true, .lineTo 15 20⟩, ⟨true, .close⟩, ⟨true, .close⟩, ⟨true, .close⟩, ⟨true, .moveTo 10 20⟩, ⟨true, .lineTo 20 30⟩])).bind Paths.removeUnused = some [⟨true, .moveTo 10 10⟩, ⟨true, .lineTo 15 20⟩, ⟨true, .close⟩, ⟨true, .moveTo 10 20⟩, ⟨true, .lineTo 20 30⟩] := by decide +kernel

-- paths/rm_unused.rs:278 rm_zero_lenght_1
example : (Paths.hvToL (Paths.convToAbsolute Paths.pos0 [⟨true, .moveTo 10 10⟩, ⟨true, .lineTo 10 20⟩, ⟨true, .lineTo 10 20⟩, ⟨true, .lineTo 10 20⟩, ⟨true, .close⟩])).bind Paths.removeUnused = some [⟨true, .moveTo 10 10⟩, ⟨true, .lineTo 10 20⟩, ⟨true, .close⟩] := by decide +kernel

-- paths/rm_unused.rs:282 rm_zero_lenght_2
example : (Paths.hvToL (Paths.convToAbsolute Paths.pos0 [⟨true, .moveTo 10 10⟩, ⟨true, .lineTo 10 10⟩])).bind Paths.removeUnused = some [] := by decide +kernel

-- paths/rm_unused.rs:287 keep_zero_lenght_1
example : (Paths.hvToL (Paths.convToAbsolute Paths.pos0 [⟨true, .moveTo 10 10⟩, ⟨true, .curveTo 20 20 30 30 10 10⟩])).bind Paths.removeUnused = some [⟨true, .moveTo 10 10⟩, ⟨true, .curveTo 20 20 30 30 10 10⟩] := by decide +kernel

-- paths/rm_unused.rs:292 rm_equal_1
example : (Paths.hvToL (Paths.convToAbsolute Paths.pos0 [⟨true, .moveTo 10 10⟩, ⟨true, .curveTo 20 20 30 30 10 10⟩, ⟨true, .curveTo 20 20 30 30 10 10⟩])).bind Paths.removeUnused = some [⟨true, .moveTo 10 10⟩, ⟨true, .curveTo 20 20 30 30 10 10⟩] := by decide +kernel

-- paths/rm_unused.rs:296 rm_equal_2
example : (Paths.hvToL (Paths.convToAbsolute Paths.pos0 [⟨true, .moveTo 10 10⟩, ⟨true, .lineTo 20 20⟩, ⟨true, .lineTo 20 20⟩, ⟨true, .lineTo 20 20⟩])).bind Paths.removeUnused = some [⟨true, .moveTo 10 10⟩, ⟨true, .lineTo 20 20⟩] := by decide +kernel

-- paths/rm_unused.rs:301 rm_lz_1
example : (Paths.hvToL (Paths.convToAbsolute Paths.pos0 [⟨true, .moveTo 10 10⟩, ⟨true, .lineTo 50 50⟩, ⟨true, .lineTo 10 10⟩, ⟨true, .close⟩])).bind Paths.removeUnused = some [⟨true, .moveTo 10 10⟩, ⟨true, .lineTo 50 50⟩, ⟨true, .close⟩] := by decide +kernel

-- paths/rm_unused.rs:305 rm_lz_2
example : (Paths.hvToL (Paths.convToAbsolute Paths.pos0 [⟨true, .moveTo 10 10⟩, ⟨true, .lineTo 50 50⟩, ⟨true, .lineTo 10 10⟩])).bind Paths.removeUnused = some [⟨true, .moveTo 10 10⟩, ⟨true, .lineTo 50 50⟩, ⟨true, .close⟩] := by decide +kernel

-- paths/rm_unused.rs:309 rm_lz_3
example : (Paths.hvToL (Paths.convToAbsolute Paths.pos0 [⟨true, .moveTo 10 10⟩, ⟨true, .lineTo 50 50⟩, ⟨true, .lineTo 10 10⟩, ⟨true, .moveTo 50 50⟩, ⟨true, .lineTo 60 60⟩])).bind Paths.removeUnused = some [⟨true, .moveTo 10 10⟩, ⟨true, .lineTo 50 50⟩, ⟨true, .close⟩, ⟨true, .moveTo 50 50⟩, ⟨true, .lineTo 60 60⟩] := by decide +kernel

-- paths/rm_unused.rs:313 rm_lz_4
example : (Paths.hvToL (Paths.convToAbsolute Paths.pos0 [⟨true, .moveTo 10 10⟩, ⟨true, .lineTo 50 50⟩, ⟨true, .lineTo 10 10⟩, ⟨true, .moveTo 50 50⟩, ⟨true, .lineTo 50 50⟩])).bind Paths.removeUnused = some [⟨true, .moveTo 10 10⟩, ⟨true, .lineTo 50 50⟩, ⟨true, .close⟩] := by decide +kernel

-- preclean_checks.rs:146 test_scripting_1
example : Simple.precleanChecks (.cons ⟨0, .elem .svg, "", []⟩ (.cons ⟨1, .elem .script, "", []⟩ .nil .nil) .nil) = .error .scripting := by decide +kernel

-- preclean_checks.rs:149 test_scripting_2
example : Simple.precleanChecks (.cons ⟨0, .elem .svg, "", [⟨.id .onload, .str "", true⟩]⟩ .nil .nil) = .error .scripting := by decide +kernel

-- preclean_checks.rs:152 test_animation_1
example : Simple.precleanChecks (.cons ⟨0, .elem .svg, "", []⟩ (.cons ⟨1, .elem .set, "", []⟩ .nil .nil) .nil) = .error .animation := by decide +kernel

-- preclean_checks.rs:155 test_conditions_1
example : Simple.precleanChecks (.cons ⟨0, .elem .svg, "", []⟩ (.cons ⟨1, .elem .switch, "", [⟨.id .requiredFeatures, .str "text", true⟩]⟩ .nil .nil) .nil) = .error .conditional := by decide +kernel

-- preclean_checks.rs:158 test_conditions_2
example : Simple.precleanChecks (.cons ⟨0, .elem .svg, "", []⟩ (.cons ⟨1, .elem .switch, "", [⟨.id .systemLanguage, .str "en", true⟩]⟩ .nil .nil) .nil) = .error .conditional := by decide +kernel

-- preclean_checks.rs:161 test_conditions_3
example : Simple.precleanChecks (.cons ⟨0, .elem .svg, "", []⟩ (.cons ⟨1, .elem .switch, "", [⟨.id .requiredFeatures, .str "", true⟩]⟩ .nil .nil) .nil) = .ok () := by decide +kernel

-- preclean_checks.rs:162 test_conditions_4
example : Simple.precleanChecks (.cons ⟨0, .elem .svg, "", []⟩ (.cons ⟨1, .elem .switch, "", [⟨.id .systemLanguage, .str "", true⟩]⟩ .nil .nil) .nil) = .ok () := by decide +kernel

-- regroup_gradient_stops.rs:131 rm_1
example : gives false [may Gradients.resolveLinear, may Gradients.resolveRadial, Stops.resolveStops, may Regroup.regroup] (.cons ⟨0, .elem .svg, "", []⟩ (.cons ⟨1, .elem .linearGradient, "lg1", [⟨.id .x1, .length ⟨50, .none⟩, true⟩]⟩ (.cons ⟨2, .elem .stop, "", [⟨.id .offset, .length ⟨0, .none⟩, true⟩]⟩ .nil (.cons ⟨3, .elem .stop, "", [⟨.id .offset, .length ⟨1, .none⟩, true⟩]⟩ .nil .nil)) (.cons ⟨4, .elem .linearGradient, "lg2", [⟨.id .x1, .length ⟨100, .none⟩, true⟩]⟩ (.cons ⟨5, .elem .stop, "", [⟨.id .offset, .length ⟨0, .none⟩, true⟩]⟩ .nil (.cons ⟨6, .elem .stop, "", [⟨.id .offset, .length ⟨1, .none⟩, true⟩]⟩ .nil .nil)) .nil)) .nil) (.cons ⟨0, .elem .svg, "", []⟩ (.cons ⟨1, .elem .linearGradient, "lg3", []⟩ (.cons ⟨2, .elem .stop, "", [⟨.id .offset, .length ⟨0, .none⟩, true⟩]⟩ .nil (.cons ⟨3, .elem .stop, "", [⟨.id .offset, .length ⟨1, .none⟩, true⟩]⟩ .nil .nil)) (.cons ⟨4, .elem .linearGradient, "lg1", [⟨.id .x1, .length ⟨50, .none⟩, true⟩, ⟨.id .xlinkHref, .link 1, true⟩]⟩ .nil (.cons ⟨5, .elem .linearGradient, "lg2", [⟨.id .x1, .length ⟨100, .none⟩, true⟩, ⟨.id .xlinkHref, .link 1, true⟩]⟩ .nil .nil))) .nil) = true := by decide +kernel

-- regroup_gradient_stops.rs:152 rm_2
example : gives false [may Gradients.resolveLinear, may Gradients.resolveRadial, Stops.resolveStops, may Regroup.regroup] (.cons ⟨0, .elem .svg, "", []⟩ (.cons ⟨1, .elem .linearGradient, "lg1", [⟨.id .x1, .length ⟨50, .none⟩, true⟩]⟩ (.cons ⟨2, .elem .stop, "", [⟨.id .offset, .length ⟨0, .none⟩, true⟩]⟩ .nil (.cons ⟨3, .elem .stop, "", [⟨.id .offset, .length ⟨1, .none⟩, true⟩]⟩ .nil .nil)) (.cons ⟨4, .elem .linearGradient, "lg3", [⟨.id .x1, .length ⟨50, .none⟩, true⟩]⟩ (.cons ⟨5, .elem .stop, "", [⟨.id .offset, .length ⟨(1 / 2), .none⟩, true⟩]⟩ .nil (.cons ⟨6, .elem .stop, "", [⟨.id .offset, .length ⟨1, .none⟩, true⟩]⟩ .nil .nil)) (.cons ⟨7, .elem .linearGradient, "lg2", [⟨.id .x1, .length ⟨100, .none⟩, true⟩]⟩ (.cons ⟨8, .elem .stop, "", [⟨.id .offset, .length ⟨0, .none⟩, true⟩]⟩ .nil (.cons ⟨9, .elem .stop, "", [⟨.id .offset, .length ⟨1, .none⟩, true⟩]⟩ .nil .nil)) (.cons ⟨10, .elem .linearGradient, "lg4", [⟨.id .x1, .length ⟨100, .none⟩, true⟩]⟩ (.cons ⟨11, .elem .stop, "", [⟨.id .offset, .length ⟨(1 / 2), .none⟩, true⟩]⟩ .nil (.cons ⟨12, .elem .stop, "", [⟨.id .offset, .length ⟨1, .none⟩, true⟩]⟩ .nil .nil)) .nil)))) .nil) (.cons ⟨0, .elem .svg, "", []⟩ (.cons ⟨1, .elem .linearGradient, "lg5", []⟩ (.cons ⟨2, .elem .stop, "", [⟨.id .offset, .length ⟨0, .none⟩, true⟩]⟩ .nil (.cons ⟨3, .elem .stop, "", [⟨.id .offset, .length ⟨1, .none⟩, true⟩]⟩ .nil .nil)) (.cons ⟨4, .elem .linearGradient, "lg1", [⟨.id .x1, .length ⟨50, .none⟩, true⟩, ⟨.id .xlinkHref, .link 1, true⟩]⟩ .nil (.cons ⟨5, .elem .linearGradient, "lg6", []⟩ (.cons ⟨6, .elem .stop, "", [⟨.id .offset, .length ⟨(1 / 2), .none⟩, true⟩]⟩ .nil (.cons ⟨7, .elem .stop, "", [⟨.id .offset, .length ⟨1, .none⟩, true⟩]⟩ .nil .nil)) (.cons ⟨8, .elem .linearGradient, "lg3", [⟨.id .x1, .length ⟨50, .none⟩, true⟩, ⟨.id .xlinkHref, .link 5, true⟩]⟩ .nil (.cons ⟨9, .elem .linearGradient, "lg2", [⟨.id .x1, .length ⟨100, .none⟩, true⟩, ⟨.id .xlinkHref, .link 1, true⟩]⟩ .nil (.cons ⟨10, .elem .linearGradient, "lg4", [⟨.id .x1, .length ⟨100, .none⟩, true⟩, ⟨.id .xlinkHref, .link 5, true⟩]⟩ .nil .nil)))))) .nil) = true := by decide +kernel

-- resolve_gradients.rs:237 resolve_1
example : gives true [may Gradients.resolveLinear] (.cons ⟨0, .elem .svg, "", []⟩ (.cons ⟨1, .elem .linearGradient, "lg1", []⟩ .nil .nil) .nil) (.cons ⟨0, .elem .svg, "", []⟩ (.cons ⟨1, .elem .linearGradient, "lg1", [⟨.id .gradientUnits, .kw .objectBoundingBox, true⟩, ⟨.id .spreadMethod, .kw .pad, true⟩, ⟨.id .x1, .length ⟨0, .percent⟩, true⟩, ⟨.id .x2, .length ⟨100, .percent⟩, true⟩, ⟨.id .y1, .length ⟨0, .percent⟩, true⟩, ⟨.id .y2, .length ⟨0, .percent⟩, true⟩]⟩ .nil .nil) .nil) = true := by decide +kernel

-- resolve_gradients.rs:260 resolve_1
example : gives true [may Gradients.resolveRadial] (.cons ⟨0, .elem .svg, "", []⟩ (.cons ⟨1, .elem .radialGradient, "rg1", []⟩ .nil .nil) .nil) (.cons ⟨0, .elem .svg, "", []⟩ (.cons ⟨1, .elem .radialGradient, "rg1", [⟨.id .cx, .length ⟨50, .percent⟩, true⟩, ⟨.id .cy, .length ⟨50, .percent⟩, true⟩, ⟨.id .fx, .length ⟨50, .percent⟩, true⟩, ⟨.id .fy, .length ⟨50, .percent⟩, true⟩, ⟨.id .gradientUnits, .kw .objectBoundingBox, true⟩, ⟨.id .r, .length ⟨50, .percent⟩, true⟩, ⟨.id .spreadMethod, .kw .pad, true⟩]⟩ .nil .nil) .nil) = true := by decide +kernel

-- resolve_gradients.rs:270 resolve_2
example : gives true [may Gradients.resolveRadial] (.cons ⟨0, .elem .svg, "", []⟩ (.cons ⟨1, .elem .radialGradient, "rg1", [⟨.id .cx, .length ⟨10, .none⟩, true⟩, ⟨.id .cy, .length ⟨20, .none⟩, true⟩]⟩ .nil .nil) .nil) (.cons ⟨0, .elem .svg, "", []⟩ (.cons ⟨1, .elem .radialGradient, "rg1", [⟨.id .cx, .length ⟨10, .none⟩, true⟩, ⟨.id .cy, .length ⟨20, .none⟩, true⟩, ⟨.id .fx, .length ⟨10, .none⟩, true⟩, ⟨.id .fy, .length ⟨20, .none⟩, true⟩, ⟨.id .gradientUnits, .kw .objectBoundingBox, true⟩, ⟨.id .r, .length ⟨50, .percent⟩, true⟩, ⟨.id .spreadMethod, .kw .pad, true⟩]⟩ .nil .nil) .nil) = true := by decide +kernel

-- resolve_gradients.rs:280 resolve_3
example : gives true [may Gradients.resolveRadial] (.cons ⟨0, .elem .svg, "", []⟩ (.cons ⟨1, .elem .radialGradient, "rg1", [⟨.id .cx, .length ⟨10, .none⟩, true⟩, ⟨.id .cy, .length ⟨20, .none⟩, true⟩, ⟨.id .fx, .length ⟨30, .none⟩, true⟩, ⟨.id .fy, .length ⟨40, .none⟩, true⟩, ⟨.id .gradientTransform, .transform ⟨1, 0, 0, 1, 10, 20⟩, true⟩, ⟨.id .gradientUnits, .kw .userSpaceOnUse, true⟩, ⟨.id .r, .length ⟨5, .none⟩, true⟩, ⟨.id .spreadMethod, .kw (.other "repeat"), true⟩]⟩ .nil (.cons ⟨2, .elem .radialGradient, "rg2", [⟨.id .xlinkHref, .link 1, true⟩]⟩ .nil .nil)) .nil) (.cons ⟨0, .elem .svg, "", []⟩ (.cons ⟨1, .elem .radialGradient, "rg1", [⟨.id .cx, .length ⟨10, .none⟩, true⟩, ⟨.id .cy, .length ⟨20, .none⟩, true⟩, ⟨.id .fx, .length ⟨30, .none⟩, true⟩, ⟨.id .fy, .length ⟨40, .none⟩, true⟩, ⟨.id .gradientTransform, .transform ⟨1, 0, 0, 1, 10, 20⟩, true⟩, ⟨.id .gradientUnits, .kw .userSpaceOnUse, true⟩, ⟨.id .r, .length ⟨5, .none⟩, true⟩, ⟨.id .spreadMethod, .kw (.other "repeat"), true⟩]⟩ .nil (.cons ⟨2, .elem .radialGradient, "rg2", [⟨.id .cx, .length ⟨10, .none⟩, true⟩, ⟨.id .cy, .length ⟨20, .none⟩, true⟩, ⟨.id .fx, .length ⟨30, .none⟩, true⟩, ⟨.id .fy, .length ⟨40, .none⟩, true⟩, ⟨.id .gradientTransform, .transform ⟨1, 0, 0, 1, 10, 20⟩, true⟩, ⟨.id .gradientUnits, .kw .userSpaceOnUse, true⟩, ⟨.id .r, .length ⟨5, .none⟩, true⟩, ⟨.id .spreadMethod, .kw (.other "repeat"), true⟩, ⟨.id .xlinkHref, .link 1, true⟩]⟩ .nil .nil)) .nil) = true := by decide +kernel

-- resolve_gradients.rs:297 resolve_4
example : gives true [may Gradients.resolveRadial] (.cons ⟨0, .elem .svg, "", []⟩ (.cons ⟨1, .elem .radialGradient, "rg1", [⟨.id .cx, .length ⟨10, .none⟩, true⟩, ⟨.id .cy, .length ⟨20, .none⟩, true⟩, ⟨.id .fx, .length ⟨30, .none⟩, true⟩, ⟨.id .fy, .length ⟨40, .none⟩, true⟩, ⟨.id .gradientTransform, .transform ⟨1, 0, 0, 1, 10, 20⟩, true⟩, ⟨.id .gradientUnits, .kw .userSpaceOnUse, true⟩, ⟨.id .r, .length ⟨5, .none⟩, true⟩, ⟨.id .spreadMethod, .kw (.other "repeat"), true⟩]⟩ .nil (.cons ⟨2, .elem .radialGradient, "rg2", [⟨.id .xlinkHref, .link 1, true⟩]⟩ .nil (.cons ⟨3, .elem .radialGradient, "rg3", [⟨.id .xlinkHref, .link 2, true⟩]⟩ .nil .nil))) .nil) (.cons ⟨0, .elem .svg, "", []⟩ (.cons ⟨1, .elem .radialGradient, "rg1", [⟨.id .cx, .length ⟨10, .none⟩, true⟩, ⟨.id .cy, .length ⟨20, .none⟩, true⟩, ⟨.id .fx, .length ⟨30, .none⟩, true⟩, ⟨.id .fy, .length ⟨40, .none⟩, true⟩, ⟨.id .gradientTransform, .transform ⟨1, 0, 0, 1, 10, 20⟩, true⟩, ⟨.id .gradientUnits, .kw .userSpaceOnUse, true⟩, ⟨.id .r, .length ⟨5, .none⟩, true⟩, ⟨.id .spreadMethod, .kw (.other "repeat"), true⟩]⟩ .nil (.cons ⟨2, .elem .radialGradient, "rg2", [⟨.id .cx, .length ⟨10, .none⟩, true⟩, ⟨.id .cy, .length ⟨20, .none⟩, true⟩, ⟨.id .fx, .length ⟨30, .none⟩, true⟩, ⟨.id .fy, .length ⟨40, .none⟩, true⟩, ⟨.id .gradientTransform, .transform ⟨1, 0, 0, 1, 10, 20⟩, true⟩, ⟨.id .gradientUnits, .kw .userSpaceOnUse, true⟩, ⟨.id .r, .length ⟨5, .none⟩, true⟩, ⟨.id .spreadMethod, .kw (.other "repeat"), true⟩, ⟨.id .xlinkHref, .link 1, true⟩]⟩ .nil (.cons ⟨3, .elem .radialGradient, "rg3", [⟨.id .cx, .length ⟨10, .none⟩, true⟩, ⟨.id .cy, .length ⟨20, .none⟩, true⟩, ⟨.id .fx, .length ⟨30, .none⟩, true⟩, ⟨.id .fy, .length ⟨40, .none⟩, true⟩, ⟨.id .gradientTransform, .transform ⟨1, 0, 0, 1, 10, 20⟩, true⟩, ⟨.id .gradientUnits, .kw .userSpaceOnUse, true⟩, ⟨.id .r, .length ⟨5, .none⟩, true⟩, ⟨.id .spreadMethod, .kw (.other "repeat"), true⟩, ⟨.id .xlinkHref, .link 2, true⟩]⟩ .nil .nil))) .nil) = true := by decide +kernel

-- resolve_gradients.rs:318 resolve_5
example : gives true [may Gradients.resolveRadial] (.cons ⟨0, .elem .svg, "", []⟩ (.cons ⟨1, .elem .radialGradient, "rg1", [⟨.id .cx, .length ⟨10, .none⟩, true⟩, ⟨.id .cy, .length ⟨20, .none⟩, true⟩, ⟨.id .r, .length ⟨5, .none⟩, true⟩]⟩ .nil (.cons ⟨2, .elem .radialGradient, "rg2", [⟨.id .cy, .length ⟨30, .none⟩, true⟩, ⟨.id .xlinkHref, .link 1, true⟩]⟩ .nil .nil)) .nil) (.cons ⟨0, .elem .svg, "", []⟩ (.cons ⟨1, .elem .radialGradient, "rg1", [⟨.id .cx, .length ⟨10, .none⟩, true⟩, ⟨.id .cy, .length ⟨20, .none⟩, true⟩, ⟨.id .fx, .length ⟨10, .none⟩, true⟩, ⟨.id .fy, .length ⟨20, .none⟩, true⟩, ⟨.id .gradientUnits, .kw .objectBoundingBox, true⟩, ⟨.id .r, .length ⟨5, .none⟩, true⟩, ⟨.id .spreadMethod, .kw .pad, true⟩]⟩ .nil (.cons ⟨2, .elem .radialGradient, "rg2", [⟨.id .cx, .length ⟨10, .none⟩, true⟩, ⟨.id .cy, .length ⟨30, .none⟩, true⟩, ⟨.id .fx, .length ⟨10, .none⟩, true⟩, ⟨.id .fy, .length ⟨30, .none⟩, true⟩, ⟨.id .gradientUnits, .kw .objectBoundingBox, true⟩, ⟨.id .r, .length ⟨5, .none⟩, true⟩, ⟨.id .spreadMethod, .kw .pad, true⟩, ⟨.id .xlinkHref, .link 1, true⟩]⟩ .nil .nil)) .nil) = true := by decide +kernel

-- resolve_gradients.rs:332 resolve_6
example : gives true [may Gradients.resolveRadial] (.cons ⟨0, .elem .svg, "", []⟩ (.cons ⟨1, .elem .radialGradient, "rg2", [⟨.id .cy, .length ⟨30, .none⟩, true⟩, ⟨.id .xlinkHref, .link 4, true⟩]⟩ .nil (.cons ⟨2, .elem .radialGradient, "rg3", [⟨.id .cx, .length ⟨30, .none⟩, true⟩, ⟨.id .xlinkHref, .link 1, true⟩]⟩ .nil (.cons ⟨3, .elem .radialGradient, "rg4", [⟨.id .cx, .length ⟨40, .none⟩, true⟩, ⟨.id .xlinkHref, .link 1, true⟩]⟩ .nil (.cons ⟨4, .elem .radialGradient, "rg1", [⟨.id .cx, .length ⟨10, .none⟩, true⟩, ⟨.id .cy, .length ⟨20, .none⟩, true⟩, ⟨.id .r, .length ⟨5, .none⟩, true⟩]⟩ .nil .nil)))) .nil) (.cons ⟨0, .elem .svg, "", []⟩ (.cons ⟨1, .elem .radialGradient, "rg2", [⟨.id .cx, .length ⟨10, .none⟩, true⟩, ⟨.id .cy, .length ⟨30, .none⟩, true⟩, ⟨.id .fx, .length ⟨10, .none⟩, true⟩, ⟨.id .fy, .length ⟨30, .none⟩, true⟩, ⟨.id .gradientUnits, .kw .objectBoundingBox, true⟩, ⟨.id .r, .length ⟨5, .none⟩, true⟩, ⟨.id .spreadMethod, .kw .pad, true⟩, ⟨.id .xlinkHref, .link 4, true⟩]⟩ .nil (.cons ⟨2, .elem .radialGradient, "rg3", [⟨.id .cx, .length ⟨30, .none⟩, true⟩, ⟨.id .cy, .length ⟨30, .none⟩, true⟩, ⟨.id .fx, .length ⟨30, .none⟩, true⟩, ⟨.id .fy, .length ⟨30, .none⟩, true⟩, ⟨.id .gradientUnits, .kw .objectBoundingBox, true⟩, ⟨.id .r, .length ⟨5, .none⟩, true⟩, ⟨.id .spreadMethod, .kw .pad, true⟩, ⟨.id .xlinkHref, .link 1, true⟩]⟩ .nil (.cons ⟨3, .elem .radialGradient, "rg4", [⟨.id .cx, .length ⟨40, .none⟩, true⟩, ⟨.id .cy, .length ⟨30, .none⟩, true⟩, ⟨.id .fx, .length ⟨40, .none⟩, true⟩, ⟨.id .fy, .length ⟨30, .none⟩, true⟩, ⟨.id .gradientUnits, .kw .objectBoundingBox, true⟩, ⟨.id .r, .length ⟨5, .none⟩, true⟩, ⟨.id .spreadMethod, .kw .pad, true⟩, ⟨.id .xlinkHref, .link 1, true⟩]⟩ .nil (.cons ⟨4, .elem .radialGradient, "rg1", [⟨.id .cx, .length ⟨10, .none⟩, true⟩, ⟨.id .cy, .length ⟨20, .none⟩, true⟩, ⟨.id .fx, .length ⟨10, .none⟩, true⟩, ⟨.id .fy, .length ⟨20, .none⟩, true⟩, ⟨.id .gradientUnits, .kw .objectBoundingBox, true⟩, ⟨.id .r, .length ⟨5, .none⟩, true⟩, ⟨.id .spreadMethod, .kw .pad, true⟩]⟩ .nil .nil)))) .nil) = true := by decide +kernel

-- resolve_gradients.rs:351 resolve_7
example : gives true [may Gradients.resolveRadial] (.cons ⟨0, .elem .svg, "", []⟩ (.cons ⟨1, .elem .linearGradient, "lg1", [⟨.id .gradientUnits, .kw .userSpaceOnUse, true⟩, ⟨.id .spreadMethod, .kw (.other "repeat"), true⟩, ⟨.id .x, .length ⟨5, .none⟩, true⟩, ⟨.id .y, .length ⟨5, .none⟩, true⟩]⟩ .nil (.cons ⟨2, .elem .radialGradient, "rg2", [⟨.id .cy, .length ⟨30, .none⟩, true⟩, ⟨.id .r, .length ⟨5, .none⟩, true⟩, ⟨.id .xlinkHref, .link 1, true⟩]⟩ .nil .nil)) .nil) (.cons ⟨0, .elem .svg, "", []⟩ (.cons ⟨1, .elem .linearGradient, "lg1", [⟨.id .gradientUnits, .kw .userSpaceOnUse, true⟩, ⟨.id .spreadMethod, .kw (.other "repeat"), true⟩, ⟨.id .x, .length ⟨5, .none⟩, true⟩, ⟨.id .y, .length ⟨5, .none⟩, true⟩]⟩ .nil (.cons ⟨2, .elem .radialGradient, "rg2", [⟨.id .cx, .length ⟨50, .percent⟩, true⟩, ⟨.id .cy, .length ⟨30, .none⟩, true⟩, ⟨.id .fx, .length ⟨50, .percent⟩, true⟩, ⟨.id .fy, .length ⟨30, .none⟩, true⟩, ⟨.id .gradientUnits, .kw .userSpaceOnUse, true⟩, ⟨.id .r, .length ⟨5, .none⟩, true⟩, ⟨.id .spreadMethod, .kw (.other "repeat"), true⟩, ⟨.id .xlinkHref, .link 1, true⟩]⟩ .nil .nil)) .nil) = true := by decide +kernel

-- resolve_gradients.rs:382 resolve_1
example : gives true [Stops.resolveStops] (.cons ⟨0, .elem .svg, "", []⟩ (.cons ⟨1, .elem .linearGradient, "", []⟩ (.cons ⟨2, .elem .stop, "", [⟨.id .offset, .length ⟨50, .percent⟩, true⟩]⟩ .nil .nil) .nil) .nil) (.cons ⟨0, .elem .svg, "", []⟩ (.cons ⟨1, .elem .linearGradient, "", []⟩ (.cons ⟨2, .elem .stop, "", [⟨.id .offset, .length ⟨(1 / 2), .none⟩, true⟩, ⟨.id .stopColor, .color 0 0 0, true⟩, ⟨.id .stopOpacity, .number 1, true⟩]⟩ .nil .nil) .nil) .nil) = true := by decide +kernel

-- resolve_inherit.rs:117 inherit_1
example : gives false [Inherit.resolveInherit] (.cons ⟨0, .elem .svg, "", [⟨.id .fill, .color 255 0 0, true⟩]⟩ (.cons ⟨1, .elem .rect, "", [⟨.id .fill, .kw .inherit, true⟩]⟩ .nil .nil) .nil) (.cons ⟨0, .elem .svg, "", [⟨.id .fill, .color 255 0 0, true⟩]⟩ (.cons ⟨1, .elem .rect, "", [⟨.id .fill, .color 255 0 0, true⟩]⟩ .nil .nil) .nil) = true := by decide +kernel

-- resolve_inherit.rs:126 inherit_2
example : gives false [Inherit.resolveInherit] (.cons ⟨0, .elem .svg, "", [⟨.id .fill, .color 255 0 0, true⟩]⟩ (.cons ⟨1, .elem .g, "", []⟩ (.cons ⟨2, .elem .rect, "", [⟨.id .fill, .kw .inherit, true⟩]⟩ .nil .nil) .nil) .nil) (.cons ⟨0, .elem .svg, "", [⟨.id .fill, .color 255 0 0, true⟩]⟩ (.cons ⟨1, .elem .g, "", []⟩ (.cons ⟨2, .elem .rect, "", [⟨.id .fill, .color 255 0 0, true⟩]⟩ .nil .nil) .nil) .nil) = true := by decide +kernel

-- resolve_inherit.rs:139 inherit_3
example : gives false [Inherit.resolveInherit] (.cons ⟨0, .elem .svg, "", [⟨.id .fill, .color 255 0 0, true⟩, ⟨.id .stroke, .color 0 255 0, true⟩]⟩ (.cons ⟨1, .elem .rect, "", [⟨.id .fill, .kw .inherit, true⟩, ⟨.id .stroke, .kw .inherit, true⟩]⟩ .nil .nil) .nil) (.cons ⟨0, .elem .svg, "", [⟨.id .fill, .color 255 0 0, true⟩, ⟨.id .stroke, .color 0 255 0, true⟩]⟩ (.cons ⟨1, .elem .rect, "", [⟨.id .fill, .color 255 0 0, true⟩, ⟨.id .stroke, .color 0 255 0, true⟩]⟩ .nil .nil) .nil) = true := by decide +kernel

-- resolve_inherit.rs:148 current_color_1
example : gives false [Inherit.resolveInherit] (.cons ⟨0, .elem .svg, "", [⟨.id .color, .color 255 0 0, true⟩]⟩ (.cons ⟨1, .elem .rect, "", [⟨.id .fill, .kw .currentColor, true⟩]⟩ .nil .nil) .nil) (.cons ⟨0, .elem .svg, "", [⟨.id .color, .color 255 0 0, true⟩]⟩ (.cons ⟨1, .elem .rect, "", [⟨.id .fill, .color 255 0 0, true⟩]⟩ .nil .nil) .nil) = true := by decide +kernel

-- resolve_inherit.rs:157 current_color_2
example : gives false [Inherit.resolveInherit] (.cons ⟨0, .elem .svg, "", []⟩ (.cons ⟨1, .elem .rect, "", [⟨.id .color, .color 255 0 0, true⟩, ⟨.id .fill, .kw .currentColor, true⟩]⟩ .nil .nil) .nil) (.cons ⟨0, .elem .svg, "", []⟩ (.cons ⟨1, .elem .rect, "", [⟨.id .color, .color 255 0 0, true⟩, ⟨.id .fill, .color 255 0 0, true⟩]⟩ .nil .nil) .nil) = true := by decide +kernel

-- resolve_inherit.rs:166 current_color_3
example : gives false [Inherit.resolveInherit] (.cons ⟨0, .elem .svg, "", [⟨.id .color, .color 255 0 0, true⟩]⟩ (.cons ⟨1, .elem .rect, "", [⟨.id .fill, .kw .currentColor, true⟩, ⟨.id .stroke, .kw .currentColor, true⟩]⟩ .nil .nil) .nil) (.cons ⟨0, .elem .svg, "", [⟨.id .color, .color 255 0 0, true⟩]⟩ (.cons ⟨1, .elem .rect, "", [⟨.id .fill, .color 255 0 0, true⟩, ⟨.id .stroke, .color 255 0 0, true⟩]⟩ .nil .nil) .nil) = true := by decide +kernel

-- resolve_inherit.rs:175 unresolvable_1
example : isErr (Inherit.resolveInherit (.cons ⟨0, .elem .svg, "", []⟩ (.cons ⟨1, .elem .rect, "", [⟨.id .fill, .kw .inherit, true⟩]⟩ .nil .nil) .nil)) = true := by decide +kernel

-- resolve_inherit.rs:181 unresolvable_2
example : isErr (Inherit.resolveInherit (.cons ⟨0, .elem .svg, "", []⟩ (.cons ⟨1, .elem .rect, "", [⟨.id .fill, .kw .currentColor, true⟩]⟩ .nil (.cons ⟨2, .elem .rect, "", [⟨.id .fill, .kw .inherit, true⟩]⟩ .nil .nil)) .nil)) = true := by decide +kernel

-- resolve_inherit.rs:188 unresolvable_3
example : isErr (Inherit.resolveInherit (.cons ⟨0, .elem .svg, "", [⟨.id .fontFamily, .kw .inherit, true⟩]⟩ .nil .nil)) = true := by decide +kernel

-- resolve_use.rs:119 resolve_1
example : gives false [may ResolveUse.resolveUse] (.cons ⟨0, .elem .svg, "", []⟩ (.cons ⟨1, .elem .defs, "", []⟩ (.cons ⟨2, .elem .rect, "r1", [⟨.id .width, .length ⟨10, .none⟩, true⟩]⟩ .nil .nil) (.cons ⟨3, .elem .use, "", [⟨.id .xlinkHref, .link 2, true⟩]⟩ .nil .nil)) .nil) (.cons ⟨0, .elem .svg, "", []⟩ (.cons ⟨1, .elem .defs, "", []⟩ .nil (.cons ⟨2, .elem .rect, "r1", [⟨.id .width, .length ⟨10, .none⟩, true⟩]⟩ .nil .nil)) .nil) = true := by decide +kernel

-- resolve_use.rs:132 resolve_2
example : gives false [may ResolveUse.resolveUse] (.cons ⟨0, .elem .svg, "", []⟩ (.cons ⟨1, .elem .defs, "", []⟩ (.cons ⟨2, .elem .rect, "r1", [⟨.id .width, .length ⟨10, .none⟩, true⟩]⟩ .nil .nil) (.cons ⟨3, .elem .use, "", [⟨.id .xlinkHref, .link 2, true⟩, ⟨.id .fill, .color 255 0 0, true⟩]⟩ .nil .nil)) .nil) (.cons ⟨0, .elem .svg, "", []⟩ (.cons ⟨1, .elem .defs, "", []⟩ .nil (.cons ⟨2, .elem .rect, "r1", [⟨.id .fill, .color 255 0 0, true⟩, ⟨.id .width, .length ⟨10, .none⟩, true⟩]⟩ .nil .nil)) .nil) = true := by decide +kernel

-- resolve_use.rs:145 resolve_3
example : gives false [may ResolveUse.resolveUse] (.cons ⟨0, .elem .svg, "", []⟩ (.cons ⟨1, .elem .defs, "", []⟩ (.cons ⟨2, .elem .rect, "r1", [⟨.id .width, .length ⟨10, .none⟩, true⟩]⟩ .nil .nil) (.cons ⟨3, .elem .use, "", [⟨.id .x, .length ⟨10, .none⟩, true⟩, ⟨.id .xlinkHref, .link 2, true⟩]⟩ .nil .nil)) .nil) (.cons ⟨0, .elem .svg, "", []⟩ (.cons ⟨1, .elem .defs, "", []⟩ .nil (.cons ⟨2, .elem .rect, "r1", [⟨.id .transform, .transform ⟨1, 0, 0, 1, 10, 0⟩, true⟩, ⟨.id .width, .length ⟨10, .none⟩, true⟩]⟩ .nil .nil)) .nil) = true := by decide +kernel

-- resolve_use.rs:158 resolve_4
example : gives false [may ResolveUse.resolveUse] (.cons ⟨0, .elem .svg, "", []⟩ (.cons ⟨1, .elem .defs, "", []⟩ (.cons ⟨2, .elem .rect, "r1", [⟨.id .width, .length ⟨10, .none⟩, true⟩]⟩ .nil .nil) (.cons ⟨3, .elem .use, "", [⟨.id .x, .length ⟨10, .none⟩, true⟩, ⟨.id .xlinkHref, .link 2, true⟩, ⟨.id .transform, .transform ⟨1, 0, 0, 1, 10, 10⟩, true⟩]⟩ .nil .nil)) .nil) (.cons ⟨0, .elem .svg, "", []⟩ (.cons ⟨1, .elem .defs, "", []⟩ .nil (.cons ⟨2, .elem .rect, "r1", [⟨.id .transform, .transform ⟨1, 0, 0, 1, 20, 10⟩, true⟩, ⟨.id .width, .length ⟨10, .none⟩, true⟩]⟩ .nil .nil)) .nil) = true := by decide +kernel

end Verif.RepoTest
