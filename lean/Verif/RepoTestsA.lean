import Verif.RepoTest
/-
Generated by tools/repotests.py: the unit tests of the files under `src/task` named below, run on the model.
Each example is one test of the repository: the document (or path) it starts from and the one it expects.
-/
set_option maxRecDepth 20000
set_option maxHeartbeats 1000000
namespace Verif.RepoTest
open Verif.Dom Verif.Pipeline

-- apply_transforms/gradients.rs:110 apply_1
example : gives false [may Gradients.resolveLinear, may Gradients.resolveRadial, Stops.resolveStops, may ApplyTs.applyToGradients] (.cons ⟨0, .elem .svg, "", []⟩ (.cons ⟨1, .elem .linearGradient, "", [⟨.id .x1, .length ⟨10, .none⟩, true⟩, ⟨.id .x2, .length ⟨10, .none⟩, true⟩, ⟨.id .y1, .length ⟨10, .none⟩, true⟩, ⟨.id .y2, .length ⟨10, .none⟩, true⟩, ⟨.id .gradientTransform, .transform ⟨1, 0, 0, 1, 10, 20⟩, true⟩]⟩ .nil .nil) .nil) (.cons ⟨0, .elem .svg, "", []⟩ (.cons ⟨1, .elem .linearGradient, "", [⟨.id .x1, .length ⟨20, .none⟩, true⟩, ⟨.id .x2, .length ⟨20, .none⟩, true⟩, ⟨.id .y1, .length ⟨30, .none⟩, true⟩, ⟨.id .y2, .length ⟨30, .none⟩, true⟩]⟩ .nil .nil) .nil) = true := by decide +kernel

-- apply_transforms/gradients.rs:119 apply_2
example : gives false [may Gradients.resolveLinear, may Gradients.resolveRadial, Stops.resolveStops, may ApplyTs.applyToGradients] (.cons ⟨0, .elem .svg, "", []⟩ (.cons ⟨1, .elem .radialGradient, "", [⟨.id .cx, .length ⟨10, .none⟩, true⟩, ⟨.id .cy, .length ⟨10, .none⟩, true⟩, ⟨.id .fx, .length ⟨10, .none⟩, true⟩, ⟨.id .fy, .length ⟨10, .none⟩, true⟩, ⟨.id .r, .length ⟨5, .none⟩, true⟩, ⟨.id .gradientTransform, .transform ⟨2, 0, 0, 2, 10, 20⟩, true⟩]⟩ .nil .nil) .nil) (.cons ⟨0, .elem .svg, "", []⟩ (.cons ⟨1, .elem .radialGradient, "", [⟨.id .cx, .length ⟨30, .none⟩, true⟩, ⟨.id .cy, .length ⟨40, .none⟩, true⟩, ⟨.id .fx, .length ⟨30, .none⟩, true⟩, ⟨.id .fy, .length ⟨40, .none⟩, true⟩, ⟨.id .r, .length ⟨10, .none⟩, true⟩]⟩ .nil .nil) .nil) = true := by decide +kernel

-- apply_transforms/gradients.rs:128 keep_1
example : gives false [may Gradients.resolveLinear, may Gradients.resolveRadial, Stops.resolveStops, may ApplyTs.applyToGradients] (.cons ⟨0, .elem .svg, "", []⟩ (.cons ⟨1, .elem .linearGradient, "", [⟨.id .gradientTransform, .transform ⟨1, 0, 0, 1, 10, 20⟩, true⟩]⟩ .nil .nil) .nil) (.cons ⟨0, .elem .svg, "", []⟩ (.cons ⟨1, .elem .linearGradient, "", [⟨.id .gradientTransform, .transform ⟨1, 0, 0, 1, 10, 20⟩, true⟩]⟩ .nil .nil) .nil) = true := by decide +kernel

-- apply_transforms/gradients.rs:135 keep_2
example : gives false [may Gradients.resolveLinear, may Gradients.resolveRadial, Stops.resolveStops, may ApplyTs.applyToGradients] (.cons ⟨0, .elem .svg, "", []⟩ (.cons ⟨1, .elem .linearGradient, "", [⟨.id .gradientTransform, .transform ⟨1, 0, (2620389 / 50000000), 1, 0, 0⟩, true⟩, ⟨.id .x1, .length ⟨10, .none⟩, true⟩, ⟨.id .x2, .length ⟨10, .none⟩, true⟩, ⟨.id .y1, .length ⟨10, .none⟩, true⟩, ⟨.id .y2, .length ⟨10, .none⟩, true⟩]⟩ .nil .nil) .nil) (.cons ⟨0, .elem .svg, "", []⟩ (.cons ⟨1, .elem .linearGradient, "", [⟨.id .gradientTransform, .transform ⟨1, 0, (2620389 / 50000000), 1, 0, 0⟩, true⟩, ⟨.id .x1, .length ⟨10, .none⟩, true⟩, ⟨.id .x2, .length ⟨10, .none⟩, true⟩, ⟨.id .y1, .length ⟨10, .none⟩, true⟩, ⟨.id .y2, .length ⟨10, .none⟩, true⟩]⟩ .nil .nil) .nil) = true := by decide +kernel

-- apply_transforms/gradients.rs:141 keep_3
example : gives false [may Gradients.resolveLinear, may Gradients.resolveRadial, Stops.resolveStops, may ApplyTs.applyToGradients] (.cons ⟨0, .elem .svg, "", []⟩ (.cons ⟨1, .elem .linearGradient, "", [⟨.id .gradientTransform, .transform ⟨(3 / 2), 0, 0, 2, 0, 0⟩, true⟩, ⟨.id .x1, .length ⟨10, .none⟩, true⟩, ⟨.id .x2, .length ⟨10, .none⟩, true⟩, ⟨.id .y1, .length ⟨10, .none⟩, true⟩, ⟨.id .y2, .length ⟨10, .none⟩, true⟩]⟩ .nil .nil) .nil) (.cons ⟨0, .elem .svg, "", []⟩ (.cons ⟨1, .elem .linearGradient, "", [⟨.id .gradientTransform, .transform ⟨(3 / 2), 0, 0, 2, 0, 0⟩, true⟩, ⟨.id .x1, .length ⟨10, .none⟩, true⟩, ⟨.id .x2, .length ⟨10, .none⟩, true⟩, ⟨.id .y1, .length ⟨10, .none⟩, true⟩, ⟨.id .y2, .length ⟨10, .none⟩, true⟩]⟩ .nil .nil) .nil) = true := by decide +kernel

-- apply_transforms/gradients.rs:147 keep_4
example : gives false [may Gradients.resolveLinear, may Gradients.resolveRadial, Stops.resolveStops, may ApplyTs.applyToGradients] (.cons ⟨0, .elem .svg, "", []⟩ (.cons ⟨1, .elem .linearGradient, "lg1", [⟨.id .gradientTransform, .transform ⟨1, 0, 0, 1, 10, 20⟩, true⟩, ⟨.id .x1, .length ⟨10, .none⟩, true⟩, ⟨.id .x2, .length ⟨10, .none⟩, true⟩, ⟨.id .y1, .length ⟨10, .none⟩, true⟩, ⟨.id .y2, .length ⟨10, .none⟩, true⟩]⟩ .nil (.cons ⟨2, .elem .linearGradient, "", [⟨.id .xlinkHref, .link 1, true⟩]⟩ .nil .nil)) .nil) (.cons ⟨0, .elem .svg, "", []⟩ (.cons ⟨1, .elem .linearGradient, "lg1", [⟨.id .gradientTransform, .transform ⟨1, 0, 0, 1, 10, 20⟩, true⟩, ⟨.id .x1, .length ⟨10, .none⟩, true⟩, ⟨.id .x2, .length ⟨10, .none⟩, true⟩, ⟨.id .y1, .length ⟨10, .none⟩, true⟩, ⟨.id .y2, .length ⟨10, .none⟩, true⟩]⟩ .nil (.cons ⟨2, .elem .linearGradient, "", [⟨.id .xlinkHref, .link 1, true⟩]⟩ .nil .nil)) .nil) = true := by decide +kernel

-- apply_transforms/preproc.rs:123 apply_1
example : gives false [prepare ⟨true, true, true⟩] (.cons ⟨0, .elem .svg, "", []⟩ (.cons ⟨1, .elem .g, "", [⟨.id .transform, .transform ⟨1, 0, 0, 1, 10, 20⟩, true⟩]⟩ (.cons ⟨2, .elem .rect, "", [⟨.id .transform, .transform ⟨2, 0, 0, 2, 0, 0⟩, true⟩]⟩ .nil (.cons ⟨3, .elem .path, "", []⟩ .nil .nil)) .nil) .nil) (.cons ⟨0, .elem .svg, "", []⟩ (.cons ⟨1, .elem .g, "", []⟩ (.cons ⟨2, .elem .rect, "", [⟨.id .transform, .transform ⟨2, 0, 0, 2, 10, 20⟩, true⟩]⟩ .nil (.cons ⟨3, .elem .path, "", [⟨.id .transform, .transform ⟨1, 0, 0, 1, 10, 20⟩, true⟩]⟩ .nil .nil)) .nil) .nil) = true := by decide +kernel

-- apply_transforms/preproc.rs:138 keep_1
example : gives false [prepare ⟨true, true, true⟩] (.cons ⟨0, .elem .svg, "", []⟩ (.cons ⟨1, .elem .g, "", [⟨.id .transform, .transform ⟨10, 0, 0, 20, 0, 0⟩, true⟩]⟩ (.cons ⟨2, .elem .path, "", [⟨.id .d, .path [⟨true, .moveTo 10 20⟩, ⟨true, .lineTo 30 40⟩], true⟩]⟩ .nil .nil) (.cons ⟨3, .elem .g, "", [⟨.id .transform, .transform ⟨10, 0, 0, 20, 0, 0⟩, true⟩]⟩ (.cons ⟨4, .elem .rect, "", [⟨.id .d, .path [⟨true, .moveTo 10 20⟩, ⟨true, .lineTo 30 40⟩], true⟩]⟩ .nil .nil) .nil)) .nil) (.cons ⟨0, .elem .svg, "", []⟩ (.cons ⟨1, .elem .g, "", [⟨.id .transform, .transform ⟨10, 0, 0, 20, 0, 0⟩, true⟩]⟩ (.cons ⟨2, .elem .path, "", [⟨.id .d, .path [⟨true, .moveTo 10 20⟩, ⟨true, .lineTo 30 40⟩], true⟩]⟩ .nil .nil) (.cons ⟨3, .elem .g, "", [⟨.id .transform, .transform ⟨10, 0, 0, 20, 0, 0⟩, true⟩]⟩ (.cons ⟨4, .elem .rect, "", [⟨.id .d, .path [⟨true, .moveTo 10 20⟩, ⟨true, .lineTo 30 40⟩], true⟩]⟩ .nil .nil) .nil)) .nil) = true := by decide +kernel

-- apply_transforms/preproc.rs:149 keep_2
example : gives false [prepare ⟨true, true, true⟩] (.cons ⟨0, .elem .svg, "", []⟩ (.cons ⟨1, .elem .linearGradient, "lg1", []⟩ .nil (.cons ⟨2, .elem .g, "", [⟨.id .fill, .funcLink 1, true⟩]⟩ (.cons ⟨3, .elem .rect, "", []⟩ .nil .nil) (.cons ⟨4, .elem .g, "", [⟨.id .fill, .funcLink 1, true⟩]⟩ (.cons ⟨5, .elem .path, "", []⟩ .nil .nil) .nil))) .nil) (.cons ⟨0, .elem .svg, "", []⟩ (.cons ⟨1, .elem .linearGradient, "lg1", []⟩ .nil (.cons ⟨2, .elem .g, "", [⟨.id .fill, .funcLink 1, true⟩]⟩ (.cons ⟨3, .elem .rect, "", []⟩ .nil .nil) (.cons ⟨4, .elem .g, "", [⟨.id .fill, .funcLink 1, true⟩]⟩ (.cons ⟨5, .elem .path, "", []⟩ .nil .nil) .nil))) .nil) = true := by decide +kernel

-- apply_transforms/preproc.rs:162 keep_3
example : gives false [prepare ⟨true, true, true⟩] (.cons ⟨0, .elem .svg, "", []⟩ (.cons ⟨1, .elem .g, "", [⟨.id .transform, .transform ⟨10, 0, 0, 20, 0, 0⟩, true⟩]⟩ (.cons ⟨2, .elem .g, "", []⟩ .nil (.cons ⟨3, .elem .rect, "", []⟩ .nil .nil)) .nil) .nil) (.cons ⟨0, .elem .svg, "", []⟩ (.cons ⟨1, .elem .g, "", [⟨.id .transform, .transform ⟨10, 0, 0, 20, 0, 0⟩, true⟩]⟩ (.cons ⟨2, .elem .g, "", []⟩ .nil (.cons ⟨3, .elem .rect, "", []⟩ .nil .nil)) .nil) .nil) = true := by decide +kernel

-- apply_transforms/preproc.rs:172 keep_4
example : gives false [prepare ⟨true, true, true⟩] (.cons ⟨0, .elem .svg, "", []⟩ (.cons ⟨1, .elem .g, "", [⟨.id .transform, .transform ⟨10, 0, 0, 10, 0, 0⟩, true⟩]⟩ (.cons ⟨2, .elem .rect, "", [⟨.id .transform, .transform ⟨10, 0, 0, 30, 0, 0⟩, true⟩]⟩ .nil .nil) .nil) .nil) (.cons ⟨0, .elem .svg, "", []⟩ (.cons ⟨1, .elem .g, "", [⟨.id .transform, .transform ⟨10, 0, 0, 10, 0, 0⟩, true⟩]⟩ (.cons ⟨2, .elem .rect, "", [⟨.id .transform, .transform ⟨10, 0, 0, 30, 0, 0⟩, true⟩]⟩ .nil .nil) .nil) .nil) = true := by decide +kernel

-- apply_transforms/preproc.rs:181 keep_5
example : gives false [prepare ⟨true, true, true⟩] (.cons ⟨0, .elem .svg, "", []⟩ (.cons ⟨1, .elem .g, "", [⟨.id .transform, .transform ⟨10, 0, 0, 10, 0, 0⟩, true⟩]⟩ (.cons ⟨2, .elem .rect, "", [⟨.id .transform, .transform ⟨10, 0, 0, 30, 0, 0⟩, true⟩]⟩ .nil (.cons ⟨3, .other "test", "", []⟩ .nil .nil)) (.cons ⟨4, .elem .g, "", [⟨.id .transform, .transform ⟨10, 0, 0, 10, 0, 0⟩, true⟩]⟩ (.cons ⟨5, .comment " test ", "", []⟩ .nil .nil) (.cons ⟨6, .elem .g, "", [⟨.id .transform, .transform ⟨10, 0, 0, 10, 0, 0⟩, true⟩]⟩ (.cons ⟨7, .text "Text", "", []⟩ .nil .nil) .nil))) .nil) (.cons ⟨0, .elem .svg, "", []⟩ (.cons ⟨1, .elem .g, "", [⟨.id .transform, .transform ⟨10, 0, 0, 10, 0, 0⟩, true⟩]⟩ (.cons ⟨2, .elem .rect, "", [⟨.id .transform, .transform ⟨10, 0, 0, 30, 0, 0⟩, true⟩]⟩ .nil (.cons ⟨3, .other "test", "", []⟩ .nil .nil)) (.cons ⟨4, .elem .g, "", []⟩ (.cons ⟨5, .comment " test ", "", []⟩ .nil .nil) (.cons ⟨6, .elem .g, "", []⟩ (.cons ⟨7, .text "Text", "", []⟩ .nil .nil) .nil))) .nil) = true := by decide +kernel

-- apply_transforms/shapes.rs:133 apply_1
example : gives false [may Gradients.resolveLinear, may Gradients.resolveRadial, Stops.resolveStops, may ApplyTs.applyToShapes] (.cons ⟨0, .elem .svg, "", []⟩ (.cons ⟨1, .elem .rect, "", [⟨.id .height, .length ⟨10, .none⟩, true⟩, ⟨.id .width, .length ⟨10, .none⟩, true⟩, ⟨.id .x, .length ⟨10, .none⟩, true⟩, ⟨.id .y, .length ⟨10, .none⟩, true⟩, ⟨.id .transform, .transform ⟨1, 0, 0, 1, 10, 20⟩, true⟩]⟩ .nil .nil) .nil) (.cons ⟨0, .elem .svg, "", []⟩ (.cons ⟨1, .elem .rect, "", [⟨.id .height, .length ⟨10, .none⟩, true⟩, ⟨.id .width, .length ⟨10, .none⟩, true⟩, ⟨.id .x, .length ⟨20, .none⟩, true⟩, ⟨.id .y, .length ⟨30, .none⟩, true⟩]⟩ .nil .nil) .nil) = true := by decide +kernel

-- apply_transforms/shapes.rs:142 apply_2
example : gives false [may Gradients.resolveLinear, may Gradients.resolveRadial, Stops.resolveStops, may ApplyTs.applyToShapes] (.cons ⟨0, .elem .svg, "", []⟩ (.cons ⟨1, .elem .rect, "", [⟨.id .height, .length ⟨10, .none⟩, true⟩, ⟨.id .rx, .length ⟨2, .none⟩, true⟩, ⟨.id .ry, .length ⟨2, .none⟩, true⟩, ⟨.id .width, .length ⟨10, .none⟩, true⟩, ⟨.id .x, .length ⟨10, .none⟩, true⟩, ⟨.id .y, .length ⟨10, .none⟩, true⟩, ⟨.id .transform, .transform ⟨2, 0, 0, 2, 10, 20⟩, true⟩]⟩ .nil .nil) .nil) (.cons ⟨0, .elem .svg, "", []⟩ (.cons ⟨1, .elem .rect, "", [⟨.id .height, .length ⟨20, .none⟩, true⟩, ⟨.id .rx, .length ⟨4, .none⟩, true⟩, ⟨.id .ry, .length ⟨4, .none⟩, true⟩, ⟨.id .strokeWidth, .length ⟨2, .none⟩, true⟩, ⟨.id .width, .length ⟨20, .none⟩, true⟩, ⟨.id .x, .length ⟨30, .none⟩, true⟩, ⟨.id .y, .length ⟨40, .none⟩, true⟩]⟩ .nil .nil) .nil) = true := by decide +kernel

-- apply_transforms/shapes.rs:151 apply_3
example : gives false [may Gradients.resolveLinear, may Gradients.resolveRadial, Stops.resolveStops, may ApplyTs.applyToShapes] (.cons ⟨0, .elem .svg, "", []⟩ (.cons ⟨1, .elem .rect, "", [⟨.id .height, .length ⟨10, .none⟩, true⟩, ⟨.id .width, .length ⟨10, .none⟩, true⟩, ⟨.id .transform, .transform ⟨2, 0, 0, 2, 10, 20⟩, true⟩]⟩ .nil .nil) .nil) (.cons ⟨0, .elem .svg, "", []⟩ (.cons ⟨1, .elem .rect, "", [⟨.id .height, .length ⟨20, .none⟩, true⟩, ⟨.id .strokeWidth, .length ⟨2, .none⟩, true⟩, ⟨.id .width, .length ⟨20, .none⟩, true⟩, ⟨.id .x, .length ⟨10, .none⟩, true⟩, ⟨.id .y, .length ⟨20, .none⟩, true⟩]⟩ .nil .nil) .nil) = true := by decide +kernel

-- apply_transforms/shapes.rs:160 apply_4
example : gives false [may Gradients.resolveLinear, may Gradients.resolveRadial, Stops.resolveStops, may ApplyTs.applyToShapes] (.cons ⟨0, .elem .svg, "", [⟨.id .strokeWidth, .length ⟨2, .none⟩, true⟩]⟩ (.cons ⟨1, .elem .rect, "", [⟨.id .height, .length ⟨10, .none⟩, true⟩, ⟨.id .width, .length ⟨10, .none⟩, true⟩, ⟨.id .transform, .transform ⟨2, 0, 0, 2, 0, 0⟩, true⟩]⟩ .nil .nil) .nil) (.cons ⟨0, .elem .svg, "", [⟨.id .strokeWidth, .length ⟨2, .none⟩, true⟩]⟩ (.cons ⟨1, .elem .rect, "", [⟨.id .height, .length ⟨20, .none⟩, true⟩, ⟨.id .strokeWidth, .length ⟨4, .none⟩, true⟩, ⟨.id .width, .length ⟨20, .none⟩, true⟩, ⟨.id .x, .length ⟨0, .none⟩, true⟩, ⟨.id .y, .length ⟨0, .none⟩, true⟩]⟩ .nil .nil) .nil) = true := by decide +kernel

-- apply_transforms/shapes.rs:169 apply_circle_1
example : gives false [may Gradients.resolveLinear, may Gradients.resolveRadial, Stops.resolveStops, may ApplyTs.applyToShapes] (.cons ⟨0, .elem .svg, "", []⟩ (.cons ⟨1, .elem .circle, "", [⟨.id .cx, .length ⟨10, .none⟩, true⟩, ⟨.id .cy, .length ⟨10, .none⟩, true⟩, ⟨.id .r, .length ⟨15, .none⟩, true⟩, ⟨.id .transform, .transform ⟨2, 0, 0, 2, 10, 20⟩, true⟩]⟩ .nil .nil) .nil) (.cons ⟨0, .elem .svg, "", []⟩ (.cons ⟨1, .elem .circle, "", [⟨.id .cx, .length ⟨30, .none⟩, true⟩, ⟨.id .cy, .length ⟨40, .none⟩, true⟩, ⟨.id .r, .length ⟨30, .none⟩, true⟩, ⟨.id .strokeWidth, .length ⟨2, .none⟩, true⟩]⟩ .nil .nil) .nil) = true := by decide +kernel

-- apply_transforms/shapes.rs:178 apply_ellipse_1
example : gives false [may Gradients.resolveLinear, may Gradients.resolveRadial, Stops.resolveStops, may ApplyTs.applyToShapes] (.cons ⟨0, .elem .svg, "", []⟩ (.cons ⟨1, .elem .ellipse, "", [⟨.id .cx, .length ⟨10, .none⟩, true⟩, ⟨.id .cy, .length ⟨10, .none⟩, true⟩, ⟨.id .rx, .length ⟨15, .none⟩, true⟩, ⟨.id .ry, .length ⟨15, .none⟩, true⟩, ⟨.id .transform, .transform ⟨2, 0, 0, 2, 10, 20⟩, true⟩]⟩ .nil .nil) .nil) (.cons ⟨0, .elem .svg, "", []⟩ (.cons ⟨1, .elem .ellipse, "", [⟨.id .cx, .length ⟨30, .none⟩, true⟩, ⟨.id .cy, .length ⟨40, .none⟩, true⟩, ⟨.id .rx, .length ⟨30, .none⟩, true⟩, ⟨.id .ry, .length ⟨30, .none⟩, true⟩, ⟨.id .strokeWidth, .length ⟨2, .none⟩, true⟩]⟩ .nil .nil) .nil) = true := by decide +kernel

-- apply_transforms/shapes.rs:187 apply_line_1
example : gives false [may Gradients.resolveLinear, may Gradients.resolveRadial, Stops.resolveStops, may ApplyTs.applyToShapes] (.cons ⟨0, .elem .svg, "", []⟩ (.cons ⟨1, .elem .line, "", [⟨.id .x1, .length ⟨10, .none⟩, true⟩, ⟨.id .x2, .length ⟨10, .none⟩, true⟩, ⟨.id .y1, .length ⟨15, .none⟩, true⟩, ⟨.id .y2, .length ⟨15, .none⟩, true⟩, ⟨.id .transform, .transform ⟨2, 0, 0, 2, 10, 20⟩, true⟩]⟩ .nil .nil) .nil) (.cons ⟨0, .elem .svg, "", []⟩ (.cons ⟨1, .elem .line, "", [⟨.id .strokeWidth, .length ⟨2, .none⟩, true⟩, ⟨.id .x1, .length ⟨30, .none⟩, true⟩, ⟨.id .x2, .length ⟨30, .none⟩, true⟩, ⟨.id .y1, .length ⟨50, .none⟩, true⟩, ⟨.id .y2, .length ⟨50, .none⟩, true⟩]⟩ .nil .nil) .nil) = true := by decide +kernel

-- apply_transforms/shapes.rs:197 keep_1
example : gives false [may Gradients.resolveLinear, may Gradients.resolveRadial, Stops.resolveStops, may ApplyTs.applyToShapes] (.cons ⟨0, .elem .svg, "", []⟩ (.cons ⟨1, .elem .rect, "", [⟨.id .height, .length ⟨10, .none⟩, true⟩, ⟨.id .transform, .transform ⟨2, 0, 0, 2, 0, 0⟩, true⟩, ⟨.id .width, .length ⟨10, .none⟩, true⟩, ⟨.id .x, .length ⟨10, .in_⟩, true⟩, ⟨.id .y, .length ⟨10, .none⟩, true⟩]⟩ .nil .nil) .nil) (.cons ⟨0, .elem .svg, "", []⟩ (.cons ⟨1, .elem .rect, "", [⟨.id .height, .length ⟨10, .none⟩, true⟩, ⟨.id .transform, .transform ⟨2, 0, 0, 2, 0, 0⟩, true⟩, ⟨.id .width, .length ⟨10, .none⟩, true⟩, ⟨.id .x, .length ⟨10, .in_⟩, true⟩, ⟨.id .y, .length ⟨10, .none⟩, true⟩]⟩ .nil .nil) .nil) = true := by decide +kernel

-- apply_transforms/shapes.rs:205 keep_2
example : gives false [may Gradients.resolveLinear, may Gradients.resolveRadial, Stops.resolveStops, may ApplyTs.applyToShapes] (.cons ⟨0, .elem .svg, "", []⟩ (.cons ⟨1, .elem .g, "", [⟨.id .transform, .transform ⟨2, 0, 0, 3, 0, 0⟩, true⟩]⟩ (.cons ⟨2, .elem .rect, "", [⟨.id .height, .length ⟨10, .none⟩, true⟩, ⟨.id .width, .length ⟨10, .none⟩, true⟩, ⟨.id .x, .length ⟨10, .none⟩, true⟩, ⟨.id .y, .length ⟨10, .none⟩, true⟩]⟩ .nil .nil) (.cons ⟨3, .elem .mask, "m", []⟩ .nil (.cons ⟨4, .elem .g, "", [⟨.id .mask, .funcLink 3, true⟩, ⟨.id .transform, .transform ⟨2, 0, 0, 2, 0, 0⟩, true⟩]⟩ (.cons ⟨5, .elem .rect, "", [⟨.id .height, .length ⟨10, .none⟩, true⟩, ⟨.id .width, .length ⟨10, .none⟩, true⟩, ⟨.id .x, .length ⟨10, .none⟩, true⟩, ⟨.id .y, .length ⟨10, .none⟩, true⟩]⟩ .nil .nil) .nil))) .nil) (.cons ⟨0, .elem .svg, "", []⟩ (.cons ⟨1, .elem .g, "", [⟨.id .transform, .transform ⟨2, 0, 0, 3, 0, 0⟩, true⟩]⟩ (.cons ⟨2, .elem .rect, "", [⟨.id .height, .length ⟨10, .none⟩, true⟩, ⟨.id .width, .length ⟨10, .none⟩, true⟩, ⟨.id .x, .length ⟨10, .none⟩, true⟩, ⟨.id .y, .length ⟨10, .none⟩, true⟩]⟩ .nil .nil) (.cons ⟨3, .elem .mask, "m", []⟩ .nil (.cons ⟨4, .elem .g, "", [⟨.id .mask, .funcLink 3, true⟩, ⟨.id .transform, .transform ⟨2, 0, 0, 2, 0, 0⟩, true⟩]⟩ (.cons ⟨5, .elem .rect, "", [⟨.id .height, .length ⟨10, .none⟩, true⟩, ⟨.id .width, .length ⟨10, .none⟩, true⟩, ⟨.id .x, .length ⟨10, .none⟩, true⟩, ⟨.id .y, .length ⟨10, .none⟩, true⟩]⟩ .nil .nil) .nil))) .nil) = true := by decide +kernel

-- conv_shapes.rs:190 conv_line_1
example : gives false [may ConvShapes.convertShapes] (.cons ⟨0, .elem .svg, "", []⟩ (.cons ⟨1, .elem .line, "", [⟨.id .x1, .length ⟨100, .none⟩, true⟩, ⟨.id .y1, .length ⟨200, .none⟩, true⟩, ⟨.id .x2, .length ⟨300, .none⟩, true⟩, ⟨.id .y2, .length ⟨400, .none⟩, true⟩]⟩ .nil .nil) .nil) (.cons ⟨0, .elem .svg, "", []⟩ (.cons ⟨1, .elem .path, "", [⟨.id .d, .path [⟨true, .moveTo 100 200⟩, ⟨true, .lineTo 300 400⟩], true⟩]⟩ .nil .nil) .nil) = true := by decide +kernel

-- conv_shapes.rs:199 conv_line_2
example : gives false [may ConvShapes.convertShapes] (.cons ⟨0, .elem .svg, "", []⟩ (.cons ⟨1, .elem .line, "", [⟨.id .x2, .length ⟨30, .none⟩, true⟩]⟩ .nil .nil) .nil) (.cons ⟨0, .elem .svg, "", []⟩ (.cons ⟨1, .elem .path, "", [⟨.id .d, .path [⟨true, .moveTo 0 0⟩, ⟨true, .lineTo 30 0⟩], true⟩]⟩ .nil .nil) .nil) = true := by decide +kernel

-- conv_shapes.rs:209 conv_line_3
example : gives false [may ConvShapes.convertShapes] (.cons ⟨0, .elem .svg, "", []⟩ (.cons ⟨1, .elem .line, "", [⟨.id .x2, .length ⟨30, .pt⟩, true⟩]⟩ .nil .nil) .nil) (.cons ⟨0, .elem .svg, "", []⟩ (.cons ⟨1, .elem .line, "", [⟨.id .x2, .length ⟨30, .pt⟩, true⟩]⟩ .nil .nil) .nil) = true := by decide +kernel

-- conv_shapes.rs:218 conv_rect_1
example : gives false [may ConvShapes.convertShapes] (.cons ⟨0, .elem .svg, "", []⟩ (.cons ⟨1, .elem .rect, "", [⟨.id .x, .length ⟨10, .none⟩, true⟩, ⟨.id .y, .length ⟨20, .none⟩, true⟩, ⟨.id .width, .length ⟨30, .none⟩, true⟩, ⟨.id .height, .length ⟨40, .none⟩, true⟩]⟩ .nil .nil) .nil) (.cons ⟨0, .elem .svg, "", []⟩ (.cons ⟨1, .elem .path, "", [⟨.id .d, .path [⟨true, .moveTo 10 20⟩, ⟨true, .hline 40⟩, ⟨true, .vline 60⟩, ⟨true, .hline 10⟩, ⟨true, .close⟩], true⟩]⟩ .nil .nil) .nil) = true := by decide +kernel

-- conv_shapes.rs:227 conv_rect_2
example : gives false [may ConvShapes.convertShapes] (.cons ⟨0, .elem .svg, "", []⟩ (.cons ⟨1, .elem .rect, "", [⟨.id .width, .length ⟨30, .none⟩, true⟩, ⟨.id .height, .length ⟨40, .none⟩, true⟩]⟩ .nil .nil) .nil) (.cons ⟨0, .elem .svg, "", []⟩ (.cons ⟨1, .elem .path, "", [⟨.id .d, .path [⟨true, .moveTo 0 0⟩, ⟨true, .hline 30⟩, ⟨true, .vline 40⟩, ⟨true, .hline 0⟩, ⟨true, .close⟩], true⟩]⟩ .nil .nil) .nil) = true := by decide +kernel

-- conv_shapes.rs:236 conv_rect_3
example : gives false [may ConvShapes.convertShapes] (.cons ⟨0, .elem .svg, "", []⟩ (.cons ⟨1, .elem .rect, "", [⟨.id .width, .length ⟨30, .none⟩, true⟩, ⟨.id .height, .length ⟨30, .none⟩, true⟩, ⟨.id .rx, .length ⟨1, .none⟩, true⟩]⟩ .nil (.cons ⟨2, .elem .rect, "", [⟨.id .width, .length ⟨30, .none⟩, true⟩, ⟨.id .height, .length ⟨30, .none⟩, true⟩, ⟨.id .ry, .length ⟨1, .none⟩, true⟩]⟩ .nil (.cons ⟨3, .elem .rect, "", [⟨.id .width, .length ⟨30, .none⟩, true⟩, ⟨.id .height, .length ⟨0, .none⟩, true⟩]⟩ .nil (.cons ⟨4, .elem .rect, "", [⟨.id .width, .length ⟨0, .none⟩, true⟩, ⟨.id .height, .length ⟨30, .none⟩, true⟩]⟩ .nil .nil)))) .nil) (.cons ⟨0, .elem .svg, "", []⟩ (.cons ⟨1, .elem .rect, "", [⟨.id .height, .length ⟨30, .none⟩, true⟩, ⟨.id .rx, .length ⟨1, .none⟩, true⟩, ⟨.id .width, .length ⟨30, .none⟩, true⟩]⟩ .nil (.cons ⟨2, .elem .rect, "", [⟨.id .height, .length ⟨30, .none⟩, true⟩, ⟨.id .ry, .length ⟨1, .none⟩, true⟩, ⟨.id .width, .length ⟨30, .none⟩, true⟩]⟩ .nil (.cons ⟨3, .elem .rect, "", [⟨.id .height, .length ⟨0, .none⟩, true⟩, ⟨.id .width, .length ⟨30, .none⟩, true⟩]⟩ .nil (.cons ⟨4, .elem .rect, "", [⟨.id .height, .length ⟨30, .none⟩, true⟩, ⟨.id .width, .length ⟨0, .none⟩, true⟩]⟩ .nil .nil)))) .nil) = true := by decide +kernel

-- conv_shapes.rs:251 conv_polyline_1
example : gives false [may ConvShapes.convertShapes] (.cons ⟨0, .elem .svg, "", []⟩ (.cons ⟨1, .elem .polyline, "", [⟨.id .points, .numberList [30, 40, 50, 60, 70, 80], true⟩]⟩ .nil .nil) .nil) (.cons ⟨0, .elem .svg, "", []⟩ (.cons ⟨1, .elem .path, "", [⟨.id .d, .path [⟨true, .moveTo 30 40⟩, ⟨true, .lineTo 50 60⟩, ⟨true, .lineTo 70 80⟩], true⟩]⟩ .nil .nil) .nil) = true := by decide +kernel

-- conv_shapes.rs:260 conv_polyline_2
example : gives false [may ConvShapes.convertShapes] (.cons ⟨0, .elem .svg, "", []⟩ (.cons ⟨1, .elem .polyline, "", []⟩ .nil .nil) .nil) (.cons ⟨0, .elem .svg, "", []⟩ (.cons ⟨1, .elem .polyline, "", []⟩ .nil .nil) .nil) = true := by decide +kernel

-- conv_shapes.rs:269 conv_polygon_1
example : gives false [may ConvShapes.convertShapes] (.cons ⟨0, .elem .svg, "", []⟩ (.cons ⟨1, .elem .polygon, "", [⟨.id .points, .numberList [30, 40, 50, 60, 70, 80], true⟩]⟩ .nil .nil) .nil) (.cons ⟨0, .elem .svg, "", []⟩ (.cons ⟨1, .elem .path, "", [⟨.id .d, .path [⟨true, .moveTo 30 40⟩, ⟨true, .lineTo 50 60⟩, ⟨true, .lineTo 70 80⟩, ⟨true, .close⟩], true⟩]⟩ .nil .nil) .nil) = true := by decide +kernel

-- final_fixes.rs:78 rm_defs_1
example : gives false [may Simple.removeEmptyDefs] (.cons ⟨0, .elem .svg, "", []⟩ (.cons ⟨1, .elem .defs, "", []⟩ .nil .nil) .nil) (.cons ⟨0, .elem .svg, "", []⟩ .nil .nil) = true := by decide +kernel

-- final_fixes.rs:85 rm_defs_2
example : gives false [may Simple.removeEmptyDefs] (.cons ⟨0, .elem .svg, "", []⟩ (.cons ⟨1, .elem .rect, "", []⟩ .nil (.cons ⟨2, .comment "comment", "", []⟩ .nil (.cons ⟨3, .elem .defs, "", []⟩ .nil .nil))) .nil) (.cons ⟨0, .elem .svg, "", []⟩ (.cons ⟨1, .elem .rect, "", []⟩ .nil (.cons ⟨2, .comment "comment", "", []⟩ .nil .nil)) .nil) = true := by decide +kernel

-- final_fixes.rs:97 keep_1
example : gives false [may Simple.removeEmptyDefs] (.cons ⟨0, .elem .svg, "", []⟩ (.cons ⟨1, .elem .defs, "", []⟩ (.cons ⟨2, .elem .rect, "", []⟩ .nil .nil) .nil) .nil) (.cons ⟨0, .elem .svg, "", []⟩ (.cons ⟨1, .elem .defs, "", []⟩ (.cons ⟨2, .elem .rect, "", []⟩ .nil .nil) .nil) .nil) = true := by decide +kernel

-- final_fixes.rs:121 xmlns_rm_1
example : gives false [may (Simple.fixXmlnsAttribute true)] (.cons ⟨0, .elem .svg, "", [⟨.id .xmlnsXlink, .str "http://www.w3.org/1999/xlink", true⟩]⟩ .nil .nil) (.cons ⟨0, .elem .svg, "", []⟩ .nil .nil) = true := by decide +kernel

-- final_fixes.rs:126 xmlns_rm_2
example : gives false [may (Simple.fixXmlnsAttribute false)] (.cons ⟨0, .elem .svg, "", [⟨.id .xmlnsXlink, .str "http://www.w3.org/1999/xlink", true⟩]⟩ .nil .nil) (.cons ⟨0, .elem .svg, "", [⟨.id .xmlnsXlink, .str "http://www.w3.org/1999/xlink", true⟩]⟩ .nil .nil) = true := by decide +kernel

-- final_fixes.rs:131 xmlns_keep_1
example : gives false [may (Simple.fixXmlnsAttribute true)] (.cons ⟨0, .elem .svg, "", [⟨.id .xmlnsXlink, .str "http://www.w3.org/1999/xlink", true⟩]⟩ (.cons ⟨1, .elem .rect, "rect1", []⟩ .nil (.cons ⟨2, .elem .use, "", [⟨.id .xlinkHref, .link 1, true⟩]⟩ .nil .nil)) .nil) (.cons ⟨0, .elem .svg, "", [⟨.id .xmlnsXlink, .str "http://www.w3.org/1999/xlink", true⟩]⟩ (.cons ⟨1, .elem .rect, "rect1", []⟩ .nil (.cons ⟨2, .elem .use, "", [⟨.id .xlinkHref, .link 1, true⟩]⟩ .nil .nil)) .nil) = true := by decide +kernel

-- final_fixes.rs:142 xmlns_keep_2
example : gives false [may (Simple.fixXmlnsAttribute true)] (.cons ⟨0, .elem .svg, "", [⟨.id .xmlnsXlink, .str "http://www.w3.org/1999/xlink", true⟩]⟩ (.cons ⟨1, .elem .fontFaceUri, "", [⟨.id .xlinkHref, .str "../resources/SVGFreeSans.svg#ascii", true⟩]⟩ .nil .nil) .nil) (.cons ⟨0, .elem .svg, "", [⟨.id .xmlnsXlink, .str "http://www.w3.org/1999/xlink", true⟩]⟩ (.cons ⟨1, .elem .fontFaceUri, "", [⟨.id .xlinkHref, .str "../resources/SVGFreeSans.svg#ascii", true⟩]⟩ .nil .nil) .nil) = true := by decide +kernel

-- final_fixes.rs:151 xmlns_fix_1
example : gives false [may (Simple.fixXmlnsAttribute true)] (.cons ⟨0, .elem .svg, "", []⟩ (.cons ⟨1, .elem .rect, "rect1", []⟩ .nil (.cons ⟨2, .elem .use, "", [⟨.id .xlinkHref, .link 1, true⟩]⟩ .nil .nil)) .nil) (.cons ⟨0, .elem .svg, "", [⟨.id .xmlnsXlink, .str "http://www.w3.org/1999/xlink", true⟩]⟩ (.cons ⟨1, .elem .rect, "rect1", []⟩ .nil (.cons ⟨2, .elem .use, "", [⟨.id .xlinkHref, .link 1, true⟩]⟩ .nil .nil)) .nil) = true := by decide +kernel

-- fix_attrs.rs:84 fix_rect_1
example : gives false [may Stops.fixInvalidAttributes] (.cons ⟨0, .elem .svg, "", []⟩ (.cons ⟨1, .elem .rect, "", []⟩ .nil (.cons ⟨2, .elem .rect, "", [⟨.id .width, .length ⟨(-1), .none⟩, true⟩, ⟨.id .height, .length ⟨(-1), .none⟩, true⟩]⟩ .nil (.cons ⟨3, .elem .rect, "", [⟨.id .width, .length ⟨30, .none⟩, true⟩]⟩ .nil (.cons ⟨4, .elem .rect, "", [⟨.id .height, .length ⟨40, .none⟩, true⟩]⟩ .nil (.cons ⟨5, .elem .rect, "", [⟨.id .width, .length ⟨(-30), .none⟩, true⟩]⟩ .nil (.cons ⟨6, .elem .rect, "", [⟨.id .height, .length ⟨(-40), .none⟩, true⟩]⟩ .nil (.cons ⟨7, .elem .rect, "", [⟨.id .width, .length ⟨0, .none⟩, true⟩]⟩ .nil (.cons ⟨8, .elem .rect, "", [⟨.id .height, .length ⟨0, .none⟩, true⟩]⟩ .nil .nil)))))))) .nil) (.cons ⟨0, .elem .svg, "", []⟩ (.cons ⟨1, .elem .rect, "", [⟨.id .height, .length ⟨0, .none⟩, true⟩, ⟨.id .width, .length ⟨0, .none⟩, true⟩]⟩ .nil (.cons ⟨2, .elem .rect, "", [⟨.id .height, .length ⟨0, .none⟩, true⟩, ⟨.id .width, .length ⟨0, .none⟩, true⟩]⟩ .nil (.cons ⟨3, .elem .rect, "", [⟨.id .height, .length ⟨0, .none⟩, true⟩, ⟨.id .width, .length ⟨30, .none⟩, true⟩]⟩ .nil (.cons ⟨4, .elem .rect, "", [⟨.id .height, .length ⟨40, .none⟩, true⟩, ⟨.id .width, .length ⟨0, .none⟩, true⟩]⟩ .nil (.cons ⟨5, .elem .rect, "", [⟨.id .height, .length ⟨0, .none⟩, true⟩, ⟨.id .width, .length ⟨0, .none⟩, true⟩]⟩ .nil (.cons ⟨6, .elem .rect, "", [⟨.id .height, .length ⟨0, .none⟩, true⟩, ⟨.id .width, .length ⟨0, .none⟩, true⟩]⟩ .nil (.cons ⟨7, .elem .rect, "", [⟨.id .height, .length ⟨0, .none⟩, true⟩, ⟨.id .width, .length ⟨0, .none⟩, true⟩]⟩ .nil (.cons ⟨8, .elem .rect, "", [⟨.id .height, .length ⟨0, .none⟩, true⟩, ⟨.id .width, .length ⟨0, .none⟩, true⟩]⟩ .nil .nil)))))))) .nil) = true := by decide +kernel

-- fix_attrs.rs:107 fix_rect_2
example : gives false [may Stops.fixInvalidAttributes] (.cons ⟨0, .elem .svg, "", []⟩ (.cons ⟨1, .elem .rect, "", [⟨.id .height, .length ⟨50, .none⟩, true⟩, ⟨.id .width, .length ⟨40, .none⟩, true⟩]⟩ .nil (.cons ⟨2, .elem .rect, "", [⟨.id .height, .length ⟨50, .none⟩, true⟩, ⟨.id .rx, .length ⟨(-5), .none⟩, true⟩, ⟨.id .width, .length ⟨40, .none⟩, true⟩]⟩ .nil (.cons ⟨3, .elem .rect, "", [⟨.id .height, .length ⟨50, .none⟩, true⟩, ⟨.id .ry, .length ⟨(-5), .none⟩, true⟩, ⟨.id .width, .length ⟨40, .none⟩, true⟩]⟩ .nil (.cons ⟨4, .elem .rect, "", [⟨.id .height, .length ⟨50, .none⟩, true⟩, ⟨.id .rx, .length ⟨(-5), .none⟩, true⟩, ⟨.id .ry, .length ⟨(-5), .none⟩, true⟩, ⟨.id .width, .length ⟨40, .none⟩, true⟩]⟩ .nil .nil)))) .nil) (.cons ⟨0, .elem .svg, "", []⟩ (.cons ⟨1, .elem .rect, "", [⟨.id .height, .length ⟨50, .none⟩, true⟩, ⟨.id .width, .length ⟨40, .none⟩, true⟩]⟩ .nil (.cons ⟨2, .elem .rect, "", [⟨.id .height, .length ⟨50, .none⟩, true⟩, ⟨.id .width, .length ⟨40, .none⟩, true⟩]⟩ .nil (.cons ⟨3, .elem .rect, "", [⟨.id .height, .length ⟨50, .none⟩, true⟩, ⟨.id .width, .length ⟨40, .none⟩, true⟩]⟩ .nil (.cons ⟨4, .elem .rect, "", [⟨.id .height, .length ⟨50, .none⟩, true⟩, ⟨.id .width, .length ⟨40, .none⟩, true⟩]⟩ .nil .nil)))) .nil) = true := by decide +kernel

-- fix_attrs.rs:180 fix_polyline_1
example : gives false [may Stops.fixInvalidAttributes] (.cons ⟨0, .elem .svg, "", []⟩ (.cons ⟨1, .elem .polyline, "", [⟨.id .points, .numberList [5, 6, 7], true⟩]⟩ .nil (.cons ⟨2, .elem .polyline, "", [⟨.id .points, .numberList [5], true⟩]⟩ .nil (.cons ⟨3, .elem .polyline, "", [⟨.id .points, .numberList [], true⟩]⟩ .nil (.cons ⟨4, .elem .polyline, "", []⟩ .nil .nil)))) .nil) (.cons ⟨0, .elem .svg, "", []⟩ (.cons ⟨1, .elem .polyline, "", [⟨.id .points, .numberList [5, 6], true⟩]⟩ .nil (.cons ⟨2, .elem .polyline, "", []⟩ .nil (.cons ⟨3, .elem .polyline, "", []⟩ .nil (.cons ⟨4, .elem .polyline, "", []⟩ .nil .nil)))) .nil) = true := by decide +kernel

-- fix_attrs.rs:264 fix_stop_1
example : gives false [Stops.resolveStops, may Stops.fixInvalidAttributes] (.cons ⟨0, .elem .svg, "", []⟩ (.cons ⟨1, .elem .linearGradient, "", []⟩ (.cons ⟨2, .elem .stop, "", [⟨.id .offset, .length ⟨(-1), .none⟩, true⟩]⟩ .nil (.cons ⟨3, .elem .stop, "", [⟨.id .offset, .length ⟨(2 / 5), .none⟩, true⟩]⟩ .nil (.cons ⟨4, .elem .stop, "", [⟨.id .offset, .length ⟨(3 / 10), .none⟩, true⟩]⟩ .nil (.cons ⟨5, .elem .stop, "", [⟨.id .offset, .length ⟨10, .none⟩, true⟩]⟩ .nil (.cons ⟨6, .elem .stop, "", [⟨.id .offset, .length ⟨(1 / 2), .none⟩, true⟩]⟩ .nil .nil))))) .nil) .nil) (.cons ⟨0, .elem .svg, "", []⟩ (.cons ⟨1, .elem .linearGradient, "", []⟩ (.cons ⟨2, .elem .stop, "", [⟨.id .offset, .length ⟨0, .none⟩, true⟩]⟩ .nil (.cons ⟨3, .elem .stop, "", [⟨.id .offset, .length ⟨(2 / 5), .none⟩, true⟩]⟩ .nil (.cons ⟨4, .elem .stop, "", [⟨.id .offset, .length ⟨(2 / 5), .none⟩, true⟩]⟩ .nil (.cons ⟨5, .elem .stop, "", [⟨.id .offset, .length ⟨1, .none⟩, true⟩]⟩ .nil (.cons ⟨6, .elem .stop, "", [⟨.id .offset, .length ⟨1, .none⟩, true⟩]⟩ .nil .nil))))) .nil) .nil) = true := by decide +kernel

-- group_by_style.rs:289 rm_1
example : tableTest [[true, false, true, false, true, false, true, false]] = [] := by decide +kernel

-- group_by_style.rs:290 rm_2
example : tableTest [[true, true, false, true, true, false]] = [] := by decide +kernel

-- group_by_style.rs:291 rm_3
example : tableTest [[true, false, true, true, false, true]] = [] := by decide +kernel

-- group_by_style.rs:292 rm_4: left out, it is about min_nodes_count = 3, which the code never uses (the parent is svg or g)

-- group_by_style.rs:296 basic_1
example : tableTest [[true, true, true, true, true]] = [(1, [true, true, true, true, true])] := by decide +kernel

-- group_by_style.rs:300 join_1
example : tableTest [[true, true, true, true, true], [true, true, true, true, true]] = [(2, [true, true, true, true, true])] := by decide +kernel

-- group_by_style.rs:304 join_2
example : tableTest [[false, true, true, true, false], [false, true, true, true, false]] = [(2, [false, true, true, true, false])] := by decide +kernel

-- group_by_style.rs:308 join_3
example : tableTest [[true, true, true, true, true], [true, true, true, true, true], [false, true, true, true, false], [false, true, true, true, false]] = [(2, [true, true, true, true, true]), (2, [false, true, true, true, false])] := by decide +kernel

-- group_by_style.rs:313 sort_1
example : tableTest [[false, true, true, true, true], [true, true, true, true, true], [false, true, true, true, false], [false, true, true, false, false]] = [(1, [true, true, true, true, true]), (1, [false, true, true, true, true]), (1, [false, true, true, true, false])] := by decide +kernel

-- group_by_style.rs:320 sort_2
example : tableTest [[true, true, true, true, true, false, true, true, true, true, true, true], [true, true, true, true, true, true, true, true, true, true, false, false]] = [(1, [true, true, true, true, true, true, true, true, true, true, false, false]), (1, [true, true, true, true, true, false, true, true, true, true, true, true])] := by decide +kernel

-- group_by_style.rs:578 group_1
example : gives false [may GroupStyle.groupByStyle] (.cons ⟨0, .elem .svg, "", []⟩ (.cons ⟨1, .elem .rect, "r1", [⟨.id .fill, .color 255 0 0, true⟩]⟩ .nil (.cons ⟨2, .elem .rect, "r2", [⟨.id .fill, .color 255 0 0, true⟩]⟩ .nil (.cons ⟨3, .elem .rect, "r3", [⟨.id .fill, .color 255 0 0, true⟩]⟩ .nil .nil))) .nil) (.cons ⟨0, .elem .svg, "", [⟨.id .fill, .color 255 0 0, true⟩]⟩ (.cons ⟨1, .elem .rect, "r1", []⟩ .nil (.cons ⟨2, .elem .rect, "r2", []⟩ .nil (.cons ⟨3, .elem .rect, "r3", []⟩ .nil .nil))) .nil) = true := by decide +kernel

-- group_by_style.rs:592 group_2
example : gives false [may GroupStyle.groupByStyle] (.cons ⟨0, .elem .svg, "", []⟩ (.cons ⟨1, .elem .g, "", []⟩ (.cons ⟨2, .elem .rect, "r1", [⟨.id .fill, .color 255 0 0, true⟩]⟩ .nil (.cons ⟨3, .elem .rect, "r2", [⟨.id .fill, .color 255 0 0, true⟩]⟩ .nil (.cons ⟨4, .elem .rect, "r3", [⟨.id .fill, .color 255 0 0, true⟩]⟩ .nil .nil))) .nil) .nil) (.cons ⟨0, .elem .svg, "", []⟩ (.cons ⟨1, .elem .g, "", [⟨.id .fill, .color 255 0 0, true⟩]⟩ (.cons ⟨2, .elem .rect, "r1", []⟩ .nil (.cons ⟨3, .elem .rect, "r2", []⟩ .nil (.cons ⟨4, .elem .rect, "r3", []⟩ .nil .nil))) .nil) .nil) = true := by decide +kernel

-- group_by_style.rs:610 group_3
example : gives false [may GroupStyle.groupByStyle] (.cons ⟨0, .elem .svg, "", []⟩ (.cons ⟨1, .elem .rect, "r1", [⟨.id .fill, .color 255 0 0, true⟩]⟩ .nil (.cons ⟨2, .elem .rect, "r2", []⟩ .nil (.cons ⟨3, .elem .rect, "r3", [⟨.id .fill, .color 255 0 0, true⟩]⟩ .nil (.cons ⟨4, .elem .rect, "r4", [⟨.id .fill, .color 255 0 0, true⟩]⟩ .nil (.cons ⟨5, .elem .rect, "r5", [⟨.id .fill, .color 255 0 0, true⟩]⟩ .nil .nil))))) .nil) (.cons ⟨0, .elem .svg, "", []⟩ (.cons ⟨1, .elem .rect, "r1", [⟨.id .fill, .color 255 0 0, true⟩]⟩ .nil (.cons ⟨2, .elem .rect, "r2", []⟩ .nil (.cons ⟨3, .elem .g, "", [⟨.id .fill, .color 255 0 0, true⟩]⟩ (.cons ⟨4, .elem .rect, "r3", []⟩ .nil (.cons ⟨5, .elem .rect, "r4", []⟩ .nil (.cons ⟨6, .elem .rect, "r5", []⟩ .nil .nil))) .nil))) .nil) = true := by decide +kernel

-- group_by_style.rs:630 group_4
example : gives false [may GroupStyle.groupByStyle] (.cons ⟨0, .elem .svg, "", []⟩ (.cons ⟨1, .elem .rect, "r1", [⟨.id .fill, .color 255 0 0, true⟩, ⟨.id .stroke, .color 0 255 0, true⟩]⟩ .nil (.cons ⟨2, .elem .rect, "r2", [⟨.id .stroke, .color 0 255 0, true⟩]⟩ .nil (.cons ⟨3, .elem .rect, "r3", [⟨.id .fill, .color 255 0 0, true⟩, ⟨.id .stroke, .color 0 255 0, true⟩]⟩ .nil .nil))) .nil) (.cons ⟨0, .elem .svg, "", [⟨.id .stroke, .color 0 255 0, true⟩]⟩ (.cons ⟨1, .elem .rect, "r1", [⟨.id .fill, .color 255 0 0, true⟩]⟩ .nil (.cons ⟨2, .elem .rect, "r2", []⟩ .nil (.cons ⟨3, .elem .rect, "r3", [⟨.id .fill, .color 255 0 0, true⟩]⟩ .nil .nil))) .nil) = true := by decide +kernel

-- group_by_style.rs:644 group_5
example : gives false [may GroupStyle.groupByStyle] (.cons ⟨0, .elem .svg, "", []⟩ (.cons ⟨1, .elem .rect, "r1", [⟨.id .fill, .color 255 0 0, true⟩]⟩ .nil (.cons ⟨2, .elem .defs, "", []⟩ .nil (.cons ⟨3, .elem .rect, "r2", [⟨.id .fill, .color 255 0 0, true⟩]⟩ .nil (.cons ⟨4, .elem .rect, "r3", [⟨.id .fill, .color 255 0 0, true⟩]⟩ .nil (.cons ⟨5, .elem .rect, "r4", [⟨.id .fill, .color 255 0 0, true⟩]⟩ .nil .nil))))) .nil) (.cons ⟨0, .elem .svg, "", []⟩ (.cons ⟨1, .elem .rect, "r1", [⟨.id .fill, .color 255 0 0, true⟩]⟩ .nil (.cons ⟨2, .elem .defs, "", []⟩ .nil (.cons ⟨3, .elem .g, "", [⟨.id .fill, .color 255 0 0, true⟩]⟩ (.cons ⟨4, .elem .rect, "r2", []⟩ .nil (.cons ⟨5, .elem .rect, "r3", []⟩ .nil (.cons ⟨6, .elem .rect, "r4", []⟩ .nil .nil))) .nil))) .nil) = true := by decide +kernel

-- group_by_style.rs:665 group_5_1
example : gives false [may GroupStyle.groupByStyle] (.cons ⟨0, .elem .svg, "", []⟩ (.cons ⟨1, .elem .g, "", []⟩ (.cons ⟨2, .elem .rect, "r1", [⟨.id .fill, .color 255 0 0, true⟩]⟩ .nil (.cons ⟨3, .elem .defs, "", []⟩ .nil (.cons ⟨4, .elem .rect, "r2", [⟨.id .fill, .color 255 0 0, true⟩]⟩ .nil (.cons ⟨5, .elem .rect, "r3", [⟨.id .fill, .color 255 0 0, true⟩]⟩ .nil (.cons ⟨6, .elem .rect, "r4", [⟨.id .fill, .color 255 0 0, true⟩]⟩ .nil .nil))))) .nil) .nil) (.cons ⟨0, .elem .svg, "", []⟩ (.cons ⟨1, .elem .g, "", []⟩ (.cons ⟨2, .elem .rect, "r1", [⟨.id .fill, .color 255 0 0, true⟩]⟩ .nil (.cons ⟨3, .elem .defs, "", []⟩ .nil (.cons ⟨4, .elem .g, "", [⟨.id .fill, .color 255 0 0, true⟩]⟩ (.cons ⟨5, .elem .rect, "r2", []⟩ .nil (.cons ⟨6, .elem .rect, "r3", []⟩ .nil (.cons ⟨7, .elem .rect, "r4", []⟩ .nil .nil))) .nil))) .nil) .nil) = true := by decide +kernel

-- group_by_style.rs:689 group_6
example : gives false [may GroupStyle.groupByStyle] (.cons ⟨0, .elem .svg, "", []⟩ (.cons ⟨1, .elem .linearGradient, "lg1", []⟩ .nil (.cons ⟨2, .elem .rect, "r1", [⟨.id .fill, .funcLink 1, true⟩]⟩ .nil (.cons ⟨3, .elem .rect, "r2", [⟨.id .fill, .funcLink 1, true⟩]⟩ .nil (.cons ⟨4, .elem .rect, "r3", [⟨.id .fill, .funcLink 1, true⟩]⟩ .nil .nil)))) .nil) (.cons ⟨0, .elem .svg, "", []⟩ (.cons ⟨1, .elem .linearGradient, "lg1", []⟩ .nil (.cons ⟨2, .elem .g, "", [⟨.id .fill, .funcLink 1, true⟩]⟩ (.cons ⟨3, .elem .rect, "r1", []⟩ .nil (.cons ⟨4, .elem .rect, "r2", []⟩ .nil (.cons ⟨5, .elem .rect, "r3", []⟩ .nil .nil))) .nil)) .nil) = true := by decide +kernel

-- group_by_style.rs:707 group_7
example : gives false [may GroupStyle.groupByStyle] (.cons ⟨0, .elem .svg, "", []⟩ (.cons ⟨1, .elem .rect, "r1", [⟨.id .stroke, .color 0 255 0, true⟩]⟩ .nil (.cons ⟨2, .elem .rect, "r2", [⟨.id .fill, .color 255 0 0, true⟩, ⟨.id .stroke, .color 0 255 0, true⟩]⟩ .nil (.cons ⟨3, .elem .rect, "r3", [⟨.id .fill, .color 255 0 0, true⟩, ⟨.id .stroke, .color 0 255 0, true⟩]⟩ .nil (.cons ⟨4, .elem .rect, "r4", [⟨.id .fill, .color 255 0 0, true⟩, ⟨.id .stroke, .color 0 255 0, true⟩]⟩ .nil (.cons ⟨5, .elem .rect, "r5", [⟨.id .fill, .color 255 0 0, true⟩, ⟨.id .stroke, .color 0 255 0, true⟩]⟩ .nil (.cons ⟨6, .elem .rect, "r6", [⟨.id .fill, .color 255 0 0, true⟩, ⟨.id .stroke, .color 0 255 0, true⟩]⟩ .nil (.cons ⟨7, .elem .rect, "r7", [⟨.id .fill, .color 255 0 0, true⟩, ⟨.id .stroke, .color 0 255 0, true⟩]⟩ .nil (.cons ⟨8, .elem .rect, "r8", [⟨.id .stroke, .color 0 255 0, true⟩]⟩ .nil .nil)))))))) .nil) (.cons ⟨0, .elem .svg, "", [⟨.id .stroke, .color 0 255 0, true⟩]⟩ (.cons ⟨1, .elem .rect, "r1", []⟩ .nil (.cons ⟨2, .elem .g, "", [⟨.id .fill, .color 255 0 0, true⟩]⟩ (.cons ⟨3, .elem .rect, "r2", []⟩ .nil (.cons ⟨4, .elem .rect, "r3", []⟩ .nil (.cons ⟨5, .elem .rect, "r4", []⟩ .nil (.cons ⟨6, .elem .rect, "r5", []⟩ .nil (.cons ⟨7, .elem .rect, "r6", []⟩ .nil (.cons ⟨8, .elem .rect, "r7", []⟩ .nil .nil)))))) (.cons ⟨9, .elem .rect, "r8", []⟩ .nil .nil))) .nil) = true := by decide +kernel

-- group_by_style.rs:759 group_9
example : gives false [may GroupStyle.groupByStyle] (.cons ⟨0, .elem .svg, "", []⟩ (.cons ⟨1, .elem .rect, "r1", [⟨.id .fill, .color 255 0 0, true⟩, ⟨.id .stroke, .color 0 255 0, true⟩]⟩ .nil (.cons ⟨2, .elem .rect, "r2", [⟨.id .fill, .color 255 0 0, true⟩, ⟨.id .stroke, .color 0 255 0, true⟩]⟩ .nil (.cons ⟨3, .elem .rect, "r3", [⟨.id .fill, .color 255 0 0, true⟩, ⟨.id .stroke, .color 0 255 0, true⟩]⟩ .nil .nil))) .nil) (.cons ⟨0, .elem .svg, "", [⟨.id .fill, .color 255 0 0, true⟩, ⟨.id .stroke, .color 0 255 0, true⟩]⟩ (.cons ⟨1, .elem .rect, "r1", []⟩ .nil (.cons ⟨2, .elem .rect, "r2", []⟩ .nil (.cons ⟨3, .elem .rect, "r3", []⟩ .nil .nil))) .nil) = true := by decide +kernel

-- group_by_style.rs:773 group_10
example : gives false [may GroupStyle.groupByStyle] (.cons ⟨0, .elem .svg, "", []⟩ (.cons ⟨1, .elem .rect, "r1", [⟨.id .fill, .color 255 0 0, true⟩]⟩ .nil (.cons ⟨2, .elem .rect, "r2", [⟨.id .fill, .color 255 0 0, true⟩, ⟨.id .stroke, .color 0 255 0, true⟩]⟩ .nil (.cons ⟨3, .elem .rect, "r3", [⟨.id .fill, .color 255 0 0, true⟩, ⟨.id .stroke, .color 0 255 0, true⟩]⟩ .nil (.cons ⟨4, .elem .rect, "r4", [⟨.id .stroke, .color 0 255 0, true⟩]⟩ .nil (.cons ⟨5, .elem .rect, "r5", [⟨.id .fill, .color 255 0 0, true⟩, ⟨.id .stroke, .color 0 255 0, true⟩]⟩ .nil (.cons ⟨6, .elem .rect, "r6", [⟨.id .fill, .color 255 0 0, true⟩, ⟨.id .stroke, .color 0 255 0, true⟩]⟩ .nil (.cons ⟨7, .elem .rect, "r7", [⟨.id .fill, .color 255 0 0, true⟩, ⟨.id .stroke, .color 0 255 0, true⟩]⟩ .nil (.cons ⟨8, .elem .rect, "r8", [⟨.id .stroke, .color 0 255 0, true⟩]⟩ .nil (.cons ⟨9, .elem .rect, "r9", [⟨.id .fill, .color 255 0 0, true⟩]⟩ .nil (.cons ⟨10, .elem .rect, "r10", [⟨.id .fill, .color 255 0 0, true⟩]⟩ .nil .nil)))))))))) .nil) (.cons ⟨0, .elem .svg, "", []⟩ (.cons ⟨1, .elem .rect, "r1", [⟨.id .fill, .color 255 0 0, true⟩]⟩ .nil (.cons ⟨2, .elem .g, "", [⟨.id .stroke, .color 0 255 0, true⟩]⟩ (.cons ⟨3, .elem .rect, "r2", [⟨.id .fill, .color 255 0 0, true⟩]⟩ .nil (.cons ⟨4, .elem .rect, "r3", [⟨.id .fill, .color 255 0 0, true⟩]⟩ .nil (.cons ⟨5, .elem .rect, "r4", []⟩ .nil (.cons ⟨6, .elem .rect, "r5", [⟨.id .fill, .color 255 0 0, true⟩]⟩ .nil (.cons ⟨7, .elem .rect, "r6", [⟨.id .fill, .color 255 0 0, true⟩]⟩ .nil (.cons ⟨8, .elem .rect, "r7", [⟨.id .fill, .color 255 0 0, true⟩]⟩ .nil (.cons ⟨9, .elem .rect, "r8", []⟩ .nil .nil))))))) (.cons ⟨10, .elem .rect, "r9", [⟨.id .fill, .color 255 0 0, true⟩]⟩ .nil (.cons ⟨11, .elem .rect, "r10", [⟨.id .fill, .color 255 0 0, true⟩]⟩ .nil .nil)))) .nil) = true := by decide +kernel

-- group_by_style.rs:803 group_11
example : gives false [may GroupStyle.groupByStyle] (.cons ⟨0, .elem .svg, "", []⟩ (.cons ⟨1, .elem .rect, "r1", [⟨.id .fill, .color 255 0 0, true⟩]⟩ .nil (.cons ⟨2, .elem .rect, "r2", [⟨.id .fill, .color 255 0 0, true⟩]⟩ .nil (.cons ⟨3, .elem .rect, "r3", [⟨.id .fill, .color 255 0 0, true⟩]⟩ .nil (.cons ⟨4, .elem .rect, "r4", []⟩ .nil (.cons ⟨5, .elem .rect, "r5", [⟨.id .fill, .color 255 0 0, true⟩]⟩ .nil (.cons ⟨6, .elem .rect, "r6", [⟨.id .fill, .color 255 0 0, true⟩]⟩ .nil (.cons ⟨7, .elem .rect, "r7", [⟨.id .fill, .color 255 0 0, true⟩]⟩ .nil (.cons ⟨8, .elem .rect, "r8", [⟨.id .fill, .color 255 0 0, true⟩]⟩ .nil .nil)))))))) .nil) (.cons ⟨0, .elem .svg, "", []⟩ (.cons ⟨1, .elem .rect, "r1", [⟨.id .fill, .color 255 0 0, true⟩]⟩ .nil (.cons ⟨2, .elem .rect, "r2", [⟨.id .fill, .color 255 0 0, true⟩]⟩ .nil (.cons ⟨3, .elem .rect, "r3", [⟨.id .fill, .color 255 0 0, true⟩]⟩ .nil (.cons ⟨4, .elem .rect, "r4", []⟩ .nil (.cons ⟨5, .elem .g, "", [⟨.id .fill, .color 255 0 0, true⟩]⟩ (.cons ⟨6, .elem .rect, "r5", []⟩ .nil (.cons ⟨7, .elem .rect, "r6", []⟩ .nil (.cons ⟨8, .elem .rect, "r7", []⟩ .nil (.cons ⟨9, .elem .rect, "r8", []⟩ .nil .nil)))) .nil))))) .nil) = true := by decide +kernel

-- group_by_style.rs:829 group_12
example : gives false [may GroupStyle.groupByStyle] (.cons ⟨0, .elem .svg, "", []⟩ (.cons ⟨1, .elem .rect, "r1", []⟩ .nil (.cons ⟨2, .elem .rect, "r2", []⟩ .nil (.cons ⟨3, .elem .rect, "r3", [⟨.id .fill, .color 255 0 0, true⟩, ⟨.id .stroke, .color 255 0 0, true⟩]⟩ .nil (.cons ⟨4, .elem .rect, "r4", [⟨.id .fill, .color 255 0 0, true⟩, ⟨.id .stroke, .color 255 0 0, true⟩]⟩ .nil (.cons ⟨5, .elem .rect, "r5", [⟨.id .fill, .color 255 0 0, true⟩, ⟨.id .stroke, .color 255 0 0, true⟩]⟩ .nil (.cons ⟨6, .elem .rect, "r6", []⟩ .nil (.cons ⟨7, .elem .rect, "r7", []⟩ .nil .nil))))))) .nil) (.cons ⟨0, .elem .svg, "", []⟩ (.cons ⟨1, .elem .rect, "r1", []⟩ .nil (.cons ⟨2, .elem .rect, "r2", []⟩ .nil (.cons ⟨3, .elem .g, "", [⟨.id .fill, .color 255 0 0, true⟩, ⟨.id .stroke, .color 255 0 0, true⟩]⟩ (.cons ⟨4, .elem .rect, "r3", []⟩ .nil (.cons ⟨5, .elem .rect, "r4", []⟩ .nil (.cons ⟨6, .elem .rect, "r5", []⟩ .nil .nil))) (.cons ⟨7, .elem .rect, "r6", []⟩ .nil (.cons ⟨8, .elem .rect, "r7", []⟩ .nil .nil))))) .nil) = true := by decide +kernel

-- group_by_style.rs:853 group_13
example : gives false [may GroupStyle.groupByStyle] (.cons ⟨0, .elem .svg, "", []⟩ (.cons ⟨1, .elem .rect, "r1", [⟨.id .fill, .color 255 0 0, true⟩]⟩ .nil (.cons ⟨2, .elem .use, "", [⟨.id .xlinkHref, .link 1, true⟩]⟩ .nil (.cons ⟨3, .elem .rect, "r2", [⟨.id .fill, .color 255 0 0, true⟩]⟩ .nil (.cons ⟨4, .elem .rect, "r3", [⟨.id .fill, .color 255 0 0, true⟩]⟩ .nil (.cons ⟨5, .elem .rect, "r4", [⟨.id .fill, .color 255 0 0, true⟩]⟩ .nil .nil))))) .nil) (.cons ⟨0, .elem .svg, "", []⟩ (.cons ⟨1, .elem .rect, "r1", [⟨.id .fill, .color 255 0 0, true⟩]⟩ .nil (.cons ⟨2, .elem .use, "", [⟨.id .xlinkHref, .link 1, true⟩]⟩ .nil (.cons ⟨3, .elem .g, "", [⟨.id .fill, .color 255 0 0, true⟩]⟩ (.cons ⟨4, .elem .rect, "r2", []⟩ .nil (.cons ⟨5, .elem .rect, "r3", []⟩ .nil (.cons ⟨6, .elem .rect, "r4", []⟩ .nil .nil))) .nil))) .nil) = true := by decide +kernel

-- group_by_style.rs:873 group_14
example : gives false [may GroupStyle.groupByStyle] (.cons ⟨0, .elem .svg, "", []⟩ (.cons ⟨1, .elem .rect, "r1", [⟨.id .transform, .transform ⟨10, 0, 0, 10, 0, 0⟩, true⟩]⟩ .nil (.cons ⟨2, .elem .rect, "r2", [⟨.id .transform, .transform ⟨10, 0, 0, 10, 0, 0⟩, true⟩]⟩ .nil (.cons ⟨3, .elem .rect, "r3", [⟨.id .transform, .transform ⟨10, 0, 0, 10, 0, 0⟩, true⟩]⟩ .nil .nil))) .nil) (.cons ⟨0, .elem .svg, "", [⟨.id .transform, .transform ⟨10, 0, 0, 10, 0, 0⟩, true⟩]⟩ (.cons ⟨1, .elem .rect, "r1", []⟩ .nil (.cons ⟨2, .elem .rect, "r2", []⟩ .nil (.cons ⟨3, .elem .rect, "r3", []⟩ .nil .nil))) .nil) = true := by decide +kernel

-- group_by_style.rs:887 group_15
example : gives false [may GroupStyle.groupByStyle] (.cons ⟨0, .elem .svg, "", []⟩ (.cons ⟨1, .elem .g, "", [⟨.id .transform, .transform ⟨1, 0, 0, 1, 10, 0⟩, true⟩]⟩ (.cons ⟨2, .elem .rect, "r1", [⟨.id .transform, .transform ⟨10, 0, 0, 10, 0, 0⟩, true⟩]⟩ .nil (.cons ⟨3, .elem .rect, "r2", [⟨.id .transform, .transform ⟨10, 0, 0, 10, 0, 0⟩, true⟩]⟩ .nil (.cons ⟨4, .elem .rect, "r3", [⟨.id .transform, .transform ⟨10, 0, 0, 10, 0, 0⟩, true⟩]⟩ .nil .nil))) .nil) .nil) (.cons ⟨0, .elem .svg, "", []⟩ (.cons ⟨1, .elem .g, "", [⟨.id .transform, .transform ⟨10, 0, 0, 10, 10, 0⟩, true⟩]⟩ (.cons ⟨2, .elem .rect, "r1", []⟩ .nil (.cons ⟨3, .elem .rect, "r2", []⟩ .nil (.cons ⟨4, .elem .rect, "r3", []⟩ .nil .nil))) .nil) .nil) = true := by decide +kernel

-- group_by_style.rs:905 group_16
example : gives false [may GroupStyle.groupByStyle] (.cons ⟨0, .elem .svg, "", []⟩ (.cons ⟨1, .elem .g, "", []⟩ (.cons ⟨2, .elem .rect, "", [⟨.id .fill, .color 255 0 0, true⟩]⟩ .nil (.cons ⟨3, .elem .rect, "", [⟨.id .fill, .color 255 0 0, true⟩]⟩ .nil .nil)) .nil) .nil) (.cons ⟨0, .elem .svg, "", []⟩ (.cons ⟨1, .elem .g, "", [⟨.id .fill, .color 255 0 0, true⟩]⟩ (.cons ⟨2, .elem .rect, "", []⟩ .nil (.cons ⟨3, .elem .rect, "", []⟩ .nil .nil)) .nil) .nil) = true := by decide +kernel

-- group_defs.rs:140 create_defs_1
example : gives false [may GroupDefs.groupDefs] (.cons ⟨0, .comment "comment", "", []⟩ .nil (.cons ⟨1, .elem .svg, "", []⟩ .nil .nil)) (.cons ⟨0, .comment "comment", "", []⟩ .nil (.cons ⟨1, .elem .svg, "", []⟩ (.cons ⟨2, .elem .defs, "", []⟩ .nil .nil) .nil)) = true := by decide +kernel

-- group_defs.rs:148 move_defs_1
example : gives false [may GroupDefs.groupDefs] (.cons ⟨0, .elem .svg, "", []⟩ (.cons ⟨1, .elem .altGlyphDef, "", []⟩ .nil (.cons ⟨2, .elem .clipPath, "", []⟩ .nil (.cons ⟨3, .elem .cursor, "", []⟩ .nil (.cons ⟨4, .elem .filter, "", []⟩ .nil (.cons ⟨5, .elem .linearGradient, "", []⟩ .nil (.cons ⟨6, .elem .marker, "", []⟩ .nil (.cons ⟨7, .elem .mask, "", []⟩ .nil (.cons ⟨8, .elem .pattern, "", []⟩ .nil (.cons ⟨9, .elem .radialGradient, "", []⟩ .nil (.cons ⟨10, .elem .symbol, "", []⟩ .nil (.cons ⟨11, .elem .rect, "", []⟩ .nil .nil))))))))))) .nil) (.cons ⟨0, .elem .svg, "", []⟩ (.cons ⟨1, .elem .defs, "", []⟩ (.cons ⟨2, .elem .altGlyphDef, "", []⟩ .nil (.cons ⟨3, .elem .clipPath, "", []⟩ .nil (.cons ⟨4, .elem .cursor, "", []⟩ .nil (.cons ⟨5, .elem .filter, "", []⟩ .nil (.cons ⟨6, .elem .linearGradient, "", []⟩ .nil (.cons ⟨7, .elem .marker, "", []⟩ .nil (.cons ⟨8, .elem .mask, "", []⟩ .nil (.cons ⟨9, .elem .pattern, "", []⟩ .nil (.cons ⟨10, .elem .radialGradient, "", []⟩ .nil (.cons ⟨11, .elem .symbol, "", []⟩ .nil .nil)))))))))) (.cons ⟨12, .elem .rect, "", []⟩ .nil .nil)) .nil) = true := by decide +kernel

-- group_defs.rs:180 move_defs_2
example : gives false [may GroupDefs.groupDefs] (.cons ⟨0, .elem .svg, "", []⟩ (.cons ⟨1, .elem .defs, "a", []⟩ (.cons ⟨2, .elem .altGlyphDef, "", []⟩ .nil (.cons ⟨3, .elem .defs, "b", []⟩ (.cons ⟨4, .elem .clipPath, "", []⟩ .nil .nil) (.cons ⟨5, .elem .defs, "c", []⟩ (.cons ⟨6, .elem .defs, "d", []⟩ (.cons ⟨7, .elem .cursor, "", []⟩ .nil (.cons ⟨8, .elem .filter, "", []⟩ .nil .nil)) .nil) .nil))) (.cons ⟨9, .elem .defs, "", []⟩ (.cons ⟨10, .elem .radialGradient, "", []⟩ .nil .nil) (.cons ⟨11, .elem .defs, "", []⟩ .nil .nil))) .nil) (.cons ⟨0, .elem .svg, "", []⟩ (.cons ⟨1, .elem .defs, "a", []⟩ (.cons ⟨2, .elem .altGlyphDef, "", []⟩ .nil (.cons ⟨3, .elem .clipPath, "", []⟩ .nil (.cons ⟨4, .elem .cursor, "", []⟩ .nil (.cons ⟨5, .elem .filter, "", []⟩ .nil (.cons ⟨6, .elem .radialGradient, "", []⟩ .nil .nil))))) .nil) .nil) = true := by decide +kernel

-- group_defs.rs:211 move_defs_3
example : gives false [may GroupDefs.groupDefs] (.cons ⟨0, .elem .svg, "", []⟩ (.cons ⟨1, .elem .defs, "a", []⟩ (.cons ⟨2, .elem .altGlyphDef, "", []⟩ .nil (.cons ⟨3, .elem .defs, "b", []⟩ (.cons ⟨4, .elem .rect, "", []⟩ .nil .nil) .nil)) .nil) .nil) (.cons ⟨0, .elem .svg, "", []⟩ (.cons ⟨1, .elem .defs, "a", []⟩ (.cons ⟨2, .elem .altGlyphDef, "", []⟩ .nil (.cons ⟨3, .elem .rect, "", []⟩ .nil .nil)) .nil) .nil) = true := by decide +kernel

-- group_defs.rs:229 move_defs_4
example : gives false [may GroupDefs.groupDefs] (.cons ⟨0, .elem .svg, "", []⟩ (.cons ⟨1, .elem .defs, "a", []⟩ (.cons ⟨2, .elem .defs, "b", []⟩ (.cons ⟨3, .elem .clipPath, "", []⟩ (.cons ⟨4, .elem .rect, "", []⟩ .nil .nil) .nil) (.cons ⟨5, .elem .line, "", []⟩ (.cons ⟨6, .elem .animate, "", []⟩ .nil .nil) .nil)) .nil) .nil) (.cons ⟨0, .elem .svg, "", []⟩ (.cons ⟨1, .elem .defs, "a", []⟩ (.cons ⟨2, .elem .line, "", []⟩ (.cons ⟨3, .elem .animate, "", []⟩ .nil .nil) (.cons ⟨4, .elem .clipPath, "", []⟩ (.cons ⟨5, .elem .rect, "", []⟩ .nil .nil) .nil)) .nil) .nil) = true := by decide +kernel

-- group_defs.rs:254 move_defs_5
example : gives false [may GroupDefs.groupDefs] (.cons ⟨0, .elem .svg, "", []⟩ (.cons ⟨1, .elem .rect, "", []⟩ .nil (.cons ⟨2, .elem .defs, "", []⟩ .nil .nil)) .nil) (.cons ⟨0, .elem .svg, "", []⟩ (.cons ⟨1, .elem .defs, "", []⟩ .nil (.cons ⟨2, .elem .rect, "", []⟩ .nil .nil)) .nil) = true := by decide +kernel

-- group_defs.rs:265 move_mask_1
example : gives false [may GroupDefs.groupDefs] (.cons ⟨0, .elem .svg, "", []⟩ (.cons ⟨1, .elem .g, "", [⟨.id .fill, .color 255 0 0, true⟩]⟩ (.cons ⟨2, .elem .marker, "", []⟩ (.cons ⟨3, .elem .path, "", []⟩ .nil .nil) .nil) .nil) .nil) (.cons ⟨0, .elem .svg, "", []⟩ (.cons ⟨1, .elem .defs, "", []⟩ (.cons ⟨2, .elem .marker, "", []⟩ (.cons ⟨3, .elem .path, "", [⟨.id .fill, .color 255 0 0, true⟩]⟩ .nil .nil) .nil) (.cons ⟨4, .elem .g, "", [⟨.id .fill, .color 255 0 0, true⟩]⟩ .nil .nil)) .nil) = true := by decide +kernel

-- group_defs.rs:283 move_attrs_1
example : gives false [may GroupDefs.groupDefs] (.cons ⟨0, .elem .svg, "", []⟩ (.cons ⟨1, .elem .g, "", [⟨.id .fill, .color 255 0 0, true⟩]⟩ (.cons ⟨2, .elem .marker, "", []⟩ (.cons ⟨3, .elem .path, "", []⟩ .nil (.cons ⟨4, .elem .path, "", [⟨.id .fill, .color 0 255 0, true⟩]⟩ .nil .nil)) .nil) .nil) .nil) (.cons ⟨0, .elem .svg, "", []⟩ (.cons ⟨1, .elem .defs, "", []⟩ (.cons ⟨2, .elem .marker, "", []⟩ (.cons ⟨3, .elem .path, "", [⟨.id .fill, .color 255 0 0, true⟩]⟩ .nil (.cons ⟨4, .elem .path, "", [⟨.id .fill, .color 0 255 0, true⟩]⟩ .nil .nil)) .nil) (.cons ⟨5, .elem .g, "", [⟨.id .fill, .color 255 0 0, true⟩]⟩ .nil .nil)) .nil) = true := by decide +kernel

end Verif.RepoTest
