import Verif.RepoTest
/-
Generated by tools/repotests.py: the unit tests of the files under `src/task` named below, run on the model.
Each example is one test of the repository: the document (or path) it starts from and the one it expects.
-/
set_option maxRecDepth 20000
set_option maxHeartbeats 1000000
namespace Verif.RepoTest
open Verif.Dom Verif.Pipeline

-- resolve_use.rs:171 resolve_5
example : gives false [may ResolveUse.resolveUse] (.cons ⟨0, .elem .svg, "", []⟩ (.cons ⟨1, .elem .defs, "", []⟩ (.cons ⟨2, .elem .linearGradient, "lg1", []⟩ .nil (.cons ⟨3, .elem .rect, "r1", [⟨.id .fill, .funcLink 2, true⟩]⟩ .nil .nil)) (.cons ⟨4, .elem .use, "", [⟨.id .xlinkHref, .link 3, true⟩]⟩ .nil .nil)) .nil) (.cons ⟨0, .elem .svg, "", []⟩ (.cons ⟨1, .elem .defs, "", []⟩ (.cons ⟨2, .elem .linearGradient, "lg1", []⟩ .nil .nil) (.cons ⟨3, .elem .rect, "r1", [⟨.id .fill, .funcLink 2, true⟩]⟩ .nil .nil)) .nil) = true := by decide +kernel

-- resolve_use.rs:187 resolve_6
example : gives false [may ResolveUse.resolveUse] (.cons ⟨0, .elem .svg, "", []⟩ (.cons ⟨1, .elem .defs, "", []⟩ (.cons ⟨2, .elem .path, "path1", [⟨.id .d, .path [⟨true, .moveTo 10 20⟩, ⟨true, .lineTo 10 20⟩], true⟩]⟩ .nil (.cons ⟨3, .elem .use, "use2", [⟨.id .xlinkHref, .link 2, true⟩]⟩ .nil .nil)) .nil) .nil) (.cons ⟨0, .elem .svg, "", []⟩ (.cons ⟨1, .elem .defs, "", []⟩ (.cons ⟨2, .elem .path, "path1", [⟨.id .d, .path [⟨true, .moveTo 10 20⟩, ⟨true, .lineTo 10 20⟩], true⟩]⟩ .nil .nil) .nil) .nil) = true := by decide +kernel

-- resolve_use.rs:202 keep_1
example : gives false [may ResolveUse.resolveUse] (.cons ⟨0, .elem .svg, "", []⟩ (.cons ⟨1, .elem .rect, "r1", []⟩ .nil (.cons ⟨2, .elem .use, "", [⟨.id .xlinkHref, .link 1, true⟩]⟩ .nil .nil)) .nil) (.cons ⟨0, .elem .svg, "", []⟩ (.cons ⟨1, .elem .rect, "r1", []⟩ .nil (.cons ⟨2, .elem .use, "", [⟨.id .xlinkHref, .link 1, true⟩]⟩ .nil .nil)) .nil) = true := by decide +kernel

-- resolve_use.rs:209 keep_2
example : gives false [may ResolveUse.resolveUse] (.cons ⟨0, .elem .svg, "", []⟩ (.cons ⟨1, .elem .defs, "", []⟩ (.cons ⟨2, .elem .symbol, "r1", []⟩ (.cons ⟨3, .elem .rect, "", []⟩ .nil .nil) .nil) (.cons ⟨4, .elem .use, "", [⟨.id .xlinkHref, .link 2, true⟩]⟩ .nil .nil)) .nil) (.cons ⟨0, .elem .svg, "", []⟩ (.cons ⟨1, .elem .defs, "", []⟩ (.cons ⟨2, .elem .symbol, "r1", []⟩ (.cons ⟨3, .elem .rect, "", []⟩ .nil .nil) .nil) (.cons ⟨4, .elem .use, "", [⟨.id .xlinkHref, .link 2, true⟩]⟩ .nil .nil)) .nil) = true := by decide +kernel

-- resolve_use.rs:220 keep_3
example : gives false [may ResolveUse.resolveUse] (.cons ⟨0, .elem .svg, "", []⟩ (.cons ⟨1, .elem .use, "use1", [⟨.id .xlinkHref, .link 4, true⟩]⟩ .nil (.cons ⟨2, .elem .defs, "", []⟩ (.cons ⟨3, .elem .path, "path1", [⟨.id .d, .path [⟨true, .moveTo 10 20⟩, ⟨true, .lineTo 10 20⟩], true⟩]⟩ .nil (.cons ⟨4, .elem .use, "use2", [⟨.id .xlinkHref, .link 3, true⟩]⟩ .nil .nil)) .nil)) .nil) (.cons ⟨0, .elem .svg, "", []⟩ (.cons ⟨1, .elem .use, "use1", [⟨.id .xlinkHref, .link 4, true⟩]⟩ .nil (.cons ⟨2, .elem .defs, "", []⟩ (.cons ⟨3, .elem .path, "path1", [⟨.id .d, .path [⟨true, .moveTo 10 20⟩, ⟨true, .lineTo 10 20⟩], true⟩]⟩ .nil (.cons ⟨4, .elem .use, "use2", [⟨.id .xlinkHref, .link 3, true⟩]⟩ .nil .nil)) .nil)) .nil) = true := by decide +kernel

-- rm_default_attrs.rs:244 rm_1
example : gives false [may (DefaultAttrs.removeDefaults initial)] (.cons ⟨0, .elem .svg, "", []⟩ (.cons ⟨1, .elem .rect, "", [⟨.id .fill, .color 0 0 0, true⟩]⟩ .nil .nil) .nil) (.cons ⟨0, .elem .svg, "", []⟩ (.cons ⟨1, .elem .rect, "", []⟩ .nil .nil) .nil) = true := by decide +kernel

-- rm_default_attrs.rs:253 keep_1
example : gives false [may (DefaultAttrs.removeDefaults initial)] (.cons ⟨0, .elem .svg, "", [⟨.id .fill, .color 255 0 0, true⟩]⟩ (.cons ⟨1, .elem .rect, "", [⟨.id .fill, .color 0 0 0, true⟩]⟩ .nil .nil) .nil) (.cons ⟨0, .elem .svg, "", [⟨.id .fill, .color 255 0 0, true⟩]⟩ (.cons ⟨1, .elem .rect, "", [⟨.id .fill, .color 0 0 0, true⟩]⟩ .nil .nil) .nil) = true := by decide +kernel

-- rm_default_attrs.rs:262 rm_svg_w_h
example : gives false [may (DefaultAttrs.removeDefaults initial)] (.cons ⟨0, .elem .svg, "", [⟨.id .width, .length ⟨100, .percent⟩, true⟩, ⟨.id .height, .length ⟨100, .percent⟩, true⟩]⟩ .nil .nil) (.cons ⟨0, .elem .svg, "", []⟩ .nil .nil) = true := by decide +kernel

-- rm_default_attrs.rs:268 rm_len_list
example : gives false [may (DefaultAttrs.removeDefaults initial)] (.cons ⟨0, .elem .svg, "", []⟩ (.cons ⟨1, .elem .text, "", [⟨.id .x, .length ⟨0, .none⟩, true⟩]⟩ .nil .nil) .nil) (.cons ⟨0, .elem .svg, "", []⟩ (.cons ⟨1, .elem .text, "", []⟩ .nil .nil) .nil) = true := by decide +kernel

-- rm_default_attrs.rs:277 rm_mask
example : gives false [may (DefaultAttrs.removeDefaults initial)] (.cons ⟨0, .elem .svg, "", []⟩ (.cons ⟨1, .elem .mask, "", [⟨.id .x, .length ⟨(-10), .percent⟩, true⟩, ⟨.id .y, .length ⟨(-10), .percent⟩, true⟩, ⟨.id .width, .length ⟨120, .percent⟩, true⟩, ⟨.id .height, .length ⟨120, .percent⟩, true⟩]⟩ .nil .nil) .nil) (.cons ⟨0, .elem .svg, "", []⟩ (.cons ⟨1, .elem .mask, "", []⟩ .nil .nil) .nil) = true := by decide +kernel

-- rm_default_attrs.rs:286 rm_filter
example : gives false [may (DefaultAttrs.removeDefaults initial)] (.cons ⟨0, .elem .svg, "", []⟩ (.cons ⟨1, .elem .filter, "", [⟨.id .x, .length ⟨(-10), .percent⟩, true⟩, ⟨.id .y, .length ⟨(-10), .percent⟩, true⟩, ⟨.id .width, .length ⟨120, .percent⟩, true⟩, ⟨.id .height, .length ⟨120, .percent⟩, true⟩]⟩ .nil .nil) .nil) (.cons ⟨0, .elem .svg, "", []⟩ (.cons ⟨1, .elem .filter, "", []⟩ .nil .nil) .nil) = true := by decide +kernel

-- rm_default_attrs.rs:295 rm_overflow_1
example : gives false [may (DefaultAttrs.removeDefaults initial)] (.cons ⟨0, .elem .svg, "", [⟨.id .overflow, .kw .visible, true⟩]⟩ (.cons ⟨1, .elem .rect, "", [⟨.id .overflow, .kw .hidden, true⟩]⟩ .nil (.cons ⟨2, .elem .svg, "", [⟨.id .overflow, .kw .visible, true⟩]⟩ .nil .nil)) .nil) (.cons ⟨0, .elem .svg, "", []⟩ (.cons ⟨1, .elem .rect, "", []⟩ .nil (.cons ⟨2, .elem .svg, "", [⟨.id .overflow, .kw .visible, true⟩]⟩ .nil .nil)) .nil) = true := by decide +kernel

-- rm_dupl_defs/fe_gaussian_blur.rs:123 rm_1
example : gives false [may Dupl.rmBlurs] (.cons ⟨0, .elem .svg, "", []⟩ (.cons ⟨1, .elem .defs, "", []⟩ (.cons ⟨2, .elem .filter, "f1", []⟩ (.cons ⟨3, .elem .feGaussianBlur, "", [⟨.id .stdDeviation, .numberList [2], true⟩]⟩ .nil .nil) (.cons ⟨4, .elem .filter, "f2", []⟩ (.cons ⟨5, .elem .feGaussianBlur, "", [⟨.id .stdDeviation, .numberList [2], true⟩]⟩ .nil .nil) .nil)) (.cons ⟨6, .elem .rect, "", [⟨.id .filter, .funcLink 4, true⟩]⟩ .nil .nil)) .nil) (.cons ⟨0, .elem .svg, "", []⟩ (.cons ⟨1, .elem .defs, "", []⟩ (.cons ⟨2, .elem .filter, "f1", []⟩ (.cons ⟨3, .elem .feGaussianBlur, "", [⟨.id .stdDeviation, .numberList [2], true⟩]⟩ .nil .nil) .nil) (.cons ⟨4, .elem .rect, "", [⟨.id .filter, .funcLink 2, true⟩]⟩ .nil .nil)) .nil) = true := by decide +kernel

-- rm_dupl_defs/fe_gaussian_blur.rs:145 rm_2
example : gives false [may Dupl.rmBlurs] (.cons ⟨0, .elem .svg, "", []⟩ (.cons ⟨1, .elem .defs, "", []⟩ (.cons ⟨2, .elem .filter, "f1", [⟨.id .x, .length ⟨5, .none⟩, true⟩, ⟨.id .y, .length ⟨5, .none⟩, true⟩, ⟨.id .width, .length ⟨10, .none⟩, true⟩, ⟨.id .height, .length ⟨10, .none⟩, true⟩]⟩ (.cons ⟨3, .elem .feGaussianBlur, "", [⟨.id .stdDeviation, .numberList [2], true⟩]⟩ .nil .nil) (.cons ⟨4, .elem .filter, "f2", [⟨.id .x, .length ⟨5, .none⟩, true⟩, ⟨.id .y, .length ⟨5, .none⟩, true⟩, ⟨.id .width, .length ⟨10, .none⟩, true⟩, ⟨.id .height, .length ⟨10, .none⟩, true⟩]⟩ (.cons ⟨5, .elem .feGaussianBlur, "", [⟨.id .stdDeviation, .numberList [2], true⟩]⟩ .nil .nil) .nil)) (.cons ⟨6, .elem .rect, "", [⟨.id .filter, .funcLink 4, true⟩]⟩ .nil .nil)) .nil) (.cons ⟨0, .elem .svg, "", []⟩ (.cons ⟨1, .elem .defs, "", []⟩ (.cons ⟨2, .elem .filter, "f1", [⟨.id .height, .length ⟨10, .none⟩, true⟩, ⟨.id .width, .length ⟨10, .none⟩, true⟩, ⟨.id .x, .length ⟨5, .none⟩, true⟩, ⟨.id .y, .length ⟨5, .none⟩, true⟩]⟩ (.cons ⟨3, .elem .feGaussianBlur, "", [⟨.id .stdDeviation, .numberList [2], true⟩]⟩ .nil .nil) .nil) (.cons ⟨4, .elem .rect, "", [⟨.id .filter, .funcLink 2, true⟩]⟩ .nil .nil)) .nil) = true := by decide +kernel

-- rm_dupl_defs/fe_gaussian_blur.rs:168 keep_1
example : gives false [may Dupl.rmBlurs] (.cons ⟨0, .elem .svg, "", []⟩ (.cons ⟨1, .elem .filter, "f1", [⟨.id .height, .length ⟨10, .none⟩, true⟩, ⟨.id .width, .length ⟨10, .none⟩, true⟩, ⟨.id .x, .length ⟨50, .none⟩, true⟩, ⟨.id .y, .length ⟨5, .none⟩, true⟩]⟩ (.cons ⟨2, .elem .feGaussianBlur, "", [⟨.id .stdDeviation, .numberList [2], true⟩]⟩ .nil .nil) (.cons ⟨3, .elem .filter, "f2", [⟨.id .height, .length ⟨10, .none⟩, true⟩, ⟨.id .width, .length ⟨10, .none⟩, true⟩, ⟨.id .x, .length ⟨5, .none⟩, true⟩, ⟨.id .y, .length ⟨5, .none⟩, true⟩]⟩ (.cons ⟨4, .elem .feGaussianBlur, "", [⟨.id .stdDeviation, .numberList [2], true⟩]⟩ .nil .nil) .nil)) .nil) (.cons ⟨0, .elem .svg, "", []⟩ (.cons ⟨1, .elem .filter, "f1", [⟨.id .height, .length ⟨10, .none⟩, true⟩, ⟨.id .width, .length ⟨10, .none⟩, true⟩, ⟨.id .x, .length ⟨50, .none⟩, true⟩, ⟨.id .y, .length ⟨5, .none⟩, true⟩]⟩ (.cons ⟨2, .elem .feGaussianBlur, "", [⟨.id .stdDeviation, .numberList [2], true⟩]⟩ .nil .nil) (.cons ⟨3, .elem .filter, "f2", [⟨.id .height, .length ⟨10, .none⟩, true⟩, ⟨.id .width, .length ⟨10, .none⟩, true⟩, ⟨.id .x, .length ⟨5, .none⟩, true⟩, ⟨.id .y, .length ⟨5, .none⟩, true⟩]⟩ (.cons ⟨4, .elem .feGaussianBlur, "", [⟨.id .stdDeviation, .numberList [2], true⟩]⟩ .nil .nil) .nil)) .nil) = true := by decide +kernel

-- rm_dupl_defs/fe_gaussian_blur.rs:179 keep_2
example : gives false [may Dupl.rmBlurs] (.cons ⟨0, .elem .svg, "", []⟩ (.cons ⟨1, .elem .filter, "f1", []⟩ (.cons ⟨2, .elem .feGaussianBlur, "", [⟨.id .stdDeviation, .numberList [1], true⟩]⟩ .nil .nil) (.cons ⟨3, .elem .filter, "f2", []⟩ (.cons ⟨4, .elem .feGaussianBlur, "", [⟨.id .stdDeviation, .numberList [2], true⟩]⟩ .nil .nil) .nil)) .nil) (.cons ⟨0, .elem .svg, "", []⟩ (.cons ⟨1, .elem .filter, "f1", []⟩ (.cons ⟨2, .elem .feGaussianBlur, "", [⟨.id .stdDeviation, .numberList [1], true⟩]⟩ .nil .nil) (.cons ⟨3, .elem .filter, "f2", []⟩ (.cons ⟨4, .elem .feGaussianBlur, "", [⟨.id .stdDeviation, .numberList [2], true⟩]⟩ .nil .nil) .nil)) .nil) = true := by decide +kernel

-- rm_dupl_defs/fe_gaussian_blur.rs:190 keep_3
example : gives false [may Dupl.rmBlurs] (.cons ⟨0, .elem .svg, "", []⟩ (.cons ⟨1, .elem .filter, "f1", [⟨.id .xlinkHref, .link 3, true⟩]⟩ (.cons ⟨2, .elem .feGaussianBlur, "", [⟨.id .stdDeviation, .numberList [1], true⟩]⟩ .nil .nil) (.cons ⟨3, .elem .filter, "f2", []⟩ (.cons ⟨4, .elem .feGaussianBlur, "", [⟨.id .stdDeviation, .numberList [1], true⟩]⟩ .nil .nil) .nil)) .nil) (.cons ⟨0, .elem .svg, "", []⟩ (.cons ⟨1, .elem .filter, "f1", [⟨.id .xlinkHref, .link 3, true⟩]⟩ (.cons ⟨2, .elem .feGaussianBlur, "", [⟨.id .stdDeviation, .numberList [1], true⟩]⟩ .nil .nil) (.cons ⟨3, .elem .filter, "f2", []⟩ (.cons ⟨4, .elem .feGaussianBlur, "", [⟨.id .stdDeviation, .numberList [1], true⟩]⟩ .nil .nil) .nil)) .nil) = true := by decide +kernel

-- rm_dupl_defs/linear_gradient.rs:71 rm_1
example : gives false [may Gradients.resolveLinear, may Dupl.rmLinear] (.cons ⟨0, .elem .svg, "", []⟩ (.cons ⟨1, .elem .defs, "", []⟩ (.cons ⟨2, .elem .linearGradient, "lg1", []⟩ (.cons ⟨3, .elem .stop, "", [⟨.id .offset, .length ⟨0, .none⟩, true⟩, ⟨.id .stopColor, .color 255 0 0, true⟩]⟩ .nil (.cons ⟨4, .elem .stop, "", [⟨.id .offset, .length ⟨1, .none⟩, true⟩, ⟨.id .stopColor, .color 0 0 255, true⟩]⟩ .nil .nil)) (.cons ⟨5, .elem .linearGradient, "lg2", []⟩ (.cons ⟨6, .elem .stop, "", [⟨.id .offset, .length ⟨0, .none⟩, true⟩, ⟨.id .stopColor, .color 255 0 0, true⟩]⟩ .nil (.cons ⟨7, .elem .stop, "", [⟨.id .offset, .length ⟨1, .none⟩, true⟩, ⟨.id .stopColor, .color 0 0 255, true⟩]⟩ .nil .nil)) .nil)) (.cons ⟨8, .elem .rect, "", [⟨.id .fill, .funcLink 5, true⟩]⟩ .nil .nil)) .nil) (.cons ⟨0, .elem .svg, "", []⟩ (.cons ⟨1, .elem .defs, "", []⟩ (.cons ⟨2, .elem .linearGradient, "lg1", []⟩ (.cons ⟨3, .elem .stop, "", [⟨.id .offset, .length ⟨0, .none⟩, true⟩, ⟨.id .stopColor, .color 255 0 0, true⟩]⟩ .nil (.cons ⟨4, .elem .stop, "", [⟨.id .offset, .length ⟨1, .none⟩, true⟩, ⟨.id .stopColor, .color 0 0 255, true⟩]⟩ .nil .nil)) .nil) (.cons ⟨5, .elem .rect, "", [⟨.id .fill, .funcLink 2, true⟩]⟩ .nil .nil)) .nil) = true := by decide +kernel

-- rm_dupl_defs/linear_gradient.rs:96 rm_2
example : gives false [may Gradients.resolveLinear, may Dupl.rmLinear] (.cons ⟨0, .elem .svg, "", []⟩ (.cons ⟨1, .elem .defs, "", []⟩ (.cons ⟨2, .elem .linearGradient, "lg1", []⟩ (.cons ⟨3, .elem .stop, "", [⟨.id .offset, .length ⟨0, .none⟩, true⟩, ⟨.id .stopColor, .color 255 0 0, true⟩]⟩ .nil (.cons ⟨4, .elem .stop, "", [⟨.id .offset, .length ⟨1, .none⟩, true⟩, ⟨.id .stopColor, .color 0 0 255, true⟩]⟩ .nil .nil)) (.cons ⟨5, .elem .linearGradient, "lg2", []⟩ (.cons ⟨6, .elem .stop, "", [⟨.id .offset, .length ⟨0, .none⟩, true⟩, ⟨.id .stopColor, .color 255 0 0, true⟩]⟩ .nil (.cons ⟨7, .elem .stop, "", [⟨.id .offset, .length ⟨1, .none⟩, true⟩, ⟨.id .stopColor, .color 0 0 255, true⟩]⟩ .nil .nil)) (.cons ⟨8, .elem .linearGradient, "lg3", []⟩ (.cons ⟨9, .elem .stop, "", [⟨.id .offset, .length ⟨0, .none⟩, true⟩, ⟨.id .stopColor, .color 255 0 0, true⟩]⟩ .nil (.cons ⟨10, .elem .stop, "", [⟨.id .offset, .length ⟨1, .none⟩, true⟩, ⟨.id .stopColor, .color 0 0 255, true⟩]⟩ .nil .nil)) .nil))) (.cons ⟨11, .elem .rect, "", [⟨.id .fill, .funcLink 5, true⟩]⟩ .nil (.cons ⟨12, .elem .rect, "", [⟨.id .fill, .funcLink 8, true⟩]⟩ .nil .nil))) .nil) (.cons ⟨0, .elem .svg, "", []⟩ (.cons ⟨1, .elem .defs, "", []⟩ (.cons ⟨2, .elem .linearGradient, "lg1", []⟩ (.cons ⟨3, .elem .stop, "", [⟨.id .offset, .length ⟨0, .none⟩, true⟩, ⟨.id .stopColor, .color 255 0 0, true⟩]⟩ .nil (.cons ⟨4, .elem .stop, "", [⟨.id .offset, .length ⟨1, .none⟩, true⟩, ⟨.id .stopColor, .color 0 0 255, true⟩]⟩ .nil .nil)) .nil) (.cons ⟨5, .elem .rect, "", [⟨.id .fill, .funcLink 2, true⟩]⟩ .nil (.cons ⟨6, .elem .rect, "", [⟨.id .fill, .funcLink 2, true⟩]⟩ .nil .nil))) .nil) = true := by decide +kernel

-- rm_dupl_defs/linear_gradient.rs:128 rm_3
example : gives false [may Gradients.resolveLinear, may Dupl.rmLinear] (.cons ⟨0, .elem .svg, "", []⟩ (.cons ⟨1, .elem .defs, "", []⟩ (.cons ⟨2, .elem .linearGradient, "lg1", [⟨.id .x1, .length ⟨0, .percent⟩, true⟩]⟩ .nil (.cons ⟨3, .elem .linearGradient, "lg2", [⟨.id .x2, .length ⟨100, .percent⟩, true⟩]⟩ .nil .nil)) (.cons ⟨4, .elem .rect, "", [⟨.id .fill, .funcLink 3, true⟩]⟩ .nil .nil)) .nil) (.cons ⟨0, .elem .svg, "", []⟩ (.cons ⟨1, .elem .defs, "", []⟩ (.cons ⟨2, .elem .linearGradient, "lg1", [⟨.id .x1, .length ⟨0, .percent⟩, true⟩]⟩ .nil .nil) (.cons ⟨3, .elem .rect, "", [⟨.id .fill, .funcLink 2, true⟩]⟩ .nil .nil)) .nil) = true := by decide +kernel

-- rm_dupl_defs/linear_gradient.rs:145 rm_4
example : gives false [may Gradients.resolveLinear, may Dupl.rmLinear] (.cons ⟨0, .elem .svg, "", []⟩ (.cons ⟨1, .elem .defs, "", []⟩ (.cons ⟨2, .elem .linearGradient, "lg1", []⟩ .nil (.cons ⟨3, .elem .linearGradient, "lg2", []⟩ .nil .nil)) (.cons ⟨4, .elem .rect, "", [⟨.id .fill, .funcLink 3, true⟩]⟩ .nil .nil)) .nil) (.cons ⟨0, .elem .svg, "", []⟩ (.cons ⟨1, .elem .defs, "", []⟩ (.cons ⟨2, .elem .linearGradient, "lg1", []⟩ .nil .nil) (.cons ⟨3, .elem .rect, "", [⟨.id .fill, .funcLink 2, true⟩]⟩ .nil .nil)) .nil) = true := by decide +kernel

-- rm_dupl_defs/linear_gradient.rs:161 rm_5
example : gives false [may Gradients.resolveLinear, may Dupl.rmLinear] (.cons ⟨0, .elem .svg, "", []⟩ (.cons ⟨1, .elem .linearGradient, "lg1", []⟩ (.cons ⟨2, .elem .stop, "", []⟩ .nil .nil) (.cons ⟨3, .elem .linearGradient, "lg2", [⟨.id .xlinkHref, .link 1, true⟩]⟩ .nil (.cons ⟨4, .elem .linearGradient, "lg3", [⟨.id .xlinkHref, .link 1, true⟩]⟩ .nil (.cons ⟨5, .elem .rect, "", [⟨.id .fill, .funcLink 3, true⟩]⟩ .nil (.cons ⟨6, .elem .rect, "", [⟨.id .fill, .funcLink 4, true⟩]⟩ .nil .nil))))) .nil) (.cons ⟨0, .elem .svg, "", []⟩ (.cons ⟨1, .elem .linearGradient, "lg1", []⟩ (.cons ⟨2, .elem .stop, "", []⟩ .nil .nil) (.cons ⟨3, .elem .linearGradient, "lg2", [⟨.id .xlinkHref, .link 1, true⟩]⟩ .nil (.cons ⟨4, .elem .rect, "", [⟨.id .fill, .funcLink 3, true⟩]⟩ .nil (.cons ⟨5, .elem .rect, "", [⟨.id .fill, .funcLink 3, true⟩]⟩ .nil .nil)))) .nil) = true := by decide +kernel

-- rm_dupl_defs/linear_gradient.rs:181 rm_6
example : gives false [may Gradients.resolveLinear, may Dupl.rmLinear] (.cons ⟨0, .elem .svg, "", []⟩ (.cons ⟨1, .elem .linearGradient, "lg1", [⟨.id .xlinkHref, .link 2, true⟩]⟩ .nil (.cons ⟨2, .elem .linearGradient, "lg2", []⟩ .nil .nil)) .nil) (.cons ⟨0, .elem .svg, "", []⟩ (.cons ⟨1, .elem .linearGradient, "lg1", []⟩ .nil .nil) .nil) = true := by decide +kernel

-- rm_dupl_defs/mod.rs:172 cmp_1
example : stopsTest (.cons ⟨0, .elem .svg, "", []⟩ (.cons ⟨1, .elem .linearGradient, "lg1", []⟩ (.cons ⟨2, .elem .stop, "", [⟨.id .offset, .length ⟨0, .none⟩, true⟩, ⟨.id .stopColor, .color 255 0 0, true⟩, ⟨.id .stopOpacity, .number 1, true⟩]⟩ .nil (.cons ⟨3, .elem .stop, "", [⟨.id .offset, .length ⟨1, .none⟩, true⟩, ⟨.id .stopColor, .color 0 0 0, true⟩, ⟨.id .stopOpacity, .number 1, true⟩]⟩ .nil .nil)) (.cons ⟨4, .elem .linearGradient, "lg2", []⟩ (.cons ⟨5, .elem .stop, "", [⟨.id .offset, .length ⟨0, .none⟩, true⟩, ⟨.id .stopColor, .color 255 0 0, true⟩, ⟨.id .stopOpacity, .number 1, true⟩]⟩ .nil (.cons ⟨6, .elem .stop, "", [⟨.id .offset, .length ⟨1, .none⟩, true⟩, ⟨.id .stopColor, .color 0 0 0, true⟩, ⟨.id .stopOpacity, .number 1, true⟩]⟩ .nil .nil)) .nil)) .nil) = some true := by decide +kernel

-- rm_dupl_defs/mod.rs:184 cmp_2
example : stopsTest (.cons ⟨0, .elem .svg, "", []⟩ (.cons ⟨1, .elem .linearGradient, "lg1", []⟩ (.cons ⟨2, .elem .stop, "", [⟨.id .offset, .length ⟨0, .none⟩, true⟩, ⟨.id .stopColor, .color 255 0 0, true⟩]⟩ .nil (.cons ⟨3, .elem .stop, "", [⟨.id .offset, .length ⟨1, .none⟩, true⟩, ⟨.id .stopColor, .color 0 0 0, true⟩]⟩ .nil .nil)) (.cons ⟨4, .elem .linearGradient, "lg2", []⟩ (.cons ⟨5, .elem .stop, "", [⟨.id .offset, .length ⟨0, .none⟩, true⟩, ⟨.id .stopColor, .color 255 0 0, true⟩, ⟨.id .stopOpacity, .number 1, true⟩]⟩ .nil (.cons ⟨6, .elem .stop, "", [⟨.id .offset, .length ⟨1, .none⟩, true⟩]⟩ .nil .nil)) .nil)) .nil) = some true := by decide +kernel

-- rm_dupl_defs/mod.rs:196 cmp_3
example : stopsTest (.cons ⟨0, .elem .svg, "", []⟩ (.cons ⟨1, .elem .linearGradient, "lg1", []⟩ (.cons ⟨2, .elem .stop, "", [⟨.id .offset, .length ⟨0, .none⟩, true⟩]⟩ .nil (.cons ⟨3, .elem .stop, "", [⟨.id .offset, .length ⟨1, .none⟩, true⟩]⟩ .nil .nil)) (.cons ⟨4, .elem .linearGradient, "lg2", []⟩ (.cons ⟨5, .elem .stop, "", [⟨.id .offset, .length ⟨0, .none⟩, true⟩]⟩ .nil (.cons ⟨6, .elem .stop, "", [⟨.id .offset, .length ⟨1, .none⟩, true⟩]⟩ .nil .nil)) .nil)) .nil) = some true := by decide +kernel

-- rm_dupl_defs/mod.rs:208 cmp_4
example : stopsTest (.cons ⟨0, .elem .svg, "", []⟩ (.cons ⟨1, .elem .linearGradient, "lg1", []⟩ (.cons ⟨2, .elem .stop, "", [⟨.id .offset, .length ⟨0, .none⟩, true⟩]⟩ .nil (.cons ⟨3, .elem .stop, "", [⟨.id .offset, .length ⟨1, .none⟩, true⟩]⟩ .nil .nil)) (.cons ⟨4, .elem .linearGradient, "lg2", []⟩ (.cons ⟨5, .elem .stop, "", [⟨.id .offset, .length ⟨0, .none⟩, true⟩]⟩ .nil (.cons ⟨6, .elem .stop, "", [⟨.id .offset, .length ⟨(1 / 2), .none⟩, true⟩]⟩ .nil .nil)) .nil)) .nil) = some false := by decide +kernel

-- rm_dupl_defs/mod.rs:220 cmp_5
example : stopsTest (.cons ⟨0, .elem .svg, "", []⟩ (.cons ⟨1, .elem .linearGradient, "lg1", []⟩ (.cons ⟨2, .elem .stop, "", [⟨.id .offset, .length ⟨0, .none⟩, true⟩]⟩ .nil .nil) (.cons ⟨3, .elem .linearGradient, "lg2", []⟩ (.cons ⟨4, .elem .stop, "", [⟨.id .offset, .length ⟨0, .none⟩, true⟩]⟩ .nil (.cons ⟨5, .elem .stop, "", [⟨.id .offset, .length ⟨1, .none⟩, true⟩]⟩ .nil .nil)) .nil)) .nil) = some false := by decide +kernel

-- rm_dupl_defs/radial_gradient.rs:72 rm_1
example : gives false [may Gradients.resolveRadial, may Dupl.rmRadial] (.cons ⟨0, .elem .svg, "", []⟩ (.cons ⟨1, .elem .defs, "", []⟩ (.cons ⟨2, .elem .radialGradient, "rg1", [⟨.id .cx, .length ⟨0, .none⟩, true⟩, ⟨.id .cy, .length ⟨0, .none⟩, true⟩, ⟨.id .fx, .length ⟨5, .none⟩, true⟩, ⟨.id .fy, .length ⟨5, .none⟩, true⟩, ⟨.id .r, .length ⟨10, .none⟩, true⟩]⟩ (.cons ⟨3, .elem .stop, "", [⟨.id .offset, .length ⟨0, .none⟩, true⟩, ⟨.id .stopColor, .color 255 0 0, true⟩]⟩ .nil (.cons ⟨4, .elem .stop, "", [⟨.id .offset, .length ⟨1, .none⟩, true⟩, ⟨.id .stopColor, .color 0 0 255, true⟩]⟩ .nil .nil)) (.cons ⟨5, .elem .radialGradient, "rg2", [⟨.id .cx, .length ⟨0, .none⟩, true⟩, ⟨.id .cy, .length ⟨0, .none⟩, true⟩, ⟨.id .fx, .length ⟨5, .none⟩, true⟩, ⟨.id .fy, .length ⟨5, .none⟩, true⟩, ⟨.id .r, .length ⟨10, .none⟩, true⟩]⟩ (.cons ⟨6, .elem .stop, "", [⟨.id .offset, .length ⟨0, .none⟩, true⟩, ⟨.id .stopColor, .color 255 0 0, true⟩]⟩ .nil (.cons ⟨7, .elem .stop, "", [⟨.id .offset, .length ⟨1, .none⟩, true⟩, ⟨.id .stopColor, .color 0 0 255, true⟩]⟩ .nil .nil)) .nil)) (.cons ⟨8, .elem .rect, "", [⟨.id .fill, .funcLink 5, true⟩]⟩ .nil .nil)) .nil) (.cons ⟨0, .elem .svg, "", []⟩ (.cons ⟨1, .elem .defs, "", []⟩ (.cons ⟨2, .elem .radialGradient, "rg1", [⟨.id .cx, .length ⟨0, .none⟩, true⟩, ⟨.id .cy, .length ⟨0, .none⟩, true⟩, ⟨.id .fx, .length ⟨5, .none⟩, true⟩, ⟨.id .fy, .length ⟨5, .none⟩, true⟩, ⟨.id .r, .length ⟨10, .none⟩, true⟩]⟩ (.cons ⟨3, .elem .stop, "", [⟨.id .offset, .length ⟨0, .none⟩, true⟩, ⟨.id .stopColor, .color 255 0 0, true⟩]⟩ .nil (.cons ⟨4, .elem .stop, "", [⟨.id .offset, .length ⟨1, .none⟩, true⟩, ⟨.id .stopColor, .color 0 0 255, true⟩]⟩ .nil .nil)) .nil) (.cons ⟨5, .elem .rect, "", [⟨.id .fill, .funcLink 2, true⟩]⟩ .nil .nil)) .nil) = true := by decide +kernel

-- rm_dupl_defs/radial_gradient.rs:97 rm_2
example : gives false [may Gradients.resolveRadial, may Dupl.rmRadial] (.cons ⟨0, .elem .svg, "", []⟩ (.cons ⟨1, .elem .defs, "", []⟩ (.cons ⟨2, .elem .radialGradient, "rg1", [⟨.id .cx, .length ⟨0, .none⟩, true⟩, ⟨.id .cy, .length ⟨0, .none⟩, true⟩, ⟨.id .fx, .length ⟨5, .none⟩, true⟩, ⟨.id .fy, .length ⟨5, .none⟩, true⟩, ⟨.id .r, .length ⟨10, .none⟩, true⟩]⟩ .nil (.cons ⟨3, .elem .radialGradient, "rg2", [⟨.id .cx, .length ⟨0, .none⟩, true⟩, ⟨.id .cy, .length ⟨0, .none⟩, true⟩, ⟨.id .fx, .length ⟨5, .none⟩, true⟩, ⟨.id .fy, .length ⟨5, .none⟩, true⟩, ⟨.id .r, .length ⟨10, .none⟩, true⟩]⟩ .nil .nil)) (.cons ⟨4, .elem .rect, "", [⟨.id .fill, .funcLink 3, true⟩]⟩ .nil .nil)) .nil) (.cons ⟨0, .elem .svg, "", []⟩ (.cons ⟨1, .elem .defs, "", []⟩ (.cons ⟨2, .elem .radialGradient, "rg1", [⟨.id .cx, .length ⟨0, .none⟩, true⟩, ⟨.id .cy, .length ⟨0, .none⟩, true⟩, ⟨.id .fx, .length ⟨5, .none⟩, true⟩, ⟨.id .fy, .length ⟨5, .none⟩, true⟩, ⟨.id .r, .length ⟨10, .none⟩, true⟩]⟩ .nil .nil) (.cons ⟨3, .elem .rect, "", [⟨.id .fill, .funcLink 2, true⟩]⟩ .nil .nil)) .nil) = true := by decide +kernel

-- rm_dupl_defs/radial_gradient.rs:113 rm_3
example : gives false [may Gradients.resolveRadial, may Dupl.rmRadial] (.cons ⟨0, .elem .svg, "", []⟩ (.cons ⟨1, .elem .defs, "", []⟩ (.cons ⟨2, .elem .radialGradient, "rg1", [⟨.id .cx, .length ⟨5, .none⟩, true⟩, ⟨.id .cy, .length ⟨5, .none⟩, true⟩, ⟨.id .fx, .length ⟨5, .none⟩, true⟩, ⟨.id .r, .length ⟨10, .none⟩, true⟩]⟩ .nil (.cons ⟨3, .elem .radialGradient, "rg2", [⟨.id .cx, .length ⟨5, .none⟩, true⟩, ⟨.id .cy, .length ⟨5, .none⟩, true⟩, ⟨.id .fy, .length ⟨5, .none⟩, true⟩, ⟨.id .r, .length ⟨10, .none⟩, true⟩]⟩ .nil .nil)) (.cons ⟨4, .elem .rect, "", [⟨.id .fill, .funcLink 3, true⟩]⟩ .nil .nil)) .nil) (.cons ⟨0, .elem .svg, "", []⟩ (.cons ⟨1, .elem .defs, "", []⟩ (.cons ⟨2, .elem .radialGradient, "rg1", [⟨.id .cx, .length ⟨5, .none⟩, true⟩, ⟨.id .cy, .length ⟨5, .none⟩, true⟩, ⟨.id .fx, .length ⟨5, .none⟩, true⟩, ⟨.id .r, .length ⟨10, .none⟩, true⟩]⟩ .nil .nil) (.cons ⟨3, .elem .rect, "", [⟨.id .fill, .funcLink 2, true⟩]⟩ .nil .nil)) .nil) = true := by decide +kernel

-- rm_dupl_defs/radial_gradient.rs:129 rm_4
example : gives false [may Gradients.resolveRadial, may Dupl.rmRadial] (.cons ⟨0, .elem .svg, "", []⟩ (.cons ⟨1, .elem .defs, "", []⟩ (.cons ⟨2, .elem .radialGradient, "rg1", [⟨.id .cx, .length ⟨5, .none⟩, true⟩, ⟨.id .cy, .length ⟨5, .none⟩, true⟩, ⟨.id .fx, .length ⟨5, .none⟩, true⟩, ⟨.id .gradientTransform, .transform ⟨1, 0, 0, 1, 10, 20⟩, true⟩, ⟨.id .r, .length ⟨10, .none⟩, true⟩]⟩ .nil (.cons ⟨3, .elem .radialGradient, "rg2", [⟨.id .cx, .length ⟨5, .none⟩, true⟩, ⟨.id .cy, .length ⟨5, .none⟩, true⟩, ⟨.id .fy, .length ⟨5, .none⟩, true⟩, ⟨.id .gradientTransform, .transform ⟨1, 0, 0, 1, 10, 20⟩, true⟩, ⟨.id .r, .length ⟨10, .none⟩, true⟩]⟩ .nil (.cons ⟨4, .elem .radialGradient, "rg3", [⟨.id .cx, .length ⟨5, .none⟩, true⟩, ⟨.id .cy, .length ⟨5, .none⟩, true⟩, ⟨.id .fy, .length ⟨5, .none⟩, true⟩, ⟨.id .r, .length ⟨10, .none⟩, true⟩]⟩ .nil .nil))) (.cons ⟨5, .elem .rect, "", [⟨.id .fill, .funcLink 3, true⟩]⟩ .nil .nil)) .nil) (.cons ⟨0, .elem .svg, "", []⟩ (.cons ⟨1, .elem .defs, "", []⟩ (.cons ⟨2, .elem .radialGradient, "rg1", [⟨.id .cx, .length ⟨5, .none⟩, true⟩, ⟨.id .cy, .length ⟨5, .none⟩, true⟩, ⟨.id .fx, .length ⟨5, .none⟩, true⟩, ⟨.id .gradientTransform, .transform ⟨1, 0, 0, 1, 10, 20⟩, true⟩, ⟨.id .r, .length ⟨10, .none⟩, true⟩]⟩ .nil (.cons ⟨3, .elem .radialGradient, "rg3", [⟨.id .cx, .length ⟨5, .none⟩, true⟩, ⟨.id .cy, .length ⟨5, .none⟩, true⟩, ⟨.id .fy, .length ⟨5, .none⟩, true⟩, ⟨.id .r, .length ⟨10, .none⟩, true⟩]⟩ .nil .nil)) (.cons ⟨4, .elem .rect, "", [⟨.id .fill, .funcLink 2, true⟩]⟩ .nil .nil)) .nil) = true := by decide +kernel

-- rm_dupl_defs/radial_gradient.rs:150 rm_5
example : gives false [may Gradients.resolveRadial, may Dupl.rmRadial] (.cons ⟨0, .elem .svg, "", []⟩ (.cons ⟨1, .elem .radialGradient, "rg1", []⟩ .nil (.cons ⟨2, .elem .radialGradient, "rg2", [⟨.id .xlinkHref, .link 1, true⟩]⟩ .nil .nil)) .nil) (.cons ⟨0, .elem .svg, "", []⟩ (.cons ⟨1, .elem .radialGradient, "rg1", []⟩ .nil .nil) .nil) = true := by decide +kernel

-- rm_dupl_defs/radial_gradient.rs:172 rm_7
example : gives false [may Gradients.resolveRadial, may Dupl.rmRadial] (.cons ⟨0, .elem .svg, "", []⟩ (.cons ⟨1, .elem .radialGradient, "rg1", []⟩ .nil (.cons ⟨2, .elem .radialGradient, "rg2", [⟨.id .xlinkHref, .link 1, true⟩]⟩ .nil (.cons ⟨3, .elem .radialGradient, "rg3", [⟨.id .xlinkHref, .link 2, true⟩]⟩ .nil .nil))) .nil) (.cons ⟨0, .elem .svg, "", []⟩ (.cons ⟨1, .elem .radialGradient, "rg1", []⟩ .nil .nil) .nil) = true := by decide +kernel

-- rm_dupl_defs/radial_gradient.rs:183 rm_8
example : gives false [may Gradients.resolveRadial, may Dupl.rmRadial] (.cons ⟨0, .elem .svg, "", []⟩ (.cons ⟨1, .elem .linearGradient, "lg1", []⟩ .nil (.cons ⟨2, .elem .radialGradient, "rg1", [⟨.id .xlinkHref, .link 1, true⟩]⟩ .nil (.cons ⟨3, .elem .radialGradient, "rg2", [⟨.id .xlinkHref, .link 1, true⟩]⟩ .nil .nil))) .nil) (.cons ⟨0, .elem .svg, "", []⟩ (.cons ⟨1, .elem .linearGradient, "lg1", []⟩ .nil (.cons ⟨2, .elem .radialGradient, "rg1", [⟨.id .xlinkHref, .link 1, true⟩]⟩ .nil .nil)) .nil) = true := by decide +kernel

-- rm_elems.rs:46 rm_1
example : gives false [sure (Simple.removeElement .title)] (.cons ⟨0, .elem .svg, "", []⟩ (.cons ⟨1, .elem .title, "", []⟩ .nil .nil) .nil) (.cons ⟨0, .elem .svg, "", []⟩ .nil .nil) = true := by decide +kernel

-- rm_elems.rs:53 rm_2
example : gives false [sure (Simple.removeElement .title)] (.cons ⟨0, .elem .svg, "", []⟩ (.cons ⟨1, .elem .title, "", []⟩ .nil (.cons ⟨2, .elem .title, "", []⟩ .nil (.cons ⟨3, .elem .rect, "", []⟩ .nil (.cons ⟨4, .elem .title, "", []⟩ .nil .nil)))) .nil) (.cons ⟨0, .elem .svg, "", []⟩ (.cons ⟨1, .elem .rect, "", []⟩ .nil .nil) .nil) = true := by decide +kernel

-- rm_elems.rs:65 rm_3
example : gives false [sure (Simple.removeElement .title)] (.cons ⟨0, .elem .svg, "", []⟩ (.cons ⟨1, .elem .title, "", []⟩ (.cons ⟨2, .elem .title, "", []⟩ .nil (.cons ⟨3, .elem .rect, "", []⟩ .nil .nil)) (.cons ⟨4, .elem .rect, "", []⟩ .nil .nil)) .nil) (.cons ⟨0, .elem .svg, "", []⟩ (.cons ⟨1, .elem .rect, "", []⟩ .nil .nil) .nil) = true := by decide +kernel

-- rm_gradient_attrs.rs:198 move_gradient_units_1
example : gives false [may Gradients.resolveLinear, may Gradients.resolveRadial, Stops.resolveStops, may GradUnits.removeGradientAttributes] (.cons ⟨0, .elem .svg, "", []⟩ (.cons ⟨1, .elem .linearGradient, "lg1", []⟩ .nil (.cons ⟨2, .elem .linearGradient, "", [⟨.id .xlinkHref, .link 1, true⟩, ⟨.id .gradientUnits, .kw .userSpaceOnUse, true⟩]⟩ .nil (.cons ⟨3, .elem .radialGradient, "", [⟨.id .xlinkHref, .link 1, true⟩, ⟨.id .gradientUnits, .kw .userSpaceOnUse, true⟩]⟩ .nil .nil))) .nil) (.cons ⟨0, .elem .svg, "", []⟩ (.cons ⟨1, .elem .linearGradient, "lg1", [⟨.id .gradientUnits, .kw .userSpaceOnUse, true⟩]⟩ .nil (.cons ⟨2, .elem .linearGradient, "", [⟨.id .xlinkHref, .link 1, true⟩]⟩ .nil (.cons ⟨3, .elem .radialGradient, "", [⟨.id .xlinkHref, .link 1, true⟩]⟩ .nil .nil))) .nil) = true := by decide +kernel

-- rm_gradient_attrs.rs:211 move_1
example : gives false [may Gradients.resolveLinear, may Gradients.resolveRadial, Stops.resolveStops, may GradUnits.removeGradientAttributes] (.cons ⟨0, .elem .svg, "", []⟩ (.cons ⟨1, .elem .linearGradient, "lg1-1", []⟩ .nil (.cons ⟨2, .elem .linearGradient, "lg2-1", [⟨.id .gradientUnits, .kw .userSpaceOnUse, true⟩, ⟨.id .xlinkHref, .link 1, true⟩]⟩ .nil (.cons ⟨3, .elem .linearGradient, "lg2-2", [⟨.id .gradientUnits, .kw .userSpaceOnUse, true⟩, ⟨.id .xlinkHref, .link 1, true⟩]⟩ .nil (.cons ⟨4, .elem .radialGradient, "lg3-1", [⟨.id .gradientUnits, .kw .userSpaceOnUse, true⟩, ⟨.id .xlinkHref, .link 2, true⟩]⟩ .nil (.cons ⟨5, .elem .radialGradient, "lg3-2", [⟨.id .gradientUnits, .kw .userSpaceOnUse, true⟩, ⟨.id .xlinkHref, .link 2, true⟩]⟩ .nil .nil))))) .nil) (.cons ⟨0, .elem .svg, "", []⟩ (.cons ⟨1, .elem .linearGradient, "lg1-1", [⟨.id .gradientUnits, .kw .userSpaceOnUse, true⟩]⟩ .nil (.cons ⟨2, .elem .linearGradient, "lg2-1", [⟨.id .xlinkHref, .link 1, true⟩]⟩ .nil (.cons ⟨3, .elem .linearGradient, "lg2-2", [⟨.id .xlinkHref, .link 1, true⟩]⟩ .nil (.cons ⟨4, .elem .radialGradient, "lg3-1", [⟨.id .xlinkHref, .link 2, true⟩]⟩ .nil (.cons ⟨5, .elem .radialGradient, "lg3-2", [⟨.id .xlinkHref, .link 2, true⟩]⟩ .nil .nil))))) .nil) = true := by decide +kernel

-- rm_gradient_attrs.rs:228 move_gradient_units_2
example : gives false [may Gradients.resolveLinear, may Gradients.resolveRadial, Stops.resolveStops, may GradUnits.removeGradientAttributes] (.cons ⟨0, .elem .svg, "", []⟩ (.cons ⟨1, .elem .linearGradient, "lg1", []⟩ .nil (.cons ⟨2, .elem .linearGradient, "", [⟨.id .gradientUnits, .kw .userSpaceOnUse, true⟩, ⟨.id .xlinkHref, .link 1, true⟩]⟩ .nil (.cons ⟨3, .elem .linearGradient, "", [⟨.id .gradientUnits, .kw .userSpaceOnUse, true⟩, ⟨.id .xlinkHref, .link 1, true⟩]⟩ .nil (.cons ⟨4, .elem .linearGradient, "", [⟨.id .gradientUnits, .kw .objectBoundingBox, true⟩, ⟨.id .xlinkHref, .link 1, true⟩]⟩ .nil .nil)))) .nil) (.cons ⟨0, .elem .svg, "", []⟩ (.cons ⟨1, .elem .linearGradient, "lg1", [⟨.id .gradientUnits, .kw .userSpaceOnUse, true⟩]⟩ .nil (.cons ⟨2, .elem .linearGradient, "", [⟨.id .xlinkHref, .link 1, true⟩]⟩ .nil (.cons ⟨3, .elem .linearGradient, "", [⟨.id .xlinkHref, .link 1, true⟩]⟩ .nil (.cons ⟨4, .elem .linearGradient, "", [⟨.id .gradientUnits, .kw .objectBoundingBox, true⟩, ⟨.id .xlinkHref, .link 1, true⟩]⟩ .nil .nil)))) .nil) = true := by decide +kernel

-- rm_gradient_attrs.rs:243 move_gradient_units_3
example : gives false [may Gradients.resolveLinear, may Gradients.resolveRadial, Stops.resolveStops, may GradUnits.removeGradientAttributes] (.cons ⟨0, .elem .svg, "", []⟩ (.cons ⟨1, .elem .linearGradient, "lg1", [⟨.id .gradientUnits, .kw .objectBoundingBox, true⟩]⟩ .nil (.cons ⟨2, .elem .linearGradient, "", [⟨.id .gradientUnits, .kw .userSpaceOnUse, true⟩, ⟨.id .xlinkHref, .link 1, true⟩]⟩ .nil (.cons ⟨3, .elem .linearGradient, "", [⟨.id .gradientUnits, .kw .objectBoundingBox, true⟩, ⟨.id .xlinkHref, .link 1, true⟩]⟩ .nil (.cons ⟨4, .elem .linearGradient, "", [⟨.id .gradientUnits, .kw .objectBoundingBox, true⟩, ⟨.id .xlinkHref, .link 1, true⟩]⟩ .nil .nil)))) .nil) (.cons ⟨0, .elem .svg, "", []⟩ (.cons ⟨1, .elem .linearGradient, "lg1", []⟩ .nil (.cons ⟨2, .elem .linearGradient, "", [⟨.id .gradientUnits, .kw .userSpaceOnUse, true⟩, ⟨.id .xlinkHref, .link 1, true⟩]⟩ .nil (.cons ⟨3, .elem .linearGradient, "", [⟨.id .xlinkHref, .link 1, true⟩]⟩ .nil (.cons ⟨4, .elem .linearGradient, "", [⟨.id .xlinkHref, .link 1, true⟩]⟩ .nil .nil)))) .nil) = true := by decide +kernel

-- rm_gradient_attrs.rs:258 move_gradient_units_4
example : gives false [may Gradients.resolveLinear, may Gradients.resolveRadial, Stops.resolveStops, may GradUnits.removeGradientAttributes] (.cons ⟨0, .elem .svg, "", []⟩ (.cons ⟨1, .elem .linearGradient, "lg1", [⟨.id .gradientUnits, .kw .userSpaceOnUse, true⟩]⟩ .nil (.cons ⟨2, .elem .linearGradient, "", [⟨.id .gradientUnits, .kw .userSpaceOnUse, true⟩, ⟨.id .xlinkHref, .link 1, true⟩]⟩ .nil (.cons ⟨3, .elem .linearGradient, "", [⟨.id .gradientUnits, .kw .objectBoundingBox, true⟩, ⟨.id .xlinkHref, .link 1, true⟩]⟩ .nil .nil))) .nil) (.cons ⟨0, .elem .svg, "", []⟩ (.cons ⟨1, .elem .linearGradient, "lg1", []⟩ .nil (.cons ⟨2, .elem .linearGradient, "", [⟨.id .gradientUnits, .kw .userSpaceOnUse, true⟩, ⟨.id .xlinkHref, .link 1, true⟩]⟩ .nil (.cons ⟨3, .elem .linearGradient, "", [⟨.id .xlinkHref, .link 1, true⟩]⟩ .nil .nil))) .nil) = true := by decide +kernel

-- rm_gradient_attrs.rs:271 move_gradient_units_5
example : gives false [may Gradients.resolveLinear, may Gradients.resolveRadial, Stops.resolveStops, may GradUnits.removeGradientAttributes] (.cons ⟨0, .elem .svg, "", []⟩ (.cons ⟨1, .elem .linearGradient, "lg1", []⟩ .nil (.cons ⟨2, .elem .linearGradient, "", [⟨.id .gradientUnits, .kw .userSpaceOnUse, true⟩, ⟨.id .xlinkHref, .link 1, true⟩]⟩ .nil (.cons ⟨3, .elem .linearGradient, "", [⟨.id .gradientUnits, .kw .userSpaceOnUse, true⟩, ⟨.id .xlinkHref, .link 1, true⟩]⟩ .nil (.cons ⟨4, .elem .linearGradient, "", [⟨.id .xlinkHref, .link 1, true⟩]⟩ .nil .nil)))) .nil) (.cons ⟨0, .elem .svg, "", []⟩ (.cons ⟨1, .elem .linearGradient, "lg1", [⟨.id .gradientUnits, .kw .userSpaceOnUse, true⟩]⟩ .nil (.cons ⟨2, .elem .linearGradient, "", [⟨.id .xlinkHref, .link 1, true⟩]⟩ .nil (.cons ⟨3, .elem .linearGradient, "", [⟨.id .xlinkHref, .link 1, true⟩]⟩ .nil (.cons ⟨4, .elem .linearGradient, "", [⟨.id .gradientUnits, .kw .objectBoundingBox, true⟩, ⟨.id .xlinkHref, .link 1, true⟩]⟩ .nil .nil)))) .nil) = true := by decide +kernel

-- rm_invalid_stops.rs:78 rm_1
example : gives false [may Gradients.resolveLinear, may Gradients.resolveRadial, Stops.resolveStops, may Stops.fixInvalidAttributes, sure Stops.removeInvalidStops] (.cons ⟨0, .elem .svg, "", []⟩ (.cons ⟨1, .elem .linearGradient, "", []⟩ (.cons ⟨2, .elem .stop, "", [⟨.id .offset, .length ⟨0, .none⟩, true⟩]⟩ .nil (.cons ⟨3, .elem .stop, "", [⟨.id .offset, .length ⟨0, .none⟩, true⟩]⟩ .nil (.cons ⟨4, .elem .stop, "", [⟨.id .offset, .length ⟨1, .none⟩, true⟩]⟩ .nil .nil))) .nil) .nil) (.cons ⟨0, .elem .svg, "", []⟩ (.cons ⟨1, .elem .linearGradient, "", []⟩ (.cons ⟨2, .elem .stop, "", [⟨.id .offset, .length ⟨0, .none⟩, true⟩]⟩ .nil (.cons ⟨3, .elem .stop, "", [⟨.id .offset, .length ⟨1, .none⟩, true⟩]⟩ .nil .nil)) .nil) .nil) = true := by decide +kernel

-- rm_invalid_stops.rs:94 rm_2
example : gives false [may Gradients.resolveLinear, may Gradients.resolveRadial, Stops.resolveStops, may Stops.fixInvalidAttributes, sure Stops.removeInvalidStops] (.cons ⟨0, .elem .svg, "", []⟩ (.cons ⟨1, .elem .linearGradient, "", []⟩ (.cons ⟨2, .elem .stop, "", [⟨.id .offset, .length ⟨0, .none⟩, true⟩]⟩ .nil (.cons ⟨3, .elem .stop, "", [⟨.id .offset, .length ⟨1, .none⟩, true⟩]⟩ .nil (.cons ⟨4, .elem .stop, "", [⟨.id .offset, .length ⟨(1 / 5), .none⟩, true⟩]⟩ .nil .nil))) .nil) .nil) (.cons ⟨0, .elem .svg, "", []⟩ (.cons ⟨1, .elem .linearGradient, "", []⟩ (.cons ⟨2, .elem .stop, "", [⟨.id .offset, .length ⟨0, .none⟩, true⟩]⟩ .nil (.cons ⟨3, .elem .stop, "", [⟨.id .offset, .length ⟨1, .none⟩, true⟩]⟩ .nil .nil)) .nil) .nil) = true := by decide +kernel

-- rm_invalid_stops.rs:110 rm_3
example : gives false [may Gradients.resolveLinear, may Gradients.resolveRadial, Stops.resolveStops, may Stops.fixInvalidAttributes, sure Stops.removeInvalidStops] (.cons ⟨0, .elem .svg, "", []⟩ (.cons ⟨1, .elem .linearGradient, "", []⟩ (.cons ⟨2, .elem .stop, "", [⟨.id .offset, .length ⟨0, .none⟩, true⟩]⟩ .nil (.cons ⟨3, .elem .stop, "", [⟨.id .offset, .length ⟨(1 / 2), .none⟩, true⟩, ⟨.id .stopColor, .color 255 0 0, true⟩]⟩ .nil (.cons ⟨4, .elem .stop, "", [⟨.id .offset, .length ⟨(1 / 2), .none⟩, true⟩, ⟨.id .stopColor, .color 255 0 0, true⟩]⟩ .nil (.cons ⟨5, .elem .stop, "", [⟨.id .offset, .length ⟨1, .none⟩, true⟩]⟩ .nil .nil)))) .nil) .nil) (.cons ⟨0, .elem .svg, "", []⟩ (.cons ⟨1, .elem .linearGradient, "", []⟩ (.cons ⟨2, .elem .stop, "", [⟨.id .offset, .length ⟨0, .none⟩, true⟩]⟩ .nil (.cons ⟨3, .elem .stop, "", [⟨.id .offset, .length ⟨(1 / 2), .none⟩, true⟩, ⟨.id .stopColor, .color 255 0 0, true⟩]⟩ .nil (.cons ⟨4, .elem .stop, "", [⟨.id .offset, .length ⟨1, .none⟩, true⟩]⟩ .nil .nil))) .nil) .nil) = true := by decide +kernel

-- rm_invalid_stops.rs:128 keep_1
example : gives false [may Gradients.resolveLinear, may Gradients.resolveRadial, Stops.resolveStops, may Stops.fixInvalidAttributes, sure Stops.removeInvalidStops] (.cons ⟨0, .elem .svg, "", []⟩ (.cons ⟨1, .elem .linearGradient, "", []⟩ (.cons ⟨2, .elem .stop, "", [⟨.id .offset, .length ⟨0, .none⟩, true⟩]⟩ .nil (.cons ⟨3, .elem .stop, "", [⟨.id .offset, .length ⟨(1 / 2), .none⟩, true⟩, ⟨.id .stopColor, .color 255 0 0, true⟩]⟩ .nil (.cons ⟨4, .elem .stop, "", [⟨.id .offset, .length ⟨(1 / 2), .none⟩, true⟩, ⟨.id .stopColor, .color 0 255 0, true⟩]⟩ .nil (.cons ⟨5, .elem .stop, "", [⟨.id .offset, .length ⟨1, .none⟩, true⟩]⟩ .nil .nil)))) .nil) .nil) (.cons ⟨0, .elem .svg, "", []⟩ (.cons ⟨1, .elem .linearGradient, "", []⟩ (.cons ⟨2, .elem .stop, "", [⟨.id .offset, .length ⟨0, .none⟩, true⟩]⟩ .nil (.cons ⟨3, .elem .stop, "", [⟨.id .offset, .length ⟨(1 / 2), .none⟩, true⟩, ⟨.id .stopColor, .color 255 0 0, true⟩]⟩ .nil (.cons ⟨4, .elem .stop, "", [⟨.id .offset, .length ⟨(1 / 2), .none⟩, true⟩, ⟨.id .stopColor, .color 0 255 0, true⟩]⟩ .nil (.cons ⟨5, .elem .stop, "", [⟨.id .offset, .length ⟨1, .none⟩, true⟩]⟩ .nil .nil)))) .nil) .nil) = true := by decide +kernel

-- rm_invalid_stops.rs:139 keep_2
example : gives false [may Gradients.resolveLinear, may Gradients.resolveRadial, Stops.resolveStops, may Stops.fixInvalidAttributes, sure Stops.removeInvalidStops] (.cons ⟨0, .elem .svg, "", []⟩ (.cons ⟨1, .elem .linearGradient, "", []⟩ (.cons ⟨2, .elem .stop, "", [⟨.id .offset, .length ⟨0, .none⟩, true⟩]⟩ .nil (.cons ⟨3, .elem .stop, "", [⟨.id .offset, .length ⟨(1 / 2), .none⟩, true⟩, ⟨.id .stopOpacity, .number (3 / 5), true⟩]⟩ .nil (.cons ⟨4, .elem .stop, "", [⟨.id .offset, .length ⟨(1 / 2), .none⟩, true⟩, ⟨.id .stopOpacity, .number (1 / 2), true⟩]⟩ .nil (.cons ⟨5, .elem .stop, "", [⟨.id .offset, .length ⟨1, .none⟩, true⟩]⟩ .nil .nil)))) .nil) .nil) (.cons ⟨0, .elem .svg, "", []⟩ (.cons ⟨1, .elem .linearGradient, "", []⟩ (.cons ⟨2, .elem .stop, "", [⟨.id .offset, .length ⟨0, .none⟩, true⟩]⟩ .nil (.cons ⟨3, .elem .stop, "", [⟨.id .offset, .length ⟨(1 / 2), .none⟩, true⟩, ⟨.id .stopOpacity, .number (3 / 5), true⟩]⟩ .nil (.cons ⟨4, .elem .stop, "", [⟨.id .offset, .length ⟨(1 / 2), .none⟩, true⟩, ⟨.id .stopOpacity, .number (1 / 2), true⟩]⟩ .nil (.cons ⟨5, .elem .stop, "", [⟨.id .offset, .length ⟨1, .none⟩, true⟩]⟩ .nil .nil)))) .nil) .nil) = true := by decide +kernel

-- rm_invalid_stops.rs:150 keep_3
example : gives false [may Gradients.resolveLinear, may Gradients.resolveRadial, Stops.resolveStops, may Stops.fixInvalidAttributes, sure Stops.removeInvalidStops] (.cons ⟨0, .elem .svg, "", []⟩ (.cons ⟨1, .elem .linearGradient, "", []⟩ (.cons ⟨2, .elem .stop, "", [⟨.id .offset, .length ⟨0, .none⟩, true⟩]⟩ .nil (.cons ⟨3, .elem .stop, "", [⟨.id .offset, .length ⟨1, .none⟩, true⟩, ⟨.id .stopColor, .color 255 0 0, true⟩]⟩ .nil (.cons ⟨4, .elem .stop, "", [⟨.id .offset, .length ⟨1, .none⟩, true⟩, ⟨.id .stopColor, .color 0 255 0, true⟩]⟩ .nil .nil))) .nil) .nil) (.cons ⟨0, .elem .svg, "", []⟩ (.cons ⟨1, .elem .linearGradient, "", []⟩ (.cons ⟨2, .elem .stop, "", [⟨.id .offset, .length ⟨0, .none⟩, true⟩]⟩ .nil (.cons ⟨3, .elem .stop, "", [⟨.id .offset, .length ⟨1, .none⟩, true⟩, ⟨.id .stopColor, .color 255 0 0, true⟩]⟩ .nil (.cons ⟨4, .elem .stop, "", [⟨.id .offset, .length ⟨1, .none⟩, true⟩, ⟨.id .stopColor, .color 0 255 0, true⟩]⟩ .nil .nil))) .nil) .nil) = true := by decide +kernel

-- rm_invisible_elems.rs:361 rm_clip_path_children_1
example : gives false [may GroupDefs.groupDefs, may Invisible.removeInvisible, may Simple.removeEmptyDefs] (.cons ⟨0, .elem .svg, "", []⟩ (.cons ⟨1, .elem .defs, "", []⟩ (.cons ⟨2, .elem .clipPath, "", []⟩ (.cons ⟨3, .elem .g, "", []⟩ .nil (.cons ⟨4, .elem .rect, "", [⟨.id .height, .length ⟨5, .none⟩, true⟩, ⟨.id .width, .length ⟨5, .none⟩, true⟩]⟩ .nil .nil)) .nil) .nil) .nil) (.cons ⟨0, .elem .svg, "", []⟩ (.cons ⟨1, .elem .defs, "", []⟩ (.cons ⟨2, .elem .clipPath, "", []⟩ (.cons ⟨3, .elem .rect, "", [⟨.id .height, .length ⟨5, .none⟩, true⟩, ⟨.id .width, .length ⟨5, .none⟩, true⟩]⟩ .nil .nil) .nil) .nil) .nil) = true := by decide +kernel

-- rm_invisible_elems.rs:379 rm_clip_path_children_2
example : gives false [may GroupDefs.groupDefs, may Invisible.removeInvisible, may Simple.removeEmptyDefs] (.cons ⟨0, .elem .svg, "", []⟩ (.cons ⟨1, .elem .defs, "", []⟩ (.cons ⟨2, .elem .clipPath, "", []⟩ (.cons ⟨3, .elem .use, "", []⟩ .nil (.cons ⟨4, .elem .use, "", [⟨.id .xlinkHref, .link 7, true⟩]⟩ .nil (.cons ⟨5, .elem .use, "", [⟨.id .xlinkHref, .link 6, true⟩]⟩ .nil .nil))) .nil) (.cons ⟨6, .elem .rect, "rect1", [⟨.id .height, .length ⟨5, .none⟩, true⟩, ⟨.id .width, .length ⟨5, .none⟩, true⟩]⟩ .nil (.cons ⟨7, .elem .g, "g1", []⟩ .nil .nil))) .nil) (.cons ⟨0, .elem .svg, "", []⟩ (.cons ⟨1, .elem .defs, "", []⟩ (.cons ⟨2, .elem .clipPath, "", []⟩ (.cons ⟨3, .elem .use, "", [⟨.id .xlinkHref, .link 4, true⟩]⟩ .nil .nil) .nil) (.cons ⟨4, .elem .rect, "rect1", [⟨.id .height, .length ⟨5, .none⟩, true⟩, ⟨.id .width, .length ⟨5, .none⟩, true⟩]⟩ .nil (.cons ⟨5, .elem .g, "g1", []⟩ .nil .nil))) .nil) = true := by decide +kernel

-- rm_invisible_elems.rs:402 rm_clip_path_1
example : gives false [may GroupDefs.groupDefs, may Invisible.removeInvisible, may Simple.removeEmptyDefs] (.cons ⟨0, .elem .svg, "", []⟩ (.cons ⟨1, .elem .clipPath, "cp1", []⟩ .nil (.cons ⟨2, .elem .rect, "", [⟨.id .clipPath, .funcLink 1, true⟩, ⟨.id .height, .length ⟨5, .none⟩, true⟩, ⟨.id .width, .length ⟨5, .none⟩, true⟩]⟩ .nil (.cons ⟨3, .elem .rect, "", [⟨.id .clipPath, .funcLink 1, true⟩, ⟨.id .height, .length ⟨5, .none⟩, true⟩, ⟨.id .width, .length ⟨5, .none⟩, true⟩]⟩ .nil .nil))) .nil) (.cons ⟨0, .elem .svg, "", []⟩ .nil .nil) = true := by decide +kernel

-- rm_invisible_elems.rs:411 rm_clip_path_2
example : gives false [may GroupDefs.groupDefs, may Invisible.removeInvisible, may Simple.removeEmptyDefs] (.cons ⟨0, .elem .svg, "", []⟩ (.cons ⟨1, .elem .linearGradient, "lg1", []⟩ .nil (.cons ⟨2, .elem .clipPath, "cp1", []⟩ .nil (.cons ⟨3, .elem .rect, "", [⟨.id .clipPath, .funcLink 2, true⟩, ⟨.id .fill, .funcLink 1, true⟩, ⟨.id .height, .length ⟨5, .none⟩, true⟩, ⟨.id .width, .length ⟨5, .none⟩, true⟩]⟩ .nil .nil))) .nil) (.cons ⟨0, .elem .svg, "", []⟩ .nil .nil) = true := by decide +kernel

-- rm_invisible_elems.rs:420 rm_clip_path_3
example : gives false [may GroupDefs.groupDefs, may Invisible.removeInvisible, may Simple.removeEmptyDefs] (.cons ⟨0, .elem .svg, "", []⟩ (.cons ⟨1, .elem .clipPath, "", []⟩ (.cons ⟨2, .elem .rect, "", [⟨.id .display, .kw .none, true⟩, ⟨.id .height, .length ⟨5, .none⟩, true⟩, ⟨.id .width, .length ⟨5, .none⟩, true⟩]⟩ .nil .nil) .nil) .nil) (.cons ⟨0, .elem .svg, "", []⟩ .nil .nil) = true := by decide +kernel

-- rm_invisible_elems.rs:429 rm_path_1
example : gives false [may GroupDefs.groupDefs, may Invisible.removeInvisible, may Simple.removeEmptyDefs] (.cons ⟨0, .elem .svg, "", []⟩ (.cons ⟨1, .elem .path, "", []⟩ .nil .nil) .nil) (.cons ⟨0, .elem .svg, "", []⟩ .nil .nil) = true := by decide +kernel

-- rm_invisible_elems.rs:436 rm_path_2
example : gives false [may GroupDefs.groupDefs, may Invisible.removeInvisible, may Simple.removeEmptyDefs] (.cons ⟨0, .elem .svg, "", []⟩ (.cons ⟨1, .elem .path, "", [⟨.id .d, .path [], true⟩]⟩ .nil .nil) .nil) (.cons ⟨0, .elem .svg, "", []⟩ .nil .nil) = true := by decide +kernel

-- rm_invisible_elems.rs:443 rm_path_3
example : gives false [may GroupDefs.groupDefs, may Invisible.removeInvisible, may Simple.removeEmptyDefs] (.cons ⟨0, .elem .svg, "", []⟩ (.cons ⟨1, .elem .linearGradient, "lg1", []⟩ .nil (.cons ⟨2, .elem .path, "", [⟨.id .d, .path [], true⟩, ⟨.id .fill, .funcLink 1, true⟩]⟩ .nil .nil)) .nil) (.cons ⟨0, .elem .svg, "", []⟩ .nil .nil) = true := by decide +kernel

-- rm_invisible_elems.rs:451 rm_display_none_1
example : gives false [may GroupDefs.groupDefs, may Invisible.removeInvisible, may Simple.removeEmptyDefs] (.cons ⟨0, .elem .svg, "", []⟩ (.cons ⟨1, .elem .path, "", [⟨.id .display, .kw .none, true⟩]⟩ .nil .nil) .nil) (.cons ⟨0, .elem .svg, "", []⟩ .nil .nil) = true := by decide +kernel

-- rm_invisible_elems.rs:458 rm_display_none_2
example : gives false [may GroupDefs.groupDefs, may Invisible.removeInvisible, may Simple.removeEmptyDefs] (.cons ⟨0, .elem .svg, "", []⟩ (.cons ⟨1, .elem .g, "", [⟨.id .display, .kw .none, true⟩]⟩ (.cons ⟨2, .elem .rect, "", [⟨.id .height, .length ⟨5, .none⟩, true⟩, ⟨.id .width, .length ⟨5, .none⟩, true⟩]⟩ .nil .nil) .nil) .nil) (.cons ⟨0, .elem .svg, "", []⟩ .nil .nil) = true := by decide +kernel

-- rm_invisible_elems.rs:467 skip_display_none_1
example : gives false [may GroupDefs.groupDefs, may Invisible.removeInvisible, may Simple.removeEmptyDefs] (.cons ⟨0, .elem .svg, "", []⟩ (.cons ⟨1, .elem .g, "", [⟨.id .display, .kw .none, true⟩]⟩ (.cons ⟨2, .elem .rect, "r1", [⟨.id .height, .length ⟨5, .none⟩, true⟩, ⟨.id .width, .length ⟨5, .none⟩, true⟩]⟩ .nil .nil) (.cons ⟨3, .elem .use, "", [⟨.id .xlinkHref, .link 2, true⟩]⟩ .nil .nil)) .nil) (.cons ⟨0, .elem .svg, "", []⟩ (.cons ⟨1, .elem .g, "", [⟨.id .display, .kw .none, true⟩]⟩ (.cons ⟨2, .elem .rect, "r1", [⟨.id .height, .length ⟨5, .none⟩, true⟩, ⟨.id .width, .length ⟨5, .none⟩, true⟩]⟩ .nil .nil) (.cons ⟨3, .elem .use, "", [⟨.id .xlinkHref, .link 2, true⟩]⟩ .nil .nil)) .nil) = true := by decide +kernel

-- rm_invisible_elems.rs:476 rm_filter_1
example : gives false [may GroupDefs.groupDefs, may Invisible.removeInvisible, may Simple.removeEmptyDefs] (.cons ⟨0, .elem .svg, "", []⟩ (.cons ⟨1, .elem .filter, "", []⟩ .nil .nil) .nil) (.cons ⟨0, .elem .svg, "", []⟩ .nil .nil) = true := by decide +kernel

-- rm_invisible_elems.rs:483 rm_filter_2
example : gives false [may GroupDefs.groupDefs, may Invisible.removeInvisible, may Simple.removeEmptyDefs] (.cons ⟨0, .elem .svg, "", []⟩ (.cons ⟨1, .elem .filter, "f1", []⟩ .nil (.cons ⟨2, .elem .rect, "", [⟨.id .filter, .funcLink 1, true⟩, ⟨.id .height, .length ⟨5, .none⟩, true⟩, ⟨.id .width, .length ⟨5, .none⟩, true⟩]⟩ .nil .nil)) .nil) (.cons ⟨0, .elem .svg, "", []⟩ .nil .nil) = true := by decide +kernel

-- rm_invisible_elems.rs:491 rm_use_1
example : gives false [may GroupDefs.groupDefs, may Invisible.removeInvisible, may Simple.removeEmptyDefs] (.cons ⟨0, .elem .svg, "", []⟩ (.cons ⟨1, .elem .use, "", []⟩ .nil .nil) .nil) (.cons ⟨0, .elem .svg, "", []⟩ .nil .nil) = true := by decide +kernel

-- rm_invisible_elems.rs:498 rm_gradient_1
example : gives false [may GroupDefs.groupDefs, may Invisible.removeInvisible, may Simple.removeEmptyDefs] (.cons ⟨0, .elem .svg, "", []⟩ (.cons ⟨1, .elem .linearGradient, "lg1", []⟩ .nil (.cons ⟨2, .elem .rect, "", [⟨.id .fill, .funcLink 1, true⟩, ⟨.id .height, .length ⟨5, .none⟩, true⟩, ⟨.id .width, .length ⟨5, .none⟩, true⟩]⟩ .nil (.cons ⟨3, .elem .rect, "", [⟨.id .stroke, .funcLink 1, true⟩, ⟨.id .height, .length ⟨5, .none⟩, true⟩, ⟨.id .width, .length ⟨5, .none⟩, true⟩]⟩ .nil .nil))) .nil) (.cons ⟨0, .elem .svg, "", []⟩ (.cons ⟨1, .elem .rect, "", [⟨.id .fill, .kw .none, true⟩, ⟨.id .height, .length ⟨5, .none⟩, true⟩, ⟨.id .width, .length ⟨5, .none⟩, true⟩]⟩ .nil (.cons ⟨2, .elem .rect, "", [⟨.id .height, .length ⟨5, .none⟩, true⟩, ⟨.id .stroke, .kw .none, true⟩, ⟨.id .width, .length ⟨5, .none⟩, true⟩]⟩ .nil .nil)) .nil) = true := by decide +kernel

-- rm_invisible_elems.rs:510 rm_gradient_2
example : gives false [may GroupDefs.groupDefs, may Invisible.removeInvisible, may Simple.removeEmptyDefs] (.cons ⟨0, .elem .svg, "", []⟩ (.cons ⟨1, .elem .linearGradient, "lg1", []⟩ (.cons ⟨2, .elem .stop, "", [⟨.id .offset, .length ⟨(1 / 2), .none⟩, true⟩, ⟨.id .stopColor, .color 255 0 0, true⟩, ⟨.id .stopOpacity, .number (1 / 2), true⟩]⟩ .nil .nil) (.cons ⟨3, .elem .rect, "", [⟨.id .fill, .funcLink 1, true⟩, ⟨.id .stroke, .funcLink 1, true⟩, ⟨.id .height, .length ⟨5, .none⟩, true⟩, ⟨.id .width, .length ⟨5, .none⟩, true⟩]⟩ .nil .nil)) .nil) (.cons ⟨0, .elem .svg, "", []⟩ (.cons ⟨1, .elem .rect, "", [⟨.id .fill, .color 255 0 0, true⟩, ⟨.id .fillOpacity, .number (1 / 2), true⟩, ⟨.id .height, .length ⟨5, .none⟩, true⟩, ⟨.id .stroke, .color 255 0 0, true⟩, ⟨.id .strokeOpacity, .number (1 / 2), true⟩, ⟨.id .width, .length ⟨5, .none⟩, true⟩]⟩ .nil .nil) .nil) = true := by decide +kernel

-- rm_invisible_elems.rs:522 rm_gradient_3
example : gives false [may GroupDefs.groupDefs, may Invisible.removeInvisible, may Simple.removeEmptyDefs] (.cons ⟨0, .elem .svg, "", []⟩ (.cons ⟨1, .elem .linearGradient, "lg1", []⟩ (.cons ⟨2, .elem .stop, "", [⟨.id .offset, .length ⟨(1 / 2), .none⟩, true⟩, ⟨.id .stopColor, .color 255 0 0, true⟩, ⟨.id .stopOpacity, .number (1 / 2), true⟩]⟩ .nil .nil) (.cons ⟨3, .elem .linearGradient, "lg2", [⟨.id .xlinkHref, .link 1, true⟩]⟩ .nil (.cons ⟨4, .elem .rect, "", [⟨.id .fill, .funcLink 1, true⟩, ⟨.id .stroke, .funcLink 1, true⟩, ⟨.id .height, .length ⟨5, .none⟩, true⟩, ⟨.id .width, .length ⟨5, .none⟩, true⟩]⟩ .nil .nil))) .nil) (.cons ⟨0, .elem .svg, "", []⟩ (.cons ⟨1, .elem .rect, "", [⟨.id .fill, .color 255 0 0, true⟩, ⟨.id .fillOpacity, .number (1 / 2), true⟩, ⟨.id .height, .length ⟨5, .none⟩, true⟩, ⟨.id .stroke, .color 255 0 0, true⟩, ⟨.id .strokeOpacity, .number (1 / 2), true⟩, ⟨.id .width, .length ⟨5, .none⟩, true⟩]⟩ .nil .nil) .nil) = true := by decide +kernel

-- rm_invisible_elems.rs:535 rm_rect_1
example : gives false [may GroupDefs.groupDefs, may Invisible.removeInvisible, may Simple.removeEmptyDefs] (.cons ⟨0, .elem .svg, "", []⟩ (.cons ⟨1, .elem .rect, "", [⟨.id .width, .length ⟨0, .none⟩, true⟩, ⟨.id .height, .length ⟨0, .none⟩, true⟩]⟩ .nil (.cons ⟨2, .elem .rect, "", [⟨.id .width, .length ⟨10, .none⟩, true⟩, ⟨.id .height, .length ⟨0, .none⟩, true⟩]⟩ .nil (.cons ⟨3, .elem .rect, "", [⟨.id .width, .length ⟨0, .none⟩, true⟩, ⟨.id .height, .length ⟨10, .none⟩, true⟩]⟩ .nil .nil))) .nil) (.cons ⟨0, .elem .svg, "", []⟩ .nil .nil) = true := by decide +kernel

-- rm_invisible_elems.rs:544 rm_fe_color_matrix_1
example : gives false [may GroupDefs.groupDefs, may Invisible.removeInvisible, may Simple.removeEmptyDefs] (.cons ⟨0, .elem .svg, "", []⟩ (.cons ⟨1, .elem .filter, "filter1", []⟩ (.cons ⟨2, .elem .feColorMatrix, "", [⟨.id .type_, .str "matrix", true⟩, ⟨.id .values, .str "1 0 0 0 0  0 1 0 0 0  0 0 1 0 0  0 0 0 1 0", true⟩]⟩ .nil .nil) (.cons ⟨3, .elem .rect, "", [⟨.id .filter, .funcLink 1, true⟩, ⟨.id .height, .length ⟨10, .none⟩, true⟩, ⟨.id .width, .length ⟨10, .none⟩, true⟩]⟩ .nil .nil)) .nil) (.cons ⟨0, .elem .svg, "", []⟩ (.cons ⟨1, .elem .rect, "", [⟨.id .height, .length ⟨10, .none⟩, true⟩, ⟨.id .width, .length ⟨10, .none⟩, true⟩]⟩ .nil .nil) .nil) = true := by decide +kernel

-- rm_needless_attrs.rs:280 rm_clip_path_attrs_1
example : gives false [sure Needless.removeNeedless] (.cons ⟨0, .elem .svg, "", []⟩ (.cons ⟨1, .elem .clipPath, "", []⟩ (.cons ⟨2, .elem .rect, "", [⟨.id .width, .length ⟨10, .none⟩, true⟩, ⟨.id .fill, .color 255 0 0, true⟩]⟩ .nil .nil) .nil) .nil) (.cons ⟨0, .elem .svg, "", []⟩ (.cons ⟨1, .elem .clipPath, "", []⟩ (.cons ⟨2, .elem .rect, "", [⟨.id .width, .length ⟨10, .none⟩, true⟩]⟩ .nil .nil) .nil) .nil) = true := by decide +kernel

-- rm_needless_attrs.rs:293 rm_clip_path_attrs_2
example : gives false [sure Needless.removeNeedless] (.cons ⟨0, .elem .svg, "", []⟩ (.cons ⟨1, .elem .clipPath, "", []⟩ (.cons ⟨2, .elem .text, "", [⟨.id .fill, .color 255 0 0, true⟩, ⟨.id .fontSize, .length ⟨10, .none⟩, true⟩]⟩ .nil .nil) .nil) .nil) (.cons ⟨0, .elem .svg, "", []⟩ (.cons ⟨1, .elem .clipPath, "", []⟩ (.cons ⟨2, .elem .text, "", [⟨.id .fontSize, .length ⟨10, .none⟩, true⟩]⟩ .nil .nil) .nil) .nil) = true := by decide +kernel

-- rm_needless_attrs.rs:306 rm_rect_attrs_1
example : gives false [sure Needless.removeNeedless] (.cons ⟨0, .elem .svg, "", []⟩ (.cons ⟨1, .elem .rect, "", [⟨.id .dx, .length ⟨10, .none⟩, true⟩, ⟨.id .fill, .color 255 0 0, true⟩, ⟨.id .r, .length ⟨5, .none⟩, true⟩]⟩ .nil .nil) .nil) (.cons ⟨0, .elem .svg, "", []⟩ (.cons ⟨1, .elem .rect, "", [⟨.id .fill, .color 255 0 0, true⟩]⟩ .nil .nil) .nil) = true := by decide +kernel

-- rm_needless_attrs.rs:315 rm_eb_1
example : gives false [sure Needless.removeNeedless] (.cons ⟨0, .elem .svg, "", [⟨.id .enableBackground, .kw (.other "new"), true⟩]⟩ (.cons ⟨1, .elem .g, "", [⟨.id .enableBackground, .kw (.other "new"), true⟩]⟩ (.cons ⟨2, .elem .rect, "", [⟨.id .enableBackground, .kw (.other "new"), true⟩]⟩ .nil .nil) .nil) .nil) (.cons ⟨0, .elem .svg, "", [⟨.id .enableBackground, .kw (.other "new"), true⟩]⟩ (.cons ⟨1, .elem .g, "", [⟨.id .enableBackground, .kw (.other "new"), true⟩]⟩ (.cons ⟨2, .elem .rect, "", []⟩ .nil .nil) .nil) .nil) = true := by decide +kernel

-- rm_needless_attrs.rs:328 rm_fill_1
example : gives false [sure Needless.removeNeedless] (.cons ⟨0, .elem .svg, "", []⟩ (.cons ⟨1, .elem .rect, "", [⟨.id .fill, .kw .none, true⟩, ⟨.id .fillRule, .kw (.other "evenodd"), true⟩, ⟨.id .fillOpacity, .number (1 / 2), true⟩]⟩ .nil .nil) .nil) (.cons ⟨0, .elem .svg, "", []⟩ (.cons ⟨1, .elem .rect, "", [⟨.id .fill, .kw .none, true⟩]⟩ .nil .nil) .nil) = true := by decide +kernel

-- rm_needless_attrs.rs:337 rm_fill_2
example : gives false [sure Needless.removeNeedless] (.cons ⟨0, .elem .svg, "", []⟩ (.cons ⟨1, .elem .rect, "", [⟨.id .fill, .color 255 0 0, true⟩, ⟨.id .fillRule, .kw (.other "evenodd"), true⟩, ⟨.id .fillOpacity, .number 0, true⟩]⟩ .nil .nil) .nil) (.cons ⟨0, .elem .svg, "", []⟩ (.cons ⟨1, .elem .rect, "", [⟨.id .fill, .kw .none, true⟩]⟩ .nil .nil) .nil) = true := by decide +kernel

end Verif.RepoTest
