import Verif.RepoTest
/-
Generated by tools/repotests.py: the unit tests of the files under `src/task` named below, run on the model.
Each example is one test of the repository: the document (or path) it starts from and the one it expects.
-/
set_option maxRecDepth 20000
set_option maxHeartbeats 1000000
namespace Verif.RepoTest
open Verif.Dom Verif.Pipeline

-- rm_needless_attrs.rs:346 keep_fill_1
example : gives false [sure Needless.removeNeedless] (.cons ⟨0, .elem .svg, "", []⟩ (.cons ⟨1, .elem .g, "", [⟨.id .fill, .color 255 0 0, true⟩, ⟨.id .fillRule, .kw (.other "evenodd"), true⟩]⟩ (.cons ⟨2, .elem .rect, "", [⟨.id .fill, .kw .none, true⟩]⟩ .nil .nil) .nil) .nil) (.cons ⟨0, .elem .svg, "", []⟩ (.cons ⟨1, .elem .g, "", [⟨.id .fill, .color 255 0 0, true⟩, ⟨.id .fillRule, .kw (.other "evenodd"), true⟩]⟩ (.cons ⟨2, .elem .rect, "", [⟨.id .fill, .kw .none, true⟩]⟩ .nil .nil) .nil) .nil) = true := by decide +kernel

-- rm_needless_attrs.rs:354 rm_stroke_1
example : gives false [sure Needless.removeNeedless] (.cons ⟨0, .elem .svg, "", []⟩ (.cons ⟨1, .elem .rect, "", [⟨.id .stroke, .kw .none, true⟩, ⟨.id .strokeWidth, .length ⟨5, .none⟩, true⟩, ⟨.id .strokeLinecap, .kw (.other "square"), true⟩]⟩ .nil (.cons ⟨2, .elem .rect, "", [⟨.id .stroke, .color 255 0 0, true⟩, ⟨.id .strokeWidth, .length ⟨0, .none⟩, true⟩, ⟨.id .strokeLinecap, .kw (.other "square"), true⟩]⟩ .nil (.cons ⟨3, .elem .rect, "", [⟨.id .stroke, .color 255 0 0, true⟩, ⟨.id .strokeOpacity, .number 0, true⟩, ⟨.id .strokeLinecap, .kw (.other "square"), true⟩]⟩ .nil .nil))) .nil) (.cons ⟨0, .elem .svg, "", []⟩ (.cons ⟨1, .elem .rect, "", []⟩ .nil (.cons ⟨2, .elem .rect, "", []⟩ .nil (.cons ⟨3, .elem .rect, "", []⟩ .nil .nil))) .nil) = true := by decide +kernel

-- rm_needless_attrs.rs:367 keep_stroke_1
example : gives false [sure Needless.removeNeedless] (.cons ⟨0, .elem .svg, "", []⟩ (.cons ⟨1, .elem .g, "", [⟨.id .stroke, .color 255 0 0, true⟩]⟩ (.cons ⟨2, .elem .rect, "", [⟨.id .stroke, .kw .none, true⟩]⟩ .nil .nil) .nil) .nil) (.cons ⟨0, .elem .svg, "", []⟩ (.cons ⟨1, .elem .g, "", [⟨.id .stroke, .color 255 0 0, true⟩]⟩ (.cons ⟨2, .elem .rect, "", [⟨.id .stroke, .kw .none, true⟩]⟩ .nil .nil) .nil) .nil) = true := by decide +kernel

-- rm_needless_attrs.rs:375 rm_overflow_1
example : gives false [sure Needless.removeNeedless] (.cons ⟨0, .elem .svg, "", [⟨.id .overflow, .kw (.other "scroll"), true⟩]⟩ (.cons ⟨1, .elem .rect, "", [⟨.id .overflow, .kw .visible, true⟩]⟩ .nil .nil) .nil) (.cons ⟨0, .elem .svg, "", [⟨.id .overflow, .kw (.other "scroll"), true⟩]⟩ (.cons ⟨1, .elem .rect, "", []⟩ .nil .nil) .nil) = true := by decide +kernel

-- rm_text_attrs.rs:255 rm_text_1
example : gives false [may TextAttrs.removeText] (.cons ⟨0, .elem .svg, "", [⟨.id .font, .str "Verdana", true⟩]⟩ (.cons ⟨1, .elem .rect, "", [⟨.id .textAnchor, .kw (.other "middle"), true⟩]⟩ .nil .nil) .nil) (.cons ⟨0, .elem .svg, "", []⟩ (.cons ⟨1, .elem .rect, "", []⟩ .nil .nil) .nil) = true := by decide +kernel

-- rm_text_attrs.rs:266 rm_text_2
example : gives false [may TextAttrs.removeText] (.cons ⟨0, .elem .svg, "", []⟩ (.cons ⟨1, .elem .fontFace, "", [⟨.id .fontFamily, .str "Verdana", true⟩]⟩ .nil .nil) .nil) (.cons ⟨0, .elem .svg, "", []⟩ (.cons ⟨1, .elem .fontFace, "", []⟩ .nil .nil) .nil) = true := by decide +kernel

-- rm_text_attrs.rs:275 rm_text_3
example : gives false [may TextAttrs.removeText] (.cons ⟨0, .elem .svg, "", []⟩ (.cons ⟨1, .elem .g, "", [⟨.id .fontFamily, .str "Verdana", true⟩]⟩ (.cons ⟨2, .elem .text, "", [⟨.id .textAnchor, .kw (.other "middle"), true⟩]⟩ (.cons ⟨3, .text "text", "", []⟩ .nil .nil) .nil) (.cons ⟨4, .elem .g, "", [⟨.id .fontFamily, .str "Verdana", true⟩]⟩ (.cons ⟨5, .elem .rect, "", []⟩ .nil .nil) .nil)) .nil) (.cons ⟨0, .elem .svg, "", []⟩ (.cons ⟨1, .elem .g, "", [⟨.id .fontFamily, .str "Verdana", true⟩]⟩ (.cons ⟨2, .elem .text, "", [⟨.id .textAnchor, .kw (.other "middle"), true⟩]⟩ (.cons ⟨3, .text "text", "", []⟩ .nil .nil) .nil) (.cons ⟨4, .elem .g, "", []⟩ (.cons ⟨5, .elem .rect, "", []⟩ .nil .nil) .nil)) .nil) = true := by decide +kernel

-- rm_text_attrs.rs:294 rm_text_4
example : gives false [may TextAttrs.removeText] (.cons ⟨0, .elem .svg, "", []⟩ (.cons ⟨1, .elem .g, "", [⟨.id .fontSize, .length ⟨10, .none⟩, true⟩]⟩ (.cons ⟨2, .elem .rect, "", [⟨.id .width, .length ⟨10, .ex⟩, true⟩]⟩ .nil .nil) (.cons ⟨3, .elem .g, "", [⟨.id .fontSize, .length ⟨10, .none⟩, true⟩]⟩ (.cons ⟨4, .elem .rect, "", [⟨.id .width, .length ⟨10, .px⟩, true⟩]⟩ .nil .nil) .nil)) .nil) (.cons ⟨0, .elem .svg, "", []⟩ (.cons ⟨1, .elem .g, "", [⟨.id .fontSize, .length ⟨10, .none⟩, true⟩]⟩ (.cons ⟨2, .elem .rect, "", [⟨.id .width, .length ⟨10, .ex⟩, true⟩]⟩ .nil .nil) (.cons ⟨3, .elem .g, "", []⟩ (.cons ⟨4, .elem .rect, "", [⟨.id .width, .length ⟨10, .px⟩, true⟩]⟩ .nil .nil) .nil)) .nil) = true := by decide +kernel

-- rm_text_attrs.rs:313 keep_text_1
example : gives false [may TextAttrs.removeText] (.cons ⟨0, .elem .svg, "", [⟨.id .font, .str "Verdana", true⟩]⟩ (.cons ⟨1, .elem .g, "", [⟨.id .wordSpacing, .kw (.other "normal"), true⟩]⟩ (.cons ⟨2, .elem .text, "", [⟨.id .textAnchor, .kw (.other "middle"), true⟩]⟩ (.cons ⟨3, .text "text", "", []⟩ .nil .nil) .nil) .nil) .nil) (.cons ⟨0, .elem .svg, "", [⟨.id .font, .str "Verdana", true⟩]⟩ (.cons ⟨1, .elem .g, "", [⟨.id .wordSpacing, .kw (.other "normal"), true⟩]⟩ (.cons ⟨2, .elem .text, "", [⟨.id .textAnchor, .kw (.other "middle"), true⟩]⟩ (.cons ⟨3, .text "text", "", []⟩ .nil .nil) .nil) .nil) .nil) = true := by decide +kernel

-- rm_text_attrs.rs:327 keep_text_2
example : gives false [may TextAttrs.removeText] (.cons ⟨0, .elem .svg, "", []⟩ (.cons ⟨1, .elem .fontFace, "", [⟨.id .fontFamily, .str "Verdana", true⟩]⟩ .nil (.cons ⟨2, .elem .text, "", []⟩ (.cons ⟨3, .text "text", "", []⟩ .nil .nil) .nil)) .nil) (.cons ⟨0, .elem .svg, "", []⟩ (.cons ⟨1, .elem .fontFace, "", [⟨.id .fontFamily, .str "Verdana", true⟩]⟩ .nil (.cons ⟨2, .elem .text, "", []⟩ (.cons ⟨3, .text "text", "", []⟩ .nil .nil) .nil)) .nil) = true := by decide +kernel

-- rm_text_attrs.rs:334 keep_text_3
example : gives false [may TextAttrs.removeText] (.cons ⟨0, .elem .svg, "", []⟩ (.cons ⟨1, .elem .defs, "", []⟩ (.cons ⟨2, .elem .text, "hello", []⟩ (.cons ⟨3, .text "Hello", "", []⟩ .nil .nil) .nil) (.cons ⟨4, .elem .text, "", [⟨.id .fontFamily, .str "Verdana", true⟩]⟩ (.cons ⟨5, .elem .tref, "", [⟨.id .xlinkHref, .link 2, true⟩]⟩ .nil .nil) .nil)) .nil) (.cons ⟨0, .elem .svg, "", []⟩ (.cons ⟨1, .elem .defs, "", []⟩ (.cons ⟨2, .elem .text, "hello", []⟩ (.cons ⟨3, .text "Hello", "", []⟩ .nil .nil) .nil) (.cons ⟨4, .elem .text, "", [⟨.id .fontFamily, .str "Verdana", true⟩]⟩ (.cons ⟨5, .elem .tref, "", [⟨.id .xlinkHref, .link 2, true⟩]⟩ .nil .nil) .nil)) .nil) = true := by decide +kernel

-- rm_text_attrs.rs:351 keep_text_4
example : gives false [may TextAttrs.removeText] (.cons ⟨0, .elem .svg, "", []⟩ (.cons ⟨1, .elem .g, "", [⟨.id .fontSize, .length ⟨50, .none⟩, true⟩]⟩ (.cons ⟨2, .elem .rect, "", [⟨.id .width, .length ⟨50, .ex⟩, true⟩]⟩ .nil .nil) (.cons ⟨3, .elem .g, "", [⟨.id .fontSize, .length ⟨50, .none⟩, true⟩]⟩ (.cons ⟨4, .elem .rect, "", [⟨.id .width, .length ⟨50, .em⟩, true⟩]⟩ .nil .nil) .nil)) .nil) (.cons ⟨0, .elem .svg, "", []⟩ (.cons ⟨1, .elem .g, "", [⟨.id .fontSize, .length ⟨50, .none⟩, true⟩]⟩ (.cons ⟨2, .elem .rect, "", [⟨.id .width, .length ⟨50, .ex⟩, true⟩]⟩ .nil .nil) (.cons ⟨3, .elem .g, "", [⟨.id .fontSize, .length ⟨50, .none⟩, true⟩]⟩ (.cons ⟨4, .elem .rect, "", [⟨.id .width, .length ⟨50, .em⟩, true⟩]⟩ .nil .nil) .nil)) .nil) = true := by decide +kernel

-- rm_text_attrs.rs:362 keep_text_5
example : gives false [may TextAttrs.removeText] (.cons ⟨0, .elem .svg, "", []⟩ (.cons ⟨1, .elem .defs, "", []⟩ (.cons ⟨2, .elem .text, "text", []⟩ (.cons ⟨3, .text "Text", "", []⟩ .nil .nil) .nil) (.cons ⟨4, .elem .use, "", [⟨.id .fontSize, .length ⟨50, .none⟩, true⟩, ⟨.id .xlinkHref, .link 2, true⟩]⟩ .nil .nil)) .nil) (.cons ⟨0, .elem .svg, "", []⟩ (.cons ⟨1, .elem .defs, "", []⟩ (.cons ⟨2, .elem .text, "text", []⟩ (.cons ⟨3, .text "Text", "", []⟩ .nil .nil) .nil) (.cons ⟨4, .elem .use, "", [⟨.id .fontSize, .length ⟨50, .none⟩, true⟩, ⟨.id .xlinkHref, .link 2, true⟩]⟩ .nil .nil)) .nil) = true := by decide +kernel

-- rm_text_attrs.rs:372 keep_text_6
example : gives false [may TextAttrs.removeText] (.cons ⟨0, .comment " Comment ", "", []⟩ .nil (.cons ⟨1, .elem .svg, "", []⟩ (.cons ⟨2, .elem .text, "", [⟨.id .fontSize, .length ⟨16, .none⟩, true⟩]⟩ (.cons ⟨3, .text "text", "", []⟩ .nil .nil) .nil) .nil)) (.cons ⟨0, .comment " Comment ", "", []⟩ .nil (.cons ⟨1, .elem .svg, "", []⟩ (.cons ⟨2, .elem .text, "", [⟨.id .fontSize, .length ⟨16, .none⟩, true⟩]⟩ (.cons ⟨3, .text "text", "", []⟩ .nil .nil) .nil) .nil)) = true := by decide +kernel

-- rm_text_attrs.rs:379 keep_text_7
example : gives false [may TextAttrs.removeText] (.cons ⟨0, .elem .svg, "", []⟩ (.cons ⟨1, .elem .g, "", [⟨.id .fontSize, .length ⟨10, .none⟩, true⟩]⟩ (.cons ⟨2, .elem .rect, "", [⟨.id .width, .length ⟨10, .none⟩, true⟩]⟩ .nil (.cons ⟨3, .elem .g, "", []⟩ (.cons ⟨4, .elem .rect, "", [⟨.id .width, .length ⟨10, .ex⟩, true⟩]⟩ .nil .nil) (.cons ⟨5, .elem .rect, "", [⟨.id .width, .length ⟨10, .none⟩, true⟩]⟩ .nil .nil))) .nil) .nil) (.cons ⟨0, .elem .svg, "", []⟩ (.cons ⟨1, .elem .g, "", [⟨.id .fontSize, .length ⟨10, .none⟩, true⟩]⟩ (.cons ⟨2, .elem .rect, "", [⟨.id .width, .length ⟨10, .none⟩, true⟩]⟩ .nil (.cons ⟨3, .elem .g, "", []⟩ (.cons ⟨4, .elem .rect, "", [⟨.id .width, .length ⟨10, .ex⟩, true⟩]⟩ .nil .nil) (.cons ⟨5, .elem .rect, "", [⟨.id .width, .length ⟨10, .none⟩, true⟩]⟩ .nil .nil))) .nil) .nil) = true := by decide +kernel

-- rm_text_attrs.rs:403 space_preserve_1
example : gives false [sure TextAttrs.rmSpace] (.cons ⟨0, .elem .svg, "", []⟩ (.cons ⟨1, .elem .text, "", [⟨.id .xmlSpace, .str "preserve", true⟩]⟩ .nil (.cons ⟨2, .elem .text, "", [⟨.id .xmlSpace, .str "preserve", true⟩]⟩ .nil (.cons ⟨3, .elem .text, "", [⟨.id .xmlSpace, .str "preserve", true⟩]⟩ (.cons ⟨4, .text "Text", "", []⟩ .nil .nil) (.cons ⟨5, .elem .text, "", [⟨.id .xmlSpace, .str "preserve", true⟩]⟩ (.cons ⟨6, .text "Text Text", "", []⟩ .nil .nil) .nil)))) .nil) (.cons ⟨0, .elem .svg, "", []⟩ (.cons ⟨1, .elem .text, "", []⟩ .nil (.cons ⟨2, .elem .text, "", []⟩ .nil (.cons ⟨3, .elem .text, "", []⟩ (.cons ⟨4, .text "Text", "", []⟩ .nil .nil) (.cons ⟨5, .elem .text, "", []⟩ (.cons ⟨6, .text "Text Text", "", []⟩ .nil .nil) .nil)))) .nil) = true := by decide +kernel

-- rm_text_attrs.rs:418 space_preserve_keep_1
example : gives false [sure TextAttrs.rmSpace] (.cons ⟨0, .elem .svg, "", []⟩ (.cons ⟨1, .elem .text, "", [⟨.id .xmlSpace, .str "preserve", true⟩]⟩ (.cons ⟨2, .text " Text", "", []⟩ .nil .nil) (.cons ⟨3, .elem .text, "", [⟨.id .xmlSpace, .str "preserve", true⟩]⟩ (.cons ⟨4, .text "Text ", "", []⟩ .nil .nil) (.cons ⟨5, .elem .text, "", [⟨.id .xmlSpace, .str "preserve", true⟩]⟩ (.cons ⟨6, .text " Text ", "", []⟩ .nil .nil) (.cons ⟨7, .elem .text, "", [⟨.id .xmlSpace, .str "preserve", true⟩]⟩ (.cons ⟨8, .text "Text  Text", "", []⟩ .nil .nil) .nil)))) .nil) (.cons ⟨0, .elem .svg, "", []⟩ (.cons ⟨1, .elem .text, "", [⟨.id .xmlSpace, .str "preserve", true⟩]⟩ (.cons ⟨2, .text " Text", "", []⟩ .nil .nil) (.cons ⟨3, .elem .text, "", [⟨.id .xmlSpace, .str "preserve", true⟩]⟩ (.cons ⟨4, .text "Text ", "", []⟩ .nil .nil) (.cons ⟨5, .elem .text, "", [⟨.id .xmlSpace, .str "preserve", true⟩]⟩ (.cons ⟨6, .text " Text ", "", []⟩ .nil .nil) (.cons ⟨7, .elem .text, "", [⟨.id .xmlSpace, .str "preserve", true⟩]⟩ (.cons ⟨8, .text "Text  Text", "", []⟩ .nil .nil) .nil)))) .nil) = true := by decide +kernel

-- rm_unref_ids.rs:41 test_1
example : gives false [sure Simple.removeUnreferencedIds] (.cons ⟨0, .elem .svg, "", []⟩ (.cons ⟨1, .elem .radialGradient, "lg1", []⟩ .nil (.cons ⟨2, .elem .radialGradient, "lg2", []⟩ .nil (.cons ⟨3, .elem .rect, "unused", [⟨.id .fill, .funcLink 1, true⟩]⟩ .nil .nil))) .nil) (.cons ⟨0, .elem .svg, "", []⟩ (.cons ⟨1, .elem .radialGradient, "lg1", []⟩ .nil (.cons ⟨2, .elem .radialGradient, "", []⟩ .nil (.cons ⟨3, .elem .rect, "", [⟨.id .fill, .funcLink 1, true⟩]⟩ .nil .nil))) .nil) = true := by decide +kernel

-- rm_unused_coords.rs:121 rm_svg_x_y
example : gives false [sure Simple.removeUnusedCoords] (.cons ⟨0, .elem .svg, "", [⟨.id .x, .length ⟨5, .none⟩, true⟩, ⟨.id .y, .length ⟨5, .none⟩, true⟩]⟩ (.cons ⟨1, .elem .svg, "", [⟨.id .x, .length ⟨5, .none⟩, true⟩, ⟨.id .y, .length ⟨5, .none⟩, true⟩]⟩ .nil .nil) .nil) (.cons ⟨0, .elem .svg, "", []⟩ (.cons ⟨1, .elem .svg, "", [⟨.id .x, .length ⟨5, .none⟩, true⟩, ⟨.id .y, .length ⟨5, .none⟩, true⟩]⟩ .nil .nil) .nil) = true := by decide +kernel

-- rm_unused_coords.rs:130 rm_rect_rx_ry
example : gives false [sure Simple.removeUnusedCoords] (.cons ⟨0, .elem .svg, "", []⟩ (.cons ⟨1, .elem .rect, "", [⟨.id .rx, .length ⟨5, .none⟩, true⟩, ⟨.id .ry, .length ⟨5, .none⟩, true⟩]⟩ .nil (.cons ⟨2, .elem .rect, "", [⟨.id .rx, .length ⟨5, .none⟩, true⟩, ⟨.id .ry, .length ⟨5, .em⟩, true⟩]⟩ .nil .nil)) .nil) (.cons ⟨0, .elem .svg, "", []⟩ (.cons ⟨1, .elem .rect, "", [⟨.id .rx, .length ⟨5, .none⟩, true⟩]⟩ .nil (.cons ⟨2, .elem .rect, "", [⟨.id .rx, .length ⟨5, .none⟩, true⟩, ⟨.id .ry, .length ⟨5, .em⟩, true⟩]⟩ .nil .nil)) .nil) = true := by decide +kernel

-- rm_unused_coords.rs:141 rect_rx_ry
example : gives false [sure Simple.removeUnusedCoords] (.cons ⟨0, .elem .svg, "", []⟩ (.cons ⟨1, .elem .rect, "", []⟩ .nil .nil) .nil) (.cons ⟨0, .elem .svg, "", []⟩ (.cons ⟨1, .elem .rect, "", []⟩ .nil .nil) .nil) = true := by decide +kernel

-- rm_unused_coords.rs:147 rm_radial_gradient_fx
example : gives false [sure Simple.removeUnusedCoords] (.cons ⟨0, .elem .svg, "", []⟩ (.cons ⟨1, .elem .radialGradient, "", [⟨.id .cx, .length ⟨5, .none⟩, true⟩, ⟨.id .cy, .length ⟨5, .none⟩, true⟩, ⟨.id .fx, .length ⟨5, .none⟩, true⟩, ⟨.id .fy, .length ⟨5, .none⟩, true⟩]⟩ .nil .nil) .nil) (.cons ⟨0, .elem .svg, "", []⟩ (.cons ⟨1, .elem .radialGradient, "", [⟨.id .cx, .length ⟨5, .none⟩, true⟩, ⟨.id .cy, .length ⟨5, .none⟩, true⟩]⟩ .nil .nil) .nil) = true := by decide +kernel

-- rm_unused_coords.rs:156 keep_radial_gradient_fx_1
example : gives false [sure Simple.removeUnusedCoords] (.cons ⟨0, .elem .svg, "", []⟩ (.cons ⟨1, .elem .radialGradient, "rg1", [⟨.id .fx, .length ⟨5, .none⟩, true⟩]⟩ .nil (.cons ⟨2, .elem .radialGradient, "", [⟨.id .xlinkHref, .link 1, true⟩]⟩ .nil .nil)) .nil) (.cons ⟨0, .elem .svg, "", []⟩ (.cons ⟨1, .elem .radialGradient, "rg1", [⟨.id .fx, .length ⟨5, .none⟩, true⟩]⟩ .nil (.cons ⟨2, .elem .radialGradient, "", [⟨.id .xlinkHref, .link 1, true⟩]⟩ .nil .nil)) .nil) = true := by decide +kernel

-- rm_unused_coords.rs:163 keep_radial_gradient_fx_2
example : gives false [sure Simple.removeUnusedCoords] (.cons ⟨0, .elem .svg, "", []⟩ (.cons ⟨1, .elem .radialGradient, "rg1", []⟩ .nil (.cons ⟨2, .elem .radialGradient, "", [⟨.id .fx, .length ⟨5, .none⟩, true⟩, ⟨.id .xlinkHref, .link 1, true⟩]⟩ .nil .nil)) .nil) (.cons ⟨0, .elem .svg, "", []⟩ (.cons ⟨1, .elem .radialGradient, "rg1", []⟩ .nil (.cons ⟨2, .elem .radialGradient, "", [⟨.id .fx, .length ⟨5, .none⟩, true⟩, ⟨.id .xlinkHref, .link 1, true⟩]⟩ .nil .nil)) .nil) = true := by decide +kernel

-- rm_unused_defs.rs:94 simple_1
example : gives false [may UnusedDefs.removeUnusedDefs] (.cons ⟨0, .elem .svg, "", []⟩ (.cons ⟨1, .elem .defs, "", []⟩ (.cons ⟨2, .elem .rect, "rect1", []⟩ .nil (.cons ⟨3, .elem .rect, "", []⟩ .nil (.cons ⟨4, .elem .linearGradient, "", []⟩ .nil .nil))) (.cons ⟨5, .elem .use, "", [⟨.id .xlinkHref, .link 2, true⟩]⟩ .nil .nil)) .nil) (.cons ⟨0, .elem .svg, "", []⟩ (.cons ⟨1, .elem .defs, "", []⟩ (.cons ⟨2, .elem .rect, "rect1", []⟩ .nil .nil) (.cons ⟨3, .elem .use, "", [⟨.id .xlinkHref, .link 2, true⟩]⟩ .nil .nil)) .nil) = true := by decide +kernel

-- rm_unused_defs.rs:111 recursive_1
example : gives false [may UnusedDefs.removeUnusedDefs] (.cons ⟨0, .elem .svg, "", []⟩ (.cons ⟨1, .elem .defs, "", []⟩ (.cons ⟨2, .elem .linearGradient, "linearGradient1", []⟩ (.cons ⟨3, .elem .stop, "", []⟩ .nil (.cons ⟨4, .elem .stop, "", []⟩ .nil .nil)) (.cons ⟨5, .elem .radialGradient, "radialGradient1", [⟨.id .xlinkHref, .link 2, true⟩]⟩ .nil .nil)) .nil) .nil) (.cons ⟨0, .elem .svg, "", []⟩ (.cons ⟨1, .elem .defs, "", []⟩ .nil .nil) .nil) = true := by decide +kernel

-- rm_unused_defs.rs:126 correct_ungroup_1
example : gives false [may UnusedDefs.removeUnusedDefs] (.cons ⟨0, .elem .svg, "", []⟩ (.cons ⟨1, .elem .defs, "", []⟩ (.cons ⟨2, .elem .clipPath, "clipPath1", []⟩ (.cons ⟨3, .elem .path, "path1", []⟩ .nil .nil) .nil) (.cons ⟨4, .elem .use, "", [⟨.id .xlinkHref, .link 3, true⟩]⟩ .nil .nil)) .nil) (.cons ⟨0, .elem .svg, "", []⟩ (.cons ⟨1, .elem .defs, "", []⟩ (.cons ⟨2, .elem .path, "path1", []⟩ .nil .nil) (.cons ⟨3, .elem .use, "", [⟨.id .xlinkHref, .link 2, true⟩]⟩ .nil .nil)) .nil) = true := by decide +kernel

-- rm_unused_defs.rs:143 correct_ungroup_2
example : gives false [may UnusedDefs.removeUnusedDefs] (.cons ⟨0, .elem .svg, "", []⟩ (.cons ⟨1, .elem .defs, "", []⟩ (.cons ⟨2, .elem .clipPath, "clipPath1", []⟩ (.cons ⟨3, .elem .path, "path1", []⟩ .nil .nil) .nil) (.cons ⟨4, .elem .use, "", [⟨.id .clipPath, .funcLink 2, true⟩, ⟨.id .xlinkHref, .link 3, true⟩]⟩ .nil .nil)) .nil) (.cons ⟨0, .elem .svg, "", []⟩ (.cons ⟨1, .elem .defs, "", []⟩ (.cons ⟨2, .elem .clipPath, "clipPath1", []⟩ (.cons ⟨3, .elem .path, "path1", []⟩ .nil .nil) .nil) (.cons ⟨4, .elem .use, "", [⟨.id .clipPath, .funcLink 2, true⟩, ⟨.id .xlinkHref, .link 3, true⟩]⟩ .nil .nil)) .nil) = true := by decide +kernel

-- rm_unused_defs.rs:154 correct_ungroup_3
example : gives false [may UnusedDefs.removeUnusedDefs] (.cons ⟨0, .elem .svg, "", []⟩ (.cons ⟨1, .elem .defs, "", []⟩ (.cons ⟨2, .elem .clipPath, "clipPath1", []⟩ (.cons ⟨3, .elem .rect, "", []⟩ .nil (.cons ⟨4, .elem .g, "", []⟩ (.cons ⟨5, .elem .rect, "", []⟩ .nil .nil) (.cons ⟨6, .elem .path, "", []⟩ .nil .nil))) .nil) (.cons ⟨7, .elem .use, "", [⟨.id .clipPath, .funcLink 2, true⟩]⟩ .nil .nil)) .nil) (.cons ⟨0, .elem .svg, "", []⟩ (.cons ⟨1, .elem .defs, "", []⟩ (.cons ⟨2, .elem .clipPath, "clipPath1", []⟩ (.cons ⟨3, .elem .rect, "", []⟩ .nil (.cons ⟨4, .elem .g, "", []⟩ (.cons ⟨5, .elem .rect, "", []⟩ .nil .nil) (.cons ⟨6, .elem .path, "", []⟩ .nil .nil))) .nil) (.cons ⟨7, .elem .use, "", [⟨.id .clipPath, .funcLink 2, true⟩]⟩ .nil .nil)) .nil) = true := by decide +kernel

-- rm_unused_defs.rs:169 correct_ungroup_4
example : gives false [may UnusedDefs.removeUnusedDefs] (.cons ⟨0, .elem .svg, "", []⟩ (.cons ⟨1, .elem .defs, "", []⟩ (.cons ⟨2, .elem .clipPath, "", []⟩ (.cons ⟨3, .elem .g, "", []⟩ (.cons ⟨4, .elem .rect, "rect1", []⟩ .nil .nil) .nil) .nil) (.cons ⟨5, .elem .use, "", [⟨.id .xlinkHref, .link 4, true⟩]⟩ .nil .nil)) .nil) (.cons ⟨0, .elem .svg, "", []⟩ (.cons ⟨1, .elem .defs, "", []⟩ (.cons ⟨2, .elem .rect, "rect1", []⟩ .nil .nil) (.cons ⟨3, .elem .use, "", [⟨.id .xlinkHref, .link 2, true⟩]⟩ .nil .nil)) .nil) = true := by decide +kernel

-- rm_unused_defs.rs:188 correct_ungroup_5
example : gives false [may UnusedDefs.removeUnusedDefs] (.cons ⟨0, .elem .svg, "", []⟩ (.cons ⟨1, .elem .defs, "", []⟩ (.cons ⟨2, .elem .foreignObject, "", []⟩ (.cons ⟨3, .elem .svg, "", []⟩ (.cons ⟨4, .elem .text, "hello", []⟩ (.cons ⟨5, .text "Hello", "", []⟩ .nil .nil) .nil) .nil) .nil) (.cons ⟨6, .elem .text, "", []⟩ (.cons ⟨7, .elem .tref, "", [⟨.id .xlinkHref, .link 4, true⟩]⟩ .nil .nil) .nil)) .nil) (.cons ⟨0, .elem .svg, "", []⟩ (.cons ⟨1, .elem .defs, "", []⟩ (.cons ⟨2, .elem .text, "hello", []⟩ (.cons ⟨3, .text "Hello", "", []⟩ .nil .nil) .nil) (.cons ⟨4, .elem .text, "", []⟩ (.cons ⟨5, .elem .tref, "", [⟨.id .xlinkHref, .link 2, true⟩]⟩ .nil .nil) .nil)) .nil) = true := by decide +kernel

-- rm_unused_defs.rs:211 correct_ungroup_6
example : gives false [may UnusedDefs.removeUnusedDefs] (.cons ⟨0, .elem .svg, "", []⟩ (.cons ⟨1, .elem .defs, "", []⟩ (.cons ⟨2, .elem .g, "", []⟩ (.cons ⟨3, .elem .rect, "rect1", []⟩ .nil .nil) .nil) (.cons ⟨4, .elem .use, "", [⟨.id .xlinkHref, .link 3, true⟩]⟩ .nil .nil)) .nil) (.cons ⟨0, .elem .svg, "", []⟩ (.cons ⟨1, .elem .defs, "", []⟩ (.cons ⟨2, .elem .rect, "rect1", []⟩ .nil .nil) (.cons ⟨3, .elem .use, "", [⟨.id .xlinkHref, .link 2, true⟩]⟩ .nil .nil)) .nil) = true := by decide +kernel

-- rm_unused_defs.rs:228 keep_font_1
example : gives false [may UnusedDefs.removeUnusedDefs] (.cons ⟨0, .elem .svg, "", []⟩ (.cons ⟨1, .elem .defs, "", []⟩ (.cons ⟨2, .elem .fontFace, "", []⟩ .nil (.cons ⟨3, .elem .font, "", []⟩ .nil .nil)) .nil) .nil) (.cons ⟨0, .elem .svg, "", []⟩ (.cons ⟨1, .elem .defs, "", []⟩ (.cons ⟨2, .elem .fontFace, "", []⟩ .nil (.cons ⟨3, .elem .font, "", []⟩ .nil .nil)) .nil) .nil) = true := by decide +kernel

-- rm_unused_defs.rs:243 keep_font_2
example : gives false [may UnusedDefs.removeUnusedDefs] (.cons ⟨0, .elem .svg, "", []⟩ (.cons ⟨1, .elem .defs, "", []⟩ (.cons ⟨2, .elem .fontFace, "", [⟨.id .fontFamily, .str "SVGFreeSansASCII", true⟩, ⟨.name "unicode-range", .str "U+0-7F", true⟩]⟩ (.cons ⟨3, .elem .fontFaceSrc, "", []⟩ (.cons ⟨4, .elem .fontFaceUri, "", [⟨.id .xlinkHref, .str "../resources/SVGFreeSans.svg#ascii", true⟩]⟩ .nil .nil) .nil) .nil) .nil) .nil) (.cons ⟨0, .elem .svg, "", []⟩ (.cons ⟨1, .elem .defs, "", []⟩ (.cons ⟨2, .elem .fontFace, "", [⟨.id .fontFamily, .str "SVGFreeSansASCII", true⟩, ⟨.name "unicode-range", .str "U+0-7F", true⟩]⟩ (.cons ⟨3, .elem .fontFaceSrc, "", []⟩ (.cons ⟨4, .elem .fontFaceUri, "", [⟨.id .xlinkHref, .str "../resources/SVGFreeSans.svg#ascii", true⟩]⟩ .nil .nil) .nil) .nil) .nil) .nil) = true := by decide +kernel

-- ungroup_defs.rs:60 ungroup_1
example : gives false [sure Simple.ungroupDefs] (.cons ⟨0, .elem .svg, "", []⟩ (.cons ⟨1, .elem .defs, "", []⟩ (.cons ⟨2, .elem .linearGradient, "", []⟩ .nil .nil) .nil) .nil) (.cons ⟨0, .elem .svg, "", []⟩ (.cons ⟨1, .elem .linearGradient, "", []⟩ .nil .nil) .nil) = true := by decide +kernel

-- ungroup_defs.rs:71 ungroup_2
example : gives false [sure Simple.ungroupDefs] (.cons ⟨0, .elem .svg, "", []⟩ (.cons ⟨1, .elem .defs, "", []⟩ (.cons ⟨2, .elem .linearGradient, "", []⟩ .nil .nil) (.cons ⟨3, .elem .defs, "", []⟩ (.cons ⟨4, .elem .linearGradient, "", []⟩ .nil .nil) .nil)) .nil) (.cons ⟨0, .elem .svg, "", []⟩ (.cons ⟨1, .elem .linearGradient, "", []⟩ .nil (.cons ⟨2, .elem .linearGradient, "", []⟩ .nil .nil)) .nil) = true := by decide +kernel

-- ungroup_defs.rs:86 ungroup_3
example : gives false [sure Simple.ungroupDefs] (.cons ⟨0, .elem .svg, "", []⟩ (.cons ⟨1, .elem .defs, "", []⟩ (.cons ⟨2, .elem .linearGradient, "", []⟩ .nil (.cons ⟨3, .elem .radialGradient, "", []⟩ .nil .nil)) .nil) .nil) (.cons ⟨0, .elem .svg, "", []⟩ (.cons ⟨1, .elem .linearGradient, "", []⟩ .nil (.cons ⟨2, .elem .radialGradient, "", []⟩ .nil .nil)) .nil) = true := by decide +kernel

-- ungroup_defs.rs:99 keep_1
example : gives false [sure Simple.ungroupDefs] (.cons ⟨0, .elem .svg, "", []⟩ (.cons ⟨1, .elem .defs, "", []⟩ (.cons ⟨2, .elem .linearGradient, "", []⟩ .nil (.cons ⟨3, .elem .rect, "", []⟩ .nil .nil)) .nil) .nil) (.cons ⟨0, .elem .svg, "", []⟩ (.cons ⟨1, .elem .defs, "", []⟩ (.cons ⟨2, .elem .linearGradient, "", []⟩ .nil (.cons ⟨3, .elem .rect, "", []⟩ .nil .nil)) .nil) .nil) = true := by decide +kernel

-- ungroup_groups.rs:232 rm_1
example : gives false [may GroupDefs.groupDefs, may fun f => (Ungroup.ungroupGroups ⟨true, true, true⟩ f).bind id, may UnusedDefs.removeUnusedDefs, may Simple.removeEmptyDefs] (.cons ⟨0, .elem .svg, "", []⟩ (.cons ⟨1, .elem .g, "", []⟩ .nil .nil) .nil) (.cons ⟨0, .elem .svg, "", []⟩ .nil .nil) = true := by decide +kernel

-- ungroup_groups.rs:239 rm_2
example : gives false [may GroupDefs.groupDefs, may fun f => (Ungroup.ungroupGroups ⟨true, true, true⟩ f).bind id, may UnusedDefs.removeUnusedDefs, may Simple.removeEmptyDefs] (.cons ⟨0, .elem .svg, "", []⟩ (.cons ⟨1, .elem .g, "", []⟩ (.cons ⟨2, .elem .g, "", []⟩ .nil .nil) .nil) .nil) (.cons ⟨0, .elem .svg, "", []⟩ .nil .nil) = true := by decide +kernel

-- ungroup_groups.rs:248 ungroup_1
example : gives false [may GroupDefs.groupDefs, may fun f => (Ungroup.ungroupGroups ⟨true, true, true⟩ f).bind id, may UnusedDefs.removeUnusedDefs, may Simple.removeEmptyDefs] (.cons ⟨0, .elem .svg, "", []⟩ (.cons ⟨1, .elem .g, "", []⟩ (.cons ⟨2, .elem .rect, "", []⟩ .nil .nil) .nil) .nil) (.cons ⟨0, .elem .svg, "", []⟩ (.cons ⟨1, .elem .rect, "", []⟩ .nil .nil) .nil) = true := by decide +kernel

-- ungroup_groups.rs:259 ungroup_2
example : gives false [may GroupDefs.groupDefs, may fun f => (Ungroup.ungroupGroups ⟨true, true, true⟩ f).bind id, may UnusedDefs.removeUnusedDefs, may Simple.removeEmptyDefs] (.cons ⟨0, .elem .svg, "", []⟩ (.cons ⟨1, .elem .g, "", []⟩ (.cons ⟨2, .elem .g, "", []⟩ (.cons ⟨3, .elem .g, "", []⟩ (.cons ⟨4, .elem .g, "", []⟩ (.cons ⟨5, .elem .rect, "", []⟩ .nil .nil) .nil) .nil) .nil) .nil) .nil) (.cons ⟨0, .elem .svg, "", []⟩ (.cons ⟨1, .elem .rect, "", []⟩ .nil .nil) .nil) = true := by decide +kernel

-- ungroup_groups.rs:277 ungroup_3
example : gives false [may GroupDefs.groupDefs, may fun f => (Ungroup.ungroupGroups ⟨true, true, true⟩ f).bind id, may UnusedDefs.removeUnusedDefs, may Simple.removeEmptyDefs] (.cons ⟨0, .elem .svg, "", []⟩ (.cons ⟨1, .elem .g, "", []⟩ (.cons ⟨2, .elem .rect, "1", []⟩ .nil (.cons ⟨3, .elem .rect, "2", []⟩ .nil .nil)) .nil) .nil) (.cons ⟨0, .elem .svg, "", []⟩ (.cons ⟨1, .elem .rect, "1", []⟩ .nil (.cons ⟨2, .elem .rect, "2", []⟩ .nil .nil)) .nil) = true := by decide +kernel

-- ungroup_groups.rs:290 ungroup_4
example : gives false [may GroupDefs.groupDefs, may fun f => (Ungroup.ungroupGroups ⟨true, true, true⟩ f).bind id, may UnusedDefs.removeUnusedDefs, may Simple.removeEmptyDefs] (.cons ⟨0, .elem .svg, "", []⟩ (.cons ⟨1, .elem .g, "", []⟩ (.cons ⟨2, .elem .rect, "", []⟩ .nil (.cons ⟨3, .elem .g, "", []⟩ (.cons ⟨4, .elem .rect, "", []⟩ .nil .nil) .nil)) .nil) .nil) (.cons ⟨0, .elem .svg, "", []⟩ (.cons ⟨1, .elem .rect, "", []⟩ .nil (.cons ⟨2, .elem .rect, "", []⟩ .nil .nil)) .nil) = true := by decide +kernel

-- ungroup_groups.rs:305 ungroup_5
example : gives false [may GroupDefs.groupDefs, may fun f => (Ungroup.ungroupGroups ⟨true, true, true⟩ f).bind id, may UnusedDefs.removeUnusedDefs, may Simple.removeEmptyDefs] (.cons ⟨0, .elem .svg, "", []⟩ (.cons ⟨1, .elem .switch, "", []⟩ (.cons ⟨2, .elem .foreignObject, "", []⟩ .nil (.cons ⟨3, .elem .g, "", []⟩ (.cons ⟨4, .elem .rect, "", []⟩ .nil .nil) .nil)) .nil) .nil) (.cons ⟨0, .elem .svg, "", []⟩ (.cons ⟨1, .elem .switch, "", []⟩ (.cons ⟨2, .elem .foreignObject, "", []⟩ .nil (.cons ⟨3, .elem .rect, "", []⟩ .nil .nil)) .nil) .nil) = true := by decide +kernel

-- ungroup_groups.rs:322 ungroup_6
example : gives false [may GroupDefs.groupDefs, may fun f => (Ungroup.ungroupGroups ⟨true, true, true⟩ f).bind id, may UnusedDefs.removeUnusedDefs, may Simple.removeEmptyDefs] (.cons ⟨0, .elem .svg, "", []⟩ (.cons ⟨1, .elem .switch, "", []⟩ (.cons ⟨2, .elem .foreignObject, "", []⟩ .nil (.cons ⟨3, .elem .g, "", []⟩ (.cons ⟨4, .elem .g, "", []⟩ (.cons ⟨5, .elem .g, "", []⟩ (.cons ⟨6, .elem .rect, "", []⟩ .nil .nil) (.cons ⟨7, .elem .g, "", []⟩ .nil .nil)) .nil) .nil)) .nil) .nil) (.cons ⟨0, .elem .svg, "", []⟩ (.cons ⟨1, .elem .switch, "", []⟩ (.cons ⟨2, .elem .foreignObject, "", []⟩ .nil (.cons ⟨3, .elem .rect, "", []⟩ .nil .nil)) .nil) .nil) = true := by decide +kernel

-- ungroup_groups.rs:355 skip_ungroup_1
example : gives false [may GroupDefs.groupDefs, may fun f => (Ungroup.ungroupGroups ⟨true, true, true⟩ f).bind id, may UnusedDefs.removeUnusedDefs, may Simple.removeEmptyDefs] (.cons ⟨0, .elem .svg, "", []⟩ (.cons ⟨1, .elem .g, "", [⟨.id .fill, .color 255 0 0, true⟩]⟩ (.cons ⟨2, .elem .rect, "", []⟩ .nil (.cons ⟨3, .elem .rect, "", []⟩ .nil .nil)) .nil) .nil) (.cons ⟨0, .elem .svg, "", []⟩ (.cons ⟨1, .elem .g, "", [⟨.id .fill, .color 255 0 0, true⟩]⟩ (.cons ⟨2, .elem .rect, "", []⟩ .nil (.cons ⟨3, .elem .rect, "", []⟩ .nil .nil)) .nil) .nil) = true := by decide +kernel

-- ungroup_groups.rs:364 skip_ungroup_2
example : gives false [may GroupDefs.groupDefs, may fun f => (Ungroup.ungroupGroups ⟨true, true, true⟩ f).bind id, may UnusedDefs.removeUnusedDefs, may Simple.removeEmptyDefs] (.cons ⟨0, .elem .svg, "", []⟩ (.cons ⟨1, .elem .defs, "", []⟩ (.cons ⟨2, .elem .filter, "f1", []⟩ .nil .nil) (.cons ⟨3, .elem .g, "", [⟨.id .filter, .funcLink 2, true⟩]⟩ .nil .nil)) .nil) (.cons ⟨0, .elem .svg, "", []⟩ (.cons ⟨1, .elem .defs, "", []⟩ (.cons ⟨2, .elem .filter, "f1", []⟩ .nil .nil) (.cons ⟨3, .elem .g, "", [⟨.id .filter, .funcLink 2, true⟩]⟩ .nil .nil)) .nil) = true := by decide +kernel

-- ungroup_groups.rs:373 skip_ungroup_3
example : gives false [may GroupDefs.groupDefs, may fun f => (Ungroup.ungroupGroups ⟨true, true, true⟩ f).bind id, may UnusedDefs.removeUnusedDefs, may Simple.removeEmptyDefs] (.cons ⟨0, .elem .svg, "", []⟩ (.cons ⟨1, .elem .g, "g1", []⟩ (.cons ⟨2, .elem .rect, "", []⟩ .nil .nil) (.cons ⟨3, .elem .use, "", [⟨.id .xlinkHref, .link 1, true⟩]⟩ .nil .nil)) .nil) (.cons ⟨0, .elem .svg, "", []⟩ (.cons ⟨1, .elem .g, "g1", []⟩ (.cons ⟨2, .elem .rect, "", []⟩ .nil .nil) (.cons ⟨3, .elem .use, "", [⟨.id .xlinkHref, .link 1, true⟩]⟩ .nil .nil)) .nil) = true := by decide +kernel

-- ungroup_groups.rs:382 skip_ungroup_4
example : gives false [may GroupDefs.groupDefs, may fun f => (Ungroup.ungroupGroups ⟨true, true, true⟩ f).bind id, may UnusedDefs.removeUnusedDefs, may Simple.removeEmptyDefs] (.cons ⟨0, .elem .svg, "", []⟩ (.cons ⟨1, .elem .defs, "", []⟩ (.cons ⟨2, .elem .clipPath, "clip1", []⟩ .nil .nil) (.cons ⟨3, .elem .g, "", [⟨.id .clipPath, .funcLink 2, true⟩]⟩ (.cons ⟨4, .elem .rect, "", []⟩ .nil .nil) .nil)) .nil) (.cons ⟨0, .elem .svg, "", []⟩ (.cons ⟨1, .elem .defs, "", []⟩ (.cons ⟨2, .elem .clipPath, "clip1", []⟩ .nil .nil) (.cons ⟨3, .elem .g, "", [⟨.id .clipPath, .funcLink 2, true⟩]⟩ (.cons ⟨4, .elem .rect, "", []⟩ .nil .nil) .nil)) .nil) = true := by decide +kernel

-- ungroup_groups.rs:393 skip_ungroup_5
example : gives false [may GroupDefs.groupDefs, may fun f => (Ungroup.ungroupGroups ⟨true, true, true⟩ f).bind id, may UnusedDefs.removeUnusedDefs, may Simple.removeEmptyDefs] (.cons ⟨0, .elem .svg, "", []⟩ (.cons ⟨1, .elem .defs, "", []⟩ (.cons ⟨2, .elem .clipPath, "cp1", []⟩ (.cons ⟨3, .elem .g, "", [⟨.id .transform, .transform ⟨1, 0, 0, 1, 5, 0⟩, true⟩]⟩ (.cons ⟨4, .elem .rect, "", []⟩ .nil .nil) .nil) .nil) (.cons ⟨5, .elem .rect, "", [⟨.id .clipPath, .funcLink 2, true⟩]⟩ .nil .nil)) .nil) (.cons ⟨0, .elem .svg, "", []⟩ (.cons ⟨1, .elem .defs, "", []⟩ (.cons ⟨2, .elem .clipPath, "cp1", []⟩ (.cons ⟨3, .elem .g, "", []⟩ (.cons ⟨4, .elem .rect, "", [⟨.id .transform, .transform ⟨1, 0, 0, 1, 5, 0⟩, true⟩]⟩ .nil .nil) .nil) .nil) (.cons ⟨5, .elem .rect, "", [⟨.id .clipPath, .funcLink 2, true⟩]⟩ .nil .nil)) .nil) = true := by decide +kernel

-- ungroup_groups.rs:416 skip_ungroup_6
example : gives false [may GroupDefs.groupDefs, may fun f => (Ungroup.ungroupGroups ⟨true, true, true⟩ f).bind id, may UnusedDefs.removeUnusedDefs, may Simple.removeEmptyDefs] (.cons ⟨0, .elem .svg, "", []⟩ (.cons ⟨1, .elem .switch, "", []⟩ (.cons ⟨2, .elem .foreignObject, "", []⟩ .nil (.cons ⟨3, .elem .g, "", []⟩ (.cons ⟨4, .elem .rect, "", []⟩ .nil (.cons ⟨5, .elem .rect, "", []⟩ .nil .nil)) .nil)) .nil) .nil) (.cons ⟨0, .elem .svg, "", []⟩ (.cons ⟨1, .elem .switch, "", []⟩ (.cons ⟨2, .elem .foreignObject, "", []⟩ .nil (.cons ⟨3, .elem .g, "", []⟩ (.cons ⟨4, .elem .rect, "", []⟩ .nil (.cons ⟨5, .elem .rect, "", []⟩ .nil .nil)) .nil)) .nil) .nil) = true := by decide +kernel

-- ungroup_groups.rs:428 skip_ungroup_7
example : gives false [may GroupDefs.groupDefs, may fun f => (Ungroup.ungroupGroups ⟨true, true, true⟩ f).bind id, may UnusedDefs.removeUnusedDefs, may Simple.removeEmptyDefs] (.cons ⟨0, .elem .svg, "", []⟩ (.cons ⟨1, .elem .g, "", [⟨.id .transform, .transform ⟨1, 0, 0, 1, 10, 20⟩, true⟩]⟩ (.cons ⟨2, .elem .rect, "", [⟨.id .transform, .transform ⟨1, 0, 0, 1, 10, 20⟩, true⟩]⟩ .nil (.cons ⟨3, .elem .use, "", [⟨.id .transform, .transform ⟨1, 0, 0, 1, 10, 20⟩, true⟩]⟩ .nil .nil)) .nil) .nil) (.cons ⟨0, .elem .svg, "", []⟩ (.cons ⟨1, .elem .g, "", [⟨.id .transform, .transform ⟨1, 0, 0, 1, 10, 20⟩, true⟩]⟩ (.cons ⟨2, .elem .rect, "", [⟨.id .transform, .transform ⟨1, 0, 0, 1, 10, 20⟩, true⟩]⟩ .nil (.cons ⟨3, .elem .use, "", [⟨.id .transform, .transform ⟨1, 0, 0, 1, 10, 20⟩, true⟩]⟩ .nil .nil)) .nil) .nil) = true := by decide +kernel

-- ungroup_groups.rs:437 skip_ungroup_8
example : gives false [may GroupDefs.groupDefs, may fun f => (Ungroup.ungroupGroups ⟨true, true, true⟩ f).bind id, may UnusedDefs.removeUnusedDefs, may Simple.removeEmptyDefs] (.cons ⟨0, .elem .svg, "", []⟩ (.cons ⟨1, .elem .g, "", [⟨.id .opacity, .number (1 / 2), true⟩]⟩ (.cons ⟨2, .elem .rect, "", []⟩ .nil (.cons ⟨3, .elem .rect, "", []⟩ .nil .nil)) .nil) .nil) (.cons ⟨0, .elem .svg, "", []⟩ (.cons ⟨1, .elem .g, "", [⟨.id .opacity, .number (1 / 2), true⟩]⟩ (.cons ⟨2, .elem .rect, "", []⟩ .nil (.cons ⟨3, .elem .rect, "", []⟩ .nil .nil)) .nil) .nil) = true := by decide +kernel

-- ungroup_groups.rs:446 ungroup_with_attrs_1
example : gives false [may GroupDefs.groupDefs, may fun f => (Ungroup.ungroupGroups ⟨true, true, true⟩ f).bind id, may UnusedDefs.removeUnusedDefs, may Simple.removeEmptyDefs] (.cons ⟨0, .elem .svg, "", []⟩ (.cons ⟨1, .elem .g, "", [⟨.id .fill, .color 255 0 0, true⟩]⟩ (.cons ⟨2, .elem .rect, "", []⟩ .nil .nil) .nil) .nil) (.cons ⟨0, .elem .svg, "", []⟩ (.cons ⟨1, .elem .rect, "", [⟨.id .fill, .color 255 0 0, true⟩]⟩ .nil .nil) .nil) = true := by decide +kernel

-- ungroup_groups.rs:457 ungroup_with_attrs_2
example : gives false [may GroupDefs.groupDefs, may fun f => (Ungroup.ungroupGroups ⟨true, true, true⟩ f).bind id, may UnusedDefs.removeUnusedDefs, may Simple.removeEmptyDefs] (.cons ⟨0, .elem .svg, "", []⟩ (.cons ⟨1, .elem .defs, "", []⟩ (.cons ⟨2, .elem .linearGradient, "lg1", []⟩ .nil .nil) (.cons ⟨3, .elem .g, "", [⟨.id .fill, .funcLink 2, true⟩]⟩ (.cons ⟨4, .elem .rect, "", []⟩ .nil .nil) .nil)) .nil) (.cons ⟨0, .elem .svg, "", []⟩ (.cons ⟨1, .elem .defs, "", []⟩ (.cons ⟨2, .elem .linearGradient, "lg1", []⟩ .nil .nil) (.cons ⟨3, .elem .rect, "", [⟨.id .fill, .funcLink 2, true⟩]⟩ .nil .nil)) .nil) = true := by decide +kernel

-- ungroup_groups.rs:474 ungroup_with_attrs_3
example : gives false [may GroupDefs.groupDefs, may fun f => (Ungroup.ungroupGroups ⟨true, true, true⟩ f).bind id, may UnusedDefs.removeUnusedDefs, may Simple.removeEmptyDefs] (.cons ⟨0, .elem .svg, "", []⟩ (.cons ⟨1, .elem .g, "", [⟨.id .display, .kw .none, true⟩]⟩ (.cons ⟨2, .elem .rect, "", [⟨.id .display, .kw (.other "inline"), true⟩]⟩ .nil .nil) .nil) .nil) (.cons ⟨0, .elem .svg, "", []⟩ (.cons ⟨1, .elem .rect, "", [⟨.id .display, .kw .none, true⟩]⟩ .nil .nil) .nil) = true := by decide +kernel

-- ungroup_groups.rs:485 ungroup_with_opacity_1
example : gives false [may GroupDefs.groupDefs, may fun f => (Ungroup.ungroupGroups ⟨true, true, true⟩ f).bind id, may UnusedDefs.removeUnusedDefs, may Simple.removeEmptyDefs] (.cons ⟨0, .elem .svg, "", []⟩ (.cons ⟨1, .elem .g, "", [⟨.id .opacity, .number (1 / 2), true⟩]⟩ (.cons ⟨2, .elem .rect, "", []⟩ .nil .nil) (.cons ⟨3, .elem .g, "", [⟨.id .opacity, .number (1 / 2), true⟩]⟩ (.cons ⟨4, .elem .rect, "", [⟨.id .opacity, .number (1 / 2), true⟩]⟩ .nil .nil) .nil)) .nil) (.cons ⟨0, .elem .svg, "", []⟩ (.cons ⟨1, .elem .rect, "", [⟨.id .opacity, .number (1 / 2), true⟩]⟩ .nil (.cons ⟨2, .elem .rect, "", [⟨.id .opacity, .number (1 / 4), true⟩]⟩ .nil .nil)) .nil) = true := by decide +kernel

-- ungroup_groups.rs:500 ungroup_with_transform_1
example : gives false [may GroupDefs.groupDefs, may fun f => (Ungroup.ungroupGroups ⟨true, true, true⟩ f).bind id, may UnusedDefs.removeUnusedDefs, may Simple.removeEmptyDefs] (.cons ⟨0, .elem .svg, "", []⟩ (.cons ⟨1, .elem .g, "", [⟨.id .transform, .transform ⟨1, 0, 0, 1, 10, 20⟩, true⟩]⟩ (.cons ⟨2, .elem .rect, "", []⟩ .nil .nil) .nil) .nil) (.cons ⟨0, .elem .svg, "", []⟩ (.cons ⟨1, .elem .rect, "", [⟨.id .transform, .transform ⟨1, 0, 0, 1, 10, 20⟩, true⟩]⟩ .nil .nil) .nil) = true := by decide +kernel

-- ungroup_groups.rs:511 ungroup_with_transform_2
example : gives false [may GroupDefs.groupDefs, may fun f => (Ungroup.ungroupGroups ⟨true, true, true⟩ f).bind id, may UnusedDefs.removeUnusedDefs, may Simple.removeEmptyDefs] (.cons ⟨0, .elem .svg, "", []⟩ (.cons ⟨1, .elem .g, "", [⟨.id .transform, .transform ⟨1, 0, 0, 1, 10, 20⟩, true⟩]⟩ (.cons ⟨2, .elem .rect, "", [⟨.id .transform, .transform ⟨1, 0, 0, 1, 20, 30⟩, true⟩]⟩ .nil .nil) .nil) .nil) (.cons ⟨0, .elem .svg, "", []⟩ (.cons ⟨1, .elem .rect, "", [⟨.id .transform, .transform ⟨1, 0, 0, 1, 30, 50⟩, true⟩]⟩ .nil .nil) .nil) = true := by decide +kernel

-- ungroup_groups.rs:522 ungroup_with_transform_3
example : gives false [may GroupDefs.groupDefs, may fun f => (Ungroup.ungroupGroups ⟨true, true, true⟩ f).bind id, may UnusedDefs.removeUnusedDefs, may Simple.removeEmptyDefs] (.cons ⟨0, .elem .svg, "", []⟩ (.cons ⟨1, .elem .g, "", [⟨.id .transform, .transform ⟨1, 0, 0, 1, 10, 20⟩, true⟩]⟩ (.cons ⟨2, .elem .g, "", [⟨.id .transform, .transform ⟨1, 0, 0, 1, 20, 30⟩, true⟩]⟩ (.cons ⟨3, .elem .rect, "", []⟩ .nil .nil) .nil) .nil) .nil) (.cons ⟨0, .elem .svg, "", []⟩ (.cons ⟨1, .elem .rect, "", [⟨.id .transform, .transform ⟨1, 0, 0, 1, 30, 50⟩, true⟩]⟩ .nil .nil) .nil) = true := by decide +kernel

-- ungroup_groups.rs:535 ungroup_with_transform_4
example : gives false [may GroupDefs.groupDefs, may fun f => (Ungroup.ungroupGroups ⟨true, true, true⟩ f).bind id, may UnusedDefs.removeUnusedDefs, may Simple.removeEmptyDefs] (.cons ⟨0, .elem .svg, "", []⟩ (.cons ⟨1, .elem .g, "", [⟨.id .transform, .transform ⟨1, 0, 0, 1, 10, 20⟩, true⟩]⟩ (.cons ⟨2, .elem .g, "", [⟨.id .transform, .transform ⟨1, 0, 0, 1, 20, 30⟩, true⟩]⟩ (.cons ⟨3, .elem .g, "", []⟩ (.cons ⟨4, .elem .rect, "", []⟩ .nil .nil) .nil) (.cons ⟨5, .elem .g, "", []⟩ (.cons ⟨6, .elem .rect, "", []⟩ .nil .nil) .nil)) .nil) .nil) (.cons ⟨0, .elem .svg, "", []⟩ (.cons ⟨1, .elem .rect, "", [⟨.id .transform, .transform ⟨1, 0, 0, 1, 30, 50⟩, true⟩]⟩ .nil (.cons ⟨2, .elem .rect, "", [⟨.id .transform, .transform ⟨1, 0, 0, 1, 10, 20⟩, true⟩]⟩ .nil .nil)) .nil) = true := by decide +kernel

-- ungroup_groups.rs:556 ungroup_with_transform_5
example : gives false [may GroupDefs.groupDefs, may fun f => (Ungroup.ungroupGroups ⟨true, true, true⟩ f).bind id, may UnusedDefs.removeUnusedDefs, may Simple.removeEmptyDefs] (.cons ⟨0, .elem .svg, "", []⟩ (.cons ⟨1, .elem .g, "", [⟨.id .transform, .transform ⟨1, 0, 0, 1, 10, 20⟩, true⟩]⟩ (.cons ⟨2, .elem .rect, "", [⟨.id .transform, .transform ⟨1, 0, 0, 1, 10, 20⟩, true⟩]⟩ .nil (.cons ⟨3, .elem .rect, "", [⟨.id .transform, .transform ⟨1, 0, 0, 1, 10, 20⟩, true⟩]⟩ .nil .nil)) (.cons ⟨4, .elem .g, "", [⟨.id .fill, .color 255 0 0, true⟩, ⟨.id .transform, .transform ⟨1, 0, 0, 1, 10, 20⟩, true⟩]⟩ (.cons ⟨5, .elem .rect, "", [⟨.id .transform, .transform ⟨1, 0, 0, 1, 10, 20⟩, true⟩]⟩ .nil (.cons ⟨6, .elem .rect, "", [⟨.id .transform, .transform ⟨1, 0, 0, 1, 10, 20⟩, true⟩]⟩ .nil .nil)) .nil)) .nil) (.cons ⟨0, .elem .svg, "", []⟩ (.cons ⟨1, .elem .rect, "", [⟨.id .transform, .transform ⟨1, 0, 0, 1, 20, 40⟩, true⟩]⟩ .nil (.cons ⟨2, .elem .rect, "", [⟨.id .transform, .transform ⟨1, 0, 0, 1, 20, 40⟩, true⟩]⟩ .nil (.cons ⟨3, .elem .g, "", [⟨.id .fill, .color 255 0 0, true⟩]⟩ (.cons ⟨4, .elem .rect, "", [⟨.id .transform, .transform ⟨1, 0, 0, 1, 20, 40⟩, true⟩]⟩ .nil (.cons ⟨5, .elem .rect, "", [⟨.id .transform, .transform ⟨1, 0, 0, 1, 20, 40⟩, true⟩]⟩ .nil .nil)) .nil))) .nil) = true := by decide +kernel

-- ungroup_groups.rs:579 ungroup_with_transform_6
example : gives false [may GroupDefs.groupDefs, may fun f => (Ungroup.ungroupGroups ⟨true, true, true⟩ f).bind id, may UnusedDefs.removeUnusedDefs, may Simple.removeEmptyDefs] (.cons ⟨0, .elem .svg, "", []⟩ (.cons ⟨1, .elem .g, "", [⟨.id .transform, .transform ⟨1, 0, 0, 1, 10, 20⟩, true⟩]⟩ (.cons ⟨2, .elem .rect, "", []⟩ .nil (.cons ⟨3, .elem .rect, "", []⟩ .nil .nil)) .nil) .nil) (.cons ⟨0, .elem .svg, "", []⟩ (.cons ⟨1, .elem .rect, "", [⟨.id .transform, .transform ⟨1, 0, 0, 1, 10, 20⟩, true⟩]⟩ .nil (.cons ⟨2, .elem .rect, "", [⟨.id .transform, .transform ⟨1, 0, 0, 1, 10, 20⟩, true⟩]⟩ .nil .nil)) .nil) = true := by decide +kernel

-- ungroup_groups.rs:592 ungroup_with_transform_7
example : gives false [may GroupDefs.groupDefs, may fun f => (Ungroup.ungroupGroups ⟨true, true, true⟩ f).bind id, may UnusedDefs.removeUnusedDefs, may Simple.removeEmptyDefs] (.cons ⟨0, .elem .svg, "", []⟩ (.cons ⟨1, .elem .g, "", [⟨.id .transform, .transform ⟨1, 0, 0, 1, 10, 20⟩, true⟩]⟩ (.cons ⟨2, .elem .rect, "", []⟩ .nil (.cons ⟨3, .elem .g, "", [⟨.id .fill, .color 255 255 255, true⟩]⟩ (.cons ⟨4, .elem .path, "", []⟩ .nil (.cons ⟨5, .elem .path, "", []⟩ .nil (.cons ⟨6, .elem .path, "", []⟩ .nil .nil))) .nil)) .nil) .nil) (.cons ⟨0, .elem .svg, "", []⟩ (.cons ⟨1, .elem .rect, "", [⟨.id .transform, .transform ⟨1, 0, 0, 1, 10, 20⟩, true⟩]⟩ .nil (.cons ⟨2, .elem .g, "", [⟨.id .fill, .color 255 255 255, true⟩]⟩ (.cons ⟨3, .elem .path, "", [⟨.id .transform, .transform ⟨1, 0, 0, 1, 10, 20⟩, true⟩]⟩ .nil (.cons ⟨4, .elem .path, "", [⟨.id .transform, .transform ⟨1, 0, 0, 1, 10, 20⟩, true⟩]⟩ .nil (.cons ⟨5, .elem .path, "", [⟨.id .transform, .transform ⟨1, 0, 0, 1, 10, 20⟩, true⟩]⟩ .nil .nil))) .nil)) .nil) = true := by decide +kernel

-- utils.rs:108 recalc_stroke_1
example : gives false [may recalc] (.cons ⟨0, .elem .svg, "", []⟩ (.cons ⟨1, .elem .path, "", []⟩ .nil .nil) .nil) (.cons ⟨0, .elem .svg, "", []⟩ (.cons ⟨1, .elem .path, "", [⟨.id .strokeWidth, .length ⟨2, .none⟩, true⟩]⟩ .nil .nil) .nil) = true := by decide +kernel

-- utils.rs:118 recalc_stroke_2
example : gives false [may recalc] (.cons ⟨0, .elem .svg, "", []⟩ (.cons ⟨1, .elem .path, "", [⟨.id .strokeWidth, .length ⟨2, .none⟩, true⟩]⟩ .nil .nil) .nil) (.cons ⟨0, .elem .svg, "", []⟩ (.cons ⟨1, .elem .path, "", [⟨.id .strokeWidth, .length ⟨4, .none⟩, true⟩]⟩ .nil .nil) .nil) = true := by decide +kernel

-- utils.rs:128 recalc_stroke_3
example : gives false [may recalc] (.cons ⟨0, .elem .svg, "", [⟨.id .strokeWidth, .length ⟨2, .none⟩, true⟩]⟩ (.cons ⟨1, .elem .path, "", []⟩ .nil .nil) .nil) (.cons ⟨0, .elem .svg, "", [⟨.id .strokeWidth, .length ⟨2, .none⟩, true⟩]⟩ (.cons ⟨1, .elem .path, "", [⟨.id .strokeWidth, .length ⟨4, .none⟩, true⟩]⟩ .nil .nil) .nil) = true := by decide +kernel

-- utils.rs:137 recalc_stroke_4
example : gives false [may recalc] (.cons ⟨0, .elem .svg, "", []⟩ (.cons ⟨1, .elem .path, "", [⟨.id .strokeDasharray, .lengthList [⟨5, .none⟩, ⟨2, .none⟩, ⟨5, .none⟩, ⟨5, .none⟩, ⟨2, .none⟩, ⟨5, .none⟩], true⟩]⟩ .nil .nil) .nil) (.cons ⟨0, .elem .svg, "", []⟩ (.cons ⟨1, .elem .path, "", [⟨.id .strokeDasharray, .lengthList [⟨10, .none⟩, ⟨4, .none⟩, ⟨10, .none⟩, ⟨10, .none⟩, ⟨4, .none⟩, ⟨10, .none⟩], true⟩, ⟨.id .strokeWidth, .length ⟨2, .none⟩, true⟩]⟩ .nil .nil) .nil) = true := by decide +kernel

-- utils.rs:146 recalc_stroke_5
example : gives false [may recalc] (.cons ⟨0, .elem .svg, "", []⟩ (.cons ⟨1, .elem .path, "", [⟨.id .strokeDashoffset, .length ⟨2, .none⟩, true⟩]⟩ .nil .nil) .nil) (.cons ⟨0, .elem .svg, "", []⟩ (.cons ⟨1, .elem .path, "", [⟨.id .strokeDashoffset, .length ⟨4, .none⟩, true⟩, ⟨.id .strokeWidth, .length ⟨2, .none⟩, true⟩]⟩ .nil .nil) .nil) = true := by decide +kernel

-- utils.rs:155 recalc_stroke_6
example : gives false [may recalc] (.cons ⟨0, .elem .svg, "", []⟩ (.cons ⟨1, .elem .path, "", [⟨.id .strokeDasharray, .lengthList [⟨5, .none⟩, ⟨2, .none⟩, ⟨5, .none⟩, ⟨5, .none⟩, ⟨2, .none⟩, ⟨5, .none⟩], true⟩, ⟨.id .strokeDashoffset, .length ⟨2, .none⟩, true⟩]⟩ .nil .nil) .nil) (.cons ⟨0, .elem .svg, "", []⟩ (.cons ⟨1, .elem .path, "", [⟨.id .strokeDasharray, .lengthList [⟨10, .none⟩, ⟨4, .none⟩, ⟨10, .none⟩, ⟨10, .none⟩, ⟨4, .none⟩, ⟨10, .none⟩], true⟩, ⟨.id .strokeDashoffset, .length ⟨4, .none⟩, true⟩, ⟨.id .strokeWidth, .length ⟨2, .none⟩, true⟩]⟩ .nil .nil) .nil) = true := by decide +kernel

end Verif.RepoTest
