import Verif.PipelineOpts
/-
Documents: C22, C53, C54 and C55.
-/
namespace Verif.Pipeline
open Verif.Dom Verif.Spec
open Verif.Dom (Res)
open Verif.Cli (CleaningOptions)
open Verif.Simple (Targeted OnlySvgIds)
open Verif.Regroup (IdsUnique)
open Verif.Gradients (AllVisible)

/-- What the parser makes: nodes occur once, ids are different and on SVG elements, whatever is referred to has an id, attributes
occur once, nothing is hidden, there is an `svg` element, no element refers to itself, no two elements to each other. -/
structure Parsed (f : Forest) : Prop where
  unique : f.UniqueKeys
  ids : IdsUnique f
  svgIds : OnlySvgIds f
  targeted : Targeted f
  attrs : UniqueAttrs f
  visible : AllVisible f
  root : ∃ n ∈ f.top, n.kind = .elem .svg
  once : ∀ n ∈ f.nodes, ∀ m ∈ f.nodes, m.key ∈ n.links → n.key ∉ m.links

instance (f : Forest) : Decidable (IdsUnique f) := by unfold IdsUnique; infer_instance
instance (f : Forest) : Decidable (OnlySvgIds f) := by unfold OnlySvgIds; infer_instance
instance (f : Forest) : Decidable (Targeted f) := by unfold Targeted; infer_instance
instance (f : Forest) : Decidable (AllVisible f) := by unfold AllVisible; infer_instance

instance (f : Forest) : Decidable (Parsed f) :=
  decidable_of_iff (f.UniqueKeys ∧ IdsUnique f ∧ OnlySvgIds f ∧ Targeted f ∧ (∀ n ∈ f.nodes, (n.attrs.map Attr.name).Nodup) ∧ AllVisible f ∧
      (∃ n ∈ f.top, n.kind = .elem .svg) ∧ ∀ n ∈ f.nodes, ∀ m ∈ f.nodes, m.key ∈ n.links → n.key ∉ m.links)
    ⟨fun ⟨a, b, c, d, e, f, g, h⟩ => ⟨a, b, c, d, e, f, g, h⟩, fun ⟨a, b, c, d, e, f, g, h⟩ => ⟨a, b, c, d, e, f, g, h⟩⟩

/-! ### Documents -/

def el (k : Nat) (e : EId) (i : String) (as : List (AId × Value)) : Node := ⟨k, .elem e, i, as.map fun x => ⟨.id x.1, x.2, true⟩⟩
def px (q : ℚ) : Value := .length ⟨q, .none⟩
def doc (f : Forest) : Forest := .cons (el 0 .svg "" []) f .nil
/-- A node without children, followed by others. -/
def leaf (n : Node) (f : Forest) : Forest := .cons n .nil f

/-- What svgdom provides does not matter here. -/
def env : Env := ⟨fun _ => none, fun _ => [], fun _ => []⟩

/-- All options. -/
def allOn : CleaningOptions where
  removeUnusedDefs := true
  convertShapes := true
  removeTitle := true
  removeDesc := true
  removeMetadata := true
  removeDuplLinearGradients := true
  removeDuplRadialGradients := true
  removeDuplFeGaussianBlur := true
  ungroupGroups := true
  ungroupDefs := true
  groupByStyle := true
  mergeGradients := true
  regroupGradientStops := true
  removeInvalidStops := true
  removeInvisibleElements := true
  resolveUse := true
  removeVersion := true
  removeUnreferencedIds := true
  trimIds := true
  removeTextAttributes := true
  removeUnusedCoordinates := true
  removeDefaultAttributes := true
  removeXmlnsXlinkAttribute := true
  removeNeedlessAttributes := true
  removeGradientAttributes := true
  applyTransformToGradients := true
  applyTransformToShapes := true
  pathsToRelative := true
  removeUnusedSegments := true
  convertSegments := true
  appendNewline := true
  applyTransformToPaths := true
  joinStyleAttributes := .all

/-! ### C53 -/

/-- **C53** as it is stated. -/
def C53_full : Prop := ∀ (E : Env) (o : CleaningOptions) (f : Forest), Parsed f → cleanDoc E o f ≠ .panic

/-- A pattern that is painted with a gradient in it. -/
def inPattern : Forest :=
  doc (.cons (el 2 .pattern "p" [(.fill, .funcLink 3)]) (leaf (el 3 .linearGradient "l" []) (leaf (el 4 .rect "" []) .nil)) .nil)

/-- **Finding.** Without any option, the program crashes on a pattern that is painted with a gradient in it. -/
theorem C53_refuted_pattern : Parsed inPattern ∧ cleanDoc env {} inPattern = .panic := by decide +kernel

/-- A clip path that inherits a reference to itself. -/
def inClip : Forest :=
  doc (.cons (el 1 .g "" [(.clipPath, .funcLink 2)]) (.cons (el 2 .clipPath "c" [(.clipPath, .kw .inherit)]) (leaf (el 3 .rect "" []) .nil) .nil) .nil)

/-- **Finding.** Without any option, the program crashes on a clip path that inherits a reference to itself. -/
theorem C53_refuted_inherit : Parsed inClip ∧ cleanDoc env {} inClip = .panic := by decide +kernel

/-- A stop whose offset has a unit. -/
def inUnit : Forest :=
  doc (.cons (el 1 .linearGradient "l" []) (leaf (el 2 .stop "" [(.offset, .length ⟨5, .mm⟩)]) .nil) (leaf (el 3 .rect "" [(.fill, .funcLink 1)]) .nil))

/-- **Finding.** Without any option, the program crashes on a stop offset with a unit. -/
theorem C53_refuted_unit : Parsed inUnit ∧ cleanDoc env {} inUnit = .panic := by decide +kernel

/-- Three gradients, each one with the next one as its template. -/
def inRing : Forest :=
  doc (leaf (el 1 .linearGradient "a" [(.xlinkHref, .link 2)]) (leaf (el 2 .linearGradient "b" [(.xlinkHref, .link 3)])
    (leaf (el 3 .linearGradient "c" [(.xlinkHref, .link 1)]) .nil)))

/-- **Finding.** Without any option, the program does not end on gradients that refer to each other in a ring: the model's rounds
run out. -/
theorem C53_refuted_ring : Parsed inRing ∧ cleanDoc env {} inRing = .panic := by decide +kernel

/-- Two gradients that are equal, and a third one between them: it refers to the second one, the first one refers to it. -/
def inEqual : Forest :=
  doc (.cons (el 1 .linearGradient "a" [(.xlinkHref, .link 3), (.x1, px 0)]) (leaf (el 10 .stop "" [(.offset, px 1)]) .nil)
    (.cons (el 2 .linearGradient "b" [(.x1, px 0)]) (leaf (el 11 .stop "" [(.offset, px 1)]) .nil)
    (leaf (el 3 .linearGradient "c" [(.xlinkHref, .link 2), (.x1, px 8)]) .nil)))

/-- **Finding.** Merging equal gradients crashes if another gradient is between them. -/
theorem C53_refuted_equal : Parsed inEqual ∧ cleanDoc env { removeDuplLinearGradients := true } inEqual = .panic := by decide +kernel

/-- A gradient that refers to the element it is in. -/
def inRoot : Forest :=
  .cons (el 0 .svg "s" []) (leaf (el 1 .linearGradient "l" [(.xlinkHref, .link 0)]) (leaf (el 4 .rect "" [(.fill, .funcLink 1)]) .nil)) .nil

/-- **Finding.** Merging gradients crashes if one refers to the root element. -/
theorem C53_refuted_merge : Parsed inRoot ∧ cleanDoc env { mergeGradients := true } inRoot = .panic := by decide +kernel

/-- A gradient whose template is empty, and two gradients with the same stops. -/
def inTemplate : Forest :=
  doc (leaf (el 1 .linearGradient "a" []) (leaf (el 2 .linearGradient "b" [(.xlinkHref, .link 1)])
    (.cons (el 3 .linearGradient "c" []) (leaf (el 5 .stop "" [(.offset, px 0)]) (leaf (el 6 .stop "" [(.offset, px 1)]) .nil))
    (.cons (el 4 .linearGradient "d" [(.x1, px 5)]) (leaf (el 7 .stop "" [(.offset, px 0)]) (leaf (el 8 .stop "" [(.offset, px 1)]) .nil))
    (leaf (el 9 .circle "" [(.r, px 5), (.fill, .funcLink 2), (.stroke, .funcLink 3)])
    (leaf (el 10 .circle "" [(.r, px 5), (.fill, .funcLink 4)]) .nil))))))

/-- **Finding.** The two options together crash on such a document: removing the empty gradient sets `xlink:href="none"` on the gradient
that refers to it, and after the stops are regrouped the attributes of all gradients are looked up again.  Each option alone does not. -/
theorem C53_refuted_template : Parsed inTemplate ∧
    cleanDoc env { removeInvisibleElements := true, regroupGradientStops := true } inTemplate = .panic ∧
    cleanDoc env { removeInvisibleElements := true } inTemplate ≠ .panic ∧
    cleanDoc env { regroupGradientStops := true } inTemplate ≠ .panic := by decide +kernel

/-- The property does not hold as it is stated. -/
theorem C53_refuted : ¬ C53_full := fun h => h env {} inUnit C53_refuted_unit.1 C53_refuted_unit.2

/-! ### C55 -/

/-- **C55** as it is stated: a text, comment or foreign element that is still there is the same as before, and it is gone only together
with the element it was in. -/
def C55_full : Prop := ∀ (E : Env) (o : CleaningOptions) (f g : Forest), Parsed f → cleanDoc E o f = .ok g →
  (∀ m ∈ g.nodes, Foreign m → m ∈ f.nodes) ∧
  ∀ x ∈ subs f, ∀ n ∈ x.2.top, Foreign n → n.key ∉ g.keys → x.1.key ∉ g.keys

/-- A foreign element that is the only child of a group with a style. -/
def inGroup : Forest := doc (.cons (el 3 .g "" [(.fill, .kw .none)]) (leaf ⟨4, .other "a:b", "", []⟩ .nil) .nil)

/-- The document after the run. -/
def after (o : CleaningOptions) (f : Forest) : Forest := (cleanDoc env o f).getD .nil

/-- **Finding.** Ungrouping writes the style of the group to the foreign element. -/
theorem C55_refuted_ungroup : Parsed inGroup ∧ ∃ g, cleanDoc env { ungroupGroups := true } inGroup = .ok g ∧
    ⟨4, .other "a:b", "", [⟨.id .fill, .kw .none, true⟩]⟩ ∈ g.nodes :=
  ⟨by decide +kernel, after { ungroupGroups := true } inGroup, by decide +kernel, by decide +kernel⟩

/-- A comment in a `defs` element. -/
def inDefs : Forest :=
  doc (.cons (el 3 .defs "" []) (leaf ⟨4, .comment "c", "", []⟩ (leaf (el 5 .rect "a" []) .nil)) (leaf (el 6 .use "" [(.xlinkHref, .link 5)]) .nil))

/-- **Finding.** Removing unused definitions removes comments from a `defs` element that stays. -/
theorem C55_refuted_defs : Parsed inDefs ∧ ∃ g, cleanDoc env { removeUnusedDefs := true } inDefs = .ok g ∧ 3 ∈ g.keys ∧ 4 ∉ g.keys :=
  ⟨by decide +kernel, after { removeUnusedDefs := true } inDefs, by decide +kernel, by decide +kernel, by decide +kernel⟩

/-- The property does not hold as it is stated. -/
theorem C55_refuted : ¬ C55_full := fun h => by
  obtain ⟨hp, g, hg, hm⟩ := C55_refuted_ungroup
  have := (h env _ _ _ hp hg).1 _ hm (fun e => by simp)
  revert this
  decide +kernel

/-! ### Not vacuous -/

/-- A group with a rectangle that is painted with a gradient that has another one as its template. -/
def sample : Forest :=
  doc (.cons (el 1 .linearGradient "base" []) (leaf (el 2 .stop "" [(.offset, px 0), (.stopColor, .color 1 2 3)])
        (leaf (el 3 .stop "" [(.offset, px 1), (.stopColor, .color 4 5 6)]) .nil))
    (leaf (el 4 .linearGradient "grad" [(.xlinkHref, .link 1), (.x1, px 3)])
    (.cons (el 5 .g "unused" [(.fill, .funcLink 4)]) (leaf (el 6 .rect "" [(.width, px 10), (.height, px 5)])
        (leaf (el 7 .rect "r" [(.width, px 10), (.height, px 7)]) (leaf ⟨8, .comment "c", "", []⟩ .nil)))
    (leaf (el 9 .use "" [(.xlinkHref, .link 7)]) .nil))))

example : Parsed sample ∧ sample.LinksOk := by decide +kernel

/-- The run with all options on ends; it merges the gradients and keeps the comment; what is referred to gets the ids `a` and `b`. -/
example : ∃ g, cleanDoc env allOn sample = .ok g ∧ g.nodes.map (fun n => (n.key, n.id)) =
    [(0, ""), (4, "a"), (2, ""), (3, ""), (5, ""), (6, ""), (7, "b"), (8, ""), (9, "")] :=
  ⟨after allOn sample, by decide +kernel, by decide +kernel⟩

/-- So does the run with all options off. -/
example : ∃ g, cleanDoc env {} sample = .ok g ∧ g.nodes.map (fun n => (n.key, n.id)) =
    [(0, ""), (10, ""), (1, "base"), (2, ""), (3, ""), (4, "grad"), (5, "unused"), (6, ""), (7, "r"), (8, ""), (9, "")] :=
  ⟨after {} sample, by decide +kernel, by decide +kernel⟩

example : AllOff {} := rfl

end Verif.Pipeline
