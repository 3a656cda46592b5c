import Verif.GroupDefsWhole
import Verif.PathSem
import Verif.TrimIdsProps
/-
C53, specification: documents that no combination of options makes the program crash on.
-/
namespace Verif.Spec
open Verif.Dom
open Verif.GroupDefs (isDefinition isScene)

/-- An attribute `x` of the node `n` of a document `f` with the root element `s`.  `rank` is a number of each node: see `Neat.nested`. -/
structure NeatAttr (f : Forest) (rank : Nat → Nat) (s n : Node) (x : Attr) : Prop where
  /-- No `inherit` and no `currentColor`. -/
  absolute : x.value ≠ .kw .inherit ∧ x.value ≠ .kw .currentColor
  /-- `transform` is a transform, `opacity` a number. -/
  transform : x.name = .id .transform → (∃ e, n.kind = .elem e) ∧ ∃ t, x.value = .transform t
  opacity : x.name = .id .opacity → ∃ q, x.value = .number q
  /-- `points` and `d` do not occur on `g` and `use`; the data of a path start with a MoveTo. -/
  points : x.name = .id .points → n.kind ≠ .elem .g ∧ n.kind ≠ .elem .use
  path : x.name = .id .d → n.kind ≠ .elem .g ∧ n.kind ≠ .elem .use ∧ ∀ p, x.value = .path p → p = [] ∨ Paths.StartsWithMove p
  /-- The root element and `defs` are not hidden. -/
  shown : x.name = .id .display → x.value = .kw .none → n ≠ s ∧ n.kind ≠ .elem .defs
  /-- Neither the root element nor `defs` nor a filter refers to an element, and nothing refers to the root element. -/
  link : ∀ t ∈ f.nodes, x.value.target = some t.key → n ≠ s ∧ n.kind ≠ .elem .defs ∧ n.kind ≠ .elem .filter ∧ t ≠ s ∧ ∃ b, x.name = .id b
  /-- `fill`, `clip-path` and so on refer to paint servers, clip paths and so on. -/
  style : ∀ t ∈ f.nodes, x.value.target = some t.key → x.name ≠ .id .xlinkHref → isDefinition t = true ∧ t.kind ≠ .elem .defs
  /-- A group has no `xlink:href`.  A `use` element refers to an element that may be used. -/
  href : ∀ t ∈ f.nodes, x.value.target = some t.key → x.name = .id .xlinkHref → n.kind ≠ .elem .g ∧
    (n.kind = .elem .use → (∃ e, t.kind = .elem e) ∧ t.kind ≠ .elem .svg ∧ t.kind ≠ .elem .stop ∧ (isDefinition t = true → t.kind = .elem .symbol) ∧ rank t.key < rank n.key)
  /-- Attributes of gradients and stops have values of the types that they should have. -/
  gradientTransform : x.name = .id .gradientTransform → ∃ t, x.value = .transform t
  stopColor : x.name = .id .stopColor → ∃ r g b, x.value = .color r g b
  stopOpacity : x.name = .id .stopOpacity → ∃ q, x.value = .number q
  /-- Gradients refer to gradients, and only by `xlink:href`.  No gradient refers to itself, directly or by others. -/
  gradient : n.isGradient = true → ∀ t ∈ f.nodes, x.value.target = some t.key → x.name = .id .xlinkHref ∧ t.isGradient = true ∧ rank t.key < rank n.key
  template : n.isGradient = true → x.name = .id .xlinkHref → ∃ k, x.value = .link k
  /-- Stops refer to nothing. -/
  stop : n.kind = .elem .stop → x.value.target = none
  /-- Gradients and stops are not hidden. -/
  visible : n.isGradient = true ∨ n.kind = .elem .stop → x.name = .id .display → x.value ≠ .kw .none

/-- A document without what makes the program crash. -/
structure Neat (f : Forest) (rank : Nat → Nat) : Prop where
  unique : f.UniqueKeys
  attrs : UniqueAttrs f
  links : f.LinksOk
  /-- There are enough short ids, C14. -/
  count : 2 * (f.nodes.length + 2) ≤ TrimIds.capacity
  root : ∃ s k, svgElement f = some (s, k) ∧ ∀ n ∈ f.nodes, ∀ x ∈ n.attrs, NeatAttr f rank s n x
  /-- Filters and gradients have ids, those of gradients are unique. -/
  named : ∀ n ∈ f.nodes, n.kind = .elem .filter ∨ n.isGradient = true → n.id ≠ ""
  ids : ∀ n ∈ f.nodes, n.isGradient = true → ∀ m ∈ f.nodes, m.id = n.id → m = n
  /-- The children of a gradient are stops; there are no stops elsewhere.  Offsets of stops are numbers or percentages. -/
  stops : ∀ x ∈ subs f, ∀ m ∈ x.2.top, x.1.isGradient = true ↔ m.kind = .elem .stop
  offsets : ∀ x ∈ subs f, x.1.isGradient = true → ∀ m ∈ x.2.top, ∀ l, m.get .offset = some (.length l) → l.unit = .none ∨ l.unit = .percent
  /-- Each gradient has either stops or a reference to another gradient. -/
  templates : ∀ x ∈ subs f, x.1.isGradient = true → (x.1.has .xlinkHref = true ↔ x.2 = .nil)
  /-- There are no definitions among the children of a clip path, mask, marker, pattern or symbol. -/
  scenes : ∀ x ∈ subs f, isScene x.1 = true → ∀ m ∈ x.2.top, isDefinition m = false
  /-- The children of groups are elements of SVG. -/
  groups : ∀ x ∈ subs f, x.1.kind = .elem .g → ∀ m ∈ x.2.top, ∃ e, m.kind = .elem e
  /-- `use` elements have no children. -/
  uses : ∀ x ∈ subs f, x.1.kind = .elem .use → x.2 = .nil
  /-- No `use` element refers to an element that it is in, or that contains another `use` element that refers to it, and so on: there is
  an order of the nodes in which what is in an element, and the target of a `use` element, come before the element. -/
  nested : ∀ x ∈ subs f, ∀ m ∈ x.2.nodes, rank m.key < rank x.1.key

/-- A stop of a gradient, other than the first one, has no offset. -/
def MissingOffset (f : Forest) : Prop := ∃ x ∈ subs f, x.1.isGradient = true ∧ ∃ c ∈ x.2.top.tail, ∀ l, c.get .offset ≠ some (.length l)

end Verif.Spec
