import Verif.Path
/-
Model of the part of svgdom 0.10 (an external crate whose source is not in /repo) that the tasks in `src/task/` use:
node kinds, attributes and their values, the tree, and the link bookkeeping.  Everything in this file is an assumption
about svgdom, taken from its documented behaviour; DESIGN.md lists it in the trusted base.

A node is known by its `key` (the identity of the reference-counted node in svgdom).  A reference attribute
(`AttributeValue::Link`, `AttributeValue::FuncLink`) holds the key of the node it points to, as in svgdom.

The tree is a first-child/next-sibling forest: `cons n kids next` is the node `n` with the children `kids`, followed
by its later siblings `next`.  A document is the forest of the children of svgdom's root node.
-/
namespace Verif.Dom
open Verif.Paths (Transform Path)

/-- svgdom's `ElementId` (SVG 1.1 elements). -/
inductive EId
  | a | altGlyph | altGlyphDef | altGlyphItem | animate | animateColor | animateMotion | animateTransform | circle
  | clipPath | colorProfile | cursor | defs | desc | ellipse | feBlend | feColorMatrix | feComponentTransfer
  | feComposite | feConvolveMatrix | feDiffuseLighting | feDisplacementMap | feDistantLight | feFlood | feFuncA
  | feFuncB | feFuncG | feFuncR | feGaussianBlur | feImage | feMerge | feMergeNode | feMorphology | feOffset
  | fePointLight | feSpecularLighting | feSpotLight | feTile | feTurbulence | filter | font | fontFace | fontFaceFormat
  | fontFaceName | fontFaceSrc | fontFaceUri | foreignObject | g | glyph | glyphRef | hkern | image | line
  | linearGradient | marker | mask | metadata | missingGlyph | mpath | path | pattern | polygon | polyline
  | radialGradient | rect | script | set | stop | style | svg | switch | symbol | text | textPath | title | tref
  | tspan | use | view | vkern
  deriving DecidableEq, Repr

/-- svgdom's `AttributeId`: the presentation attributes, the event and xlink attributes and all attributes the
cleaner names.  An SVG attribute that is none of these is represented by `AName.name`. -/
inductive AId
  -- presentation attributes
  | alignmentBaseline | baselineShift | clip | clipPath | clipRule | color | colorInterpolation
  | colorInterpolationFilters | colorProfile | colorRendering | cursor | direction | display | dominantBaseline
  | enableBackground | fill | fillOpacity | fillRule | filter | floodColor | floodOpacity | font | fontFamily | fontSize
  | fontSizeAdjust | fontStretch | fontStyle | fontVariant | fontWeight | glyphOrientationHorizontal
  | glyphOrientationVertical | imageRendering | kerning | letterSpacing | lightingColor | marker | markerEnd | markerMid
  | markerStart | mask | opacity | overflow | pointerEvents | shapeRendering | stopColor | stopOpacity | stroke
  | strokeDasharray | strokeDashoffset | strokeLinecap | strokeLinejoin | strokeMiterlimit | strokeOpacity
  | strokeWidth | textAnchor | textDecoration | textRendering | unicodeBidi | visibility | wordSpacing | writingMode
  -- event attributes
  | onactivate | onclick | onfocusin | onfocusout | onload | onmousedown | onmousemove | onmouseout | onmouseover
  | onmouseup | onabort | onerror | onresize | onscroll | onunload | onzoom | onbegin | onend | onrepeat
  -- conditional processing, core, xlink and namespace attributes
  | requiredExtensions | requiredFeatures | systemLanguage | xmlBase | xmlLang | xmlSpace
  | xlinkHref | xlinkType | xlinkRole | xlinkArcrole | xlinkTitle | xlinkShow | xlinkActuate | xmlns | xmlnsXlink
  -- other attributes named by the cleaner
  | baseProfile | class | clipPathUnits | cx | cy | d | dx | dy | externalResourcesRequired | filterRes | filterUnits
  | fx | fy | gradientTransform | gradientUnits | height | in_ | lineHeight | maskContentUnits | maskUnits | offset
  | patternContentUnits | patternTransform | patternUnits | points | primitiveUnits | r | refX | refY | result | rx | ry
  | slope | spreadMethod | stdDeviation | style | transform | type_ | unitsPerEm | values | version | viewBox | width
  | x | x1 | x2 | y | y1 | y2
  deriving DecidableEq, Repr

/-- svgdom's attribute name: a known SVG attribute or any other name. -/
inductive AName
  | id (a : AId)
  | name (s : String)
  deriving DecidableEq, Repr

/-- svgdom's `LengthUnit`. -/
inductive LUnit | none | em | ex | px | in_ | cm | mm | pt | pc | percent
  deriving DecidableEq, Repr

/-- svgdom's `Length`. -/
structure Len where
  num : ℚ
  unit : LUnit
  deriving DecidableEq, Repr

deriving instance DecidableEq, Repr for Transform

/-- svgdom's `ValueId`: the keywords the cleaner names, and any other one. -/
inductive Kw
  | inherit | none | currentColor | hidden | visible | objectBoundingBox | userSpaceOnUse | pad | other (s : String)
  deriving DecidableEq, Repr

/-- svgdom's `AttributeValue`. -/
inductive Value
  | color (r g b : Nat)
  | link (k : Nat)
  | funcLink (k : Nat)
  | length (l : Len)
  | lengthList (l : List Len)
  | number (n : ℚ)
  | numberList (l : List ℚ)
  | path (p : Path)
  | kw (k : Kw)
  | str (s : String)
  | transform (t : Transform)
  deriving DecidableEq, Repr

/-- svgdom's `Attribute`.  An attribute with `visible = false` is kept in memory but not written to the output. -/
structure Attr where
  name : AName
  value : Value
  visible : Bool
  deriving DecidableEq, Repr

/-- What a node is: an SVG element, an element outside the SVG namespace, character data, or something else
(comment, declaration, CDATA). -/
inductive Kind
  | elem (e : EId)
  | other (name : String)
  | text (s : String)
  | comment (s : String)
  deriving DecidableEq, Repr

structure Node where
  key : Nat
  kind : Kind
  id : String
  attrs : List Attr
  deriving DecidableEq, Repr

inductive Forest
  | nil
  | cons (n : Node) (kids next : Forest)
  deriving DecidableEq, Repr

/-! ### Attributes -/

/-- `Attributes::get` of svgdom. -/
def getAttr (as : List Attr) (a : AName) : Option Attr := as.find? (fun x => decide (x.name = a))

/-- `Attributes::remove` of svgdom. -/
def rmAttr (as : List Attr) (a : AName) : List Attr := as.filter (fun x => decide (x.name ≠ a))

/-- `Attributes::insert` of svgdom: replaces the attribute of the same name, or adds it at the end. -/
def putAttr (as : List Attr) (x : Attr) : List Attr :=
  if as.any (fun y => decide (y.name = x.name)) then as.map (fun y => if y.name = x.name then x else y) else as ++ [x]

/-- `Attributes::get_mut(aid).visible = false`. -/
def hideAttr (as : List Attr) (a : AName) : List Attr :=
  as.map (fun x => if x.name = a then { x with visible := false } else x)

namespace Node

/-- `node.attributes().get_value(aid)` -/
def get (n : Node) (a : AId) : Option Value := (getAttr n.attrs (.id a)).map (·.value)
/-- `node.has_attribute(aid)` -/
def has (n : Node) (a : AId) : Bool := (getAttr n.attrs (.id a)).isSome
/-- `node.set_attribute((aid, v))`: a new attribute is visible. -/
def set (n : Node) (a : AId) (v : Value) : Node := { n with attrs := putAttr n.attrs ⟨.id a, v, true⟩ }
/-- `node.remove_attribute(aid)` -/
def rm (n : Node) (a : AId) : Node := { n with attrs := rmAttr n.attrs (.id a) }
/-- `node.attributes_mut().get_mut(aid).visible = false` -/
def hide (n : Node) (a : AId) : Node := { n with attrs := hideAttr n.attrs (.id a) }
/-- `node.is_tag_name(e)` -/
def isTag (n : Node) (e : EId) : Bool := decide (n.kind = .elem e)
/-- `node.is_svg_element()` -/
def isSvgElem (n : Node) : Bool := match n.kind with | .elem _ => true | _ => false
/-- `node.tag_id()` -/
def tag (n : Node) : Option EId := match n.kind with | .elem e => some e | _ => none
/-- `node.is_gradient()` -/
def isGradient (n : Node) : Bool := n.isTag .linearGradient || n.isTag .radialGradient

end Node

/-- The node an attribute value refers to. -/
def Value.target : Value → Option Nat
  | .link k | .funcLink k => some k
  | _ => none

/-- The keys a node refers to. -/
def Node.links (n : Node) : List Nat := n.attrs.filterMap (fun x => x.value.target)

/-- Removes the attributes that refer to a node in `s`. -/
def Node.unlink (n : Node) (s : Nat → Bool) : Node :=
  { n with attrs := n.attrs.filter (fun x => match x.value.target with | some k => !s k | none => true) }

/-! ### The tree -/

namespace Forest

/-- `descendants()`: all nodes in document order. -/
def nodes : Forest → List Node
  | nil => []
  | cons n k r => n :: (k.nodes ++ r.nodes)

def map (f : Node → Node) : Forest → Forest
  | nil => nil
  | cons n k r => cons (f n) (k.map f) (r.map f)

def append : Forest → Forest → Forest
  | nil, g => g
  | cons n k r, g => cons n k (r.append g)

instance : Append Forest := ⟨append⟩

/-- `children()`: the nodes of the top level of a forest. -/
def top : Forest → List Node
  | nil => []
  | cons n _ r => n :: r.top

/-- `has_children()` -/
def isEmpty : Forest → Bool
  | nil => true
  | cons .. => false

/-- The keys of all nodes. -/
def keys (f : Forest) : List Nat := f.nodes.map (·.key)

/-- Drops the subtrees whose top node satisfies `p`. -/
def prune (p : Node → Bool) : Forest → Forest
  | nil => nil
  | cons n k r => if p n then r.prune p else cons n (k.prune p) (r.prune p)

/-- The keys of the nodes in the subtrees dropped by `prune p`. -/
def prunedKeys (p : Node → Bool) : Forest → List Nat
  | nil => []
  | cons n k r => if p n then (n.key :: k.keys) ++ r.prunedKeys p else k.prunedKeys p ++ r.prunedKeys p

/-- `node.remove()` for each top-most node satisfying `p`: the subtrees go away and so do all attributes elsewhere
that refer to a node in them. -/
def remove (p : Node → Bool) (f : Forest) : Forest :=
  (f.prune p).map (fun n => n.unlink (fun k => decide (k ∈ f.prunedKeys p)))

/-- The node with a given key. -/
def find (f : Forest) (k : Nat) : Option Node := f.nodes.find? (fun n => decide (n.key = k))

/-- The subtree children of the node with a given key. -/
def kidsOf (k : Nat) : Forest → Option Forest
  | nil => none
  | cons n c r => if n.key = k then some c else (c.kidsOf k).or (r.kidsOf k)

/-- In-place change of the node with a given key. -/
def modify (k : Nat) (g : Node → Node) (f : Forest) : Forest := f.map (fun n => if n.key = k then g n else n)

/-- `node.linked_nodes()`: the nodes with an attribute that refers to `k`. -/
def linkedNodes (f : Forest) (k : Nat) : List Node := f.nodes.filter (fun n => decide (k ∈ n.links))

/-- `node.is_used()` -/
def isUsed (f : Forest) (k : Nat) : Bool := f.nodes.any (fun n => decide (k ∈ n.links))

end Forest

/-- `doc.svg_element()`: the first top-level `svg` element, with its children.  Every caller unwraps it, so `none`
is a panic. -/
def svgElement : Forest → Option (Node × Forest)
  | .nil => none
  | .cons n k r => if n.isTag .svg then some (n, k) else svgElement r

/-- Replaces the root `svg` element's node and children. -/
def setSvgElement (n' : Node) (k' : Forest) : Forest → Forest
  | .nil => .nil
  | .cons n k r => if n.isTag .svg then .cons n' k' r else .cons n k (setSvgElement n' k' r)

/-! ### Tables of svgdom -/

/-- `is_presentation` (svgdom, SVG 1.1 "presentation attributes"). -/
def AId.isPresentation : AId → Bool
  | .alignmentBaseline | .baselineShift | .clip | .clipPath | .clipRule | .color | .colorInterpolation
  | .colorInterpolationFilters | .colorProfile | .colorRendering | .cursor | .direction | .display | .dominantBaseline
  | .enableBackground | .fill | .fillOpacity | .fillRule | .filter | .floodColor | .floodOpacity | .font | .fontFamily
  | .fontSize | .fontSizeAdjust | .fontStretch | .fontStyle | .fontVariant | .fontWeight
  | .glyphOrientationHorizontal | .glyphOrientationVertical | .imageRendering | .kerning | .letterSpacing
  | .lightingColor | .marker | .markerEnd | .markerMid | .markerStart | .mask | .opacity | .overflow | .pointerEvents
  | .shapeRendering | .stopColor | .stopOpacity | .stroke | .strokeDasharray | .strokeDashoffset | .strokeLinecap
  | .strokeLinejoin | .strokeMiterlimit | .strokeOpacity | .strokeWidth | .textAnchor | .textDecoration
  | .textRendering | .unicodeBidi | .visibility | .wordSpacing | .writingMode => true
  | _ => false

/-- `is_inheritable` (svgdom): presentation attributes that SVG 1.1 inherits. -/
def AId.isInheritable : AId → Bool
  | .alignmentBaseline | .baselineShift | .clip | .clipPath | .display | .dominantBaseline | .enableBackground | .filter
  | .floodColor | .floodOpacity | .lightingColor | .mask | .opacity | .overflow | .stopColor | .stopOpacity
  | .textDecoration | .unicodeBidi => false
  | a => a.isPresentation

/-- `is_graphical_event`, `is_document_event`, `is_animation_event` (svgdom). -/
def AId.isEvent : AId → Bool
  | .onactivate | .onclick | .onfocusin | .onfocusout | .onload | .onmousedown | .onmousemove | .onmouseout
  | .onmouseover | .onmouseup | .onabort | .onerror | .onresize | .onscroll | .onunload | .onzoom | .onbegin | .onend
  | .onrepeat => true
  | _ => false

/-- `is_referenced` (svgdom `ElementType`): elements that are only drawn through a reference. -/
def EId.isReferenced : EId → Bool
  | .altGlyphDef | .clipPath | .cursor | .filter | .linearGradient | .marker | .mask | .pattern | .radialGradient
  | .symbol => true
  | _ => false

/-- `is_basic_shape` (svgdom). -/
def EId.isBasicShape : EId → Bool
  | .rect | .circle | .ellipse | .line | .polyline | .polygon => true
  | _ => false

/-- `is_container` (svgdom, SVG 1.1 "container element"). -/
def EId.isContainer : EId → Bool
  | .a | .defs | .glyph | .g | .marker | .mask | .missingGlyph | .pattern | .svg | .switch | .symbol => true
  | _ => false

/-! ### Well-formed documents -/

/-- No two nodes have the same key: keys stand for node identity. -/
def Forest.UniqueKeys (f : Forest) : Prop := f.keys.Nodup

/-- Every reference points to a node of the document. -/
def Forest.LinksOk (f : Forest) : Prop := ∀ n ∈ f.nodes, ∀ k ∈ n.links, k ∈ f.keys

instance (f : Forest) : Decidable f.UniqueKeys := by unfold Forest.UniqueKeys; infer_instance
instance (f : Forest) : Decidable f.LinksOk := by unfold Forest.LinksOk; infer_instance

end Verif.Dom
