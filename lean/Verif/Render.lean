import Verif.DomLemmas
import Verif.DomSpec
/-
Specification of what a document looks like, for the passes that change the tree (`ungroup_groups`, `group_by_style`, ...).
Nothing here is used by the model of the code.

The drawing primitives are not fixed: a `Painter` is any way to draw shapes, text, images, gradients, filters and so on, and
to put pictures on top of each other; the properties hold for all of them.  What is fixed is what SVG 1.1 says about the tree:
inheritance of properties, the product of the transforms, groups, `opacity`, `display`, conditional processing, `switch`,
`use`, elements that are never drawn where they stand, and references.

The picture is that of the attributes in memory, hidden ones included: the passes rely on hidden attributes having the value
that a reader takes for them anyway (C26, C28, C42).  Lengths are inherited as they are written: a percentage or a font-relative
length means the same for every element that inherits it.
-/
namespace Verif.Render
open Verif.Dom Verif.Spec
open Verif.Paths (Transform)

/-- Properties that children inherit (and `xml:space`, `xml:lang`, which apply to all descendants). -/
def inherits (a : AId) : Bool :=
  match a with
  | .xmlSpace | .xmlLang => true
  | .clipRule | .color | .colorInterpolation | .colorInterpolationFilters | .colorProfile | .colorRendering | .cursor
  | .direction | .fill | .fillOpacity | .fillRule | .font | .fontFamily | .fontSize | .fontSizeAdjust | .fontStretch
  | .fontStyle | .fontVariant | .fontWeight | .glyphOrientationHorizontal | .glyphOrientationVertical | .imageRendering
  | .kerning | .letterSpacing | .marker | .markerEnd | .markerMid | .markerStart | .pointerEvents | .shapeRendering
  | .stroke | .strokeDasharray | .strokeDashoffset | .strokeLinecap | .strokeLinejoin | .strokeMiterlimit
  | .strokeOpacity | .strokeWidth | .textAnchor | .textRendering | .visibility | .wordSpacing | .writingMode => true
  | _ => false

/-- Conditional processing attributes. -/
def isCond (a : AId) : Bool :=
  match a with
  | .requiredFeatures | .requiredExtensions | .systemLanguage => true
  | _ => false

/-- Attributes whose meaning is fixed by this file. -/
def isFixed (a : AId) : Bool :=
  match a with
  | .opacity | .transform | .display | .mask | .clipPath | .filter => true
  | a => isCond a

/-- Elements to which `transform` applies (SVG 1.1, 7.6). -/
def takesTransform : Kind → Bool
  | .elem .a | .elem .circle | .elem .clipPath | .elem .ellipse | .elem .foreignObject | .elem .g | .elem .image | .elem .line
  | .elem .path | .elem .polygon | .elem .polyline | .elem .rect | .elem .switch | .elem .text | .elem .use => true
  | _ => false

/-- What an element gets from its ancestors: the inherited properties and the total transform. -/
structure Ctx where
  style : AId → Option Value
  ctm : Transform

def Ctx.start : Ctx := ⟨fun _ => none, one⟩

/-- The context for the children of `n`, and for drawing `n` itself. -/
def Ctx.enter (c : Ctx) (n : Node) : Ctx where
  style a :=
    if inherits a then
      match n.get a with
      | none => c.style a
      | some v => if v = .kw .inherit then c.style a else some v
    else none
  ctm := if takesTransform n.kind then mul c.ctm (nodeTransform n) else c.ctm

/-- What is seen of an attribute: its value or, if it is a reference, the picture of the element it refers to. -/
inductive Seen (P : Type)
  | plain (v : Value)
  | ref (p : P)

def Seen.isRef {P : Type} : Option (Seen P) → Bool
  | some (.ref _) => true
  | _ => false

/-- What is seen of a child. -/
structure Pic (P : Type) where
  kind : Kind
  /-- Its conditional processing attributes hold. -/
  chosen : Bool
  pic : P

abbrev Attrs (P : Type) := AName → Option (Seen P)
abbrev Style (P : Type) := AId → Option (Seen P)

def isElem : Kind → Bool
  | .elem _ => true
  | _ => false

/-- Descriptive elements (SVG 1.1, 5.4). -/
def isDesc : Kind → Bool
  | .elem .title | .elem .desc | .elem .metadata => true
  | _ => false

/-- Elements, other than those that show their children one on top of the other, in which a child that shows nothing (as with
`display="none"`) has no effect. -/
def skips : EId → Bool
  | .clipPath | .text | .tspan | .textPath => true
  | _ => false

/-- `q` is a gradient without stops that refers to no other gradient. -/
def Stopless {P : Type} (paint : EId → Attrs P → Style P → Transform → List (Pic P) → P) (q : P) : Prop :=
  ∃ e as st t, (e = EId.linearGradient ∨ e = .radialGradient) ∧ Seen.isRef (as (.id .xlinkHref)) = false ∧ q = paint e as st t []

/-- `q` is a gradient with one stop, which is opaque and has the given colour. -/
def Solid {P : Type} (paint : EId → Attrs P → Style P → Transform → List (Pic P) → P) (c : Nat × Nat × Nat) (q : P) : Prop :=
  ∃ e as st t ch as' st' t' l', (e = EId.linearGradient ∨ e = .radialGradient) ∧ Seen.isRef (as (.id .xlinkHref)) = false ∧
    as' (.id .stopColor) = some (.plain (.color c.1 c.2.1 c.2.2)) ∧ as' (.id .stopOpacity) = some (.plain (.number 1)) ∧
    q = paint e as st t [⟨.elem .stop, ch, paint .stop as' st' t' l'⟩]

/-- A way to draw. -/
structure Painter (P : Type) where
  /-- Nothing. -/
  empty : P
  /-- The second picture on top of the first. -/
  over : P → P → P
  /-- Group opacity. -/
  fade : ℚ → P → P
  /-- `mask`, `clip-path` and `filter`, in the given coordinate system. -/
  effect : Option (Seen P) → Option (Seen P) → Option (Seen P) → Transform → P → P
  /-- Whether a conditional processing attribute with this value holds. -/
  cond : AId → Value → Bool
  /-- The length of a coordinate. -/
  measure : Len → ℚ
  /-- Character data. -/
  chars : String → Style P → Transform → P
  /-- Elements that show their children one on top of the other, perhaps in a viewport or as a mask, pattern or marker; for an
  `svg` or `symbol` element that is shown by a `use` element, with the size that the latter gives. -/
  frame : EId → Attrs P → Attrs P → Transform → P → P
  /-- All other SVG elements: shapes, text, images, gradients, filters, clip paths, ... -/
  paint : EId → Attrs P → Style P → Transform → List (Pic P) → P
  /-- Elements outside SVG. -/
  foreign : String → Attrs P → Style P → Transform → List (Pic P) → P
  empty_over : ∀ p, over empty p = p
  over_empty : ∀ p, over p empty = p
  over_assoc : ∀ p q r, over (over p q) r = over p (over q r)
  fade_one : ∀ p, fade 1 p = p
  fade_fade : ∀ a b p, fade a (fade b p) = fade (a * b) p
  fade_empty : ∀ a, fade a empty = empty
  /-- Without a mask, clip path and filter there is no effect. -/
  no_effect : ∀ m c f t p, Seen.isRef m = false → Seen.isRef c = false → Seen.isRef f = false → effect m c f t p = p
  /-- Only a filter makes something of nothing. -/
  effect_empty : ∀ m c f t, Seen.isRef f = false → effect m c f t empty = empty
  measure_user : ∀ q, measure ⟨q, .none⟩ = q
  /-- An element that shows nothing has no effect in a clip path or a text. -/
  paint_skip : ∀ e as st t l x l', skips e = true → isElem x.kind = true → x.pic = empty →
    paint e as st t (l ++ x :: l') = paint e as st t (l ++ l')
  /-- Descriptive elements have no effect anywhere. -/
  paint_desc : ∀ e as st t l x l', isDesc x.kind = true → x.pic = empty →
    paint e as st t (l ++ x :: l') = paint e as st t (l ++ l')
  /-- A path without segments disables the rendering of the element. -/
  no_path : ∀ as st t l, (∀ s p, as (.id .d) ≠ some (.plain (.path (s :: p)))) → paint .path as st t l = empty
  /-- So does a rectangle of width or height zero. -/
  no_rect : ∀ as st t l u, (as (.id .width) = some (.plain (.length ⟨0, u⟩)) ∨ as (.id .height) = some (.plain (.length ⟨0, u⟩))) →
    paint .rect as st t l = empty
  /-- A clip path without children clips everything. -/
  no_clip : ∀ as st t, paint .clipPath as st t [] = empty
  clip_all : ∀ m f t p, effect m (some (.ref empty)) f t p = empty
  /-- A filter without children shows nothing. -/
  no_filter : ∀ as st t, Seen.isRef (as (.id .xlinkHref)) = false → paint .filter as st t [] = empty
  filter_all : ∀ m c t p, effect m c (some (.ref empty)) t p = empty
  /-- A gradient without stops is the same as no paint. -/
  paint_none : ∀ e as st t l a q, (a = .fill ∨ a = .stroke) → st a = some (.ref q) → Stopless paint q →
    paint e as st t l = paint e as (Function.update st a (some (.plain (.kw .none)))) t l
  chars_none : ∀ s st t a q, (a = .fill ∨ a = .stroke) → st a = some (.ref q) → Stopless paint q →
    chars s st t = chars s (Function.update st a (some (.plain (.kw .none)))) t
  foreign_none : ∀ s as st t l a q, (a = .fill ∨ a = .stroke) → st a = some (.ref q) → Stopless paint q →
    foreign s as st t l = foreign s as (Function.update st a (some (.plain (.kw .none)))) t l
  /-- A gradient with one opaque stop is the same as its colour. -/
  paint_solid : ∀ e as st t l a q r g b, (a = .fill ∨ a = .stroke) → st a = some (.ref q) → Solid paint (r, g, b) q →
    paint e as st t l = paint e as (Function.update st a (some (.plain (.color r g b)))) t l
  chars_solid : ∀ s st t a q r g b, (a = .fill ∨ a = .stroke) → st a = some (.ref q) → Solid paint (r, g, b) q →
    chars s st t = chars s (Function.update st a (some (.plain (.color r g b)))) t
  foreign_solid : ∀ s as st t l a q r g b, (a = .fill ∨ a = .stroke) → st a = some (.ref q) → Solid paint (r, g, b) q →
    foreign s as st t l = foreign s as (Function.update st a (some (.plain (.color r g b)))) t l

/-- The pictures of the elements that are referred to: as shown by a `use` element in a context, and as a paint server, mask,
clip path, filter and so on, where they stand. -/
structure Env (P : Type) where
  inst : Nat → Ctx → Attrs P → P
  here : Nat → P

variable {P : Type} (π : Painter P)

def see (env : Env P) (v : Value) : Seen P :=
  match v.target with
  | some k => .ref (env.here k)
  | none => .plain v

/-- Attributes that say something about the file: version information and namespaces. -/
def isMeta (a : AId) : Bool :=
  match a with
  | .version | .baseProfile | .xmlns | .xmlnsXlink => true
  | _ => false

/-- An attribute that is neither inherited nor treated below. -/
def isOwn : AName → Bool
  | .id a => !inherits a && !isFixed a && !isMeta a
  | .name _ => true

def own (env : Env P) (n : Node) : Attrs P := fun x => if isOwn x then (getAttr n.attrs x).map (fun y => see env y.value) else none

def seenStyle (env : Env P) (c : Ctx) : Style P := fun a => (c.style a).map (see env)

/-- `mask`, `clip-path` and `filter` take references of the form `url(#id)`. -/
def seeFunc (env : Env P) : Value → Seen P
  | .funcLink k => .ref (env.here k)
  | v => .plain v

def seenAttr (env : Env P) (n : Node) (a : AId) : Option (Seen P) := (n.get a).map (seeFunc env)

/-- A conditional processing attribute holds if it is there. -/
def holds (n : Node) (a : AId) : Bool :=
  match n.get a with
  | some v => π.cond a v
  | none => true

/-- Conditional processing. -/
def allowed (n : Node) : Bool := holds π n .requiredFeatures && holds π n .requiredExtensions && holds π n .systemLanguage

def opacityOf (n : Node) : ℚ :=
  match n.get .opacity with
  | some (.number q) => q
  | _ => 1

def hiddenBy (n : Node) : Bool := decide (n.get .display = some (.kw .none))

def isChars : Kind → Bool
  | .text _ => true
  | _ => false

/-- The pictures of the children that satisfy the test, one on top of the other. -/
def stack (p : Kind → Bool) (l : List (Pic P)) : P :=
  l.foldr (fun x q => if p x.kind then π.over x.pic q else q) π.empty

/-- `switch`: the first child that can be drawn and whose conditions hold. -/
def choose (l : List (Pic P)) : P :=
  match l.find? (fun x => isElem x.kind && !neverRendered x.kind && x.chosen) with
  | some x => x.pic
  | none => π.empty

/-- Elements that show their children one on top of the other. -/
def isFrame : EId → Bool
  | .svg | .symbol | .marker | .pattern | .mask | .glyph | .missingGlyph | .a | .defs => true
  | _ => false

/-- Where groups may stand: in elements that show their children one on top of the other, in `switch` elements, and, without
effect, in clip paths. -/
def groupPlace : Kind → Bool
  | .elem e => isFrame e || decide (e ∈ [EId.g, .switch, .clipPath])
  | _ => false

def offset (n : Node) (a : AId) : ℚ :=
  match n.get a with
  | some (.length l) => π.measure l
  | _ => 0

/-- The attributes that an element gets without a `use` element. -/
def noVia : Attrs P := fun _ => none

/-- The attributes of a `use` element that an `svg` or `symbol` element which it shows gets. -/
def viaOf (env : Env P) (n : Node) : Attrs P := fun x => if x = .id .width ∨ x = .id .height then own env n x else none

/-- The elements a clip path is made of (SVG 1.1, 14.3.5); other children have no effect. -/
def clipKind : Kind → Bool
  | .elem e => decide (e ∈ [EId.rect, .circle, .ellipse, .line, .polyline, .polygon, .path, .text, .use])
  | _ => false

/-- What a clip path sees of its children: only the shape of those that are allowed in it, whatever elements they are. -/
def clipKids (l : List (Pic P)) : List (Pic P) :=
  (l.filter fun x => clipKind x.kind).map fun x => { x with kind := .elem .use }

/-- `use`: the element it refers to, moved by `x` and `y`. -/
def useOf (env : Env P) (c : Ctx) (n : Node) : P :=
  match n.get .xlinkHref with
  | some (.link k) =>
    env.inst k ⟨c.style, mul c.ctm ⟨1, 0, 0, 1, offset π n .x, offset π n .y⟩⟩ (viaOf env n)
  | _ => π.empty

/-- An SVG element without opacity, effects and conditions; `c` is the context of its children. -/
def core (env : Env P) (via : Attrs P) (c : Ctx) (n : Node) (e : EId) (kids : List (Pic P)) : P :=
  if e = .g then stack π isElem kids
  else if e = .use then useOf π env c n
  else if e = .switch then choose π kids
  else if e = .a then π.frame e (own env n) noVia c.ctm (stack π (fun k => isElem k || isChars k) kids)
  else if isFrame e then π.frame e (own env n) (if e = .svg ∨ e = .symbol then via else noVia) c.ctm (stack π isElem kids)
  else if e = .clipPath then π.paint e (own env n) (seenStyle env c) c.ctm (clipKids kids)
  else π.paint e (own env n) (seenStyle env c) c.ctm kids

/-- A node, in the context `c` of its parent, with the pictures of its children. `display`, conditional processing and opacity
do not apply to definitions. -/
def body (env : Env P) (via : Attrs P) (c : Ctx) (n : Node) (kids : List (Pic P)) : P :=
  match n.kind with
  | .text s => π.chars s (seenStyle env c) c.ctm
  | .comment _ => π.empty
  | .other t => π.foreign t (fun x => (getAttr n.attrs x).map (fun y => see env y.value)) (seenStyle env (c.enter n)) c.ctm kids
  | .elem e =>
    let p := π.effect (seenAttr env n .mask) (seenAttr env n .clipPath) (seenAttr env n .filter) (c.enter n).ctm
      (core π env via (c.enter n) n e kids)
    if neverRendered (.elem e) && decide (e ≠ .symbol) then p
    else if hiddenBy n || !allowed π n then π.empty
    else π.fade (opacityOf n) p

/-- A node where it stands. -/
def draw (env : Env P) (c : Ctx) (n : Node) (kids : List (Pic P)) : P :=
  if neverRendered n.kind then π.empty else body π env noVia c n kids

/-- The pictures of siblings. -/
def pics (env : Env P) : Ctx → Forest → List (Pic P)
  | _, .nil => []
  | c, .cons n k r => ⟨n.kind, allowed π n, draw π env c n (pics env (c.enter n) k)⟩ :: pics env c r

/-- The element with the key `k`, as shown by a `use` element. -/
def instOf (env : Env P) (via : Attrs P) (c : Ctx) (k : Nat) : Forest → Option P
  | .nil => none
  | .cons n ks r =>
    if n.key = k then some (body π env via c n (pics π env (c.enter n) ks))
    else (instOf env via c k ks).or (instOf env via c k r)

/-- The element with the key `k` as a paint server, mask, ..., which uses the coordinate system of the element that refers to
it, but inherits from its own ancestors. -/
def hereOf (env : Env P) (k : Nat) : Ctx → Forest → Option P
  | _, .nil => none
  | c, .cons n ks r =>
    if n.key = k then some (body π env noVia ⟨c.style, one⟩ n (pics π env (Ctx.enter ⟨c.style, one⟩ n) ks))
    else (hereOf env k (c.enter n) ks).or (hereOf env k c r)

/-- The pictures of the elements of `f` that are referred to, with references followed to the given depth. -/
def scene (f : Forest) : Nat → Env P
  | 0 => ⟨fun _ _ _ => π.empty, fun _ => π.empty⟩
  | d + 1 =>
    ⟨fun k c via => (instOf π (scene f d) via c k f).getD π.empty, fun k => (hereOf π (scene f d) k Ctx.start f).getD π.empty⟩

/-- **The picture of a document**, with references followed to the given depth (a document with circular references has no
other). -/
def picture (d : Nat) (f : Forest) : P := stack π isElem (pics π (scene π f d) Ctx.start f)

/-- Two documents look the same. -/
def SameLook (f g : Forest) : Prop := ∀ (P : Type) (π : Painter P) (d : Nat), picture π d f = picture π d g

/-- Two documents look the same when references are followed to any sufficiently large depth.  (For a document without
circular references the picture does not change any more from some depth on: `RenderDepth.lean`.) -/
def SameView (f g : Forest) : Prop := ∀ (P : Type) (π : Painter P), ∃ D, ∀ d ≥ D, picture π d f = picture π d g

theorem SameLook.view {f g : Forest} (h : SameLook f g) : SameView f g := fun P π => ⟨0, fun d _ => h P π d⟩

theorem SameView.trans {f g h : Forest} (h1 : SameView f g) (h2 : SameView g h) : SameView f h := fun P π => by
  obtain ⟨D, hD⟩ := h1 P π
  obtain ⟨E, hE⟩ := h2 P π
  exact ⟨max D E, fun d hd => (hD d (le_trans (le_max_left _ _) hd)).trans (hE d (le_trans (le_max_right _ _) hd))⟩

theorem SameLook.refl (f : Forest) : SameLook f f := fun _ _ _ => rfl

theorem SameLook.trans {f g h : Forest} (h1 : SameLook f g) (h2 : SameLook g h) : SameLook f h :=
  fun P π d => (h1 P π d).trans (h2 P π d)

/-! ### A painter -/

/-- What a simple painter draws: elements, with all that is known of them, and text. -/
inductive Mark
  | elem (e : EId) (x : Option Value) (w : Option Value) (fill : Option Value) (ctm : Transform) (opacity : ℚ)
  | text (s : String) (opacity : ℚ)
  deriving DecidableEq, Repr

def Mark.fade (q : ℚ) : Mark → Mark
  | .elem e x w f t o => .elem e x w f t (q * o)
  | .text s o => .text s (q * o)

def Seen.value {P : Type} : Option (Seen P) → Option Value
  | some (.plain v) => some v
  | _ => none

/-- The paint: a value, no paint if the gradient has no stops, a colour if it has one opaque stop. -/
def Seen.ink : Option (Seen (List Mark)) → Option Value
  | some (.plain v) => some v
  | some (.ref []) => some (.kw .none)
  | some (.ref [.elem .stop _ o c _ _]) => if o = some (.number 1) then c else none
  | _ => none

def Seen.blank : Option (Seen (List Mark)) → Bool
  | some (.ref []) => true
  | _ => false

/-- A painter that writes down what it is asked to draw; of masks, clip paths and filters it only records those that show
nothing.  It shows that the laws can be met. -/
def scribe : Painter (List Mark) where
  empty := []
  over p q := p ++ q
  fade q p := p.map (Mark.fade q)
  effect _ c f _ p := if Seen.blank c || Seen.blank f then [] else p
  cond _ v := decide (v ≠ .str "no")
  measure l := l.num
  chars s _ _ := [.text s 1]
  frame _ _ _ _ p := p
  paint e as st t l :=
    let kids := (l.map (·.pic)).flatten
    let mark := Mark.elem e (Seen.value (as (.id .x))) (Seen.value (as (.id .width))) (Seen.ink (st .fill)) t 1
    match e with
    | .clipPath => kids
    | .linearGradient | .radialGradient => if Seen.isRef (as (.id .xlinkHref)) then mark :: kids else kids
    | .filter => match as (.id .width) with
      | some (.plain (.length ⟨0, _⟩)) => []
      | _ => if Seen.isRef (as (.id .xlinkHref)) then mark :: kids else kids
    | .stop => [.elem .stop (Seen.value (as (.id .offset))) (Seen.value (as (.id .stopOpacity))) (Seen.value (as (.id .stopColor))) t 1]
    | .path => match as (.id .d) with
      | some (.plain (.path (_ :: _))) => mark :: kids
      | _ => []
    | .rect => match as (.id .width), as (.id .height) with
      | some (.plain (.length ⟨0, _⟩)), _ | _, some (.plain (.length ⟨0, _⟩)) => []
      | _, _ => mark :: kids
    | _ => mark :: kids
  foreign _ _ _ _ _ := []
  empty_over _ := rfl
  over_empty p := List.append_nil p
  over_assoc := List.append_assoc
  fade_one p := by
    have : Mark.fade 1 = id := by funext x; cases x <;> simp [Mark.fade]
    rw [this, List.map_id]
  fade_fade a b p := by
    rw [List.map_map]
    congr 1
    funext x
    cases x <;> simp [Mark.fade, mul_assoc]
  fade_empty _ := rfl
  no_effect m c f t p _ hc hf := by
    have h : ∀ x : Option (Seen (List Mark)), Seen.isRef x = false → Seen.blank x = false := by
      intro x hx
      match x with
      | none | some (.plain _) => rfl
      | some (.ref _) => cases hx
    simp [h c hc, h f hf]
  effect_empty _ _ _ _ _ := ite_self _
  measure_user _ := rfl
  paint_skip e as st t l x l' _ _ h := by
    simp [h]
  paint_desc e as st t l x l' _ h := by
    simp [h]
  no_path as st t l h := by
    dsimp only
    split
    next s p hp => exact absurd hp (h s p)
    next => rfl
  no_rect as st t l u h := by
    dsimp only
    split
    · rfl
    · rfl
    next h1 h2 => exact (h.elim (h1 u) (h2 u)).elim
  no_clip _ _ _ := rfl
  clip_all m f t p := by simp [Seen.blank]
  no_filter as st t h := by
    simp only [h]
    split <;> simp
  filter_all m c t p := by simp [Seen.blank]
  paint_none e as st t l a q ha h hq := by
    obtain rfl : q = [] := by
      obtain ⟨e', as', st', t', he, hx, rfl⟩ := hq
      rcases he with rfl | rfl <;> simp [hx]
    have : Seen.ink (Function.update st a (some (.plain (.kw .none))) .fill) = Seen.ink (st .fill) := by
      rcases ha with rfl | rfl
      · simp [h, Seen.ink]
      · rfl
    simp only [this]
  chars_none _ _ _ _ _ _ _ _ := rfl
  foreign_none _ _ _ _ _ _ _ _ _ _ := rfl
  paint_solid e as st t l a q r g b ha h hq := by
    have : Seen.ink (Function.update st a (some (.plain (.color r g b))) .fill) = Seen.ink (st .fill) := by
      rcases ha with rfl | rfl
      · obtain ⟨e', as', st', t', ch, as2, st2, t2, l2, he, hx, hc, ho, rfl⟩ := hq
        rw [h]
        rcases he with rfl | rfl <;> simp [Seen.ink, hx, hc, ho, Seen.value]
      · rfl
    simp only [this]
  chars_solid _ _ _ _ _ _ _ _ _ _ _ := rfl
  foreign_solid _ _ _ _ _ _ _ _ _ _ _ _ _ := rfl

end Verif.Render
