import Verif.DefaultAttrs
/-
Model of `src/task/rm_needless_attrs.rs`, and property C44.
-/
namespace Verif.Needless
open Verif.Dom Verif.Spec Verif.Simple
open Verif.DefaultAttrs (hasOverflow len)

/-! ### The model -/

/-- `is_fill` of svgdom. -/
def isFill : AId → Bool
  | .fill | .fillOpacity | .fillRule => true
  | _ => false

/-- `is_stroke` of svgdom. -/
def isStroke : AId → Bool
  | .stroke | .strokeDasharray | .strokeDashoffset | .strokeLinecap | .strokeLinejoin | .strokeMiterlimit | .strokeOpacity
  | .strokeWidth => true
  | _ => false

/-- `is_conditional_processing`, `is_core` of svgdom (the id is not an attribute in the model). -/
def isConditionalOrCore : AId → Bool
  | .requiredExtensions | .requiredFeatures | .systemLanguage | .xmlBase | .xmlLang | .xmlSpace => true
  | _ => false

/-- `is_graphical_event` of svgdom. -/
def isGraphicalEvent : AId → Bool
  | .onactivate | .onclick | .onfocusin | .onfocusout | .onload | .onmousedown | .onmousemove | .onmouseout
  | .onmouseover | .onmouseup => true
  | _ => false

/-- A test on the attribute id; `d` for attributes without one. -/
def onId (p : AId → Bool) (d : Bool) : AName → Bool
  | .id a => p a
  | .name _ => d

/-- `attributes_mut().retain(..)`, with a test on the attribute id that attributes without one do not pass. -/
def retain (n : Node) (p : AId → Bool) : Node :=
  { n with attrs := n.attrs.filter (fun x => onId p false x.name) }

/-- `process_clip_path` for one child, `src/task/rm_needless_attrs.rs:71-81` -/
def clipChild (n : Node) : Node :=
  { n with attrs := n.attrs.filter (fun x => onId (fun a => !(isFill a || isStroke a || decide (a = .opacity))) true x.name) }

/-- `is_basic_shapes_attr`, `src/task/rm_needless_attrs.rs:137-149` -/
def isBasicShapesAttr (a : AId) : Bool :=
  isConditionalOrCore a || isGraphicalEvent a || a.isPresentation || decide (a = .class) || decide (a = .style) ||
    decide (a = .externalResourcesRequired) || decide (a = .transform)

/-- `process_rect` … `process_poly`, `src/task/rm_needless_attrs.rs:84-135` -/
def shapeAttrs : EId → Option (List AId)
  | .rect => some [.x, .y, .width, .height, .rx, .ry]
  | .circle => some [.cx, .cy, .r]
  | .ellipse => some [.cx, .cy, .rx, .ry]
  | .line => some [.x1, .y1, .x2, .y2]
  | .polyline | .polygon => some [.points]
  | _ => none

/-- The `match` on the tag, `src/task/rm_needless_attrs.rs:35-43` -/
def processShape (e : EId) (n : Node) : Node :=
  match shapeAttrs e with
  | some l => retain n (fun a => isBasicShapesAttr a || decide (a ∈ l))
  | none => n

/-- `process_fill`, `src/task/rm_needless_attrs.rs:151-172` -/
def processFill (leaf : Bool) (n : Node) : Node :=
  if leaf then
    let n1 := if n.get .fill = some (.kw .none) then (n.rm .fillRule).rm .fillOpacity else n
    if n1.get .fillOpacity = some (.number 0) then ((n1.set .fill (.kw .none)).rm .fillRule).rm .fillOpacity else n1
  else n

/-- `STROKE_ATTRIBUTES`, `src/task/rm_needless_attrs.rs:174-182` -/
def strokeAttributes : List AId :=
  [.strokeWidth, .strokeLinecap, .strokeLinejoin, .strokeMiterlimit, .strokeDasharray, .strokeDashoffset, .strokeOpacity]

/-- `remove_attributes` of svgdom. -/
def rmAll (n : Node) (l : List AId) : Node := l.foldl (fun n a => n.rm a) n

/-- `is_invisible`, `src/task/rm_needless_attrs.rs:185-210`; `has_attributes` of svgdom: any of them. -/
def strokeInvisible (n : Node) : Bool :=
  if n.has .marker || n.has .markerStart || n.has .markerMid || n.has .markerEnd then false
  else (match n.get .strokeWidth with | some (.length l) => decide (l.num = 0) | _ => false) ||
    (match n.get .strokeOpacity with | some (.number q) => decide (q = 0) | _ => false)

/-- `process_stroke`, `src/task/rm_needless_attrs.rs:184-243`; `anc` are the ancestors, nearest first. -/
def processStroke (leaf : Bool) (anc : List Node) (n : Node) : Node :=
  if leaf then
    if strokeInvisible n then
      let n1 := rmAll (n.rm .stroke) strokeAttributes
      match anc.find? (fun m => m.has .stroke) with
      | some m => if m.get .stroke ≠ some (.kw .none) then n1.set .stroke (.kw .none) else n1
      | none => n1
    else if n.get .stroke = some (.kw .none) then
      let n1 := rmAll n strokeAttributes
      match anc.find? (fun m => m.has .stroke) with
      | some _ => n1
      | none => n1.rm .stroke
    else n
  else n

/-- `process_overflow`, `src/task/rm_needless_attrs.rs:245-262` -/
def processOverflow (e : EId) (n : Node) : Node :=
  match e with
  | .svg | .symbol | .image | .foreignObject | .pattern | .marker => n
  | _ => n.rm .overflow

/-- "'enable-background' is only applicable to container elements", `src/task/rm_needless_attrs.rs:49-53` -/
def processBackground (e : EId) (n : Node) : Node := if e.isContainer then n else n.rm .enableBackground

/-- The loop body for an SVG element, `src/task/rm_needless_attrs.rs:34-59`, without what it does to the children of a clip
path. -/
def element (anc : List Node) (leaf : Bool) (e : EId) (n : Node) : Node :=
  processOverflow e (processStroke leaf anc (processFill leaf (processBackground e ((processShape e n).rm .color))))

/-- What happens to a node when its parent is visited, `src/task/rm_needless_attrs.rs:36`, `:61-65` -/
def clipStep (used : Nat → Bool) (anc : List Node) (n : Node) : Node :=
  match anc with
  | p :: _ => if p.isTag .clipPath && !used n.key then clipChild n else n
  | [] => n

/-- All that happens to a node: first, as a child of a clip path, when the clip path is visited; then when it is visited
itself.  `used` is `is_used` (taken from the document before the pass; the pass removes references to clip path children only
from elements that abuse one as a paint server). -/
def body (used : Nat → Bool) (anc : List Node) (leaf : Bool) (n : Node) : Node :=
  match n.kind with
  | .elem e => element anc leaf e (clipStep used anc n)
  | _ => clipStep used anc n

/-- The loop over the tree, `src/task/rm_needless_attrs.rs:33-34` -/
def go (used : Nat → Bool) : List Node → Forest → Forest
  | _, .nil => .nil
  | anc, .cons n k r =>
    .cons (body used anc k.isEmpty n) (go used (body used anc k.isEmpty n :: anc) k) (go used anc r)

/-- `remove_needless_attributes`, `src/task/rm_needless_attrs.rs:33-60` -/
def removeNeedless (f : Forest) : Forest := go f.isUsed [] f

/-! ### Specification -/

/-- A place in the tree: a node, its ancestors (nearest first), and whether it has no children. -/
structure Place where
  node : Node
  anc : List Node
  leaf : Bool

def places (anc : List Node) : Forest → List Place
  | .nil => []
  | .cons n k r => ⟨n, anc, k.isEmpty⟩ :: (places (n :: anc) k ++ places anc r)

/-- The value of an inherited property: the nearest one. -/
def near (a : AId) (chain : List Node) : Option Value := chain.findSome? (fun n => n.get a)

/-- How the inside of a shape is painted; `none` if it is not. -/
def fillLook (chain : List Node) : Option (Value × Value × Option Value) :=
  let fill := (near .fill chain).getD (.color 0 0 0)
  let opacity := (near .fillOpacity chain).getD (.number 1)
  if fill = .kw .none ∨ opacity = .number 0 then none else some (fill, opacity, near .fillRule chain)

def zeroWidth : Option Value → Bool
  | some (.length l) => decide (l.num = 0)
  | _ => false

/-- How the outline of a shape is painted; `none` if it is not. -/
def strokeLook (chain : List Node) : Option (Value × List (Option Value)) :=
  let stroke := (near .stroke chain).getD (.kw .none)
  if stroke = .kw .none ∨ (near .strokeOpacity chain) = some (.number 0) ∨ zeroWidth (near .strokeWidth chain) then none
  else some (stroke, [near .strokeWidth chain, near .strokeOpacity chain, near .strokeLinecap chain, near .strokeLinejoin chain,
    near .strokeMiterlimit chain, near .strokeDasharray chain, near .strokeDashoffset chain])

/-- The attributes that take part in the painting of inside and outline. -/
def isPaint (a : AId) : Bool := isFill a || isStroke a

/-- The attributes SVG 1.1 gives the basic shapes (9.2 to 9.7). -/
def shapeHas : EId → AId → Bool
  | .rect, .x | .rect, .y | .rect, .width | .rect, .height | .rect, .rx | .rect, .ry
  | .circle, .cx | .circle, .cy | .circle, .r
  | .ellipse, .cx | .ellipse, .cy | .ellipse, .rx | .ellipse, .ry
  | .line, .x1 | .line, .x2 | .line, .y1 | .line, .y2
  | .polyline, .points | .polygon, .points => true
  | _, .class | _, .style | _, .externalResourcesRequired | _, .transform | _, .requiredFeatures | _, .requiredExtensions
  | _, .systemLanguage | _, .xmlBase | _, .xmlLang | _, .xmlSpace | _, .onactivate | _, .onclick | _, .onfocusin
  | _, .onfocusout | _, .onload | _, .onmousedown | _, .onmousemove | _, .onmouseout | _, .onmouseover | _, .onmouseup => true
  | _, a => a.isPresentation

/-- The attribute has no effect on the element: it is not one of a basic shape's attributes, or `enable-background` outside
containers, or `overflow` on an element without a viewport, or `color`, which nothing refers to once `currentColor` is
resolved; or it is about painting and the element is a part of a clip path and of nothing else. -/
def NoEffect (used : Nat → Bool) (x : Place) (b : AName) : Prop :=
  (∃ e, x.node.kind = .elem e ∧ e.isBasicShape = true ∧ ∀ a, b = .id a → shapeHas e a = false) ∨
  (∃ e, x.node.kind = .elem e ∧ e.isContainer = false ∧ b = .id .enableBackground) ∨
  (∃ e, x.node.kind = .elem e ∧ hasOverflow e = false ∧ b = .id .overflow) ∨
  (∃ e, x.node.kind = .elem e ∧ b = .id .color) ∨
  ((∃ p, x.anc.head? = some p ∧ p.kind = .elem .clipPath) ∧ used x.node.key = false ∧ ∃ a, b = .id a ∧ (isPaint a = true ∨ a = .opacity))

/-- The element is inside a clip path, where only outlines count. -/
def InClip (x : Place) : Prop := ∃ p ∈ x.anc, p.kind = .elem .clipPath

/-- What the pass may do to an element. -/
structure NeedlessGone (used : Nat → Bool) (x y : Place) : Prop where
  same : y.node.key = x.node.key ∧ y.node.kind = x.node.kind ∧ y.node.id = x.node.id ∧ y.leaf = x.leaf
  /-- Attributes without effect go; so may those about painting of an element without children. -/
  attrs : ∀ b, NoEffect used x b ∨ (x.leaf = true ∧ ∃ a, b = .id a ∧ isPaint a = true) ∨
    getAttr y.node.attrs b = getAttr x.node.attrs b
  /-- The painting stays the same. -/
  fill : InClip x ∨ fillLook (y.node :: y.anc) = fillLook (x.node :: x.anc)
  stroke : InClip x ∨ strokeLook (y.node :: y.anc) = strokeLook (x.node :: x.anc)

/-! ### Proof -/

theorem getAttr_filter (as : List Attr) (p : AName → Bool) (b : AName) :
    getAttr (as.filter (fun x => p x.name)) b = if p b then getAttr as b else none := by
  unfold getAttr
  induction as with
  | nil => simp
  | cons x t ih =>
    rw [List.filter_cons]
    by_cases hx : x.name = b
    · subst hx
      cases hp : p x.name with
      | true => simp
      | false => rw [if_neg (by simp)]; simpa [hp] using ih
    · cases hp : p x.name with
      | true =>
        rw [if_pos rfl]
        simp only [List.find?_cons, hx, decide_false]
        exact ih
      | false =>
        rw [if_neg (by simp)]
        simp only [List.find?_cons, hx, decide_false]
        exact ih

theorem getAttr_retain (n : Node) (p : AId → Bool) (b : AName) :
    getAttr (retain n p).attrs b = if onId p false b then getAttr n.attrs b else none :=
  getAttr_filter n.attrs (onId p false) b

theorem getAttr_clipChild (n : Node) (b : AName) :
    getAttr (clipChild n).attrs b =
      if onId (fun a => !(isFill a || isStroke a || decide (a = .opacity))) true b then getAttr n.attrs b else none :=
  getAttr_filter n.attrs (onId (fun a => !(isFill a || isStroke a || decide (a = .opacity))) true) b

theorem getAttr_nodeRm (n : Node) (a : AId) (b : AName) : getAttr (n.rm a).attrs b = if b = .id a then none else getAttr n.attrs b :=
  getAttr_rm n.attrs b (.id a)

theorem getAttr_nodeSet (n : Node) (a : AId) (v : Value) (b : AName) :
    getAttr (n.set a v).attrs b = if b = .id a then some ⟨.id a, v, true⟩ else getAttr n.attrs b :=
  getAttr_put n.attrs ⟨.id a, v, true⟩ b

/-- Key, kind and id. -/
def SameNode (n m : Node) : Prop := m.key = n.key ∧ m.kind = n.kind ∧ m.id = n.id

theorem SameNode.trans {a b c : Node} (h : SameNode a b) (h' : SameNode b c) : SameNode a c :=
  ⟨h'.1.trans h.1, h'.2.1.trans h.2.1, h'.2.2.trans h.2.2⟩
theorem SameNode.refl (a : Node) : SameNode a a := ⟨rfl, rfl, rfl⟩

theorem rmAll_same (n : Node) (l : List AId) : SameNode n (rmAll n l) := by
  unfold rmAll
  induction l generalizing n with
  | nil => exact .refl n
  | cons a t ih => exact (SameNode.trans (b := n.rm a) ⟨rfl, rfl, rfl⟩ (ih (n.rm a)))

theorem getAttr_rmAll (n : Node) (l : List AId) (b : AName) :
    getAttr (rmAll n l).attrs b = if ∃ a ∈ l, b = .id a then none else getAttr n.attrs b := by
  unfold rmAll
  induction l generalizing n with
  | nil => simp
  | cons a t ih =>
    simp only [List.foldl_cons, ih, getAttr_nodeRm]
    by_cases h : b = .id a
    · simp [h]
    · simp [h]

theorem get_rmAll (n : Node) (l : List AId) (a : AId) : (rmAll n l).get a = if a ∈ l then none else n.get a := by
  unfold Node.get
  rw [getAttr_rmAll]
  by_cases h : a ∈ l
  · rw [if_pos ⟨a, h, rfl⟩, if_pos h]; rfl
  · rw [if_neg (by rintro ⟨a', h', e⟩; cases e; exact h h'), if_neg h]

theorem mem_strokeAttributes {a : AId} (h : a ∈ strokeAttributes) : isStroke a = true := by
  have : ∀ a ∈ strokeAttributes, isStroke a = true := by decide
  exact this a h

theorem processFill_same (leaf : Bool) (n : Node) : SameNode n (processFill leaf n) := by
  unfold processFill
  simp only
  repeat' split
  all_goals exact ⟨rfl, rfl, rfl⟩

theorem processFill_attrs (leaf : Bool) (n : Node) (b : AName) :
    (leaf = true ∧ ∃ a, b = .id a ∧ isFill a = true) ∨ getAttr (processFill leaf n).attrs b = getAttr n.attrs b := by
  cases leaf with
  | false => exact .inr rfl
  | true =>
    by_cases hb : ∃ a, b = .id a ∧ isFill a = true
    · exact .inl ⟨rfl, hb⟩
    · right
      have h1 : b ≠ .id .fill := fun e => hb ⟨_, e, rfl⟩
      have h2 : b ≠ .id .fillOpacity := fun e => hb ⟨_, e, rfl⟩
      have h3 : b ≠ .id .fillRule := fun e => hb ⟨_, e, rfl⟩
      unfold processFill
      simp only [if_true]
      repeat' split
      all_goals simp [getAttr_nodeRm, getAttr_nodeSet, h1, h2, h3]

theorem rm_same (n : Node) (a : AId) : SameNode n (n.rm a) := ⟨rfl, rfl, rfl⟩
theorem set_same (n : Node) (a : AId) (v : Value) : SameNode n (n.set a v) := ⟨rfl, rfl, rfl⟩

theorem processStroke_same (leaf : Bool) (anc : List Node) (n : Node) : SameNode n (processStroke leaf anc n) := by
  cases leaf with
  | false => exact .refl n
  | true =>
    have h1 : SameNode n (rmAll (n.rm .stroke) strokeAttributes) := (rm_same n .stroke).trans (rmAll_same _ _)
    have h2 : SameNode n (rmAll n strokeAttributes) := rmAll_same _ _
    unfold processStroke
    generalize rmAll (n.rm .stroke) strokeAttributes = m1 at *
    generalize rmAll n strokeAttributes = m2 at *
    simp only [if_true]
    split
    · split
      · split
        · exact h1.trans (set_same _ _ _)
        · exact h1
      · exact h1
    · split
      · split
        · exact h2
        · exact h2.trans (rm_same _ _)
      · exact .refl n

theorem processStroke_attrs (leaf : Bool) (anc : List Node) (n : Node) (b : AName) :
    (leaf = true ∧ ∃ a, b = .id a ∧ isStroke a = true) ∨ getAttr (processStroke leaf anc n).attrs b = getAttr n.attrs b := by
  cases leaf with
  | false => exact .inr rfl
  | true =>
    by_cases hb : ∃ a, b = .id a ∧ isStroke a = true
    · exact .inl ⟨rfl, hb⟩
    · right
      have h1 : b ≠ .id .stroke := fun e => hb ⟨_, e, rfl⟩
      have h2 : ¬ ∃ a ∈ strokeAttributes, b = .id a := by
        rintro ⟨a, ha, e⟩; exact hb ⟨a, e, mem_strokeAttributes ha⟩
      unfold processStroke
      simp only [if_true]
      repeat' split
      all_goals simp only [getAttr_nodeRm, getAttr_nodeSet, getAttr_rmAll, h1, h2, if_false]

theorem near_cons (a : AId) (n : Node) (t : List Node) : near a (n :: t) = (n.get a).or (near a t) := by
  unfold near
  rw [List.findSome?_cons]
  cases n.get a <;> rfl

theorem near_stroke {anc : List Node} :
    (match anc.find? (fun m => m.has .stroke) with | some m => m.get .stroke | none => none) = near .stroke anc := by
  unfold near
  induction anc with
  | nil => rfl
  | cons m t ih =>
    rw [List.find?_cons, List.findSome?_cons]
    rw [Node.has_eq]
    cases h : m.get .stroke with
    | none => simpa using ih
    | some v => simp [h]

theorem fillLook_congr {c c' : List Node} (h : ∀ a, isFill a = true → near a c' = near a c) : fillLook c' = fillLook c := by
  unfold fillLook
  rw [h .fill rfl, h .fillOpacity rfl, h .fillRule rfl]

theorem strokeLook_congr {c c' : List Node} (h : ∀ a, isStroke a = true → near a c' = near a c) : strokeLook c' = strokeLook c := by
  unfold strokeLook
  rw [h .stroke rfl, h .strokeOpacity rfl, h .strokeWidth rfl, h .strokeLinecap rfl, h .strokeLinejoin rfl,
    h .strokeMiterlimit rfl, h .strokeDasharray rfl, h .strokeDashoffset rfl]

theorem processFill_look (leaf : Bool) (n : Node) (anc : List Node) :
    fillLook (processFill leaf n :: anc) = fillLook (n :: anc) := by
  cases leaf with
  | false => rfl
  | true =>
    unfold processFill
    simp only [if_true]
    by_cases h1 : n.get .fill = some (.kw .none)
    · rw [if_pos h1]
      have h2 : ((n.rm .fillRule).rm .fillOpacity).get .fillOpacity ≠ some (.number 0) := by simp
      rw [if_neg h2]
      unfold fillLook
      simp [near_cons, h1]
    · rw [if_neg h1]
      by_cases h2 : n.get .fillOpacity = some (.number 0)
      · rw [if_pos h2]
        unfold fillLook
        simp [near_cons, h2]
      · rw [if_neg h2]

theorem processStroke_look (leaf : Bool) (n : Node) (anc : List Node) :
    strokeLook (processStroke leaf anc n :: anc) = strokeLook (n :: anc) := by
  cases leaf with
  | false => rfl
  | true =>
    have hnear := near_stroke (anc := anc)
    unfold processStroke
    simp only [if_true]
    cases hi : strokeInvisible n with
    | true =>
      simp only [if_true]
      have hold : strokeLook (n :: anc) = none := by
        unfold strokeInvisible at hi
        split at hi
        · cases hi
        · simp only [Bool.or_eq_true] at hi
          unfold strokeLook
          simp only [near_cons]
          rcases hi with hi | hi
          · cases hw : n.get .strokeWidth with
            | none => rw [hw] at hi; cases hi
            | some v =>
              rw [hw] at hi
              cases v <;> simp_all [zeroWidth]
          · cases hw : n.get .strokeOpacity with
            | none => rw [hw] at hi; cases hi
            | some v =>
              rw [hw] at hi
              cases v <;> simp_all
      rw [hold]
      have hmem : AId.stroke ∉ strokeAttributes := by decide
      cases hf : anc.find? (fun m => m.has .stroke) with
      | none =>
        rw [hf] at hnear
        simp only at hnear
        unfold strokeLook
        simp [near_cons, get_rmAll, hmem, ← hnear]
      | some m =>
        rw [hf] at hnear
        simp only at hnear ⊢
        split
        · unfold strokeLook
          simp [near_cons]
        · rename_i hm
          have hm : m.get .stroke = some (.kw .none) := by simpa using hm
          unfold strokeLook
          simp [near_cons, get_rmAll, hmem, ← hnear, hm]
    | false =>
      simp only [Bool.false_eq_true, if_false]
      by_cases hs : n.get .stroke = some (.kw .none)
      · rw [if_pos hs]
        have hold : strokeLook (n :: anc) = none := by
          unfold strokeLook; simp [near_cons, hs]
        rw [hold]
        have hmem : AId.stroke ∉ strokeAttributes := by decide
        cases hf : anc.find? (fun m => m.has .stroke) with
        | none =>
          rw [hf] at hnear
          simp only at hnear
          unfold strokeLook
          simp [near_cons, ← hnear]
        | some m =>
          unfold strokeLook
          simp [near_cons, get_rmAll, hmem, hs]
      · rw [if_neg hs]

theorem shapeAttrs_has {e : EId} {l : List AId} (h : shapeAttrs e = some l) (a : AId) :
    (isBasicShapesAttr a || decide (a ∈ l)) = shapeHas e a := by
  cases e <;> simp only [shapeAttrs] at h <;> cases h <;> cases a <;> decide

theorem shapeAttrs_some {e : EId} {l : List AId} (h : shapeAttrs e = some l) : e.isBasicShape = true := by
  cases e <;> simp only [shapeAttrs] at h <;> first | rfl | cases h

/-- The first steps: they touch attributes without effect only. -/
theorem first_attrs {used : Nat → Bool} {x : Place} {e : EId} (hk : x.node.kind = .elem e) {n : Node} (b : AName)
    (hn : NoEffect used x b ∨ getAttr n.attrs b = getAttr x.node.attrs b) :
    NoEffect used x b ∨ getAttr (processBackground e ((processShape e n).rm .color)).attrs b = getAttr x.node.attrs b := by
  rcases hn with hn | hn
  · exact .inl hn
  by_cases hc : b = .id .color
  · exact .inl (.inr (.inr (.inr (.inl ⟨e, hk, hc⟩))))
  have h2 : NoEffect used x b ∨ getAttr (processShape e n).attrs b = getAttr x.node.attrs b := by
    unfold processShape
    cases hs : shapeAttrs e with
    | none => exact .inr hn
    | some l =>
      simp only [getAttr_retain]
      by_cases hb : onId (fun a => isBasicShapesAttr a || decide (a ∈ l)) false b = true
      · rw [if_pos hb]; exact .inr hn
      · left; left
        refine ⟨e, hk, shapeAttrs_some hs, ?_⟩
        rintro a rfl
        rw [← shapeAttrs_has hs]
        simpa [onId] using hb
  rcases h2 with h2 | h2
  · exact .inl h2
  unfold processBackground
  split
  · right; rw [getAttr_nodeRm, if_neg hc]; exact h2
  · rename_i he
    by_cases hb : b = .id .enableBackground
    · exact .inl (.inr (.inl ⟨e, hk, by simpa using he, hb⟩))
    · right; rw [getAttr_nodeRm, if_neg hb, getAttr_nodeRm, if_neg hc]; exact h2

theorem processOverflow_attrs (e : EId) (n : Node) (b : AName) :
    (hasOverflow e = false ∧ b = .id .overflow) ∨ getAttr (processOverflow e n).attrs b = getAttr n.attrs b := by
  unfold processOverflow
  by_cases hb : b = .id .overflow
  · split
    all_goals first
      | exact .inr rfl
      | skip
    left
    refine ⟨?_, hb⟩
    cases e <;> simp_all [hasOverflow]
  · right
    split
    all_goals first
      | rfl
      | (rw [getAttr_nodeRm, if_neg hb])

theorem shapeHas_paint (e : EId) (a : AId) (h : isPaint a = true) : shapeHas e a = true := by
  have hp : a.isPresentation = true := by revert h; cases a <;> decide
  unfold shapeHas
  split <;> first | rfl | exact hp

theorem noEffect_paint {used : Nat → Bool} {x : Place} {a : AId} (hp : isPaint a = true) (hc : ¬ InClip x) : ¬ NoEffect used x (.id a) := by
  rintro (⟨e, _, _, h⟩ | ⟨e, _, _, h⟩ | ⟨e, _, _, h⟩ | ⟨e, _, h⟩ | ⟨⟨p, h, hk⟩, _⟩)
  · have h := h a rfl; rw [shapeHas_paint e a hp] at h; cases h
  · cases h; revert hp; decide
  · cases h; revert hp; decide
  · cases h; revert hp; decide
  · exact hc ⟨p, List.mem_of_head? h, hk⟩

theorem element_same (anc : List Node) (leaf : Bool) (e : EId) (n : Node) : SameNode n (element anc leaf e n) := by
  unfold element
  refine SameNode.trans (b := processBackground e ((processShape e n).rm .color)) ?_
    (((processFill_same leaf _).trans (processStroke_same leaf anc _)).trans ?_)
  · unfold processBackground processShape
    repeat' split
    all_goals exact ⟨rfl, rfl, rfl⟩
  · unfold processOverflow
    split <;> exact ⟨rfl, rfl, rfl⟩

theorem get_of_attr {n m : Node} {a : AId} (h : getAttr m.attrs (.id a) = getAttr n.attrs (.id a)) : m.get a = n.get a := by
  unfold Node.get; rw [h]

theorem not_both {a : AId} (h : isFill a = true) : ¬ isStroke a = true := by
  cases a <;> first | (cases h; done) | decide

/-- What is known about the ancestors: outside clip paths, painting is inherited as before. -/
def AncOk (anc anc' : List Node) : Prop :=
  anc'.map (·.kind) = anc.map (·.kind) ∧
    ((∃ p ∈ anc, p.kind = .elem .clipPath) ∨ ∀ a, isPaint a = true → near a anc' = near a anc)

theorem head_clip {anc anc' : List Node} (h : anc'.map (·.kind) = anc.map (·.kind)) {p' : Node} (hp : anc'.head? = some p')
    (hk : p'.kind = .elem .clipPath) : ∃ p, anc.head? = some p ∧ p.kind = .elem .clipPath := by
  cases anc' with
  | nil => cases hp
  | cons q t =>
    cases anc with
    | nil => cases h
    | cons p s =>
      simp only [List.head?_cons, Option.some.injEq] at hp
      subst hp
      simp only [List.map_cons, List.cons.injEq] at h
      exact ⟨p, rfl, h.1 ▸ hk⟩

theorem body_sound {used : Nat → Bool} {anc anc' : List Node} {leaf : Bool} {n : Node} (hA : AncOk anc anc') :
    NeedlessGone used ⟨n, anc, leaf⟩ ⟨body used anc' leaf n, anc', leaf⟩ := by
  obtain ⟨n1, hn1, hs1, ha1⟩ : ∃ n1, clipStep used anc' n = n1 ∧ SameNode n n1 ∧
      ∀ b, NoEffect used ⟨n, anc, leaf⟩ b ∨ getAttr n1.attrs b = getAttr n.attrs b := by
    refine ⟨_, rfl, ?_, ?_⟩
    · unfold clipStep
      split
      · split <;> exact ⟨rfl, rfl, rfl⟩
      · exact ⟨rfl, rfl, rfl⟩
    · intro b
      unfold clipStep
      cases anc' with
      | nil => exact .inr rfl
      | cons p t =>
        simp only
        split
        · rename_i hc
          simp only [Bool.and_eq_true, Node.isTag_iff] at hc
          rw [getAttr_clipChild]
          by_cases hb : onId (fun a => !(isFill a || isStroke a || decide (a = .opacity))) true b = true
          · rw [if_pos hb]; exact .inr rfl
          · left; right; right; right; right
            refine ⟨head_clip hA.1 rfl hc.1, by simpa using hc.2, ?_⟩
            cases b with
            | id a =>
              refine ⟨a, rfl, ?_⟩
              by_cases ho : a = .opacity
              · exact .inr ho
              · left
                unfold isPaint
                simpa [onId, ho, Bool.or_eq_true, or_iff_not_imp_left] using hb
            | name s => simp [onId] at hb
        · exact .inr rfl
  by_cases hel : ∃ e, n.kind = .elem e
  · obtain ⟨e, hk⟩ := hel
    have hb : body used anc' leaf n = element anc' leaf e n1 := by
      unfold body; simp only [hn1, hk]
    rw [hb]
    have hattrs : ∀ b, NoEffect used ⟨n, anc, leaf⟩ b ∨ (leaf = true ∧ ∃ a, b = .id a ∧ isPaint a = true) ∨
        getAttr (element anc' leaf e n1).attrs b = getAttr n.attrs b := by
      intro b
      unfold element
      rcases processOverflow_attrs e (processStroke leaf anc' (processFill leaf
        (processBackground e ((processShape e n1).rm .color)))) b with ⟨ho, hb⟩ | ho
      · exact .inl (.inr (.inr (.inl ⟨e, hk, ho, hb⟩)))
      rw [ho]
      rcases processStroke_attrs leaf anc' (processFill leaf (processBackground e ((processShape e n1).rm .color))) b with
        ⟨hl, a, ha, hp⟩ | h2
      · exact .inr (.inl ⟨hl, a, ha, by simp [isPaint, hp]⟩)
      rw [h2]
      rcases processFill_attrs leaf (processBackground e ((processShape e n1).rm .color)) b with ⟨hl, a, ha, hp⟩ | h3
      · exact .inr (.inl ⟨hl, a, ha, by simp [isPaint, hp]⟩)
      rw [h3]
      rcases first_attrs (x := ⟨n, anc, leaf⟩) hk b (ha1 b) with h4 | h4
      · exact .inl h4
      · exact .inr (.inr h4)
    refine ⟨⟨((hs1.trans (element_same ..)).1), (hs1.trans (element_same ..)).2.1, (hs1.trans (element_same ..)).2.2, rfl⟩,
      hattrs, ?_, ?_⟩
    · by_cases hc : InClip ⟨n, anc, leaf⟩
      · exact .inl hc
      right
      have hanc : ∀ a, isPaint a = true → near a anc' = near a anc := by
        rcases hA.2 with h | h
        · exact absurd h hc
        · exact h
      have hfirst : ∀ a, isPaint a = true → (processBackground e ((processShape e n1).rm .color)).get a = n.get a := by
        intro a ha
        rcases first_attrs (x := ⟨n, anc, leaf⟩) hk (.id a) (ha1 (.id a)) with h | h
        · exact absurd h (noEffect_paint ha hc)
        · exact get_of_attr h
      simp only
      unfold element
      have e1 : fillLook (processOverflow e (processStroke leaf anc' (processFill leaf
          (processBackground e ((processShape e n1).rm .color)))) :: anc') =
          fillLook (processFill leaf (processBackground e ((processShape e n1).rm .color)) :: anc') := by
        apply fillLook_congr
        intro a ha
        simp only [near_cons]
        congr 1
        apply get_of_attr
        rcases processOverflow_attrs e (processStroke leaf anc' (processFill leaf
          (processBackground e ((processShape e n1).rm .color)))) (.id a) with ⟨_, h⟩ | h
        · cases h; cases ha
        · rw [h]
          rcases processStroke_attrs leaf anc' (processFill leaf (processBackground e ((processShape e n1).rm .color))) (.id a)
            with ⟨_, a', h', hp⟩ | h'
          · cases h'; exact absurd hp (not_both ha)
          · exact h'
      rw [e1, processFill_look]
      apply fillLook_congr
      intro a ha
      have ha : isPaint a = true := by simp [isPaint, ha]
      simp only [near_cons, hfirst a ha, hanc a ha]
    · by_cases hc : InClip ⟨n, anc, leaf⟩
      · exact .inl hc
      right
      have hanc : ∀ a, isPaint a = true → near a anc' = near a anc := by
        rcases hA.2 with h | h
        · exact absurd h hc
        · exact h
      have hfirst : ∀ a, isPaint a = true → (processBackground e ((processShape e n1).rm .color)).get a = n.get a := by
        intro a ha
        rcases first_attrs (x := ⟨n, anc, leaf⟩) hk (.id a) (ha1 (.id a)) with h | h
        · exact absurd h (noEffect_paint ha hc)
        · exact get_of_attr h
      simp only
      unfold element
      have e1 : strokeLook (processOverflow e (processStroke leaf anc' (processFill leaf
          (processBackground e ((processShape e n1).rm .color)))) :: anc') =
          strokeLook (processStroke leaf anc' (processFill leaf (processBackground e ((processShape e n1).rm .color))) :: anc') := by
        apply strokeLook_congr
        intro a ha
        simp only [near_cons]
        congr 1
        apply get_of_attr
        rcases processOverflow_attrs e (processStroke leaf anc' (processFill leaf
          (processBackground e ((processShape e n1).rm .color)))) (.id a) with ⟨_, h⟩ | h
        · cases h; cases ha
        · exact h
      rw [e1, processStroke_look]
      apply strokeLook_congr
      intro a ha
      have hp : isPaint a = true := by simp [isPaint, ha]
      simp only [near_cons]
      rw [hanc a hp, ← hfirst a hp]
      congr 1
      apply get_of_attr
      rcases processFill_attrs leaf (processBackground e ((processShape e n1).rm .color)) (.id a) with ⟨_, a', h', hq⟩ | h'
      · cases h'; exact absurd ha (not_both hq)
      · exact h'
  · have hb : body used anc' leaf n = n1 := by
      unfold body
      rw [hn1]
      cases hk : n.kind with
      | elem e => exact absurd ⟨e, hk⟩ hel
      | _ => rfl
    rw [hb]
    refine ⟨⟨hs1.1, hs1.2.1, hs1.2.2, rfl⟩, fun b => (ha1 b).imp id .inr, ?_, ?_⟩
    all_goals
      by_cases hc : InClip ⟨n, anc, leaf⟩
      · exact .inl hc
      right
      have hanc : ∀ a, isPaint a = true → near a anc' = near a anc := by
        rcases hA.2 with h | h
        · exact absurd h hc
        · exact h
      have hn : ∀ a, isPaint a = true → near a (n1 :: anc') = near a (n :: anc) := by
        intro a ha
        rw [near_cons, near_cons, hanc a ha]
        congr 1
        rcases ha1 (.id a) with h | h
        · exact absurd h (noEffect_paint ha hc)
        · exact get_of_attr h
    · exact fillLook_congr (fun a ha => hn a (by simp [isPaint, ha]))
    · exact strokeLook_congr (fun a ha => hn a (by simp [isPaint, ha]))

theorem ancOk_cons {used : Nat → Bool} {anc anc' : List Node} {n : Node} (hA : AncOk anc anc') :
    AncOk (n :: anc) (body used anc' false n :: anc') := by
  have hb := body_sound (used := used) (leaf := false) (n := n) hA
  refine ⟨by simp [hA.1, show (body used anc' false n).kind = n.kind from hb.same.2.1], ?_⟩
  by_cases hc : ∃ p ∈ n :: anc, p.kind = .elem .clipPath
  · exact .inl hc
  right
  have hc' : ¬ ∃ p ∈ anc, p.kind = .elem .clipPath := fun ⟨p, hp, hk⟩ => hc ⟨p, by simp [hp], hk⟩
  rcases hA.2 with h | h
  · exact absurd h hc'
  intro a ha
  rw [near_cons, near_cons, h a ha]
  congr 1
  rcases hb.attrs (.id a) with h | ⟨h, _⟩ | h
  · exact absurd h (noEffect_paint ha hc')
  · cases h
  · exact get_of_attr h

theorem isEmpty_go (used : Nat → Bool) (anc : List Node) (f : Forest) : (go used anc f).isEmpty = f.isEmpty := by
  cases f <;> rfl

theorem go_sound {used : Nat → Bool} {anc anc' : List Node} {f : Forest} (hA : AncOk anc anc') :
    List.Forall₂ (NeedlessGone used) (places anc f) (places anc' (go used anc' f)) ∧ ∀ o, shape o (go used anc' f) = shape o f := by
  induction f generalizing anc anc' with
  | nil => exact ⟨.nil, fun _ => rfl⟩
  | cons n k r ihk ihr =>
    have hb := body_sound (used := used) (leaf := k.isEmpty) (n := n) hA
    have hk : AncOk (n :: anc) (body used anc' k.isEmpty n :: anc') ∨ k = .nil := by
      cases k with
      | nil => exact .inr rfl
      | cons => exact .inl (ancOk_cons hA)
    have h2 := ihr hA
    have h1 : List.Forall₂ (NeedlessGone used) (places (n :: anc) k)
        (places (body used anc' k.isEmpty n :: anc') (go used (body used anc' k.isEmpty n :: anc') k)) ∧
        ∀ o, shape o (go used (body used anc' k.isEmpty n :: anc') k) = shape o k := by
      rcases hk with hk | rfl
      · exact ihk hk
      · exact ⟨.nil, fun _ => rfl⟩
    refine ⟨?_, ?_⟩
    · simp only [go, places, isEmpty_go]
      exact .cons hb (List.rel_append h1.1 h2.1)
    · intro o
      simp only [go, shape, h1.2, h2.2, show (body used anc' k.isEmpty n).key = n.key from hb.same.1]

theorem ancOk_nil : AncOk [] [] := ⟨rfl, .inr fun _ _ => rfl⟩

/-- C44 (partial: not claimed for the copies made by `use` elements, for markers and for content outside SVG; see the
counterexamples): the tree stays; attributes go only if they have no effect on the element, or concern the painting of an element
without children whose inside and outline are painted as before. -/
theorem C44_needless_partial (f : Forest) :
    List.Forall₂ (NeedlessGone f.isUsed) (places [] f) (places [] (removeNeedless f)) ∧ shape none (removeNeedless f) = shape none f :=
  ⟨(go_sound ancOk_nil).1, (go_sound ancOk_nil).2 none⟩

/-! ### Examples and counterexamples -/

def node (k : Nat) (e : EId) (as : List (AId × Value)) : Node :=
  ⟨k, .elem e, "", as.map fun x => ⟨.id x.1, x.2, true⟩⟩

def red : Value := .color 255 0 0

def sample : Forest :=
  .cons (node 0 .svg [(.stroke, red), (.color, red)])
    (.cons (node 1 .rect [(.strokeWidth, len 0 .none), (.cx, len 5 .none), (.fill, red), (.fillOpacity, .number 0)]) .nil
      (.cons (node 2 .clipPath []) (.cons (node 3 .circle [(.fill, red), (.r, len 5 .none)]) .nil .nil) .nil)) .nil

def sampleOut : Forest :=
  .cons (node 0 .svg [(.stroke, red)])
    (.cons (node 1 .rect [(.fill, .kw .none), (.stroke, .kw .none)]) .nil
      (.cons (node 2 .clipPath []) (.cons (node 3 .circle [(.r, len 5 .none)]) .nil .nil) .nil)) .nil

example : removeNeedless sample = sampleOut := by decide +kernel

/-- How the copy of an element `t` is painted that a `use` element `u` with the ancestors `anc` makes (SVG 1.1, 5.6: the copy
inherits from the `use` element). -/
def copyStroke (t u : Node) (anc : List Node) : Option (Value × List (Option Value)) := strokeLook (t :: u :: anc)
def copyFill (t u : Node) (anc : List Node) : Option (Value × Value × Option Value) := fillLook (t :: u :: anc)

/-- `<svg><defs><rect id="r" fill="red"/></defs><use xlink:href="#r" fill-opacity="0"/></svg>` -/
def useFill : Forest :=
  .cons (node 0 .svg []) (.cons (node 1 .defs []) (.cons (node 2 .rect [(.fill, red)]) .nil .nil)
    (.cons (node 3 .use [(.xlinkHref, .link 2), (.fillOpacity, .number 0)]) .nil .nil)) .nil

/-- C44 does not hold for attributes on `use` elements, which the copy inherits: an invisible copy becomes visible. -/
theorem C44_refuted_use : ∃ u : Node, u ∈ (removeNeedless useFill).nodes ∧ u.key = 3 ∧
    copyFill (node 2 .rect [(.fill, red)]) (node 3 .use [(.xlinkHref, .link 2), (.fillOpacity, .number 0)]) [node 0 .svg []] =
      none ∧
    copyFill (node 2 .rect [(.fill, red)]) u [node 0 .svg []] = some (red, .number 1, none) :=
  ⟨node 3 .use [(.xlinkHref, .link 2), (.fill, .kw .none)], by decide +kernel, rfl, by decide +kernel, by decide +kernel⟩

/-- `<svg><defs><rect id="r" stroke="red" stroke-width="0"/></defs><g stroke="red"><use xlink:href="#r"/></g></svg>` -/
def usedStroke : Forest :=
  .cons (node 0 .svg []) (.cons (node 1 .defs [])
    (.cons (node 2 .rect [(.stroke, red), (.strokeWidth, len 0 .none)]) .nil .nil)
    (.cons (node 3 .g [(.stroke, red)]) (.cons (node 4 .use [(.xlinkHref, .link 2)]) .nil .nil) .nil)) .nil

/-- C44 does not hold for the copies of an element: the outline of a copy appears. -/
theorem C44_refuted_copies : ∃ t : Node, t ∈ (removeNeedless usedStroke).nodes ∧ t.key = 2 ∧
    copyStroke (node 2 .rect [(.stroke, red), (.strokeWidth, len 0 .none)]) (node 4 .use [(.xlinkHref, .link 2)])
      [node 3 .g [(.stroke, red)], node 0 .svg []] = none ∧
    (copyStroke t (node 4 .use [(.xlinkHref, .link 2)]) [node 3 .g [(.stroke, red)], node 0 .svg []]).isSome = true :=
  ⟨node 2 .rect [], by decide +kernel, rfl, by decide +kernel, by decide +kernel⟩

/-- The size of the markers of a line: they scale with the stroke width, whether or not there is a stroke (SVG 1.1, 11.6.2). -/
def markerScale (chain : List Node) : Option (Option Value) :=
  if (near .markerEnd chain).isSome then some (near .strokeWidth chain) else none

/-- `<line stroke="none" stroke-width="5" marker-end="url(#m)"/>` -/
def marked : Forest :=
  .cons (node 0 .svg []) (.cons (node 1 .marker []) .nil
    (.cons (node 2 .line [(.stroke, .kw .none), (.strokeWidth, len 5 .none), (.markerEnd, .funcLink 1)]) .nil .nil)) .nil

/-- C44 does not hold for markers: a marker of size 5 gets size 1. -/
theorem C44_refuted_markers : ∃ t : Node, t ∈ (removeNeedless marked).nodes ∧ t.key = 2 ∧
    markerScale [node 2 .line [(.stroke, .kw .none), (.strokeWidth, len 5 .none), (.markerEnd, .funcLink 1)], node 0 .svg []] =
      some (some (len 5 .none)) ∧
    markerScale [t, node 0 .svg []] = some none :=
  ⟨node 2 .line [(.markerEnd, .funcLink 1)], by decide +kernel, rfl, by decide +kernel, by decide +kernel⟩

/-- `<g marker-end="url(#m)"><line stroke="red" stroke-width="0"/></g>` -/
def markedGroup : Forest :=
  .cons (node 0 .svg []) (.cons (node 1 .marker []) .nil
    (.cons (node 2 .g [(.markerEnd, .funcLink 1)])
      (.cons (node 3 .line [(.stroke, red), (.strokeWidth, len 0 .none)]) .nil .nil) .nil)) .nil

/-- The code looks for markers on the element only: with an inherited marker of size 0 the marker appears. -/
theorem C44_refuted_inherited_markers : ∃ t : Node, t ∈ (removeNeedless markedGroup).nodes ∧ t.key = 3 ∧
    markerScale [node 3 .line [(.stroke, red), (.strokeWidth, len 0 .none)], node 2 .g [(.markerEnd, .funcLink 1)],
      node 0 .svg []] = some (some (len 0 .none)) ∧
    markerScale [t, node 2 .g [(.markerEnd, .funcLink 1)], node 0 .svg []] = some none :=
  ⟨node 3 .line [], by decide +kernel, rfl, by decide +kernel, by decide +kernel⟩

/-- `<foreignObject color="red"><p>…</p></foreignObject>` -/
def foreign : Forest :=
  .cons (node 0 .foreignObject [(.color, red)]) (.cons ⟨1, .other "p", "", []⟩ .nil .nil) .nil

/-- C44 does not hold for content outside SVG, which inherits the colour too: the red paragraph loses its colour. -/
theorem C44_refuted_foreign : near .color [⟨1, .other "p", "", []⟩, node 0 .foreignObject [(.color, red)]] = some red ∧
    removeNeedless foreign = .cons (node 0 .foreignObject []) (.cons ⟨1, .other "p", "", []⟩ .nil .nil) .nil ∧
    near .color [⟨1, .other "p", "", []⟩, node 0 .foreignObject []] = none := by decide +kernel

end Verif.Needless
