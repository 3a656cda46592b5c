import Verif.Simple
import Verif.FinalProps
import Verif.ApplyTsProps
import Verif.GradUnitsProps
/-
Model of `src/task/rm_default_attrs.rs`, and property C42.

`check_is_default` of svgdom compares a presentation attribute with a table of initial values.  That table is not part of
/repo, so the model takes it as the parameter `ini`; the theorems hold for every table.
-/
namespace Verif.DefaultAttrs
open Verif.Dom Verif.Spec Verif.Simple

/-! ### The model -/

/-- `AttributeValue::from((num, unit))` -/
def len (q : ℚ) (u : LUnit) : Value := .length ⟨q, u⟩

/-- `is_default`, `src/task/rm_default_attrs.rs:91-231` -/
def isDefault (e : EId) (a : AId) (v : Value) : Bool :=
  if e = .linearGradient || e = .radialGradient then false
  else match a with
  | .x | .y =>
    if e = .glyphRef then false
    else if e = .mask || e = .filter then decide (v = len (-10) .percent)
    else match v with
      | .length l => decide (l = ⟨0, .none⟩)
      | .lengthList l => e = .text && decide (l = [⟨0, .none⟩])
      | _ => false
  | .width | .height =>
    match e with
    | .svg => decide (v = len 100 .percent)
    | .pattern => decide (v = len 0 .none)
    | .mask | .filter => decide (v = len 120 .percent)
    | _ => false
  | .cx | .cy => (e = .circle || e = .ellipse) && decide (v = len 0 .none)
  | .refX | .refY => e = .marker && decide (v = len 0 .none)
  | .x1 | .y1 | .x2 | .y2 => e = .line && decide (v = len 0 .none)
  | .stdDeviation => decide (v = len 0 .none)
  | .unitsPerEm => decide (v = .str "1000")
  | .slope =>
    match v with
    | .str s => (e = .fontFace && s = "0") || s = "1"
    | _ => false
  | .clipPathUnits | .maskContentUnits | .patternContentUnits | .primitiveUnits => decide (v = .kw .userSpaceOnUse)
  | .maskUnits | .patternUnits | .filterUnits => decide (v = .kw .objectBoundingBox)
  | _ => false

/-- "Should this attribute be hidden", `src/task/rm_default_attrs.rs:39-76`; `anc` are the ancestors, nearest first, and
`root` is the key of the root `svg` element.  `none` is the panic of `doc.svg_element().unwrap()`. -/
def toHide (ini : AId → Option Value) (root : Option Nat) (anc : List Node) (n : Node) (e : EId) (a : AId) (v : Value) :
    Option Bool :=
  if a.isPresentation then
    if ini a = some v then
      match anc.find? (fun m => m.has a) with
      | some m => (match getAttr m.attrs (.id a) with | some x => some (!x.visible) | none => some false)
      | none => some true
    else if a = .overflow then
      root.map fun r => if n.key = r then decide (v = .kw .visible) else decide (v = .kw .hidden)
    else some false
  else some (isDefault e a v)

/-- The list of attributes to hide, `src/task/rm_default_attrs.rs:38-77` -/
def rmList (ini : AId → Option Value) (root : Option Nat) (anc : List Node) (n : Node) (e : EId) : List Attr → Option (List AId)
  | [] => some []
  | x :: t =>
    match x.name with
    | .name _ => rmList ini root anc n e t
    | .id a =>
      (toHide ini root anc n e a x.value).bind fun b =>
        (rmList ini root anc n e t).map fun l => if b then a :: l else l

/-- The loop body, `src/task/rm_default_attrs.rs:35-88` -/
def body (ini : AId → Option Value) (root : Option Nat) (anc : List Node) (n : Node) : Option Node :=
  match n.kind with
  | .elem e => (rmList ini root anc n e n.attrs).map (hideAll n)
  | _ => some n

/-- `remove_default_attributes`, `src/task/rm_default_attrs.rs:32-89` -/
def removeDefaults (ini : AId → Option Value) (f : Forest) : Option Forest :=
  f.mapCtx (body ini ((svgElement f).map (·.1.key))) []

/-! ### Specification -/

/-- Elements to which a filter primitive subregion applies (SVG 1.1, 15.7.2). -/
def isPrimitive : EId → Bool
  | .feBlend | .feColorMatrix | .feComponentTransfer | .feComposite | .feConvolveMatrix | .feDiffuseLighting
  | .feDisplacementMap | .feFlood | .feGaussianBlur | .feImage | .feMerge | .feMorphology | .feOffset
  | .feSpecularLighting | .feTile | .feTurbulence => true
  | _ => false

/-- Elements with lists of glyph positions that may be absent. -/
def isTextChunk : EId → Bool
  | .tspan | .tref | .altGlyph | .glyphRef => true
  | _ => false

/-- SVG 1.1: on the element `e`, an attribute `a` with the value `v` means the same as no attribute: the value is the
default, or the element has no such attribute. -/
def meansNothing (e : EId) (a : AId) (v : Value) : Bool :=
  match a with
  | .x | .y =>
    if isPrimitive e || isTextChunk e then false
    else match e with
      | .mask | .filter => decide (v = len (-10) .percent)
      | .svg | .rect | .image | .use | .foreignObject | .pattern | .cursor | .fePointLight | .feSpotLight =>
        decide (v = len 0 .none)
      | .text => decide (v = len 0 .none) || decide (v = .lengthList [⟨0, .none⟩])
      | _ => true
  | .width | .height =>
    if isPrimitive e then false
    else match e with
      | .rect | .image | .use | .foreignObject => false
      | .svg => decide (v = len 100 .percent)
      | .pattern => decide (v = len 0 .none)
      | .mask | .filter => decide (v = len 120 .percent)
      | _ => true
  | .cx | .cy =>
    match e with
    | .circle | .ellipse => decide (v = len 0 .none)
    | .radialGradient => decide (v = len 50 .percent)
    | _ => true
  | .refX | .refY => match e with | .marker => decide (v = len 0 .none) | _ => true
  | .x1 | .y1 | .y2 => match e with | .line => decide (v = len 0 .none) | .linearGradient => decide (v = len 0 .percent) | _ => true
  | .x2 => match e with | .line => decide (v = len 0 .none) | .linearGradient => decide (v = len 100 .percent) | _ => true
  | .stdDeviation => match e with | .feGaussianBlur => decide (v = len 0 .none) | _ => true
  | .unitsPerEm => match e with | .fontFace => decide (v = .str "1000") | _ => true
  | .slope =>
    match e with
    | .fontFace => decide (v = .str "0")
    | .feFuncA | .feFuncR | .feFuncG | .feFuncB => decide (v = .str "1")
    | _ => true
  | .clipPathUnits => match e with | .clipPath => decide (v = .kw .userSpaceOnUse) | _ => true
  | .maskContentUnits => match e with | .mask => decide (v = .kw .userSpaceOnUse) | _ => true
  | .patternContentUnits => match e with | .pattern => decide (v = .kw .userSpaceOnUse) | _ => true
  | .primitiveUnits => match e with | .filter => decide (v = .kw .userSpaceOnUse) | _ => true
  | .maskUnits => match e with | .mask => decide (v = .kw .objectBoundingBox) | _ => true
  | .patternUnits => match e with | .pattern => decide (v = .kw .objectBoundingBox) | _ => true
  | .filterUnits => match e with | .filter => decide (v = .kw .objectBoundingBox) | _ => true
  | _ => false

/-- Elements with a viewport or a tile, to which `overflow` applies (SVG 1.1, 14.3.3). -/
def hasOverflow : EId → Bool
  | .svg | .symbol | .image | .foreignObject | .pattern | .marker => true
  | _ => false

/-- Elements that take the attributes they lack from the element their `xlink:href` refers to (SVG 1.1, 13.3 and 15.5;
gradients too, which the code leaves alone). -/
def isTemplated : EId → Bool
  | .pattern | .filter | .linearGradient | .radialGradient => true
  | _ => false

/-- The value `v` of the attribute `a` on the element `n` says what no attribute would say.  `root` is the root element. -/
def SaysNothing (ini : AId → Option Value) (root : Option Nat) (n : Node) (a : AId) (v : Value) : Prop :=
  match n.kind with
  | .elem e =>
    if a = .overflow then
      hasOverflow e = false ∨ v = (if some n.key = root then .kw .visible else .kw .hidden)
    else if a.isPresentation then ini a = some v
    else meansNothing e a v = true ∧ (isTemplated e = true → n.get .xlinkHref = none)
  | _ => False

/-- What the pass may do to a node. -/
structure DefaultsGone (ini : AId → Option Value) (root : Option Nat) (n m : Node) : Prop where
  same : m.key = n.key ∧ m.kind = n.kind ∧ m.id = n.id
  /-- In memory no value changes. -/
  values : ∀ b, (getAttr m.attrs b).map (·.value) = (getAttr n.attrs b).map (·.value)
  /-- In the file an attribute disappears only if it says nothing; nothing else changes. -/
  written : ∀ a, Spec.written m a = Spec.written n a ∨
    (Spec.written m a = none ∧ ∃ v, Spec.written n a = some v ∧ SaysNothing ini root n a v)
  named : ∀ s, getAttr m.attrs (.name s) = getAttr n.attrs (.name s)

/-- The computed values of an inherited property: the nearest written value, or the initial value. -/
def computedAll (ini : AId → Option Value) (a : AId) (f : Forest) : List (Nat × Option Value) :=
  (inherited a none f).map (fun x => (x.1, x.2.or (ini a)))

/-- The elements on which the code takes something for the default that is not: coordinates of filter primitives and of text
chunks that are not lists, the `slope` of a font, patterns and filters that refer to another one; and, if the table of svgdom had an initial value
of `overflow` (the tests of the repository, `rm_overflow_1`, show that it has none), this value where the user agent style sheet of SVG 1.1
(14.3.3) overrides it. -/
def Known (ini : AId → Option Value) (root : Option Nat) (n : Node) : Prop :=
  (∀ e, n.kind = .elem e → isPrimitive e = true ∨ isTextChunk e = true →
    n.get .x ≠ some (len 0 .none) ∧ n.get .y ≠ some (len 0 .none)) ∧
  (n.kind = .elem .fontFace → n.get .slope ≠ some (.str "1")) ∧
  (n.kind = .elem .pattern ∨ n.kind = .elem .filter → n.get .xlinkHref = none) ∧
  (∀ e, n.kind = .elem e → hasOverflow e = true → n.get .overflow = none ∨ n.get .overflow ≠ ini .overflow ∨
    n.get .overflow = some (if some n.key = root then .kw .visible else .kw .hidden))

/-- No inherited property is hidden: the passes that run before hide none. -/
def NoneHidden (f : Forest) : Prop :=
  ∀ n ∈ f.nodes, ∀ x ∈ n.attrs, ∀ a, x.name = .id a → a.isInheritable = true → x.visible = true

/-! ### Proof: one node -/

theorem isDefault_xy {e : EId} {a : AId} {v : Value} (ha : a = .x ∨ a = .y) (h : isDefault e a v = true)
    (h1 : isPrimitive e = true ∨ isTextChunk e = true → v ≠ len 0 .none) : meansNothing e a v = true := by
  have hd : ((e = .mask ∨ e = .filter) ∧ v = len (-10) .percent) ∨ (e ≠ .mask ∧ e ≠ .filter ∧ (v = len 0 .none ∨
      (e = .text ∧ v = .lengthList [⟨0, .none⟩]))) := by
    rcases ha with rfl | rfl <;>
    · unfold isDefault at h
      split at h
      · cases h
      · simp only at h
        split at h
        · cases h
        · split at h
          · rename_i hm; left; exact ⟨by simpa using hm, by simpa using h⟩
          · rename_i hm
            right
            refine ⟨fun e => hm (by simp [e]), fun e => hm (by simp [e]), ?_⟩
            split at h
            · left; simpa [len] using h
            · right; simpa using h
            · cases h
  have hm : meansNothing e a v = meansNothing e .x v := by rcases ha with rfl | rfl <;> rfl
  rw [hm]
  unfold meansNothing
  simp only
  by_cases hp : isPrimitive e = true ∨ isTextChunk e = true
  · exfalso
    have h1 := h1 hp
    rcases hd with ⟨rfl | rfl, _⟩ | ⟨_, _, h' | ⟨rfl, _⟩⟩
    · revert hp; decide
    · revert hp; decide
    · exact h1 h'
    · revert hp; decide
  · rw [if_neg (by simpa using hp)]
    split <;> rcases hd with ⟨he, h'⟩ | ⟨_, _, h' | ⟨he, h'⟩⟩ <;> simp_all

theorem isDefault_sound {e : EId} {a : AId} {v : Value} (h : isDefault e a v = true)
    (h1 : isPrimitive e = true ∨ isTextChunk e = true → a = .x ∨ a = .y → v ≠ len 0 .none)
    (h2 : e = .fontFace → a = .slope → v ≠ .str "1") : meansNothing e a v = true := by
  by_cases hxy : a = .x ∨ a = .y
  · exact isDefault_xy hxy h (fun hp => h1 hp hxy)
  · unfold isDefault at h
    split at h
    · cases h
    · rename_i hg
      unfold meansNothing
      split at h
      · exact absurd (.inl rfl) hxy
      · exact absurd (.inr rfl) hxy
      all_goals first
        | (cases h; done)
        | (simp only; split at h <;> simp_all [isPrimitive]; done)
        | (simp only; split <;> simp_all; done)
        | (simp only; split at h <;> split <;> simp_all; done)
        | skip

theorem toHide_sound {ini : AId → Option Value} {root : Option Nat} {anc : List Node} {n : Node} {e : EId} {a : AId} {v : Value}
    (hk : n.kind = .elem e) (hn : Known ini root n) (hv : n.get a = some v) (h : toHide ini root anc n e a v = some true) :
    SaysNothing ini root n a v := by
  unfold toHide at h
  unfold SaysNothing
  rw [hk]
  simp only
  by_cases hp : a.isPresentation = true
  · rw [if_pos hp] at h
    by_cases hi : ini a = some v
    · by_cases ho : a = .overflow
      · subst ho
        rw [if_pos rfl]
        cases ho : hasOverflow e with
        | false => exact .inl rfl
        | true =>
          right
          rcases hn.2.2.2 e hk ho with h' | h' | h'
          · rw [hv] at h'; cases h'
          · exact absurd (hv.trans hi.symm) h'
          · rw [hv] at h'; exact Option.some.inj h'
      · simp [ho, hp, hi]
    · rw [if_neg hi] at h
      by_cases ho : a = .overflow
      · subst ho
        rw [if_pos rfl] at h
        simp only [Option.map_eq_some_iff] at h
        obtain ⟨r, rfl, h⟩ := h
        rw [if_pos rfl]
        right
        by_cases hr : n.key = r
        · rw [if_pos hr] at h; simpa [hr] using h
        · rw [if_neg hr] at h; simpa [hr] using h
      · simp [ho] at h
  · rw [if_neg hp] at h
    have ho : a ≠ .overflow := by rintro rfl; exact hp rfl
    simp only [ho, if_false, hp]
    refine ⟨isDefault_sound (by simpa using h) ?_ ?_, ?_⟩
    · rintro h1 (rfl | rfl) e'
      · exact (hn.1 e hk h1).1 (by rw [hv, e'])
      · exact (hn.1 e hk h1).2 (by rw [hv, e'])
    · rintro rfl rfl e'
      exact hn.2.1 hk (by rw [hv, e'])
    · intro ht
      apply hn.2.2.1
      rw [hk]
      cases e <;> simp_all [isTemplated, isDefault]

theorem mem_rmList {ini : AId → Option Value} {root : Option Nat} {anc : List Node} {n : Node} {e : EId} {as : List Attr}
    {l : List AId} (h : rmList ini root anc n e as = some l) (a : AId) :
    a ∈ l ↔ ∃ x ∈ as, x.name = .id a ∧ toHide ini root anc n e a x.value = some true := by
  induction as generalizing l with
  | nil => simp only [rmList] at h; cases h; simp
  | cons x t ih =>
    unfold rmList at h
    split at h
    · rename_i s hs
      rw [ih h]
      simp [hs]
    · rename_i b hb
      simp only [Option.bind_eq_some_iff, Option.map_eq_some_iff] at h
      obtain ⟨c, hc, l', hl, rfl⟩ := h
      have := ih hl
      cases c with
      | true =>
        simp only [if_true, List.mem_cons, this]
        constructor
        · rintro (rfl | ⟨y, hy⟩)
          · exact ⟨x, .inl rfl, hb, hc⟩
          · exact ⟨y, .inr hy.1, hy.2⟩
        · rintro ⟨y, rfl | hy, h1, h2⟩
          · left; rw [hb] at h1; cases h1; rfl
          · exact .inr ⟨y, hy, h1, h2⟩
      | false =>
        simp only [Bool.false_eq_true, if_false, this, List.mem_cons]
        constructor
        · rintro ⟨y, hy⟩; exact ⟨y, .inr hy.1, hy.2⟩
        · rintro ⟨y, rfl | hy, h1, h2⟩
          · rw [hb] at h1; cases h1; rw [hc] at h2; cases h2
          · exact ⟨y, hy, h1, h2⟩

theorem getAttr_hideAll (n : Node) (as : List AId) (b : AName) :
    getAttr (hideAll n as).attrs b =
      (getAttr n.attrs b).map (fun x => if ∃ a ∈ as, b = .id a then { x with visible := false } else x) := by
  unfold hideAll
  induction as generalizing n with
  | nil => simp
  | cons a t ih =>
    simp only [List.foldl_cons, ih]
    unfold Node.hide
    simp only [getAttr_hide]
    cases getAttr n.attrs b with
    | none => rfl
    | some x =>
      simp only [Option.map_some]
      congr 1
      by_cases h : b = .id a
      · subst h; simp
      · simp [h]

theorem hideAll_kind (n : Node) (as : List AId) : (hideAll n as).kind = n.kind ∧ (hideAll n as).id = n.id := by
  unfold hideAll
  induction as generalizing n with
  | nil => exact ⟨rfl, rfl⟩
  | cons a t ih => exact ih (n.hide a)

theorem body_sound {ini : AId → Option Value} {root : Option Nat} {anc : List Node} {n m : Node}
    (hu : (n.attrs.map (·.name)).Nodup) (hn : Known ini root n) (h : body ini root anc n = some m) : DefaultsGone ini root n m := by
  unfold body at h
  split at h
  · rename_i e hk
    simp only [Option.map_eq_some_iff] at h
    obtain ⟨l, hl, rfl⟩ := h
    refine ⟨⟨hideAll_key n l, hideAll_kind n l⟩, ?_, ?_, ?_⟩
    · intro b
      rw [getAttr_hideAll, Option.map_map]
      cases getAttr n.attrs b with
      | none => rfl
      | some x => simp only [Option.map_some, Function.comp]; split <;> rfl
    · intro a
      rw [written_hideAll]
      by_cases ha : a ∈ l
      · rw [if_pos ha]
        cases hw : written n a with
        | none => exact .inl rfl
        | some v =>
          refine .inr ⟨rfl, v, rfl, ?_⟩
          obtain ⟨x, hx, hxn, hh⟩ := (mem_rmList hl a).1 ha
          have hg := GradUnits.getAttr_of_mem hu hx
          rw [hxn] at hg
          have hv : x.value = v := by
            unfold written at hw
            rw [hg] at hw
            simp only at hw
            split at hw
            · simpa using hw
            · cases hw
          refine toHide_sound hk hn ?_ (hv ▸ hh)
          unfold Node.get
          rw [hg]
          simp [hv]
      · rw [if_neg ha]; exact .inl rfl
    · intro s
      rw [getAttr_hideAll]
      cases getAttr n.attrs (.name s) <;> simp
  · cases h
    exact ⟨⟨rfl, rfl, rfl⟩, fun _ => rfl, fun _ => .inl rfl, fun _ => rfl⟩

/-! ### Proof: the tree -/

theorem mapCtx_nodes {g : List Node → Node → Option Node} {P : Node → Node → Prop} {f f' : Forest} {anc : List Node}
    (hg : ∀ n ∈ f.nodes, ∀ anc m, g anc n = some m → P n m) (h : f.mapCtx g anc = some f') :
    List.Forall₂ P f.nodes f'.nodes := by
  induction f generalizing anc f' with
  | nil => simp [Forest.mapCtx] at h; subst h; exact .nil
  | cons n k r ihk ihr =>
    simp only [Forest.mapCtx, Option.bind_eq_some_iff, Option.map_eq_some_iff] at h
    obtain ⟨n', hn, k', hk', r', hr, rfl⟩ := h
    exact .cons (hg n (by simp) _ _ hn)
      (List.rel_append (ihk (fun x hx => hg x (by simp [hx])) hk') (ihr (fun x hx => hg x (by simp [hx])) hr))

theorem body_key {ini : AId → Option Value} {root : Option Nat} {anc : List Node} {n m : Node}
    (h : body ini root anc n = some m) : m.key = n.key := by
  unfold body at h
  split at h
  · simp only [Option.map_eq_some_iff] at h
    obtain ⟨l, _, rfl⟩ := h
    exact hideAll_key n l
  · cases h; rfl

/-- The root element, as a reader of the file sees it: the first `svg` at the top. -/
def rootKey (f : Forest) : Option Nat := (f.top.find? (fun n => decide (n.kind = .elem .svg))).map (·.key)

theorem rootKey_eq (f : Forest) : (svgElement f).map (·.1.key) = rootKey f := by
  induction f with
  | nil => rfl
  | cons n k r _ ih =>
    unfold rootKey at *
    simp only [svgElement, Forest.top, List.find?_cons, Node.isTag]
    by_cases h : n.kind = .elem .svg
    · simp [h]
    · simp only [h, decide_false, Bool.false_eq_true, if_false]; exact ih

/-- C42 (partial: see `Known`): the tree and all values stay; in the file an attribute disappears only if its value is what
no attribute would mean. -/
theorem C42_own_partial {ini : AId → Option Value} {f g : Forest} (hu : UniqueAttrs f) (hk : ∀ n ∈ f.nodes, Known ini (rootKey f) n)
    (h : removeDefaults ini f = some g) :
    List.Forall₂ (DefaultsGone ini (rootKey f)) f.nodes g.nodes ∧ shape none g = shape none f := by
  unfold removeDefaults at h
  rw [rootKey_eq] at h
  exact ⟨mapCtx_nodes (fun n hn anc m hm => body_sound (hu n hn) (hk n hn) hm) h,
    ApplyTs.mapCtx_shape (fun anc n m hm => body_key hm) h none⟩

/-- The invariant for the ancestors before and after: `w`, `w'` are the nearest written values. -/
def Good (ini : AId → Option Value) (a : AId) (w w' : Option Value) (anc : List Node) : Prop :=
  w.or (ini a) = w'.or (ini a) ∧ w' = (anc.findSome? (fun m => written m a)) ∧
    ∀ m, anc.find? (fun m => m.has a) = some m → written m a = none → w' = none

theorem written_none_of_not_has {n : Node} {a : AId} (h : n.has a = false) : written n a = none := by
  unfold Node.has at h
  unfold written
  cases hg : getAttr n.attrs (.id a) with
  | none => rfl
  | some x => rw [hg] at h; cases h

theorem findSome_written {anc : List Node} {a : AId} (h : anc.find? (fun m => m.has a) = none) :
    anc.findSome? (fun m => written m a) = none := by
  rw [List.findSome?_eq_none_iff]
  intro m hm
  exact written_none_of_not_has (by simpa using List.find?_eq_none.1 h m hm)

theorem good_step {ini : AId → Option Value} {root : Option Nat} {a : AId} {w w' : Option Value} {anc : List Node} {n m : Node}
    (hi : a.isPresentation = true) (ho : a ≠ .overflow) (hu : (n.attrs.map (·.name)).Nodup)
    (hv : ∀ x ∈ n.attrs, x.name = .id a → x.visible = true) (hw : Good ini a w w' anc) (h : body ini root anc n = some m) :
    Good ini a ((written n a).or w) ((written m a).or w') (m :: anc) := by
  obtain ⟨h1, h2, h3⟩ := hw
  have hnext : (written m a).or w' = ((m :: anc).findSome? (fun m => written m a)) := by
    rw [List.findSome?_cons, ← h2]
    cases written m a <;> rfl
  by_cases hc : written m a = written n a ∧ (m.has a = false ∨ written m a ≠ none)
  · obtain ⟨e, hm⟩ := hc
    refine ⟨?_, hnext, ?_⟩
    · rw [e]
      cases hwn : written n a with
      | none => simpa using h1
      | some v => simp
    · intro y hy hyn
      rw [List.find?_cons] at hy
      split at hy
      · rename_i hh
        cases hy
        rcases hm with hm | hm
        · rw [hm] at hh; cases hh
        · exact absurd hyn hm
      · rename_i hh
        rw [written_none_of_not_has hh]
        simpa using h3 y hy hyn
  · unfold body at h
    split at h
    · rename_i e hk
      simp only [Option.map_eq_some_iff] at h
      obtain ⟨l, hl, rfl⟩ := h
      rw [written_hideAll] at hc hnext
      by_cases ha : a ∈ l
      · obtain ⟨x, hx, hxn, hh⟩ := (mem_rmList hl a).1 ha
        have hg := GradUnits.getAttr_of_mem hu hx
        rw [hxn] at hg
        have hwx : written n a = some x.value := by
          unfold written; rw [hg]; simp [hv x hx hxn]
        unfold toHide at hh
        rw [if_pos hi] at hh
        have hini : ini a = some x.value := by
          by_contra hne
          simp [hne, ho] at hh
        rw [if_pos hini] at hh
        have hw' : w' = none := by
          cases hf : anc.find? (fun m => m.has a) with
          | none => rw [h2]; exact findSome_written hf
          | some y =>
            rw [hf] at hh
            refine h3 y hf ?_
            unfold written
            simp only at hh
            cases hgy : getAttr y.attrs (.id a) with
            | none => rfl
            | some z =>
              rw [hgy] at hh
              simp only at hh
              have : z.visible = false := by simpa using hh
              simp [this]
        subst hw'
        refine ⟨?_, ?_, ?_⟩
        · rw [written_hideAll, if_pos ha, hwx, hini]; rfl
        · rw [written_hideAll]; exact hnext
        · intro y hy hyn
          rw [written_hideAll, if_pos ha]; rfl
      · exfalso
        rw [if_neg ha] at hc
        apply hc
        refine ⟨rfl, ?_⟩
        by_cases hh : (hideAll n l).has a = false
        · exact .inl hh
        · right
          rw [Node.has_eq, hideAll_get, ← Node.has_eq] at hh
          unfold Node.has at hh
          cases hg : getAttr n.attrs (.id a) with
          | none => rw [hg] at hh; simp at hh
          | some x =>
            unfold written
            rw [hg]
            simp [hv x (getAttr_mem hg) (getAttr_name hg)]
    · cases h
      exfalso
      apply hc
      refine ⟨rfl, ?_⟩
      by_cases hh : n.has a = false
      · exact .inl hh
      · right
        unfold Node.has at hh
        cases hg : getAttr n.attrs (.id a) with
        | none => rw [hg] at hh; simp at hh
        | some x =>
          unfold written
          rw [hg]
          simp [hv x (getAttr_mem hg) (getAttr_name hg)]

theorem inherited_same {ini : AId → Option Value} {root : Option Nat} {a : AId} {w w' : Option Value} {anc : List Node}
    {f g : Forest} (hi : a.isPresentation = true) (ho : a ≠ .overflow) (hu : UniqueAttrs f)
    (hv : ∀ n ∈ f.nodes, ∀ x ∈ n.attrs, x.name = .id a → x.visible = true) (hw : Good ini a w w' anc)
    (h : f.mapCtx (body ini root) anc = some g) :
    (inherited a w' g).map (fun x => (x.1, x.2.or (ini a))) = (inherited a w f).map (fun x => (x.1, x.2.or (ini a))) := by
  induction f generalizing w w' anc g with
  | nil => simp [Forest.mapCtx] at h; subst h; rfl
  | cons n k r ihk ihr =>
    simp only [Forest.mapCtx, Option.bind_eq_some_iff, Option.map_eq_some_iff] at h
    obtain ⟨m, hm, k', hk', r', hr, rfl⟩ := h
    have hs := good_step hi ho (hu n (by simp)) (hv n (by simp)) hw hm
    simp only [inherited, List.map_cons, List.map_append, body_key hm]
    rw [ihk (fun x hx => hu x (by simp [hx])) (fun x hx => hv x (by simp [hx])) hs hk',
      ihr (fun x hx => hu x (by simp [hx])) (fun x hx => hv x (by simp [hx])) hw hr, hs.1]

theorem isPresentation_of {a : AId} (h : a.isInheritable = true) : a.isPresentation = true ∧ a ≠ .overflow := by
  revert h; cases a <;> decide

/-- C42: the computed value of every inherited property on every element is unchanged. -/
theorem C42_inherited {ini : AId → Option Value} {f g : Forest} (hu : UniqueAttrs f) (hv : NoneHidden f)
    (h : removeDefaults ini f = some g) {a : AId} (ha : a.isInheritable = true) :
    computedAll ini a g = computedAll ini a f := by
  unfold computedAll
  refine inherited_same (isPresentation_of ha).1 (isPresentation_of ha).2 hu
    (fun n hn x hx e => hv n hn x hx a e ha) ⟨rfl, rfl, ?_⟩ h
  simp

/-- C42: the pass crashes only if there is no `svg` element. -/
theorem C42_no_crash {ini : AId → Option Value} {f : Forest} (hr : rootKey f ≠ none) : removeDefaults ini f ≠ none := by
  unfold removeDefaults
  rw [rootKey_eq]
  obtain ⟨r, hr'⟩ := Option.ne_none_iff_exists'.1 hr
  rw [hr']
  generalize ([] : List Node) = anc
  have hb : ∀ anc n, ∃ m, body ini (some r) anc n = some m := by
    intro anc n
    have hl : ∀ e as, ∃ l, rmList ini (some r) anc n e as = some l := by
      intro e as
      induction as with
      | nil => exact ⟨[], rfl⟩
      | cons x t ih =>
        obtain ⟨l, hl⟩ := ih
        unfold rmList
        split
        · exact ⟨l, hl⟩
        · rename_i a _
          have : ∃ b, toHide ini (some r) anc n e a x.value = some b := by
            unfold toHide
            repeat' split
            all_goals exact ⟨_, rfl⟩
          obtain ⟨b, hb⟩ := this
          simp [hb, hl]
    unfold body
    split
    · rename_i e _
      obtain ⟨l, hl⟩ := hl e n.attrs
      exact ⟨_, by rw [hl]; rfl⟩
    · exact ⟨n, rfl⟩
  clear hr hr'
  have : ∃ g, f.mapCtx (body ini (some r)) anc = some g := by
    induction f generalizing anc with
    | nil => exact ⟨.nil, rfl⟩
    | cons n k rest ihk ihr =>
      obtain ⟨m, hm⟩ := hb anc n
      obtain ⟨k', hk'⟩ := ihk (m :: anc)
      obtain ⟨r', hr'⟩ := ihr anc
      exact ⟨.cons m k' r', by simp [Forest.mapCtx, hm, hk', hr']⟩
  obtain ⟨g, hg⟩ := this
  rw [hg]; simp

/-! ### Examples and counterexamples -/

/-- Some initial values of SVG 1.1. -/
def svgInitial : AId → Option Value
  | .fill => some (.color 0 0 0)
  | .stroke => some (.kw .none)
  | .opacity | .fillOpacity | .strokeOpacity | .stopOpacity => some (.number 1)
  | .strokeWidth => some (len 1 .none)
  | .visibility => some (.kw .visible)
  | _ => none

def node (k : Nat) (e : EId) (as : List (AId × Value)) : Node :=
  ⟨k, .elem e, "", as.map fun x => ⟨.id x.1, x.2, true⟩⟩

def hidden (a : AId) (v : Value) : Attr := ⟨.id a, v, false⟩

def sample : Forest :=
  .cons (node 0 .svg [(.fill, .color 0 0 0), (.width, len 100 .percent)])
    (.cons (node 1 .g [(.stroke, .color 1 2 3), (.fill, .color 0 0 0)])
      (.cons (node 2 .rect [(.stroke, .kw .none), (.x, len 0 .none), (.overflow, .kw .hidden)]) .nil .nil) .nil) .nil

def sampleOut : Forest :=
  .cons { node 0 .svg [] with attrs := [hidden .fill (.color 0 0 0), hidden .width (len 100 .percent)] }
    (.cons { node 1 .g [] with attrs := [⟨.id .stroke, .color 1 2 3, true⟩, hidden .fill (.color 0 0 0)] }
      (.cons { node 2 .rect [] with attrs := [⟨.id .stroke, .kw .none, true⟩, hidden .x (len 0 .none),
        hidden .overflow (.kw .hidden)] } .nil .nil) .nil) .nil

instance (ini : AId → Option Value) (root : Option Nat) (n : Node) : Decidable (Known ini root n) :=
  match h : n.kind with
  | .elem e => decidable_of_iff
      ((isPrimitive e = true ∨ isTextChunk e = true → n.get .x ≠ some (len 0 .none) ∧ n.get .y ≠ some (len 0 .none)) ∧
        (e = .fontFace → n.get .slope ≠ some (.str "1")) ∧ (e = .pattern ∨ e = .filter → n.get .xlinkHref = none) ∧
        (hasOverflow e = true → n.get .overflow = none ∨ n.get .overflow ≠ ini .overflow ∨
          n.get .overflow = some (if some n.key = root then .kw .visible else .kw .hidden))) (by
      unfold Known; simp [h])
  | .other _ | .text _ | .comment _ => .isTrue (by unfold Known; simp [h])

theorem sample_hyps : UniqueAttrs sample ∧ NoneHidden sample ∧ (∀ n ∈ sample.nodes, Known svgInitial (rootKey sample) n) ∧ rootKey sample ≠ none := by
  refine ⟨?_, ?_, ?_, ?_⟩
  · unfold UniqueAttrs; decide +kernel
  · intro n hn x hx a _ _
    have : ∀ n ∈ sample.nodes, ∀ x ∈ n.attrs, x.visible = true := by decide +kernel
    exact this n hn x hx
  · decide +kernel
  · decide +kernel

example : removeDefaults svgInitial sample = some sampleOut := by decide +kernel

/-- C42 for the element itself, without restriction. -/
def C42_full : Prop := ∀ (ini : AId → Option Value) (f g : Forest), UniqueAttrs f → removeDefaults ini f = some g →
  List.Forall₂ (DefaultsGone ini (rootKey f)) f.nodes g.nodes

theorem refute {n m : Node} {a : AId} {v : Value} {f g : Forest} (hu : UniqueAttrs f) (hr : removeDefaults svgInitial f = some g)
    (hn : f.nodes = [n]) (hm : g.nodes = [m]) (hv : written n a = some v) (hw : written m a = none)
    (hs : ¬ SaysNothing svgInitial (rootKey f) n a v) : ¬ C42_full := by
  intro h
  have := h svgInitial f g hu hr
  rw [hn, hm] at this
  cases this with
  | cons h1 _ =>
    rcases h1.written a with e | ⟨_, v', e, hs'⟩
    · rw [hv, hw] at e; cases e
    · rw [hv] at e; cases e; exact hs hs'

/-- `<feFlood x="0"/>`: absent, it would be the left edge of the filter region. -/
def primitiveX : Forest := .cons (node 0 .feFlood [(.x, len 0 .none)]) .nil .nil

/-- C42 is false for the position of a filter primitive. -/
theorem C42_refuted_primitive : ¬ C42_full :=
  refute (n := node 0 .feFlood [(.x, len 0 .none)]) (m := { node 0 .feFlood [] with attrs := [hidden .x (len 0 .none)] })
    (a := .x) (v := len 0 .none) (f := primitiveX)
    (g := .cons { node 0 .feFlood [] with attrs := [hidden .x (len 0 .none)] } .nil .nil)
    (by unfold UniqueAttrs; decide +kernel) (by decide +kernel) rfl rfl (by decide +kernel) (by decide +kernel)
    (by rintro ⟨h, _⟩; revert h; decide)

/-- `<font-face slope="1"/>`: absent, it would be 0. -/
def fontSlope : Forest := .cons (node 0 .fontFace [(.slope, .str "1")]) .nil .nil

/-- C42 is false for the slope of a font. -/
theorem C42_refuted_slope : ¬ C42_full :=
  refute (n := node 0 .fontFace [(.slope, .str "1")]) (m := { node 0 .fontFace [] with attrs := [hidden .slope (.str "1")] })
    (a := .slope) (v := .str "1") (f := fontSlope)
    (g := .cons { node 0 .fontFace [] with attrs := [hidden .slope (.str "1")] } .nil .nil)
    (by unfold UniqueAttrs; decide +kernel) (by decide +kernel) rfl rfl (by decide +kernel) (by decide +kernel)
    (by rintro ⟨h, _⟩; revert h; decide)

/-- The effective value of an attribute of a pattern: its own, or that of the pattern it refers to. -/
inductive PatternValue (f : Forest) (a : AId) : Node → Option Value → Prop
  | own {n v} : written n a = some v → PatternValue f a n (some v)
  | ref {n k m v} : written n a = none → written n .xlinkHref = some (.link k) → m ∈ f.nodes → m.key = k →
      PatternValue f a m v → PatternValue f a n v
  | none {n} : written n a = none → written n .xlinkHref = none → PatternValue f a n none

/-- `<pattern id="p" x="5"/> <pattern x="0" xlink:href="#p"/>` -/
def patterns : Forest :=
  .cons (node 0 .pattern [(.x, len 5 .none)]) .nil
    (.cons (node 1 .pattern [(.x, len 0 .none), (.xlinkHref, .link 0)]) .nil .nil)

def patternsOut : Forest :=
  .cons (node 0 .pattern [(.x, len 5 .none)]) .nil
    (.cons { node 1 .pattern [] with attrs := [hidden .x (len 0 .none), ⟨.id .xlinkHref, .link 0, true⟩] } .nil .nil)

/-- C42 is false for a pattern that refers to another one: the second pattern moves from 0 to 5. -/
theorem C42_refuted_pattern : removeDefaults svgInitial patterns = some patternsOut ∧
    PatternValue patterns .x (node 1 .pattern [(.x, len 0 .none), (.xlinkHref, .link 0)]) (some (len 0 .none)) ∧
    PatternValue patternsOut .x
      { node 1 .pattern [] with attrs := [hidden .x (len 0 .none), ⟨.id .xlinkHref, .link 0, true⟩] } (some (len 5 .none)) :=
  ⟨by decide +kernel, .own (by decide +kernel),
    .ref (k := 0) (m := node 0 .pattern [(.x, len 5 .none)]) (by decide +kernel) (by decide +kernel) (by decide +kernel) rfl
      (.own (by decide +kernel))⟩

/-- The value of an inherited property on the copy of the element `t` that the `use` element `u` with the ancestors `anc`
makes: SVG 1.1, 5.6: the copy inherits from the `use` element. -/
def copyValue (ini : AId → Option Value) (a : AId) (t u : Node) (anc : List Node) : Option Value :=
  ((t :: u :: anc).findSome? (fun n => written n a)).or (ini a)

/-- `<svg><defs><rect id="r" fill="black"/></defs><g fill="red"><use xlink:href="#r"/></g></svg>` -/
def useCopy : Forest :=
  .cons (node 0 .svg [])
    (.cons (node 1 .defs []) (.cons (node 2 .rect [(.fill, .color 0 0 0)]) .nil .nil)
      (.cons (node 3 .g [(.fill, .color 255 0 0)]) (.cons (node 4 .use [(.xlinkHref, .link 2)]) .nil .nil) .nil)) .nil

def useCopyOut : Forest :=
  .cons (node 0 .svg [])
    (.cons (node 1 .defs []) (.cons { node 2 .rect [] with attrs := [hidden .fill (.color 0 0 0)] } .nil .nil)
      (.cons (node 3 .g [(.fill, .color 255 0 0)]) (.cons (node 4 .use [(.xlinkHref, .link 2)]) .nil .nil) .nil)) .nil

/-- C42 does not extend to the copies that `use` elements make: the black copy becomes red. -/
theorem C42_refuted_copies : removeDefaults svgInitial useCopy = some useCopyOut ∧
    copyValue svgInitial .fill (node 2 .rect [(.fill, .color 0 0 0)]) (node 4 .use [(.xlinkHref, .link 2)])
      [node 3 .g [(.fill, .color 255 0 0)], node 0 .svg []] = some (.color 0 0 0) ∧
    copyValue svgInitial .fill { node 2 .rect [] with attrs := [hidden .fill (.color 0 0 0)] }
      (node 4 .use [(.xlinkHref, .link 2)]) [node 3 .g [(.fill, .color 255 0 0)], node 0 .svg []] = some (.color 255 0 0) := by
  decide +kernel

end Verif.DefaultAttrs
