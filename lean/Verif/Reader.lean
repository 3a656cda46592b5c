import Verif.PlotProps
import Verif.TextAttrs
/-
C70: what it means that a renderer takes the default for what is not there, and when the picture of a document does not depend on attributes
that are left out.
-/
namespace Verif.Reader
open Verif.Dom Verif.Spec Verif.Render Verif.Plot
open Verif.Paths (Transform)
open Verif.DefaultAttrs (meansNothing hasOverflow isTemplated)
open Verif.Needless (shapeHas)
open Verif.TextAttrs (concernsText)

/-! ### Specification -/

/-- The document as a reader of the file finds it: without the hidden attributes. -/
def onPaper : Forest → Forest
  | .nil => .nil
  | .cons n k r => .cons { n with attrs := n.attrs.filter fun y => y.visible } (onPaper k) (onPaper r)

def fillProps : List AId := [.fill, .fillOpacity, .fillRule]
def strokeProps : List AId := [.stroke, .strokeDasharray, .strokeDashoffset, .strokeLinecap, .strokeLinejoin, .strokeMiterlimit, .strokeOpacity, .strokeWidth]

/-- What is taken for an inherited property: the value given, or else the initial value. -/
def taken {P : Type} (ini : AId → Option Value) (st : Style P) (a : AId) : Option (Seen P) := (st a).or ((ini a).map .plain)

/-- Nothing inside the outline is painted. -/
def Unfilled {P : Type} (ini : AId → Option Value) (st : Style P) : Prop :=
  taken ini st .fill = some (.plain (.kw .none)) ∨ taken ini st .fillOpacity = some (.plain (.number 0))

/-- The outline is not painted. -/
def Unlined {P : Type} (ini : AId → Option Value) (st : Style P) : Prop :=
  taken ini st .stroke = some (.plain (.kw .none)) ∨ taken ini st .strokeOpacity = some (.plain (.number 0)) ∨
    ∃ u, taken ini st .strokeWidth = some (.plain (.length ⟨0, u⟩))

/-- The properties make the same marks: they are the same, but for those about painting what is not painted and, if there is no `text`, those about
text. -/
structure SameInk {P : Type} (ini : AId → Option Value) (text : Bool) (st st' : Style P) : Prop where
  rest : ∀ a, a ≠ .color → a ∉ fillProps → a ∉ strokeProps → (text = true ∨ concernsText a = false) → taken ini st a = taken ini st' a
  fill : (Unfilled ini st ∧ Unfilled ini st') ∨ ∀ a ∈ fillProps, taken ini st a = taken ini st' a
  stroke : (Unlined ini st ∧ Unlined ini st' ∧ Unmarked st) ∨ ∀ a ∈ strokeProps, taken ini st a = taken ini st' a

/-- Elements that text properties apply to. -/
def isTextual : EId → Bool
  | .text | .tspan | .tref | .textPath | .altGlyph | .altGlyphDef | .altGlyphItem | .glyphRef | .glyph | .missingGlyph | .font | .fontFace | .fontFaceFormat
  | .fontFaceName | .fontFaceSrc | .fontFaceUri | .hkern | .vkern | .foreignObject | .style | .script => true
  | _ => false

/-- A length in units of the font size. -/
def fontRelative : Value → Bool
  | .length l => decide (l.unit = .em ∨ l.unit = .ex)
  | .lengthList l => l.any fun x => decide (x.unit = .em ∨ x.unit = .ex)
  | _ => false

/-- No length is in units of the font size. -/
def NoFontUnits {P : Type} (as : Attrs P) (st : Style P) : Prop :=
  (∀ x v, as x = some (.plain v) → fontRelative v = false) ∧ ∀ a v, st a = some (.plain v) → fontRelative v = false

/-- On an element `e`, an attribute that is the element's own means nothing: it is absent, or the element has no such attribute, or the value is
what is taken if there is none (for the radius `ry` of a rectangle: that of `rx`). -/
def Silent {P : Type} (ini : AId → Option Value) (e : EId) (as : Attrs P) (x : AName) : Prop :=
  as x = none ∨ (e.isBasicShape = true ∧ ∀ a, x = .id a → shapeHas e a = false) ∨ (x = .id .enableBackground ∧ e.isContainer = false) ∨
  (x = .id .overflow ∧ hasOverflow e = false) ∨ (isTextual e = false ∧ ∃ a, x = .id a ∧ concernsText a = true) ∨
  (e = .rect ∧ x = .id .ry ∧ as x = as (.id .rx) ∧ ∃ l, as x = some (.plain (.length l)) ∧ l.unit ≠ .percent) ∨
  ∃ a u, x = .id a ∧ as x = some (.plain u) ∧
    if a.isPresentation then a ≠ .overflow ∧ ini a = some u else meansNothing e a u = true ∧ (isTemplated e = true → as (.id .xlinkHref) = none)

/-- The attributes differ in nothing but attributes that mean nothing. -/
def SameOwn {P : Type} (ini : AId → Option Value) (e : EId) (as as' : Attrs P) : Prop :=
  ∀ x, as x = as' x ∨ Silent ini e as x ∧ Silent ini e as' x

/-- Nothing refers to the property `color`. -/
def NoCurrent {P : Type} (as : Attrs P) (st : Style P) : Prop :=
  (∀ x, as x ≠ some (.plain (.kw .currentColor))) ∧ ∀ a, st a ≠ some (.plain (.kw .currentColor))

/-- A renderer that knows the initial values `ini` and the defaults of SVG 1.1, paints what is to be painted, and does not look at attributes
that an element does not have. -/
structure Heeds {P : Type} (π : Painter P) (ini : AId → Option Value) : Prop where
  plain : ∀ a v, ini a = some v → v.target = none
  paint : ∀ e as as' st st' t l text, SameOwn ini e as as' → SameInk ini text st st' →
    (text = true ∨ isTextual e = false ∧ NoFontUnits as st ∧ NoFontUnits as' st') → (taken ini st .color = taken ini st' .color ∨ NoCurrent as st ∧ NoCurrent as' st') →
    π.paint e as st t l = π.paint e as' st' t l
  chars : ∀ s st st' t, SameInk ini true st st' → (taken ini st .color = taken ini st' .color ∨ NoCurrent noVia st ∧ NoCurrent noVia st') →
    π.chars s st t = π.chars s st' t
  frame : ∀ e as as' via t p, SameOwn ini e as as' → π.frame e as via t p = π.frame e as' via t p
  effect : ∀ m m' c c' f f' t p, (m = m' ∨ Seen.isRef m = false ∧ Seen.isRef m' = false) → (c = c' ∨ Seen.isRef c = false ∧ Seen.isRef c' = false) →
    (f = f' ∨ Seen.isRef f = false ∧ Seen.isRef f' = false) → π.effect m c f t p = π.effect m' c' f' t p

/-- The two documents are drawn the same by all such renderers. -/
def SameRead (ini : AId → Option Value) (f g : Forest) : Prop := ∀ (P : Type) (π : Painter P), Heeds π ini → ∀ d, picture π d f = picture π d g

theorem SameRead.refl (ini : AId → Option Value) (f : Forest) : SameRead ini f f := fun _ _ _ _ => rfl
theorem SameRead.trans {ini : AId → Option Value} {f g h : Forest} (h1 : SameRead ini f g) (h2 : SameRead ini g h) : SameRead ini f h :=
  fun P π hπ d => (h1 P π hπ d).trans (h2 P π hπ d)

/-! ### Two documents that differ in attributes that mean nothing -/

/-- The value that is taken, in memory. -/
def took (ini : AId → Option Value) (s : Inherited) (a : AId) : Option Value := (s a).or (ini a)

def Unfilled' (ini : AId → Option Value) (s : Inherited) : Prop := took ini s .fill = some (.kw .none) ∨ took ini s .fillOpacity = some (.number 0)

def Unlined' (ini : AId → Option Value) (s : Inherited) : Prop :=
  took ini s .stroke = some (.kw .none) ∨ took ini s .strokeOpacity = some (.number 0) ∨ ∃ u, took ini s .strokeWidth = some (.length ⟨0, u⟩)

structure Ink (ini : AId → Option Value) (text : Bool) (s s' : Inherited) : Prop where
  rest : ∀ a, a ≠ .color → a ∉ fillProps → a ∉ strokeProps → (text = true ∨ concernsText a = false) → took ini s a = took ini s' a
  fill : (Unfilled' ini s ∧ Unfilled' ini s') ∨ ∀ a ∈ fillProps, took ini s a = took ini s' a
  stroke : (Unlined' ini s ∧ Unlined' ini s' ∧ NoMarkers s) ∨ ∀ a ∈ strokeProps, took ini s a = took ini s' a

variable {P : Type} {π : Painter P} {ini : AId → Option Value} {env env' : Env P}

abbrev Never : Nat → Inherited → Prop := fun _ _ => False

theorem taken_eq (hi : ∀ a v, ini a = some v → v.target = none) (c : Ctx) (a : AId) :
    taken ini (seenStyle env c) a = (took ini c.style a).map (see env) := by
  unfold taken took seenStyle
  cases h : c.style a with
  | some v => rfl
  | none =>
    cases h' : ini a with
    | none => rfl
    | some v =>
      simp only [Option.map_none, Option.none_or, Option.map_some, Option.some.injEq]
      unfold see
      rw [hi a v h']

theorem taken_plain (hi : ∀ a v, ini a = some v → v.target = none) {c : Ctx} {a : AId} {v : Value} (h : took ini c.style a = some v)
    (hv : v.target = none) : taken ini (seenStyle env c) a = some (.plain v) := by
  rw [taken_eq hi, h]
  simp [see, hv]

theorem Ink.seen {c c' : Ctx} (hi : ∀ a v, ini a = some v → v.target = none) (he : EnvRel Never env env') {text : Bool} (h : Ink ini text c.style c'.style) :
    SameInk ini text (seenStyle env c) (seenStyle env' c') := by
  have eq : ∀ a, took ini c.style a = took ini c'.style a → taken ini (seenStyle env c) a = taken ini (seenStyle env' c') a := by
    intro a e
    rw [taken_eq hi, taken_eq hi, e]
    congr 1
    funext v
    exact he.see v
  have uf : ∀ {env : Env P} {c : Ctx}, Unfilled' ini c.style → Unfilled ini (seenStyle env c) := by
    rintro env c (h | h)
    · exact .inl (taken_plain hi h rfl)
    · exact .inr (taken_plain hi h rfl)
  have ul : ∀ {env : Env P} {c : Ctx}, Unlined' ini c.style → Unlined ini (seenStyle env c) := by
    rintro env c (h | h | ⟨u, h⟩)
    · exact .inl (taken_plain hi h rfl)
    · exact .inr (.inl (taken_plain hi h rfl))
    · exact .inr (.inr ⟨u, taken_plain hi h rfl⟩)
  refine ⟨fun a h1 h2 h3 h4 => eq a (h.rest a h1 h2 h3 h4), ?_, ?_⟩
  · rcases h.fill with ⟨h1, h2⟩ | h1
    · exact .inl ⟨uf h1, uf h2⟩
    · exact .inr fun a ha => eq a (h1 a ha)
  · rcases h.stroke with ⟨h1, h2, h3⟩ | h1
    · exact .inl ⟨ul h1, ul h2, unmarked_of h3⟩
    · exact .inr fun a ha => eq a (h1 a ha)

def val (n : Node) (x : AName) : Option Value := (getAttr n.attrs x).map Attr.value

theorem val_get (n : Node) (a : AId) : val n (.id a) = n.get a := rfl

/-- `Silent`, for a value in memory. -/
def SilentV (ini : AId → Option Value) (e : EId) (n : Node) (x : AName) : Prop :=
  val n x = none ∨ (e.isBasicShape = true ∧ ∀ a, x = .id a → shapeHas e a = false) ∨ (x = .id .enableBackground ∧ e.isContainer = false) ∨
  (x = .id .overflow ∧ hasOverflow e = false) ∨ (isTextual e = false ∧ ∃ a, x = .id a ∧ concernsText a = true) ∨
  (e = .rect ∧ x = .id .ry ∧ val n x = n.get .rx ∧ ∃ l, val n x = some (.length l) ∧ l.unit ≠ .percent) ∨
  ∃ a u, x = .id a ∧ val n x = some u ∧ u.target = none ∧
    if a.isPresentation then a ≠ .overflow ∧ ini a = some u else meansNothing e a u = true ∧ (isTemplated e = true → n.get .xlinkHref = none)

theorem own_val (env : Env P) (n : Node) (x : AName) : own env n x = if isOwn x then (val n x).map (see env) else none := by
  unfold own val
  rw [Option.map_map]
  rfl

theorem SilentV.seen {e : EId} {n : Node} {x : AName} (hx : isOwn x = true) (h : SilentV ini e n x) : Silent ini e (own env n) x := by
  unfold Silent
  rw [own_val, hx, if_pos rfl]
  rcases h with h | h | h | h | h | ⟨h1, h2, h3, l, h4, h5⟩ | ⟨a, u, h1, h2, h3, h4⟩
  · rw [h]; exact .inl rfl
  · exact .inr (.inl h)
  · exact .inr (.inr (.inl h))
  · exact .inr (.inr (.inr (.inl h)))
  · exact .inr (.inr (.inr (.inr (.inl h))))
  · refine .inr (.inr (.inr (.inr (.inr (.inl ⟨h1, h2, ?_, l, by rw [h4]; rfl, h5⟩)))))
    rw [own_val, if_pos (by decide), h3, val_get]
  · refine .inr (.inr (.inr (.inr (.inr (.inr ⟨a, u, h1, ?_, ?_⟩)))))
    · rw [h2]
      simp [see, h3]
    · split
      next ha => rw [if_pos ha] at h4; exact h4
      next ha =>
        rw [if_neg ha] at h4
        refine ⟨h4.1, fun ht => ?_⟩
        rw [own_val, if_pos (by decide), val_get, h4.2 ht]
        rfl

/-- The two elements differ in attributes that mean nothing where they stand. -/
structure Trimmed (ini : AId → Option Value) (n m : Node) : Prop where
  key : m.key = n.key
  kind : m.kind = n.kind
  cond : ∀ a, isCond a = true → m.get a = n.get a
  transform : nodeTransform m = nodeTransform n
  opacity : opacityOf m = opacityOf n
  display : hiddenBy m = hiddenBy n
  effect : ∀ a ∈ [AId.mask, .clipPath, .filter], m.get a = n.get a ∨ ∀ k, n.get a ≠ some (.funcLink k) ∧ m.get a ≠ some (.funcLink k)
  own : ∀ e, n.kind = .elem e → ∀ x, isOwn x = true → val m x = val n x ∨ SilentV ini e n x ∧ SilentV ini e m x

theorem Trimmed.refl (ini : AId → Option Value) (n : Node) : Trimmed ini n n :=
  ⟨rfl, rfl, fun _ _ => rfl, rfl, rfl, rfl, fun _ _ => .inl rfl, fun _ _ _ _ => .inl rfl⟩

/-- The properties of `n`, given those of its parent. -/
def inh (s : Inherited) (n : Node) : Inherited := (Ctx.enter ⟨s, one⟩ n).style

theorem enter_inh (c : Ctx) (n : Node) : (c.enter n).style = inh c.style n := rfl

/-- Nothing refers to the property `color`. -/
def Colour (ini : AId → Option Value) (n m : Node) (s s' : Inherited) : Prop :=
  took ini s .color = took ini s' .color ∨
    ((∀ x, val n x ≠ some (.kw .currentColor)) ∧ ∀ a, s a ≠ some (.kw .currentColor)) ∧
    ((∀ x, val m x ≠ some (.kw .currentColor)) ∧ ∀ a, s' a ≠ some (.kw .currentColor))

theorem see_current {v : Value} (h : see env v = .plain (.kw .currentColor)) : v = .kw .currentColor := by
  unfold see at h
  split at h
  · cases h
  · injection h

theorem no_current {n : Node} {c : Ctx} (h1 : ∀ x, val n x ≠ some (.kw .currentColor)) (h2 : ∀ a, c.style a ≠ some (.kw .currentColor)) :
    NoCurrent (own env n) (seenStyle env c) := by
  refine ⟨fun x e => ?_, fun a e => ?_⟩
  · rw [own_val] at e
    split at e
    · obtain ⟨v, hv, e⟩ := Option.map_eq_some_iff.1 e
      exact h1 x (by rw [hv, see_current e])
    · cases e
  · obtain ⟨v, hv, e⟩ := Option.map_eq_some_iff.1 e
    exact h2 a (by rw [hv, see_current e])

theorem Colour.seen {n m : Node} {c c' : Ctx} (hi : ∀ a v, ini a = some v → v.target = none) (he : EnvRel Never env env')
    (h : Colour ini n m c.style c'.style) :
    taken ini (seenStyle env c) .color = taken ini (seenStyle env' c') .color ∨
      NoCurrent (own env n) (seenStyle env c) ∧ NoCurrent (own env' m) (seenStyle env' c') := by
  rcases h with h | ⟨h1, h2⟩
  · left
    rw [taken_eq hi, taken_eq hi, h]
    congr 1
    funext v
    exact he.see v
  · exact .inr ⟨no_current h1.1 h1.2, no_current h2.1 h2.2⟩

theorem NoCurrent.via {as : Attrs P} {st : Style P} (h : NoCurrent as st) : NoCurrent noVia st := ⟨fun _ e => (by cases e), h.2⟩

/-- No length is in units of the font size. -/
def NoUnits (n : Node) (s : Inherited) : Prop := (∀ x v, val n x = some v → fontRelative v = false) ∧ ∀ a v, s a = some v → fontRelative v = false

theorem see_plain {v w : Value} (h : see env v = .plain w) : v = w := by
  unfold see at h
  split at h
  · cases h
  · injection h

theorem NoUnits.seen {n : Node} {c : Ctx} (h : NoUnits n c.style) : NoFontUnits (own env n) (seenStyle env c) := by
  refine ⟨fun x w e => ?_, fun a w e => ?_⟩
  · rw [own_val] at e
    split at e
    · obtain ⟨v, hv, e⟩ := Option.map_eq_some_iff.1 e
      exact h.1 x w (by rw [hv, see_plain e])
    · cases e
  · obtain ⟨v, hv, e⟩ := Option.map_eq_some_iff.1 e
    exact h.2 a w (by rw [hv, see_plain e])

/-- `n` and `m` are drawn the same, when their parents have the properties `s` and `s'`. -/
def Drawn (ini : AId → Option Value) (s s' : Inherited) (n m : Node) : Prop :=
  match n.kind with
  | .text _ => Ink ini true s s' ∧ Colour ini n m s s'
  | .comment _ => True
  | .other _ => False
  | .elem e => e ≠ .use ∧ (∃ text, Ink ini text (inh s n) (inh s' m) ∧ (text = true ∨ isTextual e = false ∧ NoUnits n (inh s n) ∧ NoUnits m (inh s' m))) ∧ Colour ini n m (inh s n) (inh s' m)

/-- Two trees that differ in attributes that mean nothing. -/
inductive Leaves (ini : AId → Option Value) : Inherited → Inherited → Forest → Forest → Prop
  | nil (s s' : Inherited) : Leaves ini s s' .nil .nil
  | cons {s s' : Inherited} {n m : Node} {k k' r r' : Forest} : Trimmed ini n m → Drawn ini s s' n m → Leaves ini (inh s n) (inh s' m) k k' →
      Leaves ini s s' r r' → Leaves ini s s' (.cons n k r) (.cons m k' r')

theorem Trimmed.allowed {n m : Node} (h : Trimmed ini n m) : Render.allowed π m = Render.allowed π n := by
  unfold Render.allowed holds
  rw [h.cond _ rfl, h.cond _ rfl, h.cond _ rfl]

theorem Trimmed.ctm {n m : Node} (h : Trimmed ini n m) {c c' : Ctx} (hc : c'.ctm = c.ctm) : (c'.enter m).ctm = (c.enter n).ctm := by
  unfold Ctx.enter
  rw [h.kind, h.transform, hc]

theorem Trimmed.ownSeen {n m : Node} (h : Trimmed ini n m) (he : EnvRel Never env env') {e : EId} (hk : n.kind = .elem e) :
    SameOwn ini e (Render.own env n) (Render.own env' m) := by
  intro x
  rw [own_val, own_val]
  cases hx : isOwn x with
  | false => exact .inl rfl
  | true =>
    simp only [if_true]
    rcases h.own e hk x hx with e1 | ⟨h1, h2⟩
    · rw [e1]
      left
      congr 1
      funext v
      exact he.see v
    · exact .inr ⟨h1.seen hx, h2.seen hx⟩

theorem effect_seen {n m : Node} (he : EnvRel Never env env') {a : AId}
    (h : m.get a = n.get a ∨ ∀ k, n.get a ≠ some (.funcLink k) ∧ m.get a ≠ some (.funcLink k)) :
    seenAttr env n a = seenAttr env' m a ∨ Seen.isRef (seenAttr env n a) = false ∧ Seen.isRef (seenAttr env' m a) = false := by
  rcases h with h | h
  · left
    rw [he.attr]
    unfold seenAttr
    rw [h]
  · right
    have : ∀ (env : Env P) (x : Node), (∀ k, x.get a ≠ some (.funcLink k)) → Seen.isRef (seenAttr env x a) = false := by
      intro env x hx
      unfold seenAttr
      cases hv : x.get a with
      | none => rfl
      | some v =>
        cases v <;> first | rfl | (rename_i k; exact absurd hv (hx k))
    exact ⟨this _ _ fun k => (h k).1, this _ _ fun k => (h k).2⟩

theorem Drawn.body (hπ : Heeds π ini) (he : EnvRel Never env env') {n m : Node} (h : Trimmed ini n m) {c c' : Ctx} (hc : c'.ctm = c.ctm)
    (hd : Drawn ini c.style c'.style n m) (l : List (Pic P)) : body π env noVia c n l = body π env' noVia c' m l := by
  unfold Drawn at hd
  cases hk : n.kind with
  | comment s => unfold Render.body; rw [h.kind, hk]
  | other t => rw [hk] at hd; exact hd.elim
  | text s =>
    rw [hk] at hd
    unfold Render.body
    rw [h.kind, hk]
    simp only
    rw [hc]
    refine hπ.chars _ _ _ _ (hd.1.seen hπ.plain he) ?_
    rcases hd.2.seen hπ.plain he with h | ⟨h1, h2⟩
    · exact .inl h
    · exact .inr ⟨h1.via, h2.via⟩
  | elem e =>
    rw [hk] at hd
    obtain ⟨hu, ⟨text, h1, h3⟩, h2⟩ := hd
    rw [body_elem hk, body_elem (h.kind.trans hk), h.display, h.opacity, h.allowed]
    have hcore : core π env noVia (c.enter n) n e l = core π env' noVia (c'.enter m) m e l := by
      have ho := h.ownSeen he hk
      have hp : ∀ l, π.paint e (Render.own env n) (seenStyle env (c.enter n)) (c.enter n).ctm l =
          π.paint e (Render.own env' m) (seenStyle env' (c'.enter m)) (c'.enter m).ctm l := fun l => by
        rw [h.ctm hc]
        exact hπ.paint _ _ _ _ _ _ _ text ho (Ink.seen (c := c.enter n) (c' := c'.enter m) hπ.plain he h1)
          (h3.imp id fun h => ⟨h.1, NoUnits.seen (c := c.enter n) h.2.1, NoUnits.seen (c := c'.enter m) h.2.2⟩)
          (Colour.seen (c := c.enter n) (c' := c'.enter m) hπ.plain he h2)
      have hf : ∀ via p, π.frame e (Render.own env n) via (c.enter n).ctm p = π.frame e (Render.own env' m) via (c'.enter m).ctm p := fun via p => by
        rw [h.ctm hc]
        exact hπ.frame _ _ _ _ _ _ ho
      unfold core
      rw [if_neg hu, if_neg hu, hf, hf, hp, hp]
    have : inner π env noVia c n e l = inner π env' noVia c' m e l := by
      unfold inner
      rw [hcore, h.ctm hc]
      exact hπ.effect _ _ _ _ _ _ _ _ (effect_seen he (h.effect _ (by simp))) (effect_seen he (h.effect _ (by simp))) (effect_seen he (h.effect _ (by simp)))
    rw [this]

theorem Leaves.pics (hπ : Heeds π ini) (he : EnvRel Never env env') {s s' : Inherited} {f g : Forest} (h : Leaves ini s s' f g) {c c' : Ctx}
    (hs : c.style = s) (hs' : c'.style = s') (hc : c'.ctm = c.ctm) : pics π env c f = pics π env' c' g := by
  induction h generalizing c c' with
  | nil => rfl
  | @cons s s' n m k k' r r' h1 h2 _ _ ih1 ih2 =>
    simp only [Render.pics]
    subst hs hs'
    rw [ih2 rfl rfl hc, h1.kind, h1.allowed]
    congr 2
    unfold draw
    rw [h1.kind, ih1 (enter_inh c n) (enter_inh c' m) (h1.ctm hc), Drawn.body hπ he h1 hc h2]

theorem Leaves.here (hπ : Heeds π ini) (he : EnvRel Never env env') {s s' : Inherited} {f g : Forest} (h : Leaves ini s s' f g) {c c' : Ctx} (k : Nat)
    (hs : c.style = s) (hs' : c'.style = s') : hereOf π env k c f = hereOf π env' k c' g := by
  induction h generalizing c c' with
  | nil => rfl
  | @cons s s' n m k k' r r' h1 h2 h3 _ ih1 ih2 =>
    simp only [hereOf]
    subst hs hs'
    rw [ih2 rfl rfl, ih1 (enter_inh c n) (enter_inh c' m), h1.key,
      h3.pics hπ he (c := Ctx.enter ⟨c.style, one⟩ n) (c' := Ctx.enter ⟨c'.style, one⟩ m) rfl rfl (h1.ctm rfl),
      Drawn.body hπ he h1 (c := ⟨c.style, one⟩) (c' := ⟨c'.style, one⟩) rfl h2]

theorem Leaves.picture {f g : Forest} (h : Leaves ini Ctx.start.style Ctx.start.style f g) : SameRead ini f g := by
  intro P π hπ d
  have he : ∀ d, EnvRel Never (scene π f d) (scene π g d) := by
    intro d
    induction d with
    | zero => exact ⟨fun _ => rfl, fun _ _ _ h => h.elim⟩
    | succ d ih =>
      refine ⟨fun k => ?_, fun _ _ _ h => h.elim⟩
      simp only [scene]
      rw [h.here hπ ih k rfl rfl]
  unfold Render.picture
  rw [h.pics hπ (he d) (c := Ctx.start) (c' := Ctx.start) rfl rfl rfl]

end Verif.Reader
