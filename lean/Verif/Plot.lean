import Verif.RenderDrop
import Verif.ConvShapesProps
import Verif.PathConv
/-
C68: what it means that a renderer draws shapes by their outlines, and when the picture of a document does not depend on how the outlines are
written.
-/
namespace Verif.Plot
open Verif.Dom Verif.Spec Verif.Render
open Verif.Paths hiding Kind
open Verif.Paths (Transform)
open Verif.ConvShapes (Units Geometry geometry geometryAttrs takesMarkers)

/-! ### Specification -/

/-- Shapes whose outlines are made of lines and curves. -/
def isShape : EId → Bool
  | .line | .rect | .polyline | .polygon | .path => true
  | _ => false

def markerAttrs : List AId := [.marker, .markerStart, .markerMid, .markerEnd]

/-- No markers are drawn with these properties. -/
def Unmarked {P : Type} (st : Style P) : Prop := ∀ a ∈ markerAttrs, Seen.isRef (st a) = false

/-- No stroke is drawn with these properties. -/
def Unstroked {P : Type} (st : Style P) : Prop := st .stroke = none ∨ st .stroke = some (.plain (.kw .none))

/-- The same curves are drawn, in the same order, with the same pen movements. -/
inductive SameTrace : Geometry → Geometry → Prop
  | refl (g : Geometry) : SameTrace g g
  | outline {l l' : List Event} (h : TraceAlike l l') : SameTrace (.outline l) (.outline l')

/-- The same curves bound the same subpaths; curves of length zero do not count. -/
inductive SameArea : Geometry → Geometry → Prop
  | refl (g : Geometry) : SameArea g g
  | outline {l l' : List Event} (h : List.Forall₂ (List.Forall₂ DrawnAlike) (outlineFrom [] l) (outlineFrom [] l')) : SameArea (.outline l) (.outline l')

/-- The two elements are shapes that differ in nothing but the way their outline is written. -/
structure Reshaped (n m : Node) : Prop where
  old : ∃ e, n.kind = .elem e ∧ isShape e = true
  new : ∃ e, m.kind = .elem e ∧ isShape e = true
  rest : ∀ b, (∀ a ∈ geometryAttrs, b ≠ .id a) → getAttr m.attrs b = getAttr n.attrs b

/-- A renderer that draws a shape by its outline: shapes with the same trace look the same, if they agree on whether there are markers;
without markers and stroke, only the area matters. -/
structure Plots {P : Type} (π : Painter P) (u : Units) : Prop where
  trace : ∀ (env : Env P) (n m : Node) (e e' : EId) st t l, n.kind = .elem e → m.kind = .elem e' → Reshaped n m →
    SameTrace (geometry u n) (geometry u m) → (takesMarkers n.kind = takesMarkers m.kind ∨ Unmarked st) →
    π.paint e (own env n) st t l = π.paint e' (own env m) st t l
  area : ∀ (env : Env P) (n m : Node) (e e' : EId) st t l, n.kind = .elem e → m.kind = .elem e' → Reshaped n m →
    SameArea (geometry u n) (geometry u m) → Unmarked st → Unstroked st →
    π.paint e (own env n) st t l = π.paint e' (own env m) st t l

/-- The two documents are drawn the same by all renderers that draw shapes by their outlines. -/
def SamePlot (f g : Forest) : Prop := ∀ (P : Type) (π : Painter P) (u : Units), Plots π u → ∀ d, picture π d f = picture π d g

/-- The same, when references are followed to any sufficiently large depth. -/
def SamePlotView (f g : Forest) : Prop := ∀ (P : Type) (π : Painter P) (u : Units), Plots π u → ∃ D, ∀ d ≥ D, picture π d f = picture π d g

theorem SamePlot.view {f g : Forest} (h : SamePlot f g) : SamePlotView f g := fun P π u hu => ⟨0, fun d _ => h P π u hu d⟩

theorem SamePlotView.of_view {f g : Forest} (h : SameView f g) : SamePlotView f g := fun P π _ _ => h P π

theorem SamePlotView.trans {f g h : Forest} (h1 : SamePlotView f g) (h2 : SamePlotView g h) : SamePlotView f h := fun P π u hu => by
  obtain ⟨D, hD⟩ := h1 P π u hu
  obtain ⟨E, hE⟩ := h2 P π u hu
  exact ⟨max D E, fun d hd => (hD d (le_trans (le_max_left _ _) hd)).trans (hE d (le_trans (le_max_right _ _) hd))⟩

/-! ### Documents whose pictures agree in some contexts -/

abbrev Inherited := AId → Option Value

/-- The pictures of the elements where they stand are the same, and as shown by `use` elements in contexts with `U`. -/
structure EnvRel {P : Type} (U : Nat → Inherited → Prop) (env env' : Env P) : Prop where
  here : ∀ k, env.here k = env'.here k
  inst : ∀ k (c : Ctx) via, U k c.style → env.inst k c via = env'.inst k c via

variable {P : Type} {π : Painter P} {U : Nat → Inherited → Prop} {env env' : Env P}

theorem EnvRel.see (h : EnvRel U env env') (v : Value) : see env v = see env' v := by unfold Render.see; split <;> [rw [h.here]; rfl]

theorem EnvRel.own (h : EnvRel U env env') (n : Node) : own env n = own env' n := by
  funext x
  unfold Render.own
  split
  · congr 1; funext y; exact h.see _
  · rfl

theorem EnvRel.style (h : EnvRel U env env') (c : Ctx) : seenStyle env c = seenStyle env' c := by
  funext a
  unfold seenStyle
  congr 1
  funext v
  exact h.see v

theorem EnvRel.attr (h : EnvRel U env env') (n : Node) (a : AId) : seenAttr env n a = seenAttr env' n a := by
  unfold seenAttr
  congr 1
  funext v
  cases v <;> first | rfl | (simp only [seeFunc]; rw [h.here])

theorem EnvRel.body (h : EnvRel U env env') (via : Attrs P) (c : Ctx) (n : Node) (kids : List (Pic P))
    (hu : n.kind = .elem .use → ∀ k, n.get .xlinkHref = some (.link k) → U k (c.enter n).style) : body π env via c n kids = body π env' via c n kids := by
  cases hk : n.kind with
  | text s => unfold Render.body; rw [hk]; simp only; rw [h.style]
  | comment s => unfold Render.body; rw [hk]
  | other t =>
    unfold Render.body
    rw [hk]
    simp only
    rw [h.style]
    congr 1
    funext x
    congr 1
    funext y
    exact h.see _
  | elem e =>
    rw [body_elem hk, body_elem hk]
    have : inner π env via c n e kids = inner π env' via c n e kids := by
      unfold inner core
      rw [h.attr, h.attr, h.attr, h.own, h.style]
      by_cases he : e = .use
      · subst he
        have : useOf π env (c.enter n) n = useOf π env' (c.enter n) n := by
          unfold useOf viaOf
          split
          next k hg =>
            rw [h.own]
            exact h.inst _ _ _ (hu hk k hg)
          next => rfl
        rw [this]
      · simp only [he, if_false]
    rw [this]

/-- Siblings in an element of kind `p` have the same pictures in contexts with `Q`. -/
structure Redraws (π : Painter P) (U : Nat → Inherited → Prop) (Q : Inherited → Prop) (p : Kind) (f g : Forest) : Prop where
  equiv : ∀ env env' (c : Ctx), EnvRel U env env' → Q c.style → Equiv π p (pics π env c f) (pics π env' c g)
  inst : ∀ env env' via (c : Ctx) k, EnvRel U env env' → U k c.style → instOf π env via c k f = instOf π env' via c k g
  here : ∀ env env' (c : Ctx) k, EnvRel U env env' → Q c.style → hereOf π env k c f = hereOf π env' k c g

theorem Redraws.nil {Q : Inherited → Prop} {p : Kind} : Redraws π U Q p .nil .nil :=
  ⟨fun _ _ _ _ _ => Render.Equiv.refl p [], fun _ _ _ _ _ _ _ => rfl, fun _ _ _ _ _ _ => rfl⟩

def shapeKind : Kind → Bool
  | .elem e => isShape e
  | _ => false

/-- Two elements with their children. -/
structure SameNode (π : Painter P) (U : Nat → Inherited → Prop) (Q : Inherited → Prop) (p : Kind) (n : Node) (k : Forest) (m : Node) (k' : Forest) : Prop where
  key : m.key = n.key
  allowed : Render.allowed π m = Render.allowed π n
  kind : m.kind = n.kind ∨ groupPlace p = true ∧ shapeKind n.kind = true ∧ shapeKind m.kind = true
  body : ∀ env env' via (c : Ctx), EnvRel U env env' → Q c.style →
    Render.body π env via c n (pics π env (c.enter n) k) = Render.body π env' via c m (pics π env' (c.enter m) k')
  inst : ∀ env env' via (c : Ctx) x, EnvRel U env env' → U x c.style → instOf π env via c x k = instOf π env' via c x k'
  here : ∀ env env' (c : Ctx) x, EnvRel U env env' → Q c.style → hereOf π env x (c.enter n) k = hereOf π env' x (c.enter m) k'

theorem shapeKind_facts {k : Kind} (h : shapeKind k = true) :
    isElem k = true ∧ isChars k = false ∧ neverRendered k = false ∧ clipKind k = true ∧ takesTransform k = true ∧ groupPlace k = false := by
  cases k with
  | elem e => cases e <;> first | (cases h; done) | exact ⟨rfl, rfl, rfl, rfl, rfl, rfl⟩
  | _ => cases h

theorem Equiv.swap {p : Kind} {l l' : List (Pic P)} (h : Equiv π p l l') {x y : Pic P} (hp : y.pic = x.pic) (hc : y.chosen = x.chosen)
    (hk : y.kind = x.kind ∨ groupPlace p = true ∧ shapeKind x.kind = true ∧ shapeKind y.kind = true) : Equiv π p (x :: l) (y :: l') := by
  rcases hk with hk | ⟨hg, h1, h2⟩
  · have : y = x := by cases x; cases y; simp only at *; subst hp; subst hc; subst hk; rfl
    rw [this]
    exact h.cons x
  · obtain ⟨a1, a2, a3, a4, _, _⟩ := shapeKind_facts h1
    obtain ⟨b1, b2, b3, b4, _, _⟩ := shapeKind_facts h2
    refine ⟨fun h1 h2 => ?_, fun h1 => ?_, fun h1 => ?_, fun h1 => ?_⟩
    · obtain ⟨a, b⟩ := h.stacked h1 h2
      rw [stack_cons, stack_cons, stack_cons, stack_cons, a, b]
      simp only [a1, b1, hp, and_self, Bool.true_or]
    · rw [choose_cons, choose_cons, h.chosen h1, a1, b1, a3, b3, hc, hp]
    · have := h.filtered h1
      unfold clipKids at this ⊢
      rw [List.filter_cons, List.filter_cons, if_pos a4, if_pos b4, List.map_cons, List.map_cons, this, hc, hp]
    · rw [h1] at hg; cases hg

theorem Redraws.cons {Q Q1 Q2 : Inherited → Prop} {p : Kind} {n m : Node} {k k' r r' : Forest} (h : SameNode π U Q1 p n k m k')
    (hr : Redraws π U Q2 p r r') (h1 : ∀ s, Q s → Q1 s) (h2 : ∀ s, Q s → Q2 s) (hq : ∀ s, U n.key s → Q1 s) :
    Redraws π U Q p (.cons n k r) (.cons m k' r') := by
  refine ⟨fun env env' c he hc => ?_, fun env env' via c x he hc => ?_, fun env env' c x he hc => ?_⟩
  · simp only [pics]
    refine Equiv.swap (hr.equiv env env' c he (h2 _ hc)) ?_ h.allowed h.kind
    simp only [draw]
    have : neverRendered m.kind = neverRendered n.kind := by
      rcases h.kind with e | ⟨_, h1, h2⟩
      · rw [e]
      · rw [(shapeKind_facts h1).2.2.1, (shapeKind_facts h2).2.2.1]
    rw [this, h.body env env' noVia c he (h1 _ hc)]
  · simp only [instOf]
    rw [h.key]
    by_cases hx : n.key = x
    · rw [if_pos hx, if_pos hx, h.body env env' via c he (hq _ (by rw [hx]; exact hc))]
    · rw [if_neg hx, if_neg hx, h.inst env env' via c x he hc, hr.inst env env' via c x he hc]
  · simp only [hereOf]
    rw [h.key, h.body env env' noVia ⟨c.style, one⟩ he (h1 _ hc), h.here env env' c x he (h1 _ hc), hr.here env env' c x he (h2 _ hc)]

/-- The same element, with other children. -/
theorem SameNode.same {Q Q' : Inherited → Prop} {p : Kind} {n : Node} {k k' : Forest} (h : Redraws π U Q' n.kind k k')
    (hq : ∀ c : Ctx, Q c.style → Q' (c.enter n).style) (hu : n.kind = .elem .use → ∀ x, n.get .xlinkHref = some (.link x) → ∀ c : Ctx, Q c.style → U x (c.enter n).style) :
    SameNode π U Q p n k n k' := by
  refine ⟨rfl, rfl, .inl rfl, fun env env' via c he hc => ?_, h.inst, fun env env' c x he hc => h.here _ _ _ _ he (hq c hc)⟩
  rw [body_equiv (h.equiv env env' _ he (hq c hc)), he.body via c n _ (fun e x hx => hu e x hx c hc)]

theorem not_geometry {a : AId} (h : isOwn (.id a) = false) : ∀ b ∈ geometryAttrs, (AName.id a) ≠ .id b := by
  rintro b hb e
  injection e with e
  subst e
  simp only [geometryAttrs, List.mem_cons, List.not_mem_nil, or_false] at hb
  rcases hb with rfl | rfl | rfl | rfl | rfl | rfl | rfl | rfl | rfl | rfl | rfl | rfl <;> cases h

theorem Reshaped.get {n m : Node} (h : Reshaped n m) {a : AId} (ha : isOwn (.id a) = false) : m.get a = n.get a := by
  unfold Node.get; rw [h.rest _ (not_geometry ha)]

theorem Reshaped.shapes {n m : Node} (h : Reshaped n m) : shapeKind n.kind = true ∧ shapeKind m.kind = true := by
  obtain ⟨e, h1, h2⟩ := h.old
  obtain ⟨e', h3, h4⟩ := h.new
  rw [h1, h3]
  exact ⟨h2, h4⟩

theorem Reshaped.enter {n m : Node} (h : Reshaped n m) (c : Ctx) : c.enter m = c.enter n := by
  unfold Ctx.enter
  rw [(shapeKind_facts h.shapes.1).2.2.2.2.1, (shapeKind_facts h.shapes.2).2.2.2.2.1]
  unfold nodeTransform
  rw [h.get (by decide)]
  congr 1
  funext a
  cases ha : inherits a with
  | false => simp
  | true => rw [h.get (by simp [isOwn, ha])]

/-- A shape whose outline is written in another way. -/
theorem SameNode.reshaped {Q : Inherited → Prop} {p : Kind} {n m : Node} {k k' : Forest} (h : Reshaped n m) (hkey : m.key = n.key)
    (hp : groupPlace p = true ∨ m.kind = n.kind) {Q' : Inherited → Prop} (hk : Redraws π U Q' n.kind k k')
    (hq : ∀ c : Ctx, Q c.style → Q' (c.enter n).style)
    (hs : ∀ (env : Env P) (c : Ctx) e e' t l, Q c.style → n.kind = .elem e → m.kind = .elem e' →
      π.paint e (own env n) (seenStyle env (c.enter n)) t l = π.paint e' (own env m) (seenStyle env (c.enter n)) t l) :
    SameNode π U Q p n k m k' := by
  obtain ⟨f1, f2⟩ := h.shapes
  have ha : Render.allowed π m = Render.allowed π n := by
    unfold Render.allowed holds
    rw [h.get (by decide), h.get (by decide), h.get (by decide)]
  refine ⟨hkey, ha, ?_, fun env env' via c he hc => ?_, hk.inst, fun env env' c x he hc => ?_⟩
  · rcases hp with hp | hp
    · exact .inr ⟨hp, f1, f2⟩
    · exact .inl hp
  · have hkids := (hk.equiv env env' _ he (hq c hc)).strict (shapeKind_facts f1).2.2.2.2.2
    rw [h.enter, ← hkids]
    obtain ⟨e, h1, h2⟩ := h.old
    obtain ⟨e', h3, h4⟩ := h.new
    rw [body_elem h1, body_elem h3]
    have hn : neverRendered (.elem e) = false := (shapeKind_facts (k := .elem e) h2).2.2.1
    have hm : neverRendered (.elem e') = false := (shapeKind_facts (k := .elem e') h4).2.2.1
    have hh : hiddenBy m = hiddenBy n := by unfold hiddenBy; rw [h.get (by decide)]
    have ho : opacityOf m = opacityOf n := by unfold opacityOf; rw [h.get (by decide)]
    rw [hn, hm, hh, ho, ha]
    have hc' : ∀ (env : Env P) (x : Node) (e : EId) (c : Ctx) l, isShape e = true → core π env via c x e l = π.paint e (own env x) (seenStyle env c) c.ctm l := by
      intro env x e c l he
      unfold core
      cases e <;> first | (cases he; done) | rfl
    have : inner π env via c n e (pics π env (c.enter n) k) = inner π env' via c m e' (pics π env (c.enter n) k) := by
      unfold inner
      rw [h.enter, hc' _ _ _ _ _ h2, hc' _ _ _ _ _ h4]
      unfold seenAttr
      rw [h.get (a := .mask) (by decide), h.get (a := .clipPath) (by decide), h.get (a := .filter) (by decide)]
      change π.effect (seenAttr env n .mask) (seenAttr env n .clipPath) (seenAttr env n .filter) _ _ = π.effect (seenAttr env' n .mask) (seenAttr env' n .clipPath) (seenAttr env' n .filter) _ _
      rw [he.attr, he.attr, he.attr, hs env c e e' _ _ hc h1 h3, he.own, he.style]
    rw [this]
    rfl
  · rw [h.enter]
    exact hk.here _ _ _ _ he (hq c hc)

theorem Redraws.scene {f g : Forest} {Q : Inherited → Prop} (h : Redraws π U Q top f g) (hq : Q Ctx.start.style) (d : Nat) :
    EnvRel U (scene π f d) (scene π g d) := by
  induction d with
  | zero => exact ⟨fun _ => rfl, fun _ _ _ _ => rfl⟩
  | succ d ih =>
    refine ⟨fun k => ?_, fun k c via hc => ?_⟩
    · simp only [Render.scene]
      rw [h.here _ _ Ctx.start k ih hq]
    · simp only [Render.scene]
      rw [h.inst _ _ via c k ih hc]

/-- Documents whose pictures agree. -/
theorem Redraws.picture {f g : Forest} {Q : Inherited → Prop} (h : Redraws π U Q top f g) (hq : Q Ctx.start.style) (d : Nat) :
    picture π d f = picture π d g := by
  unfold Render.picture
  exact ((h.equiv _ _ Ctx.start (h.scene hq d) hq).stacked (by decide) (by decide)).1

end Verif.Plot
