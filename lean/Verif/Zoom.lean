import Verif.PlotProps
/-
C69: what it means that a renderer draws a scaled shape as the shape of the scaled outline, and when the picture of a document does not
depend on whether the transforms of shapes and paths are applied.
-/
namespace Verif.Zoom
open Verif.Dom Verif.Spec Verif.Render Verif.Plot
open Verif.Paths hiding Kind
open Verif.Paths (Transform)
open Verif.ConvShapes (Units takesMarkers)
open Verif.ApplyTs (Uniform Figure figure Viewport Stroke lenOr lensOr strokeAttrs coordAttrs SameBut isBasic specified pathOf)

/-! ### Specification -/

/-- The lengths that describe a stroke, with the initial values 1, none and 0. -/
def seenStroke {P : Type} (st : Style P) : Stroke :=
  ⟨lenOr 1 (Seen.value (st .strokeWidth)), lensOr (Seen.value (st .strokeDasharray)), lenOr 0 (Seen.value (st .strokeDashoffset))⟩

/-- The same properties, with the lengths of the stroke multiplied by `s`. -/
structure Zoomed {P : Type} (s : ℚ) (st st' : Style P) : Prop where
  rest : ∀ a ∉ strokeAttrs, st' a = st a
  stroke : seenStroke st' = (seenStroke st).scale s

/-- The outline of `m` is the image of that of `n` under a scale and translation `t`. -/
inductive Image (t : Transform) (n m : Node) : Prop
  | figure (hb : isBasic n.kind = true) (h : ∀ u : Viewport, figure u m = (figure u n).map (Figure.image t))
  | outline (hk : n.kind = .elem .path) {p q : Path} (hp : pathOf n = some p) (hq : pathOf m = some q)
      (h : trace q = (trace p).map (Event.image t t.a))

/-- The attributes that say where the outline of a shape is. -/
def placeAttrs : List AId := .transform :: .d :: (strokeAttrs ++ coordAttrs)

/-- A renderer for which a shape (without children, paint servers and markers) in a coordinate system that is scaled and translated is the same
as the scaled and translated shape with the scaled stroke. -/
structure Zooms {P : Type} (π : Painter P) : Prop where
  zoom : ∀ (env : Env P) (n m : Node) (e : EId) st st' (T t : Transform), n.kind = .elem e → Uniform t → SameBut placeAttrs n m → Image t n m →
    Zoomed t.a st st' → Seen.isRef (st .fill) = false → Seen.isRef (st .stroke) = false → (takesMarkers n.kind = true → Unmarked st) →
    π.paint e (own env n) st (mul T t) [] = π.paint e (own env m) st' T []

/-- The two documents are drawn the same by all renderers that draw shapes by their outlines, wherever the outlines are scaled. -/
def SameZoom (f g : Forest) : Prop :=
  ∀ (P : Type) (π : Painter P) (u : Units), Plots π u → Zooms π → ∀ d, picture π d f = picture π d g

/-- Every element with its ancestors (nearest first) and its children. -/
def places (anc : List Node) : Forest → List (Node × List Node × Forest)
  | .nil => []
  | .cons n k r => (n, anc, k) :: (places (n :: anc) k ++ places anc r)

/-- The value of a property that the children of the first of these elements inherit from them. -/
def given (a : AId) (anc : List Node) : Option Value := (anc.filterMap fun m => m.get a).head?

/-- The property is a reference. -/
def refers (v : Option Value) : Bool := v.any fun w => w.target.isSome

/-- The property is a paint. -/
def paints (v : Option Value) : Bool := v.any fun w => decide (w ≠ .kw .none)

def refAttrs : List AId := .fill :: .stroke :: markerAttrs

/-- `inherit` has been resolved, and the properties have values of the right type. -/
structure PaintOk (n : Node) : Prop where
  inherit : ∀ a ∈ strokeAttrs ++ refAttrs, n.get a ≠ some (.kw .inherit)
  stroke : ApplyTs.StrokeOk n
  link : ∀ a ∈ [AId.fill, .stroke], ∀ k, n.get a ≠ some (.link k)

/-- Two values of each property such that what is true of an element with the first ones is true with the second ones: the same stroke
lengths, and no more references or strokes. -/
structure AsGiven (v s : AId → Option Value) : Prop where
  lengths : ∀ a ∈ strokeAttrs, s a = v a
  refs : ∀ a ∈ refAttrs, refers (s a) = true → refers (v a) = true
  strokes : paints (s .stroke) = true → paints (v .stroke) = true

/-- Every `use` element that shows something in which there is an element with `p` (or another `use` element) gives it the same stroke lengths
as the place where it stands, and no more references or strokes. -/
def UsesAgree (p : Node → Bool) (f : Forest) : Prop :=
  ∀ x ∈ places [] f, x.1.kind = .elem .use → ∀ y ∈ places [] f, x.1.get .xlinkHref = some (.link y.1.key) →
    (y.1 :: y.2.2.nodes).any (fun n => p n || n.isTag .use) = true → AsGiven (fun a => given a y.2.1) (fun a => given a (x.1 :: x.2.1))

/-! ### Proof -/

theorem given_cons (a : AId) (n : Node) (anc : List Node) : given a (n :: anc) = (n.get a).or (given a anc) := by
  unfold given
  rw [List.filterMap_cons]
  cases n.get a <;> rfl

theorem given_specified (a : AId) (n : Node) (anc : List Node) : specified a n anc = given a (n :: anc) := rfl

theorem inherits_of {a : AId} (h : a ∈ strokeAttrs ++ refAttrs) : inherits a = true := by
  have : ∀ a ∈ strokeAttrs ++ refAttrs, inherits a = true := by decide
  exact this a h

theorem enter_given {n : Node} (hn : ∀ a ∈ strokeAttrs ++ refAttrs, n.get a ≠ some (.kw .inherit)) (c : Ctx) {a : AId} (ha : a ∈ strokeAttrs ++ refAttrs) :
    (c.enter n).style a = (n.get a).or (c.style a) := by
  have := hn a ha
  simp only [Ctx.enter, inherits_of ha, if_true]
  cases hg : n.get a with
  | none => rfl
  | some v =>
    rw [hg] at this
    simp only
    rw [if_neg (fun e => this (by rw [e]))]
    rfl

theorem AsGiven.enter {n : Node} {anc : List Node} (hn : PaintOk n) {c : Ctx} (h : AsGiven (fun a => given a anc) c.style) :
    AsGiven (fun a => given a (n :: anc)) (c.enter n).style := by
  refine ⟨fun a ha => ?_, fun a ha => ?_, ?_⟩
  · rw [enter_given hn.inherit c (List.mem_append_left _ ha), given_cons, h.lengths a ha]
  · rw [enter_given hn.inherit c (List.mem_append_right _ ha), given_cons]
    cases n.get a with
    | none => exact h.refs a ha
    | some v => exact fun h => h
  · rw [enter_given hn.inherit c (by simp [refAttrs]), given_cons]
    cases n.get .stroke with
    | none => exact h.strokes
    | some v => exact fun h => h

theorem AsGiven.trans {u v s : AId → Option Value} (h1 : AsGiven u v) (h2 : AsGiven v s) : AsGiven u s :=
  ⟨fun a ha => (h2.lengths a ha).trans (h1.lengths a ha), fun a ha h => h1.refs a ha (h2.refs a ha h), fun h => h1.strokes (h2.strokes h)⟩

theorem AsGiven.start : AsGiven (fun a => given a []) Ctx.start.style :=
  ⟨fun _ _ => rfl, fun _ _ h => (by cases h), fun h => (by cases h)⟩

def sens (p : Node → Bool) (n : Node) : Bool := p n || n.isTag .use

/-- The contexts in which the elements of `f` may be shown by `use` elements. -/
def Shown (p : Node → Bool) (f : Forest) (k : Nat) (s : Inherited) : Prop :=
  ∀ y ∈ places [] f, y.1.key = k → (y.1 :: y.2.2.nodes).any (sens p) = true → AsGiven (fun a => given a y.2.1) s

variable {P : Type} {π : Painter P}

/-- An element without children. -/
theorem SameNode.leaf {U : Nat → Inherited → Prop} {Q : Inherited → Prop} {p : Kind} {n m : Node} (hkey : m.key = n.key) (hk : m.kind = n.kind)
    (ha : Render.allowed π m = Render.allowed π n)
    (h : ∀ env env' via (c : Ctx), EnvRel U env env' → Q c.style → Render.body π env via c n [] = Render.body π env' via c m []) :
    SameNode π U Q p n .nil m .nil :=
  ⟨hkey, ha, .inl hk, h, fun _ _ _ _ _ _ _ => rfl, fun _ _ _ _ _ _ => rfl⟩

theorem SameNode.mono {U : Nat → Inherited → Prop} {Q Q' : Inherited → Prop} {p : Kind} {n m : Node} {k k' : Forest} (h : SameNode π U Q p n k m k')
    (hq : ∀ s, Q' s → Q s) : SameNode π U Q' p n k m k' :=
  ⟨h.key, h.allowed, h.kind, fun env env' via c he hc => h.body env env' via c he (hq _ hc), h.inst, fun env env' c x he hc => h.here env env' c x he (hq _ hc)⟩

theorem map_redraws {p : Node → Bool} {f0 : Forest} (hok : ∀ n ∈ f0.nodes, PaintOk n) (hu : UsesAgree p f0)
    {body : List Node → Node → Option Node} (hb : ∀ x ∈ places [] f0, ∀ m q, body x.2.1 x.1 = some m → m = x.1 ∨ x.2.2 = .nil ∧
      SameNode π (Shown p f0) (fun s => p x.1 = true → AsGiven (fun a => given a x.2.1) s) q x.1 .nil m .nil)
    {anc : List Node} {f g : Forest} (hf : ∀ x ∈ places anc f, x ∈ places [] f0) (hn : ∀ n ∈ f.nodes, n ∈ f0.nodes) (h : f.mapCtx body anc = some g)
    (q : Kind) : Redraws π (Shown p f0) (fun s => f.nodes.any (sens p) = true → AsGiven (fun a => given a anc) s) q f g := by
  induction f generalizing g anc q with
  | nil => simp [Forest.mapCtx] at h; rw [← h]; exact Redraws.nil
  | cons n k r ih1 ih2 =>
    simp only [Forest.mapCtx, Option.bind_eq_some_iff, Option.map_eq_some_iff] at h
    obtain ⟨m, hm, k', hk, r', hr, rfl⟩ := h
    have hx : (n, anc, k) ∈ places [] f0 := hf _ List.mem_cons_self
    have hr' := ih2 (fun x hx => hf x (List.mem_cons_of_mem _ (List.mem_append_right _ hx))) (fun x hx => hn x (by simp [hx])) hr q
    refine Redraws.cons (Q1 := fun s => (n :: k.nodes).any (sens p) = true → AsGiven (fun a => given a anc) s) ?_ hr' ?_ ?_ ?_
    · rcases hb _ hx m q hm with e | ⟨h2, h3⟩
      · simp only at e
        subst e
        have hk' := ih1 (fun x hx => hf x (List.mem_cons_of_mem _ (List.mem_append_left _ hx))) (fun x hx => hn x (by simp [hx])) hk m.kind
        have ok := hok m (hn m (by simp))
        refine SameNode.same hk' (fun c hc hs => ?_) fun hk x hx' c hc y hy hyk hys => ?_
        · exact (hc (by rw [List.any_cons, hs, Bool.or_true])).enter ok
        · have hs : (m :: k.nodes).any (sens p) = true := by
            rw [List.any_cons]
            have : m.isTag .use = true := (Node.isTag_iff _ _).2 hk
            simp [sens, this]
          exact (hu _ hx hk y hy (by rw [hyk]; exact hx') hys).trans ((hc hs).enter ok)
      · simp only at h2
        subst h2
        have : k' = .nil := by simpa [Forest.mapCtx] using hk.symm
        subst this
        refine ⟨h3.key, h3.allowed, h3.kind, fun env env' via c he hc => h3.body env env' via c he fun h1 => hc ?_, h3.inst, fun env env' c x he hc => rfl⟩
        simp only at h1
        simp [sens, h1]
    · intro s hs ha
      refine hs ?_
      simp only [Forest.nodes, List.any_cons, List.any_append] at ha ⊢
      rw [Bool.or_eq_true] at ha
      rcases ha with h | h <;> simp [h]
    · intro s hs ha
      refine hs ?_
      simp only [Forest.nodes, List.any_cons, List.any_append]
      simp [ha]
    · intro s hs ha
      exact hs _ hx rfl ha

theorem map_picture {p : Node → Bool} {f g : Forest} (hok : ∀ n ∈ f.nodes, PaintOk n) (hu : UsesAgree p f)
    {body : List Node → Node → Option Node} (hb : ∀ x ∈ places [] f, ∀ m q, body x.2.1 x.1 = some m → m = x.1 ∨ x.2.2 = .nil ∧
      SameNode π (Shown p f) (fun s => p x.1 = true → AsGiven (fun a => given a x.2.1) s) q x.1 .nil m .nil) (h : f.mapCtx body [] = some g) (d : Nat) :
    picture π d f = picture π d g :=
  (map_redraws hok hu hb (fun _ h => h) (fun _ h => h) h top).picture (fun _ => AsGiven.start) d

end Verif.Zoom
