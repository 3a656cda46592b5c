import Verif.Zoom
/-
C69: applying the transforms of shapes and paths keeps the picture.
-/
namespace Verif.Zoom
open Verif.Dom Verif.Spec Verif.Render Verif.Plot
open Verif.Paths hiding Kind
open Verif.Paths (Transform)
open Verif.ConvShapes (Units takesMarkers)
open Verif.ApplyTs hiding isShape
open Verif.Stops (modValue)

variable {P : Type} {π : Painter P}

theorem lenOr_see (env : Env P) (d : ℚ) (v : Option Value) : lenOr d (Seen.value (v.map (see env))) = lenOr d v := by
  cases v with
  | none => rfl
  | some v => cases v <;> rfl

theorem lensOr_see (env : Env P) (v : Option Value) : lensOr (Seen.value (v.map (see env))) = lensOr v := by
  cases v with
  | none => rfl
  | some v => cases v <;> rfl

theorem seenStroke_eq (env : Env P) {c : Ctx} {n : Node} {anc : List Node} (hn : ∀ a ∈ strokeAttrs, n.get a ≠ some (.kw .inherit))
    (hc : AsGiven (fun a => given a anc) c.style) : seenStroke (seenStyle env (c.enter n)) = stroke n anc := by
  have key : ∀ a ∈ strokeAttrs, (c.enter n).style a = specified a n anc := by
    intro a ha
    have h1 := hn a ha
    rw [given_specified, given_cons, ← hc.lengths a ha]
    simp only [Ctx.enter, inherits_of (List.mem_append_left _ ha), if_true]
    cases hg : n.get a with
    | none => rfl
    | some v =>
      rw [hg] at h1
      simp only
      rw [if_neg (fun e => h1 (by rw [e]))]
      rfl
  unfold seenStroke stroke seenStyle
  rw [lenOr_see, lensOr_see, lenOr_see, key _ (by decide), key _ (by decide), key _ (by decide)]

theorem place_get {n m : Node} (h : SameBut placeAttrs n m) {a : AId} (ha : a ∉ placeAttrs) : m.get a = n.get a := h.get ha

theorem enter_rest {n m : Node} (h : SameBut placeAttrs n m) (c : Ctx) {a : AId} (ha : a ∉ strokeAttrs) :
    (c.enter m).style a = (c.enter n).style a := by
  simp only [Ctx.enter]
  cases hi : inherits a with
  | false => rfl
  | true =>
    have : a ∉ placeAttrs := by
      intro h'
      have : ∀ a ∈ placeAttrs, inherits a = true → a ∈ strokeAttrs := by decide
      exact ha (this a h' hi)
    rw [h.get this]

theorem isRef_see (env : Env P) (v : Option Value) : Seen.isRef (v.map (see env)) = refers v := by
  cases v with
  | none => rfl
  | some v => cases v <;> rfl

theorem noRef {env : Env P} {n : Node} {anc : List Node} {c : Ctx} (hn : PaintOk n) (hc : AsGiven (fun a => given a anc) c.style) {a : AId}
    (ha : a ∈ refAttrs) (h : refers (specified a n anc) = false) : Seen.isRef (seenStyle env (c.enter n) a) = false := by
  unfold seenStyle
  rw [isRef_see]
  have := (hc.enter hn).refs a ha
  rw [← given_specified] at this
  cases hr : refers ((c.enter n).style a) with
  | false => rfl
  | true => rw [this hr] at h; cases h

theorem noEffect {env : Env P} {n : Node} {anc : List Node} (h : Unlinked (n, anc)) {a : AId} (ha : a ∈ [AId.fill, .stroke, .filter, .mask, .clipPath]) :
    Seen.isRef (seenAttr env n a) = false := by
  unfold seenAttr
  cases hg : n.get a with
  | none => rfl
  | some v =>
    have := h a ha
    cases v <;> first | rfl | exact absurd (specified_own hg) (this _)

/-- A shape and the shape that results when its transform is applied. -/
theorem SameNode.zoomed {U : Nat → Inherited → Prop} {p : Kind} {n m : Node} {anc : List Node} {t : Transform} {e : EId} (he : n.kind = .elem e)
    (hs : Plot.isShape e = true ∨ isBasic (.elem e) = true) (ht : n.get .transform = some (.transform t)) (hm : m.get .transform = none)
    (hu : Unlinked (n, anc)) (hsame : SameBut placeAttrs n m)
    (h : ∀ (env : Env P) (c : Ctx) (T : Transform), AsGiven (fun a => given a anc) c.style →
      π.paint e (own env n) (seenStyle env (c.enter n)) (mul T t) [] = π.paint e (own env m) (seenStyle env (c.enter m)) T []) :
    SameNode π U (AsGiven fun a => given a anc) p n .nil m .nil := by
  have hk : takesTransform (.elem e) = true ∧ (∀ (env : Env P) via c x l, core π env via c x e l = π.paint e (own env x) (seenStyle env c) c.ctm l) := by
    have : e ∈ [EId.line, .rect, .polyline, .polygon, .path, .circle, .ellipse] := by
      rcases hs with h | h
      · cases e <;> first | (cases h; done) | simp
      · simp only [isBasic, decide_eq_true_eq, List.mem_cons, List.not_mem_nil, or_false] at h
        rcases h with rfl | rfl | rfl | rfl <;> simp
    simp only [List.mem_cons, List.not_mem_nil, or_false] at this
    rcases this with rfl | rfl | rfl | rfl | rfl | rfl | rfl <;> exact ⟨rfl, fun _ _ _ _ _ => rfl⟩
  have hmk : m.kind = .elem e := hsame.kind.trans he
  have ha : Render.allowed π m = Render.allowed π n := by
    unfold Render.allowed holds
    rw [hsame.get (by decide), hsame.get (by decide), hsame.get (by decide)]
  refine SameNode.leaf hsame.key hsame.kind ha fun env env' via c hr hc => ?_
  rw [body_elem he, body_elem hmk]
  have hh : hiddenBy m = hiddenBy n := by unfold hiddenBy; rw [hsame.get (by decide)]
  have ho : opacityOf m = opacityOf n := by unfold opacityOf; rw [hsame.get (by decide)]
  have hi : inner π env via c n e [] = inner π env' via c m e [] := by
    unfold inner
    rw [π.no_effect _ _ _ _ _ (noEffect hu (by simp)) (noEffect hu (by simp)) (noEffect hu (by simp))]
    have : ∀ a, a ∈ [AId.mask, .clipPath, .filter] → Seen.isRef (seenAttr env' m a) = false := by
      intro a ha
      unfold seenAttr
      have h1 : ∀ a ∈ [AId.mask, .clipPath, .filter], a ∉ placeAttrs ∧ a ∈ [AId.fill, .stroke, .filter, .mask, .clipPath] := by decide
      rw [hsame.get (h1 a ha).1]
      exact noEffect (env := env') hu (h1 a ha).2
    rw [π.no_effect _ _ _ _ _ (this _ (by simp)) (this _ (by simp)) (this _ (by simp)), hk.2, hk.2, ← hr.own, ← hr.style]
    have e1 : (c.enter n).ctm = mul c.ctm t := by
      simp only [Ctx.enter]
      rw [he, hk.1, if_pos rfl]
      unfold nodeTransform
      rw [ht]
    have e2 : (c.enter m).ctm = c.ctm := by
      simp only [Ctx.enter]
      rw [hmk, hk.1, if_pos rfl]
      unfold nodeTransform
      rw [hm]
      obtain ⟨⟩ := c
      simp [mul, one]
    rw [e1, e2]
    exact h env c c.ctm hc
  rw [hi, ha, hh, ho]

/-- The law of the renderer, for an element in a document. -/
theorem zoom_paint (hz : Zooms π) {n m : Node} {anc : List Node} {t : Transform} {e : EId} (he : n.kind = .elem e) (hu : Unlinked (n, anc)) (ht : Uniform t)
    (hok : PaintOk n) (hanc : ∀ a ∈ anc, PaintOk a) (hm : ∀ a ∈ strokeAttrs, m.get a ≠ some (.kw .inherit)) (hsame : SameBut placeAttrs n m) (hi : Image t n m)
    (hst : stroke m anc = (stroke n anc).scale t.a) (hmk : takesMarkers n.kind = true → ∀ a ∈ markerAttrs, refers (specified a n anc) = false)
    (env : Env P) (c : Ctx) (T : Transform) (hc : AsGiven (fun a => given a anc) c.style) :
    π.paint e (own env n) (seenStyle env (c.enter n)) (mul T t) [] = π.paint e (own env m) (seenStyle env (c.enter m)) T [] := by
  have hr : ∀ a ∈ [AId.fill, .stroke], refers (specified a n anc) = false := by
    intro a ha
    have h1 : ∀ a ∈ [AId.fill, .stroke], a ∈ [AId.fill, .stroke, .filter, .mask, .clipPath] := by decide
    cases hv : specified a n anc with
    | none => rfl
    | some v =>
      cases v with
      | funcLink k => exact absurd hv (hu a (h1 a ha) k)
      | link k =>
        obtain ⟨x, hx, hx'⟩ := specified_mem hv
        rcases List.mem_cons.1 hx with rfl | hx
        · exact absurd hx' (hok.link a ha k)
        · exact absurd hx' ((hanc x hx).link a ha k)
      | _ => rfl
  refine hz.zoom env n m e _ _ T t he ht hsame hi ⟨fun a ha => ?_, ?_⟩ (noRef hok hc (by simp [refAttrs]) (hr _ (by simp)))
    (noRef hok hc (by simp [refAttrs]) (hr _ (by simp))) fun h a ha => noRef hok hc (by simp [refAttrs, ha]) (hmk h a ha)
  · unfold seenStyle; rw [enter_rest hsame c ha]
  · rw [seenStroke_eq env hm hc, seenStroke_eq env (fun a ha => hok.inherit a (List.mem_append_left _ ha)) hc, hst]

/-! ### Which values the changed elements have -/

theorem recalc_plain {anc : List Node} {n : Node} {s : ℚ} (hn : ∀ a ∈ strokeAttrs, n.get a ≠ some (.kw .inherit)) :
    ∀ a ∈ strokeAttrs, (recalcStroke anc n s).get a ≠ some (.kw .inherit) := by
  have num : ∀ (n : Node) b, (∀ a ∈ strokeAttrs, n.get a ≠ some (.kw .inherit)) → ∀ a ∈ strokeAttrs, (recalcNum anc n b s).get a ≠ some (.kw .inherit) := by
    intro n b hn a ha
    unfold recalcNum
    split
    · split
      · rw [get_set]
        split
        · simp
        · exact hn a ha
      · exact hn a ha
    · exact hn a ha
  have dash : ∀ n : Node, (∀ a ∈ strokeAttrs, n.get a ≠ some (.kw .inherit)) → ∀ a ∈ strokeAttrs, (recalcDash anc n s).get a ≠ some (.kw .inherit) := by
    intro n hn a ha
    unfold recalcDash
    split
    · rw [get_set]
      split
      · simp
      · exact hn a ha
    · exact hn a ha
  exact num _ _ (dash _ (num _ _ hn))

theorem rescale_plain {anc : List Node} {n : Node} {t : Transform} (hn : ∀ a ∈ strokeAttrs, n.get a ≠ some (.kw .inherit)) :
    ∀ a ∈ strokeAttrs, (rescaleStroke anc n t).get a ≠ some (.kw .inherit) := by
  unfold rescaleStroke
  split
  · exact recalc_plain hn
  · exact hn

theorem shapeBody_plain {anc : List Node} {n m : Node} (hn : ∀ a ∈ strokeAttrs, n.get a ≠ some (.kw .inherit)) (h : shapeBody anc n = some m) :
    ∀ a ∈ strokeAttrs, m.get a ≠ some (.kw .inherit) := by
  have key : ∀ (move : Node → Transform → Node) e, (∀ t, SameBut coordAttrs n (move n t)) →
      processShape move e anc n = some m → ∀ a ∈ strokeAttrs, m.get a ≠ some (.kw .inherit) := by
    intro move e hc h
    unfold processShape at h
    simp only [Option.bind_eq_some_iff] at h
    obtain ⟨ok, hok, h⟩ := h
    split at h
    · cases h; exact hn
    · simp only [Option.map_eq_some_iff] at h
      obtain ⟨t, _, rfl⟩ := h
      refine rescale_plain fun a ha => ?_
      have : ∀ a ∈ strokeAttrs, a ≠ AId.transform ∧ a ∉ coordAttrs := by decide
      rw [get_rm, if_neg (this a ha).1, (hc t).get (this a ha).2]
      exact hn a ha
  unfold shapeBody at h
  split at h
  · split at h
    · exact key _ _ (moveRect_same n) h
    · exact key _ _ (moveCircle_same n) h
    · exact key _ _ (moveEllipse_same n) h
    · exact key _ _ (moveLine_same n) h
    · cases h; exact hn
    · cases h
  · cases h; exact hn

theorem places_mem {f : Forest} {anc : List Node} {x : Node × List Node × Forest} (h : x ∈ places anc f) :
    x.1 ∈ f.nodes ∧ ∀ m ∈ x.2.1, m ∈ anc ∨ m ∈ f.nodes := by
  induction f generalizing anc with
  | nil => cases h
  | cons n k r ih1 ih2 =>
    simp only [places, List.mem_cons, List.mem_append] at h
    simp only [Forest.nodes, List.mem_cons, List.mem_append]
    rcases h with rfl | h | h
    · exact ⟨.inl rfl, fun m hm => .inl hm⟩
    · obtain ⟨h1, h2⟩ := ih1 h
      refine ⟨.inr (.inl h1), fun m hm => ?_⟩
      rcases h2 m hm with h2 | h2
      · rcases List.mem_cons.1 h2 with rfl | h2
        · exact .inr (.inl rfl)
        · exact .inl h2
      · exact .inr (.inr (.inl h2))
    · obtain ⟨h1, h2⟩ := ih2 h
      refine ⟨.inr (.inr h1), fun m hm => ?_⟩
      rcases h2 m hm with h2 | h2
      · exact .inl h2
      · exact .inr (.inr (.inr h2))

/-! ### Shapes -/

/-- A basic shape with a transform. -/
def movableShape (n : Node) : Bool := isBasic n.kind && n.has .transform

/-- Shapes with a transform have no children, and lines among them no markers. -/
def ShapesPlain (f : Forest) : Prop :=
  ∀ x ∈ places [] f, movableShape x.1 = true → x.2.2 = .nil ∧ (takesMarkers x.1.kind = true → ∀ a ∈ markerAttrs, refers (given a (x.1 :: x.2.1)) = false)

/-- **C69, shapes.** Applying transforms to rectangles, circles, ellipses and lines does not change the picture that a renderer which draws
shapes by their outlines gives of the document, if no `use` element shows such a shape with a stroke of its own. -/
theorem C69_shapes_partial {f g : Forest} (hok : ∀ n ∈ f.nodes, PaintOk n) (hp : ShapesPlain f) (hu : UsesAgree movableShape f)
    (h : applyToShapes f = some g) : SameZoom f g := by
  intro P π _ _ hz d
  refine map_picture hok hu (fun x hx m q hm => ?_) h d
  obtain ⟨n, anc, k⟩ := x
  simp only at hm ⊢
  obtain ⟨h1, h2⟩ := places_mem hx
  have hn := hok n h1
  have hanc : ∀ a ∈ anc, PaintOk a := fun a ha => hok a ((h2 a ha).resolve_left (by simp))
  have hst : ∀ m ∈ n :: anc, StrokeOk m := by
    intro m hm
    rcases List.mem_cons.1 hm with rfl | hm
    · exact hn.stroke
    · exact (hanc m hm).stroke
  by_cases hne : m = n
  · exact .inl hne
  right
  have hmov : ∀ u : Viewport, ∃ t, Applicable (n, anc) t ∧ MovedBy u t (n, anc) (m, anc) := fun u =>
    (shapeBody_spec u hst hm).resolve_right fun h => hne h.1
  obtain ⟨t, ha, hmv⟩ := hmov ⟨fun _ _ => 1, fun _ => rfl⟩
  obtain ⟨a1, a2, a3, a4, a5⟩ := ha
  have hmo : movableShape n = true := by
    unfold movableShape
    simp only at a1 a2
    rw [Node.has_eq, a1, a2]
    rfl
  have hsame : SameBut placeAttrs n m := hmv.same.mono (by decide)
  obtain ⟨p1, p2⟩ := hp _ hx hmo
  refine ⟨p1, SameNode.mono (Q := AsGiven fun a => given a anc) ?_ fun s hs => hs hmo⟩
  obtain ⟨e, he⟩ : ∃ e, n.kind = .elem e := by
    cases hk : n.kind with
    | elem e => exact ⟨e, rfl⟩
    | _ => simp only at a1; rw [hk] at a1; cases a1
  refine SameNode.zoomed (t := t) he (.inr (by simp only at a1; rw [← he]; exact a1)) a2 hmv.gone a4 hsame
    (zoom_paint hz he a4 a3 hn hanc (shapeBody_plain (fun a ha => hn.inherit a (List.mem_append_left _ ha)) hm) hsame
      (.figure a1 fun u => ?_) hmv.stroke fun h a ha => by rw [given_specified]; exact p2 h a ha)
  obtain ⟨t', ha', hmv'⟩ := hmov u
  have : t' = t := by
    have h1 := ha'.2.1
    simp only at h1 a2
    rw [a2] at h1
    cases h1
    rfl
  rw [← this]
  exact hmv'.figure

/-! ### Paths -/

theorem pathBody_cases {o : PathOpts} {anc : List Node} {n m : Node} (hs : ∀ m ∈ n :: anc, StrokeOk m) (h : pathBody true o anc n = some m) :
    (∃ t, ApplicablePath (n, anc) t ∧ PathMoved o t (n, anc) (m, anc)) ∨ pathBody false o anc n = some m := by
  rcases pathBody_spec hs h with ⟨t, -, h1, h2⟩ | ⟨h1, -⟩
  · exact .inl ⟨t, h1, h2⟩
  · right
    rw [← h]
    unfold pathBody
    by_cases hp : n.isTag .path = true
    · rw [if_pos hp, if_pos hp]
      have : takeTransform true anc n = takeTransform false anc n := by
        have h' := h
        unfold pathBody at h'
        rw [if_pos hp] at h'
        obtain ⟨⟨n1, ts⟩, hh, -⟩ := Option.bind_eq_some_iff.1 h'
        unfold takeTransform at hh ⊢
        simp only [Bool.true_and, Bool.false_and, Bool.false_eq_true, if_false] at hh ⊢
        split
        next ht =>
          rw [if_pos ht] at hh
          obtain ⟨t, hg, -⟩ := Option.map_eq_some_iff.1 hh
          rw [hg]
          simp only [Option.map_some]
          by_cases hv : isValidTransform t = true ∧ isValidAttrs (n :: anc) = true
          · exact absurd ⟨hp, getTs_eq.1 hg, (isValid_iff t).1 hv.1, (isValidAttrs_iff n anc).1 hv.2⟩ (h1 t rfl)
          · rw [if_neg (by simpa using hv)]
        next => rfl
      rw [this]
    · rw [if_neg hp, if_neg hp]

theorem pathBody_plain {b : Bool} {o : PathOpts} {anc : List Node} {n m : Node} (hn : ∀ a ∈ strokeAttrs, n.get a ≠ some (.kw .inherit))
    (h : pathBody b o anc n = some m) : ∀ a ∈ strokeAttrs, m.get a ≠ some (.kw .inherit) := by
  unfold pathBody at h
  split at h
  · simp only [Option.bind_eq_some_iff] at h
    obtain ⟨⟨n1, ts⟩, h1, h⟩ := h
    have s1 : ∀ a ∈ strokeAttrs, n1.get a ≠ some (.kw .inherit) := by
      unfold takeTransform at h1
      split at h1
      · simp only [Option.map_eq_some_iff] at h1
        obtain ⟨t, _, h1⟩ := h1
        split at h1
        · cases h1
          refine rescale_plain fun a ha => ?_
          have : ∀ a ∈ strokeAttrs, a ≠ AId.transform := by decide
          rw [get_rm, if_neg (this a ha)]
          exact hn a ha
        · cases h1; exact hn
      · cases h1; exact hn
    simp only at h
    split at h
    · simp only [Option.map_eq_some_iff] at h
      obtain ⟨v', _, rfl⟩ := h
      intro a ha
      have : ∀ a ∈ strokeAttrs, a ≠ AId.d := by decide
      rw [get_mod, if_neg (this a ha)]
      exact s1 a ha
    · cases h; exact s1
  · cases h; exact hn

/-- Nothing is drawn for the path. -/
def noPath (n : Node) : Prop := pathOf n = none ∨ pathOf n = some []

theorem pathBody_none {b : Bool} {o : PathOpts} {anc : List Node} {n m : Node} (hn : noPath n) (h : pathBody b o anc n = some m) : noPath m := by
  unfold pathBody at h
  split at h
  · simp only [Option.bind_eq_some_iff] at h
    obtain ⟨⟨n1, ts⟩, h1, h⟩ := h
    have s1 : n1.get .d = n.get .d := by
      unfold takeTransform at h1
      split at h1
      · simp only [Option.map_eq_some_iff] at h1
        obtain ⟨t, _, h1⟩ := h1
        split at h1
        · cases h1
          rw [(rescaleStroke_same _ _ _).get (by decide), get_rm, if_neg (by decide)]
        · cases h1; rfl
      · cases h1; rfl
    simp only at h
    rw [s1] at h
    unfold noPath pathOf at hn
    split at h
    next v hv =>
      simp only [Option.map_eq_some_iff] at h
      obtain ⟨v', hv', rfl⟩ := h
      unfold noPath pathOf
      rw [get_mod, if_pos rfl, s1, hv]
      rw [hv] at hn
      cases v with
      | path p =>
        simp only [Option.some.injEq, reduceCtorEq, false_or] at hn
        subst hn
        simp only [processPathValue, processPath] at hv'
        right
        cases hv'
        rfl
      | _ =>
        simp only [processPathValue, Option.some.injEq] at hv'
        subst hv'
        exact .inl rfl
    next hv =>
      cases h
      left
      unfold pathOf
      rw [s1, hv]
  · cases h; exact hn

theorem noPath_paint {n : Node} (h : noPath n) (env : Env P) st t l : π.paint .path (own env n) st t l = π.empty := by
  refine π.no_path _ _ _ _ fun s p he => ?_
  unfold own at he
  rw [if_pos (by rfl)] at he
  rw [Option.map_eq_some_iff] at he
  obtain ⟨y, hy, he⟩ := he
  have hg : n.get .d = some y.value := by unfold Node.get; rw [hy]; rfl
  have : y.value = .path (s :: p) := by
    unfold see at he
    split at he
    · cases he
    · exact Seen.plain.inj he
  rw [this] at hg
  rcases h with h | h <;> unfold pathOf at h <;> rw [hg] at h <;> simp at h

/-- Whether an element has markers and a stroke. -/
def inks (n : Node) (anc : List Node) : Bool × Bool := (markerAttrs.any fun a => refers (given a (n :: anc)), paints (given .stroke (n :: anc)))

theorem has_inks {n : Node} {anc : List Node} {c : Ctx} (hn : PaintOk n) (hc : AsGiven (fun a => given a anc) c.style) : Has (inks n anc) (c.enter n).style := by
  have h := hc.enter hn
  refine ⟨fun hm a ha v hv => ?_, fun hs => ?_⟩
  · have hm : ∀ a ∈ markerAttrs, refers (given a (n :: anc)) = false := by
      have : (markerAttrs.any fun a => refers (given a (n :: anc))) = false := hm
      simpa using this
    cases ht : v.target with
    | none => rfl
    | some k =>
      have := h.refs a (by simp [refAttrs, ha]) (by rw [hv]; simp [refers, ht])
      rw [hm a ha] at this
      cases this
  · have hs : paints (given .stroke (n :: anc)) = false := hs
    unfold NoStroke
    cases hv : (c.enter n).style .stroke with
    | none => exact .inl rfl
    | some v =>
      right
      by_contra hne
      have := h.strokes (by rw [hv]; simp only [paints, Option.any_some, decide_eq_true_eq]; exact fun e => hne (by rw [e]))
      rw [hs] at this
      cases this

theorem pathBody_key {b : Bool} {o : PathOpts} {anc : List Node} {n m : Node} (h : pathBody b o anc n = some m) : SameBut placeAttrs n m :=
  (pathBody_kind h).1.mono (by decide)

/-- A path that the pass may change: with a transform, or any path if unused segments are removed. -/
def pathTouched (o : PathOpts) (n : Node) : Bool := n.isTag .path && (n.has .transform || o.removeUnusedSegments)

/-- Paths have no children, those with a transform no markers, and they are as C68 asks. -/
def PathsPlain (o : PathOpts) (f : Forest) : Prop :=
  ∀ x ∈ places [] f, x.1.kind = .elem .path → x.2.2 = .nil ∧ PathOk o (inks x.1 x.2.1) x.1 ∧
    (x.1.has .transform = true → ∀ a ∈ markerAttrs, refers (given a (x.1 :: x.2.1)) = false)

theorem pathBody_of {o : PathOpts} {anc : List Node} {n : Node} {p q : Path} (hk : n.kind = .elem .path) (hp : pathOf n = some p)
    (hq : processPath p (decide (OwnMarker n)) none o = some q) : pathBody false o anc n = some (modValue n .d fun _ => .path q) := by
  have hd : n.get .d = some (.path p) := by
    unfold pathOf at hp
    cases hg : n.get .d with
    | none => rw [hg] at hp; cases hp
    | some v => rw [hg] at hp; cases v <;> simp_all
  unfold pathBody
  rw [if_pos ((Node.isTag_iff _ _).2 hk)]
  simp only [takeTransform, Bool.false_and, Bool.false_eq_true, if_false, Option.bind_some]
  rw [hd]
  simp only [processPathValue, ownMarker_eq, Option.map_none]
  rw [hq]
  rfl

/-- **C69, paths.** Applying transforms to paths, and rewriting their data, does not change the picture that a renderer which draws shapes by
their outlines gives of the document, as far as C68 says this without the transforms, if the paths with transforms have no markers and no
`use` element shows such a path with a stroke of its own. -/
theorem C69_paths_partial {o : PathOpts} {f g : Forest} (hok : ∀ n ∈ f.nodes, PaintOk n) (hp : PathsPlain o f) (hu : UsesAgree (pathTouched o) f)
    (h : processPaths true o f = some g) : SameZoom f g := by
  intro P π u hl hz d
  refine map_picture hok hu (fun x hx m q hm => ?_) h d
  obtain ⟨n, anc, k⟩ := x
  simp only at hm ⊢
  obtain ⟨h1, h2⟩ := places_mem hx
  have hn := hok n h1
  have hanc : ∀ a ∈ anc, PaintOk a := fun a ha => hok a ((h2 a ha).resolve_left (by simp))
  have hst : ∀ m ∈ n :: anc, StrokeOk m := by
    intro m hm
    rcases List.mem_cons.1 hm with rfl | hm
    · exact hn.stroke
    · exact (hanc m hm).stroke
  by_cases hk : n.kind = .elem .path
  swap
  · left
    unfold pathBody at hm
    rw [if_neg (fun e => hk ((Node.isTag_iff _ _).1 e))] at hm
    exact (Option.some.inj hm).symm
  obtain ⟨p1, p2, p3⟩ := hp _ hx hk
  simp only at p1 p2 p3
  rcases pathBody_cases hst hm with ⟨t, ⟨-, a2, a3, a4⟩, hmv⟩ | hf
  · right
    simp only at a2
    have hhas : n.has .transform = true := by rw [Node.has_eq, a2]; rfl
    have ht : pathTouched o n = true := by
      unfold pathTouched
      rw [(Node.isTag_iff _ _).2 hk, hhas]
      rfl
    have hsame := pathBody_key hm
    refine ⟨p1, SameNode.mono (Q := AsGiven fun a => given a anc) ?_ fun s hs => hs ht⟩
    refine SameNode.zoomed (t := t) hk (.inl rfl) a2 hmv.gone a4 hsame fun env c T hc => ?_
    by_cases hno : noPath n
    · rw [noPath_paint hno, noPath_paint (pathBody_none hno hm)]
    have hpath : ∃ p, pathOf n = some p ∧ p ≠ [] := by
      unfold noPath at hno
      cases hp : pathOf n with
      | none => exact absurd (.inl hp) hno
      | some p => exact ⟨p, rfl, fun e => hno (.inr (by rw [hp, e]))⟩
    obtain ⟨p, hp, hne⟩ := hpath
    have hd : n.get .d = some (.path p) := by
      unfold pathOf at hp
      cases hg : n.get .d with
      | none => rw [hg] at hp; cases hp
      | some v => rw [hg] at hp; cases v <;> simp_all
    have hsm : StartsWithMove p := by
      rcases p2 hk p hd with e | ⟨e, -⟩
      · exact absurd e hne
      · exact e
    obtain ⟨q, q', e1, e2, e3⟩ := hmv.outline p hp hsm
    simp only at e1 e2
    have hb := pathBody_of (anc := anc) hk hp e1
    have hpaint : π.paint .path (own env n) (seenStyle env (c.enter n)) (mul T t) [] =
        π.paint .path (own env (modValue n .d fun _ => .path q)) (seenStyle env (c.enter n)) (mul T t) [] := by
      rcases path_step hl (w := (false, false)) (p := top) p2 (fun e => by rw [hk] at e; cases e) hb with ⟨e, -⟩ | ⟨-, -, -, e⟩
      · rw [e]
      · exact e env (c.enter n) .path .path _ _ (has_inks hn hc) hk hk
    rw [hpaint]
    have hen : c.enter (modValue n .d fun _ => .path q) = c.enter n := (modValue_reshaped hk _).enter c
    have hmid : SameBut [.d] n (modValue n .d fun _ => .path q) := SameBut.mod n (by simp) _
    have hmidget : ∀ a, a ≠ .d → (modValue n .d fun _ => .path q).get a = n.get a := fun a ha => hmid.get (by simpa using ha)
    have hspec : ∀ a, a ≠ .d → specified a (modValue n .d fun _ => .path q) anc = specified a n anc := fun a ha => specified_congr (hmidget a ha)
    rw [← hen]
    refine zoom_paint hz (n := modValue n .d fun _ => .path q) (m := m) (anc := anc) (t := t) hk ?_ a3 ?_ hanc
      (pathBody_plain (fun a ha => hn.inherit a (List.mem_append_left _ ha)) hm) ?_ (.outline hk (p := q) (q := q') ?_ e2 e3) ?_ ?_ env c T hc
    · intro a ha k
      rw [hspec a (by rintro rfl; simp at ha)]
      exact a4 a ha k
    · refine ⟨fun a ha => ?_, ⟨fun v hv => ?_, fun v hv => ?_⟩, fun a ha => ?_⟩
      · rw [hmidget a (by rintro rfl; revert ha; decide)]; exact hn.inherit a ha
      · exact hn.stroke.1 v (by rw [← hv, hmidget _ (by decide)])
      · exact hn.stroke.2 v (by rw [← hv, hmidget _ (by decide)])
      · rw [hmidget a (by rintro rfl; revert ha; decide)]; exact hn.link a ha
    · refine ⟨hsame.key, hsame.kind, hsame.id, fun b hb => ?_⟩
      rw [hsame.attr b hb, hmid.attr b fun a ha => ?_]
      simp only [List.mem_cons, List.not_mem_nil, or_false] at ha
      subst ha
      exact hb .d (by decide)
    · unfold pathOf
      rw [modValue_get hd]
    · rw [hmv.stroke, stroke_congr fun a ha => hmidget a (by rintro rfl; revert ha; decide)]
    · intro _ a ha
      rw [hspec a (by rintro rfl; revert ha; decide), given_specified]
      exact p3 hhas a ha
  · by_cases hr : o.removeUnusedSegments = true
    · have ht : pathTouched o n = true := by
        unfold pathTouched
        rw [(Node.isTag_iff _ _).2 hk, hr]
        simp
      rcases path_step hl (w := (false, false)) (p := top) p2 (fun e => by rw [hk] at e; cases e) hf with ⟨e, -⟩ | ⟨r1, r2, r3, r4⟩
      · exact .inl e
      · refine .inr ⟨p1, SameNode.mono (Q := AsGiven fun a => given a anc) ?_ fun s hs => hs ht⟩
        exact SameNode.reshaped r1 r2 (.inr (by rw [(pathBody_key hm).kind])) (Q' := fun _ => True) Redraws.nil (fun _ _ => trivial)
          fun env c e e' t l hc he he' => r4 env (c.enter n) e e' t l (has_inks hn hc) he he'
    · have p2' : PathOk o (true, true) n := fun hk x hx => by
        rcases p2 hk x hx with h | ⟨h1, h2, _⟩
        · exact .inl h
        · exact .inr ⟨h1, h2, fun e => absurd e hr⟩
      rcases path_step hl (w := (false, false)) (p := top) p2' (fun e => by rw [hk] at e; cases e) hf with ⟨e, -⟩ | ⟨r1, r2, r3, r4⟩
      · exact .inl e
      · refine .inr ⟨p1, ?_⟩
        exact SameNode.reshaped r1 r2 (.inr (by rw [(pathBody_key hm).kind])) (Q' := fun _ => True) Redraws.nil (fun _ _ => trivial)
          fun env c e e' t l hc he he' => r4 env (c.enter n) e e' t l (has_all _) he he'

end Verif.Zoom
