import Verif.Plot
import Verif.ApplyTsProps
import Verif.PathProps
/-
C68: shapes that become paths, and paths that are written in another way, keep the picture.
-/
namespace Verif.Plot
open Verif.Dom Verif.Spec Verif.Render
open Verif.Paths hiding Kind
open Verif.ConvShapes (Units Geometry geometry geometryAttrs takesMarkers ShapeOk convertShapes convertNode converted_node)
open Verif.ApplyTs (processPaths pathBody)
open Verif.Stops (modValue getAttr_modValue)

/-! ### Specification: which properties an element has -/

/-- Whether the property `a` of an element is a reference, if that of its parent is one or not (`v`). -/
def refersAfter (a : AId) (v : Bool) (n : Node) : Bool :=
  match n.get a with
  | none => v
  | some w => if w = .kw .inherit then v else w.target.isSome

/-- Whether an element has markers, if its parent has or not. -/
def markedAfter (v : Bool) (n : Node) : Bool := markerAttrs.any fun a => refersAfter a v n

/-- Whether an element has a stroke, if its parent has or not. -/
def strokedAfter (v : Bool) (n : Node) : Bool :=
  match n.get .stroke with
  | none => v
  | some w => if w = .kw .inherit then v else decide (w ≠ .kw .none)

/-- Markers and stroke of an element. -/
def paintAfter (v : Bool × Bool) (n : Node) : Bool × Bool := (markedAfter v.1 n, strokedAfter v.2 n)

/-- Every element satisfies `ok`, which is told what the element has of the property that `after` computes. -/
def Everywhere {σ : Type} (after : σ → Node → σ) (ok : σ → Node → Prop) (v : σ) : Forest → Prop
  | .nil => True
  | .cons n k r => ok (after v n) n ∧ Everywhere after ok (after v n) k ∧ Everywhere after ok v r

/-- Shapes that can be turned into paths stand where any shape may stand. -/
def ShapesPlaced (f : Forest) : Prop :=
  ∀ x ∈ spots top f, x.2.1.kind ∈ [Kind.elem .line, .elem .rect, .elem .polyline, .elem .polygon] → groupPlace x.1 = true

/-! ### Proof -/

def NoMarkers (s : Inherited) : Prop := ∀ a ∈ markerAttrs, ∀ v, s a = some v → v.target = none
def NoStroke (s : Inherited) : Prop := s .stroke = none ∨ s .stroke = some (.kw .none)

def Has (v : Bool × Bool) (s : Inherited) : Prop := (v.1 = false → NoMarkers s) ∧ (v.2 = false → NoStroke s)

theorem refers_enter {a : AId} (ha : inherits a = true) {b : Bool} {n : Node} {c : Ctx} (h : refersAfter a b n = false)
    (hc : b = false → ∀ v, c.style a = some v → v.target = none) : ∀ v, (c.enter n).style a = some v → v.target = none := by
  intro v hv
  simp only [Ctx.enter, ha, if_true] at hv
  unfold refersAfter at h
  cases hg : n.get a with
  | none => rw [hg] at h hv; exact hc h v hv
  | some w =>
    rw [hg] at h hv
    simp only at h hv
    by_cases hi : w = .kw .inherit
    · rw [if_pos hi] at h hv; exact hc h v hv
    · rw [if_neg hi] at h hv
      cases hv
      simpa using h

theorem has_step (v : Bool × Bool) (n : Node) (c : Ctx) (h : Has v c.style) : Has (paintAfter v n) (c.enter n).style := by
  refine ⟨fun hm a ha => ?_, fun hs => ?_⟩
  · have hm' : ∀ a ∈ markerAttrs, refersAfter a v.1 n = false := by
      have : markedAfter v.1 n = false := hm
      simpa [markedAfter] using this
    refine refers_enter ?_ (hm' a ha) fun e => h.1 e a ha
    simp only [markerAttrs, List.mem_cons, List.not_mem_nil, or_false] at ha
    rcases ha with rfl | rfl | rfl | rfl <;> rfl
  · have hs : strokedAfter v.2 n = false := hs
    unfold strokedAfter at hs
    have e : (c.enter n).style .stroke = match n.get .stroke with
      | none => c.style .stroke
      | some v => if v = .kw .inherit then c.style .stroke else some v := rfl
    unfold NoStroke
    rw [e]
    cases hg : n.get .stroke with
    | none => rw [hg] at hs; exact h.2 hs
    | some w =>
      rw [hg] at hs
      simp only at hs ⊢
      by_cases hi : w = .kw .inherit
      · rw [if_pos hi] at hs ⊢; exact h.2 hs
      · rw [if_neg hi] at hs ⊢
        simp only [ne_eq, decide_not, Bool.not_eq_false', decide_eq_true_eq] at hs
        exact .inr (by rw [hs])

theorem unmarked_of {P : Type} {env : Env P} {c : Ctx} (h : NoMarkers c.style) : Unmarked (seenStyle env c) := by
  intro a ha
  unfold seenStyle
  cases hv : c.style a with
  | none => rfl
  | some v =>
    have := h a ha v hv
    simp [see, this, Seen.isRef]

theorem unstroked_of {P : Type} {env : Env P} {c : Ctx} (h : NoStroke c.style) : Unstroked (seenStyle env c) := by
  unfold Unstroked seenStyle
  rcases h with h | h <;> rw [h]
  · exact .inl rfl
  · exact .inr rfl

theorem has_start (w : Bool × Bool) : Has w Ctx.start.style := ⟨fun _ _ _ _ h => (by cases h), fun _ => .inl rfl⟩

theorem has_all (i : Inherited) : Has (true, true) i := ⟨fun e => (by cases e), fun e => (by cases e)⟩

/-- Forests that are related node by node. -/
inductive Walk {σ : Type} (after : σ → Node → σ) (R : σ → Kind → Node → Node → Prop) : σ → Kind → Forest → Forest → Prop
  | nil (v : σ) (p : Kind) : Walk after R v p .nil .nil
  | cons {v : σ} {p : Kind} {n m : Node} {k k' r r' : Forest} (h : R (after v n) p n m) (hk : Walk after R (after v n) n.kind k k')
      (hr : Walk after R v p r r') : Walk after R v p (.cons n k r) (.cons m k' r')

/-- A node that is left as it is, or written in another way that is drawn the same. -/
def Step {P : Type} (π : Painter P) (w v : Bool × Bool) (p : Kind) (n m : Node) : Prop :=
  (m = n ∧ (n.kind = .elem .use → ∀ i, Has v i → Has w i)) ∨
  (Reshaped n m ∧ m.key = n.key ∧ (groupPlace p = true ∨ m.kind = n.kind) ∧
    ∀ (env : Env P) (c : Ctx) e e' t l, Has v c.style → n.kind = .elem e → m.kind = .elem e' →
      π.paint e (own env n) (seenStyle env c) t l = π.paint e' (own env m) (seenStyle env c) t l)

theorem walk_redraws {P : Type} {π : Painter P} {w : Bool × Bool} {after : Bool × Bool → Node → Bool × Bool}
    (hs : ∀ v n (c : Ctx), Has v c.style → Has (after v n) (c.enter n).style) (hw : ∀ v n, (∀ i, Has w i → Has v i) → ∀ i, Has w i → Has (after v n) i)
    {v : Bool × Bool} {p : Kind} {f g : Forest} (h : Walk after (Step π w) v p f g) (hv : ∀ i, Has w i → Has v i) :
    Redraws π (fun _ => Has w) (Has v) p f g := by
  induction h with
  | nil => exact Redraws.nil
  | @cons v p n m k k' r r' h hk hr ih1 ih2 =>
    refine Redraws.cons ?_ (ih2 hv) (fun _ h => h) (fun _ h => h) hv
    have hk' := ih1 (hw v n hv)
    rcases h with ⟨rfl, hu⟩ | ⟨h1, h2, h3, h4⟩
    · exact SameNode.same hk' (fun c => hs v m c) fun e _ _ c hc => hu e _ (hs v m c hc)
    · exact SameNode.reshaped h1 h2 h3 hk' (fun c => hs v n c) fun env c e e' t l hc he he' => h4 env (c.enter n) e e' t l (hs v n c hc) he he'

theorem walk_picture {P : Type} {π : Painter P} {w : Bool × Bool} {after : Bool × Bool → Node → Bool × Bool}
    (hs : ∀ v n (c : Ctx), Has v c.style → Has (after v n) (c.enter n).style) (hw : ∀ v n, (∀ i, Has w i → Has v i) → ∀ i, Has w i → Has (after v n) i)
    {f g : Forest} (h : Walk after (Step π w) w top f g) (d : Nat) : picture π d f = picture π d g :=
  (walk_redraws hs hw h fun _ h => h).picture (has_start w) d

/-! ### Shapes -/

theorem converted_reshaped {u : Units} {n m : Node} (h : ConvShapes.Converted u n m) (hne : m ≠ n) :
    Reshaped n m ∧ m.kind = .elem .path ∧ n.kind ∈ [Kind.elem .line, .elem .rect, .elem .polyline, .elem .polygon] := by
  obtain ⟨h1, h2⟩ := h.kind.resolve_left hne
  refine ⟨⟨?_, ⟨_, h1, rfl⟩, h.other⟩, h1, h2⟩
  simp only [List.mem_cons, List.not_mem_nil, or_false] at h2
  rcases h2 with h2 | h2 | h2 | h2 <;> exact ⟨_, h2, rfl⟩

theorem converted_step {P : Type} {π : Painter P} {u : Units} (hπ : Plots π u) {b : Bool} {p : Kind} {n m : Node} (hc : ConvShapes.Converted u n m)
    (hp : n.kind ∈ [Kind.elem .line, .elem .rect, .elem .polyline, .elem .polygon] → groupPlace p = true)
    (hm : b = true → n.kind ≠ .elem .rect ∧ n.kind ≠ .elem .use) : Step π (false, true) (b, true) p n m := by
  by_cases hne : m = n
  · refine .inl ⟨hne, fun hu i hi => ?_⟩
    cases b with
    | false => exact hi
    | true => exact absurd hu (hm rfl).2
  · obtain ⟨h1, h2, h3⟩ := converted_reshaped hc hne
    refine .inr ⟨h1, hc.key, .inl (hp h3), fun env c e e' t l hb he he' => ?_⟩
    refine hπ.trace env n m e e' _ t l he he' h1 (by rw [hc.geometry]; exact .refl _) ?_
    cases b with
    | false => exact .inr (unmarked_of (hb.1 rfl))
    | true =>
      left
      have := (hm rfl).1
      simp only [List.mem_cons, List.not_mem_nil, or_false, this, false_or] at h3
      rw [h2]
      rcases h3 with h3 | h3 | h3 <;> rw [h3] <;> rfl

theorem walk_shapes {P : Type} {π : Painter P} {u : Units} (hπ : Plots π u) {f g : Forest} (h : convertShapes f = some g) (hok : ∀ n ∈ f.nodes, ShapeOk n)
    {p : Kind} (hp : ∀ x ∈ spots p f, x.2.1.kind ∈ [Kind.elem .line, .elem .rect, .elem .polyline, .elem .polygon] → groupPlace x.1 = true)
    {v : Bool} (hm : Everywhere markedAfter (fun b n => b = true → n.kind ≠ .elem .rect ∧ n.kind ≠ .elem .use) v f) :
    Walk (fun v n => (markedAfter v.1 n, true)) (Step π (false, true)) (v, true) p f g := by
  unfold convertShapes at h
  induction f generalizing g p v with
  | nil => simp [Forest.mapOpt] at h; rw [← h]; exact .nil _ _
  | cons n k r ih1 ih2 =>
    simp only [Forest.mapOpt, Option.bind_eq_some_iff, Option.map_eq_some_iff] at h
    obtain ⟨n', hn, k', hk, r', hr, rfl⟩ := h
    obtain ⟨m1, m2, m3⟩ := hm
    refine .cons ?_ (ih1 hk (fun m hm => hok m (by simp [hm])) (fun x hx => hp x (List.mem_cons_of_mem _ (List.mem_append_left _ hx))) m2)
      (ih2 hr (fun m hm => hok m (by simp [hm])) (fun x hx => hp x (List.mem_cons_of_mem _ (List.mem_append_right _ hx))) m3)
    exact converted_step hπ (converted_node u (hok n (by simp)) hn) (hp (p, n, k) List.mem_cons_self) m1

/-- **C68, shapes.** Turning shapes into paths does not change the picture that a renderer which draws shapes by their outlines gives of the
document, if no rectangle (and no `use`, which may show one) has markers. -/
theorem C68_shapes_partial {f g : Forest} (hok : ∀ n ∈ f.nodes, ShapeOk n) (hp : ShapesPlaced f)
    (hm : Everywhere markedAfter (fun marked n => marked = true → n.kind ≠ .elem .rect ∧ n.kind ≠ .elem .use) false f)
    (h : convertShapes f = some g) : SamePlot f g := by
  intro P π u hπ d
  exact walk_picture (w := (false, true)) (after := fun v n => (markedAfter v.1 n, true)) (fun v n c hc => ⟨(has_step v n c hc).1, fun e => (by cases e)⟩)
    (fun v n hv i hi => ⟨fun _ => hi.1 rfl, fun e => (by cases e)⟩) (walk_shapes hπ h hok hp hm) d

/-! ### Paths -/

/-- A path with the marks and stroke given by `v`. -/
def PathOk (o : PathOpts) (v : Bool × Bool) (n : Node) : Prop :=
  n.kind = .elem .path → ∀ p, n.get .d = some (.path p) → p = [] ∨ StartsWithMove p ∧
    (o.convertSegments = true → ControlsBetween (trace p)) ∧
    (o.removeUnusedSegments = true → (∃ a ∈ markerAttrs, n.has a = true) ∨
      v = (false, false) ∧ NoLoops (if o.convertSegments then badCurve else badSmooth) (trace p))

theorem Everywhere.mono {σ τ : Type} {after : σ → Node → σ} {after' : τ → Node → τ} {ok : σ → Node → Prop} {ok' : τ → Node → Prop}
    (h : ∀ v v' n, ok v n → ok' v' n) {v : σ} {v' : τ} {f : Forest} (hf : Everywhere after ok v f) : Everywhere after' ok' v' f := by
  induction f generalizing v v' with
  | nil => trivial
  | cons n k r ih1 ih2 => exact ⟨h _ _ _ hf.1, ih1 hf.2.1, ih2 hf.2.2⟩

theorem walk_ctx {after : Bool × Bool → Node → Bool × Bool} {R : Bool × Bool → Kind → Node → Node → Prop} {ok : Bool × Bool → Node → Prop}
    {body : List Node → Node → Option Node} (hb : ∀ v p anc n m, ok v n → body anc n = some m → R v p n m)
    {v : Bool × Bool} {p : Kind} {anc : List Node} {f g : Forest} (hf : Everywhere after ok v f) (h : f.mapCtx body anc = some g) :
    Walk after R v p f g := by
  induction f generalizing g p v anc with
  | nil => simp [Forest.mapCtx] at h; rw [← h]; exact .nil _ _
  | cons n k r ih1 ih2 =>
    simp only [Forest.mapCtx, Option.bind_eq_some_iff, Option.map_eq_some_iff] at h
    obtain ⟨n', hn, k', hk, r', hr, rfl⟩ := h
    exact .cons (hb _ _ _ _ _ hf.1 hn) (ih1 hf.2.1 hk) (ih2 hf.2.2 hr)

theorem pathBody_false {o : PathOpts} {anc : List Node} {n m : Node} (h : pathBody false o anc n = some m) :
    m = n ∨ n.kind = .elem .path ∧ ∃ v w, n.get .d = some v ∧
      ApplyTs.processPathValue (markerAttrs.any n.has) none o v = some w ∧ m = modValue n .d (fun _ => w) := by
  unfold pathBody at h
  split at h
  next ht =>
    simp only [ApplyTs.takeTransform, Bool.false_and, Bool.false_eq_true, if_false, Option.bind_some] at h
    split at h
    next v hv =>
      rw [Option.map_eq_some_iff] at h
      obtain ⟨w, hw, rfl⟩ := h
      refine .inr ⟨(Node.isTag_iff _ _).1 ht, v, w, hv, ?_, rfl⟩
      rw [← hw]
      simp [markerAttrs, Bool.or_assoc]
    next => left; exact (Option.some.inj h).symm
  next => left; exact (Option.some.inj h).symm

theorem modValue_get {n : Node} {a : AId} {v w : Value} (h : n.get a = some v) : (modValue n a fun _ => w).get a = some w := by
  unfold Node.get at h ⊢
  rw [getAttr_modValue]
  cases hx : getAttr n.attrs (.id a) with
  | none => rw [hx] at h; cases h
  | some x => simp

theorem modValue_reshaped {n : Node} (hk : n.kind = .elem .path) (w : Value) : Reshaped n (modValue n .d fun _ => w) := by
  refine ⟨⟨_, hk, rfl⟩, ⟨.path, hk, rfl⟩, fun b hb => ?_⟩
  rw [getAttr_modValue]
  have : b ≠ .id .d := hb .d (by simp [geometryAttrs])
  simp [this]

def pathGeometry : Value → Geometry
  | .path p => .outline (trace p)
  | _ => .outline []

theorem geometry_path {u : Units} {n : Node} {v : Value} (hk : n.kind = .elem .path) (hv : n.get .d = some v) :
    geometry u n = pathGeometry v := by
  unfold geometry
  rw [hk]
  simp only
  rw [hv]
  cases v <;> rfl

theorem path_nil (b : Bool) (o : PathOpts) {q : Path} (h : processPath [] b none o = some q) : q = [] := by
  have : processPath [] b none o = some [] := by cases b <;> obtain ⟨c, r⟩ := o <;> cases c <;> cases r <;> decide +kernel
  rw [this] at h
  exact (Option.some.inj h).symm

theorem path_step {P : Type} {π : Painter P} {u : Units} (hπ : Plots π u) {o : PathOpts} {w v : Bool × Bool} {p : Kind} {anc : List Node} {n m : Node}
    (hp : PathOk o v n) (hu : n.kind = .elem .use → ∀ i, Has v i → Has w i) (h : pathBody false o anc n = some m) : Step π w v p n m := by
  rcases pathBody_false h with rfl | ⟨hk, a, b, ha, hab, rfl⟩
  · exact .inl ⟨rfl, hu⟩
  · have hr := modValue_reshaped hk b
    refine .inr ⟨hr, rfl, .inr rfl, fun env c e e' t l hc he he' => ?_⟩
    have g1 := geometry_path (u := u) hk ha
    have g2 := geometry_path (u := u) (n := modValue n .d fun _ => b) hk (modValue_get ha)
    cases a with
    | path x =>
      simp only [ApplyTs.processPathValue, Option.map_eq_some_iff, Option.map_none] at hab
      obtain ⟨q, hq, rfl⟩ := hab
      have g1 : geometry u n = .outline (trace x) := g1
      have g2 : geometry u (modValue n .d fun _ => .path q) = .outline (trace q) := g2
      have byTrace : TraceAlike (trace x) (trace q) → π.paint e (own env n) (seenStyle env c) t l =
          π.paint e' (own env (modValue n .d fun _ => .path q)) (seenStyle env c) t l := fun ht =>
        hπ.trace env n _ e e' _ t l he he' hr (by rw [g1, g2]; exact .outline ht) (.inl rfl)
      rcases hp hk x ha with rfl | ⟨h1, h2, h3⟩
      · rw [path_nil _ _ hq] at byTrace ⊢
        exact byTrace (TraceAlike.refl _)
      · have plainCase : o.removeUnusedSegments = false ∨ markerAttrs.any n.has = true → TraceAlike (trace x) (trace q) := by
          intro hrm
          cases hcs : o.convertSegments with
          | false =>
            obtain ⟨q', e1, e2, _⟩ := C16_rewriting_keeps_trace h1 _ o hcs hrm
            rw [hq] at e1
            cases e1
            rw [e2]
            exact TraceAlike.refl _
          | true =>
            obtain ⟨q', e1, e2⟩ := C17_conversion_draws_alike_partial h1 _ o hrm (h2 hcs)
            rw [hq] at e1
            cases e1
            exact e2
        cases hrs : o.removeUnusedSegments with
        | false => exact byTrace (plainCase (.inl hrs))
        | true =>
          rcases h3 hrs with ⟨a, ha1, ha2⟩ | ⟨rfl, hl⟩
          · exact byTrace (plainCase (.inr (List.any_eq_true.2 ⟨a, ha1, ha2⟩)))
          · refine hπ.area env n _ e e' _ t l he he' hr ?_ (unmarked_of (hc.1 rfl)) (unstroked_of (hc.2 rfl))
            rw [g1, g2]
            refine .outline ?_
            cases hcs : o.convertSegments with
            | false =>
              rw [hcs] at hl
              obtain ⟨q', e1, e2⟩ := C18_removal_keeps_outline_partial h1 (markerAttrs.any n.has) o hcs hl
              rw [hq] at e1
              cases e1
              unfold outline at e2
              rw [e2]
              exact List.forall₂_same.2 fun _ _ => List.forall₂_same.2 fun _ _ => .inl rfl
            | true =>
              rw [hcs] at hl
              obtain ⟨q', e1, e2⟩ := C18_all_options_partial h1 (markerAttrs.any n.has) o (h2 hcs) hl
              rw [hq] at e1
              cases e1
              exact e2
    | _ =>
      simp only [ApplyTs.processPathValue, Option.some.injEq] at hab
      subst hab
      exact hπ.trace env n _ e e' _ t l he he' hr (by rw [g1, g2]; exact .refl _) (.inl rfl)

/-- **C68, paths.** Rewriting path data (without applying transforms) does not change the picture that a renderer which draws shapes by their
outlines gives of the document: for all options, as far as C16, C17 and C18 hold for the paths; where unused segments are removed, for paths
without stroke and markers or with markers of their own. -/
theorem C68_paths_partial {o : PathOpts} {f g : Forest}
    (hp : Everywhere paintAfter (fun v n => PathOk o v n ∧ (o.removeUnusedSegments = true → n.kind = .elem .use → v = (false, false))) (false, false) f)
    (h : processPaths false o f = some g) : SamePlot f g := by
  intro P π u hπ d
  cases hr : o.removeUnusedSegments with
  | true =>
    exact walk_picture (w := (false, false)) (after := paintAfter) has_step (fun _ _ _ _ hi => ⟨fun _ => hi.1 rfl, fun _ => hi.2 rfl⟩)
      (walk_ctx (body := pathBody false o) (fun v p anc n m hn hb => path_step hπ hn.1 (fun e i hi => by rw [hn.2 hr e] at hi; exact hi) hb) hp h) d
  | false =>
    have hp' : Everywhere (fun _ _ => (true, true)) (PathOk o) (true, true) f := hp.mono fun v v' n hn hk x hx => by
      rcases hn.1 hk x hx with h | ⟨h1, h2, _⟩
      · exact .inl h
      · exact .inr ⟨h1, h2, fun e => by rw [hr] at e; cases e⟩
    exact walk_picture (w := (true, true)) (after := fun _ _ => (true, true)) (fun _ _ _ _ => has_all _) (fun _ _ _ _ _ => has_all _)
      (walk_ctx (R := Step π (true, true)) (body := pathBody false o) (fun v p anc n m hn hb => path_step (v := v) (w := (true, true)) hπ hn (fun _ i _ => has_all i) hb) hp' h) d

end Verif.Plot
