import Verif.Whole
/-
C71: applying transforms to shapes and turning shapes into paths.
-/
namespace Verif.Whole
open Verif.Dom Verif.Spec Verif.Render Verif.Draft
open Verif.Cli (CleaningOptions)
open Verif.Paths hiding Kind size
open Verif.Paths (Transform)
open Verif.Reader (fontRelative isTextual SameRead Heeds)
open Verif.Plot (Plots SamePlot markerAttrs)
open Verif.Zoom (Zooms SameZoom PaintOk places given ShapesPlain UsesAgree places_mem refers movableShape)
open Verif.ApplyTs
open Verif.Ungroup (groupAttr)
open Verif.Pipeline (Along)

/-! ### Values that may be written to a shape -/

/-- A shape, image or text: an element that is neither a group nor a definition, nor the root, nor a part of a text. -/
def plainKind (k : Kind) : Prop := k ≠ .elem .g ∧ k ≠ .elem .defs ∧ k ≠ .elem .svg ∧ k ≠ .elem .tspan

theorem AttrFine.plain [Flavour] {G : Nat → Prop} {k : Kind} {a : AId} {v : Value} {b : Bool} (hk : plainKind k) (ht : v.target = none) (hi : v ≠ .kw .inherit)
    (ha : isCond a = false ∧ a ≠ .transform ∧ a ≠ .display) (he : Flavour.attr k ⟨.id a, v, b⟩) : AttrFine G k ⟨.id a, v, b⟩ where
  paint t h := by rw [ht] at h; cases h
  cond c hc e := by injection e with e; subst e; rw [ha.1] at hc; cases hc
  inherit := hi
  transform e := by injection e with e; exact absurd e ha.2.1
  display e := by injection e with e; exact absurd e ha.2.2
  group e := absurd e hk.1
  defs e := absurd e hk.2.1
  extra := he

section
variable {ini : AId → Option Value} {o : CleaningOptions} {b : Stage} {G : Nat → Prop}

theorem attr_apt {k : Kind} {y : Attr} (h : @AttrFine (apt ini b o) G k y) : AttrApt ini b o k y := @AttrFine.extra (apt ini b o) _ _ _ h

/-- A length that is not in units of the font size. -/
theorem fine_length {k : Kind} {a : AId} {l : Len} (hk : plainKind k) (ha : a ∈ strokeAttrs ++ coordAttrs) (hu : o.removeTextAttributes = true → fontRelative (.length l) = false)
    (hn : b = .shapes → k = .elem .rect → a = .width ∨ a = .height → 0 ≤ l.num) (hp : k = .elem .rect → a = .rx → l.unit ≠ .percent) : @AttrFine (apt ini b o) G k ⟨.id a, .length l, true⟩ := by
  have h : ∀ a ∈ strokeAttrs ++ coordAttrs, isCond a = false ∧ a ≠ .transform ∧ a ≠ .display ∧ a ≠ .points ∧ a ≠ .d ∧ a ≠ .stroke ∧ a ≠ .overflow := by decide
  obtain ⟨h1, h2, h3, h4, h5, h6, h7⟩ := h a ha
  refine @AttrFine.plain (apt ini b o) _ _ _ _ _ hk rfl (by simp) ⟨h1, h2, h3⟩ ?_
  refine AttrApt.mk (by simp) (fun _ => ⟨l, rfl⟩) (fun _ => by simp) (fun e => h7 (by injection e)) (.of_kind hk.2.2.2 hk.2.2.1 fun hk e => ⟨l, rfl, hp hk (by injection e)⟩) hu (fun hb => ⟨fun hk e l' he => ?_, fun _ e => ?_, fun _ e => ?_, fun _ e => ?_⟩)
    (fun _ => rfl) (fun e => by cases e)
  · cases he
    exact hn hb hk (e.imp (fun e => by injection e) fun e => by injection e)
  · injection e with e; exact absurd e h4
  · injection e with e; exact absurd e h5
  · injection e with e; exact absurd e h6

theorem fine_dash {k : Kind} {l : List Len} (hk : plainKind k) (hu : o.removeTextAttributes = true → fontRelative (.lengthList l) = false) :
    @AttrFine (apt ini b o) G k ⟨.id .strokeDasharray, .lengthList l, true⟩ := by
  refine @AttrFine.plain (apt ini b o) _ _ _ _ _ hk rfl (by simp) (by decide) ?_
  have hn : ∀ a, AName.id AId.strokeDasharray = .id a → a = .strokeDasharray := fun a e => by injection e with e; exact e.symm
  refine AttrApt.mk (by simp) (fun e => ?_) (fun _ => by simp) (fun e => ?_) (.of_name fun a ha e => by rw [hn _ e] at ha; revert ha; decide) hu (fun _ => ⟨fun _ e => ?_, fun _ e => ?_, fun _ e => ?_, fun _ e => ?_⟩) (fun _ => rfl) (fun e => by cases e)
  · rcases e with e | e <;> exact absurd (hn _ e) (by decide)
  · exact absurd (hn _ e) (by decide)
  · rcases e with e | e <;> exact absurd (hn _ e) (by decide)
  all_goals exact absurd (hn _ e) (by decide)

/-- What the values that shapes inherit are. -/
def Fair (o : CleaningOptions) (n : Node) : Prop := o.removeTextAttributes = true → ∀ y ∈ n.attrs, fontRelative y.value = false

theorem nearest_fair {a : AId} {anc : List Node} (h : ∀ n ∈ anc, Fair o n) {v : Value} (hv : nearest a anc = some v) : o.removeTextAttributes = true → fontRelative v = false := by
  intro ho
  unfold nearest at hv
  obtain ⟨n, hn, hg⟩ := List.exists_of_findSome?_eq_some hv
  obtain ⟨y, hy, _, rfl⟩ := get_attr hg
  exact h n hn ho y hy

theorem fontRelative_scale (l : Len) (s : ℚ) : fontRelative (.length ⟨l.num * s, l.unit⟩) = fontRelative (.length l) := by
  obtain ⟨n, u⟩ := l
  cases u <;> rfl

/-- What is done to a shape. -/
abbrev Tweak (ini : AId → Option Value) (b : Stage) (o : CleaningOptions) (G : Nat → Prop) (n m : Node) : Prop := Edit (@AttrFine (apt ini b o) G n.kind) n m

theorem plain_not_stop {n : Node} {k : Kind} (h : n.kind = k) (hk : k ≠ .elem .stop) (a : AId) : n.kind ≠ .elem .stop ∨ a ∉ stopKeep := .inl (by rw [h]; exact hk)

variable {n : Node} (hs : n.kind ≠ .elem .stop) (hk : plainKind n.kind)
include hs hk

theorem num_tweak {anc : List Node} (h : ∀ m ∈ n :: anc, Fair o m) {a : AId} (ha : a ∈ strokeAttrs) (s : ℚ) : Tweak ini b o G n (recalcNum anc n a s) := by
  unfold recalcNum
  split
  next l e =>
    split
    · refine Edit.set n (fine_length hk (List.mem_append_left _ ha) (fun ho => ?_) (fun _ _ e => ?_) (fun _ e => absurd (e ▸ ha) (by decide))) (.inl hs)
      · rw [fontRelative_scale]
        cases hv : nearest a (n :: anc) with
        | none =>
          rw [hv] at e
          have : ∀ a ∈ strokeAttrs, fontRelative (strokeDefault a) = false := by decide
          rw [← e]; exact this a ha
        | some v =>
          rw [hv] at e
          have := nearest_fair h hv ho
          rw [← e]; exact this
      · have : ∀ a ∈ strokeAttrs, a ≠ .width ∧ a ≠ .height := by decide
        exact absurd e (by simp [this a ha])
    · exact .refl n
  next => exact .refl n

theorem dash_tweak {anc : List Node} (h : ∀ m ∈ n :: anc, Fair o m) (s : ℚ) : Tweak ini b o G n (recalcDash anc n s) := by
  unfold recalcDash
  split
  next l e =>
    refine Edit.set n (fine_dash hk (fun ho => ?_)) (.inl hs)
    have := nearest_fair h e ho
    rw [← this]
    simp only [fontRelative, List.any_map]
    rfl
  next => exact .refl n

omit hs hk in
theorem fair_of {G : Nat → Prop} {k : Kind} (h : ∀ y ∈ n.attrs, @AttrFine (apt ini b o) G k y) : Fair o n := fun ho y hy => (attr_apt (h y hy)).units ho

theorem stroke_tweak {anc : List Node} (hn : ∀ y ∈ n.attrs, @AttrFine (apt ini b o) G n.kind y) (h : ∀ m ∈ anc, Fair o m) (t : Transform) : Tweak ini b o G n (rescaleStroke anc n t) := by
  unfold rescaleStroke
  split
  · unfold recalcStroke
    have step : ∀ m, Tweak ini b o G n m → m.kind ≠ .elem .stop ∧ plainKind m.kind ∧ ∀ x ∈ m :: anc, Fair o x := fun m hm => by
      rw [hm.kind]
      refine ⟨hs, hk, fun x hx => ?_⟩
      rcases List.mem_cons.1 hx with rfl | hx
      · exact fair_of (hm.attrs hn)
      · exact h x hx
    have t1 : Tweak ini b o G n (recalcNum anc n .strokeWidth t.a) := num_tweak hs hk (step n (.refl n)).2.2 (by decide) _
    obtain ⟨a1, a2, a3⟩ := step _ t1
    have t2 := dash_tweak (ini := ini) (b := b) (G := G) a1 a2 a3 t.a
    unfold Tweak at t2
    rw [t1.kind] at t2
    obtain ⟨c1, c2, c3⟩ := step _ (t1.trans t2)
    have t3 := num_tweak (ini := ini) (b := b) (G := G) c1 c2 c3 (a := .strokeDashoffset) (by decide) t.a
    unfold Tweak at t3
    rw [(t1.trans t2).kind] at t3
    exact (t1.trans t2).trans t3
  · exact .refl n

theorem coords_tweak {ax ay : AId} (hx : ax ∈ coordAttrs ∧ ax ≠ .width ∧ ax ≠ .height) (hy : ay ∈ coordAttrs ∧ ay ≠ .width ∧ ay ≠ .height) (t : Transform) :
    Tweak ini b o G n (transformCoords n ax ay t) := by
  unfold transformCoords
  refine (Edit.set n (fine_length hk (List.mem_append_right _ hx.1) (fun _ => rfl) (fun _ _ e => ?_) (fun _ _ => by simp)) (.inl hs)).trans
    (Edit.set _ (fine_length hk (List.mem_append_right _ hy.1) (fun _ => rfl) (fun _ _ e => ?_) (fun _ _ => by simp)) (.inl hs))
  · exact absurd e (by simp [hx.2])
  · exact absurd e (by simp [hy.2])

theorem scale_tweak (hl : b ≠ .late) {a : AId} (ha : a ∈ coordAttrs) {s : ℚ} (h0 : 0 < s) : Tweak ini b o G n (scaleCoord n a s) := by
  refine Edit.mod n hs fun y hy h => ?_
  obtain ⟨x, v, vis⟩ := y
  dsimp only at hy
  subst hy
  have hvis : vis = true := (attr_apt h).shown hl
  subst hvis
  cases v with
  | length l =>
    refine fine_length hk (List.mem_append_right _ ha) (fun ho => ?_) (fun hb hr e => ?_) (fun hr e => ?_)
    · rw [fontRelative_scale]
      exact (attr_apt h).units ho
    · exact mul_nonneg (((attr_apt h).outline hb).size hr (e.imp (fun e => by rw [e]) fun e => by rw [e]) l rfl) h0.le
    · obtain ⟨l', e', hu⟩ := (attr_apt h).spot.radius hr (by rw [e])
      cases e'
      exact hu
  | _ => exact h

end

/-! ### Transforms of shapes -/

section
variable {ini : AId → Option Value} {o : CleaningOptions} {b : Stage} {G : Nat → Prop} {n m : Node}

theorem Edit.next {P : Attr → Prop} {Q : Kind → Attr → Prop} {l : Node} (h : Edit (Q n.kind) n m) (h' : Edit (Q m.kind) m l) : Edit (Q n.kind) n l := by
  rw [h.kind] at h'
  exact h.trans h'

theorem move_tweak (hl : b ≠ .late) {e : EId} {move : Node → Transform → Node} (he : (move, e) ∈ [(moveRect, EId.rect), (moveCircle, .circle), (moveEllipse, .ellipse), (moveLine, .line)])
    (hk : n.kind = .elem e) {t : Transform} (ht : 0 < t.a) : Tweak ini b o G n (move n t) := by
  have h2 : ∀ m : Node, m.kind = n.kind → m.kind ≠ .elem .stop ∧ plainKind m.kind := fun m hm => by
    rw [hm, hk]
    simp only [List.mem_cons, Prod.mk.injEq, List.not_mem_nil, or_false] at he
    rcases he with ⟨_, rfl⟩ | ⟨_, rfl⟩ | ⟨_, rfl⟩ | ⟨_, rfl⟩ <;> exact ⟨by simp, by unfold plainKind; simp⟩
  have move : ∀ (m : Node) (x y : AId), Tweak ini b o G n m → x ∈ coordAttrs ∧ x ≠ .width ∧ x ≠ .height → y ∈ coordAttrs ∧ y ≠ .width ∧ y ≠ .height → Tweak ini b o G n (transformCoords m x y t) :=
    fun m x y hm hx hy => Edit.next (P := fun _ => True) hm (coords_tweak (h2 m hm.kind).1 (h2 m hm.kind).2 hx hy t)
  have scale : ∀ (m : Node) (a : AId), Tweak ini b o G n m → a ∈ coordAttrs → Tweak ini b o G n (scaleCoord m a t.a) :=
    fun m a hm ha => Edit.next (P := fun _ => True) hm (scale_tweak (h2 m hm.kind).1 (h2 m hm.kind).2 hl ha ht)
  simp only [List.mem_cons, Prod.mk.injEq, List.not_mem_nil, or_false] at he
  rcases he with ⟨rfl, rfl⟩ | ⟨rfl, rfl⟩ | ⟨rfl, rfl⟩ | ⟨rfl, rfl⟩
  · unfold moveRect
    have h1 := move n .x .y (.refl n) (by decide) (by decide)
    dsimp only
    split
    · exact scale _ _ (scale _ _ (scale _ _ (scale _ _ h1 (by decide)) (by decide)) (by decide)) (by decide)
    · exact h1
  · unfold moveCircle
    have h1 := move n .cx .cy (.refl n) (by decide) (by decide)
    dsimp only
    split
    · exact scale _ _ h1 (by decide)
    · exact h1
  · unfold moveEllipse
    have h1 := move n .cx .cy (.refl n) (by decide) (by decide)
    dsimp only
    split
    · exact scale _ _ (scale _ _ h1 (by decide)) (by decide)
    · exact h1
  · exact move _ _ _ (move n .x1 .y1 (.refl n) (by decide) (by decide)) (by decide) (by decide)

theorem shape_tweak (hl : b ≠ .late) {anc : List Node} (hn : ∀ y ∈ n.attrs, @AttrFine (apt ini b o) G n.kind y) (ha : ∀ m ∈ anc, Fair o m) (h : shapeBody anc n = some m) : Tweak ini b o G n m := by
  have key : ∀ (e : EId) (move : Node → Transform → Node), (move, e) ∈ [(moveRect, EId.rect), (moveCircle, .circle), (moveEllipse, .ellipse), (moveLine, .line)] →
      n.kind = .elem e → processShape move e anc n = some m → Tweak ini b o G n m := by
    intro e move he hk h
    unfold processShape at h
    obtain ⟨ok, h1, h2⟩ := Option.bind_eq_some_iff.1 h
    split at h2
    · cases h2; exact .refl n
    next hc =>
      obtain ⟨t, ht, rfl⟩ := Option.map_eq_some_iff.1 h2
      have hv : isValidTransform t = true := by
        simp only [Bool.or_eq_true, not_or, Bool.not_eq_true', Bool.not_eq_false] at hc
        have hh : n.has .transform = true := by
          unfold getTs at ht
          rw [Node.has_eq]
          cases hg : n.get .transform with
          | none => rw [hg] at ht; cases ht
          | some v => rfl
        unfold hasValidTransform at h1
        rw [if_pos hh, ht] at h1
        rw [hc.1.1] at h1
        exact Option.some.inj h1
      have hp := ((isValid_iff t).1 hv).2.2.2
      have t1 := move_tweak (ini := ini) (b := b) (o := o) (G := G) hl he hk hp
      have hk2 : n.kind ≠ .elem .stop ∧ plainKind n.kind := by
        rw [hk]
        simp only [List.mem_cons, Prod.mk.injEq, List.not_mem_nil, or_false] at he
        rcases he with ⟨_, rfl⟩ | ⟨_, rfl⟩ | ⟨_, rfl⟩ | ⟨_, rfl⟩ <;> exact ⟨by simp, by unfold plainKind; simp⟩
      have t2 : Tweak ini b o G n ((move n t).rm .transform) := t1.trans (Edit.rm _ _ (.inl (by rw [t1.kind]; exact hk2.1)))
      refine Edit.next (P := fun _ => True) t2 (stroke_tweak ?_ ?_ ?_ ha t)
      · rw [t2.kind]; exact hk2.1
      · rw [t2.kind]; exact hk2.2
      · rw [t2.kind]; exact t2.attrs hn
  unfold shapeBody at h
  split at h
  · split at h
    next hk => exact key _ _ (by simp) hk h
    next hk => exact key _ _ (by simp) hk h
    next hk => exact key _ _ (by simp) hk h
    next hk => exact key _ _ (by simp) hk h
    · cases h; exact .refl n
    · cases h
  · cases h; exact .refl n

/-- A walk that changes attributes and looks at the ancestors as they have become. -/
theorem along_ctx {body : List Node → Node → Option Node}
    (hb : ∀ anc n m, (∀ y ∈ n.attrs, @AttrFine (apt ini b o) G n.kind y) → (∀ x ∈ anc, Fair o x) → body anc n = some m → Tweak ini b o G n m)
    {f g : Forest} {anc : List Node} (ha : ∀ x ∈ anc, Fair o x) (hf : ∀ n ∈ f.nodes, ∀ y ∈ n.attrs, @AttrFine (apt ini b o) G n.kind y) (h : f.mapCtx body anc = some g) :
    Along (@Alter (apt ini b o) G) f g := by
  induction f generalizing g anc with
  | nil => simp [Forest.mapCtx] at h; rw [← h]; exact .nil
  | cons n k r ih1 ih2 =>
    simp only [Forest.mapCtx, Option.bind_eq_some_iff, Option.map_eq_some_iff] at h
    obtain ⟨m, hm, k', hk, r', hr, rfl⟩ := h
    have hn := hf n (by simp)
    have t := hb anc n m hn ha hm
    refine .cons (@Edit.alter _ _ (apt ini b o) _ t) (ih1 (fun x hx => ?_) (fun x hx => hf x (by simp [hx])) hk) (ih2 ha (fun x hx => hf x (by simp [hx])) hr)
    rcases List.mem_cons.1 hx with rfl | hx
    · exact fair_of (t.attrs hn)
    · exact ha x hx

theorem Apt.attr {f : Forest} (h : Apt ini b o f) (hn : n ∈ f.nodes) {y : Attr} (hy : y ∈ n.attrs) : @AttrFine (apt ini b o) (Grad f) n.kind y := @Sketch.attr (apt ini b o) _ h _ hn _ hy

theorem Apt.ctx {body : List Node → Node → Option Node}
    (hb : ∀ (G : Nat → Prop) anc n m, (∀ y ∈ n.attrs, @AttrFine (apt ini b o) G n.kind y) → (∀ x ∈ anc, Fair o x) → body anc n = some m → Tweak ini b o G n m)
    {f g : Forest} (hf : Apt ini b o f) (h : f.mapCtx body [] = some g) : Apt ini b o g :=
  @Sketch.along (apt ini b o) f g hf (along_ctx (hb _) (by simp) (fun _ hn _ hy => hf.attr hn hy) h)

/-- In a drawing, all is as C69 asks. -/
theorem Apt.paint {f : Forest} (h : Apt ini b o f) (hn : n ∈ f.nodes) : PaintOk n where
  inherit a _ e := by
    obtain ⟨y, hy, _, e⟩ := get_attr e
    exact (h.sketch.attr hn hy).inherit e
  stroke := by
    constructor <;>
    · intro v hv
      obtain ⟨y, hy, e, rfl⟩ := get_attr hv
      exact (attr_apt (h.attr hn hy)).width (by simp [e])
  link a ha k e := by
    obtain ⟨y, hy, e, e'⟩ := get_attr e
    simp only [List.mem_cons, List.not_mem_nil, or_false] at ha
    exact (attr_apt (h.attr hn hy)).paint (by rcases ha with rfl | rfl <;> simp [e]) k e'

theorem Apt.no_use {f : Forest} (h : Apt ini b o f) (hn : n ∈ f.nodes) : n.kind ≠ .elem .use := by
  intro e
  obtain ⟨p, ks, _, hfn⟩ := h.sketch.node hn
  have := hfn.place
  rw [e] at this
  rcases fits_elem this with h | h
  · cases h
  · revert h; decide

theorem Apt.uses {f : Forest} (h : Apt ini b o f) (p : Node → Bool) : UsesAgree p f := fun x hx e => absurd e (h.no_use (places_mem hx).1)

theorem Apt.no_marker {f : Forest} (h : Apt ini b o f) (hn : n ∈ f.nodes) {a : AId} (ha : a ∈ markerAttrs) {v : Value} (hv : n.get a = some v) : v.target = none := by
  obtain ⟨y, hy, e, rfl⟩ := get_attr hv
  cases ht : y.value.target with
  | none => rfl
  | some k =>
    have := ((h.sketch.attr hn hy).paint k ht).1
    rw [e] at this
    simp only [markerAttrs, List.mem_cons, List.not_mem_nil, or_false] at ha
    rcases ha with rfl | rfl | rfl | rfl <;> simp at this

theorem Apt.given_marker {f : Forest} (h : Apt ini b o f) {l : List Node} (hl : ∀ n ∈ l, n ∈ f.nodes) {a : AId} (ha : a ∈ markerAttrs) : refers (given a l) = false := by
  unfold given refers
  cases hv : (l.filterMap fun m => m.get a).head? with
  | none => rfl
  | some v =>
    obtain ⟨m, hm, e⟩ := List.mem_filterMap.1 (List.mem_of_mem_head? hv)
    simp [h.no_marker (hl m hm) ha e]

theorem places_spots {f : Forest} {anc : List Node} {x : Node × List Node × Forest} (hx : x ∈ places anc f) (p : Kind) : ∃ q, (q, x.1, x.2.2) ∈ spots p f := by
  induction f generalizing anc p with
  | nil => cases hx
  | cons n k r ih1 ih2 =>
    simp only [places, List.mem_cons, List.mem_append] at hx
    rcases hx with rfl | hx | hx
    · exact ⟨p, by simp [spots]⟩
    · obtain ⟨q, hq⟩ := ih1 hx n.kind
      exact ⟨q, by simp [spots, hq]⟩
    · obtain ⟨q, hq⟩ := ih2 hx p
      exact ⟨q, by simp [spots, hq]⟩

/-- Shapes have no children. -/
theorem Apt.leaf {f : Forest} (h : Apt ini b o f) {p : Kind} {ks : Forest} (hx : (p, n, ks) ∈ spots doc f) {e : EId} (hk : n.kind = .elem e)
    (he : e ∉ [EId.svg, .g, .text, .tspan, .defs, .linearGradient, .radialGradient, .title, .desc, .metadata]) : ks = .nil := by
  cases ks with
  | nil => rfl
  | cons a c d =>
    have := (h.sketch.nodes _ (spots_of_subs (spots_subs hx) (n.kind, a, c) (by simp [spots]))).place
    dsimp only at this
    rw [hk] at this
    exact absurd (fits_leaf this) he

theorem Apt.shapesPlain {f : Forest} (h : Apt ini b o f) : ShapesPlain f := by
  intro x hx hm
  obtain ⟨h1, h2⟩ := places_mem hx
  refine ⟨?_, fun _ a ha => h.given_marker (fun m hm => ?_) ha⟩
  · obtain ⟨q, hq⟩ := places_spots hx doc
    unfold movableShape isBasic at hm
    rw [Bool.and_eq_true] at hm
    cases hk : x.1.kind with
    | elem e =>
      rw [hk] at hm
      refine h.leaf hq hk ?_
      have := hm.1
      simp only [decide_eq_true_eq, List.mem_cons, List.not_mem_nil, or_false] at this
      rcases this with rfl | rfl | rfl | rfl <;> decide
    | _ => rw [hk] at hm; cases hm.1
  · rcases List.mem_cons.1 hm with rfl | hm
    · exact h1
    · exact (h2 m hm).resolve_left (by simp)

theorem Apt.shapeTs (hl : b ≠ .late) {f g : Forest} (hf : Apt ini b o f) (h : applyToShapes f = some g) : SameDrawing ini f g ∧ Apt ini b o g :=
  ⟨.of_zoom (Zoom.C69_shapes_partial (fun _ hn => hf.paint hn) hf.shapesPlain (hf.uses _) h), hf.ctx (fun _ _ _ _ hn ha hb => shape_tweak hl hn ha hb) h⟩

end

end Verif.Whole
