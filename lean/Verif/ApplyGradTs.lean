import Verif.ApplyTsProps
/-
C30: applying gradient transforms keeps the paint.
-/
namespace Verif.ApplyTs
open Verif.Dom Verif.Spec Verif.Paths
open Verif.ConvShapes (lenOf)
open Verif.Stops (modValue getAttr_set getAttr_nodeRm getAttr_modValue)

/-! ### Specification: the paint of a gradient (SVG 1.1, 13.2) -/

/-- A coordinate of a gradient in the units of its coordinate system. -/
def CoordIs (u : Viewport) (d : Axis) (f : Forest) (n : Node) (a : AId) (q : ℚ) : Prop :=
  ∃ l, GradientValue f n a (.length l) ∧ q = l.num * u.factor d l.unit

/-- The offset `t` (where to look in the stops) at the point `p` of a linear gradient is given by the projection of `p` to
the gradient vector. -/
def LinearParam (x1 y1 x2 y2 : ℚ) (p : Pt) (t : ℚ) : Prop :=
  t * ((x2 - x1) ^ 2 + (y2 - y1) ^ 2) = (p.1 - x1) * (x2 - x1) + (p.2 - y1) * (y2 - y1)

/-- The offset `t` at the point `p` of a radial gradient: `p` lies on the circle around the point that divides the way from
the focal point to the centre as `t`, with the radius `t * r`.  (A negative radius is an error: there is no offset.) -/
def RadialParam (cx cy r fx fy : ℚ) (p : Pt) (t : ℚ) : Prop :=
  0 ≤ r ∧ 0 ≤ t ∧ (p.1 - (fx + t * (cx - fx))) ^ 2 + (p.2 - (fy + t * (cy - fy))) ^ 2 = (t * r) ^ 2

/-- The offset at a point of the gradient's own coordinate system. -/
def Param (u : Viewport) (f : Forest) (n : Node) (p : Pt) (t : ℚ) : Prop :=
  (n.kind = .elem .linearGradient ∧ ∃ x1 y1 x2 y2, CoordIs u .x f n .x1 x1 ∧ CoordIs u .y f n .y1 y1 ∧
    CoordIs u .x f n .x2 x2 ∧ CoordIs u .y f n .y2 y2 ∧ LinearParam x1 y1 x2 y2 p t) ∨
  (n.kind = .elem .radialGradient ∧ ∃ cx cy r fx fy, CoordIs u .x f n .cx cx ∧ CoordIs u .y f n .cy cy ∧
    CoordIs u .other f n .r r ∧ CoordIs u .x f n .fx fx ∧ CoordIs u .y f n .fy fy ∧ RadialParam cx cy r fx fy p t)

/-- The transform of a gradient. -/
def GTransform (f : Forest) (n : Node) (T : Transform) : Prop :=
  GradientValue f n .gradientTransform (.transform T) ∨ ((∀ v, ¬ GradientValue f n .gradientTransform v) ∧ T = one)

/-- The offset at a point of the coordinate system in which the gradient is used. -/
def ParamAt (u : Viewport) (f : Forest) (n : Node) (q : Pt) (t : ℚ) : Prop :=
  ∃ T p, GTransform f n T ∧ T.pt p = q ∧ Param u f n p t

/-- The attributes that a gradient transform is applied to. -/
def geoAttrs : List AId := [.x1, .y1, .x2, .y2, .cx, .cy, .r, .fx, .fy, .gradientTransform]

/-- The gradient `m` of the document `g` paints every point as the gradient `n` of the document `f` does: same units, same
spread method, same reference (and with it the same stops), same offset at every point. -/
structure SamePaint (f : Forest) (n : Node) (g : Forest) (m : Node) : Prop where
  same : SameBut geoAttrs n m
  units : ∀ v, GradientValue g m .gradientUnits v ↔ GradientValue f n .gradientUnits v
  spread : ∀ v, GradientValue g m .spreadMethod v ↔ GradientValue f n .spreadMethod v
  offset : ∀ u q t, ParamAt u g m q t ↔ ParamAt u f n q t

theorem SamePaint.trans {f g h : Forest} {n m l : Node} (h1 : SamePaint f n g m) (h2 : SamePaint g m h l) : SamePaint f n h l :=
  ⟨h1.same.trans h2.same, fun v => (h2.units v).trans (h1.units v), fun v => (h2.spread v).trans (h1.spread v),
   fun u q t => (h2.offset u q t).trans (h1.offset u q t)⟩

/-- The coordinate attributes of the two kinds of gradient. -/
def gcoords : Dom.Kind → List AId
  | .elem .linearGradient => [.x1, .y1, .x2, .y2]
  | .elem .radialGradient => [.cx, .cy, .fx, .fy, .r]
  | _ => []

/-- What C26 establishes: every gradient has (possibly hidden) the values that the standard gives to its attributes. -/
def ResolvedDoc (f : Forest) : Prop :=
  ∀ n ∈ f.nodes, n.isGradient = true → ∀ a ∈ gradientAttrs n.kind, ∀ v, n.get a = some v ↔ GradientValue f n a v

/-- References are written, and coordinates and transforms have values of these types. -/
structure GradientOk (n : Node) : Prop where
  href : written n .xlinkHref = n.get .xlinkHref
  coords : ∀ a ∈ gcoords n.kind, ∀ v, n.get a = some v → ∃ l, v = .length l
  trans : ∀ v, n.get .gradientTransform = some v → ∃ t, v = .transform t

/-- The radius is written in the element itself if there is a transform that scales. -/
def RadiusShown (n : Node) : Prop :=
  n.kind = .elem .radialGradient → ∀ t, n.get .gradientTransform = some (.transform t) → t.a ≠ 1 → written n .r = n.get .r

structure Good (f : Forest) : Prop where
  uniq : f.UniqueKeys
  href : HrefOk f
  resolved : ResolvedDoc f
  ok : ∀ n ∈ f.nodes, n.isGradient = true → GradientOk n ∧ RadiusShown n

/-! ### Geometry -/

theorem linear_image {T : Transform} (h : Uniform T) (x1 y1 x2 y2 : ℚ) (p : Pt) (t : ℚ) :
    LinearParam (T.pt (x1, y1)).1 (T.pt (x1, y1)).2 (T.pt (x2, y2)).1 (T.pt (x2, y2)).2 (T.pt p) t ↔
      LinearParam x1 y1 x2 y2 p t := by
  obtain ⟨a, b, c, d, e, f⟩ := T
  obtain ⟨h1, h2, h3, h4⟩ := h
  simp only at h1 h2 h3 h4
  subst h1 h2 h3
  simp only [LinearParam, Transform.pt, Transform.apply]
  have e1 : t * ((a * x2 + 0 * y2 + e - (a * x1 + 0 * y1 + e)) ^ 2 + (0 * x2 + a * y2 + f - (0 * x1 + a * y1 + f)) ^ 2) =
    a ^ 2 * (t * ((x2 - x1) ^ 2 + (y2 - y1) ^ 2)) := by ring
  have e2 : (a * p.1 + 0 * p.2 + e - (a * x1 + 0 * y1 + e)) * (a * x2 + 0 * y2 + e - (a * x1 + 0 * y1 + e)) +
      (0 * p.1 + a * p.2 + f - (0 * x1 + a * y1 + f)) * (0 * x2 + a * y2 + f - (0 * x1 + a * y1 + f)) =
    a ^ 2 * ((p.1 - x1) * (x2 - x1) + (p.2 - y1) * (y2 - y1)) := by ring
  rw [e1, e2]
  exact mul_right_inj' (by positivity)

theorem radial_image {T : Transform} (h : Uniform T) (cx cy r fx fy : ℚ) (p : Pt) (t : ℚ) :
    RadialParam (T.pt (cx, cy)).1 (T.pt (cx, cy)).2 (r * T.a) (T.pt (fx, fy)).1 (T.pt (fx, fy)).2 (T.pt p) t ↔
      RadialParam cx cy r fx fy p t := by
  obtain ⟨a, b, c, d, e, f⟩ := T
  obtain ⟨h1, h2, h3, h4⟩ := h
  simp only at h1 h2 h3 h4
  subst h1 h2 h3
  simp only [RadialParam, Transform.pt, Transform.apply]
  have e1 : (a * p.1 + 0 * p.2 + e - (a * fx + 0 * fy + e + t * (a * cx + 0 * cy + e - (a * fx + 0 * fy + e)))) ^ 2 +
      (0 * p.1 + a * p.2 + f - (0 * fx + a * fy + f + t * (0 * cx + a * cy + f - (0 * fx + a * fy + f)))) ^ 2 =
    a ^ 2 * ((p.1 - (fx + t * (cx - fx))) ^ 2 + (p.2 - (fy + t * (cy - fy))) ^ 2) := by ring
  have e2 : (t * (r * a)) ^ 2 = a ^ 2 * (t * r) ^ 2 := by ring
  rw [e1, e2, mul_right_inj' (by positivity), mul_nonneg_iff_of_pos_right h4]

theorem pt_surj {T : Transform} (h : Uniform T) (q : Pt) : ∃ p, T.pt p = q := by
  obtain ⟨a, b, c, d, e, f⟩ := T
  obtain ⟨h1, h2, h3, h4⟩ := h
  simp only at h1 h2 h3 h4
  subst h1 h2 h3
  refine ⟨((q.1 - e) / a, (q.2 - f) / a), ?_⟩
  simp only [Transform.pt, Transform.apply]
  ext <;> simp <;> field_simp <;> ring

theorem one_pt (p : Pt) : (one : Transform).pt p = p := by
  simp [Transform.pt, Transform.apply, one]

/-! ### Values found along the references -/

theorem effective_total {f : Forest} (hu : f.UniqueKeys) (hr : HrefOk f) (a : AId) {n : Node} (hn : n ∈ f.nodes)
    (hg : n.isGradient = true) : ∃ v, Effective f a n v := by
  obtain ⟨rank, hr⟩ := hr
  generalize hk : rank n.key = k
  induction k using Nat.strong_induction_on generalizing n with
  | _ k ih =>
    cases hw : written n a with
    | some v => exact ⟨_, .own hw⟩
    | none =>
      cases hh : written n .xlinkHref with
      | none => exact ⟨_, .stop hw hh⟩
      | some x =>
        obtain ⟨t, ht, rfl, hgt, hlt⟩ := hr n hn hg x hh
        obtain ⟨v, hv⟩ := ih (rank t.key) (hk ▸ hlt) ht hgt rfl
        exact ⟨v, .ref hw hh (Forest.find_of_mem hu ht) hv⟩

/-- If the gradients that others refer to do not change, the value of an attribute that is written as before is found as
before. -/
theorem effective_map {f : Forest} {h : Node → Node} (hu : f.UniqueKeys) (hr : HrefOk f)
    (hk : ∀ n, (h n).key = n.key)
    (hh : ∀ n ∈ f.nodes, n.isGradient = true → written (h n) .xlinkHref = written n .xlinkHref)
    (ht : ∀ n ∈ f.nodes, n.isGradient = true → ∀ t ∈ f.nodes, written n .xlinkHref = some (.link t.key) → h t = t)
    {a : AId} {n : Node} (hn : n ∈ f.nodes) (hg : n.isGradient = true) (hw : written (h n) a = written n a)
    (v : Option Value) : Effective (f.map h) a (h n) v ↔ Effective f a n v := by
  have fwd : ∀ v, Effective f a n v → Effective (f.map h) a (h n) v := by
    intro v he
    induction he with
    | own h1 => exact .own (by rw [hw]; exact h1)
    | @ref n k m v h1 h2 h3 _ ih =>
      obtain ⟨hm, hmk⟩ := Forest.find_some h3
      obtain ⟨rank, hr'⟩ := hr
      obtain ⟨t, htm, e, hgt, _⟩ := hr' n hn hg _ h2
      cases e
      have : t = m := Forest.eq_of_key hu htm hm hmk.symm
      subst this
      have htt := ht n hn hg t htm h2
      have := ih hm hgt (by rw [htt])
      refine .ref (by rw [hw]; exact h1) (by rw [hh n hn hg]; exact h2) ?_ this
      rw [Forest.find_map hk, h3]; rfl
    | stop h1 h2 => exact .stop (by rw [hw]; exact h1) (by rw [hh _ hn hg]; exact h2)
  refine ⟨fun he => ?_, fwd v⟩
  obtain ⟨w, hw'⟩ := effective_total hu hr a hn hg
  rw [he.unique (fwd w hw')]
  exact hw'

theorem gradientValue_congr {f g : Forest} {n m : Node} {a : AId} (hk : m.kind = n.kind)
    (ha : ∀ v, Effective g a m v ↔ Effective f a n v)
    (hc : ∀ c, centreOf a = some c → ∀ v, Effective g c m v ↔ Effective f c n v) (v : Value) :
    GradientValue g m a v ↔ GradientValue f n a v := by
  have hp : ∀ a, (∀ v, Effective g a m v ↔ Effective f a n v) → ∀ v, PlainValue g m a v ↔ PlainValue f n a v := by
    intro a ha v; unfold PlainValue; rw [ha, ha, hk]
  unfold GradientValue
  rw [hp a ha, hk]
  constructor
  · rintro (h | ⟨h1, c, h2, h3, h4⟩)
    · exact .inl h
    · exact .inr ⟨h1, c, h2, (ha _).1 h3, (hp c (hc c h2) v).1 h4⟩
  · rintro (h | ⟨h1, c, h2, h3, h4⟩)
    · exact .inl h
    · exact .inr ⟨h1, c, h2, (ha _).2 h3, (hp c (hc c h2) v).2 h4⟩

theorem gradientValue_written {f : Forest} {n : Node} {a : AId} {v : Value} (h : written n a = some v) (w : Value) :
    GradientValue f n a w ↔ w = v := by
  constructor
  · intro hw; exact hw.unique (.inl (.inl (.own h)))
  · rintro rfl; exact .inl (.inl (.own h))

theorem written_set (n : Node) (a : AId) (v : Value) (b : AId) : written (n.set a v) b = if b = a then some v else written n b := by
  unfold written
  rw [getAttr_set]
  by_cases h : b = a
  · subst h; simp
  · simp [h]

theorem written_rm (n : Node) (a b : AId) : written (n.rm a) b = if b = a then none else written n b := by
  unfold written
  rw [getAttr_nodeRm]
  by_cases h : b = a
  · subst h; simp
  · simp [h]

theorem written_mod (n : Node) (a : AId) (g : Value → Value) (b : AId) :
    written (modValue n a g) b = if b = a then (written n b).map g else written n b := by
  unfold written
  rw [getAttr_modValue]
  by_cases h : b = a
  · subst h
    simp only [if_true]
    cases getAttr n.attrs (.id b) with
    | none => rfl
    | some x => cases hx : x.visible <;> simp [hx]
  · simp [h]

theorem written_coords (n : Node) (ax ay : AId) (t : Transform) (b : AId) :
    written (transformCoords n ax ay t) b =
      if b = ay then some (.length ⟨(t.apply (lenOf n ax).num (lenOf n ay).num).2, .none⟩)
      else if b = ax then some (.length ⟨(t.apply (lenOf n ax).num (lenOf n ay).num).1, .none⟩)
      else written n b := by
  unfold transformCoords
  simp only [written_set]

theorem written_same {as : List AId} {n m : Node} (h : SameBut as n m) {b : AId} (hb : b ∉ as) : written m b = written n b := by
  unfold written
  rw [h.attr _ (fun a ha he => hb (by cases he; exact ha))]

theorem isGradient_iff (n : Node) : n.isGradient = true ↔ n.kind = .elem .linearGradient ∨ n.kind = .elem .radialGradient := by
  unfold Node.isGradient Node.isTag; simp

theorem coord_total {f : Forest} (hu : f.UniqueKeys) (hr : HrefOk f) {n : Node} (hn : n ∈ f.nodes)
    (hg : n.isGradient = true) {a : AId} (ha : a ∈ gcoords n.kind) : ∃ v, GradientValue f n a v := by
  have pl : ∀ b w, gradientDefault n.kind b = some w → ∃ v, PlainValue f n b v := by
    intro b w hb
    obtain ⟨v, hv⟩ := effective_total hu hr b hn hg
    cases v with
    | some v => exact ⟨v, .inl hv⟩
    | none => exact ⟨w, .inr ⟨hv, hb⟩⟩
  have fo : ∀ b c w, n.kind = .elem .radialGradient → centreOf b = some c → gradientDefault n.kind c = some w →
      ∃ v, GradientValue f n b v := by
    intro b c w hk hb hc
    obtain ⟨v, hv⟩ := effective_total hu hr b hn hg
    cases v with
    | some v => exact ⟨v, .inl (.inl hv)⟩
    | none =>
      obtain ⟨w', hw'⟩ := pl c w hc
      exact ⟨w', .inr ⟨hk, c, hb, hv, hw'⟩⟩
  rcases (isGradient_iff n).1 hg with hk | hk
  · simp only [hk, gcoords, List.mem_cons, List.not_mem_nil, or_false] at ha
    rcases ha with rfl | rfl | rfl | rfl
    · obtain ⟨v, hv⟩ := pl .x1 _ (by rw [hk]; rfl); exact ⟨v, .inl hv⟩
    · obtain ⟨v, hv⟩ := pl .y1 _ (by rw [hk]; rfl); exact ⟨v, .inl hv⟩
    · obtain ⟨v, hv⟩ := pl .x2 _ (by rw [hk]; rfl); exact ⟨v, .inl hv⟩
    · obtain ⟨v, hv⟩ := pl .y2 _ (by rw [hk]; rfl); exact ⟨v, .inl hv⟩
  · simp only [hk, gcoords, List.mem_cons, List.not_mem_nil, or_false] at ha
    rcases ha with rfl | rfl | rfl | rfl | rfl
    · obtain ⟨v, hv⟩ := pl .cx _ (by rw [hk]; rfl); exact ⟨v, .inl hv⟩
    · obtain ⟨v, hv⟩ := pl .cy _ (by rw [hk]; rfl); exact ⟨v, .inl hv⟩
    · exact fo .fx .cx _ hk rfl (by rw [hk]; rfl)
    · exact fo .fy .cy _ hk rfl (by rw [hk]; rfl)
    · obtain ⟨v, hv⟩ := pl .r _ (by rw [hk]; rfl); exact ⟨v, .inl hv⟩

/-- In a document as C26 leaves it, a coordinate without a unit is the number stored. -/
theorem coord_value {f : Forest} (hf : Good f) {n : Node} (hn : n ∈ f.nodes) (hg : n.isGradient = true) {a : AId}
    (ha : a ∈ gcoords n.kind) (hv : isValidCoord n a = true) :
    n.get a = some (.length ⟨(lenOf n a).num, .none⟩) ∧
    ∀ v, GradientValue f n a v ↔ v = .length ⟨(lenOf n a).num, .none⟩ := by
  have hsub : ∀ a ∈ gcoords n.kind, a ∈ gradientAttrs n.kind := by
    rcases (isGradient_iff n).1 hg with hk | hk <;> rw [hk] <;> decide
  obtain ⟨v, hgv⟩ := coord_total hf.uniq hf.href hn hg ha
  have hget := (hf.resolved n hn hg a (hsub a ha) v).2 hgv
  obtain ⟨l, rfl⟩ := (hf.ok n hn hg).1.coords a ha v hget
  have hunit := (isValidCoord_iff n a).1 hv l hget
  obtain ⟨q, u⟩ := l
  simp only at hunit
  subst hunit
  have hl : (lenOf n a).num = q := by unfold lenOf; rw [hget]
  rw [hl]
  exact ⟨hget, fun v => ⟨fun h => h.unique hgv, fun h => h ▸ hgv⟩⟩

theorem coordIs_iff {f : Forest} {n : Node} {a : AId} {c : ℚ}
    (h : ∀ v, GradientValue f n a v ↔ v = .length ⟨c, .none⟩) (u : Viewport) (d : Axis) (q : ℚ) :
    CoordIs u d f n a q ↔ q = c := by
  unfold CoordIs
  constructor
  · rintro ⟨l, hl, rfl⟩
    have := (h _).1 hl
    cases this
    simp [u.factor_none]
  · rintro rfl
    exact ⟨⟨q, .none⟩, (h _).2 rfl, by simp [u.factor_none]⟩

/-- A gradient is changed that no gradient refers to: what is found for the other ones stays. -/
structure Local (f : Forest) (n : Node) (m : Node) : Prop where
  mem : n ∈ f.nodes
  grad : n.isGradient = true
  same : SameBut geoAttrs n m
  unused : ∀ x ∈ f.nodes, x.isGradient = true → written x .xlinkHref ≠ some (.link n.key)

/-- The document with `m` in the place of `n`. -/
def put (f : Forest) (n m : Node) : Forest := f.map (fun x => if x.key = n.key then m else x)

theorem put_key {n m : Node} (h : m.key = n.key) (x : Node) : (if x.key = n.key then m else x).key = x.key := by
  split
  · rename_i hx; rw [h, hx]
  · rfl

theorem put_cases {f : Forest} (hu : f.UniqueKeys) {n m x : Node} (hn : n ∈ f.nodes) (hx : x ∈ f.nodes) :
    (x = n ∧ (if x.key = n.key then m else x) = m) ∨ (x.key ≠ n.key ∧ (if x.key = n.key then m else x) = x) := by
  by_cases h : x.key = n.key
  · exact .inl ⟨Forest.eq_of_key hu hx hn h, if_pos h⟩
  · exact .inr ⟨h, if_neg h⟩

theorem Local.effective {f : Forest} (hu : f.UniqueKeys) (hr : HrefOk f) {n m : Node} (hl : Local f n m) {a : AId} {x : Node}
    (hx : x ∈ f.nodes) (hg : x.isGradient = true) (ha : x.key = n.key → written m a = written n a) (v : Option Value) :
    Effective (put f n m) a (if x.key = n.key then m else x) v ↔ Effective f a x v := by
  unfold put
  refine effective_map (h := fun x => if x.key = n.key then m else x) hu hr (put_key hl.same.key) ?_ ?_ hx hg ?_ v
  · intro y hy _
    rcases put_cases (m := m) hu hl.mem hy with ⟨rfl, h⟩ | ⟨_, h⟩
    · simp only [h]; exact written_same hl.same (by decide)
    · simp only [h]
  · intro y hy hgy t ht hw
    rcases put_cases (m := m) hu hl.mem ht with ⟨rfl, _⟩ | ⟨_, h⟩
    · exact absurd hw (hl.unused y hy hgy)
    · exact h
  · rcases put_cases (m := m) hu hl.mem hx with ⟨rfl, h⟩ | ⟨_, h⟩
    · simp only [h]; exact ha rfl
    · simp only [h]

theorem Local.other {f : Forest} (hu : f.UniqueKeys) (hr : HrefOk f) {n m : Node} (hl : Local f n m) {x : Node}
    (hx : x ∈ f.nodes) (hg : x.isGradient = true) (hne : x.key ≠ n.key) (a : AId) (v : Value) :
    GradientValue (put f n m) x a v ↔ GradientValue f x a v := by
  have e := fun a v => hl.effective hu hr (a := a) hx hg (fun h => absurd h hne) v
  simp only [if_neg hne] at e
  exact gradientValue_congr rfl (e a) (fun c _ => e c) v

theorem Local.kept {f : Forest} (hu : f.UniqueKeys) (hr : HrefOk f) {n m : Node} (hl : Local f n m) {a : AId}
    (ha : written m a = written n a) (hc : centreOf a = none) (v : Value) :
    GradientValue (put f n m) m a v ↔ GradientValue f n a v := by
  have e := fun v => hl.effective hu hr (a := a) hl.mem hl.grad (fun _ => ha) v
  simp only [if_true] at e
  exact gradientValue_congr hl.same.kind e (fun c h => by rw [hc] at h; cases h) v

/-! ### One gradient -/

theorem moveGradient_same (n : Node) (t : Transform) : SameBut geoAttrs n (moveGradient n t) := by
  unfold moveGradient
  simp only
  split
  · exact ((SameBut.coords n (by decide) (by decide) t).trans (SameBut.coords _ (by decide) (by decide) t)).trans
      (SameBut.rm _ (by decide))
  · refine SameBut.trans ?_ (SameBut.rm _ (by decide))
    split
    · exact ((SameBut.coords n (by decide) (by decide) t).trans (SameBut.coords _ (by decide) (by decide) t)).trans
        (SameBut.mod _ (a := .r) (by decide) _)
    · exact (SameBut.coords n (by decide) (by decide) t).trans (SameBut.coords _ (by decide) (by decide) t)

/-- The values of a gradient after the change: the new value of each coordinate is known and written. -/
structure NewCoord (n m : Node) (a : AId) (q : ℚ) : Prop where
  get : m.get a = some (.length ⟨q, .none⟩)
  written : written m a = some (.length ⟨q, .none⟩)

theorem moveLinear_coords (n : Node) (t : Transform) (hk : n.kind = .elem .linearGradient) :
    NewCoord n (moveGradient n t) .x1 (t.pt ((lenOf n .x1).num, (lenOf n .y1).num)).1 ∧
    NewCoord n (moveGradient n t) .y1 (t.pt ((lenOf n .x1).num, (lenOf n .y1).num)).2 ∧
    NewCoord n (moveGradient n t) .x2 (t.pt ((lenOf n .x2).num, (lenOf n .y2).num)).1 ∧
    NewCoord n (moveGradient n t) .y2 (t.pt ((lenOf n .x2).num, (lenOf n .y2).num)).2 := by
  have hm : moveGradient n t = (transformCoords (transformCoords n .x1 .y1 t) .x2 .y2 t).rm .gradientTransform := by
    unfold moveGradient; simp [Node.isTag, hk]
  have l1 : lenOf (transformCoords n .x1 .y1 t) .x2 = lenOf n .x2 := lenOf_congr (by simp [get_transformCoords])
  have l2 : lenOf (transformCoords n .x1 .y1 t) .y2 = lenOf n .y2 := lenOf_congr (by simp [get_transformCoords])
  rw [hm]
  refine ⟨⟨?_, ?_⟩, ⟨?_, ?_⟩, ⟨?_, ?_⟩, ⟨?_, ?_⟩⟩ <;>
    simp [get_rm, written_rm, get_transformCoords, written_coords, l1, l2, Transform.pt]

theorem moveRadial_coords (n : Node) (t : Transform) (hk : n.kind = .elem .radialGradient) :
    NewCoord n (moveGradient n t) .cx (t.pt ((lenOf n .cx).num, (lenOf n .cy).num)).1 ∧
    NewCoord n (moveGradient n t) .cy (t.pt ((lenOf n .cx).num, (lenOf n .cy).num)).2 ∧
    NewCoord n (moveGradient n t) .fx (t.pt ((lenOf n .fx).num, (lenOf n .fy).num)).1 ∧
    NewCoord n (moveGradient n t) .fy (t.pt ((lenOf n .fx).num, (lenOf n .fy).num)).2 ∧
    (moveGradient n t).get .r = (if hasScale t then (n.get .r).map (scaleLen t.a) else n.get .r) ∧
    written (moveGradient n t) .r = (if hasScale t then (written n .r).map (scaleLen t.a) else written n .r) := by
  have hm : moveGradient n t = (if hasScale t then scaleCoord (transformCoords (transformCoords n .cx .cy t) .fx .fy t) .r t.a
      else transformCoords (transformCoords n .cx .cy t) .fx .fy t).rm .gradientTransform := by
    unfold moveGradient; simp [Node.isTag, hk]
  have l1 : lenOf (transformCoords n .cx .cy t) .fx = lenOf n .fx := lenOf_congr (by simp [get_transformCoords])
  have l2 : lenOf (transformCoords n .cx .cy t) .fy = lenOf n .fy := lenOf_congr (by simp [get_transformCoords])
  rw [hm]
  cases hasScale t
  · refine ⟨⟨?_, ?_⟩, ⟨?_, ?_⟩, ⟨?_, ?_⟩, ⟨?_, ?_⟩, ?_, ?_⟩ <;>
    simp [get_rm, written_rm, get_transformCoords, written_coords, l1, l2, Transform.pt]
  · refine ⟨⟨?_, ?_⟩, ⟨?_, ?_⟩, ⟨?_, ?_⟩, ⟨?_, ?_⟩, ?_, ?_⟩ <;>
    simp [get_rm, written_rm, get_transformCoords, written_coords, l1, l2, Transform.pt, get_scaleCoord, scaleCoord, written_mod, get_mod]

theorem no_transform {f : Forest} (hf : Good f) {n m : Node} (hl : Local f n m) (hw : written m .gradientTransform = none)
    (ht : linkHasTransform f n = false) (v : Value) : ¬ GradientValue (put f n m) m .gradientTransform v := by
  have he : Effective (put f n m) .gradientTransform m none := by
    have hh : written m .xlinkHref = written n .xlinkHref := written_same hl.same (by decide)
    cases hx : written n .xlinkHref with
    | none => exact .stop hw (by rw [hh, hx])
    | some x =>
      obtain ⟨rank, hr⟩ := hf.href
      obtain ⟨t, htm, rfl, hgt, _⟩ := hr n hl.mem hl.grad x hx
      have hne : t.key ≠ n.key := fun h => hl.unused n hl.mem hl.grad (by rw [hx, h])
      have hfind := Forest.find_of_mem hf.uniq htm
      have e := hl.effective hf.uniq hf.href (a := .gradientTransform) htm hgt (fun h => absurd h hne) none
      rw [if_neg hne] at e
      refine .ref hw (by rw [hh, hx]) ?_ (e.2 ?_)
      · unfold put
        rw [Forest.find_map (put_key hl.same.key), hfind]
        simp [hne]
      · have hnone : t.get .gradientTransform = none := by
          unfold linkHasTransform at ht
          rw [← (hf.ok n hl.mem hl.grad).1.href, hx] at ht
          simp only [hfind] at ht
          rw [Node.has_eq] at ht
          simpa using ht
        obtain ⟨w, hw⟩ := effective_total hf.uniq hf.href .gradientTransform htm hgt
        cases w with
        | none => exact hw
        | some w =>
          have hmem : AId.gradientTransform ∈ gradientAttrs t.kind := by
            rcases (isGradient_iff t).1 hgt with hk | hk <;> rw [hk] <;> decide
          have := (hf.resolved t htm hgt _ hmem w).2 (.inl (.inl hw))
          rw [hnone] at this; cases this
  rintro ((h | ⟨_, h⟩) | ⟨_, c, hc, _⟩)
  · cases he.unique h
  · have : ∀ k, gradientDefault k .gradientTransform = none := by
      intro k; unfold gradientDefault; split <;> first | rfl | (rename_i h; cases h)
    rw [this] at h; cases h
  · cases hc

theorem paramAt_congr {f g : Forest} {n m : Node} (hk : m.kind = n.kind)
    (h : ∀ a v, GradientValue g m a v ↔ GradientValue f n a v) (u : Viewport) (q : Pt) (t : ℚ) :
    ParamAt u g m q t ↔ ParamAt u f n q t := by
  unfold ParamAt GTransform Param CoordIs
  simp only [h, hk]

/-- The offset at every point, if the coordinates are known. -/
theorem paramAt_moved {f g : Forest} {n m : Node} {T : Transform} (hT : Uniform T) (hk : m.kind = n.kind)
    (htf : GradientValue f n .gradientTransform (.transform T)) (htg : ∀ v, ¬ GradientValue g m .gradientTransform v)
    (hp : ∀ u p t, Param u g m (T.pt p) t ↔ Param u f n p t) (u : Viewport) (q : Pt) (t : ℚ) :
    ParamAt u g m q t ↔ ParamAt u f n q t := by
  constructor
  · rintro ⟨S, p, hS, rfl, h⟩
    obtain ⟨p', rfl⟩ := pt_surj hT p
    rcases hS with hS | ⟨_, rfl⟩
    · exact absurd hS (htg _)
    · rw [one_pt]
      exact ⟨T, p', .inl htf, rfl, (hp u p' t).1 h⟩
  · rintro ⟨S, p, hS, rfl, h⟩
    rcases hS with hS | ⟨hno, _⟩
    · cases hS.unique htf
      exact ⟨one, T.pt p, .inr ⟨htg, rfl⟩, one_pt _, (hp u p t).2 h⟩
    · exact absurd htf (hno _)

/-- What one round of the loop does to a gradient. -/
theorem gradient_step {f : Forest} (hf : Good f) {n : Node} (hn : n ∈ f.nodes) (hg : n.isGradient = true) {T : Transform}
    (hT : Uniform T) (htr : n.get .gradientTransform = some (.transform T))
    (hun : (f.linkedNodes n.key).any (fun m => m.isGradient) = false) (hlt : linkHasTransform f n = false)
    (hco : isValidCoords n (if n.isTag .linearGradient then .linearGradient else .radialGradient) = true) :
    Good (put f n (moveGradient n T)) ∧ SamePaint f n (put f n (moveGradient n T)) (moveGradient n T) ∧
    (∀ a ∈ [AId.gradientUnits, .spreadMethod], ∀ v, GradientValue (put f n (moveGradient n T)) (moveGradient n T) a v ↔ GradientValue f n a v) ∧
    ∀ x ∈ f.nodes, x.isGradient = true → x.key ≠ n.key → SamePaint f x (put f n (moveGradient n T)) x := by
  have hl : Local f n (moveGradient n T) := by
    refine ⟨hn, hg, moveGradient_same n T, fun x hx hgx hw => ?_⟩
    rw [(hf.ok x hx hgx).1.href] at hw
    have : x ∈ f.linkedNodes n.key := by
      unfold Forest.linkedNodes
      simp only [List.mem_filter, decide_eq_true_eq]
      exact ⟨hx, Gradients.href_links hw⟩
    rw [List.any_eq_false] at hun
    exact hun x this hgx
  have hs := hl.same
  have hkind := hs.kind
  have hgT : ∀ v, ¬ GradientValue (put f n (moveGradient n T)) (moveGradient n T) .gradientTransform v :=
    no_transform hf hl (by unfold moveGradient; simp [written_rm]) hlt
  have hgT' : (moveGradient n T).get .gradientTransform = none := by unfold moveGradient; simp [get_rm]
  have hgmem : AId.gradientTransform ∈ gradientAttrs n.kind ∧ AId.gradientUnits ∈ gradientAttrs n.kind ∧ AId.spreadMethod ∈ gradientAttrs n.kind := by
    rcases (isGradient_iff n).1 hg with hk | hk <;> rw [hk] <;> decide
  have hTf : GradientValue f n .gradientTransform (.transform T) := (hf.resolved n hn hg _ hgmem.1 _).1 htr
  -- attributes that do not change
  have hkeep : ∀ a ∈ [AId.gradientUnits, .spreadMethod], ∀ v,
      GradientValue (put f n (moveGradient n T)) (moveGradient n T) a v ↔ GradientValue f n a v := by
    intro a ha v
    simp only [List.mem_cons, List.not_mem_nil, or_false] at ha
    rcases ha with rfl | rfl
    · exact hl.kept hf.uniq hf.href (written_same hs (by decide)) rfl v
    · exact hl.kept hf.uniq hf.href (written_same hs (by decide)) rfl v
  have hother : ∀ x ∈ f.nodes, x.isGradient = true → x.key ≠ n.key → ∀ a v,
      GradientValue (put f n (moveGradient n T)) x a v ↔ GradientValue f x a v :=
    fun x hx hgx hne a v => hl.other hf.uniq hf.href hx hgx hne a v
  -- the coordinates
  have hnew : ∀ {a q}, NewCoord n (moveGradient n T) a q →
      ∀ v, GradientValue (put f n (moveGradient n T)) (moveGradient n T) a v ↔ v = .length ⟨q, .none⟩ :=
    fun h v => gradientValue_written h.written v
  have main : (∀ a ∈ gcoords n.kind, (∀ v, (moveGradient n T).get a = some v ↔
        GradientValue (put f n (moveGradient n T)) (moveGradient n T) a v) ∧
        ∀ v, (moveGradient n T).get a = some v → ∃ l, v = .length l) ∧
      ∀ u p t, Param u (put f n (moveGradient n T)) (moveGradient n T) (T.pt p) t ↔ Param u f n p t := by
    have hcase : ∀ {a q}, NewCoord n (moveGradient n T) a q → (∀ v, (moveGradient n T).get a = some v ↔
        GradientValue (put f n (moveGradient n T)) (moveGradient n T) a v) ∧
        ∀ v, (moveGradient n T).get a = some v → ∃ l, v = .length l := by
      intro a q h
      refine ⟨fun v => ?_, fun v hv => ?_⟩
      · rw [hnew h, h.get]
        constructor
        · intro h; cases h; rfl
        · rintro rfl; rfl
      · rw [h.get] at hv; cases hv; exact ⟨_, rfl⟩
    rcases (isGradient_iff n).1 hg with hk | hk
    · have htag : n.isTag .linearGradient = true := by simp [Node.isTag, hk]
      rw [htag] at hco
      simp only [if_true, isValidCoords, List.all_cons, List.all_nil, Bool.and_true, Bool.and_eq_true] at hco
      obtain ⟨c1, c2, c3, c4⟩ := moveLinear_coords n T hk
      have v1 := (coord_value hf hn hg (a := .x1) (by rw [hk]; decide) hco.1).2
      have v2 := (coord_value hf hn hg (a := .y1) (by rw [hk]; decide) hco.2.1).2
      have v3 := (coord_value hf hn hg (a := .x2) (by rw [hk]; decide) hco.2.2.1).2
      have v4 := (coord_value hf hn hg (a := .y2) (by rw [hk]; decide) hco.2.2.2).2
      refine ⟨?_, ?_⟩
      · intro a ha
        simp only [hk, gcoords, List.mem_cons, List.not_mem_nil, or_false] at ha
        rcases ha with rfl | rfl | rfl | rfl
        · exact hcase c1
        · exact hcase c2
        · exact hcase c3
        · exact hcase c4
      · intro u p t
        unfold Param
        rw [hkind, hk]
        simp only [coordIs_iff (hnew c1), coordIs_iff (hnew c2), coordIs_iff (hnew c3), coordIs_iff (hnew c4),
          coordIs_iff v1, coordIs_iff v2, coordIs_iff v3, coordIs_iff v4]
        have := linear_image hT (lenOf n .x1).num (lenOf n .y1).num (lenOf n .x2).num (lenOf n .y2).num p t
        simp only [exists_and_left, exists_eq_left, true_and]
        rw [this]
        simp
    · have htag : n.isTag .linearGradient = false := by simp [Node.isTag, hk]
      rw [htag] at hco
      simp only [Bool.false_eq_true, if_false, isValidCoords, List.all_cons, List.all_nil, Bool.and_true, Bool.and_eq_true] at hco
      obtain ⟨c1, c2, c3, c4, c5, c6⟩ := moveRadial_coords n T hk
      have v1 := (coord_value hf hn hg (a := .cx) (by rw [hk]; decide) hco.1).2
      have v2 := (coord_value hf hn hg (a := .cy) (by rw [hk]; decide) hco.2.1).2
      have v3 := (coord_value hf hn hg (a := .fx) (by rw [hk]; decide) hco.2.2.1).2
      have v4 := (coord_value hf hn hg (a := .fy) (by rw [hk]; decide) hco.2.2.2.1).2
      obtain ⟨g5, v5⟩ := coord_value hf hn hg (a := .r) (by rw [hk]; decide) hco.2.2.2.2
      -- the radius
      have w5 : (moveGradient n T).get .r = some (.length ⟨(lenOf n .r).num * T.a, .none⟩) ∧
          ∀ v, GradientValue (put f n (moveGradient n T)) (moveGradient n T) .r v ↔ v = .length ⟨(lenOf n .r).num * T.a, .none⟩ := by
        cases hsc : hasScale T with
        | true =>
          rw [hsc, if_pos rfl] at c5 c6
          have ha : T.a ≠ 1 := by
            intro h1
            unfold hasScale at hsc
            rw [← hT.2.2.1, h1] at hsc
            simp at hsc
          have hsh := (hf.ok n hn hg).2 hk T htr ha
          rw [g5] at c5 hsh
          rw [hsh] at c6
          exact ⟨c5, fun v => gradientValue_written c6 v⟩
        | false =>
          rw [hsc, if_neg (by simp)] at c5 c6
          rw [noScale hsc, mul_one]
          refine ⟨c5.trans g5, fun v => ?_⟩
          rw [hl.kept hf.uniq hf.href c6 rfl v]
          exact v5 v
      refine ⟨?_, ?_⟩
      · intro a ha
        simp only [hk, gcoords, List.mem_cons, List.not_mem_nil, or_false] at ha
        rcases ha with rfl | rfl | rfl | rfl | rfl
        · exact hcase c1
        · exact hcase c2
        · exact hcase c3
        · exact hcase c4
        · refine ⟨fun v => ?_, fun v hv => ?_⟩
          · rw [w5.2, w5.1]
            constructor
            · intro h; cases h; rfl
            · rintro rfl; rfl
          · rw [w5.1] at hv; cases hv; exact ⟨_, rfl⟩
      · intro u p t
        unfold Param
        rw [hkind, hk]
        simp only [coordIs_iff (hnew c1), coordIs_iff (hnew c2), coordIs_iff (hnew c3), coordIs_iff (hnew c4),
          coordIs_iff w5.2, coordIs_iff v1, coordIs_iff v2, coordIs_iff v3, coordIs_iff v4, coordIs_iff v5]
        have := radial_image hT (lenOf n .cx).num (lenOf n .cy).num (lenOf n .r).num (lenOf n .fx).num (lenOf n .fy).num p t
        simp only [exists_and_left, exists_eq_left, true_and]
        rw [this]
        simp
  refine ⟨⟨?_, ?_, ?_, ?_⟩, ⟨hs, hkeep _ (by simp), hkeep _ (by simp), paramAt_moved hT hkind hTf hgT main.2⟩, hkeep, ?_⟩
  · exact (Forest.uniqueKeys_map (put_key hs.key)).2 hf.uniq
  · obtain ⟨rank, hr⟩ := hf.href
    refine ⟨rank, ?_⟩
    intro y hy hgy v hv
    unfold put at hy ⊢
    rw [Forest.nodes_map] at hy ⊢
    obtain ⟨x, hx, rfl⟩ := List.mem_map.1 hy
    have key : x.isGradient = true ∧ written x .xlinkHref = some v := by
      rcases put_cases (m := moveGradient n T) hf.uniq hn hx with ⟨rfl, h⟩ | ⟨_, h⟩
      · rw [h] at hv; exact ⟨hg, by rw [← hv, written_same hs (by decide)]⟩
      · rw [h] at hv hgy; exact ⟨hgy, hv⟩
    obtain ⟨t, ht, e, hgt, hlt⟩ := hr x hx key.1 v key.2
    refine ⟨_, List.mem_map_of_mem ht, ?_, ?_, ?_⟩
    · rw [put_key hs.key]; exact e
    · rcases put_cases (m := moveGradient n T) hf.uniq hn ht with ⟨rfl, h⟩ | ⟨_, h⟩
      · rw [h, isGradient_iff, hkind, ← isGradient_iff]; exact hgt
      · rw [h]; exact hgt
    · rw [put_key hs.key, put_key hs.key]; exact hlt
  · intro y hy hgy a ha v
    unfold put at hy
    rw [Forest.nodes_map] at hy
    obtain ⟨x, hx, rfl⟩ := List.mem_map.1 hy
    rcases put_cases (m := moveGradient n T) hf.uniq hn hx with ⟨rfl, h⟩ | ⟨hne, h⟩
    · rw [h] at ha ⊢
      rw [hkind] at ha
      by_cases hc : a ∈ gcoords x.kind
      · exact (main.1 a hc).1 v
      · have : a = .gradientTransform ∨ a ∈ [AId.gradientUnits, .spreadMethod] := by
          rcases (isGradient_iff x).1 hg with hk | hk <;> rw [hk] at ha hc <;> revert a <;> decide
        rcases this with rfl | hc'
        · rw [hgT']
          constructor
          · intro h; cases h
          · intro h; exact absurd h (hgT v)
        · rw [hkeep a hc' v]
          have hne : a ∉ geoAttrs := by clear ha hc; revert a; decide
          rw [hs.get hne]
          refine hf.resolved x hx hg a ha v
    · rw [h] at ha hgy ⊢
      rw [hother x hx hgy hne]
      exact hf.resolved x hx hgy a ha v
  · intro y hy hgy
    unfold put at hy
    rw [Forest.nodes_map] at hy
    obtain ⟨x, hx, rfl⟩ := List.mem_map.1 hy
    rcases put_cases (m := moveGradient n T) hf.uniq hn hx with ⟨rfl, h⟩ | ⟨hne, h⟩
    · rw [h]
      refine ⟨⟨?_, ?_, ?_⟩, ?_⟩
      · rw [written_same hs (by decide), hs.get (by decide)]; exact (hf.ok x hx hg).1.href
      · intro a ha v hv
        rw [hkind] at ha
        exact (main.1 a ha).2 v hv
      · intro v hv; rw [hgT'] at hv; cases hv
      · intro _ t ht; rw [hgT'] at ht; cases ht
    · rw [h] at hgy ⊢; exact hf.ok x hx hgy
  · intro x hx hgx hne
    have := hother x hx hgx hne
    exact ⟨SameBut.refl _ _, this _, this _, paramAt_congr rfl this⟩

/-! ### The document -/

theorem SamePaint.refl (f : Forest) (n : Node) : SamePaint f n f n :=
  ⟨SameBut.refl _ _, fun _ => Iff.rfl, fun _ => Iff.rfl, fun _ _ _ => Iff.rfl⟩

/-- Node by node: gradients keep their paint, everything else stays. -/
def PaintKept (f g : Forest) : Prop :=
  shape none g = shape none f ∧
  List.Forall₂ (fun n m => if n.isGradient then SamePaint f n g m else m = n) f.nodes g.nodes

theorem PaintKept.refl (f : Forest) : PaintKept f f := by
  refine ⟨rfl, ?_⟩
  rw [List.forall₂_same]
  intro n _
  split
  · exact SamePaint.refl f n
  · rfl

theorem PaintKept.trans {f g h : Forest} (h1 : PaintKept f g) (h2 : PaintKept g h) : PaintKept f h := by
  refine ⟨h2.1.trans h1.1, ?_⟩
  refine Stops.forall2_comp (R := fun n m => if n.isGradient then SamePaint f n g m else m = n)
    (S := fun n m => if n.isGradient then SamePaint g n h m else m = n) ?_ h1.2 h2.2
  intro x y z hxy hyz
  split at hxy
  · rename_i hg
    have : y.isGradient = true := by rw [isGradient_iff, hxy.same.kind, ← isGradient_iff]; exact hg
    rw [if_pos this] at hyz
    rw [if_pos hg]
    exact hxy.trans hyz
  · rename_i hg
    subst hxy
    rw [if_neg hg] at hyz ⊢
    exact hyz

theorem gradientBody_spec {f g : Forest} (hf : Good f) {k : Nat} (h : gradientBody k f = some g) :
    Good g ∧ PaintKept f g := by
  unfold gradientBody at h
  cases hn : f.find k with
  | none => rw [hn] at h; cases h; exact ⟨hf, PaintKept.refl f⟩
  | some n =>
    rw [hn] at h
    simp only at h
    obtain ⟨hmem, rfl⟩ := Forest.find_some hn
    split at h
    · rename_i hc
      simp only [Bool.and_eq_true] at hc
      split at h
      · cases h; exact ⟨hf, PaintKept.refl f⟩
      · rename_i h1
        split at h
        · cases h; exact ⟨hf, PaintKept.refl f⟩
        · rename_i h2
          cases ht : n.get .gradientTransform with
          | none => rw [ht] at h; cases h
          | some v =>
            rw [ht] at h
            cases v with
            | transform T =>
              simp only at h
              split at h
              · cases h; exact ⟨hf, PaintKept.refl f⟩
              · rename_i h3
                cases h4 : isValidCoords n (if n.isTag .linearGradient then .linearGradient else .radialGradient)
                · rw [h4] at h; cases h; exact ⟨hf, PaintKept.refl f⟩
                · rw [h4] at h
                  simp only [Bool.not_true, Bool.false_eq_true, if_false, Option.some.injEq] at h
                  have hput : g = put f n (moveGradient n T) := by
                    rw [← h]
                    unfold Forest.modify put
                    apply Forest.map_congr
                    intro x hx
                    by_cases hxk : x.key = n.key
                    · rw [if_pos hxk, if_pos hxk, Forest.eq_of_key hf.uniq hx hmem hxk]
                    · rw [if_neg hxk, if_neg hxk]
                  subst hput
                  obtain ⟨g1, g2, _, g4⟩ := gradient_step hf hmem hc.1 ((isValid_iff T).1 (by simpa using h3)) ht
                    (by simpa using h1) (by simpa using h2) h4
                  refine ⟨g1, Stops.shape_map_key (put_key (moveGradient_same n T).key) f none, ?_⟩
                  generalize hG : put f n (moveGradient n T) = G at g2 g4
                  rw [← hG]
                  conv in (put f n (moveGradient n T)).nodes => unfold put
                  rw [Forest.nodes_map, List.forall₂_map_right_iff, List.forall₂_same]
                  intro x hx
                  rw [hG]
                  rcases put_cases (m := moveGradient n T) hf.uniq hmem hx with ⟨rfl, e⟩ | ⟨hne, e⟩
                  · rw [if_pos hc.1, e]; exact g2
                  · rw [e]
                    split
                    · rename_i hgx; exact g4 x hx hgx hne
                    · rfl
            | _ => cases h
    · cases h; exact ⟨hf, PaintKept.refl f⟩

theorem forEach_paint {l : List Nat} {f g : Forest} (hf : Good f) (h : Gradients.forEach gradientBody l f = some g) :
    Good g ∧ PaintKept f g := by
  induction l generalizing f with
  | nil => cases h; exact ⟨hf, PaintKept.refl _⟩
  | cons k t ih =>
    simp only [Gradients.forEach, Option.bind_eq_some_iff] at h
    obtain ⟨f1, h1, h2⟩ := h
    obtain ⟨a1, a2⟩ := gradientBody_spec hf h1
    obtain ⟨b1, b2⟩ := ih a1 h2
    exact ⟨b1, a2.trans b2⟩

/-- **C30**, for documents in which a radial gradient with a transform that scales has the radius written in the element
itself: the tree and all nodes but gradients stay, and every gradient, looked up in the new document as the standard says,
paints every point as before.  (The hypothesis that gradient attributes are resolved is what C26 establishes.) -/
theorem C30_paint_partial {f g : Forest} (hf : Good f) (h : applyToGradients f = some g) : PaintKept f g :=
  (forEach_paint hf h).2

/-- C30: the pass can be repeated (the program runs it twice). -/
theorem C30_again {f g : Forest} (hf : Good f) (h : applyToGradients f = some g) : Good g :=
  (forEach_paint hf h).1

/-- C30: no crash if gradient transforms are transforms. -/
theorem C30_no_crash {f : Forest} (hf : Good f) : ∃ g, applyToGradients f = some g := by
  unfold applyToGradients
  generalize f.keys = l
  induction l generalizing f with
  | nil => exact ⟨_, rfl⟩
  | cons k t ih =>
    have : ∃ g, gradientBody k f = some g := by
      unfold gradientBody
      cases hn : f.find k with
      | none => exact ⟨_, rfl⟩
      | some n =>
        simp only
        obtain ⟨hmem, _⟩ := Forest.find_some hn
        split
        · rename_i hc
          simp only [Bool.and_eq_true, Node.has_eq] at hc
          obtain ⟨v, hv⟩ := Option.isSome_iff_exists.1 hc.2
          obtain ⟨T, rfl⟩ := (hf.ok n hmem hc.1).1.trans v hv
          rw [hv]
          simp only
          split
          · exact ⟨_, rfl⟩
          · split
            · exact ⟨_, rfl⟩
            · split
              · exact ⟨_, rfl⟩
              · cases isValidCoords n (if n.isTag .linearGradient then .linearGradient else .radialGradient)
                · exact ⟨f, rfl⟩
                · exact ⟨_, rfl⟩
        · exact ⟨_, rfl⟩
    obtain ⟨g, hg⟩ := this
    obtain ⟨r, hr⟩ := ih (gradientBody_spec hf hg).1
    exact ⟨r, by simp [Gradients.forEach, hg, hr]⟩

/-! ### Together with C26 -/

theorem effective_written {f g : Forest} {h : Node → Node} (hu : f.UniqueKeys) (hg : g = f.map h)
    (hk : ∀ n ∈ f.nodes, (h n).key = n.key) (hw : ∀ n ∈ f.nodes, ∀ a, written (h n) a = written n a) {a : AId} {n : Node}
    (hn : n ∈ f.nodes) (v : Option Value) : Effective g a (h n) v ↔ Effective f a n v := by
  have hug : g.UniqueKeys := by
    unfold Forest.UniqueKeys Forest.keys
    rw [hg, Forest.nodes_map, List.map_map]
    have : f.nodes.map (Node.key ∘ h) = f.nodes.map Node.key := List.map_congr_left (fun n hn => hk n hn)
    rw [this]; exact hu
  have hfind : ∀ m ∈ f.nodes, g.find m.key = some (h m) := by
    intro m hm
    have : h m ∈ g.nodes := by rw [hg, Forest.nodes_map]; exact List.mem_map_of_mem hm
    have := Forest.find_of_mem hug this
    rwa [hk m hm] at this
  constructor
  · intro he
    generalize hx : h n = x at he
    induction he generalizing n with
    | own h1 => subst hx; exact .own (by rw [← hw n hn]; exact h1)
    | @ref y k m v h1 h2 h3 _ ih =>
      subst hx
      obtain ⟨hm, rfl⟩ := Forest.find_some h3
      rw [hg, Forest.nodes_map] at hm
      obtain ⟨m', hm', rfl⟩ := List.mem_map.1 hm
      refine .ref (by rw [← hw n hn]; exact h1) (by rw [← hw n hn, ← hk m' hm']; exact h2)
        (Forest.find_of_mem hu hm') (ih hm' rfl)
    | stop h1 h2 => subst hx; exact .stop (by rw [← hw n hn]; exact h1) (by rw [← hw n hn]; exact h2)
  · intro he
    induction he with
    | own h1 => exact .own (by rw [hw _ hn]; exact h1)
    | @ref y k m v h1 h2 h3 _ ih =>
      obtain ⟨hm, rfl⟩ := Forest.find_some h3
      exact .ref (by rw [hw _ hn]; exact h1) (by rw [hw _ hn]; exact h2) (hfind m hm) (ih hm)
    | stop h1 h2 => exact .stop (by rw [hw _ hn]; exact h1) (by rw [hw _ hn]; exact h2)

/-- What C26 gives is what C30 needs. -/
theorem resolved_good {f g : Forest} (hu : f.UniqueKeys) (hr : HrefOk f) (h : Gradients.Resolved f g (fun _ => True))
    (hok : ∀ n ∈ g.nodes, n.isGradient = true → GradientOk n ∧ RadiusShown n) :
    Good g ∧ ∀ n ∈ f.nodes, ∃ m ∈ g.nodes, m.key = n.key ∧ m.kind = n.kind ∧
      ∀ a v, GradientValue g m a v ↔ GradientValue f n a v := by
  obtain ⟨w, hg, hn⟩ := h
  have e := fun {n : Node} (hm : n ∈ f.nodes) (a : AId) (v : Option Value) =>
    effective_written (a := a) hu hg (fun n hn' => (hn n hn').1) (fun n hn' => (hn n hn').2.2.2.2.2.1) hm v
  have gv : ∀ {n : Node}, n ∈ f.nodes → ∀ a v, GradientValue g (w n) a v ↔ GradientValue f n a v := by
    intro n hm a v
    exact gradientValue_congr (hn n hm).2.1 (e hm a) (fun c _ => e hm c) v
  have isg : ∀ {n : Node}, n ∈ f.nodes → ((w n).isGradient = true ↔ n.isGradient = true) := by
    intro n hm; rw [isGradient_iff, isGradient_iff, (hn n hm).2.1]
  refine ⟨⟨?_, ?_, ?_, hok⟩, ?_⟩
  · unfold Forest.UniqueKeys Forest.keys
    rw [hg, Forest.nodes_map, List.map_map]
    have : f.nodes.map (Node.key ∘ w) = f.nodes.map Node.key := List.map_congr_left (fun n hn' => (hn n hn').1)
    rw [this]; exact hu
  · obtain ⟨rank, hr⟩ := hr
    refine ⟨rank, ?_⟩
    intro y hy hgy v hv
    rw [hg, Forest.nodes_map] at hy
    obtain ⟨x, hx, rfl⟩ := List.mem_map.1 hy
    obtain ⟨t, ht, h1, h2, h3⟩ := hr x hx ((isg hx).1 hgy) v (by rw [← hv]; exact ((hn x hx).2.2.2.2.2.1 _).symm)
    refine ⟨w t, by rw [hg, Forest.nodes_map]; exact List.mem_map_of_mem ht, by rw [(hn t ht).1]; exact h1, (isg ht).2 h2, ?_⟩
    rw [(hn t ht).1, (hn x hx).1]; exact h3
  · intro y hy hgy a ha v
    rw [hg, Forest.nodes_map] at hy
    obtain ⟨x, hx, rfl⟩ := List.mem_map.1 hy
    rw [gv hx]
    rw [(hn x hx).2.1] at ha
    exact (hn x hx).2.2.2.2.2.2 a ha trivial v
  · intro n hm
    exact ⟨w n, by rw [hg, Forest.nodes_map]; exact List.mem_map_of_mem hm, (hn n hm).1, (hn n hm).2.1, gv hm⟩

/-- **C30** for a document as it is read: resolving the attributes of gradients (C26) and then applying transforms. -/
theorem C30_document_partial {f r g : Forest} (hu : f.UniqueKeys) (hv : Gradients.AllVisible f) (hr : HrefOk f)
    (hl : Gradients.NoLinearToRadial f) (h1 : (Gradients.resolveLinear f).bind Gradients.resolveRadial = some r)
    (hok : ∀ n ∈ r.nodes, n.isGradient = true → GradientOk n ∧ RadiusShown n) (h2 : applyToGradients r = some g) :
    ∀ n ∈ f.nodes, n.isGradient = true → ∃ m ∈ g.nodes, m.key = n.key ∧ m.kind = n.kind ∧
      (∀ v, GradientValue g m .gradientUnits v ↔ GradientValue f n .gradientUnits v) ∧
      (∀ v, GradientValue g m .spreadMethod v ↔ GradientValue f n .spreadMethod v) ∧
      ∀ u q t, ParamAt u g m q t ↔ ParamAt u f n q t := by
  have hres : Gradients.Resolved f r (fun _ => True) := by
    obtain ⟨w, hw, hn⟩ := Gradients.C26_resolved_partial hu hv hr h1
    refine ⟨w, hw, fun n hm => ?_⟩
    obtain ⟨a1, a2, a3, a4, a5, a6, a7⟩ := hn n hm
    exact ⟨a1, a2, a3, a4, a5, a6, fun a ha _ => a7 a ha (.inr hl)⟩
  obtain ⟨hgood, hrn⟩ := resolved_good hu hr hres hok
  have hp := (C30_paint_partial hgood h2).2
  intro n hn hgn
  obtain ⟨m, hm, e1, e2, e3⟩ := hrn n hn
  obtain ⟨l, hl, hs⟩ := Stops.forall2_left hp hm
  rw [if_pos (by rw [isGradient_iff, e2, ← isGradient_iff]; exact hgn)] at hs
  refine ⟨l, hl, hs.same.key.trans e1, hs.same.kind.trans e2, fun v => (hs.units v).trans (e3 _ v),
    fun v => (hs.spread v).trans (e3 _ v), fun u q t => (hs.offset u q t).trans (paramAt_congr e2 e3 u q t)⟩

/-- C30 in full: the same without the hypothesis about the radius. -/
def C30_full : Prop := ∀ f r g : Forest, f.UniqueKeys → Gradients.AllVisible f → HrefOk f → Gradients.NoLinearToRadial f →
  (Gradients.resolveLinear f).bind Gradients.resolveRadial = some r →
  (∀ n ∈ r.nodes, n.isGradient = true → GradientOk n) → applyToGradients r = some g →
  ∀ n ∈ f.nodes, n.isGradient = true → ∃ m ∈ g.nodes, m.key = n.key ∧ m.kind = n.kind ∧
    ∀ u q t, ParamAt u g m q t ↔ ParamAt u f n q t

/-! ### Cases -/

/-- A check of `HrefOk` for a given rank, by evaluation. -/
def hrefCheck (f : Forest) (rank : Nat → Nat) : Bool :=
  f.nodes.all fun n => !n.isGradient || match written n .xlinkHref with
    | none => true
    | some (.link k) => f.nodes.any fun t => decide (t.key = k) && t.isGradient && decide (rank k < rank n.key)
    | _ => false

theorem hrefOk_of {f : Forest} (rank : Nat → Nat) (h : hrefCheck f rank = true) : HrefOk f := by
  refine ⟨rank, fun n hn hg v hv => ?_⟩
  unfold hrefCheck at h
  rw [List.all_eq_true] at h
  have := h n hn
  rw [hg, hv] at this
  simp only [Bool.not_true, Bool.false_or] at this
  cases v with
  | link k =>
    simp only [List.any_eq_true, Bool.and_eq_true, decide_eq_true_eq] at this
    obtain ⟨t, ht, ⟨rfl, h2⟩, h3⟩ := this
    exact ⟨t, ht, rfl, h2, h3⟩
  | _ => simp at this

def gradientCheck (n : Node) : Bool :=
  decide (written n .xlinkHref = n.get .xlinkHref) &&
  (gcoords n.kind).all (fun a => match n.get a with | none => true | some (.length _) => true | _ => false) &&
  (match n.get .gradientTransform with | none => true | some (.transform _) => true | _ => false)

theorem gradientOk_of {n : Node} (h : gradientCheck n = true) : GradientOk n := by
  unfold gradientCheck at h
  simp only [Bool.and_eq_true, decide_eq_true_eq, List.all_eq_true] at h
  obtain ⟨⟨h1, h2⟩, h3⟩ := h
  refine ⟨h1, fun a ha v hv => ?_, fun v hv => ?_⟩
  · have := h2 a ha
    rw [hv] at this
    cases v with
    | length l => exact ⟨l, rfl⟩
    | _ => cases this
  · rw [hv] at h3
    cases v with
    | transform t => exact ⟨t, rfl⟩
    | _ => cases h3

def radiusCheck (n : Node) : Bool := decide (written n .r = n.get .r) || decide (n.get .gradientTransform = none)

theorem radiusShown_of {n : Node} (h : radiusCheck n = true) : RadiusShown n := by
  unfold radiusCheck at h
  simp only [Bool.or_eq_true, decide_eq_true_eq] at h
  intro _ t ht _
  rcases h with h | h
  · exact h
  · rw [h] at ht; cases ht

open Verif.Gradients (grad att) in
/-- A circle of radius 10, used by a second gradient with a scale by 2; `own` says where its radius comes from. -/
def twoRadials (own : List Attr) : Forest :=
  .cons (grad 1 .radialGradient [att .cx (px 0), att .cy (px 0), att .fx (px 0), att .fy (px 0), att .r (px 10)]) .nil
  (.cons (grad 2 .radialGradient ([att .xlinkHref (.link 1), att .gradientTransform (.transform ⟨2, 0, 0, 2, 3, 0⟩)] ++ own)) .nil .nil)

open Verif.Gradients (grad att) in
/-- The hypotheses of C30 can be met, and then the transform goes away. -/
example : ∃ r g, (Gradients.resolveLinear (twoRadials [att .r (px 10)])).bind Gradients.resolveRadial = some r ∧
    (∀ n ∈ r.nodes, n.isGradient = true → GradientOk n ∧ RadiusShown n) ∧ applyToGradients r = some g ∧
    (g.find 2).map (fun n => (written n .r, written n .cx, n.get .gradientTransform)) = some (some (px 20), some (px 3), none) := by
  refine ⟨_, _, Option.eq_some_of_isSome (by decide +kernel), ?_, Option.eq_some_of_isSome (by decide +kernel), by decide +kernel⟩
  intro n hn hg
  have : ∀ n ∈ (((Gradients.resolveLinear (twoRadials [att .r (px 10)])).bind Gradients.resolveRadial).get (by decide +kernel)).nodes,
      gradientCheck n = true ∧ radiusCheck n = true := by decide +kernel
  exact ⟨gradientOk_of (this n hn).1, radiusShown_of (this n hn).2⟩

example : (twoRadials [Gradients.att .r (px 10)]).UniqueKeys ∧ Gradients.AllVisible (twoRadials [Gradients.att .r (px 10)]) ∧
    HrefOk (twoRadials [Gradients.att .r (px 10)]) :=
  ⟨by decide, by decide, hrefOk_of id (by decide +kernel)⟩

/-- **Finding.** If the radius is inherited, only the hidden copy is scaled; the file that is written has the old radius. -/
theorem C30_refuted_inherited_radius : ¬ C30_full := by
  intro hfull
  have hnl : Gradients.NoLinearToRadial (twoRadials []) := by
    intro n hn
    simp only [twoRadials, Forest.nodes, List.mem_cons, List.not_mem_nil, or_false, List.append_nil, List.nil_append] at hn
    rcases hn with rfl | rfl <;> intro h <;> cases h
  have hs : ((Gradients.resolveLinear (twoRadials [])).bind Gradients.resolveRadial).isSome := by decide +kernel
  obtain ⟨r, hr⟩ := Option.isSome_iff_exists.1 hs
  have hok : ∀ n ∈ r.nodes, gradientCheck n = true := by
    have : ((Gradients.resolveLinear (twoRadials [])).bind Gradients.resolveRadial).all (fun r => r.nodes.all gradientCheck) = true := by
      decide +kernel
    rw [hr] at this
    simpa using this
  have hs2 : (((Gradients.resolveLinear (twoRadials [])).bind Gradients.resolveRadial).bind applyToGradients).isSome := by decide +kernel
  obtain ⟨g, hg⟩ := Option.isSome_iff_exists.1 hs2
  have hg' := hg
  rw [hr, Option.bind_some] at hg
  have h2 : (Gradients.grad 2 .radialGradient [Gradients.att .xlinkHref (.link 1), Gradients.att .gradientTransform (.transform ⟨2, 0, 0, 2, 3, 0⟩)]) ∈ (twoRadials []).nodes := by
    simp [twoRadials]
  have h1 : (Gradients.grad 1 .radialGradient [Gradients.att .cx (px 0), Gradients.att .cy (px 0), Gradients.att .fx (px 0), Gradients.att .fy (px 0), Gradients.att .r (px 10)]) ∈ (twoRadials []).nodes := by
    simp [twoRadials]
  obtain ⟨m, hm, hk, hkind, hp⟩ := hfull (twoRadials []) r g (by decide) (by decide) (hrefOk_of id (by decide +kernel)) hnl hr
    (fun n hn _ => gradientOk_of (hok n hn)) hg _ h2 (by decide)
  have old : ∀ a ∈ [AId.cx, .cy, .fx, .fy, .r], ∀ v,
      written (Gradients.grad 1 .radialGradient [Gradients.att .cx (px 0), Gradients.att .cy (px 0), Gradients.att .fx (px 0), Gradients.att .fy (px 0), Gradients.att .r (px 10)]) a = some v →
      GradientValue (twoRadials []) (Gradients.grad 2 .radialGradient [Gradients.att .xlinkHref (.link 1), Gradients.att .gradientTransform (.transform ⟨2, 0, 0, 2, 3, 0⟩)]) a v := by
    intro a ha v hv
    refine .inl (.inl (.ref (k := 1) ?_ (by decide) (Forest.find_of_mem (by decide) h1) (.own hv)))
    simp at ha
    rcases ha with rfl | rfl | rfl | rfl | rfl <;> decide
  have fac : ∀ d, ((⟨fun _ _ => 1, fun _ => rfl⟩ : Viewport).factor d .none) = 1 := fun _ => rfl
  have hat : ParamAt ⟨fun _ _ => 1, fun _ => rfl⟩ (twoRadials []) (Gradients.grad 2 .radialGradient [Gradients.att .xlinkHref (.link 1), Gradients.att .gradientTransform (.transform ⟨2, 0, 0, 2, 3, 0⟩)]) (23, 0) 1 := by
    refine ⟨⟨2, 0, 0, 2, 3, 0⟩, (10, 0), .inl (.inl (.inl (.own (by decide)))), by norm_num [Transform.pt, Transform.apply], .inr ⟨rfl, ?_⟩⟩
    refine ⟨0, 0, 10, 0, 0, ⟨⟨0, .none⟩, old _ (by simp) _ (by decide), by simp⟩, ⟨⟨0, .none⟩, old _ (by simp) _ (by decide), by simp⟩,
      ⟨⟨10, .none⟩, old _ (by simp) _ (by decide), by simp⟩, ⟨⟨0, .none⟩, old _ (by simp) _ (by decide), by simp⟩, ⟨⟨0, .none⟩, old _ (by simp) _ (by decide), by simp⟩, ?_⟩
    norm_num [RadialParam]
  have hnew := (hp _ _ _).2 hat
  -- what is written
  have hw : g.nodes.map (fun n => (n.key, [written n .cx, written n .cy, written n .r, written n .fx, written n .fy, written n .gradientTransform, written n .xlinkHref])) =
      [(1, [some (px 0), some (px 0), some (px 10), some (px 0), some (px 0), none, none]),
       (2, [some (px 3), some (px 0), none, some (px 3), some (px 0), none, some (.link 1)])] := by
    have : (((Gradients.resolveLinear (twoRadials [])).bind Gradients.resolveRadial).bind applyToGradients).map (fun g => g.nodes.map (fun n => (n.key, [written n .cx, written n .cy, written n .r, written n .fx, written n .fy, written n .gradientTransform, written n .xlinkHref]))) =
      some [(1, [some (px 0), some (px 0), some (px 10), some (px 0), some (px 0), none, none]),
       (2, [some (px 3), some (px 0), none, some (px 3), some (px 0), none, some (.link 1)])] := by decide +kernel
    rw [hg'] at this
    simpa using this
  have hug : g.UniqueKeys := by
    have : g.keys = (g.nodes.map (fun n => (n.key, [written n .cx, written n .cy, written n .r, written n .fx, written n .fy, written n .gradientTransform, written n .xlinkHref]))).map (·.1) := by
      rw [List.map_map]; rfl
    unfold Forest.UniqueKeys
    rw [this, hw]; decide
  have hmw := List.mem_map_of_mem (f := fun n => (n.key, [written n .cx, written n .cy, written n .r, written n .fx, written n .fy, written n .gradientTransform, written n .xlinkHref])) hm
  rw [hw, hk] at hmw
  have k2 : (Gradients.grad 2 .radialGradient [Gradients.att .xlinkHref (.link 1), Gradients.att .gradientTransform (.transform ⟨2, 0, 0, 2, 3, 0⟩)]).key = 2 := rfl
  rw [k2] at hmw
  simp only [List.mem_cons, Prod.mk.injEq, List.not_mem_nil, or_false, List.cons.injEq, and_true] at hmw
  rcases hmw with ⟨h, _⟩ | ⟨_, w1, w2, w3, w4, w5, w6, w7⟩
  · cases h
  -- the first gradient
  have h1w : ((1 : Nat), [some (px 0), some (px 0), some (px 10), some (px 0), some (px 0), (none : Option Value), (none : Option Value)]) ∈
      g.nodes.map (fun n => (n.key, [written n .cx, written n .cy, written n .r, written n .fx, written n .fy, written n .gradientTransform, written n .xlinkHref])) := by
    rw [hw]; simp
  obtain ⟨b, hb, hbe⟩ := List.mem_map.1 h1w
  simp only [Prod.mk.injEq, List.cons.injEq, and_true] at hbe
  obtain ⟨b0, b1, b2, b3, b4, b5, b6, b7⟩ := hbe
  have hfb : g.find 1 = some b := by rw [← b0]; exact Forest.find_of_mem hug hb
  have vr : ∀ v, GradientValue g m .r v ↔ v = px 10 := by
    have : GradientValue g m .r (px 10) := .inl (.inl (.ref w3 w7 hfb (.own b3)))
    exact fun v => ⟨fun h => h.unique this, fun h => h ▸ this⟩
  have vt : ∀ v, ¬ GradientValue g m .gradientTransform v := by
    have he : Effective g .gradientTransform m none := .ref w6 w7 hfb (.stop b6 b7)
    rintro v ((h | ⟨_, h⟩) | ⟨_, c, hc, _⟩)
    · cases he.unique h
    · have : ∀ k, gradientDefault k .gradientTransform = none := by
        intro k; unfold gradientDefault; split <;> first | rfl | (rename_i h; cases h)
      rw [this] at h; cases h
    · cases hc
  obtain ⟨T, p, hT, hpt, hpar⟩ := hnew
  rcases hT with hT | ⟨_, rfl⟩
  · exact vt _ hT
  rw [one_pt] at hpt
  subst hpt
  rcases hpar with ⟨hk', _⟩ | ⟨_, cx, cy, rr, fx, fy, c1, c2, c3, c4, c5, c6⟩
  · rw [hkind] at hk'; cases hk'
  · have e1 := (coordIs_iff (c := 3) (fun v => gradientValue_written w1 v) _ _ _).1 c1
    have e2 := (coordIs_iff (c := 0) (fun v => gradientValue_written w2 v) _ _ _).1 c2
    have e3 := (coordIs_iff (c := 10) vr _ _ _).1 c3
    have e4 := (coordIs_iff (c := 3) (fun v => gradientValue_written w4 v) _ _ _).1 c4
    have e5 := (coordIs_iff (c := 0) (fun v => gradientValue_written w5 v) _ _ _).1 c5
    subst e1 e2 e3 e4 e5
    norm_num [RadialParam] at c6

end Verif.ApplyTs
