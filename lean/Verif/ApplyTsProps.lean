import Verif.ApplyTs
import Verif.PathProps
import Verif.StopsProps
import Verif.GradientsProps
import Verif.ConvShapesProps
/-
C31: applying transforms to shapes (and to paths, at document level).
C30: applying transforms to gradients.
-/
namespace Verif.ApplyTs
open Verif.Dom Verif.Spec Verif.Paths
open Verif.ConvShapes (lenOf)
open Verif.Stops (modValue getAttr_set getAttr_nodeRm getAttr_modValue)

/-! ### Specification: the basic shapes of SVG 1.1 (chapter 9) as sets of points, and strokes (11.4) -/

inductive Axis | x | y | other
  deriving DecidableEq

/-- How a renderer turns a length into user units: by a factor for each unit and direction. -/
structure Viewport where
  factor : Axis → LUnit → ℚ
  factor_none : ∀ b, factor b .none = 1

/-- A length attribute in user units, if there is one. -/
def Viewport.len? (u : Viewport) (d : Axis) (n : Node) (a : AId) : Option ℚ :=
  match n.get a with
  | some (.length l) => some (l.num * u.factor d l.unit)
  | _ => none

/-- A length attribute in user units; 0 if it is missing. -/
def Viewport.len (u : Viewport) (d : Axis) (n : Node) (a : AId) : ℚ := (u.len? d n a).getD 0

/-- The area or line a shape covers. -/
inductive Figure
  | segment (p q : Pt)
  | rect (x y w h rx ry : ℚ)
  | ellipse (cx cy rx ry : ℚ)
  deriving DecidableEq, Repr

/-- How far `v` is outside of the interval from `a` to `b`. -/
def outside (a b v : ℚ) : ℚ := max 0 (max (a - v) (v - b))

/-- The points of a figure. -/
def Figure.Mem (F : Figure) (p : Pt) : Prop :=
  match F with
  | .segment a b => ∃ s : ℚ, 0 ≤ s ∧ s ≤ 1 ∧ p.1 = a.1 + s * (b.1 - a.1) ∧ p.2 = a.2 + s * (b.2 - a.2)
  | .rect x y w h rx ry =>
    x ≤ p.1 ∧ p.1 ≤ x + w ∧ y ≤ p.2 ∧ p.2 ≤ y + h ∧
    (outside (x + rx) (x + w - rx) p.1 * ry) ^ 2 + (outside (y + ry) (y + h - ry) p.2 * rx) ^ 2 ≤ (rx * ry) ^ 2
      ∨ (rx = 0 ∨ ry = 0) ∧ x ≤ p.1 ∧ p.1 ≤ x + w ∧ y ≤ p.2 ∧ p.2 ≤ y + h
  | .ellipse cx cy rx ry => ((p.1 - cx) * ry) ^ 2 + ((p.2 - cy) * rx) ^ 2 ≤ (rx * ry) ^ 2

/-- The figure of a shape: `none` if nothing is drawn. -/
def figure (u : Viewport) (n : Node) : Option Figure :=
  match n.kind with
  | .elem .line => some (.segment (u.len .x n .x1, u.len .y n .y1) (u.len .x n .x2, u.len .y n .y2))
  | .elem .rect =>
    let w := u.len .x n .width
    let h := u.len .y n .height
    let rx := (u.len? .x n .rx).getD (u.len .y n .ry)
    let ry := (u.len? .y n .ry).getD (u.len .x n .rx)
    if w ≤ 0 ∨ h ≤ 0 then none
    else some (.rect (u.len .x n .x) (u.len .y n .y) w h (min rx (w / 2)) (min ry (h / 2)))
  | .elem .circle =>
    let r := u.len .other n .r
    if r ≤ 0 then none else some (.ellipse (u.len .x n .cx) (u.len .y n .cy) r r)
  | .elem .ellipse =>
    let rx := u.len .x n .rx
    let ry := u.len .y n .ry
    if rx ≤ 0 ∨ ry ≤ 0 then none else some (.ellipse (u.len .x n .cx) (u.len .y n .cy) rx ry)
  | _ => none

/-- The image of a figure under a uniform scale by `t.a` and a translation. -/
def Figure.image (t : Transform) : Figure → Figure
  | .segment p q => .segment (t.pt p) (t.pt q)
  | .rect x y w h rx ry => .rect (t.pt (x, y)).1 (t.pt (x, y)).2 (t.a * w) (t.a * h) (t.a * rx) (t.a * ry)
  | .ellipse cx cy rx ry => .ellipse (t.pt (cx, cy)).1 (t.pt (cx, cy)).2 (t.a * rx) (t.a * ry)

/-- A scale by the same positive factor in both directions, and a translation. -/
def Uniform (t : Transform) : Prop := t.b = 0 ∧ t.c = 0 ∧ t.a = t.d ∧ 0 < t.a

theorem outside_scale {s : ℚ} (hs : 0 < s) (a b v e : ℚ) :
    outside (s * a + e) (s * b + e) (s * v + e) = s * outside a b v := by
  unfold outside
  rw [mul_max_of_nonneg _ _ hs.le, mul_max_of_nonneg _ _ hs.le, mul_zero]
  congr 1
  congr 1 <;> ring

/-- The points of the image are the images of the points. -/
theorem Figure.mem_image {t : Transform} (ht : Uniform t) (F : Figure) (p : Pt) : (F.image t).Mem (t.pt p) ↔ F.Mem p := by
  obtain ⟨a, b, c, d, e, f⟩ := t
  obtain ⟨h1, h2, h3, h4⟩ := ht
  simp only at h1 h2 h3 h4
  subst h1 h2 h3
  obtain ⟨px, py⟩ := p
  cases F with
  | segment u v =>
    simp only [Figure.image, Figure.Mem, Transform.pt, Transform.apply]
    constructor
    · rintro ⟨s, s0, s1, e1, e2⟩
      refine ⟨s, s0, s1, ?_, ?_⟩
      · apply mul_left_cancel₀ h4.ne'; linarith
      · apply mul_left_cancel₀ h4.ne'; linarith
    · rintro ⟨s, s0, s1, e1, e2⟩
      refine ⟨s, s0, s1, ?_, ?_⟩
      · rw [e1]; ring
      · rw [e2]; ring
  | rect x y w h rx ry =>
    simp only [Figure.image, Figure.Mem, Transform.pt, Transform.apply]
    have q1 : (a * x + 0 * y + e ≤ a * px + 0 * py + e ↔ x ≤ px) := by
      constructor
      · intro h; exact le_of_mul_le_mul_left (by linarith) h4
      · intro h; have := mul_le_mul_of_nonneg_left h h4.le; linarith
    have q2 : (a * px + 0 * py + e ≤ a * x + 0 * y + e + a * w ↔ px ≤ x + w) := by
      constructor
      · intro h; exact le_of_mul_le_mul_left (by linarith) h4
      · intro h; have := mul_le_mul_of_nonneg_left h h4.le; linarith
    have q3 : (0 * x + a * y + f ≤ 0 * px + a * py + f ↔ y ≤ py) := by
      constructor
      · intro h; exact le_of_mul_le_mul_left (by linarith) h4
      · intro h; have := mul_le_mul_of_nonneg_left h h4.le; linarith
    have q4 : (0 * px + a * py + f ≤ 0 * x + a * y + f + a * h ↔ py ≤ y + h) := by
      constructor
      · intro h; exact le_of_mul_le_mul_left (by linarith) h4
      · intro h; have := mul_le_mul_of_nonneg_left h h4.le; linarith
    have o1 : outside (a * x + 0 * y + e + a * rx) (a * x + 0 * y + e + a * w - a * rx) (a * px + 0 * py + e) =
        a * outside (x + rx) (x + w - rx) px := by
      rw [← outside_scale h4 _ _ _ e]; congr 1 <;> ring
    have o2 : outside (0 * x + a * y + f + a * ry) (0 * x + a * y + f + a * h - a * ry) (0 * px + a * py + f) =
        a * outside (y + ry) (y + h - ry) py := by
      rw [← outside_scale h4 _ _ _ f]; congr 1 <;> ring
    have z1 : a * rx = 0 ↔ rx = 0 := by simp [h4.ne']
    have z2 : a * ry = 0 ↔ ry = 0 := by simp [h4.ne']
    rw [q1, q2, q3, q4, o1, o2, z1, z2]
    have e1 : (a * outside (x + rx) (x + w - rx) px * (a * ry)) ^ 2 + (a * outside (y + ry) (y + h - ry) py * (a * rx)) ^ 2 =
      a ^ 4 * ((outside (x + rx) (x + w - rx) px * ry) ^ 2 + (outside (y + ry) (y + h - ry) py * rx) ^ 2) := by ring
    have e2 : (a * rx * (a * ry)) ^ 2 = a ^ 4 * (rx * ry) ^ 2 := by ring
    rw [e1, e2, mul_le_mul_iff_right₀ (by positivity)]
  | ellipse cx cy rx ry =>
    simp only [Figure.image, Figure.Mem, Transform.pt, Transform.apply]
    have e1 : ((a * px + 0 * py + e - (a * cx + 0 * cy + e)) * (a * ry)) ^ 2 +
        ((0 * px + a * py + f - (0 * cx + a * cy + f)) * (a * rx)) ^ 2 =
      a ^ 4 * (((px - cx) * ry) ^ 2 + ((py - cy) * rx) ^ 2) := by ring
    have e2 : (a * rx * (a * ry)) ^ 2 = a ^ 4 * (rx * ry) ^ 2 := by ring
    rw [e1, e2, mul_le_mul_iff_right₀ (by positivity)]

/-- The specified value of an inherited property: the own one, else that of the nearest ancestor that has one. -/
def specified (a : AId) (n : Node) (anc : List Node) : Option Value := ((n :: anc).filterMap (fun m => m.get a)).head?

structure Stroke where
  width : Len
  dash : List Len
  offset : Len
  deriving DecidableEq, Repr

def lenOr (d : ℚ) : Option Value → Len
  | some (.length l) => l
  | _ => ⟨d, .none⟩

def lensOr : Option Value → List Len
  | some (.lengthList l) => l
  | _ => []

/-- The lengths that describe the stroke of an element (11.4), with the initial values 1, none and 0. -/
def stroke (n : Node) (anc : List Node) : Stroke :=
  ⟨lenOr 1 (specified .strokeWidth n anc),
   lensOr (specified .strokeDasharray n anc),
   lenOr 0 (specified .strokeDashoffset n anc)⟩

def Len.scale (s : ℚ) (l : Len) : Len := ⟨l.num * s, l.unit⟩
def Stroke.scale (s : ℚ) (k : Stroke) : Stroke := ⟨Len.scale s k.width, k.dash.map (Len.scale s), Len.scale s k.offset⟩

/-- The elements that draw a figure or a path; SVG draws none of their children. -/
def isShape : Dom.Kind → Bool
  | .elem e => decide (e ∈ [EId.rect, .circle, .ellipse, .line, .polyline, .polygon, .path])
  | _ => false

/-- Every element with its ancestors (nearest first), in document order, without the children of shapes. -/
def placed (anc : List Node) : Forest → List (Node × List Node)
  | .nil => []
  | .cons n k r => (n, anc) :: ((if isShape n.kind then [] else placed (n :: anc) k) ++ placed anc r)

/-- The stroke properties have values of the right type (in particular `inherit` has been resolved). -/
def StrokeOk (n : Node) : Prop :=
  (∀ v, n.get .strokeWidth = some v → ∃ l, v = .length l) ∧
  (∀ v, n.get .strokeDashoffset = some v → ∃ l, v = .length l)

/-! ### Attribute values after the basic operations -/

theorem get_set (n : Node) (a : AId) (v : Value) (b : AId) : (n.set a v).get b = if b = a then some v else n.get b := by
  unfold Node.get
  rw [getAttr_set]
  by_cases h : b = a
  · subst h; simp
  · have : AName.id b ≠ .id a := by simpa using h
    simp [h]

theorem get_rm (n : Node) (a b : AId) : (n.rm a).get b = if b = a then none else n.get b := by
  unfold Node.get
  rw [getAttr_nodeRm]
  by_cases h : b = a
  · subst h; simp
  · simp [h]

theorem get_mod (n : Node) (a : AId) (g : Value → Value) (b : AId) :
    (modValue n a g).get b = if b = a then (n.get b).map g else n.get b := by
  unfold Node.get
  rw [getAttr_modValue]
  by_cases h : b = a
  · subst h; simp; cases getAttr n.attrs (.id b) <;> rfl
  · simp [h]

theorem get_scaleCoord (n : Node) (a : AId) (s : ℚ) (b : AId) :
    (scaleCoord n a s).get b = if b = a then (n.get b).map (scaleLen s) else n.get b := get_mod _ _ _ _

theorem get_transformCoords (n : Node) (ax ay : AId) (t : Transform) (b : AId) :
    (transformCoords n ax ay t).get b =
      if b = ay then some (.length ⟨(t.apply (lenOf n ax).num (lenOf n ay).num).2, .none⟩)
      else if b = ax then some (.length ⟨(t.apply (lenOf n ax).num (lenOf n ay).num).1, .none⟩)
      else n.get b := by
  unfold transformCoords
  simp only [get_set]

theorem kind_set (n : Node) (a : AId) (v : Value) : (n.set a v).kind = n.kind := rfl
theorem kind_rm (n : Node) (a : AId) : (n.rm a).kind = n.kind := rfl
theorem kind_mod (n : Node) (a : AId) (g : Value → Value) : (modValue n a g).kind = n.kind := rfl

/-- `m` is `n` but for the values of the attributes in `as`. -/
structure SameBut (as : List AId) (n m : Node) : Prop where
  key : m.key = n.key
  kind : m.kind = n.kind
  id : m.id = n.id
  attr : ∀ b, (∀ a ∈ as, b ≠ .id a) → getAttr m.attrs b = getAttr n.attrs b

theorem SameBut.refl (as : List AId) (n : Node) : SameBut as n n := ⟨rfl, rfl, rfl, fun _ _ => rfl⟩

theorem SameBut.trans {as : List AId} {n m l : Node} (h1 : SameBut as n m) (h2 : SameBut as m l) : SameBut as n l :=
  ⟨h2.key.trans h1.key, h2.kind.trans h1.kind, h2.id.trans h1.id, fun b hb => (h2.attr b hb).trans (h1.attr b hb)⟩

theorem SameBut.set {as : List AId} (n : Node) {a : AId} (ha : a ∈ as) (v : Value) : SameBut as n (n.set a v) :=
  ⟨rfl, rfl, rfl, fun b hb => by rw [getAttr_set, if_neg (hb a ha)]⟩

theorem SameBut.rm {as : List AId} (n : Node) {a : AId} (ha : a ∈ as) : SameBut as n (n.rm a) :=
  ⟨rfl, rfl, rfl, fun b hb => by rw [getAttr_nodeRm, if_neg (hb a ha)]⟩

theorem SameBut.mod {as : List AId} (n : Node) {a : AId} (ha : a ∈ as) (g : Value → Value) : SameBut as n (modValue n a g) :=
  ⟨rfl, rfl, rfl, fun b hb => by
    rw [getAttr_modValue]
    simp only [hb a ha, if_false]
    cases getAttr n.attrs b <;> rfl⟩

theorem SameBut.coords {as : List AId} (n : Node) {a b : AId} (ha : a ∈ as) (hb : b ∈ as) (t : Transform) :
    SameBut as n (transformCoords n a b t) :=
  (SameBut.set n ha _).trans (SameBut.set _ hb _)

theorem SameBut.get {as : List AId} {n m : Node} (h : SameBut as n m) {b : AId} (hb : b ∉ as) : m.get b = n.get b :=
  Stops.get_of_getAttr (h.attr _ (fun a ha he => hb (by cases he; exact ha)))

theorem SameBut.mono {as bs : List AId} {n m : Node} (h : SameBut as n m) (hs : ∀ a ∈ as, a ∈ bs) : SameBut bs n m :=
  ⟨h.key, h.kind, h.id, fun b hb => h.attr b (fun a ha => hb a (hs a ha))⟩

/-! ### Strokes -/

def strokeAttrs : List AId := [.strokeWidth, .strokeDasharray, .strokeDashoffset]

theorem nearest_eq (a : AId) (n : Node) (anc : List Node) : nearest a (n :: anc) = specified a n anc := by
  unfold nearest specified
  induction n :: anc with
  | nil => rfl
  | cons x t ih =>
    rw [List.findSome?_cons, List.filterMap_cons]
    cases x.get a with
    | none => exact ih
    | some v => rfl

theorem specified_own {a : AId} {n : Node} {anc : List Node} {v : Value} (h : n.get a = some v) :
    specified a n anc = some v := by
  unfold specified; simp [h]

theorem specified_congr {a : AId} {n m : Node} {anc : List Node} (h : m.get a = n.get a) :
    specified a m anc = specified a n anc := by
  unfold specified
  simp only [List.filterMap_cons, h]

theorem specified_mem {a : AId} {n : Node} {anc : List Node} {v : Value} (h : specified a n anc = some v) :
    ∃ m ∈ n :: anc, m.get a = some v := by
  unfold specified at h
  have := List.mem_of_mem_head? (Option.mem_def.2 h)
  obtain ⟨m, hm, he⟩ := List.mem_filterMap.1 this
  exact ⟨m, hm, he⟩

theorem recalcNum_same (anc : List Node) (n : Node) (a : AId) (s : ℚ) : SameBut [a] n (recalcNum anc n a s) := by
  unfold recalcNum
  split
  · split
    · exact SameBut.set n (by simp) _
    · exact SameBut.refl _ _
  · exact SameBut.refl _ _

theorem recalcDash_same (anc : List Node) (n : Node) (s : ℚ) : SameBut [.strokeDasharray] n (recalcDash anc n s) := by
  unfold recalcDash
  split
  · exact SameBut.set n (by simp) _
  · exact SameBut.refl _ _

theorem recalcStroke_same (anc : List Node) (n : Node) (s : ℚ) : SameBut strokeAttrs n (recalcStroke anc n s) := by
  unfold recalcStroke
  refine ((recalcNum_same anc n .strokeWidth s).mono (by decide)).trans ?_
  refine ((recalcDash_same anc _ s).mono (by decide)).trans ?_
  exact (recalcNum_same anc _ .strokeDashoffset s).mono (by decide)

theorem recalcNum_spec {anc : List Node} {n : Node} {a : AId} (s d : ℚ) (hd : strokeDefault a = .length ⟨d, .none⟩)
    (h : ∀ m ∈ n :: anc, ∀ v, m.get a = some v → ∃ l, v = .length l) :
    lenOr d (specified a (recalcNum anc n a s) anc) = Len.scale s (lenOr d (specified a n anc)) := by
  unfold recalcNum
  rw [nearest_eq]
  cases hs : specified a n anc with
  | none =>
    simp only [Option.getD_none, hd]
    split
    · rw [specified_own (by rw [get_set, if_pos rfl])]
      rfl
    · rename_i hz
      simp only [ne_eq, not_not] at hz
      rw [hs]
      simp only [lenOr, Len.scale, hz, zero_mul]
  | some v =>
    obtain ⟨m, hm, hv⟩ := specified_mem hs
    obtain ⟨l, rfl⟩ := h m hm v hv
    simp only [Option.getD_some]
    split
    · rw [specified_own (by rw [get_set, if_pos rfl])]
      rfl
    · rename_i hz
      simp only [ne_eq, not_not] at hz
      rw [hs]
      obtain ⟨q, u⟩ := l
      simp only at hz
      simp only [lenOr, Len.scale, hz, zero_mul]

theorem recalcDash_spec (anc : List Node) (n : Node) (s : ℚ) :
    lensOr (specified .strokeDasharray (recalcDash anc n s) anc) =
    (lensOr (specified .strokeDasharray n anc)).map (Len.scale s) := by
  unfold recalcDash
  rw [nearest_eq]
  cases hs : specified .strokeDasharray n anc with
  | none => simp only [hs]; rfl
  | some v =>
    cases v with
    | lengthList l =>
      simp only
      rw [specified_own (by rw [get_set, if_pos rfl])]
      rfl
    | _ => simp only [hs]; rfl

/-- `recalc_stroke` multiplies every length of the stroke. -/
theorem recalcStroke_spec {anc : List Node} {n : Node} (s : ℚ) (h : ∀ m ∈ n :: anc, StrokeOk m) :
    stroke (recalcStroke anc n s) anc = (stroke n anc).scale s := by
  have w1 := recalcNum_same anc n .strokeWidth s
  have w2 := recalcDash_same anc (recalcNum anc n .strokeWidth s) s
  have w3 := recalcNum_same anc (recalcDash anc (recalcNum anc n .strokeWidth s) s) .strokeDashoffset s
  unfold stroke Stroke.scale
  unfold recalcStroke
  have e1 : specified .strokeWidth (recalcNum anc (recalcDash anc (recalcNum anc n .strokeWidth s) s) .strokeDashoffset s) anc
      = specified .strokeWidth (recalcNum anc n .strokeWidth s) anc :=
    (specified_congr (w3.get (by decide))).trans (specified_congr (w2.get (by decide)))
  have e2 : specified .strokeDasharray (recalcNum anc (recalcDash anc (recalcNum anc n .strokeWidth s) s) .strokeDashoffset s) anc
      = specified .strokeDasharray (recalcDash anc (recalcNum anc n .strokeWidth s) s) anc :=
    specified_congr (w3.get (by decide))
  have e3 : specified .strokeDasharray (recalcNum anc n .strokeWidth s) anc = specified .strokeDasharray n anc :=
    specified_congr (w1.get (by decide))
  have e4 : specified .strokeDashoffset (recalcDash anc (recalcNum anc n .strokeWidth s) s) anc =
      specified .strokeDashoffset n anc :=
    (specified_congr (w2.get (by decide))).trans (specified_congr (w1.get (by decide)))
  congr 1
  · rw [e1]
    exact recalcNum_spec s 1 rfl (fun m hm => (h m hm).1)
  · rw [e2, recalcDash_spec, e3]
  · rw [recalcNum_spec s 0 rfl, e4]
    intro m hm v hv
    rcases List.mem_cons.1 hm with rfl | hm
    · exact (h n (by simp)).2 v (by rw [← hv, w2.get (by decide), w1.get (by decide)])
    · exact (h m (by simp [hm])).2 v hv

/-! ### Transforms -/

theorem isValid_iff (t : Transform) : isValidTransform t = true ↔ Uniform t := by
  unfold isValidTransform hasSkew Uniform
  simp only [Bool.not_not, Bool.and_eq_true, decide_eq_true_eq]
  constructor
  · rintro ⟨⟨⟨⟨h1, h2⟩, h3⟩, h4⟩, h5⟩; exact ⟨h3, h1, h5, h4⟩
  · rintro ⟨h1, h2, h3, h4⟩; exact ⟨⟨⟨⟨h2, h3 ▸ h4⟩, h1⟩, h4⟩, h3⟩

theorem noScale {t : Transform} (h : hasScale t = false) : t.a = 1 := by
  unfold hasScale at h
  simp at h
  exact h.1

theorem Len.scale_one (l : Len) : Len.scale 1 l = l := by unfold Len.scale; simp

theorem Stroke.scale_one (k : Stroke) : k.scale 1 = k := by
  unfold Stroke.scale
  have : Len.scale 1 = id := funext Len.scale_one
  simp [this]

theorem rescaleStroke_spec {anc : List Node} {n : Node} {t : Transform} (ht : Uniform t) (h : ∀ m ∈ n :: anc, StrokeOk m) :
    stroke (rescaleStroke anc n t) anc = (stroke n anc).scale t.a := by
  unfold rescaleStroke
  split
  · exact recalcStroke_spec _ h
  · rename_i hs
    rw [noScale (by simpa using hs), Stroke.scale_one]

theorem rescaleStroke_same (anc : List Node) (n : Node) (t : Transform) : SameBut strokeAttrs n (rescaleStroke anc n t) := by
  unfold rescaleStroke
  split
  · exact recalcStroke_same _ _ _
  · exact SameBut.refl _ _

/-- The attributes that hold the geometry of the four shapes. -/
def coordAttrs : List AId := [.x, .y, .x1, .y1, .x2, .y2, .cx, .cy, .width, .height, .rx, .ry, .r]

theorem len_scaled (u : Viewport) (d : Axis) {n m : Node} {a : AId} (s : ℚ) (h : m.get a = (n.get a).map (scaleLen s)) :
    u.len? d m a = (u.len? d n a).map (s * ·) := by
  unfold Viewport.len?
  rw [h]
  cases hn : n.get a with
  | none => rfl
  | some v => cases v <;> simp [scaleLen]; ring

theorem len_scaled' (u : Viewport) (d : Axis) {n m : Node} {a : AId} (s : ℚ) (h : m.get a = (n.get a).map (scaleLen s)) :
    u.len d m a = s * u.len d n a := by
  unfold Viewport.len
  rw [len_scaled u d s h]
  cases u.len? d n a <;> simp

theorem len_plain (u : Viewport) (d : Axis) {n : Node} {a : AId} (h : isValidCoord n a = true) :
    u.len d n a = (lenOf n a).num := by
  unfold Viewport.len Viewport.len? lenOf
  unfold isValidCoord at h
  cases hn : n.get a with
  | none => rfl
  | some v =>
    rw [hn] at h
    cases v with
    | length l =>
      simp only [decide_eq_true_eq] at h
      simp [h, u.factor_none]
    | _ => rfl

theorem len_new (u : Viewport) (d : Axis) {n : Node} {a : AId} {q : ℚ} (h : n.get a = some (.length ⟨q, .none⟩)) :
    u.len d n a = q := by
  unfold Viewport.len Viewport.len?
  rw [h]; simp [u.factor_none]

theorem figure_congr (u : Viewport) {n m : Node} (h : SameBut strokeAttrs n m) : figure u m = figure u n := by
  have e : ∀ d a, a ∉ strokeAttrs → u.len? d m a = u.len? d n a := by
    intro d a ha; unfold Viewport.len?; rw [h.get ha]
  unfold figure Viewport.len
  rw [h.kind]
  simp only [e _ .x1 (by decide), e _ .x2 (by decide), e _ .y1 (by decide), e _ .y2 (by decide), e _ .x (by decide),
    e _ .y (by decide), e _ .cx (by decide), e _ .cy (by decide), e _ .r (by decide), e _ .rx (by decide),
    e _ .ry (by decide), e _ .width (by decide), e _ .height (by decide)]

/-! ### The passes over the tree -/

theorem mapCtx_placed {g : List Node → Node → Option Node} (hk : ∀ anc n n', g anc n = some n' → n'.kind = n.kind)
    (hf : ∀ anc n n', isShape n.kind = false → g anc n = some n' → n' = n) {f f' : Forest} {anc : List Node}
    (h : f.mapCtx g anc = some f') :
    List.Forall₂ (fun x y => g x.2 x.1 = some y.1 ∧ y.2 = x.2) (placed anc f) (placed anc f') := by
  induction f generalizing anc f' with
  | nil => simp [Forest.mapCtx] at h; subst h; exact .nil
  | cons n k r ihk ihr =>
    simp only [Forest.mapCtx, Option.bind_eq_some_iff, Option.map_eq_some_iff] at h
    obtain ⟨n', hn, k', hk', r', hr, rfl⟩ := h
    simp only [placed]
    refine .cons ⟨hn, rfl⟩ ?_
    rw [hk _ _ _ hn]
    cases hsh : isShape n.kind with
    | true => simpa using ihr hr
    | false =>
      have := hf _ _ _ hsh hn
      subst this
      simpa using List.rel_append (ihk hk') (ihr hr)

theorem mapCtx_shape {g : List Node → Node → Option Node} (hk : ∀ anc n n', g anc n = some n' → n'.key = n.key)
    {f f' : Forest} {anc : List Node} (h : f.mapCtx g anc = some f') (o : Option Nat) : shape o f' = shape o f := by
  induction f generalizing anc f' o with
  | nil => simp [Forest.mapCtx] at h; subst h; rfl
  | cons n k r ihk ihr =>
    simp only [Forest.mapCtx, Option.bind_eq_some_iff, Option.map_eq_some_iff] at h
    obtain ⟨n', hn, k', hk', r', hr, rfl⟩ := h
    simp only [shape, hk _ _ _ hn, ihk hk', ihr hr]

/-! ### C31: one shape -/

/-- The four basic shapes with a position that the code moves. -/
def isBasic : Dom.Kind → Bool
  | .elem e => decide (e ∈ [EId.rect, .circle, .ellipse, .line])
  | _ => false

/-- The attributes that hold the position of a basic shape. -/
def positionAttrs : Dom.Kind → List AId
  | .elem .rect => [.x, .y]
  | .elem .circle | .elem .ellipse => [.cx, .cy]
  | .elem .line => [.x1, .y1, .x2, .y2]
  | _ => []

/-- No paint server, filter, mask or clip path applies to the element: these do not move with the geometry. -/
def Unlinked (x : Node × List Node) : Prop :=
  ∀ a ∈ [AId.fill, .stroke, .filter, .mask, .clipPath], ∀ k, specified a x.1 x.2 ≠ some (.funcLink k)

/-- The transform of a basic shape that can be applied to it. -/
def Applicable (x : Node × List Node) (t : Transform) : Prop :=
  isBasic x.1.kind = true ∧ x.1.get .transform = some (.transform t) ∧ Uniform t ∧ Unlinked x ∧
  ∀ a ∈ positionAttrs x.1.kind, ∀ l, x.1.get a = some (.length l) → l.unit = .none

theorem isValidAttr_iff (a : AId) (n : Node) (anc : List Node) :
    isValidAttr a (n :: anc) = true ↔ ∀ k, specified a n anc ≠ some (.funcLink k) := by
  rw [← nearest_eq]
  unfold nearest
  induction n :: anc with
  | nil => simp [isValidAttr]
  | cons x t ih =>
    rw [List.findSome?_cons]
    unfold isValidAttr
    cases h : x.get a with
    | none => exact ih
    | some v => cases v <;> simp

theorem isValidAttrs_iff (n : Node) (anc : List Node) : isValidAttrs (n :: anc) = true ↔ Unlinked (n, anc) := by
  unfold isValidAttrs Unlinked
  simp only [List.all_eq_true, isValidAttr_iff]

theorem isValidCoord_iff (n : Node) (a : AId) :
    isValidCoord n a = true ↔ ∀ l, n.get a = some (.length l) → l.unit = .none := by
  unfold isValidCoord
  cases n.get a with
  | none => simp
  | some v => cases v <;> simp

theorem hasValidTransform_some {n : Node} {t : Transform} (h : n.get .transform = some (.transform t)) :
    hasValidTransform n = some (isValidTransform t) := by
  have : getTs n = some t := by unfold getTs; rw [h]
  unfold hasValidTransform
  rw [this, Node.has_eq, h]
  rfl

theorem getTs_eq {n : Node} {t : Transform} : getTs n = some t ↔ n.get .transform = some (.transform t) := by
  unfold getTs
  cases n.get .transform with
  | none => simp
  | some v => cases v <;> simp

theorem positions_ok (n : Node) (e : EId) (he : n.kind = .elem e) (hb : isBasic n.kind = true) :
    isValidCoords n e = true ↔ ∀ a ∈ positionAttrs n.kind, ∀ l, n.get a = some (.length l) → l.unit = .none := by
  rw [he] at hb ⊢
  simp only [isBasic, decide_eq_true_eq, List.mem_cons, List.not_mem_nil, or_false] at hb
  rcases hb with rfl | rfl | rfl | rfl <;>
    simp [isValidCoords, positionAttrs, isValidCoord_iff]

/-- Moving a shape turns its figure into the image of the figure. -/
theorem lens_moved (u : Viewport) {n : Node} {t : Transform} (ax ay : AId) (hu : Uniform t) (hne : ax ≠ ay)
    (hx : isValidCoord n ax = true) (hy : isValidCoord n ay = true) {m : Node}
    (h : m.get ax = (transformCoords n ax ay t).get ax) (h' : m.get ay = (transformCoords n ax ay t).get ay) :
    u.len .x m ax = (t.pt (u.len .x n ax, u.len .y n ay)).1 ∧ u.len .y m ay = (t.pt (u.len .x n ax, u.len .y n ay)).2 := by
  rw [get_transformCoords, if_neg hne, if_pos rfl] at h
  rw [get_transformCoords, if_pos rfl] at h'
  rw [len_plain u _ hx, len_plain u _ hy]
  exact ⟨len_new u _ h, len_new u _ h'⟩

theorem moveRect_figure (u : Viewport) {n : Node} {t : Transform} (hu : Uniform t) (hk : n.kind = .elem .rect)
    (hx : isValidCoord n .x = true) (hy : isValidCoord n .y = true) :
    figure u (moveRect n t) = (figure u n).map (Figure.image t) := by
  have key : ∀ m : Node, m.kind = .elem .rect → m.get .x = (transformCoords n .x .y t).get .x →
      m.get .y = (transformCoords n .x .y t).get .y →
      (∀ a ∈ [AId.width, .height, .rx, .ry], m.get a = (n.get a).map (scaleLen t.a)) →
      figure u m = (figure u n).map (Figure.image t) := by
    intro m hm h1 h2 h3
    obtain ⟨e1, e2⟩ := lens_moved u .x .y hu (by decide) hx hy h1 h2
    unfold figure
    rw [hm, hk]
    simp only [e1, e2, len_scaled' u _ _ (h3 .width (by simp)), len_scaled' u _ _ (h3 .height (by simp)),
      len_scaled' u _ _ (h3 .rx (by simp)), len_scaled' u _ _ (h3 .ry (by simp)),
      len_scaled u _ _ (h3 .rx (by simp)), len_scaled u _ _ (h3 .ry (by simp))]
    have ha := hu.2.2.2
    have q : ∀ w : ℚ, t.a * w ≤ 0 ↔ w ≤ 0 := fun w => by
      constructor
      · intro h; by_contra hc; exact absurd h (not_le.2 (mul_pos ha (not_le.1 hc)))
      · intro h; exact mul_nonpos_of_nonneg_of_nonpos ha.le h
    have g : ∀ (o : Option ℚ) (d : ℚ), (o.map (t.a * ·)).getD (t.a * d) = t.a * o.getD d := by
      intro o d; cases o <;> rfl
    have mn : ∀ v w : ℚ, min (t.a * v) (t.a * w / 2) = t.a * min v (w / 2) := by
      intro v w; rw [mul_min_of_nonneg _ _ ha.le]; congr 1; ring
    simp only [q, g, mn]
    split <;> rfl
  have hid : ∀ v : Value, scaleLen 1 v = v := by intro v; cases v <;> simp [scaleLen]
  unfold moveRect
  simp only
  split
  · refine key _ ?_ ?_ ?_ ?_
    · simpa [scaleCoord, kind_mod, transformCoords, kind_set] using hk
    · simp [get_scaleCoord]
    · simp [get_scaleCoord]
    · simp [get_scaleCoord, get_transformCoords]
  · rename_i hs
    have h1 := noScale (t := t) (by simpa using hs)
    refine key _ hk rfl rfl ?_
    rw [h1]
    have : scaleLen 1 = id := funext hid
    simp [this, get_transformCoords]

theorem moveCircle_figure (u : Viewport) {n : Node} {t : Transform} (hu : Uniform t) (hk : n.kind = .elem .circle)
    (hx : isValidCoord n .cx = true) (hy : isValidCoord n .cy = true) :
    figure u (moveCircle n t) = (figure u n).map (Figure.image t) := by
  have key : ∀ m : Node, m.kind = .elem .circle → m.get .cx = (transformCoords n .cx .cy t).get .cx →
      m.get .cy = (transformCoords n .cx .cy t).get .cy →
      m.get .r = (n.get .r).map (scaleLen t.a) →
      figure u m = (figure u n).map (Figure.image t) := by
    intro m hm h1 h2 h3
    obtain ⟨e1, e2⟩ := lens_moved u .cx .cy hu (by decide) hx hy h1 h2
    unfold figure
    rw [hm, hk]
    simp only [e1, e2, len_scaled' u _ _ h3]
    have ha := hu.2.2.2
    have q : ∀ w : ℚ, t.a * w ≤ 0 ↔ w ≤ 0 := fun w => by
      constructor
      · intro h; by_contra hc; exact absurd h (not_le.2 (mul_pos ha (not_le.1 hc)))
      · intro h; exact mul_nonpos_of_nonneg_of_nonpos ha.le h
    simp only [q]
    split <;> rfl
  have hid : ∀ v : Value, scaleLen 1 v = v := by intro v; cases v <;> simp [scaleLen]
  unfold moveCircle
  simp only
  split
  · refine key _ hk ?_ ?_ ?_
    · simp [get_scaleCoord]
    · simp [get_scaleCoord]
    · simp [get_scaleCoord, get_transformCoords]
  · rename_i hs
    have h1 := noScale (t := t) (by simpa using hs)
    refine key _ hk rfl rfl ?_
    rw [h1]
    have : scaleLen 1 = id := funext hid
    simp [this, get_transformCoords]

theorem moveEllipse_figure (u : Viewport) {n : Node} {t : Transform} (hu : Uniform t) (hk : n.kind = .elem .ellipse)
    (hx : isValidCoord n .cx = true) (hy : isValidCoord n .cy = true) :
    figure u (moveEllipse n t) = (figure u n).map (Figure.image t) := by
  have key : ∀ m : Node, m.kind = .elem .ellipse → m.get .cx = (transformCoords n .cx .cy t).get .cx →
      m.get .cy = (transformCoords n .cx .cy t).get .cy →
      (∀ a ∈ [AId.rx, .ry], m.get a = (n.get a).map (scaleLen t.a)) →
      figure u m = (figure u n).map (Figure.image t) := by
    intro m hm h1 h2 h3
    obtain ⟨e1, e2⟩ := lens_moved u .cx .cy hu (by decide) hx hy h1 h2
    unfold figure
    rw [hm, hk]
    simp only [e1, e2, len_scaled' u _ _ (h3 .rx (by simp)), len_scaled' u _ _ (h3 .ry (by simp))]
    have ha := hu.2.2.2
    have q : ∀ w : ℚ, t.a * w ≤ 0 ↔ w ≤ 0 := fun w => by
      constructor
      · intro h; by_contra hc; exact absurd h (not_le.2 (mul_pos ha (not_le.1 hc)))
      · intro h; exact mul_nonpos_of_nonneg_of_nonpos ha.le h
    simp only [q]
    split <;> rfl
  have hid : ∀ v : Value, scaleLen 1 v = v := by intro v; cases v <;> simp [scaleLen]
  unfold moveEllipse
  simp only
  split
  · refine key _ hk ?_ ?_ ?_
    · simp [get_scaleCoord]
    · simp [get_scaleCoord]
    · simp [get_scaleCoord, get_transformCoords]
  · rename_i hs
    have h1 := noScale (t := t) (by simpa using hs)
    refine key _ hk rfl rfl ?_
    rw [h1]
    have : scaleLen 1 = id := funext hid
    simp [this, get_transformCoords]

theorem lenOf_congr {n m : Node} {a : AId} (h : m.get a = n.get a) : lenOf m a = lenOf n a := by
  unfold lenOf; rw [h]

theorem moveLine_figure (u : Viewport) {n : Node} {t : Transform} (hu : Uniform t) (hk : n.kind = .elem .line)
    (h1 : isValidCoord n .x1 = true) (h2 : isValidCoord n .y1 = true)
    (h3 : isValidCoord n .x2 = true) (h4 : isValidCoord n .y2 = true) :
    figure u (moveLine n t) = (figure u n).map (Figure.image t) := by
  have g : ∀ b, (moveLine n t).get b = if b = AId.y2 ∨ b = AId.x2 then (transformCoords n .x2 .y2 t).get b
      else (transformCoords n .x1 .y1 t).get b := by
    intro b
    unfold moveLine
    rw [get_transformCoords, get_transformCoords,
      lenOf_congr (m := transformCoords n .x1 .y1 t) (a := .x2) (n := n) (by simp [get_transformCoords]),
      lenOf_congr (m := transformCoords n .x1 .y1 t) (a := .y2) (n := n) (by simp [get_transformCoords])]
    by_cases e1 : b = AId.y2
    · simp [e1, get_transformCoords]
    · by_cases e2 : b = AId.x2
      · simp [e2, get_transformCoords]
      · simp [e1, e2, get_transformCoords]
  obtain ⟨a1, a2⟩ := lens_moved u .x1 .y1 hu (by decide) h1 h2 (m := moveLine n t) (by rw [g]; simp) (by rw [g]; simp)
  obtain ⟨a3, a4⟩ := lens_moved u .x2 .y2 hu (by decide) h3 h4 (m := moveLine n t) (by rw [g]; simp) (by rw [g]; simp)
  have hm : (moveLine n t).kind = .elem .line := hk
  unfold figure
  rw [hm, hk]
  simp only [a1, a2, a3, a4]
  rfl

/-- What is drawn of a shape: the figure and its stroke. -/
structure MovedBy (u : Viewport) (t : Transform) (x y : Node × List Node) : Prop where
  gone : y.1.get .transform = none
  same : SameBut (.transform :: (strokeAttrs ++ coordAttrs)) x.1 y.1
  figure : figure u y.1 = (figure u x.1).map (Figure.image t)
  stroke : stroke y.1 y.2 = (stroke x.1 x.2).scale t.a

theorem stroke_congr {n m : Node} {anc : List Node} (h : ∀ a ∈ strokeAttrs, m.get a = n.get a) : stroke m anc = stroke n anc := by
  unfold stroke
  rw [specified_congr (h .strokeWidth (by decide)), specified_congr (h .strokeDasharray (by decide)),
    specified_congr (h .strokeDashoffset (by decide))]

theorem processShape_spec {u : Viewport} {move : Node → Transform → Node} {e : EId} {anc : List Node} {n m : Node}
    (he : n.kind = .elem e) (hb : isBasic n.kind = true) (hs : ∀ m ∈ n :: anc, StrokeOk m) (hh : n.has .transform = true)
    (hm : ∀ t, Uniform t → isValidCoords n e = true → figure u (move n t) = (figure u n).map (Figure.image t))
    (hc : ∀ t, SameBut coordAttrs n (move n t))
    (h : processShape move e anc n = some m) :
    (∃ t, Applicable (n, anc) t ∧ MovedBy u t (n, anc) (m, anc)) ∨ (m = n ∧ ∀ t, ¬ Applicable (n, anc) t) := by
  unfold processShape at h
  simp only [Option.bind_eq_some_iff] at h
  obtain ⟨ok, hok, h⟩ := h
  rw [Node.has_eq] at hh
  obtain ⟨v, hv⟩ := Option.isSome_iff_exists.1 hh
  unfold hasValidTransform at hok
  rw [Node.has_eq, hv] at hok
  simp only [Option.isSome_some, if_true, Option.map_eq_some_iff] at hok
  obtain ⟨t, ht, rfl⟩ := hok
  have htt := getTs_eq.1 ht
  split at h
  · rename_i hno
    right
    cases h
    refine ⟨rfl, ?_⟩
    rintro t' ⟨_, h1, h2, h3, h4⟩
    simp only at h1 h2 h3 h4
    rw [htt] at h1
    cases h1
    rw [(isValid_iff t).2 h2, (isValidAttrs_iff n anc).2 h3, (positions_ok n e he hb).2 h4] at hno
    simp at hno
  · rename_i hyes
    left
    simp only [Bool.or_eq_true, not_or, Bool.not_eq_true', Bool.not_eq_false] at hyes
    obtain ⟨⟨y1, y2⟩, y3⟩ := hyes
    have hu := (isValid_iff t).1 y1
    refine ⟨t, ⟨hb, htt, hu, (isValidAttrs_iff n anc).1 y2, (positions_ok n e he hb).1 y3⟩, ?_⟩
    rw [ht] at h
    simp only [Option.map_some, Option.some.injEq] at h
    subst h
    have s1 : SameBut coordAttrs n (move n t) := hc t
    have s2 : SameBut [.transform] (move n t) ((move n t).rm .transform) := SameBut.rm _ (by simp)
    have s3 := rescaleStroke_same anc ((move n t).rm .transform) t
    refine ⟨?_, ?_, ?_, ?_⟩
    · simp only
      rw [s3.get (by decide), get_rm, if_pos rfl]
    · exact ((s1.mono (by decide)).trans (s2.mono (by decide))).trans (s3.mono (by decide))
    · simp only
      rw [figure_congr u s3]
      have : figure u ((move n t).rm .transform) = figure u (move n t) := by
        have e : ∀ d a, a ∉ [AId.transform] → u.len? d ((move n t).rm .transform) a = u.len? d (move n t) a := by
          intro d a ha; unfold Viewport.len?; rw [s2.get ha]
        unfold figure Viewport.len
        rw [s2.kind]
        simp only [e _ .x1 (by decide), e _ .x2 (by decide), e _ .y1 (by decide), e _ .y2 (by decide), e _ .x (by decide),
          e _ .y (by decide), e _ .cx (by decide), e _ .cy (by decide), e _ .r (by decide), e _ .rx (by decide),
          e _ .ry (by decide), e _ .width (by decide), e _ .height (by decide)]
      rw [this]
      exact hm t hu y3
    · have g : ∀ a ∈ strokeAttrs, ((move n t).rm .transform).get a = n.get a := by
        intro a ha
        have : ∀ a ∈ strokeAttrs, a ∉ [AId.transform] ∧ a ∉ coordAttrs := by decide
        rw [s2.get (this a ha).1, s1.get (this a ha).2]
      simp only
      rw [rescaleStroke_spec hu, stroke_congr g]
      intro m hm
      rcases List.mem_cons.1 hm with rfl | hm
      · refine ⟨fun v hv => (hs n (by simp)).1 v ?_, fun v hv => (hs n (by simp)).2 v ?_⟩
        · rw [← hv, g _ (by decide)]
        · rw [← hv, g _ (by decide)]
      · exact hs m (by simp [hm])

theorem moveRect_same (n : Node) (t : Transform) : SameBut coordAttrs n (moveRect n t) := by
  unfold moveRect
  simp only
  split
  · exact ((((SameBut.coords n (by decide) (by decide) t).trans (SameBut.mod _ (a := .width) (by decide) _)).trans
      (SameBut.mod _ (a := .height) (by decide) _)).trans (SameBut.mod _ (a := .rx) (by decide) _)).trans
      (SameBut.mod _ (a := .ry) (by decide) _)
  · exact SameBut.coords n (by decide) (by decide) t

theorem moveCircle_same (n : Node) (t : Transform) : SameBut coordAttrs n (moveCircle n t) := by
  unfold moveCircle
  simp only
  split
  · exact (SameBut.coords n (by decide) (by decide) t).trans (SameBut.mod _ (a := .r) (by decide) _)
  · exact SameBut.coords n (by decide) (by decide) t

theorem moveEllipse_same (n : Node) (t : Transform) : SameBut coordAttrs n (moveEllipse n t) := by
  unfold moveEllipse
  simp only
  split
  · exact ((SameBut.coords n (by decide) (by decide) t).trans (SameBut.mod _ (a := .rx) (by decide) _)).trans
      (SameBut.mod _ (a := .ry) (by decide) _)
  · exact SameBut.coords n (by decide) (by decide) t

theorem moveLine_same (n : Node) (t : Transform) : SameBut coordAttrs n (moveLine n t) :=
  (SameBut.coords n (by decide) (by decide) t).trans (SameBut.coords _ (by decide) (by decide) t)

/-- One node of `apply_transform_to_shapes`. -/
theorem shapeBody_spec (u : Viewport) {anc : List Node} {n m : Node} (hs : ∀ m ∈ n :: anc, StrokeOk m)
    (h : shapeBody anc n = some m) :
    (∃ t, Applicable (n, anc) t ∧ MovedBy u t (n, anc) (m, anc)) ∨ (m = n ∧ ∀ t, ¬ Applicable (n, anc) t) := by
  unfold shapeBody at h
  split at h
  · rename_i hh
    split at h
    · rename_i he
      refine processShape_spec he (by rw [he]; rfl) hs hh (fun t hu hv => ?_) (moveRect_same n) h
      simp [isValidCoords] at hv
      exact moveRect_figure u hu he hv.1 hv.2
    · rename_i he
      refine processShape_spec he (by rw [he]; rfl) hs hh (fun t hu hv => ?_) (moveCircle_same n) h
      simp [isValidCoords] at hv
      exact moveCircle_figure u hu he hv.1 hv.2
    · rename_i he
      refine processShape_spec he (by rw [he]; rfl) hs hh (fun t hu hv => ?_) (moveEllipse_same n) h
      simp [isValidCoords] at hv
      exact moveEllipse_figure u hu he hv.1 hv.2
    · rename_i he
      refine processShape_spec he (by rw [he]; rfl) hs hh (fun t hu hv => ?_) (moveLine_same n) h
      simp [isValidCoords] at hv
      exact moveLine_figure u hu he hv.1 hv.2.1 hv.2.2.1 hv.2.2.2
    · rename_i e n1 n2 n3 n4 he
      cases h
      refine .inr ⟨rfl, ?_⟩
      rintro t ⟨hb, -⟩
      simp only [he, isBasic, decide_eq_true_eq, List.mem_cons, List.not_mem_nil, or_false] at hb
      rcases hb with rfl | rfl | rfl | rfl
      · exact n1 rfl
      · exact n2 rfl
      · exact n3 rfl
      · exact n4 rfl
    · cases h
  · rename_i hh
    cases h
    refine .inr ⟨rfl, ?_⟩
    rintro t ⟨_, ht, _⟩
    simp only at ht
    rw [Node.has_eq, ht] at hh
    simp at hh

theorem shapeBody_kind {anc : List Node} {n m : Node} (h : shapeBody anc n = some m) :
    m.key = n.key ∧ m.kind = n.kind ∧ (isShape n.kind = false → m = n) := by
  have key : ∀ (move : Node → Transform → Node) e, (∀ t, SameBut coordAttrs n (move n t)) → isShape n.kind = true →
      processShape move e anc n = some m → m.key = n.key ∧ m.kind = n.kind ∧ (isShape n.kind = false → m = n) := by
    intro move e hc hb h
    unfold processShape at h
    simp only [Option.bind_eq_some_iff] at h
    obtain ⟨ok, hok, h⟩ := h
    split at h
    · cases h; exact ⟨rfl, rfl, fun _ => rfl⟩
    · simp only [Option.map_eq_some_iff] at h
      obtain ⟨t, _, rfl⟩ := h
      have s3 := rescaleStroke_same anc ((move n t).rm .transform) t
      exact ⟨s3.key.trans (hc t).key, s3.kind.trans (hc t).kind, fun hf => by rw [hf] at hb; cases hb⟩
  unfold shapeBody at h
  split at h
  · split at h
    · rename_i he; exact key _ _ (moveRect_same n) (by rw [he]; rfl) h
    · rename_i he; exact key _ _ (moveCircle_same n) (by rw [he]; rfl) h
    · rename_i he; exact key _ _ (moveEllipse_same n) (by rw [he]; rfl) h
    · rename_i he; exact key _ _ (moveLine_same n) (by rw [he]; rfl) h
    · cases h; exact ⟨rfl, rfl, fun _ => rfl⟩
    · cases h
  · cases h; exact ⟨rfl, rfl, fun _ => rfl⟩

theorem placed_mem {f : Forest} {anc : List Node} {x : Node × List Node} (h : x ∈ placed anc f) :
    (x.1 ∈ f.nodes) ∧ ∀ m ∈ x.2, m ∈ anc ∨ m ∈ f.nodes := by
  induction f generalizing anc with
  | nil => simp [placed] at h
  | cons n k r ihk ihr =>
    simp only [placed, List.mem_cons, List.mem_append] at h
    simp only [Forest.nodes, List.mem_cons, List.mem_append]
    rcases h with rfl | h | h
    · exact ⟨.inl rfl, fun m hm => .inl hm⟩
    · split at h
      · simp at h
      · obtain ⟨h1, h2⟩ := ihk h
        refine ⟨.inr (.inl h1), fun m hm => ?_⟩
        rcases h2 m hm with h2 | h2
        · rcases List.mem_cons.1 h2 with rfl | h2
          · exact .inr (.inl rfl)
          · exact .inl h2
        · exact .inr (.inr (.inl h2))
    · obtain ⟨h1, h2⟩ := ihr h
      refine ⟨.inr (.inr h1), fun m hm => ?_⟩
      rcases h2 m hm with h2 | h2
      · exact .inl h2
      · exact .inr (.inr (.inr h2))

/-- C31: for every document, the tree stays; each basic shape whose transform is a uniform scale with a translation, to
which no paint server, filter, mask or clip path applies and whose position is in user units loses its transform and
becomes the image of the figure it was, with all stroke lengths multiplied by the scale; everything else stays. -/
theorem C31_shapes (u : Viewport) {f g : Forest} (h : applyToShapes f = some g) (hs : ∀ n ∈ f.nodes, StrokeOk n) :
    shape none g = shape none f ∧
    List.Forall₂ (fun x y => y.2 = x.2 ∧
      ((∃ t, Applicable x t ∧ MovedBy u t x y) ∨ (y.1 = x.1 ∧ ∀ t, ¬ Applicable x t))) (placed [] f) (placed [] g) := by
  refine ⟨mapCtx_shape (fun anc n n' hn => (shapeBody_kind hn).1) h none, ?_⟩
  have hp := mapCtx_placed (fun anc n n' hn => (shapeBody_kind hn).2.1) (fun anc n n' hf hn => (shapeBody_kind hn).2.2 hf) h
  have hm : ∀ x ∈ placed [] f, ∀ m ∈ x.1 :: x.2, StrokeOk m := by
    intro x hx m hm
    obtain ⟨h1, h2⟩ := placed_mem hx
    rcases List.mem_cons.1 hm with rfl | hm
    · exact hs _ h1
    · exact hs _ ((h2 m hm).resolve_left (by simp))
  generalize placed [] f = l at hp hm
  generalize placed [] g = l2 at hp
  induction hp with
  | nil => exact .nil
  | @cons x y l l' hxy _ ih =>
    refine .cons ⟨hxy.2, ?_⟩ (ih (fun z hz => hm z (by simp [hz])))
    obtain ⟨x1, x2⟩ := x
    obtain ⟨y1, y2⟩ := y
    obtain ⟨hb, rfl⟩ := hxy
    exact shapeBody_spec u (hm (x1, y2) (by simp)) hb

/-- C31: the points of the new figure are the images of the points of the old one. -/
theorem C31_points {u : Viewport} {t : Transform} {x y : Node × List Node} (ha : Applicable x t) (h : MovedBy u t x y)
    (F : Figure) (hF : figure u x.1 = some F) :
    ∃ G, figure u y.1 = some G ∧ ∀ p, G.Mem (t.pt p) ↔ F.Mem p := by
  refine ⟨F.image t, ?_, fun p => Figure.mem_image ha.2.2.1 F p⟩
  rw [h.figure, hF]; rfl

/-- The pass fails (panics) only on a `transform` attribute that is not a transform, or on a transform attribute of an
element that is not an SVG element. -/
theorem C31_no_crash {f : Forest}
    (h : ∀ n ∈ f.nodes, ∀ v, n.get .transform = some v → n.isSvgElem = true ∧ ∃ t, v = .transform t) :
    ∃ g, applyToShapes f = some g := by
  have key : ∀ anc n, (∀ v, n.get .transform = some v → n.isSvgElem = true ∧ ∃ t, v = .transform t) →
      ∃ m, shapeBody anc n = some m := by
    intro anc n hn
    unfold shapeBody
    split
    · rename_i hh
      rw [Node.has_eq] at hh
      obtain ⟨v, hv⟩ := Option.isSome_iff_exists.1 hh
      obtain ⟨h1, t, rfl⟩ := hn v hv
      have ht := getTs_eq.2 hv
      have q : ∀ mv e, ∃ m, processShape mv e anc n = some m := by
        intro mv e
        unfold processShape
        rw [hasValidTransform_some hv]
        simp only [Option.bind_some]
        split
        · exact ⟨_, rfl⟩
        · rw [ht]; exact ⟨_, rfl⟩
      unfold Node.isSvgElem at h1
      split
      · exact q _ _
      · exact q _ _
      · exact q _ _
      · exact q _ _
      · exact ⟨_, rfl⟩
      · rename_i hne
        split at h1
        · rename_i e he; exact absurd he (hne e)
        · cases h1
    · exact ⟨_, rfl⟩
  unfold applyToShapes
  generalize ([] : List Node) = anc
  induction f generalizing anc with
  | nil => exact ⟨_, rfl⟩
  | cons n k r ihk ihr =>
    simp only [Forest.nodes, List.mem_cons, List.mem_append] at h
    obtain ⟨m, hm⟩ := key anc n (h n (.inl rfl))
    obtain ⟨k', hk'⟩ := ihk (fun x hx => h x (.inr (.inl hx))) (m :: anc)
    obtain ⟨r', hr'⟩ := ihr (fun x hx => h x (.inr (.inr hx))) anc
    exact ⟨.cons m k' r', by simp [Forest.mapCtx, hm, hk', hr']⟩

def elem (k : Nat) (e : EId) (as : List (AId × Value)) : Node :=
  ⟨k, .elem e, "", as.map fun x => ⟨.id x.1, x.2, true⟩⟩

def px (q : ℚ) : Value := .length ⟨q, .none⟩

/-- C31, a case: a rect inside a group with a stroke width. -/
def scaledRect : Forest :=
  .cons (elem 1 .g [(.strokeWidth, px 3)])
    (.cons (elem 2 .rect [(.x, px 1), (.width, px 10), (.height, px 20), (.transform, .transform ⟨2, 0, 0, 2, 5, 6⟩)]) .nil .nil) .nil

example : (∀ n ∈ scaledRect.nodes, StrokeOk n) ∧ (∀ n ∈ scaledRect.nodes, ∀ v, n.get .transform = some v → n.isSvgElem = true ∧ ∃ t, v = .transform t) ∧
    applyToShapes scaledRect = some (.cons (elem 1 .g [(.strokeWidth, px 3)])
      (.cons (elem 2 .rect [(.x, px 7), (.width, px 20), (.height, px 40), (.y, px 6), (.strokeWidth, px 6)]) .nil .nil) .nil) := by
  refine ⟨?_, ?_, by decide +kernel⟩
  · intro n hn
    simp [scaledRect] at hn
    rcases hn with rfl | rfl <;> simp [StrokeOk, elem, Node.get, getAttr, px]
  · intro n hn
    simp [scaledRect] at hn
    rcases hn with rfl | rfl <;> simp [elem, Node.get, getAttr, px, Node.isSvgElem]

/-- C31 for copies: the copy of a shape that a `use` element makes inherits from the `use` element, so the stroke of every
copy should be scaled, too. -/
def C31_copies_full : Prop :=
  ∀ (f g : Forest), applyToShapes f = some g → (∀ n ∈ f.nodes, StrokeOk n) →
    ∀ x ∈ (placed [] f).zip (placed [] g), ∀ t, Applicable x.1 t → ∀ c ∈ placed [] f,
      c.1.isTag .use = true → c.1.get .xlinkHref = some (.link x.1.1.key) →
      stroke x.2.1 (c.1 :: c.2) = (stroke x.1.1 (c.1 :: c.2)).scale t.a

/-- A rect in `defs` is drawn by a `use` element that sets the stroke width to 10.  With the transform (a scale by 2)
the stroke is 20 wide; afterwards it is 2 wide, because the rect got a stroke width of its own: twice the default. -/
def sharedRect : Forest :=
  .cons (elem 1 .svg [])
    (.cons (elem 2 .defs [])
        (.cons (elem 3 .rect [(.width, px 10), (.height, px 20), (.transform, .transform ⟨2, 0, 0, 2, 0, 0⟩)]) .nil .nil)
      (.cons (elem 4 .use [(.xlinkHref, .link 3), (.strokeWidth, px 10)]) .nil .nil)) .nil

theorem C31_refuted_copies : ¬ C31_copies_full := by
  intro h
  have hg : applyToShapes sharedRect = some (.cons (elem 1 .svg [])
    (.cons (elem 2 .defs [])
        (.cons (elem 3 .rect [(.width, px 20), (.height, px 40), (.x, px 0), (.y, px 0), (.strokeWidth, px 2)]) .nil .nil)
      (.cons (elem 4 .use [(.xlinkHref, .link 3), (.strokeWidth, px 10)]) .nil .nil)) .nil) := by decide +kernel
  have ok : ∀ n ∈ sharedRect.nodes, StrokeOk n := by
    intro n hn
    simp [sharedRect] at hn
    rcases hn with rfl | rfl | rfl | rfl <;> simp [StrokeOk, elem, Node.get, getAttr, px]
  have := h _ _ hg ok
    ((elem 3 .rect [(.width, px 10), (.height, px 20), (.transform, .transform ⟨2, 0, 0, 2, 0, 0⟩)], [elem 2 .defs [], elem 1 .svg []]),
     (elem 3 .rect [(.width, px 20), (.height, px 40), (.x, px 0), (.y, px 0), (.strokeWidth, px 2)], [elem 2 .defs [], elem 1 .svg []]))
    (by decide +kernel) ⟨2, 0, 0, 2, 0, 0⟩
    ⟨by decide +kernel, by decide +kernel, ⟨rfl, rfl, rfl, by norm_num⟩, by
      intro a ha k hk
      simp at ha
      rcases ha with rfl | rfl | rfl | rfl | rfl <;> revert hk <;> simp [specified, elem, Node.get, getAttr, px, List.findSome?], by
      intro a ha l hl
      simp [positionAttrs, elem] at ha
      rcases ha with rfl | rfl <;> revert hl <;> simp [elem, Node.get, getAttr]⟩
    (elem 4 .use [(.xlinkHref, .link 3), (.strokeWidth, px 10)], [elem 1 .svg []]) (by decide +kernel) (by decide +kernel) (by decide +kernel)
  revert this
  decide +kernel

/-! ### C19 for documents: `process_paths` -/

theorem pathBody_kind {b : Bool} {o : PathOpts} {anc : List Node} {n m : Node} (h : pathBody b o anc n = some m) :
    SameBut (.transform :: .d :: strokeAttrs) n m ∧ (isShape n.kind = false → m = n) := by
  unfold pathBody at h
  split at h
  · rename_i hp
    have hsh : isShape n.kind = true := by
      unfold Node.isTag at hp
      simp only [decide_eq_true_eq] at hp
      rw [hp]; rfl
    refine ⟨?_, fun hf => by rw [hf] at hsh; cases hsh⟩
    simp only [Option.bind_eq_some_iff] at h
    obtain ⟨⟨n1, ts⟩, h1, h⟩ := h
    have s1 : SameBut (.transform :: .d :: strokeAttrs) n n1 := by
      unfold takeTransform at h1
      split at h1
      · simp only [Option.map_eq_some_iff] at h1
        obtain ⟨t, _, h1⟩ := h1
        split at h1
        · cases h1
          exact (SameBut.rm n (by simp)).trans ((rescaleStroke_same _ _ _).mono (by decide))
        · cases h1; exact SameBut.refl _ _
      · cases h1; exact SameBut.refl _ _
    simp only at h
    split at h
    · simp only [Option.map_eq_some_iff] at h
      obtain ⟨v', _, rfl⟩ := h
      exact s1.trans (SameBut.mod _ (by simp) _)
    · cases h; exact s1
  · cases h; exact ⟨SameBut.refl _ _, fun _ => rfl⟩

/-- The markers named on the element itself. -/
def OwnMarker (n : Node) : Prop := ∃ a ∈ [AId.marker, .markerStart, .markerMid, .markerEnd], n.get a ≠ none

instance (n : Node) : Decidable (OwnMarker n) := by unfold OwnMarker; infer_instance

/-- The path data of an element. -/
def pathOf (n : Node) : Option Path :=
  match n.get .d with
  | some (.path p) => some p
  | _ => none

/-- A path whose transform can be applied to it. -/
def ApplicablePath (x : Node × List Node) (t : Transform) : Prop :=
  x.1.isTag .path = true ∧ x.1.get .transform = some (.transform t) ∧ Uniform t ∧ Unlinked x

/-- What happens to a path: `q` is what C16-C18 say about the path without the transform. -/
structure PathMoved (o : PathOpts) (t : Transform) (x y : Node × List Node) : Prop where
  gone : y.1.get .transform = none
  same : SameBut (.transform :: .d :: strokeAttrs) x.1 y.1
  stroke : stroke y.1 y.2 = (stroke x.1 x.2).scale t.a
  outline : ∀ p, pathOf x.1 = some p → StartsWithMove p →
    ∃ q q', processPath p (decide (OwnMarker x.1)) none o = some q ∧ pathOf y.1 = some q' ∧
      trace q' = (trace q).map (Event.image t t.a)

/-- What happens to a path whose transform stays. -/
structure PathStays (o : PathOpts) (x y : Node × List Node) : Prop where
  same : SameBut [.d] x.1 y.1
  outline : ∀ p, pathOf x.1 = some p → ∃ q, processPath p (decide (OwnMarker x.1)) none o = some q ∧ pathOf y.1 = some q

theorem ownMarker_eq (n : Node) :
    (n.has .marker || n.has .markerStart || n.has .markerMid || n.has .markerEnd) = decide (OwnMarker n) := by
  unfold OwnMarker
  simp only [Node.has_eq]
  cases h1 : n.get .marker <;> cases h2 : n.get .markerStart <;> cases h3 : n.get .markerMid <;>
    cases h4 : n.get .markerEnd <;> simp [h1, h2, h3, h4]

theorem pathOf_congr {n m : Node} (h : m.get .d = n.get .d) : pathOf m = pathOf n := by unfold pathOf; rw [h]

theorem pathBody_spec {b : Bool} {o : PathOpts} {anc : List Node} {n m : Node} (hs : ∀ m ∈ n :: anc, StrokeOk m)
    (h : pathBody b o anc n = some m) :
    (∃ t, b = true ∧ ApplicablePath (n, anc) t ∧ PathMoved o t (n, anc) (m, anc)) ∨
    ((∀ t, b = true → ¬ ApplicablePath (n, anc) t) ∧
      if n.isTag .path then PathStays o (n, anc) (m, anc) else m = n) := by
  have hsame := (pathBody_kind h).1
  unfold pathBody at h
  split at h
  · rename_i hp
    rw [if_pos hp]
    simp only [Option.bind_eq_some_iff] at h
    obtain ⟨⟨n1, ts⟩, h1, h⟩ := h
    simp only [ownMarker_eq] at h
    -- the data
    have data : SameBut [.d] n1 m ∧ (∀ p, pathOf n1 = some p → ∃ q, processPath p (decide (OwnMarker n)) (ts.map fun t => (t, t.a)) o = some q ∧ pathOf m = some q) := by
      cases hd : n1.get .d with
      | none =>
        rw [hd] at h; simp only at h; cases h
        exact ⟨SameBut.refl _ _, fun p hp => by unfold pathOf at hp; rw [hd] at hp; cases hp⟩
      | some v =>
        rw [hd] at h
        simp only [Option.map_eq_some_iff] at h
        obtain ⟨v', hv', rfl⟩ := h
        refine ⟨SameBut.mod _ (by simp) _, ?_⟩
        intro p hp
        unfold pathOf at hp
        rw [hd] at hp
        cases v with
        | path p' =>
          simp only [Option.some.injEq] at hp
          subst hp
          simp only [processPathValue, Option.map_eq_some_iff] at hv'
          obtain ⟨q, hq, rfl⟩ := hv'
          refine ⟨q, hq, ?_⟩
          unfold pathOf
          rw [get_mod, if_pos rfl, hd]
          rfl
        | _ => cases hp
    unfold takeTransform at h1
    split at h1
    · rename_i hb
      simp only [Bool.and_eq_true] at hb
      simp only [Option.map_eq_some_iff] at h1
      obtain ⟨t, ht, h1⟩ := h1
      have htt := getTs_eq.1 ht
      split at h1
      · rename_i hv
        simp only [Bool.and_eq_true] at hv
        cases h1
        left
        have hu := (isValid_iff t).1 hv.1
        have g : ∀ a ∈ strokeAttrs, (n.rm .transform).get a = n.get a := by
          intro a ha
          have : ∀ a ∈ strokeAttrs, a ≠ AId.transform := by decide
          rw [get_rm, if_neg (this a ha)]
        refine ⟨t, hb.1, ⟨hp, htt, hu, (isValidAttrs_iff n anc).1 hv.2⟩, ?_, hsame, ?_, ?_⟩
        · simp only
          rw [data.1.get (by decide), (rescaleStroke_same _ _ _).get (by decide), get_rm, if_pos rfl]
        · simp only
          rw [stroke_congr (fun a ha => data.1.get (by have : ∀ a ∈ strokeAttrs, a ∉ [AId.d] := by decide
                                                       exact this a ha)),
            rescaleStroke_spec hu, stroke_congr g]
          intro m hm
          rcases List.mem_cons.1 hm with rfl | hm
          · refine ⟨fun v hv => (hs n (by simp)).1 v ?_, fun v hv => (hs n (by simp)).2 v ?_⟩
            · rw [← hv, g _ (by decide)]
            · rw [← hv, g _ (by decide)]
          · exact hs m (by simp [hm])
        · intro p hpp hst
          obtain ⟨q, q', e1, e2, e3⟩ := C19_transform_moves_outline hst (decide (OwnMarker n)) o t t.a
          obtain ⟨q'', f1, f2⟩ := data.2 p (by
            rw [← hpp]
            apply pathOf_congr
            rw [(rescaleStroke_same _ _ _).get (by decide), get_rm, if_neg (by decide)])
          simp only [Option.map_some] at f1
          rw [e2] at f1
          cases f1
          exact ⟨q, q', e1, f2, e3⟩
      · rename_i hv
        cases h1
        right
        refine ⟨?_, data.1, data.2⟩
        rintro t' - ⟨_, a2, a3, a4⟩
        simp only at a2
        rw [htt] at a2
        cases a2
        rw [(isValid_iff t).2 a3, (isValidAttrs_iff n anc).2 a4] at hv
        simp at hv
    · rename_i hb
      cases h1
      right
      refine ⟨?_, data.1, data.2⟩
      rintro t' hb' ⟨_, a2, _, _⟩
      simp only at a2
      rw [Node.has_eq, a2, hb'] at hb
      simp at hb
  · rename_i hp
    cases h
    right
    rw [if_neg hp]
    exact ⟨fun t _ ht => hp ht.1, rfl⟩

/-- C19 for documents: the tree stays; every path whose transform can be applied loses it, its outline becomes the image of
the outline (as far as C16-C18 describe the processing without a transform), and all stroke lengths are scaled; other
paths keep their attributes but the path data, which is processed as C16-C18 describe; other elements stay. -/
theorem C19_paths {b : Bool} {o : PathOpts} {f g : Forest} (h : processPaths b o f = some g) (hs : ∀ n ∈ f.nodes, StrokeOk n) :
    shape none g = shape none f ∧
    List.Forall₂ (fun x y => y.2 = x.2 ∧
      ((∃ t, b = true ∧ ApplicablePath x t ∧ PathMoved o t x y) ∨
       ((∀ t, b = true → ¬ ApplicablePath x t) ∧ if x.1.isTag .path then PathStays o x y else y.1 = x.1)))
      (placed [] f) (placed [] g) := by
  refine ⟨mapCtx_shape (fun anc n n' hn => (pathBody_kind hn).1.key) h none, ?_⟩
  have hp := mapCtx_placed (fun anc n n' hn => (pathBody_kind hn).1.kind) (fun anc n n' hf hn => (pathBody_kind hn).2 hf) h
  have hm : ∀ x ∈ placed [] f, ∀ m ∈ x.1 :: x.2, StrokeOk m := by
    intro x hx m hm
    obtain ⟨h1, h2⟩ := placed_mem hx
    rcases List.mem_cons.1 hm with rfl | hm
    · exact hs _ h1
    · exact hs _ ((h2 m hm).resolve_left (by simp))
  generalize placed [] f = l at hp hm
  generalize placed [] g = l2 at hp
  induction hp with
  | nil => exact .nil
  | @cons x y l l' hxy _ ih =>
    refine .cons ⟨hxy.2, ?_⟩ (ih (fun z hz => hm z (by simp [hz])))
    obtain ⟨x1, x2⟩ := x
    obtain ⟨y1, y2⟩ := y
    obtain ⟨hb, rfl⟩ := hxy
    exact pathBody_spec (hm (x1, y2) (by simp)) hb

/-- C19, C20 for documents: `process_paths` does not crash if transforms are transforms and path data starts with a move. -/
theorem C19_paths_no_crash {b : Bool} {o : PathOpts} {f : Forest}
    (ht : ∀ n ∈ f.nodes, ∀ v, n.get .transform = some v → ∃ t, v = .transform t)
    (hd : ∀ n ∈ f.nodes, ∀ p, pathOf n = some p → p = [] ∨ StartsWithMove p) : ∃ g, processPaths b o f = some g := by
  have key : ∀ anc n, (∀ v, n.get .transform = some v → ∃ t, v = .transform t) →
      (∀ p, pathOf n = some p → p = [] ∨ StartsWithMove p) → ∃ m, pathBody b o anc n = some m := by
    intro anc n hn hd
    unfold pathBody
    split
    · simp only
      generalize (n.has .marker || n.has .markerStart || n.has .markerMid || n.has .markerEnd) = mk
      have : ∃ n1 ts, takeTransform b anc n = some (n1, ts) ∧ n1.get .d = n.get .d := by
        unfold takeTransform
        split
        · rename_i hb
          simp only [Bool.and_eq_true, Node.has_eq] at hb
          obtain ⟨v, hv⟩ := Option.isSome_iff_exists.1 hb.2
          obtain ⟨t, rfl⟩ := hn v hv
          rw [getTs_eq.2 hv]
          simp only [Option.map_some]
          split
          · exact ⟨_, _, rfl, by rw [(rescaleStroke_same _ _ _).get (by decide), get_rm, if_neg (by decide)]⟩
          · exact ⟨_, _, rfl, rfl⟩
        · exact ⟨_, _, rfl, rfl⟩
      obtain ⟨n1, ts, e1, e2⟩ := this
      rw [e1]
      simp only [Option.bind_some]
      rw [e2]
      cases hv : n.get .d with
      | none => exact ⟨_, rfl⟩
      | some v =>
        simp only
        cases v with
        | path p =>
          rcases hd p (by unfold pathOf; rw [hv]) with rfl | hp
          · exact ⟨modValue n1 .d (fun _ => .path []), by simp [processPathValue, processPath]⟩
          · obtain ⟨q, hq, _⟩ := C20_never_panics hp mk (ts.map fun t => (t, t.a)) o
            exact ⟨modValue n1 .d (fun _ => .path q), by simp [processPathValue, hq]⟩
        | _ => exact ⟨_, rfl⟩
    · exact ⟨_, rfl⟩
  unfold processPaths
  generalize ([] : List Node) = anc
  induction f generalizing anc with
  | nil => exact ⟨_, rfl⟩
  | cons n k r ihk ihr =>
    simp only [Forest.nodes, List.mem_cons, List.mem_append] at ht hd
    obtain ⟨m, hm⟩ := key anc n (ht n (.inl rfl)) (hd n (.inl rfl))
    obtain ⟨k', hk'⟩ := ihk (fun x hx => ht x (.inr (.inl hx))) (fun x hx => hd x (.inr (.inl hx))) (m :: anc)
    obtain ⟨r', hr'⟩ := ihr (fun x hx => ht x (.inr (.inr hx))) (fun x hx => hd x (.inr (.inr hx))) anc
    exact ⟨.cons m k' r', by simp [Forest.mapCtx, hm, hk', hr']⟩

/-- A path in a group with markers: the markers of the group apply to the path. -/
def markedGroup : Forest :=
  .cons (elem 1 .g [(.markerMid, .funcLink 9)])
    (.cons (elem 2 .path [(.d, .path [⟨true, .moveTo 1 1⟩, ⟨true, .lineTo 1 1⟩, ⟨true, .lineTo 5 5⟩]), (.transform, .transform ⟨2, 0, 0, 2, 0, 0⟩)]) .nil .nil) .nil

example : (∀ n ∈ markedGroup.nodes, StrokeOk n) ∧
    (∀ n ∈ markedGroup.nodes, ∀ v, n.get .transform = some v → ∃ t, v = .transform t) ∧
    (∀ n ∈ markedGroup.nodes, ∀ p, pathOf n = some p → p = [] ∨ StartsWithMove p) := by
  refine ⟨?_, ?_, ?_⟩ <;> intro n hn <;> simp [markedGroup] at hn
  · rcases hn with rfl | rfl <;> simp [StrokeOk, elem, Node.get, getAttr, px]
  · rcases hn with rfl | rfl <;> simp [elem, Node.get, getAttr, px]
  · rcases hn with rfl | rfl
    · simp [pathOf, elem, Node.get, getAttr]
    · simp only [pathOf, elem, Node.get, getAttr]
      rintro p h
      right
      simp at h
      subst h
      exact ⟨_, _, _, _, rfl⟩

/-- C18 at document level is false for paths that inherit their markers: the check for markers only looks at the path
itself, so here a segment, and with it the marker drawn at its end, is removed. -/
theorem C18_refuted_inherited_marker :
    (∃ m, (elem 2 .path [(.d, .path [⟨true, .moveTo 1 1⟩, ⟨true, .lineTo 1 1⟩, ⟨true, .lineTo 5 5⟩]), (.transform, .transform ⟨2, 0, 0, 2, 0, 0⟩)], [m]) ∈ placed [] markedGroup ∧
      specified .markerMid (elem 2 .path [(.d, .path [⟨true, .moveTo 1 1⟩, ⟨true, .lineTo 1 1⟩, ⟨true, .lineTo 5 5⟩]), (.transform, .transform ⟨2, 0, 0, 2, 0, 0⟩)]) [m] = some (.funcLink 9)) ∧
    ((processPaths false ⟨false, true⟩ markedGroup).map fun g => g.nodes.map fun n => (pathOf n).map List.length) =
      some [none, some 2] := by
  refine ⟨⟨elem 1 .g [(.markerMid, .funcLink 9)], by decide +kernel, by decide +kernel⟩, by decide +kernel⟩

end Verif.ApplyTs
