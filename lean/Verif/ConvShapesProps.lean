import Verif.ConvShapes
import Verif.PathSem
import Verif.DomSpec
import Verif.DomLemmas
import Verif.StopsProps
import Mathlib.Data.List.Forall2
/- Properties of `convert_shapes_to_paths`: C21. -/
namespace Verif.ConvShapes
open Verif.Dom Verif.Spec Verif.Paths
open Verif.Stops (NotNegative getAttr_set getAttr_nodeRm)

/-! ### Specification: what the shapes of SVG 1.1 (chapter 9) draw -/

/-- How a renderer turns a length into user units: by a factor for each unit and direction (horizontal or vertical). -/
structure Units where
  factor : Bool → LUnit → ℚ
  factor_none : ∀ b, factor b .none = 1

/-- A length attribute in user units; 0 if it is missing. -/
def Units.coord (u : Units) (horizontal : Bool) (n : Node) (a : AId) : ℚ :=
  match n.get a with
  | some (.length l) => l.num * u.factor horizontal l.unit
  | _ => 0

/-- A corner radius in user units; the other radius if it is missing; 0 if both are. -/
def Units.radius (u : Units) (horizontal : Bool) (n : Node) : ℚ :=
  let a := if horizontal then AId.rx else AId.ry
  let b := if horizontal then AId.ry else AId.rx
  if n.has a then u.coord horizontal n a else u.coord (!horizontal) n b

inductive Geometry
  /-- Straight lines or the curves of a path. -/
  | outline (l : List Event)
  /-- A rectangle with round corners. -/
  | rounded (x y w h rx ry : ℚ)
  /-- Anything else. -/
  | other (n : Node)
  deriving DecidableEq

/-- The whole points in a list of coordinates. -/
def pairs : List ℚ → List Pt
  | x :: y :: t => (x, y) :: pairs t
  | _ => []

def lines (p : Pt) : List Pt → List Event
  | [] => []
  | q :: t => .draw .line (.line p q) :: lines q t

/-- Straight lines through the points, and back to the first one if `closed`. -/
def polyEvents (closed : Bool) : List Pt → List Event
  | [] => []
  | p :: t => .start p :: (lines p t ++ if closed then [.close ((p :: t).getLast (by simp)) p] else [])

def pointsOf (n : Node) : List Pt :=
  match n.get .points with
  | some (.numberList v) => pairs v
  | _ => []

/-- What an element draws. -/
def geometry (u : Units) (n : Node) : Geometry :=
  match n.kind with
  | .elem .line =>
    .outline (polyEvents false [(u.coord true n .x1, u.coord false n .y1), (u.coord true n .x2, u.coord false n .y2)])
  | .elem .rect =>
    let x := u.coord true n .x
    let y := u.coord false n .y
    let w := u.coord true n .width
    let h := u.coord false n .height
    if w ≤ 0 ∨ h ≤ 0 then .outline []
    else if u.radius true n = 0 ∨ u.radius false n = 0 then
      .outline (polyEvents true [(x, y), (x + w, y), (x + w, y + h), (x, y + h)])
    else .rounded x y w h (u.radius true n) (u.radius false n)
  | .elem .polyline => .outline (polyEvents false (pointsOf n))
  | .elem .polygon => .outline (polyEvents true (pointsOf n))
  | .elem .path =>
    match n.get .d with
    | some (.path p) => .outline (trace p)
    | _ => .outline []
  | _ => .other n

/-- The attributes that say what a shape looks like. -/
def geometryAttrs : List AId := [.d, .x1, .y1, .x2, .y2, .x, .y, .width, .height, .rx, .ry, .points]

/-- A shape as `fix_invalid_attributes` leaves it (C52): no negative sizes, no empty point lists. -/
def ShapeOk (n : Node) : Prop :=
  (n.kind = .elem .rect → NotNegative (n.get .width) ∧ NotNegative (n.get .height)) ∧
  (n.kind = .elem .polyline ∨ n.kind = .elem .polygon → n.get .points ≠ some (.numberList []))

/-- Whether markers are drawn on an element: SVG draws them on path, line, polyline and polygon only. -/
def takesMarkers : Dom.Kind → Bool
  | .elem .path | .elem .line | .elem .polyline | .elem .polygon => true
  | _ => false

/-- The marker drawn on each element: the inherited value of the property `a`. -/
def markers (a : AId) (v : Option Value) : Forest → List (Nat × Option Value)
  | .nil => []
  | .cons n k r =>
    (n.key, if takesMarkers n.kind then (n.get a).or v else none) :: (markers a ((n.get a).or v) k ++ markers a v r)

/-! ### Proof -/

theorem mapOpt_spec {g : Node → Option Node} {f f' : Forest} (h : f.mapOpt g = some f') :
    List.Forall₂ (fun n m => g n = some m) f.nodes f'.nodes := by
  induction f generalizing f' with
  | nil => simp [Forest.mapOpt] at h; rw [← h]; exact .nil
  | cons n k r ih1 ih2 =>
    simp only [Forest.mapOpt, Option.bind_eq_some_iff, Option.map_eq_some_iff] at h
    obtain ⟨n', hn, k', hk, r', hr, rfl⟩ := h
    simp only [Forest.nodes_cons]
    exact .cons hn (List.rel_append (ih1 hk) (ih2 hr))

theorem mapOpt_shape {g : Node → Option Node} (hg : ∀ n m, g n = some m → m.key = n.key) {f f' : Forest}
    (h : f.mapOpt g = some f') (o : Option Nat) : shape o f' = shape o f := by
  induction f generalizing f' o with
  | nil => simp [Forest.mapOpt] at h; rw [← h]
  | cons n k r ih1 ih2 =>
    simp only [Forest.mapOpt, Option.bind_eq_some_iff, Option.map_eq_some_iff] at h
    obtain ⟨n', hn, k', hk, r', hr, rfl⟩ := h
    simp [shape, ih1 hk, ih2 hr, hg _ _ hn]

theorem mapOpt_none {g : Node → Option Node} {f : Forest} : f.mapOpt g = none ↔ ∃ n ∈ f.nodes, g n = none := by
  induction f with
  | nil => simp [Forest.mapOpt]
  | cons n k r ih1 ih2 =>
    simp only [Forest.mapOpt, Forest.nodes_cons, List.mem_cons, List.mem_append, or_and_right, exists_or,
      exists_eq_left]
    rw [← ih1, ← ih2]
    cases g n <;> cases k.mapOpt g <;> cases r.mapOpt g <;> simp

theorem lenOf_length {n : Node} {a : AId} {l : Len} (h : n.get a = some (.length l)) : lenOf n a = l := by
  unfold lenOf; rw [h]

theorem lenOf_other {n : Node} {a : AId} (h : ∀ l, n.get a ≠ some (.length l)) : lenOf n a = ⟨0, .none⟩ := by
  unfold lenOf
  split
  · rename_i l hl; exact absurd hl (h l)
  · rfl

theorem coord_eq (u : Units) (b : Bool) (n : Node) (a : AId) :
    u.coord b n a = (lenOf n a).num * u.factor b (lenOf n a).unit := by
  unfold Units.coord
  split
  · rename_i l hl; rw [lenOf_length hl]
  · rename_i hl; rw [lenOf_other hl]; simp

theorem coord_lenOf (u : Units) (b : Bool) (n : Node) (a : AId) (h : (lenOf n a).unit = .none) :
    u.coord b n a = (lenOf n a).num := by
  rw [coord_eq, h, u.factor_none, mul_one]

theorem coord_zero (u : Units) (b : Bool) (n : Node) (a : AId) (h : (lenOf n a).num = 0) : u.coord b n a = 0 := by
  rw [coord_eq, h, zero_mul]

theorem run_lines (pen : Pen) (hc : pen.closed = false) (l : List Pt) :
    pen.run (l.map fun q => mkAbs (.lineTo q.1 q.2)) = lines pen.cur l ∧
    ∃ pen' : Pen, pen'.cur = ((pen.cur :: l).getLast (by simp)) ∧ pen'.start = pen.start ∧ pen'.closed = false ∧
      ∀ tail, pen.run ((l.map fun q => mkAbs (.lineTo q.1 q.2)) ++ tail) = lines pen.cur l ++ pen'.run tail := by
  induction l generalizing pen with
  | nil => exact ⟨rfl, pen, rfl, rfl, hc, fun tail => rfl⟩
  | cons q t ih =>
    obtain ⟨h1, pen', h2, h3, h4, h5⟩ := ih ⟨q, pen.start, .none, false⟩ rfl
    simp only at h1 h2 h3 h5
    refine ⟨?_, pen', ?_, h3, h4, ?_⟩
    · simp only [List.map_cons, Pen.run, Pen.events, Pen.after, Pen.curve, mkAbs, Pen.pt, hc, lines]
      simp only [mkAbs] at h1
      simp [h1, Curve.fin, SegData.kind]
    · rw [h2]; simp
    · intro tail
      simp only [List.map_cons, List.cons_append, Pen.run, Pen.events, Pen.after, Pen.curve, mkAbs, Pen.pt, hc, lines]
      have := h5 tail
      simp only [mkAbs] at this
      simp [this, Curve.fin, SegData.kind]

theorem pointSegs_false {v : List ℚ} {p : Path} (h : pointSegs false v = some p) :
    p = (pairs v).map fun q => mkAbs (.lineTo q.1 q.2) := by
  induction v using pairs.induct generalizing p with
  | case1 x y t ih =>
    simp only [pointSegs, Option.map_eq_some_iff] at h
    obtain ⟨p', hp, rfl⟩ := h
    simp [pairs, ih hp]
  | case2 v hv =>
    match v, hv, h with
    | [], _, h => simp [pointSegs] at h; simp [pairs, h]
    | [_], _, h => simp [pointSegs] at h
    | x :: y :: t, hv, _ => exact absurd rfl (hv x y t)

theorem pointSegs_none (b : Bool) (v : List ℚ) : pointSegs b v = none ↔ v.length % 2 = 1 := by
  induction v using pairs.induct generalizing b with
  | case1 x y t ih => simp [pointSegs, ih]; omega
  | case2 v hv =>
    match v, hv with
    | [], _ => simp [pointSegs]
    | [_], _ => simp [pointSegs]
    | x :: y :: t, hv => exact absurd rfl (hv x y t)

theorem pointSegs_true {v : List ℚ} {p : Path} (h : pointSegs true v = some p) :
    (v = [] ∧ p = []) ∨ ∃ q t, pairs v = q :: t ∧ p = mkAbs (.moveTo q.1 q.2) :: t.map fun q => mkAbs (.lineTo q.1 q.2) := by
  match v, h with
  | [], h => simp [pointSegs] at h; exact .inl ⟨rfl, h⟩
  | [_], h => simp [pointSegs] at h
  | x :: y :: t, h =>
    simp only [pointSegs, Option.map_eq_some_iff] at h
    obtain ⟨p', hp, rfl⟩ := h
    exact .inr ⟨(x, y), pairs t, rfl, by rw [pointSegs_false hp]; rfl⟩

theorem trace_poly (closed : Bool) (q : Pt) (t : List Pt) :
    trace ((mkAbs (.moveTo q.1 q.2) :: t.map fun q => mkAbs (.lineTo q.1 q.2)) ++ if closed then [mkAbs .close] else []) =
      polyEvents closed (q :: t) := by
  unfold trace
  obtain ⟨h1, pen', h2, h3, h4, h5⟩ := run_lines ⟨q, q, .none, false⟩ rfl t
  simp only at h1 h2 h3 h5
  have e : pen0.after (mkAbs (.moveTo q.1 q.2)) = ⟨q, q, .none, false⟩ := rfl
  simp only [List.cons_append, Pen.run, e, h5, polyEvents]
  cases closed with
  | false => simp [Pen.run, Pen.events, Pen.pt, mkAbs]
  | true => simp [Pen.run, Pen.events, Pen.pt, mkAbs, h2, h3, h4]

theorem get_retag (n : Node) (e : EId) (a : AId) : (n.retag e).get a = n.get a := rfl
theorem attrs_retag (n : Node) (e : EId) : (n.retag e).attrs = n.attrs := rfl

/-- What happens to one node. -/
structure Converted (u : Units) (n m : Node) : Prop where
  key : m.key = n.key
  id : m.id = n.id
  kind : m = n ∨ (m.kind = .elem .path ∧ n.kind ∈ [Dom.Kind.elem .line, .elem .rect, .elem .polyline, .elem .polygon])
  geometry : geometry u m = geometry u n
  other : ∀ b, (∀ a ∈ geometryAttrs, b ≠ .id a) → getAttr m.attrs b = getAttr n.attrs b

theorem Converted.refl (u : Units) (n : Node) : Converted u n n := ⟨rfl, rfl, .inl rfl, rfl, fun _ _ => rfl⟩

theorem converted_line (u : Units) (n : Node) (hk : n.kind = .elem .line) : Converted u n (convertLine n) := by
  unfold convertLine
  simp only
  split
  · rename_i h
    refine ⟨rfl, rfl, .inr ⟨rfl, by simp [hk]⟩, ?_, ?_⟩
    · have e1 : ∀ m : Node, m.kind = .elem .path → ∀ p, m.get .d = some (.path p) →
          Verif.ConvShapes.geometry u m = .outline (trace p) := by
        intro m hm p hp; unfold Verif.ConvShapes.geometry; simp [hm, hp]
      rw [e1 _ rfl [mkAbs (.moveTo (lenOf n .x1).num (lenOf n .y1).num), mkAbs (.lineTo (lenOf n .x2).num (lenOf n .y2).num)] (by simp [get_retag])]
      have := trace_poly false ((lenOf n .x1).num, (lenOf n .y1).num) [((lenOf n .x2).num, (lenOf n .y2).num)]
      simp at this
      rw [this]
      unfold Verif.ConvShapes.geometry
      simp only [hk]
      rw [coord_lenOf u _ n .x1 h.1, coord_lenOf u _ n .y1 h.2.1, coord_lenOf u _ n .x2 h.2.2.1, coord_lenOf u _ n .y2 h.2.2.2]
    · intro b hb
      simp only [getAttr_nodeRm, attrs_retag, getAttr_set]
      rw [if_neg (hb _ (by simp [geometryAttrs])), if_neg (hb _ (by simp [geometryAttrs])),
        if_neg (hb _ (by simp [geometryAttrs])), if_neg (hb _ (by simp [geometryAttrs])),
        if_neg (hb _ (by simp [geometryAttrs]))]
  · exact Converted.refl u n

theorem converted_rect (u : Units) (n : Node) (hk : n.kind = .elem .rect) (hok : ShapeOk n) :
    Converted u n (convertRect n) := by
  unfold convertRect
  simp only
  split
  · exact Converted.refl u n
  rename_i hr
  split
  · exact Converted.refl u n
  rename_i hwh
  split
  · rename_i h
    push Not at hr hwh
    refine ⟨rfl, rfl, .inr ⟨rfl, by simp [hk]⟩, ?_, ?_⟩
    · have e1 : ∀ m : Node, m.kind = .elem .path → ∀ p, m.get .d = some (.path p) →
          Verif.ConvShapes.geometry u m = .outline (trace p) := by
        intro m hm p hp; unfold Verif.ConvShapes.geometry; simp [hm, hp]
      rw [e1 _ rfl _ (by simp [get_retag]; rfl)]
      have hpos : ∀ a, NotNegative (n.get a) → (lenOf n a).num ≠ 0 → 0 < (lenOf n a).num := by
        intro a h1 h2
        by_cases hl : ∃ l, n.get a = some (.length l)
        · obtain ⟨l, hl⟩ := hl
          have := h1 l hl
          rw [lenOf_length hl] at h2 ⊢
          exact lt_of_le_of_ne this (Ne.symm h2)
        · push Not at hl
          rw [lenOf_other hl] at h2
          exact absurd rfl h2
      have hw := hpos .width (hok.1 hk).1 hwh.1
      have hh := hpos .height (hok.1 hk).2 hwh.2
      have hr1 : u.radius true n = 0 := by
        unfold Units.radius
        simp only [if_true]
        split
        · exact coord_zero u _ n _ hr.1
        · exact coord_zero u _ n _ hr.2
      unfold Verif.ConvShapes.geometry
      simp only [hk]
      rw [coord_lenOf u _ n .x h.1, coord_lenOf u _ n .y h.2.1, coord_lenOf u _ n .width h.2.2.1, coord_lenOf u _ n .height h.2.2.2]
      rw [if_neg (by push Not; exact ⟨hw, hh⟩), if_pos (.inl hr1)]
      simp [trace, Pen.run, Pen.events, Pen.after, Pen.curve, mkAbs, Pen.pt, pen0, Curve.fin, SegData.kind, polyEvents, lines]
    · intro b hb
      simp only [getAttr_nodeRm, attrs_retag, getAttr_set]
      rw [if_neg (hb _ (by simp [geometryAttrs])), if_neg (hb _ (by simp [geometryAttrs])),
        if_neg (hb _ (by simp [geometryAttrs])), if_neg (hb _ (by simp [geometryAttrs])),
        if_neg (hb _ (by simp [geometryAttrs])), if_neg (hb _ (by simp [geometryAttrs])),
        if_neg (hb _ (by simp [geometryAttrs]))]
  · exact Converted.refl u n

theorem converted_poly (u : Units) (c : Bool) {n m : Node} (hk : n.kind = .elem (if c then .polygon else .polyline))
    (hok : ShapeOk n) (h : convertPoly c n = some m) : Converted u n m := by
  unfold convertPoly at h
  split at h
  · rename_i v hv
    rw [Option.map_eq_some_iff] at h
    obtain ⟨p, hp, rfl⟩ := h
    refine ⟨rfl, rfl, .inr ⟨rfl, by rw [hk]; cases c <;> simp⟩, ?_, ?_⟩
    · rcases pointSegs_true hp with ⟨rfl, _⟩ | ⟨q, t, hq, rfl⟩
      · exact absurd hv (hok.2 (by rw [hk]; cases c <;> simp))
      · have hpts : pointsOf n = q :: t := by unfold pointsOf; rw [hv]; exact hq
        have e2 : Verif.ConvShapes.geometry u n = .outline (polyEvents c (q :: t)) := by
          unfold Verif.ConvShapes.geometry; rw [hk]; cases c <;> simp [hpts]
        rw [e2, ← trace_poly]
        unfold Verif.ConvShapes.geometry
        simp only [Node.kind_rm, Node.kind_set, Node.retag]
        simp only [Node.get_rm, Node.get_set]
        cases c <;> simp
    · intro b hb
      simp only [getAttr_nodeRm, getAttr_set, attrs_retag]
      rw [if_neg (hb _ (by simp [geometryAttrs])), if_neg (hb _ (by simp [geometryAttrs]))]
  · simp at h; subst h; exact Converted.refl u n

theorem converted_node (u : Units) {n m : Node} (hok : ShapeOk n) (h : convertNode n = some m) : Converted u n m := by
  unfold convertNode at h
  split at h
  · simp at h; subst h; exact converted_line u n ‹_›
  · simp at h; subst h; exact converted_rect u n ‹_› hok
  · exact converted_poly u false ‹_› hok h
  · exact converted_poly u true ‹_› hok h
  · simp at h; subst h; exact Converted.refl u n

theorem forall2_imp_mem {α β : Type} {R S : α → β → Prop} {a : List α} {b : List β} (h : List.Forall₂ R a b)
    (hi : ∀ x ∈ a, ∀ y, R x y → S x y) : List.Forall₂ S a b := by
  induction h with
  | nil => exact .nil
  | cons hr _ ih => exact .cons (hi _ (by simp) _ hr) (ih fun x hx => hi x (by simp [hx]))

/-- **C21, outlines.** For every document with fixed shapes and every way to resolve units, every element draws the same
outline in the same order after the conversion; only geometry attributes of the converted elements change. -/
theorem C21_same_outline {f g : Forest} (u : Units) (hok : ∀ n ∈ f.nodes, ShapeOk n) (h : convertShapes f = some g) :
    shape none g = shape none f ∧ List.Forall₂ (Converted u) f.nodes g.nodes := by
  refine ⟨?_, forall2_imp_mem (mapOpt_spec h) fun n hn m hm => converted_node u (hok n hn) hm⟩
  clear hok
  refine mapOpt_shape ?_ h none
  intro n m hm
  unfold convertNode at hm
  split at hm
  · simp at hm; subst hm; exact (converted_line u n ‹_›).key
  · simp at hm; subst hm; unfold convertRect; simp only; split_ifs <;> rfl
  all_goals try (simp at hm; subst hm; rfl)
  all_goals
    unfold convertPoly at hm
    split at hm
    · rw [Option.map_eq_some_iff] at hm
      obtain ⟨p, _, rfl⟩ := hm
      rfl
    · simp at hm; subst hm; rfl

/-- **C21, crash freedom.** The conversion crashes exactly on a polyline or polygon with an odd number of coordinates,
which `fix_invalid_attributes` has removed (C52). -/
theorem C21_crashes_iff (f : Forest) : convertShapes f = none ↔
    ∃ n ∈ f.nodes, (n.kind = .elem .polyline ∨ n.kind = .elem .polygon) ∧
      ∃ v, n.get .points = some (.numberList v) ∧ v.length % 2 = 1 := by
  unfold convertShapes
  rw [mapOpt_none]
  apply exists_congr; intro n
  apply and_congr_right; intro _
  have hp : ∀ c, convertPoly c n = none ↔ ∃ v, n.get .points = some (.numberList v) ∧ v.length % 2 = 1 := by
    intro c
    unfold convertPoly
    split
    · rename_i v hv
      rw [Option.map_eq_none_iff, pointSegs_none, hv]
      simp
    · rename_i hv
      simp only [reduceCtorEq, false_iff]
      rintro ⟨v, h, _⟩
      exact hv v h
  unfold convertNode
  split <;> simp_all

/-! ### Markers -/

/-- The full claim: the same outlines and no new markers. -/
def C21_full : Prop := ∀ f g u, (∀ n ∈ f.nodes, ShapeOk n) → convertShapes f = some g →
  List.Forall₂ (Converted u) f.nodes g.nodes ∧
  ∀ a ∈ [AId.markerStart, .markerMid, .markerEnd], markers a none g = markers a none f

/-- `<g marker-end="url(#m)"><rect width="1" height="1"/></g>` -/
def markedRect : Forest :=
  .cons ⟨1, .elem .marker, "m", []⟩ .nil
  (.cons ⟨2, .elem .g, "", [⟨.id .markerEnd, .funcLink 1, true⟩]⟩
    (.cons ⟨3, .elem .rect, "", [⟨.id .width, .length ⟨1, .none⟩, true⟩, ⟨.id .height, .length ⟨1, .none⟩, true⟩]⟩ .nil .nil)
    .nil)

/-- **C21, finding.** A rectangle ignores the markers it inherits; the path it is turned into draws them. -/
theorem C21_refuted_markers : ¬ C21_full := by
  intro h
  have := (h markedRect ((convertShapes markedRect).getD .nil) ⟨fun _ _ => 1, fun _ => rfl⟩ ?_ ?_).2 .markerEnd (by simp)
  · revert this; decide +kernel
  · intro n hn
    simp [markedRect] at hn
    rcases hn with rfl | rfl | rfl <;>
      simp [ShapeOk, NotNegative, Node.get, getAttr] <;> (try (constructor <;> rintro l rfl <;> norm_num))
  · decide +kernel

/-- No rectangle inherits a marker. -/
def NoMarkedRect (a : AId) (v : Option Value) : Forest → Prop
  | .nil => True
  | .cons n k r => (n.kind = .elem .rect → (n.get a).or v = none) ∧ NoMarkedRect a ((n.get a).or v) k ∧ NoMarkedRect a v r

theorem markers_eq {a : AId} (ha : a ∉ geometryAttrs) (u : Units) {f g : Forest} (hok : ∀ n ∈ f.nodes, ShapeOk n)
    (h : convertShapes f = some g) (v : Option Value) (hm : NoMarkedRect a v f) : markers a v g = markers a v f := by
  unfold convertShapes at h
  induction f generalizing g v with
  | nil => simp [Forest.mapOpt] at h; rw [← h]
  | cons n k r ih1 ih2 =>
    simp only [Forest.mapOpt, Option.bind_eq_some_iff, Option.map_eq_some_iff] at h
    obtain ⟨n', hn, k', hk, r', hr, rfl⟩ := h
    obtain ⟨m1, m2, m3⟩ := hm
    have hc := converted_node u (hok n (by simp)) hn
    have hga : n'.get a = n.get a := by
      unfold Node.get
      rw [hc.other (.id a) (by intro b hb; rintro ⟨rfl⟩; exact ha hb)]
    simp only [markers, hga]
    rw [ih1 (fun m hm => hok m (by simp [hm])) hk _ m2, ih2 (fun m hm => hok m (by simp [hm])) hr _ m3, hc.key]
    congr 2
    rcases hc.kind with rfl | ⟨h1, h2⟩
    · rfl
    · rw [h1]
      simp at h2
      rcases h2 with h2 | h2 | h2 | h2
      · rw [h2]; rfl
      · rw [h2, m1 h2]; simp [takesMarkers]
      · rw [h2]; rfl
      · rw [h2]; rfl

/-- **C21 (partial).** If no rectangle inherits a marker, nothing changes: neither outlines nor markers.  Missing:
rectangles that inherit a marker, for which the claim is false. -/
theorem C21_same_drawing_partial {f g : Forest} (u : Units) (hok : ∀ n ∈ f.nodes, ShapeOk n)
    (hm : ∀ a ∈ [AId.markerStart, .markerMid, .markerEnd], NoMarkedRect a none f) (h : convertShapes f = some g) :
    List.Forall₂ (Converted u) f.nodes g.nodes ∧
    ∀ a ∈ [AId.markerStart, .markerMid, .markerEnd], markers a none g = markers a none f := by
  refine ⟨(C21_same_outline u hok h).2, ?_⟩
  intro a ha
  refine markers_eq ?_ u hok h none (hm a ha)
  simp at ha
  rcases ha with rfl | rfl | rfl <;> decide

/-- A rect, a line, a polyline and a polygon: the hypotheses are met and all four become paths. -/
def fourShapes : Forest :=
  .cons ⟨1, .elem .rect, "", [⟨.id .width, .length ⟨1, .none⟩, true⟩, ⟨.id .height, .length ⟨2, .none⟩, true⟩]⟩ .nil
  (.cons ⟨2, .elem .line, "", [⟨.id .x2, .length ⟨5, .none⟩, true⟩]⟩ .nil
  (.cons ⟨3, .elem .polyline, "", [⟨.id .points, .numberList [1, 2, 3, 4], true⟩]⟩ .nil
  (.cons ⟨4, .elem .polygon, "", [⟨.id .points, .numberList [1, 2, 3, 4, 5, 7], true⟩]⟩ .nil .nil)))

example : (∀ n ∈ fourShapes.nodes, ShapeOk n) ∧ (∀ a ∈ [AId.markerStart, .markerMid, .markerEnd], NoMarkedRect a none fourShapes) ∧
    ((convertShapes fourShapes).map fun g => g.nodes.map fun n => n.isTag .path) = some [true, true, true, true] := by
  refine ⟨?_, ?_, by decide +kernel⟩
  · intro n hn
    simp [fourShapes] at hn
    rcases hn with rfl | rfl | rfl | rfl <;>
      simp [ShapeOk, NotNegative, Node.get, getAttr] <;> (try (constructor <;> rintro l rfl <;> norm_num))
  · intro a ha
    simp at ha
    rcases ha with rfl | rfl | rfl <;> simp [fourShapes, NoMarkedRect, Node.get, getAttr]

end Verif.ConvShapes
