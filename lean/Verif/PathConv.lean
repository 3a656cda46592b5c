import Verif.PathLemmas
import Mathlib.Tactic.FieldSimp
import Mathlib.Tactic.Ring
import Mathlib.Tactic.LinearCombination
/-
`convert_segments`: curves drawn alike.
-/
namespace Verif.Paths

/-- Two events are alike: the same, or drawings of curves that are drawn alike. -/
inductive EventAlike : Event → Event → Prop
  | start (p : Pt) : EventAlike (.start p) (.start p)
  | draw {k k' : Kind} {c c' : Curve} (h : DrawnAlike c c') : EventAlike (.draw k c) (.draw k' c')
  | close (p q : Pt) : EventAlike (.close p q) (.close p q)

/-- Two traces are alike, event by event. -/
def TraceAlike : List Event → List Event → Prop := List.Forall₂ EventAlike

theorem EventAlike.refl (e : Event) : EventAlike e e := by
  cases e
  · exact .start _
  · exact .draw (.inl rfl)
  · exact .close _ _

theorem TraceAlike.refl (l : List Event) : TraceAlike l l := List.forall₂_same.2 fun e _ => EventAlike.refl e

/-- How `convert_segments` changes an event. -/
inductive EventConv : Event → Event → Prop
  | same (e : Event) : EventConv e e
  | smooth (c : Curve) : EventConv (.draw .cubic c) (.draw .smoothCubic c)
  | line {p c1 c2 q : Pt} (hc : Collinear p c1 c2 q) (h : DrawnAlike (.cubic p c1 c2 q) (.line p q)) :
      EventConv (.draw .cubic (.cubic p c1 c2 q)) (.draw .line (.line p q))

def TraceConv : List Event → List Event → Prop := List.Forall₂ EventConv

theorem TraceConv.refl (l : List Event) : TraceConv l l := List.forall₂_same.2 fun e _ => .same e

theorem TraceConv.alike {l l' : List Event} (h : TraceConv l l') : TraceAlike l l' :=
  h.imp fun _ _ h => by
    cases h with
    | same => exact EventAlike.refl _
    | smooth c => exact .draw (.inl rfl)
    | line _ h => exact .draw h

def SegData.isSmooth : SegData → Bool | .smooth .. => true | _ => false

/-- What is asked of the input of `convert_segments`: whenever the four points of a cubic written with C/c are on one
line, then the control points are between the end points, and the next command is not S/s, or the cubic goes plainly
beyond its end points. -/
def ControlsInside (pen : Pen) : Path → Prop
  | [] => True
  | s :: t =>
    (∀ x1 y1 x2 y2 x y, s.data = .curveTo x1 y1 x2 y2 x y →
      Collinear pen.cur (pen.pt s.abs x1 y1) (pen.pt s.abs x2 y2) (pen.pt s.abs x y) →
      (OnSegment pen.cur (pen.pt s.abs x y) (pen.pt s.abs x1 y1) ∧
      OnSegment pen.cur (pen.pt s.abs x y) (pen.pt s.abs x2 y2) ∧
      ∀ u v, t = u :: v → u.data.isSmooth = false) ∨
      Stray pen.cur (pen.pt s.abs x1 y1) (pen.pt s.abs x2 y2) (pen.pt s.abs x y)) ∧
    ControlsInside (pen.after s) t

/-! ### A straight cubic is drawn like a line -/

/-- The reparametrisation. -/
noncomputable def beta (b1 b2 t : ℝ) : ℝ := 3 * (1 - t) ^ 2 * t * b1 + 3 * (1 - t) * t ^ 2 * b2 + t ^ 3

theorem beta_mono {b1 b2 : ℝ} (h1 : 0 ≤ b1) (h1' : b1 ≤ 1) (h2 : 0 ≤ b2) (h2' : b2 ≤ 1) :
    MonotoneOn (beta b1 b2) (Set.Icc 0 1) := by
  intro t ht s hs hts
  obtain ⟨t0, t1⟩ := ht
  obtain ⟨s0, s1⟩ := hs
  have hd : 0 ≤ s - t := sub_nonneg.2 hts
  -- the four corners
  have c00 : 0 ≤ s ^ 3 - t ^ 3 := by
    have : s ^ 3 - t ^ 3 = (s - t) * (s ^ 2 + s * t + t ^ 2) := by ring
    rw [this]; positivity
  have c10 : 0 ≤ (3 * (1 - s) ^ 2 * s + s ^ 3) - (3 * (1 - t) ^ 2 * t + t ^ 3) := by
    have : (3 * (1 - s) ^ 2 * s + s ^ 3) - (3 * (1 - t) ^ 2 * t + t ^ 3) =
        (s - t) * ((2 * s - 1) ^ 2 + (2 * s - 1) * (2 * t - 1) + (2 * t - 1) ^ 2) := by ring
    rw [this]
    apply mul_nonneg hd
    nlinarith [sq_nonneg ((2 * s - 1) + (2 * t - 1)), sq_nonneg (2 * s - 1), sq_nonneg (2 * t - 1)]
  have c01 : 0 ≤ (3 * (1 - s) * s ^ 2 + s ^ 3) - (3 * (1 - t) * t ^ 2 + t ^ 3) := by
    have : (3 * (1 - s) * s ^ 2 + s ^ 3) - (3 * (1 - t) * t ^ 2 + t ^ 3) =
        (s - t) * (s * (3 - 2 * s) + t * (3 - 2 * t) - 2 * s * t) := by ring
    rw [this]
    apply mul_nonneg hd
    nlinarith [mul_nonneg s0 (sub_nonneg.2 s1), mul_nonneg t0 (sub_nonneg.2 t1), mul_nonneg s0 (sub_nonneg.2 t1),
      mul_nonneg t0 (sub_nonneg.2 s1)]
  have c11 : 0 ≤ (1 - (1 - s) ^ 3) - (1 - (1 - t) ^ 3) := by
    have : (1 - (1 - s) ^ 3) - (1 - (1 - t) ^ 3) =
        (s - t) * ((1 - s) ^ 2 + (1 - s) * (1 - t) + (1 - t) ^ 2) := by ring
    rw [this]
    have := sub_nonneg.2 s1
    have := sub_nonneg.2 t1
    positivity
  have e : beta b1 b2 s - beta b1 b2 t =
      (1 - b1) * (1 - b2) * (s ^ 3 - t ^ 3)
      + b1 * (1 - b2) * ((3 * (1 - s) ^ 2 * s + s ^ 3) - (3 * (1 - t) ^ 2 * t + t ^ 3))
      + (1 - b1) * b2 * ((3 * (1 - s) * s ^ 2 + s ^ 3) - (3 * (1 - t) * t ^ 2 + t ^ 3))
      + b1 * b2 * ((1 - (1 - s) ^ 3) - (1 - (1 - t) ^ 3)) := by
    unfold beta; ring
  have g1 := sub_nonneg.2 h1'
  have g2 := sub_nonneg.2 h2'
  have : 0 ≤ beta b1 b2 s - beta b1 b2 t := by rw [e]; positivity
  linarith

theorem straight_alike {p c1 c2 q : Pt} (h1 : OnSegment p q c1) (h2 : OnSegment p q c2) :
    DrawnAlike (.cubic p c1 c2 q) (.line p q) := by
  obtain ⟨b1, l1, u1, rfl⟩ := h1
  obtain ⟨b2, l2, u2, rfl⟩ := h2
  right
  refine ⟨beta b1 b2, ?_, beta_mono (by exact_mod_cast l1) (by exact_mod_cast u1) (by exact_mod_cast l2)
    (by exact_mod_cast u2), by simp [beta], by simp [beta], ?_⟩
  · unfold beta; fun_prop
  · intro t _
    refine ⟨by simp [Curve.at?], ?_⟩
    simp only [Curve.at?, Pt.real, Option.some.injEq, Prod.ext_iff, Prod.fst_add, Prod.smul_fst, Prod.snd_add,
      Prod.smul_snd, smul_eq_mul, beta]
    push_cast
    constructor <;> ring

theorem isPointOnLine_collinear {x1 y1 x2 y2 x y : ℚ} (h : isPointOnLine x1 y1 x2 y2 x y = true) :
    (x - x1) * (y2 - y1) = (y - y1) * (x2 - x1) := by
  unfold isPointOnLine at h
  split at h
  · cases h
  · rename_i hx
    simp only at h
    split at h
    · cases h
    · rename_i hy
      have hx' : x2 - x1 ≠ 0 := fun e => hx (by linarith)
      have hy' : y - ((y2 - y1) / (x2 - x1) * x + (y1 - (y2 - y1) / (x2 - x1) * x1)) = 0 := by simpa using hy
      field_simp at hy'
      linarith

theorem convertOne_cases {prev c c' : Seg} {px py : ℚ} (h : convertOne prev px py c = some c') :
    ∃ x1 y1 x2 y2 x y, c.data = .curveTo x1 y1 x2 y2 x y ∧
      ((c' = mkAbs (.lineTo x y) ∧ Collinear (px, py) (x1, y1) (x2, y2) (x, y)) ∨
       (c' = mkAbs (.smooth x2 y2 x y) ∧ (x1, y1) = reflected prev px py)) := by
  unfold convertOne at h
  cases hc : c.data <;> simp only [hc] at h <;> try cases h
  rename_i x1 y1 x2 y2 x y
  refine ⟨x1, y1, x2, y2, x, y, rfl, ?_⟩
  split at h
  · rename_i hv
    simp only [isVLine, Bool.and_eq_true, decide_eq_true_eq] at hv
    obtain ⟨⟨⟨⟨a, b⟩, c⟩, _⟩, _⟩ := hv
    cases h
    left
    refine ⟨by rw [a], ?_⟩
    constructor <;> simp only <;> rw [a] <;> [rw [c]; rw [← b, c]] <;> ring
  split at h
  · rename_i hv
    simp only [isHLine, Bool.and_eq_true, decide_eq_true_eq] at hv
    obtain ⟨⟨⟨⟨a, b⟩, c⟩, _⟩, _⟩ := hv
    cases h
    left
    refine ⟨by rw [a], ?_⟩
    constructor <;> simp only <;> rw [a] <;> [rw [c]; rw [← b, c]] <;> ring
  split at h
  · rename_i hl
    simp only [isLine, Bool.and_eq_true] at hl
    cases h
    left
    exact ⟨rfl, isPointOnLine_collinear hl.1, isPointOnLine_collinear hl.2⟩
  split at h
  · rename_i hr
    cases h
    exact .inr ⟨rfl, Prod.ext hr.1 hr.2⟩
  · cases h

theorem isPointOnLine_beyond {p q c : Pt} (hb : Beyond p q c) : isPointOnLine p.1 p.2 q.1 q.2 c.1 c.2 = false := by
  obtain ⟨b, hb, rfl⟩ := hb
  by_contra h
  simp only [Bool.not_eq_false] at h
  unfold isPointOnLine at h
  simp only at h
  split at h
  · cases h
  split at h
  · cases h
  split at h
  · simp only [Bool.or_eq_true, Bool.and_eq_true, decide_eq_true_eq] at h
    rcases h with ⟨h1, h2⟩ | ⟨h1, h2⟩ <;> nlinarith
  · cases h

/-- A cubic that goes plainly beyond its end points does not become a line. -/
theorem convertOne_stray {prev c' : Seg} {px py x1 y1 x2 y2 x y : ℚ} {a : Bool}
    (h : convertOne prev px py ⟨a, .curveTo x1 y1 x2 y2 x y⟩ = some c') (hs : Stray (px, py) (x1, y1) (x2, y2) (x, y)) :
    c' = mkAbs (.smooth x2 y2 x y) := by
  have hv : isVLine px py x1 y1 x2 y2 x y = false := by
    by_contra hv
    simp only [Bool.not_eq_false, isVLine, Bool.and_eq_true, decide_eq_true_eq] at hv
    obtain ⟨⟨⟨⟨e1, _⟩, _⟩, g1⟩, g2⟩ := hv
    rcases hs with ⟨n1, _⟩ | ⟨d, b, hb, e⟩ | ⟨_, d, b, hb, e⟩
    · exact n1 e1
    · have d : py < y := by
        rcases d with ⟨d, _⟩ | ⟨_, d⟩
        · exact absurd e1 (ne_of_lt d)
        · exact d
      have := congrArg Prod.snd e
      simp only at this
      nlinarith
    · have := congrArg Prod.snd e
      simp only at this d
      nlinarith
  have hh : isHLine px py x1 y1 x2 y2 x y = false := by
    by_contra hv
    simp only [Bool.not_eq_false, isHLine, Bool.and_eq_true, decide_eq_true_eq] at hv
    obtain ⟨⟨⟨⟨e1, _⟩, _⟩, g1⟩, g2⟩ := hv
    rcases hs with ⟨_, n1, _⟩ | ⟨d, b, hb, e⟩ | ⟨_, d, _⟩
    · exact n1 e1
    · have d : px < x := by
        rcases d with ⟨d, _⟩ | ⟨_, d⟩
        · exact d
        · exact absurd e1 (ne_of_lt d)
      have := congrArg Prod.fst e
      simp only at this
      nlinarith
    · exact absurd e1 (ne_of_lt d)
  have hl : isLine px py x1 y1 x2 y2 x y = false := by
    unfold isLine
    rcases hs with ⟨_, _, hc | hc⟩ | ⟨d, hc⟩ | ⟨d, _⟩
    · rw [isPointOnLine_beyond hc, Bool.false_and]
    · rw [isPointOnLine_beyond hc, Bool.and_false]
    · rw [isPointOnLine_beyond hc, Bool.and_false]
    · have : isPointOnLine px py x y x1 y1 = false := by unfold isPointOnLine; rw [if_pos d]
      rw [this, Bool.false_and]
  unfold convertOne at h
  simp only [hv, hh, hl, Bool.false_eq_true, if_false] at h
  split at h
  · exact (Option.some.inj h).symm
  · cases h

theorem resolveXY_some {rev : List Seg} (hn : NoHV rev) (h : ∃ s ∈ rev, s.data.isClose = false) :
    ∃ xy, resolveXY rev = some xy := by
  induction rev with
  | nil => simp at h
  | cons s t ih =>
    unfold resolveXY
    split
    · rename_i hc
      refine ih hn.tail ?_
      obtain ⟨u, hu, hu'⟩ := h
      rcases List.mem_cons.1 hu with rfl | hu
      · simp [hc] at hu'
      · exact ⟨u, hu, hu'⟩
    · rename_i hc
      obtain ⟨x, y, hx, hy⟩ := hn.head.resolve_left hc
      exact ⟨(x, y), by simp [hx, hy]⟩

theorem resolveXY_cur {prev : Seg} {rev : List Seg} (ha : prev.abs = true) (hn : NoHV (prev :: rev))
    (hc : prev.data.isClose = false) (pen : Pen) : resolveXY (prev :: rev) = some (pen.after prev).cur := by
  obtain ⟨x, y, hx, hy⟩ := hn.head.resolve_left (by simp [hc])
  simp only [resolveXY, hc, hx, hy, Bool.false_eq_true, if_false, Option.some.injEq]
  exact (Prod.ext (after_cur_x ha hx) (after_cur_y ha hy)).symm

/-- A non-close segment exists in the part of a normal path seen so far. -/
theorem exists_nonclose {rev : List Seg} (h : AbsMove rev.reverse) : ∃ s ∈ rev, s.data.isClose = false := by
  obtain ⟨x, y, t, e⟩ := h
  refine ⟨⟨true, .moveTo x y⟩, ?_, rfl⟩
  rw [← List.mem_reverse, e]
  simp

theorem absMove_append {a b : Path} (h : AbsMove a) : AbsMove (a ++ b) := by
  obtain ⟨x, y, t, rfl⟩ := h
  exact ⟨x, y, t ++ b, rfl⟩

/-- The pens before and after conversion agree, except that a straight cubic that became a line no longer leaves a
control point. -/
def PenConv (pen pen' : Pen) (rest : Path) : Prop :=
  pen.cur = pen'.cur ∧ pen.start = pen'.start ∧ pen.closed = pen'.closed ∧
    (pen.ctrl = pen'.ctrl ∨ ((∃ c, pen.ctrl = .cubic c) ∧ pen'.ctrl = .none ∧
      ∀ u v, rest = u :: v → u.data.isSmooth = false))

theorem penConv_step {pen pen' : Pen} {s : Seg} {t : Path} (h : PenConv pen pen' (s :: t)) :
    pen.events s = pen'.events s ∧ PenConv (pen.after s) (pen'.after s) t := by
  obtain ⟨h1, h2, h3, h4⟩ := h
  obtain ⟨cur, st, k, cl⟩ := pen
  obtain ⟨cur', st', k', cl'⟩ := pen'
  simp only at h1 h2 h3 h4
  subst h1 h2 h3
  rcases h4 with rfl | ⟨⟨c, rfl⟩, rfl, hs⟩
  · exact ⟨rfl, rfl, rfl, rfl, .inl rfl⟩
  · have hs := hs _ _ rfl
    obtain ⟨b, d⟩ := s
    cases d <;> simp [SegData.isSmooth] at hs <;>
      simp [Pen.events, SegData.kind, Pen.after, Pen.curve, Pen.pt, PenConv, Pen.quadCtrl, Curve.fin]

theorem reflected_ctrl (pen : Pen) {prev : Seg} (ha : prev.abs = true) (hc : prev.data.isClose = false)
    (hn : (prev.data.isClose = true) ∨ (∃ x y, prev.data.x? = some x ∧ prev.data.y? = some y)) :
    reflected prev (pen.after prev).cur.1 (pen.after prev).cur.2 = (pen.after prev).cubicCtrl := by
  obtain ⟨b, d⟩ := prev
  simp only at ha; subst ha
  cases d <;> simp [SegData.isClose, SegData.x?, SegData.y?] at hc hn <;>
    simp [reflected, Pen.cubicCtrl, Pen.after, Pen.curve, Pen.pt, Curve.fin, reflect, mul_comm]

/-- The invariants of a normal path that conversion keeps. -/
structure NormHV (p : Path) : Prop extends Norm p where
  noHV : NoHV p

theorem convertLoop_cons {prev c : Seg} {rev : List Seg} {t : Path} {ch : Bool} {px py : ℚ}
    (h : resolveXY (prev :: rev) = some (px, py)) :
    convertLoop (prev :: rev) (c :: t) ch =
      match convertOne prev px py c with
      | some c' => convertLoop (c' :: prev :: rev) t true
      | none => convertLoop (c :: prev :: rev) t ch := by
  rw [convertLoop.eq_def]
  simp only [h]
  rfl

theorem convertLoop_total : ∀ (rest : Path) (prev : Seg) (rev : List Seg) (ch : Bool),
    NormHV ((prev :: rev).reverse ++ rest) → AbsMove (prev :: rev).reverse →
    ∃ t ch', convertLoop (prev :: rev) rest ch = some ((prev :: rev).reverse ++ t, ch') ∧
      NormHV ((prev :: rev).reverse ++ t) ∧ t.length = rest.length ∧
      ∀ ch2, convertLoop (prev :: rev) t ch2 = some ((prev :: rev).reverse ++ t, ch2) := by
  intro rest
  induction rest with
  | nil =>
    intro prev rev ch hn _
    exact ⟨[], ch, by simp [convertLoop], hn, rfl, fun ch2 => by simp [convertLoop]⟩
  | cons c t ih =>
    intro prev rev ch hn hm
    have hnr : NoHV (prev :: rev) := by
      intro s hs
      exact hn.noHV s (by simp only [List.mem_append, List.mem_reverse]; exact .inl hs)
    obtain ⟨⟨px, py⟩, hxy⟩ := resolveXY_some hnr (exists_nonclose hm)
    have e : ∀ (c : Seg) z, (c :: prev :: rev).reverse ++ z = (prev :: rev).reverse ++ c :: z := by intro c z; simp
    cases hc : convertOne prev px py c with
    | none =>
      obtain ⟨u, ch', g1, g2, g3, g4⟩ := ih c (prev :: rev) ch (by rw [e]; exact hn)
        (by rw [List.reverse_cons]; exact absMove_append hm)
      refine ⟨c :: u, ch', ?_, by rw [← e]; exact g2, by simp [g3], fun ch2 => ?_⟩
      · rw [convertLoop_cons hxy]; simp only [hc]; rw [g1, e]
      · rw [convertLoop_cons hxy]; simp only [hc]; rw [g4, e]
    | some c' =>
      obtain ⟨x1, y1, x2, y2, x, y, hd, hcase⟩ := convertOne_cases hc
      have hc'n : convertOne prev px py c' = none := by rcases hcase with ⟨rfl, _⟩ | ⟨rfl, _⟩ <;> rfl
      have hc'z : c'.data.isClose = false ∧ c'.data.isMove = false ∧ c'.abs = true ∧
          (∃ x y, c'.data.x? = some x ∧ c'.data.y? = some y) := by
        rcases hcase with ⟨rfl, _⟩ | ⟨rfl, _⟩ <;> simp [mkAbs, SegData.isClose, SegData.isMove, SegData.x?, SegData.y?]
      have hn' : NormHV ((prev :: rev).reverse ++ c' :: t) := by
        refine ⟨⟨?_, ?_, ?_⟩, ?_⟩
        · intro s hs
          rw [List.mem_append, List.mem_cons] at hs
          rcases hs with hs | rfl | hs
          · exact hn.abs s (by rw [List.mem_append]; exact .inl hs)
          · exact hc'z.2.2.1
          · exact hn.abs s (by rw [List.mem_append, List.mem_cons]; exact .inr (.inr hs))
        · exact absMove_append hm
        · exact afterZ_replace (by rw [hd, hc'z.1]; rfl) (by rw [hd, hc'z.2.1]; rfl) hn.afterZ
        · intro s hs
          rw [List.mem_append, List.mem_cons] at hs
          rcases hs with hs | rfl | hs
          · exact hn.noHV s (by rw [List.mem_append]; exact .inl hs)
          · exact .inr hc'z.2.2.2
          · exact hn.noHV s (by rw [List.mem_append, List.mem_cons]; exact .inr (.inr hs))
      obtain ⟨u, ch', g1, g2, g3, g4⟩ := ih c' (prev :: rev) true (by rw [e]; exact hn')
        (by rw [List.reverse_cons]; exact absMove_append hm)
      refine ⟨c' :: u, ch', ?_, by rw [← e]; exact g2, by simp [g3], fun ch2 => ?_⟩
      · rw [convertLoop_cons hxy]; simp only [hc]; rw [g1, e]
      · rw [convertLoop_cons hxy]; simp only [hc'n]; rw [g4, e]

theorem convertSegments_total {p : Path} (h : NormHV p) :
    ∃ q ch, convertPass p = some (q, ch) ∧ convertSegments p = some q ∧ NormHV q ∧ q.length = p.length := by
  obtain ⟨x, y, t, rfl⟩ := h.move
  obtain ⟨u, ch', g1, g2, g3, g4⟩ := convertLoop_total t ⟨true, .moveTo x y⟩ [] false (by simpa using h)
    ⟨x, y, [], rfl⟩
  have hp : convertPass (⟨true, .moveTo x y⟩ :: t) = some (⟨true, .moveTo x y⟩ :: u, ch') := by
    simpa [convertPass] using g1
  have hp2 : convertPass (⟨true, .moveTo x y⟩ :: u) = some (⟨true, .moveTo x y⟩ :: u, false) := by
    simpa [convertPass] using g4 false
  have h2 : convertSegments (⟨true, .moveTo x y⟩ :: u) = some (⟨true, .moveTo x y⟩ :: u) := by
    rw [convertSegments]; split
    · rename_i e; rw [hp2] at e; cases e
    · rename_i e; rw [hp2] at e; cases e; rfl
    · rename_i e; rw [hp2] at e; cases e
  refine ⟨_, ch', hp, ?_, by simpa using g2, by simp [g3]⟩
  rw [convertSegments]; split
  · rename_i e; rw [hp] at e; cases e
  · rename_i e; rw [hp] at e; cases e; rfl
  · rename_i e; rw [hp] at e; cases e; exact h2

theorem convertLoop_conv : ∀ (rest : Path) (prev : Seg) (rev : List Seg) (ch : Bool) (pen : Pen) (q : Path) (ch' : Bool),
    NormHV ((prev :: rev).reverse ++ rest) → AbsMove (prev :: rev).reverse →
    PenConv pen (pen0.afterAll (prev :: rev).reverse) rest → ControlsInside pen rest →
    convertLoop (prev :: rev) rest ch = some (q, ch') →
    ∃ t, q = (prev :: rev).reverse ++ t ∧ TraceConv (pen.run rest) ((pen0.afterAll (prev :: rev).reverse).run t) := by
  intro rest
  induction rest with
  | nil =>
    intro prev rev ch pen q ch' _ _ _ _ h
    simp only [convertLoop, Option.some.injEq, Prod.mk.injEq] at h
    exact ⟨[], by simp [h.1], by simp [Pen.run, TraceConv]⟩
  | cons c t ih =>
    intro prev rev ch pen q ch' hn hm hpc hci h
    have hnr : NoHV (prev :: rev) := by
      intro s hs
      exact hn.noHV s (by simp only [List.mem_append, List.mem_reverse]; exact .inl hs)
    obtain ⟨⟨px, py⟩, hxy⟩ := resolveXY_some hnr (exists_nonclose hm)
    have e : ∀ (c : Seg) z, (c :: prev :: rev).reverse ++ z = (prev :: rev).reverse ++ c :: z := by intro c z; simp
    have e2 : ∀ c : Seg, pen0.afterAll (c :: prev :: rev).reverse =
        (pen0.afterAll (prev :: rev).reverse).after c := by intro c; simp
    have hpen : pen0.afterAll (prev :: rev).reverse = (pen0.afterAll rev.reverse).after prev := by simp
    have hprevabs : prev.abs = true := hn.abs prev (by simp)
    have hcabs : c.abs = true := hn.abs c (by simp)
    rw [convertLoop_cons hxy] at h
    obtain ⟨hev, hpc'⟩ := penConv_step hpc
    cases hc : convertOne prev px py c with
    | none =>
      simp only [hc] at h
      obtain ⟨u, g1, g2⟩ := ih c (prev :: rev) ch (pen.after c) q ch' (by rw [e]; exact hn)
        (by rw [List.reverse_cons]; exact absMove_append hm) (by rw [e2]; exact hpc') hci.2 h
      refine ⟨c :: u, by rw [g1, e], ?_⟩
      simp only [Pen.run]
      rw [hev]
      rw [e2] at g2
      exact List.rel_append (TraceConv.refl _) g2
    | some c' =>
      simp only [hc] at h
      obtain ⟨x1, y1, x2, y2, x, y, hd, hcase⟩ := convertOne_cases hc
      obtain ⟨cb, cd⟩ := c
      simp only at hd hcabs
      subst hd hcabs
      have hpnc : prev.data.isClose = false := by
        by_contra hcc
        have hz : AfterZ (rev.reverse ++ prev :: ⟨true, .curveTo x1 y1 x2 y2 x y⟩ :: t) := by simpa using hn.afterZ
        have := afterZ_pair hz (by simpa using hcc)
        simp [SegData.isMove] at this
      have hcur := resolveXY_cur hprevabs hnr hpnc (pen0.afterAll rev.reverse)
      rw [hxy, ← hpen] at hcur
      simp only [Option.some.injEq] at hcur
      have hrefl := reflected_ctrl (pen0.afterAll rev.reverse) hprevabs hpnc hnr.head
      rw [← hpen] at hrefl
      generalize pen0.afterAll (prev :: rev).reverse = P' at *
      obtain ⟨k1, k2, k3, k4⟩ := hpc
      have hnorm : ∀ c', c'.data.isClose = false → c'.data.isMove = false → c'.abs = true →
          (∃ x y, c'.data.x? = some x ∧ c'.data.y? = some y) → NormHV ((prev :: rev).reverse ++ c' :: t) := by
        intro c' a1 a2 a3 a4
        refine ⟨⟨?_, absMove_append hm, afterZ_replace (by rw [a1]; rfl) (by rw [a2]; rfl) hn.afterZ⟩, ?_⟩
        · intro s hs
          rw [List.mem_append, List.mem_cons] at hs
          rcases hs with hs | rfl | hs
          · exact hn.abs s (by rw [List.mem_append]; exact .inl hs)
          · exact a3
          · exact hn.abs s (by rw [List.mem_append, List.mem_cons]; exact .inr (.inr hs))
        · intro s hs
          rw [List.mem_append, List.mem_cons] at hs
          rcases hs with hs | rfl | hs
          · exact hn.noHV s (by rw [List.mem_append]; exact .inl hs)
          · exact .inr a4
          · exact hn.noHV s (by rw [List.mem_append, List.mem_cons]; exact .inr (.inr hs))
      rcases hcase with ⟨rfl, hcol⟩ | ⟨rfl, hsm⟩
      · -- became a line
        have hin := hci.1 x1 y1 x2 y2 x y rfl (by simpa [Pen.pt, k1, ← hcur] using hcol)
        simp only [Pen.pt, if_true] at hin
        have hin := hin.resolve_right fun hs => by
          rw [k1, ← hcur] at hs
          cases convertOne_stray hc hs
        obtain ⟨u, g1, g2⟩ := ih (mkAbs (.lineTo x y)) (prev :: rev) true (pen.after ⟨true, .curveTo x1 y1 x2 y2 x y⟩) q ch'
          (by rw [e]; exact hnorm _ rfl rfl rfl ⟨x, y, rfl, rfl⟩)
          (by rw [List.reverse_cons]; exact absMove_append hm)
          (by
            rw [e2]
            refine ⟨by simp [Pen.after, Pen.curve, mkAbs, Pen.pt, Curve.fin], by simp [Pen.after, Pen.curve, mkAbs, k2],
              by simp [Pen.after, Pen.curve, mkAbs], .inr ⟨⟨(x2, y2), by simp [Pen.after, Pen.curve, Pen.pt]⟩,
              by simp [Pen.after, Pen.curve, mkAbs], hin.2.2⟩⟩) hci.2 h
        refine ⟨mkAbs (.lineTo x y) :: u, by rw [g1, e], ?_⟩
        simp only [Pen.run]
        rw [e2] at g2
        refine List.rel_append ?_ g2
        have hal : DrawnAlike (.cubic pen.cur (x1, y1) (x2, y2) (x, y)) (.line pen.cur (x, y)) :=
          straight_alike hin.1 hin.2.1
        simp only [Pen.events, SegData.kind, Pen.curve, mkAbs, Pen.pt, if_true, ← k1, ← k3]
        have hcol' : Collinear pen.cur (x1, y1) (x2, y2) (x, y) := by rw [k1, ← hcur]; exact hcol
        exact List.rel_append (TraceConv.refl _) (.cons (.line hcol' hal) .nil)
      · -- became smooth
        have hctrl : P'.cubicCtrl = (x1, y1) := by
          rw [hsm, ← hrefl, ← hcur]
        have hstep : P'.after (mkAbs (.smooth x2 y2 x y)) = P'.after ⟨true, .curveTo x1 y1 x2 y2 x y⟩ ∧
            TraceConv (P'.events ⟨true, .curveTo x1 y1 x2 y2 x y⟩) (P'.events (mkAbs (.smooth x2 y2 x y))) := by
          refine ⟨by simp [Pen.after, Pen.curve, mkAbs, Pen.pt, hctrl], ?_⟩
          simp only [Pen.events, SegData.kind, Pen.curve, mkAbs, Pen.pt, hctrl, if_true]
          exact List.rel_append (TraceConv.refl _) (.cons (.smooth _) .nil)
        obtain ⟨u, g1, g2⟩ := ih (mkAbs (.smooth x2 y2 x y)) (prev :: rev) true
          (pen.after ⟨true, .curveTo x1 y1 x2 y2 x y⟩) q ch'
          (by rw [e]; exact hnorm _ rfl rfl rfl ⟨x, y, rfl, rfl⟩)
          (by rw [List.reverse_cons]; exact absMove_append hm) (by rw [e2, hstep.1]; exact hpc') hci.2 h
        refine ⟨mkAbs (.smooth x2 y2 x y) :: u, by rw [g1, e], ?_⟩
        simp only [Pen.run]
        rw [e2] at g2
        rw [hev]
        exact List.rel_append hstep.2 g2

theorem convertSegments_conv {p q : Path} (h : NormHV p) (hc : ControlsInside pen0 p)
    (hq : convertSegments p = some q) : TraceConv (trace p) (trace q) := by
  obtain ⟨q', ch, h1, h2, _, _⟩ := convertSegments_total h
  rw [h2] at hq
  cases hq
  obtain ⟨x, y, t, rfl⟩ := h.move
  obtain ⟨u, g1, g2⟩ := convertLoop_conv t ⟨true, .moveTo x y⟩ [] false (pen0.after ⟨true, .moveTo x y⟩) q ch
    (by simpa using h) ⟨x, y, [], rfl⟩ ⟨rfl, rfl, rfl, .inl rfl⟩ hc.2 h1
  subst g1
  exact List.rel_append (TraceConv.refl _) g2

end Verif.Paths
