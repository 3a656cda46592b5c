import Verif.PathUnused
/-
Properties C16-C20 of path processing.
-/
namespace Verif.Paths

/-! ### The shape of the whole function -/

/-- The normal form `process_path` works on. -/
theorem normal_form {p : Path} (h : StartsWithMove p) :
    ∃ n, hvToL (fixM (convToAbsolute pos0 p)) = some n ∧ trace n = trace p ∧ NormHV n := by
  obtain ⟨h1, h2⟩ := fixM_spec (convToAbsolute_abs p pos0) (convToAbsolute_move h)
  obtain ⟨n, h3, h4, h5, h6⟩ := hvToL_spec h2
  exact ⟨n, h3, by rw [h4, h1, convToAbsolute_trace], ⟨h5, h6⟩⟩

/-- The last two steps. -/
theorem final_form {n : Path} (h : NormHV n) :
    ∃ q, lToHV 0 0 n = some q ∧ trace (convToRelative pos0 q) = trace n ∧
      (∀ s ∈ convToRelative pos0 q, s.abs = false) ∧ StartsWithMove (convToRelative pos0 q) := by
  obtain ⟨q, h1, h2, _, _, h3⟩ := lToHV_spec n 0 0 pen0 h.abs h.noHV h.afterZ (.inl rfl)
  obtain ⟨x, y, t, rfl⟩ := h3 h.move
  refine ⟨_, h1, by rw [convToRelative_trace]; exact h2, ?_, ⟨false, _, _, _, rfl⟩⟩
  have : ∀ (p : Path) (pos : Pos), ∀ s ∈ convToRelative pos p, s.abs = false := by
    intro p
    induction p with
    | nil => simp [convToRelative]
    | cons a b ih =>
      intro pos s hs
      simp only [convToRelative, List.mem_cons] at hs
      rcases hs with rfl | hs
      · rfl
      · exact ih _ s hs
  exact this _ _

theorem applySeg_flags (t : Transform) (sx : ℚ) (d : SegData) :
    (applySeg t sx d).isClose = d.isClose ∧ (applySeg t sx d).isMove = d.isMove ∧
    (((d.isClose = true) ∨ (∃ x y, d.x? = some x ∧ d.y? = some y)) →
      (((applySeg t sx d).isClose = true) ∨ (∃ x y, (applySeg t sx d).x? = some x ∧ (applySeg t sx d).y? = some y))) := by
  cases d <;> simp [applySeg, SegData.isClose, SegData.isMove, SegData.x?, SegData.y?]

theorem applyTransform_norm (t : Transform) (sx : ℚ) {p : Path} (h : NormHV p) : NormHV (applyTransform t sx p) := by
  refine ⟨⟨?_, ?_, ?_⟩, ?_⟩
  · intro s hs
    simp only [applyTransform, List.mem_map] at hs
    obtain ⟨u, hu, rfl⟩ := hs
    exact h.abs u hu
  · obtain ⟨x, y, r, rfl⟩ := h.move
    exact ⟨_, _, _, rfl⟩
  · have := h.afterZ
    rw [afterZ_chain] at this ⊢
    rw [applyTransform, List.isChain_map]
    refine this.imp ?_
    intro a b hab
    simp only [(applySeg_flags t sx _).1, (applySeg_flags t sx _).2.1]
    exact hab
  · intro s hs
    simp only [applyTransform, List.mem_map] at hs
    obtain ⟨u, hu, rfl⟩ := hs
    exact (applySeg_flags t sx u.data).2.2 (h.noHV u hu)

/-- The middle steps: conversion and removal. -/
def middle (o : PathOpts) (hasMarker : Bool) (n : Path) : Option Path := (convStep o n).bind (rmStep o hasMarker)

theorem middle_total (o : PathOpts) (hm : Bool) {n : Path} (h : NormHV n) : ∃ m, middle o hm n = some m ∧ N0 m := by
  have h1 : ∃ m, convStep o n = some m ∧ NormHV m := by
    unfold convStep
    split
    · obtain ⟨q, _, _, h2, h3, _⟩ := convertSegments_total h
      exact ⟨q, h2, h3⟩
    · exact ⟨n, rfl, h⟩
  obtain ⟨m, e1, hm1⟩ := h1
  simp only [middle, e1, Option.bind_some, rmStep]
  split
  · obtain ⟨q, e2, hs⟩ := removeUnused_steps m (.inr hm1)
    refine ⟨q, e2, ?_⟩
    rcases hs with hs | ⟨rfl, _⟩
    · exact Steps.n0 hs (.inr hm1)
    · exact .inl rfl
  · exact ⟨m, rfl, .inr hm1⟩

theorem processPath_eq {p n m : Path} {hm : Bool} {ts : Option (Transform × ℚ)} {o : PathOpts} (h : StartsWithMove p)
    (hn : hvToL (fixM (convToAbsolute pos0 p)) = some n) (hmid : middle o hm n = some m) :
    processPath p hm ts o = if m = [] then some [] else (lToHV 0 0 (tsStep ts m)).map (convToRelative pos0) := by
  obtain ⟨b, x, y, t, rfl⟩ := h
  unfold processPath
  rw [if_neg (by simp), hn, Option.bind_some]
  unfold middle at hmid
  cases h1 : convStep o n with
  | none => rw [h1] at hmid; cases hmid
  | some k =>
    rw [h1, Option.bind_some] at hmid
    rw [Option.bind_some, hmid, Option.bind_some]

/-- The result of `process_path` in one place. -/
theorem processPath_result {p : Path} (h : StartsWithMove p) (hm : Bool) (ts : Option (Transform × ℚ)) (o : PathOpts) :
    ∃ n m q, trace n = trace p ∧ NormHV n ∧ middle o hm n = some m ∧ N0 m ∧ processPath p hm ts o = some q ∧
      (m = [] → q = []) ∧
      (m ≠ [] → trace q = trace (tsStep ts m) ∧ (∀ s ∈ q, s.abs = false) ∧ StartsWithMove q) := by
  obtain ⟨n, h1, h2, h3⟩ := normal_form h
  obtain ⟨m, h4, h5⟩ := middle_total o hm h3
  refine ⟨n, m, ?_⟩
  rw [processPath_eq h h1 h4]
  by_cases he : m = []
  · exact ⟨[], h2, h3, h4, h5, by simp [he], fun _ => rfl, fun h => absurd he h⟩
  · have hnm := h5.resolve_left he
    have hn' : NormHV (tsStep ts m) := by
      cases ts with
      | none => exact hnm
      | some t => exact applyTransform_norm _ _ hnm
    obtain ⟨q, g1, g2, g3, g4⟩ := final_form hn'
    refine ⟨convToRelative pos0 q, h2, h3, h4, h5, ?_, fun h => absurd h he, fun _ => ⟨g2, g3, g4⟩⟩
    rw [if_neg he, g1]
    rfl

/-! ### C20 -/

/-- C20: processing a path that starts with a MoveTo never panics and always finishes (the model is a total function),
for every path, every option and every transform; the result is empty or again starts with a MoveTo. -/
theorem C20_never_panics {p : Path} (h : StartsWithMove p) (hasMarker : Bool) (ts : Option (Transform × ℚ))
    (o : PathOpts) :
    ∃ q, processPath p hasMarker ts o = some q ∧ (q = [] ∨ StartsWithMove q) := by
  obtain ⟨n, m, q, _, _, _, _, h1, h2, h3⟩ := processPath_result h hasMarker ts o
  refine ⟨q, h1, ?_⟩
  by_cases he : m = []
  · exact .inl (h2 he)
  · exact .inr (h3 he).2.2

/-- C20: the hypothesis is needed: a path that does not start with a MoveTo makes the code panic
(`unwrap` of a missing coordinate in `convert_hv_to_l`). -/
theorem C20_hypothesis_needed :
    processPath [⟨true, .hline 1⟩, ⟨true, .vline 1⟩] false none ⟨false, false⟩ = none := by
  decide +kernel

/-! ### C16 -/

/-- C16: without segment conversion and removal, rewriting a path (absolute/relative, H/V, explicit MoveTo) keeps
everything the pen does, for every valid path; the result is written with relative commands. -/
theorem C16_rewriting_keeps_trace {p : Path} (h : StartsWithMove p) (hasMarker : Bool) (o : PathOpts)
    (hc : o.convertSegments = false) (hr : o.removeUnusedSegments = false ∨ hasMarker = true) :
    ∃ q, processPath p hasMarker none o = some q ∧ trace q = trace p ∧ ∀ s ∈ q, s.abs = false := by
  obtain ⟨n, m, q, h1, h2, h3, h4, h5, h6, h7⟩ := processPath_result h hasMarker none o
  have hmn : m = n := by
    have : (o.removeUnusedSegments && !hasMarker) = false := by rcases hr with hr | hr <;> simp [hr]
    simp [middle, convStep, rmStep, hc, this] at h3
    exact h3.symm
  subst hmn
  have hne : m ≠ [] := by
    obtain ⟨x, y, t, e⟩ := h2.move
    simp [e]
  exact ⟨q, h5, by rw [(h7 hne).1]; exact h1, (h7 hne).2.1⟩

/-- C16, a case: relative commands, H, V and commands after a closepath. -/
example : StartsWithMove [⟨false, .moveTo 1 2⟩, ⟨false, .hline 3⟩, ⟨true, .vline 5⟩, ⟨false, .close⟩,
    ⟨false, .smoothQuad 1 1⟩, ⟨false, .arc 1 2 3 true false 4 5⟩] := ⟨_, _, _, _, rfl⟩
example : processPath [⟨true, .moveTo 1 2⟩, ⟨true, .lineTo 4 2⟩, ⟨true, .close⟩, ⟨true, .lineTo 1 7⟩] false none
    ⟨false, false⟩ = some [⟨false, .moveTo 1 2⟩, ⟨false, .hline 3⟩, ⟨false, .close⟩, ⟨false, .moveTo 0 0⟩,
      ⟨false, .vline 5⟩] := by decide +kernel

/-! ### Hypotheses on what is drawn -/

/-- For every cubic written with C/c whose points lie on one line, the control points are between the end points and
the next thing drawn is not written with S/s, or the cubic goes plainly beyond its end points. -/
def ControlsBetween : List Event → Prop
  | [] => True
  | e :: t =>
    (∀ p c1 c2 q, e = .draw .cubic (.cubic p c1 c2 q) → Collinear p c1 c2 q →
      (OnSegment p q c1 ∧ OnSegment p q c2 ∧ ∀ c v, t ≠ .draw .smoothCubic c :: v) ∨ Stray p c1 c2 q) ∧ ControlsBetween t

/-- No Bézier curve returns to its start point, and a line of zero length is not directly followed by a curve written
with one of the given commands. -/
def NoLoops (bad : Kind → Bool) : List Event → Prop
  | [] => True
  | e :: t =>
    (∀ k c, e = .draw k c → c.src = c.fin → c.degenerate = true ∧
      ((∃ p q, c = .line p q) → ∀ k' c' v, t = .draw k' c' :: v → bad k' = false)) ∧ NoLoops bad t

def badSmooth : Kind → Bool | .smoothCubic | .smoothQuad => true | _ => false
def badCurve : Kind → Bool | .cubic | .smoothCubic | .smoothQuad => true | _ => false

theorem events_one {pen : Pen} {s : Seg} {t : Path} (hcl : pen.closed = true → s.data.isMove = true) :
    ∃ e, pen.run (s :: t) = e :: (pen.after s).run t ∧
      (∀ k c, e = .draw k c ↔ k = s.data.kind ∧ ∃ k', pen.curve s = some (c, k')) := by
  obtain ⟨b, d⟩ := s
  cases hc : pen.closed with
  | true =>
    have := hcl hc
    cases d <;> simp [SegData.isMove] at this
    exact ⟨_, by simp [Pen.run, Pen.events]; rfl, by simp [Pen.curve]⟩
  | false =>
    cases d <;> simp only [Pen.run, Pen.events, hc, Pen.curve, Bool.false_eq_true, if_false, List.nil_append,
      List.cons_append] <;>
      refine ⟨_, rfl, ?_⟩ <;> intro k c <;> simp [SegData.kind] <;> intro _ <;> exact eq_comm

theorem next_event {pen : Pen} {s u : Seg} {v : Path} (hz : s.data.isClose = true → u.data.isMove = true)
    (hu : ∃ c k, (pen.after s).curve u = some (c, k)) :
    ∃ c w, (pen.after s).run (u :: v) = .draw u.data.kind c :: w := by
  obtain ⟨c, k, hck⟩ := hu
  obtain ⟨e, h1, h2⟩ := events_one (pen := pen.after s) (s := u) (t := v) (by rw [after_closed]; exact hz)
  exact ⟨c, _, by rw [h1, (h2 u.data.kind c).2 ⟨rfl, k, hck⟩]⟩

theorem afterZ_tail {s : Seg} {t : Path} (h : AfterZ (s :: t)) :
    AfterZ t ∧ ∀ u v, t = u :: v → s.data.isClose = true → u.data.isMove = true := by
  cases t with
  | nil => exact ⟨trivial, by simp⟩
  | cons a b => exact ⟨h.2, by intro u v e; cases e; exact h.1⟩

theorem controlsInside_of {p : Path} : ∀ {pen : Pen}, AfterZ p → (∀ s t, p = s :: t → pen.closed = true → s.data.isMove = true) →
    ControlsBetween (pen.run p) → ControlsInside pen p := by
  induction p with
  | nil => intros; trivial
  | cons s t ih =>
    intro pen hz hcl h
    obtain ⟨e, h1, h2⟩ := events_one (t := t) (hcl s t rfl)
    rw [h1] at h
    obtain ⟨hz1, hz2⟩ := afterZ_tail hz
    refine ⟨?_, ih hz1 (by intro u v e hc; rw [after_closed] at hc; exact hz2 u v e hc) h.2⟩
    intro x1 y1 x2 y2 x y hd hcol
    have := h.1 _ _ _ _ ((h2 .cubic (.cubic pen.cur (pen.pt s.abs x1 y1) (pen.pt s.abs x2 y2) (pen.pt s.abs x y))).2
      ⟨by simp [hd, SegData.kind], by simp [Pen.curve, hd]⟩) hcol
    rcases this with this | this
    case inr => exact .inr this
    refine .inl ⟨this.1, this.2.1, ?_⟩
    intro u v e
    subst e
    by_contra hs
    obtain ⟨ub, ud⟩ := u
    cases ud <;> simp [SegData.isSmooth] at hs
    obtain ⟨c, w, hw⟩ := next_event (pen := pen) (v := v) (hz2 _ _ rfl) ⟨_, _, rfl⟩
    exact this.2.2 _ _ hw

theorem plain_of {p : Path} : ∀ {pen : Pen}, AfterZ p → (∀ s t, p = s :: t → pen.closed = true → s.data.isMove = true) →
    NoLoops badSmooth (pen.run p) → PlainA false pen p := by
  induction p with
  | nil => intros; trivial
  | cons s t ih =>
    intro pen hz hcl h
    obtain ⟨e, h1, h2⟩ := events_one (t := t) (hcl s t rfl)
    rw [h1] at h
    obtain ⟨hz1, hz2⟩ := afterZ_tail hz
    refine ⟨?_, ih hz1 (by intro u v e hc; rw [after_closed] at hc; exact hz2 u v e hc) h.2⟩
    intro c k hck hsf
    have := h.1 s.data.kind c ((h2 _ _).2 ⟨rfl, k, hck⟩) hsf
    refine ⟨this.1, fun hl => ?_⟩
    cases t with
    | nil => rfl
    | cons u v =>
      by_contra hs
      obtain ⟨ub, ud⟩ := u
      cases ud <;> simp [startsSmooth, SegData.needsCtrl] at hs <;>
      · obtain ⟨c', w, hw⟩ := next_event (pen := pen) (v := v) (hz2 _ _ rfl) ⟨_, _, rfl⟩
        have := this.2 hl _ _ _ hw
        simp [SegData.kind, badSmooth] at this

/-! ### C17 -/

/-- C17, the full statement: converting segments keeps the trace up to curves that are drawn alike. -/
def C17_full : Prop := ∀ p : Path, StartsWithMove p →
  ∃ q, processPath p true none ⟨true, false⟩ = some q ∧ TraceAlike (trace p) (trace q)

/-- C17 holds for every path in which the control points of each straight C/c cubic lie between its end points and no
S/s follows such a cubic; cubics that go plainly beyond their end points are also allowed (they are kept). Missing: other
cubics whose control points overshoot, and S/s after straight cubics, for which the statement is false (below). -/
theorem C17_conversion_draws_alike_partial {p : Path} (h : StartsWithMove p) (hasMarker : Bool) (o : PathOpts)
    (hr : o.removeUnusedSegments = false ∨ hasMarker = true) (hc : ControlsBetween (trace p)) :
    ∃ q, processPath p hasMarker none o = some q ∧ TraceAlike (trace p) (trace q) := by
  obtain ⟨n, m, q, h1, h2, h3, h4, h5, h6, h7⟩ := processPath_result h hasMarker none o
  have hrm : (o.removeUnusedSegments && !hasMarker) = false := by rcases hr with hr | hr <;> simp [hr]
  have hal : TraceAlike (trace n) (trace m) ∧ m ≠ [] := by
    by_cases hcs : o.convertSegments = true
    · simp only [middle, convStep, rmStep, hcs, if_true, hrm] at h3
      obtain ⟨k, _, _, g2, g3, _⟩ := convertSegments_total h2
      simp [g2, rmStep, hrm] at h3
      subst h3
      refine ⟨(convertSegments_conv h2 ?_ g2).alike, ?_⟩
      · exact controlsInside_of h2.afterZ (by intro s t _ hc; cases hc) (by rw [← h1] at hc; exact hc)
      · obtain ⟨x, y, t, e⟩ := g3.move
        simp [e]
    · simp [middle, convStep, rmStep, hcs, hrm] at h3
      subst h3
      refine ⟨TraceAlike.refl _, ?_⟩
      obtain ⟨x, y, t, e⟩ := h2.move
      simp [e]
  exact ⟨q, h5, by rw [(h7 hal.2).1, ← h1]; exact hal.1⟩

/-- C17, a case of the hypothesis: a straight cubic with its control points on the segment, a curved one that reflects
the control point of its predecessor, and a relative one. -/
example : ControlsBetween (trace [⟨true, .moveTo 0 0⟩, ⟨true, .curveTo 1 1 2 2 3 3⟩, ⟨true, .curveTo 4 5 6 7 9 9⟩,
    ⟨false, .curveTo 3 2 5 1 7 7⟩]) := by
  have e : trace [⟨true, .moveTo 0 0⟩, ⟨true, .curveTo 1 1 2 2 3 3⟩, ⟨true, .curveTo 4 5 6 7 9 9⟩,
    ⟨false, .curveTo 3 2 5 1 7 7⟩] = [.start (0, 0), .draw .cubic (.cubic (0, 0) (1, 1) (2, 2) (3, 3)),
      .draw .cubic (.cubic (3, 3) (4, 5) (6, 7) (9, 9)), .draw .cubic (.cubic (9, 9) (12, 11) (14, 10) (16, 16))] := by
    decide +kernel
  rw [e]
  refine ⟨by simp, ⟨?_, ⟨?_, ⟨?_, trivial⟩⟩⟩⟩
  · intro p c1 c2 q h _
    simp only [Event.draw.injEq, Curve.cubic.injEq, true_and] at h
    obtain ⟨rfl, rfl, rfl, rfl⟩ := h
    exact .inl ⟨⟨1 / 3, by norm_num, by norm_num, by norm_num⟩, ⟨2 / 3, by norm_num, by norm_num, by norm_num⟩, by simp⟩
  · intro p c1 c2 q h hc
    simp only [Event.draw.injEq, Curve.cubic.injEq, true_and] at h
    obtain ⟨rfl, rfl, rfl, rfl⟩ := h
    exfalso; have := hc.1; norm_num at this
  · intro p c1 c2 q h hc
    simp only [Event.draw.injEq, Curve.cubic.injEq, true_and] at h
    obtain ⟨rfl, rfl, rfl, rfl⟩ := h
    exfalso; have := hc.1; norm_num at this

/-- Cubics that go plainly beyond their end points. -/
example : Stray (0, 0) (1, 1) (5, 5) (3, 3) ∧ Stray (0, 0) (1, 0) (5, 0) (3, 0) ∧ Stray (0, 0) (0, -1) (0, 2) (0, 3) :=
  ⟨.inl ⟨by norm_num, by norm_num, .inr ⟨5 / 3, by norm_num, by norm_num⟩⟩,
    .inr (.inl ⟨.inl ⟨by norm_num, rfl⟩, 5 / 3, by norm_num, by norm_num⟩),
    .inr (.inr ⟨rfl, by norm_num, -1 / 3, by norm_num, by norm_num⟩)⟩

/-- A cubic whose control point overshoots is not drawn like the line. -/
theorem overshoot_not_alike : ¬ DrawnAlike (.cubic (0, 0) (0, 100) (0, 0) (0, 10)) (.line (0, 0) (0, 10)) := by
  rintro (h | ⟨φ, _, hm, h0, h1, h⟩)
  · cases h
  · have hh := (h (1 / 2) ⟨by norm_num, by norm_num⟩).2
    have hφ : φ (1 / 2) ≤ φ 1 := hm ⟨by norm_num, by norm_num⟩ ⟨by norm_num, by norm_num⟩ (by norm_num)
    rw [h1] at hφ
    simp only [Curve.at?, Pt.real, Option.some.injEq, Prod.ext_iff, Prod.fst_add, Prod.smul_fst, Prod.snd_add,
      Prod.smul_snd, smul_eq_mul] at hh
    have := hh.2
    norm_num at this
    linarith

/-- C17 is false in general: a vertical cubic that overshoots its end point becomes a line that does not
(`M 0 0 C 0 100 0 0 0 10` becomes `m 0 0 v 10`): `is_vlineto` compares `y1` only with the start and `y2` only with
the end. -/
theorem C17_refuted_overshoot :
    processPath [⟨true, .moveTo 0 0⟩, ⟨true, .curveTo 0 100 0 0 0 10⟩] true none ⟨true, false⟩ =
      some [⟨false, .moveTo 0 0⟩, ⟨false, .vline 10⟩] ∧
    ¬ TraceAlike (trace [⟨true, .moveTo 0 0⟩, ⟨true, .curveTo 0 100 0 0 0 10⟩])
      (trace [⟨false, .moveTo 0 0⟩, ⟨false, .vline 10⟩]) := by
  refine ⟨by decide +kernel, ?_⟩
  have e1 : trace [⟨true, .moveTo 0 0⟩, ⟨true, .curveTo 0 100 0 0 0 10⟩] =
      [.start (0, 0), .draw .cubic (.cubic (0, 0) (0, 100) (0, 0) (0, 10))] := by decide +kernel
  have e2 : trace [⟨false, .moveTo 0 0⟩, ⟨false, .vline 10⟩] =
      [.start (0, 0), .draw .line (.line (0, 0) (0, 10))] := by decide +kernel
  rw [e1, e2]
  intro h
  cases h with
  | cons _ h => cases h with
    | cons h _ => cases h with
      | draw h => exact overshoot_not_alike h

/-- `is_point_on_line` accepts a control point before the start of the line. -/
theorem C17_refuted_point_before_start : isLine 0 0 (-5) (-5) 1 1 2 2 = true ∧
    processPath [⟨true, .moveTo 0 0⟩, ⟨true, .curveTo (-5) (-5) 1 1 2 2⟩] true none ⟨true, false⟩ =
      some [⟨false, .moveTo 0 0⟩, ⟨false, .lineTo 2 2⟩] ∧
    ¬ DrawnAlike (.cubic (0, 0) (-5, -5) (1, 1) (2, 2)) (.line (0, 0) (2, 2)) := by
  refine ⟨by decide +kernel, by decide +kernel, ?_⟩
  rintro (h | ⟨φ, _, hm, h0, h1, h⟩)
  · cases h
  · have hh := (h (1 / 4) ⟨by norm_num, by norm_num⟩).2
    have hφ : 0 ≤ φ (1 / 4) := by
      rw [← h0]; exact hm ⟨by norm_num, by norm_num⟩ ⟨by norm_num, by norm_num⟩ (by norm_num)
    simp only [Curve.at?, Pt.real, Option.some.injEq, Prod.ext_iff, Prod.fst_add, Prod.smul_fst, Prod.snd_add,
      Prod.smul_snd, smul_eq_mul] at hh
    have := hh.2
    norm_num at this
    linarith

/-- C17 is false in general even if all control points are between the end points: `M 0 0 C 1 0 2 0 3 0 S 5 5 6 0`
becomes `m 0 0 h 3 s 2 5 3 0`, and the smooth curve loses the control point it reflected. -/
theorem C17_refuted_smooth_after_straight :
    processPath [⟨true, .moveTo 0 0⟩, ⟨true, .curveTo 1 0 2 0 3 0⟩, ⟨true, .smooth 5 5 6 0⟩] true none ⟨true, false⟩ =
      some [⟨false, .moveTo 0 0⟩, ⟨false, .hline 3⟩, ⟨false, .smooth 2 5 3 0⟩] ∧
    ¬ TraceAlike (trace [⟨true, .moveTo 0 0⟩, ⟨true, .curveTo 1 0 2 0 3 0⟩, ⟨true, .smooth 5 5 6 0⟩])
      (trace [⟨false, .moveTo 0 0⟩, ⟨false, .hline 3⟩, ⟨false, .smooth 2 5 3 0⟩]) := by
  refine ⟨by decide +kernel, ?_⟩
  have e1 : trace [⟨true, .moveTo 0 0⟩, ⟨true, .curveTo 1 0 2 0 3 0⟩, ⟨true, .smooth 5 5 6 0⟩] =
      [.start (0, 0), .draw .cubic (.cubic (0, 0) (1, 0) (2, 0) (3, 0)),
       .draw .smoothCubic (.cubic (3, 0) (4, 0) (5, 5) (6, 0))] := by decide +kernel
  have e2 : trace [⟨false, .moveTo 0 0⟩, ⟨false, .hline 3⟩, ⟨false, .smooth 2 5 3 0⟩] =
      [.start (0, 0), .draw .line (.line (0, 0) (3, 0)),
       .draw .smoothCubic (.cubic (3, 0) (3, 0) (5, 5) (6, 0))] := by decide +kernel
  rw [e1, e2]
  intro h
  cases h with
  | cons _ h => cases h with
    | cons _ h => cases h with
      | cons h _ => cases h with
        | draw h =>
          rcases h with h | ⟨φ, _, hm, h0, h1, h⟩
          · have := (Curve.cubic.inj h).2.1
            norm_num at this
          · have hh := (h (1 / 2) ⟨by norm_num, by norm_num⟩).2
            simp only [Curve.at?, Pt.real, Option.some.injEq, Prod.ext_iff, Prod.fst_add, Prod.smul_fst, Prod.snd_add,
              Prod.smul_snd, smul_eq_mul] at hh
            obtain ⟨hx, hy⟩ := hh
            norm_num at hx hy
            have a1 : φ (1 / 2) ^ 2 - φ (1 / 2) ^ 3 = 1 / 8 := by linarith
            have a2 : 2 * φ (1 / 2) ^ 2 - φ (1 / 2) ^ 3 = 1 / 2 := by nlinarith
            have a3 : φ (1 / 2) ^ 2 = 3 / 8 := by linarith
            have a4 : φ (1 / 2) ^ 3 = 1 / 4 := by linarith
            have a5 : φ (1 / 2) ^ 2 * φ (1 / 2) = 1 / 4 := by rw [← a4]; ring
            rw [a3] at a5
            have a6 : φ (1 / 2) = 2 / 3 := by linarith
            rw [a6] at a3
            norm_num at a3

theorem C17_full_refuted : ¬ C17_full := by
  intro h
  obtain ⟨q, h1, h2⟩ := h _ ⟨true, 0, 0, _, rfl⟩
  rw [C17_refuted_overshoot.1] at h1
  cases h1
  exact C17_refuted_overshoot.2 h2

/-! ### C18 -/

/-- C18, the full statement: removing unused segments keeps the drawn outline. -/
def C18_full : Prop := ∀ p : Path, StartsWithMove p →
  ∃ q, processPath p false none ⟨false, true⟩ = some q ∧ outline q = outline p

/-- C18 holds for every path without Bézier curves that return to their start point and without zero-length lines
directly before S/s or T/t. Missing: these two cases, for which the statement is false (below). -/
theorem C18_removal_keeps_outline_partial {p : Path} (h : StartsWithMove p) (hasMarker : Bool) (o : PathOpts)
    (hc : o.convertSegments = false) (hl : NoLoops badSmooth (trace p)) :
    ∃ q, processPath p hasMarker none o = some q ∧ outline q = outline p := by
  obtain ⟨n, m, q, h1, h2, h3, h4, h5, h6, h7⟩ := processPath_result h hasMarker none o
  refine ⟨q, h5, ?_⟩
  have hpl : PlainA false pen0 n := plain_of h2.afterZ (by intro s t _ hc; cases hc) (by rw [← h1] at hl; exact hl)
  have hnp : outline n = outline p := by unfold outline; rw [h1]
  have hmn : outline m = outline n := by
    simp only [middle, convStep, rmStep, hc, Bool.false_eq_true, if_false, Option.bind_some] at h3
    split at h3
    · obtain ⟨m', g1, g2, _⟩ := removeUnused_outline (.inr h2) hpl
      rw [h3] at g1; cases g1
      exact g2
    · cases h3; rfl
  by_cases he : m = []
  · rw [h6 he, ← hnp, ← hmn, he]
  · rw [← hnp, ← hmn]
    unfold outline
    rw [(h7 he).1]
    rfl

/-- C18, a case of the hypothesis: repeated movetos, zero-length and repeated lines, a line before a closepath and
a cubic. -/
example : NoLoops badSmooth (trace [⟨true, .moveTo 5 5⟩, ⟨true, .moveTo 0 0⟩, ⟨true, .lineTo 0 0⟩, ⟨true, .lineTo 4 4⟩,
    ⟨true, .lineTo 4 4⟩, ⟨true, .curveTo 1 2 3 4 5 6⟩, ⟨true, .lineTo 0 0⟩, ⟨true, .close⟩]) := by
  have e : trace [⟨true, .moveTo 5 5⟩, ⟨true, .moveTo 0 0⟩, ⟨true, .lineTo 0 0⟩, ⟨true, .lineTo 4 4⟩,
    ⟨true, .lineTo 4 4⟩, ⟨true, .curveTo 1 2 3 4 5 6⟩, ⟨true, .lineTo 0 0⟩, ⟨true, .close⟩] =
    [.start (5, 5), .start (0, 0), .draw .line (.line (0, 0) (0, 0)), .draw .line (.line (0, 0) (4, 4)),
      .draw .line (.line (4, 4) (4, 4)), .draw .cubic (.cubic (4, 4) (1, 2) (3, 4) (5, 6)),
      .draw .line (.line (5, 6) (0, 0)), .close (0, 0) (0, 0)] := by decide +kernel
  rw [e]
  simp [NoLoops, Curve.src, Curve.fin, Curve.degenerate, badSmooth]

/-- The result of such a path: much shorter, same outline. -/
example : processPath [⟨true, .moveTo 5 5⟩, ⟨true, .moveTo 0 0⟩, ⟨true, .lineTo 0 0⟩, ⟨true, .lineTo 4 4⟩,
    ⟨true, .lineTo 4 4⟩, ⟨true, .curveTo 1 2 3 4 5 6⟩, ⟨true, .lineTo 0 0⟩, ⟨true, .close⟩] false none ⟨false, true⟩ =
    some [⟨false, .moveTo 0 0⟩, ⟨false, .lineTo 4 4⟩, ⟨false, .curveTo (-3) (-2) (-1) 0 1 2⟩, ⟨false, .close⟩] := by
  decide +kernel

/-- C18 is false in general: the second of two equal cubics draws a loop, and is removed. -/
theorem C18_refuted_equal_curves :
    ∃ q, processPath [⟨true, .moveTo 0 0⟩, ⟨true, .curveTo 0 10 10 10 10 0⟩, ⟨true, .curveTo 0 10 10 10 10 0⟩] false none
      ⟨false, true⟩ = some q ∧
    outline [⟨true, .moveTo 0 0⟩, ⟨true, .curveTo 0 10 10 10 10 0⟩, ⟨true, .curveTo 0 10 10 10 10 0⟩] =
      [[.cubic (0, 0) (0, 10) (10, 10) (10, 0), .cubic (10, 0) (0, 10) (10, 10) (10, 0)]] ∧
    outline q = [[.cubic (0, 0) (0, 10) (10, 10) (10, 0)]] := by
  refine ⟨[⟨false, .moveTo 0 0⟩, ⟨false, .curveTo 0 10 10 10 10 0⟩], by decide +kernel, by decide +kernel,
    by decide +kernel⟩

/-- C18 is false in general: removing a zero-length line changes what the following S reflects. -/
theorem C18_refuted_smooth_after_zero_line :
    ∃ q, processPath [⟨true, .moveTo 0 0⟩, ⟨true, .curveTo 0 10 10 10 10 0⟩, ⟨true, .lineTo 10 0⟩,
      ⟨true, .smooth 20 10 20 0⟩] false none ⟨false, true⟩ = some q ∧
    outline [⟨true, .moveTo 0 0⟩, ⟨true, .curveTo 0 10 10 10 10 0⟩, ⟨true, .lineTo 10 0⟩, ⟨true, .smooth 20 10 20 0⟩] =
      [[.cubic (0, 0) (0, 10) (10, 10) (10, 0), .cubic (10, 0) (10, 0) (20, 10) (20, 0)]] ∧
    outline q = [[.cubic (0, 0) (0, 10) (10, 10) (10, 0), .cubic (10, 0) (10, -10) (20, 10) (20, 0)]] := by
  refine ⟨[⟨false, .moveTo 0 0⟩, ⟨false, .curveTo 0 10 10 10 10 0⟩, ⟨false, .smooth 10 10 10 0⟩], by decide +kernel,
    by decide +kernel, by decide +kernel⟩

theorem C18_full_refuted : ¬ C18_full := by
  intro h
  obtain ⟨q, h1, h2, h3⟩ := C18_refuted_equal_curves
  obtain ⟨q', g1, g2⟩ := h [⟨true, .moveTo 0 0⟩, ⟨true, .curveTo 0 10 10 10 10 0⟩, ⟨true, .curveTo 0 10 10 10 10 0⟩]
    ⟨true, 0, 0, _, rfl⟩
  rw [h1] at g1
  cases g1
  rw [h2, h3] at g2
  revert g2
  decide +kernel

/-- Closed and open subpaths are drawn with different line ends: an open triangle comes out closed, so the outline is
kept but the stroke's caps are not. -/
theorem C18_closes_open_subpaths :
    processPath [⟨true, .moveTo 0 0⟩, ⟨true, .lineTo 4 0⟩, ⟨true, .lineTo 4 4⟩, ⟨true, .lineTo 0 0⟩] false none
      ⟨false, true⟩ = some [⟨false, .moveTo 0 0⟩, ⟨false, .hline 4⟩, ⟨false, .vline 4⟩, ⟨false, .close⟩] := by
  decide +kernel

/-! ### C17 and C18 together -/

theorem noLoops_conv {l l' : List Event} (h : TraceConv l l') (hl : NoLoops badCurve l) : NoLoops badSmooth l' := by
  induction h with
  | nil => trivial
  | cons he ht ih =>
    refine ⟨?_, ih hl.2⟩
    have hnext : ∀ {t t' : List Event}, TraceConv t t' →
        (∀ k' c' v, t = .draw k' c' :: v → badCurve k' = false) →
        (∀ k' c' v, t' = .draw k' c' :: v → badSmooth k' = false) := by
      intro t t' htt hb k' c' v e
      subst e
      cases htt with
      | cons h _ =>
        cases h with
        | same =>
          have := hb _ _ _ rfl
          cases k' <;> simp_all [badCurve, badSmooth]
        | smooth => simpa [badCurve] using hb _ _ _ rfl
        | line => rfl
    intro k c e hsf
    subst e
    cases he with
    | same =>
      have := hl.1 _ _ rfl hsf
      exact ⟨this.1, fun hx => hnext ht (this.2 hx)⟩
    | smooth =>
      have := hl.1 _ _ rfl hsf
      exact ⟨this.1, fun hx => hnext ht (this.2 hx)⟩
    | line hc h =>
      have := (hl.1 _ _ rfl hsf).1
      simp [Curve.degenerate] at this

theorem outline_alike {l l' : List Event} (h : TraceConv l l') (hl : NoLoops badCurve l) :
    ∀ acc acc', List.Forall₂ DrawnAlike acc acc' →
      List.Forall₂ (List.Forall₂ DrawnAlike) (outlineFrom acc l) (outlineFrom acc' l') := by
  have hkeep : ∀ acc acc', List.Forall₂ DrawnAlike acc acc' →
      List.Forall₂ (List.Forall₂ DrawnAlike) (keep acc) (keep acc') := by
    intro acc acc' h
    cases h with
    | nil => exact .nil
    | cons a b => exact .cons (.cons a b) .nil
  have hsnoc : ∀ acc acc' c c', List.Forall₂ DrawnAlike acc acc' → DrawnAlike c c' →
      List.Forall₂ DrawnAlike (acc ++ [c]) (acc' ++ [c']) := fun acc acc' c c' h1 h2 =>
    List.rel_append h1 (.cons h2 .nil)
  induction h with
  | nil => intro acc acc' h; exact hkeep _ _ h
  | cons he ht ih =>
    intro acc acc' ha
    cases he with
    | same =>
      rename_i e _ _
      cases e with
      | start p =>
        simp only [outlineFrom]
        exact List.rel_append (hkeep _ _ ha) (ih hl.2 _ _ .nil)
      | draw k c =>
        simp only [outlineFrom]
        split
        · exact ih hl.2 _ _ ha
        · exact ih hl.2 _ _ (hsnoc _ _ _ _ ha (.inl rfl))
      | close p q =>
        simp only [outlineFrom]
        split
        · exact ih hl.2 _ _ ha
        · exact ih hl.2 _ _ (hsnoc _ _ _ _ ha (.inl rfl))
    | smooth c =>
      simp only [outlineFrom]
      split
      · exact ih hl.2 _ _ ha
      · exact ih hl.2 _ _ (hsnoc _ _ _ _ ha (.inl rfl))
    | @line p c1 c2 q hc h =>
      have hpq : p ≠ q := by
        intro e
        have := (hl.1 _ _ rfl (by simp [Curve.src, Curve.fin, e])).1
        simp [Curve.degenerate] at this
      simp only [outlineFrom, Curve.degenerate, hpq, decide_false, Bool.false_eq_true, if_false]
      exact ih hl.2 _ _ (hsnoc _ _ _ _ ha h)

/-- C17 and C18 together, with all path options on: the outline is kept up to curves drawn alike, for every path whose
straight C/c cubics keep their control points between their end points and are not followed by S/s, without Bézier
curves that return to their start, and without zero-length lines directly before a curve written with C, S or T. -/
theorem C18_all_options_partial {p : Path} (h : StartsWithMove p) (hasMarker : Bool) (o : PathOpts)
    (hc : ControlsBetween (trace p)) (hl : NoLoops badCurve (trace p)) :
    ∃ q, processPath p hasMarker none o = some q ∧
      List.Forall₂ (List.Forall₂ DrawnAlike) (outline p) (outline q) := by
  obtain ⟨n, m, q, h1, h2, h3, h4, h5, h6, h7⟩ := processPath_result h hasMarker none o
  refine ⟨q, h5, ?_⟩
  rw [← h1] at hc hl
  have hnp : outline n = outline p := by unfold outline; rw [h1]
  have hk : ∃ k, convStep o n = some k ∧ NormHV k ∧ TraceConv (trace n) (trace k) := by
    unfold convStep
    split
    · obtain ⟨k, _, _, g2, g3, _⟩ := convertSegments_total h2
      exact ⟨k, g2, g3, convertSegments_conv h2
        (controlsInside_of h2.afterZ (by intro s t _ hc; cases hc) hc) g2⟩
    · exact ⟨n, rfl, h2, TraceConv.refl _⟩
  obtain ⟨k, e1, hkn, hkc⟩ := hk
  have hkm : outline m = outline k := by
    simp only [middle, e1, Option.bind_some, rmStep] at h3
    split at h3
    · obtain ⟨m', g1, g2, _⟩ := removeUnused_outline (.inr hkn)
        (plain_of hkn.afterZ (by intro s t _ hc; cases hc) (noLoops_conv hkc hl))
      rw [h3] at g1; cases g1
      exact g2
    · cases h3; rfl
  have hqm : outline q = outline m := by
    by_cases he : m = []
    · rw [h6 he, he]
    · unfold outline
      rw [(h7 he).1]
      rfl
  rw [hqm, hkm, ← hnp]
  exact outline_alike hkc hl [] [] .nil

/-- The two options together can go wrong where each alone is right: the second C becomes S (it follows a line), then
the zero-length line before it is removed, and S reflects the first curve. -/
theorem C18_refuted_options_interact :
    ∃ q, processPath [⟨true, .moveTo 0 0⟩, ⟨true, .curveTo 0 10 10 10 10 0⟩, ⟨true, .lineTo 10 0⟩,
      ⟨true, .curveTo 10 0 20 10 20 0⟩] false none ⟨true, true⟩ = some q ∧
    outline [⟨true, .moveTo 0 0⟩, ⟨true, .curveTo 0 10 10 10 10 0⟩, ⟨true, .lineTo 10 0⟩,
      ⟨true, .curveTo 10 0 20 10 20 0⟩] =
      [[.cubic (0, 0) (0, 10) (10, 10) (10, 0), .cubic (10, 0) (10, 0) (20, 10) (20, 0)]] ∧
    outline q = [[.cubic (0, 0) (0, 10) (10, 10) (10, 0), .cubic (10, 0) (10, -10) (20, 10) (20, 0)]] := by
  refine ⟨[⟨false, .moveTo 0 0⟩, ⟨false, .curveTo 0 10 10 10 10 0⟩, ⟨false, .smooth 10 10 10 0⟩], by decide +kernel,
    by decide +kernel, by decide +kernel⟩

/-! ### C19 -/

/-- The image of a point, a curve and an event under a transform that scales by `s` in all directions (and moves).
An arc stays an arc with scaled radii. -/
def Transform.pt (t : Transform) (p : Pt) : Pt := t.apply p.1 p.2
def Curve.image (t : Transform) (s : ℚ) : Curve → Curve
  | .line p q => .line (t.pt p) (t.pt q)
  | .cubic p c1 c2 q => .cubic (t.pt p) (t.pt c1) (t.pt c2) (t.pt q)
  | .quad p c q => .quad (t.pt p) (t.pt c) (t.pt q)
  | .arc p rx ry rot l sw q => .arc (t.pt p) (s * rx) (s * ry) rot l sw (t.pt q)
def Event.image (t : Transform) (s : ℚ) : Event → Event
  | .start p => .start (t.pt p)
  | .draw k c => .draw k (c.image t s)
  | .close p q => .close (t.pt p) (t.pt q)

def Ctrl.image (t : Transform) : Ctrl → Ctrl
  | .none => .none
  | .cubic c => .cubic (t.pt c)
  | .quad c => .quad (t.pt c)

def Pen.image (t : Transform) (p : Pen) : Pen := ⟨t.pt p.cur, t.pt p.start, p.ctrl.image t, p.closed⟩

theorem reflect_image (t : Transform) (p c : Pt) : reflect (t.pt p) (t.pt c) = t.pt (reflect p c) := by
  simp only [reflect, Transform.pt, Transform.apply, Prod.mk.injEq]
  constructor <;> ring

theorem image_step (t : Transform) (sx : ℚ) (pen : Pen) (s : Seg) (ha : s.abs = true)
    (hn : (s.data.isClose = true) ∨ (∃ x y, s.data.x? = some x ∧ s.data.y? = some y)) :
    (pen.image t).after { s with data := applySeg t sx s.data } = (pen.after s).image t ∧
    (pen.image t).events { s with data := applySeg t sx s.data } = (pen.events s).map (Event.image t sx) := by
  obtain ⟨b, d⟩ := s
  simp only at ha; subst ha
  obtain ⟨cur, st, k, cl⟩ := pen
  have hq : ∀ k, (Pen.image t ⟨cur, st, k, cl⟩).quadCtrl = t.pt (Pen.quadCtrl ⟨cur, st, k, cl⟩) := by
    intro k; cases k <;> simp [Pen.image, Pen.quadCtrl, Ctrl.image, reflect_image]
  have hcq : ∀ k, (Pen.image t ⟨cur, st, k, cl⟩).cubicCtrl = t.pt (Pen.cubicCtrl ⟨cur, st, k, cl⟩) := by
    intro k; cases k <;> simp [Pen.image, Pen.cubicCtrl, Ctrl.image, reflect_image]
  cases d <;> simp [SegData.isClose, SegData.x?, SegData.y?] at hn <;> cases cl <;>
    simp [applySeg, Pen.after, Pen.events, Pen.curve, hq, hcq] <;>
    simp [Pen.image, Pen.pt, Ctrl.image, Event.image, Curve.image, Curve.fin, Transform.pt, SegData.kind, mul_comm]

theorem applyTransform_run (t : Transform) (sx : ℚ) (p : Path) : ∀ pen : Pen, AllAbs p → NoHV p →
    (pen.image t).run (applyTransform t sx p) = (pen.run p).map (Event.image t sx) := by
  induction p with
  | nil => intros; rfl
  | cons s r ih =>
    intro pen ha hn
    obtain ⟨h1, h2⟩ := image_step t sx pen s ha.head hn.head
    show (pen.image t).run ({ s with data := applySeg t sx s.data } :: applyTransform t sx r) = _
    simp only [Pen.run, List.map_append, h1, h2, ih (pen.after s) ha.tail hn.tail]

theorem applyTransform_trace (t : Transform) (sx : ℚ) {p : Path} (h : NormHV p) :
    trace (applyTransform t sx p) = (trace p).map (Event.image t sx) := by
  rw [trace, trace, ← applyTransform_run t sx p pen0 h.abs h.noHV]
  have hn := applyTransform_norm t sx h
  refine SameFor.run (sameFor_move hn.abs ?_ _ _)
  intro s r e
  obtain ⟨x, y, u, e'⟩ := hn.move
  rw [e'] at e
  cases e
  rfl

/-- C19: for every path and all options, processing with a transform gives exactly the image, under the transform, of
what processing without the transform gives. (`sx` is the scale; arcs get their radii multiplied by it, which is their
image if the transform is a uniform scale by `sx` and a translation, the only case in which the code applies it.) -/
theorem C19_transform_moves_outline {p : Path} (h : StartsWithMove p) (hasMarker : Bool) (o : PathOpts) (t : Transform)
    (sx : ℚ) :
    ∃ q q', processPath p hasMarker none o = some q ∧ processPath p hasMarker (some (t, sx)) o = some q' ∧
      trace q' = (trace q).map (Event.image t sx) := by
  obtain ⟨n, m, q, a1, a2, a3, a4, a5, a6, a7⟩ := processPath_result h hasMarker none o
  obtain ⟨n1, h1, h2, h3⟩ := normal_form h
  obtain ⟨m1, h4, h5⟩ := middle_total o hasMarker h3
  have e1 := processPath_eq (ts := none) h h1 h4
  have e2 := processPath_eq (ts := some (t, sx)) h h1 h4
  by_cases he : m1 = []
  · rw [if_pos he] at e1 e2
    exact ⟨[], [], e1, e2, rfl⟩
  · rw [if_neg he] at e1 e2
    have hm1 := h5.resolve_left he
    obtain ⟨q0, g1, g2, _, _⟩ := final_form hm1
    obtain ⟨q1, g3, g4, _, _⟩ := final_form (applyTransform_norm t sx hm1)
    simp only [tsStep] at e1 e2
    rw [g1] at e1
    rw [g3] at e2
    refine ⟨_, _, e1, e2, ?_⟩
    rw [g4, g2, applyTransform_trace t sx hm1]

/-- C19 without other options: the trace of the result is the image of the trace of the input. -/
theorem C19_transform_exact {p : Path} (h : StartsWithMove p) (hasMarker : Bool) (t : Transform) (sx : ℚ) :
    ∃ q, processPath p hasMarker (some (t, sx)) ⟨false, false⟩ = some q ∧
      trace q = (trace p).map (Event.image t sx) := by
  obtain ⟨q, q', h1, h2, h3⟩ := C19_transform_moves_outline h hasMarker ⟨false, false⟩ t sx
  obtain ⟨q0, g1, g2, _⟩ := C16_rewriting_keeps_trace h hasMarker ⟨false, false⟩ rfl (.inl rfl)
  rw [h1] at g1
  cases g1
  exact ⟨q', h2, by rw [h3, g2]⟩

/-- C19, a case: scale by 2 and move by (10, 20). -/
example : processPath [⟨true, .moveTo 1 1⟩, ⟨false, .hline 3⟩, ⟨true, .arc 1 2 30 true false 4 5⟩] false
    (some (⟨2, 0, 0, 2, 10, 20⟩, 2)) ⟨true, true⟩ =
    some [⟨false, .moveTo 12 22⟩, ⟨false, .hline 6⟩, ⟨false, .arc 2 4 30 true false 0 8⟩] := by decide +kernel

end Verif.Paths
