import Verif.PathSem
/-
Lemmas on the pen, and the steps of path processing that keep the trace exactly.
-/
namespace Verif.Paths

/-- The pen after a whole path. -/
def Pen.afterAll (pen : Pen) (p : Path) : Pen := p.foldl Pen.after pen

theorem Pen.run_append (pen : Pen) (a b : Path) : pen.run (a ++ b) = pen.run a ++ (pen.afterAll a).run b := by
  induction a generalizing pen with
  | nil => rfl
  | cons s t ih => simp [Pen.run, Pen.afterAll, ih]

@[simp] theorem Pen.afterAll_append (pen : Pen) (a b : Path) :
    pen.afterAll (a ++ b) = (pen.afterAll a).afterAll b := by simp [Pen.afterAll]

@[simp] theorem Pen.afterAll_cons (pen : Pen) (s : Seg) (b : Path) :
    pen.afterAll (s :: b) = (pen.after s).afterAll b := rfl

@[simp] theorem Pen.afterAll_nil (pen : Pen) : pen.afterAll [] = pen := rfl

/-- The remembered positions agree with the pen. -/
def Pos.Agrees (p : Pos) (pen : Pen) : Prop := pen.cur = (p.x, p.y) ∧ pen.start = (p.mx, p.my)

theorem absolute_after {pos : Pos} {pen : Pen} (h : pos.Agrees pen) (s : Seg) :
    pen.after (mkAbs (if s.abs then s.data else s.data.shift pos.x pos.y)) = pen.after s ∧
    pen.events (mkAbs (if s.abs then s.data else s.data.shift pos.x pos.y)) = pen.events s ∧
    (pos.advance (if s.abs then s.data else s.data.shift pos.x pos.y)).Agrees (pen.after s) := by
  obtain ⟨⟨cx, cy⟩, st, k, cl⟩ := pen
  obtain ⟨h1, h2⟩ := h
  obtain ⟨b, d⟩ := s
  simp only [Prod.mk.injEq] at h1
  obtain ⟨rfl, rfl⟩ := h1
  cases h2
  cases b <;> cases d <;>
    simp [Pen.after, Pen.events, SegData.kind, Pen.curve, mkAbs, SegData.shift, Pen.pt, Pos.Agrees, Pos.advance, SegData.x?,
      SegData.y?, Curve.fin, add_comm]

theorem convToAbsolute_run (p : Path) : ∀ (pos : Pos) (pen : Pen), pos.Agrees pen →
    pen.run (convToAbsolute pos p) = pen.run p := by
  induction p with
  | nil => intros; rfl
  | cons s t ih =>
    intro pos pen h
    obtain ⟨h1, h2, h3⟩ := absolute_after h s
    simp only [convToAbsolute, Pen.run, h1, h2]
    rw [ih _ _ h3]

theorem relative_after {pos : Pos} {pen : Pen} (h : pos.Agrees pen) (s : Seg) :
    pen.after ⟨false, (if s.abs then s.data else s.data.shift pos.x pos.y).shift (-pos.x) (-pos.y)⟩ = pen.after s ∧
    pen.events ⟨false, (if s.abs then s.data else s.data.shift pos.x pos.y).shift (-pos.x) (-pos.y)⟩ = pen.events s ∧
    (pos.advance (if s.abs then s.data else s.data.shift pos.x pos.y)).Agrees (pen.after s) := by
  obtain ⟨⟨cx, cy⟩, st, k, cl⟩ := pen
  obtain ⟨h1, h2⟩ := h
  obtain ⟨b, d⟩ := s
  simp only [Prod.mk.injEq] at h1
  obtain ⟨rfl, rfl⟩ := h1
  cases h2
  cases b <;> cases d <;>
    simp [Pen.after, Pen.events, SegData.kind, Pen.curve, SegData.shift, Pen.pt, Pos.Agrees, Pos.advance, SegData.x?,
      SegData.y?, Curve.fin, add_comm]

theorem convToRelative_run (p : Path) : ∀ (pos : Pos) (pen : Pen), pos.Agrees pen →
    pen.run (convToRelative pos p) = pen.run p := by
  induction p with
  | nil => intros; rfl
  | cons s t ih =>
    intro pos pen h
    obtain ⟨h1, h2, h3⟩ := relative_after h s
    simp only [convToRelative, Pen.run, h1, h2]
    rw [ih _ _ h3]

theorem pos0_agrees : pos0.Agrees pen0 := ⟨rfl, rfl⟩

theorem convToAbsolute_trace (p : Path) : trace (convToAbsolute pos0 p) = trace p :=
  convToAbsolute_run p _ _ pos0_agrees
theorem convToRelative_trace (p : Path) : trace (convToRelative pos0 p) = trace p :=
  convToRelative_run p _ _ pos0_agrees

/-- All segments are absolute. -/
def AllAbs (p : Path) : Prop := ∀ s ∈ p, s.abs = true

theorem convToAbsolute_abs (p : Path) : ∀ pos, AllAbs (convToAbsolute pos p) := by
  induction p with
  | nil => intro pos s h; simp [convToAbsolute] at h
  | cons s t ih =>
    intro pos u h
    simp only [convToAbsolute, List.mem_cons] at h
    rcases h with rfl | h
    · rfl
    · exact ih _ u h

/-- Starts with an absolute MoveTo. -/
def AbsMove (p : Path) : Prop := ∃ x y t, p = ⟨true, .moveTo x y⟩ :: t

theorem convToAbsolute_move {p : Path} (h : StartsWithMove p) : AbsMove (convToAbsolute pos0 p) := by
  obtain ⟨b, x, y, t, rfl⟩ := h
  cases b
  · exact ⟨x + 0, y + 0, _, rfl⟩
  · exact ⟨x, y, _, rfl⟩

/-- After a ClosePath comes a MoveTo or nothing. -/
def AfterZ : Path → Prop
  | [] => True
  | [_] => True
  | a :: b :: t => (a.data.isClose = true → b.data.isMove = true) ∧ AfterZ (b :: t)

theorem AfterZ.append {a b : Path} : AfterZ (a ++ b) → AfterZ a ∧ AfterZ b := by
  induction a with
  | nil => intro h; exact ⟨trivial, h⟩
  | cons s t ih =>
    intro h
    cases t with
    | nil =>
      cases b with
      | nil => exact ⟨trivial, trivial⟩
      | cons u v => exact ⟨trivial, h.2⟩
    | cons u v => exact ⟨⟨h.1, (ih h.2).1⟩, (ih h.2).2⟩

/-- The pen after an absolute, H/V-free, nonempty path: where it is, by the last segment. -/
theorem after_closed (pen : Pen) (s : Seg) : (pen.after s).closed = s.data.isClose := by
  obtain ⟨b, d⟩ := s
  cases d <;> simp [Pen.after, Pen.curve, SegData.isClose]

theorem after_move (pen : Pen) (x y : ℚ) : pen.after ⟨true, .moveTo x y⟩ = ⟨(x, y), (x, y), .none, false⟩ := rfl

theorem after_start (pen : Pen) (s : Seg) (h : s.data.isMove = false) : (pen.after s).start = pen.start := by
  obtain ⟨b, d⟩ := s
  cases d <;> simp [Pen.after, Pen.curve, SegData.isMove] at h ⊢

theorem after_cur_x {pen : Pen} {s : Seg} {x : ℚ} (ha : s.abs = true) (hx : s.data.x? = some x) :
    (pen.after s).cur.1 = x := by
  obtain ⟨b, d⟩ := s
  simp only at ha hx
  subst ha
  cases d <;> simp_all [Pen.after, Pen.curve, SegData.x?, Curve.fin, Pen.pt]

theorem after_cur_y {pen : Pen} {s : Seg} {y : ℚ} (ha : s.abs = true) (hy : s.data.y? = some y) :
    (pen.after s).cur.2 = y := by
  obtain ⟨b, d⟩ := s
  simp only at ha hy
  subst ha
  cases d <;> simp_all [Pen.after, Pen.curve, SegData.y?, Curve.fin, Pen.pt]

theorem after_move_any (pen pen' : Pen) (s : Seg) (ha : s.abs = true) (hm : s.data.isMove = true) :
    pen.after s = pen'.after s ∧ pen.events s = pen'.events s := by
  obtain ⟨b, d⟩ := s
  simp only at ha; subst ha
  cases d <;> simp_all [SegData.isMove, Pen.after, Pen.events, SegData.kind, Pen.pt]

theorem afterZ_snoc (a : Path) (s x : Seg) (h : AfterZ (a ++ [s])) (hx : s.data.isClose = true → x.data.isMove = true) :
    AfterZ (a ++ [s] ++ [x]) := by
  induction a with
  | nil => exact ⟨hx, trivial⟩
  | cons u v ih =>
    cases v with
    | nil => exact ⟨h.1, ⟨hx, trivial⟩⟩
    | cons w z => exact ⟨h.1, ih h.2⟩

theorem AllAbs.reverse {p : List Seg} (h : AllAbs p) : AllAbs p.reverse := fun s hs => h s (List.mem_reverse.1 hs)
theorem AllAbs.cons {s : Seg} {p : Path} (hs : s.abs = true) (h : AllAbs p) : AllAbs (s :: p) := by
  intro u hu
  rcases List.mem_cons.1 hu with rfl | hu
  · exact hs
  · exact h u hu
theorem AllAbs.head {s : Seg} {p : Path} (h : AllAbs (s :: p)) : s.abs = true := h s (by simp)
theorem AllAbs.tail {s : Seg} {p : Path} (h : AllAbs (s :: p)) : AllAbs p := fun u hu => h u (by simp [hu])
theorem AllAbs.append {a b : Path} (h : AllAbs a) (k : AllAbs b) : AllAbs (a ++ b) := by
  intro u hu
  rcases List.mem_append.1 hu with hu | hu
  · exact h u hu
  · exact k u hu

theorem trace_append (a b : Path) : trace (a ++ b) = trace a ++ (pen0.afterAll a).run b := Pen.run_append _ _ _

/-- After a closepath, an explicit moveto to the start changes nothing for a following command. -/
theorem explicit_move (pen : Pen) (hc : pen.closed = true) (hs : pen.cur = pen.start) (s : Seg)
    (h : s.data.isMove = false) :
    pen.run [s] = pen.run [mkAbs (.moveTo pen.start.1 pen.start.2), s] ∧
    pen.afterAll [s] = pen.afterAll [mkAbs (.moveTo pen.start.1 pen.start.2), s] ∨ pen.ctrl ≠ .none := by
  obtain ⟨cur, st, k, cl⟩ := pen
  simp only at hc hs
  subst hc hs
  obtain ⟨b, d⟩ := s
  cases k
  · left
    cases d <;> simp [SegData.isMove] at h <;>
      simp [mkAbs, Pen.run, Pen.events, SegData.kind, Pen.after, Pen.curve, Pen.pt, Pen.cubicCtrl, Pen.quadCtrl]
  · right; simp
  · right; simp

theorem after_close (pen : Pen) (s : Seg) (h : s.data.isClose = true) :
    (pen.after s).ctrl = .none ∧ (pen.after s).closed = true ∧ (pen.after s).cur = (pen.after s).start := by
  obtain ⟨b, d⟩ := s
  cases d <;> simp [SegData.isClose] at h
  simp [Pen.after]

theorem fixMLoop_spec : ∀ (rest : Path) (prev : Seg) (rev : List Seg) (m : Pt),
    AllAbs rest → AllAbs (prev :: rev) → (pen0.afterAll (prev :: rev).reverse).start = knownM (prev :: rev) m →
    AfterZ (prev :: rev).reverse →
    trace (fixMLoop (prev :: rev) rest m) = trace ((prev :: rev).reverse ++ rest) ∧
      AllAbs (fixMLoop (prev :: rev) rest m) ∧
      AfterZ (fixMLoop (prev :: rev) rest m) ∧
      ∃ t, fixMLoop (prev :: rev) rest m = (prev :: rev).reverse ++ t := by
  intro rest
  induction rest with
  | nil =>
    intro prev rev m _ hr _ hz
    simp only [fixMLoop, List.append_nil, true_and]
    exact ⟨hr.reverse, hz, [], by simp⟩
  | cons c t ih =>
    intro prev rev m ha hr hs hz
    rw [fixMLoop, ← hs]
    have hnext : ∀ pen : Pen, pen.start = (pen0.afterAll (prev :: rev).reverse).start → ∀ r,
        (pen.after c).start = knownM (c :: r) ((pen0.afterAll (prev :: rev).reverse).start) := by
      intro pen hp r
      by_cases hm : c.data.isMove = true
      · obtain ⟨b, d⟩ := c
        have := ha.head
        simp only at this; subst this
        cases d <;> simp [SegData.isMove] at hm
        rfl
      · rw [after_start _ _ (by simpa using hm), hp]
        obtain ⟨b, d⟩ := c
        cases d <;> first | rfl | simp [SegData.isMove] at hm
    by_cases hcond : (prev.data.isClose && !c.data.isMove) = true
    · rw [if_pos (by simpa [prevIsClose] using hcond)]
      simp only [Bool.and_eq_true, Bool.not_eq_true'] at hcond
      obtain ⟨h1, h2⟩ := hcond
      have hpen : pen0.afterAll (prev :: rev).reverse = (pen0.afterAll rev.reverse).after prev := by simp
      have hcl := after_close (pen0.afterAll rev.reverse) prev h1
      rw [← hpen] at hcl
      generalize hP : pen0.afterAll (prev :: rev).reverse = P at *
      have hex := (explicit_move P hcl.2.1 hcl.2.2 c h2).resolve_right (by simp [hcl.1])
      have hz' : AfterZ (c :: mkAbs (.moveTo P.start.1 P.start.2) :: prev :: rev).reverse := by
        have := afterZ_snoc rev.reverse prev (mkAbs (.moveTo P.start.1 P.start.2)) (by simpa using hz) (fun _ => rfl)
        have := afterZ_snoc _ _ c this (fun h => by simp [mkAbs, SegData.isClose] at h)
        simpa using this
      have hs' : (pen0.afterAll (c :: mkAbs (.moveTo P.start.1 P.start.2) :: prev :: rev).reverse).start =
          knownM (c :: mkAbs (.moveTo P.start.1 P.start.2) :: prev :: rev) P.start := by
        rw [List.reverse_cons, Pen.afterAll_append, List.reverse_cons, Pen.afterAll_append, hP]
        exact hnext (P.after (mkAbs (.moveTo P.start.1 P.start.2))) rfl _
      obtain ⟨g1, g2, g3, u, g4⟩ := ih c (mkAbs (.moveTo P.start.1 P.start.2) :: prev :: rev) P.start ha.tail
        (AllAbs.cons ha.head (AllAbs.cons rfl hr)) hs' hz'
      refine ⟨?_, g2, g3, mkAbs (.moveTo P.start.1 P.start.2) :: c :: u, by rw [g4]; simp⟩
      rw [g1]
      have e1 : (c :: mkAbs (.moveTo P.start.1 P.start.2) :: prev :: rev).reverse ++ t =
          (prev :: rev).reverse ++ ([mkAbs (.moveTo P.start.1 P.start.2), c] ++ t) := by simp
      have e2 : (prev :: rev).reverse ++ c :: t = (prev :: rev).reverse ++ ([c] ++ t) := by simp
      rw [e1, e2, trace_append, trace_append, hP, Pen.run_append, Pen.run_append, ← hex.1, ← hex.2]
    · rw [if_neg (by simpa [prevIsClose] using hcond)]
      have hz' : AfterZ (c :: prev :: rev).reverse := by
        have := afterZ_snoc rev.reverse prev c (by simpa using hz) (fun h => by simpa [h] using hcond)
        simpa using this
      have hs' : (pen0.afterAll (c :: prev :: rev).reverse).start =
          knownM (c :: prev :: rev) (pen0.afterAll (prev :: rev).reverse).start := by
        rw [List.reverse_cons, Pen.afterAll_append]
        exact hnext _ rfl _
      obtain ⟨g1, g2, g3, u, g4⟩ := ih c (prev :: rev) (pen0.afterAll (prev :: rev).reverse).start ha.tail
        (AllAbs.cons ha.head hr) hs' hz'
      exact ⟨by rw [g1]; simp, g2, g3, c :: u, by rw [g4]; simp⟩

/-- The normal form reached after `fix_m`: absolute, starts with MoveTo, MoveTo after each ClosePath. -/
structure Norm (p : Path) : Prop where
  abs : AllAbs p
  move : AbsMove p
  afterZ : AfterZ p

theorem fixM_spec {p : Path} (ha : AllAbs p) (hm : AbsMove p) : trace (fixM p) = trace p ∧ Norm (fixM p) := by
  obtain ⟨x, y, t, rfl⟩ := hm
  obtain ⟨g1, g2, g3, u, g4⟩ := fixMLoop_spec t ⟨true, .moveTo x y⟩ [] (0, 0) ha.tail (AllAbs.cons rfl (by simp [AllAbs]))
    rfl trivial
  exact ⟨g1, g2, ⟨x, y, u, g4⟩, g3⟩

/-- No H or V. -/
def NoHV (p : Path) : Prop := ∀ s ∈ p, (s.data.isClose = true) ∨ (∃ x y, s.data.x? = some x ∧ s.data.y? = some y)

theorem noHV_iff (d : SegData) : (d.isClose = true ∨ ∃ x y, d.x? = some x ∧ d.y? = some y) ↔
    (∀ x, d ≠ .hline x) ∧ (∀ y, d ≠ .vline y) := by
  cases d <;> simp [SegData.isClose, SegData.x?, SegData.y?]

theorem trace_replace {pre : Path} {a b : Seg} (t : Path)
    (he : (pen0.afterAll pre).events a = (pen0.afterAll pre).events b)
    (hf : (pen0.afterAll pre).after a = (pen0.afterAll pre).after b) :
    trace (pre ++ a :: t) = trace (pre ++ b :: t) := by
  simp [trace_append, Pen.run, he, hf]

theorem afterZ_replace {pre : Path} {a b : Seg} {t : Path} (hc : a.data.isClose = b.data.isClose)
    (hm : a.data.isMove = b.data.isMove) (h : AfterZ (pre ++ a :: t)) : AfterZ (pre ++ b :: t) := by
  induction pre with
  | nil =>
    cases t with
    | nil => trivial
    | cons u v => exact ⟨hc ▸ h.1, h.2⟩
  | cons u v ih =>
    cases v with
    | nil => exact ⟨hm ▸ h.1, ih h.2⟩
    | cons w z => exact ⟨h.1, ih h.2⟩

theorem afterZ_pair {pre : Path} {a b : Seg} {t : Path} (h : AfterZ (pre ++ a :: b :: t)) :
    a.data.isClose = true → b.data.isMove = true := by
  have := (AfterZ.append h).2
  exact this.1

theorem NoHV.cons {s : Seg} {p : Path}
    (hs : (s.data.isClose = true) ∨ (∃ x y, s.data.x? = some x ∧ s.data.y? = some y)) (h : NoHV p) : NoHV (s :: p) := by
  intro u hu
  rcases List.mem_cons.1 hu with rfl | hu
  · exact hs
  · exact h u hu
theorem NoHV.head {s : Seg} {p : Path} (h : NoHV (s :: p)) :
    (s.data.isClose = true) ∨ (∃ x y, s.data.x? = some x ∧ s.data.y? = some y) := h s (by simp)
theorem NoHV.tail {s : Seg} {p : Path} (h : NoHV (s :: p)) : NoHV p := fun u hu => h u (by simp [hu])
theorem NoHV.reverse {p : List Seg} (h : NoHV p) : NoHV p.reverse := fun s hs => h s (List.mem_reverse.1 hs)
theorem NoHV.append {a b : Path} (h : NoHV a) (k : NoHV b) : NoHV (a ++ b) := by
  intro u hu
  rcases List.mem_append.1 hu with hu | hu
  · exact h u hu
  · exact k u hu

/-- Replacing the head of the rest by an equivalent segment, then going on. -/
theorem hvToL_step {prev c c' : Seg} {rev : List Seg} {t : Path}
    (he : (pen0.afterAll (prev :: rev).reverse).events c' = (pen0.afterAll (prev :: rev).reverse).events c)
    (hf : (pen0.afterAll (prev :: rev).reverse).after c' = (pen0.afterAll (prev :: rev).reverse).after c)
    {r : Option Path}
    (h : ∃ u, r = some ((c' :: prev :: rev).reverse ++ u) ∧
      trace ((c' :: prev :: rev).reverse ++ u) = trace ((c' :: prev :: rev).reverse ++ t) ∧
      AllAbs u ∧ NoHV u ∧ AfterZ ((c' :: prev :: rev).reverse ++ u))
    (ha : c'.abs = true) (hn : (c'.data.isClose = true) ∨ (∃ x y, c'.data.x? = some x ∧ c'.data.y? = some y)) :
    ∃ u, r = some ((prev :: rev).reverse ++ u) ∧
      trace ((prev :: rev).reverse ++ u) = trace ((prev :: rev).reverse ++ c :: t) ∧
      AllAbs u ∧ NoHV u ∧ AfterZ ((prev :: rev).reverse ++ u) := by
  obtain ⟨u, h1, h2, h3, h4, h5⟩ := h
  have e : ∀ z, (c' :: prev :: rev).reverse ++ z = (prev :: rev).reverse ++ c' :: z := by intro z; simp
  refine ⟨c' :: u, by rw [h1, e], ?_, h3.cons ha, h4.cons hn, by rw [← e]; exact h5⟩
  rw [← e, h2, e]
  exact trace_replace t he hf

theorem hvToLLoop_spec : ∀ (rest : Path) (prev : Seg) (rev : List Seg),
    AllAbs rest → AllAbs (prev :: rev) → NoHV (prev :: rev) → AfterZ ((prev :: rev).reverse ++ rest) →
    ∃ t, hvToLLoop (prev :: rev) rest = some ((prev :: rev).reverse ++ t) ∧
      trace ((prev :: rev).reverse ++ t) = trace ((prev :: rev).reverse ++ rest) ∧
      AllAbs t ∧ NoHV t ∧ AfterZ ((prev :: rev).reverse ++ t) := by
  intro rest
  induction rest with
  | nil =>
    intro prev rev _ _ _ hz
    exact ⟨[], by simp [hvToLLoop], rfl, by simp [AllAbs], by simp [NoHV], hz⟩
  | cons c t ih =>
    intro prev rev ha hr hn hz
    have hpen : pen0.afterAll (prev :: rev).reverse = (pen0.afterAll rev.reverse).after prev := by simp
    have hz2 : AfterZ (rev.reverse ++ prev :: c :: t) := by simpa using hz
    have hpair := afterZ_pair hz2
    obtain ⟨b, d⟩ := c
    have hb := ha.head
    simp only at hb; subst hb
    by_cases hd : (∀ x, d ≠ .hline x) ∧ (∀ y, d ≠ .vline y)
    · have : hvToLLoop (prev :: rev) (⟨true, d⟩ :: t) = hvToLLoop (⟨true, d⟩ :: prev :: rev) t := by
        cases d <;> first | rfl | simp at hd
      rw [this]
      exact hvToL_step rfl rfl (ih ⟨true, d⟩ (prev :: rev) ha.tail (AllAbs.cons rfl hr) (NoHV.cons ((noHV_iff d).2 hd) hn)
        (by simpa using hz)) rfl ((noHV_iff d).2 hd)
    · have hpc : prev.data.isClose = false := by
        by_contra h
        have := hpair (by simpa using h)
        apply hd
        cases d <;> simp [SegData.isMove] at this
        simp
      obtain ⟨x, y, hx, hy⟩ := hn.head.resolve_left (by simp [hpc])
      have hcx := after_cur_x (pen := pen0.afterAll rev.reverse) hr.head hx
      have hcy := after_cur_y (pen := pen0.afterAll rev.reverse) hr.head hy
      have hcl := after_closed (pen0.afterAll rev.reverse) prev
      rw [← hpen] at hcx hcy hcl
      rw [hpc] at hcl
      cases d <;> simp at hd
      case hline x' =>
        simp only [hvToLLoop, hy, Option.bind_some]
        refine hvToL_step ?_ ?_ (ih (mkAbs (.lineTo x' y)) (prev :: rev) ha.tail (AllAbs.cons rfl hr)
          (NoHV.cons (.inr ⟨x', y, rfl, rfl⟩) hn) ?_) rfl (.inr ⟨x', y, rfl, rfl⟩)
        · simp [Pen.events, SegData.kind, mkAbs, Pen.curve, Pen.pt, ← hcy]
        · simp [Pen.after, mkAbs, Pen.curve, Pen.pt, ← hcy]
        · have := afterZ_replace (a := ⟨true, .hline x'⟩) (b := mkAbs (.lineTo x' y)) rfl rfl hz
          simpa using this
      case vline y' =>
        simp only [hvToLLoop, hx, Option.bind_some]
        refine hvToL_step ?_ ?_ (ih (mkAbs (.lineTo x y')) (prev :: rev) ha.tail (AllAbs.cons rfl hr)
          (NoHV.cons (.inr ⟨x, y', rfl, rfl⟩) hn) ?_) rfl (.inr ⟨x, y', rfl, rfl⟩)
        · simp [Pen.events, SegData.kind, mkAbs, Pen.curve, Pen.pt, ← hcx]
        · simp [Pen.after, mkAbs, Pen.curve, Pen.pt, ← hcx]
        · have := afterZ_replace (a := ⟨true, .vline y'⟩) (b := mkAbs (.lineTo x y')) rfl rfl hz
          simpa using this

theorem hvToL_spec {p : Path} (h : Norm p) : ∃ q, hvToL p = some q ∧ trace q = trace p ∧ Norm q ∧ NoHV q := by
  obtain ⟨x, y, t, rfl⟩ := h.move
  have hm : NoHV [⟨true, .moveTo x y⟩] := NoHV.cons (.inr ⟨x, y, rfl, rfl⟩) (by simp [NoHV])
  obtain ⟨u, h1, h2, h3, h4, h5⟩ := hvToLLoop_spec t ⟨true, .moveTo x y⟩ [] h.abs.tail (AllAbs.cons rfl (by simp [AllAbs]))
    hm h.afterZ
  exact ⟨_, h1, h2, ⟨AllAbs.cons rfl h3, ⟨x, y, u, rfl⟩, h5⟩, NoHV.cons (.inr ⟨x, y, rfl, rfl⟩) h4⟩

theorem lToHV_spec : ∀ (p : Path) (px py : ℚ) (pen : Pen), AllAbs p → NoHV p → AfterZ p →
    (pen.cur = (px, py) ∨ ∀ s t, p = s :: t → s.data.isMove = true) →
    ∃ q, lToHV px py p = some q ∧ pen.run q = pen.run p ∧ q.map Seg.abs = p.map Seg.abs ∧
      q.length = p.length ∧ (AbsMove p → AbsMove q) := by
  intro p
  induction p with
  | nil => intros; exact ⟨[], rfl, rfl, rfl, rfl, id⟩
  | cons s t ih =>
    intro px py pen ha hn hz hc
    obtain ⟨b, d⟩ := s
    have hb := ha.head
    simp only at hb; subst hb
    have hzt : AfterZ t := by cases t with | nil => trivial | cons u v => exact hz.2
    have key : ∀ x y, (pen.after ⟨true, d⟩).cur = (x, y) ∨ d.isClose = true →
        ∃ q, lToHV x y t = some q ∧ (pen.after ⟨true, d⟩).run q = (pen.after ⟨true, d⟩).run t ∧
          q.map Seg.abs = t.map Seg.abs ∧ q.length = t.length := by
      intro x y h
      obtain ⟨q, h1, h2, h3, h4, _⟩ := ih x y (pen.after ⟨true, d⟩) ha.tail hn.tail hzt (by
        rcases h with h | h
        · exact .inl h
        · right
          intro u v e
          subst e
          exact hz.1 h)
      exact ⟨q, h1, h2, h3, h4⟩
    by_cases hcl : d.isClose = true
    · cases d <;> simp [SegData.isClose] at hcl
      obtain ⟨q, h1, h2, h3, h4⟩ := key px py (.inr rfl)
      exact ⟨⟨true, .close⟩ :: q, by simp [lToHV, h1], by simp [Pen.run, h2], by simp [h3], by simp [h4],
        by rintro ⟨x, y, t, e⟩; cases e⟩
    · obtain ⟨x, y, hx, hy⟩ := hn.head.resolve_left hcl
      simp only at hx hy
      have hcur : (pen.after ⟨true, d⟩).cur = (x, y) :=
        Prod.ext (after_cur_x (s := ⟨true, d⟩) rfl hx) (after_cur_y (s := ⟨true, d⟩) rfl hy)
      obtain ⟨q, h1, h2, h3, h4⟩ := key x y (.inl hcur)
      by_cases hl : d.isLine = true
      · cases d <;> simp [SegData.isLine] at hl
        rename_i x' y'
        simp only [SegData.x?, SegData.y?, Option.some.injEq] at hx hy
        subst hx hy
        have hcur' : pen.cur = (px, py) := hc.resolve_right (by
          intro h
          have := h _ _ rfl
          simp [SegData.isMove] at this)
        simp only [lToHV, h1, Option.map_some]
        refine ⟨_, rfl, ?_, ?_, by simp [h4], by rintro ⟨x, y, t, e⟩; cases e⟩
        · split
          · rename_i h
            have e : pen.after (mkAbs (.vline y')) = pen.after ⟨true, .lineTo x' y'⟩ ∧
                pen.events (mkAbs (.vline y')) = pen.events ⟨true, .lineTo x' y'⟩ := by
              simp [Pen.after, Pen.events, SegData.kind, mkAbs, Pen.curve, Pen.pt, hcur', h.1]
            simp [Pen.run, e.1, e.2, h2]
          · split
            · rename_i h
              have e : pen.after (mkAbs (.hline x')) = pen.after ⟨true, .lineTo x' y'⟩ ∧
                  pen.events (mkAbs (.hline x')) = pen.events ⟨true, .lineTo x' y'⟩ := by
                simp [Pen.after, Pen.events, SegData.kind, mkAbs, Pen.curve, Pen.pt, hcur', h.2]
              simp [Pen.run, e.1, e.2, h2]
            · simp [Pen.run, h2]
        · split
          · simp [mkAbs, h3]
          · split <;> simp [mkAbs, h3]
      · have : lToHV px py (⟨true, d⟩ :: t) = some (⟨true, d⟩ :: q) := by
          cases d <;> simp_all [SegData.isLine, SegData.isClose, lToHV, SegData.x?, SegData.y?]
        refine ⟨_, this, by simp [Pen.run, h2], by simp [h3], by simp [h4], ?_⟩
        rintro ⟨x, y, t, e⟩
        cases e
        exact ⟨x, y, q, rfl⟩

end Verif.Paths
