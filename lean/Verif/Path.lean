import Mathlib.Data.Rat.Defs
import Mathlib.Tactic.Linarith
import Mathlib.Data.Rat.Floor
/-
Model of path processing: `src/task/paths/mod.rs`, `conv_segments.rs`, `rm_unused.rs`, `apply_transform.rs` and
`round_path` of `src/task/round_numbers.rs`.

Numbers are exact rationals; `fuzzy_eq`/`fuzzy_ne`/`fuzzy_cmp` are exact comparisons.  A `while i < path.d.len()` loop
is a recursion over a zipper: `rev` holds the segments before index `i`, last first, and `rest` the segments from
index `i` on.  So `path.d[i-1]` is the head of `rev` and `path.d[i]` the head of `rest`.  `none` stands for a panic.
-/
namespace Verif.Paths

/-- svgdom's `path::SegmentData`. -/
inductive SegData
  | moveTo (x y : ℚ)
  | lineTo (x y : ℚ)
  | hline (x : ℚ)
  | vline (y : ℚ)
  | curveTo (x1 y1 x2 y2 x y : ℚ)
  | smooth (x2 y2 x y : ℚ)
  | quad (x1 y1 x y : ℚ)
  | smoothQuad (x y : ℚ)
  | arc (rx ry rot : ℚ) (large sweep : Bool) (x y : ℚ)
  | close
  deriving DecidableEq, Repr

/-- svgdom's `path::Segment`. -/
structure Seg where
  abs : Bool
  data : SegData
  deriving DecidableEq, Repr

abbrev Path := List Seg

/-- `Segment::x()` of svgdom. -/
def SegData.x? : SegData → Option ℚ
  | .moveTo x _ | .lineTo x _ | .hline x | .curveTo _ _ _ _ x _ | .smooth _ _ x _ | .quad _ _ x _
  | .smoothQuad x _ | .arc _ _ _ _ _ x _ => some x
  | .vline _ | .close => none

/-- `Segment::y()` of svgdom. -/
def SegData.y? : SegData → Option ℚ
  | .moveTo _ y | .lineTo _ y | .vline y | .curveTo _ _ _ _ _ y | .smooth _ _ _ y | .quad _ _ _ y
  | .smoothQuad _ y | .arc _ _ _ _ _ _ y => some y
  | .hline _ | .close => none

def SegData.isMove : SegData → Bool | .moveTo .. => true | _ => false
def SegData.isClose : SegData → Bool | .close => true | _ => false
def SegData.isLine : SegData → Bool | .lineTo .. => true | _ => false

/-- `Segment::new_*` of svgdom create absolute segments. -/
def mkAbs (d : SegData) : Seg := ⟨true, d⟩

/-- svgdom's `shift_segment_data` (helper of `conv_to_absolute`/`conv_to_relative`). -/
def SegData.shift (dx dy : ℚ) : SegData → SegData
  | .moveTo x y => .moveTo (x + dx) (y + dy)
  | .lineTo x y => .lineTo (x + dx) (y + dy)
  | .hline x => .hline (x + dx)
  | .vline y => .vline (y + dy)
  | .curveTo x1 y1 x2 y2 x y => .curveTo (x1 + dx) (y1 + dy) (x2 + dx) (y2 + dy) (x + dx) (y + dy)
  | .smooth x2 y2 x y => .smooth (x2 + dx) (y2 + dy) (x + dx) (y + dy)
  | .quad x1 y1 x y => .quad (x1 + dx) (y1 + dy) (x + dx) (y + dy)
  | .smoothQuad x y => .smoothQuad (x + dx) (y + dy)
  | .arc rx ry rot l s x y => .arc rx ry rot l s (x + dx) (y + dy)
  | .close => .close

/-- Positions remembered by `conv_to_absolute`/`conv_to_relative`: the previous point and the last MoveTo. -/
structure Pos where
  x : ℚ
  y : ℚ
  mx : ℚ
  my : ℚ

/-- Update of the remembered positions by an absolute segment. -/
def Pos.advance (p : Pos) (d : SegData) : Pos :=
  match d with
  | .close => { p with x := p.mx, y := p.my }
  | .moveTo x y => { x := x, y := y, mx := x, my := y }
  | d => { p with x := d.x?.getD p.x, y := d.y?.getD p.y }

/-- `Path::conv_to_absolute` of svgdom (called at `src/task/paths/mod.rs:77`), from its documented behaviour. -/
def convToAbsolute (p : Pos) : Path → Path
  | [] => []
  | s :: t =>
    let d := if s.abs then s.data else s.data.shift p.x p.y
    mkAbs d :: convToAbsolute (p.advance d) t

/-- `Path::conv_to_relative` of svgdom (called at `src/task/paths/mod.rs:100`), from its documented behaviour. -/
def convToRelative (p : Pos) : Path → Path
  | [] => []
  | s :: t =>
    let d := if s.abs then s.data else s.data.shift p.x p.y
    ⟨false, d.shift (-p.x) (-p.y)⟩ :: convToRelative (p.advance d) t

/-- The initial position: `prev_x = prev_y = prev_mx = prev_my = 0`. -/
def pos0 : Pos := ⟨0, 0, 0, 0⟩

/-- `utils::resolve_xy(path, i - 1)`, `src/task/paths/mod.rs:117-136`: the coordinates of the last segment before `i`
that is not a ClosePath. -/
def resolveXY : List Seg → Option (ℚ × ℚ)
  | [] => none
  | s :: rev =>
    if s.data.isClose then resolveXY rev
    else match s.data.x?, s.data.y? with
      | some x, some y => some (x, y)
      | _, _ => none

/-! ### conv_segments.rs -/

/-- "if let MoveTo { x, y } = path.d[i - 1]", `src/task/paths/conv_segments.rs:57-60`: the remembered MoveTo. -/
def knownM : List Seg → ℚ × ℚ → ℚ × ℚ
  | ⟨_, .moveTo x y⟩ :: _, _ => (x, y)
  | _, m => m

/-- `path.d[i - 1].cmd() == ClosePath`, `src/task/paths/conv_segments.rs:62`. -/
def prevIsClose : List Seg → Bool
  | s :: _ => s.data.isClose
  | [] => false

/-- The loop of `fix_m`, `src/task/paths/conv_segments.rs:49-70`.  After an insertion the next iteration sees the
inserted MoveTo as previous segment and moves on, so the two iterations are done at once. -/
def fixMLoop : List Seg → Path → ℚ × ℚ → Path
  | rev, [], _ => rev.reverse
  | rev, c :: t, m =>
    if prevIsClose rev && !c.data.isMove then
      fixMLoop (c :: mkAbs (.moveTo (knownM rev m).1 (knownM rev m).2) :: rev) t (knownM rev m)
    else fixMLoop (c :: rev) t (knownM rev m)

/-- `fix_m`, `src/task/paths/conv_segments.rs:49-70` -/
def fixM : Path → Path
  | [] => []
  | s :: t => fixMLoop [s] t (0, 0)

/-- The loop of `convert_hv_to_l`, `src/task/paths/conv_segments.rs:74-96`. -/
def hvToLLoop : List Seg → Path → Option Path
  | rev, [] => some rev.reverse
  | rev, c :: t =>
    match c.data with
    | .hline x =>
      match rev with
      | p :: _ => (p.data.y?).bind fun y => hvToLLoop (mkAbs (.lineTo x y) :: rev) t
      | [] => none
    | .vline y =>
      match rev with
      | p :: _ => (p.data.x?).bind fun x => hvToLLoop (mkAbs (.lineTo x y) :: rev) t
      | [] => none
    | _ => hvToLLoop (c :: rev) t

/-- `convert_hv_to_l`, `src/task/paths/conv_segments.rs:74-96` (index starts at 1). -/
def hvToL : Path → Option Path
  | [] => some []
  | s :: t => hvToLLoop [s] t

/-- `convert_l_to_hv`, `src/task/paths/conv_segments.rs:99-134`. -/
def lToHV : ℚ → ℚ → Path → Option Path
  | _, _, [] => some []
  | px, py, s :: t =>
    match s.data with
    | .lineTo x y =>
      let s' := if px = x ∧ py ≠ y then mkAbs (.vline y)
        else if px ≠ x ∧ py = y then mkAbs (.hline x)
        else s
      (lToHV x y t).map (s' :: ·)
    | .close => (lToHV px py t).map (s :: ·)
    | d =>
      match d.x?, d.y? with
      | some x, some y => (lToHV x y t).map (s :: ·)
      | _, _ => none

/-- `is_point_on_line`, `src/task/paths/conv_segments.rs:209-245`.  With `x1 = x2` the divisions give NaN or an
infinity, whose distance is not fuzzy zero, so the result is `false`. -/
def isPointOnLine (x1 y1 x2 y2 x y : ℚ) : Bool :=
  if x1 = x2 then false
  else
    let a := (y2 - y1) / (x2 - x1)
    let b := y1 - a * x1
    if y - (a * x + b) ≠ 0 then false
    else
      let a := (y1 - y2) / (x1 - x2)
      let b := ((y1 + y2) - a * (x1 + x2)) / 2
      let c := a * x + b
      if y = c then
        (decide (x1 < x) && decide (x < x2)) || (decide (x1 < x2) && decide (x < x1))
      else false

/-- `is_vlineto`, `src/task/paths/conv_segments.rs:144-154`. -/
def isVLine (px py x1 y1 x2 y2 x y : ℚ) : Bool :=
  decide (px = x) && decide (x1 = x2) && decide (x1 = x) && decide (py ≤ y1) && decide (y2 ≤ y)

/-- `is_hlineto`, `src/task/paths/conv_segments.rs:156-166`. -/
def isHLine (px py x1 y1 x2 y2 x y : ℚ) : Bool :=
  decide (py = y) && decide (y1 = y2) && decide (y1 = y) && decide (px ≤ x1) && decide (x2 ≤ x)

/-- `is_lineto`, `src/task/paths/conv_segments.rs:168-171`. -/
def isLine (px py x1 y1 x2 y2 x y : ℚ) : Bool :=
  isPointOnLine px py x y x1 y1 && isPointOnLine px py x y x2 y2

/-- `(nx1, ny1)`, `src/task/paths/conv_segments.rs:183-191`. -/
def reflected (prev : Seg) (px py : ℚ) : ℚ × ℚ :=
  match prev.data with
  | .curveTo _ _ px2 py2 qx qy => (qx * 2 - px2, qy * 2 - py2)
  | .smooth px2 py2 qx qy => (qx * 2 - px2, qy * 2 - py2)
  | _ => (px, py)

/-- The body of the loop in `_convert_segments`, `src/task/paths/conv_segments.rs:142-203`: the replacement of the
current segment, if any. `prev` is the previous segment, `(px, py)` the result of `resolve_xy`. -/
def convertOne (prev : Seg) (px py : ℚ) (c : Seg) : Option Seg :=
  match c.data with
  | .curveTo x1 y1 x2 y2 x y =>
    if isVLine px py x1 y1 x2 y2 x y then some (mkAbs (.lineTo px y))
    else if isHLine px py x1 y1 x2 y2 x y then some (mkAbs (.lineTo x py))
    else if isLine px py x1 y1 x2 y2 x y then some (mkAbs (.lineTo x y))
    else
      if x1 = (reflected prev px py).1 ∧ y1 = (reflected prev px py).2 then some (mkAbs (.smooth x2 y2 x y)) else none
  | _ => none

/-- The loop of `_convert_segments`, `src/task/paths/conv_segments.rs:136-207`. -/
def convertLoop : List Seg → Path → Bool → Option (Path × Bool)
  | rev, [], ch => some (rev.reverse, ch)
  | rev, c :: t, ch =>
    match rev, resolveXY rev with
    | prev :: _, some (px, py) =>
      match convertOne prev px py c with
      | some c' => convertLoop (c' :: rev) t true
      | none => convertLoop (c :: rev) t ch
    | _, _ => none

/-- `_convert_segments`, `src/task/paths/conv_segments.rs:136-207` -/
def convertPass : Path → Option (Path × Bool)
  | [] => some ([], false)
  | s :: t => convertLoop [s] t false

/-- The number of CurveTo segments: the measure that makes `convert_segments` terminate. -/
def countC (p : Path) : Nat := p.countP (fun s => match s.data with | .curveTo .. => true | _ => false)

theorem convertOne_C {prev c c' : Seg} {px py : ℚ} (h : convertOne prev px py c = some c') :
    countC [c] = 1 ∧ countC [c'] = 0 := by
  unfold convertOne at h
  cases hc : c.data <;> simp [hc] at h
  refine ⟨by simp [countC, hc], ?_⟩
  split at h
  · cases h; rfl
  split at h
  · cases h; rfl
  split at h
  · cases h; rfl
  split at h
  · cases h; rfl
  · cases h

theorem convertLoop_count : ∀ rest rev ch p ch', convertLoop rev rest ch = some (p, ch') →
    countC p ≤ countC rev + countC rest ∧ (ch = false → ch' = true → countC p < countC rev + countC rest) := by
  intro rest
  induction rest with
  | nil =>
    intro rev ch p ch' h
    simp [convertLoop] at h
    obtain ⟨rfl, rfl⟩ := h
    simp [countC]
  | cons c t ih =>
    intro rev ch p ch' h
    unfold convertLoop at h
    split at h
    · rename_i prev rv px py hr
      split at h
      · rename_i c' hc
        have := ih _ _ _ _ h
        have hcc := convertOne_C hc
        simp only [countC, List.countP_cons, List.countP_nil] at this hcc ⊢
        constructor
        · omega
        · intro _ _; omega
      · have := ih _ _ _ _ h
        simp only [countC, List.countP_cons] at this ⊢
        constructor
        · omega
        · intro h1 h2
          have := this.2 h1 h2
          omega
    · cases h

theorem convertPass_count {p q : Path} (h : convertPass p = some (q, true)) : countC q < countC p := by
  cases p with
  | nil => simp [convertPass] at h
  | cons s t =>
    have := (convertLoop_count t [s] false q true h).2 rfl rfl
    simp only [countC, List.countP_cons, List.countP_nil] at this ⊢
    omega

/-- `convert_segments`, `src/task/paths/conv_segments.rs:34-41`: repeat until nothing changes. -/
def convertSegments (p : Path) : Option Path :=
  match h : convertPass p with
  | none => none
  | some (q, false) => some q
  | some (q, true) =>
    have := convertPass_count h
    convertSegments q
termination_by countC p

/-! ### rm_unused.rs -/

/-- `drain_by_pair` with `DrainMode::Single`, `src/task/paths/rm_unused.rs:63-93`: the previous segment is removed and
the index stays, so that the next pair is (current, next). -/
def drainSingle (p : Seg → Seg → Bool) : List Seg → Path → Path
  | rev, [] => rev.reverse
  | [], c :: t => drainSingle p [c] t
  | prev :: rev, c :: t =>
    if p prev c then drainSingle p (c :: rev) t else drainSingle p (c :: prev :: rev) t

/-- `drain_by_pair` with `DrainMode::Both`, `src/task/paths/rm_unused.rs:63-93`: both segments are removed; if `i > 1`
the index goes back by one, else (`i = 1`) it goes forward by one. -/
def drainBoth (p : Seg → Seg → Bool) : List Seg → Path → Path
  | rev, [] => rev.reverse
  | [], c :: t => drainBoth p [c] t
  | [prev], c :: t =>
    if p prev c then
      -- removed indices 0 and 1, the index becomes 2
      match t with
      | a :: b :: t' => drainBoth p [b, a] t'
      | t => t
    else drainBoth p [c, prev] t
  | prev :: q :: rev, c :: t =>
    if p prev c then drainBoth p (q :: rev) t else drainBoth p (c :: prev :: q :: rev) t
termination_by _ rest => rest.length

/-- `remove_mm`, `src/task/paths/rm_unused.rs:100-104` -/
def removeMM (d : Path) : Path := drainSingle (fun a b => a.data.isMove && b.data.isMove) [] d
/-- `remove_zz`, `src/task/paths/rm_unused.rs:107-111` -/
def removeZZ (d : Path) : Path := drainSingle (fun a b => a.data.isClose && b.data.isClose) [] d
/-- `remove_mz`, `src/task/paths/rm_unused.rs:114-118` -/
def removeMZ (d : Path) : Path := drainBoth (fun a b => a.data.isMove && b.data.isClose) [] d
/-- `remove_equal`, `src/task/paths/rm_unused.rs:121-125` -/
def removeEqual (d : Path) : Path := drainSingle (fun a b => decide (a = b)) [] d

/-- `remove_zero_lenght`, `src/task/paths/rm_unused.rs:128-150` (loop). -/
def removeZeroLoop : List Seg → Path → Option Path
  | rev, [] => some rev.reverse
  | rev, c :: t =>
    match resolveXY rev with
    | none => none
    | some (px, py) =>
      match c.data with
      | .lineTo x y => if x = px ∧ y = py then removeZeroLoop rev t else removeZeroLoop (c :: rev) t
      | _ => removeZeroLoop (c :: rev) t

/-- `remove_zero_lenght`, `src/task/paths/rm_unused.rs:128-150` -/
def removeZero : Path → Option Path
  | [] => some []
  | s :: t => removeZeroLoop [s] t

/-- `is_line_based`, `src/task/paths/rm_unused.rs:208-216` -/
def isLineBased : SegData → Bool
  | .lineTo .. | .hline .. | .vline .. => true
  | _ => false

/-- Does the line based segment at the head of `rev` end at `(mx, my)`?
(`src/task/paths/rm_unused.rs:169-171, 187-189`) -/
def endsAt (mx my : ℚ) (rev : List Seg) : Option Bool :=
  match rev with
  | [] => none
  | prev :: _ =>
    if isLineBased prev.data then (resolveXY rev).map fun xy => decide (mx = xy.1 ∧ my = xy.2)
    else some false

/-- "Remember last MoveTo", `src/task/paths/rm_unused.rs:198-202`. -/
def remember (c : Seg) (mx my : ℚ) : ℚ × ℚ :=
  match c.data with
  | .moveTo x y => (x, y)
  | _ => (mx, my)

/-- The measure of the loop in `process_lz`: removing or replacing a line based segment makes it smaller, as does
moving on. -/
def lzMeasure (rev rest : List Seg) : Nat :=
  rest.length + (rev ++ rest).countP (fun s => isLineBased s.data)

theorem endsAt_true {mx my : ℚ} {rev : List Seg} (h : endsAt mx my rev = some true) :
    ∃ prev rv, rev = prev :: rv ∧ isLineBased prev.data = true := by
  cases rev with
  | nil => simp [endsAt] at h
  | cons a b =>
    refine ⟨a, b, rfl, ?_⟩
    by_cases h' : isLineBased a.data = true
    · exact h'
    · simp [endsAt, h'] at h

/-- The loop of `process_lz`, `src/task/paths/rm_unused.rs:152-206`. -/
def processLZLoop (rev : List Seg) (rest : Path) (mx my : ℚ) : Option Path :=
  match rest with
  | [] => some rev.reverse
  | c :: t =>
    if c.data.isClose then
      match hE : endsAt mx my rev with
      | none => none
      | some true => processLZLoop rev.tail (c :: t) mx my  -- remove the previous segment
      | some false => processLZLoop (c :: rev) t mx my
    else if t = [] then
      -- `is_last`: the current segment itself is looked at
      match hE : endsAt mx my (c :: rev) with
      | none => none
      | some true => processLZLoop rev (mkAbs .close :: t) mx my
      | some false => processLZLoop (c :: rev) t (remember c mx my).1 (remember c mx my).2
    else if c.data.isMove then
      match hE : endsAt mx my rev with
      | none => none
      | some true => processLZLoop (mkAbs .close :: rev.tail) (c :: t) mx my  -- replace the previous segment
      | some false => processLZLoop (c :: rev) t (remember c mx my).1 (remember c mx my).2
    else processLZLoop (c :: rev) t (remember c mx my).1 (remember c mx my).2
termination_by lzMeasure rev rest
decreasing_by
  · obtain ⟨prev, rv, rfl, h⟩ := endsAt_true hE
    simp only [lzMeasure, List.countP_append, List.countP_cons, List.length_cons, List.tail_cons, h]
    simp
  · simp only [lzMeasure, List.countP_append, List.countP_cons, List.length_cons]
    omega
  · obtain ⟨prev, rv, he, h⟩ := endsAt_true hE
    cases he
    have hz : isLineBased (mkAbs .close).data = false := rfl
    simp only [lzMeasure, List.countP_append, List.countP_cons, List.length_cons, h, hz]
    simp
  · simp only [lzMeasure, List.countP_append, List.countP_cons, List.length_cons]
    omega
  · obtain ⟨prev, rv, rfl, h⟩ := endsAt_true hE
    have hz : isLineBased (mkAbs .close).data = false := rfl
    simp only [lzMeasure, List.countP_append, List.countP_cons, List.length_cons, List.tail_cons, h, hz]
    simp
  · simp only [lzMeasure, List.countP_append, List.countP_cons, List.length_cons]
    omega
  · simp only [lzMeasure, List.countP_append, List.countP_cons, List.length_cons]
    omega

/-- `process_lz`, `src/task/paths/rm_unused.rs:152-206` -/
def processLZ : Path → Option Path
  | [] => some []
  | s :: t =>
    match s.data.x?, s.data.y? with
    | some x, some y => processLZLoop [s] t x y
    | _, _ => none

/-- One round of the loop in `remove_unused_segments`, `src/task/paths/rm_unused.rs:42-48`. -/
def removeRound (d : Path) : Option Path := do
  let d := removeMM d
  let d := removeZZ d
  let d := removeMZ d
  let d ← processLZ d
  let d := removeEqual d
  removeZero d

/-- The measure that makes `remove_unused_segments` terminate. -/
def size (d : Path) : Nat := d.length + d.countP (fun s => isLineBased s.data)

/-- A step that removes or closes something makes the path smaller. -/
def Shrinks (d d' : Path) : Prop := d' = d ∨ size d' < size d

theorem Shrinks.trans {a b c : Path} (h : Shrinks a b) (k : Shrinks b c) : Shrinks a c := by
  rcases h with rfl | h
  · exact k
  · rcases k with rfl | k
    · exact .inr h
    · exact .inr (by omega)

theorem size_append (a b : Path) : size (a ++ b) = size a + size b := by
  simp only [size, List.length_append, List.countP_append]; omega

theorem size_reverse (a : Path) : size a.reverse = size a := by
  simp only [size, List.length_reverse, List.countP_reverse]

theorem size_cons (s : Seg) (a : Path) :
    size (s :: a) = 1 + (if isLineBased s.data then 1 else 0) + size a := by
  simp only [size, List.length_cons, List.countP_cons]; omega

theorem size_nil : size [] = 0 := rfl

theorem drainSingle_shrinks (p : Seg → Seg → Bool) : ∀ rest rev,
    Shrinks (rev.reverse ++ rest) (drainSingle p rev rest) := by
  intro rest
  induction rest with
  | nil => intro rev; cases rev <;> exact .inl (by simp [drainSingle])
  | cons c t ih =>
    intro rev
    cases rev with
    | nil => simpa [drainSingle] using ih [c]
    | cons prev rv =>
      unfold drainSingle
      split
      · refine Shrinks.trans ?_ (ih _)
        right
        simp only [size_append, size_cons, size_nil, List.reverse_cons]; omega
      · simpa using ih (c :: prev :: rv)

theorem drainBoth_shrinks (p : Seg → Seg → Bool) : ∀ n rest rev, rest.length ≤ n →
    Shrinks (rev.reverse ++ rest) (drainBoth p rev rest) := by
  intro n
  induction n with
  | zero =>
    intro rest rev h
    have : rest = [] := List.length_eq_zero_iff.1 (by omega)
    subst this
    left; rcases rev with _ | ⟨a, _ | ⟨b, r⟩⟩ <;> simp [drainBoth]
  | succ n ih =>
    intro rest rev h
    cases rest with
    | nil => left; rcases rev with _ | ⟨a, _ | ⟨b, r⟩⟩ <;> simp [drainBoth]
    | cons c t =>
      have ht : t.length ≤ n := by simpa using h
      rcases rev with _ | ⟨prev, _ | ⟨q, rv⟩⟩
      · have := ih t [c] ht
        rw [drainBoth]
        simpa using this
      · rw [drainBoth.eq_def]
        by_cases hp : p prev c = true
        · simp only [hp, if_true]
          rcases t with _ | ⟨a, _ | ⟨b, t'⟩⟩
          · right; simp [size_cons, size_nil]
          · right; simp only [size_cons, size_append, List.reverse_cons, List.reverse_nil, List.nil_append]; omega
          · have := ih t' [b, a] (by simp at ht; omega)
            refine Shrinks.trans (b := a :: b :: t') ?_ (by simpa using this)
            right; simp only [size_cons, size_append, List.reverse_cons, List.reverse_nil, List.nil_append]; omega
        · simp only [hp]
          simpa using ih t [c, prev] ht
      · rw [drainBoth.eq_def]
        by_cases hp : p prev c = true
        · simp only [hp, if_true]
          refine Shrinks.trans ?_ (ih t (q :: rv) ht)
          right; simp only [size_cons, size_append, List.reverse_cons]; omega
        · simp only [hp]
          simpa using ih t (c :: prev :: q :: rv) ht

theorem removeZeroLoop_shrinks : ∀ rest rev d', removeZeroLoop rev rest = some d' →
    Shrinks (rev.reverse ++ rest) d' := by
  intro rest
  induction rest with
  | nil => intro rev d' h; simp [removeZeroLoop] at h; left; simp [h]
  | cons c t ih =>
    intro rev d' h
    unfold removeZeroLoop at h
    split at h
    · cases h
    · split at h
      · split at h
        · refine Shrinks.trans ?_ (ih _ _ h)
          right; simp only [size_append, size_cons, size_nil, List.reverse_cons]; omega
        · simpa using ih _ _ h
      · simpa using ih _ _ h

theorem removeZero_shrinks {d d' : Path} (h : removeZero d = some d') : Shrinks d d' := by
  cases d with
  | nil => simp [removeZero] at h; left; simp [h]
  | cons s t => simpa using removeZeroLoop_shrinks t [s] d' h

theorem processLZLoop_shrinks (rev : List Seg) (rest : Path) (mx my : ℚ) (d' : Path)
    (h : processLZLoop rev rest mx my = some d') : Shrinks (rev.reverse ++ rest) d' := by
  have hz : isLineBased (mkAbs .close).data = false := rfl
  fun_induction processLZLoop rev rest mx my with
  | case1 => simp at h; left; simp [h]
  | case2 => cases h
  | case3 rev mx my c t hc hE ih =>
    obtain ⟨prev, rv, rfl, hl⟩ := endsAt_true hE
    refine Shrinks.trans ?_ (ih h)
    right
    simp only [size_append, size_reverse, size_cons, size_nil, List.reverse_cons, List.tail_cons]; omega
  | case4 rev mx my c t hc hE ih => simpa using ih h
  | case5 => cases h
  | case6 rev mx my c hc hE ih =>
    obtain ⟨prev, rv, he, hl⟩ := endsAt_true hE
    cases he
    refine Shrinks.trans ?_ (ih h)
    right
    simp only [size_append, size_reverse, size_cons, size_nil, List.reverse_cons, List.tail_cons, hl, hz]
    simp
  | case7 rev mx my c hc hE ih => simpa using ih h
  | case8 => cases h
  | case9 rev mx my c t hc ht hm hE ih =>
    obtain ⟨prev, rv, rfl, hl⟩ := endsAt_true hE
    refine Shrinks.trans ?_ (ih h)
    right
    simp only [size_append, size_reverse, size_cons, size_nil, List.reverse_cons, List.tail_cons, hl, hz]
    simp
  | case10 rev mx my c t hc ht hm hE ih => simpa using ih h
  | case11 rev mx my c t hc ht hm ih => simpa using ih h

theorem processLZ_shrinks {d d' : Path} (h : processLZ d = some d') : Shrinks d d' := by
  cases d with
  | nil => simp [processLZ] at h; left; simp [h]
  | cons s t =>
    simp only [processLZ] at h
    split at h
    · simpa using processLZLoop_shrinks [s] t _ _ d' h
    · cases h

theorem removeRound_shrinks {d d' : Path} (h : removeRound d = some d') : Shrinks d d' := by
  simp only [removeRound, Option.bind_eq_bind] at h
  have h1 : Shrinks d (removeMM d) := by simpa [removeMM] using drainSingle_shrinks _ d []
  have h2 : Shrinks (removeMM d) (removeZZ (removeMM d)) := by
    simpa [removeZZ] using drainSingle_shrinks (fun a b => a.data.isClose && b.data.isClose) (removeMM d) []
  have h3 : Shrinks (removeZZ (removeMM d)) (removeMZ (removeZZ (removeMM d))) := by
    simpa [removeMZ] using drainBoth_shrinks (fun a b => a.data.isMove && b.data.isClose) _ (removeZZ (removeMM d)) [] (Nat.le_refl _)
  cases h4 : processLZ (removeMZ (removeZZ (removeMM d))) with
  | none => simp [h4] at h
  | some e =>
    simp [h4] at h
    have h5 : Shrinks e (removeEqual e) := by
      simpa [removeEqual] using drainSingle_shrinks (fun a b => decide (a = b)) e []
    exact h1.trans (h2.trans (h3.trans ((processLZ_shrinks h4).trans (h5.trans (removeZero_shrinks h)))))

/-- `remove_unused_segments`, `src/task/paths/rm_unused.rs:30-54`.  Each step of a round only removes segments or
replaces lines by ClosePath (`removeRound_shrinks`), so `is_changed` is set exactly if the path differs. -/
def removeUnused (d : Path) : Option Path :=
  if d.length = 1 then some []
  else
    match h : removeRound d with
    | none => none
    | some d' =>
      if d' = [] then some []
      else if hne : d' = d then some d
      else
        have : size d' < size d := (removeRound_shrinks h).resolve_left hne
        removeUnused d'
termination_by size d

/-! ### apply_transform.rs -/

/-- svgdom's `Transform` (a 2x3 matrix). -/
structure Transform where
  a : ℚ
  b : ℚ
  c : ℚ
  d : ℚ
  e : ℚ
  f : ℚ
  deriving DecidableEq, Repr

/-- svgdom's `Transform::apply`. -/
def Transform.apply (t : Transform) (x y : ℚ) : ℚ × ℚ := (t.a * x + t.c * y + t.e, t.b * x + t.d * y + t.f)

/-- `apply_transform`, `src/task/paths/apply_transform.rs:28-77`, for one segment; `sx` is the scale. -/
def applySeg (t : Transform) (sx : ℚ) : SegData → SegData
  | .moveTo x y => .moveTo (t.apply x y).1 (t.apply x y).2
  | .lineTo x y => .lineTo (t.apply x y).1 (t.apply x y).2
  | .smoothQuad x y => .smoothQuad (t.apply x y).1 (t.apply x y).2
  | .hline x => .hline (t.apply x 0).1
  | .vline y => .vline (t.apply 0 y).2
  | .curveTo x1 y1 x2 y2 x y =>
    .curveTo (t.apply x1 y1).1 (t.apply x1 y1).2 (t.apply x2 y2).1 (t.apply x2 y2).2 (t.apply x y).1 (t.apply x y).2
  | .smooth x2 y2 x y => .smooth (t.apply x2 y2).1 (t.apply x2 y2).2 (t.apply x y).1 (t.apply x y).2
  | .quad x1 y1 x y => .quad (t.apply x1 y1).1 (t.apply x1 y1).2 (t.apply x y).1 (t.apply x y).2
  | .arc rx ry rot l s x y => .arc (rx * sx) (ry * sx) rot l s (t.apply x y).1 (t.apply x y).2
  | .close => .close

/-- `apply_transform`, `src/task/paths/apply_transform.rs:28-77` -/
def applyTransform (t : Transform) (sx : ℚ) (p : Path) : Path := p.map (fun s => { s with data := applySeg t sx s.data })

/-! ### mod.rs -/

/-- The options `process_path` looks at. -/
structure PathOpts where
  convertSegments : Bool
  removeUnusedSegments : Bool

/-- `if opt.convert_segments`, `src/task/paths/mod.rs:82-84` -/
def convStep (o : PathOpts) (p : Path) : Option Path := if o.convertSegments then convertSegments p else some p

/-- `if opt.remove_unused_segments && !has_marker`, `src/task/paths/mod.rs:86-87` -/
def rmStep (o : PathOpts) (hasMarker : Bool) (p : Path) : Option Path :=
  if o.removeUnusedSegments && !hasMarker then removeUnused p else some p

/-- `if let Some(ref ts) = ts`, `src/task/paths/mod.rs:94-96`; with the transform comes its scale. -/
def tsStep (ts : Option (Transform × ℚ)) (p : Path) : Path :=
  match ts with
  | some (t, sx) => applyTransform t sx p
  | none => p

/-- `process_path`, `src/task/paths/mod.rs:72-110`; `ts` is the transform to apply with its scale. -/
def processPath (p : Path) (hasMarker : Bool) (ts : Option (Transform × ℚ)) (o : PathOpts) : Option Path :=
  if p = [] then some []
  else
    (hvToL (fixM (convToAbsolute pos0 p))).bind fun p =>
    (convStep o p).bind fun p =>
    (rmStep o hasMarker p).bind fun p =>
    if p = [] then some []
    else (lToHV 0 0 (tsStep ts p)).map (convToRelative pos0)

end Verif.Paths
