import Verif.Round
import Verif.PathLemmas
import Mathlib.Tactic.NormNum
import Mathlib.Tactic.IntervalCases
import Mathlib.Tactic.Positivity
import Mathlib.Tactic.FieldSimp
import Mathlib.Tactic.Ring
/-
Properties C10, C11, C12.
-/
namespace Verif.Round
open Verif.Paths

theorem powVec_eq {k : Nat} (h1 : 1 ≤ k) (h2 : k ≤ 12) : powVec[k]? = some (10 ^ k) := by
  interval_cases k <;> simp [powVec] <;> norm_num

/-- For the precisions the command line accepts (1..12, C09) rounding is `rnd (10^k)`. -/
theorem roundNumber_eq {k : Nat} (h1 : 1 ≤ k) (h2 : k ≤ 12) (n : ℚ) : roundNumber k n = .ok (rnd (10 ^ k) n) := by
  have h : (10 : ℚ) ^ k ≠ 0 := by positivity
  simp [roundNumber, powVec_eq h1 h2, rnd]

theorem roundAway_err (q : ℚ) : |(roundAway q : ℚ) - q| ≤ 1 / 2 := by
  unfold roundAway
  split
  · have a := Int.floor_le (q + 1 / 2)
    have b := Int.lt_floor_add_one (q + 1 / 2)
    rw [abs_le]; constructor <;> linarith
  · have a := Int.floor_le (-q + 1 / 2)
    have b := Int.lt_floor_add_one (-q + 1 / 2)
    push_cast
    rw [abs_le]; constructor <;> linarith

theorem roundAway_int (m : ℤ) : roundAway (m : ℚ) = m := by
  have h : ∀ z : ℤ, ⌊(z : ℚ) + 1 / 2⌋ = z := by
    intro z
    rw [Int.floor_eq_iff]
    constructor <;> linarith
  unfold roundAway
  split
  · exact h m
  · have := h (-m)
    push_cast at this
    rw [this]; ring

theorem roundAway_neg (q : ℚ) : roundAway (-q) = -roundAway q := by
  unfold roundAway
  rcases lt_trichotomy q 0 with h | rfl | h
  · rw [if_pos (by linarith), if_neg (by linarith)]; simp
  · norm_num
  · rw [if_neg (by linarith), if_pos (by linarith)]; simp

theorem roundAway_nonneg {q : ℚ} (h : 0 ≤ q) : 0 ≤ roundAway q := by
  unfold roundAway
  rw [if_pos h]
  exact Int.floor_nonneg.2 (by linarith)

theorem roundAway_mono {a b : ℚ} (h : a ≤ b) : roundAway a ≤ roundAway b := by
  by_cases ha : 0 ≤ a
  · unfold roundAway
    rw [if_pos ha, if_pos (by linarith)]
    exact Int.floor_le_floor (by linarith)
  · by_cases hb : 0 ≤ b
    · have h1 := roundAway_nonneg hb
      have h2 : 0 ≤ roundAway (-a) := roundAway_nonneg (by linarith)
      rw [roundAway_neg] at h2
      linarith
    · unfold roundAway
      rw [if_neg ha, if_neg hb]
      have : ⌊-b + 1 / 2⌋ ≤ ⌊-a + 1 / 2⌋ := Int.floor_le_floor (by linarith)
      linarith

theorem rnd_err {pow : ℚ} (hp : 0 < pow) (n : ℚ) : |rnd pow n - n| ≤ 1 / (2 * pow) := by
  have h := roundAway_err (n * pow)
  have e : rnd pow n - n = ((roundAway (n * pow) : ℚ) - n * pow) / pow := by unfold rnd; field_simp
  rw [e, abs_div, abs_of_pos hp, div_le_div_iff₀ hp (by positivity)]
  nlinarith

/-- C10: for every accepted precision and every number, rounding gives a number with at most that many decimals which
is within half a unit of the last place, and no number with that many decimals is nearer. -/
theorem C10_round_nearest {k : Nat} (h1 : 1 ≤ k) (h2 : k ≤ 12) (n : ℚ) :
    ∃ r, roundNumber k n = .ok r ∧ |r - n| ≤ 1 / (2 * 10 ^ k) ∧ (∃ m : ℤ, r * 10 ^ k = m) ∧
      ∀ m : ℤ, |r - n| ≤ |m / 10 ^ k - n| := by
  have hp : (0 : ℚ) < 10 ^ k := by positivity
  refine ⟨_, roundNumber_eq h1 h2 n, rnd_err hp n, ⟨roundAway (n * 10 ^ k), by unfold rnd; field_simp⟩, ?_⟩
  intro m
  generalize (10 : ℚ) ^ k = pow at *
  have e1 : rnd pow n - n = ((roundAway (n * pow) : ℚ) - n * pow) / pow := by unfold rnd; field_simp
  have e2 : (m : ℚ) / pow - n = ((m : ℚ) - n * pow) / pow := by field_simp
  rw [e1, e2, abs_div, abs_div]
  refine div_le_div_of_nonneg_right ?_ (abs_nonneg _)
  have h := roundAway_err (n * pow)
  by_cases hm : m = roundAway (n * pow)
  · rw [hm]
  · have hge : (1 : ℚ) ≤ |(m : ℚ) - roundAway (n * pow)| := by
      have : 1 ≤ |m - roundAway (n * pow)| := Int.one_le_abs (sub_ne_zero.2 hm)
      exact_mod_cast this
    have htri : |(m : ℚ) - roundAway (n * pow)| ≤ |(m : ℚ) - n * pow| + |(roundAway (n * pow) : ℚ) - n * pow| := by
      have : (m : ℚ) - roundAway (n * pow) = ((m : ℚ) - n * pow) - ((roundAway (n * pow) : ℚ) - n * pow) := by ring
      rw [this]; exact abs_sub _ _
    linarith

example : roundNumber 2 (12345 / 10000) = .ok (123 / 100) := by decide +kernel
example : roundNumber 1 (-25 / 100) = .ok (-3 / 10) := by decide +kernel

/-- C10: the precision must be in range. Precision 0, which `--...-precision` refuses, would turn every number into
NaN, and 13 would panic. -/
theorem C10_range_needed (n : ℚ) : roundNumber 0 n = .nan ∧ roundNumber 13 n = .panic := by
  constructor <;> simp [roundNumber, powVec]

/-- C11: rounding is idempotent, order preserving and symmetric, for every accepted precision. -/
theorem C11_idempotent_monotone_odd {k : Nat} (h1 : 1 ≤ k) (h2 : k ≤ 12) :
    (∀ n r, roundNumber k n = .ok r → roundNumber k r = .ok r) ∧
    (∀ a b ra rb, a ≤ b → roundNumber k a = .ok ra → roundNumber k b = .ok rb → ra ≤ rb) ∧
    (∀ n r, roundNumber k n = .ok r → roundNumber k (-n) = .ok (-r)) ∧
    (∀ (m : ℤ), roundNumber k m = .ok m) := by
  have hp : (0 : ℚ) < 10 ^ k := by positivity
  have hid : ∀ z : ℤ, rnd (10 ^ k) (z / 10 ^ k) = z / 10 ^ k := by
    intro z
    unfold rnd
    have : (z : ℚ) / 10 ^ k * 10 ^ k = z := by field_simp
    rw [this, roundAway_int]
  refine ⟨?_, ?_, ?_, ?_⟩
  · intro n r h
    rw [roundNumber_eq h1 h2] at h ⊢
    cases h
    exact congrArg _ (hid _)
  · intro a b ra rb hab ha hb
    rw [roundNumber_eq h1 h2] at ha hb
    cases ha; cases hb
    unfold rnd
    refine div_le_div_of_nonneg_right ?_ hp.le
    exact_mod_cast roundAway_mono (mul_le_mul_of_nonneg_right hab hp.le)
  · intro n r h
    rw [roundNumber_eq h1 h2] at h ⊢
    cases h
    unfold rnd
    rw [neg_mul, roundAway_neg]
    push_cast
    rw [neg_div]
  · intro m
    rw [roundNumber_eq h1 h2]
    unfold rnd
    have : (m : ℚ) * 10 ^ k = ((m * 10 ^ k : ℤ) : ℚ) := by push_cast; ring
    rw [this, roundAway_int]
    push_cast
    congr 1
    field_simp

/-! ### C12 -/

/-- Distance of two points, per coordinate. -/
def Near (h : ℚ) (p q : Pt) : Prop := |p.1 - q.1| ≤ h ∧ |p.2 - q.2| ≤ h

theorem Near.refl {h : ℚ} (hh : 0 ≤ h) (p : Pt) : Near h p p := by simp [Near, hh]

theorem Near.mono {h h' : ℚ} (hh : h ≤ h') {p q : Pt} (hn : Near h p q) : Near h' p q :=
  ⟨hn.1.trans hh, hn.2.trans hh⟩

attribute [local irreducible] rnd Near

theorem near_abs {pow : ℚ} (hp : 0 < pow) (x y : ℚ) : Near (1 / (2 * pow)) (rnd pow x, rnd pow y) (x, y) :=
  by unfold Near; exact ⟨rnd_err hp x, rnd_err hp y⟩

theorem near_rel {pow h : ℚ} (hp : 0 < pow) {p q : Pt} (hn : Near h p q) (x y : ℚ) :
    Near (h + 1 / (2 * pow)) (p.1 + rnd pow x, p.2 + rnd pow y) (q.1 + x, q.2 + y) := by
  unfold Near at hn ⊢
  constructor
  · have e : p.1 + rnd pow x - (q.1 + x) = (p.1 - q.1) + (rnd pow x - x) := by ring
    simp only
    rw [e]
    exact (abs_add_le _ _).trans (add_le_add hn.1 (rnd_err hp x))
  · have e : p.2 + rnd pow y - (q.2 + y) = (p.2 - q.2) + (rnd pow y - y) := by ring
    simp only
    rw [e]
    exact (abs_add_le _ _).trans (add_le_add hn.2 (rnd_err hp y))

theorem near_mix {h : ℚ} {p q p' q' : Pt} (h1 : Near h p q) (h2 : Near h p' q') : Near h (p.1, p'.2) (q.1, q'.2) := by
  unfold Near at *; exact ⟨h1.1, h2.2⟩

theorem round_step_abs {pow : ℚ} (hp : 0 < pow) (pen pen' : Pen) (s : Seg) (ha : s.abs = true)
    (h1 : Near (1 / (2 * pow)) pen'.cur pen.cur) (h2 : Near (1 / (2 * pow)) pen'.start pen.start) :
    Near (1 / (2 * pow)) (pen'.after { s with data := roundSeg pow s.data }).cur (pen.after s).cur ∧
    Near (1 / (2 * pow)) (pen'.after { s with data := roundSeg pow s.data }).start (pen.after s).start := by
  obtain ⟨b, d⟩ := s
  simp only at ha; subst ha
  cases d <;> simp only [roundSeg, Pen.after, Pen.curve, Pen.pt, if_true, Curve.fin] <;>
    first
    | exact ⟨near_abs hp _ _, near_abs hp _ _⟩
    | exact ⟨near_abs hp _ _, h2⟩
    | exact ⟨h2, h2⟩
    | exact ⟨near_mix (near_abs hp _ 0) h1, h2⟩
    | exact ⟨near_mix h1 (near_abs hp 0 _), h2⟩

/-- C12 for a path with absolute commands: after every prefix the pen is within half a unit of where it should be. -/
theorem C12_absolute_paths {k : Nat} (p : Path) (ha : AllAbs p) (i : Nat) :
    Near (1 / (2 * 10 ^ k)) (pen0.afterAll ((roundPath (10 ^ k) p).take i)).cur (pen0.afterAll (p.take i)).cur := by
  have hp : (0 : ℚ) < 10 ^ k := by positivity
  have key : ∀ (p : Path) (pen pen' : Pen), AllAbs p → Near (1 / (2 * 10 ^ k)) pen'.cur pen.cur →
      Near (1 / (2 * 10 ^ k)) pen'.start pen.start →
      Near (1 / (2 * 10 ^ k)) (pen'.afterAll (roundPath (10 ^ k) p)).cur (pen.afterAll p).cur := by
    intro p
    induction p with
    | nil => intro pen pen' _ h _; exact h
    | cons s t ih =>
      intro pen pen' ha h1 h2
      obtain ⟨g1, g2⟩ := round_step_abs hp pen pen' s ha.head h1 h2
      exact ih _ _ ha.tail g1 g2
  have e : (roundPath (10 ^ k) p).take i = roundPath (10 ^ k) (p.take i) := by simp [roundPath, List.map_take]
  rw [e]
  have hz : (0 : ℚ) ≤ 1 / (2 * 10 ^ k) := by positivity
  exact key _ _ _ (fun s hs => ha s (List.mem_of_mem_take hs)) (Near.refl hz _) (Near.refl hz _)

theorem round_step_any {pow h : ℚ} (hp : 0 < pow) (hh : 0 ≤ h) (pen pen' : Pen) (s : Seg)
    (h1 : Near h pen'.cur pen.cur) (h2 : Near h pen'.start pen.start) :
    Near (h + 1 / (2 * pow)) (pen'.after { s with data := roundSeg pow s.data }).cur (pen.after s).cur ∧
    Near (h + 1 / (2 * pow)) (pen'.after { s with data := roundSeg pow s.data }).start (pen.after s).start := by
  have hpos : 0 < 1 / (2 * pow) := by positivity
  have m1 := h1.mono (h' := h + 1 / (2 * pow)) (by linarith)
  have m2 := h2.mono (h' := h + 1 / (2 * pow)) (by linarith)
  have ma : ∀ x y, Near (h + 1 / (2 * pow)) (rnd pow x, rnd pow y) (x, y) := fun x y =>
    (near_abs hp x y).mono (by linarith)
  have mr := fun x y => near_rel hp h1 x y
  obtain ⟨b, d⟩ := s
  cases b <;> cases d <;>
    simp only [roundSeg, Pen.after, Pen.curve, Pen.pt, if_true, Curve.fin, Bool.false_eq_true, if_false] <;>
    first
    | exact ⟨ma _ _, ma _ _⟩
    | exact ⟨mr _ _, mr _ _⟩
    | exact ⟨ma _ _, m2⟩
    | exact ⟨mr _ _, m2⟩
    | exact ⟨m2, m2⟩
    | exact ⟨near_mix (ma _ 0) m1, m2⟩
    | exact ⟨near_mix m1 (ma 0 _), m2⟩
    | exact ⟨near_mix (mr _ 0) m1, m2⟩
    | exact ⟨near_mix m1 (mr 0 _), m2⟩

/-- C12, the full statement: however long a path is, rounding it never moves the pen by more than half a unit. -/
def C12_full : Prop := ∀ (k : Nat), 1 ≤ k → k ≤ 12 → ∀ p : Path, StartsWithMove p → ∀ i : Nat,
  Near (1 / (2 * 10 ^ k)) (pen0.afterAll ((roundPath (10 ^ k) p).take i)).cur (pen0.afterAll (p.take i)).cur

/-- C12 for every path (relative or absolute commands): the error grows at most by half a unit per command.
Missing: a bound that does not depend on the number of commands, which is false (below). -/
theorem C12_error_per_command_partial {k : Nat} (p : Path) :
    Near (p.length * (1 / (2 * 10 ^ k))) (pen0.afterAll (roundPath (10 ^ k) p)).cur (pen0.afterAll p).cur := by
  have hp : (0 : ℚ) < 10 ^ k := by positivity
  have key : ∀ (p : Path) (pen pen' : Pen) (h : ℚ), 0 ≤ h → Near h pen'.cur pen.cur → Near h pen'.start pen.start →
      Near (h + p.length * (1 / (2 * 10 ^ k))) (pen'.afterAll (roundPath (10 ^ k) p)).cur (pen.afterAll p).cur := by
    intro p
    induction p with
    | nil => intro pen pen' h _ h1 _; simpa [roundPath] using h1
    | cons s t ih =>
      intro pen pen' h hh h1 h2
      have hpos : (0 : ℚ) < 1 / (2 * 10 ^ k) := by positivity
      obtain ⟨g1, g2⟩ := round_step_any hp hh pen pen' s h1 h2
      have := ih _ _ (h + 1 / (2 * 10 ^ k)) (by linarith) g1 g2
      refine Near.mono ?_ this
      push_cast [List.length_cons]
      linarith
  have := key p pen0 pen0 0 le_rfl (Near.refl le_rfl _) (Near.refl le_rfl _)
  simpa using this

/-- `m 0 0` and `n` times `h s`. -/
def walk (s : ℚ) (n : Nat) : Path := ⟨false, .moveTo 0 0⟩ :: List.replicate n ⟨false, .hline s⟩

theorem walk_end (s : ℚ) (n : Nat) : (pen0.afterAll (walk s n)).cur = (n * s, 0) := by
  have key : ∀ n (pen : Pen), (pen.afterAll (List.replicate n ⟨false, .hline s⟩)).cur =
      (pen.cur.1 + n * s, pen.cur.2) := by
    intro n
    induction n with
    | zero => intro pen; simp
    | succ n ih =>
      intro pen
      rw [List.replicate_succ, Pen.afterAll_cons, ih]
      simp only [Pen.after, Pen.curve, Curve.fin]
      push_cast
      simp only [Bool.false_eq_true, if_false, Prod.mk.injEq, and_true]
      ring
  rw [walk, Pen.afterAll_cons, key]
  simp [Pen.after, Pen.pt, pen0]

/-- C12 is false: relative commands accumulate the error without bound.  (Path processing writes relative
commands, after the rounding; with `--multipass` the next pass rounds them.)
At precision 1, `m 0 0` followed by `n` times `h 0.04` stays at 0 instead of reaching `0.04 n`. -/
theorem C12_refuted_drift (bound : ℚ) : ∃ n : Nat,
    ¬ Near bound (pen0.afterAll (roundPath (10 ^ 1) (walk (4 / 100) n))).cur (pen0.afterAll (walk (4 / 100) n)).cur := by
  obtain ⟨n, hn⟩ := exists_nat_gt (bound * 25)
  refine ⟨n, fun h => ?_⟩
  have h1 : roundPath (10 ^ 1) (walk (4 / 100) n) = walk 0 n := by
    have r0 : rnd (10 ^ 1) 0 = 0 := by decide +kernel
    have r4 : rnd (10 ^ 1) (4 / 100) = 0 := by decide +kernel
    simp only [roundPath, walk, List.map_cons, List.map_replicate, roundSeg, r0, r4]
  rw [h1, walk_end, walk_end] at h
  unfold Near at h
  have := h.1
  simp only [mul_zero, zero_sub, abs_neg] at this
  rw [abs_of_nonneg (by positivity)] at this
  linarith

theorem C12_full_refuted : ¬ C12_full := by
  intro h
  obtain ⟨n, hn⟩ := C12_refuted_drift (1 / (2 * 10 ^ 1))
  apply hn
  have := h 1 le_rfl (by norm_num) (walk (4 / 100) n) ⟨false, 0, 0, _, rfl⟩ (n + 1)
  have e1 : (walk (4 / 100) n).take (n + 1) = walk (4 / 100) n := by
    apply List.take_of_length_le; simp [walk]
  have e2 : (roundPath (10 ^ 1) (walk (4 / 100) n)).take (n + 1) = roundPath (10 ^ 1) (walk (4 / 100) n) := by
    apply List.take_of_length_le; simp [walk, roundPath]
  rw [e1, e2] at this
  exact this

end Verif.Round
