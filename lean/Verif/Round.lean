import Verif.Path
import Mathlib.Algebra.Order.Floor.Ring
/-
Model of `src/task/round_numbers.rs:116-192`: rounding of one number and of a path.
Numbers are exact rationals: the floating point error of the multiplication and the division is not modelled.
-/
namespace Verif.Round

/-- `POW_VEC`, `src/task/round_numbers.rs:116-130` -/
def powVec : List ℚ :=
  [0, 10, 100, 1000, 10000, 100000, 1000000, 10000000, 100000000, 1000000000, 10000000000, 100000000000, 1000000000000]

/-- Rust's `f64::round`: the nearest integer, half-way cases away from zero. -/
def roundAway (q : ℚ) : ℤ := if 0 ≤ q then ⌊q + 1 / 2⌋ else -⌊-q + 1 / 2⌋

/-- The outcome of an expression that may index out of bounds or divide 0 by 0. -/
inductive Outcome (α : Type)
  | ok (a : α)
  | nan
  | panic
  deriving DecidableEq, Repr

/-- `round_number`, `src/task/round_numbers.rs:132-134`. With `POW_VEC[0] = 0` the result is `0 / 0`. -/
def roundNumber (precision : Nat) (n : ℚ) : Outcome ℚ :=
  match powVec[precision]? with
  | none => .panic
  | some pow => if pow = 0 then .nan else .ok (roundAway (n * pow) / pow)

/-- The value `round_number` gives for a power that is not zero. -/
def rnd (pow n : ℚ) : ℚ := roundAway (n * pow) / pow

open Verif.Paths in
/-- `round_path` for one segment, `src/task/round_numbers.rs:136-192`; `pow` is `POW_VEC[precision]`. -/
def roundSeg (pow : ℚ) : SegData → SegData
  | .moveTo x y => .moveTo (rnd pow x) (rnd pow y)
  | .lineTo x y => .lineTo (rnd pow x) (rnd pow y)
  | .smoothQuad x y => .smoothQuad (rnd pow x) (rnd pow y)
  | .hline x => .hline (rnd pow x)
  | .vline y => .vline (rnd pow y)
  | .curveTo x1 y1 x2 y2 x y =>
    .curveTo (rnd pow x1) (rnd pow y1) (rnd pow x2) (rnd pow y2) (rnd pow x) (rnd pow y)
  | .smooth x2 y2 x y => .smooth (rnd pow x2) (rnd pow y2) (rnd pow x) (rnd pow y)
  | .quad x1 y1 x y => .quad (rnd pow x1) (rnd pow y1) (rnd pow x) (rnd pow y)
  | .arc rx ry rot l s x y => .arc (rnd pow rx) (rnd pow ry) (rnd pow rot) l s (rnd pow x) (rnd pow y)
  | .close => .close

open Verif.Paths in
/-- `round_path`, `src/task/round_numbers.rs:136-192` -/
def roundPath (pow : ℚ) (p : Path) : Path := p.map fun s => { s with data := roundSeg pow s.data }

end Verif.Round
