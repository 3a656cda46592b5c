import Verif.Path
import Mathlib.Data.Real.Basic
import Mathlib.Topology.Instances.Real.Lemmas
/-
Specification of what a path means, written from the SVG 1.1 path chapter and independently of the cleaning code:
a pen is moved over the canvas and leaves a list of events.  Only the data types of `Verif.Path` are used.
-/
namespace Verif.Paths

abbrev Pt := ℚ × ℚ

/-- A drawn curve, with all its points in absolute coordinates. -/
inductive Curve
  | line (p q : Pt)
  | cubic (p c1 c2 q : Pt)
  | quad (p c q : Pt)
  | arc (p : Pt) (rx ry rot : ℚ) (large sweep : Bool) (q : Pt)
  deriving DecidableEq, Repr

/-- The command family a curve was written with: L/H/V, C, S, Q, T or A. -/
inductive Kind
  | line | cubic | smoothCubic | quad | smoothQuad | arc
  deriving DecidableEq, Repr

def SegData.kind : SegData → Kind
  | .curveTo .. => .cubic
  | .smooth .. => .smoothCubic
  | .quad .. => .quad
  | .smoothQuad .. => .smoothQuad
  | .arc .. => .arc
  | _ => .line

/-- What the pen does: start a subpath, draw a curve (remembering the command family), or close the subpath with a line from `p` to its start `q`. -/
inductive Event
  | start (p : Pt)
  | draw (k : Kind) (c : Curve)
  | close (p q : Pt)
  deriving DecidableEq, Repr

/-- The control point remembered for a following S/s (after C/S) or T/t (after Q/T). -/
inductive Ctrl
  | none
  | cubic (c : Pt)
  | quad (c : Pt)
  deriving DecidableEq, Repr

/-- Current point, start of the current subpath, remembered control point, and whether the last command was a
closepath (then any command but a moveto begins a new subpath at the same start point). -/
structure Pen where
  cur : Pt
  start : Pt
  ctrl : Ctrl
  closed : Bool
  deriving DecidableEq, Repr

/-- "The reflection of the control point on the previous command relative to the current point". -/
def reflect (p c : Pt) : Pt := (2 * p.1 - c.1, 2 * p.2 - c.2)

def Pen.cubicCtrl (pen : Pen) : Pt := match pen.ctrl with | .cubic c => reflect pen.cur c | _ => pen.cur
def Pen.quadCtrl (pen : Pen) : Pt := match pen.ctrl with | .quad c => reflect pen.cur c | _ => pen.cur

/-- A coordinate pair as written, turned into an absolute point. -/
def Pen.pt (pen : Pen) (abs : Bool) (x y : ℚ) : Pt := if abs then (x, y) else (pen.cur.1 + x, pen.cur.2 + y)

/-- The curve drawn by a drawing command, with the control point to remember. `none` for M and Z. -/
def Pen.curve (pen : Pen) (s : Seg) : Option (Curve × Ctrl) :=
  match s.data with
  | .moveTo _ _ | .close => Option.none
  | .lineTo x y => some (.line pen.cur (pen.pt s.abs x y), .none)
  | .hline x => some (.line pen.cur (if s.abs then x else pen.cur.1 + x, pen.cur.2), .none)
  | .vline y => some (.line pen.cur (pen.cur.1, if s.abs then y else pen.cur.2 + y), .none)
  | .curveTo x1 y1 x2 y2 x y =>
    some (.cubic pen.cur (pen.pt s.abs x1 y1) (pen.pt s.abs x2 y2) (pen.pt s.abs x y), .cubic (pen.pt s.abs x2 y2))
  | .smooth x2 y2 x y =>
    some (.cubic pen.cur pen.cubicCtrl (pen.pt s.abs x2 y2) (pen.pt s.abs x y), .cubic (pen.pt s.abs x2 y2))
  | .quad x1 y1 x y =>
    some (.quad pen.cur (pen.pt s.abs x1 y1) (pen.pt s.abs x y), .quad (pen.pt s.abs x1 y1))
  | .smoothQuad x y => some (.quad pen.cur pen.quadCtrl (pen.pt s.abs x y), .quad pen.quadCtrl)
  | .arc rx ry rot l sw x y => some (.arc pen.cur rx ry rot l sw (pen.pt s.abs x y), .none)

/-- The end point of a curve. -/
def Curve.fin : Curve → Pt
  | .line _ q | .cubic _ _ _ q | .quad _ _ q | .arc _ _ _ _ _ _ q => q

/-- The start point of a curve. -/
def Curve.src : Curve → Pt
  | .line p _ | .cubic p _ _ _ | .quad p _ _ | .arc p _ _ _ _ _ _ => p

/-- The pen after one command. -/
def Pen.after (pen : Pen) (s : Seg) : Pen :=
  match s.data with
  | .moveTo x y => ⟨pen.pt s.abs x y, pen.pt s.abs x y, .none, false⟩
  | .close => ⟨pen.start, pen.start, .none, true⟩
  | _ => match pen.curve s with
    | some (c, k) => ⟨c.fin, pen.start, k, false⟩
    | Option.none => pen

/-- The events of one command. -/
def Pen.events (pen : Pen) (s : Seg) : List Event :=
  match s.data with
  | .moveTo x y => [.start (pen.pt s.abs x y)]
  | .close => (if pen.closed then [.start pen.cur] else []) ++ [.close pen.cur pen.start]
  | _ => (if pen.closed then [.start pen.cur] else []) ++
    match pen.curve s with
    | some (c, _) => [.draw s.data.kind c]
    | Option.none => []

def Pen.run (pen : Pen) : Path → List Event
  | [] => []
  | s :: t => pen.events s ++ (pen.after s).run t

def pen0 : Pen := ⟨(0, 0), (0, 0), .none, false⟩

/-- The meaning of a path: everything the pen does. -/
def trace (p : Path) : List Event := pen0.run p

/-- A valid path starts with a moveto. -/
def StartsWithMove (p : Path) : Prop := ∃ b x y t, p = ⟨b, .moveTo x y⟩ :: t

/-- The curve covers only its start point: a line or arc with equal end points (an arc with equal end points is not
drawn, SVG 1.1 F.6.2). -/
def Curve.degenerate : Curve → Bool
  | .line p q => decide (p = q)
  | .arc p _ _ _ _ _ q => decide (p = q)
  | _ => false

/-- A subpath, if it draws something. -/
def keep : List Curve → List (List Curve)
  | [] => []
  | l => [l]

/-- The drawn curves, grouped in subpaths.  Degenerate curves and empty subpaths are left out, and closing a subpath
counts as the line it draws.  `acc` is the current subpath. -/
def outlineFrom (acc : List Curve) : List Event → List (List Curve)
  | [] => keep acc
  | .start _ :: es => keep acc ++ outlineFrom [] es
  | .draw _ c :: es => outlineFrom (if c.degenerate then acc else acc ++ [c]) es
  | .close p q :: es => outlineFrom (if p = q then acc else acc ++ [.line p q]) es

/-- The outline of a path: its subpaths, each as a list of curves. It determines the filled area, and the stroke up to
caps, joins at closing points, and dots of zero-length subpaths. -/
def outline (p : Path) : List (List Curve) := outlineFrom [] (trace p)

/-- Points with real coordinates. -/
abbrev RPt := ℝ × ℝ
def Pt.real (p : Pt) : RPt := (p.1, p.2)

/-- The point of a curve at parameter `t` (not given for arcs). -/
noncomputable def Curve.at? (t : ℝ) : Curve → Option RPt
  | .line p q => some ((1 - t) • p.real + t • q.real)
  | .cubic p c1 c2 q =>
    some ((1 - t) ^ 3 • p.real + (3 * (1 - t) ^ 2 * t) • c1.real + (3 * (1 - t) * t ^ 2) • c2.real + t ^ 3 • q.real)
  | .quad p c q => some ((1 - t) ^ 2 • p.real + (2 * (1 - t) * t) • c.real + t ^ 2 • q.real)
  | .arc .. => Option.none

/-- Two curves are drawn alike: they are equal, or the first passes through the points of the second in the same order
(a monotone reparametrisation). -/
def DrawnAlike (c c' : Curve) : Prop :=
  c = c' ∨ ∃ φ : ℝ → ℝ, Continuous φ ∧ MonotoneOn φ (Set.Icc 0 1) ∧ φ 0 = 0 ∧ φ 1 = 1 ∧
    ∀ t ∈ Set.Icc (0 : ℝ) 1, c.at? t ≠ Option.none ∧ c.at? t = c'.at? (φ t)

/-- The four points of a cubic lie on one line (or its end points coincide). -/
def Collinear (p c1 c2 q : Pt) : Prop :=
  (c1.1 - p.1) * (q.2 - p.2) = (c1.2 - p.2) * (q.1 - p.1) ∧ (c2.1 - p.1) * (q.2 - p.2) = (c2.2 - p.2) * (q.1 - p.1)

/-- The point `c` lies on the segment from `p` to `q`. -/
def OnSegment (p q c : Pt) : Prop :=
  ∃ b : ℚ, 0 ≤ b ∧ b ≤ 1 ∧ c = (p.1 + b * (q.1 - p.1), p.2 + b * (q.2 - p.2))

/-- The point `c` lies on the line from `p` to `q`, before `p`. -/
def Before (p q c : Pt) : Prop := ∃ b : ℚ, b < 0 ∧ c = (p.1 + b * (q.1 - p.1), p.2 + b * (q.2 - p.2))

/-- The point `c` lies on the line from `p` to `q`, beyond `q`. -/
def Beyond (p q c : Pt) : Prop := ∃ b : ℚ, 1 < b ∧ c = (p.1 + b * (q.1 - p.1), p.2 + b * (q.2 - p.2))

/-- The cubic is drawn along a line, but plainly goes beyond its end points: it is slanted and a control point lies beyond
the end, or it goes right or down and the second control point lies beyond the end, or it goes down and the first control
point lies before the start. -/
def Stray (p c1 c2 q : Pt) : Prop :=
  (p.1 ≠ q.1 ∧ p.2 ≠ q.2 ∧ (Beyond p q c1 ∨ Beyond p q c2)) ∨
  ((p.1 < q.1 ∧ p.2 = q.2 ∨ p.1 = q.1 ∧ p.2 < q.2) ∧ Beyond p q c2) ∨
  (p.1 = q.1 ∧ p.2 < q.2 ∧ Before p q c1)

end Verif.Paths
