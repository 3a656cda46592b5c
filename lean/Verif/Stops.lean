import Verif.Simple
/-
Models of `resolve_stop_attributes` (`src/task/resolve_gradients.rs`), `src/task/fix_attrs.rs` and
`src/task/rm_invalid_stops.rs`.
-/
namespace Verif.Dom

/-- The result of a task: a value, a reported error, or a panic. -/
inductive Res (α : Type)
  | ok (a : α)
  | err (e : Verif.Simple.ErrKind)
  | panic
  deriving DecidableEq, Repr

def Res.bind {α β : Type} : Res α → (α → Res β) → Res β
  | .ok a, g => g a
  | .err e, _ => .err e
  | .panic, _ => .panic

def Res.getD {α : Type} : Res α → α → α
  | .ok a, _ => a
  | _, d => d

def Res.ofOption {α : Type} : Option α → Res α
  | some a => .ok a
  | none => .panic

end Verif.Dom

namespace Verif.Stops
open Verif.Dom Verif.Simple

/-- `Attribute::new(id, v)` with `visible = false`, then `node.set_attribute(a)`. -/
def setHidden (n : Node) (a : AId) (v : Value) : Node := { n with attrs := putAttr n.attrs ⟨.id a, v, false⟩ }

/-- "if !node.has_attribute(id) { ... a.visible = false; node.set_attribute(a) }",
`src/task/resolve_gradients.rs:137-147` -/
def setDefault (n : Node) (a : AId) (v : Value) : Node := if n.has a then n else setHidden n a v

/-- The defaults for `stop-color` and `stop-opacity`, `src/task/resolve_gradients.rs:137-147`. -/
def stopDefaults (n : Node) : Node := setDefault (setDefault n .stopColor (.color 0 0 0)) .stopOpacity (.number 1)

/-- The loop body of `resolve_stop_attributes`, `src/task/resolve_gradients.rs:117-148`; `first` says `idx == 0`. -/
def resolveStop (first : Bool) (n : Node) : Res Node :=
  match n.get .offset with
  | some (.length l) =>
    .ok (stopDefaults (if l.unit = .percent then n.set .offset (.length ⟨l.num / 100, .none⟩) else n))
  | _ =>
    if first then .ok (stopDefaults (n.set .offset (.length ⟨0, .none⟩)))
    else .err (.missingAttribute "stop" "offset")

/-- The loop over the children of a gradient, `src/task/resolve_gradients.rs:117-148`. -/
def resolveStopKids : Bool → Forest → Res Forest
  | _, .nil => .ok .nil
  | first, .cons n k r =>
    (resolveStop first n).bind fun n' => (resolveStopKids false r).bind fun r' => .ok (.cons n' k r')

/-- The number of nodes. -/
def size : Forest → Nat
  | .nil => 0
  | .cons _ k r => size k + size r + 1

theorem resolveStopKids_size {b : Bool} {f g : Forest} (h : resolveStopKids b f = .ok g) : size g = size f := by
  induction f generalizing b g with
  | nil => simp [resolveStopKids] at h; rw [← h]
  | cons n k r _ ih =>
    unfold resolveStopKids at h
    cases h1 : resolveStop b n with
    | err e => simp [h1, Res.bind] at h
    | panic => simp [h1, Res.bind] at h
    | ok n' =>
      cases h2 : resolveStopKids false r with
      | err e => simp [h1, h2, Res.bind] at h
      | panic => simp [h1, h2, Res.bind] at h
      | ok r' =>
        simp [h1, h2, Res.bind] at h
        rw [← h]
        simp [size, ih h2]

/-- `resolve_stop_attributes`, `src/task/resolve_gradients.rs:115-152`: when the traversal reaches a gradient its
children are resolved, then the traversal goes on with the changed children. -/
def resolveStops (f : Forest) : Res Forest :=
  match f with
  | .nil => .ok .nil
  | .cons n k r =>
    match hk : (if n.isGradient then resolveStopKids true k else .ok k) with
    | .err e => .err e
    | .panic => .panic
    | .ok k1 =>
      have : size k1 = size k := by
        split at hk
        · exact resolveStopKids_size hk
        · cases hk; rfl
      (resolveStops k1).bind fun k2 => (resolveStops r).bind fun r' => .ok (.cons n k2 r')
termination_by size f
decreasing_by all_goals simp only [size]; omega

/-! ### fix_attrs.rs -/

/-- `fix_len` and `fix_negative_len`, `src/task/fix_attrs.rs:286-301` -/
def fixLen (n : Node) (a : AId) : Node :=
  if n.has a then
    match n.get a with
    | some (.length l) => if l.num < 0 then n.set a (.length ⟨0, .none⟩) else n
    | _ => n
  else n.set a (.length ⟨0, .none⟩)

/-- `rm_negative_len`, `src/task/fix_attrs.rs:303-310` -/
def rmNegativeLen (n : Node) (a : AId) : Node :=
  match n.get a with
  | some (.length l) => if l.num < 0 then n.rm a else n
  | _ => n

/-- `fix_rect_attributes`, `src/task/fix_attrs.rs:50-63` -/
def fixRect (n : Node) : Node :=
  rmNegativeLen (rmNegativeLen (fixLen (fixLen n .width) .height) .rx) .ry

/-- In-place change of an attribute value (`get_value_mut`): the visibility stays. -/
def modValue (n : Node) (a : AId) (g : Value → Value) : Node :=
  { n with attrs := n.attrs.map (fun x => if x.name = .id a then { x with value := g x.value } else x) }

/-- "if p.len() % 2 != 0 { p.pop() }", `src/task/fix_attrs.rs:142-144` -/
def evenPoints (p : List ℚ) : List ℚ := if p.length % 2 ≠ 0 then p.dropLast else p

def evenPointsValue : Value → Value
  | .numberList p => .numberList (evenPoints p)
  | v => v

/-- `fix_poly_attributes`, `src/task/fix_attrs.rs:131-157` -/
def fixPoly (n : Node) : Node :=
  match n.get .points with
  | some (.numberList p) => if evenPoints p = [] then n.rm .points else modValue n .points evenPointsValue
  | _ => n

/-- The corrected offset, `src/task/fix_attrs.rs:228-236`. -/
def fixOffset (prev o : ℚ) : ℚ :=
  let o := if o < 0 then 0 else if 1 < o then 1 else o
  if o < prev then prev else o

/-- `fix_stop_attributes`, `src/task/fix_attrs.rs:209-242`, on the children of a gradient; `none` is `unreachable!`. -/
def fixStopKids : ℚ → Forest → Option Forest
  | _, .nil => some .nil
  | prev, .cons n k r =>
    match n.get .offset with
    | some (.length l) =>
      if l.unit = .none then
        (fixStopKids (fixOffset prev l.num) r).map fun r' =>
          .cons (n.set .offset (.length ⟨fixOffset prev l.num, .none⟩)) k r'
      else none
    | _ => none

theorem fixStopKids_size {p : ℚ} {f g : Forest} (h : fixStopKids p f = some g) : size g = size f := by
  induction f generalizing p g with
  | nil => simp [fixStopKids] at h; rw [← h]
  | cons n k r _ ih =>
    unfold fixStopKids at h
    split at h
    · split at h
      · rw [Option.map_eq_some_iff] at h
        obtain ⟨r', h1, rfl⟩ := h
        simp [size, ih h1]
      · cases h
    · cases h

/-- The `match` of `fix_invalid_attributes`, `src/task/fix_attrs.rs:31-36`, for one node. -/
def fixNode (n : Node) : Node :=
  match n.kind with
  | .elem .rect => fixRect n
  | .elem .polyline | .elem .polygon => fixPoly n
  | _ => n

/-- The loop of `fix_invalid_attributes`, `src/task/fix_attrs.rs:30-37`. -/
def fixGo (f : Forest) : Option Forest :=
  match f with
  | .nil => some .nil
  | .cons n k r =>
    match hk : (if n.isGradient then fixStopKids 0 k else some k) with
    | none => none
    | some k1 =>
      have : size k1 = size k := by
        split at hk
        · exact fixStopKids_size hk
        · cases hk; rfl
      (fixGo k1).bind fun k2 => (fixGo r).map fun r' => .cons (fixNode n) k2 r'
termination_by size f
decreasing_by all_goals simp only [size]; omega

/-- `fix_invalid_attributes`, `src/task/fix_attrs.rs:29-40`; `fix_marker` is at `313-319`. -/
def fixInvalidAttributes (f : Forest) : Option Forest :=
  (fixGo f).map fun g => g.map (fun n => n.rm .marker)

/-! ### rm_invalid_stops.rs -/

/-- The comparison of two neighbours, `src/task/rm_invalid_stops.rs:41-43`. -/
def sameStop (m n : Node) : Bool :=
  decide (m.get .offset = n.get .offset) && decide (m.get .stopColor = n.get .stopColor) &&
    decide (m.get .stopOpacity = n.get .stopOpacity)

/-- The loop over the children of a gradient, `src/task/rm_invalid_stops.rs:34-50`: the children to remove. -/
def dupStops : Option Node → Forest → List Nat
  | _, .nil => []
  | none, .cons n _ r => dupStops (some n) r
  | some m, .cons n _ r => (if sameStop m n then [n.key] else []) ++ dupStops (some n) r

/-- The outer loop, `src/task/rm_invalid_stops.rs:30-51`. -/
def invalidStops : Forest → List Nat
  | .nil => []
  | .cons n k r => (if n.isGradient then dupStops none k else []) ++ (invalidStops k ++ invalidStops r)

/-- `remove_invalid_stops`, `src/task/rm_invalid_stops.rs:27-54` with `utils::remove_nodes`
(`src/task/utils.rs:82-87`). -/
def removeInvalidStops (f : Forest) : Forest := f.remove (fun n => decide (n.key ∈ invalidStops f))

end Verif.Stops
