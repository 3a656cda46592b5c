import Verif.Stops
/-
Model of `src/task/resolve_gradients.rs` (linear and radial gradients).
-/
namespace Verif.Gradients
open Verif.Dom Verif.Stops

/-- "node.linked_nodes().filter(...).count()", `src/task/resolve_gradients.rs:167-169` -/
def waiting (f : Forest) (e : EId) (order : List Nat) (k : Nat) : Nat :=
  ((f.linkedNodes k).filter (fun n => n.isTag e && !decide (n.key ∈ order))).length

/-- The `for` loop, `src/task/resolve_gradients.rs:162-174`. -/
def orderPass (f : Forest) (e : EId) : List Nat → List Nat → List Nat
  | [], order => order
  | k :: t, order =>
    if k ∈ order then orderPass f e t order
    else if waiting f e order k = 0 then orderPass f e t (order ++ [k])
    else orderPass f e t order

/-- The `while` loop, `src/task/resolve_gradients.rs:161-175`, running at most `fuel` rounds; `none`: it has not ended. -/
def orderLoop (f : Forest) (e : EId) (nodes : List Nat) : Nat → List Nat → Option (List Nat)
  | fuel, order =>
    if order.length = nodes.length then some order
    else match fuel with
      | 0 => none
      | fuel + 1 => orderLoop f e nodes fuel (orderPass f e nodes order)

/-- The gradients of one kind, `src/task/resolve_gradients.rs:156-157`. -/
def ofKind (f : Forest) (e : EId) : List Nat := (f.nodes.filter (fun n => n.isTag e)).map (·.key)

/-- `gen_order`, `src/task/resolve_gradients.rs:155-178`.  Simplification: the loop is given as many rounds as there are
gradients; C27 shows that it never ends if that is not enough. -/
def genOrder (f : Forest) (e : EId) : Option (List Nat) := orderLoop f e (ofKind f e) (ofKind f e).length []

/-- `resolve_attribute`, `src/task/resolve_gradients.rs:190-210`; `none`: `unreachable!`, or the chain of references is
longer than `fuel`. -/
def resolveAttribute (f : Forest) (a : AId) (dflt : Option Value) : Nat → Node → Option (Option Value)
  | 0, _ => none
  | fuel + 1, n =>
    match n.get a with
    | some v => some (some v)
    | none =>
      match n.get .xlinkHref with
      | some (.link k) => (f.find k).bind (resolveAttribute f a dflt fuel)
      | some _ => none
      | none => some dflt

/-- `check_attr`, `src/task/resolve_gradients.rs:180-188`, for the node with key `k`.  Simplification: the recursion of
`resolve_attribute` is given as many steps as there are nodes; more are only needed if it never ends. -/
def checkAttr (k : Nat) (a : AId) (dflt : Option Value) (f : Forest) : Option Forest :=
  (f.find k).bind fun n =>
    if n.has a then some f
    else (resolveAttribute f a dflt (f.nodes.length + 1) n).map fun v =>
      match v with
      | some v => f.modify k (fun n => setHidden n a v)
      | none => f

/-- The body of the loop, `src/task/resolve_gradients.rs:53-60`. -/
def resolveLinearNode (k : Nat) (f : Forest) : Option Forest :=
  (checkAttr k .gradientUnits (some (.kw .objectBoundingBox)) f).bind fun f =>
  (checkAttr k .spreadMethod (some (.kw .pad)) f).bind fun f =>
  (checkAttr k .x1 (some (.length ⟨0, .percent⟩)) f).bind fun f =>
  (checkAttr k .y1 (some (.length ⟨0, .percent⟩)) f).bind fun f =>
  (checkAttr k .x2 (some (.length ⟨100, .percent⟩)) f).bind fun f =>
  (checkAttr k .y2 (some (.length ⟨0, .percent⟩)) f).bind fun f =>
  checkAttr k .gradientTransform none f

/-- The body of the loop, `src/task/resolve_gradients.rs:87-99`. -/
def resolveRadialNode (k : Nat) (f : Forest) : Option Forest :=
  (checkAttr k .gradientUnits (some (.kw .objectBoundingBox)) f).bind fun f =>
  (checkAttr k .spreadMethod (some (.kw .pad)) f).bind fun f =>
  (checkAttr k .cx (some (.length ⟨50, .percent⟩)) f).bind fun f =>
  (checkAttr k .cy (some (.length ⟨50, .percent⟩)) f).bind fun f =>
  (checkAttr k .r (some (.length ⟨50, .percent⟩)) f).bind fun f =>
  (f.find k).bind fun n =>
  (checkAttr k .fx (n.get .cx) f).bind fun f =>
  (checkAttr k .fy (n.get .cy) f).bind fun f =>
  checkAttr k .gradientTransform none f

/-- A loop whose body may crash. -/
def forEach (g : Nat → Forest → Option Forest) : List Nat → Forest → Option Forest
  | [], f => some f
  | k :: t, f => (g k f).bind (forEach g t)

/-- `resolve_linear_gradient_attributes`, `src/task/resolve_gradients.rs:51-62` -/
def resolveLinear (f : Forest) : Option Forest :=
  (genOrder f .linearGradient).bind fun order => forEach resolveLinearNode order f

/-- `resolve_radial_gradient_attributes`, `src/task/resolve_gradients.rs:77-101` -/
def resolveRadial (f : Forest) : Option Forest :=
  (genOrder f .radialGradient).bind fun order => forEach resolveRadialNode order f

end Verif.Gradients
