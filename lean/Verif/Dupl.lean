import Verif.DuplStops
import Verif.Gradients
import Verif.Invisible
/-
Model of `src/task/rm_dupl_defs/*.rs`.
-/
namespace Verif.Dupl
open Verif.Dom

/-! ### Removing a duplicate -/

/-- The new value of an attribute that refers to the node with the key `k`: svgdom's conversion of a node to a value, which depends
on the name of the attribute. -/
def nodeValue (a : AId) (k : Nat) : Value := if a = .xlinkHref then .link k else .funcLink k

/-- "ln.set_attribute((*aid, n.clone()))", `src/task/rm_dupl_defs/mod.rs:84`, for one attribute.  Attributes of other names do not get
here, see `strayLink`. -/
def relinkAttr (k1 k2 : Nat) (x : Attr) : Attr :=
  match x.name with
  | .id a => if x.value.target = some k2 then ⟨.id a, nodeValue a k1, true⟩ else x
  | _ => x

/-- An attribute with a name outside SVG refers to the node: "attr.id().unwrap()" crashes, `src/task/rm_dupl_defs/mod.rs:72`. -/
def strayLink (f : Forest) (k2 : Nat) : Bool :=
  f.nodes.any fun n => n.attrs.any fun x => decide (x.value.target = some k2) && match x.name with
    | .id _ => false
    | _ => true

/-- svgdom's "set_attribute" crashes if the node to refer to has no id, or itself refers to the node with the attribute
(`src/task/rm_dupl_defs/mod.rs:83-85`). -/
def crossLink (f : Forest) (n1 : Node) (k2 : Nat) : Bool :=
  f.nodes.any fun x => decide (x.id ≠ n1.id) && decide (k2 ∈ x.links) && (decide (n1.id = "") || decide (x.key ∈ n1.links))

/-- `src/task/rm_dupl_defs/mod.rs:64-90`: what refers to the second node shall refer to the first one, if it has another id; the second
node is removed. -/
def fuse (n1 : Node) (k2 : Nat) (f : Forest) : Option Forest :=
  if strayLink f k2 || crossLink f n1 k2 then none
  else some (Invisible.rmKey k2 (f.map fun n => if n.id = n1.id then n else { n with attrs := n.attrs.map (relinkAttr n1.key k2) }))

/-- The inner loop of `rm_loop`, `src/task/rm_dupl_defs/mod.rs:55-95`, with the nodes that are left. -/
def rmInner (cmp : Forest → Nat → Nat → Option Bool) (k1 : Nat) : List Nat → Forest → Option (List Nat × Forest)
  | [], f => some ([], f)
  | k2 :: ks, f => (cmp f k1 k2).bind fun b =>
    if b then (f.find k1).bind fun n1 => (fuse n1 k2 f).bind fun g => rmInner cmp k1 ks g
    else (rmInner cmp k1 ks f).map fun r => (k2 :: r.1, r.2)

/-- The outer loop of `rm_loop`, `src/task/rm_dupl_defs/mod.rs:50-98`; the number of rounds is given by the length of the list,
which gets shorter in each. -/
def rmOuter (cmp : Forest → Nat → Nat → Option Bool) : Nat → List Nat → Forest → Option Forest
  | fuel + 1, k :: ks, f => (rmInner cmp k ks f).bind fun r => rmOuter cmp fuel r.1 r.2
  | _, _, f => some f

/-- `rm_loop`, `src/task/rm_dupl_defs/mod.rs:45-99` -/
def rmLoop (cmp : Forest → Nat → Nat → Option Bool) (ks : List Nat) (f : Forest) : Option Forest := rmOuter cmp ks.length ks f

/-! ### Comparing gradients -/

/-- The loop at `src/task/rm_dupl_defs/mod.rs:113-117`; `none`: "unwrap" crashes. -/
def attrsEqual (n1 n2 : Node) : List AId → Option Bool
  | [] => some true
  | a :: as => (n1.get a).bind fun v => (n2.get a).bind fun w => if v = w then attrsEqual n1 n2 as else some false

/-- The transform that a missing one stands for. -/
def identity : Value := .transform ⟨1, 0, 0, 1, 0, 0⟩

/-- `src/task/rm_dupl_defs/mod.rs:107-111` -/
def sameHref (n1 n2 : Node) : Bool := !(n1.has .xlinkHref && n2.has .xlinkHref) || decide (n1.get .xlinkHref = n2.get .xlinkHref)

/-- `is_gradient_attrs_equal`, `src/task/rm_dupl_defs/mod.rs:101-120` -/
def gradientsEqual (as : List AId) (n1 n2 : Node) : Option Bool :=
  if (n1.get .gradientTransform).getD identity = (n2.get .gradientTransform).getD identity then
    if sameHref n1 n2 then attrsEqual n1 n2 as else some false
  else some false

/-- The closures at `src/task/rm_dupl_defs/linear_gradient.rs:40-50` and `src/task/rm_dupl_defs/radial_gradient.rs:41-51`.
Simplification: false for nodes that are no longer in the tree, which only happens with gradients inside of gradients. -/
def cmpGradients (as : List AId) (f : Forest) (k1 k2 : Nat) : Option Bool :=
  match f.find k1, f.find k2, f.kidsOf k1, f.kidsOf k2 with
  | some n1, some n2, some c1, some c2 => (gradientsEqual as n1 n2).map fun b => b && equalStops c1 c2
  | _, _, _, _ => some false

/-- `src/task/rm_dupl_defs/linear_gradient.rs:27-34` -/
def linearAttrs : List AId := [.x1, .y1, .x2, .y2, .gradientUnits, .spreadMethod]

/-- `src/task/rm_dupl_defs/radial_gradient.rs:27-35` -/
def radialAttrs : List AId := [.cx, .cy, .r, .fx, .fy, .gradientUnits, .spreadMethod]

/-- `remove_dupl_linear_gradients`, `src/task/rm_dupl_defs/linear_gradient.rs:26-51` -/
def rmLinear (f : Forest) : Option Forest := rmLoop (cmpGradients linearAttrs) (Gradients.ofKind f .linearGradient) f

/-- `remove_dupl_radial_gradients`, `src/task/rm_dupl_defs/radial_gradient.rs:26-52` -/
def rmRadial (f : Forest) : Option Forest := rmLoop (cmpGradients radialAttrs) (Gradients.ofKind f .radialGradient) f

/-! ### Comparing blurs -/

/-- `is_attrs_equal`, `src/task/rm_dupl_defs/fe_gaussian_blur.rs:91-110` -/
def optAttrsEqual (as : List AId) (n1 n2 : Node) : Bool := as.all fun a => decide (n1.get a = n2.get a)

/-- `src/task/rm_dupl_defs/fe_gaussian_blur.rs:27-36` -/
def filterAttrs : List AId := [.x, .y, .width, .height, .filterUnits, .primitiveUnits, .filterRes, .colorInterpolationFilters]

/-- `src/task/rm_dupl_defs/fe_gaussian_blur.rs:46-69` -/
def blurOk (f : Forest) (n : Node) (c : Forest) : Bool :=
  decide (c.top.length = 1) && !n.has .xlinkHref && c.top.all fun d => d.isTag .feGaussianBlur && !f.isUsed d.key && !(d.has .in_ || d.has .result)

/-- `src/task/rm_dupl_defs/fe_gaussian_blur.rs:42-73` -/
def blurs (f : Forest) : List Nat := ((Spec.subs f).filter fun x => x.1.isTag .filter && blurOk f x.1 x.2).map fun x => x.1.key

/-- The closure at `src/task/rm_dupl_defs/fe_gaussian_blur.rs:75-88`.  Simplification: false for nodes that are no longer in the tree. -/
def cmpBlurs (f : Forest) (k1 k2 : Nat) : Option Bool :=
  match f.find k1, f.find k2, f.kidsOf k1, f.kidsOf k2 with
  | some n1, some n2, some c1, some c2 =>
    if optAttrsEqual filterAttrs n1 n2 then
      match c1.top, c2.top with
      | d1 :: _, d2 :: _ => some (optAttrsEqual [.stdDeviation] d1 d2)
      | _, _ => none
    else some false
  | _, _, _, _ => some false

/-- `remove_dupl_fe_gaussian_blur`, `src/task/rm_dupl_defs/fe_gaussian_blur.rs:26-89` -/
def rmBlurs (f : Forest) : Option Forest := rmLoop cmpBlurs (blurs f) f

end Verif.Dupl
