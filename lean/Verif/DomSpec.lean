import Verif.Dom
/-
Specification vocabulary for documents, shared by the property files.  Nothing here is used by the model of the code.
-/
namespace Verif.Spec
open Verif.Dom Verif.Paths

/-- The tree as a list in document order: each node with its parent.  Two documents with unique keys and the same list
have the same tree. -/
def shape (parent : Option Nat) : Forest → List (Nat × Option Nat)
  | .nil => []
  | .cons n k r => (n.key, parent) :: (shape (some n.key) k ++ shape parent r)

/-- `m` is a node satisfying `p` or lies below one. -/
inductive Inside (p : Node → Prop) : Forest → Nat → Prop
  | self {n k r} : p n → Inside p (.cons n k r) n.key
  | under {n k r x} : p n → x ∈ k.keys → Inside p (.cons n k r) x
  | kid {n k r x} : Inside p k x → Inside p (.cons n k r) x
  | next {n k r x} : Inside p r x → Inside p (.cons n k r) x

/-- `t` applied first, then `s`: the matrix product `s * t`. -/
def mul (s t : Transform) : Transform :=
  ⟨s.a * t.a + s.c * t.b, s.b * t.a + s.d * t.b, s.a * t.c + s.c * t.d, s.b * t.c + s.d * t.d,
   s.a * t.e + s.c * t.f + s.e, s.b * t.e + s.d * t.f + s.f⟩

def one : Transform := ⟨1, 0, 0, 1, 0, 0⟩

/-- The transform attribute of a node; the identity if there is none. -/
def nodeTransform (n : Node) : Transform :=
  match n.get .transform with
  | some (.transform t) => t
  | _ => one

/-- The total transform of each node: the product of the transforms of its ancestors and its own. -/
def totals (ctm : Transform) : Forest → List (Nat × Transform)
  | .nil => []
  | .cons n k r => (n.key, mul ctm (nodeTransform n)) :: (totals (mul ctm (nodeTransform n)) k ++ totals ctm r)

/-- The value of an attribute in the written file: hidden attributes are not written. -/
def written (n : Node) (a : AId) : Option Value :=
  match getAttr n.attrs (.id a) with
  | some x => if x.visible then some x.value else none
  | none => none

/-- Look-up by id, as a reader of the written file does it: the first element with this id. -/
def byId (f : Forest) (s : String) : Option Nat := (f.nodes.find? (fun n => decide (n.id = s))).map (·.key)

/-- Every reference, looked up by the id that is written for it, reaches the node it is meant for. -/
def Resolves (f : Forest) : Prop :=
  ∀ n ∈ f.nodes, ∀ k ∈ n.links, ∃ t ∈ f.nodes, t.key = k ∧ t.id ≠ "" ∧ byId f t.id = some k

/-- Elements that the SVG standard never renders directly, whatever their place in the tree. -/
def neverRendered : Kind → Bool
  | .elem .defs | .elem .clipPath | .elem .mask | .elem .marker | .elem .pattern | .elem .linearGradient
  | .elem .radialGradient | .elem .symbol | .elem .filter | .elem .cursor | .elem .altGlyphDef | .elem .font
  | .elem .fontFace | .elem .title | .elem .desc | .elem .metadata | .elem .script | .elem .style | .elem .view
  | .elem .colorProfile => true
  | _ => false

/-- What is drawn where it stands: the document without the never-rendered elements and what is inside them. -/
def drawn : Forest → Forest
  | .nil => .nil
  | .cons n k r => if neverRendered n.kind then drawn r else .cons n (drawn k) (drawn r)

/-- Every node with its children, in document order. -/
def subs : Forest → List (Node × Forest)
  | .nil => []
  | .cons n k r => (n, k) :: (subs k ++ subs r)

/-- The nearest ancestor's or own written value of an attribute, for each node: SVG inheritance. -/
def inherited (a : AId) (v : Option Value) : Forest → List (Nat × Option Value)
  | .nil => []
  | .cons n k r => (n.key, (written n a).or v) :: (inherited a ((written n a).or v) k ++ inherited a v r)

/-- Every node with its ancestors, nearest first, in document order. -/
def located (anc : List Node) : Forest → List (Node × List Node)
  | .nil => []
  | .cons n k r => (n, anc) :: (located (n :: anc) k ++ located anc r)

/-- No node has two attributes of the same name. -/
def UniqueAttrs (f : Forest) : Prop := ∀ n ∈ f.nodes, (n.attrs.map (·.name)).Nodup

end Verif.Spec
