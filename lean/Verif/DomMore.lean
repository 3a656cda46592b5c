import Verif.Dom
/-
More of svgdom (see `Dom.lean`; the same trusted base): the list of users of a node with multiplicity, and tree surgery.
-/
namespace Verif.Dom.Forest

/-- `node.linked_nodes()` with multiplicity: svgdom keeps one entry per referring attribute, so an element whose `fill` and
`stroke` both refer to the node is listed twice.  (The order of the entries is the order in which the references were made;
here it is document order.  No caller depends on it.) -/
def linkedAll (f : Forest) (k : Nat) : List Node :=
  f.nodes.flatMap (fun n => (n.links.filter (fun x => decide (x = k))).map (fun _ => n))

/-- `node.uses_count()` -/
def usesCount (f : Forest) (k : Nat) : Nat := (f.linkedAll k).length

/-- Gives the node with the given key the children `c`. -/
def setKids : Forest → Nat → Forest → Forest
  | nil, _, _ => nil
  | cons n ks r, k, c => if n.key = k then cons n c (r.setKids k c) else cons n (ks.setKids k c) (r.setKids k c)

/-- `node.insert_before(new)`, where `new` has the children `c`. -/
def insertBefore : Forest → Nat → Node → Forest → Forest
  | nil, _, _, _ => nil
  | cons n ks r, k, new, c =>
    if n.key = k then cons new c (cons n ks r)
    else cons n (ks.insertBefore k new c) (r.insertBefore k new c)

end Verif.Dom.Forest
