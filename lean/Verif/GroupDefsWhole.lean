import Verif.GroupDefsProps
/-
Property C35: the whole pass.
-/
namespace Verif.GroupDefs
open Verif.Dom Verif.Spec
open Verif.UnusedDefs (firstDefs kidsOf_none setKids_not_mem setKids_setKids nodup_cons kidsOf_subs subs_kidsOf kidsOf_setKids
  setKids_self nodes_setKids subs_append mem_subs_of_node node_of_subs firstDefs_spec subs_trans)
open Verif.ResolveUse (subtree)
open Verif.Stops (subs_keys subs_map parent_unique)

/-! ### The root element -/

theorem svgElement_mem {f : Forest} {x : Node × Forest} (h : svgElement f = some x) : x ∈ subs f ∧ x.1.kind = .elem .svg := by
  induction f with
  | nil => cases h
  | cons n k r _ ih =>
    unfold svgElement at h
    split at h
    next e => cases h; exact ⟨by simp [subs], by simpa [Node.isTag] using e⟩
    next => exact ⟨by simp [subs, (ih h).1], (ih h).2⟩

theorem svgElement_top {f : Forest} {x : Node × Forest} (h : svgElement f = some x) : x.1 ∈ f.top := by
  induction f with
  | nil => cases h
  | cons n k r _ ih =>
    unfold svgElement at h
    split at h
    next e => cases h; simp [Forest.top]
    next => simp [Forest.top, ih h]

theorem svgElement_prune {f : Forest} {x : Node × Forest} (h : svgElement f = some x) {p : Node → Bool} (hp : p x.1 = false) :
    svgElement (f.prune p) = some (x.1, x.2.prune p) := by
  induction f with
  | nil => cases h
  | cons n k r _ ih =>
    unfold svgElement at h
    split at h
    next e => cases h; rw [Forest.prune, if_neg (by simp [hp]), svgElement, if_pos e]
    next e =>
      rw [Forest.prune]
      split
      · exact ih h
      · rw [svgElement, if_neg e]; exact ih h

theorem svgElement_setKids {f : Forest} {x : Node × Forest} (h : svgElement f = some x) {d : Nat} (hd : x.1.key ≠ d) (X : Forest) :
    svgElement (f.setKids d X) = some (x.1, x.2.setKids d X) := by
  induction f with
  | nil => cases h
  | cons n k r _ ih =>
    unfold svgElement at h
    split at h
    next e => cases h; rw [Forest.setKids, if_neg hd, svgElement, if_pos e]
    next e =>
      rw [Forest.setKids]
      split <;> (rw [svgElement, if_neg e]; exact ih h)

theorem svgElement_map {f : Forest} {x : Node × Forest} (h : svgElement f = some x) {e : Node → Node} (he : ∀ n, (e n).kind = n.kind) :
    svgElement (f.map e) = some (e x.1, x.2.map e) := by
  have ht : ∀ n, (e n).isTag .svg = n.isTag .svg := fun n => by simp [Node.isTag, he]
  induction f with
  | nil => cases h
  | cons n k r _ ih =>
    unfold svgElement at h
    rw [Forest.map_cons, svgElement, ht]
    split at h
    next e => cases h; rw [if_pos e]
    next e => rw [if_neg e]; exact ih h

theorem setSvg_nodes {f : Forest} {x : Node × Forest} (h : svgElement f = some x) (k : Forest) :
    ∃ A B : List Node, f.nodes = A ++ x.1 :: (x.2.nodes ++ B) ∧ (setSvgElement x.1 k f).nodes = A ++ x.1 :: (k.nodes ++ B) := by
  induction f with
  | nil => cases h
  | cons n q r _ ih =>
    unfold svgElement at h
    rw [setSvgElement]
    split at h
    next e => cases h; rw [if_pos e]; exact ⟨[], r.nodes, by simp, by simp⟩
    next e =>
      rw [if_neg e]
      obtain ⟨A, B, h1, h2⟩ := ih h
      exact ⟨n :: (q.nodes ++ A), B, by simp [h1], by simp [h2]⟩

theorem svgElement_set {f : Forest} {x : Node × Forest} (h : svgElement f = some x) (k : Forest) :
    svgElement (setSvgElement x.1 k f) = some (x.1, k) := by
  have hx : x.1.isTag .svg = true := by simp [Node.isTag, (svgElement_mem h).2]
  induction f with
  | nil => cases h
  | cons n q r _ ih =>
    unfold svgElement at h
    rw [setSvgElement]
    split at h
    next e => cases h; rw [if_pos e, svgElement, if_pos e]
    next e => rw [if_neg e, svgElement, if_neg e, ih h]

theorem subs_set {f : Forest} {x : Node × Forest} (h : svgElement f = some x) (k : Forest) {y : Node × Forest} :
    y ∈ subs f → y = x ∨ y ∈ subs x.2 ∨ y ∈ subs (setSvgElement x.1 k f) := by
  induction f with
  | nil => cases h
  | cons n q r _ ih =>
    unfold svgElement at h
    rw [setSvgElement]
    intro hy
    simp only [subs, List.mem_cons, List.mem_append] at hy
    split at h
    next e =>
      cases h
      rw [if_pos e]
      rcases hy with a | a | a
      · exact .inl a
      · exact .inr (.inl a)
      · exact .inr (.inr (by simp [subs, a]))
    next e =>
      rw [if_neg e]
      rcases hy with a | a | a
      · exact .inr (.inr (by simp [subs, a]))
      · exact .inr (.inr (by simp [subs, a]))
      · exact (ih h a).imp id (Or.imp id fun a => by simp [subs, a])

theorem kids_set {f : Forest} {x : Node × Forest} (h : svgElement f = some x) (k : Forest) {y : Node × Forest} (hy : y ∈ subs k) :
    y ∈ subs (setSvgElement x.1 k f) :=
  subs_trans (q := (x.1, k)) (svgElement_mem (svgElement_set h k)).1 hy

theorem below_root {f : Forest} (hu : f.UniqueKeys) {s dn : Node} {D r : Forest} (h : svgElement f = some (s, .cons dn D r))
    {x : Node × Forest} (hx : x ∈ subs f) (hd : dn.key ∈ x.2.keys) : x = (s, .cons dn D r) := by
  induction f with
  | nil => cases h
  | cons n q t _ ih =>
    obtain ⟨h1, h2, h3, h4, h5⟩ := nodup_cons hu
    unfold svgElement at h
    simp only [subs, List.mem_cons, List.mem_append] at hx
    split at h
    next e =>
      cases h
      rcases hx with rfl | a | a
      · rfl
      · exfalso
        obtain ⟨c1, c2, c3, c4, c5⟩ := nodup_cons h3
        simp only [subs, List.mem_cons, List.mem_append] at a
        rcases a with rfl | a | a
        · exact c1 hd
        · exact c1 (kids_subs a hd)
        · exact c2 (kids_subs a hd)
      · exact absurd (kids_subs a hd) (h5 _ (by simp))
    next e =>
      have hin : dn.key ∈ t.keys := kids_subs (svgElement_mem h).1 (by simp)
      rcases hx with rfl | a | a
      · exact absurd hin (h5 _ hd)
      · exact absurd hin (h5 _ (kids_subs a hd))
      · exact ih h4 h a

/-! ### The specification -/

/-- The element types that are only used through references (SVG 1.1), and `defs`. -/
def isDefinition (n : Node) : Bool :=
  match n.kind with
  | .elem .defs | .elem .clipPath | .elem .mask | .elem .marker | .elem .pattern | .elem .linearGradient
  | .elem .radialGradient | .elem .symbol | .elem .filter | .elem .cursor | .elem .altGlyphDef => true
  | _ => false

def isDefs (n : Node) : Bool := decide (n.kind = .elem .defs)

/-- The definitions whose children are drawn when they are used. -/
def isScene (n : Node) : Bool :=
  match n.kind with
  | .elem .clipPath | .elem .mask | .elem .marker | .elem .pattern | .elem .symbol => true
  | _ => false

/-- `m` is the node `n` of `f` after grouping: it may have got inheritable attributes that occur in the document, and has lost
references to `defs` elements that are gone; `lost` says which. -/
structure Kept (f : Forest) (lost : Nat → Bool) (n m : Node) : Prop where
  key : m.key = n.key
  kind : m.kind = n.kind
  id : m.id = n.id
  attrs : ∃ more, m.attrs = (n.attrs ++ more).filter (fun x => !x.value.target.any lost) ∧
    ∀ x ∈ more, (∃ p ∈ f.nodes, x ∈ p.attrs) ∧ (∃ a : AId, x.name = .id a ∧ a.isInheritable = true) ∧ getAttr n.attrs x.name = none

/-- All definitions of `f` are collected in one place, and nothing else has happened. -/
structure Collected (f g : Forest) (s : Node) (ks : Forest) (d : Node) (D : Forest) (e : Node → Node) : Prop where
  /-- The root element of `f`. -/
  root : svgElement f = some (s, ks)
  /-- Its first child is now the element `d`, with the children `D`; the other children are the same as before, without the
  definitions. -/
  first : svgElement g = some (e s, .cons d D ((ks.prune isDefinition).map e))
  /-- The whole document: everything that is not a definition is where it was. -/
  whole : g = setSvgElement (e s) (.cons d D ((ks.prune isDefinition).map e)) ((f.prune isDefinition).map e)
  main : d.kind = .elem .defs
  /-- It is the first `defs` element of `f`, or a new one if there was none. -/
  same : (∃ n, f.nodes.find? isDefs = some n ∧ d = e n) ∨ (f.nodes.find? isDefs = none ∧ d.attrs = [] ∧ d.id = "" ∧ d.key ∉ f.keys)
  kept : ∀ n ∈ f.nodes, Kept f (fun k => decide (k ≠ d.key) && f.nodes.any fun m => isDefs m && decide (m.key = k)) n (e n)
  /-- Only the children of clip paths, masks, markers, patterns and symbols get attributes. -/
  plain : ∀ n ∈ f.nodes, (∀ x ∈ subs f, isScene x.1 = true → n ∉ x.2.top) →
    e n = { n with attrs := n.attrs.filter fun x =>
      !x.value.target.any fun k => decide (k ≠ d.key) && f.nodes.any fun m => isDefs m && decide (m.key = k) }
  /-- Nothing else is lost, and nothing is doubled. -/
  nodes : g.nodes.Perm (d :: (f.nodes.filter fun n => !isDefs n).map e)
  /-- Every other element has its children, in the same order, without the definitions among them. -/
  kids : ∀ x ∈ subs f, isDefs x.1 = false → x = (s, ks) ∨ (e x.1, (x.2.prune isDefinition).map e) ∈ subs g
  /-- In `defs` are: all other definitions, and whatever was in a `defs` element. -/
  inside : ∀ m, m ∈ D.top ↔ ∃ n ∈ f.nodes, m = e n ∧ isDefs n = false ∧
    (isDefinition n = true ∨ ∃ x ∈ subs f, isDefs x.1 = true ∧ n ∈ x.2.top)

/-! ### The lists of nodes to move -/

theorem strays_sub (d : Nat) (p : Option Nat) (f : Forest) : (strays d p f).Sublist f.keys := by
  induction f generalizing p with
  | nil => simp [strays]
  | cons n k r ih1 ih2 =>
    rw [strays, Forest.keys_cons]
    split
    · exact ((ih1 _).append (ih2 _)).cons_cons _
    · exact ((ih1 _).append (ih2 _)).cons _

theorem mem_strays {d : Nat} {p : Option Nat} {f : Forest} {k : Nat} :
    k ∈ strays d p f ↔ ∃ n, n.key = k ∧ n.tag.any EId.isReferenced = true ∧
      ((n ∈ f.top ∧ p ≠ some d) ∨ ∃ x ∈ subs f, n ∈ x.2.top ∧ x.1.key ≠ d) := by
  induction f generalizing p with
  | nil => simp [strays, Forest.top, subs]
  | cons n q r ih1 ih2 =>
    have hh : (k ∈ if n.tag.any EId.isReferenced && decide (p ≠ some d) then [n.key] else []) ↔
        n.key = k ∧ n.tag.any EId.isReferenced = true ∧ p ≠ some d := by
      split
      next e => simp only [Bool.and_eq_true, decide_eq_true_eq] at e; simp [e, eq_comm]
      next e => simp only [Bool.and_eq_true, decide_eq_true_eq] at e; simp only [List.not_mem_nil, false_iff]; tauto
    rw [strays, List.mem_append, List.mem_append, hh, ih1, ih2]
    constructor
    · rintro (⟨a, b, c⟩ | ⟨m, a, b, c⟩ | ⟨m, a, b, c⟩)
      · exact ⟨n, a, b, .inl ⟨by simp [Forest.top], c⟩⟩
      · refine ⟨m, a, b, .inr ?_⟩
        rcases c with ⟨c, h⟩ | ⟨x, hx, h⟩
        · exact ⟨(n, q), by simp [subs], c, fun e => h (by rw [← e])⟩
        · exact ⟨x, by simp [subs, hx], h⟩
      · refine ⟨m, a, b, ?_⟩
        rcases c with ⟨c, h⟩ | ⟨x, hx, h⟩
        · exact .inl ⟨by simp [Forest.top, c], h⟩
        · exact .inr ⟨x, by simp [subs, hx], h⟩
    · rintro ⟨m, a, b, ⟨c, h⟩ | ⟨x, hx, c, h⟩⟩
      · rcases List.mem_cons.1 c with rfl | c
        · exact .inl ⟨a, b, h⟩
        · exact .inr (.inr ⟨m, a, b, .inl ⟨c, h⟩⟩)
      · simp only [subs, List.mem_cons, List.mem_append] at hx
        rcases hx with rfl | hx | hx
        · exact .inr (.inl ⟨m, a, b, .inl ⟨c, by simpa using h⟩⟩)
        · exact .inr (.inl ⟨m, a, b, .inr ⟨x, hx, c, h⟩⟩)
        · exact .inr (.inr ⟨m, a, b, .inr ⟨x, hx, c, h⟩⟩)

theorem top_or_kid {f : Forest} {n : Node} (h : n ∈ f.nodes) : n ∈ f.top ∨ ∃ x ∈ subs f, n ∈ x.2.top := by
  induction f with
  | nil => simp at h
  | cons m k r ih1 ih2 =>
    simp only [Forest.nodes_cons, List.mem_cons, List.mem_append] at h
    rcases h with rfl | h | h
    · exact .inl (by simp [Forest.top])
    · rcases ih1 h with a | ⟨x, hx, a⟩
      · exact .inr ⟨(m, k), by simp [subs], a⟩
      · exact .inr ⟨x, by simp [subs, hx], a⟩
    · rcases ih2 h with a | ⟨x, hx, a⟩
      · exact .inl (by simp [Forest.top, a])
      · exact .inr ⟨x, by simp [subs, hx], a⟩

theorem kid_nodes {f : Forest} {x : Node × Forest} (hx : x ∈ subs f) {n : Node} (h : n ∈ x.2.top) : n ∈ f.nodes :=
  (Stops.subs_kids_sub hx).1.mem ((Stops.top_sub_nodes _).mem h)

theorem top_shape_none {f : Forest} {n : Node} (h : n ∈ f.top) : (n.key, none) ∈ shape none f := Stops.top_shape h none

/-- A node at the top is not a child. -/
theorem top_not_kid {f : Forest} (hu : f.UniqueKeys) {n m : Node} (h : n ∈ f.top) {x : Node × Forest} (hx : x ∈ subs f)
    (hm : m ∈ x.2.top) : m.key ≠ n.key := by
  intro e
  have h1 := Stops.top_shape h none
  have h2 := Stops.subs_shape hx hm none
  rw [e] at h2
  have hn : ((shape none f).map (·.1)).Nodup := by rw [Stops.shape_keys]; exact hu
  have h3 := List.inj_on_of_nodup_map hn h1 h2 rfl
  simp at h3

theorem mem_strays_top {d : Nat} {f : Forest} (hu : f.UniqueKeys) {n : Node} (hn : n ∈ f.nodes) :
    n.key ∈ strays d none f ↔ n.tag.any EId.isReferenced = true ∧ ∀ x ∈ subs f, x.1.key = d → n ∉ x.2.top := by
  rw [mem_strays]
  constructor
  · rintro ⟨m, e, hr, h⟩
    rcases h with ⟨h, _⟩ | ⟨x, hx, h, hd⟩
    · have : m = n := Forest.eq_of_key hu ((Stops.top_sub_nodes f).mem h) hn e
      subst this
      exact ⟨hr, fun x hx _ hc => top_not_kid hu h hx hc rfl⟩
    · have : m = n := Forest.eq_of_key hu (kid_nodes hx h) hn e
      subst this
      refine ⟨hr, fun y hy e2 hc => hd ?_⟩
      rw [parent_unique hu hx hy h hc rfl, e2]
  · rintro ⟨hr, h⟩
    refine ⟨n, rfl, hr, ?_⟩
    rcases top_or_kid hn with a | ⟨x, hx, a⟩
    · exact .inl ⟨a, by simp⟩
    · exact .inr ⟨x, hx, a, fun e => h x hx e a⟩

theorem mem_defsKids {d : Nat} {f : Forest} {k : Nat} :
    k ∈ defsKids d f ↔ ∃ x ∈ subs f, otherDefs d x.1 = true ∧ ∃ n ∈ x.2.top, n.key = k := by
  induction f with
  | nil => simp [defsKids, subs]
  | cons n q r ih1 ih2 =>
    have hh : (k ∈ if otherDefs d n then q.top.map (·.key) else []) ↔ otherDefs d n = true ∧ ∃ m ∈ q.top, m.key = k := by
      split
      next e => simp [e]
      next e => simp [e]
    rw [defsKids, List.mem_append, List.mem_append, hh, ih1, ih2]
    simp only [subs, List.mem_cons, List.mem_append]
    constructor
    · rintro (h | ⟨x, hx, h⟩ | ⟨x, hx, h⟩)
      · exact ⟨(n, q), .inl rfl, h⟩
      · exact ⟨x, .inr (.inl hx), h⟩
      · exact ⟨x, .inr (.inr hx), h⟩
    · rintro ⟨x, rfl | hx | hx, h⟩
      · exact .inl h
      · exact .inr (.inl ⟨x, hx, h⟩)
      · exact .inr (.inr ⟨x, hx, h⟩)

theorem defsKids_nodup {d : Nat} {f : Forest} (hu : f.UniqueKeys) :
    (defsKids d f).Nodup := by
  induction f with
  | nil => simp [defsKids]
  | cons n q r ih1 ih2 =>
    obtain ⟨h1, h2, h3, h4, h5⟩ := nodup_cons hu
    have hin : ∀ {g : Forest} {k : Nat}, k ∈ defsKids d g → k ∈ g.keys := by
      intro g k hk
      obtain ⟨x, hx, _, m, hm, rfl⟩ := mem_defsKids.1 hk
      exact Forest.key_mem (kid_nodes hx hm)
    have htop : (q.top.map (·.key)).Nodup := ((Stops.top_sub_nodes q).map Node.key).nodup h3
    have hsub : ∀ k ∈ (if otherDefs d n then q.top.map (·.key) else []), k ∈ q.top.map (·.key) := by
      intro k hk; split at hk
      · exact hk
      · cases hk
    rw [defsKids, List.nodup_append]
    refine ⟨?_, ?_, ?_⟩
    · split
      · exact htop
      · exact List.nodup_nil
    · rw [List.nodup_append]
      refine ⟨ih1 h3, ih2 h4, ?_⟩
      rintro a ha b hb rfl
      exact h5 _ (hin ha) (hin hb)
    · rintro a ha b hb rfl
      obtain ⟨m, hm, rfl⟩ := List.mem_map.1 (hsub a ha)
      rcases List.mem_append.1 hb with hb | hb
      · obtain ⟨x, hx, _, t, ht, e⟩ := mem_defsKids.1 hb
        exact top_not_kid h3 hm hx ht e
      · exact h5 _ (Forest.key_mem ((Stops.top_sub_nodes q).mem hm)) (hin hb)

/-! ### The main `defs` element in its place -/

/-- The first child of the root element is the main `defs` element. -/
structure Placed (d : Nat) (f : Forest) (s dn : Node) (D r : Forest) : Prop where
  unique : f.UniqueKeys
  root : svgElement f = some (s, .cons dn D r)
  key : dn.key = d
  kind : dn.kind = .elem .defs

section
variable {d : Nat} {f : Forest} {s dn : Node} {D r : Forest} (P : Placed d f s dn D r)
include P

theorem Placed.sub_root : (s, Forest.cons dn D r) ∈ subs f := (svgElement_mem P.root).1
theorem Placed.svg : s.kind = .elem .svg := (svgElement_mem P.root).2
theorem Placed.sub_main : (dn, D) ∈ subs f := subs_trans P.sub_root (by simp [subs])
theorem Placed.mem : d ∈ f.keys := P.key ▸ key_subs P.sub_main
theorem Placed.sne : s.key ≠ d := by
  intro e
  have : s = dn := Forest.eq_of_key P.unique (node_of_subs P.sub_root) (node_of_subs P.sub_main) (by rw [e, P.key])
  have h := P.svg
  rw [this, P.kind] at h
  cases h

theorem Placed.kids : f.kidsOf d = some D := P.key ▸ kidsOf_subs P.unique P.sub_main

theorem Placed.clear {l : List Nat} (hs : s.key ∉ l) (hd : d ∉ l) : Clear d l f := by
  intro x hx hl
  refine ⟨fun e => hd (e ▸ hl), fun h => hs ?_⟩
  have := below_root P.unique P.root hx (P.key.symm ▸ h)
  rw [this] at hl
  exact hl

theorem Placed.state {l : List Nat} (hs : s.key ∉ l) (hd : d ∉ l) :
    svgElement (stateOf d l f) = some (s, .cons dn (D.prune (within l) ++ pieces l f l) (r.prune (within l))) := by
  have hs' : within l s = false := by simpa [within] using hs
  have hd' : within l dn = false := by simpa [within, P.key] using hd
  have h1 := svgElement_prune P.root (p := within l) hs'
  simp only [Forest.prune, hd', Bool.false_eq_true, if_false] at h1
  unfold stateOf
  rw [svgElement_setKids h1 P.sne, P.kids, Option.getD_some]
  have hr : d ∉ (r.prune (within l)).keys := by
    intro hc
    obtain ⟨h1, h2, h3, h4, h5⟩ := nodup_cons (show (Forest.cons dn D r).UniqueKeys from
      ((Stops.subs_kids_sub P.sub_root).1.map Node.key).nodup P.unique)
    obtain ⟨n, hn, e⟩ := Forest.mem_keys.1 hc
    refine h2 ?_
    rw [P.key, ← e]
    exact Forest.key_mem ((Forest.nodes_prune_sublist _ _).mem hn)
  rw [Forest.setKids, if_pos P.key, setKids_not_mem hr]

end

/-! ### The moves -/

theorem isDefs_otherDefs {d : Nat} {n : Node} (h : n.key ≠ d) : otherDefs d n = isDefs n := by
  simp [otherDefs, isDefs, Node.isTag, h]

theorem strays_state {d : Nat} {f : Forest} {s dn : Node} {D r : Forest} (P : Placed d f s dn D r) :
    Movable d (strays d none f) f ∧ s.key ∉ strays d none f ∧ d ∉ strays d none f := by
  have hs : s.key ∉ strays d none f := by
    intro h
    obtain ⟨h, _⟩ := (mem_strays_top P.unique (node_of_subs P.sub_root)).1 h
    simp [Node.tag, P.svg, EId.isReferenced] at h
  have hd : d ∉ strays d none f := by
    intro h
    rw [← P.key] at h
    obtain ⟨h, _⟩ := (mem_strays_top P.unique (node_of_subs P.sub_main)).1 h
    simp [Node.tag, P.kind, EId.isReferenced] at h
  exact ⟨⟨P.unique, P.mem, P.clear hs hd, fun k hk => (strays_sub d none f).mem hk, (strays_sub d none f).nodup P.unique⟩, hs, hd⟩

/-- A node of a later state comes from a node of the document. -/
theorem state_sub {d : Nat} {f : Forest} {s dn : Node} {D r : Forest} (P : Placed d f s dn D r) {l : List Nat} (hl : Movable d l f)
    {e : Node → Node} (he : ∀ n, (e n).key = n.key) {x : Node × Forest} (hx : x ∈ subs ((stateOf d l f).map e)) :
    ∃ y ∈ subs f, x.1 = e y.1 ∧ (y.1.key ≠ d → y.1 ≠ s → x.2 = (y.2.prune (within l)).map e) := by
  rw [subs_map] at hx
  obtain ⟨z, hz, rfl⟩ := List.mem_map.1 hx
  have hz1 : z.1 ∈ f.nodes := (hl.nodes _).mem_iff.1 (node_of_subs hz)
  obtain ⟨c, hc⟩ := mem_subs_of_node hz1
  refine ⟨(z.1, c), hc, rfl, fun h1 h2 => ?_⟩
  have hdc : d ∉ c.keys := by
    intro h
    have := below_root P.unique P.root hc (P.key.symm ▸ h)
    exact h2 (congrArg Prod.fst this)
  have := subs_unique hl.uniqueState hz (subs_state P.unique P.mem hl.clear hc h1 hdc) rfl
  dsimp only
  rw [this]

/-- A node is as it was, or a child of an element whose children get attributes. -/
def Lucky (f : Forest) (e : Node → Node) : Prop := ∀ n ∈ f.nodes, e n = n ∨ ∃ x ∈ subs f, x.1.tag.any carries = true ∧ n ∈ x.2.top

theorem moveRefs_state {d : Nat} {f : Forest} {s dn : Node} {D r : Forest} (P : Placed d f s dn D r) (m : List Nat) {l : List Nat}
    (hm : Movable d (l ++ m) f) {e : Node → Node} (he : ∀ n, Grown (allAttrs f) n (e n)) (hl : Lucky f e) {g : Forest}
    (h : moveRefs d m ((stateOf d l f).map e) = some g) :
    ∃ e' : Node → Node, g = (stateOf d (l ++ m) f).map e' ∧ (∀ n, Grown (allAttrs f) n (e' n)) ∧ Lucky f e' := by
  induction m generalizing l e with
  | nil => cases h; exact ⟨e, by simp, he, hl⟩
  | cons k t ih =>
    rw [List.append_cons] at hm
    obtain ⟨g1, h1, h2⟩ := Option.bind_eq_some_iff.1 h
    have hu := hm.init.init.uniqueState
    obtain ⟨e1, rfl, hg, hl1⟩ := resolveAttrs_grown ((Forest.uniqueKeys_map (fun n => (he n).key)).2 hu) h1
    rw [moveTo_map (fun n => (hg n).key), moveTo_map (fun n => (he n).key), hm.init.step, Forest.map_map] at h2
    have hsrc : ∀ x ∈ allAttrs ((stateOf d l f).map e), x ∈ allAttrs f := by
      intro x hx
      obtain ⟨n, hn, hx⟩ := mem_allAttrs.1 hx
      rw [Forest.nodes_map] at hn
      obtain ⟨n0, hn0, rfl⟩ := List.mem_map.1 hn
      rcases (he n0).mem hx with a | a
      · exact mem_allAttrs.2 ⟨n0, (hm.init.init.nodes _).mem_iff.1 hn0, a⟩
      · exact a
    have hl' : Lucky f fun n => e1 (e n) := by
      intro n hn
      rcases hl n hn with a | a
      · have hn' : e n ∈ ((stateOf d l f).map e).nodes := by
          rw [Forest.nodes_map]
          exact List.mem_map.2 ⟨n, (hm.init.init.nodes _).mem_iff.2 hn, rfl⟩
        rcases hl1 (e n) hn' with b | ⟨x, hx, hc, hin⟩
        · exact .inl (b.trans a)
        · right
          obtain ⟨y, hy, e1, e2⟩ := state_sub P hm.init.init (fun n => (he n).key) hx
          have hyt : y.1.tag = x.1.tag := by rw [e1]; simp [Node.tag, (he y.1).kind]
          rw [← hyt] at hc
          refine ⟨y, hy, hc, ?_⟩
          have n1 : y.1.key ≠ d := by
            intro hk
            have : y.1 = dn := Forest.eq_of_key P.unique (node_of_subs hy) (node_of_subs P.sub_main) (by rw [hk, P.key])
            rw [this] at hc
            simp [Node.tag, P.kind, carries] at hc
          have n2 : y.1 ≠ s := by
            intro hk
            rw [hk] at hc
            simp [Node.tag, P.svg, carries] at hc
          rw [e2 n1 n2, Stops.top_map, Stops.top_prune] at hin
          obtain ⟨q, hq, e3⟩ := List.mem_map.1 hin
          have hqt := (List.mem_filter.1 hq).1
          have : q = n := Forest.eq_of_key P.unique (kid_nodes hy hqt) hn (by rw [← (he q).key, ← (he n).key, e3])
          exact this ▸ hqt
      · exact .inr a
    obtain ⟨e', r1, r2⟩ := ih hm (fun n => (he n).trans ((hg (e n)).mono hsrc)) hl' h2
    exact ⟨e', by rw [List.append_cons l k t]; exact r1, r2⟩

structure Moves (d : Nat) (f g : Forest) (s : Node) (l : List Nat) (e : Node → Node) : Prop where
  movable : Movable d l f
  root : s.key ∉ l
  main : d ∉ l
  grown : ∀ n, Grown (allAttrs f) n (e n)
  lucky : Lucky f e
  eq : g = ((stateOf d l f).map e).remove (otherDefs d)
  refs : ∀ n ∈ f.nodes, n.tag.any EId.isReferenced = true → (∀ x ∈ subs f, x.1.key = d → n ∉ x.2.top) → n.key ∈ l
  defs : ∀ x ∈ subs f, otherDefs d x.1 = true → ∀ n ∈ x.2.top, n.key ∈ l
  only : ∀ n ∈ f.nodes, n.key ∈ l → (n.tag.any EId.isReferenced = true ∧ ∀ x ∈ subs f, x.1.key = d → n ∉ x.2.top) ∨
    ∃ x ∈ subs f, otherDefs d x.1 = true ∧ n ∈ x.2.top

theorem moves {d : Nat} {f f2 : Forest} {s dn : Node} {D r : Forest} (P : Placed d f s dn D r)
    (h : moveRefs d (strays d none f) f = some f2) :
    ∃ l e, Moves d f ((moveAll d (defsKids d f2) f2).remove (otherDefs d)) s l e ∧ moveAll d (defsKids d f2) f2 = (stateOf d l f).map e := by
  obtain ⟨hm, hs, hd⟩ := strays_state P
  have h0 : (stateOf d [] f).map id = f := by
    rw [state_nil P.unique P.mem]; exact Forest.map_id' fun _ _ => rfl
  rw [← h0] at h
  rw [h0] at h
  obtain ⟨e, he, hg, hlu⟩ := moveRefs_state P (l := []) (e := id) (strays d none f) (by simpa using hm) (fun n => Grown.refl _ n)
    (fun n _ => .inl rfl)
    (by rw [h0]; exact h)
  rw [List.nil_append] at he
  have hkey : ∀ n, (e n).key = n.key := fun n => (hg n).key
  have hod : ∀ n, otherDefs d (e n) = otherDefs d n := fun n => by simp [otherDefs, Node.isTag, (hg n).kind, hkey]
  -- the other list
  have hl3 : ∀ {k}, k ∈ defsKids d f2 ↔ k ∉ strays d none f ∧ ∃ x ∈ subs f, otherDefs d x.1 = true ∧ ∃ n ∈ x.2.top, n.key = k := by
    intro k
    rw [mem_defsKids, he]
    have oth : ∀ y : Node × Forest, y ∈ subs f → otherDefs d y.1 = true → y.1.key ≠ d ∧ y.1 ≠ s := by
      intro y hy ho
      simp only [otherDefs, Node.isTag, Bool.and_eq_true, decide_eq_true_eq] at ho
      refine ⟨ho.2, fun e => ?_⟩
      have h := P.svg
      rw [← e, ho.1] at h
      cases h
    constructor
    · rintro ⟨x, hx, ho, n, hn, rfl⟩
      obtain ⟨y, hy, e1, e2⟩ := state_sub P hm hkey hx
      rw [e1, hod] at ho
      obtain ⟨o1, o2⟩ := oth y hy ho
      rw [e2 o1 o2, Stops.top_map, Stops.top_prune] at hn
      obtain ⟨m, hmm, rfl⟩ := List.mem_map.1 hn
      obtain ⟨hmt, hw⟩ := List.mem_filter.1 hmm
      rw [hkey]
      exact ⟨by simpa [within] using hw, y, hy, ho, m, hmt, rfl⟩
    · rintro ⟨hk, y, hy, ho, n, hn, rfl⟩
      obtain ⟨o1, o2⟩ := oth y hy ho
      have hdc : d ∉ y.2.keys := by
        intro h
        have := below_root P.unique P.root hy (P.key.symm ▸ h)
        exact o2 (congrArg Prod.fst this)
      have := subs_state P.unique P.mem hm.clear hy o1 hdc
      refine ⟨(e y.1, (y.2.prune (within (strays d none f))).map e), ?_, by rw [hod]; exact ho, e n, ?_, hkey n⟩
      · rw [subs_map]
        exact List.mem_map.2 ⟨_, this, rfl⟩
      · rw [Stops.top_map, Stops.top_prune]
        exact List.mem_map.2 ⟨n, List.mem_filter.2 ⟨hn, by simpa [within] using hk⟩, rfl⟩
  have hu2 : f2.UniqueKeys := by rw [he]; exact (Forest.uniqueKeys_map hkey).2 hm.uniqueState
  have hs3 : s.key ∉ defsKids d f2 := by
    intro hc
    obtain ⟨_, x, hx, _, n, hn, e⟩ := hl3.1 hc
    exact top_not_kid P.unique (svgElement_top P.root) hx hn e
  have hd3 : d ∉ defsKids d f2 := by
    intro hc
    obtain ⟨_, x, hx, ho, n, hn, e⟩ := hl3.1 hc
    have := parent_unique P.unique hx P.sub_root hn (d := dn) (by simp [Forest.top]) (by rw [e, P.key])
    simp only [otherDefs, Node.isTag, Bool.and_eq_true, decide_eq_true_eq] at ho
    have h := P.svg
    rw [this] at ho
    rw [ho.1] at h
    cases h
  have hsl : s.key ∉ strays d none f ++ defsKids d f2 := by simp [hs, hs3]
  have hdl : d ∉ strays d none f ++ defsKids d f2 := by simp [hd, hd3]
  have hM : Movable d (strays d none f ++ defsKids d f2) f := by
    refine ⟨P.unique, P.mem, P.clear hsl hdl, ?_, ?_⟩
    · intro k hk
      rcases List.mem_append.1 hk with h | h
      · exact hm.mem k h
      · obtain ⟨_, x, hx, _, n, hn, rfl⟩ := hl3.1 h
        exact Forest.key_mem (kid_nodes hx hn)
    · refine List.nodup_append.2 ⟨hm.nodup, defsKids_nodup hu2, ?_⟩
      rintro a ha b hb rfl
      exact (hl3.1 hb).1 ha
  have hall : moveAll d (defsKids d f2) f2 = (stateOf d (strays d none f ++ defsKids d f2) f).map e := by
    conv => lhs; arg 3; rw [he]
    exact moveAll_state _ hM hkey
  refine ⟨strays d none f ++ defsKids d f2, e, ⟨hM, hsl, hdl, hg, hlu, ?_, ?_, ?_, ?_⟩, hall⟩
  · rw [hall]
  · intro n hn hr hx
    exact List.mem_append_left _ ((mem_strays_top P.unique hn).2 ⟨hr, hx⟩)
  · intro x hx ho n hn
    by_cases hk : n.key ∈ strays d none f
    · exact List.mem_append_left _ hk
    · exact List.mem_append_right _ (hl3.2 ⟨hk, x, hx, ho, n, hn, rfl⟩)
  · intro n hn hk
    rcases List.mem_append.1 hk with h | h
    · exact .inl ((mem_strays_top P.unique hn).1 h)
    · obtain ⟨_, x, hx, ho, m, hm', e⟩ := hl3.1 h
      have : m = n := Forest.eq_of_key P.unique (kid_nodes hx hm') hn e
      exact .inr ⟨x, hx, ho, this ▸ hm'⟩

/-! ### The other `defs` elements -/

theorem nil_of_top {f : Forest} (h : f.top = []) : f = .nil := by
  cases f with
  | nil => rfl
  | cons => simp [Forest.top] at h

/-- "Unneeded defs already ungrouped and must be empty": the assertion in the code holds. -/
theorem Moves.empty {d : Nat} {f g : Forest} {s dn : Node} {D r : Forest} (P : Placed d f s dn D r) {l : List Nat} {e : Node → Node}
    (M : Moves d f g s l e) {x : Node × Forest} (hx : x ∈ subs ((stateOf d l f).map e)) (ho : otherDefs d x.1 = true) :
    x.2 = .nil := by
  have hkey : ∀ n, (e n).key = n.key := fun n => (M.grown n).key
  have hod : ∀ n, otherDefs d (e n) = otherDefs d n := fun n => by simp [otherDefs, Node.isTag, (M.grown n).kind, hkey]
  obtain ⟨y, hy, e1, e2⟩ := state_sub P M.movable hkey hx
  rw [e1, hod] at ho
  have ho' := ho
  simp only [otherDefs, Node.isTag, Bool.and_eq_true, decide_eq_true_eq] at ho'
  rw [e2 ho'.2 fun e => by
    have h := P.svg
    rw [← e, ho'.1] at h
    cases h]
  refine nil_of_top ?_
  rw [Stops.top_map, Stops.top_prune, List.map_eq_nil_iff, List.filter_eq_nil_iff]
  intro n hn
  simp [within, M.defs y hy ho n hn]

theorem prune_leaves {p : Node → Bool} {f : Forest} (h : ∀ x ∈ subs f, p x.1 = true → x.2 = .nil) :
    (f.prune p).nodes = f.nodes.filter (fun n => !p n) ∧ f.prunedKeys p = (f.nodes.filter p).map (·.key) := by
  induction f with
  | nil => exact ⟨rfl, rfl⟩
  | cons n k r ih1 ih2 =>
    obtain ⟨a1, a2⟩ := ih1 fun x hx => h x (by simp [subs, hx])
    obtain ⟨b1, b2⟩ := ih2 fun x hx => h x (by simp [subs, hx])
    have hn := h (n, k) (by simp [subs])
    rw [Forest.prune, Forest.prunedKeys]
    by_cases hp : p n
    · have hk : k = .nil := hn hp
      subst hk
      simp [hp, b1, b2]
    · simp [hp, a1, a2, b1, b2]

theorem prune_agree {p q : Node → Bool} {c : Forest} (h1 : ∀ n ∈ c.top, p n = q n)
    (h2 : ∀ y ∈ subs c, p y.1 = false → ∀ n ∈ y.2.top, p n = q n) : c.prune p = c.prune q := by
  induction c with
  | nil => rfl
  | cons n k r ihk ihr =>
    have hn := h1 n (by simp [Forest.top])
    have hr := ihr (fun m hm => h1 m (by simp [Forest.top, hm])) (fun y hy => h2 y (by simp [subs, hy]))
    rw [Forest.prune, Forest.prune, ← hn, hr]
    split
    · rfl
    next hp =>
      rw [ihk (h2 (n, k) (by simp [subs]) (by simpa using hp)) (fun y hy => h2 y (by simp [subs, hy]))]

/-! ### The first step -/

theorem prune_setSvg {p : Node → Bool} {f : Forest} {x : Node × Forest} (h : svgElement f = some x) (hp : p x.1 = false) (k : Forest) :
    (setSvgElement x.1 k f).prune p = setSvgElement x.1 (k.prune p) (f.prune p) := by
  induction f with
  | nil => rfl
  | cons n q r _ ih =>
    unfold svgElement at h
    rw [setSvgElement]
    split at h
    next e =>
      cases h
      rw [if_pos e, Forest.prune, Forest.prune, if_neg (by simp [hp]), if_neg (by simp [hp]), setSvgElement, if_pos e]
    next e =>
      rw [if_neg e, Forest.prune, Forest.prune]
      split
      · exact ih h
      · rw [setSvgElement, if_neg e, ih h]

theorem map_setSvg {e : Node → Node} (he : ∀ n, (e n).kind = n.kind) (n : Node) (k f : Forest) :
    (setSvgElement n k f).map e = setSvgElement (e n) (k.map e) (f.map e) := by
  have ht : ∀ n, (e n).isTag .svg = n.isTag .svg := fun n => by simp [Node.isTag, he]
  induction f with
  | nil => rfl
  | cons m q r _ ih =>
    rw [setSvgElement, Forest.map_cons, setSvgElement, ht]
    split
    · rfl
    · rw [Forest.map_cons, ih]

theorem setKids_setSvg {f : Forest} {x : Node × Forest} (h : svgElement f = some x) {d : Nat} (hx : x.1.key ≠ d) (hd : d ∉ f.keys)
    (k X : Forest) : (setSvgElement x.1 k f).setKids d X = setSvgElement x.1 (k.setKids d X) f := by
  induction f with
  | nil => rfl
  | cons n q r _ ih =>
    simp only [Forest.keys_cons, List.mem_cons, List.mem_append, not_or] at hd
    unfold svgElement at h
    rw [setSvgElement, setSvgElement]
    split at h
    next e =>
      cases h
      rw [if_pos e, if_pos e, Forest.setKids, if_neg hx, setKids_not_mem hd.2.2]
    next e =>
      rw [if_neg e, if_neg e, Forest.setKids, if_neg (fun e => hd.1 e.symm), setKids_not_mem hd.2.1, ih h hd.2.2]

theorem setSvg_self {f : Forest} {x : Node × Forest} (h : svgElement f = some x) : setSvgElement x.1 x.2 f = f := by
  induction f with
  | nil => rfl
  | cons n q r _ ih =>
    unfold svgElement at h
    rw [setSvgElement]
    split at h
    next e => cases h; rw [if_pos e]
    next e => rw [if_neg e, ih h]

theorem setSvg_set (n : Node) (hn : n.isTag .svg = true) (k k' f : Forest) : setSvgElement n k (setSvgElement n k' f) = setSvgElement n k f := by
  induction f with
  | nil => rfl
  | cons m q r _ ih =>
    rw [setSvgElement, setSvgElement]
    split
    · rw [setSvgElement, if_pos hn]
    next e => rw [setSvgElement, if_neg e, ih]

structure FirstStep (f f1 : Forest) (d : Nat) (s dn : Node) (ks D r : Forest) : Prop where
  placed : Placed d f1 s dn D r
  root : svgElement f = some (s, ks)
  rest : r = ks.prune fun n => decide (n.key = d)
  eq : f1 = setSvgElement s (.cons dn D r) (f.prune fun n => decide (n.key = d))
  subs : ∀ x ∈ subs f, x.1.key ≠ d → x = (s, ks) ∨ (x.1, x.2.prune fun n => decide (n.key = d)) ∈ subs f1
  main : (f.nodes.find? isDefs = some dn ∧ (dn, D) ∈ Spec.subs f ∧ f1.nodes.Perm f.nodes) ∨
    (f.nodes.find? isDefs = none ∧ dn = newDefs d ∧ D = .nil ∧ d ∉ f.keys ∧ f1.nodes.Perm (dn :: f.nodes))

theorem prune_key_id {f : Forest} {d : Nat} (h : d ∉ f.keys) : (f.prune fun n => decide (n.key = d)) = f :=
  prune_id fun n hn => by simpa using fun e : n.key = d => h (e ▸ Forest.key_mem hn)

theorem mainDefs_spec {f : Forest} (hu : f.UniqueKeys) :
    (f.nodes.find? isDefs = some (mainDefs f).1 ∧ mainDefs f ∈ subs f) ∨
    (f.nodes.find? isDefs = none ∧ mainDefs f = (newDefs (GroupStyle.freshKey f), .nil) ∧ (mainDefs f).1.key ∉ f.keys) := by
  have hf : firstDefs f = (f.nodes.find? isDefs).map (·.key) := rfl
  cases h : f.nodes.find? isDefs with
  | some n =>
    left
    obtain ⟨c, hc⟩ := mem_subs_of_node (List.mem_of_find?_eq_some h)
    have : mainDefs f = (n, c) := by
      unfold mainDefs
      rw [hf, h]
      show (match (some n.key).bind (subtree · f) with | some x => x | none => _) = _
      rw [Option.bind_some, subtree_of hu hc]
    rw [this]
    exact ⟨rfl, hc⟩
  | none =>
    right
    have : mainDefs f = (newDefs (GroupStyle.freshKey f), .nil) := by
      unfold mainDefs
      rw [hf, h]
      rfl
    refine ⟨rfl, this, ?_⟩
    rw [this]
    intro hk
    obtain ⟨n, hn, e⟩ := Forest.mem_keys.1 hk
    have hle : ∀ (l : List Nat) (x : Nat), x ∈ l → x ≤ l.foldr max 0 := by
      intro l x hx
      induction l with
      | nil => cases hx
      | cons a t ih =>
        rcases List.mem_cons.1 hx with rfl | h
        · exact le_max_left _ _
        · exact le_trans (ih h) (le_max_right _ _)
    have := hle (f.nodes.flatMap fun n => n.key :: n.links) n.key (List.mem_flatMap.2 ⟨n, hn, by simp⟩)
    have e' : n.key = (f.nodes.flatMap fun n => n.key :: n.links).foldr max 0 + 1 := e
    omega

theorem firstStep {f f1 : Forest} (hu : f.UniqueKeys) (h : putFirst (mainDefs f) f = some f1) :
    ∃ s dn ks D r, FirstStep f f1 (mainDefs f).1.key s dn ks D r := by
  have hspec := mainDefs_spec hu
  generalize mainDefs f = m at h hspec
  obtain ⟨dn, D⟩ := m
  obtain ⟨⟨s, ks⟩, hs, h⟩ := Option.map_eq_some_iff.1 h
  dsimp only at h hspec ⊢
  have hkind : dn.kind = .elem .defs := by
    rcases hspec with ⟨a, _⟩ | ⟨_, b, _⟩
    · simpa [isDefs] using List.find?_some a
    · cases b; rfl
  have hsub := (svgElement_mem hs).1
  have hsk := (svgElement_mem hs).2
  have hku : ks.UniqueKeys := ((Stops.subs_kids_sub hsub).1.map Node.key).nodup hu
  split at h
  next hst =>
    -- it is there already
    subst h
    cases ks with
    | nil => cases hst
    | cons n c r =>
      have hst : n.key = dn.key := by simpa [startsWith] using hst
      have hin : (n, c) ∈ Spec.subs f := subs_trans hsub (by simp [Spec.subs])
      rcases hspec with ⟨a, b⟩ | ⟨_, _, c'⟩
      swap
      · exact absurd (hst ▸ key_subs hin) c'
      have := subs_unique hu hin b hst
      obtain ⟨rfl, rfl⟩ := Prod.mk.inj this
      obtain ⟨h1, h2, h3, h4, h5⟩ := nodup_cons hku
      have P : Placed n.key f s n c r := ⟨hu, hs, rfl, hkind⟩
      refine ⟨s, n, _, c, r, P, hs, ?_, ?_, ?_, .inl ⟨a, b, .refl _⟩⟩
      · rw [Forest.prune, if_pos (by simp), prune_key_id h2]
      · -- the element is nowhere else
        have hsn : s.key ≠ n.key := by
          intro e
          have : s = n := Forest.eq_of_key hu (node_of_subs hsub) (node_of_subs hin) e
          rw [this, hkind] at hsk
          cases hsk
        have hps := prune_setSvg (p := fun m => decide (m.key = n.key)) hs (by simpa using hsn) (.cons n c r)
        have key : ∀ {t : Forest} (ht : svgElement t = some (s, .cons n c r)), t.UniqueKeys →
            setSvgElement s (.cons n c r) (t.prune fun m => decide (m.key = n.key)) = t := by
          intro t ht hut
          induction t with
          | nil => rfl
          | cons m q t' _ ih =>
            obtain ⟨u1, u2, u3, u4, u5⟩ := nodup_cons hut
            unfold svgElement at ht
            split at ht
            next e =>
              cases ht
              rw [Forest.prune, if_neg (by simpa using hsn), setSvgElement, if_pos e, prune_key_id (u5 _ (by simp))]
            next e =>
              have hin' : n.key ∈ t'.keys := kids_subs (svgElement_mem ht).1 (by simp)
              rw [Forest.prune, if_neg (by simpa using fun e : m.key = n.key => u2 (e ▸ hin')), setSvgElement, if_neg e, ih ht u4,
                prune_key_id (fun hq => u5 _ hq hin')]
        exact (key hs hu).symm
      · intro x hx hk
        by_cases hr : n.key ∈ x.2.keys
        · exact .inl (below_root hu hs hx hr)
        · right
          rw [prune_key_id hr]
          exact hx
  next hst =>
    subst h
    generalize hq : (fun n : Node => decide (n.key = dn.key)) = q
    have hqs : q s = false := by
      rw [← hq]
      simp only [decide_eq_false_iff_not]
      intro e
      rcases hspec with ⟨a, b⟩ | ⟨_, _, c'⟩
      · have : s = dn := Forest.eq_of_key hu (node_of_subs hsub) (node_of_subs b) e
        rw [this, hkind] at hsk
        cases hsk
      · exact c' (e ▸ key_subs hsub)
    have hs1 := svgElement_prune hs hqs
    have hroot := svgElement_set hs1 (.cons dn D (ks.prune q))
    obtain ⟨A, B, n1, n2⟩ := setSvg_nodes hs1 (.cons dn D (ks.prune q))
    dsimp only at n1 n2 hroot
    have hperm : (setSvgElement s (.cons dn D (ks.prune q)) (f.prune q)).nodes.Perm ((f.prune q).nodes ++ dn :: D.nodes) := by
      rw [n2, n1]
      have e1 : A ++ s :: ((Forest.cons dn D (ks.prune q)).nodes ++ B) = (A ++ [s]) ++ ((dn :: D.nodes) ++ ((ks.prune q).nodes ++ B)) := by simp
      have e2 : (A ++ s :: ((ks.prune q).nodes ++ B)) ++ dn :: D.nodes = (A ++ [s]) ++ (((ks.prune q).nodes ++ B) ++ (dn :: D.nodes)) := by simp
      rw [e1, e2]
      exact List.Perm.append_left _ List.perm_append_comm
    have hmain : (f.nodes.find? isDefs = some dn ∧ (dn, D) ∈ Spec.subs f ∧ (setSvgElement s (.cons dn D (ks.prune q)) (f.prune q)).nodes.Perm f.nodes) ∨
        (f.nodes.find? isDefs = none ∧ dn = newDefs dn.key ∧ D = .nil ∧ dn.key ∉ f.keys ∧
          (setSvgElement s (.cons dn D (ks.prune q)) (f.prune q)).nodes.Perm (dn :: f.nodes)) := by
      rcases hspec with ⟨a, b⟩ | ⟨a, b, c⟩
      · refine .inl ⟨a, b, hperm.trans ?_⟩
        rw [← hq]
        exact (nodes_prune_one hu b).symm
      · right
        rw [← hq, prune_key_id c] at hperm
        obtain ⟨rfl, rfl⟩ := Prod.mk.inj b
        refine ⟨a, rfl, rfl, c, ?_⟩
        rw [← hq, prune_key_id c]
        exact hperm.trans (List.perm_append_comm (l₂ := [_]))
    have hu1 : (setSvgElement s (.cons dn D (ks.prune q)) (f.prune q)).UniqueKeys := by
      rcases hmain with ⟨_, _, h⟩ | ⟨_, _, _, hk, h⟩
      · exact (h.map Node.key).nodup_iff.2 hu
      · exact (h.map Node.key).nodup_iff.2 (List.nodup_cons.2 ⟨hk, hu⟩)
    refine ⟨s, dn, ks, D, _, ⟨hu1, hroot, rfl, hkind⟩, hs, by rw [hq], by rw [hq], ?_, hmain⟩
    intro x hx hk
    rw [hq]
    rcases subs_pruned (p := q) hx with ⟨hw, h⟩ | ⟨y, hy, hw, h⟩
    · rcases subs_set hs1 (.cons dn D (ks.prune q)) h with a | a | a
      · left
        have : x.1 = s := congrArg Prod.fst a
        exact subs_unique hu hx hsub (by rw [this])
      · exact .inr (kids_set hs1 _ (by simp [Spec.subs, a]))
      · exact .inr a
    · right
      have hy1 : y.1.key = dn.key := by rw [← hq] at hw; simpa using hw
      have hyd : y = (dn, D) := by
        rcases hspec with ⟨a, b⟩ | ⟨_, _, c'⟩
        · exact subs_unique hu hy b hy1
        · exact absurd (hy1 ▸ key_subs hy) c'
      subst hyd
      rcases h with rfl | h
      · exact absurd rfl hk
      · have hdD : dn.key ∉ D.keys := by
          intro hc
          have hnd := ((nodes_prune_one hu hy).map Node.key).nodup_iff.1 hu
          rw [List.map_append, List.map_cons] at hnd
          exact (List.nodup_cons.1 (List.nodup_append.1 hnd).2.1).1 hc
        rw [show D.prune q = D by rw [← hq]; exact prune_key_id hdD] at h
        exact kids_set hs1 _ (by simp [Spec.subs, h])

/-! ### The theorem -/

theorem isDefinition_eq (n : Node) : isDefinition n = (isDefs n || n.tag.any EId.isReferenced) := by
  obtain ⟨k, kind, i, as⟩ := n
  cases kind with
  | elem a => cases a <;> rfl
  | _ => rfl

theorem top_append (a b : Forest) : (a ++ b).top = a.top ++ b.top := by
  induction a with
  | nil => rfl
  | cons n k r _ ih => simp [Forest.top, ih]

theorem pieces_top {l m : List Nat} {f : Forest} (hu : f.UniqueKeys) {n : Node} :
    n ∈ (pieces l f m).top ↔ n ∈ f.nodes ∧ n.key ∈ m := by
  induction m with
  | nil => simp [pieces, Forest.top]
  | cons a t ih =>
    rw [pieces, top_append, List.mem_append, ih]
    have : n ∈ (piece l f a).top ↔ n ∈ f.nodes ∧ n.key = a := by
      unfold piece
      cases h : subtree a f with
      | none =>
        simp only [Forest.top, List.not_mem_nil, false_iff, not_and]
        intro hn e
        exact subtree_none.1 h (e ▸ Forest.key_mem hn)
      | some x =>
        obtain ⟨hx, rfl⟩ := subtree_mem h
        simp only [Forest.top, List.mem_singleton]
        constructor
        · rintro rfl; exact ⟨node_of_subs hx, rfl⟩
        · rintro ⟨hn, e⟩; exact Forest.eq_of_key hu hn (node_of_subs hx) e
    rw [this, List.mem_cons]
    tauto

theorem isScene_eq (n : Node) : isScene n = n.tag.any carries := by
  obtain ⟨k, kind, i, as⟩ := n
  cases kind with
  | elem a => cases a <;> rfl
  | _ => rfl

/-- **C35**: after the pass all definitions are in the first child of the root element, which is the only `defs` element, and
everything else is where it was. -/
theorem C35_collected {f g : Forest} (hu : f.UniqueKeys) (h : groupDefs f = some g) :
    ∃ s ks d D e, Collected f g s ks d D e := by
  unfold groupDefs at h
  dsimp only at h
  obtain ⟨f1, h1, h⟩ := Option.bind_eq_some_iff.1 h
  obtain ⟨f2, h2, rfl⟩ := Option.map_eq_some_iff.1 h
  obtain ⟨s, dn, ks, D, r, F⟩ := firstStep hu h1
  generalize (mainDefs f).1.key = d at *
  have P := F.placed
  obtain ⟨l, e, M, -⟩ := moves P h2
  have hkey : ∀ n, (e n).key = n.key := fun n => (M.grown n).key
  have hkind : ∀ n, (e n).kind = n.kind := fun n => (M.grown n).kind
  have hod : ∀ n, otherDefs d (e n) = otherDefs d n := fun n => by simp [otherDefs, Node.isTag, hkind, hkey]
  -- the keys of the other `defs` elements
  obtain ⟨p1, p2⟩ := prune_leaves fun x hx => M.empty P hx
  have hnode1 : ∀ n, n ∈ f1.nodes ↔ n ∈ f.nodes ∨ (n = dn) := by
    intro n
    rcases F.main with ⟨_, hb, hp⟩ | ⟨_, _, _, _, hp⟩
    · rw [hp.mem_iff]
      constructor
      · exact .inl
      · rintro (a | rfl)
        · exact a
        · exact node_of_subs hb
    · rw [hp.mem_iff, List.mem_cons, or_comm]
  have hdn_only : ∀ n ∈ f.nodes, n.key = d → n = dn := by
    intro n hn hk
    exact Forest.eq_of_key P.unique ((hnode1 n).2 (.inl hn)) ((hnode1 dn).2 (.inr rfl)) (by rw [hk, P.key])
  have hdnd : isDefs dn = true := by simp [isDefs, P.kind]
  have hlost : (fun k => decide (k ∈ ((stateOf d l f1).map e).prunedKeys (otherDefs d))) =
      fun k => decide (k ≠ d) && f.nodes.any fun m => isDefs m && decide (m.key = k) := by
    funext k
    rw [p2, Bool.eq_iff_iff]
    simp only [decide_eq_true_eq, Bool.and_eq_true, List.any_eq_true, List.mem_map, List.mem_filter, Forest.nodes_map]
    constructor
    · rintro ⟨_, ⟨⟨n, hn, rfl⟩, ho⟩, rfl⟩
      rw [hod] at ho
      have hn1 := (hnode1 n).1 ((M.movable.nodes _).mem_iff.1 hn)
      rw [hkey]
      have ho' := ho
      simp only [otherDefs, Node.isTag, Bool.and_eq_true, decide_eq_true_eq] at ho'
      refine ⟨ho'.2, n, hn1.resolve_right fun e => ho'.2 (by rw [e, P.key]), by simp [isDefs, ho'.1], rfl⟩
    · rintro ⟨hk, n, hn, hd, rfl⟩
      refine ⟨e n, ⟨⟨n, (M.movable.nodes _).mem_iff.2 ((hnode1 n).2 (.inl hn)), rfl⟩, ?_⟩, hkey n⟩
      rw [hod, isDefs_otherDefs hk, hd]
  generalize hL : (fun k => decide (k ≠ d) && f.nodes.any fun m => isDefs m && decide (m.key = k)) = lost at hlost
  have hg : (moveAll d (defsKids d f2) f2).remove (otherDefs d) =
      ((stateOf d l f1).map fun n => (e n).unlink lost).prune (otherDefs d) := by
    rw [M.eq, Forest.remove, hlost, ← Forest.map_map e (fun n => n.unlink lost)]
    generalize (stateOf d l f1).map e = q
    induction q with
    | nil => rfl
    | cons n k r ih1 ih2 =>
      have ho : otherDefs d (n.unlink lost) = otherDefs d n := rfl
      rw [Forest.map_cons, Forest.prune, Forest.prune, ho]
      split
      · exact ih2
      · rw [Forest.map_cons, ih1, ih2]
  generalize he' : (fun n => (e n).unlink lost) = e' at hg
  have hkey' : ∀ n, (e' n).key = n.key := fun n => by rw [← he']; exact hkey n
  have hkind' : ∀ n, (e' n).kind = n.kind := fun n => by rw [← he']; exact hkind n
  have hod' : ∀ n, otherDefs d (e' n) = otherDefs d n := fun n => by simp [otherDefs, Node.isTag, hkind', hkey']
  have hpm : ∀ q : Forest, (q.map e').prune (otherDefs d) = (q.prune (otherDefs d)).map e' := by
    intro q
    induction q with
    | nil => rfl
    | cons n k r ih1 ih2 =>
      rw [Forest.map_cons, Forest.prune, Forest.prune, hod']
      split
      · exact ih2
      · rw [Forest.map_cons, ih1, ih2]
  rw [hpm] at hg
  -- which nodes go
  have hsd : isDefs s = false := by simp [isDefs, P.svg]
  have claim : ∀ x ∈ subs f, isDefs x.1 = false → ∀ n ∈ x.2.top,
      (decide (n.key = d) || (within l n || otherDefs d n)) = isDefinition n := by
    intro x hx hxd n hn
    have hnf := kid_nodes hx hn
    have hn1 : n ∈ f1.nodes := (hnode1 n).2 (.inl hnf)
    rw [isDefinition_eq]
    by_cases hk : n.key = d
    · rw [hdn_only n hnf hk, P.key, hdnd]; simp
    · rw [isDefs_otherDefs hk]
      simp only [hk, decide_false, Bool.false_or]
      by_cases hnd : isDefs n = true
      · simp [hnd]
      · have hxk : x.1.key ≠ d := by
          intro e
          rw [hdn_only _ (node_of_subs hx) e, hdnd] at hxd
          cases hxd
        obtain ⟨z, hz, hz1, hnz⟩ : ∃ z ∈ subs f1, z.1 = x.1 ∧ n ∈ z.2.top := by
          rcases F.subs x hx hxk with rfl | hz
          · refine ⟨_, P.sub_root, rfl, ?_⟩
            rw [F.rest, Forest.top, Stops.top_prune]
            exact List.mem_cons_of_mem _ (List.mem_filter.2 ⟨hn, by simpa using hk⟩)
          · refine ⟨_, hz, rfl, ?_⟩
            dsimp only
            rw [Stops.top_prune]
            exact List.mem_filter.2 ⟨hn, by simpa using hk⟩
        rw [Bool.not_eq_true] at hnd
        rw [hnd, Bool.or_false, Bool.false_or, Bool.eq_iff_iff]
        simp only [within, decide_eq_true_eq]
        constructor
        · intro hl
          rcases M.only n hn1 hl with ⟨a, _⟩ | ⟨y, hy, ho, hny⟩
          · exact a
          · exfalso
            have := parent_unique P.unique hz hy hnz hny rfl
            simp only [otherDefs, Node.isTag, Bool.and_eq_true, decide_eq_true_eq] at ho
            rw [← this, hz1] at ho
            simp [isDefs, ho.1] at hxd
        · intro hr
          refine M.refs n hn1 hr fun y hy hyd hny => ?_
          have := parent_unique P.unique hz hy hnz hny rfl
          rw [← this, hz1] at hyd
          exact hxk hyd
  have agree : ∀ x ∈ subs f, isDefs x.1 = false →
      (((x.2.prune fun n => decide (n.key = d)).prune (within l)).prune (otherDefs d)) = x.2.prune isDefinition := by
    intro x hx hxd
    rw [prune_prune, prune_prune]
    refine prune_agree (claim x hx hxd) fun y hy hp => claim y (subs_trans hx hy) ?_
    simp only [Bool.or_eq_false_iff, decide_eq_false_iff_not] at hp
    rw [← isDefs_otherDefs hp.1]
    exact hp.2.2
  -- the root element
  have hroot : svgElement (((stateOf d l f1).prune (otherDefs d)).map e') = some (e' s, .cons (e' dn)
      (((D.prune (within l) ++ pieces l f1 l).prune (otherDefs d)).map e') ((ks.prune isDefinition).map e')) := by
    have a := svgElement_prune (P.state M.root M.main) (p := otherDefs d) (by simp [otherDefs, Node.isTag, P.svg])
    have hdn : otherDefs d dn = false := by simp [otherDefs, P.key]
    have b := svgElement_map a hkind'
    simp only [Forest.prune, hdn, Bool.false_eq_true, if_false, Forest.map_cons] at b
    rw [b, F.rest, agree (s, ks) (svgElement_mem F.root).1 hsd]
  have hwhole : ((stateOf d l f1).prune (otherDefs d)).map e' = setSvgElement (e' s) (.cons (e' dn)
      (((D.prune (within l) ++ pieces l f1 l).prune (otherDefs d)).map e') ((ks.prune isDefinition).map e')) ((f.prune isDefinition).map e') := by
    have hskd : decide (s.key = d) = false := by simpa using P.sne
    have hsl : within l s = false := by simpa [within] using M.root
    have hso : otherDefs d s = false := by simp [otherDefs, Node.isTag, P.svg]
    have hdl : within l dn = false := by simpa [within, P.key] using M.main
    have hdo : otherDefs d dn = false := by simp [otherDefs, P.key]
    have hr0 := svgElement_prune F.root (p := fun n => decide (n.key = d)) hskd
    have hr1 := svgElement_prune hr0 (p := within l) hsl
    have hr2 := svgElement_prune hr1 (p := otherDefs d) hso
    have hnk : d ∉ ((f.prune fun n => decide (n.key = d)).prune (within l)).keys := by
      intro hc
      obtain ⟨n, hn, e⟩ := Forest.mem_keys.1 hc
      have := Forest.mem_prune ((Forest.nodes_prune_sublist _ _).mem hn)
      simp [e] at this
    have hnr : d ∉ (r.prune (within l)).keys := by
      intro hc
      obtain ⟨n, hn, e⟩ := Forest.mem_keys.1 hc
      have hn := (Forest.nodes_prune_sublist _ _).mem hn
      rw [F.rest] at hn
      have := Forest.mem_prune hn
      simp [e] at this
    have htop : ∀ n ∈ f.top, (decide (n.key = d) || (within l n || otherDefs d n)) = isDefinition n := by
      intro n hn
      have hnf := (Stops.top_sub_nodes f).mem hn
      have hn1 : n ∈ f1.nodes := (hnode1 n).2 (.inl hnf)
      rw [isDefinition_eq]
      by_cases hk : n.key = d
      · rw [hdn_only n hnf hk, P.key, hdnd]; simp
      · rw [isDefs_otherDefs hk]
        simp only [hk, decide_false, Bool.false_or]
        by_cases hnd : isDefs n = true
        · simp [hnd]
        · have hn1t : n ∈ f1.top := by
            have : ∀ {t : Forest} {a : Node} {k : Forest}, n ∈ t.top → svgElement t = some (s, a |> fun _ => k) → ∀ k', n ∈ (setSvgElement s k' t).top := by
              intro t a k ht hs k'
              induction t with
              | nil => cases ht
              | cons m q t' _ ih =>
                unfold svgElement at hs
                rw [setSvgElement]
                split at hs
                next e =>
                  cases hs
                  rw [if_pos e]
                  exact ht
                next e =>
                  rw [if_neg e]
                  rcases List.mem_cons.1 ht with h | h
                  · simp [Forest.top, h]
                  · exact List.mem_cons_of_mem _ (ih h hs)
            rw [F.eq]
            refine this (a := s) ?_ hr0 _
            rw [Stops.top_prune]
            exact List.mem_filter.2 ⟨hn, by simpa using hk⟩
          rw [Bool.not_eq_true] at hnd
          rw [hnd, Bool.or_false, Bool.false_or, Bool.eq_iff_iff]
          simp only [within, decide_eq_true_eq]
          constructor
          · intro hl
            rcases M.only n hn1 hl with ⟨a, _⟩ | ⟨y, hy, ho, hny⟩
            · exact a
            · exact absurd rfl (top_not_kid P.unique hn1t hy hny)
          · intro hr
            exact M.refs n hn1 hr fun y hy _ hny => top_not_kid P.unique hn1t hy hny rfl
    have hall : ((f.prune fun n => decide (n.key = d)).prune (within l)).prune (otherDefs d) = f.prune isDefinition := by
      rw [prune_prune, prune_prune]
      refine prune_agree htop fun y hy hp => claim y hy ?_
      simp only [Bool.or_eq_false_iff, decide_eq_false_iff_not] at hp
      rw [← isDefs_otherDefs hp.1]
      exact hp.2.2
    have hX : stateOf d l f1 = setSvgElement s (.cons dn (D.prune (within l) ++ pieces l f1 l) (r.prune (within l)))
        ((f.prune fun n => decide (n.key = d)).prune (within l)) := by
      unfold stateOf
      rw [P.kids, Option.getD_some]
      generalize D.prune (within l) ++ pieces l f1 l = X
      rw [F.eq, prune_setSvg hr0 hsl, setKids_setSvg hr1 P.sne hnk]
      rw [Forest.prune, if_neg (by simp [hdl]), Forest.setKids, if_pos P.key, setKids_not_mem hnr]
    rw [hX, prune_setSvg hr1 hso, map_setSvg hkind', hall]
    rw [Forest.prune, if_neg (by simp [hdo]), Forest.map_cons, F.rest, agree (s, ks) (svgElement_mem F.root).1 hsd]
  have hex : e dn = dn := by
    rcases M.lucky dn (node_of_subs P.sub_main) with a | ⟨x, hx, hc, hn⟩
    · exact a
    · have := parent_unique P.unique hx P.sub_root hn (d := dn) (by simp [Forest.top]) rfl
      rw [this] at hc
      simp [Node.tag, P.svg, carries] at hc
  refine ⟨s, ks, e' dn, ((D.prune (within l) ++ pieces l f1 l).prune (otherDefs d)).map e', e', ?_⟩
  refine ⟨F.root, by rw [hg]; exact hroot, by rw [hg]; exact hwhole, by rw [hkind']; exact P.kind, ?_, ?_, ?_, ?_, ?_, ?_⟩
  · rcases F.main with ⟨a, _, _⟩ | ⟨a, b, _, c, _⟩
    · exact .inl ⟨dn, a, rfl⟩
    · refine .inr ⟨a, ?_, ?_, by rw [hkey', P.key]; exact c⟩
      · rw [← he']
        show ((e dn).unlink lost).attrs = []
        rw [hex, b]
        rfl
      · rw [← he']
        show ((e dn).unlink lost).id = ""
        rw [hex, b]
        rfl
  · intro n hn
    rw [hkey', P.key, hL, ← he']
    obtain ⟨more, hm, hx⟩ := (M.grown n).attrs
    refine ⟨hkey n, hkind n, (M.grown n).id, more, ?_, ?_⟩
    · show ((e n).unlink lost).attrs = _
      unfold Node.unlink
      rw [hm]
      refine List.filter_congr fun x _ => ?_
      cases x.value.target <;> rfl
    · intro x hxm
      obtain ⟨a1, a2, a3⟩ := hx x hxm
      refine ⟨?_, a2, a3⟩
      obtain ⟨p, hp, hxp⟩ := mem_allAttrs.1 a1
      rcases (hnode1 p).1 hp with h | rfl
      · exact ⟨p, h, hxp⟩
      · rcases F.main with ⟨_, hb, _⟩ | ⟨_, b, _, _, _⟩
        · exact ⟨p, node_of_subs hb, hxp⟩
        · rw [b] at hxp; cases hxp
  · intro n hn hx
    have hen : e n = n := by
      rcases M.lucky n ((hnode1 n).2 (.inl hn)) with a | ⟨z, hz, hc, hnz⟩
      · exact a
      · exfalso
        have hzd : z.1 ≠ dn := fun e => by rw [e] at hc; simp [Node.tag, P.kind, carries] at hc
        have hzk : z.1.key ≠ d := fun e => hzd (Forest.eq_of_key P.unique (node_of_subs hz) (node_of_subs P.sub_main) (by rw [e, P.key]))
        have hzf : z.1 ∈ f.nodes := ((hnode1 z.1).1 (node_of_subs hz)).resolve_right hzd
        obtain ⟨c, hcf⟩ := mem_subs_of_node hzf
        refine hx (z.1, c) hcf ?_ ?_
        · rw [isScene_eq]; exact hc
        · rcases F.subs (z.1, c) hcf hzk with h | h
          · have h : z.1 = s := congrArg Prod.fst h
            rw [h] at hc
            simp [Node.tag, P.svg, carries] at hc
          · have := subs_unique P.unique hz h rfl
            rw [this] at hnz
            dsimp only at hnz
            rw [Stops.top_prune] at hnz
            exact (List.mem_filter.1 hnz).1
    rw [hkey', P.key, hL, ← he']
    show (e n).unlink lost = _
    rw [hen]
    unfold Node.unlink
    congr 1
    refine List.filter_congr fun x _ => ?_
    cases x.value.target <;> rfl
  · rw [hg, Forest.nodes_map]
    have q1 : ((stateOf d l f1).prune (otherDefs d)).nodes = (stateOf d l f1).nodes.filter fun n => !otherDefs d n := by
      refine (prune_leaves fun x hx ho => ?_).1
      have : (e x.1, x.2.map e) ∈ subs ((stateOf d l f1).map e) := by rw [subs_map]; exact List.mem_map.2 ⟨x, hx, rfl⟩
      have := M.empty P this (by rw [hod]; exact ho)
      dsimp only at this
      cases hx2 : x.2 with
      | nil => rfl
      | cons => rw [hx2] at this; cases this
    rw [q1]
    have q2 := ((M.movable.nodes _).filter fun n => !otherDefs d n)
    refine (q2.map e').trans ?_
    have q3 : (f1.nodes.filter fun n => !otherDefs d n).Perm (dn :: f.nodes.filter fun n => !isDefs n) := by
      have hod1 : (!otherDefs d dn) = true := by simp [otherDefs, P.key]
      have base : ∀ L : List Node, (∀ n ∈ L, n.key ≠ d) → (L.filter fun n => !otherDefs d n) = L.filter fun n => !isDefs n :=
        fun L hL => List.filter_congr fun n hn => by rw [isDefs_otherDefs (hL n hn)]
      rcases F.main with ⟨_, hb, hp⟩ | ⟨_, _, _, hk, hp⟩
      · refine (hp.filter _).trans ?_
        have hmem := node_of_subs hb
        obtain ⟨A, B, hAB⟩ := List.append_of_mem hmem
        have hnd : (f.nodes.map Node.key).Nodup := hu
        rw [hAB, List.map_append, List.map_cons, List.nodup_append, List.nodup_cons] at hnd
        have hA : ∀ n ∈ A, n.key ≠ d := fun n hn e => hnd.2.2 n.key (List.mem_map.2 ⟨n, hn, rfl⟩) dn.key (by simp) (by rw [e, P.key])
        have hB : ∀ n ∈ B, n.key ≠ d := fun n hn e => hnd.2.1.1 (List.mem_map.2 ⟨n, hn, by rw [e, P.key]⟩)
        rw [hAB, List.filter_append, List.filter_append, List.filter_cons, if_pos hod1, List.filter_cons, hdnd, base A hA, base B hB]
        exact List.perm_middle
      · refine (hp.filter _).trans ?_
        rw [List.filter_cons, if_pos hod1, base f.nodes fun n hn e => hk (e ▸ Forest.key_mem hn)]
    exact q3.map e'
  · intro x hx hxd
    have hxk : x.1.key ≠ d := by
      intro e
      rw [hdn_only _ (node_of_subs hx) e, hdnd] at hxd
      cases hxd
    rcases F.subs x hx hxk with h | hz
    · exact .inl h
    · right
      have hdc : d ∉ (x.2.prune fun n => decide (n.key = d)).keys := by
        intro hc
        obtain ⟨n, hn, e⟩ := Forest.mem_keys.1 hc
        have := Forest.mem_prune hn
        simp [e] at this
      have hst := subs_state P.unique P.mem M.movable.clear hz hxk hdc
      rw [hg, subs_map]
      refine List.mem_map.2 ⟨(x.1, x.2.prune isDefinition), ?_, rfl⟩
      rw [← agree x hx hxd]
      have hox : otherDefs d x.1 = false := by rw [isDefs_otherDefs hxk]; exact hxd
      rcases subs_pruned (p := otherDefs d) hst with ⟨_, a⟩ | ⟨y, hy, ho, a⟩
      · exact a
      · exfalso
        have : (e y.1, y.2.map e) ∈ subs ((stateOf d l f1).map e) := by rw [subs_map]; exact List.mem_map.2 ⟨y, hy, rfl⟩
        have := M.empty P this (by rw [hod]; exact ho)
        dsimp only at this
        rcases a with rfl | a
        · dsimp only at ho
          rw [hox] at ho
          cases ho
        · cases hy2 : y.2 with
          | nil => rw [hy2] at a; simp [Forest.prune, subs] at a
          | cons => rw [hy2] at this; cases this
  · intro m
    rw [Stops.top_map, Stops.top_prune, top_append, Stops.top_prune]
    simp only [List.mem_map, List.mem_filter, List.mem_append, pieces_top P.unique]
    have hDd : ∀ n ∈ D.top, n.key ≠ d := by
      intro n hn e
      have := parent_unique P.unique P.sub_main P.sub_root (c := n) (d := dn) hn (by simp [Forest.top]) (by rw [e, P.key])
      have h := P.svg
      have h3 : dn = s := congrArg Prod.fst this
      rw [← h3, P.kind] at h
      cases h
    have hDf : ∀ n ∈ D.top, (dn, D) ∈ subs f := by
      intro n hn
      rcases F.main with ⟨_, hb, _⟩ | ⟨_, _, hD, _, _⟩
      · exact hb
      · rw [hD] at hn; cases hn
    constructor
    · rintro ⟨n, ⟨hn, ho⟩, rfl⟩
      have ho : otherDefs d n = false := by simpa using ho
      rcases hn with ⟨hn, _⟩ | ⟨hn, hl⟩
      · have hk := hDd n hn
        exact ⟨n, kid_nodes (hDf n hn) hn, rfl, by rw [← isDefs_otherDefs hk]; exact ho, .inr ⟨_, hDf n hn, hdnd, hn⟩⟩
      · have hk : n.key ≠ d := fun e => M.main (e ▸ hl)
        have hnf : n ∈ f.nodes := ((hnode1 n).1 hn).resolve_right fun e => hk (by rw [e, P.key])
        refine ⟨n, hnf, rfl, by rw [← isDefs_otherDefs hk]; exact ho, ?_⟩
        rcases M.only n hn hl with ⟨a, _⟩ | ⟨x, hx, hxo, hnx⟩
        · exact .inl (by rw [isDefinition_eq, a]; simp)
        · right
          have hxo' := hxo
          simp only [otherDefs, Node.isTag, Bool.and_eq_true, decide_eq_true_eq] at hxo'
          have hxf : x.1 ∈ f.nodes := ((hnode1 x.1).1 (node_of_subs hx)).resolve_right fun e => hxo'.2 (by rw [e, P.key])
          obtain ⟨c, hc⟩ := mem_subs_of_node hxf
          refine ⟨(x.1, c), hc, by simp [isDefs, hxo'.1], ?_⟩
          rcases F.subs (x.1, c) hc hxo'.2 with h | h
          · have h : x.1 = s := congrArg Prod.fst h
            have h2 := P.svg
            rw [← h, hxo'.1] at h2
            cases h2
          · have := subs_unique P.unique hx h rfl
            rw [this] at hnx
            dsimp only at hnx
            rw [Stops.top_prune] at hnx
            exact (List.mem_filter.1 hnx).1
    · rintro ⟨n, hnf, rfl, hnd, h⟩
      have hk : n.key ≠ d := by
        intro e
        rw [hdn_only n hnf e, hdnd] at hnd
        cases hnd
      have hn1 : n ∈ f1.nodes := (hnode1 n).2 (.inl hnf)
      refine ⟨n, ⟨?_, by rw [isDefs_otherDefs hk, hnd]; rfl⟩, rfl⟩
      by_cases hl : n.key ∈ l
      · exact .inr ⟨hn1, hl⟩
      · left
        refine ⟨?_, by simpa [within] using hl⟩
        rcases h with h | ⟨x, hx, hxd, hnx⟩
        · rw [isDefinition_eq, hnd, Bool.false_or] at h
          by_contra hc
          refine hl (M.refs n hn1 h fun x hx e hn => hc ?_)
          have := subs_unique P.unique hx P.sub_main (by rw [e, P.key])
          rw [this] at hn
          exact hn
        · by_cases hxk : x.1.key = d
          · have hxdn := hdn_only _ (node_of_subs hx) hxk
            rcases F.main with ⟨_, hb, _⟩ | ⟨_, _, _, hkk, _⟩
            · have := subs_unique hu hx hb (by rw [hxdn])
              rw [this] at hnx
              exact hnx
            · exact absurd (hxk ▸ key_subs hx) hkk
          · exfalso
            rcases F.subs x hx hxk with h | h
            · rw [h, hsd] at hxd
              cases hxd
            · refine hl (M.defs _ h (by rw [isDefs_otherDefs hxk]; exact hxd) n ?_)
              dsimp only
              rw [Stops.top_prune]
              exact List.mem_filter.2 ⟨hnx, by simpa using hk⟩

end Verif.GroupDefs
