import Verif.GroupDefsWhole
import Verif.UnusedDefsLook
/-
Property C35, continued: what follows from `C35_collected`, and documents for which the full claim fails.
-/
namespace Verif.GroupDefs
open Verif.Dom Verif.Spec Verif.Render
open Verif.Ungroup (svg rect)
open Verif.ApplyTs (elem px)
open Verif.UnusedDefs (mem_subs_of_node node_of_subs maskScribe)

/-! ### Consequences -/

theorem Collected.key {f g : Forest} {s d : Node} {ks D : Forest} {e : Node → Node} (C : Collected f g s ks d D e) {n : Node}
    (h : n ∈ f.nodes) : (e n).key = n.key := (C.kept n h).key
theorem Collected.kind {f g : Forest} {s d : Node} {ks D : Forest} {e : Node → Node} (C : Collected f g s ks d D e) {n : Node}
    (h : n ∈ f.nodes) : (e n).kind = n.kind := (C.kept n h).kind

/-- The key of the element with the definitions is the key of the first `defs` element, or a new one. -/
theorem Collected.old {f g : Forest} {s d : Node} {ks D : Forest} {e : Node → Node} (C : Collected f g s ks d D e) :
    (∃ n ∈ f.nodes, isDefs n = true ∧ d.key = n.key) ∨ (d.key ∉ f.keys ∧ d.attrs = [] ∧ ∀ n ∈ f.nodes, isDefs n = false) := by
  rcases C.same with ⟨n, h, rfl⟩ | ⟨h1, h2, _, h4⟩
  · exact .inl ⟨n, List.mem_of_find?_eq_some h, List.find?_some h, C.key (List.mem_of_find?_eq_some h)⟩
  · exact .inr ⟨h4, h2, fun n hn => by simpa using List.find?_eq_none.1 h1 n hn⟩

/-- **C35**: the first child of the root element is a `defs` element, there is no other `defs` element in the document, and all
other definitions are children of it. -/
theorem C35_one_defs {f g : Forest} (hu : f.UniqueKeys) (h : groupDefs f = some g) :
    ∃ s d D r, svgElement g = some (s, .cons d D r) ∧ d.kind = .elem .defs ∧
      (∀ n ∈ g.nodes, n.kind = .elem .defs → n = d) ∧ (∀ n ∈ g.nodes, isDefinition n = true → n = d ∨ n ∈ D.top) := by
  obtain ⟨s, ks, d, D, e, C⟩ := C35_collected hu h
  have hmem : ∀ n ∈ g.nodes, n = d ∨ ∃ m ∈ f.nodes, isDefs m = false ∧ n = e m := by
    intro n hn
    rcases List.mem_cons.1 (C.nodes.mem_iff.1 hn) with h | h
    · exact .inl h
    · obtain ⟨m, hm, rfl⟩ := List.mem_map.1 h
      obtain ⟨hm, hd⟩ := List.mem_filter.1 hm
      exact .inr ⟨m, hm, by simpa using hd, rfl⟩
  refine ⟨e s, d, D, _, C.first, C.main, fun n hn hk => ?_, fun n hn hk => ?_⟩
  · rcases hmem n hn with h | ⟨m, hm, hd, rfl⟩
    · exact h
    · rw [C.kind hm] at hk
      simp [isDefs, hk] at hd
  · rcases hmem n hn with h | ⟨m, hm, hd, rfl⟩
    · exact .inl h
    · right
      refine (C.inside _).2 ⟨m, hm, rfl, hd, .inl ?_⟩
      simpa only [isDefinition, C.kind hm] using hk

theorem map_congr_nodes {f : Forest} {e e' : Node → Node} (h : ∀ n ∈ f.nodes, e n = e' n) : f.map e = f.map e' := by
  induction f with
  | nil => rfl
  | cons n k r ih1 ih2 =>
    rw [Forest.map_cons, Forest.map_cons, h n (by simp), ih1 fun m hm => h m (by simp [hm]), ih2 fun m hm => h m (by simp [hm])]

theorem drawn_map_nodes {f : Forest} {e : Node → Node} (h : ∀ n ∈ f.nodes, (e n).kind = n.kind) : drawn (f.map e) = (drawn f).map e := by
  induction f with
  | nil => rfl
  | cons n k r ih1 ih2 =>
    rw [Forest.map_cons, drawn, drawn, h n (by simp), ih1 fun m hm => h m (by simp [hm]), ih2 fun m hm => h m (by simp [hm])]
    split <;> simp

theorem neverRendered_of {n : Node} (h : isDefinition n = true) : neverRendered n.kind = true := by
  obtain ⟨k, kind, i, as⟩ := n
  cases kind with
  | elem a => cases a <;> first | rfl | cases h
  | _ => cases h

theorem drawn_prune {p : Node → Bool} (hp : ∀ n, p n = true → neverRendered n.kind = true) (f : Forest) : drawn (f.prune p) = drawn f := by
  induction f with
  | nil => rfl
  | cons n k r ih1 ih2 =>
    rw [Forest.prune]
    split
    next h => rw [ih2, drawn, if_pos (hp n h)]
    next => rw [drawn, drawn, ih1, ih2]

theorem drawn_setSvg {f : Forest} {x : Node × Forest} (h : svgElement f = some x) {k : Forest} (hk : drawn k = drawn x.2) :
    drawn (setSvgElement x.1 k f) = drawn f := by
  induction f with
  | nil => rfl
  | cons n q r _ ih =>
    unfold svgElement at h
    rw [setSvgElement]
    split at h
    next e => cases h; rw [if_pos e, drawn, drawn, hk]
    next e => rw [if_neg e, drawn, drawn, ih h]

theorem drawn_sub {c : Forest} {y : Node} (h : y ∈ (drawn c).nodes) : y ∈ c.nodes := by
  induction c with
  | nil => cases h
  | cons a b c i1 i2 =>
    rw [drawn] at h
    split at h
    · simp [i2 h]
    · rw [Forest.nodes_cons, List.mem_cons, List.mem_append] at h
      rcases h with h | h | h
      · simp [h]
      · simp [i1 h]
      · simp [i2 h]

theorem drawn_not_below {f : Forest} (hu : f.UniqueKeys) {n : Node} (h : n ∈ (drawn f).nodes) {x : Node × Forest} (hx : x ∈ subs f)
    (hr : neverRendered x.1.kind = true) : n ∉ x.2.nodes := by
  induction f with
  | nil => cases h
  | cons m k r ih1 ih2 =>
    have hmem : ∀ {c : Forest} {y : Node}, y ∈ (drawn c).nodes → y ∈ c.nodes := fun h => drawn_sub h
    obtain ⟨u1, u2, u3, u4, u5⟩ := UnusedDefs.nodup_cons hu
    have hin : ∀ {c : Forest}, x ∈ subs c → ∀ y ∈ x.2.nodes, y ∈ c.nodes :=
      fun hc y hy => by
        obtain ⟨q, hq⟩ := mem_subs_of_node hy
        exact node_of_subs (UnusedDefs.subs_trans hc hq)
    intro hn
    have h : (neverRendered m.kind = false ∧ (n = m ∨ n ∈ (drawn k).nodes)) ∨ n ∈ (drawn r).nodes := by
      rw [drawn] at h
      split at h
      · exact .inr h
      next hm =>
        rw [Forest.nodes_cons, List.mem_cons, List.mem_append] at h
        rcases h with h | h | h
        · exact .inl ⟨by simpa using hm, .inl h⟩
        · exact .inl ⟨by simpa using hm, .inr h⟩
        · exact .inr h
    rw [subs] at hx
    rcases h with ⟨hm, h⟩ | h
    · rcases h with h | h
      · subst h
        rcases List.mem_cons.1 hx with e | hx
        · rw [e, hm] at hr; cases hr
        · rcases List.mem_append.1 hx with hx | hx
          · exact u1 (Forest.key_mem (hin hx n hn))
          · exact u2 (Forest.key_mem (hin hx n hn))
      · rcases List.mem_cons.1 hx with e | hx
        · rw [e, hm] at hr; cases hr
        · rcases List.mem_append.1 hx with hx | hx
          · exact ih1 u3 h hx hn
          · exact u5 _ (Forest.key_mem (hmem h)) (Forest.key_mem (hin hx n hn))
    · rcases List.mem_cons.1 hx with e | hx
      · rw [e] at hn
        exact u5 _ (Forest.key_mem hn) (Forest.key_mem (hmem h))
      · rcases List.mem_append.1 hx with hx | hx
        · exact u5 _ (Forest.key_mem (hin hx n hn)) (Forest.key_mem (hmem h))
        · exact ih2 u4 h hx hn

/-- **C35**: what is drawn where it stands is the same, at the same places, with the same attributes except references to `defs`
elements that are gone. -/
theorem C35_drawn {f g : Forest} (hu : f.UniqueKeys) (h : groupDefs f = some g) :
    ∃ gone : Nat → Bool, (∀ k, gone k = true → ∃ m ∈ f.nodes, m.kind = .elem .defs ∧ m.key = k) ∧
      drawn g = (drawn f).map fun n => { n with attrs := n.attrs.filter fun x => !x.value.target.any gone } := by
  obtain ⟨s, ks, d, D, e, C⟩ := C35_collected hu h
  refine ⟨fun k => decide (k ≠ d.key) && f.nodes.any fun m => isDefs m && decide (m.key = k), fun k hk => ?_, ?_⟩
  · simp only [Bool.and_eq_true, List.any_eq_true, decide_eq_true_eq, isDefs] at hk
    obtain ⟨_, m, hm, h1, h2⟩ := hk
    exact ⟨m, hm, h1, h2⟩
  have hks : ∀ n ∈ ks.nodes, n ∈ f.nodes := fun n hn => by
    obtain ⟨q, hq⟩ := mem_subs_of_node hn
    exact node_of_subs (UnusedDefs.subs_trans (svgElement_mem C.root).1 hq)
  have hs : s ∈ f.nodes := node_of_subs (svgElement_mem C.root).1
  have hp : ∀ n, isDefinition n = true → neverRendered n.kind = true := fun n => neverRendered_of
  have e0 : drawn g = (drawn f).map e := by
    have hroot : svgElement ((f.prune isDefinition).map e) = some (e s, ((ks.prune isDefinition).map e)) := by
      have a := svgElement_prune C.root (p := isDefinition) (by unfold isDefinition; have := (svgElement_mem C.root).2; dsimp only at this; rw [this])
      -- the kinds are only known for the nodes of `f`
      let e' := fun n => { e n with kind := n.kind }
      have h1 : ∀ q : Forest, (∀ n ∈ q.nodes, n ∈ f.nodes) → q.map e = q.map e' := fun q hq =>
        map_congr_nodes fun n hn => by show e n = { e n with kind := n.kind }; rw [← C.kind (hq n hn)]
      have h2 := svgElement_map a (e := e') fun _ => rfl
      rw [h1 _ fun n hn => (Forest.nodes_prune_sublist _ _).mem hn, h2, h1 _ fun n hn => hks n ((Forest.nodes_prune_sublist _ _).mem hn)]
      have : e' s = e s := by show { e s with kind := s.kind } = _; rw [← C.kind hs]
      rw [this]
    rw [C.whole]
    refine (drawn_setSvg hroot (k := .cons d D ((ks.prune isDefinition).map e)) ?_).trans ?_
    · rw [drawn, if_pos (by rw [C.main]; rfl)]
    · rw [drawn_map_nodes fun n hn => C.kind ((Forest.nodes_prune_sublist _ _).mem hn), drawn_prune hp]
  rw [e0]
  refine map_congr_nodes fun n hn => ?_
  have hnf : n ∈ f.nodes := drawn_sub hn
  refine C.plain n hnf fun x hx hsc htop => drawn_not_below hu hn hx ?_ ((Stops.top_sub_nodes _).mem htop)
  refine neverRendered_of ?_
  obtain ⟨⟨k, kind, i, as⟩, c⟩ := x
  cases kind with
  | elem a => cases a <;> first | rfl | cases hsc
  | _ => cases hsc

/-- **C35**: the result is a document again: no node occurs twice, and no reference leads to a node that is gone. -/
theorem C35_wellformed {f g : Forest} (hu : f.UniqueKeys) (hl : f.LinksOk) (h : groupDefs f = some g) : g.UniqueKeys ∧ g.LinksOk := by
  obtain ⟨s, ks, d, D, e, C⟩ := C35_collected hu h
  have hkeys : ((f.nodes.filter fun n => !isDefs n).map e).map Node.key = (f.nodes.filter fun n => !isDefs n).map Node.key := by
    rw [List.map_map]
    exact List.map_congr_left fun n hn => C.key (List.mem_filter.1 hn).1
  have hnd : (f.nodes.map Node.key).Nodup := hu
  constructor
  · show (g.nodes.map Node.key).Nodup
    rw [(C.nodes.map Node.key).nodup_iff, List.map_cons, hkeys, List.nodup_cons]
    refine ⟨fun hc => ?_, hnd.sublist (List.filter_sublist.map _)⟩
    obtain ⟨n, hn, e1⟩ := List.mem_map.1 hc
    obtain ⟨hn, hd⟩ := List.mem_filter.1 hn
    rcases C.old with ⟨m, hm, hmd, e2⟩ | ⟨h4, _⟩
    · rw [Forest.eq_of_key hu hn hm (e1.trans e2)] at hd
      simp [hmd] at hd
    · exact h4 (e1 ▸ Forest.key_mem hn)
  · -- every attribute of the result is one of `f`, and does not refer to another `defs` element
    have hmem : ∀ k ∈ f.keys, (decide (k ≠ d.key) && f.nodes.any fun m => isDefs m && decide (m.key = k)) = false → k ∈ g.keys := by
      intro k hk hno
      obtain ⟨m, hm, rfl⟩ := Forest.mem_keys.1 hk
      by_cases hmd : isDefs m = true
      · by_cases hmk : m.key = d.key
        · rw [hmk]
          exact Forest.key_mem (C.nodes.mem_iff.2 (by simp))
        · exfalso
          have : (decide (m.key ≠ d.key) && f.nodes.any fun n => isDefs n && decide (n.key = m.key)) = true := by
            simp only [Bool.and_eq_true, List.any_eq_true, decide_eq_true_eq]
            exact ⟨hmk, m, hm, hmd, rfl⟩
          rw [this] at hno
          cases hno
      · rw [← C.key hm]
        refine Forest.key_mem (C.nodes.mem_iff.2 (List.mem_cons_of_mem _ (List.mem_map.2 ⟨m, List.mem_filter.2 ⟨hm, ?_⟩, rfl⟩)))
        simpa using hmd
    have one : ∀ n ∈ f.nodes, ∀ x ∈ (e n).attrs, ∀ k, x.value.target = some k → k ∈ g.keys := by
      intro n hn x hx k hk
      obtain ⟨more, hm, hmore⟩ := (C.kept n hn).attrs
      rw [hm] at hx
      obtain ⟨hx, hno⟩ := List.mem_filter.1 hx
      have hno : (decide (k ≠ d.key) && f.nodes.any fun m => isDefs m && decide (m.key = k)) = false := by
        rw [hk] at hno
        exact (Bool.not_eq_true' _).mp hno
      refine hmem k ?_ hno
      rcases List.mem_append.1 hx with hx | hx
      · exact hl n hn k (Node.mem_links.2 ⟨x, hx, hk⟩)
      · obtain ⟨⟨p, hp, hxp⟩, _⟩ := hmore x hx
        exact hl p hp k (Node.mem_links.2 ⟨x, hxp, hk⟩)
    intro n hn k hk
    obtain ⟨x, hx, hxk⟩ := Node.mem_links.1 hk
    rcases List.mem_cons.1 (C.nodes.mem_iff.1 hn) with rfl | hn
    · rcases C.same with ⟨m, hm, e1⟩ | ⟨_, h2, _⟩
      · rw [e1] at hx
        exact one m (List.mem_of_find?_eq_some hm) x hx k hxk
      · rw [h2] at hx; cases hx
    · obtain ⟨m, hm, rfl⟩ := List.mem_map.1 hn
      exact one m (List.mem_filter.1 hm).1 x hx k hxk

/-! ### No crash -/

theorem chain_mem {k : Nat} {anc : List Node} {f : Forest} {l : List Node} (h : chain k anc f = some l) :
    ∀ n ∈ l, n ∈ f.nodes ∨ n ∈ anc := by
  induction f generalizing anc with
  | nil => cases h
  | cons m q r ih1 ih2 =>
    rw [chain] at h
    split at h
    · cases h
      intro n hn
      rcases List.mem_cons.1 hn with h | h
      · simp [h]
      · exact .inr h
    · intro n hn
      rcases Option.or_eq_some_iff.1 h with h | ⟨_, h⟩
      · rcases ih1 h n hn with h | h
        · simp [h]
        · rcases List.mem_cons.1 h with h | h
          · simp [h]
          · exact .inr h
      · rcases ih2 h n hn with h | h
        · simp [h]
        · exact .inr h

theorem give_some {x : Attr} {c : Node} (h : x.value.target ≠ some c.key) : ∃ c', give x c = some c' ∧ c'.key = c.key := by
  unfold give
  split
  · exact ⟨c, rfl, rfl⟩
  · unfold Ungroup.copyAttr
    rw [if_neg h]
    exact ⟨_, rfl, rfl⟩

theorem giveAll_some {l : List Attr} {c : Node} (h : ∀ x ∈ l, x.value.target ≠ some c.key) : ∃ c', giveAll l c = some c' := by
  induction l generalizing c with
  | nil => exact ⟨c, rfl⟩
  | cons x t ih =>
    obtain ⟨c', h1, h2⟩ := give_some (h x (by simp))
    rw [giveAll, h1]
    exact ih fun y hy => by rw [h2]; exact h y (by simp [hy])

theorem giveKids_some {l : List Attr} {f : Forest} (h : ∀ x ∈ l, ∀ n ∈ f.top, x.value.target ≠ some n.key) : ∃ g, giveKids l f = some g := by
  induction f with
  | nil => exact ⟨_, rfl⟩
  | cons n k r _ ih =>
    obtain ⟨n', h1⟩ := giveAll_some fun x hx => h x hx n (by simp [Forest.top])
    obtain ⟨r', h2⟩ := ih fun x hx m hm => h x hx m (by simp [Forest.top, hm])
    exact ⟨_, by rw [giveKids, h1, h2]; rfl⟩

theorem resolveAttrs_some {k : Nat} {f : Forest} (hu : f.UniqueKeys)
    (h : ∀ p ∈ f.nodes, ∀ x ∈ p.attrs, inheritable x = true → ∀ y ∈ subs f, y.1.tag.any carries = true → ∀ n ∈ y.2.top,
      x.value.target ≠ some n.key) : ∃ g, resolveAttrs k f = some g := by
  unfold resolveAttrs
  split
  next n anc c h1 h2 =>
    split
    next hc =>
      have hn : n.key = k := by
        clear h h2 hc hu
        generalize ([] : List Node) = a at h1
        induction f generalizing a with
        | nil => cases h1
        | cons m q r ih1 ih2 =>
          rw [chain] at h1
          split at h1
          · cases h1; assumption
          · rcases Option.or_eq_some_iff.1 h1 with h | ⟨_, h⟩
            · exact ih1 _ h
            · exact ih2 _ h
      obtain ⟨m, hmk, hm⟩ := UnusedDefs.subs_kidsOf h2
      have hmn : m = n := Forest.eq_of_key hu (node_of_subs hm) (((chain_mem h1) n (by simp)).resolve_right (by simp)) (by rw [hmk, hn])
      subst hmn
      obtain ⟨c', h3⟩ := giveKids_some (l := (m :: anc).flatMap fun p => p.attrs.filter inheritable) (f := c) fun x hx n hnt => by
        obtain ⟨p, hp, hx⟩ := List.mem_flatMap.1 hx
        obtain ⟨hx, hi⟩ := List.mem_filter.1 hx
        exact h p ((chain_mem h1 p hp).resolve_right (by simp)) x hx hi _ hm hc n hnt
      exact ⟨_, by rw [h3]; rfl⟩
    · exact ⟨_, rfl⟩
  · exact ⟨_, rfl⟩

/-- No inheritable attribute of `f` refers to a child of an element whose children get attributes. -/
def Safe (f : Forest) : Prop :=
  ∀ p ∈ f.nodes, ∀ x ∈ p.attrs, inheritable x = true → ∀ y ∈ subs f, y.1.tag.any carries = true → ∀ n ∈ y.2.top, x.value.target ≠ some n.key

theorem moveRefs_some {d : Nat} {f : Forest} {s dn : Node} {D r : Forest} (P : Placed d f s dn D r) (hf : Safe f) (m : List Nat) {l : List Nat}
    (hm : Movable d (l ++ m) f) {e : Node → Node} (he : ∀ n, Grown (allAttrs f) n (e n)) : ∃ g, moveRefs d m ((stateOf d l f).map e) = some g := by
  induction m generalizing l e with
  | nil => exact ⟨_, rfl⟩
  | cons k t ih =>
    rw [List.append_cons] at hm
    have hu := (Forest.uniqueKeys_map (fun n => (he n).key)).2 hm.init.init.uniqueState
    have hsrc : ∀ x ∈ allAttrs ((stateOf d l f).map e), x ∈ allAttrs f := by
      intro x hx
      obtain ⟨n, hn, hx⟩ := mem_allAttrs.1 hx
      rw [Forest.nodes_map] at hn
      obtain ⟨n0, hn0, rfl⟩ := List.mem_map.1 hn
      rcases (he n0).mem hx with a | a
      · exact mem_allAttrs.2 ⟨n0, (hm.init.init.nodes _).mem_iff.1 hn0, a⟩
      · exact a
    obtain ⟨g1, h1⟩ := resolveAttrs_some (k := k) hu fun p hp x hx hi z hz hc n hn => by
      obtain ⟨p0, hp0, hx0⟩ := mem_allAttrs.1 (hsrc x (mem_allAttrs.2 ⟨p, hp, hx⟩))
      obtain ⟨y, hy, e1, e2⟩ := state_sub P hm.init.init (fun n => (he n).key) hz
      have hyt : y.1.tag = z.1.tag := by rw [e1]; simp [Node.tag, (he y.1).kind]
      rw [← hyt] at hc
      have n1 : y.1.key ≠ d := by
        intro hk
        have : y.1 = dn := Forest.eq_of_key P.unique (node_of_subs hy) (node_of_subs P.sub_main) (by rw [hk, P.key])
        rw [this] at hc
        simp [Node.tag, P.kind, carries] at hc
      have n2 : y.1 ≠ s := by
        intro hk
        rw [hk] at hc
        simp [Node.tag, P.svg, carries] at hc
      rw [e2 n1 n2, Stops.top_map, Stops.top_prune] at hn
      obtain ⟨q, hq, rfl⟩ := List.mem_map.1 hn
      rw [(he q).key]
      exact hf p0 hp0 x hx0 hi y hy hc q (List.mem_filter.1 hq).1
    rw [moveRefs, h1, Option.bind_some]
    obtain ⟨e1, rfl, hg, -⟩ := resolveAttrs_grown hu h1
    rw [moveTo_map (fun n => (hg n).key), moveTo_map (fun n => (he n).key), hm.init.step, Forest.map_map]
    exact ih hm fun n => (he n).trans ((hg (e n)).mono hsrc)

/-- **C35**: the pass does not crash, if the document has an `svg` element and no inheritable attribute in it refers to a child of
a clip path, mask, marker, pattern or symbol. -/
theorem C35_no_crash {f : Forest} (hu : f.UniqueKeys) (hroot : ∃ n ∈ f.top, n.kind = .elem .svg)
    (hs : ∀ p ∈ f.nodes, ∀ x ∈ p.attrs, ∀ a : AId, x.name = .id a → a.isInheritable = true → ∀ y ∈ subs f, isScene y.1 = true →
      ∀ n ∈ y.2.top, x.value.target ≠ some n.key) : ∃ g, groupDefs f = some g := by
  have hsome : ∃ x, svgElement f = some x := by
    clear hs hu
    induction f with
    | nil => obtain ⟨n, hn, _⟩ := hroot; cases hn
    | cons n k r _ ih =>
      rw [svgElement]
      split
      · exact ⟨_, rfl⟩
      next h =>
        obtain ⟨m, hm, hk⟩ := hroot
        rcases List.mem_cons.1 hm with rfl | hm
        · simp [Node.isTag, hk] at h
        · exact ih ⟨m, hm, hk⟩
  obtain ⟨x, hx⟩ := hsome
  obtain ⟨f1, h1⟩ : ∃ f1, putFirst (mainDefs f) f = some f1 := by rw [putFirst, hx]; exact ⟨_, rfl⟩
  obtain ⟨s, dn, ks, D, r, F⟩ := firstStep hu h1
  unfold groupDefs
  dsimp only
  rw [h1, Option.bind_some]
  generalize (mainDefs f).1.key = d at *
  have P := F.placed
  have hnode1 : ∀ n ∈ f1.nodes, n ∈ f.nodes ∨ n = newDefs d := by
    intro n hn
    rcases F.main with ⟨_, _, hp⟩ | ⟨_, e, _, _, hp⟩
    · exact .inl (hp.mem_iff.1 hn)
    · rcases List.mem_cons.1 (hp.mem_iff.1 hn) with h | h
      · exact .inr (h.trans e)
      · exact .inl h
  have hf : Safe f1 := by
    intro p hp y hy hi z hz hc n hn
    have hpf : p ∈ f.nodes := (hnode1 p hp).resolve_right fun e => by rw [e] at hy; cases hy
    have hzd : z.1 ≠ dn := fun e => by rw [e] at hc; simp [Node.tag, P.kind, carries] at hc
    have hzk : z.1.key ≠ d := fun e => hzd (Forest.eq_of_key P.unique (node_of_subs hz) (node_of_subs P.sub_main) (by rw [e, P.key]))
    have hzf : z.1 ∈ f.nodes := (hnode1 z.1 (node_of_subs hz)).resolve_right fun e => by
      rw [e] at hc; simp [Node.tag, newDefs, carries] at hc
    obtain ⟨c, hcf⟩ := mem_subs_of_node hzf
    have hnc : n ∈ c.top := by
      rcases F.subs (z.1, c) hcf hzk with h | h
      · have h : z.1 = s := congrArg Prod.fst h
        rw [h] at hc
        simp [Node.tag, P.svg, carries] at hc
      · have := subs_unique P.unique hz h rfl
        rw [this] at hn
        dsimp only at hn
        rw [Stops.top_prune] at hn
        exact (List.mem_filter.1 hn).1
    unfold inheritable at hi
    split at hi
    next a ha => exact hs p hpf y hy a ha hi _ hcf (by rw [isScene_eq]; exact hc) n hnc
    · cases hi
  have h0 : (stateOf d [] f1).map id = f1 := by
    rw [state_nil P.unique P.mem]; exact Forest.map_id' fun _ _ => rfl
  obtain ⟨hm, -, -⟩ := strays_state P
  obtain ⟨f2, h2⟩ := moveRefs_some P hf (l := []) (e := id) (strays d none f1) (by simpa using hm) fun n => Grown.refl _ n
  rw [h0] at h2
  exact ⟨_, by rw [h2]; rfl⟩

/-! ### A document -/

def red : Value := .color 255 0 0
def green : Value := .color 0 255 0

/-- A mask in a group, with a pattern in it; two `defs` elements. -/
def sampleIn : Forest :=
  svg (.cons (elem 2 .g [(.fill, red)])
      (.cons (elem 3 .mask []) (rect 4 [] (.cons (elem 5 .pattern [(.stroke, green)]) (rect 6 [(.fill, green)] .nil) .nil)) (rect 7 [(.mask, .funcLink 3)] .nil))
    (.cons (elem 8 .defs []) (.cons (elem 9 .linearGradient []) .nil .nil)
      (.cons (elem 10 .defs []) (rect 11 [] .nil) .nil)))
def sampleOut : Forest :=
  svg (.cons (elem 8 .defs []) (.cons (elem 9 .linearGradient []) .nil
      (.cons (elem 3 .mask []) (rect 4 [(.fill, red)] .nil)
      (.cons (elem 5 .pattern [(.stroke, green), (.fill, red)]) (rect 6 [(.fill, green), (.stroke, green)] .nil) (rect 11 [] .nil))))
    (.cons (elem 2 .g [(.fill, red)]) (rect 7 [(.mask, .funcLink 3)] .nil) .nil))

example : sampleIn.UniqueKeys ∧ sampleIn.LinksOk ∧ groupDefs sampleIn = some sampleOut := by decide +kernel

/-- Every document of this sort satisfies the conditions of `C35_no_crash`. -/
example : ∃ g, groupDefs sampleIn = some g := by
  refine C35_no_crash (by decide +kernel) (by decide +kernel) ?_
  have : ∀ p ∈ sampleIn.nodes, ∀ x ∈ p.attrs, ∀ y ∈ subs sampleIn, isScene y.1 = true → ∀ n ∈ y.2.top, x.value.target ≠ some n.key := by
    decide +kernel
  exact fun p hp x hx a _ _ => this p hp x hx

/-! ### The full claim -/

/-- The part of **C35** about styles: the pass does not crash and the document looks the same.  It is false. -/
def C35_look_full : Prop := ∀ f g, f.UniqueKeys → f.LinksOk → groupDefs f = some g → SameView f g

/-- The part of **C35** about crashes.  It is false. -/
def C35_crash_full : Prop := ∀ f, f.UniqueKeys → f.LinksOk → (∃ n ∈ f.top, n.kind = .elem .svg) → (groupDefs f).isSome = true

theorem refute {f g : Forest} (π : Painter (List Mark)) (hu : f.UniqueKeys) (hl : f.LinksOk) (h : groupDefs f = some g)
    (hf : ∀ d, picture π (d + 1) f = picture π 1 f) (hg : ∀ d, picture π (d + 1) g = picture π 1 g)
    (hd : picture π 1 f ≠ picture π 1 g) : ¬ C35_look_full := by
  intro hc
  obtain ⟨D, hD⟩ := hc f g hu hl h _ π
  have := hD (D + 1) (by omega)
  rw [hf, hg] at this
  exact hd this

def styledIn : Forest :=
  svg (.cons (elem 2 .g [(.fill, red)]) (.cons (elem 3 .defs []) (.cons (elem 4 .mask []) (rect 5 [] .nil) .nil) .nil) (rect 9 [(.mask, .funcLink 4)] .nil))
def styledOut : Forest :=
  svg (.cons (elem 3 .defs []) (.cons (elem 4 .mask []) (rect 5 [] .nil) .nil) (.cons (elem 2 .g [(.fill, red)]) .nil (rect 9 [(.mask, .funcLink 4)] .nil)))

/-- **Finding.** If the first `defs` element is in a group, the elements in it lose the style that they inherit from the group. -/
theorem C35_refuted_first : ¬ C35_look_full :=
  refute maskScribe (f := styledIn) (g := styledOut) (by decide +kernel) (by decide +kernel) (by decide +kernel) (fun _ => rfl) (fun _ => rfl) (by decide +kernel)

def symbolIn : Forest :=
  svg (.cons (elem 2 .g [(.fill, red)]) (.cons (elem 4 .symbol []) (rect 5 [] .nil) .nil) (.cons (elem 9 .use [(.xlinkHref, .link 4), (.fill, green)]) .nil .nil))
def symbolOut : Forest :=
  svg (.cons (elem 10 .defs []) (.cons (elem 4 .symbol []) (rect 5 [(.fill, red)] .nil) .nil)
    (.cons (elem 2 .g [(.fill, red)]) .nil (.cons (elem 9 .use [(.xlinkHref, .link 4), (.fill, green)]) .nil .nil)))

/-- **Finding.** The children of a symbol get the style of the ancestors of the symbol; they should inherit from the `use`
element. -/
theorem C35_refuted_symbol : ¬ C35_look_full :=
  refute scribe (f := symbolIn) (g := symbolOut) (by decide +kernel) (by decide +kernel) (by decide +kernel) (fun _ => rfl) (fun _ => rfl) (by decide +kernel)

def paintedIn : Forest :=
  svg (.cons (elem 2 .defs [(.fill, red)]) .nil (.cons (elem 4 .mask []) (rect 5 [] .nil) (rect 9 [(.mask, .funcLink 4)] .nil)))
def paintedOut : Forest :=
  svg (.cons (elem 2 .defs [(.fill, red)]) (.cons (elem 4 .mask []) (rect 5 [] .nil) .nil) (rect 9 [(.mask, .funcLink 4)] .nil))

/-- **Finding.** A mask that is moved into a `defs` element with a style inherits from it. -/
theorem C35_refuted_defs : ¬ C35_look_full :=
  refute maskScribe (f := paintedIn) (g := paintedOut) (by decide +kernel) (by decide +kernel) (by decide +kernel) (fun _ => rfl) (fun _ => rfl) (by decide +kernel)

def crashIn : Forest :=
  svg (.cons (elem 2 .pattern [(.fill, .funcLink 3)]) (.cons (elem 3 .linearGradient []) .nil (rect 4 [] .nil)) .nil)

/-- **Finding.** The pass crashes on a pattern that is painted with a gradient in it: the attribute would be copied to the
gradient. -/
theorem C35_refuted_crash : ¬ C35_crash_full := fun h => by
  have := h crashIn (by decide +kernel) (by decide +kernel) (by decide +kernel)
  revert this
  decide +kernel

end Verif.GroupDefs
