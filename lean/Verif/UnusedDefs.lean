import Verif.DomLemmas
import Verif.DomSpec
import Verif.DomMore
import Verif.StopsProps
import Mathlib.Data.List.Perm.Basic
/-
Model of `src/task/rm_unused_defs.rs`, and property C25.
-/
namespace Verif.UnusedDefs
open Verif.Dom Verif.Spec

/-! ### The model -/

/-- "doc.descendants().filter(|n| n.is_tag_name(EId::Defs)).nth(0).unwrap()", `src/task/rm_unused_defs.rs:28`. -/
def firstDefs (f : Forest) : Option Nat := (f.nodes.find? (fun n => n.isTag .defs)).map (·.key)

/-- `is_font_node`, `src/task/rm_unused_defs.rs:67-69` -/
def isFont (n : Node) : Bool := n.isTag .fontFace || n.isTag .font

/-- "!node.is_used() && !is_font_node(&node)", `src/task/rm_unused_defs.rs:42`. -/
def unused (f : Forest) (n : Node) : Bool := !f.isUsed n.key && !isFont n

/-- The children of `defs` that stay where they are, `src/task/rm_unused_defs.rs:41-62`: an unused child with children
loses them (to `moved`), an unused child without children is removed.  `node.remove()` also drops the attributes that refer
to the node; there are none, since it is not used. -/
def kept (f : Forest) : Forest → Forest
  | .nil => .nil
  | .cons n k r =>
    if unused f n then if k.isEmpty then kept f r else .cons n .nil (kept f r) else .cons n k (kept f r)

/-- `mv_nodes`, `src/task/rm_unused_defs.rs:71-78`: the children of unused children. -/
def moved (f : Forest) : Forest → Forest
  | .nil => .nil
  | .cons n k r => if unused f n then k ++ moved f r else moved f r

/-- `remove_unused_defs_impl`, `src/task/rm_unused_defs.rs:35-65`, for the `defs` element with key `d` and the children
`c`. -/
def round (d : Nat) (f c : Forest) : Forest := f.setKids d (kept f c ++ moved f c)

/-- The `while` loop, `src/task/rm_unused_defs.rs:31`, running at most `fuel` rounds; `none`: it has not ended. -/
def loop (d : Nat) : Nat → Forest → Option Forest
  | fuel, f =>
    (f.kidsOf d).bind fun c =>
      if c.top.any (unused f) then
        match fuel with
        | 0 => none
        | fuel + 1 => loop d fuel (round d f c)
      else some f

/-- The sum of the depths of all nodes. -/
def depths : Forest → Nat
  | .nil => 0
  | .cons _ k r => 1 + Stops.size k + depths k + depths r

/-- `remove_unused_defs`, `src/task/rm_unused_defs.rs:26-32`; `none`: `unwrap` on a document without `defs`.
Simplification: the loop is given as many rounds as the sum of the depths of the nodes in `defs`; C25 shows that this is
enough. -/
def removeUnusedDefs (f : Forest) : Option Forest :=
  (firstDefs f).bind fun d => (f.kidsOf d).bind fun c => loop d (depths c) f

/-! ### Tree surgery -/

theorem kidsOf_none {f : Forest} {k : Nat} (h : k ∉ f.keys) : f.kidsOf k = none := by
  induction f with
  | nil => rfl
  | cons n c r ihc ihr =>
    simp only [Forest.keys, Forest.nodes, List.map_cons, List.map_append, List.mem_cons, List.mem_append, not_or] at h
    rw [Forest.kidsOf, if_neg (fun e => h.1 e.symm), ihc h.2.1, ihr h.2.2]
    rfl

theorem setKids_not_mem {f : Forest} {k : Nat} (h : k ∉ f.keys) (c : Forest) : f.setKids k c = f := by
  induction f with
  | nil => rfl
  | cons n c' r ihc ihr =>
    simp only [Forest.keys, Forest.nodes, List.map_cons, List.map_append, List.mem_cons, List.mem_append, not_or] at h
    rw [Forest.setKids, if_neg (fun e => h.1 e.symm), ihc h.2.1, ihr h.2.2]

theorem setKids_setKids (f : Forest) (k : Nat) (c c' : Forest) : (f.setKids k c).setKids k c' = f.setKids k c' := by
  induction f with
  | nil => rfl
  | cons n d r ihc ihr =>
    simp only [Forest.setKids]
    split
    next h => simp [Forest.setKids, h, ihr]
    next h => simp [Forest.setKids, h, ihc, ihr]

theorem nodup_cons {n : Node} {c r : Forest} (hu : (Forest.cons n c r).UniqueKeys) :
    n.key ∉ c.keys ∧ n.key ∉ r.keys ∧ c.UniqueKeys ∧ r.UniqueKeys ∧ ∀ k ∈ c.keys, k ∉ r.keys := by
  simp only [Forest.UniqueKeys, Forest.keys, Forest.nodes, List.map_cons, List.map_append, List.nodup_cons,
    List.nodup_append, List.mem_append, not_or] at hu ⊢
  exact ⟨hu.1.1, hu.1.2, hu.2.1, hu.2.2.1, fun k h1 h2 => hu.2.2.2 k h1 k h2 rfl⟩

theorem kidsOf_subs {f : Forest} (hu : f.UniqueKeys) {n : Node} {c : Forest} (h : (n, c) ∈ subs f) :
    f.kidsOf n.key = some c := by
  induction f with
  | nil => simp [subs] at h
  | cons m d r ihc ihr =>
    obtain ⟨h1, h2, h3, h4, h5⟩ := nodup_cons hu
    have key_of : ∀ {g : Forest} {x : Node × Forest}, x ∈ subs g → x.1.key ∈ g.keys := by
      intro g x hx
      rw [← Stops.subs_keys]
      exact List.mem_map.2 ⟨x, hx, rfl⟩
    simp only [subs, List.mem_cons, List.mem_append] at h
    rcases h with h | h | h
    · cases h
      simp [Forest.kidsOf]
    · have hk := key_of h
      rw [Forest.kidsOf, if_neg (fun e => h1 (by rw [e]; exact hk)), ihc h3 h]
      rfl
    · have hk := key_of h
      rw [Forest.kidsOf, if_neg (fun e => h2 (by rw [e]; exact hk)), kidsOf_none (fun hc => h5 _ hc hk), ihr h4 h]
      rfl

theorem subs_kidsOf {f : Forest} {k : Nat} {c : Forest} (h : f.kidsOf k = some c) :
    ∃ n, n.key = k ∧ (n, c) ∈ subs f := by
  induction f with
  | nil => simp [Forest.kidsOf] at h
  | cons m d r ihc ihr =>
    unfold Forest.kidsOf at h
    split at h
    next e => cases h; exact ⟨m, e, by simp [subs]⟩
    next =>
      cases h1 : d.kidsOf k with
      | none =>
        rw [h1] at h
        obtain ⟨n, hn, hm⟩ := ihr h
        exact ⟨n, hn, by simp [subs, hm]⟩
      | some c' =>
        rw [h1] at h
        obtain ⟨n, hn, hm⟩ := ihc (by rw [h1]; exact h)
        exact ⟨n, hn, by simp [subs, hm]⟩

theorem kidsOf_setKids {f : Forest} {k : Nat} {c : Forest} (h : f.kidsOf k = some c) (c' : Forest) :
    (f.setKids k c').kidsOf k = some c' := by
  induction f with
  | nil => simp [Forest.kidsOf] at h
  | cons m d r ihc ihr =>
    unfold Forest.kidsOf at h
    split at h
    next e => simp [Forest.setKids, Forest.kidsOf, e]
    next e =>
      simp only [Forest.setKids, if_neg e, Forest.kidsOf]
      cases h1 : d.kidsOf k with
      | none =>
        rw [h1] at h
        rw [ihr h]
        have : k ∉ d.keys := by
          intro hk
          obtain ⟨n, hn, he⟩ := Forest.mem_keys.1 hk
          have : n ∈ (subs d).map (·.1) := by
            clear ihc ihr h h1 hk
            induction d with
            | nil => simp [Forest.nodes] at hn
            | cons a b e i1 i2 =>
              simp only [Forest.nodes, List.mem_cons, List.mem_append] at hn
              simp only [subs, List.map_cons, List.map_append, List.mem_cons, List.mem_append]
              tauto
          obtain ⟨x, hx, rfl⟩ := List.mem_map.1 this
          have : ∀ {g : Forest} {x : Node × Forest}, x ∈ subs g → x.1.key = k → g.kidsOf k ≠ none := by
            intro g x hx he
            induction g with
            | nil => simp [subs] at hx
            | cons a b e i1 i2 =>
              simp only [subs, List.mem_cons, List.mem_append] at hx
              unfold Forest.kidsOf
              split
              · simp
              next hne =>
                rcases hx with hx | hx | hx
                · cases hx; exact absurd he hne
                · have := i1 hx
                  cases hb : b.kidsOf k with
                  | none => exact absurd hb this
                  | some _ => simp
                · cases hb : b.kidsOf k with
                  | none => simpa using i2 hx
                  | some _ => simp
          exact this hx he h1
        rw [setKids_not_mem this, h1]
        rfl
      | some c1 =>
        rw [h1] at h
        cases h
        rw [ihc h1]; rfl

theorem setKids_self {f : Forest} (hu : f.UniqueKeys) {k : Nat} {c : Forest} (h : f.kidsOf k = some c) :
    f.setKids k c = f := by
  induction f with
  | nil => rfl
  | cons m d r ihc ihr =>
    obtain ⟨h1, h2, h3, h4, h5⟩ := nodup_cons hu
    unfold Forest.kidsOf at h
    split at h
    next e =>
      cases h
      rw [Forest.setKids, if_pos e, setKids_not_mem (by rw [← e]; exact h2)]
    next e =>
      rw [Forest.setKids, if_neg e]
      cases hk : d.kidsOf k with
      | none =>
        rw [hk] at h
        obtain ⟨n, hn, hm⟩ := subs_kidsOf h
        have : k ∈ r.keys := by
          rw [← Stops.subs_keys]; exact List.mem_map.2 ⟨_, hm, hn⟩
        rw [setKids_not_mem (fun hc => h5 _ hc this), ihr h4 h]
      | some c1 =>
        rw [hk] at h
        cases h
        obtain ⟨n, hn, hm⟩ := subs_kidsOf hk
        have : k ∈ d.keys := by
          rw [← Stops.subs_keys]; exact List.mem_map.2 ⟨_, hm, hn⟩
        rw [ihc h3 hk, setKids_not_mem (h5 _ this)]

/-- The nodes outside the children of node `k`. -/
theorem nodes_setKids {f : Forest} (hu : f.UniqueKeys) {k : Nat} (hk : k ∈ f.keys) :
    ∃ A : List Node, ∀ c, (f.setKids k c).nodes.Perm (A ++ c.nodes) := by
  induction f with
  | nil => simp [Forest.keys, Forest.nodes] at hk
  | cons m d r ihc ihr =>
    obtain ⟨h1, h2, h3, h4, h5⟩ := nodup_cons hu
    simp only [Forest.keys, Forest.nodes, List.map_cons, List.map_append, List.mem_cons, List.mem_append] at hk
    by_cases e : m.key = k
    · refine ⟨m :: r.nodes, fun c => ?_⟩
      rw [Forest.setKids, if_pos e, setKids_not_mem (by rw [← e]; exact h2)]
      simp only [Forest.nodes, List.cons_append]
      exact List.Perm.cons _ List.perm_append_comm
    · rcases hk with hk | hk | hk
      · exact absurd hk.symm e
      · obtain ⟨A, hA⟩ := ihc h3 hk
        refine ⟨m :: (A ++ r.nodes), fun c => ?_⟩
        rw [Forest.setKids, if_neg e, setKids_not_mem (h5 _ hk)]
        simp only [Forest.nodes, List.cons_append]
        refine List.Perm.cons _ (((hA c).append_right _).trans ?_)
        rw [List.append_assoc, List.append_assoc]
        exact List.Perm.append_left _ List.perm_append_comm
      · obtain ⟨A, hA⟩ := ihr h4 hk
        refine ⟨m :: (d.nodes ++ A), fun c => ?_⟩
        rw [Forest.setKids, if_neg e, setKids_not_mem (fun hc => h5 _ hc hk)]
        simp only [Forest.nodes, List.cons_append, List.append_assoc]
        exact List.Perm.cons _ (List.Perm.append_left _ (hA c))

theorem drawn_setKids {f : Forest} {k : Nat} (h : ∀ n ∈ f.nodes, n.key = k → neverRendered n.kind = true) (c : Forest) :
    drawn (f.setKids k c) = drawn f := by
  induction f with
  | nil => rfl
  | cons m d r ihc ihr =>
    have hd := ihc (fun n hn => h n (by simp [Forest.nodes, hn]))
    have hr := ihr (fun n hn => h n (by simp [Forest.nodes, hn]))
    by_cases e : m.key = k
    · have := h m (by simp [Forest.nodes]) e
      rw [Forest.setKids, if_pos e]
      simp [drawn, this, hr]
    · rw [Forest.setKids, if_neg e]
      simp [drawn, hd, hr]

/-! ### One round -/

/-- The top level of a forest with the children. -/
def tops : Forest → List (Node × Forest)
  | .nil => []
  | .cons n k r => (n, k) :: tops r

theorem top_eq (c : Forest) : c.top = (tops c).map (·.1) := by
  induction c with
  | nil => rfl
  | cons n k r _ ih => simp [Forest.top, tops, ih]

theorem tops_append (a b : Forest) : tops (a ++ b) = tops a ++ tops b := by
  induction a with
  | nil => rfl
  | cons n k r _ ih =>
    show tops (.cons n k (r ++ b)) = _
    simp [tops, ih]

theorem subs_append (a b : Forest) : subs (a ++ b) = subs a ++ subs b := by
  induction a with
  | nil => rfl
  | cons n k r _ ih =>
    show subs (.cons n k (r ++ b)) = _
    simp [subs, ih]

theorem mem_subs_tops {c : Forest} {p : Node × Forest} : p ∈ subs c ↔ ∃ q ∈ tops c, p = q ∨ p ∈ subs q.2 := by
  induction c with
  | nil => simp [subs, tops]
  | cons n k r _ ih => simp [subs, tops, ih, or_assoc]

theorem size_append (a b : Forest) : Stops.size (a ++ b) = Stops.size a + Stops.size b := by
  induction a with
  | nil => show Stops.size b = _; simp [Stops.size]
  | cons n k r _ ih =>
    show Stops.size (.cons n k (r ++ b)) = _
    simp only [Stops.size, ih]; omega

theorem depths_append (a b : Forest) : depths (a ++ b) = depths a + depths b := by
  induction a with
  | nil => show depths b = _; simp [depths]
  | cons n k r _ ih =>
    show depths (.cons n k (r ++ b)) = _
    simp only [depths, ih]; omega

theorem size_pos {k : Forest} (h : k.isEmpty = false) : 0 < Stops.size k := by
  cases k with
  | nil => simp [Forest.isEmpty] at h
  | cons => simp only [Stops.size]; omega

theorem round_depths {f c : Forest} (h : c.top.any (unused f) = true) :
    depths (kept f c ++ moved f c) < depths c := by
  have le : ∀ c, depths (kept f c) + depths (moved f c) ≤ depths c := by
    intro c
    induction c with
    | nil => simp [kept, moved, depths]
    | cons n k r _ ih =>
      simp only [kept, moved, depths]
      split
      next hu =>
        split
        · rw [depths_append]
          omega
        next he =>
          have := size_pos (by simpa using he)
          simp only [depths, depths_append, Stops.size]
          omega
      next => simp only [depths]; omega
  rw [depths_append]
  induction c with
  | nil => simp [Forest.top] at h
  | cons n k r _ ih =>
    simp only [Forest.top, List.any_cons, Bool.or_eq_true] at h
    have hr := le r
    simp only [kept, moved, depths]
    by_cases hu : unused f n
    · simp only [hu, if_true]
      split
      · rw [depths_append]; omega
      next he =>
        have := size_pos (by simpa using he)
        simp only [depths, depths_append, Stops.size]
        omega
    · simp only [hu, if_false]
      have := ih (h.resolve_left hu)
      simp only [depths, Bool.false_eq_true, if_false]
      omega

/-- What a round does to the nodes: some unused ones disappear. -/
theorem round_nodes (f c : Forest) : ∃ R : List Node, c.nodes.Perm ((kept f c ++ moved f c).nodes ++ R) ∧
    ∀ n ∈ R, unused f n = true := by
  induction c with
  | nil => exact ⟨[], by simp [kept, moved, Forest.nodes], by simp⟩
  | cons n k r _ ih =>
    obtain ⟨R, h1, h2⟩ := ih
    simp only [Forest.nodes_append] at h1
    simp only [kept, moved, Forest.nodes]
    by_cases hu : unused f n
    · simp only [hu, if_true]
      by_cases he : k.isEmpty
      · have : k = .nil := by cases k with | nil => rfl | cons => simp [Forest.isEmpty] at he
        subst this
        refine ⟨n :: R, ?_, ?_⟩
        · simp only [he, if_true, Forest.nodes, List.nil_append]
          refine (List.Perm.cons n h1).trans ?_
          have : (kept f r ++ (Forest.nil ++ moved f r)).nodes = (kept f r).nodes ++ (moved f r).nodes := by
            simp [Forest.nodes_append, Forest.nodes]
          rw [this]
          exact List.perm_middle.symm
        · simp only [List.mem_cons, forall_eq_or_imp]; exact ⟨hu, h2⟩
      · refine ⟨R, ?_, h2⟩
        simp only [he, Bool.false_eq_true, if_false, Forest.nodes_append, Forest.nodes, List.nil_append, List.cons_append]
        refine List.Perm.cons _ ?_
        refine (List.Perm.append_left _ h1).trans ?_
        simp only [← List.append_assoc]
        refine List.Perm.append_right _ (List.Perm.append_right _ ?_)
        exact List.perm_append_comm
    · refine ⟨R, ?_, h2⟩
      simp only [hu, Bool.false_eq_true, if_false, Forest.nodes_append, Forest.nodes, List.cons_append]
      refine List.Perm.cons _ ?_
      rw [List.append_assoc, List.append_assoc]
      refine List.Perm.append_left _ ?_
      rw [← List.append_assoc]
      exact h1

/-- Every child of `defs` is one of the elements it had, with all its content, or an unused one that has lost it. -/
def Inv (c0 f c : Forest) : Prop :=
  ∀ q ∈ tops c, (∀ p ∈ subs q.2, p ∈ subs c0) ∧ (q ∈ subs c0 ∨ unused f q.1 = true)

theorem subs_trans {c : Forest} {p q : Node × Forest} (hq : q ∈ subs c) (hp : p ∈ subs q.2) : p ∈ subs c := by
  induction c with
  | nil => simp [subs] at hq
  | cons n k r ihk ihr =>
    simp only [subs, List.mem_cons, List.mem_append] at hq ⊢
    rcases hq with rfl | h | h
    · exact .inr (.inl hp)
    · exact .inr (.inl (ihk h))
    · exact .inr (.inr (ihr h))

theorem round_inv {c0 f f' c : Forest} (h : Inv c0 f c) (hm : ∀ n, unused f n = true → unused f' n = true) :
    Inv c0 f' (kept f c ++ moved f c) := by
  have base : ∀ q ∈ tops c, (∀ p ∈ subs q.2, p ∈ subs c0) ∧ (q ∈ subs c0 ∨ unused f q.1 = true) := h
  intro q hq
  rw [tops_append, List.mem_append] at hq
  clear h
  induction c with
  | nil => simp [kept, moved, tops] at hq
  | cons n k r _ ih =>
    have hb := base (n, k) (by simp [tops])
    have hr : ∀ q ∈ tops r, (∀ p ∈ subs q.2, p ∈ subs c0) ∧ (q ∈ subs c0 ∨ unused f q.1 = true) :=
      fun q hq => base q (by simp [tops, hq])
    by_cases hu : unused f n
    · simp only [kept, moved, hu, if_true] at hq
      rw [tops_append, List.mem_append] at hq
      rcases hq with hq | hq | hq
      · split at hq
        · exact ih hr (.inl hq)
        · simp only [tops, List.mem_cons] at hq
          rcases hq with rfl | hq
          · exact ⟨by simp [subs], .inr (hm _ hu)⟩
          · exact ih hr (.inl hq)
      · have hs : q ∈ subs k := mem_subs_tops.2 ⟨q, hq, .inl rfl⟩
        exact ⟨fun p hp => hb.1 p (subs_trans hs hp), .inl (hb.1 q hs)⟩
      · exact ih hr (.inr hq)
    · simp only [kept, moved, hu, Bool.false_eq_true, if_false, tops, List.mem_cons] at hq
      rcases hq with (rfl | hq) | hq
      · exact ⟨hb.1, hb.2.imp id (fun h => absurd h hu)⟩
      · exact ih hr (.inl hq)
      · exact ih hr (.inr hq)

/-! ### The loop -/

theorem unused_mono {f g : Forest} (h : ∀ n ∈ g.nodes, n ∈ f.nodes) {n : Node} (hu : unused f n = true) :
    unused g n = true := by
  unfold unused at hu ⊢
  simp only [Bool.and_eq_true, Bool.not_eq_true'] at hu ⊢
  refine ⟨?_, hu.2⟩
  rw [← Bool.not_eq_true] at hu ⊢
  intro hg
  obtain ⟨m, hm, hk⟩ := Forest.isUsed_iff.1 hg
  exact hu.1 (Forest.isUsed_iff.2 ⟨m, h m hm, hk⟩)

/-- The state of the loop, started with the children `c0` of the `defs` element `d` of `f0`. -/
structure State (d : Nat) (f0 c0 : Forest) (f c : Forest) : Prop where
  kids : f.kidsOf d = some c
  tree : f = f0.setKids d c
  inv : Inv c0 f c
  gone : ∃ R : List Node, c0.nodes.Perm (c.nodes ++ R) ∧ ∀ n ∈ R, unused f n = true

theorem step {d : Nat} {f0 c0 f c : Forest} (hu : f0.UniqueKeys) (hd : d ∈ f0.keys) (h : State d f0 c0 f c) :
    State d f0 c0 (round d f c) (kept f c ++ moved f c) ∧ ∀ n ∈ (round d f c).nodes, n ∈ f.nodes := by
  obtain ⟨A, hA⟩ := nodes_setKids hu hd
  obtain ⟨R, hR, hR2⟩ := round_nodes f c
  have tree : round d f c = f0.setKids d (kept f c ++ moved f c) := by
    unfold round
    conv_lhs => rw [h.tree]
    rw [setKids_setKids, ← h.tree]
  have sub : ∀ n ∈ (round d f c).nodes, n ∈ f.nodes := by
    intro n hn
    rw [tree] at hn
    rw [h.tree]
    rcases List.mem_append.1 ((hA _).mem_iff.1 hn) with hn | hn
    · exact (hA _).mem_iff.2 (List.mem_append_left _ hn)
    · exact (hA _).mem_iff.2 (List.mem_append_right _ (hR.mem_iff.2 (List.mem_append_left _ hn)))
  refine ⟨⟨kidsOf_setKids h.kids _, tree, round_inv h.inv (fun n hn => unused_mono sub hn), ?_⟩, sub⟩
  obtain ⟨R0, h0, h02⟩ := h.gone
  refine ⟨R ++ R0, ?_, ?_⟩
  · rw [← List.append_assoc]
    exact h0.trans (hR.append_right _)
  · intro n hn
    rcases List.mem_append.1 hn with hn | hn
    · exact unused_mono sub (hR2 n hn)
    · exact unused_mono sub (h02 n hn)

theorem loop_total {d fuel : Nat} {f c : Forest} (hk : f.kidsOf d = some c) (hf : depths c ≤ fuel) :
    ∃ g, loop d fuel f = some g := by
  induction fuel generalizing f c with
  | zero =>
    unfold loop
    rw [hk]
    simp only [Option.bind_some]
    split
    next h => have := round_depths h; omega
    next => exact ⟨f, rfl⟩
  | succ fuel ih =>
    unfold loop
    rw [hk]
    simp only [Option.bind_some]
    split
    next h =>
      have := round_depths h
      exact ih (kidsOf_setKids hk _) (by omega)
    next => exact ⟨f, rfl⟩

theorem loop_spec {d fuel : Nat} {f0 c0 f c g : Forest} (hu : f0.UniqueKeys) (hd : d ∈ f0.keys) (hs : State d f0 c0 f c)
    (h : loop d fuel f = some g) : ∃ c', State d f0 c0 g c' ∧ ∀ n ∈ c'.top, unused g n = false := by
  induction fuel generalizing f c with
  | zero =>
    unfold loop at h
    rw [hs.kids] at h
    simp only [Option.bind_some] at h
    split at h
    · cases h
    next hn =>
      cases h
      exact ⟨c, hs, fun n hn' => by simpa using fun e => hn (List.any_eq_true.2 ⟨n, hn', e⟩)⟩
  | succ fuel ih =>
    unfold loop at h
    rw [hs.kids] at h
    simp only [Option.bind_some] at h
    split at h
    · exact ih (step hu hd hs).1 h
    next hn =>
      cases h
      exact ⟨c, hs, fun n hn' => by simpa using fun e => hn (List.any_eq_true.2 ⟨n, hn', e⟩)⟩

/-! ### C25 -/

theorem firstDefs_spec {f : Forest} {d : Nat} (h : firstDefs f = some d) : ∃ n ∈ f.nodes, n.kind = .elem .defs ∧ n.key = d := by
  unfold firstDefs at h
  obtain ⟨n, hn, rfl⟩ := Option.map_eq_some_iff.1 h
  exact ⟨n, List.mem_of_find?_eq_some hn, by simpa [Node.isTag] using List.find?_some hn, rfl⟩

theorem mem_subs_of_node {f : Forest} {n : Node} (h : n ∈ f.nodes) : ∃ c, (n, c) ∈ subs f := by
  induction f with
  | nil => simp [Forest.nodes] at h
  | cons m d r ihd ihr =>
    simp only [Forest.nodes, List.mem_cons, List.mem_append] at h
    simp only [subs, List.mem_cons, List.mem_append]
    rcases h with rfl | h | h
    · exact ⟨d, .inl rfl⟩
    · obtain ⟨c, hc⟩ := ihd h; exact ⟨c, .inr (.inl hc)⟩
    · obtain ⟨c, hc⟩ := ihr h; exact ⟨c, .inr (.inr hc)⟩

theorem node_of_subs {f : Forest} {p : Node × Forest} (h : p ∈ subs f) : p.1 ∈ f.nodes := by
  induction f with
  | nil => simp [subs] at h
  | cons m d r ihd ihr =>
    simp only [subs, List.mem_cons, List.mem_append] at h
    simp only [Forest.nodes, List.mem_cons, List.mem_append]
    rcases h with rfl | h | h
    · exact .inl rfl
    · exact .inr (.inl (ihd h))
    · exact .inr (.inr (ihr h))

/-- What `remove-unused-defs` may do to a document `f` to get `g`: within the `defs` element `d`, with the children `c`
before and `c'` after. -/
structure Cleaned (f g : Forest) (d : Node) (c c' : Forest) : Prop where
  defs : d.kind = .elem .defs
  before : (d, c) ∈ subs f
  after : (d, c') ∈ subs g
  /-- Outside the element the documents are the same. -/
  outside : g.setKids d.key .nil = f.setKids d.key .nil
  /-- Each element in it after the pass was there before, with the same attributes and the same content. -/
  content : ∀ p ∈ subs c', p ∈ subs c
  /-- Nothing in the remaining document refers to an element that has been deleted, and it was not a font. -/
  deleted : ∀ n ∈ c.nodes, n ∉ c'.nodes →
    (∀ m ∈ g.nodes, n.key ∉ m.links) ∧ n.kind ≠ .elem .font ∧ n.kind ≠ .elem .fontFace
  /-- Nothing that could go is left at the top. -/
  minimal : ∀ n ∈ c'.top, (∃ m ∈ g.nodes, n.key ∈ m.links) ∨ n.kind = .elem .font ∨ n.kind = .elem .fontFace

theorem main {f g : Forest} (hu : f.UniqueKeys) (h : removeUnusedDefs f = some g) :
    ∃ d c c', Cleaned f g d c c' ∧ State d.key f c g c' := by
  unfold removeUnusedDefs at h
  obtain ⟨k, hk, h⟩ := Option.bind_eq_some_iff.1 h
  obtain ⟨c, hc, h⟩ := Option.bind_eq_some_iff.1 h
  obtain ⟨d, hd, hkind, rfl⟩ := firstDefs_spec hk
  have hs0 : State d.key f c f c :=
    ⟨hc, (setKids_self hu hc).symm, fun q hq => ⟨fun p hp => mem_subs_tops.2 ⟨q, hq, .inr hp⟩,
      .inl (mem_subs_tops.2 ⟨q, hq, .inl rfl⟩)⟩, ⟨[], by simp, by simp⟩⟩
  obtain ⟨c', hs, ht⟩ := loop_spec hu (Forest.key_mem hd) hs0 h
  obtain ⟨n, hn, hsub⟩ := subs_kidsOf hc
  have hdn : n = d := Forest.eq_of_key hu (node_of_subs hsub) hd hn
  obtain ⟨R, hR, hR2⟩ := hs.gone
  refine ⟨d, c, c', ⟨hkind, hdn ▸ hsub, ?_, ?_, ?_, ?_, ?_⟩, hs⟩
  · obtain ⟨m, hm, hsub'⟩ := subs_kidsOf hs.kids
    obtain ⟨A, hA⟩ := nodes_setKids hu (Forest.key_mem hd)
    have hmf : m ∈ f.nodes := by
      rw [← setKids_self hu hc]
      have := node_of_subs hsub'
      rw [hs.tree] at this
      rcases List.mem_append.1 ((hA _).mem_iff.1 this) with h | h
      · exact (hA _).mem_iff.2 (List.mem_append_left _ h)
      · exact (hA _).mem_iff.2 (List.mem_append_right _ (hR.mem_iff.2 (List.mem_append_left _ h)))
    have : m = d := Forest.eq_of_key hu hmf hd hm
    exact this ▸ hsub'
  · rw [hs.tree, setKids_setKids]
  · intro p hp
    obtain ⟨q, hq, hpq⟩ := mem_subs_tops.1 hp
    have hi := hs.inv q hq
    rcases hpq with rfl | hpq
    · refine hi.2.resolve_right ?_
      have := ht p.1 (by rw [top_eq]; exact List.mem_map.2 ⟨p, hq, rfl⟩)
      simp [this]
    · exact hi.1 p hpq
  · intro n hn hn'
    have : n ∈ R := (List.mem_append.1 (hR.mem_iff.1 hn)).resolve_left hn'
    have hun := hR2 n this
    unfold unused at hun
    simp only [Bool.and_eq_true, Bool.not_eq_true', isFont, Bool.or_eq_false_iff] at hun
    refine ⟨fun m hm hl => ?_, ?_, ?_⟩
    · rw [Forest.isUsed_iff.2 ⟨m, hm, hl⟩] at hun
      simp at hun
    · have := hun.2.2
      simpa [Node.isTag] using this
    · have := hun.2.1
      simpa [Node.isTag] using this
  · intro n hn
    have := ht n hn
    unfold unused isFont at this
    simp only [Bool.and_eq_false_iff, Bool.not_eq_false', Bool.or_eq_true] at this
    rcases this with h | h | h
    · exact .inl (Forest.isUsed_iff.1 h)
    · exact .inr (.inr (by simpa [Node.isTag] using h))
    · exact .inr (.inl (by simpa [Node.isTag] using h))

/-- C25: `remove-unused-defs` works inside the first `defs` element only, keeps elements with their content, and deletes
only what nothing in the remaining document refers to. -/
theorem C25_unused {f g : Forest} (hu : f.UniqueKeys) (h : removeUnusedDefs f = some g) :
    ∃ d c c', Cleaned f g d c c' := by
  obtain ⟨d, c, c', hc, _⟩ := main hu h
  exact ⟨d, c, c', hc⟩

/-- C25: every reference of the remaining document still has its target. -/
theorem C25_references {f g : Forest} (hu : f.UniqueKeys) (hl : f.LinksOk) (h : removeUnusedDefs f = some g) :
    g.UniqueKeys ∧ g.LinksOk := by
  obtain ⟨d, c, c', hc, hs⟩ := main hu h
  obtain ⟨A, hA⟩ := nodes_setKids hu (Forest.key_mem (node_of_subs hc.before))
  obtain ⟨R, hR, hR2⟩ := hs.gone
  have hf : f.nodes.Perm (A ++ c.nodes) := by
    have := hA c
    rwa [setKids_self hu (kidsOf_subs hu hc.before)] at this
  have hg : g.nodes.Perm (A ++ c'.nodes) := by
    have := hA c'
    rwa [← hs.tree] at this
  have hall : f.nodes.Perm (g.nodes ++ R) := by
    refine hf.trans ((List.Perm.append_left A hR).trans ?_)
    rw [← List.append_assoc]
    exact hg.symm.append_right _
  refine ⟨?_, fun n hn k hk => ?_⟩
  · have := (hall.map (fun n : Node => n.key)).nodup_iff.1 hu
    rw [List.map_append, List.nodup_append] at this
    exact this.1
  · have hk' := hl n (hall.mem_iff.2 (List.mem_append_left _ hn)) k hk
    obtain ⟨m, hm, rfl⟩ := Forest.mem_keys.1 hk'
    rcases List.mem_append.1 (hall.mem_iff.1 hm) with hm | hm
    · exact Forest.key_mem hm
    · have hun := hR2 m hm
      unfold unused at hun
      rw [Forest.isUsed_iff.2 ⟨n, hn, hk⟩] at hun
      simp at hun

/-- C25: the elements drawn where they stand are the same. -/
theorem C25_drawn {f g : Forest} (hu : f.UniqueKeys) (h : removeUnusedDefs f = some g) : drawn g = drawn f := by
  obtain ⟨d, c, c', hc, hs⟩ := main hu h
  rw [hs.tree]
  refine drawn_setKids (fun n hn hk => ?_) c'
  rw [Forest.eq_of_key hu hn (node_of_subs hc.before) hk, hc.defs]
  rfl

/-- C25: the procedure ends, for every document with a `defs` element. -/
theorem C25_ends (f : Forest) : (∃ g, removeUnusedDefs f = some g) ↔ ∃ n ∈ f.nodes, n.kind = .elem .defs := by
  constructor
  · rintro ⟨g, h⟩
    obtain ⟨k, hk, _⟩ := Option.bind_eq_some_iff.1 h
    obtain ⟨d, hd, hkind, _⟩ := firstDefs_spec hk
    exact ⟨d, hd, hkind⟩
  · rintro ⟨n, hn, hk⟩
    unfold removeUnusedDefs
    cases hd : firstDefs f with
    | none =>
      simp only [firstDefs, Option.map_eq_none_iff, List.find?_eq_none] at hd
      exact absurd (by simp [Node.isTag, hk]) (hd n hn)
    | some d =>
      obtain ⟨m, hm, _, rfl⟩ := firstDefs_spec hd
      cases hc : f.kidsOf m.key with
      | none =>
        obtain ⟨c, hc'⟩ := mem_subs_of_node hm
        have : ∀ {g : Forest}, (m, c) ∈ subs g → g.kidsOf m.key ≠ none := by
          intro g hg
          induction g with
          | nil => simp [subs] at hg
          | cons a b e i1 i2 =>
            simp only [subs, List.mem_cons, List.mem_append] at hg
            unfold Forest.kidsOf
            split
            · simp
            next hne =>
              rcases hg with hg | hg | hg
              · cases hg; exact absurd rfl hne
              · have := i1 hg
                cases hb : b.kidsOf m.key with
                | none => exact absurd hb this
                | some _ => simp
              · cases hb : b.kidsOf m.key with
                | none => simpa using i2 hg
                | some _ => simp
        exact absurd hc (this hc')
      | some c =>
        simp only [Option.bind_some, hc]
        exact loop_total hc (Nat.le_refl _)

/-! A document with an unused clip path that holds a used path, and a chain of unused gradients. -/

def node (k : Nat) (e : EId) (as : List (AId × Value)) : Node :=
  ⟨k, .elem e, "", as.map fun x => ⟨.id x.1, x.2, true⟩⟩

def sample : Forest :=
  .cons (node 0 .svg [])
    (.cons (node 1 .defs [])
      (.cons (node 2 .clipPath []) (.cons (node 3 .path []) .nil (.cons (node 4 .rect []) .nil .nil))
        (.cons (node 5 .linearGradient []) (.cons (node 6 .stop []) .nil .nil)
          (.cons (node 7 .radialGradient [(.xlinkHref, .link 5)]) .nil (.cons (node 9 .font []) .nil .nil))))
      (.cons (node 8 .use [(.xlinkHref, .link 3)]) .nil .nil)) .nil

def sampleOut : Forest :=
  .cons (node 0 .svg [])
    (.cons (node 1 .defs []) (.cons (node 9 .font []) .nil (.cons (node 3 .path []) .nil .nil))
      (.cons (node 8 .use [(.xlinkHref, .link 3)]) .nil .nil)) .nil

example : sample.UniqueKeys ∧ sample.LinksOk ∧ removeUnusedDefs sample = some sampleOut := by decide +kernel

end Verif.UnusedDefs
