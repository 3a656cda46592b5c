import Verif.GroupDefs
/-
Property C35: the definitions are collected in one `defs` element.
-/
namespace Verif.GroupDefs
open Verif.Dom Verif.Spec
open Verif.UnusedDefs (firstDefs kidsOf_none setKids_not_mem setKids_setKids nodup_cons kidsOf_subs subs_kidsOf kidsOf_setKids
  setKids_self nodes_setKids subs_append)
open Verif.ResolveUse (subtree)
open Verif.Stops (subs_keys subs_map)

/-! ### Tree surgery -/

theorem key_subs {f : Forest} {x : Node × Forest} (hx : x ∈ subs f) : x.1.key ∈ f.keys := by
  rw [← subs_keys]; exact List.mem_map.2 ⟨x, hx, rfl⟩

theorem kids_subs {f : Forest} {x : Node × Forest} (hx : x ∈ subs f) {k : Nat} (h : k ∈ x.2.keys) : k ∈ f.keys := by
  obtain ⟨n, hn, rfl⟩ := Forest.mem_keys.1 h
  exact Forest.key_mem ((Stops.subs_kids_sub hx).1.mem hn)

theorem subs_of_key {f : Forest} {k : Nat} (h : k ∈ f.keys) : ∃ x ∈ subs f, x.1.key = k := by
  rw [← subs_keys] at h
  exact List.mem_map.1 h

theorem subs_unique {f : Forest} (hu : f.UniqueKeys) {x y : Node × Forest} (hx : x ∈ subs f) (hy : y ∈ subs f)
    (h : x.1.key = y.1.key) : x = y := by
  have h1 := kidsOf_subs hu (n := x.1) (c := x.2) hx
  have h2 := kidsOf_subs hu (n := y.1) (c := y.2) hy
  rw [h] at h1
  rw [h1] at h2
  have h3 := Forest.eq_of_key hu (Stops.subs_kids_sub hx).2 (Stops.subs_kids_sub hy).2 h
  exact Prod.ext h3 (Option.some.inj h2)

theorem subtree_mem {f : Forest} {k : Nat} {x : Node × Forest} (h : subtree k f = some x) : x ∈ subs f ∧ x.1.key = k := by
  induction f with
  | nil => cases h
  | cons n c r ihc ihr =>
    unfold subtree at h
    split at h
    next e => cases h; exact ⟨by simp [subs], e⟩
    next =>
      cases h1 : subtree k c with
      | none =>
        rw [h1] at h
        obtain ⟨a, b⟩ := ihr h
        exact ⟨by simp [subs, a], b⟩
      | some y =>
        rw [h1] at h
        cases h
        obtain ⟨a, b⟩ := ihc h1
        exact ⟨by simp [subs, a], b⟩

theorem subtree_none {f : Forest} {k : Nat} : subtree k f = none ↔ k ∉ f.keys := by
  induction f with
  | nil => simp [subtree]
  | cons n c r ihc ihr =>
    unfold subtree
    split
    next e => simp [e]
    next e => simp [Option.or_eq_none_iff, ihc, ihr, Ne.symm e]

theorem subtree_of {f : Forest} (hu : f.UniqueKeys) {x : Node × Forest} (h : x ∈ subs f) : subtree x.1.key f = some x := by
  cases h1 : subtree x.1.key f with
  | none => exact absurd (key_subs h) (subtree_none.1 h1)
  | some y =>
    obtain ⟨a, b⟩ := subtree_mem h1
    rw [subs_unique hu a h b]

theorem prune_append (p : Node → Bool) (a b : Forest) : (a ++ b).prune p = a.prune p ++ b.prune p := by
  induction a with
  | nil => rfl
  | cons n k r _ ih =>
    rw [Forest.cons_append, Forest.prune, Forest.prune, ih]
    split <;> simp

theorem prune_prune (p q : Node → Bool) (f : Forest) : (f.prune p).prune q = f.prune (fun n => p n || q n) := by
  induction f with
  | nil => rfl
  | cons n k r ih1 ih2 =>
    simp only [Forest.prune]
    by_cases h : p n
    · simp [h, ih2]
    · simp only [h, Bool.false_eq_true, if_false, Forest.prune, ih1, ih2, Bool.false_or]

theorem prune_congr {p q : Node → Bool} {f : Forest} (h : ∀ n ∈ f.nodes, p n = q n) : f.prune p = f.prune q := by
  induction f with
  | nil => rfl
  | cons n k r ih1 ih2 =>
    have hn := h n (by simp)
    have h1 := ih1 (fun m hm => h m (by simp [hm]))
    have h2 := ih2 (fun m hm => h m (by simp [hm]))
    simp only [Forest.prune, hn, h1, h2]

theorem prune_id {p : Node → Bool} {f : Forest} (h : ∀ n ∈ f.nodes, p n = false) : f.prune p = f := by
  induction f with
  | nil => rfl
  | cons n k r ih1 ih2 =>
    have hn := h n (by simp)
    have h1 := ih1 (fun m hm => h m (by simp [hm]))
    have h2 := ih2 (fun m hm => h m (by simp [hm]))
    simp [Forest.prune, hn, h1, h2]

theorem prune_setKids {q : Node → Bool} {d : Nat} (h : ∀ n : Node, n.key = d → q n = false) (X : Forest) (f : Forest) :
    (f.setKids d X).prune q = (f.prune q).setKids d (X.prune q) := by
  induction f with
  | nil => rfl
  | cons n k r ih1 ih2 =>
    rw [Forest.setKids]
    by_cases e : n.key = d
    · rw [if_pos e]
      simp only [Forest.prune, h n e, Bool.false_eq_true, if_false, Forest.setKids, if_pos e, ih2]
    · rw [if_neg e]
      simp only [Forest.prune]
      by_cases hq : q n
      · simp [hq, ih2]
      · simp [hq, Forest.setKids, e, ih1, ih2]

/-- The nodes with the keys in the list. -/
def within (l : List Nat) (n : Node) : Bool := decide (n.key ∈ l)

theorem nodes_prune_one {f : Forest} (hu : f.UniqueKeys) {x : Node × Forest} (h : x ∈ subs f) :
    f.nodes.Perm ((f.prune fun m => decide (m.key = x.1.key)).nodes ++ x.1 :: x.2.nodes) := by
  induction f with
  | nil => simp [subs] at h
  | cons n c r ihc ihr =>
    obtain ⟨h1, h2, h3, h4, h5⟩ := nodup_cons hu
    have triv : ∀ {g : Forest}, x.1.key ∉ g.keys → g.prune (fun m => decide (m.key = x.1.key)) = g := by
      intro g hg
      refine prune_id fun m hm => ?_
      simp only [decide_eq_false_iff_not]
      rintro e
      exact hg (e ▸ Forest.key_mem hm)
    simp only [subs, List.mem_cons, List.mem_append] at h
    rcases h with rfl | h | h
    · rw [Forest.prune, if_pos (by simp), triv h2]
      simp only [Forest.nodes_cons]
      exact (List.perm_append_comm (l₁ := n :: c.nodes) (l₂ := r.nodes))
    · have hk := key_subs h
      rw [Forest.prune, if_neg (by simpa using fun e : n.key = x.1.key => h1 (e ▸ hk)), triv (h5 _ hk)]
      simp only [Forest.nodes_cons, List.cons_append, List.append_assoc]
      refine List.Perm.cons _ (((ihc h3 h).append_right _).trans ?_)
      rw [List.append_assoc]
      exact List.Perm.append_left _ List.perm_append_comm
    · have hk := key_subs h
      rw [Forest.prune, if_neg (by simpa using fun e : n.key = x.1.key => h2 (e ▸ hk)), triv (fun hc => h5 _ hc hk)]
      simp only [Forest.nodes_cons, List.cons_append, List.append_assoc]
      exact List.Perm.cons _ ((ihr h4 h).append_left _)

theorem mem_prune_keys {p : Node → Bool} {f : Forest} {d : Nat} (hd : d ∈ f.keys)
    (h : ∀ x ∈ subs f, p x.1 = true → x.1.key ≠ d ∧ d ∉ x.2.keys) : d ∈ (f.prune p).keys := by
  induction f with
  | nil => simp at hd
  | cons n c r ihc ihr =>
    have hc := fun hd => ihc hd (fun x hx => h x (by simp [subs, hx]))
    have hr := fun hd => ihr hd (fun x hx => h x (by simp [subs, hx]))
    have hn := h (n, c) (by simp [subs])
    simp only [Forest.keys_cons, List.mem_cons, List.mem_append] at hd
    rw [Forest.prune]
    split
    next hp =>
      obtain ⟨a, b⟩ := hn hp
      exact hr ((hd.resolve_left fun e => a e.symm).resolve_left b)
    next =>
      simp only [Forest.keys_cons, List.mem_cons, List.mem_append]
      exact hd.imp id (Or.imp hc hr)

/-- `d` is not in the list, and not below a node of it. -/
def Clear (d : Nat) (l : List Nat) (f : Forest) : Prop := ∀ x ∈ subs f, x.1.key ∈ l → x.1.key ≠ d ∧ d ∉ x.2.keys

/-- A subtree without the nodes of the list. -/
def piece (l : List Nat) (f : Forest) (k : Nat) : Forest :=
  match subtree k f with
  | some (n, c) => .cons n (c.prune (within l)) .nil
  | none => .nil

def pieces (l : List Nat) (f : Forest) : List Nat → Forest
  | [] => .nil
  | k :: t => piece l f k ++ pieces l f t

theorem pieces_append (l : List Nat) (f : Forest) (a b : List Nat) : pieces l f (a ++ b) = pieces l f a ++ pieces l f b := by
  induction a with
  | nil => rfl
  | cons k t ih => rw [List.cons_append, pieces, ih, pieces, Forest.append_assoc]

/-- The document after the nodes of the list have been moved, one after the other. -/
def stateOf (d : Nat) (l : List Nat) (f : Forest) : Forest :=
  (f.prune (within l)).setKids d (((f.kidsOf d).getD .nil).prune (within l) ++ pieces l f l)

theorem subs_pruned {p : Node → Bool} {f : Forest} {x : Node × Forest} (hx : x ∈ subs f) :
    (p x.1 = false ∧ (x.1, x.2.prune p) ∈ subs (f.prune p)) ∨
      ∃ y ∈ subs f, p y.1 = true ∧ (x = y ∨ (x.1, x.2.prune p) ∈ subs (y.2.prune p)) := by
  induction f with
  | nil => simp [subs] at hx
  | cons n c r ihc ihr =>
    simp only [subs, List.mem_cons, List.mem_append] at hx
    rcases hx with rfl | hx | hx
    · by_cases hp : p n
      · exact .inr ⟨(n, c), by simp [subs], hp, .inl rfl⟩
      · exact .inl ⟨by simpa using hp, by rw [Forest.prune, if_neg hp]; simp [subs]⟩
    · rcases ihc hx with ⟨h1, h2⟩ | ⟨y, hy, hp, h⟩
      · by_cases hp : p n
        · exact .inr ⟨(n, c), by simp [subs], hp, .inr h2⟩
        · exact .inl ⟨h1, by rw [Forest.prune, if_neg hp]; simp [subs, h2]⟩
      · exact .inr ⟨y, by simp [subs, hy], hp, h⟩
    · rcases ihr hx with ⟨h1, h2⟩ | ⟨y, hy, hp, h⟩
      · refine .inl ⟨h1, ?_⟩
        rw [Forest.prune]
        split
        · exact h2
        · simp [subs, h2]
      · exact .inr ⟨y, by simp [subs, hy], hp, h⟩

theorem subs_setKids_in {f : Forest} {d : Nat} (hd : d ∈ f.keys) (X : Forest) {x : Node × Forest} (hx : x ∈ subs X) :
    x ∈ subs (f.setKids d X) := by
  induction f with
  | nil => simp at hd
  | cons n c r ihc ihr =>
    rw [Forest.setKids]
    split
    · simp [subs, hx]
    next e =>
      simp only [Forest.keys_cons, List.mem_cons, List.mem_append] at hd
      rcases (hd.resolve_left fun h => e h.symm) with h | h
      · simp [subs, ihc h]
      · simp [subs, ihr h]

theorem subs_setKids_out {f : Forest} {d : Nat} (X : Forest) {x : Node × Forest} (hx : x ∈ subs f) :
    x.1.key = d ∨ d ∈ x.2.keys ∨ x ∈ subs (f.setKids d X) ∨ ∃ y ∈ subs f, y.1.key = d ∧ x ∈ subs y.2 := by
  induction f with
  | nil => simp [subs] at hx
  | cons n c r ihc ihr =>
    simp only [subs, List.mem_cons, List.mem_append] at hx
    rw [Forest.setKids]
    have up : ∀ {q : Forest}, (∀ y ∈ subs q, y ∈ subs (.cons n c r)) → (∃ y ∈ subs q, y.1.key = d ∧ x ∈ subs y.2) →
        ∃ y ∈ subs (.cons n c r), y.1.key = d ∧ x ∈ subs y.2 := by
      rintro q hq ⟨y, hy, h⟩
      exact ⟨y, hq y hy, h⟩
    have upc := up (q := c) (fun y hy => by simp [subs, hy])
    have upr := up (q := r) (fun y hy => by simp [subs, hy])
    by_cases e : n.key = d
    · rw [if_pos e]
      rcases hx with rfl | hx | hx
      · exact .inl e
      · exact .inr (.inr (.inr ⟨(n, c), by simp [subs], e, hx⟩))
      · exact (ihr hx).imp id (Or.imp id (Or.imp (fun h => by simp [subs, h]) upr))
    · rw [if_neg e]
      rcases hx with rfl | hx | hx
      · by_cases hd : d ∈ c.keys
        · exact .inr (.inl hd)
        · right; right; left
          rw [setKids_not_mem hd]
          simp [subs]
      · exact (ihc hx).imp id (Or.imp id (Or.imp (fun h => by simp [subs, h]) upc))
      · exact (ihr hx).imp id (Or.imp id (Or.imp (fun h => by simp [subs, h]) upr))

theorem kidsOf_prune {p : Node → Bool} {f : Forest} (hu : f.UniqueKeys) {d : Nat} (hd : d ∈ (f.prune p).keys) :
    (f.prune p).kidsOf d = (f.kidsOf d).map (·.prune p) := by
  obtain ⟨x, hx, rfl⟩ := subs_of_key hd
  have hu' := Forest.uniqueKeys_prune (p := p) hu
  obtain ⟨y, hy, e, e2⟩ := Stops.subs_prune hx
  rw [kidsOf_subs hu' (n := x.1) (c := x.2) hx, e, kidsOf_subs hu (n := y.1) (c := y.2) hy, e2]
  rfl

/-! ### One move -/

theorem moveTo_eq {d k : Nat} {f : Forest} {x : Node × Forest} (h : subtree k f = some x) :
    moveTo d k f = (f.prune fun m => decide (m.key = k)).setKids d
      (((f.prune fun m => decide (m.key = k)).kidsOf d).getD .nil ++ .cons x.1 x.2 .nil) := by
  unfold moveTo
  rw [h]

theorem clear_one {d k : Nat} {f : Forest} (hc : Clear d [k] f) (hd : d ∈ f.keys) :
    d ∈ (f.prune fun m => decide (m.key = k)).keys := by
  refine mem_prune_keys hd fun x hx hp => hc x hx ?_
  simpa using hp

/-- A move permutes the nodes. -/
theorem moveTo_nodes {d k : Nat} {f : Forest} (hu : f.UniqueKeys) (hd : d ∈ f.keys) (hc : Clear d [k] f) :
    (moveTo d k f).nodes.Perm f.nodes := by
  cases h : subtree k f with
  | none => unfold moveTo; rw [h]
  | some x =>
    obtain ⟨hx, rfl⟩ := subtree_mem h
    rw [moveTo_eq h]
    have hd' := clear_one hc hd
    have hu' := Forest.uniqueKeys_prune (p := fun m => decide (m.key = x.1.key)) hu
    generalize hg : (f.prune fun m => decide (m.key = x.1.key)) = g at hd' hu' ⊢
    obtain ⟨A, hA⟩ := nodes_setKids hu' hd'
    obtain ⟨y, hy, e⟩ := subs_of_key hd'
    have hk : g.kidsOf d = some y.2 := by rw [← e]; exact kidsOf_subs hu' (n := y.1) (c := y.2) hy
    rw [hk, Option.getD_some]
    refine (hA _).trans ?_
    have h1 := hA y.2
    rw [setKids_self hu' hk] at h1
    rw [Forest.nodes_append, ← List.append_assoc]
    refine (h1.symm.append_right _).trans ?_
    have := nodes_prune_one hu hx
    rw [hg] at this
    simpa using this.symm

theorem moveTo_keys {d k : Nat} {f : Forest} (hu : f.UniqueKeys) (hd : d ∈ f.keys) (hc : Clear d [k] f) :
    (moveTo d k f).keys.Perm f.keys := (moveTo_nodes hu hd hc).map _

theorem state_in {d : Nat} {l : List Nat} {f : Forest} (hd : d ∈ f.keys) (hc : Clear d l f) : d ∈ (f.prune (within l)).keys := by
  refine mem_prune_keys hd fun x hx hp => hc x hx ?_
  simpa [within] using hp

theorem mem_pieces {l m : List Nat} {f : Forest} {k : Nat} (hk : k ∈ m) {x : Node × Forest} (hx : x ∈ subs (piece l f k)) :
    x ∈ subs (pieces l f m) := by
  induction m with
  | nil => cases hk
  | cons a t ih =>
    rw [pieces, subs_append, List.mem_append]
    rcases List.mem_cons.1 hk with rfl | h
    · exact .inl hx
    · exact .inr (ih h)

/-- Where a node that is not an ancestor of `d` is found. -/
theorem subs_state {d : Nat} {l : List Nat} {f : Forest} (hu : f.UniqueKeys) (hd : d ∈ f.keys) (hc : Clear d l f) {x : Node × Forest}
    (hx : x ∈ subs f) (h1 : x.1.key ≠ d) (h2 : d ∉ x.2.keys) : (x.1, x.2.prune (within l)) ∈ subs (stateOf d l f) := by
  have hin := state_in hd hc
  have hp : d ∉ (x.2.prune (within l)).keys := by
    intro h
    obtain ⟨n, hn, e⟩ := Forest.mem_keys.1 h
    exact h2 (e ▸ Forest.key_mem ((Forest.nodes_prune_sublist _ _).mem hn))
  unfold stateOf
  rcases subs_pruned (p := within l) hx with ⟨hw, h⟩ | ⟨y, hy, hw, h⟩
  · rcases subs_setKids_out (d := d) (((f.kidsOf d).getD .nil).prune (within l) ++ pieces l f l) h with a | a | a | ⟨y, hy, e, a⟩
    · exact absurd a h1
    · exact absurd a hp
    · exact a
    · refine subs_setKids_in hin _ ?_
      rw [subs_append, List.mem_append]
      left
      have := kidsOf_prune hu hin
      rw [← e, kidsOf_subs (Forest.uniqueKeys_prune hu) (n := y.1) (c := y.2) hy, e] at this
      cases hk : f.kidsOf d with
      | none => rw [hk] at this; cases this
      | some q =>
        rw [hk] at this
        simp only [Option.map_some, Option.some.injEq] at this
        rw [Option.getD_some, ← this]
        exact a
  · refine subs_setKids_in hin _ ?_
    rw [subs_append, List.mem_append]
    right
    refine mem_pieces (k := y.1.key) (by simpa [within] using hw) ?_
    unfold piece
    rw [subtree_of hu hy]
    rcases h with rfl | h
    · simp [subs]
    · simp [subs, h]

theorem pieces_prune {d k : Nat} {l m : List Nat} {f : Forest} (hk : k ∉ m) :
    (pieces l f m).prune (fun n => decide (n.key = k)) = pieces (l ++ [k]) f m := by
  induction m with
  | nil => rfl
  | cons a t ih =>
    rw [pieces, pieces, prune_append, ih (fun h => hk (by simp [h]))]
    congr 1
    unfold piece
    cases h : subtree a f with
    | none => rfl
    | some x =>
      obtain ⟨hx, rfl⟩ := subtree_mem h
      have : x.1.key ≠ k := fun e => hk (by simp [e])
      simp only [Forest.prune, this, decide_false, Bool.false_eq_true, if_false]
      rw [prune_prune]
      congr 1
      exact prune_congr fun n _ => by simp [within]

theorem state_step {d k : Nat} {l : List Nat} {f : Forest} (hu : f.UniqueKeys) (hd : d ∈ f.keys) (hc : Clear d (l ++ [k]) f)
    (hk : k ∈ f.keys) (hl : k ∉ l) (hs : (stateOf d l f).UniqueKeys) : moveTo d k (stateOf d l f) = stateOf d (l ++ [k]) f := by
  obtain ⟨x, hx, rfl⟩ := subs_of_key hk
  obtain ⟨h1, h2⟩ := hc x hx (by simp)
  have hc' : Clear d l f := fun y hy hm => hc y hy (by simp [hm])
  have hin := state_in hd hc
  have hsub := subtree_of hs (subs_state hu hd hc' hx h1 h2)
  rw [moveTo_eq hsub]
  have e1 : (stateOf d l f).prune (fun m => decide (m.key = x.1.key)) = (f.prune (within (l ++ [x.1.key]))).setKids d
      (((f.kidsOf d).getD .nil).prune (within (l ++ [x.1.key])) ++ pieces (l ++ [x.1.key]) f l) := by
    unfold stateOf
    rw [prune_setKids (fun n e => by simpa [e] using fun e => h1 e.symm), prune_append, prune_prune, prune_prune, pieces_prune (d := d) hl]
    have : (fun n : Node => within l n || decide (n.key = x.1.key)) = within (l ++ [x.1.key]) := by
      funext n; simp [within]
    rw [this]
  obtain ⟨q, hq⟩ : ∃ q, (f.prune (within (l ++ [x.1.key]))).kidsOf d = some q := by
    obtain ⟨y, hy, e⟩ := subs_of_key hin
    exact ⟨y.2, by rw [← e]; exact kidsOf_subs (Forest.uniqueKeys_prune hu) (n := y.1) (c := y.2) hy⟩
  rw [e1, kidsOf_setKids hq, Option.getD_some, setKids_setKids, stateOf, pieces_append, Forest.append_assoc]
  congr 3
  rw [pieces, pieces, Forest.append_nil, piece, subtree_of hu hx]
  congr 1
  refine prune_congr fun n hn => ?_
  have : n.key ≠ x.1.key := by
    intro e
    have := (nodes_prune_one hu hx).map (·.key)
    rw [List.map_append, List.map_cons] at this
    have hnd := this.nodup_iff.1 hu
    have := (List.nodup_append.1 hnd).2.1
    exact (List.nodup_cons.1 this).1 (List.mem_map.2 ⟨n, hn, e⟩)
  simp [within, this]

theorem state_nil {d : Nat} {f : Forest} (hu : f.UniqueKeys) (hd : d ∈ f.keys) : stateOf d [] f = f := by
  have e : ∀ g : Forest, g.prune (within []) = g := fun g => prune_id fun n _ => by simp [within]
  obtain ⟨y, hy, rfl⟩ := subs_of_key hd
  unfold stateOf
  rw [e, e, kidsOf_subs hu (n := y.1) (c := y.2) hy, Option.getD_some, pieces, Forest.append_nil,
    setKids_self hu (kidsOf_subs hu (n := y.1) (c := y.2) hy)]

/-- What is needed for the nodes of the list to be moved one after the other. -/
structure Movable (d : Nat) (l : List Nat) (f : Forest) : Prop where
  unique : f.UniqueKeys
  main : d ∈ f.keys
  clear : Clear d l f
  mem : ∀ k ∈ l, k ∈ f.keys
  nodup : l.Nodup

theorem Movable.init {d : Nat} {l m : List Nat} {f : Forest} (h : Movable d (l ++ m) f) : Movable d l f where
  unique := h.unique
  main := h.main
  clear x hx hm := h.clear x hx (by simp [hm])
  mem k hk := h.mem k (by simp [hk])
  nodup := (List.nodup_append.1 h.nodup).1

/-- The moves permute the nodes. -/
theorem Movable.nodes {d : Nat} {f : Forest} (l : List Nat) (h : Movable d l f) : (stateOf d l f).nodes.Perm f.nodes := by
  induction l using List.reverseRecOn with
  | nil => rw [state_nil h.unique h.main]
  | append_singleton l k ih =>
    have h1 := h.init
    have hp := ih h1
    have hk := hp.map (·.key)
    have hu : (stateOf d l f).UniqueKeys := hk.nodup_iff.2 h.unique
    have hkl : k ∉ l := fun hm => by
      have := (List.nodup_append.1 h.nodup).2.2 k hm k (by simp)
      exact this rfl
    rw [← state_step h.unique h.main h.clear (h.mem k (by simp)) hkl hu]
    refine (moveTo_nodes hu (hk.symm.mem_iff.1 h.main) ?_).trans hp
    intro x hx hm
    obtain ⟨y, hy, e⟩ := subs_of_key (h.mem k (by simp))
    obtain ⟨a, b⟩ := h.clear y hy (by simp [e])
    have := subs_unique hu hx (subs_state h.unique h.main h1.clear hy a b) (by rw [e]; simpa using hm)
    subst this
    refine ⟨a, fun hd => ?_⟩
    obtain ⟨n, hn, e⟩ := Forest.mem_keys.1 hd
    exact b (e ▸ Forest.key_mem ((Forest.nodes_prune_sublist _ _).mem hn))

theorem Movable.uniqueState {d : Nat} {l : List Nat} {f : Forest} (h : Movable d l f) : (stateOf d l f).UniqueKeys :=
  ((h.nodes l).map Node.key).nodup_iff.2 h.unique

theorem Movable.step {d k : Nat} {l : List Nat} {f : Forest} (h : Movable d (l ++ [k]) f) :
    moveTo d k (stateOf d l f) = stateOf d (l ++ [k]) f := by
  have hkl : k ∉ l := fun hm => by
    have := (List.nodup_append.1 h.nodup).2.2 k hm k (by simp)
    exact this rfl
  exact state_step h.unique h.main h.clear (h.mem k (by simp)) hkl h.init.uniqueState

/-! ### Changes of the attributes -/

section
variable {h : Node → Node} (hk : ∀ n, (h n).key = n.key)
include hk

theorem prune_map (p : Nat → Bool) (f : Forest) : (f.map h).prune (fun n => p n.key) = (f.prune fun n => p n.key).map h := by
  induction f with
  | nil => rfl
  | cons n k r ih1 ih2 =>
    simp only [Forest.map_cons, Forest.prune, hk, ih1, ih2]
    split <;> rfl

theorem setKids_map (d : Nat) (X f : Forest) : (f.map h).setKids d (X.map h) = (f.setKids d X).map h := by
  induction f with
  | nil => rfl
  | cons n k r ih1 ih2 =>
    simp only [Forest.map_cons, Forest.setKids, hk, ih1, ih2]
    split <;> rfl

theorem kidsOf_map (d : Nat) (f : Forest) : (f.map h).kidsOf d = (f.kidsOf d).map (·.map h) := by
  induction f with
  | nil => rfl
  | cons n k r ih1 ih2 =>
    simp only [Forest.map_cons, Forest.kidsOf, hk, ih1, ih2]
    split
    · rfl
    · cases Forest.kidsOf d k <;> rfl

theorem subtree_map (d : Nat) (f : Forest) : subtree d (f.map h) = (subtree d f).map fun x => (h x.1, x.2.map h) := by
  induction f with
  | nil => rfl
  | cons n k r ih1 ih2 =>
    simp only [Forest.map_cons, subtree, hk, ih1, ih2]
    split
    · rfl
    · cases subtree d k <;> rfl

theorem moveTo_map (d k : Nat) (f : Forest) : moveTo d k (f.map h) = (moveTo d k f).map h := by
  unfold moveTo
  rw [subtree_map hk]
  cases subtree k f with
  | none => rfl
  | some x =>
    have e := prune_map hk (fun x => decide (x = k)) f
    simp only [Option.map_some]
    rw [e, kidsOf_map hk, ← setKids_map hk, Forest.map_append]
    congr 2
    cases Forest.kidsOf d (f.prune fun n => decide (n.key = k)) <;> rfl

end

/-- `m` is `n` with more attributes, each of which is an inheritable one and taken from the list. -/
structure Grown (src : List Attr) (n m : Node) : Prop where
  key : m.key = n.key
  kind : m.kind = n.kind
  id : m.id = n.id
  attrs : ∃ more, m.attrs = n.attrs ++ more ∧
    ∀ x ∈ more, x ∈ src ∧ (∃ a : AId, x.name = .id a ∧ a.isInheritable = true) ∧ getAttr n.attrs x.name = none

theorem Grown.refl (src : List Attr) (n : Node) : Grown src n n := ⟨rfl, rfl, rfl, [], by simp⟩

theorem getAttr_append (a b : List Attr) (x : AName) : getAttr (a ++ b) x = (getAttr a x).or (getAttr b x) := by
  simp [getAttr, List.find?_append]

theorem Grown.trans {src : List Attr} {a b c : Node} (h1 : Grown src a b) (h2 : Grown src b c) : Grown src a c := by
  obtain ⟨m, hm, hx⟩ := h1.attrs
  obtain ⟨q, hq, hy⟩ := h2.attrs
  refine ⟨h2.key.trans h1.key, h2.kind.trans h1.kind, h2.id.trans h1.id, m ++ q, by rw [hq, hm, List.append_assoc], ?_⟩
  intro x hx'
  rcases List.mem_append.1 hx' with h | h
  · exact hx x h
  · obtain ⟨a1, a2, a3⟩ := hy x h
    rw [hm, getAttr_append, Option.or_eq_none_iff] at a3
    exact ⟨a1, a2, a3.1⟩

theorem Grown.mem {src : List Attr} {n m : Node} (h : Grown src n m) {x : Attr} (hx : x ∈ m.attrs) : x ∈ n.attrs ∨ x ∈ src := by
  obtain ⟨q, hq, hy⟩ := h.attrs
  rw [hq] at hx
  exact (List.mem_append.1 hx).imp (fun h => h) fun h => (hy x h).1

theorem putAttr_new {as : List Attr} {x : Attr} (h : getAttr as x.name = none) : putAttr as x = as ++ [x] := by
  unfold putAttr
  rw [if_neg]
  intro hc
  obtain ⟨y, hy, e⟩ := List.any_eq_true.1 hc
  have := List.find?_eq_none.1 h y hy
  exact this e

theorem give_grown {src : List Attr} {x : Attr} {c c' : Node} (h : give x c = some c') (hs : x ∈ src) (hi : inheritable x = true) :
    Grown src c c' := by
  unfold give at h
  split at h
  · cases h; exact .refl _ _
  next hn =>
    have hn : getAttr c.attrs x.name = none := by simpa using hn
    unfold Ungroup.copyAttr at h
    split at h
    · cases h
    · cases h
      refine ⟨rfl, rfl, rfl, [x], putAttr_new hn, fun y hy => ?_⟩
      rw [List.mem_singleton.1 hy]
      refine ⟨hs, ?_, hn⟩
      unfold inheritable at hi
      split at hi
      next a e => exact ⟨a, e, hi⟩
      · cases hi

theorem giveAll_grown {src as : List Attr} {c c' : Node} (h : giveAll as c = some c') (hs : ∀ x ∈ as, x ∈ src ∧ inheritable x = true) :
    Grown src c c' := by
  induction as generalizing c with
  | nil => cases h; exact .refl _ _
  | cons x t ih =>
    obtain ⟨b, h1, h2⟩ := Option.bind_eq_some_iff.1 h
    obtain ⟨p, q⟩ := hs x (by simp)
    exact (give_grown h1 p q).trans (ih h2 fun y hy => hs y (by simp [hy]))

theorem chain_nodes {k : Nat} {anc : List Node} {f : Forest} {l : List Node} (h : chain k anc f = some l) {p : Node} (hp : p ∈ l) :
    p ∈ anc ∨ p ∈ f.nodes := by
  induction f generalizing anc with
  | nil => cases h
  | cons n c r ihc ihr =>
    unfold chain at h
    split at h
    · cases h
      rcases List.mem_cons.1 hp with rfl | h
      · exact .inr (by simp)
      · exact .inl h
    · cases h1 : chain k (n :: anc) c with
      | none =>
        rw [h1] at h
        exact (ihr h).imp id fun a => by simp [a]
      | some l' =>
        rw [h1] at h
        cases h
        rcases ihc h1 with a | a
        · rcases List.mem_cons.1 a with rfl | a
          · exact .inr (by simp)
          · exact .inl a
        · exact .inr (by simp [a])

theorem chain_key {k : Nat} {anc : List Node} {f : Forest} {n : Node} {l : List Node} (h : chain k anc f = some (n :: l)) : n.key = k := by
  induction f generalizing anc with
  | nil => cases h
  | cons m c r ihc ihr =>
    unfold chain at h
    split at h
    next e => cases h; exact e
    next =>
      cases h1 : chain k (m :: anc) c with
      | none => rw [h1] at h; exact ihr h
      | some l' => rw [h1] at h; cases h; exact ihc h1

/-- The attributes of all nodes. -/
def allAttrs (f : Forest) : List Attr := f.nodes.flatMap (·.attrs)

theorem mem_allAttrs {f : Forest} {x : Attr} : x ∈ allAttrs f ↔ ∃ n ∈ f.nodes, x ∈ n.attrs := List.mem_flatMap

theorem giveKids_map {as : List Attr} {c c' : Forest} (h : giveKids as c = some c') (hu : c.UniqueKeys) :
    c' = c.map fun n => if n.key ∈ c.top.map (·.key) then (giveAll as n).getD n else n := by
  have nokey : ∀ {a b : Forest}, (∀ k ∈ a.keys, k ∉ b.keys) → ∀ n ∈ a.nodes, n.key ∉ b.top.map (·.key) := by
    intro a b hab n hn hc
    obtain ⟨m, hm, e⟩ := List.mem_map.1 hc
    exact hab _ (Forest.key_mem hn) (e ▸ Forest.key_mem ((Stops.top_sub_nodes b).mem hm))
  induction c generalizing c' with
  | nil => cases h; rfl
  | cons n k r ihk ihr =>
    obtain ⟨h1, h2, h3, h4, h5⟩ := nodup_cons hu
    obtain ⟨m, hm, h⟩ := Option.bind_eq_some_iff.1 h
    obtain ⟨r', hr, rfl⟩ := Option.map_eq_some_iff.1 h
    rw [Forest.map_cons]
    congr 1
    · simp [Forest.top, hm]
    · symm
      refine Forest.map_id' fun x hx => if_neg ?_
      have a := nokey h5 x hx
      have b : x.key ≠ n.key := fun e => h1 (e ▸ Forest.key_mem hx)
      simpa [Forest.top, b] using a
    · rw [ihr hr h4]
      refine Forest.map_congr fun x hx => ?_
      have b : x.key ≠ n.key := fun e => h2 (e ▸ Forest.key_mem hx)
      simp [Forest.top, b]

theorem setKids_change {f c : Forest} (hu : f.UniqueKeys) {k : Nat} (hc : f.kidsOf k = some c) (h : Node → Node)
    (hid : ∀ n ∈ f.nodes, n.key ∉ c.keys → h n = n) : f.setKids k (c.map h) = f.map h := by
  induction f with
  | nil => cases hc
  | cons n q r ihq ihr =>
    obtain ⟨h1, h2, h3, h4, h5⟩ := nodup_cons hu
    rw [Forest.setKids, Forest.map_cons]
    unfold Forest.kidsOf at hc
    split at hc
    next e =>
      cases hc
      rw [if_pos e, hid n (by simp) h1, setKids_not_mem (by rw [← e]; exact h2)]
      congr 1
      symm
      exact Forest.map_id' fun x hx => hid x (by simp [hx]) fun hk => h5 _ hk (Forest.key_mem hx)
    next e =>
      rw [if_neg e]
      cases hq : q.kidsOf k with
      | some c' =>
        rw [hq] at hc
        cases hc
        obtain ⟨m, hm, hs⟩ := subs_kidsOf hq
        have hin := key_subs hs
        rw [hm] at hin
        rw [ihq h3 hq (fun x hx => hid x (by simp [hx])), setKids_not_mem (h5 _ hin),
          hid n (by simp) (fun hk => h1 (kids_subs hs hk))]
        congr 1
        symm
        exact Forest.map_id' fun x hx => hid x (by simp [hx]) fun hk => h5 _ (kids_subs hs hk) (Forest.key_mem hx)
      | none =>
        rw [hq] at hc
        simp only [Option.none_or] at hc
        obtain ⟨m, hm, hs⟩ := subs_kidsOf hc
        have hin := key_subs hs
        rw [hm] at hin
        rw [ihr h4 hc (fun x hx => hid x (by simp [hx])), setKids_not_mem (fun hk => h5 _ hk hin),
          hid n (by simp) (fun hk => h2 (kids_subs hs hk))]
        congr 1
        symm
        exact Forest.map_id' fun x hx => hid x (by simp [hx]) fun hk => h5 _ (Forest.key_mem hx) (kids_subs hs hk)

/-- `resolve_attrs` gives attributes to nodes, and does nothing else. -/
theorem resolveAttrs_grown {k : Nat} {f g : Forest} (hu : f.UniqueKeys) (h : resolveAttrs k f = some g) :
    ∃ e : Node → Node, g = f.map e ∧ (∀ n, Grown (allAttrs f) n (e n)) ∧
      ∀ n ∈ f.nodes, e n = n ∨ ∃ x ∈ subs f, x.1.tag.any carries = true ∧ n ∈ x.2.top := by
  have triv : f = f.map id := (Forest.map_id' fun _ _ => rfl).symm
  unfold resolveAttrs at h
  split at h
  next n anc c h1 h2 =>
    split at h
    next hcar =>
      obtain ⟨c', hc, rfl⟩ := Option.map_eq_some_iff.1 h
      obtain ⟨m, hm, hs⟩ := subs_kidsOf h2
      have hcu : c.UniqueKeys := ((Stops.subs_kids_sub hs).1.map Node.key).nodup hu
      have hg := giveKids_map hc hcu
      have hsrc : ∀ x ∈ (n :: anc).flatMap fun p => p.attrs.filter inheritable, x ∈ allAttrs f ∧ inheritable x = true := by
        intro x hx
        obtain ⟨p, hp, hx⟩ := List.mem_flatMap.1 hx
        obtain ⟨hx, hi⟩ := List.mem_filter.1 hx
        rcases chain_nodes h1 hp with a | a
        · cases a
        · exact ⟨mem_allAttrs.2 ⟨p, a, hx⟩, hi⟩
      refine ⟨fun n' => if n'.key ∈ c.top.map (·.key) then (giveAll ((n :: anc).flatMap fun p => p.attrs.filter inheritable) n').getD n' else n', ?_, ?_, ?_⟩
      · rw [hg]
        refine setKids_change hu h2 _ fun x hx hk => if_neg fun hc => hk ?_
        obtain ⟨y, hy, e⟩ := List.mem_map.1 hc
        exact e ▸ Forest.key_mem ((Stops.top_sub_nodes c).mem hy)
      · intro x
        dsimp only
        split
        · cases hx : giveAll ((n :: anc).flatMap fun p => p.attrs.filter inheritable) x with
          | none => exact .refl _ _
          | some y => exact giveAll_grown hx hsrc
        · exact .refl _ _
      · intro x hx
        dsimp only
        split
        next hin =>
          right
          obtain ⟨y, hy, e⟩ := List.mem_map.1 hin
          have : y = x := Forest.eq_of_key hu ((Stops.subs_kids_sub hs).1.mem ((Stops.top_sub_nodes c).mem hy)) hx e
          refine ⟨(m, c), hs, ?_, this ▸ hy⟩
          have hnk := chain_key h1
          have : n = m := by
            refine Forest.eq_of_key hu ?_ (Stops.subs_kids_sub hs).2 (by rw [hnk, hm])
            exact (chain_nodes h1 (p := n) (by simp)).resolve_left (by simp)
          exact this ▸ hcar
        · exact .inl rfl
    next => cases h; exact ⟨id, triv, fun n => .refl _ n, fun n _ => .inl rfl⟩
  · cases h; exact ⟨id, triv, fun n => .refl _ n, fun n _ => .inl rfl⟩

theorem Grown.mono {s t : List Attr} {n m : Node} (h : Grown s n m) (hst : ∀ x ∈ s, x ∈ t) : Grown t n m := by
  obtain ⟨q, hq, hy⟩ := h.attrs
  exact ⟨h.key, h.kind, h.id, q, hq, fun x hx => ⟨hst x (hy x hx).1, (hy x hx).2⟩⟩

theorem moveAll_state {d : Nat} {f : Forest} (m : List Nat) {l : List Nat} (hm : Movable d (l ++ m) f) {e : Node → Node}
    (he : ∀ n, (e n).key = n.key) : moveAll d m ((stateOf d l f).map e) = (stateOf d (l ++ m) f).map e := by
  induction m generalizing l with
  | nil => simp [moveAll]
  | cons k t ih =>
    rw [List.append_cons] at hm
    have : moveAll d (k :: t) ((stateOf d l f).map e) = moveAll d t (moveTo d k ((stateOf d l f).map e)) := rfl
    rw [this, moveTo_map he, hm.init.step, ih hm, List.append_cons l k t]

end Verif.GroupDefs
