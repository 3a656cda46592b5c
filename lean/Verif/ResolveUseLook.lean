import Verif.ResolveUseProps
/-
Property C39, continued: the tree, and the theorems.
-/
namespace Verif.ResolveUse
open Verif.Dom Verif.Spec Verif.Render
open Verif.Paths (Transform)

/-! ### The tree -/

/-- The node `u` with its children is replaced with `l` and its children `lk`; the node `k` is dropped. -/
def swap (u k : Nat) (l : Node) (lk : Forest) : Forest → Forest
  | .nil => .nil
  | .cons n ks r =>
    if n.key = u then .cons l lk (swap u k l lk r)
    else if n.key = k then swap u k l lk r
    else .cons n (swap u k l lk ks) (swap u k l lk r)

theorem prune_absent {x : Nat} {f : Forest} (h : x ∉ f.keys) : f.prune (fun m => decide (m.key = x)) = f := by
  induction f with
  | nil => rfl
  | cons n k r ihk ihr =>
    simp only [Forest.keys_cons, List.mem_cons, List.mem_append, not_or] at h
    simp only [Forest.prune]
    rw [ihk h.2.1, ihr h.2.2, if_neg (by simpa using fun e => h.1 e.symm)]

theorem insertAfter_absent {x : Nat} {f : Forest} (h : x ∉ f.keys) (l : Node) (lk : Forest) : insertAfter f x l lk = f := by
  induction f with
  | nil => rfl
  | cons n k r ihk ihr =>
    simp only [Forest.keys_cons, List.mem_cons, List.mem_append, not_or] at h
    simp only [insertAfter]
    rw [ihk h.2.1, ihr h.2.2, if_neg (fun e => h.1 e.symm)]

theorem swap_prune {u k : Nat} {l : Node} {lk f : Forest} (h : u ∉ f.keys) : swap u k l lk f = f.prune (fun m => decide (m.key = k)) := by
  induction f with
  | nil => rfl
  | cons n ks r ihk ihr =>
    simp only [Forest.keys_cons, List.mem_cons, List.mem_append, not_or] at h
    simp only [swap, Forest.prune]
    rw [ihk h.2.1, ihr h.2.2, if_neg (fun e => h.1 e.symm)]
    by_cases hk : n.key = k <;> simp [hk]

theorem swap_absent {u k : Nat} {l : Node} {lk f : Forest} (h : u ∉ f.keys) (hk : k ∉ f.keys) : swap u k l lk f = f := by
  rw [swap_prune h, prune_absent hk]

theorem mem_keys_prune {p : Node → Bool} {f : Forest} {x : Nat} (h : x ∈ (f.prune p).keys) : x ∈ f.keys := by
  obtain ⟨n, hn, rfl⟩ := Forest.mem_keys.1 h
  exact Forest.key_mem ((Forest.nodes_prune_sublist p f).subset hn)

theorem nodup_cons {n : Node} {k r : Forest} (h : (Forest.cons n k r).UniqueKeys) :
    n.key ∉ k.keys ∧ n.key ∉ r.keys ∧ k.UniqueKeys ∧ r.UniqueKeys ∧ ∀ x ∈ k.keys, x ∉ r.keys := by
  unfold Forest.UniqueKeys at h
  rw [Forest.keys_cons, List.nodup_cons, List.mem_append, not_or, List.nodup_append] at h
  exact ⟨h.1.1, h.1.2, h.2.1, h.2.2.1, fun x hx hr => h.2.2.2 x hx x hr rfl⟩

/-- Detaching, inserting and removing amount to a swap. -/
theorem surgery {u k : Nat} (hne : u ≠ k) {l : Node} (hl : l.key = k) {lk : Forest} (hu : u ∉ lk.keys) {f : Forest} (h : f.UniqueKeys) :
    (insertAfter (f.prune (fun m => decide (m.key = k))) u l lk).prune (fun m => decide (m.key = u)) = swap u k l lk f := by
  induction f with
  | nil => rfl
  | cons n ks r ihk ihr =>
    obtain ⟨h1, h2, h3, h4, h5⟩ := nodup_cons h
    simp only [Forest.prune, swap]
    by_cases hn : n.key = u
    · have hnk : n.key ≠ k := hn ▸ hne
      simp only [hn, if_true]
      rw [if_neg (by simpa using hne)]
      simp only [insertAfter, hn, if_true, Forest.prune, decide_true]
      rw [if_neg (by rw [hl]; simpa using hne.symm), prune_absent hu, prune_absent (f := Forest.prune _ r), swap_prune (hn ▸ h2)]
      exact fun e => (hn ▸ h2) (mem_keys_prune e)
    · simp only [hn, if_false]
      by_cases hk : n.key = k
      · simp only [hk, if_true, decide_true]
        exact ihr h4
      · simp only [hk, if_false, decide_false, Bool.false_eq_true, insertAfter, hn, Forest.prune]
        rw [ihk h3, ihr h4]

theorem pruned_sub {u k : Nat} {l : Node} {lk : Forest} (hl : l.key ≠ u) (hu : u ∉ lk.keys) {p : Option (Nat × Kind)} {f : Forest} {x : Nat}
    (hf : f.UniqueKeys)
    (h : x ∈ (insertAfter (f.prune (fun m => decide (m.key = k))) u l lk).prunedKeys (fun m => decide (m.key = u))) :
    ∃ q n kn, (q, n, kn) ∈ placed p f ∧ n.key = u ∧ (x = u ∨ x ∈ kn.keys) := by
  have hp : ∀ {g : Forest}, u ∉ g.keys → g.prunedKeys (fun m => decide (m.key = u)) = [] := by
    intro g
    induction g with
    | nil => intro _; rfl
    | cons n a b iha ihb =>
      intro hg
      simp only [Forest.keys_cons, List.mem_cons, List.mem_append, not_or] at hg
      simp only [Forest.prunedKeys]
      rw [iha hg.2.1, ihb hg.2.2, if_neg (by simpa using fun e => hg.1 e.symm)]
      rfl
  induction f generalizing p with
  | nil => cases h
  | cons n ks r ihk ihr =>
    obtain ⟨_, h2, h3, h4, _⟩ := nodup_cons hf
    simp only [Forest.prune] at h
    by_cases hk : n.key = k
    · simp only [hk, decide_true, if_true] at h
      obtain ⟨q, m, kn, a, b⟩ := ihr (p := p) h4 h
      exact ⟨q, m, kn, by simp [placed, a], b⟩
    · simp only [hk, decide_false, Bool.false_eq_true, if_false, insertAfter] at h
      by_cases hn : n.key = u
      · simp only [hn, if_true, Forest.prunedKeys, decide_true] at h
        rw [if_neg (by simpa using hl), hp hu, hp (g := Forest.prune _ r) (fun e => (hn ▸ h2) (mem_keys_prune e))] at h
        simp only [List.append_nil, List.mem_cons, List.cons_append] at h
        refine ⟨p, n, ks, by simp [placed], hn, h.imp id (fun h => mem_keys_prune h)⟩
      · simp only [hn, if_false, Forest.prunedKeys, decide_false, Bool.false_eq_true, List.mem_append] at h
        rcases h with h | h
        · obtain ⟨q, m, kn, a, b⟩ := ihk (p := some (n.key, n.kind)) h3 h
          exact ⟨q, m, kn, by simp [placed, a], b⟩
        · obtain ⟨q, m, kn, a, b⟩ := ihr (p := p) h4 h
          exact ⟨q, m, kn, by simp [placed, a], b⟩

theorem placed_subs {p q : Option (Nat × Kind)} {f : Forest} {n : Node} {k : Forest} (h : (q, n, k) ∈ placed p f) : (n, k) ∈ subs f := by
  induction f generalizing p with
  | nil => cases h
  | cons m a b iha ihb =>
    simp only [placed, List.mem_cons, List.mem_append, Prod.mk.injEq] at h
    simp only [subs, List.mem_cons, List.mem_append, Prod.mk.injEq]
    rcases h with ⟨_, rfl, rfl⟩ | h | h
    · exact Or.inl ⟨rfl, rfl⟩
    · exact Or.inr (Or.inl (iha h))
    · exact Or.inr (Or.inr (ihb h))

theorem placed_nodes {p q : Option (Nat × Kind)} {f : Forest} {n : Node} {k : Forest} (h : (q, n, k) ∈ placed p f) :
    n ∈ f.nodes ∧ ∀ m ∈ k.nodes, m ∈ f.nodes := by
  induction f generalizing p with
  | nil => cases h
  | cons m a b iha ihb =>
    simp only [placed, List.mem_cons, List.mem_append, Prod.mk.injEq] at h
    rcases h with ⟨_, rfl, rfl⟩ | h | h
    · exact ⟨by simp, fun m hm => by simp [hm]⟩
    · exact ⟨by simp [(iha h).1], fun m hm => by simp [(iha h).2 m hm]⟩
    · exact ⟨by simp [(ihb h).1], fun m hm => by simp [(ihb h).2 m hm]⟩

/-- Every node is placed. -/
theorem exists_placed {f : Forest} {n : Node} (h : n ∈ f.nodes) (p : Option (Nat × Kind)) : ∃ q k, (q, n, k) ∈ placed p f := by
  induction f generalizing p with
  | nil => cases h
  | cons m a b iha ihb =>
    simp only [Forest.nodes_cons, List.mem_cons, List.mem_append] at h
    rcases h with rfl | h | h
    · exact ⟨p, a, by simp [placed]⟩
    · obtain ⟨q, k, hk⟩ := iha h (some (m.key, m.kind)); exact ⟨q, k, by simp [placed, hk]⟩
    · obtain ⟨q, k, hk⟩ := ihb h p; exact ⟨q, k, by simp [placed, hk]⟩

/-- A node has one place. -/
theorem placed_unique {p q q' : Option (Nat × Kind)} {f : Forest} (hf : f.UniqueKeys) {n n' : Node} {k k' : Forest}
    (h : (q, n, k) ∈ placed p f) (h' : (q', n', k') ∈ placed p f) (hk : n.key = n'.key) : q = q' ∧ n = n' ∧ k = k' := by
  induction f generalizing p with
  | nil => cases h
  | cons m a b iha ihb =>
    obtain ⟨h1, h2, h3, h4, h5⟩ := nodup_cons hf
    have ka : ∀ {x y z}, (x, y, z) ∈ placed (some (m.key, m.kind)) a → y.key ∈ a.keys := fun h => Forest.key_mem (placed_nodes h).1
    have kb : ∀ {x y z}, (x, y, z) ∈ placed p b → y.key ∈ b.keys := fun h => Forest.key_mem (placed_nodes h).1
    simp only [placed, List.mem_cons, List.mem_append, Prod.mk.injEq] at h h'
    rcases h with ⟨rfl, rfl, rfl⟩ | h | h <;> rcases h' with ⟨rfl, rfl, rfl⟩ | h' | h'
    · exact ⟨rfl, rfl, rfl⟩
    · exact absurd (hk ▸ ka h') h1
    · exact absurd (hk ▸ kb h') h2
    · exact absurd (hk ▸ ka h) h1
    · exact iha h3 h h'
    · exact absurd (hk ▸ kb h') (h5 _ (ka h))
    · exact absurd (hk ▸ kb h) h2
    · exact absurd (hk ▸ kb h) (h5 _ (ka h'))
    · exact ihb h4 h h'

/-- The places in a subtree are places. -/
theorem placed_inner {p q q' : Option (Nat × Kind)} {f : Forest} {l m : Node} {lk mk : Forest} (h : (q, l, lk) ∈ placed p f)
    (h' : (q', m, mk) ∈ placed (some (l.key, l.kind)) lk) : (q', m, mk) ∈ placed p f := by
  induction f generalizing p with
  | nil => cases h
  | cons n a b iha ihb =>
    simp only [placed, List.mem_cons, List.mem_append, Prod.mk.injEq] at h ⊢
    rcases h with ⟨_, rfl, rfl⟩ | h | h
    · exact Or.inr (Or.inl h')
    · exact Or.inr (Or.inl (iha h))
    · exact Or.inr (Or.inr (ihb h))

theorem subtree_placed {p q : Option (Nat × Kind)} {f : Forest} (hf : f.UniqueKeys) {l : Node} {lk : Forest} (h : (q, l, lk) ∈ placed p f) :
    subtree l.key f = some (l, lk) := by
  induction f generalizing p with
  | nil => cases h
  | cons n a b iha ihb =>
    obtain ⟨h1, h2, h3, h4, h5⟩ := nodup_cons hf
    have hno : ∀ {g : Forest} {x : Nat}, x ∉ g.keys → subtree x g = none := by
      intro g x
      induction g with
      | nil => intro _; rfl
      | cons n a b iha ihb =>
        intro hg
        simp only [Forest.keys_cons, List.mem_cons, List.mem_append, not_or] at hg
        simp only [subtree]
        rw [iha hg.2.1, ihb hg.2.2, if_neg (fun e => hg.1 e.symm)]
        rfl
    simp only [placed, List.mem_cons, List.mem_append, Prod.mk.injEq] at h
    simp only [subtree]
    rcases h with ⟨_, rfl, rfl⟩ | h | h
    · simp
    · have hk : l.key ∈ a.keys := Forest.key_mem (placed_nodes h).1
      rw [if_neg (by rintro e; exact h1 (e ▸ hk)), iha h3 h]
      rfl
    · have hk : l.key ∈ b.keys := Forest.key_mem (placed_nodes h).1
      rw [if_neg (by rintro e; exact h2 (e ▸ hk)), hno (fun e => h5 _ e hk), ihb h4 h]
      rfl

theorem swap_nodes {u k : Nat} {l : Node} {lk f : Forest} {m : Node} (h : m ∈ (swap u k l lk f).nodes) :
    (m ∈ f.nodes ∧ m.key ≠ u ∧ m.key ≠ k) ∨ (u ∈ f.keys ∧ (m = l ∨ m ∈ lk.nodes)) := by
  induction f with
  | nil => cases h
  | cons n ks r ihk ihr =>
    simp only [swap] at h
    by_cases hu : n.key = u
    · rw [if_pos hu] at h
      simp only [Forest.nodes_cons, List.mem_cons, List.mem_append] at h
      rcases h with h | h | h
      · exact Or.inr ⟨by simp [hu], Or.inl h⟩
      · exact Or.inr ⟨by simp [hu], Or.inr h⟩
      · exact (ihr h).imp (fun ⟨a, b⟩ => ⟨by simp [a], b⟩) (fun ⟨a, b⟩ => ⟨by simp [a], b⟩)
    · rw [if_neg hu] at h
      by_cases hk : n.key = k
      · rw [if_pos hk] at h
        exact (ihr h).imp (fun ⟨a, b⟩ => ⟨by simp [a], b⟩) (fun ⟨a, b⟩ => ⟨by simp [a], b⟩)
      · rw [if_neg hk] at h
        simp only [Forest.nodes_cons, List.mem_cons, List.mem_append] at h
        rcases h with rfl | h | h
        · exact Or.inl ⟨by simp, hu, hk⟩
        · exact (ihk h).imp (fun ⟨a, b⟩ => ⟨by simp [a], b⟩) (fun ⟨a, b⟩ => ⟨by simp [a], b⟩)
        · exact (ihr h).imp (fun ⟨a, b⟩ => ⟨by simp [a], b⟩) (fun ⟨a, b⟩ => ⟨by simp [a], b⟩)

theorem swap_placed {u k : Nat} {l : Node} {lk f : Forest} {p q : Option (Nat × Kind)} {m : Node} {mk : Forest} (h : (q, m, mk) ∈ placed p f)
    (hu : m.key ≠ u) (hk : m.key ≠ k) (ha : ∀ q n kn, (q, n, kn) ∈ placed p f → n.key = u ∨ n.key = k → m.key ∉ kn.keys) :
    (q, m, swap u k l lk mk) ∈ placed p (swap u k l lk f) := by
  induction f generalizing p with
  | nil => cases h
  | cons n ks r ihk ihr =>
    have haks : ∀ q' n' kn, (q', n', kn) ∈ placed (some (n.key, n.kind)) ks → n'.key = u ∨ n'.key = k → m.key ∉ kn.keys :=
      fun q' n' kn h => ha q' n' kn (by simp [placed, h])
    have har : ∀ q' n' kn, (q', n', kn) ∈ placed p r → n'.key = u ∨ n'.key = k → m.key ∉ kn.keys :=
      fun q' n' kn h => ha q' n' kn (by simp [placed, h])
    have hks : n.key = u ∨ n.key = k → m.key ∉ ks.keys := ha p n ks (by simp [placed])
    simp only [placed, List.mem_cons, List.mem_append, Prod.mk.injEq] at h
    simp only [swap]
    by_cases h1 : n.key = u
    · rw [if_pos h1]
      simp only [placed, List.mem_cons, List.mem_append]
      rcases h with ⟨_, rfl, _⟩ | h | h
      · exact absurd h1 hu
      · exact absurd (Forest.key_mem (placed_nodes h).1) (hks (Or.inl h1))
      · exact Or.inr (Or.inr (ihr h har))
    · rw [if_neg h1]
      by_cases h2 : n.key = k
      · rw [if_pos h2]
        rcases h with ⟨_, rfl, _⟩ | h | h
        · exact absurd h2 hk
        · exact absurd (Forest.key_mem (placed_nodes h).1) (hks (Or.inr h2))
        · exact ihr h har
      · rw [if_neg h2]
        simp only [placed, List.mem_cons, List.mem_append, Prod.mk.injEq]
        rcases h with ⟨rfl, rfl, rfl⟩ | h | h
        · exact Or.inl ⟨rfl, rfl, rfl⟩
        · exact Or.inr (Or.inl (ihk h haks))
        · exact Or.inr (Or.inr (ihr h har))

theorem swap_inner {u k : Nat} {l : Node} {lk f : Forest} {p q q' : Option (Nat × Kind)} {n m : Node} {kn mk : Forest} (hn : (q', n, kn) ∈ placed p f)
    (hu : n.key = u) (ha : ∀ q n kn, (q, n, kn) ∈ placed p f → n.key = u ∨ n.key = k → u ∉ kn.keys)
    (hne : u ≠ k) (h : (q, m, mk) ∈ placed (some (l.key, l.kind)) lk) : (q, m, mk) ∈ placed p (swap u k l lk f) := by
  induction f generalizing p with
  | nil => cases hn
  | cons x ks r ihk ihr =>
    have haks : ∀ q' n' kn, (q', n', kn) ∈ placed (some (x.key, x.kind)) ks → n'.key = u ∨ n'.key = k → u ∉ kn.keys :=
      fun q' n' kn h => ha q' n' kn (by simp [placed, h])
    have har : ∀ q' n' kn, (q', n', kn) ∈ placed p r → n'.key = u ∨ n'.key = k → u ∉ kn.keys :=
      fun q' n' kn h => ha q' n' kn (by simp [placed, h])
    have hks : x.key = u ∨ x.key = k → u ∉ ks.keys := ha p x ks (by simp [placed])
    simp only [placed, List.mem_cons, List.mem_append, Prod.mk.injEq] at hn
    simp only [swap]
    by_cases h1 : x.key = u
    · rw [if_pos h1]
      simp only [placed, List.mem_cons, List.mem_append]
      exact Or.inr (Or.inl h)
    · rw [if_neg h1]
      have hnk : ∀ {y z}, (y, n, z) ∈ placed (some (x.key, x.kind)) ks → u ∈ ks.keys := fun h => hu ▸ Forest.key_mem (placed_nodes h).1
      by_cases h2 : x.key = k
      · rw [if_pos h2]
        rcases hn with ⟨_, rfl, _⟩ | hn | hn
        · exact absurd hu h1
        · exact absurd (hnk hn) (hks (Or.inr h2))
        · exact ihr hn har
      · rw [if_neg h2]
        simp only [placed, List.mem_cons, List.mem_append]
        rcases hn with ⟨_, rfl, _⟩ | hn | hn
        · exact absurd hu h1
        · exact Or.inr (Or.inl (ihk hn haks))
        · exact Or.inr (Or.inr (ihr hn har))

theorem keys_insertAfter {u : Nat} {l : Node} {lk f : Forest} (hf : f.UniqueKeys) (hu : u ∈ f.keys) :
    (insertAfter f u l lk).keys.Perm (l.key :: lk.keys ++ f.keys) := by
  induction f with
  | nil => cases hu
  | cons n ks r ihk ihr =>
    obtain ⟨h1, h2, h3, h4, h5⟩ := nodup_cons hf
    simp only [insertAfter]
    by_cases hn : n.key = u
    · rw [if_pos hn]
      simp only [Forest.keys_cons]
      have : (n.key :: (ks.keys ++ l.key :: (lk.keys ++ r.keys))).Perm (n.key :: (l.key :: lk.keys ++ (ks.keys ++ r.keys))) := by
        refine List.Perm.cons _ ?_
        have : ks.keys ++ l.key :: (lk.keys ++ r.keys) = ks.keys ++ ((l.key :: lk.keys) ++ r.keys) := rfl
        rw [this, ← List.append_assoc, ← List.append_assoc]
        exact List.Perm.append_right _ List.perm_append_comm
      exact this.trans List.perm_middle.symm
    · rw [if_neg hn]
      simp only [Forest.keys_cons] at hu ⊢
      rcases List.mem_cons.1 hu with hu | hu
      · exact absurd hu.symm hn
      · rcases List.mem_append.1 hu with hu | hu
        · rw [insertAfter_absent (h5 _ hu)]
          refine (List.Perm.cons _ (List.Perm.append_right _ (ihk h3 hu))).trans ?_
          rw [List.append_assoc]
          exact List.perm_middle.symm
        · rw [insertAfter_absent (fun e => h5 _ e hu)]
          refine (List.Perm.cons _ (List.Perm.append_left _ (ihr h4 hu))).trans ?_
          refine List.Perm.trans (List.Perm.cons _ ?_) List.perm_middle.symm
          rw [← List.append_assoc, ← List.append_assoc]
          exact List.Perm.append_right _ List.perm_append_comm

theorem prunedKeys_placed {p q : Option (Nat × Kind)} {f : Forest} (hf : f.UniqueKeys) {l : Node} {lk : Forest} (h : (q, l, lk) ∈ placed p f) :
    f.prunedKeys (fun m => decide (m.key = l.key)) = l.key :: lk.keys := by
  have hno : ∀ {g : Forest}, l.key ∉ g.keys → g.prunedKeys (fun m => decide (m.key = l.key)) = [] := by
    intro g
    induction g with
    | nil => intro _; rfl
    | cons n a b iha ihb =>
      intro hg
      simp only [Forest.keys_cons, List.mem_cons, List.mem_append, not_or] at hg
      simp only [Forest.prunedKeys]
      rw [iha hg.2.1, ihb hg.2.2, if_neg (by simpa using fun e => hg.1 e.symm)]
      rfl
  induction f generalizing p with
  | nil => cases h
  | cons n a b iha ihb =>
    obtain ⟨h1, h2, h3, h4, h5⟩ := nodup_cons hf
    simp only [placed, List.mem_cons, List.mem_append, Prod.mk.injEq] at h
    simp only [Forest.prunedKeys]
    rcases h with ⟨_, rfl, rfl⟩ | h | h
    · rw [if_pos (by simp), hno h2]; simp
    · have hk : l.key ∈ a.keys := Forest.key_mem (placed_nodes h).1
      rw [if_neg (by simp; rintro e; exact h1 (e ▸ hk)), iha h3 h, hno (h5 _ hk)]
      simp
    · have hk : l.key ∈ b.keys := Forest.key_mem (placed_nodes h).1
      rw [if_neg (by simp; rintro e; exact h2 (e ▸ hk)), ihb h4 h, hno (fun e => h5 _ e hk)]
      simp

theorem swap_unique {u : Nat} {l l' : Node} (hne : u ≠ l.key) (hl : l'.key = l.key) {lk f : Forest} {p q : Option (Nat × Kind)} (hf : f.UniqueKeys)
    (h : (q, l, lk) ∈ placed p f) (hu : u ∉ lk.keys) (huf : u ∈ f.keys) : (swap u l.key l' lk f).UniqueKeys := by
  rw [← surgery hne hl hu hf]
  refine Forest.uniqueKeys_prune ?_
  have hp := Forest.keys_prune_perm (fun m => decide (m.key = l.key)) f
  rw [prunedKeys_placed hf h] at hp
  have hu' : u ∈ (f.prune (fun m => decide (m.key = l.key))).keys := by
    rcases List.mem_append.1 (hp.symm.subset huf) with e | e
    · rcases List.mem_cons.1 e with e | e
      · exact absurd e hne
      · exact absurd e hu
    · exact e
  have := keys_insertAfter (l := l') (lk := lk) (Forest.uniqueKeys_prune hf) hu'
  rw [hl] at this
  exact (this.trans hp).nodup_iff.2 hf

/-! ### The picture -/

theorem equiv_replace {P : Type} {π : Painter P} {p : Kind} {x y : Pic P} {l l' : List (Pic P)} (h : Equiv π p l l') (hp : groupPlace p = true)
    (hx : isElem x.kind = true ∧ neverRendered x.kind = false) (hy : isElem y.kind = true ∧ neverRendered y.kind = false)
    (hc : p = .elem .clipPath → clipKind x.kind = true ∧ clipKind y.kind = true) (h1 : x.chosen = y.chosen) (h2 : x.pic = y.pic) :
    Equiv π p (x :: l) (y :: l') := by
  refine ⟨fun a b => ?_, fun a => ?_, fun a => ?_, fun a => ?_⟩
  · obtain ⟨s, t⟩ := h.stacked a b
    simp only [stack_cons, s, t, hx.1, hy.1, h2, if_true, Bool.true_or, and_self]
  · simp only [choose_cons, h.chosen a, hx, hy, h1, h2]
  · have := h.filtered a
    obtain ⟨c1, c2⟩ := hc a
    unfold clipKids at this ⊢
    simp only [List.filter_cons, c1, c2, if_true, List.map_cons, h1, h2, this]
  · rw [hp] at a; cases a

def kindOf : Option (Nat × Kind) → Kind
  | some x => x.2
  | none => .comment ""

/-- What is needed of the places of the `use` element `n` and the element `l` in a part of the tree. -/
structure Spots (n l : Node) (kn lk : Forest) (d : Nat) (p : Option (Nat × Kind)) (g : Forest) : Prop where
  use : ∀ q m mk, (q, m, mk) ∈ placed p g → m.key = n.key → m = n ∧ mk = kn ∧ Fits n l (kindOf q)
  link : ∀ q m mk, (q, m, mk) ∈ placed p g → m.key = l.key → mk = lk ∧ q = some (d, .elem .defs)

theorem Spots.kids {n l m : Node} {kn lk mk r : Forest} {d : Nat} {p : Option (Nat × Kind)} (h : Spots n l kn lk d p (.cons m mk r)) :
    Spots n l kn lk d (some (m.key, m.kind)) mk :=
  ⟨fun q m' mk' hm => h.use q m' mk' (by simp [placed, hm]), fun q m' mk' hm => h.link q m' mk' (by simp [placed, hm])⟩

theorem Spots.rest {n l m : Node} {kn lk mk r : Forest} {d : Nat} {p : Option (Nat × Kind)} (h : Spots n l kn lk d p (.cons m mk r)) :
    Spots n l kn lk d p r :=
  ⟨fun q m' mk' hm => h.use q m' mk' (by simp [placed, hm]), fun q m' mk' hm => h.link q m' mk' (by simp [placed, hm])⟩

section
variable {P : Type} {π : Painter P} {n n' l : Node} {kn lk : Forest} {d : Nat}

theorem swap_pics (hk : n.kind = .elem .use) (href : n.get .xlinkHref = some (.link l.key)) (hs : Shifted π n n')
    (env : Env P) (hE : ∀ c via, env.inst l.key c via = body π env via c l (pics π env (c.enter l) lk)) {p : Option (Nat × Kind)}
    {g : Forest} (h : Spots n l kn lk d p g) (hp : p ≠ some (d, .elem .defs)) (c : Ctx) :
    Equiv π (kindOf p) (pics π env c g) (pics π env c (swap n.key l.key (copyAttrs l n'.attrs) lk g)) := by
  induction g generalizing p c with
  | nil => exact Render.Equiv.refl _ _
  | cons m mk r ihk ihr =>
    have hr := ihr h.rest hp c
    simp only [swap]
    by_cases h1 : m.key = n.key
    · rw [if_pos h1]
      obtain ⟨rfl, rfl, hf⟩ := h.use p m mk (by simp [placed]) h1
      simp only [pics]
      refine equiv_replace hr hf.place ?_ ?_ ?_ ?_ ?_
      · rw [hk]; exact ⟨rfl, rfl⟩
      · rw [(copyAttrs_same l n'.attrs).2]; exact hf.drawn
      · intro hc
        rw [(copyAttrs_same l n'.attrs).2, hk]
        exact ⟨rfl, hf.clip hc⟩
      · exact (copy_allowed hf hs).symm
      · exact use_pic hk href hf hs env hE c _
    · rw [if_neg h1]
      by_cases h2 : m.key = l.key
      · exact absurd (h.link p m mk (by simp [placed]) h2).2 hp
      · rw [if_neg h2]
        simp only [pics]
        have : draw π env c m (pics π env (c.enter m) mk) =
            draw π env c m (pics π env (c.enter m) (swap n.key l.key (copyAttrs l n'.attrs) lk mk)) := by
          unfold draw
          cases hnr : neverRendered m.kind with
          | true => rfl
          | false =>
            simp only [Bool.false_eq_true, if_false]
            refine body_equiv (ihk h.kids ?_ _) env noVia c
            intro e
            rw [Option.some.injEq, Prod.mk.injEq] at e
            rw [e.2] at hnr
            exact absurd hnr (by decide)
        rw [this]
        exact hr.cons _

theorem swap_inst (hk : n.kind = .elem .use) (href : n.get .xlinkHref = some (.link l.key)) (hs : Shifted π n n')
    (env : Env P) (hE : ∀ c via, env.inst l.key c via = body π env via c l (pics π env (c.enter l) lk)) {p : Option (Nat × Kind)}
    {g : Forest} (h : Spots n l kn lk d p g) {x : Nat} (hx : x ≠ n.key ∧ x ≠ l.key ∧ x ≠ d ∧ x ∉ kn.keys ∧ x ∉ lk.keys) (via : Attrs P) (c : Ctx) :
    instOf π env via c x g = instOf π env via c x (swap n.key l.key (copyAttrs l n'.attrs) lk g) := by
  induction g generalizing p with
  | nil => rfl
  | cons m mk r ihk ihr =>
    have hr := ihr h.rest
    have hb := swap_pics hk href hs env hE h.kids
    simp only [swap]
    by_cases h1 : m.key = n.key
    · rw [if_pos h1]
      obtain ⟨rfl, rfl, hf⟩ := h.use p m mk (by simp [placed]) h1
      simp only [instOf]
      rw [if_neg (fun e => hx.1 e.symm), if_neg (by rw [(copyAttrs_same l n'.attrs).1]; exact fun e => hx.2.1 e.symm),
        instOf_none hx.2.2.2.1, instOf_none hx.2.2.2.2, hr]
    · rw [if_neg h1]
      by_cases h2 : m.key = l.key
      · rw [if_pos h2]
        obtain ⟨rfl, _⟩ := h.link p m mk (by simp [placed]) h2
        simp only [instOf]
        rw [if_neg (by rw [h2]; exact fun e => hx.2.1 e.symm), instOf_none hx.2.2.2.2, hr]
        rfl
      · rw [if_neg h2]
        simp only [instOf]
        by_cases h3 : m.key = x
        · rw [if_pos h3, if_pos h3]
          refine congrArg some (body_equiv (hb (fun e => hx.2.2.1 ?_) _) env via c)
          rw [Option.some.injEq, Prod.mk.injEq] at e
          rw [← h3, e.1]
        · rw [if_neg h3, if_neg h3, ihk h.kids, hr]

theorem swap_here (hk : n.kind = .elem .use) (href : n.get .xlinkHref = some (.link l.key)) (hs : Shifted π n n')
    (env : Env P) (hE : ∀ c via, env.inst l.key c via = body π env via c l (pics π env (c.enter l) lk)) {p : Option (Nat × Kind)}
    {g : Forest} (h : Spots n l kn lk d p g) {x : Nat} (hx : x ≠ n.key ∧ x ≠ l.key ∧ x ≠ d ∧ x ∉ kn.keys ∧ x ∉ lk.keys) (c : Ctx) :
    hereOf π env x c g = hereOf π env x c (swap n.key l.key (copyAttrs l n'.attrs) lk g) := by
  induction g generalizing p c with
  | nil => rfl
  | cons m mk r ihk ihr =>
    have hr := ihr h.rest c
    have hb := swap_pics hk href hs env hE h.kids
    simp only [swap]
    by_cases h1 : m.key = n.key
    · rw [if_pos h1]
      obtain ⟨rfl, rfl, hf⟩ := h.use p m mk (by simp [placed]) h1
      simp only [hereOf]
      rw [if_neg (fun e => hx.1 e.symm), if_neg (by rw [(copyAttrs_same l n'.attrs).1]; exact fun e => hx.2.1 e.symm),
        hereOf_none hx.2.2.2.1, hereOf_none hx.2.2.2.2, hr]
    · rw [if_neg h1]
      by_cases h2 : m.key = l.key
      · rw [if_pos h2]
        obtain ⟨rfl, _⟩ := h.link p m mk (by simp [placed]) h2
        simp only [hereOf]
        rw [if_neg (by rw [h2]; exact fun e => hx.2.1 e.symm), hereOf_none hx.2.2.2.2, hr]
        rfl
      · rw [if_neg h2]
        simp only [hereOf]
        by_cases h3 : m.key = x
        · rw [if_pos h3, if_pos h3]
          refine congrArg some (body_equiv (hb (fun e => hx.2.2.1 ?_) _) env noVia _)
          rw [Option.some.injEq, Prod.mk.injEq] at e
          rw [← h3, e.1]
        · rw [if_neg h3, if_neg h3, ihk h.kids, hr]

theorem instOf_placed {p q : Option (Nat × Kind)} {f : Forest} (hf : f.UniqueKeys) {l : Node} {lk : Forest} (h : (q, l, lk) ∈ placed p f)
    (env : Env P) (via : Attrs P) (c : Ctx) : instOf π env via c l.key f = some (body π env via c l (pics π env (c.enter l) lk)) := by
  induction f generalizing p with
  | nil => cases h
  | cons n a b iha ihb =>
    obtain ⟨h1, h2, h3, h4, h5⟩ := nodup_cons hf
    simp only [placed, List.mem_cons, List.mem_append, Prod.mk.injEq] at h
    simp only [instOf]
    rcases h with ⟨_, rfl, rfl⟩ | h | h
    · simp
    · have hk : l.key ∈ a.keys := Forest.key_mem (placed_nodes h).1
      rw [if_neg (by rintro e; exact h1 (e ▸ hk)), iha h3 h]
      rfl
    · have hk : l.key ∈ b.keys := Forest.key_mem (placed_nodes h).1
      rw [if_neg (by rintro e; exact h2 (e ▸ hk)), instOf_none (fun e => h5 _ e hk), ihb h4 h]
      rfl

end

/-! ### One step -/

/-- The `use` element `n` and the element `l` are ready to be swapped. -/
structure Ready (f : Forest) (n l : Node) (kn lk : Forest) (q : Nat × Kind) (d : Nat) : Prop where
  use : (some q, n, kn) ∈ placed none f
  link : (some (d, .elem .defs), l, lk) ∈ placed none f
  kind : n.kind = .elem .use
  kind' : l.kind ≠ .elem .use
  href : n.get .xlinkHref = some (.link l.key)
  unused : f.isUsed n.key = false
  once : ∀ m ∈ f.nodes, l.key ∈ m.links → m = n
  only : l.key ∉ (n.rm .xlinkHref).links
  inUse : ∀ m ∈ kn.nodes, f.isUsed m.key = false ∧ m.kind ≠ .elem .use
  inLink : ∀ m ∈ lk.nodes, f.isUsed m.key = false
  defs : f.isUsed d = false
  fits : Fits n l q.2

theorem get_link {n : Node} {a : AId} {k : Nat} (h : n.get a = some (.link k)) : k ∈ n.links := by
  unfold Node.get at h
  cases hx : getAttr n.attrs (.id a) with
  | none => rw [hx] at h; cases h
  | some y =>
    rw [hx] at h
    simp only [Option.map_some, Option.some.injEq] at h
    exact Render.mem_links hx (by rw [h]; rfl)

section
variable {f : Forest} {n n' l : Node} {kn lk : Forest} {q : Nat × Kind} {d : Nat}

theorem Ready.used (h : Ready f n l kn lk q d) : f.isUsed l.key = true :=
  Forest.isUsed_iff.2 ⟨n, (placed_nodes h.use).1, get_link h.href⟩

theorem Ready.ne (h : Ready f n l kn lk q d) : n.key ≠ l.key := by
  intro e
  have := h.used
  rw [← e, h.unused] at this
  cases this

theorem Ready.outside (h : Ready f n l kn lk q d) (hf : f.UniqueKeys) (hc : Acyclic f) : n.key ∉ lk.keys := by
  intro e
  obtain ⟨r, hr⟩ := hc
  obtain ⟨m, hm, he⟩ := Forest.mem_keys.1 e
  obtain ⟨_, b⟩ := hr.node (placed_subs h.link) h.used
  have : m = n := Forest.eq_of_key hf ((placed_nodes h.link).2 m hm) (placed_nodes h.use).1 he
  subst this
  exact absurd (b m hm _ (get_link h.href)) (lt_irrefl _)

theorem Ready.spots (h : Ready f n l kn lk q d) (hf : f.UniqueKeys) : Spots n l kn lk d none f := by
  refine ⟨fun p m mk hm hk => ?_, fun p m mk hm hk => ?_⟩
  · obtain ⟨rfl, rfl, rfl⟩ := placed_unique hf hm h.use hk
    exact ⟨rfl, rfl, h.fits⟩
  · obtain ⟨rfl, rfl, rfl⟩ := placed_unique hf hm h.link hk
    exact ⟨rfl, rfl⟩

theorem copyAttrs_links {x : Nat} {l : Node} {as : List Attr} (h : x ∈ (copyAttrs l as).links) : x ∈ l.links ∨ x ∈ as.filterMap (fun y => y.value.target) := by
  obtain ⟨y, hy, he⟩ := List.mem_filterMap.1 h
  rcases copyAttrs_mem hy with hy | hy
  · exact Or.inr (List.mem_filterMap.2 ⟨y, hy, he⟩)
  · exact Or.inl (List.mem_filterMap.2 ⟨y, hy, he⟩)

/-- What is referred to afterwards was referred to before by an element other than the `use` element, or by another attribute of it. -/
theorem Ready.swap_links (h : Ready f n l kn lk q d) (ho : n.key ∉ lk.keys) (hl : ∀ x ∈ n'.links, x ∈ (n.rm .xlinkHref).links) {m : Node}
    (hm : m ∈ (swap n.key l.key (copyAttrs l n'.attrs) lk f).nodes) {x : Nat} (hx : x ∈ m.links) :
    x ≠ l.key ∧ ((m ∈ f.nodes ∧ m ≠ n) ∨ (m = copyAttrs l n'.attrs ∧ (x ∈ l.links ∨ x ∈ (n.rm .xlinkHref).links))) := by
  have old : ∀ m ∈ f.nodes, m ≠ n → x ∈ m.links → x ≠ l.key := fun m hm hne hx e => hne (h.once m hm (e ▸ hx))
  have hnl : l ≠ n := fun e => h.ne (by rw [e])
  have hnk : ∀ m ∈ lk.nodes, m ≠ n := fun m hm e => ho (e ▸ Forest.key_mem hm)
  rcases swap_nodes hm with ⟨h1, h2, h3⟩ | ⟨_, rfl | h1⟩
  · have hne : m ≠ n := fun e => h2 (by rw [e])
    exact ⟨old m h1 hne hx, Or.inl ⟨h1, hne⟩⟩
  · rcases copyAttrs_links hx with hx | hx
    · exact ⟨old l (placed_nodes h.link).1 hnl hx, Or.inr ⟨rfl, Or.inl hx⟩⟩
    · have := hl x hx
      exact ⟨fun e => h.only (e ▸ this), Or.inr ⟨rfl, Or.inr this⟩⟩
  · exact ⟨old m ((placed_nodes h.link).2 m h1) (hnk m h1) hx, Or.inl ⟨(placed_nodes h.link).2 m h1, hnk m h1⟩⟩

theorem Ready.swap_used (h : Ready f n l kn lk q d) (ho : n.key ∉ lk.keys) (hl : ∀ x ∈ n'.links, x ∈ (n.rm .xlinkHref).links) {x : Nat}
    (hx : (swap n.key l.key (copyAttrs l n'.attrs) lk f).isUsed x = true) : f.isUsed x = true ∧ x ≠ l.key := by
  obtain ⟨m, hm, hx⟩ := Forest.isUsed_iff.1 hx
  obtain ⟨h1, h2⟩ := h.swap_links ho hl hm hx
  refine ⟨Forest.isUsed_iff.2 ?_, h1⟩
  rcases h2 with ⟨h2, _⟩ | ⟨_, h2 | h2⟩
  · exact ⟨m, h2, hx⟩
  · exact ⟨l, (placed_nodes h.link).1, h2⟩
  · exact ⟨n, (placed_nodes h.use).1, Node.links_rm_subset _ _ h2⟩

/-- What is referred to afterwards is neither of the two elements, nor in one of them, nor the `defs` element. -/
theorem Ready.far (h : Ready f n l kn lk q d) (ho : n.key ∉ lk.keys) (hl : ∀ x ∈ n'.links, x ∈ (n.rm .xlinkHref).links) {x : Nat}
    (hx : (swap n.key l.key (copyAttrs l n'.attrs) lk f).isUsed x = true) :
    x ≠ n.key ∧ x ≠ l.key ∧ x ≠ d ∧ x ∉ kn.keys ∧ x ∉ lk.keys := by
  obtain ⟨hu, hne⟩ := h.swap_used ho hl hx
  have out : ∀ {y}, f.isUsed y = false → x ≠ y := by
    rintro y hy rfl
    rw [hu] at hy; cases hy
  refine ⟨out h.unused, hne, out h.defs, fun e => ?_, fun e => ?_⟩
  · obtain ⟨m, hm, he⟩ := Forest.mem_keys.1 e
    exact out (h.inUse m hm).1 he.symm
  · obtain ⟨m, hm, he⟩ := Forest.mem_keys.1 e
    exact out (h.inLink m hm) he.symm

theorem unlink_none {m : Node} {s : Nat → Bool} (h : ∀ x ∈ m.links, s x = false) : m.unlink s = m := by
  have : (m.unlink s).attrs = m.attrs := by
    refine List.filter_eq_self.2 (fun x hx => ?_)
    cases ht : x.value.target with
    | none => rfl
    | some k => simp [h k (List.mem_filterMap.2 ⟨x, hx, ht⟩)]
  show ({ m with attrs := (m.unlink s).attrs } : Node) = m
  rw [this]

/-- The step of the code is a swap. -/
theorem Ready.step (h : Ready f n l kn lk q d) (hf : f.UniqueKeys) (ha : UniqueAttrs f) (hc : Acyclic f) :
    ∃ n', (∀ {P : Type} (π : Painter P), Shifted π n n') ∧
      resolveOne f (n, l.key) = some (swap n.key l.key (copyAttrs l n'.attrs) lk f) := by
  have hn := (placed_nodes h.use).1
  have ho := h.outside hf hc
  obtain ⟨n', h1, h2, h3⟩ := shifted_some (ha n hn) h.fits.units
  refine ⟨n', h3, ?_⟩
  have hl : ∀ x ∈ n'.links, x ∈ (n.rm .xlinkHref).links := (h3 scribe).links
  unfold resolveOne
  simp only [Forest.find_of_mem hf hn, subtree_placed hf h.link, h1]
  rw [if_neg (by simp only [List.mem_cons, not_or]; exact ⟨h.ne, ho⟩)]
  congr 1
  have hk : (copyAttrs l n'.attrs).key = l.key := (copyAttrs_same _ _).1
  unfold Forest.remove
  rw [surgery h.ne hk ho hf]
  refine Forest.map_id' (fun m hm => ?_)
  refine unlink_none (fun x hx => ?_)
  simp only [decide_eq_false_iff_not]
  intro hp
  obtain ⟨q', m', k', a, b, c⟩ := pruned_sub (p := none) (by rw [hk]; exact h.ne.symm) ho hf hp
  obtain ⟨_, rfl, rfl⟩ := placed_unique hf a h.use b
  have hfar := h.far ho hl (Forest.isUsed_iff.2 ⟨m, hm, hx⟩)
  rcases c with c | c
  · exact hfar.1 c
  · exact hfar.2.2.2.1 c

theorem ranked_none {v : Nat → Prop} {r : Nat → Nat} {g : Forest} (h : ∀ x ∈ g.keys, ¬ v x) (up : List Nat) : Ranked v r up g := by
  induction g generalizing up with
  | nil => trivial
  | cons m mk t ihk ihr =>
    simp only [Forest.keys_cons, List.mem_cons, List.mem_append] at h
    exact ⟨fun e => absurd e (h _ (Or.inl rfl)), ihk (fun x hx => h x (Or.inr (Or.inl hx))) _, ihr (fun x hx => h x (Or.inr (Or.inr hx))) _⟩

theorem swap_ranked {v v' : Nat → Prop} {r : Nat → Nat} {l' : Node} (hv : ∀ x, v' x → v x ∧ x ≠ l.key ∧ x ∉ lk.keys) (hl : l'.key = l.key)
    (hlow : ∀ m, m = l' ∨ m ∈ lk.nodes → ∀ x ∈ m.links, r x < r l.key ∨ x ∈ n.links) (hk : l.key ∈ n.links)
    {up : List Nat} {g : Forest} (hu : ∀ m ∈ g.nodes, m.key = n.key → m = n)
    (hg : Ranked v r up g) : Ranked v' r up (swap n.key l.key l' lk g) := by
  induction g generalizing up with
  | nil => trivial
  | cons m mk t ihk ihr =>
    obtain ⟨h0, h1, h2⟩ := hg
    have hk' := ihk (fun x hx => hu x (by simp [hx])) h1
    have hr' := ihr (fun x hx => hu x (by simp [hx])) h2
    simp only [swap]
    by_cases e1 : m.key = n.key
    · rw [if_pos e1]
      exact ⟨fun e => absurd hl (hv _ e).2.1, ranked_none (fun x hx e => (hv _ e).2.2 hx) _, hr'⟩
    · rw [if_neg e1]
      by_cases e2 : m.key = l.key
      · rw [if_pos e2]; exact hr'
      · rw [if_neg e2]
        refine ⟨fun e => ?_, hk', hr'⟩
        obtain ⟨a, b, c⟩ := h0 (hv _ e).1
        refine ⟨a, b, fun y hy x hx => ?_⟩
        rcases swap_nodes hy with ⟨hy', _⟩ | ⟨hn, hy'⟩
        · exact c y hy' x hx
        · obtain ⟨z, hz, he⟩ := Forest.mem_keys.1 hn
          have : z = n := hu z (by simp [hz]) he
          subst this
          rcases hlow y hy' x hx with h | h
          · exact lt_trans h (c z hz _ hk)
          · exact c z hz x h

theorem Ready.acyclic (h : Ready f n l kn lk q d) (hf : f.UniqueKeys) (hc : Acyclic f) (hl : ∀ x ∈ n'.links, x ∈ (n.rm .xlinkHref).links) :
    Acyclic (swap n.key l.key (copyAttrs l n'.attrs) lk f) := by
  have ho := h.outside hf hc
  obtain ⟨r, hr⟩ := hc
  obtain ⟨a, b⟩ := hr.node (placed_subs h.link) h.used
  refine ⟨r, swap_ranked (n := n) (v := fun k => f.isUsed k = true) (fun x hx => ?_) (copyAttrs_same _ _).1 ?_ (get_link h.href) ?_ hr⟩
  · have := h.far ho hl hx
    exact ⟨(h.swap_used ho hl hx).1, this.2.1, this.2.2.2.2⟩
  · rintro m (rfl | hm) x hx
    · rcases copyAttrs_links hx with hx | hx
      · exact Or.inl (a x hx)
      · exact Or.inr (Node.links_rm_subset _ _ (hl x hx))
    · exact Or.inl (b m hm x hx)
  · exact fun m hm e => Forest.eq_of_key hf hm (placed_nodes h.use).1 e

/-- **One step keeps the picture.** -/
theorem Ready.look (h : Ready f n l kn lk q d) (hf : f.UniqueKeys) (hc : Acyclic f) (hs : ∀ {P : Type} (π : Painter P), Shifted π n n') :
    SameView f (swap n.key l.key (copyAttrs l n'.attrs) lk f) := by
  have hl : ∀ x ∈ n'.links, x ∈ (n.rm .xlinkHref).links := (hs scribe).links
  have ho := h.outside hf hc
  refine sameView_of hc (h.acyclic hf hc hl) (fun {P} π E hE => ?_)
  have hinst : ∀ c via, E.inst l.key c via = body π E via c l (pics π E (c.enter l) lk) := by
    intro c via
    conv_lhs => rw [hE]
    show (instOf π E via c l.key f).getD _ = _
    rw [instOf_placed hf h.link]
    rfl
  have sp := h.spots hf
  refine ⟨?_, fun via c k hk => swap_inst h.kind h.href (hs π) E hinst sp (h.far ho hl hk) via c,
    fun k hk => swap_here h.kind h.href (hs π) E hinst sp (h.far ho hl hk) _⟩
  have := (swap_pics h.kind h.href (hs π) E hinst sp (by simp) Ctx.start).strict rfl
  rw [this]

theorem Ready.attrs (h : Ready f n l kn lk q d) (ha : UniqueAttrs f) : UniqueAttrs (swap n.key l.key (copyAttrs l n'.attrs) lk f) := by
  intro m hm
  rcases swap_nodes hm with ⟨h1, _⟩ | ⟨_, rfl | h1⟩
  · exact ha m h1
  · exact copyAttrs_names _ (ha l (placed_nodes h.link).1)
  · exact ha m ((placed_nodes h.link).2 m h1)

/-- Another `use` element is still ready. -/
theorem Ready.keep {n₂ l₂ : Node} {kn₂ lk₂ : Forest} {q₂ : Nat × Kind} {d₂ : Nat} (h : Ready f n l kn lk q d) (hf : f.UniqueKeys) (hc : Acyclic f)
    (hl : ∀ x ∈ n'.links, x ∈ (n.rm .xlinkHref).links) (h2 : Ready f n₂ l₂ kn₂ lk₂ q₂ d₂) (hne : n.key ≠ n₂.key) :
    Ready (swap n.key l.key (copyAttrs l n'.attrs) lk f) n₂ l₂ kn₂ (swap n.key l.key (copyAttrs l n'.attrs) lk lk₂) q₂ d₂ := by
  have ho := h.outside hf hc
  have hn := (placed_nodes h.use).1
  have hn2 := (placed_nodes h2.use).1
  have hl1 := (placed_nodes h.link).1
  have hl2 := (placed_nodes h2.link).1
  have hkeys : l₂.key ≠ l.key := fun e => hne (by rw [h.once n₂ hn2 (e ▸ get_link h2.href)])
  have hn2l : n₂.key ≠ l.key := by
    intro e
    have : n₂ = l := Forest.eq_of_key hf hn2 hl1 e
    exact h.kind' (this ▸ h2.kind)
  have hl2n : l₂.key ≠ n.key := by
    intro e
    have := h2.used
    rw [e, h.unused] at this
    cases this
  -- the two elements are the only ones with their keys
  have two : ∀ {Q : Node → Forest → Prop} {k : Nat}, Q n kn → Q l lk → ∀ q m mk, (q, m, mk) ∈ placed none f → m.key = n.key ∨ m.key = l.key → Q m mk := by
    intro Q _ h3 h4 q m mk hm he
    rcases he with he | he
    · obtain ⟨_, rfl, rfl⟩ := placed_unique hf hm h.use he; exact h3
    · obtain ⟨_, rfl, rfl⟩ := placed_unique hf hm h.link he; exact h4
  have hmono : ∀ {x}, f.isUsed x = false → (swap n.key l.key (copyAttrs l n'.attrs) lk f).isUsed x = false := by
    intro x hx
    cases hy : (swap n.key l.key (copyAttrs l n'.attrs) lk f).isUsed x with
    | false => rfl
    | true => rw [(h.swap_used ho hl hy).1] at hx; cases hx
  have kn2n : n.key ∉ kn₂.keys := by
    intro e
    obtain ⟨m, hm, he⟩ := Forest.mem_keys.1 e
    have : m = n := Forest.eq_of_key hf ((placed_nodes h2.use).2 m hm) hn he
    exact (h2.inUse m hm).2 (this ▸ h.kind)
  have kn2l : l.key ∉ kn₂.keys := by
    intro e
    obtain ⟨m, hm, he⟩ := Forest.mem_keys.1 e
    have := (h2.inUse m hm).1
    rw [he, h.used] at this
    cases this
  have knn2 : n₂.key ∉ kn.keys := by
    intro e
    obtain ⟨m, hm, he⟩ := Forest.mem_keys.1 e
    have : m = n₂ := Forest.eq_of_key hf ((placed_nodes h.use).2 m hm) hn2 he
    exact (h.inUse m hm).2 (this ▸ h2.kind)
  have usedOut : ∀ {x}, f.isUsed x = true → x ∉ kn.keys ∧ x ∉ lk.keys := by
    intro x hx
    refine ⟨fun e => ?_, fun e => ?_⟩
    · obtain ⟨m, hm, he⟩ := Forest.mem_keys.1 e
      have := (h.inUse m hm).1
      rw [he, hx] at this; cases this
    · obtain ⟨m, hm, he⟩ := Forest.mem_keys.1 e
      have := h.inLink m hm
      rw [he, hx] at this; cases this
  have selfOut : n.key ∉ kn.keys := by
    intro e
    obtain ⟨m, hm, he⟩ := Forest.mem_keys.1 e
    have : m = n := Forest.eq_of_key hf ((placed_nodes h.use).2 m hm) hn he
    exact (h.inUse m hm).2 (this ▸ h.kind)
  refine ⟨?_, ?_, h2.kind, h2.kind', h2.href, hmono h2.unused, ?_, h2.only, ?_, ?_, hmono h2.defs, h2.fits⟩
  · by_cases hin : n₂.key ∈ lk.keys
    · obtain ⟨m, hm, he⟩ := Forest.mem_keys.1 hin
      have : m = n₂ := Forest.eq_of_key hf ((placed_nodes h.link).2 m hm) hn2 he
      subst this
      obtain ⟨q', k', hp⟩ := exists_placed hm (some (l.key, l.kind))
      obtain ⟨rfl, _, rfl⟩ := placed_unique hf (placed_inner h.link hp) h2.use rfl
      refine swap_inner h.use rfl (two (Q := fun m mk => n.key ∉ mk.keys) (k := 0) selfOut ho) h.ne ?_
      rw [(copyAttrs_same _ _).1, (copyAttrs_same _ _).2]
      exact hp
    · have := swap_placed (l := copyAttrs l n'.attrs) (lk := lk) h2.use (Ne.symm hne) hn2l
        (two (Q := fun m mk => n₂.key ∉ mk.keys) (k := 0) knn2 hin)
      rwa [swap_absent kn2n kn2l] at this
  · exact swap_placed h2.link hl2n hkeys (two (Q := fun m mk => l₂.key ∉ mk.keys) (k := 0) (usedOut h2.used).1 (usedOut h2.used).2)
  · intro m hm hx
    obtain ⟨_, h3⟩ := h.swap_links ho hl hm hx
    rcases h3 with ⟨h3, _⟩ | ⟨_, h3 | h3⟩
    · exact h2.once m h3 hx
    · exact absurd (h2.once l hl1 h3) (fun e => hn2l (by rw [e]))
    · exact absurd (h2.once n hn (Node.links_rm_subset _ _ h3)) (fun e => hne (by rw [e]))
  · exact fun m hm => ⟨hmono (h2.inUse m hm).1, (h2.inUse m hm).2⟩
  · intro m hm
    rcases swap_nodes hm with ⟨h3, _⟩ | ⟨_, rfl | h3⟩
    · exact hmono (h2.inLink m h3)
    · rw [(copyAttrs_same _ _).1]
      cases hy : (swap n.key l.key (copyAttrs l n'.attrs) lk f).isUsed l.key with
      | false => rfl
      | true => exact absurd rfl (h.swap_used ho hl hy).2
    · exact hmono (h.inLink m h3)

end

/-! ### All of them -/

theorem resolveAll_look : ∀ (ps : List (Node × Nat)) (f : Forest), f.UniqueKeys → UniqueAttrs f → Acyclic f →
    (ps.map (fun p => p.1.key)).Nodup → (∀ p ∈ ps, ∃ l kn lk q d, Ready f p.1 l kn lk q d ∧ l.key = p.2) →
    ∃ g, resolveAll ps f = some g ∧ SameView f g
  | [], f, _, _, _, _, _ => ⟨f, rfl, (SameLook.refl f).view⟩
  | (n, k) :: ps, f, hu, ha, hc, hn, hr => by
    obtain ⟨l, kn, lk, q, d, h, hk⟩ := hr _ (List.mem_cons_self ..)
    simp only at hk h
    subst hk
    obtain ⟨n', hs, hstep⟩ := h.step hu ha hc
    have hl : ∀ x ∈ n'.links, x ∈ (n.rm .xlinkHref).links := (hs scribe).links
    simp only [List.map_cons, List.nodup_cons] at hn
    have huk : (swap n.key l.key (copyAttrs l n'.attrs) lk f).UniqueKeys :=
      swap_unique h.ne (copyAttrs_same _ _).1 hu h.link (h.outside hu hc) (Forest.key_mem (placed_nodes h.use).1)
    obtain ⟨g, hg, hv⟩ := resolveAll_look ps (swap n.key l.key (copyAttrs l n'.attrs) lk f) huk (h.attrs ha) (h.acyclic hu hc hl) hn.2 (by
      intro p hp
      obtain ⟨l2, kn2, lk2, q2, d2, h2, hk2⟩ := hr p (List.mem_cons_of_mem _ hp)
      exact ⟨l2, kn2, _, q2, d2, h.keep hu hc hl h2 (fun e => hn.1 (List.mem_map.2 ⟨p, hp, e.symm⟩)), hk2⟩)
    exact ⟨g, by simp only [resolveAll, hstep, Option.bind_some]; exact hg, (h.look hu hc hs).trans hv⟩

/-- A document whose `use` elements can be replaced. -/
structure Resolvable (f : Forest) : Prop where
  keys : f.UniqueKeys
  attrs : UniqueAttrs f
  acyclic : Acyclic f
  /-- For a `use` element that the task replaces: the element `l` fits; inside of the two, nothing is referred to, and nothing refers
  to the `defs` element. -/
  each : ∀ q n kn, (q, n, kn) ∈ placed none f → n.kind = .elem .use → ∀ k, target f n = some k →
    ∀ q' l lk, (q', l, lk) ∈ placed none f → l.key = k →
      Fits n l (kindOf q) ∧ (∀ m ∈ kn.nodes, f.isUsed m.key = false ∧ m.kind ≠ .elem .use) ∧ (∀ m ∈ lk.nodes, f.isUsed m.key = false) ∧
      ∀ d, q' = some d → f.isUsed d.1 = false

theorem underDefs_placed {k : Nat} {f : Forest} (hf : f.UniqueKeys) {p q : Option (Nat × Kind)} {b : Bool} (hb : b = true → kindOf p = .elem .defs)
    (h : underDefs k b f = true) {l : Node} {lk : Forest} (hl : (q, l, lk) ∈ placed p f) (hk : l.key = k) : kindOf q = .elem .defs := by
  have hno : ∀ {g : Forest} {b : Bool}, k ∉ g.keys → underDefs k b g = false := by
    intro g
    induction g with
    | nil => intro _ _; rfl
    | cons n a c iha ihc =>
      intro b hg
      simp only [Forest.keys_cons, List.mem_cons, List.mem_append, not_or] at hg
      simp only [underDefs]
      rw [iha hg.2.1, ihc hg.2.2, if_neg (fun e => hg.1 e.symm)]
      rfl
  induction f generalizing p b with
  | nil => cases hl
  | cons n a c iha ihc =>
    obtain ⟨h1, h2, h3, h4, h5⟩ := nodup_cons hf
    simp only [placed, List.mem_cons, List.mem_append, Prod.mk.injEq] at hl
    simp only [underDefs] at h
    rcases hl with ⟨rfl, rfl, rfl⟩ | hl | hl
    · rw [if_pos hk] at h
      exact hb h
    · have hka : k ∈ a.keys := hk ▸ Forest.key_mem (placed_nodes hl).1
      rw [if_neg (by rintro e; exact h1 (e ▸ hka)), hno (h5 _ hka), Bool.or_false] at h
      exact iha h3 (fun e => (Node.isTag_iff _ _).1 e) h hl
    · have hkc : k ∈ c.keys := hk ▸ Forest.key_mem (placed_nodes hl).1
      rw [if_neg (by rintro e; exact h2 (e ▸ hkc)), hno (fun e => h5 _ e hkc), Bool.false_or] at h
      exact ihc h4 hb h hl

theorem flatMap_one {α β : Type} {l : List α} {g : α → List β} (h : (l.flatMap g).length = 1) {x y : α} (hx : x ∈ l) (hy : y ∈ l) (hgx : g x ≠ [])
    (hgy : g y ≠ []) : x = y ∧ (g x).length = 1 := by
  induction l with
  | nil => cases hx
  | cons a t ih =>
    rw [List.flatMap_cons, List.length_append] at h
    have pos : ∀ {z}, z ∈ t → g z ≠ [] → 0 < (t.flatMap g).length := by
      intro z hz hgz
      rw [List.length_pos_iff]
      intro e
      obtain ⟨b, hb⟩ := List.exists_mem_of_ne_nil _ hgz
      have : b ∈ t.flatMap g := List.mem_flatMap.2 ⟨z, hz, hb⟩
      rw [e] at this
      cases this
    have pos' : ∀ {z}, g z ≠ [] → 0 < (g z).length := fun h => List.length_pos_iff.2 h
    rcases List.mem_cons.1 hx with ex | hx' <;> rcases List.mem_cons.1 hy with ey | hy'
    · subst ex; subst ey; exact ⟨rfl, by have := pos' hgx; omega⟩
    · subst ex; have := pos' hgx; have := pos hy' hgy; omega
    · subst ey; have := pos' hgy; have := pos hx' hgx; omega
    · by_cases ht : (t.flatMap g).length = 1
      · exact ih ht hx' hy'
      · have := pos hx' hgx; omega

theorem count_links {n : Node} {k : Nat} (h : n.get .xlinkHref = some (.link k)) (hk : k ∈ (n.rm .xlinkHref).links) :
    2 ≤ (n.links.filter (fun x => decide (x = k))).length := by
  have key : ∀ as : List Attr, (getAttr as (.id .xlinkHref)).map (·.value) = some (.link k) →
      k ∈ (rmAttr as (.id .xlinkHref)).filterMap (fun x => x.value.target) →
      2 ≤ ((as.filterMap (fun x => x.value.target)).filter (fun x => decide (x = k))).length := by
    intro as
    induction as with
    | nil => intro h _; cases h
    | cons x t ih =>
      intro h1 h2
      rw [Ungroup.getAttr_cons] at h1
      by_cases hx : x.name = .id .xlinkHref
      · rw [if_pos hx] at h1
        simp only [Option.map_some, Option.some.injEq] at h1
        have ht : x.value.target = some k := by rw [h1]; rfl
        rw [List.filterMap_cons_some (f := fun x : Attr => x.value.target) (a := x) ht, List.filter_cons_of_pos (by simp), List.length_cons]
        have h3 : k ∈ t.filterMap (fun x => x.value.target) := by
          obtain ⟨y, hy, he⟩ := List.mem_filterMap.1 h2
          unfold rmAttr at hy
          rw [List.filter_cons_of_neg (by simp [hx])] at hy
          exact List.mem_filterMap.2 ⟨y, (List.mem_filter.1 hy).1, he⟩
        have : 0 < ((t.filterMap (fun x => x.value.target)).filter (fun x => decide (x = k))).length :=
          List.length_pos_iff.2 (List.ne_nil_of_mem (List.mem_filter.2 ⟨h3, by simp⟩))
        omega
      · rw [if_neg hx] at h1
        unfold rmAttr at h2
        rw [List.filter_cons_of_pos (by simpa using hx)] at h2
        by_cases hxk : x.value.target = some k
        · rw [List.filterMap_cons_some (f := fun x : Attr => x.value.target) (a := x) hxk, List.filter_cons_of_pos (by simp), List.length_cons]
          have h3 : k ∈ t.filterMap (fun x => x.value.target) := by
            cases hg : getAttr t (.id .xlinkHref) with
            | none => rw [hg] at h1; cases h1
            | some y =>
              rw [hg] at h1
              simp only [Option.map_some, Option.some.injEq] at h1
              exact List.mem_filterMap.2 ⟨y, getAttr_mem hg, by rw [h1]; rfl⟩
          have : 0 < ((t.filterMap (fun x => x.value.target)).filter (fun x => decide (x = k))).length :=
            List.length_pos_iff.2 (List.ne_nil_of_mem (List.mem_filter.2 ⟨h3, by simp⟩))
          omega
        · have h3 : k ∈ (rmAttr t (.id .xlinkHref)).filterMap (fun x => x.value.target) := by
            obtain ⟨y, hy, he⟩ := List.mem_filterMap.1 h2
            rcases List.mem_cons.1 hy with rfl | hy
            · exact absurd he hxk
            · exact List.mem_filterMap.2 ⟨y, hy, he⟩
          have := ih h1 h3
          cases hv : x.value.target with
          | none => rw [List.filterMap_cons_none (f := fun x : Attr => x.value.target) (a := x) hv]; exact this
          | some j =>
            rw [List.filterMap_cons_some (f := fun x : Attr => x.value.target) (a := x) hv, List.filter_cons_of_neg (by simp; rintro rfl; exact hxk hv)]
            exact this
  exact key n.attrs h hk

theorem target_spec {f : Forest} {n : Node} {k : Nat} (h : target f n = some k) :
    f.isUsed n.key = false ∧ n.get .xlinkHref = some (.link k) ∧ (∃ l, f.find k = some l ∧ l.kind ≠ .elem .use ∧ l.kind ≠ .elem .symbol) ∧
      underDefs k false f = true ∧ f.usesCount k = 1 := by
  unfold target at h
  split at h
  · cases h
  next hu =>
    split at h
    next k' hk' =>
      split at h
      · cases h
      next l hl =>
        split at h
        · cases h
        next h1 =>
          split at h
          · cases h
          next h2 =>
            split at h
            · cases h
            next h3 =>
              split at h
              · cases h
              next h4 =>
                cases h
                refine ⟨by simpa using hu, hk', ⟨l, hl, ?_, ?_⟩, by simpa using h1, by simpa using h4⟩
                · exact fun e => h3 ((Node.isTag_iff _ _).2 e)
                · exact fun e => h2 ((Node.isTag_iff _ _).2 e)
    next => cases h

theorem Resolvable.ready {f : Forest} (hf : Resolvable f) {n : Node} (hn : n ∈ f.nodes) (hk : n.kind = .elem .use) {k : Nat} (ht : target f n = some k) :
    ∃ l kn lk q d, Ready f n l kn lk q d ∧ l.key = k := by
  obtain ⟨h1, h2, ⟨l, hl, h3, _⟩, h4, h5⟩ := target_spec ht
  obtain ⟨hlm, hlk⟩ := Forest.find_some hl
  obtain ⟨q, kn, hpn⟩ := exists_placed hn none
  obtain ⟨q', lk, hpl⟩ := exists_placed hlm none
  obtain ⟨a, b, c, e⟩ := hf.each q n kn hpn hk k ht q' l lk hpl hlk
  have hq' := underDefs_placed hf.keys (p := none) (by simp) h4 hpl hlk
  obtain ⟨⟨d, kd⟩, rfl⟩ : ∃ x, q' = some x := by
    cases q' with
    | none => cases hq'
    | some x => exact ⟨x, rfl⟩
  have hkd : kd = .elem .defs := hq'
  subst hkd
  obtain ⟨x, rfl⟩ : ∃ x, q = some x := by
    cases q with
    | none => exact absurd a.place (by decide)
    | some x => exact ⟨x, rfl⟩
  have h5' : (f.nodes.flatMap (fun n => (n.links.filter (fun x => decide (x = k))).map (fun _ => n))).length = 1 := h5
  have hne : ∀ {m : Node}, k ∈ m.links → (m.links.filter (fun x => decide (x = k))).map (fun _ => m) ≠ [] := by
    intro m hm e
    have : k ∈ m.links.filter (fun x => decide (x = k)) := List.mem_filter.2 ⟨hm, by simp⟩
    rw [List.map_eq_nil_iff.1 e] at this
    cases this
  refine ⟨l, kn, lk, x, d, ⟨hpn, hpl, hk, h3, by rw [hlk]; exact h2, h1, ?_, ?_, b, c, e _ rfl, a⟩, hlk⟩
  · intro m hm hx
    rw [hlk] at hx
    exact (flatMap_one h5' hm hn (hne hx) (hne (get_link h2))).1
  · rw [hlk]
    intro hx
    have := (flatMap_one h5' hn hn (hne (get_link h2)) (hne (get_link h2))).2
    rw [List.length_map] at this
    have := count_links h2 hx
    omega

theorem pairs_nodup {f : Forest} (h : f.UniqueKeys) : ((pairs f).map (fun p => p.1.key)).Nodup := by
  unfold pairs
  have : ∀ l : List Node, (((l.filterMap fun n => (target f n).map fun k => (n, k))).map (fun p => p.1.key)).Sublist (l.map (·.key)) := by
    intro l
    induction l with
    | nil => exact List.Sublist.refl _
    | cons n t ih =>
      cases ht : target f n with
      | none =>
        rw [List.filterMap_cons_none (by rw [ht]; rfl)]
        exact ih.cons _
      | some k =>
        rw [List.filterMap_cons_some (by rw [ht]; rfl)]
        exact ih.cons_cons _
  exact ((this _).trans (List.Sublist.map _ List.filter_sublist)).nodup h

/-- C39, in full: replacing `use` elements keeps the picture. -/
def C39_full : Prop := ∀ f g : Forest, resolveUse f = some g → SameView f g

/-- **C39.** Replacing `use` elements with the elements they refer to keeps the picture (and never breaks the tree), if the two
have no common attributes, `x` and `y` are in user units, and so on (`Fits`). -/
theorem C39_look_partial {f : Forest} (hf : Resolvable f) : ∃ g, resolveUse f = some g ∧ SameView f g := by
  refine resolveAll_look (pairs f) f hf.keys hf.attrs hf.acyclic (pairs_nodup hf.keys) (fun p hp => ?_)
  obtain ⟨n, hn, he⟩ := List.mem_filterMap.1 hp
  obtain ⟨hm, hk⟩ := List.mem_filter.1 hn
  cases ht : target f n with
  | none => rw [ht] at he; cases he
  | some k =>
    rw [ht] at he
    cases he
    exact hf.ready hm ((Node.isTag_iff _ _).1 hk) ht

end Verif.ResolveUse
