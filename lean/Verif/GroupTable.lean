import Verif.GroupStyle
import Mathlib.Data.List.Nodup
import Mathlib.Data.List.Perm.Basic
/-
Property C37: the table of `group_by_style`.
-/
namespace Verif.GroupStyle
open Verif.Dom

/-- What the rows of the table say is so. -/
structure RowOk (anc nodes : List Node) (r : Row) : Prop where
  length : r.flags.length = nodes.length
  sound : ∀ (i : Nat) (n : Node), r.flags[i]? = some true → nodes[i]? = some n → ∀ x ∈ r.attrs, x ∈ n.attrs
  wanted : ∀ x ∈ r.attrs, ∃ n ∈ nodes, wants anc n x = true

structure TableOk (anc nodes : List Node) (t : List Row) : Prop where
  rows : ∀ r ∈ t, RowOk anc nodes r
  nodup : (t.flatMap (·.attrs)).Nodup

/-! ### Filling -/

theorem rowAttrs_spec (anc nodes : List Node) :
    (rowAttrs anc nodes).Nodup ∧ ∀ x ∈ rowAttrs anc nodes, ∃ n ∈ nodes, wants anc n x = true := by
  have inner : ∀ (n : Node) (as : List Attr) (t : List Attr), t.Nodup →
      (as.foldl (fun t x => if wants anc n x && !decide (x ∈ t) then t ++ [x] else t) t).Nodup ∧
      ∀ x ∈ as.foldl (fun t x => if wants anc n x && !decide (x ∈ t) then t ++ [x] else t) t, x ∈ t ∨ wants anc n x = true := by
    intro n as
    induction as with
    | nil => exact fun t ht => ⟨ht, fun x hx => .inl hx⟩
    | cons y l ih =>
      intro t ht
      simp only [List.foldl_cons]
      split
      next hc =>
        simp only [Bool.and_eq_true, Bool.not_eq_true', decide_eq_false_iff_not] at hc
        have hnd : (t ++ [y]).Nodup := by
          rw [List.nodup_append]
          refine ⟨ht, List.nodup_singleton y, fun a ha b hb => ?_⟩
          simp only [List.mem_singleton] at hb
          rintro rfl
          exact hc.2 (hb ▸ ha)
        obtain ⟨h1, h2⟩ := ih (t ++ [y]) hnd
        refine ⟨h1, fun x hx => ?_⟩
        rcases h2 x hx with h | h
        · rcases List.mem_append.1 h with h | h
          · exact .inl h
          · rw [List.mem_singleton.1 h]; exact .inr hc.1
        · exact .inr h
      next => exact ih t ht
  have outer : ∀ (l : List Node) (t : List Attr), t.Nodup → (∀ n ∈ l, n ∈ nodes) → (∀ x ∈ t, ∃ n ∈ nodes, wants anc n x = true) →
      (l.foldl (fun t n => n.attrs.foldl (fun t x => if wants anc n x && !decide (x ∈ t) then t ++ [x] else t) t) t).Nodup ∧
      ∀ x ∈ l.foldl (fun t n => n.attrs.foldl (fun t x => if wants anc n x && !decide (x ∈ t) then t ++ [x] else t) t) t,
        ∃ n ∈ nodes, wants anc n x = true := by
    intro l
    induction l with
    | nil => exact fun t ht _ h => ⟨ht, h⟩
    | cons n l ih =>
      intro t ht hl h
      simp only [List.foldl_cons]
      obtain ⟨h1, h2⟩ := inner n n.attrs t ht
      refine ih _ h1 (fun m hm => hl m (List.mem_cons_of_mem _ hm)) (fun x hx => ?_)
      rcases h2 x hx with h' | h'
      · exact h x h'
      · exact ⟨n, hl n (List.mem_cons_self ..), h'⟩
  exact outer nodes [] List.nodup_nil (fun _ h => h) (fun x hx => by cases hx)

theorem fill_ok (anc nodes : List Node) :
    TableOk anc nodes ((rowAttrs anc nodes).map fun x => ⟨[x], nodes.map fun n => decide (x ∈ n.attrs)⟩) := by
  obtain ⟨h1, h2⟩ := rowAttrs_spec anc nodes
  constructor
  · intro r hr
    obtain ⟨x, hx, rfl⟩ := List.mem_map.1 hr
    refine ⟨by simp, fun i n hi hn y hy => ?_, fun y hy => ?_⟩
    · rw [List.mem_singleton.1 hy]
      simp only [List.getElem?_map, hn, Option.map_some, Option.some.injEq, decide_eq_true_eq] at hi
      exact hi
    · rw [List.mem_singleton.1 hy]
      exact h2 x hx
  · have : ∀ l : List Attr, (l.map fun x => (⟨[x], nodes.map fun n => decide (x ∈ n.attrs)⟩ : Row)).flatMap (·.attrs) = l := by
      intro l
      induction l with
      | nil => rfl
      | cons x t ih => simp only [List.map_cons, List.flatMap_cons, ih, List.singleton_append]
    rw [this]
    exact h1

/-! ### Simplifying, sorting and joining -/

theorem zeroRuns_spec (c : Nat) (l : List Bool) :
    (zeroRuns c l).length = c + l.length ∧ ∀ i, (zeroRuns c l)[i]? = some true → i < c ∨ l[i - c]? = some true ∧ c ≤ i := by
  induction l generalizing c with
  | nil =>
    refine ⟨by simp [zeroRuns], fun i hi => ?_⟩
    left
    simp only [zeroRuns, List.getElem?_replicate] at hi
    split at hi
    next h => exact h
    next => cases hi
  | cons b t ih =>
    cases b with
    | true =>
      obtain ⟨h1, h2⟩ := ih (c + 1)
      refine ⟨by simp only [zeroRuns, h1, List.length_cons]; omega, fun i hi => ?_⟩
      simp only [zeroRuns] at hi
      rcases h2 i hi with h | ⟨h, h'⟩
      · by_cases hic : i < c
        · exact .inl hic
        · right
          have : i - c = 0 := by omega
          rw [this]
          exact ⟨rfl, by omega⟩
      · right
        have : i - c = (i - (c + 1)) + 1 := by omega
        rw [this, List.getElem?_cons_succ]
        exact ⟨h, by omega⟩
    | false =>
      obtain ⟨h1, h2⟩ := ih 0
      refine ⟨by simp only [zeroRuns, h1, List.length_append, List.length_replicate, List.length_cons]; omega, fun i hi => ?_⟩
      simp only [zeroRuns] at hi
      by_cases hic : i < c
      · exact .inl hic
      · right
        rw [List.getElem?_append_right (by simp; omega)] at hi
        simp only [List.length_replicate] at hi
        refine ⟨?_, by omega⟩
        cases hj : i - c with
        | zero => rw [hj] at hi; cases hi
        | succ j =>
          rw [hj, List.getElem?_cons_succ] at hi
          rw [List.getElem?_cons_succ]
          rcases h2 j hi with h | ⟨h, _⟩
          · omega
          · simpa using h

theorem filter_ok {anc nodes : List Node} {t : List Row} (h : TableOk anc nodes t) (p : Row → Bool) : TableOk anc nodes (t.filter p) :=
  ⟨fun r hr => h.rows r (List.mem_filter.1 hr).1, h.nodup.sublist (by
    induction t with
    | nil => exact List.Sublist.refl _
    | cons x t ih =>
      have ht : TableOk anc nodes t := ⟨fun r hr => h.rows r (List.mem_cons_of_mem _ hr), by
        have := h.nodup
        rw [List.flatMap_cons] at this
        exact (List.nodup_append.1 this).2.1⟩
      rw [List.filter_cons]
      split
      · rw [List.flatMap_cons, List.flatMap_cons]
        exact List.Sublist.append (List.Sublist.refl _) (ih ht)
      · rw [List.flatMap_cons]
        exact (ih ht).trans (List.sublist_append_right _ _))⟩

theorem zero_ok {anc nodes : List Node} {t : List Row} (h : TableOk anc nodes t) :
    TableOk anc nodes (t.map fun r => { r with flags := zeroRuns 0 r.flags }) := by
  constructor
  · intro r hr
    obtain ⟨s, hs, rfl⟩ := List.mem_map.1 hr
    obtain ⟨h1, h2⟩ := zeroRuns_spec 0 s.flags
    obtain ⟨g1, g2, g3⟩ := h.rows s hs
    refine ⟨by simp only [h1]; omega, fun i n hi hn x hx => ?_, g3⟩
    rcases h2 i hi with h' | ⟨h', _⟩
    · omega
    · exact g2 i n (by simpa using h') hn x hx
  · rw [List.flatMap_map]
    exact h.nodup

theorem simplify_ok {anc nodes : List Node} {t : List Row} (h : TableOk anc nodes t) : TableOk anc nodes (simplify t) :=
  filter_ok (zero_ok (filter_ok h _)) _

theorem simplify_count {t : List Row} : ∀ r ∈ simplify t, 2 ≤ count r.flags := by
  intro r hr
  simpa using (List.mem_filter.1 hr).2

theorem insertRow_perm (x : Row) (t : List Row) : (insertRow x t).Perm (x :: t) := by
  induction t with
  | nil => exact List.Perm.refl _
  | cons y t ih =>
    unfold insertRow
    split
    · exact List.Perm.refl _
    · exact (List.Perm.cons y ih).trans (List.Perm.swap x y t)

theorem sortRows_perm (t : List Row) : (sortRows t).Perm t := by
  induction t with
  | nil => exact List.Perm.refl _
  | cons x t ih => exact (insertRow_perm x _).trans (List.Perm.cons x ih)

theorem perm_ok {anc nodes : List Node} {t t' : List Row} (h : TableOk anc nodes t) (hp : t'.Perm t) : TableOk anc nodes t' :=
  ⟨fun r hr => h.rows r (hp.mem_iff.1 hr), (hp.flatMap_right _).nodup_iff.2 h.nodup⟩

theorem joinAt_ok {anc nodes : List Node} {r : Row} {t : List Row} (h : TableOk anc nodes (r :: t)) : TableOk anc nodes (joinAt r t) := by
  induction t generalizing r with
  | nil => exact h
  | cons s t ih =>
    have hr := h.rows r (List.mem_cons_self ..)
    have hs := h.rows s (List.mem_cons_of_mem _ (List.mem_cons_self ..))
    have hnd := h.nodup
    unfold joinAt
    split
    next he =>
      apply ih
      constructor
      · intro r' hr'
        rcases List.mem_cons.1 hr' with rfl | hr'
        · refine ⟨hr.length, fun i n hi hn x hx => ?_, fun x hx => ?_⟩
          · rcases List.mem_append.1 hx with hx | hx
            · exact hr.sound i n hi hn x hx
            · exact hs.sound i n (by rw [← he]; exact hi) hn x (List.mem_of_mem_take hx)
          · rcases List.mem_append.1 hx with hx | hx
            · exact hr.wanted x hx
            · exact hs.wanted x (List.mem_of_mem_take hx)
        · exact h.rows r' (by simp [hr'])
      · refine hnd.sublist ?_
        simp only [List.flatMap_cons, List.append_assoc]
        exact List.Sublist.append (List.Sublist.refl _) (List.Sublist.append (List.take_sublist _ _) (List.Sublist.refl _))
    next hne =>
      have hst : TableOk anc nodes (s :: t) := ⟨fun r' hr' => h.rows r' (List.mem_cons_of_mem _ hr'), by
        simp only [List.flatMap_cons] at hnd ⊢
        exact (List.nodup_append.1 hnd).2.1⟩
      have := ih hst
      refine ⟨fun r' hr' => ?_, ?_⟩
      · rcases List.mem_cons.1 hr' with rfl | hr'
        · exact hr
        · exact this.rows r' hr'
      · have hsub : ∀ x ∈ (joinAt s t).flatMap (·.attrs), x ∈ (s :: t).flatMap (·.attrs) := by
          clear this ih hst hnd hr hs h hne
          induction t generalizing s with
          | nil => exact fun x hx => hx
          | cons s' t ih =>
            intro x hx
            unfold joinAt at hx
            split at hx
            · have := ih _ x hx
              simp only [List.flatMap_cons, List.mem_append] at this ⊢
              rcases this with (h | h) | h
              · exact .inl h
              · exact .inr (.inl (List.mem_of_mem_take h))
              · exact .inr (.inr h)
            · simp only [List.flatMap_cons, List.mem_append] at hx ⊢
              rcases hx with h | h
              · exact .inl h
              · have := ih s' x h
                simp only [List.flatMap_cons, List.mem_append] at this
                exact .inr this
        rw [List.flatMap_cons, List.nodup_append] at hnd ⊢
        exact ⟨hnd.1, this.nodup, fun a ha b hb => hnd.2.2 a ha b (hsub b hb)⟩

theorem joinRows_ok {anc nodes : List Node} {t : List Row} (h : TableOk anc nodes t) : TableOk anc nodes (joinRows t) := by
  cases t with
  | nil => exact h
  | cons r t => exact joinAt_ok h

theorem table_ok (anc nodes : List Node) : TableOk anc nodes (table anc nodes) :=
  joinRows_ok (perm_ok (simplify_ok (fill_ok anc nodes)) (sortRows_perm _))

theorem joinAt_count {r : Row} {t : List Row} (h : ∀ s ∈ r :: t, 2 ≤ count s.flags) : ∀ s ∈ joinAt r t, 2 ≤ count s.flags := by
  induction t generalizing r with
  | nil => exact h
  | cons s t ih =>
    unfold joinAt
    split
    · apply ih
      intro s' hs'
      rcases List.mem_cons.1 hs' with rfl | hs'
      · exact h r (List.mem_cons_self ..)
      · exact h s' (by simp [hs'])
    · intro s' hs'
      rcases List.mem_cons.1 hs' with rfl | hs'
      · exact h _ (List.mem_cons_self ..)
      · exact ih (fun s'' hs'' => h s'' (List.mem_cons_of_mem _ hs'')) s' hs'

theorem table_count (anc nodes : List Node) : ∀ r ∈ table anc nodes, 2 ≤ count r.flags := by
  have : ∀ r ∈ sortRows (simplify ((rowAttrs anc nodes).map fun x => (⟨[x], nodes.map fun n => decide (x ∈ n.attrs)⟩ : Row))),
      2 ≤ count r.flags := fun r hr => simplify_count r ((sortRows_perm _).mem_iff.1 hr)
  unfold table
  revert this
  generalize sortRows _ = t
  intro h
  cases t with
  | nil => exact h
  | cons r t => exact joinAt_count h

/-! ### Ranges -/

theorem all_true {l : List Bool} (h : count l = l.length) : ∀ i, i < l.length → l[i]? = some true := by
  unfold count at h
  rw [List.length_filter_eq_length_iff] at h
  intro i hi
  rw [List.getElem?_eq_getElem hi]
  exact congrArg some (h _ (List.getElem_mem hi))

theorem runs_spec (i : Nat) (s : Option Nat) (l : List Bool) (hs : ∀ a, s = some a → a < i) :
    ∀ x ∈ runs i s l, x.1 ≤ x.2 ∧ ∀ m, x.1 ≤ m → m ≤ x.2 → (m < i ∧ ∃ a, s = some a ∧ a ≤ m) ∨ (i ≤ m ∧ l[m - i]? = some true) := by
  induction l generalizing i s with
  | nil =>
    intro x hx
    cases s with
    | none => simp [runs] at hx
    | some a =>
      have := hs a rfl
      simp only [runs, List.mem_singleton] at hx
      subst hx
      exact ⟨by simp only; omega, fun m h1 h2 => .inl ⟨by simp only at h2; omega, a, rfl, h1⟩⟩
  | cons b t ih =>
    have shift : ∀ {m : Nat}, i + 1 ≤ m → t[m - (i + 1)]? = some true → (b :: t)[m - i]? = some true := by
      intro m hm h
      have : m - i = (m - (i + 1)) + 1 := by omega
      rw [this, List.getElem?_cons_succ]
      exact h
    intro x hx
    cases s with
    | none =>
      cases b with
      | false =>
        obtain ⟨h1, h2⟩ := ih (i + 1) none (fun a h => by cases h) x hx
        refine ⟨h1, fun m h3 h4 => ?_⟩
        rcases h2 m h3 h4 with ⟨_, a, h, _⟩ | ⟨h, h'⟩
        · cases h
        · exact .inr ⟨by omega, shift h h'⟩
      | true =>
        obtain ⟨h1, h2⟩ := ih (i + 1) (some i) (fun a h => by cases h; omega) x hx
        refine ⟨h1, fun m h3 h4 => ?_⟩
        rcases h2 m h3 h4 with ⟨h, a, e, h'⟩ | ⟨h, h'⟩
        · cases e
          have : m = i := by omega
          subst this
          exact .inr ⟨le_refl _, by simp⟩
        · exact .inr ⟨by omega, shift h h'⟩
    | some a =>
      have ha := hs a rfl
      cases b with
      | true =>
        obtain ⟨h1, h2⟩ := ih (i + 1) (some a) (fun a' h => by cases h; omega) x hx
        refine ⟨h1, fun m h3 h4 => ?_⟩
        rcases h2 m h3 h4 with ⟨h, a', e, h'⟩ | ⟨h, h'⟩
        · cases e
          by_cases hm : m = i
          · subst hm; exact .inr ⟨le_refl _, by simp⟩
          · exact .inl ⟨by omega, a, rfl, h'⟩
        · exact .inr ⟨by omega, shift h h'⟩
      | false =>
        rcases List.mem_cons.1 hx with rfl | hx
        · exact ⟨by simp only; omega, fun m h1 h2 => .inl ⟨by simp only at h2; omega, a, rfl, h1⟩⟩
        · obtain ⟨h1, h2⟩ := ih (i + 1) none (fun a h => by cases h) x hx
          refine ⟨h1, fun m h3 h4 => ?_⟩
          rcases h2 m h3 h4 with ⟨_, a, h, _⟩ | ⟨h, h'⟩
          · cases h
          · exact .inr ⟨by omega, shift h h'⟩

theorem firstLongest_mem {l : List (Nat × Nat)} {x : Nat × Nat} (h : firstLongest l = some x) : x ∈ l := by
  induction l generalizing x with
  | nil => cases h
  | cons y t ih =>
    unfold firstLongest at h
    split at h
    next => cases h; exact List.mem_cons_self ..
    next z hz =>
      split at h
      · cases h; exact List.mem_cons_self ..
      · cases h; exact List.mem_cons_of_mem _ (ih hz)

theorem firstLongest_isSome {l : List (Nat × Nat)} (h : l ≠ []) : (firstLongest l).isSome = true := by
  cases l with
  | nil => exact absurd rfl h
  | cons x t =>
    unfold firstLongest
    split
    · rfl
    · split <;> rfl

theorem longestRange_spec {l : List Bool} {i j : Nat} (h : longestRange l = some (i, j)) :
    i ≤ j ∧ ∀ m, i ≤ m → m ≤ j → l[m]? = some true := by
  obtain ⟨h1, h2⟩ := runs_spec 0 none l (fun a h => by cases h) _ (firstLongest_mem h)
  refine ⟨h1, fun m h3 h4 => ?_⟩
  rcases h2 m h3 h4 with ⟨h, _⟩ | ⟨_, h⟩
  · omega
  · simpa using h

theorem runs_ne {i : Nat} {s : Option Nat} {l : List Bool} (h : s.isSome = true ∨ true ∈ l) : runs i s l ≠ [] := by
  induction l generalizing i s with
  | nil =>
    cases s with
    | none => simp at h
    | some a => simp [runs]
  | cons b t ih =>
    cases s with
    | none =>
      cases b with
      | true => exact ih (.inl rfl)
      | false => exact ih (.inr (by simpa using h))
    | some a =>
      cases b with
      | true => exact ih (.inl rfl)
      | false => simp [runs]

theorem longestRange_isSome {l : List Bool} (h : 2 ≤ count l) : (longestRange l).isSome = true := by
  apply firstLongest_isSome
  apply runs_ne
  right
  unfold count at h
  have hne : l.filter id ≠ [] := by intro e; rw [e] at h; simp at h
  obtain ⟨b, hb⟩ := List.exists_mem_of_ne_nil _ hne
  have := List.mem_filter.1 hb
  simp only [id] at this
  rw [this.2] at this
  exact this.1

end Verif.GroupStyle
