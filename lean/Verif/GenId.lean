import Verif.DomSpec
import Std.Data.String.ToNat
import Mathlib.Data.List.Nodup
import Mathlib.Data.List.Perm.Subperm
/-
Model of `gen_id` in `src/task/regroup_gradient_stops.rs`, and property C41.
-/
namespace Verif.GenId
open Verif.Dom

/-- The loop of `gen_id`, `src/task/regroup_gradient_stops.rs:95-106`, running at most `fuel` rounds; `none`: it has not
ended. -/
def search (f : Forest) (pre : String) : Nat → Nat → Option String
  | 0, _ => none
  | fuel + 1, n =>
    if f.nodes.any (fun x => decide (x.id = pre ++ n.repr)) then search f pre fuel (n + 1) else some (pre ++ n.repr)

/-- `gen_id`, `src/task/regroup_gradient_stops.rs:91-109`.  Simplification: the loop is given one round more than there
are nodes; C41 shows that it ends within them. -/
def genId (f : Forest) (pre : String) : Option String := search f pre (f.nodes.length + 1) 1

theorem append_left_inj' {p a b : String} (h : p ++ a = p ++ b) : a = b := by
  have := congrArg String.toList h
  simp only [String.toList_append, List.append_cancel_left_eq] at this
  exact String.toList_inj.1 this

theorem search_spec {f : Forest} {pre s : String} {fuel n : Nat} (h : search f pre fuel n = some s) :
    ∃ m, n ≤ m ∧ s = pre ++ m.repr ∧ s ∉ f.nodes.map (·.id) ∧ ∀ i, n ≤ i → i < m → pre ++ i.repr ∈ f.nodes.map (·.id) := by
  induction fuel generalizing n with
  | zero => simp [search] at h
  | succ fuel ih =>
    unfold search at h
    split at h
    next ht =>
      obtain ⟨m, h1, h2, h3, h4⟩ := ih h
      refine ⟨m, by omega, h2, h3, fun i hi him => ?_⟩
      by_cases he : i = n
      · subst he
        simpa using ht
      · exact h4 i (by omega) him
    next ht =>
      cases h
      refine ⟨n, Nat.le_refl _, rfl, by simpa using ht, fun i hi him => by omega⟩

theorem search_none {f : Forest} {pre : String} {fuel n : Nat} (h : search f pre fuel n = none) :
    ∀ i, n ≤ i → i < n + fuel → pre ++ i.repr ∈ f.nodes.map (·.id) := by
  induction fuel generalizing n with
  | zero => intro i h1 h2; omega
  | succ fuel ih =>
    unfold search at h
    split at h
    next ht =>
      intro i h1 h2
      by_cases he : i = n
      · subst he; simpa using ht
      · exact ih h i (by omega) (by omega)
    next => cases h

/-- C41: for every document the search ends, with an id that no element of the document has; it is the first free one of
`lg1`, `lg2`, ... -/
theorem C41_fresh (f : Forest) (pre : String) :
    ∃ n, 1 ≤ n ∧ genId f pre = some (pre ++ toString n) ∧ (∀ x ∈ f.nodes, x.id ≠ pre ++ toString n) ∧
      ∀ i, 1 ≤ i → i < n → ∃ x ∈ f.nodes, x.id = pre ++ toString i := by
  have hts : ∀ i : Nat, toString i = i.repr := fun i => rfl
  cases h : genId f pre with
  | none =>
    exfalso
    have := search_none h
    have hs : (List.range (f.nodes.length + 1)).map (fun i => pre ++ (i + 1).repr) ⊆ f.nodes.map (·.id) := by
      intro s hs
      simp only [List.mem_map, List.mem_range] at hs
      obtain ⟨i, hi, rfl⟩ := hs
      exact this (i + 1) (by omega) (by omega)
    have hn : ((List.range (f.nodes.length + 1)).map (fun i => pre ++ (i + 1).repr)).Nodup := by
      refine List.Nodup.map ?_ List.nodup_range
      intro a b hab
      have := Nat.repr_injective (append_left_inj' hab)
      omega
    have := (List.subperm_of_subset hn hs).length_le
    simp at this
  | some s =>
    obtain ⟨m, h1, rfl, h3, h4⟩ := search_spec h
    refine ⟨m, h1, rfl, fun x hx he => h3 (List.mem_map.2 ⟨x, hx, he⟩), fun i hi him => ?_⟩
    obtain ⟨x, hx, he⟩ := List.mem_map.1 (h4 i hi him)
    exact ⟨x, hx, he⟩

/-- Two elements with generated-looking ids: the next one is `lg3`. -/
def sample : Forest :=
  .cons ⟨0, .elem .svg, "lg2", []⟩ (.cons ⟨1, .elem .linearGradient, "lg1", []⟩ .nil .nil) .nil

example : genId sample "lg" = some "lg3" := by decide +kernel

end Verif.GenId
