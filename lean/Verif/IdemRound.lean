import Verif.IdemMore
import Verif.RoundProps
import Verif.RoundDocProps
/-
C67, continued: rounding.
-/
namespace Verif.Idem
open Verif.Dom Verif.Spec Verif.Pipeline
open Verif.Round

theorem rnd_rnd {pow : ℚ} (h : pow ≠ 0) (q : ℚ) : rnd pow (rnd pow q) = rnd pow q := by
  unfold rnd
  rw [div_mul_cancel₀ _ h, roundAway_int]

theorem num_again {p : Nat} {q r : ℚ} (h : num p q = some r) : num p r = some r := by
  unfold num roundNumber at h ⊢
  cases hp : powVec[p]? with
  | none => rw [hp] at h; cases h
  | some pow =>
    rw [hp] at h
    dsimp only at h ⊢
    by_cases h0 : pow = 0
    · rw [if_pos h0] at h; cases h
    · rw [if_neg h0] at h
      rw [if_neg h0]
      cases h
      have := rnd_rnd h0 q
      unfold rnd at this
      rw [this]

theorem nums_again {p : Nat} {l l' : List ℚ} (h : nums p l = some l') : nums p l' = some l' := by
  induction l generalizing l' with
  | nil => cases h; rfl
  | cons q t ih =>
    simp only [nums, Option.bind_eq_some_iff, Option.map_eq_some_iff] at h
    obtain ⟨q', h1, t', h2, rfl⟩ := h
    simp only [nums, num_again h1, ih h2, Option.bind_some, Option.map_some]

theorem len_again {p : Nat} {l l' : Len} (h : len p l = some l') : len p l' = some l' := by
  unfold len at h ⊢
  rw [Option.map_eq_some_iff] at h
  obtain ⟨q, h1, rfl⟩ := h
  rw [num_again h1]
  rfl

theorem lens_again {p : Nat} {l l' : List Len} (h : lens p l = some l') : lens p l' = some l' := by
  induction l generalizing l' with
  | nil => cases h; rfl
  | cons q t ih =>
    simp only [lens, Option.bind_eq_some_iff, Option.map_eq_some_iff] at h
    obtain ⟨q', h1, t', h2, rfl⟩ := h
    simp only [lens, len_again h1, ih h2, Option.bind_some, Option.map_some]

theorem ts_again {o : Precisions} {t t' : Paths.Transform} (h : ts o t = some t') : ts o t' = some t' := by
  simp only [ts, Option.bind_eq_some_iff, Option.map_eq_some_iff] at h
  obtain ⟨a, h1, b, h2, c, h3, d, h4, e, h5, f, h6, rfl⟩ := h
  simp only [ts, num_again h1, num_again h2, num_again h3, num_again h4, num_again h5, num_again h6, Option.bind_some, Option.map_some]

theorem roundSeg_again {pow : ℚ} (h : pow ≠ 0) (s : Paths.SegData) : roundSeg pow (roundSeg pow s) = roundSeg pow s := by
  cases s <;> simp only [roundSeg, rnd_rnd h]

theorem path_again {p : Nat} {d d' : Paths.Path} (h : path p d = some d') : path p d' = some d' := by
  unfold path at h ⊢
  cases hp : powVec[p]? with
  | none =>
    rw [hp] at h
    dsimp only at h ⊢
    split at h
    · cases h; rfl
    · cases h
  | some pow =>
    rw [hp] at h
    dsimp only at h ⊢
    by_cases h0 : pow = 0
    · rw [if_pos h0] at h ⊢
      split at h
      · cases h; rfl
      · cases h
    · rw [if_neg h0] at h ⊢
      cases h
      unfold roundPath
      rw [List.map_map]
      congr 1
      refine List.map_congr_left fun s _ => ?_
      dsimp only [Function.comp]
      rw [roundSeg_again h0]

theorem value_again {o : Precisions} {a : AId} {v w : Value} (h : value o a v = some w) : value o a w = some w := by
  unfold value at h ⊢
  split at h
  · rename_i hc
    rw [if_pos hc]
    split at h
    · rw [Option.map_eq_some_iff] at h
      obtain ⟨l, h1, rfl⟩ := h
      simp only [len_again h1, Option.map_some]
    · rw [Option.map_eq_some_iff] at h
      obtain ⟨l, h1, rfl⟩ := h
      simp only [lens_again h1, Option.map_some]
    · rename_i n1 n2
      cases h
      split
      · exact absurd rfl (n1 _)
      · exact absurd rfl (n2 _)
      · rfl
  · rename_i hc
    rw [if_neg hc]
    split at h
    · rename_i hc
      rw [if_pos hc]
      split at h
      · rw [Option.map_eq_some_iff] at h
        obtain ⟨l, h1, rfl⟩ := h
        simp only [num_again h1, Option.map_some]
      · rw [Option.map_eq_some_iff] at h
        obtain ⟨l, h1, rfl⟩ := h
        simp only [len_again h1, Option.map_some]
      · rename_i n1 n2
        cases h
        split
        · exact absurd rfl (n1 _)
        · exact absurd rfl (n2 _)
        · rfl
    · rename_i hc
      rw [if_neg hc]
      split at h
      · rename_i hc
        rw [if_pos hc]
        split at h
        · rw [Option.map_eq_some_iff] at h
          obtain ⟨l, h1, rfl⟩ := h
          simp only [ts_again h1, Option.map_some]
        · rename_i n1
          cases h
          split
          · exact absurd rfl (n1 _)
          · rfl
      · rename_i hc
        rw [if_neg hc]
        split at h
        · rename_i hc
          rw [if_pos hc]
          split at h
          · rw [Option.map_eq_some_iff] at h
            obtain ⟨l, h1, rfl⟩ := h
            simp only [path_again h1, Option.map_some]
          · rename_i n1
            cases h
            split
            · exact absurd rfl (n1 _)
            · rfl
        · rename_i hc
          rw [if_neg hc]
          split at h
          · rename_i hc
            rw [if_pos hc]
            split at h
            · rw [Option.map_eq_some_iff] at h
              obtain ⟨l, h1, rfl⟩ := h
              simp only [nums_again h1, Option.map_some]
            · rename_i n1
              cases h
              split
              · exact absurd rfl (n1 _)
              · rfl
          · rename_i hc
            rw [if_neg hc]

theorem attrs_again {o : Precisions} {l l' : List Attr} (h : attrs o l = some l') : attrs o l' = some l' := by
  induction l generalizing l' with
  | nil => cases h; rfl
  | cons x t ih =>
    simp only [attrs, Option.bind_eq_some_iff, Option.map_eq_some_iff] at h
    obtain ⟨x', h1, t', h2, rfl⟩ := h
    unfold attrs
    rw [ih h2]
    obtain ⟨nm, v, b⟩ := x
    cases nm with
    | id a =>
      dsimp only at h1
      rw [Option.map_eq_some_iff] at h1
      obtain ⟨w, h3, rfl⟩ := h1
      dsimp only
      rw [value_again h3]
      rfl
    | name s =>
      cases h1
      rfl

/-- **C67** for the rounding of numbers. -/
theorem C67_round (o : Precisions) : Settles Any (may (roundNumbers o)) := by
  refine settles_may fun f g _ h => mapOpt_settles (fun n m hn => ?_) h
  unfold node at hn
  split at hn
  · rename_i hs
    rw [Option.map_eq_some_iff] at hn
    obtain ⟨as, h1, rfl⟩ := hn
    have hs' : ({ n with attrs := as } : Node).isSvgElem = true := hs
    unfold node
    rw [if_pos hs']
    dsimp only
    rw [attrs_again h1]
    rfl
  · rename_i hs
    cases hn
    unfold node
    rw [if_neg hs]

end Verif.Idem
