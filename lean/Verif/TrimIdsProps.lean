import Verif.TrimIds
/-
Properties C13 and C14: uniqueness, validity and exhaustion of generated ids.
-/
namespace Verif.TrimIds

/-! ### Specification vocabulary -/

/-- ASCII letter. -/
def isLetter (c : Nat) : Bool := (decide (97 ≤ c) && decide (c ≤ 122)) || (decide (65 ≤ c) && decide (c ≤ 90))
/-- ASCII digit. -/
def isDigit (c : Nat) : Bool := decide (48 ≤ c) && decide (c ≤ 57)

/-- An id that may be used in XML: not empty, starts with a letter, only letters and digits. -/
def ValidId (s : List Nat) : Prop :=
  ∃ c t, s = c :: t ∧ isLetter c = true ∧ ∀ x ∈ s, isLetter x = true ∨ isDigit x = true

/-! ### The generator counts: each state is a numeral -/

/-- The states the generator goes through, with the number of the id they stand for: `k` digits are in use. In
states with up to four digits the leading digit runs to 51 and the others to 61; in the five digit states
(where `head` is wrong) the last digit runs to 51 and the others to 61. -/
inductive Num : List Nat → Nat → Prop
  | one (e) : e < 52 → Num [255,255,255,255,e] e
  | two (d e) : d < 52 → e < 62 → Num [255,255,255,d,e] (52 + d*62 + e)
  | three (c d e) : c < 52 → d < 62 → e < 62 → Num [255,255,c,d,e] (52 + 52*62 + c*3844 + d*62 + e)
  | four (b c d e) : b < 52 → c < 62 → d < 62 → e < 62 →
      Num [255,b,c,d,e] (52 + 52*62 + 52*3844 + b*238328 + c*3844 + d*62 + e)
  | five (a b c d e) : a < 62 → b < 62 → c < 62 → d < 62 → e < 52 →
      Num [a,b,c,d,e] (12596220 + a*12393056 + b*199888 + c*3224 + d*52 + e)

/-- The number of ids that can be generated. -/
def capacity : Nat := 780965692
/-- The number of the first id that starts with a digit. -/
def firstBad : Nat := 657035132

theorem plusOne_num {d : List Nat} {n : Nat} (h : Num d n) :
    (n + 1 < capacity ∧ ∃ d', plusOne d = some d' ∧ Num d' (n + 1)) ∨
    (n + 1 = capacity ∧ plusOne d = none) := by
  unfold capacity
  cases h with
  | one _ he =>
    left
    refine ⟨by omega, ?_⟩
    by_cases h1 : n = 51
    · subst h1; exact ⟨_, rfl, Num.two 0 0 (by omega) (by omega)⟩
    · refine ⟨[255,255,255,255,n+1], ?_, Num.one _ (by omega)⟩
      have : n ≠ 61 := by omega
      have : n ≠ 255 := by omega
      simp [plusOne, findHead, shift, NUM_SIZE, MAX_NUM_CHAR, CHARS_SIZE, *]
  | two d e hd he =>
    left
    refine ⟨by omega, ?_⟩
    have hd' : d ≠ 255 := by omega
    have he' : e ≠ 255 := by omega
    have hd2 : d ≠ 61 := by omega
    by_cases h1 : e = 61
    · subst h1
      by_cases h2 : d = 51
      · subst h2; exact ⟨_, rfl, Num.three 0 0 0 (by omega) (by omega) (by omega)⟩
      · refine ⟨[255,255,255,d+1,0], ?_, ?_⟩
        · simp [plusOne, findHead, shift, NUM_SIZE, MAX_NUM_CHAR, CHARS_SIZE, *]
        · have := Num.two (d+1) 0 (by omega) (by omega)
          rwa [show 52 + (d+1)*62 + 0 = 52 + d*62 + 61 + 1 by omega] at this
    · refine ⟨[255,255,255,d,e+1], ?_, Num.two _ _ hd (by omega)⟩
      simp [plusOne, findHead, shift, NUM_SIZE, MAX_NUM_CHAR, CHARS_SIZE, *]
  | three c d e hc hd he =>
    left
    refine ⟨by omega, ?_⟩
    have hc' : c ≠ 255 := by omega
    have hd' : d ≠ 255 := by omega
    have he' : e ≠ 255 := by omega
    have hc2 : c ≠ 61 := by omega
    by_cases h1 : e = 61
    · subst h1
      by_cases h2 : d = 61
      · subst h2
        by_cases h3 : c = 51
        · subst h3; exact ⟨_, rfl, Num.four 0 0 0 0 (by omega) (by omega) (by omega) (by omega)⟩
        · refine ⟨[255,255,c+1,0,0], ?_, ?_⟩
          · simp [plusOne, findHead, shift, NUM_SIZE, MAX_NUM_CHAR, CHARS_SIZE, *]
          · have := Num.three (c+1) 0 0 (by omega) (by omega) (by omega)
            rwa [show 52 + 52*62 + (c+1)*3844 + 0*62 + 0 = 52 + 52*62 + c*3844 + 61*62 + 61 + 1 by omega] at this
      · refine ⟨[255,255,c,d+1,0], ?_, ?_⟩
        · simp [plusOne, findHead, shift, NUM_SIZE, MAX_NUM_CHAR, CHARS_SIZE, *]
        · have := Num.three c (d+1) 0 hc (by omega) (by omega)
          rwa [show 52 + 52*62 + c*3844 + (d+1)*62 + 0 = 52 + 52*62 + c*3844 + d*62 + 61 + 1 by omega] at this
    · refine ⟨[255,255,c,d,e+1], ?_, Num.three _ _ _ hc hd (by omega)⟩
      simp [plusOne, findHead, shift, NUM_SIZE, MAX_NUM_CHAR, CHARS_SIZE, *]
  | four b c d e hb hc hd he =>
    left
    refine ⟨by omega, ?_⟩
    have hb' : b ≠ 255 := by omega
    have hc' : c ≠ 255 := by omega
    have hd' : d ≠ 255 := by omega
    have he' : e ≠ 255 := by omega
    have hb2 : b ≠ 61 := by omega
    by_cases h1 : e = 61
    · subst h1
      by_cases h2 : d = 61
      · subst h2
        by_cases h3 : c = 61
        · subst h3
          by_cases h4 : b = 51
          · subst h4; exact ⟨_, rfl, Num.five 0 0 0 0 0 (by omega) (by omega) (by omega) (by omega) (by omega)⟩
          · refine ⟨[255,b+1,0,0,0], ?_, ?_⟩
            · simp [plusOne, findHead, shift, NUM_SIZE, MAX_NUM_CHAR, CHARS_SIZE, *]
            · have := Num.four (b+1) 0 0 0 (by omega) (by omega) (by omega) (by omega)
              rwa [show 52 + 52*62 + 52*3844 + (b+1)*238328 + 0*3844 + 0*62 + 0
                = 52 + 52*62 + 52*3844 + b*238328 + 61*3844 + 61*62 + 61 + 1 by omega] at this
        · refine ⟨[255,b,c+1,0,0], ?_, ?_⟩
          · simp [plusOne, findHead, shift, NUM_SIZE, MAX_NUM_CHAR, CHARS_SIZE, *]
          · have := Num.four b (c+1) 0 0 (by omega) (by omega) (by omega) (by omega)
            rwa [show 52 + 52*62 + 52*3844 + b*238328 + (c+1)*3844 + 0*62 + 0
              = 52 + 52*62 + 52*3844 + b*238328 + c*3844 + 61*62 + 61 + 1 by omega] at this
      · refine ⟨[255,b,c,d+1,0], ?_, ?_⟩
        · simp [plusOne, findHead, shift, NUM_SIZE, MAX_NUM_CHAR, CHARS_SIZE, *]
        · have := Num.four b c (d+1) 0 hb hc (by omega) (by omega)
          rwa [show 52 + 52*62 + 52*3844 + b*238328 + c*3844 + (d+1)*62 + 0
            = 52 + 52*62 + 52*3844 + b*238328 + c*3844 + d*62 + 61 + 1 by omega] at this
    · refine ⟨[255,b,c,d,e+1], ?_, Num.four _ _ _ _ hb hc hd (by omega)⟩
      simp [plusOne, findHead, shift, NUM_SIZE, MAX_NUM_CHAR, CHARS_SIZE, *]
  | five a b c d e ha hb hc hd he =>
    have ha' : a ≠ 255 := by omega
    have hb' : b ≠ 255 := by omega
    have hc' : c ≠ 255 := by omega
    have hd' : d ≠ 255 := by omega
    have he' : e ≠ 255 := by omega
    have he2 : e ≠ 61 := by omega
    by_cases h1 : e = 51
    · subst h1
      by_cases h2 : d = 61
      · subst h2
        by_cases h3 : c = 61
        · subst h3
          by_cases h4 : b = 61
          · subst h4
            by_cases h5 : a = 61
            · subst h5; right; exact ⟨by omega, rfl⟩
            · left
              refine ⟨by omega, [a+1,0,0,0,0], ?_, ?_⟩
              · simp [plusOne, findHead, shift, NUM_SIZE, MAX_NUM_CHAR, CHARS_SIZE, *]
              · have := Num.five (a+1) 0 0 0 0 (by omega) (by omega) (by omega) (by omega) (by omega)
                rwa [show 12596220 + (a+1)*12393056 + 0*199888 + 0*3224 + 0*52 + 0
                  = 12596220 + a*12393056 + 61*199888 + 61*3224 + 61*52 + 51 + 1 by omega] at this
          · left
            refine ⟨by omega, [a,b+1,0,0,0], ?_, ?_⟩
            · simp [plusOne, findHead, shift, NUM_SIZE, MAX_NUM_CHAR, CHARS_SIZE, *]
            · have := Num.five a (b+1) 0 0 0 ha (by omega) (by omega) (by omega) (by omega)
              rwa [show 12596220 + a*12393056 + (b+1)*199888 + 0*3224 + 0*52 + 0
                = 12596220 + a*12393056 + b*199888 + 61*3224 + 61*52 + 51 + 1 by omega] at this
        · left
          refine ⟨by omega, [a,b,c+1,0,0], ?_, ?_⟩
          · simp [plusOne, findHead, shift, NUM_SIZE, MAX_NUM_CHAR, CHARS_SIZE, *]
          · have := Num.five a b (c+1) 0 0 ha hb (by omega) (by omega) (by omega)
            rwa [show 12596220 + a*12393056 + b*199888 + (c+1)*3224 + 0*52 + 0
              = 12596220 + a*12393056 + b*199888 + c*3224 + 61*52 + 51 + 1 by omega] at this
      · left
        refine ⟨by omega, [a,b,c,d+1,0], ?_, ?_⟩
        · simp [plusOne, findHead, shift, NUM_SIZE, MAX_NUM_CHAR, CHARS_SIZE, *]
        · have := Num.five a b c (d+1) 0 ha hb hc (by omega) (by omega)
          rwa [show 12596220 + a*12393056 + b*199888 + c*3224 + (d+1)*52 + 0
            = 12596220 + a*12393056 + b*199888 + c*3224 + d*52 + 51 + 1 by omega] at this
    · left
      refine ⟨by omega, [a,b,c,d,e+1], ?_, Num.five _ _ _ _ _ ha hb hc hd (by omega)⟩
      simp [plusOne, findHead, shift, NUM_SIZE, MAX_NUM_CHAR, CHARS_SIZE, *]

theorem state_num (n : Nat) :
    (n < capacity ∧ ∃ d, state n = some d ∧ Num d n) ∨ (capacity ≤ n ∧ state n = none) := by
  induction n with
  | zero => left; exact ⟨by decide, _, rfl, Num.one 0 (by omega)⟩
  | succ n ih =>
    rcases ih with ⟨_, d, h2, h3⟩ | ⟨h1, h2⟩
    · rcases plusOne_num h3 with ⟨h4, d', h5, h6⟩ | ⟨h4, h5⟩
      · left; exact ⟨h4, d', by simp [state, h2, h5], h6⟩
      · right; exact ⟨by omega, by simp [state, h2, h5]⟩
    · right; exact ⟨by omega, by simp [state, h2]⟩

/-- The digits are determined by the number. -/
theorem Num.inj {d d' : List Nat} {n : Nat} (h : Num d n) (h' : Num d' n) : d = d' := by
  generalize hm : n = m at h'
  cases h <;> cases h' <;> first | omega | (simp; omega) | (simp; done)

theorem toBytes_one (e : Nat) (h : e < 62) : toBytes [255,255,255,255,e] = [chars.getD e 0] := by
  have : e ≠ 255 := by omega
  simp [toBytes, List.takeWhile, this]
theorem toBytes_two (d e : Nat) (hd : d < 62) (h : e < 62) :
    toBytes [255,255,255,d,e] = [chars.getD d 0, chars.getD e 0] := by
  have : e ≠ 255 := by omega
  have : d ≠ 255 := by omega
  simp [toBytes, List.takeWhile, *]
theorem toBytes_three (c d e : Nat) (hc : c < 62) (hd : d < 62) (h : e < 62) :
    toBytes [255,255,c,d,e] = [chars.getD c 0, chars.getD d 0, chars.getD e 0] := by
  have : e ≠ 255 := by omega
  have : d ≠ 255 := by omega
  have : c ≠ 255 := by omega
  simp [toBytes, List.takeWhile, *]
theorem toBytes_four (b c d e : Nat) (hb : b < 62) (hc : c < 62) (hd : d < 62) (h : e < 62) :
    toBytes [255,b,c,d,e] = [chars.getD b 0, chars.getD c 0, chars.getD d 0, chars.getD e 0] := by
  have : e ≠ 255 := by omega
  have : d ≠ 255 := by omega
  have : c ≠ 255 := by omega
  have : b ≠ 255 := by omega
  simp [toBytes, List.takeWhile, *]
theorem toBytes_five (a b c d e : Nat) (ha : a < 62) (hb : b < 62) (hc : c < 62) (hd : d < 62) (h : e < 62) :
    toBytes [a,b,c,d,e] = [chars.getD a 0, chars.getD b 0, chars.getD c 0, chars.getD d 0, chars.getD e 0] := by
  have : e ≠ 255 := by omega
  have : d ≠ 255 := by omega
  have : c ≠ 255 := by omega
  have : b ≠ 255 := by omega
  have : a ≠ 255 := by omega
  simp [toBytes, List.takeWhile, *]

theorem chars_inj : ∀ a < 62, ∀ b < 62, chars.getD a 0 = chars.getD b 0 → a = b := by decide +kernel
theorem chars_alnum : ∀ a < 62, isLetter (chars.getD a 0) = true ∨ isDigit (chars.getD a 0) = true := by decide +kernel
theorem chars_letter : ∀ a < 52, isLetter (chars.getD a 0) = true := by decide +kernel

/-- The id determines the number. -/
theorem toBytes_inj {d d' : List Nat} {n m : Nat} (h : Num d n) (h' : Num d' m) (e : toBytes d = toBytes d') :
    n = m := by
  cases h <;> cases h' <;>
    simp only [toBytes_one, toBytes_two, toBytes_three, toBytes_four, toBytes_five,
      Nat.lt_of_lt_of_le (m := 52) (k := 62), *, Nat.reduceLeDiff,
      List.cons.injEq, and_true, reduceCtorEq, and_false] at e
  · exact chars_inj _ (by omega) _ (by omega) e
  · rw [chars_inj _ (by omega) _ (by omega) e.1, chars_inj _ (by omega) _ (by omega) e.2]
  · rw [chars_inj _ (by omega) _ (by omega) e.1, chars_inj _ (by omega) _ (by omega) e.2.1,
      chars_inj _ (by omega) _ (by omega) e.2.2]
  · rw [chars_inj _ (by omega) _ (by omega) e.1, chars_inj _ (by omega) _ (by omega) e.2.1,
      chars_inj _ (by omega) _ (by omega) e.2.2.1, chars_inj _ (by omega) _ (by omega) e.2.2.2]
  · rw [chars_inj _ (by omega) _ (by omega) e.1, chars_inj _ (by omega) _ (by omega) e.2.1,
      chars_inj _ (by omega) _ (by omega) e.2.2.1, chars_inj _ (by omega) _ (by omega) e.2.2.2.1,
      chars_inj _ (by omega) _ (by omega) e.2.2.2.2]

/-! ### C13 -/

/-- **C13** Two different positions never get the same id. -/
theorem C13_ids_unique (i j : Nat) (s : List Nat) (hi : genId i = some s) (hj : genId j = some s) : i = j := by
  unfold genId at hi hj
  rcases state_num i with ⟨_, d, h2, h3⟩ | ⟨_, h⟩
  · rcases state_num j with ⟨_, d', h2', h3'⟩ | ⟨_, h⟩
    · simp [h2] at hi; simp [h2'] at hj
      exact toBytes_inj h3 h3' (hi.trans hj.symm)
    · simp [h] at hj
  · simp [h] at hi

example : genId 0 = some [97] ∧ genId 52 = some [97, 97] ∧ genId 51 = some [90] := by decide +kernel

/-! ### C14 -/

/-- **C14** (what holds) The first 657 035 132 ids exist and are valid.

Missing: larger documents; see the two refutations. -/
theorem C14_ids_valid_partial (n : Nat) (h : n < firstBad) : ∃ s, genId n = some s ∧ ValidId s := by
  unfold firstBad at h
  rcases state_num n with ⟨_, d, h2, h3⟩ | ⟨h1, _⟩
  · refine ⟨toBytes d, by simp [genId, h2], ?_⟩
    cases h3 with
    | one e he =>
      rw [toBytes_one _ (by omega)]
      exact ⟨_, _, rfl, chars_letter _ (by omega), by
        simp only [List.mem_cons, List.not_mem_nil, or_false]
        rintro x rfl; exact chars_alnum _ (by omega)⟩
    | two d e hd he =>
      rw [toBytes_two _ _ (by omega) (by omega)]
      exact ⟨_, _, rfl, chars_letter _ (by omega), by
        simp only [List.mem_cons, List.not_mem_nil, or_false]
        rintro x (rfl | rfl) <;> exact chars_alnum _ (by omega)⟩
    | three c d e hc hd he =>
      rw [toBytes_three _ _ _ (by omega) (by omega) (by omega)]
      exact ⟨_, _, rfl, chars_letter _ (by omega), by
        simp only [List.mem_cons, List.not_mem_nil, or_false]
        rintro x (rfl | rfl | rfl) <;> exact chars_alnum _ (by omega)⟩
    | four b c d e hb hc hd he =>
      rw [toBytes_four _ _ _ _ (by omega) (by omega) (by omega) (by omega)]
      exact ⟨_, _, rfl, chars_letter _ (by omega), by
        simp only [List.mem_cons, List.not_mem_nil, or_false]
        rintro x (rfl | rfl | rfl | rfl) <;> exact chars_alnum _ (by omega)⟩
    | five a b c d e ha hb hc hd he =>
      rw [toBytes_five _ _ _ _ _ (by omega) (by omega) (by omega) (by omega) (by omega)]
      exact ⟨_, _, rfl, chars_letter _ (by omega), by
        simp only [List.mem_cons, List.not_mem_nil, or_false]
        rintro x (rfl | rfl | rfl | rfl | rfl) <;> exact chars_alnum _ (by omega)⟩
  · unfold capacity at h1; omega

/-- **C14, refutation 1.** The generator is faulty at five digits: `head` is the position of the last
instead of the first digit, so the id number 657 035 132 is `0aaaa`, which is not a valid XML name. -/
theorem C14_refuted_starts_with_digit : genId firstBad = some [48, 97, 97, 97, 97] ∧ ¬ ValidId [48, 97, 97, 97, 97] := by
  constructor
  · rcases state_num firstBad with ⟨_, d, h2, h3⟩ | ⟨h1, _⟩
    · have h4 : Num [52,0,0,0,0] firstBad := by
        have := Num.five 52 0 0 0 0 (by omega) (by omega) (by omega) (by omega) (by omega)
        simpa [firstBad] using this
      rw [Num.inj h4 h3 |>.symm] at h2
      simp only [genId, h2]
      decide
    · unfold firstBad capacity at h1; omega
  · rintro ⟨c, t, h, hl, _⟩
    cases h
    revert hl; decide

/-- **C14, refutation 2.** There is no id number 780 965 692: the counter panics. -/
theorem C14_refuted_panic : genId capacity = none ∧ ∀ n, capacity ≤ n → genId n = none := by
  have : ∀ n, capacity ≤ n → genId n = none := by
    intro n hn
    rcases state_num n with ⟨h, _⟩ | ⟨_, h⟩
    · omega
    · simp [genId, h]
  exact ⟨this _ (Nat.le_refl _), this⟩

/-- Shorter ids are used first: an id never gets shorter when the position grows. -/
theorem C13_lengths_nondecreasing (i j : Nat) (s u : List Nat) (hij : i ≤ j)
    (hi : genId i = some s) (hj : genId j = some u) : s.length ≤ u.length := by
  unfold genId at hi hj
  rcases state_num i with ⟨_, d, h2, h3⟩ | ⟨_, h⟩
  · rcases state_num j with ⟨_, d', h2', h3'⟩ | ⟨_, h⟩
    · simp [h2] at hi; simp [h2'] at hj
      subst hi; subst hj
      cases h3 <;> cases h3' <;>
        simp only [toBytes_one, toBytes_two, toBytes_three, toBytes_four, toBytes_five,
          Nat.lt_of_lt_of_le (m := 52) (k := 62), *, Nat.reduceLeDiff, List.length_cons, List.length_nil] <;> omega
    · simp [h] at hj
  · simp [h] at hi

end Verif.TrimIds
