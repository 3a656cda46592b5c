import Verif.Stops
import Verif.SimpleProps
import Verif.DomSpec
import Verif.DomLemmas
import Mathlib.Order.Bounds.Basic
import Mathlib.Tactic.Linarith
import Mathlib.Data.List.Forall2
/- Properties of gradient stops and of `fix_invalid_attributes`: C28, C29, C52. -/
namespace Verif.Stops
open Verif.Dom Verif.Spec Verif.Simple

/-! ### Specification of C28 and C52 -/

/-- An offset forced into the range from 0 to 1. -/
def clamp01 (q : ℚ) : ℚ := max 0 (min 1 q)

/-- The number in the `offset` attribute. -/
def offsetOf (n : Node) : Option ℚ :=
  match n.get .offset with
  | some (.length ⟨q, .none⟩) => some q
  | _ => none

/-- The SVG rule for stop offsets: each one is clamped to [0,1] and is at least as large as all earlier ones; i.e. the
i-th new offset is the greatest of the first i+1 clamped old offsets. -/
def Normalised (ins outs : List ℚ) : Prop :=
  outs.length = ins.length ∧
  ∀ i, ∀ h : i < outs.length, IsGreatest {q | ∃ j ≤ i, ∃ x ∈ ins[j]?, q = clamp01 x} outs[i]

/-- Offsets that need no correction. -/
def ValidOffsets (l : List ℚ) : Prop := l.Pairwise (· ≤ ·) ∧ ∀ q ∈ l, 0 ≤ q ∧ q ≤ 1

/-- The value is not a negative length. -/
def NotNegative (v : Option Value) : Prop := ∀ l, v = some (.length l) → 0 ≤ l.num

/-- A length attribute that must be there and must not be negative; otherwise it becomes 0. -/
def SizeFixed (a : AId) (n n' : Node) : Prop :=
  n'.has a ∧ NotNegative (n'.get a) ∧
  (n.has a → NotNegative (n.get a) → getAttr n'.attrs (.id a) = getAttr n.attrs (.id a)) ∧
  ((¬ n.has a ∨ ¬ NotNegative (n.get a)) → n'.get a = some (.length ⟨0, .none⟩))

/-- A length attribute that must not be negative; otherwise it goes away. -/
def RadiusFixed (a : AId) (n n' : Node) : Prop :=
  NotNegative (n'.get a) ∧
  (NotNegative (n.get a) → getAttr n'.attrs (.id a) = getAttr n.attrs (.id a)) ∧
  (¬ NotNegative (n.get a) → n'.has a = false)

/-- The attribute is exactly as before: value and visibility. -/
def Same (a : AId) (n n' : Node) : Prop := getAttr n'.attrs (.id a) = getAttr n.attrs (.id a)

/-- The points of a polyline or polygon: whole pairs only, and at least one. -/
def PointsFixed (n n' : Node) : Prop :=
  match n.get .points with
  | some (.numberList p) =>
    if p.length < 2 then n'.has .points = false
    else n'.get .points = some (.numberList (p.take (2 * (p.length / 2))))
  | _ => Same .points n n'

/-- What fixing does to one element with its children. -/
structure Fixed (x y : Node × Forest) : Prop where
  key : y.1.key = x.1.key
  kind : y.1.kind = x.1.kind
  id : y.1.id = x.1.id
  marker : y.1.has .marker = false
  other : ∀ a, a ≠ .marker → a ≠ .offset → (x.1.kind = .elem .rect → a ∉ [AId.width, .height, .rx, .ry]) →
    (x.1.kind = .elem .polyline ∨ x.1.kind = .elem .polygon → a ≠ .points) → Same a x.1 y.1
  foreign : ∀ s, getAttr y.1.attrs (.name s) = getAttr x.1.attrs (.name s)
  rect : x.1.kind = .elem .rect →
    SizeFixed .width x.1 y.1 ∧ SizeFixed .height x.1 y.1 ∧ RadiusFixed .rx x.1 y.1 ∧ RadiusFixed .ry x.1 y.1
  poly : x.1.kind = .elem .polyline ∨ x.1.kind = .elem .polygon → PointsFixed x.1 y.1
  /-- The children of a gradient get normalised offsets ... -/
  offsets : x.1.isGradient → ∃ ins outs, x.2.top.map offsetOf = ins.map some ∧ y.2.top.map offsetOf = outs.map some ∧
    Normalised ins outs
  /-- ... the offsets of the children of other elements stay. -/
  keepOffsets : x.1.isGradient = false →
    y.2.top.map (fun n => getAttr n.attrs (.id .offset)) = x.2.top.map (fun n => getAttr n.attrs (.id .offset))

/-! ### Offsets -/

theorem fixOffset_eq (p o : ℚ) : fixOffset p o = max p (clamp01 o) := by
  unfold fixOffset clamp01
  simp only
  split_ifs <;> (try simp only [max_def, min_def]) <;> split_ifs <;> linarith

/-- The loop on numbers. -/
def offs : ℚ → List ℚ → List ℚ
  | _, [] => []
  | p, o :: t => max p (clamp01 o) :: offs (max p (clamp01 o)) t

theorem offs_length (p : ℚ) (l : List ℚ) : (offs p l).length = l.length := by
  induction l generalizing p with
  | nil => rfl
  | cons o t ih => simp [offs, ih]

theorem offs_get (p : ℚ) (l : List ℚ) (i : Nat) (h : i < (offs p l).length) :
    (∀ j ≤ i, ∀ x ∈ l[j]?, clamp01 x ≤ (offs p l)[i]) ∧ p ≤ (offs p l)[i] ∧
    ((offs p l)[i] = p ∨ ∃ j ≤ i, ∃ x ∈ l[j]?, (offs p l)[i] = clamp01 x) := by
  induction l generalizing p i with
  | nil => simp [offs] at h
  | cons o t ih =>
    cases i with
    | zero =>
      simp only [offs, List.getElem_cons_zero]
      refine ⟨?_, le_max_left _ _, ?_⟩
      · intro j hj x hx
        obtain rfl : j = 0 := by omega
        simp at hx
        rw [← hx]; exact le_max_right _ _
      · rcases le_total p (clamp01 o) with hp | hp
        · right; exact ⟨0, le_refl _, o, by simp, max_eq_right hp⟩
        · left; exact max_eq_left hp
    | succ i =>
      simp only [offs, List.getElem_cons_succ]
      simp only [offs, List.length_cons] at h
      obtain ⟨h1, h2, h3⟩ := ih (max p (clamp01 o)) i (by omega)
      refine ⟨?_, le_trans (le_max_left _ _) h2, ?_⟩
      · intro j hj x hx
        cases j with
        | zero => simp at hx; rw [← hx]; exact le_trans (le_max_right _ _) h2
        | succ j => exact h1 j (by omega) x (by simpa using hx)
      · rcases h3 with h3 | ⟨j, hj, x, hx, he⟩
        · rcases le_total p (clamp01 o) with hp | hp
          · right; exact ⟨0, by omega, o, by simp, h3.trans (max_eq_right hp)⟩
          · left; exact h3.trans (max_eq_left hp)
        · right; exact ⟨j + 1, by omega, x, by simpa using hx, he⟩

theorem clamp01_range (q : ℚ) : 0 ≤ clamp01 q ∧ clamp01 q ≤ 1 := by
  unfold clamp01
  exact ⟨le_max_left _ _, max_le (by norm_num) (min_le_left _ _)⟩

theorem clamp01_id {q : ℚ} (h : 0 ≤ q ∧ q ≤ 1) : clamp01 q = q := by
  unfold clamp01; rw [min_eq_right h.2, max_eq_right h.1]

theorem offs_normalised (l : List ℚ) : Normalised l (offs 0 l) := by
  refine ⟨offs_length _ _, ?_⟩
  intro i h
  obtain ⟨h1, h2, h3⟩ := offs_get 0 l i h
  constructor
  · rcases h3 with h3 | ⟨j, hj, x, hx, he⟩
    · -- the running value is still 0, so the current offset was clamped to 0
      rw [offs_length] at h
      have := h1 i le_rfl l[i] (by simp [h])
      refine ⟨i, le_rfl, l[i], by simp [h], ?_⟩
      rw [h3] at this ⊢
      exact le_antisymm (clamp01_range _).1 this
    · exact ⟨j, hj, x, hx, he⟩
  · rintro q ⟨j, hj, x, hx, rfl⟩
    exact h1 j hj x hx

/-- The rule fixes the result. -/
theorem normalised_unique {l a b : List ℚ} (ha : Normalised l a) (hb : Normalised l b) : a = b := by
  apply List.ext_getElem (ha.1.trans hb.1.symm)
  intro i h1 h2
  exact (ha.2 i h1).unique (hb.2 i h2)

/-- What the rule gives is valid. -/
theorem normalised_valid {l a : List ℚ} (h : Normalised l a) : ValidOffsets a := by
  constructor
  · rw [List.pairwise_iff_getElem]
    intro i j hi hj hij
    obtain ⟨⟨j', hj', x, hx, he⟩, _⟩ := h.2 i hi
    exact (h.2 j hj).2 ⟨j', by omega, x, hx, he⟩
  · intro q hq
    obtain ⟨i, hi, rfl⟩ := List.mem_iff_getElem.1 hq
    obtain ⟨⟨j', hj', x, hx, he⟩, _⟩ := h.2 i hi
    rw [he]; exact clamp01_range x

/-- Valid offsets stay. -/
theorem normalised_of_valid {l : List ℚ} (h : ValidOffsets l) : Normalised l l := by
  refine ⟨rfl, ?_⟩
  intro i hi
  constructor
  · exact ⟨i, le_rfl, l[i], by simp [hi], (clamp01_id (h.2 _ (List.getElem_mem hi))).symm⟩
  · rintro q ⟨j, hj, x, hx, rfl⟩
    obtain ⟨hjl, rfl⟩ := List.getElem?_eq_some_iff.1 hx
    rw [clamp01_id (h.2 _ (List.getElem_mem hjl))]
    rcases Nat.lt_or_ge j i with hlt | hge
    · exact List.pairwise_iff_getElem.1 h.1 j i hjl hi hlt
    · obtain rfl : j = i := by omega
      exact le_rfl

/-! ### One node -/

theorem getAttr_modValue (n : Node) (a : AId) (g : Value → Value) (b : AName) :
    getAttr (modValue n a g).attrs b =
      (getAttr n.attrs b).map (fun x => if b = .id a then { x with value := g x.value } else x) := by
  unfold getAttr modValue
  simp only
  induction n.attrs with
  | nil => rfl
  | cons x t ih =>
    by_cases h : x.name = b
    · by_cases h2 : x.name = .id a
      · subst h; simp [h2]
      · subst h; simp [h2]
    · have h' : (if x.name = .id a then ({ x with value := g x.value } : Attr) else x).name ≠ b := by split <;> exact h
      simp only [List.map_cons]
      rw [List.find?_cons_of_neg (by simpa using h'), List.find?_cons_of_neg (by simpa using h), ih]

theorem getAttr_set (n : Node) (a : AId) (v : Value) (b : AName) :
    getAttr (n.set a v).attrs b = if b = .id a then some ⟨.id a, v, true⟩ else getAttr n.attrs b := by
  unfold Node.set; simp only [getAttr_put]

theorem getAttr_nodeRm (n : Node) (a : AId) (b : AName) :
    getAttr (n.rm a).attrs b = if b = .id a then none else getAttr n.attrs b := by
  unfold Node.rm; simp only [getAttr_rm]

theorem getAttr_fixLen (n : Node) (a : AId) (b : AName) (h : b ≠ .id a) :
    getAttr (fixLen n a).attrs b = getAttr n.attrs b := by
  unfold fixLen
  split
  · split
    · split
      · rw [getAttr_set, if_neg h]
      · rfl
    · rfl
  · rw [getAttr_set, if_neg h]

theorem getAttr_rmNegativeLen (n : Node) (a : AId) (b : AName) (h : b ≠ .id a) :
    getAttr (rmNegativeLen n a).attrs b = getAttr n.attrs b := by
  unfold rmNegativeLen
  split
  · split
    · rw [getAttr_nodeRm, if_neg h]
    · rfl
  · rfl

theorem sizeFixed_fixLen (n : Node) (a : AId) : SizeFixed a n (fixLen n a) := by
  unfold fixLen SizeFixed
  by_cases hh : n.has a = true
  · rw [if_pos hh]
    split
    · rename_i l hl
      split
      · rename_i hneg
        refine ⟨by simp, ?_, ?_, by simp⟩
        · intro l'; simp; rintro rfl; simp
        · intro _ h; exact absurd (h l hl) (not_le.2 hneg)
      · rename_i hneg
        refine ⟨hh, ?_, fun _ _ => rfl, ?_⟩
        · intro l' h'; rw [hl] at h'; simp at h'; subst h'; exact not_lt.1 hneg
        · rintro (h | h)
          · exact absurd hh h
          · exact absurd (fun l' h' => by rw [hl] at h'; simp at h'; subst h'; exact not_lt.1 hneg) h
    · rename_i hl
      refine ⟨hh, fun l' h' => absurd h' (hl l'), fun _ _ => rfl, ?_⟩
      rintro (h | h)
      · exact absurd hh h
      · exact absurd (fun l' h' => absurd h' (hl l')) h
  · rw [if_neg hh]
    refine ⟨by simp, ?_, ?_, by simp⟩
    · intro l'; simp; rintro rfl; simp
    · intro h; exact absurd h hh

theorem radiusFixed_rm (n : Node) (a : AId) : RadiusFixed a n (rmNegativeLen n a) := by
  unfold rmNegativeLen RadiusFixed
  split
  · rename_i l hl
    split
    · rename_i hneg
      refine ⟨by intro l'; simp, ?_, by simp⟩
      intro h; exact absurd (h l hl) (not_le.2 hneg)
    · rename_i hneg
      have : NotNegative (n.get a) := by
        intro l' h'; rw [hl] at h'; simp at h'; subst h'; exact not_lt.1 hneg
      exact ⟨this, fun _ => rfl, fun h => absurd this h⟩
  · rename_i hl
    have : NotNegative (n.get a) := fun l' h' => absurd h' (hl l')
    exact ⟨this, fun _ => rfl, fun h => absurd this h⟩

theorem get_of_getAttr {m n : Node} {a : AId} (h : getAttr m.attrs (.id a) = getAttr n.attrs (.id a)) :
    m.get a = n.get a := by unfold Node.get; rw [h]

theorem has_of_getAttr {m n : Node} {a : AId} (h : getAttr m.attrs (.id a) = getAttr n.attrs (.id a)) :
    m.has a = n.has a := by unfold Node.has; rw [h]

theorem SizeFixed.congr {a : AId} {n n' m m' : Node} (h : SizeFixed a n n')
    (h1 : getAttr m.attrs (.id a) = getAttr n.attrs (.id a)) (h2 : getAttr m'.attrs (.id a) = getAttr n'.attrs (.id a)) :
    SizeFixed a m m' := by
  unfold SizeFixed at *
  rw [get_of_getAttr h1, get_of_getAttr h2, has_of_getAttr h1, has_of_getAttr h2, h1, h2]
  exact h

theorem RadiusFixed.congr {a : AId} {n n' m m' : Node} (h : RadiusFixed a n n')
    (h1 : getAttr m.attrs (.id a) = getAttr n.attrs (.id a)) (h2 : getAttr m'.attrs (.id a) = getAttr n'.attrs (.id a)) :
    RadiusFixed a m m' := by
  unfold RadiusFixed at *
  rw [get_of_getAttr h1, get_of_getAttr h2, has_of_getAttr h2, h1, h2]
  exact h

theorem PointsFixed.congr {n n' m m' : Node} (h : PointsFixed n n')
    (h1 : getAttr m.attrs (.id .points) = getAttr n.attrs (.id .points))
    (h2 : getAttr m'.attrs (.id .points) = getAttr n'.attrs (.id .points)) : PointsFixed m m' := by
  unfold PointsFixed Same at *
  rw [get_of_getAttr h1, get_of_getAttr h2, has_of_getAttr h2, h1, h2]
  exact h

theorem evenPoints_eq (p : List ℚ) : evenPoints p = p.take (2 * (p.length / 2)) := by
  unfold evenPoints
  split
  · rw [List.dropLast_eq_take]; congr 1; omega
  · rw [List.take_of_length_le (by omega)]

theorem pointsFixed_fixPoly (n : Node) : PointsFixed n (fixPoly n) := by
  unfold fixPoly PointsFixed
  cases hp : n.get .points with
  | none => simp [Same]
  | some v =>
    cases v <;> try (simp [Same]; done)
    rename_i p
    simp only
    have he : evenPoints p = [] ↔ p.length < 2 := by
      rw [evenPoints_eq, List.take_eq_nil_iff]
      constructor
      · rintro (h | h)
        · omega
        · simp [h]
      · intro h; left; omega
    by_cases h : p.length < 2
    · rw [if_pos h, if_pos (he.2 h)]; simp
    · rw [if_neg h, if_neg (fun hc => h (he.1 hc))]
      have hg := getAttr_modValue n .points evenPointsValue (.id .points)
      unfold Node.get at hp ⊢
      rw [hg, ← evenPoints_eq]
      cases hx : getAttr n.attrs (.id .points) with
      | none => simp [hx] at hp
      | some x => simp [hx] at hp; simp [hp, evenPointsValue]

theorem getAttr_fixPoly (n : Node) (b : AName) (h : b ≠ .id .points) :
    getAttr (fixPoly n).attrs b = getAttr n.attrs b := by
  unfold fixPoly
  split
  · split
    · rw [getAttr_nodeRm, if_neg h]
    · rw [getAttr_modValue]; simp [h]
  · rfl

theorem getAttr_fixRect (n : Node) (b : AName) (h : ∀ a ∈ [AId.width, .height, .rx, .ry], b ≠ .id a) :
    getAttr (fixRect n).attrs b = getAttr n.attrs b := by
  unfold fixRect
  rw [getAttr_rmNegativeLen _ _ _ (h _ (by simp)), getAttr_rmNegativeLen _ _ _ (h _ (by simp)),
    getAttr_fixLen _ _ _ (h _ (by simp)), getAttr_fixLen _ _ _ (h _ (by simp))]

theorem fixLen_same (n : Node) (a : AId) : (fixLen n a).key = n.key ∧ (fixLen n a).kind = n.kind ∧ (fixLen n a).id = n.id := by
  unfold fixLen; split <;> (try split) <;> (try split) <;> simp

theorem rmNeg_same (n : Node) (a : AId) :
    (rmNegativeLen n a).key = n.key ∧ (rmNegativeLen n a).kind = n.kind ∧ (rmNegativeLen n a).id = n.id := by
  unfold rmNegativeLen; split <;> (try split) <;> simp

theorem fixNode_same (n : Node) : (fixNode n).key = n.key ∧ (fixNode n).kind = n.kind ∧ (fixNode n).id = n.id := by
  have hp : (fixPoly n).key = n.key ∧ (fixPoly n).kind = n.kind ∧ (fixPoly n).id = n.id := by
    unfold fixPoly modValue; split <;> (try split) <;> simp
  have hr : (fixRect n).key = n.key ∧ (fixRect n).kind = n.kind ∧ (fixRect n).id = n.id := by
    unfold fixRect; simp [fixLen_same, rmNeg_same]
  unfold fixNode
  split <;> first | exact hr | exact hp | simp

theorem getAttr_fixNode (n : Node) (b : AName)
    (h1 : n.kind = .elem .rect → ∀ a ∈ [AId.width, .height, .rx, .ry], b ≠ .id a)
    (h2 : n.kind = .elem .polyline ∨ n.kind = .elem .polygon → b ≠ .id .points) :
    getAttr (fixNode n).attrs b = getAttr n.attrs b := by
  unfold fixNode
  split
  · exact getAttr_fixRect n b (h1 ‹_›)
  · exact getAttr_fixPoly n b (h2 (.inl ‹_›))
  · exact getAttr_fixPoly n b (h2 (.inr ‹_›))
  · rfl

theorem rectFixed (n : Node) (h : n.kind = .elem .rect) :
    SizeFixed .width n (fixNode n) ∧ SizeFixed .height n (fixNode n) ∧ RadiusFixed .rx n (fixNode n) ∧
      RadiusFixed .ry n (fixNode n) := by
  have e : fixNode n = fixRect n := by unfold fixNode; rw [h]
  rw [e]; unfold fixRect
  refine ⟨?_, ?_, ?_, ?_⟩
  · refine (sizeFixed_fixLen n .width).congr rfl ?_
    rw [getAttr_rmNegativeLen _ _ _ (by simp), getAttr_rmNegativeLen _ _ _ (by simp), getAttr_fixLen _ _ _ (by simp)]
  · refine (sizeFixed_fixLen (fixLen n .width) .height).congr ?_ ?_
    · rw [getAttr_fixLen _ _ _ (by simp)]
    · rw [getAttr_rmNegativeLen _ _ _ (by simp), getAttr_rmNegativeLen _ _ _ (by simp)]
  · refine (radiusFixed_rm (fixLen (fixLen n .width) .height) .rx).congr ?_ ?_
    · rw [getAttr_fixLen _ _ _ (by simp), getAttr_fixLen _ _ _ (by simp)]
    · rw [getAttr_rmNegativeLen _ _ _ (by simp)]
  · refine (radiusFixed_rm (rmNegativeLen (fixLen (fixLen n .width) .height) .rx) .ry).congr ?_ rfl
    rw [getAttr_rmNegativeLen _ _ _ (by simp), getAttr_fixLen _ _ _ (by simp), getAttr_fixLen _ _ _ (by simp)]

theorem polyFixed (n : Node) (h : n.kind = .elem .polyline ∨ n.kind = .elem .polygon) : PointsFixed n (fixNode n) := by
  have e : fixNode n = fixPoly n := by unfold fixNode; rcases h with h | h <;> rw [h]
  rw [e]; exact pointsFixed_fixPoly n

/-! ### The tree -/

/-- Everything but the offset is the same, and the children are the same. -/
structure SameButOffset (x y : Node × Forest) : Prop where
  kids : y.2 = x.2
  key : y.1.key = x.1.key
  kind : y.1.kind = x.1.kind
  id : y.1.id = x.1.id
  attrs : ∀ b, b ≠ .id .offset → getAttr y.1.attrs b = getAttr x.1.attrs b

theorem SameButOffset.refl (x : Node × Forest) : SameButOffset x x := ⟨rfl, rfl, rfl, rfl, fun _ _ => rfl⟩

theorem isGradient_congr {m n : Node} (h : m.kind = n.kind) : m.isGradient = n.isGradient := by
  unfold Node.isGradient Node.isTag; rw [h]

theorem fixStopKids_spec {p : ℚ} {f g : Forest} (h : fixStopKids p f = some g) :
    List.Forall₂ SameButOffset (subs f) (subs g) ∧
    ∃ ins, f.top.map offsetOf = ins.map some ∧ g.top.map offsetOf = (offs p ins).map some := by
  induction f generalizing p g with
  | nil =>
    simp [fixStopKids] at h; rw [← h]
    exact ⟨.nil, [], rfl, rfl⟩
  | cons n k r _ ih =>
    unfold fixStopKids at h
    split at h
    · rename_i l hl
      split at h
      · rename_i hu
        rw [Option.map_eq_some_iff] at h
        obtain ⟨r', h1, rfl⟩ := h
        obtain ⟨ha, ins, hb, hc⟩ := ih h1
        refine ⟨?_, l.num :: ins, ?_, ?_⟩
        · simp only [subs]
          refine .cons ⟨rfl, rfl, rfl, rfl, ?_⟩ (List.rel_append (List.forall₂_same.2 fun x _ => SameButOffset.refl x) ha)
          · intro b hb; simp only [getAttr_set, if_neg hb]
        · simp only [Forest.top, List.map_cons, hb]
          congr 1
          unfold offsetOf; rw [hl]
          obtain ⟨q, u⟩ := l
          simp only at hu; subst hu; rfl
        · simp only [Forest.top, List.map_cons, offs, hc, fixOffset_eq]
          congr 1
          unfold offsetOf; simp
      · cases h
    · cases h

/-- `Fixed` but for the `marker` attribute, which goes away in a second pass. -/
structure Fixed0 (x y : Node × Forest) : Prop where
  key : y.1.key = x.1.key
  kind : y.1.kind = x.1.kind
  id : y.1.id = x.1.id
  other : ∀ b, b ≠ .id .offset → (x.1.kind = .elem .rect → ∀ a ∈ [AId.width, .height, .rx, .ry], b ≠ .id a) →
    (x.1.kind = .elem .polyline ∨ x.1.kind = .elem .polygon → b ≠ .id .points) →
    getAttr y.1.attrs b = getAttr x.1.attrs b
  rect : x.1.kind = .elem .rect →
    SizeFixed .width x.1 y.1 ∧ SizeFixed .height x.1 y.1 ∧ RadiusFixed .rx x.1 y.1 ∧ RadiusFixed .ry x.1 y.1
  poly : x.1.kind = .elem .polyline ∨ x.1.kind = .elem .polygon → PointsFixed x.1 y.1
  offsets : x.1.isGradient → ∃ ins, x.2.top.map offsetOf = ins.map some ∧
    y.2.top.map offsetOf = (offs 0 ins).map some
  keepOffsets : x.1.isGradient = false →
    y.2.top.map (fun n => getAttr n.attrs (.id .offset)) = x.2.top.map (fun n => getAttr n.attrs (.id .offset))

theorem Fixed0.trans' {x y z : Node × Forest} (h1 : SameButOffset x y) (h2 : Fixed0 y z) : Fixed0 x z := by
  obtain ⟨x1, x2⟩ := x
  obtain ⟨y1, y2⟩ := y
  obtain ⟨hk, hkey, hkind, hid, ha⟩ := h1
  simp only at hk hkey hkind hid ha
  subst hk
  have hg := isGradient_congr hkind
  refine ⟨h2.key.trans hkey, h2.kind.trans hkind, h2.id.trans hid, ?_, ?_, ?_, ?_, ?_⟩
  · intro b hb hr hp
    rw [h2.other b hb (fun h => hr (hkind ▸ h)) (fun h => hp (hkind ▸ h))]
    exact ha b hb
  · intro h
    obtain ⟨a1, a2, a3, a4⟩ := h2.rect (hkind.trans h)
    exact ⟨a1.congr (ha _ (by simp)).symm rfl, a2.congr (ha _ (by simp)).symm rfl,
      a3.congr (ha _ (by simp)).symm rfl, a4.congr (ha _ (by simp)).symm rfl⟩
  · intro h
    exact (h2.poly (by simpa only [hkind] using h)).congr (ha _ (by simp)).symm rfl
  · intro h; exact h2.offsets (by simpa only [hg] using h)
  · intro h; exact h2.keepOffsets (by simpa only [hg] using h)

theorem forall2_comp {α : Type} {R S T : α → α → Prop} (h : ∀ x y z, R x y → S y z → T x z) {a b c : List α}
    (h1 : List.Forall₂ R a b) (h2 : List.Forall₂ S b c) : List.Forall₂ T a c := by
  induction h1 generalizing c with
  | nil => cases h2; exact .nil
  | cons hr _ ih => cases h2 with | cons hs ht => exact .cons (h _ _ _ hr hs) (ih ht)

theorem forall2_right {α β : Type} {R : α → β → Prop} {a : List α} {b : List β} (h : List.Forall₂ R a b) {y : β}
    (hy : y ∈ b) : ∃ x ∈ a, R x y := by
  induction h with
  | nil => simp at hy
  | cons hr _ ih =>
    rcases List.mem_cons.1 hy with rfl | hy
    · exact ⟨_, by simp, hr⟩
    · obtain ⟨x, hx, h⟩ := ih hy; exact ⟨x, by simp [hx], h⟩

theorem forall2_left {α β : Type} {R : α → β → Prop} {a : List α} {b : List β} (h : List.Forall₂ R a b) {x : α}
    (hx : x ∈ a) : ∃ y ∈ b, R x y := forall2_right h.flip hx

theorem offset_fixNode (n : Node) : getAttr (fixNode n).attrs (.id .offset) = getAttr n.attrs (.id .offset) :=
  getAttr_fixNode n _ (by intro _ a; simp; rintro (rfl | rfl | rfl | rfl) <;> simp) (by simp)

theorem offsetOf_congr {m n : Node} (h : getAttr m.attrs (.id .offset) = getAttr n.attrs (.id .offset)) :
    offsetOf m = offsetOf n := by unfold offsetOf; rw [get_of_getAttr h]

theorem fixGo_cons {n : Node} {k r g : Forest} (h : fixGo (.cons n k r) = some g) :
    ∃ k1 k2 r', (if n.isGradient then fixStopKids 0 k else some k) = some k1 ∧ fixGo k1 = some k2 ∧
      fixGo r = some r' ∧ g = .cons (fixNode n) k2 r' := by
  rw [fixGo.eq_def] at h
  simp only at h
  split at h
  · cases h
  · rename_i k1 hk
    rw [Option.bind_eq_some_iff] at h
    obtain ⟨k2, h2, h⟩ := h
    rw [Option.map_eq_some_iff] at h
    obtain ⟨r', h3, h⟩ := h
    exact ⟨k1, k2, r', hk, h2, h3, h.symm⟩

theorem fixGo_top {f g : Forest} (h : fixGo f = some g) : g.top = f.top.map fixNode := by
  induction f generalizing g with
  | nil => rw [fixGo.eq_def] at h; simp at h; rw [← h]; rfl
  | cons n k r _ ih =>
    obtain ⟨k1, k2, r', _, _, h3, rfl⟩ := fixGo_cons h
    simp [Forest.top, ih h3]

theorem fixGo_spec (s : Nat) {f g : Forest} (hs : size f ≤ s) (h : fixGo f = some g) :
    List.Forall₂ Fixed0 (subs f) (subs g) := by
  induction s generalizing f g with
  | zero =>
    cases f with
    | nil => rw [fixGo.eq_def] at h; simp at h; rw [← h]; exact .nil
    | cons n k r => simp [size] at hs
  | succ s ih =>
    cases f with
    | nil => rw [fixGo.eq_def] at h; simp at h; rw [← h]; exact .nil
    | cons n k r =>
      obtain ⟨k1, k2, r', h1, h2, h3, rfl⟩ := fixGo_cons h
      simp only [size] at hs
      have hk : List.Forall₂ SameButOffset (subs k) (subs k1) ∧ size k1 = size k := by
        split at h1
        · exact ⟨(fixStopKids_spec h1).1, fixStopKids_size h1⟩
        · simp at h1; subst h1
          exact ⟨List.forall₂_same.2 fun x _ => SameButOffset.refl x, rfl⟩
      simp only [subs]
      refine .cons ?_ (List.rel_append (forall2_comp (R := SameButOffset) (S := Fixed0) (T := Fixed0) (fun _ _ _ a b => Fixed0.trans' a b) hk.1 (ih (by omega) h2)) (ih (by omega) h3))
      obtain ⟨e1, e2, e3⟩ := fixNode_same n
      refine ⟨e1, e2, e3, ?_, rectFixed n, polyFixed n, ?_, ?_⟩
      · intro b _ hr hp; exact getAttr_fixNode n b hr hp
      · intro hg
        simp only at hg
        rw [if_pos hg] at h1
        obtain ⟨_, ins, ha, hb⟩ := fixStopKids_spec h1
        refine ⟨ins, ha, ?_⟩
        simp only [fixGo_top h2, List.map_map]
        rw [← hb]
        apply List.map_congr_left
        intro m _
        exact offsetOf_congr (offset_fixNode m)
      · intro hg
        simp only at hg
        rw [hg] at h1
        simp at h1; subst h1
        simp only [fixGo_top h2, List.map_map]
        apply List.map_congr_left
        intro m _
        exact offset_fixNode m

theorem subs_map (g : Node → Node) (f : Forest) : subs (f.map g) = (subs f).map (fun x => (g x.1, x.2.map g)) := by
  induction f with
  | nil => rfl
  | cons n k r ih1 ih2 => simp [subs, ih1, ih2]

theorem top_map (g : Node → Node) (f : Forest) : (f.map g).top = f.top.map g := by
  induction f with
  | nil => rfl
  | cons n k r _ ih => simp [Forest.top, ih]

/-- **C28, C52.** If `fix_invalid_attributes` does not crash, then it does to every element, in document order, what
`Fixed` says. -/
theorem C28_C52_fixed {f g : Forest} (h : fixInvalidAttributes f = some g) : List.Forall₂ Fixed (subs f) (subs g) := by
  unfold fixInvalidAttributes at h
  rw [Option.map_eq_some_iff] at h
  obtain ⟨g0, h0, rfl⟩ := h
  rw [subs_map, List.forall₂_map_right_iff]
  refine (fixGo_spec _ le_rfl h0).imp ?_
  intro x y hf
  have hm : ∀ b, b ≠ .id .marker → getAttr (y.1.rm .marker).attrs b = getAttr y.1.attrs b := by
    intro b hb; rw [getAttr_nodeRm, if_neg hb]
  refine ⟨hf.key, hf.kind, hf.id, by simp, ?_, ?_, ?_, ?_, ?_, ?_⟩
  · intro a h1 h2 h3 h4
    unfold Same
    simp only
    rw [hm _ (by simpa using h1)]
    refine hf.other _ (by simpa using h2) ?_ (fun h => by simpa using h4 h)
    intro hr b hb hc
    simp only [AName.id.injEq] at hc
    subst hc
    exact h3 hr hb
  · intro s
    simp only
    rw [hm _ (by simp)]
    exact hf.other _ (by simp) (by intros; simp) (by simp)
  · intro hr
    obtain ⟨a1, a2, a3, a4⟩ := hf.rect hr
    exact ⟨a1.congr rfl (hm _ (by simp)), a2.congr rfl (hm _ (by simp)), a3.congr rfl (hm _ (by simp)),
      a4.congr rfl (hm _ (by simp))⟩
  · intro hp
    exact (hf.poly hp).congr rfl (hm _ (by simp))
  · intro hg
    obtain ⟨ins, h1, h2⟩ := hf.offsets hg
    refine ⟨ins, offs 0 ins, h1, ?_, offs_normalised ins⟩
    rw [top_map, List.map_map, ← h2]
    apply List.map_congr_left
    intro m _
    exact offsetOf_congr (by rw [getAttr_nodeRm, if_neg (by simp)])
  · intro hg
    rw [← hf.keepOffsets hg, top_map, List.map_map]
    apply List.map_congr_left
    intro m _
    simp only [Function.comp]
    rw [getAttr_nodeRm, if_neg (by simp)]

theorem fixStopKids_shape {p : ℚ} {f g : Forest} (h : fixStopKids p f = some g) (o : Option Nat) :
    shape o g = shape o f := by
  induction f generalizing p g with
  | nil => simp [fixStopKids] at h; rw [← h]
  | cons n k r _ ih =>
    unfold fixStopKids at h
    split at h
    · split at h
      · rw [Option.map_eq_some_iff] at h
        obtain ⟨r', h1, rfl⟩ := h
        simp [shape, ih h1]
      · cases h
    · cases h

theorem fixGo_shape (s : Nat) {f g : Forest} (hs : size f ≤ s) (h : fixGo f = some g) (o : Option Nat) :
    shape o g = shape o f := by
  induction s generalizing f g o with
  | zero =>
    cases f with
    | nil => rw [fixGo.eq_def] at h; simp at h; rw [← h]
    | cons n k r => simp [size] at hs
  | succ s ih =>
    cases f with
    | nil => rw [fixGo.eq_def] at h; simp at h; rw [← h]
    | cons n k r =>
      obtain ⟨k1, k2, r', h1, h2, h3, rfl⟩ := fixGo_cons h
      simp only [size] at hs
      have hk : ∀ o, shape o k1 = shape o k ∧ size k1 = size k := by
        intro o
        split at h1
        · exact ⟨fixStopKids_shape h1 o, fixStopKids_size h1⟩
        · simp at h1; subst h1; exact ⟨rfl, rfl⟩
      simp only [shape, (fixNode_same n).1]
      rw [ih (by have := (hk none).2; omega) h2, ih (by omega) h3, (hk _).1]

theorem shape_map_key {g : Node → Node} (hg : ∀ n, (g n).key = n.key) (f : Forest) (o : Option Nat) :
    shape o (f.map g) = shape o f := by
  induction f generalizing o with
  | nil => rfl
  | cons n k r ih1 ih2 => simp [shape, ih1, ih2, hg]

/-- **C28, C52.** The tree itself does not change. -/
theorem C28_C52_shape {f g : Forest} (h : fixInvalidAttributes f = some g) : shape none g = shape none f := by
  unfold fixInvalidAttributes at h
  rw [Option.map_eq_some_iff] at h
  obtain ⟨g0, h0, rfl⟩ := h
  rw [shape_map_key (by simp), fixGo_shape _ le_rfl h0]

theorem map_some_inj {α : Type} {a b : List α} (h : a.map some = b.map some) : a = b :=
  List.map_injective_iff.2 (Option.some_injective _) h

/-- **C28.** Afterwards the offsets of every gradient are within [0,1] and do not decrease. -/
theorem C28_offsets_valid {f g : Forest} (h : fixInvalidAttributes f = some g) {n : Node} {k : Forest}
    (hn : (n, k) ∈ subs g) (hg : n.isGradient) : ∃ outs, k.top.map offsetOf = outs.map some ∧ ValidOffsets outs := by
  have hf := C28_C52_fixed h
  obtain ⟨x, hx, hfx⟩ := forall2_right hf hn
  obtain ⟨ins, outs, _, h2, h3⟩ := hfx.offsets (by rw [← isGradient_congr hfx.kind]; exact hg)
  exact ⟨outs, h2, normalised_valid h3⟩

/-- **C28.** Valid offsets are left alone. -/
theorem C28_valid_left_alone {f g : Forest} (h : fixInvalidAttributes f = some g) :
    List.Forall₂ (fun x y => x.1.isGradient → ∀ ins, x.2.top.map offsetOf = ins.map some → ValidOffsets ins →
      y.2.top.map offsetOf = x.2.top.map offsetOf) (subs f) (subs g) := by
  refine (C28_C52_fixed h).imp ?_
  intro x y hf hg ins hi hv
  obtain ⟨ins', outs, h1, h2, h3⟩ := hf.offsets hg
  obtain rfl : ins' = ins := map_some_inj (h1.symm.trans hi)
  rw [h2, h1, normalised_unique h3 (normalised_of_valid hv)]

/-- **C28.** Idempotent: a second run changes no offset. -/
theorem C28_idempotent {f g g' : Forest} (h : fixInvalidAttributes f = some g) (h' : fixInvalidAttributes g = some g') :
    List.Forall₂ (fun x y => x.1.isGradient → y.2.top.map offsetOf = x.2.top.map offsetOf) (subs g) (subs g') := by
  have h1 := C28_valid_left_alone h'
  have h2 : ∀ x ∈ subs g, x.1.isGradient → ∃ outs, x.2.top.map offsetOf = outs.map some ∧ ValidOffsets outs :=
    fun x hx hg => C28_offsets_valid h (n := x.1) (k := x.2) hx hg
  generalize subs g = a at *
  generalize subs g' = b at *
  induction h1 with
  | nil => exact .nil
  | cons hr _ ih =>
    refine .cons ?_ (ih fun x hx => h2 x (by simp [hx]))
    intro hg
    obtain ⟨outs, e, hv⟩ := h2 _ (by simp) hg
    exact hr hg outs e hv

theorem fixStopKids_none {p : ℚ} {f : Forest} : fixStopKids p f = none ↔ ∃ c ∈ f.top, offsetOf c = none := by
  induction f generalizing p with
  | nil => simp [fixStopKids, Forest.top]
  | cons n k r _ ih =>
    unfold fixStopKids
    split
    · rename_i l hl
      obtain ⟨q, u⟩ := l
      by_cases hu : u = .none
      · subst hu
        have : offsetOf n = some q := by unfold offsetOf; rw [hl]
        simp [ih, Forest.top, this]
      · have : offsetOf n = none := by
          unfold offsetOf; rw [hl]
          cases u <;> simp_all
        simp [hu, Forest.top, this]
    · rename_i hl
      have : offsetOf n = none := by
        unfold offsetOf
        split
        · rename_i q hq; exact absurd hq (hl _)
        · rfl
      simp [Forest.top, this]

theorem fixGo_none (s : Nat) {f : Forest} (hs : size f ≤ s) :
    fixGo f = none ↔ ∃ x ∈ subs f, x.1.isGradient ∧ ∃ c ∈ x.2.top, offsetOf c = none := by
  induction s generalizing f with
  | zero =>
    cases f with
    | nil => rw [fixGo.eq_def]; simp [subs]
    | cons n k r => simp [size] at hs
  | succ s ih =>
    cases f with
    | nil => rw [fixGo.eq_def]; simp [subs]
    | cons n k r =>
      simp only [size] at hs
      rw [fixGo.eq_def]
      simp only
      split
      · rename_i hk
        simp only [true_iff]
        split at hk
        · rename_i hg
          exact ⟨(n, k), by simp [subs], hg, fixStopKids_none.1 hk⟩
        · cases hk
      · rename_i k1 hk
        have hsz : size k1 = size k := by
          split at hk
          · exact fixStopKids_size hk
          · cases hk; rfl
        have hhead : ¬ (n.isGradient = true ∧ ∃ c ∈ k.top, offsetOf c = none) := by
          rintro ⟨hg, hc⟩
          rw [if_pos hg, fixStopKids_none.2 hc] at hk
          cases hk
        have hsub : (∃ x ∈ subs k1, x.1.isGradient ∧ ∃ c ∈ x.2.top, offsetOf c = none) ↔
            (∃ x ∈ subs k, x.1.isGradient ∧ ∃ c ∈ x.2.top, offsetOf c = none) := by
          have hF : List.Forall₂ SameButOffset (subs k) (subs k1) := by
            split at hk
            · exact (fixStopKids_spec hk).1
            · cases hk; exact List.forall₂_same.2 fun x _ => SameButOffset.refl x
          clear * - hF
          generalize subs k = a at *
          generalize subs k1 = b at *
          induction hF with
          | nil => simp
          | cons hr _ ih =>
            simp only [List.mem_cons, exists_eq_or_imp]
            refine or_congr ?_ ih
            rw [isGradient_congr hr.kind, hr.kids]
        have i1 := ih (f := k1) (by omega)
        have i2 := ih (f := r) (by omega)
        rw [hsub] at i1
        simp only [subs, List.mem_cons, List.mem_append, exists_eq_or_imp, or_and_right, exists_or]
        rw [← i1, ← i2]
        cases hk2 : fixGo k1 <;> cases hr2 : fixGo r <;> simp [hhead] <;> simpa using hhead

/-- **C28, crash freedom.** `fix_invalid_attributes` crashes exactly if a gradient has a child without a unitless
offset. -/
theorem C28_crashes_iff (f : Forest) :
    fixInvalidAttributes f = none ↔ ∃ x ∈ subs f, x.1.isGradient ∧ ∃ c ∈ x.2.top, offsetOf c = none := by
  unfold fixInvalidAttributes
  rw [Option.map_eq_none_iff, fixGo_none _ le_rfl]

/-! ### C57: resolving the attributes of stops -/

/-- The child has a length as offset. -/
def HasOffset (c : Node) : Prop := ∃ l, c.get .offset = some (.length l)

/-- An attribute that is not there gets its default, hidden, i.e. it is not written. -/
def Defaulted (a : AId) (v : Value) (c c' : Node) : Prop :=
  getAttr c'.attrs (.id a) = (getAttr c.attrs (.id a)).or (some ⟨.id a, v, false⟩)

/-- A percentage becomes a fraction; other lengths stay. -/
def OffsetResolved (c c' : Node) : Prop :=
  ∀ l, c.get .offset = some (.length l) →
    if l.unit = .percent then c'.get .offset = some (.length ⟨l.num / 100, .none⟩) else Same .offset c c'

/-- What resolving does to a child of a gradient. -/
structure StopResolved (c c' : Node) : Prop where
  key : c'.key = c.key
  kind : c'.kind = c.kind
  id : c'.id = c.id
  other : ∀ b, b ≠ .id .offset → b ≠ .id .stopColor → b ≠ .id .stopOpacity → getAttr c'.attrs b = getAttr c.attrs b
  color : Defaulted .stopColor (.color 0 0 0) c c'
  opacity : Defaulted .stopOpacity (.number 1) c c'
  offset : OffsetResolved c c'

/-- The children of a gradient: only the first may lack an offset, which is 0 then. -/
def StopsResolved : List Node → List Node → Prop
  | [], [] => True
  | c :: cs, c' :: cs' => StopResolved c c' ∧ (¬ HasOffset c → c'.get .offset = some (.length ⟨0, .none⟩)) ∧
      List.Forall₂ (fun d d' => HasOffset d ∧ StopResolved d d') cs cs'
  | _, _ => False

theorem getAttr_setDefault (n : Node) (a : AId) (v : Value) (b : AName) :
    getAttr (setDefault n a v).attrs b =
      if b = .id a then (getAttr n.attrs b).or (some ⟨.id a, v, false⟩) else getAttr n.attrs b := by
  unfold setDefault setHidden Node.has
  by_cases hb : b = .id a
  · subst hb
    cases h : getAttr n.attrs (.id a) with
    | none => simp [getAttr_put]
    | some x => simp [h]
  · cases h : getAttr n.attrs (.id a) with
    | none => simp [getAttr_put, hb]
    | some x => simp [hb]

theorem setDefault_same (n : Node) (a : AId) (v : Value) :
    (setDefault n a v).key = n.key ∧ (setDefault n a v).kind = n.kind ∧ (setDefault n a v).id = n.id := by
  unfold setDefault setHidden; split <;> simp

theorem getAttr_stopDefaults (n : Node) (b : AName) :
    getAttr (stopDefaults n).attrs b =
      if b = .id .stopOpacity then (getAttr n.attrs b).or (some ⟨.id .stopOpacity, .number 1, false⟩)
      else if b = .id .stopColor then (getAttr n.attrs b).or (some ⟨.id .stopColor, .color 0 0 0, false⟩)
      else getAttr n.attrs b := by
  unfold stopDefaults
  rw [getAttr_setDefault]
  by_cases h : b = .id .stopOpacity
  · subst h; rw [if_pos rfl, if_pos rfl, getAttr_setDefault, if_neg (by simp)]
  · rw [if_neg h, if_neg h, getAttr_setDefault]

theorem stopDefaults_same (n : Node) :
    (stopDefaults n).key = n.key ∧ (stopDefaults n).kind = n.kind ∧ (stopDefaults n).id = n.id := by
  unfold stopDefaults; simp [setDefault_same]

theorem stopResolved_of {c m : Node} (h1 : m.key = c.key ∧ m.kind = c.kind ∧ m.id = c.id)
    (h2 : ∀ b, b ≠ .id .offset → getAttr m.attrs b = getAttr c.attrs b) (h3 : OffsetResolved c m) :
    StopResolved c (stopDefaults m) := by
  obtain ⟨a1, a2, a3⟩ := stopDefaults_same m
  refine ⟨a1.trans h1.1, a2.trans h1.2.1, a3.trans h1.2.2, ?_, ?_, ?_, ?_⟩
  · intro b b1 b2 b3
    rw [getAttr_stopDefaults, if_neg b3, if_neg b2, h2 b b1]
  · unfold Defaulted
    rw [getAttr_stopDefaults, if_neg (by simp), if_pos rfl, h2 _ (by simp)]
  · unfold Defaulted
    rw [getAttr_stopDefaults, if_pos rfl, h2 _ (by simp)]
  · have e : getAttr (stopDefaults m).attrs (.id .offset) = getAttr m.attrs (.id .offset) := by
      rw [getAttr_stopDefaults, if_neg (by simp), if_neg (by simp)]
    unfold OffsetResolved Same at *
    rw [get_of_getAttr e, e]; exact h3

theorem resolveStop_spec {first : Bool} {c c' : Node} (h : resolveStop first c = .ok c') :
    StopResolved c c' ∧ (¬ HasOffset c → first = true ∧ c'.get .offset = some (.length ⟨0, .none⟩)) := by
  unfold resolveStop at h
  split at h
  · rename_i l hl
    simp only [Res.ok.injEq] at h
    subst h
    refine ⟨stopResolved_of ?_ ?_ ?_, fun hn => absurd ⟨l, hl⟩ hn⟩
    · split <;> simp
    · intro b hb
      split
      · rw [getAttr_set, if_neg hb]
      · rfl
    · intro l' hl'
      rw [hl] at hl'
      simp at hl'; subst hl'
      split
      · simp
      · rfl
  · rename_i hl
    split at h
    · rename_i hf
      simp only [Res.ok.injEq] at h
      subst h
      refine ⟨stopResolved_of (by simp) ?_ ?_, fun _ => ⟨hf, ?_⟩⟩
      · intro b hb; rw [getAttr_set, if_neg hb]
      · intro l hl'; exact absurd hl' (hl l)
      · rw [get_of_getAttr (m := stopDefaults _) (n := c.set .offset (.length ⟨0, .none⟩)) (by
          rw [getAttr_stopDefaults, if_neg (by simp), if_neg (by simp)])]
        simp
    · cases h

theorem resolveStop_err {first : Bool} {c : Node} :
    (resolveStop first c ≠ .panic) ∧
    ∀ e, resolveStop first c = .err e ↔ (e = .missingAttribute "stop" "offset" ∧ first = false ∧ ¬ HasOffset c) := by
  unfold resolveStop
  split
  · rename_i l hl
    refine ⟨by simp, fun e => ?_⟩
    simp only [reduceCtorEq, false_iff]
    rintro ⟨_, _, h⟩
    exact h ⟨l, hl⟩
  · rename_i hl
    cases first with
    | true => simp
    | false =>
      refine ⟨by simp, fun e => ?_⟩
      have : ¬ HasOffset c := fun ⟨l, h⟩ => hl l h
      simp [this, eq_comm]

theorem bind_ok {α β : Type} {x : Res α} {g : α → Res β} {b : β} : x.bind g = .ok b ↔ ∃ a, x = .ok a ∧ g a = .ok b := by
  cases x <;> simp [Res.bind]

theorem bind_err {α β : Type} {x : Res α} {g : α → Res β} {e} :
    x.bind g = .err e ↔ x = .err e ∨ ∃ a, x = .ok a ∧ g a = .err e := by
  cases x <;> simp [Res.bind]

theorem bind_panic {α β : Type} {x : Res α} {g : α → Res β} :
    x.bind g = .panic ↔ x = .panic ∨ ∃ a, x = .ok a ∧ g a = .panic := by
  cases x <;> simp [Res.bind]

/-- Same key, kind and children. -/
def SameKids (x y : Node × Forest) : Prop := y.2 = x.2 ∧ y.1.key = x.1.key ∧ y.1.kind = x.1.kind

theorem resolveKids_rest {f g : Forest} (h : resolveStopKids false f = .ok g) :
    List.Forall₂ (fun d d' => HasOffset d ∧ StopResolved d d') f.top g.top ∧ List.Forall₂ SameKids (subs f) (subs g) ∧
    ∀ o, shape o g = shape o f := by
  induction f generalizing g with
  | nil => simp [resolveStopKids] at h; rw [← h]; exact ⟨.nil, .nil, fun _ => rfl⟩
  | cons n k r _ ih =>
    unfold resolveStopKids at h
    rw [bind_ok] at h
    obtain ⟨n', h1, h⟩ := h
    rw [bind_ok] at h
    obtain ⟨r', h2, h⟩ := h
    simp at h; subst h
    obtain ⟨i1, i2, i3⟩ := ih h2
    obtain ⟨s1, s2⟩ := resolveStop_spec h1
    refine ⟨.cons ⟨?_, s1⟩ i1, .cons ⟨rfl, s1.key, s1.kind⟩ (List.rel_append (List.forall₂_same.2 fun x _ => ⟨rfl, rfl, rfl⟩) i2), ?_⟩
    · by_contra hc
      exact absurd (s2 hc).1 (by simp)
    · intro o; simp [shape, i3, s1.key]

theorem resolveKids_spec {f g : Forest} (h : resolveStopKids true f = .ok g) :
    StopsResolved f.top g.top ∧ List.Forall₂ SameKids (subs f) (subs g) ∧ ∀ o, shape o g = shape o f := by
  cases f with
  | nil => simp [resolveStopKids] at h; rw [← h]; exact ⟨trivial, .nil, fun _ => rfl⟩
  | cons n k r =>
    unfold resolveStopKids at h
    rw [bind_ok] at h
    obtain ⟨n', h1, h⟩ := h
    rw [bind_ok] at h
    obtain ⟨r', h2, h⟩ := h
    simp at h; subst h
    obtain ⟨i1, i2, i3⟩ := resolveKids_rest h2
    obtain ⟨s1, s2⟩ := resolveStop_spec h1
    refine ⟨⟨s1, fun hc => (s2 hc).2, i1⟩, .cons ⟨rfl, s1.key, s1.kind⟩ (List.rel_append (List.forall₂_same.2 fun x _ => ⟨rfl, rfl, rfl⟩) i2), ?_⟩
    intro o; simp [shape, i3, s1.key]

theorem resolveKids_errors {f : Forest} (b : Bool) : resolveStopKids b f ≠ .panic ∧
    ((∃ e, resolveStopKids b f = .err e) ↔ ∃ c ∈ (if b then f.top.tail else f.top), ¬ HasOffset c) ∧
    ∀ e, resolveStopKids b f = .err e → e = .missingAttribute "stop" "offset" := by
  induction f generalizing b with
  | nil => simp [resolveStopKids, Forest.top]
  | cons n k r _ ih =>
    obtain ⟨e1, e2⟩ := resolveStop_err (first := b) (c := n)
    obtain ⟨i1, i2, i3⟩ := ih false
    refine ⟨?_, ?_, ?_⟩
    · unfold resolveStopKids
      rw [Ne, bind_panic]
      rintro (h | ⟨a, ha, h⟩)
      · exact e1 h
      · rw [bind_panic] at h
        rcases h with h | ⟨a, _, h⟩
        · exact i1 h
        · cases h
    · unfold resolveStopKids
      cases hn : resolveStop b n with
      | panic => exact absurd hn e1
      | err e =>
        have h := (e2 e).1 hn
        simp only [Res.bind, Res.err.injEq, exists_eq', true_iff]
        rw [h.2.1]
        exact ⟨n, by simp [Forest.top], h.2.2⟩
      | ok n' =>
        have h0 : ¬ (b = false ∧ ¬ HasOffset n) := by
          rintro ⟨h1, h2⟩
          have := (e2 (.missingAttribute "stop" "offset")).2 ⟨rfl, h1, h2⟩
          rw [hn] at this; cases this
        simp only [Res.bind.eq_1]
        have h1 : (∃ e, (resolveStopKids false r).bind (fun r' => .ok (.cons n' k r')) = (.err e : Res Forest)) ↔
            ∃ e, resolveStopKids false r = .err e := by
          apply exists_congr; intro e; rw [bind_err]; simp
        rw [h1, i2]
        cases b with
        | true => simp [Forest.top]
        | false =>
          simp only [true_and, not_not] at h0
          simp [Forest.top, h0]
    · intro e h
      unfold resolveStopKids at h
      rw [bind_err] at h
      rcases h with h | ⟨a, ha, h⟩
      · exact ((e2 e).1 h).1
      · rw [bind_err] at h
        rcases h with h | ⟨a, _, h⟩
        · exact i3 e h
        · cases h

theorem resolveStops_cons {n : Node} {k r : Forest} :
    resolveStops (.cons n k r) = (if n.isGradient then resolveStopKids true k else .ok k).bind fun k1 =>
      (resolveStops k1).bind fun k2 => (resolveStops r).bind fun r' => .ok (.cons n k2 r') := by
  rw [resolveStops.eq_def]
  simp only
  split <;> (rename_i h; rw [h]; rfl)

/-- What resolving does to an element with children. -/
def KidsResolved (x y : Node × Forest) : Prop :=
  y.1.key = x.1.key ∧ y.1.kind = x.1.kind ∧ (x.1.isGradient → StopsResolved x.2.top y.2.top) ∧
  (x.1.isGradient = false → y.2.top = x.2.top)

theorem resolveStops_top {f g : Forest} (h : resolveStops f = .ok g) : g.top = f.top := by
  induction f generalizing g with
  | nil => rw [resolveStops.eq_def] at h; simp at h; rw [← h]
  | cons n k r _ ih =>
    rw [resolveStops_cons] at h
    simp only [bind_ok] at h
    obtain ⟨k1, h1, k2, h2, r', h3, h⟩ := h
    simp at h; subst h
    simp [Forest.top, ih h3]

theorem resolveStops_spec (s : Nat) {f g : Forest} (hs : size f ≤ s) (h : resolveStops f = .ok g) :
    List.Forall₂ KidsResolved (subs f) (subs g) ∧ ∀ o, shape o g = shape o f := by
  induction s generalizing f g with
  | zero =>
    cases f with
    | nil => rw [resolveStops.eq_def] at h; simp at h; rw [← h]; exact ⟨.nil, fun _ => rfl⟩
    | cons n k r => simp [size] at hs
  | succ s ih =>
    cases f with
    | nil => rw [resolveStops.eq_def] at h; simp at h; rw [← h]; exact ⟨.nil, fun _ => rfl⟩
    | cons n k r =>
      rw [resolveStops_cons] at h
      simp only [bind_ok] at h
      obtain ⟨k1, h1, k2, h2, r', h3, h⟩ := h
      simp at h; subst h
      simp only [size] at hs
      have hk : (List.Forall₂ SameKids (subs k) (subs k1) ∧ ∀ o, shape o k1 = shape o k) ∧ size k1 = size k := by
        split at h1
        · exact ⟨(resolveKids_spec h1).2, resolveStopKids_size h1⟩
        · cases h1; exact ⟨⟨List.forall₂_same.2 fun x _ => ⟨rfl, rfl, rfl⟩, fun _ => rfl⟩, rfl⟩
      have i1 := ih (by omega) h2
      have i2 := ih (by omega) h3
      constructor
      · simp only [subs]
        refine .cons ⟨rfl, rfl, ?_, ?_⟩ (List.rel_append (forall2_comp (R := SameKids) (S := KidsResolved) (T := KidsResolved) ?_ hk.1.1 i1.1) i2.1)
        · intro hg
          simp only at hg
          rw [if_pos hg] at h1
          rw [resolveStops_top h2]
          exact (resolveKids_spec h1).1
        · intro hg
          simp only at hg
          rw [hg] at h1; simp at h1; subst h1
          exact resolveStops_top h2
        · rintro x y z ⟨a1, a2, a3⟩ ⟨b1, b2, b3, b4⟩
          rw [a1, isGradient_congr a3] at *
          exact ⟨b1.trans a2, b2.trans a3, b3, b4⟩
      · intro o
        simp [shape, i1.2, i2.2, hk.1.2]

/-- **C57.** If `resolve_stop_attributes` succeeds then every gradient's children are resolved, nothing else changes. -/
theorem C57_resolved {f g : Forest} (h : resolveStops f = .ok g) :
    List.Forall₂ KidsResolved (subs f) (subs g) ∧ g.top = f.top ∧ shape none g = shape none f :=
  ⟨(resolveStops_spec _ le_rfl h).1, resolveStops_top h, (resolveStops_spec _ le_rfl h).2 _⟩

theorem resolveStops_errors (s : Nat) {f : Forest} (hs : size f ≤ s) : resolveStops f ≠ .panic ∧
    ((∃ e, resolveStops f = .err e) ↔ ∃ x ∈ subs f, x.1.isGradient ∧ ∃ c ∈ x.2.top.tail, ¬ HasOffset c) ∧
    ∀ e, resolveStops f = .err e → e = .missingAttribute "stop" "offset" := by
  induction s generalizing f with
  | zero =>
    cases f with
    | nil => rw [resolveStops.eq_def]; simp [subs]
    | cons n k r => simp [size] at hs
  | succ s ih =>
    cases f with
    | nil => rw [resolveStops.eq_def]; simp [subs]
    | cons n k r =>
      simp only [size] at hs
      obtain ⟨p1, p2, p3⟩ := resolveKids_errors (f := k) true
      rw [resolveStops_cons]
      cases hk : (if n.isGradient then resolveStopKids true k else .ok k) with
      | panic => split at hk; exact absurd hk p1; cases hk
      | err e =>
        have hg : n.isGradient = true := by
          by_contra hc; simp [hc] at hk
        rw [if_pos hg] at hk
        simp only [Res.bind, ne_eq, reduceCtorEq, not_false_eq_true, Res.err.injEq, exists_eq', true_iff, true_and]
        refine ⟨?_, ?_⟩
        · obtain ⟨c, hc, h⟩ := p2.1 ⟨e, hk⟩
          exact ⟨(n, k), by simp [subs], hg, c, by simpa using hc, h⟩
        · rintro e' rfl; exact p3 _ hk
      | ok k1 =>
        have hsz : size k1 = size k := by
          split at hk
          · exact resolveStopKids_size hk
          · cases hk; rfl
        have hhead : ¬ (n.isGradient = true ∧ ∃ c ∈ k.top.tail, ¬ HasOffset c) := by
          rintro ⟨hg, hc⟩
          obtain ⟨e, he⟩ := p2.2 (by simpa using hc)
          rw [if_pos hg, he] at hk
          cases hk
        have hsub : (∃ x ∈ subs k1, x.1.isGradient ∧ ∃ c ∈ x.2.top.tail, ¬ HasOffset c) ↔
            (∃ x ∈ subs k, x.1.isGradient ∧ ∃ c ∈ x.2.top.tail, ¬ HasOffset c) := by
          have hF : List.Forall₂ SameKids (subs k) (subs k1) := by
            split at hk
            · exact (resolveKids_spec hk).2.1
            · cases hk; exact List.forall₂_same.2 fun x _ => ⟨rfl, rfl, rfl⟩
          clear * - hF
          generalize subs k = a at *
          generalize subs k1 = b at *
          induction hF with
          | nil => simp
          | cons hr _ ih =>
            simp only [List.mem_cons, exists_eq_or_imp]
            refine or_congr ?_ ih
            rw [isGradient_congr hr.2.2, hr.1]
        obtain ⟨a1, a2, a3⟩ := ih (f := k1) (by omega)
        obtain ⟨b1, b2, b3⟩ := ih (f := r) (by omega)
        rw [hsub] at a2
        simp only [Res.bind.eq_1]
        simp only [subs, List.mem_cons, List.mem_append, or_and_right, exists_or, exists_eq_left]
        rw [← a2, ← b2]
        cases hk2 : resolveStops k1 <;> cases hr2 : resolveStops r <;>
          simp_all [Res.bind]

/-- **C57.** It never crashes, and it fails exactly if some gradient has a child, other than the first, without an
offset; the error says so. -/
theorem C57_fails_iff (f : Forest) : resolveStops f ≠ .panic ∧
    ((∃ e, resolveStops f = .err e) ↔ ∃ x ∈ subs f, x.1.isGradient ∧ ∃ c ∈ x.2.top.tail, ¬ HasOffset c) ∧
    ∀ e, resolveStops f = .err e → e = .missingAttribute "stop" "offset" := resolveStops_errors _ le_rfl

theorem offsetOf_resolved {c c' : Node} (h : StopResolved c c') (ho : HasOffset c)
    (hu : ∀ l, c.get .offset = some (.length l) → l.unit = .none ∨ l.unit = .percent) : offsetOf c' ≠ none := by
  obtain ⟨⟨q, u⟩, hl⟩ := ho
  have h1 := h.offset _ hl
  unfold offsetOf
  rcases hu _ hl with h2 | h2
  · simp only at h2; subst h2
    rw [if_neg (by simp)] at h1
    rw [get_of_getAttr h1, hl]; simp
  · simp only at h2; subst h2
    rw [if_pos rfl] at h1
    rw [h1]; simp

/-- **C28, crash freedom.** After `resolve_stop_attributes` there is no crash, if every offset of the input is a number or
a percentage. -/
theorem C28_no_crash_partial {f g : Forest} (h : resolveStops f = .ok g)
    (hu : ∀ x ∈ subs f, x.1.isGradient → ∀ c ∈ x.2.top, ∀ l, c.get .offset = some (.length l) →
      l.unit = .none ∨ l.unit = .percent) : fixInvalidAttributes g ≠ none := by
  rw [Ne, C28_crashes_iff]
  rintro ⟨y, hy, hg, c', hc', hn⟩
  obtain ⟨x, hx, h1, h2, h3, _⟩ := forall2_right (C57_resolved h).1 hy
  have hg' : x.1.isGradient = true := by rw [← isGradient_congr h2]; exact hg
  have h3 := h3 hg'
  have hu := hu x hx hg'
  generalize x.2.top = a at *
  generalize y.2.top = b at *
  cases a with
  | nil => cases b with
    | nil => simp at hc'
    | cons _ _ => exact h3
  | cons d ds => cases b with
    | nil => exact h3
    | cons d' ds' =>
      obtain ⟨r1, r2, r3⟩ := h3
      rcases List.mem_cons.1 hc' with rfl | hc'
      · by_cases hd : HasOffset d
        · exact offsetOf_resolved r1 hd (hu d (by simp)) hn
        · unfold offsetOf at hn; rw [r2 hd] at hn; simp at hn
      · obtain ⟨d2, hd2, r4, r5⟩ := forall2_right r3 hc'
        exact offsetOf_resolved r5 r4 (hu d2 (by simp [hd2])) hn

/-! ### C29: the colour ramp -/

/-- A stop as the renderer sees it: an offset and a colour with its opacity. -/
structure Stop (C : Type) where
  offset : ℚ
  colour : C

/-- The colour ramp of SVG: before the first stop its colour, between two stops a mixture, after the last stop its
colour; among stops with the same offset the last one counts from there on. -/
def ramp {C : Type} (mix : C → C → ℚ → C) (none : C) : List (Stop C) → ℚ → C
  | [], _ => none
  | [s], _ => s.colour
  | s :: s' :: rest, t =>
    if t < s.offset then s.colour
    else if t < s'.offset then mix s.colour s'.colour ((t - s.offset) / (s'.offset - s.offset))
    else ramp mix none (s' :: rest) t

/-- The colour of a stop: a function of its `stop-color`, `stop-opacity` and `color` properties. -/
abbrev Palette (C : Type) := Option Value → Option Value → Option Value → C

/-- The stops among the children of a gradient. -/
def stopsOf {C : Type} (pal : Palette C) (kids : List Node) : List (Stop C) :=
  kids.filterMap fun c =>
    if c.kind = .elem .stop then
      (offsetOf c).map fun q => ⟨q, pal (c.get .stopColor) (c.get .stopOpacity) (c.get .color)⟩
    else none

/-- The colour depends on the `color` property only if it is `currentColor`. -/
def Sensible {C : Type} (pal : Palette C) : Prop :=
  ∀ r g b o c c', pal (some (.color r g b)) o c = pal (some (.color r g b)) o c'

/-- `g` has the same gradients as `f`, with the same ramps. -/
def SameRamps (f g : Forest) : Prop :=
  ∀ (C : Type) (pal : Palette C) (mix : C → C → ℚ → C) (no : C), Sensible pal → ∀ y ∈ subs g, y.1.isGradient →
    ∃ x ∈ subs f, x.1.key = y.1.key ∧ x.1.isGradient ∧
      ∀ t, ramp mix no (stopsOf pal y.2.top) t = ramp mix no (stopsOf pal x.2.top) t

/-- The children of gradients are resolved stops: the colour is not a reference to a `color` property. -/
def PlainStops (f : Forest) : Prop :=
  ∀ x ∈ subs f, x.1.isGradient → ∀ c ∈ x.2.top, c.kind = .elem .stop ∧ (∃ q, c.get .offset = some (.length ⟨q, .none⟩)) ∧
    (∃ r g b, c.get .stopColor = some (.color r g b)) ∧ (∃ o, c.get .stopOpacity = some (.number o))

theorem subs_keys (f : Forest) : (subs f).map (fun x => x.1.key) = f.keys := by
  induction f with
  | nil => rfl
  | cons n k r ih1 ih2 => simp [subs, ih1, ih2]

theorem shape_keys (f : Forest) (o : Option Nat) : (shape o f).map (·.1) = f.keys := by
  induction f generalizing o with
  | nil => rfl
  | cons n k r ih1 ih2 => simp [shape, ih1, ih2]

theorem top_shape {f : Forest} {c : Node} (h : c ∈ f.top) (o : Option Nat) : (c.key, o) ∈ shape o f := by
  induction f with
  | nil => simp [Forest.top] at h
  | cons n k r _ ih =>
    rcases List.mem_cons.1 h with rfl | h
    · simp [shape]
    · simp [shape, ih h]

theorem subs_shape {f : Forest} {x : Node × Forest} (hx : x ∈ subs f) {c : Node} (hc : c ∈ x.2.top) (o : Option Nat) :
    (c.key, some x.1.key) ∈ shape o f := by
  induction f generalizing o with
  | nil => simp [subs] at hx
  | cons n k r ih1 ih2 =>
    simp only [subs, List.mem_cons, List.mem_append] at hx
    simp only [shape, List.mem_cons, List.mem_append]
    rcases hx with rfl | hx | hx
    · right; left; exact top_shape hc _
    · right; left; exact ih1 hx _
    · right; right; exact ih2 hx _

/-- A node has only one parent. -/
theorem parent_unique {f : Forest} (hu : f.UniqueKeys) {x y : Node × Forest} (hx : x ∈ subs f) (hy : y ∈ subs f)
    {c d : Node} (hc : c ∈ x.2.top) (hd : d ∈ y.2.top) (e : c.key = d.key) : x = y := by
  have h1 := subs_shape hx hc none
  have h2 := subs_shape hy hd none
  rw [e] at h1
  have hn : ((shape none f).map (·.1)).Nodup := by rw [shape_keys]; exact hu
  have h3 := List.inj_on_of_nodup_map hn h1 h2 rfl
  simp at h3
  have hs : ((subs f).map (fun x => x.1.key)).Nodup := by rw [subs_keys]; exact hu
  exact List.inj_on_of_nodup_map hs hx hy h3

theorem invalidStops_eq (f : Forest) :
    invalidStops f = (subs f).flatMap (fun x => if x.1.isGradient then dupStops none x.2 else []) := by
  induction f with
  | nil => rfl
  | cons n k r ih1 ih2 => simp [invalidStops, subs, ih1, ih2]

/-- The loop on the list of children. -/
def dupL : Option Node → List Node → List Nat
  | _, [] => []
  | none, c :: t => dupL (some c) t
  | some m, c :: t => (if sameStop m c then [c.key] else []) ++ dupL (some c) t

/-- The children that stay. -/
def keepL : Option Node → List Node → List Node
  | _, [] => []
  | none, c :: t => c :: keepL (some c) t
  | some m, c :: t => (if sameStop m c then [] else [c]) ++ keepL (some c) t

theorem dupStops_eq (o : Option Node) (f : Forest) : dupStops o f = dupL o f.top := by
  induction f generalizing o with
  | nil => cases o <;> rfl
  | cons n k r _ ih => cases o <;> simp [dupStops, dupL, Forest.top, ih]

theorem dupL_sub {o : Option Node} {l : List Node} {k : Nat} (h : k ∈ dupL o l) : ∃ c ∈ l, c.key = k := by
  induction l generalizing o with
  | nil => simp [dupL] at h
  | cons c t ih =>
    cases o with
    | none => obtain ⟨d, hd, e⟩ := ih h; exact ⟨d, by simp [hd], e⟩
    | some m =>
      simp only [dupL, List.mem_append] at h
      rcases h with h | h
      · split at h
        · simp at h; exact ⟨c, by simp, h.symm⟩
        · simp at h
      · obtain ⟨d, hd, e⟩ := ih h; exact ⟨d, by simp [hd], e⟩

theorem filter_dupL (o : Option Node) (l : List Node) (hu : (l.map (·.key)).Nodup) :
    l.filter (fun c => !decide (c.key ∈ dupL o l)) = keepL o l := by
  induction l generalizing o with
  | nil => cases o <;> rfl
  | cons c t ih =>
    simp only [List.map_cons, List.nodup_cons] at hu
    have hc : ∀ o, c.key ∉ dupL o t := by
      intro o h
      obtain ⟨d, hd, e⟩ := dupL_sub h
      exact hu.1 (List.mem_map.2 ⟨d, hd, e⟩)
    have ht : ∀ d ∈ t, d.key ≠ c.key := by
      intro d hd e
      exact hu.1 (List.mem_map.2 ⟨d, hd, e⟩)
    cases o with
    | none =>
      change (c :: t).filter (fun d => !decide (d.key ∈ dupL (some c) t)) = c :: keepL (some c) t
      rw [List.filter_cons_of_pos (by simpa using hc (some c)), ih _ hu.2]
    | some m =>
      simp only [dupL, keepL]
      by_cases hs : sameStop m c = true
      · simp only [hs, if_true]
        rw [List.filter_cons_of_neg (by simp)]
        rw [List.nil_append, ← ih _ hu.2]
        apply List.filter_congr
        intro d hd
        simp [ht d hd]
      · simp only [hs]
        rw [List.filter_cons_of_pos (by simpa using hc _)]
        simp only [Bool.false_eq_true, if_false, List.nil_append, List.singleton_append]
        rw [ih _ hu.2]

theorem ramp_dup {C : Type} (mix : C → C → ℚ → C) (no : C) (s : Stop C) (l : List (Stop C)) (t : ℚ) :
    ramp mix no (s :: s :: l) t = ramp mix no (s :: l) t := by
  cases l with
  | nil => simp only [ramp]; split_ifs <;> rfl
  | cons s' l =>
    simp only [ramp]
    split_ifs <;> rfl

theorem ramp_cons {C : Type} (mix : C → C → ℚ → C) (no : C) (s s' : Stop C) {a b : List (Stop C)} {t : ℚ}
    (h : ramp mix no (s' :: a) t = ramp mix no (s' :: b) t) :
    ramp mix no (s :: s' :: a) t = ramp mix no (s :: s' :: b) t := by
  simp only [ramp, h]

theorem ramp_keep {C : Type} (mix : C → C → ℚ → C) (no : C) (S : Node → Stop C) (m : Node) (l : List Node)
    (h : ∀ c ∈ m :: l, ∀ d ∈ m :: l, sameStop c d → S c = S d) (t : ℚ) :
    ramp mix no (S m :: (keepL (some m) l).map S) t = ramp mix no (S m :: l.map S) t := by
  induction l generalizing m with
  | nil => rfl
  | cons c l ih =>
    have hi := ih c (fun a ha b hb => h a (List.mem_cons_of_mem _ ha) b (List.mem_cons_of_mem _ hb))
    simp only [keepL]
    by_cases hs : sameStop m c = true
    · have e := h m (by simp) c (by simp) hs
      simp only [hs, if_true, List.nil_append, List.map_cons]
      rw [e, ramp_dup, hi]
    · simp only [hs, Bool.false_eq_true, if_false, List.singleton_append, List.map_cons]
      exact ramp_cons mix no _ _ hi

theorem ramp_keep' {C : Type} (mix : C → C → ℚ → C) (no : C) (S : Node → Stop C) (l : List Node)
    (h : ∀ c ∈ l, ∀ d ∈ l, sameStop c d → S c = S d) (t : ℚ) :
    ramp mix no ((keepL none l).map S) t = ramp mix no (l.map S) t := by
  cases l with
  | nil => rfl
  | cons c l => exact ramp_keep mix no S c l h t

theorem subs_prune {p : Node → Bool} {f : Forest} {y : Node × Forest} (h : y ∈ subs (f.prune p)) :
    ∃ x ∈ subs f, y.1 = x.1 ∧ y.2 = x.2.prune p := by
  induction f with
  | nil => simp [Forest.prune, subs] at h
  | cons n k r ih1 ih2 =>
    simp only [Forest.prune] at h
    split at h
    · obtain ⟨x, hx, h⟩ := ih2 h; exact ⟨x, by simp [subs, hx], h⟩
    · simp only [subs, List.mem_cons, List.mem_append] at h
      rcases h with rfl | h | h
      · exact ⟨(n, k), by simp [subs], rfl, rfl⟩
      · obtain ⟨x, hx, h⟩ := ih1 h; exact ⟨x, by simp [subs, hx], h⟩
      · obtain ⟨x, hx, h⟩ := ih2 h; exact ⟨x, by simp [subs, hx], h⟩

theorem top_prune (p : Node → Bool) (f : Forest) : (f.prune p).top = f.top.filter (fun n => !p n) := by
  induction f with
  | nil => rfl
  | cons n k r _ ih =>
    simp only [Forest.prune]
    split
    · rename_i h; simp [Forest.top, h, ih]
    · rename_i h; simp [Forest.top, h, ih]

theorem top_sub_nodes (f : Forest) : f.top.Sublist f.nodes := by
  induction f with
  | nil => exact .refl _
  | cons n k r _ ih =>
    simp only [Forest.top, Forest.nodes_cons]
    exact .cons_cons _ (ih.trans (List.sublist_append_right _ _))

theorem subs_kids_sub {f : Forest} {x : Node × Forest} (h : x ∈ subs f) : x.2.nodes.Sublist f.nodes ∧ x.1 ∈ f.nodes := by
  induction f with
  | nil => simp [subs] at h
  | cons n k r ih1 ih2 =>
    simp only [subs, List.mem_cons, List.mem_append] at h
    simp only [Forest.nodes_cons, List.mem_cons, List.mem_append]
    rcases h with rfl | h | h
    · exact ⟨(List.sublist_append_left _ _).cons _, .inl rfl⟩
    · exact ⟨((ih1 h).1.trans (List.sublist_append_left _ _)).cons _, .inr (.inl (ih1 h).2)⟩
    · exact ⟨((ih2 h).1.trans (List.sublist_append_right _ _)).cons _, .inr (.inr (ih2 h).2)⟩

theorem _root_.Verif.Spec.Inside.mono {p q : Node → Prop} {f : Forest} {k : Nat} (h : Inside p f k)
    (hpq : ∀ n ∈ f.nodes, p n → q n) : Inside q f k := by
  induction h with
  | self hp => exact .self (hpq _ (by simp) hp)
  | under hp hx => exact .under (hpq _ (by simp) hp) hx
  | kid _ ih => exact .kid (ih fun n hn => hpq n (by simp [hn]))
  | next _ ih => exact .next (ih fun n hn => hpq n (by simp [hn]))

theorem getAttr_filter {as : List Attr} {q : Attr → Bool} {b : AName} {x : Attr} (h : getAttr as b = some x)
    (hq : q x = true) : getAttr (as.filter q) b = some x := by
  unfold getAttr at *
  induction as with
  | nil => simp at h
  | cons y t ih =>
    by_cases hy : y.name = b
    · rw [List.find?_cons_of_pos (by simpa using hy)] at h
      simp at h; subst h
      rw [List.filter_cons_of_pos hq, List.find?_cons_of_pos (by simpa using hy)]
    · rw [List.find?_cons_of_neg (by simpa using hy)] at h
      rw [List.filter_cons]
      split
      · rw [List.find?_cons_of_neg (by simpa using hy)]; exact ih h
      · exact ih h

theorem getAttr_unlink {n : Node} {s : Nat → Bool} {b : AName} {x : Attr} (h : getAttr n.attrs b = some x)
    (ht : x.value.target = none) : getAttr (n.unlink s).attrs b = some x :=
  getAttr_filter h (by simp [ht])

theorem get_unlink {n : Node} {s : Nat → Bool} {a : AId} {v : Value} (h : n.get a = some v) (ht : v.target = none) :
    (n.unlink s).get a = some v := by
  unfold Node.get at *
  rw [Option.map_eq_some_iff] at h
  obtain ⟨x, hx, rfl⟩ := h
  rw [getAttr_unlink hx ht]; rfl

theorem isGradient_unlink (n : Node) (s) : (n.unlink s).isGradient = n.isGradient := isGradient_congr (by simp)

/-- **C29 (partial).** If the children of all gradients are stops with plain colours, removing invalid stops leaves the
colour ramp of every remaining gradient as it was; only stops and what is inside them go away.  Missing: documents with
other children of gradients or with `currentColor` stops; for those the claim is false, see below. -/
theorem C29_ramp_partial {f : Forest} (hu : f.UniqueKeys) (hp : PlainStops f) :
    SameRamps f (removeInvalidStops f) ∧
    ∀ k ∈ f.keys, k ∉ (removeInvalidStops f).keys → Inside (fun n => n.kind = .elem .stop) f k := by
  have hinv : ∀ k ∈ invalidStops f, ∃ x ∈ subs f, x.1.isGradient ∧ k ∈ dupL none x.2.top := by
    intro k hk
    rw [invalidStops_eq, List.mem_flatMap] at hk
    obtain ⟨x, hx, h⟩ := hk
    split at h
    · rename_i hg; exact ⟨x, hx, hg, by rwa [dupStops_eq] at h⟩
    · simp at h
  constructor
  · intro C pal mix no hpal y hy hg
    unfold removeInvalidStops Forest.remove at hy
    rw [subs_map, List.mem_map] at hy
    obtain ⟨z, hz, rfl⟩ := hy
    obtain ⟨x, hx, e1, e2⟩ := subs_prune hz
    simp only [isGradient_unlink, e1] at hg
    refine ⟨x, hx, by simp [e1], hg, ?_⟩
    intro t
    generalize hs : (fun k => decide (k ∈ f.prunedKeys fun n => decide (n.key ∈ invalidStops f))) = s
    have hkeep : (x.2.prune (fun n => decide (n.key ∈ invalidStops f))).top = keepL none x.2.top := by
      rw [top_prune, ← filter_dupL]
      · apply List.filter_congr
        intro c hc
        congr 1
        rw [decide_eq_decide]
        constructor
        · intro h
          obtain ⟨x', hx', hg', h⟩ := hinv _ h
          obtain ⟨d, hd, e⟩ := dupL_sub h
          rw [parent_unique hu hx hx' hc hd e.symm]
          exact h
        · intro h
          rw [invalidStops_eq, List.mem_flatMap]
          exact ⟨x, hx, by rw [if_pos hg, dupStops_eq]; exact h⟩
      · exact List.Nodup.sublist (((top_sub_nodes _).trans (subs_kids_sub hx).1).map _) hu
    simp only [e2, top_map]
    rw [hkeep]
    have hplain := hp x hx hg
    let S : Node → Stop C := fun c => ⟨(offsetOf c).getD 0, pal (c.get .stopColor) (c.get .stopOpacity) none⟩
    have hS : ∀ (l : List Node), (∀ c ∈ l, c ∈ x.2.top) → stopsOf pal (l.map (fun n => n.unlink s)) = l.map S ∧
        stopsOf pal l = l.map S := by
      intro l hl
      induction l with
      | nil => exact ⟨rfl, rfl⟩
      | cons c l ih =>
        obtain ⟨i1, i2⟩ := ih (fun d hd => hl d (by simp [hd]))
        obtain ⟨h1, ⟨q, h2⟩, ⟨r, g, b, h3⟩, ⟨o, h4⟩⟩ := hplain c (hl c (by simp))
        have o1 : offsetOf c = some q := by unfold offsetOf; rw [h2]
        have o2 : offsetOf (c.unlink s) = some q := by unfold offsetOf; rw [get_unlink h2 rfl]
        unfold stopsOf at i1 i2 ⊢
        constructor
        · rw [List.map_cons, List.filterMap_cons_some (b := S c), i1]; rfl
          simp only [Node.kind_unlink, h1, if_true, o2, Option.map_some, S, o1, Option.getD_some]
          rw [get_unlink h3 rfl, get_unlink h4 rfl, h3, h4]
          congr 2
          exact hpal _ _ _ _ _ _
        · rw [List.filterMap_cons_some (b := S c), i2]; rfl
          simp only [h1, if_true, o1, Option.map_some, S, Option.getD_some]
          rw [h3]
          congr 2
          exact hpal _ _ _ _ _ _
    rw [(hS _ (fun c hc => by
      have : c ∈ x.2.top.filter (fun c => !decide (c.key ∈ dupL none x.2.top)) := by
        rw [filter_dupL]; exact hc
        exact List.Nodup.sublist (((top_sub_nodes _).trans (subs_kids_sub hx).1).map _) hu
      exact List.mem_of_mem_filter this)).1, (hS _ (fun c hc => hc)).2]
    apply ramp_keep'
    intro c _ d _ h
    unfold sameStop at h
    simp only [Bool.and_eq_true, decide_eq_true_eq] at h
    simp only [S, offsetOf, h.1.1, h.1.2, h.2]
  · intro k hk hnot
    unfold removeInvalidStops at hnot
    rw [Forest.keys_remove] at hnot
    have hpk : k ∈ f.prunedKeys (fun n => decide (n.key ∈ invalidStops f)) := by
      have := (Forest.keys_prune_perm (fun n => decide (n.key ∈ invalidStops f)) f).mem_iff.2 hk
      rcases List.mem_append.1 this with h | h
      · exact h
      · exact absurd h hnot
    rw [prunedKeys_iff] at hpk
    refine hpk.mono ?_
    intro n hn h
    obtain ⟨x, hx, hg, h⟩ := hinv _ (by simpa using h)
    obtain ⟨c, hc, e⟩ := dupL_sub h
    have hcn : c ∈ f.nodes := (subs_kids_sub hx).1.subset ((top_sub_nodes _).subset hc)
    rw [← Forest.eq_of_key hu hcn hn e]
    exact (hp x hx hg c hc).1

/-! ### Witnesses -/

/-- `<svg><linearGradient><stop offset="50%"/><stop offset="0.2" stop-color="#f00"/><stop offset="7"/></linearGradient>
<rect width="-3" rx="-1"/><polygon points="1 2 3"/></svg>` -/
def sample : Forest :=
  .cons ⟨1, .elem .svg, "", []⟩
    (.cons ⟨2, .elem .linearGradient, "a", []⟩
      (.cons ⟨3, .elem .stop, "", [⟨.id .offset, .length ⟨50, .percent⟩, true⟩]⟩ .nil
      (.cons ⟨4, .elem .stop, "", [⟨.id .offset, .length ⟨1/5, .none⟩, true⟩, ⟨.id .stopColor, .color 255 0 0, true⟩]⟩ .nil
      (.cons ⟨5, .elem .stop, "", [⟨.id .offset, .length ⟨7, .none⟩, true⟩]⟩ .nil .nil)))
    (.cons ⟨6, .elem .rect, "", [⟨.id .width, .length ⟨-3, .none⟩, true⟩, ⟨.id .rx, .length ⟨-1, .none⟩, true⟩]⟩ .nil
    (.cons ⟨7, .elem .polygon, "", [⟨.id .points, .numberList [1, 2, 3], true⟩]⟩ .nil .nil))) .nil

/-- The hypotheses of C57, C28 and C52 are met: the sample is resolved and fixed without a crash. -/
example : ∃ g h, resolveStops sample = .ok g ∧ fixInvalidAttributes g = some h ∧
    (h.nodes.map fun n => (offsetOf n, n.get .points, n.get .width)) =
      [(none, none, none), (none, none, none), (some (1/2), none, none), (some (1/2), none, none),
       (some 1, none, none), (none, none, some (.length ⟨0, .none⟩)), (none, some (.numberList [1, 2]), none)] := by
  refine ⟨(resolveStops sample).getD .nil, (fixInvalidAttributes ((resolveStops sample).getD .nil)).getD .nil, ?_, ?_, ?_⟩ <;>
    decide +kernel

/-- The hypothesis of `C28_no_crash_partial` is met. -/
example : ∀ x ∈ subs sample, x.1.isGradient → ∀ c ∈ x.2.top, ∀ l, c.get .offset = some (.length l) →
    l.unit = .none ∨ l.unit = .percent := by
  intro x hx hg c hc l hl
  simp [sample, subs] at hx
  rcases hx with rfl | rfl | rfl | rfl | rfl | rfl | rfl <;> simp [Forest.top] at hc
  · exact absurd hg (by decide)
  · rcases hc with rfl | rfl | rfl <;> simp [Node.get, getAttr] at hl <;> subst hl <;> simp

/-- `<linearGradient><stop offset="5mm"/></linearGradient>` -/
def mmOffset : Forest :=
  .cons ⟨1, .elem .svg, "", []⟩
    (.cons ⟨2, .elem .linearGradient, "a", []⟩
      (.cons ⟨3, .elem .stop, "", [⟨.id .offset, .length ⟨5, .mm⟩, true⟩]⟩ .nil .nil) .nil) .nil

/-- **C28, finding.** An offset with a unit other than `%` is accepted by `resolve_stop_attributes` and crashes
`fix_invalid_attributes`. -/
theorem C28_refuted_unit_crash : ∃ g, resolveStops mmOffset = .ok g ∧ fixInvalidAttributes g = none :=
  ⟨(resolveStops mmOffset).getD .nil, by decide +kernel, by decide +kernel⟩

/-- `<linearGradient><stop offset="0"/><desc/></linearGradient>` -/
def descChild : Forest :=
  .cons ⟨1, .elem .svg, "", []⟩
    (.cons ⟨2, .elem .linearGradient, "a", []⟩
      (.cons ⟨3, .elem .stop, "", [⟨.id .offset, .length ⟨0, .none⟩, true⟩]⟩ .nil
      (.cons ⟨4, .elem .desc, "", []⟩ .nil .nil)) .nil) .nil

/-- **C57, finding.** A gradient with a `desc` child, which SVG allows, is rejected: children that are not stops are
treated as stops. -/
theorem C57_rejects_desc : resolveStops descChild = .err (.missingAttribute "stop" "offset") := by decide +kernel

/-- The full claim of C29. -/
def C29_full : Prop := ∀ f : Forest, f.UniqueKeys → SameRamps f (removeInvalidStops f)

/-- `<linearGradient><desc/><stop offset="0"/><stop offset="1" stop-color="#f00"/></linearGradient>`, resolved. -/
def descFirst : Forest :=
  .cons ⟨2, .elem .linearGradient, "a", []⟩
    (.cons ⟨3, .elem .desc, "", [⟨.id .offset, .length ⟨0, .none⟩, true⟩, ⟨.id .stopColor, .color 0 0 0, false⟩, ⟨.id .stopOpacity, .number 1, false⟩]⟩ .nil
    (.cons ⟨4, .elem .stop, "", [⟨.id .offset, .length ⟨0, .none⟩, true⟩, ⟨.id .stopColor, .color 0 0 0, false⟩, ⟨.id .stopOpacity, .number 1, false⟩]⟩ .nil
    (.cons ⟨5, .elem .stop, "", [⟨.id .offset, .length ⟨1, .none⟩, true⟩, ⟨.id .stopColor, .color 255 0 0, true⟩, ⟨.id .stopOpacity, .number 1, false⟩]⟩ .nil .nil))) .nil

/-- It comes from this document. -/
example : resolveStops (.cons ⟨2, .elem .linearGradient, "a", []⟩
    (.cons ⟨3, .elem .desc, "", []⟩ .nil
    (.cons ⟨4, .elem .stop, "", [⟨.id .offset, .length ⟨0, .none⟩, true⟩]⟩ .nil
    (.cons ⟨5, .elem .stop, "", [⟨.id .offset, .length ⟨1, .none⟩, true⟩, ⟨.id .stopColor, .color 255 0 0, true⟩]⟩ .nil .nil))) .nil) =
    .ok descFirst := by decide +kernel

theorem refute_ramps {f : Forest} (y : Node × Forest) (hy : y ∈ subs (removeInvalidStops f)) (hg : y.1.isGradient)
    (pal : Palette (Option Value × Option Value)) (hpal : Sensible pal)
    (h : ∀ x ∈ subs f, x.1.key = y.1.key →
      ramp (fun a _ _ => a) (none, none) (stopsOf pal y.2.top) 0 ≠ ramp (fun a _ _ => a) (none, none) (stopsOf pal x.2.top) 0) :
    ¬ SameRamps f (removeInvalidStops f) := by
  intro hs
  obtain ⟨x, hx, hk, _, ht⟩ := hs _ pal (fun a _ _ => a) (none, none) hpal y hy hg
  exact h x hx hk (ht 0)

/-- A palette: the colour, and the `color` property for `currentColor`. -/
def plainPalette : Palette (Option Value × Option Value) := fun c _ cur =>
  (c, if c = some (.kw .currentColor) then cur else none)

theorem plainPalette_sensible : Sensible plainPalette := by
  intro r g b o c c'; simp [plainPalette]

theorem C29_refuted_desc : ¬ C29_full := by
  intro h
  refine refute_ramps ((subs (removeInvalidStops descFirst)).headD (⟨0, .text "", "", []⟩, .nil)) ?_ ?_ plainPalette
    plainPalette_sensible ?_ (h descFirst (by decide +kernel)) <;> decide +kernel

/-- `<linearGradient><stop offset="0" stop-color="currentColor" color="#f00"/>
<stop offset="0" stop-color="currentColor" color="#00f"/></linearGradient>` -/
def currentColours : Forest :=
  .cons ⟨2, .elem .linearGradient, "a", []⟩
    (.cons ⟨4, .elem .stop, "", [⟨.id .offset, .length ⟨0, .none⟩, true⟩, ⟨.id .stopColor, .kw .currentColor, true⟩, ⟨.id .color, .color 255 0 0, true⟩]⟩ .nil
    (.cons ⟨5, .elem .stop, "", [⟨.id .offset, .length ⟨0, .none⟩, true⟩, ⟨.id .stopColor, .kw .currentColor, true⟩, ⟨.id .color, .color 0 0 255, true⟩]⟩ .nil .nil)) .nil

theorem C29_refuted_currentColor : ¬ C29_full := by
  intro h
  refine refute_ramps ((subs (removeInvalidStops currentColours)).headD (⟨0, .text "", "", []⟩, .nil)) ?_ ?_ plainPalette
    plainPalette_sensible ?_ (h currentColours (by decide +kernel)) <;> decide +kernel

/-- Three equal stops and one other: the hypotheses of `C29_ramp_partial` are met, and two stops go away. -/
def threeEqual : Forest :=
  .cons ⟨2, .elem .linearGradient, "a", []⟩
    (.cons ⟨3, .elem .stop, "", [⟨.id .offset, .length ⟨0, .none⟩, true⟩, ⟨.id .stopColor, .color 0 0 0, false⟩, ⟨.id .stopOpacity, .number 1, false⟩]⟩ .nil
    (.cons ⟨4, .elem .stop, "", [⟨.id .offset, .length ⟨0, .none⟩, true⟩, ⟨.id .stopColor, .color 0 0 0, true⟩, ⟨.id .stopOpacity, .number 1, false⟩]⟩ .nil
    (.cons ⟨6, .elem .stop, "", [⟨.id .offset, .length ⟨0, .none⟩, true⟩, ⟨.id .stopColor, .color 0 0 0, true⟩, ⟨.id .stopOpacity, .number 1, false⟩]⟩ .nil
    (.cons ⟨5, .elem .stop, "", [⟨.id .offset, .length ⟨1, .none⟩, true⟩, ⟨.id .stopColor, .color 255 0 0, true⟩, ⟨.id .stopOpacity, .number 1, false⟩]⟩ .nil .nil)))) .nil

example : threeEqual.UniqueKeys ∧ PlainStops threeEqual ∧ (removeInvalidStops threeEqual).keys = [2, 3, 5] := by
  refine ⟨by decide +kernel, ?_, by decide +kernel⟩
  intro x hx hg c hc
  simp [threeEqual, subs] at hx
  rcases hx with rfl | rfl | rfl | rfl | rfl <;> simp [Forest.top] at hc
  rcases hc with rfl | rfl | rfl | rfl <;>
    exact ⟨rfl, ⟨_, rfl⟩, ⟨_, _, _, rfl⟩, ⟨_, rfl⟩⟩

end Verif.Stops
