import Verif.RoundDoc
import Verif.RoundProps
import Verif.DomSpec
import Verif.DomLemmas
/-
C58: what rounding does to a document.
-/
namespace Verif.Round
open Verif.Dom Verif.Spec Verif.Paths

/-! ### Specification -/

/-- A number is replaced by one with `p` digits that is at most half a unit away; without a precision it stays. -/
def Within : Option Nat → ℚ → ℚ → Prop
  | some p, q, q' => |q' - q| ≤ 1 / (2 * 10 ^ p) ∧ ∃ m : ℤ, q' = m / 10 ^ p
  | none, q, q' => q' = q

/-- The coordinates of the documentation ("Set coordinates numeric precision"), and `stroke-dasharray`. -/
def coords : List AId := [.x, .y, .dx, .dy, .x1, .y1, .x2, .y2, .r, .rx, .ry, .cx, .cy, .fx, .fy, .width, .height, .strokeDasharray]

/-- The properties of the documentation ("Set properties numeric precision"). -/
def props : List AId :=
  [.strokeDashoffset, .strokeMiterlimit, .strokeWidth, .opacity, .fillOpacity, .floodOpacity, .strokeOpacity, .stopOpacity, .fontSize]

/-- Attributes with a transform. -/
def tss : List AId := [.transform, .gradientTransform, .patternTransform]

/-- The numbers of a segment. -/
def args : SegData → List ℚ
  | .moveTo x y | .lineTo x y | .smoothQuad x y => [x, y]
  | .hline x | .vline x => [x]
  | .curveTo x1 y1 x2 y2 x y => [x1, y1, x2, y2, x, y]
  | .smooth x2 y2 x y | .quad x2 y2 x y => [x2, y2, x, y]
  | .arc rx ry rot _ _ x y => [rx, ry, rot, x, y]
  | .close => []

/-- The letter of a segment, and the flags of an arc. -/
def form : SegData → Nat × Bool × Bool
  | .moveTo .. => (0, false, false)
  | .lineTo .. => (1, false, false)
  | .smoothQuad .. => (2, false, false)
  | .hline .. => (3, false, false)
  | .vline .. => (4, false, false)
  | .curveTo .. => (5, false, false)
  | .smooth .. => (6, false, false)
  | .quad .. => (7, false, false)
  | .arc _ _ _ l s _ _ => (8, l, s)
  | .close => (9, false, false)

/-- What becomes of a value: which numbers in it are rounded, and to how many digits. -/
def Rounded (o : Precisions) (a : AId) : Value → Value → Prop
  | .length l, v => ∃ l', v = .length l' ∧ l'.unit = l.unit ∧
      Within (if a ∈ coords then some o.coordinates else if a ∈ props then some o.properties else none) l.num l'.num
  | .lengthList l, v => ∃ l', v = .lengthList l' ∧
      List.Forall₂ (fun x y => y.unit = x.unit ∧ Within (if a ∈ coords then some o.coordinates else none) x.num y.num) l l'
  | .number q, v => ∃ q', v = .number q' ∧ Within (if a ∈ props then some o.properties else none) q q'
  | .numberList l, v => ∃ l', v = .numberList l' ∧ List.Forall₂ (Within (if a = .viewBox ∨ a = .points then some o.paths else none)) l l'
  | .transform t, v => ∃ t', v = .transform t' ∧
      List.Forall₂ (Within (if a ∈ tss then some o.transforms else none)) [t.a, t.b, t.c, t.d] [t'.a, t'.b, t'.c, t'.d] ∧
      List.Forall₂ (Within (if a ∈ tss then some o.coordinates else none)) [t.e, t.f] [t'.e, t'.f]
  | .path d, v => ∃ d', v = .path d' ∧
      List.Forall₂ (fun s s' => s'.abs = s.abs ∧ form s'.data = form s.data ∧
        List.Forall₂ (Within (if a = .d then some o.paths else none)) (args s.data) (args s'.data)) d d'
  | v, v' => v' = v

/-- What becomes of an attribute. -/
structure AttrTo (o : Precisions) (x y : Attr) : Prop where
  name : y.name = x.name
  visible : y.visible = x.visible
  value : match x.name with
    | .id a => Rounded o a x.value y.value
    | .name _ => y.value = x.value

/-- What becomes of a node. -/
structure NodeTo (o : Precisions) (n m : Node) : Prop where
  same : m.key = n.key ∧ m.kind = n.kind ∧ m.id = n.id
  attrs : n.isSvgElem = true → List.Forall₂ (AttrTo o) n.attrs m.attrs
  other : n.isSvgElem = false → m = n

/-- All precisions are in the range that the program accepts. -/
def InRange (o : Precisions) : Prop := ∀ p ∈ [o.coordinates, o.properties, o.paths, o.transforms], 1 ≤ p ∧ p ≤ 12

/-! ### Proof -/

theorem within_num {p : Nat} (h : 1 ≤ p ∧ p ≤ 12) (q : ℚ) : ∃ q', num p q = some q' ∧ Within (some p) q q' := by
  refine ⟨rnd (10 ^ p) q, by unfold num; rw [roundNumber_eq h.1 h.2], rnd_err (by positivity) q, ?_⟩
  unfold rnd
  exact ⟨roundAway (q * 10 ^ p), rfl⟩

theorem within_nums {p : Nat} (h : 1 ≤ p ∧ p ≤ 12) (l : List ℚ) : ∃ l', nums p l = some l' ∧ List.Forall₂ (Within (some p)) l l' := by
  induction l with
  | nil => exact ⟨[], rfl, .nil⟩
  | cons q t ih =>
    obtain ⟨q', h1, h2⟩ := within_num h q
    obtain ⟨t', h3, h4⟩ := ih
    exact ⟨q' :: t', by rw [nums, h1, Option.bind_some, h3]; rfl, .cons h2 h4⟩

theorem within_len {p : Nat} (h : 1 ≤ p ∧ p ≤ 12) (l : Len) : ∃ l', len p l = some l' ∧ l'.unit = l.unit ∧ Within (some p) l.num l'.num := by
  obtain ⟨q', h1, h2⟩ := within_num h l.num
  exact ⟨⟨q', l.unit⟩, by rw [len, h1]; rfl, rfl, h2⟩

theorem within_lens {p : Nat} (h : 1 ≤ p ∧ p ≤ 12) (l : List Len) :
    ∃ l', lens p l = some l' ∧ List.Forall₂ (fun x y => y.unit = x.unit ∧ Within (some p) x.num y.num) l l' := by
  induction l with
  | nil => exact ⟨[], rfl, .nil⟩
  | cons q t ih =>
    obtain ⟨q', h1, h2⟩ := within_len h q
    obtain ⟨t', h3, h4⟩ := ih
    exact ⟨q' :: t', by rw [lens, h1, Option.bind_some, h3]; rfl, .cons h2 h4⟩

theorem within_rnd (p : Nat) (q : ℚ) : Within (some p) q (rnd (10 ^ p) q) :=
  ⟨rnd_err (by positivity) q, roundAway (q * 10 ^ p), rfl⟩

theorem within_path {p : Nat} (h : 1 ≤ p ∧ p ≤ 12) (d : Path) :
    ∃ d', path p d = some d' ∧ List.Forall₂ (fun s s' => s'.abs = s.abs ∧ form s'.data = form s.data ∧
      List.Forall₂ (Within (some p)) (args s.data) (args s'.data)) d d' := by
  refine ⟨roundPath (10 ^ p) d, ?_, ?_⟩
  · unfold path
    rw [powVec_eq h.1 h.2]
    dsimp only
    rw [if_neg (by positivity)]
  · unfold roundPath
    rw [List.forall₂_map_right_iff]
    refine List.forall₂_same.2 fun s _ => ⟨rfl, ?_, ?_⟩
    · cases s.data <;> rfl
    · cases s.data <;> simp only [roundSeg, args] <;> repeat' first | exact List.Forall₂.nil | refine List.Forall₂.cons (within_rnd _ _) ?_

theorem within_ts {o : Precisions} (hc : 1 ≤ o.coordinates ∧ o.coordinates ≤ 12) (ht : 1 ≤ o.transforms ∧ o.transforms ≤ 12) (t : Transform) :
    ∃ t', ts o t = some t' ∧ List.Forall₂ (Within (some o.transforms)) [t.a, t.b, t.c, t.d] [t'.a, t'.b, t'.c, t'.d] ∧
      List.Forall₂ (Within (some o.coordinates)) [t.e, t.f] [t'.e, t'.f] := by
  obtain ⟨a, h1, h2⟩ := within_num ht t.a
  obtain ⟨b, h3, h4⟩ := within_num ht t.b
  obtain ⟨c, h5, h6⟩ := within_num ht t.c
  obtain ⟨d, h7, h8⟩ := within_num ht t.d
  obtain ⟨e, h9, h10⟩ := within_num hc t.e
  obtain ⟨f, h11, h12⟩ := within_num hc t.f
  refine ⟨⟨a, b, c, d, e, f⟩, ?_, .cons h2 (.cons h4 (.cons h6 (.cons h8 .nil))), .cons h10 (.cons h12 .nil)⟩
  rw [ts, h1, h3, h5, h7, h9, h11]; rfl

theorem isCoord_iff (a : AId) : isCoord a = decide (a ∈ coords) := by cases a <;> rfl
theorem isProp_iff (a : AId) : isProp a = decide (a ∈ props) := by cases a <;> rfl
theorem isTs_iff (a : AId) : isTs a = decide (a ∈ tss) := by cases a <;> rfl

theorem forall₂_within_none (l : List ℚ) : List.Forall₂ (Within none) l l := List.forall₂_same.2 fun _ _ => rfl

/-- A value that stays. -/
theorem rounded_same {o : Precisions} {a : AId} {v : Value}
    (h1 : ∀ l, v = .length l → a ∉ coords ∧ a ∉ props) (h2 : ∀ l, v = .lengthList l → a ∉ coords) (h3 : ∀ q, v = .number q → a ∉ props)
    (h4 : ∀ l, v = .numberList l → a ≠ .viewBox ∧ a ≠ .points) (h5 : ∀ t, v = .transform t → a ∉ tss) (h6 : ∀ d, v = .path d → a ≠ .d) :
    Rounded o a v v := by
  cases v with
  | length l => exact ⟨l, rfl, rfl, by rw [if_neg (h1 l rfl).1, if_neg (h1 l rfl).2]; rfl⟩
  | lengthList l => exact ⟨l, rfl, by rw [if_neg (h2 l rfl)]; exact List.forall₂_same.2 fun _ _ => ⟨rfl, rfl⟩⟩
  | number q => exact ⟨q, rfl, by rw [if_neg (h3 q rfl)]; rfl⟩
  | numberList l => exact ⟨l, rfl, by rw [if_neg (by simpa using h4 l rfl)]; exact forall₂_within_none _⟩
  | transform t => exact ⟨t, rfl, by rw [if_neg (h5 t rfl)]; exact forall₂_within_none _, by rw [if_neg (h5 t rfl)]; exact forall₂_within_none _⟩
  | path d => exact ⟨d, rfl, by rw [if_neg (h6 d rfl)]; exact List.forall₂_same.2 fun _ _ => ⟨rfl, rfl, forall₂_within_none _⟩⟩
  | _ => rfl

/-- The lists have no attribute in common. -/
theorem apart (a : AId) : (a ∈ coords → a ∉ props ∧ a ∉ tss ∧ a ≠ .d ∧ a ≠ .viewBox ∧ a ≠ .points) ∧
    (a ∈ props → a ∉ tss ∧ a ≠ .d ∧ a ≠ .viewBox ∧ a ≠ .points) ∧ (a ∈ tss → a ≠ .d ∧ a ≠ .viewBox ∧ a ≠ .points) := by
  cases a <;> decide

theorem value_rounded {o : Precisions} (ho : InRange o) (a : AId) (v : Value) : ∃ v', value o a v = some v' ∧ Rounded o a v v' := by
  have hc := ho o.coordinates (by simp)
  have hp := ho o.properties (by simp)
  have hd := ho o.paths (by simp)
  have ht := ho o.transforms (by simp)
  obtain ⟨ap1, ap2, ap3⟩ := apart a
  unfold value
  rw [isCoord_iff, isProp_iff, isTs_iff]
  by_cases c1 : a ∈ coords
  · rw [if_pos (decide_eq_true c1)]
    obtain ⟨d1, d2, d3, d4, d5⟩ := ap1 c1
    cases v with
    | length l =>
      obtain ⟨l', e1, e2, e3⟩ := within_len hc l
      exact ⟨.length l', by dsimp only; rw [e1]; rfl, l', rfl, e2, by rw [if_pos c1]; exact e3⟩
    | lengthList l =>
      obtain ⟨l', e1, e2⟩ := within_lens hc l
      exact ⟨.lengthList l', by dsimp only; rw [e1]; rfl, l', rfl, by rw [if_pos c1]; exact e2⟩
    | _ => exact ⟨_, rfl, rounded_same (by simp) (by simp) (by simp [d1]) (by simp [d4, d5]) (by simp [d2]) (by simp [d3])⟩
  · rw [if_neg (by simpa using c1)]
    by_cases c2 : a ∈ props
    · rw [if_pos (decide_eq_true c2)]
      obtain ⟨d2, d3, d4, d5⟩ := ap2 c2
      cases v with
      | number q =>
        obtain ⟨q', e1, e2⟩ := within_num hp q
        exact ⟨.number q', by dsimp only; rw [e1]; rfl, q', rfl, by rw [if_pos c2]; exact e2⟩
      | length l =>
        obtain ⟨l', e1, e2, e3⟩ := within_len hp l
        exact ⟨.length l', by dsimp only; rw [e1]; rfl, l', rfl, e2, by rw [if_neg c1, if_pos c2]; exact e3⟩
      | _ => exact ⟨_, rfl, rounded_same (by simp) (by simp [c1]) (by simp) (by simp [d4, d5]) (by simp [d2]) (by simp [d3])⟩
    · rw [if_neg (by simpa using c2)]
      by_cases c3 : a ∈ tss
      · rw [if_pos (decide_eq_true c3)]
        obtain ⟨d3, d4, d5⟩ := ap3 c3
        cases v with
        | transform t =>
          obtain ⟨t', e1, e2, e3⟩ := within_ts hc ht t
          exact ⟨.transform t', by dsimp only; rw [e1]; rfl, t', rfl, by rw [if_pos c3]; exact e2, by rw [if_pos c3]; exact e3⟩
        | _ => exact ⟨_, rfl, rounded_same (by simp [c1, c2]) (by simp [c1]) (by simp [c2]) (by simp [d4, d5]) (by simp) (by simp [d3])⟩
      · rw [if_neg (by simpa using c3)]
        by_cases c4 : a = .d
        · rw [if_pos c4]
          cases v with
          | path d =>
            obtain ⟨d', e1, e2⟩ := within_path hd d
            exact ⟨.path d', by dsimp only; rw [e1]; rfl, d', rfl, by rw [if_pos c4]; exact e2⟩
          | _ => exact ⟨_, rfl, rounded_same (by simp [c1, c2]) (by simp [c1]) (by simp [c2]) (by simp [c4]) (by simp [c3]) (by simp)⟩
        · rw [if_neg c4]
          by_cases c5 : a = .viewBox ∨ a = .points
          · rw [if_pos (by simpa using c5)]
            cases v with
            | numberList l =>
              obtain ⟨l', e1, e2⟩ := within_nums hd l
              exact ⟨.numberList l', by dsimp only; rw [e1]; rfl, l', rfl, by rw [if_pos c5]; exact e2⟩
            | _ => exact ⟨_, rfl, rounded_same (by simp [c1, c2]) (by simp [c1]) (by simp [c2]) (by simp) (by simp [c3]) (by simp [c4])⟩
          · rw [if_neg (by simpa using c5)]
            refine ⟨v, rfl, rounded_same (by simp [c1, c2]) (by simp [c1]) (by simp [c2]) ?_ (by simp [c3]) (by simp [c4])⟩
            intro l _
            exact ⟨fun e => c5 (.inl e), fun e => c5 (.inr e)⟩

theorem attrs_rounded {o : Precisions} (ho : InRange o) (as : List Attr) : ∃ bs, attrs o as = some bs ∧ List.Forall₂ (AttrTo o) as bs := by
  induction as with
  | nil => exact ⟨[], rfl, .nil⟩
  | cons x t ih =>
    obtain ⟨t', h1, h2⟩ := ih
    obtain ⟨nm, v, b⟩ := x
    cases nm with
    | id a =>
      obtain ⟨v', h3, h4⟩ := value_rounded ho a v
      exact ⟨⟨.id a, v', b⟩ :: t', by simp only [attrs, h3, h1]; rfl, .cons ⟨rfl, rfl, h4⟩ h2⟩
    | name s => exact ⟨⟨.name s, v, b⟩ :: t', by simp only [attrs, h1]; rfl, .cons ⟨rfl, rfl, rfl⟩ h2⟩

theorem node_rounded {o : Precisions} (ho : InRange o) (n : Node) : ∃ m, node o n = some m ∧ NodeTo o n m := by
  unfold node
  by_cases h : n.isSvgElem = true
  · obtain ⟨bs, h1, h2⟩ := attrs_rounded ho n.attrs
    refine ⟨{ n with attrs := bs }, by rw [if_pos h, h1]; rfl, ⟨⟨rfl, rfl, rfl⟩, fun _ => h2, fun h' => ?_⟩⟩
    rw [h] at h'; cases h'
  · refine ⟨n, by rw [if_neg h], ⟨⟨rfl, rfl, rfl⟩, fun h' => absurd h' h, fun _ => rfl⟩⟩

/-- **C58**: with precisions from 1 to 12, rounding a document never fails; the tree is the same, and every number of an attribute that
is listed for a precision is replaced by the nearest number with that many digits, or one as near; everything else is the same. -/
theorem C58_document {o : Precisions} (ho : InRange o) (f : Forest) :
    ∃ g, roundNumbers o f = some g ∧ List.Forall₂ (NodeTo o) f.nodes g.nodes ∧ shape none g = shape none f := by
  have key : ∃ g, roundNumbers o f = some g ∧ List.Forall₂ (NodeTo o) f.nodes g.nodes ∧ ∀ p, shape p g = shape p f := by
    unfold roundNumbers
    induction f with
    | nil => exact ⟨.nil, rfl, .nil, fun _ => rfl⟩
    | cons n k r ih1 ih2 =>
      obtain ⟨m, h1, h2⟩ := node_rounded ho n
      obtain ⟨k', h3, h4, h5⟩ := ih1
      obtain ⟨r', h6, h7, h8⟩ := ih2
      refine ⟨.cons m k' r', by simp only [Forest.mapOpt, h1, h3, h6]; rfl, ?_, fun p => ?_⟩
      · simp only [Forest.nodes]
        exact .cons h2 (List.rel_append h4 h7)
      · simp only [shape]
        rw [h2.same.1, h5, h8]
  obtain ⟨g, h1, h2, h3⟩ := key
  exact ⟨g, h1, h2, h3 none⟩

/-- Not vacuous: the default precisions are in range, and a coordinate with nine digits is rounded to six. -/
example : InRange ⟨6, 6, 8, 8⟩ := by unfold InRange; decide
example : roundNumbers ⟨6, 6, 8, 8⟩ (.cons ⟨1, .elem .rect, "", [⟨.id .x, .length ⟨1234567891 / 1000000000, .mm⟩, true⟩]⟩ .nil .nil) =
    some (.cons ⟨1, .elem .rect, "", [⟨.id .x, .length ⟨1234568 / 1000000, .mm⟩, true⟩]⟩ .nil .nil) := by decide +kernel

end Verif.Round
