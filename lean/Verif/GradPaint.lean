import Verif.GradientSpec
import Verif.DomLemmas
/-
Specification of the paint that a gradient gives (SVG 1.1, 13.2): its attributes, as `GradientSpec.lean` says, and its stops,
which are taken from the gradient it refers to if it has none.  Nothing here is used by the model of the code.
-/
namespace Verif.Spec
open Verif.Dom Verif.Paths

/-- The `stop` elements among siblings. -/
def stopKids (c : Forest) : List Node := c.top.filter fun n => decide (n.kind = .elem .stop)

/-- The stops of a gradient: its own, or those found along the chain of references. -/
inductive GStops (f : Forest) : Node → List Node → Prop
  | own {n c} : f.kidsOf n.key = some c → stopKids c ≠ [] → GStops f n (stopKids c)
  | ref {n c k m l} : f.kidsOf n.key = some c → stopKids c = [] → written n .xlinkHref = some (.link k) → f.find k = some m →
      GStops f m l → GStops f n l
  | none {n c} : f.kidsOf n.key = some c → stopKids c = [] → written n .xlinkHref = none → GStops f n []

/-- The inherited value of `color` where the node with the key `k` stands. -/
def colourAt (f : Forest) (k : Nat) : Option Value := ((inherited .color none f).find? fun x => decide (x.1 = k)).bind (·.2)

/-- Two stops are the same: offset, colour and opacity. -/
structure StopSame (f : Forest) (s : Node) (g : Forest) (t : Node) : Prop where
  offset : s.get .offset = t.get .offset
  opacity : s.get .stopOpacity = t.get .stopOpacity
  colour : s.get .stopColor = t.get .stopColor
  current : s.get .stopColor = some (.kw .currentColor) → colourAt f s.key = colourAt g t.key

/-- The transform of a gradient, the identity if there is none. -/
def GTransform (f : Forest) (n : Node) (t : Transform) : Prop :=
  Effective f .gradientTransform n (some (.transform t)) ∨ (Effective f .gradientTransform n none ∧ t = one)

/-- The gradient `n` of `f` and the gradient `m` of `g` are the same paint: they are of the same kind and all their attributes
and stops are the same. -/
structure PaintSame (f : Forest) (n : Node) (g : Forest) (m : Node) : Prop where
  kind : n.kind = m.kind
  values : ∀ a ∈ gradientAttrs n.kind, a ≠ .gradientTransform → ∀ v, GradientValue f n a v ↔ GradientValue g m a v
  transform : ∀ t, GTransform f n t ↔ GTransform g m t
  stops : ∃ l l', GStops f n l ∧ GStops g m l' ∧ List.Forall₂ (fun s t => StopSame f s g t) l l'

/-- Inside of a gradient. -/
def InGradient (f : Forest) (n : Node) : Prop := ∃ x ∈ subs f, x.1.isGradient = true ∧ n ∈ x.2.nodes

/-! ### Uniqueness and existence -/

theorem GStops.unique {f : Forest} {n : Node} {l l' : List Node} (h1 : GStops f n l) (h2 : GStops f n l') : l = l' := by
  induction h1 generalizing l' with
  | own a b => cases h2 with
    | own c d => rw [a] at c; cases c; rfl
    | ref c d => rw [a] at c; cases c; exact absurd d b
    | none c d => rw [a] at c; cases c; exact absurd d b
  | ref a b c d _ ih => cases h2 with
    | own a' b' => rw [a] at a'; cases a'; exact absurd b b'
    | ref _ _ c' d' e' =>
      rw [c] at c'; cases c'
      rw [d] at d'; cases d'
      exact ih e'
    | none _ _ c' => rw [c] at c'; cases c'
  | none a b c => cases h2 with
    | own a' b' => rw [a] at a'; cases a'; exact absurd b b'
    | ref _ _ c' => rw [c] at c'; cases c'
    | none => rfl

theorem StopSame.trans {f g h : Forest} {s t u : Node} (h1 : StopSame f s g t) (h2 : StopSame g t h u) : StopSame f s h u where
  offset := h1.offset.trans h2.offset
  opacity := h1.opacity.trans h2.opacity
  colour := h1.colour.trans h2.colour
  current hc := (h1.current hc).trans (h2.current (h1.colour ▸ hc))

theorem PaintSame.trans {f g h : Forest} {n m k : Node} (h1 : PaintSame f n g m) (h2 : PaintSame g m h k) : PaintSame f n h k where
  kind := h1.kind.trans h2.kind
  values a ha hne v := (h1.values a ha hne v).trans (h2.values a (h1.kind ▸ ha) hne v)
  transform t := (h1.transform t).trans (h2.transform t)
  stops := by
    obtain ⟨l, l1, a1, a2, a3⟩ := h1.stops
    obtain ⟨l2, l3, b1, b2, b3⟩ := h2.stops
    cases a2.unique b1
    refine ⟨l, l3, a1, b2, ?_⟩
    clear a1 a2 b1 b2
    induction a3 generalizing l3 with
    | nil => cases b3; exact .nil
    | cons x _ ih => cases b3 with | cons y hy => exact .cons (x.trans y) (ih _ hy)

theorem effective_total {f : Forest} (hu : f.UniqueKeys) {rank : Nat → Nat} (hr : HrefRanked f rank) (a : AId) {n : Node} (hn : n ∈ f.nodes)
    (hg : n.isGradient = true) : ∃ v, Effective f a n v := by
  induction h : rank n.key using Nat.strong_induction_on generalizing n with
  | _ N ih =>
    cases hw : written n a with
    | some v => exact ⟨_, .own hw⟩
    | none =>
      cases hh : written n .xlinkHref with
      | none => exact ⟨_, .stop hw hh⟩
      | some x =>
        obtain ⟨t, ht, rfl, htg, hlt⟩ := hr n hn hg x hh
        obtain ⟨v, hv⟩ := ih (rank t.key) (h ▸ hlt) ht htg rfl
        exact ⟨v, .ref hw hh (Forest.find_of_mem hu ht) hv⟩

theorem kidsOf_isSome {f : Forest} {k : Nat} (h : k ∈ f.keys) : ∃ c, f.kidsOf k = some c := by
  induction f with
  | nil => simp at h
  | cons n c r ih1 ih2 =>
    rw [Forest.kidsOf]
    split
    · exact ⟨_, rfl⟩
    next hk =>
      rw [Forest.keys_cons] at h
      rcases List.mem_cons.1 h with h | h
      · exact absurd h.symm hk
      · rcases List.mem_append.1 h with h | h
        · obtain ⟨d, hd⟩ := ih1 h
          exact ⟨d, by rw [hd]; rfl⟩
        · obtain ⟨d, hd⟩ := ih2 h
          cases hc : c.kidsOf k with
          | none => exact ⟨d, by rw [hd]; rfl⟩
          | some e => exact ⟨e, rfl⟩

theorem gstops_total {f : Forest} (hu : f.UniqueKeys) {rank : Nat → Nat} (hr : HrefRanked f rank) {n : Node} (hn : n ∈ f.nodes)
    (hg : n.isGradient = true) : ∃ l, GStops f n l := by
  induction h : rank n.key using Nat.strong_induction_on generalizing n with
  | _ N ih =>
    obtain ⟨c, hc⟩ := kidsOf_isSome (Forest.key_mem hn)
    by_cases hs : stopKids c = []
    · cases hh : written n .xlinkHref with
      | none => exact ⟨_, .none hc hs hh⟩
      | some x =>
        obtain ⟨t, ht, rfl, htg, hlt⟩ := hr n hn hg x hh
        obtain ⟨v, hv⟩ := ih (rank t.key) (h ▸ hlt) ht htg rfl
        exact ⟨v, .ref hc hs hh (Forest.find_of_mem hu ht) hv⟩
    · exact ⟨_, .own hc hs⟩

/-- It is enough to compare what is found along the chains. -/
theorem paint_of_effective {f g : Forest} {n m : Node} (hk : n.kind = m.kind) (he : ∀ a ∈ gradientAttrs n.kind, ∃ v, Effective f a n v ∧ Effective g a m v)
    (hg : n.isGradient = true)
    (hs : ∃ l l', GStops f n l ∧ GStops g m l' ∧ List.Forall₂ (fun s t => StopSame f s g t) l l') : PaintSame f n g m := by
  have iff : ∀ a ∈ gradientAttrs n.kind, ∀ v, Effective f a n v ↔ Effective g a m v := by
    intro a ha v
    obtain ⟨w, h1, h2⟩ := he a ha
    exact ⟨fun h => by rw [h.unique h1]; exact h2, fun h => by rw [h.unique h2]; exact h1⟩
  have hc : ∀ a ∈ gradientAttrs n.kind, ∀ c, centreOf a = some c → n.kind = .elem .radialGradient → c ∈ gradientAttrs n.kind := by
    intro a _ c hc hr
    rw [hr]
    unfold centreOf at hc
    split at hc <;> cases hc <;> decide
  have plain : ∀ a ∈ gradientAttrs n.kind, ∀ v, PlainValue f n a v ↔ PlainValue g m a v := by
    intro a ha v
    unfold PlainValue
    rw [iff a ha, iff a ha, hk]
  refine ⟨hk, fun a ha _ v => ?_, fun t => ?_, hs⟩
  · unfold GradientValue
    rw [plain a ha, ← hk]
    refine or_congr Iff.rfl (and_congr_right fun hr => exists_congr fun c => and_congr_right fun h => ?_)
    rw [iff a ha, plain c (hc a ha c h hr)]
  · have ht : AId.gradientTransform ∈ gradientAttrs n.kind := by
      simp only [Node.isGradient, Bool.or_eq_true, Node.isTag, decide_eq_true_eq] at hg
      rcases hg with h | h <;> rw [h] <;> decide
    unfold GTransform
    rw [iff _ ht, iff _ ht]

/-- Parts of two documents with the same references have the same effective values. -/
theorem effective_part {f g : Forest} {a : AId} {S : Node → Prop}
    (hS : ∀ n, S n → ∀ k, written n .xlinkHref = some (.link k) → ∃ m, S m ∧ f.find k = some m ∧ g.find k = some m) {n : Node} {v : Option Value}
    (hn : S n) (h : Effective f a n v) : Effective g a n v := by
  induction h with
  | own h => exact .own h
  | ref h1 h2 h3 _ ih =>
    obtain ⟨m, hm, e1, e2⟩ := hS _ hn _ h2
    rw [h3] at e1
    cases e1
    exact .ref h1 h2 e2 (ih hm)
  | stop h1 h2 => exact .stop h1 h2

theorem gstops_part {f g : Forest} {S : Node → Prop}
    (hS : ∀ n, S n → f.kidsOf n.key = g.kidsOf n.key ∧ ∀ k, written n .xlinkHref = some (.link k) → ∃ m, S m ∧ f.find k = some m ∧ g.find k = some m)
    {n : Node} {l : List Node} (hn : S n) (h : GStops f n l) : GStops g n l := by
  induction h with
  | own h1 h2 => exact .own ((hS _ hn).1 ▸ h1) h2
  | ref h1 h2 h3 h4 _ ih =>
    obtain ⟨m, hm, e1, e2⟩ := (hS _ hn).2 _ h3
    rw [h4] at e1
    cases e1
    exact .ref ((hS _ hn).1 ▸ h1) h2 h3 e2 (ih hm)
  | none h1 h2 h3 => exact .none ((hS _ hn).1 ▸ h1) h2 h3

end Verif.Spec
