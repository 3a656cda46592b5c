import Verif.DuplSpec
/-
Property C32, second part: the values of the attributes of gradients as a function.
-/
namespace Verif.Dupl
open Verif.Dom Verif.Spec

/-- The initial values; the focal point follows the centre. -/
def dflt : AId → Option Value
  | .gradientUnits => some (.kw .objectBoundingBox)
  | .spreadMethod => some (.kw .pad)
  | .x1 | .y1 | .y2 => some (.length ⟨0, .percent⟩)
  | .x2 => some (.length ⟨100, .percent⟩)
  | .cx | .cy | .r => some (.length ⟨50, .percent⟩)
  | .gradientTransform => some (.transform one)
  | _ => none

/-- The attribute itself, or the centre attribute that it follows. -/
def follows (a : AId) : AId := (centreOf a).getD a

/-- The value of an attribute: its own, else that of the attribute it follows, else the initial one. -/
def Val (f : Forest) (a : AId) (n : Node) (v : Option Value) : Prop :=
  ∃ w w', Effective f a n w ∧ Effective f (follows a) n w' ∧ v = w.or (w'.or (dflt (follows a)))

theorem follows_follows (a : AId) : follows (follows a) = follows a := by cases a <;> rfl

theorem Val.unique {f : Forest} {a : AId} {n : Node} {v v' : Option Value} (h : Val f a n v) (h' : Val f a n v') : v = v' := by
  obtain ⟨w, u, h1, h2, rfl⟩ := h
  obtain ⟨w', u', h1', h2', rfl⟩ := h'
  rw [h1.unique h1', h2.unique h2']

theorem val_total {f : Forest} (hu : f.UniqueKeys) {rank : Nat → Nat} (hr : HrefRanked f rank) (a : AId) {n : Node} (hn : n ∈ f.nodes) (hg : n.isGradient = true) :
    ∃ v, Val f a n v := by
  obtain ⟨w, h1⟩ := effective_total hu hr a hn hg
  obtain ⟨w', h2⟩ := effective_total hu hr (follows a) hn hg
  exact ⟨_, w, w', h1, h2, rfl⟩

theorem effective_own_iff {f : Forest} {a : AId} {n : Node} {v : Value} (h : written n a = some v) {w : Option Value} : Effective f a n w ↔ w = some v := by
  constructor
  · intro he
    exact he.unique (.own h)
  · rintro rfl; exact .own h

theorem effective_ref_iff {f : Forest} {a : AId} {n : Node} {k : Nat} {m : Node} (h : written n a = none) (hh : written n .xlinkHref = some (.link k)) (hf : f.find k = some m)
    {w : Option Value} : Effective f a n w ↔ Effective f a m w := by
  constructor
  · intro he
    cases he with
    | own h' => rw [h] at h'; cases h'
    | ref _ h2 h3 h4 =>
      rw [hh] at h2
      cases h2
      rw [hf] at h3
      cases h3
      exact h4
    | stop _ h2 => rw [hh] at h2; cases h2
  · intro he; exact .ref h hh hf he

theorem effective_end_iff {f : Forest} {a : AId} {n : Node} (h : written n a = none) (hh : written n .xlinkHref = none) {w : Option Value} :
    Effective f a n w ↔ w = none := by
  constructor
  · intro he; exact he.unique (.stop h hh)
  · rintro rfl; exact .stop h hh

/-- A gradient that takes the value from another one. -/
theorem val_ref {f : Forest} {a : AId} {n : Node} {k : Nat} {m : Node} (h : written n a = none) (h' : written n (follows a) = none)
    (hh : written n .xlinkHref = some (.link k)) (hf : f.find k = some m) {v : Option Value} : Val f a n v ↔ Val f a m v := by
  unfold Val
  simp only [effective_ref_iff h hh hf, effective_ref_iff h' hh hf]

theorem val_own {f : Forest} {a : AId} {n : Node} {w : Value} (h : written n a = some w) (ht : ∃ u, Effective f (follows a) n u) {v : Option Value} :
    Val f a n v ↔ v = some w := by
  unfold Val
  simp only [effective_own_iff h]
  constructor
  · rintro ⟨_, _, rfl, _, rfl⟩; rfl
  · rintro rfl
    obtain ⟨u, hu⟩ := ht
    exact ⟨_, u, rfl, hu, rfl⟩

theorem effective_noref {f g : Forest} {a : AId} {n : Node} (hh : written n .xlinkHref = none) {v : Option Value} (h : Effective f a n v) : Effective g a n v := by
  cases h with
  | own h => exact .own h
  | ref _ h2 => rw [hh] at h2; cases h2
  | stop h1 h2 => exact .stop h1 h2

theorem val_noref {f g : Forest} {a : AId} {n : Node} (hh : written n .xlinkHref = none) {v : Option Value} (h : Val f a n v) : Val g a n v := by
  obtain ⟨w, w', h1, h2, e⟩ := h
  exact ⟨w, w', effective_noref hh h1, effective_noref hh h2, e⟩

/-- The values of the standard. -/
theorem val_gradient {f : Forest} {n : Node} {a : AId} (ha : a ∈ gradientAttrs n.kind) (hne : a ≠ .gradientTransform)
    (ht : ∃ u, Effective f (follows a) n u) (v : Value) : GradientValue f n a v ↔ Val f a n (some v) := by
  obtain ⟨u, hu⟩ := ht
  have hd : centreOf a = none → dflt a = gradientDefault n.kind a := by
    intro hc
    obtain ⟨k, kd, i, as⟩ := n
    dsimp only at ha ⊢
    cases kd with
    | elem e =>
      cases e <;> first | (simp [gradientAttrs] at ha; done) | skip
      all_goals
        simp only [gradientAttrs, List.mem_cons, List.not_mem_nil, or_false] at ha
        rcases ha with rfl | rfl | rfl | rfl | rfl | rfl | rfl | rfl <;> first | rfl | exact absurd rfl hne | cases hc
    | _ => simp [gradientAttrs] at ha
  cases hc : centreOf a with
  | none =>
    have hf : follows a = a := by unfold follows; rw [hc]; rfl
    unfold GradientValue PlainValue Val
    rw [hf] at hu ⊢
    constructor
    · rintro ((h | ⟨h, h'⟩) | ⟨_, c, hc', _⟩)
      · exact ⟨_, _, h, h, rfl⟩
      · exact ⟨_, _, h, h, by rw [hd hc, h']; rfl⟩
      · rw [hc] at hc'; cases hc'
    · rintro ⟨w, w', h1, h2, e⟩
      cases h1.unique h2
      cases w with
      | some x =>
        simp at e
        subst e
        exact .inl (.inl h1)
      | none => exact .inl (.inr ⟨h1, by rw [← hd hc]; simpa using e.symm⟩)
  | some c =>
    have hf : follows a = c := by unfold follows; rw [hc]; rfl
    have hk : n.kind = .elem .radialGradient ∧ gradientDefault n.kind a = none ∧ gradientDefault n.kind c = dflt c := by
      obtain ⟨k, kd, i, as⟩ := n
      dsimp only at ha ⊢
      cases kd with
      | elem e =>
        cases e <;> first | (simp [gradientAttrs] at ha; done) | skip
        all_goals
          simp only [gradientAttrs, List.mem_cons, List.not_mem_nil, or_false] at ha
          rcases ha with rfl | rfl | rfl | rfl | rfl | rfl | rfl | rfl <;> cases hc
        all_goals exact ⟨rfl, rfl, rfl⟩
      | _ => simp [gradientAttrs] at ha
    unfold GradientValue PlainValue Val
    rw [hf] at hu ⊢
    rw [hk.2.1]
    constructor
    · rintro ((h | ⟨h, h'⟩) | ⟨_, c', hc', h, h' | ⟨h', e⟩⟩)
      · exact ⟨_, u, h, hu, rfl⟩
      · cases h'
      · rw [hc] at hc'; cases hc'
        exact ⟨_, _, h, h', rfl⟩
      · rw [hc] at hc'; cases hc'
        rw [hk.2.2] at e
        exact ⟨_, _, h, h', by rw [e]; rfl⟩
    · rintro ⟨w, w', h1, h2, e⟩
      cases w with
      | some x =>
        simp at e
        subst e
        exact .inl (.inl h1)
      | none =>
        refine .inr ⟨hk.1, c, hc, h1, ?_⟩
        cases w' with
        | some x =>
          simp at e
          subst e
          exact .inl h2
        | none => exact .inr ⟨h2, by rw [hk.2.2]; simpa using e.symm⟩

theorem val_transform {f : Forest} {n : Node} {t : Paths.Transform} : GTransform f n t ↔ Val f .gradientTransform n (some (.transform t)) := by
  unfold GTransform Val
  show _ ↔ ∃ w w', Effective f .gradientTransform n w ∧ Effective f .gradientTransform n w' ∧ some (Value.transform t) = w.or (w'.or (some (.transform one)))
  constructor
  · rintro (h | ⟨h, rfl⟩)
    · exact ⟨_, _, h, h, rfl⟩
    · exact ⟨_, _, h, h, rfl⟩
  · rintro ⟨w, w', h1, h2, e⟩
    cases h1.unique h2
    cases w with
    | some x =>
      simp at e
      subst e
      exact .inl h1
    | none =>
      simp at e
      exact .inr ⟨h1, e⟩

/-- Gradients with the same values and stops are the same paint. -/
theorem paint_of_val {f g : Forest} {n m : Node} (hk : n.kind = m.kind) (hg : n.isGradient = true)
    (he : ∀ a ∈ gradientAttrs n.kind, ∃ v, Val f a n v ∧ Val g a m v)
    (hs : ∃ l l', GStops f n l ∧ GStops g m l' ∧ List.Forall₂ (fun s t => StopSame f s g t) l l') : PaintSame f n g m := by
  have iff : ∀ a ∈ gradientAttrs n.kind, ∀ v, Val f a n v ↔ Val g a m v := by
    intro a ha v
    obtain ⟨w, h1, h2⟩ := he a ha
    exact ⟨fun h => by rw [h.unique h1]; exact h2, fun h => by rw [h.unique h2]; exact h1⟩
  refine ⟨hk, fun a ha hne v => ?_, fun t => ?_, hs⟩
  · obtain ⟨w, ⟨_, w1, _, h1, _⟩, ⟨_, w2, _, h2, _⟩⟩ := he a ha
    rw [val_gradient ha hne ⟨w1, h1⟩, val_gradient (hk ▸ ha) hne ⟨w2, h2⟩, iff a ha]
  · have ht : AId.gradientTransform ∈ gradientAttrs n.kind := by
      simp only [Node.isGradient, Bool.or_eq_true, Node.isTag, decide_eq_true_eq] at hg
      rcases hg with h | h <;> rw [h] <;> decide
    rw [val_transform, val_transform, iff _ ht]

end Verif.Dupl
