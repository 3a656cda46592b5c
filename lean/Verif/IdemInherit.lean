import Verif.IdemGrad
import Verif.UngroupProps
/-
C67: `inherit` and `currentColor`.
-/
namespace Verif.Idem
open Verif.Dom Verif.Spec Verif.Pipeline
open Verif.Inherit (withKw setChecked resolveImpl resolveColor forAttrs body resolveInherit mem_withKw getAttr_checked get_some_of)

/-! ### One node -/

/-- A loop that sets each attribute of a list to a value that does not depend on the node. -/
theorem forAttrs_sets {w : AId → Option Value} {g : AId → Node → Res Node} {l : List AId} {n m : Node} {P : Node → Prop}
    (hg : ∀ a ∈ l, ∀ n m, P n → g a n = .ok m → ∃ v, w a = some v ∧ m = n.set a v ∧ P m) (hn : P n) (h : forAttrs g l n = .ok m) :
    P m ∧ m.kind = n.kind ∧ (∀ a ∈ l, ∃ v, w a = some v ∧ getAttr m.attrs (.id a) = some ⟨.id a, v, true⟩) ∧
      ∀ b, (∀ a ∈ l, b ≠ .id a) → getAttr m.attrs b = getAttr n.attrs b := by
  induction l generalizing n with
  | nil => cases h; exact ⟨hn, rfl, by simp, fun _ _ => rfl⟩
  | cons a t ih =>
    obtain ⟨n1, h1, h2⟩ := Stops.bind_ok.1 h
    obtain ⟨v, hv, rfl, hp⟩ := hg a (by simp) n n1 hn h1
    obtain ⟨i0, i1, i2, i3⟩ := ih (fun a ha => hg a (by simp [ha])) hp h2
    refine ⟨i0, i1, ?_, ?_⟩
    · intro b hb
      by_cases hbt : b ∈ t
      · exact i2 b hbt
      · have : b = a := by simpa [hbt] using hb
        subst this
        refine ⟨v, hv, ?_⟩
        rw [i3 _ (fun a' ha' e => hbt (by cases e; exact ha')), Stops.getAttr_set]
        simp
    · intro b hb
      rw [i3 b (fun a' ha' => hb a' (by simp [ha'])), Stops.getAttr_set]
      simp [hb a (by simp)]

theorem forAttrs_still {g : AId → Node → Res Node} {l : List AId} {m : Node} (h : ∀ a ∈ l, g a m = .ok m) : forAttrs g l m = .ok m := by
  induction l with
  | nil => rfl
  | cons a t ih =>
    unfold forAttrs
    rw [h a (by simp)]
    exact ih fun b hb => h b (by simp [hb])

/-- Attributes occur once. -/
abbrev Once (n : Node) : Prop := (n.attrs.map (·.name)).Nodup

theorem once_set {n : Node} (h : Once n) (a : AId) (v : Value) : Once (n.set a v) := Ungroup.putAttr_names _ _ h

theorem set_same {n : Node} (hn : Once n) {a : AId} {v : Value} (h : getAttr n.attrs (.id a) = some ⟨.id a, v, true⟩) : n.set a v = n := by
  refine set_only ⟨by rw [h]; rfl, fun x hx e => ?_⟩
  have := GradUnits.getAttr_of_mem hn hx
  rw [e, h] at this
  exact (Option.some.inj this).symm

/-- The value that an element takes from its ancestors. -/
abbrev look (anc : List Node) (a : AId) : Option Value := anc.findSome? fun m => m.get a

theorem impl_ok {anc : List Node} {cur par : AId} {n m : Node} (h : resolveImpl anc cur par n = .ok m) :
    ∃ v, look anc par = some v ∧ m = n.set cur v := by
  unfold resolveImpl at h
  split at h
  · rename_i v hv; exact ⟨v, hv, getAttr_checked h⟩
  · cases h

theorem color_ok {anc : List Node} {a : AId} {n m : Node} (h : resolveColor anc a n = .ok m) :
    ∃ v, (n.get .color).or (look anc .color) = some v ∧ m = n.set a v := by
  unfold resolveColor at h
  split at h
  · rename_i v hv; exact ⟨v, by rw [hv]; rfl, getAttr_checked h⟩
  · rename_i hc
    obtain ⟨v, hv, e⟩ := impl_ok h
    exact ⟨v, by rw [hc, Option.none_or]; exact hv, e⟩

/-- A value that is no reference to another value. -/
def Fixed (v : Option Value) : Prop := v ≠ some (.kw .inherit) ∧ v ≠ some (.kw .currentColor)

/-- An element without relative values stays as it is. -/
theorem body_fixed {anc : List Node} {n : Node} (hn : Once n) (h : ∀ a, Fixed (n.get a)) : body anc n = .ok n := by
  have e : ∀ w, w = .inherit ∨ w = .currentColor → withKw n w = [] := by
    intro w hw
    refine List.eq_nil_iff_forall_not_mem.2 fun a ha => ?_
    rw [mem_withKw hn] at ha
    rcases hw with rfl | rfl
    · exact (h a).1 ha
    · exact (h a).2 ha
  unfold body
  split
  · rw [e _ (.inl rfl), e _ (.inr rfl)]; rfl
  · rfl

/-- A handled element has no relative values. -/
theorem body_leaves {anc : List Node} {n m : Node} (hn : Once n) (hs : n.isSvgElem = true) (hcol : n.get .color ≠ some (.kw .currentColor))
    (hc : ∀ a, Fixed (look anc a)) (h : body anc n = .ok m) : Once m ∧ ∀ a, Fixed (m.get a) := by
  unfold body at h
  rw [if_pos hs] at h
  obtain ⟨n1, h1, h2⟩ := Stops.bind_ok.1 h
  obtain ⟨p1, k1, v1, o1⟩ := forAttrs_sets (w := look anc) (P := Once) (by
    intro a _ x y hx hy
    obtain ⟨v, hv, rfl⟩ := impl_ok hy
    exact ⟨v, hv, rfl, once_set hx a v⟩) hn h1
  -- After the first loop `inherit` is gone, and `currentColor` is where it has been.
  have back : ∀ a, n1.get a ≠ some (.kw .inherit) ∧ (n1.get a = some (.kw .currentColor) → a ∈ withKw n .currentColor) := by
    intro a
    by_cases e : a ∈ withKw n .inherit
    · obtain ⟨v, hv, hg⟩ := v1 a e
      rw [get_some_of hg]
      rw [← hv]
      exact ⟨(hc a).1, fun e' => absurd e' (hc a).2⟩
    · rw [Stops.get_of_getAttr (n := n) (o1 (.id a) fun b hb e' => e (by cases e'; exact hb))]
      exact ⟨fun h => e ((mem_withKw hn _ _).2 h), fun h => (mem_withKw hn _ _).2 h⟩
  have hcw : AId.color ∉ withKw n .currentColor := by rw [mem_withKw hn]; exact hcol
  have hc1 : Fixed ((n1.get .color).or (look anc .color)) := by
    have := back .color
    cases hx : n1.get .color with
    | none => rw [Option.none_or]; exact hc _
    | some u =>
      rw [hx] at this
      exact ⟨this.1, fun e => hcw (this.2 e)⟩
  obtain ⟨⟨p2, _⟩, _, v2, o2⟩ := forAttrs_sets (w := fun _ => (n1.get .color).or (look anc .color)) (P := fun x => Once x ∧ x.get .color = n1.get .color) (by
    intro a ha x y hx hy
    obtain ⟨v, hv, rfl⟩ := color_ok hy
    rw [hx.2] at hv
    refine ⟨v, hv, rfl, once_set hx.1 a v, ?_⟩
    rw [ApplyTs.get_set, if_neg (fun e => hcw (by rw [e]; exact ha)), hx.2]) ⟨p1, rfl⟩ h2
  refine ⟨p2, fun a => ?_⟩
  by_cases e : a ∈ withKw n .currentColor
  · obtain ⟨v, hv, hg⟩ := v2 a e
    rw [get_some_of hg, ← hv]
    exact hc1
  · rw [Stops.get_of_getAttr (n := n1) (o2 (.id a) fun b hb e' => e (by cases e'; exact hb))]
    exact ⟨(back a).1, fun h => e ((back a).2 h)⟩

/-! ### All nodes -/

/-- Attributes occur once, `color` is not `currentColor`, and elements outside SVG have no relative values. -/
structure PlainColors (f : Forest) : Prop where
  attrs : UniqueAttrs f
  color : ∀ n ∈ f.nodes, n.get .color ≠ some (.kw .currentColor)
  other : ∀ n ∈ f.nodes, n.isSvgElem = false → ∀ a, Fixed (n.get a)

theorem inherit_tree {f g : Forest} {anc : List Node} (hf : PlainColors f) (hc : ∀ a, Fixed (look anc a))
    (h : f.mapRes body anc = .ok g) : g.mapRes body anc = .ok g := by
  induction f generalizing anc g with
  | nil => cases h; rfl
  | cons n k r ihk ihr =>
    obtain ⟨m, hm, h⟩ := Stops.bind_ok.1 h
    obtain ⟨k', hk, h⟩ := Stops.bind_ok.1 h
    obtain ⟨r', hr, h⟩ := Stops.bind_ok.1 h
    cases h
    have hn : n ∈ (Forest.cons n k r).nodes := by simp [Forest.nodes]
    obtain ⟨b1, b2⟩ : Once m ∧ ∀ a, Fixed (m.get a) := by
      cases hs : n.isSvgElem with
      | true => exact body_leaves (hf.attrs n hn) hs (hf.color n hn) hc hm
      | false =>
        unfold body at hm
        rw [hs] at hm
        cases hm
        exact ⟨hf.attrs n hn, hf.other n hn hs⟩
    have hmc : ∀ a, Fixed (look (m :: anc) a) := by
      intro a
      unfold look
      rw [List.findSome?_cons]
      have := b2 a
      cases hx : m.get a with
      | none => exact hc a
      | some v => rw [hx] at this; exact this
    have i1 := ihk ⟨fun x hx => hf.attrs x (by simp [Forest.nodes, hx]), fun x hx => hf.color x (by simp [Forest.nodes, hx]),
      fun x hx => hf.other x (by simp [Forest.nodes, hx])⟩ hmc hk
    have i2 := ihr ⟨fun x hx => hf.attrs x (by simp [Forest.nodes, hx]), fun x hx => hf.color x (by simp [Forest.nodes, hx]),
      fun x hx => hf.other x (by simp [Forest.nodes, hx])⟩ hc hr
    unfold Forest.mapRes
    rw [body_fixed b1 b2]
    change ((k'.mapRes body (m :: anc)).bind fun k' => (r'.mapRes body anc).bind fun r' => Res.ok (Forest.cons m k' r')) = _
    rw [i1]
    change ((r'.mapRes body anc).bind fun r' => Res.ok (Forest.cons m k' r')) = _
    rw [i2]
    rfl

/-- **C67** for `resolve-inherit`, for such documents. -/
theorem C67_inherit : Settles PlainColors resolveInherit := fun _ _ hf h => inherit_tree hf (by simp [look, Fixed]) h

/-! ### Cases -/

/-- `<g color="red"><g color="currentColor" fill="currentColor"><rect color="..." fill="inherit"/></g></g>` -/
def loopDoc : Forest := doc (.cons (el 1 .g "" [(.color, red)]) (.cons (el 2 .g "" [(.color, .kw .currentColor), (.fill, .kw .currentColor)])
  (leaf (el 3 .rect "" [(.color, .color 0 0 255), (.fill, .kw .inherit)]) .nil) .nil) .nil)

/-- A colour that is `currentColor` stays, is inherited, and means the colour of the child in the second run. -/
theorem C67_refuted_inherit : ¬ Settles Parsed resolveInherit :=
  unsettled' (f := loopDoc) (by decide +kernel) (by decide +kernel)

/-- Relative colours without such a loop. -/
def plainDoc : Forest := doc (.cons (el 1 .g "" [(.color, red), (.fill, .kw .currentColor)])
  (leaf (el 3 .rect "" [(.color, .kw .inherit), (.fill, .kw .inherit), (.stroke, .kw .currentColor)]) .nil) .nil)

example : PlainColors plainDoc := ⟨by decide +kernel, by decide +kernel, by
  intro n hn hs
  revert n
  simp only [plainDoc, doc, leaf, Forest.nodes, List.cons_append, List.nil_append, List.append_nil, List.mem_cons, List.not_mem_nil, or_false]
  rintro n (rfl | rfl | rfl) hs <;> cases hs⟩

example : ∃ g, resolveInherit plainDoc = .ok g ∧ g ≠ plainDoc :=
  ⟨(result resolveInherit plainDoc).get (by decide +kernel), by decide +kernel, by decide +kernel⟩

end Verif.Idem
