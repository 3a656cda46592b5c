import Verif.ApplyTsProps
import Verif.SimpleProps
/-
`prepare_transforms`: moving the transform of a group to its children keeps the total transform of everything drawn (a part
of C31 and of C36).
-/
namespace Verif.ApplyTs
open Verif.Dom Verif.Spec Verif.Paths

/-! ### Specification -/

/-- The SVG elements in document order, each with the total transform that applies to it; elements outside of the SVG
namespace, and what is in them, are not rendered. -/
def ctms (c : Transform) : Forest → List (Node × Transform)
  | .nil => []
  | .cons n k r =>
    (if n.isSvgElem then (n, mul c (nodeTransform n)) :: ctms (mul c (nodeTransform n)) k else []) ++ ctms c r

/-- The element has no paint server, filter, mask or clip path of its own, which would be placed by its transform. -/
def NoOwnLinks (n : Node) : Prop := ∀ a ∈ [AId.fill, .stroke, .filter, .mask, .clipPath], ∀ k, n.get a ≠ some (.funcLink k)

/-- Elements that a transform attribute applies to.  (It does not apply to nested `svg` elements, for example.) -/
def TakesTransform : Dom.Kind → Bool
  | .elem e => decide (e ∈ [EId.g, .rect, .circle, .ellipse, .line, .path])
  | _ => false

/-- The same element but for its transform attribute, which only changes on elements to which it applies, in the same place:
only the place of a group to which no filter, mask or clip path belongs may differ. -/
def SamePlace (x y : Node × Transform) : Prop :=
  SameBut [.transform] x.1 y.1 ∧ (y.2 = x.2 ∨ (x.1.isTag .g = true ∧ NoOwnLinks x.1)) ∧
  (y.1 = x.1 ∨ TakesTransform x.1.kind = true)

/-! ### Proofs -/

theorem mul_assoc' (r s t : Transform) : mul (mul r s) t = mul r (mul s t) := by
  unfold mul; simp only [Transform.mk.injEq]; refine ⟨?_, ?_, ?_, ?_, ?_, ?_⟩ <;> ring

theorem append_eq (s t : Transform) : append s t = mul s t := rfl

theorem mul_one'' (s : Transform) : mul s one = s := by
  obtain ⟨a, b, c, d, e, f⟩ := s
  simp [mul, one]

theorem ctms_refl (c : Transform) (f : Forest) : List.Forall₂ SamePlace (ctms c f) (ctms c f) := by
  rw [List.forall₂_same]
  exact fun x _ => ⟨SameBut.refl _ _, .inl rfl, .inl rfl⟩

theorem SamePlace.trans {x y z : Node × Transform} (h1 : SamePlace x y) (h2 : SamePlace y z) : SamePlace x z := by
  refine ⟨h1.1.trans h2.1, ?_, ?_⟩
  rotate_left
  · rcases h2.2.2 with h | h
    · rw [h]; exact h1.2.2
    · rw [h1.1.kind] at h; exact .inr h
  rcases h2.2.1 with h | ⟨h, h'⟩
  · rcases h1.2.1 with g | g
    · exact .inl (h.trans g)
    · exact .inr g
  · right
    refine ⟨?_, fun a ha k he => h' a ha k ?_⟩
    · unfold Node.isTag at h ⊢; rw [← h1.1.kind]; exact h
    · have : ∀ a ∈ [AId.fill, .stroke, .filter, .mask, .clipPath], a ∉ [AId.transform] := by decide
      rw [h1.1.get (this a ha), he]

theorem isSvgElem_same {as : List AId} {n m : Node} (h : SameBut as n m) : m.isSvgElem = n.isSvgElem := by
  unfold Node.isSvgElem; rw [h.kind]

theorem nodeTransform_get {n : Node} {t : Transform} (h : n.get .transform = some (.transform t)) : nodeTransform n = t := by
  unfold nodeTransform; rw [h]

theorem validChildren_takes {o : TsOpts} {anc : List Node} {f : Forest} (h : validChildren o anc f = some true) :
    ∀ n ∈ f.top, n.isSvgElem = true → TakesTransform n.kind = true := by
  induction f with
  | nil => simp [Forest.top]
  | cons n k r _ ih =>
    simp only [validChildren, Option.bind_eq_some_iff] at h
    obtain ⟨b, hb, h⟩ := h
    split at h
    next hbt =>
      intro m hm hs
      simp only [Forest.top, List.mem_cons] at hm
      rcases hm with rfl | hm
      · unfold validChild at hb
        split at hb
        next e he =>
          split at hb
          next hmem =>
            rw [he]
            have : ∀ e ∈ EId.g :: validElems o, TakesTransform (.elem e) = true := by
              obtain ⟨a, b, c⟩ := o
              cases a <;> cases b <;> cases c <;> decide
            exact this e hmem
          next => cases hb; simp at hbt
        next hne =>
          unfold Node.isSvgElem at hs
          split at hs
          next e he => exact absurd he (hne e)
          next => cases hs
      · exact ih h m hm hs
    next => cases h

theorem pushTransform_ctms {t : Transform} {f g : Forest} (h : pushTransform t f = some g)
    (hv : ∀ n ∈ f.top, n.isSvgElem = true → TakesTransform n.kind = true) (c : Transform) :
    List.Forall₂ SamePlace (ctms (mul c t) f) (ctms c g) := by
  induction f generalizing g with
  | nil => simp [pushTransform] at h; subst h; exact .nil
  | cons n k r _ ih =>
    simp only [pushTransform, Option.bind_eq_some_iff, Option.map_eq_some_iff] at h
    obtain ⟨n', hn, r', hr, rfl⟩ := h
    simp only [ctms]
    apply List.rel_append ?_ (ih hr (fun m hm => hv m (by simp [Forest.top, hm])))
    cases hs : n.isSvgElem with
    | false =>
      rw [hs] at hn
      simp only [Bool.false_eq_true, if_false, Option.some.injEq] at hn
      subst hn
      rw [hs]
      simp
    | true =>
      rw [hs] at hn
      simp only [if_true] at hn
      have key : SameBut [.transform] n n' ∧ nodeTransform n' = mul t (nodeTransform n) := by
        split at hn
        · simp only [Option.map_eq_some_iff] at hn
          obtain ⟨t2, ht2, rfl⟩ := hn
          refine ⟨SameBut.set _ (by simp) _, ?_⟩
          rw [nodeTransform_get (t := append t t2) (by rw [get_set, if_pos rfl]), nodeTransform_get (getTs_eq.1 ht2)]
          rfl
        · rename_i hno
          cases hn
          refine ⟨SameBut.set _ (by simp) _, ?_⟩
          rw [nodeTransform_get (t := t) (by rw [get_set, if_pos rfl])]
          rw [Node.has_eq] at hno
          have : nodeTransform n = one := by
            unfold nodeTransform
            cases hg : n.get .transform with
            | none => rfl
            | some v => rw [hg] at hno; simp at hno
          rw [this, mul_one'']
      have hs' : n'.isSvgElem = true := by rw [isSvgElem_same key.1]; exact hs
      rw [if_pos rfl, if_pos hs', key.2, ← mul_assoc']
      exact .cons ⟨key.1, .inl rfl, .inr (hv n (by simp [Forest.top]) hs)⟩ (ctms_refl _ _)

theorem pushTransform_shape {t : Transform} {f g : Forest} (h : pushTransform t f = some g) (o : Option Nat) :
    shape o g = shape o f := by
  induction f generalizing g with
  | nil => simp [pushTransform] at h; subst h; rfl
  | cons n k r _ ih =>
    simp only [pushTransform, Option.bind_eq_some_iff, Option.map_eq_some_iff] at h
    obtain ⟨n', hn, r', hr, rfl⟩ := h
    have : n'.key = n.key := by
      split at hn
      · split at hn
        · simp only [Option.map_eq_some_iff] at hn
          obtain ⟨_, _, rfl⟩ := hn; rfl
        · cases hn; rfl
      · cases hn; rfl
    simp only [shape, this, ih hr]

theorem noOwnLinks_of {n : Node} {anc : List Node} (h : isValidAttrs (n :: anc) = true) : NoOwnLinks n := by
  intro a ha k he
  exact (isValidAttrs_iff n anc).1 h a ha k (specified_own he)

theorem prepareGroup_spec {o : TsOpts} {anc : List Node} {n n' : Node} {k k' : Forest} {b : Bool}
    (h : prepareGroup o anc n k = some (n', k', b)) (c : Transform) :
    SameBut [.transform] n n' ∧ (∀ p, shape p k' = shape p k) ∧
    List.Forall₂ SamePlace (ctms (mul c (nodeTransform n)) k) (ctms (mul c (nodeTransform n')) k') ∧
    (n' = n ∨ (n.isTag .g = true ∧ NoOwnLinks n)) := by
  unfold prepareGroup at h
  split at h
  · rename_i hg
    simp only [Bool.and_eq_true] at hg
    simp only [Option.bind_eq_some_iff] at h
    obtain ⟨ok, hok, h⟩ := h
    split at h
    · cases h
      exact ⟨SameBut.refl _ _, fun _ => rfl, ctms_refl _ _, .inl rfl⟩
    · rename_i hv
      simp only [Bool.or_eq_true, not_or, Bool.not_eq_true', Bool.not_eq_false] at hv
      simp only [Option.bind_eq_some_iff] at h
      obtain ⟨v, hval, h⟩ := h
      split at h
      · rename_i hvt
        subst hvt
        simp only [Option.bind_eq_some_iff, Option.map_eq_some_iff] at h
        obtain ⟨t, ht, k1, hk, h⟩ := h
        cases h
        refine ⟨SameBut.rm _ (by simp), fun p => pushTransform_shape hk p, ?_, .inr ⟨hg.1, noOwnLinks_of hv.2⟩⟩
        have e1 : nodeTransform (n.rm .transform) = one := by
          unfold nodeTransform; rw [get_rm, if_pos rfl]
        rw [e1, mul_one'', nodeTransform_get (getTs_eq.1 ht)]
        exact pushTransform_ctms hk (validChildren_takes hval) c
      · cases h
        exact ⟨SameBut.refl _ _, fun _ => rfl, ctms_refl _ _, .inl rfl⟩
  · cases h
    exact ⟨SameBut.refl _ _, fun _ => rfl, ctms_refl _ _, .inl rfl⟩

theorem prepareGo_spec (o : TsOpts) (rec : Bool) (s : Nat) : ∀ (anc : List Node) (f : Forest) (stop : Bool) (g : Forest) (b : Bool),
    Stops.size f ≤ s → prepareGo o rec anc f stop = some (g, b) →
    (∀ p, shape p g = shape p f) ∧ ∀ c, List.Forall₂ SamePlace (ctms c f) (ctms c g) := by
  induction s with
  | zero =>
    intro anc f stop g b hs h
    cases f with
    | nil => rw [prepareGo] at h; cases h; exact ⟨fun _ => rfl, fun _ => .nil⟩
    | cons n k r => simp only [Stops.size] at hs; omega
  | succ s ih =>
    intro anc f stop g b hs h
    cases f with
    | nil => rw [prepareGo] at h; cases h; exact ⟨fun _ => rfl, fun _ => .nil⟩
    | cons n k r =>
      simp only [Stops.size] at hs
      rw [prepareGo] at h
      split at h
      · cases h; exact ⟨fun _ => rfl, fun c => ctms_refl c _⟩
      · split at h
        · cases h
        · rename_i n' k' tried hp
          have hsz := prepareGroup_size hp
          have hspec := fun c => prepareGroup_spec hp c
          have hsb := (hspec one).1
          have head : ∀ c, (k'' r'' : Forest) → List.Forall₂ SamePlace (ctms (mul c (nodeTransform n')) k') (ctms (mul c (nodeTransform n')) k'') →
              List.Forall₂ SamePlace (ctms c r) (ctms c r'') →
              List.Forall₂ SamePlace (ctms c (.cons n k r)) (ctms c (.cons n' k'' r'')) := by
            intro c k'' r'' h1 h2
            obtain ⟨_, _, g3, g4⟩ := hspec c
            simp only [ctms]
            apply List.rel_append ?_ h2
            rw [isSvgElem_same hsb]
            split
            · refine .cons ⟨hsb, ?_⟩ (Stops.forall2_comp (R := SamePlace) (S := SamePlace) (T := SamePlace) (fun _ _ _ a b => SamePlace.trans a b) g3 h1)
              rcases g4 with rfl | g4
              · exact ⟨.inl rfl, .inl rfl⟩
              · refine ⟨.inr g4, .inr ?_⟩
                have := (Node.isTag_iff n .g).1 g4.1
                rw [this]; rfl
            · exact .nil
          have hshape : ∀ p (k'' r'' : Forest), (∀ p, shape p k'' = shape p k') → (∀ p, shape p r'' = shape p r) →
              shape p (.cons n' k'' r'') = shape p (.cons n k r) := by
            intro p k'' r'' h1 h2
            simp only [shape, hsb.key, h1, h2, (hspec one).2.1]
          split at h
          · cases h
            exact ⟨fun p => hshape p k' r (fun _ => rfl) (fun _ => rfl), fun c => head c k' r (ctms_refl _ _) (ctms_refl _ _)⟩
          · simp only [Option.bind_eq_some_iff, Option.map_eq_some_iff] at h
            obtain ⟨a, ha, b', hb, h⟩ := h
            obtain ⟨k'', b1⟩ := a
            obtain ⟨r'', b2⟩ := b'
            cases h
            obtain ⟨i1, i2⟩ := ih _ _ _ _ _ (by rw [hsz]; omega) ha
            obtain ⟨j1, j2⟩ := ih _ _ _ _ _ (by omega) hb
            exact ⟨fun p => hshape p k'' r'' i1 j1, fun c => head c k'' r'' (i2 _) (j2 c)⟩

/-- **C31 (groups)**: moving the transforms of groups to their children changes nothing but `transform` attributes, and the
total transform of every element stays, but for that of groups to which no paint server, filter, mask or clip path belongs
(a group itself draws nothing); transforms are only given to elements to which they apply. -/
theorem C31_groups {o : TsOpts} {rec : Bool} {anc : List Node} {n n' : Node} {k k' : Forest}
    (h : prepareTransforms o rec anc n k = some (n', k')) (c : Transform) :
    (∀ p, shape p (.cons n' k' .nil) = shape p (.cons n k .nil)) ∧
    List.Forall₂ SamePlace (ctms c (.cons n k .nil)) (ctms c (.cons n' k' .nil)) := by
  unfold prepareTransforms at h
  split at h
  · cases h; exact ⟨fun _ => rfl, ctms_refl _ _⟩
  · simp only [Option.bind_eq_some_iff] at h
    obtain ⟨⟨g, b⟩, hg, h⟩ := h
    obtain ⟨i1, i2⟩ := prepareGo_spec o rec _ anc _ false g b (le_refl _) hg
    cases g with
    | nil => cases h
    | cons n1 k1 r1 =>
      simp only [Option.some.injEq, Prod.mk.injEq] at h
      obtain ⟨rfl, rfl⟩ := h
      have hr : r1 = .nil := by
        have := i1 none
        simp only [shape] at this
        have hl := congrArg List.length this
        cases r1 with
        | nil => rfl
        | cons a b c' =>
          exfalso
          rw [prepareGo] at hg
          simp only [Bool.false_eq_true, if_false] at hg
          split at hg
          · cases hg
          · split at hg
            · simp at hg
            · simp only [Option.bind_eq_some_iff, Option.map_eq_some_iff] at hg
              obtain ⟨a1, _, b1, hb1, hg⟩ := hg
              rw [prepareGo] at hb1
              cases hb1
              simp at hg
      subst hr
      exact ⟨i1, i2 c⟩

/-- A group with a scale around a rect and a nested group. -/
def nestedGroups : Forest :=
  .cons (elem 2 .g [(.transform, .transform ⟨2, 0, 0, 2, 0, 0⟩)])
    (.cons (elem 3 .rect [(.width, px 1)]) .nil
      (.cons (elem 4 .g [(.transform, .transform ⟨3, 0, 0, 3, 1, 1⟩)]) (.cons (elem 5 .circle [(.r, px 1)]) .nil .nil) .nil)) .nil

example : prepareTransforms ⟨true, false, false⟩ true [] (elem 1 .svg []) nestedGroups =
    some (elem 1 .svg [], .cons (elem 2 .g [])
      (.cons (elem 3 .rect [(.width, px 1), (.transform, .transform ⟨2, 0, 0, 2, 0, 0⟩)]) .nil
        (.cons (elem 4 .g []) (.cons (elem 5 .circle [(.r, px 1), (.transform, .transform ⟨6, 0, 0, 6, 2, 2⟩)]) .nil .nil) .nil)) .nil) := by
  decide +kernel

/-- C31 (groups) in full would say that copies made by `use` elements stay in place, too: the total transform of a copy is
that of the `use` element (with its `x` and `y`) and then the transform of the element itself. -/
def C31_groups_copies_full : Prop :=
  ∀ (o : TsOpts) (n n' : Node) (k k' : Forest), prepareTransforms o true [] n k = some (n', k') →
    ∀ x ∈ (Forest.cons n k .nil).nodes, ∀ y ∈ (Forest.cons n' k' .nil).nodes, y.key = x.key →
      (∃ u ∈ k.nodes, u.isTag .use = true ∧ u.get .xlinkHref = some (.link x.key)) → nodeTransform y = nodeTransform x

/-- **Finding.** The transform of a group is moved to a child that a `use` element copies to another place: the copy, which
was not in the group, is transformed as well. -/
theorem C31_refuted_groups_copies : ¬ C31_groups_copies_full := by
  intro h
  have := h ⟨true, false, false⟩ (elem 1 .svg []) (elem 1 .svg [])
    (.cons (elem 2 .g [(.transform, .transform ⟨2, 0, 0, 2, 0, 0⟩)]) (.cons (elem 3 .rect [(.width, px 1)]) .nil .nil)
      (.cons (elem 4 .use [(.xlinkHref, .link 3)]) .nil .nil))
    (.cons (elem 2 .g []) (.cons (elem 3 .rect [(.width, px 1), (.transform, .transform ⟨2, 0, 0, 2, 0, 0⟩)]) .nil .nil)
      (.cons (elem 4 .use [(.xlinkHref, .link 3)]) .nil .nil)) (by decide +kernel)
    (elem 3 .rect [(.width, px 1)]) (by decide) (elem 3 .rect [(.width, px 1), (.transform, .transform ⟨2, 0, 0, 2, 0, 0⟩)])
    (by decide) rfl ⟨elem 4 .use [(.xlinkHref, .link 3)], by decide, by decide, by decide⟩
  revert this
  decide +kernel

end Verif.ApplyTs
