import Verif.ReaderProps
/-
C70 for `remove_needless_attributes`.
-/
namespace Verif.Reader
open Verif.Dom Verif.Spec Verif.Render Verif.Plot
open Verif.Needless

variable {ini : AId → Option Value}

theorem isPaint_iff (a : AId) : isPaint a = true ↔ a ∈ fillProps ∨ a ∈ strokeProps := by cases a <;> decide
theorem isFill_iff (a : AId) : isFill a = true ↔ a ∈ fillProps := by cases a <;> decide
theorem isStroke_iff (a : AId) : isStroke a = true ↔ a ∈ strokeProps := by cases a <;> decide

/-! ### What is left is what was there, or `none` -/

def Old (n m : Node) : Prop := ∀ y ∈ m.attrs, y ∈ n.attrs ∨ y.value = .kw .none

theorem Old.refl (n : Node) : Old n n := fun _ h => .inl h
theorem Old.trans {a b c : Node} (h1 : Old a b) (h2 : Old b c) : Old a c := fun y hy => (h2 y hy).elim (h1 y) .inr
theorem Old.filter (n : Node) (p : Attr → Bool) : Old n { n with attrs := n.attrs.filter p } := fun _ h => .inl (List.mem_of_mem_filter h)
theorem Old.rm (n : Node) (a : AId) : Old n (n.rm a) := fun _ h => .inl (List.mem_of_mem_filter h)
theorem Old.none (n : Node) (a : AId) : Old n (n.set a (.kw .none)) := fun y h => by
  rcases Node.mem_putAttr h with h | h
  · exact .inr (by rw [h])
  · exact .inl h
theorem Old.rmAll (n : Node) (l : List AId) : Old n (rmAll n l) := by
  unfold Needless.rmAll
  induction l generalizing n with
  | nil => exact .refl n
  | cons a t ih => exact (Old.rm n a).trans (ih _)

theorem old_body (used : Nat → Bool) (anc : List Node) (leaf : Bool) (n : Node) : Old n (Needless.body used anc leaf n) := by
  have h1 : Old n (clipStep used anc n) := by
    unfold clipStep
    split
    · split
      · exact .filter _ _
      · exact .refl n
    · exact .refl n
  unfold Needless.body
  split
  · rename_i e _
    refine h1.trans ?_
    generalize clipStep used anc n = n
    unfold element
    have a1 : Old n (processShape e n) := by
      unfold processShape
      split
      · exact .filter _ _
      · exact .refl n
    have a2 := a1.trans (Old.rm _ .color)
    generalize (processShape e n).rm .color = n2 at a2
    have a3 : Old n (processBackground e n2) := a2.trans (by unfold processBackground; split; exacts [.refl _, .rm _ _])
    generalize processBackground e n2 = n3 at a3
    have a4 : Old n (processFill leaf n3) := a3.trans (by
      unfold processFill
      simp only
      split
      · have b1 : Old n3 (if n3.get .fill = some (.kw .none) then (n3.rm .fillRule).rm .fillOpacity else n3) := by
          split
          · exact (Old.rm _ _).trans (.rm _ _)
          · exact .refl _
        refine b1.trans ?_
        generalize (if n3.get .fill = some (.kw .none) then (n3.rm .fillRule).rm .fillOpacity else n3) = n4
        split
        · exact ((Old.none _ _).trans (.rm _ _)).trans (.rm _ _)
        · exact .refl _
      · exact .refl _)
    generalize processFill leaf n3 = n4 at a4
    have a5 : Old n (processStroke leaf anc n4) := a4.trans (by
      have b1 : Old n4 (Needless.rmAll (n4.rm .stroke) strokeAttributes) := (Old.rm _ _).trans (.rmAll _ _)
      have b2 : Old n4 (Needless.rmAll n4 strokeAttributes) := .rmAll _ _
      unfold processStroke
      generalize Needless.rmAll (n4.rm .stroke) strokeAttributes = m1 at *
      generalize Needless.rmAll n4 strokeAttributes = m2 at *
      simp only
      repeat' split
      all_goals first | exact .refl _ | exact b1.trans (.none _ _) | exact b1 | exact b2 | exact b2.trans (.rm _ _))
    refine a5.trans ?_
    unfold processOverflow
    split <;> first | exact .refl _ | exact .rm _ _
  · exact h1

/-! ### Contexts -/

/-- The table of initial values says about painting what the standard says. -/
structure Standard (ini : AId → Option Value) : Prop where
  fill : ini .fill = some (.color 0 0 0)
  opacity : ini .fillOpacity = some (.number 1)
  stroke : ini .stroke = some (.kw .none)

/-- No clip paths and no markers. -/
structure Bare (n : Node) : Prop where
  clip : n.kind ≠ .elem .clipPath
  marker : ∀ a ∈ markerAttrs, ∀ v, n.get a = some v → v.target = none

structure Same (anc anc' : List Node) (s s' : Inherited) : Prop where
  same : ∀ a, a ≠ .color → s a = s' a
  near : ∀ a, isPaint a = true → s a = near a anc ∧ s' a = near a anc'
  current : ∀ a, s a ≠ some (.kw .currentColor) ∧ s' a ≠ some (.kw .currentColor)
  marker : NoMarkers s
  ok : AncOk anc anc'
  clip : ¬ ∃ p ∈ anc, p.kind = .elem .clipPath

theorem Same.ink {anc anc' : List Node} {s s' : Inherited} (h : Same anc anc' s s') : Ink ini true s s' := by
  have : ∀ a, a ≠ .color → took ini s a = took ini s' a := fun a ha => by unfold took; rw [h.same a ha]
  exact ⟨fun a ha _ _ _ => this a ha, .inr fun a ha => this a (by rintro rfl; revert ha; decide), .inr fun a ha => this a (by rintro rfl; revert ha; decide)⟩

theorem paint_inherits {a : AId} (h : isPaint a = true) : inherits a = true ∧ a ≠ .color := by
  revert h; cases a <;> first | (intro h; cases h; done) | (intro _; exact ⟨rfl, by decide⟩)

theorem isOwn_paint {a : AId} (h : isPaint a = true) : isOwn (.id a) = false := by
  simp [isOwn, (paint_inherits h).1]

theorem shapeHas_of {a : AId} (h : inherits a = true ∨ isFixed a = true) (e : EId) : shapeHas e a = true := by
  have : ∀ a, inherits a = true ∨ isFixed a = true → a.isPresentation = true ∨ a ∈ [AId.transform, .requiredFeatures, .requiredExtensions, .systemLanguage, .xmlSpace, .xmlLang] := by
    intro a; cases a <;> decide
  rcases this a h with h | h
  · revert h
    cases a <;> first | (intro h; cases h; done) | (intro _; cases e <;> rfl)
  · simp only [List.mem_cons, List.not_mem_nil, or_false] at h
    rcases h with rfl | rfl | rfl | rfl | rfl | rfl <;> cases e <;> rfl

/-- Outside clip paths, an attribute that has no effect is neither `color` nor inherited nor one with a fixed meaning. -/
theorem noEffect_not {used : Nat → Bool} {x : Place} {a : AId} (hc : ¬ ∃ p ∈ x.anc, p.kind = .elem .clipPath) (ha : a ≠ .color)
    (h : inherits a = true ∨ isFixed a = true) : ¬ NoEffect used x (.id a) := by
  rintro (⟨e, _, _, h'⟩ | ⟨e, _, _, h'⟩ | ⟨e, _, _, h'⟩ | ⟨e, _, h'⟩ | ⟨⟨p, hp, hk⟩, _⟩)
  · exact absurd ((shapeHas_of h e).symm.trans (h' a rfl)) (by simp)
  · cases h'; revert h; decide
  · cases h'; revert h; decide
  · cases h'; exact ha rfl
  · exact hc ⟨p, List.mem_of_mem_head? hp, hk⟩

theorem get_gone {used : Nat → Bool} {x y : Place} (h : NeedlessGone used x y) (hc : ¬ ∃ p ∈ x.anc, p.kind = .elem .clipPath) {a : AId} (ha : a ≠ .color)
    (hi : inherits a = true ∨ isFixed a = true) (hl : x.leaf = false ∨ isPaint a = false) : y.node.get a = x.node.get a := by
  rcases h.attrs (.id a) with h | ⟨h1, b, hb, h2⟩ | h
  · exact absurd h (noEffect_not hc ha hi)
  · cases hb
    rcases hl with hl | hl
    · rw [hl] at h1; cases h1
    · rw [hl] at h2; cases h2
  · exact get_of_attr h

theorem old_get {n m : Node} (h : Old n m) {v : Value} (hv : v ≠ .kw .none) {a : AId} (hn : ∀ y ∈ n.attrs, y.value ≠ v) : m.get a ≠ some v := by
  intro e
  unfold Node.get at e
  obtain ⟨y, hy, rfl⟩ := Option.map_eq_some_iff.1 e
  rcases h y (getAttr_mem hy) with h | h
  · exact hn y h rfl
  · exact hv h

theorem old_val {n m : Node} (h : Old n m) {v : Value} (hv : v ≠ .kw .none) {x : AName} (hn : ∀ y ∈ n.attrs, y.value ≠ v) : val m x ≠ some v := by
  intro e
  obtain ⟨y, hy, rfl⟩ := Option.map_eq_some_iff.1 e
  rcases h y (getAttr_mem hy) with h | h
  · exact hn y h rfl
  · exact hv h

theorem trimmed_needless {used : Nat → Bool} {anc anc' : List Node} {leaf : Bool} {n m : Node} (hc : ¬ ∃ p ∈ anc, p.kind = .elem .clipPath)
    (h : NeedlessGone used ⟨n, anc, leaf⟩ ⟨m, anc', leaf⟩) : Trimmed ini n m := by
  have hf : ∀ a, isFixed a = true → m.get a = n.get a := by
    intro a ha
    have : a ≠ .color ∧ isPaint a = false := by revert ha; cases a <;> decide
    exact get_gone h hc this.1 (.inr ha) (.inr this.2)
  refine ⟨h.same.1, h.same.2.1, fun a ha => hf a (by revert ha; cases a <;> decide), ?_, ?_, ?_, fun a ha => .inl (hf a ?_), fun e he x hx => ?_⟩
  · unfold nodeTransform; rw [hf _ rfl]
  · unfold opacityOf; rw [hf _ rfl]
  · unfold hiddenBy; rw [hf _ rfl]
  · simp only [List.mem_cons, List.not_mem_nil, or_false] at ha
    rcases ha with rfl | rfl | rfl <;> rfl
  · rcases h.attrs x with h' | ⟨_, a, rfl, h2⟩ | h'
    · rcases h' with ⟨e', he', h1, h2⟩ | ⟨e', he', h1, h2⟩ | ⟨e', he', h1, h2⟩ | ⟨e', he', h1⟩ | ⟨⟨p, hp, hk⟩, _⟩
      · have : e' = e := by have := he'.symm.trans he; injection this
        subst this
        exact .inr ⟨.inr (.inl ⟨h1, h2⟩), .inr (.inl ⟨h1, h2⟩)⟩
      · have : e' = e := by have := he'.symm.trans he; injection this
        subst this
        exact .inr ⟨.inr (.inr (.inl ⟨h2, h1⟩)), .inr (.inr (.inl ⟨h2, h1⟩))⟩
      · have : e' = e := by have := he'.symm.trans he; injection this
        subst this
        exact .inr ⟨.inr (.inr (.inr (.inl ⟨h2, h1⟩))), .inr (.inr (.inr (.inl ⟨h2, h1⟩)))⟩
      · subst h1; cases hx
      · exact absurd ⟨p, List.mem_of_mem_head? hp, hk⟩ hc
    · rw [isOwn_paint h2] at hx; cases hx
    · left
      unfold val
      rw [h']

theorem took_near {s : Inherited} {c : List Node} {a : AId} (h : s a = near a c) : took ini s a = (near a c).or (ini a) := by unfold took; rw [h]

theorem ink_look (hs : Standard ini) {s s' : Inherited} {c c' : List Node} (hr : ∀ a, a ≠ .color → isPaint a = false → s a = s' a)
    (hn : ∀ a, isPaint a = true → s a = near a c ∧ s' a = near a c') (hm : NoMarkers s) (hf : fillLook c' = fillLook c)
    (hl : strokeLook c' = strokeLook c) : Ink ini true s s' := by
  have t1 : ∀ a, isPaint a = true → took ini s a = (near a c).or (ini a) := fun a ha => took_near (hn a ha).1
  have t2 : ∀ a, isPaint a = true → took ini s' a = (near a c').or (ini a) := fun a ha => took_near (hn a ha).2
  have or_getD : ∀ (o : Option Value) (v : Value), o.or (some v) = some (o.getD v) := by intro o v; cases o <;> rfl
  refine ⟨fun a h1 h2 h3 _ => ?_, ?_, ?_⟩
  · unfold took
    rw [hr a h1]
    cases hp : isPaint a with
    | false => rfl
    | true => rcases (isPaint_iff a).1 hp with h | h <;> contradiction
  · have un : ∀ {s : Inherited} {c : List Node}, (∀ a, isPaint a = true → took ini s a = (near a c).or (ini a)) → fillLook c = none → Unfilled' ini s := by
      intro s c ht h
      unfold fillLook at h
      simp only at h
      split at h
      next h' =>
        rcases h' with h' | h'
        · left; rw [ht _ rfl, hs.fill, or_getD, h']
        · right; rw [ht _ rfl, hs.opacity, or_getD, h']
      next => cases h
    cases h : fillLook c with
    | none => rw [h] at hf; exact .inl ⟨un t1 h, un t2 hf⟩
    | some v =>
      right
      have h' := hf.trans h
      unfold fillLook at h h'
      simp only at h h'
      split at h
      · cases h
      · split at h'
        · cases h'
        · have e := Option.some.inj (h.trans h'.symm)
          simp only [Prod.mk.injEq] at e
          intro a ha
          rw [t1 a ((isPaint_iff a).2 (.inl ha)), t2 a ((isPaint_iff a).2 (.inl ha))]
          simp only [fillProps, List.mem_cons, List.not_mem_nil, or_false] at ha
          rcases ha with rfl | rfl | rfl
          · rw [hs.fill, or_getD, or_getD, e.1]
          · rw [hs.opacity, or_getD, or_getD, e.2.1]
          · rw [e.2.2]
  · have un : ∀ {s : Inherited} {c : List Node}, (∀ a, isPaint a = true → took ini s a = (near a c).or (ini a)) → strokeLook c = none → Unlined' ini s := by
      intro s c ht h
      unfold strokeLook at h
      simp only at h
      split at h
      next h' =>
        rcases h' with h' | h' | h'
        · left; rw [ht _ rfl, hs.stroke, or_getD, h']
        · right; left; rw [ht _ rfl, h']; rfl
        · right; right
          unfold zeroWidth at h'
          split at h'
          next l hl' =>
            simp only [decide_eq_true_eq] at h'
            refine ⟨l.unit, ?_⟩
            rw [ht _ rfl, hl']
            cases l
            simp only at h'
            rw [h']
            rfl
          next => cases h'
      next => cases h
    cases h : strokeLook c with
    | none => rw [h] at hl; exact .inl ⟨un t1 h, un t2 hl, hm⟩
    | some v =>
      right
      have h' := hl.trans h
      unfold strokeLook at h h'
      simp only at h h'
      split at h
      · cases h
      · split at h'
        · cases h'
        · have e := Option.some.inj (h.trans h'.symm)
          simp only [Prod.mk.injEq, List.cons.injEq, and_true] at e
          obtain ⟨e1, e2, e3, e4, e5, e6, e7, e8⟩ := e
          intro a ha
          rw [t1 a ((isPaint_iff a).2 (.inr ha)), t2 a ((isPaint_iff a).2 (.inr ha))]
          simp only [strokeProps, List.mem_cons, List.not_mem_nil, or_false] at ha
          rcases ha with rfl | rfl | rfl | rfl | rfl | rfl | rfl | rfl
          · rw [hs.stroke, or_getD, or_getD, e1]
          · rw [e7]
          · rw [e8]
          · rw [e4]
          · rw [e5]
          · rw [e6]
          · rw [e3]
          · rw [e2]

theorem inherit_of {n : Node} (h : Simple n) : ∀ a v, n.get a = some v → v ≠ .kw .inherit := fun _ _ e => (h.get e).1

theorem Same.near_inh {anc anc' : List Node} {s s' : Inherited} (h : Same anc anc' s s') {n m : Node} (hn : Simple n) (ho : Old n m) {a : AId}
    (ha : isPaint a = true) : inh s n a = Needless.near a (n :: anc) ∧ inh s' m a = Needless.near a (m :: anc') := by
  have hm : ∀ a v, m.get a = some v → v ≠ .kw .inherit := fun a v e e' => old_get ho (v := .kw .inherit) (by decide) (fun y hy => (hn.values y hy).1) (e' ▸ e)
  rw [inh_eq (inherit_of hn), inh_eq hm, (paint_inherits ha).1, near_cons, near_cons, (h.near a ha).1, (h.near a ha).2]
  exact ⟨rfl, rfl⟩

theorem Same.rest_inh {used : Nat → Bool} {anc anc' : List Node} {s s' : Inherited} (h : Same anc anc' s s') {leaf : Bool} {n m : Node} (hn : Simple n)
    (ho : Old n m) (hg : NeedlessGone used ⟨n, anc, leaf⟩ ⟨m, anc', leaf⟩) {a : AId} (ha : a ≠ .color) (hl : leaf = false ∨ isPaint a = false) :
    inh s n a = inh s' m a := by
  have hm : ∀ a v, m.get a = some v → v ≠ .kw .inherit := fun a v e e' => old_get ho (v := .kw .inherit) (by decide) (fun y hy => (hn.values y hy).1) (e' ▸ e)
  rw [inh_eq (inherit_of hn), inh_eq hm]
  cases hi : inherits a with
  | false => rfl
  | true =>
    simp only [if_true]
    rw [h.same a ha, get_gone hg h.clip ha (.inl hi) hl]

theorem inh_current {n : Node} (hi : ∀ a, n.get a ≠ some (.kw .currentColor)) {s : Inherited} (hs : ∀ a, s a ≠ some (.kw .currentColor)) (a : AId) :
    inh s n a ≠ some (.kw .currentColor) := by
  unfold inh Ctx.enter
  simp only
  split
  · split
    · exact hs a
    · rename_i v hv
      split
      · exact hs a
      · rw [← hv]; exact hi a
  · simp

theorem inh_markers {n : Node} (hi : ∀ a ∈ markerAttrs, ∀ v, n.get a = some v → v.target = none) {s : Inherited} (hs : NoMarkers s) : NoMarkers (inh s n) := by
  intro a ha v hv
  unfold inh Ctx.enter at hv
  simp only at hv
  split at hv
  · split at hv
    · exact hs a ha v hv
    · rename_i w hw
      split at hv
      · exact hs a ha v hv
      · cases hv; exact hi a ha _ hw
  · cases hv

theorem leaves_needless (hs : Standard ini) (used : Nat → Bool) {f : Forest} (hf : ∀ n ∈ f.nodes, Simple n ∧ Bare n) {anc anc' : List Node} {s s' : Inherited}
    (h : Same anc anc' s s') : Leaves ini s s' f (go used anc' f) := by
  induction f generalizing anc anc' s s' with
  | nil => exact .nil s s'
  | cons n k r ihk ihr =>
    obtain ⟨h1, h2⟩ := hf n (by simp)
    have hg := body_sound (used := used) (leaf := k.isEmpty) (n := n) h.ok
    have ho := old_body used anc' k.isEmpty n
    generalize hm : Needless.body used anc' k.isEmpty n = m at hg ho
    have hcur : ∀ y ∈ n.attrs, y.value ≠ .kw .currentColor := fun y hy => (h1.values y hy).2
    have c1 : ∀ a, inh s n a ≠ some (.kw .currentColor) := inh_current (fun a => old_get (.refl n) (by decide) hcur) fun a => (h.current a).1
    have c2 : ∀ a, inh s' m a ≠ some (.kw .currentColor) := inh_current (fun a => old_get ho (by decide) hcur) fun a => (h.current a).2
    have v1 : ∀ x, val n x ≠ some (.kw .currentColor) := fun x => old_val (.refl n) (by decide) hcur
    have v2 : ∀ x, val m x ≠ some (.kw .currentColor) := fun x => old_val ho (by decide) hcur
    have hmark := inh_markers h2.marker h.marker
    have hink : Ink ini true (inh s n) (inh s' m) := by
      have hcl : ¬ InClip ⟨n, anc, k.isEmpty⟩ := h.clip
      exact ink_look hs (fun a ha hp => h.rest_inh h1 ho hg ha (.inr hp)) (fun a ha => h.near_inh h1 ho ha) hmark
        (hg.fill.resolve_left hcl) (hg.stroke.resolve_left hcl)
    simp only [go, hm]
    refine .cons (trimmed_needless h.clip hg) ?_ ?_ (ihr (fun x hx => hf x (by simp [hx])) h)
    · unfold Drawn
      split
      next => exact ⟨h.ink, .inr ⟨⟨v1, fun a => (h.current a).1⟩, v2, fun a => (h.current a).2⟩⟩
      next => trivial
      next t ht => exact h1.kind.2 t ht
      next e he => exact ⟨fun e' => h1.kind.1 (by rw [he, e']), ⟨true, hink, .inl rfl⟩, .inr ⟨⟨v1, c1⟩, v2, c2⟩⟩
    · cases k with
      | nil => exact .nil _ _
      | cons n2 k2 r2 =>
        refine ihk (fun x hx => hf x (by simp at hx ⊢; tauto)) ⟨fun a ha => h.rest_inh h1 ho hg ha (.inl rfl), fun a ha => h.near_inh h1 ho ha,
          fun a => ⟨c1 a, c2 a⟩, hmark, ?_, ?_⟩
        · rw [← hm]; exact ancOk_cons h.ok
        · rintro ⟨p, hp, hk⟩
          rcases List.mem_cons.1 hp with rfl | hp
          · exact h2.clip hk
          · exact h.clip ⟨p, hp, hk⟩

/-- **C70, needless attributes.** Removing the attributes that `remove_needless_attributes` removes does not change the picture of a document, for all
renderers that paint what is to be painted and do not look at attributes that an element does not have. -/
theorem C70_needless_partial (hs : Standard ini) {f : Forest} (hf : ∀ n ∈ f.nodes, Simple n ∧ Bare n) : SameRead ini f (removeNeedless f) := by
  refine (leaves_needless hs f.isUsed hf ⟨fun _ _ => rfl, fun _ _ => ⟨rfl, rfl⟩, fun a => ⟨?_, ?_⟩, fun _ _ _ h => (by cases h), ancOk_nil, ?_⟩).picture
  · exact fun e => (by cases e)
  · exact fun e => (by cases e)
  · rintro ⟨p, hp, _⟩; cases hp

end Verif.Reader
