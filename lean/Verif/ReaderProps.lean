import Verif.Reader
/-
C70: attributes that the cleaner leaves out of the file do not change the picture.
-/
namespace Verif.Reader
open Verif.Dom Verif.Spec Verif.Render Verif.Plot Verif.Simple
open Verif.DefaultAttrs (meansNothing hasOverflow isTemplated SaysNothing DefaultsGone Known rootKey Good good_step removeDefaults isDefault)

variable {ini : AId → Option Value}

def paper (n : Node) : Node := { n with attrs := n.attrs.filter fun y => y.visible }

theorem onPaper_cons (n : Node) (k r : Forest) : onPaper (.cons n k r) = .cons (paper n) (onPaper k) (onPaper r) := rfl

theorem getAttr_paper {as : List Attr} (hu : (as.map Attr.name).Nodup) (x : AName) :
    getAttr (as.filter fun y => y.visible) x = (getAttr as x).filter fun y => y.visible := by
  unfold getAttr
  induction as with
  | nil => rfl
  | cons y t ih =>
    rw [List.map_cons, List.nodup_cons] at hu
    have ih := ih hu.2
    have hn : y.name = x → t.find? (fun z => decide (z.name = x)) = none := by
      intro e
      rw [List.find?_eq_none]
      intro z hz
      simp only [decide_eq_true_eq]
      intro e'
      exact hu.1 (by rw [e, ← e']; exact List.mem_map_of_mem hz)
    rw [List.filter_cons]
    by_cases hy : y.name = x
    · rw [List.find?_cons, hy]
      simp only [decide_true]
      cases hv : y.visible with
      | true => simp [hv, hy, Option.filter]
      | false =>
        simp only [Bool.false_eq_true, if_false, Option.filter, hv]
        rw [ih, hn hy]
        rfl
    · rw [List.find?_cons]
      simp only [hy, decide_false]
      cases hv : y.visible with
      | true => simp only [if_true, List.find?_cons, hy, decide_false]; exact ih
      | false => simp only [Bool.false_eq_true, if_false]; exact ih

theorem get_paper {n : Node} (hu : (n.attrs.map Attr.name).Nodup) (a : AId) : (paper n).get a = written n a := by
  unfold Node.get written paper
  simp only
  rw [getAttr_paper hu]
  cases h : getAttr n.attrs (.id a) with
  | none => rfl
  | some y => cases hv : y.visible <;> simp [Option.filter, hv]

/-- The table of initial values does not contradict the standard where the latter is fixed in `Render.lean`. -/
structure Sane (ini : AId → Option Value) : Prop where
  plain : ∀ a v, ini a = some v → v.target = none
  opacity : ini .opacity = none ∨ ini .opacity = some (.number 1)
  display : ini .display ≠ some (.kw .none)

/-- Documents without `use` elements (C42 does not extend to the copies that they make: `C42_refuted_copies`), elements outside SVG,
`inherit` and `currentColor`; references are only where they belong. -/
structure Simple (n : Node) : Prop where
  names : (n.attrs.map Attr.name).Nodup
  kind : n.kind ≠ .elem .use ∧ ∀ t, n.kind ≠ .other t
  values : ∀ y ∈ n.attrs, y.value ≠ .kw .inherit ∧ y.value ≠ .kw .currentColor
  refs : ∀ y ∈ n.attrs, y.value.target ≠ none → ∃ a, y.name = .id a ∧ (a.isPresentation = true ∨ a = .xlinkHref)

theorem Simple.get {n : Node} (h : Simple n) {a : AId} {v : Value} (hv : n.get a = some v) : v ≠ .kw .inherit ∧ v ≠ .kw .currentColor := by
  unfold Node.get at hv
  obtain ⟨y, hy, rfl⟩ := Option.map_eq_some_iff.1 hv
  exact h.values y (getAttr_mem hy)

theorem inh_eq {n : Node} (h : ∀ a v, n.get a = some v → v ≠ .kw .inherit) (s : Inherited) (a : AId) :
    inh s n a = if inherits a then (n.get a).or (s a) else none := by
  unfold inh Ctx.enter
  simp only
  cases hv : n.get a with
  | none => rfl
  | some v => simp only [if_neg (h a v hv)]; rfl

/-- What is inherited in memory and on paper. -/
structure Both (ini : AId → Option Value) (anc : List Node) (s s' : Inherited) : Prop where
  good : ∀ a, inherits a = true → a.isPresentation = true → Good ini a (s a) (s' a) anc
  same : ∀ a, inherits a = false ∨ a.isPresentation = false → s a = s' a
  current : ∀ a, s a ≠ some (.kw .currentColor) ∧ s' a ≠ some (.kw .currentColor)

theorem Both.took {anc : List Node} {s s' : Inherited} (h : Both ini anc s s') (a : AId) : took ini s a = took ini s' a := by
  unfold Reader.took
  cases h1 : inherits a with
  | false => rw [h.same a (.inl h1)]
  | true =>
    cases h2 : a.isPresentation with
    | false => rw [h.same a (.inr h2)]
    | true => exact (h.good a h1 h2).1

theorem Both.ink {anc : List Node} {s s' : Inherited} (h : Both ini anc s s') : Ink ini true s s' :=
  ⟨fun a _ _ _ _ => h.took a, .inr fun a _ => h.took a, .inr fun a _ => h.took a⟩

theorem written_visible {n : Node} (hv : ∀ y ∈ n.attrs, y.visible = true) (a : AId) : written n a = n.get a := by
  unfold written Node.get
  cases h : getAttr n.attrs (.id a) with
  | none => rfl
  | some y => simp [hv y (getAttr_mem h)]

theorem inherits_overflow {a : AId} (h : inherits a = true) : a ≠ .overflow := by rintro rfl; cases h

theorem inherits_default {a : AId} (h : inherits a = true) (hp : a.isPresentation = false) (e : EId) (v : Value) : meansNothing e a v = false := by
  revert h hp
  cases a <;> first | (intro h; cases h; done) | (intro _ h; cases h; done) | (intros; rfl)

/-- Attributes whose meaning is fixed by `Render.lean`, other than properties. -/
theorem fixed_default {a : AId} (h : isCond a = true ∨ a = .transform) (e : EId) (v : Value) : meansNothing e a v = false ∧ a.isPresentation = false ∧ a ≠ .overflow := by
  rcases h with h | rfl
  · revert h
    cases a <;> first | (intro h; cases h; done) | (intros; exact ⟨rfl, rfl, by decide⟩)
  · exact ⟨rfl, rfl, by decide⟩

theorem written_or {root : Option Nat} {n m : Node} (hs : Simple n) (hv : ∀ y ∈ n.attrs, y.visible = true) (hm : (m.attrs.map Attr.name).Nodup)
    (h : DefaultsGone ini root n m) (a : AId) :
    (paper m).get a = n.get a ∨ (paper m).get a = none ∧ ∃ v, n.get a = some v ∧ SaysNothing ini root n a v := by
  rw [get_paper hm, ← written_visible hv]
  exact h.written a

theorem silence {root : Option Nat} {n : Node} {a : AId} {v : Value} (h : SaysNothing ini root n a v) (ho : a ≠ .overflow) :
    ∃ e, n.kind = .elem e ∧ (if a.isPresentation then ini a = some v else meansNothing e a v = true ∧ (isTemplated e = true → n.get .xlinkHref = none)) := by
  unfold SaysNothing at h
  split at h
  next e he =>
    rw [if_neg ho] at h
    exact ⟨e, he, h⟩
  next => exact h.elim

theorem Both.enter {root : Option Nat} {anc : List Node} {s s' : Inherited} (h : Both ini anc s s') {n m : Node} (hn : Simple n)
    (hv : ∀ y ∈ n.attrs, y.visible = true) (hm : (m.attrs.map Attr.name).Nodup) (hg : DefaultsGone ini root n m)
    (hb : DefaultAttrs.body ini root anc n = some m) : Both ini (m :: anc) (inh s n) (inh s' (paper m)) := by
  have hi : ∀ a v, n.get a = some v → v ≠ .kw .inherit := fun a v e => (hn.get e).1
  have hw := written_or hn hv hm hg
  have hi' : ∀ a v, (paper m).get a = some v → v ≠ .kw .inherit := fun a v e => by
    rcases hw a with h | ⟨h, _⟩
    · exact hi a v (h ▸ e)
    · rw [h] at e; cases e
  refine ⟨fun a h1 h2 => ?_, fun a h1 => ?_, fun a => ?_⟩
  · rw [inh_eq hi, inh_eq hi', h1, if_pos rfl, if_pos rfl, get_paper hm, ← written_visible hv]
    exact good_step h2 (inherits_overflow h1) hn.names (fun y hy _ => hv y hy) (h.good a h1 h2) hb
  · rw [inh_eq hi, inh_eq hi']
    rcases h1 with h1 | h1
    · rw [h1]; rfl
    · cases h2 : inherits a with
      | false => rfl
      | true =>
        simp only [if_true]
        rcases hw a with e | ⟨_, v, _, hs⟩
        · rw [e, h.same a (.inr h1)]
        · obtain ⟨e, _, he⟩ := silence hs (inherits_overflow h2)
          rw [h1] at he
          simp only [Bool.false_eq_true, if_false] at he
          rw [inherits_default h2 h1] at he
          cases he.1
  · rw [inh_eq hi, inh_eq hi']
    constructor
    · split
      · cases hv : n.get a with
        | none => exact (h.current a).1
        | some v => intro e; exact (hn.get hv).2 (Option.some.inj e)
      · simp
    · split
      · cases hv : (paper m).get a with
        | none => exact (h.current a).2
        | some v =>
          intro e
          rcases hw a with h | ⟨h, _⟩
          · exact (hn.get (h ▸ hv)).2 (Option.some.inj e)
          · rw [h] at hv; cases hv
      · simp

/-- A value of an element that has no viewport does not say that what is outside is shown or not. -/
def Enclosed (n : Node) : Prop := ∀ e, n.kind = .elem e → hasOverflow e = true → n.get .overflow = none

theorem trimmed_default {root : Option Nat} (hs : Sane ini) {n m : Node} (hn : Simple n) (ho : Enclosed n)
    (hv : ∀ y ∈ n.attrs, y.visible = true) (hm : (m.attrs.map Attr.name).Nodup) (hg : DefaultsGone ini root n m) : Trimmed ini n (paper m) := by
  have hw := written_or hn hv hm hg
  have hfix : ∀ a, isCond a = true ∨ a = .transform → (paper m).get a = n.get a := by
    intro a ha
    rcases hw a with e | ⟨_, v, _, hs⟩
    · exact e
    · obtain ⟨e, _, he⟩ := silence hs (fixed_default ha .svg v).2.2
      rw [(fixed_default ha e v).2.1] at he
      simp only [Bool.false_eq_true, if_false] at he
      rw [(fixed_default ha e v).1] at he
      cases he.1
  have hpres : ∀ a, a.isPresentation = true → a ≠ .overflow → (paper m).get a = n.get a ∨ (paper m).get a = none ∧ n.get a = ini a := by
    intro a ha hne
    rcases hw a with e | ⟨h, v, hv, hs⟩
    · exact .inl e
    · obtain ⟨e, _, he⟩ := silence hs hne
      rw [if_pos ha] at he
      exact .inr ⟨h, hv.trans he.symm⟩
  refine ⟨hg.same.1, hg.same.2.1, fun a ha => hfix a (.inl ha), ?_, ?_, ?_, fun a ha => ?_, fun e he x hx => ?_⟩
  · unfold nodeTransform
    rw [hfix _ (.inr rfl)]
  · rcases hpres .opacity rfl (by decide) with h | ⟨h1, h2⟩
    · unfold opacityOf; rw [h]
    · unfold opacityOf
      rw [h1, h2]
      rcases hs.opacity with h | h <;> rw [h]
  · rcases hpres .display rfl (by decide) with h | ⟨h1, h2⟩
    · unfold hiddenBy; rw [h]
    · unfold hiddenBy
      rw [h1, h2, decide_eq_false hs.display]
      rfl
  · have hp : a.isPresentation = true ∧ a ≠ .overflow := by
      simp only [List.mem_cons, List.not_mem_nil, or_false] at ha
      rcases ha with rfl | rfl | rfl <;> exact ⟨rfl, by decide⟩
    rcases hpres a hp.1 hp.2 with h | ⟨h1, h2⟩
    · exact .inl h
    · right
      intro k
      refine ⟨fun e => ?_, by rw [h1]; simp⟩
      have := hs.plain a _ (h2 ▸ e)
      cases this
  · cases x with
    | name s =>
      left
      unfold val paper
      simp only
      rw [getAttr_paper hm, hg.named]
      cases h : getAttr n.attrs (.name s) with
      | none => rfl
      | some y => simp [Option.filter, hv y (getAttr_mem h)]
    | id a =>
      rw [val_get, val_get]
      rcases hw a with h | ⟨h, v, hv', hsay⟩
      · exact .inl h
      · right
        refine ⟨?_, .inl h⟩
        by_cases hov : a = .overflow
        · subst hov
          cases hb : hasOverflow e with
          | false => exact .inr (.inr (.inr (.inl ⟨rfl, hb⟩)))
          | true => rw [ho e he hb] at hv'; cases hv'
        · obtain ⟨e', he', h4⟩ := silence hsay hov
          rw [he] at he'
          cases he'
          refine .inr (.inr (.inr (.inr (.inr (.inr ⟨a, v, rfl, hv', ?_, ?_⟩)))))
          · cases hp : a.isPresentation with
            | true => rw [hp, if_pos rfl] at h4; exact hs.plain a v h4
            | false =>
              rw [hp] at h4
              simp only [Bool.false_eq_true, if_false] at h4
              unfold Node.get at hv'
              obtain ⟨y, hy, rfl⟩ := Option.map_eq_some_iff.1 hv'
              by_contra hne
              obtain ⟨b, hb, hc⟩ := hn.refs y (getAttr_mem hy) hne
              rw [getAttr_name hy] at hb
              cases hb
              rcases hc with hc | rfl
              · rw [hp] at hc; cases hc
              · cases h4.1
          · cases hp : a.isPresentation with
            | true => rw [hp, if_pos rfl] at h4; exact ⟨hov, h4⟩
            | false => rw [hp] at h4; exact h4

theorem body_names {root : Option Nat} {anc : List Node} {n m : Node} (h : DefaultAttrs.body ini root anc n = some m) :
    m.attrs.map Attr.name = n.attrs.map Attr.name := by
  unfold DefaultAttrs.body at h
  split at h
  · simp only [Option.map_eq_some_iff] at h
    obtain ⟨l, _, rfl⟩ := h
    unfold hideAll
    clear * -
    induction l generalizing n with
    | nil => rfl
    | cons a t ih =>
      rw [List.foldl_cons, ih]
      unfold Node.hide hideAttr
      simp only [List.map_map]
      congr 1
      funext y
      simp only [Function.comp]
      split <;> rfl
  · cases h; rfl

theorem leaves_default {root : Option Nat} (hs : Sane ini) {f g : Forest} (hf : ∀ n ∈ f.nodes, Simple n ∧ Enclosed n ∧ Known ini root n)
    (hv : ∀ n ∈ f.nodes, ∀ y ∈ n.attrs, y.visible = true) {anc : List Node} {s s' : Inherited} (hb : Both ini anc s s')
    (h : f.mapCtx (DefaultAttrs.body ini root) anc = some g) : Leaves ini s s' f (onPaper g) := by
  induction f generalizing anc s s' g with
  | nil => simp [Forest.mapCtx] at h; subst h; exact .nil s s'
  | cons n k r ihk ihr =>
    simp only [Forest.mapCtx, Option.bind_eq_some_iff, Option.map_eq_some_iff] at h
    obtain ⟨m, hm, k', hk', r', hr, rfl⟩ := h
    obtain ⟨h1, h2, h3⟩ := hf n (by simp)
    have hv1 := hv n (by simp)
    have hg := DefaultAttrs.body_sound h1.names h3 hm
    have hnm : (m.attrs.map Attr.name).Nodup := by
      have := body_names hm
      rw [this]; exact h1.names
    have hen := hb.enter h1 hv1 hnm hg hm
    rw [onPaper_cons]
    refine .cons (trimmed_default hs h1 h2 hv1 hnm hg) ?_ (ihk (fun x hx => hf x (by simp [hx])) (fun x hx => hv x (by simp [hx])) hen hk')
      (ihr (fun x hx => hf x (by simp [hx])) (fun x hx => hv x (by simp [hx])) hb hr)
    have hc : ∀ x, val n x ≠ some (.kw .currentColor) := by
      intro x e
      obtain ⟨y, hy, e⟩ := Option.map_eq_some_iff.1 e
      exact (h1.values y (getAttr_mem hy)).2 e
    unfold Drawn
    split
    next => exact ⟨hb.ink, .inl (hb.took _)⟩
    next => trivial
    next t ht => exact h1.kind.2 t ht
    next e he =>
      refine ⟨fun e' => h1.kind.1 (by rw [he, e']), ⟨true, hen.ink, .inl rfl⟩, .inl (hen.took _)⟩

/-- **C70, defaults.** The picture of the file in which attributes with default values are left out is the picture of the document with them,
for all renderers that know the defaults. -/
theorem C70_defaults_partial (hs : Sane ini) {f g : Forest} (hf : ∀ n ∈ f.nodes, Simple n ∧ Enclosed n ∧ Known ini (rootKey f) n)
    (hv : ∀ n ∈ f.nodes, ∀ y ∈ n.attrs, y.visible = true) (h : removeDefaults ini f = some g) : SameRead ini f (onPaper g) := by
  unfold removeDefaults at h
  rw [DefaultAttrs.rootKey_eq] at h
  refine (leaves_default hs hf hv ⟨fun a _ _ => ⟨rfl, rfl, ?_⟩, fun _ _ => rfl, fun a => ⟨?_, ?_⟩⟩ h).picture
  · intro m hm; cases hm
  · exact fun e => (by cases e)
  · exact fun e => (by cases e)

end Verif.Reader
