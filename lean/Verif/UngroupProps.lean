import Verif.Ungroup
/-
Property C36: `ungroup_groups` does not change the picture.
-/
namespace Verif.Ungroup
open Verif.Dom Verif.Spec Verif.Render
open Verif.Stops (modValue getAttr_modValue getAttr_set getAttr_nodeRm)
open Verif.Paths (Transform)

/-! ### Specification: which documents -/

/-- There is something in the groups of the forest that can be drawn. -/
def solid : Forest → Bool
  | .nil => false
  | .cons n k r => (if n.kind = .elem .g then solid k else isElem n.kind && !neverRendered n.kind) || solid r

/-- There is something in the groups of the forest. -/
def lasting : Forest → Bool
  | .nil => false
  | .cons n k r => (if n.kind = .elem .g then lasting k else true) || lasting r

/-- Conditional processing attributes. -/
def conds : List AId := [.requiredFeatures, .requiredExtensions, .systemLanguage]

/-- The attributes that a group has any use for: inherited ones, those that concern the group as a whole, and `display="none"`.
Attributes outside of SVG do not count. -/
def groupAttr (x : Attr) : Bool :=
  match x.name with
  | .name _ => true
  | .id .display => decide (x.value = .kw .none)
  | .id a => inherits a || isFixed a

/-- What is said of the groups around a node, up to the nearest ancestor that is not a group: whether one of them has a
transform, the conditional attributes they have, and whether they are in a `switch` element. -/
structure Around where
  transform : Bool
  conds : List AId
  switch : Bool

def Around.none : Around := ⟨false, [], false⟩

/-- For the children of `n`, which has a parent of kind `p`. -/
def Around.enter (w : Around) (p : Kind) (n : Node) : Around :=
  if n.kind = .elem .g then
    ⟨w.transform || n.has .transform, w.conds ++ Ungroup.conds.filter n.has, w.switch || decide (p = .elem .switch)⟩
  else .none

/-- The conditions on a group. -/
structure GroupOk (u : Nat → Bool) (p : Kind) (n : Node) (k : Forest) : Prop where
  place : groupPlace p = true
  names : (n.attrs.map (·.name)).Nodup
  attrs : ∀ x ∈ n.attrs, groupAttr x = true
  /-- In a `switch` element, a group has something to draw. -/
  solid : p = .elem .switch → Ungroup.solid k = true
  /-- A group that is referred to is not empty. -/
  lasting : u n.key = true → Ungroup.lasting k = true

/-- The conditions on a node. -/
structure NodeOk (u : Nat → Bool) (p : Kind) (w : Around) (n : Node) (k : Forest) : Prop where
  group : n.kind = .elem .g → GroupOk u p n k
  /-- What is in a group with a transform is not referred to, and a transform applies to it if it is drawn. -/
  transform : w.transform = true → u n.key = false ∧ (takesTransform n.kind || neverRendered n.kind || !isElem n.kind) = true
  /-- No conditional attribute is given again in a group with such an attribute, and none at all in a group in a `switch`. -/
  cond : ∀ a ∈ Ungroup.conds, a ∈ w.conds ∨ w.switch = true → n.has a = false
  /-- In a group, there is no character data, `inherit` has been resolved, and transforms are transforms. -/
  inGroup : p = .elem .g → isChars n.kind = false ∧ (∀ x ∈ n.attrs, x.value ≠ .kw .inherit) ∧
    ∀ v, n.get .transform = some v → ∃ t, v = .transform t

/-- The conditions on all nodes of a forest; `u` are the elements that are referred to. -/
def Fit (u : Nat → Bool) (p : Kind) (w : Around) : Forest → Prop
  | .nil => True
  | .cons n k r => NodeOk u p w n k ∧ Fit u n.kind (w.enter p n) k ∧ Fit u p w r

/-- The documents for which C36 holds. -/
def Groupable (f : Forest) : Prop := Fit f.isUsed (.comment "") .none f

/-! ### The attributes of a child -/

/-- The attribute `b` of a child after it has been given the attributes of the group: from that of the group and its own. -/
def Comb (b : AName) : Option Attr → Option Attr → Option Attr → Prop
  | none, y, z => z = y
  | some x, none, z => match b with
    | .name _ => z = none
    | .id _ => z = some x
  | some x, some y, z => match b with
    | .name _ => z = some y
    | .id .opacity => ∃ p q, x.value = .number p ∧ y.value = .number q ∧ z.map (·.value) = some (.number (p * q))
    | .id .transform => z.map (·.value) = some (mulInto x.value y.value)
    | .id .display => z = some x
    | .id _ => z = some y

theorem pushAttr_same {c c' : Node} {x : Attr} (h : pushAttr c x = some c') : c'.key = c.key ∧ c'.kind = c.kind ∧ c'.id = c.id := by
  unfold pushAttr copyAttr at h
  repeat' split at h
  all_goals first | (cases h; done) | (cases h; exact ⟨rfl, rfl, rfl⟩)

theorem pushAttr_other {c c' : Node} {x : Attr} (h : pushAttr c x = some c') {b : AName} (hb : b ≠ x.name) :
    getAttr c'.attrs b = getAttr c.attrs b := by
  unfold pushAttr copyAttr at h
  split at h
  · cases h; rfl
  next a ha =>
    rw [ha] at hb
    split at h
    · split at h
      · cases h; rw [getAttr_set, if_neg hb]
      · cases h
    · split at h
      · cases h
        rw [getAttr_modValue]
        cases getAttr c.attrs b <;> simp [hb]
      · have key : getAttr (putAttr c.attrs x) b = getAttr c.attrs b := by
          rw [getAttr_put, if_neg (by rw [ha]; exact hb)]
        split at h
        · split at h
          · cases h
          · cases h; exact key
        · split at h
          · split at h
            · cases h
            · cases h; exact key
          · cases h; rfl

theorem has_iff (n : Node) (a : AId) : n.has a = (getAttr n.attrs (.id a)).isSome := rfl

theorem pushAttr_comb {c c' : Node} {x : Attr} (h : pushAttr c x = some c') :
    Comb x.name (some x) (getAttr c.attrs x.name) (getAttr c'.attrs x.name) := by
  unfold pushAttr copyAttr at h
  split at h
  next s hs =>
    cases h
    rw [hs]
    cases hg : getAttr c.attrs (.name s) <;> simp [Comb]
  next a ha =>
    have hput : getAttr (putAttr c.attrs x) (.id a) = some x := by rw [getAttr_put, if_pos (by rw [ha])]
    rw [ha]
    cases hg : getAttr c.attrs (.id a) with
    | none =>
      have hh : c.has a = false := by rw [has_iff, hg]; rfl
      simp only [hh, Bool.and_false, Bool.false_eq_true, if_false, Bool.not_false, if_true] at h
      have : getAttr c'.attrs (.id a) = some x := by
        split at h
        · split at h
          · cases h
          · cases h; exact hput
        · split at h
          · cases h
          · cases h; exact hput
      simp [Comb, this]
    | some y =>
      have hh : c.has a = true := by rw [has_iff, hg]; rfl
      simp only [hh, Bool.and_true, decide_eq_true_eq, Bool.not_true, Bool.false_eq_true, if_false] at h
      by_cases h1 : a = .opacity
      · subst h1
        simp only [if_true] at h
        have hy : c.get .opacity = some y.value := by unfold Node.get; rw [hg]; rfl
        rw [hy] at h
        split at h
        next p q hp hq =>
          cases h
          refine ⟨p, q, hp, by simpa using hq, ?_⟩
          rw [getAttr_set, if_pos rfl]
          rfl
        next => cases h
      · rw [if_neg h1] at h
        by_cases h2 : a = .transform
        · subst h2
          simp only [if_true] at h
          cases h
          show Option.map _ _ = _
          rw [getAttr_modValue, hg]
          simp
        · rw [if_neg h2] at h
          by_cases h3 : a = .display
          · subst h3
            simp only [if_true] at h
            split at h
            · cases h
            · cases h
              exact hput
          · rw [if_neg h3] at h
            cases h
            rw [hg]
            unfold Comb
            split <;> simp_all

theorem getAttr_cons (x : Attr) (t : List Attr) (b : AName) : getAttr (x :: t) b = if x.name = b then some x else getAttr t b := by
  unfold getAttr
  rw [List.find?_cons]
  split <;> simp_all

theorem getAttr_none {t : List Attr} {b : AName} (h : b ∉ t.map (·.name)) : getAttr t b = none := by
  unfold getAttr
  rw [List.find?_eq_none]
  intro x hx hb
  simp only [decide_eq_true_eq] at hb
  exact h (List.mem_map.2 ⟨x, hx, hb⟩)

theorem pushAttrs_same {as : List Attr} {c c' : Node} (h : pushAttrs as c = some c') :
    c'.key = c.key ∧ c'.kind = c.kind ∧ c'.id = c.id := by
  induction as generalizing c with
  | nil => cases h; exact ⟨rfl, rfl, rfl⟩
  | cons x t ih =>
    simp only [pushAttrs, Option.bind_eq_some_iff] at h
    obtain ⟨c1, h1, h2⟩ := h
    obtain ⟨a1, a2, a3⟩ := pushAttr_same h1
    obtain ⟨b1, b2, b3⟩ := ih h2
    exact ⟨b1.trans a1, b2.trans a2, b3.trans a3⟩

theorem pushAttrs_other {as : List Attr} {c c' : Node} (h : pushAttrs as c = some c') {b : AName} (hb : b ∉ as.map (·.name)) :
    getAttr c'.attrs b = getAttr c.attrs b := by
  induction as generalizing c with
  | nil => cases h; rfl
  | cons x t ih =>
    simp only [pushAttrs, Option.bind_eq_some_iff] at h
    obtain ⟨c1, h1, h2⟩ := h
    simp only [List.map_cons, List.mem_cons, not_or] at hb
    rw [ih h2 hb.2, pushAttr_other h1 hb.1]

theorem pushAttrs_comb {as : List Attr} (hn : (as.map (·.name)).Nodup) {c c' : Node} (h : pushAttrs as c = some c') (b : AName) :
    Comb b (getAttr as b) (getAttr c.attrs b) (getAttr c'.attrs b) := by
  induction as generalizing c with
  | nil => cases h; show _ = _; rfl
  | cons x t ih =>
    simp only [pushAttrs, Option.bind_eq_some_iff] at h
    obtain ⟨c1, h1, h2⟩ := h
    simp only [List.map_cons, List.nodup_cons] at hn
    rw [getAttr_cons]
    by_cases hx : x.name = b
    · subst hx
      rw [if_pos rfl, pushAttrs_other h2 hn.1]
      exact pushAttr_comb h1
    · rw [if_neg hx, ← pushAttr_other h1 (fun e => hx e.symm)]
      exact ih hn.2 h2

/-! ### What a child looks like with the attributes of the group -/

theorem get_eq (n : Node) (a : AId) : n.get a = (getAttr n.attrs (.id a)).map (·.value) := rfl

theorem groupAttr_mem {g : Node} (hg : ∀ x ∈ g.attrs, groupAttr x = true) {a : AId} {x : Attr} (h : getAttr g.attrs (.id a) = some x) :
    (a = .display ∧ x.value = .kw .none) ∨ (a ≠ .display ∧ (inherits a || isFixed a) = true) := by
  have := hg x (getAttr_mem h)
  unfold groupAttr at this
  rw [getAttr_name h] at this
  by_cases ha : a = .display
  · subst ha
    exact .inl ⟨rfl, by simpa using this⟩
  · refine .inr ⟨ha, ?_⟩
    split at this
    next hx => cases hx
    next hx => cases hx; exact absurd rfl ha
    next hx => cases hx; exact this

section Pushed
variable {g c c' : Node}

theorem push_own (hn : (g.attrs.map (·.name)).Nodup) (hg : ∀ x ∈ g.attrs, groupAttr x = true) (h : pushAttrs g.attrs c = some c')
    {b : AName} (hb : isOwn b = true) : getAttr c'.attrs b = getAttr c.attrs b := by
  have hc := pushAttrs_comb hn h b
  cases b with
  | name s =>
    cases h1 : getAttr g.attrs (.name s) <;> cases h2 : getAttr c.attrs (.name s) <;> rw [h1, h2] at hc <;> exact hc
  | id a =>
    cases h1 : getAttr g.attrs (.id a) with
    | none => rw [h1] at hc; exact hc
    | some x =>
      exfalso
      simp only [isOwn, Bool.and_eq_true, Bool.not_eq_true'] at hb
      rcases groupAttr_mem hg h1 with ⟨rfl, _⟩ | ⟨_, h3⟩
      · exact absurd hb.1.2 (by decide)
      · rw [hb.1.1, hb.1.2] at h3
        exact absurd h3 (by decide)

theorem push_style (hn : (g.attrs.map (·.name)).Nodup) (h : pushAttrs g.attrs c = some c') {a : AId} (ha : inherits a = true) :
    c'.get a = (c.get a).or (g.get a) := by
  have hc := pushAttrs_comb hn h (.id a)
  rw [get_eq, get_eq, get_eq]
  cases h1 : getAttr g.attrs (.id a) with
  | none => rw [h1] at hc; rw [show getAttr c'.attrs (.id a) = getAttr c.attrs (.id a) from hc]; simp
  | some x =>
    rw [h1] at hc
    cases h2 : getAttr c.attrs (.id a) with
    | none => rw [h2] at hc; rw [show getAttr c'.attrs (.id a) = some x from hc]; simp
    | some y =>
      rw [h2] at hc
      have : getAttr c'.attrs (.id a) = some y := by
        cases a <;> first | (exact absurd ha (by decide)) | exact hc
      rw [this]; simp

theorem push_keep (hn : (g.attrs.map (·.name)).Nodup) (h : pushAttrs g.attrs c = some c') {a : AId} (ha : g.has a = false) :
    getAttr c'.attrs (.id a) = getAttr c.attrs (.id a) := by
  have hc := pushAttrs_comb hn h (.id a)
  rw [has_iff, Option.isSome_eq_false_iff, Option.isNone_iff_eq_none] at ha
  rw [ha] at hc
  exact hc

theorem push_new (hn : (g.attrs.map (·.name)).Nodup) (h : pushAttrs g.attrs c = some c') {a : AId} (ha : c.has a = false) :
    getAttr c'.attrs (.id a) = getAttr g.attrs (.id a) := by
  have hc := pushAttrs_comb hn h (.id a)
  rw [has_iff, Option.isSome_eq_false_iff, Option.isNone_iff_eq_none] at ha
  rw [ha] at hc
  cases h1 : getAttr g.attrs (.id a) with
  | none => rw [h1] at hc; exact hc
  | some x => rw [h1] at hc; exact hc

theorem push_has (hn : (g.attrs.map (·.name)).Nodup) (h : pushAttrs g.attrs c = some c') (a : AId) :
    c'.has a = (g.has a || c.has a) := by
  have hc := pushAttrs_comb hn h (.id a)
  rw [has_iff, has_iff, has_iff]
  cases h1 : getAttr g.attrs (.id a) with
  | none => rw [h1] at hc; rw [show getAttr c'.attrs (.id a) = getAttr c.attrs (.id a) from hc]; simp
  | some x =>
    rw [h1] at hc
    cases h2 : getAttr c.attrs (.id a) with
    | none => rw [h2] at hc; rw [show getAttr c'.attrs (.id a) = some x from hc]; simp
    | some y =>
      rw [h2] at hc
      simp only [Option.isSome_some, Bool.or_self]
      have aux : ∀ v, (getAttr c'.attrs (.id a)).map (·.value) = some v → (getAttr c'.attrs (.id a)).isSome = true := by
        intro v hv
        cases hz : getAttr c'.attrs (.id a) with
        | none => rw [hz] at hv; cases hv
        | some z => rfl
      unfold Comb at hc
      simp only at hc
      split at hc
      next heq => cases heq
      next => obtain ⟨p, q, _, _, hz⟩ := hc; exact aux _ hz
      next => exact aux _ hc
      next => rw [hc]; rfl
      next => rw [hc]; rfl

theorem push_opacity (hn : (g.attrs.map (·.name)).Nodup) (h : pushAttrs g.attrs c = some c') :
    opacityOf c' = opacityOf g * opacityOf c := by
  have hc := pushAttrs_comb hn h (.id .opacity)
  unfold opacityOf
  rw [get_eq, get_eq, get_eq]
  cases h1 : getAttr g.attrs (.id .opacity) with
  | none => rw [h1] at hc; rw [show getAttr c'.attrs (.id .opacity) = getAttr c.attrs (.id .opacity) from hc]; simp
  | some x =>
    rw [h1] at hc
    cases h2 : getAttr c.attrs (.id .opacity) with
    | none => rw [h2] at hc; rw [show getAttr c'.attrs (.id .opacity) = some x from hc]; simp
    | some y =>
      rw [h2] at hc
      obtain ⟨p, q, hp, hq, hz⟩ := hc
      rw [hz]
      simp [hp, hq]

theorem push_hidden (hn : (g.attrs.map (·.name)).Nodup) (hg : ∀ x ∈ g.attrs, groupAttr x = true) (h : pushAttrs g.attrs c = some c') :
    hiddenBy c' = (hiddenBy g || hiddenBy c) := by
  have hc := pushAttrs_comb hn h (.id .display)
  unfold hiddenBy
  rw [get_eq, get_eq, get_eq]
  cases h1 : getAttr g.attrs (.id .display) with
  | none => rw [h1] at hc; rw [show getAttr c'.attrs (.id .display) = getAttr c.attrs (.id .display) from hc]; simp
  | some x =>
    rw [h1] at hc
    have hx : x.value = .kw .none := by
      rcases groupAttr_mem hg h1 with ⟨_, h⟩ | ⟨h, _⟩
      · exact h
      · exact absurd rfl h
    cases h2 : getAttr c.attrs (.id .display) with
    | none => rw [h2] at hc; rw [show getAttr c'.attrs (.id .display) = some x from hc]; simp [hx]
    | some y =>
      rw [h2] at hc
      rw [show getAttr c'.attrs (.id .display) = some x from hc]
      simp [hx]

theorem push_allowed (hn : (g.attrs.map (·.name)).Nodup) (h : pushAttrs g.attrs c = some c')
    (hd : ∀ a ∈ conds, g.has a = true → c.has a = false) {P : Type} (π : Painter P) : allowed π c' = (allowed π g && allowed π c) := by
  have key : ∀ a ∈ conds, holds π c' a = (holds π g a && holds π c a) := by
    intro a ha
    unfold holds
    cases hga : g.has a with
    | true =>
      have h1 := push_new hn h (hd a ha hga)
      have h2 := hd a ha hga
      rw [has_iff, Option.isSome_eq_false_iff, Option.isNone_iff_eq_none] at h2
      rw [get_eq, get_eq, get_eq, h1, h2]
      simp
    | false =>
      have h1 := push_keep hn h hga
      rw [has_iff, Option.isSome_eq_false_iff, Option.isNone_iff_eq_none] at hga
      rw [get_eq, get_eq, get_eq, h1, hga]
      simp
  unfold allowed
  rw [key .requiredFeatures (by decide), key .requiredExtensions (by decide), key .systemLanguage (by decide)]
  generalize holds π g .requiredFeatures = a1
  generalize holds π g .requiredExtensions = a2
  generalize holds π g .systemLanguage = a3
  cases a1 <;> cases a2 <;> cases a3 <;> simp

theorem mul_one_left (s : Transform) : mul one s = s := by
  simp [mul, one]

theorem push_transform (hn : (g.attrs.map (·.name)).Nodup) (h : pushAttrs g.attrs c = some c')
    (ht : ∀ v, c.get .transform = some v → ∃ t, v = .transform t) :
    nodeTransform c' = mul (nodeTransform g) (nodeTransform c) := by
  have hc := pushAttrs_comb hn h (.id .transform)
  unfold nodeTransform
  rw [get_eq] at ht
  rw [get_eq, get_eq, get_eq]
  cases h1 : getAttr g.attrs (.id .transform) with
  | none =>
    rw [h1] at hc
    rw [show getAttr c'.attrs (.id .transform) = getAttr c.attrs (.id .transform) from hc]
    exact (mul_one_left _).symm
  | some x =>
    rw [h1] at hc
    cases h2 : getAttr c.attrs (.id .transform) with
    | none =>
      rw [h2] at hc
      rw [show getAttr c'.attrs (.id .transform) = some x from hc]
      exact (ApplyTs.mul_one'' _).symm
    | some y =>
      rw [h2] at hc ht
      obtain ⟨t, htt⟩ := ht y.value rfl
      simp only [Comb, htt] at hc
      simp only [hc, Option.map_some, htt]
      unfold mulInto
      cases x.value <;> first | rfl | exact (mul_one_left _).symm

end Pushed

/-! ### Taking a group away -/

/-- What is used of the conditions on a child of a group. -/
structure Kid (g c : Node) : Prop where
  chars : isChars c.kind = false
  inherit : ∀ x ∈ c.attrs, x.value ≠ .kw .inherit
  transform : ∀ v, c.get .transform = some v → ∃ t, v = .transform t
  takes : g.has .transform = true → (takesTransform c.kind || neverRendered c.kind || !isElem c.kind) = true
  cond : ∀ a ∈ conds, g.has a = true → c.has a = false

theorem Kid.of {u : Nat → Bool} {p : Kind} {w : Around} {g c : Node} {k : Forest} (hg : g.kind = .elem .g)
    (h : NodeOk u g.kind (w.enter p g) c k) : Kid g c := by
  obtain ⟨h1, h2, h3⟩ := h.inGroup hg
  have e : w.enter p g = ⟨w.transform || g.has .transform, w.conds ++ conds.filter g.has, w.switch || decide (p = .elem .switch)⟩ := by
    unfold Around.enter; rw [if_pos hg]
  refine ⟨h1, h2, h3, fun ht => (h.transform (by rw [e]; simp [ht])).2, fun a ha hga => h.cond a ha (.inl ?_)⟩
  rw [e]
  exact List.mem_append_right _ (List.mem_filter.2 ⟨ha, hga⟩)

section Group
variable {P : Type} {π : Painter P} {g : Node}

theorem push_enter_style (hn : (g.attrs.map (·.name)).Nodup) {c c' : Node} (h : pushAttrs g.attrs c = some c') (hk : Kid g c) (ctx : Ctx) :
    (ctx.enter c').style = ((ctx.enter g).enter c).style := by
  funext a
  simp only [Ctx.enter]
  cases ha : inherits a with
  | false => simp
  | true =>
    rw [push_style hn h ha]
    cases hc : c.get a with
    | none => simp
    | some v =>
      have : v ≠ .kw .inherit := by
        unfold Node.get at hc
        cases hx : getAttr c.attrs (.id a) with
        | none => rw [hx] at hc; cases hc
        | some y =>
          rw [hx] at hc
          cases hc
          exact hk.inherit y (getAttr_mem hx)
      simp [this]

theorem nodeTransform_none {n : Node} (h : n.has .transform = false) : nodeTransform n = one := by
  unfold nodeTransform
  rw [Node.has_eq] at h
  cases hg : n.get .transform with
  | none => rfl
  | some v => rw [hg] at h; cases h

theorem push_enter (hg : g.kind = .elem .g) (hn : (g.attrs.map (·.name)).Nodup) {c c' : Node} (h : pushAttrs g.attrs c = some c')
    (hk : Kid g c) (ht : takesTransform c.kind = true ∨ g.has .transform = false) (ctx : Ctx) :
    ctx.enter c' = (ctx.enter g).enter c := by
  have h1 := push_enter_style hn h hk ctx
  have h2 : (ctx.enter c').ctm = ((ctx.enter g).enter c).ctm := by
    have tg : takesTransform g.kind = true := by rw [hg]; rfl
    simp only [Ctx.enter, (pushAttrs_same h).2.1, tg, if_true]
    rcases ht with ht | ht
    · rw [ht, push_transform hn h hk.transform]
      simp only [if_true]
      rw [ApplyTs.mul_assoc']
    · rw [nodeTransform_none ht, ApplyTs.mul_one'', push_transform hn h hk.transform, nodeTransform_none ht, mul_one_left]
  cases h3 : ctx.enter c'
  cases h4 : (ctx.enter g).enter c
  rw [h3, h4] at h1 h2
  cases h1
  cases h2
  rfl

/-- What a group without mask, clip path and filter does to its content. -/
def through (π : Painter P) (g : Node) (p : P) : P := if hiddenBy g || !allowed π g then π.empty else π.fade (opacityOf g) p

theorem through_empty : through π g π.empty = π.empty := by
  unfold through
  split
  · rfl
  · rw [π.fade_empty]

theorem not_isRef {env : Env P} {n : Node} {a : AId} (h : n.has a = false) : Seen.isRef (seenAttr env n a) = false := by
  rw [Node.has_eq] at h
  unfold seenAttr
  cases hx : n.get a with
  | none => rfl
  | some v => rw [hx] at h; cases h

theorem draw_group (hg : g.kind = .elem .g) (hm : g.has .mask = false) (hc : g.has .clipPath = false) (hf : g.has .filter = false)
    (env : Env P) (ctx : Ctx) (kids : List (Pic P)) : draw π env ctx g kids = through π g (stack π isElem kids) := by
  unfold draw
  rw [hg, if_neg (by decide), body_elem hg, if_neg (by decide)]
  unfold inner
  rw [π.no_effect _ _ _ _ _ (not_isRef hm) (not_isRef hc) (not_isRef hf)]
  rfl

/-- A group without content and filter shows nothing. -/
theorem draw_empty_group (hg : g.kind = .elem .g) (hf : g.has .filter = false) (env : Env P) (ctx : Ctx) :
    draw π env ctx g [] = π.empty := by
  unfold draw
  rw [hg, if_neg (by decide), body_elem hg, if_neg (by decide)]
  unfold inner
  have : core π env noVia (ctx.enter g) g .g [] = π.empty := rfl
  rw [this, π.effect_empty _ _ _ _ (not_isRef hf), π.fade_empty]
  split <;> rfl

theorem draw_push (hg : g.kind = .elem .g) (hm : g.has .mask = false) (hc : g.has .clipPath = false) (hf : g.has .filter = false)
    (hn : (g.attrs.map (·.name)).Nodup) (ha : ∀ x ∈ g.attrs, groupAttr x = true) {c c' : Node}
    (h : pushAttrs g.attrs c = some c') (hk : Kid g c) (he : isElem c.kind = true) (env : Env P) (ctx : Ctx) (k : Forest) :
    draw π env ctx c' (pics π env (ctx.enter c') k) =
      through π g (draw π env (ctx.enter g) c (pics π env ((ctx.enter g).enter c) k)) := by
  unfold draw
  rw [(pushAttrs_same h).2.1]
  cases hr : neverRendered c.kind with
  | true => simp only [if_true]; rw [through_empty]
  | false =>
    simp only [Bool.false_eq_true, if_false]
    have ht : takesTransform c.kind = true ∨ g.has .transform = false := by
      cases hgt : g.has .transform with
      | false => exact .inr rfl
      | true =>
        have := hk.takes hgt
        rw [hr, he] at this
        exact .inl (by simpa using this)
    have hen := push_enter hg hn h hk ht ctx
    rw [hen]
    cases hkind : c.kind with
    | elem e =>
      have hkind' : c'.kind = .elem e := by rw [(pushAttrs_same h).2.1]; exact hkind
      rw [hkind] at hr
      rw [body_elem hkind, body_elem hkind', hr]
      simp only [Bool.false_and, Bool.false_eq_true, if_false]
      rw [push_hidden hn ha h, push_allowed hn h hk.cond, push_opacity hn h]
      rw [inner_eq (n := c) (n' := c') (fun b hb => push_own hn ha h hb) (fun a ham => ?_) hen]
      · unfold through
        cases hiddenBy g <;> cases allowed π g <;> cases hiddenBy c <;> cases allowed π c <;>
          simp [π.fade_empty, π.fade_fade]
      · rw [get_eq, get_eq]
        congr 1
        apply push_keep hn h
        simp only [List.mem_cons, List.not_mem_nil, or_false] at ham
        rcases ham with rfl | rfl | rfl <;> assumption
    | text s => rw [hkind] at he; cases he
    | comment s => rw [hkind] at he; cases he
    | other s => rw [hkind] at he; cases he

end Group

/-- The cases in which a group is taken away. -/
theorem canUngroup_cases {used : Nat → Bool} {p g : Node} {k : Forest} (h : canUngroup used p g k = true) :
    (k = .nil ∧ g.has .filter = false) ∨
    (used g.key = false ∧ g.has .mask = false ∧ g.has .clipPath = false ∧ g.has .filter = false ∧ p.kind ≠ .elem .clipPath ∧
      ((∃ c kc, k = .cons c kc .nil ∧ used c.key = false) ∨
       (p.kind ≠ .elem .switch ∧ (g.attrs = [] ∨ (g.attrs.length = 1 ∧ g.has .transform = true))))) := by
  unfold canUngroup at h
  split at h
  next h1 =>
    simp only [Bool.and_eq_true, Bool.not_eq_true'] at h1
    left
    refine ⟨?_, h1.2⟩
    cases k with
    | nil => rfl
    | cons _ _ _ => exact absurd h1.1 (by simp [Forest.isEmpty])
  next =>
  split at h
  next => cases h
  next h2 =>
  split at h
  next => cases h
  next h3 =>
  split at h
  next => cases h
  next h4 =>
  simp only [Bool.or_eq_true, not_or, Bool.not_eq_true] at h3
  right
  refine ⟨by simpa using h2, h3.1.1, h3.1.2, h3.2, fun e => h4 ((Node.isTag_iff _ _).2 e), ?_⟩
  split at h
  next h5 =>
    left
    unfold singleUnused at h5
    split at h5
    · exact ⟨_, _, rfl, by simpa using h5⟩
    · cases h5
  next =>
  split at h
  next => cases h
  next h6 =>
  right
  refine ⟨fun e => h6 ((Node.isTag_iff _ _).2 e), ?_⟩
  split at h
  next h7 => exact .inl (List.isEmpty_iff.1 h7)
  next =>
  split at h
  next h8 =>
    simp only [Bool.and_eq_true, decide_eq_true_eq] at h8
    exact .inr ⟨h8.2, h8.1⟩
  next => cases h

section Like
variable {P : Type} {π : Painter P} {g : Node}

theorem Fit.kids {u : Nat → Bool} {p : Kind} {w : Around} (hg : g.kind = .elem .g) :
    ∀ {k : Forest}, Fit u g.kind (w.enter p g) k → ∀ c ∈ k.top, Kid g c ∧ (g.has .transform = true → u c.key = false) := by
  intro k
  induction k with
  | nil => intro _ c hc; simp [Forest.top] at hc
  | cons n kn r _ ih =>
    intro h c hc
    obtain ⟨h1, _, h3⟩ := h
    simp only [Forest.top, List.mem_cons] at hc
    rcases hc with rfl | hc
    · refine ⟨Kid.of hg h1, fun ht => (h1.transform ?_).1⟩
      unfold Around.enter
      rw [if_pos hg]
      simp [ht]
    · exact ih h3 c hc

theorem pushAll_stack (hg : g.kind = .elem .g) (hm : g.has .mask = false) (hc : g.has .clipPath = false) (hf : g.has .filter = false)
    (hn : (g.attrs.map (·.name)).Nodup) (ha : ∀ x ∈ g.attrs, groupAttr x = true) (hid : ∀ p, through π g p = p) {k k' : Forest}
    (h : pushAll g.attrs k = some k') (hk : ∀ c ∈ k.top, Kid g c) (env : Env P) (ctx : Ctx) (b : Bool) :
    stack π (fun k => isElem k || (b && isChars k)) (pics π env ctx k') = stack π isElem (pics π env (ctx.enter g) k) := by
  induction k generalizing k' with
  | nil => simp only [pushAll, Option.some.injEq] at h; subst h; rfl
  | cons c kc r _ ih =>
    simp only [pushAll, Option.bind_eq_some_iff, Option.map_eq_some_iff] at h
    obtain ⟨c', hc', r', hr, rfl⟩ := h
    have hkc := hk c (by simp [Forest.top])
    have ih' := ih hr (fun m hm => hk m (by simp [Forest.top, hm]))
    simp only [pics, stack_cons]
    rw [ih', (pushAttrs_same hc').2.1, hkc.chars]
    cases he : isElem c.kind with
    | false => simp
    | true =>
      simp only [Bool.true_or, if_true]
      rw [draw_push hg hm hc hf hn ha hc' hkc he, hid]

theorem pushAll_inst {u : Nat → Bool} {k k' : Forest} (h : pushAll g.attrs k = some k')
    (hu : g.attrs = [] ∨ ∀ c ∈ k.top, u c.key = false) (env : Env P) (via : Attrs P) (ctx : Ctx) {x : Nat} (hx : u x = true) :
    instOf π env via ctx x k = instOf π env via ctx x k' := by
  induction k generalizing k' with
  | nil => simp only [pushAll, Option.some.injEq] at h; subst h; rfl
  | cons c kc r _ ih =>
    simp only [pushAll, Option.bind_eq_some_iff, Option.map_eq_some_iff] at h
    obtain ⟨c', hc', r', hr, rfl⟩ := h
    have ih' := ih hr (hu.imp id (fun hu m hm => hu m (by simp [Forest.top, hm])))
    simp only [instOf]
    rw [ih', (pushAttrs_same hc').1]
    by_cases hcx : c.key = x
    · simp only [hcx, if_true]
      rcases hu with hu | hu
      · rw [hu] at hc'
        simp only [pushAttrs, Option.some.injEq] at hc'
        rw [hc']
      · rw [← hcx, hu c (by simp [Forest.top])] at hx
        cases hx
    · simp only [hcx, if_false]

theorem enter_empty (hg : g.kind = .elem .g) (h : g.attrs = []) (ctx : Ctx) (n : Node) : (ctx.enter g).enter n = ctx.enter n := by
  have e : ∀ a, g.get a = none := fun a => by unfold Node.get; rw [h]; rfl
  have t : nodeTransform g = one := by unfold nodeTransform; rw [e]
  unfold Ctx.enter
  simp only [e, hg, t, ApplyTs.mul_one'', Ctx.mk.injEq]
  constructor
  · funext a
    split
    · rfl
    · rfl
  · rw [show takesTransform (.elem .g) = true from rfl]
    simp

theorem pushAll_here {u : Nat → Bool} (hg : g.kind = .elem .g) (hn : (g.attrs.map (·.name)).Nodup) {k k' : Forest}
    (h : pushAll g.attrs k = some k') (hk : ∀ c ∈ k.top, Kid g c) (hu : g.attrs = [] ∨ ∀ c ∈ k.top, u c.key = false) (env : Env P)
    (ctx : Ctx) {x : Nat} (hx : u x = true) : hereOf π env x (ctx.enter g) k = hereOf π env x ctx k' := by
  induction k generalizing k' with
  | nil => simp only [pushAll, Option.some.injEq] at h; subst h; rfl
  | cons c kc r _ ih =>
    simp only [pushAll, Option.bind_eq_some_iff, Option.map_eq_some_iff] at h
    obtain ⟨c', hc', r', hr, rfl⟩ := h
    have ih' := ih hr (fun m hm => hk m (by simp [Forest.top, hm])) (hu.imp id (fun hu m hm => hu m (by simp [Forest.top, hm])))
    have hkc := hk c (by simp [Forest.top])
    simp only [hereOf]
    rw [ih', (pushAttrs_same hc').1, hereOf_style env x (push_enter_style hn hc' hkc ctx)]
    by_cases hcx : c.key = x
    · simp only [hcx, if_true]
      rcases hu with hu | hu
      · rw [hu] at hc'
        simp only [pushAttrs, Option.some.injEq] at hc'
        subst hc'
        have e : (⟨(ctx.enter g).style, one⟩ : Ctx) = Ctx.enter ⟨ctx.style, one⟩ g := by
          have e : ∀ a, g.get a = none := fun a => by unfold Node.get; rw [hu]; rfl
          have t : nodeTransform g = one := by unfold nodeTransform; rw [e]
          unfold Ctx.enter
          simp only [t, ApplyTs.mul_one'', ite_self]
        rw [e, enter_empty hg hu]
        have hb : ∀ l, body π env noVia (Ctx.enter ⟨ctx.style, one⟩ g) c l = body π env noVia ⟨ctx.style, one⟩ c l := by
          intro l
          cases hkind : c.kind with
          | elem e =>
            rw [body_elem hkind, body_elem hkind]
            unfold inner
            rw [enter_empty hg hu]
          | text s => have := hkc.chars; rw [hkind] at this; cases this
          | comment s => unfold body; rw [hkind]
          | other s =>
            unfold body
            rw [hkind, enter_empty hg hu, ← e]
        rw [hb]
      · rw [← hcx, hu c (by simp [Forest.top])] at hx
        cases hx
    · simp only [hcx, if_false]

end Like

theorem through_plain {P : Type} {π : Painter P} {g : Node} (h : ∀ a, a ≠ .transform → g.has a = false) (p : P) : through π g p = p := by
  have e : ∀ a, a ≠ .transform → g.get a = none := by
    intro a ha
    have := h a ha
    rw [Node.has_eq] at this
    cases hx : g.get a with
    | none => rfl
    | some v => rw [hx] at this; cases this
  have h1 : hiddenBy g = false := by unfold hiddenBy; rw [e _ (by decide)]; rfl
  have h2 : allowed π g = true := by
    unfold allowed holds
    rw [e _ (by decide), e _ (by decide), e _ (by decide)]
    rfl
  have h3 : opacityOf g = 1 := by unfold opacityOf; rw [e _ (by decide)]
  unfold through
  rw [h1, h2, h3]
  exact π.fade_one p

theorem has_single {g : Node} (h : g.attrs = [] ∨ (g.attrs.length = 1 ∧ g.has .transform = true)) (a : AId) (ha : a ≠ .transform) :
    g.has a = false := by
  rcases h with h | ⟨h1, h2⟩
  · rw [has_iff, h]; rfl
  · obtain ⟨x, hx⟩ := List.length_eq_one_iff.1 h1
    rw [has_iff, hx, getAttr_cons] at h2
    rw [has_iff, hx, getAttr_cons]
    split at h2
    next e =>
      rw [if_neg (by rw [e]; simpa using fun h => ha h.symm)]
      rfl
    next => cases h2

/-- Taking a group away does not change what its parent shows. -/
theorem ungroup_like {used : Nat → Bool} {p g : Node} {w : Around} {k k' : Forest} (hg : g.kind = .elem .g)
    (hc : canUngroup used p g k = true) (ho : NodeOk used p.kind w g k) (hfk : Fit used g.kind (w.enter p.kind g) k)
    (h : pushAll g.attrs k = some k') (r : Forest) : KidsLike (fun x => used x = true) p.kind (.cons g k r) (k' ++ r) := by
  have hgo := ho.group hg
  have hkids := Fit.kids hg hfk
  rcases canUngroup_cases hc with ⟨rfl, hf⟩ | ⟨hu, hm, hcl, hf, hpc, hcase⟩
  · -- an empty group
    simp only [pushAll, Option.some.injEq] at h
    subst h
    have hug : used g.key = false := by
      cases hx : used g.key with
      | false => rfl
      | true => exact absurd (hgo.lasting hx) (by decide)
    have hps : p.kind ≠ .elem .switch := fun e => absurd (hgo.solid e) (by decide)
    refine ⟨fun π env c => ⟨fun _ _ => ?_, fun e => absurd e hps, fun _ => ?_, fun e => ?_⟩, fun π env via c x hx => ?_,
      fun π env c x hx => ?_⟩
    · show stack π isElem (_ :: _) = stack π isElem (pics π env c r) ∧ stack π _ (_ :: _) = stack π _ (pics π env c r)
      simp only [stack_cons, pics, draw_empty_group hg hf, hg]
      simp [isElem, π.empty_over]
    · show List.map _ (List.filter _ (_ :: _)) = List.map _ (List.filter _ (pics π env c r))
      rw [List.filter_cons]
      simp [hg, clipKind]
    · rw [hgo.place] at e; cases e
    · show _ = instOf π env via c x r
      simp only [instOf]
      rw [if_neg (by rintro rfl; rw [hug] at hx; cases hx)]
      simp
    · show _ = hereOf π env x c r
      simp only [hereOf]
      rw [if_neg (by rintro rfl; rw [hug] at hx; cases hx)]
      simp
  · have hinst : ∀ {P : Type} (π : Painter P) env via c x, used x = true →
        (g.attrs = [] ∨ ∀ c ∈ k.top, used c.key = false) →
        instOf π env via c x (.cons g k r) = instOf π env via c x (k' ++ r) := by
      intro P π env via c x hx hno
      rw [instOf_append]
      simp only [instOf]
      rw [if_neg (by rintro rfl; rw [hu] at hx; cases hx), pushAll_inst h hno env via c hx]
    have hhere : ∀ {P : Type} (π : Painter P) env c x, used x = true →
        (g.attrs = [] ∨ ∀ c ∈ k.top, used c.key = false) →
        hereOf π env x c (.cons g k r) = hereOf π env x c (k' ++ r) := by
      intro P π env c x hx hno
      rw [hereOf_append]
      simp only [hereOf]
      rw [if_neg (by rintro rfl; rw [hu] at hx; cases hx), pushAll_here hg hgo.names h (fun c hc => (hkids c hc).1) hno env c hx]
    rcases hcase with ⟨c, kc, rfl, huc⟩ | ⟨hps, hat⟩
    · -- one child
      have hno : g.attrs = [] ∨ ∀ m ∈ (Forest.cons c kc .nil).top, used m.key = false := by
        right
        intro m hmm
        simp only [Forest.top, List.mem_singleton] at hmm
        rw [hmm]; exact huc
      have hkc := (hkids c (by simp [Forest.top])).1
      simp only [pushAll, Option.map_some, Option.bind_eq_some_iff, Option.some.injEq] at h
      obtain ⟨c', hc', rfl⟩ := h
      have hkind := (pushAttrs_same hc').2.1
      have hdr : ∀ {P : Type} (π : Painter P) env ctx, isElem c.kind = true →
          draw π env ctx g (pics π env (ctx.enter g) (.cons c kc .nil)) = draw π env ctx c' (pics π env (ctx.enter c') kc) := by
        intro P π env ctx he
        rw [draw_group hg hm hcl hf, draw_push hg hm hcl hf hgo.names hgo.attrs hc' hkc he]
        simp only [pics, stack_cons, he, if_true]
        congr 1
        exact π.over_empty _
      have hdr' : ∀ {P : Type} (π : Painter P) env ctx, isElem c.kind = false →
          draw π env ctx g (pics π env (ctx.enter g) (.cons c kc .nil)) = π.empty := by
        intro P π env ctx he
        rw [draw_group hg hm hcl hf]
        simp only [pics, stack_cons, he]
        exact through_empty
      refine ⟨fun π env ctx => ⟨fun _ _ => ?_, fun e => ?_, fun e => absurd e hpc, fun e => ?_⟩, fun π env via c x hx => ?_,
        fun π env c x hx => ?_⟩
      · show stack π isElem (_ :: _) = stack π isElem (_ :: pics π env ctx r) ∧ stack π _ (_ :: _) = stack π _ (_ :: pics π env ctx r)
        simp only [stack_cons, hkind, hkc.chars, Bool.or_false, hg]
        cases he : isElem c.kind with
        | true => rw [hdr π env ctx he]; exact ⟨rfl, rfl⟩
        | false => rw [hdr' π env ctx he]; simp [isElem, π.empty_over]
      · show choose π (_ :: _) = choose π (_ :: pics π env ctx r)
        have hs := hgo.solid e
        have hs2 : isElem c.kind = true ∧ neverRendered c.kind = false := by
          unfold solid at hs
          split at hs
          next h1 => rw [h1]; exact ⟨rfl, rfl⟩
          next => simpa [solid] using hs
        have hall : allowed π c = true := by
          have hcond := (hfk.1 : NodeOk used g.kind (w.enter p.kind g) c kc).cond
          have hh : ∀ a ∈ conds, c.has a = false := by
            intro a ha
            refine hcond a ha (.inr ?_)
            unfold Around.enter
            rw [if_pos hg]
            simp [e]
          have hh2 : ∀ a ∈ conds, holds π c a = true := by
            intro a ha
            have := hh a ha
            rw [Node.has_eq] at this
            unfold holds
            cases hx : c.get a with
            | none => rfl
            | some v => rw [hx] at this; cases this
          unfold allowed
          rw [hh2 _ (by decide), hh2 _ (by decide), hh2 _ (by decide)]
          rfl
        rw [choose_cons, choose_cons]
        simp only [hkind, hg, hs2.1, hs2.2, push_allowed hgo.names hc' hkc.cond, hall, hdr π env ctx hs2.1]
        simp [isElem, neverRendered]
      · rw [hgo.place] at e; cases e
      · exact hinst π env via _ x hx hno
      · exact hhere π env _ x hx hno
    · -- no attributes, or only a transform
      have hno : g.attrs = [] ∨ ∀ c ∈ k.top, used c.key = false := by
        rcases hat with hat | ⟨_, hat⟩
        · exact .inl hat
        · exact .inr (fun c hc => (hkids c hc).2 hat)
      have hid : ∀ {P : Type} (π : Painter P) (p : P), through π g p = p := fun π => through_plain (has_single hat)
      refine ⟨fun π env ctx => ⟨fun _ _ => ?_, fun e => absurd e hps, fun e => absurd e hpc, fun e => ?_⟩, fun π env via c x hx => ?_,
        fun π env c x hx => ?_⟩
      · have h1 := fun b => pushAll_stack (π := π) hg hm hcl hf hgo.names hgo.attrs (hid π) h (fun c hc => (hkids c hc).1) env ctx b
        have e1 : (fun k => isElem k || (false && isChars k)) = isElem := by funext k; simp
        have e2 : (fun k => isElem k || (true && isChars k)) = fun k => isElem k || isChars k := by funext k; simp
        have h2 := h1 false
        have h3 := h1 true
        rw [e1] at h2
        rw [e2] at h3
        rw [pics_append]
        simp only [pics, stack_cons, stack_append, h2, h3, hg, draw_group hg hm hcl hf, hid]
        exact ⟨rfl, rfl⟩
      · rw [hgo.place] at e; cases e
      · exact hinst π env via c x hx hno
      · exact hhere π env c x hx hno

theorem scan_like {used : Nat → Bool} {p : Node} {w : Around} {k k' : Forest} {x : Nat × Nat} (hf : Fit used p.kind w k)
    (h : scan used p k = some (some (k', x))) : KidsLike (fun x => used x = true) p.kind k k' := by
  induction k generalizing p w k' x with
  | nil => simp [scan] at h
  | cons n k r ihk ihr =>
    obtain ⟨h1, h2, h3⟩ := hf
    unfold scan at h
    split at h
    next hc =>
      simp only [Bool.and_eq_true] at hc
      simp only [Option.map_eq_some_iff, Option.some.injEq, Prod.mk.injEq] at h
      obtain ⟨k1, hk1, rfl, rfl⟩ := h
      exact ungroup_like ((Node.isTag_iff _ _).1 hc.1) hc.2 h1 h2 hk1 r
    next =>
      simp only [Option.bind_eq_some_iff] at h
      obtain ⟨o, ho, h⟩ := h
      cases o with
      | some y =>
        simp only [Option.some.injEq, Prod.mk.injEq] at h
        obtain ⟨rfl, rfl⟩ := h
        exact KidsLike.of_like (Like.cons (ihk h2 ho).node (Like.refl _ _))
      | none =>
        simp only [Option.map_eq_some_iff] at h
        obtain ⟨o2, ho2, h⟩ := h
        cases o2 with
        | none => simp at h
        | some y =>
          simp only [Option.some.injEq, Prod.mk.injEq] at h
          obtain ⟨_, rfl, rfl, rfl⟩ := h
          exact (ihr h3 ho2).cons n k

/-! ### The conditions stay -/

structure Around.le (v w : Around) : Prop where
  transform : v.transform = true → w.transform = true
  conds : ∀ a ∈ v.conds, a ∈ w.conds
  switch : v.switch = true → w.switch = true

theorem Around.le_refl (w : Around) : w.le w := ⟨id, fun _ h => h, id⟩

theorem NodeOk.weaken {u u' : Nat → Bool} {p : Kind} {v w : Around} {n : Node} {k : Forest} (h : NodeOk u p w n k)
    (hu : ∀ x, u' x = true → u x = true) (hv : v.le w) : NodeOk u' p v n k := by
  refine ⟨fun hg => ?_, fun ht => ?_, fun a ha hc => ?_, h.inGroup⟩
  · obtain ⟨h1, h2, h3, h4, h5⟩ := h.group hg
    exact ⟨h1, h2, h3, h4, fun hx => h5 (hu _ hx)⟩
  · obtain ⟨h1, h2⟩ := h.transform (hv.transform ht)
    refine ⟨?_, h2⟩
    cases hx : u' n.key with
    | false => rfl
    | true => rw [hu _ hx] at h1; cases h1
  · exact h.cond a ha (hc.imp (hv.conds a) hv.switch)

theorem Around.enter_le {v w : Around} (h : v.le w) (p : Kind) (n : Node) : (v.enter p n).le (w.enter p n) := by
  unfold Around.enter
  split
  · refine ⟨fun ht => ?_, fun a ha => ?_, fun ht => ?_⟩
    · simp only [Bool.or_eq_true] at ht ⊢
      exact ht.imp h.transform id
    · simp only [List.mem_append] at ha ⊢
      exact ha.imp (h.conds a) id
    · simp only [Bool.or_eq_true] at ht ⊢
      exact ht.imp h.switch id
  · exact Around.le_refl _

theorem Fit.weaken {u u' : Nat → Bool} {p : Kind} {v w : Around} {f : Forest} (h : Fit u p w f)
    (hu : ∀ x, u' x = true → u x = true) (hv : v.le w) : Fit u' p v f := by
  induction f generalizing p v w with
  | nil => trivial
  | cons n k r ihk ihr => exact ⟨h.1.weaken hu hv, ihk h.2.1 (Around.enter_le hv p n), ihr h.2.2 hv⟩

theorem Fit.append {u : Nat → Bool} {p : Kind} {w : Around} {f g : Forest} (hf : Fit u p w f) (hg : Fit u p w g) : Fit u p w (f ++ g) := by
  induction f with
  | nil => exact hg
  | cons n k r _ ih => exact ⟨hf.1, hf.2.1, ih hf.2.2⟩

theorem solid_append (f g : Forest) : solid (f ++ g) = (solid f || solid g) := by
  induction f with
  | nil => rfl
  | cons n k r _ ih =>
    show solid (.cons n k (r ++ g)) = _
    simp only [solid]
    rw [ih, Bool.or_assoc]

theorem lasting_append (f g : Forest) : lasting (f ++ g) = (lasting f || lasting g) := by
  induction f with
  | nil => rfl
  | cons n k r _ ih =>
    show lasting (.cons n k (r ++ g)) = _
    simp only [lasting]
    rw [ih, Bool.or_assoc]

theorem pushAll_solid {as : List Attr} {k k' : Forest} (h : pushAll as k = some k') : solid k' = solid k ∧ lasting k' = lasting k := by
  induction k generalizing k' with
  | nil => simp only [pushAll, Option.some.injEq] at h; subst h; exact ⟨rfl, rfl⟩
  | cons c kc r _ ih =>
    simp only [pushAll, Option.bind_eq_some_iff, Option.map_eq_some_iff] at h
    obtain ⟨c', hc', r', hr, rfl⟩ := h
    simp only [solid, lasting, (pushAttrs_same hc').2.1, (ih hr).1, (ih hr).2]
    exact ⟨trivial, trivial⟩

theorem scan_solid {used : Nat → Bool} {p : Node} {k k' : Forest} {x : Nat × Nat} (h : scan used p k = some (some (k', x))) :
    solid k' = solid k ∧ lasting k' = lasting k := by
  induction k generalizing p k' x with
  | nil => simp [scan] at h
  | cons n k r ihk ihr =>
    unfold scan at h
    split at h
    next hc =>
      simp only [Bool.and_eq_true] at hc
      simp only [Option.map_eq_some_iff, Option.some.injEq, Prod.mk.injEq] at h
      obtain ⟨k1, hk1, rfl, rfl⟩ := h
      rw [solid_append, lasting_append, (pushAll_solid hk1).1, (pushAll_solid hk1).2]
      simp only [solid, lasting, (Node.isTag_iff _ _).1 hc.1, if_true]
      exact ⟨trivial, trivial⟩
    next =>
      simp only [Option.bind_eq_some_iff] at h
      obtain ⟨o, ho, h⟩ := h
      cases o with
      | some y =>
        simp only [Option.some.injEq, Prod.mk.injEq] at h
        obtain ⟨rfl, rfl⟩ := h
        simp only [solid, lasting, (ihk ho).1, (ihk ho).2]
        exact ⟨trivial, trivial⟩
      | none =>
        simp only [Option.map_eq_some_iff] at h
        obtain ⟨o2, ho2, h⟩ := h
        cases o2 with
        | none => simp at h
        | some y =>
          simp only [Option.some.injEq, Prod.mk.injEq] at h
          obtain ⟨_, rfl, rfl, rfl⟩ := h
          simp only [solid, lasting, (ihr ho2).1, (ihr ho2).2]
          exact ⟨trivial, trivial⟩

theorem putAttr_names (as : List Attr) (x : Attr) (h : (as.map (·.name)).Nodup) : ((putAttr as x).map (·.name)).Nodup := by
  unfold putAttr
  split
  · rw [List.map_map]
    have : ((fun y : Attr => y.name) ∘ fun y => if y.name = x.name then x else y) = fun y => y.name := by
      funext y
      simp only [Function.comp]
      split
      next e => exact e.symm
      next => rfl
    rw [this]
    exact h
  next hn =>
    rw [List.map_append, List.nodup_append]
    refine ⟨h, by simp, ?_⟩
    intro a ha b hb
    simp only [List.map_cons, List.map_nil, List.mem_singleton] at hb
    subst hb
    rintro rfl
    obtain ⟨y, hy, hyx⟩ := List.mem_map.1 ha
    exact hn (List.any_eq_true.2 ⟨y, hy, by simpa using hyx⟩)

theorem modValue_names (n : Node) (a : AId) (g : Value → Value) : (modValue n a g).attrs.map (·.name) = n.attrs.map (·.name) := by
  unfold modValue
  simp only [List.map_map]
  congr 1
  funext y
  simp only [Function.comp]
  split <;> rfl

theorem pushAttr_names {c c' : Node} {x : Attr} (h : pushAttr c x = some c') (hn : (c.attrs.map (·.name)).Nodup) :
    (c'.attrs.map (·.name)).Nodup := by
  unfold pushAttr copyAttr at h
  repeat' split at h
  all_goals first
    | (cases h; done)
    | (cases h; exact hn)
    | (cases h; exact putAttr_names _ _ hn)
    | (cases h; rw [modValue_names]; exact hn)

theorem pushAttrs_names {as : List Attr} {c c' : Node} (h : pushAttrs as c = some c') (hn : (c.attrs.map (·.name)).Nodup) :
    (c'.attrs.map (·.name)).Nodup := by
  induction as generalizing c with
  | nil => cases h; exact hn
  | cons x t ih =>
    simp only [pushAttrs, Option.bind_eq_some_iff] at h
    obtain ⟨c1, h1, h2⟩ := h
    exact ih h2 (pushAttr_names h1 hn)

/-- What holds of the attributes of the group and of the child holds of the new attributes of the child. -/
theorem pushAttr_all {Q : Attr → Prop} (hq : ∀ q, Q ⟨.id .opacity, .number q, true⟩)
    (ht : ∀ y t, y.name = .id .transform → Q y → Q { y with value := .transform t }) {c c' : Node} {x : Attr}
    (h : pushAttr c x = some c') (hc : ∀ y ∈ c.attrs, Q y) (hx : Q x) : ∀ y ∈ c'.attrs, Q y := by
  have hput : ∀ z, Q z → ∀ y ∈ putAttr c.attrs z, Q y := by
    intro z hz y hy
    rcases Node.mem_putAttr hy with rfl | hy
    · exact hz
    · exact hc y hy
  unfold pushAttr copyAttr at h
  repeat' split at h
  all_goals first
    | (cases h; done)
    | (cases h; exact hc)
    | (cases h; exact hput _ hx)
    | (cases h; exact hput _ (by subst_vars; simp_all))
    | skip
  cases h
  intro y hy
  unfold modValue at hy
  simp only [List.mem_map] at hy
  obtain ⟨z, hz, rfl⟩ := hy
  split
  next hzn =>
    have hzt : z.name = .id .transform := by simp_all
    unfold mulInto
    split
    · exact ht z _ hzt (hc z hz)
    · exact hc z hz
  next => exact hc z hz

theorem pushAttrs_all {Q : Attr → Prop} (hq : ∀ q, Q ⟨.id .opacity, .number q, true⟩)
    (ht : ∀ y t, y.name = .id .transform → Q y → Q { y with value := .transform t }) {as : List Attr} {c c' : Node}
    (h : pushAttrs as c = some c') (hc : ∀ y ∈ c.attrs, Q y) (hx : ∀ x ∈ as, Q x) : ∀ y ∈ c'.attrs, Q y := by
  induction as generalizing c with
  | nil => cases h; exact hc
  | cons x t ih =>
    simp only [pushAttrs, Option.bind_eq_some_iff] at h
    obtain ⟨c1, h1, h2⟩ := h
    exact ih h2 (pushAttr_all hq ht h1 hc (hx x (by simp))) (fun y hy => hx y (by simp [hy]))

/-- What is said of the groups around stays true, for a child of a group that takes its place. -/
theorem pushAttrs_around {w : Around} {p : Kind} {g c c' : Node} (hg : g.kind = .elem .g) (hn : (g.attrs.map (·.name)).Nodup)
    (h : pushAttrs g.attrs c = some c') : (w.enter p c').le ((w.enter p g).enter g.kind c) := by
  unfold Around.enter
  rw [(pushAttrs_same h).2.1, if_pos hg]
  split
  · refine ⟨fun ht => ?_, fun a ha => ?_, fun ht => ?_⟩
    · simp only [push_has hn h, Bool.or_eq_true] at ht ⊢
      tauto
    · simp only [List.mem_append, List.mem_filter, push_has hn h, Bool.or_eq_true] at ha ⊢
      tauto
    · simp only [Bool.or_eq_true] at ht ⊢
      tauto
  · exact Around.le_refl _

theorem pushAttrs_ok {u : Nat → Bool} {w : Around} {p : Kind} {g c c' : Node} {kg kc : Forest} (hg : g.kind = .elem .g)
    (ho : NodeOk u p w g kg) (hk : NodeOk u g.kind (w.enter p g) c kc) (h : pushAttrs g.attrs c = some c')
    (hs : p = .elem .switch → kg = .cons c kc .nil) : NodeOk u p w c' kc := by
  have hgo := ho.group hg
  have hkc : Kid g c := Kid.of hg hk
  have e : w.enter p g = ⟨w.transform || g.has .transform, w.conds ++ conds.filter g.has, w.switch || decide (p = .elem .switch)⟩ := by
    unfold Around.enter; rw [if_pos hg]
  obtain ⟨s1, s2, s3⟩ := pushAttrs_same h
  refine ⟨fun hcg => ?_, fun ht => ?_, fun a ha hc => ?_, fun hp => ?_⟩
  · rw [s2] at hcg
    obtain ⟨h1, h2, h3, h4, h5⟩ := hk.group hcg
    refine ⟨hgo.place, pushAttrs_names h h2, pushAttrs_all (Q := fun x => groupAttr x = true) (fun _ => rfl) ?_ h h3 hgo.attrs, fun hp => ?_,
      fun hx => h5 (by rw [← s1]; exact hx)⟩
    · intro y t hy _
      unfold groupAttr
      simp only [hy]
      rfl
    · have := hgo.solid hp
      rw [hs hp] at this
      simpa [solid, hcg] using this
  · rw [s1, s2]
    exact hk.transform (by rw [e]; simp [ht])
  · rw [push_has hgo.names h, ho.cond a ha hc, hk.cond a ha ?_]
    · rfl
    · rw [e]
      exact hc.imp (fun h => List.mem_append_left _ h) (fun h => by simp [h])
  · rw [s2]
    obtain ⟨g1, g2, g3⟩ := ho.inGroup hp
    refine ⟨hkc.chars, pushAttrs_all (Q := fun x => x.value ≠ .kw .inherit) (by simp) (by simp) h hkc.inherit g2, fun v hv => ?_⟩
    have hc := pushAttrs_comb hgo.names h (.id .transform)
    rw [get_eq] at hv
    have t1 := hkc.transform
    rw [get_eq] at g3 t1
    cases h1 : getAttr g.attrs (.id .transform) with
    | none => rw [h1] at hc; rw [show getAttr c'.attrs (.id .transform) = getAttr c.attrs (.id .transform) from hc] at hv; exact t1 v hv
    | some x =>
      rw [h1] at hc g3
      cases h2 : getAttr c.attrs (.id .transform) with
      | none => rw [h2] at hc; rw [show getAttr c'.attrs (.id .transform) = some x from hc] at hv; exact g3 v hv
      | some y =>
        rw [h2] at hc t1
        obtain ⟨t, hxt⟩ := g3 x.value rfl
        obtain ⟨t', hyt⟩ := t1 y.value rfl
        simp only [Comb, hxt, hyt] at hc
        rw [hc] at hv
        exact ⟨_, (Option.some.inj hv).symm⟩

theorem pushAll_fit {u : Nat → Bool} {w : Around} {p : Kind} {g : Node} {kg k k' : Forest} (hg : g.kind = .elem .g)
    (ho : NodeOk u p w g kg) (hk : Fit u g.kind (w.enter p g) k) (h : pushAll g.attrs k = some k')
    (hs : p = .elem .switch → kg = k ∧ ∃ c kc, k = .cons c kc .nil) : Fit u p w k' := by
  induction k generalizing k' with
  | nil => simp only [pushAll, Option.some.injEq] at h; subst h; trivial
  | cons c kc r _ ih =>
    simp only [pushAll, Option.bind_eq_some_iff, Option.map_eq_some_iff] at h
    obtain ⟨c', hc', r', hr, rfl⟩ := h
    have hrest : Fit u p w r' := by
      by_cases hp : p = .elem .switch
      · obtain ⟨_, c0, kc0, h0⟩ := hs hp
        cases h0
        simp only [pushAll, Option.some.injEq] at hr
        subst hr
        trivial
      · exact ih hk.2.2 hr (fun h => absurd h hp)
    refine ⟨pushAttrs_ok hg ho hk.1 hc' (fun hp => ?_), ?_, hrest⟩
    · obtain ⟨h1, c0, kc0, h0⟩ := hs hp
      cases h0
      exact h1
    · rw [(pushAttrs_same hc').2.1]
      exact hk.2.1.weaken (fun _ h => h) (pushAttrs_around hg (ho.group hg).names hc')

theorem NodeOk.kids {u : Nat → Bool} {p : Kind} {w : Around} {n : Node} {k k' : Forest} (h : NodeOk u p w n k)
    (hs : solid k' = solid k) (hl : lasting k' = lasting k) : NodeOk u p w n k' := by
  refine ⟨fun hg => ?_, h.transform, h.cond, h.inGroup⟩
  obtain ⟨h1, h2, h3, h4, h5⟩ := h.group hg
  exact ⟨h1, h2, h3, fun e => by rw [hs]; exact h4 e, fun e => by rw [hl]; exact h5 e⟩

theorem scan_fit {used : Nat → Bool} {p : Node} {w : Around} {k k' : Forest} {x : Nat × Nat} (hf : Fit used p.kind w k)
    (h : scan used p k = some (some (k', x))) : Fit used p.kind w k' := by
  induction k generalizing p w k' x with
  | nil => simp [scan] at h
  | cons n k r ihk ihr =>
    obtain ⟨h1, h2, h3⟩ := hf
    unfold scan at h
    split at h
    next hc =>
      simp only [Bool.and_eq_true] at hc
      simp only [Option.map_eq_some_iff, Option.some.injEq, Prod.mk.injEq] at h
      obtain ⟨k1, hk1, rfl, rfl⟩ := h
      have hg := (Node.isTag_iff _ _).1 hc.1
      refine (pushAll_fit hg h1 h2 hk1 (fun hp => ⟨rfl, ?_⟩)).append h3
      rcases canUngroup_cases hc.2 with ⟨rfl, _⟩ | ⟨_, _, _, _, _, h | h⟩
      · exact absurd ((h1.group hg).solid hp) (by decide)
      · obtain ⟨c, kc, h, _⟩ := h; exact ⟨c, kc, h⟩
      · exact absurd hp h.1
    next =>
      simp only [Option.bind_eq_some_iff] at h
      obtain ⟨o, ho, h⟩ := h
      cases o with
      | some y =>
        simp only [Option.some.injEq, Prod.mk.injEq] at h
        obtain ⟨rfl, rfl⟩ := h
        exact ⟨h1.kids (scan_solid ho).1 (scan_solid ho).2, ihk h2 ho, h3⟩
      | none =>
        simp only [Option.map_eq_some_iff] at h
        obtain ⟨o2, ho2, h⟩ := h
        cases o2 with
        | none => simp at h
        | some y =>
          simp only [Option.some.injEq, Prod.mk.injEq] at h
          obtain ⟨_, rfl, rfl, rfl⟩ := h
          exact ⟨h1, h2, ihr h3 ho2⟩

end Verif.Ungroup
