import Verif.GroupDefsLook
/-
C35: the attributes that the children of masks, patterns and so on get are those that they inherit anyway.
-/
namespace Verif.GroupDefs
open Verif.Dom Verif.Spec Verif.Render
open Verif.ResolveUse (subtree)
open Verif.UnusedDefs (setKids_not_mem kidsOf_subs)

theorem inheritable_inherits {a : AId} (h : a.isInheritable = true) : inherits a = true := by
  cases a <;> first | rfl | (exfalso; revert h; decide)

theorem giveAll_get {as : List Attr} {c c' : Node} (h : giveAll as c = some c') :
    c'.key = c.key ∧ c'.kind = c.kind ∧ ∀ x, getAttr c'.attrs x = (getAttr c.attrs x).or (getAttr as x) := by
  induction as generalizing c with
  | nil => cases h; exact ⟨rfl, rfl, fun x => by simp [getAttr]⟩
  | cons y t ih =>
    obtain ⟨c1, h1, h2⟩ := Option.bind_eq_some_iff.1 h
    obtain ⟨k, kk, ha⟩ := ih h2
    have hyt : ∀ x, getAttr (y :: t) x = (getAttr [y] x).or (getAttr t x) := fun x => getAttr_append [y] t x
    unfold give at h1
    split at h1
    next hs =>
      cases h1
      refine ⟨k, kk, fun x => ?_⟩
      rw [ha x, hyt]
      by_cases hx : y.name = x
      · subst hx
        obtain ⟨z, hz⟩ := Option.isSome_iff_exists.1 hs
        rw [hz]; rfl
      · have : getAttr [y] x = none := by simp [getAttr, hx]
        rw [this, Option.none_or]
    next hs =>
      have hs : getAttr c.attrs y.name = none := by simpa using hs
      unfold Ungroup.copyAttr at h1
      split at h1
      · cases h1
      · cases h1
        refine ⟨k, kk, fun x => ?_⟩
        rw [ha x, hyt, putAttr_new hs, getAttr_append, Option.or_assoc]

/-- The list gives nothing that is not inherited anyway. -/
def Fits (st : AId → Option Value) (as : List Attr) : Prop :=
  (∀ x ∈ as, inheritable x = true) ∧ ∀ a x, getAttr as (.id a) = some x → x.value = .kw .inherit ∨ st a = some x.value

theorem fits_nil (st : AId → Option Value) : Fits st [] := ⟨fun _ h => (by cases h), fun _ _ h => (by cases h)⟩

theorem getAttr_mem {as : List Attr} {x : AName} {y : Attr} (h : getAttr as x = some y) : y ∈ as ∧ y.name = x :=
  ⟨List.mem_of_find?_eq_some h, by simpa using List.find?_some h⟩

theorem fits_cons {st : AId → Option Value} {as : List Attr} (h : Fits st as) (n : Node) : Fits (into st n) (n.attrs.filter inheritable ++ as) := by
  refine ⟨fun x hx => ?_, fun a x hx => ?_⟩
  · rcases List.mem_append.1 hx with hx | hx
    · exact (List.mem_filter.1 hx).2
    · exact h.1 x hx
  · have hin : inheritable x = true := by
      rcases List.mem_append.1 (getAttr_mem hx).1 with hx | hx
      · exact (List.mem_filter.1 hx).2
      · exact h.1 x hx
    have hxn := (getAttr_mem hx).2
    have hi : a.isInheritable = true := by unfold inheritable at hin; rw [hxn] at hin; exact hin
    have hf : getAttr (n.attrs.filter inheritable) (.id a) = getAttr n.attrs (.id a) :=
      getAttr_filter (fun y _ hy => by unfold inheritable; rw [hy]; exact hi)
    rw [getAttr_append, hf] at hx
    have hst : into st n a = match n.get a with
      | none => st a
      | some v => if v = .kw .inherit then st a else some v := by
      unfold into Ctx.enter
      dsimp only
      rw [if_pos (inheritable_inherits hi)]
      cases n.get a <;> rfl
    rw [hst]
    cases hg : getAttr n.attrs (.id a) with
    | none =>
      have : n.get a = none := by unfold Node.get; rw [hg]; rfl
      rw [hg, Option.none_or] at hx
      rw [this]
      exact h.2 a x hx
    | some w =>
      rw [hg] at hx
      cases hx
      have : n.get a = some x.value := by unfold Node.get; rw [hg]; rfl
      rw [this]
      dsimp only
      by_cases hv : x.value = .kw .inherit
      · exact .inl hv
      · rw [if_neg hv]; exact .inr rfl

theorem fits_chain (l : List Node) : Fits (styleOf l) (l.flatMap fun p => p.attrs.filter inheritable) := by
  induction l with
  | nil => exact fits_nil _
  | cons n t ih => rw [List.flatMap_cons, styleOf]; exact fits_cons ih n

section
variable {P : Type} {π : Painter P} {st : AId → Option Value} {as : List Attr} (hf : Fits st as) {m m' : Node} (hm : giveAll as m = some m')
include hf hm

theorem given_other {x : AName} (hx : ∀ a, x = .id a → inherits a = false) : getAttr m'.attrs x = getAttr m.attrs x := by
  rw [(giveAll_get hm).2.2]
  cases h : getAttr as x with
  | none => simp
  | some y =>
    exfalso
    obtain ⟨hy, hn⟩ := getAttr_mem h
    have := hf.1 y hy
    unfold inheritable at this
    rw [hn] at this
    cases x with
    | name s => cases this
    | id a =>
      have h2 := hx a rfl
      rw [inheritable_inherits this] at h2
      cases h2

theorem given_get {a : AId} (ha : inherits a = false) : m'.get a = m.get a := by
  unfold Node.get
  rw [given_other hf hm (fun b hb => by cases hb; exact ha)]

theorem given_enter {c : Ctx} (hc : c.style = st) : c.enter m' = c.enter m := by
  obtain ⟨-, hk, hg⟩ := giveAll_get hm
  unfold Ctx.enter nodeTransform
  rw [given_get hf hm (a := .transform) rfl, hk]
  congr 1
  funext a
  by_cases ha : inherits a = true
  · rw [if_pos ha, if_pos ha]
    have h1 : m'.get a = ((getAttr m.attrs (.id a)).or (getAttr as (.id a))).map (·.value) := by
      unfold Node.get; rw [hg]
    have h2 : m.get a = (getAttr m.attrs (.id a)).map (·.value) := rfl
    rw [h1, h2]
    cases getAttr m.attrs (.id a) with
    | some w => rfl
    | none =>
      rw [Option.none_or]
      cases hx : getAttr as (.id a) with
      | none => rfl
      | some x =>
        simp only [Option.map_some, Option.map_none]
        rcases hf.2 a x hx with h | h
        · rw [if_pos h]
        · by_cases hi : x.value = .kw .inherit
          · rw [if_pos hi]
          · rw [if_neg hi, ← h, hc]
  · rw [if_neg ha, if_neg ha]

theorem given_into : into st m' = into st m := by
  have := given_enter hf hm (c := ⟨st, one⟩) rfl
  unfold into
  rw [this]

theorem given_allowed : allowed π m' = allowed π m := by
  unfold allowed holds
  rw [given_get hf hm (a := .requiredFeatures) rfl, given_get hf hm (a := .requiredExtensions) rfl, given_get hf hm (a := .systemLanguage) rfl]

theorem given_body (hno : ∀ t, m.kind ≠ .other t) {c : Ctx} (hc : c.style = st) (env : Env P) (via : Attrs P) (kids : List (Pic P)) :
    body π env via c m' kids = body π env via c m kids := by
  have hk := (giveAll_get hm).2.1
  cases h : m.kind with
  | elem e =>
    rw [body_elem h, body_elem (hk.trans h), given_allowed hf hm]
    have h1 : hiddenBy m' = hiddenBy m := by unfold hiddenBy; rw [given_get hf hm (a := .display) rfl]
    have h2 : opacityOf m' = opacityOf m := by unfold opacityOf; rw [given_get hf hm (a := .opacity) rfl]
    rw [h1, h2, inner_eq (n := m) (n' := m') ?_ ?_ (given_enter hf hm hc)]
    · intro b hb
      refine given_other hf hm (fun a e => ?_)
      subst e
      simp only [isOwn, Bool.and_eq_true, Bool.not_eq_true'] at hb
      exact hb.1.1
    · intro a ha
      refine given_get hf hm ?_
      simp only [List.mem_cons, List.not_mem_nil, or_false] at ha
      rcases ha with rfl | rfl | rfl <;> rfl
  | text s => unfold body; rw [h, hk, h]
  | comment s => unfold body; rw [h, hk, h]
  | other t => exact absurd h (hno t)
end

theorem giveKids_pics {P : Type} {π : Painter P} {st : AId → Option Value} {as : List Attr} (hf : Fits st as) {c c' : Forest}
    (h : giveKids as c = some c') (hno : ∀ m ∈ c.top, ∀ t, m.kind ≠ .other t) {x : Ctx} (hx : x.style = st) (env : Env P) :
    pics π env x c' = pics π env x c := by
  induction c generalizing c' with
  | nil => cases h; rfl
  | cons m k r _ ihr =>
    obtain ⟨m', h1, h⟩ := Option.bind_eq_some_iff.1 h
    obtain ⟨r', h2, rfl⟩ := Option.map_eq_some_iff.1 h
    simp only [pics, draw]
    rw [ihr h2 (fun q hq => hno q (by simp [Forest.top, hq])), given_enter hf h1 hx, given_allowed hf h1, (giveAll_get h1).2.1,
      given_body hf h1 (hno m (by simp [Forest.top])) hx]

theorem giveKids_keys {as : List Attr} {c c' : Forest} (h : giveKids as c = some c') : c'.keys = c.keys := by
  induction c generalizing c' with
  | nil => cases h; rfl
  | cons m k r _ ihr =>
    obtain ⟨m', h1, h⟩ := Option.bind_eq_some_iff.1 h
    obtain ⟨r', h2, rfl⟩ := Option.map_eq_some_iff.1 h
    rw [Forest.keys_cons, Forest.keys_cons, ihr h2, (giveAll_get h1).1]

theorem giveKids_locate {as : List Attr} {c c' : Forest} (h : giveKids as c = some c') {x : Nat} {A : List Node} {z : List Node × Node × Forest}
    (hz : locate x A c = some z) :
    (∃ m', giveAll as z.2.1 = some m' ∧ z.1 = A ∧ z.2.1 ∈ c.top ∧ locate x A c' = some (A, m', z.2.2)) ∨
    ∃ inner m m', giveAll as m = some m' ∧ z.1 = inner ++ m :: A ∧ locate x A c' = some (inner ++ m' :: A, z.2) := by
  induction c generalizing c' with
  | nil => cases hz
  | cons m k r _ ihr =>
    obtain ⟨m', h1, h⟩ := Option.bind_eq_some_iff.1 h
    obtain ⟨r', h2, rfl⟩ := Option.map_eq_some_iff.1 h
    simp only [locate] at hz ⊢
    rw [(giveAll_get h1).1]
    split at hz
    next hn =>
      cases hz
      rw [if_pos hn]
      exact .inl ⟨m', h1, rfl, by simp [Forest.top], rfl⟩
    next hn =>
      rw [if_neg hn]
      cases hk : locate x (m :: A) k with
      | some w =>
        rw [hk] at hz
        cases hz
        rw [locate_acc] at hk
        obtain ⟨v, hv, e⟩ := Option.map_eq_some_iff.1 hk
        refine .inr ⟨v.1, m, m', h1, by rw [← e], ?_⟩
        rw [locate_acc, hv, ← e]
        rfl
      | none =>
        rw [hk, Option.none_or] at hz
        have : locate x (m' :: A) k = none := by
          rw [locate_acc, Option.map_eq_none_iff] at hk
          rw [locate_acc, hk]; rfl
        rw [this, Option.none_or]
        rcases ihr h2 hz with ⟨q, a, b, c, d⟩ | h
        · exact .inl ⟨q, a, b, by simp [Forest.top, c], d⟩
        · exact .inr h

end Verif.GroupDefs
