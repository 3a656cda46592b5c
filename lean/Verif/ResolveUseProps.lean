import Verif.ResolveUse
import Verif.RenderDepth
import Verif.GroupStyleLook
/-
Property C39: replacing `use` elements keeps the picture.  Here: one `use` element; `ResolveUseLook.lean` has the theorems.
-/
namespace Verif.ResolveUse
open Verif.Dom Verif.Spec Verif.Render
open Verif.Paths (Transform)
open Verif.ApplyTs (append SameBut)
open Verif.Ungroup (conds getAttr_none getAttr_cons putAttr_names not_isRef nodeTransform_none ctx_ext)

/-! ### When a `use` element can be replaced -/

/-- Every node with its parent (key and kind) and its children. -/
def placed (p : Option (Nat × Kind)) : Forest → List (Option (Nat × Kind) × Node × Forest)
  | .nil => []
  | .cons n k r => (p, n, k) :: (placed (some (n.key, n.kind)) k ++ placed p r)

/-- The attributes of a `use` element that are not copied. -/
def spent : List AName := [.id .xlinkHref, .id .x, .id .y]

/-- The `use` element `n`, whose parent is a `p`, can be replaced with the element `l`. -/
structure Fits (n l : Node) (p : Kind) : Prop where
  /-- `l` is drawn where it stands. -/
  drawn : isElem l.kind = true ∧ neverRendered l.kind = false
  /-- The parent shows its children one on top of the other, or is a `switch` element or a clip path. -/
  place : groupPlace p = true
  /-- Groups have no effect in clip paths. -/
  clip : p = .elem .clipPath → clipKind l.kind = true
  /-- `n` has no attributes but inherited properties, `xlink:href`, `x`, `y`, `transform`, `opacity`, `display`, conditions and effects. -/
  plain : ∀ x ∈ n.attrs, isOwn x.name = true → x.name ∈ spent
  /-- `n` and `l` have no common attributes. -/
  apart : ∀ x ∈ n.attrs, x.name ∉ spent → getAttr l.attrs x.name = none
  /-- `x` and `y` are in user units. -/
  units : ∀ a q, a = .x ∨ a = .y → n.get a = some (.length q) → q.unit = .none
  /-- Only one of them is moved, and if it is `n`, then a transform has an effect on `l`. -/
  moves : n.has .transform = true ∨ n.has .x = true ∨ n.has .y = true → takesTransform l.kind = true ∧ l.has .transform = false
  /-- `l` has no conditions. -/
  conds : ∀ a ∈ conds, l.has a = false
  /-- If `n` has a mask, clip path or filter, then there is nothing between it and the content of `l`. -/
  effects : (∃ a ∈ [AId.mask, .clipPath, .filter], n.has a = true) → n.has .x = false ∧ n.has .y = false ∧
    ∀ a ∈ [AId.transform, .opacity, .display, .mask, .clipPath, .filter], l.has a = false

/-! ### Attributes -/

theorem copyAttrs_same (l : Node) (as : List Attr) : (copyAttrs l as).key = l.key ∧ (copyAttrs l as).kind = l.kind := by
  unfold copyAttrs
  induction as generalizing l with
  | nil => exact ⟨rfl, rfl⟩
  | cons x t ih => exact ih _

theorem getAttr_copy {as : List Attr} (hn : (as.map (·.name)).Nodup) (l : Node) (b : AName) :
    getAttr (copyAttrs l as).attrs b = (getAttr as b).or (getAttr l.attrs b) := by
  unfold copyAttrs
  induction as generalizing l with
  | nil => rfl
  | cons x t ih =>
    simp only [List.map_cons, List.nodup_cons] at hn
    rw [List.foldl_cons, ih hn.2, getAttr_put, getAttr_cons]
    by_cases h : x.name = b
    · subst h
      rw [getAttr_none hn.1]
      simp
    · simp [h, Ne.symm h]

theorem copyAttrs_names {l : Node} (as : List Attr) (hl : (l.attrs.map (·.name)).Nodup) :
    ((copyAttrs l as).attrs.map (·.name)).Nodup := by
  unfold copyAttrs
  induction as generalizing l with
  | nil => exact hl
  | cons x t ih => exact ih (l := { l with attrs := putAttr l.attrs x }) (putAttr_names _ _ hl)

theorem copyAttrs_mem {l : Node} {as : List Attr} {x : Attr} (h : x ∈ (copyAttrs l as).attrs) : x ∈ as ∨ x ∈ l.attrs := by
  unfold copyAttrs at h
  induction as generalizing l with
  | nil => exact Or.inr h
  | cons y t ih =>
    rcases ih h with h | h
    · exact Or.inl (List.mem_cons_of_mem _ h)
    · rcases Node.mem_putAttr h with rfl | h
      · exact Or.inl (by simp)
      · exact Or.inr h

theorem rm_names {n : Node} (h : (n.attrs.map (·.name)).Nodup) (a : AId) : ((n.rm a).attrs.map (·.name)).Nodup :=
  List.Nodup.sublist (List.Sublist.map _ List.filter_sublist) h

theorem set_names {n : Node} (h : (n.attrs.map (·.name)).Nodup) (a : AId) (v : Value) : ((n.set a v).attrs.map (·.name)).Nodup :=
  putAttr_names _ _ h

/-- What is left of the `use` element. -/
structure Shifted (π : Painter P) (n n' : Node) : Prop where
  names : (n'.attrs.map (·.name)).Nodup
  keep : ∀ b, b ≠ .id .transform → getAttr n'.attrs b = if b ∈ spent then none else getAttr n.attrs b
  ts : nodeTransform n' = mul (nodeTransform n) ⟨1, 0, 0, 1, offset π n .x, offset π n .y⟩
  hasTs : n'.has .transform = (n.has .transform || n.has .x || n.has .y)
  links : ∀ k ∈ n'.links, k ∈ (n.rm .xlinkHref).links

theorem mul_one_right (s : Transform) : mul s one = s := by
  cases s; simp [mul, one]

theorem tsOr_eq (n : Node) : tsOr n = nodeTransform n := rfl

theorem getAttr_of_has {n : Node} {a : AId} (h : n.has a = false) : getAttr n.attrs (.id a) = none := by
  unfold Node.has at h
  cases hx : getAttr n.attrs (.id a) with
  | none => rfl
  | some y => rw [hx] at h; cases h

theorem offset_none {P : Type} {π : Painter P} {n : Node} {a : AId} (h : n.has a = false) : offset π n a = 0 := by
  unfold offset Node.get
  rw [getAttr_of_has h]
  rfl

theorem offset_len {P : Type} (π : Painter P) {n : Node} {a : AId} (hu : ∀ q, n.get a = some (.length q) → q.unit = .none) :
    offset π n a = (lenOr n a).num ∧ (lenOr n a).unit = .none := by
  unfold offset lenOr
  cases hg : n.get a with
  | none => exact ⟨rfl, rfl⟩
  | some v =>
    cases v <;> try exact ⟨rfl, rfl⟩
    next l =>
      have := hu l hg
      cases l
      simp only at this
      subst this
      exact ⟨π.measure_user _, rfl⟩

theorem shifted_some {n : Node} (hn : (n.attrs.map (·.name)).Nodup)
    (hu : ∀ a q, a = .x ∨ a = .y → n.get a = some (.length q) → q.unit = .none) :
    ∃ n', shifted n = some n' ∧ n'.key = n.key ∧ ∀ {P : Type} (π : Painter P), Shifted π n n' := by
  unfold shifted
  have g1 : (n.rm .xlinkHref).get .x = n.get .x := by simp
  have g2 : (n.rm .xlinkHref).get .y = n.get .y := by simp
  have g3 : (n.rm .xlinkHref).get .transform = n.get .transform := by simp
  have hx : (n.rm .xlinkHref).has .x = n.has .x := by simp
  have hy : (n.rm .xlinkHref).has .y = n.has .y := by simp
  have l1 : lenOr (n.rm .xlinkHref) .x = lenOr n .x := by unfold lenOr; rw [g1]
  have l2 : lenOr (n.rm .xlinkHref) .y = lenOr n .y := by unfold lenOr; rw [g2]
  have t1 : tsOr (n.rm .xlinkHref) = nodeTransform n := by unfold tsOr nodeTransform; rw [g3]; rfl
  simp only [hx, hy, l1, l2, t1]
  cases hxy : n.has .x || n.has .y with
  | true =>
    have u1 : (lenOr n .x).unit = .none := by
      unfold lenOr; split
      next l hl => exact hu .x l (Or.inl rfl) hl
      next => rfl
    have u2 : (lenOr n .y).unit = .none := by
      unfold lenOr; split
      next l hl => exact hu .y l (Or.inr rfl) hl
      next => rfl
    simp only [if_true, u1, u2, decide_true, Bool.and_self, Bool.not_true, Bool.false_eq_true, if_false]
    refine ⟨_, rfl, rfl, fun π => ⟨?_, fun b hb => ?_, ?_, ?_, fun k hk => ?_⟩⟩
    · exact rm_names (rm_names (set_names (rm_names hn _) _ _) _) _
    · simp only [Node.rm, Node.set, getAttr_rm, getAttr_put, spent, List.mem_cons, List.not_mem_nil, or_false]
      by_cases h1 : b = .id .y <;> by_cases h2 : b = .id .x <;> by_cases h3 : b = .id .xlinkHref <;> simp_all
    · have : ∀ t, nodeTransform (((n.rm .xlinkHref).set .transform (.transform t)).rm .x |>.rm .y) = t := by
        intro t; unfold nodeTransform; simp
      rw [this, (offset_len π (fun q => hu .x q (Or.inl rfl))).1, (offset_len π (fun q => hu .y q (Or.inr rfl))).1]
      rfl
    · rw [Bool.or_assoc, hxy]; simp
    · exact Ungroup.links_set_plain (v := .transform _) rfl (Node.links_rm_subset _ _ (Node.links_rm_subset _ _ hk))
  | false =>
    obtain ⟨hx0, hy0⟩ := Bool.or_eq_false_iff.1 hxy
    simp only [Bool.false_eq_true, if_false]
    refine ⟨_, rfl, rfl, fun π => ⟨rm_names hn _, fun b hb => ?_, ?_, ?_, fun k hk => hk⟩⟩
    · simp only [Node.rm, getAttr_rm, spent, List.mem_cons, List.not_mem_nil, or_false]
      by_cases h3 : b = .id .xlinkHref
      · simp [h3]
      · by_cases h1 : b = .id .x
        · subst h1; simp [getAttr_of_has hx0]
        · by_cases h2 : b = .id .y
          · subst h2; simp [getAttr_of_has hy0]
          · simp [h1, h2, h3]
    · rw [offset_none hx0, offset_none hy0]
      have h1 : nodeTransform (n.rm .xlinkHref) = nodeTransform n := by unfold nodeTransform; rw [g3]
      rw [h1]
      exact (mul_one_right _).symm
    · rw [Bool.or_assoc, hxy]; simp

/-! ### The picture of one `use` element -/

section
variable {P : Type} {π : Painter P} {n n' l : Node} {p : Kind}

theorem Fits.lacks (h : Fits n l p) {a : AName} (ha : a ∉ spent) {x : Attr} (hx : getAttr n.attrs a = some x) : getAttr l.attrs a = none := by
  have := h.apart x (getAttr_mem hx)
  rw [getAttr_name hx] at this
  exact this ha

theorem copy_get (hs : Shifted π n n') {a : AName} (ha : a ∉ spent) (ht : a ≠ .id .transform) :
    getAttr (copyAttrs l n'.attrs).attrs a = (getAttr n.attrs a).or (getAttr l.attrs a) := by
  rw [getAttr_copy hs.names, hs.keep a ht, if_neg ha]

theorem copy_spent (hs : Shifted π n n') {a : AName} (ha : a ∈ spent) : getAttr (copyAttrs l n'.attrs).attrs a = getAttr l.attrs a := by
  rw [getAttr_copy hs.names, hs.keep a (by rintro rfl; revert ha; decide), if_pos ha]
  rfl

theorem copy_own (h : Fits n l p) (hs : Shifted π n n') {b : AName} (hb : isOwn b = true) :
    getAttr (copyAttrs l n'.attrs).attrs b = getAttr l.attrs b := by
  by_cases hb' : b ∈ spent
  · exact copy_spent hs hb'
  · rw [copy_get hs hb' (by rintro rfl; revert hb; decide)]
    cases hx : getAttr n.attrs b with
    | none => rfl
    | some x =>
      exfalso
      have := h.plain x (getAttr_mem hx)
      rw [getAttr_name hx] at this
      exact hb' (this hb)

theorem copy_attr (hs : Shifted π n n') {a : AId} (ha : AName.id a ∉ spent) (ht : a ≠ .transform) :
    (copyAttrs l n'.attrs).get a = (n.get a).or (l.get a) := by
  unfold Node.get
  rw [copy_get hs ha (by simpa using ht)]
  cases getAttr n.attrs (.id a) <;> rfl

theorem get_none {m : Node} {a : AId} (h : m.has a = false) : m.get a = none := by
  unfold Node.get
  rw [getAttr_of_has h]
  rfl

theorem Fits.get_none (h : Fits n l p) {a : AId} (ha : AName.id a ∉ spent) (hn : n.has a = true) : l.get a = none := by
  unfold Node.has at hn
  cases hx : getAttr n.attrs (.id a) with
  | none => rw [hx] at hn; cases hn
  | some x =>
    unfold Node.get
    rw [h.lacks ha hx]
    rfl

theorem copy_transform (h : Fits n l p) (hs : Shifted π n n') :
    nodeTransform (copyAttrs l n'.attrs) =
      if n.has .transform || n.has .x || n.has .y then mul (nodeTransform n) ⟨1, 0, 0, 1, offset π n .x, offset π n .y⟩
      else nodeTransform l := by
  have hg : (copyAttrs l n'.attrs).get .transform = (n'.get .transform).or (l.get .transform) := by
    unfold Node.get
    rw [getAttr_copy hs.names]
    cases getAttr n'.attrs (.id .transform) <;> rfl
  rw [← hs.hasTs]
  cases ht : n'.has .transform with
  | false =>
    rw [get_none ht] at hg
    simp only [Bool.false_eq_true, if_false]
    unfold nodeTransform
    rw [hg]
    rfl
  | true =>
    rw [if_pos rfl, ← hs.ts]
    unfold nodeTransform
    rw [Node.has_eq] at ht
    cases hx : n'.get .transform with
    | none => rw [hx] at ht; cases ht
    | some v => rw [hx] at hg; rw [hg]; rfl

theorem mul_assoc (a b c : Transform) : mul (mul a b) c = mul a (mul b c) := by
  simp only [mul, Transform.mk.injEq]
  refine ⟨?_, ?_, ?_, ?_, ?_, ?_⟩ <;> ring

theorem inherits_spent {a : AId} (h : inherits a = true) : AName.id a ∉ spent := by
  intro e
  simp only [spent, List.mem_cons, List.not_mem_nil, or_false, AName.id.injEq] at e
  rcases e with rfl | rfl | rfl <;> cases h

theorem effect_spent {a : AId} (h : a ∈ [AId.mask, .clipPath, .filter]) : AName.id a ∉ spent := by
  revert h; revert a; decide

/-- The context of the children of the element, as shown by the `use` element and in its place. -/
theorem copy_enter (hk : n.kind = .elem .use) (h : Fits n l p) (hs : Shifted π n n') (c : Ctx) :
    c.enter (copyAttrs l n'.attrs) =
      Ctx.enter ⟨(c.enter n).style, mul (c.enter n).ctm ⟨1, 0, 0, 1, offset π n .x, offset π n .y⟩⟩ l := by
  refine ctx_ext ?_ ?_
  · funext a
    simp only [Ctx.enter]
    by_cases ha : inherits a = true
    · simp only [ha, if_true]
      rw [copy_attr hs (inherits_spent ha)
        (by rintro rfl; revert ha; decide)]
      cases hn : n.get a with
      | none => rfl
      | some v =>
        rw [h.get_none (inherits_spent ha)
          (by rw [Node.has_eq, hn]; rfl)]
        rfl
    · simp only [ha, if_false]
      rfl
  · have h1 : takesTransform n.kind = true := by rw [hk]; rfl
    simp only [Ctx.enter, h1, if_true, (copyAttrs_same l n'.attrs).2]
    rw [copy_transform h hs]
    cases hm : n.has .transform || n.has .x || n.has .y with
    | true =>
      have hm' : n.has .transform = true ∨ n.has .x = true ∨ n.has .y = true := by
        revert hm; cases n.has .transform <;> cases n.has .x <;> cases n.has .y <;> simp
      obtain ⟨a, b⟩ := h.moves hm'
      simp only [a, if_true]
      rw [nodeTransform_none b, mul_one_right, mul_assoc]
    | false =>
      simp only [Bool.or_eq_false_iff] at hm
      rw [nodeTransform_none hm.1.1, offset_none hm.1.2, offset_none hm.2]
      have : (⟨1, 0, 0, 1, 0, 0⟩ : Transform) = one := rfl
      rw [this, mul_one_right, mul_one_right]
      simp [mul_one_right]

theorem copy_has (hs : Shifted π n n') {a : AId} (ha : AName.id a ∉ spent) (ht : a ≠ .transform) :
    (copyAttrs l n'.attrs).has a = (n.has a || l.has a) := by
  rw [Node.has_eq, copy_attr hs ha ht, Node.has_eq, Node.has_eq]
  cases n.get a <;> cases l.get a <;> rfl

theorem copy_allowed (h : Fits n l p) (hs : Shifted π n n') : allowed π (copyAttrs l n'.attrs) = allowed π n := by
  have hh : ∀ a ∈ Ungroup.conds, holds π (copyAttrs l n'.attrs) a = holds π n a := by
    intro a ha
    unfold holds
    rw [copy_attr hs (by revert ha; revert a; decide) (by rintro rfl; revert ha; decide), get_none (h.conds a ha)]
    cases n.get a <;> rfl
  unfold allowed
  rw [hh _ (by decide), hh _ (by decide), hh _ (by decide)]

theorem allowed_link (h : Fits n l p) : allowed π l = true := by
  have hh : ∀ a ∈ Ungroup.conds, holds π l a = true := by
    intro a ha
    unfold holds
    rw [get_none (h.conds a ha)]
  unfold allowed
  rw [hh _ (by decide), hh _ (by decide), hh _ (by decide)]
  rfl

theorem copy_hidden (h : Fits n l p) (hs : Shifted π n n') : hiddenBy (copyAttrs l n'.attrs) = (hiddenBy n || hiddenBy l) := by
  unfold hiddenBy
  rw [copy_attr hs (by decide) (by decide)]
  cases hn : n.get .display with
  | none => rw [Option.none_or]; simp
  | some v => rw [h.get_none (a := .display) (by decide) (by rw [Node.has_eq, hn]; rfl)]; simp

theorem copy_opacity (h : Fits n l p) (hs : Shifted π n n') : opacityOf (copyAttrs l n'.attrs) = opacityOf n * opacityOf l := by
  unfold opacityOf
  rw [copy_attr hs (by decide) (by decide)]
  cases hn : n.get .opacity with
  | none => rw [Option.none_or, one_mul]
  | some v =>
    rw [h.get_none (a := .opacity) (by decide) (by rw [Node.has_eq, hn]; rfl)]
    simp

theorem copy_core (hk : n.kind = .elem .use) (h : Fits n l p) (hs : Shifted π n n') (env : Env P) (via : Attrs P)
    (hvia : via = noVia) (c : Ctx) (e : EId) (kids : List (Pic P)) :
    core π env noVia (c.enter (copyAttrs l n'.attrs)) (copyAttrs l n'.attrs) e kids =
      core π env via (Ctx.enter ⟨(c.enter n).style, mul (c.enter n).ctm ⟨1, 0, 0, 1, offset π n .x, offset π n .y⟩⟩ l) l e kids := by
  have h1 : own env (copyAttrs l n'.attrs) = own env l := by
    funext x
    unfold own
    split
    next hx => rw [copy_own h hs hx]
    next => rfl
  have hg : ∀ a, isOwn (.id a) = true → (copyAttrs l n'.attrs).get a = l.get a := fun a ha => by unfold Node.get; rw [copy_own h hs ha]
  rw [copy_enter hk h hs, hvia]
  unfold core useOf viaOf offset
  rw [h1, hg .xlinkHref (by decide), hg .x (by decide), hg .y (by decide)]

theorem via_none (h : Fits n l p) (env : Env P) : viaOf env n = noVia := by
  funext x
  unfold viaOf noVia
  split
  next hx =>
    unfold own
    have : getAttr n.attrs x = none := by
      cases hy : getAttr n.attrs x with
      | none => rfl
      | some y =>
        exfalso
        have := h.plain y (getAttr_mem hy)
        rw [getAttr_name hy] at this
        rcases hx with rfl | rfl
        · exact absurd (this (by decide)) (by decide)
        · exact absurd (this (by decide)) (by decide)
    rw [this]
    simp
  next => rfl

/-- **A `use` element looks like the element that takes its place.** -/
theorem use_pic {lk : Forest} (hk : n.kind = .elem .use) (href : n.get .xlinkHref = some (.link l.key)) (h : Fits n l p) (hs : Shifted π n n')
    (env : Env P) (hE : ∀ c via, env.inst l.key c via = body π env via c l (pics π env (c.enter l) lk)) (c : Ctx) (kids : List (Pic P)) :
    draw π env c n kids = draw π env c (copyAttrs l n'.attrs) (pics π env (c.enter (copyAttrs l n'.attrs)) lk) := by
  obtain ⟨e, he⟩ : ∃ e, l.kind = .elem e := by
    have := h.drawn.1
    cases hl : l.kind with
    | elem e => exact ⟨e, rfl⟩
    | text s => rw [hl] at this; cases this
    | comment s => rw [hl] at this; cases this
    | other s => rw [hl] at this; cases this
  have hnr : neverRendered (.elem e) = false := by rw [← he]; exact h.drawn.2
  have hk' : (copyAttrs l n'.attrs).kind = .elem e := by rw [(copyAttrs_same l n'.attrs).2, he]
  unfold draw
  rw [hk, hk', hnr]
  have hu : neverRendered (.elem .use) = false := by decide
  rw [hu]
  simp only [Bool.false_eq_true, if_false]
  rw [body_elem hk, body_elem hk', hu, hnr]
  simp only [Bool.false_and, Bool.false_eq_true, if_false]
  rw [copy_hidden h hs, copy_allowed h hs, copy_opacity h hs]
  -- what the `use` element shows
  have hcore : core π env noVia (c.enter n) n .use kids =
      body π env noVia ⟨(c.enter n).style, mul (c.enter n).ctm ⟨1, 0, 0, 1, offset π n .x, offset π n .y⟩⟩ l
        (pics π env (Ctx.enter ⟨(c.enter n).style, mul (c.enter n).ctm ⟨1, 0, 0, 1, offset π n .x, offset π n .y⟩⟩ l) lk) := by
    have : core π env noVia (c.enter n) n .use kids = useOf π env (c.enter n) n := by unfold core; simp
    rw [this]
    unfold useOf
    rw [href]
    simp only
    rw [hE, via_none h]
  by_cases hb : (hiddenBy n || !allowed π n) = true
  · have : (hiddenBy n || hiddenBy l || !allowed π n) = true := by
      revert hb; cases hiddenBy n <;> cases hiddenBy l <;> simp
    rw [if_pos hb, if_pos this]
  have hb' : hiddenBy n = false ∧ allowed π n = true := by
    revert hb; cases hiddenBy n <;> cases allowed π n <;> simp
  rw [if_neg hb, hb'.1, hb'.2]
  simp only [Bool.false_or, Bool.not_true, Bool.or_false]
  unfold inner
  rw [hcore, body_elem he, hnr, allowed_link h]
  simp only [Bool.false_and, Bool.false_eq_true, if_false, Bool.not_true, Bool.or_false]
  unfold inner
  rw [copy_core hk h hs env noVia rfl, copy_enter hk h hs]
  have hseen : ∀ a ∈ [AId.mask, .clipPath, .filter], n.has a = false → seenAttr env (copyAttrs l n'.attrs) a = seenAttr env l a := by
    intro a ha hn
    unfold seenAttr
    rw [copy_attr hs (effect_spent ha) (by rintro rfl; revert ha; decide), get_none hn]
    rfl
  by_cases hef : ∃ a ∈ [AId.mask, .clipPath, .filter], n.has a = true
  · obtain ⟨hx, hy, hl⟩ := h.effects hef
    have hseen' : ∀ a ∈ [AId.mask, .clipPath, .filter], seenAttr env (copyAttrs l n'.attrs) a = seenAttr env n a := by
      intro a ha
      unfold seenAttr
      rw [copy_attr hs (by revert ha; revert a; decide) (by rintro rfl; revert ha; decide), get_none (m := l) (hl a (by revert ha; revert a; decide))]
      cases n.get a <;> rfl
    have hh : hiddenBy l = false := by unfold hiddenBy; rw [get_none (hl .display (by decide))]; rfl
    have ho : opacityOf l = 1 := by unfold opacityOf; rw [get_none (hl .opacity (by decide))]
    rw [hh, ho, hseen' _ (by decide), hseen' _ (by decide), hseen' _ (by decide), mul_one,
      π.no_effect (seenAttr env l .mask) _ _ _ _ (not_isRef (hl .mask (by decide))) (not_isRef (hl .clipPath (by decide)))
        (not_isRef (hl .filter (by decide))), π.fade_one]
    simp only [Bool.false_eq_true, if_false]
    have hctm : (Ctx.enter ⟨(c.enter n).style, mul (c.enter n).ctm ⟨1, 0, 0, 1, offset π n .x, offset π n .y⟩⟩ l).ctm = (c.enter n).ctm := by
      rw [offset_none hx, offset_none hy]
      have h1 : (⟨1, 0, 0, 1, 0, 0⟩ : Transform) = one := rfl
      rw [h1, mul_one_right]
      simp only [Ctx.enter]
      rw [nodeTransform_none (hl .transform (by decide)), mul_one_right]
      simp
    rw [hctm]
  · have hn : ∀ a ∈ [AId.mask, .clipPath, .filter], n.has a = false := by
      intro a ha
      cases hx : n.has a with
      | false => rfl
      | true => exact absurd ⟨a, ha, hx⟩ hef
    rw [hseen _ (by decide) (hn _ (by decide)), hseen _ (by decide) (hn _ (by decide)), hseen _ (by decide) (hn _ (by decide)),
      π.no_effect (seenAttr env n .mask) _ _ _ _ (not_isRef (hn .mask (by decide))) (not_isRef (hn .clipPath (by decide)))
        (not_isRef (hn .filter (by decide)))]
    cases hiddenBy l with
    | true => simp [π.fade_empty]
    | false => simp [π.fade_fade]

end

end Verif.ResolveUse
