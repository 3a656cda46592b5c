import Verif.GroupTable
import Verif.UngroupLook
/-
Property C37: grouping by style keeps the picture.
-/
namespace Verif.GroupStyle
open Verif.Dom Verif.Spec Verif.Render
open Verif.Stops (modValue getAttr_modValue)
open Verif.Needless (rmAll getAttr_rmAll get_rmAll rmAll_same)
open Verif.Ungroup (copyAttr linksIn_cons linksIn_append draw_group not_isRef enter_empty nodeTransform_none ctx_ext putAttr_names
  modValue_names linksIn_used isUsed_of_linksIn)
open Verif.ApplyTs (append isValidAttrs SameBut)
open Verif.Paths (Transform)

/-! ### Moving attributes -/

theorem rmAll_sameBut (n : Node) (l : List AId) : SameBut l n (rmAll n l) := by
  have h := rmAll_same n l
  refine ⟨h.1, h.2.1, h.2.2, fun b hb => ?_⟩
  rw [getAttr_rmAll, if_neg]
  rintro ⟨a, ha, rfl⟩
  exact hb a ha rfl

theorem mem_ids {A : List Attr} {a : AId} : a ∈ ids A ↔ ∃ x ∈ A, x.name = .id a := by
  unfold ids
  rw [List.mem_filterMap]
  constructor
  · rintro ⟨x, hx, h⟩
    refine ⟨x, hx, ?_⟩
    cases hn : x.name with
    | id b => rw [hn] at h; cases h; rfl
    | name s => rw [hn] at h; cases h
  · rintro ⟨x, hx, h⟩
    exact ⟨x, hx, by rw [h]⟩

theorem setOn_same {g g' : Node} {x : Attr} (h : setOn g x = some g') {as : List AId} (hx : ∀ a, x.name = .id a → a ∈ as)
    (hid : ∃ a, x.name = .id a) : SameBut as g g' := by
  unfold setOn at h
  split at h
  next hc =>
    simp only [Bool.and_eq_true, decide_eq_true_eq] at hc
    cases h
    unfold appendValue
    split
    · exact SameBut.mod _ (hx _ hc.1) _
    · exact SameBut.refl _ _
  next =>
    unfold copyAttr at h
    split at h
    · cases h
    · cases h
      obtain ⟨a, ha⟩ := hid
      refine ⟨rfl, rfl, rfl, fun b hb => ?_⟩
      simp only
      rw [getAttr_put, if_neg]
      rw [ha]
      exact hb a (hx a ha)

theorem setAll_same {A : List Attr} {g g' : Node} (h : setAll A g = some g') (hid : ∀ x ∈ A, ∃ a, x.name = .id a) :
    SameBut (ids A) g g' := by
  induction A generalizing g with
  | nil => cases h; exact SameBut.refl _ _
  | cons x t ih =>
    simp only [setAll, Option.bind_eq_some_iff] at h
    obtain ⟨g1, h1, h2⟩ := h
    have s1 : SameBut (ids (x :: t)) g g1 := setOn_same h1 (fun a ha => mem_ids.2 ⟨x, List.mem_cons_self .., ha⟩)
      (hid x (List.mem_cons_self ..))
    exact s1.trans ((ih h2 (fun y hy => hid y (List.mem_cons_of_mem _ hy))).mono (fun a ha => by
      obtain ⟨y, hy, e⟩ := mem_ids.1 ha
      exact mem_ids.2 ⟨y, List.mem_cons_of_mem _ hy, e⟩))

theorem setAll_keep {x : Attr} {t : List Attr} {g1 g' : Node} {a : AId} (hx : x.name = .id a) (hnd : x.name ∉ t.map (·.name))
    (h2 : setAll t g1 = some g') (hid : ∀ y ∈ t, ∃ a, y.name = .id a) : getAttr g'.attrs (.id a) = getAttr g1.attrs (.id a) := by
  apply (setAll_same h2 hid).attr
  intro b hb e
  obtain ⟨y, hy, e'⟩ := mem_ids.1 hb
  exact hnd (List.mem_map.2 ⟨y, hy, by rw [hx, e', e]⟩)

theorem setAll_attr {A : List Attr} {g g' : Node} (h : setAll A g = some g') (hid : ∀ x ∈ A, ∃ a, x.name = .id a)
    (hnd : (A.map (·.name)).Nodup) {x : Attr} (hx : x ∈ A) {a : AId} (ha : x.name = .id a) (hat : a ≠ .transform) :
    getAttr g'.attrs (.id a) = some x := by
  induction A generalizing g with
  | nil => cases hx
  | cons y t ih =>
    simp only [setAll, Option.bind_eq_some_iff] at h
    obtain ⟨g1, h1, h2⟩ := h
    simp only [List.map_cons, List.nodup_cons] at hnd
    have hid' := fun y hy => hid y (List.mem_cons_of_mem _ hy)
    rcases List.mem_cons.1 hx with rfl | hx
    · rw [setAll_keep ha hnd.1 h2 hid']
      unfold setOn at h1
      rw [if_neg (by rw [ha]; simp [hat])] at h1
      unfold copyAttr at h1
      split at h1
      · cases h1
      · cases h1
        simp only
        rw [getAttr_put, if_pos ha.symm]
    · exact ih h2 hid' hnd.2 hx

theorem setAll_transform {A : List Attr} {g g' : Node} (h : setAll A g = some g') (hid : ∀ x ∈ A, ∃ a, x.name = .id a)
    (hnd : (A.map (·.name)).Nodup) {x : Attr} (hx : x ∈ A) (ha : x.name = .id .transform) {t : Transform} (ht : x.value = .transform t)
    (hg : ∀ v, g.get .transform = some v → ∃ t, v = .transform t) :
    g'.get .transform = some (.transform (mul (nodeTransform g) t)) := by
  induction A generalizing g with
  | nil => cases hx
  | cons y r ih =>
    simp only [setAll, Option.bind_eq_some_iff] at h
    obtain ⟨g1, h1, h2⟩ := h
    simp only [List.map_cons, List.nodup_cons] at hnd
    have hid' := fun y hy => hid y (List.mem_cons_of_mem _ hy)
    rcases List.mem_cons.1 hx with rfl | hx
    · have := setAll_keep ha hnd.1 h2 hid'
      have e : g'.get .transform = g1.get .transform := Stops.get_of_getAttr this
      rw [e]
      unfold setOn at h1
      by_cases hh : g.has .transform = true
      · rw [if_pos (by simp [ha, hh])] at h1
        cases h1
        rw [ht]
        have : (appendValue g (Value.transform t)) = modValue g .transform (appendTo t) := rfl
        rw [this, ApplyTs.get_mod, if_pos rfl]
        rw [Node.has_eq] at hh
        cases hv : g.get .transform with
        | none => rw [hv] at hh; cases hh
        | some v =>
          obtain ⟨s, rfl⟩ := hg v hv
          rw [ApplyTs.nodeTransform_get hv]
          rfl
      · rw [if_neg (by simp [hh])] at h1
        unfold copyAttr at h1
        split at h1
        · cases h1
        · cases h1
          have e2 : Node.get { g with attrs := putAttr g.attrs x } .transform = some (.transform t) := by
            unfold Node.get
            simp only
            rw [getAttr_put, if_pos ha.symm]
            simp [ht]
          rw [e2, nodeTransform_none (by simpa using hh), Ungroup.mul_one_left]
    · have hy : y.name ≠ .id .transform := by
        intro e
        exact hnd.1 (List.mem_map.2 ⟨x, hx, by rw [e, ha]⟩)
      have hs : SameBut (ids [y]) g g1 := setOn_same h1 (fun a ha => mem_ids.2 ⟨y, List.mem_cons_self .., ha⟩) (hid y (List.mem_cons_self ..))
      have e : g1.get .transform = g.get .transform := hs.get (by
        intro hm
        obtain ⟨z, hz, e⟩ := mem_ids.1 hm
        rw [List.mem_singleton.1 hz] at e
        exact hy e)
      have hg1 := ih h2 hid' hnd.2 hx (by rw [e]; exact hg)
      have : nodeTransform g1 = nodeTransform g := by unfold nodeTransform; rw [e]
      rw [hg1, this]

/-- What is required of a child. -/
structure NodeFit (n : Node) : Prop where
  names : (n.attrs.map (·.name)).Nodup
  /-- `transform` is only used where it means something. -/
  takes : n.isSvgElem = true → n.has .transform = true → takesTransform n.kind = true ∨ neverRendered n.kind = true
  typed : ∀ v, n.get .transform = some v → ∃ t, v = .transform t
  /-- `inherit` has been resolved. -/
  inherit : ∀ x ∈ n.attrs, ∀ a, x.name = .id a → inherits a = true → x.value ≠ .kw .inherit

theorem inheritable {a : AId} (h : a.isInheritable = true) : inherits a = true := by
  revert h
  cases a <;> decide

theorem wants_spec {anc : List Node} {n : Node} {x : Attr} (h : wants anc n x = true) :
    ∃ a, x.name = .id a ∧ (a = .transform ∧ isValidAttrs anc = true ∨ a ≠ .transform ∧ inherits a = true) := by
  unfold wants at h
  cases hn : x.name with
  | name s => rw [hn] at h; simp at h
  | id a =>
    rw [hn] at h
    simp only [Bool.and_eq_true] at h
    refine ⟨a, rfl, ?_⟩
    by_cases ha : a = .transform
    · rw [if_pos ha] at h
      simp only [Bool.and_eq_true] at h
      exact .inl ⟨ha, h.2.2⟩
    · rw [if_neg ha] at h
      exact .inr ⟨ha, inheritable h.2⟩

/-- Attributes that can be moved to a group. -/
structure Movable (A : List Attr) : Prop where
  id : ∀ x ∈ A, ∃ a, x.name = .id a ∧ (a = .transform ∨ inherits a = true)
  nodup : A.Nodup

theorem Movable.ids (h : Movable A) : ∀ x ∈ A, ∃ a, x.name = .id a := fun x hx => by
  obtain ⟨a, ha, _⟩ := h.id x hx
  exact ⟨a, ha⟩

theorem Movable.mem (h : Movable A) {a : AId} (ha : a ∈ GroupStyle.ids A) : a = .transform ∨ inherits a = true := by
  obtain ⟨x, hx, e⟩ := mem_ids.1 ha
  obtain ⟨b, hb, hc⟩ := h.id x hx
  rw [e] at hb
  cases hb
  exact hc

theorem names_of_sub {A : List Attr} {n : Node} (h : A.Nodup) (hn : (n.attrs.map (·.name)).Nodup) (hs : ∀ x ∈ A, x ∈ n.attrs) :
    (A.map (·.name)).Nodup := by
  rw [List.nodup_map_iff_inj_on h]
  intro x hx y hy e
  have h1 := GradUnits.getAttr_of_mem hn (hs x hx)
  have h2 := GradUnits.getAttr_of_mem hn (hs y hy)
  rw [e, h2] at h1
  exact (Option.some.inj h1).symm

section
variable {A : List Attr} {g0 g n : Node} (hA : Movable A) (hf : NodeFit n) (hs : ∀ x ∈ A, x ∈ n.attrs) (hg : setAll A g0 = some g)
include hA hf hs hg

theorem hoist_style (c : Ctx) : ((c.enter g).enter (rmAll n (ids A))).style = ((c.enter g0).enter n).style := by
  have hnd := names_of_sub hA.nodup hf.names hs
  funext a
  simp only [Ctx.enter]
  cases ha : inherits a with
  | false => rfl
  | true =>
    simp only [if_true]
    rw [get_rmAll]
    by_cases hm : a ∈ ids A
    · rw [if_pos hm]
      obtain ⟨x, hx, e⟩ := mem_ids.1 hm
      have hat : a ≠ .transform := by rintro rfl; cases ha
      have h1 : g.get a = some x.value := by
        unfold Node.get; rw [setAll_attr hg hA.ids hnd hx e hat]; rfl
      have h2 : n.get a = some x.value := by
        unfold Node.get; rw [← e, GradUnits.getAttr_of_mem hf.names (hs x hx)]; rfl
      have h3 := hf.inherit x (hs x hx) a e ha
      rw [h1, h2]
      simp only [h3, if_false]
    · rw [if_neg hm, (setAll_same hg hA.ids).get hm]

theorem hoist_ctm (c : Ctx) (hn : takesTransform n.kind = true ∨ .transform ∉ ids A)
    (hg0 : .transform ∈ ids A → takesTransform g0.kind = true ∧ ∀ v, g0.get .transform = some v → ∃ t, v = .transform t) :
    ((c.enter g).enter (rmAll n (ids A))).ctm = ((c.enter g0).enter n).ctm := by
  have hnd := names_of_sub hA.nodup hf.names hs
  have hsb := setAll_same hg hA.ids
  have hrb := rmAll_sameBut n (ids A)
  simp only [Ctx.enter, hsb.kind, hrb.kind]
  by_cases hm : .transform ∈ ids A
  · obtain ⟨h1, h2⟩ := hg0 hm
    have hn' : takesTransform n.kind = true := by
      rcases hn with h | h
      · exact h
      · exact absurd hm h
    obtain ⟨x, hx, e⟩ := mem_ids.1 hm
    have e2 : n.get .transform = some x.value := by
      unfold Node.get; rw [← e, GradUnits.getAttr_of_mem hf.names (hs x hx)]; rfl
    obtain ⟨t, ht⟩ := hf.typed _ e2
    have e3 := setAll_transform hg hA.ids hnd hx e ht h2
    have e4 : (rmAll n (ids A)).get .transform = none := by rw [get_rmAll, if_pos hm]
    have e5 : nodeTransform (rmAll n (ids A)) = one := nodeTransform_none (by rw [Node.has_eq, e4]; rfl)
    have e6 : nodeTransform n = t := ApplyTs.nodeTransform_get (by rw [e2, ht])
    rw [h1, hn', ApplyTs.nodeTransform_get e3, e5, e6]
    simp only [if_true]
    rw [ApplyTs.mul_one'', ApplyTs.mul_assoc']
  · have e1 : nodeTransform g = nodeTransform g0 := by unfold nodeTransform; rw [hsb.get hm]
    have e2 : nodeTransform (rmAll n (ids A)) = nodeTransform n := by unfold nodeTransform; rw [hrb.get hm]
    rw [e1, e2]

end

/-! ### Properties that do not change -/

theorem keeps {A : List Attr} (hA : Movable A) {n m : Node} (h : SameBut (ids A) n m) :
    (∀ b, isOwn b = true → getAttr m.attrs b = getAttr n.attrs b) ∧ (∀ a, isFixed a = true → a ≠ .transform → m.get a = n.get a) := by
  constructor
  · intro b hb
    apply h.attr
    rintro a ha rfl
    rcases hA.mem ha with rfl | hi
    · cases hb
    · simp [isOwn, hi] at hb
  · intro a ha hat
    apply h.get
    intro hm
    rcases hA.mem hm with rfl | hi
    · exact hat rfl
    · revert ha hi
      clear hA h hat hm
      cases a <;> decide

theorem keeps_look {A : List Attr} (hA : Movable A) {n m : Node} (h : SameBut (ids A) n m) :
    hiddenBy m = hiddenBy n ∧ opacityOf m = opacityOf n ∧ ∀ {P : Type} (π : Painter P), allowed π m = allowed π n := by
  have hk := (keeps hA h).2
  unfold hiddenBy opacityOf allowed holds
  rw [hk .display (by decide) (by decide), hk .opacity (by decide) (by decide), hk .requiredFeatures (by decide) (by decide),
    hk .requiredExtensions (by decide) (by decide), hk .systemLanguage (by decide) (by decide)]
  exact ⟨rfl, rfl, fun _ => rfl⟩

variable {P : Type} {π : Painter P}

/-- A child without the attributes, in the group that has them. -/
theorem hoist_draw {A : List Attr} {g0 g n : Node} (hA : Movable A) (hf : NodeFit n) (hs : ∀ x ∈ A, x ∈ n.attrs)
    (hg : setAll A g0 = some g) (hsvg : n.isSvgElem = true)
    (hg0 : .transform ∈ ids A → takesTransform g0.kind = true ∧ ∀ v, g0.get .transform = some v → ∃ t, v = .transform t)
    (env : Env P) (c : Ctx) (k : Forest) :
    draw π env (c.enter g) (rmAll n (ids A)) (pics π env ((c.enter g).enter (rmAll n (ids A))) k) =
    draw π env (c.enter g0) n (pics π env ((c.enter g0).enter n) k) := by
  have hrb := rmAll_sameBut n (ids A)
  unfold draw
  rw [hrb.kind]
  cases hn : neverRendered n.kind with
  | true => rfl
  | false =>
    simp only [Bool.false_eq_true, if_false]
    have htk : takesTransform n.kind = true ∨ AId.transform ∉ ids A := by
      by_cases hm : AId.transform ∈ ids A
      · left
        obtain ⟨x, hx, e⟩ := mem_ids.1 hm
        have h2 : n.has .transform = true := by
          rw [Node.has_eq]
          unfold Node.get
          rw [← e, GradUnits.getAttr_of_mem hf.names (hs x hx)]
          rfl
        rcases hf.takes hsvg h2 with h | h
        · exact h
        · rw [hn] at h; cases h
      · exact .inr hm
    have hen : (c.enter g).enter (rmAll n (ids A)) = (c.enter g0).enter n :=
      ctx_ext (hoist_style hA hf hs hg c) (hoist_ctm hA hf hs hg c htk hg0)
    rw [hen]
    cases hkind : n.kind with
    | elem e =>
      have hkind' : (rmAll n (ids A)).kind = .elem e := hrb.kind.trans hkind
      obtain ⟨k1, k2, k3⟩ := keeps_look hA hrb
      rw [body_elem hkind, body_elem hkind', k1, k2, k3]
      rw [inner_eq (n := n) (n' := rmAll n (ids A)) (keeps hA hrb).1 (fun a ha => (keeps hA hrb).2 a (by revert a; decide) (by
        rintro rfl; revert ha; decide)) hen]
    | text s => unfold Node.isSvgElem at hsvg; rw [hkind] at hsvg; cases hsvg
    | comment s => unfold Node.isSvgElem at hsvg; rw [hkind] at hsvg; cases hsvg
    | other s => unfold Node.isSvgElem at hsvg; rw [hkind] at hsvg; cases hsvg

/-! ### Folding over children -/

section
variable {M : Type} (op : M → M → M) (z : M) (e e' : Node → Forest → M)

def foldTop (e : Node → Forest → M) : Forest → M
  | .nil => z
  | .cons n k r => op (e n k) (foldTop e r)

def Tops (Q : Node → Forest → Prop) : Forest → Prop
  | .nil => True
  | .cons n k r => Q n k ∧ Tops Q r

/-- The SVG elements with index `i` to `j` satisfy `Q`. -/
def InRange (Q : Node → Prop) (i j : Nat) : Nat → Forest → Prop
  | _, .nil => True
  | m, .cons n _ r => if n.isSvgElem then ((i ≤ m ∧ m ≤ j) → Q n) ∧ InRange Q i j (m + 1) r else InRange Q i j m r

theorem inRange_of {Q : Node → Prop} {i j m : Nat} {f : Forest}
    (h : ∀ idx n, (svgTop f)[idx]? = some n → i ≤ m + idx → m + idx ≤ j → Q n) : InRange Q i j m f := by
  induction f generalizing m with
  | nil => trivial
  | cons n k r _ ih =>
    unfold InRange
    split
    next hs =>
      have e : svgTop (.cons n k r) = n :: svgTop r := by simp [svgTop, Forest.top, hs]
      refine ⟨fun hm => h 0 n (by rw [e]; rfl) hm.1 hm.2, ih (fun idx x hx h1 h2 => h (idx + 1) x (by rw [e]; exact hx) (by omega) (by omega))⟩
    next hs =>
      have e : svgTop (.cons n k r) = svgTop r := by simp [svgTop, Forest.top, hs]
      exact ih (fun idx x hx => h idx x (by rw [e]; exact hx))

theorem pick_late (as : List AId) (i : Nat) {j m : Nat} (f : Forest) (h : j < m) : pick as i j m f = .nil := by
  induction f generalizing m with
  | nil => rfl
  | cons n k r _ ih =>
    unfold pick
    split
    · rw [if_neg (by omega)]
      exact ih (by omega)
    · exact ih h

theorem place_late (g : Node) (K : Forest) {i j m : Nat} (f : Forest) (h : j < m) (hij : i ≤ j) : place g K i j m f = f := by
  induction f generalizing m with
  | nil => rfl
  | cons n k r _ ih =>
    unfold place
    split
    · rw [if_neg (by omega), if_neg (by omega), ih (by omega)]
    · rw [ih h]

variable {op z e e'} (hl : ∀ p, op z p = p) (hr : ∀ p, op p z = p) (ha : ∀ p q r, op (op p q) r = op p (op q r))
  {as : List AId} {Q : Node → Prop} (hQ : ∀ n k, Q n → n.isSvgElem = true → e' (rmAll n as) k = e n k)
include hl ha hQ

theorem fold_after {g : Node} {K : Forest} {i j m : Nat} {f : Forest} (hij : i ≤ j) (hm : i < m) (h : InRange Q i j m f)
    (hp : Tops (fun n k => n.isSvgElem = false → e n k = z) f) :
    foldTop op z e f = op (foldTop op z e' (pick as i j m f)) (foldTop op z e (place g K i j m f)) := by
  induction f generalizing m with
  | nil => exact (hl _).symm
  | cons n k r _ ih =>
    by_cases hj : j < m
    · rw [pick_late as i _ hj, place_late g K _ hj hij]
      exact (hl _).symm
    · unfold InRange at h
      unfold pick place
      by_cases hs : n.isSvgElem = true
      · rw [if_pos hs] at h
        simp only [hs, if_true]
        rw [if_pos ⟨by omega, by omega⟩, if_neg (by omega), if_pos ⟨hm, by omega⟩]
        simp only [foldTop]
        rw [ih (by omega) h.2 hp.2, hQ n k (h.1 ⟨by omega, by omega⟩) hs, ha]
      · rw [if_neg hs] at h
        rw [if_neg hs, if_neg hs]
        simp only [foldTop, hp.1 (by simpa using hs), hl]
        exact ih hm h hp.2

include hr

theorem fold_place {g : Node} {K : Forest} {i j m : Nat} {f : Forest} (hij : i ≤ j) (hm : m ≤ i) (h : InRange Q i j m f)
    (hp : Tops (fun n k => n.isSvgElem = false → e n k = z) f) (hK : foldTop op z e' K = foldTop op z e' (pick as i j m f))
    (hg : e g K = foldTop op z e' K) :
    foldTop op z e f = foldTop op z e (place g K i j m f) := by
  induction f generalizing m with
  | nil => rfl
  | cons n k r _ ih =>
    unfold InRange at h
    unfold pick at hK
    unfold place
    by_cases hs : n.isSvgElem = true
    · rw [if_pos hs] at h hK
      simp only [hs, if_true]
      by_cases hmi : m = i
      · rw [if_pos hmi]
        rw [if_pos ⟨by omega, by omega⟩] at hK
        simp only [foldTop] at hK ⊢
        rw [hg, hK, hQ n k (h.1 ⟨by omega, by omega⟩) hs, fold_after hl ha hQ (g := g) (K := K) hij (by omega) h.2 hp.2, ha]
      · rw [if_neg hmi, if_neg (by omega)]
        rw [if_neg (by omega)] at hK
        simp only [foldTop]
        rw [ih (by omega) h.2 hp.2 hK]
    · rw [if_neg hs] at h hK
      rw [if_neg hs]
      simp only [foldTop]
      rw [← ih hm h hp.2 hK]

omit ha hr in
theorem fold_pick {i j m : Nat} {f : Forest} (hm : i ≤ m) (hj : m + (svgTop f).length ≤ j + 1) (h : InRange Q i j m f)
    (hp : Tops (fun n k => n.isSvgElem = false → e n k = z) f) : foldTop op z e f = foldTop op z e' (pick as i j m f) := by
  induction f generalizing m with
  | nil => rfl
  | cons n k r _ ih =>
    unfold InRange at h
    unfold pick
    by_cases hs : n.isSvgElem = true
    · rw [if_pos hs] at h
      have : (svgTop (.cons n k r)).length = (svgTop r).length + 1 := by simp [svgTop, Forest.top, hs]
      simp only [hs, if_true]
      rw [if_pos ⟨hm, by omega⟩]
      simp only [foldTop]
      rw [ih (by omega) (by omega) h.2 hp.2, hQ n k (h.1 ⟨hm, by omega⟩) hs]
    · rw [if_neg hs] at h
      have : (svgTop (.cons n k r)).length = (svgTop r).length := by simp [svgTop, Forest.top, hs]
      rw [if_neg hs]
      simp only [foldTop, hp.1 (by simpa using hs), hl]
      exact ih hm (by omega) h hp.2

omit hl ha hr hQ
theorem fold_append (hl : ∀ p, op z p = p) (ha : ∀ p q r, op (op p q) r = op p (op q r)) (f g : Forest) :
    foldTop op z e (f ++ g) = op (foldTop op z e f) (foldTop op z e g) := by
  induction f with
  | nil => exact (hl _).symm
  | cons n k r _ ih =>
    show foldTop op z e (.cons n k (r ++ g)) = _
    simp only [foldTop]
    rw [ih, ha]

theorem fold_nonSvg (hl : ∀ p, op z p = p) {f : Forest} (hp : Tops (fun n k => n.isSvgElem = false → e n k = z) f) :
    foldTop op z e (nonSvg f) = z := by
  induction f with
  | nil => rfl
  | cons n k r _ ih =>
    unfold nonSvg
    split
    · exact ih hp.2
    next hs => simp only [foldTop, hp.1 (by simpa using hs), hl]; exact ih hp.2

end

/-! ### Pictures as folds -/

def picE (π : Painter P) (env : Env P) (c : Ctx) (n : Node) (k : Forest) : P :=
  if isElem n.kind then draw π env c n (pics π env (c.enter n) k) else π.empty

theorem stack_fold (env : Env P) (c : Ctx) (f : Forest) : stack π isElem (pics π env c f) = foldTop π.over π.empty (picE π env c) f := by
  induction f with
  | nil => rfl
  | cons n k r _ ih =>
    simp only [pics, stack_cons, foldTop, picE, ih]
    split
    · rfl
    · rw [π.empty_over]

def instE (π : Painter P) (env : Env P) (via : Attrs P) (c : Ctx) (x : Nat) (n : Node) (k : Forest) : Option P :=
  if n.key = x then some (body π env via c n (pics π env (c.enter n) k)) else instOf π env via c x k

theorem inst_fold (env : Env P) (via : Attrs P) (c : Ctx) (x : Nat) (f : Forest) :
    instOf π env via c x f = foldTop Option.or none (instE π env via c x) f := by
  induction f with
  | nil => rfl
  | cons n k r _ ih =>
    simp only [instOf, foldTop, instE, ih]
    split
    · rfl
    · rfl

def hereE (π : Painter P) (env : Env P) (x : Nat) (c : Ctx) (n : Node) (k : Forest) : Option P :=
  if n.key = x then some (body π env noVia ⟨c.style, one⟩ n (pics π env (Ctx.enter ⟨c.style, one⟩ n) k)) else hereOf π env x (c.enter n) k

theorem here_fold (env : Env P) (c : Ctx) (x : Nat) (f : Forest) :
    hereOf π env x c f = foldTop Option.or none (hereE π env x c) f := by
  induction f with
  | nil => rfl
  | cons n k r _ ih =>
    simp only [hereOf, foldTop, hereE, ih]
    split
    · rfl
    · rfl

theorem inst_none {env : Env P} {via : Attrs P} {c : Ctx} {x : Nat} {f : Forest} (h : ∀ n ∈ f.nodes, n.key ≠ x) :
    instOf π env via c x f = none := by
  induction f with
  | nil => rfl
  | cons n k r ihk ihr =>
    simp only [Forest.nodes, List.mem_cons, List.mem_append] at h
    simp only [instOf]
    rw [if_neg (h n (.inl rfl)), ihk (fun m hm => h m (.inr (.inl hm))), ihr (fun m hm => h m (.inr (.inr hm)))]
    rfl

theorem here_none {env : Env P} {c : Ctx} {x : Nat} {f : Forest} (h : ∀ n ∈ f.nodes, n.key ≠ x) : hereOf π env x c f = none := by
  induction f generalizing c with
  | nil => rfl
  | cons n k r ihk ihr =>
    simp only [Forest.nodes, List.mem_cons, List.mem_append] at h
    simp only [hereOf]
    rw [if_neg (h n (.inl rfl)), ihk (fun m hm => h m (.inr (.inl hm))), ihr (fun m hm => h m (.inr (.inr hm)))]
    rfl

end Verif.GroupStyle
