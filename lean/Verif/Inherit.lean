import Verif.Stops
import Verif.StopsProps
import Verif.ApplyTsProps
import Verif.GradUnitsProps
/-
Model of `src/task/resolve_inherit.rs`, and property C34.
-/
namespace Verif.Dom

/-- `for node in doc.descendants()` with a body that changes only the node, may fail and may look at the ancestors, which
have been visited before. -/
def Forest.mapRes (g : List Node → Node → Res Node) : List Node → Forest → Res Forest
  | _, .nil => .ok .nil
  | anc, .cons n k r =>
    (g anc n).bind fun n' => (k.mapRes g (n' :: anc)).bind fun k' => (r.mapRes g anc).bind fun r' => .ok (.cons n' k' r')

end Verif.Dom

namespace Verif.Inherit
open Verif.Dom Verif.Spec Verif.Simple
open Verif.Stops (getAttr_set get_of_getAttr bind_ok bind_err bind_panic)

/-! ### The model -/

/-- The SVG attributes of a node with the given keyword as value, `src/task/resolve_inherit.rs:43-56`. -/
def withKw (n : Node) (w : Kw) : List AId :=
  n.attrs.filterMap (fun x => match x.name with
    | .id a => if x.value = .kw w then some a else none
    | .name _ => none)

/-- `node.set_attribute((aid, av))` of svgdom: panics if the value is a reference to the node itself.  (It also panics if
the node is referred to by the target; that is not modelled.) -/
def setChecked (n : Node) (a : AId) (v : Value) : Res Node :=
  if v.target = some n.key then .panic else .ok (n.set a v)

/-- `resolve_impl`, `src/task/resolve_inherit.rs:76-87`; `anc` are the ancestors, nearest first. -/
def resolveImpl (anc : List Node) (cur par : AId) (n : Node) : Res Node :=
  match anc.findSome? (fun m => m.get par) with
  | some v => setChecked n cur v
  | none => .err (.unresolvedAttribute cur)

/-- "if let Some(av) = av { node.set_attribute(..) } else { resolve_impl(..)? }", `src/task/resolve_inherit.rs:63-70`. -/
def resolveColor (anc : List Node) (a : AId) (n : Node) : Res Node :=
  match n.get .color with
  | some v => setChecked n a v
  | none => resolveImpl anc a .color n

/-- A `for` loop over attributes. -/
def forAttrs (g : AId → Node → Res Node) : List AId → Node → Res Node
  | [], n => .ok n
  | a :: t, n => (g a n).bind (forAttrs g t)

/-- The loop body of `resolve_inherit`, `src/task/resolve_inherit.rs:38-71`. -/
def body (anc : List Node) (n : Node) : Res Node :=
  if n.isSvgElem then
    (forAttrs (fun a => resolveImpl anc a a) (withKw n .inherit) n).bind fun m =>
      forAttrs (fun a => resolveColor anc a) (withKw n .currentColor) m
  else .ok n

/-- `resolve_inherit`, `src/task/resolve_inherit.rs:34-74` -/
def resolveInherit (f : Forest) : Res Forest := f.mapRes body []

/-! ### Specification -/

/-- The computed value of a property, for a node with its ancestors (nearest first): its own value; `inherit`, or no value,
stands for that of the nearest ancestor with one; `currentColor` stands for the value of `color`, and as the value of
`color` itself for `inherit` (CSS). Attributes of elements outside SVG are taken as they are. -/
def computed : AId → List Node → Option Value
  | _, [] => none
  | a, n :: t =>
    if !n.isSvgElem then (n.get a).or (computed a t)
    else match n.get a with
    | none | some (.kw .inherit) => computed a t
    | some (.kw .currentColor) =>
      (match n.get .color with
      | none | some (.kw .inherit) | some (.kw .currentColor) => computed .color t
      | some v => some v)
    | some v => some v

/-- An attribute that is to be resolved. -/
def Relative (n : Node) (a : AId) : Prop :=
  n.isSvgElem = true ∧ (n.get a = some (.kw .inherit) ∨ n.get a = some (.kw .currentColor))

instance (n : Node) (a : AId) : Decidable (Relative n a) := by unfold Relative; infer_instance

/-- What the pass does to a node `x.1` with the ancestors `x.2`. -/
structure ResolvedTo (x y : Node × List Node) : Prop where
  same : y.1.key = x.1.key ∧ y.1.kind = x.1.kind ∧ y.1.id = x.1.id
  /-- Relative values are replaced by the computed value. -/
  value : ∀ a, Relative x.1 a → ∃ v, computed a (x.1 :: x.2) = some v ∧ getAttr y.1.attrs (.id a) = some ⟨.id a, v, true⟩
  /-- All other attributes stay. -/
  other : ∀ b, (∀ a, b = .id a → ¬ Relative x.1 a) → getAttr y.1.attrs b = getAttr x.1.attrs b

/-! ### Proof -/

theorem mem_withKw {n : Node} (hn : (n.attrs.map (·.name)).Nodup) (w : Kw) (a : AId) :
    a ∈ withKw n w ↔ n.get a = some (.kw w) := by
  unfold withKw Node.get
  simp only [List.mem_filterMap, Option.map_eq_some_iff]
  constructor
  · rintro ⟨x, hx, h⟩
    split at h
    next a' ha =>
      split at h
      next hv =>
        cases h
        refine ⟨x, ?_, hv⟩
        rw [← ha]
        exact GradUnits.getAttr_of_mem hn hx
      next => cases h
    next => cases h
  · rintro ⟨x, hx, hv⟩
    refine ⟨x, getAttr_mem hx, ?_⟩
    rw [getAttr_name hx]
    simp [hv]

theorem getAttr_checked {n m : Node} {a : AId} {v : Value} (h : setChecked n a v = .ok m) : m = n.set a v := by
  unfold setChecked at h
  split at h <;> cases h
  rfl

/-- A loop that sets each attribute of a list to a value that does not depend on the node. -/
theorem forAttrs_const {w : AId → Option Value} {g : AId → Node → Res Node} {l : List AId} {n m : Node} {P : Node → Prop}
    (hg : ∀ a ∈ l, ∀ n m, P n → g a n = .ok m → ∃ v, w a = some v ∧ m = n.set a v)
    (hP : ∀ a ∈ l, ∀ n v, P n → P (n.set a v)) (hn : P n)
    (h : forAttrs g l n = .ok m) :
    (m.key = n.key ∧ m.kind = n.kind ∧ m.id = n.id) ∧
      (∀ a ∈ l, ∃ v, w a = some v ∧ getAttr m.attrs (.id a) = some ⟨.id a, v, true⟩) ∧
      ∀ b, (∀ a ∈ l, b ≠ .id a) → getAttr m.attrs b = getAttr n.attrs b := by
  induction l generalizing n with
  | nil => simp only [forAttrs] at h; cases h; exact ⟨⟨rfl, rfl, rfl⟩, by simp, fun _ _ => rfl⟩
  | cons a t ih =>
    obtain ⟨n1, h1, h2⟩ := bind_ok.1 h
    obtain ⟨v, hv, rfl⟩ := hg a (by simp) n n1 hn h1
    obtain ⟨i1, i2, i3⟩ := ih (fun a ha => hg a (by simp [ha])) (fun a ha => hP a (by simp [ha])) (hP a (by simp) n v hn) h2
    refine ⟨i1, ?_, ?_⟩
    · intro b hb
      by_cases hbt : b ∈ t
      · exact i2 b hbt
      · have : b = a := by simpa [hbt] using hb
        subst this
        refine ⟨v, hv, ?_⟩
        rw [i3 _ (fun a' ha' e => hbt (by cases e; exact ha')), getAttr_set]
        simp
    · intro b hb
      rw [i3 b (fun a' ha' => hb a' (by simp [ha'])), getAttr_set]
      simp [hb a (by simp)]

/-- The ancestors in the result carry the computed values of the ancestors in the input. -/
def Agree (anc anc' : List Node) : Prop := ∀ a, anc'.findSome? (fun m => m.get a) = computed a anc

/-- No element has `color="currentColor"`. -/
def NoColorLoop (n : Node) : Prop := n.isSvgElem = true → n.get .color ≠ some (.kw .currentColor)

theorem get_none_of {n : Node} {a : AId} (h : getAttr n.attrs (.id a) = none) : n.get a = none := by
  unfold Node.get; rw [h]; rfl

theorem get_some_of {n : Node} {a : AId} {x : Attr} (h : getAttr n.attrs (.id a) = some x) : n.get a = some x.value := by
  unfold Node.get; rw [h]; rfl

theorem not_relative_not_svg {n : Node} (h : n.isSvgElem = false) (a : AId) : ¬ Relative n a := by
  rintro ⟨h', _⟩; rw [h] at h'; cases h'

theorem body_spec {anc anc' : List Node} {n m : Node} (hn : (n.attrs.map (·.name)).Nodup) (hc : NoColorLoop n)
    (hA : Agree anc anc') (h : body anc' n = .ok m) : ResolvedTo (n, anc) (m, anc') := by
  unfold body at h
  split at h
  next hs =>
    obtain ⟨n1, h1, h2⟩ := bind_ok.1 h
    obtain ⟨s1, v1, o1⟩ := forAttrs_const (w := fun a => computed a anc) (P := fun _ => True) (by
      intro a _ n m _ hm
      unfold resolveImpl at hm
      rw [hA a] at hm
      cases hv : computed a anc with
      | none => rw [hv] at hm; cases hm
      | some v => rw [hv] at hm; exact ⟨v, rfl, getAttr_checked hm⟩) (by simp) trivial h1
    have hcol : AId.color ∉ withKw n .currentColor := by
      rw [mem_withKw hn]; exact hc hs
    have hw : ∀ a, n.get a = some (.kw .inherit) ∨ n.get a = none →
        n1.get a = computed a (n :: anc) ∨ (n1.get a = none ∧ n.get a = none) := by
      intro a ha
      rcases ha with ha | ha
      · obtain ⟨v, hv, hg⟩ := v1 a ((mem_withKw hn _ _).2 ha)
        left
        rw [get_some_of hg]
        simp [computed, hs, ha, hv]
      · right
        refine ⟨?_, ha⟩
        rw [get_of_getAttr (n := n) (o1 _ (fun a' ha' e => by
          cases e; rw [mem_withKw hn, ha] at ha'; cases ha'))]
        exact ha
    obtain ⟨s2, v2, o2⟩ := forAttrs_const (w := fun _ => computed .color (n :: anc)) (P := fun x => x.get .color = n1.get .color) (by
      intro a _ x y hx hy
      unfold resolveColor at hy
      rw [hx] at hy
      cases hcn : n.get .color with
      | none =>
        rcases hw .color (.inr hcn) with h' | ⟨h', _⟩
        · cases hv : n1.get .color with
          | none =>
            rw [hv] at hy
            unfold resolveImpl at hy
            rw [hA .color] at hy
            have : computed .color (n :: anc) = computed .color anc := by simp [computed, hs, hcn]
            cases hv' : computed .color anc with
            | none => rw [hv'] at hy; cases hy
            | some v => rw [hv'] at hy; exact ⟨v, by rw [this, hv'], getAttr_checked hy⟩
          | some v =>
            rw [hv] at hy
            exact ⟨v, by rw [← h', hv], getAttr_checked hy⟩
        · rw [h'] at hy
          unfold resolveImpl at hy
          rw [hA .color] at hy
          have : computed .color (n :: anc) = computed .color anc := by simp [computed, hs, hcn]
          cases hv' : computed .color anc with
          | none => rw [hv'] at hy; cases hy
          | some v => rw [hv'] at hy; exact ⟨v, by rw [this, hv'], getAttr_checked hy⟩
      | some v =>
        by_cases hi : v = .kw .inherit
        · subst hi
          obtain ⟨v, hv, hg⟩ := v1 .color ((mem_withKw hn _ _).2 hcn)
          rw [get_some_of hg] at hy
          exact ⟨v, by simp [computed, hs, hcn, hv], getAttr_checked hy⟩
        · have hg : n1.get .color = some v := by
            rw [get_of_getAttr (n := n) (o1 _ (fun a' ha' e => by
              cases e; rw [mem_withKw hn, hcn] at ha'; exact hi (by simpa using ha')))]
            exact hcn
          rw [hg] at hy
          refine ⟨v, ?_, getAttr_checked hy⟩
          have hcc : v ≠ .kw .currentColor := fun e => hc hs (by rw [hcn, e])
          simp_all [computed]) (by
      intro a ha x v hx
      rw [ApplyTs.get_set, if_neg (fun e => hcol (by rw [e]; exact ha)), hx]) rfl h2
    refine ⟨⟨s2.1.trans s1.1, s2.2.1.trans s1.2.1, s2.2.2.trans s1.2.2⟩, ?_, ?_⟩
    · rintro a ⟨_, ha | ha⟩
      · have hna : a ∉ withKw n .currentColor := by rw [mem_withKw hn, ha]; simp
        obtain ⟨v, hv, hg⟩ := v1 a ((mem_withKw hn _ _).2 ha)
        refine ⟨v, by simp [computed, hs, ha, hv], ?_⟩
        rw [o2 _ (fun a' ha' e => hna (by cases e; exact ha'))]
        exact hg
      · obtain ⟨v, hv, hg⟩ := v2 a ((mem_withKw hn _ _).2 ha)
        refine ⟨v, ?_, hg⟩
        rw [← hv]
        have hcc := hc hs
        simp only [computed, hs, ha, Bool.not_true, Bool.false_eq_true, if_false]
        cases hcn : n.get .color with
        | none => rfl
        | some v => split <;> simp_all
    · intro b hb
      rw [o2 b (fun a ha e => hb a e ⟨hs, .inr ((mem_withKw hn _ _).1 ha)⟩),
        o1 b (fun a ha e => hb a e ⟨hs, .inl ((mem_withKw hn _ _).1 ha)⟩)]
  next hs =>
    cases h
    exact ⟨⟨rfl, rfl, rfl⟩, fun a ha => absurd ha (not_relative_not_svg (by simpa using hs) a), fun _ _ => rfl⟩

theorem agree_cons {anc anc' : List Node} {n m : Node} (hA : Agree anc anc') (h : ResolvedTo (n, anc) (m, anc')) :
    Agree (n :: anc) (m :: anc') := by
  intro a
  simp only [List.findSome?_cons]
  by_cases hr : Relative n a
  · obtain ⟨v, hv, hg⟩ := h.value a hr
    have := get_some_of hg
    simp only [] at this
    rw [this, hv]
  · have := get_of_getAttr (n := n) (h.other (.id a) (fun a' e => by cases e; exact hr))
    rw [this, hA a]
    simp only [computed]
    cases hs : n.isSvgElem with
    | false =>
      simp only [Bool.not_false, if_true]
      cases n.get a <;> rfl
    | true =>
      simp only [Bool.not_true, Bool.false_eq_true, if_false]
      cases hv : n.get a with
      | none => rfl
      | some v =>
        have h1 : v ≠ .kw .inherit := fun e => hr ⟨hs, .inl (by rw [hv, e])⟩
        have h2 : v ≠ .kw .currentColor := fun e => hr ⟨hs, .inr (by rw [hv, e])⟩
        simp_all

theorem mapRes_spec {f g : Forest} {anc anc' : List Node} (hn : UniqueAttrs f) (hc : ∀ n ∈ f.nodes, NoColorLoop n)
    (hA : Agree anc anc') (h : f.mapRes body anc' = .ok g) :
    List.Forall₂ ResolvedTo (located anc f) (located anc' g) ∧ ∀ o, shape o g = shape o f := by
  induction f generalizing anc anc' g with
  | nil => simp only [Forest.mapRes] at h; cases h; exact ⟨.nil, fun _ => rfl⟩
  | cons n k r ihk ihr =>
    obtain ⟨m, hm, h⟩ := bind_ok.1 h
    obtain ⟨k', hk, h⟩ := bind_ok.1 h
    obtain ⟨r', hr, h⟩ := bind_ok.1 h
    cases h
    have hb := body_spec (hn n (by simp [Forest.nodes])) (hc n (by simp [Forest.nodes])) hA hm
    have h1 := ihk (fun x hx => hn x (by simp [Forest.nodes, hx])) (fun x hx => hc x (by simp [Forest.nodes, hx]))
      (agree_cons hA hb) hk
    have h2 := ihr (fun x hx => hn x (by simp [Forest.nodes, hx])) (fun x hx => hc x (by simp [Forest.nodes, hx])) hA hr
    exact ⟨.cons hb (List.rel_append h1.1 h2.1), fun o => by
      have hk1 : m.key = n.key := hb.same.1
      simp only [shape, hk1, h1.2, h2.2]⟩

theorem agree_nil : Agree [] [] := fun _ => rfl

/-- C34 (partial: no element may have `color="currentColor"`): the tree stays, each attribute with the value `inherit` or
`currentColor` gets the computed value, all other attributes stay. -/
theorem C34_resolved_partial {f g : Forest} (hn : UniqueAttrs f) (hc : ∀ n ∈ f.nodes, NoColorLoop n)
    (h : resolveInherit f = .ok g) :
    List.Forall₂ ResolvedTo (located [] f) (located [] g) ∧ shape none g = shape none f :=
  ⟨(mapRes_spec hn hc agree_nil h).1, (mapRes_spec hn hc agree_nil h).2 none⟩

theorem computed_absolute {a : AId} {l : List Node} (h : ∀ n ∈ l, n.isSvgElem = true) {v : Value}
    (hv : computed a l = some v) : v ≠ .kw .inherit ∧ v ≠ .kw .currentColor := by
  induction l generalizing a with
  | nil => simp [computed] at hv
  | cons n t ih =>
    have hs := h n (by simp)
    have ht := fun n hn => h n (List.mem_cons_of_mem _ hn)
    simp only [computed, hs, Bool.not_true, Bool.false_eq_true, if_false] at hv
    split at hv
    · exact ih ht hv
    · exact ih ht hv
    · split at hv
      · exact ih ht hv
      · exact ih ht hv
      · exact ih ht hv
      · cases hv; constructor <;> (rintro rfl; simp_all)
    · cases hv; constructor <;> (rintro rfl; simp_all)

/-- C34: if all elements are SVG elements, no `inherit` and no `currentColor` is left anywhere. -/
theorem C34_nothing_left {f g : Forest} (hn : UniqueAttrs f) (hc : ∀ n ∈ f.nodes, NoColorLoop n)
    (hs : ∀ x ∈ located [] f, ∀ m ∈ x.1 :: x.2, m.isSvgElem = true)
    (h : resolveInherit f = .ok g) : ∀ x ∈ located [] g, ∀ a,
      x.1.get a ≠ some (.kw .inherit) ∧ x.1.get a ≠ some (.kw .currentColor) := by
  intro y hy a
  obtain ⟨x, hx, hr⟩ := Stops.forall2_right (C34_resolved_partial hn hc h).1 hy
  by_cases hrel : Relative x.1 a
  · obtain ⟨v, hv, hg⟩ := hr.value a hrel
    have := computed_absolute (hs x hx) hv
    rw [get_some_of hg]
    simpa using this
  · rw [get_of_getAttr (n := x.1) (hr.other (.id a) (fun a' e => by cases e; exact hrel))]
    have hsv := hs x hx x.1 (by simp)
    exact ⟨fun e => hrel ⟨hsv, .inl e⟩, fun e => hrel ⟨hsv, .inr e⟩⟩

theorem forAttrs_bad {g : AId → Node → Res Node} {l : List AId} {n : Node} {P : Node → Prop} (hn : P n)
    (hP : ∀ a ∈ l, ∀ n m, P n → g a n = .ok m → P m) :
    (∀ e, forAttrs g l n = .err e → ∃ a ∈ l, ∃ x, P x ∧ g a x = .err e) ∧
    (forAttrs g l n = .panic → ∃ a ∈ l, ∃ x, P x ∧ g a x = .panic) := by
  induction l generalizing n with
  | nil => exact ⟨fun e h => by simp [forAttrs] at h, fun h => by simp [forAttrs] at h⟩
  | cons a t ih =>
    have ih' := fun m hm => ih (n := m) hm (fun a ha => hP a (by simp [ha]))
    constructor
    · intro e h
      rcases bind_err.1 h with h | ⟨m, h1, h2⟩
      · exact ⟨a, by simp, n, hn, h⟩
      · obtain ⟨b, hb, x, hx⟩ := (ih' m (hP a (by simp) n m hn h1)).1 e h2
        exact ⟨b, by simp [hb], x, hx⟩
    · intro h
      rcases bind_panic.1 h with h | ⟨m, h1, h2⟩
      · exact ⟨a, by simp, n, hn, h⟩
      · obtain ⟨b, hb, x, hx⟩ := (ih' m (hP a (by simp) n m hn h1)).2 h2
        exact ⟨b, by simp [hb], x, hx⟩

theorem link_of_get {n : Node} {a : AId} {v : Value} {k : Nat} (h : n.get a = some v) (ht : v.target = some k) :
    k ∈ n.links := by
  unfold Node.get at h
  obtain ⟨x, hx, rfl⟩ := Option.map_eq_some_iff.1 h
  exact Node.mem_links.2 ⟨x, getAttr_mem hx, ht⟩

theorem computed_target {a : AId} {l : List Node} {v : Value} {k : Nat} (hv : computed a l = some v)
    (ht : v.target = some k) : ∃ m ∈ l, k ∈ m.links := by
  induction l generalizing a with
  | nil => simp [computed] at hv
  | cons n t ih =>
    have up : ∀ {a}, computed a t = some v → ∃ m ∈ n :: t, k ∈ m.links := by
      intro a h
      obtain ⟨m, hm, hk⟩ := ih h
      exact ⟨m, List.mem_cons_of_mem _ hm, hk⟩
    have own : ∀ {a}, n.get a = some v → ∃ m ∈ n :: t, k ∈ m.links :=
      fun h => ⟨n, List.mem_cons_self, link_of_get h ht⟩
    simp only [computed] at hv
    split at hv
    · cases hg : n.get a with
      | none => rw [hg] at hv; exact up hv
      | some w => rw [hg] at hv; cases hv; exact own hg
    · split at hv
      · exact up hv
      · exact up hv
      · split at hv
        · exact up hv
        · exact up hv
        · exact up hv
        next w _ _ hg => cases hv; exact own hg
      next w _ _ hg => cases hv; exact own hg

/-- Only the key, the own colour and the links of the node matter. -/
theorem body_bad {anc anc' : List Node} {n : Node} (hn : (n.attrs.map (·.name)).Nodup) (hc : NoColorLoop n)
    (hA : Agree anc anc') (hself : ∀ m ∈ n :: anc, n.key ∉ m.links) :
    body anc' n ≠ .panic ∧ ∀ e, body anc' n = .err e → ∃ a, Relative n a ∧ computed a (n :: anc) = none := by
  have nolink : ∀ {a l v}, (∀ m ∈ l, m ∈ n :: anc) → computed a l = some v → v.target ≠ some n.key := by
    intro a l v hl hv ht
    obtain ⟨m, hm, hk⟩ := computed_target hv ht
    exact hself m (hl m hm) hk
  have hanc : ∀ m ∈ anc, m ∈ n :: anc := fun m hm => List.mem_cons_of_mem _ hm
  have impl_panic : ∀ {x : Node} {a b}, x.key = n.key → resolveImpl anc' a b x ≠ .panic := by
    intro x a b hx h
    unfold resolveImpl at h
    rw [hA b] at h
    cases hv : computed b anc with
    | none => rw [hv] at h; cases h
    | some v =>
      rw [hv] at h
      simp only [setChecked] at h
      by_cases ht : v.target = some x.key
      · exact nolink hanc hv (by rw [← hx]; exact ht)
      · rw [if_neg ht] at h; cases h
  have impl_err : ∀ {x : Node} {a b e}, resolveImpl anc' a b x = .err e → computed b anc = none := by
    intro x a b e h
    unfold resolveImpl at h
    rw [hA b] at h
    cases hv : computed b anc with
    | none => rfl
    | some v =>
      rw [hv] at h
      simp only [setChecked] at h
      by_cases ht : v.target = some x.key
      · rw [if_pos ht] at h; cases h
      · rw [if_neg ht] at h; cases h
  have impl_key : ∀ {x y : Node} {a b}, resolveImpl anc' a b x = .ok y → y.key = x.key := by
    intro x y a b h
    unfold resolveImpl at h
    split at h
    · rw [getAttr_checked h]; rfl
    · cases h
  by_cases hs : n.isSvgElem = true
  case neg => unfold body; rw [if_neg hs]; exact ⟨by simp, by simp⟩
  have b1 := forAttrs_bad (g := fun a => resolveImpl anc' a a) (l := withKw n .inherit) (n := n)
    (P := fun x => x.key = n.key) rfl (fun a _ x y hx hy => (impl_key hy).trans hx)
  have body_eq : body anc' n = (forAttrs (fun a => resolveImpl anc' a a) (withKw n .inherit) n).bind fun m =>
      forAttrs (fun a => resolveColor anc' a) (withKw n .currentColor) m := by unfold body; rw [if_pos hs]
  -- the second loop
  have second : ∀ {n1}, forAttrs (fun a => resolveImpl anc' a a) (withKw n .inherit) n = .ok n1 →
      forAttrs (fun a => resolveColor anc' a) (withKw n .currentColor) n1 ≠ .panic ∧
      ∀ e, forAttrs (fun a => resolveColor anc' a) (withKw n .currentColor) n1 = .err e →
        ∃ a, Relative n a ∧ computed a (n :: anc) = none := by
    intro n1 h1
    obtain ⟨s1, v1, o1⟩ := forAttrs_const (w := fun a => computed a anc) (P := fun _ => True) (by
      intro a _ n m _ hm
      unfold resolveImpl at hm
      rw [hA a] at hm
      cases hv : computed a anc with
      | none => rw [hv] at hm; cases hm
      | some v => rw [hv] at hm; exact ⟨v, rfl, getAttr_checked hm⟩) (by simp) trivial h1
    have hcol : AId.color ∉ withKw n .currentColor := by
      rw [mem_withKw hn]; exact hc hs
    -- the colour that is read
    have hcolor : ∀ v, n1.get .color = some v → computed .color (n :: anc) = some v := by
      intro v hv
      by_cases hi : n.get .color = some (.kw .inherit)
      · obtain ⟨w, hw, hg⟩ := v1 .color ((mem_withKw hn _ _).2 hi)
        rw [get_some_of hg] at hv
        cases hv
        simp [computed, hs, hi, hw]
      · have : n1.get .color = n.get .color :=
          get_of_getAttr (o1 _ (fun a' ha' e => hi (by cases e; exact (mem_withKw hn _ _).1 ha')))
        rw [this] at hv
        have hcc := hc hs
        simp_all [computed]
    have hcolor' : n1.get .color = none → n.get .color = none := by
      intro hv
      by_cases hi : n.get .color = some (.kw .inherit)
      · obtain ⟨w, hw, hg⟩ := v1 .color ((mem_withKw hn _ _).2 hi)
        rw [get_some_of hg] at hv
        cases hv
      · rw [← get_of_getAttr (n := n) (o1 _ (fun a' ha' e => hi (by cases e; exact (mem_withKw hn _ _).1 ha')))]
        exact hv
    have b2 := forAttrs_bad (g := fun a => resolveColor anc' a) (l := withKw n .currentColor) (n := n1)
      (P := fun x => x.key = n.key ∧ x.get .color = n1.get .color) ⟨s1.1, rfl⟩ (by
        intro a ha x y hx hy
        have : ∃ v, y = x.set a v := by
          unfold resolveColor at hy
          split at hy
          · exact ⟨_, getAttr_checked hy⟩
          · unfold resolveImpl at hy
            split at hy
            · exact ⟨_, getAttr_checked hy⟩
            · cases hy
        obtain ⟨v, rfl⟩ := this
        refine ⟨hx.1, ?_⟩
        rw [ApplyTs.get_set, if_neg (fun e => hcol (by rw [e]; exact ha)), hx.2])
    constructor
    · intro h
      obtain ⟨a, ha, x, hx, hp⟩ := b2.2 h
      unfold resolveColor at hp
      rw [hx.2] at hp
      cases hv : n1.get .color with
      | none => rw [hv] at hp; exact impl_panic hx.1 hp
      | some v =>
        rw [hv] at hp
        simp only [setChecked] at hp
        split at hp
        next ht => exact nolink (fun m hm => hm) (hcolor v hv) (by rw [← hx.1]; exact ht)
        next => cases hp
    · intro e h
      obtain ⟨a, ha, x, hx, hp⟩ := b2.1 e h
      unfold resolveColor at hp
      rw [hx.2] at hp
      cases hv : n1.get .color with
      | none =>
        rw [hv] at hp
        have hnone := impl_err hp
        refine ⟨a, ⟨hs, .inr ((mem_withKw hn _ _).1 ha)⟩, ?_⟩
        simp [computed, hs, (mem_withKw hn _ _).1 ha, hcolor' hv, hnone]
      | some v =>
        rw [hv] at hp
        simp only [setChecked] at hp
        split at hp <;> cases hp
  rw [body_eq]
  constructor
  · intro h
    rcases bind_panic.1 h with h | ⟨n1, h1, h2⟩
    · obtain ⟨a, _, x, hx, hp⟩ := b1.2 h
      exact impl_panic hx hp
    · exact (second h1).1 h2
  · intro e h
    rcases bind_err.1 h with h | ⟨n1, h1, h2⟩
    · obtain ⟨a, ha, x, hx, hp⟩ := b1.1 e h
      have hg := (mem_withKw hn _ _).1 ha
      exact ⟨a, ⟨hs, .inl hg⟩, by simp [computed, hs, hg, impl_err hp]⟩
    · exact (second h1).2 e h2

theorem mapRes_bad {f : Forest} {anc anc' : List Node} (hn : UniqueAttrs f) (hc : ∀ n ∈ f.nodes, NoColorLoop n)
    (hA : Agree anc anc') (hself : ∀ x ∈ located anc f, ∀ m ∈ x.1 :: x.2, x.1.key ∉ m.links) :
    f.mapRes body anc' ≠ .panic ∧ ∀ e, f.mapRes body anc' = .err e →
      ∃ x ∈ located anc f, ∃ a, Relative x.1 a ∧ computed a (x.1 :: x.2) = none := by
  induction f generalizing anc anc' with
  | nil => exact ⟨by simp [Forest.mapRes], by simp [Forest.mapRes]⟩
  | cons n k r ihk ihr =>
    have hb := body_bad (hn n (by simp [Forest.nodes])) (hc n (by simp [Forest.nodes])) hA
      (hself (n, anc) (by simp [located]))
    have hr := ihr (anc := anc) (anc' := anc') (fun x hx => hn x (by simp [Forest.nodes, hx]))
      (fun x hx => hc x (by simp [Forest.nodes, hx])) hA (fun x hx => hself x (by simp [located, hx]))
    have hk : ∀ m, body anc' n = .ok m → _ := fun m hm =>
      ihk (anc := n :: anc) (anc' := m :: anc') (fun x hx => hn x (by simp [Forest.nodes, hx]))
        (fun x hx => hc x (by simp [Forest.nodes, hx]))
        (agree_cons hA (body_spec (hn n (by simp [Forest.nodes])) (hc n (by simp [Forest.nodes])) hA hm))
        (fun x hx => hself x (by simp [located, hx]))
    constructor
    · intro h
      rcases bind_panic.1 h with h | ⟨m, h1, h⟩
      · exact hb.1 h
      · rcases bind_panic.1 h with h | ⟨k', h2, h⟩
        · exact (hk m h1).1 h
        · rcases bind_panic.1 h with h | ⟨r', h3, h⟩
          · exact hr.1 h
          · cases h
    · intro e h
      rcases bind_err.1 h with h | ⟨m, h1, h⟩
      · obtain ⟨a, ha⟩ := hb.2 e h
        exact ⟨(n, anc), by simp [located], a, ha⟩
      · rcases bind_err.1 h with h | ⟨k', h2, h⟩
        · obtain ⟨x, hx, ha⟩ := (hk m h1).2 e h
          exact ⟨x, by simp [located, hx], ha⟩
        · rcases bind_err.1 h with h | ⟨r', h3, h⟩
          · obtain ⟨x, hx, ha⟩ := hr.2 e h
            exact ⟨x, by simp [located, hx], ha⟩
          · cases h

/-- C34: the run fails exactly if some `inherit` or `currentColor` has no value to stand for, rather than guessing.  It does
not crash, unless an element refers to something inside it or to itself. -/
theorem C34_fails_iff {f : Forest} (hn : UniqueAttrs f) (hc : ∀ n ∈ f.nodes, NoColorLoop n)
    (hself : ∀ x ∈ located [] f, ∀ m ∈ x.1 :: x.2, x.1.key ∉ m.links) :
    resolveInherit f ≠ .panic ∧ ((∃ e, resolveInherit f = .err e) ↔
      ∃ x ∈ located [] f, ∃ a, Relative x.1 a ∧ computed a (x.1 :: x.2) = none) := by
  have hb := mapRes_bad hn hc agree_nil hself
  refine ⟨hb.1, fun ⟨e, he⟩ => hb.2 e he, ?_⟩
  rintro ⟨x, hx, a, hr, hnone⟩
  cases h : resolveInherit f with
  | err e => exact ⟨e, rfl⟩
  | panic => exact absurd h hb.1
  | ok g =>
    exfalso
    obtain ⟨y, _, hy⟩ := Stops.forall2_left (C34_resolved_partial hn hc h).1 hx
    obtain ⟨v, hv, _⟩ := hy.value a hr
    rw [hnone] at hv
    cases hv

/-! ### Examples and counterexamples -/

def node (k : Nat) (e : EId) (as : List (AId × Value)) : Node :=
  ⟨k, .elem e, "", as.map fun x => ⟨.id x.1, x.2, true⟩⟩

def sample : Forest :=
  .cons (node 0 .svg [(.fill, .color 255 0 0), (.color, .color 0 0 255)])
    (.cons (node 1 .g [(.fill, .kw .inherit)])
      (.cons (node 2 .rect [(.fill, .kw .inherit), (.stroke, .kw .currentColor)]) .nil .nil) .nil) .nil

def sampleOut : Forest :=
  .cons (node 0 .svg [(.fill, .color 255 0 0), (.color, .color 0 0 255)])
    (.cons (node 1 .g [(.fill, .color 255 0 0)])
      (.cons (node 2 .rect [(.fill, .color 255 0 0), (.stroke, .color 0 0 255)]) .nil .nil) .nil) .nil

theorem noColorLoop_iff (n : Node) : NoColorLoop n ↔ (n.isSvgElem = true → n.get .color ≠ some (.kw .currentColor)) := Iff.rfl
instance (n : Node) : Decidable (NoColorLoop n) := decidable_of_iff _ (noColorLoop_iff n).symm
instance (f : Forest) : Decidable (UniqueAttrs f) := by unfold UniqueAttrs; infer_instance

example : UniqueAttrs sample ∧ (∀ n ∈ sample.nodes, NoColorLoop n) ∧
    (∀ x ∈ located [] sample, ∀ m ∈ x.1 :: x.2, x.1.key ∉ m.links) ∧ resolveInherit sample = .ok sampleOut := by
  decide +kernel

/-- C34 without the restriction. -/
def C34_full : Prop := ∀ f g : Forest, UniqueAttrs f → resolveInherit f = .ok g →
  List.Forall₂ ResolvedTo (located [] f) (located [] g)

/-- `<svg color="blue"><g color="currentColor"/></svg>` -/
def colorLoop : Forest :=
  .cons (node 0 .svg [(.color, .color 0 0 255)]) (.cons (node 1 .g [(.color, .kw .currentColor)]) .nil .nil) .nil

/-- C34 is false for `color="currentColor"`, which stays as it is. -/
theorem C34_refuted_color : ¬ C34_full := by
  intro h
  have hr : resolveInherit colorLoop = .ok colorLoop := by decide +kernel
  have := h colorLoop colorLoop (by decide +kernel) hr
  have h2 := Stops.forall2_right this (y := (node 1 .g [(.color, .kw .currentColor)], [node 0 .svg [(.color, .color 0 0 255)]]))
    (by decide +kernel)
  obtain ⟨x, hx, hxy⟩ := h2
  have hk := hxy.same.1
  have : x = (node 1 .g [(.color, .kw .currentColor)], [node 0 .svg [(.color, .color 0 0 255)]]) := by
    have : ∀ x ∈ located [] colorLoop, x.1.key = 1 →
        x = (node 1 .g [(.color, .kw .currentColor)], [node 0 .svg [(.color, .color 0 0 255)]]) := by decide +kernel
    exact this x hx hk.symm
  subst this
  obtain ⟨v, hv, hg⟩ := hxy.value .color (by decide +kernel)
  have e1 : computed .color ([node 1 .g [(.color, .kw .currentColor)], node 0 .svg [(.color, .color 0 0 255)]]) =
      some (.color 0 0 255) := by decide +kernel
  rw [e1] at hv
  cases hv
  revert hg
  decide +kernel

/-- What CSS says for a property that is not inherited: `inherit` stands for the parent's computed value, which is the
initial value `d` if the parent has none. -/
def computedNonInherited (d : Value) (a : AId) : List Node → Value
  | [] => d
  | n :: t =>
    match n.get a with
    | none => d
    | some (.kw .inherit) => computedNonInherited d a t
    | some v => v

/-- `<svg opacity="0.5"><g><rect opacity="inherit"/></g></svg>` -/
def farOpacity : Forest :=
  .cons (node 0 .svg [(.opacity, .number (1 / 2))])
    (.cons (node 1 .g []) (.cons (node 2 .rect [(.opacity, .kw .inherit)]) .nil .nil) .nil) .nil

/-- For properties that CSS does not inherit the pass looks too far up: the parent of the rectangle has opacity 1, so that
`inherit` means 1, but the result says 0.5. -/
theorem C34_refuted_noninherited :
    computedNonInherited (.number 1) .opacity [node 2 .rect [(.opacity, .kw .inherit)], node 1 .g [],
      node 0 .svg [(.opacity, .number (1 / 2))]] = .number 1 ∧
    ∃ g, resolveInherit farOpacity = .ok g ∧ node 2 .rect [(.opacity, .number (1 / 2))] ∈ g.nodes := by
  refine ⟨by decide +kernel, _, rfl, by decide +kernel⟩

/-- `<g clip-path="url(#c)"><clipPath id="c" clip-path="inherit"/></g>`: the clip path would refer to itself. -/
def selfReference : Forest :=
  .cons (node 0 .g [(.clipPath, .funcLink 1)]) (.cons (node 1 .clipPath [(.clipPath, .kw .inherit)]) .nil .nil) .nil

/-- The condition of `C34_fails_iff` is needed. -/
theorem C34_crashes : resolveInherit selfReference = .panic := by decide +kernel

end Verif.Inherit
