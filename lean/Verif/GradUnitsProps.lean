import Verif.GradUnits
import Verif.ApplyGradTs
/-
C45: factoring out `gradientUnits` keeps the value of every attribute of every gradient that paints.
-/
namespace Verif.GradUnits
open Verif.Dom Verif.Spec Verif.Gradients
open Verif.ApplyTs (SameBut effective_total gradientValue_congr written_set written_same isGradient_iff)

/-! ### Vocabulary -/

/-- Documents as they are when the task starts: references between gradients are written, are made by `xlink:href` only, are
to gradients and have no cycles; every gradient has (possibly hidden) the `gradientUnits` that the standard gives to it
(C26), which is one of the two values of the standard. -/
structure Ready (f : Forest) : Prop where
  uniq : f.UniqueKeys
  href : HrefOk f
  shown : ∀ n ∈ f.nodes, n.isGradient = true → written n .xlinkHref = n.get .xlinkHref
  only : OnlyHref f
  names : ∀ n ∈ f.nodes, (n.attrs.map (·.name)).Nodup
  resolved : ∀ n ∈ f.nodes, n.isGradient = true → ∀ v, n.get .gradientUnits = some v ↔ GradientValue f n .gradientUnits v
  units : ∀ n ∈ f.nodes, n.isGradient = true → ∀ v, n.get .gradientUnits = some v →
    v = .kw .objectBoundingBox ∨ v = .kw .userSpaceOnUse

/-- Nothing but gradients refers to the node: it serves only as a source of attributes and stops. -/
def OnlySource (f : Forest) (k : Nat) : Prop := ∀ x ∈ f.nodes, k ∈ x.links → x.isGradient = true

/-! ### Single nodes -/

theorem getAttr_hideNode (n : Node) (a : AId) (b : AName) : getAttr (n.hide a).attrs b =
    if b = .id a then (getAttr n.attrs b).map (fun x => { x with visible := false }) else getAttr n.attrs b := by
  unfold Node.hide
  simp only [getAttr_hide]
  by_cases h : b = .id a
  · simp [h]
  · simp only [h, if_false]
    cases getAttr n.attrs b <;> rfl

theorem get_hide (n : Node) (a b : AId) : (n.hide a).get b = n.get b := by
  unfold Node.get
  rw [getAttr_hideNode]
  split
  · cases getAttr n.attrs (.id b) <;> rfl
  · rfl

theorem written_hide (n : Node) (a b : AId) : written (n.hide a) b = if b = a then none else written n b := by
  unfold written
  rw [getAttr_hideNode]
  by_cases h : b = a
  · subst h
    simp only [if_true]
    cases getAttr n.attrs (.id b) <;> rfl
  · rw [if_neg (by intro e; cases e; exact h rfl), if_neg h]

theorem SameBut.hide {as : List AId} (n : Node) {a : AId} (ha : a ∈ as) : SameBut as n (n.hide a) :=
  ⟨rfl, rfl, rfl, fun b hb => by rw [getAttr_hideNode, if_neg (hb a ha)]⟩

theorem written_get {n : Node} {a : AId} {v : Value} (h : written n a = some v) : n.get a = some v := by
  unfold written at h
  unfold Node.get
  cases hg : getAttr n.attrs (.id a) with
  | none => rw [hg] at h; cases h
  | some x =>
    rw [hg] at h
    simp only at h
    split at h
    · rw [← h]; rfl
    · cases h

theorem mem_linkedAll {f : Forest} {k : Nat} {n : Node} : n ∈ f.linkedAll k ↔ n ∈ f.nodes ∧ k ∈ n.links := by
  unfold Forest.linkedAll
  simp only [List.mem_flatMap, List.mem_map, List.mem_filter, decide_eq_true_eq]
  constructor
  · rintro ⟨m, hm, x, ⟨hx, rfl⟩, rfl⟩; exact ⟨hm, hx⟩
  · rintro ⟨h1, h2⟩; exact ⟨n, h1, k, ⟨h2, rfl⟩, rfl⟩

theorem getAttr_of_mem {as : List Attr} (hnd : (as.map (·.name)).Nodup) {x : Attr} (hx : x ∈ as) : getAttr as x.name = some x := by
  induction as with
  | nil => simp at hx
  | cons y t ih =>
    simp only [List.map_cons, List.nodup_cons] at hnd
    unfold getAttr
    rw [List.find?_cons]
    rcases List.mem_cons.1 hx with rfl | hx
    · simp
    · have : y.name ≠ x.name := fun h => hnd.1 (h ▸ List.mem_map_of_mem hx)
      simp only [this, decide_false]
      exact ih hnd.2 hx

/-- In a gradient a reference to `k` is the `xlink:href`. -/
theorem Ready.link {f : Forest} (hf : Ready f) {n : Node} (hn : n ∈ f.nodes) (hg : n.isGradient = true) {k : Nat}
    (hk : k ∈ n.links) : written n .xlinkHref = some (.link k) := by
  obtain ⟨x, hx, ht⟩ := Node.mem_links.1 hk
  have hxn := hf.only n hn hg x hx (by rw [ht]; simp)
  have h1 := getAttr_of_mem (hf.names n hn) hx
  rw [hxn] at h1
  have h2 : written n .xlinkHref = some x.value := by rw [hf.shown n hn hg]; unfold Node.get; rw [h1]; rfl
  obtain ⟨rank, hr⟩ := hf.href
  obtain ⟨t, _, he, _⟩ := hr n hn hg _ h2
  rw [he] at ht h2
  simp only [Value.target, Option.some.injEq] at ht
  rw [h2, ht]

/-! ### A local form of "every gradient has the units that the standard gives to it" -/

def Coherent (f : Forest) : Prop :=
  ∀ n ∈ f.nodes, n.isGradient = true → ∃ v, n.get .gradientUnits = some v ∧ (written n .gradientUnits = some v ∨
    (written n .gradientUnits = none ∧ ((written n .xlinkHref = none ∧ v = .kw .objectBoundingBox) ∨
      ∃ t ∈ f.nodes, written n .xlinkHref = some (.link t.key) ∧ t.get .gradientUnits = some v)))

theorem units_default {n : Node} (hg : n.isGradient = true) : gradientDefault n.kind .gradientUnits = some (.kw .objectBoundingBox) := by
  rcases (isGradient_iff n).1 hg with h | h <;> rw [h] <;> rfl

theorem units_value {f : Forest} {n : Node} {v : Value} : GradientValue f n .gradientUnits v ↔ PlainValue f n .gradientUnits v := by
  unfold GradientValue
  constructor
  · rintro (h | ⟨_, c, hc, _⟩)
    · exact h
    · simp [centreOf] at hc
  · exact .inl

theorem coherent_value {f : Forest} (hu : f.UniqueKeys) (hr : HrefOk f) (hc : Coherent f) {n : Node} (hn : n ∈ f.nodes)
    (hg : n.isGradient = true) {v : Value} (hv : n.get .gradientUnits = some v) : GradientValue f n .gradientUnits v := by
  rw [units_value]
  obtain ⟨rank, hr⟩ := hr
  generalize hk : rank n.key = k
  induction k using Nat.strong_induction_on generalizing n with
  | _ k ih =>
    obtain ⟨w, hw, hc'⟩ := hc n hn hg
    rw [hv] at hw; cases hw
    rcases hc' with h | ⟨h1, ⟨h2, rfl⟩ | ⟨t, ht, h2, h3⟩⟩
    · exact .inl (.own h)
    · exact .inr ⟨.stop h1 h2, units_default hg⟩
    · obtain ⟨t', ht', e, hgt, hlt⟩ := hr n hn hg _ h2
      simp only [Value.link.injEq] at e
      have := Forest.eq_of_key hu ht ht' e
      subst this
      rcases ih _ (hk ▸ hlt) ht hgt h3 rfl with he | ⟨he, hd⟩
      · exact .inl (.ref h1 h2 (Forest.find_of_mem hu ht) he)
      · refine .inr ⟨.ref h1 h2 (Forest.find_of_mem hu ht) he, ?_⟩
        rw [units_default hgt] at hd
        rw [units_default hg]; exact hd

theorem Ready.coherent {f : Forest} (hf : Ready f) : Coherent f := by
  intro n hn hg
  have hres := hf.resolved n hn hg
  cases hw : written n .gradientUnits with
  | some v => exact ⟨v, written_get hw, .inl rfl⟩
  | none =>
    cases hh : written n .xlinkHref with
    | none =>
      exact ⟨_, (hres _).2 (.inl (.inr ⟨.stop hw hh, units_default hg⟩)), .inr ⟨rfl, .inl ⟨rfl, rfl⟩⟩⟩
    | some x =>
      obtain ⟨rank, hr⟩ := hf.href
      obtain ⟨t, ht, rfl, hgt, _⟩ := hr n hn hg x hh
      obtain ⟨e, he⟩ := effective_total hf.uniq ⟨rank, hr⟩ .gradientUnits ht hgt
      have hen : Effective f .gradientUnits n e := .ref hw hh (Forest.find_of_mem hf.uniq ht) he
      have : ∃ v, GradientValue f n .gradientUnits v ∧ GradientValue f t .gradientUnits v := by
        cases e with
        | some v => exact ⟨v, .inl (.inl hen), .inl (.inl he)⟩
        | none => exact ⟨_, .inl (.inr ⟨hen, units_default hg⟩), .inl (.inr ⟨he, units_default hgt⟩)⟩
      obtain ⟨v, h1, h2⟩ := this
      exact ⟨v, (hres v).2 h1, .inr ⟨rfl, .inr ⟨t, ht, rfl, (hf.resolved t ht hgt v).2 h2⟩⟩⟩

/-! ### What the task may do -/

/-- A gradient without reference that only gradients refer to. -/
def Free (f : Forest) (n : Node) : Prop := OnlySource f n.key ∧ n.get .xlinkHref = none

def TwoUnits (n : Node) : Prop := n.get .gradientUnits = some (.kw .objectBoundingBox) ∨ n.get .gradientUnits = some (.kw .userSpaceOnUse)

/-- What may happen to a node of the document `f0`. -/
structure Changed (f0 : Forest) (n m : Node) : Prop where
  same : SameBut [.gradientUnits] n m
  other : n.isGradient = false → m = n
  links : ∀ k ∈ m.links, k ∈ n.links
  units : n.isGradient = true → TwoUnits m
  value : ¬ Free f0 n → m.get .gradientUnits = n.get .gradientUnits

/-- The document `f` has been made from `f0` by such changes. -/
structure Inv (f0 f : Forest) : Prop where
  ex : ∃ h : Node → Node, f = f0.map h ∧ (∀ n, (h n).key = n.key) ∧ ∀ n ∈ f0.nodes, Changed f0 n (h n)

theorem isGradient_congr {n m : Node} (h : m.kind = n.kind) : m.isGradient = n.isGradient := by
  unfold Node.isGradient Node.isTag; rw [h]

theorem Ready.two {f : Forest} (hf : Ready f) {n : Node} (hn : n ∈ f.nodes) (hg : n.isGradient = true) : TwoUnits n := by
  obtain ⟨v, hv, _⟩ := hf.coherent n hn hg
  unfold TwoUnits
  rw [hv]
  rcases hf.units n hn hg v hv with rfl | rfl <;> simp

theorem Inv.init {f : Forest} (hf : Ready f) : Inv f f :=
  ⟨id, (Forest.map_id' (fun _ _ => rfl)).symm, fun _ => rfl,
   fun n hn => ⟨SameBut.refl _ _, fun _ => rfl, fun _ h => h, fun hg => hf.two hn hg, fun _ => rfl⟩⟩

theorem Inv.mem {f0 f : Forest} (hi : Inv f0 f) {m : Node} (hm : m ∈ f.nodes) : ∃ n ∈ f0.nodes, Changed f0 n m := by
  obtain ⟨h, rfl, hk, hc⟩ := hi.ex
  rw [Forest.nodes_map] at hm
  obtain ⟨n, hn, rfl⟩ := List.mem_map.1 hm
  exact ⟨n, hn, hc n hn⟩

theorem Inv.mem' {f0 f : Forest} (hi : Inv f0 f) {n : Node} (hn : n ∈ f0.nodes) : ∃ m ∈ f.nodes, Changed f0 n m := by
  obtain ⟨h, rfl, hk, hc⟩ := hi.ex
  exact ⟨h n, by rw [Forest.nodes_map]; exact List.mem_map_of_mem hn, hc n hn⟩

theorem Inv.uniq {f0 f : Forest} (hf : Ready f0) (hi : Inv f0 f) : f.UniqueKeys := by
  obtain ⟨h, rfl, hk, hc⟩ := hi.ex
  exact (Forest.uniqueKeys_map hk).2 hf.uniq

theorem Inv.href {f0 f : Forest} (hf : Ready f0) (hi : Inv f0 f) : HrefOk f := by
  obtain ⟨rank, hr⟩ := hf.href
  refine ⟨rank, fun m hm hg v hv => ?_⟩
  obtain ⟨n, hn, hc⟩ := hi.mem hm
  rw [isGradient_congr hc.same.kind] at hg
  rw [written_same hc.same (by decide)] at hv
  obtain ⟨t, ht, h1, h2, h3⟩ := hr n hn hg v hv
  obtain ⟨t', ht', hc'⟩ := hi.mem' ht
  refine ⟨t', ht', by rw [hc'.same.key]; exact h1, by rw [isGradient_congr hc'.same.kind]; exact h2, ?_⟩
  rw [hc.same.key, hc'.same.key]; exact h3

theorem Inv.shown {f0 f : Forest} (hf : Ready f0) (hi : Inv f0 f) {m : Node} (hm : m ∈ f.nodes) (hg : m.isGradient = true) :
    written m .xlinkHref = m.get .xlinkHref := by
  obtain ⟨n, hn, hc⟩ := hi.mem hm
  rw [isGradient_congr hc.same.kind] at hg
  rw [written_same hc.same (by decide), hc.same.get (by decide)]
  exact hf.shown n hn hg

theorem Inv.link {f0 f : Forest} (hf : Ready f0) (hi : Inv f0 f) {m : Node} (hm : m ∈ f.nodes) (hg : m.isGradient = true)
    {k : Nat} (hk : k ∈ m.links) : written m .xlinkHref = some (.link k) := by
  obtain ⟨n, hn, hc⟩ := hi.mem hm
  rw [isGradient_congr hc.same.kind] at hg
  rw [written_same hc.same (by decide)]
  exact hf.link hn hg (hc.links k hk)

theorem Inv.two {f0 f : Forest} (hi : Inv f0 f) {m : Node} (hm : m ∈ f.nodes) (hg : m.isGradient = true) : TwoUnits m := by
  obtain ⟨n, hn, hc⟩ := hi.mem hm
  rw [isGradient_congr hc.same.kind] at hg
  exact hc.units hg

/-- Changes one after the other. -/
theorem Inv.map {f0 f : Forest} (hi : Inv f0 f) {h : Node → Node} (hk : ∀ n, (h n).key = n.key)
    (hs : ∀ m ∈ f.nodes, SameBut [.gradientUnits] m (h m) ∧ (m.isGradient = false → h m = m) ∧ (∀ k ∈ (h m).links, k ∈ m.links) ∧
      (m.isGradient = true → TwoUnits (h m)) ∧
      ((∃ x ∈ f.nodes, m.key ∈ x.links ∧ x.isGradient = false) ∨ m.get .xlinkHref ≠ none →
        (h m).get .gradientUnits = m.get .gradientUnits)) : Inv f0 (f.map h) := by
  have hi' := hi
  obtain ⟨u, rfl, hu, hc⟩ := hi.ex
  refine ⟨fun n => h (u n), Forest.map_map _ _ _, fun n => by rw [hk, hu], fun n hn => ?_⟩
  have hm : u n ∈ (f0.map u).nodes := by rw [Forest.nodes_map]; exact List.mem_map_of_mem hn
  obtain ⟨s1, s2, s3, s4, s5⟩ := hs (u n) hm
  have c := hc n hn
  have eg := isGradient_congr c.same.kind
  refine ⟨c.same.trans s1, fun hg => ?_, fun k hk => c.links k (s3 k hk), fun hg => s4 (by rw [eg]; exact hg), fun hf => ?_⟩
  · show h (u n) = n
    rw [s2 (by rw [eg]; exact hg), c.other hg]
  · show (h (u n)).get _ = _
    rw [s5 ?_, c.value hf]
    rw [c.same.get (by decide), c.same.key]
    by_contra hcon
    rw [not_or] at hcon
    refine hf ⟨fun x hx hl => ?_, by simpa using hcon.2⟩
    cases hxg : x.isGradient with
    | true => rfl
    | false =>
      exfalso
      apply hcon.1
      have := (hc x hx).other hxg
      exact ⟨x, by rw [Forest.nodes_map]; exact List.mem_map.2 ⟨x, hx, this⟩, hl, hxg⟩

/-! ### Loops over nodes -/

theorem forEach_rel {upd : Nat → Forest → Option Forest} {S R : Node → Node → Prop}
    (hstep : ∀ k f g, f.UniqueKeys → upd k f = some g → ∃ n ∈ f.nodes, n.key = k ∧
      ∃ u : Node → Node, g = f.modify k u ∧ (∀ x, (u x).key = x.key) ∧ S n (u n))
    (h1 : ∀ n m, S n m → R n m) (h2 : ∀ n m l, S n m → R m l → R n l) {ks : List Nat} {f g : Forest} (hu : f.UniqueKeys)
    (h : forEach upd ks f = some g) :
    ∃ w : Node → Node, g = f.map w ∧ (∀ n, (w n).key = n.key) ∧
      ∀ n ∈ f.nodes, (n.key ∈ ks → R n (w n)) ∧ (n.key ∉ ks → w n = n) := by
  induction ks generalizing f with
  | nil =>
    cases h
    exact ⟨id, (Forest.map_id' (fun _ _ => rfl)).symm, fun _ => rfl, fun n _ => ⟨by simp, fun _ => rfl⟩⟩
  | cons k t ih =>
    simp only [forEach, Option.bind_eq_some_iff] at h
    obtain ⟨f1, e1, e2⟩ := h
    obtain ⟨n, hn, hnk, u, rfl, huk, hS⟩ := hstep k f f1 hu e1
    have hk' : ∀ x, (if x.key = k then u x else x).key = x.key := by intro x; split <;> simp [huk]
    obtain ⟨w, rfl, hw, hr⟩ := ih ((Forest.uniqueKeys_map hk').2 hu) e2
    refine ⟨fun x => w (if x.key = k then u x else x), Forest.map_map _ _ _, fun x => by rw [hw, hk'], fun x hx => ?_⟩
    have hx' : (if x.key = k then u x else x) ∈ (f.modify k u).nodes := by
      unfold Forest.modify; rw [Forest.nodes_map]; exact List.mem_map_of_mem (f := fun x => if x.key = k then u x else x) hx
    obtain ⟨r1, r2⟩ := hr _ hx'
    rw [hk'] at r1 r2
    by_cases hxk : x.key = k
    · have : x = n := Forest.eq_of_key hu hx hn (by rw [hxk, hnk])
      subst this
      simp only [if_pos hxk] at r1 r2 ⊢
      refine ⟨fun _ => ?_, fun h => absurd (by simp [hxk]) h⟩
      by_cases hxt : x.key ∈ t
      · exact h2 _ _ _ hS (r1 hxt)
      · rw [r2 hxt]; exact h1 _ _ hS
    · simp only [if_neg hxk] at r1 r2 ⊢
      simp only [List.mem_cons, hxk, false_or]
      exact ⟨r1, r2⟩

theorem links_hide' (n : Node) (a : AId) : ∀ k ∈ (n.hide a).links, k ∈ n.links := by
  intro k hk; rwa [Node.links_hide] at hk

theorem links_set_kw (n : Node) (a : AId) (v : Kw) : ∀ k ∈ (n.set a (.kw v)).links, k ∈ n.links := by
  intro k hk
  rcases Node.links_set_subset n a _ hk with h | h
  · cases h
  · exact h

theorem hideUnits_step {k : Nat} {f g : Forest} (h : hideUnits k f = some g) :
    ∃ n ∈ f.nodes, n.key = k ∧ ∃ u : Node → Node, g = f.modify k u ∧ (∀ x, (u x).key = x.key) ∧ u n = n.hide .gradientUnits := by
  unfold hideUnits at h
  rw [Option.bind_eq_some_iff] at h
  obtain ⟨n, hn, h⟩ := h
  obtain ⟨hm, hk⟩ := Forest.find_some hn
  split at h
  · cases h
    exact ⟨n, hm, hk, _, rfl, fun _ => rfl, rfl⟩
  · cases h

theorem shareUnits_step {maj other : Kw} {k : Nat} {f g : Forest} (h : shareUnits maj other k f = some g) :
    ∃ n ∈ f.nodes, n.key = k ∧ ∃ u : Node → Node, g = f.modify k u ∧ (∀ x, (u x).key = x.key) ∧
      ((n.get .gradientUnits = some (.kw maj) ∧ u n = n.hide .gradientUnits) ∨
       (n.get .gradientUnits ≠ some (.kw maj) ∧ n.get .gradientUnits ≠ none ∧ u n = n.set .gradientUnits (.kw other)) ∨
       (n.get .gradientUnits = none ∧ u n = n)) := by
  unfold shareUnits at h
  rw [Option.bind_eq_some_iff] at h
  obtain ⟨n, hn, h⟩ := h
  obtain ⟨hm, hk⟩ := Forest.find_some hn
  split at h
  · rename_i v hv
    split at h
    · rename_i he
      unfold hideUnits at h
      rw [hn, Option.bind_some] at h
      split at h
      · cases h
        exact ⟨n, hm, hk, _, rfl, fun _ => rfl, .inl ⟨by rw [hv, he], rfl⟩⟩
      · cases h
    · rename_i he
      cases h
      refine ⟨n, hm, hk, _, rfl, fun _ => rfl, .inr (.inl ⟨?_, by simp [hv], rfl⟩)⟩
      rw [hv]; simpa using he
  · rename_i hv
    cases h
    refine ⟨n, hm, hk, id, ?_, fun _ => rfl, .inr (.inr ⟨hv, rfl⟩)⟩
    unfold Forest.modify
    exact (Forest.map_id' (fun _ _ => by simp)).symm

/-! ### Coherence is kept -/

theorem coherent_map {f : Forest} {h : Node → Node} (hk : ∀ n, (h n).key = n.key)
    (hs : ∀ m ∈ f.nodes, SameBut [.gradientUnits] m (h m))
    (hc : ∀ m ∈ f.nodes, m.isGradient = true → ∃ v, (h m).get .gradientUnits = some v ∧
      (written (h m) .gradientUnits = some v ∨ (written (h m) .gradientUnits = none ∧
        ((written m .xlinkHref = none ∧ v = .kw .objectBoundingBox) ∨
          ∃ t ∈ f.nodes, written m .xlinkHref = some (.link t.key) ∧ (h t).get .gradientUnits = some v)))) :
    Coherent (f.map h) := by
  intro m' hm' hg
  rw [Forest.nodes_map] at hm'
  obtain ⟨m, hm, rfl⟩ := List.mem_map.1 hm'
  have s := hs m hm
  rw [isGradient_congr s.kind] at hg
  obtain ⟨v, h1, h2⟩ := hc m hm hg
  refine ⟨v, h1, ?_⟩
  rw [written_same s (b := .xlinkHref) (by decide)]
  rcases h2 with h2 | ⟨h2, h3 | ⟨t, ht, h3, h4⟩⟩
  · exact .inl h2
  · exact .inr ⟨h2, .inl h3⟩
  · exact .inr ⟨h2, .inr ⟨h t, by rw [Forest.nodes_map]; exact List.mem_map_of_mem ht, by rw [hk]; exact h3, h4⟩⟩

theorem equalStep_spec {f0 f g : Forest} (hf : Ready f0) (hi : Inv f0 f) (hc : Coherent f) {n : Node} (hn : n ∈ f.nodes)
    (hg : n.isGradient = true) (h : equalStep n.key f = some g) : Inv f0 g ∧ Coherent g := by
  have hu := hi.uniq hf
  unfold equalStep at h
  rw [Forest.find_of_mem hu hn, Option.bind_some] at h
  split at h
  · rename_i l hl
    rw [Option.bind_eq_some_iff] at h
    obtain ⟨t, ht, h⟩ := h
    obtain ⟨htm, rfl⟩ := Forest.find_some ht
    split at h
    · rename_i he
      obtain ⟨n', hn', hk', u, rfl, huk, hun⟩ := hideUnits_step h
      have := Forest.eq_of_key hu hn' hn hk'
      subst this
      have hcase : ∀ m ∈ f.nodes, (m = n' ∧ (if m.key = n'.key then u m else m) = n'.hide .gradientUnits) ∨
          (m.key ≠ n'.key ∧ (if m.key = n'.key then u m else m) = m) := by
        intro m hm
        by_cases hmk : m.key = n'.key
        · have := Forest.eq_of_key hu hm hn' hmk
          subst this
          exact .inl ⟨rfl, by simp [hun]⟩
        · exact .inr ⟨hmk, if_neg hmk⟩
      have hkey : ∀ x, (if x.key = n'.key then u x else x).key = x.key := by intro x; split <;> simp [huk]
      have hget : ∀ m ∈ f.nodes, (if m.key = n'.key then u m else m).get .gradientUnits = m.get .gradientUnits := by
        intro m hm
        rcases hcase m hm with ⟨rfl, e⟩ | ⟨_, e⟩ <;> rw [e]
        rw [get_hide]
      have hsame : ∀ m ∈ f.nodes, SameBut [.gradientUnits] m (if m.key = n'.key then u m else m) := by
        intro m hm
        rcases hcase m hm with ⟨rfl, e⟩ | ⟨_, e⟩ <;> rw [e]
        · exact SameBut.hide _ (by simp)
        · exact SameBut.refl _ _
      unfold Forest.modify
      constructor
      · refine hi.map hkey (fun m hm => ⟨hsame m hm, ?_, ?_, ?_, fun _ => hget m hm⟩)
        · intro hmg
          rcases hcase m hm with ⟨rfl, e⟩ | ⟨_, e⟩
          · rw [hg] at hmg; cases hmg
          · exact e
        · rcases hcase m hm with ⟨rfl, e⟩ | ⟨_, e⟩ <;> rw [e]
          · exact links_hide' _ _
          · exact fun _ h => h
        · intro hmg
          have := hi.two hm hmg
          unfold TwoUnits at *
          rwa [hget m hm]
      · refine coherent_map hkey hsame (fun m hm hmg => ?_)
        obtain ⟨v, h1, h2⟩ := hc m hm hmg
        refine ⟨v, by rw [hget m hm]; exact h1, ?_⟩
        rcases hcase m hm with ⟨rfl, e⟩ | ⟨_, e⟩ <;> rw [e]
        · refine .inr ⟨by rw [written_hide, if_pos rfl], .inr ⟨t, htm, ?_, ?_⟩⟩
          · rw [hi.shown hf hm hmg]; exact hl
          · rw [hget t htm, ← he]; exact h1
        · rcases h2 with h2 | ⟨h2, h3 | ⟨t, ht, h3, h4⟩⟩
          · exact .inl h2
          · exact .inr ⟨h2, .inl h3⟩
          · exact .inr ⟨h2, .inr ⟨t, ht, h3, by rw [hget t ht]; exact h4⟩⟩
    · cases h; exact ⟨hi, hc⟩
  · cases h; exact ⟨hi, hc⟩

/-- A gradient of the document has this key. -/
def GradKey (f : Forest) (k : Nat) : Prop := ∃ n ∈ f.nodes, n.key = k ∧ n.isGradient = true

theorem Inv.gradKey {f0 f : Forest} (hi : Inv f0 f) {k : Nat} (h : GradKey f0 k) : GradKey f k := by
  obtain ⟨n, hn, rfl, hg⟩ := h
  obtain ⟨m, hm, hc⟩ := hi.mem' hn
  exact ⟨m, hm, hc.same.key, by rw [isGradient_congr hc.same.kind]; exact hg⟩

theorem equalSteps_spec {f0 f g : Forest} (hf : Ready f0) {l : List Nat} (hl : ∀ k ∈ l, GradKey f0 k) (hi : Inv f0 f)
    (hc : Coherent f) (h : forEach equalStep l f = some g) : Inv f0 g ∧ Coherent g := by
  induction l generalizing f with
  | nil => cases h; exact ⟨hi, hc⟩
  | cons k t ih =>
    simp only [forEach, Option.bind_eq_some_iff] at h
    obtain ⟨f1, e1, e2⟩ := h
    obtain ⟨n, hn, rfl, hg⟩ := hi.gradKey (hl k (by simp))
    obtain ⟨i1, c1⟩ := equalStep_spec hf hi hc hn hg e1
    exact ih (fun k hk => hl k (by simp [hk])) i1 c1 e2

theorem decrease_keys {f : Forest} {done : List Nat} {o o' : List (Nat × Nat)} (h : decrease f done o = some o') :
    o'.map (·.1) = o.map (·.1) := by
  induction o generalizing o' with
  | nil => cases h; rfl
  | cons p t ih =>
    obtain ⟨k, c⟩ := p
    simp only [decrease] at h
    split at h
    · rw [Option.map_eq_some_iff] at h
      obtain ⟨t', e, rfl⟩ := h
      simp [ih e]
    · cases h

theorem equalLoop_spec {f0 f g : Forest} (hf : Ready f0) {fuel : Nat} {o : List (Nat × Nat)} (ho : ∀ p ∈ o, GradKey f0 p.1)
    (hi : Inv f0 f) (hc : Coherent f) (h : equalLoop fuel f o = some g) : Inv f0 g ∧ Coherent g := by
  induction fuel generalizing f o with
  | zero =>
    unfold equalLoop at h
    split at h
    · cases h; exact ⟨hi, hc⟩
    · cases h
  | succ n ih =>
    unfold equalLoop at h
    split at h
    · cases h; exact ⟨hi, hc⟩
    · simp only [Option.bind_eq_some_iff] at h
      obtain ⟨⟨f1, o1⟩, h1, h2⟩ := h
      unfold equalRound at h1
      simp only [Option.bind_eq_some_iff, Option.map_eq_some_iff, Prod.mk.injEq] at h1
      obtain ⟨f2, e1, o2, e2, rfl, rfl⟩ := h1
      obtain ⟨i1, c1⟩ := equalSteps_spec hf (l := (o.filter (fun p => decide (p.2 = 0))).map (·.1)) (by
        intro k hk
        obtain ⟨p, hp, rfl⟩ := List.mem_map.1 hk
        exact ho p (List.mem_of_mem_filter hp)) hi hc e1
      refine ih (fun p hp => ?_) i1 c1 h2
      have : p.1 ∈ o2.map (·.1) := List.mem_map_of_mem hp
      rw [decrease_keys e2] at this
      obtain ⟨q, hq, e⟩ := List.mem_map.1 this
      rw [← e]
      exact ho q (List.mem_of_mem_filter hq)

theorem rmEqual_spec {f g : Forest} (hf : Ready f) (h : rmEqual f = some g) : Inv f g ∧ Coherent g := by
  refine equalLoop_spec hf (fun p hp => ?_) (Inv.init hf) hf.coherent h
  unfold startOrder at hp
  obtain ⟨n, hn, rfl⟩ := List.mem_map.1 hp
  rw [List.mem_filter] at hn
  simp only [Bool.and_eq_true] at hn
  exact ⟨n, hn.1, rfl, hn.2.1⟩

/-! ### Sharing units -/

/-- What happens to a gradient whose units may be left to the gradient it refers to, which has the units `v`. -/
structure Shared (v : Kw) (n m : Node) : Prop where
  same : SameBut [.gradientUnits] n m
  links : ∀ k ∈ m.links, k ∈ n.links
  get : m.get .gradientUnits = n.get .gradientUnits
  shown : written m .gradientUnits = m.get .gradientUnits ∨
    (written m .gradientUnits = none ∧ n.get .gradientUnits = some (.kw v))

theorem written_get_set (n : Node) (v : Value) : written (n.set .gradientUnits v) .gradientUnits = some v ∧
    (n.set .gradientUnits v).get .gradientUnits = some v := by
  have h : written (n.set .gradientUnits v) .gradientUnits = some v := by rw [written_set, if_pos rfl]
  exact ⟨h, written_get h⟩

theorem hide_loop {v : Kw} {ks : List Nat} {f g : Forest} (hu : f.UniqueKeys)
    (hv : ∀ n ∈ f.nodes, n.key ∈ ks → n.get .gradientUnits = some (.kw v)) (h : forEach hideUnits ks f = some g) :
    ∃ w : Node → Node, g = f.map w ∧ (∀ n, (w n).key = n.key) ∧
      ∀ n ∈ f.nodes, (n.key ∈ ks → Shared v n (w n)) ∧ (n.key ∉ ks → w n = n) := by
  obtain ⟨w, h1, h2, h3⟩ := forEach_rel (S := fun n m => m = n.hide .gradientUnits)
    (R := fun n m => SameBut [.gradientUnits] n m ∧ (∀ k ∈ m.links, k ∈ n.links) ∧ m.get .gradientUnits = n.get .gradientUnits ∧
      written m .gradientUnits = none)
    (fun k f g _ h => hideUnits_step h)
    (by
      rintro n _ rfl
      exact ⟨SameBut.hide _ (by simp), links_hide' _ _, get_hide _ _ _, by rw [written_hide, if_pos rfl]⟩)
    (by
      rintro n _ l rfl ⟨s, hl, hg, hw⟩
      exact ⟨(SameBut.hide _ (by simp)).trans s, fun k hk => links_hide' _ _ k (hl k hk), by rw [hg, get_hide], hw⟩)
    hu h
  refine ⟨w, h1, h2, fun n hn => ⟨fun hk => ?_, (h3 n hn).2⟩⟩
  obtain ⟨s, hl, hg, hw⟩ := (h3 n hn).1 hk
  exact ⟨s, hl, hg, .inr ⟨hw, hv n hn hk⟩⟩

theorem share_loop {maj other : Kw} (ho : ∀ v : Value, v = .kw .objectBoundingBox ∨ v = .kw .userSpaceOnUse → v ≠ .kw maj → v = .kw other)
    {ks : List Nat} {f g : Forest} (hu : f.UniqueKeys)
    (hv : ∀ n ∈ f.nodes, n.key ∈ ks → TwoUnits n) (h : forEach (shareUnits maj other) ks f = some g) :
    ∃ w : Node → Node, g = f.map w ∧ (∀ n, (w n).key = n.key) ∧
      ∀ n ∈ f.nodes, (n.key ∈ ks → Shared maj n (w n)) ∧ (n.key ∉ ks → w n = n) := by
  obtain ⟨w, h1, h2, h3⟩ := forEach_rel
    (S := fun n m => (n.get .gradientUnits = some (.kw maj) ∧ m = n.hide .gradientUnits) ∨
       (n.get .gradientUnits ≠ some (.kw maj) ∧ n.get .gradientUnits ≠ none ∧ m = n.set .gradientUnits (.kw other)) ∨
       (n.get .gradientUnits = none ∧ m = n))
    (R := fun n m => TwoUnits n → Shared maj n m)
    (fun k f g _ h => shareUnits_step h)
    (by
      rintro n _ (⟨h1, rfl⟩ | ⟨h1, h2, rfl⟩ | ⟨h1, rfl⟩) ht
      · exact ⟨SameBut.hide _ (by simp), links_hide' _ _, get_hide _ _ _, .inr ⟨by rw [written_hide, if_pos rfl], h1⟩⟩
      · obtain ⟨v, hv⟩ := Option.ne_none_iff_exists'.1 h2
        have : v = .kw other := ho v (by rcases ht with ht | ht <;> rw [hv] at ht <;> cases ht <;> simp) (by
          intro e; rw [hv, e] at h1; exact h1 rfl)
        subst this
        refine ⟨ApplyTs.SameBut.set _ (by simp) _, links_set_kw _ _ _, by rw [(written_get_set _ _).2, hv], .inl ?_⟩
        rw [(written_get_set _ _).1, (written_get_set _ _).2]
      · rcases ht with h2 | h2 <;> rw [h1] at h2 <;> cases h2)
    (by
      rintro n _ l (⟨h1, rfl⟩ | ⟨h1, h2, rfl⟩ | ⟨h1, rfl⟩) hr ht
      · have := hr (by unfold TwoUnits; rw [get_hide]; exact ht)
        exact ⟨(SameBut.hide _ (by simp)).trans this.same, fun k hk => links_hide' _ _ k (this.links k hk),
          by rw [this.get, get_hide], by have := this.shown; rwa [get_hide] at this⟩
      · obtain ⟨v, hv⟩ := Option.ne_none_iff_exists'.1 h2
        have : v = .kw other := ho v (by rcases ht with ht | ht <;> rw [hv] at ht <;> cases ht <;> simp) (by
          intro e; rw [hv, e] at h1; exact h1 rfl)
        subst this
        have hgs := (written_get_set n (.kw other)).2
        have := hr (by unfold TwoUnits at *; rw [hgs, ← hv]; exact ht)
        exact ⟨(ApplyTs.SameBut.set _ (by simp) _).trans this.same, fun k hk => links_set_kw _ _ _ k (this.links k hk),
          by rw [this.get, hgs, hv], by have := this.shown; rwa [hgs, ← hv] at this⟩
      · exact hr ht)
    hu h
  exact ⟨w, h1, h2, fun n hn => ⟨fun hk => (h3 n hn).1 hk (hv n hn hk), (h3 n hn).2⟩⟩

theorem hideDefault_step {k : Nat} {f g : Forest} (h : hideDefault k f = some g) :
    ∃ n ∈ f.nodes, n.key = k ∧ ∃ u : Node → Node, g = f.modify k u ∧ (∀ x, (u x).key = x.key) ∧
      ((n.get .gradientUnits = some (.kw .objectBoundingBox) ∧ u n = n.hide .gradientUnits) ∨
       (n.get .gradientUnits ≠ some (.kw .objectBoundingBox) ∧ u n = n)) := by
  unfold hideDefault at h
  rw [Option.bind_eq_some_iff] at h
  obtain ⟨n, hn, h⟩ := h
  obtain ⟨hm, hk⟩ := Forest.find_some hn
  split at h
  · rename_i he
    unfold hideUnits at h
    rw [hn, Option.bind_some] at h
    split at h
    · cases h
      exact ⟨n, hm, hk, _, rfl, fun _ => rfl, .inl ⟨he, rfl⟩⟩
    · cases h
  · rename_i he
    cases h
    refine ⟨n, hm, hk, id, ?_, fun _ => rfl, .inr ⟨he, rfl⟩⟩
    unfold Forest.modify
    exact (Forest.map_id' (fun _ _ => by simp)).symm

/-- The whole body: the parent `p` gets the units `v`, its users share them. -/
theorem group_finish {f0 f g1 g : Forest} (hf : Ready f0) (hi : Inv f0 f) (hc : Coherent f) {p : Node} (hp : p ∈ f.nodes)
    (hpg : p.isGradient = true) (hph : p.get .xlinkHref = none) (hps : ∀ x ∈ f.nodes, p.key ∈ x.links → x.isGradient = true)
    {v : Kw} (hv : v = .objectBoundingBox ∨ v = .userSpaceOnUse) {w : Node → Node}
    (hg1 : g1 = (f.modify p.key (fun n => n.set .gradientUnits (.kw v))).map w) (hwk : ∀ n, (w n).key = n.key)
    (hw : ∀ n ∈ f.nodes, n.key ≠ p.key → (p.key ∈ n.links → Shared v n (w n)) ∧ (p.key ∉ n.links → w n = n))
    (hwp : w (p.set .gradientUnits (.kw v)) = p.set .gradientUnits (.kw v))
    (h : hideDefault p.key g1 = some g) : Inv f0 g ∧ Coherent g := by
  have hu := hi.uniq hf
  obtain ⟨q, hq, hqk, u, rfl, huk, hq2⟩ := hideDefault_step h
  subst hg1
  unfold Forest.modify at hq ⊢
  rw [Forest.map_map] at hq ⊢
  rw [Forest.map_map]
  -- the node found at the end is the new parent
  have hqp : q = p.set .gradientUnits (.kw v) := by
    rw [Forest.nodes_map] at hq
    obtain ⟨x, hx, hxq⟩ := List.mem_map.1 hq
    by_cases hxp : x.key = p.key
    · have := Forest.eq_of_key hu hx hp hxp
      subst this
      rw [if_pos rfl, hwp] at hxq
      exact hxq.symm
    · rw [if_neg hxp] at hxq
      rw [← hxq, hwk] at hqk
      exact absurd hqk hxp
  generalize hH : (fun n => if (w (if n.key = p.key then n.set .gradientUnits (.kw v) else n)).key = p.key then
    u (w (if n.key = p.key then n.set .gradientUnits (.kw v) else n))
    else w (if n.key = p.key then n.set .gradientUnits (.kw v) else n)) = H
  have hcase : ∀ m ∈ f.nodes, (m = p ∧ H m = u (p.set .gradientUnits (.kw v))) ∨ (m.key ≠ p.key ∧ H m = w m) := by
    intro m hm
    subst hH
    by_cases hmp : m.key = p.key
    · have := Forest.eq_of_key hu hm hp hmp
      subst this
      left
      refine ⟨rfl, ?_⟩
      simp only [if_true, hwp]
      exact if_pos rfl
    · right
      refine ⟨hmp, ?_⟩
      simp only [if_neg hmp, hwk]
  have hHk : ∀ n, (H n).key = n.key := by
    intro n; subst hH
    have : (if n.key = p.key then n.set .gradientUnits (.kw v) else n).key = n.key := by split <;> rfl
    simp only
    generalize (if n.key = p.key then n.set .gradientUnits (.kw v) else n) = y at this
    split
    · rw [huk, hwk, this]
    · rw [hwk, this]
  -- the new parent
  obtain ⟨p', hp'⟩ : ∃ p', p' = u (p.set .gradientUnits (.kw v)) := ⟨_, rfl⟩
  have hgs := written_get_set p (.kw v)
  have hp'same : SameBut [.gradientUnits] p p' ∧ (∀ k ∈ p'.links, k ∈ p.links) ∧ p'.get .gradientUnits = some (.kw v) ∧
      (written p' .gradientUnits = some (.kw v) ∨ (written p' .gradientUnits = none ∧ v = .objectBoundingBox)) := by
    subst hqp
    rw [hp']
    rcases hq2 with ⟨e1, e2⟩ | ⟨e1, e2⟩ <;> rw [e2]
    · refine ⟨(ApplyTs.SameBut.set _ (by simp) _).trans (SameBut.hide _ (by simp)),
        fun k hk => links_set_kw _ _ _ k (links_hide' _ _ k hk), by rw [get_hide]; exact hgs.2, .inr ⟨by rw [written_hide, if_pos rfl], ?_⟩⟩
      rw [hgs.2] at e1; simpa using e1
    · exact ⟨ApplyTs.SameBut.set _ (by simp) _, links_set_kw _ _ _, hgs.2, .inl hgs.1⟩
  rw [← hp'] at hcase
  have hnp : p.key ∉ p.links := by
    intro hl
    have := hi.link hf hp hpg hl
    rw [hi.shown hf hp hpg, hph] at this
    cases this
  have hsame : ∀ m ∈ f.nodes, SameBut [.gradientUnits] m (H m) := by
    intro m hm
    rcases hcase m hm with ⟨rfl, e⟩ | ⟨hne, e⟩ <;> rw [e]
    · exact hp'same.1
    · by_cases hl : p.key ∈ m.links
      · exact ((hw m hm hne).1 hl).same
      · rw [(hw m hm hne).2 hl]; exact SameBut.refl _ _
  have hget : ∀ m ∈ f.nodes, m.key ≠ p.key → (H m).get .gradientUnits = m.get .gradientUnits := by
    intro m hm hne
    rcases hcase m hm with ⟨rfl, e⟩ | ⟨hne, e⟩
    · exact absurd rfl hne
    · rw [e]
      by_cases hl : p.key ∈ m.links
      · exact ((hw m hm hne).1 hl).get
      · rw [(hw m hm hne).2 hl]
  constructor
  · refine hi.map hHk (fun m hm => ⟨hsame m hm, ?_, ?_, ?_, ?_⟩)
    · intro hmg
      rcases hcase m hm with ⟨rfl, e⟩ | ⟨hne, e⟩
      · rw [hpg] at hmg; cases hmg
      · rw [e]
        refine (hw m hm hne).2 (fun hl => ?_)
        rw [hps m hm hl] at hmg; cases hmg
    · rcases hcase m hm with ⟨rfl, e⟩ | ⟨hne, e⟩ <;> rw [e]
      · exact hp'same.2.1
      · by_cases hl : p.key ∈ m.links
        · exact ((hw m hm hne).1 hl).links
        · rw [(hw m hm hne).2 hl]; exact fun _ h => h
    · intro hmg
      rcases hcase m hm with ⟨rfl, e⟩ | ⟨hne, e⟩
      · rw [e]; unfold TwoUnits; rw [hp'same.2.2.1]
        rcases hv with rfl | rfl <;> simp
      · have := hi.two hm hmg
        unfold TwoUnits at *
        rwa [hget m hm hne]
    · intro hor
      rcases hcase m hm with ⟨rfl, e⟩ | ⟨hne, e⟩
      · exfalso
        rcases hor with ⟨x, hx, hl, hxg⟩ | hor
        · rw [hps x hx hl] at hxg; cases hxg
        · exact hor hph
      · exact hget m hm hne
  · refine coherent_map hHk hsame (fun m hm hmg => ?_)
    rcases hcase m hm with ⟨rfl, e⟩ | ⟨hne, e⟩
    · rw [e]
      refine ⟨_, hp'same.2.2.1, ?_⟩
      rcases hp'same.2.2.2 with hx | ⟨hx, rfl⟩
      · exact .inl hx
      · exact .inr ⟨hx, .inl ⟨by rw [hi.shown hf hm hmg]; exact hph, rfl⟩⟩
    · obtain ⟨x, h1, h2⟩ := hc m hm hmg
      refine ⟨x, by rw [hget m hm hne]; exact h1, ?_⟩
      by_cases hl : p.key ∈ m.links
      · have s := (hw m hm hne).1 hl
        rw [e]
        rcases s.shown with h | ⟨h, h'⟩
        · left; rw [h, s.get, h1]
        · right
          refine ⟨h, .inr ⟨p, hp, hi.link hf hm hmg hl, ?_⟩⟩
          rcases hcase p hp with ⟨_, e'⟩ | ⟨hne', _⟩
          · rw [e', hp'same.2.2.1, ← h', h1]
          · exact absurd rfl hne'
      · rw [e, (hw m hm hne).2 hl]
        rcases h2 with h2 | ⟨h2, h3 | ⟨t, ht, h3, h4⟩⟩
        · exact .inl h2
        · exact .inr ⟨h2, .inl h3⟩
        · refine .inr ⟨h2, .inr ⟨t, ht, h3, ?_⟩⟩
          rw [hget t ht ?_]; exact h4
          intro htp
          apply hl
          rw [← htp]
          apply href_links
          rw [← hi.shown hf hm hmg]; exact h3

theorem linked_key {f : Forest} (hu : f.UniqueKeys) {k : Nat} {n : Node} (hn : n ∈ f.nodes) :
    n.key ∈ (f.linkedAll k).map (·.key) ↔ k ∈ n.links := by
  rw [List.mem_map]
  constructor
  · rintro ⟨m, hm, e⟩
    obtain ⟨h1, h2⟩ := mem_linkedAll.1 hm
    rwa [← Forest.eq_of_key hu h1 hn e]
  · intro h; exact ⟨n, mem_linkedAll.2 ⟨hn, h⟩, rfl⟩

theorem groupBody_spec {f0 f g : Forest} (hf : Ready f0) (hi : Inv f0 f) (hc : Coherent f) {p : Node} (hp : p ∈ f.nodes)
    (hpg : p.isGradient = true) (hph : p.get .xlinkHref = none) (hps : ∀ x ∈ f.nodes, p.key ∈ x.links → x.isGradient = true)
    (h : groupBody p.key f = some g) : Inv f0 g ∧ Coherent g := by
  have hu := hi.uniq hf
  have hnp : p.key ∉ p.links := by
    intro hl
    have := hi.link hf hp hpg hl
    rw [hi.shown hf hp hpg, hph] at this
    cases this
  have hsk : ∀ v : Kw, ∀ x : Node, (if x.key = p.key then x.set .gradientUnits (.kw v) else x).key = x.key := by
    intro v x; split <;> rfl
  have hus : ∀ v : Kw, (f.modify p.key (fun n => n.set .gradientUnits (.kw v))).UniqueKeys :=
    fun v => (Forest.uniqueKeys_map (hsk v)).2 hu
  -- a node of the changed document is the parent or an old node
  have hmem : ∀ v : Kw, ∀ x ∈ (f.modify p.key (fun n => n.set .gradientUnits (.kw v))).nodes,
      x = p.set .gradientUnits (.kw v) ∨ (x ∈ f.nodes ∧ x.key ≠ p.key) := by
    intro v x hx
    unfold Forest.modify at hx
    rw [Forest.nodes_map] at hx
    obtain ⟨y, hy, rfl⟩ := List.mem_map.1 hx
    by_cases hyp : y.key = p.key
    · have := Forest.eq_of_key hu hy hp hyp
      subst this
      left; rw [if_pos rfl]
    · right; rw [if_neg hyp]; exact ⟨hy, hyp⟩
  have hmem1 : ∀ v : Kw, ∀ n ∈ f.nodes, n.key ≠ p.key → n ∈ (f.modify p.key (fun n => n.set .gradientUnits (.kw v))).nodes := by
    intro v n hn hne
    unfold Forest.modify
    rw [Forest.nodes_map]
    exact List.mem_map.2 ⟨n, hn, if_neg hne⟩
  have hmem2 : ∀ v : Kw, p.set .gradientUnits (.kw v) ∈ (f.modify p.key (fun n => n.set .gradientUnits (.kw v))).nodes := by
    intro v
    unfold Forest.modify
    rw [Forest.nodes_map]
    exact List.mem_map.2 ⟨p, hp, if_pos rfl⟩
  have hpk : p.key ∉ (f.linkedAll p.key).map (·.key) := by rw [linked_key hu hp]; exact hnp
  have hlk : ∀ v : Kw, ∀ x ∈ (f.modify p.key (fun n => n.set .gradientUnits (.kw v))).nodes,
      x.key ∈ (f.linkedAll p.key).map (·.key) → x ∈ f.nodes ∧ x.key ≠ p.key ∧ x ∈ f.linkedAll p.key := by
    intro v x hx hk
    rcases hmem v x hx with rfl | ⟨h1, h2⟩
    · exact absurd hk hpk
    · exact ⟨h1, h2, mem_linkedAll.2 ⟨h1, (linked_key hu h1).1 hk⟩⟩
  have fin : ∀ (v : Kw), v = .objectBoundingBox ∨ v = .userSpaceOnUse → ∀ g1,
      (∃ w : Node → Node, g1 = (f.modify p.key (fun n => n.set .gradientUnits (.kw v))).map w ∧ (∀ n, (w n).key = n.key) ∧
        ∀ n ∈ (f.modify p.key (fun n => n.set .gradientUnits (.kw v))).nodes,
          (n.key ∈ (f.linkedAll p.key).map (·.key) → Shared v n (w n)) ∧ (n.key ∉ (f.linkedAll p.key).map (·.key) → w n = n)) →
      hideDefault p.key g1 = some g → Inv f0 g ∧ Coherent g := by
    rintro v hv g1 ⟨w, hg1, hwk, hw⟩ hd
    refine group_finish hf hi hc hp hpg hph hps hv hg1 hwk (fun n hn hne => ?_) ?_ hd
    · have := hw n (hmem1 v n hn hne)
      rw [linked_key hu hn] at this
      exact this
    · exact (hw _ (hmem2 v)).2 hpk
  have two : ∀ n ∈ f.linkedAll p.key, TwoUnits n := by
    intro n hn
    obtain ⟨h1, h2⟩ := mem_linkedAll.1 hn
    exact hi.two h1 (hps n h1 h2)
  unfold groupBody at h
  simp only [Option.bind_eq_some_iff] at h
  obtain ⟨g1, h1, h2⟩ := h
  split at h1
  · rename_i hcount
    refine fin .objectBoundingBox (.inl rfl) g1 (hide_loop (hus _) (fun n hn hk => ?_) h1) h2
    obtain ⟨_, _, hx⟩ := hlk _ n hn hk
    unfold Forest.usesCount at hcount
    have := List.length_filter_eq_length_iff.1 hcount n hx
    simpa using this
  · split at h1
    · rename_i hcount
      refine fin .userSpaceOnUse (.inr rfl) g1 (hide_loop (hus _) (fun n hn hk => ?_) h1) h2
      obtain ⟨_, _, hx⟩ := hlk _ n hn hk
      rw [List.length_eq_zero_iff, List.filter_eq_nil_iff] at hcount
      have := hcount n hx
      rcases two n hx with ht | ht
      · exact absurd ht (by simpa using this)
      · exact ht
    · split at h1
      · refine fin .objectBoundingBox (.inl rfl) g1 (share_loop ?_ (hus _) (fun n hn hk => two n (hlk _ n hn hk).2.2) h1) h2
        rintro v (rfl | rfl) hne
        · exact absurd rfl hne
        · rfl
      · refine fin .userSpaceOnUse (.inr rfl) g1 (share_loop ?_ (hus _) (fun n hn hk => two n (hlk _ n hn hk).2.2) h1) h2
        rintro v (rfl | rfl) hne
        · rfl
        · exact absurd rfl hne

/-- The gradients that `group_to_parent` treats. -/
def ParentKey (f : Forest) (k : Nat) : Prop := ∃ n ∈ f.nodes, n.key = k ∧ n.isGradient = true ∧ n.get .xlinkHref = none ∧ OnlySource f k

theorem groupSteps_spec {f0 f g : Forest} (hf : Ready f0) {l : List Nat} (hl : ∀ k ∈ l, ParentKey f0 k) (hi : Inv f0 f)
    (hc : Coherent f) (h : forEach groupBody l f = some g) : Inv f0 g ∧ Coherent g := by
  induction l generalizing f with
  | nil => cases h; exact ⟨hi, hc⟩
  | cons k t ih =>
    simp only [forEach, Option.bind_eq_some_iff] at h
    obtain ⟨f1, e1, e2⟩ := h
    obtain ⟨n, hn, rfl, hg, hh, ho⟩ := hl k (by simp)
    obtain ⟨m, hm, hcm⟩ := hi.mem' hn
    rw [← hcm.same.key] at e1
    obtain ⟨i1, c1⟩ := groupBody_spec hf hi hc hm (by rw [isGradient_congr hcm.same.kind]; exact hg)
      (by rw [hcm.same.get (by decide)]; exact hh) (by
        intro x hx hlx
        obtain ⟨y, hy, hcy⟩ := hi.mem hx
        rw [isGradient_congr hcy.same.kind]
        rw [hcm.same.key] at hlx
        exact ho y hy (hcy.links _ hlx)) e1
    exact ih (fun k hk => hl k (by simp [hk])) i1 c1 e2

/-- The parents chosen after the first half are parents in the old document. -/
theorem parents_key {f0 f : Forest} (hi : Inv f0 f) : ∀ k ∈ parents f, ParentKey f0 k := by
  intro k hk
  unfold parents at hk
  obtain ⟨m, hm, rfl⟩ := List.mem_map.1 hk
  rw [List.mem_filter] at hm
  obtain ⟨hm, hb⟩ := hm
  simp only [Bool.and_eq_true, Bool.not_eq_eq_eq_not, Bool.not_true, List.all_eq_true] at hb
  obtain ⟨⟨hg, hh⟩, ha⟩ := hb
  obtain ⟨n, hn, hc⟩ := hi.mem hm
  refine ⟨n, hn, hc.same.key.symm, by rw [← isGradient_congr hc.same.kind]; exact hg, ?_, ?_⟩
  · rw [Node.has_eq] at hh
    rw [← hc.same.get (by decide)]
    simpa using hh
  · intro x hx hl
    cases hxg : x.isGradient with
    | true => rfl
    | false =>
      obtain ⟨h', rfl, hk', hc'⟩ := hi.ex
      have := (hc' x hx).other hxg
      have hx' : x ∈ (f0.map h').nodes := by rw [Forest.nodes_map]; exact List.mem_map.2 ⟨x, hx, this⟩
      have := ha x (mem_linkedAll.2 ⟨hx', hl⟩)
      rw [hxg] at this; cases this

theorem inv_of_remove {f g : Forest} (hf : Ready f) (h : removeGradientAttributes f = some g) : Inv f g ∧ Coherent g := by
  unfold removeGradientAttributes at h
  rw [Option.bind_eq_some_iff] at h
  obtain ⟨f1, h1, h2⟩ := h
  obtain ⟨i1, c1⟩ := rmEqual_spec hf h1
  exact groupSteps_spec hf (parents_key i1) i1 c1 h2

/-! ### The property -/

theorem effective_at {f g : Forest} {h : Node → Node} (hu : f.UniqueKeys) (hg : g = f.map h) (hk : ∀ n, (h n).key = n.key)
    {a : AId} (hw : ∀ n ∈ f.nodes, written (h n) a = written n a)
    (hh : ∀ n ∈ f.nodes, written (h n) .xlinkHref = written n .xlinkHref) {n : Node}
    (hn : n ∈ f.nodes) (v : Option Value) : Effective g a (h n) v ↔ Effective f a n v := by
  have hug : g.UniqueKeys := by rw [hg]; exact (Forest.uniqueKeys_map hk).2 hu
  have hfind : ∀ m ∈ f.nodes, g.find m.key = some (h m) := by
    intro m hm
    have : h m ∈ g.nodes := by rw [hg, Forest.nodes_map]; exact List.mem_map_of_mem hm
    have := Forest.find_of_mem hug this
    rwa [hk m] at this
  constructor
  · intro he
    generalize hx : h n = x at he
    induction he generalizing n with
    | own h1 => subst hx; exact .own (by rw [← hw n hn]; exact h1)
    | @ref y k m v h1 h2 h3 _ ih =>
      subst hx
      obtain ⟨hm, rfl⟩ := Forest.find_some h3
      rw [hg, Forest.nodes_map] at hm
      obtain ⟨m', hm', rfl⟩ := List.mem_map.1 hm
      refine .ref (by rw [← hw n hn]; exact h1) (by rw [← hh n hn, ← hk m']; exact h2)
        (Forest.find_of_mem hu hm') (ih hm' rfl)
    | stop h1 h2 => subst hx; exact .stop (by rw [← hw n hn]; exact h1) (by rw [← hh n hn]; exact h2)
  · intro he
    induction he with
    | own h1 => exact .own (by rw [hw _ hn]; exact h1)
    | @ref y k m v h1 h2 h3 _ ih =>
      obtain ⟨hm, rfl⟩ := Forest.find_some h3
      exact .ref (by rw [hw _ hn]; exact h1) (by rw [hh _ hn]; exact h2) (hfind m hm) (ih hm)
    | stop h1 h2 => exact .stop (by rw [hw _ hn]; exact h1) (by rw [hh _ hn]; exact h2)

/-- **C45** Only `gradientUnits` attributes of gradients change.  For every gradient the value that the standard gives to any
other attribute is the same as before; the value of `gradientUnits` is the same for every gradient that is not just a source
for other gradients (one that something else than a gradient refers to, or that itself refers to another gradient). -/
theorem C45_values_kept {f g : Forest} (hf : Ready f) (h : removeGradientAttributes f = some g) :
    ∃ w : Node → Node, g = f.map w ∧ ∀ n ∈ f.nodes, SameBut [.gradientUnits] n (w n) ∧
      (n.isGradient = false → w n = n) ∧
      (n.isGradient = true → ∀ a, a ≠ .gradientUnits → ∀ v, GradientValue g (w n) a v ↔ GradientValue f n a v) ∧
      (n.isGradient = true → (∃ x ∈ f.nodes, x.isGradient = false ∧ n.key ∈ x.links) ∨ n.get .xlinkHref ≠ none →
        ∀ v, GradientValue g (w n) .gradientUnits v ↔ GradientValue f n .gradientUnits v) := by
  obtain ⟨hi, hc⟩ := inv_of_remove hf h
  obtain ⟨w, rfl, hwk, hw⟩ := hi.ex
  refine ⟨w, rfl, fun n hn => ⟨(hw n hn).same, (hw n hn).other, fun hg a ha v => ?_, fun hg hor v => ?_⟩⟩
  · have e := fun (b : AId) (hb : b ≠ .gradientUnits) (v : Option Value) => effective_at (a := b) hf.uniq rfl hwk
      (fun m hm => written_same (hw m hm).same (by simpa using hb)) (fun m hm => written_same (hw m hm).same (by decide)) hn v
    refine gradientValue_congr (hw n hn).same.kind (e a ha) (fun c hc => e c ?_) v
    intro he
    rw [he] at hc
    unfold centreOf at hc
    split at hc <;> cases hc
  · have hnf : ¬ Free f n := by
      rintro ⟨h1, h2⟩
      rcases hor with ⟨x, hx, hxg, hl⟩ | h3
      · rw [h1 x hx hl] at hxg; cases hxg
      · exact h3 h2
    have hget := (hw n hn).value hnf
    obtain ⟨x, hx, _⟩ := hf.coherent n hn hg
    have v1 := (hf.resolved n hn hg x).1 hx
    have hm : w n ∈ (f.map w).nodes := by rw [Forest.nodes_map]; exact List.mem_map_of_mem hn
    have v2 := coherent_value (hi.uniq hf) (hi.href hf) hc hm (by rw [isGradient_congr (hw n hn).same.kind]; exact hg)
      (by rw [hget]; exact hx)
    constructor
    · intro hv; rw [hv.unique v2]; exact v1
    · intro hv; rw [hv.unique v1]; exact v2

/-! ### The task ends and does not crash -/

theorem forEach_total {upd : Nat → Forest → Option Forest} {P : Forest → Prop} {ks : List Nat}
    (h : ∀ k ∈ ks, ∀ f, P f → ∃ g, upd k f = some g ∧ P g) {f : Forest} (hf : P f) : ∃ g, forEach upd ks f = some g ∧ P g := by
  induction ks generalizing f with
  | nil => exact ⟨f, rfl, hf⟩
  | cons k t ih =>
    obtain ⟨g, h1, h2⟩ := h k (by simp) f hf
    obtain ⟨r, h3, h4⟩ := ih (fun k hk => h k (by simp [hk])) h2
    exact ⟨r, by simp [forEach, h1, h3], h4⟩

theorem refsFrom_inv {f0 f : Forest} (hi : Inv f0 f) (l : List Nat) (k : Nat) : refsFrom f l k = refsFrom f0 l k := by
  obtain ⟨h, rfl, hk, hc⟩ := hi.ex
  unfold refsFrom
  congr 2
  funext x
  rw [Forest.find_map hk]
  cases hx : f0.find x with
  | none => rfl
  | some n =>
    simp only [Option.map_some]
    rw [(hc n (Forest.find_some hx).1).same.get (by decide)]

theorem refsFrom_append (f : Forest) (l l' : List Nat) (k : Nat) : refsFrom f (l ++ l') k = refsFrom f l k + refsFrom f l' k := by
  simp [refsFrom]

theorem refsFrom_perm (f : Forest) {l l' : List Nat} (h : l.Perm l') (k : Nat) : refsFrom f l k = refsFrom f l' k :=
  (h.filter _).length_eq

/-- How often a gradient is entered in the list of users of `k`. -/
theorem links_count {f : Forest} (hf : Ready f) {n : Node} (hn : n ∈ f.nodes) (hg : n.isGradient = true) (k : Nat) :
    (n.links.filter (fun x => decide (x = k))).length = if n.get .xlinkHref = some (.link k) then 1 else 0 := by
  have hattrs : ∀ as : List Attr, (as.map (·.name)).Nodup →
      (∀ x ∈ as, x.value.target ≠ none → x.name = .id .xlinkHref) →
      (∀ x, getAttr as (.id .xlinkHref) = some x → ∃ j, x.value = .link j) →
      ((as.filterMap (fun x => x.value.target)).filter (fun x => decide (x = k))).length =
        if (getAttr as (.id .xlinkHref)).map (·.value) = some (.link k) then 1 else 0 := by
    intro as
    induction as with
    | nil => intros; rfl
    | cons x t ih =>
      intro hnd ho hl
      simp only [List.map_cons, List.nodup_cons] at hnd
      by_cases hx : x.name = .id .xlinkHref
      · have hget : getAttr (x :: t) (.id .xlinkHref) = some x := by unfold getAttr; rw [List.find?_cons]; simp [hx]
        obtain ⟨j, hj⟩ := hl x hget
        have hrest : t.filterMap (fun x => x.value.target) = [] := by
          rw [List.filterMap_eq_nil_iff]
          intro y hy
          by_contra hne
          exact hnd.1 (by rw [hx, ← ho y (by simp [hy]) hne]; exact List.mem_map_of_mem hy)
        have htar : x.value.target = some j := by rw [hj]; rfl
        rw [hget, List.filterMap_cons_some (f := fun x : Attr => x.value.target) htar, hrest]
        simp only [Option.map_some, hj, Option.some.injEq, Value.link.injEq]
        by_cases hjk : j = k <;> simp [hjk, List.filter_cons]
      · have hget : getAttr (x :: t) (.id .xlinkHref) = getAttr t (.id .xlinkHref) := by
          unfold getAttr; rw [List.find?_cons]; simp [hx]
        have htar : x.value.target = none := by
          by_contra hne
          exact hx (ho x (by simp) hne)
        rw [List.filterMap_cons, htar, hget]
        exact ih hnd.2 (fun y hy => ho y (by simp [hy])) (fun y hy => hl y (by rw [hget]; exact hy))
  refine hattrs n.attrs (hf.names n hn) (fun x hx => hf.only n hn hg x hx) (fun x hx => ?_)
  obtain ⟨rank, hr⟩ := hf.href
  have : written n .xlinkHref = some x.value := by rw [hf.shown n hn hg]; unfold Node.get; rw [hx]; rfl
  obtain ⟨t, _, e, _⟩ := hr n hn hg _ this
  exact ⟨_, e⟩

theorem startOrder_count {f : Forest} (hf : Ready f) : ∀ p ∈ startOrder f, p.2 = refsFrom f ((startOrder f).map (·.1)) p.1 := by
  intro p hp
  have hkeys : (startOrder f).map (·.1) = (f.nodes.filter (fun n => n.isGradient && n.has .xlinkHref)).map (·.key) := by
    unfold startOrder; rw [List.map_map]; rfl
  rw [hkeys]
  unfold startOrder at hp
  obtain ⟨n, hn, rfl⟩ := List.mem_map.1 hp
  simp only
  generalize n.key = k
  unfold refsFrom Forest.linkedAll
  have key : ∀ l : List Node, (∀ x ∈ l, x ∈ f.nodes) →
      ((l.flatMap (fun n => (n.links.filter (fun x => decide (x = k))).map (fun _ => n))).filter (·.isGradient)).length =
      (((l.filter (fun n => n.isGradient && n.has .xlinkHref)).map (·.key)).filter
        (fun x => match f.find x with | some n => decide (n.get .xlinkHref = some (.link k)) | none => false)).length := by
    intro l
    induction l with
    | nil => intro _; rfl
    | cons x t ih =>
      intro hl
      have hx := hl x (by simp)
      have ih' := ih (fun y hy => hl y (by simp [hy]))
      rw [List.flatMap_cons, List.filter_append, List.length_append, ih']
      rw [List.filter_cons]
      by_cases hg : x.isGradient = true
      · have h1 : (((x.links.filter (fun y => decide (y = k))).map (fun _ => x)).filter (·.isGradient)).length =
            if x.get .xlinkHref = some (.link k) then 1 else 0 := by
          rw [← links_count hf hx hg k, List.filter_eq_self.2, List.length_map]
          intro y hy
          obtain ⟨_, _, rfl⟩ := List.mem_map.1 hy
          exact hg
        rw [h1]
        by_cases hh : x.has .xlinkHref = true
        · simp only [hg, hh, Bool.and_self, if_true, List.map_cons]
          rw [List.filter_cons, Forest.find_of_mem hf.uniq hx]
          simp only
          by_cases he : x.get .xlinkHref = some (.link k)
          · simp [he]; omega
          · simp [he]
        · have : x.get .xlinkHref ≠ some (.link k) := by
            intro he; rw [Node.has_eq, he] at hh; exact hh rfl
          simp [hh, this]
      · have h0 : (((x.links.filter (fun y => decide (y = k))).map (fun _ => x)).filter (·.isGradient)) = [] := by
          rw [List.filter_eq_nil_iff]
          intro y hy
          obtain ⟨_, _, rfl⟩ := List.mem_map.1 hy
          simpa using hg
        rw [h0]
        simp [hg]
  exact key f.nodes (fun _ h => h)

theorem equalStep_total {f0 f : Forest} (hf : Ready f0) (hi : Inv f0 f) (hc : Coherent f) {n : Node} (hn : n ∈ f.nodes)
    (hg : n.isGradient = true) : ∃ g, equalStep n.key f = some g := by
  have hu := hi.uniq hf
  unfold equalStep
  rw [Forest.find_of_mem hu hn, Option.bind_some]
  split
  · rename_i l hl
    obtain ⟨rank, hr⟩ := hi.href hf
    obtain ⟨t, ht, e, _⟩ := hr n hn hg (.link l) (by rw [hi.shown hf hn hg]; exact hl)
    cases e
    rw [Forest.find_of_mem hu ht, Option.bind_some]
    split
    · obtain ⟨v, hv, _⟩ := hc n hn hg
      unfold hideUnits
      rw [Forest.find_of_mem hu hn, Option.bind_some, if_pos (by rw [Node.has_eq, hv]; rfl)]
      exact ⟨_, rfl⟩
    · exact ⟨_, rfl⟩
  · exact ⟨_, rfl⟩

theorem decrease_total {f : Forest} {done : List Nat} {o : List (Nat × Nat)} (h : ∀ p ∈ o, refsFrom f done p.1 ≤ p.2) :
    decrease f done o = some (o.map (fun p => (p.1, p.2 - refsFrom f done p.1))) := by
  induction o with
  | nil => rfl
  | cons p t ih =>
    obtain ⟨k, c⟩ := p
    simp only [decrease]
    rw [if_pos (h (k, c) (by simp)), ih (fun q hq => h q (by simp [hq]))]
    rfl

theorem equalLoop_total {f0 : Forest} (hf : Ready f0) {fuel : Nat} {f : Forest} {o : List (Nat × Nat)}
    (hi : Inv f0 f) (hc : Coherent f) (ho : ∀ p ∈ o, GradKey f0 p.1)
    (hcount : ∀ p ∈ o, p.2 = refsFrom f0 (o.map (·.1)) p.1) (hfuel : o.length ≤ fuel) :
    ∃ g, equalLoop fuel f o = some g := by
  induction fuel generalizing f o with
  | zero =>
    have : o = [] := List.length_eq_zero_iff.1 (by omega)
    subst this
    exact ⟨f, by unfold equalLoop; simp⟩
  | succ n ih =>
    unfold equalLoop
    by_cases hnil : o = []
    · exact ⟨f, by simp [hnil]⟩
    · rw [if_neg hnil]
      simp only
      generalize hd : (o.filter (fun p => decide (p.2 = 0))).map (·.1) = done
      have hdg : ∀ k ∈ done, GradKey f0 k := by
        intro k hk
        rw [← hd] at hk
        obtain ⟨p, hp, rfl⟩ := List.mem_map.1 hk
        exact ho p (List.mem_of_mem_filter hp)
      obtain ⟨f1, e1, i1, c1⟩ := forEach_total (upd := equalStep) (P := fun g => Inv f0 g ∧ Coherent g) (ks := done) (by
        rintro k hk g ⟨gi, gc⟩
        obtain ⟨m, hm, rfl, hg⟩ := gi.gradKey (hdg k hk)
        obtain ⟨g', hg'⟩ := equalStep_total hf gi gc hm hg
        exact ⟨g', hg', equalStep_spec hf gi gc hm hg hg'⟩) ⟨hi, hc⟩
      have hperm : (done ++ (o.filter (fun p => decide (p.2 > 0))).map (·.1)).Perm (o.map (·.1)) := by
        rw [← hd, ← List.map_append]
        apply List.Perm.map
        have := List.filter_append_perm (fun p : Nat × Nat => decide (p.2 = 0)) o
        refine List.Perm.trans ?_ this
        apply List.Perm.append_left
        have : (fun p : Nat × Nat => decide (p.2 > 0)) = (fun x => !decide (x.2 = 0)) := by
          funext p
          by_cases h0 : p.2 = 0
          · simp [h0]
          · simp [h0, Nat.pos_of_ne_zero h0]
        rw [this]
      have hsplit : ∀ k, refsFrom f0 (o.map (·.1)) k = refsFrom f0 done k + refsFrom f0 ((o.filter (fun p => decide (p.2 > 0))).map (·.1)) k := by
        intro k; rw [← refsFrom_append, refsFrom_perm f0 hperm]
      have hdec := decrease_total (f := f1) (done := done) (o := o.filter (fun p => decide (p.2 > 0))) (by
        intro p hp
        rw [refsFrom_inv i1, hcount p (List.mem_of_mem_filter hp), hsplit]
        omega)
      have hround : equalRound f o = some (f1, (o.filter (fun p => decide (p.2 > 0))).map (fun p => (p.1, p.2 - refsFrom f1 done p.1))) := by
        unfold equalRound
        simp only [hd, e1, Option.bind_some, hdec, Option.map_some]
      rw [hround, Option.bind_some]
      -- some gradient is not used by the others
      have hprog : ∃ p ∈ o, p.2 = 0 := by
        obtain ⟨rank, hr⟩ := hf.href
        obtain ⟨p, hp, hmax⟩ : ∃ p ∈ o, ∀ q ∈ o, rank q.1 ≤ rank p.1 := by
          obtain ⟨p, hp⟩ := List.exists_mem_of_ne_nil o hnil
          have hne : (o.map (fun p => rank p.1)).toFinset.Nonempty := ⟨rank p.1, by simp only [List.mem_toFinset, List.mem_map]; exact ⟨p, hp, rfl⟩⟩
          have hm := Finset.max'_mem _ hne
          simp only [List.mem_toFinset, List.mem_map] at hm
          obtain ⟨q, hq, he⟩ := hm
          refine ⟨q, hq, fun r hr => ?_⟩
          rw [he]
          exact Finset.le_max' _ _ (by simp only [List.mem_toFinset, List.mem_map]; exact ⟨r, hr, rfl⟩)
        refine ⟨p, hp, ?_⟩
        rw [hcount p hp]
        unfold refsFrom
        rw [List.length_eq_zero_iff, List.filter_eq_nil_iff]
        intro k hk
        obtain ⟨q, hq, rfl⟩ := List.mem_map.1 hk
        obtain ⟨m, hm, hmk, hmg⟩ := ho q hq
        rw [← hmk, Forest.find_of_mem hf.uniq hm]
        simp only [decide_eq_true_eq]
        intro he
        obtain ⟨t, _, et, _, hlt⟩ := hr m hm hmg (.link p.1) (by rw [hf.shown m hm hmg]; exact he)
        simp only [Value.link.injEq] at et
        have := hmax q hq
        rw [et] at this
        rw [hmk] at hlt
        omega
      refine ih i1 c1 ?_ ?_ ?_
      · intro p hp
        obtain ⟨q, hq, rfl⟩ := List.mem_map.1 hp
        exact ho q (List.mem_of_mem_filter hq)
      · intro p hp
        obtain ⟨q, hq, rfl⟩ := List.mem_map.1 hp
        rw [List.map_map]
        simp only [Function.comp_def]
        rw [refsFrom_inv i1, hcount q (List.mem_of_mem_filter hq), hsplit]
        omega
      · rw [List.length_map]
        obtain ⟨p, hp, h0⟩ := hprog
        have : (o.filter (fun p => decide (p.2 > 0))).length < o.length := by
          apply List.length_filter_lt_length_iff_exists.2
          exact ⟨p, hp, by simp [h0]⟩
        omega

theorem hideUnits_total {k : Nat} {f : Forest} (hu : f.UniqueKeys) (h : ∃ n ∈ f.nodes, n.key = k ∧ n.has .gradientUnits = true) :
    ∃ g, hideUnits k f = some g := by
  obtain ⟨n, hn, rfl, hh⟩ := h
  unfold hideUnits
  rw [Forest.find_of_mem hu hn, Option.bind_some, if_pos hh]
  exact ⟨_, rfl⟩

/-- The nodes with these keys have units. -/
def HaveUnits (ks : List Nat) (f : Forest) : Prop :=
  f.UniqueKeys ∧ ∀ k ∈ ks, ∃ n ∈ f.nodes, n.key = k ∧ n.has .gradientUnits = true

theorem HaveUnits.modify {ks : List Nat} {f : Forest} (h : HaveUnits ks f) {k : Nat} {u : Node → Node} (hk : ∀ x, (u x).key = x.key)
    (hu : ∀ x, x.has .gradientUnits = true → (u x).has .gradientUnits = true) : HaveUnits ks (f.modify k u) := by
  have hkey : ∀ x, (if x.key = k then u x else x).key = x.key := by intro x; split <;> simp [hk]
  refine ⟨(Forest.uniqueKeys_map hkey).2 h.1, fun j hj => ?_⟩
  obtain ⟨n, hn, rfl, hh⟩ := h.2 j hj
  refine ⟨if n.key = k then u n else n, ?_, hkey n, ?_⟩
  · unfold Forest.modify; rw [Forest.nodes_map]; exact List.mem_map_of_mem (f := fun x => if x.key = k then u x else x) hn
  · split
    · exact hu n hh
    · exact hh

theorem has_hide (n : Node) (a b : AId) : (n.hide a).has b = n.has b := by rw [Node.has_eq, Node.has_eq, get_hide]

theorem has_set (n : Node) (v : Value) : (n.set .gradientUnits v).has .gradientUnits = true := by
  rw [Node.has_eq, (written_get_set n v).2]; rfl

theorem hideUnits_have {ks : List Nat} {k : Nat} (hk : k ∈ ks) {f : Forest} (h : HaveUnits ks f) :
    ∃ g, hideUnits k f = some g ∧ HaveUnits ks g := by
  obtain ⟨n, hn, rfl, hh⟩ := h.2 k hk
  refine ⟨f.modify n.key (fun n => n.hide .gradientUnits), ?_, h.modify (fun _ => rfl) (fun x hx => by rw [has_hide]; exact hx)⟩
  unfold hideUnits
  rw [Forest.find_of_mem h.1 hn, Option.bind_some, if_pos hh]

theorem shareUnits_have {maj other : Kw} {ks : List Nat} {k : Nat} (hk : k ∈ ks) {f : Forest} (h : HaveUnits ks f) :
    ∃ g, shareUnits maj other k f = some g ∧ HaveUnits ks g := by
  obtain ⟨n, hn, rfl, hh⟩ := h.2 k hk
  unfold shareUnits
  rw [Forest.find_of_mem h.1 hn, Option.bind_some]
  split
  · split
    · exact hideUnits_have hk h
    · exact ⟨_, rfl, h.modify (fun _ => rfl) (fun x _ => has_set x _)⟩
  · exact ⟨_, rfl, h⟩

theorem groupBody_total {f0 f : Forest} (hf : Ready f0) (hi : Inv f0 f) (hc : Coherent f) {p : Node} (hp : p ∈ f.nodes)
    (hpg : p.isGradient = true) (hps : ∀ x ∈ f.nodes, p.key ∈ x.links → x.isGradient = true) :
    ∃ g, groupBody p.key f = some g := by
  have hu := hi.uniq hf
  have hH : HaveUnits (p.key :: (f.linkedAll p.key).map (·.key)) f := by
    refine ⟨hu, fun k hk => ?_⟩
    have hgr : ∀ n ∈ f.nodes, n.isGradient = true → ∃ m ∈ f.nodes, m.key = n.key ∧ m.has .gradientUnits = true := by
      intro n hn hg
      obtain ⟨v, hv, _⟩ := hc n hn hg
      exact ⟨n, hn, rfl, by rw [Node.has_eq, hv]; rfl⟩
    rcases List.mem_cons.1 hk with rfl | hk
    · exact hgr p hp hpg
    · obtain ⟨n, hn, rfl⟩ := List.mem_map.1 hk
      obtain ⟨h1, h2⟩ := mem_linkedAll.1 hn
      exact hgr n h1 (hps n h1 h2)
  have hS : ∀ v : Kw, HaveUnits (p.key :: (f.linkedAll p.key).map (·.key)) (f.modify p.key (fun n => n.set .gradientUnits (.kw v))) :=
    fun v => hH.modify (fun _ => rfl) (fun x _ => has_set x _)
  have hD : ∀ g, HaveUnits (p.key :: (f.linkedAll p.key).map (·.key)) g → ∃ r, hideDefault p.key g = some r := by
    intro g hg
    obtain ⟨n, hn, hk, hh⟩ := hg.2 p.key (by simp)
    unfold hideDefault
    rw [← hk, Forest.find_of_mem hg.1 hn, Option.bind_some]
    split
    · exact hideUnits_total hg.1 ⟨n, hn, rfl, hh⟩
    · exact ⟨_, rfl⟩
  have hL : ∀ v, ∃ g, forEach hideUnits ((f.linkedAll p.key).map (·.key)) (f.modify p.key (fun n => n.set .gradientUnits (.kw v))) = some g ∧
      HaveUnits (p.key :: (f.linkedAll p.key).map (·.key)) g :=
    fun v => forEach_total (fun k hk g hg => hideUnits_have (by simp only [List.mem_cons]; exact .inr hk) hg) (hS v)
  have hM : ∀ v maj other, ∃ g, forEach (shareUnits maj other) ((f.linkedAll p.key).map (·.key)) (f.modify p.key (fun n => n.set .gradientUnits (.kw v))) = some g ∧
      HaveUnits (p.key :: (f.linkedAll p.key).map (·.key)) g :=
    fun v maj other => forEach_total (fun k hk g hg => shareUnits_have (by simp only [List.mem_cons]; exact .inr hk) hg) (hS v)
  unfold groupBody
  simp only
  split
  · obtain ⟨g, h1, h2⟩ := hL .objectBoundingBox
    rw [h1, Option.bind_some]; exact hD g h2
  · split
    · obtain ⟨g, h1, h2⟩ := hL .userSpaceOnUse
      rw [h1, Option.bind_some]; exact hD g h2
    · split
      · obtain ⟨g, h1, h2⟩ := hM .objectBoundingBox .objectBoundingBox .userSpaceOnUse
        rw [h1, Option.bind_some]; exact hD g h2
      · obtain ⟨g, h1, h2⟩ := hM .userSpaceOnUse .userSpaceOnUse .objectBoundingBox
        rw [h1, Option.bind_some]; exact hD g h2

theorem rmEqual_total {f : Forest} (hf : Ready f) : ∃ g, rmEqual f = some g := by
  refine equalLoop_total hf (Inv.init hf) hf.coherent (fun p hp => ?_) (startOrder_count hf) (Nat.le_refl _)
  unfold startOrder at hp
  obtain ⟨n, hn, rfl⟩ := List.mem_map.1 hp
  rw [List.mem_filter] at hn
  simp only [Bool.and_eq_true] at hn
  exact ⟨n, hn.1, rfl, hn.2.1⟩

/-- **C45, no crash.** The task ends, and no `unwrap` fails. -/
theorem C45_ends {f : Forest} (hf : Ready f) : ∃ g, removeGradientAttributes f = some g := by
  obtain ⟨f1, h1⟩ := rmEqual_total hf
  obtain ⟨i1, c1⟩ := rmEqual_spec hf h1
  have hpk := parents_key i1
  obtain ⟨g, hg, _⟩ := forEach_total (upd := groupBody) (P := fun g => Inv f g ∧ Coherent g) (ks := parents f1) (by
    rintro k hk g ⟨gi, gc⟩
    obtain ⟨n, hn, rfl, hgn, hh, ho⟩ := hpk k hk
    obtain ⟨m, hm, hcm⟩ := gi.mem' hn
    have hmg : m.isGradient = true := by rw [isGradient_congr hcm.same.kind]; exact hgn
    have hms : ∀ x ∈ g.nodes, m.key ∈ x.links → x.isGradient = true := by
      intro x hx hlx
      obtain ⟨y, hy, hcy⟩ := gi.mem hx
      rw [isGradient_congr hcy.same.kind]
      rw [hcm.same.key] at hlx
      exact ho y hy (hcy.links _ hlx)
    obtain ⟨r, hr⟩ := groupBody_total hf gi gc hm hmg hms
    rw [← hcm.same.key]
    exact ⟨r, hr, groupBody_spec hf gi gc hm hmg (by rw [hcm.same.get (by decide)]; exact hh) hms hr⟩) ⟨i1, c1⟩
  exact ⟨g, by unfold removeGradientAttributes; rw [h1, Option.bind_some]; exact hg⟩

/-! ### Cases -/

def readyCheck (f : Forest) (rank : Nat → Nat) : Bool :=
  decide f.UniqueKeys && ApplyTs.hrefCheck f rank &&
  f.nodes.all (fun n => decide (n.attrs.map (·.name)).Nodup) &&
  f.nodes.all (fun n => !n.isGradient || (decide (written n .xlinkHref = n.get .xlinkHref) &&
    n.attrs.all (fun x => decide (x.value.target = none) || decide (x.name = .id .xlinkHref)) &&
    (match n.get .gradientUnits with
      | some v => (decide (v = .kw .objectBoundingBox) || decide (v = .kw .userSpaceOnUse)) &&
        (decide (written n .gradientUnits = some v) || (decide (written n .gradientUnits = none) &&
          ((decide (written n .xlinkHref = none) && decide (v = .kw .objectBoundingBox)) ||
            f.nodes.any (fun t => decide (written n .xlinkHref = some (.link t.key)) && decide (t.get .gradientUnits = some v)))))
      | none => false)))

theorem ready_of {f : Forest} (rank : Nat → Nat) (h : readyCheck f rank = true) : Ready f := by
  unfold readyCheck at h
  simp only [Bool.and_eq_true, decide_eq_true_eq, List.all_eq_true] at h
  obtain ⟨⟨⟨h1, h2⟩, h3⟩, h4⟩ := h
  have h5 : ∀ n ∈ f.nodes, n.isGradient = true → _ := fun n hn hg => by
    have := h4 n hn
    rw [hg] at this
    simp only [Bool.not_true, Bool.false_or, Bool.and_eq_true, decide_eq_true_eq, List.all_eq_true] at this
    exact this
  have hcoh : Coherent f := by
    intro n hn hg
    have h6 := (h5 n hn hg).2
    cases hv : n.get .gradientUnits with
    | none => rw [hv] at h6; cases h6
    | some v =>
      rw [hv] at h6
      simp only [Bool.and_eq_true, Bool.or_eq_true, decide_eq_true_eq, List.any_eq_true] at h6
      exact ⟨v, rfl, h6.2⟩
  refine ⟨h1, ApplyTs.hrefOk_of rank h2, fun n hn hg => (h5 n hn hg).1.1, ?_, h3, ?_, ?_⟩
  · intro n hn hg x hx ht
    have := (h5 n hn hg).1.2 x hx
    simp only [Bool.or_eq_true, decide_eq_true_eq] at this
    exact this.resolve_left ht
  · intro n hn hg v
    obtain ⟨w, hw, _⟩ := hcoh n hn hg
    have := coherent_value h1 (ApplyTs.hrefOk_of rank h2) hcoh hn hg hw
    rw [hw]
    constructor
    · intro e; cases e; exact this
    · intro e; rw [e.unique this]
  · intro n hn hg v hv
    have h6 := (h5 n hn hg).2
    rw [hv] at h6
    simp only [Bool.and_eq_true, Bool.or_eq_true, decide_eq_true_eq] at h6
    exact h6.1

/-- A source of stops, three gradients that refer to it (two of them in user space) and a fourth that refers to one of
these; a shape uses the last two. -/
def fourUnits : Forest :=
  .cons ⟨0, .elem .svg, "", []⟩
    (.cons (grad 1 .linearGradient [⟨.id .gradientUnits, .kw .objectBoundingBox, false⟩]) .nil
    (.cons (grad 2 .linearGradient [att .xlinkHref (.link 1), att .gradientUnits (.kw .userSpaceOnUse)]) .nil
    (.cons (grad 3 .radialGradient [att .xlinkHref (.link 1), att .gradientUnits (.kw .userSpaceOnUse)]) .nil
    (.cons (grad 4 .linearGradient [att .xlinkHref (.link 1), ⟨.id .gradientUnits, .kw .objectBoundingBox, false⟩]) .nil
    (.cons (grad 5 .linearGradient [att .xlinkHref (.link 2), att .gradientUnits (.kw .userSpaceOnUse)]) .nil
    (.cons ⟨6, .elem .rect, "", [att .fill (.funcLink 4), att .stroke (.funcLink 5)]⟩ .nil .nil)))))) .nil

/-- The hypotheses are met, and there is work to do: two gradients in user space leave their units to the source, the third
gets its own written out, the last one takes them from its reference. -/
example : Ready fourUnits ∧ (removeGradientAttributes fourUnits).map (fun g => g.nodes.map (fun n => written n .gradientUnits)) =
    some [none, some (.kw .userSpaceOnUse), none, none, some (.kw .objectBoundingBox), none, none] :=
  ⟨ready_of (fun k => k) (by decide +kernel), by decide +kernel⟩

/-- A gradient that refers to another one twice (by `xlink:href` and by `fill`, which means nothing on a gradient). -/
def twoRefs : Forest :=
  .cons (grad 1 .linearGradient [att .gradientUnits (.kw .userSpaceOnUse)]) .nil
  (.cons (grad 2 .linearGradient [att .xlinkHref (.link 1), att .gradientUnits (.kw .userSpaceOnUse)]) .nil
  (.cons (grad 3 .linearGradient [att .xlinkHref (.link 2), att .fill (.funcLink 2), att .gradientUnits (.kw .userSpaceOnUse)]) .nil .nil))

/-- **C45, refutation of termination** without the hypothesis that gradients refer to other elements by `xlink:href` only: the
loop of `rm_equal` runs forever, because it counts both references but subtracts one. -/
theorem C45_refuted_hang (rounds : Nat) : equalLoop rounds twoRefs (startOrder twoRefs) = none := by
  have h0 : ∃ g o, equalRound twoRefs (startOrder twoRefs) = some (g, o) ∧ o = [(2, 1)] ∧ ∀ n, equalLoop n g [(2, 1)] = none := by
    refine ⟨_, _, rfl, by decide +kernel, fun n => ?_⟩
    induction n with
    | zero => rfl
    | succ n ih =>
      unfold equalLoop
      rw [if_neg (by simp)]
      have : ∀ g, equalRound g [(2, 1)] = some (g, [(2, 1)]) := fun g => rfl
      rw [this]
      exact ih
  obtain ⟨g, o, h1, h2, h3⟩ := h0
  have hne : startOrder twoRefs ≠ [] := by decide +kernel
  cases rounds with
  | zero => unfold equalLoop; rw [if_neg hne]
  | succ n =>
    unfold equalLoop
    rw [if_neg hne, h1]
    simp only [Option.bind_some, h2]
    exact h3 n

end Verif.GradUnits
