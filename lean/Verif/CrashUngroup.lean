import Verif.CrashGrad
import Verif.UngroupLook
/-
C53: `ungroup_groups` does not crash.
-/
namespace Verif.Crash
open Verif.Dom Verif.Spec
open Verif.Dom (Res)
open Verif.Pipeline
open Verif.ApplyTs (TsOpts prepareTransforms prepareGo prepareGroup pushTransform hasValidTransform getTs validChild validChildren)
open Verif.Ungroup

variable {C : Ctx}

/-- All nodes of a part of a document. -/
def AllOk (C : Ctx) (f : Forest) : Prop := ∀ n ∈ f.nodes, NodeOk C n

theorem AllOk.cons {n : Node} {k r : Forest} (h : AllOk C (.cons n k r)) : NodeOk C n ∧ AllOk C k ∧ AllOk C r :=
  ⟨h n (by simp [Forest.nodes]), fun m hm => h m (by simp [Forest.nodes, hm]), fun m hm => h m (by simp [Forest.nodes, hm])⟩

theorem AllOk.along {f g : Forest} (h : AllOk C f) (ha : Along (Tame C) f g) : AllOk C g := fun m hm => by
  obtain ⟨n, hn, ht⟩ := along_mem ha hm
  exact (h n hn).tame ht

theorem along_same (f : Forest) : Along (Tame C) f f := Along.refl (Tame.refl C) f

/-! ### The transforms -/

/-- A transform or an opacity. -/
theorem GradAttr.other {n : Node} {a : AId} {v : Value} (ha : a = .transform ∨ a = .opacity) (hv : v.target = none) : GradAttr C n (.id a) v := by
  rcases ha with rfl | rfl <;> exact GradAttr.free (by decide) (by decide) (by decide) (by decide) (by decide) hv

theorem NodeOk.ts {n : Node} (h : NodeOk C n) (ht : n.has .transform = true) : ∃ t, getTs n = some t := by
  obtain ⟨v, hv⟩ := has_get ht
  obtain ⟨_, t, rfl⟩ := (h.get hv).transform rfl
  exact ⟨t, by unfold getTs; rw [hv]⟩

theorem NodeOk.valid {n : Node} (h : NodeOk C n) : ∃ b, hasValidTransform n = some b := by
  unfold hasValidTransform
  split
  next e => obtain ⟨t, e⟩ := h.ts e; rw [e]; exact ⟨_, rfl⟩
  · exact ⟨_, rfl⟩

theorem Tame.setTransform {n : Node} (h : n.isSvgElem = true) (t : Paths.Transform) : Tame C n (n.set .transform (.transform t)) :=
  Tame.set n ⟨GradAttr.other (.inl rfl) rfl, fun _ => ⟨h, t, rfl⟩, fun e => (by cases e), fun e => (by cases e), fun e => (by cases e), fun e => (by cases e), fun k e => (by cases e)⟩ rfl

theorem push_some (t : Paths.Transform) {f : Forest} (h : AllOk C f) : ∃ g, pushTransform t f = some g ∧ Along (Tame C) f g := by
  induction f with
  | nil => exact ⟨.nil, rfl, .nil⟩
  | cons n k r _ ih =>
    obtain ⟨h1, h2, h3⟩ := h.cons
    obtain ⟨r', hr, ar⟩ := ih h3
    rw [pushTransform, hr]
    by_cases e : n.isSvgElem = true
    · by_cases e' : n.has .transform = true
      · obtain ⟨t2, ht⟩ := h1.ts e'
        rw [if_pos e, if_pos e', ht]
        exact ⟨_, rfl, .cons (Tame.setTransform e _) (along_same k) ar⟩
      · rw [if_pos e, if_neg e']
        exact ⟨_, rfl, .cons (Tame.setTransform e _) (along_same k) ar⟩
    · rw [if_neg e]
      exact ⟨_, rfl, .cons (Tame.refl C n) (along_same k) ar⟩

theorem validChild_some (o : TsOpts) (anc : List Node) {n : Node} (h : NodeOk C n) : ∃ b, validChild o anc n = some b := by
  unfold validChild
  split
  · split
    · obtain ⟨b, e⟩ := h.valid; rw [e]; exact ⟨_, rfl⟩
    · exact ⟨_, rfl⟩
  · exact ⟨_, rfl⟩

theorem validChildren_some (o : TsOpts) (anc : List Node) {f : Forest} (h : AllOk C f) : ∃ b, validChildren o anc f = some b := by
  induction f with
  | nil => exact ⟨true, rfl⟩
  | cons n k r _ ih =>
    obtain ⟨h1, h2, h3⟩ := h.cons
    obtain ⟨b, e⟩ := validChild_some o anc h1
    rw [validChildren, e]
    show ∃ c, (if b = true then validChildren o anc r else some false) = some c
    split
    · exact ih h3
    · exact ⟨_, rfl⟩

theorem prepareGroup_some (o : TsOpts) (anc : List Node) {n : Node} {k : Forest} (hn : NodeOk C n) (hk : AllOk C k) :
    ∃ n' k' b, prepareGroup o anc n k = some (n', k', b) ∧ Tame C n n' ∧ Along (Tame C) k k' := by
  unfold prepareGroup
  by_cases e : (n.isTag .g && n.has .transform) = true
  · rw [if_pos e]
    obtain ⟨ok, h1⟩ := hn.valid
    obtain ⟨v, h2⟩ := validChildren_some o (n :: anc) hk
    obtain ⟨t, h3⟩ := hn.ts (Bool.and_eq_true_iff.1 e).2
    obtain ⟨k', h4, a4⟩ := push_some t hk
    rw [h1]
    simp only [Option.bind_some]
    by_cases e1 : (!ok || !ApplyTs.isValidAttrs (n :: anc)) = true
    · rw [if_pos e1]; exact ⟨n, k, _, rfl, Tame.refl C n, along_same k⟩
    · rw [if_neg e1, h2]
      simp only [Option.bind_some]
      by_cases e2 : v = true
      · rw [if_pos e2, h3]
        simp only [Option.bind_some]
        rw [h4]
        exact ⟨_, _, _, rfl, Tame.rmFree C n (by decide), a4⟩
      · rw [if_neg e2]; exact ⟨n, k, _, rfl, Tame.refl C n, along_same k⟩
  · rw [if_neg e]; exact ⟨n, k, _, rfl, Tame.refl C n, along_same k⟩

theorem prepareGo_some (o : TsOpts) (rec : Bool) (s : Nat) : ∀ (anc : List Node) (f : Forest) (stop : Bool), Stops.size f ≤ s → AllOk C f →
    ∃ a, prepareGo o rec anc f stop = some a ∧ Along (Tame C) f a.1 := by
  induction s with
  | zero =>
    intro anc f stop hs h
    cases f with
    | nil => exact ⟨_, by rw [prepareGo], .nil⟩
    | cons n k r => simp [Stops.size] at hs
  | succ s ih =>
    intro anc f stop hs h
    cases f with
    | nil => exact ⟨_, by rw [prepareGo], .nil⟩
    | cons n k r =>
      obtain ⟨h1, h2, h3⟩ := h.cons
      simp only [Stops.size] at hs
      rw [prepareGo]
      cases stop with
      | true => rw [if_pos rfl]; exact ⟨_, rfl, along_same _⟩
      | false =>
        rw [if_neg (by simp)]
        obtain ⟨n', k', b, hg, t1, a1⟩ := prepareGroup_some o anc h1 h2
        have hsz := ApplyTs.prepareGroup_size hg
        split
        next e => rw [hg] at e; cases e
        next n'' k'' tried e =>
          rw [hg] at e; cases e
          by_cases e1 : (b && !rec) = true
          · rw [if_pos e1]; exact ⟨_, rfl, .cons t1 a1 (along_same r)⟩
          · rw [if_neg e1]
            obtain ⟨x, hx, ax⟩ := ih (n' :: anc) k' false (by omega) (h2.along a1)
            obtain ⟨y, hy, ay⟩ := ih anc r x.2 (by omega) h3
            rw [hx]
            simp only [Option.bind_some]
            rw [hy]
            exact ⟨_, rfl, .cons t1 (a1.trans (fun _ _ _ a b => a.trans b) ax) ay⟩

theorem prepare_some (o : TsOpts) (rec : Bool) (anc : List Node) {n : Node} {k : Forest} (hn : NodeOk C n) (hk : AllOk C k) :
    ∃ n' k', prepareTransforms o rec anc n k = some (n', k') ∧ Tame C n n' ∧ Along (Tame C) k k' := by
  unfold prepareTransforms
  by_cases e : ApplyTs.validElems o = []
  · rw [if_pos e]; exact ⟨n, k, rfl, Tame.refl C n, along_same k⟩
  · rw [if_neg e]
    have hall : AllOk C (.cons n k .nil) := fun m hm => by
      simp only [Forest.nodes, List.append_nil, List.mem_cons] at hm
      rcases hm with rfl | hm
      · exact hn
      · exact hk m hm
    obtain ⟨a, ha, aa⟩ := prepareGo_some o rec _ anc (.cons n k .nil) false (Nat.le_refl _) hall
    rw [ha]
    obtain ⟨n', k', e⟩ := prepareGo_one ha
    obtain ⟨a1, b⟩ := a
    dsimp only at e
    subst e
    cases aa with
    | cons h1 h2 _ => exact ⟨n', k', rfl, h1, h2⟩

theorem prepareAt_some (o : TsOpts) (k : Nat) (anc : List Node) {f : Forest} (h : AllOk C f) : ∃ g, prepareAt o k anc f = some g ∧ Along (Tame C) f g := by
  induction f generalizing anc with
  | nil => exact ⟨.nil, rfl, .nil⟩
  | cons n c r ih1 ih2 =>
    obtain ⟨h1, h2, h3⟩ := h.cons
    rw [prepareAt]
    by_cases e : n.key = k
    · rw [if_pos e]
      obtain ⟨n', c', e', t, a⟩ := prepare_some o false anc h1 h2
      rw [e']
      exact ⟨_, rfl, .cons t a (along_same r)⟩
    · rw [if_neg e]
      obtain ⟨c', e1, a1⟩ := ih1 (n :: anc) h2
      obtain ⟨r', e2, a2⟩ := ih2 anc h3
      rw [e1]
      simp only [Option.bind_some]
      rw [e2]
      exact ⟨_, rfl, .cons (Tame.refl C n) a1 a2⟩

theorem along_setSvg {f : Forest} {n : Node} {k : Forest} (h : svgElement f = some (n, k)) {n' : Node} {k' : Forest} (ht : Tame C n n') (ha : Along (Tame C) k k') :
    Along (Tame C) f (setSvgElement n' k' f) := by
  induction f with
  | nil => cases h
  | cons m q r _ ih =>
    rw [svgElement] at h
    rw [setSvgElement]
    split at h
    next e => cases h; rw [if_pos e]; exact .cons ht ha (along_same r)
    next e => rw [if_neg e]; exact .cons (Tame.refl C m) (along_same q) (ih h)

/-! ### A group is taken out -/

/-- What a group may hand down to its children. -/
structure Gift (C : Ctx) (g : Node) (x : Attr) : Prop where
  ok : AttrOk C g x.name x.value
  group : g.kind = .elem .g

/-- A child of a group. -/
structure Kid (C : Ctx) (c : Node) : Prop where
  ok : NodeOk C c
  svg : svgKind c.kind = true
  nodef : defKind (C.kind c.key) = false
  nostop : C.kind c.key ≠ .elem .stop
  nos : c.key ≠ C.s
  nod : c.key ≠ C.d

theorem Kid.noGrad {c : Node} (h : Kid C c) : gradKind c.kind = false := by
  cases hg : gradKind c.kind with
  | false => rfl
  | true =>
    have := gradKind_def hg
    rw [h.ok.kind.def, h.nodef] at this; cases this

theorem Kid.noStop {c : Node} (h : Kid C c) : c.kind ≠ .elem .stop := fun e => h.nostop ((h.ok.kind.ne (by decide) rfl).1 e)

theorem gift_ok {g c : Node} {x : Attr} (hx : Gift C g x) (hc : Kid C c) : AttrOk C c x.name x.value where
  grad := by
    have h1 := hc.noGrad
    refine ⟨hx.ok.grad.ts, hx.ok.grad.color, hx.ok.grad.opacity, fun e => ?_, fun e => ?_, fun e => ?_, fun e => absurd e hc.noStop⟩
    · rw [h1] at e; cases e
    · rw [h1] at e; cases e
    · rcases e with e | e
      · rw [h1] at e; cases e
      · exact absurd e hc.noStop
  transform e := ⟨by rw [isSvgElem_eq]; exact hc.svg, (hx.ok.transform e).2⟩
  opacity := hx.ok.opacity
  points e := absurd hx.group (hx.ok.points e).1
  d e := absurd hx.group (hx.ok.d e).1
  shown _ _ := ⟨hc.nos, hc.nod⟩
  link k e := by
    obtain ⟨l1, l2, l3, l4, l5, l6, l7⟩ := hx.ok.link k e
    refine ⟨hc.nos, hc.nod, fun ek => ?_, l4, l5, l6, fun ex => absurd hx.group (l7 ex).1⟩
    have := hc.nodef
    rw [← hc.ok.kind.def, ek] at this
    cases this

theorem Kid.same {c c' : Node} (h : Kid C c) (hk : c'.key = c.key) (hi : c'.id = c.id) (ht : c'.kind = c.kind) (ha : ∀ x ∈ c'.attrs, AttrOk C c' x.name x.value) : Kid C c' where
  ok := by
    have hg : gradKind c'.kind ≠ true := by rw [ht, h.noGrad]; decide
    exact ⟨by rw [hk, ht]; exact h.ok.kind, fun e => absurd e hg, by rw [ht, hi]; exact h.ok.named, fun e => absurd e hg, ha⟩
  svg := by rw [ht]; exact h.svg
  nodef := by rw [hk]; exact h.nodef
  nostop := by rw [hk]; exact h.nostop
  nos := by rw [hk]; exact h.nos
  nod := by rw [hk]; exact h.nod

theorem Kid.tame {c c' : Node} (h : Kid C c) (ht : Tame C c c') : Kid C c' :=
  ⟨h.ok.tame ht, by rw [ht.kind.svg]; exact h.svg, by rw [ht.key]; exact h.nodef, by rw [ht.key]; exact h.nostop, by rw [ht.key]; exact h.nos, by rw [ht.key]; exact h.nod⟩

theorem copy_some {g c : Node} {x : Attr} (hx : Gift C g x) (hc : Kid C c) : ∃ c', copyAttr x c = some c' ∧ Kid C c' ∧ c'.key = c.key ∧ c'.kind = c.kind := by
  unfold copyAttr
  rw [if_neg]
  · refine ⟨_, rfl, hc.same rfl rfl rfl fun y hy => ?_, rfl, rfl⟩
    have : AttrOk C c y.name y.value := by
      rcases Node.mem_putAttr hy with rfl | hy
      · exact gift_ok hx hc
      · exact hc.ok.attrs y hy
    exact Kin.attr (n := c) (m := { c with attrs := putAttr c.attrs x }) rfl (.inl rfl) this
  · intro e
    obtain ⟨l1, l2, l3, l4, l5, l6, l7⟩ := hx.ok.link _ e
    by_cases ex : x.name = .id .xlinkHref
    · exact (l7 ex).1 hx.group
    · have := l6 ex
      rw [hc.nodef] at this; cases this

theorem pushAttr_some {g c : Node} {x : Attr} (hx : Gift C g x) (hc : Kid C c) : ∃ c', pushAttr c x = some c' ∧ Kid C c' ∧ c'.key = c.key ∧ c'.kind = c.kind := by
  have same : ∃ c', some c = some c' ∧ Kid C c' ∧ c'.key = c.key ∧ c'.kind = c.kind := ⟨c, rfl, hc, rfl, rfl⟩
  have copy := copy_some hx hc
  obtain ⟨name, value, vis⟩ := x
  cases name with
  | name s => exact same
  | id a =>
    unfold pushAttr
    dsimp only
    by_cases e1 : (decide (a = .opacity) && c.has a) = true
    · rw [if_pos e1]
      simp only [Bool.and_eq_true, decide_eq_true_eq] at e1
      obtain ⟨rfl, e1⟩ := e1
      obtain ⟨v, hv⟩ := has_get e1
      obtain ⟨q, rfl⟩ := (hc.ok.get hv).opacity rfl
      obtain ⟨p, ep⟩ := hx.ok.opacity rfl
      dsimp only at ep
      subst ep
      rw [hv]
      have ht : Tame C c (c.set .opacity (.number (p * q))) :=
        Tame.set c ⟨GradAttr.other (.inr rfl) rfl, fun e => (by cases e), fun _ => ⟨_, rfl⟩, fun e => (by cases e), fun e => (by cases e), fun e => (by cases e), fun k e => (by cases e)⟩ rfl
      exact ⟨_, rfl, hc.tame ht, rfl, rfl⟩
    · rw [if_neg e1]
      by_cases e2 : (decide (a = .transform) && c.has a) = true
      · rw [if_pos e2]
        simp only [Bool.and_eq_true, decide_eq_true_eq] at e2
        obtain ⟨rfl, e2⟩ := e2
        obtain ⟨_, t, et⟩ := hx.ok.transform rfl
        dsimp only at et
        subst et
        have ht : Tame C c (Stops.modValue c .transform (mulInto (.transform t))) := by
          refine Tame.modValue c _ fun y hy ey => .inr ?_
          obtain ⟨hs, t', et'⟩ := (hc.ok.attrs y hy).transform ey
          rw [et', ey]
          exact ⟨⟨GradAttr.other (.inl rfl) rfl, fun _ => ⟨hs, _, rfl⟩, fun e => (by cases e), fun e => (by cases e), fun e => (by cases e), fun e => (by cases e), fun k e => (by cases e)⟩, rfl⟩
        exact ⟨_, rfl, hc.tame ht, rfl, rfl⟩
      · rw [if_neg e2]
        by_cases e3 : a = .display
        · rw [if_pos e3]; exact copy
        · rw [if_neg e3]
          by_cases e4 : (!c.has a) = true
          · rw [if_pos e4]; exact copy
          · rw [if_neg e4]; exact same

theorem pushAttrs_some {g : Node} {as : List Attr} (has : ∀ x ∈ as, Gift C g x) {c : Node} (hc : Kid C c) :
    ∃ c', pushAttrs as c = some c' ∧ Kid C c' ∧ c'.key = c.key ∧ c'.kind = c.kind := by
  induction as generalizing c with
  | nil => exact ⟨c, rfl, hc, rfl, rfl⟩
  | cons x t ih =>
    obtain ⟨c1, e1, k1, a1, b1⟩ := pushAttr_some (has x (by simp)) hc
    obtain ⟨c2, e2, k2, a2, b2⟩ := ih (fun y hy => has y (by simp [hy])) k1
    exact ⟨c2, by rw [pushAttrs, e1]; exact e2, k2, a2.trans a1, b2.trans b1⟩

/-- What is known of a part of a document. -/
structure Part (C : Ctx) (f : Forest) : Prop where
  nodes : AllOk C f
  trees : ∀ x ∈ subs f, TreeOk C x.1 x.2

theorem Part.cons {n : Node} {k r : Forest} : Part C (.cons n k r) ↔ NodeOk C n ∧ TreeOk C n k ∧ Part C k ∧ Part C r := by
  constructor
  · intro h
    obtain ⟨h1, h2, h3⟩ := h.nodes.cons
    exact ⟨h1, h.trees (n, k) (by simp [subs]), ⟨h2, fun x hx => h.trees x (by simp [subs, hx])⟩, ⟨h3, fun x hx => h.trees x (by simp [subs, hx])⟩⟩
  · rintro ⟨h1, h2, h3, h4⟩
    constructor
    · intro m hm
      simp only [Forest.nodes, List.mem_cons, List.mem_append] at hm
      rcases hm with rfl | hm | hm
      · exact h1
      · exact h3.nodes m hm
      · exact h4.nodes m hm
    · intro x hx
      simp only [subs, List.mem_cons, List.mem_append] at hx
      rcases hx with rfl | hx | hx
      · exact h2
      · exact h3.trees x hx
      · exact h4.trees x hx

theorem Part.nil : Part C .nil := ⟨fun n h => (by cases h), fun x h => (by cases h)⟩

theorem Part.append {f g : Forest} (hf : Part C f) (hg : Part C g) : Part C (f ++ g) := by
  constructor
  · intro n hn
    rw [Forest.nodes_append, List.mem_append] at hn
    exact hn.elim (hf.nodes n) (hg.nodes n)
  · intro x hx
    rw [UnusedDefs.subs_append, List.mem_append] at hx
    exact hx.elim (hf.trees x) (hg.trees x)

theorem pushAll_some {g : Node} (hg : NodeOk C g) (hk : g.kind = .elem .g) {f : Forest} (hp : Part C f) (hs : ∀ m ∈ f.top, svgKind m.kind = true)
    (hb : ∀ j ∈ f.keys, defKind (C.kind j) = false ∧ C.kind j ≠ .elem .stop ∧ j ≠ C.s ∧ j ≠ C.d) :
    ∃ f', pushAll g.attrs f = some f' ∧ Part C f' ∧ f'.keys = f.keys ∧ ∀ m ∈ f'.top, svgKind m.kind = true := by
  induction f with
  | nil => exact ⟨.nil, rfl, Part.nil, rfl, hs⟩
  | cons c k r _ ih =>
    obtain ⟨h1, h2, h3, h4⟩ := Part.cons.1 hp
    have hbc := hb c.key (by simp [Forest.keys_cons])
    have hkid : Kid C c := ⟨h1, hs c (by simp [Forest.top]), hbc.1, hbc.2.1, hbc.2.2.1, hbc.2.2.2⟩
    obtain ⟨c', e, kc, k1, k2⟩ := pushAttrs_some (as := g.attrs) (fun x hx => ⟨hg.attrs x hx, hk⟩) hkid
    obtain ⟨r', er, pr, kr, sr⟩ := ih h4 (fun m hm => hs m (by simp [Forest.top, hm])) (fun j hj => hb j (by simp [Forest.keys_cons, hj]))
    refine ⟨.cons c' k r', by rw [pushAll, e]; simp [er], Part.cons.2 ⟨kc.ok, ⟨by rw [k2]; exact h2.group, by rw [k2]; exact h2.leaf, fun e => (by rw [k2, hkid.noGrad] at e; cases e),
      fun _ e => (by rw [k2, hkid.noGrad] at e; cases e), by rw [k1, k2]; exact h2.below⟩, h3, pr⟩, ?_, ?_⟩
    · simp [Forest.keys_cons, k1, kr]
    · intro m hm
      rcases List.mem_cons.1 hm with rfl | hm
      · exact kc.svg
      · exact sr m hm

theorem top_append (f g : Forest) : (f ++ g).top = f.top ++ g.top := by
  induction f with
  | nil => rfl
  | cons n k r _ ih => show n :: (r ++ g).top = _; rw [ih]; rfl

theorem scan_some (used : Nat → Bool) (p : Node) {f : Forest} (hp : Part C f) (hn : ∀ x ∈ f.nodes, x.kind = .elem .g → x.key ≠ C.s ∧ x.key ≠ C.d) :
    ∃ o, scan used p f = some o ∧ ∀ f' x p', o = some (f', x, p') → Part C f' ∧ (∀ j ∈ f'.keys, j ∈ f.keys) ∧ gradKind (C.kind x) = false ∧ ((∀ m ∈ f.top, m.kind ≠ .elem .g) → f'.top = f.top) ∧
      ((∀ m ∈ f.top, svgKind m.kind = true) → ∀ m ∈ f'.top, svgKind m.kind = true) ∧ ∀ D ∈ f.top, D.kind ≠ .elem .g → D ∈ f'.top := by
  induction f generalizing p with
  | nil => exact ⟨none, rfl, fun _ _ _ e => by cases e⟩
  | cons n k r ih1 ih2 =>
    obtain ⟨h1, h2, h3, h4⟩ := Part.cons.1 hp
    have hn1 : ∀ x ∈ k.nodes, x.kind = .elem .g → x.key ≠ C.s ∧ x.key ≠ C.d := fun x hx => hn x (by simp [Forest.nodes, hx])
    have hn2 : ∀ x ∈ r.nodes, x.kind = .elem .g → x.key ≠ C.s ∧ x.key ≠ C.d := fun x hx => hn x (by simp [Forest.nodes, hx])
    rw [scan]
    by_cases e : (n.isTag .g && canUngroup used p n k) = true
    · rw [if_pos e]
      have eg := (Node.isTag_iff _ _).1 (Bool.and_eq_true_iff.1 e).1
      obtain ⟨s1, s2⟩ := hn n (by simp [Forest.nodes]) eg
      obtain ⟨k', ek, pk, kk, sk⟩ := pushAll_some h1 eg h3 (h2.group eg) fun j hj => by
        have := h2.below s1 s2 j hj
        exact ⟨this.1, (this.2.2.2 (by rw [eg]; rfl)).2, this.2.1, this.2.2.1⟩
      refine ⟨_, by rw [ek]; rfl, fun f' x p' eq => ?_⟩
      cases eq
      refine ⟨pk.append h4, fun j hj => ?_, (by rw [← h1.kind.grad, eg]; rfl), fun hno => absurd eg (hno n (by simp [Forest.top])), fun hs m hm => ?_, fun D hD hk => ?_⟩
      · rw [Forest.keys, Forest.nodes_append, List.map_append, List.mem_append] at hj
        simp only [Forest.keys_cons, List.mem_cons, List.mem_append]
        rcases hj with hj | hj
        · exact .inr (.inl (kk ▸ hj))
        · exact .inr (.inr hj)
      · rw [top_append, List.mem_append] at hm
        rcases hm with hm | hm
        · exact sk m hm
        · exact hs m (by simp [Forest.top, hm])
      · rw [top_append, List.mem_append]
        rcases List.mem_cons.1 hD with rfl | hD
        · exact absurd eg hk
        · exact .inr hD
    · rw [if_neg e]
      obtain ⟨o1, e1, p1⟩ := ih1 n h3 hn1
      rw [e1]
      cases o1 with
      | some y =>
        obtain ⟨k', x, p'⟩ := y
        obtain ⟨q1, q2, q3, q4, q5, q6⟩ := p1 k' x p' rfl
        refine ⟨_, rfl, fun f' x p' eq => ?_⟩
        cases eq
        refine ⟨Part.cons.2 ⟨h1, ⟨fun eg => q5 (h2.group eg), fun eu => ?_, fun eg => ?_, fun he eg => ?_, fun a b j hj => h2.below a b j (q2 j hj)⟩, q1, h4⟩, fun j hj => ?_, q3, fun _ => rfl, fun hs m hm => ?_, fun D hD _ => ?_⟩
        · have := h2.leaf eu
          exact List.eq_nil_iff_forall_not_mem.2 fun j hj => by have := q2 j hj; rw [h2.leaf eu] at this; cases this
        · rw [q4 fun m hm e => by have := (h2.stops eg m hm).1; rw [e] at this; cases this]
          exact h2.stops eg
        · rw [q4 fun m hm e => by have := (h2.stops eg m hm).1; rw [e] at this; cases this]
          exact h2.early he eg
        · simp only [Forest.keys_cons, List.mem_cons, List.mem_append] at hj ⊢
          rcases hj with hj | hj | hj
          · exact .inl hj
          · exact .inr (.inl (q2 j hj))
          · exact .inr (.inr hj)
        · exact hs m hm
        · exact hD
      | none =>
        obtain ⟨o2, e2, p2⟩ := ih2 p h4 hn2
        simp only [Option.bind_some]
        rw [e2]
        refine ⟨_, rfl, fun f' x p' eq => ?_⟩
        cases o2 with
        | none => cases eq
        | some y =>
          obtain ⟨r', x', p''⟩ := y
          obtain ⟨q1, q2, q3, q4, q5, q6⟩ := p2 r' x' p'' rfl
          cases eq
          refine ⟨Part.cons.2 ⟨h1, h2, h3, q1⟩, fun j hj => ?_, q3, fun hno => (by simp [Forest.top, q4 fun m hm => hno m (by simp [Forest.top, hm])]), fun hs m hm => ?_, fun D hD hk => ?_⟩
          · simp only [Forest.keys_cons, List.mem_cons, List.mem_append] at hj ⊢
            rcases hj with hj | hj | hj
            · exact .inl hj
            · exact .inr (.inl hj)
            · exact .inr (.inr (q2 j hj))
          · rcases List.mem_cons.1 hm with rfl | hm
            · exact hs _ (by simp [Forest.top])
            · exact q5 (fun m hm => hs m (by simp [Forest.top, hm])) m hm
          · rcases List.mem_cons.1 hD with rfl | hD
            · exact List.mem_cons_self ..
            · exact List.mem_cons_of_mem _ (q6 D hD hk)

theorem part_setSvg {f : Forest} {s : Node} {k k' : Forest} (h : svgElement f = some (s, k)) (hp : Part C f) (hk : Part C k') (ht : TreeOk C s k') :
    Part C (setSvgElement s k' f) := by
  induction f with
  | nil => cases h
  | cons n q r _ ih =>
    obtain ⟨h1, h2, h3, h4⟩ := Part.cons.1 hp
    rw [svgElement] at h
    rw [setSvgElement]
    split at h
    next e => cases h; rw [if_pos e]; exact Part.cons.2 ⟨h1, ht, hk, h4⟩
    next e => rw [if_neg e]; exact Part.cons.2 ⟨h1, h2, h3, ih h h4⟩

theorem part_along {f g : Forest} (h : Part C f) (ha : Along (Tame C) f g) : Part C g where
  nodes := h.nodes.along ha
  trees y hy := by
    obtain ⟨x, hx, t, k, p⟩ := Flow.along ha y hy
    exact (h.trees x hx).flow t k p.1 p.2

theorem Inv.part {f : Forest} (h : Inv C f) : Part C f := ⟨h.nodes, h.trees⟩

theorem length_step {f g : Forest} (h : Step f g) : g.nodes.length ≤ f.nodes.length := by
  have := h.marks.length_le
  simpa using this

theorem Inv.step (hq : ¬ C.uniq) (o : TsOpts) {f : Forest} (hf : Inv C f) : ∃ r, Ungroup.step o f = some r ∧ ∀ g, r = some g → Inv C g := by
  obtain ⟨S, ks, D, h1, h2, h3, h4, h5⟩ := hf.root
  obtain ⟨hmem, hsvg⟩ := GroupDefs.svgElement_mem h1
  have hks : Part C ks := ⟨fun n hn => hf.nodes n ((Simple.svgElement_some h1).2.2 n hn), fun x hx => hf.trees x ?_⟩
  · obtain ⟨r, hr, p⟩ := scan_some f.isUsed S hks fun x hx hk => hf.tagKey ((Simple.svgElement_some h1).2.2 x hx) hk (by decide) (by decide)
    cases r with
    | none => exact ⟨none, by unfold Ungroup.step; rw [h1]; simp [hr], fun _ e => by cases e⟩
    | some y =>
      obtain ⟨k', x, p'⟩ := y
      obtain ⟨q1, q2, q3, q4, q5, q6⟩ := p k' x p' rfl
      have ht : TreeOk C S k' := ⟨fun e => (by rw [hsvg] at e; cases e), fun e => (by rw [hsvg] at e; cases e), fun e => (by rw [hsvg] at e; cases e), fun _ e => (by rw [hsvg] at e; cases e), fun e => absurd h2 e⟩
      have p1 : Part C (setSvgElement S k' f) := part_setSvg h1 hf.part q1 ht
      have a2 : Along (Tame C) (setSvgElement S k' f) ((setSvgElement S k' f).map fun n => n.unlink fun k => decide (k = x)) := Along.map fun n hn => Tame.unlink (p1.nodes n hn) _ fun _ hg k hk => by
        obtain ⟨y, hy, e⟩ := Node.mem_links.1 hk
        have := (((p1.nodes n hn).attrs y hy).grad.link hg k e).2.1
        refine decide_eq_false fun e => ?_
        rw [e, q3] at this; cases this
      obtain ⟨g, hg, a3⟩ := prepareAt_some o p' [] (part_along p1 a2).nodes
      have hstep : Ungroup.step o f = some (some g) := by
        unfold Ungroup.step
        rw [h1]
        simp only [Option.bind_some]
        rw [hr]
        simp only [Option.bind_some]
        rw [hg]; rfl
      refine ⟨some g, hstep, fun g' e => ?_⟩
      cases e
      have hsafe := (step_ungroupStep hstep).safe hf.unique hf.links
      have ps := part_along (part_along p1 a2) a3
      have hr0 : Anchored C (setSvgElement S k' f) := ⟨S, k', D, Simple.svgElement_set h1 S k' hsvg, h2, q6 D h3 (by rw [h5]; decide), h4, h5⟩
      exact ⟨hsafe.unique, hsafe.links, ps.nodes, ps.trees, anchored_along a3 (anchored_along a2 hr0),
        Nat.lt_of_le_of_lt (length_step (step_ungroupStep hstep)) hf.count, fun hu => absurd hu hq⟩
  · exact UnusedDefs.subs_trans hmem hx

theorem Inv.loop (hq : ¬ C.uniq) (o : TsOpts) {fuel : Nat} {f : Forest} (hf : Inv C f) : ∃ r, Ungroup.loop o fuel f = some r ∧ ∀ g, r = some g → Inv C g := by
  induction fuel generalizing f with
  | zero =>
    obtain ⟨r, hr, p⟩ := hf.step hq o
    rw [Ungroup.loop, hr]
    cases r with
    | none => exact ⟨some f, rfl, fun g e => by cases e; exact hf⟩
    | some g => exact ⟨none, rfl, fun g e => by cases e⟩
  | succ fuel ih =>
    obtain ⟨r, hr, p⟩ := hf.step hq o
    rw [Ungroup.loop, hr]
    cases r with
    | none => exact ⟨some f, rfl, fun g e => by cases e; exact hf⟩
    | some g => exact ih (p g rfl)

theorem holds_ungroupGroups (hq : ¬ C.uniq) (o : TsOpts) : Holds (Inv C) (may fun f => (ungroupGroups o f).bind id) := by
  refine Holds.may fun f hf => ?_
  obtain ⟨S, ks, D, h1, h2, h3, h4, h5⟩ := hf.root
  have hS := hf.nodes S (Simple.svgElement_some h1).2.1
  obtain ⟨n', k', e, t, a⟩ := prepare_some o true [] hS fun n hn => hf.nodes n ((Simple.svgElement_some h1).2.2 n hn)
  have hi := hf.along (along_setSvg h1 t a)
  obtain ⟨r, hr, p⟩ := hi.loop hq o (fuel := f.nodes.length)
  have hu : ungroupGroups o f = some r := by
    unfold ungroupGroups
    rw [h1]
    simp only [Option.bind_some]
    rw [e]
    exact hr
  cases r with
  | none =>
    exact absurd hu (C36_terminates o f)
  | some g => exact ⟨g, by rw [hu]; rfl, p g rfl⟩

end Verif.Crash
