import Verif.PipelineCases
import Verif.RoundDocProps
import Verif.GradCheck
/-
C53: a run with all options off does not crash on documents without the references and offsets of the findings.
-/
namespace Verif.Pipeline
open Verif.Dom Verif.Spec
open Verif.Dom (Res)
open Verif.Cli (CleaningOptions)
open Verif.Gradients (AllVisible OnlyHref)
open Verif.GroupDefs (isScene)
open Verif.Stops (setHidden bind_ok offsetOf)

/-! ### A change of every node on its own -/

inductive Along (R : Node → Node → Prop) : Forest → Forest → Prop
  | nil : Along R .nil .nil
  | cons {n m : Node} {k k' r r' : Forest} : R n m → Along R k k' → Along R r r' → Along R (.cons n k r) (.cons m k' r')

theorem Along.refl {R : Node → Node → Prop} (h : ∀ n, R n n) (f : Forest) : Along R f f := by
  induction f with
  | nil => exact .nil
  | cons n k r ih1 ih2 => exact .cons (h n) ih1 ih2

theorem Along.map {R : Node → Node → Prop} {u : Node → Node} {f : Forest} (h : ∀ n ∈ f.nodes, R n (u n)) : Along R f (f.map u) := by
  induction f with
  | nil => exact .nil
  | cons n k r ih1 ih2 =>
    simp only [Forest.nodes, List.mem_cons, List.mem_append] at h
    rw [Forest.map_cons]
    exact .cons (h n (.inl rfl)) (ih1 fun m hm => h m (.inr (.inl hm))) (ih2 fun m hm => h m (.inr (.inr hm)))

theorem Along.trans {R S T : Node → Node → Prop} (hR : ∀ a b c, R a b → S b c → T a c) {f g h : Forest} (h1 : Along R f g) (h2 : Along S g h) :
    Along T f h := by
  induction h1 generalizing h with
  | nil => cases h2; exact .nil
  | cons hn _ _ ih1 ih2 =>
    cases h2 with
    | cons hn' hk hr => exact .cons (hR _ _ _ hn hn') (ih1 hk) (ih2 hr)

theorem Along.mono {R S : Node → Node → Prop} (h : ∀ n m, R n m → S n m) {f g : Forest} (h1 : Along R f g) : Along S f g := by
  induction h1 with
  | nil => exact .nil
  | cons hn _ _ ih1 ih2 => exact .cons (h _ _ hn) ih1 ih2

theorem Along.nodes {R : Node → Node → Prop} {f g : Forest} (h : Along R f g) : List.Forall₂ R f.nodes g.nodes := by
  induction h with
  | nil => exact .nil
  | cons hn _ _ ih1 ih2 => exact .cons hn (List.rel_append ih1 ih2)

theorem Along.top {R : Node → Node → Prop} {f g : Forest} (h : Along R f g) : List.Forall₂ R f.top g.top := by
  induction h with
  | nil => exact .nil
  | cons hn _ _ _ ih2 => exact .cons hn ih2

theorem Along.subs {R : Node → Node → Prop} {f g : Forest} (h : Along R f g) :
    List.Forall₂ (fun x y => R x.1 y.1 ∧ Along R x.2 y.2) (Spec.subs f) (Spec.subs g) := by
  induction h with
  | nil => exact .nil
  | cons hn hk _ ih1 ih2 => exact .cons ⟨hn, hk⟩ (List.rel_append ih1 ih2)

theorem Along.keys {R : Node → Node → Prop} (hR : ∀ n m, R n m → m.key = n.key) {f g : Forest} (h : Along R f g) : g.keys = f.keys := by
  have := h.nodes
  unfold Forest.keys
  generalize f.nodes = a at *
  generalize g.nodes = b at *
  induction this with
  | nil => rfl
  | cons hn _ ih => simp only [List.map_cons]; rw [hR _ _ hn, ih]

/-! ### Gradients and stops -/

/-- A node with the same key, kind and id; attributes are new only if they refer to nothing. -/
structure Less (n m : Node) : Prop where
  strip : strip m = strip n
  attrs : ∀ x ∈ m.attrs, x.value.target = none ∨ x ∈ n.attrs
  names : (n.attrs.map (·.name)).Nodup → (m.attrs.map (·.name)).Nodup

/-- The offset is the same, too. -/
def Less' (n m : Node) : Prop := Less n m ∧ m.get .offset = n.get .offset

theorem Less.refl (n : Node) : Less n n := ⟨rfl, fun _ h => .inr h, id⟩
theorem Less.trans {a b c : Node} (h1 : Less a b) (h2 : Less b c) : Less a c :=
  ⟨h2.strip.trans h1.strip, fun x hx => (h2.attrs x hx).elim .inl fun h => h1.attrs x h, fun h => h2.names (h1.names h)⟩

theorem Less.put (n : Node) (x : Attr) (h : x.value.target = none) : Less n { n with attrs := putAttr n.attrs x } :=
  ⟨rfl, fun y hy => (Node.mem_putAttr hy).elim (fun e => .inl (e ▸ h)) .inr, Ungroup.putAttr_names n.attrs x⟩

theorem Less.key {n m : Node} (h : Less n m) : m.key = n.key := congrArg (fun x : Node => x.key) (a₁ := Pipeline.strip m) (a₂ := Pipeline.strip n) h.strip
theorem Less.kind {n m : Node} (h : Less n m) : m.kind = n.kind := congrArg (fun x : Node => x.kind) (a₁ := Pipeline.strip m) (a₂ := Pipeline.strip n) h.strip

theorem Less'.refl (n : Node) : Less' n n := ⟨Less.refl n, rfl⟩
theorem Less'.trans {a b c : Node} (h1 : Less' a b) (h2 : Less' b c) : Less' a c := ⟨h1.1.trans h2.1, h2.2.trans h1.2⟩

/-- The attributes that gradients take from their templates. -/
def taken : List AId := [.gradientUnits, .spreadMethod, .x1, .y1, .x2, .y2, .cx, .cy, .r, .fx, .fy, .gradientTransform]

/-- They refer to nothing. -/
def PlainTaken (f : Forest) : Prop := ∀ n ∈ f.nodes, ∀ x ∈ n.attrs, ∀ a ∈ taken, x.name = .id a → x.value.target = none

theorem PlainTaken.along {f g : Forest} (h : PlainTaken f) (hl : Along Less' f g) : PlainTaken g := by
  intro m hm x hx a ha hn
  obtain ⟨n, hn', hr⟩ := Simple.forall₂_mem_right hl.nodes hm
  rcases hr.1.attrs x hx with h' | h'
  · exact h'
  · exact h n hn' x h' a ha hn

theorem along_checkAttr {k : Nat} {a : AId} {d : Option Value} {f g : Forest} (hp : PlainTaken f) (ha : a ∈ taken) (hd : ∀ v, d = some v → v.target = none)
    (h : Gradients.checkAttr k a d f = some g) : Along Less' f g := by
  unfold Gradients.checkAttr at h
  obtain ⟨n, hn, h⟩ := Option.bind_eq_some_iff.1 h
  split at h
  · cases h; exact Along.refl Less'.refl _
  · obtain ⟨v, hv, h⟩ := Option.map_eq_some_iff.1 h
    cases v with
    | none => cases h; exact Along.refl Less'.refl _
    | some v =>
      cases h
      have hv0 : v.target = none := by
        rcases resolveAttribute_value (Forest.find_some hn).1 hv with h | ⟨m, hm, h⟩
        · exact hd v h
        · unfold Node.get at h
          obtain ⟨x, hx, rfl⟩ := Option.map_eq_some_iff.1 h
          exact hp m hm x (getAttr_mem hx) a ha (getAttr_name hx)
      refine Along.map fun m _ => ?_
      split
      · refine ⟨Less.put m _ hv0, ?_⟩
        have hne : a ≠ .offset := by rintro rfl; revert ha; decide
        unfold Node.get setHidden
        dsimp only
        rw [getAttr_put, if_neg (by simpa using hne.symm)]
      · exact Less'.refl m

/-- One step after the other. -/
theorem along_next {f g h : Forest} (h1 : Along Less' f g) (h2 : Along Less' g h) : Along Less' f h := h1.trans (fun _ _ _ a b => a.trans b) h2

theorem along_forEach {u : Nat → Forest → Option Forest} (hu : ∀ k f g, PlainTaken f → u k f = some g → Along Less' f g) {l : List Nat} {f g : Forest}
    (hp : PlainTaken f) (h : Gradients.forEach u l f = some g) : Along Less' f g := by
  induction l generalizing f with
  | nil => cases h; exact Along.refl Less'.refl _
  | cons k t ih =>
    simp only [Gradients.forEach] at h
    obtain ⟨f1, h1, h2⟩ := Option.bind_eq_some_iff.1 h
    have a1 := hu k f f1 hp h1
    exact along_next a1 (ih (hp.along a1) h2)

theorem along_resolveLinear {f g : Forest} (hp : PlainTaken f) (h : Gradients.resolveLinear f = some g) : Along Less' f g := by
  obtain ⟨l, _, h⟩ := Option.bind_eq_some_iff.1 h
  refine along_forEach (fun k f g p0 h => ?_) hp h
  simp only [Gradients.resolveLinearNode, Option.bind_eq_some_iff] at h
  obtain ⟨f1, h1, f2, h2, f3, h3, f4, h4, f5, h5, f6, h6, h7⟩ := h
  have t : ∀ w : Value, w.target = none → ∀ v, some w = some v → v.target = none := fun w hw v e => by cases e; exact hw
  have a1 := along_checkAttr p0 (by decide) (t _ rfl) h1
  have p1 := p0.along a1
  have a2 := along_checkAttr p1 (by decide) (t _ rfl) h2
  have p2 := p1.along a2
  have a3 := along_checkAttr p2 (by decide) (t _ rfl) h3
  have p3 := p2.along a3
  have a4 := along_checkAttr p3 (by decide) (t _ rfl) h4
  have p4 := p3.along a4
  have a5 := along_checkAttr p4 (by decide) (t _ rfl) h5
  have p5 := p4.along a5
  have a6 := along_checkAttr p5 (by decide) (t _ rfl) h6
  have p6 := p5.along a6
  have a7 := along_checkAttr p6 (by decide) (by intro v e; cases e) h7
  exact along_next a1 (along_next a2 (along_next a3 (along_next a4 (along_next a5 (along_next a6 a7)))))

theorem along_resolveRadial {f g : Forest} (hp : PlainTaken f) (h : Gradients.resolveRadial f = some g) : Along Less' f g := by
  obtain ⟨l, _, h⟩ := Option.bind_eq_some_iff.1 h
  refine along_forEach (fun k f g p0 h => ?_) hp h
  simp only [Gradients.resolveRadialNode, Option.bind_eq_some_iff] at h
  obtain ⟨f1, h1, f2, h2, f3, h3, f4, h4, f5, h5, n, hn, f6, h6, f7, h7, h8⟩ := h
  have t : ∀ w : Value, w.target = none → ∀ v, some w = some v → v.target = none := fun w hw v e => by cases e; exact hw
  have a1 := along_checkAttr p0 (by decide) (t _ rfl) h1
  have p1 := p0.along a1
  have a2 := along_checkAttr p1 (by decide) (t _ rfl) h2
  have p2 := p1.along a2
  have a3 := along_checkAttr p2 (by decide) (t _ rfl) h3
  have p3 := p2.along a3
  have a4 := along_checkAttr p3 (by decide) (t _ rfl) h4
  have p4 := p3.along a4
  have a5 := along_checkAttr p4 (by decide) (t _ rfl) h5
  have p5 := p4.along a5
  have hn' : ∀ a ∈ taken, ∀ v, n.get a = some v → v.target = none := by
    intro a ha v hv
    unfold Node.get at hv
    obtain ⟨x, hx, rfl⟩ := Option.map_eq_some_iff.1 hv
    exact p5 n (Forest.find_some hn).1 x (getAttr_mem hx) a ha (getAttr_name hx)
  have a6 := along_checkAttr p5 (by decide) (hn' _ (by decide)) h6
  have p6 := p5.along a6
  have a7 := along_checkAttr p6 (by decide) (hn' _ (by decide)) h7
  have p7 := p6.along a7
  have a8 := along_checkAttr p7 (by decide) (by intro v e; cases e) h8
  exact along_next a1 (along_next a2 (along_next a3 (along_next a4 (along_next a5 (along_next a6 (along_next a7 a8))))))

section
open Verif.Stops

theorem less_setDefault (n : Node) (a : AId) {v : Value} (h : v.target = none) : Less n (setDefault n a v) := by
  unfold setDefault
  split
  · exact Less.refl n
  · exact Less.put n _ h

theorem less_stopDefaults (n : Node) : Less n (stopDefaults n) := (less_setDefault n _ rfl).trans (less_setDefault _ _ rfl)

theorem less_resolveStop {b : Bool} {n m : Node} (h : resolveStop b n = .ok m) : Less n m := by
  have hset : ∀ l, Less n (n.set .offset (.length l)) := fun l => Less.put n _ rfl
  unfold resolveStop at h
  cases hg : n.get .offset with
  | none =>
    rw [hg] at h
    cases b <;> cases h
    exact (hset _).trans (less_stopDefaults _)
  | some v =>
    rw [hg] at h
    cases v with
    | length l =>
      cases h
      by_cases hp : l.unit = .percent
      · rw [if_pos hp]; exact (hset _).trans (less_stopDefaults _)
      · rw [if_neg hp]; exact less_stopDefaults _
    | _ => cases b <;> cases h <;> exact (hset _).trans (less_stopDefaults _)

theorem along_resolveStopKids {b : Bool} {f g : Forest} (h : resolveStopKids b f = .ok g) : Along Less f g := by
  induction f generalizing b g with
  | nil => cases h; exact .nil
  | cons n k r _ ih =>
    rw [resolveStopKids] at h
    obtain ⟨n', h1, h⟩ := bind_ok.1 h
    obtain ⟨r', h2, h⟩ := bind_ok.1 h
    cases h
    exact .cons (less_resolveStop h1) (Along.refl Less.refl _) (ih h2)

theorem along_resolveStops (s : Nat) {f g : Forest} (hs : size f ≤ s) (h : resolveStops f = .ok g) : Along Less f g := by
  induction s generalizing f g with
  | zero => cases f with
    | nil => rw [resolveStops] at h; cases h; exact .nil
    | cons n k r => simp [size] at hs
  | succ s ih => cases f with
    | nil => rw [resolveStops] at h; cases h; exact .nil
    | cons n k r =>
      rw [resolveStops_cons] at h
      obtain ⟨k1, h1, h⟩ := bind_ok.1 h
      obtain ⟨k2, h2, h⟩ := bind_ok.1 h
      obtain ⟨r', h3, h⟩ := bind_ok.1 h
      cases h
      simp only [size] at hs
      have hk : size k1 = size k ∧ Along Less k k1 := by
        split at h1
        · exact ⟨resolveStopKids_size h1, along_resolveStopKids h1⟩
        · cases h1; exact ⟨rfl, Along.refl Less.refl _⟩
      exact .cons (Less.refl n) (hk.2.trans (fun _ _ _ a b => a.trans b) (ih (by omega) h2)) (ih (by omega) h3)

end

/-! ### What is inherited -/

/-- Inheritable attributes refer only to the nodes of `B`. -/
def InhN (B : Nat → Prop) (n : Node) : Prop :=
  ∀ x ∈ n.attrs, ∀ a : AId, x.name = .id a → a.isInheritable = true → ∀ k, x.value.target = some k → B k

/-- A node made from `n`: a reference is one of `n` or of an ancestor. -/
structure Taken (B : Nat → Prop) (anc : List Node) (n m : Node) : Prop where
  strip : strip m = strip n
  links : ∀ k ∈ m.links, k ∈ n.links ∨ ∃ a ∈ anc, k ∈ a.links
  inh : InhN B m

theorem Taken.set {B : Nat → Prop} {anc : List Node} {n m : Node} (h : Taken B anc n m) {a : AId} {v : Value}
    (hv : ∀ k, v.target = some k → k ∈ n.links ∨ ∃ a ∈ anc, k ∈ a.links) (hb : a.isInheritable = true → ∀ k, v.target = some k → B k) :
    Taken B anc n (m.set a v) where
  strip := h.strip
  links k hk := (Node.links_set_subset m a v hk).elim (hv k) (h.links k)
  inh x hx b hn hi k hk := by
    rcases Node.mem_putAttr hx with rfl | hx
    · cases hn; exact hb hi k hk
    · exact h.inh x hx b hn hi k hk

section
open Verif.Inherit

theorem setChecked_ok {n : Node} {a : AId} {v : Value} (h : v.target ≠ some n.key) : setChecked n a v = .ok (n.set a v) := by
  unfold setChecked; rw [if_neg h]

/-- One attribute: no crash, and the result is made from `n`. -/
def Fine (B : Nat → Prop) (anc : List Node) (n : Node) (a : AId) (r : Res Node) (m : Node) : Prop :=
  r ≠ .panic ∧ ∀ m', r = .ok m' → Taken B anc n m' ∧ (a ≠ .offset → m'.get .offset = m.get .offset)

theorem fine_set {B : Nat → Prop} {anc : List Node} {n m : Node} (h : Taken B anc n m) {a : AId} {v : Value}
    (hs : ∀ k, k ∈ n.links ∨ (∃ a ∈ anc, k ∈ a.links) → k ≠ n.key)
    (hv : ∀ k, v.target = some k → k ∈ n.links ∨ ∃ a ∈ anc, k ∈ a.links) (hb : a.isInheritable = true → ∀ k, v.target = some k → B k) :
    Fine B anc n a (setChecked m a v) m := by
  have hk : m.key = n.key := congrArg (fun x : Node => x.key) (a₁ := Pipeline.strip m) (a₂ := Pipeline.strip n) h.strip
  have : v.target ≠ some m.key := fun e => hs _ (hv _ e) hk
  rw [setChecked_ok this]
  refine ⟨by simp, fun m' e => ?_⟩
  cases e
  refine ⟨h.set hv hb, fun ha => ?_⟩
  unfold Node.get Node.set
  dsimp only
  rw [getAttr_put, if_neg (by simpa using ha.symm)]

theorem fine_impl {B : Nat → Prop} {anc : List Node} {n m : Node} (h : Taken B anc n m) {a p : AId} (hB : ∀ a ∈ anc, InhN B a)
    (hs : ∀ k, k ∈ n.links ∨ (∃ a ∈ anc, k ∈ a.links) → k ≠ n.key) (hp : a.isInheritable = true → p.isInheritable = true) :
    Fine B anc n a (resolveImpl anc a p m) m := by
  unfold resolveImpl
  split
  next v hv =>
    obtain ⟨q, hq, hv⟩ := List.exists_of_findSome?_eq_some hv
    refine fine_set h hs (fun k hk => .inr ⟨q, hq, get_links hv hk⟩) fun hi k hk => ?_
    unfold Node.get at hv
    obtain ⟨x, hx, rfl⟩ := Option.map_eq_some_iff.1 hv
    exact hB q hq x (getAttr_mem hx) p (getAttr_name hx) (hp hi) k hk
  · exact ⟨by simp, fun _ e => by cases e⟩

theorem fine_forAttrs {B : Nat → Prop} {anc : List Node} {n : Node} {u : AId → Node → Res Node}
    (hu : ∀ a m, Taken B anc n m → Fine B anc n a (u a m) m) {l : List AId} {m : Node} (h : Taken B anc n m) :
    forAttrs u l m ≠ .panic ∧ ∀ m', forAttrs u l m = .ok m' → Taken B anc n m' ∧ (.offset ∉ l → m'.get .offset = m.get .offset) := by
  induction l generalizing m with
  | nil => exact ⟨by simp [forAttrs], fun m' e => by cases e; exact ⟨h, fun _ => rfl⟩⟩
  | cons a t ih =>
    rw [forAttrs]
    obtain ⟨h1, h2⟩ := hu a m h
    cases hr : u a m with
    | panic => exact absurd hr h1
    | err e => exact ⟨by simp [Res.bind], fun _ e => by cases e⟩
    | ok m1 =>
      obtain ⟨t1, t2⟩ := h2 m1 hr
      obtain ⟨i1, i2⟩ := ih t1
      refine ⟨i1, fun m' e => ?_⟩
      obtain ⟨j1, j2⟩ := i2 m' e
      refine ⟨j1, fun ho => ?_⟩
      simp only [List.mem_cons, not_or] at ho
      rw [j2 ho.2, t2 (Ne.symm ho.1)]

theorem fine_body {B : Nat → Prop} {anc : List Node} {n : Node} (hB : ∀ a ∈ anc, InhN B a) (hn : InhN B n)
    (hs : ∀ k, k ∈ n.links ∨ (∃ a ∈ anc, k ∈ a.links) → k ≠ n.key) (hd : (n.attrs.map (·.name)).Nodup) :
    Inherit.body anc n ≠ .panic ∧ ∀ m, Inherit.body anc n = .ok m → Taken B anc n m ∧ (offsetOf n ≠ none → offsetOf m = offsetOf n) := by
  have t0 : Taken B anc n n := ⟨rfl, fun _ h => .inl h, hn⟩
  unfold Inherit.body
  split
  swap
  · exact ⟨by simp, fun m e => by cases e; exact ⟨t0, fun _ => rfl⟩⟩
  have hoff : ∀ w, offsetOf n ≠ none → AId.offset ∉ withKw n w := by
    intro w ho hm
    rw [mem_withKw hd] at hm
    unfold offsetOf at ho
    rw [hm] at ho
    exact ho rfl
  have hcol : ∀ a m, Taken B anc n m → Fine B anc n a (resolveColor anc a m) m := by
    intro a m hm
    unfold resolveColor
    split
    next v hv =>
      refine fine_set hm hs (fun k hk => hm.links k (get_links hv hk)) fun hi k hk => ?_
      unfold Node.get at hv
      obtain ⟨x, hx, rfl⟩ := Option.map_eq_some_iff.1 hv
      exact hm.inh x (getAttr_mem hx) .color (getAttr_name hx) rfl k hk
    · exact fine_impl hm hB hs fun _ => rfl
  obtain ⟨a1, a2⟩ := fine_forAttrs (u := fun a => resolveImpl anc a a) (l := withKw n .inherit) (fun a m hm => fine_impl hm hB hs id) t0
  cases hr : forAttrs (fun a => resolveImpl anc a a) (withKw n .inherit) n with
  | panic => exact absurd hr a1
  | err e => exact ⟨by simp [Res.bind], fun _ e => by cases e⟩
  | ok m1 =>
    obtain ⟨t1, o1⟩ := a2 m1 hr
    obtain ⟨b1, b2⟩ := fine_forAttrs (u := fun a => resolveColor anc a) (l := withKw n .currentColor) hcol t1
    refine ⟨b1, fun m e => ?_⟩
    obtain ⟨t2, o2⟩ := b2 m e
    refine ⟨t2, fun ho => ?_⟩
    unfold offsetOf
    rw [o2 (hoff _ ho), o1 (hoff _ ho)]

/-- No element refers to itself or to an element in it. -/
def NotInside (f : Forest) : Prop := ∀ x ∈ Spec.subs f, ∀ k ∈ x.1.links, k ≠ x.1.key ∧ k ∉ x.2.keys

theorem fine_mapRes {B : Nat → Prop} {anc : List Node} {f : Forest} (hB : ∀ a ∈ anc, InhN B a) (hf : ∀ n ∈ f.nodes, InhN B n)
    (ha : ∀ a ∈ anc, ∀ k ∈ a.links, k ∉ f.keys) (hi : NotInside f) (hd : UniqueAttrs f) :
    f.mapRes Inherit.body anc ≠ .panic ∧ ∀ g, f.mapRes Inherit.body anc = .ok g →
      Along (fun n m => strip m = strip n ∧ InhN B m ∧ (offsetOf n ≠ none → offsetOf m = offsetOf n)) f g := by
  induction f generalizing anc with
  | nil => exact ⟨by simp [Forest.mapRes], fun g e => by cases e; exact .nil⟩
  | cons n k r ih1 ih2 =>
    simp only [UniqueAttrs, Forest.nodes, List.mem_cons, List.mem_append] at hf hd
    simp only [NotInside, Spec.subs, List.mem_cons, List.mem_append] at hi
    simp only [Forest.keys_cons, List.mem_cons, List.mem_append, not_or] at ha
    obtain ⟨b1, b2⟩ := fine_body hB (hf n (.inl rfl)) (fun j hj => by
      rcases hj with hj | ⟨a, ha', hj⟩
      · exact (hi (n, k) (.inl rfl) j hj).1
      · exact (ha a ha' j hj).1) (hd n (.inl rfl))
    rw [Forest.mapRes]
    cases h1 : Inherit.body anc n with
    | panic => exact absurd h1 b1
    | err e => exact ⟨by simp [Res.bind], fun _ e => by cases e⟩
    | ok n1 =>
      obtain ⟨t1, o1⟩ := b2 n1 h1
      obtain ⟨c1, c2⟩ := ih1 (anc := n1 :: anc) (fun a ha' => by
          rcases List.mem_cons.1 ha' with rfl | ha'
          · exact t1.inh
          · exact hB a ha')
        (fun m hm => hf m (.inr (.inl hm)))
        (fun a ha' j hj => by
          rcases List.mem_cons.1 ha' with rfl | ha'
          · rcases t1.links j hj with h | ⟨a, ha', h⟩
            · exact (hi (n, k) (.inl rfl) j h).2
            · exact (ha a ha' j h).2.1
          · exact (ha a ha' j hj).2.1)
        (fun x hx => hi x (.inr (.inl hx))) (fun m hm => hd m (.inr (.inl hm)))
      obtain ⟨d1, d2⟩ := ih2 (anc := anc) hB (fun m hm => hf m (.inr (.inr hm))) (fun a ha' j hj => (ha a ha' j hj).2.2)
        (fun x hx => hi x (.inr (.inr hx))) (fun m hm => hd m (.inr (.inr hm)))
      simp only [Res.bind]
      cases h2 : k.mapRes Inherit.body (n1 :: anc) with
      | panic => exact absurd h2 c1
      | err e => exact ⟨by simp, fun _ e => by cases e⟩
      | ok k1 =>
        simp only
        cases h3 : r.mapRes Inherit.body anc with
        | panic => exact absurd h3 d1
        | err e => exact ⟨by simp, fun _ e => by cases e⟩
        | ok r1 =>
          refine ⟨by simp, fun g e => ?_⟩
          cases e
          exact .cons ⟨t1.strip, t1.inh, o1⟩ (c2 k1 h2) (d2 r1 h3)

end

/-! ### Corrections -/

section
open Verif.Stops

theorem Less.rm (n : Node) (a : AId) : Less n (n.rm a) :=
  ⟨rfl, fun x hx => .inr (List.mem_of_mem_filter hx), fun h => (List.Sublist.map _ List.filter_sublist).nodup h⟩

theorem less_fixLen (n : Node) (a : AId) : Less n (fixLen n a) := by
  unfold fixLen
  split
  · split
    · split
      · exact Less.put n _ rfl
      · exact Less.refl n
    · exact Less.refl n
  · exact Less.put n _ rfl

theorem less_rmNegativeLen (n : Node) (a : AId) : Less n (rmNegativeLen n a) := by
  unfold rmNegativeLen
  split
  · split
    · exact Less.rm n a
    · exact Less.refl n
  · exact Less.refl n

theorem less_fixPoly (n : Node) : Less n (fixPoly n) := by
  unfold fixPoly
  split
  · split
    · exact Less.rm n _
    · refine ⟨rfl, fun x hx => ?_, fun h => ?_⟩
      · obtain ⟨y, hy, rfl⟩ := List.mem_map.1 hx
        split
        · obtain ⟨nm, v, b⟩ := y
          cases v <;> first | exact .inr hy | exact .inl rfl
        · exact .inr hy
      · have : (n.attrs.map fun x => if x.name = .id .points then { x with value := evenPointsValue x.value } else x).map (·.name) = n.attrs.map (·.name) := by
          rw [List.map_map]
          refine List.map_congr_left fun x _ => ?_
          simp only [Function.comp_apply]
          split <;> rfl
        show (((modValue n .points evenPointsValue).attrs).map (·.name)).Nodup
        unfold modValue
        rw [this]; exact h
  · exact Less.refl n

theorem less_fixNode (n : Node) : Less n (fixNode n) := by
  unfold fixNode
  split
  · exact (((less_fixLen n _).trans (less_fixLen _ _)).trans (less_rmNegativeLen _ _)).trans (less_rmNegativeLen _ _)
  · exact less_fixPoly n
  · exact less_fixPoly n
  · exact Less.refl n

theorem along_fixStopKids {p : ℚ} {f g : Forest} (h : fixStopKids p f = some g) : Along Less f g := by
  induction f generalizing p g with
  | nil => cases h; exact .nil
  | cons n k r _ ih =>
    rw [fixStopKids] at h
    split at h
    · split at h
      · obtain ⟨r', h1, h⟩ := Option.map_eq_some_iff.1 h
        cases h
        exact .cons (Less.put n _ rfl) (Along.refl Less.refl _) (ih h1)
      · cases h
    · cases h

theorem along_fixGo (s : Nat) {f g : Forest} (hs : size f ≤ s) (h : fixGo f = some g) : Along Less f g := by
  induction s generalizing f g with
  | zero => cases f with
    | nil => rw [fixGo] at h; cases h; exact .nil
    | cons n k r => simp [size] at hs
  | succ s ih => cases f with
    | nil => rw [fixGo] at h; cases h; exact .nil
    | cons n k r =>
      obtain ⟨k1, k2, r', h1, h2, h3, rfl⟩ := fixGo_cons h
      simp only [size] at hs
      have hk : size k1 = size k ∧ Along Less k k1 := by
        split at h1
        · exact ⟨fixStopKids_size h1, along_fixStopKids h1⟩
        · cases h1; exact ⟨rfl, Along.refl Less.refl _⟩
      exact .cons (less_fixNode n) (hk.2.trans (fun _ _ _ a b => a.trans b) (ih (by omega) h2)) (ih (by omega) h3)

theorem along_fixInvalid {f g : Forest} (h : fixInvalidAttributes f = some g) : Along Less f g := by
  obtain ⟨f1, h1, h⟩ := Option.map_eq_some_iff.1 h
  cases h
  exact (along_fixGo _ (Nat.le_refl _) h1).trans (fun _ _ _ a b => a.trans b) (Along.map fun n _ => Less.rm n .marker)

end

theorem InhN.less {B : Nat → Prop} {n m : Node} (h : InhN B n) (hl : Less n m) : InhN B m := by
  intro x hx a hn hi k hk
  rcases hl.attrs x hx with h' | h'
  · rw [h'] at hk; cases hk
  · exact h x h' a hn hi k hk

theorem Less.links {n m : Node} (h : Less n m) : ∀ k ∈ m.links, k ∈ n.links := by
  intro k hk
  obtain ⟨x, hx, e⟩ := Node.mem_links.1 hk
  rcases h.attrs x hx with h' | h'
  · rw [h'] at e; cases e
  · exact Node.mem_links.2 ⟨x, h', e⟩

/-! ### C53 -/

/-- What keeps a run from crashing. -/
structure Quiet (f : Forest) : Prop where
  unique : f.UniqueKeys
  attrs : UniqueAttrs f
  visible : AllVisible f
  root : ∃ n ∈ f.top, n.kind = .elem .svg
  /-- References between gradients are to gradients and have no cycles. -/
  href : HrefOk f
  /-- Gradients refer to other elements by `xlink:href` only. -/
  only : OnlyHref f
  /-- Coordinates, units, spread methods and transforms of gradients refer to nothing. -/
  plain : PlainTaken f
  /-- No element refers to itself or to an element in it. -/
  inside : NotInside f
  /-- The offsets of stops are numbers or percentages. -/
  offsets : ∀ x ∈ Spec.subs f, x.1.isGradient = true → ∀ c ∈ x.2.top, ∀ l, c.get .offset = some (.length l) → l.unit = .none ∨ l.unit = .percent
  /-- No inheritable attribute refers to a child of a clip path, mask, marker, pattern or symbol. -/
  scenes : ∀ p ∈ f.nodes, ∀ x ∈ p.attrs, ∀ a : AId, x.name = .id a → a.isInheritable = true → ∀ y ∈ Spec.subs f, isScene y.1 = true →
    ∀ n ∈ y.2.top, x.value.target ≠ some n.key

theorem isGradient_kind {n m : Node} (h : m.kind = n.kind) : m.isGradient = n.isGradient := by
  unfold Node.isGradient Node.isTag; rw [h]

theorem isScene_kind {n m : Node} (h : m.kind = n.kind) : isScene m = isScene n := by
  unfold isScene; rw [h]

theorem along_bind {R : Node → Node → Prop} {f g : Forest} (h : Along R f g) {y : Node × Forest} (hy : y ∈ Spec.subs g) :
    ∃ x ∈ Spec.subs f, R x.1 y.1 ∧ Along R x.2 y.2 := Simple.forall₂_mem_right h.subs hy

theorem along_mem {R : Node → Node → Prop} {f g : Forest} (h : Along R f g) {m : Node} (hm : m ∈ g.nodes) : ∃ n ∈ f.nodes, R n m :=
  Simple.forall₂_mem_right h.nodes hm

theorem hasRoot_iff {f : Forest} : (∃ x, svgElement f = some x) ↔ ∃ n ∈ f.top, n.kind = .elem .svg := by
  constructor
  · rintro ⟨x, hx⟩
    exact ⟨x.1, GroupDefs.svgElement_top hx, (GroupDefs.svgElement_mem hx).2⟩
  · rintro ⟨n, hn, hk⟩
    induction f with
    | nil => cases hn
    | cons m k r _ ih =>
      rw [svgElement]
      split
      · exact ⟨_, rfl⟩
      next h =>
        rcases List.mem_cons.1 hn with rfl | hn
        · exact absurd ((Node.isTag_iff _ _).2 hk) h
        · exact ih hn

theorem hasRoot_along {R : Node → Node → Prop} (hR : ∀ n m, R n m → m.kind = n.kind) {f g : Forest} (h : Along R f g)
    (hr : ∃ n ∈ f.top, n.kind = .elem .svg) : ∃ n ∈ g.top, n.kind = .elem .svg := by
  obtain ⟨n, hn, hk⟩ := hr
  have := h.top
  generalize f.top = a at *
  generalize g.top = b at *
  induction this with
  | nil => cases hn
  | cons h1 _ ih =>
    rcases List.mem_cons.1 hn with rfl | hn
    · exact ⟨_, List.mem_cons_self .., (hR _ _ h1).trans hk⟩
    · obtain ⟨m, hm, e⟩ := ih hn
      exact ⟨m, List.mem_cons_of_mem _ hm, e⟩

theorem runAll_panic {t : Task} {ts : List Task} {f : Forest} (h1 : t f ≠ .panic) (h2 : ∀ g, t f = .ok g → runAll ts g ≠ .panic) :
    runAll (t :: ts) f ≠ .panic := by
  rw [runAll]
  cases h : t f with
  | panic => exact absurd h h1
  | err e => simp [Res.bind]
  | ok g => exact h2 g h

theorem may_panic {t : Forest → Option Forest} {f : Forest} (h : ∃ g, t f = some g) : may t f ≠ .panic := by
  obtain ⟨g, hg⟩ := h
  unfold may; rw [hg]; simp [Res.ofOption]

theorem along_still {R : Node → Node → Prop} (hR : ∀ n m, R n m → strip m = strip n) {f g : Forest} (h : Along R f g) : Still f g := by
  induction h with
  | nil => rfl
  | cons h1 _ _ ih1 ih2 => exact Still.cons (hR _ _ h1) ih1 ih2

theorem Still.root {f g : Forest} (h : Still f g) (hr : ∃ x, svgElement f = some x) : ∃ x, svgElement g = some x := by
  rw [hasRoot_iff] at *
  obtain ⟨n, hn, hk⟩ := hr
  have e : g.top.map strip = f.top.map strip := by
    rw [← Stops.top_map, ← Stops.top_map, h]
  have : strip n ∈ g.top.map strip := e ▸ List.mem_map_of_mem hn
  obtain ⟨m, hm, e⟩ := List.mem_map.1 this
  exact ⟨m, hm, (congrArg (fun x : Node => x.kind) (a₁ := strip m) (a₂ := strip n) e).trans hk⟩

/-- **C53**: a run with all options off, and precisions from 1 to 12, does not crash on such a document: it ends with success or reports an
error. -/
theorem C53_all_off_partial (E : Env) {o : CleaningOptions} (ho : AllOff o) (hp : Round.InRange (precisions o)) {f : Forest} (hq : Quiet f) :
    cleanDoc E o f ≠ .panic := by
  unfold cleanDoc
  rw [plan_off E ho]
  refine runAll_panic (by unfold check; split <;> simp) fun f0 h0 => ?_
  have e0 : f0 = f := by
    unfold check at h0
    split at h0
    · cases h0; rfl
    · cases h0
  subst e0
  obtain ⟨g2, hg2⟩ := Gradients.C26_no_crash hq.unique hq.visible hq.href hq.only hq.attrs
  obtain ⟨f1, h1, h2⟩ := Option.bind_eq_some_iff.1 hg2
  refine runAll_panic (may_panic ⟨f1, h1⟩) fun f1' h1' => ?_
  have := may_ok h1'
  rw [h1] at this
  cases this
  refine runAll_panic (may_panic ⟨g2, h2⟩) fun f2 h2' => ?_
  have := may_ok h2'
  rw [h2] at this
  cases this
  have a1 := along_resolveLinear hq.plain h1
  have a2 := along_next a1 (along_resolveRadial (hq.plain.along a1) h2)
  refine runAll_panic (Stops.C57_fails_iff g2).1 fun f3 h3 => ?_
  have a3 : Along Less f0 f3 := a2.trans (fun _ _ _ a b => a.1.trans b) (along_resolveStops _ (Nat.le_refl _) h3)
  have i3 : NotInside f3 := by
    intro y hy k hk
    obtain ⟨x, hx, hr, hs⟩ := along_bind a3 hy
    have := hq.inside x hx k (hr.links k hk)
    rw [hr.key, hs.keys fun _ _ h => h.key]
    exact this
  have u3 : UniqueAttrs f3 := by
    intro m hm
    obtain ⟨n, hn, hr⟩ := along_mem a3 hm
    exact hr.names (hq.attrs n hn)
  let B : Nat → Prop := fun k => ∀ y ∈ Spec.subs f0, isScene y.1 = true → ∀ n ∈ y.2.top, k ≠ n.key
  have b3 : ∀ m ∈ f3.nodes, InhN B m := by
    intro m hm
    obtain ⟨n, hn, hr⟩ := along_mem a3 hm
    refine InhN.less (fun x hx a hn' hi k hk y hy hsc c hc e => ?_) hr
    exact hq.scenes n hn x hx a hn' hi y hy hsc c hc (e ▸ hk)
  obtain ⟨p4, q4⟩ := fine_mapRes (B := B) (anc := []) (f := f3) (by simp) b3 (by simp) i3 u3
  refine runAll_panic p4 fun f4 h4 => ?_
  have a4 := q4 f4 h4
  have c3 : Stops.fixInvalidAttributes f3 ≠ none := by
    refine Stops.C28_no_crash_partial h3 fun y hy hg c hc l hl => ?_
    obtain ⟨x, hx, hr, hs⟩ := along_bind a2 hy
    obtain ⟨d, hd, hr'⟩ := Simple.forall₂_mem_right hs.top hc
    exact hq.offsets x hx (by rw [← isGradient_kind hr.1.kind]; exact hg) d hd l (by rw [← hr'.2]; exact hl)
  have c4 : Stops.fixInvalidAttributes f4 ≠ none := by
    rw [Ne, Stops.C28_crashes_iff] at c3 ⊢
    rintro ⟨y, hy, hg, c, hc, hn⟩
    obtain ⟨x, hx, hr, hs⟩ := along_bind a4 hy
    obtain ⟨d, hd, hr'⟩ := Simple.forall₂_mem_right hs.top hc
    have hk : y.1.kind = x.1.kind := congrArg (fun x : Node => x.kind) (a₁ := strip y.1) (a₂ := strip x.1) hr.1
    have : offsetOf d ≠ none := fun e => c3 ⟨x, hx, by rw [← isGradient_kind hk]; exact hg, d, hd, e⟩
    rw [hr'.2.2 this] at hn
    exact this hn
  have r5 : ∃ g, Stops.fixInvalidAttributes f4 = some g := Option.ne_none_iff_exists'.1 c4
  refine runAll_panic (may_panic r5) fun f5 h5 => ?_
  have a5 := along_fixInvalid (may_ok h5)
  have s5 : Along (fun n m => strip m = strip n ∧ InhN B m) f0 f5 :=
    (a3.trans (T := fun n m => strip m = strip n ∧ InhN B m) (fun _ _ _ a b => ⟨b.1.trans a.strip, b.2.1⟩) a4).trans
      (fun _ _ _ a b => ⟨b.strip.trans a.1, a.2.less b⟩) a5
  have kk : ∀ n m : Node, strip m = strip n → m.kind = n.kind := fun n m e => congrArg (fun x : Node => x.kind) (a₁ := strip m) (a₂ := strip n) e
  have ke : ∀ n m : Node, strip m = strip n → m.key = n.key := fun n m e => congrArg (fun x : Node => x.key) (a₁ := strip m) (a₂ := strip n) e
  have u5 : f5.UniqueKeys := by
    unfold Forest.UniqueKeys
    rw [s5.keys fun _ _ h => ke _ _ h.1]
    exact hq.unique
  have r6 : ∃ g, GroupDefs.groupDefs f5 = some g := by
    refine GroupDefs.C35_no_crash u5 (hasRoot_along (fun _ _ h => kk _ _ h.1) s5 hq.root) fun m hm x hx a hn hi y hy hsc c hc e => ?_
    obtain ⟨n, _, hr⟩ := along_mem s5 hm
    obtain ⟨z, hz, hr1, hs⟩ := along_bind s5 hy
    obtain ⟨d, hd, hr2⟩ := Simple.forall₂_mem_right hs.top hc
    exact hr.2 x hx a hn hi _ e z hz (by rw [← isScene_kind (kk _ _ hr1.1)]; exact hsc) d hd (ke _ _ hr2.1)
  refine runAll_panic (may_panic r6) fun f6 h6 => ?_
  obtain ⟨s, ks, d, D, e, C⟩ := GroupDefs.C35_collected u5 (may_ok h6)
  have root6 : ∃ x, svgElement f6 = some x := ⟨_, C.first⟩
  obtain ⟨g7, h7, -⟩ := Round.C58_document hp f6
  refine runAll_panic (may_panic ⟨g7, h7⟩) fun f7 h7' => ?_
  have root7 := (still_roundNumbers (may_ok h7')).root root6
  have r8 : ∃ g, Simple.removeEmptyDefs f7 = some g := by
    obtain ⟨x, hx⟩ := root7
    unfold Simple.removeEmptyDefs; rw [hx]; exact ⟨_, rfl⟩
  refine runAll_panic (may_panic r8) fun f8 h8 => ?_
  have root8 : ∃ x, svgElement f8 = some x := by
    obtain ⟨n, k, hs, h | ⟨d, a, b, _, _, h⟩⟩ := Simple.C48_empty_defs f7 f8 (may_ok h8)
    · rw [h]; exact ⟨_, hs⟩
    · have := Simple.svgElement_set hs n (a ++ b) (GroupDefs.svgElement_mem hs).2
      rw [h]
      exact ⟨_, GroupDefs.svgElement_map this fun n => rfl⟩
  have r9 : ∃ g, Simple.fixXmlnsAttribute o.removeXmlnsXlinkAttribute f8 = some g := by
    obtain ⟨x, hx⟩ := root8
    unfold Simple.fixXmlnsAttribute; rw [hx]; exact ⟨_, rfl⟩
  refine runAll_panic (may_panic r9) fun f9 h9 => ?_
  refine runAll_panic (by simp [sure]) fun f10 h10 => ?_
  refine runAll_panic (by simp [sure]) fun f11 h11 => ?_
  simp [runAll]

/-- A check for the documents below. -/
def quietB (f : Forest) (rank : Nat → Nat) : Bool :=
  decide f.UniqueKeys && (f.nodes.all fun n => decide (n.attrs.map (·.name)).Nodup) && decide (AllVisible f) &&
  (f.top.any fun n => decide (n.kind = .elem .svg)) && rankedB f rank &&
  (f.nodes.all fun n => !n.isGradient || n.attrs.all fun x => decide (x.value.target = none) || decide (x.name = .id .xlinkHref)) &&
  (f.nodes.all fun n => n.attrs.all fun x => taken.all fun a => !decide (x.name = .id a) || decide (x.value.target = none)) &&
  ((Spec.subs f).all fun x => x.1.links.all fun k => !decide (k = x.1.key) && !decide (k ∈ x.2.keys)) &&
  ((Spec.subs f).all fun x => !x.1.isGradient || x.2.top.all fun c => match c.get .offset with
    | some (.length l) => decide (l.unit = .none) || decide (l.unit = .percent)
    | _ => true) &&
  f.nodes.all fun p => p.attrs.all fun x => match x.name with
    | .id a => !a.isInheritable || (Spec.subs f).all fun y => !isScene y.1 || y.2.top.all fun n => !decide (x.value.target = some n.key)
    | .name _ => true

theorem quiet_of {f : Forest} {rank : Nat → Nat} (h : quietB f rank = true) : Quiet f := by
  simp only [quietB, Bool.and_eq_true, List.all_eq_true, List.any_eq_true, Bool.or_eq_true, decide_eq_true_eq, Bool.not_eq_true',
    decide_eq_false_iff_not] at h
  obtain ⟨⟨⟨⟨⟨⟨⟨⟨⟨h1, h2⟩, h3⟩, h4⟩, h5⟩, h6⟩, h7⟩, h8⟩, h9⟩, h10⟩ := h
  refine ⟨h1, h2, h3, h4, ⟨rank, ranked_of h5⟩, fun n hn hg x hx hne => ?_, fun n hn x hx a ha e => ?_, h8, fun x hx hg c hc l hl => ?_,
    fun p hp x hx a ha hi y hy hsc n hn => ?_⟩
  · rcases h6 n hn with h | h
    · rw [hg] at h; cases h
    · exact (h x hx).resolve_left hne
  · exact (h7 n hn x hx a ha).resolve_left (not_not.2 e)
  · rcases h9 x hx with h | h
    · rw [hg] at h; cases h
    · have := h c hc
      rw [hl] at this
      simpa using this
  · have := h10 p hp x hx
    rw [ha] at this
    simp only [Bool.or_eq_true, Bool.not_eq_true', List.all_eq_true, decide_eq_false_iff_not] at this
    rcases this with h | h
    · rw [hi] at h; cases h
    · rcases h y hy with h | h
      · rw [hsc] at h; cases h
      · exact h n hn

/-- Not vacuous: there are such documents, with gradients that have templates. -/
example : Quiet sample := quiet_of (rank := fun k => k) (by decide +kernel)
example : Round.InRange (precisions {}) := by unfold Round.InRange; decide

end Verif.Pipeline
