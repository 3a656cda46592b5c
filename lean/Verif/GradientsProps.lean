import Verif.Gradients
import Verif.GradientSpec
import Verif.StopsProps
import Mathlib.Data.Finset.Max
import Mathlib.Data.List.Nodup
import Mathlib.Data.List.Perm.Subperm
/-
C26: resolving gradient attributes gives the values the SVG standard prescribes.
C27: the order in which gradients are processed.
-/
namespace Verif.Gradients
open Verif.Dom Verif.Stops Verif.Spec

/-! ## C27 -/

/-- The gradients of kind `e` with keys `a` and `b` are in the document and `a` has a reference to `b`. -/
def Uses (f : Forest) (e : EId) (a b : Nat) : Prop :=
  (∃ n ∈ f.nodes, n.key = a ∧ n.kind = .elem e ∧ b ∈ n.links) ∧ ∃ m ∈ f.nodes, m.key = b ∧ m.kind = .elem e

theorem mem_ofKind {f : Forest} {e : EId} {k : Nat} : k ∈ ofKind f e ↔ ∃ n ∈ f.nodes, n.key = k ∧ n.kind = .elem e := by
  simp only [ofKind, List.mem_map, List.mem_filter, Node.isTag_iff]
  constructor
  · rintro ⟨n, ⟨h1, h2⟩, h3⟩; exact ⟨n, h1, h3, h2⟩
  · rintro ⟨n, h1, h3, h2⟩; exact ⟨n, ⟨h1, h2⟩, h3⟩

theorem nodup_ofKind {f : Forest} (h : f.UniqueKeys) (e : EId) : (ofKind f e).Nodup := by
  apply List.Nodup.sublist _ h
  exact (List.filter_sublist).map _

theorem waiting_zero {f : Forest} {e : EId} {order : List Nat} {k : Nat} :
    waiting f e order k = 0 ↔ ∀ n ∈ f.nodes, n.kind = .elem e → k ∈ n.links → n.key ∈ order := by
  unfold waiting Forest.linkedNodes
  rw [List.length_eq_zero_iff, List.filter_eq_nil_iff]
  constructor
  · intro h n hn he hk
    have := h n (List.mem_filter.2 ⟨hn, by simpa using hk⟩)
    simpa [Node.isTag_iff, he] using this
  · intro h n hn
    obtain ⟨h1, h2⟩ := List.mem_filter.1 hn
    have := h n h1
    simp only [Bool.and_eq_true, Node.isTag_iff, not_and]
    intro he
    simpa using this he (by simpa using h2)

/-- Every element is preceded by all gradients that use it. -/
structure Ordered (f : Forest) (e : EId) (order : List Nat) : Prop where
  nodup : order.Nodup
  sub : ∀ k ∈ order, k ∈ ofKind f e
  first : ∀ pre b post, order = pre ++ b :: post → ∀ n ∈ f.nodes, n.kind = .elem e → b ∈ n.links → n.key ∈ pre

theorem Ordered.snoc {f : Forest} {e : EId} {order : List Nat} {k : Nat} (h : Ordered f e order) (hk : k ∈ ofKind f e)
    (hn : k ∉ order) (hw : waiting f e order k = 0) : Ordered f e (order ++ [k]) := by
  refine ⟨?_, ?_, ?_⟩
  · rw [List.nodup_append]
    refine ⟨h.nodup, by simp, ?_⟩
    rintro a ha b hb rfl
    simp at hb; subst hb; exact hn ha
  · intro x hx
    rcases List.mem_append.1 hx with hx | hx
    · exact h.sub x hx
    · simp at hx; subst hx; exact hk
  · intro pre b post hs n hn' he hl
    rcases List.eq_nil_or_concat post with rfl | ⟨post', y, rfl⟩
    · have := List.append_inj' (s₁ := order) (t₁ := [k]) (s₂ := pre) (t₂ := [b]) hs rfl
      obtain ⟨rfl, h2⟩ := this
      simp at h2; subst h2
      exact waiting_zero.1 hw n hn' he hl
    · rw [List.concat_eq_append, ← List.cons_append, ← List.append_assoc] at hs
      obtain ⟨h1, -⟩ := List.append_inj' hs rfl
      exact h.first pre b post' h1 n hn' he hl

theorem orderPass_ordered {f : Forest} {e : EId} {l order : List Nat} (hl : ∀ k ∈ l, k ∈ ofKind f e)
    (h : Ordered f e order) : Ordered f e (orderPass f e l order) := by
  induction l generalizing order with
  | nil => exact h
  | cons k t ih =>
    have ht : ∀ x ∈ t, x ∈ ofKind f e := fun x hx => hl x (by simp [hx])
    unfold orderPass
    split
    · exact ih ht h
    · rename_i hn
      split
      · rename_i hw
        exact ih ht (h.snoc (hl k (by simp)) hn hw)
      · exact ih ht h

theorem orderPass_prefix (f : Forest) (e : EId) (l order : List Nat) : order <+: orderPass f e l order := by
  induction l generalizing order with
  | nil => exact List.prefix_rfl
  | cons k t ih =>
    unfold orderPass
    split
    · exact ih _
    · split
      · exact (List.prefix_append _ _).trans (ih _)
      · exact ih _

theorem waiting_mono {f : Forest} {e : EId} {o o' : List Nat} {k : Nat} (h : ∀ x ∈ o, x ∈ o') (hw : waiting f e o k = 0) :
    waiting f e o' k = 0 := by
  rw [waiting_zero] at hw ⊢
  exact fun n h1 h2 h3 => h _ (hw n h1 h2 h3)

theorem orderPass_adds {f : Forest} {e : EId} {l order : List Nat} {k : Nat} (hk : k ∈ l) (hw : waiting f e order k = 0) :
    k ∈ orderPass f e l order := by
  induction l generalizing order with
  | nil => simp at hk
  | cons x t ih =>
    unfold orderPass
    by_cases hx : x = k
    · subst hx
      split
      · exact (orderPass_prefix f e t order).subset ‹_›
      · exact (orderPass_prefix f e t _).subset (by simp)
    · have hk' : k ∈ t := by
        rcases List.mem_cons.1 hk with h | h
        · exact absurd h.symm hx
        · exact h
      split
      · exact ih hk' hw
      · split
        · exact ih hk' (waiting_mono (by simp +contextual) hw)
        · exact ih hk' hw

theorem Ordered.length_le {f : Forest} {e : EId} {o : List Nat} (h : Ordered f e o) :
    o.length ≤ (ofKind f e).length :=
  (List.subperm_of_subset h.nodup h.sub).length_le

theorem Ordered.perm {f : Forest} {e : EId} {o : List Nat} (h : Ordered f e o)
    (hl : o.length = (ofKind f e).length) : o.Perm (ofKind f e) :=
  (List.subperm_of_subset h.nodup h.sub).perm_of_length_le (by omega)

theorem ordered_nil (f : Forest) (e : EId) : Ordered f e [] :=
  ⟨by simp, by simp, by intro pre b post h; simp at h⟩

theorem orderLoop_ordered {f : Forest} {e : EId} {fuel : Nat} {o r : List Nat} (ho : Ordered f e o)
    (h : orderLoop f e (ofKind f e) fuel o = some r) : Ordered f e r ∧ r.length = (ofKind f e).length := by
  induction fuel generalizing o with
  | zero =>
    unfold orderLoop at h
    split at h
    · cases h; exact ⟨ho, ‹_›⟩
    · cases h
  | succ fuel ih =>
    unfold orderLoop at h
    split at h
    · cases h; exact ⟨ho, ‹_›⟩
    · exact ih (orderPass_ordered (fun _ h => h) ho) h

/-- **C27.** The order lists every gradient of the kind exactly once, and each before the gradients it refers to. -/
theorem C27_order {f : Forest} {e : EId} {order : List Nat} (h : genOrder f e = some order) :
    order.Nodup ∧ (∀ k, k ∈ order ↔ ∃ n ∈ f.nodes, n.key = k ∧ n.kind = .elem e) ∧
    ∀ a b, Uses f e a b → order.idxOf a < order.idxOf b := by
  obtain ⟨h1, h2⟩ := orderLoop_ordered (ordered_nil f e) h
  have hp := h1.perm h2
  refine ⟨h1.nodup, fun k => by rw [hp.mem_iff, mem_ofKind], ?_⟩
  rintro a b ⟨⟨n, hn, rfl, he, hl⟩, hb⟩
  have hb' : b ∈ order := by rw [hp.mem_iff, mem_ofKind]; exact hb
  obtain ⟨pre, post, hs⟩ := List.append_of_mem hb'
  have ha := h1.first pre b post hs n hn he hl
  have hbn : b ∉ pre := by
    intro hb
    have := h1.nodup
    rw [hs, List.nodup_append] at this
    exact this.2.2 b hb b (by simp) rfl
  rw [hs, List.idxOf_append_of_mem ha, List.idxOf_append_of_notMem hbn]
  have := List.idxOf_lt_length_of_mem ha
  omega

theorem orderLoop_rank {f : Forest} (hu : f.UniqueKeys) {e : EId} {rank : Nat → Nat}
    (hr : ∀ a b, Uses f e a b → rank b < rank a) {fuel : Nat} {o : List Nat} (ho : Ordered f e o)
    (hf : (ofKind f e).length ≤ o.length + fuel) : ∃ r, orderLoop f e (ofKind f e) fuel o = some r := by
  induction fuel generalizing o with
  | zero =>
    unfold orderLoop
    have := ho.length_le
    rw [if_pos (by omega)]
    exact ⟨_, rfl⟩
  | succ fuel ih =>
    unfold orderLoop
    split
    · exact ⟨_, rfl⟩
    · rename_i hne
      have hlt : o.length < (ofKind f e).length := lt_of_le_of_ne (ho.length_le) hne
      apply ih (orderPass_ordered (fun _ h => h) ho)
      -- some gradient is not yet in the order; the one with the largest rank is ready
      have hex : ((ofKind f e).toFinset \ o.toFinset).Nonempty := by
        rw [Finset.sdiff_nonempty]
        intro hsub
        have := (List.subperm_of_subset (nodup_ofKind hu e) (fun k hk => by
          have := hsub (List.mem_toFinset.2 hk); simpa using this) : (ofKind f e).Subperm o).length_le
        omega
      obtain ⟨k, hk, hmax⟩ := Finset.exists_max_image _ rank hex
      simp only [Finset.mem_sdiff, List.mem_toFinset] at hk hmax
      have hw : waiting f e o k = 0 := by
        rw [waiting_zero]
        intro n hn he hl
        by_contra hno
        have h1 := hmax n.key ⟨mem_ofKind.2 ⟨n, hn, rfl, he⟩, hno⟩
        have h2 := hr n.key k ⟨⟨n, hn, rfl, he, hl⟩, mem_ofKind.1 hk.1⟩
        omega
      have hin := orderPass_adds (f := f) (e := e) (order := o) hk.1 hw
      obtain ⟨s, hs⟩ := orderPass_prefix f e (ofKind f e) o
      have : s ≠ [] := by
        rintro rfl
        rw [← hs] at hin
        simp at hin
        exact hk.2 hin
      have : 0 < s.length := List.length_pos_of_ne_nil this
      rw [← hs]
      simp only [List.length_append]
      omega

/-- **C27.** The loop ends if and only if the references between the gradients of the kind have no cycle. -/
theorem C27_ends_iff {f : Forest} (hu : f.UniqueKeys) (e : EId) :
    (∃ rounds order, orderLoop f e (ofKind f e) rounds [] = some order) ↔
    ∃ rank : Nat → Nat, ∀ a b, Uses f e a b → rank b < rank a := by
  constructor
  · rintro ⟨rounds, order, h⟩
    obtain ⟨h1, h2⟩ := orderLoop_ordered (ordered_nil f e) h
    have hp := h1.perm h2
    refine ⟨fun k => order.length - order.idxOf k, ?_⟩
    rintro a b ⟨⟨n, hn, rfl, he, hl⟩, hb⟩
    have hb' : b ∈ order := by rw [hp.mem_iff, mem_ofKind]; exact hb
    obtain ⟨pre, post, hs⟩ := List.append_of_mem hb'
    have ha := h1.first pre b post hs n hn he hl
    have hbn : b ∉ pre := by
      intro hb
      have := h1.nodup
      rw [hs, List.nodup_append] at this
      exact this.2.2 b hb b (by simp) rfl
    have i1 := List.idxOf_lt_length_of_mem ha
    have i2 : order.idxOf b < order.length := List.idxOf_lt_length_of_mem hb'
    have : order.idxOf n.key < order.idxOf b := by
      rw [hs, List.idxOf_append_of_mem ha, List.idxOf_append_of_notMem hbn]
      omega
    show order.length - order.idxOf b < order.length - order.idxOf n.key
    omega
  · rintro ⟨rank, hr⟩
    obtain ⟨r, h⟩ := orderLoop_rank hu hr (ordered_nil f e) (fuel := (ofKind f e).length) (by simp)
    exact ⟨_, r, h⟩

/-- **C27.** As many rounds as there are gradients are enough: if the loop has not ended by then it never ends. -/
theorem C27_rounds {f : Forest} (hu : f.UniqueKeys) {e : EId} (h : genOrder f e = none) (rounds : Nat) :
    orderLoop f e (ofKind f e) rounds [] = none := by
  by_contra hne
  obtain ⟨o, ho⟩ := Option.ne_none_iff_exists'.1 hne
  obtain ⟨rank, hr⟩ := (C27_ends_iff hu e).1 ⟨rounds, o, ho⟩
  obtain ⟨r, hr⟩ := orderLoop_rank hu hr (ordered_nil f e) (fuel := (ofKind f e).length) (by simp)
  unfold genOrder at h
  rw [hr] at h
  cases h

def grad (k : Nat) (e : EId) (as : List Attr) : Node := ⟨k, .elem e, "", as⟩
def att (a : AId) (v : Value) : Attr := ⟨.id a, v, true⟩

/-- Non-vacuity: three linear gradients, each referring to the next. -/
def chain3 : Forest :=
  .cons (grad 3 .linearGradient [att .x1 (.length ⟨3, .none⟩)]) .nil
  (.cons (grad 2 .linearGradient [att .xlinkHref (.link 3), att .x2 (.length ⟨7, .none⟩)]) .nil
  (.cons (grad 1 .linearGradient [att .xlinkHref (.link 2)]) .nil .nil))

example : chain3.UniqueKeys := by decide
example : genOrder chain3 .linearGradient = some [1, 2, 3] := by decide +kernel

/-- Three gradients referring to each other in a circle: the program hangs. -/
def circle3 : Forest :=
  .cons (grad 1 .linearGradient [att .xlinkHref (.link 2)]) .nil
  (.cons (grad 2 .linearGradient [att .xlinkHref (.link 3)]) .nil
  (.cons (grad 3 .linearGradient [att .xlinkHref (.link 1)]) .nil .nil))

/-- **Finding.** On a circle of references the ordering loop runs for ever. -/
theorem C27_circle_hangs (rounds : Nat) :
    orderLoop circle3 .linearGradient (ofKind circle3 .linearGradient) rounds [] = none :=
  C27_rounds (by decide) (by decide +kernel) rounds

/-! ## C26 -/

/-- Every attribute is written: the case for a document that has just been parsed. -/
def AllVisible (f : Forest) : Prop := ∀ n ∈ f.nodes, ∀ x ∈ n.attrs, x.visible = true

/-- No linear gradient refers to a radial one. -/
def NoLinearToRadial (f : Forest) : Prop :=
  ∀ n ∈ f.nodes, n.kind = .elem .linearGradient → ∀ k, written n .xlinkHref = some (.link k) →
    ∀ m, f.find k = some m → m.kind ≠ .elem .radialGradient

theorem written_eq {f : Forest} (hv : AllVisible f) {n : Node} (hn : n ∈ f.nodes) (a : AId) : written n a = n.get a := by
  unfold written Node.get
  cases h : getAttr n.attrs (.id a) with
  | none => rfl
  | some x => simp [hv n hn x (getAttr_mem h)]

/-- What the two passes may have done to a node so far; `pre` are the radial gradients that have been visited. -/
structure Ext (f : Forest) (pre : List Nat) (n m : Node) : Prop where
  key : m.key = n.key
  kind : m.kind = n.kind
  id : m.id = n.id
  attr : ∀ b, getAttr m.attrs b = getAttr n.attrs b ∨
    (getAttr n.attrs b = none ∧ ∃ a v, b = .id a ∧ a ∈ gradientAttrs n.kind ∧ getAttr m.attrs b = some ⟨.id a, v, false⟩ ∧
      (centreOf a = none ∨ NoLinearToRadial f → GradientValue f n a v) ∧ (centreOf a ≠ none → n.key ∈ pre))

structure St (f : Forest) (pre : List Nat) (h : Node → Node) : Prop where
  key : ∀ n, (h n).key = n.key
  ext : ∀ n ∈ f.nodes, Ext f pre n (h n)

theorem href_notMem (k : Kind) : AId.xlinkHref ∉ gradientAttrs k := by
  unfold gradientAttrs; split <;> simp

theorem Ext.href {f : Forest} {pre : List Nat} {n m : Node} (h : Ext f pre n m) : m.get .xlinkHref = n.get .xlinkHref := by
  rcases h.attr (.id .xlinkHref) with h | ⟨_, a, v, ha, hm, _⟩
  · exact get_of_getAttr h
  · cases ha; exact absurd hm (href_notMem _)

theorem Ext.get_some {f : Forest} {pre : List Nat} {n m : Node} (h : Ext f pre n m) {a : AId} {v : Value}
    (hm : m.get a = some v) : n.get a = some v ∨
      (n.get a = none ∧ a ∈ gradientAttrs n.kind ∧ (centreOf a = none ∨ NoLinearToRadial f → GradientValue f n a v) ∧
        (centreOf a ≠ none → n.key ∈ pre)) := by
  rcases h.attr (.id a) with h' | ⟨h0, a', v', ha, hm', h1, h2, h3⟩
  · exact Or.inl ((get_of_getAttr h').symm.trans hm)
  · cases ha
    unfold Node.get at hm
    rw [h1] at hm
    simp at hm; subst hm
    exact Or.inr ⟨by unfold Node.get; rw [h0]; rfl, hm', h2, h3⟩

theorem Ext.get_none {f : Forest} {pre : List Nat} {n m : Node} (h : Ext f pre n m) {a : AId} (hm : m.get a = none) :
    n.get a = none := by
  rcases h.attr (.id a) with h' | ⟨h0, _⟩
  · exact (get_of_getAttr h').symm.trans hm
  · unfold Node.get; rw [h0]; rfl

/-- The recursion along the references, over a set of nodes closed under references in which `a` is as in the file or
already resolved. -/
theorem resolve_spec {f : Forest} {h : Node → Node} {a : AId} {dflt : Option Value} {S : Node → Prop}
    (hk : ∀ n, (h n).key = n.key) (hv : AllVisible f)
    (hh : ∀ n ∈ f.nodes, S n → (h n).get .xlinkHref = n.get .xlinkHref)
    (hg : ∀ n ∈ f.nodes, S n → (h n).get a = n.get a ∨ ∃ v, (h n).get a = some v ∧
      (Effective f a n (some v) ∨ (Effective f a n none ∧ dflt = some v)))
    (hS : ∀ n ∈ f.nodes, S n → ∀ k m, n.get .xlinkHref = some (.link k) → f.find k = some m → S m)
    (fuel : Nat) (n : Node) (hn : n ∈ f.nodes) (hs : S n) {r : Option Value}
    (hr : resolveAttribute (f.map h) a dflt fuel (h n) = some r) :
    (∃ v, r = some v ∧ Effective f a n (some v)) ∨ (r = dflt ∧ Effective f a n none) := by
  induction fuel generalizing n with
  | zero => simp [resolveAttribute] at hr
  | succ fuel ih =>
    rw [resolveAttribute] at hr
    cases ha : (h n).get a with
    | some v =>
      rw [ha] at hr
      simp only [Option.some.injEq] at hr
      rcases hg n hn hs with h1 | ⟨v', h1, h2⟩
      · left
        refine ⟨v, hr.symm, .own ?_⟩
        rw [written_eq hv hn, ← h1, ha]
      · rw [ha] at h1; cases h1
        rcases h2 with h2 | ⟨h2, h3⟩
        · exact Or.inl ⟨v, hr.symm, h2⟩
        · exact Or.inr ⟨by rw [← hr, h3], h2⟩
    | none =>
      rw [ha] at hr
      have hna : written n a = none := by
        rw [written_eq hv hn]
        rcases hg n hn hs with h1 | ⟨v', h1, _⟩
        · rw [← h1, ha]
        · rw [ha] at h1; cases h1
      have e := hh n hn hs
      rw [e] at hr
      cases hx : n.get .xlinkHref with
      | none =>
        rw [hx] at hr
        simp only [Option.some.injEq] at hr
        exact Or.inr ⟨hr.symm, .stop hna (by rw [written_eq hv hn, hx])⟩
      | some u =>
        rw [hx] at hr
        cases u with
        | link k =>
          simp only [] at hr
          rw [Forest.find_map hk] at hr
          cases hf : f.find k with
          | none => rw [hf] at hr; simp at hr
          | some m =>
            rw [hf] at hr
            simp only [Option.map_some, Option.bind_some] at hr
            obtain ⟨hm, _⟩ := Forest.find_some hf
            have hw : written n .xlinkHref = some (.link k) := by rw [written_eq hv hn, hx]
            rcases ih m hm (hS n hn hs k m hx hf) hr with ⟨v, h1, h2⟩ | ⟨h1, h2⟩
            · exact Or.inl ⟨v, h1, .ref hna hw hf h2⟩
            · exact Or.inr ⟨h1, .ref hna hw hf h2⟩
        | _ => simp at hr

/-- How many nodes have a smaller rank. -/
def below (f : Forest) (rank : Nat → Nat) (r : Nat) : Nat := (f.nodes.filter (fun m => decide (rank m.key < r))).length

theorem below_lt {f : Forest} {rank : Nat → Nat} {t : Node} (ht : t ∈ f.nodes) {r : Nat} (h : rank t.key < r) :
    below f rank (rank t.key) < below f rank r := by
  unfold below
  rw [← List.countP_eq_length_filter, ← List.countP_eq_length_filter]
  obtain ⟨l1, l2, hs⟩ := List.append_of_mem ht
  rw [hs]
  simp only [List.countP_append, List.countP_cons]
  have mono : ∀ l : List Node, l.countP (fun m => decide (rank m.key < rank t.key)) ≤ l.countP (fun m => decide (rank m.key < r)) :=
    fun l => List.countP_mono_left (by intro x _; simp; omega)
  have m1 := mono l1
  have m2 := mono l2
  simp only [lt_self_iff_false, decide_false, h, decide_true]
  simp
  omega

theorem below_le (f : Forest) (rank : Nat → Nat) (r : Nat) : below f rank r ≤ f.nodes.length := List.length_filter_le _ _

theorem resolve_total {f : Forest} {rank : Nat → Nat} (hr : HrefRanked f rank) (hu : f.UniqueKeys) (hv : AllVisible f)
    {pre : List Nat} {h : Node → Node} (hst : St f pre h) (a : AId) (dflt : Option Value) (fuel : Nat) (n : Node)
    (hn : n ∈ f.nodes) (hg : n.isGradient) (hf : below f rank (rank n.key) < fuel) :
    ∃ r, resolveAttribute (f.map h) a dflt fuel (h n) = some r := by
  induction fuel generalizing n with
  | zero => omega
  | succ fuel ih =>
    rw [resolveAttribute]
    cases ha : (h n).get a with
    | some v => exact ⟨_, rfl⟩
    | none =>
      rw [(hst.ext n hn).href]
      cases hx : n.get .xlinkHref with
      | none => exact ⟨_, rfl⟩
      | some u =>
        obtain ⟨t, ht, rfl, htg, hlt⟩ := hr n hn hg u (by rw [written_eq hv hn, hx])
        simp only []
        rw [Forest.find_map hst.key, Forest.find_of_mem hu ht]
        exact ih t ht htg (lt_of_lt_of_le (below_lt ht hlt) (by omega))

/-- `a` of `n` has the value the standard prescribes. -/
def Done (f : Forest) (h : Node → Node) (n : Node) (a : AId) : Prop :=
  (centreOf a = none ∨ NoLinearToRadial f) → ∀ v, (h n).get a = some v ↔ GradientValue f n a v

/-- Attributes are only added. -/
def Mono (f : Forest) (h h' : Node → Node) : Prop :=
  ∀ n ∈ f.nodes, ∀ b, getAttr (h n).attrs b ≠ none → getAttr (h' n).attrs b = getAttr (h n).attrs b

theorem Mono.refl (f : Forest) (h : Node → Node) : Mono f h h := fun _ _ _ _ => rfl

theorem Mono.trans {f : Forest} {h h' h'' : Node → Node} (h1 : Mono f h h') (h2 : Mono f h' h'') : Mono f h h'' := by
  intro n hn b hb
  have := h1 n hn b hb
  rw [h2 n hn b (by rw [this]; exact hb), this]

theorem Mono.get {f : Forest} {h h' : Node → Node} (h1 : Mono f h h') {n : Node} (hn : n ∈ f.nodes) {a : AId} {v : Value}
    (hv : (h n).get a = some v) : (h' n).get a = some v := by
  unfold Node.get at hv ⊢
  rw [h1 n hn (.id a) (by intro h0; rw [h0] at hv; cases hv), hv]

theorem Done.own {f : Forest} (hv : AllVisible f) {pre : List Nat} {h : Node → Node} (hst : St f pre h) {n : Node}
    (hn : n ∈ f.nodes) {a : AId} {v : Value} (hg : (h n).get a = some v) : Done f h n a := by
  intro hc w
  have key : GradientValue f n a v := by
    rcases (hst.ext n hn).get_some hg with h1 | ⟨_, _, h2, _⟩
    · exact Or.inl (Or.inl (.own (by rw [written_eq hv hn, h1])))
    · exact h2 hc
  rw [hg]
  constructor
  · intro h; cases h; exact key
  · intro h; rw [key.unique h]

theorem Done.mono {f : Forest} (hv : AllVisible f) {pre : List Nat} {h h' : Node → Node} (hst : St f pre h')
    (hm : Mono f h h') {n : Node} (hn : n ∈ f.nodes) {a : AId} (hd : Done f h n a) : Done f h' n a := by
  intro hc v
  cases hg : (h n).get a with
  | some w => exact Done.own hv hst hn (hm.get hn hg) hc v
  | none =>
    constructor
    · intro hs
      exact (Done.own hv hst hn hs hc v).1 hs
    · intro hs
      rw [(hd hc v).2 hs] at hg
      cases hg

theorem getAttr_setHidden (n : Node) (a : AId) (v : Value) (b : AName) :
    getAttr (setHidden n a v).attrs b = if b = .id a then some ⟨.id a, v, false⟩ else getAttr n.attrs b := by
  unfold setHidden
  rw [getAttr_put]

theorem St.mono_pre {f : Forest} {pre pre' : List Nat} {h : Node → Node} (hst : St f pre h) (hp : ∀ k ∈ pre, k ∈ pre') :
    St f pre' h := by
  refine ⟨hst.key, fun n hn => ⟨(hst.ext n hn).key, (hst.ext n hn).kind, (hst.ext n hn).id, fun b => ?_⟩⟩
  rcases (hst.ext n hn).attr b with h | ⟨h0, a, v, h1, h2, h3, h4, h5⟩
  · exact Or.inl h
  · exact Or.inr ⟨h0, a, v, h1, h2, h3, h4, fun hc => hp _ (h5 hc)⟩

/-- One call of `check_attr`. -/
theorem check_spec {f : Forest} {rank : Nat → Nat} (hr : HrefRanked f rank) (hu : f.UniqueKeys) (hv : AllVisible f)
    {pre : List Nat} {h : Node → Node} (hst : St f pre h) {n : Node} (hn : n ∈ f.nodes) {a : AId}
    (ha : a ∈ gradientAttrs n.kind) (hpre : centreOf a ≠ none → n.key ∈ pre) {dflt : Option Value}
    (hres : (centreOf a = none ∨ NoLinearToRadial f) → (h n).get a = none → ∀ r fuel,
      resolveAttribute (f.map h) a dflt fuel (h n) = some r → ∀ v, r = some v ↔ GradientValue f n a v) :
    ∃ h', checkAttr n.key a dflt (f.map h) = some (f.map h') ∧ St f pre h' ∧ Mono f h h' ∧ Done f h' n a := by
  have hgr : n.isGradient := by
    unfold gradientAttrs at ha
    unfold Node.isGradient
    split at ha
    · simp [Node.isTag, *]
    · simp [Node.isTag, *]
    · simp at ha
  unfold checkAttr
  rw [Forest.find_map hst.key, Forest.find_of_mem hu hn]
  simp only [Option.map_some, Option.bind_some]
  cases hga : (h n).get a with
  | some v =>
    rw [if_pos (by rw [Node.has_eq, hga]; rfl)]
    exact ⟨h, rfl, hst, Mono.refl _ _, Done.own hv hst hn hga⟩
  | none =>
    rw [if_neg (by rw [Node.has_eq, hga]; simp)]
    have hlen : (f.map h).nodes.length = f.nodes.length := by simp
    obtain ⟨r, hr'⟩ := resolve_total hr hu hv hst a dflt ((f.map h).nodes.length + 1) n hn hgr
      (by rw [hlen]; exact Nat.lt_succ_of_le (below_le _ _ _))
    rw [hr']
    simp only [Option.map_some]
    cases r with
    | none =>
      refine ⟨h, rfl, hst, Mono.refl _ _, ?_⟩
      intro hc v
      rw [hga]
      exact hres hc hga _ _ hr' v
    | some v =>
      have hnone : getAttr (h n).attrs (.id a) = none := by
        unfold Node.get at hga
        simpa using hga
      refine ⟨fun m => if (h m).key = n.key then setHidden (h m) a v else h m, ?_, ?_, ?_, ?_⟩
      · simp only [Forest.modify, Forest.map_map]
      · refine ⟨?_, ?_⟩
        · intro m
          have := hst.key m
          split
          · exact this
          · exact this
        · intro m hm
          have he := hst.ext m hm
          split
          · rename_i hk
            rw [hst.key] at hk
            have hmn : m = n := Forest.eq_of_key hu hm hn hk
            subst hmn
            refine ⟨he.key, he.kind, he.id, ?_⟩
            intro b
            by_cases hb : b = .id a
            · subst hb
              right
              refine ⟨?_, a, v, rfl, ha, by rw [getAttr_setHidden]; simp, ?_, hpre⟩
              · have := he.get_none hga
                unfold Node.get at this
                simpa using this
              · intro hc
                exact (hres hc hga _ _ hr' v).1 rfl
            · rw [getAttr_setHidden, if_neg hb]
              exact he.attr b
          · exact he
      · intro m hm b hb
        simp only []
        split
        · rename_i hk
          rw [hst.key] at hk
          have hmn : m = n := Forest.eq_of_key hu hm hn hk
          subst hmn
          rw [getAttr_setHidden]
          split
          · rename_i hb'
            subst hb'
            exact absurd hnone hb
          · rfl
        · rfl
      · intro hc w
        simp only [hst.key, if_true]
        have : (setHidden (h n) a v).get a = some v := by
          unfold Node.get; rw [getAttr_setHidden]; simp
        rw [this]
        exact hres hc hga _ _ hr' w

theorem default_agree {k k' : Kind} {a : AId} (ha : a ∈ gradientAttrs k) {v : Value} (h : gradientDefault k' a = some v) :
    gradientDefault k a = some v := by
  unfold gradientAttrs at ha
  split at ha
  · simp only [List.mem_cons, List.not_mem_nil, or_false] at ha
    rcases ha with rfl | rfl | rfl | rfl | rfl | rfl | rfl <;> (unfold gradientDefault at h; split at h <;> simp_all [gradientDefault])
  · simp only [List.mem_cons, List.not_mem_nil, or_false] at ha
    rcases ha with rfl | rfl | rfl | rfl | rfl | rfl | rfl | rfl <;> (unfold gradientDefault at h; split at h <;> simp_all [gradientDefault])
  · simp at ha

theorem href_gradient {f : Forest} {rank : Nat → Nat} (hr : HrefRanked f rank) (hu : f.UniqueKeys) (hv : AllVisible f)
    {n : Node} (hn : n ∈ f.nodes) (hg : n.isGradient) {k : Nat} {m : Node} (hx : n.get .xlinkHref = some (.link k))
    (hf : f.find k = some m) : m.isGradient ∧ rank m.key < rank n.key := by
  obtain ⟨t, ht, he, htg, hlt⟩ := hr n hn hg _ (by rw [written_eq hv hn, hx])
  cases he
  rw [Forest.find_of_mem hu ht] at hf
  cases hf
  exact ⟨htg, hlt⟩

/-- One call of `check_attr` for an attribute that is not part of the focal point. -/
theorem check_plain {f : Forest} {rank : Nat → Nat} (hr : HrefRanked f rank) (hu : f.UniqueKeys) (hv : AllVisible f)
    {pre : List Nat} {h : Node → Node} (hst : St f pre h) {n : Node} (hn : n ∈ f.nodes) {a : AId}
    (ha : a ∈ gradientAttrs n.kind) (hc : centreOf a = none) :
    ∃ h', checkAttr n.key a (gradientDefault n.kind a) (f.map h) = some (f.map h') ∧ St f pre h' ∧ Mono f h h' ∧
      Done f h' n a := by
  have hgr : n.isGradient := by
    unfold gradientAttrs at ha
    unfold Node.isGradient
    split at ha
    · simp [Node.isTag, *]
    · simp [Node.isTag, *]
    · simp at ha
  refine check_spec hr hu hv hst hn ha (fun h => absurd hc h) ?_
  intro _ hg0 r fuel hres v
  have key := resolve_spec (S := fun n => n.isGradient = true) hst.key hv
    (fun n hn _ => (hst.ext n hn).href) ?_
    (fun n hn hg k m hx hf => (href_gradient hr hu hv hn hg hx hf).1) fuel n hn hgr hres
  · have he : ∀ v, PlainValue f n a v → GradientValue f n a v := fun v h => Or.inl h
    constructor
    · rintro rfl
      rcases key with ⟨w, h1, h2⟩ | ⟨h1, h2⟩
      · cases h1; exact he _ (Or.inl h2)
      · exact he _ (Or.inr ⟨h2, h1.symm⟩)
    · intro hgv
      have hgv : PlainValue f n a v := by
        rcases hgv with h | ⟨_, c, h, _⟩
        · exact h
        · rw [hc] at h; cases h
      rcases key with ⟨w, h1, h2⟩ | ⟨h1, h2⟩
      · rw [h1, hgv.unique (Or.inl h2)]
      · rcases hgv with h | ⟨_, h⟩
        · cases h.unique h2
        · rw [h1, h]
  · intro m hm _
    cases hg : (h m).get a with
    | none => exact Or.inl ((hst.ext m hm).get_none hg).symm
    | some w =>
      rcases (hst.ext m hm).get_some hg with h1 | ⟨h1, _, h2, _⟩
      · exact Or.inl h1.symm
      · right
        refine ⟨w, rfl, ?_⟩
        have hgv : PlainValue f m a w := by
          rcases h2 (Or.inl hc) with h | ⟨_, c, h, _⟩
          · exact h
          · rw [hc] at h; cases h
        rcases hgv with h | ⟨h, h'⟩
        · exact Or.inl h
        · exact Or.inr ⟨h, default_agree ha h'⟩

/-- One call of `check_attr` for `fx` or `fy`: `n` is the next gradient of the order and the centre is resolved. -/
theorem check_focal {f : Forest} {rank : Nat → Nat} (hr : HrefRanked f rank) (hu : f.UniqueKeys) (hv : AllVisible f)
    {pre pre' : List Nat} {h : Node → Node} (hst : St f pre' h) {n : Node} (hn : n ∈ f.nodes) {a c : AId}
    (hk : n.kind = .elem .radialGradient) (hc : centreOf a = some c) (hd : Done f h n c)
    (hpre' : ∀ k, k ∈ pre' ↔ k ∈ pre ∨ k = n.key)
    (hord : ∀ m ∈ f.nodes, m.kind = .elem .radialGradient → m.key ∉ pre → ∀ k, m.get .xlinkHref = some (.link k) → k ∉ pre)
    (hnp : n.key ∉ pre) :
    ∃ h', checkAttr n.key a ((h n).get c) (f.map h) = some (f.map h') ∧ St f pre' h' ∧ Mono f h h' ∧ Done f h' n a := by
  have ha : a ∈ gradientAttrs n.kind := by
    rw [hk]; unfold centreOf at hc; split at hc <;> simp_all [gradientAttrs]
  have hgr : n.isGradient := by unfold Node.isGradient; simp [Node.isTag, hk]
  have hcc : centreOf c = none := by
    unfold centreOf at hc; split at hc <;> cases hc <;> rfl
  refine check_spec hr hu hv hst hn ha (fun _ => (hpre' _).2 (Or.inr rfl)) ?_
  intro hno hg0 r fuel hres v
  have hno : NoLinearToRadial f := by
    rcases hno with h | h
    · rw [hc] at h; cases h
    · exact h
  have hd := hd (Or.inl hcc)
  have key := resolve_spec
    (S := fun m => m.isGradient = true ∧ rank m.key ≤ rank n.key ∧ (m.kind = .elem .radialGradient → m.key ∉ pre)) hst.key hv
    (fun n hn _ => (hst.ext n hn).href) ?_ ?_ fuel n hn ⟨hgr, le_refl _, fun _ => hnp⟩ hres
  · have hdc : ∀ w, (h n).get c = some w → PlainValue f n c w := by
      intro w hw
      rcases (hd w).1 hw with h | ⟨_, c', h, _⟩
      · exact h
      · rw [hcc] at h; cases h
    have hdef : gradientDefault n.kind a = none := gradientDefault_focal hc
    constructor
    · rintro rfl
      rcases key with ⟨w, h1, h2⟩ | ⟨h1, h2⟩
      · cases h1; exact Or.inl (Or.inl h2)
      · exact Or.inr ⟨hk, c, hc, h2, hdc _ h1.symm⟩
    · intro hgv
      rcases key with ⟨w, h1, h2⟩ | ⟨h1, h2⟩
      · rw [h1, hgv.unique (Or.inl (Or.inl h2))]
      · rcases hgv with (h | ⟨_, h⟩) | ⟨_, c', h3, _, h4⟩
        · cases h.unique h2
        · rw [hdef] at h; cases h
        · rw [hc] at h3; cases h3
          rw [h1]
          exact (hd v).2 (Or.inl h4)
  · rintro m hm ⟨hmg, hmr, hmp⟩
    cases hg : (h m).get a with
    | none => exact Or.inl ((hst.ext m hm).get_none hg).symm
    | some w =>
      rcases (hst.ext m hm).get_some hg with h1 | ⟨h1, h2, h3, h4⟩
      · exact Or.inl h1.symm
      · exfalso
        have hmk : m.kind = .elem .radialGradient := by
          unfold centreOf at hc
          unfold gradientAttrs at h2
          split at hc <;> split at h2 <;> simp_all
        rcases (hpre' _).1 (h4 (by rw [hc]; simp)) with h5 | h5
        · exact hmp hmk h5
        · have := Forest.eq_of_key hu hm hn h5
          subst this
          rw [hg0] at hg; cases hg
  · rintro m hm ⟨hmg, hmr, hmp⟩ k t hx hf
    obtain ⟨h1, h2⟩ := href_gradient hr hu hv hm hmg hx hf
    refine ⟨h1, by omega, ?_⟩
    intro htk
    rw [(Forest.find_some hf).2]
    have hmk : m.kind = .elem .radialGradient := by
      by_contra hne
      have : m.kind = .elem .linearGradient := by
        unfold Node.isGradient at hmg
        simp [Node.isTag_iff, hne] at hmg
        exact hmg
      exact hno m hm this k (by rw [written_eq hv hm, hx]) t hf htk
    exact hord m hm hmk (hmp hmk) k hx

theorem linearNode_spec {f : Forest} {rank : Nat → Nat} (hr : HrefRanked f rank) (hu : f.UniqueKeys) (hv : AllVisible f)
    {pre : List Nat} {h : Node → Node} (hst : St f pre h) {n : Node} (hn : n ∈ f.nodes)
    (hk : n.kind = .elem .linearGradient) :
    ∃ h', resolveLinearNode n.key (f.map h) = some (f.map h') ∧ St f pre h' ∧ Mono f h h' ∧
      ∀ a ∈ gradientAttrs n.kind, Done f h' n a := by
  have mem : ∀ a, a ∈ [AId.gradientUnits, .spreadMethod, .x1, .y1, .x2, .y2, .gradientTransform] → a ∈ gradientAttrs n.kind := by
    rw [hk]; exact fun a h => h
  have dft : ∀ a, gradientDefault n.kind a = gradientDefault (.elem .linearGradient) a := fun a => by rw [hk]
  obtain ⟨h1, e1, s1, m1, d1⟩ := check_plain hr hu hv hst hn (mem .gradientUnits (by decide)) rfl
  obtain ⟨h2, e2, s2, m2, d2⟩ := check_plain hr hu hv s1 hn (mem .spreadMethod (by decide)) rfl
  obtain ⟨h3, e3, s3, m3, d3⟩ := check_plain hr hu hv s2 hn (mem .x1 (by decide)) rfl
  obtain ⟨h4, e4, s4, m4, d4⟩ := check_plain hr hu hv s3 hn (mem .y1 (by decide)) rfl
  obtain ⟨h5, e5, s5, m5, d5⟩ := check_plain hr hu hv s4 hn (mem .x2 (by decide)) rfl
  obtain ⟨h6, e6, s6, m6, d6⟩ := check_plain hr hu hv s5 hn (mem .y2 (by decide)) rfl
  obtain ⟨h7, e7, s7, m7, d7⟩ := check_plain hr hu hv s6 hn (mem .gradientTransform (by decide)) rfl
  rw [dft] at e1 e2 e3 e4 e5 e6 e7
  refine ⟨h7, ?_, s7, ((((((m1.trans m2).trans m3).trans m4).trans m5).trans m6).trans m7), ?_⟩
  · unfold resolveLinearNode
    simp only [gradientDefault] at e1 e2 e3 e4 e5 e6 e7
    rw [e1, Option.bind_some, e2, Option.bind_some, e3, Option.bind_some, e4, Option.bind_some, e5, Option.bind_some,
      e6, Option.bind_some, e7]
  · rw [hk]
    have q6 := d6.mono hv s7 m7 hn
    have q5 := d5.mono hv s7 (m6.trans m7) hn
    have q4 := d4.mono hv s7 (m5.trans (m6.trans m7)) hn
    have q3 := d3.mono hv s7 (m4.trans (m5.trans (m6.trans m7))) hn
    have q2 := d2.mono hv s7 (m3.trans (m4.trans (m5.trans (m6.trans m7)))) hn
    have q1 := d1.mono hv s7 (m2.trans (m3.trans (m4.trans (m5.trans (m6.trans m7))))) hn
    intro a ha
    simp only [gradientAttrs, List.mem_cons, List.not_mem_nil, or_false] at ha
    rcases ha with rfl | rfl | rfl | rfl | rfl | rfl | rfl <;> assumption

theorem radialNode_spec {f : Forest} {rank : Nat → Nat} (hr : HrefRanked f rank) (hu : f.UniqueKeys) (hv : AllVisible f)
    {pre pre' : List Nat} {h : Node → Node} (hst : St f pre h) {n : Node} (hn : n ∈ f.nodes)
    (hk : n.kind = .elem .radialGradient)
    (hpre' : ∀ k, k ∈ pre' ↔ k ∈ pre ∨ k = n.key)
    (hord : ∀ m ∈ f.nodes, m.kind = .elem .radialGradient → m.key ∉ pre → ∀ k, m.get .xlinkHref = some (.link k) → k ∉ pre)
    (hnp : n.key ∉ pre) :
    ∃ h', resolveRadialNode n.key (f.map h) = some (f.map h') ∧ St f pre' h' ∧ Mono f h h' ∧
      ∀ a ∈ gradientAttrs n.kind, Done f h' n a := by
  have mem : ∀ a, a ∈ [AId.gradientUnits, .spreadMethod, .cx, .cy, .r, .fx, .fy, .gradientTransform] →
    a ∈ gradientAttrs n.kind := by
    rw [hk]; exact fun a h => h
  have dft : ∀ a, gradientDefault n.kind a = gradientDefault (.elem .radialGradient) a := fun a => by rw [hk]
  have hst := hst.mono_pre (pre' := pre') (fun k hk => (hpre' k).2 (Or.inl hk))
  obtain ⟨h1, e1, s1, m1, d1⟩ := check_plain hr hu hv hst hn (mem .gradientUnits (by decide)) rfl
  obtain ⟨h2, e2, s2, m2, d2⟩ := check_plain hr hu hv s1 hn (mem .spreadMethod (by decide)) rfl
  obtain ⟨h3, e3, s3, m3, d3⟩ := check_plain hr hu hv s2 hn (mem .cx (by decide)) rfl
  obtain ⟨h4, e4, s4, m4, d4⟩ := check_plain hr hu hv s3 hn (mem .cy (by decide)) rfl
  obtain ⟨h5, e5, s5, m5, d5⟩ := check_plain hr hu hv s4 hn (mem .r (by decide)) rfl
  have dcx := d3.mono hv s5 (m4.trans m5) hn
  have dcy := d4.mono hv s5 m5 hn
  obtain ⟨h6, e6, s6, m6, d6⟩ := check_focal hr hu hv s5 hn hk (a := .fx) rfl dcx hpre' hord hnp
  have dcy' := dcy.mono hv s6 m6 hn
  have ecy : (h6 n).get .cy = (h5 n).get .cy := by
    have q5 := dcy (Or.inl rfl)
    have q6 := dcy' (Or.inl rfl)
    cases hx : (h5 n).get .cy with
    | some w => exact (q6 w).2 ((q5 w).1 hx)
    | none =>
      cases hy : (h6 n).get .cy with
      | none => rfl
      | some w => rw [(q5 w).2 ((q6 w).1 hy)] at hx; cases hx
  obtain ⟨h7, e7, s7, m7, d7⟩ := check_focal hr hu hv s6 hn hk (a := .fy) rfl dcy' hpre' hord hnp
  obtain ⟨h8, e8, s8, m8, d8⟩ := check_plain hr hu hv s7 hn (mem .gradientTransform (by decide)) rfl
  rw [dft] at e1 e2 e3 e4 e5 e8
  refine ⟨h8, ?_, s8, (((((((m1.trans m2).trans m3).trans m4).trans m5).trans m6).trans m7).trans m8), ?_⟩
  · unfold resolveRadialNode
    simp only [gradientDefault] at e1 e2 e3 e4 e5 e8
    rw [e1, Option.bind_some, e2, Option.bind_some, e3, Option.bind_some, e4, Option.bind_some, e5, Option.bind_some,
      Forest.find_map s5.key, Forest.find_of_mem hu hn, Option.map_some, Option.bind_some, e6, Option.bind_some, ← ecy, e7,
      Option.bind_some, e8]
  · rw [hk]
    have q7 := d7.mono hv s8 m8 hn
    have q6 := d6.mono hv s8 (m7.trans m8) hn
    have q5 := d5.mono hv s8 (m6.trans (m7.trans m8)) hn
    have q4 := d4.mono hv s8 (m5.trans (m6.trans (m7.trans m8))) hn
    have q3 := d3.mono hv s8 (m4.trans (m5.trans (m6.trans (m7.trans m8)))) hn
    have q2 := d2.mono hv s8 (m3.trans (m4.trans (m5.trans (m6.trans (m7.trans m8))))) hn
    have q1 := d1.mono hv s8 (m2.trans (m3.trans (m4.trans (m5.trans (m6.trans (m7.trans m8)))))) hn
    intro a ha
    simp only [gradientAttrs, List.mem_cons, List.not_mem_nil, or_false] at ha
    rcases ha with rfl | rfl | rfl | rfl | rfl | rfl | rfl | rfl <;> assumption

theorem linear_loop {f : Forest} {rank : Nat → Nat} (hr : HrefRanked f rank) (hu : f.UniqueKeys) (hv : AllVisible f)
    {l : List Nat} (hl : ∀ k ∈ l, ∃ n ∈ f.nodes, n.key = k ∧ n.kind = .elem .linearGradient)
    {pre : List Nat} {h : Node → Node} (hst : St f pre h) :
    ∃ h', forEach resolveLinearNode l (f.map h) = some (f.map h') ∧ St f pre h' ∧ Mono f h h' ∧
      ∀ n ∈ f.nodes, n.key ∈ l → ∀ a ∈ gradientAttrs n.kind, Done f h' n a := by
  induction l generalizing h with
  | nil => exact ⟨h, rfl, hst, Mono.refl _ _, by simp⟩
  | cons k t ih =>
    obtain ⟨n, hn, rfl, hk⟩ := hl k (by simp)
    obtain ⟨h1, e1, s1, m1, d1⟩ := linearNode_spec hr hu hv hst hn hk
    obtain ⟨h2, e2, s2, m2, d2⟩ := ih (fun k hk => hl k (by simp [hk])) s1
    refine ⟨h2, by rw [forEach, e1, Option.bind_some, e2], s2, m1.trans m2, ?_⟩
    intro m hm hmk a ha
    rcases List.mem_cons.1 hmk with h | h
    · have := Forest.eq_of_key hu hm hn h
      subst this
      exact (d1 a ha).mono hv s2 m2 hm
    · exact d2 m hm h a ha

theorem radial_loop {f : Forest} {rank : Nat → Nat} (hr : HrefRanked f rank) (hu : f.UniqueKeys) (hv : AllVisible f)
    {l : List Nat} (hl : ∀ k ∈ l, ∃ n ∈ f.nodes, n.key = k ∧ n.kind = .elem .radialGradient)
    {pre : List Nat} {h : Node → Node} (hst : St f pre h) (hnd : (pre ++ l).Nodup)
    (hord : ∀ p b q, pre ++ l = p ++ b :: q → ∀ m ∈ f.nodes, m.kind = .elem .radialGradient →
      m.get .xlinkHref = some (.link b) → m.key ∈ p) :
    ∃ h', forEach resolveRadialNode l (f.map h) = some (f.map h') ∧ St f (pre ++ l) h' ∧ Mono f h h' ∧
      ∀ n ∈ f.nodes, n.key ∈ l → ∀ a ∈ gradientAttrs n.kind, Done f h' n a := by
  induction l generalizing h pre with
  | nil => exact ⟨h, rfl, by simpa using hst, Mono.refl _ _, by simp⟩
  | cons k t ih =>
    obtain ⟨n, hn, rfl, hk⟩ := hl k (by simp)
    have hnp : n.key ∉ pre := by
      rw [List.nodup_append] at hnd
      intro h
      exact hnd.2.2 _ h n.key (by simp) rfl
    have ho : ∀ m ∈ f.nodes, m.kind = .elem .radialGradient → m.key ∉ pre →
        ∀ k, m.get .xlinkHref = some (.link k) → k ∉ pre := by
      intro m hm hmk hmp k hx hkp
      obtain ⟨p, q, rfl⟩ := List.append_of_mem hkp
      have := hord p k (q ++ n.key :: t) (by simp) m hm hmk hx
      exact hmp (by simp [this])
    obtain ⟨h1, e1, s1, m1, d1⟩ := radialNode_spec (pre' := pre ++ [n.key]) hr hu hv hst hn hk (by simp) ho hnp
    obtain ⟨h2, e2, s2, m2, d2⟩ := ih (pre := pre ++ [n.key]) (fun k hk => hl k (by simp [hk])) s1 (by simpa using hnd)
      (fun p b q hs => hord p b q (by simpa using hs))
    refine ⟨h2, by rw [forEach, e1, Option.bind_some, e2], by simpa using s2, m1.trans m2, ?_⟩
    intro m hm hmk a ha
    rcases List.mem_cons.1 hmk with h | h
    · have := Forest.eq_of_key hu hm hn h
      subst this
      exact (d1 a ha).mono hv s2 m2 hm
    · exact d2 m hm h a ha

theorem St.init (f : Forest) (pre : List Nat) : St f pre id :=
  ⟨fun _ => rfl, fun _ _ => ⟨rfl, rfl, rfl, fun _ => Or.inl rfl⟩⟩

theorem href_links {n : Node} {k : Nat} (h : n.get .xlinkHref = some (.link k)) : k ∈ n.links := by
  unfold Node.get at h
  cases hx : getAttr n.attrs (.id .xlinkHref) with
  | none => rw [hx] at h; cases h
  | some x =>
    rw [hx] at h
    simp at h
    exact Node.mem_links.2 ⟨x, getAttr_mem hx, by rw [h]; rfl⟩

/-- The linear pass, given an order. -/
theorem linear_pass {f : Forest} {rank : Nat → Nat} (hr : HrefRanked f rank) (hu : f.UniqueKeys) (hv : AllVisible f)
    {o : List Nat} (ho : genOrder f .linearGradient = some o) :
    ∃ h, resolveLinear f = some (f.map h) ∧ St f [] h ∧
      ∀ n ∈ f.nodes, n.kind = .elem .linearGradient → ∀ a ∈ gradientAttrs n.kind, Done f h n a := by
  obtain ⟨h1, h2, h3⟩ := C27_order ho
  obtain ⟨h', e, s, _, d⟩ := linear_loop hr hu hv (fun k hk => (h2 k).1 hk) (St.init f [])
  rw [Forest.map_id' (g := id) (fun _ _ => rfl)] at e
  refine ⟨h', by unfold resolveLinear; rw [ho, Option.bind_some, e], s, ?_⟩
  intro n hn hk a ha
  exact d n hn ((h2 _).2 ⟨n, hn, rfl, hk⟩) a ha

/-- The radial pass, given an order. -/
theorem radial_pass {f : Forest} {rank : Nat → Nat} (hr : HrefRanked f rank) (hu : f.UniqueKeys) (hv : AllVisible f)
    {h : Node → Node} (hst : St f [] h)
    {o : List Nat} (ho : genOrder (f.map h) .radialGradient = some o) :
    ∃ h' pre, resolveRadial (f.map h) = some (f.map h') ∧ St f pre h' ∧ Mono f h h' ∧
      ∀ n ∈ f.nodes, n.kind = .elem .radialGradient → ∀ a ∈ gradientAttrs n.kind, Done f h' n a := by
  obtain ⟨h1, h2⟩ := orderLoop_ordered (ordered_nil _ _) ho
  have hp := h1.perm h2
  have hmem : ∀ k, k ∈ o ↔ ∃ n ∈ f.nodes, n.key = k ∧ n.kind = .elem .radialGradient := by
    intro k
    rw [hp.mem_iff, mem_ofKind]
    simp only [Forest.nodes_map, List.mem_map]
    constructor
    · rintro ⟨_, ⟨n, hn, rfl⟩, hk, hkd⟩
      exact ⟨n, hn, by rw [← hst.key]; exact hk, by rw [← (hst.ext n hn).kind]; exact hkd⟩
    · rintro ⟨n, hn, hk, hkd⟩
      exact ⟨_, ⟨n, hn, rfl⟩, by rw [hst.key]; exact hk, by rw [(hst.ext n hn).kind]; exact hkd⟩
  obtain ⟨h', e, s, m, d⟩ := radial_loop hr hu hv (fun k hk => (hmem k).1 hk) hst (by simpa using h1.nodup) (by
    intro p b q hs n hn hk hx
    rw [← hst.key]
    refine h1.first p b q (by simpa using hs) (h n) ?_ (by rw [(hst.ext n hn).kind]; exact hk) ?_
    · rw [Forest.nodes_map]; exact List.mem_map_of_mem hn
    · exact href_links (by rw [(hst.ext n hn).href]; exact hx))
  refine ⟨h', o, by unfold resolveRadial; rw [ho, Option.bind_some, e], by simpa using s, m, ?_⟩
  intro n hn hk a ha
  exact d n hn ((hmem _).2 ⟨n, hn, rfl, hk⟩) a ha

/-- What C26 promises of the document `g` made from `f`: every node is the old one with attributes added that are not
written, and every gradient has, for every gradient attribute `a` in scope, exactly the value the standard gives. -/
def Resolved (f g : Forest) (scope : AId → Prop) : Prop :=
  ∃ h : Node → Node, g = f.map h ∧ ∀ n ∈ f.nodes,
    (h n).key = n.key ∧ (h n).kind = n.kind ∧ (h n).id = n.id ∧
    (∀ b, (∀ a ∈ gradientAttrs n.kind, b ≠ .id a) → getAttr (h n).attrs b = getAttr n.attrs b) ∧
    (∀ b x, getAttr n.attrs b = some x → getAttr (h n).attrs b = some x) ∧
    (∀ a, written (h n) a = written n a) ∧
    ∀ a ∈ gradientAttrs n.kind, scope a → ∀ v, (h n).get a = some v ↔ GradientValue f n a v

/-- C26 in full: after both passes every gradient attribute has the prescribed value. -/
def C26_full : Prop := ∀ f : Forest, f.UniqueKeys → AllVisible f → HrefOk f → ∀ g,
  (resolveLinear f).bind resolveRadial = some g → Resolved f g (fun _ => True)

/-- **C26**, without the claim for the focal point of documents in which a linear gradient refers to a radial one. -/
theorem C26_resolved_partial {f g : Forest} (hu : f.UniqueKeys) (hv : AllVisible f) (hr : HrefOk f)
    (hg : (resolveLinear f).bind resolveRadial = some g) :
    Resolved f g (fun a => (a ≠ .fx ∧ a ≠ .fy) ∨ NoLinearToRadial f) := by
  obtain ⟨rank, hr⟩ := hr
  cases ho : genOrder f .linearGradient with
  | none => unfold resolveLinear at hg; rw [ho] at hg; simp at hg
  | some o =>
    obtain ⟨h1, e1, s1, d1⟩ := linear_pass hr hu hv ho
    rw [e1, Option.bind_some] at hg
    cases ho2 : genOrder (f.map h1) .radialGradient with
    | none => unfold resolveRadial at hg; rw [ho2] at hg; simp at hg
    | some o2 =>
      obtain ⟨h2, pre, e2, s2, m2, d2⟩ := radial_pass hr hu hv s1 ho2
      rw [e2] at hg
      cases hg
      refine ⟨h2, rfl, ?_⟩
      intro n hn
      have he := s2.ext n hn
      refine ⟨he.key, he.kind, he.id, ?_, ?_, ?_, ?_⟩
      · intro b hb
        rcases he.attr b with h | ⟨_, a, v, rfl, ha, _⟩
        · exact h
        · exact absurd rfl (hb a ha)
      · intro b x hx
        rcases he.attr b with h | ⟨h, _⟩
        · rw [h, hx]
        · rw [h] at hx; cases hx
      · intro a
        unfold written
        rcases he.attr (.id a) with h | ⟨h0, a', v, ha, _, h1, _⟩
        · rw [h]
        · rw [h0, h1]; rfl
      · intro a ha hs
        have hc : centreOf a = none ∨ NoLinearToRadial f := by
          rcases hs with ⟨h1, h2⟩ | h
          · left; unfold centreOf; split <;> first | rfl | contradiction
          · exact Or.inr h
        have hkind : n.kind = .elem .linearGradient ∨ n.kind = .elem .radialGradient := by
          unfold gradientAttrs at ha
          split at ha
          · exact Or.inl ‹_›
          · exact Or.inr ‹_›
          · simp at ha
        rcases hkind with hk | hk
        · exact ((d1 n hn hk a ha).mono hv s2 m2 hn) hc
        · exact d2 n hn hk a ha hc

/-- Gradients refer to other elements by `xlink:href` only. -/
def OnlyHref (f : Forest) : Prop :=
  ∀ n ∈ f.nodes, n.isGradient → ∀ x ∈ n.attrs, x.value.target ≠ none → x.name = .id .xlinkHref

/-- A change of the node with key `k` only. -/
def Only (k : Nat) (f g : Forest) : Prop :=
  ∃ u : Node → Node, g = f.map u ∧ ∀ n, (u n).key = n.key ∧ (u n).kind = n.kind ∧ (n.key ≠ k → u n = n)

theorem Only.refl (k : Nat) (f : Forest) : Only k f f :=
  ⟨id, (Forest.map_id' (fun _ _ => rfl)).symm, fun _ => ⟨rfl, rfl, fun _ => rfl⟩⟩

theorem Only.trans {k : Nat} {f g h : Forest} (h1 : Only k f g) (h2 : Only k g h) : Only k f h := by
  obtain ⟨u, rfl, hu⟩ := h1
  obtain ⟨w, rfl, hw⟩ := h2
  refine ⟨fun n => w (u n), Forest.map_map _ _ _, fun n => ⟨?_, ?_, ?_⟩⟩
  · rw [(hw _).1, (hu _).1]
  · rw [(hw _).2.1, (hu _).2.1]
  · intro hn
    show w (u n) = n
    rw [(hw _).2.2 (by rw [(hu _).1]; exact hn), (hu _).2.2 hn]

theorem checkAttr_only {k : Nat} {a : AId} {d : Option Value} {f g : Forest} (h : checkAttr k a d f = some g) : Only k f g := by
  unfold checkAttr at h
  cases hf : f.find k with
  | none => rw [hf] at h; simp at h
  | some n =>
    rw [hf] at h
    simp only [Option.bind_some] at h
    split at h
    · cases h; exact Only.refl _ _
    · cases hr : resolveAttribute f a d (f.nodes.length + 1) n with
      | none => rw [hr] at h; simp at h
      | some r =>
        rw [hr] at h
        simp only [Option.map_some, Option.some.injEq] at h
        cases r with
        | none => simp only [] at h; subst h; exact Only.refl _ _
        | some v =>
          simp only [] at h; subst h
          refine ⟨_, rfl, fun n => ⟨?_, ?_, ?_⟩⟩
          · split <;> rfl
          · split <;> rfl
          · intro hn; rw [if_neg hn]

theorem bind_only {k : Nat} {f g : Forest} {x : Option Forest} {y : Forest → Option Forest}
    (hx : ∀ f', x = some f' → Only k f f') (hy : ∀ f' g', y f' = some g' → Only k f' g') (h : x.bind y = some g) :
    Only k f g := by
  cases x with
  | none => simp at h
  | some f' => exact (hx f' rfl).trans (hy f' g h)

theorem linearNode_only {k : Nat} {f g : Forest} (h : resolveLinearNode k f = some g) : Only k f g := by
  unfold resolveLinearNode at h
  refine bind_only (fun _ h => checkAttr_only h) (fun _ _ h => ?_) h
  refine bind_only (fun _ h => checkAttr_only h) (fun _ _ h => ?_) h
  refine bind_only (fun _ h => checkAttr_only h) (fun _ _ h => ?_) h
  refine bind_only (fun _ h => checkAttr_only h) (fun _ _ h => ?_) h
  refine bind_only (fun _ h => checkAttr_only h) (fun _ _ h => ?_) h
  refine bind_only (fun _ h => checkAttr_only h) (fun _ _ h => ?_) h
  exact checkAttr_only h

theorem forEach_linear_only {l : List Nat} {f g : Forest} (h : forEach resolveLinearNode l f = some g) :
    ∃ u : Node → Node, g = f.map u ∧ ∀ n, (u n).key = n.key ∧ (u n).kind = n.kind ∧ (n.key ∉ l → u n = n) := by
  induction l generalizing f with
  | nil =>
    cases h
    exact ⟨id, (Forest.map_id' (fun _ _ => rfl)).symm, fun _ => ⟨rfl, rfl, fun _ => rfl⟩⟩
  | cons k t ih =>
    rw [forEach] at h
    cases h1 : resolveLinearNode k f with
    | none => rw [h1] at h; simp at h
    | some f1 =>
      rw [h1, Option.bind_some] at h
      obtain ⟨w, rfl, hw⟩ := linearNode_only h1
      obtain ⟨u, rfl, hu⟩ := ih h
      refine ⟨fun n => u (w n), Forest.map_map _ _ _, fun n => ⟨?_, ?_, ?_⟩⟩
      · rw [(hu _).1, (hw _).1]
      · rw [(hu _).2.1, (hw _).2.1]
      · intro hn
        simp only [List.mem_cons, not_or] at hn
        show u (w n) = n
        rw [(hu _).2.2 (by rw [(hw _).1]; exact hn.2), (hw _).2.2 hn.1]

theorem uses_rank {f : Forest} {rank : Nat → Nat} (hr : HrefRanked f rank) (hv : AllVisible f) (hl : OnlyHref f)
    (hna : ∀ n ∈ f.nodes, (n.attrs.map (·.name)).Nodup) {n : Node} (hn : n ∈ f.nodes) (hg : n.isGradient) {k : Nat}
    (hk : k ∈ n.links) : rank k < rank n.key := by
  obtain ⟨x, hx, ht⟩ := Node.mem_links.1 hk
  have hxn := hl n hn hg x hx (by rw [ht]; simp)
  have hgx : getAttr n.attrs (.id .xlinkHref) = some x := by
    have : ∀ (as : List Attr), (as.map (·.name)).Nodup → x ∈ as → getAttr as x.name = some x := by
      intro as
      induction as with
      | nil => simp
      | cons y t ih =>
        intro hnd hx
        simp only [List.map_cons, List.nodup_cons] at hnd
        unfold getAttr
        rw [List.find?_cons]
        rcases List.mem_cons.1 hx with rfl | hx
        · simp
        · have : y.name ≠ x.name := fun h => hnd.1 (h ▸ List.mem_map_of_mem hx)
          simp only [this, decide_false]
          exact ih hnd.2 hx
    rw [← hxn]
    exact this _ (hna n hn) hx
  obtain ⟨t, _, he, _, hlt⟩ := hr n hn hg x.value (by unfold written; rw [hgx]; simp [hv n hn x hx])
  rw [he] at ht
  simp only [Value.target, Option.some.injEq] at ht
  rw [← ht]; exact hlt

/-- **C26, no crash.** If references between gradients are to gradients and have no cycles, both passes end without a
crash. -/
theorem C26_no_crash {f : Forest} (hu : f.UniqueKeys) (hv : AllVisible f) (hr : HrefOk f) (hl : OnlyHref f)
    (hna : ∀ n ∈ f.nodes, (n.attrs.map (·.name)).Nodup) : ∃ g, (resolveLinear f).bind resolveRadial = some g := by
  obtain ⟨rank, hr⟩ := hr
  have isg : ∀ n : Node, ∀ e, (e = EId.linearGradient ∨ e = .radialGradient) → n.kind = .elem e → n.isGradient := by
    rintro n e (rfl | rfl) h <;> simp [Node.isGradient, Node.isTag, h]
  obtain ⟨o, ho⟩ := orderLoop_rank hu (e := .linearGradient) (rank := rank) (by
    rintro a b ⟨⟨n, hn, rfl, hk, hb⟩, _⟩
    exact uses_rank hr hv hl hna hn (isg n _ (Or.inl rfl) hk) hb) (ordered_nil _ _)
    (fuel := (ofKind f .linearGradient).length) (by simp)
  have ho : genOrder f .linearGradient = some o := ho
  obtain ⟨h1, e1, s1, _⟩ := linear_pass hr hu hv ho
  have e1' := e1
  unfold resolveLinear at e1'
  rw [ho, Option.bind_some] at e1'
  obtain ⟨u, hu1, hu2⟩ := forEach_linear_only e1'
  have hmem := (C27_order ho).2.1
  have huk : ((f.map h1)).UniqueKeys := (Forest.uniqueKeys_map s1.key).2 hu
  obtain ⟨o2, ho2⟩ := orderLoop_rank huk (e := .radialGradient) (rank := rank) (by
    rintro a b ⟨⟨n, hn, rfl, hk, hb⟩, _⟩
    rw [hu1, Forest.nodes_map] at hn
    obtain ⟨m, hm, rfl⟩ := List.mem_map.1 hn
    rw [(hu2 m).2.1] at hk
    have hno : m.key ∉ o := by
      rw [hmem]
      rintro ⟨m', hm', hk', hkd⟩
      have := Forest.eq_of_key hu hm' hm hk'
      subst this
      rw [hk] at hkd; cases hkd
    rw [(hu2 m).2.2 hno] at hb ⊢
    exact uses_rank hr hv hl hna hm (isg m _ (Or.inr rfl) hk) hb) (ordered_nil _ _)
    (fuel := (ofKind (f.map h1) .radialGradient).length) (by simp)
  obtain ⟨h2, pre, e2, _⟩ := radial_pass hr hu hv s1 ho2
  exact ⟨f.map h2, by rw [e1, Option.bind_some, e2]⟩

/-! ### A concrete case -/

/-- A radial gradient without a focal point, inheriting from a radial gradient, inheriting from a linear one. -/
def sample : Forest :=
  .cons (grad 3 .linearGradient [att .spreadMethod (.kw (.other "reflect")), att .x1 (.length ⟨3, .none⟩)]) .nil
  (.cons (grad 2 .radialGradient [att .xlinkHref (.link 3), att .cx (.length ⟨7, .none⟩)]) .nil
  (.cons (grad 1 .radialGradient [att .xlinkHref (.link 2), att .cy (.length ⟨5, .none⟩)]) .nil .nil))

instance (f : Forest) : Decidable (AllVisible f) := by unfold AllVisible; infer_instance

example : sample.UniqueKeys ∧ AllVisible sample := by decide
example : HrefOk sample := ⟨fun k => 3 - k, by
  unfold HrefRanked
  intro n hn
  simp only [sample, Forest.nodes, List.nil_append, List.mem_cons, List.not_mem_nil, or_false] at hn
  rcases hn with rfl | rfl | rfl
  · intro _ v h
    have : written (grad 3 .linearGradient [att .spreadMethod (.kw (.other "reflect")), att .x1 (.length ⟨3, .none⟩)]) .xlinkHref = none := by
      decide
    rw [this] at h; cases h
  · intro _ v h
    have : written (grad 2 .radialGradient [att .xlinkHref (.link 3), att .cx (.length ⟨7, .none⟩)]) .xlinkHref = some (.link 3) := by
      decide
    rw [this] at h; cases h
    exact ⟨_, by simp [sample, Forest.nodes]; exact Or.inl rfl, rfl, by decide, by decide⟩
  · intro _ v h
    have : written (grad 1 .radialGradient [att .xlinkHref (.link 2), att .cy (.length ⟨5, .none⟩)]) .xlinkHref = some (.link 2) := by
      decide
    rw [this] at h; cases h
    exact ⟨_, by simp [sample, Forest.nodes]; exact Or.inr (Or.inl rfl), rfl, by decide, by decide⟩⟩

example : ∃ g, (resolveLinear sample).bind resolveRadial = some g ∧
    (g.find 1).map (fun n => [n.get .cx, n.get .fx, n.get .fy, n.get .spreadMethod, n.get .r]) =
      some [some (.length ⟨7, .none⟩), some (.length ⟨7, .none⟩), some (.length ⟨5, .none⟩), some (.kw (.other "reflect")),
        some (.length ⟨50, .percent⟩)] := by
  refine ⟨_, Option.eq_some_of_isSome (by decide +kernel), by decide +kernel⟩

/-- A radial gradient with its own centre that inherits through a linear gradient from a radial one. -/
def mixed : Forest :=
  .cons (grad 3 .radialGradient [att .cx (.length ⟨9, .none⟩)]) .nil
  (.cons (grad 2 .linearGradient [att .xlinkHref (.link 3)]) .nil
  (.cons (grad 1 .radialGradient [att .xlinkHref (.link 2), att .cx (.length ⟨7, .none⟩)]) .nil .nil))

/-- **Finding.** In a chain radial → linear → radial the first gradient gets the *centre* of the last one as its focal
point, although it has a centre of its own. -/
theorem C26_refuted_mixed_chain : ¬ C26_full := by
  intro hfull
  have hok : HrefOk mixed := by
    refine ⟨fun k => 3 - k, ?_⟩
    unfold HrefRanked
    intro n hn
    simp only [mixed, Forest.nodes, List.nil_append, List.mem_cons, List.not_mem_nil, or_false] at hn
    rcases hn with rfl | rfl | rfl
    · intro _ v h
      have : written (grad 3 .radialGradient [att .cx (.length ⟨9, .none⟩)]) .xlinkHref = none := by decide
      rw [this] at h; cases h
    · intro _ v h
      have : written (grad 2 .linearGradient [att .xlinkHref (.link 3)]) .xlinkHref = some (.link 3) := by decide
      rw [this] at h; cases h
      exact ⟨_, by simp [mixed, Forest.nodes]; exact Or.inl rfl, rfl, by decide, by decide⟩
    · intro _ v h
      have : written (grad 1 .radialGradient [att .xlinkHref (.link 2), att .cx (.length ⟨7, .none⟩)]) .xlinkHref =
        some (.link 2) := by decide
      rw [this] at h; cases h
      exact ⟨_, by simp [mixed, Forest.nodes]; exact Or.inr (Or.inl rfl), rfl, by decide, by decide⟩
  have hsome : ((resolveLinear mixed).bind resolveRadial).isSome := by decide +kernel
  obtain ⟨g, hg⟩ := Option.isSome_iff_exists.1 hsome
  obtain ⟨h, hgh, hn⟩ := hfull mixed (by decide) (by decide) hok g hg
  have h1 : (grad 1 .radialGradient [att .xlinkHref (.link 2), att .cx (.length ⟨7, .none⟩)]) ∈ mixed.nodes := by
    simp [mixed, Forest.nodes]
  have h2 : (grad 2 .linearGradient [att .xlinkHref (.link 3)]) ∈ mixed.nodes := by simp [mixed, Forest.nodes]
  have h3 : (grad 3 .radialGradient [att .cx (.length ⟨9, .none⟩)]) ∈ mixed.nodes := by simp [mixed, Forest.nodes]
  obtain ⟨hk, -, -, -, -, -, hv⟩ := hn _ h1
  have hval : GradientValue mixed (grad 1 .radialGradient [att .xlinkHref (.link 2), att .cx (.length ⟨7, .none⟩)]) .fx
      (.length ⟨7, .none⟩) := by
    refine Or.inr ⟨rfl, .cx, rfl, ?_, Or.inl (.own (by decide))⟩
    refine .ref (k := 2) (by decide) (by decide) (Forest.find_of_mem (by decide) h2) ?_
    refine .ref (k := 3) (by decide) (by decide) (Forest.find_of_mem (by decide) h3) ?_
    exact .stop (by decide) (by decide)
  have := (hv .fx (by decide) trivial _).2 hval
  have hfind : ∃ m, g.find 1 = some m ∧ m = h (grad 1 .radialGradient [att .xlinkHref (.link 2), att .cx (.length ⟨7, .none⟩)]) := by
    have hu : g.UniqueKeys := by
      have : g.keys = mixed.keys := by
        rw [hgh]
        simp only [Forest.keys, Forest.nodes_map, List.map_map]
        exact List.map_congr_left (fun n hn' => (hn n hn').1)
      unfold Forest.UniqueKeys
      rw [this]; decide
    refine ⟨_, ?_, rfl⟩
    have hm : h (grad 1 .radialGradient [att .xlinkHref (.link 2), att .cx (.length ⟨7, .none⟩)]) ∈ g.nodes := by
      rw [hgh, Forest.nodes_map]; exact List.mem_map_of_mem h1
    have := Forest.find_of_mem hu hm
    rw [hk] at this
    exact this
  obtain ⟨m, hm, he⟩ := hfind
  rw [← he] at this
  have hc : ((((resolveLinear mixed).bind resolveRadial).bind (fun g => g.find 1)).bind (fun m => m.get .fx)) =
      some (.length ⟨9, .none⟩) := by decide +kernel
  rw [hg, Option.bind_some, hm, Option.bind_some, this] at hc
  cases hc

/-- **Finding.** A gradient whose `xlink:href` is not a link to an element (an unresolved or external reference) makes
the program panic. -/
theorem C26_crash_foreign_href :
    resolveLinear (.cons (grad 1 .linearGradient [att .xlinkHref (.str "other.svg#g")]) .nil .nil) = none := by
  decide +kernel

end Verif.Gradients
