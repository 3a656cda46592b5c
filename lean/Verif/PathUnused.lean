import Verif.PathConv
import Mathlib.Data.List.Chain
import Mathlib.Logic.Relation
/-
`remove_unused_segments`: no panic, and the outline is kept.
-/
namespace Verif.Paths

/-- One local rewrite of `remove_unused_segments`. -/
inductive Step : Path → Path → Prop
  | mm (a b : Path) (s u : Seg) (hs : s.data.isMove = true) (hu : u.data.isMove = true) :
      Step (a ++ s :: u :: b) (a ++ u :: b)
  | zz (a b : Path) (s u : Seg) (hs : s.data.isClose = true) (hu : u.data.isClose = true) :
      Step (a ++ s :: u :: b) (a ++ u :: b)
  | mz (a b : Path) (s u : Seg) (hs : s.data.isMove = true) (hu : u.data.isClose = true) :
      Step (a ++ s :: u :: b) (a ++ b)
  | lz (a b : Path) (x y : ℚ) (u : Seg) (hu : u.data.isClose = true) (he : (pen0.afterAll a).start = (x, y)) :
      Step (a ++ ⟨true, .lineTo x y⟩ :: u :: b) (a ++ u :: b)
  | close (a b : Path) (x y : ℚ) (hb : ∀ u v, b = u :: v → u.data.isMove = true)
      (he : (pen0.afterAll a).start = (x, y)) :
      Step (a ++ ⟨true, .lineTo x y⟩ :: b) (a ++ mkAbs .close :: b)
  | eq (a b : Path) (s : Seg) : Step (a ++ s :: s :: b) (a ++ s :: b)
  | zero (a b : Path) (x y : ℚ) (he : (pen0.afterAll a).cur = (x, y)) :
      Step (a ++ ⟨true, .lineTo x y⟩ :: b) (a ++ b)

abbrev Steps := Relation.ReflTransGen Step

theorem afterZ_chain (p : Path) : AfterZ p ↔ p.IsChain (fun a b => a.data.isClose = true → b.data.isMove = true) := by
  induction p with
  | nil => simp [AfterZ]
  | cons s t ih =>
    cases t with
    | nil => simp [AfterZ]
    | cons u v => simp only [AfterZ, List.isChain_cons_cons, ih]

/-- Empty or in normal form. -/
def N0 (p : Path) : Prop := p = [] ∨ NormHV p

theorem isMove_not_close {d : SegData} (h : d.isMove = true) : d.isClose = false := by
  cases d <;> simp [SegData.isMove, SegData.isClose] at h ⊢

theorem Step.n0 {p q : Path} (h : Step p q) (hp : NormHV p) : N0 q := by
  obtain ⟨⟨h1, h2, h3⟩, h4⟩ := hp
  rw [afterZ_chain] at h3
  have hmem : ∀ q : Path, (∀ s ∈ q, s ∈ p ∨ s = mkAbs .close) → AllAbs q ∧ NoHV q := by
    intro q hq
    refine ⟨fun s hs => ?_, fun s hs => ?_⟩
    · rcases hq s hs with h | rfl
      · exact h1 s h
      · rfl
    · rcases hq s hs with h | rfl
      · exact h4 s h
      · exact .inl rfl
  have hmk : ∀ q : Path, (∀ s ∈ q, s ∈ p ∨ s = mkAbs .close) → (q = [] ∨ AbsMove q) →
      q.IsChain (fun a b => a.data.isClose = true → b.data.isMove = true) → N0 q := by
    intro q hq hm hz
    rcases hm with rfl | hm
    · exact .inl rfl
    · exact .inr ⟨⟨(hmem q hq).1, hm, (afterZ_chain q).2 hz⟩, (hmem q hq).2⟩
  have hmv : ∀ (a : Path) (s u : Seg) (b b' : Path), AbsMove (a ++ s :: b) →
      (s.data.isMove = true → u.abs = true ∧ u.data.isMove = true) → AbsMove (a ++ u :: b') := by
    intro a s u b b' hm hsu
    obtain ⟨x, y, t, e⟩ := hm
    cases a with
    | nil =>
      simp only [List.nil_append, List.cons.injEq] at e
      obtain ⟨rfl, _⟩ := e
      obtain ⟨ua, um⟩ := hsu rfl
      obtain ⟨ub, ud⟩ := u
      simp only at ua; subst ua
      cases ud <;> simp [SegData.isMove] at um
      exact ⟨_, _, b', rfl⟩
    | cons c d =>
      simp only [List.cons_append, List.cons.injEq] at e
      obtain ⟨rfl, _⟩ := e
      exact ⟨x, y, d ++ u :: b', rfl⟩
  cases h with
  | mm a b s u hs hu =>
    refine hmk _ ?_ (.inr ?_) ?_
    · simp only [List.mem_append, List.mem_cons]; intro v hv; tauto
    · exact hmv a s u (u :: b) b h2 (fun _ => ⟨h1 u (by simp), hu⟩)
    · simp only [List.isChain_append, List.isChain_cons, List.head?_cons] at h3 ⊢
      simp_all
  | zz a b s u hs hu =>
    exfalso
    rw [← afterZ_chain] at h3
    have := afterZ_pair h3 hs
    rw [isMove_not_close this] at hu
    cases hu
  | mz a b s u hs hu =>
    refine hmk _ ?_ ?_ ?_
    · simp only [List.mem_append, List.mem_cons]; intro v hv; tauto
    · cases b with
      | nil =>
        cases a with
        | nil => exact .inl rfl
        | cons c d =>
          obtain ⟨x, y, t, e⟩ := h2
          simp only [List.cons_append, List.cons.injEq] at e
          obtain ⟨rfl, _⟩ := e
          exact .inr ⟨x, y, d ++ [], rfl⟩
      | cons c d =>
        right
        refine hmv a s c (u :: c :: d) d h2 (fun _ => ⟨h1 c (by simp), ?_⟩)
        rw [← afterZ_chain] at h3
        have : AfterZ ((a ++ [s]) ++ u :: c :: d) := by simpa using h3
        exact afterZ_pair this hu
    · simp only [List.isChain_append, List.isChain_cons, List.head?_cons] at h3 ⊢
      simp_all
  | lz a b x y u hu he =>
    refine hmk _ ?_ (.inr ?_) ?_
    · simp only [List.mem_append, List.mem_cons]; intro v hv; tauto
    · exact hmv a _ u _ _ h2 (fun h => by simp [SegData.isMove] at h)
    · simp only [List.isChain_append, List.isChain_cons, List.head?_cons] at h3 ⊢
      simp_all [SegData.isMove, SegData.isClose]
  | close a b x y hb he =>
    refine hmk _ ?_ (.inr ?_) ?_
    · simp only [List.mem_append, List.mem_cons]; intro v hv; tauto
    · exact hmv a _ _ _ _ h2 (fun h => by simp [SegData.isMove] at h)
    · have hb' : ∀ u ∈ b.head?, u.data.isMove = true := by
        intro u hu
        cases b with
        | nil => simp at hu
        | cons v w => simp at hu; subst hu; exact hb _ _ rfl
      simp only [List.isChain_append, List.isChain_cons, List.head?_cons] at h3 ⊢
      simp_all [SegData.isMove, SegData.isClose]
  | eq a b s =>
    refine hmk _ ?_ (.inr ?_) ?_
    · simp only [List.mem_append, List.mem_cons]; intro v hv; tauto
    · exact hmv a s s _ _ h2 (fun h => ⟨h1 s (by simp), h⟩)
    · simp only [List.isChain_append, List.isChain_cons, List.head?_cons] at h3 ⊢
      simp_all
  | zero a b x y he =>
    refine hmk _ ?_ ?_ ?_
    · simp only [List.mem_append, List.mem_cons]; intro v hv; tauto
    · obtain ⟨x', y', t, e⟩ := h2
      cases a with
      | nil => cases e
      | cons c d =>
        simp only [List.cons_append, List.cons.injEq] at e
        obtain ⟨rfl, _⟩ := e
        exact .inr ⟨x', y', d ++ b, rfl⟩
    · simp only [List.isChain_append, List.isChain_cons, List.head?_cons] at h3 ⊢
      simp_all [SegData.isMove, SegData.isClose]

theorem Steps.n0 {p q : Path} (h : Steps p q) (hp : N0 p) : N0 q := by
  induction h with
  | refl => exact hp
  | tail _ hs ih =>
    rcases ih with rfl | ih
    · exfalso
      generalize hx : ([] : Path) = e at hs
      cases hs <;> simp at hx
    · exact hs.n0 ih

/-! ### The passes are made of steps -/

theorem drainSingle_steps (f : Seg → Seg → Bool)
    (hf : ∀ s u, f s u = true → ∀ a b, Step (a ++ s :: u :: b) (a ++ u :: b)) : ∀ rest rev,
    Steps (rev.reverse ++ rest) (drainSingle f rev rest) := by
  intro rest
  induction rest with
  | nil => intro rev; cases rev <;> simp [drainSingle, Relation.ReflTransGen.refl]
  | cons c t ih =>
    intro rev
    cases rev with
    | nil => simpa [drainSingle] using ih [c]
    | cons prev rv =>
      unfold drainSingle
      split
      · rename_i h
        refine Relation.ReflTransGen.head ?_ (ih _)
        simpa using hf prev c h rv.reverse t
      · simpa using ih (c :: prev :: rv)

theorem drainBoth_steps (f : Seg → Seg → Bool)
    (hf : ∀ s u, f s u = true → ∀ a b, Step (a ++ s :: u :: b) (a ++ b)) : ∀ n rest rev, rest.length ≤ n →
    Steps (rev.reverse ++ rest) (drainBoth f rev rest) := by
  intro n
  induction n with
  | zero =>
    intro rest rev h
    have : rest = [] := List.length_eq_zero_iff.1 (by omega)
    subst this
    rcases rev with _ | ⟨a, _ | ⟨b, r⟩⟩ <;> simp [drainBoth, Relation.ReflTransGen.refl]
  | succ n ih =>
    intro rest rev h
    cases rest with
    | nil => rcases rev with _ | ⟨a, _ | ⟨b, r⟩⟩ <;> simp [drainBoth, Relation.ReflTransGen.refl]
    | cons c t =>
      have ht : t.length ≤ n := by simpa using h
      rcases rev with _ | ⟨prev, _ | ⟨q, rv⟩⟩
      · have := ih t [c] ht
        rw [drainBoth]
        simpa using this
      · rw [drainBoth.eq_def]
        by_cases hp : f prev c = true
        · simp only [hp, if_true]
          rcases t with _ | ⟨a, _ | ⟨b, t'⟩⟩
          · exact Relation.ReflTransGen.single (hf prev c hp [] [])
          · exact Relation.ReflTransGen.single (hf prev c hp [] [a])
          · have := ih t' [b, a] (by simp at ht; omega)
            exact Relation.ReflTransGen.head (hf prev c hp [] (a :: b :: t')) (by simpa using this)
        · simp only [hp]
          simpa using ih t [c, prev] ht
      · rw [drainBoth.eq_def]
        by_cases hp : f prev c = true
        · simp only [hp, if_true]
          refine Relation.ReflTransGen.head ?_ (ih t (q :: rv) ht)
          simpa using hf prev c hp (q :: rv).reverse t
        · simp only [hp]
          simpa using ih t (c :: prev :: q :: rv) ht

theorem removeMM_steps (p : Path) : Steps p (removeMM p) := by
  have := drainSingle_steps (fun a b => a.data.isMove && b.data.isMove) (fun s u h a b => by
    simp only [Bool.and_eq_true] at h; exact Step.mm a b s u h.1 h.2) p []
  simpa [removeMM] using this

theorem removeZZ_steps (p : Path) : Steps p (removeZZ p) := by
  have := drainSingle_steps (fun a b => a.data.isClose && b.data.isClose) (fun s u h a b => by
    simp only [Bool.and_eq_true] at h; exact Step.zz a b s u h.1 h.2) p []
  simpa [removeZZ] using this

theorem removeEqual_steps (p : Path) : Steps p (removeEqual p) := by
  have := drainSingle_steps (fun a b => decide (a = b)) (fun s u h a b => by
    simp only [decide_eq_true_eq] at h; subst h; exact Step.eq a b s) p []
  simpa [removeEqual] using this

theorem removeMZ_steps (p : Path) : Steps p (removeMZ p) := by
  have := drainBoth_steps (fun a b => a.data.isMove && b.data.isClose) (fun s u h a b => by
    simp only [Bool.and_eq_true] at h; exact Step.mz a b s u h.1 h.2) _ p [] (Nat.le_refl _)
  simpa [removeMZ] using this

theorem absMove_pre {a : Path} {s : Seg} {b : Path} (h : AbsMove (a ++ s :: b)) (hs : s.data.isMove = false) :
    AbsMove a := by
  obtain ⟨x, y, t, e⟩ := h
  cases a with
  | nil =>
    simp only [List.nil_append, List.cons.injEq] at e
    obtain ⟨rfl, _⟩ := e
    cases hs
  | cons c d =>
    simp only [List.cons_append, List.cons.injEq] at e
    obtain ⟨rfl, _⟩ := e
    exact ⟨x, y, d, rfl⟩

theorem removeZeroLoop_steps : ∀ rest prev rev, NormHV ((prev :: rev).reverse ++ rest) → AbsMove (prev :: rev).reverse →
    ∃ q, removeZeroLoop (prev :: rev) rest = some q ∧ Steps ((prev :: rev).reverse ++ rest) q := by
  intro rest
  induction rest with
  | nil =>
    intro prev rev _ _
    exact ⟨_, rfl, by simp [Relation.ReflTransGen.refl]⟩
  | cons c t ih =>
    intro prev rev hn hm
    have hnr : NoHV (prev :: rev) := by
      intro s hs
      exact hn.noHV s (by simp only [List.mem_append, List.mem_reverse]; exact .inl hs)
    obtain ⟨⟨px, py⟩, hxy⟩ := resolveXY_some hnr (exists_nonclose hm)
    have hgo := ih c (prev :: rev) (by simpa using hn) (by rw [List.reverse_cons]; exact absMove_append hm)
    have hgo' : ∃ q, removeZeroLoop (c :: prev :: rev) t = some q ∧ Steps ((prev :: rev).reverse ++ c :: t) q := by
      obtain ⟨q, h1, h2⟩ := hgo
      exact ⟨q, h1, by simpa using h2⟩
    unfold removeZeroLoop
    simp only [hxy]
    split
    · rename_i x y hd
      split
      · rename_i he
        obtain ⟨b, d⟩ := c
        simp only at hd; subst hd
        have hb : b = true := hn.abs ⟨b, .lineTo x y⟩ (by simp)
        subst hb
        have hpnc : prev.data.isClose = false := by
          by_contra hcc
          have hz : AfterZ (rev.reverse ++ prev :: ⟨true, .lineTo x y⟩ :: t) := by simpa using hn.afterZ
          have := afterZ_pair hz (by simpa using hcc)
          simp [SegData.isMove] at this
        have hpa : prev.abs = true := hn.abs prev (by simp)
        have hcur := resolveXY_cur hpa hnr hpnc (pen0.afterAll rev.reverse)
        rw [hxy] at hcur
        simp only [Option.some.injEq] at hcur
        have hst : Step ((prev :: rev).reverse ++ ⟨true, .lineTo x y⟩ :: t) ((prev :: rev).reverse ++ t) := by
          refine Step.zero _ _ x y ?_
          rw [List.reverse_cons, Pen.afterAll_append, he.1, he.2]
          exact hcur.symm
        have hn2 : NormHV ((prev :: rev).reverse ++ t) := by
          rcases hst.n0 hn with h | h
          · simp at h
          · exact h
        obtain ⟨q, h1, h2⟩ := ih prev rev hn2 hm
        exact ⟨q, h1, Relation.ReflTransGen.head hst h2⟩
      · exact hgo'
    · exact hgo'

theorem removeZero_steps {p : Path} (h : N0 p) : ∃ q, removeZero p = some q ∧ Steps p q := by
  rcases h with rfl | h
  · exact ⟨[], rfl, .refl⟩
  · obtain ⟨x, y, t, rfl⟩ := h.move
    simpa [removeZero] using removeZeroLoop_steps t ⟨true, .moveTo x y⟩ [] (by simpa using h) ⟨x, y, [], rfl⟩

theorem lineBased_line {d : SegData} (h : isLineBased d = true)
    (hn : (d.isClose = true) ∨ (∃ x y, d.x? = some x ∧ d.y? = some y)) : ∃ x y, d = .lineTo x y := by
  cases d <;> simp [isLineBased, SegData.isClose, SegData.x?, SegData.y?] at h hn ⊢

theorem endsAt_isSome {mx my : ℚ} {rev : List Seg} (hn : NoHV rev) (hne : rev ≠ []) : endsAt mx my rev ≠ none := by
  cases rev with
  | nil => exact absurd rfl hne
  | cons prev rv =>
    simp only [endsAt]
    split
    · rename_i h
      simp only [ne_eq, Option.map_eq_none_iff]
      obtain ⟨x, y, hd⟩ := lineBased_line h hn.head
      simp [resolveXY, hd, SegData.isClose, SegData.x?, SegData.y?]
    · simp

theorem endsAt_line {mx my : ℚ} {rev : List Seg} (hn : NoHV rev) (ha : AllAbs rev) (h : endsAt mx my rev = some true) :
    ∃ rv, rev = ⟨true, .lineTo mx my⟩ :: rv := by
  cases rev with
  | nil => simp [endsAt] at h
  | cons prev rv =>
    simp only [endsAt] at h
    split at h
    · rename_i hl
      obtain ⟨x, y, hd⟩ := lineBased_line hl hn.head
      obtain ⟨b, d⟩ := prev
      simp only at hd; subst hd
      have hb : b = true := ha.head
      subst hb
      simp [resolveXY, SegData.isClose, SegData.x?, SegData.y?] at h
      exact ⟨rv, by rw [h.1, h.2]⟩
    · simp at h

theorem remember_start (pen : Pen) (c : Seg) (mx my : ℚ) (ha : c.abs = true) (h : pen.start = (mx, my)) :
    (pen.after c).start = ((remember c mx my).1, (remember c mx my).2) := by
  obtain ⟨b, d⟩ := c
  simp only at ha; subst ha
  cases d <;> simp [Pen.after, Pen.curve, remember, Pen.pt, h]

theorem processLZLoop_steps (rev : List Seg) (rest : Path) (mx my : ℚ)
    (hn : NormHV (rev.reverse ++ rest)) (hm : AbsMove rev.reverse) (hs : (pen0.afterAll rev.reverse).start = (mx, my)) :
    ∃ q, processLZLoop rev rest mx my = some q ∧ Steps (rev.reverse ++ rest) q := by
  have hrevNo : ∀ {rev : List Seg} {rest : Path}, NormHV (rev.reverse ++ rest) → NoHV rev ∧ AllAbs rev := by
    intro rev rest hn
    exact ⟨fun s hs => hn.noHV s (by simp only [List.mem_append, List.mem_reverse]; exact .inl hs),
      fun s hs => hn.abs s (by simp only [List.mem_append, List.mem_reverse]; exact .inl hs)⟩
  have hne : ∀ {rev : List Seg}, AbsMove rev.reverse → rev ≠ [] := by
    rintro rev ⟨x, y, t, e⟩ rfl
    simp at e
  fun_induction processLZLoop rev rest mx my with
  | case1 rev mx my => exact ⟨_, rfl, by simp [Relation.ReflTransGen.refl]⟩
  | case2 rev mx my c t hc hE => exact absurd hE (endsAt_isSome (hrevNo hn).1 (hne hm))
  | case3 rev mx my c t hc hE ih =>
    obtain ⟨rv, rfl⟩ := endsAt_line (hrevNo hn).1 (hrevNo hn).2 hE
    rw [List.reverse_cons] at hm hs
    have hs' : (pen0.afterAll rv.reverse).start = (mx, my) := by
      rw [Pen.afterAll_append] at hs
      simpa [Pen.after, Pen.curve] using hs
    have hst : Step ((⟨true, .lineTo mx my⟩ :: rv).reverse ++ c :: t) (rv.reverse ++ c :: t) := by
      have := Step.lz rv.reverse t mx my c hc hs'
      simpa using this
    have hm' := absMove_pre (b := []) hm rfl
    have hn' : NormHV (rv.reverse ++ c :: t) := by
      rcases hst.n0 hn with h | h
      · simp at h
      · exact h
    obtain ⟨q, h1, h2⟩ := ih hn' hm' hs'
    exact ⟨q, h1, Relation.ReflTransGen.head hst h2⟩
  | case4 rev mx my c t hc hE ih =>
    obtain ⟨q, h1, h2⟩ := ih (by simpa using hn) (by rw [List.reverse_cons]; exact absMove_append hm) (by
      have := after_start (pen0.afterAll rev.reverse) c (by
        by_contra h; rw [isMove_not_close (by simpa using h)] at hc; cases hc)
      simpa [hs] using this)
    exact ⟨q, h1, by simpa using h2⟩
  | case5 rev mx my c hc hE =>
    have := hrevNo (rev := c :: rev) (rest := []) (by simpa using hn)
    exact absurd hE (endsAt_isSome this.1 (by simp))
  | case6 rev mx my c hc hE ih =>
    have := hrevNo (rev := c :: rev) (rest := []) (by simpa using hn)
    obtain ⟨rv, e⟩ := endsAt_line this.1 this.2 hE
    cases e
    have hst : Step (rev.reverse ++ [⟨true, .lineTo mx my⟩]) (rev.reverse ++ [mkAbs .close]) :=
      Step.close rev.reverse [] mx my (by simp) hs
    have hn' : NormHV (rev.reverse ++ [mkAbs .close]) := by
      rcases hst.n0 hn with h | h
      · simp at h
      · exact h
    obtain ⟨q, h1, h2⟩ := ih hn' hm hs
    exact ⟨q, h1, Relation.ReflTransGen.head hst h2⟩
  | case7 rev mx my c hc hE ih =>
    obtain ⟨q, h1, h2⟩ := ih (by simpa using hn) (by rw [List.reverse_cons]; exact absMove_append hm) (by
      have := remember_start (pen0.afterAll rev.reverse) c mx my (hn.abs c (by simp)) hs
      simpa using this)
    exact ⟨q, h1, by simpa using h2⟩
  | case8 rev mx my c t hc ht hcm hE => exact absurd hE (endsAt_isSome (hrevNo hn).1 (hne hm))
  | case9 rev mx my c t hc ht hcm hE ih =>
    obtain ⟨rv, rfl⟩ := endsAt_line (hrevNo hn).1 (hrevNo hn).2 hE
    rw [List.reverse_cons] at hm hs
    have hs' : (pen0.afterAll rv.reverse).start = (mx, my) := by
      rw [Pen.afterAll_append] at hs
      simpa [Pen.after, Pen.curve] using hs
    have hst : Step ((⟨true, .lineTo mx my⟩ :: rv).reverse ++ c :: t) (rv.reverse ++ mkAbs .close :: c :: t) := by
      have := Step.close rv.reverse (c :: t) mx my (fun u v e => by cases e; exact hcm) hs'
      simpa using this
    have hm' := absMove_pre (b := []) hm rfl
    have hn' : NormHV (rv.reverse ++ mkAbs .close :: c :: t) := by
      rcases hst.n0 hn with h | h
      · simp at h
      · exact h
    obtain ⟨q, h1, h2⟩ := ih (by simpa using hn') (by
      rw [List.tail_cons, List.reverse_cons]; exact absMove_append hm') (by
      simpa [Pen.after, mkAbs] using hs')
    exact ⟨q, h1, Relation.ReflTransGen.head hst (by simpa using h2)⟩
  | case10 rev mx my c t hc ht hcm hE ih =>
    obtain ⟨q, h1, h2⟩ := ih (by simpa using hn) (by rw [List.reverse_cons]; exact absMove_append hm) (by
      have := remember_start (pen0.afterAll rev.reverse) c mx my (hn.abs c (by simp)) hs
      simpa using this)
    exact ⟨q, h1, by simpa using h2⟩
  | case11 rev mx my c t hc ht hcm ih =>
    obtain ⟨q, h1, h2⟩ := ih (by simpa using hn) (by rw [List.reverse_cons]; exact absMove_append hm) (by
      have := remember_start (pen0.afterAll rev.reverse) c mx my (hn.abs c (by simp)) hs
      simpa using this)
    exact ⟨q, h1, by simpa using h2⟩

theorem processLZ_steps {p : Path} (h : N0 p) : ∃ q, processLZ p = some q ∧ Steps p q := by
  rcases h with rfl | h
  · exact ⟨[], rfl, .refl⟩
  · obtain ⟨x, y, t, rfl⟩ := h.move
    obtain ⟨q, h1, h2⟩ := processLZLoop_steps [⟨true, .moveTo x y⟩] t x y (by simpa using h) ⟨x, y, [], rfl⟩ rfl
    exact ⟨q, by simpa [processLZ, SegData.x?, SegData.y?] using h1, by simpa using h2⟩

theorem removeRound_steps {p : Path} (h : N0 p) : ∃ q, removeRound p = some q ∧ Steps p q := by
  have s3 : Steps p (removeMZ (removeZZ (removeMM p))) :=
    ((removeMM_steps p).trans (removeZZ_steps _)).trans (removeMZ_steps _)
  obtain ⟨q, h4, s4⟩ := processLZ_steps (s3.n0 h)
  have s5 := (s3.trans s4).trans (removeEqual_steps q)
  obtain ⟨r, h6, s6⟩ := removeZero_steps (Steps.n0 s5 h)
  exact ⟨r, by simp [removeRound, h4, h6], s5.trans s6⟩

/-- `remove_unused_segments` never panics, and its result is either made of steps, or is empty because one segment
was left after some steps. -/
theorem removeUnused_steps (p : Path) (h : N0 p) :
    ∃ q, removeUnused p = some q ∧ (Steps p q ∨ q = [] ∧ ∃ s, Steps p [s]) := by
  fun_induction removeUnused p with
  | case1 d h1 =>
    obtain ⟨s, rfl⟩ := List.length_eq_one_iff.1 h1
    exact ⟨[], rfl, .inr ⟨rfl, s, .refl⟩⟩
  | case2 d h1 h2 =>
    obtain ⟨q, e, _⟩ := removeRound_steps h
    rw [h2] at e; cases e
  | case3 d h1 h2 =>
    obtain ⟨q, e, hs⟩ := removeRound_steps h
    rw [h2] at e; cases e
    exact ⟨[], rfl, .inl hs⟩
  | case4 d h1 h2 h3 => exact ⟨_, rfl, .inl .refl⟩
  | case5 d h1 d' h2 h3 h4 h5 ih =>
    obtain ⟨q, e, hs⟩ := removeRound_steps h
    rw [h2] at e; cases e
    obtain ⟨q, g1, g2⟩ := ih (hs.n0 h)
    refine ⟨q, g1, ?_⟩
    rcases g2 with g2 | ⟨g2, s, g3⟩
    · exact .inl (hs.trans g2)
    · exact .inr ⟨g2, s, hs.trans g3⟩

/-! ### Each step keeps the outline -/

def SegData.needsCtrl : SegData → Bool | .smooth .. | .smoothQuad .. => true | _ => false

/-- Does a path (followed by something that starts with S or T if `ns`) start with S or T? -/
def startsSmooth (ns : Bool) : Path → Bool
  | [] => ns
  | s :: _ => s.data.needsCtrl

/-- No Bézier curve returns to its start point, and a line of zero length is not followed by S or T. -/
def PlainA (ns : Bool) (pen : Pen) : Path → Prop
  | [] => True
  | s :: t =>
    (∀ c k, pen.curve s = some (c, k) → c.src = c.fin →
      (c.degenerate = true) ∧ ((∃ p q, c = .line p q) → startsSmooth ns t = false)) ∧
    PlainA ns (pen.after s) t

theorem startsSmooth_append (ns : Bool) (a b : Path) :
    startsSmooth ns (a ++ b) = startsSmooth (startsSmooth ns b) a := by
  cases a <;> rfl

theorem plainA_append (ns : Bool) (pen : Pen) (a b : Path) :
    PlainA ns pen (a ++ b) ↔ PlainA (startsSmooth ns b) pen a ∧ PlainA ns (pen.afterAll a) b := by
  induction a generalizing pen with
  | nil => simp [PlainA]
  | cons s t ih =>
    simp only [List.cons_append, PlainA, ih, Pen.afterAll_cons, startsSmooth_append, and_assoc]

theorem plainA_mono {ns ns' : Bool} (h : ns' = true → ns = true) {pen : Pen} {a : Path} (hp : PlainA ns pen a) :
    PlainA ns' pen a := by
  induction a generalizing pen with
  | nil => trivial
  | cons s t ih =>
    refine ⟨fun c k hc he => ⟨(hp.1 c k hc he).1, fun hl => ?_⟩, ih hp.2⟩
    have := (hp.1 c k hc he).2 hl
    cases t with
    | nil =>
      simp only [startsSmooth] at this ⊢
      by_contra hh
      simp [h (by simpa using hh)] at this
    | cons u v => exact this

/-- Two pens between which the path `b` does not distinguish. -/
def SameFor (pen pen' : Pen) (b : Path) : Prop :=
  ∀ s t, b = s :: t → pen.events s = pen'.events s ∧ pen.after s = pen'.after s ∧ pen.curve s = pen'.curve s

theorem SameFor.run {pen pen' : Pen} {b : Path} (h : SameFor pen pen' b) : pen.run b = pen'.run b := by
  cases b with
  | nil => rfl
  | cons s t =>
    obtain ⟨h1, h2, _⟩ := h s t rfl
    simp [Pen.run, h1, h2]

theorem SameFor.plain {pen pen' : Pen} {b : Path} {ns : Bool} (h : SameFor pen pen' b) (hp : PlainA ns pen b) :
    PlainA ns pen' b := by
  cases b with
  | nil => trivial
  | cons s t =>
    obtain ⟨h1, h2, h3⟩ := h s t rfl
    exact ⟨by rw [← h3]; exact hp.1, by rw [← h2]; exact hp.2⟩

theorem sameFor_move {b : Path} (ha : AllAbs b) (h : ∀ s t, b = s :: t → s.data.isMove = true) (pen pen' : Pen) :
    SameFor pen pen' b := by
  intro s t e
  subst e
  have hm := h s t rfl
  have hs := ha.head
  obtain ⟨bb, d⟩ := s
  simp only at hs; subst hs
  cases d <;> simp [SegData.isMove] at hm
  simp [Pen.events, SegData.kind, Pen.after, Pen.curve, Pen.pt]

theorem sameFor_ctrl {b : Path} (hb : startsSmooth false b = false) (pen : Pen) (k k' : Ctrl) :
    SameFor { pen with ctrl := k } { pen with ctrl := k' } b := by
  intro s t e
  subst e
  simp only [startsSmooth] at hb
  obtain ⟨bb, d⟩ := s
  cases d <;> simp [SegData.needsCtrl] at hb <;> simp [Pen.events, SegData.kind, Pen.after, Pen.curve, Pen.pt]

theorem outlineFrom_congr {e e' : List Event} (h : ∀ acc, outlineFrom acc e = outlineFrom acc e') (pre : List Event) :
    ∀ acc, outlineFrom acc (pre ++ e) = outlineFrom acc (pre ++ e') := by
  induction pre with
  | nil => exact h
  | cons a t ih => intro acc; cases a <;> simp [outlineFrom, ih]

theorem outline_congr (a : Path) {b b' : Path}
    (h : ∀ acc, outlineFrom acc ((pen0.afterAll a).run b) = outlineFrom acc ((pen0.afterAll a).run b')) :
    outline (a ++ b) = outline (a ++ b') := by
  simp only [outline, trace_append]
  exact outlineFrom_congr h _ _

/-- Before a segment that is neither a MoveTo nor at the start of the path, the pen is not at a closepath. -/
theorem pen_open {a b : Path} {s : Seg} (hn : NormHV (a ++ s :: b)) (hs : s.data.isMove = false) :
    (pen0.afterAll a).closed = false := by
  rcases List.eq_nil_or_concat a with rfl | ⟨i, l, rfl⟩
  · rfl
  · rw [List.concat_eq_append] at hn ⊢
    rw [Pen.afterAll_append]
    show ((pen0.afterAll i).after l).closed = false
    rw [after_closed]
    by_contra h
    have : AfterZ (i ++ l :: s :: b) := by simpa using hn.afterZ
    have := afterZ_pair this (by simpa using h)
    rw [hs] at this
    cases this

theorem keep_nil : keep [] = [] := rfl

theorem Step.outline {p q : Path} (h : Step p q) (hn : NormHV p) (hp : PlainA false pen0 p) :
    outline q = outline p ∧ PlainA false pen0 q := by
  cases h with
  | mm a b s u hs hu =>
    have hsa : s.abs = true := hn.abs s (by simp)
    have hua : u.abs = true := hn.abs u (by simp)
    rw [plainA_append] at hp
    obtain ⟨bs, ds⟩ := s
    obtain ⟨bu, du⟩ := u
    simp only at hsa hua; subst hsa hua
    cases ds <;> simp [SegData.isMove] at hs
    cases du <;> simp [SegData.isMove] at hu
    constructor
    · apply outline_congr
      intro acc
      simp [Pen.run, Pen.events, SegData.kind, Pen.after, Pen.pt, outlineFrom, keep_nil]
    · rw [plainA_append]
      refine ⟨plainA_mono (by simp [startsSmooth, SegData.needsCtrl]) hp.1, ?_⟩
      have := hp.2.2
      simp only [PlainA, Pen.after, Pen.pt] at this ⊢
      exact ⟨by simp [Pen.curve], this.2⟩
  | zz a b s u hs hu =>
    exfalso
    have := afterZ_pair hn.afterZ hs
    rw [isMove_not_close this] at hu
    cases hu
  | mz a b s u hs hu =>
    have hsa : s.abs = true := hn.abs s (by simp)
    have hba : AllAbs b := fun v hv => hn.abs v (by simp [hv])
    have hbm : ∀ v w, b = v :: w → v.data.isMove = true := by
      intro v w e
      subst e
      have : AfterZ ((a ++ [s]) ++ u :: v :: w) := by simpa using hn.afterZ
      exact afterZ_pair this hu
    have hbs : startsSmooth false b = false := by
      cases b with
      | nil => rfl
      | cons v w =>
        have := hbm v w rfl
        simp only [startsSmooth]
        obtain ⟨vb, vd⟩ := v
        cases vd <;> simp_all [SegData.isMove, SegData.needsCtrl]
    rw [plainA_append] at hp
    obtain ⟨bs, ds⟩ := s
    obtain ⟨bu, du⟩ := u
    simp only at hsa; subst hsa
    cases ds <;> simp [SegData.isMove] at hs
    cases du <;> simp [SegData.isClose] at hu
    rename_i x y
    constructor
    · apply outline_congr
      intro acc
      rw [(sameFor_move hba hbm (pen0.afterAll a) (((pen0.afterAll a).after ⟨true, .moveTo x y⟩).after ⟨bu, .close⟩)).run]
      simp only [Pen.run, Pen.events, SegData.kind, Pen.after, Pen.pt]
      cases b with
      | nil => simp [outlineFrom, keep_nil, Pen.run]
      | cons v w =>
        have hva := hba.head
        have hvm := hbm v w rfl
        obtain ⟨vb, vd⟩ := v
        simp only at hva; subst hva
        cases vd <;> simp [SegData.isMove] at hvm
        simp [outlineFrom, keep_nil, Pen.run, Pen.events, SegData.kind]
    · rw [plainA_append]
      refine ⟨plainA_mono (by simp [hbs]) hp.1, ?_⟩
      exact (sameFor_move hba hbm _ _).plain hp.2.2.2
  | lz a b x y u hu he =>
    have hcl := pen_open hn rfl
    rw [plainA_append] at hp
    obtain ⟨bu, du⟩ := u
    cases du <;> simp [SegData.isClose] at hu
    constructor
    · apply outline_congr
      intro acc
      generalize pen0.afterAll a = P at *
      obtain ⟨cur, st, k, cl⟩ := P
      simp only at hcl he
      subst hcl he
      simp [Pen.run, Pen.events, SegData.kind, Pen.after, Pen.pt, Pen.curve, outlineFrom, Curve.degenerate, Curve.fin]
    · rw [plainA_append]
      refine ⟨plainA_mono (by simp [startsSmooth, SegData.needsCtrl]) hp.1, ?_⟩
      have := hp.2.2
      simp only [PlainA] at this ⊢
      refine ⟨by simp [Pen.curve], ?_⟩
      have e : ((pen0.afterAll a).after ⟨true, .lineTo x y⟩).after ⟨bu, .close⟩ =
          (pen0.afterAll a).after ⟨bu, .close⟩ := by simp [Pen.after, Pen.curve]
      rw [← e]; exact this.2
  | close a b x y hb he =>
    have hcl := pen_open hn rfl
    have hba : AllAbs b := fun v hv => hn.abs v (by simp [hv])
    rw [plainA_append] at hp
    have hsame := sameFor_move hba hb ((pen0.afterAll a).after ⟨true, .lineTo x y⟩)
      ((pen0.afterAll a).after (mkAbs .close))
    constructor
    · apply outline_congr
      intro acc
      simp only [Pen.run]
      rw [hsame.run]
      generalize pen0.afterAll a = P at *
      obtain ⟨cur, st, k, cl⟩ := P
      simp only at hcl he
      subst hcl he
      simp [Pen.events, SegData.kind, mkAbs, Pen.pt, Pen.curve, outlineFrom, Curve.degenerate]
    · rw [plainA_append]
      refine ⟨plainA_mono (by simp [startsSmooth, SegData.needsCtrl, mkAbs]) hp.1, ?_⟩
      exact ⟨by simp [Pen.curve, mkAbs], hsame.plain hp.2.2⟩
  | eq a b s =>
    have hsa : s.abs = true := hn.abs s (by simp)
    have hsn := hn.noHV s (by simp)
    have hz := afterZ_pair hn.afterZ
    rw [plainA_append] at hp
    obtain ⟨bs, ds⟩ := s
    simp only at hsa; subst hsa
    have hcurve : ∀ c k, ((pen0.afterAll a).after ⟨true, ds⟩).curve ⟨true, ds⟩ = some (c, k) →
        c.src = c.fin ∧ c.degenerate = true := by
      intro c k hc
      have hsf : c.src = c.fin := by
        cases ds <;> simp [Pen.curve, SegData.isClose, SegData.x?, SegData.y?] at hc hsn <;> obtain ⟨rfl, rfl⟩ := hc <;>
          simp [Curve.src, Curve.fin, Pen.after, Pen.curve, Pen.pt]
      exact ⟨hsf, (hp.2.2.1 c k hc hsf).1⟩
    cases ds <;> simp [SegData.isClose, SegData.x?, SegData.y?, SegData.isMove] at hz hsn
    case moveTo x y =>
      constructor
      · apply outline_congr
        intro acc
        simp [Pen.run, Pen.events, SegData.kind, Pen.after, Pen.pt, outlineFrom, keep_nil]
      · rw [plainA_append]
        refine ⟨plainA_mono (by simp [startsSmooth, SegData.needsCtrl]) hp.1, ?_⟩
        exact hp.2.2
    case lineTo x y =>
      have hcl := pen_open hn rfl
      constructor
      · apply outline_congr
        intro acc
        simp [Pen.run, Pen.events, SegData.kind, Pen.after, Pen.pt, Pen.curve, outlineFrom, Curve.degenerate, Curve.fin, hcl]
      · rw [plainA_append]
        refine ⟨plainA_mono (by simp [startsSmooth, SegData.needsCtrl]) hp.1, ?_, hp.2.2.2⟩
        intro c k hc he
        have := hp.2.1 c k hc he
        refine ⟨this.1, fun _ => ?_⟩
        exact (hp.2.2.1 _ _ rfl (by simp [Curve.src, Curve.fin, Pen.after, Pen.curve, Pen.pt])).2 ⟨_, _, rfl⟩
    case arc rx ry rot l sw x y =>
      have hcl := pen_open hn rfl
      constructor
      · apply outline_congr
        intro acc
        simp [Pen.run, Pen.events, SegData.kind, Pen.after, Pen.pt, Pen.curve, outlineFrom, Curve.degenerate, Curve.fin, hcl]
      · rw [plainA_append]
        refine ⟨plainA_mono (by simp [startsSmooth, SegData.needsCtrl]) hp.1, ?_, hp.2.2.2⟩
        intro c k hc he
        have := hp.2.1 c k hc he
        refine ⟨this.1, ?_⟩
        rintro ⟨p, q, rfl⟩
        simp [Pen.curve] at hc
    all_goals
      have := (hcurve _ _ rfl).2
      simp [Curve.degenerate] at this
  | zero a b x y he =>
    have hcl := pen_open hn rfl
    rw [plainA_append] at hp
    have hz := (hp.2.1 (.line (pen0.afterAll a).cur (x, y)) .none rfl (by simp [Curve.src, Curve.fin, he])).2
      ⟨_, _, rfl⟩
    have hsame : SameFor ((pen0.afterAll a).after ⟨true, .lineTo x y⟩) (pen0.afterAll a) b := by
      have := sameFor_ctrl hz (pen0.afterAll a) .none (pen0.afterAll a).ctrl
      have e : (pen0.afterAll a).after ⟨true, .lineTo x y⟩ = { pen0.afterAll a with ctrl := .none } := by
        simp [Pen.after, Pen.curve, Pen.pt, Curve.fin, he, hcl]
      rw [e]; exact this
    constructor
    · apply outline_congr
      intro acc
      simp only [Pen.run]
      rw [hsame.run]
      simp [Pen.events, SegData.kind, Pen.curve, Pen.pt, outlineFrom, Curve.degenerate, he, hcl]
    · rw [plainA_append]
      refine ⟨plainA_mono (by simp [hz]) hp.1, ?_⟩
      exact hsame.plain hp.2.2

theorem Steps.outline {p q : Path} (h : Steps p q) (hn : N0 p) (hp : PlainA false pen0 p) :
    outline q = outline p ∧ PlainA false pen0 q := by
  induction h with
  | refl => exact ⟨rfl, hp⟩
  | tail h1 h2 ih =>
    rcases Steps.n0 h1 hn with rfl | hn'
    · exfalso
      generalize hx : ([] : Path) = e at h2
      cases h2 <;> simp at hx
    · obtain ⟨g1, g2⟩ := h2.outline hn' ih.2
      exact ⟨g1.trans ih.1, g2⟩

theorem removeUnused_outline {p : Path} (hn : N0 p) (hp : PlainA false pen0 p) :
    ∃ q, removeUnused p = some q ∧ outline q = outline p ∧ N0 q := by
  obtain ⟨q, h1, h2⟩ := removeUnused_steps p hn
  refine ⟨q, h1, ?_⟩
  rcases h2 with h2 | ⟨rfl, s, h2⟩
  · exact ⟨(Steps.outline h2 hn hp).1, Steps.n0 h2 hn⟩
  · refine ⟨?_, .inl rfl⟩
    rw [← (Steps.outline h2 hn hp).1]
    rcases Steps.n0 h2 hn with h | h
    · cases h
    · obtain ⟨x, y, t, e⟩ := h.move
      cases e
      rfl

end Verif.Paths
