import Verif.RegroupSteps
/-
Property C40, third part: the loops of the pass.
-/
namespace Verif.Regroup
open Verif.Dom Verif.Spec
open Verif.UnusedDefs (kidsOf_subs node_of_subs)
open Verif.Merge (isGradient_kind written_none)
open Verif.GroupStyle (freshKey)

/-- Ids are given once. -/
def IdsUnique (f : Forest) : Prop := ∀ x ∈ f.nodes, ∀ y ∈ f.nodes, x.id ≠ "" → x.id = y.id → x.key = y.key

/-- What is kept by each step. -/
structure Core (f0 f : Forest) : Prop where
  good : Good f
  drawn : drawn f = drawn f0
  paint : ∀ n ∈ f0.nodes, n.isGradient = true → ∃ m ∈ f.nodes, m.key = n.key ∧ m.id = n.id ∧ m.isGradient = true ∧ PaintSame f0 n f m
  others : ∀ n ∈ f.nodes, n.isGradient = false → n ∈ f0.nodes
  stay : ∀ n ∈ f0.nodes, n.isGradient = false → ¬ InGradient f0 n → n ∈ f.nodes ∧ ¬ InGradient f n
  news : ∀ m ∈ f.nodes, m.isGradient = true → (∃ n ∈ f0.nodes, n.isGradient = true ∧ n.key = m.key ∧ n.id = m.id) ∨
    (m.id ≠ "" ∧ ∀ x ∈ f.nodes, x.id = m.id → x.key = m.key)
  ids : IdsUnique f0 → IdsUnique f

theorem paint_refl {f : Forest} (hf : Good f) {n : Node} (hn : n ∈ f.nodes) (hg : n.isGradient = true) : PaintSame f n f n := by
  obtain ⟨rank, hr⟩ := hf.href
  refine paint_of_effective rfl (fun a _ => ?_) hg ?_
  · obtain ⟨v, hv⟩ := effective_total hf.unique hr a hn hg
    exact ⟨v, hv, hv⟩
  · obtain ⟨l, hl⟩ := gstops_total hf.unique hr hn hg
    exact ⟨l, l, hl, hl, Merge.stops_refl hf.plain (Merge.gstops_mem hl)⟩

theorem Good.core {f : Forest} (hf : Good f) : Core f f where
  good := hf
  drawn := rfl
  paint n hn hg := ⟨n, hn, rfl, rfl, hg, paint_refl hf hn hg⟩
  others _ h _ := h
  stay _ h _ hi := ⟨h, hi⟩
  news m hm hg := .inl ⟨m, hm, hg, rfl, rfl⟩
  ids h := h

theorem Core.step {f0 f g : Forest} (h : Core f0 f) {n m : Node} (r : Relink f g n m) (hd : Spec.drawn g = Spec.drawn f)
    (hid : m ∈ f.nodes ∨ (m.id ≠ "" ∧ ∀ x ∈ f.nodes, x.id ≠ m.id)) : Core f0 g := by
  have hf := h.good
  have plain : ∀ x ∈ f.nodes, x.isGradient = false → point n m.key x = x := by
    intro x hx hg
    refine point_ne fun e => ?_
    rw [Forest.eq_of_key hf.unique hx r.mem e, r.grad] at hg
    cases hg
  have ing : ∀ x, InGradient g x → InGradient f x := by
    rintro x ⟨y, hy, hg, hx⟩
    rcases re_inside hf r hy hg with e | ⟨z, hz, hzg⟩
    · rw [e] at hx; simp at hx
    · exact ⟨_, hz, hzg, hx⟩
  refine ⟨re_good hf r, hd.trans h.drawn, ?_, ?_, ?_, ?_, ?_⟩
  · intro x hx hg
    obtain ⟨y, hy, e1, e2, hyg, hp⟩ := h.paint x hx hg
    exact ⟨_, r.keep y hy (hf.outside hyg), (point_key ..).trans e1, (point_id ..).trans e2, (point_gradient ..).trans hyg, hp.trans (re_paint hf r hy hyg)⟩
  · intro y hy hg
    rcases r.back y hy with rfl | ⟨x, hx, rfl⟩
    · rw [r.mgrad] at hg; cases hg
    · rw [point_gradient] at hg
      rw [plain x hx hg]
      exact h.others x hx hg
  · intro x hx hg hi
    obtain ⟨h1, h2⟩ := h.stay x hx hg hi
    have := r.keep x h1 h2
    rw [plain x h1 hg] at this
    exact ⟨this, fun hc => h2 (ing x hc)⟩
  · intro y hy hg
    rcases r.back y hy with rfl | ⟨x, hx, rfl⟩
    · rcases hid with hm | ⟨hm1, hm2⟩
      · rcases h.news y hm hg with h' | ⟨h1, h2⟩
        · exact .inl h'
        · refine .inr ⟨h1, fun z hz e => ?_⟩
          rcases r.back z hz with rfl | ⟨x, hx, rfl⟩
          · rfl
          · rw [point_id] at e; rw [point_key]; exact h2 x hx e
      · refine .inr ⟨hm1, fun z hz e => ?_⟩
        rcases r.back z hz with rfl | ⟨x, hx, rfl⟩
        · rfl
        · rw [point_id] at e; exact absurd e (hm2 x hx)
    · rw [point_gradient] at hg
      rw [point_id, point_key]
      rcases h.news x hx hg with h' | ⟨h1, h2⟩
      · exact .inl h'
      · refine .inr ⟨h1, fun z hz e => ?_⟩
        rcases r.back z hz with rfl | ⟨w, hw, rfl⟩
        · rcases hid with hm | ⟨hm1, hm2⟩
          · exact h2 z hm e
          · exact absurd e.symm (hm2 x hx)
        · rw [point_id] at e; rw [point_key]; exact h2 w hw e
  · intro h0 y hy z hz hne e
    have hu := h.ids h0
    rcases r.back y hy with rfl | ⟨x, hx, rfl⟩ <;> rcases r.back z hz with rfl | ⟨w, hw, rfl⟩
    · rfl
    · rw [point_id] at e; rw [point_key]
      rcases hid with hm | ⟨hm1, hm2⟩
      · exact hu y hm w hw hne e
      · exact absurd e.symm (hm2 w hw)
    · rw [point_id] at e hne; rw [point_key]
      rcases hid with hm | ⟨hm1, hm2⟩
      · exact hu x hx z hm hne e
      · exact absurd e (hm2 x hx)
    · rw [point_id, point_id] at e; rw [point_id] at hne; rw [point_key, point_key]
      exact hu x hx w hw hne e

/-- The other gradients stay as they are. -/
structure Frame (f g : Forest) (m : Node) (S : List Nat) : Prop where
  stay : ∀ x ∈ f.nodes, x.isGradient = true → x.key ∉ S → x ∈ g.nodes ∧ g.kidsOf x.key = f.kidsOf x.key
  cand : ∀ y, Cand g y → y = m ∨ (Cand f y ∧ y.key ∉ S ∧ g.kidsOf y.key = f.kidsOf y.key)

theorem Frame.refl (f : Forest) (m : Node) : Frame f f m [] := ⟨fun _ h _ _ => ⟨h, rfl⟩, fun _ h => .inr ⟨h, by simp, rfl⟩⟩

theorem Frame.of_relink {f g : Forest} (hf : Good f) {n m : Node} (r : Relink f g n m) : Frame f g m [n.key] := by
  constructor
  · intro x hx hg hn
    have hn : x.key ≠ n.key := by simpa using hn
    have := r.keep x hx (hf.outside hg)
    rw [point_ne hn] at this
    exact ⟨this, r.same x hx hg hn⟩
  · intro y hy
    rcases r.back y hy.mem with e | ⟨x, hx, rfl⟩
    · exact .inl e
    · by_cases e : x.key = n.key
      · have := hy.free
        unfold point at this
        rw [if_pos e, ApplyTs.get_set, if_pos rfl] at this
        cases this
      · rw [point_ne e] at hy ⊢
        have hk := r.same x hx hy.grad e
        obtain ⟨c, hc, hct⟩ := hy.kids
        exact .inr ⟨⟨hx, hy.grad, hy.free, c, hk ▸ hc, hct⟩, by simpa using e, hk⟩

theorem Frame.trans {f g h : Forest} {m : Node} {S T : List Nat} (h1 : Frame f g m S) (h2 : Frame g h m T) : Frame f h m (S ++ T) := by
  constructor
  · intro x hx hg hn
    simp only [List.mem_append, not_or] at hn
    obtain ⟨a1, a2⟩ := h1.stay x hx hg hn.1
    obtain ⟨b1, b2⟩ := h2.stay x a1 hg hn.2
    exact ⟨b1, b2.trans a2⟩
  · intro y hy
    rcases h2.cand y hy with e | ⟨a1, a2, a3⟩
    · exact .inl e
    · rcases h1.cand y a1 with e | ⟨b1, b2, b3⟩
      · exact .inl e
      · exact .inr ⟨b1, by simp [a2, b2], a3.trans b3⟩

theorem Frame.cand_stay {f g : Forest} {m : Node} {S : List Nat} (h : Frame f g m S) {n : Node} (hn : Cand f n) (hk : n.key ∉ S) : Cand g n := by
  obtain ⟨h1, h2⟩ := h.stay n hn.mem hn.grad hk
  obtain ⟨c, hc, ht⟩ := hn.kids
  exact ⟨h1, hn.grad, hn.free, c, h2.trans hc, ht⟩

theorem sameStop_symm {s t : Node} (h : Dupl.sameStop s t = true) : Dupl.sameStop t s = true := by
  simp only [Dupl.sameStop, Bool.and_eq_true, decide_eq_true_eq] at h ⊢
  exact ⟨⟨h.1.1.symm, h.1.2.symm⟩, h.2.symm⟩

theorem forall_symm {l l' : List Node} (h : List.Forall₂ (fun s t => Dupl.sameStop s t = true) l l') :
    List.Forall₂ (fun s t => Dupl.sameStop s t = true) l' l := by
  induction h with
  | nil => exact .nil
  | cons a _ ih => exact .cons (sameStop_symm a) ih

/-- What a step does: a new gradient is made, or the children of a gradient are removed. -/
def Act (f : Forest) (n m : Node) (g : Forest) : Prop :=
  (∃ key id, m = newNode key id ∧ g = split n.key key id f) ∨ g = (f.setKids n.key .nil).map (point n m.key)

theorem joins_ok {P : Forest → Prop} (hP : ∀ {f g : Forest} {n m : Node}, Good f → Relink f g n m → Act f n m g → P f → P g)
    {f0 f : Forest} (h : Core f0 f) (hp : P f) {m : Node} (hm : m ∈ f.nodes) (hmg : m.isGradient = true) (hb : m.attrs = []) {c' : Forest}
    (hc' : f.kidsOf m.key = some c') {js : List Nat} (hnd : js.Nodup)
    (hj : ∀ j ∈ js, ∃ n c, n.key = j ∧ Cand f n ∧ n.key ≠ m.key ∧ f.kidsOf j = some c ∧ List.Forall₂ (fun s t => Dupl.sameStop s t = true) c.top c'.top) :
    joinAll m.key js f = some (js.foldl (join m.key) f) ∧ Core f0 (js.foldl (join m.key) f) ∧ Frame f (js.foldl (join m.key) f) m js ∧
      P (js.foldl (join m.key) f) := by
  induction js generalizing f with
  | nil => exact ⟨rfl, h, Frame.refl f m, hp⟩
  | cons j js ih =>
    obtain ⟨n, c, rfl, hn, hne, hc, hs⟩ := hj j (by simp)
    obtain ⟨r, he, hd, hk⟩ := join_ok h.good hn hm hmg hb hne hc hc' hs
    have fr := Frame.of_relink h.good r
    obtain ⟨h0, h1, h2, h3⟩ := ih (h.step r hd (.inl hm)) (hP h.good r (.inr he) hp) r.there hk (List.nodup_cons.1 hnd).2 (fun j' hj' => by
      obtain ⟨n', c1, rfl, hn', hne', hc1, hs1⟩ := hj j' (by simp [hj'])
      have hnn : n'.key ∉ [n.key] := by
        intro e
        rw [List.mem_singleton] at e
        exact (List.nodup_cons.1 hnd).1 (e ▸ hj')
      exact ⟨n', c1, rfl, fr.cand_stay hn' hnn, hne', (fr.stay n' hn'.mem hn'.grad hnn).2.trans hc1, hs1⟩)
    refine ⟨?_, h1, fr.trans h2, h3⟩
    rw [joinAll, if_neg, h0]
    · rfl
    · unfold encloses
      rw [hc]
      simpa using h.good.inside hn.mem hn.grad hc hm hmg

theorem fresh_key (f : Forest) : freshKey f ∉ f.keys := by
  intro h
  obtain ⟨n, hn, e⟩ := Forest.mem_keys.1 h
  have : n.key ∈ f.nodes.flatMap fun n => n.key :: n.links := List.mem_flatMap.2 ⟨n, hn, by simp⟩
  have := GroupStyle.le_foldr_max this
  unfold freshKey at e
  omega

theorem alike_iff {f : Forest} {j k : Nat} : alike f j k = true ↔ ∃ c d, f.kidsOf j = some c ∧ f.kidsOf k = some d ∧
    List.Forall₂ (fun s t => Dupl.sameStop s t = true) c.top d.top := by
  unfold alike
  constructor
  · intro h
    split at h
    next c d h1 h2 => exact ⟨c, d, h1, h2, Dupl.equalStops_forall h⟩
    · cases h
  · rintro ⟨c, d, h1, h2, h3⟩
    rw [h1, h2]
    simp only [Dupl.equalStops, Bool.and_eq_true, decide_eq_true_eq]
    generalize c.top = l, d.top = l' at h3
    induction h3 with
    | nil => exact ⟨rfl, rfl⟩
    | cons a _ ih => exact ⟨by simp [ih.1], by simp [a, ih.2]⟩

theorem alike_symm {f : Forest} {j k : Nat} (h : alike f j k = true) : alike f k j = true := by
  obtain ⟨c, d, h1, h2, h3⟩ := alike_iff.1 h
  exact alike_iff.2 ⟨d, c, h2, h1, forall_symm h3⟩

theorem alike_congr {f g : Forest} {j k j' k' : Nat} (h1 : g.kidsOf j = f.kidsOf j') (h2 : g.kidsOf k = f.kidsOf k') : alike g j k = alike f j' k' := by
  unfold alike; rw [h1, h2]

theorem groupOne_ok {P : Forest → Prop} (hP : ∀ {f g : Forest} {n m : Node}, Good f → Relink f g n m → Act f n m g → P f → P g)
    {f0 f : Forest} (h : Core f0 f) (hp : P f) {n : Node} (hn : Cand f n) {js : List Nat} (hnd : (n.key :: js).Nodup)
    (hj : ∀ j ∈ js, (∃ n, n.key = j ∧ Cand f n) ∧ alike f n.key j = true) :
    ∃ g m, groupOne n.key js f = some g ∧ Core f0 g ∧ Frame f g m (n.key :: js) ∧ m.key ∉ f.keys ∧ g.kidsOf m.key = f.kidsOf n.key ∧ P g := by
  obtain ⟨i, _, hid, hfresh, _⟩ := GenId.C41_fresh f "lg"
  have hk := fresh_key f
  obtain ⟨r, _, hd, hkids⟩ := split_ok h.good hn hk ("lg" ++ toString i)
  have fr := Frame.of_relink h.good r
  obtain ⟨c0, hc0, _⟩ := hn.kids
  have hmk : (newNode (freshKey f) ("lg" ++ toString i)).key = freshKey f := rfl
  obtain ⟨h0, h1, h2, h3⟩ := joins_ok hP (h.step r hd (.inr ⟨by
      intro e
      have := congrArg String.length e
      rw [show (newNode (freshKey f) ("lg" ++ toString i)).id = "lg" ++ toString i from rfl, String.length_append] at this
      simp at this, fun x hx => hfresh x hx⟩)) (hP h.good r (.inl ⟨_, _, rfl, rfl⟩) hp) r.there rfl rfl (c' := c0) (hkids.trans hc0) (List.nodup_cons.1 hnd).2 (fun j hj' => by
    obtain ⟨⟨n', rfl, hn'⟩, ha⟩ := hj j hj'
    obtain ⟨c, d, e1, e2, e3⟩ := alike_iff.1 ha
    have hnn : n'.key ∉ [n.key] := by
      intro e
      rw [List.mem_singleton] at e
      exact (List.nodup_cons.1 hnd).1 (e ▸ hj')
    rw [hc0] at e1
    cases e1
    exact ⟨n', d, rfl, fr.cand_stay hn' hnn, fun e => hk (hmk ▸ e ▸ Forest.key_mem hn'.mem), (fr.stay n' hn'.mem hn'.grad hnn).2.trans e2, forall_symm e3⟩)
  refine ⟨_, _, by unfold groupOne; rw [hid]; exact h0, h1, fr.trans h2, hk, ?_, h3⟩
  exact ((h2.stay _ r.there rfl fun hc => by
    obtain ⟨⟨n', e, hn'⟩, _⟩ := hj _ hc
    exact hk (hmk ▸ e ▸ Forest.key_mem hn'.mem)).2).trans hkids

/-- What is known when the gradients `ks` have still to be looked at. -/
structure Walk (f0 f : Forest) (ks : List Nat) : Prop where
  core : Core f0 f
  nodup : ks.Nodup
  cand : ∀ k ∈ ks, ∃ n, n.key = k ∧ Cand f n
  pairs : ∀ x y, Cand f x → Cand f y → alike f x.key y.key = true → x.key = y.key ∨ (x.key ∈ ks ∧ y.key ∈ ks)

theorem loop_ok {P : Forest → Prop} (hP : ∀ {f g : Forest} {n m : Node}, Good f → Relink f g n m → Act f n m g → P f → P g)
    {f0 : Forest} {fuel : Nat} {ks : List Nat} {f : Forest} (h : Walk f0 f ks) (hp : P f) (hf : ks.length ≤ fuel) :
    ∃ r, regroupLoop fuel ks f = some r ∧ Walk f0 r.1 [] ∧ P r.1 := by
  induction fuel generalizing ks f with
  | zero =>
    have : ks = [] := by simpa using hf
    subst this
    exact ⟨_, rfl, h, hp⟩
  | succ fuel ih =>
    cases ks with
    | nil => exact ⟨_, rfl, h, hp⟩
    | cons k ks =>
      rw [regroupLoop]
      obtain ⟨n, rfl, hn⟩ := h.cand k (by simp)
      have hnd := List.nodup_cons.1 h.nodup
      by_cases he : (ks.filter (alike f n.key)).isEmpty = true
      · rw [if_pos he]
        refine ih ⟨h.core, hnd.2, fun j hj => h.cand j (by simp [hj]), fun x y hx hy ha => ?_⟩ hp (by simpa using hf)
        have hno : ∀ j ∈ ks, alike f n.key j = true → False := by
          intro j hj h'
          have : j ∈ ks.filter (alike f n.key) := List.mem_filter.2 ⟨hj, h'⟩
          rw [List.isEmpty_iff.1 he] at this
          cases this
        rcases h.pairs x y hx hy ha with e | ⟨h1, h2⟩
        · exact .inl e
        · rcases List.mem_cons.1 h1 with e1 | h1 <;> rcases List.mem_cons.1 h2 with e2 | h2
          · exact .inl (e1.trans e2.symm)
          · rw [e1] at ha; exact (hno _ h2 ha).elim
          · rw [e2] at ha; exact (hno _ h1 (alike_symm ha)).elim
          · exact .inr ⟨h1, h2⟩
      · rw [if_neg he]
        obtain ⟨g, m, hg, hcore, fr, hmk, hmkids, hpg⟩ := groupOne_ok hP h.core hp hn (js := ks.filter (alike f n.key))
          (List.nodup_cons.2 ⟨fun hc => hnd.1 (List.mem_filter.1 hc).1, hnd.2.filter _⟩)
          (fun j hj => ⟨h.cand j (by simp [(List.mem_filter.1 hj).1]), (List.mem_filter.1 hj).2⟩)
        rw [hg, Option.bind_some]
        have hrest : ∀ j ∈ ks.filter (fun j => !alike f n.key j), j ∉ n.key :: ks.filter (alike f n.key) := by
          intro j hj hc
          obtain ⟨h1, h2⟩ := List.mem_filter.1 hj
          rcases List.mem_cons.1 hc with rfl | hc
          · exact hnd.1 h1
          · rw [(List.mem_filter.1 hc).2] at h2; cases h2
        have mgone : ∀ y, Cand f y → y.key ∉ n.key :: ks.filter (alike f n.key) → y.key ∈ n.key :: ks → y.key ∈ ks.filter fun j => !alike f n.key j := by
          intro y _ h1 h2
          simp only [List.mem_cons, List.mem_filter, not_or, not_and] at h1 h2 ⊢
          rcases h2 with h2 | h2
          · exact absurd h2 h1.1
          · exact ⟨h2, by simpa using h1.2 h2⟩
        have mm : ∀ y, Cand f y → y.key ∉ n.key :: ks.filter (alike f n.key) → alike f n.key y.key = true → False := by
          intro y hy h1 ha
          rcases h.pairs n y hn hy ha with e | ⟨_, h2⟩
          · exact h1 (by simp [e])
          · rcases List.mem_cons.1 h2 with e | h2
            · exact h1 (by simp [e])
            · exact h1 (List.mem_cons_of_mem _ (List.mem_filter.2 ⟨h2, ha⟩))
        obtain ⟨r, h1, h2, h3⟩ := ih (ks := ks.filter fun j => !alike f n.key j) (f := g) ⟨hcore, hnd.2.filter _, fun j hj => by
            obtain ⟨n', rfl, hn'⟩ := h.cand j (by simp [(List.mem_filter.1 hj).1])
            exact ⟨n', rfl, fr.cand_stay hn' (hrest _ hj)⟩, fun x y hx hy ha => by
            rcases fr.cand x hx with rfl | ⟨x1, x2, x3⟩ <;> rcases fr.cand y hy with rfl | ⟨y1, y2, y3⟩
            · exact .inl rfl
            · rw [alike_congr hmkids y3] at ha
              exact (mm y y1 y2 ha).elim
            · rw [alike_congr x3 hmkids] at ha
              exact (mm x x1 x2 (alike_symm ha)).elim
            · rw [alike_congr x3 y3] at ha
              rcases h.pairs x y x1 y1 ha with e | ⟨p1, p2⟩
              · exact .inl e
              · exact .inr ⟨mgone x x1 x2 p1, mgone y y1 y2 p2⟩⟩ hpg
          (by
            have := List.length_filter_le (fun j => !alike f n.key j) ks
            simp only [List.length_cons] at hf
            omega)
        exact ⟨(r.1, true), by rw [h1]; rfl, h2, h3⟩

theorem mem_candidates {f : Forest} (hu : f.UniqueKeys) {k : Nat} : k ∈ candidates f ↔ ∃ n, n.key = k ∧ Cand f n := by
  unfold candidates
  simp only [List.mem_map, List.mem_filter, Bool.and_eq_true, Bool.not_eq_true']
  have top : ∀ {c : Forest}, c.isEmpty = false ↔ c.top ≠ [] := by
    intro c; cases c <;> simp [Forest.isEmpty, Forest.top]
  have has : ∀ {n : Node}, n.has .xlinkHref = false ↔ n.get .xlinkHref = none := by
    intro n; unfold Node.has Node.get
    cases getAttr n.attrs (.id .xlinkHref) <;> simp
  constructor
  · rintro ⟨x, ⟨hx, ⟨h1, h2⟩, h3⟩, rfl⟩
    exact ⟨x.1, rfl, node_of_subs hx, h1, has.1 h3, x.2, kidsOf_subs hu hx, top.1 h2⟩
  · rintro ⟨n, rfl, hn⟩
    obtain ⟨c, hc, ht⟩ := hn.kids
    obtain ⟨y, e, hy⟩ := UnusedDefs.subs_kidsOf hc
    have := Forest.eq_of_key hu (node_of_subs hy) hn.mem e
    dsimp only at this
    subst this
    exact ⟨_, ⟨hy, ⟨hn.grad, top.2 ht⟩, has.2 hn.free⟩, rfl⟩

theorem Good.walk {f : Forest} (hf : Good f) : Walk f f (candidates f) where
  core := hf.core
  nodup := by
    have h1 : ((subs f).map fun x => x.1.key).Nodup := by
      have := hf.unique
      rw [Forest.UniqueKeys, ← Stops.subs_keys] at this
      exact this
    exact h1.sublist (List.Sublist.map _ List.filter_sublist)
  cand k hk := (mem_candidates hf.unique).1 hk
  pairs x y hx hy _ := .inr ⟨(mem_candidates hf.unique).2 ⟨x, rfl, hx⟩, (mem_candidates hf.unique).2 ⟨y, rfl, hy⟩⟩

end Verif.Regroup
