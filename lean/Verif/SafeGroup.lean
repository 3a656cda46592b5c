import Verif.SafeUngroup
import Verif.SafeMoves
import Verif.GroupStyleCases
/-
C22 and C55 for `group_by_style`.
-/
namespace Verif.Spec
open Verif.Dom
open Verif.GroupStyle
open Verif.Needless (rmAll)
open Verif.Render (LinksIn)

/-- The marks of all nodes. -/
def marks (f : Forest) : List (Nat × String × Option Kind) := f.nodes.map mark

theorem marks_nil : marks .nil = [] := rfl
theorem marks_cons (n : Node) (k r : Forest) : marks (.cons n k r) = mark n :: (marks k ++ marks r) := by simp [marks, Forest.nodes]
theorem marks_append (f g : Forest) : marks (f ++ g) = marks f ++ marks g := by simp [marks, Forest.nodes_append]

/-- The mark of a new element. -/
def newMark (k : Nat) : Nat × String × Option Kind := (k, "", none)

/-- All old nodes and new elements without ids, whose keys are in a range. -/
def Adds (a b : Nat) (l l' : List (Nat × String × Option Kind)) : Prop :=
  ∃ ks : List Nat, ks.Nodup ∧ (∀ k ∈ ks, a ≤ k ∧ k < b) ∧ l'.Perm (l ++ ks.map newMark)

theorem Adds.refl (a b : Nat) (l : List (Nat × String × Option Kind)) : Adds a b l l := ⟨[], List.nodup_nil, by simp, by simp⟩

theorem Adds.trans {a b c : Nat} {l l' l'' : List (Nat × String × Option Kind)} (h1 : Adds a b l l') (h2 : Adds b c l' l'') (hab : a ≤ b) (hbc : b ≤ c) :
    Adds a c l l'' := by
  obtain ⟨ks, n1, b1, p1⟩ := h1
  obtain ⟨ks', n2, b2, p2⟩ := h2
  refine ⟨ks ++ ks', List.nodup_append.2 ⟨n1, n2, fun x hx y hy e => ?_⟩, ?_, ?_⟩
  · have := b1 x hx; have := b2 y hy; omega
  · intro k hk
    rcases List.mem_append.1 hk with hk | hk
    · have := b1 k hk; omega
    · have := b2 k hk; omega
  · rw [List.map_append, ← List.append_assoc]
    exact p2.trans (p1.append_right _)

theorem Adds.perm {a b : Nat} {l l' m m' : List (Nat × String × Option Kind)} (h : Adds a b l l') (p : m.Perm l) (p' : m'.Perm l') : Adds a b m m' := by
  obtain ⟨ks, n1, b1, p1⟩ := h
  exact ⟨ks, n1, b1, p'.trans (p1.trans (p.symm.append_right _))⟩

theorem Adds.left {a b : Nat} {l l' : List (Nat × String × Option Kind)} (h : Adds a b l l') (m : List (Nat × String × Option Kind)) : Adds a b (m ++ l) (m ++ l') := by
  obtain ⟨ks, n1, b1, p1⟩ := h
  exact ⟨ks, n1, b1, by rw [List.append_assoc]; exact p1.append_left m⟩

theorem Adds.right {a b : Nat} {l l' : List (Nat × String × Option Kind)} (h : Adds a b l l') (m : List (Nat × String × Option Kind)) : Adds a b (l ++ m) (l' ++ m) :=
  (h.left m).perm List.perm_append_comm List.perm_append_comm

theorem mark_rmAll (n : Node) (as : List AId) : mark (rmAll n as) = mark n := by
  unfold rmAll
  induction as generalizing n with
  | nil => rfl
  | cons a t ih => rw [List.foldl_cons, ih]; exact mark_eq rfl rfl rfl

theorem mark_setOn {g g' : Node} {x : Attr} (h : setOn g x = some g') : mark g' = mark g := by
  unfold setOn at h
  split at h
  · cases h
    unfold appendValue
    split
    · exact mark_eq rfl rfl rfl
    · rfl
  · unfold Ungroup.copyAttr at h
    split at h
    · cases h
    · cases h; exact mark_eq rfl rfl rfl

theorem mark_setAll {A : List Attr} {g g' : Node} (h : setAll A g = some g') : mark g' = mark g := by
  induction A generalizing g with
  | nil => cases h; rfl
  | cons x t ih =>
    rw [setAll] at h
    obtain ⟨g1, h1, h2⟩ := Option.bind_eq_some_iff.1 h
    exact (ih h2).trans (mark_setOn h1)

theorem svgTop_cons (n : Node) (k r : Forest) : svgTop (.cons n k r) = if n.isSvgElem then n :: svgTop r else svgTop r := by
  unfold svgTop
  simp [Forest.top, List.filter_cons]

theorem place_marks (as : List AId) (g : Node) (kids : Forest) (i j m : Nat) (hij : i ≤ j) (t : Forest) :
    (marks (place g kids i j m t) ++ marks (pick as i j m t)).Perm
      (marks t ++ if m ≤ i ∧ i < m + (svgTop t).length then mark g :: marks kids else []) := by
  induction t generalizing m with
  | nil => simp [place, pick, marks_nil, svgTop, Forest.top]
  | cons n k r _ ih =>
    rw [place, pick, svgTop_cons]
    by_cases hn : n.isSvgElem = true
    · rw [if_pos hn, if_pos hn, if_pos hn]
      have ih := ih (m + 1)
      by_cases h1 : m = i
      · subst h1
        rw [if_pos rfl, if_pos ⟨Nat.le_refl _, hij⟩, if_pos ⟨Nat.le_refl _, by simp⟩]
        rw [if_neg (by omega), List.append_nil] at ih
        simp only [marks_cons, mark_rmAll]
        have e : ((mark g :: (marks kids ++ marks (place g kids m j (m + 1) r))) ++ mark n :: (marks k ++ marks (pick as m j (m + 1) r))).Perm
            ((mark n :: (marks k ++ (marks (place g kids m j (m + 1) r) ++ marks (pick as m j (m + 1) r)))) ++ (mark g :: marks kids)) := by
          rw [List.perm_iff_count]
          intro a
          simp only [List.count_append, List.count_cons]
          omega
        exact e.trans ((((ih.append_left _).cons _)).append_right _)
      · rw [if_neg h1]
        have ec : (m ≤ i ∧ i < m + (n :: svgTop r).length) ↔ (m + 1 ≤ i ∧ i < m + 1 + (svgTop r).length) := by
          rw [List.length_cons]; omega
        by_cases h2 : i < m ∧ m ≤ j
        · rw [if_pos h2, if_pos ⟨Nat.le_of_lt h2.1, h2.2⟩]
          rw [if_neg (by omega)] at ih ⊢
          simp only [marks_cons, mark_rmAll]
          rw [List.append_nil] at ih ⊢
          have e : (marks (place g kids i j (m + 1) r) ++ mark n :: (marks k ++ marks (pick as i j (m + 1) r))).Perm
              (mark n :: (marks k ++ (marks (place g kids i j (m + 1) r) ++ marks (pick as i j (m + 1) r)))) := by
            rw [List.perm_iff_count]
            intro a
            simp only [List.count_append, List.count_cons]
            omega
          exact e.trans ((ih.append_left _).cons _)
        · rw [if_neg h2, if_neg (by omega), if_congr ec rfl rfl]
          simp only [marks_cons, List.cons_append, List.append_assoc]
          exact (ih.append_left _).cons _
    · rw [if_neg hn, if_neg hn, if_neg hn]
      simp only [marks_cons, List.cons_append, List.append_assoc]
      exact ((ih m).append_left _).cons _

theorem pick_none {as : List AId} {i j m : Nat} {t : Forest} (h : ¬ (i < m + (svgTop t).length)) : pick as i j m t = .nil := by
  induction t generalizing m with
  | nil => rfl
  | cons n k r _ ih =>
    rw [pick]
    rw [svgTop_cons] at h
    by_cases hn : n.isSvgElem = true
    · rw [if_pos hn] at h ⊢
      rw [List.length_cons] at h
      rw [if_neg (by omega), ih (by omega)]
    · rw [if_neg hn] at h ⊢
      exact ih h

theorem pick_all {as : List AId} {j m : Nat} {t : Forest} (h : m + (svgTop t).length ≤ j + 1) : (marks (nonSvg t) ++ marks (pick as 0 j m t)).Perm (marks t) := by
  induction t generalizing m with
  | nil => exact List.Perm.refl _
  | cons n k r _ ih =>
    rw [pick, nonSvg]
    rw [svgTop_cons] at h
    by_cases hn : n.isSvgElem = true
    · rw [if_pos hn] at h ⊢
      rw [List.length_cons] at h
      rw [if_pos hn, if_pos (by omega)]
      simp only [marks_cons, mark_rmAll]
      have e : (marks (nonSvg r) ++ mark n :: (marks k ++ marks (pick as 0 j (m + 1) r))).Perm
          (mark n :: (marks k ++ (marks (nonSvg r) ++ marks (pick as 0 j (m + 1) r)))) := by
        rw [List.perm_iff_count]
        intro a
        simp only [List.count_append, List.count_cons]
        omega
      exact e.trans (((ih (by omega)).append_left _).cons _)
    · rw [if_neg hn] at h ⊢
      rw [if_neg hn]
      simp only [marks_cons, List.cons_append, List.append_assoc]
      exact ((ih h).append_left _).cons _

theorem perm_cancel_right {α : Type} {l l' m : List α} (h : (l ++ m).Perm (l' ++ m)) : l.Perm l' := (List.perm_append_right_iff m).1 h

theorem wrapRow_adds {d : Row} {t t' : Forest} {a b : Nat} (h : wrapRow d t a = some (t', b)) : Adds a b (marks t) (marks t') := by
  have hb := wrapRow_fresh h
  unfold wrapRow at h
  simp only [Option.bind_eq_some_iff, Option.map_eq_some_iff] at h
  obtain ⟨⟨i, j⟩, hr, g, hg, h⟩ := h
  cases h
  have hp := place_marks (ids d.attrs) g (pick (ids d.attrs) i j 0 t) i j 0 (longestRange_spec hr).1 t
  by_cases hi : i < 0 + (svgTop t).length
  · rw [if_pos ⟨Nat.zero_le _, hi⟩] at hp
    refine ⟨[a], by simp, by simp, ?_⟩
    have e : (marks t ++ mark g :: marks (pick (ids d.attrs) i j 0 t)) = (marks t ++ [mark g]) ++ marks (pick (ids d.attrs) i j 0 t) := by simp
    rw [e] at hp
    have := perm_cancel_right hp
    rw [mark_setAll hg] at this
    exact this
  · rw [if_neg (fun h => hi h.2), pick_none hi] at hp
    refine ⟨[], by simp, by simp, ?_⟩
    rw [pick_none hi]
    simpa [marks_nil] using hp

theorem wrapFirst_adds {ds : List Row} {t t' : Forest} {a b : Nat} (h : wrapFirst ds t a = some (t', b)) : Adds a b (marks t) (marks t') := by
  unfold wrapFirst at h
  split at h
  · cases h; exact Adds.refl _ _ _
  · exact wrapRow_adds h

theorem regroup_adds {u : Nat → Bool} {anc : List Node} {p p' : Node} {k k' : Forest} {a b : Nat} (h : GroupStyle.regroup u anc p k a = some (p', k', b)) :
    a ≤ b ∧ mark p' = mark p ∧ Adds a b (marks k) (marks k') := by
  have triv : ∀ {p' k' b}, some (p, k, a) = some (p', k', b) → a ≤ b ∧ mark p' = mark p ∧ Adds a b (marks k) (marks k') := by
    intro p' k' fr e
    cases e
    exact ⟨Nat.le_refl _, rfl, Adds.refl _ _ _⟩
  unfold GroupStyle.regroup at h
  split at h
  · exact triv h
  · have e0 := (splitTail_spec u k).1
    revert h e0
    generalize (splitTail u k).1 = b'
    generalize (splitTail u k).2 = t
    intro h e0
    dsimp only at h
    split at h
    · exact triv h
    next hlen =>
      split at h
      · exact triv h
      next d ds htd =>
        rw [e0, marks_append]
        split at h
        · split at h
          next hb =>
            simp only [Option.bind_eq_some_iff, Option.map_eq_some_iff] at h
            obtain ⟨p1, hp1, ⟨x1, x2⟩, hx1, h⟩ := h
            cases h
            refine ⟨wrapFirst_fresh hx1, mark_setAll hp1, ?_⟩
            have hnil : marks b' = [] := by
              cases b' with
              | nil => rfl
              | cons _ _ _ => cases hb
            rw [hnil, List.nil_append, marks_append]
            exact ((wrapFirst_adds hx1).left (marks (nonSvg t))).perm (pick_all (by omega)).symm (List.Perm.refl _)
          · simp only [Option.bind_eq_some_iff, Option.map_eq_some_iff] at h
            obtain ⟨g, hg, ⟨x1, x2⟩, hx1, h⟩ := h
            cases h
            refine ⟨Nat.le_trans (Nat.le_succ _) (wrapFirst_fresh hx1), rfl, ?_⟩
            rw [marks_append]
            refine Adds.left ?_ _
            have hp := place_marks (ids d.attrs) g x1 0 ((svgTop t).length - 1) 0 (Nat.zero_le _) t
            rw [if_pos ⟨Nat.le_refl _, by omega⟩, mark_setAll hg] at hp
            have h1 : Adds a (a + 1) (marks t) (marks t ++ [newMark a]) := ⟨[a], by simp, by simp, by simp⟩
            refine h1.trans ?_ (Nat.le_succ _) (wrapFirst_fresh hx1)
            obtain ⟨ks, n1, b1, p1⟩ := wrapFirst_adds hx1
            refine ⟨ks, n1, b1, ?_⟩
            refine perm_cancel_right (hp.trans ?_)
            have e : (marks t ++ mark (newG a) :: marks x1).Perm (marks t ++ mark (newG a) :: (marks (pick (ids d.attrs) 0 ((svgTop t).length - 1) 0 t) ++ ks.map newMark)) :=
              (p1.cons _).append_left _
            refine e.trans ?_
            rw [List.perm_iff_count]
            intro z
            have : mark (newG a) = newMark a := rfl
            simp only [List.count_append, List.count_cons, this, List.count_nil]
            omega
        · simp only [Option.map_eq_some_iff] at h
          obtain ⟨⟨x1, x2⟩, hx1, h⟩ := h
          cases h
          refine ⟨by rw [wrapRow_fresh hx1]; omega, rfl, ?_⟩
          rw [marks_append]
          exact (wrapRow_adds hx1).left _

theorem groupKids_adds {u : Nat → Bool} {anc : List Node} {f g : Forest} {a b : Nat} (h : groupKids u anc f a = some (g, b)) :
    a ≤ b ∧ Adds a b (marks f) (marks g) := by
  induction f generalizing anc a b g with
  | nil => cases h; exact ⟨Nat.le_refl _, Adds.refl _ _ _⟩
  | cons n k r ihk ihr =>
    rw [groupKids] at h
    obtain ⟨⟨y1, y2, y3⟩, hy, h⟩ := Option.bind_eq_some_iff.1 h
    obtain ⟨⟨z1, z2⟩, hz, h⟩ := Option.map_eq_some_iff.1 h
    cases h
    obtain ⟨hle, hr⟩ := ihr hz
    have hk : a ≤ y3 ∧ mark y1 = mark n ∧ Adds a y3 (marks k) (marks y2) := by
      split at hy
      · obtain ⟨⟨x1, x2⟩, hx, hy⟩ := Option.bind_eq_some_iff.1 hy
        obtain ⟨h1, h2⟩ := ihk hx
        obtain ⟨h3, h4, h5⟩ := regroup_adds hy
        exact ⟨Nat.le_trans h1 h3, h4, h2.trans h5 h1 h3⟩
      · cases hy; exact ⟨Nat.le_refl _, rfl, Adds.refl _ _ _⟩
    refine ⟨Nat.le_trans hk.1 hle, ?_⟩
    rw [marks_cons, marks_cons, hk.2.1]
    exact (((hk.2.2.right (marks r)).trans (hr.left (marks y2)) hk.1 hle)).left [mark n]

theorem groupKids_links {u : Nat → Bool} {anc : List Node} {f g : Forest} {a b : Nat} (h : groupKids u anc f a = some (g, b)) {v : Nat → Prop}
    (hl : LinksIn v f) : LinksIn v g := by
  induction f generalizing anc a b g with
  | nil => cases h; exact hl
  | cons n k r ihk ihr =>
    rw [groupKids] at h
    obtain ⟨⟨y1, y2, y3⟩, hy, h⟩ := Option.bind_eq_some_iff.1 h
    obtain ⟨⟨z1, z2⟩, hz, h⟩ := Option.map_eq_some_iff.1 h
    cases h
    rw [Ungroup.linksIn_cons] at hl ⊢
    obtain ⟨h1, h2, h3⟩ := hl
    have hk : (∀ x ∈ y1.links, v x) ∧ LinksIn v y2 := by
      split at hy
      · obtain ⟨⟨x1, x2⟩, hx, hy⟩ := Option.bind_eq_some_iff.1 hy
        exact (regroup_links hy h1 (ihk hx h2)).2
      · cases hy; exact ⟨h1, h2⟩
    exact ⟨hk.1, hk.2, ihr hz h3⟩

theorem safe_groupByStyle {f g : Forest} (h : groupByStyle f = some g) : Safe f g := Grow.safe fun hu hl => by
  unfold groupByStyle at h
  obtain ⟨⟨s, k⟩, hs, h⟩ := Option.bind_eq_some_iff.1 h
  obtain ⟨⟨x1, x2⟩, hx, h⟩ := Option.bind_eq_some_iff.1 h
  obtain ⟨⟨s', k', y⟩, hy, h⟩ := Option.map_eq_some_iff.1 h
  cases h
  obtain ⟨A, B, e1, e2⟩ := setSvg_split hs
  dsimp only at e1 e2 hx hy ⊢
  obtain ⟨hle1, ha1⟩ := groupKids_adds hx
  obtain ⟨hle2, hm, ha2⟩ := regroup_adds hy
  have hadds : Adds (freshKey f) y (marks f) (marks (setSvgElement s' k' f)) := by
    have := (((ha1.trans ha2 hle1 hle2).right (B.map mark)).left [mark s]).left (A.map mark)
    refine this.perm ?_ ?_
    · unfold marks; rw [e1]; simp
    · unfold marks; rw [e2]; simp [hm]
  have hin : ∀ n ∈ f.nodes, ∀ x ∈ n.links, ∃ n ∈ f.nodes, x ∈ n.links := fun n hn x hx => ⟨n, hn, hx⟩
  have hlk : LinksIn (fun x => ∃ n ∈ f.nodes, x ∈ n.links) k := fun n hn x hx => hin n (by rw [e1]; simp [hn]) x hx
  obtain ⟨_, hls, hlk'⟩ := regroup_links hy (hin s (by rw [e1]; simp)) (groupKids_links hx hlk)
  have hlinks : ∀ m ∈ (setSvgElement s' k' f).nodes, ∀ x ∈ m.links, ∃ n ∈ f.nodes, x ∈ n.links := by
    intro m hm x hx
    rw [e2] at hm
    rcases List.mem_append.1 hm with hm | hm
    · exact hin m (by rw [e1]; simp [hm]) x hx
    · rcases List.mem_cons.1 hm with rfl | hm
      · exact hls x hx
      · rcases List.mem_append.1 hm with hm | hm
        · exact hlk' m hm x hx
        · exact hin m (by rw [e1]; simp [hm]) x hx
  obtain ⟨ks, n1, b1, p1⟩ := hadds
  have hnew : ∀ j ∈ ks, j ∉ f.keys := by
    intro j hj hmem
    obtain ⟨n, hn, e⟩ := Forest.mem_keys.1 hmem
    have : n.key ∈ f.nodes.flatMap fun n => n.key :: n.links := List.mem_flatMap.2 ⟨n, hn, by simp⟩
    have := GroupStyle.le_foldr_max this
    have := (b1 j hj).1
    unfold freshKey at this
    omega
  have hkeys : (setSvgElement s' k' f).keys.Perm (f.keys ++ ks) := by
    rw [keys_mark, keys_mark]
    have := p1.map Prod.fst
    rw [List.map_append] at this
    simpa [newMark, Function.comp_def, marks] using this
  refine Grow.of ?_ ?_ ?_ hlinks
  · refine hkeys.nodup_iff.2 (List.nodup_append.2 ⟨hu, n1, fun x hx y hy e => hnew y hy (e ▸ hx)⟩)
  · intro m hm x hx
    obtain ⟨n, hn, hx⟩ := hlinks m hm x hx
    exact hkeys.mem_iff.2 (List.mem_append_left _ (hl n hn x hx))
  · intro m hm
    have := p1.mem_iff.1 (List.mem_map_of_mem (f := mark) hm)
    rcases List.mem_append.1 this with h | h
    · obtain ⟨n, hn, e⟩ := List.mem_map.1 h
      exact .inl ⟨n, hn, e⟩
    · obtain ⟨j, hj, e⟩ := List.mem_map.1 h
      have ek : j = m.key := congrArg Prod.fst e
      have ei : "" = m.id := congrArg (fun x => x.2.1) e
      have es : none = (if loose m then none else some m.kind) := congrArg (fun x => x.2.2) e
      refine .inr ⟨?_, ek ▸ hnew j hj, ei.symm⟩
      cases hsv : loose m
      · rw [if_neg (by simp [hsv])] at es; cases es
      · rfl

end Verif.Spec
