import Verif.CrashRegroup
import Verif.GradUnitsProps
/-
C53: `remove-gradient-attributes` does not crash.
-/
namespace Verif.Crash
open Verif.Dom Verif.Spec
open Verif.Dom (Res)
open Verif.Pipeline
open Verif.GradUnits

section
variable {C : Ctx}

/-- Some `gradientUnits` are hidden or have other values. -/
def Units (C : Ctx) (f0 f : Forest) : Prop :=
  ∃ u : Node → Node, f = f0.map u ∧ (∀ n, (u n).key = n.key) ∧ ∀ n ∈ f0.nodes, Tame C n (u n) ∧ (u n).get .xlinkHref = n.get .xlinkHref ∧ (u n).kind = n.kind

theorem Units.refl (C : Ctx) (f : Forest) : Units C f f := ⟨id, (Forest.map_id' fun _ _ => rfl).symm, fun _ => rfl, fun n _ => ⟨Tame.refl C n, rfl, rfl⟩⟩

theorem Units.inv {f0 f : Forest} (h : Units C f0 f) (h0 : Inv C f0) : Inv C f := by
  obtain ⟨u, rfl, _, h2⟩ := h
  exact h0.map fun n hn => (h2 n hn).1

theorem Units.modify {f0 f : Forest} (h : Units C f0 f) (k : Nat) {w : Node → Node} (h1 : ∀ n, (w n).key = n.key) (h2 : ∀ n, Tame C n (w n)) (h3 : ∀ n, (w n).get .xlinkHref = n.get .xlinkHref)
    (h4 : ∀ n, (w n).kind = n.kind) : Units C f0 (f.modify k w) := by
  obtain ⟨u, rfl, e1, e2⟩ := h
  refine ⟨fun n => if (u n).key = k then w (u n) else u n, Forest.map_map _ _ _, fun n => ?_, fun n hn => ?_⟩
  · dsimp only
    split
    · rw [h1, e1]
    · exact e1 n
  · obtain ⟨a, b, c⟩ := e2 n hn
    dsimp only
    split
    · exact ⟨a.trans (h2 _), (h3 _).trans b, (h4 _).trans c⟩
    · exact ⟨a, b, c⟩

theorem Units.hide {f0 f : Forest} (h : Units C f0 f) (k : Nat) : Units C f0 (f.modify k fun n => n.hide .gradientUnits) :=
  h.modify k (fun _ => rfl) (fun n => Tame.hide C n _) (fun n => get_hide n _ _) fun _ => rfl

theorem Units.set {f0 f : Forest} (h : Units C f0 f) (k : Nat) (v : Kw) : Units C f0 (f.modify k fun n => n.set .gradientUnits (.kw v)) :=
  h.modify k (fun _ => rfl) (fun n => Tame.setFree C n rfl rfl) (fun n => by rw [Node.get_set]; rfl) fun _ => rfl

/-- The keys of gradients. -/
def GradAt (f : Forest) (k : Nat) : Prop := ∃ n ∈ f.nodes, n.key = k ∧ gradKind n.kind = true

theorem Units.at {f0 f : Forest} (h : Units C f0 f) {k : Nat} (hk : GradAt f0 k) : GradAt f k := by
  obtain ⟨u, rfl, e1, e2⟩ := h
  obtain ⟨n, hn, rfl, hg⟩ := hk
  exact ⟨u n, by rw [Forest.nodes_map]; exact List.mem_map_of_mem hn, e1 n, by rw [(e2 n hn).2.2]; exact hg⟩

theorem Inv.hasUnits {f : Forest} (h : Inv C f) (hb : ∀ k, ¬ C.bare k) {n : Node} (hn : n ∈ f.nodes) (hg : gradKind n.kind = true) : n.has .gradientUnits = true := by
  refine (h.nodes n hn).full hg (hb _) _ ?_
  cases hk : n.kind with
  | elem e => rw [hk] at hg; cases e <;> first | (cases hg; done) | simp [Crash.wanted]
  | _ => rw [hk] at hg; cases hg

section
variable {f0 : Forest} (h0 : Inv C f0) (hb : ∀ k, ¬ C.bare k)
include h0 hb

theorem units_hide {f : Forest} (h : Units C f0 f) {k : Nat} (hk : GradAt f0 k) : ∃ g, hideUnits k f = some g ∧ Units C f0 g := by
  obtain ⟨n, hn, rfl, hg⟩ := h.at hk
  have hi := h.inv h0
  unfold hideUnits
  rw [Forest.find_of_mem hi.unique hn, Option.bind_some, if_pos (hi.hasUnits hb hn hg)]
  exact ⟨_, rfl, h.hide _⟩

theorem units_equal {f : Forest} (h : Units C f0 f) {k : Nat} (hk : GradAt f0 k) : ∃ g, equalStep k f = some g ∧ Units C f0 g := by
  obtain ⟨n, hn, e, hg⟩ := h.at hk
  have hi := h.inv h0
  unfold equalStep
  rw [← e, Forest.find_of_mem hi.unique hn, Option.bind_some]
  split
  next l hl =>
    obtain ⟨x, hx, e1, e2⟩ := getMem hl
    obtain ⟨t, ht, et⟩ := Forest.mem_keys.1 (hi.links n hn l (Node.mem_links.2 ⟨x, hx, by rw [e2]; rfl⟩))
    rw [← et, Forest.find_of_mem hi.unique ht, Option.bind_some]
    split
    · rw [e]; exact units_hide h0 hb h hk
    · exact ⟨f, rfl, h⟩
  · exact ⟨f, rfl, h⟩

theorem units_share {f : Forest} (h : Units C f0 f) (maj other : Kw) {k : Nat} (hk : GradAt f0 k) : ∃ g, shareUnits maj other k f = some g ∧ Units C f0 g := by
  obtain ⟨n, hn, e, hg⟩ := h.at hk
  have hi := h.inv h0
  unfold shareUnits
  rw [← e, Forest.find_of_mem hi.unique hn, Option.bind_some]
  split
  · split
    · rw [e]; exact units_hide h0 hb h hk
    · exact ⟨_, rfl, h.set _ _⟩
  · exact ⟨f, rfl, h⟩

theorem units_default {f : Forest} (h : Units C f0 f) {k : Nat} (hk : GradAt f0 k) : ∃ g, hideDefault k f = some g ∧ Units C f0 g := by
  obtain ⟨n, hn, e, hg⟩ := h.at hk
  have hi := h.inv h0
  unfold hideDefault
  rw [← e, Forest.find_of_mem hi.unique hn, Option.bind_some]
  split
  · rw [e]; exact units_hide h0 hb h hk
  · exact ⟨f, rfl, h⟩

theorem units_body {f : Forest} (h : Units C f0 f) {k : Nat} (hk : GradAt f0 k) (hl : ∀ n ∈ f.linkedAll k, GradAt f0 n.key) : ∃ g, groupBody k f = some g ∧ Units C f0 g := by
  have hl' : ∀ j ∈ (f.linkedAll k).map Node.key, GradAt f0 j := by
    intro j hj
    obtain ⟨n, hn, rfl⟩ := List.mem_map.1 hj
    exact hl n hn
  have a1 : ∀ v, ∃ g, Gradients.forEach hideUnits ((f.linkedAll k).map Node.key) (f.modify k fun n => n.set .gradientUnits (.kw v)) = some g ∧ Units C f0 g :=
    fun v => forEach_total (P := Units C f0) (fun j hj g hg => units_hide h0 hb hg (hl' j hj)) (h.set k v)
  have a2 : ∀ v maj other, ∃ g, Gradients.forEach (shareUnits maj other) ((f.linkedAll k).map Node.key) (f.modify k fun n => n.set .gradientUnits (.kw v)) = some g ∧ Units C f0 g :=
    fun v maj other => forEach_total (P := Units C f0) (fun j hj g hg => units_share h0 hb hg maj other (hl' j hj)) (h.set k v)
  unfold groupBody
  dsimp only
  split
  · obtain ⟨g, e, hg⟩ := a1 .objectBoundingBox
    rw [e, Option.bind_some]; exact units_default h0 hb hg hk
  · split
    · obtain ⟨g, e, hg⟩ := a1 .userSpaceOnUse
      rw [e, Option.bind_some]; exact units_default h0 hb hg hk
    · split
      · obtain ⟨g, e, hg⟩ := a2 .objectBoundingBox .objectBoundingBox .userSpaceOnUse
        rw [e, Option.bind_some]; exact units_default h0 hb hg hk
      · obtain ⟨g, e, hg⟩ := a2 .userSpaceOnUse .userSpaceOnUse .objectBoundingBox
        rw [e, Option.bind_some]; exact units_default h0 hb hg hk

end

theorem units_refs {f0 f : Forest} (h : Units C f0 f) (l : List Nat) (k : Nat) : refsFrom f l k = refsFrom f0 l k := by
  obtain ⟨u, rfl, hk, hc⟩ := h
  unfold refsFrom
  congr 2
  funext x
  rw [Forest.find_map hk]
  cases hx : f0.find x with
  | none => rfl
  | some n =>
    simp only [Option.map_some]
    rw [(hc n (Forest.find_some hx).1).2.1]

/-- How often a gradient is entered in the list of users of `k`. -/
theorem Inv.linksCount {f : Forest} (h : Inv C f) {n : Node} (hn : n ∈ f.nodes) (hg : gradKind n.kind = true) (k : Nat) :
    (n.links.filter (fun x => decide (x = k))).length = if n.get .xlinkHref = some (.link k) then 1 else 0 := by
  have hattrs : ∀ as : List Attr, (as.filter fun x => decide (x.name = .id .xlinkHref)).length ≤ 1 →
      (∀ x ∈ as, x.value.target ≠ none → x.name = .id .xlinkHref) →
      (∀ x ∈ as, x.name = .id .xlinkHref → ∃ j, x.value = .link j) →
      ((as.filterMap (fun x => x.value.target)).filter (fun x => decide (x = k))).length =
        if (getAttr as (.id .xlinkHref)).map (·.value) = some (.link k) then 1 else 0 := by
    intro as
    induction as with
    | nil => intros; rfl
    | cons x t ih =>
      intro hnd ho hl
      by_cases hx : x.name = .id .xlinkHref
      · have hget : getAttr (x :: t) (.id .xlinkHref) = some x := by unfold getAttr; rw [List.find?_cons]; simp [hx]
        obtain ⟨j, hj⟩ := hl x (by simp) hx
        have hrest : t.filterMap (fun x => x.value.target) = [] := by
          rw [List.filterMap_eq_nil_iff]
          intro y hy
          by_contra hne
          have hy' : y ∈ t.filter fun x => decide (x.name = .id .xlinkHref) := List.mem_filter.2 ⟨hy, by simpa using ho y (by simp [hy]) hne⟩
          rw [List.filter_cons_of_pos (by simpa using hx), List.length_cons] at hnd
          have := List.length_pos_of_mem hy'
          omega
        have htar : x.value.target = some j := by rw [hj]; rfl
        rw [hget, List.filterMap_cons_some (f := fun x : Attr => x.value.target) htar, hrest]
        simp only [Option.map_some, hj, Option.some.injEq, Value.link.injEq]
        by_cases hjk : j = k <;> simp [hjk, List.filter_cons]
      · have hget : getAttr (x :: t) (.id .xlinkHref) = getAttr t (.id .xlinkHref) := by
          unfold getAttr; rw [List.find?_cons]; simp [hx]
        have htar : x.value.target = none := by
          by_contra hne
          exact hx (ho x (by simp) hne)
        rw [List.filterMap_cons, htar, hget]
        rw [List.filter_cons_of_neg (by simpa using hx)] at hnd
        exact ih hnd (fun y hy => ho y (by simp [hy])) (fun y hy => hl y (by simp [hy]))
  refine hattrs n.attrs ((h.nodes n hn).single hg) (fun x hx hne => ?_) (fun x hx e => ((h.nodes n hn).attrs x hx).grad.href hg e)
  obtain ⟨j, hj⟩ := Option.ne_none_iff_exists'.1 hne
  exact (((h.nodes n hn).attrs x hx).grad.link hg j hj).1

theorem Inv.startCount {f : Forest} (h : Inv C f) : ∀ p ∈ startOrder f, p.2 = refsFrom f ((startOrder f).map (·.1)) p.1 := by
  intro p hp
  have hkeys : (startOrder f).map (·.1) = (f.nodes.filter (fun n => n.isGradient && n.has .xlinkHref)).map (·.key) := by
    unfold startOrder; rw [List.map_map]; rfl
  rw [hkeys]
  unfold startOrder at hp
  obtain ⟨n, hn, rfl⟩ := List.mem_map.1 hp
  simp only
  generalize n.key = k
  unfold refsFrom Forest.linkedAll
  have key : ∀ l : List Node, (∀ x ∈ l, x ∈ f.nodes) →
      ((l.flatMap (fun n => (n.links.filter (fun x => decide (x = k))).map (fun _ => n))).filter (·.isGradient)).length =
      (((l.filter (fun n => n.isGradient && n.has .xlinkHref)).map (·.key)).filter
        (fun x => match f.find x with | some n => decide (n.get .xlinkHref = some (.link k)) | none => false)).length := by
    intro l
    induction l with
    | nil => intro _; rfl
    | cons x t ih =>
      intro hl
      have hx := hl x (by simp)
      have ih' := ih (fun y hy => hl y (by simp [hy]))
      rw [List.flatMap_cons, List.filter_append, List.length_append, ih']
      rw [List.filter_cons]
      by_cases hg : x.isGradient = true
      · have h1 : (((x.links.filter (fun y => decide (y = k))).map (fun _ => x)).filter (·.isGradient)).length =
            if x.get .xlinkHref = some (.link k) then 1 else 0 := by
          rw [← h.linksCount hx (by rw [gradKind_eq]; exact hg) k, List.filter_eq_self.2, List.length_map]
          intro y hy
          obtain ⟨_, _, rfl⟩ := List.mem_map.1 hy
          exact hg
        rw [h1]
        by_cases hh : x.has .xlinkHref = true
        · simp only [hg, hh, Bool.and_self, if_true, List.map_cons]
          rw [List.filter_cons, Forest.find_of_mem h.unique hx]
          simp only
          by_cases he : x.get .xlinkHref = some (.link k)
          · simp [he]; omega
          · simp [he]
        · have : x.get .xlinkHref ≠ some (.link k) := by
            intro he; rw [Node.has_eq, he] at hh; exact hh rfl
          simp [hh, this]
      · have h0 : (((x.links.filter (fun y => decide (y = k))).map (fun _ => x)).filter (·.isGradient)) = [] := by
          rw [List.filter_eq_nil_iff]
          intro y hy
          obtain ⟨_, _, rfl⟩ := List.mem_map.1 hy
          simpa using hg
        rw [h0]
        simp [hg]
  exact key f.nodes (fun _ h => h)

theorem units_loop {f0 : Forest} (h0 : Inv C f0) (hb : ∀ k, ¬ C.bare k) {fuel : Nat} {f : Forest} {o : List (Nat × Nat)}
    (hi : Units C f0 f) (ho : ∀ p ∈ o, GradAt f0 p.1) (hcount : ∀ p ∈ o, p.2 = refsFrom f0 (o.map (·.1)) p.1) (hfuel : o.length ≤ fuel) :
    ∃ g, equalLoop fuel f o = some g ∧ Units C f0 g := by
  induction fuel generalizing f o with
  | zero =>
    have : o = [] := List.length_eq_zero_iff.1 (by omega)
    subst this
    exact ⟨f, by unfold equalLoop; simp, hi⟩
  | succ n ih =>
    unfold equalLoop
    by_cases hnil : o = []
    · exact ⟨f, by simp [hnil], hi⟩
    · rw [if_neg hnil]
      simp only
      generalize hd : (o.filter (fun p => decide (p.2 = 0))).map (·.1) = done
      have hdg : ∀ k ∈ done, GradAt f0 k := by
        intro k hk
        rw [← hd] at hk
        obtain ⟨p, hp, rfl⟩ := List.mem_map.1 hk
        exact ho p (List.mem_of_mem_filter hp)
      obtain ⟨f1, e1, i1⟩ := forEach_total (upd := equalStep) (P := Units C f0) (ks := done) (fun k hk g hg => units_equal h0 hb hg (hdg k hk)) hi
      have hperm : (done ++ (o.filter (fun p => decide (p.2 > 0))).map (·.1)).Perm (o.map (·.1)) := by
        rw [← hd, ← List.map_append]
        apply List.Perm.map
        have := List.filter_append_perm (fun p : Nat × Nat => decide (p.2 = 0)) o
        refine List.Perm.trans ?_ this
        apply List.Perm.append_left
        have : (fun p : Nat × Nat => decide (p.2 > 0)) = (fun x => !decide (x.2 = 0)) := by
          funext p
          by_cases h0 : p.2 = 0
          · simp [h0]
          · simp [h0, Nat.pos_of_ne_zero h0]
        rw [this]
      have hsplit : ∀ k, refsFrom f0 (o.map (·.1)) k = refsFrom f0 done k + refsFrom f0 ((o.filter (fun p => decide (p.2 > 0))).map (·.1)) k := by
        intro k; rw [← refsFrom_append, refsFrom_perm f0 hperm]
      have hdec := decrease_total (f := f1) (done := done) (o := o.filter (fun p => decide (p.2 > 0))) (by
        intro p hp
        rw [units_refs i1, hcount p (List.mem_of_mem_filter hp), hsplit]
        omega)
      have hround : equalRound f o = some (f1, (o.filter (fun p => decide (p.2 > 0))).map (fun p => (p.1, p.2 - refsFrom f1 done p.1))) := by
        unfold equalRound
        simp only [hd, e1, Option.bind_some, hdec, Option.map_some]
      rw [hround, Option.bind_some]
      have hprog : ∃ p ∈ o, p.2 = 0 := by
        obtain ⟨p, hp, hmax⟩ : ∃ p ∈ o, ∀ q ∈ o, C.rank q.1 ≤ C.rank p.1 := by
          obtain ⟨p, hp⟩ := List.exists_mem_of_ne_nil o hnil
          have hne : (o.map (fun p => C.rank p.1)).toFinset.Nonempty := ⟨C.rank p.1, by simp only [List.mem_toFinset, List.mem_map]; exact ⟨p, hp, rfl⟩⟩
          have hm := Finset.max'_mem _ hne
          simp only [List.mem_toFinset, List.mem_map] at hm
          obtain ⟨q, hq, he⟩ := hm
          refine ⟨q, hq, fun r hr => ?_⟩
          rw [he]
          exact Finset.le_max' _ _ (by simp only [List.mem_toFinset, List.mem_map]; exact ⟨r, hr, rfl⟩)
        refine ⟨p, hp, ?_⟩
        rw [hcount p hp]
        unfold refsFrom
        rw [List.length_eq_zero_iff, List.filter_eq_nil_iff]
        intro k hk
        obtain ⟨q, hq, rfl⟩ := List.mem_map.1 hk
        obtain ⟨m, hm, hmk, hmg⟩ := ho q hq
        rw [← hmk, Forest.find_of_mem h0.unique hm]
        simp only [decide_eq_true_eq]
        intro he
        obtain ⟨x, hx, _, e2⟩ := getMem he
        have hlt := (((h0.nodes m hm).attrs x hx).grad.link hmg p.1 (by rw [e2]; rfl)).2.2
        have := hmax q hq
        rw [hmk] at hlt
        omega
      refine ih i1 ?_ ?_ ?_
      · intro p hp
        obtain ⟨q, hq, rfl⟩ := List.mem_map.1 hp
        exact ho q (List.mem_of_mem_filter hq)
      · intro p hp
        obtain ⟨q, hq, rfl⟩ := List.mem_map.1 hp
        rw [List.map_map]
        simp only [Function.comp_def]
        rw [units_refs i1, hcount q (List.mem_of_mem_filter hq), hsplit]
        omega
      · rw [List.length_map]
        obtain ⟨p, hp, h0⟩ := hprog
        have : (o.filter (fun p => decide (p.2 > 0))).length < o.length := by
          apply List.length_filter_lt_length_iff_exists.2
          exact ⟨p, hp, by simp [h0]⟩
        omega

theorem holds_gradientAttrs (hb : ∀ k, ¬ C.bare k) : Holds (Inv C) (may GradUnits.removeGradientAttributes) := by
  refine Holds.may fun f h => ?_
  have hs : ∀ p ∈ startOrder f, GradAt f p.1 := by
    intro p hp
    unfold startOrder at hp
    obtain ⟨n, hn, rfl⟩ := List.mem_map.1 hp
    rw [List.mem_filter] at hn
    simp only [Bool.and_eq_true] at hn
    exact ⟨n, hn.1, rfl, by rw [gradKind_eq]; exact hn.2.1⟩
  obtain ⟨f1, e1, u1⟩ := units_loop h hb (fuel := (startOrder f).length) (o := startOrder f) (Units.refl C f) hs h.startCount (Nat.le_refl _)
  have h1 := u1.inv h
  suffices hq : ∀ k ∈ parents f1, ∀ g, Units C f1 g → ∃ g', groupBody k g = some g' ∧ Units C f1 g' by
    obtain ⟨g, e2, u2⟩ := forEach_total (upd := groupBody) (P := Units C f1) (ks := parents f1) hq (Units.refl C f1)
    exact ⟨g, by unfold removeGradientAttributes groupToParent rmEqual; rw [e1, Option.bind_some]; exact e2, u2.inv h1⟩
  · intro k hk g hg
    unfold parents at hk
    obtain ⟨n, hn, rfl⟩ := List.mem_map.1 hk
    rw [List.mem_filter] at hn
    simp only [Bool.and_eq_true] at hn
    refine units_body h1 hb hg ⟨n, hn.1, rfl, by rw [gradKind_eq]; exact hn.2.1.1⟩ fun m hm => ?_
    obtain ⟨m1, m2⟩ := GradUnits.mem_linkedAll.1 hm
    obtain ⟨u, rfl, w1, w2⟩ := hg
    rw [Forest.nodes_map] at m1
    obtain ⟨x, hx, rfl⟩ := List.mem_map.1 m1
    have := List.all_eq_true.1 hn.2.2 x (GradUnits.mem_linkedAll.2 ⟨hx, (w2 x hx).1.links _ m2⟩)
    exact ⟨x, hx, (w1 x).symm, by rw [gradKind_eq]; exact this⟩

end

end Verif.Crash
