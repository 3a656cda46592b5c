import Verif.CrashUse
import Verif.CrashRegroup
import Verif.CrashUnits
import Verif.PipelineEnds
import Verif.SafeGroup
import Verif.GroupStyleCases
/-
C53: the tasks from `group-by-style` on, and the rest of the run after the preparation.
-/
namespace Verif.Crash
open Verif.Dom Verif.Spec
open Verif.Dom (Res)
open Verif.Pipeline
open Verif.Cli (CleaningOptions)

/-- The nodes with an id. -/
def namedNodes (f : Forest) : List Node := f.nodes.filter fun n => decide (n.id ≠ "")

/-- `trim-ids` succeeds when there are enough short ids for the nodes that have an id. -/
theorem trim_total {f : Forest} (h : (namedNodes f).length < TrimIds.capacity) : ∃ f', Simple.trimIds f = some f' := by
  have key : ∀ (f : Forest) (d : List Nat) (i : Nat), TrimIds.state i = some d → i + (namedNodes f).length < TrimIds.capacity →
      ∃ f' d' j, Simple.trimGo f d = some (f', d') ∧ TrimIds.state j = some d' ∧ j ≤ i + (namedNodes f).length := by
    intro f
    induction f with
    | nil => intro d i hd _; exact ⟨.nil, d, i, rfl, hd, by simp⟩
    | cons n k r ih1 ih2 =>
      intro d i hd hl
      have e : (namedNodes (.cons n k r)).length = (if n.id ≠ "" then 1 else 0) + ((namedNodes k).length + (namedNodes r).length) := by
        unfold namedNodes
        rw [Forest.nodes, List.filter_cons, List.filter_append]
        by_cases hi : n.id = ""
        · simp [hi]
        · simp [hi]; omega
      rw [e] at hl ⊢
      have hnode : ∃ n' d1 i1, Simple.trimNode d n = some (n', d1) ∧ TrimIds.state i1 = some d1 ∧ i1 ≤ i + (if n.id ≠ "" then 1 else 0) := by
        unfold Simple.trimNode
        by_cases hc : (n.isSvgElem && decide (n.id ≠ "")) = true
        · rw [if_pos hc]
          have hi : n.id ≠ "" := by simp at hc; exact hc.2
          rw [if_pos hi] at hl ⊢
          rcases TrimIds.state_num (i + 1) with ⟨_, d1, h2, _⟩ | ⟨h1, _⟩
          · refine ⟨{ n with id := Simple.idString (TrimIds.toBytes d) }, d1, i + 1, ?_, h2, le_refl _⟩
            simp only [TrimIds.state, hd, Option.bind_some] at h2
            simp [h2]
          · omega
        · rw [if_neg hc]; exact ⟨n, d, i, rfl, hd, by omega⟩
      obtain ⟨n', d1, i1, e1, s1, l1⟩ := hnode
      obtain ⟨k', d2, i2, e2, s2, l2⟩ := ih1 d1 i1 s1 (by omega)
      obtain ⟨r', d3, i3, e3, s3, l3⟩ := ih2 d2 i2 s2 (by omega)
      exact ⟨.cons n' k' r', d3, i3, by simp [Simple.trimGo, e1, e2, e3], s3, by omega⟩
  obtain ⟨f', d', j, h1, _, _⟩ := key f _ 0 rfl (by simpa using h)
  exact ⟨f', by simp [Simple.trimIds, h1]⟩

/-- What the last tasks need. -/
structure Tail (f : Forest) : Prop where
  root : ∃ x, svgElement f = some x
  count : (namedNodes f).length < TrimIds.capacity

/-- There is a root element. -/
def Rooted (f : Forest) : Prop := ∃ x, svgElement f = some x

theorem Inv.tail {C : Ctx} {f : Forest} (h : Inv C f) (hc : C.cap ≤ TrimIds.capacity) : Tail f where
  root := h.svg
  count := Nat.lt_of_le_of_lt (List.length_filter_le _ _) (h.count.trans_le hc)

theorem named_marks (f : Forest) : (namedNodes f).length = ((marks f).filter fun x => decide (x.2.1 ≠ "")).length := by
  unfold namedNodes marks
  rw [List.filter_map, List.length_map]; rfl

theorem tail_groupByStyle {f g : Forest} (hf : Tail f) (h : GroupStyle.groupByStyle f = some g) : Tail g := by
  unfold GroupStyle.groupByStyle at h
  obtain ⟨⟨s, k⟩, hs, h⟩ := Option.bind_eq_some_iff.1 h
  obtain ⟨⟨x1, x2⟩, hx, h⟩ := Option.bind_eq_some_iff.1 h
  obtain ⟨⟨s', k', y⟩, hy, h⟩ := Option.map_eq_some_iff.1 h
  cases h
  obtain ⟨A, B, e1, e2⟩ := setSvg_split hs
  dsimp only at e1 e2 hx hy ⊢
  obtain ⟨hle1, ha1⟩ := groupKids_adds hx
  obtain ⟨hle2, hm, ha2⟩ := regroup_adds hy
  have hadds : Adds (GroupStyle.freshKey f) y (marks f) (marks (setSvgElement s' k' f)) := by
    have := (((ha1.trans ha2 hle1 hle2).right (B.map mark)).left [mark s]).left (A.map mark)
    refine this.perm ?_ ?_
    · unfold marks; rw [e1]; simp
    · unfold marks; rw [e2]; simp [hm]
  obtain ⟨ks, n1, b1, p1⟩ := hadds
  have hsk : s.kind = .elem .svg := (Simple.svgElement_some hs).1
  have hk : s'.kind = .elem .svg := by
    have hl : loose s = false := by unfold loose; rw [hsk]; rfl
    have h3 : (mark s').2.2 = (mark s).2.2 := by rw [hm]
    unfold mark at h3
    rw [hl] at h3
    dsimp only at h3
    split at h3
    · cases h3
    · simp only [Bool.false_eq_true, if_false, Option.some.injEq] at h3
      rw [h3]; exact hsk
  refine ⟨⟨_, Simple.svgElement_set hs s' k' hk⟩, ?_⟩
  rw [named_marks, (p1.filter _).length_eq, List.filter_append, List.length_append]
  have : (ks.map newMark).filter (fun x => decide (x.2.1 ≠ "")) = [] := by
    rw [List.filter_eq_nil_iff]
    intro x hx
    obtain ⟨j, _, rfl⟩ := List.mem_map.1 hx
    simp [newMark]
  rw [this, ← named_marks]
  exact hf.count

theorem rooted_map {f : Forest} {h : Node → Node} (hk : ∀ n, (h n).kind = n.kind) (hf : Rooted f) : Rooted (f.map h) := by
  obtain ⟨x, hx⟩ := hf
  exact ⟨_, by rw [Pipeline.svgElement_map hk, hx]; rfl⟩

theorem tail_unref {f : Forest} (hf : Tail f) : Tail (Simple.removeUnreferencedIds f) := by
  refine ⟨rooted_map (fun n => by split <;> rfl) hf.root, Nat.lt_of_le_of_lt ?_ hf.count⟩
  unfold namedNodes Simple.removeUnreferencedIds
  rw [Forest.nodes_map, List.filter_map, List.length_map]
  refine (List.Sublist.length_le (List.monotone_filter_right _ fun n hn => ?_))
  simp only [Function.comp, decide_eq_true_eq] at hn ⊢
  split at hn
  · exact absurd rfl hn
  · exact hn

theorem rooted_trim {f g : Forest} (hf : Rooted f) (h : Simple.trimIds f = some g) : Rooted g := by
  unfold Simple.trimIds at h
  obtain ⟨⟨g', d'⟩, h', rfl⟩ := Option.map_eq_some_iff.1 h
  replace h := h'
  clear h'
  generalize TrimIds.numNew = d at h
  obtain ⟨x, hx⟩ := hf
  induction f generalizing d d' g' with
  | nil => cases hx
  | cons n k r _ ih =>
    rw [Simple.trimGo] at h
    obtain ⟨⟨n', d1⟩, h1, h⟩ := Option.bind_eq_some_iff.1 h
    obtain ⟨⟨k', d2⟩, h2, h⟩ := Option.bind_eq_some_iff.1 h
    obtain ⟨⟨r', d3⟩, h3, h⟩ := Option.map_eq_some_iff.1 h
    cases h
    have hk : n'.isTag .svg = n.isTag .svg := by
      unfold Simple.trimNode at h1
      split at h1
      · obtain ⟨_, _, h1⟩ := Option.map_eq_some_iff.1 h1
        cases h1; rfl
      · cases h1; rfl
    by_cases ht : n.isTag .svg = true
    · exact ⟨_, by dsimp only; rw [svgElement, if_pos (by rw [hk]; exact ht)]⟩
    · rw [svgElement, if_neg ht] at hx
      obtain ⟨y, hy⟩ := ih _ _ _ h3 hx
      exact ⟨y, by dsimp only; rw [svgElement, if_neg (by rw [hk]; exact ht)]; exact hy⟩

theorem holds_removeVersion : Holds Rooted (may Simple.removeVersion) := by
  refine Holds.may fun f ⟨⟨n, k⟩, hs⟩ => ⟨setSvgElement ((n.rm .version).rm .baseProfile) k f, by unfold Simple.removeVersion; rw [hs]; rfl, _,
    Simple.svgElement_set hs _ _ (Simple.svgElement_some hs).1⟩

theorem holds_ungroupDefs : Holds Rooted (sure Simple.ungroupDefs) := by
  refine Holds.sure fun f ⟨x, hs⟩ => rooted_map (fun n => rfl) ?_
  have := svgElement_ungroupGo f false
  rw [hs] at this
  obtain ⟨y, h1, _⟩ := Option.map_eq_some_iff.1 this
  exact ⟨y, h1⟩

theorem holds_removeEmptyDefs : Holds Rooted (may Simple.removeEmptyDefs) := by
  refine Holds.may fun f ⟨x, hs⟩ => ?_
  have : ∃ g, Simple.removeEmptyDefs f = some g := by unfold Simple.removeEmptyDefs; rw [hs]; exact ⟨_, rfl⟩
  obtain ⟨g, hg⟩ := this
  refine ⟨g, hg, ?_⟩
  obtain ⟨n, k, hs, h | ⟨d, a, b, _, _, h⟩⟩ := Simple.C48_empty_defs f g hg
  · rw [h]; exact ⟨_, hs⟩
  · rw [h]
    exact ⟨_, GroupDefs.svgElement_map (Simple.svgElement_set hs n (a ++ b) (GroupDefs.svgElement_mem hs).2) fun n => rfl⟩

/-- The tasks between the preparation and `group-by-style`. -/
def middle (T : Tasks) (o : CleaningOptions) : List Task := [on o.removeTitle T.removeTitle,
  on o.removeDesc T.removeDesc,
  on o.removeMetadata T.removeMetadata,
  on o.removeUnusedDefs T.removeUnusedDefs,
  on o.removeInvalidStops T.removeInvalidStops,
  on o.applyTransformToGradients T.applyToGradients,
  on o.removeDuplLinearGradients T.removeDuplLinear,
  on o.removeDuplRadialGradients T.removeDuplRadial,
  on o.removeDuplFeGaussianBlur T.removeDuplBlurs,
  on o.mergeGradients T.mergeGradients,
  on o.applyTransformToGradients T.applyToGradients,
  on o.ungroupGroups T.ungroupGroups,
  on o.applyTransformToShapes T.applyToShapes,
  on o.convertShapes T.convertShapes,
  on o.pathsToRelative T.processPaths,
  on o.removeInvisibleElements T.removeInvisible,
  on o.regroupGradientStops T.regroupStops,
  on o.ungroupGroups T.ungroupGroups,
  on o.resolveUse T.resolveUse,
  on o.removeDefaultAttributes T.removeDefaults,
  on o.removeTextAttributes T.removeText,
  on o.removeNeedlessAttributes T.removeNeedless,
  on o.removeGradientAttributes T.removeGradientAttrs,
  on o.removeUnusedCoordinates T.removeUnusedCoords,
  on o.ungroupGroups T.ungroupGroups]

/-- The tasks from `group-by-style` on. -/
def ending (T : Tasks) (o : CleaningOptions) : List Task := [on o.groupByStyle T.groupByStyle, on o.removeUnreferencedIds T.removeUnreferencedIds,
  on o.trimIds T.trimIds, on o.removeVersion T.removeVersion, on o.ungroupDefs T.ungroupDefs, T.removeEmptyDefs,
  T.fixXmlns o.removeXmlnsXlinkAttribute, T.removeDefaultTransform, T.joinStyle o.joinStyleAttributes]

theorem plan_cut (T : Tasks) (o : CleaningOptions) : (plan T o).drop 8 = middle T o ++ ending T o := rfl

/-- From `group-by-style` on. -/
theorem tail_run (E : Env) (o : CleaningOptions) {f : Forest} (hf : Tail f) (hu : ∀ s k, svgElement f = some (s, k) → f.isUsed s.key = false) :
    runAll (ending (tasks E o) o) f ≠ .panic := by
  have e : ending (tasks E o) o = [on o.groupByStyle (may GroupStyle.groupByStyle), on o.removeUnreferencedIds (sure Simple.removeUnreferencedIds),
    on o.trimIds (may Simple.trimIds), on o.removeVersion (may Simple.removeVersion), on o.ungroupDefs (sure Simple.ungroupDefs), may Simple.removeEmptyDefs,
    may (Simple.fixXmlnsAttribute o.removeXmlnsXlinkAttribute), sure Simple.removeDefaultTransform, sure (Simple.joinStyleAttributes E.nameOf E.ser o.joinStyleAttributes)] := rfl
  rw [e]
  have n1 : ∀ {b : Bool} {t : Forest → Option Forest} {f : Forest}, (∃ g, t f = some g) → on b (may t) f ≠ .panic := by
    intro b t f h
    unfold Pipeline.on
    cases b
    · simp
    · exact may_panic h
  have n2 : ∀ {P : Forest → Prop} {b : Bool} {t : Forest → Option Forest} {f g : Forest}, P f → (∀ g, t f = some g → P g) → on b (may t) f = .ok g → P g := by
    intro P b t f g h1 h2 h
    unfold Pipeline.on at h
    cases b
    · cases h; exact h1
    · exact h2 _ (may_ok h)
  obtain ⟨⟨s, k⟩, hs⟩ := hf.root
  refine runAll_panic (n1 (GroupStyle.C37_no_panic hs (hu s k hs))) fun f1 h1 => ?_
  have t1 : Tail f1 := n2 hf (fun g h => tail_groupByStyle hf h) h1
  obtain ⟨p2, q2⟩ := (Holds.sure (P := Tail) (t := Simple.removeUnreferencedIds) fun f => tail_unref).on o.removeUnreferencedIds f1 t1
  refine runAll_panic p2 fun f2 h2 => ?_
  have t2 := q2 f2 h2
  refine runAll_panic (n1 (trim_total t2.count)) fun f3 h3 => ?_
  have t3 : Rooted f3 := n2 (P := Rooted) t2.root (fun g h => rooted_trim t2.root h) h3
  obtain ⟨p4, q4⟩ := holds_removeVersion.on o.removeVersion f3 t3
  refine runAll_panic p4 fun f4 h4 => ?_
  obtain ⟨p5, q5⟩ := holds_ungroupDefs.on o.ungroupDefs f4 (q4 f4 h4)
  refine runAll_panic p5 fun f5 h5 => ?_
  obtain ⟨p6, q6⟩ := holds_removeEmptyDefs f5 (q5 f5 h5)
  refine runAll_panic p6 fun f6 h6 => ?_
  have r9 : ∃ g, Simple.fixXmlnsAttribute o.removeXmlnsXlinkAttribute f6 = some g := by
    obtain ⟨x, hx⟩ := q6 f6 h6
    unfold Simple.fixXmlnsAttribute; rw [hx]; exact ⟨_, rfl⟩
  refine runAll_panic (may_panic r9) fun f9 h9 => ?_
  refine runAll_panic (by simp [sure]) fun f10 h10 => ?_
  refine runAll_panic (by simp [sure]) fun f11 h11 => ?_
  simp [runAll]

theorem runAll_append (a b : List Task) (f : Forest) : runAll (a ++ b) f = (runAll a f).bind (runAll b) := by
  induction a generalizing f with
  | nil => rfl
  | cons t ts ih =>
    rw [List.cons_append, Pipeline.runAll, Pipeline.runAll]
    cases t f with
    | ok g => simp only [Res.bind]; exact ih g
    | _ => rfl

theorem Inv.rootUnused {C : Ctx} {f : Forest} (h : Inv C f) {s : Node} {k : Forest} (hs : svgElement f = some (s, k)) : f.isUsed s.key = false := by
  obtain ⟨S, ks, D, h1, h2, _⟩ := h.root
  rw [hs] at h1
  cases h1
  cases hu : f.isUsed s.key with
  | false => rfl
  | true =>
    obtain ⟨m, hm, hl⟩ := Forest.isUsed_iff.1 hu
    obtain ⟨x, hx, e⟩ := Node.mem_links.1 hl
    exact absurd h2 (((h.nodes m hm).attrs x hx).link _ e).2.2.2.1

/-- The invariant at a point of the run: whether each gradient has either stops or a reference, whether the ids of the gradients are unique, and how many nodes there may be. -/
def Stage (e u : Bool) (cap : Nat) (f : Forest) : Prop :=
  ∃ C : Ctx, (∀ k, ¬ C.bare k) ∧ (C.early ↔ e = true) ∧ (e = true → ¬ C.raw) ∧ (C.uniq ↔ u = true) ∧ C.cap = cap ∧ Inv C f

theorem Stage.late {e u : Bool} {cap : Nat} {f : Forest} (h : Stage e u cap f) (e' u' : Bool) (he : e' = true → e = true) (hu : u' = true → u = true) : Stage e' u' cap f := by
  obtain ⟨C, h1, h2, h0, h3, h4, h5⟩ := h
  exact ⟨{ C with early := e' = true, uniq := u' = true }, h1, Iff.rfl, fun h => h0 (he h), Iff.rfl, h4, h5.late _ _ (fun h => h2.2 (he h)) fun h => h3.2 (hu h)⟩

theorem Stage.holds {e u : Bool} {cap : Nat} {t : Task} (h : ∀ C : Ctx, (∀ k, ¬ C.bare k) → (C.early ↔ e = true) → (e = true → ¬ C.raw) → (C.uniq ↔ u = true) → Holds (Inv C) t) (b : Bool) : Holds (Stage e u cap) (on b t) := by
  refine Holds.on ?_ b
  rintro f ⟨C, h1, h2, h0, h3, h4, h5⟩
  obtain ⟨p, q⟩ := h C h1 h2 h0 h3 f h5
  exact ⟨p, fun g e => ⟨C, h1, h2, h0, h3, h4, q g e⟩⟩

/-- A task after which another invariant holds. -/
theorem Leads.on {P Q : Forest → Prop} {t : Task} (h : Leads P Q t) (hi : ∀ f, P f → Q f) (b : Bool) : Leads P Q (on b t) := by
  intro f hf
  unfold Pipeline.on
  cases b
  · exact ⟨by simp, fun g e => by cases e; exact hi f hf⟩
  · exact h f hf

theorem Leads.run {P Q R : Forest → Prop} {t : Task} {ts : List Task} (h : Leads P Q t) (hs : Leads Q R (runAll ts)) : Leads P R (runAll (t :: ts)) := by
  intro f hf
  obtain ⟨h1, h2⟩ := h f hf
  rw [runAll]
  cases ht : t f with
  | panic => exact absurd ht h1
  | err e => exact ⟨by simp [Res.bind], fun g e => by cases e⟩
  | ok g => exact hs g (h2 g ht)

theorem Leads.of {P : Forest → Prop} {t : Task} (h : Holds P t) : Leads P P t := h

theorem Leads.weaken {P Q R : Forest → Prop} {t : Task} (hi : ∀ f, P f → Q f) (h : Leads Q R t) : Leads P R t := fun f hf => h f (hi f hf)

theorem Leads.nil {P Q : Forest → Prop} (hi : ∀ f, P f → Q f) : Leads P Q (runAll []) := fun f hf => ⟨by simp [runAll], fun g e => by cases e; exact hi f hf⟩

theorem tasks_invisible (E : Env) (o : CleaningOptions) : (tasks E o).removeInvisible = may Invisible.removeInvisible := by
  delta tasks
  with_reducible rfl

theorem holds_rmLinear {cap : Nat} (b : Bool) : Holds (Stage true true cap) (on b (may Dupl.rmLinear)) := by
  refine Holds.on (Holds.may ?_) b
  rintro f ⟨C, h1, h2, h0, h3, h4, h5⟩
  obtain ⟨g, r, e, hg⟩ := h5.rmKind (h2.2 rfl) (h3.2 rfl) h1 (e := .linearGradient) rfl (as := Dupl.linearAttrs) (by decide)
  exact ⟨g, e, { C with rank := r }, h1, h2, h0, h3, h4, hg⟩

theorem holds_rmRadial {cap : Nat} (b : Bool) : Holds (Stage true true cap) (on b (may Dupl.rmRadial)) := by
  refine Holds.on (Holds.may ?_) b
  rintro f ⟨C, h1, h2, h0, h3, h4, h5⟩
  obtain ⟨g, r, e, hg⟩ := h5.rmKind (h2.2 rfl) (h3.2 rfl) h1 (e := .radialGradient) rfl (as := Dupl.radialAttrs) (by decide)
  exact ⟨g, e, { C with rank := r }, h1, h2, h0, h3, h4, hg⟩

theorem stage_invisible {cap : Nat} : Leads (Stage true false cap) (Stage false false cap) (may Invisible.removeInvisible) := by
  rintro f ⟨C, h1, h2, h0, h3, h4, h5⟩
  obtain ⟨p, q⟩ := leads_removeInvisible (h2.2 rfl) f h5
  exact ⟨p, fun g e => ⟨{ C with early := False }, h1, by simp, fun e => (by cases e), h3, h4, q g e⟩⟩

theorem stage_regroup {cap : Nat} : Leads (Stage false false cap) (Stage false false (2 * cap)) (may Regroup.regroup) := by
  rintro f ⟨C, h1, h2, h0, h3, h4, h5⟩
  obtain ⟨g, C', e, q1, q2, q3, q4, q5⟩ := h5.regroup (by simp [h2]) (by simp [h3]) h1
  refine ⟨may_panic ⟨g, e⟩, fun g' e' => ?_⟩
  have := may_ok e'
  rw [e] at this
  cases this
  exact ⟨C', q5, by simp [q3], fun e => (by cases e), by simp [q4], by rw [q2, h4], q1⟩

theorem Inv.wide {C : Ctx} {f : Forest} (h : Inv C f) {cap : Nat} (hc : C.cap ≤ cap) : Inv { C with cap := cap } f where
  unique := h.unique
  links := h.links
  nodes n hn := ⟨(h.nodes n hn).kind, (h.nodes n hn).full, (h.nodes n hn).named, (h.nodes n hn).single, fun x hx => by
    have := (h.nodes n hn).attrs x hx
    exact ⟨⟨this.grad.ts, this.grad.color, this.grad.opacity, this.grad.href, this.grad.link, this.grad.shown, this.grad.stop⟩, this.transform, this.opacity, this.points,
      this.d, this.shown, this.link⟩⟩
  trees x hx := ⟨(h.trees x hx).group, (h.trees x hx).leaf, (h.trees x hx).stops, (h.trees x hx).early, (h.trees x hx).below⟩
  root := h.root
  count := h.count.trans_le hc
  ids := h.ids

theorem Stage.more {e u : Bool} {cap : Nat} {f : Forest} (h : Stage e u cap f) {cap' : Nat} (hc : cap ≤ cap') : Stage e u cap' f := by
  obtain ⟨C, h1, h2, h0, h3, h4, h5⟩ := h
  exact ⟨{ C with cap := cap' }, h1, h2, h0, h3, rfl, h5.wide (h4 ▸ hc)⟩

/-- The tasks before `group-by-style`. -/
theorem leads_middle (E : Env) (o : CleaningOptions) (cap : Nat) : Leads (Stage true true cap) (Stage false false (2 * cap)) (runAll (middle (tasks E o) o)) := by
  have no : ∀ {P : Prop}, (P ↔ false = true) → ¬ P := fun h hp => absurd (h.1 hp) (by decide)
  have e : middle (tasks E o) o = [on o.removeTitle (sure (Simple.removeElement .title)),
    on o.removeDesc (sure (Simple.removeElement .desc)),
    on o.removeMetadata (sure (Simple.removeElement .metadata)),
    on o.removeUnusedDefs (may UnusedDefs.removeUnusedDefs),
    on o.removeInvalidStops (sure Stops.removeInvalidStops),
    on o.applyTransformToGradients (may ApplyTs.applyToGradients),
    on o.removeDuplLinearGradients (may Dupl.rmLinear),
    on o.removeDuplRadialGradients (may Dupl.rmRadial),
    on o.removeDuplFeGaussianBlur (may Dupl.rmBlurs),
    on o.mergeGradients (may Merge.mergeGradients),
    on o.applyTransformToGradients (may ApplyTs.applyToGradients),
    on o.ungroupGroups (may fun f => (Ungroup.ungroupGroups (tsOpts o) f).bind id),
    on o.applyTransformToShapes (may ApplyTs.applyToShapes),
    on o.convertShapes (may ConvShapes.convertShapes),
    on o.pathsToRelative (may (ApplyTs.processPaths o.applyTransformToPaths (pathOpts o))),
    on o.removeInvisibleElements (may Invisible.removeInvisible),
    on o.regroupGradientStops (may Regroup.regroup),
    on o.ungroupGroups (may fun f => (Ungroup.ungroupGroups (tsOpts o) f).bind id),
    on o.resolveUse (may ResolveUse.resolveUse),
    on o.removeDefaultAttributes (may (DefaultAttrs.removeDefaults E.ini)),
    on o.removeTextAttributes (may TextAttrs.removeText),
    on o.removeNeedlessAttributes (sure Needless.removeNeedless),
    on o.removeGradientAttributes (may GradUnits.removeGradientAttributes),
    on o.removeUnusedCoordinates (sure Simple.removeUnusedCoords),
    on o.ungroupGroups (may fun f => (Ungroup.ungroupGroups (tsOpts o) f).bind id)] := by
    rw [← tasks_invisible E o]; rfl
  rw [e]
  refine Leads.run (Stage.holds (fun C _ _ _ _ => holds_removeElement (by decide) (by decide) ⟨rfl, by decide⟩) _) ?_
  refine Leads.run (Stage.holds (fun C _ _ _ _ => holds_removeElement (by decide) (by decide) ⟨rfl, by decide⟩) _) ?_
  refine Leads.run (Stage.holds (fun C _ _ _ _ => holds_removeElement (by decide) (by decide) ⟨rfl, by decide⟩) _) ?_
  refine Leads.run (Stage.holds (fun C _ _ _ _ => holds_removeUnusedDefs) _) ?_
  refine Leads.run (Stage.holds (fun C _ _ _ _ => holds_removeInvalidStops) _) ?_
  refine Leads.run (Stage.holds (fun C _ _ _ _ => holds_applyToGradients) _) ?_
  refine Leads.run (holds_rmLinear _) ?_
  refine Leads.run (holds_rmRadial _) ?_
  refine Leads.weaken (Q := Stage true false cap) (fun f hf => hf.late true false (fun h => h) fun _ => rfl) ?_
  refine Leads.run (Stage.holds (fun C _ _ _ _ => holds_rmBlurs) _) ?_
  refine Leads.run (Stage.holds (fun C _ he _ _ => holds_mergeGradients (he.2 rfl)) _) ?_
  refine Leads.run (Stage.holds (fun C _ _ _ _ => holds_applyToGradients) _) ?_
  refine Leads.run (Stage.holds (fun C _ _ _ hq => holds_ungroupGroups (no hq) _) _) ?_
  refine Leads.run (Stage.holds (fun C _ _ _ _ => holds_applyToShapes) _) ?_
  refine Leads.run (Stage.holds (fun C _ _ hr _ => holds_convertShapes (hr rfl)) _) ?_
  refine Leads.run (Stage.holds (fun C _ _ _ _ => holds_processPaths) _) ?_
  refine Leads.run (stage_invisible.on (fun f hf => hf.late false false (fun _ => rfl) fun h => h) _) ?_
  refine Leads.run (stage_regroup.on (fun f hf => hf.more (by omega)) _) ?_
  refine Leads.run (Stage.holds (fun C _ _ _ hq => holds_ungroupGroups (no hq) _) _) ?_
  refine Leads.run (Stage.holds (fun C _ he _ hq => holds_resolveUse (no he) (no hq)) _) ?_
  refine Leads.run (Stage.holds (fun C _ _ _ _ => holds_removeDefaults) _) ?_
  refine Leads.run (Stage.holds (fun C _ _ _ _ => holds_removeText) _) ?_
  refine Leads.run (Stage.holds (fun C _ _ _ _ => holds_removeNeedless) _) ?_
  refine Leads.run (Stage.holds (fun C hb _ _ _ => holds_gradientAttrs hb) _) ?_
  refine Leads.run (Stage.holds (fun C _ _ _ _ => holds_removeUnusedCoords) _) ?_
  refine Leads.run (Stage.holds (fun C _ _ _ hq => holds_ungroupGroups (no hq) _) _) ?_
  exact Leads.nil fun f hf => hf

/-- After the preparation, nothing crashes. -/
theorem prepared_run (E : Env) (o : CleaningOptions) {cap : Nat} (hc : 2 * cap ≤ TrimIds.capacity) {f : Forest} (hf : Stage true true cap f) :
    runAll ((plan (tasks E o) o).drop 8) f ≠ .panic := by
  rw [plan_cut, runAll_append]
  obtain ⟨h1, h2⟩ := leads_middle E o cap f hf
  cases hr : runAll (middle (tasks E o) o) f with
  | panic => exact absurd hr h1
  | err e => simp [Res.bind]
  | ok g =>
    obtain ⟨C, _, _, _, _, hcap, hg⟩ := h2 g hr
    exact tail_run E o (hg.tail (by rw [hcap]; exact hc)) fun s k hs => hg.rootUnused hs

end Verif.Crash
