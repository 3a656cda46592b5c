import Verif.Pipeline
/-
C22, C54 and C55: references, options that are off, foreign content.
-/
namespace Verif.Pipeline
open Verif.Dom Verif.Spec
open Verif.Dom (Res)
open Verif.Cli (CleaningOptions)
open Verif.Simple (Targeted OnlySvgIds)
open Verif.Regroup (IdsUnique)

/-- A task that is safe whenever it ends with success. -/
def Sound (t : Task) : Prop := ∀ f g, t f = .ok g → Safe f g

theorem sound_may {t : Forest → Option Forest} (h : ∀ f g, t f = some g → Safe f g) : Sound (may t) := fun f g e => by
  unfold may at e
  cases ht : t f with
  | none => rw [ht] at e; cases e
  | some g' => rw [ht] at e; cases e; exact h f _ ht

theorem sound_sure {t : Forest → Forest} (h : ∀ f, Safe f (t f)) : Sound (sure t) := fun f g e => by
  cases e; exact h f

theorem sound_on {t : Task} (b : Bool) (h : Sound t) : Sound (on b t) := fun f g e => by
  unfold on at e
  cases b
  · cases e; exact Safe.refl f
  · exact h f g e

theorem sound_check (c : Forest → Except Simple.ErrKind Unit) : Sound (check c) := fun f g e => by
  unfold check at e
  split at e
  · cases e; exact Safe.refl f
  · cases e

theorem runAll_cons {t : Task} {ts : List Task} {f g : Forest} (h : runAll (t :: ts) f = .ok g) : ∃ f1, t f = .ok f1 ∧ runAll ts f1 = .ok g := by
  rw [runAll] at h
  cases ht : t f with
  | ok f1 => rw [ht] at h; exact ⟨f1, rfl, h⟩
  | err e => rw [ht] at h; cases h
  | panic => rw [ht] at h; cases h

theorem sound_runAll {ts : List Task} (h : ∀ t ∈ ts, Sound t) : Sound (runAll ts) := by
  induction ts with
  | nil => intro f g e; cases e; exact Safe.refl f
  | cons t ts ih =>
    intro f g e
    obtain ⟨f1, h1, h2⟩ := runAll_cons e
    exact (h t (List.mem_cons_self ..) f f1 h1).trans (ih (fun s hs => h s (List.mem_cons_of_mem _ hs)) f1 g h2)

theorem safe_ungroup {o : ApplyTs.TsOpts} {f g : Forest} (h : (Ungroup.ungroupGroups o f).bind id = some g) : Safe f g := by
  obtain ⟨x, h1, h2⟩ := Option.bind_eq_some_iff.1 h
  have h2 : x = some g := h2
  subst h2
  exact (step_ungroupGroups h1).safe

theorem sound_plan (E : Env) (o : CleaningOptions) : ∀ t ∈ plan (tasks E o) o, Sound t := by
  intro t ht
  simp only [plan, tasks, List.mem_cons, List.not_mem_nil, or_false] at ht
  rcases ht with rfl | rfl | rfl | rfl | rfl | rfl | rfl | rfl | rfl | rfl | rfl | rfl | rfl | rfl | rfl | rfl | rfl | rfl | rfl | rfl |
    rfl | rfl | rfl | rfl | rfl | rfl | rfl | rfl | rfl | rfl | rfl | rfl | rfl | rfl | rfl | rfl | rfl | rfl | rfl | rfl | rfl | rfl
  · exact sound_check _
  · exact sound_may fun f g h => (step_resolveLinear h).safe
  · exact sound_may fun f g h => (step_resolveRadial h).safe
  · exact fun f g h => (step_resolveStops h).safe
  · exact fun f g h => (step_resolveInherit h).safe
  · exact sound_may fun f g h => (step_fixInvalid h).safe
  · exact sound_may fun f g h => safe_groupDefs h
  · exact sound_may fun f g h => (step_roundNumbers h).safe
  · exact sound_on _ (sound_sure fun f => (step_removeElement _ f).safe)
  · exact sound_on _ (sound_sure fun f => (step_removeElement _ f).safe)
  · exact sound_on _ (sound_sure fun f => (step_removeElement _ f).safe)
  · exact sound_on _ (sound_may fun f g h => (tame_removeUnusedDefs h).safe)
  · exact sound_on _ (sound_sure fun f => (step_removeInvalidStops f).safe)
  · exact sound_on _ (sound_may fun f g h => (step_applyToGradients h).safe)
  · exact sound_on _ (sound_may fun f g h => (step_rmLinear h).safe)
  · exact sound_on _ (sound_may fun f g h => (step_rmRadial h).safe)
  · exact sound_on _ (sound_may fun f g h => (step_rmBlurs h).safe)
  · exact sound_on _ (sound_may fun f g h => (tame_mergeGradients h).safe)
  · exact sound_on _ (sound_may fun f g h => (step_applyToGradients h).safe)
  · exact sound_on _ (sound_may fun f g h => safe_ungroup h)
  · exact sound_on _ (sound_may fun f g h => (step_applyToShapes h).safe)
  · exact sound_on _ (sound_may fun f g h => (step_convertShapes h).safe)
  · exact sound_on _ (sound_may fun f g h => (step_processPaths h).safe)
  · exact sound_on _ (sound_may fun f g h => (tame_removeInvisible h).safe)
  · exact sound_on _ (sound_may fun f g h => safe_regroup h)
  · exact sound_on _ (sound_may fun f g h => safe_ungroup h)
  · exact sound_on _ (sound_may fun f g h => (tame_resolveUse h).safe)
  · exact sound_on _ (sound_may fun f g h => (step_removeDefaults h).safe)
  · exact sound_on _ (sound_may fun f g h => (step_removeText h).safe)
  · exact sound_on _ (sound_sure fun f => (step_removeNeedless f).safe)
  · exact sound_on _ (sound_may fun f g h => (step_removeGradientAttributes h).safe)
  · exact sound_on _ (sound_sure fun f => (step_removeUnusedCoords f).safe)
  · exact sound_on _ (sound_may fun f g h => safe_ungroup h)
  · exact sound_on _ (sound_may fun f g h => safe_groupByStyle h)
  · exact sound_on _ (sound_sure fun f => safe_removeUnreferencedIds f)
  · exact sound_on _ (sound_may fun f g h => safe_trimIds h)
  · exact sound_on _ (sound_may fun f g h => (step_removeVersion h).safe)
  · exact sound_on _ (sound_sure fun f => (step_ungroupDefs f).safe)
  · exact sound_may fun f g h => (step_removeEmptyDefs h).safe
  · exact sound_may fun f g h => (step_fixXmlns h).safe
  · exact sound_sure fun f => (step_removeDefaultTransform f).safe
  · exact sound_sure fun f => (step_joinStyle _ _ _ f).safe

/-! ### C22 -/

/-- The part of a run up to some task. -/
def runUpTo (E : Env) (o : CleaningOptions) (i : Nat) : Task := runAll ((plan (tasks E o) o).take i)

theorem keeps_upTo {E : Env} {o : CleaningOptions} {i : Nat} {f g : Forest} (h : runUpTo E o i f = .ok g) : Safe f g :=
  sound_runAll (fun t ht => sound_plan E o t (List.mem_of_mem_take ht)) f g h

theorem keeps_run {E : Env} {o : CleaningOptions} {f g : Forest} (h : cleanDoc E o f = .ok g) : Safe f g :=
  sound_runAll (sound_plan E o) f g h

/-- C22: a run of the cleaner, with any options, leaves no reference without its target, no matter how far it gets. -/
theorem C22_references (E : Env) (o : CleaningOptions) (i : Nat) {f g : Forest} (hu : f.UniqueKeys) (hl : f.LinksOk) (h : runUpTo E o i f = .ok g) :
    g.UniqueKeys ∧ ∀ n ∈ g.nodes, ∀ k ∈ n.links, ∃ t ∈ g.nodes, t.key = k := by
  have := keeps_upTo h hu hl
  exact ⟨this.unique, fun n hn k hk => Forest.mem_keys.1 (this.links n hn k hk)⟩

/-- The whole run is the run up to the last task. -/
theorem C22_whole_run (E : Env) (o : CleaningOptions) : cleanDoc E o = runUpTo E o 42 := rfl

theorem resolves_of_ids {f : Forest} (hu : f.UniqueKeys) (hi : IdsUnique f) (ht : Targeted f) : Resolves f := by
  intro n hn k hk
  obtain ⟨t, htm, rfl, hid⟩ := ht n hn k hk
  refine ⟨t, htm, rfl, hid, ?_⟩
  unfold byId
  cases hc : f.nodes.find? (fun n => decide (n.id = t.id)) with
  | none =>
    rw [List.find?_eq_none] at hc
    exact absurd (hc t htm) (by simp)
  | some m =>
    have h2 : m.id = t.id := by simpa using List.find?_some hc
    rw [Option.map_some, hi m (List.mem_of_find?_eq_some hc) t htm (h2 ▸ hid) h2]

/-- C22, as seen in the written file: if ids are different and on SVG elements, and whatever is referred to has one, then after
the run every reference, looked up by its id, still reaches an element of the document, the one it is meant to. -/
theorem C22_by_id (E : Env) (o : CleaningOptions) (i : Nat) {f g : Forest} (hu : f.UniqueKeys) (hi : IdsUnique f) (ho : OnlySvgIds f) (ht : Targeted f)
    (h : runUpTo E o i f = .ok g) : Resolves g ∧ IdsUnique g := by
  have hl : f.LinksOk := fun n hn k hk => by
    obtain ⟨t, ht, rfl, _⟩ := ht n hn k hk
    exact Forest.key_mem ht
  have := keeps_upTo h hu hl
  exact ⟨resolves_of_ids this.unique (this.ids hi ho).1 (this.targeted ht), (this.ids hi ho).1⟩

theorem runAll_append {ts us : List Task} {f g : Forest} (h : runAll (ts ++ us) f = .ok g) : ∃ f1, runAll ts f = .ok f1 ∧ runAll us f1 = .ok g := by
  induction ts generalizing f with
  | nil => exact ⟨f, rfl, h⟩
  | cons t ts ih =>
    obtain ⟨f1, h1, h2⟩ := runAll_cons h
    obtain ⟨f2, h3, h4⟩ := ih h2
    exact ⟨f2, by rw [runAll, h1]; exact h3, h4⟩

/-- The last task writes presentation attributes as text, references too; this text is about a document in which they resolve, and
no node gets another id. -/
theorem C22_style_text (E : Env) (o : CleaningOptions) {f g : Forest} (hu : f.UniqueKeys) (hi : IdsUnique f) (ho : OnlySvgIds f) (ht : Targeted f)
    (h : cleanDoc E o f = .ok g) :
    ∃ d, runUpTo E o 41 f = .ok d ∧ Resolves d ∧ g = d.map (Simple.joinNode E.nameOf E.ser o.joinStyleAttributes) ∧
      g.nodes.map (fun n => (n.key, n.id)) = d.nodes.map (fun n => (n.key, n.id)) := by
  have e : plan (tasks E o) o = (plan (tasks E o) o).take 41 ++ [(tasks E o).joinStyle o.joinStyleAttributes] := rfl
  unfold cleanDoc at h
  rw [e] at h
  obtain ⟨d, h1, h2⟩ := runAll_append h
  obtain ⟨g', h3, h4⟩ := runAll_cons h2
  cases h4
  cases h3
  have hj : Simple.joinStyleAttributes E.nameOf E.ser o.joinStyleAttributes d = d.map (Simple.joinNode E.nameOf E.ser o.joinStyleAttributes) := by
    unfold Simple.joinStyleAttributes
    split
    next hm =>
      refine (Forest.map_id' fun n _ => ?_).symm
      unfold Simple.joinNode
      rw [hm]
      simp
    · rfl
  refine ⟨d, h1, (C22_by_id E o 41 hu hi ho ht h1).1, hj, ?_⟩
  rw [hj, Forest.nodes_map, List.map_map]
  refine List.map_congr_left fun n _ => ?_
  unfold Simple.joinNode
  simp only [Function.comp_apply]
  split <;> rfl

/-! ### C55 -/

/-- C55: character data, comments and foreign elements of the result are those of the input, with the same text or name. -/
theorem C55_content (E : Env) (o : CleaningOptions) (i : Nat) {f g : Forest} (hu : f.UniqueKeys) (hl : f.LinksOk) (h : runUpTo E o i f = .ok g) :
    ∀ m ∈ g.nodes, (∀ e, m.kind ≠ .elem e) → ∃ n ∈ f.nodes, n.key = m.key ∧ n.kind = m.kind :=
  fun m hm hf => (keeps_upTo h hu hl).lasting m hm (Foreign.lasting hf)

end Verif.Pipeline
