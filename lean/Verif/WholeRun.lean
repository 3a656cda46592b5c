import Verif.WholeRest
/-
C71: a whole run.
-/
namespace Verif.Whole
open Verif.Dom Verif.Spec Verif.Render Verif.Draft Verif.Pipeline
open Verif.Dom (Res)
open Verif.Cli (CleaningOptions)
open Verif.Simple
open Verif.Reader (Standard)

/-- A task that keeps the drawing of the documents with `Q`, and gives a document with `R`. -/
def Serene (ini : AId → Option Value) (Q R : Forest → Prop) (t : Task) : Prop := ∀ f g, Q f → t f = .ok g → SameDrawing ini f g ∧ R g

section
variable {ini : AId → Option Value} {Q R S : Forest → Prop} {t : Task} {o : CleaningOptions} {b : Stage}

theorem serene_of (h : Calm Q R t) : Serene ini Q R t := fun f g hf hg => ⟨.of_view (h f g hf hg).1, (h f g hf hg).2⟩

theorem serene_id (h : ∀ f g, Q f → t f = .ok g → g = f) : Serene ini Q Q t := fun f g hf hg => by
  cases h f g hf hg
  exact ⟨.refl f, hf⟩

theorem serene_if (b : Bool) (hqr : ∀ f, Q f → R f) (h : b = true → Serene ini Q R t) : Serene ini Q R (on b t) := by
  intro f g hf hg
  cases b with
  | false => rw [on_off hg]; exact ⟨.refl _, hqr _ hf⟩
  | true => exact h rfl f g hf hg

theorem serene_on (b : Bool) (h : Serene ini Q Q t) : Serene ini Q Q (on b t) := serene_if b (fun _ h => h) fun _ => h

theorem serene_nil : Serene ini Q Q (runAll []) := serene_of calm_nil

theorem serene_cons {ts : List Task} (h1 : Serene ini Q R t) (h2 : Serene ini R S (runAll ts)) : Serene ini Q S (runAll (t :: ts)) := by
  intro f g hf h
  obtain ⟨a, ha, hb⟩ := runAll_cons h
  obtain ⟨l1, q1⟩ := h1 f a hf ha
  obtain ⟨l2, q2⟩ := h2 a g q1 hb
  exact ⟨l1.trans l2, q2⟩

/-- A task that changes gradients. -/
theorem serene_gradient {b' : Bool} (hoff : GradientsOff o → b' = false) (h : ∀ f g, NoGradients f → t f = .ok g → g = f) : Serene ini (Apt ini b o) (Apt ini b o) (on b' t) := by
  intro f g hf hg
  rcases hf.gradients with h' | h'
  · rw [hoff h'] at hg
    rw [on_off hg]
    exact ⟨.refl _, hf⟩
  · rcases on_cases hg with rfl | hg
    · exact ⟨.refl _, hf⟩
    · rw [h f g h' hg]; exact ⟨.refl _, hf⟩

theorem serene_desc {e : EId} (he : isDesc (.elem e) = true) : Serene ini (Apt ini b o) (Apt ini b o) (sure (Simple.removeElement e)) := serene_of (@calm_desc (apt ini b o) _ he)
theorem serene_defs : Serene ini (Apt ini b o) (Apt ini b o) (may UnusedDefs.removeUnusedDefs) := serene_of (@calm_defs (apt ini b o))
theorem serene_ungroup (q : ApplyTs.TsOpts) : Serene ini (Apt ini b o) (Apt ini b o) (may fun f => (Ungroup.ungroupGroups q f).bind id) := serene_of (@calm_ungroup (apt ini b o) q)
theorem serene_invisible (E : Pipeline.Env) : Serene ini (Apt ini b o) (Apt ini b o) (tasks E o).removeInvisible := serene_of (@calm_task (apt ini b o) E o)
theorem serene_use : Serene ini (Apt ini b o) (Apt ini b o) (may ResolveUse.resolveUse) := serene_of (@calm_use (apt ini b o))

end

/-- The tasks up to the one that makes new groups. -/
theorem serene_head (E : Pipeline.Env) (o : CleaningOptions) (hs : Standard E.ini) :
    Serene E.ini (Apt E.ini .shapes o) (Apt E.ini .late o) (runAll (((plan (tasks E o) o).drop 8).take 25)) := by
  show Serene E.ini _ _ (runAll (_ :: _ :: _ :: _))
  refine serene_cons (serene_on _ (serene_desc rfl)) (serene_cons (serene_on _ (serene_desc rfl)) (serene_cons (serene_on _ (serene_desc rfl)) ?_))
  refine serene_cons (serene_on _ serene_defs) ?_
  refine serene_cons (serene_gradient (fun h => h.invalidStops) fun f g h hg => by cases hg; exact h.stops) ?_
  refine serene_cons (serene_gradient (fun h => h.gradientTs) fun f g h hg => h.transforms (may_ok hg)) ?_
  refine serene_cons (serene_gradient (fun h => h.duplLinear) fun f g h hg => h.linear (may_ok hg)) ?_
  refine serene_cons (serene_gradient (fun h => h.duplRadial) fun f g h hg => h.radial (may_ok hg)) ?_
  refine serene_cons (serene_on _ (serene_id fun f g hf hg => hf.blurs (may_ok hg))) ?_
  refine serene_cons (serene_gradient (fun h => h.merge) fun f g h hg => h.merge (may_ok hg)) ?_
  refine serene_cons (serene_gradient (fun h => h.gradientTs) fun f g h hg => h.transforms (may_ok hg)) ?_
  refine serene_cons (serene_on _ (serene_ungroup _)) ?_
  refine serene_cons (serene_on _ fun f g hf hg => hf.shapeTs (by decide) (may_ok hg)) ?_
  refine serene_cons (serene_on _ fun f g hf hg => hf.shapes (may_ok hg)) ?_
  refine serene_cons (R := Apt E.ini .paths o) (serene_if _ (fun f hf => hf.later) fun _ f g hf hg => hf.paths (may_ok hg)) ?_
  refine serene_cons (serene_on _ (serene_invisible E)) ?_
  refine serene_cons (serene_gradient (fun h => h.regroup) fun f g h hg => h.regroup (may_ok hg)) ?_
  refine serene_cons (serene_on _ (serene_ungroup _)) (serene_cons (serene_on _ serene_use) ?_)
  refine serene_cons (R := Apt E.ini .late o) (serene_if _ (fun f hf => hf.last) fun _ f g hf hg => hf.last.defaults (may_ok hg)) ?_
  refine serene_cons (serene_if _ (fun _ h => h) fun ho f g hf hg => hf.text ho (may_ok hg)) ?_
  refine serene_cons (serene_on _ fun f g hf hg => by cases hg; exact hf.needless hs) ?_
  refine serene_cons (serene_gradient (fun h => h.gradientAttrs) fun f g h hg => h.attributes (may_ok hg)) ?_
  refine serene_cons (serene_if _ (fun _ h => h) fun ho f g hf hg => by cases hg; exact hf.coords ho) ?_
  exact serene_cons (serene_on _ (serene_ungroup _)) serene_nil

/-- All tasks after the preparation, but for the last one. -/
theorem serene_tail (E : Pipeline.Env) (o : CleaningOptions) (hs : Standard E.ini) :
    Serene E.ini (Apt E.ini .shapes o) Tidy (runAll (((plan (tasks E o) o).drop 8).take 33)) := by
  intro f g hf hg
  have e : ((plan (tasks E o) o).drop 8).take 33 = ((plan (tasks E o) o).drop 8).take 25 ++ ((plan (tasks E o) o).drop 33).take 8 := rfl
  rw [e] at hg
  obtain ⟨a, h1, h2⟩ := runAll_append hg
  obtain ⟨l1, q1⟩ := serene_head E o hs f a hf h1
  suffices h : Calm (Apt E.ini .late o) Tidy (runAll (((plan (tasks E o) o).drop 33).take 8)) from ⟨l1.trans (.of_view (h a g q1 h2).1), (h a g q1 h2).2⟩
  show Calm _ _ (runAll (_ :: _ :: _ :: _))
  refine calm_cons (@calm_style (apt E.ini .late o) _) ?_
  refine calm_cons (calm_on (calm_twins fun f g _ h => by cases h; exact twins_unreferenced f) _) ?_
  refine calm_cons (calm_on (calm_twins fun f g _ h => twins_trim (may_ok h)) _) ?_
  refine calm_cons (calm_on (calm_twins fun f g _ h => twins_version (may_ok h)) _) ?_
  refine calm_cons (calm_on (calm_of fun f g hf h => by cases h; exact ungroupDefs_tidy hf) _) ?_
  refine calm_cons (R := Tidy) (calm_of fun f g hf h => ⟨(removeEmptyDefs_tidy hf (may_ok h)).1, removeEmptyDefs_keeps hf (may_ok h)⟩) ?_
  refine calm_cons (R := Tidy) (calm_twins fun f g _ h => twins_xmlns (may_ok h)) ?_
  exact calm_cons (R := Tidy) (calm_twins fun f g hf h => by cases h; exact twins_dropDefault hf) calm_nil

/-- C71 for the document in memory, in which hidden attributes count like the others (`C71_drawing_partial` is about the file, without them). -/
theorem C71_memory_partial (E : Pipeline.Env) (o : CleaningOptions) (hs : Standard E.ini) {f p g : Forest} (h : runUpTo E o 8 f = .ok p)
    (hp : Apt E.ini .shapes o p) (hg : cleanDoc E o f = .ok g) :
    ∃ d, SameDrawing E.ini p d ∧ g = joinStyleAttributes E.nameOf E.ser o.joinStyleAttributes d ∧ (o.joinStyleAttributes = .none → SameDrawing E.ini p g) := by
  have e : plan (tasks E o) o = (plan (tasks E o) o).take 41 ++ [(tasks E o).joinStyle o.joinStyleAttributes] := rfl
  unfold cleanDoc at hg
  rw [e] at hg
  obtain ⟨d, h1, h2⟩ := runAll_append hg
  obtain ⟨g', h3, h4⟩ := runAll_cons h2
  cases h3
  cases h4
  have e : (plan (tasks E o) o).take 41 = (plan (tasks E o) o).take 8 ++ ((plan (tasks E o) o).drop 8).take 33 := rfl
  rw [e] at h1
  obtain ⟨p', h5, h6⟩ := runAll_append h1
  unfold runUpTo at h
  rw [h] at h5
  cases h5
  have hd := (serene_tail E o hs p d hp h6).1
  refine ⟨d, hd, rfl, fun hj => ?_⟩
  unfold joinStyleAttributes
  rw [if_pos hj]
  exact hd

end Verif.Whole
