import Verif.SketchStyle
/-
C66: a whole run with the options that change the structure of a drawing.
-/
namespace Verif.Draft
open Verif.Dom Verif.Spec Verif.Render Verif.Pipeline
open Verif.Dom (Res)
open Verif.Cli (CleaningOptions)
open Verif.Simple
open Verif.Invisible (plainStop)

/-- On are, at most: the options that concern the file only, and those that remove unused definitions and invisible elements, take groups
out and make new ones, and resolve `use`. -/
structure SceneOnly (o : CleaningOptions) : Prop where
  invalidStops : o.removeInvalidStops = false
  gradientTs : o.applyTransformToGradients = false
  duplLinear : o.removeDuplLinearGradients = false
  duplRadial : o.removeDuplRadialGradients = false
  duplBlur : o.removeDuplFeGaussianBlur = false
  merge : o.mergeGradients = false
  shapeTs : o.applyTransformToShapes = false
  shapes : o.convertShapes = false
  paths : o.pathsToRelative = false
  regroup : o.regroupGradientStops = false
  defaults : o.removeDefaultAttributes = false
  text : o.removeTextAttributes = false
  needless : o.removeNeedlessAttributes = false
  gradientAttrs : o.removeGradientAttributes = false
  coords : o.removeUnusedCoordinates = false

/-- A task that keeps the picture of the documents with `Q`, and gives a document with `R`. -/
def Calm (Q R : Forest → Prop) (t : Task) : Prop := ∀ f g, Q f → t f = .ok g → SameView f g ∧ R g

theorem calm_of {Q R : Forest → Prop} {t : Task} (h : Hushed Q R t) : Calm Q R t := fun f g hf hg => ⟨(h f g hf hg).1.view, (h f g hf hg).2⟩

theorem calm_on {Q : Forest → Prop} {t : Task} (h : Calm Q Q t) (b : Bool) : Calm Q Q (on b t) := by
  intro f g hf hg
  rcases on_cases hg with rfl | hg
  · exact ⟨(SameLook.refl _).view, hf⟩
  · exact h f g hf hg

theorem calm_off {Q : Forest → Prop} {b : Bool} (h : b = false) (t : Task) : Calm Q Q (on b t) := calm_of (quiet_off h t)

theorem calm_nil {Q : Forest → Prop} : Calm Q Q (runAll []) := calm_of quiet_nil

theorem calm_cons {Q R S : Forest → Prop} {t : Task} {ts : List Task} (h1 : Calm Q R t) (h2 : Calm R S (runAll ts)) : Calm Q S (runAll (t :: ts)) := by
  intro f g hf h
  obtain ⟨a, ha, hb⟩ := runAll_cons h
  obtain ⟨l1, q1⟩ := h1 f a hf ha
  obtain ⟨l2, q2⟩ := h2 a g q1 hb
  exact ⟨l1.trans l2, q2⟩

theorem calm_twins {t : Task} (h : ∀ f g, Tidy f → t f = .ok g → Twins f g) : Calm Tidy Tidy t := calm_of (quiet_twins h)

section
variable [Flavour]

theorem calm_desc {e : EId} (he : isDesc (.elem e) = true) : Calm Sketch Sketch (sure (removeElement e)) := by
  intro f g hf hg
  cases hg
  exact ⟨(hf.plain.removed he).view, hf.desc he⟩

theorem calm_defs : Calm Sketch Sketch (may UnusedDefs.removeUnusedDefs) := fun _ _ hf hg => ⟨(hf.unusedDefs (may_ok hg)).1.view, (hf.unusedDefs (may_ok hg)).2⟩

theorem calm_ungroup (o : ApplyTs.TsOpts) : Calm Sketch Sketch (may fun f => (Ungroup.ungroupGroups o f).bind id) := by
  intro f g hf hg
  obtain ⟨y, hy, e⟩ := Option.bind_eq_some_iff.1 (may_ok hg)
  have e : y = some g := e
  subst e
  exact ⟨(hf.ungroup hy).1.view, (hf.ungroup hy).2⟩

theorem calm_invisible : Calm Sketch Sketch (may Invisible.removeInvisible) := fun _ _ hf hg => hf.invisible (may_ok hg)

theorem calm_task (E : Env) (o : CleaningOptions) : Calm Sketch Sketch (tasks E o).removeInvisible := by
  have e : (tasks E o).removeInvisible = may Invisible.removeInvisible := by delta tasks; with_reducible rfl
  rw [e]
  exact calm_invisible

theorem calm_use : Calm Sketch Sketch (may ResolveUse.resolveUse) := by
  intro f g hf hg
  cases hf.uses' (may_ok hg)
  exact ⟨(SameLook.refl _).view, hf⟩

theorem calm_style (b : Bool) : Calm Sketch Tidy (on b (may GroupStyle.groupByStyle)) := by
  intro f g hf hg
  rcases on_cases hg with rfl | hg
  · exact ⟨(SameLook.refl _).view, hf.plain.tidy⟩
  · exact ⟨(hf.byStyle (may_ok hg)).1.view, (hf.byStyle (may_ok hg)).2⟩

end

theorem calm_tail (E : Env) (o : CleaningOptions) (hf : SceneOnly o) : Calm Sketch Tidy (runAll (((plan (tasks E o) o).drop 8).take 33)) := by
  show Calm Sketch Tidy (runAll (_ :: _ :: _ :: _))
  refine calm_cons (calm_on (calm_desc rfl) _) (calm_cons (calm_on (calm_desc rfl) _) (calm_cons (calm_on (calm_desc rfl) _) ?_))
  refine calm_cons (calm_on calm_defs _) (calm_cons (calm_off hf.invalidStops _) (calm_cons (calm_off hf.gradientTs _) ?_))
  refine calm_cons (calm_off hf.duplLinear _) (calm_cons (calm_off hf.duplRadial _) (calm_cons (calm_off hf.duplBlur _) ?_))
  refine calm_cons (calm_off hf.merge _) (calm_cons (calm_off hf.gradientTs _) (calm_cons (calm_on (calm_ungroup _) _) ?_))
  refine calm_cons (calm_off hf.shapeTs _) (calm_cons (calm_off hf.shapes _) (calm_cons (calm_off hf.paths _) ?_))
  refine calm_cons (calm_on (calm_task E o) _) (calm_cons (calm_off hf.regroup _) (calm_cons (calm_on (calm_ungroup _) _) ?_))
  refine calm_cons (calm_on calm_use _) (calm_cons (calm_off hf.defaults _) (calm_cons (calm_off hf.text _) ?_))
  refine calm_cons (calm_off hf.needless _) (calm_cons (calm_off hf.gradientAttrs _) (calm_cons (calm_off hf.coords _) ?_))
  refine calm_cons (calm_on (calm_ungroup _) _) (calm_cons (calm_style _) ?_)
  refine calm_cons (calm_on (calm_twins fun f g _ h => by cases h; exact twins_unreferenced f) _) ?_
  refine calm_cons (calm_on (calm_twins fun f g _ h => twins_trim (may_ok h)) _) ?_
  refine calm_cons (calm_on (calm_twins fun f g _ h => twins_version (may_ok h)) _) ?_
  refine calm_cons (calm_on (calm_of fun f g hf h => by cases h; exact ungroupDefs_tidy hf) _) ?_
  refine calm_cons (R := Tidy) (calm_of fun f g hf h => ⟨(removeEmptyDefs_tidy hf (may_ok h)).1, removeEmptyDefs_keeps hf (may_ok h)⟩) ?_
  refine calm_cons (R := Tidy) (calm_twins fun f g _ h => twins_xmlns (may_ok h)) ?_
  exact calm_cons (R := Tidy) (calm_twins fun f g hf h => by cases h; exact twins_dropDefault hf) calm_nil

theorem calm_run (E : Env) (o : CleaningOptions) (ho : SceneOnly o) {f p d : Forest} (h : runUpTo E o 8 f = .ok p) (hp : Sketch p)
    (hd : runUpTo E o 41 f = .ok d) : SameView p d := by
  have e : (plan (tasks E o) o).take 41 = (plan (tasks E o) o).take 8 ++ ((plan (tasks E o) o).drop 8).take 33 := rfl
  unfold runUpTo at hd h
  rw [e] at hd
  obtain ⟨p', h1, h2⟩ := runAll_append hd
  rw [h] at h1
  cases h1
  exact (calm_tail E o ho p d hp h2).1

/-- **C66** as it is stated: with any choice of the options that change the structure of the drawing, the picture of the document that the
preparation leaves does not change any more. -/
def C66_full : Prop := ∀ (E : Env) (o : CleaningOptions) (f p g : Forest), Parsed f → SceneOnly o → o.joinStyleAttributes = .none →
  runUpTo E o 8 f = .ok p → cleanDoc E o f = .ok g → SameView p g

/-- C66 for drawings: groups, shapes, images and text, painted with colours and gradients.  `p` is the document after the preparation, `g` is
what is written.  (Joining attributes to a `style` attribute is C49.)  Missing: other documents (`use`, clip paths, masks, filters, markers,
patterns, conditional processing; see `C66_refuted` and the refutations of C25, C36, C37 and C38). -/
theorem C66_look_partial (E : Env) (o : CleaningOptions) (ho : SceneOnly o) {f p g : Forest} (h : runUpTo E o 8 f = .ok p) (hp : Sketch p)
    (hg : cleanDoc E o f = .ok g) :
    ∃ d, SameView p d ∧ g = joinStyleAttributes E.nameOf E.ser o.joinStyleAttributes d ∧ (o.joinStyleAttributes = .none → SameView p g) := by
  have e : plan (tasks E o) o = (plan (tasks E o) o).take 41 ++ [(tasks E o).joinStyle o.joinStyleAttributes] := rfl
  unfold cleanDoc at hg
  rw [e] at hg
  obtain ⟨d, h1, h2⟩ := runAll_append hg
  obtain ⟨g', h3, h4⟩ := runAll_cons h2
  cases h3
  cases h4
  have hs := calm_run E o ho h hp h1
  refine ⟨d, hs, rfl, fun hj => ?_⟩
  unfold joinStyleAttributes
  rw [if_pos hj]
  exact hs

theorem FileOnly.scene {o : CleaningOptions} (h : FileOnly o) : SceneOnly o :=
  ⟨h.invalidStops, h.gradientTs, h.duplLinear, h.duplRadial, h.duplBlur, h.merge, h.shapeTs, h.shapes, h.paths, h.regroup, h.defaults, h.text, h.needless,
    h.gradientAttrs, h.coords⟩

/-- Already the options of C62 change the picture of some documents. -/
theorem C66_refuted : ¬ C66_full := fun h => C62_refuted_ungroup_defs fun E o f p g hp ho hj hr hg => h E o f p g hp (FileOnly.scene ho) hj hr hg

/-- **C38** for drawings, with conditions on the document alone (`C38_whole_partial` has conditions on what the steps leave). -/
theorem C38_drawing_partial {f g : Forest} (hf : Sketch f) (h : Invisible.removeInvisible f = some g) : SameView f g := (hf.invisible h).1

/-! ### The conditions can be checked -/

def attrB (f : Forest) (k : Kind) (y : Attr) : Bool :=
  (match y.value.target with
    | none => true
    | some t => decide (y.name = .id .fill ∨ y.name = .id .stroke) && loose k && f.nodes.any fun m => decide (m.key = t) && m.isGradient) &&
  !decide (y.name ∈ [AName.id .requiredFeatures, .id .requiredExtensions, .id .systemLanguage]) && !decide (y.value = .kw .inherit) &&
  (!decide (y.name = .id .transform) || (takesTransform k || isDesc k) && (match y.value with | .transform _ => true | _ => false)) &&
  (!decide (y.name = .id .display) || loose k) && (!decide (k = .elem .g) || Ungroup.groupAttr y) &&
  (!decide (k = .elem .defs) || (match y.name with | .id a => !inherits a | .name _ => true))

theorem attr_of {f : Forest} {k : Kind} {y : Attr} (h : attrB f k y = true) : AttrFine (Grad f) k y := by
  simp only [attrB, Bool.and_eq_true, Bool.or_eq_true, Bool.not_eq_true', decide_eq_false_iff_not] at h
  obtain ⟨⟨⟨⟨⟨⟨h1, h2⟩, h3⟩, h4⟩, h5⟩, h6⟩, h7⟩ := h
  refine ⟨fun t ht => ?_, fun a ha e => h2 ?_, h3, fun e => ?_, fun e => h5.resolve_left (fun h => h e), fun e => h6.resolve_left (fun h => h e), fun e a ea => ?_, ?_⟩
  · rw [ht] at h1
    simp only [Bool.and_eq_true, decide_eq_true_eq, List.any_eq_true] at h1
    obtain ⟨⟨a, b⟩, m, hm, c, d⟩ := h1
    exact ⟨a, b, m, hm, c, d⟩
  · rw [e]
    cases a <;> first | (cases ha; done) | decide
  · have := h4.resolve_left (fun h => h e)
    refine ⟨this.1, ?_⟩
    have h' := this.2
    split at h'
    next t ht => exact ⟨t, ht⟩
    next => cases h'
  · have := h7.resolve_left (fun h => h e)
    rw [ea] at this
    simpa using this
  · trivial

def fineB (f : Forest) (x : Kind × Node × Forest) : Bool :=
  fits x.1 x.2.1.kind && decide (x.2.1.attrs.map Attr.name).Nodup && x.2.1.attrs.all (attrB f x.2.1.kind) &&
  (!decide (x.2.1.kind = .elem .svg) || x.2.2.top.any fun m => decide (m.kind = .elem .defs)) &&
  (!x.2.1.isGradient || (match x.2.2.top with | [s] => plainStop s | _ => true))

theorem fine_of {f : Forest} {x : Kind × Node × Forest} (h : fineB f x = true) : Fine (Grad f) x.1 x.2.1 x.2.2 := by
  simp only [fineB, Bool.and_eq_true, Bool.or_eq_true, Bool.not_eq_true', decide_eq_false_iff_not, decide_eq_true_eq, List.all_eq_true, List.any_eq_true] at h
  obtain ⟨⟨⟨⟨h1, h2⟩, h3⟩, h4⟩, h5⟩ := h
  refine ⟨h1, h2, fun y hy => attr_of (h3 y hy), fun e => h4.resolve_left (fun h => h e), fun e s hs => ?_, trivial⟩
  rw [hs] at h5
  exact h5.resolve_left (fun h => by rw [e] at h; cases h)

def sketchB (f : Forest) : Bool := decide f.UniqueKeys && (spots doc f).all (fineB f)

theorem sketch_of {f : Forest} (h : sketchB f = true) : Sketch f := by
  simp only [sketchB, Bool.and_eq_true, decide_eq_true_eq, List.all_eq_true] at h
  exact ⟨h.1, fun x hx => fine_of (h.2 x hx)⟩

end Verif.Draft
