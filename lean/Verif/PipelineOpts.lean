import Verif.PipelineOff
/-
C54: options that are off have no effect.
-/
namespace Verif.Pipeline
open Verif.Dom Verif.Spec
open Verif.Dom (Res)
open Verif.Cli (CleaningOptions)
open Verif.ApplyTs Verif.Ungroup

/-! ### An option that is off -/

/-- Two sets of tasks that are the same, except for those whose options are off: these may be any programs at all. -/
structure Agree (o : CleaningOptions) (T T' : Tasks) : Prop where
  precleanChecks : T.precleanChecks = T'.precleanChecks
  resolveLinear : T.resolveLinear = T'.resolveLinear
  resolveRadial : T.resolveRadial = T'.resolveRadial
  resolveStops : T.resolveStops = T'.resolveStops
  resolveInherit : T.resolveInherit = T'.resolveInherit
  fixInvalid : T.fixInvalid = T'.fixInvalid
  groupDefs : T.groupDefs = T'.groupDefs
  roundNumbers : T.roundNumbers = T'.roundNumbers
  removeTitle : o.removeTitle = true → T.removeTitle = T'.removeTitle
  removeDesc : o.removeDesc = true → T.removeDesc = T'.removeDesc
  removeMetadata : o.removeMetadata = true → T.removeMetadata = T'.removeMetadata
  removeUnusedDefs : o.removeUnusedDefs = true → T.removeUnusedDefs = T'.removeUnusedDefs
  removeInvalidStops : o.removeInvalidStops = true → T.removeInvalidStops = T'.removeInvalidStops
  applyToGradients : o.applyTransformToGradients = true → T.applyToGradients = T'.applyToGradients
  removeDuplLinear : o.removeDuplLinearGradients = true → T.removeDuplLinear = T'.removeDuplLinear
  removeDuplRadial : o.removeDuplRadialGradients = true → T.removeDuplRadial = T'.removeDuplRadial
  removeDuplBlurs : o.removeDuplFeGaussianBlur = true → T.removeDuplBlurs = T'.removeDuplBlurs
  mergeGradients : o.mergeGradients = true → T.mergeGradients = T'.mergeGradients
  ungroupGroups : o.ungroupGroups = true → T.ungroupGroups = T'.ungroupGroups
  applyToShapes : o.applyTransformToShapes = true → T.applyToShapes = T'.applyToShapes
  convertShapes : o.convertShapes = true → T.convertShapes = T'.convertShapes
  processPaths : o.pathsToRelative = true → T.processPaths = T'.processPaths
  removeInvisible : o.removeInvisibleElements = true → T.removeInvisible = T'.removeInvisible
  regroupStops : o.regroupGradientStops = true → T.regroupStops = T'.regroupStops
  resolveUse : o.resolveUse = true → T.resolveUse = T'.resolveUse
  removeDefaults : o.removeDefaultAttributes = true → T.removeDefaults = T'.removeDefaults
  removeText : o.removeTextAttributes = true → T.removeText = T'.removeText
  removeNeedless : o.removeNeedlessAttributes = true → T.removeNeedless = T'.removeNeedless
  removeGradientAttrs : o.removeGradientAttributes = true → T.removeGradientAttrs = T'.removeGradientAttrs
  removeUnusedCoords : o.removeUnusedCoordinates = true → T.removeUnusedCoords = T'.removeUnusedCoords
  groupByStyle : o.groupByStyle = true → T.groupByStyle = T'.groupByStyle
  removeUnreferencedIds : o.removeUnreferencedIds = true → T.removeUnreferencedIds = T'.removeUnreferencedIds
  trimIds : o.trimIds = true → T.trimIds = T'.trimIds
  removeVersion : o.removeVersion = true → T.removeVersion = T'.removeVersion
  ungroupDefs : o.ungroupDefs = true → T.ungroupDefs = T'.ungroupDefs
  removeEmptyDefs : T.removeEmptyDefs = T'.removeEmptyDefs
  fixXmlns : T.fixXmlns = T'.fixXmlns
  removeDefaultTransform : T.removeDefaultTransform = T'.removeDefaultTransform
  joinStyle : T.joinStyle = T'.joinStyle

theorem on_congr {b : Bool} {t t' : Task} (h : b = true → t = t') : on b t = on b t' := by
  cases b
  · rfl
  · rw [h rfl]

/-- C54: tasks whose options are off may be replaced by anything, the run is the same: it does not start them. -/
theorem C54_independent {o : CleaningOptions} {T T' : Tasks} (h : Agree o T T') (f : Forest) : runAll (plan T o) f = runAll (plan T' o) f := by
  unfold plan
  rw [h.precleanChecks, h.resolveLinear, h.resolveRadial, h.resolveStops, h.resolveInherit, h.fixInvalid, h.groupDefs, h.roundNumbers,
    on_congr h.removeTitle, on_congr h.removeDesc, on_congr h.removeMetadata, on_congr h.removeUnusedDefs, on_congr h.removeInvalidStops,
    on_congr h.applyToGradients, on_congr h.removeDuplLinear, on_congr h.removeDuplRadial, on_congr h.removeDuplBlurs, on_congr h.mergeGradients,
    on_congr h.ungroupGroups, on_congr h.applyToShapes, on_congr h.convertShapes, on_congr h.processPaths, on_congr h.removeInvisible,
    on_congr h.regroupStops, on_congr h.resolveUse, on_congr h.removeDefaults, on_congr h.removeText, on_congr h.removeNeedless,
    on_congr h.removeGradientAttrs, on_congr h.removeUnusedCoords, on_congr h.groupByStyle, on_congr h.removeUnreferencedIds, on_congr h.trimIds,
    on_congr h.removeVersion, on_congr h.ungroupDefs, h.removeEmptyDefs, h.fixXmlns, h.removeDefaultTransform, h.joinStyle]

/-- Not vacuous: with all options off, all optional tasks may be replaced by one that crashes. -/
example (T : Tasks) : Agree {}
    T { T with
      removeTitle := fun _ => .panic, removeDesc := fun _ => .panic, removeMetadata := fun _ => .panic, ungroupGroups := fun _ => .panic,
      applyToShapes := fun _ => .panic, processPaths := fun _ => .panic, trimIds := fun _ => .panic } := by
  constructor <;> first | rfl | (intro h; cases h)

/-! ### Options that only matter together with others -/

theorem validChildren_congr {o o' : TsOpts} (h : validElems o = validElems o') (anc : List Node) (f : Forest) :
    validChildren o anc f = validChildren o' anc f := by
  induction f with
  | nil => rfl
  | cons n k r _ ih =>
    have : validChild o anc n = validChild o' anc n := by unfold validChild; rw [h]
    rw [validChildren, validChildren, this, ih]

theorem prepareGroup_congr {o o' : TsOpts} (h : validElems o = validElems o') (anc : List Node) (n : Node) (k : Forest) :
    prepareGroup o anc n k = prepareGroup o' anc n k := by
  unfold prepareGroup
  simp only [validChildren_congr h]

theorem prepareGo_cons (o : TsOpts) (b : Bool) (anc : List Node) (n : Node) (k r : Forest) (stop : Bool) :
    prepareGo o b anc (.cons n k r) stop = if stop then some (.cons n k r, true) else
      (prepareGroup o anc n k).bind fun x =>
        if x.2.2 && !b then some (.cons x.1 x.2.1 r, true)
        else (prepareGo o b (x.1 :: anc) x.2.1 false).bind fun a => (prepareGo o b anc r a.2).map fun c => (.cons x.1 a.1 c.1, c.2) := by
  rw [prepareGo]
  split
  · rfl
  · split <;> (rename_i hx; simp only [hx]; rfl)

theorem prepareGo_congr {o o' : TsOpts} (h : validElems o = validElems o') (b : Bool) (s : Nat) :
    ∀ (anc : List Node) (f : Forest) (stop : Bool), Stops.size f ≤ s → prepareGo o b anc f stop = prepareGo o' b anc f stop := by
  induction s with
  | zero =>
    intro anc f stop hs
    cases f with
    | nil => rw [prepareGo, prepareGo]
    | cons n k r => simp only [Stops.size] at hs; omega
  | succ s ih =>
    intro anc f stop hs
    cases f with
    | nil => rw [prepareGo, prepareGo]
    | cons n k r =>
      simp only [Stops.size] at hs
      rw [prepareGo_cons, prepareGo_cons, prepareGroup_congr h]
      by_cases hst : stop = true
      · rw [if_pos hst, if_pos hst]
      · rw [if_neg hst, if_neg hst]
        cases h1 : prepareGroup o' anc n k with
        | none => rfl
        | some x =>
          obtain ⟨n1, k1, t1⟩ := x
          have hsz := prepareGroup_size h1
          simp only [Option.bind_some]
          rw [ih _ k1 _ (by omega)]
          congr 2
          funext a
          rw [ih _ r _ (by omega)]

theorem prepareTransforms_congr {o o' : TsOpts} (h : validElems o = validElems o') (b : Bool) (anc : List Node) (n : Node) (k : Forest) :
    prepareTransforms o b anc n k = prepareTransforms o' b anc n k := by
  unfold prepareTransforms
  rw [h, prepareGo_congr h b _ anc _ false (Nat.le_refl _)]

theorem prepareAt_congr {o o' : TsOpts} (h : validElems o = validElems o') (k : Nat) (anc : List Node) (f : Forest) :
    prepareAt o k anc f = prepareAt o' k anc f := by
  induction f generalizing anc with
  | nil => rfl
  | cons n c r ih1 ih2 => rw [prepareAt, prepareAt, prepareTransforms_congr h, ih1, ih2]

theorem step_congr {o o' : TsOpts} (h : validElems o = validElems o') (f : Forest) : Ungroup.step o f = Ungroup.step o' f := by
  unfold Ungroup.step
  congr 1
  funext s
  congr 1
  funext x
  cases x with
  | none => rfl
  | some x => obtain ⟨a, b, c⟩ := x; dsimp only; rw [prepareAt_congr h]

theorem loop_congr {o o' : TsOpts} (h : validElems o = validElems o') (fuel : Nat) (f : Forest) : loop o fuel f = loop o' fuel f := by
  induction fuel generalizing f with
  | zero => unfold loop; rw [step_congr h]
  | succ n ih =>
    rw [loop, loop, step_congr h]
    congr 1
    funext x
    cases x with
    | none => rfl
    | some g => exact ih g

theorem ungroupGroups_congr {o o' : TsOpts} (h : validElems o = validElems o') (f : Forest) : ungroupGroups o f = ungroupGroups o' f := by
  unfold ungroupGroups
  simp only [prepareTransforms_congr h, loop_congr h]

/-- C54: as long as paths are not processed at all, the options about segments and transforms of paths have no effect, either; whether
a newline is appended does not change the document. -/
theorem C54_dependent (E : Env) (o : CleaningOptions) (ho : o.pathsToRelative = false) (a b c d : Bool) (f : Forest) :
    cleanDoc E { o with removeUnusedSegments := a, convertSegments := b, applyTransformToPaths := c, appendNewline := d } f = cleanDoc E o f := by
  have e : (tasks E { o with removeUnusedSegments := a, convertSegments := b, applyTransformToPaths := c, appendNewline := d }).ungroupGroups =
      (tasks E o).ungroupGroups := by
    have : ungroupGroups (tsOpts { o with removeUnusedSegments := a, convertSegments := b, applyTransformToPaths := c, appendNewline := d }) =
        ungroupGroups (tsOpts o) := funext fun g => ungroupGroups_congr (by simp [validElems, tsOpts, ho]) g
    simp only [tasks, this]
  refine C54_independent (o := o) (T := tasks E { o with removeUnusedSegments := a, convertSegments := b, applyTransformToPaths := c, appendNewline := d })
    (T' := tasks E o) ?_ f
  constructor <;> first | rfl | (intro _; first | rfl | exact e | (rename_i h; rw [ho] at h; cases h))

end Verif.Pipeline
