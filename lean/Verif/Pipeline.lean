import Verif.Cli
import Verif.RoundDoc
import Verif.SafeInvisible
import Verif.SafeFinal
/-
Model of `clean_doc`, `src/cleaner.rs:63-248`: which tasks a run consists of and when they are left out.
-/
namespace Verif.Pipeline
open Verif.Dom
open Verif.Dom (Res)
open Verif.Cli (CleaningOptions)

/-- What a task does to a document: a new document, an error (`?` in `clean_doc`) or a panic. -/
abbrev Task := Forest → Res Forest

/-- A task that cannot fail. -/
def sure (t : Forest → Forest) : Task := fun f => .ok (t f)

/-- A task that may panic. -/
def may (t : Forest → Option Forest) : Task := fun f => .ofOption (t f)

/-- The tasks. -/
structure Tasks where
  precleanChecks : Forest → Except Simple.ErrKind Unit
  resolveLinear : Task
  resolveRadial : Task
  resolveStops : Task
  resolveInherit : Task
  fixInvalid : Task
  groupDefs : Task
  roundNumbers : Task
  removeTitle : Task
  removeDesc : Task
  removeMetadata : Task
  removeUnusedDefs : Task
  removeInvalidStops : Task
  applyToGradients : Task
  removeDuplLinear : Task
  removeDuplRadial : Task
  removeDuplBlurs : Task
  mergeGradients : Task
  ungroupGroups : Task
  applyToShapes : Task
  convertShapes : Task
  processPaths : Task
  removeInvisible : Task
  regroupStops : Task
  resolveUse : Task
  removeDefaults : Task
  removeText : Task
  removeNeedless : Task
  removeGradientAttrs : Task
  removeUnusedCoords : Task
  groupByStyle : Task
  removeUnreferencedIds : Task
  trimIds : Task
  removeVersion : Task
  ungroupDefs : Task
  removeEmptyDefs : Task
  fixXmlns : Bool → Task
  removeDefaultTransform : Task
  joinStyle : Cli.StyleJoinMode → Task

/-- `preclean_checks(doc)?`, `src/cleaner.rs:68`. -/
def check (c : Forest → Except Simple.ErrKind Unit) : Task := fun f =>
  match c f with
  | .ok _ => .ok f
  | .error e => .err e

/-- `if options.x { .. }` -/
def on (b : Bool) (t : Task) : Task := fun f => if b then t f else .ok f

/-- `clean_doc`, `src/cleaner.rs:63-248`: the tasks in the order in which they run. -/
def plan (T : Tasks) (o : CleaningOptions) : List Task :=
  [ check T.precleanChecks,                                        -- :68
    T.resolveLinear,                                               -- :76
    T.resolveRadial,                                               -- :77
    T.resolveStops,                                                -- :78
    T.resolveInherit,                                              -- :80
    T.fixInvalid,                                                  -- :81
    T.groupDefs,                                                   -- :82
    T.roundNumbers,                                                -- :85
    on o.removeTitle T.removeTitle,                                -- :92-94
    on o.removeDesc T.removeDesc,                                  -- :97-99
    on o.removeMetadata T.removeMetadata,                          -- :102-104
    on o.removeUnusedDefs T.removeUnusedDefs,                      -- :106-108
    on o.removeInvalidStops T.removeInvalidStops,                  -- :111-113
    on o.applyTransformToGradients T.applyToGradients,             -- :115-119
    on o.removeDuplLinearGradients T.removeDuplLinear,             -- :121-123
    on o.removeDuplRadialGradients T.removeDuplRadial,             -- :125-127
    on o.removeDuplFeGaussianBlur T.removeDuplBlurs,               -- :129-131
    on o.mergeGradients T.mergeGradients,                          -- :133-135
    on o.applyTransformToGradients T.applyToGradients,             -- :137-140
    on o.ungroupGroups T.ungroupGroups,                            -- :144-146
    on o.applyTransformToShapes T.applyToShapes,                   -- :149-151
    on o.convertShapes T.convertShapes,                            -- :154-156
    on o.pathsToRelative T.processPaths,                           -- :160-163
    on o.removeInvisibleElements T.removeInvisible,                -- :165-167
    on o.regroupGradientStops T.regroupStops,                      -- :170-172
    on o.ungroupGroups T.ungroupGroups,                            -- :175-177
    on o.resolveUse T.resolveUse,                                  -- :179-181
    on o.removeDefaultAttributes T.removeDefaults,                 -- :185-187
    on o.removeTextAttributes T.removeText,                        -- :189-191
    on o.removeNeedlessAttributes T.removeNeedless,                -- :193-195
    on o.removeGradientAttributes T.removeGradientAttrs,           -- :197-199
    on o.removeUnusedCoordinates T.removeUnusedCoords,             -- :201-203
    on o.ungroupGroups T.ungroupGroups,                            -- :206-208
    on o.groupByStyle T.groupByStyle,                              -- :212-214
    on o.removeUnreferencedIds T.removeUnreferencedIds,            -- :220-222
    on o.trimIds T.trimIds,                                        -- :225-227
    on o.removeVersion T.removeVersion,                            -- :230-232
    on o.ungroupDefs T.ungroupDefs,                                -- :235-237
    T.removeEmptyDefs,                                             -- :239
    T.fixXmlns o.removeXmlnsXlinkAttribute,                        -- :240
    T.removeDefaultTransform,                                      -- :242
    T.joinStyle o.joinStyleAttributes ]                            -- :245

/-- One task after the other, until one fails. -/
def runAll : List Task → Task
  | [], f => .ok f
  | t :: ts, f => (t f).bind (runAll ts)

/-- What svgdom provides: the default values of attributes (`AttributeId::default_value`), the names of attributes and how
values are written. -/
structure Env where
  ini : AId → Option Value
  nameOf : AId → List Char
  ser : Value → List Char

/-- The precisions, `src/options.rs:64-71`. -/
def precisions (o : CleaningOptions) : Round.Precisions :=
  ⟨o.coordinatesPrecision, o.propertiesPrecision, o.pathsCoordinatesPrecision, o.transformsPrecision⟩

/-- The options that `prepare_transforms` looks at, `src/task/apply_transforms/preproc.rs:32-46`. -/
def tsOpts (o : CleaningOptions) : ApplyTs.TsOpts := ⟨o.applyTransformToShapes, o.pathsToRelative, o.applyTransformToPaths⟩

/-- The options that `process_paths` looks at, `src/task/paths/mod.rs:82-91`. -/
def pathOpts (o : CleaningOptions) : Paths.PathOpts := ⟨o.convertSegments, o.removeUnusedSegments⟩

/-- The tasks as `clean_doc` calls them.  `ungroup_groups`: that the model's rounds suffice is C36. -/
def tasks (E : Env) (o : CleaningOptions) : Tasks where
  precleanChecks := Simple.precleanChecks
  resolveLinear := may Gradients.resolveLinear
  resolveRadial := may Gradients.resolveRadial
  resolveStops := Stops.resolveStops
  resolveInherit := Inherit.resolveInherit
  fixInvalid := may Stops.fixInvalidAttributes
  groupDefs := may GroupDefs.groupDefs
  roundNumbers := may (Round.roundNumbers (precisions o))
  removeTitle := sure (Simple.removeElement .title)
  removeDesc := sure (Simple.removeElement .desc)
  removeMetadata := sure (Simple.removeElement .metadata)
  removeUnusedDefs := may UnusedDefs.removeUnusedDefs
  removeInvalidStops := sure Stops.removeInvalidStops
  applyToGradients := may ApplyTs.applyToGradients
  removeDuplLinear := may Dupl.rmLinear
  removeDuplRadial := may Dupl.rmRadial
  removeDuplBlurs := may Dupl.rmBlurs
  mergeGradients := may Merge.mergeGradients
  ungroupGroups := may fun f => (Ungroup.ungroupGroups (tsOpts o) f).bind id
  applyToShapes := may ApplyTs.applyToShapes
  convertShapes := may ConvShapes.convertShapes
  processPaths := may (ApplyTs.processPaths o.applyTransformToPaths (pathOpts o))
  removeInvisible := may Invisible.removeInvisible
  regroupStops := may Regroup.regroup
  resolveUse := may ResolveUse.resolveUse
  removeDefaults := may (DefaultAttrs.removeDefaults E.ini)
  removeText := may TextAttrs.removeText
  removeNeedless := sure Needless.removeNeedless
  removeGradientAttrs := may GradUnits.removeGradientAttributes
  removeUnusedCoords := sure Simple.removeUnusedCoords
  groupByStyle := may GroupStyle.groupByStyle
  removeUnreferencedIds := sure Simple.removeUnreferencedIds
  trimIds := may Simple.trimIds
  removeVersion := may Simple.removeVersion
  ungroupDefs := sure Simple.ungroupDefs
  removeEmptyDefs := may Simple.removeEmptyDefs
  fixXmlns b := may (Simple.fixXmlnsAttribute b)
  removeDefaultTransform := sure Simple.removeDefaultTransform
  joinStyle m := sure (Simple.joinStyleAttributes E.nameOf E.ser m)

/-- `clean_doc`, `src/cleaner.rs:63-248`. -/
def cleanDoc (E : Env) (o : CleaningOptions) : Task := runAll (plan (tasks E o) o)

end Verif.Pipeline
