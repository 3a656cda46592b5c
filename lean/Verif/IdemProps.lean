import Verif.IdemTasks
import Verif.IdemRound
/-
C67, last part: the property, what is proved of it, and the tasks that are not settled after one run.
-/
namespace Verif.Idem
open Verif.Dom Verif.Spec Verif.Pipeline
open Verif.Cli (CleaningOptions)

/-! ### The property -/

/-- C67: every task of a clean-up, run again on its own result, changes nothing. -/
def C67_full : Prop := ∀ (E : Env) (o : CleaningOptions), ∀ t ∈ plan (tasks E o) o, Settles Parsed t

/-- The tasks for which this is proved, for all documents whatsoever. -/
def settled (T : Tasks) (o : CleaningOptions) : List Task :=
  [ check T.precleanChecks, T.resolveStops, T.fixInvalid, T.roundNumbers, on o.removeTitle T.removeTitle, on o.removeDesc T.removeDesc,
    on o.removeMetadata T.removeMetadata, on o.mergeGradients T.mergeGradients, on o.applyTransformToShapes T.applyToShapes,
    on o.convertShapes T.convertShapes, on o.removeDefaultAttributes T.removeDefaults, on o.removeUnusedCoordinates T.removeUnusedCoords,
    on o.removeUnreferencedIds T.removeUnreferencedIds, on o.trimIds T.trimIds, on o.removeVersion T.removeVersion,
    T.fixXmlns o.removeXmlnsXlinkAttribute, T.removeDefaultTransform, T.joinStyle o.joinStyleAttributes ]

theorem settles_on {P : Forest → Prop} {b : Bool} {t : Task} (h : Settles P t) : Settles P (on b t) := by
  intro f g hf hg
  unfold on at hg ⊢
  cases b with
  | true => exact h f g hf hg
  | false => rfl

theorem settles_check (c : Forest → Except Simple.ErrKind Unit) : Settles Any (check c) := by
  intro f g _ hg
  unfold check at hg ⊢
  split at hg
  · rename_i h; cases hg; rw [h]
  · cases hg

/-- C67 (partial: for 18 of the 42 tasks, of these the joining of styles not for the mode `all`; see the counterexamples for other
tasks; nothing is claimed about the rest but for C67_unused_defs): a task that is run again on its own result changes nothing. -/
theorem C67_settled_partial (E : Env) (o : CleaningOptions) (ho : o.joinStyleAttributes ≠ .all) :
    ∀ t ∈ settled (tasks E o) o, Settles Any t := by
  intro t ht
  simp only [settled, List.mem_cons, List.not_mem_nil, or_false] at ht
  rcases ht with rfl | rfl | rfl | rfl | rfl | rfl | rfl | rfl | rfl | rfl | rfl | rfl | rfl | rfl | rfl | rfl | rfl | rfl
  · exact settles_check _
  · exact C67_stops
  · exact C67_repair
  · exact C67_round _
  · exact settles_on (C67_elements _)
  · exact settles_on (C67_elements _)
  · exact settles_on (C67_elements _)
  · exact settles_on C67_merge
  · exact settles_on C67_apply_shapes
  · exact settles_on C67_shapes
  · exact settles_on (C67_defaults E)
  · exact settles_on C67_coords
  · exact settles_on C67_unreferenced_ids
  · exact settles_on C67_trim
  · exact settles_on C67_version
  · exact C67_xmlns _
  · exact C67_default_transform
  · exact C67_join ho

/-- They are tasks of the clean-up. -/
theorem settled_plan (T : Tasks) (o : CleaningOptions) : ∀ t ∈ settled T o, t ∈ plan T o := by
  intro t ht
  simp only [settled, List.mem_cons, List.not_mem_nil, or_false] at ht
  simp only [plan, List.mem_cons, List.not_mem_nil, or_false]
  rcases ht with rfl | rfl | rfl | rfl | rfl | rfl | rfl | rfl | rfl | rfl | rfl | rfl | rfl | rfl | rfl | rfl | rfl | rfl <;> simp only [true_or, or_true]

/-! ### Counterexamples -/

/-- What shows that a task is not settled. -/
theorem unsettled {t : Task} {f g : Forest} (h : t f = .ok g) (h' : t g ≠ .ok g) (hp : Parsed f) : ¬ Settles Parsed t :=
  fun hs => h' (hs f g hp h)

/-- `<svg><defs/><defs/></svg>` -/
def twoDefs : Forest := doc (.cons (el 1 .defs "" []) .nil (.cons (el 2 .defs "" []) .nil .nil))

/-- Of two empty `defs` only the first is removed. -/
theorem C67_refuted_empty_defs : ¬ Settles Parsed (may Simple.removeEmptyDefs) :=
  unsettled (f := twoDefs) (g := doc (.cons (el 2 .defs "" []) .nil .nil)) (by decide +kernel) (by decide +kernel) (by decide +kernel)

/-- So C67 does not hold for all tasks. -/
theorem C67_refuted : ¬ C67_full := fun h =>
  C67_refuted_empty_defs (h env {} (tasks env {}).removeEmptyDefs (by simp only [plan, List.mem_cons, true_or, or_true]))

/-- `<svg><g font-size="5"><font-face font-size="1em"/></g></svg>` -/
def fontDoc : Forest := doc (.cons (el 1 .g "" [(.fontSize, px 5)])
  (.cons (el 2 .fontFace "" [(.fontSize, .length ⟨1, .em⟩)]) .nil .nil) .nil)

/-- The font-relative length of a font keeps the font of the group, but is itself removed. -/
theorem C67_refuted_text : ¬ Settles Parsed (may TextAttrs.removeText) :=
  unsettled (f := fontDoc) (g := doc (.cons (el 1 .g "" [(.fontSize, px 5)]) (.cons (el 2 .fontFace "" []) .nil .nil) .nil))
    (by decide +kernel) (by decide +kernel) (by decide +kernel)

/-- A child of a clip path that another child refers to with `fill`. -/
def clipDoc : Forest := doc (.cons (el 1 .clipPath "c" [])
  (.cons (el 2 .rect "r" [(.opacity, .number 0)]) .nil (.cons (el 3 .rect "" [(.fill, .funcLink 2)]) .nil .nil)) .nil)

/-- The reference goes, and with it the reason to keep the attributes. -/
theorem C67_refuted_needless : ¬ Settles Parsed (sure Needless.removeNeedless) :=
  unsettled (f := clipDoc) (g := doc (.cons (el 1 .clipPath "c" [])
    (.cons (el 2 .rect "r" [(.opacity, .number 0)]) .nil (.cons (el 3 .rect "" []) .nil .nil)) .nil))
    (by decide +kernel) (by decide +kernel) (by decide +kernel)

/-- The result of a task, or nothing. -/
def result (t : Task) (f : Forest) : Option Forest := match t f with | .ok g => some g | _ => none

theorem unsettled' {t : Task} {f : Forest} (h : ((result t f).bind (result t) == result t f) = false) (hp : Parsed f) : ¬ Settles Parsed t := by
  intro hs
  cases hf : t f with
  | ok g =>
    have hg := hs f g hp hf
    simp [result, hf, hg] at h
  | err e => simp [result, hf] at h
  | panic => simp [result, hf] at h

/-- A gradient with all attributes. -/
def grad (k : Nat) (i : String) (more : List (AId × Value)) : Node := el k .linearGradient i
  ([(.x1, px 0), (.y1, px 0), (.x2, px 1), (.y2, px 1), (.gradientUnits, .kw .userSpaceOnUse), (.spreadMethod, .kw .pad)] ++ more)

/-- Two gradients that use two equal gradients. -/
def chainDoc : Forest := doc (leaf (grad 1 "a" [(.xlinkHref, .link 3)]) (leaf (grad 2 "b" [(.xlinkHref, .link 4)])
  (leaf (grad 3 "c" []) (leaf (grad 4 "d" []) .nil))))

/-- The two gradients become equal only when the ones they use are one. -/
theorem C67_refuted_duplicates : ¬ Settles Parsed (may Dupl.rmLinear) :=
  unsettled' (f := chainDoc) (by decide +kernel) (by decide +kernel)

def red : Value := .color 255 0 0

/-- Three red rectangles, one without a colour, four red ones. -/
def rowDoc : Forest := doc (leaf (el 1 .rect "" [(.fill, red)]) (leaf (el 2 .rect "" [(.fill, red)]) (leaf (el 3 .rect "" [(.fill, red)])
  (leaf (el 4 .rect "" []) (leaf (el 5 .rect "" [(.fill, red)]) (leaf (el 6 .rect "" [(.fill, red)]) (leaf (el 7 .rect "" [(.fill, red)])
  (leaf (el 8 .rect "" [(.fill, red)]) .nil))))))))

/-- Of two rows of elements with the same style only one is grouped by one run. -/
theorem C67_refuted_group : ¬ Settles Parsed (may GroupStyle.groupByStyle) :=
  unsettled' (f := rowDoc) (by decide +kernel) (by decide +kernel)

/-! ### The theorems say something about real documents -/

/-- Tasks that are settled after one run, and change something in that run. -/
def stopsDoc : Forest := doc (.cons (el 1 .linearGradient "a" []) (leaf (el 2 .stop "" [(.offset, .length ⟨150, .percent⟩)])
  (leaf (el 3 .stop "" [(.offset, .length ⟨1/2, .none⟩)]) .nil)) (leaf (el 4 .rect "r" [(.width, px (-1)), (.transform, .transform ⟨1, 0, 0, 1, 5, 5⟩)])
  (leaf (el 5 .line "" [(.x1, px 0), (.x2, px 5), (.fill, .funcLink 1)]) .nil)))

example : Parsed stopsDoc := by decide +kernel
example : ∃ p, Stops.resolveStops stopsDoc = .ok p ∧ p ≠ stopsDoc :=
  ⟨(result Stops.resolveStops stopsDoc).get (by decide +kernel), by decide +kernel, by decide +kernel⟩
example : ((result Stops.resolveStops stopsDoc).bind (result (may Stops.fixInvalidAttributes)) == result Stops.resolveStops stopsDoc) = false ∧
    ((result Stops.resolveStops stopsDoc).bind (result (may Stops.fixInvalidAttributes))).isSome = true := by decide +kernel
example : ∃ g, may ApplyTs.applyToShapes stopsDoc = .ok g ∧ g ≠ stopsDoc := by
  refine ⟨(result (may ApplyTs.applyToShapes) stopsDoc).get (by decide +kernel), by decide +kernel, by decide +kernel⟩
example : ∃ g, may ConvShapes.convertShapes stopsDoc = .ok g ∧ g ≠ stopsDoc := by
  refine ⟨(result (may ConvShapes.convertShapes) stopsDoc).get (by decide +kernel), by decide +kernel, by decide +kernel⟩
example : ∃ g, sure Simple.removeUnreferencedIds stopsDoc = .ok g ∧ g ≠ stopsDoc := ⟨_, rfl, by decide +kernel⟩
/-- The conditions of C67_settled_partial hold for the default options. -/
example : ({} : CleaningOptions).joinStyleAttributes ≠ .all := by decide

end Verif.Idem
