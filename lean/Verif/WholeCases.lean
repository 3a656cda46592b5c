import Verif.WholeFile
import Verif.ReaderCases
import Verif.SketchCases
/-
C71: the statement and a counterexample.
-/
namespace Verif.Whole
open Verif.Dom Verif.Spec Verif.Render Verif.Draft Verif.Pipeline
open Verif.Dom (Res)
open Verif.Cli (CleaningOptions)
open Verif.Simple
open Verif.Reader (Standard Sane onPaper svgInitial_sane svgInitial_standard draftsman draftsman_plots draftsman_zooms draftsman_heeds isTextual fontRelative)
open Verif.DefaultAttrs (svgInitial)
open Verif.Paths (Path Event Seg)

/-- **C71** as it is stated: whatever the options are, the file that is written is drawn as the document that the preparation leaves. -/
def C71_full : Prop := ∀ (E : Pipeline.Env) (o : CleaningOptions) (f p g : Forest), Parsed f → Standard E.ini → Sane E.ini → o.joinStyleAttributes = .none →
  runUpTo E o 8 f = .ok p → cleanDoc E o f = .ok g → SameDrawing E.ini p (onPaper g)

/-- C71 for drawings with all options: groups, shapes, images, text and gradients, under the conditions that the tasks ask for (`Apt`).  `p` is
the document after the preparation, `g` is the document that is written; `d` differs from it only in that the attributes have not been joined to
`style` attributes yet (this is C49).  `onPaper` takes away the attributes that are not written.  Missing: other documents (`use`, clip paths,
masks, filters, markers, patterns, conditional processing); gradients, if one of the options that change gradients is on (C24 to C30); strokes, if
segments of paths are removed; text, if text attributes are removed. -/
theorem C71_drawing_partial (E : Pipeline.Env) (o : CleaningOptions) (hs : Standard E.ini) (hn : Sane E.ini) {f p g : Forest} (h : runUpTo E o 8 f = .ok p)
    (hp : Apt E.ini .shapes o p) (hg : cleanDoc E o f = .ok g) :
    ∃ d, g = joinStyleAttributes E.nameOf E.ser o.joinStyleAttributes d ∧ SameDrawing E.ini p d ∧ SameDrawing E.ini p (onPaper d) ∧
      (o.joinStyleAttributes = .none → SameDrawing E.ini p (onPaper g)) := by
  have e : plan (tasks E o) o = (plan (tasks E o) o).take 41 ++ [(tasks E o).joinStyle o.joinStyleAttributes] := rfl
  unfold cleanDoc at hg
  rw [e] at hg
  obtain ⟨d, h1, h2⟩ := runAll_append hg
  obtain ⟨g', h3, h4⟩ := runAll_cons h2
  cases h3
  cases h4
  have e : (plan (tasks E o) o).take 41 = (plan (tasks E o) o).take 8 ++ ((plan (tasks E o) o).drop 8).take 33 := rfl
  rw [e] at h1
  obtain ⟨p', h5, h6⟩ := runAll_append h1
  unfold runUpTo at h
  rw [h] at h5
  cases h5
  obtain ⟨hd, hd'⟩ := serene_file E o hs hn hp h6
  refine ⟨d, rfl, hd, hd', fun hj => ?_⟩
  unfold joinStyleAttributes
  rw [if_pos hj]
  exact hd'

/-! ### A counterexample -/

def svgEnv : Pipeline.Env := ⟨svgInitial, fun _ => [], fun _ => []⟩

def svgUpTo (o : CleaningOptions) (i : Nat) (f : Forest) : Forest :=
  match runUpTo svgEnv o i f with
  | .ok g => g
  | _ => .nil

/-- A black rectangle that is shown by a `use` element in a red group. -/
def blackCopy : Forest :=
  .cons (el 0 .svg "" [])
    (.cons (el 1 .defs "" []) (leaf (el 2 .rect "r" [(.fill, .color 0 0 0), (.width, px 1), (.height, px 1)]) .nil)
      (.cons (el 3 .g "" [(.fill, .color 255 0 0)]) (leaf (el 4 .use "" [(.xlinkHref, .link 2)]) .nil) .nil)) .nil

/-- What is written. -/
def redCopy : Forest :=
  .cons (el 0 .svg "" [(.xmlnsXlink, .str "http://www.w3.org/1999/xlink")])
    (.cons (el 1 .defs "" []) (leaf (el 2 .rect "r" [(.width, px 1), (.height, px 1)]) .nil)
      (.cons (el 3 .g "" [(.fill, .color 255 0 0)]) (leaf (el 4 .use "" [(.xlinkHref, .link 2)]) .nil) .nil)) .nil

set_option maxHeartbeats 1000000 in
theorem blackCopy_depth : ∀ d : Nat, picture draftsman (d + 1) blackCopy = picture draftsman 1 blackCopy := fun _ => rfl

set_option maxHeartbeats 1000000 in
theorem redCopy_depth : ∀ d : Nat, picture draftsman (d + 1) redCopy = picture draftsman 1 redCopy := fun _ => rfl

/-- **Finding.** The copy becomes red, if default attributes are removed (see `C70_refuted_copies`). -/
theorem C71_refuted_copies : ¬ C71_full := by
  intro h
  obtain ⟨D, hD⟩ := h svgEnv { removeDefaultAttributes := true } blackCopy blackCopy (svgUpTo { removeDefaultAttributes := true } 42 blackCopy)
    (by decide +kernel) svgInitial_standard svgInitial_sane rfl (by decide +kernel) (by decide +kernel) _ draftsman _ draftsman_plots draftsman_zooms draftsman_heeds
  have := hD (D + 1) (by omega)
  rw [show onPaper (svgUpTo { removeDefaultAttributes := true } 42 blackCopy) = redCopy by decide +kernel, blackCopy_depth, redCopy_depth] at this
  revert this
  decide +kernel

end Verif.Whole
