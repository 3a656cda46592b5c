import Verif.UngroupLook
/-
Property C36, continued: documents that meet the conditions, and documents for which the full claim fails.
-/
namespace Verif.Ungroup
open Verif.Dom Verif.Spec Verif.Render
open Verif.ApplyTs (TsOpts elem px)

/-! ### The conditions can be checked -/

def isTransform : Value → Bool
  | .transform _ => true
  | _ => false

def groupOkB (u : Nat → Bool) (p : Kind) (n : Node) (k : Forest) : Bool :=
  groupPlace p && decide (n.attrs.map (·.name)).Nodup && n.attrs.all groupAttr && (!decide (p = .elem .switch) || solid k) &&
  (!u n.key || lasting k)

def nodeOkB (u : Nat → Bool) (p : Kind) (w : Around) (n : Node) (k : Forest) : Bool :=
  (!decide (n.kind = .elem .g) || groupOkB u p n k) &&
  (!w.transform || (!u n.key && (takesTransform n.kind || neverRendered n.kind || !isElem n.kind))) &&
  conds.all (fun a => !(decide (a ∈ w.conds) || w.switch) || !n.has a) &&
  (!decide (p = .elem .g) || (!isChars n.kind && n.attrs.all (fun x => decide (x.value ≠ .kw .inherit)) &&
    (n.get .transform).all isTransform))

def fitB (u : Nat → Bool) (p : Kind) (w : Around) : Forest → Bool
  | .nil => true
  | .cons n k r => nodeOkB u p w n k && fitB u n.kind (w.enter p n) k && fitB u p w r

theorem fit_of_fitB {u : Nat → Bool} {p : Kind} {w : Around} {f : Forest} (h : fitB u p w f = true) : Fit u p w f := by
  induction f generalizing p w with
  | nil => trivial
  | cons n k r ihk ihr =>
    simp only [fitB, Bool.and_eq_true] at h
    refine ⟨?_, ihk h.1.2, ihr h.2⟩
    have h1 := h.1.1
    simp only [nodeOkB, Bool.and_eq_true, Bool.or_eq_true, Bool.not_eq_true', decide_eq_false_iff_not, List.all_eq_true,
      decide_eq_true_eq] at h1
    obtain ⟨⟨⟨a, b⟩, c⟩, d⟩ := h1
    refine ⟨fun hg => ?_, fun ht => ?_, fun x hx hc => ?_, fun hp => ?_⟩
    · have a' := a.resolve_left (fun hn => hn hg)
      simp only [groupOkB, Bool.and_eq_true, Bool.or_eq_true, Bool.not_eq_true', decide_eq_false_iff_not, List.all_eq_true,
        decide_eq_true_eq] at a'
      obtain ⟨⟨⟨⟨a1, a2⟩, a3⟩, a4⟩, a5⟩ := a'
      exact ⟨a1, a2, a3, fun e => a4.resolve_left (fun hn => hn e), fun e => a5.resolve_left (by rw [e]; simp)⟩
    · rcases b with b | b
      · rw [ht] at b; cases b
      · exact ⟨b.1, by simpa using b.2⟩
    · rcases c x hx with c | c
      · rcases hc with hc | hc
        · simp [hc] at c
        · simp [hc] at c
      · exact c
    · have d' := d.resolve_left (fun hn => hn hp)
      refine ⟨d'.1.1, fun y hy => by simpa using d'.1.2 y hy, fun v hv => ?_⟩
      have := d'.2
      rw [hv] at this
      cases v with
      | transform t => exact ⟨t, rfl⟩
      | _ => cases this

/-- Enough to show that two documents look different. -/
theorem not_sameLook {f g : Forest} (d : Nat) (h : picture scribe d f ≠ picture scribe d g) : ¬ SameLook f g :=
  fun hs => h (hs _ scribe d)

/-! ### A document that meets the conditions -/

def svg (k : Forest) : Forest := .cons (elem 1 .svg []) k .nil
def rect (k : Nat) (as : List (AId × Value)) (r : Forest) : Forest := .cons (elem k .rect ((.width, px 5) :: as)) .nil r
def scale2 : Value := .transform ⟨2, 0, 0, 2, 0, 0⟩
def shift : Value := .transform ⟨1, 0, 0, 1, 10, 0⟩

def noShapes : TsOpts := ⟨false, false, false⟩

/-- A group with one child, a group without attributes, and a group with a transform around elements with transforms; one in
a `switch`. -/
def sample : Forest :=
  svg (.cons (elem 2 .g [(.fill, .kw .none), (.opacity, .number (1/2)), (.systemLanguage, .str "en")])
    (rect 3 [(.opacity, .number (1/2)), (.transform, shift)] .nil)
    (.cons (elem 4 .g []) (rect 5 [] (rect 6 [] .nil))
      (.cons (elem 7 .g [(.transform, scale2)]) (rect 8 [(.transform, shift)] (rect 9 [(.transform, shift)] .nil))
        (.cons (elem 10 .switch []) (.cons (elem 11 .g [(.systemLanguage, .str "no")]) (rect 12 [] .nil) (rect 13 [] .nil))
          (.cons (elem 14 .use [(.xlinkHref, .link 5)]) .nil .nil)))))

example : Groupable sample := fit_of_fitB (by decide +kernel)

def sampleOut : Forest :=
  svg (rect 3 [(.opacity, .number (1/4)), (.transform, shift), (.fill, .kw .none), (.systemLanguage, .str "en")]
    (rect 5 [] (rect 6 [] (rect 8 [(.transform, .transform ⟨2, 0, 0, 2, 20, 0⟩)] (rect 9 [(.transform, .transform ⟨2, 0, 0, 2, 20, 0⟩)]
      (.cons (elem 10 .switch []) (rect 12 [(.systemLanguage, .str "no")] (rect 13 [] .nil))
        (.cons (elem 14 .use [(.xlinkHref, .link 5)]) .nil .nil)))))))

theorem sample_run : ungroupGroups noShapes sample = some (some sampleOut) := by decide +kernel

example : SameLook sample sampleOut := C36_look_partial (fit_of_fitB (by decide +kernel)) sample_run

/-- The picture is not trivial: seven elements, one of them a copy, and one that is not chosen. -/
example : (picture scribe 1 sample).length = 7 ∧ (picture scribe 1 sample).head? =
    some (.elem .rect none (some (px 5)) (some (.kw .none)) ⟨1, 0, 0, 1, 10, 0⟩ (1/4)) := by decide +kernel

/-! ### Where the full claim fails -/

theorem refute {o : TsOpts} {f g : Forest} (d : Nat) (h : ungroupGroups o f = some (some g))
    (hd : picture scribe d f ≠ picture scribe d g) : ¬ C36_full := fun hf => not_sameLook d hd (hf o f g h)

/-- **Finding.** `display` is copied to the child even if the child has its own: a hidden element in a group with
`display="inline"` is shown. -/
theorem C36_refuted_display : ¬ C36_full :=
  refute (o := noShapes) (f := svg (.cons (elem 2 .g [(.display, .str "inline")]) (rect 3 [(.display, .kw .none)] .nil) .nil))
    (g := svg (rect 3 [(.display, .str "inline")] .nil)) 0 (by decide +kernel) (by decide +kernel)

/-- **Finding.** The transform of a group with a nested `svg` element is copied to the latter, where it has no effect (SVG 1.1). -/
theorem C36_refuted_nested_svg : ¬ C36_full :=
  refute (o := noShapes) (f := svg (.cons (elem 2 .g [(.transform, scale2)]) (.cons (elem 3 .svg []) (rect 4 [] .nil) .nil) .nil))
    (g := svg (.cons (elem 3 .svg [(.transform, scale2)]) (rect 4 [] .nil) .nil)) 0 (by decide +kernel) (by decide +kernel)

/-- **Finding.** The transform of a group is pushed to children that are referred to: the copy made by a `use` element outside
of the group moves. -/
theorem C36_refuted_used_child : ¬ C36_full :=
  refute (o := noShapes)
    (f := svg (.cons (elem 2 .g [(.transform, scale2)]) (rect 3 [(.transform, shift)] (rect 4 [(.transform, shift)] .nil))
      (.cons (elem 5 .use [(.xlinkHref, .link 3)]) .nil .nil)))
    (g := svg (rect 3 [(.transform, .transform ⟨2, 0, 0, 2, 20, 0⟩)] (rect 4 [(.transform, .transform ⟨2, 0, 0, 2, 20, 0⟩)]
      (.cons (elem 5 .use [(.xlinkHref, .link 3)]) .nil .nil)))) 1 (by decide +kernel) (by decide +kernel)

/-- **Finding.** An attribute that means nothing on a group is copied to the child, where it has a meaning (there is a "TODO" for
this in the code). -/
theorem C36_refuted_own : ¬ C36_full :=
  refute (o := noShapes) (f := svg (.cons (elem 2 .g [(.x, px 7)]) (rect 3 [] .nil) .nil)) (g := svg (rect 3 [(.x, px 7)] .nil)) 0
    (by decide +kernel) (by decide +kernel)

/-- **Finding.** Of two conditional processing attributes, only that of the child is kept. -/
theorem C36_refuted_conditions : ¬ C36_full :=
  refute (o := noShapes) (f := svg (.cons (elem 2 .g [(.systemLanguage, .str "no")]) (rect 3 [(.systemLanguage, .str "en")] .nil) .nil))
    (g := svg (rect 3 [(.systemLanguage, .str "en")] .nil)) 0 (by decide +kernel) (by decide +kernel)

/-- **Finding.** An empty group in a `switch` element is taken away: the next child is chosen instead. -/
theorem C36_refuted_switch : ¬ C36_full :=
  refute (o := noShapes) (f := svg (.cons (elem 2 .switch []) (.cons (elem 3 .g []) .nil (rect 4 [] .nil)) .nil))
    (g := svg (.cons (elem 2 .switch []) (rect 4 [] .nil) .nil)) 0 (by decide +kernel) (by decide +kernel)

/-- **Finding.** A group in a `switch` element whose child has a condition: without the group, the child is not chosen and the next
one is shown, while the group was chosen and showed nothing. -/
theorem C36_refuted_switch_child : ¬ C36_full :=
  refute (o := noShapes)
    (f := svg (.cons (elem 2 .switch []) (.cons (elem 3 .g []) (rect 4 [(.systemLanguage, .str "no")] .nil) (rect 5 [] .nil)) .nil))
    (g := svg (.cons (elem 2 .switch []) (rect 4 [(.systemLanguage, .str "no")] (rect 5 [] .nil)) .nil)) 0 (by decide +kernel)
    (by decide +kernel)

/-- An opacity that is not a number, which the parser does not produce, makes the program panic. -/
example : ungroupGroups noShapes (svg (.cons (elem 2 .g [(.opacity, .kw .inherit)]) (rect 3 [(.opacity, .number 1)] .nil) .nil)) = none := by
  decide +kernel

end Verif.Ungroup
