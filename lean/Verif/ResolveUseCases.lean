import Verif.ResolveUseLook
import Verif.UngroupCases
/-
Property C39, continued: documents that meet the conditions, and documents for which the full claim fails.
-/
namespace Verif.ResolveUse
open Verif.Dom Verif.Spec Verif.Render
open Verif.ApplyTs (elem px)
open Verif.Ungroup (svg rect shift scale2)

/-! ### The conditions can be checked -/

def plainLen : Option Value → Bool
  | some (.length q) => decide (q.unit = .none)
  | _ => true

def fitsB (n l : Node) (p : Kind) : Bool :=
  isElem l.kind && !neverRendered l.kind && groupPlace p && (!decide (p = .elem .clipPath) || clipKind l.kind) &&
  n.attrs.all (fun x => (!isOwn x.name || decide (x.name ∈ spent)) && (decide (x.name ∈ spent) || decide (getAttr l.attrs x.name = none))) &&
  plainLen (n.get .x) && plainLen (n.get .y) &&
  (!(n.has .transform || n.has .x || n.has .y) || (takesTransform l.kind && !l.has .transform)) &&
  Ungroup.conds.all (fun a => !l.has a) &&
  (!(([AId.mask, .clipPath, .filter] : List AId).any n.has) ||
    (!n.has .x && !n.has .y && [AId.transform, .opacity, .display, .mask, .clipPath, .filter].all (fun a => !l.has a)))

theorem fits_of {n l : Node} {p : Kind} (h : fitsB n l p = true) : Fits n l p := by
  simp only [fitsB, Bool.and_eq_true, Bool.or_eq_true, Bool.not_eq_true', decide_eq_true_eq, decide_eq_false_iff_not, List.all_eq_true] at h
  obtain ⟨⟨⟨⟨⟨⟨⟨⟨⟨h1, h2⟩, h3⟩, h4⟩, h5⟩, h6⟩, h7⟩, h8⟩, h9⟩, h10⟩ := h
  refine ⟨⟨h1, h2⟩, h3, fun e => h4.resolve_left (fun f => f e), fun x hx ho => ?_, fun x hx ho => (h5 x hx).2.resolve_left ho, fun a q ha hq => ?_,
    fun hm => ?_, h9, fun ⟨a, ha, hn⟩ => ?_⟩
  · exact (h5 x hx).1.resolve_left (by rw [ho]; simp)
  · rcases ha with rfl | rfl
    · rw [hq] at h6; simpa [plainLen] using h6
    · rw [hq] at h7; simpa [plainLen] using h7
  · refine h8.resolve_left ?_
    rcases hm with h | h | h <;> simp [h]
  · have := h10.resolve_left (by
      intro e
      have : [AId.mask, .clipPath, .filter].any n.has = true := List.any_eq_true.2 ⟨a, ha, hn⟩
      rw [this] at e; cases e)
    exact ⟨this.1.1, this.1.2, this.2⟩

def rankedB (v : Nat → Bool) (r : Nat → Nat) (up : List Nat) : Forest → Bool
  | .nil => true
  | .cons n k f =>
    (!v n.key || (up.all (fun x => decide (r x < r n.key)) && n.links.all (fun x => decide (r x < r n.key)) &&
      k.nodes.all (fun m => m.links.all (fun x => decide (r x < r n.key))))) &&
    rankedB v r (up ++ Render.Node.styleLinks n) k && rankedB v r up f

theorem ranked_of {v : Nat → Bool} {r : Nat → Nat} {up : List Nat} {f : Forest} (h : rankedB v r up f = true) :
    Ranked (fun k => v k = true) r up f := by
  induction f generalizing up with
  | nil => trivial
  | cons n k g ihk ihr =>
    simp only [rankedB, Bool.and_eq_true, Bool.or_eq_true, Bool.not_eq_true', List.all_eq_true, decide_eq_true_eq] at h
    refine ⟨fun e => ?_, ihk h.1.2, ihr h.2⟩
    have := h.1.1.resolve_left (by rw [e]; simp)
    exact ⟨this.1.1, this.1.2, this.2⟩

def resolvableB (r : Nat → Nat) (f : Forest) : Bool :=
  decide f.UniqueKeys && f.nodes.all (fun n => decide (n.attrs.map (·.name)).Nodup) && rankedB f.isUsed r [] f &&
  (placed none f).all (fun x => !decide (x.2.1.kind = .elem .use) ||
    (placed none f).all (fun y => !decide (target f x.2.1 = some y.2.1.key) ||
      (fitsB x.2.1 y.2.1 (kindOf x.1) && x.2.2.nodes.all (fun m => !f.isUsed m.key && !decide (m.kind = .elem .use)) &&
        y.2.2.nodes.all (fun m => !f.isUsed m.key) && (y.1).all (fun d => !f.isUsed d.1))))

theorem resolvable_of {f : Forest} (r : Nat → Nat) (h : resolvableB r f = true) : Resolvable f := by
  simp only [resolvableB, Bool.and_eq_true, Bool.or_eq_true, Bool.not_eq_true', List.all_eq_true, decide_eq_true_eq, decide_eq_false_iff_not] at h
  obtain ⟨⟨⟨h1, h2⟩, h3⟩, h4⟩ := h
  refine ⟨h1, h2, ⟨r, ranked_of h3⟩, fun q n kn hn hk k ht q' l lk hl hlk => ?_⟩
  have := ((h4 _ hn).resolve_left (fun e => e hk) _ hl).resolve_left (fun e => e (by rw [ht, hlk]))
  obtain ⟨⟨⟨a, b⟩, c⟩, d⟩ := this
  refine ⟨fits_of a, b, c, fun e he => ?_⟩
  subst he
  simpa using d

/-! ### A document that meets the conditions -/

/-- A moved element with the style of the `use` element; a group that contains a `use` element of another element, with an opacity and a
clip path that itself contains one; an element with two users. -/
def sample : Forest :=
  svg (.cons (elem 2 .defs [])
      (rect 3 [(.x, px 1)] (.cons (elem 4 .g [(.opacity, .number (1/2)), (.clipPath, .funcLink 9)])
        (.cons (elem 5 .use [(.xlinkHref, .link 6), (.transform, scale2)]) .nil .nil)
        (rect 6 [(.stroke, .kw .none)] (rect 7 [] (rect 8 [] .nil)))))
    (.cons (elem 9 .clipPath []) (.cons (elem 10 .use [(.xlinkHref, .link 7)]) .nil .nil)
      (.cons (elem 11 .use [(.xlinkHref, .link 3), (.x, px 10), (.transform, scale2), (.fill, .color 1 2 3)]) .nil
        (.cons (elem 12 .use [(.xlinkHref, .link 4), (.fill, .color 3 2 1)]) .nil
          (.cons (elem 13 .use [(.xlinkHref, .link 8)]) .nil (.cons (elem 14 .use [(.xlinkHref, .link 8)]) .nil .nil))))))

def sampleOut : Forest :=
  svg (.cons (elem 2 .defs []) (rect 8 [] .nil)
    (.cons (elem 9 .clipPath []) (rect 7 [] .nil)
      (rect 3 [(.x, px 1), (.transform, .transform ⟨2, 0, 0, 2, 20, 0⟩), (.fill, .color 1 2 3)]
        (.cons (elem 4 .g [(.opacity, .number (1/2)), (.clipPath, .funcLink 9), (.fill, .color 3 2 1)])
          (rect 6 [(.stroke, .kw .none), (.transform, scale2)] .nil)
          (.cons (elem 13 .use [(.xlinkHref, .link 8)]) .nil (.cons (elem 14 .use [(.xlinkHref, .link 8)]) .nil .nil))))))

theorem sample_run : resolveUse sample = some sampleOut := by decide +kernel

/-- The ranks of the elements of the sample that are referred to. -/
def rank (k : Nat) : Nat := if k = 4 then 2 else if k = 9 then 1 else 0

example : SameView sample sampleOut := by
  obtain ⟨g, hg, hv⟩ := C39_look_partial (resolvable_of (f := sample) rank (by decide +kernel))
  rw [sample_run] at hg
  cases hg
  exact hv

/-- The picture is not trivial. -/
example : (picture scribe 3 sample).length = 4 ∧ (picture scribe 3 sample)[0]? =
    some (.elem .rect (some (px 1)) (some (px 5)) (some (.color 1 2 3)) ⟨2, 0, 0, 2, 20, 0⟩ 1) ∧ (picture scribe 3 sample)[1]? =
    some (.elem .rect none (some (px 5)) (some (.color 3 2 1)) ⟨2, 0, 0, 2, 0, 0⟩ (1/2)) := by decide +kernel

/-- The picture at a smaller depth is different: references have to be followed. -/
example : picture scribe 1 sample ≠ picture scribe 3 sample ∧ picture scribe 1 sample ≠ picture scribe 1 sampleOut := by decide +kernel

/-! ### Where the full claim fails -/

theorem refute {f g : Forest} (h : resolveUse f = some g) (hf : ∀ d, picture scribe (d + 1) f = picture scribe 1 f)
    (hg : ∀ d, picture scribe (d + 1) g = picture scribe 1 g) (hd : picture scribe 1 f ≠ picture scribe 1 g) : ¬ C39_full := by
  intro hc
  obtain ⟨D, hD⟩ := hc f g h _ scribe
  exact hd (by rw [← hf D, ← hg D]; exact hD (D + 1) (by omega))

def fillIn : Forest :=
  svg (.cons (elem 2 .defs []) (rect 3 [(.fill, .color 1 1 1)] .nil)
      (.cons (elem 4 .use [(.xlinkHref, .link 3), (.fill, .color 2 2 2)]) .nil .nil))

def fillOut : Forest :=
  svg (.cons (elem 2 .defs []) .nil (rect 3 [(.fill, .color 2 2 2)] .nil))

/-- **Finding.** The properties of the `use` element replace those of the element it refers to; a `use` element only passes them on as
inherited values. -/
theorem C39_refuted_fill : ¬ C39_full :=
  refute (f := fillIn) (g := fillOut) (by decide +kernel) (fun _ => rfl) (fun _ => rfl) (by decide +kernel)

def transformIn : Forest :=
  svg (.cons (elem 2 .defs []) (rect 3 [(.transform, scale2)] .nil)
      (.cons (elem 4 .use [(.xlinkHref, .link 3), (.x, px 10)]) .nil .nil))

def transformOut : Forest :=
  svg (.cons (elem 2 .defs []) .nil (rect 3 [(.transform, shift)] .nil))

/-- **Finding.** The transform of the `use` element replaces that of the element instead of being multiplied with it. -/
theorem C39_refuted_transform : ¬ C39_full :=
  refute (f := transformIn) (g := transformOut) (by decide +kernel) (fun _ => rfl) (fun _ => rfl) (by decide +kernel)

def opacityIn : Forest :=
  svg (.cons (elem 2 .defs []) (rect 3 [(.opacity, .number (1/2))] .nil)
      (.cons (elem 4 .use [(.xlinkHref, .link 3), (.opacity, .number (1/2))]) .nil .nil))

def opacityOut : Forest :=
  svg (.cons (elem 2 .defs []) .nil (rect 3 [(.opacity, .number (1/2))] .nil))

/-- **Finding.** So does the opacity. -/
theorem C39_refuted_opacity : ¬ C39_full :=
  refute (f := opacityIn) (g := opacityOut) (by decide +kernel) (fun _ => rfl) (fun _ => rfl) (by decide +kernel)

def widthIn : Forest :=
  svg (.cons (elem 2 .defs []) (rect 3 [] .nil) (.cons (elem 4 .use [(.xlinkHref, .link 3), (.width, px 9)]) .nil .nil))

def widthOut : Forest :=
  svg (.cons (elem 2 .defs []) .nil (.cons (elem 3 .rect [(.width, px 9)]) .nil .nil))

/-- **Finding.** `width` and `height` of a `use` element mean nothing for a shape, but replace those of the shape. -/
theorem C39_refuted_width : ¬ C39_full :=
  refute (f := widthIn) (g := widthOut) (by decide +kernel) (fun _ => rfl) (fun _ => rfl) (by decide +kernel)

def unitsIn : Forest :=
  svg (.cons (elem 2 .defs []) (rect 3 [] .nil) (.cons (elem 4 .use [(.xlinkHref, .link 3), (.x, .length ⟨1, .mm⟩)]) .nil .nil))

def unitsOut : Forest :=
  svg (.cons (elem 2 .defs []) (rect 3 [] .nil) (.cons (elem 4 .use [(.x, .length ⟨1, .mm⟩)]) .nil .nil))

/-- **Finding.** If `x` or `y` has a unit, then the element is not moved to the place of the `use` element, but the reference is gone
already: nothing is shown. -/
theorem C39_refuted_units : ¬ C39_full :=
  refute (f := unitsIn) (g := unitsOut) (by decide +kernel) (fun _ => rfl) (fun _ => rfl) (by decide +kernel)

def svgIn : Forest :=
  svg (.cons (elem 2 .defs []) (.cons (elem 3 .svg []) (rect 5 [] .nil) .nil)
      (.cons (elem 4 .use [(.xlinkHref, .link 3), (.x, px 10)]) .nil .nil))

def svgOut : Forest :=
  svg (.cons (elem 2 .defs []) .nil (.cons (elem 3 .svg [(.transform, shift)]) (rect 5 [] .nil) .nil))

/-- **Finding.** `x` of the `use` element becomes a transform, which means nothing for a nested `svg` element (SVG 1.1). -/
theorem C39_refuted_svg : ¬ C39_full :=
  refute (f := svgIn) (g := svgOut) (by decide +kernel) (fun _ => rfl) (fun _ => rfl) (by decide +kernel)

def switchIn : Forest :=
  svg (.cons (elem 2 .defs []) (rect 3 [(.systemLanguage, .str "no")] .nil)
      (.cons (elem 6 .switch []) (.cons (elem 4 .use [(.xlinkHref, .link 3)]) .nil (rect 5 [] .nil)) .nil))

def switchOut : Forest :=
  svg (.cons (elem 2 .defs []) .nil
      (.cons (elem 6 .switch []) (rect 3 [(.systemLanguage, .str "no")] (rect 5 [] .nil)) .nil))

/-- **Finding.** An element in a `switch` element: the `use` element was chosen and showed nothing, now the next one is chosen. -/
theorem C39_refuted_switch : ¬ C39_full :=
  refute (f := switchIn) (g := switchOut) (by decide +kernel) (fun _ => rfl) (fun _ => rfl) (by decide +kernel)

/-- A `use` element inside the element it refers to (a circular reference): the code would insert the element into itself. -/
example : resolveUse (svg (.cons (elem 2 .defs []) (.cons (elem 3 .g []) (.cons (elem 4 .use [(.xlinkHref, .link 3)]) .nil .nil) .nil) .nil)) = none := by
  decide +kernel

end Verif.ResolveUse
