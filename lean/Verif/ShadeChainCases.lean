import Verif.ShadeCases
import Verif.ShadeApply
/-
C73: documents that meet the conditions, and one that does not.
-/
namespace Verif.Shade
open Verif.Dom Verif.Spec Verif.Render Verif.Reader
open Verif.Gradients (OnlyHref AllVisible NoLinearToRadial att)
open Verif.ApplyTs (px elem)

/-- A check of the conditions, by evaluation. -/
def formB (f : Forest) : Bool :=
  f.nodes.all fun n => n.attrs.all fun x => match x.name, x.value with
    | .id .xlinkHref, .link _ => x.visible
    | .id a, .funcLink _ => x.visible && decide (a ≠ .xlinkHref)
    | _, v => decide (v.target = none)

theorem form_of {f : Forest} (h : formB f = true) : LinkForm f := by
  intro n hn x hx ht
  have := List.all_eq_true.1 (List.all_eq_true.1 h n hn) x hx
  obtain ⟨nm, v, vis⟩ := x
  dsimp only at this ht ⊢
  split at this
  · exact ⟨this, .inl ⟨rfl, _, rfl⟩⟩
  · simp only [Bool.and_eq_true, decide_eq_true_eq] at this
    exact ⟨this.1, .inr ⟨_, this.2, rfl, _, rfl⟩⟩
  · exact absurd (of_decide_eq_true this) ht

def onlyB (f : Forest) : Bool :=
  f.nodes.all fun n => !n.isGradient || n.attrs.all fun x => decide (x.value.target = none) || decide (x.name = .id .xlinkHref)

theorem only_of {f : Forest} (h : onlyB f = true) : OnlyHref f := by
  intro n hn hg x hx ht
  have := List.all_eq_true.1 h n hn
  rw [hg] at this
  have := List.all_eq_true.1 this x hx
  simp only [Bool.or_eq_true, decide_eq_true_eq] at this
  exact this.resolve_left ht

def linearB (f : Forest) : Bool :=
  f.nodes.all fun n => match n.kind, written n .xlinkHref with
    | .elem .linearGradient, some (.link k) => (f.find k).all fun m => decide (m.kind ≠ .elem .radialGradient)
    | _, _ => true

theorem linear_of {f : Forest} (h : linearB f = true) : NoLinearToRadial f := by
  intro n hn hk k hw m hm
  have := List.all_eq_true.1 h n hn
  rw [hk, hw] at this
  dsimp only at this
  rw [hm] at this
  exact of_decide_eq_true this

/-- The conditions on gradients one by one. -/
def gradB (f : Forest) : Bool :=
  (f.nodes.all fun n => !n.isGradient || (decide (n.id ≠ "") && (f.nodes.all fun x => !decide (x.id = n.id) || decide (x = n)) &&
    (Dupl.allAttrs.all fun a => decide (n.get a = none) || decide (a ∈ gradientAttrs n.kind)) &&
    (decide (n.get .xlinkHref = none) || ((decide (n.get .cx = none) || decide (n.get .fx ≠ none)) && (decide (n.get .cy = none) || decide (n.get .fy ≠ none)))) &&
    decide (n.get .gradientTransform ≠ some (.transform one)))) &&
  ((subs f).all fun x => !x.1.isGradient || ((x.2.top.all fun d => decide (d.kind = .elem .stop)) &&
    (x.2.nodes.all fun d => decide (d.isGradient = false) && decide (f.isUsed d.key = false) && decide (d.links = [])) &&
    (decide (x.2.top = []) == decide (x.1.get .xlinkHref ≠ none)))) &&
  (f.nodes.all fun n => !decide (n.kind = .elem .stop) || decide (n.get .stopColor ≠ some (.kw .currentColor)))

theorem fresh_of {f : Forest} {rank : Nat → Nat} (h1 : pageB f rank = true) (h2 : f.UniqueKeys) (h3 : f.LinksOk) (h4 : AllVisible f) (h5 : onlyB f = true)
    (h6 : formB f = true) (h7 : linearB f = true) (h8 : gradB f = true) : Fresh f := by
  simp only [gradB, Bool.and_eq_true, List.all_eq_true, Bool.or_eq_true, Bool.not_eq_true', decide_eq_true_eq, decide_eq_false_iff_not, beq_iff_eq] at h8
  obtain ⟨⟨a, b⟩, c⟩ := h8
  have ha := fun n hn (hg : n.isGradient = true) => (a n hn).resolve_left (by rw [hg]; decide)
  have hb := fun x hx (hg : x.1.isGradient = true) => (b x hx).resolve_left (by rw [hg]; decide)
  refine ⟨page_of h1, h2, h3, h4, only_of h5, form_of h6, linear_of h7, fun n hn hg => (ha n hn hg).1.1.1.1, fun n hn hg x hx e => ?_, fun x hx hg => ⟨(hb x hx hg).1.1, fun d hd => ?_⟩, fun n hn hk => ?_,
    fun x hx hg => ?_, fun n hn hg d hd hw => ?_, fun n hn hg hh d e hc hw => ?_, fun n hn hg => (ha n hn hg).2⟩
  · exact ((ha n hn hg).1.1.1.2 x hx).resolve_left (by simp [e])
  · have := (hb x hx hg).1.2 d hd
    exact ⟨this.1.1, this.1.2, this.2⟩
  · exact (c n hn).resolve_left (by simp [hk])
  · have := (hb x hx hg).2
    rwa [decide_eq_decide] at this
  · exact ((ha n hn hg).1.1.2 d hd).resolve_left hw
  · have := (ha n hn hg).1.2.resolve_left hh
    unfold centreOf at hc
    split at hc <;> cases hc
    · exact this.1.resolve_left hw
    · exact this.2.resolve_left hw

def stop (k : Nat) (c : Nat) (r : Forest) : Forest := .cons (elem k .stop [(.offset, .number 0), (.stopColor, .color c 0 0)]) .nil r
def grad (k : Nat) (i : String) (e : EId) (as : List (AId × Value)) : Node := ⟨k, .elem e, i, as.map fun x => ⟨.id x.1, x.2, true⟩⟩

/-- All radial gradients have a radius. -/
theorem radii_of {f : Forest} (h : (f.nodes.all fun n => !decide (n.kind = .elem .radialGradient) || decide (written n .r ≠ none)) = true) : RadiiWritten f := by
  intro n hn hk _ _ _
  have := List.all_eq_true.1 h n hn
  rw [hk] at this
  simpa using this

def bigger : Value := .transform ⟨2, 0, 0, 2, 0, 0⟩

/-- Equal gradients with transforms (the second one gives the initial value of an attribute), gradients that refer to them, and shapes. -/
def several : Forest :=
  .cons (elem 0 .svg [])
    (.cons (elem 7 .defs [])
      (.cons (grad 1 "a" .linearGradient [(.x1, px 5), (.x2, px 6), (.y1, px 0), (.y2, px 0), (.gradientTransform, bigger)]) (stop 10 1 (stop 11 2 .nil))
      (.cons (grad 2 "b" .linearGradient [(.x1, px 5), (.x2, px 6), (.y1, px 0), (.y2, px 0), (.spreadMethod, .kw .pad), (.gradientTransform, bigger)])
        (stop 12 1 (stop 13 2 .nil))
      (.cons (grad 3 "c" .linearGradient [(.xlinkHref, .link 1)]) .nil
      (.cons (grad 4 "d" .linearGradient [(.xlinkHref, .link 2)]) .nil
      (.cons (grad 5 "e" .radialGradient [(.r, px 3), (.cx, px 1), (.cy, px 1), (.gradientTransform, bigger)]) (stop 14 1 .nil)
      (.cons (grad 6 "f" .radialGradient [(.r, px 6), (.cx, px 2), (.cy, px 2)]) (stop 15 1 .nil) .nil))))))
    (.cons (elem 8 .rect [(.fill, .funcLink 4), (.stroke, .funcLink 3)]) .nil
    (.cons (elem 9 .rect [(.fill, .funcLink 6)]) .nil .nil)))
  .nil

/-- Two gradients are left, and no transforms: that of the linear gradients could only be applied after merging. -/
def severalAfter : Forest :=
  .cons (elem 0 .svg [])
    (.cons (elem 7 .defs [])
      (.cons (grad 3 "c" .linearGradient [(.x1, px 10), (.y1, px 0), (.x2, px 12), (.y2, px 0)]) (stop 10 1 (stop 11 2 .nil))
      (.cons (grad 5 "e" .radialGradient [(.r, px 6), (.cx, px 2), (.cy, px 2), (.fx, px 2), (.fy, px 2)]) (stop 14 1 .nil) .nil))
    (.cons (elem 8 .rect [(.fill, .funcLink 3), (.stroke, .funcLink 3)]) .nil
    (.cons (elem 9 .rect [(.fill, .funcLink 5)]) .nil .nil)))
  .nil

/-- All options that deal with gradients. -/
def allGradients : Cli.CleaningOptions :=
  { applyTransformToGradients := true, removeDuplLinearGradients := true, removeDuplRadialGradients := true, mergeGradients := true, regroupGradientStops := true }

example : Fresh several ∧ RadiiWritten several ∧ (gradientPasses allGradients several).map onPaper = some severalAfter :=
  ⟨fresh_of (rank := id) (by decide +kernel) (by decide +kernel) (by decide +kernel) (by decide +kernel) (by decide +kernel) (by decide +kernel) (by decide +kernel) (by decide +kernel),
   radii_of (by decide +kernel), by decide +kernel⟩

/-! ### The full claim -/

/-- **C73** for all documents in which references are made by `fill`, `stroke` and `xlink:href` of gradients only.  It is false. -/
def C73_full : Prop := ∀ (o : Cli.CleaningOptions) (f g : Forest), Page f → f.UniqueKeys → f.LinksOk → AllVisible f → OnlyHref f → LinkForm f → NoLinearToRadial f →
  gradientPasses o f = some g → SameShade f (onPaper g)

/-- A gradient without stops; one that takes its stops from another one. -/
def empty : Forest :=
  .cons (elem 0 .svg [])
    (.cons (grad 1 "a" .linearGradient []) .nil
    (.cons (grad 2 "b" .linearGradient [(.xlinkHref, .link 3)]) .nil
    (.cons (grad 3 "c" .linearGradient []) (stop 10 1 .nil)
    (.cons (elem 5 .rect [(.fill, .funcLink 2)]) .nil .nil))))
  .nil

def emptyAfter : Forest :=
  .cons (elem 0 .svg [])
    (.cons (grad 1 "a" .linearGradient []) .nil
    (.cons (grad 3 "c" .linearGradient []) (stop 10 1 .nil)
    (.cons (elem 5 .rect [(.fill, .funcLink 1)]) .nil .nil)))
  .nil

/-- The fill of a single shape. -/
def inkIs : List Wash → Option Value
  | [.shape _ _ (some (.flat v)) _ _ _] => some v
  | _ => none

set_option maxHeartbeats 1000000 in
theorem empty_before (d : Nat) : inkIs (picture artist (d + 3) empty) = some (.color 1 0 0) := rfl

set_option maxHeartbeats 1000000 in
theorem empty_after (d : Nat) : inkIs (picture artist (d + 3) emptyAfter) = some (.kw .none) := rfl

/-- **Finding.** A gradient that takes its stops from another one is taken for one without stops: what it paints is no longer painted. -/
theorem C73_refuted_no_stops : ¬ C73_full := by
  intro hfull
  have hg : (gradientPasses allGradients empty).map onPaper = some emptyAfter := by decide +kernel
  obtain ⟨g, h1, h2⟩ := Option.map_eq_some_iff.1 hg
  have hs := hfull allGradients empty g (page_of (rank := fun k => 9 - k) (by decide +kernel)) (by decide +kernel) (by decide +kernel) (by decide +kernel) (only_of (by decide +kernel))
    (form_of (by decide +kernel)) (linear_of (by decide +kernel)) h1
  rw [h2] at hs
  obtain ⟨D, hD⟩ := hs _ artist artist_shades
  have e := empty_before D
  rw [hD (D + 3) (by omega), empty_after] at e
  cases e

end Verif.Shade
