import Verif.InvisibleGradients
import Verif.InvisibleCases
import Verif.UnusedDefsLook
import Verif.ResolveUseCases
/-
Property C38, continued: the whole pass.
-/
namespace Verif.Invisible
open Verif.Dom Verif.Spec Verif.Render
open Verif.ApplyTs (elem px)
open Verif.Ungroup (svg rect)

/-- The conditions of the steps of the pass, each for the document that the step starts with. -/
structure Steps (f : Forest) : Prop where
  display : Good f ∧ ∀ p n ks, (p, n, ks) ∈ spots top f → hiddenBy n = true → f.isUsed n.key = false → gone p n.kind = true
  paths : Ready (emptyPath · .nil) (displayStep f).1
  clips : ∀ g, g = (pathStep (displayStep f).1).1 → ClipGood g ∧ g.LinksOk ∧ Unused .clipPath (clipped g).2 (clipped g).1
  filters : ∀ g, g = (clipStep (pathStep (displayStep f).1).1).1 → g.LinksOk ∧ Unused .filter (emptyFilters g) g
  matrices : Idle hasMatrix (filterStep (clipStep (pathStep (displayStep f).1).1).1).1
  uses : ∀ g, g = matrixStep (filterStep (clipStep (pathStep (displayStep f).1).1).1).1 →
    Idle emptyUse g ∧ ∀ n ∈ g.nodes, emptyUse n .nil = true → unfiltered n = true
  gradients : Flat (useStep (matrixStep (filterStep (clipStep (pathStep (displayStep f).1).1).1).1)).1
  rects : ∀ g b, gradientStep (useStep (matrixStep (filterStep (clipStep (pathStep (displayStep f).1).1).1).1)).1 = some (g, b) → Ready (emptyRect · .nil) g
  /-- The definitions that are removed in the end. -/
  defs : ∀ g b h, gradientStep (useStep (matrixStep (filterStep (clipStep (pathStep (displayStep f).1).1).1).1)).1 = some (g, b) →
    UnusedDefs.removeUnusedDefs (rectStep g).1 = some h → (rectStep g).1.UniqueKeys ∧
    (∀ d, UnusedDefs.firstDefs (rectStep g).1 = some d → (rectStep g).1.isUsed d = false) ∧
    ∀ d c, UnusedDefs.firstDefs (rectStep g).1 = some d → (rectStep g).1.kidsOf d = some c → ∀ n ks, (n, ks) ∈ subs c → UnusedDefs.unused h n = true →
      (∃ k ∈ ks.keys, (rectStep g).1.isUsed k = true) → UnusedDefs.Bare n

/-- **C38**: removing invisible elements keeps the picture of documents that meet the conditions of all steps.  Missing: documents that do not
(see the refutations in `InvisibleCases.lean`). -/
theorem C38_whole_partial {f g : Forest} (hf : Steps f) (h : removeInvisible f = some g) : SameView f g := by
  unfold removeInvisible at h
  simp only at h
  have h1 := C38_display_partial hf.display.1 hf.display.2
  have h2 := C38_paths_partial hf.paths
  obtain ⟨a3, b3, c3⟩ := hf.clips _ rfl
  have h3 := C38_clips_partial a3 b3 c3
  obtain ⟨a4, b4⟩ := hf.filters _ rfl
  have h4 := C38_filters_partial a4 b4
  have h5 := C38_matrix_partial hf.matrices
  obtain ⟨a6, b6⟩ := hf.uses _ rfl
  have h6 := C38_uses_partial a6 b6
  obtain ⟨⟨g7, b7⟩, h7, h⟩ := Option.bind_eq_some_iff.1 h
  have v7 := C38_gradients_partial hf.gradients h7
  have h8 := C38_rects_partial (hf.rects _ _ h7)
  have v : SameView f (rectStep g7).1 :=
    ((((((h1.trans h2).trans h3).trans h4).trans h5).trans h6).view.trans v7).trans h8.view
  simp only at h
  split at h
  · obtain ⟨c1, c2, c3⟩ := hf.defs _ _ _ h7 h
    exact v.trans (UnusedDefs.C25_look_partial c1 h c2 c3).view
  · cases h
    exact v

/-! ### The conditions can be checked -/

def paintOnlyB (k : Nat) (n : Node) : Bool :=
  n.attrs.all fun y => !decide (y.value.target = some k) || (decide (y.name = .id .fill ∨ y.name = .id .stroke) && n.isSvgElem && !n.isGradient)

theorem paintOnly_of {k : Nat} {n : Node} (h : paintOnlyB k n = true) : PaintOnly k n := by
  simp only [paintOnlyB, Bool.and_eq_true, Bool.or_eq_true, Bool.not_eq_true', List.all_eq_true, decide_eq_true_eq, decide_eq_false_iff_not] at h
  intro y hy ht
  have := (h y hy).resolve_left (fun e => e ht)
  exact ⟨this.1.1, this.1.2, this.2⟩

def flatB (r : Nat → Nat) (f : Forest) : Bool :=
  goodB f && ResolveUse.rankedB f.isUsed r [] f && (spots top f).all fun x => !flat x.2.1 x.2.2 ||
    (gone x.1 x.2.1.kind && x.2.2.nodes.all (fun m => !f.isUsed m.key) && plainEffects x.2.1 && x.2.2.top.all plainStop && f.nodes.all (paintOnlyB x.2.1.key))

theorem flat_of {f : Forest} (r : Nat → Nat) (h : flatB r f = true) : Flat f := by
  simp only [flatB, Bool.and_eq_true, Bool.or_eq_true, Bool.not_eq_true', List.all_eq_true] at h
  obtain ⟨⟨h1, h2⟩, h3⟩ := h
  refine ⟨good_of h1, ⟨r, ResolveUse.ranked_of h2⟩, fun p n ks hx hq => ?_, fun p n ks hx hq x hm => ?_⟩
  · have := (h3 _ hx).resolve_left (by simp [hq])
    exact ⟨this.1.1.1.1, this.1.1.1.2, this.1.1.2, this.1.2⟩
  · have := (h3 _ hx).resolve_left (by simp [hq])
    exact paintOnly_of (this.2 x hm)

/-- Something for every step: a hidden group, an empty path, an empty clip path, an empty filter, a filter that is not used, a `use` element without reference, a
gradient without stops, one with a stop and one with two, a rectangle of size zero, and definitions that are not used. -/
def wholeSample : Forest :=
  svg (.cons (elem 2 .defs [])
      (.cons (elem 3 .clipPath []) (.cons (elem 4 .g []) .nil .nil)
      (.cons (elem 5 .filter []) .nil
      (.cons (elem 6 .filter []) (.cons (elem 7 .feColorMatrix [(.type_, .str "matrix"), (.values, .str "1 0 0 0 0  0 1 0 0 0  0 0 1 0 0  0 0 0 1 0")]) .nil .nil)
      (.cons (elem 8 .linearGradient []) .nil
      (.cons (elem 9 .radialGradient []) (.cons (elem 10 .stop [(.stopColor, .color 1 2 3), (.stopOpacity, .number 1)]) .nil .nil)
      (.cons (elem 11 .linearGradient []) (.cons (elem 12 .stop []) .nil (.cons (elem 13 .stop []) .nil .nil))
      (.cons (elem 26 .g []) (.cons (elem 27 .mask []) (rect 28 [] .nil) .nil) .nil)))))))
    (.cons (elem 14 .g [(.display, .kw .none)]) (rect 15 [] .nil)
    (.cons (elem 16 .path [(.d, .path [])]) .nil
    (.cons (elem 17 .g [(.clipPath, .funcLink 3)]) (rect 18 [] .nil)
    (rect 19 [(.filter, .funcLink 5)]
    (.cons (elem 20 .use []) .nil
    (.cons (elem 21 .g [(.fill, .funcLink 8), (.stroke, .funcLink 9)]) (rect 22 [] (rect 23 [(.fill, .funcLink 11)] .nil))
    (.cons (elem 24 .rect [(.width, px 0)]) .nil (rect 25 [(.mask, .funcLink 27)] .nil)))))))))

/-- What is left. -/
def wholeResult : Forest :=
  svg (.cons (elem 2 .defs [])
      (.cons (elem 11 .linearGradient []) (.cons (elem 12 .stop []) .nil (.cons (elem 13 .stop []) .nil .nil))
        (.cons (elem 27 .mask []) (rect 28 [] .nil) .nil))
    (.cons (elem 21 .g [(.fill, .kw .none), (.stroke, .color 1 2 3)]) (rect 22 [] (rect 23 [(.fill, .funcLink 11)] .nil))
      (rect 25 [(.mask, .funcLink 27)] .nil)))

def whole6 : Forest := (useStep (matrixStep (filterStep (clipStep (pathStep (displayStep wholeSample).1).1).1).1)).1
def whole7 : Forest := ((gradientStep whole6).getD (.nil, false)).1

theorem whole_run : removeInvisible wholeSample = some wholeResult := by decide +kernel

theorem whole7_eq {g : Forest} {b : Bool} (h : gradientStep whole6 = some (g, b)) : g = whole7 := by
  unfold whole7
  rw [h]
  rfl

theorem wholeSample_steps : Steps wholeSample where
  display := ⟨good_of (by decide +kernel), fun p n ks hx hh _ =>
    (show ∀ x ∈ spots top wholeSample, hiddenBy x.2.1 = true → gone x.1 x.2.1.kind = true by decide +kernel) _ hx hh⟩
  paths := ready_of (by decide +kernel)
  clips := by rintro g rfl; exact ⟨clipOk_of (by decide +kernel), by decide +kernel, unused_of (by decide +kernel)⟩
  filters := by rintro g rfl; exact ⟨by decide +kernel, unused_of (by decide +kernel)⟩
  matrices := idle_of (by decide +kernel)
  uses := by rintro g rfl; exact ⟨idle_of (by decide +kernel), by decide +kernel⟩
  gradients := flat_of (fun _ => 0) (by decide +kernel)
  rects := by
    intro g b h
    rw [whole7_eq h]
    exact ready_of (by decide +kernel)
  defs := by
    intro g b h h1 h2
    rw [whole7_eq h1] at h2 ⊢
    have hf : UnusedDefs.firstDefs (rectStep whole7).1 = some 2 := by decide +kernel
    rw [hf]
    refine ⟨by decide +kernel, ?_, ?_⟩
    · rintro _ ⟨⟩
      decide +kernel
    · rintro _ c ⟨⟩ hc n ks hm hn ⟨k, hk, hku⟩ a ha
      have hb : ∀ x ∈ ((rectStep whole7).1.kidsOf 2).elim [] subs, (∃ k ∈ x.2.keys, (rectStep whole7).1.isUsed k = true) → x.1 = elem 26 .g [] := by decide +kernel
      rw [hc] at hb
      have e : n = _ := hb _ hm ⟨k, hk, hku⟩
      rw [e]
      rfl

example : SameView wholeSample wholeResult := C38_whole_partial wholeSample_steps whole_run

/-- The gradients of the sample. -/
example : ∃ g b, gradientStep whole6 = some (g, b) ∧ SameView whole6 g := by
  cases h : gradientStep whole6 with
  | none => exact absurd h (by decide +kernel)
  | some x => exact ⟨x.1, x.2, rfl, C38_gradients_partial (flat_of (fun _ => 0) (by decide +kernel)) h⟩

/-! ### When unused definitions are removed -/

theorem fold_flag {step : Forest × Bool → Nat → Forest × Bool} (hs : ∀ x k, step x k = x ∨ (step x k).2 = true) {f : Forest} (l : List Nat)
    (x : Forest × Bool) (hx : x.2 = false → x.1 = f) (h : (l.foldl step x).2 = false) : (l.foldl step x).1 = f := by
  induction l generalizing x with
  | nil => exact hx h
  | cons k l ih =>
    rw [List.foldl_cons] at h ⊢
    refine ih _ ?_ h
    rcases hs x k with e | e
    · rw [e]; exact hx
    · intro h; rw [e] at h; cases h

theorem drain_flag {p : Node → Forest → Bool} {f : Forest} (h : (drain p f).1 ≠ f) : (drain p f).2 = true := by
  by_contra hc
  refine h (fold_flag (fun x k => ?_) f.keys (f, false) (fun _ => rfl) ((Bool.not_eq_true (drain p f).2).mp hc))
  split
  · split
    · exact .inr rfl
    · exact .inl rfl
  · exact .inl rfl

theorem display_flag {f : Forest} (h : (displayStep f).1 ≠ f) : (displayStep f).2 = true := by
  unfold displayStep at *
  dsimp only at *
  cases hk : hiddenKeys f f with
  | nil => rw [hk] at h; exact absurd rfl h
  | cons => rfl

theorem filter_flag {f : Forest} (h : (filterStep f).1 ≠ f) : (filterStep f).2 = true := by
  unfold filterStep at *
  dsimp only at *
  cases hk : emptyFilters f with
  | nil => rw [hk] at h; exact absurd rfl h
  | cons => rfl

theorem gradient_flag {f g : Forest} {b : Bool} (h : gradientStep f = some (g, b)) (hg : g ≠ f) : b = true := by
  unfold gradientStep at h
  obtain ⟨x, hx, e⟩ := Option.map_eq_some_iff.1 h
  dsimp only at e
  cases hk : emptyGradients f ++ (solidGradients ((emptyGradients f).foldl noneStep f)).map (·.1) with
  | nil =>
    exfalso
    rw [hk] at e
    obtain ⟨h1, h2⟩ := List.append_eq_nil_iff.1 hk
    rw [h1] at h2 hx
    have h2 := List.map_eq_nil_iff.1 h2
    rw [h2] at hx
    cases e
    cases hx
    exact hg rfl
  | cons => rw [hk] at e; cases e; rfl

/-- **C38**: when elements have been removed, or references replaced, the definitions that are no longer used are removed, too
(except if only children of clip paths, or filters without effect, are gone). -/
theorem C38_tidy {f g : Forest} (h : removeInvisible f = some g) :
    ∃ f1 f2 f3 f4 f5 f6 f7 f8 b, (displayStep f).1 = f1 ∧ (pathStep f1).1 = f2 ∧ (clipStep f2).1 = f3 ∧ (filterStep f3).1 = f4 ∧
      matrixStep f4 = f5 ∧ (useStep f5).1 = f6 ∧ gradientStep f6 = some (f7, b) ∧ (rectStep f7).1 = f8 ∧
      (g = f8 ∨ UnusedDefs.removeUnusedDefs f8 = some g) ∧
      (f1 ≠ f ∨ f2 ≠ f1 ∨ f4 ≠ f3 ∨ f6 ≠ f5 ∨ f7 ≠ f6 ∨ f8 ≠ f7 → UnusedDefs.removeUnusedDefs f8 = some g) := by
  unfold removeInvisible at h
  dsimp only at h
  obtain ⟨⟨f7, b⟩, h7, h⟩ := Option.bind_eq_some_iff.1 h
  refine ⟨_, _, _, _, _, _, f7, _, b, rfl, rfl, rfl, rfl, rfl, rfl, h7, rfl, ?_, fun hc => ?_⟩
  · split at h
    · exact .inr h
    · cases h; exact .inl rfl
  · rw [if_pos] at h
    · exact h
    · simp only [Bool.or_eq_true]
      rcases hc with hc | hc | hc | hc | hc | hc
      · simp [display_flag hc]
      · have : (pathStep (displayStep f).1).2 = true := drain_flag hc
        simp [this]
      · simp [filter_flag hc]
      · have : (useStep (matrixStep (filterStep (clipStep (pathStep (displayStep f).1).1).1).1)).2 = true := drain_flag hc
        simp [this]
      · simp [gradient_flag h7 hc]
      · have : (rectStep f7).2 = true := drain_flag hc
        simp [this]

example : (displayStep wholeSample).1 ≠ wholeSample := by decide +kernel

end Verif.Invisible
