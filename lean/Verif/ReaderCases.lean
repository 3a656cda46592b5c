import Verif.ReaderMore
import Verif.ZoomCases
/-
C70: a renderer that takes defaults and paints what is to be painted, and cases.
-/
namespace Verif.Reader
open Verif.Dom Verif.Spec Verif.Render Verif.Plot
open Verif.Paths (Transform)
open Verif.ConvShapes (geometry takesMarkers Units)
open Verif.ApplyTs (figure)
open Verif.Zoom (seenStroke Zooms Zoomed)
open Verif.DefaultAttrs (svgInitial meansNothing)

/-! ### The renderer -/

/-- The fill is not painted. -/
def dim (st : Style (List Blot)) : Bool :=
  decide (Seen.value (taken svgInitial st .fill) = some (.kw .none)) || decide (Seen.value (taken svgInitial st .fillOpacity) = some (.number 0))

/-- The stroke is not painted. -/
def thin (st : Style (List Blot)) : Bool :=
  decide (Seen.value (taken svgInitial st .stroke) = some (.kw .none)) || decide (Seen.value (taken svgInitial st .strokeOpacity) = some (.number 0)) ||
    decide ((seenStroke st).width.num = 0)

/-- The fill and the stroke that are painted. -/
def tidy (st : Style (List Blot)) : Style (List Blot) := fun a =>
  if a = .fill then (if dim st then some (.plain (.kw .none)) else taken svgInitial st .fill)
  else if a = .stroke then (if thin st then some (.plain (.kw .none)) else taken svgInitial st .stroke)
  else st a

/-- The opacity of a stop. -/
def stopIn (e : EId) (as : Attrs (List Blot)) : Attrs (List Blot) :=
  match e with
  | .stop => fun x => if x = .id .stopOpacity then (as x).or (some (.plain (.number 1))) else as x
  | _ => as

theorem tidy_fill (st : Style (List Blot)) : tidy st .fill = if dim st then some (.plain (.kw .none)) else taken svgInitial st .fill := rfl
theorem tidy_stroke (st : Style (List Blot)) : tidy st .stroke = if thin st then some (.plain (.kw .none)) else taken svgInitial st .stroke := rfl
theorem tidy_other {st : Style (List Blot)} {a : AId} (h1 : a ≠ .fill) (h2 : a ≠ .stroke) : tidy st a = st a := by
  unfold tidy; rw [if_neg h1, if_neg h2]

theorem taken_some {P : Type} {ini : AId → Option Value} {st : Style P} {a : AId} {s : Seen P} (h : st a = some s) : taken ini st a = some s := by
  unfold taken; rw [h]; rfl

theorem taken_update {P : Type} {ini : AId → Option Value} {st : Style P} {a : AId} {s : Option (Seen P)} {b : AId} (h : b ≠ a) :
    taken ini (Function.update st a s) b = taken ini st b := by
  unfold taken; rw [Function.update_of_ne h]

theorem seenStroke_update {st : Style (List Blot)} {a : AId} {s : Option (Seen (List Blot))} (ha : a = .fill ∨ a = .stroke) :
    seenStroke (Function.update st a s) = seenStroke st := by
  unfold seenStroke
  rw [Function.update_of_ne (by rcases ha with rfl | rfl <;> decide), Function.update_of_ne (by rcases ha with rfl | rfl <;> decide),
    Function.update_of_ne (by rcases ha with rfl | rfl <;> decide)]

/-- Instead of a reference, a colour or none: the same, if nothing is painted anyway; or else the new paint. -/
theorem tidy_update {st : Style (List Blot)} {a : AId} {q : List Blot} {v : Value} (ha : a = .fill ∨ a = .stroke) (h : st a = some (.ref q)) :
    tidy (Function.update st a (some (.plain v))) = tidy st ∨
      tidy st a = some (.ref q) ∧ tidy (Function.update st a (some (.plain v))) = Function.update (tidy st) a (some (.plain v)) := by
  rcases ha with rfl | rfl
  · have ht : thin (Function.update st .fill (some (.plain v))) = thin st := by
      unfold thin
      rw [taken_update (by decide), taken_update (by decide), seenStroke_update (.inl rfl)]
    cases hd : decide (Seen.value (taken svgInitial st .fillOpacity) = some (.number 0)) with
    | true =>
      left
      funext b
      have h1 : dim st = true := by unfold dim; rw [hd, Bool.or_true]
      have h2 : dim (Function.update st .fill (some (.plain v))) = true := by unfold dim; rw [taken_update (b := .fillOpacity) (by decide), hd, Bool.or_true]
      by_cases hb : b = .fill
      · subst hb; rw [tidy_fill, tidy_fill, h1, h2]; rfl
      · by_cases hb' : b = .stroke
        · subst hb'; rw [tidy_stroke, tidy_stroke, ht, taken_update (by decide)]
        · rw [tidy_other hb hb', tidy_other hb hb', Function.update_of_ne hb]
    | false =>
      right
      have h1 : dim st = false := by unfold dim; rw [hd, taken_some h]; rfl
      have h2 : dim (Function.update st .fill (some (.plain v))) = decide (v = .kw .none) := by
        unfold dim
        rw [taken_update (b := .fillOpacity) (by decide), hd, Bool.or_false, taken_some (Function.update_self ..)]
        simp [Seen.value]
      refine ⟨by rw [tidy_fill, h1, taken_some h]; rfl, funext fun b => ?_⟩
      by_cases hb : b = .fill
      · subst hb
        rw [tidy_fill, Function.update_self, h2, taken_some (Function.update_self ..)]
        by_cases hv : v = .kw .none
        · simp [hv]
        · simp [hv]
      · rw [Function.update_of_ne hb]
        by_cases hb' : b = .stroke
        · subst hb'; rw [tidy_stroke, tidy_stroke, ht, taken_update (by decide)]
        · rw [tidy_other hb hb', tidy_other hb hb', Function.update_of_ne hb]
  · have ht : dim (Function.update st .stroke (some (.plain v))) = dim st := by
      unfold dim
      rw [taken_update (by decide), taken_update (by decide)]
    cases hd : decide (Seen.value (taken svgInitial st .strokeOpacity) = some (.number 0)) || decide ((seenStroke st).width.num = 0) with
    | true =>
      left
      funext b
      have h1 : thin st = true := by unfold thin; rw [Bool.or_assoc, hd, Bool.or_true]
      have h2 : thin (Function.update st .stroke (some (.plain v))) = true := by
        unfold thin; rw [taken_update (b := .strokeOpacity) (by decide), seenStroke_update (.inr rfl), Bool.or_assoc, hd, Bool.or_true]
      by_cases hb : b = .stroke
      · subst hb; rw [tidy_stroke, tidy_stroke, h1, h2]; rfl
      · by_cases hb' : b = .fill
        · subst hb'; rw [tidy_fill, tidy_fill, ht, taken_update (by decide)]
        · rw [tidy_other hb' hb, tidy_other hb' hb, Function.update_of_ne hb]
    | false =>
      right
      have h1 : thin st = false := by unfold thin; rw [Bool.or_assoc, hd, taken_some h]; rfl
      have h2 : thin (Function.update st .stroke (some (.plain v))) = decide (v = .kw .none) := by
        unfold thin
        rw [taken_update (b := .strokeOpacity) (by decide), seenStroke_update (.inr rfl), Bool.or_assoc, hd, Bool.or_false, taken_some (Function.update_self ..)]
        simp [Seen.value]
      refine ⟨by rw [tidy_stroke, h1, taken_some h]; rfl, funext fun b => ?_⟩
      by_cases hb : b = .stroke
      · subst hb
        rw [tidy_stroke, Function.update_self, h2, taken_some (Function.update_self ..)]
        by_cases hv : v = .kw .none
        · simp [hv]
        · simp [hv]
      · rw [Function.update_of_ne hb]
        by_cases hb' : b = .fill
        · subst hb'; rw [tidy_fill, tidy_fill, ht, taken_update (by decide)]
        · rw [tidy_other hb' hb, tidy_other hb' hb, Function.update_of_ne hb]

theorem solid_tidy {c : Nat × Nat × Nat} {q : List Blot}
    (h : Solid (fun e as st t (l : List (Pic (List Blot))) => drawAny e (stopIn e as) (tidy st) t (l.map (·.pic)).flatten) c q) : Solid plotter.paint c q := by
  obtain ⟨e, as, st, t, ch, as', st', t', l', he, hx, h1, h2, rfl⟩ := h
  refine ⟨e, as, tidy st, t, ch, stopIn .stop as', tidy st', t', l', he, hx, ?_, ?_, ?_⟩
  · simp [stopIn, h1]
  · simp [stopIn, h2]
  · rcases he with rfl | rfl <;> rfl

/-- A renderer that writes down the corners of the shapes that are painted. -/
def draftsman : Painter (List Blot) where
  empty := []
  over p q := p ++ q
  fade q p := p.map (Blot.fade q)
  effect := plotter.effect
  cond _ v := decide (v ≠ .str "no")
  measure l := l.num
  chars s _ _ := [.text s 1]
  frame _ _ _ _ p := p
  paint e as st t l := drawAny e (stopIn e as) (tidy st) t (l.map (·.pic)).flatten
  foreign _ _ _ _ _ := []
  empty_over := plotter.empty_over
  over_empty := plotter.over_empty
  over_assoc := plotter.over_assoc
  fade_one := plotter.fade_one
  fade_fade := plotter.fade_fade
  fade_empty := plotter.fade_empty
  no_effect := plotter.no_effect
  effect_empty := plotter.effect_empty
  measure_user := plotter.measure_user
  paint_skip e as st t l x l' h1 h2 h := by simp [show x.pic = [] from h]
  paint_desc e as st t l x l' h1 h := by simp [show x.pic = [] from h]
  no_path as st t l h := drawShape_noPath h
  no_rect as st t l u h := drawShape_noRect h
  no_clip _ _ _ := rfl
  clip_all := plotter.clip_all
  no_filter as st t h := plotter.no_filter as (tidy st) t h
  filter_all := plotter.filter_all
  paint_none e as st t l a q ha h hq := by
    have hq' : Stopless plotter.paint q := by
      obtain ⟨e', as', st', t', he, hx, rfl⟩ := hq
      refine ⟨e', as', tidy st', t', he, hx, ?_⟩
      rcases he with rfl | rfl <;> rfl
    rcases tidy_update (v := .kw .none) ha h with e1 | ⟨e1, e2⟩
    · rw [e1]
    · rw [e2]; exact plotter.paint_none e (stopIn e as) (tidy st) t l a q ha e1 hq'
  chars_none _ _ _ _ _ _ _ _ := rfl
  foreign_none _ _ _ _ _ _ _ _ _ _ := rfl
  paint_solid e as st t l a q r g b ha h hq := by
    rcases tidy_update (v := .color r g b) ha h with e1 | ⟨e1, e2⟩
    · rw [e1]
    · rw [e2]; exact plotter.paint_solid e (stopIn e as) (tidy st) t l a q r g b ha e1 (solid_tidy hq)
  chars_solid _ _ _ _ _ _ _ _ _ _ _ := rfl
  foreign_solid _ _ _ _ _ _ _ _ _ _ _ _ _ := rfl

/-! ### The laws -/

theorem stopIn_of {e : EId} (h : e ≠ .stop) (as : Attrs (List Blot)) : stopIn e as = as := by
  unfold stopIn
  split
  · exact absurd rfl h
  · rfl

theorem shape_stop {n : Node} {e : EId} (he : n.kind = .elem e) (h : shapeKind n.kind = true) : e ≠ .stop := by
  rintro rfl; rw [he] at h; cases h

theorem tidy_marker {st : Style (List Blot)} {a : AId} (h : a ∈ markerAttrs) : tidy st a = st a := by
  simp only [markerAttrs, List.mem_cons, List.not_mem_nil, or_false] at h
  rcases h with rfl | rfl | rfl | rfl <;> exact tidy_other (by decide) (by decide)

theorem tidy_unmarked {st : Style (List Blot)} (h : Unmarked st) : Unmarked (tidy st) := fun a ha => by rw [tidy_marker ha]; exact h a ha

theorem tidy_unstroked {st : Style (List Blot)} (h : Unstroked st) : Unstroked (tidy st) := by
  right
  have : thin st = true := by
    unfold thin taken
    rcases h with h | h <;> rw [h] <;> rfl
  rw [tidy_stroke, if_pos this]

/-- It draws shapes by their outlines. -/
theorem draftsman_plots : Plots draftsman oneUnit := by
  refine ⟨fun env n m e e' st t l he he' hr hg hm => ?_, fun env n m e e' st t l he he' hr hg h1 h2 => ?_⟩
  · change drawAny e (stopIn e (own env n)) (tidy st) t _ = drawAny e' (stopIn e' (own env m)) (tidy st) t _
    rw [stopIn_of (shape_stop he hr.shapes.1), stopIn_of (shape_stop he' hr.shapes.2)]
    exact plotter_plots.trace env n m e e' (tidy st) t l he he' hr hg (hm.imp id tidy_unmarked)
  · change drawAny e (stopIn e (own env n)) (tidy st) t _ = drawAny e' (stopIn e' (own env m)) (tidy st) t _
    rw [stopIn_of (shape_stop he hr.shapes.1), stopIn_of (shape_stop he' hr.shapes.2)]
    exact plotter_plots.area env n m e e' (tidy st) t l he he' hr hg (tidy_unmarked h1) (tidy_unstroked h2)

theorem tidy_lengths (st : Style (List Blot)) : seenStroke (tidy st) = seenStroke st := by
  unfold seenStroke
  rw [tidy_other (by decide) (by decide), tidy_other (by decide) (by decide), tidy_other (by decide) (by decide)]

theorem tidy_plain {st : Style (List Blot)} {a : AId} (ha : a = .fill ∨ a = .stroke) (h : Seen.isRef (st a) = false) : Seen.isRef (tidy st a) = false := by
  have : Seen.isRef (taken svgInitial st a) = false := by
    unfold taken
    cases hs : st a with
    | none => rcases ha with rfl | rfl <;> rfl
    | some v => rw [hs] at h; exact h
  rcases ha with rfl | rfl
  · rw [tidy_fill]; split <;> [rfl; exact this]
  · rw [tidy_stroke]; split <;> [rfl; exact this]

theorem tidy_zoomed {s : ℚ} (hs : 0 < s) {st st' : Style (List Blot)} (h : Zoomed s st st') : Zoomed s (tidy st) (tidy st') := by
  have ht : ∀ a ∉ ApplyTs.strokeAttrs, taken svgInitial st' a = taken svgInitial st a := fun a ha => by unfold taken; rw [h.rest a ha]
  refine ⟨fun a ha => ?_, by rw [tidy_lengths, tidy_lengths]; exact h.stroke⟩
  by_cases h1 : a = .fill
  · subst h1
    have : dim st' = dim st := by unfold dim; rw [ht _ (by decide), ht _ (by decide)]
    rw [tidy_fill, tidy_fill, this, ht _ ha]
  · by_cases h2 : a = .stroke
    · subst h2
      have : thin st' = thin st := by
        unfold thin
        rw [ht _ (by decide), ht _ (by decide), h.stroke]
        have : ((seenStroke st).scale s).width.num = s * (seenStroke st).width.num := by simp [ApplyTs.Stroke.scale, ApplyTs.Len.scale, mul_comm]
        rw [this]
        congr 2
        simp [hs.ne']
      rw [tidy_stroke, tidy_stroke, this, ht _ ha]
    · rw [tidy_other h1 h2, tidy_other h1 h2, h.rest a ha]

/-- It draws scaled shapes as the shapes of the scaled outlines. -/
theorem draftsman_zooms : Zooms draftsman := by
  refine ⟨fun env n m e st st' T t he ht hs hi hz h1 h2 h3 => ?_⟩
  have hne : e ≠ .stop := by
    rintro rfl
    cases hi with
    | figure hb h => rw [he] at hb; cases hb
    | outline hk => rw [he] at hk; cases hk
  change drawAny e (stopIn e (own env n)) (tidy st) (Spec.mul T t) _ = drawAny e (stopIn e (own env m)) (tidy st') T _
  rw [stopIn_of hne, stopIn_of hne]
  exact Zoom.plotter_zooms.zoom env n m e (tidy st) (tidy st') T t he ht hs hi (tidy_zoomed ht.2.2.2 hz) (tidy_plain (.inl rfl) h1) (tidy_plain (.inr rfl) h2)
    (fun h => tidy_unmarked (h3 h))

/-! #### Attributes that mean nothing -/

theorem silent_symm {P : Type} {ini : AId → Option Value} {e : EId} {as as' : Attrs P} (h : SameOwn ini e as as') : SameOwn ini e as' as :=
  fun x => (h x).imp Eq.symm And.symm

/-- The number of a length; 0 if it is missing. -/
def num : Option (Seen (List Blot)) → ℚ
  | some (.plain (.length l)) => l.num
  | _ => 0

theorem coord_rebuilt {e : EId} {as : Attrs (List Blot)} (b : Bool) {a : AId} (ha : a ∈ outlineAttrs) :
    oneUnit.coord b (rebuilt e as) a = num (as (.id a)) := by
  unfold Units.coord
  rw [rebuilt_get e as ha]
  cases as (.id a) with
  | none => rfl
  | some v =>
    cases v with
    | ref q => rfl
    | plain w => cases w <;> simp [Plot.unseen, oneUnit, num]

theorem len_rebuilt {e : EId} {as : Attrs (List Blot)} (d : ApplyTs.Axis) {a : AId} (ha : a ∈ outlineAttrs) :
    onePort.len d (rebuilt e as) a = num (as (.id a)) := by
  unfold ApplyTs.Viewport.len ApplyTs.Viewport.len?
  rw [rebuilt_get e as ha]
  cases as (.id a) with
  | none => rfl
  | some v =>
    cases v with
    | ref q => rfl
    | plain w => cases w <;> simp [Plot.unseen, onePort, num]

/-- Attributes that an element has, with a default or without. -/
def matters (e : EId) (a : AId) : Bool :=
  (!e.isBasicShape || Needless.shapeHas e a) && decide (a ≠ .enableBackground) && decide (a ≠ .overflow) && !TextAttrs.concernsText a &&
    !(decide (e = .rect) && decide (a = .ry)) && !a.isPresentation

theorem silent_matters {as : Attrs (List Blot)} {e : EId} {a : AId} (hm : matters e a = true) (h : Silent svgInitial e as (.id a)) :
    as (.id a) = none ∨ ∃ u, as (.id a) = some (.plain u) ∧ meansNothing e a u = true := by
  simp only [matters, Bool.and_eq_true, Bool.or_eq_true, Bool.not_eq_true', decide_eq_true_eq, Bool.and_eq_false_iff, decide_eq_false_iff_not] at hm
  obtain ⟨⟨⟨⟨⟨h1, h2⟩, h3⟩, h4⟩, h5⟩, h6⟩ := hm
  rcases h with h | ⟨h, h'⟩ | ⟨h, _⟩ | ⟨h, _⟩ | ⟨_, b, h, h'⟩ | ⟨h, h', _⟩ | ⟨b, u, h, h', h''⟩
  · exact .inl h
  · rcases h1 with h1 | h1
    · rw [h1] at h; cases h
    · rw [h' a rfl] at h1; cases h1
  · exact absurd (AName.id.inj h) h2
  · exact absurd (AName.id.inj h) h3
  · cases h; rw [h'] at h4; cases h4
  · cases h'; rcases h5 with h5 | h5 <;> contradiction
  · cases h
    rw [h6] at h''
    exact .inr ⟨u, h', h''.1⟩

theorem own_num {as as' : Attrs (List Blot)} {e : EId} (h : SameOwn svgInitial e as as') {a : AId} (hm : matters e a = true)
    (hz : ∀ u, meansNothing e a u = true → u = DefaultAttrs.len 0 .none) : num (as (.id a)) = num (as' (.id a)) := by
  have : ∀ {as : Attrs (List Blot)}, Silent svgInitial e as (.id a) → num (as (.id a)) = 0 := by
    intro as h
    rcases silent_matters hm h with h | ⟨u, h, hu⟩
    · rw [h]; rfl
    · rw [h, hz u hu]; rfl
  rcases h (.id a) with h | ⟨h1, h2⟩
  · rw [h]
  · rw [this h1, this h2]

theorem own_same {as as' : Attrs (List Blot)} {e : EId} (h : SameOwn svgInitial e as as') {a : AId} (hm : matters e a = true)
    (hz : ∀ u, meansNothing e a u = false) : as (.id a) = as' (.id a) := by
  have : ∀ {as : Attrs (List Blot)}, Silent svgInitial e as (.id a) → as (.id a) = none := by
    intro as h
    rcases silent_matters hm h with h | ⟨u, _, hu⟩
    · exact h
    · rw [hz u] at hu; cases hu
  rcases h (.id a) with h | ⟨h1, h2⟩
  · exact h
  · rw [this h1, this h2]

theorem zero_of {v : Value} (h : decide (v = DefaultAttrs.len 0 .none) = true) : v = DefaultAttrs.len 0 .none := of_decide_eq_true h

theorem sharp_rect (x y w h rx ry : ℚ) :
    sharp (if w ≤ 0 ∨ h ≤ 0 then .outline [] else if rx = 0 ∨ ry = 0 then .outline (ConvShapes.polyEvents true [(x, y), (x + w, y), (x + w, y + h), (x, y + h)])
      else .rounded x y w h rx ry) =
      if w ≤ 0 ∨ h ≤ 0 then [] else ConvShapes.polyEvents true [(x, y), (x + w, y), (x + w, y + h), (x, y + h)] := by
  split
  · rfl
  · split <;> rfl

theorem sharp_own {as as' : Attrs (List Blot)} {e : EId} (he : Plot.isShape e = true) (h : SameOwn svgInitial e as as') :
    sharp (geometry oneUnit (rebuilt e as)) = sharp (geometry oneUnit (rebuilt e as')) := by
  have hc : ∀ {a : AId}, a ∈ outlineAttrs → matters e a = true → (∀ u, meansNothing e a u = true → u = DefaultAttrs.len 0 .none) → ∀ b,
      oneUnit.coord b (rebuilt e as) a = oneUnit.coord b (rebuilt e as') a := fun ha hm hz b => by
    rw [coord_rebuilt b ha, coord_rebuilt b ha, own_num h hm hz]
  have hg : ∀ {a : AId}, a ∈ outlineAttrs → matters e a = true → (∀ u, meansNothing e a u = false) → (rebuilt e as).get a = (rebuilt e as').get a :=
    fun ha hm hz => by rw [rebuilt_get e as ha, rebuilt_get e as' ha, own_same h hm hz]
  cases e <;> first | (cases he; done) | skip
  · -- line
    unfold geometry
    simp only [rebuilt]
    have := fun b => hc (a := .x1) (by decide) rfl (fun u => zero_of) b
    have := fun b => hc (a := .y1) (by decide) rfl (fun u => zero_of) b
    have := fun b => hc (a := .x2) (by decide) rfl (fun u => zero_of) b
    have := fun b => hc (a := .y2) (by decide) rfl (fun u => zero_of) b
    simp only [rebuilt] at *
    simp_all
  · unfold geometry
    simp only [rebuilt]
    have := hg (a := .d) (by decide) rfl (fun u => rfl)
    simp only [rebuilt] at this
    rw [this]
  · unfold geometry ConvShapes.pointsOf
    simp only [rebuilt]
    have := hg (a := .points) (by decide) rfl (fun u => rfl)
    simp only [rebuilt] at this
    rw [this]
  · unfold geometry ConvShapes.pointsOf
    simp only [rebuilt]
    have := hg (a := .points) (by decide) rfl (fun u => rfl)
    simp only [rebuilt] at this
    rw [this]
  · change sharp (if oneUnit.coord true (rebuilt .rect as) .width ≤ 0 ∨ _ then _ else _) = sharp (if oneUnit.coord true (rebuilt .rect as') .width ≤ 0 ∨ _ then _ else _)
    rw [sharp_rect, sharp_rect, hc (a := .x) (by decide) rfl (fun u => zero_of), hc (a := .y) (by decide) rfl (fun u => zero_of),
      hc (a := .width) (by decide) rfl (fun u hu => (by cases hu)), hc (a := .height) (by decide) rfl (fun u hu => (by cases hu))]

theorem figure_own {as as' : Attrs (List Blot)} {e : EId} (he : isOval e = true) (h : SameOwn svgInitial e as as') :
    figure onePort (rebuilt e as) = figure onePort (rebuilt e as') := by
  have hc : ∀ {a : AId}, a ∈ outlineAttrs → matters e a = true → (∀ u, meansNothing e a u = true → u = DefaultAttrs.len 0 .none) → ∀ b,
      onePort.len b (rebuilt e as) a = onePort.len b (rebuilt e as') a := fun ha hm hz b => by
    rw [len_rebuilt b ha, len_rebuilt b ha, own_num h hm hz]
  cases e <;> first | (cases he; done) | skip
  · have hf : ∀ as : Attrs (List Blot), figure onePort (rebuilt .circle as) = if onePort.len .other (rebuilt .circle as) .r ≤ 0 then none
        else some (.ellipse (onePort.len .x (rebuilt .circle as) .cx) (onePort.len .y (rebuilt .circle as) .cy) (onePort.len .other (rebuilt .circle as) .r)
          (onePort.len .other (rebuilt .circle as) .r)) := fun _ => rfl
    rw [hf, hf, hc (a := .cx) (by decide) rfl (fun u => zero_of), hc (a := .cy) (by decide) rfl (fun u => zero_of),
      hc (a := .r) (by decide) rfl (fun u hu => (by cases hu))]
  · have hf : ∀ as : Attrs (List Blot), figure onePort (rebuilt .ellipse as) = if onePort.len .x (rebuilt .ellipse as) .rx ≤ 0 ∨ onePort.len .y (rebuilt .ellipse as) .ry ≤ 0 then none
        else some (.ellipse (onePort.len .x (rebuilt .ellipse as) .cx) (onePort.len .y (rebuilt .ellipse as) .cy) (onePort.len .x (rebuilt .ellipse as) .rx)
          (onePort.len .y (rebuilt .ellipse as) .ry)) := fun _ => rfl
    rw [hf, hf, hc (a := .cx) (by decide) rfl (fun u => zero_of), hc (a := .cy) (by decide) rfl (fun u => zero_of),
      hc (a := .rx) (by decide) rfl (fun u hu => (by cases hu)), hc (a := .ry) (by decide) rfl (fun u hu => (by cases hu))]

/-! #### Properties -/

theorem value_plain {P : Type} {s : Option (Seen P)} {v : Value} (h : s = some (.plain v)) : Seen.value s = some v := by rw [h]; rfl

theorem lenOr_taken (st : Style (List Blot)) : ApplyTs.lenOr 1 (Seen.value (taken svgInitial st .strokeWidth)) = (seenStroke st).width := by
  unfold taken seenStroke
  cases st .strokeWidth <;> rfl

theorem thin_of {st : Style (List Blot)} (h : Unlined svgInitial st) : thin st = true := by
  unfold thin
  rcases h with h | h | ⟨u, h⟩
  · rw [value_plain h]; simp
  · rw [value_plain h]; simp
  · rw [← lenOr_taken, value_plain h]; simp [ApplyTs.lenOr]

theorem dim_of {st : Style (List Blot)} (h : Unfilled svgInitial st) : dim st = true := by
  unfold dim
  rcases h with h | h
  · rw [value_plain h]; simp
  · rw [value_plain h]; simp

theorem taken_none {st : Style (List Blot)} {a : AId} (h : svgInitial a = none) : taken svgInitial st a = st a := by
  unfold taken; rw [h]; simp

/-- What the renderer looks at. -/
structure Looks (st st' : Style (List Blot)) : Prop where
  fill : tidy st .fill = tidy st' .fill
  stroke : tidy st .stroke = tidy st' .stroke
  pen : thin st = true ∨ seenStroke st = seenStroke st'
  marked : markedB (tidy st) = markedB (tidy st')

theorem looks_of {text : Bool} {st st' : Style (List Blot)} (h : SameInk svgInitial text st st') : Looks st st' := by
  refine ⟨?_, ?_, ?_, ?_⟩
  · rw [tidy_fill, tidy_fill]
    rcases h.fill with ⟨h1, h2⟩ | h1
    · rw [dim_of h1, dim_of h2]; rfl
    · have : dim st = dim st' := by unfold dim; rw [h1 .fill (by decide), h1 .fillOpacity (by decide)]
      rw [this, h1 .fill (by decide)]
  · rw [tidy_stroke, tidy_stroke]
    rcases h.stroke with ⟨h1, h2, _⟩ | h1
    · rw [thin_of h1, thin_of h2]; rfl
    · have : thin st = thin st' := by
        unfold thin
        rw [h1 .stroke (by decide), h1 .strokeOpacity (by decide), ← lenOr_taken, ← lenOr_taken, h1 .strokeWidth (by decide)]
      rw [this, h1 .stroke (by decide)]
  · rcases h.stroke with ⟨h1, _, _⟩ | h1
    · exact .inl (thin_of h1)
    · right
      have e1 := h1 .strokeDasharray (by decide)
      have e2 := h1 .strokeDashoffset (by decide)
      rw [taken_none rfl, taken_none rfl] at e1 e2
      have : (seenStroke st).width = (seenStroke st').width := by rw [← lenOr_taken, ← lenOr_taken, h1 .strokeWidth (by decide)]
      unfold seenStroke at this ⊢
      simp only at this
      rw [this, e1, e2]
  · unfold markedB markerAttrs
    have : ∀ a ∈ markerAttrs, tidy st a = tidy st' a := by
      intro a ha
      rw [tidy_marker ha, tidy_marker ha]
      have := h.rest a (by rintro rfl; simp [markerAttrs] at ha) (by revert ha; cases a <;> decide) (by revert ha; cases a <;> decide) (.inr (by revert ha; cases a <;> decide))
      rw [taken_none (by revert ha; cases a <;> decide), taken_none (by revert ha; cases a <;> decide)] at this
      exact this
    simp only [List.any_cons, List.any_nil]
    rw [this .marker (by decide), this .markerStart (by decide), this .markerMid (by decide), this .markerEnd (by decide)]

theorem pen_looks {st st' : Style (List Blot)} (h : Looks st st') (t : Transform) : pen (tidy st) t = pen (tidy st') t := by
  unfold pen
  rw [← h.stroke]
  rcases h.pen with h1 | h1
  · rw [tidy_stroke, h1]; rfl
  · rw [tidy_lengths, tidy_lengths, h1]

theorem stop_own {as as' : Attrs (List Blot)} (h : SameOwn svgInitial .stop as as') :
    Seen.value (stopIn .stop as (.id .stopColor)) = Seen.value (stopIn .stop as' (.id .stopColor)) ∧
    Seen.value (stopIn .stop as (.id .stopOpacity)) = Seen.value (stopIn .stop as' (.id .stopOpacity)) := by
  constructor
  · have : ∀ {as : Attrs (List Blot)}, Silent svgInitial .stop as (.id .stopColor) → as (.id .stopColor) = none := by
      intro as h
      rcases h with h | ⟨h, _⟩ | ⟨h, _⟩ | ⟨h, _⟩ | ⟨_, b, h, h'⟩ | ⟨h, _⟩ | ⟨b, u, h, _, h'⟩
      · exact h
      · cases h
      · cases h
      · cases h
      · cases h; cases h'
      · cases h
      · cases h; cases h'.2
    simp only [stopIn, if_neg (show AName.id .stopColor ≠ .id .stopOpacity by decide)]
    rcases h (.id .stopColor) with h | ⟨h1, h2⟩
    · rw [h]
    · rw [this h1, this h2]
  · have : ∀ {as : Attrs (List Blot)}, Silent svgInitial .stop as (.id .stopOpacity) → (as (.id .stopOpacity)).or (some (.plain (.number 1))) = some (.plain (.number 1)) := by
      intro as h
      rcases h with h | ⟨h, _⟩ | ⟨h, _⟩ | ⟨h, _⟩ | ⟨_, b, h, h'⟩ | ⟨h, _⟩ | ⟨b, u, h, h'', h'⟩
      · rw [h]; rfl
      · cases h
      · cases h
      · cases h
      · cases h; cases h'
      · cases h
      · cases h
        have : svgInitial .stopOpacity = some u := h'.2
        cases this
        rw [h'']; rfl
    simp only [stopIn, if_true]
    rcases h (.id .stopOpacity) with h | ⟨h1, h2⟩
    · rw [h]
    · rw [this h1, this h2]

theorem draw_heeds {e : EId} {as as' : Attrs (List Blot)} {st st' : Style (List Blot)} (ho : SameOwn svgInitial e as as') (hl : Looks st st') (t : Transform)
    (kids : List Blot) : drawAny e (stopIn e as) (tidy st) t kids = drawAny e (stopIn e as') (tidy st') t kids := by
  unfold drawAny
  split
  next hs =>
    have hne : e ≠ .stop := by rintro rfl; cases hs
    rw [stopIn_of hne, stopIn_of hne]
    unfold drawShape trail
    rw [sharp_own hs ho, hl.stroke, hl.marked, pen_looks hl, hl.fill]
  next =>
    split
    next hs =>
      have hne : e ≠ .stop := by rintro rfl; cases hs
      rw [stopIn_of hne, stopIn_of hne]
      unfold drawOval
      rw [figure_own hs ho]
      cases figure onePort (rebuilt e as') with
      | none => rfl
      | some F => cases F <;> first | rfl | (unfold ovalOf; rw [pen_looks hl, hl.fill])
    next =>
      unfold drawElem
      split
      · rfl
      · rw [stopIn_of (by decide), stopIn_of (by decide), own_same ho (a := .xlinkHref) rfl (fun _ => rfl), hl.fill]
      · rw [stopIn_of (by decide), stopIn_of (by decide), own_same ho (a := .xlinkHref) rfl (fun _ => rfl), hl.fill]
      · rw [stopIn_of (by decide), stopIn_of (by decide), own_same ho (a := .xlinkHref) rfl (fun _ => rfl), hl.fill]
      · rw [(stop_own ho).1, (stop_own ho).2]
      · rw [hl.fill]

/-- It takes defaults, and paints what is to be painted. -/
theorem draftsman_heeds : Heeds draftsman svgInitial := by
  refine ⟨fun a v h => ?_, fun e as as' st st' t l text ho hi _ _ => ?_, fun _ _ _ _ _ _ => rfl, fun _ _ _ _ _ _ _ => rfl, fun m m' c c' f f' t p _ hc hf => ?_⟩
  · cases a <;> first | (cases h; rfl) | cases h
  · exact draw_heeds ho (looks_of hi) t _
  · have : ∀ {x y : Option (Seen (List Blot))}, (x = y ∨ Seen.isRef x = false ∧ Seen.isRef y = false) → blank x = blank y := by
      have hb : ∀ x : Option (Seen (List Blot)), Seen.isRef x = false → blank x = false := by
        intro x hx
        match x with
        | none | some (.plain _) => rfl
        | some (.ref _) => cases hx
      rintro x y (h | ⟨h1, h2⟩)
      · rw [h]
      · rw [hb x h1, hb y h2]
    change (if blank c || blank f then [] else p) = (if blank c' || blank f' then [] else p)
    rw [this hc, this hf]

/-! ### Cases -/

open Verif.DefaultAttrs (removeDefaults Known rootKey hasOverflow len node hidden)

/-- **C70** as it is stated, for defaults. -/
def C70_defaults_full : Prop := ∀ f g : Forest, (∀ n ∈ f.nodes, ∀ y ∈ n.attrs, y.visible = true) → removeDefaults svgInitial f = some g →
  SameRead svgInitial f (onPaper g)

/-- A black rectangle that is shown by a `use` element in a red group. -/
def copied : Forest :=
  .cons (node 0 .svg [])
    (.cons (node 1 .defs []) (.cons (node 2 .rect [(.fill, .color 0 0 0), (.width, len 1 .none), (.height, len 1 .none)]) .nil .nil)
      (.cons (node 3 .g [(.fill, .color 255 0 0)]) (.cons (node 4 .use [(.xlinkHref, .link 2)]) .nil .nil) .nil)) .nil

/-- The copy becomes red. -/
theorem C70_refuted_copies : ¬ C70_defaults_full := by
  intro h
  have := h copied ((removeDefaults svgInitial copied).getD .nil) (by decide +kernel) (by decide +kernel) _ draftsman draftsman_heeds 1
  revert this
  decide +kernel

/-- **C70** as it is stated, for needless attributes. -/
def C70_needless_full : Prop := ∀ f : Forest, SameRead svgInitial f (Needless.removeNeedless f)

/-- A rectangle with a stroke of width zero, shown by a `use` element in a group with a stroke. -/
def copiedStroke : Forest :=
  .cons (node 0 .svg [])
    (.cons (node 1 .defs []) (.cons (node 2 .rect [(.stroke, .color 255 0 0), (.strokeWidth, len 0 .none), (.width, len 1 .none), (.height, len 1 .none)]) .nil .nil)
      (.cons (node 3 .g [(.stroke, .color 255 0 0)]) (.cons (node 4 .use [(.xlinkHref, .link 2)]) .nil .nil) .nil)) .nil

/-- The stroke of the copy appears. -/
theorem C70_refuted_stroke : ¬ C70_needless_full := by
  intro h
  have := h copiedStroke _ draftsman draftsman_heeds 1
  revert this
  decide +kernel

/-! The conditions, as tests. -/

def simpleB (n : Node) : Bool :=
  decide (n.attrs.map Attr.name).Nodup && (match n.kind with | .elem e => decide (e ≠ .use) | .other _ => false | _ => true) &&
    n.attrs.all (fun y => decide (y.value ≠ .kw .inherit) && decide (y.value ≠ .kw .currentColor)) &&
    n.attrs.all (fun y => decide (y.value.target = none) || (match y.name with | .id a => a.isPresentation || decide (a = .xlinkHref) | _ => false))

theorem simple_of {n : Node} (h : simpleB n = true) : Simple n := by
  simp only [simpleB, Bool.and_eq_true, decide_eq_true_eq, List.all_eq_true] at h
  obtain ⟨⟨⟨h1, h2⟩, h3⟩, h4⟩ := h
  refine ⟨h1, ⟨?_, ?_⟩, h3, fun y hy ht => ?_⟩
  · intro e; rw [e] at h2; revert h2; decide
  · intro t e; rw [e] at h2; cases h2
  · have := h4 y hy
    rw [Bool.or_eq_true, decide_eq_true_eq] at this
    rcases this with h | h
    · exact absurd h ht
    · split at h
      next a ha => exact ⟨a, ha, by simpa using h⟩
      next => cases h

def enclosedB (n : Node) : Bool := match n.kind with | .elem e => !hasOverflow e || decide (n.get .overflow = none) | _ => true

theorem enclosed_of {n : Node} (h : enclosedB n = true) : Enclosed n := by
  intro e he ho
  unfold enclosedB at h
  rw [he] at h
  simpa [ho] using h

def bareB (n : Node) : Bool := decide (n.kind ≠ .elem .clipPath) && markerAttrs.all fun a => match n.get a with | some v => decide (v.target = none) | none => true

theorem bare_of {n : Node} (h : bareB n = true) : Bare n := by
  simp only [bareB, Bool.and_eq_true, decide_eq_true_eq, List.all_eq_true] at h
  refine ⟨h.1, fun a ha v hv => ?_⟩
  have := h.2 a ha
  rw [hv] at this
  simpa using this

def placedB (n : Node) : Bool :=
  (decide (n.kind ≠ .elem .svg) || decide (n.get .x = none ∧ n.get .y = none)) &&
  (decide (n.kind ≠ .elem .rect) || (match n.get .rx with | none => true | some (.length l) => decide (l.unit ≠ .percent) | some _ => false)) &&
  (decide (n.kind ≠ .elem .radialGradient) || decide (n.get .fx = none ∧ n.get .fy = none))

theorem placed_of {n : Node} (h : placedB n = true) : Placed true n := by
  simp only [placedB, Bool.and_eq_true, Bool.or_eq_true, decide_eq_true_eq] at h
  obtain ⟨⟨h1, h2⟩, h3⟩ := h
  refine ⟨fun _ hk => h1.resolve_left (not_not.2 hk), fun hk l hl => ?_, fun hk v hv => ?_, fun hk => h3.resolve_left (not_not.2 hk)⟩
  · have := h2.resolve_left (not_not.2 hk)
    rw [hl] at this
    simpa using this
  · have := h2.resolve_left (not_not.2 hk)
    rw [hv] at this
    cases v <;> first | exact ⟨_, rfl⟩ | cases this

def wordlessB (n : Node) : Bool :=
  (match n.kind with | .comment _ => true | .elem e => decide (e ≠ .use) && !isTextual e | _ => false) && n.attrs.all fun y => !fontRelative y.value

theorem wordless_of {n : Node} (h : wordlessB n = true) : Wordless n := by
  simp only [wordlessB, Bool.and_eq_true, List.all_eq_true, Bool.not_eq_true'] at h
  refine ⟨?_, h.2⟩
  have h1 := h.1
  split at h1
  next s hs => exact .inl ⟨s, hs⟩
  next e he =>
    simp only [Bool.and_eq_true, decide_eq_true_eq, Bool.not_eq_true'] at h1
    exact .inr ⟨e, he, h1.1, h1.2⟩
  next => cases h1

/-- Rectangles with default values, without a stroke, and with attributes that are not for them; a circle with a gradient. -/
def readDoc : Forest :=
  .cons (node 0 .svg [(.fill, .color 0 0 0), (.width, len 100 .percent), (.fontFamily, .str "Arial")])
    (.cons (node 1 .defs [])
      (.cons (node 2 .linearGradient [(.x2, len 100 .percent), (.y1, len 0 .percent)])
        (.cons (node 3 .stop [(.stopColor, .color 1 2 3), (.stopOpacity, .number 1)]) .nil (.cons (node 4 .stop [(.stopColor, .color 4 5 6)]) .nil .nil)) .nil)
    (.cons (node 5 .g [(.strokeWidth, len 5 .none), (.fontSize, len 12 .none), (.overflow, .kw .hidden)])
      (.cons (node 6 .rect [(.x, len 0 .none), (.width, len 10 .none), (.height, len 20 .none), (.rx, len 3 .none), (.ry, len 3 .none), (.cx, len 4 .none)]) .nil
      (.cons (node 7 .rect [(.y, len 7 .none), (.width, len 10 .none), (.height, len 20 .none), (.stroke, .color 7 8 9), (.strokeOpacity, .number 0), (.fill, .color 9 9 9)]) .nil
      (.cons (node 8 .circle [(.r, len 5 .none), (.fill, .funcLink 2), (.fillOpacity, .number 1), (.stroke, .color 1 1 1)]) .nil .nil))) .nil)) .nil

theorem svgInitial_sane : Sane svgInitial := ⟨draftsman_heeds.plain, .inr rfl, by decide⟩
theorem svgInitial_standard : Standard svgInitial := ⟨rfl, rfl, rfl⟩

theorem readDoc_ok : (∀ n ∈ readDoc.nodes, Simple n ∧ Enclosed n ∧ Known svgInitial (rootKey readDoc) n) ∧ (∀ n ∈ readDoc.nodes, Simple n ∧ Bare n) ∧
    (∀ n ∈ readDoc.nodes, Placed true n) ∧ (∀ n ∈ readDoc.nodes, Wordless n) ∧ (∀ n ∈ readDoc.nodes, ∀ y ∈ n.attrs, y.visible = true) := by
  have h1 : ∀ n ∈ readDoc.nodes, simpleB n = true := by decide +kernel
  have h2 : ∀ n ∈ readDoc.nodes, enclosedB n = true := by decide +kernel
  have h3 : ∀ n ∈ readDoc.nodes, bareB n = true := by decide +kernel
  have h4 : ∀ n ∈ readDoc.nodes, placedB n = true := by decide +kernel
  have h5 : ∀ n ∈ readDoc.nodes, wordlessB n = true := by decide +kernel
  have h6 : ∀ n ∈ readDoc.nodes, Known svgInitial (rootKey readDoc) n := by decide +kernel
  exact ⟨fun n hn => ⟨simple_of (h1 n hn), enclosed_of (h2 n hn), h6 n hn⟩, fun n hn => ⟨simple_of (h1 n hn), bare_of (h3 n hn)⟩,
    fun n hn => placed_of (h4 n hn), fun n hn => wordless_of (h5 n hn), by decide +kernel⟩

/-- What goes. -/
example : ((removeDefaults svgInitial readDoc).map fun g => (onPaper g).nodes.map fun n => n.attrs.map Attr.name) =
      some [[.id .fontFamily], [], [.id .x2, .id .y1], [.id .stopColor], [.id .stopColor], [.id .strokeWidth, .id .fontSize],
        [.id .width, .id .height, .id .rx, .id .ry, .id .cx], [.id .y, .id .width, .id .height, .id .stroke, .id .strokeOpacity, .id .fill],
        [.id .r, .id .fill, .id .stroke]] ∧
    ((Needless.removeNeedless readDoc).nodes.map fun n => n.attrs.length) = [3, 0, 2, 2, 1, 2, 5, 4, 4] ∧
    ((onPaper (Simple.removeUnusedCoords readDoc)).nodes.map fun n => n.attrs.length) = [3, 0, 2, 2, 1, 3, 5, 6, 4] ∧
    ((TextAttrs.removeText readDoc).map fun g => g.nodes.map fun n => n.attrs.length) = some [2, 0, 2, 2, 1, 2, 6, 6, 4] := by decide +kernel

/-- What the renderer writes down. -/
example : picture draftsman 1 readDoc =
    [.shape (.area [((0, 0), (10, 0)), ((10, 0), (10, 20)), ((10, 20), (0, 20)), ((0, 20), (0, 0))]) false [] (some (.color 0 0 0)) 1,
     .shape (.area [((0, 7), (10, 7)), ((10, 7), (10, 27)), ((10, 27), (0, 27)), ((0, 27), (0, 7))]) false [] (some (.color 9 9 9)) 1,
     .oval (0, 0) (5, 0) (0, 5) [((5, 0), (0, 5), .none), ((0, 0), (0, 0), .none)] none 1] := by decide +kernel

end Verif.Reader
