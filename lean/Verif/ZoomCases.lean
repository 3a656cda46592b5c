import Verif.ZoomProps
import Verif.PlotCases
/-
C69: a renderer that draws scaled shapes as the shapes of the scaled outlines, and cases.
-/
namespace Verif.Zoom
open Verif.Dom Verif.Spec Verif.Render Verif.Plot
open Verif.Paths hiding Kind
open Verif.Paths (Transform)
open Verif.ConvShapes (Units takesMarkers geometry geometryAttrs polyEvents)
open Verif.ApplyTs hiding isShape

theorem pt_mul (T t : Transform) (p : Pt) : (mul T t).pt p = T.pt (t.pt p) := by
  simp only [Transform.pt, Transform.apply, mul, Prod.mk.injEq]
  constructor <;> ring

theorem pt_inj {t : Transform} (ht : Uniform t) {p q : Pt} (h : t.pt p = t.pt q) : p = q := by
  obtain ⟨h1, h2, h3, h4⟩ := ht
  simp only [Transform.pt, Transform.apply, Prod.mk.injEq, h1, h2, ← h3] at h
  refine Prod.ext (mul_left_cancel₀ h4.ne' ?_) (mul_left_cancel₀ h4.ne' ?_)
  · linarith [h.1]
  · linarith [h.2]

theorem image_ends (t : Transform) (s : ℚ) (e : Event) : penEnds (e.image t s) = (t.pt (penEnds e).1, t.pt (penEnds e).2) := by
  cases e with
  | draw k c => cases c <;> rfl
  | _ => rfl

theorem edge_image {t : Transform} (ht : Uniform t) (p q : Pt) : edge (t.pt p) (t.pt q) = (edge p q).map fun x => (t.pt x.1, t.pt x.2) := by
  unfold edge
  by_cases h : p = q
  · simp [h]
  · rw [if_neg h, if_neg fun e => h (pt_inj ht e)]
    rfl

theorem edges_image {t : Transform} (ht : Uniform t) (s : ℚ) (l : List Event) : edges (l.map (Event.image t s)) = (edges l).map fun x => (t.pt x.1, t.pt x.2) := by
  induction l with
  | nil => rfl
  | cons e l ih =>
    cases e with
    | start p => exact ih
    | draw k c =>
      have : (c.image t s).src = t.pt c.src ∧ (c.image t s).fin = t.pt c.fin := by cases c <;> exact ⟨rfl, rfl⟩
      simp only [List.map_cons, Event.image, edges, this, edge_image ht, ih, List.map_append]
    | close p q => simp only [List.map_cons, Event.image, edges, edge_image ht, ih, List.map_append]

theorem trail_image {t : Transform} (ht : Uniform t) (s : ℚ) (b : Bool) (l : List Event) :
    trailOf b (l.map (Event.image t s)) = (trailOf b l).map (Trail.place t) := by
  cases b with
  | false =>
    simp only [trailOf, Bool.false_eq_true, if_false, edges_image ht]
    cases edges l <;> rfl
  | true =>
    simp only [trailOf, if_true, List.map_map]
    have : penEnds ∘ Event.image t s = (fun x => (t.pt x.1, t.pt x.2)) ∘ penEnds := by funext e; exact image_ends t s e
    rw [this, ← List.map_map]
    cases l.map penEnds <;> rfl

theorem place_mul (T t : Transform) (x : Trail) : x.place (mul T t) = (x.place t).place T := by
  cases x <;> simp [Trail.place, pt_mul]

/-- The outline of a figure. -/
def events : Option Figure → List Event
  | some (.segment p q) => polyEvents false [p, q]
  | some (.rect x y w h _ _) => polyEvents true [(x, y), (x + w, y), (x + w, y + h), (x, y + h)]
  | _ => []

theorem coord_len (b : Bool) (d : Axis) (n : Node) (a : AId) : oneUnit.coord b n a = onePort.len d n a := by
  unfold Units.coord Viewport.len Viewport.len?
  cases n.get a with
  | none => rfl
  | some v => cases v <;> rfl

theorem events_figure {n : Node} {e : EId} (he : n.kind = .elem e) (h : e = .line ∨ e = .rect) : sharp (geometry oneUnit n) = events (figure onePort n) := by
  unfold geometry figure
  rw [he]
  rcases h with rfl | rfl
  · simp only [coord_len true .x, coord_len false .y]
    rfl
  · simp only [coord_len true .x, coord_len false .y]
    by_cases hz : onePort.len .x n .width ≤ 0 ∨ onePort.len .y n .height ≤ 0
    · rw [if_pos hz, if_pos hz]; rfl
    · rw [if_neg hz, if_neg hz]
      split <;> rfl

theorem events_image {t : Transform} (ht : Uniform t) (F : Option Figure) : events (F.map (Figure.image t)) = (events F).map (Event.image t t.a) := by
  obtain ⟨h1, h2, h3, h4⟩ := ht
  cases F with
  | none => rfl
  | some F =>
    cases F with
    | segment p q => rfl
    | rect x y w h rx ry =>
      simp only [Option.map_some, Figure.image, events, polyEvents, ConvShapes.lines, List.map_cons, List.map_append, Event.image, Curve.image, List.map_nil,
        Transform.pt, Transform.apply, h1, h2, ← h3, List.getLast]
      simp only [List.cons_append, List.nil_append, if_true, List.map_cons, Event.image, Transform.pt, Transform.apply, h1, h2, ← h3, List.map_nil]
      simp only [List.cons.injEq, Event.draw.injEq, Curve.line.injEq, Event.close.injEq, Event.start.injEq, Prod.mk.injEq, and_true, true_and]
      refine ⟨?_, ?_, ?_, ?_⟩ <;> (try constructor) <;> (try constructor) <;> ring_nf
    | ellipse => rfl

theorem figure_rebuilt {env : Env (List Blot)} {n : Node} {e : EId} (he : n.kind = .elem e) (u : Viewport) : figure u (rebuilt e (own env n)) = figure u n := by
  have hl : ∀ d a, a ∈ outlineAttrs → u.len? d (rebuilt e (own env n)) a = u.len? d n a := by
    intro d a ha
    unfold Viewport.len?
    rw [rebuilt_own env e n ha]
    cases n.get a with
    | none => rfl
    | some v => cases v <;> rfl
  have hk : (rebuilt e (own env n)).kind = n.kind := by rw [he]; rfl
  unfold figure Viewport.len
  rw [hk]
  simp only [hl _ .x1 (by decide), hl _ .x2 (by decide), hl _ .y1 (by decide), hl _ .y2 (by decide), hl _ .x (by decide), hl _ .y (by decide),
    hl _ .cx (by decide), hl _ .cy (by decide), hl _ .r (by decide), hl _ .rx (by decide), hl _ .ry (by decide), hl _ .width (by decide), hl _ .height (by decide)]

theorem nibs_scale {t : Transform} (ht : Uniform t) (T : Transform) (k : Stroke) : nibs (mul T t) k = nibs T (k.scale t.a) := by
  obtain ⟨h1, h2, h3, h4⟩ := ht
  have hn : ∀ l : Len, nib (mul T t) l = nib T (Len.scale t.a l) := by
    intro l
    simp only [nib, mul, Len.scale, h1, h2, ← h3, Prod.mk.injEq, and_true]
    refine ⟨⟨?_, ?_⟩, ?_, ?_⟩ <;> ring
  have hf : nib (mul T t) = nib T ∘ Len.scale t.a := funext hn
  simp only [nibs, Stroke.scale, List.map_map, hf, Function.comp]

theorem pen_zoom {st st' : Style (List Blot)} {t : Transform} (ht : Uniform t) (T : Transform) (h : Zoomed t.a st st') : pen st (mul T t) = pen st' T := by
  unfold pen
  rw [h.rest .stroke (by decide), h.stroke, nibs_scale ht]

theorem marked_zoom {st st' : Style (List Blot)} {s : ℚ} (h : Zoomed s st st') : markedB st' = markedB st := by
  unfold markedB markerAttrs
  simp only [List.any_cons, List.any_nil]
  rw [h.rest .marker (by decide), h.rest .markerStart (by decide), h.rest .markerMid (by decide), h.rest .markerEnd (by decide)]

theorem shape_zoom {env : Env (List Blot)} {n m : Node} {e : EId} {st st' : Style (List Blot)} {T t : Transform} (he : n.kind = .elem e) (hm : m.kind = .elem e)
    (hs : Plot.isShape e = true) (ht : Uniform t) (hz : Zoomed t.a st st')
    (hg : sharp (geometry oneUnit m) = (sharp (geometry oneUnit n)).map (Event.image t t.a)) :
    drawShape e (own env n) st (mul T t) [] = drawShape e (own env m) st' T [] := by
  unfold drawShape
  rw [geometry_congr oneUnit hs he rfl fun a ha => rebuilt_own env e n (List.mem_append_left _ ha),
    geometry_congr oneUnit hs hm rfl fun a ha => rebuilt_own env e m (List.mem_append_left _ ha)]
  unfold trail
  rw [hg, trail_image ht, marked_zoom hz, hz.rest .stroke (by decide), hz.rest .fill (by decide), pen_zoom ht T hz]
  cases trailOf (strokedB (st .stroke) || markedB st) (sharp (geometry oneUnit n)) with
  | none => rfl
  | some x =>
    simp only [Option.map_some]
    rw [place_mul]

/-- It draws scaled shapes as the shapes of the scaled outlines. -/
theorem plotter_zooms : Zooms plotter := by
  refine ⟨fun env n m e st st' T t he ht hs hi hz _ _ _ => ?_⟩
  have hm : m.kind = .elem e := hs.kind.trans he
  change drawAny e (own env n) st (mul T t) [] = drawAny e (own env m) st' T []
  cases hi with
  | outline hk hp hq h =>
    rw [he] at hk
    cases hk
    have hp' : Plot.isShape .path = true := rfl
    unfold drawAny
    rw [if_pos hp', if_pos hp']
    refine shape_zoom he hm rfl ht hz ?_
    have hd : ∀ {x : Node} {p : Path}, x.kind = .elem .path → pathOf x = some p → sharp (geometry oneUnit x) = trace p := by
      intro x p hx hp
      unfold pathOf at hp
      unfold geometry
      rw [hx]
      simp only
      cases hg : x.get .d with
      | none => rw [hg] at hp; cases hp
      | some v => rw [hg] at hp; cases v <;> first | (cases hp; done) | (cases hp; rfl)
    rw [hd he hp, hd hm hq, h]
  | figure hb h =>
    rw [he] at hb
    simp only [isBasic, decide_eq_true_eq, List.mem_cons, List.not_mem_nil, or_false] at hb
    have hev : e = .line ∨ e = .rect → drawAny e (own env n) st (mul T t) [] = drawAny e (own env m) st' T [] := by
      intro hlr
      have hsh : Plot.isShape e = true := by rcases hlr with rfl | rfl <;> rfl
      unfold drawAny
      rw [if_pos hsh, if_pos hsh]
      refine shape_zoom he hm hsh ht hz ?_
      rw [events_figure he hlr, events_figure hm hlr, h, events_image ht]
    have hov : e = .circle ∨ e = .ellipse → drawAny e (own env n) st (mul T t) [] = drawAny e (own env m) st' T [] := by
      intro hce
      have h1 : Plot.isShape e = false := by rcases hce with rfl | rfl <;> rfl
      have h2 : isOval e = true := by rcases hce with rfl | rfl <;> rfl
      unfold drawAny
      simp only [h1, h2, Bool.false_eq_true, if_false, if_true]
      unfold drawOval
      rw [figure_rebuilt he, figure_rebuilt hm, h]
      cases hF : figure onePort n with
      | none => rfl
      | some F =>
        cases F with
        | ellipse cx cy rx ry =>
          simp only [Option.map_some, Figure.image, ovalOf]
          rw [pt_mul, pen_zoom ht T hz, hz.rest .fill (by decide)]
          obtain ⟨h1, h2, h3, h4⟩ := ht
          simp only [mul, h1, h2, ← h3, List.cons.injEq, Blot.oval.injEq, Prod.mk.injEq, and_true, true_and]
          refine ⟨⟨?_, ?_⟩, ?_, ?_⟩ <;> ring
        | _ => rfl
    rcases hb with rfl | rfl | rfl | rfl
    · exact hev (.inr rfl)
    · exact hov (.inl rfl)
    · exact hov (.inr rfl)
    · exact hev (.inl rfl)

/-! ### Cases -/

/-- **C69** as it is stated, for shapes. -/
def C69_shapes_full : Prop := ∀ f g : Forest, (∀ n ∈ f.nodes, PaintOk n) → applyToShapes f = some g → SameZoom f g

def ink : Value := .color 0 0 0

/-- A rectangle, scaled by 2, that a `use` element shows with a stroke of width 10: it is 20 wide before, and 2 wide after. -/
def usedRect : Forest :=
  .cons (elem 1 .svg [])
    (.cons (elem 2 .defs [])
        (.cons (elem 3 .rect [(.width, px 10), (.height, px 20), (.stroke, ink), (.transform, .transform ⟨2, 0, 0, 2, 0, 0⟩)]) .nil .nil)
      (.cons (elem 4 .use [(.xlinkHref, .link 3), (.strokeWidth, px 10)]) .nil .nil)) .nil

theorem paintOk_of {n : Node} (h : (strokeAttrs ++ refAttrs).all (fun a => decide (n.get a ≠ some (.kw .inherit))) = true)
    (hs : [AId.strokeWidth, .strokeDashoffset].all (fun a => match n.get a with | none | some (.length _) => true | _ => false) = true)
    (hl : [AId.fill, .stroke].all (fun a => match n.get a with | some (.link _) => false | _ => true) = true) : PaintOk n := by
  have key : ∀ a ∈ [AId.strokeWidth, .strokeDashoffset], ∀ v, n.get a = some v → ∃ l, v = .length l := by
    intro a ha v hv
    have := List.all_eq_true.1 hs a ha
    rw [hv] at this
    cases v <;> first | (cases this; done) | exact ⟨_, rfl⟩
  refine ⟨fun a ha => ?_, ⟨key _ (by simp), key _ (by simp)⟩, fun a ha k hk => ?_⟩
  · simpa using List.all_eq_true.1 h a ha
  · have := List.all_eq_true.1 hl a ha
    rw [hk] at this
    cases this

theorem C69_refuted_use : ¬ C69_shapes_full := by
  intro h
  have := h usedRect ((applyToShapes usedRect).getD .nil) ?_ ?_ _ plotter oneUnit plotter_plots plotter_zooms 1
  · revert this; decide +kernel
  · intro n hn
    simp [usedRect] at hn
    rcases hn with rfl | rfl | rfl | rfl <;> exact paintOk_of (by decide +kernel) (by decide +kernel) (by decide +kernel)
  · decide +kernel

/-- **C69** as it is stated, for paths. -/
def C69_paths_full : Prop := ∀ (o : PathOpts) (f g : Forest), (∀ n ∈ f.nodes, PaintOk n) →
  (∀ n ∈ f.nodes, ∀ p, n.kind = .elem .path → n.get .d = some (.path p) → p = [] ∨ StartsWithMove p) → processPaths true o f = some g → SameZoom f g

/-- The same with a path. -/
def usedPath : Forest :=
  .cons (elem 1 .svg [])
    (.cons (elem 2 .defs [])
        (.cons (elem 3 .path [(.d, .path [⟨true, .moveTo 0 0⟩, ⟨true, .lineTo 5 5⟩]), (.stroke, ink), (.transform, .transform ⟨2, 0, 0, 2, 0, 0⟩)]) .nil .nil)
      (.cons (elem 4 .use [(.xlinkHref, .link 3), (.strokeWidth, px 10)]) .nil .nil)) .nil

theorem C69_refuted_used_path : ¬ C69_paths_full := by
  intro h
  have := h ⟨false, false⟩ usedPath ((processPaths true ⟨false, false⟩ usedPath).getD .nil) ?_ ?_ ?_ _ plotter oneUnit plotter_plots plotter_zooms 1
  · revert this; decide +kernel
  · intro n hn
    simp [usedPath] at hn
    rcases hn with rfl | rfl | rfl | rfl <;> exact paintOk_of (by decide +kernel) (by decide +kernel) (by decide +kernel)
  · intro n hn p hk hp
    simp [usedPath] at hn
    rcases hn with rfl | rfl | rfl | rfl <;> first | (cases hk; done) | skip
    simp [Node.get, getAttr, elem] at hp
    subst hp
    exact .inr ⟨true, 0, 0, _, rfl⟩
  · decide +kernel

instance (v s : AId → Option Value) : Decidable (AsGiven v s) :=
  decidable_of_iff ((∀ a ∈ strokeAttrs, s a = v a) ∧ (∀ a ∈ refAttrs, refers (s a) = true → refers (v a) = true) ∧ (paints (s .stroke) = true → paints (v .stroke) = true))
    ⟨fun h => ⟨h.1, h.2.1, h.2.2⟩, fun h => ⟨h.1, h.2, h.3⟩⟩

/-- A group with a stroke width, in it a scaled rectangle and a moved line; a scaled circle that is shown twice, once in a red `use` element. -/
def zoomDoc : Forest :=
  .cons (elem 1 .svg [(.stroke, ink)])
    (.cons (elem 2 .g [(.strokeWidth, px 3)])
      (.cons (elem 3 .rect [(.x, px 1), (.width, px 10), (.height, px 20), (.rx, px 2), (.transform, .transform ⟨2, 0, 0, 2, 5, 6⟩)]) .nil
      (.cons (elem 4 .line [(.x2, px 7), (.transform, .transform ⟨1, 0, 0, 1, 5, 6⟩)]) .nil .nil))
    (.cons (elem 5 .circle [(.r, px 3), (.strokeDasharray, .lengthList [⟨1, .none⟩, ⟨2, .percent⟩]), (.transform, .transform ⟨3, 0, 0, 3, 0, 0⟩)]) .nil
    (.cons (elem 6 .use [(.xlinkHref, .link 5), (.x, px 40), (.fill, .color 9 0 0)]) .nil .nil))) .nil

example : (∀ n ∈ zoomDoc.nodes, PaintOk n) ∧ ShapesPlain zoomDoc ∧ UsesAgree movableShape zoomDoc ∧
    (applyToShapes zoomDoc).map (fun g => g.nodes.map fun n => n.has .transform) = some [false, false, false, false, false, false] := by
  refine ⟨?_, ?_, ?_, by decide +kernel⟩
  · intro n hn
    simp [zoomDoc] at hn
    rcases hn with rfl | rfl | rfl | rfl | rfl | rfl <;> exact paintOk_of (by decide +kernel) (by decide +kernel) (by decide +kernel)
  · unfold ShapesPlain; decide +kernel
  · unfold UsesAgree; decide +kernel

/-- What the renderer writes down, before and after. -/
example : picture plotter 1 zoomDoc = picture plotter 1 ((applyToShapes zoomDoc).getD .nil) ∧ picture plotter 1 zoomDoc =
    [.shape (.pen [((7, 6), (7, 6)), ((7, 6), (27, 6)), ((27, 6), (27, 46)), ((27, 46), (7, 46)), ((7, 46), (7, 6))]) false
      [((6, 0), (0, 6), .none), ((0, 0), (0, 0), .none)] none 1,
     .shape (.pen [((5, 6), (5, 6)), ((5, 6), (12, 6))]) false [((3, 0), (0, 3), .none), ((0, 0), (0, 0), .none)] none 1,
     .oval (0, 0) (9, 0) (0, 9) [((3, 0), (0, 3), .none), ((0, 0), (0, 0), .none), ((3, 0), (0, 3), .none), ((6, 0), (0, 6), .percent)] none 1,
     .oval (40, 0) (9, 0) (0, 9) [((3, 0), (0, 3), .none), ((0, 0), (0, 0), .none), ((3, 0), (0, 3), .none), ((6, 0), (0, 6), .percent)] (some (.color 9 0 0)) 1] := by
  decide +kernel

/-- A scaled stroked path, a path without a transform that is filled and has a segment of length zero, and a `use` element of the latter. -/
def zoomPaths : Forest :=
  .cons (elem 1 .svg [])
    (.cons (elem 2 .path [(.d, .path [⟨true, .moveTo 1 1⟩, ⟨true, .lineTo 5 5⟩]), (.stroke, ink), (.transform, .transform ⟨2, 0, 0, 2, 3, 0⟩)]) .nil
    (.cons (elem 3 .path [(.d, .path [⟨true, .moveTo 0 0⟩, ⟨true, .lineTo 4 4⟩, ⟨true, .lineTo 9 0⟩, ⟨true, .close⟩])]) .nil
    (.cons (elem 4 .use [(.xlinkHref, .link 3), (.fill, .color 9 0 0)]) .nil .nil))) .nil

example : (∀ n ∈ zoomPaths.nodes, PaintOk n) ∧ PathsPlain ⟨true, false⟩ zoomPaths ∧ UsesAgree (pathTouched ⟨true, false⟩) zoomPaths ∧
    (processPaths true ⟨true, false⟩ zoomPaths).map (fun g => g.nodes.map fun n => n.has .transform) = some [false, false, false, false] ∧
    picture plotter 1 zoomPaths = picture plotter 1 ((processPaths true ⟨true, false⟩ zoomPaths).getD .nil) ∧
    (picture plotter 1 zoomPaths).head? = some (.shape (.pen [((5, 2), (5, 2)), ((5, 2), (13, 10))]) false [((2, 0), (0, 2), .none), ((0, 0), (0, 0), .none)] none 1) := by
  have line : ∀ l : List Event, (l.all fun e => match e with | .draw .line (.line _ _) => true | .draw _ _ => false | _ => true) = true →
      ∀ e ∈ l, ∀ k c, e = .draw k c → k = Paths.Kind.line ∧ ∃ p q, c = .line p q := by
    intro l hl e he k c h
    have := List.all_eq_true.1 hl e he
    rw [h] at this
    split at this
    · rename_i e2; cases e2; exact ⟨rfl, _, _, rfl⟩
    · cases this
    · rename_i h1 h2; exact absurd rfl (h2 _ _)
  refine ⟨?_, ?_, ?_, by decide +kernel, by decide +kernel, by decide +kernel⟩
  · intro n hn
    simp [zoomPaths] at hn
    rcases hn with rfl | rfl | rfl | rfl <;> exact paintOk_of (by decide +kernel) (by decide +kernel) (by decide +kernel)
  · intro x hx hk
    simp [zoomPaths, places] at hx
    rcases hx with rfl | rfl | rfl | rfl
    · cases hk
    · refine ⟨rfl, fun _ p hp => ?_, fun _ => by decide +kernel⟩
      simp [Node.get, getAttr, elem] at hp
      subst hp
      exact .inr ⟨⟨true, 1, 1, _, rfl⟩, fun _ => controls_lines _ (line _ (by decide +kernel)), fun e => by cases e⟩
    · refine ⟨rfl, fun _ p hp => ?_, fun _ => by decide +kernel⟩
      simp [Node.get, getAttr, elem] at hp
      subst hp
      exact .inr ⟨⟨true, 0, 0, _, rfl⟩, fun _ => controls_lines _ (line _ (by decide +kernel)), fun e => by cases e⟩
    · cases hk
  · unfold UsesAgree; decide +kernel

end Verif.Zoom
