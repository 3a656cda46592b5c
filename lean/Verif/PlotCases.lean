import Verif.Zoom
/-
C68: a renderer that draws shapes by their outlines, and cases.
-/
namespace Verif.Plot
open Verif.Dom Verif.Spec Verif.Render
open Verif.Paths hiding Kind
open Verif.ConvShapes (Units Geometry geometry geometryAttrs takesMarkers ShapeOk convertShapes)
open Verif.ApplyTs (processPaths figure Figure Viewport Uniform)
open Verif.Zoom (seenStroke Zooms)

/-! ### The outline from the attributes that a painter sees -/

def unseen {P : Type} : Seen P → Value
  | .plain v => v
  | .ref _ => .link 0

def noKey (v : Value) : Value := if v.target.isSome then .link 0 else v

theorem unseen_see {P : Type} (env : Env P) (v : Value) : unseen (see env v) = noKey v := by
  unfold see noKey
  cases v.target <;> rfl

/-- The attributes that say where the outline of an element is. -/
def outlineAttrs : List AId := geometryAttrs ++ [.cx, .cy, .r]

/-- An element with the geometry that a painter sees. -/
def rebuilt {P : Type} (e : EId) (as : Attrs P) : Node :=
  ⟨0, .elem e, "", outlineAttrs.filterMap fun a => (as (.id a)).map fun s => ⟨.id a, unseen s, true⟩⟩

theorem find_filterMap {h : AId → Option Attr} (hn : ∀ a y, h a = some y → y.name = .id a) (a : AId) (l : List AId) :
    (l.filterMap h).find? (fun y => decide (y.name = .id a)) = if a ∈ l then h a else none := by
  induction l with
  | nil => simp
  | cons b l ih =>
    rw [List.filterMap_cons]
    by_cases hb : b = a
    · subst hb
      cases hh : h b with
      | none =>
        simp only [ih, List.mem_cons, true_or, if_true]
        split <;> [exact hh; rfl]
      | some y => simp [hn b y hh]
    · cases hh : h b with
      | none => simp [ih, Ne.symm hb]
      | some y =>
        simp [List.find?_cons, hn b y hh, hb, ih, Ne.symm hb]

theorem rebuilt_get {P : Type} (e : EId) (as : Attrs P) {a : AId} (ha : a ∈ outlineAttrs) : (rebuilt e as).get a = (as (.id a)).map unseen := by
  have : getAttr (rebuilt e as).attrs (.id a) = (as (.id a)).map fun s => ⟨.id a, unseen s, true⟩ := by
    refine (find_filterMap (h := fun a => (as (.id a)).map fun s => ⟨.id a, unseen s, true⟩) (fun a y hy => ?_) a outlineAttrs).trans (if_pos ha)
    rw [Option.map_eq_some_iff] at hy
    obtain ⟨s, _, rfl⟩ := hy
    rfl
  unfold Node.get
  rw [this]
  cases as (.id a) <;> rfl

theorem own_geometry {a : AId} (ha : a ∈ outlineAttrs) : isOwn (.id a) = true := by
  have : ∀ a ∈ outlineAttrs, isOwn (.id a) = true := by decide
  exact this a ha

theorem rebuilt_own {P : Type} (env : Env P) (e : EId) (n : Node) {a : AId} (ha : a ∈ outlineAttrs) :
    (rebuilt e (own env n)).get a = (n.get a).map noKey := by
  rw [rebuilt_get e _ ha]
  unfold own Node.get
  rw [if_pos (own_geometry ha)]
  cases getAttr n.attrs (.id a) with
  | none => rfl
  | some y => simp [unseen_see]

theorem geometry_congr (u : Units) {e : EId} {n m : Node} (he : isShape e = true) (hn : n.kind = .elem e) (hm : m.kind = .elem e)
    (h : ∀ a ∈ geometryAttrs, m.get a = (n.get a).map noKey) : geometry u m = geometry u n := by
  have hc : ∀ b, ∀ a ∈ geometryAttrs, u.coord b m a = u.coord b n a := by
    intro b a ha
    unfold Units.coord
    rw [h a ha]
    cases n.get a with
    | none => rfl
    | some v => cases v <;> rfl
  have hh : ∀ a ∈ geometryAttrs, m.has a = n.has a := by
    intro a ha
    have := h a ha
    rw [Node.has_eq, Node.has_eq, this]
    cases n.get a <;> rfl
  have hr : ∀ b, u.radius b m = u.radius b n := by
    intro b
    unfold Units.radius
    cases b <;> simp only [Bool.false_eq_true, if_false, if_true, Bool.not_true, Bool.not_false] <;>
      rw [hh _ (by simp [geometryAttrs]), hc _ _ (by simp [geometryAttrs]), hc _ _ (by simp [geometryAttrs])]
  have hp : ConvShapes.pointsOf m = ConvShapes.pointsOf n := by
    unfold ConvShapes.pointsOf
    rw [h .points (by simp [geometryAttrs])]
    cases n.get .points with
    | none => rfl
    | some v => cases v <;> rfl
  unfold geometry
  rw [hn, hm]
  cases e <;> first | (cases he; done) | skip
  all_goals simp only
  · rw [hc _ _ (by simp [geometryAttrs]), hc _ _ (by simp [geometryAttrs]), hc _ _ (by simp [geometryAttrs]), hc _ _ (by simp [geometryAttrs])]
  · rw [h .d (by simp [geometryAttrs])]
    cases n.get .d with
    | none => rfl
    | some v => cases v <;> rfl
  · rw [hp]
  · rw [hp]
  · rw [hc _ .x (by simp [geometryAttrs]), hc _ .y (by simp [geometryAttrs]), hc _ .width (by simp [geometryAttrs]), hc _ .height (by simp [geometryAttrs]), hr, hr]

/-! ### What it writes down -/

theorem at_zero {c : Curve} (h : c.at? 0 ≠ none) : c.at? 0 = some c.src.real := by
  cases c <;> first | (simp [Curve.at?, Curve.src]; done) | exact absurd rfl h

theorem at_one {c : Curve} (h : c.at? 1 ≠ none) : c.at? 1 = some c.fin.real := by
  cases c <;> first | (simp [Curve.at?, Curve.fin]; done) | exact absurd rfl h

theorem real_inj {p q : Pt} (h : p.real = q.real) : p = q := by
  unfold Pt.real at h
  rw [Prod.mk.injEq] at h
  exact Prod.ext (by exact_mod_cast h.1) (by exact_mod_cast h.2)

theorem alike_ends {c c' : Curve} (h : DrawnAlike c c') : c'.src = c.src ∧ c'.fin = c.fin := by
  rcases h with rfl | ⟨φ, _, _, h0, h1, h⟩
  · exact ⟨rfl, rfl⟩
  · obtain ⟨a1, a2⟩ := h 0 (by simp)
    obtain ⟨b1, b2⟩ := h 1 (by simp)
    rw [h0] at a2
    rw [h1] at b2
    have e1 := (at_zero (a2 ▸ a1)).symm.trans (a2.symm.trans (at_zero a1))
    have e2 := (at_one (b2 ▸ b1)).symm.trans (b2.symm.trans (at_one b1))
    exact ⟨real_inj (Option.some.inj e1), real_inj (Option.some.inj e2)⟩

/-- The ends of what the pen does. -/
def penEnds : Event → Pt × Pt
  | .start p => (p, p)
  | .draw _ c => (c.src, c.fin)
  | .close p q => (p, q)

def edge (p q : Pt) : List (Pt × Pt) := if p = q then [] else [(p, q)]

/-- The ends of the curves, where they differ. -/
def edges : List Event → List (Pt × Pt)
  | [] => []
  | .start _ :: l => edges l
  | .draw _ c :: l => edge c.src c.fin ++ edges l
  | .close p q :: l => edge p q ++ edges l

def curveEdges (l : List Curve) : List (Pt × Pt) := l.flatMap fun c => edge c.src c.fin

theorem keep_flatten (l : List Curve) : (keep l).flatten = l := by cases l <;> simp [keep]

theorem edges_outline (acc : List Curve) (l : List Event) : curveEdges (outlineFrom acc l).flatten = curveEdges acc ++ edges l := by
  induction l generalizing acc with
  | nil => simp [outlineFrom, keep_flatten, edges]
  | cons e l ih =>
    cases e with
    | start p => simp only [outlineFrom, List.flatten_append, keep_flatten, edges]; unfold curveEdges; rw [List.flatMap_append]; congr 1; exact (ih []).trans (by simp [curveEdges])
    | draw k c =>
      simp only [outlineFrom, edges]
      rw [ih]
      by_cases hd : c.degenerate = true
      · rw [if_pos hd]
        have : edge c.src c.fin = [] := by cases c <;> simp_all [Curve.degenerate, edge, Curve.src, Curve.fin]
        rw [this]
        rfl
      · rw [if_neg hd]
        simp [curveEdges]
    | close p q =>
      simp only [outlineFrom, edges]
      rw [ih]
      by_cases hd : p = q
      · rw [if_pos hd]; simp [edge, hd]
      · rw [if_neg hd]; simp [curveEdges, Curve.src, Curve.fin]

theorem edges_trace {l l' : List Event} (h : TraceAlike l l') : edges l' = edges l ∧ l'.map penEnds = l.map penEnds := by
  induction h with
  | nil => exact ⟨rfl, rfl⟩
  | cons hr _ ih =>
    cases hr with
    | start p => exact ⟨ih.1, by simp only [List.map_cons, ih.2, penEnds]⟩
    | close p q => exact ⟨by simp only [edges, ih.1], by simp only [List.map_cons, ih.2, penEnds]⟩
    | draw h =>
      obtain ⟨a, b⟩ := alike_ends h
      exact ⟨by simp only [edges, ih.1, a, b], by simp only [List.map_cons, ih.2, penEnds, a, b]⟩

theorem edges_area {l l' : List Event} (h : List.Forall₂ (List.Forall₂ DrawnAlike) (outlineFrom [] l) (outlineFrom [] l')) : edges l' = edges l := by
  have e := edges_outline [] l
  have e' := edges_outline [] l'
  simp only [curveEdges, List.flatMap_nil, List.nil_append] at e e'
  rw [← e, ← e']
  have hf : List.Forall₂ DrawnAlike (outlineFrom [] l).flatten (outlineFrom [] l').flatten := by
    generalize outlineFrom [] l = a at h
    generalize outlineFrom [] l' = b at h
    clear e e'
    induction h with
    | nil => exact .nil
    | cons h1 _ ih => exact List.rel_append h1 ih
  generalize (outlineFrom [] l).flatten = a at hf
  generalize (outlineFrom [] l').flatten = b at hf
  clear h e e'
  induction hf with
  | nil => rfl
  | cons h1 _ ih =>
    obtain ⟨a, b⟩ := alike_ends h1
    simp only [List.flatMap_cons, ih, a, b]

inductive Trail
  | pen (l : List (Pt × Pt))
  | area (l : List (Pt × Pt))
  deriving DecidableEq, Repr

/-- The outline, with sharp corners. -/
def sharp : Geometry → List Event
  | .outline l => l
  | .rounded x y w h _ _ => ConvShapes.polyEvents true [(x, y), (x + w, y), (x + w, y + h), (x, y + h)]
  | .other _ => []

def filled (f : List (Pt × Pt) → Trail) : List (Pt × Pt) → Option Trail
  | [] => none
  | x :: l => some (f (x :: l))

/-- The outline as it is written down; `none` if nothing is drawn. -/
def trailOf (pen : Bool) (l : List Event) : Option Trail := if pen then filled .pen (l.map penEnds) else filled .area (edges l)

def trail (pen : Bool) (g : Geometry) : Option Trail := trailOf pen (sharp g)

theorem trail_trace {b : Bool} {g g' : Geometry} (h : SameTrace g g') : trail b g' = trail b g := by
  cases h with
  | refl => rfl
  | @outline l l' h =>
    obtain ⟨a, c⟩ := edges_trace h
    simp only [trail, sharp, trailOf, a, c]

theorem trail_area {g g' : Geometry} (h : SameArea g g') : trail false g' = trail false g := by
  cases h with
  | refl => rfl
  | outline h => simp only [trail, sharp, trailOf, edges_area h, Bool.false_eq_true, if_false]

/-- The outline in a coordinate system. -/
def Trail.place (t : Transform) : Trail → Trail
  | .pen l => .pen (l.map fun x => (t.pt x.1, t.pt x.2))
  | .area l => .area (l.map fun x => (t.pt x.1, t.pt x.2))

/-! ### The renderer -/

/-- A length in both directions of a coordinate system, and its unit. -/
abbrev Nib := Pt × Pt × LUnit

def nib (t : Transform) (l : Len) : Nib := ((l.num * t.a, l.num * t.b), (l.num * t.c, l.num * t.d), l.unit)

def nibs (t : Transform) (k : ApplyTs.Stroke) : List Nib := nib t k.width :: nib t k.offset :: k.dash.map (nib t)

inductive Blot
  | shape (t : Trail) (marked : Bool) (stroke : List Nib) (fill : Option Value) (opacity : ℚ)
  | oval (center right down : Pt) (stroke : List Nib) (fill : Option Value) (opacity : ℚ)
  | stop (color opacity : Option Value)
  | elem (e : EId) (fill : Option Value) (ctm : Transform) (opacity : ℚ)
  | text (s : String) (opacity : ℚ)
  deriving DecidableEq, Repr

def Blot.fade (q : ℚ) : Blot → Blot
  | .shape a b c d o => .shape a b c d (q * o)
  | .oval a b c d e o => .oval a b c d e (q * o)
  | .stop c o => .stop c o
  | .elem e f t o => .elem e f t (q * o)
  | .text s o => .text s (q * o)

def ink : Option (Seen (List Blot)) → Option Value
  | some (.plain v) => some v
  | some (.ref []) => some (.kw .none)
  | some (.ref [.stop c o]) => if o = some (.number 1) then c else none
  | _ => none

def blank : Option (Seen (List Blot)) → Bool
  | some (.ref []) => true
  | _ => false

def strokedB : Option (Seen (List Blot)) → Bool
  | none => false
  | some (.plain v) => decide (v ≠ .kw .none)
  | some (.ref q) => decide (q ≠ [])

def markedB (st : Style (List Blot)) : Bool := markerAttrs.any fun a => Seen.isRef (st a)

/-- Units that are all the same. -/
def oneUnit : Units := ⟨fun _ _ => 1, fun _ => rfl⟩

def pen (st : Style (List Blot)) (t : Transform) : List Nib := if strokedB (st .stroke) then nibs t (seenStroke st) else []

def drawShape (e : EId) (as : Attrs (List Blot)) (st : Style (List Blot)) (t : Transform) (kids : List Blot) : List Blot :=
  match trail (strokedB (st .stroke) || markedB st) (geometry oneUnit (rebuilt e as)) with
  | none => []
  | some tr => .shape (tr.place t) (takesMarkers (.elem e) && markedB st) (pen st t) (ink (st .fill)) 1 :: kids

def onePort : Viewport := ⟨fun _ _ => 1, fun _ => rfl⟩

def ovalOf (st : Style (List Blot)) (t : Transform) (kids : List Blot) : Option Figure → List Blot
  | some (.ellipse cx cy rx ry) => .oval (t.pt (cx, cy)) (t.a * rx, t.b * rx) (t.c * ry, t.d * ry) (pen st t) (ink (st .fill)) 1 :: kids
  | _ => []

def drawOval (e : EId) (as : Attrs (List Blot)) (st : Style (List Blot)) (t : Transform) (kids : List Blot) : List Blot :=
  ovalOf st t kids (figure onePort (rebuilt e as))

theorem ink_update {st : Style (List Blot)} {a : AId} {v : Value} (h : ink (st a) = some v) (b : AId) :
    ink (Function.update st a (some (.plain v)) b) = ink (st b) := by
  by_cases hb : b = a
  · subst hb; rw [h]; simp [ink]
  · rw [Function.update_of_ne hb]

theorem drawShape_update {e : EId} {as : Attrs (List Blot)} {st : Style (List Blot)} {t : Transform} {kids : List Blot} {a : AId} {v : Value}
    (ha : a = .fill ∨ a = .stroke) (h : ink (st a) = some v) (hs : strokedB (st a) = decide (v ≠ .kw .none)) :
    drawShape e as st t kids = drawShape e as (Function.update st a (some (.plain v))) t kids ∧
    drawOval e as st t kids = drawOval e as (Function.update st a (some (.plain v))) t kids := by
  have h1 : markedB (Function.update st a (some (.plain v))) = markedB st := by
    unfold markedB
    have : ∀ b ∈ markerAttrs, Function.update st a (some (.plain v)) b = st b := by
      intro b hb
      refine Function.update_of_ne (fun e => ?_) _ _
      subst e
      simp only [markerAttrs, List.mem_cons, List.not_mem_nil, or_false] at hb
      rcases ha with rfl | rfl <;> simp at hb
    simp only [markerAttrs, List.any_cons, List.any_nil]
    rw [this .marker (by simp [markerAttrs]), this .markerStart (by simp [markerAttrs]), this .markerMid (by simp [markerAttrs]), this .markerEnd (by simp [markerAttrs])]
  have h2 : strokedB (Function.update st a (some (.plain v)) .stroke) = strokedB (st .stroke) := by
    rcases ha with rfl | rfl
    · rw [Function.update_of_ne (by decide)]
    · rw [hs]; simp [strokedB]
  have h3 : ∀ t, pen (Function.update st a (some (.plain v))) t = pen st t := by
    intro t
    unfold pen
    rw [h2]
    unfold seenStroke
    rw [Function.update_of_ne (by rcases ha with rfl | rfl <;> decide), Function.update_of_ne (by rcases ha with rfl | rfl <;> decide),
      Function.update_of_ne (by rcases ha with rfl | rfl <;> decide)]
  constructor
  · unfold drawShape
    rw [h1, h2, h3, ink_update h]
  · unfold drawOval ovalOf
    rw [h3, ink_update h]

theorem ink_solid {q : List Blot} (h : q ≠ []) : strokedB (some (.ref q)) = true := by simp [strokedB, h]

theorem geometry_noPath {as : Attrs (List Blot)} (h : ∀ s p, as (.id .d) ≠ some (.plain (.path (s :: p)))) :
    geometry oneUnit (rebuilt .path as) = .outline [] := by
  have hg := rebuilt_get .path as (a := .d) (by decide)
  unfold geometry
  simp only [rebuilt]
  change (match (rebuilt .path as).get .d with | some (.path p) => Geometry.outline (trace p) | _ => .outline []) = _
  rw [hg]
  cases hd : as (.id .d) with
  | none => rfl
  | some s =>
    cases s with
    | ref p => rfl
    | plain v =>
      cases v with
      | path p =>
        cases p with
        | nil => rfl
        | cons s p => exact absurd hd (h s p)
      | _ => rfl

theorem geometry_noRect {as : Attrs (List Blot)} {u : LUnit}
    (h : as (.id .width) = some (.plain (.length ⟨0, u⟩)) ∨ as (.id .height) = some (.plain (.length ⟨0, u⟩))) :
    geometry oneUnit (rebuilt .rect as) = .outline [] := by
  have h1 := rebuilt_get .rect as (a := .width) (by decide)
  have h2 := rebuilt_get .rect as (a := .height) (by decide)
  have : oneUnit.coord true (rebuilt .rect as) .width ≤ 0 ∨ oneUnit.coord false (rebuilt .rect as) .height ≤ 0 := by
    rcases h with h | h
    · left; unfold Units.coord; rw [h1, h]; simp [unseen]
    · right; unfold Units.coord; rw [h2, h]; simp [unseen]
  unfold geometry
  exact if_pos this

theorem trail_nil (b : Bool) : trail b (.outline []) = none := by cases b <;> rfl

theorem drawShape_noPath {as : Attrs (List Blot)} {st : Style (List Blot)} {t : Transform} {kids : List Blot}
    (h : ∀ s p, as (.id .d) ≠ some (.plain (.path (s :: p)))) : drawShape .path as st t kids = [] := by
  unfold drawShape; rw [geometry_noPath h, trail_nil]

theorem drawShape_noRect {as : Attrs (List Blot)} {st : Style (List Blot)} {t : Transform} {kids : List Blot} {u : LUnit}
    (h : as (.id .width) = some (.plain (.length ⟨0, u⟩)) ∨ as (.id .height) = some (.plain (.length ⟨0, u⟩))) : drawShape .rect as st t kids = [] := by
  unfold drawShape; rw [geometry_noRect h, trail_nil]

/-- What the renderer does with elements other than shapes. -/
def drawElem (e : EId) (as : Attrs (List Blot)) (st : Style (List Blot)) (t : Transform) (kids : List Blot) : List Blot :=
  match e with
  | .clipPath => kids
  | .linearGradient | .radialGradient | .filter => if Seen.isRef (as (.id .xlinkHref)) then .elem e (ink (st .fill)) t 1 :: kids else kids
  | .stop => [.stop (Seen.value (as (.id .stopColor))) (Seen.value (as (.id .stopOpacity)))]
  | _ => .elem e (ink (st .fill)) t 1 :: kids

def isOval : EId → Bool
  | .circle | .ellipse => true
  | _ => false

def drawAny (e : EId) (as : Attrs (List Blot)) (st : Style (List Blot)) (t : Transform) (kids : List Blot) : List Blot :=
  if isShape e then drawShape e as st t kids else if isOval e then drawOval e as st t kids else drawElem e as st t kids

theorem drawAny_update {e : EId} {as : Attrs (List Blot)} {st : Style (List Blot)} {t : Transform} {kids : List Blot} {a : AId} {v : Value}
    (ha : a = .fill ∨ a = .stroke) (h : ink (st a) = some v) (hs : strokedB (st a) = decide (v ≠ .kw .none)) :
    drawAny e as st t kids = drawAny e as (Function.update st a (some (.plain v))) t kids := by
  unfold drawAny
  rw [(drawShape_update ha h hs).1, (drawShape_update (e := e) ha h hs).2]
  unfold drawElem
  rw [ink_update h]

theorem solid_ink {c : Nat × Nat × Nat} {q : List Blot}
    (h : Solid (fun e as st t (l : List (Pic (List Blot))) => drawAny e as st t (l.map (·.pic)).flatten) c q) :
    ink (some (.ref q)) = some (.color c.1 c.2.1 c.2.2) ∧ strokedB (some (.ref q)) = true := by
  obtain ⟨e', as', st', t', ch, as2, st2, t2, l2, he, hx, hc, ho, rfl⟩ := h
  rcases he with rfl | rfl <;> simp [drawAny, drawElem, isShape, isOval, ink, strokedB, hx, hc, ho, Seen.value]

/-- A renderer that writes down the corners of the shapes it draws. -/
def plotter : Painter (List Blot) where
  empty := []
  over p q := p ++ q
  fade q p := p.map (Blot.fade q)
  effect _ c f _ p := if blank c || blank f then [] else p
  cond _ v := decide (v ≠ .str "no")
  measure l := l.num
  chars s _ _ := [.text s 1]
  frame _ _ _ _ p := p
  paint e as st t l := drawAny e as st t (l.map (·.pic)).flatten
  foreign _ _ _ _ _ := []
  empty_over _ := rfl
  over_empty p := List.append_nil p
  over_assoc := List.append_assoc
  fade_one p := by
    have : Blot.fade 1 = id := by funext x; cases x <;> simp [Blot.fade]
    rw [this, List.map_id]
  fade_fade a b p := by
    rw [List.map_map]
    congr 1
    funext x
    cases x <;> simp [Blot.fade, mul_assoc]
  fade_empty _ := rfl
  no_effect m c f t p _ hc hf := by
    have h : ∀ x : Option (Seen (List Blot)), Seen.isRef x = false → blank x = false := by
      intro x hx
      match x with
      | none | some (.plain _) => rfl
      | some (.ref _) => cases hx
    simp [h c hc, h f hf]
  effect_empty _ _ _ _ _ := ite_self _
  measure_user _ := rfl
  paint_skip e as st t l x l' _ _ h := by simp [h]
  paint_desc e as st t l x l' _ h := by simp [h]
  no_path as st t l h := drawShape_noPath h
  no_rect as st t l u h := drawShape_noRect h
  no_clip _ _ _ := rfl
  clip_all m f t p := by simp [blank]
  no_filter as st t h := by simp [drawAny, isShape, isOval, drawElem, h]
  filter_all m c t p := by simp [blank]
  paint_none e as st t l a q ha h hq := by
    obtain rfl : q = [] := by
      obtain ⟨e', as', st', t', he, hx, rfl⟩ := hq
      rcases he with rfl | rfl <;> simp [drawAny, isShape, isOval, drawElem, hx]
    exact drawAny_update ha (by rw [h]; rfl) (by rw [h]; rfl)
  chars_none _ _ _ _ _ _ _ _ := rfl
  foreign_none _ _ _ _ _ _ _ _ _ _ := rfl
  paint_solid e as st t l a q r g b ha h hq := drawAny_update ha (by rw [h]; exact (solid_ink hq).1) (by rw [h, (solid_ink hq).2]; rfl)
  chars_solid _ _ _ _ _ _ _ _ _ _ _ := rfl
  foreign_solid _ _ _ _ _ _ _ _ _ _ _ _ _ := rfl

theorem markedB_of {st : Style (List Blot)} (h : Unmarked st) : markedB st = false := by
  unfold markedB
  rw [List.any_eq_false]
  intro a ha
  rw [h a ha]
  decide

theorem reshaped_paint {env : Env (List Blot)} {n m : Node} {e e' : EId} {st : Style (List Blot)} {t : Transform} {kids : List Blot} (he : n.kind = .elem e)
    (he' : m.kind = .elem e') (hr : Reshaped n m)
    (ht : trail (strokedB (st .stroke) || markedB st) (geometry oneUnit m) = trail (strokedB (st .stroke) || markedB st) (geometry oneUnit n))
    (hm : (takesMarkers (.elem e) && markedB st) = (takesMarkers (.elem e') && markedB st)) :
    drawAny e (own env n) st t kids = drawAny e' (own env m) st t kids := by
  obtain ⟨h1, h2⟩ := hr.shapes
  rw [he] at h1
  rw [he'] at h2
  have h1 : isShape e = true := h1
  have h2 : isShape e' = true := h2
  unfold drawAny
  rw [if_pos h1, if_pos h2]
  unfold drawShape
  rw [geometry_congr oneUnit h1 he rfl fun a ha => rebuilt_own env e n (List.mem_append_left _ ha), geometry_congr oneUnit h2 he' rfl fun a ha => rebuilt_own env e' m (List.mem_append_left _ ha), ht, hm]

/-- It draws shapes by their outlines. -/
theorem plotter_plots : Plots plotter oneUnit := by
  refine ⟨fun env n m e e' st t l he he' hr hg hm => ?_, fun env n m e e' st t l he he' hr hg h1 h2 => ?_⟩
  · refine reshaped_paint he he' hr (trail_trace hg) ?_
    rcases hm with hm | hm
    · rw [he, he'] at hm; rw [hm]
    · rw [markedB_of hm, Bool.and_false, Bool.and_false]
  · have hb : (strokedB (st .stroke) || markedB st) = false := by
      rw [markedB_of h1, Bool.or_false]
      rcases h2 with h | h <;> rw [h] <;> rfl
    refine reshaped_paint he he' hr (by rw [hb]; exact trail_area hg) ?_
    rw [markedB_of h1, Bool.and_false, Bool.and_false]

/-! ### Cases -/

/-- **C68** as it is stated, for shapes. -/
def C68_shapes_full : Prop := ∀ f g : Forest, (∀ n ∈ f.nodes, ShapeOk n) → convertShapes f = some g → SamePlot f g

/-- A rectangle that inherits a marker: as a path it shows the marker. -/
theorem C68_refuted_markers : ¬ C68_shapes_full := by
  intro h
  have := h ConvShapes.markedRect ((convertShapes ConvShapes.markedRect).getD .nil) ?_ ?_ _ plotter oneUnit plotter_plots 0
  · revert this; decide +kernel
  · intro n hn
    simp [ConvShapes.markedRect] at hn
    rcases hn with rfl | rfl | rfl <;>
      simp [ShapeOk, Stops.NotNegative, Node.get, getAttr] <;> (try (constructor <;> rintro l rfl <;> norm_num))
  · decide +kernel

/-- **C68** as it is stated, for paths. -/
def C68_paths_full : Prop := ∀ (o : PathOpts) (f g : Forest),
  (∀ n ∈ f.nodes, ∀ p, n.kind = .elem .path → n.get .d = some (.path p) → p = [] ∨ StartsWithMove p) → processPaths false o f = some g → SamePlot f g

/-- `<path stroke="#000000" stroke-linecap="round" d="M 1 1 L 1 1"/>`: a dot. -/
def dot : Forest := .cons ⟨1, .elem .path, "", [⟨.id .stroke, .color 0 0 0, true⟩, ⟨.id .strokeLinecap, .str "round", true⟩,
  ⟨.id .d, .path [⟨true, .moveTo 1 1⟩, ⟨true, .lineTo 1 1⟩], true⟩]⟩ .nil .nil

/-- A stroked path of length zero is a dot, if its ends are round; "unused segments" takes it away. -/
theorem C68_refuted_dot : ¬ C68_paths_full := by
  intro h
  have := h ⟨false, true⟩ dot ((processPaths false ⟨false, true⟩ dot).getD .nil) ?_ ?_ _ plotter oneUnit plotter_plots 0
  · revert this; decide +kernel
  · intro n hn p hk hp
    simp [dot] at hn
    subst hn
    simp [Node.get, getAttr] at hp
    subst hp
    exact .inr ⟨true, 1, 1, _, rfl⟩
  · decide +kernel

/-- A path that inherits its markers loses a segment, and with it a marker. -/
theorem C68_refuted_inherited_marker : ¬ C68_paths_full := by
  intro h
  have := h ⟨false, true⟩ ApplyTs.markedGroup ((processPaths false ⟨false, true⟩ ApplyTs.markedGroup).getD .nil) ?_ ?_ _ plotter oneUnit plotter_plots 0
  · revert this; decide +kernel
  · intro n hn p hk hp
    simp [ApplyTs.markedGroup] at hn
    rcases hn with rfl | rfl
    · cases hk
    · simp [Node.get, getAttr, ApplyTs.elem] at hp
      subst hp
      exact .inr ⟨true, 1, 1, _, rfl⟩
  · decide +kernel

/-- A group with a marker and a line, a rectangle, a polygon in a clip path that another rectangle uses, and a `use` of the first rectangle. -/
def shapesDoc : Forest :=
  .cons ⟨1, .elem .svg, "", []⟩
    (.cons ⟨2, .elem .marker, "m", []⟩ .nil
    (.cons ⟨3, .elem .clipPath, "c", []⟩
      (.cons ⟨4, .elem .polygon, "", [⟨.id .points, .numberList [0, 0, 3, 0, 3, 4], true⟩]⟩ .nil .nil)
    (.cons ⟨5, .elem .g, "", [⟨.id .markerEnd, .funcLink 2, true⟩]⟩
      (.cons ⟨6, .elem .line, "", [⟨.id .x2, .length ⟨5, .none⟩, true⟩, ⟨.id .stroke, .color 1 2 3, true⟩]⟩ .nil .nil)
    (.cons ⟨7, .elem .rect, "r", [⟨.id .width, .length ⟨1, .none⟩, true⟩, ⟨.id .height, .length ⟨2, .none⟩, true⟩, ⟨.id .clipPath, .funcLink 3, true⟩]⟩ .nil
    (.cons ⟨8, .elem .use, "", [⟨.id .xlinkHref, .link 7, true⟩, ⟨.id .x, .length ⟨9, .none⟩, true⟩]⟩ .nil .nil)))))
  .nil

example : (∀ n ∈ shapesDoc.nodes, ShapeOk n) ∧ ShapesPlaced shapesDoc ∧
    Everywhere markedAfter (fun marked n => marked = true → n.kind ≠ .elem .rect ∧ n.kind ≠ .elem .use) false shapesDoc ∧
    ((convertShapes shapesDoc).map fun g => g.nodes.map fun n => n.isTag .path) = some [false, false, false, true, false, true, true, false] := by
  refine ⟨?_, ?_, ?_, by decide +kernel⟩
  · intro n hn
    simp [shapesDoc] at hn
    rcases hn with rfl | rfl | rfl | rfl | rfl | rfl | rfl | rfl <;>
      simp [ShapeOk, Stops.NotNegative, Node.get, getAttr] <;> (try (constructor <;> rintro l rfl <;> norm_num))
  · unfold ShapesPlaced; decide +kernel
  · simp only [shapesDoc, Everywhere]
    decide +kernel

/-- What the renderer writes down: the line with its marker, the rectangle and its copy. -/
example : picture plotter 2 shapesDoc = [.shape (.pen [((0, 0), (0, 0)), ((0, 0), (5, 0))]) true [((1, 0), (0, 1), .none), ((0, 0), (0, 0), .none)] none 1,
    .shape (.area [((0, 0), (1, 0)), ((1, 0), (1, 2)), ((1, 2), (0, 2)), ((0, 2), (0, 0))]) false [] none 1,
    .shape (.area [((9, 0), (10, 0)), ((10, 0), (10, 2)), ((10, 2), (9, 2)), ((9, 2), (9, 0))]) false [] none 1] := by decide +kernel

/-- Filled paths with segments that are removed, and a stroked path with a marker of its own. -/
def pathsDoc : Forest :=
  .cons ⟨1, .elem .svg, "", []⟩
    (.cons ⟨2, .elem .marker, "m", []⟩ .nil
    (.cons ⟨3, .elem .path, "", [⟨.id .d, .path [⟨true, .moveTo 0 0⟩, ⟨true, .lineTo 0 0⟩, ⟨true, .lineTo 4 4⟩, ⟨true, .lineTo 9 0⟩, ⟨true, .close⟩], true⟩]⟩ .nil
    (.cons ⟨4, .elem .path, "", [⟨.id .stroke, .color 1 2 3, true⟩, ⟨.id .markerMid, .funcLink 2, true⟩,
      ⟨.id .d, .path [⟨true, .moveTo 1 1⟩, ⟨true, .lineTo 1 1⟩, ⟨true, .hline 5⟩], true⟩]⟩ .nil
    (.cons ⟨5, .elem .use, "", [⟨.id .xlinkHref, .link 3, true⟩]⟩ .nil .nil))))
  .nil

theorem noLoops_lines {bad : Paths.Kind → Bool} (l : List Event) (hl : ∀ e ∈ l, ∀ k c, e = .draw k c → k = .line ∧ ∃ p q, c = .line p q)
    (hb : bad .line = false) : NoLoops bad l := by
  induction l with
  | nil => trivial
  | cons e t ih =>
    refine ⟨fun k c he hs => ?_, ih fun x hx => hl x (List.mem_cons_of_mem _ hx)⟩
    obtain ⟨_, p, q, rfl⟩ := hl e List.mem_cons_self k c he
    refine ⟨by simpa [Curve.degenerate, Curve.src, Curve.fin] using hs, fun _ k' c' v ht => ?_⟩
    rw [(hl (.draw k' c') (by rw [ht]; simp) k' c' rfl).1]
    exact hb

theorem controls_lines (l : List Event) (hl : ∀ e ∈ l, ∀ k c, e = .draw k c → k = .line ∧ ∃ p q, c = .line p q) : ControlsBetween l := by
  induction l with
  | nil => trivial
  | cons e t ih =>
    refine ⟨fun p c1 c2 q he => ?_, ih fun x hx => hl x (List.mem_cons_of_mem _ hx)⟩
    obtain ⟨_, p', q', e2⟩ := hl e List.mem_cons_self _ _ he
    cases e2

example : Everywhere paintAfter (fun v n => PathOk ⟨true, true⟩ v n ∧ (True → n.kind = .elem .use → v = (false, false))) (false, false) pathsDoc := by
  have line : ∀ l : List Event, (l.all fun e => match e with | .draw .line (.line _ _) => true | .draw _ _ => false | _ => true) = true →
      ∀ e ∈ l, ∀ k c, e = .draw k c → k = Paths.Kind.line ∧ ∃ p q, c = .line p q := by
    intro l hl e he k c h
    have := List.all_eq_true.1 hl e he
    rw [h] at this
    split at this
    · rename_i e2; cases e2; exact ⟨rfl, _, _, rfl⟩
    · cases this
    · rename_i h1 h2; exact absurd rfl (h2 _ _)
  refine ⟨⟨by rintro ⟨⟩, by rintro _ ⟨⟩⟩, ⟨⟨by rintro ⟨⟩, by rintro _ ⟨⟩⟩, trivial, ⟨⟨?_, by rintro _ ⟨⟩⟩, trivial, ⟨⟨?_, by rintro _ ⟨⟩⟩, trivial, ⟨⟨by rintro ⟨⟩, fun _ _ => by decide +kernel⟩, trivial, trivial⟩⟩⟩⟩, trivial⟩
  · intro _ p hp
    simp [Node.get, getAttr] at hp
    subst hp
    refine .inr ⟨⟨true, 0, 0, _, rfl⟩, fun _ => controls_lines _ (line _ (by decide +kernel)), fun _ => .inr ⟨by decide +kernel, noLoops_lines _ (line _ (by decide +kernel)) rfl⟩⟩
  · intro _ p hp
    simp [Node.get, getAttr] at hp
    subst hp
    exact .inr ⟨⟨true, 1, 1, _, rfl⟩, fun _ => controls_lines _ (line _ (by decide +kernel)), fun _ => .inl ⟨.markerMid, by simp [markerAttrs], by decide +kernel⟩⟩

end Verif.Plot
