import Verif.ShadeChain
import Verif.RegroupCases
import Verif.MergeCases
import Verif.DuplCases
import Verif.GradUnitsProps
import Mathlib.Tactic.NormNum
/-
C72: a renderer that shades, and documents that meet the conditions.
-/
namespace Verif.Shade
open Verif.Dom Verif.Spec Verif.Render Verif.Reader
open Verif.Paths (Transform Pt)

/-! ### A renderer -/

/-- A paint: a value, or a gradient: its kind, units, spread method, stops, and the offset of each point. -/
inductive Ink
  | flat (v : Value)
  | shade (e : EId) (units spread : Option Value) (stops : List StopLook) (at_ : ApplyTs.Viewport → Pt → ℚ → Prop)

/-- What the renderer writes down. -/
inductive Wash
  | grad (l : GLook)
  | stop (s : StopLook)
  | text (s : String) (fill : Option Ink) (opacity : ℚ)
  | shape (e : EId) (width : Option Value) (fill stroke : Option Ink) (t : Transform) (opacity : ℚ)

def Wash.fade (q : ℚ) : Wash → Wash
  | .grad l => .grad l
  | .stop s => .stop s
  | .text s i o => .text s i (q * o)
  | .shape e w i j t o => .shape e w i j t (q * o)

/-- The paint of a gradient: none without stops, a colour if there is one opaque stop. -/
def GLook.ink (l : GLook) : Ink :=
  match l.stops with
  | [] => .flat (.kw .none)
  | [s] => if s.opacity = .number 1 then .flat s.colour else .shade l.kind (l.value .gradientUnits) (l.value .spreadMethod) l.stops (fun u q t => l.At u q t)
  | _ => .shade l.kind (l.value .gradientUnits) (l.value .spreadMethod) l.stops (fun u q t => l.At u q t)

theorem Alike.ink {l m : GLook} (h : Alike l m) : l.ink = m.ink := by
  have e : (fun u q t => l.At u q t) = fun u q t => m.At u q t := by
    funext u q t
    exact propext (h.offsets u q t)
  unfold GLook.ink
  rw [h.kind, h.units, h.spread, h.stops, e]

def inkOf : Option (Seen (List Wash)) → Option Ink
  | some (.plain v) => some (.flat v)
  | some (.ref [.grad l]) => some l.ink
  | _ => none

def firstGrad : Option (Seen (List Wash)) → Option GLook
  | some (.ref [.grad l]) => some l
  | _ => none

def stopsIn (l : List (Pic (List Wash))) : List StopLook :=
  l.filterMap fun x => if x.kind = .elem .stop then match x.pic with | [.stop s] => some s | _ => none else none

def gradLook (e : EId) (as : Attrs (List Wash)) (s : List StopLook) : GLook :=
  match firstGrad (as (.id .xlinkHref)) with
  | none => ⟨e, plainAttr as, s⟩
  | some l => ⟨e, fun a => (plainAttr as a).or (l.attr a), if s = [] then l.stops else s⟩

def blank : Option (Seen (List Wash)) → Bool
  | some (.ref []) => true
  | _ => false

def washShape (e : EId) (as : Attrs (List Wash)) (st : Style (List Wash)) (t : Transform) : Wash :=
  .shape e (plainAttr as .width) (inkOf (st .fill)) (inkOf (st .stroke)) t 1

theorem firstGrad_plain {x : Option (Seen (List Wash))} (h : Seen.isRef x = false) : firstGrad x = none := by
  match x with
  | none | some (.plain _) => rfl
  | some (.ref _) => cases h

theorem gradLook_plain {e : EId} {as : Attrs (List Wash)} {s : List StopLook} (h : Seen.isRef (as (.id .xlinkHref)) = false) :
    gradLook e as s = ⟨e, plainAttr as, s⟩ := by
  unfold gradLook
  rw [firstGrad_plain h]

theorem inkOf_update {st : Style (List Wash)} {a : AId} {s w : Option (Seen (List Wash))} (h : st a = s) (e : inkOf w = inkOf s) (b : AId) :
    inkOf (Function.update st a w b) = inkOf (st b) := by
  by_cases hb : b = a
  · subst hb; rw [Function.update_self, e, h]
  · rw [Function.update_of_ne hb]

theorem washShape_update {e : EId} {as : Attrs (List Wash)} {st : Style (List Wash)} {t : Transform} {a : AId} {s w : Option (Seen (List Wash))}
    (h : st a = s) (hi : inkOf w = inkOf s) : washShape e as (Function.update st a w) t = washShape e as st t := by
  unfold washShape
  rw [inkOf_update h hi, inkOf_update h hi]

/-- A renderer that writes down the shapes with their paints. -/
def artist : Painter (List Wash) where
  empty := []
  over p q := p ++ q
  fade q p := p.map (Wash.fade q)
  effect _ c f _ p := if blank c || blank f then [] else p
  cond _ v := decide (v ≠ .str "no")
  measure l := l.num
  chars s st _ := [.text s (inkOf (st .fill)) 1]
  frame _ _ _ _ p := p
  paint e as st t l :=
    let kids := (l.map (·.pic)).flatten
    match e with
    | .clipPath => kids
    | .linearGradient => [.grad (gradLook .linearGradient as (stopsIn l))]
    | .radialGradient => [.grad (gradLook .radialGradient as (stopsIn l))]
    | .stop => [.stop (stopLook as)]
    | .filter => match as (.id .width) with
      | some (.plain (.length ⟨0, _⟩)) => []
      | _ => if Seen.isRef (as (.id .xlinkHref)) then washShape e as st t :: kids else kids
    | .path => match as (.id .d) with
      | some (.plain (.path (_ :: _))) => washShape e as st t :: kids
      | _ => []
    | .rect => match as (.id .width), as (.id .height) with
      | some (.plain (.length ⟨0, _⟩)), _ | _, some (.plain (.length ⟨0, _⟩)) => []
      | _, _ => washShape e as st t :: kids
    | _ => washShape e as st t :: kids
  foreign _ _ _ _ _ := []
  empty_over _ := rfl
  over_empty p := List.append_nil p
  over_assoc := List.append_assoc
  fade_one p := by
    have : Wash.fade 1 = id := by funext x; cases x <;> simp [Wash.fade]
    rw [this, List.map_id]
  fade_fade a b p := by
    rw [List.map_map]
    congr 1
    funext x
    cases x <;> simp [Wash.fade, mul_assoc]
  fade_empty _ := rfl
  no_effect m c f t p _ hc hf := by
    have h : ∀ x : Option (Seen (List Wash)), Seen.isRef x = false → blank x = false := by
      intro x hx
      match x with
      | none | some (.plain _) => rfl
      | some (.ref _) => cases hx
    simp [h c hc, h f hf]
  effect_empty _ _ _ _ _ := ite_self _
  measure_user _ := rfl
  paint_skip e as st t l x l' he _ h := by
    have : (List.map (·.pic) (l ++ x :: l')).flatten = (List.map (·.pic) (l ++ l')).flatten := by simp [h]
    dsimp only
    rw [this]
    cases e <;> first | rfl | cases he
  paint_desc e as st t l x l' hx h := by
    have h1 : (List.map (·.pic) (l ++ x :: l')).flatten = (List.map (·.pic) (l ++ l')).flatten := by simp [h]
    have h2 : stopsIn (l ++ x :: l') = stopsIn (l ++ l') := by
      have : x.kind ≠ .elem .stop := by intro e; rw [e] at hx; cases hx
      simp [stopsIn, List.filterMap_append, this]
    dsimp only
    rw [h1, h2]
  no_path as st t l h := by
    dsimp only
    split
    next s p hp => exact absurd hp (h s p)
    next => rfl
  no_rect as st t l u h := by
    dsimp only
    split
    · rfl
    · rfl
    next h1 h2 => exact (h.elim (h1 u) (h2 u)).elim
  no_clip _ _ _ := rfl
  clip_all m f t p := by simp [blank]
  no_filter as st t h := by
    simp only [h]
    split <;> simp
  filter_all m c t p := by simp [blank]
  paint_none e as st t l a q ha h hq := by
    have hi : inkOf (some (.plain (.kw .none))) = inkOf (some (.ref q)) := by
      obtain ⟨e', as', st', t', he, hx, rfl⟩ := hq
      rcases he with rfl | rfl <;> simp [inkOf, gradLook_plain hx, stopsIn, GLook.ink]
    have hw : ∀ e, washShape e as (Function.update st a (some (.plain (.kw .none)))) t = washShape e as st t := fun e => washShape_update h hi
    simp only [hw]
  chars_none s st t a q ha h hq := by
    have hi : inkOf (some (.plain (.kw .none))) = inkOf (some (.ref q)) := by
      obtain ⟨e', as', st', t', he, hx, rfl⟩ := hq
      rcases he with rfl | rfl <;> simp [inkOf, gradLook_plain hx, stopsIn, GLook.ink]
    rw [inkOf_update h hi]
  foreign_none _ _ _ _ _ _ _ _ _ _ := rfl
  paint_solid e as st t l a q r g b ha h hq := by
    have hi : inkOf (some (.plain (.color r g b))) = inkOf (some (.ref q)) := by
      obtain ⟨e', as', st', t', ch, as2, st2, t2, l2, he, hx, hc, ho, rfl⟩ := hq
      rcases he with rfl | rfl <;> simp [inkOf, gradLook_plain hx, stopsIn, GLook.ink, stopLook, plainAttr, hc, ho]
    have hw : ∀ e, washShape e as (Function.update st a (some (.plain (.color r g b)))) t = washShape e as st t := fun e => washShape_update h hi
    simp only [hw]
  chars_solid s st t a q r g b ha h hq := by
    have hi : inkOf (some (.plain (.color r g b))) = inkOf (some (.ref q)) := by
      obtain ⟨e', as', st', t', ch, as2, st2, t2, l2, he, hx, hc, ho, rfl⟩ := hq
      rcases he with rfl | rfl <;> simp [inkOf, gradLook_plain hx, stopsIn, GLook.ink, stopLook, plainAttr, hc, ho]
    rw [inkOf_update h hi]
  foreign_solid _ _ _ _ _ _ _ _ _ _ _ _ _ := rfl

/-- It sees gradients as the standard describes them. -/
theorem artist_shows {q : List Wash} {l : GLook} (h : Shows artist q l) : q = [.grad l] := by
  have stops : ∀ {kids s}, StopsOf artist kids s → stopsIn kids = s := by
    intro kids s h
    induction h with
    | nil => rfl
    | stop _ ih => simp [stopsIn, artist] at ih ⊢; exact ih
    | skip hx _ ih => simpa [stopsIn, hx] using ih
  induction h with
  | root he hx hs =>
    rw [← stops hs]
    rcases he with rfl | rfl <;> simp [artist, gradLook, hx, firstGrad]
  | more he hx _ hs ih =>
    rw [← stops hs]
    subst ih
    rcases he with rfl | rfl <;> simp [artist, gradLook, hx, firstGrad]

/-- The laws of gradients can be met by a renderer to which nothing but the paint is the same. -/
theorem artist_shades : Shades artist := by
  have ink : ∀ {q r : List Wash}, SamePaint artist q r → inkOf (some (.ref r)) = inkOf (some (.ref q)) := by
    rintro q r ⟨l, m, hl, hm, _, _, h⟩
    rw [artist_shows hl, artist_shows hm]
    simp [inkOf, h.ink]
  refine ⟨fun e as st t l a q r _ h hs => ?_, fun s st t a q r _ h hs => ?_, fun _ _ _ _ _ _ _ _ _ _ _ => rfl⟩
  · have hw : ∀ e, washShape e as (Function.update st a (some (.ref r))) t = washShape e as st t := fun e => washShape_update h (ink hs)
    simp only [artist, hw]
  · simp only [artist, inkOf_update h (ink hs)]

/-! ### Documents -/

def isLen : Option Value → Bool
  | some (.length _) | none => true
  | _ => false

def isTrans : Option Value → Bool
  | some (.transform _) | none => true
  | _ => false

def linkB (f : Forest) (n : Node) (x : Attr) : Bool :=
  match x.value.target with
  | none => true
  | some k => (decide (x.name = .id .fill) || decide (x.name = .id .stroke)) && isElem n.kind && f.nodes.any fun m => decide (m.key = k) && m.isGradient

/-- A check of `Sheet`, by evaluation. -/
def sheetB (f : Forest) (rank : Nat → Nat) : Bool :=
  decide f.UniqueKeys && ApplyTs.hrefCheck f rank && (f.nodes.all fun n => n.attrs.all fun x => x.visible) &&
  (f.nodes.all fun n => !n.isGradient || (Invisible.plainEffects n &&
    ([AId.x1, .y1, .x2, .y2, .cx, .cy, .r, .fx, .fy].all fun a => isLen (n.get a)) && isTrans (n.get .gradientTransform) &&
    n.attrs.all fun x => decide (x.name = .id .xlinkHref) || decide (x.value.target = none))) &&
  ((subs f).all fun x => !x.1.isGradient || (stopKids x.2).all fun s => plainStop s && decide (s.get .stopColor ≠ some (.kw .currentColor)) &&
    s.attrs.all fun y => decide (y.value.target = none)) &&
  ((drawn f).nodes.all fun n => n.attrs.all fun x => linkB f n x) && (fringe top f).all fun z => gone z.1 z.2

theorem getAttr_has {as : List Attr} {x : AName} {y : Attr} (h : getAttr as x = some y) : y ∈ as ∧ y.name = x := by
  unfold getAttr at h
  exact ⟨List.mem_of_find?_eq_some h, by simpa using List.find?_some h⟩

theorem get_has {n : Node} {a : AId} {v : Value} (h : n.get a = some v) : ∃ y ∈ n.attrs, y.name = .id a ∧ y.value = v := by
  unfold Node.get at h
  cases hx : getAttr n.attrs (.id a) with
  | none => rw [hx] at h; cases h
  | some y =>
    rw [hx] at h
    obtain ⟨h1, h2⟩ := getAttr_has hx
    exact ⟨y, h1, h2, by simpa using h⟩

theorem sheet_of {f : Forest} {rank : Nat → Nat} (h : sheetB f rank = true) : Sheet f := by
  simp only [sheetB, Bool.and_eq_true, List.all_eq_true, decide_eq_true_eq, Bool.or_eq_true, Bool.not_eq_true'] at h
  obtain ⟨⟨⟨⟨⟨⟨h1, h2⟩, h3⟩, h4⟩, h5⟩, h6⟩, h7⟩ := h
  have h4' : ∀ n ∈ f.nodes, n.isGradient = true → _ := fun n hn hg => (h4 n hn).resolve_left (by simp [hg])
  have h5' : ∀ x ∈ subs f, x.1.isGradient = true → _ := fun x hx hg => (h5 x hx).resolve_left (by simp [hg])
  refine ⟨h1, h3, ApplyTs.hrefOk_of rank h2, fun n hn hg => (h4' n hn hg).1.1.1, fun n hn hg a ha v hv => ?_, fun n hn hg v hv => ?_, fun n hn hg a ha _ v hv => ?_,
    fun x hx hg s hs => ⟨(h5' x hx hg s hs).1.1, (h5' x hx hg s hs).1.2, fun a _ v hv => ?_⟩, fun n hn x hx k hk => ?_, h7⟩
  · have := (h4' n hn hg).1.1.2 a ha
    rw [hv] at this
    cases v <;> first | exact ⟨_, rfl⟩ | cases this
  · have := (h4' n hn hg).1.2
    rw [hv] at this
    cases v <;> first | exact ⟨_, rfl⟩ | cases this
  · obtain ⟨y, h8, h9, rfl⟩ := get_has hv
    exact ((h4' n hn hg).2 y h8).resolve_left fun e => ha (by rw [h9] at e; cases e; rfl)
  · obtain ⟨y, h8, h9, rfl⟩ := get_has hv
    exact (h5' x hx hg s hs).2 y h8
  · have := h6 n hn x hx
    unfold linkB at this
    rw [hk] at this
    simp only [Bool.and_eq_true, Bool.or_eq_true, decide_eq_true_eq, List.any_eq_true] at this
    exact ⟨this.1.1, this.1.2, this.2⟩

def pageB (f : Forest) (rank : Nat → Nat) : Bool :=
  (f.nodes.all fun n => decide (n.attrs.map Attr.name).Nodup) && sheetB (onPaper f) rank &&
  (subs f).all fun x => !x.1.isGradient || (stopKids x.2).all fun s => s.attrs.all fun y => y.visible ||
    (decide (y.name = .id .stopOpacity) && decide (y.value = .number 1)) || (decide (y.name = .id .stopColor) && decide (y.value = .color 0 0 0))

theorem page_of {f : Forest} {rank : Nat → Nat} (h : pageB f rank = true) : Page f := by
  simp only [pageB, Bool.and_eq_true, List.all_eq_true, decide_eq_true_eq, Bool.or_eq_true, Bool.not_eq_true'] at h
  obtain ⟨⟨h1, h2⟩, h3⟩ := h
  refine ⟨h1, sheet_of h2, fun x hx hg s hs y hy => ?_⟩
  have := (h3 x hx).resolve_left (by simp [hg]) s hs y hy
  rcases this with (h | h) | h
  · exact .inl h
  · exact .inr (.inl h)
  · exact .inr (.inr h)

/-- The conditions are met by the examples of the passes. -/
example : Page GradUnits.fourUnits ∧ GradUnits.Ready GradUnits.fourUnits :=
  ⟨page_of (rank := id) (by decide +kernel), GradUnits.ready_of id (by decide +kernel)⟩
example : Page Dupl.twins ∧ Dupl.Good Dupl.twins := ⟨page_of (rank := id) (by decide +kernel), Dupl.good_of (rank := id) (by decide +kernel)⟩
example : Page Dupl.radials ∧ Dupl.Good Dupl.radials := ⟨page_of (rank := id) (by decide +kernel), Dupl.good_of (rank := id) (by decide +kernel)⟩
example : Page Merge.chain ∧ Merge.Good Merge.chain ∧ Merge.mergeGradients Merge.chain = some Merge.chainAfter :=
  ⟨page_of (rank := id) (by decide +kernel), Merge.good_of (rank := id) (by decide +kernel), by decide +kernel⟩

example : Page Regroup.four ∧ Regroup.Good Regroup.four ∧ Regroup.regroup Regroup.four = some Regroup.fourAfter :=
  ⟨page_of (rank := id) (by decide +kernel), Regroup.good_of (rank := id) (by decide +kernel), by decide +kernel⟩

/-! ### Transforms -/

open Verif.Gradients (grad att)
open Verif.ApplyTs (px)

def twoStops : Forest :=
  .cons (ApplyTs.elem 10 .stop [(.offset, .number 0)]) .nil (.cons (ApplyTs.elem 11 .stop [(.offset, .number 1), (.stopColor, .color 255 0 0)]) .nil .nil)

/-- A circle of radius 10 around a centre; a second gradient that refers to it; a shape. -/
def circles (second : List Attr) : Forest :=
  .cons (ApplyTs.elem 0 .svg [])
    (.cons (grad 1 .radialGradient [att .cx (px 0), att .cy (px 0), att .fx (px 0), att .fy (px 0), att .r (px 10)]) twoStops
    (.cons (grad 2 .radialGradient (att .xlinkHref (.link 1) :: second)) .nil
    (.cons (ApplyTs.elem 3 .rect [(.fill, .funcLink 2)]) .nil .nil))) .nil

def scaled : Attr := att .gradientTransform (.transform ⟨2, 0, 0, 2, 3, 0⟩)


theorem good_resolved {f r : Forest} {rank : Nat → Nat} (hu : f.UniqueKeys) (hv : Gradients.AllVisible f) (hr : ApplyTs.hrefCheck f rank = true)
    (hl : Gradients.NoLinearToRadial f) (h : resolved f = some r) (hok : ∀ n ∈ r.nodes, ApplyTs.gradientCheck n = true ∧ ApplyTs.radiusCheck n = true) :
    ApplyTs.Good r := by
  obtain ⟨w, hw, hn⟩ := Gradients.C26_resolved_partial hu hv (ApplyTs.hrefOk_of rank hr) h
  refine (ApplyTs.resolved_good hu (ApplyTs.hrefOk_of rank hr) (g := r) ⟨w, hw, fun n hm => ?_⟩ fun n hm _ =>
    ⟨ApplyTs.gradientOk_of (hok n hm).1, ApplyTs.radiusShown_of (hok n hm).2⟩).1
  obtain ⟨a1, a2, a3, a4, a5, a6, a7⟩ := hn n hm
  exact ⟨a1, a2, a3, a4, a5, a6, fun a ha _ => a7 a ha (.inr hl)⟩

theorem circles_radial (l : List Attr) : Gradients.NoLinearToRadial (circles l) := by
  intro n hn
  simp only [circles, twoStops, Forest.nodes, List.mem_cons, List.not_mem_nil, or_false, List.append_nil, List.nil_append, List.cons_append] at hn
  rcases hn with rfl | rfl | rfl | rfl | rfl | rfl <;> intro h <;> cases h

/-- The conditions of `C72_transforms_partial` are met by a document with a transform, which goes away. -/
example : ∃ r g, resolved (circles [scaled, att .r (px 10)]) = some r ∧ Page r ∧ ApplyTs.Good r ∧ ApplyTs.applyToGradients r = some g ∧
    (g.find 2).map (fun n => (written n .r, written n .cx, n.get .gradientTransform)) = some (some (px 20), some (px 3), none) := by
  obtain ⟨r, hr⟩ := Option.isSome_iff_exists.1 (show (resolved (circles [scaled, att .r (px 10)])).isSome = true by decide +kernel)
  have hc : (resolved (circles [scaled, att .r (px 10)])).all (fun r => (r.nodes.all fun n => ApplyTs.gradientCheck n && ApplyTs.radiusCheck n) && pageB r id) = true := by
    decide +kernel
  have hg : (resolved (circles [scaled, att .r (px 10)])).all (fun r => decide (((ApplyTs.applyToGradients r).bind fun g => g.find 2).map
      (fun n => (written n .r, written n .cx, n.get .gradientTransform)) = some (some (px 20), some (px 3), none))) = true := by
    decide +kernel
  rw [hr] at hc hg
  simp only [Option.all_some, Bool.and_eq_true, List.all_eq_true, decide_eq_true_eq] at hc hg
  refine ⟨r, ?_⟩
  cases ha : ApplyTs.applyToGradients r with
  | none => rw [ha] at hg; cases hg
  | some g =>
    rw [ha] at hg
    exact ⟨g, hr, page_of hc.2, good_resolved (rank := id) (by decide) (by decide) (by decide +kernel) (circles_radial _) hr hc.1, rfl, hg⟩

/-! ### The full claim -/

/-- **C72** for transforms, without the condition that the radius is written in the element itself.  It is false. -/
def C72_transforms_full : Prop := ∀ f r g : Forest, f.UniqueKeys → Gradients.AllVisible f → HrefOk f → Gradients.NoLinearToRadial f →
  resolved f = some r → Page r → (∀ n ∈ r.nodes, n.isGradient = true → ApplyTs.GradientOk n) → ApplyTs.applyToGradients r = some g →
  SameShade (onPaper r) (onPaper g)

/-- The offsets of the fill of a single shape. -/
def fillAt : List Wash → ApplyTs.Viewport → Pt → ℚ → Prop
  | [.shape _ _ (some (.shade _ _ _ _ a)) _ _ _] => a
  | _ => fun _ _ _ => False

def plainView : ApplyTs.Viewport := ⟨fun _ _ => 1, fun _ => rfl⟩

set_option maxHeartbeats 1000000 in
theorem fill_before (d : Nat) : fillAt (picture artist (d + 2) (circles [scaled])) plainView (23, 0) 1 := by
  refine ⟨⟨2, 0, 0, 2, 3, 0⟩, (10, 0), .inl rfl, by decide +kernel, .inr ⟨rfl, 0, 0, 10, 0, 0, ⟨⟨0, .none⟩, rfl, by decide +kernel⟩, ⟨⟨0, .none⟩, rfl, by decide +kernel⟩,
    ⟨⟨10, .none⟩, rfl, by decide +kernel⟩, ⟨⟨0, .none⟩, rfl, by decide +kernel⟩, ⟨⟨0, .none⟩, rfl, by decide +kernel⟩, ?_⟩⟩
  norm_num [ApplyTs.RadialParam]

set_option maxHeartbeats 1000000 in
theorem fill_after (d : Nat) : ¬ fillAt (picture artist (d + 2) (circles [att .cx (px 3), att .cy (px 0), att .fx (px 3), att .fy (px 0)])) plainView (23, 0) 1 := by
  rintro ⟨T, p, hT, hp, ⟨hk, _⟩ | ⟨_, cx, cy, r, fx, fy, ⟨x1, h1, rfl⟩, ⟨x2, h2, rfl⟩, ⟨x3, h3, rfl⟩, ⟨x4, h4, rfl⟩, ⟨x5, h5, rfl⟩, h⟩⟩
  · cases hk
  · have e : T = one := by
      rcases hT with hT | ⟨_, hT⟩
      · cases hT
      · exact hT
    subst e
    have l1 : Value.length x1 = .length ⟨3, .none⟩ := (Option.some.inj h1).symm
    have l2 : Value.length x2 = .length ⟨0, .none⟩ := (Option.some.inj h2).symm
    have l3 : Value.length x3 = .length ⟨10, .none⟩ := (Option.some.inj h3).symm
    have l4 : Value.length x4 = .length ⟨3, .none⟩ := (Option.some.inj h4).symm
    have l5 : Value.length x5 = .length ⟨0, .none⟩ := (Option.some.inj h5).symm
    cases l1; cases l2; cases l3; cases l4; cases l5
    have hp' : p = (23, 0) := by
      rw [ApplyTs.one_pt] at hp
      exact hp
    subst hp'
    have f : ∀ d, plainView.factor d .none = 1 := fun _ => rfl
    simp only [f] at h
    norm_num [ApplyTs.RadialParam] at h

/-- **Finding.** If the radius is inherited, the shape that is painted with the gradient looks different in the file that is written. -/
theorem C72_refuted_inherited_radius : ¬ C72_transforms_full := by
  intro hfull
  obtain ⟨r, hr⟩ := Option.isSome_iff_exists.1 (show (resolved (circles [scaled])).isSome = true by decide +kernel)
  have hc : (resolved (circles [scaled])).all (fun r => (r.nodes.all ApplyTs.gradientCheck) && pageB r id && decide (onPaper r = circles [scaled]) &&
      decide ((ApplyTs.applyToGradients r).map onPaper = some (circles [att .cx (px 3), att .cy (px 0), att .fx (px 3), att .fy (px 0)]))) = true := by
    decide +kernel
  rw [hr] at hc
  simp only [Option.all_some, Bool.and_eq_true, List.all_eq_true, decide_eq_true_eq] at hc
  obtain ⟨⟨⟨h1, h2⟩, h3⟩, h4⟩ := hc
  cases ha : ApplyTs.applyToGradients r with
  | none => rw [ha] at h4; cases h4
  | some g =>
    rw [ha] at h4
    have h5 := Option.some.inj h4
    have hs := hfull _ r g (by decide) (by decide) (ApplyTs.hrefOk_of id (by decide +kernel)) (circles_radial _) hr (page_of h2)
      (fun n hn _ => ApplyTs.gradientOk_of (h1 n hn)) ha
    rw [h3, h5] at hs
    obtain ⟨D, hD⟩ := hs _ artist artist_shades
    have e := hD (D + 2) (by omega)
    exact fill_after D (e ▸ fill_before D)

end Verif.Shade
