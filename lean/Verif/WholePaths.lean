import Verif.WholeShapes
/-
C71: turning shapes into paths.
-/
namespace Verif.Whole
open Verif.Dom Verif.Spec Verif.Render Verif.Draft
open Verif.Cli (CleaningOptions)
open Verif.Paths hiding Kind size
open Verif.Paths (Transform)
open Verif.Reader (fontRelative isTextual SameRead Heeds)
open Verif.Plot (Plots SamePlot markerAttrs Everywhere markedAfter paintAfter ShapesPlaced)
open Verif.ConvShapes
open Verif.Pipeline (Along)

/-! ### Paths made of lines -/

def lineSeg : SegData → Bool
  | .moveTo _ _ | .lineTo _ _ | .hline _ | .vline _ | .close => true
  | _ => false

/-- Only lines are drawn. -/
def Lines (l : List Event) : Prop := ∀ k c, Event.draw k c ∈ l → (∃ p q, c = .line p q) ∧ badCurve k = false ∧ badSmooth k = false

theorem lines_run {p : Path} (h : ∀ s ∈ p, lineSeg s.data = true) (pen : Pen) : Lines (pen.run p) := by
  induction p generalizing pen with
  | nil => intro k c h; cases h
  | cons s t ih =>
    intro k c hm
    rw [Pen.run, List.mem_append] at hm
    rcases hm with hm | hm
    · have hs := h s List.mem_cons_self
      obtain ⟨abs, d⟩ := s
      cases d <;> first
        | (cases hs; done)
        | (simp [Pen.events] at hm; done)
        | (simp only [Pen.events, Pen.curve, List.mem_append] at hm
           rcases hm with hm | hm
           · split at hm <;> simp at hm
           · simp only [List.mem_cons, List.not_mem_nil, or_false, Event.draw.injEq, SegData.kind] at hm
             obtain ⟨rfl, rfl⟩ := hm
             exact ⟨⟨_, _, rfl⟩, rfl, rfl⟩)
        | (simp only [Pen.events, List.mem_append] at hm
           rcases hm with hm | hm
           · split at hm <;> simp at hm
           · simp at hm)
    · exact ih (fun s hs => h s (List.mem_cons_of_mem _ hs)) _ k c hm

theorem lines_controls {l : List Event} (h : Lines l) : ControlsBetween l := by
  induction l with
  | nil => trivial
  | cons e t ih =>
    refine ⟨fun p c1 c2 q he _ => ?_, ih fun k c hm => h k c (List.mem_cons_of_mem _ hm)⟩
    obtain ⟨⟨a, b, hc⟩, _⟩ := h _ _ (by rw [← he]; exact List.mem_cons_self)
    cases hc

theorem lines_loops {l : List Event} (h : Lines l) {bad : Verif.Paths.Kind → Bool} (hb : bad = badCurve ∨ bad = badSmooth) : NoLoops bad l := by
  induction l with
  | nil => trivial
  | cons e t ih =>
    refine ⟨fun k c he hs => ⟨?_, fun _ k' c' v ht => ?_⟩, ih fun k c hm => h k c (List.mem_cons_of_mem _ hm)⟩
    · obtain ⟨⟨a, b, rfl⟩, _⟩ := h k c (by rw [← he]; exact List.mem_cons_self)
      simpa [Curve.degenerate, Curve.src, Curve.fin] using hs
    · obtain ⟨_, h1, h2⟩ := h k' c' (by rw [ht]; simp)
      rcases hb with rfl | rfl
      · exact h1
      · exact h2

theorem lines_apt {o : CleaningOptions} {p : Path} (h : ∀ s ∈ p, lineSeg s.data = true) (hm : StartsWithMove p) : DataApt o p :=
  .inr ⟨hm, fun _ => lines_controls (lines_run h _), fun _ => lines_loops (lines_run h _) (by split <;> simp)⟩

/-! ### What a shape becomes -/

def polyKinds : List EId := [.line, .rect, .polyline, .polygon]

structure Became (n m : Node) : Prop where
  old : ∃ e ∈ polyKinds, n.kind = .elem e
  new : m.kind = .elem .path
  key : m.key = n.key
  attrs : ∃ (p : Path) (q : Attr → Bool), m.attrs = (n.set .d (.path p)).attrs.filter q ∧ (∀ s ∈ p, lineSeg s.data = true) ∧ StartsWithMove p

theorem rm_filter {m : Node} {as : List Attr} (h : ∃ q : Attr → Bool, m.attrs = as.filter q) (a : AId) : ∃ q : Attr → Bool, (m.rm a).attrs = as.filter q := by
  obtain ⟨q, h⟩ := h
  unfold Node.rm rmAttr
  simp only [h, List.filter_filter]
  exact ⟨_, rfl⟩

theorem became {n m : Node} (hn : n.kind = .elem .polyline ∨ n.kind = .elem .polygon → n.get .points ≠ some (.numberList [])) (h : convertNode n = some m) : m = n ∨ Became n m := by
  have poly : ∀ c e, e ∈ [EId.polyline, .polygon] → n.kind = .elem e → convertPoly c n = some m → m = n ∨ Became n m := by
    intro c e he hk h
    unfold convertPoly at h
    split at h
    next v hv =>
      obtain ⟨p, hp, rfl⟩ := Option.map_eq_some_iff.1 h
      refine .inr ⟨⟨e, by simp only [List.mem_cons, List.not_mem_nil, or_false] at he; rcases he with rfl | rfl <;> decide, hk⟩, rfl, rfl, (if c then p ++ [mkAbs .close] else p), ?_⟩
      obtain ⟨q, hq⟩ := rm_filter (m := (n.retag .path).set .d (.path (if c then p ++ [mkAbs .close] else p)))
        (as := (n.set .d (.path (if c then p ++ [mkAbs .close] else p))).attrs) ⟨fun _ => true, (List.filter_true _).symm⟩ .points
      refine ⟨q, hq, ?_⟩
      rcases pointSegs_true hp with ⟨rfl, _⟩ | ⟨x, t, hx, rfl⟩
      · simp only [List.mem_cons, List.not_mem_nil, or_false] at he
        exact absurd hv (hn (by rcases he with rfl | rfl <;> simp [hk]))
      · constructor
        · intro s hs
          cases c <;> simp only [Bool.false_eq_true, if_false, if_true, List.mem_append, List.mem_cons, List.mem_map, List.not_mem_nil, or_false] at hs
          · rcases hs with rfl | ⟨_, _, rfl⟩ <;> rfl
          · rcases hs with (rfl | ⟨_, _, rfl⟩) | rfl <;> rfl
        · cases c
          · exact ⟨_, _, _, _, rfl⟩
          · exact ⟨_, _, _, _, rfl⟩
    next => left; simpa using h.symm
  unfold convertNode at h
  split at h
  next hk =>
    replace h := Option.some.inj h
    unfold convertLine at h
    dsimp only at h
    split at h
    · right
      rw [← h]
      refine ⟨⟨.line, by decide, hk⟩, rfl, rfl, [mkAbs (.moveTo (lenOf n .x1).num (lenOf n .y1).num), mkAbs (.lineTo (lenOf n .x2).num (lenOf n .y2).num)], ?_⟩
      obtain ⟨q, hq⟩ := rm_filter (rm_filter (rm_filter (rm_filter (m := (n.set .d (.path [mkAbs (.moveTo (lenOf n .x1).num (lenOf n .y1).num),
        mkAbs (.lineTo (lenOf n .x2).num (lenOf n .y2).num)])).retag .path) ⟨fun _ => true, (List.filter_true _).symm⟩ .x1) .y1) .x2) .y2
      exact ⟨q, hq, by simp [mkAbs, lineSeg], _, _, _, _, rfl⟩
    · exact .inl h.symm
  next hk =>
    replace h := Option.some.inj h
    unfold convertRect at h
    dsimp only at h
    split at h
    · exact .inl h.symm
    · split at h
      · exact .inl h.symm
      · split at h
        · right
          rw [← h]
          refine ⟨⟨.rect, by decide, hk⟩, rfl, rfl, [mkAbs (.moveTo (lenOf n .x).num (lenOf n .y).num),
            mkAbs (.hline ((lenOf n .x).num + (lenOf n .width).num)), mkAbs (.vline ((lenOf n .y).num + (lenOf n .height).num)),
            mkAbs (.hline (lenOf n .x).num), mkAbs .close], ?_⟩
          obtain ⟨q, hq⟩ := rm_filter (rm_filter (rm_filter (rm_filter (rm_filter (rm_filter (m := (n.set .d (.path [mkAbs (.moveTo (lenOf n .x).num (lenOf n .y).num),
            mkAbs (.hline ((lenOf n .x).num + (lenOf n .width).num)), mkAbs (.vline ((lenOf n .y).num + (lenOf n .height).num)),
            mkAbs (.hline (lenOf n .x).num), mkAbs .close])).retag .path) ⟨fun _ => true, (List.filter_true _).symm⟩ .x) .y) .rx) .ry) .width) .height
          exact ⟨q, hq, by simp [mkAbs, lineSeg], _, _, _, _, rfl⟩
        · exact .inl h.symm
  next hk => exact poly _ _ (by simp) hk h
  next hk => exact poly _ _ (by simp) hk h
  · left; simpa using h.symm

theorem fits_path {p : Kind} {e : EId} (he : e ∈ polyKinds) (h : fits p (.elem e) = true) : fits p (.elem .path) = true := by
  simp only [polyKinds, List.mem_cons, List.not_mem_nil, or_false] at he
  rcases he with rfl | rfl | rfl | rfl <;> rcases fits_loose h (.inl rfl) with rfl | rfl <;> rfl

variable {ini : AId → Option Value} {o : CleaningOptions} {G : Nat → Prop}

theorem fine_become {p : Kind} {n m : Node} (h : Became n m) (hn : @Fine (apt ini .shapes o) G p n .nil) : @Fine (apt ini .shapes o) G p m .nil := by
  let : Flavour := apt ini .shapes o
  obtain ⟨e, he, hk⟩ := h.old
  obtain ⟨d, q, ha, hl, hm⟩ := h.attrs
  have hks : fits p (.elem e) = true := by rw [← hk]; exact hn.place
  refine ⟨by rw [h.new]; exact fits_path he hks, ?_, fun y hy => ?_, fun e => ?_, fun e => ?_, ?_⟩
  · rw [ha]
    exact (ResolveUse.set_names hn.names _ _).sublist (List.filter_sublist.map _)
  · rw [h.new]
    rw [ha] at hy
    have hy := (List.mem_filter.1 hy).1
    have hd : y.name = .id .d → y.value = .path d := by
      intro hyn
      have hnd : ((n.set .d (.path d)).attrs.map (·.name)).Nodup := ResolveUse.set_names hn.names _ _
      have h1 : (n.set .d (.path d)).get .d = some (.path d) := by rw [Node.get_set, if_pos rfl]
      obtain ⟨z, hz, hzn, hzv⟩ := get_attr h1
      have : y = z := List.inj_on_of_nodup_map hnd hy hz (by rw [hyn, hzn])
      rw [this, hzv]
    rcases Node.mem_putAttr hy with rfl | hy
    · refine AttrFine.plain (by unfold plainKind; simp) rfl (by simp) (by decide) ?_
      refine AttrApt.mk (by simp) (fun e => ?_) (fun _ => by simp) (by simp) (.of_kind (by simp) (by simp) fun e => by cases e) (fun _ => rfl) (fun _ => ⟨fun e => (by cases e), fun e => (by rcases e with e | e <;> cases e), fun _ _ p e => ?_, fun _ e => ?_⟩)
        (fun _ => rfl) (fun e => by cases e)
      · rcases e with e | e <;> injection e with e <;> cases e
      · cases e; exact lines_apt hl hm
      · injection e with e; cases e
    · have h0 := hn.attrs y hy
      rw [hk] at h0
      have hx : AttrApt ini .shapes o (.elem e) y := h0.extra
      refine ⟨fun t ht => ⟨(h0.paint t ht).1, rfl, (h0.paint t ht).2.2⟩, h0.cond, h0.inherit, fun e => ⟨.inl rfl, (h0.transform e).2⟩, fun _ => rfl, fun e => (by cases e), fun e => (by cases e), ?_⟩
      refine AttrApt.mk hx.current hx.width hx.paint hx.over (.of_kind (by simp) (by simp) fun e => by cases e) hx.units (fun _ => ⟨fun e => (by cases e), fun e => (by rcases e with e | e <;> cases e), fun _ e p e' => ?_, (hx.outline rfl).stroke⟩)
        hx.shown (fun e => by rw [hx.shown (by decide)] at e; cases e)
      rw [hd e] at e'
      cases e'
      exact lines_apt hl hm
  · rw [h.new] at e; cases e
  · rw [no_gradient h.new (by decide) (by decide)] at e; cases e
  · rw [h.new]
    exact ⟨fun _ => rfl, fun e => by simp at e⟩

theorem fine_kids {p : Kind} {n : Node} {k : Forest} (hn : @Fine (apt ini .shapes o) G p n k) (hp : n.kind = .elem .rect → True) {k' : Forest}
    (ht : List.Forall₂ (fun a b => b = a ∨ Became a b) k.top k'.top) : @Fine (apt ini .shapes o) G p n k' := by
  let : Flavour := apt ini .shapes o
  refine ⟨hn.place, hn.names, hn.attrs, fun e => ?_, fun e s hs => ?_, hn.extra⟩
  · obtain ⟨d, hd, hdk⟩ := hn.anchor e
    obtain ⟨d', hd', h⟩ := forall2_left ht hd
    rcases h with rfl | h
    · exact ⟨_, hd', hdk⟩
    · obtain ⟨e, he, hk⟩ := h.old
      rw [hdk] at hk
      cases hk
      exact absurd he (by decide)
  · rw [hs] at ht
    cases hk : k.top with
    | nil => rw [hk] at ht; cases ht
    | cons a l =>
      rw [hk] at ht
      cases ht with
      | cons h hl =>
        cases hl
        have := hn.single e a hk
        rcases h with rfl | h
        · exact this
        · exfalso
          obtain ⟨e, he, hk⟩ := h.old
          unfold Invisible.plainStop Node.isTag at this
          rw [hk] at this
          simp only [polyKinds, List.mem_cons, List.not_mem_nil, or_false] at he
          rcases he with rfl | rfl | rfl | rfl <;> simp at this

theorem Apt.points {b : Stage} {k : Kind} {n : Node} (hb : b = .shapes) (h : ∀ y ∈ n.attrs, @AttrFine (apt ini b o) G k y) (hk : k = .elem .polyline ∨ k = .elem .polygon) :
    n.get .points ≠ some (.numberList []) := by
  intro e
  obtain ⟨y, hy, hn, hv⟩ := get_attr e
  exact ((attr_apt (h y hy)).outline hb).points hk hn hv

theorem area_convert {p : Kind} {f g : Forest} (hf : @Area (apt ini .shapes o) G p f) (h : f.mapOpt convertNode = some g) :
    @Area (apt ini .shapes o) G p g ∧ List.Forall₂ (fun a b => b = a ∨ Became a b) f.top g.top ∧ List.Forall₂ (fun a b => b = a ∨ Became a b) f.nodes g.nodes := by
  let : Flavour := apt ini .shapes o
  induction f generalizing p g with
  | nil => simp [Forest.mapOpt] at h; rw [← h]; exact ⟨area_nil, .nil, .nil⟩
  | cons n k r ih1 ih2 =>
    simp only [Forest.mapOpt, Option.bind_eq_some_iff, Option.map_eq_some_iff] at h
    obtain ⟨m, hm, k', hk, r', hr, rfl⟩ := h
    obtain ⟨h1, h2, h3⟩ := area_cons.1 hf
    obtain ⟨a1, a2, a3⟩ := ih1 h2 hk
    obtain ⟨b1, b2, b3⟩ := ih2 h3 hr
    have hc := became (fun e => Apt.points rfl h1.attrs e) hm
    refine ⟨area_cons.2 ?_, .cons hc b2, ?_⟩
    · rcases hc with rfl | hc
      · exact ⟨fine_kids h1 (fun _ => trivial) a2, a1, b1⟩
      · have hn : k = .nil := by
          cases k with
          | nil => rfl
          | cons a c d =>
            obtain ⟨e, he, hk⟩ := hc.old
            have := (area_cons.1 h2).1.place
            rw [hk] at this
            have := fits_leaf this
            simp only [polyKinds, List.mem_cons, List.not_mem_nil, or_false] at he
            rcases he with rfl | rfl | rfl | rfl <;> simp at this
        subst hn
        have : k' = .nil := by simpa [Forest.mapOpt] using hk.symm
        subst this
        exact ⟨fine_become hc h1, area_nil, b1⟩
    · exact .cons hc (by
        clear hf h1 h2 h3 hc hm hk hr a1 a2 b1 b2 ih1 ih2
        revert a3 b3
        generalize k.nodes = x1; generalize k'.nodes = y1; generalize r.nodes = x2; generalize r'.nodes = y2
        intro a3 b3
        induction a3 with
        | nil => exact b3
        | cons h _ ih => exact .cons h ih)

theorem Apt.everywhere {f f0 : Forest} {b : Stage} (h : Apt ini b o f0) (hf : ∀ n ∈ f.nodes, n ∈ f0.nodes) {ok : Bool → Node → Prop} (hok : ∀ n ∈ f.nodes, ok false n) :
    Everywhere markedAfter ok false f := by
  induction f with
  | nil => trivial
  | cons n k r ih1 ih2 =>
    have e : markedAfter false n = false := by
      unfold markedAfter
      rw [List.any_eq_false]
      intro a ha
      unfold Plot.refersAfter
      split
      · decide
      next w hw => rw [h.no_marker (hf n (by simp)) ha hw]; split <;> decide
    refine ⟨?_, ?_, ih2 (fun m hm => hf m (by simp [hm])) fun m hm => hok m (by simp [hm])⟩
    · rw [e]; exact hok n (by simp)
    · rw [e]; exact ih1 (fun m hm => hf m (by simp [hm])) fun m hm => hok m (by simp [hm])

theorem Apt.shapes {f g : Forest} (hf : Apt ini .shapes o f) (h : convertShapes f = some g) : SameDrawing ini f g ∧ Apt ini .shapes o g := by
  have ha : @Area (apt ini .shapes o) (Grad f) doc f := @Sketch.nodes (apt ini .shapes o) _ hf
  obtain ⟨a1, _, a3⟩ := area_convert ha h
  refine ⟨.of_plot (Plot.C68_shapes_partial (fun n hn => ⟨fun hk => ?_, fun hk => ?_⟩) (fun x hx hk => ?_) ?_ h), ?_⟩
  · constructor <;>
    · intro v hv
      obtain ⟨y, hy, hyn, hyv⟩ := get_attr hv
      exact ((attr_apt (hf.attr hn hy)).outline rfl).size hk (by simp [hyn]) _ hyv
  · exact Apt.points rfl (fun y hy => hf.attr hn hy) hk
  · have hs : ∃ e ∈ polyKinds, x.2.1.kind = .elem e := by
      simp only [List.mem_cons, List.not_mem_nil, or_false] at hk
      rcases hk with e | e | e | e <;> exact ⟨_, by decide, e⟩
    obtain ⟨e, he, hk⟩ := hs
    have hsc : scene e = true := by
      simp only [polyKinds, List.mem_cons, List.not_mem_nil, or_false] at he
      rcases he with rfl | rfl | rfl | rfl <;> rfl
    rcases hf.sketch.at (p := x.1) (n := x.2.1) (ks := x.2.2) hx with h | ⟨h, _⟩
    · have := h.place
      rw [hk] at this
      rcases fits_loose this (.inl hsc) with e | e <;> rw [e] <;> rfl
    · rw [hk] at h; cases h; cases hsc
  · exact hf.everywhere (fun _ h => h) fun n hn e => (by cases e)
  · refine @Sketch.of_area (apt ini .shapes o) f g a1 ?_ fun t ⟨m, hm, hk, hg⟩ => ?_
    · have hk : g.nodes.map Node.key = f.nodes.map Node.key := by
        clear a1 ha h
        generalize f.nodes = a at a3
        generalize g.nodes = b at a3
        induction a3 with
        | nil => rfl
        | cons h _ ih => rw [List.map_cons, List.map_cons, ih, (show _ from h.elim (fun e => by rw [e]) fun h => h.key)]
      show (g.nodes.map Node.key).Nodup
      rw [hk]
      exact hf.sketch.keys
    · obtain ⟨m', hm', h⟩ := forall2_left a3 hm
      rcases h with rfl | h
      · exact ⟨_, hm', hk, hg⟩
      · obtain ⟨e, he, hk⟩ := h.old
        simp only [polyKinds, List.mem_cons, List.not_mem_nil, or_false] at he
        rw [no_gradient hk (by rintro rfl; simp at he) (by rintro rfl; simp at he)] at hg
        cases hg

/-! ### Paths -/

section
open Verif.ApplyTs Verif.Zoom

theorem path_tweak {b : Bool} {q : PathOpts} {anc : List Node} {n m : Node} (hn : ∀ y ∈ n.attrs, @AttrFine (apt ini .paths o) G n.kind y) (ha : ∀ m ∈ anc, Fair o m)
    (h : pathBody b q anc n = some m) : Tweak ini .paths o G n m := by
  unfold pathBody at h
  split at h
  next hk =>
    have hk := (Node.isTag_iff _ _).1 hk
    have hs : n.kind ≠ .elem .stop ∧ plainKind n.kind := by rw [hk]; exact ⟨by simp, by unfold plainKind; simp⟩
    obtain ⟨⟨n', ts⟩, h1, h2⟩ := Option.bind_eq_some_iff.1 h
    have t1 : Tweak ini .paths o G n n' := by
      unfold takeTransform at h1
      split at h1
      · obtain ⟨t, ht, e⟩ := Option.map_eq_some_iff.1 h1
        split at e
        · cases e
          have t2 : Tweak ini .paths o G n (n.rm .transform) := Edit.rm n _ (.inl hs.1)
          exact Edit.next (P := fun _ => True) t2 (stroke_tweak (n := n.rm .transform) hs.1 hs.2 (t2.attrs hn) ha t)
        · cases e; exact .refl n
      · cases h1; exact .refl n
    dsimp only at h2
    split at h2
    next v hv =>
      obtain ⟨v', hv', rfl⟩ := Option.map_eq_some_iff.1 h2
      refine Edit.next (P := fun _ => True) t1 (Edit.mod n' (by rw [t1.kind]; exact hs.1) fun y hy h0 => ?_)
      obtain ⟨x, w, vis⟩ := y
      dsimp only at hy
      subst hy
      unfold processPathValue at hv'
      split at hv'
      next p0 =>
        obtain ⟨p, hp, rfl⟩ := Option.map_eq_some_iff.1 hv'
        refine @AttrFine.plain (apt ini .paths o) _ _ _ _ _ (by rw [t1.kind]; exact hs.2) rfl (by simp) (by decide) ?_
        have hvis : vis = true := (attr_apt h0).shown (by decide)
        exact AttrApt.mk (by simp) (fun e => by rcases e with e | e <;> injection e with e <;> cases e) (fun _ => by simp) (by simp) (.of_name fun a ha e => by injection e with e; subst e; revert ha; decide) (fun _ => rfl) (fun e => by cases e) (fun _ => hvis)
          (fun e => by rw [show vis = false from e] at hvis; cases hvis)
      next =>
        cases hv'
        obtain ⟨z, hz, hzn, rfl⟩ := get_attr hv
        have hz' := t1.attrs hn z hz
        obtain ⟨zn, zv, zvis⟩ := z
        dsimp only at hzn
        subst hzn
        rw [← t1.kind] at hz'
        refine @AttrFine.plain (apt ini .paths o) _ _ _ _ _ (by rw [t1.kind]; exact hs.2) ?_ (@AttrFine.inherit (apt ini .paths o) _ _ _ hz') (by decide) ?_
        · cases ht : zv.target with
          | none => rfl
          | some k =>
            have := (@AttrFine.paint (apt ini .paths o) _ _ _ hz' k ht).1
            rcases this with e | e <;> injection e with e <;> cases e
        · exact AttrApt.mk (attr_apt hz').current (fun e => by rcases e with e | e <;> injection e with e <;> cases e) (fun e => by rcases e with e | e <;> injection e with e <;> cases e)
            (by simp) (.of_name fun a ha e => by injection e with e; subst e; revert ha; decide) (attr_apt hz').units (fun e => by cases e) (fun _ => (attr_apt h0).shown (by decide)) (fun e => by rw [(attr_apt h0).shown (by decide)] at e; cases e)
    next => cases h2; exact t1
  next => cases h; exact .refl n

theorem Apt.stroke {f : Forest} (h : Apt ini .shapes o f) (ho : o.removeUnusedSegments = true) {n : Node} (hn : n ∈ f.nodes) {v : Value} (hv : n.get .stroke = some v) : v = .kw .none := by
  obtain ⟨y, hy, e, rfl⟩ := get_attr hv
  exact ((attr_apt (h.attr hn hy)).outline rfl).stroke ho e

theorem Apt.data {f : Forest} (h : Apt ini .shapes o f) {n : Node} (hn : n ∈ f.nodes) (hk : n.kind = .elem .path) {p : Path} (hv : n.get .d = some (.path p)) : DataApt o p := by
  obtain ⟨y, hy, e, hv⟩ := get_attr hv
  exact ((attr_apt (h.attr hn hy)).outline rfl).data hk e p hv

theorem Apt.pathOk {f : Forest} (h : Apt ini .shapes o f) {n : Node} (hn : n ∈ f.nodes) {v : Bool × Bool} (hv : o.removeUnusedSegments = true → v = (false, false)) :
    Plot.PathOk (Pipeline.pathOpts o) v n := fun hk p hp => by
  rcases h.data hn hk hp with h | ⟨h1, h2, h3⟩
  · exact .inl h
  · exact .inr ⟨h1, h2, fun e => .inr ⟨hv e, h3 e⟩⟩

theorem Apt.pathsPlain {f : Forest} (h : Apt ini .shapes o f) : PathsPlain (Pipeline.pathOpts o) f := by
  intro x hx hk
  obtain ⟨h1, h2⟩ := places_mem hx
  have hl : ∀ m ∈ x.1 :: x.2.1, m ∈ f.nodes := fun m hm => by
    rcases List.mem_cons.1 hm with rfl | hm
    · exact h1
    · exact (h2 m hm).resolve_left (by simp)
  obtain ⟨q, hq⟩ := places_spots hx doc
  refine ⟨h.leaf hq hk (by decide), h.pathOk h1 fun ho => ?_, fun _ a ha => h.given_marker hl ha⟩
  unfold inks
  have e1 : (markerAttrs.any fun a => refers (given a (x.1 :: x.2.1))) = false := by
    rw [List.any_eq_false]
    intro a ha
    rw [h.given_marker hl ha]; decide
  have e2 : paints (given .stroke (x.1 :: x.2.1)) = false := by
    unfold paints given
    cases hv : ((x.1 :: x.2.1).filterMap fun m => m.get .stroke).head? with
    | none => rfl
    | some v =>
      obtain ⟨m, hm, e⟩ := List.mem_filterMap.1 (List.mem_of_mem_head? hv)
      rw [h.stroke ho (hl m hm) e]; rfl
  rw [e1, e2]

theorem Apt.painted {f f0 : Forest} (h : Apt ini .shapes o f0) (hf : ∀ n ∈ f.nodes, n ∈ f0.nodes) (s : Bool) (hs : o.removeUnusedSegments = true → s = false) {ok : Bool × Bool → Node → Prop}
    (hok : ∀ n ∈ f.nodes, ∀ s, (o.removeUnusedSegments = true → s = false) → ok (false, s) n) : Everywhere paintAfter ok (false, s) f := by
  induction f generalizing s with
  | nil => trivial
  | cons n k r ih1 ih2 =>
    have e : markedAfter false n = false := by
      unfold markedAfter
      rw [List.any_eq_false]
      intro a ha
      unfold Plot.refersAfter
      split
      · decide
      next w hw => rw [h.no_marker (hf n (by simp)) ha hw]; split <;> decide
    have e2 : o.removeUnusedSegments = true → Plot.strokedAfter s n = false := fun ho => by
      unfold Plot.strokedAfter
      split
      · exact hs ho
      next w hw => rw [h.stroke ho (hf n (by simp)) hw, if_neg (by decide)]; decide
    have e3 : paintAfter (false, s) n = (false, Plot.strokedAfter s n) := by unfold paintAfter; rw [e]
    refine ⟨?_, ?_, ih2 (fun m hm => hf m (by simp [hm])) s hs fun m hm => hok m (by simp [hm])⟩
    · rw [e3]; exact hok n (by simp) _ e2
    · rw [e3]; exact ih1 (fun m hm => hf m (by simp [hm])) _ e2 fun m hm => hok m (by simp [hm])

theorem Apt.paths {f g : Forest} {b : Bool} (hf : Apt ini .shapes o f) (h : processPaths b (Pipeline.pathOpts o) f = some g) : SameDrawing ini f g ∧ Apt ini .paths o g := by
  refine ⟨?_, hf.later.ctx (fun _ _ _ _ hn ha hb => path_tweak hn ha hb) h⟩
  cases b with
  | true => exact .of_zoom (Zoom.C69_paths_partial (fun _ hn => hf.paint hn) hf.pathsPlain (hf.uses _) h)
  | false =>
    refine .of_plot (Plot.C68_paths_partial (hf.painted (fun _ h => h) false (fun _ => rfl) fun n hn s hs => ⟨hf.pathOk hn fun ho => by rw [hs ho], fun _ e => ?_⟩) h)
    exact absurd e (hf.no_use hn)

end

end Verif.Whole
