import Verif.CrashInv
/-
C53: the tasks that change nodes one by one.
-/
namespace Verif.Crash
open Verif.Dom Verif.Spec
open Verif.Dom (Res)
open Verif.Pipeline
open Verif.Simple (hideAll)
open Verif.Stops (modValue)
open Verif.Needless (rmAll)

theorem along_mapOpt {R : Node → Node → Prop} {h : Node → Option Node} {f g : Forest} (hm : ∀ n ∈ f.nodes, ∀ m, h n = some m → R n m)
    (e : f.mapOpt h = some g) : Along R f g := by
  induction f generalizing g with
  | nil => cases e; exact .nil
  | cons n k r ih1 ih2 =>
    simp only [Forest.nodes, List.mem_cons, List.mem_append] at hm
    rw [Forest.mapOpt] at e
    obtain ⟨n', h1, e⟩ := Option.bind_eq_some_iff.1 e
    obtain ⟨k', h2, e⟩ := Option.bind_eq_some_iff.1 e
    obtain ⟨r', h3, rfl⟩ := Option.map_eq_some_iff.1 e
    exact .cons (hm n (.inl rfl) _ h1) (ih1 (fun m hm' => hm m (.inr (.inl hm'))) h2) (ih2 (fun m hm' => hm m (.inr (.inr hm'))) h3)

theorem along_mapCtx {R : Node → Node → Prop} {h : List Node → Node → Option Node} {f g : Forest} {anc : List Node}
    (hm : ∀ n ∈ f.nodes, ∀ a m, h a n = some m → R n m) (e : f.mapCtx h anc = some g) : Along R f g := by
  induction f generalizing g anc with
  | nil => cases e; exact .nil
  | cons n k r ih1 ih2 =>
    simp only [Forest.nodes, List.mem_cons, List.mem_append] at hm
    rw [Forest.mapCtx] at e
    obtain ⟨n', h1, e⟩ := Option.bind_eq_some_iff.1 e
    obtain ⟨k', h2, e⟩ := Option.bind_eq_some_iff.1 e
    obtain ⟨r', h3, rfl⟩ := Option.map_eq_some_iff.1 e
    exact .cons (hm n (.inl rfl) _ _ h1) (ih1 (fun m hm' => hm m (.inr (.inl hm'))) h2) (ih2 (fun m hm' => hm m (.inr (.inr hm'))) h3)

variable {C : Ctx}

theorem Tame.filter (n : Node) {p : Attr → Bool} (h : ∀ a ∈ wanted n.kind, ∀ x ∈ n.attrs, x.name = .id a → p x = true)
    (h6 : gradKind n.kind = true → ∀ x ∈ n.attrs, x.name = .id .xlinkHref → p x = true) : Tame C n { n with attrs := n.attrs.filter p } :=
  Tame.sub (m := { n with attrs := n.attrs.filter p }) rfl rfl rfl List.filter_sublist (fun a ha hh => by
    obtain ⟨x, hx, e⟩ := has_iff.1 hh
    exact has_iff.2 ⟨x, List.mem_filter.2 ⟨hx, h a ha x hx e⟩, e⟩) fun _ hg hh => by
    obtain ⟨x, hx, e⟩ := has_iff.1 hh
    exact has_iff.2 ⟨x, List.mem_filter.2 ⟨hx, h6 hg x hx e⟩, e⟩

theorem Tame.rmAll (n : Node) (l : List AId) (h : ∀ a ∈ l, a ∉ wanted n.kind) (hx : ∀ a ∈ l, gradKind n.kind = true → a ≠ .xlinkHref) : Tame C n (rmAll n l) := by
  unfold Needless.rmAll
  induction l generalizing n with
  | nil => exact Tame.refl C n
  | cons a t ih => exact (Tame.rm C n (h a (by simp)) (hx a (by simp))).trans (ih (n.rm a) (fun b hb => h b (by simp [hb])) fun b hb => hx b (by simp [hb]))
theorem Tame.rmAllFree (n : Node) (l : List AId) (h : ∀ a ∈ l, a ∉ allWanted) : Tame C n (Needless.rmAll n l) :=
  Tame.rmAll n l (fun a ha => not_wanted (h a ha) _) fun a ha _ e => h a ha (by rw [e]; simp [allWanted])

theorem Tame.hideAll (n : Node) (l : List AId) : Tame C n (hideAll n l) := Tame.foldl (Tame.hide C) l n

/-- New values for an attribute. -/
theorem Tame.modValue (n : Node) (a : AId) {u : Value → Value}
    (h : ∀ x ∈ n.attrs, x.name = .id a → ((∃ y ∈ n.attrs, y.name = x.name ∧ y.value = u x.value) ∨ (AttrOk C n x.name (u x.value) ∧ (u x.value).target = none))) : Tame C n (modValue n a u) := by
  refine ⟨rfl, rfl, .inl rfl, fun x hx => ?_, fun k hk => ?_, fun b _ hb => ?_, fun _ _ => ?_, fun _ => ?_⟩
  rotate_left 4
  · unfold hrefs Stops.modValue
    dsimp only
    rw [List.filter_map, List.length_map]
    refine Nat.le_of_eq (congrArg _ (List.filter_congr fun x _ => ?_))
    simp only [Function.comp]
    split <;> rfl
  rotate_left 3
  · rw [has_iff, has_iff]
    constructor
    · rintro ⟨x, hx, e⟩
      exact ⟨_, List.mem_map.2 ⟨x, hx, rfl⟩, by split <;> exact e⟩
    · rintro ⟨x, hx, e⟩
      obtain ⟨y, hy, rfl⟩ := List.mem_map.1 hx
      exact ⟨y, hy, by split at e <;> exact e⟩
  rotate_left 2
  · obtain ⟨x, hx, e⟩ := has_iff.1 hb
    exact has_iff.2 ⟨_, List.mem_map.2 ⟨x, hx, rfl⟩, by split <;> exact e⟩
  · obtain ⟨y, hy, rfl⟩ := List.mem_map.1 hx
    by_cases e : y.name = .id a
    · rw [if_pos e]
      rcases h y hy e with h' | h'
      · exact .inr h'
      · exact .inl (Kin.attr (n := n) (m := Stops.modValue n a u) rfl (.inl rfl) h'.1)
    · rw [if_neg e]; exact .inr ⟨y, hy, rfl, rfl⟩
  · obtain ⟨x, hx, e'⟩ := Node.mem_links.1 hk
    obtain ⟨y, hy, rfl⟩ := List.mem_map.1 hx
    by_cases e : y.name = .id a
    · rw [if_pos e] at e'
      rcases h y hy e with h' | h'
      · obtain ⟨z, hz, _, e2⟩ := h'
        dsimp only at e'; rw [← e2] at e'; exact Node.mem_links.2 ⟨z, hz, e'⟩
      · dsimp only at e'; rw [h'.2] at e'; cases e'
    · rw [if_neg e] at e'; exact Node.mem_links.2 ⟨y, hy, e'⟩

theorem Tame.modFree (n : Node) {a : AId} {u : Value → Value} (ha : freeName (.id a) = true) (h : ∀ v, u v = v ∨ (u v).target = none) : Tame C n (Stops.modValue n a u) :=
  Tame.modValue n a fun x hx e => (h x.value).imp (fun h => ⟨x, hx, rfl, h.symm⟩) fun h => ⟨by rw [e]; exact AttrOk.free ha h, h⟩

/-- An element becomes a path. -/
theorem Tame.retag {n : Node} (h : shapeKind n.kind = true) : Tame C n (n.retag .path) :=
  ⟨rfl, rfl, .inr ⟨h, rfl⟩, fun x hx => .inr ⟨x, hx, rfl, rfl⟩, fun _ h => h, fun _ _ h => h, fun _ _ => Iff.rfl, fun _ => Nat.le_refl _⟩

/-! ### Transforms -/

section
open Verif.ApplyTs

theorem tame_transformCoords (n : Node) {a b : AId} (ha : freeName (.id a) = true) (hb : freeName (.id b) = true) (t : Paths.Transform) :
    Tame C n (transformCoords n a b t) := (Tame.setFree C n ha rfl).trans (Tame.setFree C _ hb rfl)

theorem tame_scaleCoord (n : Node) {a : AId} (ha : freeName (.id a) = true) (s : ℚ) : Tame C n (scaleCoord n a s) :=
  Tame.modFree n ha fun v => by cases v <;> first | exact .inl rfl | exact .inr rfl

theorem tame_recalcNum (anc : List Node) (n : Node) {a : AId} (ha : freeName (.id a) = true) (s : ℚ) : Tame C n (recalcNum anc n a s) := by
  unfold recalcNum
  split
  · split
    · exact Tame.setFree C n ha rfl
    · exact Tame.refl C n
  · exact Tame.refl C n

theorem tame_rescaleStroke (anc : List Node) (n : Node) (t : Paths.Transform) : Tame C n (rescaleStroke anc n t) := by
  unfold rescaleStroke
  split
  · unfold recalcStroke
    refine ((tame_recalcNum anc n (a := .strokeWidth) (by decide) t.a).trans ?_).trans (tame_recalcNum anc _ (by decide) _)
    unfold recalcDash
    split
    · exact Tame.setFree C _ (by decide) rfl
    · exact Tame.refl C _
  · exact Tame.refl C n

theorem tame_processShape {move : Node → Paths.Transform → Node} (hm : ∀ n t, Tame C n (move n t)) {e : EId} {anc : List Node} {n m : Node}
    (h : processShape move e anc n = some m) : Tame C n m := by
  unfold processShape at h
  obtain ⟨ok, _, h⟩ := Option.bind_eq_some_iff.1 h
  split at h
  · cases h; exact Tame.refl C n
  · obtain ⟨t, _, rfl⟩ := Option.map_eq_some_iff.1 h
    exact ((hm n t).trans (Tame.rmFree C _ (by decide))).trans (tame_rescaleStroke _ _ _)

theorem tame_shapeBody {anc : List Node} {n m : Node} (h : shapeBody anc n = some m) : Tame C n m := by
  unfold shapeBody at h
  split at h
  · split at h
    · refine tame_processShape (fun n t => ?_) h
      unfold moveRect
      refine (tame_transformCoords n (a := .x) (b := .y) (by decide) (by decide) t).trans ?_
      simp only
      split
      · exact (((tame_scaleCoord _ (by decide) _).trans (tame_scaleCoord _ (by decide) _)).trans (tame_scaleCoord _ (by decide) _)).trans (tame_scaleCoord _ (by decide) _)
      · exact Tame.refl C _
    · refine tame_processShape (fun n t => ?_) h
      unfold moveCircle
      refine (tame_transformCoords n (a := .cx) (b := .cy) (by decide) (by decide) t).trans ?_
      simp only
      split
      · exact tame_scaleCoord _ (by decide) _
      · exact Tame.refl C _
    · refine tame_processShape (fun n t => ?_) h
      unfold moveEllipse
      refine (tame_transformCoords n (a := .cx) (b := .cy) (by decide) (by decide) t).trans ?_
      simp only
      split
      · exact (tame_scaleCoord _ (by decide) _).trans (tame_scaleCoord _ (by decide) _)
      · exact Tame.refl C _
    · exact tame_processShape (fun n t => (tame_transformCoords n (by decide) (by decide) t).trans (tame_transformCoords _ (by decide) (by decide) t)) h
    · cases h; exact Tame.refl C n
    · cases h
  · cases h; exact Tame.refl C n

theorem NodeOk.get {n : Node} (h : NodeOk C n) {a : AId} {v : Value} (hv : n.get a = some v) : AttrOk C n (.id a) v := by
  unfold Node.get at hv
  obtain ⟨x, hx, rfl⟩ := Option.map_eq_some_iff.1 hv
  have := h.attrs x (getAttr_mem hx)
  rwa [getAttr_name hx] at this

theorem holds_applyToShapes : Holds (Inv C) (may applyToShapes) := by
  refine Holds.may fun f hf => ?_
  obtain ⟨g, hg⟩ := C31_no_crash (f := f) fun n hn v hv => ((hf.nodes n hn).get hv).transform rfl
  exact ⟨g, hg, hf.along (along_mapCtx (fun n _ a m h => tame_shapeBody h) hg)⟩

theorem holds_processPaths {b : Bool} {o : Paths.PathOpts} : Holds (Inv C) (may (processPaths b o)) := by
  refine Holds.may fun f hf => ?_
  obtain ⟨g, hg⟩ := C19_paths_no_crash (b := b) (o := o) (f := f) (fun n hn v hv => (((hf.nodes n hn).get hv).transform rfl).2) fun n hn p hp => by
    unfold pathOf at hp
    split at hp
    next q hq => cases hp; exact (((hf.nodes n hn).get hq).d rfl).2.2 _ rfl
    · cases hp
  refine ⟨g, hg, hf.along (along_mapCtx (fun n hn a m h => ?_) hg)⟩
  have hok := hf.nodes n hn
  unfold pathBody at h
  split at h
  · obtain ⟨⟨n1, ts⟩, h1, h⟩ := Option.bind_eq_some_iff.1 h
    have hn1 : Tame C n n1 := by
      unfold takeTransform at h1
      split at h1
      · obtain ⟨t, _, h1⟩ := Option.map_eq_some_iff.1 h1
        split at h1
        · cases h1; exact (Tame.rmFree C n (by decide)).trans (tame_rescaleStroke _ _ _)
        · cases h1; exact Tame.refl C n
      · cases h1; exact Tame.refl C n
    have hok1 := hok.tame hn1
    refine hn1.trans ?_
    simp only at h
    split at h
    next v hv =>
      obtain ⟨w, hw, rfl⟩ := Option.map_eq_some_iff.1 h
      have hd := hok1.get hv
      refine Tame.modValue _ _ fun x hx e => ?_
      cases v with
      | path p =>
        obtain ⟨q, hq, rfl⟩ := Option.map_eq_some_iff.1 hw
        refine .inr ⟨?_, rfl⟩
        have hd2 := hd.d rfl
        have hqq : q = [] ∨ Paths.StartsWithMove q := by
          rcases hd2.2.2 p rfl with rfl | hs
          · unfold Paths.processPath at hq; rw [if_pos rfl] at hq; exact .inl (Option.some.inj hq).symm
          · obtain ⟨q', h1, h2⟩ := Paths.C20_never_panics hs (n.has .marker || n.has .markerStart || n.has .markerMid || n.has .markerEnd)
              (ts.map fun t => (t, t.a)) o
            rw [hq] at h1
            cases h1
            exact h2
        rw [e]
        exact ⟨GradAttr.free (by decide) (by decide) (by decide) (by decide) (by decide) rfl, fun e => by simp at e, fun e => by simp at e, fun e => by simp at e, fun _ => ⟨hd2.1, hd2.2.1, fun p' e => by cases e; exact hqq⟩,
          fun e => by simp at e, fun k e => by cases e⟩
      | _ =>
        obtain rfl := Option.some.inj hw
        unfold Node.get at hv
        obtain ⟨y, hy, e'⟩ := Option.map_eq_some_iff.1 hv
        exact .inl ⟨y, getAttr_mem hy, (getAttr_name hy).trans e.symm, e'⟩
    next => cases h; exact Tame.refl C _
  · cases h; exact Tame.refl C n

end

/-! ### Shapes -/

section
open Verif.ConvShapes

theorem pointSegs_move {l : List ℚ} {p : Paths.Path} (h : pointSegs true l = some p) (hl : l ≠ []) : Paths.StartsWithMove p := by
  match l with
  | [] => exact absurd rfl hl
  | [_] => cases h
  | x :: y :: t =>
    rw [pointSegs] at h
    obtain ⟨q, _, rfl⟩ := Option.map_eq_some_iff.1 h
    exact ⟨_, _, _, _, rfl⟩

theorem AttrOk.path {n : Node} (h1 : n.kind ≠ .elem .g) (h2 : n.kind ≠ .elem .use) {p : Paths.Path} (h : Paths.StartsWithMove p) : AttrOk C n (.id .d) (.path p) :=
  ⟨GradAttr.free (by decide) (by decide) (by decide) (by decide) (by decide) rfl, fun e => by simp at e, fun e => by simp at e, fun e => by simp at e, fun _ => ⟨h1, h2, fun p' e => by cases e; exact .inr h⟩,
    fun e => by simp at e, fun k e => by cases e⟩

theorem tame_convert (hr : ¬ C.raw) {n m : Node} (hok : NodeOk C n) (h : convertNode n = some m) : Tame C n m := by
  unfold convertNode at h
  split at h
  next hk =>
    cases h
    unfold convertLine
    simp only
    split
    · refine Tame.trans ?_ (Tame.rm C _ (by show _ ∉ wanted (.elem .path); decide) fun e => by cases e)
      refine Tame.trans ?_ (Tame.rm C _ (by show _ ∉ wanted (.elem .path); decide) fun e => by cases e)
      refine Tame.trans ?_ (Tame.rm C _ (by show _ ∉ wanted (.elem .path); decide) fun e => by cases e)
      refine Tame.trans ?_ (Tame.rm C _ (by show _ ∉ wanted (.elem .path); decide) fun e => by cases e)
      exact (Tame.set n (AttrOk.path (by rw [hk]; simp) (by rw [hk]; simp) ⟨_, _, _, _, rfl⟩) rfl).trans (Tame.retag (n := n.set _ _) (by
        show shapeKind n.kind = true
        rw [hk]; rfl))
    · exact Tame.refl C n
  next hk =>
    cases h
    unfold convertRect
    simp only
    split
    · exact Tame.refl C n
    · split
      · exact Tame.refl C n
      · split
        · refine Tame.trans ?_ (Tame.rm C _ (by show _ ∉ wanted (.elem .path); decide) fun e => by cases e)
          refine Tame.trans ?_ (Tame.rm C _ (by show _ ∉ wanted (.elem .path); decide) fun e => by cases e)
          refine Tame.trans ?_ (Tame.rm C _ (by show _ ∉ wanted (.elem .path); decide) fun e => by cases e)
          refine Tame.trans ?_ (Tame.rm C _ (by show _ ∉ wanted (.elem .path); decide) fun e => by cases e)
          refine Tame.trans ?_ (Tame.rm C _ (by show _ ∉ wanted (.elem .path); decide) fun e => by cases e)
          refine Tame.trans ?_ (Tame.rm C _ (by show _ ∉ wanted (.elem .path); decide) fun e => by cases e)
          exact (Tame.set n (AttrOk.path (by rw [hk]; simp) (by rw [hk]; simp) ⟨_, _, _, _, rfl⟩) rfl).trans (Tame.retag (n := n.set _ _) (by
            show shapeKind n.kind = true
            rw [hk]; rfl))
        · exact Tame.refl C n
  all_goals
    first
    | (rename_i hk
       unfold convertPoly at h
       split at h
       next v hv =>
         obtain ⟨p, hp, rfl⟩ := Option.map_eq_some_iff.1 h
         have hm := pointSegs_move hp (((hok.get hv).points rfl).2.2 (by simp [hk]) hr v rfl).1
         refine Tame.trans ?_ (Tame.rm C _ (by show _ ∉ wanted (.elem .path); decide) fun e => by cases e)
         refine (Tame.retag (by rw [hk]; rfl)).trans (Tame.set (n.retag .path) (AttrOk.path (by simp [Node.retag]) (by simp [Node.retag]) ?_) rfl)
         obtain ⟨b, x, y, t, rfl⟩ := hm
         first
         | exact ⟨_, _, _, _, rfl⟩
         | (simp only [List.cons_append, if_true]; exact ⟨_, _, _, _, rfl⟩)
       · cases h; exact Tame.refl C n)
    | (cases h; exact Tame.refl C n)

theorem holds_convertShapes (hr : ¬ C.raw) : Holds (Inv C) (may convertShapes) := by
  refine Holds.may fun f hf => ?_
  have : convertShapes f ≠ none := by
    rw [Ne, C21_crashes_iff]
    rintro ⟨n, hn, hk, v, hv, h1⟩
    have := (((hf.nodes n hn).get hv).points rfl).2.2 hk hr v rfl
    omega
  obtain ⟨g, hg⟩ := Option.ne_none_iff_exists'.1 this
  exact ⟨g, hg, hf.along (along_mapOpt (fun n hn m h => tame_convert hr (hf.nodes n hn) h) hg)⟩

end

/-! ### The tasks that remove attributes -/

theorem Inv.svg {f : Forest} (h : Inv C f) : ∃ x, svgElement f = some x := by
  obtain ⟨S, ks, D, h1, _⟩ := h.root
  exact ⟨_, h1⟩

theorem holds_removeDefaults {ini : AId → Option Value} : Holds (Inv C) (may (DefaultAttrs.removeDefaults ini)) := by
  refine Holds.may fun f hf => ?_
  have hr : DefaultAttrs.rootKey f ≠ none := by
    obtain ⟨x, hx⟩ := hf.svg
    rw [← DefaultAttrs.rootKey_eq, hx]; simp
  obtain ⟨g, hg⟩ := Option.ne_none_iff_exists'.1 (DefaultAttrs.C42_no_crash (ini := ini) hr)
  refine ⟨g, hg, hf.along (along_mapCtx (fun n hn a m h => ?_) hg)⟩
  unfold DefaultAttrs.body at h
  split at h
  · obtain ⟨l, _, rfl⟩ := Option.map_eq_some_iff.1 h
    exact Tame.hideAll n l
  · cases h; exact Tame.refl C n

theorem along_goText (f c : Forest) : Along (Tame C) c (TextAttrs.goText f c).1 := by
  induction c with
  | nil => exact .nil
  | cons n k r ihk ihr =>
    have h0 : Tame C n (n.rm .lineHeight) := Tame.rmFree C n (by decide)
    have h1 : Tame C n (rmAll (n.rm .lineHeight) TextAttrs.textAttributes) := h0.trans (Tame.rmAllFree _ _ (by decide))
    simp only [TextAttrs.goText]
    split
    · exact .cons h0 (Along.refl (Tame.refl C) _) ihr
    · split
      · split
        · refine .cons ?_ ihk ihr
          split
          · exact h0
          · exact h1
        · exact .cons h0 ihk ihr
      next he =>
        have : k = .nil := by
          cases k with
          | nil => rfl
          | cons => exact absurd rfl he
        subst this
        refine .cons ?_ .nil ihr
        split
        · exact h1
        · exact h0

theorem along_rmSpace (c : Forest) : Along (Tame C) c (TextAttrs.rmSpace c) := by
  induction c with
  | nil => exact .nil
  | cons n k r ihk ihr =>
    simp only [TextAttrs.rmSpace]
    split
    · exact .cons (Tame.refl C n) ihk ihr
    · split
      · refine .cons ?_ ihk ihr
        split
        · exact Tame.refl C n
        · exact Tame.rmFree C n (by decide)
      next he =>
        have : k = .nil := by
          cases k with
          | nil => rfl
          | cons => exact absurd rfl he
        subst this
        exact .cons (Tame.rmFree C n (by decide)) .nil ihr

theorem along_trans {f g h : Forest} (h1 : Along (Tame C) f g) (h2 : Along (Tame C) g h) : Along (Tame C) f h := h1.trans (fun _ _ _ a b => a.trans b) h2

theorem holds_removeText : Holds (Inv C) (may TextAttrs.removeText) := by
  refine Holds.may fun f hf => ?_
  obtain ⟨x, hx⟩ := hf.svg
  obtain ⟨g, hg⟩ := Option.ne_none_iff_exists'.1 (TextAttrs.C43_no_crash (f := f) (by rw [hx]; simp))
  refine ⟨g, hg, hf.along (along_trans (along_goText f f) (along_trans (along_rmSpace _) ?_))⟩
  unfold TextAttrs.removeText TextAttrs.rmFontFace at hg
  obtain ⟨x, _, h⟩ := Option.map_eq_some_iff.1 hg
  split at h
  · rw [h]; exact Along.refl (Tame.refl C) _
  · rw [← h]
    exact Along.map fun n _ => by
      split
      · exact Tame.rmAllFree n _ (by decide)
      · exact Tame.refl C n

section
open Verif.Needless

theorem tame_needless (used : Nat → Bool) (anc : List Node) (leaf : Bool) (n : Node) : Tame C n (Needless.body used anc leaf n) := by
  have hc : Tame C n (clipStep used anc n) := by
    unfold clipStep
    split
    · split
      · have h1 : ∀ a ∈ allWanted, (!(isFill a || isStroke a || decide (a = .opacity))) = true := by decide
        refine Tame.filter n (fun a ha x _ e => ?_) fun _ x _ e => ?_
        · rw [e]
          exact h1 a (by by_contra h; exact not_wanted h _ ha)
        · rw [e]
          exact h1 .xlinkHref (by decide)
      · exact Tame.refl C n
    · exact Tame.refl C n
  unfold Needless.body
  split
  next e he =>
    refine hc.trans ?_
    unfold element
    have h1 : ∀ e n, n.kind = .elem e → Tame C n (Needless.processShape e n) := fun e n he => by
      unfold Needless.processShape
      split
      next l hl =>
        refine Tame.filter n (fun a ha => ?_) fun ha => ?_
        all_goals
          rw [he] at ha
          cases e <;> first | (cases ha; done) | (cases hl; done)
      · exact Tame.refl C n
    have h2 : ∀ e n, Tame C n (processBackground e n) := fun e n => by
      unfold processBackground
      split
      · exact Tame.refl C n
      · exact Tame.rmFree C n (by decide)
    have h3 : ∀ b n, Tame C n (processFill b n) := fun b n => by
      unfold processFill
      split
      · have : Tame C n (if n.get .fill = some (.kw .none) then (n.rm .fillRule).rm .fillOpacity else n) := by
          split
          · exact (Tame.rmFree C n (by decide)).trans (Tame.rmFree C _ (by decide))
          · exact Tame.refl C n
        simp only
        refine this.trans ?_
        generalize (if n.get .fill = some (.kw .none) then (n.rm .fillRule).rm .fillOpacity else n) = n1
        split
        · exact ((Tame.setFree C n1 (a := .fill) (by decide) rfl).trans (Tame.rmFree C _ (by decide))).trans (Tame.rmFree C _ (by decide))
        · exact Tame.refl C _
      · exact Tame.refl C n
    have h4 : ∀ b a n, Tame C n (processStroke b a n) := fun b a n => by
      unfold processStroke
      split
      · split
        · have : Tame C n (rmAll (n.rm .stroke) strokeAttributes) := (Tame.rmFree C n (by decide)).trans (Tame.rmAllFree _ _ (by decide))
          simp only
          split
          · split
            · exact this.trans (Tame.setFree C _ (a := .stroke) (by decide) rfl)
            · exact this
          · exact this
        · split
          · simp only
            split
            · exact Tame.rmAllFree n _ (by decide)
            · exact (Tame.rmAllFree n _ (by decide)).trans (Tame.rmFree C _ (by decide))
          · exact Tame.refl C n
      · exact Tame.refl C n
    have h5 : ∀ e n, Tame C n (processOverflow e n) := fun e n => by
      unfold processOverflow
      split <;> first | exact Tame.refl C n | exact Tame.rmFree C n (by decide)
    have hk : (clipStep used anc n).kind = .elem e := by
      unfold clipStep
      split
      · split <;> exact he
      · exact he
    exact (((((h1 _ _ hk).trans (Tame.rmFree C _ (by decide))).trans (h2 _ _)).trans (h3 _ _)).trans (h4 _ _ _)).trans (h5 _ _)
  · exact hc

theorem along_needlessGo (used : Nat → Bool) (anc : List Node) (f : Forest) : Along (Tame C) f (Needless.go used anc f) := by
  induction f generalizing anc with
  | nil => exact .nil
  | cons n k r ihk ihr => exact .cons (tame_needless used anc _ n) (ihk _) (ihr _)

theorem holds_removeNeedless : Holds (Inv C) (sure removeNeedless) := Holds.sure fun f hf => hf.along (along_needlessGo _ _ f)

end

theorem along_coords (doc : Forest) (b : Bool) (f : Forest) : Along (Tame C) f (Simple.removeUnusedCoordsGo doc b f) := by
  induction f generalizing b with
  | nil => exact .nil
  | cons n k r ihk ihr => exact .cons (Tame.hideAll n _) (ihk _) (ihr _)

theorem holds_removeUnusedCoords : Holds (Inv C) (sure Simple.removeUnusedCoords) := Holds.sure fun f hf => hf.along (along_coords f true f)

end Verif.Crash
