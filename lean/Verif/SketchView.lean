import Verif.SketchCut
import Verif.CrashTree
/-
C66: removing invisible elements from a drawing.
-/
namespace Verif.Draft
open Verif.Dom Verif.Spec Verif.Render
open Verif.Invisible

variable [Flavour]

variable {f : Forest}

/-! ### The elements that a drawing does not have -/

/-- The SVG elements of a drawing. -/
theorem Sketch.kinds (hf : Sketch f) {n : Node} (hn : n ∈ f.nodes) {e : EId} (he : n.kind = .elem e) :
    loose (.elem e) = true ∨ e ∈ [EId.svg, .defs, .linearGradient, .radialGradient, .stop] := by
  obtain ⟨p, ks, _, h⟩ := hf.node hn
  exact fits_elem (he ▸ h.place)

theorem Sketch.no_tag (hf : Sketch f) {n : Node} (hn : n ∈ f.nodes) {e : EId} (h1 : loose (.elem e) = false) (h2 : e ∉ [EId.svg, .defs, .linearGradient, .radialGradient, .stop]) :
    n.isTag e = false := by
  cases ht : n.isTag e with
  | false => rfl
  | true =>
    rcases hf.kinds hn ((Node.isTag_iff _ _).1 ht) with h | h
    · rw [h1] at h; cases h
    · exact absurd h h2

/-- References are paints. -/
theorem Sketch.no_link (hf : Sketch f) {n : Node} (hn : n ∈ f.nodes) {a : AId} (h1 : a ≠ .fill) (h2 : a ≠ .stroke) {v : Value} (hv : n.get a = some v) : v.target = none := by
  obtain ⟨y, hy, e, rfl⟩ := get_attr hv
  cases ht : y.value.target with
  | none => rfl
  | some t =>
    rcases ((hf.attr hn hy).paint t ht).1 with h | h <;> rw [e] at h <;> injection h with h
    · exact absurd h h1
    · exact absurd h h2

theorem Sketch.effects (hf : Sketch f) {n : Node} (hn : n ∈ f.nodes) : plainEffects n = true ∧ unfiltered n = true := by
  have key : ∀ a, a ≠ .fill → a ≠ .stroke → (match n.get a with | some (.funcLink _) => false | _ => true) = true := by
    intro a h1 h2
    split
    next k hk => have := hf.no_link hn h1 h2 hk; cases this
    next => rfl
  refine ⟨?_, key .filter (by decide) (by decide)⟩
  unfold plainEffects
  simp only [List.all_cons, List.all_nil, Bool.and_true, Bool.and_eq_true]
  exact ⟨key .mask (by decide) (by decide), key .clipPath (by decide) (by decide), key .filter (by decide) (by decide)⟩

theorem Sketch.apart (hf : Sketch f) {p : Kind} {n : Node} {ks : Forest} (hx : (p, n, ks) ∈ spots top f) (hl : loose n.kind = true) : Apart f p n ks := by
  obtain ⟨h1, h2, h3, h4, h5, _⟩ := loose_not hl
  have hu : f.isUsed n.key = false := by
    refine hf.unused (spots_nodes hx).1 ?_
    cases hg : n.isGradient with
    | false => rfl
    | true => rcases isGradient_iff.1 hg with e | e <;> contradiction
  refine ⟨?_, hf.kids_unused hx h2 h3, fun x hx' y hy ht => ?_⟩
  · rcases hf.at hx with h | ⟨h, _⟩
    · exact loose_gone h.place hl
    · contradiction
  · rw [Forest.isUsed_iff.2 ⟨x, hx', Node.mem_links.2 ⟨y, hy, ht⟩⟩] at hu
    cases hu

/-! ### Hidden elements, empty paths and rectangles -/

theorem hidden_loose (hf : Sketch f) {n : Node} (hn : n ∈ f.nodes) (h : hiddenBy n = true) : loose n.kind = true := by
  unfold hiddenBy at h
  obtain ⟨y, hy, e, _⟩ := get_attr (of_decide_eq_true h)
  exact (hf.attr hn hy).display e

theorem Sketch.hidden (hf : Sketch f) : SameLook f (displayStep f).1 ∧ Sketch (displayStep f).1 := by
  refine ⟨C38_display_partial hf.good fun p n ks hx hh _ => (hf.apart hx (hidden_loose hf (spots_nodes hx).1 hh)).gone, hf.rmKeys fun n hn hk => ?_⟩
  obtain ⟨q, m, ks, hx, e, _, hh, _⟩ := hidden_spots (p := top) hk
  rw [hf.same hn (spots_nodes hx).1 e.symm]
  have := loose_not (hidden_loose hf (spots_nodes hx).1 hh)
  exact ⟨this.2.2.1, this.2.2.2.2.2⟩

theorem Sketch.ready (hf : Sketch f) {q : Node → Bool} (hq : ∀ n, q n = true → loose n.kind = true) : Ready q f :=
  ⟨hf.good, fun _ n _ hx h => hf.apart hx (hq n h), fun _ hn _ => (hf.effects hn).2⟩

theorem path_loose {n : Node} {k : Forest} (h : emptyPath n k = true) : n.kind = .elem .path := by
  unfold emptyPath at h
  rw [Bool.and_eq_true] at h
  exact (Node.isTag_iff _ _).1 h.1

theorem rect_loose {n : Node} {k : Forest} (h : emptyRect n k = true) : n.kind = .elem .rect := by
  unfold emptyRect at h
  rw [Bool.and_eq_true] at h
  exact (Node.isTag_iff _ _).1 h.1

theorem Sketch.paths (hf : Sketch f) : SameLook f (pathStep f).1 ∧ Sketch (pathStep f).1 :=
  ⟨C38_paths_partial (hf.ready fun n h => by rw [path_loose h]; rfl), hf.drain fun n k h => by rw [path_loose h]; exact ⟨by decide, by decide⟩⟩

theorem Sketch.rects (hf : Sketch f) : SameLook f (rectStep f).1 ∧ Sketch (rectStep f).1 :=
  ⟨C38_rects_partial (hf.ready fun n h => by rw [rect_loose h]; rfl), hf.drain fun n k h => by rw [rect_loose h]; exact ⟨by decide, by decide⟩⟩

/-! ### Clip paths, filters and `use` elements: there are none -/

theorem Sketch.clips (hf : Sketch f) : (clipStep f).1 = f := by
  have : f.nodes.filter (·.isTag .clipPath) = [] := List.filter_eq_nil_iff.2 fun n hn => by rw [hf.no_tag hn rfl (by decide)]; decide
  unfold clipStep
  rw [this]
  rfl

theorem Sketch.filters (hf : Sketch f) : (filterStep f).1 = f := by
  have : emptyFilters f = [] := by
    rw [List.eq_nil_iff_forall_not_mem]
    intro k hk
    obtain ⟨n, hn, _, e⟩ := Crash.emptyFilters_mem hk
    rcases hf.kinds hn e with h | h
    · cases h
    · exact absurd h (by decide)
  unfold filterStep
  rw [this]
  rfl

theorem drain_none {q : Node → Forest → Bool} (h : ∀ p n ks, (p, n, ks) ∈ spots top f → q n ks = false) : (Invisible.drain q f).1 = f := by
  unfold Invisible.drain
  have : ∀ (l : List Nat) (b : Bool), (l.foldl (fun g k => match ResolveUse.subtree k g.1 with
    | some (n, ks) => if q n ks then (Invisible.rmKey k g.1, true) else g
    | none => g) (f, b)).1 = f := by
    intro l b
    induction l with
    | nil => rfl
    | cons k l ih =>
      rw [List.foldl_cons]
      have e : (match ResolveUse.subtree k (f, b).1 with
        | some (n, ks) => if q n ks then (Invisible.rmKey k (f, b).1, true) else (f, b)
        | none => (f, b)) = (f, b) := by
        dsimp only
        split
        next n ks hk =>
          obtain ⟨_, r, hr⟩ := subtree_spots top hk
          rw [h r n ks hr]
          rfl
        next => rfl
      rw [e]
      exact ih
  exact this f.keys false

theorem Sketch.matrices (hf : Sketch f) : matrixStep f = f := by
  refine drain_none fun p n ks hx => ?_
  unfold defaultMatrix
  rw [hf.no_tag (spots_nodes hx).1 rfl (by decide)]
  rfl

theorem Sketch.uses (hf : Sketch f) : (useStep f).1 = f := by
  refine drain_none fun p n ks hx => ?_
  unfold emptyUse
  rw [hf.no_tag (spots_nodes hx).1 rfl (by decide)]
  rfl

/-! ### Gradients -/

theorem Sketch.flat (hf : Sketch f) : Flat f where
  good := hf.good
  acyclic := ⟨fun _ => 0, hf.ranked hf.nodes (fun _ h => h) fun _ => rfl⟩
  spot p n ks hx hq := by
    unfold Invisible.flat at hq
    simp only [Bool.and_eq_true, decide_eq_true_eq] at hq
    obtain ⟨⟨hg, _⟩, hl⟩ := hq
    rcases hf.at hx with h | ⟨h, _⟩
    · have hp := fits_gradient h.place hg
      refine ⟨?_, hf.kids_unused hx ?_ ?_, (hf.effects (spots_nodes hx).1).1, fun s hs => ?_⟩
      · subst hp
        rcases isGradient_iff.1 hg with e | e <;> rw [e] <;> rfl
      · intro e; rcases isGradient_iff.1 hg with e' | e' <;> rw [e] at e' <;> cases e'
      · intro e; rcases isGradient_iff.1 hg with e' | e' <;> rw [e] at e' <;> cases e'
      · refine h.single hg s ?_
        generalize ks.top = l at hl hs
        match l, hl, hs with
        | [x], _, hs => rw [List.mem_singleton.1 hs]
    · rcases isGradient_iff.1 hg with e' | e' <;> rw [h] at e' <;> cases e'
  users p n ks hx hq x hx' y hy ht := by
    have h := (hf.attr hx' hy).paint _ ht
    have hl := loose_not h.2.1
    refine ⟨h.1, ?_, ?_⟩
    · cases hk : x.kind with
      | elem e => simp [Node.isSvgElem, hk]
      | _ => rw [hk] at hl; cases hl.1
    · cases hg : x.isGradient with
      | false => rfl
      | true => rcases isGradient_iff.1 hg with e | e <;> simp_all

/-- Changing the attributes of nodes. -/
theorem Sketch.map (hf : Sketch f) {φ : Node → Node} (hk : ∀ n, (φ n).key = n.key) (ht : ∀ n, (φ n).kind = n.kind)
    (hn : ∀ n ∈ f.nodes, ((φ n).attrs.map (·.name)).Nodup) (ha : ∀ n ∈ f.nodes, ∀ y ∈ (φ n).attrs, AttrFine (Grad f) n.kind y)
    (hs : ∀ n ∈ f.nodes, n.kind = .elem .stop → φ n = n) : Sketch (f.map φ) := by
  have hgr : ∀ n, (φ n).isGradient = n.isGradient := fun n => by unfold Node.isGradient Node.isTag; rw [ht]
  refine ⟨(Forest.uniqueKeys_map hk).2 hf.keys, fun x hx => ?_⟩
  obtain ⟨n, ks, h1, h2⟩ := Invisible.spots_map (fun n _ => ht n) hx
  obtain ⟨p, m, c⟩ := x
  cases h2
  dsimp only at h1 ⊢
  have h := hf.nodes _ h1
  dsimp only at h
  have hm := (spots_nodes h1).1
  refine ⟨by rw [ht]; exact h.place, hn n hm, fun y hy => ?_, fun hk' => ?_, fun hg s hs' => ?_, by rw [ht]; exact h.extra⟩
  · rw [ht]
    refine (ha n hm y hy).weaken fun t _ hG => ?_
    obtain ⟨m, hm, rfl, hmg⟩ := hG
    exact ⟨φ m, by rw [Forest.nodes_map]; exact List.mem_map_of_mem hm, hk m, by rw [hgr]; exact hmg⟩
  · rw [ht] at hk'
    obtain ⟨m, hm, hd⟩ := h.anchor hk'
    exact ⟨φ m, by rw [Invisible.top_map]; exact List.mem_map_of_mem hm, by rw [ht]; exact hd⟩
  · rw [hgr] at hg
    rw [Invisible.top_map] at hs'
    have hst := Fine.kid_stop h1 hf.nodes hg
    have e : ks.top.map φ = ks.top := by
      conv_rhs => rw [← List.map_id ks.top]
      exact List.map_congr_left fun s hs'' => hs s ((spots_nodes h1).2 s (top_nodes hs'')) (hst s hs'').1
    rw [e] at hs'
    exact h.single hg s hs'

/-- A paint, or its opacity, without a reference. -/
theorem AttrFine.paints {G : Nat → Prop} {k : Kind} (hl : loose k = true) {a : AId} (ha : a = .fill ∨ a = .stroke ∨ a = .fillOpacity ∨ a = .strokeOpacity) {v : Value}
    (hv : v.target = none) (hi : v ≠ .kw .inherit) (hx : Flavour.attr k ⟨.id a, v, true⟩) : AttrFine G k ⟨.id a, v, true⟩ where
  extra := hx
  paint t ht := by rw [hv] at ht; cases ht
  cond b hb e := by rcases ha with rfl | rfl | rfl | rfl <;> cases e <;> cases hb
  inherit := hi
  transform e := by rcases ha with rfl | rfl | rfl | rfl <;> cases e
  display e := by rcases ha with rfl | rfl | rfl | rfl <;> cases e
  group _ := by rcases ha with rfl | rfl | rfl | rfl <;> rfl
  defs e := absurd e (loose_not hl).2.2.1

/-- What becomes of an attribute that refers to a gradient without stops. -/
def blank (k : Nat) (y : Attr) : Attr :=
  match y.name with
  | .id _ => if y.value.target = some k then ⟨y.name, .kw .none, true⟩ else y
  | .name _ => y

theorem noneLinks_eq (k : Nat) (n : Node) : noneLinks k n = ⟨n.key, n.kind, n.id, n.attrs.map (blank k)⟩ := rfl

theorem blank_name (k : Nat) (y : Attr) : (blank k y).name = y.name := by
  unfold blank
  split
  · split <;> rfl
  · rfl

theorem blank_of {k : Nat} {y : Attr} (h : y.value.target ≠ some k) : blank k y = y := by
  unfold blank
  split
  · rw [if_neg h]
  · rfl

theorem Sketch.none (hf : Sketch f) (k : Nat) : Sketch (noneStep f k) := by
  refine hf.map (fun _ => rfl) (fun _ => rfl) (fun n hn => ?_) (fun n hn y hy => ?_) (fun n hn he => ?_)
  · rw [noneLinks_eq]
    show ((n.attrs.map (blank k)).map Attr.name).Nodup
    rw [List.map_map]
    have : n.attrs.map (Attr.name ∘ blank k) = n.attrs.map Attr.name := List.map_congr_left fun y _ => blank_name k y
    rw [this]
    exact hf.good.attrs n hn
  · rw [noneLinks_eq] at hy
    obtain ⟨z, hz, rfl⟩ := List.mem_map.1 hy
    have h := hf.attr hn hz
    by_cases ht : z.value.target = some k
    · obtain ⟨h1, h2, _⟩ := h.paint k ht
      unfold blank
      split
      next a ha =>
        rw [if_pos ht]
        rw [ha] at h1 ⊢
        have hx := Flavour.paint n.kind z (.kw .none) (by rw [ht]; simp) (.inl rfl) h.extra
        rw [ha] at hx
        refine AttrFine.paints h2 ?_ rfl (by decide) hx
        rcases h1 with h1 | h1 <;> injection h1 with h1
        · exact .inl h1
        · exact .inr (.inl h1)
      next => exact h
    · rw [blank_of ht]; exact h
  · rw [noneLinks_eq]
    have : n.attrs.map (blank k) = n.attrs := by
      conv_rhs => rw [← List.map_id n.attrs]
      refine List.map_congr_left fun y hy => blank_of fun ht => ?_
      have := ((hf.attr hn hy).paint k ht).2.1
      rw [he] at this; cases this
    rw [this]

theorem Sketch.nones (hf : Sketch f) (l : List Nat) : Sketch (l.foldl noneStep f) := by
  induction l generalizing f with
  | nil => exact hf
  | cons k l ih => exact ih (hf.none k)

theorem solid_attrs {G : Nat → Prop} {k : Nat} {r g b : ℕ} {op : ℚ} {n : Node} (hn : (n.attrs.map (·.name)).Nodup) (ha : ∀ y ∈ n.attrs, AttrFine G n.kind y) :
    (solidLinks k (.color r g b) op n).key = n.key ∧ (solidLinks k (.color r g b) op n).kind = n.kind ∧
    ((solidLinks k (.color r g b) op n).attrs.map (·.name)).Nodup ∧ ∀ y ∈ (solidLinks k (.color r g b) op n).attrs, AttrFine G n.kind y := by
  have hl : ∀ a ∈ linkNames k n, (a = .fill ∨ a = .stroke) ∧ loose n.kind = true ∧ Flavour.attr n.kind ⟨.id a, .color r g b, true⟩ := by
    intro a h
    unfold linkNames at h
    obtain ⟨y, hy, h⟩ := List.mem_filterMap.1 h
    split at h
    next b hb =>
      split at h
      next ht =>
        cases h
        obtain ⟨h1, h2, _⟩ := (ha y hy).paint k ht
        rw [hb] at h1
        have hx := Flavour.paint n.kind y (.color r g b) (by rw [ht]; simp) (.inr ⟨r, g, b, rfl⟩) (ha y hy).extra
        rw [hb] at hx
        exact ⟨h1.imp (fun e => by injection e) (fun e => by injection e), h2, hx⟩
      next => cases h
    next => cases h
  unfold solidLinks
  generalize linkNames k n = l at hl
  have key : ∀ m : Node, m.key = n.key → m.kind = n.kind → (m.attrs.map (·.name)).Nodup → (∀ y ∈ m.attrs, AttrFine G n.kind y) →
      ∀ m', m' = (l.foldl (fun m a =>
        let m := m.set a (.color r g b)
        if op = 1 then m else match a with
          | .fill => m.set .fillOpacity (.number op)
          | .stroke => m.set .strokeOpacity (.number op)
          | _ => m) m) → m'.key = n.key ∧ m'.kind = n.kind ∧ (m'.attrs.map (·.name)).Nodup ∧ ∀ y ∈ m'.attrs, AttrFine G n.kind y := by
    induction l with
    | nil => rintro m h1 h2 h3 h4 m' rfl; exact ⟨h1, h2, h3, h4⟩
    | cons a l ih =>
      intro m h1 h2 h3 h4 m' e
      rw [List.foldl_cons] at e
      obtain ⟨ha1, ha2, ha3⟩ := hl a List.mem_cons_self
      have hset : ∀ (m : Node) (a : AId) (v : Value), (m.attrs.map (·.name)).Nodup → (∀ y ∈ m.attrs, AttrFine G n.kind y) →
          AttrFine G n.kind ⟨.id a, v, true⟩ → ((m.set a v).attrs.map (·.name)).Nodup ∧ ∀ y ∈ (m.set a v).attrs, AttrFine G n.kind y := by
        intro m a v h3 h4 h5
        refine ⟨ResolveUse.set_names h3 a v, fun y hy => ?_⟩
        rcases Node.mem_putAttr hy with rfl | hy
        · exact h5
        · exact h4 y hy
      have hc : AttrFine G n.kind ⟨.id a, .color r g b, true⟩ := .paints ha2 (by rcases ha1 with h | h <;> simp [h]) rfl (by simp) ha3
      obtain ⟨s1, s2⟩ := hset m a (.color r g b) h3 h4 hc
      refine ih (fun a h => hl a (List.mem_cons_of_mem _ h)) _ ?_ ?_ ?_ ?_ m' e
      all_goals dsimp only; split
      any_goals assumption
      all_goals rcases ha1 with rfl | rfl
      any_goals assumption
      · exact (hset _ .fillOpacity (.number op) s1 s2 (.paints ha2 (by simp) rfl (by simp) (Flavour.opacity _ _ _ (by simp)))).1
      · exact (hset _ .strokeOpacity (.number op) s1 s2 (.paints ha2 (by simp) rfl (by simp) (Flavour.opacity _ _ _ (by simp)))).1
      · exact (hset _ .fillOpacity (.number op) s1 s2 (.paints ha2 (by simp) rfl (by simp) (Flavour.opacity _ _ _ (by simp)))).2
      · exact (hset _ .strokeOpacity (.number op) s1 s2 (.paints ha2 (by simp) rfl (by simp) (Flavour.opacity _ _ _ (by simp)))).2
  exact key n rfl rfl hn ha _ rfl

theorem solid_same (k : Nat) (c : Value) (op : ℚ) (n : Node) : (solidLinks k c op n).key = n.key ∧ (solidLinks k c op n).kind = n.kind := by
  unfold solidLinks
  have : ∀ (l : List AId) (m : Node), m.key = n.key ∧ m.kind = n.kind → (l.foldl (fun m a =>
        let m := m.set a c
        if op = 1 then m else match a with
          | .fill => m.set .fillOpacity (.number op)
          | .stroke => m.set .strokeOpacity (.number op)
          | _ => m) m).key = n.key ∧ (l.foldl (fun m a =>
        let m := m.set a c
        if op = 1 then m else match a with
          | .fill => m.set .fillOpacity (.number op)
          | .stroke => m.set .strokeOpacity (.number op)
          | _ => m) m).kind = n.kind := by
    intro l
    induction l with
    | nil => exact fun m h => h
    | cons a l ih =>
      intro m h
      rw [List.foldl_cons]
      refine ih _ ?_
      dsimp only
      split
      · exact h
      · split <;> exact h
  exact this _ n ⟨rfl, rfl⟩

theorem Sketch.solid (hf : Sketch f) {k : Nat} {r g b : ℕ} {op : ℚ} :
    Sketch (f.map fun n => if n.isGradient then n else solidLinks k (.color r g b) op n) := by
  refine hf.map (fun n => ?_) (fun n => ?_) (fun n hn => ?_) (fun n hn => ?_) (fun n hn he => ?_)
  · split
    · rfl
    · exact (solid_same _ _ _ n).1
  · split
    · rfl
    · exact (solid_same _ _ _ n).2
  · split
    · exact hf.good.attrs n hn
    · exact (solid_attrs (hf.good.attrs n hn) fun y hy => hf.attr hn hy).2.2.1
  · split
    · exact fun y hy => hf.attr hn hy
    · exact (solid_attrs (hf.good.attrs n hn) fun y hy => hf.attr hn hy).2.2.2
  · split
    · rfl
    · have : linkNames k n = [] := by
        rw [List.eq_nil_iff_forall_not_mem]
        intro a ha
        obtain ⟨y, hy, _, ht⟩ := Crash.linkNames_mem ha
        have := ((hf.attr hn hy).paint k ht).2.1
        rw [he] at this; cases this
      unfold solidLinks
      rw [this]
      rfl

theorem Sketch.solids (hf : Sketch f) {l : List (Nat × Node)} {g : Forest} (h : solidSteps l f = some g) : Sketch g := by
  induction l generalizing f with
  | nil => cases h; exact hf
  | cons x l ih =>
    obtain ⟨f', h1, h2⟩ := Option.bind_eq_some_iff.1 h
    refine ih ?_ h2
    unfold solidStep at h1
    split at h1
    · split at h1
      · cases h1; exact hf.solid
      · cases h1
    · cases h1

theorem emptyGradients_kind {k : Nat} (h : k ∈ emptyGradients f) : ∃ n ∈ f.nodes, n.key = k ∧ n.isGradient = true := by
  induction f with
  | nil => cases h
  | cons n q r ih1 ih2 =>
    rw [emptyGradients, List.mem_append, List.mem_append] at h
    simp only [Forest.nodes, List.mem_cons, List.mem_append]
    rcases h with (h | h) | h
    · split at h
      next e =>
        simp only [Bool.and_eq_true] at e
        exact ⟨n, .inl rfl, (List.mem_singleton.1 h).symm, e.1.1⟩
      · cases h
    · obtain ⟨m, hm, e⟩ := ih1 h; exact ⟨m, .inr (.inl hm), e⟩
    · obtain ⟨m, hm, e⟩ := ih2 h; exact ⟨m, .inr (.inr hm), e⟩

/-- The kinds of the nodes, by their keys. -/
def tags (f : Forest) : List (Nat × Kind) := f.nodes.map fun n => (n.key, n.kind)

theorem tags_map {φ : Node → Node} (h1 : ∀ n, (φ n).key = n.key) (h2 : ∀ n, (φ n).kind = n.kind) : tags (f.map φ) = tags f := by
  unfold tags
  rw [Forest.nodes_map, List.map_map]
  exact List.map_congr_left fun n _ => by simp [h1, h2]

theorem tags_nones (l : List Nat) : tags (l.foldl noneStep f) = tags f := by
  induction l generalizing f with
  | nil => rfl
  | cons k l ih => exact (ih (f := noneStep f k)).trans (tags_map (fun _ => rfl) (fun _ => rfl))

theorem tags_solids {l : List (Nat × Node)} {g : Forest} (h : solidSteps l f = some g) : tags g = tags f := by
  induction l generalizing f with
  | nil => cases h; rfl
  | cons x l ih =>
    obtain ⟨f', h1, h2⟩ := Option.bind_eq_some_iff.1 h
    rw [ih h2]
    unfold solidStep at h1
    split at h1
    · split at h1
      · cases h1
        refine tags_map (fun n => ?_) (fun n => ?_) <;> split
        · rfl
        · exact (solid_same _ _ _ n).1
        · rfl
        · exact (solid_same _ _ _ n).2
      · cases h1
    · cases h1

theorem Sketch.gradients (hf : Sketch f) {g : Forest} {b : Bool} (h : gradientStep f = some (g, b)) : SameView f g ∧ Sketch g := by
  refine ⟨C38_gradients_partial hf.flat h, ?_⟩
  unfold gradientStep at h
  obtain ⟨g', h1, h2⟩ := Option.map_eq_some_iff.1 h
  cases h2
  have hs := (hf.nones (emptyGradients f)).solids h1
  refine hs.rmKeys fun n hn hk => ?_
  have ht := (tags_solids h1).trans (tags_nones (emptyGradients f))
  have key : ∀ m : Node, m ∈ f.nodes → m.isGradient = true → m.key = n.key → n.kind ≠ .elem .defs ∧ n.kind ≠ .elem .stop := by
    intro m hm hg e
    have h3 : (n.key, n.kind) ∈ tags f := ht ▸ List.mem_map.2 ⟨n, hn, rfl⟩
    obtain ⟨n', hn', e'⟩ := List.mem_map.1 h3
    injection e' with e1 e2
    have := hf.same hm hn' (e.trans e1.symm)
    subst this
    rw [← e2]
    rcases isGradient_iff.1 hg with e | e <;> rw [e] <;> exact ⟨by decide, by decide⟩
  rcases List.mem_append.1 hk with hk | hk
  · obtain ⟨m, hm, e, hg⟩ := emptyGradients_kind hk
    exact key m hm hg e
  · obtain ⟨x, hx, e⟩ := List.mem_map.1 hk
    obtain ⟨y, hy, e1, e2, _⟩ := Crash.solidGradients_mem hx
    obtain ⟨q, hq⟩ := subs_spots (p := doc) hy
    have hm := (spots_nodes hq).1
    have h3 : (y.1.key, y.1.kind) ∈ tags f := tags_nones (f := f) (emptyGradients f) ▸ List.mem_map.2 ⟨y.1, hm, rfl⟩
    obtain ⟨n', hn', e'⟩ := List.mem_map.1 h3
    injection e' with e3 e4
    refine key n' hn' ?_ (e3.trans (e1.trans e))
    rw [← Crash.gradKind_eq, e4]
    exact e2

end Verif.Draft
