import Verif.SketchUngroup
/-
C66: grouping by style leaves `defs` elements as they are.
-/
namespace Verif.Draft
open Verif.Dom Verif.Spec Verif.Render
open Verif.GroupStyle
open Verif.Needless (rmAll)

variable [Flavour]

variable {f g : Forest} {u : Nat → Bool}

/-- Links after grouping by style. -/
theorem byStyle_links (hf : Styled f) (h : groupByStyle f = some g) : LinksIn (fun x => f.isUsed x = true) g := by
  have hsub : ∀ x ∈ subs f, SubFit f.isUsed x := fun x hx => by
    have hn := mem_nodes_of_subs hx
    exact ⟨hf.foreign x hx, fun _ => ⟨hf.names _ hn, fun _ => hf.takes _ hn, hf.typed _ hn, hf.inherit _ hn⟩, hf.svg x hx⟩
  unfold groupByStyle at h
  simp only [Option.bind_eq_some_iff, Option.map_eq_some_iff] at h
  obtain ⟨⟨s, k⟩, hs, ⟨k1, a⟩, hk, ⟨s', k', b⟩, hr, rfl⟩ := h
  obtain ⟨h1, h2, h3⟩ := svg_subs hs
  have hu : ∀ x, freshKey f ≤ x → f.isUsed x = false := fun x hx => fresh_unused f hx
  have d1 := groupKids_done hk (fun x hx => hsub x (h2 x hx)) hu
  have d2 := regroup_done hr d1.kids ((hsub _ h1).fit (by simp only [Node.isSvgElem, h3])) (fun hsvg => by
    obtain ⟨c, hc1, hc2, hc3, hc4, hc5⟩ := hf.svg _ h1 hsvg
    exact ⟨c, d1.other c hc1 hc3 hc4, hc2, hc3, hc4, hc5⟩) (fun x hx => hu x (Nat.le_trans d1.fresh hx))
  exact setSvg_links hs (Ungroup.linksIn_used f) (fun hv1 hv2 => d2.links hv1 (d1.links hv2))

/-- What `Tidy` says about a node. -/
structure Neat (u : Nat → Bool) (p : Kind) (n : Node) : Prop where
  defs : n.kind = .elem .defs → u n.key = false ∧ UnusedDefs.Bare n ∧ groupPlace p = true
  foreign : isElem n.kind = false → n.get .transform = none

/-- A forest in an element of kind `p`. -/
def Plot (u : Nat → Bool) (p : Kind) (f : Forest) : Prop := ∀ x ∈ spots p f, Neat u x.1 x.2.1

theorem plot_cons {p : Kind} {n : Node} {k r : Forest} : Plot u p (.cons n k r) ↔ Neat u p n ∧ Plot u n.kind k ∧ Plot u p r := by
  constructor
  · intro h
    exact ⟨h (p, n, k) (by simp [spots]), fun x hx => h x (by simp [spots, hx]), fun x hx => h x (by simp [spots, hx])⟩
  · rintro ⟨h1, h2, h3⟩ x hx
    simp only [spots, List.mem_cons, List.mem_append] at hx
    rcases hx with rfl | hx | hx
    · exact h1
    · exact h2 x hx
    · exact h3 x hx

theorem plot_nil {p : Kind} : Plot u p .nil := fun x hx => by cases hx

theorem plot_append {p : Kind} : Plot u p (f ++ g) ↔ Plot u p f ∧ Plot u p g := by
  constructor
  · intro h
    exact ⟨fun x hx => h x (by rw [GroupDefs.spots_append]; exact List.mem_append_left _ hx), fun x hx => h x (by rw [GroupDefs.spots_append]; exact List.mem_append_right _ hx)⟩
  · rintro ⟨h1, h2⟩ x hx
    rw [GroupDefs.spots_append, List.mem_append] at hx
    exact hx.elim (h1 x) (h2 x)

theorem Neat.move {p q : Kind} {n : Node} (h : Neat u p n) (hq : groupPlace q = true) : Neat u q n :=
  ⟨fun e => ⟨(h.defs e).1, (h.defs e).2.1, hq⟩, h.foreign⟩

theorem plot_move {p q : Kind} (h : Plot u p f) (hq : groupPlace q = true) : Plot u q f := by
  induction f with
  | nil => exact plot_nil
  | cons n k r _ ih =>
    obtain ⟨h1, h2, h3⟩ := plot_cons.1 h
    exact plot_cons.2 ⟨h1.move hq, h2, ih h3⟩

theorem Neat.sub {p : Kind} {n m : Node} (h : Neat u p n) (hk : m.key = n.key) (ht : m.kind = n.kind) (ha : ∀ y ∈ m.attrs, y ∈ n.attrs) (hn : ∀ a, n.get a = none → m.get a = none) : Neat u p m :=
  ⟨fun e => by
    obtain ⟨h1, h2, h3⟩ := h.defs (ht ▸ e)
    exact ⟨hk ▸ h1, fun a ha => hn a (h2 a ha), h3⟩, fun e => hn _ (h.foreign (ht ▸ e))⟩

theorem get_sub {n m : Node} (ha : ∀ y ∈ m.attrs, y ∈ n.attrs) {a : AId} (h : n.get a = none) : m.get a = none := by
  unfold Node.get getAttr at h ⊢
  rw [Option.map_eq_none_iff, List.find?_eq_none] at h ⊢
  exact fun y hy => h y (ha y hy)

theorem Neat.rmAll {p : Kind} {n : Node} (h : Neat u p n) (l : List AId) : Neat u p (rmAll n l) :=
  h.sub (rmAll_sameBut n l).key (rmAll_sameBut n l).kind (TextAttrs.rmAll_subset n l) fun _ => get_sub (TextAttrs.rmAll_subset n l)

theorem Neat.group {p : Kind} {n : Node} (h : n.kind = .elem .g ∨ n.kind = .elem .svg) : Neat u p n :=
  ⟨fun e => (by rcases h with h | h <;> rw [h] at e <;> cases e), fun e => (by rcases h with h | h <;> rw [h] at e <;> cases e)⟩

theorem setOn_kind {n m : Node} {x : Attr} (h : setOn n x = some m) : m.kind = n.kind := by
  unfold setOn at h
  split at h
  · cases h
    unfold appendValue
    split <;> rfl
  · unfold Ungroup.copyAttr at h
    split at h
    · cases h
    · cases h; rfl

theorem setAll_kind {A : List Attr} {n m : Node} (h : setAll A n = some m) : m.kind = n.kind := by
  induction A generalizing n with
  | nil => cases h; rfl
  | cons x t ih =>
    obtain ⟨n', h1, h2⟩ := Option.bind_eq_some_iff.1 h
    exact (ih h2).trans (setOn_kind h1)

theorem plot_pick {p : Kind} {as : List AId} {i j m : Nat} (h : Plot u p f) : Plot u p (pick as i j m f) := by
  induction f generalizing m with
  | nil => exact plot_nil
  | cons n k r _ ih =>
    obtain ⟨h1, h2, h3⟩ := plot_cons.1 h
    rw [pick]
    split
    · split
      · exact plot_cons.2 ⟨h1.rmAll as, by rw [(rmAll_sameBut n as).kind]; exact h2, ih h3⟩
      · exact ih h3
    · exact ih h3

theorem plot_nonSvg {p : Kind} (h : Plot u p f) : Plot u p (nonSvg f) := by
  induction f with
  | nil => exact plot_nil
  | cons n k r _ ih =>
    obtain ⟨h1, h2, h3⟩ := plot_cons.1 h
    rw [nonSvg]
    split
    · exact ih h3
    · exact plot_cons.2 ⟨h1, h2, ih h3⟩

theorem plot_place {p : Kind} {n : Node} (hn : n.kind = .elem .g) {K : Forest} (hK : Plot u (.elem .g) K) {i j m : Nat} (h : Plot u p f) : Plot u p (place n K i j m f) := by
  induction f generalizing m with
  | nil => exact plot_nil
  | cons a k r _ ih =>
    obtain ⟨h1, h2, h3⟩ := plot_cons.1 h
    rw [place]
    split
    · split
      · exact plot_cons.2 ⟨.group (.inl hn), by rw [hn]; exact hK, ih h3⟩
      · split
        · exact ih h3
        · exact plot_cons.2 ⟨h1, h2, ih h3⟩
    · exact plot_cons.2 ⟨h1, h2, ih h3⟩

theorem plot_wrapRow {p : Kind} {d : Row} {fresh fr : Nat} (h : wrapRow d f fresh = some (g, fr)) (hf : Plot u p f) : Plot u p g := by
  unfold wrapRow at h
  obtain ⟨⟨i, j⟩, _, h⟩ := Option.bind_eq_some_iff.1 h
  obtain ⟨n, hn, h⟩ := Option.map_eq_some_iff.1 h
  cases h
  have hk : n.kind = .elem .g := setAll_kind hn
  exact plot_place hk (plot_pick (plot_move hf rfl)) hf

theorem plot_wrapFirst {p : Kind} {t : List Row} {fresh fr : Nat} (h : wrapFirst t f fresh = some (g, fr)) (hf : Plot u p f) : Plot u p g := by
  unfold wrapFirst at h
  split at h
  · cases h; exact hf
  · exact plot_wrapRow h hf

theorem plot_regroup {used : Nat → Bool} {anc : List Node} {p p' : Node} {k k' : Forest} {fresh fr : Nat} (h : regroup used anc p k fresh = some (p', k', fr))
    (hk : Plot u p.kind k) : Plot u p'.kind k' ∧ p'.kind = p.kind ∧ (p' = p ∨ p.kind = .elem .svg ∨ p.kind = .elem .g) := by
  unfold regroup at h
  split at h
  · cases h; exact ⟨hk, rfl, .inl rfl⟩
  next hp =>
    have hpk : p.kind = .elem .svg ∨ p.kind = .elem .g := by
      rw [← Node.isTag_iff, ← Node.isTag_iff]
      cases h1 : p.isTag .svg with
      | true => exact .inl rfl
      | false =>
        cases h2 : p.isTag .g with
        | true => exact .inr rfl
        | false => exact absurd (by rw [h1, h2]; rfl) hp
    have hpl : groupPlace p.kind = true := by rcases hpk with e | e <;> rw [e] <;> rfl
    have hsp := (splitTail_spec used k).1
    dsimp only at h
    generalize hb : (splitTail used k).1 = b at h hsp
    generalize ht : (splitTail used k).2 = t at h hsp
    rw [hsp] at hk
    obtain ⟨hkb, hkt⟩ := plot_append.1 hk
    rw [← hsp] at hk
    split at h
    · cases h; exact ⟨hk, rfl, .inl rfl⟩
    · split at h
      · cases h; exact ⟨hk, rfl, .inl rfl⟩
      next d ds _ =>
        split at h
        · split at h
          · obtain ⟨q, hq, h⟩ := Option.bind_eq_some_iff.1 h
            obtain ⟨⟨x1, x2⟩, hx, h⟩ := Option.map_eq_some_iff.1 h
            cases h
            rw [setAll_kind hq]
            exact ⟨plot_append.2 ⟨plot_nonSvg hkt, plot_wrapFirst hx (plot_pick hkt)⟩, rfl, .inr hpk⟩
          · obtain ⟨q, hq, h⟩ := Option.bind_eq_some_iff.1 h
            obtain ⟨⟨x1, x2⟩, hx, h⟩ := Option.map_eq_some_iff.1 h
            cases h
            have hqk : q.kind = .elem .g := setAll_kind hq
            exact ⟨plot_append.2 ⟨hkb, plot_place hqk (plot_move (plot_wrapFirst hx (plot_pick hkt)) rfl) hkt⟩, rfl, .inl rfl⟩
        · obtain ⟨⟨x1, x2⟩, hx, h⟩ := Option.map_eq_some_iff.1 h
          cases h
          exact ⟨plot_append.2 ⟨hkb, plot_wrapRow hx hkt⟩, rfl, .inl rfl⟩

theorem plot_kids {used : Nat → Bool} {anc : List Node} {p : Kind} {fresh fr : Nat} (h : groupKids used anc f fresh = some (g, fr)) (hf : Plot u p f) : Plot u p g := by
  induction f generalizing anc fresh g fr p with
  | nil => cases h; exact plot_nil
  | cons n k r ih1 ih2 =>
    obtain ⟨h1, h2, h3⟩ := plot_cons.1 hf
    rw [groupKids] at h
    obtain ⟨⟨y1, y2, y3⟩, hy, h⟩ := Option.bind_eq_some_iff.1 h
    obtain ⟨⟨z1, z2⟩, hz, h⟩ := Option.map_eq_some_iff.1 h
    cases h
    have hr := ih2 hz h3
    split at hy
    · obtain ⟨⟨x1, x2⟩, hx, hy⟩ := Option.bind_eq_some_iff.1 hy
      obtain ⟨a, b, c⟩ := plot_regroup hy (ih1 hx h2)
      refine plot_cons.2 ⟨?_, a, hr⟩
      rcases c with rfl | c
      · exact h1
      · exact .group (by rw [b]; exact c.symm)
    · cases hy
      exact plot_cons.2 ⟨h1, h2, hr⟩

theorem plot_setSvg {p : Kind} {s s' : Node} {k k' : Forest} (h : svgElement f = some (s, k)) (hf : Plot u p f) (hs : Neat u p s') (hk : Plot u s'.kind k') :
    Plot u p (setSvgElement s' k' f) := by
  induction f with
  | nil => cases h
  | cons n c r _ ih =>
    obtain ⟨h1, h2, h3⟩ := plot_cons.1 hf
    rw [svgElement] at h
    rw [setSvgElement]
    split at h
    next e => rw [if_pos e]; exact plot_cons.2 ⟨hs, hk, h3⟩
    next e => rw [if_neg e]; exact plot_cons.2 ⟨h1, h2, ih h h3⟩

theorem plot_svg {p : Kind} {s : Node} {k : Forest} (h : svgElement f = some (s, k)) (hf : Plot u p f) : Plot u s.kind k := by
  induction f with
  | nil => cases h
  | cons n c r _ ih =>
    obtain ⟨h1, h2, h3⟩ := plot_cons.1 hf
    rw [svgElement] at h
    split at h
    next e => cases h; exact h2
    next => exact ih h h3

theorem Sketch.plot (hf : Sketch f) : Plot f.isUsed top f := fun x hx =>
  ⟨fun e => by
    have := hf.plain.defs x hx e
    exact this, fun e => hf.plain.foreign _ (spots_nodes hx).1 e⟩

theorem Sketch.byStyle (hf : Sketch f) (h : groupByStyle f = some g) : SameLook f g ∧ Render.Tidy g := by
  refine ⟨C37_look_partial hf.styled h, ?_⟩
  have hl := byStyle_links hf.styled h
  have hp : Plot f.isUsed top g := by
    unfold groupByStyle at h
    obtain ⟨⟨s, k⟩, hs, h⟩ := Option.bind_eq_some_iff.1 h
    obtain ⟨⟨k1, a⟩, hk, h⟩ := Option.bind_eq_some_iff.1 h
    obtain ⟨⟨s', k', b⟩, hr, rfl⟩ := Option.map_eq_some_iff.1 h
    obtain ⟨h1, h2, _⟩ := plot_regroup hr (plot_kids hk (plot_svg hs hf.plot))
    have hsk := (svg_subs hs).2.2
    exact plot_setSvg hs hf.plot (.group (by rw [h2, hsk]; exact .inr rfl)) h1
  constructor
  · intro x hx e
    obtain ⟨h1, h2⟩ := (hp x hx).defs e
    refine ⟨fun hu => ?_, h2⟩
    rw [Ungroup.isUsed_of_linksIn hl hu] at h1; cases h1
  · intro n hn e
    obtain ⟨x, hx, rfl⟩ := mem_spots (p := top) hn
    exact (hp x hx).foreign e

theorem Sketch.uses' (hf : Sketch f) (h : ResolveUse.resolveUse f = some g) : g = f := by
  have : f.nodes.filter (·.isTag .use) = [] := List.filter_eq_nil_iff.2 fun n hn => by rw [hf.no_tag hn rfl (by decide)]; decide
  unfold ResolveUse.resolveUse ResolveUse.pairs at h
  rw [this] at h
  cases h
  rfl

end Verif.Draft
