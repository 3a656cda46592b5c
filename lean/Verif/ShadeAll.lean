import Verif.ShadeApply
import Verif.ShadeUnitsLast
import Verif.ShadeChainCases
/-
C73: all passes over gradients, with the removal of common `gradientUnits` at the end.
-/
namespace Verif.Shade
open Verif.Dom Verif.Spec Verif.Render Verif.Reader Verif.ApplyTs
open Verif.GradUnits (Ready C45_ends removeGradientAttributes)

/-- `gradientUnits` has one of the values of the standard wherever it is written. -/
def UnitsValid (f : Forest) : Prop :=
  ∀ n ∈ f.nodes, n.isGradient = true → ∀ v, written n .gradientUnits = some v → v = .kw .objectBoundingBox ∨ v = .kw .userSpaceOnUse

/-- The same for what is in memory. -/
def Words (f : Forest) : Prop :=
  ∀ n ∈ f.nodes, n.isGradient = true → ∀ v, n.get .gradientUnits = some v → v = .kw .objectBoundingBox ∨ v = .kw .userSpaceOnUse

/-- The passes over gradients, `src/cleaner.rs:77-78`, `122-152`, `181-185` and `197-199`: those of `gradientPasses`, and then common
`gradientUnits` are removed. -/
def allGradientPasses (o : Cli.CleaningOptions) (f : Forest) : Option Forest :=
  (gradientPasses o f).bind (opt o.removeGradientAttributes removeGradientAttributes)

theorem resolved_words {f r : Forest} (hf : Fresh f) (h : Shade.resolved f = some r) (hu : UnitsValid f) : Words r := by
  have hr := href_of_paper hf.page.attrs hf.page.sheet.href
  obtain ⟨w, hw, hn⟩ := Gradients.C26_resolved_partial hf.unique hf.visible hr h
  intro y hy hg v hv
  rw [hw, Forest.nodes_map] at hy
  obtain ⟨x, hx, rfl⟩ := List.mem_map.1 hy
  obtain ⟨_, h2, _, _, _, _, h7⟩ := hn x hx
  have hxg : x.isGradient = true := (isGradient_congr h2).symm.trans hg
  have hag : AId.gradientUnits ∈ gradientAttrs x.kind := by
    rcases (isGradient_iff x).1 hxg with hk | hk <;> rw [hk] <;> decide
  rcases (h7 _ hag (.inr hf.linear) _).1 hv with (h | ⟨_, h⟩) | ⟨_, c, h, _⟩
  · obtain ⟨rank, hrank⟩ := hr
    obtain ⟨m, hm, hmg, hmw⟩ := effective_mem hf.unique hrank hx hxg h rfl
    exact hu m hm hmg v hmw
  · rw [GradUnits.units_default hxg] at h
    exact .inl (Option.some.inj h).symm
  · cases h

theorem body_words {k : Nat} {f g : Forest} (hu : f.UniqueKeys) (hw : Words f) (ho : Gradients.OnlyHref f) (h : gradientBody k f = some g) :
    g.UniqueKeys ∧ Words g ∧ Gradients.OnlyHref g := by
  rcases body_shape hu h with rfl | ⟨n, hn, hng, T, rfl⟩
  · exact ⟨hu, hw, ho⟩
  have ht := put_turn hu hn hng T
  refine ⟨?_, ?_, ?_⟩
  · rw [ht.eq]
    refine (Forest.uniqueKeys_map fun x => ?_).2 hu
    split
    next e => rw [e]; exact (moveGradient_same n T).key
    · rfl
  · intro y hy hg v hv
    obtain ⟨x, hx, rfl⟩ := ht.mem hy
    rcases ht.cases x hx with e | ⟨hxg, T', e⟩
    · rw [e] at hg hv
      exact hw x hx hg v hv
    · rw [e] at hv
      refine hw x hx hxg v ?_
      rw [← hv]
      unfold Node.get
      rw [(moveGradient_same x T').attr _ (by decide)]
  · intro y hy hg z hz hzt
    obtain ⟨x, hx, rfl⟩ := ht.mem hy
    rcases ht.cases x hx with e | ⟨hxg, T', e⟩
    · rw [e] at hg hz
      exact ho x hx hg z hz hzt
    · rw [e] at hz
      exact ho x hx hxg z (moved_from hz hzt) hzt

theorem apply_words {f g : Forest} (hu : f.UniqueKeys) (hw : Words f) (ho : Gradients.OnlyHref f) (h : applyToGradients f = some g) :
    Words g ∧ Gradients.OnlyHref g := by
  unfold applyToGradients at h
  generalize f.keys = ks at h
  induction ks generalizing f with
  | nil => cases h; exact ⟨hw, ho⟩
  | cons k t ih =>
    simp only [Gradients.forEach, Option.bind_eq_some_iff] at h
    obtain ⟨f1, h1, h2⟩ := h
    obtain ⟨a, b, c⟩ := body_words hu hw ho h1
    exact ih a b c h2

theorem fuse_words {e : EId} (he : e = .linearGradient ∨ e = .radialGradient) {as : List AId} (has : ∀ a, a ∈ as ↔ a ∈ gradientAttrs (.elem e) ∧ a ≠ .gradientTransform)
    {f g : Forest} (hf : Page f) (hg : Dupl.Good f) (hw : Words f) (h : Dupl.rmLoop (Dupl.cmpGradients as) (Gradients.ofKind f e) f = some g) : Words g := by
  obtain ⟨g', h', ⟨_, ρ, hd⟩, _⟩ := fuse_all he has hf hg
  rw [h] at h'
  have := Option.some.inj h'
  subst this
  intro y hy hyg v hv
  obtain ⟨x, hx, rfl⟩ := hd.back y hy
  rw [get_rename] at hv
  obtain ⟨u, hu, rfl⟩ := Option.map_eq_some_iff.1 hv
  rcases hw x hx hyg u hu with rfl | rfl
  · exact .inl rfl
  · exact .inr rfl

theorem Steady.merge_words {b : Bool} {f g : Forest} (hf : Steady b f) (hw : Words f) (hc : Merge.mergeGradients f = some g) : Words g ∧ Gradients.OnlyHref g := by
  obtain ⟨hm, _⟩ := Made.loop (merge_good hf.good hf.linear hf.moves hf.page).inv hf.page.made hc
  refine ⟨fun y hy hyg v hv => ?_, hm.only hf.good.only⟩
  obtain ⟨x, hx, hxg, _, _, hv'⟩ := hf.merge_origin hc y hy hyg
  rw [(hv' _ (by decide)).1] at hv
  exact hw x hx hxg v hv

theorem ready_from {f : Forest} (hp : Page f) (hg : Regroup.Good f) (hr : ResolvedDoc f) (ho : Gradients.OnlyHref f) (hw : Words f) : Ready f := by
  refine ⟨hp.unique, hp.href, hg.shown, ho, hp.attrs, fun n hn hng v => ?_, hw⟩
  refine hr n hn hng _ ?_ v
  rcases (isGradient_iff n).1 hng with hk | hk <;> rw [hk] <;> decide

/-- **C73** All passes over gradients, one after another, with any choice of options, end and do not change what is drawn. -/
theorem C73_all_passes_partial (o : Cli.CleaningOptions) {f : Forest} (hf : Fresh f) (hr : o.applyTransformToGradients = true → RadiiWritten f)
    (hu : o.removeGradientAttributes = true → UnitsValid f) : ∃ g, allGradientPasses o f = some g ∧ Page g ∧ SameShade f (onPaper g) := by
  unfold allGradientPasses
  cases hb : o.removeGradientAttributes with
  | false =>
    obtain ⟨g, h1, h2, h3⟩ := C73_passes_partial o hf hr
    exact ⟨g, by rw [h1]; rfl, h2, h3⟩
  | true =>
    replace hu := hu hb
    obtain ⟨f0, h0⟩ := Gradients.C26_no_crash hf.unique hf.visible (href_of_paper hf.page.attrs hf.page.sheet.href) hf.only hf.page.attrs
    have h0 : Shade.resolved f = some f0 := h0
    obtain ⟨i0, e0⟩ := fresh_steady (b := o.applyTransformToGradients) hf hr h0
    have w0 := resolved_words hf h0 hu
    obtain ⟨f1, h1, ⟨i1, w1⟩, s1⟩ := opt_ok (S := fun f => Steady o.applyTransformToGradients f ∧ Words f) (t := applyToGradients) o.applyTransformToGradients ⟨i0, w0⟩ fun hb => by
      rw [hb] at i0 ⊢
      obtain ⟨g, a, b, c⟩ := i0.apply
      exact ⟨g, a, ⟨b, (apply_words i0.page.unique w0 i0.good.only a).1⟩, c⟩
    obtain ⟨f2, h2, ⟨i2, w2⟩, s2⟩ := opt_ok (S := fun f => Steady o.applyTransformToGradients f ∧ Words f) (t := Dupl.rmLinear) o.removeDuplLinearGradients ⟨i1, w1⟩ fun _ => by
      obtain ⟨g, a, b, c⟩ := i1.fuse (.inl rfl) Dupl.linear_attrs
      exact ⟨g, a, ⟨b, fuse_words (.inl rfl) Dupl.linear_attrs i1.page i1.good w1 a⟩, c⟩
    obtain ⟨f3, h3, ⟨i3, w3⟩, s3⟩ := opt_ok (S := fun f => Steady o.applyTransformToGradients f ∧ Words f) (t := Dupl.rmRadial) o.removeDuplRadialGradients ⟨i2, w2⟩ fun _ => by
      obtain ⟨g, a, b, c⟩ := i2.fuse (.inr rfl) Dupl.radial_attrs
      exact ⟨g, a, ⟨b, fuse_words (.inr rfl) Dupl.radial_attrs i2.page i2.good w2 a⟩, c⟩
    have h4 : ∃ g, opt o.mergeGradients Merge.mergeGradients f3 = some g ∧ (Late o.applyTransformToGradients g ∧ ResolvedDoc g ∧ Words g ∧ Gradients.OnlyHref g) ∧
        SameShade (onPaper f3) (onPaper g) := by
      cases o.mergeGradients with
      | false => exact ⟨f3, rfl, ⟨i3.late, i3.resolved, w3, i3.good.only⟩, SameShade.refl _⟩
      | true =>
        obtain ⟨g, a, b, c⟩ := i3.merge
        exact ⟨g, a, ⟨b, i3.merge_resolved a, i3.merge_words w3 a⟩, c⟩
    obtain ⟨f4, h4, ⟨i4, r4, w4, o4⟩, s4⟩ := h4
    obtain ⟨f5, h5, ⟨i5, r5, w5, o5⟩, s5⟩ := opt_ok (S := fun f => Late o.applyTransformToGradients f ∧ ResolvedDoc f ∧ Words f ∧ Gradients.OnlyHref f) (t := applyToGradients)
      o.applyTransformToGradients ⟨i4, r4, w4, o4⟩ fun hb => by
        rw [hb] at i4 ⊢
        obtain ⟨g, a, b, c⟩ := i4.apply
        exact ⟨g, a, ⟨b, (b.apt rfl).resolved, apply_words i4.page.unique w4 o4 a⟩, c⟩
    have rd := ready_from i5.page i5.good r5 o5 w5
    have h6 : ∃ g h, opt o.regroupGradientStops Regroup.regroup f5 = some g ∧ removeGradientAttributes g = some h ∧ Page h ∧ SameShade (onPaper f5) (onPaper h) := by
      cases o.regroupGradientStops with
      | false =>
        obtain ⟨h, a⟩ := C45_ends rd
        obtain ⟨p, s⟩ := C72_units_partial i5.page rd a
        exact ⟨f5, h, rfl, a, p, s⟩
      | true => exact C72_regroup_units_partial i5.page i5.good rd
    obtain ⟨f6, f7, h6, h7, p7, s6⟩ := h6
    have e : onPaper f = f := by
      rw [onPaper_map]
      refine Forest.map_id' fun n hn => ?_
      unfold paper
      rw [List.filter_eq_self.2 (hf.visible n hn)]
    refine ⟨f7, ?_, p7, ?_⟩
    · unfold gradientPasses
      rw [h0, Option.bind_some, h1, Option.bind_some, h2, Option.bind_some, h3, Option.bind_some, h4, Option.bind_some, h5, Option.bind_some, h6]
      exact h7
    · rw [e0, e] at s1
      exact ((s1.trans s2).trans (s3.trans s4)).trans (s5.trans s6)

/-! ### An example -/

def user : Value := .kw .userSpaceOnUse

/-- Three gradients with the same stops, two of them with coordinates in user space, one of these with a transform. -/
def trio : Forest :=
  .cons (elem 0 .svg [])
    (.cons (grad 1 "a" .linearGradient [(.gradientUnits, user), (.x1, px 5), (.x2, px 6), (.y1, px 0), (.y2, px 0), (.gradientTransform, bigger)]) (stop 10 1 (stop 11 2 .nil))
    (.cons (grad 2 "b" .radialGradient [(.gradientUnits, user), (.r, px 3)]) (stop 12 1 (stop 13 2 .nil))
    (.cons (grad 3 "c" .linearGradient [(.x1, px 1)]) (stop 14 1 (stop 15 2 .nil))
    (.cons (elem 5 .rect [(.fill, .funcLink 1), (.stroke, .funcLink 2)]) .nil
    (.cons (elem 6 .rect [(.fill, .funcLink 3)]) .nil .nil)))))
  .nil

/-- The stops and the units of most are in a new gradient; the others refer to it. -/
def trioAfter : Forest :=
  .cons (elem 0 .svg [])
    (.cons (grad 16 "lg1" .linearGradient [(.gradientUnits, user)]) (stop 10 1 (stop 11 2 .nil))
    (.cons (grad 1 "a" .linearGradient [(.x1, px 10), (.x2, px 12), (.y1, px 0), (.y2, px 0), (.xlinkHref, .link 16)]) .nil
    (.cons (grad 2 "b" .radialGradient [(.r, px 3), (.xlinkHref, .link 16)]) .nil
    (.cons (grad 3 "c" .linearGradient [(.x1, px 1), (.gradientUnits, .kw .objectBoundingBox), (.xlinkHref, .link 16)]) .nil
    (.cons (elem 5 .rect [(.fill, .funcLink 1), (.stroke, .funcLink 2)]) .nil
    (.cons (elem 6 .rect [(.fill, .funcLink 3)]) .nil .nil))))))
  .nil

def allAndUnits : Cli.CleaningOptions := { allGradients with removeGradientAttributes := true }

/-- The conditions of `C73_all_passes_partial` are met. -/
example : Fresh trio ∧ RadiiWritten trio ∧ UnitsValid trio ∧ (allGradientPasses allAndUnits trio).map onPaper = some trioAfter :=
  ⟨fresh_of (rank := id) (by decide +kernel) (by decide +kernel) (by decide +kernel) (by decide +kernel) (by decide +kernel) (by decide +kernel) (by decide +kernel) (by decide +kernel),
   radii_of (by decide +kernel), by unfold UnitsValid; decide +kernel, by decide +kernel⟩

end Verif.Shade
