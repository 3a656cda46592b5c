import Verif.WholePale
/-
C71: what the steps of a run do to hidden attributes.
-/
namespace Verif.Whole
open Verif.Dom Verif.Spec Verif.Render Verif.Draft
open Verif.Cli (CleaningOptions)
open Verif.Reader (Sane)
open Verif.Pipeline (Along)

section
variable {ini : AId → Option Value} {V W : AId → Prop} {f g : Forest} {n m : Node} {b : Stage} {o : CleaningOptions} {G : Nat → Prop}

/-! ### Default values -/

theorem Local.not_both (h : Local ini n) {a : AId} (h1 : Hid n a) (h2 : Vis n a) : False := by
  obtain ⟨_, y, hy, hn, hv⟩ := h1
  obtain ⟨_, z, hz, hn', hv'⟩ := h2
  have := List.inj_on_of_nodup_map h.names hy hz (hn.trans hn'.symm)
  subst this
  rw [hv] at hv'
  cases hv'

theorem has_of {n : Node} {a : AId} {y : Attr} (hy : y ∈ n.attrs) (hn : y.name = .id a) : n.has a = true := by
  unfold Node.has getAttr
  rw [List.find?_isSome]
  exact ⟨y, hy, by simp [hn]⟩

/-- If the nearest ancestor with a property does not have it in the file, no ancestor has. -/
def Chain (anc : List Node) : Prop := ∀ a m, anc.find? (fun m => m.has a) = some m → Hid m a → ∀ p ∈ anc, ¬ Vis p a

theorem body_pale {root : Option Nat} {anc : List Node} (hs : Sane ini) (hn : Reader.Simple n) (hp : ∃ p, fits p n.kind = true) (hy : ∀ y ∈ n.attrs, @AttrFine (apt ini b o) G n.kind y)
    (hv : ∀ y ∈ n.attrs, y.visible = true) (hc : Chain anc) (h : DefaultAttrs.body ini root anc n = some m) :
    m.kind = n.kind ∧ Local ini m ∧ (∀ a, (∃ p ∈ anc, Vis p a) → ¬ Hid m a) ∧ Chain (m :: anc) := by
  have key : m.kind = n.kind ∧ Local ini m ∧ ∀ a, Hid m a → (anc.find? (fun m => m.has a) = none ∨ ∃ q, anc.find? (fun m => m.has a) = some q ∧ Hid q a) := by
    unfold DefaultAttrs.body at h
    split at h
    next e hk =>
      obtain ⟨l, hl, rfl⟩ := Option.map_eq_some_iff.1 h
      have hkind : (Simple.hideAll n l).kind = .elem e := (hideAll_val n l).2.1.trans hk
      have hh : ∀ y ∈ (Simple.hideAll n l).attrs, y.visible = false → ∃ z ∈ n.attrs, ∃ a, z.name = .id a ∧ y = { z with visible := false } ∧ DefaultAttrs.toHide ini root anc n e a z.value = some true := by
        intro y hy' hyv
        obtain ⟨z, hz, rfl | ⟨a, ha, e1, rfl⟩⟩ := mem_hideAll hy'
        · rw [hv _ hz] at hyv; cases hyv
        · refine ⟨z, hz, a, e1, rfl, ?_⟩
          obtain ⟨x, hx, hxn, hxt⟩ := (DefaultAttrs.mem_rmList hl a).1 ha
          have : x = z := List.inj_on_of_nodup_map hn.names hx hz (hxn.trans e1.symm)
          subst this
          exact hxt
      obtain ⟨p, hp⟩ := hp
      rw [hk] at hp
      have hd : ∀ z ∈ n.attrs, ∀ a, z.name = .id a → DefaultAttrs.toHide ini root anc n e a z.value = some true →
          (a.isPresentation = true ∧ ini a = some z.value) ∨ (a.isPresentation = false ∧ DefaultAttrs.meansNothing e a z.value = true ∧ DefaultAttrs.isTemplated e = false) := by
        intro z hz a ha ht
        exact default_nothing hp ha (by have := attr_apt (hy z hz); rwa [hk] at this) ht
      refine ⟨(hideAll_val n l).2.1, ⟨?_, ?_, ?_, ?_⟩, ?_⟩
      · rw [hideAll_names]; exact hn.names
      · rw [(hideAll_val n l).2.1]; exact hn.kind
      · intro y hy'
        obtain ⟨z, hz, rfl | ⟨a, _, _, rfl⟩⟩ := mem_hideAll hy'
        · exact hn.values _ hz
        · exact hn.values z hz
      · intro y hy' hyv
        obtain ⟨z, hz, a, ha, rfl, ht⟩ := hh y hy' hyv
        have hd := hd z hz a ha ht
        have hap : AttrApt ini b o n.kind z := attr_apt (hy z hz)
        refine ⟨?_, a, e, ha, hkind, fun e' => hap.over (by rw [ha, e']), hd.imp id .inl⟩
        dsimp only
        cases ht : z.value.target with
        | none => rfl
        | some t =>
          exfalso
          have hfs := (@AttrFine.paint (apt ini b o) _ _ _ (hy z hz) t ht).1
          rcases hd with hd | hd
          · rw [hs.plain a _ hd.2] at ht; cases ht
          · rw [ha] at hfs
            rcases hfs with e | e <;> injection e with e <;> subst e <;> cases hd.1
      · rintro a ⟨hi, y, hy', hny, hyv⟩
        obtain ⟨z, hz, c, hcn, rfl, ht⟩ := hh y hy' hyv
        have : c = a := by rw [show z.name = AName.id a from hny] at hcn; injection hcn with hcn; exact hcn.symm
        subst this
        have hpr : c.isPresentation = true := by
          rcases hd z hz c hcn ht with h | h
          · exact h.1
          · rw [Reader.inherits_default hi h.1] at h; cases h.2.1
        unfold DefaultAttrs.toHide at ht
        rw [if_pos hpr] at ht
        split at ht
        · split at ht
          next q hq =>
            right
            refine ⟨q, hq, hi, ?_⟩
            split at ht
            next x hx => exact ⟨x, getAttr_mem hx, getAttr_name hx, by simpa using ht⟩
            next => cases ht
          next hq => exact .inl hq
        · split at ht
          next ho => exact absurd ho (Reader.inherits_overflow hi)
          next => cases ht
    next =>
      cases h
      exact ⟨rfl, ⟨hn.names, hn.kind, hn.values, fun y hy e => (by rw [hv y hy] at e; cases e)⟩, fun a ⟨_, y, hy, _, e⟩ => (by rw [hv y hy] at e; cases e)⟩
  obtain ⟨k1, k2, k3⟩ := key
  have k4 : ∀ a, Hid m a → ∀ p ∈ anc, ¬ Vis p a := by
    intro a ha p hp hpv
    rcases k3 a ha with e | ⟨q, hq, hh⟩
    · obtain ⟨_, y, hy, hny, _⟩ := hpv
      have := List.find?_eq_none.1 e p hp
      rw [has_of hy hny] at this
      exact this rfl
    · exact hc a q hq hh p hp hpv
  refine ⟨k1, k2, fun a ⟨p, hp, hv⟩ hh => k4 a hh p hp hv, ?_⟩
  intro a q hq hh p hp hpv
  rw [List.find?_cons] at hq
  split at hq
  next =>
    cases hq
    rcases List.mem_cons.1 hp with rfl | hp
    · exact k2.not_both hh hpv
    · exact k4 a hh p hp hpv
  next hno =>
    rcases List.mem_cons.1 hp with rfl | hp
    · obtain ⟨_, y, hy, hny, _⟩ := hpv
      rw [has_of hy hny] at hno; cases hno
    · exact hc a q hq hh p hp hpv

theorem mapCtx_pale {root : Option Nat} {anc : List Node} (hs : Sane ini)
    (hf : ∀ x ∈ spots doc f, Reader.Simple x.2.1 ∧ (∃ p, fits p x.2.1.kind = true) ∧ (∀ y ∈ x.2.1.attrs, @AttrFine (apt ini b o) G x.2.1.kind y) ∧
      (∀ y ∈ x.2.1.attrs, y.visible = true) ∧ (isElem x.2.1.kind = false → x.2.2 = .nil)) (hc : Chain anc)
    (h : f.mapCtx (DefaultAttrs.body ini root) anc = some g) : Pale ini (fun a => ∃ p ∈ anc, Vis p a) g := by
  have : ∀ (q : Kind) (f g : Forest) (anc : List Node), (∀ x ∈ spots q f, Reader.Simple x.2.1 ∧ (∃ p, fits p x.2.1.kind = true) ∧ (∀ y ∈ x.2.1.attrs, @AttrFine (apt ini b o) G x.2.1.kind y) ∧
      (∀ y ∈ x.2.1.attrs, y.visible = true) ∧ (isElem x.2.1.kind = false → x.2.2 = .nil)) → Chain anc →
      f.mapCtx (DefaultAttrs.body ini root) anc = some g → Pale ini (fun a => ∃ p ∈ anc, Vis p a) g := by
    intro q f
    induction f generalizing q with
    | nil => intro g anc _ _ h; simp [Forest.mapCtx] at h; subst h; trivial
    | cons n k r ih1 ih2 =>
      intro g anc hf hc h
      simp only [Forest.mapCtx, Option.bind_eq_some_iff, Option.map_eq_some_iff] at h
      obtain ⟨m, hm, k', hk, r', hr, rfl⟩ := h
      obtain ⟨a1, a2, a3, a4, a5⟩ := hf (q, n, k) (by simp [spots])
      obtain ⟨c1, c2, c3, c4⟩ := body_pale hs a1 a2 a3 a4 hc hm
      refine ⟨⟨c2, c3, fun e => ?_⟩, (ih1 n.kind _ _ (fun x hx => hf x (by simp [spots, hx])) c4 hk).mono fun a ha => ?_, ih2 q _ _ (fun x hx => hf x (by simp [spots, hx])) hc hr⟩
      · rw [c1] at e
        have := a5 e
        dsimp only at this
        subst this
        simp [Forest.mapCtx] at hk
        exact hk.symm
      · rcases ha with ⟨p, hp, hv⟩ | hv
        · exact ⟨p, List.mem_cons_of_mem _ hp, hv⟩
        · exact ⟨m, List.mem_cons_self, hv⟩
  exact this doc f g anc hf hc h

theorem Apt.pale_defaults (hs : Sane ini) (hb : b ≠ .late) (hf : Apt ini b o f) (h : DefaultAttrs.removeDefaults ini f = some g) : Pale ini (fun _ => False) g := by
  unfold DefaultAttrs.removeDefaults at h
  refine (mapCtx_pale (b := b) (o := o) (G := Grad f) hs (fun x hx => ?_) (fun a q hq => by cases hq) h).mono fun a h => h.elim
  have hn := (spots_nodes hx).1
  exact ⟨hf.simple hn, hf.fits hn, fun y hy => hf.attr hn hy, fun y hy => (attr_apt (hf.attr hn hy)).shown hb, fun e => hf.text_nil hx e⟩

/-! ### Text attributes -/

theorem strip_wither (h : Reader.Strip n m) : Wither false n m :=
  ⟨h.gone.same.2.1, h.names, fun y hy => .inl (h.sub y hy), fun _ _ e => (Reader.strip_get h rfl).trans e⟩

theorem Pale.text (hf : Pale ini V f) (h : TextAttrs.removeText f = some g) : Pale ini V g :=
  hf.along (along_mono (fun _ _ h => strip_wither h) (stripped_along (Reader.stripped_text h)))

/-! ### Needless attributes -/

theorem get_filter {a : AId} (p : Attr → Bool) (h : ∀ y ∈ n.attrs, y.name = .id a → p y = true) : Node.get { n with attrs := n.attrs.filter p } a = n.get a := by
  unfold Node.get getAttr
  simp only
  rw [List.find?_filter]
  congr 1
  generalize n.attrs = as at h
  induction as with
  | nil => rfl
  | cons y t ih =>
    rw [List.find?_cons, List.find?_cons, ih fun z hz => h z (List.mem_cons_of_mem _ hz)]
    by_cases e : y.name = .id a
    · simp [e, h y List.mem_cons_self e]
    · simp [e]

theorem Wither.needless {used : Nat → Bool} {anc : List Node} {leaf : Bool} (hc : ∀ p ∈ anc, p.kind ≠ .elem .clipPath) : Wither leaf n (Needless.body used anc leaf n) := by
  have h1 : Needless.clipStep used anc n = n := by
    unfold Needless.clipStep
    split
    next p t =>
      rw [if_neg]
      intro h
      rw [Bool.and_eq_true, Node.isTag_iff] at h
      exact hc p (by simp) h.1
    next => rfl
  unfold Needless.body
  rw [h1]
  split
  next e he =>
    unfold Needless.element
    have a1 : Wither leaf n (Needless.processShape e n) := by
      unfold Needless.processShape
      split
      next l hl =>
        refine ⟨rfl, fun h => h.sublist (List.filter_sublist.map _), fun y hy => .inl (List.mem_filter.1 hy).1, fun hk v hv => ?_⟩
        rw [he] at hk
        injection hk with hk
        subst hk
        cases hl
        exact (get_filter _ fun y hy e => by rw [e]; rfl).trans hv
      next => exact .refl _ n
    have a2 : Wither leaf n ((Needless.processShape e n).rm .color) := a1.trans (Wither.rm _ (by decide))
    generalize (Needless.processShape e n).rm .color = n2 at a2
    have a3 : Wither leaf n (Needless.processBackground e n2) := a2.trans (by unfold Needless.processBackground; split; exacts [.refl _ _, .rm _ (by decide)])
    generalize Needless.processBackground e n2 = n3 at a3
    have a4 : Wither leaf n (Needless.processFill leaf n3) := by
      refine a3.trans ?_
      unfold Needless.processFill
      split
      next hl =>
        dsimp only
        have b1 : Wither leaf n3 (if n3.get .fill = some (.kw .none) then (n3.rm .fillRule).rm .fillOpacity else n3) := by
          split
          · exact (Wither.rm _ (by decide)).trans (.rm _ (by decide))
          · exact .refl _ _
        generalize (if n3.get .fill = some (.kw .none) then (n3.rm .fillRule).rm .fillOpacity else n3) = n5 at b1
        split
        · exact b1.trans (((Wither.set _ (by decide) ⟨by simp, by simp⟩ (.inl hl)).trans (.rm _ (by decide))).trans (.rm _ (by decide)))
        · exact b1
      · exact .refl _ _
    generalize Needless.processFill leaf n3 = n4 at a4
    have a5 : Wither leaf n (Needless.processStroke leaf anc n4) := by
      refine a4.trans ?_
      have b1 : Wither leaf n4 (Needless.rmAll (n4.rm .stroke) Needless.strokeAttributes) := (Wither.rm _ (by decide)).trans (.rmAll _ _ (by decide))
      have b2 : Wither leaf n4 (Needless.rmAll n4 Needless.strokeAttributes) := .rmAll _ _ (by decide)
      unfold Needless.processStroke
      generalize Needless.rmAll (n4.rm .stroke) Needless.strokeAttributes = m1 at *
      generalize Needless.rmAll n4 Needless.strokeAttributes = m2 at *
      simp only
      split
      next hl =>
        split
        · split
          · split
            · exact b1.trans (Wither.set _ (by decide) ⟨by simp, by simp⟩ (.inl hl))
            · exact b1
          · exact b1
        · split
          · split
            · exact b2
            · exact b2.trans (.rm _ (by decide))
          · exact .refl _ _
      · exact .refl _ _
    refine a5.trans ?_
    unfold Needless.processOverflow
    split <;> first | exact .refl _ _ | exact .rm _ (by decide)
  next => exact .refl _ n

theorem Pale.needlessGo {used : Nat → Bool} {anc : List Node} (hf : Pale ini V f) (hn : ∀ n ∈ f.nodes, n.kind ≠ .elem .clipPath) (hc : ∀ p ∈ anc, p.kind ≠ .elem .clipPath) :
    Pale ini V (Needless.go used anc f) := by
  induction f generalizing V anc with
  | nil => trivial
  | cons n k r ih1 ih2 =>
    obtain ⟨⟨h1, h2, h3⟩, h4, h5⟩ := hf
    have w := Wither.needless (n := n) (used := used) (leaf := k.isEmpty) hc
    have hk : ∀ x ∈ k.nodes, x.kind ≠ .elem .clipPath := fun x hx => hn x (by simp [hx])
    rw [Needless.go]
    refine ⟨⟨w.loc h1, fun a ha hh => h2 a ha (w.hid hh), fun e => ?_⟩, ?_, ih2 h5 (fun x hx => hn x (by simp [hx])) hc⟩
    · rw [w.kind] at e
      rw [h3 e]; rfl
    · cases k with
      | nil => trivial
      | cons c kc kr =>
        have w' : Wither false n (Needless.body used anc false n) := w
        refine (ih1 h4 hk fun p hp => ?_).mono fun a ha => ha.imp id w'.vis
        rcases List.mem_cons.1 hp with rfl | hp
        · rw [w.kind]; exact hn n (by simp)
        · exact hc p hp

/-! ### Unused coordinates -/

theorem hide_ry (h : Local ini n) (hk : n.kind = .elem .rect) (he : n.get .rx = n.get .ry) (hl : ∀ v, n.get .rx = some v → ∃ l, v = .length l ∧ l.unit ≠ .percent) :
    Local ini (Simple.hideAll n [.ry]) where
  names := by rw [hideAll_names]; exact h.names
  kind := by rw [(hideAll_val n _).2.1]; exact h.kind
  values y hy := by
    obtain ⟨z, hz, rfl | ⟨a, _, _, rfl⟩⟩ := mem_hideAll hy
    · exact h.values _ hz
    · exact h.values z hz
  mute y hy hv := by
    obtain ⟨z, hz, rfl | ⟨a, ha, e, rfl⟩⟩ := mem_hideAll hy
    · exact (h.mute _ hz hv).mono (hideAll_val n _).2.1 fun _ _ e => ((hideAll_val n _).get _).trans e
    · simp only [List.mem_cons, List.not_mem_nil, or_false] at ha
      subst ha
      have hz' := GradUnits.getAttr_of_mem h.names hz
      rw [e] at hz'
      have hg : n.get .ry = some z.value := by unfold Node.get; rw [hz']; rfl
      obtain ⟨l, hl1, hl2⟩ := hl z.value (he.trans hg)
      refine ⟨by dsimp only; rw [hl1]; rfl, .ry, .rect, e, (hideAll_val n _).2.1.trans hk, by decide, .inr (.inr ⟨rfl, rfl, ?_, l, hl1, hl2⟩)⟩
      rw [(hideAll_val n _).get]
      exact he.trans hg

theorem hide_ry_hid {a : AId} (h : Hid (Simple.hideAll n [.ry]) a) : Hid n a := by
  obtain ⟨hi, y, hy, hn, hv⟩ := h
  obtain ⟨z, hz, rfl | ⟨c, hc, e, rfl⟩⟩ := mem_hideAll hy
  · exact ⟨hi, _, hz, hn, hv⟩
  · simp only [List.mem_cons, List.not_mem_nil, or_false] at hc
    subst hc
    rw [e] at hn
    cases hn
    cases hi

theorem hide_vis {l : List AId} {a : AId} (h : Vis (Simple.hideAll n l) a) : Vis n a := by
  obtain ⟨hi, y, hy, hn, hv⟩ := h
  obtain ⟨z, hz, rfl | ⟨c, hc, e, rfl⟩⟩ := mem_hideAll hy
  · exact ⟨hi, _, hz, hn, hv⟩
  · cases hv

theorem Pale.coordsGo {doc' : Forest} {top : Bool} (hf : Pale ini V f) (hp : ∀ n ∈ f.nodes, ∀ top, Reader.Placed top n) : Pale ini V (Simple.removeUnusedCoordsGo doc' top f) := by
  induction f generalizing V top with
  | nil => trivial
  | cons n k r ih1 ih2 =>
    obtain ⟨⟨h1, h2, h3⟩, h4, h5⟩ := hf
    simp only [Simple.removeUnusedCoordsGo]
    have key : Local ini (Simple.hideAll n (Simple.unusedCoords doc' top n)) ∧ ∀ a, Hid (Simple.hideAll n (Simple.unusedCoords doc' top n)) a → Hid n a := by
      have hpl := hp n (by simp) top
      rcases Reader.coords_cases (doc := doc') hpl with e | ⟨e, hk, _, he⟩
      · rw [e]; exact ⟨h1, fun _ h => h⟩
      · rw [e]
        refine ⟨hide_ry h1 hk he fun v hv => ?_, fun _ h => hide_ry_hid h⟩
        obtain ⟨l, rfl⟩ := hpl.lengths hk v hv
        exact ⟨l, rfl, hpl.radius hk l hv⟩
    refine ⟨⟨key.1, fun a ha hh => h2 a ha (key.2 a hh), fun e => ?_⟩, (ih1 h4 fun x hx => hp x (by simp [hx])).mono fun a ha => ha.imp id hide_vis, ih2 h5 fun x hx => hp x (by simp [hx])⟩
    rw [(hideAll_val n _).2.1] at e
    rw [h3 e]; rfl

end

end Verif.Whole
