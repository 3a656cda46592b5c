import Verif.RenderMeta
import Verif.PipelineEnds
/-
C62: options that concern the file and not the drawing keep the picture, in every combination.
-/
namespace Verif.Render
open Verif.Dom Verif.Spec
open Verif.Simple
open Verif.UnusedDefs (Bare)

/-- A document whose descriptive elements and `defs` elements stand where they may stand and are not referred to. -/
structure Plain (f : Forest) : Prop where
  names : ∀ n ∈ f.nodes, (n.attrs.map (·.name)).Nodup
  desc : ∀ x ∈ spots top f, isDesc x.2.1.kind = true → isElem x.1 = true ∧ f.isUsed x.2.1.key = false ∧ ∀ m ∈ x.2.2.nodes, f.isUsed m.key = false
  defs : ∀ x ∈ spots top f, x.2.1.kind = .elem .defs → f.isUsed x.2.1.key = false ∧ Bare x.2.1 ∧ groupPlace x.1 = true
  foreign : ∀ n ∈ f.nodes, isElem n.kind = false → n.get .transform = none

theorem mem_prunedKeys {pr : Node → Bool} {f : Forest} {p : Kind} {k : Nat} (h : k ∈ f.prunedKeys pr) :
    ∃ x ∈ cuts pr p f, x.2.1.key = k ∨ ∃ m ∈ x.2.2.nodes, m.key = k := by
  induction f generalizing p with
  | nil => cases h
  | cons n c r ihk ihr =>
    simp only [Forest.prunedKeys] at h
    simp only [cuts]
    split at h
    next hn =>
      rw [if_pos hn]
      simp only [List.mem_append, List.mem_cons] at h
      rcases h with (rfl | h) | h
      · exact ⟨_, List.mem_cons_self, .inl rfl⟩
      · obtain ⟨m, hm, rfl⟩ := Forest.mem_keys.1 h
        exact ⟨_, List.mem_cons_self, .inr ⟨m, hm, rfl⟩⟩
      · obtain ⟨x, hx, h⟩ := ihr (p := p) h
        exact ⟨x, List.mem_cons_of_mem _ hx, h⟩
    next hn =>
      rw [if_neg hn]
      rcases List.mem_append.1 h with h | h
      · obtain ⟨x, hx, h⟩ := ihk (p := n.kind) h
        exact ⟨x, List.mem_append_left _ hx, h⟩
      · obtain ⟨x, hx, h⟩ := ihr (p := p) h
        exact ⟨x, List.mem_append_right _ hx, h⟩

theorem get_unlink_none {n : Node} {a : AId} (s : Nat → Bool) (h : n.get a = none) : (n.unlink s).get a = none := by
  unfold Node.get at *
  rw [Option.map_eq_none_iff] at *
  unfold getAttr at *
  rw [List.find?_eq_none] at *
  exact fun x hx => h x (List.mem_of_mem_filter hx)

theorem used_remove {f : Forest} {pr : Node → Bool} {k : Nat} (h : f.isUsed k = false) : (f.remove pr).isUsed k = false := by
  cases hu : (f.remove pr).isUsed k with
  | false => rfl
  | true => rw [(left_of_used hu).1] at h; cases h

theorem Plain.cut {f : Forest} (h : Plain f) {e : EId} (he : isDesc (.elem e) = true) : Cut f (fun n => n.isTag e) where
  gone x hx := by
    obtain ⟨h1, h2⟩ := cuts_spots hx
    have hk := (Node.isTag_iff _ _).1 h2
    have hd : isDesc x.2.1.kind = true := by rw [hk]; exact he
    obtain ⟨h3, _⟩ := h.desc x h1 hd
    refine ⟨?_, .inr fun P π d c _ => ?_⟩
    · unfold Render.gone
      split
      · simp [hd]
      next hx => cases hp : x.1 with
        | elem e => exact absurd hp (hx e)
        | _ => rw [hp] at h3; cases h3
    · unfold draw
      rw [if_pos (isDesc_never hd).1]
  attrs := h.names
  links n hn y hy k hk hp := by
    exfalso
    have hu : f.isUsed k = true := Forest.isUsed_iff.2 ⟨n, (Forest.nodes_prune_sublist _ _).subset hn, Node.mem_links.2 ⟨y, hy, hk⟩⟩
    obtain ⟨x, hx, hx'⟩ := mem_prunedKeys (p := top) hp
    obtain ⟨h1, h2⟩ := cuts_spots hx
    have hd : isDesc x.2.1.kind = true := by rw [(Node.isTag_iff _ _).1 h2]; exact he
    obtain ⟨_, h3, h4⟩ := h.desc x h1 hd
    rcases hx' with rfl | ⟨m, hm, rfl⟩
    · rw [h3] at hu; cases hu
    · rw [h4 m hm] at hu; cases hu

theorem Plain.remove {f : Forest} (h : Plain f) {e : EId} : Plain (removeElement e f) where
  names n hn := by
    obtain ⟨m, hm, rfl⟩ := Forest.mem_remove hn
    exact (h.names m ((Forest.nodes_prune_sublist _ _).subset hm)).sublist (List.filter_sublist.map _)
  desc x hx hd := by
    unfold removeElement at hx
    rw [remove_eq] at hx
    obtain ⟨n, ks, h1, _, h2, _, _⟩ := spots_cut hx
    rw [h2] at hd ⊢
    obtain ⟨h3, h4, h5⟩ := h.desc _ h1 hd
    refine ⟨h3, used_remove h4, fun m hm => ?_⟩
    unfold Render.cut at hm
    rw [Forest.nodes_map] at hm
    obtain ⟨y, hy, rfl⟩ := List.mem_map.1 hm
    exact used_remove (h5 y ((Forest.nodes_prune_sublist _ _).subset hy))
  defs x hx hd := by
    unfold removeElement at hx
    rw [remove_eq] at hx
    obtain ⟨n, ks, h1, _, h2, _, _⟩ := spots_cut hx
    rw [h2] at hd ⊢
    obtain ⟨h3, h4, h5⟩ := h.defs _ h1 hd
    exact ⟨used_remove h3, fun a ha => get_unlink_none _ (h4 a ha), h5⟩
  foreign n hn he := by
    obtain ⟨m, hm, rfl⟩ := Forest.mem_remove hn
    exact get_unlink_none _ (h.foreign m ((Forest.nodes_prune_sublist _ _).subset hm) he)

theorem Plain.removed {f : Forest} (h : Plain f) {e : EId} (he : isDesc (.elem e) = true) : SameLook f (removeElement e f) := (h.cut he).look

/-! ### What is needed after the descriptive elements are gone -/

structure Tidy (f : Forest) : Prop where
  defs : DefsOk (Used f) top f
  foreign : ∀ n ∈ f.nodes, isElem n.kind = false → n.get .transform = none

theorem Plain.tidy {f : Forest} (h : Plain f) : Tidy f :=
  ⟨fun x hx hk => ⟨by simp [(h.defs x hx hk).1], (h.defs x hx hk).2⟩, h.foreign⟩

theorem Twins.tidy {f g : Forest} (h : Twins f g) (hf : Tidy f) : Tidy g where
  defs x hx hk := by
    obtain ⟨y, hy, h1, h2⟩ := h.spots hx
    obtain ⟨h3, h4, h5⟩ := hf.defs y hy (h2.kind ▸ hk)
    refine ⟨fun hu => h3 ?_, fun a ha => by rw [h2.style a ha]; exact h4 a ha, h1 ▸ h5⟩
    rw [h2.key] at hu
    by_contra hc
    have := h.used (k := y.2.1.key) (by simpa using hc)
    rw [show g.isUsed y.2.1.key = true from hu] at this
    cases this
  foreign n hn he := by
    obtain ⟨m, hm, ht⟩ := h.nodes hn
    have he' : isElem m.kind = false := by rw [← ht.kind]; exact he
    have := hf.foreign m hm he'
    unfold Node.get at *
    rw [ht.foreign he']
    exact this

/-! ### Version, namespaces, identity transforms -/

theorem twin_rm {n : Node} {a : AId} (h : isMeta a = true) (he : isElem n.kind = true) : Twin n (n.rm a) where
  key := rfl
  kind := rfl
  own b hb := by
    show getAttr (rmAttr n.attrs _) b = _
    rw [getAttr_rm, if_neg]
    rintro rfl
    simp [isOwn, h] at hb
  style b hb := by rw [Node.get_rm, if_neg]; rintro rfl; cases b <;> first | (cases h; done) | (cases hb; done)
  fixed b hb _ := by rw [Node.get_rm, if_neg]; rintro rfl; cases b <;> first | (cases h; done) | (cases hb; done)
  transform := by unfold nodeTransform; rw [Node.get_rm, if_neg]; rintro rfl; cases h
  foreign hf := by rw [he] at hf; cases hf
  links k hk := Node.links_rm_subset _ _ hk

theorem twin_set {n : Node} {a : AId} {v : Value} (h : isMeta a = true) (hv : v.target = none) (he : isElem n.kind = true) : Twin n (n.set a v) where
  key := rfl
  kind := rfl
  own b hb := by
    show getAttr (putAttr n.attrs _) b = _
    rw [getAttr_put, if_neg]
    rintro rfl
    simp [isOwn, h] at hb
  style b hb := by rw [Node.get_set, if_neg]; rintro rfl; cases b <;> first | (cases h; done) | (cases hb; done)
  fixed b hb _ := by rw [Node.get_set, if_neg]; rintro rfl; cases b <;> first | (cases h; done) | (cases hb; done)
  transform := by unfold nodeTransform; rw [Node.get_set, if_neg]; rintro rfl; cases h
  foreign hf := by rw [he] at hf; cases hf
  links k hk := by
    obtain ⟨x, hx, ht⟩ := Node.mem_links.1 hk
    rcases Node.mem_putAttr hx with rfl | hx
    · rw [hv] at ht; cases ht
    · exact Node.mem_links.2 ⟨x, hx, ht⟩

theorem Twin.trans {a b c : Node} (h1 : Twin a b) (h2 : Twin b c) : Twin a c :=
  ⟨h2.key.trans h1.key, h2.kind.trans h1.kind, fun x hx => (h2.own x hx).trans (h1.own x hx), fun x hx => (h2.style x hx).trans (h1.style x hx),
   fun x hx hn => (h2.fixed x hx hn).trans (h1.fixed x hx hn), h2.transform.trans h1.transform,
   fun hf => (h2.foreign (h1.kind.symm ▸ hf)).trans (h1.foreign hf), fun k hk => h1.links k (h2.links k hk)⟩

theorem svg_elem {f : Forest} {n : Node} {k : Forest} (hs : svgElement f = some (n, k)) : isElem n.kind = true := by
  rw [(svgElement_some hs).1]
  rfl

theorem twins_version {f g : Forest} (h : removeVersion f = some g) : Twins f g := by
  obtain ⟨⟨n, k⟩, hs, rfl⟩ := Option.map_eq_some_iff.1 h
  have he := svg_elem hs
  exact Twins.setSvg hs ((twin_rm rfl he).trans (twin_rm rfl he))

theorem twins_xmlns {b : Bool} {f g : Forest} (h : fixXmlnsAttribute b f = some g) : Twins f g := by
  obtain ⟨⟨n, k⟩, hs, rfl⟩ := Option.map_eq_some_iff.1 h
  have he := svg_elem hs
  refine Twins.setSvg hs ?_
  unfold fixXmlnsRoot
  split
  · exact twin_rm rfl he
  · split
    · exact twin_set rfl rfl he
    · exact Twin.refl _

theorem twin_dropDefault {n : Node} (hf : isElem n.kind = false → n.get .transform = none) : Twin n (dropDefault n) := by
  unfold dropDefault
  split
  next t ht =>
    split
    next hi =>
      subst hi
      refine ⟨rfl, rfl, fun b hb => ?_, fun a ha => ?_, fun a ha hn => ?_, ?_, fun h => ?_, fun k hk => Node.links_rm_subset _ _ hk⟩
      · show getAttr (rmAttr n.attrs _) b = _
        rw [getAttr_rm, if_neg]
        rintro rfl
        cases hb
      · rw [Node.get_rm, if_neg]; rintro rfl; cases ha
      · rw [Node.get_rm, if_neg hn]
      · unfold nodeTransform
        rw [Node.get_rm, if_pos rfl, ht]
        rfl
      · rw [hf h] at ht; cases ht
    next => exact Twin.refl _
  next => exact Twin.refl _

theorem twins_dropDefault {f : Forest} (hf : Tidy f) : Twins f (removeDefaultTransform f) := Twins.map fun n hn => twin_dropDefault (hf.foreign n hn)

theorem twins_trim {f g : Forest} (h : trimIds f = some g) : Twins f g := by
  obtain ⟨x, hx, rfl⟩ := Option.map_eq_some_iff.1 h
  exact twins_trimGo hx

/-! ### `defs` elements -/

theorem DefsOk.place {u : Nat → Prop} {p q : Kind} {f : Forest} (h : DefsOk u p f) (hq : groupPlace q = true) : DefsOk u q f := by
  induction f with
  | nil => intro x hx; cases hx
  | cons n k r _ ih =>
    intro x hx hk
    simp only [spots, List.mem_cons, List.mem_append] at hx
    rcases hx with rfl | hx | hx
    · obtain ⟨h1, h2, _⟩ := h (p, n, k) (by simp [spots]) hk
      exact ⟨h1, h2, hq⟩
    · exact h x (by simp [spots, hx]) hk
    · exact ih (fun y hy => h y (by simp [spots, hy])) x hx hk

theorem DefsOk.cons {u : Nat → Prop} {p : Kind} {n : Node} {k r : Forest} (hn : n.kind = .elem .defs → ¬ u n.key ∧ Bare n ∧ groupPlace p = true)
    (hk : DefsOk u n.kind k) (hr : DefsOk u p r) : DefsOk u p (.cons n k r) := by
  intro x hx he
  simp only [spots, List.mem_cons, List.mem_append] at hx
  rcases hx with rfl | hx | hx
  · exact hn he
  · exact hk x hx he
  · exact hr x hx he

theorem DefsOk.append {u : Nat → Prop} {p : Kind} {f g : Forest} (hf : DefsOk u p f) (hg : DefsOk u p g) : DefsOk u p (f ++ g) := by
  induction f with
  | nil => exact hg
  | cons n k r _ ih =>
    rw [Forest.cons_append]
    exact DefsOk.cons (hf (p, n, k) (by simp [spots])) (fun x hx => hf x (by simp [spots, hx])) (ih fun x hx => hf x (by simp [spots, hx]))

theorem DefsOk.ungroup {u : Nat → Prop} {f : Forest} {p : Kind} (h : DefsOk u p f) (s : Bool) : DefsOk u p (ungroupDefsGo f s).1 := by
  induction f generalizing p s with
  | nil => cases s <;> exact h
  | cons n k r ihk ihr =>
    cases s with
    | true => rw [ungroupDefsGo_stopped]; exact h
    | false =>
      have hk : DefsOk u n.kind k := fun x hx => h x (by simp [spots, hx])
      have hr : DefsOk u p r := fun x hx => h x (by simp [spots, hx])
      have hn := h (p, n, k) (by simp [spots])
      rw [ungroupDefsGo_cons]
      split
      next hc =>
        simp only [Bool.and_eq_true] at hc
        have := hn ((Node.isTag_iff _ _).1 hc.1)
        exact ((ihk hk _).place this.2.2).append (ihr hr _)
      next hc => exact DefsOk.cons hn (ihk hk _) (ihr hr _)

theorem DefsOk.mono {u v : Nat → Prop} {p : Kind} {f : Forest} (h : DefsOk u p f) (hv : ∀ k, v k → u k) : DefsOk v p f :=
  fun x hx hk => ⟨fun hu => (h x hx hk).1 (hv _ hu), (h x hx hk).2⟩

theorem mem_spots {f : Forest} {p : Kind} {n : Node} (h : n ∈ f.nodes) : ∃ x ∈ spots p f, x.2.1 = n := by
  induction f generalizing p with
  | nil => cases h
  | cons m k r ihk ihr =>
    simp only [Forest.nodes_cons, List.mem_cons, List.mem_append] at h
    simp only [spots, List.mem_cons, List.mem_append]
    rcases h with rfl | h | h
    · exact ⟨_, .inl rfl, rfl⟩
    · obtain ⟨x, hx, rfl⟩ := ihk (p := m.kind) h; exact ⟨x, .inr (.inl hx), rfl⟩
    · obtain ⟨x, hx, rfl⟩ := ihr (p := p) h; exact ⟨x, .inr (.inr hx), rfl⟩

theorem used_sub {f g : Forest} (h : ∀ n ∈ g.nodes, n ∈ f.nodes) {k : Nat} (hk : g.isUsed k = true) : f.isUsed k = true := by
  obtain ⟨n, hn, hl⟩ := Forest.isUsed_iff.1 hk
  exact Forest.isUsed_iff.2 ⟨n, h n hn, hl⟩

theorem ungroupDefs_tidy {f : Forest} (h : Tidy f) : SameLook f (ungroupDefs f) ∧ Tidy (ungroupDefs f) := by
  have hsub : ∀ n ∈ (ungroupDefsGo f false).1.nodes, n ∈ f.nodes := fun n hn => (ungroupDefsGo_nodes f false).1.subset hn
  have he : ungroupDefs f = (ungroupDefsGo f false).1 := by
    unfold ungroupDefs
    refine unlinkAll_id fun n hn k hk hr => ?_
    obtain ⟨m, hm, rfl, hd⟩ := removed_are_defs f false k hr
    obtain ⟨x, hx, rfl⟩ := mem_spots (p := top) hm
    exact (h.defs x hx hd).1 (Forest.isUsed_iff.2 ⟨n, hsub n hn, hk⟩)
  rw [he]
  refine ⟨(shed_ungroup h.defs false).look fun n hn k hk => Forest.isUsed_iff.2 ⟨n, hsub n hn, hk⟩, ?_, fun n hn => h.foreign n (hsub n hn)⟩
  exact (h.defs.ungroup false).mono fun k hk => used_sub hsub hk

theorem dropEmpty_nodes (f : Forest) : (dropEmptyDefs f).1.nodes.Sublist f.nodes := by
  rcases dropEmptyDefs_spec f with ⟨_, h2⟩ | ⟨d, _, h2, l, r, h3, h4, _⟩
  · rw [h2]
  · rw [h3, h4]; exact List.Sublist.append_left (List.sublist_cons_self _ _) _

theorem setSvg_nodes {f : Forest} {n : Node} {k k' : Forest} (hs : svgElement f = some (n, k)) (h : ∀ m ∈ k'.nodes, m ∈ k.nodes) :
    ∀ m ∈ (setSvgElement n k' f).nodes, m ∈ f.nodes := by
  induction f with
  | nil => cases hs
  | cons m c r _ ih =>
    unfold svgElement at hs
    unfold setSvgElement
    intro x hx
    split at hs
    next ht =>
      cases hs
      rw [if_pos ht] at hx
      simp only [Forest.nodes_cons, List.mem_cons, List.mem_append] at hx ⊢
      rcases hx with rfl | hx | hx
      · exact .inl rfl
      · exact .inr (.inl (h x hx))
      · exact .inr (.inr hx)
    next ht =>
      rw [if_neg ht] at hx
      simp only [Forest.nodes_cons, List.mem_cons, List.mem_append] at hx ⊢
      rcases hx with rfl | hx | hx
      · exact .inl rfl
      · exact .inr (.inl hx)
      · exact .inr (.inr (ih hs x hx))

theorem DefsOk.empty {u : Nat → Prop} {f : Forest} {p : Kind} (h : DefsOk u p f) : DefsOk u p (dropEmptyDefs f).1 := by
  induction f with
  | nil => exact h
  | cons n k r _ ih =>
    have hr : DefsOk u p r := fun x hx => h x (by simp [spots, hx])
    unfold dropEmptyDefs
    split
    · exact hr
    · exact DefsOk.cons (h (p, n, k) (by simp [spots])) (fun x hx => h x (by simp [spots, hx])) (ih hr)

theorem DefsOk.setSvg {u : Nat → Prop} {f : Forest} {p : Kind} (h : DefsOk u p f) {n : Node} {k k' : Forest} (hs : svgElement f = some (n, k))
    (hk : DefsOk u n.kind k') : DefsOk u p (setSvgElement n k' f) := by
  induction f with
  | nil => cases hs
  | cons m c r _ ih =>
    have hr : DefsOk u p r := fun x hx => h x (by simp [spots, hx])
    unfold svgElement at hs
    unfold setSvgElement
    split at hs
    next ht => cases hs; rw [if_pos ht]; exact DefsOk.cons (h (p, n, k) (by simp [spots])) hk hr
    next ht => rw [if_neg ht]; exact DefsOk.cons (h (p, m, c) (by simp [spots])) (fun x hx => h x (by simp [spots, hx])) (ih hr hs)

theorem removeEmptyDefs_tidy {f g : Forest} (h : Tidy f) (hg : removeEmptyDefs f = some g) : SameLook f g ∧ (∀ n ∈ g.nodes, n ∈ f.nodes) ∧ DefsOk (Used f) top g := by
  obtain ⟨⟨n, k⟩, hs, rfl⟩ := Option.map_eq_some_iff.1 hg
  have hk : DefsOk (Used f) n.kind k := fun x hx => h.defs x (spots_svg hs x hx)
  have hsub : ∀ m ∈ (setSvgElement n (dropEmptyDefs k).1 f).nodes, m ∈ f.nodes := setSvg_nodes hs fun m hm => (dropEmpty_nodes k).subset hm
  have he : unlinkAll (dropEmptyDefs k).2 (setSvgElement n (dropEmptyDefs k).1 f) = setSvgElement n (dropEmptyDefs k).1 f := by
    refine unlinkAll_id fun m hm x hx hr => ?_
    rcases dropEmptyDefs_spec k with ⟨h1, _⟩ | ⟨d, hd, h2, l, r, h3, h4, _⟩
    · rw [h1] at hr; cases hr
    · rw [h2, List.mem_singleton] at hr
      subst hr
      obtain ⟨y, hy, rfl⟩ := mem_spots (p := n.kind) (f := k) (n := d) (by rw [h3]; simp)
      exact (hk y hy hd).1 (Forest.isUsed_iff.2 ⟨m, hsub m hm, hx⟩)
  show SameLook f (unlinkAll (dropEmptyDefs k).2 (setSvgElement n (dropEmptyDefs k).1 f)) ∧ (∀ m ∈ (unlinkAll (dropEmptyDefs k).2 (setSvgElement n (dropEmptyDefs k).1 f)).nodes, _) ∧
    DefsOk (Used f) top (unlinkAll (dropEmptyDefs k).2 (setSvgElement n (dropEmptyDefs k).1 f))
  rw [he]
  exact ⟨(shed_setSvg hs (shed_empty hk)).look fun m hm x hx => Forest.isUsed_iff.2 ⟨m, hsub m hm, hx⟩, hsub, DefsOk.setSvg h.defs hs hk.empty⟩

theorem removeEmptyDefs_keeps {f g : Forest} (h : Tidy f) (hg : removeEmptyDefs f = some g) : Tidy g := by
  obtain ⟨_, h1, h2⟩ := removeEmptyDefs_tidy h hg
  exact ⟨h2.mono fun k hk => used_sub h1 hk, fun n hn => h.foreign n (h1 n hn)⟩

end Verif.Render

namespace Verif.Pipeline
open Verif.Dom Verif.Spec Verif.Render
open Verif.Dom (Res)
open Verif.Cli (CleaningOptions)
open Verif.Simple

/-- Only options that concern the file are on: descriptive elements, version, ids, `defs` elements, namespaces. -/
structure FileOnly (o : CleaningOptions) : Prop where
  unusedDefs : o.removeUnusedDefs = false
  invalidStops : o.removeInvalidStops = false
  gradientTs : o.applyTransformToGradients = false
  duplLinear : o.removeDuplLinearGradients = false
  duplRadial : o.removeDuplRadialGradients = false
  duplBlur : o.removeDuplFeGaussianBlur = false
  merge : o.mergeGradients = false
  ungroup : o.ungroupGroups = false
  shapeTs : o.applyTransformToShapes = false
  shapes : o.convertShapes = false
  paths : o.pathsToRelative = false
  invisible : o.removeInvisibleElements = false
  regroup : o.regroupGradientStops = false
  use : o.resolveUse = false
  defaults : o.removeDefaultAttributes = false
  text : o.removeTextAttributes = false
  needless : o.removeNeedlessAttributes = false
  gradientAttrs : o.removeGradientAttributes = false
  coords : o.removeUnusedCoordinates = false
  byStyle : o.groupByStyle = false

theorem on_off {t : Task} {f g : Forest} (h : on false t f = .ok g) : g = f := by cases h; rfl

theorem on_cases {b : Bool} {t : Task} {f g : Forest} (h : on b t f = .ok g) : g = f ∨ t f = .ok g := by
  cases b with
  | false => exact .inl (on_off h)
  | true => exact .inr h

/-- A task that only matters for the file. -/
def Hushed (Q R : Forest → Prop) (t : Task) : Prop := ∀ f g, Q f → t f = .ok g → SameLook f g ∧ R g

theorem Hushed.on {Q : Forest → Prop} {t : Task} (h : Hushed Q Q t) (b : Bool) : Hushed Q Q (Pipeline.on b t) := by
  intro f g hf hg
  rcases on_cases hg with rfl | hg
  · exact ⟨SameLook.refl _, hf⟩
  · exact h f g hf hg

theorem quiet_nil {Q : Forest → Prop} : Hushed Q Q (runAll []) := by intro f g hf h; cases h; exact ⟨SameLook.refl _, hf⟩

theorem quiet_cons {Q R S : Forest → Prop} {t : Task} {ts : List Task} (h1 : Hushed Q R t) (h2 : Hushed R S (runAll ts)) : Hushed Q S (runAll (t :: ts)) := by
  intro f g hf h
  obtain ⟨a, ha, hb⟩ := runAll_cons h
  obtain ⟨l1, q1⟩ := h1 f a hf ha
  obtain ⟨l2, q2⟩ := h2 a g q1 hb
  exact ⟨l1.trans l2, q2⟩

theorem quiet_off {Q : Forest → Prop} {b : Bool} (h : b = false) (t : Task) : Hushed Q Q (on b t) := by
  intro f g hf hg
  rw [h] at hg
  cases on_off hg
  exact ⟨SameLook.refl _, hf⟩

theorem quiet_twins {t : Task} (h : ∀ f g, Tidy f → t f = .ok g → Twins f g) : Hushed Tidy Tidy t :=
  fun f g hf hg => ⟨(h f g hf hg).look, (h f g hf hg).tidy hf⟩

theorem quiet_remove {e : EId} (he : isDesc (.elem e) = true) : Hushed Plain Plain (sure (removeElement e)) := by
  intro f g hf hg
  cases hg
  exact ⟨hf.removed he, hf.remove⟩

theorem quiet_weaken {Q R S : Forest → Prop} {t : Task} (h : Hushed R S t) (hq : ∀ f, Q f → R f) : Hushed Q S t := fun f g hf hg => h f g (hq f hf) hg

theorem quiet_tail (E : Env) (o : CleaningOptions) (hf : FileOnly o) : Hushed Plain Tidy (runAll (((plan (tasks E o) o).drop 8).take 33)) := by
  show Hushed Plain Tidy (runAll (_ :: _ :: _ :: _))
  refine quiet_cons ((quiet_remove rfl).on _) (quiet_cons ((quiet_remove rfl).on _) (quiet_cons ((quiet_remove rfl).on _) ?_))
  refine quiet_weaken (R := Tidy) ?_ fun f h => h.tidy
  refine quiet_cons (quiet_off hf.unusedDefs _) (quiet_cons (quiet_off hf.invalidStops _) (quiet_cons (quiet_off hf.gradientTs _) ?_))
  refine quiet_cons (quiet_off hf.duplLinear _) (quiet_cons (quiet_off hf.duplRadial _) (quiet_cons (quiet_off hf.duplBlur _) ?_))
  refine quiet_cons (quiet_off hf.merge _) (quiet_cons (quiet_off hf.gradientTs _) (quiet_cons (quiet_off hf.ungroup _) ?_))
  refine quiet_cons (quiet_off hf.shapeTs _) (quiet_cons (quiet_off hf.shapes _) (quiet_cons (quiet_off hf.paths _) ?_))
  refine quiet_cons (quiet_off hf.invisible _) (quiet_cons (quiet_off hf.regroup _) (quiet_cons (quiet_off hf.ungroup _) ?_))
  refine quiet_cons (quiet_off hf.use _) (quiet_cons (quiet_off hf.defaults _) (quiet_cons (quiet_off hf.text _) ?_))
  refine quiet_cons (quiet_off hf.needless _) (quiet_cons (quiet_off hf.gradientAttrs _) (quiet_cons (quiet_off hf.coords _) ?_))
  refine quiet_cons (quiet_off hf.ungroup _) (quiet_cons (quiet_off hf.byStyle _) ?_)
  refine quiet_cons (Hushed.on (quiet_twins fun f g _ h => by cases h; exact twins_unreferenced f) _) ?_
  refine quiet_cons (Hushed.on (quiet_twins fun f g _ h => twins_trim (may_ok h)) _) ?_
  refine quiet_cons (Hushed.on (quiet_twins fun f g _ h => twins_version (may_ok h)) _) ?_
  refine quiet_cons (Hushed.on (fun f g hf h => by cases h; exact ungroupDefs_tidy hf) _) ?_
  refine quiet_cons (R := Tidy) (fun f g hf h => ⟨(removeEmptyDefs_tidy hf (may_ok h)).1, removeEmptyDefs_keeps hf (may_ok h)⟩) ?_
  refine quiet_cons (R := Tidy) (quiet_twins fun f g _ h => twins_xmlns (may_ok h)) ?_
  exact quiet_cons (R := Tidy) (quiet_twins fun f g hf h => by cases h; exact twins_dropDefault hf) quiet_nil

theorem quiet_run (E : Env) (o : CleaningOptions) (ho : FileOnly o) {f p d : Forest} (h : runUpTo E o 8 f = .ok p) (hp : Plain p)
    (hd : runUpTo E o 41 f = .ok d) : SameLook p d := by
  have e : (plan (tasks E o) o).take 41 = (plan (tasks E o) o).take 8 ++ ((plan (tasks E o) o).drop 8).take 33 := rfl
  unfold runUpTo at hd h
  rw [e] at hd
  obtain ⟨p', h1, h2⟩ := runAll_append hd
  rw [h] at h1
  cases h1
  exact (quiet_tail E o ho p d hp h2).1

/-- **C62** as it is stated: with any choice of the options that concern the file only, the picture of the document that the preparation
leaves does not change any more. -/
def C62_full : Prop := ∀ (E : Env) (o : CleaningOptions) (f p g : Forest), Parsed f → FileOnly o → o.joinStyleAttributes = .none →
  runUpTo E o 8 f = .ok p → cleanDoc E o f = .ok g → SameView p g

/-- C62 for documents whose descriptive elements and `defs` elements stand where they may stand, are not referred to, and whose `defs`
elements have no attributes that are inherited.  `p` is the document after the preparation, `g` is what is written.  (Joining
attributes to a `style` attribute is C49.) -/
theorem C62_look_partial (E : Env) (o : CleaningOptions) (ho : FileOnly o) {f p g : Forest} (h : runUpTo E o 8 f = .ok p) (hp : Plain p)
    (hg : cleanDoc E o f = .ok g) :
    ∃ d, SameLook p d ∧ g = joinStyleAttributes E.nameOf E.ser o.joinStyleAttributes d ∧ (o.joinStyleAttributes = .none → SameLook p g) := by
  have e : plan (tasks E o) o = (plan (tasks E o) o).take 41 ++ [(tasks E o).joinStyle o.joinStyleAttributes] := rfl
  unfold cleanDoc at hg
  rw [e] at hg
  obtain ⟨d, h1, h2⟩ := runAll_append hg
  obtain ⟨g', h3, h4⟩ := runAll_cons h2
  cases h3
  cases h4
  have hs := quiet_run E o ho h hp h1
  refine ⟨d, hs, rfl, fun hj => ?_⟩
  unfold joinStyleAttributes
  rw [if_pos hj]
  exact hs

/-! ### Examples -/

/-- All options that concern the file only. -/
def fileOpts : CleaningOptions where
  removeTitle := true
  removeDesc := true
  removeMetadata := true
  removeVersion := true
  removeUnreferencedIds := true
  trimIds := true
  ungroupDefs := true
  removeXmlnsXlinkAttribute := true

theorem fileOpts_only : FileOnly fileOpts := by constructor <;> rfl

def fileDoc : Forest :=
  .cons (el 0 .svg "" [(.version, .str "1.1"), (.xmlnsXlink, .str "http://www.w3.org/1999/xlink")])
    (leaf (el 1 .title "" []) (.cons (el 2 .g "" [(.transform, .transform ⟨1, 0, 0, 1, 0, 0⟩)]) (leaf (el 3 .desc "" []) (leaf (el 4 .rect "old" [(.width, px 5), (.height, px 7), (.fill, .funcLink 6)]) .nil))
      (.cons (el 5 .defs "" []) (.cons (el 6 .linearGradient "the gradient" []) (leaf (el 7 .stop "" [(.offset, px 0)]) .nil) .nil) .nil))) .nil

/-- What a run up to the given task makes of a document. -/
def upTo (o : CleaningOptions) (i : Nat) (f : Forest) : Forest :=
  match runUpTo env o i f with
  | .ok g => g
  | _ => .nil

theorem plain_of {f : Forest} (h : ∀ n ∈ f.nodes, (n.attrs.map (·.name)).Nodup)
    (hd : ∀ x ∈ spots top f, isDesc x.2.1.kind = true → isElem x.1 = true ∧ f.isUsed x.2.1.key = false ∧ ∀ m ∈ x.2.2.nodes, f.isUsed m.key = false)
    (hs : ∀ x ∈ spots top f, x.2.1.kind = .elem .defs → f.isUsed x.2.1.key = false ∧ x.2.1.attrs = [] ∧ groupPlace x.1 = true)
    (hf : ∀ n ∈ f.nodes, isElem n.kind = false → n.get .transform = none) : Plain f :=
  ⟨h, hd, fun x hx hk => ⟨(hs x hx hk).1, fun a _ => by unfold Node.get; rw [(hs x hx hk).2.1]; rfl, (hs x hx hk).2.2⟩, hf⟩

/-- All options at once, on a document where each of them has something to do. -/
example : runUpTo env fileOpts 8 fileDoc = .ok (upTo fileOpts 8 fileDoc) ∧ Plain (upTo fileOpts 8 fileDoc) ∧
    cleanDoc env fileOpts fileDoc = .ok (upTo fileOpts 42 fileDoc) ∧ (upTo fileOpts 8 fileDoc).keys = [0, 5, 6, 7, 1, 2, 3, 4] ∧
    (upTo fileOpts 42 fileDoc).keys = [0, 6, 7, 2, 4] ∧ (upTo fileOpts 42 fileDoc).nodes.map Node.id = ["", "a", "", "", ""] :=
  ⟨by decide +kernel, plain_of (by decide +kernel) (by decide +kernel) (by decide +kernel) (by decide +kernel), by decide +kernel, by decide +kernel, by decide +kernel,
    by decide +kernel⟩

/-- A mask in a `defs` element with a fill. -/
def filledDefs : Forest :=
  doc (.cons (el 2 .defs "" [(.fill, .color 1 2 3)]) (.cons (el 4 .mask "m" []) (leaf (el 5 .rect "" [(.width, px 5), (.height, px 7)]) .nil) .nil)
    (leaf (el 9 .rect "" [(.width, px 5), (.height, px 7), (.mask, .funcLink 4)]) .nil))

def filledOut : Forest :=
  .cons (el 0 .svg "" [(.xmlnsXlink, .str "http://www.w3.org/1999/xlink")])
    (.cons (el 4 .mask "m" []) (leaf (el 5 .rect "" [(.width, px 5), (.height, px 7)]) .nil)
    (leaf (el 9 .rect "" [(.width, px 5), (.height, px 7), (.mask, .funcLink 4)]) .nil)) .nil

/-- **Finding.** `ungroup-defs` removes a `defs` element with a fill: the content of a mask in it loses the fill that it inherits. -/
theorem C62_refuted_ungroup_defs : ¬ C62_full := by
  intro h
  obtain ⟨D, hD⟩ := h env { ungroupDefs := true } filledDefs filledDefs filledOut
    (by decide +kernel) (by constructor <;> rfl) rfl (by decide +kernel) (by decide +kernel) _ UnusedDefs.maskScribe
  have h1 : ∀ d, picture UnusedDefs.maskScribe (d + 1) filledDefs = picture UnusedDefs.maskScribe 1 filledDefs := fun _ => rfl
  have h2 : ∀ d, picture UnusedDefs.maskScribe (d + 1) filledOut = picture UnusedDefs.maskScribe 1 filledOut := fun _ => rfl
  have := hD (D + 1) (by omega)
  rw [h1, h2] at this
  revert this
  decide +kernel

end Verif.Pipeline
