import Verif.Sketch
/-
C66: what removes elements keeps a drawing a drawing.
-/
namespace Verif.Draft
open Verif.Dom Verif.Spec Verif.Render
open Verif.Invisible (plainStop)

variable [Flavour]

theorem top_cut (pr : Node → Bool) (s : Nat → Bool) (f : Forest) : (cut pr s f).top = (f.top.filter fun n => !pr n).map (·.unlink s) := by
  induction f with
  | nil => rfl
  | cons n k r _ ih =>
    rw [cut_cons]
    cases hn : pr n with
    | true => simp [Forest.top, hn, ih]
    | false => simp [Forest.top, hn, ih]

theorem AttrFine.weaken {G H : Nat → Prop} {k : Kind} {y : Attr} (h : AttrFine G k y) (hG : ∀ t, y.value.target = some t → G t → H t) : AttrFine H k y :=
  ⟨fun t ht => ⟨(h.paint t ht).1, (h.paint t ht).2.1, hG t ht (h.paint t ht).2.2⟩, h.cond, h.inherit, h.transform, h.display, h.group, h.defs, h.extra⟩

theorem Fine.kid_stop {G : Nat → Prop} {f : Forest} {p : Kind} {n : Node} {ks : Forest} (hx : (p, n, ks) ∈ spots doc f) (hf : ∀ x ∈ spots doc f, Fine G x.1 x.2.1 x.2.2)
    (hg : n.isGradient = true) : ∀ s ∈ ks.top, s.kind = .elem .stop ∧ s.links = [] := by
  intro s hs
  obtain ⟨c, hc⟩ := Invisible.kids_spots hx hs
  have h := hf _ hc
  have hk : s.kind = .elem .stop := by
    have := h.place
    dsimp only at this
    rcases isGradient_iff.1 hg with e | e <;> rw [e] at this <;> simpa [fits] using this
  exact ⟨hk, h.no_links (by show loose s.kind = false; rw [hk]; rfl)⟩

theorem Sketch.remove {f : Forest} (hf : Sketch f) {pr : Node → Bool} (hp : ∀ n ∈ f.nodes, pr n = true → n.kind ≠ .elem .defs ∧ n.kind ≠ .elem .stop) :
    Sketch (f.remove pr) := by
  refine ⟨Forest.uniqueKeys_remove hf.keys, fun x hx => ?_⟩
  rw [remove_eq] at hx
  obtain ⟨n, ks, h1, h2, h3, _⟩ := spots_cut hx
  obtain ⟨p, m, c⟩ := x
  dsimp only at h1 h3 ⊢
  cases h3
  have h := hf.nodes _ h1
  dsimp only at h
  refine ⟨h.place, h.names.sublist (List.filter_sublist.map _), fun y hy => ?_, fun hk => ?_, fun hg s hs => ?_, h.extra⟩
  · obtain ⟨hy1, hy2⟩ := List.mem_filter.1 hy
    refine (h.attrs y hy1).weaken fun t ht hG => ?_
    obtain ⟨m, hm, rfl, hmg⟩ := hG
    rw [ht] at hy2
    have hnp : m.key ∉ f.prunedKeys pr := by simpa using hy2
    have hm' : m ∈ (f.prune pr).nodes := by
      have hk := (Forest.keys_prune_perm pr f).symm.subset (Forest.mem_keys.2 ⟨m, hm, rfl⟩)
      rcases List.mem_append.1 hk with hk | hk
      · exact absurd hk hnp
      · obtain ⟨m', hm', e⟩ := Forest.mem_keys.1 hk
        rw [← hf.same ((Forest.nodes_prune_sublist _ _).subset hm') hm e]
        exact hm'
    refine ⟨m.unlink fun k => decide (k ∈ f.prunedKeys pr), ?_, rfl, hmg⟩
    rw [remove_eq]
    unfold Render.cut
    rw [Forest.nodes_map]
    exact List.mem_map_of_mem hm'
  · obtain ⟨m, hm, hd⟩ := h.anchor hk
    refine ⟨m.unlink fun k => decide (k ∈ f.prunedKeys pr), ?_, hd⟩
    rw [top_cut]
    refine List.mem_map_of_mem (List.mem_filter.2 ⟨hm, ?_⟩)
    cases hpm : pr m with
    | false => rfl
    | true => exact absurd hd (hp m ((spots_nodes h1).2 m (Invisible.top_nodes hm)) hpm).1
  · have hst := Fine.kid_stop h1 hf.nodes (by rw [← hg]; rfl)
    rw [top_cut, List.filter_eq_self.2] at hs
    · have e : ks.top.map (·.unlink fun k => decide (k ∈ f.prunedKeys pr)) = ks.top := by
        conv_rhs => rw [← List.map_id ks.top]
        refine List.map_congr_left fun s hs => ?_
        exact Invisible.unlink_id fun k hk => by rw [(hst s hs).2] at hk; cases hk
      rw [e] at hs
      exact h.single (by rw [← hg]; rfl) s hs
    · intro m hm
      cases hpm : pr m with
      | false => rfl
      | true => exact absurd (hst m hm).1 (hp m ((spots_nodes h1).2 m (Invisible.top_nodes hm)) hpm).2

theorem Sketch.rmKey {f : Forest} (hf : Sketch f) {k : Nat} (hk : ∀ n ∈ f.nodes, n.key = k → n.kind ≠ .elem .defs ∧ n.kind ≠ .elem .stop) :
    Sketch (Invisible.rmKey k f) := hf.remove fun n hn h => hk n hn (by simpa using h)

theorem Sketch.rmKeys {f : Forest} (hf : Sketch f) {l : List Nat} (hk : ∀ n ∈ f.nodes, n.key ∈ l → n.kind ≠ .elem .defs ∧ n.kind ≠ .elem .stop) :
    Sketch (Invisible.rmKeys l f) := by
  induction l generalizing f with
  | nil => exact hf
  | cons k l ih =>
    refine ih (f := Invisible.rmKey k f) (hf.rmKey fun n hn e => hk n hn (e ▸ List.mem_cons_self)) fun n hn hl => ?_
    obtain ⟨m, hm, rfl, _⟩ := Invisible.remove_node hn
    exact hk m hm (List.mem_cons_of_mem _ hl)

/-- Removing, when they are reached, the elements that satisfy a test. -/
theorem Sketch.drain {f : Forest} (hf : Sketch f) {q : Node → Forest → Bool} (hq : ∀ n k, q n k = true → n.kind ≠ .elem .defs ∧ n.kind ≠ .elem .stop) :
    Sketch (Invisible.drain q f).1 := by
  unfold Invisible.drain
  have : ∀ (l : List Nat) (g : Forest × Bool), Sketch g.1 → Sketch (l.foldl (fun g k => match ResolveUse.subtree k g.1 with
    | some (n, ks) => if q n ks then (Invisible.rmKey k g.1, true) else g
    | none => g) g).1 := by
    intro l
    induction l with
    | nil => intro g hg; exact hg
    | cons k l ih =>
      intro g hg
      rw [List.foldl_cons]
      refine ih _ ?_
      split
      next n ks h =>
        split
        next hn =>
          obtain ⟨e, r, hr⟩ := Invisible.subtree_spots doc h
          refine hg.rmKey fun m hm hk => ?_
          rw [hg.same hm (spots_nodes hr).1 (hk.trans e.symm)]
          exact hq n ks hn
        next => exact hg
      next => exact hg
  exact this f.keys (f, false) hf

/-! ### Descriptive elements -/

theorem Sketch.desc {f : Forest} (hf : Sketch f) {e : EId} (he : isDesc (.elem e) = true) : Sketch (Simple.removeElement e f) := by
  refine hf.remove fun n _ hn => ?_
  rw [(Node.isTag_iff _ _).1 hn]
  cases e <;> first | (cases he; done) | exact ⟨by decide, by decide⟩

end Verif.Draft
