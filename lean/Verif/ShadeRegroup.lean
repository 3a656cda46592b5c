import Verif.ShadeMerge
import Verif.RegroupResolve
/-
C72: regrouping the stops of gradients (C40).
-/
namespace Verif.Shade
open Verif.Dom Verif.Spec Verif.Render Verif.Reader Verif.Regroup
open Verif.Paths (Transform Pt)

theorem gone_grad {p k l : Kind} (hk : neverRendered k = true ∧ ∃ e, (e = EId.linearGradient ∨ e = .radialGradient) ∧ k = .elem e)
    (hl : ∃ e, (e = EId.linearGradient ∨ e = .radialGradient) ∧ l = .elem e) : gone p l = gone p k := by
  obtain ⟨_, e, he, rfl⟩ := hk
  obtain ⟨e', he', rfl⟩ := hl
  unfold gone
  rcases he with rfl | rfl <;> rcases he' with rfl | rfl <;> rfl

/-- What is needed of a document that is made of `f0`. -/
structure Spun (f0 f : Forest) : Prop where
  attrs : UniqueAttrs f
  decent : ∀ m ∈ f.nodes, m.isGradient = true → Decent m
  stops : ∀ y ∈ subs f, y.1.isGradient = true → ∀ s ∈ stopKids y.2, ∃ x ∈ subs f0, x.1.isGradient = true ∧ s ∈ stopKids x.2
  place : ∀ z ∈ fringe top f, gone z.1 z.2 = true

theorem fringe_insert {f : Forest} {k : Nat} {n : Node} {c : Forest} {p : Kind} (hn : neverRendered n.kind = true)
    (h : ∀ x ∈ f.nodes, x.key = k → neverRendered x.kind = true) {z : Kind × Kind} (hz : z ∈ fringe p (f.insertBefore k n c)) :
    z ∈ fringe p f ∨ ∃ x ∈ f.nodes, x.key = k ∧ (z.1, x.kind) ∈ fringe p f ∧ z.2 = n.kind := by
  induction f generalizing p with
  | nil => exact .inl hz
  | cons x q r ihq ihr =>
    rw [Forest.insertBefore] at hz
    by_cases e : x.key = k
    · have hx := h x (by simp [Forest.nodes]) e
      rw [if_pos e, fringe, if_pos hn] at hz
      rcases List.mem_cons.1 hz with rfl | hz
      · exact .inr ⟨x, by simp [Forest.nodes], e, by rw [fringe, if_pos hx]; exact List.mem_cons_self, rfl⟩
      · exact .inl hz
    · rw [if_neg e] at hz
      have hq := fun p => @ihq p fun y hy => h y (by simp [Forest.nodes, hy])
      have hr := fun p => @ihr p fun y hy => h y (by simp [Forest.nodes, hy])
      rw [fringe] at hz ⊢
      by_cases hx : neverRendered x.kind = true
      · rw [if_pos hx] at hz ⊢
        rcases List.mem_cons.1 hz with rfl | hz
        · exact .inl List.mem_cons_self
        · rcases hr p hz with h | ⟨y, hy, e1, e2, e3⟩
          · exact .inl (List.mem_cons_of_mem _ h)
          · exact .inr ⟨y, by simp [Forest.nodes, hy], e1, List.mem_cons_of_mem _ e2, e3⟩
      · rw [if_neg hx] at hz ⊢
        rcases List.mem_append.1 hz with hz | hz
        · rcases hq _ hz with h | ⟨y, hy, e1, e2, e3⟩
          · exact .inl (List.mem_append_left _ h)
          · exact .inr ⟨y, by simp [Forest.nodes, hy], e1, List.mem_append_left _ e2, e3⟩
        · rcases hr p hz with h | ⟨y, hy, e1, e2, e3⟩
          · exact .inl (List.mem_append_right _ h)
          · exact .inr ⟨y, by simp [Forest.nodes, hy], e1, List.mem_append_right _ e2, e3⟩

theorem Spun.step {f0 f g : Forest} {n m : Node} (hf : Regroup.Good f) (r : Relink f g n m) (ha : Act f n m g) (h : Spun f0 f) : Spun f0 g := by
  have nk : ∀ x ∈ f.nodes, x.key = n.key → x = n := fun x hx e => Forest.eq_of_key hf.unique hx r.mem e
  have nn : ∀ x ∈ f.nodes, x.key = n.key → neverRendered x.kind = true := fun x hx e => by rw [nk x hx e]; exact gradient_hidden r.grad
  refine ⟨?_, ?_, ?_, ?_⟩
  · intro y hy
    rcases r.back y hy with rfl | ⟨x, hx, rfl⟩
    · rw [r.bare]; exact List.nodup_nil
    · unfold point
      split
      · exact set_names _ _ (h.attrs x hx)
      · exact h.attrs x hx
  · intro y hy hg
    rcases r.back y hy with rfl | ⟨x, hx, rfl⟩
    · have w := bare_written r.bare
      refine ⟨fun a _ k hk => ?_, fun a _ v hv => ?_, fun v hv => ?_, fun a _ _ v hv => ?_⟩
      · rw [w] at hk; cases hk
      · rw [w] at hv; cases hv
      · rw [w] at hv; cases hv
      · rw [w] at hv; cases hv
    · rw [point_gradient] at hg
      have d := h.decent x hx hg
      have w := fun {a : AId} (ha : a ≠ .xlinkHref) => point_written n m.key x ha
      refine ⟨fun a ha k hk => ?_, fun a ha v hv => ?_, fun v hv => ?_, fun a h1 h2 v hv => ?_⟩
      · rw [w (by rintro rfl; revert ha; decide)] at hk; exact d.plain a ha k hk
      · rw [w (by rintro rfl; revert ha; decide)] at hv; exact d.coords a ha v hv
      · rw [w (by decide)] at hv; exact d.moved v hv
      · rw [w h1] at hv; exact d.words a h1 h2 v hv
  · intro y hy hg s hs
    rcases re_inside hf r hy hg with e | ⟨x, hx, hxg⟩
    · rw [e] at hs; cases hs
    · exact h.stops _ hx hxg s hs
  · have fm : ∀ (f : Forest) k, fringe top (f.map (point n k)) = fringe top f := fun f k => fringe_map fun x _ => point_kind n k x
    intro z hz
    rcases ha with ⟨key, id, rfl, rfl⟩ | rfl
    · unfold split at hz
      split at hz
      next c hc =>
        have e : (f.setKids n.key .nil).modify n.key (fun n => n.set .xlinkHref (.link key)) = (f.setKids n.key .nil).map (point n key) := rfl
        rw [e] at hz
        have hk' : ∀ x ∈ ((f.setKids n.key .nil).map (point n key)).nodes, x.key = n.key → x.kind = n.kind := by
          intro x hx ex
          rw [Forest.nodes_map] at hx
          obtain ⟨y, hy, rfl⟩ := List.mem_map.1 hx
          rw [point_kind]
          rw [point_key] at ex
          rcases nodes_setKids hy with hy | hy
          · rw [nk y hy ex]
          · cases hy
        rcases fringe_insert (n := newNode key id) rfl (fun x hx ex => by rw [hk' x hx ex]; exact gradient_hidden r.grad) hz with hz | ⟨x, hx, ex, hz, e2⟩
        · rw [fm, fringe_setKids nn] at hz
          exact h.place z hz
        · rw [fm, fringe_setKids nn, hk' x hx ex] at hz
          rw [e2]
          rw [← h.place _ hz]
          exact gone_grad ⟨gradient_hidden r.grad, Invisible.grad_kind r.grad⟩ ⟨_, .inl rfl, rfl⟩
      · exact h.place z hz
    · rw [fm, fringe_setKids nn] at hz
      exact h.place z hz

/-! ### Resolving adds hidden attributes -/

theorem named_check {k : Nat} {a : AId} {d : Option Value} {f g : Forest} (h : UniqueAttrs f) (e : Gradients.checkAttr k a d f = some g) : UniqueAttrs g := by
  unfold Gradients.checkAttr at e
  obtain ⟨n, _, e⟩ := Option.bind_eq_some_iff.1 e
  split at e
  · cases e; exact h
  · obtain ⟨v, _, e⟩ := Option.map_eq_some_iff.1 e
    subst e
    cases v with
    | none => exact h
    | some v => exact named_modify h fun n hn => Ungroup.putAttr_names _ _ hn

theorem named_linear {f g : Forest} (h : UniqueAttrs f) (e : Gradients.resolveLinear f = some g) : UniqueAttrs g := by
  unfold Gradients.resolveLinear at e
  obtain ⟨o, _, e⟩ := Option.bind_eq_some_iff.1 e
  refine named_forEach (fun k f g h e => ?_) h e
  unfold Gradients.resolveLinearNode at e
  obtain ⟨f1, h1, e⟩ := Option.bind_eq_some_iff.1 e
  obtain ⟨f2, h2, e⟩ := Option.bind_eq_some_iff.1 e
  obtain ⟨f3, h3, e⟩ := Option.bind_eq_some_iff.1 e
  obtain ⟨f4, h4, e⟩ := Option.bind_eq_some_iff.1 e
  obtain ⟨f5, h5, e⟩ := Option.bind_eq_some_iff.1 e
  obtain ⟨f6, h6, e⟩ := Option.bind_eq_some_iff.1 e
  exact named_check (named_check (named_check (named_check (named_check (named_check (named_check h h1) h2) h3) h4) h5) h6) e

theorem Spun.shaded {f0 f g : Forest} (h : Spun f0 f) (hs : Shaded f g) (hg : UniqueAttrs g) : Spun f0 g := by
  obtain ⟨u, rfl, hu, hh⟩ := hs
  have mem : ∀ {m}, m ∈ (f.map u).nodes → ∃ n ∈ f.nodes, u n = m := by
    intro m hm; rw [Forest.nodes_map] at hm; exact List.mem_map.1 hm
  refine ⟨hg, ?_, ?_, ?_⟩
  · intro y hy hyg
    obtain ⟨x, hx, rfl⟩ := mem hy
    have d := h.decent x hx (by rw [← Regroup.grad_kind (hh x hx).kind]; exact hyg)
    have w := (hh x hx).written
    exact ⟨fun a ha k hk => d.plain a ha k (by rw [← w]; exact hk), fun a ha v hv => d.coords a ha v (by rw [← w]; exact hv),
      fun v hv => d.moved v (by rw [← w]; exact hv), fun a h1 h2 v hv => d.words a h1 h2 v (by rw [← w]; exact hv)⟩
  · intro y hy hyg s hs
    rw [Stops.subs_map] at hy
    obtain ⟨x, hx, rfl⟩ := List.mem_map.1 hy
    dsimp only at hs hyg
    have hxm := UnusedDefs.node_of_subs hx
    have hk : ∀ d ∈ x.2.nodes, d.isGradient = false → u d = d := fun d hd e => (hh d ((Stops.subs_kids_sub hx).1.mem hd)).other e
    have hxg : x.1.isGradient = true := by rw [← Regroup.grad_kind (hh _ hxm).kind]; exact hyg
    unfold stopKids at hs
    rw [Stops.top_map] at hs
    obtain ⟨hs, hk'⟩ := List.mem_filter.1 hs
    obtain ⟨t, ht, rfl⟩ := List.mem_map.1 hs
    have htn := (Stops.top_sub_nodes x.2).mem ht
    have htf := (Stops.subs_kids_sub hx).1.mem htn
    have hkt : t.kind = .elem .stop := by rw [← (hh t htf).kind]; simpa using hk'
    have htg : t.isGradient = false := by
      cases hc : t.isGradient with
      | false => rfl
      | true =>
        obtain ⟨e, he, hk⟩ := Invisible.grad_kind hc
        rw [hkt] at hk
        rcases he with rfl | rfl <;> cases hk
    rw [hk t htn htg]
    exact h.stops x hx hxg t (List.mem_filter.2 ⟨ht, by simpa using hkt⟩)
  · intro z hz
    rw [fringe_map fun x hx => (hh x hx).kind] at hz
    exact h.place z hz

theorem Page.spun {f : Forest} (hf : Page f) : Spun f f :=
  ⟨hf.attrs, fun _ hm hg => hf.decent hm hg, fun y hy hg _ hs => ⟨y, hy, hg, hs⟩, fun _ hz => hf.place hz⟩

theorem regroup_page {f g : Forest} (hf : Page f) (hm : Spun f g) (hg : Regrouped f g) (hr : HrefOk g) : Page g ∧ SameShade (onPaper f) (onPaper g) := by
  have hd : drawn g = (drawn f).map (rename id) := by
    rw [hg.drawn]
    exact (Forest.map_id' fun n _ => rename_id fun _ _ => rfl).symm
  have there : ∀ n ∈ f.nodes, n.isGradient = true → ∃ m ∈ g.nodes, m.key = n.key ∧ m.isGradient = true ∧ PaintSame f n g m := by
    intro n hn hng
    obtain ⟨m, h1, h2, _, h3⟩ := hg.paint n hn hng
    refine ⟨m, h1, h2, ?_, h3⟩
    rw [← Regroup.grad_kind h3.kind]
    exact hng
  have page : Page g := page_from hf hm.attrs hg.unique hr hm.decent hm.stops hd
    (fun n hn hng _ => by
      obtain ⟨m, h1, h2, h3, _⟩ := there n hn hng
      exact ⟨m, h1, h2, h3⟩) hm.place
  refine ⟨page, shade_pages hf page hd fun n hn hng _ => ?_⟩
  obtain ⟨m, h1, h2, h3, h4⟩ := there n hn hng
  exact ⟨m, h1, h2, h3, fun l l' a b _ _ => a.alike hng b h4⟩

/-- **C72** Regrouping the stops of gradients does not change what is drawn. -/
theorem C72_regrouped_partial {f : Forest} (hf : Page f) (hg : Regroup.Good f) :
    ∃ g, regroup f = some g ∧ Page g ∧ SameShade (onPaper f) (onPaper g) := by
  obtain ⟨r, h1, h2, hsp⟩ := loop_ok (P := Spun f) (fun hf r ha h => h.step hf r ha) hg.walk hf.spun (Nat.le_refl (candidates f).length)
  have hs : Sound r.1 := ⟨h2.core.good.unique, h2.core.good.links, h2.core.good.href, h2.core.good.shown⟩
  unfold regroup
  rw [h1, Option.bind_some]
  split
  · obtain ⟨g, h3, h4⟩ := resolve_ok h2.core.good
    have hs' := hs.shaded h4
    have hsg := hsp.shaded h4 (named_linear hsp.attrs h3)
    obtain ⟨u, rfl, hu, hh⟩ := h4
    exact ⟨_, h3, regroup_page hf hsg (regrouped h2 hu hh hs') hs'.href⟩
  · have hg := h2.core.good
    have e : r.1.map id = r.1 := Forest.map_id' fun _ _ => rfl
    have := regrouped h2 (u := id) (fun _ => rfl) (fun n hn => Hid.refl hg.links hn) (by rw [e]; exact hs)
    rw [e] at this
    exact ⟨_, rfl, regroup_page hf hsp this hs.href⟩

end Verif.Shade
