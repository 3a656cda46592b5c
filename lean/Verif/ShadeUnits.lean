import Verif.ShadePasses
/-
C72: removing `gradientUnits` (C45).
-/
namespace Verif.Shade
open Verif.Dom Verif.Spec Verif.Render Verif.Reader Verif.Gradients Verif.GradUnits

theorem hide_names (n : Node) (a : AId) : (n.hide a).attrs.map Attr.name = n.attrs.map Attr.name := by
  show (hideAttr n.attrs (.id a)).map Attr.name = _
  unfold hideAttr
  rw [List.map_map]
  refine List.map_congr_left fun x _ => ?_
  simp only [Function.comp]
  split <;> rfl

theorem set_names {n : Node} (a : AId) (v : Value) (h : (n.attrs.map Attr.name).Nodup) : ((n.set a v).attrs.map Attr.name).Nodup :=
  Ungroup.putAttr_names _ _ h

theorem named_modify {f : Forest} (h : UniqueAttrs f) {k : Nat} {u : Node → Node}
    (hu : ∀ n : Node, (n.attrs.map Attr.name).Nodup → ((u n).attrs.map Attr.name).Nodup) : UniqueAttrs (f.modify k u) := by
  intro m hm
  unfold Forest.modify at hm
  rw [Forest.nodes_map] at hm
  obtain ⟨n, hn, rfl⟩ := List.mem_map.1 hm
  split
  · exact hu n (h n hn)
  · exact h n hn

theorem named_forEach {upd : Nat → Forest → Option Forest} (hs : ∀ k f g, UniqueAttrs f → upd k f = some g → UniqueAttrs g) {ks : List Nat} {f g : Forest}
    (h : UniqueAttrs f) (e : forEach upd ks f = some g) : UniqueAttrs g := by
  induction ks generalizing f with
  | nil => cases e; exact h
  | cons k t ih =>
    simp only [forEach, Option.bind_eq_some_iff] at e
    obtain ⟨f1, e1, e2⟩ := e
    exact ih (hs k f f1 h e1) e2

theorem named_hide {k : Nat} {f g : Forest} (h : UniqueAttrs f) (e : hideUnits k f = some g) : UniqueAttrs g := by
  unfold hideUnits at e
  obtain ⟨n, _, e⟩ := Option.bind_eq_some_iff.1 e
  split at e
  · cases e
    exact named_modify h fun n hn => by rw [hide_names]; exact hn
  · cases e

theorem named_equalStep {k : Nat} {f g : Forest} (h : UniqueAttrs f) (e : equalStep k f = some g) : UniqueAttrs g := by
  unfold equalStep at e
  obtain ⟨n, _, e⟩ := Option.bind_eq_some_iff.1 e
  split at e
  · obtain ⟨t, _, e⟩ := Option.bind_eq_some_iff.1 e
    split at e
    · exact named_hide h e
    · cases e; exact h
  · cases e; exact h

theorem named_loop {fuel : Nat} {f g : Forest} {o : List (Nat × Nat)} (h : UniqueAttrs f) (e : equalLoop fuel f o = some g) : UniqueAttrs g := by
  induction fuel generalizing f o with
  | zero =>
    unfold equalLoop at e
    split at e
    · cases e; exact h
    · cases e
  | succ fuel ih =>
    unfold equalLoop at e
    split at e
    · cases e; exact h
    · dsimp only at e
      obtain ⟨p, h1, h2⟩ := Option.bind_eq_some_iff.1 e
      unfold equalRound at h1
      dsimp only at h1
      obtain ⟨f', h3, h4⟩ := Option.bind_eq_some_iff.1 h1
      obtain ⟨o', _, rfl⟩ := Option.map_eq_some_iff.1 h4
      exact ih (named_forEach (fun _ _ _ => named_equalStep) h h3) h2

theorem named_share {maj other : Kw} {k : Nat} {f g : Forest} (h : UniqueAttrs f) (e : shareUnits maj other k f = some g) : UniqueAttrs g := by
  unfold shareUnits at e
  obtain ⟨n, _, e⟩ := Option.bind_eq_some_iff.1 e
  split at e
  · split at e
    · exact named_hide h e
    · cases e
      exact named_modify h fun n hn => set_names _ _ hn
  · cases e; exact h

theorem named_group {k : Nat} {f g : Forest} (h : UniqueAttrs f) (e : groupBody k f = some g) : UniqueAttrs g := by
  unfold groupBody at e
  dsimp only at e
  obtain ⟨f1, h1, h2⟩ := Option.bind_eq_some_iff.1 e
  have hset : ∀ v : Kw, UniqueAttrs (f.modify k fun n => n.set .gradientUnits (.kw v)) := fun v => named_modify h fun n hn => set_names _ _ hn
  have : UniqueAttrs f1 := by
    split at h1
    · exact named_forEach (fun _ _ _ => named_hide) (hset _) h1
    · split at h1
      · exact named_forEach (fun _ _ _ => named_hide) (hset _) h1
      · split at h1
        · exact named_forEach (fun _ _ _ => named_share) (hset _) h1
        · exact named_forEach (fun _ _ _ => named_share) (hset _) h1
  unfold hideDefault at h2
  obtain ⟨n, _, h2⟩ := Option.bind_eq_some_iff.1 h2
  split at h2
  · exact named_hide this h2
  · cases h2; exact this

theorem named_remove {f g : Forest} (h : UniqueAttrs f) (e : removeGradientAttributes f = some g) : UniqueAttrs g := by
  unfold removeGradientAttributes at e
  obtain ⟨f1, h1, h2⟩ := Option.bind_eq_some_iff.1 e
  exact named_forEach (fun _ _ _ => named_group) (named_loop h h1) h2

theorem written_same_but {as : List AId} {n m : Node} (h : ApplyTs.SameBut as n m) {a : AId} (ha : a ∉ as) : written m a = written n a :=
  ApplyTs.written_same h ha

theorem gtransform_of {f g : Forest} {n m : Node} (h : ∀ v, Effective g .gradientTransform m v ↔ Effective f .gradientTransform n v) (T : Paths.Transform) :
    GTransform f n T ↔ GTransform g m T := by unfold GTransform; rw [h, h]

/-- **C72** Removing `gradientUnits` that are inherited or common does not change what is drawn. -/
theorem C72_units_partial {f g : Forest} (hf : Page f) (hr : Ready f) (h : removeGradientAttributes f = some g) : Page g ∧ SameShade (onPaper f) (onPaper g) := by
  have hnames := named_remove hf.attrs h
  obtain ⟨hi, hc⟩ := inv_of_remove hr h
  have hval := hi
  obtain ⟨w, rfl, hk, hch⟩ := hi.ex
  have hmem : ∀ n ∈ f.nodes, w n ∈ (f.map w).nodes := fun n hn => by rw [Forest.nodes_map]; exact List.mem_map_of_mem hn
  have hw : ∀ n ∈ f.nodes, n.isGradient = true → Turned n (w n) := by
    intro n hn hg
    have same : ∀ a, a ≠ .gradientUnits → written (w n) a = written n a := fun a ha => written_same_but (hch n hn).same (by simpa using ha)
    have get0 : ∀ a, (paper n).get a = written n a := fun a => get_paper (hf.attrs n hn) a
    refine ⟨(hch n hn).same.kind, hnames _ (hmem n hn), fun a _ _ h3 => same a h3, ?_, ?_, ?_⟩
    · intro a ha v hv
      rw [same a (by rintro rfl; revert ha; decide), ← get0] at hv
      exact hf.sheet.coords (paper n) (mem_paper hn) hg a ha v hv
    · intro v hv
      rw [same _ (by decide), ← get0] at hv
      exact hf.sheet.moved (paper n) (mem_paper hn) hg v hv
    · intro v hv
      have := written_get hv
      rcases (hch n hn).units hg with e | e
      all_goals
        rw [e] at this
        cases this
        rfl
  refine ⟨page_turned hf hk hw fun n hn => (hch n hn).other, shade_turned hf hk hw (fun n hn => (hch n hn).other) ?_⟩
  rintro n hn hg ⟨x, hx, hxg, hl⟩ l l' h1 h2 _ _
  have e := fun (b : AId) (hb : b ≠ .gradientUnits) (v : Option Value) => effective_at (a := b) hr.uniq rfl hk
      (fun m hm => written_same_but (hch m hm).same (by simpa using hb)) (fun m hm => written_same_but (hch m hm).same (by decide)) hn v
  refine h1.alike_of hg h2 (hch n hn).same.kind.symm ?_ (gtransform_of (e _ (by decide))) (turned_looks_stops hf hk hw (fun n hn => (hch n hn).other) hn h1 h2)
  intro a ha hne v
  by_cases hu : a = .gradientUnits
  · subst hu
    have hnf : ¬ Free f n := by
      rintro ⟨h1, h2⟩
      rw [h1 x hx hl] at hxg; cases hxg
    have hget := (hch n hn).value hnf
    obtain ⟨y, hy, _⟩ := hr.coherent n hn hg
    have v1 := (hr.resolved n hn hg y).1 hy
    have v2 := coherent_value (hval.uniq hr) (hval.href hr) hc (hmem n hn) (by rw [isGradient_congr (hch n hn).same.kind]; exact hg) (by rw [hget]; exact hy)
    constructor
    · intro hv; rw [hv.unique v1]; exact v2
    · intro hv; rw [hv.unique v2]; exact v1
  · refine (ApplyTs.gradientValue_congr (hch n hn).same.kind (e a hu) (fun c hc => e c ?_) v).symm
    intro he
    rw [he] at hc
    unfold centreOf at hc
    split at hc <;> cases hc

end Verif.Shade
