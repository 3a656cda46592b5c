import Verif.DuplProps
/-
Property C32, fourth part: the loops.
-/
namespace Verif.Dupl
open Verif.Dom Verif.Spec
open Verif.UnusedDefs (kidsOf_subs subs_kidsOf mem_subs_of_node node_of_subs)
open Verif.Merge (isGradient_kind written_some)

section step
variable {f : Forest} (hf : Good f) {n1 n2 : Node} (ht : Twins f n1 n2)
include hf ht

theorem inside_fused {y : Node × Forest} (hy : y ∈ subs (fused f n1 n2)) (hg : y.1.isGradient = true) :
    ∃ x, (x, y.2) ∈ subs f ∧ x.key ≠ n2.key ∧ y.1 = rename (sub n2.key n1.key) x := by
  obtain ⟨x, hx, hk, e⟩ := fused_mem (twins_fusable hf ht) (node_of_subs hy)
  have h1 := kidsOf_subs (fused_unique (twins_fusable hf ht)) (n := y.1) (c := y.2) hy
  have hxg : x.isGradient = true := by rw [e, rename_gradient] at hg; exact hg
  rw [e, rename_key, kids_grad hf ht hx hxg hk] at h1
  exact ⟨x, hf.kids hx h1, hk, e⟩

theorem inGradient_fused {x : Node} (h : InGradient (fused f n1 n2) (rename (sub n2.key n1.key) x)) (hx : x ∈ f.nodes) : InGradient f x := by
  obtain ⟨y, hy, hg, hm⟩ := h
  obtain ⟨z, hz, _, e⟩ := inside_fused hf ht hy hg
  have hzg : z.isGradient = true := by rw [e, rename_gradient] at hg; exact hg
  have := Forest.eq_of_key hf.unique ((Stops.subs_kids_sub hz).1.mem hm) hx rfl
  exact ⟨_, hz, hzg, this ▸ hm⟩

theorem image_of_ne {x : Node} (h : x.key ≠ n2.key) : image n1 n2 x = rename (sub n2.key n1.key) x := by
  unfold image; rw [if_neg h]

theorem val_back {x : Node} (hx : x ∈ f.nodes) (hg : x.isGradient = true) (hk : x.key ≠ n2.key) {a : AId} (ha : a ∈ allAttrs) {v : Option Value}
    (hv : Val (fused f n1 n2) a (rename (sub n2.key n1.key) x) v) : Val f a x v := by
  obtain ⟨rank, hr⟩ := hf.href
  obtain ⟨w, hw⟩ := val_total hf.unique hr a hx hg
  have := val_image hf ht hx hg ha hw
  rw [image_of_ne hf ht hk] at this
  rw [hv.unique this]
  exact hw

theorem good_fused : Good (fused f n1 n2) := by
  have hfu := twins_fusable hf ht
  have mem := fun {y} (hy : y ∈ (fused f n1 n2).nodes) => fused_mem hfu hy
  have used : ∀ {k}, f.isUsed k = false → k ≠ n1.key → (fused f n1 n2).isUsed k = false := by
    intro k hk hne
    rw [Bool.eq_false_iff] at hk ⊢
    intro hc
    obtain ⟨y, hy, hl⟩ := Forest.isUsed_iff.1 hc
    obtain ⟨x, hx, _, rfl⟩ := mem hy
    obtain ⟨j, hj, e⟩ := mem_rename_links.1 hl
    unfold sub at e
    split at e
    · exact hne e.symm
    · exact hk (Forest.isUsed_iff.2 ⟨x, hx, e ▸ hj⟩)
  refine ⟨fused_unique hfu, ?_, rank_fused hf ht, ?_, ?_, ?_, ?_, ?_, ?_, ?_, ?_, ?_, ?_, ?_, ?_, ?_⟩
  · intro y hy k hk
    obtain ⟨x, hx, _, rfl⟩ := mem hy
    obtain ⟨j, hj, e⟩ := mem_rename_links.1 hk
    obtain ⟨t, htm, rfl⟩ := Forest.mem_keys.1 (hf.links x hx j hj)
    unfold sub at e
    split at e
    · have := Forest.key_mem (keep_grad hf ht ht.mem1 (hf.outside ht.grad1) ht.ne)
      rwa [rename_key, e] at this
    next hk =>
      have hi : ¬ InGradient f t := by
        rintro ⟨z, hz, hzg, hm⟩
        have := ((hf.flat z hz hzg).2 t hm).2.1
        rw [Forest.isUsed_iff.2 ⟨x, hx, hj⟩] at this
        cases this
      have := Forest.key_mem (keep_grad hf ht htm hi hk)
      rwa [rename_key, e] at this
  · intro y hy hg
    obtain ⟨x, hx, _, rfl⟩ := mem hy
    rw [written_rename, get_rename, hf.shown x hx (by rw [rename_gradient] at hg; exact hg)]
  · intro y hy hg z hz htz
    obtain ⟨x, hx, _, rfl⟩ := mem hy
    obtain ⟨w, hw, rfl⟩ := List.mem_map.1 hz
    refine hf.only x hx (by rw [rename_gradient] at hg; exact hg) w hw ?_
    intro e
    rw [renameValue_target, e] at htz
    exact htz rfl
  · exact linkForm_rename hf.form fun y hy => by
      obtain ⟨x, hx, _, e⟩ := mem hy
      exact ⟨x, hx, e⟩
  · intro y hy
    obtain ⟨x, hx, _, rfl⟩ := mem hy
    have := hf.attrs x hx
    show ((x.attrs.map _).map Attr.name).Nodup
    rw [List.map_map]
    exact this
  · intro y hy hg
    obtain ⟨x, hx, _, rfl⟩ := mem hy
    exact hf.named x hx (by rw [rename_gradient] at hg; exact hg)
  · intro y hy hg z hz e
    obtain ⟨x, hx, _, rfl⟩ := mem hy
    obtain ⟨w, hw, _, rfl⟩ := mem hz
    rw [hf.ids x hx (by rw [rename_gradient] at hg; exact hg) w hw e]
  · intro y hy hg
    obtain ⟨x, hx, _, e⟩ := inside_fused hf ht hy hg
    have hxg : x.isGradient = true := by rw [e, rename_gradient] at hg; exact hg
    obtain ⟨h1, h2⟩ := hf.flat _ hx hxg
    refine ⟨h1, fun d hd => ⟨(h2 d hd).1, used (h2 d hd).2.1 fun e => ?_, (h2 d hd).2.2⟩⟩
    have := Forest.eq_of_key hf.unique ((Stops.subs_kids_sub hx).1.mem hd) ht.mem1 e
    have h3 := (h2 d hd).1
    rw [this, ht.grad1] at h3
    cases h3
  · intro y hy hk hc
    obtain ⟨x, hx, _, rfl⟩ := mem hy
    rw [get_rename] at hc
    obtain ⟨v, hv, e⟩ := Option.map_eq_some_iff.1 hc
    refine hf.plain x hx hk ?_
    rw [hv]
    cases v <;> first | exact congrArg some e | cases e
  · intro y hy hg
    obtain ⟨x, hx, _, e⟩ := inside_fused hf ht hy hg
    have hxg : x.isGradient = true := by rw [e, rename_gradient] at hg; exact hg
    rw [e, written_rename, hf.either _ hx hxg]
    simp
  · intro y hy hg a ha hw
    obtain ⟨x, hx, _, rfl⟩ := mem hy
    rw [written_rename] at hw
    exact hf.own x hx (by rw [rename_gradient] at hg; exact hg) a ha (by intro h; rw [h] at hw; exact hw rfl)
  · intro y hy hg hh a c hc hw
    obtain ⟨x, hx, _, rfl⟩ := mem hy
    rw [written_rename] at hw hh ⊢
    have := hf.focal x hx (by rw [rename_gradient] at hg; exact hg) (by intro h; rw [h] at hh; exact hh rfl) a c hc (by intro h; rw [h] at hw; exact hw rfl)
    simpa using this
  · intro y hy hg a ha hne v hv
    obtain ⟨x, hx, hk, rfl⟩ := mem hy
    rw [rename_gradient] at hg
    rw [rename_kind] at ha
    obtain ⟨rank, hr⟩ := rank_fused hf ht
    obtain ⟨rank0, hr0⟩ := hf.href
    have tot := effective_total (fused_unique hfu) hr (follows a) hy (by rw [rename_gradient]; exact hg)
    rw [val_gradient (by rw [rename_kind]; exact ha) hne tot] at hv
    have h1 := val_back hf ht hx hg hk (gradientAttrs_all ha) hv
    rw [← val_gradient ha hne (effective_total hf.unique hr0 _ hx hg)] at h1
    rw [get_same hf ht hx hg (all_follows (gradientAttrs_all ha)).2.1, hf.resolved x hx hg a ha hne v h1]
  · intro y hy hg w hw
    obtain ⟨x, hx, hk, rfl⟩ := mem hy
    rw [rename_gradient] at hg
    obtain ⟨rank0, hr0⟩ := hf.href
    obtain ⟨w0, h0⟩ := effective_total hf.unique hr0 .gradientTransform hx hg
    rw [get_same hf ht hx hg (by decide), hf.transform x hx hg w0 h0]
    have h1 : Val (fused f n1 n2) .gradientTransform (rename (sub n2.key n1.key) x) _ := ⟨w, w, hw, hw, rfl⟩
    have h2 : Val f .gradientTransform x _ := ⟨w0, w0, h0, h0, rfl⟩
    have := (val_back hf ht hx hg hk (by decide) h1).unique h2
    cases w <;> cases w0 <;> simp_all [follows, centreOf, dflt]

end step

/-! ### The comparison -/

theorem attrsEqual_some {n1 n2 : Node} {as : List AId} (h : ∀ a ∈ as, n1.get a ≠ none ∧ n2.get a ≠ none) :
    ∃ b, attrsEqual n1 n2 as = some b ∧ (b = true → ∀ a ∈ as, n1.get a = n2.get a) := by
  induction as with
  | nil => exact ⟨true, rfl, by simp⟩
  | cons a as ih =>
    obtain ⟨h1, h2⟩ := h a (by simp)
    obtain ⟨v, hv⟩ := Option.ne_none_iff_exists'.1 h1
    obtain ⟨w, hw⟩ := Option.ne_none_iff_exists'.1 h2
    rw [attrsEqual, hv, Option.bind_some, hw, Option.bind_some]
    split
    next e =>
      obtain ⟨b, h3, h4⟩ := ih fun x hx => h x (by simp [hx])
      refine ⟨b, h3, fun hb x hx => ?_⟩
      rcases List.mem_cons.1 hx with rfl | hx
      · rw [hv, hw, e]
      · exact h4 hb x hx
    · exact ⟨false, rfl, by simp⟩

theorem dflt_some {a : AId} (h : a ∈ allAttrs) : dflt (follows a) ≠ none := by
  simp only [allAttrs, List.mem_cons, List.not_mem_nil, or_false] at h
  rcases h with rfl | rfl | rfl | rfl | rfl | rfl | rfl | rfl | rfl | rfl | rfl | rfl <;> simp [dflt, follows, centreOf]

theorem val_some {f : Forest} {a : AId} (h : a ∈ allAttrs) {n : Node} {v : Option Value} (hv : Val f a n v) : ∃ w, v = some w := by
  obtain ⟨w, w', _, _, rfl⟩ := hv
  have := dflt_some h
  cases w with
  | some x => exact ⟨x, rfl⟩
  | none => cases w' with
    | some x => exact ⟨x, rfl⟩
    | none => exact Option.ne_none_iff_exists'.1 this

/-- The value of an attribute is the one that is stored. -/
theorem Good.get {f : Forest} (hf : Good f) {n : Node} (hn : n ∈ f.nodes) (hg : n.isGradient = true) {a : AId} (ha : a ∈ gradientAttrs n.kind) (hne : a ≠ .gradientTransform) :
    Val f a n (n.get a) ∧ n.get a ≠ none := by
  obtain ⟨rank, hr⟩ := hf.href
  obtain ⟨v, hv⟩ := val_total hf.unique hr a hn hg
  obtain ⟨w, rfl⟩ := val_some (gradientAttrs_all ha) hv
  have := hf.resolved n hn hg a ha hne w ((val_gradient ha hne (effective_total hf.unique hr _ hn hg) w).2 hv)
  rw [this]
  exact ⟨hv, by simp⟩

theorem Good.get_transform {f : Forest} (hf : Good f) {n : Node} (hn : n ∈ f.nodes) (hg : n.isGradient = true) :
    Val f .gradientTransform n (some ((n.get .gradientTransform).getD identity)) := by
  obtain ⟨rank, hr⟩ := hf.href
  obtain ⟨w, hw⟩ := effective_total hf.unique hr .gradientTransform hn hg
  refine ⟨w, w, hw, hw, ?_⟩
  have h := hf.transform n hn hg w hw
  show some ((n.get .gradientTransform).getD (.transform one)) = _
  rw [h]
  cases w <;> rfl

theorem cmp_ok {f : Forest} (hf : Good f) {e : EId} (he : e = .linearGradient ∨ e = .radialGradient) {as : List AId}
    (has : ∀ a, a ∈ as ↔ a ∈ gradientAttrs (.elem e) ∧ a ≠ .gradientTransform) {k1 k2 : Nat} (hne : k1 ≠ k2)
    (hk : ∀ n ∈ f.nodes, n.key = k1 ∨ n.key = k2 → n.kind = .elem e) :
    ∃ b, cmpGradients as f k1 k2 = some b ∧ (b = true → ∃ n1 n2, n1.key = k1 ∧ n2.key = k2 ∧ Twins f n1 n2) := by
  unfold cmpGradients
  split
  next n1 n2 c1 c2 h1 h2 h3 h4 =>
    obtain ⟨m1, rfl⟩ := Forest.find_some h1
    obtain ⟨m2, rfl⟩ := Forest.find_some h2
    have d1 := hk n1 m1 (.inl rfl)
    have d2 := hk n2 m2 (.inr rfl)
    have isg : ∀ {n : Node}, n.kind = .elem e → n.isGradient = true := by
      intro n h
      rcases he with rfl | rfl
      · exact isGradient_kind.2 (.inl h)
      · exact isGradient_kind.2 (.inr h)
    have g1 := isg d1
    have g2 := isg d2
    have val1 := fun {a} (ha : a ∈ as) => hf.get m1 g1 (a := a) (by rw [d1]; exact ((has a).1 ha).1) ((has a).1 ha).2
    have val2 := fun {a} (ha : a ∈ as) => hf.get m2 g2 (a := a) (by rw [d2]; exact ((has a).1 ha).1) ((has a).1 ha).2
    unfold gradientsEqual
    split
    next htr =>
      by_cases hsh : sameHref n1 n2 = true
      · rw [if_pos hsh]
        obtain ⟨b, hb, hbt⟩ := attrsEqual_some (n1 := n1) (n2 := n2) (as := as) fun a ha => ⟨(val1 ha).2, (val2 ha).2⟩
        rw [hb]
        refine ⟨_, rfl, fun hbb => ?_⟩
        simp only [Bool.and_eq_true] at hbb
        have hst := equalStops_forall hbb.2
        have hnil : c1.top = [] ↔ c2.top = [] := by
          constructor <;> intro h <;> rw [h] at hst
          · exact List.forall₂_nil_left_iff.1 hst
          · exact List.forall₂_nil_right_iff.1 hst
        have e1 := hf.either _ (hf.kids m1 h3) g1
        have e2 := hf.either _ (hf.kids m2 h4) g2
        refine ⟨n1, n2, rfl, rfl, m1, m2, hne, g1, d1.trans d2.symm, fun a ha => ?_, ?_, c1, c2, h3, h4, ?_⟩
        · by_cases hgt : a = .gradientTransform
          · subst hgt
            exact ⟨_, hf.get_transform m1 g1, by rw [htr]; exact hf.get_transform m2 g2⟩
          · have hm : a ∈ as := (has a).2 ⟨d1 ▸ ha, hgt⟩
            exact ⟨_, (val1 hm).1, by rw [hbt hbb.1 a hm]; exact (val2 hm).1⟩
        · by_cases h : c1.top = []
          · have w1 := e1.1 h
            have w2 := e2.1 (hnil.1 h)
            rw [hf.shown n1 m1 g1] at w1 ⊢
            rw [hf.shown n2 m2 g2] at w2 ⊢
            have hh : ∀ {n : Node}, n.get .xlinkHref ≠ none → n.has .xlinkHref = true := by
              intro n h
              unfold Node.has
              unfold Node.get at h
              cases hq : getAttr n.attrs (.id .xlinkHref) with
              | none => rw [hq] at h; exact absurd rfl h
              | some => rfl
            simpa [sameHref, hh w1, hh w2] using hsh
          · have w1 : written n1 .xlinkHref = none := by
              by_contra hc; exact h (e1.2 hc)
            have w2 : written n2 .xlinkHref = none := by
              by_contra hc; exact h (hnil.2 (e2.2 hc))
            rw [w1, w2]
        · have symm : ∀ {l l' : List Node}, List.Forall₂ (fun s t => sameStop s t = true) l l' → List.Forall₂ (fun s t => sameStop s t = true) l' l := by
            intro l l' h
            induction h with
            | nil => exact .nil
            | cons a _ ih =>
              refine .cons ?_ ih
              simp only [sameStop, Bool.and_eq_true, decide_eq_true_eq] at a ⊢
              exact ⟨⟨a.1.1.symm, a.1.2.symm⟩, a.2.symm⟩
          exact symm hst
      · rw [if_neg hsh]; exact ⟨false, rfl, by simp⟩
    · exact ⟨false, rfl, by simp⟩
  · exact ⟨false, rfl, by simp⟩

/-! ### The loops -/

/-- The document `g` is `f` without some duplicates of gradients; `ρ` says which gradient stands for which. -/
structure Deduped (f g : Forest) (ρ : Nat → Nat) : Prop where
  /-- Every element is what it was, but for its references; only gradients, and what is in them, are removed. -/
  back : ∀ m ∈ g.nodes, ∃ n ∈ f.nodes, m = rename ρ n
  others : ∀ n ∈ f.nodes, n.isGradient = false → ¬ InGradient f n → rename ρ n ∈ g.nodes
  drawn : drawn g = (drawn f).map (rename ρ)
  /-- The gradient that stands for another one gives the same paint. -/
  paint : ∀ n ∈ f.nodes, n.isGradient = true → ∃ m ∈ g.nodes, m.key = ρ n.key ∧ m.isGradient = true ∧ PaintSame f n g m
  /-- References to what is still there do not change, nor do references to what is no gradient. -/
  same : ∀ k ∈ g.keys, ρ k = k
  fixed : ∀ n ∈ f.nodes, n.isGradient = false → ρ n.key = n.key
  unique : g.UniqueKeys
  links : g.LinksOk

structure Inv (f0 f : Forest) (ρ : Nat → Nat) : Prop where
  good : Good f
  done : Deduped f0 f ρ
  out : ∀ n ∈ f0.nodes, n.isGradient = false → ¬ InGradient f0 n → ¬ InGradient f (rename ρ n)

theorem paint_refl {f : Forest} (hf : Good f) {n : Node} (hn : n ∈ f.nodes) (hg : n.isGradient = true) : PaintSame f n f n := by
  obtain ⟨rank, hr⟩ := hf.href
  refine paint_of_effective rfl (fun a _ => ?_) hg ?_
  · obtain ⟨v, hv⟩ := effective_total hf.unique hr a hn hg
    exact ⟨v, hv, hv⟩
  · obtain ⟨l, hl⟩ := gstops_total hf.unique hr hn hg
    exact ⟨l, l, hl, hl, Merge.stops_refl hf.plain (Merge.gstops_mem hl)⟩

theorem rename_self (n : Node) : rename (fun k => k) n = n := rename_id fun _ _ => rfl

theorem Good.inv {f : Forest} (hf : Good f) : Inv f f fun k => k where
  good := hf
  done := ⟨fun m hm => ⟨m, hm, (rename_self m).symm⟩, fun n hn _ _ => (rename_self n).symm ▸ hn,
    (Forest.map_id' fun n _ => rename_self n).symm,
    fun n hn hg => ⟨n, hn, rfl, hg, paint_refl hf hn hg⟩, fun _ _ => rfl, fun _ _ _ => rfl, hf.unique, hf.links⟩
  out n _ _ hi := by rw [rename_self]; exact hi

theorem Inv.step {f0 f : Forest} (h0 : f0.UniqueKeys) {ρ : Nat → Nat} (h : Inv f0 f ρ) {n1 n2 : Node} (ht : Twins f n1 n2) :
    Inv f0 (fused f n1 n2) fun k => sub n2.key n1.key (ρ k) := by
  have hf := h.good
  have hfu := twins_fusable hf ht
  have stay : ∀ n ∈ f0.nodes, n.isGradient = false → ¬ InGradient f0 n → rename (fun k => sub n2.key n1.key (ρ k)) n ∈ (fused f n1 n2).nodes := by
    intro n hn hg hi
    rw [← rename_comp]
    refine keep_grad hf ht (h.done.others n hn hg hi) (h.out n hn hg hi) fun e => ?_
    have := Forest.eq_of_key hf.unique (h.done.others n hn hg hi) ht.mem2 e
    have h2 := ht.grad2
    rw [← this, rename_gradient, hg] at h2
    cases h2
  refine ⟨good_fused hf ht, ⟨?_, stay, ?_, ?_, ?_, ?_, fused_unique hfu, (good_fused hf ht).links⟩, ?_⟩
  · intro m hm
    obtain ⟨x, hx, _, rfl⟩ := fused_mem hfu hm
    obtain ⟨n, hn, rfl⟩ := h.done.back x hx
    exact ⟨n, hn, rename_comp _ _ _⟩
  · rw [fused_drawn hfu, h.done.drawn, Forest.map_map]
    · exact GroupDefs.map_congr_nodes fun n _ => rename_comp _ _ _
    · rcases isGradient_kind.1 ht.grad2 with e | e <;> rw [e] <;> rfl
  · intro n hn hg
    obtain ⟨m, hm, e, hmg, hp⟩ := h.done.paint n hn hg
    refine ⟨image n1 n2 m, image_mem hf ht hm hmg, by rw [image_key, e], ?_, hp.trans (paint_image hf ht hm hmg)⟩
    rcases isGradient_kind.1 hmg with e | e
    · exact isGradient_kind.2 (.inl ((image_kind hf ht hm).trans e))
    · exact isGradient_kind.2 (.inr ((image_kind hf ht hm).trans e))
  · intro k hk
    obtain ⟨m, hm, rfl⟩ := Forest.mem_keys.1 hk
    obtain ⟨x, hx, hne, rfl⟩ := fused_mem hfu hm
    rw [rename_key, h.done.same _ (Forest.key_mem hx)]
    exact if_neg hne
  · intro n hn hg
    rw [h.done.fixed n hn hg]
    refine if_neg fun e => ?_
    obtain ⟨x, hx, ex⟩ := h.done.back n2 ht.mem2
    have h2 := ht.grad2
    rw [ex, rename_key] at e
    have := Forest.eq_of_key h0 hn hx e
    rw [ex, rename_gradient, ← this, hg] at h2
    cases h2
  · intro n hn hg hi hc
    rw [← rename_comp] at hc
    exact h.out n hn hg hi (inGradient_fused hf ht hc (h.done.others n hn hg hi))

section loops
variable {f0 : Forest} (h0 : f0.UniqueKeys) {e : EId} (he : e = .linearGradient ∨ e = .radialGradient) {as : List AId}
  (has : ∀ a, a ∈ as ↔ a ∈ gradientAttrs (.elem e) ∧ a ≠ .gradientTransform) {P : Forest → Prop}
  (hP : ∀ f n1 n2, Good f → Twins f n1 n2 → P f → P (fused f n1 n2))
include h0 he has hP

theorem inner_ok {f : Forest} {ρ : Nat → Nat} (h : Inv f0 f ρ) (hp : P f) {k1 : Nat} {ks : List Nat} (hk : k1 ∉ ks)
    (hks : ∀ n ∈ f0.nodes, n.key ∈ k1 :: ks → n.kind = .elem e) :
    ∃ r ρ', rmInner (cmpGradients as) k1 ks f = some r ∧ Inv f0 r.2 ρ' ∧ r.1.Sublist ks ∧ P r.2 := by
  induction ks generalizing f ρ with
  | nil => exact ⟨_, _, rfl, h, List.Sublist.refl _, hp⟩
  | cons k2 ks ih =>
    have hne : k1 ≠ k2 := fun e => hk (by simp [e])
    obtain ⟨b, hb, hbt⟩ := cmp_ok h.good he has hne (fun n hn hor => by
      obtain ⟨x, hx, rfl⟩ := h.done.back n hn
      exact hks x hx (by rcases hor with h | h <;> rw [rename_key] at h <;> simp [h]))
    have hks' : ∀ n ∈ f0.nodes, n.key ∈ k1 :: ks → n.kind = .elem e := fun n hn hm => hks n hn (by
      rcases List.mem_cons.1 hm with h | h <;> simp [h])
    rw [rmInner, hb, Option.bind_some]
    cases b with
    | false =>
      obtain ⟨r, ρ', h1, h2, h3, h4⟩ := ih h hp (fun hm => hk (by simp [hm])) hks'
      exact ⟨(k2 :: r.1, r.2), ρ', by simp [h1], h2, h3.cons_cons k2, h4⟩
    | true =>
      obtain ⟨n1, n2, rfl, rfl, ht⟩ := hbt rfl
      rw [if_pos rfl, Forest.find_of_mem h.good.unique ht.mem1, Option.bind_some, fuse_eq (twins_fusable h.good ht), Option.bind_some]
      obtain ⟨r, ρ', h1, h2, h3, h4⟩ := ih (h.step h0 ht) (hP _ _ _ h.good ht hp) (fun hm => hk (by simp [hm])) hks'
      exact ⟨r, ρ', h1, h2, h3.cons n2.key, h4⟩

theorem outer_ok {f : Forest} {ρ : Nat → Nat} (h : Inv f0 f ρ) (hp : P f) {fuel : Nat} {ks : List Nat} (hk : ks.Nodup) (hl : ks.length ≤ fuel)
    (hks : ∀ n ∈ f0.nodes, n.key ∈ ks → n.kind = .elem e) : ∃ g ρ', rmOuter (cmpGradients as) fuel ks f = some g ∧ Inv f0 g ρ' ∧ P g := by
  induction fuel generalizing f ρ ks with
  | zero =>
    have : ks = [] := by simpa using hl
    subst this
    exact ⟨_, _, rfl, h, hp⟩
  | succ fuel ih =>
    cases ks with
    | nil => exact ⟨_, _, rfl, h, hp⟩
    | cons k ks =>
      rw [List.nodup_cons] at hk
      obtain ⟨r, ρ', h1, h2, h3, h4⟩ := inner_ok h0 he has hP h hp hk.1 hks
      rw [rmOuter, h1, Option.bind_some]
      refine ih h2 h4 (hk.2.sublist h3) ?_ fun n hn hm => hks n hn (by simp [h3.mem hm])
      have := h3.length_le
      simp only [List.length_cons] at hl
      omega

theorem loop_ok (hf : Good f0) (hp : P f0) : ∃ g ρ, rmLoop (cmpGradients as) (Gradients.ofKind f0 e) f0 = some g ∧ Inv f0 g ρ ∧ P g := by
  refine outer_ok h0 he has hP hf.inv hp (Gradients.nodup_ofKind hf.unique e) (Nat.le_refl _) fun n hn hm => ?_
  obtain ⟨x, hx, e', hk⟩ := Gradients.mem_ofKind.1 hm
  rw [← Forest.eq_of_key hf.unique hx hn e']
  exact hk

end loops

theorem linear_attrs (a : AId) : a ∈ linearAttrs ↔ a ∈ gradientAttrs (.elem .linearGradient) ∧ a ≠ .gradientTransform := by
  cases a <;> decide

theorem radial_attrs (a : AId) : a ∈ radialAttrs ↔ a ∈ gradientAttrs (.elem .radialGradient) ∧ a ≠ .gradientTransform := by
  cases a <;> decide

/-- **C32** for linear gradients, for documents with the conditions of `Good`: the pass ends without a crash, and gives references to
removed gradients to gradients that give the same paint.  What is missing: see the refutations below. -/
theorem C32_linear_partial {f : Forest} (hf : Good f) : ∃ g ρ, rmLinear f = some g ∧ Deduped f g ρ ∧ Good g := by
  obtain ⟨g, ρ, h1, h2, _⟩ := loop_ok (P := fun _ => True) hf.unique (.inl rfl) linear_attrs (fun _ _ _ _ _ _ => trivial) hf trivial
  exact ⟨g, ρ, h1, h2.done, h2.good⟩

/-- **C32** for radial gradients. -/
theorem C32_radial_partial {f : Forest} (hf : Good f) : ∃ g ρ, rmRadial f = some g ∧ Deduped f g ρ ∧ Good g := by
  obtain ⟨g, ρ, h1, h2, _⟩ := loop_ok (P := fun _ => True) hf.unique (.inr rfl) radial_attrs (fun _ _ _ _ _ _ => trivial) hf trivial
  exact ⟨g, ρ, h1, h2.done, h2.good⟩

end Verif.Dupl
