import Verif.DuplStep
import Verif.DuplVal
/-
Property C32, third part: removing one of two equal gradients keeps all paints.
-/
namespace Verif.Dupl
open Verif.Dom Verif.Spec
open Verif.UnusedDefs (kidsOf_subs subs_kidsOf mem_subs_of_node node_of_subs)
open Verif.GroupDefs (prune_id)
open Verif.Merge (isGradient_kind written_some)

/-- All attributes of gradients. -/
def allAttrs : List AId := [.gradientUnits, .spreadMethod, .x1, .y1, .x2, .y2, .cx, .cy, .r, .fx, .fy, .gradientTransform]

/-- What the theorem needs to know of the document. -/
structure Good (f : Forest) : Prop where
  unique : f.UniqueKeys
  links : f.LinksOk
  /-- Gradients refer to gradients with `xlink:href`, without cycles, and to nothing else. -/
  href : HrefOk f
  shown : ∀ n ∈ f.nodes, n.isGradient = true → written n .xlinkHref = n.get .xlinkHref
  only : Gradients.OnlyHref f
  form : LinkForm f
  attrs : UniqueAttrs f
  /-- Gradients have ids of their own. -/
  named : ∀ n ∈ f.nodes, n.isGradient = true → n.id ≠ ""
  ids : ∀ n ∈ f.nodes, n.isGradient = true → ∀ x ∈ f.nodes, x.id = n.id → x = n
  /-- The children of gradients are stops; in a gradient there is no gradient, no reference and nothing that is referred to. -/
  flat : ∀ x ∈ subs f, x.1.isGradient = true → (∀ d ∈ x.2.top, d.kind = .elem .stop) ∧
    ∀ d ∈ x.2.nodes, d.isGradient = false ∧ f.isUsed d.key = false ∧ d.links = []
  /-- The colours of stops do not depend on where they stand. -/
  plain : ∀ n ∈ f.nodes, n.kind = .elem .stop → n.get .stopColor ≠ some (.kw .currentColor)
  /-- A gradient has stops or refers to another one, but not both. -/
  either : ∀ x ∈ subs f, x.1.isGradient = true → (x.2.top = [] ↔ written x.1 .xlinkHref ≠ none)
  /-- Linear gradients do not have attributes of radial ones, and vice versa. -/
  own : ∀ n ∈ f.nodes, n.isGradient = true → ∀ a ∈ allAttrs, written n a ≠ none → a ∈ gradientAttrs n.kind
  /-- A gradient that refers to another one and has a centre has a focal point. -/
  focal : ∀ n ∈ f.nodes, n.isGradient = true → written n .xlinkHref ≠ none → ∀ a c, centreOf a = some c → written n c ≠ none → written n a ≠ none
  /-- Attributes have been resolved. -/
  resolved : ∀ n ∈ f.nodes, n.isGradient = true → ∀ a ∈ gradientAttrs n.kind, a ≠ .gradientTransform → ∀ v, GradientValue f n a v → n.get a = some v
  transform : ∀ n ∈ f.nodes, n.isGradient = true → ∀ w, Effective f .gradientTransform n w →
    (n.get .gradientTransform).getD (.transform one) = w.getD (.transform one)

section good
variable {f : Forest} (hf : Good f)
include hf

theorem Good.kids {x : Node} (hx : x ∈ f.nodes) {c : Forest} (hc : f.kidsOf x.key = some c) : (x, c) ∈ subs f := by
  obtain ⟨x', e, hs⟩ := subs_kidsOf hc
  have := Forest.eq_of_key hf.unique (node_of_subs hs) hx e
  dsimp only at this
  subst this
  exact hs

theorem Good.outside {y : Node} (hyg : y.isGradient = true) : ¬ InGradient f y := by
  rintro ⟨x, hx, hg, h⟩
  rw [((hf.flat x hx hg).2 y h).1] at hyg
  cases hyg

theorem Good.target {x y : Node} {k : Nat} (hx : x ∈ f.nodes) (hg : x.isGradient = true) (h : written x .xlinkHref = some (.link k)) (hy : f.find k = some y) :
    y ∈ f.nodes ∧ y.isGradient = true ∧ y.key = k := by
  obtain ⟨rank, hr⟩ := hf.href
  obtain ⟨t, ht, e, htg, _⟩ := hr x hx hg _ h
  have e : k = t.key := Value.link.inj e
  subst e
  rw [Forest.find_of_mem hf.unique ht] at hy
  cases hy
  exact ⟨ht, htg, rfl⟩

theorem Good.stopKids {x : Node} (hx : x ∈ f.nodes) (hg : x.isGradient = true) {c : Forest} (hc : f.kidsOf x.key = some c) : stopKids c = c.top := by
  refine List.filter_eq_self.2 fun d hd => ?_
  simpa using (hf.flat _ (hf.kids hx hc) hg).1 d hd

end good

/-- Two gradients that are equal. -/
structure Twins (f : Forest) (n1 n2 : Node) : Prop where
  mem1 : n1 ∈ f.nodes
  mem2 : n2 ∈ f.nodes
  ne : n1.key ≠ n2.key
  grad1 : n1.isGradient = true
  kind : n1.kind = n2.kind
  vals : ∀ a ∈ gradientAttrs n1.kind, ∃ v, Val f a n1 v ∧ Val f a n2 v
  href : written n1 .xlinkHref = written n2 .xlinkHref
  stops : ∃ c1 c2, f.kidsOf n1.key = some c1 ∧ f.kidsOf n2.key = some c2 ∧ List.Forall₂ (fun s t => sameStop s t = true) c2.top c1.top

theorem all_follows {a : AId} (ha : a ∈ allAttrs) : follows a ∈ allAttrs ∧ a ≠ .xlinkHref ∧ follows a ≠ .xlinkHref ∧ (follows a = a ∨ centreOf a = some (follows a)) := by
  simp only [allAttrs, List.mem_cons, List.not_mem_nil, or_false] at ha
  rcases ha with rfl | rfl | rfl | rfl | rfl | rfl | rfl | rfl | rfl | rfl | rfl | rfl <;> exact ⟨by decide, by decide, by decide, by decide⟩

theorem not_follows {n : Node} (hg : n.isGradient = true) {a : AId} (ha : a ∈ allAttrs) (h : a ∉ gradientAttrs n.kind) : follows a ∉ gradientAttrs n.kind := by
  simp only [allAttrs, List.mem_cons, List.not_mem_nil, or_false] at ha
  rcases isGradient_kind.1 hg with e | e <;> rw [e] at h ⊢ <;>
    rcases ha with rfl | rfl | rfl | rfl | rfl | rfl | rfl | rfl | rfl | rfl | rfl | rfl <;> first | exact h | (revert h; decide)

theorem gradientAttrs_all {k : Kind} {a : AId} (h : a ∈ gradientAttrs k) : a ∈ allAttrs := by
  cases k with
  | elem e =>
    cases e <;> first | (simp [gradientAttrs] at h; done) | skip
    all_goals
      simp only [gradientAttrs, List.mem_cons, List.not_mem_nil, or_false] at h
      rcases h with rfl | rfl | rfl | rfl | rfl | rfl | rfl | rfl <;> decide
  | _ => simp [gradientAttrs] at h

section step
variable {f : Forest} (hf : Good f) {n1 n2 : Node} (ht : Twins f n1 n2)
include ht

theorem Twins.grad2 : n2.isGradient = true := by
  rcases isGradient_kind.1 ht.grad1 with h | h
  · exact isGradient_kind.2 (.inl (ht.kind ▸ h))
  · exact isGradient_kind.2 (.inr (ht.kind ▸ h))

include hf

theorem not_self {rank : Nat → Nat} (hr : HrefRanked f rank) {x : Node} (hx : x ∈ f.nodes) (hg : x.isGradient = true) : written x .xlinkHref ≠ some (.link x.key) := by
  intro h
  obtain ⟨t, _, e, _, hlt⟩ := hr x hx hg _ h
  have e := Value.link.inj e
  rw [← e] at hlt
  exact absurd hlt (lt_irrefl _)

theorem href1_ne : written n1 .xlinkHref ≠ some (.link n2.key) := by
  rw [ht.href]
  obtain ⟨rank, hr⟩ := hf.href
  exact not_self hf ht hr ht.mem2 ht.grad2

theorem links_href {x : Node} (hx : x ∈ f.nodes) (hg : x.isGradient = true) {k : Nat} (hk : k ∈ x.links) : written x .xlinkHref = some (.link k) := by
  obtain ⟨y, hy, e⟩ := Node.mem_links.1 hk
  have h1 := hf.only x hx hg y hy (by simp [e])
  obtain ⟨h2, h3⟩ := hf.form x hx y hy (by simp [e])
  rcases h3 with ⟨_, j, hj⟩ | ⟨a, ha, e', _⟩
  · rw [hj] at e
    cases e
    have := GradUnits.getAttr_of_mem (hf.attrs x hx) hy
    rw [h1] at this
    unfold written
    rw [this]
    dsimp only
    rw [if_pos h2, hj]
  · rw [h1] at e'
    cases e'
    exact absurd rfl ha

theorem twins_fusable : Fusable f n1 n2 where
  unique := hf.unique
  form := hf.form
  mem1 := ht.mem1
  mem2 := ht.mem2
  ne := ht.ne
  ids x hx e hl := by
    rw [hf.ids n1 ht.mem1 ht.grad1 x hx e] at hl
    exact href1_ne hf ht (links_href hf ht ht.mem1 ht.grad1 hl)
  named := hf.named n1 ht.mem1 ht.grad1
  cross x hx hl h1 := by
    obtain ⟨rank, hr⟩ := hf.href
    have h2 := links_href hf ht ht.mem1 ht.grad1 h1
    rw [ht.href] at h2
    obtain ⟨t, htm, e, htg, hlt⟩ := hr n2 ht.mem2 ht.grad2 _ h2
    have := Forest.eq_of_key hf.unique hx htm (Value.link.inj e)
    subst this
    obtain ⟨u, hum, e', _, hlt'⟩ := hr x hx htg _ (links_href hf ht hx htg hl)
    rw [← Value.link.inj e'] at hlt'
    omega
  inside c hc := by
    have hs := hf.flat _ (hf.kids ht.mem2 hc) ht.grad2
    refine ⟨fun hk => ?_, fun d hd => (hs.2 d hd).2.1⟩
    obtain ⟨d, hd, e⟩ := Forest.mem_keys.1 hk
    have := Forest.eq_of_key hf.unique ((Stops.subs_kids_sub (hf.kids ht.mem2 hc)).1.mem hd) ht.mem1 e
    subst this
    have := ht.grad1
    rw [(hs.2 d hd).1] at this
    cases this

theorem keep_grad {x : Node} (hx : x ∈ f.nodes) (hi : ¬ InGradient f x) (hk : x.key ≠ n2.key) : rename (sub n2.key n1.key) x ∈ (fused f n1 n2).nodes :=
  fused_keep (twins_fusable hf ht) hx hk fun _ hc hd => hi ⟨_, hf.kids ht.mem2 hc, ht.grad2, hd⟩

theorem kids_grad {x : Node} (hx : x ∈ f.nodes) (hg : x.isGradient = true) (hk : x.key ≠ n2.key) : (fused f n1 n2).kidsOf x.key = f.kidsOf x.key := by
  rw [fused_kids (twins_fusable hf ht) (keep_grad hf ht hx (hf.outside hg) hk)]
  obtain ⟨c, hc⟩ := kidsOf_isSome (Forest.key_mem hx)
  have hs := hf.kids hx hc
  have hfl := (hf.flat _ hs hg).2
  rw [hc, Option.map_some]
  congr 1
  rw [Forest.map_id' fun d hd => rename_id fun k hk => by rw [(hfl d hd).2.2] at hk; cases hk]
  refine prune_id fun d hd => ?_
  rw [decide_eq_false_iff_not]
  intro e
  have := Forest.eq_of_key hf.unique ((Stops.subs_kids_sub hs).1.mem hd) ht.mem2 e
  subst this
  have h2 := ht.grad2
  rw [(hfl d hd).1] at h2
  cases h2

/-- What becomes of a gradient. -/
def image (n1 n2 x : Node) : Node := rename (sub n2.key n1.key) (if x.key = n2.key then n1 else x)

omit hf ht in
theorem image_key (x : Node) : (image n1 n2 x).key = sub n2.key n1.key x.key := by
  unfold image sub
  rw [rename_key]
  split <;> rfl

theorem image_mem {x : Node} (hx : x ∈ f.nodes) (hg : x.isGradient = true) : image n1 n2 x ∈ (fused f n1 n2).nodes := by
  unfold image
  split
  · exact keep_grad hf ht ht.mem1 (hf.outside ht.grad1) ht.ne
  next e => exact keep_grad hf ht hx (hf.outside hg) e

theorem find_image {x : Node} (hx : x ∈ f.nodes) (hg : x.isGradient = true) : (fused f n1 n2).find (sub n2.key n1.key x.key) = some (image n1 n2 x) := by
  rw [← image_key]
  exact Forest.find_of_mem (fused_unique (twins_fusable hf ht)) (image_mem hf ht hx hg)

theorem get_same {x : Node} (hx : x ∈ f.nodes) (hg : x.isGradient = true) {a : AId} (ha : a ≠ .xlinkHref) (ρ : Nat → Nat) : (rename ρ x).get a = x.get a := by
  rw [get_rename]
  cases h : x.get a with
  | none => rfl
  | some v =>
    rw [Option.map_some, renameValue_none]
    unfold Node.get at h
    obtain ⟨y, hy, rfl⟩ := Option.map_eq_some_iff.1 h
    by_contra hc
    have h1 := hf.only x hx hg y (List.mem_of_find?_eq_some hy) hc
    have h2 : y.name = .id a := by simpa using List.find?_some hy
    rw [h1] at h2
    cases h2
    exact ha rfl

theorem written_same {x : Node} (hx : x ∈ f.nodes) (hg : x.isGradient = true) {a : AId} (ha : a ≠ .xlinkHref) (ρ : Nat → Nat) : written (rename ρ x) a = written x a := by
  rw [written_rename]
  cases h : written x a with
  | none => rfl
  | some v =>
    have h1 := written_some h
    have h2 := get_same hf ht hx hg ha ρ
    rw [get_rename, h1, Option.map_some] at h2
    rw [Option.map_some, Option.some.inj h2]

theorem rank_fused : ∃ rank, HrefRanked (fused f n1 n2) rank := by
  obtain ⟨rank, hr⟩ := hf.href
  refine ⟨fun k => if k = n1.key then min (rank n1.key) (rank n2.key) else rank k, fun y hy hg v hv => ?_⟩
  obtain ⟨x, hx, hk, rfl⟩ := fused_mem (twins_fusable hf ht) hy
  rw [rename_gradient] at hg
  rw [written_rename] at hv
  obtain ⟨v0, hv0, rfl⟩ := Option.map_eq_some_iff.1 hv
  obtain ⟨t, htm, rfl, htg, hlt⟩ := hr x hx hg v0 hv0
  refine ⟨image n1 n2 t, image_mem hf ht htm htg, by rw [image_key]; rfl, ?_, ?_⟩
  · unfold image
    rw [rename_gradient]
    split
    · exact ht.grad1
    · exact htg
  · rw [image_key]
    dsimp only
    rw [rename_key]
    by_cases e : t.key = n2.key
    · have hx1 : x.key ≠ n1.key := by
        intro e'
        have := Forest.eq_of_key hf.unique hx ht.mem1 e'
        subst this
        rw [e] at hv0
        exact href1_ne hf ht hv0
      unfold sub
      rw [if_pos e, if_pos rfl, if_neg hx1]
      rw [e] at hlt
      omega
    · unfold sub
      rw [if_neg e]
      have hle : (if t.key = n1.key then min (rank n1.key) (rank n2.key) else rank t.key) ≤ rank t.key := by
        split
        next e' => rw [e']; omega
        · exact le_refl _
      by_cases e' : x.key = n1.key
      · have := Forest.eq_of_key hf.unique hx ht.mem1 e'
        subst this
        rw [if_pos rfl]
        obtain ⟨t', _, e2, _, hlt'⟩ := hr n2 ht.mem2 ht.grad2 _ (ht.href ▸ hv0)
        have e2 := Value.link.inj e2
        rw [← e2] at hlt'
        omega
      · rw [if_neg e']
        omega

theorem val_step {x : Node} (hx : x ∈ f.nodes) (hg : x.isGradient = true) {a : AId} (ha : a ∈ allAttrs)
    (hT : ∀ t ∈ f.nodes, t.isGradient = true → written x .xlinkHref = some (.link t.key) → ∀ v, Val f a t v → Val (fused f n1 n2) a (image n1 n2 t) v)
    (hk : x.key ≠ n2.key) {v : Option Value} (hv : Val f a x v) : Val (fused f n1 n2) a (rename (sub n2.key n1.key) x) v := by
  obtain ⟨rank, hr⟩ := rank_fused hf ht
  obtain ⟨h1, h2, h3, h4⟩ := all_follows ha
  have wa := written_same hf ht hx hg h2 (sub n2.key n1.key)
  have wf := written_same hf ht hx hg h3 (sub n2.key n1.key)
  have tot := effective_total (fused_unique (twins_fusable hf ht)) hr (follows a) (keep_grad hf ht hx (hf.outside hg) hk) (by rw [rename_gradient]; exact hg)
  cases hw : written x a with
  | some w =>
    rw [val_own (by rw [wa, hw]) tot]
    obtain ⟨w1, w2, e1, e2, e3⟩ := hv
    cases e1.unique (.own hw)
    rw [e3]; rfl
  | none =>
    cases hh : written x .xlinkHref with
    | none =>
      obtain ⟨w1, w2, e1, e2, e3⟩ := hv
      have hhr : written (rename (sub n2.key n1.key) x) .xlinkHref = none := by rw [written_rename, hh]; rfl
      refine ⟨w1, w2, ?_, ?_, e3⟩
      · cases (effective_end_iff hw hh).1 e1
        exact .stop (by rw [wa, hw]) hhr
      · cases hf' : written x (follows a) with
        | none =>
          cases (effective_end_iff hf' hh).1 e2
          exact .stop (by rw [wf, hf']) hhr
        | some u =>
          cases (effective_own_iff hf').1 e2
          exact .own (by rw [wf, hf'])
    | some u =>
      obtain ⟨rank0, hr0⟩ := hf.href
      obtain ⟨t, htm, rfl, htg, _⟩ := hr0 x hx hg u hh
      have hwf : written x (follows a) = none := by
        rcases h4 with h4 | h4
        · rw [h4]; exact hw
        · by_contra hc
          exact hf.focal x hx hg (by rw [hh]; simp) a _ h4 hc hw
      rw [val_ref hw hwf hh (Forest.find_of_mem hf.unique htm)] at hv
      rw [val_ref (by rw [wa, hw]) (by rw [wf, hwf]) (by rw [written_rename, hh]; rfl) (find_image hf ht htm htg)]
      exact hT t htm htg hh v hv

theorem twin_val {a : AId} (ha : a ∈ allAttrs) {v : Option Value} (hv : Val f a n2 v) : Val f a n1 v := by
  by_cases hm : a ∈ gradientAttrs n1.kind
  · obtain ⟨w, h1, h2⟩ := ht.vals a hm
    rw [hv.unique h2]; exact h1
  · have hm2 : a ∉ gradientAttrs n2.kind := ht.kind ▸ hm
    obtain ⟨h1, h2, h3, h4⟩ := all_follows ha
    have no : ∀ {n : Node}, n ∈ f.nodes → n.isGradient = true → a ∉ gradientAttrs n.kind → written n a = none ∧ written n (follows a) = none := by
      intro n hn hg h
      refine ⟨?_, ?_⟩
      · by_contra hc; exact h (hf.own n hn hg a ha hc)
      · by_contra hc; exact not_follows hg ha h (hf.own n hn hg _ h1 hc)
    obtain ⟨a1, b1⟩ := no ht.mem1 ht.grad1 hm
    obtain ⟨a2, b2⟩ := no ht.mem2 ht.grad2 hm2
    cases hh : written n2 .xlinkHref with
    | none =>
      obtain ⟨w1, w2, e1, e2, e3⟩ := hv
      cases (effective_end_iff a2 hh).1 e1
      cases (effective_end_iff b2 hh).1 e2
      exact ⟨_, _, .stop a1 (ht.href.trans hh), .stop b1 (ht.href.trans hh), e3⟩
    | some u =>
      obtain ⟨rank, hr⟩ := hf.href
      obtain ⟨t, htm, rfl, htg, _⟩ := hr n2 ht.mem2 ht.grad2 u hh
      rw [val_ref a2 b2 hh (Forest.find_of_mem hf.unique htm)] at hv
      rw [val_ref a1 b1 (ht.href.trans hh) (Forest.find_of_mem hf.unique htm)]
      exact hv

/-- The values are as before. -/
theorem val_image {x : Node} (hx : x ∈ f.nodes) (hg : x.isGradient = true) {a : AId} (ha : a ∈ allAttrs) {v : Option Value} (hv : Val f a x v) :
    Val (fused f n1 n2) a (image n1 n2 x) v := by
  obtain ⟨rank, hr⟩ := hf.href
  induction h : rank x.key using Nat.strong_induction_on generalizing x v with
  | _ N ih =>
    subst h
    have tgt : ∀ {y t : Node}, written y .xlinkHref = written x .xlinkHref → t ∈ f.nodes → written y .xlinkHref = some (.link t.key) → rank t.key < rank x.key := by
      intro y t e1 _ e2
      obtain ⟨t', _, e3, _, hlt⟩ := hr x hx hg _ (e1 ▸ e2)
      rw [Value.link.inj e3]
      exact hlt
    unfold image
    split
    next e =>
      have := Forest.eq_of_key hf.unique hx ht.mem2 e
      subst this
      exact val_step hf ht ht.mem1 ht.grad1 ha (fun t htm htg hh v hv => ih _ (tgt ht.href htm hh) htm htg hv rfl) ht.ne (twin_val hf ht ha hv)
    next e => exact val_step hf ht hx hg ha (fun t htm htg hh v hv => ih _ (tgt rfl htm hh) htm htg hv rfl) e hv

theorem stops_image {x : Node} {l : List Node} (hx : x ∈ f.nodes) (hg : x.isGradient = true) (he : GStops f x l) :
    ∃ l', GStops (fused f n1 n2) (image n1 n2 x) l' ∧ List.Forall₂ (fun s t => StopSame f s (fused f n1 n2) t) l l' := by
  have htop : ∀ {c : Forest} {x : Node}, x ∈ f.nodes → x.isGradient = true → f.kidsOf x.key = some c → stopKids c = c.top := fun a b c => hf.stopKids a b c
  have k1 := kids_grad hf ht ht.mem1 ht.grad1 ht.ne
  obtain ⟨c1, c2, hc1, hc2, hs⟩ := ht.stops
  have hrn : ∀ {y : Node}, written y .xlinkHref = none → written (rename (sub n2.key n1.key) y) .xlinkHref = none := by
    intro y h; rw [written_rename, h]; rfl
  have hrs : ∀ {y : Node} {k : Nat}, written y .xlinkHref = some (.link k) → written (rename (sub n2.key n1.key) y) .xlinkHref = some (.link (sub n2.key n1.key k)) := by
    intro y k h; rw [written_rename, h]; rfl
  have nil1 : c2.top = [] → c1.top = [] := by
    intro h; rw [h] at hs; exact List.forall₂_nil_left_iff.1 hs
  induction he with
  | @own x c h1 h2 =>
    unfold image
    split
    next e =>
      have := Forest.eq_of_key hf.unique hx ht.mem2 e
      subst this
      rw [hc2] at h1
      cases h1
      have e1 := htop ht.mem1 ht.grad1 hc1
      have e2 := htop hx hg hc2
      refine ⟨stopKids c1, .own (by rw [rename_key, k1, hc1]) ?_, ?_⟩
      · intro h0
        rw [e1] at h0
        rw [h0] at hs
        rw [e2] at h2
        cases hct : c2.top with
        | nil => exact h2 hct
        | cons => rw [hct] at hs; cases hs
      · have hp := Merge.gstops_mem (GStops.own hc2 h2)
        rw [e2] at hp
        rw [e1, e2]
        clear e1 e2 h2 nil1
        revert hs hp
        generalize c2.top = l, c1.top = l'
        intro hs hp
        induction hs with
        | nil => exact .nil
        | @cons s t l l' hst _ ih =>
          simp only [sameStop, Bool.and_eq_true, decide_eq_true_eq] at hst
          obtain ⟨p1, p2⟩ := hp s (by simp)
          exact .cons ⟨hst.1.1, hst.2, hst.1.2, fun hc => absurd hc (hf.plain s p1 p2)⟩ (ih fun u hu => hp u (by simp [hu]))
    next e => exact ⟨_, .own (by rw [rename_key, kids_grad hf ht hx hg e, h1]) h2, Merge.stops_refl hf.plain (Merge.gstops_mem (GStops.own h1 h2))⟩
  | @ref x c k y l h1 h2 h3 h4 h5 ih =>
    obtain ⟨hym, hyg, rfl⟩ := hf.target hx hg h3 h4
    obtain ⟨l', h6, h7⟩ := ih hym hyg
    refine ⟨l', ?_, h7⟩
    unfold image
    split
    next e =>
      have := Forest.eq_of_key hf.unique hx ht.mem2 e
      subst this
      rw [hc2] at h1
      cases h1
      rw [htop hx hg hc2] at h2
      exact .ref (by rw [rename_key, k1, hc1]) (by rw [htop ht.mem1 ht.grad1 hc1]; exact nil1 h2) (hrs (ht.href.trans h3)) (find_image hf ht hym hyg) h6
    next e => exact .ref (by rw [rename_key, kids_grad hf ht hx hg e, h1]) h2 (hrs h3) (find_image hf ht hym hyg) h6
  | @none x c h1 h2 h3 =>
    refine ⟨[], ?_, .nil⟩
    unfold image
    split
    next e =>
      have := Forest.eq_of_key hf.unique hx ht.mem2 e
      subst this
      rw [hc2] at h1
      cases h1
      rw [htop hx hg hc2] at h2
      exact .none (by rw [rename_key, k1, hc1]) (by rw [htop ht.mem1 ht.grad1 hc1]; exact nil1 h2) (hrn (ht.href.trans h3))
    next e => exact .none (by rw [rename_key, kids_grad hf ht hx hg e, h1]) h2 (hrn h3)

theorem image_kind {x : Node} (hx : x ∈ f.nodes) : (image n1 n2 x).kind = x.kind := by
  unfold image
  rw [rename_kind]
  split
  next e => rw [ht.kind, Forest.eq_of_key hf.unique hx ht.mem2 e]
  · rfl

theorem paint_image {x : Node} (hx : x ∈ f.nodes) (hg : x.isGradient = true) : PaintSame f x (fused f n1 n2) (image n1 n2 x) := by
  obtain ⟨rank, hr⟩ := hf.href
  refine paint_of_val (image_kind hf ht hx).symm hg (fun a ha => ?_) ?_
  · obtain ⟨v, hv⟩ := val_total hf.unique hr a hx hg
    exact ⟨v, hv, val_image hf ht hx hg (gradientAttrs_all ha) hv⟩
  · obtain ⟨l, hl⟩ := gstops_total hf.unique hr hx hg
    obtain ⟨l', h1, h2⟩ := stops_image hf ht hx hg hl
    exact ⟨l, l', hl, h1, h2⟩

end step

end Verif.Dupl
