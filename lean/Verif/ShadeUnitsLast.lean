import Verif.ShadeRegroup
import Verif.ShadeUnits
import Verif.ShadeCases
/-
C72: the common `gradientUnits` are removed (C45) after the stops of gradients have been regrouped (C40), in this order as in
the program.
-/
namespace Verif.Shade
open Verif.Dom Verif.Spec Verif.Render Verif.Reader Verif.Regroup Verif.Gradients Verif.GradUnits
open Verif.Stops (setHidden)

/-- The units of a gradient that may still have to be resolved. -/
def unitsOf (n : Node) : Value := (n.get .gradientUnits).getD (.kw .objectBoundingBox)

/-- Like `Coherent`, but a linear gradient may have no `gradientUnits` yet, and then has the default. -/
structure Half (f : Forest) : Prop where
  only : OnlyHref f
  names : UniqueAttrs f
  fresh : ∀ n ∈ f.nodes, n.isGradient = true → n.get .gradientUnits = none → n.kind = .elem .linearGradient
  two : ∀ n ∈ f.nodes, n.isGradient = true → ∀ v, n.get .gradientUnits = some v → v = .kw .objectBoundingBox ∨ v = .kw .userSpaceOnUse
  coh : ∀ n ∈ f.nodes, n.isGradient = true → written n .gradientUnits = some (unitsOf n) ∨
    (written n .gradientUnits = none ∧ ((n.get .xlinkHref = none ∧ unitsOf n = .kw .objectBoundingBox) ∨
      ∃ t ∈ f.nodes, t.isGradient = true ∧ n.get .xlinkHref = some (.link t.key) ∧ unitsOf t = unitsOf n))

theorem Half.ready {f : Forest} (hs : Sound f) (h : Half f) (ha : ∀ n ∈ f.nodes, n.isGradient = true → n.get .gradientUnits ≠ none) : Ready f := by
  have hv : ∀ n ∈ f.nodes, n.isGradient = true → n.get .gradientUnits = some (unitsOf n) := by
    intro n hn hg
    unfold unitsOf
    cases e : n.get .gradientUnits with
    | none => exact absurd e (ha n hn hg)
    | some v => rfl
  have hc : Coherent f := by
    intro n hn hg
    refine ⟨_, hv n hn hg, ?_⟩
    rw [hs.shown n hn hg]
    rcases h.coh n hn hg with h1 | ⟨h1, h2 | ⟨t, ht, htg, h3, h4⟩⟩
    · exact .inl h1
    · exact .inr ⟨h1, .inl h2⟩
    · exact .inr ⟨h1, .inr ⟨t, ht, h3, by rw [← h4]; exact hv t ht htg⟩⟩
  refine ⟨hs.unique, hs.href, hs.shown, h.only, h.names, fun n hn hg v => ?_, h.two⟩
  have := coherent_value hs.unique hs.href hc hn hg (hv n hn hg)
  rw [hv n hn hg]
  exact ⟨fun e => Option.some.inj e ▸ this, fun e => by rw [e.unique this]⟩

theorem half_of_ready {f : Forest} (h : Ready f) : Half f := by
  have hv : ∀ n ∈ f.nodes, ∀ v, n.get .gradientUnits = some v → unitsOf n = v := by
    intro n _ v e
    unfold unitsOf; rw [e]; rfl
  refine ⟨h.only, h.names, fun n hn hg e => ?_, h.units, fun n hn hg => ?_⟩
  · obtain ⟨v, hv, _⟩ := h.coherent n hn hg
    rw [e] at hv; cases hv
  · obtain ⟨v, h1, h2⟩ := h.coherent n hn hg
    rw [h.shown n hn hg] at h2
    rw [hv n hn v h1]
    rcases h2 with h2 | ⟨h2, h3 | ⟨t, ht, h3, h4⟩⟩
    · exact .inl h2
    · exact .inr ⟨h2, .inl h3⟩
    · refine .inr ⟨h2, .inr ⟨t, ht, ?_, h3, hv t ht v h4⟩⟩
      obtain ⟨rank, hr⟩ := h.href
      obtain ⟨t', ht', e, hg', _⟩ := hr n hn hg _ (by rw [h.shown n hn hg]; exact h3)
      rw [Forest.eq_of_key h.uniq ht ht' (Value.link.inj e)]
      exact hg'

/-! ### The loop -/

theorem point_units (n : Node) (k : Nat) (x : Node) : (point n k x).get .gradientUnits = x.get .gradientUnits := by
  unfold point
  split
  · exact (Node.get_set _ _ _ _).trans (if_neg (by decide))
  · rfl

theorem point_unitsOf (n : Node) (k : Nat) (x : Node) : unitsOf (point n k x) = unitsOf x := by
  unfold unitsOf; rw [point_units]

theorem bare_get {m : Node} (h : m.attrs = []) (a : AId) : m.get a = none := by
  unfold Node.get getAttr; rw [h]; rfl

theorem act_linear {f g : Forest} {n m : Node} (r : Relink f g n m) (ha : Act f n m g) (h : Half f) : m.kind = .elem .linearGradient := by
  rcases ha with ⟨key, id, rfl, _⟩ | rfl
  · rfl
  · have hm := r.there
    rw [Forest.nodes_map] at hm
    obtain ⟨x, hx, e⟩ := List.mem_map.1 hm
    have hk : x.key ≠ n.key := by
      intro hk
      have := congrArg Node.key e
      rw [point_key, hk] at this
      exact r.ne this
    rw [point_ne hk] at e
    subst e
    rcases nodes_setKids hx with hx | hx
    · exact h.fresh x hx r.mgrad (bare_get r.bare _)
    · cases hx

theorem Half.step {f g : Forest} {n m : Node} (hf : Regroup.Good f) (r : Relink f g n m) (ha : Act f n m g) (h : Half f) : Half g := by
  have nk : ∀ x ∈ f.nodes, x.key = n.key → x = n := fun x hx e => Forest.eq_of_key hf.unique hx r.mem e
  have hlin := act_linear r ha h
  have mv : unitsOf m = .kw .objectBoundingBox := by unfold unitsOf; rw [bare_get r.bare]; rfl
  refine ⟨?_, ?_, ?_, ?_, ?_⟩
  · intro y hy hg x hx ht
    rcases r.back y hy with rfl | ⟨z, hz, rfl⟩
    · rw [r.bare] at hx; cases hx
    · rw [point_gradient] at hg
      unfold point at hx
      split at hx
      · rcases Node.mem_putAttr hx with rfl | hx
        · rfl
        · exact h.only z hz hg x hx ht
      · exact h.only z hz hg x hx ht
  · intro y hy
    rcases r.back y hy with rfl | ⟨x, hx, rfl⟩
    · rw [r.bare]; exact List.nodup_nil
    · unfold point
      split
      · exact set_names _ _ (h.names x hx)
      · exact h.names x hx
  · intro y hy hg he
    rcases r.back y hy with rfl | ⟨x, hx, rfl⟩
    · exact hlin
    · rw [point_gradient] at hg
      rw [point_units] at he
      rw [point_kind]
      exact h.fresh x hx hg he
  · intro y hy hg v hv
    rcases r.back y hy with rfl | ⟨x, hx, rfl⟩
    · rw [bare_get r.bare] at hv; cases hv
    · rw [point_gradient] at hg
      rw [point_units] at hv
      exact h.two x hx hg v hv
  · intro y hy hg
    rcases r.back y hy with rfl | ⟨x, hx, rfl⟩
    · exact .inr ⟨bare_written r.bare _, .inl ⟨bare_get r.bare _, mv⟩⟩
    · rw [point_gradient] at hg
      rw [point_written n m.key x (by decide), point_unitsOf]
      by_cases e : x.key = n.key
      · have := nk x hx e
        subst this
        have hno : x.get .xlinkHref = none := (hf.shown x hx hg).symm.trans r.free
        have hp : (point x m.key x).get .xlinkHref = some (.link m.key) := by
          rw [point_self]; exact (Node.get_set _ _ _ _).trans (if_pos rfl)
        rcases h.coh x hx hg with h1 | ⟨h1, ⟨_, h2⟩ | ⟨t, _, _, h2, _⟩⟩
        · exact .inl h1
        · exact .inr ⟨h1, .inr ⟨m, r.there, r.mgrad, hp, mv.trans h2.symm⟩⟩
        · rw [hno] at h2; cases h2
      · rw [point_ne e]
        rcases h.coh x hx hg with h1 | ⟨h1, h2 | ⟨t, ht, htg, h2, h3⟩⟩
        · exact .inl h1
        · exact .inr ⟨h1, .inl h2⟩
        · exact .inr ⟨h1, .inr ⟨point n m.key t, r.keep t ht (hf.outside htg), by rw [point_gradient]; exact htg, by rw [point_key]; exact h2,
            (point_unitsOf _ _ _).trans h3⟩⟩

theorem loop_false {fuel : Nat} {ks : List Nat} {f r : Forest} (h : regroupLoop fuel ks f = some (r, false)) : r = f := by
  induction fuel generalizing ks f with
  | zero => cases h; rfl
  | succ fuel ih =>
    cases ks with
    | nil => cases h; rfl
    | cons k ks =>
      rw [regroupLoop] at h
      split at h
      · exact ih h
      · obtain ⟨g, _, h⟩ := Option.bind_eq_some_iff.1 h
        obtain ⟨q, _, h⟩ := Option.map_eq_some_iff.1 h
        have := congrArg Prod.snd h
        cases this

/-! ### The resolving -/

structure Part (f : Forest) : Prop where
  sound : Sound f
  half : Half f

theorem Part.target {f : Forest} (h : Part f) {n : Node} (hn : n ∈ f.nodes) (hg : n.isGradient = true) {v : Value} (hv : n.get .xlinkHref = some v) :
    ∃ t ∈ f.nodes, v = .link t.key ∧ t.isGradient = true := by
  obtain ⟨rank, hr⟩ := h.sound.href
  obtain ⟨t, ht, e, hg', _⟩ := hr n hn hg v (by rw [h.sound.shown n hn hg]; exact hv)
  exact ⟨t, ht, e, hg'⟩

theorem resolve_units {f : Forest} (h : Part f) {fuel : Nat} {n : Node} (hn : n ∈ f.nodes) (hg : n.isGradient = true) {r : Option Value}
    (e : resolveAttribute f .gradientUnits (some (.kw .objectBoundingBox)) fuel n = some r) : r = some (unitsOf n) := by
  induction fuel generalizing n with
  | zero => cases e
  | succ fuel ih =>
    rw [resolveAttribute] at e
    cases ha : n.get .gradientUnits with
    | some v =>
      rw [ha] at e
      unfold unitsOf
      rw [ha]
      exact (Option.some.inj e).symm
    | none =>
      rw [ha] at e
      dsimp only at e
      cases hx : n.get .xlinkHref with
      | none =>
        rw [hx] at e
        unfold unitsOf
        rw [ha]
        exact (Option.some.inj e).symm
      | some v =>
        obtain ⟨t, ht, rfl, htg⟩ := h.target hn hg hx
        rw [hx] at e
        dsimp only at e
        rw [Forest.find_of_mem h.sound.unique ht, Option.bind_some] at e
        rw [ih ht htg e]
        rcases h.half.coh n hn hg with h1 | ⟨_, ⟨h2, _⟩ | ⟨t', ht', _, h2, h3⟩⟩
        · have := written_get h1
          rw [ha] at this; cases this
        · rw [hx] at h2; cases h2
        · rw [hx] at h2
          have := Forest.eq_of_key h.sound.unique ht ht' (Value.link.inj (Option.some.inj h2))
          subst this
          rw [h3]

theorem resolve_plain {f : Forest} (h : Part f) {a : AId} (ha : a ≠ .xlinkHref) {d : Option Value} (hd : ∀ v, d = some v → v.target = none) {fuel : Nat} {n : Node}
    (hn : n ∈ f.nodes) (hg : n.isGradient = true) {r : Option Value} (e : resolveAttribute f a d fuel n = some r) : ∀ v, r = some v → v.target = none := by
  induction fuel generalizing n with
  | zero => cases e
  | succ fuel ih =>
    rw [resolveAttribute] at e
    cases hv : n.get a with
    | some w =>
      rw [hv] at e
      dsimp only at e
      intro v e'
      rw [← Option.some.inj e] at e'
      cases e'
      unfold Node.get at hv
      obtain ⟨x, hx, rfl⟩ := Option.map_eq_some_iff.1 hv
      by_contra hc
      have h1 := h.half.only n hn hg x (List.mem_of_find?_eq_some hx) hc
      have h2 := List.find?_some hx
      rw [h1] at h2
      simp only [decide_eq_true_eq, AName.id.injEq] at h2
      exact ha h2.symm
    | none =>
      rw [hv] at e
      dsimp only at e
      cases hx : n.get .xlinkHref with
      | none =>
        rw [hx] at e
        rw [← Option.some.inj e]
        exact hd
      | some v =>
        obtain ⟨t, ht, rfl, htg⟩ := h.target hn hg hx
        rw [hx] at e
        dsimp only at e
        rw [Forest.find_of_mem h.sound.unique ht, Option.bind_some] at e
        exact ih ht htg e

def HasU (f : Forest) (j : Nat) : Prop := ∀ n ∈ f.nodes, n.key = j → n.get .gradientUnits ≠ none
def IsGrad (f : Forest) (j : Nat) : Prop := ∃ n ∈ f.nodes, n.key = j ∧ n.isGradient = true

structure Onward (f g : Forest) : Prop where
  part : Part g
  has : ∀ j, HasU f j → HasU g j
  grad : ∀ j, IsGrad f j → IsGrad g j

theorem Onward.trans {f g h : Forest} (a : Onward f g) (b : Onward g h) : Onward f h := ⟨b.part, fun j x => b.has j (a.has j x), fun j x => b.grad j (a.grad j x)⟩

theorem check_half {f g : Forest} (h : Part f) {k : Nat} (hk : IsGrad f k) {a : AId} (ha : a ≠ .xlinkHref) {d : Option Value}
    (hd : ∀ v, d = some v → v.target = none) (hu : a = .gradientUnits → d = some (.kw .objectBoundingBox)) (e : checkAttr k a d f = some g) :
    Onward f g ∧ (a = .gradientUnits → HasU g k) := by
  obtain ⟨g', e', hsh⟩ := check_ok h.sound hk ha hd
  rw [e] at e'
  have := Option.some.inj e'
  subst this
  have hs := h.sound.shaded hsh
  obtain ⟨n, hn, rfl, hg⟩ := hk
  unfold checkAttr at e
  rw [Forest.find_of_mem h.sound.unique hn, Option.bind_some] at e
  have same : Onward f f := ⟨h, fun _ h => h, fun _ h => h⟩
  by_cases hh : n.has a = true
  · rw [if_pos hh] at e
    cases e
    refine ⟨same, fun e m hm em hc => ?_⟩
    have := Forest.eq_of_key h.sound.unique hm hn em
    subst this
    subst e
    rw [Node.has_eq, hc] at hh
    cases hh
  · rw [if_neg hh] at e
    have hno : n.get a = none := by
      rw [Node.has_eq] at hh
      cases e : n.get a with
      | none => rfl
      | some v => rw [e] at hh; exact absurd rfl hh
    obtain ⟨r, hr, e⟩ := Option.map_eq_some_iff.1 e
    cases r with
    | none =>
      cases e
      refine ⟨same, fun ea => ?_⟩
      subst ea
      rw [hu rfl] at hr
      cases resolve_units h hn hg hr
    | some v =>
      have e : f.modify n.key (fun n => setHidden n a v) = g := e
      subst e
      have hv := resolve_plain h ha hd hn hg hr v rfl
      have hval : a = .gradientUnits → v = unitsOf n := by
        rintro rfl
        rw [hu rfl] at hr
        exact Option.some.inj (resolve_units h hn hg hr)
      let u : Node → Node := fun m => if m.key = n.key then setHidden m a v else m
      have hmod : f.modify n.key (fun n => setHidden n a v) = f.map u := rfl
      have uk : ∀ m, (u m).key = m.key := by intro m; dsimp only [u]; split <;> rfl
      have ukd : ∀ m, (u m).kind = m.kind := by intro m; dsimp only [u]; split <;> rfl
      have ug : ∀ m, (u m).isGradient = m.isGradient := fun m => Regroup.grad_kind (ukd m)
      have un : u n = setHidden n a v := if_pos rfl
      have uo : ∀ m ∈ f.nodes, m ≠ n → u m = m := fun m hm hne => if_neg fun e => hne (Forest.eq_of_key h.sound.unique hm hn e)
      have gs : ∀ b, (setHidden n a v).get b = if b = a then some v else n.get b := by
        intro b
        unfold Node.get
        rw [Gradients.getAttr_setHidden]
        by_cases e : b = a
        · subst e; rw [if_pos rfl, if_pos rfl]; rfl
        · rw [if_neg (by intro e'; injection e' with e'; exact e e'), if_neg e]
      have uu : ∀ m ∈ f.nodes, unitsOf (u m) = unitsOf m := by
        intro m hm
        by_cases e : m = n
        · subst e
          rw [un]
          by_cases ea : a = .gradientUnits
          · subst ea
            conv_lhs => unfold unitsOf
            rw [gs, if_pos rfl]
            exact hval rfl
          · unfold unitsOf
            rw [gs, if_neg (Ne.symm ea)]
        · rw [uo m hm e]
      have uw : ∀ m ∈ f.nodes, ∀ b, written (u m) b = written m b := by
        intro m hm b
        by_cases e : m = n
        · subst e
          rw [un]
          unfold Spec.written
          rw [Gradients.getAttr_setHidden]
          by_cases e : b = a
          · subst e
            have : getAttr m.attrs (.id b) = none := by
              unfold Node.get at hno
              simpa using hno
            rw [if_pos rfl, this]; rfl
          · rw [if_neg (by intro e'; injection e' with e'; exact e e')]
        · rw [uo m hm e]
      have uh : ∀ m ∈ f.nodes, (u m).get .xlinkHref = m.get .xlinkHref := by
        intro m hm
        by_cases e : m = n
        · subst e
          rw [un, gs, if_neg (Ne.symm ha)]
        · rw [uo m hm e]
      have ugu : ∀ m ∈ f.nodes, ∀ w, (u m).get .gradientUnits = some w → m.get .gradientUnits = some w ∨ (m = n ∧ a = .gradientUnits ∧ w = v) := by
        intro m hm w hw
        by_cases e : m = n
        · subst e
          rw [un, gs] at hw
          split at hw
          · next e => exact .inr ⟨rfl, e.symm, (Option.some.inj hw).symm⟩
          · exact .inl hw
        · rw [uo m hm e] at hw; exact .inl hw
      have ugn : ∀ m ∈ f.nodes, (u m).get .gradientUnits = none → m.get .gradientUnits = none := by
        intro m hm hw
        by_cases e : m = n
        · subst e
          rw [un, gs] at hw
          split at hw
          · cases hw
          · exact hw
        · rw [uo m hm e] at hw; exact hw
      rw [hmod] at hs hsh ⊢
      have back : ∀ {m}, m ∈ (f.map u).nodes → ∃ x ∈ f.nodes, u x = m := by
        intro m hm; rw [Forest.nodes_map] at hm; exact List.mem_map.1 hm
      have fwd : ∀ {x}, x ∈ f.nodes → u x ∈ (f.map u).nodes := by
        intro x hx; rw [Forest.nodes_map]; exact List.mem_map_of_mem hx
      refine ⟨⟨⟨hs, ?_, ?_, ?_, ?_, ?_⟩, ?_, ?_⟩, ?_⟩
      · intro y hy hyg x hx ht
        obtain ⟨m, hm, rfl⟩ := back hy
        rw [ug] at hyg
        by_cases e : m = n
        · subst e
          rw [un] at hx
          rcases Node.mem_putAttr hx with rfl | hx
          · exact absurd hv ht
          · exact h.half.only m hm hyg x hx ht
        · rw [uo m hm e] at hx
          exact h.half.only m hm hyg x hx ht
      · intro y hy
        obtain ⟨m, hm, rfl⟩ := back hy
        by_cases e : m = n
        · subst e
          rw [un]
          exact Ungroup.putAttr_names _ _ (h.half.names m hm)
        · rw [uo m hm e]; exact h.half.names m hm
      · intro y hy hyg he
        obtain ⟨m, hm, rfl⟩ := back hy
        rw [ug] at hyg
        rw [ukd]
        exact h.half.fresh m hm hyg (ugn m hm he)
      · intro y hy hyg w hw
        obtain ⟨m, hm, rfl⟩ := back hy
        rw [ug] at hyg
        rcases ugu m hm w hw with hw | ⟨rfl, ea, rfl⟩
        · exact h.half.two m hm hyg w hw
        · rw [hval ea]
          unfold unitsOf
          cases e : m.get .gradientUnits with
          | none => exact .inl rfl
          | some z => exact h.half.two m hm hyg z e
      · intro y hy hyg
        obtain ⟨m, hm, rfl⟩ := back hy
        rw [ug] at hyg
        rw [uw m hm, uu m hm, uh m hm]
        rcases h.half.coh m hm hyg with h1 | ⟨h1, h2 | ⟨t, ht, htg, h2, h3⟩⟩
        · exact .inl h1
        · exact .inr ⟨h1, .inl h2⟩
        · exact .inr ⟨h1, .inr ⟨u t, fwd ht, by rw [ug]; exact htg, by rw [uk]; exact h2, by rw [uu t ht]; exact h3⟩⟩
      · intro j hj y hy ey
        obtain ⟨m, hm, rfl⟩ := back hy
        rw [uk] at ey
        exact fun hc => hj m hm ey (ugn m hm hc)
      · rintro j ⟨m, hm, e, hmg⟩
        exact ⟨u m, fwd hm, (uk m).trans e, by rw [ug]; exact hmg⟩
      · rintro rfl y hy ey
        obtain ⟨m, hm, rfl⟩ := back hy
        rw [uk] at ey
        have := Forest.eq_of_key h.sound.unique hm hn ey
        subst this
        rw [un, gs, if_pos rfl]
        simp

theorem node_half {f g : Forest} (h : Part f) {k : Nat} (hk : IsGrad f k) (e : resolveLinearNode k f = some g) : Onward f g ∧ HasU g k := by
  have hd : ∀ {w : Value}, w.target = none → ∀ v, some w = some v → v.target = none := by rintro w h v ⟨⟩; exact h
  unfold resolveLinearNode at e
  obtain ⟨f1, h1, e⟩ := Option.bind_eq_some_iff.1 e
  obtain ⟨f2, h2, e⟩ := Option.bind_eq_some_iff.1 e
  obtain ⟨f3, h3, e⟩ := Option.bind_eq_some_iff.1 e
  obtain ⟨f4, h4, e⟩ := Option.bind_eq_some_iff.1 e
  obtain ⟨f5, h5, e⟩ := Option.bind_eq_some_iff.1 e
  obtain ⟨f6, h6, e⟩ := Option.bind_eq_some_iff.1 e
  obtain ⟨o1, u1⟩ := check_half h hk (by decide) (hd rfl) (fun _ => rfl) h1
  have o2 := (check_half o1.part (o1.grad k hk) (by decide) (hd rfl) (by rintro ⟨⟩) h2).1
  have p2 := o1.trans o2
  have p3 := p2.trans (check_half p2.part (p2.grad k hk) (by decide) (hd rfl) (by rintro ⟨⟩) h3).1
  have p4 := p3.trans (check_half p3.part (p3.grad k hk) (by decide) (hd rfl) (by rintro ⟨⟩) h4).1
  have p5 := p4.trans (check_half p4.part (p4.grad k hk) (by decide) (hd rfl) (by rintro ⟨⟩) h5).1
  have p6 := p5.trans (check_half p5.part (p5.grad k hk) (by decide) (hd rfl) (by rintro ⟨⟩) h6).1
  have o7 := (check_half p6.part (p6.grad k hk) (by decide) (by rintro v ⟨⟩) (by rintro ⟨⟩) e).1
  have q2 := o2
  have q3 := q2.trans (check_half p2.part (p2.grad k hk) (by decide) (hd rfl) (by rintro ⟨⟩) h3).1
  have q4 := q3.trans (check_half p3.part (p3.grad k hk) (by decide) (hd rfl) (by rintro ⟨⟩) h4).1
  have q5 := q4.trans (check_half p4.part (p4.grad k hk) (by decide) (hd rfl) (by rintro ⟨⟩) h5).1
  have q6 := q5.trans (check_half p5.part (p5.grad k hk) (by decide) (hd rfl) (by rintro ⟨⟩) h6).1
  exact ⟨p6.trans o7, (q6.trans o7).has k (u1 rfl)⟩

theorem each_half {f g : Forest} {l : List Nat} (h : Part f) (hl : ∀ k ∈ l, IsGrad f k) (e : forEach resolveLinearNode l f = some g) :
    Onward f g ∧ ∀ k ∈ l, HasU g k := by
  induction l generalizing f with
  | nil => cases e; exact ⟨⟨h, fun _ h => h, fun _ h => h⟩, fun _ h => by cases h⟩
  | cons k t ih =>
    rw [forEach] at e
    obtain ⟨f1, h1, e⟩ := Option.bind_eq_some_iff.1 e
    obtain ⟨o1, u1⟩ := node_half h (hl k (by simp)) h1
    obtain ⟨o2, u2⟩ := ih o1.part (fun j hj => o1.grad j (hl j (by simp [hj]))) e
    refine ⟨o1.trans o2, fun j hj => ?_⟩
    rcases List.mem_cons.1 hj with rfl | hj
    · exact o2.has _ u1
    · exact u2 j hj

theorem linear_ready {f g : Forest} (h : Part f) (hsh : Shaded f g) (e : resolveLinear f = some g) : Ready g := by
  unfold resolveLinear at e
  obtain ⟨o, ho, e⟩ := Option.bind_eq_some_iff.1 e
  obtain ⟨_, hmem, _⟩ := C27_order ho
  obtain ⟨on, hu⟩ := each_half h (fun k hk => by
    obtain ⟨n, hn, e, hkd⟩ := (hmem k).1 hk
    exact ⟨n, hn, e, Merge.isGradient_kind.2 (.inl hkd)⟩) e
  refine on.part.half.ready on.part.sound fun m hm hg hc => ?_
  have hkd := on.part.half.fresh m hm hg hc
  obtain ⟨u, rfl, huk, hh⟩ := hsh
  have hm' := hm
  rw [Forest.nodes_map] at hm'
  obtain ⟨n, hn, rfl⟩ := List.mem_map.1 hm'
  rw [(hh n hn).kind] at hkd
  exact hu n.key ((hmem _).2 ⟨n, hn, rfl, hkd⟩) _ hm (huk n) hc

/-- After regrouping the attributes of gradients are resolved as before. -/
theorem regroup_ready {f g : Forest} (hg : Regroup.Good f) (hr : Ready f) (e : regroup f = some g) : Ready g := by
  obtain ⟨r, h1, h2, hh⟩ := loop_ok (P := Half) (fun hf r ha h => h.step hf r ha) hg.walk (half_of_ready hr) (Nat.le_refl (candidates f).length)
  unfold regroup at e
  rw [h1, Option.bind_some] at e
  split at e
  · obtain ⟨g', h3, h4⟩ := resolve_ok h2.core.good
    rw [e] at h3
    have := Option.some.inj h3
    subst this
    exact linear_ready ⟨⟨h2.core.good.unique, h2.core.good.links, h2.core.good.href, h2.core.good.shown⟩, hh⟩ h4 e
  next hfalse =>
    have := Option.some.inj e
    subst this
    have : r.1 = f := loop_false (fuel := (candidates f).length) (ks := candidates f) (by rw [h1]; obtain ⟨a, b⟩ := r; cases b <;> simp_all)
    rw [this]; exact hr

/-- **C72** Regrouping the stops of gradients and then removing the common `gradientUnits`, as the program does, does not change
what is drawn. -/
theorem C72_regroup_units_partial {f : Forest} (hf : Page f) (hg : Regroup.Good f) (hr : Ready f) :
    ∃ g h, regroup f = some g ∧ removeGradientAttributes g = some h ∧ Page h ∧ SameShade (onPaper f) (onPaper h) := by
  obtain ⟨g, h1, h2, h3⟩ := C72_regrouped_partial hf hg
  have hr' := regroup_ready hg hr h1
  obtain ⟨h, h4⟩ := C45_ends hr'
  obtain ⟨h5, h6⟩ := C72_units_partial h2 hr' h4
  exact ⟨g, h, h1, h4, h5, h3.trans h6⟩

/-- Three gradients with the same stops; two have coordinates in user space. -/
def fourMixed : Forest :=
  .cons (ApplyTs.elem 0 .svg [])
    (.cons ⟨1, .elem .linearGradient, "lg1", [⟨.id .gradientUnits, .kw .objectBoundingBox, false⟩, ⟨.id .x1, .length ⟨1, .none⟩, true⟩]⟩
      (Merge.stop 10 1 (Merge.stop 11 2 .nil))
    (.cons ⟨2, .elem .radialGradient, "b", [⟨.id .gradientUnits, .kw .userSpaceOnUse, true⟩, ⟨.id .cx, .length ⟨4, .none⟩, true⟩]⟩
      (Merge.stop 12 1 (Merge.stop 13 2 .nil))
    (.cons ⟨4, .elem .linearGradient, "d", [⟨.id .gradientUnits, .kw .userSpaceOnUse, true⟩, ⟨.id .x1, .length ⟨4, .none⟩, true⟩]⟩
      (Merge.stop 15 1 (Merge.stop 16 2 .nil))
    (.cons (ApplyTs.elem 5 .rect [(.fill, .funcLink 4), (.stroke, .funcLink 2)]) .nil .nil))))
  .nil

/-- The conditions of `C72_regroup_units_partial` are met: the new gradient gets the stops and the units in user space, which go
away from the two gradients; the one with the default now says so. -/
example : Page fourMixed ∧ Regroup.Good fourMixed ∧ Ready fourMixed ∧
    ((regroup fourMixed).bind removeGradientAttributes).map (fun g => g.nodes.map fun n => (n.id, written n .gradientUnits)) =
      some [("", none), ("lg2", some (.kw .userSpaceOnUse)), ("", none), ("", none), ("lg1", some (.kw .objectBoundingBox)), ("b", none), ("d", none), ("", none)] :=
  ⟨page_of (rank := id) (by decide +kernel), Regroup.good_of (rank := id) (by decide +kernel), GradUnits.ready_of id (by decide +kernel), by decide +kernel⟩

end Verif.Shade
