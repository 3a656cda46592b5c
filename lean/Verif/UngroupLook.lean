import Verif.UngroupProps
/-
Property C36, continued: `prepare_transforms`, the loop, and the theorems.
-/
namespace Verif.Ungroup
open Verif.Dom Verif.Spec Verif.Render
open Verif.Stops (modValue getAttr_modValue getAttr_set getAttr_nodeRm size)
open Verif.Paths (Transform)
open Verif.ApplyTs (TsOpts prepareTransforms prepareGroup prepareGo pushTransform SameBut)

theorem conds_ne {a : AId} (h : a ∈ conds) : a ∉ [AId.transform] := by
  revert a; decide

/-! ### Moving the transform of a group to its children -/

/-- One child, in `pushTransform`. -/
def pushKid (t : Transform) (n : Node) : Option Node :=
  if n.isSvgElem then
    if n.has .transform then (ApplyTs.getTs n).map fun t2 => n.set .transform (.transform (ApplyTs.append t t2))
    else some (n.set .transform (.transform t))
  else some n

theorem pushTransform_cons (t : Transform) (n : Node) (k r : Forest) :
    pushTransform t (.cons n k r) = (pushKid t n).bind fun n' => (pushTransform t r).map fun r' => .cons n' k r' := rfl

theorem pushKid_spec {t : Transform} {n n' : Node} (h : pushKid t n = some n') :
    (n.isSvgElem = false ∧ n' = n) ∨ (n.isSvgElem = true ∧ ∃ s, n' = n.set .transform (.transform s) ∧ s = mul t (nodeTransform n)) := by
  unfold pushKid at h
  split at h
  next hs =>
    right
    refine ⟨hs, ?_⟩
    split at h
    · simp only [Option.map_eq_some_iff] at h
      obtain ⟨t2, ht2, rfl⟩ := h
      refine ⟨_, rfl, ?_⟩
      rw [ApplyTs.nodeTransform_get (ApplyTs.getTs_eq.1 ht2)]
      rfl
    next hno =>
      cases h
      refine ⟨_, rfl, ?_⟩
      rw [nodeTransform_none (by simpa using hno), ApplyTs.mul_one'']
  next hs =>
    cases h
    exact .inl ⟨by simpa using hs, rfl⟩

theorem pushKid_same {t : Transform} {n n' : Node} (h : pushKid t n = some n') : SameBut [.transform] n n' := by
  rcases pushKid_spec h with ⟨_, rfl⟩ | ⟨_, s, rfl, _⟩
  · exact SameBut.refl _ _
  · exact SameBut.set _ (by simp) _

theorem isSvgElem_eq (n : Node) : n.isSvgElem = isElem n.kind := rfl

theorem takes_of {k : Kind} (h : ApplyTs.TakesTransform k = true) : takesTransform k = true := by
  unfold ApplyTs.TakesTransform at h
  split at h
  next e =>
    simp only [decide_eq_true_eq, List.mem_cons, List.not_mem_nil, or_false] at h
    rcases h with rfl | rfl | rfl | rfl | rfl | rfl <;> rfl
  next => cases h

theorem SameBut.has {as : List AId} {n m : Node} (h : SameBut as n m) {b : AId} (hb : b ∉ as) : m.has b = n.has b := by
  rw [Node.has_eq, Node.has_eq, h.get hb]

theorem SameBut.allowed {n m : Node} (h : SameBut [.transform] n m) {P : Type} (π : Painter P) : allowed π m = allowed π n := by
  unfold Render.allowed holds
  rw [h.get (by decide), h.get (by decide), h.get (by decide)]

theorem SameBut.hidden {n m : Node} (h : SameBut [.transform] n m) : hiddenBy m = hiddenBy n := by
  unfold hiddenBy
  rw [h.get (by decide)]

theorem SameBut.opacity {n m : Node} (h : SameBut [.transform] n m) : opacityOf m = opacityOf n := by
  unfold opacityOf
  rw [h.get (by decide)]

theorem SameBut.own {n m : Node} (h : SameBut [.transform] n m) {b : AName} (hb : isOwn b = true) :
    getAttr m.attrs b = getAttr n.attrs b := by
  apply h.attr
  intro a ha
  simp only [List.mem_singleton] at ha
  subst ha
  rintro rfl
  cases hb

theorem SameBut.style {n m : Node} (h : SameBut [.transform] n m) {c c' : Ctx} (hc : c'.style = c.style) :
    (c'.enter m).style = (c.enter n).style := by
  funext a
  simp only [Ctx.enter, hc]
  cases ha : inherits a with
  | false => rfl
  | true =>
    rw [h.get (by
      intro hm
      simp only [List.mem_singleton] at hm
      subst hm
      cases ha)]

section
variable {P : Type} {π : Painter P} {g : Node}

theorem ctx_ext {c c' : Ctx} (h1 : c.style = c'.style) (h2 : c.ctm = c'.ctm) : c = c' := by
  cases c; cases c'; cases h1; cases h2; rfl

theorem pushTransform_stack {t : Transform} {k k' : Forest} (h : pushTransform t k = some k')
    (hv : ∀ n ∈ k.top, n.isSvgElem = true → ApplyTs.TakesTransform n.kind = true) (env : Env P) {c c' : Ctx} (hs : c'.style = c.style)
    (hc : c.ctm = mul c'.ctm t) : stack π isElem (pics π env c k) = stack π isElem (pics π env c' k') := by
  induction k generalizing k' with
  | nil => simp only [pushTransform, Option.some.injEq] at h; subst h; rfl
  | cons n kn r _ ih =>
    rw [pushTransform_cons] at h
    simp only [Option.bind_eq_some_iff, Option.map_eq_some_iff] at h
    obtain ⟨n', hn, r', hr, rfl⟩ := h
    have hsb := pushKid_same hn
    have ih' := ih hr (fun m hm => hv m (by simp [Forest.top, hm]))
    simp only [pics, stack_cons]
    rw [ih', hsb.kind]
    cases he : isElem n.kind with
    | false => rfl
    | true =>
      simp only [if_true]
      congr 1
      rcases pushKid_spec hn with ⟨hf, _⟩ | ⟨_, s, hs', rfl⟩
      · rw [isSvgElem_eq, he] at hf; cases hf
      · have htk := takes_of (hv n (by simp [Forest.top]) he)
        have hen : c'.enter n' = c.enter n := by
          apply ctx_ext (SameBut.style hsb hs)
          simp only [Ctx.enter, hsb.kind, htk, if_true, hc]
          rw [ApplyTs.nodeTransform_get (t := mul t (nodeTransform n)) (by rw [hs', ApplyTs.get_set, if_pos rfl]), ApplyTs.mul_assoc']
        rw [hen]
        unfold draw
        rw [hsb.kind]
        split
        · rfl
        · cases hkind : n.kind with
          | elem e =>
            have hkind' : n'.kind = .elem e := hsb.kind.trans hkind
            rw [body_elem hkind, body_elem hkind', SameBut.hidden hsb, SameBut.allowed hsb, SameBut.opacity hsb]
            rw [inner_eq (n := n) (n' := n') (fun b hb => SameBut.own hsb hb) (fun a ha => hsb.get (by revert a; decide)) hen]
          | text s => rw [hkind] at he; cases he
          | comment s => rw [hkind] at he; cases he
          | other s => rw [hkind] at he; cases he

theorem pushTransform_inst {u : Nat → Bool} {t : Transform} {k k' : Forest} (h : pushTransform t k = some k')
    (hu : ∀ c ∈ k.top, u c.key = false) (env : Env P) (via : Attrs P) (ctx : Ctx) {x : Nat} (hx : u x = true) :
    instOf π env via ctx x k = instOf π env via ctx x k' := by
  induction k generalizing k' with
  | nil => simp only [pushTransform, Option.some.injEq] at h; subst h; rfl
  | cons n kn r _ ih =>
    rw [pushTransform_cons] at h
    simp only [Option.bind_eq_some_iff, Option.map_eq_some_iff] at h
    obtain ⟨n', hn, r', hr, rfl⟩ := h
    simp only [instOf]
    rw [ih hr (fun m hm => hu m (by simp [Forest.top, hm])), (pushKid_same hn).key]
    by_cases hnx : n.key = x
    · rw [← hnx, hu n (by simp [Forest.top])] at hx
      cases hx
    · simp only [hnx, if_false]

theorem pushTransform_here {u : Nat → Bool} {t : Transform} {k k' : Forest} (h : pushTransform t k = some k')
    (hu : ∀ c ∈ k.top, u c.key = false) (env : Env P) {c c' : Ctx} (hc : c'.style = c.style) {x : Nat} (hx : u x = true) :
    hereOf π env x c k = hereOf π env x c' k' := by
  induction k generalizing k' with
  | nil => simp only [pushTransform, Option.some.injEq] at h; subst h; rfl
  | cons n kn r _ ih =>
    rw [pushTransform_cons] at h
    simp only [Option.bind_eq_some_iff, Option.map_eq_some_iff] at h
    obtain ⟨n', hn, r', hr, rfl⟩ := h
    simp only [hereOf]
    rw [ih hr (fun m hm => hu m (by simp [Forest.top, hm])), (pushKid_same hn).key,
      hereOf_style env x (SameBut.style (pushKid_same hn) hc).symm]
    by_cases hnx : n.key = x
    · rw [← hnx, hu n (by simp [Forest.top])] at hx
      cases hx
    · simp only [hnx, if_false]

end

/-! ### One group -/

theorem pushTransform_solid {t : Transform} {k k' : Forest} (h : pushTransform t k = some k') :
    solid k' = solid k ∧ lasting k' = lasting k := by
  induction k generalizing k' with
  | nil => simp only [pushTransform, Option.some.injEq] at h; subst h; exact ⟨rfl, rfl⟩
  | cons n kn r _ ih =>
    rw [pushTransform_cons] at h
    simp only [Option.bind_eq_some_iff, Option.map_eq_some_iff] at h
    obtain ⟨n', hn, r', hr, rfl⟩ := h
    simp only [solid, lasting, (pushKid_same hn).kind, (ih hr).1, (ih hr).2]
    exact ⟨trivial, trivial⟩

/-- The number of groups. -/
def groups : Forest → Nat
  | .nil => 0
  | .cons n k r => (if n.kind = .elem .g then 1 else 0) + groups k + groups r

theorem pushTransform_groups {t : Transform} {k k' : Forest} (h : pushTransform t k = some k') : groups k' = groups k := by
  induction k generalizing k' with
  | nil => simp only [pushTransform, Option.some.injEq] at h; subst h; rfl
  | cons n kn r _ ih =>
    rw [pushTransform_cons] at h
    simp only [Option.bind_eq_some_iff, Option.map_eq_some_iff] at h
    obtain ⟨n', hn, r', hr, rfl⟩ := h
    simp only [groups, (pushKid_same hn).kind, ih hr]

theorem links_set_plain {n : Node} {a : AId} {v : Value} (hv : v.target = none) {k : Nat} (h : k ∈ (n.set a v).links) : k ∈ n.links := by
  rw [Node.mem_links] at *
  obtain ⟨x, hx, hk⟩ := h
  rcases Node.mem_putAttr hx with rfl | hx
  · rw [hv] at hk; cases hk
  · exact ⟨x, hx, hk⟩

theorem pushKid_links {t : Transform} {n n' : Node} (h : pushKid t n = some n') {k : Nat} (hk : k ∈ n'.links) : k ∈ n.links := by
  rcases pushKid_spec h with ⟨_, rfl⟩ | ⟨_, s, rfl, _⟩
  · exact hk
  · exact links_set_plain rfl hk

theorem linksIn_cons {u : Nat → Prop} {n : Node} {k r : Forest} :
    LinksIn u (.cons n k r) ↔ (∀ x ∈ n.links, u x) ∧ LinksIn u k ∧ LinksIn u r := by
  unfold LinksIn
  simp only [Forest.nodes, List.mem_cons, List.mem_append]
  constructor
  · exact fun h => ⟨h n (.inl rfl), fun m hm => h m (.inr (.inl hm)), fun m hm => h m (.inr (.inr hm))⟩
  · rintro ⟨h1, h2, h3⟩ m (rfl | hm | hm)
    · exact h1
    · exact h2 m hm
    · exact h3 m hm

theorem pushTransform_links {t : Transform} {k k' : Forest} (h : pushTransform t k = some k') {u : Nat → Prop} (hu : LinksIn u k) :
    LinksIn u k' := by
  induction k generalizing k' with
  | nil => simp only [pushTransform, Option.some.injEq] at h; subst h; exact hu
  | cons n kn r _ ih =>
    rw [pushTransform_cons] at h
    simp only [Option.bind_eq_some_iff, Option.map_eq_some_iff] at h
    obtain ⟨n', hn, r', hr, rfl⟩ := h
    rw [linksIn_cons] at hu ⊢
    exact ⟨fun x hx => hu.1 x (pushKid_links hn hx), hu.2.1, ih hr hu.2.2⟩

theorem SameBut.around {n m : Node} (h : SameBut [.transform] n m) {v w : Around} (p : Kind) (hc : v.conds = w.conds)
    (hs : v.switch = w.switch) (ht : n.kind = .elem .g → (v.transform || m.has .transform) = true → (w.transform || n.has .transform) = true) :
    (v.enter p m).le (w.enter p n) := by
  unfold Around.enter
  rw [h.kind]
  split
  next hg =>
    have : conds.filter m.has = conds.filter n.has := by
      apply List.filter_congr
      intro a ha
      exact SameBut.has h (by revert a; decide)
    refine ⟨ht hg, fun a ha => ?_, fun hv => ?_⟩
    · simp only [this, hc] at ha; exact ha
    · simp only [hs] at hv; exact hv
  next => exact Around.le_refl _

/-- A child of a group that gets its transform. -/
theorem pushKid_ok {u : Nat → Bool} {p : Kind} {v w : Around} {t : Transform} {n n' : Node} {k : Forest} (h : pushKid t n = some n')
    (ho : NodeOk u p w n k) (hv : v.le w) : NodeOk u p v n' k := by
  have hsb := pushKid_same h
  have ho' := ho.weaken (fun _ h => h) hv
  refine ⟨fun hg => ?_, fun ht => ?_, fun a ha hc => ?_, fun hp => ?_⟩
  · rw [hsb.kind] at hg
    obtain ⟨h1, h2, h3, h4, h5⟩ := ho'.group hg
    refine ⟨h1, ?_, ?_, h4, by rw [hsb.key]; exact h5⟩
    · rcases pushKid_spec h with ⟨_, rfl⟩ | ⟨_, s, rfl, _⟩
      · exact h2
      · exact putAttr_names _ _ h2
    · rcases pushKid_spec h with ⟨_, rfl⟩ | ⟨_, s, rfl, _⟩
      · exact h3
      · intro x hx
        rcases Node.mem_putAttr hx with rfl | hx
        · rfl
        · exact h3 x hx
  · rw [hsb.key, hsb.kind]; exact ho'.transform ht
  · rw [SameBut.has hsb (conds_ne ha)]; exact ho'.cond a ha hc
  · obtain ⟨g1, g2, g3⟩ := ho'.inGroup hp
    rw [hsb.kind]
    rcases pushKid_spec h with ⟨_, rfl⟩ | ⟨_, s, rfl, _⟩
    · exact ⟨g1, g2, g3⟩
    · refine ⟨g1, fun x hx => ?_, fun v hv => ?_⟩
      · rcases Node.mem_putAttr hx with rfl | hx
        · simp
        · exact g2 x hx
      · rw [ApplyTs.get_set, if_pos rfl] at hv
        exact ⟨s, (Option.some.inj hv).symm⟩

theorem pushTransform_fit {u : Nat → Bool} {p : Kind} {v w : Around} {t : Transform} {k k' : Forest} (h : pushTransform t k = some k')
    (hf : Fit u p w k) (hv : v.le w) (hw : w.transform = true) (hc : v.conds = w.conds) (hs : v.switch = w.switch) : Fit u p v k' := by
  induction k generalizing k' with
  | nil => simp only [pushTransform, Option.some.injEq] at h; subst h; trivial
  | cons n kn r _ ih =>
    rw [pushTransform_cons] at h
    simp only [Option.bind_eq_some_iff, Option.map_eq_some_iff] at h
    obtain ⟨n', hn, r', hr, rfl⟩ := h
    refine ⟨pushKid_ok hn hf.1 hv, ?_, ih hr hf.2.2⟩
    rw [(pushKid_same hn).kind]
    exact hf.2.1.weaken (fun _ h => h) (SameBut.around (pushKid_same hn) p hc hs (fun _ _ => by simp [hw]))

/-- What is kept when something is done to a forest. -/
structure Kept (u : Nat → Bool) (p : Kind) (w : Around) (f g : Forest) : Prop where
  like : Like (fun x => u x = true) f g
  fit : Fit u p w g
  solid : solid g = Ungroup.solid f
  lasting : lasting g = Ungroup.lasting f
  links : ∀ {v : Nat → Prop}, LinksIn v f → LinksIn v g
  groups : groups g = Ungroup.groups f

theorem Kept.refl {u : Nat → Bool} {p : Kind} {w : Around} {f : Forest} (h : Fit u p w f) : Kept u p w f f :=
  ⟨Like.refl _ _, h, rfl, rfl, fun h => h, rfl⟩

/-- What is kept when something is done to a node and its children. -/
structure KeptNode (u : Nat → Bool) (p : Kind) (w : Around) (n : Node) (k : Forest) (n' : Node) (k' : Forest) : Prop where
  like : NodeLike (fun x => u x = true) n k n' k'
  ok : NodeOk u p w n' k'
  fit : Fit u n'.kind (w.enter p n') k'
  solid : solid k' = Ungroup.solid k
  lasting : lasting k' = Ungroup.lasting k
  links : ∀ x ∈ n'.links, x ∈ n.links
  kidLinks : ∀ {v : Nat → Prop}, LinksIn v k → LinksIn v k'
  groups : groups k' = Ungroup.groups k

theorem KeptNode.refl {u : Nat → Bool} {p : Kind} {w : Around} {n : Node} {k : Forest} (h1 : NodeOk u p w n k)
    (h2 : Fit u n.kind (w.enter p n) k) : KeptNode u p w n k n k :=
  ⟨NodeLike.refl _ _ _, h1, h2, rfl, rfl, fun _ h => h, fun h => h, rfl⟩

theorem NodeLike.trans {u : Nat → Prop} {n n' n'' : Node} {k k' k'' : Forest} (a : NodeLike u n k n' k') (b : NodeLike u n' k' n'' k'') :
    NodeLike u n k n'' k'' :=
  ⟨b.key.trans a.key, b.kind.trans a.kind, fun π => (b.allowed π).trans (a.allowed π), fun π e c => (a.body π e c).trans (b.body π e c),
   fun π e v c h => (a.inst π e v c h).trans (b.inst π e v c (by rw [a.key]; exact h)),
   fun π e v c x h => (a.kidInst π e v c x h).trans (b.kidInst π e v c x h),
   fun π e c x h => (a.kidHere π e c x h).trans (b.kidHere π e c x h)⟩

theorem KeptNode.kids {u : Nat → Bool} {p : Kind} {w : Around} {n n' : Node} {k k' k'' : Forest} (h : KeptNode u p w n k n' k')
    (hk : Kept u n'.kind (w.enter p n') k' k'') : KeptNode u p w n k n' k'' :=
  ⟨NodeLike.trans h.like (NodeLike.of_kids hk.like), h.ok.kids hk.solid hk.lasting, hk.fit, hk.solid.trans h.solid, hk.lasting.trans h.lasting,
   h.links, fun hv => hk.links (h.kidLinks hv), hk.groups.trans h.groups⟩

theorem Kept.cons {u : Nat → Bool} {p : Kind} {w : Around} {n n' : Node} {k k' r r' : Forest} (h : KeptNode u p w n k n' k')
    (hr : Kept u p w r r') : Kept u p w (.cons n k r) (.cons n' k' r') := by
  refine ⟨Like.cons h.like hr.like, ⟨h.ok, h.fit, hr.fit⟩, ?_, ?_, fun hv => ?_, ?_⟩
  · simp only [Ungroup.solid, h.like.kind, h.solid, hr.solid]
  · simp only [Ungroup.lasting, h.like.kind, h.lasting, hr.lasting]
  · rw [linksIn_cons] at hv ⊢
    exact ⟨fun x hx => hv.1 x (h.links x hx), h.kidLinks hv.2.1, hr.links hv.2.2⟩
  · simp only [Ungroup.groups, h.like.kind, h.groups, hr.groups]

theorem prepareGroup_kept {u : Nat → Bool} {p : Kind} {w : Around} {o : TsOpts} {anc : List Node} {n n' : Node} {k k' : Forest} {b : Bool}
    (h : prepareGroup o anc n k = some (n', k', b)) (h1 : NodeOk u p w n k) (h2 : Fit u n.kind (w.enter p n) k) :
    KeptNode u p w n k n' k' := by
  unfold prepareGroup at h
  split at h
  next hg =>
    simp only [Bool.and_eq_true] at hg
    have hgk := (Node.isTag_iff _ _).1 hg.1
    simp only [Option.bind_eq_some_iff] at h
    obtain ⟨ok, hok, h⟩ := h
    split at h
    next => cases h; exact KeptNode.refl h1 h2
    next hv =>
      simp only [Bool.or_eq_true, not_or, Bool.not_eq_true', Bool.not_eq_false] at hv
      simp only [Option.bind_eq_some_iff] at h
      obtain ⟨v, hval, h⟩ := h
      split at h
      next hvt =>
        subst hvt
        simp only [Option.bind_eq_some_iff, Option.map_eq_some_iff] at h
        obtain ⟨t, ht, k1, hk, h⟩ := h
        cases h
        have hsb : SameBut [.transform] n (n.rm .transform) := SameBut.rm _ (by simp)
        have hno := ApplyTs.noOwnLinks_of hv.2
        have hnt := ApplyTs.nodeTransform_get (ApplyTs.getTs_eq.1 ht)
        have hnt' : nodeTransform (n.rm .transform) = one := by
          unfold nodeTransform; rw [ApplyTs.get_rm, if_pos rfl]
        have hkids := Fit.kids hgk h2
        have hu : ∀ c ∈ k.top, u c.key = false := fun c hc => (hkids c hc).2 hg.2
        have hctm : ∀ c : Ctx, (c.enter n).ctm = mul (c.enter (n.rm .transform)).ctm t := by
          intro c
          simp only [Ctx.enter, hsb.kind, hgk]
          rw [hnt, hnt', ApplyTs.mul_one'']
          rfl
        have hst : ∀ c : Ctx, (c.enter (n.rm .transform)).style = (c.enter n).style := fun c => SameBut.style hsb rfl
        have hbody : ∀ {P : Type} (π : Painter P) (env : Env P) (via : Attrs P) (c : Ctx),
            body π env via c n (pics π env (c.enter n) k) =
              body π env via c (n.rm .transform) (pics π env (c.enter (n.rm .transform)) k') := by
          intro P π env via c
          rw [body_elem hgk, body_elem (n := n.rm .transform) hgk]
          have hng : (neverRendered (.elem .g) && decide (EId.g ≠ .symbol)) = false := by decide
          simp only [hng, Bool.false_eq_true, if_false]
          rw [SameBut.hidden hsb,
            SameBut.allowed hsb, SameBut.opacity hsb]
          have href : ∀ a ∈ [AId.filter, .mask, .clipPath], Seen.isRef (seenAttr env n a) = false ∧
              Seen.isRef (seenAttr env (n.rm .transform) a) = false := by
            intro a ha
            have hx : ∀ kk, n.get a ≠ some (.funcLink kk) := hno a (by revert a; decide)
            have he : seenAttr env (n.rm .transform) a = seenAttr env n a := by
              unfold seenAttr
              rw [hsb.get (by clear hx; revert a; decide)]
            rw [he]
            refine ⟨?_, ?_⟩ <;>
            · unfold seenAttr
              cases hget : n.get a with
              | none => rfl
              | some v =>
                cases v with
                | funcLink kk => exact absurd hget (hx kk)
                | _ => rfl
          unfold inner
          rw [π.no_effect _ _ _ _ _ (href .mask (by decide)).1 (href .clipPath (by decide)).1 (href .filter (by decide)).1,
            π.no_effect _ _ _ _ _ (href .mask (by decide)).2 (href .clipPath (by decide)).2 (href .filter (by decide)).2]
          have : core π env via (c.enter n) n .g (pics π env (c.enter n) k) =
              core π env via (c.enter (n.rm .transform)) (n.rm .transform) .g (pics π env (c.enter (n.rm .transform)) k') :=
            pushTransform_stack hk (ApplyTs.validChildren_takes hval) env (hst c) (hctm c)
          rw [this]
        have hle : (w.enter p (n.rm .transform)).le (w.enter p n) :=
          SameBut.around hsb p rfl rfl (fun _ hh => by simp [hg.2])
        refine ⟨⟨rfl, rfl, fun π => SameBut.allowed hsb π, fun π e c => hbody π e noVia c, fun π e via c _ => hbody π e via c,
          fun π e via c x hx => pushTransform_inst hk hu e via c hx, fun π e c x hx => pushTransform_here hk hu e (hst c) hx⟩,
          ?_, ?_, (pushTransform_solid hk).1, (pushTransform_solid hk).2, fun x hx => Node.links_rm_subset _ _ hx,
          fun hl => pushTransform_links hk hl, pushTransform_groups hk⟩
        · have hg1 := (h1.kids (pushTransform_solid hk).1 (pushTransform_solid hk).2)
          refine ⟨fun hgg => ?_, hg1.transform, fun a ha hc => ?_, fun hp => ?_⟩
          · obtain ⟨a1, a2, a3, a4, a5⟩ := hg1.group hgg
            exact ⟨a1, List.Nodup.sublist (List.Sublist.map _ (List.filter_sublist)) a2, fun x hx => a3 x (List.mem_of_mem_filter hx), a4, a5⟩
          · rw [SameBut.has hsb (conds_ne ha)]; exact hg1.cond a ha hc
          · obtain ⟨b1, b2, b3⟩ := hg1.inGroup hp
            refine ⟨b1, fun x hx => b2 x (List.mem_of_mem_filter hx), fun v hv => ?_⟩
            rw [ApplyTs.get_rm, if_pos rfl] at hv
            cases hv
        · have e1 : w.enter p n = ⟨w.transform || n.has .transform, w.conds ++ conds.filter n.has, w.switch || decide (p = .elem .switch)⟩ := by
            unfold Around.enter; rw [if_pos hgk]
          have e2 : w.enter p (n.rm .transform) = ⟨w.transform || (n.rm .transform).has .transform, w.conds ++ conds.filter (n.rm .transform).has,
              w.switch || decide (p = .elem .switch)⟩ := by
            unfold Around.enter; rw [if_pos (hsb.kind.trans hgk)]
          have e3 : conds.filter (n.rm .transform).has = conds.filter n.has := by
            apply List.filter_congr
            intro a ha
            exact SameBut.has hsb (by revert a; decide)
          refine pushTransform_fit hk h2 hle ?_ ?_ ?_
          · rw [e1]; simp [hg.2]
          · rw [e1, e2, e3]
          · rw [e1, e2]
      next => cases h; exact KeptNode.refl h1 h2
  next => cases h; exact KeptNode.refl h1 h2

theorem prepareGo_kept (o : TsOpts) (rec : Bool) (u : Nat → Bool) (s : Nat) : ∀ (anc : List Node) (f : Forest) (stop : Bool) (g : Forest)
    (b : Bool) (p : Kind) (w : Around), size f ≤ s → prepareGo o rec anc f stop = some (g, b) → Fit u p w f → Kept u p w f g := by
  induction s with
  | zero =>
    intro anc f stop g b p w hs h hf
    cases f with
    | nil => rw [prepareGo] at h; cases h; exact Kept.refl hf
    | cons n k r => simp only [size] at hs; omega
  | succ s ih =>
    intro anc f stop g b p w hs h hf
    cases f with
    | nil => rw [prepareGo] at h; cases h; exact Kept.refl hf
    | cons n k r =>
      simp only [size] at hs
      rw [prepareGo] at h
      split at h
      · cases h; exact Kept.refl hf
      · split at h
        · cases h
        · rename_i n' k' tried hp
          have hsz := ApplyTs.prepareGroup_size hp
          have hk := prepareGroup_kept hp hf.1 hf.2.1
          split at h
          · cases h
            exact Kept.cons hk (Kept.refl hf.2.2)
          · simp only [Option.bind_eq_some_iff, Option.map_eq_some_iff] at h
            obtain ⟨a, ha, b', hb, h⟩ := h
            obtain ⟨k'', b1⟩ := a
            obtain ⟨r'', b2⟩ := b'
            cases h
            exact Kept.cons (hk.kids (ih _ _ _ _ _ _ _ (by rw [hsz]; omega) ha hk.fit)) (ih _ _ _ _ _ _ _ (by omega) hb hf.2.2)

theorem prepareTransforms_kept {o : TsOpts} {rec : Bool} {anc : List Node} {n n' : Node} {k k' r : Forest} {u : Nat → Bool} {p : Kind} {w : Around}
    (h : prepareTransforms o rec anc n k = some (n', k')) (hf : Fit u p w (.cons n k r)) : Kept u p w (.cons n k r) (.cons n' k' r) := by
  unfold prepareTransforms at h
  split at h
  · cases h; exact Kept.refl hf
  · simp only [Option.bind_eq_some_iff] at h
    obtain ⟨⟨g, b⟩, hg, h⟩ := h
    rw [prepareGo] at hg
    simp only [Bool.false_eq_true, if_false] at hg
    split at hg
    · cases hg
    · rename_i n1 k1 tried hp
      have hk := prepareGroup_kept hp hf.1 hf.2.1
      split at hg
      · cases hg
        cases h
        exact Kept.cons hk (Kept.refl hf.2.2)
      · simp only [Option.bind_eq_some_iff, Option.map_eq_some_iff] at hg
        obtain ⟨a, ha, b', hb, hg⟩ := hg
        obtain ⟨k'', b1⟩ := a
        cases hg
        cases h
        exact Kept.cons (hk.kids (prepareGo_kept o rec u _ _ _ _ _ _ _ _ (le_refl _) ha hk.fit)) (Kept.refl hf.2.2)

theorem prepareAt_kept {o : TsOpts} {x : Nat} {anc : List Node} {f g : Forest} {u : Nat → Bool} {p : Kind} {w : Around}
    (h : prepareAt o x anc f = some g) (hf : Fit u p w f) : Kept u p w f g := by
  induction f generalizing anc g p w with
  | nil => simp only [prepareAt, Option.some.injEq] at h; subst h; exact Kept.refl hf
  | cons n k r ihk ihr =>
    unfold prepareAt at h
    split at h
    · simp only [Option.map_eq_some_iff] at h
      obtain ⟨⟨n', k'⟩, hp, rfl⟩ := h
      exact prepareTransforms_kept hp hf
    · simp only [Option.bind_eq_some_iff, Option.map_eq_some_iff] at h
      obtain ⟨c', hc, r', hr, rfl⟩ := h
      exact Kept.cons ((KeptNode.refl hf.1 hf.2.1).kids (ihk hc hf.2.1)) (ihr hr hf.2.2)

/-! ### One round -/

theorem groups_append (f g : Forest) : groups (f ++ g) = groups f + groups g := by
  induction f with
  | nil => exact (Nat.zero_add _).symm
  | cons n k r _ ih =>
    show groups (.cons n k (r ++ g)) = _
    simp only [groups, ih]
    omega

theorem linksIn_append {u : Nat → Prop} {f g : Forest} (hf : LinksIn u f) (hg : LinksIn u g) : LinksIn u (f ++ g) := by
  induction f with
  | nil => exact hg
  | cons n k r _ ih =>
    show LinksIn u (.cons n k (r ++ g))
    rw [linksIn_cons] at hf ⊢
    exact ⟨hf.1, hf.2.1, ih hf.2.2⟩

theorem pushAll_groups {as : List Attr} {k k' : Forest} (h : pushAll as k = some k') : groups k' = groups k := by
  induction k generalizing k' with
  | nil => simp only [pushAll, Option.some.injEq] at h; subst h; rfl
  | cons c kc r _ ih =>
    simp only [pushAll, Option.bind_eq_some_iff, Option.map_eq_some_iff] at h
    obtain ⟨c', hc', r', hr, rfl⟩ := h
    simp only [groups, (pushAttrs_same hc').2.1, ih hr]

theorem pushAll_links {u : Nat → Prop} {g : Node} {k k' : Forest} (h : pushAll g.attrs k = some k') (hg : ∀ x ∈ g.links, u x)
    (hu : LinksIn u k) : LinksIn u k' := by
  induction k generalizing k' with
  | nil => simp only [pushAll, Option.some.injEq] at h; subst h; exact hu
  | cons c kc r _ ih =>
    simp only [pushAll, Option.bind_eq_some_iff, Option.map_eq_some_iff] at h
    obtain ⟨c', hc', r', hr, rfl⟩ := h
    rw [linksIn_cons] at hu ⊢
    refine ⟨fun x hx => ?_, hu.2.1, ih hr hu.2.2⟩
    have := pushAttrs_all (Q := fun y => ∀ x, y.value.target = some x → u x) (fun q x hx => by cases hx) (fun y t _ _ x hx => by cases hx) hc'
      (fun y hy x hx => hu.1 x (Node.mem_links.2 ⟨y, hy, hx⟩)) (fun y hy x hx => hg x (Node.mem_links.2 ⟨y, hy, hx⟩))
    obtain ⟨y, hy, hyx⟩ := Node.mem_links.1 hx
    exact this y hy x hyx

/-- Induction along the search for a group that can be taken away. -/
theorem scan_induct {used : Nat → Bool} {Q : Node → Forest → Forest → Nat × Nat → Prop}
    (here : ∀ p n k r k', n.kind = .elem .g → canUngroup used p n k = true → pushAll n.attrs k = some k' →
      Q p (.cons n k r) (k' ++ r) (n.key, p.key))
    (down : ∀ p n k r k' x, Q n k k' x → Q p (.cons n k r) (.cons n k' r) x)
    (right : ∀ p n k r r' x, Q p r r' x → Q p (.cons n k r) (.cons n k r') x) {p : Node} {k k' : Forest} {x : Nat × Nat}
    (h : scan used p k = some (some (k', x))) : Q p k k' x := by
  induction k generalizing p k' x with
  | nil => simp [scan] at h
  | cons n k r ihk ihr =>
    unfold scan at h
    split at h
    next hc =>
      simp only [Bool.and_eq_true] at hc
      simp only [Option.map_eq_some_iff, Option.some.injEq, Prod.mk.injEq] at h
      obtain ⟨k1, hk1, rfl, rfl⟩ := h
      exact here p n k r k1 ((Node.isTag_iff _ _).1 hc.1) hc.2 hk1
    next =>
      simp only [Option.bind_eq_some_iff] at h
      obtain ⟨o, ho, h⟩ := h
      cases o with
      | some y =>
        simp only [Option.some.injEq, Prod.mk.injEq] at h
        obtain ⟨rfl, rfl⟩ := h
        exact down _ _ _ _ _ _ (ihk ho)
      | none =>
        simp only [Option.map_eq_some_iff] at h
        obtain ⟨o2, ho2, h⟩ := h
        cases o2 with
        | none => simp at h
        | some y =>
          simp only [Option.some.injEq, Prod.mk.injEq] at h
          obtain ⟨_, rfl, rfl, rfl⟩ := h
          exact right _ _ _ _ _ _ (ihr ho2)

theorem scan_groups {used : Nat → Bool} {p : Node} {k k' : Forest} {x : Nat × Nat} (h : scan used p k = some (some (k', x))) :
    groups k' + 1 = groups k := by
  refine scan_induct (Q := fun _ k k' _ => groups k' + 1 = groups k) ?_ ?_ ?_ h
  · intro p n k r k1 hg _ hk1
    rw [groups_append, pushAll_groups hk1]
    simp only [groups, hg, if_true]
    omega
  · intro p n k r k' x hx
    simp only [groups]
    omega
  · intro p n k r k' x hx
    simp only [groups]
    omega

theorem scan_links {used : Nat → Bool} {p : Node} {k k' : Forest} {x : Nat × Nat} (h : scan used p k = some (some (k', x)))
    {u : Nat → Prop} (hu : LinksIn u k) : LinksIn u k' := by
  refine scan_induct (Q := fun _ k k' _ => LinksIn u k → LinksIn u k') ?_ ?_ ?_ h hu
  · intro p n k r k1 hg _ hk1 hu
    rw [linksIn_cons] at hu
    exact linksIn_append (pushAll_links hk1 hu.1 hu.2.1) hu.2.2
  · intro p n k r k' x hx hu
    rw [linksIn_cons] at hu ⊢
    exact ⟨hu.1, hx hu.2.1, hu.2.2⟩
  · intro p n k r k' x hx hu
    rw [linksIn_cons] at hu ⊢
    exact ⟨hu.1, hu.2.1, hx hu.2.2⟩

/-- The group is not referred to. -/
theorem scan_unused {used : Nat → Bool} {p : Node} {w : Around} {k k' : Forest} {x : Nat × Nat} (hf : Fit used p.kind w k)
    (h : scan used p k = some (some (k', x))) : used x.1 = false := by
  refine scan_induct (Q := fun p k _ x => ∀ w, Fit used p.kind w k → used x.1 = false) ?_ ?_ ?_ h w hf
  · intro p n k r k1 hg hc hk1 w hf
    rcases canUngroup_cases hc with ⟨rfl, _⟩ | ⟨h, _⟩
    · cases hx : used n.key with
      | false => rfl
      | true => exact absurd ((hf.1.group hg).lasting hx) (by decide)
    · exact h
  · intro p n k r k' x hx w hf
    exact hx _ hf.2.1
  · intro p n k r k' x hx w hf
    exact hx _ hf.2.2

theorem unlink_unused {f : Forest} {x : Nat} (h : LinksIn (fun k => k ≠ x) f) : f.map (fun n => n.unlink (fun k => decide (k = x))) = f := by
  apply Forest.map_id'
  intro n hn
  have h1 := h n hn
  unfold Node.unlink
  have : n.attrs.filter (fun a => match a.value.target with | some k => !(decide (k = x)) | none => true) = n.attrs := by
    apply List.filter_eq_self.2
    intro a ha
    cases ht : a.value.target with
    | none => rfl
    | some k => simpa using h1 k (Node.mem_links.2 ⟨a, ha, ht⟩)
  cases n
  simp only [Node.mk.injEq, true_and]
  exact this

theorem linksIn_used (f : Forest) : LinksIn (fun x => f.isUsed x = true) f := by
  intro n hn k hk
  exact List.any_eq_true.2 ⟨n, hn, by simpa using hk⟩

theorem isUsed_of_linksIn {f : Forest} {u : Nat → Prop} (h : LinksIn u f) {x : Nat} (hx : f.isUsed x = true) : u x := by
  obtain ⟨n, hn, hk⟩ := List.any_eq_true.1 hx
  exact h n hn x (by simpa using hk)

theorem setSvg_groups {f : Forest} {s : Node} {k k' : Forest} (h : svgElement f = some (s, k)) (hk : groups k' + 1 = groups k) :
    groups (setSvgElement s k' f) + 1 = groups f := by
  induction f with
  | nil => simp [svgElement] at h
  | cons n c r _ ih =>
    unfold svgElement at h
    unfold setSvgElement
    split at h
    next ht =>
      cases h
      simp only [ht, if_true, groups]
      omega
    next ht =>
      have := ih h
      simp only [ht, Bool.false_eq_true, if_false, groups]
      omega

theorem setSvg_kept {u : Nat → Bool} {p : Kind} {w : Around} {f : Forest} {s : Node} {k k' : Forest} (h : svgElement f = some (s, k))
    (hf : Fit u p w f) (hk : ∀ w, Fit u s.kind w k → KidsLike (fun x => u x = true) s.kind k k' ∧ Fit u s.kind w k')
    (hl : ∀ {v : Nat → Prop}, LinksIn v k → LinksIn v k') :
    Like (fun x => u x = true) f (setSvgElement s k' f) ∧ Fit u p w (setSvgElement s k' f) ∧
    ∀ {v : Nat → Prop}, LinksIn v f → LinksIn v (setSvgElement s k' f) := by
  induction f with
  | nil => simp [svgElement] at h
  | cons n c r _ ih =>
    unfold svgElement at h
    unfold setSvgElement
    split at h
    next ht =>
      cases h
      simp only [ht, if_true]
      have hs := (Node.isTag_iff _ _).1 ht
      obtain ⟨h1, h2⟩ := hk _ hf.2.1
      refine ⟨Like.cons h1.node (Like.refl _ _), ⟨?_, h2, hf.2.2⟩, fun hv => ?_⟩
      · refine ⟨fun hg => ?_, hf.1.transform, hf.1.cond, hf.1.inGroup⟩
        rw [hs] at hg
        cases hg
      · rw [linksIn_cons] at hv ⊢
        exact ⟨hv.1, hl hv.2.1, hv.2.2⟩
    next ht =>
      obtain ⟨h1, h2, h3⟩ := ih h hf.2.2
      simp only [ht, Bool.false_eq_true, if_false]
      refine ⟨Like.cons (NodeLike.refl _ _ _) h1, ⟨hf.1, hf.2.1, h2⟩, fun hv => ?_⟩
      rw [linksIn_cons] at hv ⊢
      exact ⟨hv.1, hv.2.1, h3 hv.2.2⟩

theorem svg_fit {u : Nat → Bool} {p : Kind} {w : Around} {f : Forest} {s : Node} {k : Forest} (h : svgElement f = some (s, k))
    (hf : Fit u p w f) : ∃ w', Fit u s.kind w' k := by
  induction f with
  | nil => simp [svgElement] at h
  | cons n c r _ ih =>
    unfold svgElement at h
    split at h
    next ht => cases h; exact ⟨_, hf.2.1⟩
    next ht => exact ih h hf.2.2

/-- One round keeps the look of the document. -/
theorem step_spec {o : TsOpts} {f g : Forest} (hf : Groupable f) (h : step o f = some (some g)) :
    Groupable g ∧ SameLook f g := by
  unfold step at h
  simp only [Option.bind_eq_some_iff] at h
  obtain ⟨⟨s, k⟩, hs, y, hy, h⟩ := h
  cases y with
  | none => cases h
  | some z =>
    obtain ⟨k', x, p⟩ := z
    simp only [Option.map_eq_some_iff, Option.some.injEq] at h
    obtain ⟨g', hg, rfl⟩ := h
    obtain ⟨w', hw⟩ := svg_fit hs hf
    obtain ⟨h1, h2, h3⟩ := setSvg_kept hs hf (fun w hw => ⟨scan_like hw hy, scan_fit hw hy⟩) (fun hv => scan_links hy hv)
    have hx := scan_unused hw hy
    have hlu := h3 (linksIn_used f)
    rw [unlink_unused (fun n hn k hk => by
      rintro rfl
      have h1 : f.isUsed k = true := hlu n hn k hk
      have h2 : f.isUsed k = false := hx
      rw [h2] at h1
      cases h1)] at hg
    have hk := prepareAt_kept hg h2
    have hlg := hk.links hlu
    refine ⟨hk.fit.weaken (fun x hx => isUsed_of_linksIn hlg hx) (Around.le_refl _), sameLook_of_like (h1.trans hk.like) hlg⟩

/-! ### Termination -/

theorem prepareGo_groups (o : TsOpts) (rec : Bool) (s : Nat) : ∀ (anc : List Node) (f : Forest) (stop : Bool) (g : Forest)
    (b : Bool), size f ≤ s → prepareGo o rec anc f stop = some (g, b) → groups g = groups f := by
  have hgroup : ∀ {anc : List Node} {n n' : Node} {k k' : Forest} {b : Bool}, prepareGroup o anc n k = some (n', k', b) →
      n'.kind = n.kind ∧ groups k' = groups k := by
    intro anc n n' k k' b h
    refine ⟨(ApplyTs.prepareGroup_spec h one).1.kind, ?_⟩
    unfold prepareGroup at h
    split at h
    · simp only [Option.bind_eq_some_iff] at h
      obtain ⟨ok, _, h⟩ := h
      split at h
      · cases h; rfl
      · simp only [Option.bind_eq_some_iff] at h
        obtain ⟨v, _, h⟩ := h
        split at h
        · simp only [Option.bind_eq_some_iff, Option.map_eq_some_iff] at h
          obtain ⟨t, _, k1, hk, h⟩ := h
          cases h
          exact pushTransform_groups hk
        · cases h; rfl
    · cases h; rfl
  induction s with
  | zero =>
    intro anc f stop g b hs h
    cases f with
    | nil => rw [prepareGo] at h; cases h; rfl
    | cons n k r => simp only [size] at hs; omega
  | succ s ih =>
    intro anc f stop g b hs h
    cases f with
    | nil => rw [prepareGo] at h; cases h; rfl
    | cons n k r =>
      simp only [size] at hs
      rw [prepareGo] at h
      split at h
      · cases h; rfl
      · split at h
        · cases h
        · rename_i n' k' tried hp
          have hsz := ApplyTs.prepareGroup_size hp
          obtain ⟨e1, e2⟩ := hgroup hp
          split at h
          · cases h
            simp only [groups, e1, e2]
          · simp only [Option.bind_eq_some_iff, Option.map_eq_some_iff] at h
            obtain ⟨a, ha, b', hb, h⟩ := h
            obtain ⟨k'', b1⟩ := a
            obtain ⟨r'', b2⟩ := b'
            cases h
            simp only [groups, e1, ih _ _ _ _ _ (by rw [hsz]; omega) ha, ih _ _ _ _ _ (by omega) hb, e2]

theorem prepareTransforms_groups {o : TsOpts} {rec : Bool} {anc : List Node} {n n' : Node} {k k' : Forest}
    (h : prepareTransforms o rec anc n k = some (n', k')) : n'.kind = n.kind ∧ groups k' = groups k := by
  unfold prepareTransforms at h
  split at h
  · cases h; exact ⟨rfl, rfl⟩
  · simp only [Option.bind_eq_some_iff] at h
    obtain ⟨⟨g, b⟩, hg, h⟩ := h
    rw [prepareGo] at hg
    simp only [Bool.false_eq_true, if_false] at hg
    split at hg
    · cases hg
    · rename_i n1 k1 tried hp
      have hgr : groups k1 = groups k := by
        have := prepareGo_groups o false (size (.cons n k .nil)) anc (.cons n k .nil) false (.cons n1 k1 .nil)
        have hk : n1.kind = n.kind := (ApplyTs.prepareGroup_spec hp one).1.kind
        cases tried with
        | true =>
          have h2 := this true (le_refl _) (by
            rw [prepareGo]
            simp only [Bool.false_eq_true, if_false]
            split
            · rename_i hp2; rw [hp] at hp2; cases hp2
            · rename_i hp2; rw [hp] at hp2; cases hp2; rfl)
          simp only [groups, hk] at h2
          omega
        | false =>
          have : k1 = k := by
            unfold prepareGroup at hp
            split at hp
            · simp only [Option.bind_eq_some_iff] at hp
              obtain ⟨ok, _, hp⟩ := hp
              split at hp
              · cases hp; rfl
              · simp only [Option.bind_eq_some_iff] at hp
                obtain ⟨v, _, hp⟩ := hp
                split at hp
                · simp only [Option.bind_eq_some_iff, Option.map_eq_some_iff] at hp
                  obtain ⟨t, _, k1, hk, hp⟩ := hp
                  cases hp
                · cases hp
            · cases hp; rfl
          rw [this]
      have hk : n1.kind = n.kind := (ApplyTs.prepareGroup_spec hp one).1.kind
      split at hg
      · cases hg
        cases h
        exact ⟨hk, hgr⟩
      · simp only [Option.bind_eq_some_iff, Option.map_eq_some_iff] at hg
        obtain ⟨a, ha, b', hb, hg⟩ := hg
        obtain ⟨k'', b1⟩ := a
        cases hg
        cases h
        exact ⟨hk, (prepareGo_groups o rec _ _ _ _ _ _ (le_refl _) ha).trans hgr⟩

theorem prepareAt_groups {o : TsOpts} {x : Nat} {anc : List Node} {f g : Forest} (h : prepareAt o x anc f = some g) :
    groups g = groups f := by
  induction f generalizing anc g with
  | nil => simp only [prepareAt, Option.some.injEq] at h; subst h; rfl
  | cons n k r ihk ihr =>
    unfold prepareAt at h
    split at h
    · simp only [Option.map_eq_some_iff] at h
      obtain ⟨⟨n', k'⟩, hp, rfl⟩ := h
      simp only [groups, (prepareTransforms_groups hp).1, (prepareTransforms_groups hp).2]
    · simp only [Option.bind_eq_some_iff, Option.map_eq_some_iff] at h
      obtain ⟨c', hc, r', hr, rfl⟩ := h
      simp only [groups, ihk hc, ihr hr]

theorem map_groups (u : Nat → Bool) (f : Forest) : groups (f.map (fun n => n.unlink u)) = groups f := by
  induction f with
  | nil => rfl
  | cons n k r ihk ihr =>
    simp only [Forest.map_cons, groups, ihk, ihr, Node.kind_unlink]
    rfl

/-- Every round takes away one group. -/
theorem step_groups {o : TsOpts} {f g : Forest} (h : step o f = some (some g)) : groups g + 1 = groups f := by
  unfold step at h
  simp only [Option.bind_eq_some_iff] at h
  obtain ⟨⟨s, k⟩, hs, y, hy, h⟩ := h
  cases y with
  | none => cases h
  | some z =>
    obtain ⟨k', x, p⟩ := z
    simp only [Option.map_eq_some_iff, Option.some.injEq] at h
    obtain ⟨g', hg, rfl⟩ := h
    rw [prepareAt_groups hg, map_groups]
    exact setSvg_groups hs (scan_groups hy)

theorem loop_ends {o : TsOpts} {fuel : Nat} {f : Forest} (h : groups f ≤ fuel) : loop o fuel f ≠ some none := by
  induction fuel generalizing f with
  | zero =>
    intro e
    unfold loop at e
    simp only [Option.bind_eq_some_iff] at e
    obtain ⟨y, hy, e⟩ := e
    cases y with
    | none => cases e
    | some g => have := step_groups hy; omega
  | succ fuel ih =>
    intro e
    unfold loop at e
    simp only [Option.bind_eq_some_iff] at e
    obtain ⟨y, hy, e⟩ := e
    cases y with
    | none => cases e
    | some g => exact ih (by have := step_groups hy; omega) e

theorem groups_le (f : Forest) : groups f ≤ f.nodes.length := by
  induction f with
  | nil => exact Nat.le_refl 0
  | cons n k r ihk ihr =>
    simp only [groups, Forest.nodes, List.length_cons, List.length_append]
    split <;> omega

theorem setSvg_groups' {f : Forest} {s s' : Node} {k k' : Forest} (h : svgElement f = some (s, k)) (hs : s'.kind = s.kind)
    (hk : groups k' = groups k) : groups (setSvgElement s' k' f) = groups f := by
  induction f with
  | nil => simp [svgElement] at h
  | cons n c r _ ih =>
    unfold svgElement at h
    unfold setSvgElement
    split at h
    next ht =>
      cases h
      simp only [ht, if_true, groups, hs, hk]
    next ht =>
      simp only [ht, Bool.false_eq_true, if_false, groups, ih h]

/-- **C36 (termination)**: the loop that takes groups away ends, for every document: it either ends with a document or with a
panic. -/
theorem C36_terminates (o : TsOpts) (f : Forest) : ungroupGroups o f ≠ some none := by
  intro e
  unfold ungroupGroups at e
  simp only [Option.bind_eq_some_iff] at e
  obtain ⟨⟨s, k⟩, hs, ⟨s', k'⟩, hp, e⟩ := e
  obtain ⟨h1, h2⟩ := prepareTransforms_groups hp
  exact loop_ends (by rw [setSvg_groups' hs h1 h2]; exact groups_le f) e

/-! ### The picture -/

theorem loop_spec {o : TsOpts} {fuel : Nat} {f g : Forest} (hf : Groupable f) (h : loop o fuel f = some (some g)) :
    SameLook f g ∧ step o g = some none := by
  induction fuel generalizing f with
  | zero =>
    unfold loop at h
    simp only [Option.bind_eq_some_iff] at h
    obtain ⟨y, hy, h⟩ := h
    cases y with
    | none => cases h; exact ⟨SameLook.refl _, hy⟩
    | some g => cases h
  | succ fuel ih =>
    unfold loop at h
    simp only [Option.bind_eq_some_iff] at h
    obtain ⟨y, hy, h⟩ := h
    cases y with
    | none => cases h; exact ⟨SameLook.refl _, hy⟩
    | some g' =>
      obtain ⟨h1, h2⟩ := step_spec hf hy
      obtain ⟨h3, h4⟩ := ih h1 h
      exact ⟨h2.trans h3, h4⟩

theorem setSvg_prepare {o : TsOpts} {u : Nat → Bool} {p : Kind} {w : Around} {f : Forest} {s s' : Node} {k k' : Forest}
    (h : svgElement f = some (s, k)) (hf : Fit u p w f) (hp : prepareTransforms o true [] s k = some (s', k')) :
    Kept u p w f (setSvgElement s' k' f) := by
  induction f with
  | nil => simp [svgElement] at h
  | cons n c r _ ih =>
    unfold svgElement at h
    unfold setSvgElement
    split at h
    next ht =>
      cases h
      simp only [ht, if_true]
      exact prepareTransforms_kept hp hf
    next ht =>
      simp only [ht, Bool.false_eq_true, if_false]
      exact Kept.cons (KeptNode.refl hf.1 hf.2.1) (ih h hf.2.2)

/-- C36 in full: taking groups away does not change what the document looks like. -/
def C36_full : Prop := ∀ (o : TsOpts) (f g : Forest), ungroupGroups o f = some (some g) → SameLook f g

/-- **C36**: taking groups away does not change what the document looks like, whatever the way to draw shapes, text and so on,
if the groups have attributes that mean something for groups, `display` is only used to hide them, what is inside of a group with a
transform takes transforms and is not referred to, and conditional attributes are not nested. -/
theorem C36_look_partial {o : TsOpts} {f g : Forest} (hf : Groupable f) (h : ungroupGroups o f = some (some g)) : SameLook f g := by
  unfold ungroupGroups at h
  simp only [Option.bind_eq_some_iff] at h
  obtain ⟨⟨s, k⟩, hs, ⟨s', k'⟩, hp, h⟩ := h
  have hk := setSvg_prepare hs hf hp
  have hl := hk.links (linksIn_used f)
  have h1 := sameLook_of_like hk.like hl
  exact h1.trans (loop_spec (hk.fit.weaken (fun x hx => isUsed_of_linksIn hl hx) (Around.le_refl _)) h).1

/-! ### No group is left that could go -/

theorem scan_none {used : Nat → Bool} {p : Node} {k : Forest} (h : scan used p k = some none) :
    ∀ x ∈ subs k, x.1.kind = .elem .g → ∃ p', canUngroup used p' x.1 x.2 = false := by
  induction k generalizing p with
  | nil => intro x hx; simp [subs] at hx
  | cons n k r ihk ihr =>
    unfold scan at h
    split at h
    next hc =>
      simp only [Option.map_eq_some_iff] at h
      obtain ⟨_, _, h⟩ := h
      cases h
    next hc =>
      simp only [Option.bind_eq_some_iff] at h
      obtain ⟨o, ho, h⟩ := h
      cases o with
      | some y => cases h
      | none =>
        simp only [Option.map_eq_some_iff] at h
        obtain ⟨o2, ho2, h⟩ := h
        cases o2 with
        | some y => cases h
        | none =>
          intro x hx hg
          simp only [subs, List.mem_cons, List.mem_append] at hx
          rcases hx with rfl | hx | hx
          · refine ⟨p, ?_⟩
            have : n.isTag .g = true := (Node.isTag_iff _ _).2 hg
            rw [this] at hc
            simpa using hc
          · exact ihk ho x hx hg
          · exact ihr ho2 x hx hg

theorem loop_end {o : TsOpts} {fuel : Nat} {f g : Forest} (h : loop o fuel f = some (some g)) : step o g = some none := by
  induction fuel generalizing f with
  | zero =>
    unfold loop at h
    simp only [Option.bind_eq_some_iff] at h
    obtain ⟨y, hy, h⟩ := h
    cases y with
    | none => cases h; exact hy
    | some g => cases h
  | succ fuel ih =>
    unfold loop at h
    simp only [Option.bind_eq_some_iff] at h
    obtain ⟨y, hy, h⟩ := h
    cases y with
    | none => cases h; exact hy
    | some g' => exact ih h

/-- **C36 (the job is done)**: in the result, every group has children or a filter. -/
theorem C36_done {o : TsOpts} {f g : Forest} (h : ungroupGroups o f = some (some g)) {s : Node} {k : Forest}
    (hs : svgElement g = some (s, k)) : ∀ x ∈ subs k, x.1.kind = .elem .g → x.2 = .nil → x.1.has .filter = true := by
  unfold ungroupGroups at h
  simp only [Option.bind_eq_some_iff] at h
  obtain ⟨_, _, _, _, h⟩ := h
  have h1 := loop_end h
  unfold step at h1
  rw [hs] at h1
  simp only [Option.bind_some, Option.bind_eq_some_iff] at h1
  obtain ⟨y, hy, h1⟩ := h1
  cases y with
  | some z => simp at h1
  | none =>
    intro x hx hg hnil
    obtain ⟨p', hp⟩ := scan_none hy x hx hg
    unfold canUngroup at hp
    split at hp
    next => cases hp
    next hh =>
      rw [hnil] at hh
      simpa [Forest.isEmpty] using hh

end Verif.Ungroup
