import Verif.Shade
/-
C72: what renderers see of the gradients of a document, and documents that differ only in gradients with the same paint.
-/
namespace Verif.Shade
open Verif.Dom Verif.Spec Verif.Render
open Verif.Paths (Transform Pt)

variable {P : Type} {π : Painter P}

/-! ### Gradients and their pictures -/

theorem plainAttr_own {n : Node} {a : AId} (ha : isOwn (.id a) = true) (h : ∀ v, n.get a = some v → v.target = none) (env : Env P) :
    plainAttr (own env n) a = n.get a := by
  unfold plainAttr own
  rw [if_pos ha]
  unfold Node.get at h ⊢
  cases hx : getAttr n.attrs (.id a) with
  | none => rfl
  | some y =>
    rw [hx] at h
    simp only [Option.map_some]
    unfold see
    rw [h _ rfl]

/-- What is seen of a `stop` element. -/
def nodeStop (s : Node) : StopLook := ⟨s.get .offset, (s.get .stopOpacity).getD (.number 1), (s.get .stopColor).getD (.color 0 0 0)⟩

theorem stop_draw {s : Node} (hk : s.kind = .elem .stop) (h : plainStop s = true) (env : Env P) (c : Ctx) (kids : List (Pic P)) :
    draw π env c s kids = π.paint .stop (own env s) (seenStyle env (c.enter s)) (c.enter s).ctm kids := by
  simp only [plainStop, Bool.and_eq_true, List.all_cons, List.all_nil, Bool.not_eq_true'] at h
  obtain ⟨h2, h4, h5, h6, h7, h8, _⟩ := h
  have hget : ∀ a, s.has a = false → s.get a = none := fun a ha => by rw [Node.has_eq] at ha; simpa using ha
  have hhid : hiddenBy s = false := by unfold hiddenBy; rw [hget _ h4]; rfl
  have hop : opacityOf s = 1 := by unfold opacityOf; rw [hget _ h5]
  have hal : allowed π s = true := by unfold allowed holds; rw [hget _ h6, hget _ h7, hget _ h8]; rfl
  unfold draw
  rw [hk, body_elem hk, Invisible.inner_plain h2, hhid, hop, hal, π.fade_one]
  rfl

theorem stopsOf_pics {ks : Forest} (h : ∀ s ∈ stopKids ks, plainStop s = true ∧ ∀ a ∈ stopAttrs, ∀ v, s.get a = some v → v.target = none)
    (env : Env P) (c : Ctx) : StopsOf π (pics π env c ks) ((stopKids ks).map nodeStop) := by
  induction ks generalizing c with
  | nil => exact .nil
  | cons n k r _ ih =>
    by_cases hn : n.kind = .elem .stop
    · have e : stopKids (.cons n k r) = n :: stopKids r := by simp [stopKids, Forest.top, hn]
      rw [e] at h ⊢
      obtain ⟨h1, h2⟩ := h n (by simp)
      simp only [pics, List.map_cons]
      rw [stop_draw hn h1, hn]
      have : nodeStop n = stopLook (own env n) := by
        unfold nodeStop stopLook
        rw [plainAttr_own (by decide) (h2 _ (by decide)), plainAttr_own (by decide) (h2 _ (by decide)), plainAttr_own (by decide) (h2 _ (by decide))]
      rw [this]
      exact .stop (ih (fun s hs => h s (List.mem_cons_of_mem _ hs)) c)
    · have e : stopKids (.cons n k r) = stopKids r := by simp [stopKids, Forest.top, hn]
      rw [e] at h ⊢
      exact .skip hn (ih h c)

/-- The look of a gradient of a document, as the standard describes it. -/
structure Looks (f : Forest) (n : Node) (l : GLook) : Prop where
  kind : n.kind = .elem l.kind
  attr : ∀ a, a ≠ .xlinkHref → isOwn (.id a) = true → Effective f a n (l.attr a)
  stops : ∃ ss, GStops f n ss ∧ l.stops = ss.map nodeStop

theorem Sheet.written {f : Forest} (h : Sheet f) {n : Node} (hn : n ∈ f.nodes) (a : AId) : written n a = n.get a :=
  Reader.written_visible (h.shown n hn) a

/-- What a renderer sees of a gradient is what the standard describes. -/
theorem shows_here {f : Forest} (hf : Sheet f) {rank : Nat → Nat} (hr : HrefRanked f rank) {n : Node} (hn : n ∈ f.nodes) (hg : n.isGradient = true)
    {d : Nat} (hd : rank n.key < d) : ∃ l, Shows π ((scene π f d).here n.key) l ∧ Looks f n l := by
  induction d generalizing n with
  | zero => cases hd
  | succ d ih =>
    obtain ⟨ks, hks⟩ := UnusedDefs.mem_subs_of_node hn
    obtain ⟨p, hp⟩ := Invisible.subs_spots hks (p := top)
    obtain ⟨c, e⟩ := Invisible.hereOf_spots hf.unique hp (π := π) (scene π f d) Ctx.start
    have hh : (scene π f (d + 1)).here n.key = body π (scene π f d) noVia c n (pics π (scene π f d) (c.enter n) ks) := by
      show (hereOf π (scene π f d) n.key Ctx.start f).getD _ = _
      rw [e]
      rfl
    have hkids := UnusedDefs.kidsOf_subs hf.unique hks
    have hst := hf.stops _ hks hg
    have hs : StopsOf π (pics π (scene π f d) (c.enter n) ks) ((stopKids ks).map nodeStop) :=
      stopsOf_pics (fun s hs => ⟨(hst s hs).1, (hst s hs).2.2⟩) _ _
    obtain ⟨e, he, hk⟩ := Invisible.grad_kind hg
    obtain ⟨e', he', hb⟩ := Invisible.grad_body (π := π) hg (hf.plain n hn hg) (scene π f d) noVia c (pics π (scene π f d) (c.enter n) ks)
    have hee : body π (scene π f d) noVia c n (pics π (scene π f d) (c.enter n) ks) =
        π.paint e (own (scene π f d) n) (seenStyle (scene π f d) (c.enter n)) (c.enter n).ctm (pics π (scene π f d) (c.enter n) ks) := by
      rw [body_elem hk, Invisible.inner_plain (hf.plain n hn hg)]
      rcases he with rfl | rfl <;> rfl
    rw [hh, hee]
    have hw := hf.written hn
    have hpl : ∀ a, a ≠ .xlinkHref → isOwn (.id a) = true → plainAttr (own (scene π f d) n) a = n.get a := fun a ha ho =>
      plainAttr_own ho (hf.words n hn hg a ha ho) _
    cases hx : n.get .xlinkHref with
    | none =>
      have ho : own (scene π f d) n (.id .xlinkHref) = none := by
        unfold own
        unfold Node.get at hx
        rw [if_pos (by decide)]
        cases hy : getAttr n.attrs (.id .xlinkHref) with
        | none => rfl
        | some y => rw [hy] at hx; cases hx
      refine ⟨_, .root he ho hs, hk, fun a ha ho => ?_, ?_⟩
      · dsimp only
        rw [hpl a ha ho]
        cases hv : n.get a with
        | none => exact .stop (by rw [hw, hv]) (by rw [hw, hx])
        | some v => exact .own (by rw [hw, hv])
      · by_cases hss : stopKids ks = []
        · exact ⟨[], .none hkids hss (by rw [hw, hx]), by simp [hss]⟩
        · exact ⟨_, .own hkids hss, rfl⟩
    | some v =>
      obtain ⟨t, ht, rfl, htg, hlt⟩ := hr n hn hg v (by rw [hw, hx])
      obtain ⟨l, h1, h2⟩ := ih ht htg (by omega)
      have ho : own (scene π f d) n (.id .xlinkHref) = some (.ref ((scene π f d).here t.key)) := by
        unfold own
        unfold Node.get at hx
        rw [if_pos (by decide)]
        cases hy : getAttr n.attrs (.id .xlinkHref) with
        | none => rw [hy] at hx; cases hx
        | some y =>
          rw [hy] at hx
          simp only [Option.map_some, Option.some.injEq] at hx ⊢
          unfold see
          rw [hx]
          rfl
      have hfind := Forest.find_of_mem hf.unique ht
      refine ⟨_, .more he ho h1 hs, hk, fun a ha ho => ?_, ?_⟩
      · dsimp only
        rw [hpl a ha ho]
        cases hv : n.get a with
        | none => exact .ref (by rw [hw, hv]) (by rw [hw, hx]) hfind (h2.attr a ha ho)
        | some v => exact .own (by rw [hw, hv])
      · obtain ⟨ss, g1, g2⟩ := h2.stops
        by_cases hss : stopKids ks = []
        · exact ⟨ss, .ref hkids hss (by rw [hw, hx]) hfind g1, by simp [hss, g2]⟩
        · exact ⟨_, .own hkids hss, by simp [hss]⟩

/-! ### Looks and the standard's values -/

theorem own_of_attrs {k : Kind} {a : AId} (h : a ∈ gradientAttrs k) : a ≠ .xlinkHref ∧ isOwn (.id a) = true := by
  unfold gradientAttrs at h
  split at h
  · revert a; decide
  · revert a; decide
  · cases h

theorem Looks.plain {f : Forest} {n : Node} {l : GLook} (h : Looks f n l) {a : AId} (h1 : a ≠ .xlinkHref) (h2 : isOwn (.id a) = true) (v : Value) :
    PlainValue f n a v ↔ l.plain a = some v := by
  have he := h.attr a h1 h2
  unfold PlainValue GLook.plain
  rw [← h.kind]
  cases hl : l.attr a with
  | none =>
    rw [hl] at he
    constructor
    · rintro (g | ⟨_, g⟩)
      · cases g.unique he
      · exact g
    · exact fun g => .inr ⟨he, g⟩
  | some w =>
    rw [hl] at he
    constructor
    · rintro (g | ⟨g, _⟩)
      · cases g.unique he; rfl
      · cases g.unique he
    · intro g
      cases g
      exact .inl he

theorem centre_own {a c : AId} (h : centreOf a = some c) : c ≠ .xlinkHref ∧ isOwn (.id c) = true := by
  unfold centreOf at h
  split at h <;> cases h <;> decide

theorem Looks.value {f : Forest} {n : Node} {l : GLook} (h : Looks f n l) {a : AId} (h1 : a ≠ .xlinkHref) (h2 : isOwn (.id a) = true) (v : Value) :
    GradientValue f n a v ↔ l.value a = some v := by
  unfold GradientValue GLook.value
  rw [h.plain h1 h2]
  cases hc : centreOf a with
  | none => simp
  | some c =>
    obtain ⟨c1, c2⟩ := centre_own hc
    have he := h.attr a h1 h2
    have hp : l.plain a = l.attr a := by
      unfold GLook.plain
      rw [gradientDefault_focal hc, Option.or_none]
    rw [hp]
    have hk : n.kind = .elem .radialGradient ↔ l.kind = .radialGradient := by rw [h.kind]; simp
    simp only [Option.some.injEq, exists_eq_left', hk, h.plain c1 c2]
    by_cases hr : l.kind = .radialGradient
    · simp only [hr, if_true, true_and]
      cases hl : l.attr a with
      | none =>
        rw [hl] at he
        simp only [Option.none_or, reduceCtorEq, false_or]
        exact ⟨fun g => g.2, fun g => ⟨he, g⟩⟩
      | some w =>
        rw [hl] at he
        simp only [Option.some_or, or_iff_left_iff_imp]
        rintro ⟨g, _⟩
        cases g.unique he
    · simp [hr]

theorem Looks.values_eq {f g : Forest} {n m : Node} {l l' : GLook} (h : Looks f n l) (h' : Looks g m l') {a : AId} (h1 : a ≠ .xlinkHref) (h2 : isOwn (.id a) = true)
    (hv : ∀ v, GradientValue f n a v ↔ GradientValue g m a v) : l.value a = l'.value a := by
  refine Option.ext fun v => ?_
  rw [← h.value h1 h2, ← h'.value h1 h2, hv]

theorem Looks.moved {f : Forest} {n : Node} {l : GLook} (h : Looks f n l) (T : Transform) : GTransform f n T ↔ l.Moved T := by
  have he := h.attr .gradientTransform (by decide) (by decide)
  unfold GTransform GLook.Moved
  have : ∀ v, Effective f .gradientTransform n v ↔ l.attr .gradientTransform = v := fun v => ⟨fun g => he.unique g, fun g => g ▸ he⟩
  rw [this, this]

theorem forall2_map {s t : List Node} {f g : Forest} (h : List.Forall₂ (fun s t => StopSame f s g t) s t) : s.map nodeStop = t.map nodeStop := by
  induction h with
  | nil => rfl
  | cons h _ ih => simp only [List.map_cons, ih]; unfold nodeStop; rw [h.offset, h.opacity, h.colour]

theorem gradient_eid {n : Node} {e : EId} (hg : n.isGradient = true) (hk : n.kind = .elem e) : e = .linearGradient ∨ e = .radialGradient := by
  obtain ⟨e', he, h⟩ := Invisible.grad_kind hg
  rw [hk] at h
  cases h
  exact he

theorem Looks.stops_eq {f g : Forest} {n m : Node} {l l' : GLook} (h : Looks f n l) (h' : Looks g m l')
    (hp : ∃ s t, GStops f n s ∧ GStops g m t ∧ List.Forall₂ (fun s t => StopSame f s g t) s t) : l.stops = l'.stops := by
  obtain ⟨s, s', a1, a2, a3⟩ := hp
  obtain ⟨t, b1, b2⟩ := h.stops
  obtain ⟨t', c1, c2⟩ := h'.stops
  rw [b2, c2, b1.unique a1, c1.unique a2, forall2_map a3]

/-- Gradients whose attributes and stops are the same give the same paint. -/
theorem Looks.alike_of {f g : Forest} {n m : Node} {l l' : GLook} (hg : n.isGradient = true) (h : Looks f n l) (h' : Looks g m l') (hk : n.kind = m.kind)
    (hvv : ∀ a ∈ gradientAttrs n.kind, a ≠ .gradientTransform → ∀ v, GradientValue f n a v ↔ GradientValue g m a v)
    (hmm : ∀ T, GTransform f n T ↔ GTransform g m T) (hs : l.stops = l'.stops) : Alike l l' := by
  have hk : l.kind = l'.kind := by
    rw [h.kind, h'.kind] at hk
    exact Kind.elem.inj hk
  have hv : ∀ a ∈ gradientAttrs n.kind, a ≠ .gradientTransform → l.value a = l'.value a := fun a ha hne =>
    h.values_eq h' (own_of_attrs ha).1 (own_of_attrs ha).2 (hvv a ha hne)
  have hm : ∀ T, l.Moved T ↔ l'.Moved T := fun T => by rw [← h.moved, ← h'.moved, hmm]
  have hkind := h.kind
  rcases gradient_eid hg h.kind with e | e
  all_goals
    rw [e] at hkind
    rw [hkind] at hv
  · refine ⟨hk, hv _ (by decide) (by decide), hv _ (by decide) (by decide), hs, fun u q t => ?_⟩
    unfold GLook.At GLook.Coord
    rw [← hk, e, hv .x1 (by decide) (by decide), hv .y1 (by decide) (by decide), hv .x2 (by decide) (by decide), hv .y2 (by decide) (by decide)]
    simp only [hm, reduceCtorEq, false_and, or_false, true_and]
  · refine ⟨hk, hv _ (by decide) (by decide), hv _ (by decide) (by decide), hs, fun u q t => ?_⟩
    unfold GLook.At GLook.Coord
    rw [← hk, e, hv .cx (by decide) (by decide), hv .cy (by decide) (by decide), hv .r (by decide) (by decide), hv .fx (by decide) (by decide), hv .fy (by decide) (by decide)]
    simp only [hm, reduceCtorEq, false_and, false_or, true_and]

/-- Gradients that are the same paint in the sense of C32, C33 and C40 give the same paint. -/
theorem Looks.alike {f g : Forest} {n m : Node} {l l' : GLook} (hg : n.isGradient = true) (h : Looks f n l) (h' : Looks g m l') (hp : PaintSame f n g m) : Alike l l' :=
  h.alike_of hg h' hp.kind hp.values hp.transform (h.stops_eq h' hp.stops)

/-- A value that is found belongs to a gradient. -/
theorem effective_mem {f : Forest} (hu : f.UniqueKeys) {rank : Nat → Nat} (hr : HrefRanked f rank) {n : Node} (hn : n ∈ f.nodes) (hg : n.isGradient = true) {a : AId}
    {w : Option Value} (h : Effective f a n w) {v : Value} (hw : w = some v) : ∃ m ∈ f.nodes, m.isGradient = true ∧ Spec.written m a = some v := by
  induction h with
  | own h => cases hw; exact ⟨_, hn, hg, h⟩
  | ref h1 h2 h3 _ ih =>
    obtain ⟨t, ht, e, htg, _⟩ := hr _ hn hg _ h2
    cases e
    rw [Forest.find_of_mem hu ht] at h3
    cases h3
    exact ih ht htg hw
  | stop => cases hw

theorem gstops_mem {f : Forest} (hu : f.UniqueKeys) {rank : Nat → Nat} (hr : HrefRanked f rank) {n : Node} (hn : n ∈ f.nodes) (hg : n.isGradient = true)
    {l : List Node} (h : GStops f n l) {s : Node} (hs : s ∈ l) : ∃ x ∈ subs f, x.1.isGradient = true ∧ s ∈ stopKids x.2 := by
  induction h with
  | own h1 _ =>
    obtain ⟨m, e, hm⟩ := UnusedDefs.subs_kidsOf h1
    have := Forest.eq_of_key hu (UnusedDefs.node_of_subs hm) hn e
    dsimp only at this
    exact ⟨_, hm, this ▸ hg, hs⟩
  | ref _ _ h2 h3 _ ih =>
    obtain ⟨t, ht, e, htg, _⟩ := hr _ hn hg _ h2
    cases e
    rw [Forest.find_of_mem hu ht] at h3
    cases h3
    exact ih ht htg hs
  | none => cases hs

theorem Sheet.sound {f : Forest} (hf : Sheet f) {n : Node} (hn : n ∈ f.nodes) (hg : n.isGradient = true) {l : GLook} (h : Looks f n l) : l.Sound := by
  obtain ⟨rank, hr⟩ := hf.href
  have found : ∀ a v, a ≠ .xlinkHref → isOwn (.id a) = true → l.attr a = some v → ∃ m ∈ f.nodes, m.isGradient = true ∧ m.get a = some v := by
    intro a v h1 h2 hv
    obtain ⟨m, hm, hmg, hw⟩ := effective_mem hf.unique hr hn hg (h.attr a h1 h2) hv
    exact ⟨m, hm, hmg, by rw [← hf.written hm]; exact hw⟩
  have len : ∀ a ∈ [AId.x1, .y1, .x2, .y2, .cx, .cy, .r, .fx, .fy], ∀ v, l.attr a = some v → ∃ x, v = .length x := by
    intro a ha v hv
    obtain ⟨m, hm, hmg, hw⟩ := found a v (by clear hv; revert a; decide) (by clear hv; revert a; decide) hv
    exact hf.coords m hm hmg a ha v hw
  have pl : ∀ a ∈ [AId.x1, .y1, .x2, .y2, .cx, .cy, .r], (∃ x, gradientDefault (.elem l.kind) a = some (.length x)) → ∃ x, l.plain a = some (.length x) := by
    rintro a ha ⟨x, hx⟩
    unfold GLook.plain
    cases hv : l.attr a with
    | none => exact ⟨x, hx⟩
    | some v =>
      obtain ⟨y, rfl⟩ := len a (by clear hv; simp only [List.mem_cons, List.not_mem_nil, or_false] at ha ⊢; tauto) v hv
      exact ⟨y, rfl⟩
  refine ⟨?_, ?_, ?_⟩
  · rcases gradient_eid hg h.kind with e | e
    · rw [e] at pl ⊢
      intro a ha
      simp only [ApplyTs.gcoords, List.mem_cons, List.not_mem_nil, or_false] at ha
      rcases ha with rfl | rfl | rfl | rfl <;> exact pl _ (by decide) ⟨_, rfl⟩
    · rw [e] at pl
      intro a ha
      rw [e] at ha
      have focal : ∀ a c, centreOf a = some c → a ∈ [AId.fx, .fy] → (∃ x, l.plain c = some (.length x)) → ∃ x, l.value a = some (.length x) := by
        rintro a c hc ha ⟨x, hx⟩
        unfold GLook.value
        rw [hc]
        simp only [e, if_true]
        cases hv : l.attr a with
        | none => exact ⟨x, hx⟩
        | some v =>
          obtain ⟨y, rfl⟩ := len a (by clear hv; simp only [List.mem_cons, List.not_mem_nil, or_false] at ha ⊢; tauto) v hv
          exact ⟨y, rfl⟩
      simp only [ApplyTs.gcoords, List.mem_cons, List.not_mem_nil, or_false] at ha
      rcases ha with rfl | rfl | rfl | rfl | rfl
      · exact pl _ (by decide) ⟨_, rfl⟩
      · exact pl _ (by decide) ⟨_, rfl⟩
      · exact focal _ .cx rfl (by decide) (pl _ (by decide) ⟨_, rfl⟩)
      · exact focal _ .cy rfl (by decide) (pl _ (by decide) ⟨_, rfl⟩)
      · exact pl _ (by decide) ⟨_, rfl⟩
  · unfold GLook.Moved
    cases hv : l.attr .gradientTransform with
    | none => exact ⟨one, .inr ⟨rfl, rfl⟩⟩
    | some v =>
      obtain ⟨m, hm, hmg, hw⟩ := found _ v (by decide) (by decide) hv
      obtain ⟨T, rfl⟩ := hf.moved m hm hmg v hw
      exact ⟨T, .inl rfl⟩
  · obtain ⟨ss, h1, h2⟩ := h.stops
    rw [h2]
    intro s hs
    obtain ⟨t, ht, rfl⟩ := List.mem_map.1 hs
    obtain ⟨x, hx, hxg, hk⟩ := gstops_mem hf.unique hr hn hg h1 ht
    have hc := (hf.stops x hx hxg t hk).2.1
    unfold nodeStop
    dsimp only
    cases hv : t.get .stopColor with
    | none => simp
    | some v => rw [hv] at hc; simpa using hc

/-! ### Documents that differ only in their gradients -/

/-- The contexts are the same but for the references, which are changed by `ρ`. -/
structure CtxLike (ρ : Nat → Nat) (U : Nat → Prop) (c c' : Ctx) : Prop where
  ctm : c'.ctm = c.ctm
  style : ∀ a, c'.style a = (c.style a).map (renameValue ρ)
  links : ∀ a v k, c.style a = some v → v.target = some k → (a = .fill ∨ a = .stroke) ∧ U k

/-- The references of an element. -/
def Tame (U : Nat → Prop) (n : Node) : Prop := ∀ x ∈ n.attrs, ∀ k, x.value.target = some k → (x.name = .id .fill ∨ x.name = .id .stroke) ∧ isElem n.kind = true ∧ U k

section
variable {ρ : Nat → Nat} {U : Nat → Prop}

theorem Tame.get {n : Node} (h : Tame U n) {a : AId} {v : Value} (hv : n.get a = some v) {k : Nat} (hk : v.target = some k) : (a = .fill ∨ a = .stroke) ∧ isElem n.kind = true ∧ U k := by
  unfold Node.get at hv
  cases hx : getAttr n.attrs (.id a) with
  | none => rw [hx] at hv; cases hv
  | some y =>
    rw [hx] at hv
    cases hv
    have hm := getAttr_mem hx
    have hn := getAttr_name hx
    have := h y hm k hk
    rw [hn] at this
    simpa using this

theorem Tame.plain {n : Node} (h : Tame U n) {a : AId} (ha : a ≠ .fill) (hb : a ≠ .stroke) : (rename ρ n).get a = n.get a := by
  rw [get_rename]
  cases hv : n.get a with
  | none => rfl
  | some v =>
    have : v.target = none := by
      cases ht : v.target with
      | none => rfl
      | some k => exact absurd (h.get hv ht).1 (by simp [ha, hb])
    simp [renameValue_none ρ this]

theorem inherit_rename (v : Value) : renameValue ρ v = .kw .inherit ↔ v = .kw .inherit := by cases v <;> simp [renameValue]

theorem CtxLike.enter {c c' : Ctx} (h : CtxLike ρ U c c') {n : Node} (hn : Tame U n) : CtxLike ρ U (c.enter n) (c'.enter (rename ρ n)) := by
  refine ⟨?_, fun a => ?_, fun a v k hv hk => ?_⟩
  · unfold Ctx.enter
    dsimp only
    rw [rename_kind, h.ctm]
    unfold nodeTransform
    rw [hn.plain (by decide) (by decide)]
  · unfold Ctx.enter
    dsimp only
    split
    · rw [get_rename]
      cases hv : n.get a with
      | none => exact h.style a
      | some v =>
        simp only [Option.map_some]
        by_cases hi : v = .kw .inherit
        · rw [if_pos hi, if_pos ((inherit_rename v).2 hi)]; exact h.style a
        · rw [if_neg hi, if_neg (fun e => hi ((inherit_rename v).1 e))]; rfl
    · rfl
  · unfold Ctx.enter at hv
    dsimp only at hv
    split at hv
    · cases hg : n.get a with
      | none => rw [hg] at hv; exact h.links a v k hv hk
      | some w =>
        rw [hg] at hv
        dsimp only at hv
        split at hv
        · exact h.links a v k hv hk
        · cases hv
          obtain ⟨h1, _, h2⟩ := hn.get hg hk
          exact ⟨h1, h2⟩
    · cases hv

variable {env env' : Env P}

/-- The style, seen in the two documents. -/
theorem seen_like {c c' : Ctx} (h : CtxLike ρ U c c') (he : ∀ k, U k → SamePaint π (env.here k) (env'.here (ρ k))) {R : Type} (F : Style P → R)
    (hF : ∀ st a q r, (a = AId.fill ∨ a = .stroke) → st a = some (.ref q) → SamePaint π q r → F st = F (Function.update st a (some (.ref r)))) :
    F (seenStyle env c) = F (seenStyle env' c') := by
  have one : ∀ st : Style P, ∀ a, a = AId.fill ∨ a = .stroke → st a = seenStyle env c a → F st = F (Function.update st a (seenStyle env' c' a)) := by
    intro st a ha hst
    unfold seenStyle at hst ⊢
    rw [h.style a]
    cases hv : c.style a with
    | none => rw [hv] at hst; conv => lhs; rw [← Function.update_eq_self a st, hst]
              rfl
    | some v =>
      rw [hv] at hst
      simp only [Option.map_some] at hst ⊢
      cases ht : v.target with
      | none =>
        have : see env v = see env' (renameValue ρ v) := by
          rw [renameValue_none ρ ht]
          unfold see
          rw [ht]
        rw [← this]
        conv => lhs; rw [← Function.update_eq_self a st, hst]
      | some k =>
        obtain ⟨_, hk⟩ := h.links a v k hv ht
        have e1 : see env v = .ref (env.here k) := by unfold see; rw [ht]
        have e2 : see env' (renameValue ρ v) = .ref (env'.here (ρ k)) := by unfold see; rw [renameValue_target, ht]; rfl
        rw [e2]
        rw [e1] at hst
        exact hF st a _ _ ha hst (he k hk)
  rw [one (seenStyle env c) .fill (.inl rfl) rfl, one _ .stroke (.inr rfl) (by rw [Function.update_of_ne (by decide)])]
  congr 1
  funext a
  by_cases h1 : a = .stroke
  · subst h1; rw [Function.update_self]
  · rw [Function.update_of_ne h1]
    by_cases h2 : a = .fill
    · subst h2; rw [Function.update_self]
    · rw [Function.update_of_ne h2]
      unfold seenStyle
      rw [h.style a]
      cases hv : c.style a with
      | none => rfl
      | some v =>
        have ht : v.target = none := by
          cases ht : v.target with
          | none => rfl
          | some k => exact absurd (h.links a v k hv ht).1 (by simp [h1, h2])
        simp only [Option.map_some]
        rw [renameValue_none ρ ht]
        unfold see
        rw [ht]

theorem see_like {n : Node} (h : Tame U n) {x : AName} (hx : x ≠ .id .fill) (hy : x ≠ .id .stroke) :
    (getAttr (rename ρ n).attrs x).map (fun y => see env' y.value) = (getAttr n.attrs x).map (fun y => see env y.value) := by
  rw [getAttr_rename]
  cases hv : getAttr n.attrs x with
  | none => rfl
  | some y =>
    have ht : y.value.target = none := by
      cases ht : y.value.target with
      | none => rfl
      | some k =>
        have := (h y (getAttr_mem hv) k ht).1
        rw [getAttr_name hv] at this
        exact absurd this (by simp [hx, hy])
    simp only [Option.map_some]
    rw [renameValue_none ρ ht]
    unfold see
    rw [ht]

theorem own_like {n : Node} (h : Tame U n) : own env' (rename ρ n) = own env n := by
  funext x
  unfold own
  split
  next hx => exact see_like h (by rintro rfl; exact absurd hx (by decide)) (by rintro rfl; exact absurd hx (by decide))
  · rfl

theorem all_like {n : Node} (h : Tame U n) (he : isElem n.kind = false) :
    (fun x => (getAttr (rename ρ n).attrs x).map (fun y => see env' y.value)) = fun x => (getAttr n.attrs x).map (fun y => see env y.value) := by
  funext x
  rw [getAttr_rename]
  cases hv : getAttr n.attrs x with
  | none => rfl
  | some y =>
    have ht : y.value.target = none := by
      cases ht : y.value.target with
      | none => rfl
      | some k =>
        have := (h y (getAttr_mem hv) k ht).2.1
        rw [he] at this
        cases this
    simp only [Option.map_some]
    rw [renameValue_none ρ ht]
    unfold see
    rw [ht]

theorem func_like {n : Node} (h : Tame U n) {a : AId} (ha : a ≠ .fill) (hb : a ≠ .stroke) : seenAttr env' (rename ρ n) a = seenAttr env n a := by
  unfold seenAttr
  rw [h.plain ha hb]
  cases hv : n.get a with
  | none => rfl
  | some v =>
    have ht : v.target = none := by
      cases ht : v.target with
      | none => rfl
      | some k => exact absurd (h.get hv ht).1 (by simp [ha, hb])
    simp only [Option.map_some]
    cases v <;> first | rfl | cases ht

theorem allowed_like {n : Node} (h : Tame U n) : allowed π (rename ρ n) = allowed π n := by
  unfold allowed holds
  rw [h.plain (by decide) (by decide), h.plain (by decide) (by decide), h.plain (by decide) (by decide)]

theorem use_like {n : Node} (h : Tame U n) (c c' : Ctx) : useOf π env' c' (rename ρ n) = useOf π env c n := by
  unfold useOf
  rw [h.plain (by decide) (by decide)]
  cases hv : n.get .xlinkHref with
  | none => rfl
  | some v =>
    cases v <;> first | rfl | exact absurd (h.get hv rfl).1 (by decide)

theorem core_like (hπ : Shades π) (he : ∀ k, U k → SamePaint π (env.here k) (env'.here (ρ k))) {n : Node} (h : Tame U n) {c c' : Ctx} (hc : CtxLike ρ U c c') (via : Attrs P)
    (e : EId) (kids : List (Pic P)) : core π env' via c' (rename ρ n) e kids = core π env via c n e kids := by
  unfold core
  rw [use_like h c c', own_like (env := env) h, hc.ctm]
  have hp : ∀ l, π.paint e (own env n) (seenStyle env' c') c.ctm l = π.paint e (own env n) (seenStyle env c) c.ctm l := fun l =>
    (seen_like hc he (fun st => π.paint e (own env n) st c.ctm l) fun st a q r ha hst hq => hπ.paint e _ st _ l a q r ha hst hq).symm
  rw [hp, hp]

theorem draw_like (hπ : Shades π) (he : ∀ k, U k → SamePaint π (env.here k) (env'.here (ρ k))) {n : Node} (h : Tame U n) {c c' : Ctx} (hc : CtxLike ρ U c c')
    (kids : List (Pic P)) : draw π env' c' (rename ρ n) kids = draw π env c n kids := by
  unfold draw
  rw [rename_kind]
  split
  · rfl
  · have hen := hc.enter h
    unfold body
    rw [rename_kind]
    cases hk : n.kind with
    | text s =>
      dsimp only
      rw [hc.ctm]
      exact (seen_like hc he (fun st => π.chars s st c.ctm) fun st a q r ha hst hq => hπ.chars s st _ a q r ha hst hq).symm
    | comment s => rfl
    | other s =>
      dsimp only
      rw [hc.ctm, all_like (env := env) h (by rw [hk]; rfl)]
      exact (seen_like hen he (fun st => π.foreign s _ st c.ctm kids) fun st a q r ha hst hq => hπ.foreign s _ st _ kids a q r ha hst hq).symm
    | elem e =>
      dsimp only
      rw [func_like (env := env) h (by decide) (by decide), func_like (env := env) h (by decide) (by decide), func_like (env := env) h (by decide) (by decide), hen.ctm,
        core_like hπ he h hen, allowed_like h]
      unfold hiddenBy opacityOf
      rw [h.plain (by decide) (by decide), h.plain (by decide) (by decide)]

theorem pics_like (hπ : Shades π) (he : ∀ k, U k → SamePaint π (env.here k) (env'.here (ρ k))) {f : Forest} (h : ∀ n ∈ f.nodes, Tame U n) {c c' : Ctx} (hc : CtxLike ρ U c c') :
    pics π env' c' (f.map (rename ρ)) = pics π env c f := by
  induction f generalizing c c' with
  | nil => rfl
  | cons n k r ihk ihr =>
    have hn := h n (by simp [Forest.nodes])
    simp only [Forest.map, pics]
    rw [ihr (fun m hm => h m (by simp [Forest.nodes, hm])) hc, ihk (fun m hm => h m (by simp [Forest.nodes, hm])) (hc.enter hn), draw_like hπ he hn hc, allowed_like hn]
    rfl

end

theorem pics_fringe {p : Kind} {f : Forest} (h : ∀ z ∈ fringe p f, gone z.1 z.2 = true) (env : Env P) (c : Ctx) :
    Skip π p (pics π env c f) (pics π env c (drawn f)) := by
  induction f generalizing p c with
  | nil => exact .nil
  | cons n k r ihk ihr =>
    unfold drawn
    unfold fringe at h
    split at h
    next hq =>
      rw [if_pos hq]
      exact .drop _ (h (p, n.kind) (by simp)) (.inr (by simp [draw, hq])) (ihr (fun z hz => h z (by simp [hz])) c)
    next hq =>
      rw [if_neg hq]
      simp only [pics]
      have : draw π env c n (pics π env (c.enter n) k) = draw π env c n (pics π env (c.enter n) (drawn k)) := by
        unfold draw
        rw [if_neg hq, if_neg hq]
        exact body_skip (ihk (fun z hz => h z (by simp [hz])) _) env noVia c
      rw [this]
      exact .keep _ (ihr (fun z hz => h z (by simp [hz])) c)

theorem Sheet.stack {f : Forest} (h : Sheet f) (env : Env P) (c : Ctx) : stack π isElem (pics π env c f) = stack π isElem (pics π env c (drawn f)) := by
  exact (pics_fringe h.place env c).stack (by decide) _

/-- **Documents whose drawn elements are the same, but for references to gradients that give the same paint, are drawn the same.** -/
theorem shade_of {f g : Forest} {ρ : Nat → Nat} (hf : Sheet f) (hg : Sheet g) (hd : drawn g = (drawn f).map (rename ρ))
    (hp : ∀ n ∈ f.nodes, n.isGradient = true → (∃ x ∈ (drawn f).nodes, n.key ∈ x.links) → ∃ m ∈ g.nodes, m.key = ρ n.key ∧ m.isGradient = true ∧
      ∀ l l', Looks f n l → Looks g m l' → Alike l l') : SameShade f g := by
  intro P π hπ
  obtain ⟨rf, hrf⟩ := hf.href
  obtain ⟨rg, hrg⟩ := hg.href
  obtain ⟨D, hD⟩ : ∃ D, (∀ n ∈ f.nodes, rf n.key < D) ∧ ∀ n ∈ g.nodes, rg n.key < D := by
    have bound : ∀ (r : Nat → Nat) (l : List Node), ∃ D, ∀ n ∈ l, r n.key < D := by
      intro r l
      induction l with
      | nil => exact ⟨0, by simp⟩
      | cons a l ih =>
        obtain ⟨D, hD⟩ := ih
        refine ⟨max D (r a.key + 1), fun n hn => ?_⟩
        rcases List.mem_cons.1 hn with rfl | hn
        · exact lt_of_lt_of_le (Nat.lt_succ_self _) (le_max_right _ _)
        · exact lt_of_lt_of_le (hD n hn) (le_max_left _ _)
    obtain ⟨A, hA⟩ := bound rf f.nodes
    obtain ⟨B, hB⟩ := bound rg g.nodes
    exact ⟨max A B, fun n hn => lt_of_lt_of_le (hA n hn) (le_max_left _ _), fun n hn => lt_of_lt_of_le (hB n hn) (le_max_right _ _)⟩
  refine ⟨D, fun d hd' => ?_⟩
  unfold picture
  rw [hf.stack, hg.stack, hd]
  congr 1
  refine (pics_like (U := fun k => ∃ x ∈ (drawn f).nodes, k ∈ x.links) hπ ?_ ?_ ⟨rfl, fun _ => rfl, fun _ _ _ h => by cases h⟩).symm
  · rintro k ⟨x, hx, hk⟩
    obtain ⟨y, hy, ht⟩ := Node.mem_links.1 hk
    obtain ⟨_, _, n, hn, rfl, hng⟩ := hf.links x hx y hy k ht
    obtain ⟨m, hm, e, hmg, hl⟩ := hp n hn hng ⟨x, hx, hk⟩
    obtain ⟨l, h1, h2⟩ := shows_here (π := π) hf hrf hn hng (lt_of_lt_of_le (hD.1 n hn) hd')
    obtain ⟨l', h3, h4⟩ := shows_here (π := π) hg hrg hm hmg (lt_of_lt_of_le (hD.2 m hm) hd')
    rw [e] at h3
    exact ⟨l, l', h1, h3, hf.sound hn hng h2, hg.sound hm hmg h4, hl l l' h2 h4⟩
  · intro n hn x hx k hk
    obtain ⟨h1, h2, _⟩ := hf.links n hn x hx k hk
    exact ⟨h1, h2, n, hn, Node.mem_links.2 ⟨x, hx, hk⟩⟩

end Verif.Shade
