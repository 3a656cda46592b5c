import Verif.CrashResolve
/-
C53: the stops of gradients are resolved and invalid attributes are fixed.
-/
namespace Verif.Crash
open Verif.Dom Verif.Spec
open Verif.Dom (Res)
open Verif.Pipeline

variable {C : Ctx}

/-! ### Stops -/

section
open Verif.Stops

theorem grow_offset (n : Node) (l : Len) : Grow C n (n.set .offset (.length l)) := Grow.put n (x := ⟨.id .offset, .length l, true⟩) (AttrOk.free rfl rfl) rfl

theorem attrOk_stopColor (n : Node) (r g b : Nat) : AttrOk C n (.id .stopColor) (.color r g b) :=
  ⟨⟨fun e => (by cases e), fun _ => ⟨r, g, b, rfl⟩, fun e => (by cases e), fun _ e => (by cases e), fun _ k e => (by cases e), fun _ e => (by cases e), fun _ => rfl⟩,
    fun e => (by cases e), fun e => (by cases e), fun e => (by cases e), fun e => (by cases e), fun e => (by cases e), fun k e => (by cases e)⟩

theorem attrOk_stopOpacity (n : Node) (q : ℚ) : AttrOk C n (.id .stopOpacity) (.number q) :=
  ⟨⟨fun e => (by cases e), fun e => (by cases e), fun _ => ⟨q, rfl⟩, fun _ e => (by cases e), fun _ k e => (by cases e), fun _ e => (by cases e), fun _ => rfl⟩,
    fun e => (by cases e), fun e => (by cases e), fun e => (by cases e), fun e => (by cases e), fun e => (by cases e), fun k e => (by cases e)⟩

theorem grow_setDefault (n : Node) {a : AId} {v : Value} (h : AttrOk C n (.id a) v) (hv : v.target = none) : Grow C n (setDefault n a v) := by
  unfold setDefault
  split
  · exact Grow.refl n
  · exact Grow.put n (x := ⟨.id a, v, false⟩) h hv

theorem has_setDefault (n : Node) (a : AId) (v : Value) : (setDefault n a v).has a = true := by
  unfold setDefault
  split
  next h => exact h
  · rw [has_iff]
    refine ⟨⟨.id a, v, false⟩, ?_, rfl⟩
    have : getAttr (setHidden n a v).attrs (.id a) = some ⟨.id a, v, false⟩ := by rw [Gradients.getAttr_setHidden, if_pos rfl]
    exact List.mem_of_find?_eq_some this

theorem grow_stopDefaults (n : Node) : Grow C n (stopDefaults n) :=
  (grow_setDefault n (attrOk_stopColor n 0 0 0) rfl).trans (grow_setDefault _ (attrOk_stopOpacity _ 1) rfl)

theorem has_stopDefaults (n : Node) : ∀ a ∈ [AId.stopColor, .stopOpacity], (stopDefaults n).has a = true := by
  intro a ha
  simp only [List.mem_cons, List.not_mem_nil, or_false] at ha
  rcases ha with rfl | rfl
  · exact (grow_setDefault (C := ⟨0, 0, fun _ => .elem .g, fun _ => 0, fun _ => False, False, False, 0, False⟩) _ (attrOk_stopOpacity _ 1) rfl).has _ (has_setDefault _ _ _)
  · exact has_setDefault _ _ _

theorem resolveStop_some {b : Bool} {n m : Node} (h : resolveStop b n = .ok m) : ∃ n', Grow C n n' ∧ m = stopDefaults n' := by
  unfold resolveStop at h
  cases hg : n.get .offset with
  | none =>
    rw [hg] at h
    cases b <;> cases h
    exact ⟨_, grow_offset n _, rfl⟩
  | some v =>
    rw [hg] at h
    cases v with
    | length l =>
      cases h
      by_cases hp : l.unit = .percent
      · rw [if_pos hp]; exact ⟨_, grow_offset n _, rfl⟩
      · rw [if_neg hp]; exact ⟨_, Grow.refl n, rfl⟩
    | _ => cases b <;> cases h <;> exact ⟨_, grow_offset n _, rfl⟩

theorem grow_resolveStopKids {b : Bool} {f g : Forest} (h : resolveStopKids b f = .ok g) : Along (Grow C) f g := by
  induction f generalizing b g with
  | nil => cases h; exact .nil
  | cons n k r _ ih =>
    rw [resolveStopKids] at h
    obtain ⟨n', h1, h⟩ := bind_ok.1 h
    obtain ⟨r', h2, h⟩ := bind_ok.1 h
    cases h
    obtain ⟨m, hm, rfl⟩ := resolveStop_some (C := C) h1
    exact .cons (hm.trans (grow_stopDefaults m)) (Along.refl Grow.refl _) (ih h2)

theorem grow_resolveStops (s : Nat) {f g : Forest} (hs : size f ≤ s) (h : resolveStops f = .ok g) : Along (Grow C) f g := by
  induction s generalizing f g with
  | zero => cases f with
    | nil => rw [resolveStops] at h; cases h; exact .nil
    | cons n k r => simp [size] at hs
  | succ s ih => cases f with
    | nil => rw [resolveStops] at h; cases h; exact .nil
    | cons n k r =>
      rw [resolveStops_cons] at h
      obtain ⟨k1, h1, h⟩ := bind_ok.1 h
      obtain ⟨k2, h2, h⟩ := bind_ok.1 h
      obtain ⟨r', h3, h⟩ := bind_ok.1 h
      cases h
      simp only [size] at hs
      have hk : size k1 = size k ∧ Along (Grow C) k k1 := by
        split at h1
        · exact ⟨resolveStopKids_size h1, grow_resolveStopKids h1⟩
        · cases h1; exact ⟨rfl, Along.refl Grow.refl _⟩
      exact .cons (Grow.refl n) (grow_trans hk.2 (ih (by omega) h2)) (ih (by omega) h3)

/-- The stops of gradients have a color and an opacity. -/
def Stocked (f : Forest) : Prop := ∀ x ∈ subs f, gradKind x.1.kind = true → ∀ m ∈ x.2.top, ∀ a ∈ [AId.stopColor, .stopOpacity], m.has a = true

theorem stocked_of {f g : Forest} (h : resolveStops f = .ok g) : Stocked g := by
  intro y hy hg m hm a ha
  obtain ⟨x, hx, h1, h2, h3, _⟩ := forall2_right (C57_resolved h).1 hy
  rw [h2, gradKind_eq] at hg
  have h3 := h3 hg
  have key : ∃ c, StopResolved c m := by
    cases hx2 : x.2.top with
    | nil =>
      cases hy2 : y.2.top with
      | nil => rw [hy2] at hm; cases hm
      | cons _ _ => rw [hx2, hy2] at h3; cases h3
    | cons c cs =>
      cases hy2 : y.2.top with
      | nil => rw [hy2] at hm; cases hm
      | cons c' cs' =>
        rw [hx2, hy2] at h3
        rw [hy2] at hm
        rcases List.mem_cons.1 hm with rfl | hm
        · exact ⟨c, h3.1⟩
        · obtain ⟨d, _, _, hd⟩ := Simple.forall₂_mem_right h3.2.2 hm
          exact ⟨d, hd⟩
  obtain ⟨c, hc⟩ := key
  simp only [List.mem_cons, List.not_mem_nil, or_false] at ha
  rcases ha with rfl | rfl
  · have := hc.color
    unfold Node.has; rw [show getAttr m.attrs (.id .stopColor) = _ from this]; cases getAttr c.attrs (.id .stopColor) <;> rfl
  · have := hc.opacity
    unfold Node.has; rw [show getAttr m.attrs (.id .stopOpacity) = _ from this]; cases getAttr c.attrs (.id .stopOpacity) <;> rfl

theorem Stocked.along {f g : Forest} (h : Stocked f) (ha : Along (fun n m => m.kind = n.kind ∧ ∀ a ∈ [AId.stopColor, .stopOpacity], n.has a = true → m.has a = true) f g) : Stocked g := by
  intro y hy hg m hm a hma
  obtain ⟨x, hx, hr, hs⟩ := along_bind ha hy
  obtain ⟨n, hn, hr'⟩ := Simple.forall₂_mem_right hs.top hm
  exact hr'.2 a hma (h x hx (by rw [← hr.1]; exact hg) n hn a hma)

/-! ### Invalid attributes -/

theorem grow_fixStopKids {p : ℚ} {f g : Forest} (h : fixStopKids p f = some g) : Along (Grow C) f g := by
  induction f generalizing p g with
  | nil => cases h; exact .nil
  | cons n k r _ ih =>
    rw [fixStopKids] at h
    split at h
    · split at h
      · obtain ⟨r', h1, h⟩ := Option.map_eq_some_iff.1 h
        cases h
        exact .cons (grow_offset n _) (Along.refl Grow.refl _) (ih h1)
      · cases h
    · cases h

theorem fixGo_along (s : Nat) {f g : Forest} (hs : size f ≤ s) (h : fixGo f = some g) : Along (fun n m => ∃ n1, Grow C n n1 ∧ m = fixNode n1) f g := by
  induction s generalizing f g with
  | zero => cases f with
    | nil => rw [fixGo] at h; cases h; exact .nil
    | cons n k r => simp [size] at hs
  | succ s ih => cases f with
    | nil => rw [fixGo] at h; cases h; exact .nil
    | cons n k r =>
      obtain ⟨k1, k2, r', h1, h2, h3, rfl⟩ := fixGo_cons h
      simp only [size] at hs
      have hk : size k1 = size k ∧ Along (Grow C) k k1 := by
        split at h1
        · exact ⟨fixStopKids_size h1, grow_fixStopKids h1⟩
        · cases h1; exact ⟨rfl, Along.refl Grow.refl _⟩
      exact .cons ⟨n, Grow.refl n, rfl⟩ (hk.2.trans (fun _ _ _ a ⟨n1, b, e⟩ => ⟨n1, a.trans b, e⟩) (ih (by omega) h2)) (ih (by omega) h3)

end

theorem body_nil {anc : List Node} {n : Node} (h : ∀ x ∈ n.attrs, x.value ≠ .kw .inherit ∧ x.value ≠ .kw .currentColor) : Inherit.body anc n = .ok n := by
  have : ∀ w : Kw, w = .inherit ∨ w = .currentColor → Inherit.withKw n w = [] := by
    intro w hw
    unfold Inherit.withKw
    rw [List.filterMap_eq_nil_iff]
    intro x hx
    have := h x hx
    split
    · rw [if_neg]
      rcases hw with rfl | rfl
      · exact this.1
      · exact this.2
    · rfl
  unfold Inherit.body
  rw [this _ (.inl rfl), this _ (.inr rfl)]
  split <;> rfl

theorem inherit_nil {f : Forest} (h : ∀ n ∈ f.nodes, ∀ x ∈ n.attrs, x.value ≠ .kw .inherit ∧ x.value ≠ .kw .currentColor) : Inherit.resolveInherit f = .ok f := by
  unfold Inherit.resolveInherit
  generalize ([] : List Node) = anc
  induction f generalizing anc with
  | nil => rfl
  | cons n k r ih1 ih2 =>
    simp only [Forest.nodes, List.mem_cons, List.mem_append] at h
    rw [Forest.mapRes, body_nil (h n (.inl rfl))]
    simp only [Res.bind]
    rw [ih1 fun n hn => h n (.inr (.inl hn)), ih2 fun n hn => h n (.inr (.inr hn))]

/-- What `fix_invalid_attributes` does to a node, but for the offsets of stops. -/
def fixed (n : Node) : Node := (Stops.fixNode n).rm .marker

theorem fixed_key (n : Node) : (fixed n).key = n.key ∧ (fixed n).kind = n.kind ∧ (fixed n).id = n.id := by
  have h : strip (fixed n) = strip n := ((less_fixNode n).trans (Less.rm _ .marker)).strip
  exact ⟨congrArg (fun x : Node => x.key) (a₁ := strip (fixed n)) (a₂ := strip n) h, congrArg (fun x : Node => x.kind) (a₁ := strip (fixed n)) (a₂ := strip n) h, congrArg (fun x : Node => x.id) (a₁ := strip (fixed n)) (a₂ := strip n) h⟩

theorem fixed_links (n : Node) : ∀ k ∈ (fixed n).links, k ∈ n.links := ((less_fixNode n).trans (Less.rm _ .marker)).links

/-- Polylines and polygons. -/
def polyKind (k : Kind) : Prop := k = .elem .polyline ∨ k = .elem .polygon

/-- An attribute after the pass: as before, or harmless, or the points of a polyline. -/
theorem fixed_attrs {n : Node} (hn : (n.attrs.map (·.name)).Nodup) {x : Attr} (hx : x ∈ (fixed n).attrs) :
    (x ∈ n.attrs ∧ (x.name = .id .points → ¬ polyKind n.kind)) ∨ (freeName x.name = true ∧ x.value.target = none) ∨
    (polyKind n.kind ∧ ∃ y ∈ n.attrs, y.name = x.name ∧ x.name = .id .points ∧ (x.value = y.value ∨ x.value.target = none) ∧
      ∀ l, x.value = .numberList l → l ≠ [] ∧ l.length % 2 = 0) := by
  replace hx : x ∈ (Stops.fixNode n).attrs := List.mem_of_mem_filter hx
  have hset : ∀ (m : Node) (a : AId), freeName (.id a) = true → ∀ x ∈ (m.set a (.length ⟨0, .none⟩)).attrs, x ∈ m.attrs ∨ (freeName x.name = true ∧ x.value.target = none) := by
    intro m a ha x hx
    rcases Node.mem_putAttr hx with rfl | hx
    · exact .inr ⟨ha, rfl⟩
    · exact .inl hx
  have hlen : ∀ (m : Node) (a : AId), freeName (.id a) = true → ∀ x ∈ (Stops.fixLen m a).attrs, x ∈ m.attrs ∨ (freeName x.name = true ∧ x.value.target = none) := by
    intro m a ha x hx
    unfold Stops.fixLen at hx
    split at hx
    · split at hx
      · split at hx
        · exact hset m a ha x hx
        · exact .inl hx
      · exact .inl hx
    · exact hset m a ha x hx
  have hneg : ∀ (m : Node) (a : AId), ∀ x ∈ (Stops.rmNegativeLen m a).attrs, x ∈ m.attrs := by
    intro m a x hx
    unfold Stops.rmNegativeLen at hx
    split at hx
    · split at hx
      · exact List.mem_of_mem_filter hx
      · exact hx
    · exact hx
  have hpoly : polyKind n.kind → x ∈ (Stops.fixPoly n).attrs →
      (x ∈ n.attrs ∧ (x.name = .id .points → ¬ polyKind n.kind)) ∨ (freeName x.name = true ∧ x.value.target = none) ∨
      (polyKind n.kind ∧ ∃ y ∈ n.attrs, y.name = x.name ∧ x.name = .id .points ∧ (x.value = y.value ∨ x.value.target = none) ∧
        ∀ l, x.value = .numberList l → l ≠ [] ∧ l.length % 2 = 0) := by
    intro hk hx
    unfold Stops.fixPoly at hx
    split at hx
    next p hp =>
      split at hx
      · obtain ⟨h1, h2⟩ := List.mem_filter.1 hx
        refine .inl ⟨h1, fun e => ?_⟩
        simp [e] at h2
      next hne =>
        obtain ⟨y, hy, rfl⟩ := List.mem_map.1 hx
        by_cases e : y.name = .id .points
        · rw [if_pos e]
          refine .inr (.inr ⟨hk, y, hy, rfl, e, ?_, fun l hl => ?_⟩)
          · dsimp only
            generalize y.value = v
            cases v <;> first | exact .inl rfl | exact .inr rfl
          · have hv : y.value = .numberList p := by
              have := GradUnits.getAttr_of_mem hn hy
              rw [e] at this
              unfold Node.get at hp
              rw [this] at hp
              exact Option.some.inj hp
            dsimp only at hl
            rw [hv] at hl
            cases hl
            refine ⟨hne, ?_⟩
            unfold Stops.evenPoints
            split
            · rw [List.length_dropLast]; omega
            · omega
        · rw [if_neg e]; exact .inl ⟨hy, fun h => absurd h e⟩
    next hnp =>
      by_cases e : x.name = .id .points
      · refine .inr (.inr ⟨hk, x, hx, rfl, e, .inl rfl, fun l hl => ?_⟩)
        have := GradUnits.getAttr_of_mem hn hx
        rw [e] at this
        exact absurd (by unfold Node.get; rw [this, Option.map_some, hl]) (hnp l)
      · exact .inl ⟨hx, fun h => absurd h e⟩
  unfold Stops.fixNode at hx
  split at hx
  next hk =>
    have := hneg _ _ _ (hneg _ _ _ hx)
    have hp : ¬ polyKind n.kind := by rw [hk]; rintro (h | h) <;> cases h
    rcases hlen _ _ (by decide) _ this with h | h
    · rcases hlen _ _ (by decide) _ h with h | h
      · exact .inl ⟨h, fun _ => hp⟩
      · exact .inr (.inl h)
    · exact .inr (.inl h)
  next hk => exact hpoly (.inl hk) hx
  next hk => exact hpoly (.inr hk) hx
  next h1 h2 h3 => exact .inl ⟨hx, fun _ h => h.elim h2 h3⟩

theorem fix_along {f g : Forest} (h : Stops.fixInvalidAttributes f = some g) : Along (fun n m => ∃ n1, Grow C n n1 ∧ m = fixed n1) f g := by
  obtain ⟨f1, h1, h⟩ := Option.map_eq_some_iff.1 h
  cases h
  exact (fixGo_along _ (Nat.le_refl _) h1).trans (fun _ _ _ ⟨n1, a, e⟩ b => ⟨n1, a, by rw [b, e]; rfl⟩) (Along.map (R := fun n m => m = n.rm .marker) fun n _ => rfl)

/-- Nodes that are no shapes only lose `marker`. -/
theorem fixed_plain {n : Node} (h : gradKind n.kind = true ∨ n.kind = .elem .stop) : fixed n = n.rm .marker := by
  unfold fixed Stops.fixNode
  split
  next e => rw [e] at h; rcases h with h | h <;> cases h
  next e => rw [e] at h; rcases h with h | h <;> cases h
  next e => rw [e] at h; rcases h with h | h <;> cases h
  · rfl

theorem NodeOk.fixed {n : Node} (h : NodeOk C n) (hn : (n.attrs.map (·.name)).Nodup) (hw : gradKind n.kind = true → ∀ a ∈ wanted n.kind, n.has a = true) :
    NodeOk { C with raw := False, bare := fun _ => False } (Crash.fixed n) := by
  obtain ⟨f1, f2, f3⟩ := fixed_key n
  have hfree : ∀ {a : AName} {v : Value}, AttrOk C n a v → (a = .id .points → (n.kind = .elem .polyline ∨ n.kind = .elem .polygon) → ∀ l, v = .numberList l → l ≠ [] ∧ l.length % 2 = 0) →
      AttrOk { C with raw := False, bare := fun _ => False } (Crash.fixed n) a v := fun ha hp =>
    Kin.attr (n := n) f1 (.inl f2) ⟨⟨ha.grad.ts, ha.grad.color, ha.grad.opacity, ha.grad.href, ha.grad.link, ha.grad.shown, ha.grad.stop⟩, ha.transform, ha.opacity,
      fun e => ⟨(ha.points e).1, (ha.points e).2.1, fun hk _ => hp e hk⟩, ha.d, ha.shown, ha.link⟩
  refine ⟨by rw [f1, f2]; exact h.kind, fun hg _ a ha => ?_, by rw [f2, f3]; exact h.named, fun hg => ?_, fun x hx => ?_⟩
  · rw [f2] at hg ha
    rw [fixed_plain (.inl hg), Node.has_rm]
    have : a ≠ .marker := by
      rintro rfl
      revert ha
      cases n.kind with
      | elem e => cases e <;> decide
      | _ => simp [wanted]
    simp [this, hw hg a ha]
  · rw [f2] at hg
    rw [fixed_plain (.inl hg)]
    refine le_trans ?_ (h.single hg)
    unfold hrefs
    exact ((List.filter_sublist (l := n.attrs)).filter _).length_le
  · rcases fixed_attrs hn hx with ⟨h1, h2⟩ | ⟨h1, h2⟩ | ⟨h1, y, hy, h2, h3, h4, h5⟩
    · exact hfree (h.attrs x h1) fun e hk => absurd hk (h2 e)
    · exact AttrOk.free h1 h2
    · have hy' := h.attrs y hy
      rw [h2] at hy'
      rcases h4 with h4 | h4
      · rw [h4]
        exact hfree hy' fun _ _ l hl => h5 l (by rw [h4]; exact hl)
      · have hnot : ∀ {b : AId}, b ≠ .points → x.name ≠ .id b := fun hb e => hb (by rw [h3] at e; injection e with e; exact e.symm)
        refine ⟨GradAttr.free (hnot (by decide)) (hnot (by decide)) (hnot (by decide)) (hnot (by decide)) (hnot (by decide)) h4, fun e => absurd e (hnot (by decide)),
          fun e => absurd e (hnot (by decide)), fun e => ?_, fun e => absurd e (hnot (by decide)), fun e => absurd e (hnot (by decide)), fun k e => ?_⟩
        · rw [f2]
          exact ⟨(hy'.points e).1, (hy'.points e).2.1, fun _ _ => h5⟩
        · rw [h4] at e; cases e

end Verif.Crash
