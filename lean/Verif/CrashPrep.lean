import Verif.CrashGroup
import Verif.CrashSpec
/-
C53: the preparation.
-/
namespace Verif.Crash
open Verif.Dom Verif.Spec
open Verif.Dom (Res)
open Verif.Pipeline
open Verif.Cli (CleaningOptions)

/-! ### Values that do not depend on the parent -/

/-- Not `inherit` and not `currentColor`. -/
def Absolute (v : Value) : Prop := v ≠ .kw .inherit ∧ v ≠ .kw .currentColor

instance (v : Value) : Decidable (Absolute v) := by unfold Absolute; infer_instance

def AllAbsolute (f : Forest) : Prop := ∀ n ∈ f.nodes, ∀ x ∈ n.attrs, Absolute x.value

/-- Attributes are added, with values that do not depend on the parent. -/
def MoreAbs (n m : Node) : Prop := ∀ x ∈ m.attrs, Absolute x.value ∨ x ∈ n.attrs

theorem MoreAbs.refl (n : Node) : MoreAbs n n := fun _ h => .inr h

theorem MoreAbs.trans {a b c : Node} (h1 : MoreAbs a b) (h2 : MoreAbs b c) : MoreAbs a c := fun x hx => (h2 x hx).elim .inl fun h => h1 x h

theorem MoreAbs.put (n : Node) {x : Attr} (h : Absolute x.value) : MoreAbs n { n with attrs := putAttr n.attrs x } := fun y hy => by
  rcases Node.mem_putAttr hy with rfl | hy
  · exact .inl h
  · exact .inr hy

theorem AllAbsolute.along {f g : Forest} (h : AllAbsolute f) (ha : Along MoreAbs f g) : AllAbsolute g := by
  intro m hm x hx
  obtain ⟨n, hn, hr⟩ := along_mem ha hm
  exact (hr x hx).elim id fun h' => h n hn x h'

theorem AllAbsolute.checkAttr {k : Nat} {a : AId} {d : Option Value} {f g : Forest} (hp : AllAbsolute f) (hd : ∀ v, d = some v → Absolute v)
    (h : Gradients.checkAttr k a d f = some g) : AllAbsolute g := by
  unfold Gradients.checkAttr at h
  obtain ⟨n, hn, h⟩ := Option.bind_eq_some_iff.1 h
  split at h
  · cases h; exact hp
  · obtain ⟨v, hv, h⟩ := Option.map_eq_some_iff.1 h
    cases v with
    | none => cases h; exact hp
    | some v =>
      cases h
      have hv0 : Absolute v := by
        rcases resolveAttribute_value (Forest.find_some hn).1 hv with h | ⟨m, hm, h⟩
        · exact hd v h
        · obtain ⟨x, hx, _, rfl⟩ := getMem h
          exact hp m hm x hx
      refine hp.along (Along.map fun m _ => ?_)
      split
      · exact MoreAbs.put m (x := ⟨.id a, v, false⟩) hv0
      · exact MoreAbs.refl m

theorem AllAbsolute.forEach {u : Nat → Forest → Option Forest} (hu : ∀ k f g, AllAbsolute f → u k f = some g → AllAbsolute g) {l : List Nat} {f g : Forest}
    (hp : AllAbsolute f) (h : Gradients.forEach u l f = some g) : AllAbsolute g := by
  induction l generalizing f with
  | nil => cases h; exact hp
  | cons k t ih =>
    simp only [Gradients.forEach] at h
    obtain ⟨f1, h1, h2⟩ := Option.bind_eq_some_iff.1 h
    exact ih (hu k f f1 hp h1) h2

theorem AllAbsolute.linear {f g : Forest} (hp : AllAbsolute f) (h : Gradients.resolveLinear f = some g) : AllAbsolute g := by
  obtain ⟨l, _, h⟩ := Option.bind_eq_some_iff.1 h
  refine AllAbsolute.forEach (fun k f g p0 h => ?_) hp h
  simp only [Gradients.resolveLinearNode, Option.bind_eq_some_iff] at h
  obtain ⟨f1, h1, f2, h2, f3, h3, f4, h4, f5, h5, f6, h6, h7⟩ := h
  have t : ∀ w : Value, Absolute w → ∀ v, some w = some v → Absolute v := fun w hw v e => by cases e; exact hw
  exact ((((((p0.checkAttr (t _ (by decide)) h1).checkAttr (t _ (by decide)) h2).checkAttr (t _ (by decide)) h3).checkAttr (t _ (by decide)) h4).checkAttr
    (t _ (by decide)) h5).checkAttr (t _ (by decide)) h6).checkAttr (by intro v e; cases e) h7

theorem AllAbsolute.radial {f g : Forest} (hp : AllAbsolute f) (h : Gradients.resolveRadial f = some g) : AllAbsolute g := by
  obtain ⟨l, _, h⟩ := Option.bind_eq_some_iff.1 h
  refine AllAbsolute.forEach (fun k f g p0 h => ?_) hp h
  simp only [Gradients.resolveRadialNode, Option.bind_eq_some_iff] at h
  obtain ⟨f1, h1, f2, h2, f3, h3, f4, h4, f5, h5, n, hn, f6, h6, f7, h7, h8⟩ := h
  have t : ∀ w : Value, Absolute w → ∀ v, some w = some v → Absolute v := fun w hw v e => by cases e; exact hw
  have p5 := ((((p0.checkAttr (t _ (by decide)) h1).checkAttr (t _ (by decide)) h2).checkAttr (t _ (by decide)) h3).checkAttr (t _ (by decide)) h4).checkAttr
    (t _ (by decide)) h5
  have hn' : ∀ a v, n.get a = some v → Absolute v := by
    intro a v hv
    obtain ⟨x, hx, _, rfl⟩ := getMem hv
    exact p5 n (Forest.find_some hn).1 x hx
  exact ((p5.checkAttr (hn' _) h6).checkAttr (hn' _) h7).checkAttr (by intro v e; cases e) h8

section
open Verif.Stops

theorem more_setDefault (n : Node) (a : AId) {v : Value} (h : Absolute v) : MoreAbs n (setDefault n a v) := by
  unfold setDefault
  split
  · exact MoreAbs.refl n
  · exact MoreAbs.put n (x := ⟨.id a, v, false⟩) h

theorem more_stopDefaults (n : Node) : MoreAbs n (stopDefaults n) := (more_setDefault n _ (by decide)).trans (more_setDefault _ _ (by decide))

theorem more_resolveStop {b : Bool} {n m : Node} (h : resolveStop b n = .ok m) : MoreAbs n m := by
  have hset : ∀ l, MoreAbs n (n.set .offset (.length l)) := fun l => MoreAbs.put n (x := ⟨_, .length l, true⟩) ⟨by simp, by simp⟩
  unfold resolveStop at h
  cases hg : n.get .offset with
  | none =>
    rw [hg] at h
    cases b <;> cases h
    exact (hset _).trans (more_stopDefaults _)
  | some v =>
    rw [hg] at h
    cases v with
    | length l =>
      cases h
      by_cases hp : l.unit = .percent
      · rw [if_pos hp]; exact (hset _).trans (more_stopDefaults _)
      · rw [if_neg hp]; exact more_stopDefaults _
    | _ => cases b <;> cases h <;> exact (hset _).trans (more_stopDefaults _)

theorem more_resolveStopKids {b : Bool} {f g : Forest} (h : resolveStopKids b f = .ok g) : Along MoreAbs f g := by
  induction f generalizing b g with
  | nil => cases h; exact .nil
  | cons n k r _ ih =>
    rw [resolveStopKids] at h
    obtain ⟨n', h1, h⟩ := bind_ok.1 h
    obtain ⟨r', h2, h⟩ := bind_ok.1 h
    cases h
    exact .cons (more_resolveStop h1) (Along.refl MoreAbs.refl _) (ih h2)

theorem more_resolveStops (s : Nat) {f g : Forest} (hs : size f ≤ s) (h : resolveStops f = .ok g) : Along MoreAbs f g := by
  induction s generalizing f g with
  | zero => cases f with
    | nil => rw [resolveStops] at h; cases h; exact .nil
    | cons n k r => simp [size] at hs
  | succ s ih => cases f with
    | nil => rw [resolveStops] at h; cases h; exact .nil
    | cons n k r =>
      rw [resolveStops_cons] at h
      obtain ⟨k1, h1, h⟩ := bind_ok.1 h
      obtain ⟨k2, h2, h⟩ := bind_ok.1 h
      obtain ⟨r', h3, h⟩ := bind_ok.1 h
      cases h
      simp only [size] at hs
      have hk : size k1 = size k ∧ Along MoreAbs k k1 := by
        split at h1
        · exact ⟨resolveStopKids_size h1, more_resolveStopKids h1⟩
        · cases h1; exact ⟨rfl, Along.refl MoreAbs.refl _⟩
      exact .cons (MoreAbs.refl n) (hk.2.trans (fun _ _ _ a b => a.trans b) (ih (by omega) h2)) (ih (by omega) h3)

end

/-! ### The document as it is -/

/-- The context before the preparation. -/
def raw (f : Forest) (rank : Nat → Nat) (cap : Nat) (s : Node) (d : Nat) : Ctx := { ctx f rank cap s d with raw := True, bare := fun _ => True }

theorem neatAttr_ok {f : Forest} {rank : Nat → Nat} (hf : Neat f rank) {cap : Nat} {s n : Node} (hs : s ∈ f.nodes) (hn : n ∈ f.nodes) {d : Nat} (hd : kindOf f d = .elem .defs)
    {x : Attr} (hx : x ∈ n.attrs) (h : NeatAttr f rank s n x) : AttrOk (raw f rank cap s d) n x.name x.value where
  grad := by
    refine ⟨h.gradientTransform, h.stopColor, h.stopOpacity, fun hg => h.template (by rw [← gradKind_eq]; exact hg), fun hg k e => ?_, fun hg => h.visible (by rw [← gradKind_eq]; exact hg), h.stop⟩
    obtain ⟨t, ht, rfl⟩ := Forest.mem_keys.1 (hf.links n hn k (Node.mem_links.2 ⟨x, hx, e⟩))
    obtain ⟨p1, p2, p3⟩ := h.gradient (by rw [← gradKind_eq]; exact hg) t ht e
    have hk : (raw f rank cap s d).kind t.key = t.kind := kindOf_mem hf.unique ht
    exact ⟨p1, by rw [hk, gradKind_eq]; exact p2, p3⟩
  transform e := by rw [isSvgElem_eq, svgKind_iff]; exact h.transform e
  opacity := h.opacity
  points e := ⟨(h.points e).1, (h.points e).2, fun _ h => absurd trivial h⟩
  d := h.path
  shown e1 e2 := by
    obtain ⟨p1, p2⟩ := h.shown e1 e2
    refine ⟨fun e => p1 (Forest.eq_of_key hf.unique hn hs e), fun e => p2 ?_⟩
    rw [← kindOf_mem hf.unique hn, e]; exact hd
  link k e := by
    obtain ⟨t, ht, rfl⟩ := Forest.mem_keys.1 (hf.links n hn k (Node.mem_links.2 ⟨x, hx, e⟩))
    obtain ⟨p1, p2, p3, p4, p5⟩ := h.link t ht e
    have hk : (raw f rank cap s d).kind t.key = t.kind := kindOf_mem hf.unique ht
    refine ⟨fun e => p1 (Forest.eq_of_key hf.unique hn hs e), fun e => p2 ?_, p3, fun e => p4 (Forest.eq_of_key hf.unique ht hs e), p5, fun ne => ?_, fun he => ?_⟩
    · rw [← kindOf_mem hf.unique hn, e]; exact hd
    · obtain ⟨q1, q2⟩ := h.style t ht e ne
      rw [hk]
      exact ((isDefinition_iff t).1 q1).resolve_right q2
    · obtain ⟨q1, q2⟩ := h.href t ht e he
      refine ⟨q1, fun hu => ?_⟩
      obtain ⟨r1, r2, r5, r3, r4⟩ := q2 hu
      rw [hk]
      refine ⟨fun e => ?_, fun hd' => r3 ((isDefinition_iff t).2 (.inl hd')), (svgKind_iff _).2 r1, r2, r4, r5⟩
      have : t.kind = .elem .defs := by rw [← kindOf_mem hf.unique ht, e]; exact hd
      have := r3 ((isDefinition_iff t).2 (.inr this))
      simp_all

theorem hrefs_one {n : Node} (h : (n.attrs.map (·.name)).Nodup) : hrefs n ≤ 1 := by
  unfold hrefs
  have : ((n.attrs.filter fun x => decide (x.name = .id .xlinkHref)).map (·.name)).Nodup := h.sublist (List.filter_sublist.map _)
  generalize hl : (n.attrs.filter fun x => decide (x.name = .id .xlinkHref)) = l at this
  match l, hl, this with
  | [], _, _ => simp
  | [_], _, _ => simp
  | a :: b :: t, hl, this =>
    have ha : a ∈ n.attrs.filter fun x => decide (x.name = .id .xlinkHref) := by rw [hl]; simp
    have hb : b ∈ n.attrs.filter fun x => decide (x.name = .id .xlinkHref) := by rw [hl]; simp
    have e1 := (List.mem_filter.1 ha).2
    have e2 := (List.mem_filter.1 hb).2
    simp only [decide_eq_true_eq] at e1 e2
    simp [e1, e2] at this

theorem neat_core {f : Forest} {rank : Nat → Nat} (hf : Neat f rank) (cap : Nat) {s : Node} {ks : Forest} (hs : svgElement f = some (s, ks)) {d : Nat}
    (hd : kindOf f d = .elem .defs) : Core (raw f rank cap s d) f := by
  obtain ⟨s', ks', hs', ha⟩ := hf.root
  rw [hs] at hs'
  cases hs'
  have hsm := (Simple.svgElement_some hs).2.1
  refine ⟨hf.unique, hf.links, fun n hn => ⟨.inl (kindOf_mem hf.unique hn).symm, fun _ h => absurd trivial h, fun h => hf.named n hn (by rw [← gradKind_eq]; exact h), fun _ => hrefs_one (hf.attrs n hn), fun x hx => neatAttr_ok hf hsm hn hd hx (ha n hn x hx)⟩⟩

/-! ### The preparation -/

/-- A node of the document after the preparation, and before. -/
structure Prep (n m : Node) : Prop where
  key : m.key = n.key
  kind : m.kind = n.kind
  id : m.id = n.id

theorem kindOf_along {f g : Forest} (hu : f.UniqueKeys) (h : Along Prep f g) : kindOf g = kindOf f := by
  have hk : g.keys = f.keys := h.keys fun _ _ h => h.key
  have hu' : g.UniqueKeys := by unfold Forest.UniqueKeys; rw [hk]; exact hu
  funext k
  by_cases hm : k ∈ g.keys
  · obtain ⟨m, hm', rfl⟩ := Forest.mem_keys.1 hm
    obtain ⟨n, hn, hr⟩ := along_mem h hm'
    rw [kindOf_mem hu' hm', hr.key, kindOf_mem hu hn, hr.kind]
  · rw [kindOf_new hm, kindOf_new (by rw [← hk]; exact hm)]

theorem Prep.trans {a b c : Node} (h1 : Prep a b) (h2 : Prep b c) : Prep a c := ⟨h2.key.trans h1.key, h2.kind.trans h1.kind, h2.id.trans h1.id⟩

theorem Grow.prep {C : Ctx} {n m : Node} (h : Grow C n m) : Prep n m := ⟨h.tame.key, h.kind, h.tame.id⟩

/-- The root element of a document. -/
theorem svgElement_along {f g : Forest} (h : Along Prep f g) {s : Node} {ks : Forest} (hs : svgElement f = some (s, ks)) :
    ∃ s' ks', svgElement g = some (s', ks') ∧ s'.key = s.key := by
  induction h with
  | nil => cases hs
  | @cons n m k k' r r' hn _ _ _ ih =>
    rw [svgElement] at hs ⊢
    have : m.isTag .svg = n.isTag .svg := by unfold Node.isTag; rw [hn.kind]
    rw [this]
    split at hs
    · next e => cases hs; rw [if_pos e]; exact ⟨_, _, rfl, hn.key⟩
    · next e => rw [if_neg e]; exact ih hs

theorem along_nil {R : Node → Node → Prop} {f g : Forest} (h : Along R f g) : f = .nil ↔ g.top = [] := by
  cases h with
  | nil => simp [Forest.top]
  | cons _ _ _ => simp [Forest.top]

theorem forall₂_tail {α β : Type} {R : α → β → Prop} {l : List α} {l' : List β} (h : List.Forall₂ R l l') : List.Forall₂ R l.tail l'.tail := by
  cases h with
  | nil => exact .nil
  | cons _ h => exact h

theorem top_nil {f : Forest} : f.top = [] ↔ f = .nil := by cases f <;> simp [Forest.top]

/-- **The preparation**: the document is rejected by `resolve_stop` because of a missing offset, or it is ready. -/
theorem neat_ready {f : Forest} {rank : Nat → Nat} (hf : Neat f rank) :
    ∃ f1 f2, Gradients.resolveLinear f = some f1 ∧ Gradients.resolveRadial f1 = some f2 ∧
    ((Stops.resolveStops f2 = .err (.missingAttribute "stop" "offset") ∧ MissingOffset f) ∨
      ∃ f3 f4, Stops.resolveStops f2 = .ok f3 ∧ Inherit.resolveInherit f3 = .ok f3 ∧ Stops.fixInvalidAttributes f3 = some f4 ∧
        ∃ s ks, Ready f4 rank (f.nodes.length + 2) s ks) := by
  obtain ⟨s, ks, hs, ha⟩ := hf.root
  obtain ⟨d0, hd0⟩ : ∃ d, d ∉ f.keys := ⟨_, Infinite.exists_notMem_finset f.keys.toFinset |>.choose_spec |> fun h => by simpa using h⟩
  have core := fun d (hd : kindOf f d = .elem .defs) => neat_core hf (f.nodes.length + 2) hs hd
  obtain ⟨f1, f2, e1, e2, a2, w2⟩ := (core d0 (kindOf_new hd0)).resolved
  refine ⟨f1, f2, e1, e2, ?_⟩
  obtain ⟨np, ei, ee⟩ := Stops.C57_fails_iff f2
  cases e3 : Stops.resolveStops f2 with
  | panic => exact absurd e3 np
  | err e =>
    refine .inl ⟨by rw [ee e e3], ?_⟩
    obtain ⟨y, hy, hg, c, hc, hno⟩ := ei.1 ⟨e, e3⟩
    obtain ⟨x, hx, hr, hs⟩ := along_bind a2 hy
    obtain ⟨c0, hc0, hr'⟩ := Simple.forall₂_mem_right (forall₂_tail hs.top) hc
    exact ⟨x, hx, by rw [← isGradient_kind hr.1.kind]; exact hg, c0, hc0, fun l hl => hno ⟨l, by rw [hr'.2]; exact hl⟩⟩
  | ok f3 =>
    refine .inr ⟨f3, ?_⟩
    -- nothing to inherit
    have b0 : AllAbsolute f := fun n hn x hx => (ha n hn x hx).absolute
    have b3 : AllAbsolute f3 := ((b0.linear e1).radial e2).along (more_resolveStops _ (Nat.le_refl _) e3)
    have e4 : Inherit.resolveInherit f3 = .ok f3 := inherit_nil b3
    -- the offsets
    have c3 : Stops.fixInvalidAttributes f3 ≠ none := by
      refine Stops.C28_no_crash_partial e3 fun y hy hg c hc l hl => ?_
      obtain ⟨x, hx, hr, hs⟩ := along_bind a2 hy
      obtain ⟨d, hd, hr'⟩ := Simple.forall₂_mem_right hs.top hc
      exact hf.offsets x hx (by rw [← isGradient_kind hr.1.kind]; exact hg) d hd l (by rw [← hr'.2]; exact hl)
    obtain ⟨f4, e5⟩ := Option.ne_none_iff_exists'.1 c3
    refine ⟨f4, rfl, e4, e5, ?_⟩
    -- node by node
    have along : ∀ C : Ctx, Along (Grow' C) f f2 → Along (fun n m => ∃ n1, Grow C n n1 ∧ m = fixed n1) f f4 := fun C h =>
      ((h.mono fun _ _ h => h.1).trans (fun _ _ _ a b => a.trans b) (grow_resolveStops (C := C) _ (Nat.le_refl _) e3)).trans
        (fun _ _ _ a ⟨n1, b, e⟩ => ⟨n1, a.trans b, e⟩) (fix_along e5)
    have pre : ∀ {C : Ctx} {n m : Node}, (∃ n1, Grow C n n1 ∧ m = fixed n1) → Prep n m := by
      rintro C n _ ⟨n1, h, rfl⟩
      obtain ⟨p1, p2, p3⟩ := fixed_key n1
      exact h.prep.trans ⟨p1, p2, p3⟩
    have a4 := along _ a2
    have p4 : Along Prep f f4 := a4.mono fun _ _ h => pre h
    obtain ⟨s', ks', hs', hsk⟩ := svgElement_along p4 hs
    have hk : f4.keys = f.keys := p4.keys fun _ _ h => h.key
    have hu : f4.UniqueKeys := by unfold Forest.UniqueKeys; rw [hk]; exact hf.unique
    have kind : ∀ {n m : Node}, Prep n m → gradKind m.kind = n.isGradient := fun h => by rw [h.kind, gradKind_eq]
    -- the wanted attributes of gradients
    have w4 : Along (fun n m => ∃ n1, Grow (raw f rank (f.nodes.length + 2) s d0) n n1 ∧ m = fixed n1) f2 f4 :=
      (grow_resolveStops _ (Nat.le_refl _) e3).trans (fun _ _ _ a ⟨n1, b, e⟩ => ⟨n1, a.trans b, e⟩) (fix_along e5)
    have kept : ∀ {n : Node} {a : AId}, gradKind n.kind = true ∨ n.kind = .elem .stop → a ≠ .marker → (fixed n).has a = n.has a := by
      intro n a h ha
      rw [fixed_plain h, Node.has_rm]
      simp [ha]
    have hkind := kindOf_along hf.unique p4
    refine ⟨s', ks', hu, ?_, hs', ?_, ?_, ?_, ?_, ?_, ?_, ?_, ?_, ?_, ?_⟩
    · intro m hm k hkm
      obtain ⟨n, hn, n1, hr, rfl⟩ := along_mem a4 hm
      rw [hk]
      exact hf.links n hn k (hr.tame.links k (fixed_links n1 k hkm))
    · intro d hd m hm
      rw [hkind] at hd
      obtain ⟨f1', f2', e1', e2', a2', _⟩ := (core d hd).resolved
      rw [e1] at e1'; cases e1'
      rw [e2] at e2'; cases e2'
      have hc : ctx f4 rank (f.nodes.length + 2) s' d = { raw f rank (f.nodes.length + 2) s d with raw := False, bare := fun _ => False } := by
        unfold ctx raw
        rw [hkind, hsk]
        rfl
      rw [hc]
      have hc2 := (core d hd).grow' a2'
      have w4' : Along (fun n m => ∃ n1, Grow (raw f rank (f.nodes.length + 2) s d) n n1 ∧ m = fixed n1) f2 f4 :=
        (grow_resolveStops _ (Nat.le_refl _) e3).trans (fun _ _ _ a ⟨n1, b, e⟩ => ⟨n1, a.trans b, e⟩) (fix_along e5)
      obtain ⟨n2, hn2, n1, hr, rfl⟩ := along_mem w4' hm
      obtain ⟨n, hn, hr2⟩ := along_mem a2' hn2
      refine NodeOk.fixed ((hc2.nodes n2 hn2).tame hr.tame) (hr.names (hr2.1.names (hf.attrs n hn))) fun hg a ha => ?_
      rw [hr.kind] at hg ha
      exact hr.has a (w2 n2 hn2 hg a ha)
    · intro y hy hsc m hm
      obtain ⟨x, hx, hr, hss⟩ := along_bind p4 hy
      obtain ⟨c, hc, hr'⟩ := Simple.forall₂_mem_right hss.top hm
      have := hf.scenes x hx (by rw [← isScene_kind hr.kind]; exact hsc) c hc
      unfold GroupDefs.isDefinition at this ⊢
      rw [hr'.kind]; exact this
    · intro y hy hg m hm
      obtain ⟨x, hx, hr, hss⟩ := along_bind p4 hy
      obtain ⟨c, hc, hr'⟩ := Simple.forall₂_mem_right hss.top hm
      rw [hr'.kind]
      exact hf.groups x hx (hr.kind.symm.trans hg) c hc
    · intro y hy hg
      obtain ⟨x, hx, hr, hss⟩ := along_bind p4 hy
      have := hf.uses x hx (hr.kind.symm.trans hg)
      exact top_nil.1 ((along_nil hss).1 this)
    · intro y hy m hm
      obtain ⟨x, hx, hr, hss⟩ := along_bind p4 hy
      obtain ⟨c, hc, hr'⟩ := along_mem hss hm
      rw [hr'.key, hr.key]
      exact hf.nested x hx c hc
    · intro y hy hg m hm
      have a5 := fix_along (C := raw f rank (f.nodes.length + 2) s d0) e5
      have a3 : Along Prep f f3 := (a2.mono fun _ _ h => h.1.prep).trans (fun _ _ _ a b => a.trans b.prep) (grow_resolveStops (C := raw f rank (f.nodes.length + 2) s d0) _ (Nat.le_refl _) e3)
      obtain ⟨x, hx, ⟨x1, hr, hxe⟩, hss⟩ := along_bind a5 hy
      obtain ⟨c, hc, c1, hr', rfl⟩ := Simple.forall₂_mem_right hss.top hm
      obtain ⟨z, hz, hr0, hss0⟩ := along_bind a3 hx
      obtain ⟨c0, hc0, hr0'⟩ := Simple.forall₂_mem_right hss0.top hc
      have hgx : gradKind x.1.kind = true := by
        rw [← (pre (C := raw f rank (f.nodes.length + 2) s d0) ⟨x1, hr, hxe⟩).kind]; exact hg
      have hc1 : c.kind = .elem .stop := by
        rw [hr0'.kind]
        exact (hf.stops z hz c0 hc0).1 (by rw [← kind hr0]; exact hgx)
      have hk1 : c1.kind = .elem .stop := hr'.kind.trans hc1
      refine ⟨(fixed_key c1).2.1.trans hk1, fun a ha => ?_⟩
      rw [(fixed_key c1).2.1, hk1] at ha
      have hm : a ≠ .marker := by rintro rfl; revert ha; decide
      rw [kept (.inr hk1) hm]
      exact hr'.has a (stocked_of e3 x hx hgx c hc a ha)
    · intro y hy hg m hm e
      obtain ⟨x, hx, hr, hss⟩ := along_bind p4 hy
      obtain ⟨c, hc, hr'⟩ := Simple.forall₂_mem_right hss.top hm
      have := (hf.stops x hx c hc).2 (hr'.kind.symm.trans e)
      rw [← kind hr, hg] at this
      cases this
    · intro y hy hg
      obtain ⟨x, hx, ⟨x1, hr, hxe⟩, hss⟩ := along_bind a4 hy
      have hgx : gradKind x.1.kind = true := by
        rw [← (pre (C := raw f rank (f.nodes.length + 2) s d0) ⟨x1, hr, hxe⟩).kind]; exact hg
      have hg1 : gradKind x1.kind = true := by rw [hr.kind]; exact hgx
      rw [hxe, kept (.inl hg1) (by decide), ← hr.tame.href trivial hgx, hf.templates x hx (by rw [← gradKind_eq]; exact hgx)]
      exact along_nil hss
    · intro m hm hg m' hm' e
      obtain ⟨n, hn, hr⟩ := along_mem p4 hm
      obtain ⟨n', hn', hr'⟩ := along_mem p4 hm'
      rw [hr'.key, hr.key, hf.ids n hn (by rw [← kind hr]; exact hg) n' hn' (by rw [← hr'.id, ← hr.id]; exact e)]
    · have h1 : f4.nodes.length = f.nodes.length := p4.nodes.length_eq.symm
      omega

end Verif.Crash
