import Verif.GroupDefsView
/-
C35: the picture is kept.
-/
namespace Verif.GroupDefs
open Verif.Dom Verif.Spec Verif.Render
open Verif.ResolveUse (subtree)
open Verif.UnusedDefs (Bare)

/-! ### The specification -/

/-- A `use` element shows the element with the key `k`. -/
def ShownByUse (f : Forest) (k : Nat) : Prop := ∃ n ∈ f.nodes, n.kind = .elem .use ∧ n.get .xlinkHref = some (.link k)

/-- The document has the root element `s`, and its definitions look the same wherever they stand. -/
structure Portable (f : Forest) (s : Node) : Prop where
  root : ∃ ks, svgElement f = some (s, ks)
  /-- `defs` elements have no properties that their children inherit. -/
  bare : ∀ n ∈ f.nodes, n.kind = .elem .defs → Bare n
  /-- Nothing refers to a `defs` element. -/
  unused : ∀ n ∈ f.nodes, n.kind = .elem .defs → ∀ m ∈ f.nodes, n.key ∉ m.links
  /-- Definitions stand where an element that is not drawn has no effect (in SVG: everywhere but in text and the like). -/
  place : ∀ z ∈ spots top f, isDefinition z.2.1 = true → gone z.1 z.2.1.kind = true
  /-- Definitions inherit what the children of the root element inherit. -/
  style : ∀ anc n ks, locate n.key [] f = some (anc, n, ks) → isDefinition n = true → styleOf anc = styleOf [s]
  /-- No elements that SVG does not know are directly in clip paths, masks, markers, patterns and symbols. -/
  own : ∀ x ∈ subs f, isScene x.1 = true → ∀ m ∈ x.2.top, ∀ t, m.kind ≠ .other t
  /-- If a `use` element shows one of these, or something directly in it, then no properties are inherited there. -/
  plain : ∀ k, ShownByUse f k → ∀ anc n ks, locate k [] f = some (anc, n, ks) → (isScene n = true ∨ ∃ p t, anc = p :: t ∧ isScene p = true) →
    ∀ a ∈ s :: anc, Bare a

/-! ### Lemmas -/

theorem clean_of_bare {n : Node} (h : Bare n) : Clean n := by
  intro x hx
  by_contra hc
  have hi : inheritable x = true := by simpa using hc
  unfold inheritable at hi
  cases hn : x.name with
  | name t => rw [hn] at hi; cases hi
  | id a =>
    rw [hn] at hi
    have h1 := h a (inheritable_inherits hi)
    unfold Node.get getAttr at h1
    rw [Option.map_eq_none_iff, List.find?_eq_none] at h1
    exact h1 x hx (by simp [hn])

theorem styleOf_own (l : List Node) {a : AId} (h : inherits a = false) : styleOf l a = none := by
  cases l with
  | nil => rfl
  | cons n t => simp [styleOf, into, Ctx.enter, h]

theorem styleOf_bare {n : Node} (h : Bare n) (l : List Node) : styleOf (n :: l) = styleOf l :=
  UnusedDefs.style_bare h (c := ⟨styleOf l, one⟩) fun _ ha => styleOf_own l ha

theorem locate_top {c : Forest} (hu : c.UniqueKeys) {m : Node} (hm : m ∈ c.top) (A : List Node) : ∃ ks, locate m.key A c = some (A, m, ks) := by
  induction c with
  | nil => cases hm
  | cons n k r _ ih =>
    obtain ⟨h1, h2, h3, h4, h5⟩ := uk_cons hu
    simp only [Forest.top, List.mem_cons] at hm
    simp only [locate]
    rcases hm with rfl | hm
    · exact ⟨k, by rw [if_pos rfl]⟩
    · have hmr : m.key ∈ r.keys := Forest.key_mem ((Stops.top_sub_nodes r).mem hm)
      obtain ⟨ks, h⟩ := ih h4 hm
      refine ⟨ks, ?_⟩
      rw [if_neg (fun e : n.key = m.key => h2 (e ▸ hmr)), locate_none (fun hh => h5 _ hh hmr), Option.none_or, h]

theorem locate_kid {f : Forest} (hu : f.UniqueKeys) {k : Nat} {a : List Node} {n : Node} {c : Forest} (hk : locate k [] f = some (a, n, c))
    {m : Node} (hm : m ∈ c.top) : ∃ ks, locate m.key [] f = some (n :: a, m, ks) := by
  have hs := (locate_mem hk).2
  have hcu : c.UniqueKeys := ((Stops.subs_kids_sub hs).1.map Node.key).nodup hu
  have hmc : m.key ∈ c.keys := Forest.key_mem ((Stops.top_sub_nodes c).mem hm)
  have hne : n.key ≠ m.key := by
    intro e
    have h2 := ((nodes_prune_one hu hs).map Node.key).nodup_iff.1 hu
    rw [List.map_append, List.map_cons] at h2
    exact (List.nodup_cons.1 (List.nodup_append.1 h2).2.1).1 (e ▸ hmc)
  rw [locate_inside hu hk (x := m.key) (by simp [hmc])]
  simp only [locate]
  rw [if_neg hne, Option.or_none]
  exact locate_top hcu hm _

theorem pruned_one {f : Forest} (hu : f.UniqueKeys) {x : Node × Forest} (hx : x ∈ subs f) (k : Nat) :
    k ∈ f.prunedKeys (fun m => decide (m.key = x.1.key)) ↔ k ∈ (Forest.cons x.1 x.2 .nil).keys := by
  have h1 := Forest.keys_prune_perm (fun m => decide (m.key = x.1.key)) f
  have h2 := (nodes_prune_one hu hx).map Node.key
  rw [List.map_append] at h2
  have h3 := (h1.trans h2).trans List.perm_append_comm
  have h4 := (List.perm_append_right_iff _).1 h3
  rw [Forest.keys_cons, Forest.keys_nil, List.append_nil]
  exact h4.mem_iff

theorem pruned_none {f : Forest} {d : Nat} (h : d ∉ f.keys) : f.prunedKeys (fun m => decide (m.key = d)) = [] := by
  have h1 := (Forest.keys_prune_perm (fun m => decide (m.key = d)) f).length_eq
  rw [prune_key_id h, List.length_append] at h1
  exact List.length_eq_zero_iff.1 (by omega)

theorem spots_setSvg {f : Forest} {x : Node × Forest} (h : svgElement f = some x) {k : Forest} {p : Kind} {z : Kind × Node × Forest}
    (hz : z ∈ spots p (setSvgElement x.1 k f)) : (∃ ks, (z.1, z.2.1, ks) ∈ spots p f) ∨ z ∈ spots x.1.kind k := by
  induction f with
  | nil => cases h
  | cons n q r _ ih =>
    simp only [svgElement] at h
    simp only [setSvgElement] at hz
    split at h
    next e =>
      cases h
      rw [if_pos e] at hz
      simp only [spots, List.mem_cons, List.mem_append] at hz
      rcases hz with rfl | hz | hz
      · exact .inl ⟨q, by simp [spots]⟩
      · exact .inr hz
      · exact .inl ⟨z.2.2, by simp [spots, hz]⟩
    next e =>
      rw [if_neg e] at hz
      simp only [spots, List.mem_cons, List.mem_append] at hz
      rcases hz with rfl | hz | hz
      · exact .inl ⟨q, by simp [spots]⟩
      · exact .inl ⟨z.2.2, by simp [spots, hz]⟩
      · rcases ih h hz with ⟨ks, h⟩ | h
        · exact .inl ⟨ks, by simp [spots, h]⟩
        · exact .inr h

theorem spots_of_sub {f : Forest} {x : Node × Forest} (h : x ∈ subs f) (p : Kind) : ∃ q, (q, x) ∈ spots p f := by
  induction f generalizing p with
  | nil => cases h
  | cons n k r ihk ihr =>
    simp only [subs, List.mem_cons, List.mem_append] at h
    rcases h with rfl | h | h
    · exact ⟨p, by simp [spots]⟩
    · obtain ⟨q, hq⟩ := ihk h n.kind
      exact ⟨q, by simp [spots, hq]⟩
    · obtain ⟨q, hq⟩ := ihr h p
      exact ⟨q, by simp [spots, hq]⟩

/-! ### The main `defs` element is put in its place -/

/-- The elements that are moved. -/
def Going (f : Forest) (k : Nat) : Prop := ∃ z ∈ spots top f, z.2.1.key = k ∧ (isDefinition z.2.1 = true ∨ z.1 = .elem .defs)

theorem going_style {f : Forest} (hu : f.UniqueKeys) {s : Node} (H : Portable f s) {x : Nat} (hx : Going f x) {z : List Node × Node × Forest}
    (hz : locate x [] f = some z) : styleOf z.1 = styleOf [s] := by
  obtain ⟨w, hw, e, h⟩ := hx
  rcases h with h | h
  · obtain ⟨anc, ha⟩ := locate_of_sub hu (spots_subs hw)
    rw [e, hz] at ha
    cases ha
    rw [← e] at hz
    exact H.style anc w.2.1 w.2.2 hz h
  · rcases spots_parent hw with ⟨_, h1⟩ | ⟨p, hp, hm, h1⟩
    · rw [h] at h1; cases h1
    · obtain ⟨anc, ha⟩ := locate_of_sub hu hp
      obtain ⟨ks, hk⟩ := locate_kid hu ha hm
      rw [e, hz] at hk
      cases hk
      have hpd : p.1.kind = .elem .defs := h1.symm.trans h
      rw [styleOf_bare (H.bare p.1 (UnusedDefs.node_of_subs hp) hpd)]
      exact H.style anc p.1 p.2 ha (by unfold isDefinition; rw [hpd])

theorem first {f f1 : Forest} {d : Nat} {s dn : Node} {ks D r : Forest} (hu : f.UniqueKeys) (F : FirstStep f f1 d s dn ks D r) (H : Portable f s)
    {u y : Nat → Prop} (huk : ∀ k, u k → k ∈ f.keys) (hud : ∀ n ∈ f.nodes, n.kind = .elem .defs → ¬ u n.key) (hyu : ∀ k, y k → u k)
    (hy : ∀ k, y k → ShownByUse f k) (hl : LinksIn u f) (hyf : UsesIn y f) : Inv u y (Going f) d s dn f1 ∧ Moved u y f f1 := by
  have P := F.placed
  have hu1 := P.unique
  have hdd : isDefinition dn = true := by unfold isDefinition; rw [P.kind]
  have hbare : Bare dn := by
    rcases F.main with ⟨a, b, _⟩ | ⟨_, e, _⟩
    · exact H.bare dn (UnusedDefs.node_of_subs b) P.kind
    · rw [e]; intro a _; rfl
  have hnodes : ∀ n ∈ f1.nodes, n ∈ f.nodes ∨ (n = dn ∧ d ∉ f.keys ∧ dn = newDefs d) := by
    intro n hn
    rcases F.main with ⟨a, b, c⟩ | ⟨_, e, _, k, c⟩
    · exact .inl (c.mem_iff.1 hn)
    · rcases List.mem_cons.1 (c.mem_iff.1 hn) with h | h
      · exact .inr ⟨h, k, e⟩
      · exact .inl h
  have hkeys : ∀ x ∈ f.keys, x ∈ f1.keys := by
    intro x hx
    obtain ⟨n, hn, rfl⟩ := Forest.mem_keys.1 hx
    refine Forest.key_mem ?_
    rcases F.main with ⟨_, _, c⟩ | ⟨_, _, _, _, c⟩
    · exact c.mem_iff.2 hn
    · exact c.mem_iff.2 (by simp [hn])
  have hsd : (fun n : Node => decide (n.key = d)) s = false := by simpa using P.sne
  have hroot0 := svgElement_prune (p := fun n => decide (n.key = d)) F.root hsd
  have hpr : f1.prune (fun n => decide (n.key = d)) = f.prune fun n => decide (n.key = d) := by
    have h1 := prune_setSvg (p := fun n => decide (n.key = d)) hroot0 hsd (.cons dn D r)
    have hidem : ∀ g : Forest, (g.prune fun n => decide (n.key = d)).prune (fun n => decide (n.key = d)) = g.prune fun n => decide (n.key = d) := by
      intro g
      rw [prune_prune]
      exact prune_congr fun n _ => by simp
    rw [F.eq]
    dsimp only at h1
    rw [h1, hidem, Forest.prune, if_pos (by simp [P.key]), F.rest, hidem]
    exact setSvg_self hroot0
  have hspots : ∀ z ∈ spots top f1, (∃ ks, (z.1, z.2.1, ks) ∈ spots top f) ∨ (z.1 = .elem .svg ∧ z.2.1 = dn) := by
    intro z hz
    rw [F.eq] at hz
    rcases spots_setSvg hroot0 hz with ⟨ks, h⟩ | h
    · obtain ⟨k, h⟩ := spots_prune h
      exact .inl ⟨k, h⟩
    · simp only [spots, List.mem_cons, List.mem_append] at h
      rcases h with rfl | h | h
      · exact .inr ⟨P.svg, rfl⟩
      · rcases F.main with ⟨_, b, _⟩ | ⟨_, _, e, _⟩
        · exact .inl ⟨z.2.2, spots_of_subs b z h⟩
        · rw [e] at h; cases h
      · rw [F.rest] at h
        obtain ⟨k, h⟩ := spots_prune h
        exact .inl ⟨k, spots_of_subs (svgElement_mem F.root).1 _ h⟩
  have hplace : ∀ z ∈ spots top f1, isDefinition z.2.1 = true → gone z.1 z.2.1.kind = true := by
    intro z hz hd
    rcases hspots z hz with ⟨k, h⟩ | ⟨h1, h2⟩
    · exact H.place (z.1, z.2.1, k) h hd
    · rw [h1, h2, P.kind]; rfl
  have hh1 : Harmless (fun n => decide (n.key = d)) top f1 := by
    intro z hz he
    have hk : z.2.1.key = d := by simpa using he
    have : z.2.1 = dn := Forest.eq_of_key hu1 (spots_nodes hz) (UnusedDefs.node_of_subs P.sub_main) (hk.trans P.key.symm)
    exact .inl ⟨hplace z hz (this ▸ hdd), (neverRendered_def (this ▸ hdd)).1⟩
  have hh : Harmless (fun n => decide (n.key = d)) top f := by
    intro z hz he
    have hk : z.2.1.key = d := by simpa using he
    rcases F.main with ⟨_, b, _⟩ | ⟨_, _, _, hd, _⟩
    · have : z.2.1 = dn := Forest.eq_of_key hu (spots_nodes hz) (UnusedDefs.node_of_subs b) (hk.trans P.key.symm)
      exact .inl ⟨H.place z hz (this ▸ hdd), (neverRendered_def (this ▸ hdd)).1⟩
    · exact absurd (hk ▸ Forest.key_mem (spots_nodes hz)) hd
  have hfound : ∀ x z, locate x [] f = some z → ∃ z', locate x [] f1 = some z' ∧ z'.2.1 = z.2.1 ∧
      (z'.1 = z.1 ∨ ∃ inner anc, z.1 = inner ++ anc ∧ z'.1 = inner ++ [s] ∧ styleOf anc = styleOf [s]) ∧
      (z.2.1.kind ≠ .elem .defs → SameInst z.2.1 z.2.2 z'.2.1 z'.2.2) := by
    intro x z hz
    by_cases hx : x ∈ (Forest.cons dn D .nil).keys
    · rcases F.main with ⟨_, b, _⟩ | ⟨_, _, e, hd, _⟩
      swap
      · subst e
        simp only [Forest.keys_cons, Forest.keys_nil, List.append_nil, List.mem_singleton] at hx
        rw [hx, P.key] at hz
        exact absurd (locate_key hz) hd
      obtain ⟨anc, ha⟩ := locate_of_sub hu b
      have h1 := locate_inside hu ha hx
      have h2 := locate_inside hu1 P.loc hx
      rw [hz, locate_acc] at h1
      rw [locate_acc x [s]] at h2
      obtain ⟨w, hw, e⟩ := Option.map_eq_some_iff.1 h1.symm
      rw [hw, Option.map_some] at h2
      refine ⟨_, h2, by rw [← e], .inr ⟨w.1, anc, by rw [← e], rfl, H.style anc dn D ha hdd⟩, fun _ => by rw [← e]; exact fun _ _ _ _ _ => rfl⟩
    · have p1 : x ∉ f1.prunedKeys fun n => decide (n.key = d) := by
        have := (pruned_one hu1 P.sub_main x).not.2 hx
        rwa [P.key] at this
      have p0 : x ∉ f.prunedKeys fun n => decide (n.key = d) := by
        rcases F.main with ⟨_, b, _⟩ | ⟨_, _, _, hd, _⟩
        · have := (pruned_one hu b x).not.2 hx
          rwa [P.key] at this
        · rw [pruned_none hd]; simp
      obtain ⟨z1, hz1⟩ := locate_some (hkeys x (locate_key hz)) []
      have h0 := locate_prune p0 []
      have h1 := locate_prune p1 []
      rw [hpr, h0, hz, hz1, Option.map_some, Option.map_some] at h1
      have h1 := Option.some.inj h1
      simp only [Prod.mk.injEq] at h1
      obtain ⟨e1, e2, e3⟩ := h1
      refine ⟨z1, hz1, e2.symm, .inl e1.symm, fun hk => ?_⟩
      have a := sameInst_prune (hh.kids (locate_mem hz).2) hk
      have b := sameInst_prune (hh1.kids (locate_mem hz1).2) (e2 ▸ hk)
      rw [e3, e2] at a
      rw [e2]
      exact a.trans fun P π env via c => (b P π env via c).symm
  have hstyle : ∀ {z z' : List Node × Node × Forest}, (z'.1 = z.1 ∨ ∃ inner anc, z.1 = inner ++ anc ∧ z'.1 = inner ++ [s] ∧ styleOf anc = styleOf [s]) →
      styleOf z'.1 = styleOf z.1 := by
    rintro z z' (h | ⟨i, a, h1, h2, h3⟩)
    · rw [h]
    · rw [h1, h2]; exact (styleOf_append h3 i).symm
  have hback : ∀ {x z'}, x ∈ f.keys → locate x [] f1 = some z' → ∃ z, locate x [] f = some z ∧ z'.2.1 = z.2.1 ∧
      (z'.1 = z.1 ∨ ∃ inner anc, z.1 = inner ++ anc ∧ z'.1 = inner ++ [s] ∧ styleOf anc = styleOf [s]) := by
    intro x z' hx hz'
    obtain ⟨z, hz⟩ := locate_some hx []
    obtain ⟨z2, h2, e, h3, _⟩ := hfound x z hz
    rw [hz'] at h2
    cases h2
    exact ⟨z, hz, e, h3⟩
  refine ⟨⟨⟨D, r, P⟩, fun n hn hk => ?_, hplace, fun x hx z' hz' => ?_, fun z hz m hm hs t => ?_, fun x hx z' hz' hs => ?_, fun z hz hk => ?_,
    fun n hn => ?_, fun n hn hk => ?_⟩, ⟨fun {T} π env => ?_, fun x a m ks' hux hz => ?_⟩⟩
  · rcases hnodes n hn with h | ⟨rfl, h, _⟩
    · exact hud n h hk
    · intro hh
      rw [P.key] at hh
      exact h (huk d hh)
  · have hxf : x ∈ f.keys := by
      obtain ⟨w, hw, e, _⟩ := hx
      exact e ▸ Forest.key_mem (spots_nodes hw)
    obtain ⟨z, hz, _, h⟩ := hback hxf hz'
    rw [hstyle h, going_style hu H hx hz, styleOf_bare hbare]
  · rcases hspots z hz with ⟨k, h⟩ | ⟨h1, h2⟩
    · rcases spots_parent h with ⟨_, h1⟩ | ⟨x, hx, hm1, h1⟩
      · dsimp only at h1
        rw [h1] at hm
        unfold isScene at hs
        rw [hm] at hs
        cases hs
      · refine H.own x hx ?_ z.2.1 hm1 t
        have : x.1.kind = m.kind := h1.symm.trans hm.symm
        unfold isScene at hs ⊢
        rwa [this]
    · rw [h2, P.kind]; simp
  · obtain ⟨z, hz, e, h⟩ := hback (huk x (hyu x hx)) hz'
    have old : isScene z.2.1 = true ∨ ∃ p t, z.1 = p :: t ∧ isScene p = true := by
      rcases hs with hs | ⟨p, t, hp, hs⟩
      · exact .inl (e ▸ hs)
      · rcases h with h | ⟨i, anc, h1, h2, _⟩
        · exact .inr ⟨p, t, h ▸ hp, hs⟩
        · cases i with
          | nil =>
            rw [h2] at hp
            cases hp
            unfold isScene at hs
            rw [P.svg] at hs
            cases hs
          | cons b i =>
            rw [h2] at hp
            cases hp
            exact .inr ⟨_, _, h1, hs⟩
    have hpl := H.plain x (hy x hx) z.1 z.2.1 z.2.2 hz old
    refine ⟨fun a ha => ?_, clean_of_bare hbare, clean_of_bare (hpl s (by simp))⟩
    rcases h with h | ⟨i, anc, e1, e2, _⟩
    · exact clean_of_bare (hpl a (by simp [h ▸ ha]))
    · rw [e2] at ha
      refine clean_of_bare (hpl a ?_)
      rcases List.mem_append.1 ha with ha | ha
      · rw [e1]; simp [ha]
      · simp only [List.mem_singleton] at ha
        simp [ha]
  · rcases hspots z hz with ⟨k, h⟩ | ⟨h1, h2⟩
    · exact ⟨_, h, rfl, .inr hk⟩
    · rw [hk] at h1; cases h1
  · rcases hnodes n hn with h | ⟨rfl, _, h⟩
    · exact hl n h
    · intro k hk; rw [h] at hk; cases hk
  · rcases hnodes n hn with h | ⟨rfl, _, _⟩
    · exact hyf n h hk
    · rw [P.kind] at hk; cases hk
  · rw [Skip.stack (pics_prune hh (by decide) π env Ctx.start) (by decide), Skip.stack (pics_prune hh1 (by decide) π env Ctx.start) (by decide), hpr]
  · obtain ⟨z', hz', e, h3, h4⟩ := hfound x _ hz
    have hmk : m.key = x := (locate_mem hz).1
    have hmf : m ∈ f.nodes := UnusedDefs.node_of_subs (locate_mem hz).2
    have hne : m.kind ≠ .elem .defs := fun hd => hud m hmf hd (hmk ▸ hux)
    exact ⟨z'.1, z'.2.1, z'.2.2, hz', by rw [e], hstyle (z := (a, m, ks')) h3, (h4 hne).here _, fun _ => h4 hne⟩

/-! ### The theorem -/

/-- **C35** (partial): if the definitions look the same wherever they stand, then the picture is the same after the pass. -/
theorem C35_look_partial {f g : Forest} {s : Node} (hu : f.UniqueKeys) (hlk : f.LinksOk) (H : Portable f s) (h : groupDefs f = some g) :
    SameLook f g := by
  unfold groupDefs at h
  dsimp only at h
  obtain ⟨f1, h1, h⟩ := Option.bind_eq_some_iff.1 h
  obtain ⟨f2, h2, rfl⟩ := Option.map_eq_some_iff.1 h
  obtain ⟨s', dn, ks, D, r, F⟩ := firstStep hu h1
  have hs : s' = s := by
    obtain ⟨k, hk⟩ := H.root
    have := F.root
    rw [hk] at this
    cases this
    rfl
  subst hs
  generalize (mainDefs f).1.key = d at *
  have P := F.placed
  let u : Nat → Prop := fun k => ∃ n ∈ f.nodes, k ∈ n.links
  have huk : ∀ k, u k → k ∈ f.keys := fun k ⟨n, hn, hk⟩ => hlk n hn k hk
  have hyu : ∀ k, ShownByUse f k → u k := by
    rintro k ⟨n, hn, _, hg⟩
    refine ⟨n, hn, ?_⟩
    obtain ⟨x, hx, e⟩ := Option.map_eq_some_iff.1 hg
    exact List.mem_filterMap.2 ⟨x, (getAttr_mem hx).1, by rw [e]; rfl⟩
  obtain ⟨I1, M1⟩ := first hu F H (u := u) (y := ShownByUse f) huk (fun n hn hk ⟨m, hm, hh⟩ => H.unused n hn hk m hm hh) hyu (fun _ h => h)
    (fun n hn k hk => ⟨n, hn, hk⟩) (fun n hn hk k hg => ⟨n, hn, hk, hg⟩)
  obtain ⟨hmv, hs, hd⟩ := strays_state P
  have hdef : ∀ m ∈ f1.nodes, m.key ∈ strays d none f1 → isDefinition m = true := by
    intro m hm hk
    rw [isDefinition_eq, ((mem_strays_top P.unique hm).1 hk).1]
    simp
  have hgo : ∀ m ∈ f1.nodes, isDefinition m = true → m.key ≠ d → Going f m.key := by
    intro m hm hdm hne
    have hmf : m ∈ f.nodes := by
      rcases F.main with ⟨_, _, c⟩ | ⟨_, e, _, _, c⟩
      · exact c.mem_iff.1 hm
      · rcases List.mem_cons.1 (c.mem_iff.1 hm) with h | h
        · rw [h] at hne; exact absurd P.key hne
        · exact h
    obtain ⟨c, hc⟩ := UnusedDefs.mem_subs_of_node hmf
    obtain ⟨p, hp⟩ := spots_of_sub hc top
    exact ⟨(p, m, c), hp, rfl, .inl hdm⟩
  obtain ⟨I2, M2⟩ := I1.refs hyu (fun k hk => ⟨fun e => hd (by rw [e] at hk; exact hk), fun e => hs (by rw [e] at hk; exact hk), by
    obtain ⟨m, hm, rfl⟩ := Forest.mem_keys.1 ((strays_sub d none f1).mem hk)
    exact hgo m hm (hdef m hm hk) fun e => hd (by rw [e] at hk; exact hk)⟩) hdef h2
  obtain ⟨l, e, M, hall⟩ := moves P h2
  obtain ⟨D2, r2, P2⟩ := I2.placed
  have hdk : ∀ z ∈ spots top f2, z.2.1.key ∈ defsKids d f2 → z.1 = .elem .defs := by
    intro z hz hk
    obtain ⟨x, hx, ho, n, hn, e⟩ := mem_defsKids.1 hk
    simp only [otherDefs, Node.isTag, Bool.and_eq_true, decide_eq_true_eq] at ho
    rcases spots_parent hz with ⟨a, _⟩ | ⟨w, hw, hm, e2⟩
    · exact absurd e (top_not_kid P2.unique a hx hn)
    · rw [e2, Stops.parent_unique P2.unique hw hx hm hn e.symm]
      exact ho.1
  obtain ⟨I3, M3⟩ := I2.all (l := defsKids d f2) hyu (fun k hk => by
    obtain ⟨x, hx, ho, n, hn, rfl⟩ := mem_defsKids.1 hk
    obtain ⟨c, hc⟩ := UnusedDefs.mem_subs_of_node (kid_nodes hx hn)
    obtain ⟨p, hp⟩ := spots_of_sub hc top
    refine ⟨fun e => ?_, fun e => ?_, I2.kids _ hp (hdk _ hp hk)⟩
    · have := Stops.parent_unique P2.unique hx P2.sub_root hn (d := dn) (by simp [Forest.top]) (by rw [e, P2.key])
      simp only [otherDefs, Node.isTag, Bool.and_eq_true, decide_eq_true_eq] at ho
      have h := P2.svg
      rw [this] at ho
      rw [ho.1] at h
      cases h
    · exact top_not_kid P2.unique (svgElement_top P2.root) hx hn e) hdk
  obtain ⟨hrem, M4⟩ := I3.drop hyu (q := otherDefs d) (fun n _ ho => by
    simp only [otherDefs, Node.isTag, Bool.and_eq_true, decide_eq_true_eq] at ho
    exact ho.1) (fun x hx ho => M.empty P (by rw [← hall]; exact hx) ho)
  rw [hrem]
  refine sameLook_of_moved (((M1.trans M2).trans M3).trans M4) ?_ ?_ huk hyu
  · exact fun n hn => I3.links n ((Forest.nodes_prune_sublist _ _).mem hn)
  · exact fun n hn => I3.uses n ((Forest.nodes_prune_sublist _ _).mem hn)

end Verif.GroupDefs
