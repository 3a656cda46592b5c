import Verif.InvisibleProps
import Verif.GradUnitsProps
/-
Property C38, continued: clip paths and filters without content, and the elements that refer to them.
-/
namespace Verif.Invisible
open Verif.Dom Verif.Spec Verif.Render
open Verif.Paths (Transform)

/-! ### Removing several elements -/

theorem rmKeys_inv {I : Forest → Prop} (hI : ∀ g k, Good g → Drop g k → I g → I (rmKey k g)) {ks : List Nat} {f : Forest} (hf : Good f)
    (h : ∀ k ∈ ks, Drop f k) (hi : I f) : I (rmKeys ks f) := by
  induction ks generalizing f with
  | nil => exact hi
  | cons j ks ih =>
    have hj := h j List.mem_cons_self
    exact ih (f := rmKey j f) (hf.remove _) (fun k hk => hj.keep hf (h k (List.mem_cons_of_mem _ hk))) (hI f j hf hj hi)

theorem rmKeys_keys {ks : List Nat} {f : Forest} (hf : f.UniqueKeys) {n : Node} (h : n ∈ (rmKeys ks f).nodes) :
    n.key ∉ ks ∧ ∃ m ∈ f.nodes, n.key = m.key ∧ (∀ y ∈ n.attrs, y ∈ m.attrs) := by
  induction ks generalizing f with
  | nil => exact ⟨by simp, n, h, rfl, fun _ h => h⟩
  | cons j ks ih =>
    obtain ⟨h1, m, hm, e, ha⟩ := ih (f := rmKey j f) (Forest.uniqueKeys_remove hf) h
    obtain ⟨w, hw, rfl, hj⟩ := remove_node hm
    refine ⟨?_, w, hw, e, fun y hy => List.mem_of_mem_filter (ha y hy)⟩
    simp only [List.mem_cons, not_or]
    refine ⟨?_, h1⟩
    rw [e]
    simpa using hj

/-! ### Servers that show nothing -/

/-- The elements with the keys in `C` show nothing as clip paths or filters, stand where they have no effect and have no
children; only the attribute `a` refers to them, and the elements which have it stand where an element that shows nothing has no
effect, only `use` elements refer to them, and nothing refers to their descendants. -/
structure Servers (a : AId) (C : List Nat) (f : Forest) : Prop where
  good : Good f
  spot : ∀ p n ks, (p, n, ks) ∈ spots top f → n.key ∈ C → gone p n.kind = true ∧ neverRendered n.kind = true ∧ ks.isEmpty = true
  void : ∀ k ∈ C, Used f k → Void f k
  users : ∀ p n ks, (p, n, ks) ∈ spots top f → ∀ y ∈ n.attrs, ∀ k ∈ C, y.value.target = some k →
    y.name = .id a ∧ y.value = .funcLink k ∧ n.isSvgElem = true ∧ Apart f p n ks

theorem Servers.remove {a : AId} {C : List Nat} {f : Forest} (h : Servers a C f) {j : Nat} (hj : Drop f j) : Servers a C (rmKey j f) := by
  have hc := hj.cut h.good
  refine ⟨h.good.remove _, fun p n ks hx hn => ?_, fun k hk hu => hc.void hu (h.void k hk (left_of_used hu).1), fun p n ks hx y hy k hk ht => ?_⟩
  · obtain ⟨m, c, h1, rfl, _, _, h5⟩ := spots_remove hx
    obtain ⟨u, v, w⟩ := h.spot p m c h1 hn
    exact ⟨u, v, h5 w⟩
  · obtain ⟨m, c, h1, rfl, _, h4, h5⟩ := spots_remove hx
    obtain ⟨u, v, s, w⟩ := h.users p m c h1 y (List.mem_of_mem_filter hy) k hk ht
    exact ⟨u, v, s, w.remove rfl h4⟩

/-- An element with a clip path or filter that shows nothing shows nothing. -/
theorem nothing_of_server {f : Forest} {n : Node} {ks : Forest} {a : AId} (ha : a = .clipPath ∨ a = .filter) {k : Nat} (hn : n.isSvgElem = true)
    (hg : n.get a = some (.funcLink k)) (hv : Void f k) : Nothing f n ks := by
  intro P π d c via
  cases hk : n.kind with
  | elem e =>
    rw [body_elem hk]
    have : inner π (scene π f d) via c n e (pics π (scene π f d) (c.enter n) ks) = π.empty := by
      unfold inner
      have hs : seenAttr (scene π f d) n a = some (.ref π.empty) := by
        unfold seenAttr
        rw [hg]
        simp [seeFunc, hv P π d]
      rcases ha with rfl | rfl
      · rw [hs, π.clip_all]
      · rw [hs, π.filter_all]
    rw [this, π.fade_empty]
    simp
  | _ => simp [Node.isSvgElem, hk] at hn

theorem get_of_mem {n : Node} (hn : (n.attrs.map (·.name)).Nodup) {y : Attr} (hy : y ∈ n.attrs) {a : AId} (ha : y.name = .id a) :
    n.get a = some y.value := by
  have := GradUnits.getAttr_of_mem hn hy
  unfold Node.get
  rw [← ha, this]
  rfl

theorem nodes_spots {f : Forest} {n : Node} (p : Kind) (h : n ∈ f.nodes) : ∃ q ks, (q, n, ks) ∈ spots p f := by
  induction f generalizing p with
  | nil => cases h
  | cons m c r ihc ihr =>
    simp only [Forest.nodes_cons, List.mem_cons, List.mem_append] at h
    simp only [spots, List.mem_cons, List.mem_append]
    rcases h with rfl | h | h
    · exact ⟨_, _, .inl rfl⟩
    · obtain ⟨q, ks, h⟩ := ihc m.kind h
      exact ⟨q, ks, .inr (.inl h)⟩
    · obtain ⟨q, ks, h⟩ := ihr p h
      exact ⟨q, ks, .inr (.inr h)⟩

theorem Servers.server {a : AId} (ha : a = .clipPath ∨ a = .filter) {C : List Nat} {f : Forest} (h : Servers a C f) {k : Nat} (hk : k ∈ C) :
    SameLook f (rmServer k f) ∧ Servers a C (rmServer k f) := by
  have hd : ∀ j ∈ (f.linkedAll k).map (·.key), Drop f j := by
    intro j hj
    obtain ⟨n, hn, rfl⟩ := List.mem_map.1 hj
    obtain ⟨hn, hl⟩ := GradUnits.mem_linkedAll.1 hn
    obtain ⟨y, hy, ht⟩ := Node.mem_links.1 hl
    obtain ⟨p, ks, hx⟩ := nodes_spots top hn
    obtain ⟨u, v, s, w⟩ := h.users p n ks hx y hy k hk ht
    refine w.drop_nothing h.good hx (nothing_of_server ha s (k := k) ?_ (h.void k hk (Forest.isUsed_iff.2 ⟨n, hn, hl⟩)))
    rw [get_of_mem (h.good.attrs n hn) hy u, v]
  obtain ⟨h1, h2⟩ := rmKeys_look h.good hd
  have h3 : Servers a C (rmKeys ((f.linkedAll k).map (·.key)) f) :=
    rmKeys_inv (I := Servers a C) (fun g j _ hj hg => hg.remove hj) h.good hd h
  have h4 : (rmKeys ((f.linkedAll k).map (·.key)) f).isUsed k = false := by
    by_contra hc
    obtain ⟨n, hn, hl⟩ := Forest.isUsed_iff.1 (Bool.eq_true_of_not_eq_false hc)
    obtain ⟨e1, m, hm, e2, e3⟩ := rmKeys_keys h.good.keys hn
    obtain ⟨y, hy, ht⟩ := Node.mem_links.1 hl
    refine e1 ?_
    rw [e2]
    exact List.mem_map_of_mem (GradUnits.mem_linkedAll.2 ⟨hm, Node.mem_links.2 ⟨y, e3 y hy, ht⟩⟩)
  unfold rmServer
  generalize rmKeys ((f.linkedAll k).map (·.key)) f = g at h1 h2 h3 h4 ⊢
  have h5 : Drop g k := by
    refine ⟨fun p n ks hx hn => ?_, fun x hx y hy ht => ?_⟩
    · subst hn
      obtain ⟨u, v, w⟩ := h3.spot p n ks hx hk
      refine ⟨u, .inr (fun P π d c _ => ?_), fun m hm => ?_⟩
      · unfold draw
        rw [if_pos v]
      · cases ks with
        | nil => cases hm
        | cons => cases w
    · rw [Forest.isUsed_iff.2 ⟨x, hx, Node.mem_links.2 ⟨y, hy, ht⟩⟩] at h4
      cases h4
  exact ⟨h1.trans (h5.look h2), h3.remove h5⟩

theorem Servers.all {a : AId} (ha : a = .clipPath ∨ a = .filter) {C : List Nat} {f : Forest} (h : Servers a C f) {L : List Nat} (hL : ∀ k ∈ L, k ∈ C) :
    SameLook f (L.foldl (fun g k => rmServer k g) f) := by
  induction L generalizing f with
  | nil => exact SameLook.refl f
  | cons k L ih =>
    obtain ⟨a, b⟩ := h.server ha (hL k List.mem_cons_self)
    exact a.trans (ih b (fun j hj => hL j (List.mem_cons_of_mem _ hj)))

/-- A clip path or filter without children, reference and filter. -/
def bareServer (n : Node) : Bool :=
  unfiltered n && (n.isTag .clipPath || (n.isTag .filter && match n.get .xlinkHref with | some v => v.target.isNone | none => true))

theorem bareServer_nothing {n : Node} (h : bareServer n = true) (f : Forest) : Nothing f n .nil := by
  simp only [bareServer, Bool.and_eq_true, Bool.or_eq_true] at h
  rcases h.2 with h2 | ⟨h2, h3⟩
  · exact nothing_of_core ((Node.isTag_iff _ _).1 h2) h.1 (fun P π d c via => π.no_clip _ _ _)
  · refine nothing_of_core ((Node.isTag_iff _ _).1 h2) h.1 (fun P π d c via => π.no_filter _ _ _ ?_)
    unfold own
    rw [if_pos (by decide)]
    unfold Node.get at h3
    cases hx : getAttr n.attrs (.id .xlinkHref) with
    | none => rfl
    | some y =>
      rw [hx] at h3
      simp only [Option.map_some] at h3 ⊢
      unfold see
      cases ht : y.value.target with
      | none => rfl
      | some k => rw [ht] at h3; cases h3

/-- What a step needs of the clip paths or filters that it removes and of the elements that refer to them. -/
structure Unused (a : AId) (C : List Nat) (f : Forest) : Prop where
  good : Good f
  spot : ∀ p n ks, (p, n, ks) ∈ spots top f → n.key ∈ C → gone p n.kind = true ∧ bareServer n = true
  users : ∀ p n ks, (p, n, ks) ∈ spots top f → ∀ y ∈ n.attrs, ∀ k ∈ C, y.value.target = some k →
    y.name = .id a ∧ y.value = .funcLink k ∧ n.isSvgElem = true ∧ Apart f p n ks

theorem bareServer_never {n : Node} (h : bareServer n = true) : neverRendered n.kind = true := by
  simp only [bareServer, Bool.and_eq_true, Bool.or_eq_true] at h
  rcases h.2 with h | h
  · rw [(Node.isTag_iff _ _).1 h]; rfl
  · rw [(Node.isTag_iff _ _).1 h.1]; rfl

theorem Unused.servers {a : AId} {C : List Nat} {f : Forest} (h : Unused a C f) (hl : f.LinksOk)
    (he : ∀ p n ks, (p, n, ks) ∈ spots top f → n.key ∈ C → ks.isEmpty = true) : Servers a C f := by
  refine ⟨h.good, fun p n ks hx hn => ?_, fun k hk hu => ?_, h.users⟩
  · obtain ⟨u, v⟩ := h.spot p n ks hx hn
    exact ⟨u, bareServer_never v, he p n ks hx hn⟩
  · obtain ⟨m, hm, hlk⟩ := Forest.isUsed_iff.1 hu
    obtain ⟨n, hn, e⟩ := Forest.mem_keys.1 (hl m hm k hlk)
    subst e
    obtain ⟨p, ks, hx⟩ := nodes_spots top hn
    obtain ⟨u, v⟩ := h.spot p n ks hx hk
    have := he p n ks hx hk
    cases ks with
    | nil => exact (bareServer_nothing v f).void h.good.keys hx
    | cons => cases this

theorem emptyFilters_spots {f : Forest} {k : Nat} (p : Kind) (h : k ∈ emptyFilters f) : ∃ q n, (q, n, .nil) ∈ spots p f ∧ n.key = k := by
  induction f generalizing p with
  | nil => cases h
  | cons m c r ihc ihr =>
    simp only [emptyFilters, List.mem_append] at h
    simp only [spots, List.mem_cons, List.mem_append]
    rcases h with (h | h) | h
    · split at h
      next hm =>
        simp only [List.mem_singleton] at h
        simp only [Bool.and_eq_true] at hm
        cases c with
        | nil => exact ⟨p, m, .inl rfl, h.symm⟩
        | cons => exact absurd hm.2 (by simp [Forest.isEmpty])
      · cases h
    · obtain ⟨q, n, a, b⟩ := ihc m.kind h
      exact ⟨q, n, .inr (.inl a), b⟩
    · obtain ⟨q, n, a, b⟩ := ihr p h
      exact ⟨q, n, .inr (.inr a), b⟩

/-- **C38**, filters without children and the elements that refer to them. -/
theorem C38_filters_partial {f : Forest} (hl : f.LinksOk) (h : Unused .filter (emptyFilters f) f) : SameLook f (filterStep f).1 := by
  refine (h.servers hl (fun p n ks hx hn => ?_)).all (.inr rfl) (fun _ h => h)
  obtain ⟨q, m, a, b⟩ := emptyFilters_spots top hn
  cases spots_unique h.good.keys a hx b
  rfl

/-! ### Invalid children of clip paths -/

/-- Neither the element nor its descendants are referred to; it has no effect in a clip path. -/
def Harmless (f : Forest) (n : Node) (ks : Forest) : Prop :=
  f.isUsed n.key = false ∧ (∀ m ∈ ks.nodes, f.isUsed m.key = false) ∧
    (clipKind n.kind = false ∨ (n.isTag .use = true ∧ n.get .xlinkHref = none ∧ unfiltered n = true))

/-- The invalid children of clip paths are harmless. -/
structure ClipOk (f : Forest) : Prop where
  good : Good f
  kids : ∀ p n ks, (p, n, ks) ∈ spots top f → p = .elem .clipPath → validClip f n = false → Harmless f n ks

/-- The element with the key `k` is a harmless child of a clip path. -/
def Spare (f : Forest) (k : Nat) : Prop := ∀ p n ks, (p, n, ks) ∈ spots top f → n.key = k → p = .elem .clipPath ∧ Harmless f n ks

theorem Spare.drop {f : Forest} {k : Nat} (h : Spare f k) (hk : f.isUsed k = false) : Drop f k := by
  refine ⟨fun p n ks hx hn => ?_, fun x hx y hy ht => ?_⟩
  · obtain ⟨rfl, h1, h2, h3⟩ := h p n ks hx hn
    rcases h3 with h3 | ⟨h3, h4, h5⟩
    · have : unseen (.elem .clipPath) n.kind = true := by simp [unseen, h3]
      exact ⟨by simp [gone, this], .inl this, h2⟩
    · have hu := (Node.isTag_iff _ _).1 h3
      refine ⟨by rw [hu]; rfl, .inr (emptyUse_nothing ?_ h5 f ks).undrawn, h2⟩
      simp only [emptyUse, h3, Bool.true_and]
      rw [Node.has_eq, h4]
      rfl
  · rw [Forest.isUsed_iff.2 ⟨x, hx, Node.mem_links.2 ⟨y, hy, ht⟩⟩] at hk
    cases hk

theorem Spare.pruned {f : Forest} {j : Nat} (h : Spare f j) : ∀ x ∈ f.prunedKeys (fun m => decide (m.key = j)), f.isUsed x = false := by
  intro x hx
  obtain ⟨y, hy, he⟩ := mem_prunedKeys top hx
  obtain ⟨a, b⟩ := cuts_spots hy
  obtain ⟨_, h1, h2, _⟩ := h y.1 y.2.1 y.2.2 a (by simpa using b)
  rcases he with rfl | he
  · exact h1
  · obtain ⟨m, hm, rfl⟩ := Forest.mem_keys.1 he
    exact h2 m hm

theorem Spare.node {f : Forest} {j : Nat} (hj : Spare f j) {p : Kind} {n : Node} {ks : Forest} (hx : (p, n, ks) ∈ spots top (rmKey j f)) :
    ∃ k, (p, n, k) ∈ spots top f ∧ (∀ x ∈ ks.nodes, ∃ y ∈ k.nodes, x.key = y.key) := by
  obtain ⟨m, k, h1, h2, _, h4, _⟩ := spots_remove hx
  rw [unlink_pruned hj.pruned (spots_nodes h1).1] at h2
  subst h2
  exact ⟨k, h1, h4⟩

theorem Harmless.remove {f : Forest} {pr : Node → Bool} {n : Node} {ks k : Forest} (h : Harmless f n k)
    (hk : ∀ x ∈ ks.nodes, ∃ y ∈ k.nodes, x.key = y.key) : Harmless (f.remove pr) n ks := by
  refine ⟨used_remove h.1, fun x hx => ?_, h.2.2⟩
  obtain ⟨y, hy, e⟩ := hk x hx
  rw [e]
  exact used_remove (h.2.1 y hy)

theorem Spare.remove {f : Forest} {j k : Nat} (hj : Spare f j) (h : Spare f k) : Spare (rmKey j f) k := by
  intro p n ks hx hn
  obtain ⟨c, h1, h2⟩ := hj.node hx
  obtain ⟨a, b⟩ := h p n c h1 hn
  exact ⟨a, b.remove h2⟩

theorem prune_mem {f : Forest} {pr : Node → Bool} {n : Node} (h : n ∈ f.nodes) (hk : n.key ∉ f.prunedKeys pr) : n ∈ (f.prune pr).nodes := by
  induction f with
  | nil => cases h
  | cons m c r ihc ihr =>
    simp only [Forest.prunedKeys] at hk
    simp only [Forest.nodes_cons, List.mem_cons, List.mem_append] at h
    cases hp : pr m with
    | true =>
      rw [hp] at hk
      simp only [if_true, List.cons_append, List.mem_cons, List.mem_append, not_or] at hk
      simp only [Forest.prune, hp, if_true]
      rcases h with rfl | h | h
      · exact absurd rfl hk.1
      · exact absurd (Forest.key_mem h) hk.2.1
      · exact ihr h hk.2.2
    | false =>
      rw [hp] at hk
      simp only [Bool.false_eq_true, if_false, List.mem_append, not_or] at hk
      simp only [Forest.prune, hp, Bool.false_eq_true, if_false, Forest.nodes_cons, List.mem_cons, List.mem_append]
      rcases h with rfl | h | h
      · exact .inl rfl
      · exact .inr (.inl (ihc h hk.1))
      · exact .inr (.inr (ihr h hk.2))

theorem Spare.valid {f : Forest} (hf : Good f) {j : Nat} (hj : Spare f j) {n : Node} (hn : n ∈ f.nodes) (h : validClip f n = true) : validClip (rmKey j f) n = true := by
  unfold validClip at *
  by_cases hu : n.isTag .use = true
  · rw [if_pos hu] at h ⊢
    cases hg : n.get .xlinkHref with
    | none => rw [hg] at h; exact h
    | some v =>
      rw [hg] at h
      cases v with
      | link k =>
        simp only at h ⊢
        cases hl : f.find k with
        | none => rw [hl] at h; cases h
        | some l =>
          rw [hl] at h
          obtain ⟨h1, h2⟩ := Forest.find_some hl
          have hk : k ∈ n.links := by
            unfold Node.get at hg
            cases hy : getAttr n.attrs (.id .xlinkHref) with
            | none => rw [hy] at hg; cases hg
            | some y =>
              rw [hy] at hg
              simp only [Option.map_some, Option.some.injEq] at hg
              exact Node.mem_links.2 ⟨y, getAttr_mem hy, by rw [hg]; rfl⟩
          have hp : l.key ∉ f.prunedKeys (fun m => decide (m.key = j)) := by
            intro hc
            have := hj.pruned _ hc
            rw [h2, Forest.isUsed_iff.2 ⟨n, hn, hk⟩] at this
            cases this
          have hm : l ∈ (rmKey j f).nodes := by
            unfold rmKey
            rw [remove_eq]
            unfold Render.cut
            rw [Forest.nodes_map]
            exact List.mem_map.2 ⟨l, prune_mem h1 hp, unlink_pruned hj.pruned h1⟩
          have := Forest.find_of_mem (Forest.uniqueKeys_remove hf.keys) hm
          rw [h2] at this
          unfold rmKey
          rw [this]
          exact h
      | _ => exact h
  · rw [if_neg hu] at h ⊢
    exact h

theorem ClipOk.remove {f : Forest} (h : ClipOk f) {j : Nat} (hj : Spare f j) : ClipOk (rmKey j f) := by
  refine ⟨h.good.remove _, fun p n ks hx hp hv => ?_⟩
  obtain ⟨c, h1, h2⟩ := hj.node hx
  refine (h.kids p n c h1 hp ?_).remove h2
  by_contra hc
  rw [hj.valid h.good (spots_nodes h1).1 (Bool.eq_true_of_not_eq_false hc)] at hv
  cases hv

theorem used_spare {f : Forest} {k : Nat} (h : Spare f k) (hl : f.LinksOk) : f.isUsed k = false := by
  by_contra hc
  have hc := Bool.eq_true_of_not_eq_false hc
  obtain ⟨m, hm, hlk⟩ := Forest.isUsed_iff.1 hc
  obtain ⟨n, hn, e⟩ := Forest.mem_keys.1 (hl m hm k hlk)
  obtain ⟨p, ks, hx⟩ := nodes_spots top hn
  have := (h p n ks hx e).2.1
  rw [e, hc] at this
  cases this

theorem clipRm {L : List Nat} {f : Forest} (hf : ClipOk f) (hl : f.LinksOk) (h : ∀ k ∈ L, Spare f k) :
    SameLook f (rmKeys L f) ∧ ClipOk (rmKeys L f) ∧ (rmKeys L f).LinksOk := by
  induction L generalizing f with
  | nil => exact ⟨SameLook.refl f, hf, hl⟩
  | cons j L ih =>
    have hj := h j List.mem_cons_self
    obtain ⟨a, b⟩ := ih (f := rmKey j f) (hf.remove hj) (Forest.linksOk_remove hl) (fun k hk => hj.remove (h k (List.mem_cons_of_mem _ hk)))
    exact ⟨((hj.drop (used_spare hj hl)).look hf.good).trans a, b⟩

theorem kids_spots {p q : Kind} {f : Forest} {n : Node} {c : Forest} (h : (q, n, c) ∈ spots p f) {m : Node} (hm : m ∈ c.top) :
    ∃ ks, (n.kind, m, ks) ∈ spots p f := by
  have key : ∀ (c : Forest) (p : Kind) (m : Node), m ∈ c.top → ∃ ks, (p, m, ks) ∈ spots p c := by
    intro c
    induction c with
    | nil => intro p m hm; cases hm
    | cons x a b _ ihb =>
      intro p m hm
      simp only [Forest.top, List.mem_cons] at hm
      rcases hm with rfl | hm
      · exact ⟨a, by simp [spots]⟩
      · obtain ⟨ks, h⟩ := ihb p m hm
        exact ⟨ks, by simp [spots, h]⟩
  induction f generalizing p with
  | nil => cases h
  | cons x a b iha ihb =>
    simp only [spots, List.mem_cons, List.mem_append, Prod.mk.injEq] at h
    rcases h with ⟨_, rfl, rfl⟩ | h | h
    · obtain ⟨ks, h⟩ := key c n.kind m hm
      exact ⟨ks, by simp [spots, h]⟩
    · obtain ⟨ks, h⟩ := iha h
      exact ⟨ks, by simp only [spots, List.mem_cons, List.mem_append]; exact .inr (.inl h)⟩
    · obtain ⟨ks, h⟩ := ihb h
      exact ⟨ks, by simp only [spots, List.mem_cons, List.mem_append]; exact .inr (.inr h)⟩

theorem subs_spots {p : Kind} {f : Forest} {x : Node × Forest} (h : x ∈ subs f) : ∃ q, (q, x) ∈ spots p f := by
  induction f generalizing p with
  | nil => cases h
  | cons n k r ihk ihr =>
    simp only [subs, List.mem_cons, List.mem_append] at h
    simp only [spots, List.mem_cons, List.mem_append]
    rcases h with rfl | h | h
    · exact ⟨p, .inl rfl⟩
    · obtain ⟨q, h⟩ := ihk (p := n.kind) h
      exact ⟨q, .inr (.inl h)⟩
    · obtain ⟨q, h⟩ := ihr (p := p) h
      exact ⟨q, .inr (.inr h)⟩

/-- All nodes with the key `k` are clip paths. -/
def IsClip (f : Forest) (k : Nat) : Prop := ∀ n ∈ f.nodes, n.key = k → n.isTag .clipPath = true

theorem IsClip.remove {f : Forest} {k : Nat} (h : IsClip f k) (pr : Node → Bool) : IsClip (f.remove pr) k := by
  intro n hn hk
  obtain ⟨m, hm, rfl, _⟩ := remove_node hn
  exact h m hm hk

/-- All nodes with the key `k` have no children. -/
def Bare (k : Nat) (f : Forest) : Prop := ∀ p n ks, (p, n, ks) ∈ spots top f → n.key = k → ks.isEmpty = true

theorem Bare.remove {f : Forest} {k : Nat} (h : Bare k f) (pr : Node → Bool) : Bare k (f.remove pr) := by
  intro p n ks hx hk
  obtain ⟨m, c, h1, rfl, _, _, h5⟩ := spots_remove hx
  exact h5 (h p m c h1 hk)

theorem rmKeys_keep {I : Forest → Prop} (hI : ∀ g pr, I g → I (g.remove pr)) (L : List Nat) {f : Forest} (h : I f) : I (rmKeys L f) := by
  induction L generalizing f with
  | nil => exact h
  | cons j L ih => exact ih (hI _ _ h)

theorem badKids_spare {f : Forest} (hf : ClipOk f) {k : Nat} (hk : IsClip f k) : ∀ j ∈ badKids f k, Spare f j := by
  intro j hj
  unfold badKids at hj
  split at hj
  next c hc =>
    obtain ⟨m, hm, rfl⟩ := List.mem_map.1 hj
    obtain ⟨hm, hv⟩ := List.mem_filter.1 hm
    obtain ⟨n, e, hn⟩ := UnusedDefs.subs_kidsOf hc
    obtain ⟨q, hx⟩ := subs_spots (p := top) hn
    obtain ⟨ks, hs⟩ := kids_spots hx hm
    have : n.kind = .elem .clipPath := (Node.isTag_iff _ _).1 (hk n (spots_nodes hx).1 e)
    rw [this] at hs
    intro p m' k' hx' e'
    cases spots_unique hf.good.keys hs hx' e'.symm
    exact ⟨rfl, hf.kids _ _ _ hx' rfl (by simpa using hv)⟩
  · cases hj

theorem clipKids_keep {I : Forest → Prop} (hI : ∀ g pr, I g → I (g.remove pr)) (L : List Nat) {f : Forest} (h : I f) : I (clipKidsStep L f).1 := by
  induction L generalizing f with
  | nil => exact h
  | cons k L ih =>
    have := ih (rmKeys_keep hI (badKids f k) h)
    simp only [clipKidsStep]
    split
    · split <;> exact this
    · exact this

theorem clipKids_look {L : List Nat} {f : Forest} (hf : ClipOk f) (hl : f.LinksOk) (hL : ∀ k ∈ L, IsClip f k) :
    SameLook f (clipKidsStep L f).1 ∧ Good (clipKidsStep L f).1 ∧ (clipKidsStep L f).1.LinksOk ∧ ∀ k ∈ (clipKidsStep L f).2, Bare k (clipKidsStep L f).1 := by
  induction L generalizing f with
  | nil => exact ⟨SameLook.refl f, hf.good, hl, fun k hk => by cases hk⟩
  | cons k L ih =>
    obtain ⟨h1, h2, h3⟩ := clipRm hf hl (badKids_spare hf (hL k List.mem_cons_self))
    obtain ⟨a, b, c, d⟩ := ih h2 h3 (fun j hj => rmKeys_keep (I := fun g => IsClip g j) (fun g pr h => h.remove pr) _ (hL j (List.mem_cons_of_mem _ hj)))
    simp only [clipKidsStep]
    split
    next c' hc =>
      split
      next he =>
        refine ⟨h1.trans a, b, c, fun j hj => ?_⟩
        rcases List.mem_cons.1 hj with rfl | hj
        · refine clipKids_keep (I := Bare j) (fun g pr h => h.remove pr) L (fun p n ks hx e => ?_)
          have := UnusedDefs.kidsOf_subs h2.good.keys (spots_subs hx)
          rw [e, hc] at this
          cases this
          exact he
        · exact d j hj
      next => exact ⟨h1.trans a, b, c, d⟩
    next => exact ⟨h1.trans a, b, c, d⟩

/-- The document after the invalid children of the clip paths have been removed, and the clip paths that are empty then. -/
def clipped (f : Forest) : Forest × List Nat := clipKidsStep ((f.nodes.filter (·.isTag .clipPath)).map (·.key)) f

/-- What a clip path is made of (SVG 1.1, 14.3.5): shapes, text, and `use` elements that refer to them directly. -/
def clipAllowed (f : Forest) (n : Node) : Bool :=
  if n.kind = .elem .use then
    match n.get .xlinkHref with
    | some (.link k) => match f.find k with
      | some l => clipKind l.kind && decide (l.kind ≠ .elem .use)
      | none => false
    | _ => false
  else clipKind n.kind

/-- The children of clip paths that are not allowed there are harmless. -/
structure ClipGood (f : Forest) : Prop where
  good : Good f
  kids : ∀ p n ks, (p, n, ks) ∈ spots top f → p = .elem .clipPath → clipAllowed f n = false → Harmless f n ks

theorem validShape_of {n : Node} (h : clipKind n.kind = true) (hu : n.kind ≠ .elem .use) : validShape n = true := by
  unfold validShape Node.tag Node.isTag
  cases hk : n.kind with
  | elem e =>
    rw [hk] at h hu
    simp only [clipKind, decide_eq_true_eq] at h
    simp only [List.mem_cons, List.not_mem_nil, or_false] at h
    rcases h with rfl | rfl | rfl | rfl | rfl | rfl | rfl | rfl | rfl <;> first | rfl | exact absurd rfl hu
  | _ => rw [hk] at h; cases h

/-- What is allowed is kept. -/
theorem validClip_of {f : Forest} {n : Node} (h : clipAllowed f n = true) : validClip f n = true := by
  unfold clipAllowed at h
  unfold validClip
  by_cases hu : n.kind = .elem .use
  · rw [if_pos hu] at h
    rw [if_pos (by simp [Node.isTag, hu])]
    cases hg : n.get .xlinkHref with
    | none => rw [hg] at h; cases h
    | some v =>
      rw [hg] at h
      cases v with
      | link k =>
        simp only at h ⊢
        cases hf : f.find k with
        | none => rw [hf] at h; cases h
        | some l =>
          rw [hf] at h
          simp only [Bool.and_eq_true, decide_eq_true_eq] at h ⊢
          exact validShape_of h.1 h.2
      | _ => cases h
  · rw [if_neg hu] at h
    rw [if_neg (by simpa [Node.isTag] using hu)]
    exact validShape_of h hu

theorem ClipGood.ok {f : Forest} (h : ClipGood f) : ClipOk f :=
  ⟨h.good, fun p n ks hx hp hv => h.kids p n ks hx hp (by
    by_contra hc
    rw [validClip_of (by simpa using hc)] at hv
    cases hv)⟩

/-- **C38**, clip paths: their invalid children, the clip paths that are empty then, and the elements that refer to those. -/
theorem C38_clips_partial {f : Forest} (hf : ClipGood f) (hl : f.LinksOk) (h : Unused .clipPath (clipped f).2 (clipped f).1) : SameLook f (clipStep f).1 := by
  have hf := hf.ok
  obtain ⟨a, b, c, d⟩ := clipKids_look (L := (f.nodes.filter (·.isTag .clipPath)).map (·.key)) hf hl (fun k hk n hn e => by
    obtain ⟨m, hm, rfl⟩ := List.mem_map.1 hk
    obtain ⟨hm, ht⟩ := List.mem_filter.1 hm
    have h1 := Forest.find_of_mem hf.good.keys hm
    have h2 := Forest.find_of_mem hf.good.keys hn
    rw [e, h1] at h2
    cases h2
    exact ht)
  exact a.trans ((h.servers c (fun p n ks hx hn => d _ hn p n ks hx rfl)).all (.inl rfl) (fun k hk => List.mem_reverse.1 hk))

end Verif.Invisible
