import Verif.Merge
import Verif.ApplyGradTs
import Verif.GradUnitsProps
import Verif.GroupDefsCases
import Verif.InvisibleProps
/-
Property C33: merging gradients keeps the paint.
-/
namespace Verif.Merge
open Verif.Dom Verif.Spec
open Verif.UnusedDefs (kidsOf_none setKids_not_mem kidsOf_subs subs_kidsOf kidsOf_setKids setKids_self nodes_setKids drawn_setKids mem_subs_of_node
  node_of_subs subs_trans nodup_cons)
open Verif.GroupDefs (kidsOf_prune kidsOf_map prune_id nodes_prune_one)
open Verif.Invisible (rmKey rmKeys)

/-! ### The conditions -/

/-- What the theorem needs to know of the document.  The conditions on the attributes hold after the resolving passes (C26, C57). -/
structure Good (f : Forest) : Prop where
  unique : f.UniqueKeys
  links : f.LinksOk
  /-- Gradients refer to gradients with `xlink:href`, without cycles. -/
  href : HrefOk f
  shown : ∀ n ∈ f.nodes, n.isGradient = true → written n .xlinkHref = n.get .xlinkHref
  /-- The values found along the chains are there. -/
  resolved : ∀ n ∈ f.nodes, n.isGradient = true → ∀ a ∈ gradientAttrs n.kind, ∀ v, Effective f a n (some v) → n.get a = some v
  /-- A gradient that takes attributes from another one through a third one, takes only those that the third one can have. -/
  fits : ∀ p ∈ f.nodes, p.isGradient = true → ∀ n ∈ f.nodes, written p .xlinkHref = some (.link n.key) →
    ∀ m ∈ f.nodes, written n .xlinkHref = some (.link m.key) → ∀ a ∈ gradientAttrs p.kind, a ∈ gradientAttrs n.kind ∨ Effective f a m none
  /-- The children of gradients are stops; in a gradient there is no gradient, and nothing that is referred to. -/
  flat : ∀ x ∈ subs f, x.1.isGradient = true → (∀ d ∈ x.2.top, d.kind = .elem .stop) ∧ ∀ d ∈ x.2.nodes, d.isGradient = false ∧ f.isUsed d.key = false
  /-- The colours of stops do not depend on where they stand. -/
  plain : ∀ n ∈ f.nodes, n.kind = .elem .stop → n.get .stopColor ≠ some (.kw .currentColor)

/-! ### Single nodes -/

theorem isGradient_kind {n : Node} : n.isGradient = true ↔ n.kind = .elem .linearGradient ∨ n.kind = .elem .radialGradient := by
  simp [Node.isGradient, Node.isTag]

theorem attrList_iff {n : Node} (h : n.isGradient = true) {a : AId} : a ∈ attrList n ↔ a ∈ gradientAttrs n.kind := by
  rcases isGradient_kind.1 h with h | h
  · simp only [attrList, Node.isTag, h, decide_true, if_true, gradientAttrs, List.mem_cons, List.not_mem_nil, or_false]; tauto
  · simp only [attrList, Node.isTag, h, gradientAttrs, List.mem_cons, List.not_mem_nil, or_false, reduceCtorEq, decide_false, Bool.false_eq_true, if_false, Kind.elem.injEq]
    tauto

theorem getAttr_show (n : Node) (a : AId) (b : AName) : getAttr (showAttr n a).attrs b =
    (getAttr n.attrs b).map fun x => if b = .id a then { x with visible := true } else x := by
  show (List.map _ n.attrs).find? _ = _
  rw [List.find?_map]
  have e : ((fun x : Attr => decide (x.name = b)) ∘ fun x : Attr => if x.name = .id a then { x with visible := true } else x) = fun x => decide (x.name = b) := by
    funext x; simp only [Function.comp]; split <;> rfl
  rw [e]
  unfold getAttr
  cases h : n.attrs.find? fun x => decide (x.name = b) with
  | none => rfl
  | some x =>
    have := List.find?_some h
    simp only [decide_eq_true_eq] at this
    simp [this]

theorem get_show (n : Node) (a b : AId) : (showAttr n a).get b = n.get b := by
  unfold Node.get
  rw [getAttr_show]
  cases getAttr n.attrs (.id b) with
  | none => rfl
  | some x => simp only [Option.map_some]; split <;> rfl

theorem written_show (n : Node) (a b : AId) : written (showAttr n a) b = if b = a then n.get b else written n b := by
  unfold written
  rw [getAttr_show]
  unfold Node.get
  cases getAttr n.attrs (.id b) with
  | none => simp
  | some x =>
    by_cases h : b = a
    · simp [h]
    · have : ¬ (AName.id b = AName.id a) := fun e => h (by cases e; rfl)
      simp [h]

theorem shown_eq (m : Node) (a : AId) (n : Node) : revealOne m n a = if (written m a).isSome then showAttr n a else n := by
  unfold revealOne written
  cases getAttr m.attrs (.id a) with
  | none => rfl
  | some x => dsimp only; split <;> rfl

theorem reveal_cons (m : Node) (a : AId) (l : List AId) (n : Node) : reveal m (a :: l) n = reveal m l (if (written m a).isSome then showAttr n a else n) :=
  congrArg (reveal m l) (shown_eq m a n)

theorem reveal_same (m : Node) (l : List AId) (n : Node) : (reveal m l n).key = n.key ∧ (reveal m l n).kind = n.kind ∧ (reveal m l n).id = n.id ∧
    (reveal m l n).links = n.links ∧ ∀ b, (reveal m l n).get b = n.get b := by
  induction l generalizing n with
  | nil => exact ⟨rfl, rfl, rfl, rfl, fun _ => rfl⟩
  | cons a l ih =>
    rw [reveal_cons]
    obtain ⟨h1, h2, h3, h4, h5⟩ := ih (if (written m a).isSome then showAttr n a else n)
    have hs : (showAttr n a).links = n.links := by
      show List.filterMap _ (List.map _ _) = List.filterMap _ _
      rw [List.filterMap_map]
      congr 1
      funext x
      simp only [Function.comp]
      split <;> rfl
    rw [h1, h2, h3, h4]
    refine ⟨?_, ?_, ?_, ?_, fun b => ?_⟩
    · split <;> rfl
    · split <;> rfl
    · split <;> rfl
    · split
      · exact hs
      · rfl
    · rw [h5]
      split
      · exact get_show _ _ _
      · rfl

theorem written_reveal (m : Node) (l : List AId) (n : Node) (b : AId) :
    written (reveal m l n) b = if b ∈ l ∧ (written m b).isSome = true then n.get b else written n b := by
  induction l generalizing n with
  | nil => simp [reveal]
  | cons a l ih =>
    rw [reveal_cons, ih]
    by_cases hw : (written m a).isSome = true
    · simp only [hw, if_true, get_show, written_show, List.mem_cons]
      by_cases hb : b = a
      · subst hb; simp [hw]
      · simp [hb]
    · simp only [hw, List.mem_cons]
      by_cases hb : b = a
      · subst hb; simp [hw]
      · simp [hb]

/-! ### Trees -/

theorem kidsOf_setKids_ne {f : Forest} {k j : Nat} {c : Forest} (hj : j ≠ k) (hc : j ∉ c.keys) (hk : ∀ x ∈ subs f, x.1.key = k → j ∉ x.2.keys) :
    (f.setKids k c).kidsOf j = (f.kidsOf j).map (·.setKids k c) := by
  induction f with
  | nil => rfl
  | cons n q r ih1 ih2 =>
    have h1 := ih1 fun x hx => hk x (by simp [subs, hx])
    have h2 := ih2 fun x hx => hk x (by simp [subs, hx])
    rw [Forest.setKids]
    by_cases e : n.key = k
    · have hnj : ¬ n.key = j := fun h => hj (h ▸ e)
      rw [if_pos e, Forest.kidsOf, Forest.kidsOf, if_neg hnj, if_neg hnj, h2, kidsOf_none hc,
        kidsOf_none (hk (n, q) (by simp [subs]) e)]
      rfl
    · rw [if_neg e, Forest.kidsOf, Forest.kidsOf]
      split
      · rfl
      · rw [h1, h2]
        cases q.kidsOf j <;> rfl

/-- A node that a merge may change: it no longer refers to `m`, and shows what `m` shows. -/
def joined (m n : Node) : Node := reveal m (attrList n) (n.rm .xlinkHref)

theorem attrList_rm (n : Node) (a : AId) : attrList (n.rm a) = attrList n := rfl

theorem joined_key (m n : Node) : (joined m n).key = n.key := (reveal_same _ _ _).1
theorem joined_kind (m n : Node) : (joined m n).kind = n.kind := (reveal_same _ _ _).2.1
theorem joined_id (m n : Node) : (joined m n).id = n.id := (reveal_same _ _ _).2.2.1

theorem joined_links (m n : Node) : ∀ k ∈ (joined m n).links, k ∈ n.links := by
  intro k hk
  rw [joined, (reveal_same _ _ _).2.2.2.1] at hk
  obtain ⟨a, ha, e⟩ := Node.mem_links.1 hk
  exact Node.mem_links.2 ⟨a, (List.mem_filter.1 ha).1, e⟩

theorem get_joined (m n : Node) {a : AId} (h : a ≠ .xlinkHref) : (joined m n).get a = n.get a := by
  rw [joined, (reveal_same _ _ _).2.2.2.2, ApplyTs.get_rm, if_neg h]

theorem get_joined_href (m n : Node) : (joined m n).get .xlinkHref = none := by
  rw [joined, (reveal_same _ _ _).2.2.2.2, ApplyTs.get_rm, if_pos rfl]

theorem written_none {n : Node} {a : AId} (h : n.get a = none) : written n a = none := by
  unfold Node.get at h
  unfold written
  cases hx : getAttr n.attrs (.id a) with
  | none => rfl
  | some x => rw [hx] at h; cases h

theorem written_some {n : Node} {a : AId} {v : Value} (h : written n a = some v) : n.get a = some v := by
  unfold written at h
  unfold Node.get
  cases hx : getAttr n.attrs (.id a) with
  | none => rw [hx] at h; cases h
  | some x =>
    rw [hx] at h
    dsimp only at h
    split at h
    · cases h; rfl
    · cases h

theorem written_joined_href (m n : Node) : written (joined m n) .xlinkHref = none := written_none (get_joined_href m n)

theorem written_joined (m n : Node) {a : AId} (h : a ≠ .xlinkHref) : written (joined m n) a =
    if a ∈ attrList n ∧ (written m a).isSome = true then n.get a else written n a := by
  rw [joined, written_reveal, ApplyTs.get_rm, if_neg h, ApplyTs.written_rm, if_neg h]

theorem joined_gradient (m n : Node) : (joined m n).isGradient = n.isGradient := by
  unfold Node.isGradient Node.isTag; rw [joined_kind]

/-! ### One merge -/

/-- What merging `m` into `n` does to a node. -/
def change (n m x : Node) : Node := if x.key = n.key then joined m x else x

theorem change_key (n m x : Node) : (change n m x).key = x.key := by
  unfold change; split
  · exact joined_key _ _
  · rfl

theorem change_kind (n m x : Node) : (change n m x).kind = x.kind := by
  unfold change; split
  · exact joined_kind _ _
  · rfl

theorem change_id (n m x : Node) : (change n m x).id = x.id := by
  unfold change; split
  · exact joined_id _ _
  · rfl

theorem change_gradient (n m x : Node) : (change n m x).isGradient = x.isGradient := by
  unfold change; split
  · exact joined_gradient _ _
  · rfl

theorem change_links (n m x : Node) : ∀ k ∈ (change n m x).links, k ∈ x.links := by
  unfold change; split
  · exact joined_links _ _
  · exact fun _ h => h

theorem change_get (n m x : Node) {a : AId} (h : a ≠ .xlinkHref) : (change n m x).get a = x.get a := by
  unfold change; split
  · exact get_joined _ _ h
  · rfl

theorem change_href (n m x : Node) {v : Value} (h : written (change n m x) .xlinkHref = some v) : x.key ≠ n.key ∧ written x .xlinkHref = some v := by
  unfold change at h
  split at h
  · rw [written_joined_href] at h; cases h
  next hk => exact ⟨hk, h⟩

theorem map_id (f : Forest) : f.map id = f := by
  induction f with
  | nil => rfl
  | cons n k r ih1 ih2 => rw [Forest.map_cons, ih1, ih2]; rfl

/-- What merging `m` into `n` does. -/
structure Step (f g : Forest) (n m : Node) : Prop where
  nodes : g.nodes.Perm (f.nodes.map (change n m))
  same : ∀ x ∈ f.nodes, x.isGradient = true → x.key ≠ n.key → x.key ≠ m.key → g.kidsOf x.key = f.kidsOf x.key
  take : f.kidsOf n.key = some .nil → g.kidsOf n.key = f.kidsOf m.key
  keep : f.kidsOf n.key ≠ some .nil → g.kidsOf n.key = f.kidsOf n.key
  rest : g.kidsOf m.key = some .nil ∨ g.kidsOf m.key = f.kidsOf m.key
  drawn : drawn g = drawn f

/-- The keys of the nodes inside a gradient. -/
theorem Good.inside {f : Forest} (hf : Good f) {x : Node} (hx : x ∈ f.nodes) (hg : x.isGradient = true) {c : Forest} (hc : f.kidsOf x.key = some c)
    {y : Node} (hy : y ∈ f.nodes) (hyg : y.isGradient = true) : y.key ∉ c.keys := by
  intro h
  obtain ⟨x', e, hs⟩ := subs_kidsOf hc
  have := Forest.eq_of_key hf.unique (node_of_subs hs) hx e
  dsimp only at this
  subst this
  obtain ⟨d, hd, e⟩ := Forest.mem_keys.1 h
  have hdf : d ∈ f.nodes := (Stops.subs_kids_sub hs).1.mem hd
  have := Forest.eq_of_key hf.unique hdf hy e
  subst this
  rw [((hf.flat _ hs hg).2 d hd).1] at hyg
  cases hyg

/-- Moving the children. -/
structure Moved (f g : Forest) (n m : Node) : Prop where
  nodes : g.nodes.Perm f.nodes
  same : ∀ x ∈ f.nodes, x.isGradient = true → x.key ≠ n.key → x.key ≠ m.key → g.kidsOf x.key = f.kidsOf x.key
  take : f.kidsOf n.key = some .nil → g.kidsOf n.key = f.kidsOf m.key
  keep : f.kidsOf n.key ≠ some .nil → g.kidsOf n.key = f.kidsOf n.key
  rest : g.kidsOf m.key = some .nil ∨ g.kidsOf m.key = f.kidsOf m.key
  drawn : drawn g = drawn f

theorem moved {f : Forest} (hu : f.UniqueKeys) (inside : ∀ {x : Node}, x ∈ f.nodes → x.isGradient = true → ∀ {c : Forest}, f.kidsOf x.key = some c →
    ∀ {y : Node}, y ∈ f.nodes → y.isGradient = true → y.key ∉ c.keys) {n m : Node} (hn : n ∈ f.nodes) (hng : n.isGradient = true) (hm : m ∈ f.nodes) (hmg : m.isGradient = true)
    (hne : n.key ≠ m.key) : Moved f (moveKids n m f) n m := by
  obtain ⟨cn, hcn⟩ := kidsOf_isSome (Forest.key_mem hn)
  obtain ⟨c, hc⟩ := kidsOf_isSome (Forest.key_mem hm)
  have never : ∀ x ∈ f.nodes, x.isGradient = true → neverRendered x.kind = true := by
    intro x _ hx
    rcases isGradient_kind.1 hx with h | h <;> rw [h] <;> rfl
  cases cn with
  | cons d e r =>
    have : moveKids n m f = f := by unfold moveKids; rw [hcn]
    rw [this]
    exact ⟨.rfl, fun _ _ _ _ _ => rfl, fun h => (by rw [hcn] at h; cases h), fun _ => rfl, .inr rfl, rfl⟩
  | nil =>
    have : moveKids n m f = (f.setKids m.key .nil).setKids n.key c := by unfold moveKids; rw [hcn, hc]
    rw [this]
    have hk := Forest.key_mem hm
    have hnc := inside hm hmg hc hn hng
    have into : ∀ x ∈ f.nodes, x.isGradient = true → ∀ y ∈ subs f, y.1.key = m.key → x.key ∉ y.2.keys := by
      intro x hx hxg y hy e
      have h1 := kidsOf_subs hu (n := y.1) (c := y.2) hy
      rw [e, hc] at h1
      rw [← Option.some.inj h1]
      exact inside hm hmg hc hx hxg
    have k1 : ∀ x ∈ f.nodes, x.isGradient = true → x.key ≠ m.key → (f.setKids m.key .nil).kidsOf x.key = f.kidsOf x.key := by
      intro x hx hxg hxm
      rw [kidsOf_setKids_ne hxm (by simp) (into x hx hxg)]
      obtain ⟨d, hd⟩ := kidsOf_isSome (Forest.key_mem hx)
      rw [hd, Option.map_some, setKids_not_mem (inside hx hxg hd hm hmg)]
    obtain ⟨A, hA⟩ := nodes_setKids hu hk
    have pf : f.nodes.Perm (A ++ c.nodes) := by
      have := hA c
      rwa [setKids_self hu hc] at this
    have p1 : (f.setKids m.key .nil).nodes.Perm A := by simpa using hA .nil
    have hu1 : (f.setKids m.key .nil).UniqueKeys := by
      have h1 : (f.setKids m.key .nil).keys.Perm (A.map Node.key) := p1.map Node.key
      have h2 : f.keys.Perm ((A ++ c.nodes).map Node.key) := pf.map Node.key
      have h3 : ((A ++ c.nodes).map Node.key).Nodup := h2.nodup_iff.1 hu
      rw [List.map_append] at h3
      exact h1.nodup_iff.2 (List.nodup_append.1 h3).1
    have hcn1 := k1 n hn hng hne
    rw [hcn] at hcn1
    have hnk : n.key ∈ (f.setKids m.key .nil).keys := by
      obtain ⟨x, e, hx⟩ := subs_kidsOf hcn1
      exact e ▸ Forest.key_mem (node_of_subs hx)
    obtain ⟨B, hB⟩ := nodes_setKids hu1 hnk
    have p2 : A.Perm B := by
      have := hB .nil
      rw [setKids_self hu1 hcn1] at this
      exact p1.symm.trans (by simpa using this)
    have into1 : ∀ x ∈ f.nodes, ∀ y ∈ subs (f.setKids m.key .nil), y.1.key = n.key → x.key ∉ y.2.keys := by
      intro x _ y hy e
      have h1 := kidsOf_subs hu1 (n := y.1) (c := y.2) hy
      rw [e, hcn1] at h1
      rw [← Option.some.inj h1]
      simp
    have hmn : n.key ∉ (Forest.nil).keys := by simp
    refine ⟨?_, ?_, ?_, fun h => absurd hcn h, ?_, ?_⟩
    · exact (hB c).trans ((p2.symm.append_right _).trans pf.symm)
    · intro x hx hxg hxn hxm
      rw [kidsOf_setKids_ne hxn (inside hm hmg hc hx hxg) (into1 x hx), k1 x hx hxg hxm]
      obtain ⟨d, hd⟩ := kidsOf_isSome (Forest.key_mem hx)
      rw [hd, Option.map_some, setKids_not_mem (inside hx hxg hd hn hng)]
    · intro _
      rw [kidsOf_setKids hcn1, hc]
    · left
      rw [kidsOf_setKids_ne hne.symm (inside hm hmg hc hm hmg) (into1 m hm), kidsOf_setKids hc]
      rfl
    · have h1 : drawn (f.setKids m.key .nil) = drawn f :=
        drawn_setKids (fun x hx e => never x hx (by rw [Forest.eq_of_key hu hx hm e]; exact hmg)) _
      rw [← h1]
      refine drawn_setKids (fun x hx e => ?_) _
      have hx' : x ∈ f.nodes := pf.mem_iff.2 (List.mem_append_left _ (p1.mem_iff.1 hx))
      exact never x hx' (by rw [Forest.eq_of_key hu hx' hn e]; exact hng)

/-- What a gradient that is merged knows of its source. -/
structure Source (f : Forest) (n m : Node) : Prop where
  mem : n ∈ f.nodes
  grad : n.isGradient = true
  target : m ∈ f.nodes
  tgrad : m.isGradient = true
  ne : n.key ≠ m.key
  href : written n .xlinkHref = some (.link m.key)
  last : written m .xlinkHref = none
  once : ∀ x ∈ f.nodes, m.key ∈ x.links → x = n
  only : ∀ k ∈ (n.rm .xlinkHref).links, k ≠ m.key

theorem mem_drawn {f : Forest} {n : Node} (h : n ∈ (drawn f).nodes) : n ∈ f.nodes ∧ neverRendered n.kind = false := by
  induction f with
  | nil => simp [drawn] at h
  | cons x k r ih1 ih2 =>
    rw [drawn] at h
    split at h
    · exact ⟨by simp [(ih2 h).1], (ih2 h).2⟩
    next hx =>
      rw [Forest.nodes_cons, List.mem_cons, List.mem_append] at h
      rcases h with rfl | h | h
      · exact ⟨by simp, by simpa using hx⟩
      · exact ⟨by simp [(ih1 h).1], (ih1 h).2⟩
      · exact ⟨by simp [(ih2 h).1], (ih2 h).2⟩

theorem written_link {x : Node} {a : AId} {k : Nat} (h : written x a = some (.link k)) : k ∈ x.links := by
  have := written_some h
  unfold Node.get at this
  cases hx : getAttr x.attrs (.id a) with
  | none => rw [hx] at this; cases this
  | some y =>
    rw [hx] at this
    have e : y.value = .link k := by simpa using this
    exact Node.mem_links.2 ⟨y, getAttr_mem hx, by rw [e]; rfl⟩

/-- The references a node has. -/
theorem count_links (n : Node) (k : Nat) : (n.links.filter fun x => decide (x = k)).length = n.attrs.countP fun x => decide (x.value.target = some k) := by
  unfold Node.links
  induction n.attrs with
  | nil => rfl
  | cons x l ih =>
    rw [List.countP_cons]
    cases hx : x.value.target with
    | none => rw [List.filterMap_cons_none (f := fun x : Attr => x.value.target) (a := x) hx, ih]; simp
    | some j =>
      rw [List.filterMap_cons_some (f := fun x : Attr => x.value.target) (a := x) hx, List.filter_cons]
      by_cases e : j = k
      · simp [e, ih]
      · simp [e, ih]

theorem uses_ge {f : Forest} {n : Node} (hn : n ∈ f.nodes) (k : Nat) : (n.attrs.countP fun x => decide (x.value.target = some k)) ≤ f.usesCount k := by
  rw [← count_links]
  unfold Forest.usesCount Forest.linkedAll
  rw [List.length_flatMap]
  refine le_trans (le_of_eq ?_) (List.single_le_sum (by simp) _ (List.mem_map.2 ⟨n, hn, rfl⟩))
  simp

theorem source_ok {f : Forest} (hf : Good f) {n m : Node} (hn : n ∈ f.nodes) (hg : n.isGradient = true) (h : source f n = some m) : Source f n m := by
  unfold source at h
  split at h
  next l hl =>
    obtain ⟨h1, h2⟩ := Option.filter_eq_some_iff.1 h
    obtain ⟨hm, rfl⟩ := Forest.find_some h1
    simp only [Bool.and_eq_true, decide_eq_true_eq, Bool.not_eq_true'] at h2
    have hw : written n .xlinkHref = some (.link m.key) := (hf.shown n hn hg).trans hl
    obtain ⟨rank, hr⟩ := hf.href
    obtain ⟨t, ht, e, htg, hlt⟩ := hr n hn hg _ hw
    have e : m.key = t.key := Value.link.inj e
    have := Forest.eq_of_key hf.unique hm ht e
    subst this
    refine ⟨hn, hg, hm, htg, fun e => absurd (e ▸ hlt) (Nat.lt_irrefl _), hw, ?_, ?_, ?_⟩
    · refine written_none ?_
      have := h2.2
      rw [Node.has_eq] at this
      simpa using this
    · intro x hx hxl
      have a : n ∈ f.linkedAll m.key := GradUnits.mem_linkedAll.2 ⟨hn, written_link hw⟩
      have b : x ∈ f.linkedAll m.key := GradUnits.mem_linkedAll.2 ⟨hx, hxl⟩
      obtain ⟨y, hy⟩ := List.length_eq_one_iff.1 h2.1
      rw [hy] at a b
      rw [List.mem_singleton.1 a, List.mem_singleton.1 b]
    · intro k hk e
      subst e
      have c := uses_ge hn m.key
      rw [h2.1] at c
      obtain ⟨x, hx, ex⟩ := Node.mem_links.1 hk
      obtain ⟨hx, hxn⟩ := List.mem_filter.1 hx
      have ⟨y, hy, ey⟩ : ∃ y ∈ n.attrs, y.name = .id .xlinkHref ∧ y.value.target = some m.key := by
        unfold Node.get at hl
        cases hy : getAttr n.attrs (.id .xlinkHref) with
        | none => rw [hy] at hl; cases hl
        | some y =>
          rw [hy] at hl
          refine ⟨y, getAttr_mem hy, getAttr_name hy, ?_⟩
          have : y.value = .link m.key := by simpa using hl
          rw [this]; rfl
      have hsplit : (n.attrs.countP fun x => decide (x.value.target = some m.key)) =
          ((n.attrs.filter fun x => decide (x.name ≠ .id .xlinkHref)).countP fun x => decide (x.value.target = some m.key)) +
          ((n.attrs.filter fun x => !decide (x.name ≠ .id .xlinkHref)).countP fun x => decide (x.value.target = some m.key)) := by
        rw [← List.countP_append]
        exact ((List.filter_append_perm (fun x : Attr => decide (x.name ≠ .id .xlinkHref)) n.attrs).countP_eq _).symm
      have c1 : 0 < ((n.attrs.filter fun x => decide (x.name ≠ .id .xlinkHref)).countP fun x => decide (x.value.target = some m.key)) :=
        List.countP_pos_iff.2 ⟨x, List.mem_filter.2 ⟨hx, hxn⟩, by simpa using ex⟩
      have c2 : 0 < ((n.attrs.filter fun x => !decide (x.name ≠ .id .xlinkHref)).countP fun x => decide (x.value.target = some m.key)) :=
        List.countP_pos_iff.2 ⟨y, List.mem_filter.2 ⟨hy, by simp [ey.1]⟩, by simpa using ey.2⟩
      omega
  · cases h

/-- The body of the loop is such a step. -/
theorem step_ok {f : Forest} (hf : Good f) {n m : Node} (hs : Source f n m) :
    Step f ((moveKids n m f).modify n.key fun n => reveal m (attrList n) (n.rm .xlinkHref)) n m := by
  have hm := moved hf.unique (fun h1 h2 _ h3 _ h4 h5 => hf.inside h1 h2 h3 h4 h5) hs.mem hs.grad hs.target hs.tgrad hs.ne
  have e : ((moveKids n m f).modify n.key fun n => reveal m (attrList n) (n.rm .xlinkHref)) = (moveKids n m f).map (change n m) := rfl
  rw [e]
  have kids : ∀ x : Node, (∀ c, (moveKids n m f).kidsOf x.key = some c → c.map (change n m) = c) →
      ((moveKids n m f).map (change n m)).kidsOf x.key = (moveKids n m f).kidsOf x.key := by
    intro x h
    rw [kidsOf_map (change_key n m)]
    cases hc : (moveKids n m f).kidsOf x.key with
    | none => rfl
    | some c => rw [Option.map_some, h c hc]
  have still : ∀ x ∈ f.nodes, x.isGradient = true → ∀ c, f.kidsOf x.key = some c → c.map (change n m) = c := by
    intro x hx hg c hc
    have hi := hf.inside hx hg hc hs.mem hs.grad
    have : c.map (change n m) = c.map id := by
      refine GroupDefs.map_congr_nodes fun d hd => ?_
      exact if_neg fun e : d.key = n.key => hi (e ▸ Forest.key_mem hd)
    rw [this, map_id]
  refine ⟨?_, ?_, ?_, ?_, ?_, ?_⟩
  · rw [Forest.nodes_map]; exact hm.nodes.map _
  · intro x hx hg h1 h2
    have := hm.same x hx hg h1 h2
    rw [kids x (fun c hc => still x hx hg c (this ▸ hc)), this]
  · intro h
    have := hm.take h
    rw [kids n (fun c hc => still m hs.target hs.tgrad c (this ▸ hc)), this]
  · intro h
    have := hm.keep h
    rw [kids n (fun c hc => still n hs.mem hs.grad c (this ▸ hc)), this]
  · rcases hm.rest with h | h
    · left
      rw [kids m (fun c hc => by rw [h] at hc; cases hc; rfl), h]
    · right
      rw [kids m (fun c hc => still m hs.target hs.tgrad c (h ▸ hc)), h]
  · rw [GroupDefs.drawn_map_nodes fun x _ => change_kind n m x, hm.drawn]
    refine Forest.map_id' fun x hx => ?_
    refine if_neg fun e => ?_
    have := Forest.eq_of_key hf.unique (mem_drawn hx).1 hs.mem e
    subst this
    have h2 := (mem_drawn hx).2
    rcases isGradient_kind.1 hs.grad with h | h <;> rw [h] at h2 <;> cases h2

end Verif.Merge
