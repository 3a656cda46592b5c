import Verif.DuplStep
/-
Property C32 for filters with a blur.
-/
namespace Verif.Spec
open Verif.Dom

/-- The attributes of a filter that have an effect (SVG 1.1, 15.3), without `xlink:href`. -/
def filterRegion : List AId := [.x, .y, .width, .height, .filterUnits, .primitiveUnits, .filterRes]

/-- The trees have the same shape and the same elements, with the same attributes, but for references. -/
def Alike (ρ : Nat → Nat) : Forest → Forest → Prop
  | .nil, .nil => True
  | .cons n k r, .cons m l s => n.kind = m.kind ∧ (∀ a, m.get a = (n.get a).map (renameValue ρ)) ∧ Alike ρ k l ∧ Alike ρ r s
  | _, _ => False

/-- The inherited value of `color-interpolation-filters` for the node with the key `k`. -/
def spaceAt (f : Forest) (k : Nat) : Option Value :=
  ((inherited .colorInterpolationFilters none f).find? fun x => decide (x.1 = k)).bind (·.2)

/-- The filter `n` of `f` and the filter `m` of `g` are the same; references are changed by `ρ`. -/
structure FilterSame (ρ : Nat → Nat) (f : Forest) (n : Node) (g : Forest) (m : Node) : Prop where
  kind : n.kind = .elem .filter ∧ m.kind = .elem .filter
  region : ∀ a ∈ filterRegion, m.get a = n.get a
  href : m.get .xlinkHref = (n.get .xlinkHref).map (renameValue ρ)
  space : spaceAt f n.key = spaceAt g m.key
  kids : ∃ c d, f.kidsOf n.key = some c ∧ g.kidsOf m.key = some d ∧ Alike ρ c d

/-- Inside of a filter. -/
def InFilter (f : Forest) (n : Node) : Prop := ∃ x ∈ subs f, x.1.kind = .elem .filter ∧ n ∈ x.2.nodes

theorem alike_map (ρ : Nat → Nat) (c : Forest) : Alike ρ c (c.map (rename ρ)) := by
  induction c with
  | nil => trivial
  | cons n k r ih1 ih2 => exact ⟨rfl, get_rename ρ n, ih1, ih2⟩

theorem alike_trans {ρ σ : Nat → Nat} {c d e : Forest} (h1 : Alike ρ c d) (h2 : Alike σ d e) : Alike (fun k => σ (ρ k)) c e := by
  induction c generalizing d e with
  | nil => cases d with
    | nil => cases e with
      | nil => trivial
      | cons => cases h2
    | cons => cases h1
  | cons n k r ih1 ih2 => cases d with
    | nil => cases h1
    | cons m l s => cases e with
      | nil => cases h2
      | cons o x y =>
        obtain ⟨a1, a2, a3, a4⟩ := h1
        obtain ⟨b1, b2, b3, b4⟩ := h2
        refine ⟨a1.trans b1, fun a => ?_, ih1 a3 b3, ih2 a4 b4⟩
        rw [b2, a2, Option.map_map]
        congr 1
        funext v
        exact renameValue_comp ρ σ v

theorem FilterSame.trans {ρ σ : Nat → Nat} {f g h : Forest} {n m o : Node} (a : FilterSame ρ f n g m) (b : FilterSame σ g m h o) : FilterSame (fun k => σ (ρ k)) f n h o := by
  refine ⟨⟨a.kind.1, b.kind.2⟩, fun x hx => (b.region x hx).trans (a.region x hx), ?_, a.space.trans b.space, ?_⟩
  · rw [b.href, a.href, Option.map_map]
    congr 1
    funext v
    exact renameValue_comp ρ σ v
  · obtain ⟨c, d, h1, h2, h3⟩ := a.kids
    obtain ⟨d', e, h4, h5, h6⟩ := b.kids
    rw [h2] at h4
    cases h4
    exact ⟨c, e, h1, h5, alike_trans h3 h6⟩

theorem inherited_keys (a : AId) (v : Option Value) (f : Forest) : (inherited a v f).map Prod.fst = f.keys := by
  induction f generalizing v with
  | nil => rfl
  | cons n k r ih1 ih2 => rw [inherited, List.map_cons, List.map_append, ih1, ih2, Forest.keys_cons]

theorem inherited_own {a : AId} {e : EId} {f : Forest} (hu : f.UniqueKeys) (ho : ∀ n ∈ f.nodes, n.kind ≠ .elem e → written n a = none)
    (hn : ∀ x ∈ subs f, x.1.kind = .elem e → ∀ d ∈ x.2.nodes, d.kind ≠ .elem e) {n : Node} (hm : n ∈ f.nodes) (hk : n.kind = .elem e) {v : Option Value}
    (h : (n.key, v) ∈ inherited a none f) : v = written n a := by
  induction f with
  | nil => cases hm
  | cons m k r ih1 ih2 =>
    obtain ⟨h1, h2, h3, h4, h5⟩ := UnusedDefs.nodup_cons hu
    rw [inherited, List.mem_cons, List.mem_append] at h
    have inv : ∀ {w : Option Value} {t : Forest}, (n.key, v) ∈ inherited a w t → n.key ∈ t.keys := by
      intro w t ht
      rw [← inherited_keys a w t]
      exact List.mem_map_of_mem ht
    have kk : n.key ∈ k.keys → n ∈ k.nodes := by
      intro hx
      rcases List.mem_cons.1 hm with rfl | hm
      · exact absurd hx h1
      · rcases List.mem_append.1 hm with hm | hm
        · exact hm
        · exact absurd (Forest.key_mem hm) (h5 _ hx)
    have kr : n.key ∈ r.keys → n ∈ r.nodes := by
      intro hx
      rcases List.mem_cons.1 hm with rfl | hm
      · exact absurd hx h2
      · rcases List.mem_append.1 hm with hm | hm
        · exact absurd hx (h5 _ (Forest.key_mem hm))
        · exact hm
    rcases h with h | h | h
    · have e1 : n.key = m.key := congrArg Prod.fst h
      have e2 : v = (written m a).or none := congrArg Prod.snd h
      have : n = m := by
        rcases List.mem_cons.1 hm with h | hm
        · exact h
        · rcases List.mem_append.1 hm with hm | hm
          · exact absurd (e1 ▸ Forest.key_mem hm) h1
          · exact absurd (e1 ▸ Forest.key_mem hm) h2
      rw [this, e2]
      cases written m a <;> rfl
    · have hmk := kk (inv h)
      by_cases hf : m.kind = .elem e
      · exact absurd hk (hn (m, k) (by simp [subs]) hf n hmk)
      · rw [ho m (by simp [Forest.nodes]) hf] at h
        exact ih1 h3 (fun x hx => ho x (by simp [Forest.nodes, hx])) (fun x hx => hn x (by simp [subs, hx])) hmk h
    · exact ih2 h4 (fun x hx => ho x (by simp [Forest.nodes, hx])) (fun x hx => hn x (by simp [subs, hx])) (kr (inv h)) h

end Verif.Spec

namespace Verif.Dupl
open Verif.Dom Verif.Spec
open Verif.UnusedDefs (kidsOf_subs subs_kidsOf mem_subs_of_node node_of_subs)
open Verif.GroupDefs (prune_id)

/-- What the theorem needs to know of the document. -/
structure GoodBlur (f : Forest) : Prop where
  unique : f.UniqueKeys
  links : f.LinksOk
  form : LinkForm f
  /-- Filters have ids of their own. -/
  named : ∀ n ∈ f.nodes, n.kind = .elem .filter → n.id ≠ ""
  ids : ∀ n ∈ f.nodes, n.kind = .elem .filter → ∀ x ∈ f.nodes, x.id = n.id → x = n
  /-- They refer to others only with `xlink:href`; what they have is written. -/
  only : ∀ n ∈ f.nodes, n.kind = .elem .filter → ∀ x ∈ n.attrs, x.visible = true ∧ (x.value.target ≠ none → x.name = .id .xlinkHref)
  /-- There are no filters in filters, and only filters have the attribute `color-interpolation-filters`. -/
  flat : ∀ x ∈ subs f, x.1.kind = .elem .filter → ∀ d ∈ x.2.nodes, d.kind ≠ .elem .filter
  space : ∀ n ∈ f.nodes, n.kind ≠ .elem .filter → written n .colorInterpolationFilters = none
  /-- Blurs have no other attributes than these, and no children. -/
  blur : ∀ n ∈ f.nodes, n.kind = .elem .feGaussianBlur → ∀ a v, n.get a = some v → a = .stdDeviation ∨ a = .in_ ∨ a = .result
  plain : ∀ n ∈ f.nodes, n.kind = .elem .feGaussianBlur → ∀ v, n.get .stdDeviation = some v → v.target = none
  childless : ∀ x ∈ subs f, x.1.kind = .elem .feGaussianBlur → x.2 = .nil

/-- A filter with nothing but a blur. -/
structure BlurOnly (f : Forest) (n : Node) : Prop where
  mem : n ∈ f.nodes
  kind : n.kind = .elem .filter
  href : n.get .xlinkHref = none
  kids : ∃ d, f.kidsOf n.key = some (.cons d .nil .nil) ∧ d.kind = .elem .feGaussianBlur ∧ d.get .in_ = none ∧ d.get .result = none ∧ f.isUsed d.key = false

structure BlurTwins (f : Forest) (n1 n2 : Node) : Prop where
  first : BlurOnly f n1
  second : BlurOnly f n2
  ne : n1.key ≠ n2.key
  attrs : ∀ a ∈ filterRegion, n1.get a = n2.get a
  space : n1.get .colorInterpolationFilters = n2.get .colorInterpolationFilters
  blur : ∃ d1 d2, f.kidsOf n1.key = some (.cons d1 .nil .nil) ∧ f.kidsOf n2.key = some (.cons d2 .nil .nil) ∧ d1.get .stdDeviation = d2.get .stdDeviation

section blur
variable {f : Forest} (hf : GoodBlur f)
include hf

theorem GoodBlur.kids {x : Node} (hx : x ∈ f.nodes) {c : Forest} (hc : f.kidsOf x.key = some c) : (x, c) ∈ subs f := by
  obtain ⟨x', e, hs⟩ := subs_kidsOf hc
  have := Forest.eq_of_key hf.unique (node_of_subs hs) hx e
  dsimp only at this
  subst this
  exact hs

theorem GoodBlur.outside {y : Node} (hy : y.kind = .elem .filter) : ¬ InFilter f y := by
  rintro ⟨x, hx, hg, h⟩
  exact hf.flat x hx hg y h hy

theorem GoodBlur.spaceAt {n : Node} (hn : n ∈ f.nodes) (hk : n.kind = .elem .filter) : spaceAt f n.key = n.get .colorInterpolationFilters := by
  have hw : written n .colorInterpolationFilters = n.get .colorInterpolationFilters := by
    unfold written Node.get
    cases h : getAttr n.attrs (.id .colorInterpolationFilters) with
    | none => rfl
    | some x =>
      have : x ∈ n.attrs := List.mem_of_find?_eq_some h
      dsimp only
      rw [if_pos (hf.only n hn hk x this).1]; rfl
  have hm := Forest.key_mem hn
  rw [← inherited_keys .colorInterpolationFilters none f] at hm
  obtain ⟨⟨k, v⟩, hx, e⟩ := List.mem_map.1 hm
  dsimp only at e
  subst e
  unfold Spec.spaceAt
  cases h : (inherited .colorInterpolationFilters none f).find? fun x => decide (x.1 = n.key) with
  | none => exact absurd (List.find?_eq_none.1 h _ hx) (by simp)
  | some y =>
    have h1 := List.mem_of_find?_eq_some h
    have h2 : y.1 = n.key := by simpa using List.find?_some h
    obtain ⟨k, w⟩ := y
    dsimp only at h2
    subst h2
    rw [Option.bind_some, ← hw]
    exact inherited_own hf.unique hf.space hf.flat hn hk h1

theorem GoodBlur.kidMem {n : Node} {d : Node} (h : f.kidsOf n.key = some (.cons d .nil .nil)) : d ∈ f.nodes := by
  obtain ⟨x', _, hs⟩ := subs_kidsOf h
  exact (Stops.subs_kids_sub hs).1.mem (by simp [Forest.nodes])

theorem BlurOnly.noLinks {n : Node} (h : BlurOnly f n) : n.links = [] := by
  refine List.eq_nil_iff_forall_not_mem.2 fun k hk => ?_
  obtain ⟨x, hx, ht⟩ := Node.mem_links.1 hk
  have hnm := (hf.only n h.mem h.kind x hx).2 (by simp [ht])
  have hh := h.href
  unfold Node.get at hh
  rw [Option.map_eq_none_iff] at hh
  have := List.find?_eq_none.1 hh x hx
  simp [hnm] at this

variable {n1 n2 : Node} (ht : BlurTwins f n1 n2)
include ht

theorem blur_fusable : Fusable f n1 n2 where
  unique := hf.unique
  form := hf.form
  mem1 := ht.first.mem
  mem2 := ht.second.mem
  ne := ht.ne
  ids x hx e hl := by
    rw [hf.ids n1 ht.first.mem ht.first.kind x hx e, ht.first.noLinks hf] at hl
    cases hl
  named := hf.named n1 ht.first.mem ht.first.kind
  cross x hx hl h1 := by rw [ht.first.noLinks hf] at h1; cases h1
  inside c hc := by
    obtain ⟨d, hd, hk, _, _, hu⟩ := ht.second.kids
    rw [hd] at hc
    cases hc
    refine ⟨fun h => ?_, fun x hx => ?_⟩
    · have e : n1.key = d.key := by simpa [Forest.keys, Forest.nodes] using h
      have := Forest.eq_of_key hf.unique ht.first.mem (hf.kidMem hd) e
      subst this
      rw [ht.first.kind] at hk
      cases hk
    · have : x = d := by simpa [Forest.nodes] using hx
      rw [this]; exact hu

theorem keep_other {x : Node} (hx : x ∈ f.nodes) (hi : ¬ InFilter f x) (hk : x.key ≠ n2.key) : rename (sub n2.key n1.key) x ∈ (fused f n1 n2).nodes :=
  fused_keep (blur_fusable hf ht) hx hk fun _ hc hd => hi ⟨_, hf.kids ht.second.mem hc, ht.second.kind, hd⟩

theorem prune_filter {x : Node} (hx : x ∈ f.nodes) (hk : x.kind = .elem .filter) {c : Forest} (hc : f.kidsOf x.key = some c) :
    ((c.map (rename (sub n2.key n1.key))).prune fun m => decide (m.key = n2.key)) = c.map (rename (sub n2.key n1.key)) := by
  refine prune_id fun m hm => ?_
  rw [Forest.nodes_map] at hm
  obtain ⟨d, hd, rfl⟩ := List.mem_map.1 hm
  rw [decide_eq_false_iff_not]
  intro e
  have := Forest.eq_of_key hf.unique ((Stops.subs_kids_sub (hf.kids hx hc)).1.mem hd) ht.second.mem e
  subst this
  exact hf.flat _ (hf.kids hx hc) hk _ hd ht.second.kind

theorem kids_filter {x : Node} (hx : x ∈ f.nodes) (hk : x.kind = .elem .filter) (hne : x.key ≠ n2.key) :
    (fused f n1 n2).kidsOf x.key = (f.kidsOf x.key).map fun c => c.map (rename (sub n2.key n1.key)) := by
  rw [fused_kids (blur_fusable hf ht) (keep_other hf ht hx (hf.outside hk) hne)]
  cases hc : f.kidsOf x.key with
  | none => rfl
  | some c => rw [Option.map_some, Option.map_some, prune_filter hf ht hx hk hc]

theorem subs_back {y : Node × Forest} (hy : y ∈ subs (fused f n1 n2)) : ∃ x c, (x, c) ∈ subs f ∧ x.key ≠ n2.key ∧ y.1 = rename (sub n2.key n1.key) x ∧
    y.2 = (c.map (rename (sub n2.key n1.key))).prune fun m => decide (m.key = n2.key) := by
  have hfu := blur_fusable hf ht
  obtain ⟨x, hx, hne, e⟩ := fused_mem hfu (node_of_subs hy)
  have h1 := kidsOf_subs (fused_unique hfu) (n := y.1) (c := y.2) hy
  rw [e, rename_key, fused_kids hfu (e ▸ node_of_subs hy)] at h1
  obtain ⟨c, hc, e2⟩ := Option.map_eq_some_iff.1 h1
  exact ⟨x, c, hf.kids hx hc, hne, e, e2.symm⟩

theorem used_back {k : Nat} (hk : f.isUsed k = false) (hne : k ≠ n1.key) : (fused f n1 n2).isUsed k = false := by
  rw [Bool.eq_false_iff] at hk ⊢
  intro hc
  obtain ⟨y, hy, hl⟩ := Forest.isUsed_iff.1 hc
  obtain ⟨x, hx, _, rfl⟩ := fused_mem (blur_fusable hf ht) hy
  obtain ⟨j, hj, e⟩ := mem_rename_links.1 hl
  unfold sub at e
  split at e
  · exact hne e.symm
  · exact hk (Forest.isUsed_iff.2 ⟨x, hx, e ▸ hj⟩)

theorem goodBlur_fused : GoodBlur (fused f n1 n2) := by
  have hfu := blur_fusable hf ht
  have mem := fun {y} (hy : y ∈ (fused f n1 n2).nodes) => fused_mem hfu hy
  refine ⟨fused_unique hfu, ?_, ?_, ?_, ?_, ?_, ?_, ?_, ?_, ?_, ?_⟩
  · intro y hy k hk
    obtain ⟨x, hx, _, rfl⟩ := mem hy
    obtain ⟨j, hj, e⟩ := mem_rename_links.1 hk
    obtain ⟨t, htm, rfl⟩ := Forest.mem_keys.1 (hf.links x hx j hj)
    unfold sub at e
    split at e
    · have := Forest.key_mem (keep_other hf ht ht.first.mem (hf.outside ht.first.kind) ht.ne)
      rwa [rename_key, e] at this
    next hk =>
      have := Forest.key_mem (fused_keep hfu htm hk fun c hc hd => by
        have := (hfu.inside c hc).2 t hd
        rw [Forest.isUsed_iff.2 ⟨x, hx, hj⟩] at this
        cases this)
      rwa [rename_key, e] at this
  · exact linkForm_rename hf.form fun y hy => by
      obtain ⟨x, hx, _, e⟩ := mem hy
      exact ⟨x, hx, e⟩
  · intro y hy hk
    obtain ⟨x, hx, _, rfl⟩ := mem hy
    exact hf.named x hx hk
  · intro y hy hk z hz e
    obtain ⟨x, hx, _, rfl⟩ := mem hy
    obtain ⟨w, hw, _, rfl⟩ := mem hz
    rw [hf.ids x hx hk w hw e]
  · intro y hy hk z hz
    obtain ⟨x, hx, _, rfl⟩ := mem hy
    obtain ⟨w, hw, rfl⟩ := List.mem_map.1 hz
    refine ⟨(hf.only x hx hk w hw).1, fun h => (hf.only x hx hk w hw).2 fun e => ?_⟩
    rw [renameValue_target, e] at h
    exact h rfl
  · intro y hy hk d hd
    obtain ⟨x, c, hs, _, e1, e2⟩ := subs_back hf ht hy
    rw [e1, rename_kind] at hk
    rw [e2] at hd
    have := (Forest.nodes_prune_sublist _ _).mem hd
    rw [Forest.nodes_map] at this
    obtain ⟨z, hz, rfl⟩ := List.mem_map.1 this
    exact hf.flat _ hs hk z hz
  · intro y hy hk
    obtain ⟨x, hx, _, rfl⟩ := mem hy
    rw [written_rename, hf.space x hx hk]; rfl
  · intro y hy hk a v hv
    obtain ⟨x, hx, _, rfl⟩ := mem hy
    rw [get_rename] at hv
    obtain ⟨w, hw, _⟩ := Option.map_eq_some_iff.1 hv
    exact hf.blur x hx hk a w hw
  · intro y hy hk v hv
    obtain ⟨x, hx, _, rfl⟩ := mem hy
    rw [get_rename] at hv
    obtain ⟨w, hw, rfl⟩ := Option.map_eq_some_iff.1 hv
    rw [renameValue_target, hf.plain x hx hk w hw]; rfl
  · intro y hy hk
    obtain ⟨x, c, hs, _, e1, e2⟩ := subs_back hf ht hy
    rw [e1, rename_kind] at hk
    have := hf.childless _ hs hk
    dsimp only at this
    rw [e2, this]; rfl

/-- Filters with nothing but a blur stay so. -/
theorem blurOnly_fused {x : Node} (h : BlurOnly f x) (hne : x.key ≠ n2.key) : BlurOnly (fused f n1 n2) (rename (sub n2.key n1.key) x) := by
  refine ⟨keep_other hf ht h.mem (hf.outside h.kind) hne, h.kind, by rw [get_rename, h.href]; rfl, ?_⟩
  obtain ⟨d, hd, hk, h1, h2, h3⟩ := h.kids
  refine ⟨rename (sub n2.key n1.key) d, ?_, hk, by rw [get_rename, h1]; rfl, by rw [get_rename, h2]; rfl, used_back hf ht h3 fun e => ?_⟩
  · rw [rename_key, kids_filter hf ht h.mem h.kind hne, hd]; rfl
  · have := Forest.eq_of_key hf.unique (hf.kidMem hd) ht.first.mem e
    subst this
    rw [ht.first.kind] at hk
    cases hk

/-- What becomes of a filter. -/
def blurImage (n1 n2 x : Node) : Node := rename (sub n2.key n1.key) (if x.key = n2.key then n1 else x)

omit hf ht in
theorem region_attr {n : Node} {f : Forest} (hf : GoodBlur f) (hn : n ∈ f.nodes) (hk : n.kind = .elem .filter) {a : AId} (ha : a ≠ .xlinkHref) (ρ : Nat → Nat) :
    (rename ρ n).get a = n.get a := by
  rw [get_rename]
  cases h : n.get a with
  | none => rfl
  | some v =>
    rw [Option.map_some, renameValue_none]
    unfold Node.get at h
    obtain ⟨y, hy, rfl⟩ := Option.map_eq_some_iff.1 h
    by_contra hc
    have h1 := (hf.only n hn hk y (List.mem_of_find?_eq_some hy)).2 hc
    have h2 : y.name = .id a := by simpa using List.find?_some hy
    rw [h1] at h2
    exact ha (by injection h2 with h2; exact h2.symm)

theorem filter_image {x : Node} (hx : x ∈ f.nodes) (hk : x.kind = .elem .filter) :
    blurImage n1 n2 x ∈ (fused f n1 n2).nodes ∧ (blurImage n1 n2 x).key = sub n2.key n1.key x.key ∧
    FilterSame (sub n2.key n1.key) f x (fused f n1 n2) (blurImage n1 n2 x) := by
  have hg := goodBlur_fused hf ht
  have m1 := keep_other hf ht ht.first.mem (hf.outside ht.first.kind) ht.ne
  have notRef : ∀ a ∈ filterRegion, a ≠ .xlinkHref := by decide
  unfold blurImage
  by_cases e : x.key = n2.key
  · have hxn := Forest.eq_of_key hf.unique hx ht.second.mem e
    subst hxn
    rw [if_pos rfl]
    refine ⟨m1, by simp [sub, rename_key], ⟨hk, ht.first.kind⟩, fun a ha => ?_, ?_, ?_, ?_⟩
    · rw [region_attr hf ht.first.mem ht.first.kind (notRef a ha)]; exact ht.attrs a ha
    · rw [get_rename, ht.first.href, ht.second.href]
    · rw [hf.spaceAt hx hk, hg.spaceAt m1 ht.first.kind, region_attr hf ht.first.mem ht.first.kind (by decide), ht.space]
    · obtain ⟨d1, d2, k1, k2, e12⟩ := ht.blur
      refine ⟨_, _, k2, by rw [rename_key, kids_filter hf ht ht.first.mem ht.first.kind ht.ne, k1, Option.map_some], ?_⟩
      obtain ⟨d1', k1', b1, i1, r1, _⟩ := ht.first.kids
      obtain ⟨d2', k2', b2, i2, r2, _⟩ := ht.second.kids
      rw [k1] at k1'; cases k1'
      rw [k2] at k2'; cases k2'
      refine ⟨b2.trans b1.symm, fun a => ?_, trivial, trivial⟩
      rw [get_rename]
      congr 1
      have only : ∀ {d : Node}, d ∈ f.nodes → d.kind = .elem .feGaussianBlur → d.get .in_ = none → d.get .result = none → a ≠ .stdDeviation → d.get a = none := by
        intro d hd hdk h1 h2 h3
        cases hv : d.get a with
        | none => rfl
        | some v =>
          rcases hf.blur d hd hdk a v hv with h | h | h
          · exact absurd h h3
          · rw [h, h1] at hv; cases hv
          · rw [h, h2] at hv; cases hv
      by_cases ha : a = .stdDeviation
      · rw [ha, e12]
      · rw [only (hf.kidMem k1) b1 i1 r1 ha, only (hf.kidMem k2) b2 i2 r2 ha]
  · rw [if_neg e]
    have m2 := keep_other hf ht hx (hf.outside hk) e
    refine ⟨m2, by rw [rename_key]; simp [sub, e], ⟨hk, hk⟩, fun a ha => region_attr hf hx hk (notRef a ha) _, get_rename _ _ _, ?_, ?_⟩
    · rw [hf.spaceAt hx hk, hg.spaceAt m2 hk, region_attr hf hx hk (by decide)]
    · obtain ⟨c, hc⟩ := kidsOf_isSome (Forest.key_mem hx)
      exact ⟨c, _, hc, by rw [rename_key, kids_filter hf ht hx hk e, hc, Option.map_some], alike_map _ c⟩

end blur

/-! ### The loops -/

/-- The document `g` is `f` without some duplicates of filters; `ρ` says which filter stands for which. -/
structure DedupedBlur (f g : Forest) (ρ : Nat → Nat) : Prop where
  /-- Every element is what it was, but for its references; only filters, and what is in them, are removed. -/
  back : ∀ m ∈ g.nodes, ∃ n ∈ f.nodes, m = rename ρ n
  others : ∀ n ∈ f.nodes, n.kind ≠ .elem .filter → ¬ InFilter f n → rename ρ n ∈ g.nodes
  drawn : drawn g = (drawn f).map (rename ρ)
  /-- The filter that stands for another one is the same. -/
  filters : ∀ n ∈ f.nodes, n.kind = .elem .filter → ∃ m ∈ g.nodes, m.key = ρ n.key ∧ FilterSame ρ f n g m
  /-- References to what is still there do not change, nor do references to what is no filter. -/
  same : ∀ k ∈ g.keys, ρ k = k
  fixed : ∀ n ∈ f.nodes, n.kind ≠ .elem .filter → ρ n.key = n.key
  unique : g.UniqueKeys
  links : g.LinksOk

structure InvBlur (f0 f : Forest) (ρ : Nat → Nat) (ks : List Nat) : Prop where
  good : GoodBlur f
  done : DedupedBlur f0 f ρ
  out : ∀ n ∈ f0.nodes, n.kind ≠ .elem .filter → ¬ InFilter f0 n → ¬ InFilter f (rename ρ n)
  todo : ∀ x ∈ f.nodes, x.key ∈ ks → BlurOnly f x

theorem rename_self' (n : Node) : rename (fun k => k) n = n := rename_id fun _ _ => rfl

theorem map_self (f : Forest) : f.map (rename fun k => k) = f := Forest.map_id' fun n _ => rename_self' n

theorem filter_refl {f : Forest} {n : Node} (hn : n ∈ f.nodes) (hk : n.kind = .elem .filter) : FilterSame (fun k => k) f n f n := by
  refine ⟨⟨hk, hk⟩, fun _ _ => rfl, ?_, rfl, ?_⟩
  · conv => lhs; rw [← rename_self' n]
    exact get_rename _ _ _
  · obtain ⟨c, hc⟩ := kidsOf_isSome (Forest.key_mem hn)
    refine ⟨c, c, hc, hc, ?_⟩
    have := alike_map (fun k => k) c
    rwa [map_self] at this

theorem InvBlur.step {f0 f : Forest} (h0 : f0.UniqueKeys) {ρ : Nat → Nat} {ks : List Nat} (h : InvBlur f0 f ρ ks) {n1 n2 : Node} (ht : BlurTwins f n1 n2) :
    InvBlur f0 (fused f n1 n2) (fun k => sub n2.key n1.key (ρ k)) ks := by
  have hf := h.good
  have hfu := blur_fusable hf ht
  refine ⟨goodBlur_fused hf ht, ⟨?_, ?_, ?_, ?_, ?_, ?_, fused_unique hfu, (goodBlur_fused hf ht).links⟩, ?_, ?_⟩
  · intro m hm
    obtain ⟨x, hx, _, rfl⟩ := fused_mem hfu hm
    obtain ⟨n, hn, rfl⟩ := h.done.back x hx
    exact ⟨n, hn, rename_comp _ _ _⟩
  · intro n hn hg hi
    rw [← rename_comp]
    refine keep_other hf ht (h.done.others n hn hg hi) (h.out n hn hg hi) fun e => ?_
    have := Forest.eq_of_key hf.unique (h.done.others n hn hg hi) ht.second.mem e
    have h2 := ht.second.kind
    rw [← this, rename_kind] at h2
    exact hg h2
  · rw [fused_drawn hfu, h.done.drawn, Forest.map_map]
    · exact GroupDefs.map_congr_nodes fun n _ => rename_comp _ _ _
    · rw [ht.second.kind]; rfl
  · intro n hn hk
    obtain ⟨m, hm, e, hs⟩ := h.done.filters n hn hk
    obtain ⟨a, b, c⟩ := filter_image hf ht hm hs.kind.2
    exact ⟨_, a, by rw [b, e], hs.trans c⟩
  · intro k hk
    obtain ⟨m, hm, rfl⟩ := Forest.mem_keys.1 hk
    obtain ⟨x, hx, hne, rfl⟩ := fused_mem hfu hm
    rw [rename_key, h.done.same _ (Forest.key_mem hx)]
    exact if_neg hne
  · intro n hn hg
    rw [h.done.fixed n hn hg]
    refine if_neg fun e => ?_
    obtain ⟨x, hx, ex⟩ := h.done.back n2 ht.second.mem
    have h2 := ht.second.kind
    rw [ex, rename_key] at e
    have := Forest.eq_of_key h0 hn hx e
    rw [ex, rename_kind, ← this] at h2
    exact hg h2
  · rintro n hn hg hi ⟨y, hy, hyk, hm⟩
    rw [← rename_comp] at hm
    obtain ⟨x, c, hs, _, e1, e2⟩ := subs_back hf ht hy
    rw [e1, rename_kind] at hyk
    rw [e2] at hm
    have hm := (Forest.nodes_prune_sublist _ _).mem hm
    rw [Forest.nodes_map] at hm
    obtain ⟨z, hz, e⟩ := List.mem_map.1 hm
    have := Forest.eq_of_key hf.unique ((Stops.subs_kids_sub hs).1.mem hz) (h.done.others n hn hg hi) (by have := congrArg Node.key e; exact this)
    exact h.out n hn hg hi ⟨_, hs, hyk, this ▸ hz⟩
  · intro y hy hm
    obtain ⟨x, hx, hne, rfl⟩ := fused_mem hfu hy
    exact blurOnly_fused hf ht (h.todo x hx hm) hne

theorem optAttrs_iff {as : List AId} {n m : Node} : optAttrsEqual as n m = true ↔ ∀ a ∈ as, n.get a = m.get a := by
  simp [optAttrsEqual]

theorem cmpBlurs_ok {f : Forest} {k1 k2 : Nat} (hne : k1 ≠ k2) (hk : ∀ x ∈ f.nodes, x.key = k1 ∨ x.key = k2 → BlurOnly f x) :
    ∃ b, cmpBlurs f k1 k2 = some b ∧ (b = true → ∃ n1 n2, n1.key = k1 ∧ n2.key = k2 ∧ BlurTwins f n1 n2) := by
  unfold cmpBlurs
  split
  next n1 n2 c1 c2 h1 h2 h3 h4 =>
    obtain ⟨m1, rfl⟩ := Forest.find_some h1
    obtain ⟨m2, rfl⟩ := Forest.find_some h2
    have b1 := hk n1 m1 (.inl rfl)
    have b2 := hk n2 m2 (.inr rfl)
    obtain ⟨d1, k1, _⟩ := b1.kids
    obtain ⟨d2, k2, _⟩ := b2.kids
    have k1' := k1
    have k2' := k2
    rw [h3] at k1
    rw [h4] at k2
    cases k1
    cases k2
    by_cases hq : optAttrsEqual filterAttrs n1 n2 = true
    · rw [if_pos hq]
      refine ⟨_, rfl, fun hb => ⟨n1, n2, rfl, rfl, b1, b2, hne, fun a ha => optAttrs_iff.1 hq a ?_, optAttrs_iff.1 hq _ (by decide), d1, d2, k1', k2', optAttrs_iff.1 hb _ (by decide)⟩⟩
      exact (show ∀ a ∈ filterRegion, a ∈ filterAttrs by decide) a ha
    · rw [if_neg hq]; exact ⟨false, rfl, by simp⟩
  · exact ⟨false, rfl, by simp⟩

theorem blur_inner {f0 f : Forest} (h0 : f0.UniqueKeys) {ρ : Nat → Nat} {all : List Nat} (h : InvBlur f0 f ρ all) {k1 : Nat} {ks : List Nat} (hk : k1 ∉ ks)
    (hks : ∀ k ∈ k1 :: ks, k ∈ all) :
    ∃ r ρ', rmInner cmpBlurs k1 ks f = some r ∧ InvBlur f0 r.2 ρ' all ∧ r.1.Sublist ks := by
  induction ks generalizing f ρ with
  | nil => exact ⟨_, _, rfl, h, List.Sublist.refl _⟩
  | cons k2 ks ih =>
    have hne : k1 ≠ k2 := fun e => hk (by simp [e])
    obtain ⟨b, hb, hbt⟩ := cmpBlurs_ok hne (fun n hn hor => h.todo n hn (hks _ (by rcases hor with e | e <;> simp [e])))
    have hks' : ∀ k ∈ k1 :: ks, k ∈ all := fun k hm => hks k (by
      rcases List.mem_cons.1 hm with h | h <;> simp [h])
    rw [rmInner, hb, Option.bind_some]
    cases b with
    | false =>
      obtain ⟨r, ρ', h1, h2, h3⟩ := ih h (fun hm => hk (by simp [hm])) hks'
      exact ⟨(k2 :: r.1, r.2), ρ', by simp [h1], h2, h3.cons_cons k2⟩
    | true =>
      obtain ⟨n1, n2, rfl, rfl, ht⟩ := hbt rfl
      rw [if_pos rfl, Forest.find_of_mem h.good.unique ht.first.mem, Option.bind_some, fuse_eq (blur_fusable h.good ht), Option.bind_some]
      obtain ⟨r, ρ', h1, h2, h3⟩ := ih (h.step h0 ht) (fun hm => hk (by simp [hm])) hks'
      exact ⟨r, ρ', h1, h2, h3.cons n2.key⟩

theorem blur_outer {f0 f : Forest} (h0 : f0.UniqueKeys) {ρ : Nat → Nat} {all : List Nat} (h : InvBlur f0 f ρ all) {fuel : Nat} {ks : List Nat} (hk : ks.Nodup)
    (hl : ks.length ≤ fuel) (hks : ∀ k ∈ ks, k ∈ all) : ∃ g ρ', rmOuter cmpBlurs fuel ks f = some g ∧ InvBlur f0 g ρ' all := by
  induction fuel generalizing f ρ ks with
  | zero =>
    have : ks = [] := by simpa using hl
    subst this
    exact ⟨_, _, rfl, h⟩
  | succ fuel ih =>
    cases ks with
    | nil => exact ⟨_, _, rfl, h⟩
    | cons k ks =>
      rw [List.nodup_cons] at hk
      obtain ⟨r, ρ', h1, h2, h3⟩ := blur_inner h0 h hk.1 hks
      rw [rmOuter, h1, Option.bind_some]
      refine ih h2 (hk.2.sublist h3) ?_ fun k' hm => hks k' (by simp [h3.mem hm])
      have := h3.length_le
      simp only [List.length_cons] at hl
      omega

theorem blurOnly_of {f : Forest} (hf : GoodBlur f) {x : Node} (hx : x ∈ f.nodes) (hm : x.key ∈ blurs f) : BlurOnly f x := by
  unfold blurs at hm
  obtain ⟨⟨y, c⟩, hy, e⟩ := List.mem_map.1 hm
  rw [List.mem_filter] at hy
  obtain ⟨hs, hb⟩ := hy
  have := Forest.eq_of_key hf.unique (node_of_subs hs) hx e
  dsimp only at this
  subst this
  dsimp only at hb
  simp only [blurOk, Bool.and_eq_true, decide_eq_true_eq, List.all_eq_true, Bool.not_eq_true', Bool.or_eq_false_iff] at hb
  obtain ⟨hk, ⟨hl, hh⟩, hd⟩ := hb
  have isTag : ∀ {n : Node} {e : EId}, n.isTag e = true → n.kind = .elem e := by
    intro n e h
    simpa [Node.isTag] using h
  have noneOf : ∀ {n : Node} {a : AId}, n.has a = false → n.get a = none := by
    intro n a h
    unfold Node.has at h
    unfold Node.get
    cases hq : getAttr n.attrs (.id a) with
    | none => rfl
    | some => rw [hq] at h; cases h
  cases c with
  | nil => simp [Forest.top] at hl
  | cons d k r =>
    have hr : r = .nil := by
      cases r with
      | nil => rfl
      | cons => simp [Forest.top] at hl
    subst hr
    obtain ⟨⟨h1, h2⟩, h3, h4⟩ := hd d (by simp [Forest.top])
    have hdm : (d, k) ∈ subs f := by
      have := UnusedDefs.subs_trans hs (p := (d, k)) (by simp [subs])
      exact this
    have hk0 := hf.childless _ hdm (isTag h1)
    dsimp only at hk0
    subst hk0
    exact ⟨hx, isTag hk, noneOf hh, d, kidsOf_subs hf.unique hs, isTag h1, noneOf h3, noneOf h4, h2⟩

theorem nodup_blurs {f : Forest} (hu : f.UniqueKeys) : (blurs f).Nodup := by
  have : (blurs f).Sublist f.keys := by
    unfold blurs
    refine (List.filter_sublist.map _).trans ?_
    rw [Stops.subs_keys]
  exact this.nodup hu

/-- **C32** for filters, for documents with the conditions of `GoodBlur`: the pass ends without a crash, and gives references to removed
filters to filters that are the same.  What is missing: see the refutations below. -/
theorem C32_blur_partial {f : Forest} (hf : GoodBlur f) : ∃ g ρ, rmBlurs f = some g ∧ DedupedBlur f g ρ ∧ GoodBlur g := by
  have h : InvBlur f f (fun k => k) (blurs f) := by
    refine ⟨hf, ⟨fun m hm => ⟨m, hm, (rename_self' m).symm⟩, fun n hn _ _ => (rename_self' n).symm ▸ hn, ?_,
      fun n hn hk => ⟨n, hn, rfl, filter_refl hn hk⟩, fun _ _ => rfl, fun _ _ _ => rfl, hf.unique, hf.links⟩, fun n _ _ hi => by rw [rename_self']; exact hi,
      fun x hx hm => blurOnly_of hf hx hm⟩
    exact (map_self _).symm
  obtain ⟨g, ρ, h1, h2⟩ := blur_outer hf.unique h (nodup_blurs hf.unique) (Nat.le_refl _) fun k hk => hk
  exact ⟨g, ρ, h1, h2.done, h2.good⟩

end Verif.Dupl
