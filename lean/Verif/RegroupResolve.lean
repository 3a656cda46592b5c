import Verif.RegroupWhole
/-
Property C40, last part: the attributes that are resolved at the end.
-/
namespace Verif.Regroup
open Verif.Dom Verif.Spec Verif.Gradients
open Verif.UnusedDefs (kidsOf_subs node_of_subs subs_kidsOf)
open Verif.Merge (isGradient_kind mem_drawn)
open Verif.Stops (setHidden)

/-- What the resolving of attributes needs. -/
structure Sound (f : Forest) : Prop where
  unique : f.UniqueKeys
  links : f.LinksOk
  href : HrefOk f
  shown : ∀ n ∈ f.nodes, n.isGradient = true → written n .xlinkHref = n.get .xlinkHref

/-- The node `n` has become `m`; nothing that is written out has changed. -/
structure Hid (f : Forest) (n m : Node) : Prop where
  kind : m.kind = n.kind
  id : m.id = n.id
  written : ∀ a, written m a = written n a
  get : m.get .xlinkHref = n.get .xlinkHref
  other : n.isGradient = false → m = n
  links : ∀ j ∈ m.links, j ∈ f.keys

def Shaded (f g : Forest) : Prop := ∃ u : Node → Node, g = f.map u ∧ (∀ n, (u n).key = n.key) ∧ ∀ n ∈ f.nodes, Hid f n (u n)

theorem grad_kind {m n : Node} (h : m.kind = n.kind) : m.isGradient = n.isGradient := by
  rw [Bool.eq_iff_iff, isGradient_kind, isGradient_kind, h]

theorem Hid.refl {f : Forest} (hf : f.LinksOk) {n : Node} (hn : n ∈ f.nodes) : Hid f n n :=
  ⟨rfl, rfl, fun _ => rfl, rfl, fun _ => rfl, hf n hn⟩

theorem Shaded.refl {f : Forest} (hf : f.LinksOk) : Shaded f f := ⟨id, (Forest.map_id' fun _ _ => rfl).symm, fun _ => rfl, fun _ hn => Hid.refl hf hn⟩

theorem Shaded.trans {f g h : Forest} (h1 : Shaded f g) (h2 : Shaded g h) : Shaded f h := by
  obtain ⟨u, rfl, hu, hn⟩ := h1
  obtain ⟨w, rfl, hw, hm⟩ := h2
  refine ⟨fun n => w (u n), Forest.map_map _ _ _, fun n => (hw _).trans (hu _), fun n hx => ?_⟩
  have a := hn n hx
  have b := hm (u n) (by rw [Forest.nodes_map]; exact List.mem_map_of_mem hx)
  refine ⟨b.kind.trans a.kind, b.id.trans a.id, fun i => (b.written i).trans (a.written i), b.get.trans a.get, fun hg => ?_, fun j hj => ?_⟩
  · have e := a.other hg
    have := b.other (by rw [e]; exact hg)
    exact this.trans e
  · have := b.links j hj
    rwa [Forest.keys_map hu] at this

theorem Sound.shaded {f g : Forest} (hf : Sound f) (h : Shaded f g) : Sound g := by
  obtain ⟨u, rfl, hu, hn⟩ := h
  refine ⟨(Forest.uniqueKeys_map hu).2 hf.unique, ?_, ?_, ?_⟩
  · intro m hm k hk
    rw [Forest.nodes_map] at hm
    obtain ⟨n, hx, rfl⟩ := List.mem_map.1 hm
    rw [Forest.keys_map hu]
    exact (hn n hx).links k hk
  · obtain ⟨rank, hr⟩ := hf.href
    refine ⟨rank, fun m hm hg v hv => ?_⟩
    rw [Forest.nodes_map] at hm
    obtain ⟨n, hx, rfl⟩ := List.mem_map.1 hm
    rw [(hn n hx).written] at hv
    rw [grad_kind (hn n hx).kind] at hg
    obtain ⟨t, ht, rfl, htg, hlt⟩ := hr n hx hg v hv
    refine ⟨u t, by rw [Forest.nodes_map]; exact List.mem_map_of_mem ht, by rw [hu], by rw [grad_kind (hn t ht).kind]; exact htg, by rw [hu, hu]; exact hlt⟩
  · intro m hm hg
    rw [Forest.nodes_map] at hm
    obtain ⟨n, hx, rfl⟩ := List.mem_map.1 hm
    rw [(hn n hx).written, (hn n hx).get]
    exact hf.shown n hx (by rw [← grad_kind (hn n hx).kind]; exact hg)

theorem resolve_some {f : Forest} (hf : Sound f) {rank : Nat → Nat} (hr : HrefRanked f rank) (a : AId) {d : Option Value} (hd : ∀ v, d = some v → v.target = none)
    {fuel : Nat} {n : Node} (hn : n ∈ f.nodes) (hg : n.isGradient = true) (hb : below f rank (rank n.key) < fuel) :
    ∃ r, resolveAttribute f a d fuel n = some r ∧ ∀ v, r = some v → ∀ j, v.target = some j → j ∈ f.keys := by
  induction fuel generalizing n with
  | zero => omega
  | succ fuel ih =>
    rw [resolveAttribute]
    cases ha : n.get a with
    | some v =>
      refine ⟨_, rfl, fun w hw j hj => ?_⟩
      cases hw
      unfold Node.get at ha
      obtain ⟨x, hx, rfl⟩ := Option.map_eq_some_iff.1 ha
      exact hf.links n hn j (Node.mem_links.2 ⟨x, List.mem_of_find?_eq_some hx, hj⟩)
    | none =>
      cases hx : n.get .xlinkHref with
      | none =>
        refine ⟨_, rfl, fun w hw j hj => ?_⟩
        rw [hd w hw] at hj
        cases hj
      | some u =>
        obtain ⟨t, ht, rfl, htg, hlt⟩ := hr n hn hg u (by rw [hf.shown n hn hg, hx])
        simp only []
        rw [Forest.find_of_mem hf.unique ht]
        exact ih ht htg (lt_of_lt_of_le (below_lt ht hlt) (by omega))

theorem check_ok {f : Forest} (hf : Sound f) {k : Nat} (hk : ∃ n ∈ f.nodes, n.key = k ∧ n.isGradient = true) {a : AId} (ha : a ≠ .xlinkHref) {d : Option Value}
    (hd : ∀ v, d = some v → v.target = none) : ∃ g, checkAttr k a d f = some g ∧ Shaded f g := by
  obtain ⟨n, hn, rfl, hg⟩ := hk
  unfold checkAttr
  rw [Forest.find_of_mem hf.unique hn, Option.bind_some]
  by_cases hh : n.has a = true
  · rw [if_pos hh]; exact ⟨f, rfl, Shaded.refl hf.links⟩
  · rw [if_neg hh]
    obtain ⟨rank, hr⟩ := hf.href
    obtain ⟨r, h1, h2⟩ := resolve_some hf hr a hd (fuel := f.nodes.length + 1) hn hg (Nat.lt_succ_of_le (below_le _ _ _))
    rw [h1, Option.map_some]
    cases r with
    | none => exact ⟨f, rfl, Shaded.refl hf.links⟩
    | some v =>
      refine ⟨_, rfl, _, rfl, fun m => ?_, fun m hm => ?_⟩
      · split <;> rfl
      · by_cases e : m.key = n.key
        · have := Forest.eq_of_key hf.unique hm hn e
          subst this
          rw [if_pos rfl]
          have hne : getAttr m.attrs (.id a) = none := by
            unfold Node.has at hh
            simpa using hh
          refine ⟨rfl, rfl, fun b => ?_, ?_, fun h => ?_, fun j hj => ?_⟩
          · unfold Spec.written
            rw [getAttr_setHidden]
            by_cases e : b = a
            · subst e
              rw [if_pos rfl, hne]; rfl
            · rw [if_neg (by simpa using e)]
          · unfold Node.get
            rw [getAttr_setHidden, if_neg (by simpa using ha.symm)]
          · rw [hg] at h; cases h
          · obtain ⟨x, hx, ht⟩ := Node.mem_links.1 hj
            rcases Node.mem_putAttr hx with rfl | hx
            · exact h2 v rfl j ht
            · exact hf.links m hm j (Node.mem_links.2 ⟨x, hx, ht⟩)
        · rw [if_neg e]; exact Hid.refl hf.links hm

theorem bind_ok {f : Forest} (hf : Sound f) {k : Nat} (hk : ∃ n ∈ f.nodes, n.key = k ∧ n.isGradient = true) {a : AId} (ha : a ≠ .xlinkHref) {d : Option Value}
    (hd : ∀ v, d = some v → v.target = none) {y : Forest → Option Forest}
    (hy : ∀ f', Sound f' → (∃ n ∈ f'.nodes, n.key = k ∧ n.isGradient = true) → ∃ g, y f' = some g ∧ Shaded f' g) :
    ∃ g, (checkAttr k a d f).bind y = some g ∧ Shaded f g := by
  obtain ⟨f', h1, h2⟩ := check_ok hf hk ha hd
  have hk' : ∃ n ∈ f'.nodes, n.key = k ∧ n.isGradient = true := by
    obtain ⟨u, rfl, hu, hn⟩ := h2
    obtain ⟨n, hx, e, hg⟩ := hk
    exact ⟨u n, by rw [Forest.nodes_map]; exact List.mem_map_of_mem hx, (hu n).trans e, by rw [grad_kind (hn n hx).kind]; exact hg⟩
  obtain ⟨g, h3, h4⟩ := hy f' (hf.shaded h2) hk'
  exact ⟨g, by rw [h1, Option.bind_some, h3], h2.trans h4⟩

theorem node_ok {f : Forest} (hf : Sound f) {k : Nat} (hk : ∃ n ∈ f.nodes, n.key = k ∧ n.isGradient = true) : ∃ g, resolveLinearNode k f = some g ∧ Shaded f g := by
  unfold resolveLinearNode
  have hd : ∀ {w : Value}, w.target = none → ∀ v, some w = some v → v.target = none := by rintro w h v ⟨⟩; exact h
  refine bind_ok hf hk (by decide) (hd rfl) fun f hf hk => ?_
  refine bind_ok hf hk (by decide) (hd rfl) fun f hf hk => ?_
  refine bind_ok hf hk (by decide) (hd rfl) fun f hf hk => ?_
  refine bind_ok hf hk (by decide) (hd rfl) fun f hf hk => ?_
  refine bind_ok hf hk (by decide) (hd rfl) fun f hf hk => ?_
  refine bind_ok hf hk (by decide) (hd rfl) fun f hf hk => ?_
  exact check_ok hf hk (by decide) (by rintro v ⟨⟩)

theorem each_ok {f : Forest} (hf : Sound f) {l : List Nat} (hl : ∀ k ∈ l, ∃ n ∈ f.nodes, n.key = k ∧ n.isGradient = true) :
    ∃ g, forEach resolveLinearNode l f = some g ∧ Shaded f g := by
  induction l generalizing f with
  | nil => exact ⟨f, rfl, Shaded.refl hf.links⟩
  | cons k t ih =>
    rw [forEach]
    obtain ⟨f', h1, h2⟩ := node_ok hf (hl k (by simp))
    rw [h1, Option.bind_some]
    obtain ⟨g, h3, h4⟩ := ih (hf.shaded h2) fun j hj => by
      obtain ⟨n, hn, e, hg⟩ := hl j (by simp [hj])
      obtain ⟨u, rfl, hu, hh⟩ := h2
      exact ⟨u n, by rw [Forest.nodes_map]; exact List.mem_map_of_mem hn, (hu n).trans e, by rw [grad_kind (hh n hn).kind]; exact hg⟩
    exact ⟨g, h3, h2.trans h4⟩

theorem resolve_ok {f : Forest} (hf : Good f) : ∃ g, resolveLinear f = some g ∧ Shaded f g := by
  have hs : Sound f := ⟨hf.unique, hf.links, hf.href, hf.shown⟩
  obtain ⟨rank, hr⟩ := hf.href
  obtain ⟨o, ho⟩ := orderLoop_rank hf.unique (e := .linearGradient) (rank := rank) (by
    rintro a b ⟨⟨n, hn, rfl, hk, hb⟩, _⟩
    have hg : n.isGradient = true := isGradient_kind.2 (.inl hk)
    obtain ⟨t, _, e, _, hlt⟩ := hr n hn hg _ (hf.only n hn hg b hb)
    have e := Value.link.inj e
    rw [e]; exact hlt) (ordered_nil _ _)
    (fuel := (ofKind f .linearGradient).length) (by simp)
  have ho : genOrder f .linearGradient = some o := ho
  unfold resolveLinear
  rw [ho, Option.bind_some]
  refine each_ok hs fun k hk => ?_
  obtain ⟨n, hn, e, hkd⟩ := ((C27_order ho).2.1 k).1 hk
  exact ⟨n, hn, e, isGradient_kind.2 (.inl hkd)⟩

/-! ### The paints afterwards -/

section shaded
variable {f : Forest} (hf : Good f) {u : Node → Node} (hu : ∀ n, (u n).key = n.key) (hh : ∀ n ∈ f.nodes, Hid f n (u n))
include hf hu hh

theorem shade_eff {a : AId} {x : Node} {v : Option Value} (hx : x ∈ f.nodes) (hg : x.isGradient = true) (he : Effective f a x v) : Effective (f.map u) a (u x) v := by
  induction he with
  | own hw => exact .own (by rw [(hh _ hx).written]; exact hw)
  | @ref x k y v h1 h2 h3 _ ih =>
    obtain ⟨hy, hyg, rfl⟩ := hf.target hx hg h2 h3
    exact .ref (by rw [(hh _ hx).written]; exact h1) (by rw [(hh _ hx).written]; exact h2) (by rw [Forest.find_map hu, h3]; rfl) (ih hy hyg)
  | stop h1 h2 => exact .stop (by rw [(hh _ hx).written]; exact h1) (by rw [(hh _ hx).written]; exact h2)

theorem shade_kids {x : Node} (hx : x ∈ f.nodes) (hg : x.isGradient = true) {c : Forest} (hc : f.kidsOf x.key = some c) : (f.map u).kidsOf (u x).key = some c := by
  rw [hu, GroupDefs.kidsOf_map hu, hc, Option.map_some]
  congr 1
  refine Forest.map_id' fun n hn => ?_
  have hs := hf.kids hx hc
  exact (hh n ((Stops.subs_kids_sub hs).1.mem hn)).other ((hf.flat _ hs hg).2 n hn).1

theorem shade_stops {x : Node} {l : List Node} (hx : x ∈ f.nodes) (hg : x.isGradient = true) (he : GStops f x l) : GStops (f.map u) (u x) l := by
  induction he with
  | own h1 h2 => exact .own (shade_kids hf hu hh hx hg h1) h2
  | @ref x c k y l h1 h2 h3 h4 _ ih =>
    obtain ⟨hy, hyg, rfl⟩ := hf.target hx hg h3 h4
    exact .ref (shade_kids hf hu hh hx hg h1) h2 (by rw [(hh _ hx).written]; exact h3) (by rw [Forest.find_map hu, h4]; rfl) (ih hy hyg)
  | none h1 h2 h3 => exact .none (shade_kids hf hu hh hx hg h1) h2 (by rw [(hh _ hx).written]; exact h3)

theorem shade_paint {x : Node} (hx : x ∈ f.nodes) (hg : x.isGradient = true) : PaintSame f x (f.map u) (u x) := by
  obtain ⟨rank, hr⟩ := hf.href
  refine paint_of_effective (hh x hx).kind.symm (fun a _ => ?_) hg ?_
  · obtain ⟨v, hv⟩ := effective_total hf.unique hr a hx hg
    exact ⟨v, hv, shade_eff hf hu hh hx hg hv⟩
  · obtain ⟨l, hl⟩ := gstops_total hf.unique hr hx hg
    exact ⟨l, l, hl, shade_stops hf hu hh hx hg hl, Merge.stops_refl hf.plain (Merge.gstops_mem hl)⟩

omit hf hu in
theorem shade_drawn : drawn (f.map u) = drawn f := by
  rw [GroupDefs.drawn_map_nodes fun n hn => (hh n hn).kind]
  refine Forest.map_id' fun x hx => (hh x (mem_drawn hx).1).other ?_
  rw [Bool.eq_false_iff]
  intro hg
  have := (mem_drawn hx).2
  rw [never hg] at this
  cases this

end shaded

/-! ### The theorem -/

/-- Two lists of stops that are the same. -/
def SameStops (l l' : List Node) : Prop :=
  List.Forall₂ (fun s t => s.get .offset = t.get .offset ∧ s.get .stopColor = t.get .stopColor ∧ s.get .stopOpacity = t.get .stopOpacity) l l'

/-- What a regrouping keeps. -/
structure Regrouped (f g : Forest) : Prop where
  /-- What is drawn and what is no gradient is as it was. -/
  drawn : drawn g = drawn f
  others : ∀ n, n.isGradient = false → ¬ InGradient f n → (n ∈ g.nodes ↔ n ∈ f.nodes)
  /-- Every gradient gives the same paint. -/
  paint : ∀ n ∈ f.nodes, n.isGradient = true → ∃ m ∈ g.nodes, m.key = n.key ∧ m.id = n.id ∧ PaintSame f n g m
  /-- The other gradients have an id, which nothing else has. -/
  news : ∀ m ∈ g.nodes, m.isGradient = true → (∃ n ∈ f.nodes, n.isGradient = true ∧ n.key = m.key ∧ n.id = m.id) ∨
    (m.id ≠ "" ∧ ∀ x ∈ g.nodes, x.id = m.id → x = m)
  ids : IdsUnique f → IdsUnique g
  /-- No two gradients have the same stops as children. -/
  shared : ∀ x ∈ g.nodes, ∀ y ∈ g.nodes, x.isGradient = true → y.isGradient = true → x.get .xlinkHref = none → y.get .xlinkHref = none →
    ∀ c d, g.kidsOf x.key = some c → g.kidsOf y.key = some d → c ≠ .nil → SameStops c.top d.top → x = y
  unique : g.UniqueKeys
  links : g.LinksOk

theorem regrouped {f h : Forest} (hw : Walk f h []) {u : Node → Node} (hu : ∀ n, (u n).key = n.key) (hh : ∀ n ∈ h.nodes, Hid h n (u n))
    (hs : Sound (h.map u)) : Regrouped f (h.map u) := by
  have hg := hw.core.good
  have mem : ∀ {m}, m ∈ (h.map u).nodes → ∃ n ∈ h.nodes, u n = m := by
    intro m hm; rw [Forest.nodes_map] at hm; exact List.mem_map.1 hm
  have memr : ∀ {n}, n ∈ h.nodes → u n ∈ (h.map u).nodes := by
    intro n hn; rw [Forest.nodes_map]; exact List.mem_map_of_mem hn
  refine ⟨(shade_drawn hh).trans hw.core.drawn, ?_, ?_, ?_, ?_, ?_, hs.unique, hs.links⟩
  · intro n hn hi
    constructor
    · intro hm
      obtain ⟨x, hx, rfl⟩ := mem hm
      rw [grad_kind (hh x hx).kind] at hn
      rw [(hh x hx).other hn]
      exact hw.core.others x hx hn
    · intro hm
      have := (hw.core.stay n hm hn hi).1
      have h2 := memr this
      rwa [(hh n this).other hn] at h2
  · intro n hn hg'
    obtain ⟨m, hm, e1, e2, hmg, hp⟩ := hw.core.paint n hn hg'
    exact ⟨u m, memr hm, (hu m).trans e1, (hh m hm).id.trans e2, hp.trans (shade_paint hg hu hh hm hmg)⟩
  · intro m hm hmg
    obtain ⟨x, hx, rfl⟩ := mem hm
    rw [grad_kind (hh x hx).kind] at hmg
    rw [hu, (hh x hx).id]
    rcases hw.core.news x hx hmg with h' | ⟨h1, h2⟩
    · exact .inl h'
    · refine .inr ⟨h1, fun z hz e => ?_⟩
      obtain ⟨w, hw', rfl⟩ := mem hz
      rw [(hh w hw').id] at e
      rw [Forest.eq_of_key hg.unique hw' hx (h2 w hw' e)]
  · intro h0 a ha b hb hne e
    obtain ⟨x, hx, rfl⟩ := mem ha
    obtain ⟨y, hy, rfl⟩ := mem hb
    rw [(hh x hx).id] at hne e
    rw [(hh y hy).id] at e
    rw [hu, hu]
    exact hw.core.ids h0 x hx y hy hne e
  · intro a ha b hb hag hbg har hbr c d hc hd hne hst
    obtain ⟨x, hx, rfl⟩ := mem ha
    obtain ⟨y, hy, rfl⟩ := mem hb
    rw [grad_kind (hh x hx).kind] at hag
    rw [grad_kind (hh y hy).kind] at hbg
    rw [(hh x hx).get] at har
    rw [(hh y hy).get] at hbr
    obtain ⟨c1, hc1⟩ := kidsOf_isSome (Forest.key_mem hx)
    obtain ⟨d1, hd1⟩ := kidsOf_isSome (Forest.key_mem hy)
    have e1 := shade_kids hg hu hh hx hag hc1
    have e2 := shade_kids hg hu hh hy hbg hd1
    rw [hc] at e1
    rw [hd] at e2
    cases e1
    cases e2
    have htop : c.top ≠ [] := by
      intro h0
      cases c with
      | nil => exact hne rfl
      | cons => simp [Forest.top] at h0
    have hdtop : d.top ≠ [] := by
      intro h0
      rw [h0] at hst
      cases hct : c.top with
      | nil => exact htop hct
      | cons p q => rw [hct] at hst; cases hst
    have hal : alike h x.key y.key = true := by
      refine alike_iff.2 ⟨c, d, hc1, hd1, ?_⟩
      refine List.Forall₂.imp (fun s t hst => ?_) hst
      simp only [Dupl.sameStop, Bool.and_eq_true, decide_eq_true_eq]
      exact ⟨⟨hst.1, hst.2.1⟩, hst.2.2⟩
    rcases hw.pairs x y ⟨hx, hag, har, c, hc1, htop⟩ ⟨hy, hbg, hbr, d, hd1, hdtop⟩ hal with e | ⟨e, _⟩
    · rw [Forest.eq_of_key hg.unique hx hy e]
    · cases e

/-- **C40** for documents with the conditions of `Good`: the pass ends without a crash, all gradients give the same paint, equal
stops are shared, new ids are fresh.  What is missing: see the refutations below. -/
theorem C40_regrouped_partial {f : Forest} (hf : Good f) : ∃ g, regroup f = some g ∧ Regrouped f g := by
  obtain ⟨r, h1, h2, _⟩ := loop_ok (P := fun _ => True) (fun _ _ _ h => h) hf.walk trivial (Nat.le_refl (candidates f).length)
  unfold regroup
  rw [h1, Option.bind_some]
  split
  · obtain ⟨g, h3, h4⟩ := resolve_ok h2.core.good
    have hs : Sound r.1 := ⟨h2.core.good.unique, h2.core.good.links, h2.core.good.href, h2.core.good.shown⟩
    have hs' := hs.shaded h4
    obtain ⟨u, rfl, hu, hh⟩ := h4
    exact ⟨_, h3, regrouped h2 hu hh hs'⟩
  · have hg := h2.core.good
    have e : r.1.map id = r.1 := Forest.map_id' fun _ _ => rfl
    have := regrouped h2 (u := id) (fun _ => rfl) (fun n hn => Hid.refl hg.links hn) (by
      rw [e]; exact ⟨hg.unique, hg.links, hg.href, hg.shown⟩)
    rw [e] at this
    exact ⟨_, rfl, this⟩

end Verif.Regroup
