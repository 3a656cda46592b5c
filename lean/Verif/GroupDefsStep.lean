import Verif.GroupDefsGive
/-
C35: the step of the pass that copies attributes.
-/
namespace Verif.GroupDefs
open Verif.Dom Verif.Spec Verif.Render
open Verif.ResolveUse (subtree)

/-- The attributes that are given to the children of an element, from itself and its ancestors. -/
abbrev gifts (l : List Node) : List Attr := l.flatMap fun p => p.attrs.filter inheritable

theorem gifts_clean {l : List Node} (h : ∀ a ∈ l, Clean a) : gifts l = [] := by
  unfold gifts
  rw [List.flatMap_eq_nil_iff]
  intro p hp
  rw [List.filter_eq_nil_iff]
  intro x hx
  rw [h p hp x hx]
  simp

theorem spots_map {e : Node → Node} (he : ∀ n, (e n).kind = n.kind) (p : Kind) (f : Forest) :
    spots p (f.map e) = (spots p f).map fun z => (z.1, e z.2.1, z.2.2.map e) := by
  induction f generalizing p with
  | nil => rfl
  | cons n k r ihk ihr =>
    rw [Forest.map_cons]
    simp only [spots, List.map_cons, List.map_append]
    rw [he, ihk, ihr]

/-- How the place and the node change. -/
inductive Got (k : Nat) (c' : Forest) (n : Node) (anc : List Node) (c : Forest) : List Node × Node × Forest → List Node × Node × Forest → Prop
  | self : Got k c' n anc c (anc, n, c) (anc, n, c')
  | kid (m m' : Node) (ks : Forest) : m ∈ c.top → giveAll (gifts (n :: anc)) m = some m' → Got k c' n anc c (n :: anc, m, ks) (n :: anc, m', ks)
  | deep (inner : List Node) (m m' : Node) (y : Node × Forest) : giveAll (gifts (n :: anc)) m = some m' →
      Got k c' n anc c (inner ++ m :: n :: anc, y) (inner ++ m' :: n :: anc, y)
  | out (a : List Node) (m : Node) (ks : Forest) : Got k c' n anc c (a, m, ks) (a, m, ks.setKids k c')

theorem got {f : Forest} (hu : f.UniqueKeys) {k : Nat} {anc : List Node} {n : Node} {c c' : Forest} (hk : locate k [] f = some (anc, n, c))
    (hc : giveKids (gifts (n :: anc)) c = some c') {x : Nat} {z : List Node × Node × Forest} (hz : locate x [] f = some z) :
    ∃ z', locate x [] (f.setKids k c') = some z' ∧ Got k c' n anc c z z' := by
  have hnk : n.key = k := (locate_mem hk).1
  by_cases hxk : x = k
  · subst hxk
    rw [hk] at hz
    cases hz
    exact ⟨_, locate_setKids_self hu hk, .self⟩
  by_cases hxc : x ∈ c.keys
  · have h1 : locate x [] f = locate x (n :: anc) c := by
      rw [locate_inside hu hk (x := x) (by simp [hxc])]
      simp only [locate]
      rw [if_neg (fun e : n.key = x => hxk (e.symm.trans hnk)), Option.or_none]
    rw [hz] at h1
    have h2 : locate x [] (f.setKids k c') = locate x (n :: anc) c' :=
      locate_setKids_in hu hk hxk (by rw [giveKids_keys hc]; exact hxc) (fun _ => hxc)
    rw [h2]
    rcases giveKids_locate hc h1.symm with ⟨m', hm, e1, e2, e3⟩ | ⟨inner, m, m', hm, e1, e2⟩
    · refine ⟨_, e3, ?_⟩
      obtain ⟨a, m, ks⟩ := z
      dsimp only at e1
      subst e1
      exact .kid m m' ks e2 hm
    · refine ⟨_, e2, ?_⟩
      obtain ⟨a, y⟩ := z
      dsimp only at e1
      subst e1
      exact .deep inner m m' y hm
  · have hK : f.kidsOf k = some c := by rw [kidsOf_locate k [] f, hk]; rfl
    refine ⟨(z.1, z.2.1, z.2.2.setKids k c'), ?_, .out _ _ _⟩
    rw [locate_setKids_out hu hK hxk (by rw [giveKids_keys hc]; exact hxc) hxc, hz]
    rfl

section
variable {k : Nat} {c' : Forest} {n : Node} {anc : List Node} {c : Forest} {z z' : List Node × Node × Forest} (G : Got k c' n anc c z z')
include G

theorem Got.style : styleOf z'.1 = styleOf z.1 := by
  cases G with
  | self => rfl
  | kid => rfl
  | out => rfl
  | deep inner m m' y hm =>
    refine styleOf_append ?_ inner
    simp only [styleOf]
    exact given_into (fits_chain (n :: anc)) hm

theorem Got.kind : z'.2.1.kind = z.2.1.kind := by
  cases G with
  | self => rfl
  | kid m m' ks _ h => exact (giveAll_get h).2.1
  | out => rfl
  | deep => rfl

theorem Got.scene (h : isScene z'.2.1 = true ∨ ∃ p t, z'.1 = p :: t ∧ isScene p = true) :
    isScene z.2.1 = true ∨ ∃ p t, z.1 = p :: t ∧ isScene p = true := by
  have hsc : ∀ {a b : Node}, a.kind = b.kind → isScene a = true → isScene b = true := by
    intro a b e h
    unfold isScene at h ⊢
    rw [← e]
    exact h
  rcases h with h | ⟨p, t, e, h⟩
  · exact .inl (hsc G.kind h)
  · right
    cases G with
    | self => exact ⟨p, t, e, h⟩
    | kid => exact ⟨p, t, e, h⟩
    | out => exact ⟨p, t, e, h⟩
    | deep inner m m' y hm =>
      cases inner with
      | nil => cases e; exact ⟨m, _, rfl, hsc (giveAll_get hm).2.1 h⟩
      | cons b i => cases e; exact ⟨_, _, rfl, h⟩

theorem Got.clean (h : ∀ a ∈ z.1, Clean a) : z'.1 = z.1 := by
  cases G with
  | self => rfl
  | kid => rfl
  | out => rfl
  | deep inner m m' y hm =>
    rw [gifts_clean fun a ha => h a (by simp only [List.mem_append, List.mem_cons] at ha ⊢; tauto)] at hm
    cases hm
    rfl
end

theorem Inv.resolve {u y Q : Nat → Prop} {d : Nat} {s dn : Node} {f : Forest} (I : Inv u y Q d s dn f) {k : Nat}
    (hkd : k ≠ d) (hks : k ≠ s.key) {g : Forest} (h : resolveAttrs k f = some g) : Inv u y Q d s dn g ∧ Moved u y f g := by
  obtain ⟨D, r, P⟩ := I.placed
  have hu := P.unique
  obtain ⟨e, hge, hgr, -⟩ := resolveAttrs_grown hu h
  have triv : g = f → Inv u y Q d s dn g ∧ Moved u y f g := fun e => by rw [e]; exact ⟨I, .refl _ _ _⟩
  unfold resolveAttrs at h
  split at h
  swap
  · cases h; exact triv rfl
  next n anc c h1 h2 =>
  split at h
  swap
  · cases h; exact triv rfl
  next hcar =>
  obtain ⟨c', hc, hg⟩ := Option.map_eq_some_iff.1 h
  clear triv h
  have hk : locate k [] f = some (anc, n, c) := by
    rw [chain_locate k [] f] at h1
    rw [kidsOf_locate k [] f] at h2
    obtain ⟨z, hz, e1⟩ := Option.map_eq_some_iff.1 h1
    rw [hz] at h2
    obtain ⟨a, m, ks⟩ := z
    cases e1
    cases h2
    exact hz
  have hscn : isScene n = true := by rw [isScene_eq]; exact hcar
  have hnever : neverRendered n.kind = true := by
    unfold isScene at hscn
    split at hscn <;> first | (cases hscn; done) | (rename_i e; rw [e]; rfl)
  have hnk : n.key = k := (locate_mem hk).1
  have hnf : (n, c) ∈ subs f := (locate_mem hk).2
  have hgot : ∀ {x z}, locate x [] f = some z → ∃ z', locate x [] g = some z' ∧ Got k c' n anc c z z' := by
    intro x z hz
    rw [← hg]
    exact got hu hk hc hz
  have hkeys : g.keys = f.keys := by rw [hge]; exact Forest.keys_map (fun n => (hgr n).key) f
  have hback : ∀ {x z'}, locate x [] g = some z' → ∃ z, locate x [] f = some z ∧ Got k c' n anc c z z' := by
    intro x z' hz'
    obtain ⟨z, hz⟩ := locate_some (hkeys ▸ locate_key hz') []
    obtain ⟨z2, h2, G⟩ := hgot hz
    rw [hz'] at h2
    cases h2
    exact ⟨z, hz, G⟩
  have hspots : ∀ z ∈ spots top g, ∃ z0 ∈ spots top f, z.1 = z0.1 ∧ z.2.1.kind = z0.2.1.kind ∧ z.2.1.key = z0.2.1.key := by
    intro z hz
    rw [hge, spots_map (fun n => (hgr n).kind)] at hz
    obtain ⟨z0, h0, rfl⟩ := List.mem_map.1 hz
    exact ⟨z0, h0, rfl, (hgr _).kind, (hgr _).key⟩
  have hkid : ∀ m ∈ c.top, ∀ t, m.kind ≠ .other t := by
    intro m hm t
    obtain ⟨km, hkm⟩ : ∃ km, (n.kind, m, km) ∈ spots n.kind c := by
      clear * - hm
      induction c with
      | nil => cases hm
      | cons a b r _ ih =>
        simp only [Forest.top, List.mem_cons] at hm
        rcases hm with rfl | hm
        · exact ⟨b, by simp [spots]⟩
        · obtain ⟨km, h⟩ := ih hm
          exact ⟨km, by simp [spots, h]⟩
    exact I.own _ (spots_of_subs hnf _ hkm) n rfl hscn t
  have hfit := fits_chain (n :: anc)
  refine ⟨⟨⟨D.setKids k c', r.setKids k c', ?_, ?_, P.key, P.kind⟩, fun m hm hd => ?_, fun z hz hd => ?_, fun x hx z' hz' => ?_,
    fun z hz m hm hs t => ?_, fun x hx z' hz' hs => ?_, fun z hz hd => ?_, fun m hm j hj => ?_, fun m hm hku j hj => ?_⟩, ⟨fun {T} π env => ?_, fun x a m ks _ hz => ?_⟩⟩
  · unfold Forest.UniqueKeys; rw [hkeys]; exact hu
  · rw [← hg, svgElement_setKids P.root hks.symm]
    dsimp only
    rw [Forest.setKids, if_neg (by rw [P.key]; exact hkd.symm)]
  · rw [hge, Forest.nodes_map] at hm
    obtain ⟨m0, h0, rfl⟩ := List.mem_map.1 hm
    rw [(hgr m0).kind] at hd
    rw [(hgr m0).key]
    exact I.used m0 h0 hd
  · obtain ⟨z0, h0, e1, e2, e3⟩ := hspots z hz
    rw [e1, e2]
    refine I.spot z0 h0 ?_
    unfold isDefinition at hd ⊢
    rwa [← e2]
  · obtain ⟨z, hz, G⟩ := hback hz'
    rw [G.style]
    exact I.style x hx z hz
  · obtain ⟨z0, h0, e1, e2, e3⟩ := hspots z hz
    rw [e2]
    exact I.own z0 h0 m (hm.trans e1) hs t
  · obtain ⟨z, hz, G⟩ := hback hz'
    have := I.clean x hx z hz (G.scene hs)
    rw [G.clean this.1]
    exact this
  · obtain ⟨z0, h0, e1, e2, e3⟩ := hspots z hz
    rw [e3]
    exact I.kids z0 h0 (e1 ▸ hd)
  · rw [hge, Forest.nodes_map] at hm
    obtain ⟨m0, h0, rfl⟩ := List.mem_map.1 hm
    obtain ⟨x, hx, hxj⟩ := List.mem_filterMap.1 hj
    rcases (hgr m0).mem hx with a | a
    · exact I.links m0 h0 j (List.mem_filterMap.2 ⟨x, a, hxj⟩)
    · obtain ⟨q, hq, hx⟩ := mem_allAttrs.1 a
      exact I.links q hq j (List.mem_filterMap.2 ⟨x, hx, hxj⟩)
  · rw [hge, Forest.nodes_map] at hm
    obtain ⟨m0, h0, rfl⟩ := List.mem_map.1 hm
    rw [(hgr m0).kind] at hku
    refine I.uses m0 h0 hku j ?_
    rw [← hj]
    obtain ⟨more, hmo, hmi⟩ := (hgr m0).attrs
    unfold Node.get
    rw [hmo, getAttr_append]
    cases hga : getAttr more (.id .xlinkHref) with
    | none => simp
    | some x =>
      obtain ⟨hx, hn⟩ := getAttr_mem hga
      obtain ⟨-, ⟨a, ha, hi⟩, -⟩ := hmi x hx
      rw [hn] at ha
      cases ha
      cases hi
  · rw [← hg, UnusedDefs.pics_setKids]
    intro m hm he
    have : m = n := Forest.eq_of_key hu hm (UnusedDefs.node_of_subs hnf) (he.trans hnk.symm)
    rw [this]; exact hnever
  · obtain ⟨z', hz', G⟩ := hgot hz
    refine ⟨z'.1, z'.2.1, z'.2.2, hz', G.kind, G.style, ?_, fun hy => ?_⟩
    · generalize hzz : (a, m, ks) = z at G
      cases G with
      | self =>
        cases hzz
        intro T π env
        rw [giveKids_pics hfit hc hkid rfl]
      | kid m m' ks' hm hgi =>
        cases hzz
        intro T π env
        dsimp only
        rw [given_enter hfit hgi (c := ⟨styleOf (n :: anc), one⟩) rfl, given_body hfit hgi (hkid _ hm) (c := ⟨styleOf (n :: anc), one⟩) rfl]
      | deep => cases hzz; exact fun _ _ _ => rfl
      | out a m ks' =>
        cases hzz
        refine (sameInst_setKids (fun q hq he => ?_) _).here _
        have : q = n := Forest.eq_of_key hu ((Stops.subs_kids_sub (locate_mem hz).2).1.mem hq) (UnusedDefs.node_of_subs hnf) (he.trans hnk.symm)
        rw [this]; exact hnever
    · have hcl := I.clean x hy _ hz
      generalize hzz : (a, m, ks) = z at G
      cases G with
      | self =>
        cases hzz
        have hanc := (hcl (.inl hscn)).1
        have hgi : gifts (n :: anc) = n.attrs.filter inheritable ++ [] := by
          show (n :: anc).flatMap _ = _
          rw [List.flatMap_cons]
          congr 1
          exact gifts_clean hanc
        replace hc : giveKids (gifts (n :: anc)) c = some c' := hc
        rw [hgi] at hc
        intro T π env via x
        dsimp only
        rw [giveKids_pics (fits_cons (fits_nil x.style) n) hc hkid (x := x.enter n) rfl]
      | kid m m' ks' hm hgi =>
        cases hzz
        have hanc := (hcl (.inr ⟨n, anc, rfl, hscn⟩)).1
        rw [gifts_clean hanc] at hgi
        cases hgi
        exact fun _ _ _ _ _ => rfl
      | deep => cases hzz; exact fun _ _ _ _ _ => rfl
      | out a m ks' =>
        cases hzz
        refine sameInst_setKids (fun q hq he => ?_) _
        have : q = n := Forest.eq_of_key hu ((Stops.subs_kids_sub (locate_mem hz).2).1.mem hq) (UnusedDefs.node_of_subs hnf) (he.trans hnk.symm)
        rw [this]; exact hnever

end Verif.GroupDefs
