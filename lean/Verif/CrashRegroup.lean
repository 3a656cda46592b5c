import Verif.CrashMerge
import Verif.RegroupResolve
/-
C53: regrouping the stops of gradients.
-/
namespace Verif.Crash
open Verif.Dom Verif.Spec
open Verif.Dom (Res)
open Verif.Pipeline
open Verif.Regroup
open Verif.UnusedDefs (kidsOf_subs subs_kidsOf setKids_self)

section
variable {C : Ctx}

/-- Other numbers for what is not in the document. -/
theorem Inv.rekey {C' : Ctx} {f : Forest} (h : Inv C f) (hs : C'.s = C.s) (hd : C'.d = C.d) (hk : ∀ k ∈ f.keys, C'.kind k = C.kind k)
    (hr : ∀ k ∈ f.keys, C'.rank k = C.rank k) (hb : ∀ k ∈ f.keys, C.bare k → C'.bare k) (he : C'.early → C.early) (hq : C'.uniq → C.uniq) (hw : C.raw → C'.raw) (hc : C.cap ≤ C'.cap) : Inv C' f where
  unique := h.unique
  links := h.links
  root := by unfold Anchored; rw [hs, hd]; exact h.root
  count := Nat.lt_of_lt_of_le h.count hc
  ids hu := h.ids (hq hu)
  nodes n hn := by
    have hnk := Forest.key_mem hn
    have := h.nodes n hn
    refine ⟨by rw [hk _ hnk]; exact this.kind, fun e hb' => this.full e fun x => hb' (hb _ hnk x), this.named, this.single, fun x hx => ?_⟩
    have ha := this.attrs x hx
    have hl : ∀ k, x.value.target = some k → k ∈ f.keys := fun k e => h.links n hn k (Node.mem_links.2 ⟨x, hx, e⟩)
    refine ⟨⟨ha.grad.ts, ha.grad.color, ha.grad.opacity, ha.grad.href, fun hg k e => ?_, ha.grad.shown, ha.grad.stop⟩, ha.transform, ha.opacity, fun e => ⟨(ha.points e).1, (ha.points e).2.1, fun e1 e2 => (ha.points e).2.2 e1 fun e3 => e2 (hw e3)⟩, ha.d, ?_, fun k e => ?_⟩
    · rw [hk k (hl k e), hr k (hl k e), hr _ hnk]; exact ha.grad.link hg k e
    · rw [hs, hd]; exact ha.shown
    · rw [hk k (hl k e), hr k (hl k e), hr _ hnk, hs, hd]; exact ha.link k e
  trees x hx := by
    have ht := h.trees x hx
    have hxk := Forest.key_mem (subs_nodes hx)
    refine ⟨ht.group, ht.leaf, ht.stops, fun e => ht.early (he e), fun e1 e2 j hj => ?_⟩
    have hjk : j ∈ f.keys := by
      obtain ⟨m, hm, rfl⟩ := Forest.mem_keys.1 hj
      exact Forest.key_mem ((Stops.subs_kids_sub hx).1.mem hm)
    rw [hs] at e1
    rw [hd] at e2
    rw [hk j hjk, hr j hjk, hr _ hxk, hs, hd]
    exact ht.below e1 e2 j hj

theorem mem_set_attrs {n : Node} {a : AId} {v : Value} {x : Attr} (h : x ∈ (n.set a v).attrs) : (x.name = .id a ∧ x.value = v) ∨ (x ∈ n.attrs ∧ x.name ≠ .id a) := by
  unfold Node.set putAttr at h
  dsimp only at h
  split at h
  · obtain ⟨y, hy, e⟩ := List.mem_map.1 h
    split at e
    · rw [← e]; exact .inl ⟨rfl, rfl⟩
    next hne => rw [← e]; exact .inr ⟨hy, hne⟩
  next hc =>
    rcases List.mem_append.1 h with h | h
    · refine .inr ⟨h, fun e => hc ?_⟩
      rw [List.any_eq_true]
      exact ⟨x, h, by simpa using e⟩
    · rw [List.mem_singleton.1 h]; exact .inl ⟨rfl, rfl⟩

theorem hrefs_set {n : Node} {v : Value} (h : hrefs n ≤ 1) : hrefs (n.set .xlinkHref v) ≤ 1 := by
  unfold hrefs Node.set putAttr at *
  dsimp only
  split
  · rw [List.filter_map, List.length_map]
    refine Nat.le_trans (Nat.le_of_eq (congrArg _ (List.filter_congr fun y _ => ?_))) h
    simp only [Function.comp]
    split
    next e => rw [e]
    · rfl
  next hn =>
    have : n.attrs.filter (fun x => decide (x.name = .id .xlinkHref)) = [] := by
      rw [List.filter_eq_nil_iff]
      intro y hy
      by_contra hc
      exact hn (List.any_eq_true.2 ⟨y, hy, hc⟩)
    rw [List.filter_append, this]
    exact List.length_filter_le _ _

/-- A gradient that refers to another one. -/
theorem NodeOk.pointed {n : Node} (h : NodeOk C n) (hg : gradKind n.kind = true) (h1 : n.key ≠ C.s ∧ n.key ≠ C.d) {key : Nat} (hs : key ≠ C.s)
    (hk : gradKind (C.kind key) = true) (hr : C.rank key < C.rank n.key) : NodeOk C (n.set .xlinkHref (.link key)) ∧ ∀ k ∈ (n.set .xlinkHref (.link key)).links, k = key := by
  have hl : ∀ k ∈ (n.set .xlinkHref (.link key)).links, k = key := by
    intro k hk
    obtain ⟨x, hx, e⟩ := Node.mem_links.1 hk
    rcases mem_set_attrs hx with ⟨_, e'⟩ | ⟨hx, hne⟩
    · rw [e'] at e; exact (Option.some.inj e).symm
    · exact absurd ((h.attrs x hx).grad.link hg k e).1 hne
  refine ⟨⟨h.kind, fun e hb a ha => ?_, h.named, fun _ => hrefs_set (h.single hg), fun x hx => ?_⟩, hl⟩
  · rw [Node.has_set]
    have := h.full e hb a ha
    simp [this]
  · rcases mem_set_attrs hx with ⟨e1, e2⟩ | ⟨hx, _⟩
    · rw [e1, e2]
      refine ⟨⟨fun e => ?_, fun e => ?_, fun e => ?_, fun _ _ => ⟨key, rfl⟩, fun _ k e => ?_, fun _ e => ?_, fun e => ?_⟩, fun e => ?_, fun e => ?_, fun e => ?_, fun e => ?_,
        fun e => ?_, fun k e => ?_⟩
      · cases e
      · cases e
      · cases e
      · cases e; exact ⟨rfl, hk, hr⟩
      · cases e
      · rw [show n.kind = .elem .stop from e] at hg; cases hg
      · cases e
      · cases e
      · cases e
      · cases e
      · cases e
      · cases e
        refine ⟨h1.1, h1.2, ?_, hs, ⟨_, rfl⟩, fun e => absurd rfl e, fun _ => ⟨?_, fun e => ?_⟩⟩
        · intro e; rw [show n.kind = .elem .filter from e] at hg; cases hg
        · intro e; rw [show n.kind = .elem .g from e] at hg; cases hg
        · rw [show n.kind = .elem .use from e] at hg; cases hg
    · exact (Kin.refl n.kind).attr (n := n) (m := n.set .xlinkHref (.link key)) rfl (h.attrs x hx)

theorem Inv.notRoot {f : Forest} (h : Inv C f) {key : Nat} (hk : gradKind (C.kind key) = true) : key ≠ C.s := by
  rintro rfl
  obtain ⟨n, hn, e⟩ := h.memS
  rw [← e, ← (h.nodes n hn).kind.grad, h.kindS hn e] at hk
  cases hk

theorem Inv.pointAt {f : Forest} (h : Inv C f) (he : ¬ C.early) {j key : Nat} (hj : gradKind (C.kind j) = true) (hkey : key ∈ f.keys) (hk : gradKind (C.kind key) = true)
    (hr : C.rank key < C.rank j) : Inv C (f.modify j fun n => n.set .xlinkHref (.link key)) := by
  have hs := h.notRoot hk
  refine h.mapOk (fun n => ?_) (fun n => ?_) (fun n => ?_) (fun n a ha => ?_) (fun n hn => ?_) (fun n hn k hk' => ?_)
  · split <;> rfl
  · split <;> rfl
  · split <;> rfl
  · split
    · rw [Node.has_set]
      by_cases e : a = .xlinkHref
      · exact absurd (ha e) he
      · simp [e]
    · rfl
  · split
    next e =>
      have hg : gradKind n.kind = true := by rw [(h.nodes n hn).kind.grad, e]; exact hj
      exact ((h.nodes n hn).pointed hg (h.gradNot hn hg) hs hk (by rw [e]; exact hr)).1
    · exact h.nodes n hn
  · split at hk'
    next e =>
      have hg : gradKind n.kind = true := by rw [(h.nodes n hn).kind.grad, e]; exact hj
      rw [((h.nodes n hn).pointed hg (h.gradNot hn hg) hs hk (by rw [e]; exact hr)).2 k hk']
      exact hkey
    · exact h.links n hn k hk'

/-- What is in a document after a node has been inserted. -/
theorem subs_insertBefore {f : Forest} {k : Nat} {new : Node} {c : Forest} {y : Node × Forest} (h : y ∈ subs (f.insertBefore k new c)) :
    y = (new, c) ∨ y ∈ subs c ∨ ∃ x ∈ subs f, y.1 = x.1 ∧ (y.2 = x.2 ∨ (k ∈ x.2.keys ∧ y.2 = x.2.insertBefore k new c)) := by
  induction f with
  | nil => simp [Forest.insertBefore, subs] at h
  | cons n a r ih1 ih2 =>
    rw [Forest.insertBefore] at h
    split at h
    next e =>
      simp only [subs, List.mem_cons, List.mem_append] at h
      rcases h with h | h | h | h | h
      · exact .inl h
      · exact .inr (.inl h)
      · exact .inr (.inr ⟨(n, a), by simp [subs], by rw [h], .inl (by rw [h])⟩)
      · exact .inr (.inr ⟨y, by simp [subs, h], rfl, .inl rfl⟩)
      · exact .inr (.inr ⟨y, by simp [subs, h], rfl, .inl rfl⟩)
    next e =>
      simp only [subs, List.mem_cons, List.mem_append] at h
      rcases h with h | h | h
      · refine .inr (.inr ⟨(n, a), by simp [subs], by rw [h], ?_⟩)
        by_cases hk : k ∈ a.keys
        · exact .inr ⟨hk, by rw [h]⟩
        · left
          rw [h]
          exact insertBefore_not_mem hk new c
      · rcases ih1 h with h | h | ⟨x, hx, h⟩
        · exact .inl h
        · exact .inr (.inl h)
        · exact .inr (.inr ⟨x, by simp [subs, hx], h⟩)
      · rcases ih2 h with h | h | ⟨x, hx, h⟩
        · exact .inl h
        · exact .inr (.inl h)
        · exact .inr (.inr ⟨x, by simp [subs, hx], h⟩)

theorem top_insertBefore {f : Forest} {k : Nat} {new : Node} {c : Forest} {n : Node} (h : n ∈ f.top) : n ∈ (f.insertBefore k new c).top := by
  induction f with
  | nil => cases h
  | cons m a r _ ih =>
    rw [Forest.insertBefore]
    simp only [Forest.top, List.mem_cons] at h
    split
    · simp only [Forest.top, List.mem_cons]; exact .inr h
    · simp only [Forest.top, List.mem_cons]
      rcases h with h | h
      · exact .inl h
      · exact .inr (ih h)

theorem anchored_insertBefore {f : Forest} {k : Nat} {new : Node} {c : Forest} (h : Anchored C f) (hk : k ≠ C.s) (hn : new.isTag .svg = false) :
    Anchored C (f.insertBefore k new c) := by
  obtain ⟨S, ks, D, h1, h2, h3, h4, h5⟩ := h
  have : svgElement (f.insertBefore k new c) = some (S, ks) ∨ svgElement (f.insertBefore k new c) = some (S, ks.insertBefore k new c) := by
    clear h3
    induction f with
    | nil => cases h1
    | cons n a r _ ih =>
      rw [svgElement] at h1
      rw [Forest.insertBefore]
      split at h1
      next e =>
        cases h1
        rw [if_neg (by rw [h2]; exact hk.symm), svgElement, if_pos e]
        exact .inr rfl
      next e =>
        split
        · left
          rw [svgElement, if_neg (by rw [hn]; simp), svgElement, if_neg e]
          exact h1
        · rw [svgElement, if_neg e]
          exact ih h1
  rcases this with this | this
  · exact ⟨S, ks, D, this, h2, h3, h4, h5⟩
  · exact ⟨S, _, D, this, h2, top_insertBefore h3, h4, h5⟩

/-- The nodes after a new gradient has taken the children of another one. -/
theorem split_nodes {f : Forest} (hu : f.UniqueKeys) {n : Node} (hn : n ∈ f.nodes) {c : Forest} (hc : f.kidsOf n.key = some c) (hnc : n.key ∉ c.keys) {key : Nat} (id : String) :
    Regroup.split n.key key id f = ((f.setKids n.key .nil).map (point n key)).insertBefore n.key (newNode key id) c ∧
    (Regroup.split n.key key id f).nodes.Perm (newNode key id :: f.nodes.map (point n key)) := by
  have hnk := Forest.key_mem hn
  obtain ⟨A, hA⟩ := UnusedDefs.nodes_setKids hu hnk
  have pf : f.nodes.Perm (A ++ c.nodes) := by
    have := hA c
    rwa [setKids_self hu hc] at this
  have p1 : (f.setKids n.key .nil).nodes.Perm A := by simpa using hA .nil
  have hmap : c.nodes.map (point n key) = c.nodes := by
    conv => rhs; rw [← List.map_id c.nodes]
    exact List.map_congr_left fun d hd => point_ne fun e => hnc (e ▸ Forest.key_mem hd)
  have e : Regroup.split n.key key id f = ((f.setKids n.key .nil).map (point n key)).insertBefore n.key (newNode key id) c := by
    unfold Regroup.split; rw [hc]; rfl
  have hu1 : (f.setKids n.key .nil).UniqueKeys := by
    have h1 : (f.setKids n.key .nil).keys.Perm (A.map Node.key) := p1.map Node.key
    have h2 : f.keys.Perm ((A ++ c.nodes).map Node.key) := pf.map Node.key
    have h3 : ((A ++ c.nodes).map Node.key).Nodup := h2.nodup_iff.1 hu
    rw [List.map_append] at h3
    exact h1.nodup_iff.2 (List.nodup_append.1 h3).1
  have hu2 : ((f.setKids n.key .nil).map (point n key)).UniqueKeys := (Forest.uniqueKeys_map (point_key n key)).2 hu1
  have hnA : n ∈ A := by
    rcases List.mem_append.1 (pf.mem_iff.1 hn) with h | h
    · exact h
    · exact absurd (Forest.key_mem h) hnc
  have hin : n.key ∈ ((f.setKids n.key .nil).map (point n key)).keys := by
    rw [Forest.keys_map (point_key n key)]
    exact Forest.key_mem (p1.mem_iff.2 hnA)
  refine ⟨e, ?_⟩
  rw [e]
  refine (nodes_insertBefore hu2 hin _ c).trans (List.Perm.cons _ ?_)
  rw [Forest.nodes_map]
  refine ((p1.map _).append_left _).trans ?_
  rw [← hmap, ← List.map_append]
  exact ((List.perm_append_comm).trans pf.symm).map _

theorem TreeOk.sub {n m : Node} {k c : Forest} (h : TreeOk C n k) (he : ¬ C.early) (h1 : m.key = n.key) (h2 : m.kind = n.kind) (hk : ∀ j ∈ c.keys, j ∈ k.keys)
    (ht : ∀ x ∈ c.top, ∃ y ∈ k.top, x.kind = y.kind ∧ ∀ a, a ≠ .xlinkHref → x.has a = y.has a) : TreeOk C m c where
  group e x hx := by
    obtain ⟨y, hy, e', _⟩ := ht x hx
    rw [e']; exact h.group (h2 ▸ e) y hy
  leaf e := by
    rw [List.eq_nil_iff_forall_not_mem]
    intro j hj
    have := hk j hj
    rw [h.leaf (h2 ▸ e)] at this
    cases this
  stops e x hx := by
    obtain ⟨y, hy, e', ha⟩ := ht x hx
    rw [e']
    obtain ⟨p1, p2⟩ := h.stops (h2 ▸ e) y hy
    refine ⟨p1, fun a h' => ?_⟩
    rw [ha a fun e => href_not_wanted _ (e ▸ h')]
    exact p2 a h'
  early e := absurd e he
  below e1 e2 j hj := by
    rw [h1] at e1 e2 ⊢
    rw [h2]
    exact h.below e1 e2 j (hk j hj)

theorem point_has (n : Node) (k : Nat) (x : Node) {a : AId} (h : a ≠ .xlinkHref) : (point n k x).has a = x.has a := by
  unfold point
  split
  · rw [Node.has_set]; simp [h]
  · rfl

/-- A new gradient takes the children of another one. -/
theorem Inv.split {f : Forest} (h : Inv C f) (he : ¬ C.early) (hq : ¬ C.uniq) {n : Node} (hn : n ∈ f.nodes) (hg : gradKind n.kind = true) {key : Nat} (hk : key ∉ f.keys)
    (hkk : C.kind key = .elem .linearGradient) (hkb : C.bare key) (hr : C.rank key < C.rank n.key) {id : String} (hid : id ≠ "") (hcap : f.nodes.length + 1 < C.cap) :
    Inv C (Regroup.split n.key key id f) ∧ (Regroup.split n.key key id f).nodes.length = f.nodes.length + 1 ∧ key ∈ (Regroup.split n.key key id f).keys := by
  obtain ⟨c, sc⟩ := nodes_subs hn
  have hc := kidsOf_subs h.unique sc
  have hgi : n.isGradient = true := by rw [← gradKind_eq]; exact hg
  have hnc := h.inside hn hgi hc hn hgi
  obtain ⟨e, hp⟩ := split_nodes h.unique hn hc hnc (key := key) id
  have hkg : gradKind (C.kind key) = true := by rw [hkk]; rfl
  have hks := h.notRoot hkg
  have hnn := h.gradNot hn hg
  have hkd : key ≠ C.d := fun e => by
    obtain ⟨m, hm, e'⟩ := h.memD
    exact hk (by rw [e, ← e']; exact Forest.key_mem hm)
  have tn := h.trees _ sc
  have hkeys : (Regroup.split n.key key id f).keys.Perm (key :: f.keys) := by
    have := hp.map Node.key
    rwa [List.map_cons, List.map_map, show Node.key ∘ point n key = Node.key from funext fun x => point_key n key x] at this
  refine ⟨⟨hkeys.nodup_iff.2 (List.nodup_cons.2 ⟨hk, h.unique⟩), ?_, fun y hy => ?_, fun y hy => ?_, ?_, ?_, fun hu => absurd hu hq⟩, ?_, ?_⟩
  · intro y hy k hky
    refine hkeys.mem_iff.2 ?_
    rcases List.mem_cons.1 (hp.mem_iff.1 hy) with rfl | hy
    · simp [newNode, Node.links] at hky
    · obtain ⟨x, hx, rfl⟩ := List.mem_map.1 hy
      rcases point_links _ _ _ _ hky with e | hl
      · rw [e.1]; simp
      · exact List.mem_cons_of_mem _ (h.links x hx k hl)
  · rcases List.mem_cons.1 (hp.mem_iff.1 hy) with rfl | hy
    · refine ⟨by show Kin (C.kind key) _; rw [hkk]; exact Kin.refl _, fun _ hb => absurd hkb hb, fun _ => hid, fun _ => Nat.zero_le _, fun x hx => by cases hx⟩
    · obtain ⟨x, hx, rfl⟩ := List.mem_map.1 hy
      by_cases ex : x.key = n.key
      · have := Forest.eq_of_key h.unique hx hn ex
        subst this
        rw [point_self]
        exact ((h.nodes x hx).pointed hg hnn hks hkg hr).1
      · rw [point_ne ex]; exact h.nodes x hx
  · rw [e] at hy
    rcases subs_insertBefore hy with rfl | hy | ⟨x, hx, e1, e2⟩
    · refine ⟨fun e => ?_, fun e => ?_, fun _ => tn.stops hg, fun e => absurd e he, fun _ _ j hj => ?_⟩
      · cases e
      · cases e
      · obtain ⟨p1, p2, p3, _⟩ := tn.below hnn.1 hnn.2 j hj
        exact ⟨p1, p2, p3, fun e => by cases e⟩
    · exact h.trees y (UnusedDefs.subs_trans sc hy)
    · have hmid : (∃ z ∈ subs f, x.1 = point n key z.1 ∧ (∀ j ∈ x.2.keys, j ∈ z.2.keys) ∧ ∀ q ∈ x.2.top, ∃ r ∈ z.2.top, q = point n key r) := by
        rw [Stops.subs_map] at hx
        obtain ⟨w, hw, rfl⟩ := List.mem_map.1 hx
        rcases subs_setKids hw with hw | ⟨z, hz, e3, e4⟩
        · simp [subs] at hw
        · refine ⟨z, hz, by rw [e3], ?_, ?_⟩
          · intro j hj
            dsimp only at hj
            rw [Forest.keys_map (point_key n key), e4] at hj
            split at hj
            · simp at hj
            · rcases keys_setKids_or hj with hj | ⟨hj, _⟩
              · exact hj
              · simp at hj
          · intro q hq
            dsimp only at hq
            rw [Stops.top_map, e4] at hq
            obtain ⟨r, hr, rfl⟩ := List.mem_map.1 hq
            split at hr
            · cases hr
            · rw [top_setKids] at hr; exact ⟨r, hr, rfl⟩
      obtain ⟨z, hz, z1, z2, z3⟩ := hmid
      have tx : TreeOk C x.1 x.2 := (h.trees z hz).sub he (by rw [z1]; exact point_key _ _ _) (by rw [z1]; exact point_kind _ _ _) z2 fun q hq => by
        obtain ⟨r, hr, rfl⟩ := z3 q hq
        exact ⟨r, hr, point_kind _ _ _, fun a ha => point_has n key r ha⟩
      rw [e1]
      rcases e2 with e2 | ⟨hk', e2⟩
      · rw [e2]; exact tx
      · have hz' := h.gradTop hz hn hg (z2 _ hk')
        have xk : x.1.key = z.1.key := by rw [z1]; exact point_key _ _ _
        have xd : x.1.kind = z.1.kind := by rw [z1]; exact point_kind _ _ _
        have hkind : x.1.kind = .elem .svg ∨ x.1.kind = .elem .defs := by
          rw [xd]
          rcases hz' with e | e
          · exact .inl (h.kindS (subs_nodes hz) e)
          · exact .inr (h.kindD (subs_nodes hz) e)
        refine ⟨fun e => ?_, fun e => ?_, fun e => ?_, fun e => absurd e he, fun q1 q2 => ?_⟩
        · rcases hkind with e' | e' <;> (rw [e] at e'; cases e')
        · rcases hkind with e' | e' <;> (rw [e] at e'; cases e')
        · rcases hkind with e' | e' <;> (rw [e'] at e; cases e)
        · rw [xk] at q1 q2
          rcases hz' with e' | e'
          · exact absurd e' q1
          · exact absurd e' q2
  · rw [e]
    refine anchored_insertBefore ?_ hnn.1 rfl
    obtain ⟨S, ks, D, r1, r2, r3, r4, r5⟩ := anchored_setKids (c := .nil) h.root hnn.1
    exact ⟨_, ks.map (point n key), point n key D, GroupDefs.svgElement_map r1 (point_kind n key), (point_key _ _ _).trans r2,
      by rw [Stops.top_map]; exact List.mem_map.2 ⟨D, r3, rfl⟩, (point_key _ _ _).trans r4, (point_kind _ _ _).trans r5⟩
  · rw [hp.length_eq, List.length_cons, List.length_map]; exact hcap
  · rw [hp.length_eq, List.length_cons, List.length_map]
  · exact hkeys.mem_iff.2 (by simp)

/-- A gradient stays when something else is removed. -/
theorem Inv.rmKeys_grad {f : Forest} (h : Inv C f) (he : ¬ C.early) {ks : List Nat} (hk : ∀ k ∈ ks, k ≠ C.s ∧ k ≠ C.d) {g : Nat} (hg : gradKind (C.kind g) = true)
    (hgk : g ∈ f.keys) (hn : g ∉ ks) : g ∈ (Invisible.rmKeys ks f).keys := by
  induction ks generalizing f with
  | nil => exact hgk
  | cons k ks ih =>
    have h1 := hk k (by simp)
    refine ih (f := Invisible.rmKey k f) (h.rmKey h1.1 h1.2 fun e => absurd e he) (fun j hj => hk j (by simp [hj])) ?_ (fun e => hn (by simp [e]))
    obtain ⟨n, hn', rfl⟩ := Forest.mem_keys.1 hgk
    unfold Invisible.rmKey
    by_contra hc
    have : n ∈ (f.prune fun m => decide (m.key = k)).nodes ∨ n.key ∈ f.prunedKeys (fun m => decide (m.key = k)) := by
      clear hc hg hgk hn h ih
      induction f with
      | nil => cases hn'
      | cons a c r i1 i2 =>
        simp only [Forest.prune, Forest.prunedKeys]
        simp only [Forest.nodes, List.mem_cons, List.mem_append] at hn'
        split
        · rcases hn' with rfl | hn' | hn'
          · right; simp
          · right; simp [Forest.key_mem hn']
          · rcases i2 hn' with h | h
            · exact .inl h
            · right; simp [h]
        · rcases hn' with rfl | hn' | hn'
          · left; simp [Forest.nodes]
          · rcases i1 hn' with h | h
            · left; simp [Forest.nodes, h]
            · right; simp [h]
          · rcases i2 hn' with h | h
            · left; simp [Forest.nodes, h]
            · right; simp [h]
    rcases this with hp | hp
    · refine hc ?_
      unfold Forest.remove
      rw [Forest.keys_map]
      · exact Forest.key_mem hp
      · exact fun _ => rfl
    · obtain ⟨x, hx, ex, e⟩ := Merge.mem_prunedKeys hp
      have ex : x.1.key = k := by simpa using ex
      have hgn : gradKind n.kind = true := by rw [(h.nodes n hn').kind.grad]; exact hg
      rcases e with e | e
      · exact hn (by rw [e, ex]; simp)
      · rcases h.gradTop hx hn' hgn e with e | e
        · exact h1.1 (ex ▸ e)
        · exact h1.2 (ex ▸ e)

/-- The stops of a gradient that is to use those of another. -/
theorem Inv.join {f : Forest} (h : Inv C f) (he : ¬ C.early) {key j : Nat} (hkey : key ∈ f.keys) (hk : gradKind (C.kind key) = true) (hj : gradKind (C.kind j) = true)
    (hr : C.rank key < C.rank j) : encloses key f j = false ∧ Inv C (Regroup.join key f j) ∧ key ∈ (Regroup.join key f j).keys ∧
      (Regroup.join key f j).nodes.length ≤ f.nodes.length := by
  unfold encloses Regroup.join
  cases hc : f.kidsOf j with
  | none => exact ⟨rfl, h, hkey, Nat.le_refl _⟩
  | some c =>
    obtain ⟨x, rfl, hs⟩ := subs_kidsOf hc
    have hx := subs_nodes hs
    have hg : gradKind x.kind = true := by rw [(h.nodes x hx).kind.grad]; exact hj
    obtain ⟨n, hn, rfl⟩ := Forest.mem_keys.1 hkey
    have hng : gradKind n.kind = true := by rw [(h.nodes n hn).kind.grad]; exact hk
    have nin : n.key ∉ c.keys := h.inside hx (by rw [← gradKind_eq]; exact hg) hc hn (by rw [← gradKind_eq]; exact hng)
    have nx := h.gradNot hx hg
    have hks : ∀ k ∈ c.top.map Node.key, k ≠ C.s ∧ k ≠ C.d := by
      intro k hk
      obtain ⟨m, hm, rfl⟩ := List.mem_map.1 hk
      have := (h.trees _ hs).below nx.1 nx.2 m.key (Forest.key_mem (GroupStyle.mem_top_nodes hm))
      exact ⟨this.2.1, this.2.2.1⟩
    have hi : Inv C (Invisible.rmKeys (c.top.map Node.key) f) := h.rmKeys fun k hk => ⟨(hks k hk).1, (hks k hk).2, fun e => absurd e he⟩
    have hst : n.key ∈ (Invisible.rmKeys (c.top.map Node.key) f).keys := h.rmKeys_grad he hks hk hkey fun e => by
      obtain ⟨m, hm, e⟩ := List.mem_map.1 e
      exact nin (e ▸ Forest.key_mem (GroupStyle.mem_top_nodes hm))
    refine ⟨by simpa using nin, hi.pointAt he hj hst hk hr, ?_, ?_⟩
    · dsimp only
      unfold Forest.modify
      rw [Forest.keys_map]
      · exact hst
      · intro m; split <;> rfl
    · dsimp only
      unfold Forest.modify
      rw [Forest.nodes_map, List.length_map]
      exact Merge.length_rmKeys

theorem Inv.joinAll {f : Forest} (h : Inv C f) (he : ¬ C.early) {key : Nat} (hkey : key ∈ f.keys) (hk : gradKind (C.kind key) = true) {js : List Nat}
    (hj : ∀ j ∈ js, gradKind (C.kind j) = true ∧ C.rank key < C.rank j) : ∃ g, Regroup.joinAll key js f = some g ∧ Inv C g ∧ g.nodes.length ≤ f.nodes.length := by
  induction js generalizing f with
  | nil => exact ⟨f, rfl, h, Nat.le_refl _⟩
  | cons j js ih =>
    obtain ⟨h1, h2, h3, h4⟩ := h.join he hkey hk (hj j (by simp)).1 (hj j (by simp)).2
    obtain ⟨g, e, hg, hl⟩ := ih h2 h3 fun i hi => hj i (by simp [hi])
    exact ⟨g, by rw [Regroup.joinAll, if_neg (by rw [h1]; decide)]; exact e, hg, hl.trans h4⟩

/-- One more gradient. -/
def Ctx.more (C : Ctx) (key : Nat) : Ctx :=
  { C with
    kind := fun k => if k = key then .elem .linearGradient else C.kind k
    bare := fun k => k = key ∨ C.bare k
    rank := fun k => if k = key then 0 else if gradKind (C.kind k) then C.rank k + 1 else C.rank k }

theorem Inv.more {f : Forest} (h : Inv C f) {key : Nat} (hk : key ∉ f.keys) : Inv (C.more key) f := by
  have h1 : Inv { C with kind := fun k => if k = key then .elem .linearGradient else C.kind k, bare := fun k => k = key ∨ C.bare k } f := by
    refine h.rekey rfl rfl (fun k hk' => ?_) (fun _ _ => rfl) (fun _ _ hb => .inr hb) id id id (Nat.le_refl _)
    show (if k = key then _ else _) = _
    rw [if_neg]
    rintro rfl; exact hk hk'
  refine h1.rerank (r := fun k => if k = key then 0 else if gradKind (C.kind k) then C.rank k + 1 else C.rank k) (fun k hg => ?_) fun n hn hg k hkn => ?_
  · replace hg : gradKind (if k = key then .elem .linearGradient else C.kind k) = false := hg
    by_cases e : k = key
    · rw [if_pos e] at hg; cases hg
    · rw [if_neg e] at hg
      rw [if_neg e, if_neg (by rw [hg]; decide)]
  · have hnk := Forest.key_mem hn
    have hkk := h.links n hn k hkn
    obtain ⟨x, hx, e⟩ := Node.mem_links.1 hkn
    obtain ⟨_, g1, g2⟩ := ((h.nodes n hn).attrs x hx).grad.link hg k e
    rw [if_neg (fun e : k = key => hk (e ▸ hkk)), if_neg (fun e : n.key = key => hk (e ▸ hnk)), if_pos g1, if_pos (by rw [← (h.nodes n hn).kind.grad]; exact hg)]
    omega

theorem Inv.groupOne {f : Forest} (h : Inv C f) (he : ¬ C.early) (hq : ¬ C.uniq) {n : Node} (hn : n ∈ f.nodes) (hg : gradKind n.kind = true) {js : List Nat}
    (hj : ∀ j ∈ js, gradKind (C.kind j) = true) (hjs : ∀ j ∈ js, j ∈ f.keys) (hcap : f.nodes.length + 1 < C.cap) :
    ∃ g, Regroup.groupOne n.key js f = some g ∧ Inv (C.more (GroupStyle.freshKey f)) g ∧ g.nodes.length ≤ f.nodes.length + 1 := by
  obtain ⟨i, _, hid, _, _⟩ := GenId.C41_fresh f "lg"
  have hk := fresh_key f
  have hm := h.more hk
  have hne : n.key ≠ GroupStyle.freshKey f := fun e => hk (e ▸ Forest.key_mem hn)
  have pos : ∀ j ∈ f.keys, gradKind (C.kind j) = true → gradKind ((C.more (GroupStyle.freshKey f)).kind j) = true ∧
      (C.more (GroupStyle.freshKey f)).rank (GroupStyle.freshKey f) < (C.more (GroupStyle.freshKey f)).rank j := by
    intro j hj hg
    have hne : j ≠ GroupStyle.freshKey f := fun e => hk (e ▸ hj)
    simp [Ctx.more, hne, hg]
  obtain ⟨h1, h2, h3⟩ := hm.split (id := "lg" ++ toString i) he hq hn hg hk (by simp [Ctx.more]) (by simp [Ctx.more])
    (pos n.key (Forest.key_mem hn) (by rw [← (h.nodes n hn).kind.grad]; exact hg)).2 (by
      intro e
      have := congrArg String.length e
      rw [String.length_append] at this
      simp at this) hcap
  obtain ⟨g, e, hg', hl⟩ := h1.joinAll he h3 (by simp [Ctx.more, gradKind]) (js := js) fun j hj' => pos j (hjs j hj') (hj j hj')
  exact ⟨g, by unfold Regroup.groupOne; rw [hid]; exact e, hg', by rw [h2] at hl; exact hl⟩

theorem Inv.regroupLoop {f : Forest} {fuel : Nat} {ks : List Nat} (h : Inv C f) (he : ¬ C.early) (hq : ¬ C.uniq) (hb : ∀ k, C.bare k → C.kind k = .elem .linearGradient)
    (hk : ∀ k ∈ ks, gradKind (C.kind k) = true) (hcap : f.nodes.length + ks.length < C.cap) :
    ∃ g b C', Regroup.regroupLoop fuel ks f = some (g, b) ∧ Inv C' g ∧ C'.cap = C.cap ∧ ¬ C'.early ∧ ¬ C'.uniq ∧ (∀ k, C'.bare k → C'.kind k = .elem .linearGradient) ∧
      (b = false → C' = C) := by
  induction fuel generalizing ks f C with
  | zero => exact ⟨f, false, C, rfl, h, rfl, he, hq, hb, fun _ => rfl⟩
  | succ fuel ih =>
    cases ks with
    | nil => exact ⟨f, false, C, rfl, h, rfl, he, hq, hb, fun _ => rfl⟩
    | cons k ks =>
      rw [Regroup.regroupLoop]
      by_cases hf : (ks.filter (alike f k)).isEmpty = true
      · rw [if_pos hf]
        exact ih h he hq hb (fun j hj => hk j (by simp [hj])) (by simp only [List.length_cons] at hcap; omega)
      · rw [if_neg hf]
        have hal : ∀ j ∈ ks.filter (alike f k), ∃ n c d, n ∈ f.nodes ∧ n.key = k ∧ f.kidsOf k = some c ∧ f.kidsOf j = some d := by
          intro j hj
          obtain ⟨c, d, h1, h2, _⟩ := alike_iff.1 (List.mem_filter.1 hj).2
          obtain ⟨n, e, hs⟩ := subs_kidsOf h1
          exact ⟨n, c, d, subs_nodes hs, e, h1, h2⟩
        obtain ⟨n, hn, rfl⟩ : ∃ n ∈ f.nodes, n.key = k := by
          cases hl : ks.filter (alike f k) with
          | nil => rw [hl] at hf; exact absurd rfl hf
          | cons j t =>
            obtain ⟨n, _, _, h1, h2, _⟩ := hal j (by rw [hl]; simp)
            exact ⟨n, h1, h2⟩
        have hg : gradKind n.kind = true := by rw [(h.nodes n hn).kind.grad]; exact hk _ (by simp)
        obtain ⟨g, e, hi, hl⟩ := h.groupOne he hq hn hg (js := ks.filter (alike f n.key)) (fun j hj => hk j (by simp [(List.mem_filter.1 hj).1])) (fun j hj => by
          obtain ⟨_, _, d, _, _, _, h4⟩ := hal j hj
          obtain ⟨m, rfl, hs⟩ := subs_kidsOf h4
          exact Forest.key_mem (subs_nodes hs)) (by simp only [List.length_cons] at hcap; omega)
        rw [e, Option.bind_some]
        suffices hs : (∀ j, (C.more (GroupStyle.freshKey f)).bare j → (C.more (GroupStyle.freshKey f)).kind j = .elem .linearGradient) ∧
            (∀ j ∈ ks.filter fun j => !alike f n.key j, gradKind ((C.more (GroupStyle.freshKey f)).kind j) = true) ∧
            g.nodes.length + (ks.filter fun j => !alike f n.key j).length < (C.more (GroupStyle.freshKey f)).cap by
          obtain ⟨g', b, C', e1, e2, e3, e4, e5, e6, _⟩ := ih hi he hq hs.1 hs.2.1 hs.2.2
          exact ⟨g', true, C', by rw [e1]; rfl, e2, e3, e4, e5, e6, fun e => by cases e⟩
        refine ⟨fun j hj => ?_, fun j hj => ?_, ?_⟩
        · rcases hj with rfl | hj
          · simp [Ctx.more]
          · simp only [Ctx.more]
            split
            · rfl
            · exact hb j hj
        · simp only [Ctx.more]
          split
          · rfl
          · exact hk j (by simp [(List.mem_filter.1 hj).1])
        · have := List.length_filter_le (fun j => !alike f n.key j) ks
          simp only [List.length_cons] at hcap
          show _ < C.cap
          omega

/-! ### The attributes of the new gradients -/

/-- What holds of the nodes, before the definitions have been collected, too. -/
structure Core (C : Ctx) (f : Forest) : Prop where
  unique : f.UniqueKeys
  links : f.LinksOk
  nodes : ∀ n ∈ f.nodes, NodeOk C n

theorem Inv.core {f : Forest} (h : Inv C f) : Core C f := ⟨h.unique, h.links, h.nodes⟩

theorem getMem {n : Node} {a : AId} {v : Value} (h : n.get a = some v) : ∃ x ∈ n.attrs, x.name = .id a ∧ x.value = v := by
  unfold Node.get at h
  obtain ⟨x, hx, rfl⟩ := Option.map_eq_some_iff.1 h
  exact ⟨x, List.mem_of_find?_eq_some hx, getAttr_name hx, rfl⟩

/-- Where the value of an attribute of a gradient comes from. -/
theorem Core.resolveAttr {f : Forest} (h : Core C f) (a : AId) (d : Option Value) {fuel : Nat} {n : Node} (hn : n ∈ f.nodes) (hg : gradKind n.kind = true)
    (hb : Gradients.below f C.rank (C.rank n.key) < fuel) :
    ∃ r, Gradients.resolveAttribute f a d fuel n = some r ∧ (r = d ∨ ∃ v, r = some v ∧ ∃ m ∈ f.nodes, gradKind m.kind = true ∧ AttrOk C m (.id a) v) := by
  induction fuel generalizing n with
  | zero => omega
  | succ fuel ih =>
    rw [Gradients.resolveAttribute]
    cases ha : n.get a with
    | some v =>
      obtain ⟨x, hx, e1, e2⟩ := getMem ha
      exact ⟨_, rfl, .inr ⟨v, rfl, n, hn, hg, by have := (h.nodes n hn).attrs x hx; rwa [e1, e2] at this⟩⟩
    | none =>
      cases hx : n.get .xlinkHref with
      | none => exact ⟨_, rfl, .inl rfl⟩
      | some u =>
        obtain ⟨x, hx', e1, e2⟩ := getMem hx
        have hx2 := ((h.nodes n hn).attrs x hx').grad
        obtain ⟨k, hk⟩ := hx2.href hg e1
        obtain ⟨_, g1, g2⟩ := hx2.link hg k (by rw [hk]; rfl)
        rw [← e2, hk]
        obtain ⟨t, ht, rfl⟩ := Forest.mem_keys.1 (h.links n hn k (Node.mem_links.2 ⟨x, hx', by rw [hk]; rfl⟩))
        simp only []
        rw [Forest.find_of_mem h.unique ht]
        exact ih ht (by rw [(h.nodes t ht).kind.grad]; exact g1) (lt_of_lt_of_le (Gradients.below_lt ht g2) (by omega))

/-- A gradient with some attributes. -/
def Filled (f : Forest) (k : Nat) (as : List AId) : Prop := ∃ n ∈ f.nodes, n.key = k ∧ gradKind n.kind = true ∧ ∀ a ∈ as, n.has a = true

theorem Core.checkAttr {f : Forest} (h : Core C f) {k : Nat} {as : List AId} (hk : Filled f k as) {a : AId} {d : Option Value} (ha : freeName (.id a) = true ∨ (a = .gradientTransform ∧ d = none))
    (hd : ∀ v, d = some v → v.target = none) :
    ∃ u : Node → Node, Gradients.checkAttr k a d f = some (f.map u) ∧ (∀ n ∈ f.nodes, Tame C n (u n) ∧ (∀ b, n.has b = true → (u n).has b = true) ∧ (n.key ≠ k → u n = n) ∧ (u n = n ∨ ∃ v, u n = Stops.setHidden n a v)) ∧
      Filled (f.map u) k (if d.isSome then a :: as else as) := by
  obtain ⟨n, hn, rfl, hg, has⟩ := hk
  unfold Gradients.checkAttr
  rw [Forest.find_of_mem h.unique hn, Option.bind_some]
  have same : f.map id = f := Forest.map_id' fun _ _ => rfl
  by_cases hh : n.has a = true
  · rw [if_pos hh]
    refine ⟨id, by rw [same], fun m _ => ⟨Tame.refl C m, fun _ h => h, fun _ => rfl, .inl rfl⟩, n, by rw [same]; exact hn, rfl, hg, ?_⟩
    intro b hb
    split at hb
    · rcases List.mem_cons.1 hb with rfl | hb
      · exact hh
      · exact has b hb
    · exact has b hb
  · rw [if_neg hh]
    obtain ⟨r, e, hr⟩ := h.resolveAttr a d (fuel := f.nodes.length + 1) hn hg (Nat.lt_succ_of_le (Gradients.below_le _ _ _))
    rw [e, Option.map_some]
    cases r with
    | none =>
      have hd' : d = none := by
        rcases hr with hr | ⟨v, hv, _⟩
        · exact hr.symm
        · cases hv
      subst hd'
      exact ⟨id, by rw [same], fun m _ => ⟨Tame.refl C m, fun _ h => h, fun _ => rfl, .inl rfl⟩, n, by rw [same]; exact hn, rfl, hg, has⟩
    | some v =>
      have hv : v.target = none ∧ ∀ m, gradKind m.kind = true → AttrOk C m (.id a) v := by
        rcases hr with hr | ⟨w, hw, m, hm, hmg, hma⟩
        · refine ⟨hd v hr.symm, fun m _ => ?_⟩
          rcases ha with ha | ⟨_, ha⟩
          · exact AttrOk.free ha (hd v hr.symm)
          · rw [ha] at hr; cases hr
        · cases hw
          have ht : v.target = none := by
            cases ht : v.target with
            | none => rfl
            | some j =>
              have := (hma.grad.link hmg j ht).1
              injection this with this
              subst this
              rcases ha with ha | ⟨ha, _⟩
              · cases ha
              · cases ha
          refine ⟨ht, fun m' hm' => ?_⟩
          rcases ha with ha | ⟨rfl, _⟩
          · exact AttrOk.free ha ht
          · refine ⟨⟨hma.grad.ts, fun e => (by cases e), fun e => (by cases e), fun _ e => (by cases e), fun _ k e => ?_, fun _ e => (by cases e), fun _ => ht⟩, fun e => (by cases e), fun e => (by cases e),
              fun e => (by cases e), fun e => (by cases e), fun e => (by cases e), fun k e => ?_⟩
            · rw [ht] at e; cases e
            · rw [ht] at e; cases e
      have hset : ∀ m : Node, m.key = n.key → m ∈ f.nodes → Tame C m (Stops.setHidden m a v) ∧ (∀ b, m.has b = true → (Stops.setHidden m a v).has b = true) := by
        intro m hm hmf
        obtain rfl := Forest.eq_of_key h.unique hmf hn hm
        exact ⟨Tame.put m (hv.2 m hg) hv.1, fun b hb => has_put hb⟩
      refine ⟨fun m => if m.key = n.key then Stops.setHidden m a v else m, rfl, fun m hm => ?_, Stops.setHidden n a v, ?_, rfl, hg, ?_⟩
      · dsimp only
        split
        next e => exact ⟨(hset m e hm).1, (hset m e hm).2, fun h => absurd e h, .inr ⟨v, rfl⟩⟩
        · exact ⟨Tame.refl C m, fun _ h => h, fun _ => rfl, .inl rfl⟩
      · rw [Forest.nodes_map]
        exact List.mem_map.2 ⟨n, hn, if_pos rfl⟩
      · intro b hb
        have old : ∀ b ∈ as, (Stops.setHidden n a v).has b = true := fun b hb => (hset n rfl hn).2 b (has b hb)
        split at hb
        · rcases List.mem_cons.1 hb with rfl | hb
          · rw [has_iff]
            refine ⟨⟨.id b, v, false⟩, ?_, rfl⟩
            have : getAttr (Stops.setHidden n b v).attrs (.id b) = some ⟨.id b, v, false⟩ := by
              rw [Gradients.getAttr_setHidden, if_pos rfl]
            exact List.mem_of_find?_eq_some this
          · exact old b hb
        · exact old b hb

/-- What the resolving does to a document. -/
structure Fills (C : Ctx) (k : Nat) (as : List AId) (f g : Forest) : Prop where
  inv : Inv C g
  keys : g.keys = f.keys
  filled : Filled g k as
  other : ∀ n ∈ g.nodes, n.key ≠ k → n ∈ f.nodes

theorem Inv.checked {f0 f : Forest} {k : Nat} {as : List AId} (h : Fills C k as f0 f) {a : AId} {d : Value} (ha : freeName (.id a) = true)
    (hd : d.target = none) {y : Forest → Option Forest} {bs : List AId} (hy : ∀ g, Fills C k (a :: as) f0 g → ∃ g', y g = some g' ∧ Fills C k bs f0 g') :
    ∃ g', (Gradients.checkAttr k a (some d) f).bind y = some g' ∧ Fills C k bs f0 g' := by
  obtain ⟨u, e, h1, h2⟩ := h.inv.core.checkAttr h.filled (.inl ha) (d := some d) (by rintro v ⟨⟩; exact hd)
  rw [e, Option.bind_some]
  refine hy _ ⟨h.inv.map fun n hn => (h1 n hn).1, ?_, h2, fun n hn hne => ?_⟩
  · rw [← h.keys]
    have : f.map u = f.map fun n => { u n with key := n.key } := Forest.map_congr fun n hn => by
      rw [← (h1 n hn).1.key]
    rw [this, Forest.keys_map]
    exact fun _ => rfl
  · rw [Forest.nodes_map] at hn
    obtain ⟨m, hm, rfl⟩ := List.mem_map.1 hn
    have hk : m.key ≠ k := fun e => hne ((h1 m hm).1.key.trans e)
    rw [(h1 m hm).2.2.1 hk] at hne ⊢
    exact h.other m hm hne

theorem Inv.unbare {f : Forest} (h : Inv C f) {b : Nat → Prop}
    (hb : ∀ n ∈ f.nodes, gradKind n.kind = true → C.bare n.key → ¬ b n.key → ∀ a ∈ Crash.wanted n.kind, n.has a = true) : Inv { C with bare := b } f where
  unique := h.unique
  links := h.links
  root := h.root
  count := h.count
  ids := h.ids
  nodes n hn := by
    have := h.nodes n hn
    refine ⟨this.kind, fun hg hnb => ?_, this.named, this.single, fun x hx => ?_⟩
    · by_cases hc : C.bare n.key
      · exact hb n hn hg hc hnb
      · exact this.full hg hc
    · have ha := this.attrs x hx
      exact ⟨⟨ha.grad.ts, ha.grad.color, ha.grad.opacity, ha.grad.href, ha.grad.link, ha.grad.shown, ha.grad.stop⟩, ha.transform, ha.opacity, ha.points, ha.d, ha.shown, ha.link⟩
  trees x hx := by
    have := h.trees x hx
    exact ⟨this.group, this.leaf, this.stops, this.early, this.below⟩

theorem Inv.linearNode {f : Forest} (h : Inv C f) {k : Nat} (hk : k ∈ f.keys) (hkk : C.kind k = .elem .linearGradient) :
    ∃ g, Gradients.resolveLinearNode k f = some g ∧ g.keys = f.keys ∧ Inv { C with bare := fun j => C.bare j ∧ j ≠ k } g := by
  have h0 : Fills C k [] f f := ⟨h, rfl, by
    obtain ⟨n, hn, rfl⟩ := Forest.mem_keys.1 hk
    exact ⟨n, hn, rfl, by rw [(h.nodes n hn).kind.grad, hkk]; rfl, fun a ha => by cases ha⟩, fun n hn _ => hn⟩
  suffices hs : ∃ g, Gradients.resolveLinearNode k f = some g ∧ Fills C k [.y2, .x2, .y1, .x1, .spreadMethod, .gradientUnits] f g by
    obtain ⟨g, e, hf⟩ := hs
    refine ⟨g, e, hf.keys, hf.inv.unbare fun n hn hg hb hnb a ha => ?_⟩
    have ek : n.key = k := by
      by_contra hc; exact hnb ⟨hb, hc⟩
    obtain ⟨m, hm, em, _, hma⟩ := hf.filled
    obtain rfl := Forest.eq_of_key hf.inv.unique hn hm (ek.trans em.symm)
    have := (hf.inv.nodes n hn).kind
    rw [ek, hkk] at this
    rw [this.eq rfl] at ha
    refine hma a ?_
    simp only [Crash.wanted, List.mem_cons, List.not_mem_nil, or_false] at ha ⊢
    rcases ha with rfl | rfl | rfl | rfl | rfl | rfl <;> simp
  unfold Gradients.resolveLinearNode
  refine Inv.checked h0 rfl rfl fun f1 h1 => ?_
  refine Inv.checked h1 rfl rfl fun f1 h1 => ?_
  refine Inv.checked h1 rfl rfl fun f1 h1 => ?_
  refine Inv.checked h1 rfl rfl fun f1 h1 => ?_
  refine Inv.checked h1 rfl rfl fun f1 h1 => ?_
  refine Inv.checked h1 rfl rfl fun f1 h1 => ?_
  obtain ⟨u, e, p1, p2⟩ := h1.inv.core.checkAttr h1.filled (a := .gradientTransform) (.inr ⟨rfl, rfl⟩) (by rintro v ⟨⟩)
  refine ⟨_, e, h1.inv.map fun n hn => (p1 n hn).1, ?_, p2, fun n hn hne => ?_⟩
  · rw [← h1.keys]
    have : f1.map u = f1.map fun n => { u n with key := n.key } := Forest.map_congr fun n hn => by
      rw [← (p1 n hn).1.key]
    rw [this, Forest.keys_map]
    exact fun _ => rfl
  · rw [Forest.nodes_map] at hn
    obtain ⟨m, hm, rfl⟩ := List.mem_map.1 hn
    have hk : m.key ≠ k := fun e => hne ((p1 m hm).1.key.trans e)
    rw [(p1 m hm).2.2.1 hk] at hne ⊢
    exact h1.other m hm hne

theorem Inv.linearAll {f : Forest} (h : Inv C f) {l : List Nat} (hl : ∀ k ∈ l, k ∈ f.keys ∧ C.kind k = .elem .linearGradient) :
    ∃ g, Gradients.forEach Gradients.resolveLinearNode l f = some g ∧ g.keys = f.keys ∧ Inv { C with bare := fun j => C.bare j ∧ j ∉ l } g := by
  induction l generalizing f C with
  | nil =>
    refine ⟨f, rfl, rfl, ?_⟩
    refine h.unbare fun n hn hg hb hnb => ?_
    exact absurd ⟨hb, by simp⟩ hnb
  | cons k t ih =>
    obtain ⟨g, e, e2, hi⟩ := h.linearNode (hl k (by simp)).1 (hl k (by simp)).2
    rw [Gradients.forEach, e, Option.bind_some]
    obtain ⟨g', e', ek, hi'⟩ := ih hi fun j hj => ⟨by rw [e2]; exact (hl j (by simp [hj])).1, (hl j (by simp [hj])).2⟩
    refine ⟨g', e', ek.trans e2, ?_⟩
    have : (fun j => C.bare j ∧ j ∉ k :: t) = fun j => (C.bare j ∧ j ≠ k) ∧ j ∉ t := by
      funext j; simp only [List.mem_cons, not_or, and_assoc]
    rw [this]; exact hi'

theorem Inv.resolveLinear {f : Forest} (h : Inv C f) (hb : ∀ k, C.bare k → C.kind k = .elem .linearGradient) :
    ∃ g, Gradients.resolveLinear f = some g ∧ Inv { C with bare := fun _ => False } g := by
  obtain ⟨o, ho⟩ := Gradients.orderLoop_rank h.unique (e := .linearGradient) (rank := C.rank) (by
    rintro a b ⟨⟨n, hn, rfl, hk, hb⟩, _⟩
    have hg : gradKind n.kind = true := by rw [hk]; rfl
    obtain ⟨x, hx, e⟩ := Node.mem_links.1 hb
    exact (((h.nodes n hn).attrs x hx).grad.link hg b e).2.2) (Gradients.ordered_nil _ _)
    (fuel := (Gradients.ofKind f .linearGradient).length) (by simp)
  have ho : Gradients.genOrder f .linearGradient = some o := ho
  have hmem := (Gradients.C27_order ho).2.1
  unfold Gradients.resolveLinear
  rw [ho, Option.bind_some]
  obtain ⟨g, e, ek, hi⟩ := h.linearAll (l := o) fun k hk => by
    obtain ⟨n, hn, rfl, hkd⟩ := (hmem k).1 hk
    refine ⟨Forest.key_mem hn, ?_⟩
    have := (h.nodes n hn).kind.eq' (by rw [hkd]; decide)
    rw [← this, hkd]
  refine ⟨g, e, hi.unbare fun n hn hg hb' _ => ?_⟩
  exfalso
  obtain ⟨b1, b2⟩ := hb'
  have hkey : n.key ∈ f.keys := by rw [← ek]; exact Forest.key_mem hn
  obtain ⟨m, hm, em⟩ := Forest.mem_keys.1 hkey
  refine b2 ((hmem _).2 ⟨m, hm, em, ?_⟩)
  have := (h.nodes m hm).kind
  rw [em, hb _ b1] at this
  exact this.eq rfl

/-- Equal stops are put into gradients of their own. -/
theorem Inv.regroup {f : Forest} (h : Inv C f) (he : ¬ C.early) (hq : ¬ C.uniq) (hb : ∀ k, ¬ C.bare k) :
    ∃ g C', Regroup.regroup f = some g ∧ Inv C' g ∧ C'.cap = 2 * C.cap ∧ ¬ C'.early ∧ ¬ C'.uniq ∧ ∀ k, ¬ C'.bare k := by
  have hl : (candidates f).length ≤ f.nodes.length := by
    unfold candidates
    rw [List.length_map]
    refine Nat.le_trans (List.length_filter_le _ _) ?_
    have := congrArg List.length (Stops.subs_keys f)
    rw [List.length_map, Forest.keys, List.length_map] at this
    omega
  have h1 : Inv { C with cap := 2 * C.cap } f := h.rekey rfl rfl (fun _ _ => rfl) (fun _ _ => rfl) (fun _ _ h => h) id id id (by show C.cap ≤ 2 * C.cap; omega)
  obtain ⟨g, b, C', e1, e2, e3, e4, e5, e6, e7⟩ := h1.regroupLoop (fuel := (candidates f).length) (ks := candidates f) he hq (fun k hk => absurd hk (hb k)) (fun k hk => by
    obtain ⟨x, hx, rfl⟩ := List.mem_map.1 hk
    obtain ⟨hx, hc⟩ := List.mem_filter.1 hx
    simp only [Bool.and_eq_true] at hc
    show gradKind (C.kind _) = true
    rw [← (h.nodes x.1 (subs_nodes hx)).kind.grad, gradKind_eq]
    exact hc.1.1) (by
      have := h.count
      show _ < 2 * C.cap
      omega)
  unfold Regroup.regroup
  rw [e1, Option.bind_some]
  cases b with
  | false =>
    have := e7 rfl
    subst this
    exact ⟨g, _, rfl, e2, rfl, he, hq, hb⟩
  | true =>
    obtain ⟨g', e, hi⟩ := e2.resolveLinear e6
    exact ⟨g', _, e, hi, e3, e4, e5, fun _ h => h⟩

end

end Verif.Crash
