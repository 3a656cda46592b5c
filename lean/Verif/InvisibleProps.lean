import Verif.Invisible
import Verif.RenderDrop
import Verif.ResolveUseLook
/-
Property C38: removing elements that show nothing keeps the picture.  Here: one step of the pass at a time.
-/
namespace Verif.Invisible
open Verif.Dom Verif.Spec Verif.Render
open Verif.Paths (Transform)
open Verif.ResolveUse (subtree)

/-! ### Removing one element -/

/-- Keys and attribute names are unique. -/
structure Good (f : Forest) : Prop where
  keys : f.UniqueKeys
  attrs : ∀ n ∈ f.nodes, (n.attrs.map (·.name)).Nodup

/-- The element with the key `k` can be removed: it shows nothing, stands in a place where this has no effect, nothing refers to
its descendants, and only `use` elements refer to the element itself. -/
structure Drop (f : Forest) (k : Nat) : Prop where
  spot : ∀ p n ks, (p, n, ks) ∈ spots top f → n.key = k →
    gone p n.kind = true ∧ (unseen p n.kind = true ∨ Undrawn f n ks) ∧ ∀ m ∈ ks.nodes, f.isUsed m.key = false
  links : ∀ x ∈ f.nodes, ∀ y ∈ x.attrs, y.value.target = some k → x.kind = .elem .use ∧ y.name = .id .xlinkHref ∧ Blank f k

theorem mem_prunedKeys {pr : Node → Bool} {f : Forest} {x : Nat} (p : Kind) (h : x ∈ f.prunedKeys pr) :
    ∃ y ∈ cuts pr p f, x = y.2.1.key ∨ x ∈ y.2.2.keys := by
  induction f generalizing p with
  | nil => cases h
  | cons n k r ihk ihr =>
    simp only [Forest.prunedKeys] at h
    simp only [cuts]
    split at h
    next hn =>
      simp only [List.cons_append, List.mem_cons, List.mem_append] at h
      rw [if_pos hn]
      rcases h with h | h | h
      · exact ⟨_, List.mem_cons_self, .inl h⟩
      · exact ⟨_, List.mem_cons_self, .inr h⟩
      · obtain ⟨y, hy, h⟩ := ihr p h
        exact ⟨y, List.mem_cons_of_mem _ hy, h⟩
    next hn =>
      rw [if_neg hn]
      rcases List.mem_append.1 h with h | h
      · obtain ⟨y, hy, h⟩ := ihk n.kind h
        exact ⟨y, List.mem_append_left _ hy, h⟩
      · obtain ⟨y, hy, h⟩ := ihr p h
        exact ⟨y, List.mem_append_right _ hy, h⟩

theorem Drop.cut {f : Forest} {k : Nat} (hf : Good f) (h : Drop f k) : Cut f (fun m => decide (m.key = k)) := by
  refine ⟨fun x hx => ?_, hf.attrs, fun n hn y hy j hj hp => ?_⟩
  · obtain ⟨h1, h2⟩ := cuts_spots hx
    obtain ⟨a, b, _⟩ := h.spot x.1 x.2.1 x.2.2 h1 (by simpa using h2)
    exact ⟨a, b⟩
  · obtain ⟨x, hx, he⟩ := mem_prunedKeys top hp
    obtain ⟨h1, h2⟩ := cuts_spots hx
    have hn := (Forest.nodes_prune_sublist _ _).subset hn
    have h2 : x.2.1.key = k := by simpa using h2
    rcases he with rfl | he
    · rw [h2] at hj ⊢
      exact h.links n hn y hy hj
    · obtain ⟨m, hm, rfl⟩ := Forest.mem_keys.1 he
      have := (h.spot x.1 x.2.1 x.2.2 h1 h2).2.2 m hm
      rw [Forest.isUsed_iff.2 ⟨n, hn, Node.mem_links.2 ⟨y, hy, hj⟩⟩] at this
      cases this

theorem Drop.look {f : Forest} {k : Nat} (hf : Good f) (h : Drop f k) : SameLook f (rmKey k f) := (h.cut hf).look

theorem unlink_names {n : Node} {s : Nat → Bool} (h : (n.attrs.map (·.name)).Nodup) : ((n.unlink s).attrs.map (·.name)).Nodup :=
  (List.Sublist.map _ List.filter_sublist).nodup h

theorem Good.remove {f : Forest} (hf : Good f) (pr : Node → Bool) : Good (f.remove pr) := by
  refine ⟨Forest.uniqueKeys_remove hf.keys, fun n hn => ?_⟩
  obtain ⟨m, hm, rfl⟩ := Forest.mem_remove hn
  exact unlink_names (hf.attrs m ((Forest.nodes_prune_sublist _ _).subset hm))

theorem used_remove {f : Forest} {pr : Node → Bool} {k : Nat} (h : f.isUsed k = false) : (f.remove pr).isUsed k = false := by
  by_contra hc
  have := (left_of_used (Bool.eq_true_of_not_eq_false hc)).1
  rw [Used, h] at this
  cases this

theorem remove_node {f : Forest} {pr : Node → Bool} {n : Node} (h : n ∈ (f.remove pr).nodes) :
    ∃ m ∈ f.nodes, n = m.unlink (fun k => decide (k ∈ f.prunedKeys pr)) ∧ pr m = false := by
  obtain ⟨m, hm, rfl⟩ := Forest.mem_remove h
  exact ⟨m, (Forest.nodes_prune_sublist _ _).subset hm, rfl, Forest.mem_prune hm⟩

/-- What can be removed can still be removed afterwards. -/
theorem Drop.keep {f : Forest} {j k : Nat} (hf : Good f) (hj : Drop f j) (h : Drop f k) : Drop (rmKey j f) k := by
  have hc := hj.cut hf
  refine ⟨fun p n ks hx hk => ?_, fun x hx y hy ht => ?_⟩
  · obtain ⟨m, c, h1, rfl, h3, h4, h5, h6⟩ := hc.undrawn hx
    obtain ⟨a, b, d⟩ := h.spot p m c h1 hk
    refine ⟨a, b.imp id h5, fun x hx => ?_⟩
    obtain ⟨y, hy, e⟩ := h4 x hx
    rw [e]
    exact used_remove (d y hy)
  · obtain ⟨m, hm, rfl, _⟩ := remove_node hx
    have hy' : y ∈ m.attrs := List.mem_of_mem_filter hy
    obtain ⟨a, b, d⟩ := h.links m hm y hy' ht
    exact ⟨a, b, hc.blank (Forest.isUsed_iff.2 ⟨_, hx, Node.mem_links.2 ⟨y, hy, ht⟩⟩) d⟩

theorem rmKeys_look {ks : List Nat} {f : Forest} (hf : Good f) (h : ∀ k ∈ ks, Drop f k) : SameLook f (rmKeys ks f) ∧ Good (rmKeys ks f) := by
  induction ks generalizing f with
  | nil => exact ⟨SameLook.refl f, hf⟩
  | cons j ks ih =>
    have hj := h j List.mem_cons_self
    obtain ⟨a, b⟩ := ih (f := rmKey j f) (hf.remove _) (fun k hk => hj.keep hf (h k (List.mem_cons_of_mem _ hk)))
    exact ⟨(hj.look hf).trans a, b⟩

/-! ### Properties that are kept -/

/-- A node with parent and children, and the references to it and its descendants. -/
structure Apart (f : Forest) (p : Kind) (n : Node) (ks : Forest) : Prop where
  gone : gone p n.kind = true
  kids : ∀ m ∈ ks.nodes, f.isUsed m.key = false
  links : ∀ x ∈ f.nodes, ∀ y ∈ x.attrs, y.value.target = some n.key → x.kind = .elem .use ∧ y.name = .id .xlinkHref

/-- The elements that satisfy the test stand where an element that shows nothing has no effect; nothing refers to their
descendants, and only `use` elements refer to them. -/
def Place (q : Node → Bool) (f : Forest) : Prop := ∀ p n ks, (p, n, ks) ∈ spots top f → q n = true → Apart f p n ks

/-- A test that does not become true when references are removed. -/
def Stable (q : Node → Bool) : Prop := ∀ (n : Node) (s : Nat → Bool), (n.attrs.map (·.name)).Nodup → q (n.unlink s) = true → q n = true

/-- A node, unlinked. -/
theorem spots_remove {f : Forest} {pr : Node → Bool} {p : Kind} {n : Node} {ks : Forest} (h : (p, n, ks) ∈ spots top (f.remove pr)) :
    ∃ m k, (p, m, k) ∈ spots top f ∧ n = m.unlink (fun k => decide (k ∈ f.prunedKeys pr)) ∧ pr m = false ∧
      (∀ x ∈ ks.nodes, ∃ y ∈ k.nodes, x.key = y.key) ∧ (k.isEmpty = true → ks.isEmpty = true) := by
  rw [remove_eq] at h
  obtain ⟨m, k, h1, h2, h3, _⟩ := spots_cut h
  cases h3
  refine ⟨m, k, h1, rfl, h2, fun x hx => ?_, fun he => ?_⟩
  · unfold Render.cut at hx
    rw [Forest.nodes_map] at hx
    obtain ⟨y, hy, rfl⟩ := List.mem_map.1 hx
    exact ⟨y, (Forest.nodes_prune_sublist _ _).subset hy, rfl⟩
  · cases k with
    | nil => rfl
    | cons => cases he

theorem Apart.remove {f : Forest} {pr : Node → Bool} {p : Kind} {n m : Node} {ks k : Forest} (h : Apart f p m k)
    (h2 : n = m.unlink (fun k => decide (k ∈ f.prunedKeys pr))) (h4 : ∀ x ∈ ks.nodes, ∃ y ∈ k.nodes, x.key = y.key) : Apart (f.remove pr) p n ks := by
  subst h2
  refine ⟨h.gone, fun x hx => ?_, fun x hx y hy ht => ?_⟩
  · obtain ⟨y, hy, e⟩ := h4 x hx
    rw [e]
    exact used_remove (h.kids y hy)
  · obtain ⟨w, hw, rfl, _⟩ := remove_node hx
    exact h.links w hw y (List.mem_of_mem_filter hy) ht

theorem Place.remove {q : Node → Bool} (hq : Stable q) {f : Forest} (hf : Good f) (h : Place q f) (pr : Node → Bool) : Place q (f.remove pr) := by
  intro p n ks hx hn
  obtain ⟨m, k, h1, h2, h3, h4, h5⟩ := spots_remove hx
  refine (h p m k h1 (hq m _ (hf.attrs m (spots_nodes h1).1) (h2 ▸ hn))).remove h2 h4

theorem spots_unique {f : Forest} (hf : f.UniqueKeys) {p p' : Kind} {n m : Node} {ks k : Forest} (h1 : (p, n, ks) ∈ spots top f)
    (h2 : (p', m, k) ∈ spots top f) (e : n.key = m.key) : (p, n, ks) = (p', m, k) := by
  have : ∀ (f : Forest) (p : Kind), (spots p f).map (fun x => x.2.1.key) = f.keys := by
    intro f
    induction f with
    | nil => intro p; rfl
    | cons n k r ihk ihr => intro p; simp [spots, ihk, ihr]
  have hn : ((spots top f).map (fun x => x.2.1.key)).Nodup := by rw [this]; exact hf
  exact List.inj_on_of_nodup_map hn h1 h2 e

/-- An element that is apart and shows nothing in any context can be removed. -/
theorem Apart.drop {f : Forest} (hf : Good f) {p : Kind} {n : Node} {ks : Forest} (hx : (p, n, ks) ∈ spots top f) (h : Apart f p n ks)
    (hu : unseen p n.kind = true ∨ Undrawn f n ks) (hb : f.isUsed n.key = true → Blank f n.key) : Drop f n.key := by
  refine ⟨fun p' m k hm e => ?_, fun x hx' y hy ht => ?_⟩
  · cases spots_unique hf.keys hm hx e
    exact ⟨h.gone, hu, h.kids⟩
  · obtain ⟨a, b⟩ := h.links x hx' y hy ht
    exact ⟨a, b, hb (Forest.isUsed_iff.2 ⟨x, hx', Node.mem_links.2 ⟨y, hy, ht⟩⟩)⟩

/-! ### Elements that show nothing -/

theorem keys_spots {p : Kind} {f : Forest} {q : Kind} {n : Node} {ks : Forest} (h : (q, n, ks) ∈ spots p f) : n.key ∈ f.keys :=
  Forest.key_mem (spots_nodes h).1

theorem instOf_spots {P : Type} {π : Painter P} {p q : Kind} {f : Forest} (hf : f.UniqueKeys) {l : Node} {lk : Forest} (h : (q, l, lk) ∈ spots p f)
    (env : Env P) (via : Attrs P) (c : Ctx) : instOf π env via c l.key f = some (body π env via c l (pics π env (c.enter l) lk)) := by
  induction f generalizing p with
  | nil => cases h
  | cons n a b iha ihb =>
    obtain ⟨h1, h2, h3, h4, h5⟩ := UnusedDefs.nodup_cons hf
    simp only [spots, List.mem_cons, List.mem_append, Prod.mk.injEq] at h
    simp only [instOf]
    rcases h with ⟨_, rfl, rfl⟩ | h | h
    · simp
    · have hk : l.key ∈ a.keys := keys_spots h
      rw [if_neg (by rintro e; exact h1 (e ▸ hk)), iha h3 h]
      rfl
    · have hk : l.key ∈ b.keys := keys_spots h
      rw [if_neg (by rintro e; exact h2 (e ▸ hk)), instOf_none (fun e => h5 _ e hk), ihb h4 h]
      rfl

theorem hereOf_spots {P : Type} {π : Painter P} {p q : Kind} {f : Forest} (hf : f.UniqueKeys) {l : Node} {lk : Forest} (h : (q, l, lk) ∈ spots p f)
    (env : Env P) (c : Ctx) : ∃ c', hereOf π env l.key c f = some (body π env noVia c' l (pics π env (c'.enter l) lk)) := by
  induction f generalizing p c with
  | nil => cases h
  | cons n a b iha ihb =>
    obtain ⟨h1, h2, h3, h4, h5⟩ := UnusedDefs.nodup_cons hf
    simp only [spots, List.mem_cons, List.mem_append, Prod.mk.injEq] at h
    simp only [hereOf]
    rcases h with ⟨_, rfl, rfl⟩ | h | h
    · exact ⟨_, by rw [if_pos rfl]⟩
    · have hk : l.key ∈ a.keys := keys_spots h
      obtain ⟨c', e⟩ := iha h3 h (c.enter n)
      exact ⟨c', by rw [if_neg (by rintro e; exact h1 (e ▸ hk)), e]; rfl⟩
    · have hk : l.key ∈ b.keys := keys_spots h
      obtain ⟨c', e⟩ := ihb h4 h c
      exact ⟨c', by rw [if_neg (by rintro e; exact h2 (e ▸ hk)), hereOf_none (fun e => h5 _ e hk), e]; rfl⟩

/-- The element shows nothing, in all scenes. -/
def Nothing (f : Forest) (n : Node) (ks : Forest) : Prop :=
  ∀ (P : Type) (π : Painter P) (d : Nat) (c : Ctx) (via : Attrs P),
    body π (scene π f d) via c n (pics π (scene π f d) (c.enter n) ks) = π.empty

theorem Nothing.undrawn {f : Forest} {n : Node} {ks : Forest} (h : Nothing f n ks) : Undrawn f n ks := by
  intro P π d c _
  unfold draw
  split
  · rfl
  · exact h P π d c _

theorem Nothing.blank {f : Forest} (hf : f.UniqueKeys) {p : Kind} {n : Node} {ks : Forest} (hx : (p, n, ks) ∈ spots top f) (h : Nothing f n ks) :
    Blank f n.key := by
  intro P π d c via _
  cases d with
  | zero => rfl
  | succ d =>
    show (instOf π (scene π f d) via c n.key f).getD π.empty = _
    rw [instOf_spots hf hx]
    exact h P π d c via

theorem Nothing.void {f : Forest} (hf : f.UniqueKeys) {p : Kind} {n : Node} {ks : Forest} (hx : (p, n, ks) ∈ spots top f) (h : Nothing f n ks) :
    Void f n.key := by
  intro P π d
  cases d with
  | zero => rfl
  | succ d =>
    show (hereOf π (scene π f d) n.key Ctx.start f).getD π.empty = _
    obtain ⟨c, e⟩ := hereOf_spots hf hx (π := π) (scene π f d) Ctx.start
    rw [e]
    exact h P π d c _

theorem Apart.drop_nothing {f : Forest} (hf : Good f) {p : Kind} {n : Node} {ks : Forest} (hx : (p, n, ks) ∈ spots top f) (h : Apart f p n ks)
    (hb : Nothing f n ks) : Drop f n.key := h.drop hf hx (.inr hb.undrawn) (fun _ => hb.blank hf.keys hx)

/-- No filter is applied to the element. -/
def unfiltered (n : Node) : Bool := match n.get .filter with | some (.funcLink _) => false | _ => true

theorem unfiltered_ref {P : Type} {n : Node} (h : unfiltered n = true) (env : Env P) : Seen.isRef (seenAttr env n .filter) = false := by
  unfold seenAttr
  unfold unfiltered at h
  split at h
  · cases h
  next h1 =>
    cases hg : n.get .filter with
    | none => rfl
    | some v =>
      rw [hg] at h1
      simp only [Option.map_some]
      unfold seeFunc
      split
      next k => exact absurd rfl (h1 k)
      next => rfl

/-- An element whose content is empty shows nothing unless a filter is applied to it. -/
theorem nothing_of_core {f : Forest} {n : Node} {ks : Forest} {e : EId} (he : n.kind = .elem e) (hu : unfiltered n = true)
    (h : ∀ (P : Type) (π : Painter P) (d : Nat) (c : Ctx) (via : Attrs P), core π (scene π f d) via c n e (pics π (scene π f d) c ks) = π.empty) :
    Nothing f n ks := by
  intro P π d c via
  rw [body_elem he]
  have : inner π (scene π f d) via c n e (pics π (scene π f d) (c.enter n) ks) = π.empty := by
    unfold inner
    rw [h, π.effect_empty _ _ _ _ (unfiltered_ref hu _)]
  rw [this, π.fade_empty]
  simp

theorem getAttr_unlink_some {n : Node} {s : Nat → Bool} (hn : (n.attrs.map (·.name)).Nodup) {x : AName} {y : Attr}
    (h : getAttr (n.unlink s).attrs x = some y) : getAttr n.attrs x = some y := by
  have hm : y ∈ n.attrs := List.mem_of_mem_filter (getAttr_mem h)
  have := GradUnits.getAttr_of_mem hn hm
  rwa [getAttr_name h] at this

theorem get_unlink_some {n : Node} {s : Nat → Bool} (hn : (n.attrs.map (·.name)).Nodup) {a : AId} {v : Value}
    (h : (n.unlink s).get a = some v) : n.get a = some v := by
  unfold Node.get at *
  cases hx : getAttr (n.unlink s).attrs (.id a) with
  | none => rw [hx] at h; cases h
  | some y => rw [hx] at h; rw [getAttr_unlink_some hn hx]; exact h

theorem get_unlink_plain {n : Node} {s : Nat → Bool} (hn : (n.attrs.map (·.name)).Nodup) {a : AId} {v : Value}
    (h : n.get a = some v) (hv : v.target = none) : (n.unlink s).get a = some v := by
  unfold Node.get at *
  cases hx : getAttr n.attrs (.id a) with
  | none => rw [hx] at h; cases h
  | some y =>
    rw [hx] at h
    rw [getAttr_unlink, hx]
    · exact h
    · intro z hz he k hk
      have := GradUnits.getAttr_of_mem hn hz
      rw [he, hx] at this
      cases this
      simp only [Option.map_some, Option.some.injEq] at h
      rw [h, hv] at hk
      cases hk

theorem unfiltered_unlink {n : Node} {s : Nat → Bool} (hn : (n.attrs.map (·.name)).Nodup) (h : unfiltered n = true) : unfiltered (n.unlink s) = true := by
  unfold unfiltered at *
  split
  next k hk => rw [get_unlink_some hn hk] at h; cases h
  next => rfl

/-! ### Hidden elements -/

theorem hidden_spots {f g : Forest} {p : Kind} {k : Nat} (h : k ∈ hiddenKeys f g) :
    ∃ q n ks, (q, n, ks) ∈ spots p g ∧ n.key = k ∧ n.isSvgElem = true ∧ hiddenBy n = true ∧ f.isUsed n.key = false ∧
      ∀ m ∈ ks.nodes, f.isUsed m.key = false := by
  induction g generalizing p with
  | nil => cases h
  | cons n c r ihc ihr =>
    simp only [hiddenKeys, List.mem_append] at h
    simp only [spots, List.mem_cons, List.mem_append]
    rcases h with h | h
    · split at h
      next hs =>
        split at h
        next hh =>
          split at h
          · cases h
          next hu =>
            simp only [List.mem_singleton] at h
            subst h
            simp only [Bool.and_eq_true] at hh
            simp only [List.any_cons, Bool.or_eq_true, List.any_eq_true, not_or, not_exists, not_and, Bool.not_eq_true] at hu
            exact ⟨p, n, c, .inl rfl, rfl, hs, hh.1, hu.1, fun m hm => hu.2 _ (Forest.key_mem hm)⟩
        next =>
          obtain ⟨q, m, ks, h1, h2⟩ := ihc (p := n.kind) h
          exact ⟨q, m, ks, .inr (.inl h1), h2⟩
      next => cases h
    · obtain ⟨q, m, ks, h1, h2⟩ := ihr (p := p) h
      exact ⟨q, m, ks, .inr (.inr h1), h2⟩

theorem undrawn_hidden {n : Node} (hs : n.isSvgElem = true) (hh : hiddenBy n = true) (f : Forest) (ks : Forest) : Undrawn f n ks := by
  intro P π d c _
  unfold draw
  split
  · rfl
  next hn =>
    cases hk : n.kind with
    | elem e =>
      rw [hk] at hn
      rw [body_elem hk, hh]
      simp [hn]
    | _ => simp [Node.isSvgElem, hk] at hs

theorem drop_unused {f : Forest} (hf : Good f) {p : Kind} {n : Node} {ks : Forest} (hx : (p, n, ks) ∈ spots top f) (hg : gone p n.kind = true)
    (hu : unseen p n.kind = true ∨ Undrawn f n ks) (h1 : f.isUsed n.key = false) (h2 : ∀ m ∈ ks.nodes, f.isUsed m.key = false) : Drop f n.key := by
  refine Apart.drop hf hx ⟨hg, h2, fun x hx' y hy ht => ?_⟩ hu (fun h => by rw [h1] at h; cases h)
  rw [Forest.isUsed_iff.2 ⟨x, hx', Node.mem_links.2 ⟨y, hy, ht⟩⟩] at h1
  cases h1

/-- **C38**, elements with `display="none"`: removing them keeps the picture, if they stand where `display` means something. -/
theorem C38_display_partial {f : Forest} (hf : Good f)
    (h : ∀ p n ks, (p, n, ks) ∈ spots top f → hiddenBy n = true → f.isUsed n.key = false → gone p n.kind = true) :
    SameLook f (displayStep f).1 := by
  refine (rmKeys_look hf (fun k hk => ?_)).1
  obtain ⟨q, n, ks, h1, rfl, h3, h4, h5, h6⟩ := hidden_spots (p := top) hk
  exact drop_unused hf h1 (h q n ks h1 h4 h5) (.inr (undrawn_hidden h3 h4 f ks)) h5 h6

/-! ### Walking through the tree -/

theorem subtree_spots {f : Forest} {k : Nat} {n : Node} {ks : Forest} (p : Kind) (h : subtree k f = some (n, ks)) :
    n.key = k ∧ ∃ q, (q, n, ks) ∈ spots p f := by
  induction f generalizing p with
  | nil => cases h
  | cons m c r ihc ihr =>
    simp only [subtree] at h
    simp only [spots, List.mem_cons, List.mem_append]
    split at h
    next he => cases h; exact ⟨he, p, .inl rfl⟩
    next =>
      cases hc : subtree k c with
      | some x =>
        rw [hc] at h
        cases h
        obtain ⟨a, q, b⟩ := ihc m.kind hc
        exact ⟨a, q, .inr (.inl b)⟩
      | none =>
        rw [hc] at h
        obtain ⟨a, q, b⟩ := ihr p h
        exact ⟨a, q, .inr (.inr b)⟩

theorem drain_look {q : Node → Forest → Bool} {I : Forest → Prop} (h1 : ∀ g, I g → Good g)
    (h2 : ∀ g p n ks, I g → (p, n, ks) ∈ spots top g → q n ks = true → Drop g n.key ∧ I (rmKey n.key g)) {f : Forest} (hf : I f) :
    SameLook f (drain q f).1 ∧ I (drain q f).1 := by
  unfold drain
  have : ∀ (l : List Nat) (g : Forest × Bool), I g.1 → SameLook g.1 (l.foldl (fun g k => match subtree k g.1 with
      | some (n, ks) => if q n ks then (rmKey k g.1, true) else g
      | none => g) g).1 ∧ I (l.foldl (fun g k => match subtree k g.1 with
      | some (n, ks) => if q n ks then (rmKey k g.1, true) else g
      | none => g) g).1 := by
    intro l
    induction l with
    | nil => exact fun g hg => ⟨SameLook.refl _, hg⟩
    | cons k l ih =>
      intro g hg
      rw [List.foldl_cons]
      cases hs : subtree k g.1 with
      | none => exact ih g hg
      | some x =>
        obtain ⟨n, ks⟩ := x
        simp only
        cases hq : q n ks with
        | false => simpa using ih g hg
        | true =>
          obtain ⟨e, p, hp⟩ := subtree_spots top hs
          obtain ⟨hd, hi⟩ := h2 g.1 p n ks hg hp hq
          rw [e] at hd hi
          obtain ⟨a, b⟩ := ih (rmKey k g.1, true) hi
          simp only [if_true]
          exact ⟨(hd.look (h1 _ hg)).trans a, b⟩
  exact this f.keys (f, false) hf

/-- What a step needs of the elements that it looks for. -/
structure Ready (q : Node → Bool) (f : Forest) : Prop where
  good : Good f
  place : Place q f
  plain : ∀ n ∈ f.nodes, q n = true → unfiltered n = true

theorem Ready.remove {q : Node → Bool} (hq : Stable q) {f : Forest} (h : Ready q f) (pr : Node → Bool) : Ready q (f.remove pr) := by
  refine ⟨h.good.remove pr, h.place.remove hq h.good pr, fun n hn hqn => ?_⟩
  obtain ⟨m, hm, rfl, _⟩ := remove_node hn
  exact unfiltered_unlink (h.good.attrs m hm) (h.plain m hm (hq m _ (h.good.attrs m hm) hqn))

/-! ### Paths without segments -/

theorem emptyPath_stable : Stable (emptyPath · .nil) := by
  intro n s hn h
  simp only [emptyPath, Bool.and_eq_true] at h ⊢
  refine ⟨h.1, ?_⟩
  have h2 := h.2
  split
  next d hd =>
    rw [get_unlink_plain hn hd rfl] at h2
    exact h2
  next => rfl

theorem emptyPath_nothing {n : Node} (h : emptyPath n .nil = true) (hu : unfiltered n = true) (f ks : Forest) : Nothing f n ks := by
  simp only [emptyPath, Bool.and_eq_true] at h
  refine nothing_of_core ((Node.isTag_iff _ _).1 h.1) hu (fun P π d c via => ?_)
  show π.paint .path _ _ _ _ = π.empty
  refine π.no_path _ _ _ _ (fun s p hs => ?_)
  have h2 := h.2
  unfold own at hs
  rw [if_pos (by decide)] at hs
  unfold Node.get at h2
  cases hx : getAttr n.attrs (.id .d) with
  | none => rw [hx] at hs; cases hs
  | some y =>
    rw [hx] at hs h2
    simp only [Option.map_some, Option.some.injEq, see] at hs h2
    split at hs
    · cases hs
    · simp only [Seen.plain.injEq] at hs
      rw [hs] at h2
      simp at h2

/-- **C38**, paths without segments. -/
theorem C38_paths_partial {f : Forest} (hf : Ready (emptyPath · .nil) f) : SameLook f (pathStep f).1 :=
  (drain_look (I := Ready (emptyPath · .nil)) (fun _ h => h.good) (fun g p n ks hg hx hq =>
    ⟨(hg.place p n ks hx hq).drop_nothing hg.good hx (emptyPath_nothing hq (hg.plain n (spots_nodes hx).1 hq) g ks),
      hg.remove emptyPath_stable _⟩) hf).1

/-! ### Rectangles of size zero -/

theorem zero_stable {a : AId} {n : Node} {s : Nat → Bool} (hn : (n.attrs.map (·.name)).Nodup)
    (h : (match (n.unlink s).get a with | some (.length l) => decide (l.num = 0) | _ => false) = true) :
    (match n.get a with | some (.length l) => decide (l.num = 0) | _ => false) = true := by
  split at h
  next l hl => rw [get_unlink_some hn hl]; exact h
  next => cases h

theorem emptyRect_stable : Stable (emptyRect · .nil) := by
  intro n s hn h
  simp only [emptyRect, Bool.and_eq_true, Bool.or_eq_true] at h ⊢
  exact ⟨h.1, h.2.imp (zero_stable hn) (zero_stable hn)⟩

theorem zero_own {P : Type} (env : Env P) {n : Node} {a : AId} (ha : isOwn (.id a) = true)
    (h : (match n.get a with | some (.length l) => decide (l.num = 0) | _ => false) = true) :
    ∃ u, own env n (.id a) = some (.plain (.length ⟨0, u⟩)) := by
  split at h
  next l hl =>
    refine ⟨l.unit, ?_⟩
    simp only [decide_eq_true_eq] at h
    unfold own
    rw [if_pos ha]
    unfold Node.get at hl
    cases hx : getAttr n.attrs (.id a) with
    | none => rw [hx] at hl; cases hl
    | some y =>
      rw [hx] at hl
      simp only [Option.map_some, Option.some.injEq] at hl ⊢
      rw [hl]
      show Seen.plain (.length l) = _
      rw [← h]
  next => cases h

theorem emptyRect_nothing {n : Node} (h : emptyRect n .nil = true) (hu : unfiltered n = true) (f ks : Forest) : Nothing f n ks := by
  simp only [emptyRect, Bool.and_eq_true, Bool.or_eq_true] at h
  refine nothing_of_core ((Node.isTag_iff _ _).1 h.1) hu (fun P π d c via => ?_)
  show π.paint .rect _ _ _ _ = π.empty
  rcases h.2 with h | h
  · obtain ⟨u, hu⟩ := zero_own (scene π f d) (by decide) h
    exact π.no_rect _ _ _ _ u (.inl hu)
  · obtain ⟨u, hu⟩ := zero_own (scene π f d) (by decide) h
    exact π.no_rect _ _ _ _ u (.inr hu)

/-- **C38**, rectangles of width or height zero. -/
theorem C38_rects_partial {f : Forest} (hf : Ready (emptyRect · .nil) f) : SameLook f (rectStep f).1 :=
  (drain_look (I := Ready (emptyRect · .nil)) (fun _ h => h.good) (fun g p n ks hg hx hq =>
    ⟨(hg.place p n ks hx hq).drop_nothing hg.good hx (emptyRect_nothing hq (hg.plain n (spots_nodes hx).1 hq) g ks),
      hg.remove emptyRect_stable _⟩) hf).1

/-! ### `use` elements without a reference, and filters that do nothing -/

/-- The elements that satisfy the test are not referred to, nor are their descendants; they stand where an element that shows
nothing has no effect. -/
structure Idle (q : Node → Forest → Bool) (f : Forest) : Prop where
  good : Good f
  place : ∀ p n ks, (p, n, ks) ∈ spots top f → q n ks = true → gone p n.kind = true ∧ f.isUsed n.key = false ∧ ∀ m ∈ ks.nodes, f.isUsed m.key = false

theorem unlink_id {n : Node} {s : Nat → Bool} (h : ∀ k ∈ n.links, s k = false) : n.unlink s = n := by
  have : (n.unlink s).attrs = n.attrs := by
    refine List.filter_eq_self.2 (fun y hy => ?_)
    cases ht : y.value.target with
    | none => rfl
    | some k => simp [h k (Node.mem_links.2 ⟨y, hy, ht⟩)]
  exact congrArg (fun as => ({ n with attrs := as } : Node)) this

theorem pruned_unused {f : Forest} {k : Nat} {p : Kind} {n : Node} {ks : Forest} (hf : f.UniqueKeys) (hx : (p, n, ks) ∈ spots top f) (hk : n.key = k)
    (h1 : f.isUsed n.key = false) (h2 : ∀ m ∈ ks.nodes, f.isUsed m.key = false) : ∀ j ∈ f.prunedKeys (fun m => decide (m.key = k)), f.isUsed j = false := by
  intro j hj
  obtain ⟨x, hx', he⟩ := mem_prunedKeys top hj
  obtain ⟨a, b⟩ := cuts_spots hx'
  have b : x.2.1.key = k := by simpa using b
  have := spots_unique hf hx (show (x.1, x.2.1, x.2.2) ∈ _ from a) (hk.trans b.symm)
  cases this
  rcases he with rfl | he
  · exact h1
  · obtain ⟨m, hm, rfl⟩ := Forest.mem_keys.1 he
    exact h2 m hm

theorem unlink_pruned {f : Forest} {pr : Node → Bool} (h : ∀ j ∈ f.prunedKeys pr, f.isUsed j = false) {n : Node} (hn : n ∈ f.nodes) :
    n.unlink (fun k => decide (k ∈ f.prunedKeys pr)) = n := by
  refine unlink_id (fun k hk => ?_)
  simp only [decide_eq_false_iff_not]
  intro hc
  have := h k hc
  rw [Forest.isUsed_iff.2 ⟨n, hn, hk⟩] at this
  cases this

theorem Idle.remove {q : Node → Bool} {f : Forest} (h : Idle (fun n _ => q n) f) {p : Kind} {n : Node} {ks : Forest} (hx : (p, n, ks) ∈ spots top f)
    (hq : q n = true) : Idle (fun n _ => q n) (rmKey n.key f) := by
  obtain ⟨_, h1, h2⟩ := h.place p n ks hx hq
  refine ⟨h.good.remove _, fun p' m k hm hqm => ?_⟩
  obtain ⟨m', k', a, b, c, d, _⟩ := spots_remove hm
  have := unlink_pruned (pruned_unused h.good.keys hx rfl h1 h2) (spots_nodes a).1
  rw [this] at b
  subst b
  obtain ⟨u, v, w⟩ := h.place p' m k' a hqm
  refine ⟨u, used_remove v, fun x hx => ?_⟩
  obtain ⟨y, hy, e⟩ := d x hx
  rw [e]
  exact used_remove (w y hy)

theorem emptyUse_nothing {n : Node} (h : emptyUse n .nil = true) (hu : unfiltered n = true) (f ks : Forest) : Nothing f n ks := by
  simp only [emptyUse, Bool.and_eq_true, Bool.not_eq_true'] at h
  refine nothing_of_core ((Node.isTag_iff _ _).1 h.1) hu (fun P π d c via => ?_)
  show useOf π _ c n = π.empty
  have : n.get .xlinkHref = none := by
    have := h.2
    rw [Node.has_eq] at this
    simpa using this
  unfold useOf
  rw [this]

/-- **C38**, `use` elements without a reference. -/
theorem C38_uses_partial {f : Forest} (hf : Idle emptyUse f) (hu : ∀ n ∈ f.nodes, emptyUse n .nil = true → unfiltered n = true) :
    SameLook f (useStep f).1 := by
  refine (drain_look (I := fun g => Idle emptyUse g ∧ ∀ n ∈ g.nodes, emptyUse n .nil = true → unfiltered n = true) (fun _ h => h.1.good)
    (fun g p n ks hg hx hq => ?_) ⟨hf, hu⟩).1
  obtain ⟨a, b, c⟩ := hg.1.place p n ks hx hq
  refine ⟨drop_unused hg.1.good hx a (.inr (emptyUse_nothing hq (hg.2 n (spots_nodes hx).1 hq) g ks).undrawn) b c, Idle.remove (q := (emptyUse · .nil)) hg.1 hx hq,
    fun m hm hqm => ?_⟩
  obtain ⟨m', hm', rfl, _⟩ := remove_node hm
  have := unlink_pruned (pruned_unused hg.1.good.keys hx rfl b c) hm'
  rw [this] at hqm ⊢
  exact hg.2 m' hm' hqm

end Verif.Invisible
