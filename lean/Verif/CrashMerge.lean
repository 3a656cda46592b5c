import Verif.CrashGrad
/-
C53: merging gradients.
-/
namespace Verif.Crash
open Verif.Dom Verif.Spec
open Verif.Dom (Res)
open Verif.Pipeline
open Verif.Merge
open Verif.UnusedDefs (kidsOf_subs subs_kidsOf)

/-- What is in a document after the children of a node have been replaced. -/
theorem subs_setKids {f : Forest} {d : Nat} {c : Forest} {y : Node × Forest} (h : y ∈ subs (f.setKids d c)) :
    y ∈ subs c ∨ ∃ x ∈ subs f, y.1 = x.1 ∧ y.2 = if x.1.key = d then c else x.2.setKids d c := by
  induction f with
  | nil => simp [Forest.setKids, subs] at h
  | cons n k r ih1 ih2 =>
    rw [Forest.setKids] at h
    have up1 : (y ∈ subs c ∨ ∃ x ∈ subs k, y.1 = x.1 ∧ y.2 = if x.1.key = d then c else x.2.setKids d c) →
        y ∈ subs c ∨ ∃ x ∈ subs (.cons n k r), y.1 = x.1 ∧ y.2 = if x.1.key = d then c else x.2.setKids d c := by
      rintro (h | ⟨x, hx, e⟩)
      · exact .inl h
      · exact .inr ⟨x, by simp [subs, hx], e⟩
    have up2 : (y ∈ subs c ∨ ∃ x ∈ subs r, y.1 = x.1 ∧ y.2 = if x.1.key = d then c else x.2.setKids d c) →
        y ∈ subs c ∨ ∃ x ∈ subs (.cons n k r), y.1 = x.1 ∧ y.2 = if x.1.key = d then c else x.2.setKids d c := by
      rintro (h | ⟨x, hx, e⟩)
      · exact .inl h
      · exact .inr ⟨x, by simp [subs, hx], e⟩
    split at h
    next e =>
      simp only [subs, List.mem_cons, List.mem_append] at h
      rcases h with rfl | h | h
      · exact .inr ⟨(n, k), by simp [subs], rfl, by rw [if_pos e]⟩
      · exact .inl h
      · exact up2 (ih2 h)
    next e =>
      simp only [subs, List.mem_cons, List.mem_append] at h
      rcases h with rfl | h | h
      · exact .inr ⟨(n, k), by simp [subs], rfl, by rw [if_neg e]⟩
      · exact up1 (ih1 h)
      · exact up2 (ih2 h)

theorem keys_setKids_or {f : Forest} {d : Nat} {c : Forest} {j : Nat} (h : j ∈ (f.setKids d c).keys) : j ∈ f.keys ∨ (j ∈ c.keys ∧ d ∈ f.keys) := by
  induction f with
  | nil => simp [Forest.setKids] at h
  | cons n k r ih1 ih2 =>
    rw [Forest.setKids] at h
    split at h
    next e =>
      simp only [Forest.keys_cons, List.mem_cons, List.mem_append] at h ⊢
      rcases h with h | h | h
      · exact .inl (.inl h)
      · exact .inr ⟨h, .inl e.symm⟩
      · rcases ih2 h with h | ⟨h1, h2⟩
        · exact .inl (.inr (.inr h))
        · exact .inr ⟨h1, .inr (.inr h2)⟩
    next e =>
      simp only [Forest.keys_cons, List.mem_cons, List.mem_append] at h ⊢
      rcases h with h | h | h
      · exact .inl (.inl h)
      · rcases ih1 h with h | ⟨h1, h2⟩
        · exact .inl (.inr (.inl h))
        · exact .inr ⟨h1, .inr (.inl h2)⟩
      · rcases ih2 h with h | ⟨h1, h2⟩
        · exact .inl (.inr (.inr h))
        · exact .inr ⟨h1, .inr (.inr h2)⟩

section
variable {C : Ctx}

/-- A gradient is in nothing but the root element and `defs`. -/
theorem Inv.gradTop {f : Forest} (h : Inv C f) {x : Node × Forest} (hx : x ∈ subs f) {n : Node} (hn : n ∈ f.nodes) (hg : gradKind n.kind = true) (hk : n.key ∈ x.2.keys) :
    x.1.key = C.s ∨ x.1.key = C.d := by
  by_contra hc
  push Not at hc
  have := ((h.trees x hx).below hc.1 hc.2 _ hk).1
  rw [← (h.nodes n hn).kind.def, gradKind_def hg] at this
  cases this

theorem Inv.gradNot {f : Forest} (h : Inv C f) {n : Node} (hn : n ∈ f.nodes) (hg : gradKind n.kind = true) : n.key ≠ C.s ∧ n.key ≠ C.d := by
  constructor
  · intro e; rw [h.kindS hn e] at hg; cases hg
  · intro e; rw [h.kindD hn e] at hg; cases hg

theorem Inv.inside {f : Forest} (h : Inv C f) {x : Node} (hx : x ∈ f.nodes) (hg : x.isGradient = true) {c : Forest} (hc : f.kidsOf x.key = some c)
    {y : Node} (hy : y ∈ f.nodes) (hyg : y.isGradient = true) : y.key ∉ c.keys := by
  intro hk
  obtain ⟨x', e, hs⟩ := subs_kidsOf hc
  have hx' := subs_nodes hs
  obtain rfl := Forest.eq_of_key h.unique hx' hx e
  rw [← gradKind_eq] at hg hyg
  rcases h.gradTop hs hy hyg hk with e | e
  · exact (h.gradNot hx hg).1 e
  · exact (h.gradNot hx hg).2 e

/-- Each gradient has either stops or a reference, except for some. -/
def EarlyBut (T : List Nat) (f : Forest) : Prop := ∀ x ∈ subs f, gradKind x.1.kind = true → x.1.key ∉ T → (x.1.has .xlinkHref = true ↔ x.2.top = [])

/-- The children of a gradient move to another one that has none. -/
theorem Inv.moveKids {f : Forest} (h : Inv C f) (he : ¬ C.early) {n m : Node} (hn : n ∈ f.nodes) (hng : gradKind n.kind = true) (hm : m ∈ f.nodes)
    (hmg : gradKind m.kind = true) (hne : n.key ≠ m.key) {c : Forest} (hcn : f.kidsOf n.key = some .nil) (hc : f.kidsOf m.key = some c) :
    Inv C (Merge.moveKids n m f) ∧ (Merge.moveKids n m f).nodes.Perm f.nodes ∧
    (∀ y ∈ subs (Merge.moveKids n m f), (y.1 = n ∧ y.2 = c) ∨ (y.1 = m ∧ y.2 = .nil) ∨ (y.1 ≠ n ∧ y.1 ≠ m ∧ ∃ x ∈ subs f, y.1 = x.1 ∧ y.2.top = x.2.top)) := by
  have hmv := Merge.moved h.unique (fun h1 h2 _ h3 _ h4 h5 => h.inside h1 h2 h3 h4 h5) hn (by rw [← gradKind_eq]; exact hng) hm (by rw [← gradKind_eq]; exact hmg) hne
  have hp := hmv.nodes
  have eq : Merge.moveKids n m f = (f.setKids m.key .nil).setKids n.key c := by unfold Merge.moveKids; rw [hcn, hc]
  obtain ⟨m', em, sm⟩ := subs_kidsOf hc
  obtain rfl := Forest.eq_of_key h.unique (subs_nodes sm) hm em
  dsimp only at sm em
  have hu : (Merge.moveKids n m' f).UniqueKeys := by
    have : (Merge.moveKids n m' f).keys.Perm f.keys := hp.map Node.key
    exact this.nodup_iff.2 h.unique
  have inC : ∀ y ∈ subs c, y ∈ subs f := fun y hy => UnusedDefs.subs_trans sm hy
  have cN : n.key ∉ c.keys := h.inside hm (by rw [← gradKind_eq]; exact hmg) hc hn (by rw [← gradKind_eq]; exact hng)
  have cM : m'.key ∉ c.keys := h.inside hm (by rw [← gradKind_eq]; exact hmg) hc hm (by rw [← gradKind_eq]; exact hmg)
  have tm := h.trees _ sm
  have nm := h.gradNot hm hmg
  have nn := h.gradNot hn hng
  -- what is there now
  have key : ∀ y ∈ subs (Merge.moveKids n m' f), (y ∈ subs c) ∨ (y.1 = n ∧ y.2 = c) ∨ (y.1 = m' ∧ y.2 = .nil) ∨
      (y.1 ≠ n ∧ y.1 ≠ m' ∧ ∃ x ∈ subs f, y.1 = x.1 ∧ y.2 = (x.2.setKids m'.key .nil).setKids n.key c) := by
    intro y hy
    rw [eq] at hy
    rcases subs_setKids hy with hy | ⟨x, hx, e1, e2⟩
    · exact .inl hy
    · rcases subs_setKids hx with hx | ⟨z, hz, e3, e4⟩
      · simp [subs] at hx
      · by_cases h1 : x.1.key = n.key
        · rw [if_pos h1] at e2
          refine .inr (.inl ⟨?_, e2⟩)
          rw [e1, e3]
          exact Forest.eq_of_key h.unique (subs_nodes hz) hn (by rw [← e3]; exact h1)
        · rw [if_neg h1] at e2
          by_cases h2 : z.1.key = m'.key
          · rw [if_pos h2] at e4
            refine .inr (.inr (.inl ⟨?_, ?_⟩))
            · rw [e1, e3]
              exact Forest.eq_of_key h.unique (subs_nodes hz) hm h2
            · rw [e2, e4]; rfl
          · rw [if_neg h2] at e4
            refine .inr (.inr (.inr ⟨?_, ?_, z, hz, e1.trans e3, by rw [e2, e4]⟩))
            · rw [e1]; rintro e; exact h1 (by rw [e])
            · rw [e1, e3]; rintro e; exact h2 (by rw [e])
  refine ⟨⟨hu, ?_, fun x hx => h.nodes x (hp.mem_iff.1 hx), fun y hy => ?_, ?_, by rw [hp.length_eq]; exact h.count, fun hq x hx hg y hy => ?_⟩, hp, fun y hy => ?_⟩
  · intro x hx k hk
    have := h.links x (hp.mem_iff.1 hx) k hk
    exact (hp.map Node.key).mem_iff.2 this
  · rcases key y hy with hy | ⟨e1, e2⟩ | ⟨e1, e2⟩ | ⟨e1, e2, x, hx, e3, e4⟩
    · exact h.trees y (inC y hy)
    · rw [e1, e2]
      refine ⟨fun e => ?_, fun e => ?_, fun _ => tm.stops hmg, fun e => absurd e he, fun _ _ j hj => ?_⟩
      · rw [e] at hng; cases hng
      · rw [e] at hng; cases hng
      · obtain ⟨p1, p2, p3, _⟩ := tm.below nm.1 nm.2 j hj
        exact ⟨p1, p2, p3, fun e => by rw [hng] at e; cases e⟩
    · rw [e1, e2]
      refine ⟨fun e => ?_, fun e => rfl, fun _ m hm => (by cases hm), fun e => absurd e he, fun _ _ j hj => (by simp at hj)⟩
      rw [e] at hmg; cases hmg
    · have tx := h.trees x hx
      rw [e3]
      have et : y.2.top = x.2.top := by rw [e4, top_setKids, top_setKids]
      have ek : ∀ j ∈ y.2.keys, j ∈ x.2.keys ∨ n.key ∈ x.2.keys := by
        intro j hj
        rw [e4] at hj
        rcases keys_setKids_or hj with hj | ⟨_, hj⟩
        · rcases keys_setKids_or hj with hj | ⟨hj, _⟩
          · exact .inl hj
          · simp at hj
        · rcases keys_setKids_or hj with hj | ⟨hj, _⟩
          · exact .inr hj
          · simp at hj
      refine ⟨fun e m hm => tx.group e m (et ▸ hm), fun e => ?_, fun e m hm => tx.stops e m (et ▸ hm), fun e => absurd e he, fun h1 h2 j hj => ?_⟩
      · have := tx.leaf e
        rw [List.eq_nil_iff_forall_not_mem]
        intro j hj
        rcases ek j hj with hj | hj
        · rw [this] at hj; cases hj
        · rw [this] at hj; cases hj
      · rcases ek j hj with hj | hj
        · exact tx.below h1 h2 j hj
        · rcases h.gradTop hx hn hng hj with e | e
          · exact absurd e h1
          · exact absurd e h2
  · rw [eq]
    exact anchored_setKids (anchored_setKids h.root nm.1) nn.1
  · exact h.ids hq x (hp.mem_iff.1 hx) hg y (hp.mem_iff.1 hy)
  · rcases key y hy with hy | h1 | h1 | ⟨e1, e2, x, hx, e3, e4⟩
    · have hk := Forest.key_mem (subs_nodes hy)
      exact .inr (.inr ⟨fun e => cN (e ▸ hk), fun e => cM (by rw [show y.1 = m' from e] at hk; exact hk), y, inC y hy, rfl, rfl⟩)
    · exact .inl h1
    · exact .inr (.inl h1)
    · exact .inr (.inr ⟨e1, e2, x, hx, e3, by rw [e4, top_setKids, top_setKids]⟩)

/-- A gradient that waits for being removed. -/
def Spent (C : Ctx) (f : Forest) (t : Nat) : Prop := gradKind (C.kind t) = true ∧ f.isUsed t = false ∧ ∀ x ∈ subs f, x.1.key = t → x.1.has .xlinkHref = false ∧ x.2.top = []

/-- In the middle of a round. -/
structure Merging (C : Ctx) (f : Forest) (T : List Nat) : Prop where
  inv : Inv C f
  early : EarlyBut T f
  spent : ∀ t ∈ T, Spent C f t
  there : ∀ t ∈ T, t ∈ f.keys

theorem has_joined (m n : Node) (a : AId) : (joined m n).has a = if a = .xlinkHref then false else n.has a := by
  rw [Node.has_eq]
  split
  next e => rw [e, get_joined_href]; rfl
  next e => rw [get_joined m n e, ← Node.has_eq]

theorem keys_nil {f : Forest} (h : f.top = []) : f = .nil := by
  cases f with
  | nil => rfl
  | cons n k r => cases h

theorem reveal_attrs (m : Node) (l : List AId) (n : Node) : ∀ x ∈ (reveal m l n).attrs, ∃ y ∈ n.attrs, y.name = x.name ∧ y.value = x.value := by
  induction l generalizing n with
  | nil => exact fun x hx => ⟨x, hx, rfl, rfl⟩
  | cons a l ih =>
    intro x hx
    rw [reveal_cons] at hx
    obtain ⟨y, hy, e1, e2⟩ := ih _ x hx
    split at hy
    · obtain ⟨z, hz, rfl⟩ := List.mem_map.1 (show y ∈ n.attrs.map _ from hy)
      refine ⟨z, hz, ?_, ?_⟩
      · rw [← e1]; split <;> rfl
      · rw [← e2]; split <;> rfl
    · exact ⟨y, hy, e1, e2⟩

theorem hrefs_reveal (m : Node) (l : List AId) (n : Node) : hrefs (reveal m l n) = hrefs n := by
  induction l generalizing n with
  | nil => rfl
  | cons a l ih =>
    rw [reveal_cons, ih]
    split
    · show (List.filter _ (n.attrs.map _)).length = _
      rw [List.filter_map, List.length_map]
      refine congrArg _ (List.filter_congr fun x _ => ?_)
      simp only [Function.comp]
      split <;> rfl
    · rfl

theorem hrefs_joined (m n : Node) : hrefs (joined m n) ≤ hrefs n := by
  unfold joined
  rw [hrefs_reveal]
  exact (List.Sublist.filter _ List.filter_sublist).length_le

theorem tame_joined (he : ¬ C.early) (m n : Node) : Tame C n (joined m n) where
  key := joined_key m n
  id := joined_id m n
  kind := .inl (joined_kind m n)
  attrs x hx := by
    obtain ⟨y, hy, e⟩ := reveal_attrs _ _ _ x hx
    exact .inr ⟨y, (List.mem_filter.1 hy).1, e⟩
  links := joined_links m n
  keeps a ha h := by
    rw [has_joined, if_neg]
    · exact h
    · rintro rfl; exact href_not_wanted _ ha
  href e := absurd e he
  few _ := hrefs_joined m n

/-- The body of the loop. -/
theorem Merging.step (he : ¬ C.early) {f : Forest} {T : List Nat} (h : Merging C f T) {k : Nat} (hk : gradKind (C.kind k) = true) :
    cyclic f k = false ∧ Merging C (mergeNode (f, T) k).1 (mergeNode (f, T) k).2 ∧ (mergeNode (f, T) k).1.nodes.length = f.nodes.length := by
  unfold cyclic mergeNode
  dsimp only
  cases hfind : f.find k with
  | none => exact ⟨rfl, h, rfl⟩
  | some n =>
    dsimp only
    cases hsrc : source f n with
    | none => exact ⟨rfl, h, rfl⟩
    | some m =>
      dsimp only
      obtain ⟨hn, rfl⟩ := Forest.find_some hfind
      have on := h.inv.nodes n hn
      have hng : gradKind n.kind = true := by rw [on.kind.grad]; exact hk
      unfold source at hsrc
      split at hsrc
      swap
      · cases hsrc
      next l hl =>
      obtain ⟨h1, h2⟩ := Option.filter_eq_some_iff.1 hsrc
      obtain ⟨hm, rfl⟩ := Forest.find_some h1
      simp only [Bool.and_eq_true, decide_eq_true_eq, Bool.not_eq_true'] at h2
      have hattr := on.get hl
      obtain ⟨_, hmg, hrk⟩ := hattr.grad.link hng m.key rfl
      have hmg' : gradKind m.kind = true := by rw [(h.inv.nodes m hm).kind.grad]; exact hmg
      have hne : n.key ≠ m.key := fun e => by rw [e] at hrk; exact Nat.lt_irrefl _ hrk
      have hnh : n.has .xlinkHref = true := by rw [Node.has_eq, hl]; rfl
      have hlm : m.key ∈ n.links := by
        unfold Node.get at hl
        obtain ⟨y, hy, ey⟩ := Option.map_eq_some_iff.1 hl
        exact Node.mem_links.2 ⟨y, getAttr_mem hy, by rw [ey]; rfl⟩
      obtain ⟨kn, sn⟩ := nodes_subs hn
      obtain ⟨km, sm⟩ := nodes_subs hm
      have hnT : n.key ∉ T := fun ht => by
        have := ((h.spent _ ht).2.2 _ sn rfl).1
        rw [hnh] at this; cases this
      have hmT : m.key ∉ T := fun ht => by
        have := (h.spent _ ht).2.1
        rw [Forest.isUsed_iff.2 ⟨n, hn, hlm⟩] at this; cases this
      have hkn : kn = .nil := keys_nil (((h.early _ sn hng hnT).1 hnh))
      subst hkn
      have hkm : km.top ≠ [] := fun e => by
        have := (h.early _ sm hmg' hmT).2 e
        rw [h2.2] at this; cases this
      have cn := kidsOf_subs h.inv.unique sn
      have cm := kidsOf_subs h.inv.unique sm
      obtain ⟨hi, hp, hsub⟩ := h.inv.moveKids he hn hng hm hmg' hne cn cm
      have once : ∀ x ∈ f.nodes, m.key ∈ x.links → x = n := by
        intro x hx hxl
        have a : n ∈ f.linkedAll m.key := GradUnits.mem_linkedAll.2 ⟨hn, hlm⟩
        have b : x ∈ f.linkedAll m.key := GradUnits.mem_linkedAll.2 ⟨hx, hxl⟩
        obtain ⟨y, hy⟩ := List.length_eq_one_iff.1 h2.1
        rw [hy] at a b
        rw [List.mem_singleton.1 a, List.mem_singleton.1 b]
      have nolinks : (joined m n).links = [] := by
        rw [List.eq_nil_iff_forall_not_mem]
        intro j hj
        have hj' : j ∈ (n.rm .xlinkHref).links := by
          unfold joined at hj
          rwa [(reveal_same _ _ _).2.2.2.1] at hj
        obtain ⟨x, hx, ex⟩ := Node.mem_links.1 hj'
        obtain ⟨hx, hxn⟩ := List.mem_filter.1 hx
        have := ((on.attrs x hx).grad.link hng j ex).1
        simp [this] at hxn
      have hchange : (fun x : Node => if x.key = n.key then reveal m (attrList x) (x.rm .xlinkHref) else x) = change n m := rfl
      have hlinks : ∀ x ∈ f.nodes, ∀ j ∈ (change n m x).links, j ∈ x.links ∧ j ≠ m.key := by
        intro x hx j hj
        refine ⟨change_links n m x j hj, ?_⟩
        rintro rfl
        obtain rfl := once x hx (change_links n m x _ hj)
        unfold change at hj
        rw [if_pos rfl, nolinks] at hj
        cases hj
      -- what the result consists of
      have hres : ∀ y ∈ subs ((Merge.moveKids n m f).map (change n m)), (y.1 = joined m n ∧ y.2.top ≠ []) ∨ (y.1 = m ∧ y.2.top = []) ∨
          (y.1.key ≠ n.key ∧ y.1.key ≠ m.key ∧ ∃ x ∈ subs f, y.1 = x.1 ∧ (y.2.top = [] ↔ x.2.top = [])) := by
        intro y hy
        rw [Stops.subs_map] at hy
        obtain ⟨x, hx, rfl⟩ := List.mem_map.1 hy
        dsimp only
        rw [Stops.top_map]
        rcases hsub x hx with ⟨e1, e2⟩ | ⟨e1, e2⟩ | ⟨e1, e2, z, hz, e3, e4⟩
        · left
          rw [e1, e2]
          refine ⟨by unfold change; rw [if_pos rfl], by simpa using hkm⟩
        · right; left
          rw [e1, e2]
          refine ⟨by unfold change; rw [if_neg hne.symm], rfl⟩
        · right; right
          have k1 : x.1.key ≠ n.key := fun e => e1 (by rw [e3] at e ⊢; exact Forest.eq_of_key h.inv.unique (subs_nodes hz) hn e)
          have k2 : x.1.key ≠ m.key := fun e => e2 (by rw [e3] at e ⊢; exact Forest.eq_of_key h.inv.unique (subs_nodes hz) hm e)
          have k3 : change n m x.1 = x.1 := by unfold change; rw [if_neg k1]
          rw [k3]
          exact ⟨k1, k2, z, hz, e3, by rw [List.map_eq_nil_iff, e4]⟩
      have hused : ∀ t, f.isUsed t = false → ((Merge.moveKids n m f).map (change n m)).isUsed t = false := by
        intro t ht
        cases hu : ((Merge.moveKids n m f).map (change n m)).isUsed t with
        | false => rfl
        | true =>
          obtain ⟨y, hy, hty⟩ := Forest.isUsed_iff.1 hu
          rw [Forest.nodes_map] at hy
          obtain ⟨x, hx, rfl⟩ := List.mem_map.1 hy
          rw [Forest.isUsed_iff.2 ⟨x, hp.mem_iff.1 hx, change_links n m x t hty⟩] at ht
          cases ht
      have hmod : (Merge.moveKids n m f).modify n.key (fun n => reveal m (attrList n) (n.rm .xlinkHref)) = (Merge.moveKids n m f).map (change n m) := rfl
      refine ⟨?_, ⟨hi.modify fun x hx e => tame_joined he m x, ?_, ?_, ?_⟩, ?_⟩
      · rw [cn, cm]
        have := h.inv.inside hm (by rw [← gradKind_eq]; exact hmg') cm hn (by rw [← gradKind_eq]; exact hng)
        simp [this]
      · intro y hy hg hT
        rw [hmod] at hy
        simp only [List.mem_append, List.mem_singleton, not_or] at hT
        rcases hres y hy with ⟨e1, e2⟩ | ⟨e1, _⟩ | ⟨_, _, x, hx, e1, e2⟩
        · rw [e1, has_joined, if_pos rfl]
          simp [e2]
        · exact absurd (by rw [e1]) hT.2
        · rw [e1, e2]
          rw [e1] at hg hT
          exact h.early x hx hg hT.1
      · intro t ht
        rw [hmod]
        rcases List.mem_append.1 ht with ht | ht
        · obtain ⟨s1, s2, s3⟩ := h.spent t ht
          refine ⟨s1, hused t s2, fun y hy e => ?_⟩
          rcases hres y hy with ⟨e1, e2⟩ | ⟨e1, e2⟩ | ⟨_, _, x, hx, e1, e2⟩
          · rw [e1, joined_key] at e
            exact absurd ht (e ▸ hnT)
          · rw [e1] at e
            exact absurd ht (e ▸ hmT)
          · rw [e1, e2]
            exact s3 x hx (by rw [← e1]; exact e)
        · obtain rfl := List.mem_singleton.1 ht
          refine ⟨hmg, ?_, fun y hy e => ?_⟩
          · cases hu : ((Merge.moveKids n m f).map (change n m)).isUsed m.key with
            | false => rfl
            | true =>
              obtain ⟨y, hy, hty⟩ := Forest.isUsed_iff.1 hu
              rw [Forest.nodes_map] at hy
              obtain ⟨x, hx, rfl⟩ := List.mem_map.1 hy
              exact absurd rfl (hlinks x (hp.mem_iff.1 hx) _ hty).2
          · rcases hres y hy with ⟨e1, e2⟩ | ⟨e1, e2⟩ | ⟨_, e2, _⟩
            · rw [e1, joined_key] at e
              exact absurd e hne
            · rw [e1]; exact ⟨h2.2, e2⟩
            · exact absurd e e2
      · intro t ht
        rw [hmod, Forest.keys_map (change_key n m)]
        refine (hp.map Node.key).mem_iff.2 ?_
        rcases List.mem_append.1 ht with ht | ht
        · exact h.there t ht
        · rw [List.mem_singleton.1 ht]; exact Forest.key_mem hm
      · unfold Forest.modify
        rw [Forest.nodes_map, List.length_map, hp.length_eq]

theorem Merging.all (he : ¬ C.early) {ks : List Nat} (hk : ∀ k ∈ ks, gradKind (C.kind k) = true) {s : Forest × List Nat} (h : Merging C s.1 s.2) :
    ∃ t, mergeKeys ks s = some t ∧ Merging C t.1 t.2 ∧ t.1.nodes.length = s.1.nodes.length := by
  induction ks generalizing s with
  | nil => exact ⟨s, rfl, h, rfl⟩
  | cons k ks ih =>
    obtain ⟨h1, h2, h3⟩ := h.step he (hk k (by simp))
    obtain ⟨t, e, ht, hl⟩ := ih (fun k h => hk k (by simp [h])) h2
    refine ⟨t, ?_, ht, hl.trans h3⟩
    rw [mergeKeys, h1]
    exact e

/-- Removing a gradient that is spent. -/
theorem Merging.rm (he : ¬ C.early) {f : Forest} {t : Nat} {T : List Nat} (hi : Inv C f) (hE : EarlyBut (t :: T) f) (hs : ∀ x ∈ t :: T, Spent C f x) :
    Inv C (Invisible.rmKey t f) ∧ EarlyBut T (Invisible.rmKey t f) ∧ ∀ x ∈ T, Spent C (Invisible.rmKey t f) x := by
  obtain ⟨s1, s2, s3⟩ := hs t (by simp)
  have hpk : ∀ j ∈ f.prunedKeys (fun m => decide (m.key = t)), f.isUsed j = false := by
    intro j hj
    obtain ⟨x, hx, e, h⟩ := mem_prunedKeys hj
    have e : x.1.key = t := by simpa using e
    rcases h with rfl | h
    · rw [e]; exact s2
    · rw [keys_nil (s3 x hx e).2] at h
      simp at h
  have eq : Invisible.rmKey t f = f.prune fun m => decide (m.key = t) :=
    Forest.map_id' fun n hn => Invisible.unlink_pruned hpk ((Forest.nodes_prune_sublist _ _).mem hn)
  have hst : t ≠ C.s ∧ t ≠ C.d := by
    constructor
    · rintro rfl
      obtain ⟨n, hn, e⟩ := hi.memS
      have hk := (hi.nodes n hn).kind.grad
      rw [e, s1, hi.kindS hn e] at hk; cases hk
    · rintro rfl
      obtain ⟨n, hn, e⟩ := hi.memD
      have hk := (hi.nodes n hn).kind.grad
      rw [e, s1, hi.kindD hn e] at hk; cases hk
  have htop : ∀ x ∈ subs f, gradKind x.1.kind = true → ((x.2.prune fun m => decide (m.key = t)).top = [] ↔ x.2.top = []) := by
    intro x hx hg
    constructor
    · intro h
      cases hc : x.2.top with
      | nil => rfl
      | cons m l =>
        exfalso
        have hm : m ∈ x.2.top := by rw [hc]; simp
        have hmk := ((hi.trees x hx).stops hg m hm).1
        have hmf : m ∈ f.nodes := (Stops.subs_kids_sub hx).1.mem (GroupStyle.mem_top_nodes hm)
        have : m ∈ (x.2.prune fun m => decide (m.key = t)).top := by
          refine top_prune_keep hm ?_
          simp only [decide_eq_false_iff_not]
          rintro rfl
          rw [← (hi.nodes m hmf).kind.grad, hmk] at s1
          cases s1
        rw [h] at this; cases this
    · intro h
      rw [keys_nil h]; rfl
  refine ⟨hi.rmKey hst.1 hst.2 fun e => absurd e he, ?_, ?_⟩
  · intro y hy hg hT
    rw [eq] at hy
    have hyk := Forest.mem_prune (subs_nodes hy)
    obtain ⟨x, hx, rfl⟩ := subs_of_prune hy
    dsimp only at hyk hT hg ⊢
    rw [htop x hx hg]
    refine hE x hx hg ?_
    simp only [decide_eq_false_iff_not] at hyk
    simp only [List.mem_cons, not_or]
    exact ⟨hyk, hT⟩
  · intro j hj
    obtain ⟨q1, q2, q3⟩ := hs j (by simp [hj])
    refine ⟨q1, ?_, fun y hy e => ?_⟩
    · cases hu : (Invisible.rmKey t f).isUsed j with
      | false => rfl
      | true =>
        rw [eq] at hu
        obtain ⟨n, hn, hl⟩ := Forest.isUsed_iff.1 hu
        rw [Forest.isUsed_iff.2 ⟨n, (Forest.nodes_prune_sublist _ _).mem hn, hl⟩] at q2
        cases q2
    · rw [eq] at hy
      obtain ⟨x, hx, rfl⟩ := subs_of_prune hy
      obtain ⟨r1, r2⟩ := q3 x hx e
      exact ⟨r1, by dsimp only; rw [keys_nil r2]; rfl⟩

theorem Merging.rmAll (he : ¬ C.early) {f : Forest} {T : List Nat} (hi : Inv C f) (hE : EarlyBut T f) (hs : ∀ x ∈ T, Spent C f x) :
    Inv C (Invisible.rmKeys T f) ∧ EarlyBut [] (Invisible.rmKeys T f) := by
  induction T generalizing f with
  | nil => exact ⟨hi, hE⟩
  | cons t T ih =>
    obtain ⟨h1, h2, h3⟩ := Merging.rm he hi hE hs
    exact ih h1 h2 h3

theorem rm_less {f : Forest} {t : Nat} {T : List Nat} (h : t ∈ f.keys) : (Invisible.rmKeys (t :: T) f).nodes.length < f.nodes.length := by
  refine Nat.lt_of_le_of_lt (length_rmKeys (T := T) (f := Invisible.rmKey t f)) ?_
  show (Forest.map _ _).nodes.length < _
  rw [Forest.nodes_map, List.length_map]
  refine Nat.lt_of_le_of_ne (Forest.nodes_prune_sublist _ _).length_le fun e => ?_
  have := (Forest.nodes_prune_sublist (fun m => decide (m.key = t)) f).eq_of_length e
  obtain ⟨n, hn, e⟩ := Forest.mem_keys.1 h
  rw [← this] at hn
  have := Forest.mem_prune hn
  simp [e] at this

theorem Inv.mergeLoop (he : ¬ C.early) {fuel : Nat} {f : Forest} (hi : Inv C f) (hE : EarlyBut [] f) (hl : f.nodes.length < fuel) :
    ∃ g, Merge.mergeLoop fuel f = some g ∧ Inv C g ∧ EarlyBut [] g := by
  induction fuel generalizing f with
  | zero => cases hl
  | succ fuel ih =>
    have h0 : Merging C f [] := ⟨hi, hE, fun _ h => (by cases h), fun _ h => (by cases h)⟩
    have hk : ∀ k ∈ (f.nodes.filter (·.isGradient)).map Node.key, gradKind (C.kind k) = true := by
      intro k hk
      obtain ⟨n, hn, rfl⟩ := List.mem_map.1 hk
      obtain ⟨hn, hg⟩ := List.mem_filter.1 hn
      rw [← (hi.nodes n hn).kind.grad, gradKind_eq]; exact hg
    obtain ⟨⟨g, T⟩, e, hm, hlen⟩ := Merging.all he hk (s := (f, [])) h0
    have er : mergeRound f = some (g, T) := e
    rw [Merge.mergeLoop, er, Option.bind_some]
    dsimp only
    cases T with
    | nil => exact ⟨g, rfl, hm.inv, hm.early⟩
    | cons t T =>
      rw [if_neg (by simp)]
      obtain ⟨h1, h2⟩ := Merging.rmAll he hm.inv hm.early hm.spent
      refine ih h1 h2 ?_
      have := rm_less (T := T) (hm.there t (by simp))
      dsimp only at hlen this
      omega

theorem holds_mergeGradients (he : C.early) : Holds (Inv C) (may mergeGradients) := by
  refine Holds.may fun f hf => ?_
  have h1 : Inv { C with early := False } f := hf.late False C.uniq (fun h => h.elim) fun h => h
  have h2 : EarlyBut [] f := fun x hx hg _ => (hf.trees x hx).early he hg
  obtain ⟨g, e, hi, hE⟩ := Inv.mergeLoop (fun h => h) h1 h2 (Nat.lt_succ_self _)
  exact ⟨g, e, hi.asEarly fun _ x hx hg => hE x hx hg (by simp)⟩

end

end Verif.Crash
