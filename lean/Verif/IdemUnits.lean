import Verif.IdemGroup
import Verif.ShadeUnits
/-
C67: the units of gradients.
-/
namespace Verif.Idem
open Verif.Dom Verif.Spec Verif.Pipeline
open Verif.Gradients (forEach)
open Verif.GradUnits

/-! ### Single nodes -/

theorem putAttr_putAttr (as : List Attr) (x y : Attr) (h : x.name = y.name) : putAttr (putAttr as x) y = putAttr as y := by
  unfold putAttr
  rw [h]
  by_cases c : as.any (fun z => decide (z.name = y.name)) = true
  · rw [if_pos c, if_pos, if_pos c, List.map_map]
    · refine List.map_congr_left fun z _ => ?_
      by_cases e : z.name = y.name <;> simp [e, h]
    · obtain ⟨z, hz, e⟩ := List.any_eq_true.1 c
      refine List.any_eq_true.2 ⟨x, List.mem_map.2 ⟨z, hz, if_pos (by simpa using e)⟩, by simpa using h⟩
  · rw [if_neg c, if_pos, if_neg c, List.map_append, List.map_singleton, if_pos h]
    · congr 1
      refine (List.map_congr_left fun z hz => ?_).trans (List.map_id _)
      have : ¬ z.name = y.name := fun e => c (List.any_eq_true.2 ⟨z, hz, by simpa using e⟩)
      rw [if_neg this]; rfl
    · refine List.any_eq_true.2 ⟨x, by simp, by simpa using h⟩

theorem set_set' (n : Node) (a : AId) (v w : Value) : (n.set a v).set a w = n.set a w := by
  unfold Node.set
  exact congrArg (fun l => Node.mk n.key n.kind n.id l) (putAttr_putAttr _ _ _ rfl)

theorem set_hide_set (n : Node) (a : AId) (v w : Value) : ((n.set a v).hide a).set a w = n.set a w := by
  have e : (n.set a v).hide a = { n with attrs := putAttr n.attrs ⟨.id a, v, false⟩ } := by
    unfold Node.set Node.hide hideAttr putAttr
    dsimp only
    congr 1
    by_cases c : n.attrs.any (fun z => decide (z.name = .id a)) = true
    · rw [if_pos c, if_pos c, List.map_map]
      refine List.map_congr_left fun z _ => ?_
      by_cases e : z.name = .id a <;> simp [e]
    · rw [if_neg c, if_neg c, List.map_append, List.map_singleton, if_pos rfl]
      congr 1
      refine (List.map_congr_left fun z hz => ?_).trans (List.map_id _)
      have : ¬ z.name = .id a := fun e => c (List.any_eq_true.2 ⟨z, hz, by simpa using e⟩)
      rw [if_neg this]; rfl
  rw [e]
  exact congrArg (fun l => Node.mk n.key n.kind n.id l) (putAttr_putAttr _ _ _ rfl)

/-- The other units. -/
def other (m : Kw) : Kw := if m = .objectBoundingBox then .userSpaceOnUse else .objectBoundingBox

/-- What is done to a gradient that refers to one with the units `m`. -/
def shareNode (m : Kw) (n : Node) : Node := if n.get .gradientUnits = some (.kw m) then n.hide .gradientUnits else n.set .gradientUnits (.kw (other m))

/-- What is done to the gradient itself. -/
def parentNode (m : Kw) (n : Node) : Node :=
  if m = .objectBoundingBox then (n.set .gradientUnits (.kw m)).hide .gradientUnits else n.set .gradientUnits (.kw m)

def TwoKw (m : Kw) : Prop := m = .objectBoundingBox ∨ m = .userSpaceOnUse

theorem share_get {m : Kw} (hm : TwoKw m) {n : Node} (hn : TwoUnits n) : (shareNode m n).get .gradientUnits = n.get .gradientUnits := by
  unfold shareNode
  split
  · rw [get_hide]
  · rename_i h
    rw [(written_get_set _ _).2]
    rcases hm with rfl | rfl <;> rcases hn with h' | h' <;> rw [h'] at h ⊢ <;> first | exact absurd rfl h | rfl

theorem share_share {m : Kw} (hm : TwoKw m) {n : Node} (hn : TwoUnits n) : shareNode m (shareNode m n) = shareNode m n := by
  have hg := share_get hm hn
  rw [shareNode, hg]
  split
  · rename_i h; unfold shareNode; rw [if_pos h, hide_hide]
  · rename_i h; unfold shareNode; rw [if_neg h, set_set']

theorem parent_get (m : Kw) (n : Node) : (parentNode m n).get .gradientUnits = some (.kw m) := by
  unfold parentNode
  split
  · rw [get_hide, (written_get_set _ _).2]
  · rw [(written_get_set _ _).2]

theorem parent_parent (m : Kw) (n : Node) : parentNode m (parentNode m n) = parentNode m n := by
  unfold parentNode
  split
  · rw [set_hide_set]
  · rw [set_set']

theorem share_key (m : Kw) (n : Node) : (shareNode m n).key = n.key := by unfold shareNode; split <;> rfl
theorem parent_key (m : Kw) (n : Node) : (parentNode m n).key = n.key := by unfold parentNode; split <;> rfl
theorem share_kind (m : Kw) (n : Node) : (shareNode m n).kind = n.kind := by unfold shareNode; split <;> rfl
theorem parent_kind (m : Kw) (n : Node) : (parentNode m n).kind = n.kind := by unfold parentNode; split <;> rfl

/-- Units that are no reference can be replaced without a change of the references. -/
theorem links_set_units {n : Node} (hn : TwoUnits n) (ha : (n.attrs.map (·.name)).Nodup) (v : Kw) : (n.set .gradientUnits (.kw v)).links = n.links := by
  have hx : ∀ x ∈ n.attrs, x.name = .id .gradientUnits → x.value.target = none := by
    intro x hx e
    have h1 := getAttr_of_mem ha hx
    rw [e] at h1
    have h2 : n.get .gradientUnits = some x.value := by unfold Node.get; rw [h1]; rfl
    rcases hn with h | h <;> rw [h2] at h <;> rw [Option.some.inj h] <;> rfl
  unfold Node.set Node.links putAttr
  dsimp only
  split
  · rw [List.filterMap_map]
    refine List.filterMap_congr fun x h => ?_
    simp only [Function.comp]
    split
    · rename_i e; rw [hx x h e]; rfl
    · rfl
  · rw [List.filterMap_append]; simp [Value.target]

/-! ### What the loops make of a document -/

theorem mapAt {f : Forest} {g h : Node → Node} (e : ∀ n ∈ f.nodes, g n = h n) : f.map g = f.map h := GroupDefs.map_congr_nodes e

theorem modify_eq {f : Forest} {k : Nat} {n : Node} (hu : f.UniqueKeys) (hn : f.find k = some n) {u w : Node → Node} (e : u n = w n) :
    f.modify k u = f.map fun x => if x.key = k then w x else x := by
  unfold Forest.modify
  refine mapAt fun x hx => ?_
  by_cases c : x.key = k
  · obtain ⟨h1, h2⟩ := Forest.find_some hn
    rw [if_pos c, if_pos c, Forest.eq_of_key hu hx h1 (c.trans h2.symm), e]
  · rw [if_neg c, if_neg c]

theorem hide_step {k : Nat} {f g : Forest} (h : hideUnits k f = some g) : g = f.map fun n => if n.key = k then n.hide .gradientUnits else n := by
  unfold hideUnits at h
  obtain ⟨n, -, h⟩ := Option.bind_eq_some_iff.1 h
  split at h
  · cases h; rfl
  · cases h

theorem hides {ks : List Nat} {f g : Forest} (h : forEach hideUnits ks f = some g) :
    g = f.map fun n => if n.key ∈ ks then n.hide .gradientUnits else n := by
  induction ks generalizing f with
  | nil =>
    cases h
    exact (Forest.map_id' fun _ _ => by simp).symm
  | cons k t ih =>
    obtain ⟨f1, h1, h2⟩ := Option.bind_eq_some_iff.1 h
    rw [ih h2, hide_step h1, Forest.map_map]
    refine mapAt fun n _ => ?_
    by_cases a : n.key = k
    · by_cases b : k ∈ t <;> simp [a, b, Node.hide, hide_hide]
      exact congrArg Node.attrs (hide_hide n .gradientUnits)
    · by_cases b : n.key ∈ t <;> simp [a, b]

theorem share_step {m : Kw} {k : Nat} {f g : Forest} (hm : TwoKw m) (hu : f.UniqueKeys) (ht : ∀ n ∈ f.nodes, n.key = k → TwoUnits n)
    (h : shareUnits m (other m) k f = some g) : g = f.map fun n => if n.key = k then shareNode m n else n := by
  unfold shareUnits at h
  obtain ⟨n, hn, h⟩ := Option.bind_eq_some_iff.1 h
  obtain ⟨h1, h2⟩ := Forest.find_some hn
  have h2 := ht n h1 h2
  split at h
  · rename_i v hv
    split at h
    · rename_i hvm
      rw [hide_step h]
      refine modify_eq (u := fun n => n.hide .gradientUnits) hu hn ?_
      unfold shareNode
      rw [hv, hvm, if_pos rfl]
    · rename_i hvm
      cases h
      refine modify_eq hu hn ?_
      unfold shareNode
      rw [hv, if_neg fun e => hvm (Option.some.inj e)]
  · rename_i hv
    rcases h2 with h2 | h2 <;> rw [hv] at h2 <;> cases h2

theorem shares {m : Kw} {ks : List Nat} {f g : Forest} (hm : TwoKw m) (hu : f.UniqueKeys) (ht : ∀ n ∈ f.nodes, n.key ∈ ks → TwoUnits n)
    (h : forEach (shareUnits m (other m)) ks f = some g) : g = f.map fun n => if n.key ∈ ks then shareNode m n else n := by
  induction ks generalizing f with
  | nil =>
    cases h
    exact (Forest.map_id' fun _ _ => by simp).symm
  | cons k t ih =>
    obtain ⟨f1, h1, h2⟩ := Option.bind_eq_some_iff.1 h
    have e := share_step hm hu (fun n hn c => ht n hn (by simp [c])) h1
    have hk : ∀ n : Node, (if n.key = k then shareNode m n else n).key = n.key := by intro n; split; exact share_key _ _; rfl
    rw [ih (by rw [e]; exact (Forest.uniqueKeys_map hk).2 hu) (by
      rw [e]
      intro x hx hxt
      rw [Forest.nodes_map] at hx
      obtain ⟨n, hn, rfl⟩ := List.mem_map.1 hx
      rw [hk] at hxt
      have := ht n hn (by simp [hxt])
      split
      · unfold TwoUnits; rw [share_get hm this]; exact this
      · exact this) h2, e, Forest.map_map]
    refine mapAt fun n hn => ?_
    rw [hk]
    by_cases a : n.key = k
    · have := ht n hn (by simp [a])
      by_cases b : n.key ∈ t
      · rw [if_pos b, if_pos a, if_pos (by simp [a]), share_share hm this]
      · rw [if_neg b, if_pos a, if_pos (by simp [a])]
    · by_cases b : n.key ∈ t
      · rw [if_pos b, if_neg a, if_pos (by simp [b])]
      · rw [if_neg b, if_neg a, if_neg (by simp [a, b])]

/-- The units that the gradient with the key `k` gets. -/
def majOf (f : Forest) (k : Nat) : Kw :=
  if ((f.linkedAll k).filter (fun n => decide (n.get .gradientUnits = some (.kw .objectBoundingBox)))).length = f.usesCount k then .objectBoundingBox
  else if ((f.linkedAll k).filter (fun n => decide (n.get .gradientUnits = some (.kw .objectBoundingBox)))).length = 0 then .userSpaceOnUse
  else if ((f.linkedAll k).filter (fun n => decide (n.get .gradientUnits = some (.kw .objectBoundingBox)))).length ≥ (f.usesCount k + 1) / 2 then .objectBoundingBox
  else .userSpaceOnUse

theorem majOf_two (f : Forest) (k : Nat) : TwoKw (majOf f k) := by
  unfold majOf TwoKw
  split
  · simp
  · split
    · simp
    · split <;> simp

/-- What happens to a node when the gradient with the key `k` is dealt with. -/
def groupNode (m : Kw) (k : Nat) (n : Node) : Node := if n.key = k then parentNode m n else if k ∈ n.links then shareNode m n else n

theorem groupNode_key (m : Kw) (k : Nat) (n : Node) : (groupNode m k n).key = n.key := by
  unfold groupNode
  split
  · exact parent_key _ _
  · split
    · exact share_key _ _
    · rfl

theorem default_step {m : Kw} {k : Nat} {f g : Forest} (hk : ∀ n ∈ f.nodes, n.key = k → n.get .gradientUnits = some (.kw m))
    (h : hideDefault k f = some g) : g = f.map fun n => if n.key = k then (if m = .objectBoundingBox then n.hide .gradientUnits else n) else n := by
  unfold hideDefault at h
  obtain ⟨n, hn, h⟩ := Option.bind_eq_some_iff.1 h
  obtain ⟨h1, h2⟩ := Forest.find_some hn
  rw [hk n h1 h2] at h
  by_cases c : m = .objectBoundingBox
  · rw [if_pos (by rw [c])] at h
    rw [hide_step h]
    simp only [if_pos c]
  · rw [if_neg (by simpa using c)] at h
    cases h
    refine (Forest.map_id' fun n _ => ?_).symm
    rw [if_neg c]; split <;> rfl

theorem group_step {k : Nat} {f g : Forest} (hu : f.UniqueKeys) (hself : ∀ n ∈ f.nodes, n.key = k → k ∉ n.links)
    (ht : ∀ n ∈ f.nodes, k ∈ n.links → TwoUnits n) (h : groupBody k f = some g) : g = f.map (groupNode (majOf f k) k) := by
  have hlk : ∀ n ∈ f.nodes, n.key ∈ (f.linkedAll k).map (·.key) ↔ k ∈ n.links := fun n hn => linked_key hu hn
  have key : ∀ (m : Kw) (g1 : Forest), TwoKw m →
      g1 = (f.modify k fun n => n.set .gradientUnits (.kw m)).map (fun n => if n.key ∈ (f.linkedAll k).map (·.key) then shareNode m n else n) →
      hideDefault k g1 = some g → g = f.map (groupNode m k) := by
    intro m g1 hm e1 h2
    unfold Forest.modify at e1
    rw [Forest.map_map] at e1
    have e2 : g1 = f.map fun n => if n.key = k then n.set .gradientUnits (.kw m) else if k ∈ n.links then shareNode m n else n := by
      rw [e1]
      refine mapAt fun n hn => ?_
      by_cases a : n.key = k
      · simp only [if_pos a]
        rw [if_neg]
        show n.key ∉ _
        rw [hlk n hn]; exact hself n hn a
      · simp only [if_neg a, hlk n hn]
    have hkk : ∀ n : Node, (if n.key = k then n.set .gradientUnits (.kw m) else if k ∈ n.links then shareNode m n else n).key = n.key := by
      intro n; split
      · rfl
      · split
        · exact share_key _ _
        · rfl
    rw [default_step (m := m) (by
      rw [e2]
      intro x hx hxk
      rw [Forest.nodes_map] at hx
      obtain ⟨n, hn, rfl⟩ := List.mem_map.1 hx
      rw [hkk] at hxk
      simp only [if_pos hxk]
      exact (written_get_set _ _).2) h2, e2, Forest.map_map]
    refine mapAt fun n hn => ?_
    rw [hkk]
    unfold groupNode parentNode
    by_cases a : n.key = k
    · simp only [if_pos a]
    · simp only [if_neg a]
  have hsk : ∀ m : Kw, ∀ x : Node, (if x.key = k then x.set .gradientUnits (.kw m) else x).key = x.key := by
    intro m x; split <;> rfl
  have hus : ∀ m : Kw, (f.modify k (fun n => n.set .gradientUnits (.kw m))).UniqueKeys := fun m => (Forest.uniqueKeys_map (hsk m)).2 hu
  have linked : ∀ m : Kw, ∀ x ∈ (f.modify k (fun n => n.set .gradientUnits (.kw m))).nodes, x.key ∈ (f.linkedAll k).map (·.key) →
      x ∈ f.linkedAll k := by
    intro m x hx hxk
    unfold Forest.modify at hx
    rw [Forest.nodes_map] at hx
    obtain ⟨n, hn, rfl⟩ := List.mem_map.1 hx
    rw [hsk, hlk n hn] at hxk
    rw [if_neg fun a => hself n hn a hxk]
    exact mem_linkedAll.2 ⟨hn, hxk⟩
  have two : ∀ n ∈ f.linkedAll k, TwoUnits n := fun n hn => ht n (mem_linkedAll.1 hn).1 (mem_linkedAll.1 hn).2
  have uniform : ∀ m : Kw, (∀ n ∈ f.linkedAll k, n.get .gradientUnits = some (.kw m)) → ∀ g1,
      forEach hideUnits ((f.linkedAll k).map (·.key)) (f.modify k fun n => n.set .gradientUnits (.kw m)) = some g1 →
      g1 = (f.modify k fun n => n.set .gradientUnits (.kw m)).map (fun n => if n.key ∈ (f.linkedAll k).map (·.key) then shareNode m n else n) := by
    intro m hm g1 h1
    rw [hides h1]
    refine mapAt fun n hn => ?_
    by_cases a : n.key ∈ (f.linkedAll k).map (·.key)
    · rw [if_pos a, if_pos a, shareNode, if_pos (hm n (linked m n hn a))]
    · rw [if_neg a, if_neg a]
  unfold groupBody at h
  simp only [Option.bind_eq_some_iff] at h
  obtain ⟨g1, h1, h2⟩ := h
  split at h1
  · rename_i hc
    have e : majOf f k = .objectBoundingBox := by unfold majOf; rw [if_pos hc]
    rw [e]
    refine key _ g1 (.inl rfl) (uniform _ (fun n hn => ?_) g1 h1) h2
    unfold Forest.usesCount at hc
    simpa using List.length_filter_eq_length_iff.1 hc n hn
  · rename_i hc
    split at h1
    · rename_i hc2
      have e : majOf f k = .userSpaceOnUse := by unfold majOf; rw [if_neg hc, if_pos hc2]
      rw [e]
      refine key _ g1 (.inr rfl) (uniform _ (fun n hn => ?_) g1 h1) h2
      rw [List.length_eq_zero_iff, List.filter_eq_nil_iff] at hc2
      rcases two n hn with h' | h'
      · exact absurd h' (by simpa using hc2 n hn)
      · exact h'
    · rename_i hc2
      split at h1
      · rename_i hc3
        have e : majOf f k = .objectBoundingBox := by unfold majOf; rw [if_neg hc, if_neg hc2, if_pos hc3]
        rw [e]
        exact key _ g1 (.inl rfl) (shares (m := .objectBoundingBox) (.inl rfl) (hus _) (fun n hn a => two n (linked _ n hn a)) h1) h2
      · rename_i hc3
        have e : majOf f k = .userSpaceOnUse := by unfold majOf; rw [if_neg hc, if_neg hc2, if_neg hc3]
        rw [e]
        exact key _ g1 (.inr rfl) (shares (m := .userSpaceOnUse) (.inr rfl) (hus _) (fun n hn a => two n (linked _ n hn a)) h1) h2

/-! ### The first half -/

/-- The units of the nodes with these keys are hidden. -/
def hideSet (s : Nat → Bool) (n : Node) : Node := if s n.key then n.hide .gradientUnits else n

theorem hideSet_key (s : Nat → Bool) (n : Node) : (hideSet s n).key = n.key := by unfold hideSet; split <;> rfl

theorem hideSet_get (s : Nat → Bool) (n : Node) (a : AId) : (hideSet s n).get a = n.get a := by
  unfold hideSet; split
  · exact get_hide _ _ _
  · rfl

theorem hideSet_hideSet (s t : Nat → Bool) (n : Node) : hideSet t (hideSet s n) = hideSet (fun k => s k || t k) n := by
  rw [hideSet, hideSet_key]
  unfold hideSet
  by_cases a : s n.key = true <;> by_cases b : t n.key = true <;> simp [a, b, hide_hide]

/-- The gradient has the same units as the one it refers to. -/
def Equal (f : Forest) (k : Nat) : Prop :=
  ∃ n l t, f.find k = some n ∧ n.get .xlinkHref = some (.link l) ∧ f.find l = some t ∧ n.get .gradientUnits = t.get .gradientUnits

theorem equal_hideSet {f : Forest} {s : Nat → Bool} {k : Nat} (h : Equal f k) : Equal (f.map (hideSet s)) k := by
  obtain ⟨n, l, t, h1, h2, h3, h4⟩ := h
  refine ⟨hideSet s n, l, hideSet s t, ?_, by rw [hideSet_get]; exact h2, ?_, by rw [hideSet_get, hideSet_get]; exact h4⟩
  · rw [Forest.find_map (hideSet_key s), h1]; rfl
  · rw [Forest.find_map (hideSet_key s), h3]; rfl

theorem map_none {f : Forest} : f = f.map (hideSet fun _ => false) := (Forest.map_id' fun _ _ => rfl).symm

theorem equal_step {k : Nat} {f g : Forest} (h : equalStep k f = some g) :
    ∃ s, g = f.map (hideSet s) ∧ (Equal f k → s k = true) := by
  unfold equalStep at h
  obtain ⟨n, hn, h⟩ := Option.bind_eq_some_iff.1 h
  split at h
  · rename_i l hl
    obtain ⟨t, ht, h⟩ := Option.bind_eq_some_iff.1 h
    split at h
    · refine ⟨fun j => decide (j = k), ?_, fun _ => by simp⟩
      rw [hide_step h]
      refine mapAt fun x _ => ?_
      unfold hideSet
      simp only [decide_eq_true_eq]
    · rename_i hne
      cases h
      refine ⟨_, map_none, fun ⟨n', l', t', h1, h2, h3, h4⟩ => ?_⟩
      cases hn.symm.trans h1
      cases Value.link.inj (Option.some.inj (hl.symm.trans h2))
      cases ht.symm.trans h3
      exact absurd h4 hne
  · rename_i hne
    cases h
    refine ⟨_, map_none, fun ⟨n', l', t', h1, h2, h3, h4⟩ => ?_⟩
    cases hn.symm.trans h1
    exact absurd h2 (hne l')

theorem equal_steps {ks : List Nat} {f g : Forest} (h : forEach equalStep ks f = some g) :
    ∃ s, g = f.map (hideSet s) ∧ ∀ k ∈ ks, Equal f k → s k = true := by
  induction ks generalizing f with
  | nil => cases h; exact ⟨_, map_none, by simp⟩
  | cons k t ih =>
    obtain ⟨f1, h1, h2⟩ := Option.bind_eq_some_iff.1 h
    obtain ⟨s, rfl, hs⟩ := equal_step h1
    obtain ⟨s', rfl, hs'⟩ := ih h2
    refine ⟨fun k => s k || s' k, ?_, fun j hj he => ?_⟩
    · rw [Forest.map_map]; exact mapAt fun n _ => hideSet_hideSet _ _ _
    · rcases List.mem_cons.1 hj with rfl | hj
      · simp [hs he]
      · simp [hs' j hj (equal_hideSet he)]

theorem equal_loop {fuel : Nat} {o : List (Nat × Nat)} {f g : Forest} (h : equalLoop fuel f o = some g) :
    ∃ s, g = f.map (hideSet s) ∧ ∀ p ∈ o, Equal f p.1 → s p.1 = true := by
  induction fuel generalizing f o with
  | zero =>
    unfold equalLoop at h
    split at h
    · rename_i ho; cases h; exact ⟨_, map_none, by simp [ho]⟩
    · cases h
  | succ n ih =>
    unfold equalLoop at h
    split at h
    · rename_i ho; cases h; exact ⟨_, map_none, by simp [ho]⟩
    · simp only [Option.bind_eq_some_iff] at h
      obtain ⟨⟨f1, o1⟩, h1, h2⟩ := h
      unfold equalRound at h1
      simp only [Option.bind_eq_some_iff, Option.map_eq_some_iff, Prod.mk.injEq] at h1
      obtain ⟨f2, e1, o2, e2, rfl, rfl⟩ := h1
      obtain ⟨s, rfl, hs⟩ := equal_steps e1
      obtain ⟨s', rfl, hs'⟩ := ih h2
      refine ⟨fun k => s k || s' k, ?_, fun p hp he => ?_⟩
      · rw [Forest.map_map]; exact mapAt fun n _ => hideSet_hideSet _ _ _
      · by_cases c : p.2 = 0
        · have : p.1 ∈ (o.filter (fun p => decide (p.2 = 0))).map (·.1) := List.mem_map.2 ⟨p, List.mem_filter.2 ⟨hp, by simpa using c⟩, rfl⟩
          simp [hs _ this he]
        · have : p.1 ∈ o2.map (·.1) := by
            rw [decrease_keys e2]
            exact List.mem_map.2 ⟨p, List.mem_filter.2 ⟨hp, by simpa using Nat.pos_of_ne_zero c⟩, rfl⟩
          obtain ⟨q, hq, e⟩ := List.mem_map.1 this
          have := hs' q hq (by rw [e]; exact equal_hideSet he)
          rw [e] at this
          simp [this]

theorem mem_start {f : Forest} {n : Node} (hn : n ∈ f.nodes) (hg : n.isGradient = true) (hh : n.has .xlinkHref = true) :
    ∃ p ∈ startOrder f, p.1 = n.key := by
  unfold startOrder
  refine ⟨_, List.mem_map.2 ⟨n, List.mem_filter.2 ⟨hn, by simp [hg, hh]⟩, rfl⟩, rfl⟩

/-- Units that are the same as those of the gradient that is referred to are hidden. -/
def Tidy (f : Forest) : Prop :=
  ∀ n ∈ f.nodes, n.isGradient = true → ∀ l t, n.get .xlinkHref = some (.link l) → f.find l = some t →
    n.get .gradientUnits = t.get .gradientUnits → n.hide .gradientUnits = n

theorem hideSet_kind (s : Nat → Bool) (n : Node) : (hideSet s n).kind = n.kind := by unfold hideSet; split <;> rfl

theorem tidy_rmEqual {f g : Forest} (hu : f.UniqueKeys) (h : rmEqual f = some g) : (∃ s, g = f.map (hideSet s)) ∧ Tidy g := by
  obtain ⟨s, rfl, hs⟩ := equal_loop h
  refine ⟨⟨s, rfl⟩, fun m hm hg l t hl ht he => ?_⟩
  rw [Forest.nodes_map] at hm
  obtain ⟨n, hn, rfl⟩ := List.mem_map.1 hm
  rw [Forest.find_map (hideSet_key s), Option.map_eq_some_iff] at ht
  obtain ⟨t0, ht0, rfl⟩ := ht
  rw [hideSet_get, hideSet_get] at he
  rw [hideSet_get] at hl
  obtain ⟨p, hp, e⟩ := mem_start hn ((isGradient_congr (hideSet_kind s n)).symm.trans hg) (by rw [Node.has_eq, hl]; rfl)
  have hsn : s n.key = true := by
    have := hs p hp
    rw [e] at this
    exact this ⟨n, l, t0, Forest.find_of_mem hu hn, hl, ht0, he⟩
  unfold hideSet
  rw [if_pos hsn, hide_hide]

/-- In such a document the first half does nothing. -/
theorem tidy_same {f g : Forest} (hu : f.UniqueKeys) (ht : Tidy f) (h : rmEqual f = some g) : g = f := by
  have step : ∀ k, (∃ n ∈ f.nodes, n.key = k ∧ n.isGradient = true) → ∀ g, equalStep k f = some g → g = f := by
    rintro k ⟨n, hn, rfl, hg⟩ g h
    unfold equalStep at h
    rw [Forest.find_of_mem hu hn, Option.bind_some] at h
    split at h
    · rename_i l hl
      obtain ⟨t, ht', h⟩ := Option.bind_eq_some_iff.1 h
      split at h
      · rename_i he
        rw [hide_step h]
        refine Forest.map_id' fun x hx => ?_
        split
        · rename_i c; rw [Forest.eq_of_key hu hx hn c]; exact ht n hn hg l t hl ht' he
        · rfl
      · cases h; rfl
    · cases h; rfl
  have steps : ∀ ks : List Nat, (∀ k ∈ ks, ∃ n ∈ f.nodes, n.key = k ∧ n.isGradient = true) → ∀ g, forEach equalStep ks f = some g → g = f := by
    intro ks
    induction ks with
    | nil => intro _ g h; cases h; rfl
    | cons k t ih =>
      intro hk g h
      obtain ⟨f1, h1, h2⟩ := Option.bind_eq_some_iff.1 h
      obtain rfl := step k (hk k (by simp)) f1 h1
      exact ih (fun j hj => hk j (by simp [hj])) g h2
  have loop : ∀ fuel (o : List (Nat × Nat)), (∀ p ∈ o, ∃ n ∈ f.nodes, n.key = p.1 ∧ n.isGradient = true) → ∀ g, equalLoop fuel f o = some g → g = f := by
    intro fuel
    induction fuel with
    | zero =>
      intro o _ g h
      unfold equalLoop at h
      split at h
      · cases h; rfl
      · cases h
    | succ n ih =>
      intro o ho g h
      unfold equalLoop at h
      split at h
      · cases h; rfl
      · simp only [Option.bind_eq_some_iff] at h
        obtain ⟨⟨f1, o1⟩, h1, h2⟩ := h
        unfold equalRound at h1
        simp only [Option.bind_eq_some_iff, Option.map_eq_some_iff, Prod.mk.injEq] at h1
        obtain ⟨f2, e1, o2, e2, rfl, rfl⟩ := h1
        obtain rfl := steps _ (by
          intro k hk
          obtain ⟨p, hp, rfl⟩ := List.mem_map.1 hk
          exact ho p (List.mem_of_mem_filter hp)) f2 e1
        refine ih _ (fun p hp => ?_) g h2
        have : p.1 ∈ o2.map (·.1) := List.mem_map_of_mem hp
        rw [decrease_keys e2] at this
        obtain ⟨q, hq, e⟩ := List.mem_map.1 this
        rw [← e]
        exact ho q (List.mem_of_mem_filter hq)
  refine loop _ _ (fun p hp => ?_) g h
  unfold startOrder at hp
  obtain ⟨n, hn, rfl⟩ := List.mem_map.1 hp
  rw [List.mem_filter] at hn
  simp only [Bool.and_eq_true] at hn
  exact ⟨n, hn.1, rfl, hn.2.1⟩

/-! ### The second half -/

/-- What the treatment of the gradients `ps` needs. -/
structure Base (f : Forest) (ps : List Nat) : Prop where
  uniq : f.UniqueKeys
  top : ∀ n ∈ f.nodes, n.key ∈ ps → n.links = [] ∧ TwoUnits n ∧ (n.attrs.map (·.name)).Nodup
  under : ∀ n ∈ f.nodes, ∀ k ∈ ps, k ∈ n.links → TwoUnits n ∧ (n.attrs.map (·.name)).Nodup ∧ ∀ j ∈ n.links, j = k

/-- The nodes when the gradients `ps` have been dealt with. -/
structure Made (f : Forest) (ps : List Nat) (w : Node → Node) : Prop where
  key : ∀ n, (w n).key = n.key
  top : ∀ n ∈ f.nodes, n.key ∈ ps → w n = parentNode (majOf f n.key) n
  under : ∀ n ∈ f.nodes, ∀ k ∈ ps, k ∈ n.links → w n = shareNode (majOf f k) n
  rest : ∀ n ∈ f.nodes, n.key ∉ ps → (∀ k ∈ ps, k ∉ n.links) → w n = n

theorem share_links {m : Kw} {n : Node} (hn : TwoUnits n) (ha : (n.attrs.map (·.name)).Nodup) : (shareNode m n).links = n.links := by
  unfold shareNode
  split
  · exact Node.links_hide _ _
  · exact links_set_units hn ha _

theorem parent_links {m : Kw} {n : Node} (hn : TwoUnits n) (ha : (n.attrs.map (·.name)).Nodup) : (parentNode m n).links = n.links := by
  unfold parentNode
  split
  · rw [Node.links_hide]; exact links_set_units hn ha _
  · exact links_set_units hn ha _

theorem Made.cases {f : Forest} {ds : List Nat} {w : Node → Node} (hm : Made f ds w) {n : Node} (hn : n ∈ f.nodes) :
    (n.key ∈ ds ∧ w n = parentNode (majOf f n.key) n) ∨ (∃ k ∈ ds, k ∈ n.links ∧ w n = shareNode (majOf f k) n) ∨ w n = n := by
  by_cases a : n.key ∈ ds
  · exact .inl ⟨a, hm.top n hn a⟩
  · by_cases b : ∃ k ∈ ds, k ∈ n.links
    · obtain ⟨k, hk, hl⟩ := b
      exact .inr (.inl ⟨k, hk, hl, hm.under n hn k hk hl⟩)
    · push Not at b
      exact .inr (.inr (hm.rest n hn a b))

theorem Made.links {f : Forest} {ps ds : List Nat} {w : Node → Node} (hb : Base f ps) (hd : ∀ k ∈ ds, k ∈ ps) (hm : Made f ds w)
    {n : Node} (hn : n ∈ f.nodes) : (w n).links = n.links := by
  rcases hm.cases hn with ⟨h, e⟩ | ⟨k, hk, hl, e⟩ | e
  · obtain ⟨_, h2, h3⟩ := hb.top n hn (hd _ h)
    rw [e]; exact parent_links h2 h3
  · obtain ⟨h2, h3, _⟩ := hb.under n hn k (hd _ hk) hl
    rw [e]; exact share_links h2 h3
  · rw [e]

theorem Made.units {f : Forest} {ps ds : List Nat} {w : Node → Node} (hb : Base f ps) (hd : ∀ k ∈ ds, k ∈ ps) (hm : Made f ds w)
    {n : Node} (hn : n ∈ f.nodes) (hk : n.key ∉ ds) : (w n).get .gradientUnits = n.get .gradientUnits := by
  rcases hm.cases hn with ⟨h, e⟩ | ⟨k, hk, hl, e⟩ | e
  · exact absurd h hk
  · rw [e]; exact share_get (majOf_two _ _) (hb.under n hn k (hd _ hk) hl).1
  · rw [e]

theorem Made.kind {f : Forest} {ds : List Nat} {w : Node → Node} (hm : Made f ds w) {n : Node} (hn : n ∈ f.nodes) : (w n).kind = n.kind := by
  rcases hm.cases hn with ⟨h, e⟩ | ⟨k, hk, hl, e⟩ | e
  · rw [e]; exact parent_kind _ _
  · rw [e]; exact share_kind _ _
  · rw [e]

theorem linkedAll_map {f : Forest} {w : Node → Node} (hl : ∀ n ∈ f.nodes, (w n).links = n.links) (k : Nat) :
    (f.map w).linkedAll k = (f.linkedAll k).map w := by
  unfold Forest.linkedAll
  rw [Forest.nodes_map, List.flatMap_map, List.map_flatMap, List.flatMap_def, List.flatMap_def]
  congr 1
  refine List.map_congr_left fun n hn => ?_
  rw [hl n hn, List.map_map]
  rfl

theorem majOf_map {f : Forest} {w : Node → Node} {k : Nat} (hl : ∀ n ∈ f.nodes, (w n).links = n.links)
    (hu : ∀ n ∈ f.nodes, k ∈ n.links → (w n).get .gradientUnits = n.get .gradientUnits) : majOf (f.map w) k = majOf f k := by
  have e : (((f.map w).linkedAll k).filter (fun n => decide (n.get .gradientUnits = some (.kw .objectBoundingBox)))).length =
      ((f.linkedAll k).filter (fun n => decide (n.get .gradientUnits = some (.kw .objectBoundingBox)))).length := by
    rw [linkedAll_map hl, List.filter_map, List.length_map]
    congr 1
    refine List.filter_congr fun n hn => ?_
    obtain ⟨h1, h2⟩ := mem_linkedAll.1 hn
    simp only [Function.comp, hu n h1 h2]
  have e2 : (f.map w).usesCount k = f.usesCount k := by
    unfold Forest.usesCount
    rw [linkedAll_map hl, List.length_map]
  unfold majOf
  rw [e, e2]

theorem Made.maj {f : Forest} {ps ds : List Nat} {w : Node → Node} (hb : Base f ps) (hd : ∀ k ∈ ds, k ∈ ps) (hm : Made f ds w)
    (k : Nat) : majOf (f.map w) k = majOf f k := by
  refine majOf_map (fun n hn => hm.links hb hd hn) fun n hn hl => hm.units hb hd hn fun h => ?_
  rw [(hb.top n hn (hd _ h)).1] at hl
  cases hl

theorem two_congr {n m : Node} (h : m.get .gradientUnits = n.get .gradientUnits) (hn : TwoUnits n) : TwoUnits m := by
  unfold TwoUnits; rw [h]; exact hn

theorem Made.body {f : Forest} {ps ds : List Nat} {w : Node → Node} (hb : Base f ps) (hd : ∀ k ∈ ds, k ∈ ps) (hm : Made f ds w)
    {k : Nat} (hk : k ∈ ps) {g : Forest} (h : groupBody k (f.map w) = some g) : g = f.map fun n => groupNode (majOf f k) k (w n) := by
  have e := group_step ((Forest.uniqueKeys_map hm.key).2 hb.uniq) (by
    intro x hx hxk
    rw [Forest.nodes_map] at hx
    obtain ⟨n, hn, rfl⟩ := List.mem_map.1 hx
    rw [hm.key] at hxk
    rw [hm.links hb hd hn, (hb.top n hn (hxk ▸ hk)).1]
    simp) (by
    intro x hx hl
    rw [Forest.nodes_map] at hx
    obtain ⟨n, hn, rfl⟩ := List.mem_map.1 hx
    rw [hm.links hb hd hn] at hl
    refine two_congr (hm.units hb hd hn fun h => ?_) (hb.under n hn k hk hl).1
    rw [(hb.top n hn (hd _ h)).1] at hl
    cases hl) h
  rw [e, Forest.map_map, hm.maj hb hd]

theorem Made.step {f : Forest} {ps ds : List Nat} {w : Node → Node} (hb : Base f ps) (hd : ∀ k ∈ ds, k ∈ ps) (hm : Made f ds w)
    {k : Nat} (hk : k ∈ ps) : Made f (k :: ds) fun n => groupNode (majOf f k) k (w n) := by
  refine ⟨fun n => (groupNode_key _ _ _).trans (hm.key n), fun n hn h => ?_, fun n hn j hj hl => ?_, fun n hn h h' => ?_⟩
  · have hp : n.key ∈ ps := by
      rcases List.mem_cons.1 h with e | h
      · rw [e]; exact hk
      · exact hd _ h
    have hnl : n.links = [] := (hb.top n hn hp).1
    unfold groupNode
    rw [hm.key, hm.links hb hd hn, hnl, if_neg (show k ∉ ([] : List Nat) by simp)]
    by_cases a : n.key = k
    · rw [if_pos a, a]
      by_cases b : n.key ∈ ds
      · rw [hm.top n hn b, a, parent_parent]
      · rw [hm.rest n hn b fun j _ => by rw [hnl]; simp]
    · rw [if_neg a]
      exact hm.top n hn ((List.mem_cons.1 h).resolve_left a)
  · have hjp : j ∈ ps := by
      rcases List.mem_cons.1 hj with e | h
      · rw [e]; exact hk
      · exact hd _ h
    obtain ⟨two, names, one⟩ := hb.under n hn j hjp hl
    have hnp : n.key ∉ ps := fun h => by rw [(hb.top n hn h).1] at hl; cases hl
    unfold groupNode
    rw [hm.key, hm.links hb hd hn, if_neg (fun (e : n.key = k) => hnp (e ▸ hk))]
    by_cases a : k ∈ n.links
    · obtain rfl := one k a
      rw [if_pos a]
      by_cases b : k ∈ ds
      · rw [hm.under n hn k b a, share_share (majOf_two _ _) two]
      · rw [hm.rest n hn (fun h => hnp (hd _ h)) fun i hi hil => b (one i hil ▸ hi)]
    · rw [if_neg a]
      refine hm.under n hn j ((List.mem_cons.1 hj).resolve_left ?_) hl
      rintro rfl
      exact a hl
  · have h1 : w n = n := hm.rest n hn (fun a => h (by simp [a])) fun j hj => h' j (by simp [hj])
    unfold groupNode
    rw [h1, if_neg fun e => h (by simp [e]), if_neg (h' k (by simp))]

theorem Made.run {f : Forest} {ps ks ds : List Nat} {w : Node → Node} (hb : Base f ps) (hd : ∀ k ∈ ds, k ∈ ps) (hm : Made f ds w)
    (hk : ∀ k ∈ ks, k ∈ ps) {g : Forest} (h : forEach groupBody ks (f.map w) = some g) :
    ∃ es w', g = f.map w' ∧ Made f es w' ∧ (∀ k ∈ es, k ∈ ps) ∧ (∀ k ∈ ds, k ∈ es) ∧ ∀ k ∈ ks, k ∈ es := by
  induction ks generalizing ds w with
  | nil => cases h; exact ⟨ds, w, rfl, hm, hd, fun _ h => h, by simp⟩
  | cons k t ih =>
    obtain ⟨f1, h1, h2⟩ := Option.bind_eq_some_iff.1 h
    have hkp := hk k (by simp)
    rw [hm.body hb hd hkp h1] at h2
    obtain ⟨es, w', e, a, b, c, d⟩ := ih (ds := k :: ds) (by
      intro j hj
      rcases List.mem_cons.1 hj with rfl | hj
      · exact hkp
      · exact hd j hj) (hm.step hb hd hkp) (fun j hj => hk j (by simp [hj])) h2
    refine ⟨es, w', e, a, b, fun j hj => c j (by simp [hj]), fun j hj => ?_⟩
    rcases List.mem_cons.1 hj with rfl | hj
    · exact c _ (by simp)
    · exact d j hj

/-- A gradient that has been dealt with is left alone. -/
theorem Made.again {f : Forest} {ps ds : List Nat} {w : Node → Node} (hb : Base f ps) (hd : ∀ k ∈ ds, k ∈ ps) (hm : Made f ds w)
    {k : Nat} (hk : k ∈ ds) {g : Forest} (h : groupBody k (f.map w) = some g) : g = f.map w := by
  rw [hm.body hb hd (hd _ hk) h]
  refine mapAt fun n hn => ?_
  unfold groupNode
  rw [hm.key, hm.links hb hd hn]
  by_cases a : n.key = k
  · rw [if_pos a, hm.top n hn (a ▸ hk), a, parent_parent]
  · rw [if_neg a]
    by_cases b : k ∈ n.links
    · rw [if_pos b, hm.under n hn k hk b, share_share (majOf_two _ _) (hb.under n hn k (hd _ hk) b).1]
    · rw [if_neg b]

theorem Made.same {f : Forest} {ps ds ks : List Nat} {w : Node → Node} (hb : Base f ps) (hd : ∀ k ∈ ds, k ∈ ps) (hm : Made f ds w)
    (hk : ∀ k ∈ ks, k ∈ ds) {g : Forest} (h : forEach groupBody ks (f.map w) = some g) : g = f.map w := by
  induction ks with
  | nil => cases h; rfl
  | cons k t ih =>
    obtain ⟨f1, h1, h2⟩ := Option.bind_eq_some_iff.1 h
    rw [hm.again hb hd (hk k (by simp)) h1] at h2
    exact ih (fun j hj => hk j (by simp [hj])) h2

theorem mem_parents {f : Forest} {k : Nat} : k ∈ parents f ↔
    ∃ n ∈ f.nodes, n.key = k ∧ n.isGradient = true ∧ n.get .xlinkHref = none ∧ ∀ x ∈ f.nodes, k ∈ x.links → x.isGradient = true := by
  unfold parents
  rw [List.mem_map]
  constructor
  · rintro ⟨n, hn, rfl⟩
    rw [List.mem_filter] at hn
    simp only [Bool.and_eq_true, Bool.not_eq_eq_eq_not, Bool.not_true, List.all_eq_true, Node.has_eq, Option.isSome_eq_false_iff,
      Option.isNone_iff_eq_none] at hn
    exact ⟨n, hn.1, rfl, hn.2.1.1, hn.2.1.2, fun x hx hl => hn.2.2 x (mem_linkedAll.2 ⟨hx, hl⟩)⟩
  · rintro ⟨n, hn, rfl, h1, h2, h3⟩
    refine ⟨n, List.mem_filter.2 ⟨hn, ?_⟩, rfl⟩
    simp only [Bool.and_eq_true, Bool.not_eq_eq_eq_not, Bool.not_true, List.all_eq_true, Node.has_eq, Option.isSome_eq_false_iff,
      Option.isNone_iff_eq_none]
    exact ⟨⟨h1, h2⟩, fun x hx => h3 x (mem_linkedAll.1 hx).1 (mem_linkedAll.1 hx).2⟩

theorem link_mem {n : Node} {a : AId} {l : Nat} (h : n.get a = some (.link l)) : l ∈ n.links := by
  unfold Node.get at h
  obtain ⟨x, hx, e⟩ := Option.map_eq_some_iff.1 h
  exact Node.mem_links.2 ⟨x, getAttr_mem hx, by rw [e]; rfl⟩

theorem base_of {f f1 : Forest} (hr : Ready f) (hi : Inv f f1) (hn1 : UniqueAttrs f1) : Base f1 (parents f1) := by
  refine ⟨hi.uniq hr, fun n hn hk => ?_, fun n hn k hk hl => ?_⟩
  · obtain ⟨m, hm, e, hg, hh, _⟩ := mem_parents.1 hk
    obtain rfl := Forest.eq_of_key (hi.uniq hr) hm hn e
    refine ⟨List.eq_nil_iff_forall_not_mem.2 fun k hl => ?_, hi.two hn hg, hn1 m hn⟩
    have := hi.link hr hn hg hl
    rw [hi.shown hr hn hg, hh] at this
    cases this
  · obtain ⟨_, _, _, _, _, hs⟩ := mem_parents.1 hk
    have hg := hs n hn hl
    refine ⟨hi.two hn hg, hn1 n hn, fun j hj => ?_⟩
    have h1 := hi.link hr hn hg hl
    rw [hi.link hr hn hg hj] at h1
    exact Value.link.inj (Option.some.inj h1)

theorem ready_again {f g : Forest} (hr : Ready f) (h : removeGradientAttributes f = some g) : Ready g := by
  obtain ⟨hi, hc⟩ := inv_of_remove hr h
  have hn := Shade.named_remove hr.names h
  refine ⟨hi.uniq hr, hi.href hr, fun m hm hg => hi.shown hr hm hg, fun m hm hg x hx ht => ?_, hn, fun m hm hg v => ?_, fun m hm hg v hv => ?_⟩
  · obtain ⟨n, hn', c⟩ := hi.mem hm
    have hx' := getAttr_of_mem (hn m hm) hx
    by_cases e : x.name = .id .gradientUnits
    · rw [e] at hx'
      have : m.get .gradientUnits = some x.value := by unfold Node.get; rw [hx']; rfl
      rcases hi.two hm hg with h | h <;> rw [this] at h <;> rw [Option.some.inj h] at ht <;> exact absurd rfl ht
    · rw [c.same.attr _ (by simpa using e)] at hx'
      exact hr.only n hn' ((isGradient_congr c.same.kind).symm.trans hg) x (getAttr_mem hx') ht
  · obtain ⟨w, hw, _⟩ := hc m hm hg
    have := coherent_value (hi.uniq hr) (hi.href hr) hc hm hg hw
    rw [hw]
    exact ⟨fun e => Option.some.inj e ▸ this, fun e => by rw [e.unique this]⟩
  · rcases hi.two hm hg with h | h <;> rw [hv] at h
    · exact .inl (Option.some.inj h)
    · exact .inr (Option.some.inj h)

theorem share_other {m : Kw} {n : Node} : (shareNode m n).get .xlinkHref = n.get .xlinkHref := by
  unfold shareNode
  split
  · exact get_hide _ _ _
  · exact (Node.get_set _ _ _ _).trans (if_neg (by decide))

theorem Made.tidy {f : Forest} {ps es : List Nat} {w : Node → Node} (hb : Base f ps) (hd : ∀ k ∈ es, k ∈ ps) (hm : Made f es w)
    (ht : Tidy f) : Tidy (f.map w) := by
  intro m hm' hg l t hl hf he
  rw [Forest.nodes_map] at hm'
  obtain ⟨n, hn, rfl⟩ := List.mem_map.1 hm'
  rw [Forest.find_map hm.key, Option.map_eq_some_iff] at hf
  obtain ⟨t0, hf0, rfl⟩ := hf
  obtain ⟨ht0, rfl⟩ := Forest.find_some hf0
  have hlm : t0.key ∈ n.links := by rw [← hm.links hb hd hn]; exact link_mem hl
  have hne : n.key ∉ es := fun h => by rw [(hb.top n hn (hd _ h)).1] at hlm; cases hlm
  have hun := hm.units hb hd hn hne
  by_cases c : t0.key ∈ es
  · have e := hm.under n hn _ c hlm
    rw [hun, hm.top t0 ht0 c, parent_get] at he
    rw [e, shareNode, if_pos he, hide_hide]
  · have e : w n = n := hm.rest n hn hne fun k hk hkl => c ((hb.under n hn k (hd _ hk) hkl).2.2 _ hlm ▸ hk)
    rw [hun, hm.units hb hd ht0 c] at he
    rw [e] at hl hg ⊢
    exact ht n hn hg _ _ hl hf0 he

/-- **C67** `removeGradientAttributes` settles (in the documents in which it ends, C45). -/
theorem C67_units : Settles Ready (may removeGradientAttributes) := by
  refine settles_may fun f g hr h => ?_
  have hrg := ready_again hr h
  obtain ⟨f1, h1, h2⟩ := Option.bind_eq_some_iff.1 h
  obtain ⟨hi, _⟩ := rmEqual_spec hr h1
  have hb := base_of hr hi (Shade.named_loop hr.names h1)
  obtain ⟨-, htidy⟩ := tidy_rmEqual hr.uniq h1
  have m0 : Made f1 [] id := ⟨fun _ => rfl, by simp, by simp, fun _ _ _ _ => rfl⟩
  obtain ⟨es, w, rfl, hm, hd, -, hall⟩ := m0.run (ks := parents f1) hb (by simp) (fun _ h => h) (by
    rw [show f1.map id = f1 from Forest.map_id' fun _ _ => rfl]; exact h2) (g := g)
  obtain ⟨r, hr2⟩ := C45_ends hrg
  rw [hr2]
  obtain ⟨g1, h3, h4⟩ := Option.bind_eq_some_iff.1 hr2
  rw [tidy_same hrg.uniq (hm.tidy hb hd htidy) h3] at h4
  refine congrArg some (hm.same hb hd (fun k hk => hall k ?_) h4)
  obtain ⟨x, hx, rfl, hg, hh, hs⟩ := mem_parents.1 hk
  rw [Forest.nodes_map] at hx
  obtain ⟨n, hn, rfl⟩ := List.mem_map.1 hx
  rw [hm.key]
  refine mem_parents.2 ⟨n, hn, rfl, (isGradient_congr (hm.kind hn)).symm.trans hg, ?_, fun x hx hl => ?_⟩
  · rcases hm.cases hn with ⟨h, e⟩ | ⟨k, hk, hl, e⟩ | e
    · obtain ⟨y, hy, e1, _, h2, _⟩ := mem_parents.1 (hd _ h)
      rwa [← Forest.eq_of_key hb.uniq hy hn e1]
    · rwa [e, share_other] at hh
    · rwa [e] at hh
  · rw [← isGradient_congr (hm.kind hx)]
    refine hs (w x) (by rw [Forest.nodes_map]; exact List.mem_map_of_mem hx) ?_
    rw [hm.links hb hd hx, hm.key]; exact hl

/-- There is work to do the first time. -/
example : Ready fourUnits ∧ ∃ g, may removeGradientAttributes fourUnits = .ok g ∧ g ≠ fourUnits ∧ may removeGradientAttributes g = .ok g := by
  have h : Ready fourUnits := ready_of (fun k => k) (by decide +kernel)
  obtain ⟨g, hg⟩ := C45_ends h
  have e : may removeGradientAttributes fourUnits = .ok g := by unfold may; rw [hg]; rfl
  refine ⟨h, g, e, fun c => ?_, C67_units _ _ h e⟩
  rw [c] at hg
  have : ¬ removeGradientAttributes fourUnits = some fourUnits := by decide +kernel
  exact this hg

end Verif.Idem
