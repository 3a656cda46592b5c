import Verif.RenderLemmas
/-
The specification in `Render.lean`, continued: documents without circular references, and how far references have to be
followed for their picture.
-/
namespace Verif.Render
open Verif.Dom Verif.Spec
open Verif.Paths (Transform)

/-- The references in the inherited properties of a node. -/
def Node.styleLinks (n : Node) : List Nat :=
  n.attrs.filterMap fun x => match x.name with | .id a => if inherits a then x.value.target else none | .name _ => none

/-- The ranks of the elements in `v` are greater than those of all elements on which their pictures depend: the ones to which they or their
descendants refer, and the ones to which the properties refer that they inherit (`up`). -/
def Ranked (v : Nat → Prop) (r : Nat → Nat) (up : List Nat) : Forest → Prop
  | .nil => True
  | .cons n k f =>
    (v n.key → (∀ x ∈ up, r x < r n.key) ∧ (∀ x ∈ n.links, r x < r n.key) ∧ ∀ m ∈ k.nodes, ∀ x ∈ m.links, r x < r n.key) ∧
    Ranked v r (up ++ Node.styleLinks n) k ∧ Ranked v r up f

/-- No element that is referred to depends on itself. -/
def Acyclic (f : Forest) : Prop := ∃ r, Ranked (fun k => f.isUsed k = true) r [] f

variable {P : Type} {π : Painter P}

/-- References followed one step further. -/
def next (π : Painter P) (f : Forest) (env : Env P) : Env P :=
  ⟨fun k c via => (instOf π env via c k f).getD π.empty, fun k => (hereOf π env k Ctx.start f).getD π.empty⟩

theorem scene_next (f : Forest) (d : Nat) : scene π f (d + 1) = next π f (scene π f d) := rfl

theorem instOf_none {f : Forest} {k : Nat} (h : k ∉ f.keys) (env : Env P) (via : Attrs P) (c : Ctx) : instOf π env via c k f = none := by
  induction f with
  | nil => rfl
  | cons n ks r ihk ihr =>
    simp only [Forest.keys_cons, List.mem_cons, List.mem_append, not_or] at h
    simp only [instOf]
    rw [if_neg (fun e => h.1 e.symm), ihk h.2.1, ihr h.2.2]
    rfl

theorem hereOf_none {f : Forest} {k : Nat} (h : k ∉ f.keys) (env : Env P) (c : Ctx) : hereOf π env k c f = none := by
  induction f generalizing c with
  | nil => rfl
  | cons n ks r ihk ihr =>
    simp only [Forest.keys_cons, List.mem_cons, List.mem_append, not_or] at h
    simp only [hereOf]
    rw [if_neg (fun e => h.1 e.symm), ihk h.2.1, ihr h.2.2]
    rfl

theorem mem_styleLinks {n : Node} {a : AId} {v : Value} {k : Nat} (ha : inherits a = true) (h : n.get a = some v) (ht : v.target = some k) :
    k ∈ Node.styleLinks n := by
  unfold Node.get at h
  cases hx : getAttr n.attrs (.id a) with
  | none => rw [hx] at h; cases h
  | some y =>
    rw [hx] at h
    simp only [Option.map_some, Option.some.injEq] at h
    refine List.mem_filterMap.2 ⟨y, getAttr_mem hx, ?_⟩
    rw [getAttr_name hx]
    simp only [ha, if_true]
    rw [h, ht]

theorem styleLinks_sub {n : Node} {k : Nat} (h : k ∈ Node.styleLinks n) : k ∈ n.links := by
  obtain ⟨y, hy, h⟩ := List.mem_filterMap.1 h
  refine List.mem_filterMap.2 ⟨y, hy, ?_⟩
  split at h
  · split at h
    · exact h
    · cases h
  · cases h

theorem styleIn_up {up : List Nat} {c : Ctx} (hc : StyleIn (· ∈ up) c) (n : Node) : StyleIn (· ∈ up ++ Node.styleLinks n) (c.enter n) := by
  intro a v k hv hk
  simp only [Ctx.enter] at hv
  split at hv
  next ha =>
    split at hv
    · exact List.mem_append_left _ (hc a v k hv hk)
    next w hw =>
      split at hv
      · exact List.mem_append_left _ (hc a v k hv hk)
      · cases hv
        exact List.mem_append_right _ (mem_styleLinks ha hw hk)
  · cases hv

theorem StyleIn.mono {u w : Nat → Prop} {c : Ctx} (h : StyleIn u c) (hu : ∀ k, u k → w k) : StyleIn w c :=
  fun a v k hv hk => hu k (h a v k hv hk)

/-- An element with the key `k`, as shown by a `use` element, depends only on the references in it. -/
theorem instOf_local {u w : Nat → Prop} {env env' : Env P} (h : AgreeOn u w env env') {f : Forest} {k : Nat}
    (hf : ∀ n ks, (n, ks) ∈ subs f → n.key = k → (∀ x ∈ n.links, w x) ∧ LinksIn w ks) {c : Ctx}
    (hc : StyleIn u c) (via : Attrs P) : instOf π env via c k f = instOf π env' via c k f := by
  induction f with
  | nil => rfl
  | cons n ks r ihk ihr =>
    simp only [instOf]
    rw [ihk (fun m l hm => hf m l (by simp [subs, hm])), ihr (fun m l hm => hf m l (by simp [subs, hm]))]
    by_cases hk : n.key = k
    · obtain ⟨h1, h2⟩ := hf n ks (by simp [subs]) hk
      rw [pics_env h h2 (styleIn_enter hc (fun k hk => h.sub k (h1 k hk))), body_env h hc h1]
    · simp only [hk, if_false]

theorem hereOf_local {u w : Nat → Prop} {env env' : Env P} (h : AgreeOn u w env env') {v : Nat → Prop} {r : Nat → Nat} {up : List Nat}
    {f : Forest} {k : Nat} (hv : v k) (hw : ∀ x, r x < r k → (∃ n ∈ f.nodes, x ∈ n.links) ∨ x ∈ up → w x) (hf : Ranked v r up f) {c : Ctx} (hc : StyleIn (· ∈ up) c) :
    hereOf π env k c f = hereOf π env' k c f := by
  induction f generalizing c up with
  | nil => rfl
  | cons n ks g ihk ihr =>
    obtain ⟨h0, h1, h2⟩ := hf
    simp only [hereOf]
    rw [ihk (fun x hx hm => hw x hx ?_) h1 (styleIn_up hc n), ihr (fun x hx hm => hw x hx ?_) h2 hc]
    · by_cases hk : n.key = k
      · obtain ⟨a1, a2, a3⟩ := h0 (hk ▸ hv)
        rw [hk] at a1 a2 a3
        have hl : ∀ x ∈ n.links, w x := fun x hx => hw x (a2 x hx) (Or.inl ⟨n, by simp, hx⟩)
        have hc' : StyleIn u ⟨c.style, one⟩ :=
          StyleIn.mono (c := ⟨c.style, one⟩) hc (fun x hx => h.sub x (hw x (a1 x hx) (Or.inr hx)))
        rw [pics_env h (fun m hm x hx => hw x (a3 m hm x hx) (Or.inl ⟨m, by simp [hm], hx⟩))
          (styleIn_enter hc' (fun k hk => h.sub k (hl k hk))), body_env h hc' hl]
      · simp only [hk, if_false]
    · rcases hm with ⟨m, hm, hx⟩ | hm
      · exact Or.inl ⟨m, by simp [hm], hx⟩
      · exact Or.inr hm
    · rcases hm with ⟨m, hm, hx⟩ | hm
      · exact Or.inl ⟨m, by simp [hm], hx⟩
      · rcases List.mem_append.1 hm with hm | hm
        · exact Or.inr hm
        · exact Or.inl ⟨n, by simp, styleLinks_sub hm⟩

theorem Ranked.node {v : Nat → Prop} {r : Nat → Nat} {up : List Nat} {f : Forest} (hf : Ranked v r up f) {n : Node} {ks : Forest}
    (h : (n, ks) ∈ subs f) (hv : v n.key) : (∀ x ∈ n.links, r x < r n.key) ∧ LinksIn (fun x => r x < r n.key) ks := by
  induction f generalizing up with
  | nil => cases h
  | cons m k g ihk ihr =>
    obtain ⟨h0, h1, h2⟩ := hf
    simp only [subs, List.mem_cons, List.mem_append] at h
    rcases h with h | h | h
    · cases h
      exact ⟨(h0 hv).2.1, (h0 hv).2.2⟩
    · exact ihk h1 h
    · exact ihr h2 h

theorem linksIn_sub {u : Nat → Prop} {f : Forest} (hf : LinksIn u f) {n : Node} {ks : Forest} (h : (n, ks) ∈ subs f) :
    (∀ x ∈ n.links, u x) ∧ LinksIn u ks := by
  induction f with
  | nil => cases h
  | cons m k g ihk ihr =>
    simp only [subs, List.mem_cons, List.mem_append] at h
    rcases h with h | h | h
    · cases h
      exact ⟨hf n (by simp), fun m hm => hf m (by simp [hm])⟩
    · exact ihk (fun m hm => hf m (by simp [hm])) h
    · exact ihr (fun m hm => hf m (by simp [hm])) h

/-- The elements in `v` of rank less than `m`; the ones that are not there count as well. -/
def Low (v : Nat → Prop) (r : Nat → Nat) (f : Forest) (m : Nat) (k : Nat) : Prop := v k ∧ (k ∉ f.keys ∨ r k < m)

theorem Low.mono {v : Nat → Prop} {r : Nat → Nat} {f : Forest} {m m' k : Nat} (hm : m ≤ m') (h : Low v r f m k) : Low v r f m' k :=
  ⟨h.1, h.2.imp id (fun h => lt_of_lt_of_le h hm)⟩

theorem next_here {v : Nat → Prop} {r : Nat → Nat} {f : Forest} (hv : LinksIn v f) (hr : Ranked v r [] f) {m : Nat} {env env' : Env P}
    (h : Agree (Low v r f m) env env') {k : Nat} (hk : Low v r f (m + 1) k) : (next π f env).here k = (next π f env').here k := by
  show (hereOf π env k Ctx.start f).getD _ = (hereOf π env' k Ctx.start f).getD _
  by_cases hf : k ∈ f.keys
  · rw [hereOf_local h hk.1 (fun x hx hm => ?_) hr (fun a v k hv => by cases hv)]
    rcases hm with ⟨n, hn, hm⟩ | hm
    · exact ⟨hv n hn x hm, Or.inr (lt_of_lt_of_le hx (Nat.le_of_lt_succ (hk.2.resolve_left (fun e => e hf))))⟩
    · cases hm
  · rw [hereOf_none hf, hereOf_none hf]

theorem next_inst {v : Nat → Prop} {r : Nat → Nat} {f : Forest} (hv : LinksIn v f) (hr : Ranked v r [] f) {m j : Nat} {env env' : Env P}
    (h : AgreeOn (Low v r f m) (Low v r f j) env env') {k : Nat} (hk : Low v r f (j + 1) k) {c : Ctx} (hc : StyleIn (Low v r f m) c) (via : Attrs P) :
    (next π f env).inst k c via = (next π f env').inst k c via := by
  show (instOf π env via c k f).getD _ = (instOf π env' via c k f).getD _
  by_cases hf : k ∈ f.keys
  · have hlt := Nat.le_of_lt_succ (hk.2.resolve_left (fun e => e hf))
    rw [instOf_local h (fun n ks hn he => ?_) hc via]
    obtain ⟨a, b⟩ := hr.node hn (he ▸ hk.1)
    obtain ⟨a', b'⟩ := linksIn_sub hv hn
    rw [he] at a b
    exact ⟨fun x hx => ⟨a' x hx, Or.inr (lt_of_lt_of_le (a x hx) hlt)⟩,
      fun n hn x hx => ⟨b' n hn x hx, Or.inr (lt_of_lt_of_le (b n hn x hx) hlt)⟩⟩
  · rw [instOf_none hf, instOf_none hf]

/-- Sequences in which references are followed further and further reach the same pictures. -/
theorem converge {v : Nat → Prop} {r : Nat → Nat} {f : Forest} (hv : LinksIn v f) (hr : Ranked v r [] f) (s s' : Nat → Env P)
    (hs : ∀ d, Agree v (s (d + 1)) (next π f (s d))) (hs' : ∀ d, Agree v (s' (d + 1)) (next π f (s' d))) :
    ∃ D, ∀ d ≥ D, Agree v (s d) (s' d) := by
  have key : ∀ m, ∃ D, ∀ d ≥ D, Agree (Low v r f m) (s d) (s' d) := by
    intro m
    induction m with
    | zero =>
      refine ⟨1, fun d hd => ?_⟩
      obtain ⟨d, rfl⟩ : ∃ e, d = e + 1 := ⟨d - 1, by omega⟩
      refine ⟨fun _ h => h, fun k hk => ?_, fun k c via hk hc => ?_⟩
      · have hf : k ∉ f.keys := hk.2.resolve_right (Nat.not_lt_zero _)
        rw [(hs d).here k hk.1, (hs' d).here k hk.1]
        show (hereOf π _ k _ f).getD _ = (hereOf π _ k _ f).getD _
        rw [hereOf_none hf, hereOf_none hf]
      · have hf : k ∉ f.keys := hk.2.resolve_right (Nat.not_lt_zero _)
        have hc' : StyleIn v c := hc.mono (fun _ h => h.1)
        rw [(hs d).inst k c via hk.1 hc', (hs' d).inst k c via hk.1 hc']
        show (instOf π _ _ _ k f).getD _ = (instOf π _ _ _ k f).getD _
        rw [instOf_none hf, instOf_none hf]
    | succ m ih =>
      obtain ⟨D, hD⟩ := ih
      have hhere : ∀ d ≥ D + 1, ∀ k, Low v r f (m + 1) k → (s d).here k = (s' d).here k := by
        intro d hd k hk
        obtain ⟨d, rfl⟩ : ∃ e, d = e + 1 := ⟨d - 1, by omega⟩
        rw [(hs d).here k hk.1, (hs' d).here k hk.1, next_here hv hr (hD d (by omega)) hk]
      have inner : ∀ j, j ≤ m + 1 → ∃ E, ∀ d ≥ E, AgreeOn (Low v r f (m + 1)) (Low v r f j) (s d) (s' d) := by
        intro j
        induction j with
        | zero =>
          intro hj
          refine ⟨D + 1, fun d hd => ⟨fun k h => h.mono (by omega), hhere d hd, fun k c via hk hc => ?_⟩⟩
          obtain ⟨d, rfl⟩ : ∃ e, d = e + 1 := ⟨d - 1, by omega⟩
          have hf : k ∉ f.keys := hk.2.resolve_right (Nat.not_lt_zero _)
          have hc' : StyleIn v c := hc.mono (fun _ h => h.1)
          rw [(hs d).inst k c via hk.1 hc', (hs' d).inst k c via hk.1 hc']
          show (instOf π _ _ _ k f).getD _ = (instOf π _ _ _ k f).getD _
          rw [instOf_none hf, instOf_none hf]
        | succ j ihj =>
          intro hj
          obtain ⟨E, hE⟩ := ihj (by omega)
          refine ⟨max (D + 1) (E + 1), fun d hd => ⟨fun k h => h.mono hj, hhere d (by omega), fun k c via hk hc => ?_⟩⟩
          obtain ⟨d, rfl⟩ : ∃ e, d = e + 1 := ⟨d - 1, by omega⟩
          have hc' : StyleIn v c := hc.mono (fun _ h => h.1)
          rw [(hs d).inst k c via hk.1 hc', (hs' d).inst k c via hk.1 hc', next_inst hv hr (hE d (by omega)) hk hc via]
      exact inner (m + 1) (le_refl _)
  obtain ⟨R, hR⟩ : ∃ R, ∀ k ∈ f.keys, r k < R := by
    generalize f.keys = l
    induction l with
    | nil => exact ⟨0, by simp⟩
    | cons x l ih =>
      obtain ⟨R, hR⟩ := ih
      refine ⟨max R (r x + 1), fun k hk => ?_⟩
      rcases List.mem_cons.1 hk with rfl | hk
      · exact lt_of_lt_of_le (Nat.lt_succ_self _) (le_max_right _ _)
      · exact lt_of_lt_of_le (hR k hk) (le_max_left _ _)
  have hlow : ∀ k, v k → Low v r f R k := fun k hk => ⟨hk, by
    by_cases hf : k ∈ f.keys
    · exact Or.inr (hR k hf)
    · exact Or.inl hf⟩
  obtain ⟨D, hD⟩ := key R
  exact ⟨D, fun d hd => ⟨fun _ h => h, fun k hk => (hD d hd).here k (hlow k hk),
    fun k c via hk hc => (hD d hd).inst k c via (hlow k hk) (hc.mono hlow)⟩⟩

theorem Agree.refl (v : Nat → Prop) (env : Env P) : Agree v env env := ⟨fun _ h => h, fun _ _ => rfl, fun _ _ _ _ _ => rfl⟩

/-- A ranking of the elements that are referred to extends to all elements. -/
theorem ranked_all {v : Nat → Prop} {r : Nat → Nat} {f : Forest} (hv : LinksIn v f) (hr : Ranked v r [] f) :
    ∃ r', Ranked (fun _ => True) r' [] f := by
  classical
  obtain ⟨R, hR⟩ : ∃ R, ∀ k ∈ f.nodes.flatMap (·.links), r k < R := by
    generalize f.nodes.flatMap (·.links) = l
    induction l with
    | nil => exact ⟨0, by simp⟩
    | cons x l ih =>
      obtain ⟨R, hR⟩ := ih
      refine ⟨max R (r x + 1), fun k hk => ?_⟩
      rcases List.mem_cons.1 hk with rfl | hk
      · exact lt_of_lt_of_le (Nat.lt_succ_self _) (le_max_right _ _)
      · exact lt_of_lt_of_le (hR k hk) (le_max_left _ _)
  refine ⟨fun k => if v k then r k else R, ?_⟩
  have go : ∀ (g : Forest) (up : List Nat), (∀ n ∈ g.nodes, ∀ x ∈ n.links, v x ∧ r x < R) → (∀ x ∈ up, v x ∧ r x < R) → Ranked v r up g →
      Ranked (fun _ => True) (fun k => if v k then r k else R) up g := by
    intro g
    induction g with
    | nil => intro _ _ _ _; trivial
    | cons n k g ihk ihr =>
      intro up hl hu h
      obtain ⟨h0, h1, h2⟩ := h
      refine ⟨fun _ => ?_, ihk _ (fun m hm => hl m (by simp [hm])) ?_ h1, ihr _ (fun m hm => hl m (by simp [hm])) hu h2⟩
      · by_cases hn : v n.key
        · obtain ⟨a, b, c⟩ := h0 hn
          refine ⟨fun x hx => ?_, fun x hx => ?_, fun m hm x hx => ?_⟩
          · simp only [hn, (hu x hx).1, if_true]; exact a x hx
          · simp only [hn, (hl n (by simp) x hx).1, if_true]; exact b x hx
          · simp only [hn, (hl m (by simp [hm]) x hx).1, if_true]; exact c m hm x hx
        · refine ⟨fun x hx => ?_, fun x hx => ?_, fun m hm x hx => ?_⟩
          · simp only [hn, (hu x hx).1, if_true, if_false]; exact (hu x hx).2
          · simp only [hn, (hl n (by simp) x hx).1, if_true, if_false]; exact (hl n (by simp) x hx).2
          · simp only [hn, (hl m (by simp [hm]) x hx).1, if_true, if_false]; exact (hl m (by simp [hm]) x hx).2
      · intro x hx
        rcases List.mem_append.1 hx with hx | hx
        · exact hu x hx
        · exact hl n (by simp) x (styleLinks_sub hx)
  exact go f [] (fun n hn x hx => ⟨hv n hn x hx, hR x (List.mem_flatMap.2 ⟨n, hn, hx⟩)⟩) (by simp) hr

theorem used_links (f : Forest) : LinksIn (fun x => f.isUsed x = true) f := fun _ hn _ hx => Forest.isUsed_iff.2 ⟨_, hn, hx⟩

/-- Without circular references, the pictures do not change any more from some depth on. -/
theorem Acyclic.limit {f : Forest} (h : Acyclic f) (π : Painter P) : ∃ (E : Env P) (D : Nat), E = next π f E ∧ ∀ d ≥ D, scene π f d = E := by
  obtain ⟨r, hr⟩ := h
  obtain ⟨r', hr'⟩ := ranked_all (used_links f) hr
  obtain ⟨D, hD⟩ := converge (π := π) (fun _ _ _ _ => trivial) hr' (scene π f) (fun d => scene π f (d + 1))
    (fun d => Agree.refl _ _) (fun d => Agree.refl _ _)
  have heq : ∀ d ≥ D, scene π f d = scene π f (d + 1) := by
    intro d hd
    have := hD d hd
    have h1 : (scene π f d).here = (scene π f (d + 1)).here := funext fun k => this.here k trivial
    have h2 : (scene π f d).inst = (scene π f (d + 1)).inst :=
      funext fun k => funext fun c => funext fun via => this.inst k c via trivial (fun _ _ _ _ _ => trivial)
    cases hx : scene π f d with
    | mk i1 h3 =>
      cases hy : scene π f (d + 1) with
      | mk i2 h4 =>
        rw [hx, hy] at h1 h2
        simp only at h1 h2
        rw [h1, h2]
  have hall : ∀ d ≥ D, scene π f d = scene π f D := by
    intro d hd
    induction d, hd using Nat.le_induction with
    | base => rfl
    | succ d hd ih => rw [← heq d hd, ih]
  exact ⟨scene π f D, D, by rw [← scene_next]; exact heq D (le_refl _), hall⟩

/-- **The picture of a document without circular references** is that at any sufficiently large depth. -/
theorem Acyclic.stable {f : Forest} (h : Acyclic f) (π : Painter P) : ∃ (D : Nat), ∀ d ≥ D, picture π d f = picture π D f := by
  obtain ⟨E, D, _, hE⟩ := h.limit π
  exact ⟨D, fun d hd => by unfold picture; rw [hE d hd, hE D (le_refl _)]⟩

/-- Documents look the same if, with the pictures of the elements to which the first one refers, the second one has the same
picture and the same pictures of the elements to which it refers. -/
theorem sameView_of {f g : Forest} (hf : Acyclic f) (hg : Acyclic g)
    (h : ∀ {P : Type} (π : Painter P) (E : Env P), E = next π f E →
      stack π isElem (pics π E Ctx.start f) = stack π isElem (pics π E Ctx.start g) ∧
      (∀ via c k, g.isUsed k = true → instOf π E via c k f = instOf π E via c k g) ∧
      ∀ k, g.isUsed k = true → hereOf π E k Ctx.start f = hereOf π E k Ctx.start g) : SameView f g := by
  intro P π
  obtain ⟨E, D, hE, hD⟩ := hf.limit π
  obtain ⟨h1, h2, h3⟩ := h π E hE
  obtain ⟨r, hr⟩ := hg
  have hagree : Agree (fun k => g.isUsed k = true) E (next π g E) := by
    refine ⟨fun _ h => h, fun k hk => ?_, fun k c via hk _ => ?_⟩
    · conv_lhs => rw [hE]
      show (hereOf π E k _ f).getD _ = (hereOf π E k _ g).getD _
      rw [h3 k hk]
    · conv_lhs => rw [hE]
      show (instOf π E via c k f).getD _ = (instOf π E via c k g).getD _
      rw [h2 via c k hk]
  obtain ⟨D', hD'⟩ := converge (π := π) (used_links g) hr (fun _ => E) (scene π g) (fun _ => hagree) (fun d => Agree.refl _ _)
  refine ⟨max D D', fun d hd => ?_⟩
  unfold picture
  rw [hD d (le_trans (le_max_left _ _) hd), h1, pics_env (hD' d (le_trans (le_max_right _ _) hd)) (used_links g) (fun a v k hv => by cases hv)]

end Verif.Render
