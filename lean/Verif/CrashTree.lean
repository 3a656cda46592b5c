import Verif.CrashNodes
/-
C53: the tasks that remove nodes, and the tasks for gradients.
-/
namespace Verif.Crash
open Verif.Dom Verif.Spec
open Verif.Dom (Res)
open Verif.Pipeline

variable {C : Ctx}

/-! ### Unused definitions -/

theorem top_setKids (f : Forest) (d : Nat) (c : Forest) : (f.setKids d c).top = f.top := by
  induction f with
  | nil => rfl
  | cons n k r _ ih =>
    rw [Forest.setKids]
    split <;> simp [Forest.top, ih]

theorem keys_setKids_sub {f : Forest} {d : Nat} {c : Forest} (h : ∀ x ∈ subs f, x.1.key = d → ∀ j ∈ c.keys, j ∈ x.2.keys) :
    ∀ j ∈ (f.setKids d c).keys, j ∈ f.keys := by
  induction f with
  | nil => exact fun _ h => h
  | cons n k r ih1 ih2 =>
    intro j hj
    rw [Forest.setKids] at hj
    have h2 := ih2 fun x hx => h x (by simp [subs, hx])
    split at hj
    next e =>
      simp only [Forest.keys_cons, List.mem_cons, List.mem_append] at hj ⊢
      rcases hj with hj | hj | hj
      · exact .inl hj
      · exact .inr (.inl (h (n, k) (by simp [subs]) e j hj))
      · exact .inr (.inr (h2 j hj))
    next e =>
      simp only [Forest.keys_cons, List.mem_cons, List.mem_append] at hj ⊢
      rcases hj with hj | hj | hj
      · exact .inl hj
      · exact .inr (.inl (ih1 (fun x hx => h x (by simp [subs, hx])) j hj))
      · exact .inr (.inr (h2 j hj))

theorem flow_setKids {f : Forest} {d : Nat} {c : Forest}
    (h : ∀ x ∈ subs f, x.1.key = d → ¬ (x.1.kind = .elem .g ∨ gradKind x.1.kind = true) ∧ Flow C x.2 c ∧ ∀ j ∈ c.keys, j ∈ x.2.keys) : Flow C f (f.setKids d c) := by
  induction f with
  | nil => exact Flow.refl C _
  | cons n k r ih1 ih2 =>
    have h1 := ih1 fun x hx => h x (by simp [subs, hx])
    have h2 := ih2 fun x hx => h x (by simp [subs, hx])
    intro y hy
    rw [Forest.setKids] at hy
    split at hy
    next e =>
      obtain ⟨hg, hf, hk⟩ := h (n, k) (by simp [subs]) e
      simp only [subs, List.mem_cons, List.mem_append] at hy
      rcases hy with rfl | hy | hy
      · exact ⟨(n, k), by simp [subs], Tame.refl C n, hk, fun e => absurd e hg, fun _ e => absurd (.inr e) hg⟩
      · obtain ⟨x, hx, h'⟩ := hf y hy
        exact ⟨x, by simp [subs, hx], h'⟩
      · obtain ⟨x, hx, h'⟩ := h2 y hy
        exact ⟨x, by simp [subs, hx], h'⟩
    next e =>
      simp only [subs, List.mem_cons, List.mem_append] at hy
      rcases hy with rfl | hy | hy
      · refine ⟨(n, k), by simp [subs], Tame.refl C n, keys_setKids_sub fun x hx e => (h x (by simp [subs, hx]) e).2.2, fun _ m hm => ?_, fun _ _ e => ?_⟩
        · dsimp only at hm
          rw [top_setKids] at hm
          exact ⟨m, hm, Tame.refl C _⟩
        · dsimp only at e
          rwa [top_setKids] at e
      · obtain ⟨x, hx, h'⟩ := h1 y hy
        exact ⟨x, by simp [subs, hx], h'⟩
      · obtain ⟨x, hx, h'⟩ := h2 y hy
        exact ⟨x, by simp [subs, hx], h'⟩

theorem anchored_setKids {f : Forest} {d : Nat} {c : Forest} (h : Anchored C f) (hd : d ≠ C.s) : Anchored C (f.setKids d c) := by
  obtain ⟨S, ks, D, h1, h2, h3, h4, h5⟩ := h
  refine ⟨S, ks.setKids d c, D, ?_, h2, by rw [top_setKids]; exact h3, h4, h5⟩
  induction f with
  | nil => cases h1
  | cons n k r _ ih =>
    rw [svgElement] at h1
    rw [Forest.setKids]
    split at h1
    next e =>
      cases h1
      rw [if_neg (by rw [h2]; exact hd.symm), svgElement, if_pos e]
    next e =>
      split <;> (rw [svgElement, if_neg e]; exact ih h1)

section
open Verif.UnusedDefs

theorem Inv.unusedDefs {f g : Forest} (hf : Inv C f) (h : removeUnusedDefs f = some g) : Inv C g := by
  have hsafe := (tame_removeUnusedDefs h).safe hf.unique hf.links
  obtain ⟨d, c, c', hc, hs⟩ := main hf.unique h
  have hn : d ∈ f.nodes := subs_nodes hc.before
  have hk := hc.defs
  have hfl : Flow C c c' := fun y hy => ⟨y, hc.content y hy, Tame.refl C _, fun _ h => h, fun _ m hm => ⟨m, hm, Tame.refl C _⟩, fun _ _ h => h⟩
  have hsub : ∀ j ∈ c'.keys, j ∈ c.keys := fun j hj => by
    obtain ⟨n, hn, rfl⟩ := Forest.mem_keys.1 hj
    obtain ⟨k, hk⟩ := nodes_subs hn
    exact Forest.key_mem (subs_nodes (hc.content _ hk))
  rw [hs.tree] at hsafe ⊢
  refine hf.flow (flow_setKids fun x hx e => ?_) hsafe.unique hsafe.links (anchored_setKids hf.root fun e => ?_)
  · have e1 := Forest.eq_of_key hf.unique (subs_nodes hx) hn e
    have e2 : x.2 = c := by
      have := kidsOf_subs hf.unique (n := x.1) (c := x.2) hx
      rw [e, kidsOf_subs hf.unique hc.before] at this
      exact (Option.some.inj this).symm
    rw [e1, e2, hk]
    exact ⟨by simp [gradKind], hfl, hsub⟩
  · have := hf.kindS hn e
    rw [hk] at this; simp at this

theorem holds_removeUnusedDefs : Holds (Inv C) (may removeUnusedDefs) := by
  refine Holds.may fun f hf => ?_
  obtain ⟨n, hn, e⟩ := hf.memD
  obtain ⟨g, hg⟩ := (C25_ends f).2 ⟨n, hn, hf.kindD hn e⟩
  exact ⟨g, hg, hf.unusedDefs hg⟩

end

/-! ### Invisible elements -/

section
open Verif.Invisible
open Verif.ResolveUse (subtree)

theorem Inv.drain {f : Forest} (hf : Inv C f) {p : Node → Forest → Bool} (hp : ∀ n k, p n k = true → n.kind ≠ .elem .svg ∧ n.kind ≠ .elem .defs ∧ noGrad n.kind) :
    Inv C (drain p f).1 := by
  unfold Invisible.drain
  have : ∀ (l : List Nat) (g : Forest × Bool), Inv C g.1 → Inv C (l.foldl (fun g k => match subtree k g.1 with
      | some (n, ks) => if p n ks then (Invisible.rmKey k g.1, true) else g
      | none => g) g).1 := by
    intro l
    induction l with
    | nil => exact fun g h => h
    | cons k t ih =>
      intro g hg
      rw [List.foldl_cons]
      refine ih _ ?_
      cases hs : subtree k g.1 with
      | none => exact hg
      | some x =>
        obtain ⟨n, ks⟩ := x
        simp only
        by_cases hpn : p n ks = true
        · rw [if_pos hpn]
          obtain ⟨h1, h2⟩ := GroupDefs.subtree_mem hs
          have := hp n ks hpn
          dsimp only at h2
          refine hg.rmKey (fun e => this.1 (hg.kindS (subs_nodes h1) (h2.trans e))) (fun e => this.2.1 (hg.kindD (subs_nodes h1) (h2.trans e))) fun _ => ?_
          rw [← h2, ← (hg.nodes n (subs_nodes h1)).kind.noGrad]
          exact this.2.2
        · rw [if_neg hpn]; exact hg
  exact this _ _ hf

theorem drain_tag {e : EId} (h1 : e ≠ .svg) (h2 : e ≠ .defs) (h3 : noGrad (.elem e)) {n : Node} (h : n.isTag e = true) :
    n.kind ≠ .elem .svg ∧ n.kind ≠ .elem .defs ∧ noGrad n.kind := by
  rw [(Node.isTag_iff _ _).1 h]
  exact ⟨by simpa using h1, by simpa using h2, h3⟩

theorem hiddenKeys_mem {f c : Forest} {k : Nat} (h : k ∈ hiddenKeys f c) : ∃ n ∈ c.nodes, n.key = k ∧ n.get .display = some (.kw .none) := by
  induction c with
  | nil => cases h
  | cons n q r ih1 ih2 =>
    rw [hiddenKeys, List.mem_append] at h
    simp only [Forest.nodes, List.mem_cons, List.mem_append]
    rcases h with h | h
    · split at h
      · split at h
        next hd =>
          simp only [Bool.and_eq_true, decide_eq_true_eq] at hd
          split at h
          · cases h
          · exact ⟨n, .inl rfl, (List.mem_singleton.1 h).symm, hd.1⟩
        · obtain ⟨m, hm, e⟩ := ih1 h
          exact ⟨m, .inr (.inl hm), e⟩
      · cases h
    · obtain ⟨m, hm, e⟩ := ih2 h
      exact ⟨m, .inr (.inr hm), e⟩

theorem Inv.display {f : Forest} (hf : Inv C f) : Inv C (displayStep f).1 := by
  refine hf.rmKeys fun k hk => ?_
  obtain ⟨n, hn, rfl, hd⟩ := hiddenKeys_mem hk
  have h := (hf.nodes n hn).get hd
  refine ⟨(h.shown rfl rfl).1, (h.shown rfl rfl).2, fun _ => ?_⟩
  rw [← (hf.nodes n hn).kind.noGrad]
  constructor
  · cases hg : gradKind n.kind with
    | false => rfl
    | true => exact absurd rfl (h.grad.shown (.inl hg) rfl)
  · exact fun hs => absurd rfl (h.grad.shown (.inr hs) rfl)

theorem Inv.tagKey {f : Forest} (hf : Inv C f) {n : Node} (hn : n ∈ f.nodes) {e : EId} (he : n.kind = .elem e) (h1 : e ≠ .svg) (h2 : e ≠ .defs) : n.key ≠ C.s ∧ n.key ≠ C.d := by
  constructor
  · intro h; have := hf.kindS hn h; rw [he] at this; exact h1 (by simpa using this)
  · intro h; have := hf.kindD hn h; rw [he] at this; exact h2 (by simpa using this)

theorem Inv.tagGrad {f : Forest} (hf : Inv C f) {n : Node} (hn : n ∈ f.nodes) {e : EId} (he : n.kind = .elem e) (h : noGrad (.elem e)) : noGrad (C.kind n.key) := by
  rw [← (hf.nodes n hn).kind.noGrad, he]; exact h

theorem Inv.linked {f : Forest} (hf : Inv C f) {n : Node} (hn : n ∈ f.nodes) {k : Nat} (hk : k ∈ n.links) :
    n.key ≠ C.s ∧ n.key ≠ C.d ∧ (gradKind (C.kind k) = false → noGrad (C.kind n.key)) := by
  obtain ⟨x, hx, e⟩ := Node.mem_links.1 hk
  have h := (hf.nodes n hn).attrs x hx
  have := h.link k e
  refine ⟨this.1, this.2.1, fun hk => ?_⟩
  rw [← (hf.nodes n hn).kind.noGrad]
  constructor
  · cases hg : gradKind n.kind with
    | false => rfl
    | true => rw [(h.grad.link hg k e).2.1] at hk; cases hk
  · intro hs
    rw [h.grad.stop hs] at e; cases e

theorem mem_linkedAll {f : Forest} {k : Nat} {n : Node} (h : n ∈ f.linkedAll k) : n ∈ f.nodes ∧ k ∈ n.links := by
  unfold Forest.linkedAll at h
  obtain ⟨m, hm, h⟩ := List.mem_flatMap.1 h
  obtain ⟨x, hx, rfl⟩ := List.mem_map.1 h
  obtain ⟨h1, h2⟩ := List.mem_filter.1 hx
  rw [decide_eq_true_eq] at h2
  exact ⟨hm, h2 ▸ h1⟩

theorem Inv.server {f : Forest} (hf : Inv C f) {k : Nat} (h1 : k ≠ C.s) (h2 : k ≠ C.d) (h3 : noGrad (C.kind k)) : Inv C (rmServer k f) := by
  refine Inv.rmKey (hf.rmKeys fun j hj => ?_) h1 h2 fun _ => h3
  obtain ⟨n, hn, rfl⟩ := List.mem_map.1 hj
  have := hf.linked (mem_linkedAll hn).1 (mem_linkedAll hn).2
  exact ⟨this.1, this.2.1, fun _ => this.2.2 h3.1⟩

theorem Inv.servers {l : List Nat} {f : Forest} (hf : Inv C f) (hl : ∀ k ∈ l, k ≠ C.s ∧ k ≠ C.d ∧ noGrad (C.kind k)) : Inv C (l.foldl (fun g k => rmServer k g) f) := by
  induction l generalizing f with
  | nil => exact hf
  | cons k t ih => exact ih (hf.server (hl k (by simp)).1 (hl k (by simp)).2.1 (hl k (by simp)).2.2) fun j hj => hl j (by simp [hj])

theorem Inv.clipKids {l : List Nat} {f : Forest} (hf : Inv C f) (hl : ∀ k ∈ l, k ≠ C.s ∧ k ≠ C.d ∧ noGrad (C.kind k)) :
    Inv C (clipKidsStep l f).1 ∧ ∀ k ∈ (clipKidsStep l f).2, k ≠ C.s ∧ k ≠ C.d ∧ noGrad (C.kind k) := by
  induction l generalizing f with
  | nil => exact ⟨hf, by simp [clipKidsStep]⟩
  | cons k t ih =>
    have h1 : Inv C (Invisible.rmKeys (badKids f k) f) := by
      refine hf.rmKeys fun j hj => ?_
      unfold badKids at hj
      split at hj
      next c hc =>
        obtain ⟨n, hn, rfl⟩ := List.mem_map.1 hj
        obtain ⟨p, rfl, hp⟩ := UnusedDefs.subs_kidsOf hc
        have := (hf.trees _ hp).below (hl _ (by simp)).1 (hl _ (by simp)).2.1 n.key (Forest.mem_keys.2 ⟨n, GroupStyle.mem_top_nodes (List.mem_of_mem_filter hn), rfl⟩)
        refine ⟨this.2.1, this.2.2.1, fun _ => ⟨?_, (this.2.2.2 ?_).2⟩⟩
        · cases hg : gradKind (C.kind n.key) with
          | false => rfl
          | true => rw [gradKind_def hg] at this; cases this.1
        · rw [(hf.nodes _ (subs_nodes hp)).kind.grad]
          exact (hl _ (by simp)).2.2.1
      · cases hj
    obtain ⟨h2, h3⟩ := ih h1 fun j hj => hl j (by simp [hj])
    unfold clipKidsStep
    simp only
    split
    · split
      · refine ⟨h2, fun j hj => ?_⟩
        rcases List.mem_cons.1 hj with rfl | hj
        · exact hl _ (by simp)
        · exact h3 j hj
      · exact ⟨h2, h3⟩
    · exact ⟨h2, h3⟩

theorem Inv.clip {f : Forest} (hf : Inv C f) : Inv C (clipStep f).1 := by
  obtain ⟨h1, h2⟩ := hf.clipKids (l := (f.nodes.filter (·.isTag .clipPath)).map (·.key)) fun k hk => by
    obtain ⟨n, hn, rfl⟩ := List.mem_map.1 hk
    obtain ⟨hn, ht⟩ := List.mem_filter.1 hn
    have ht := (Node.isTag_iff _ _).1 ht
    exact ⟨(hf.tagKey hn ht (by decide) (by decide)).1, (hf.tagKey hn ht (by decide) (by decide)).2, hf.tagGrad hn ht ⟨rfl, by decide⟩⟩
  exact h1.servers fun k hk => h2 k (List.mem_reverse.1 hk)

theorem emptyFilters_mem {f : Forest} {k : Nat} (h : k ∈ emptyFilters f) : ∃ n ∈ f.nodes, n.key = k ∧ n.kind = .elem .filter := by
  induction f with
  | nil => cases h
  | cons n q r ih1 ih2 =>
    rw [emptyFilters, List.mem_append, List.mem_append] at h
    simp only [Forest.nodes, List.mem_cons, List.mem_append]
    rcases h with (h | h) | h
    · split at h
      next e =>
        simp only [Bool.and_eq_true] at e
        exact ⟨n, .inl rfl, (List.mem_singleton.1 h).symm, (Node.isTag_iff _ _).1 e.1⟩
      · cases h
    · obtain ⟨m, hm, e⟩ := ih1 h; exact ⟨m, .inr (.inl hm), e⟩
    · obtain ⟨m, hm, e⟩ := ih2 h; exact ⟨m, .inr (.inr hm), e⟩

theorem Inv.filters {f : Forest} (hf : Inv C f) : Inv C (filterStep f).1 := by
  refine hf.servers fun k hk => ?_
  obtain ⟨n, hn, rfl, e⟩ := emptyFilters_mem hk
  exact ⟨(hf.tagKey hn e (by decide) (by decide)).1, (hf.tagKey hn e (by decide) (by decide)).2, hf.tagGrad hn e ⟨rfl, by decide⟩⟩

theorem emptyGradients_nil {f : Forest} (h : ∀ x ∈ subs f, gradKind x.1.kind = true → x.2.top = [] → x.1.has .xlinkHref = true) : emptyGradients f = [] := by
  induction f with
  | nil => rfl
  | cons n q r ih1 ih2 =>
    rw [emptyGradients, ih1 fun x hx => h x (by simp [subs, hx]), ih2 fun x hx => h x (by simp [subs, hx])]
    rw [if_neg]
    · rfl
    · intro e
      simp only [Bool.and_eq_true, Bool.not_eq_true', ← gradKind_eq] at e
      obtain ⟨⟨e1, e2⟩, e3⟩ := e
      cases q with
      | nil => rw [h (n, .nil) (by simp [subs]) e1 rfl] at e3; cases e3
      | cons => cases e2

theorem solidGradients_mem {f : Forest} {x : Nat × Node} (h : x ∈ solidGradients f) : ∃ y ∈ subs f, y.1.key = x.1 ∧ gradKind y.1.kind = true ∧ x.2 ∈ y.2.top := by
  induction f with
  | nil => cases h
  | cons n q r ih1 ih2 =>
    unfold solidGradients at h
    simp only [List.mem_append] at h
    rcases h with (h | h) | h
    · split at h
      · split at h
        next e =>
          simp only [Bool.and_eq_true] at e
          rw [List.mem_singleton.1 h]
          exact ⟨_, List.mem_cons_self .., rfl, by rw [gradKind_eq]; exact e.1, List.mem_cons_self ..⟩
        · cases h
      · cases h
    · obtain ⟨y, hy, h⟩ := ih1 h; exact ⟨y, by simp [subs, hy], h⟩
    · obtain ⟨y, hy, h⟩ := ih2 h; exact ⟨y, by simp [subs, hy], h⟩

/-- An attribute that refers to something gets a colour. -/
theorem AttrOk.solid {n : Node} {a : AId} {v : Value} {k : Nat} {r g b : _} (h : AttrOk C n (.id a) v) (hg : gradKind n.kind = false) (hv : v.target = some k) :
    AttrOk C n (.id a) (.color r g b) where
  grad := by
    refine ⟨fun e => ?_, fun _ => ⟨_, _, _, rfl⟩, fun e => ?_, fun e => ?_, fun _ k e => ?_, fun _ _ e => ?_, fun _ => rfl⟩
    · obtain ⟨t, rfl⟩ := h.grad.ts e; cases hv
    · obtain ⟨t, rfl⟩ := h.grad.opacity e; cases hv
    · rw [hg] at e; cases e
    · cases e
    · cases e
  transform e := by obtain ⟨_, t, rfl⟩ := h.transform e; cases hv
  opacity e := by obtain ⟨t, rfl⟩ := h.opacity e; cases hv
  points e := ⟨(h.points e).1, (h.points e).2.1, fun _ _ l e => by cases e⟩
  d e := ⟨(h.d e).1, (h.d e).2.1, fun p e => by cases e⟩
  shown _ e := by cases e
  link k e := by cases e

theorem linkNames_mem {n : Node} {k : Nat} {a : AId} (h : a ∈ linkNames k n) : ∃ y ∈ n.attrs, y.name = .id a ∧ y.value.target = some k := by
  unfold linkNames at h
  obtain ⟨y, hy, e⟩ := List.mem_filterMap.1 h
  refine ⟨y, hy, ?_⟩
  split at e
  next b hb =>
    split at e
    next ht => cases e; exact ⟨hb, ht⟩
    · cases e
  · cases e

theorem tame_solid {n : Node} (h : NodeOk C n) (hg : gradKind n.kind = false) (k : Nat) (r g b : _) (op : ℚ) : Tame C n (solidLinks k (.color r g b) op n) := by
  unfold solidLinks
  have key : ∀ (l : List AId) (m : Node), Tame C n m → (∀ a ∈ l, AttrOk C n (.id a) (.color r g b)) → Tame C n (l.foldl (fun m a =>
    let m := m.set a (.color r g b)
    if op = 1 then m else match a with
      | .fill => m.set .fillOpacity (.number op)
      | .stroke => m.set .strokeOpacity (.number op)
      | _ => m) m) := by
    intro l
    induction l with
    | nil => exact fun m h _ => h
    | cons a t ih =>
      intro m hm ha
      rw [List.foldl_cons]
      refine ih _ ?_ fun b hb => ha b (by simp [hb])
      have h1 : Tame C n (m.set a (.color r g b)) := hm.trans (Tame.set m (Kin.attr hm.key hm.kind (ha a (by simp))) rfl)
      simp only
      split
      · exact h1
      · split
        · exact h1.trans (Tame.setFree C _ (by decide) rfl)
        · exact h1.trans (Tame.setFree C _ (by decide) rfl)
        · exact h1
  refine key _ n (Tame.refl C n) fun a ha => ?_
  obtain ⟨y, hy, e1, e2⟩ := linkNames_mem ha
  have := h.attrs y hy
  rw [e1] at this
  exact this.solid hg e2

theorem Inv.solids {f : Forest} (hf : Inv C f) {l : List (Nat × Node)}
    (hl : ∀ x ∈ l, (∃ r g b, x.2.get .stopColor = some (.color r g b)) ∧ ∃ q, x.2.get .stopOpacity = some (.number q)) : ∃ g, solidSteps l f = some g ∧ Inv C g := by
  induction l generalizing f with
  | nil => exact ⟨f, rfl, hf⟩
  | cons x t ih =>
    obtain ⟨⟨r, g, b, e1⟩, q, e2⟩ := hl x (by simp)
    rw [solidSteps, solidStep, e1]
    simp only [e2, Option.bind_some]
    refine ih (hf.map fun n hn => ?_) fun y hy => hl y (by simp [hy])
    split
    · exact Tame.refl C n
    next hg => exact tame_solid (hf.nodes n hn) (by rw [gradKind_eq]; simpa using hg) _ _ _ _ _

theorem has_get {n : Node} {a : AId} (h : n.has a = true) : ∃ v, n.get a = some v := by
  unfold Node.has at h
  obtain ⟨x, hx⟩ := Option.isSome_iff_exists.1 h
  exact ⟨x.value, by unfold Node.get; rw [hx]; rfl⟩

theorem Inv.gradients {f : Forest} (hf : Inv C f) (he : C.early) : ∃ g, gradientStep f = some g ∧ Inv { C with early := False } g.1 := by
  unfold gradientStep
  simp only [emptyGradients_nil fun x hx hg h => ((hf.trees x hx).early he hg).2 h, List.foldl_nil, List.nil_append]
  obtain ⟨g, e, hg⟩ := hf.solids (l := solidGradients f) fun x hx => by
    obtain ⟨y, hy, _, hk, ht⟩ := solidGradients_mem hx
    obtain ⟨h1, h2⟩ := (hf.trees y hy).stops hk x.2 ht
    have hn := hf.nodes x.2 (GroupDefs.kid_nodes hy ht)
    rw [h1] at h2
    have g1 := h2 .stopColor (by simp [wanted])
    have g2 := h2 .stopOpacity (by simp [wanted])
    obtain ⟨v, hv⟩ := has_get g1
    obtain ⟨w, hw⟩ := has_get g2
    obtain ⟨r, g, b, rfl⟩ := (hn.get hv).grad.color rfl
    obtain ⟨q, rfl⟩ := (hn.get hw).grad.opacity rfl
    exact ⟨⟨r, g, b, hv⟩, q, hw⟩
  rw [e]
  refine ⟨_, rfl, Inv.rmKeys (hg.late False C.uniq False.elim id) fun k hk => ?_⟩
  obtain ⟨x, hx, rfl⟩ := List.mem_map.1 hk
  obtain ⟨y, hy, e1, e2, _⟩ := solidGradients_mem hx
  rw [← e1]
  refine ⟨fun e => ?_, fun e => ?_, False.elim⟩
  · rw [hf.kindS (subs_nodes hy) e] at e2; cases e2
  · rw [hf.kindD (subs_nodes hy) e] at e2; cases e2

/-- A task that does not crash and turns one thing into another. -/
def Leads (P Q : Forest → Prop) (t : Task) : Prop := ∀ f, P f → t f ≠ .panic ∧ ∀ g, t f = .ok g → Q g

theorem leads_removeInvisible (he : C.early) : Leads (Inv C) (Inv { C with early := False }) (may removeInvisible) := by
  intro f hf
  have key : ∃ g, removeInvisible f = some g ∧ Inv { C with early := False } g := by
    have h1 := hf.display
    have h2 : Inv C (pathStep (displayStep f).1).1 := h1.drain fun n k h => by
      unfold emptyPath at h
      exact drain_tag (e := .path) (by decide) (by decide) ⟨rfl, by decide⟩ (Bool.and_eq_true_iff.1 h).1
    have h3 := h2.clip
    have h4 := h3.filters
    have h5 : Inv C (matrixStep (filterStep (clipStep (pathStep (displayStep f).1).1).1).1) := h4.drain fun n k h => by
      unfold defaultMatrix at h
      exact drain_tag (e := .filter) (by decide) (by decide) ⟨rfl, by decide⟩ (Bool.and_eq_true_iff.1 h).1
    have h6 : Inv C (useStep (matrixStep (filterStep (clipStep (pathStep (displayStep f).1).1).1).1)).1 := h5.drain fun n k h => by
      unfold emptyUse at h
      exact drain_tag (e := .use) (by decide) (by decide) ⟨rfl, by decide⟩ (Bool.and_eq_true_iff.1 h).1
    unfold removeInvisible
    simp only
    obtain ⟨f7, e7, h7⟩ := h6.gradients he
    rw [e7, Option.bind_some]
    have h8 : Inv { C with early := False } (rectStep f7.1).1 := h7.drain fun n k h => by
      unfold emptyRect at h
      exact drain_tag (e := .rect) (by decide) (by decide) ⟨rfl, by decide⟩ (Bool.and_eq_true_iff.1 h).1
    split
    · obtain ⟨n, hn, e⟩ := h8.memD
      obtain ⟨g, hg⟩ := (UnusedDefs.C25_ends _).2 ⟨n, hn, h8.kindD hn e⟩
      exact ⟨g, hg, h8.unusedDefs hg⟩
    · exact ⟨_, rfl, h8⟩
  obtain ⟨g, hg, hp⟩ := key
  exact ⟨may_panic ⟨g, hg⟩, fun g' e => by have := may_ok e; rw [hg] at this; cases this; exact hp⟩

end

end Verif.Crash
