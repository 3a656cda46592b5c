import Verif.InvisibleServers
import Verif.RenderPaint
import Verif.UngroupProps
/-
Property C38, continued: gradients without stops and gradients with one stop.
-/
namespace Verif.Invisible
open Verif.Dom Verif.Spec Verif.Render
open Verif.Paths (Transform)

/-! ### The replacements -/

theorem getAttr_swap {as : List Attr} {g : Attr → Attr} (hg : ∀ y, (g y).name = y.name) (x : AName) : getAttr (as.map g) x = (getAttr as x).map g := by
  unfold getAttr
  induction as with
  | nil => rfl
  | cons y t ih =>
    rw [List.map_cons]
    by_cases hx : y.name = x
    · rw [List.find?_cons_of_pos (by simpa [hg] using hx), List.find?_cons_of_pos (by simpa using hx)]
      rfl
    · rw [List.find?_cons_of_neg (by simpa [hg] using hx), List.find?_cons_of_neg (by simpa using hx), ih]

/-- Only `fill` and `stroke` attributes of SVG elements other than gradients refer to `k`. -/
def PaintOnly (k : Nat) (n : Node) : Prop :=
  ∀ y ∈ n.attrs, y.value.target = some k → (y.name = .id .fill ∨ y.name = .id .stroke) ∧ n.isSvgElem = true ∧ n.isGradient = false

theorem noneLinks_swaps {k : Nat} {n : Node} (hn : (n.attrs.map (·.name)).Nodup) (h : PaintOnly k n) : Swaps (noneLinks k) k (.kw .none) n := by
  have hg : ∀ y ∈ n.attrs, (match y.name with | .id _ => if y.value.target = some k then (⟨y.name, .kw .none, true⟩ : Attr) else y | .name _ => y) = swapAttr k (.kw .none) y := by
    intro y hy
    unfold swapAttr
    cases hx : y.name with
    | id a => simp
    | name s =>
      simp only
      rw [if_neg]
      intro ht
      have := (h y hy ht).1
      simp [hx] at this
  have he : (noneLinks k n).attrs = n.attrs.map (swapAttr k (.kw .none)) := List.map_congr_left hg
  have hname : ∀ y, (swapAttr k (.kw .none) y).name = y.name := by intro y; unfold swapAttr; split <;> rfl
  refine ⟨rfl, rfl, fun x => by rw [he, getAttr_swap hname], ?_, fun y hy ht => ⟨(h y hy ht).1, (h y hy ht).2.1⟩⟩
  rw [he, List.map_map]
  have : ((fun y : Attr => y.name) ∘ swapAttr k (.kw .none)) = fun y => y.name := by funext y; exact hname y
  rw [this]
  exact hn

theorem foldl_set (col : Value) (L : List AId) (n : Node) :
    (∀ x, getAttr (L.foldl (fun m a => m.set a col) n).attrs x = if x ∈ L.map AName.id then some ⟨x, col, true⟩ else getAttr n.attrs x) ∧
    (L.foldl (fun m a => m.set a col) n).key = n.key ∧ (L.foldl (fun m a => m.set a col) n).kind = n.kind ∧
    ((n.attrs.map (·.name)).Nodup → ((L.foldl (fun m a => m.set a col) n).attrs.map (·.name)).Nodup) := by
  induction L generalizing n with
  | nil => simp
  | cons a L ih =>
    obtain ⟨h1, h2, h3, h4⟩ := ih (n.set a col)
    refine ⟨fun x => ?_, h2, h3, fun hn => h4 (Ungroup.putAttr_names _ _ hn)⟩
    rw [List.foldl_cons, h1, Stops.getAttr_set]
    by_cases hx : x = .id a
    · subst hx
      by_cases hm : AName.id a ∈ L.map AName.id <;> simp [hm]
    · simp [hx]

theorem mem_linkNames {k : Nat} {n : Node} {a : AId} : a ∈ linkNames k n ↔ ∃ y ∈ n.attrs, y.name = .id a ∧ y.value.target = some k := by
  unfold linkNames
  rw [List.mem_filterMap]
  constructor
  · rintro ⟨y, hy, h⟩
    refine ⟨y, hy, ?_⟩
    split at h
    next b hb =>
      split at h
      next ht => cases h; exact ⟨hb, ht⟩
      · cases h
    · cases h
  · rintro ⟨y, hy, h1, h2⟩
    exact ⟨y, hy, by rw [h1]; simp [h2]⟩

theorem solidLinks_swaps {k : Nat} {col : Value} {n : Node} (hn : (n.attrs.map (·.name)).Nodup) (h : PaintOnly k n) :
    Swaps (fun n => if n.isGradient then n else solidLinks k col 1 n) k col n := by
  by_cases hg : n.isGradient = true
  · have hno : ∀ y ∈ n.attrs, y.value.target ≠ some k := by
      intro y hy ht
      have := (h y hy ht).2.2
      rw [hg] at this
      cases this
    refine ⟨by simp [hg], by simp [hg], fun x => ?_, by simpa [hg] using hn, fun y hy ht => absurd ht (hno y hy)⟩
    simp only [hg, if_true]
    cases hx : getAttr n.attrs x with
    | none => rfl
    | some y =>
      have : swapAttr k col y = y := by unfold swapAttr; rw [if_neg (hno y (getAttr_mem hx))]
      simp [this]
  · have he : (if n.isGradient then n else solidLinks k col 1 n) = (linkNames k n).foldl (fun m a => m.set a col) n := by
      rw [if_neg hg]
      unfold solidLinks
      simp
    obtain ⟨h1, h2, h3, h4⟩ := foldl_set col (linkNames k n) n
    refine ⟨by simp only [he]; exact h2, by simp only [he]; exact h3, fun x => ?_, by simp only [he]; exact h4 hn, fun y hy ht => ⟨(h y hy ht).1, (h y hy ht).2.1⟩⟩
    simp only [he]
    rw [h1]
    by_cases hx : x ∈ (linkNames k n).map AName.id
    · rw [if_pos hx]
      obtain ⟨a, ha, rfl⟩ := List.mem_map.1 hx
      obtain ⟨y, hy, e, ht⟩ := mem_linkNames.1 ha
      have := GradUnits.getAttr_of_mem hn hy
      rw [e] at this
      rw [this]
      simp [swapAttr, ht, e]
    · rw [if_neg hx]
      cases hy : getAttr n.attrs x with
      | none => rfl
      | some y =>
        have : swapAttr k col y = y := by
          unfold swapAttr
          rw [if_neg]
          intro ht
          apply hx
          have hs := (h y (getAttr_mem hy) ht).1
          rw [← getAttr_name hy]
          rcases hs with e | e
          · rw [e]; exact List.mem_map_of_mem (mem_linkNames.2 ⟨y, getAttr_mem hy, e, ht⟩)
          · rw [e]; exact List.mem_map_of_mem (mem_linkNames.2 ⟨y, getAttr_mem hy, e, ht⟩)
        simp [this]

/-! ### The gradients -/

/-- A gradient with at most one child and without reference. -/
def flat (n : Node) (ks : Forest) : Bool := n.isGradient && !n.has .xlinkHref && decide (ks.top.length ≤ 1)

/-- No mask, clip path and filter. -/
def plainEffects (n : Node) : Bool :=
  [AId.mask, .clipPath, .filter].all fun a => match n.get a with | some (.funcLink _) => false | _ => true

/-- A stop that is opaque and shown. -/
def plainStop (n : Node) : Bool :=
  n.isTag .stop && plainEffects n && decide (n.get .stopOpacity = some (.number 1)) &&
  [AId.display, .opacity, .requiredFeatures, .requiredExtensions, .systemLanguage].all fun a => !n.has a

/-- What the step needs: unique keys and names, no circular references; the gradients with at most one child and without reference stand
where they are not drawn, have no mask, clip path or filter, and their only child is an opaque stop; nothing refers to their descendants, and only
`fill` and `stroke` attributes of SVG elements refer to the gradients themselves. -/
structure Flat (f : Forest) : Prop where
  good : Good f
  acyclic : Acyclic f
  spot : ∀ p n ks, (p, n, ks) ∈ spots top f → flat n ks = true → gone p n.kind = true ∧ (∀ m ∈ ks.nodes, f.isUsed m.key = false) ∧
    plainEffects n = true ∧ ∀ s ∈ ks.top, plainStop s = true
  users : ∀ p n ks, (p, n, ks) ∈ spots top f → flat n ks = true → ∀ x ∈ f.nodes, PaintOnly n.key x

section
variable {φ : Node → Node} {k : Nat} {w : Value}

theorem spots_map {p : Kind} {f : Forest} (hk : ∀ n ∈ f.nodes, (φ n).kind = n.kind) {x : Kind × Node × Forest} (h : x ∈ spots p (f.map φ)) :
    ∃ n ks, (x.1, n, ks) ∈ spots p f ∧ x.2 = (φ n, ks.map φ) := by
  induction f generalizing p with
  | nil => cases h
  | cons n a b iha ihb =>
    simp only [Forest.map, spots, List.mem_cons, List.mem_append] at h
    simp only [spots, List.mem_cons, List.mem_append]
    rcases h with rfl | h | h
    · exact ⟨n, a, .inl rfl, rfl⟩
    · rw [hk n (by simp)] at h
      obtain ⟨m, ks, h1, h2⟩ := iha (fun m hm => hk m (by simp [hm])) h
      exact ⟨m, ks, .inr (.inl h1), h2⟩
    · obtain ⟨m, ks, h1, h2⟩ := ihb (fun m hm => hk m (by simp [hm])) h
      exact ⟨m, ks, .inr (.inr h1), h2⟩

theorem spots_to_map {p q : Kind} {f : Forest} (hk : ∀ n ∈ f.nodes, (φ n).kind = n.kind) {n : Node} {ks : Forest} (h : (q, n, ks) ∈ spots p f) :
    (q, φ n, ks.map φ) ∈ spots p (f.map φ) := by
  induction f generalizing p with
  | nil => cases h
  | cons m a b iha ihb =>
    simp only [Forest.map, spots, List.mem_cons, List.mem_append, Prod.mk.injEq] at h ⊢
    rcases h with ⟨rfl, rfl, rfl⟩ | h | h
    · exact .inl ⟨rfl, rfl, rfl⟩
    · rw [hk m (by simp)]
      exact .inr (.inl (iha (fun m hm => hk m (by simp [hm])) h))
    · exact .inr (.inr (ihb (fun m hm => hk m (by simp [hm])) h))

theorem Swaps.mem {n : Node} (h : Swaps φ k w n) {y : Attr} (hy : y ∈ (φ n).attrs) : ∃ z ∈ n.attrs, y = swapAttr k w z := by
  have := GradUnits.getAttr_of_mem h.names hy
  rw [h.attr] at this
  cases hz : getAttr n.attrs y.name with
  | none => rw [hz] at this; cases this
  | some z =>
    rw [hz] at this
    simp only [Option.map_some, Option.some.injEq] at this
    exact ⟨z, getAttr_mem hz, this.symm⟩

theorem Swaps.target {n : Node} (h : Swaps φ k w n) (hw : w.target = none) {y : Attr} (hy : y ∈ (φ n).attrs) {j : Nat} (ht : y.value.target = some j) :
    y ∈ n.attrs ∧ j ≠ k := by
  obtain ⟨z, hz, rfl⟩ := Swaps.mem h hy
  unfold swapAttr at ht ⊢
  split at ht
  · rw [hw] at ht; cases ht
  next hk =>
    rw [if_neg hk]
    exact ⟨hz, fun e => hk (e ▸ ht)⟩

theorem Swaps.links {n : Node} (h : Swaps φ k w n) (hw : w.target = none) {j : Nat} (hj : j ∈ (φ n).links) : j ∈ n.links ∧ j ≠ k := by
  obtain ⟨y, hy, ht⟩ := Node.mem_links.1 hj
  obtain ⟨a, b⟩ := Swaps.target h hw hy ht
  exact ⟨Node.mem_links.2 ⟨y, a, ht⟩, b⟩

theorem Swaps.styleLinks {n : Node} (h : Swaps φ k w n) (hw : w.target = none) {j : Nat} (hj : j ∈ Render.Node.styleLinks (φ n)) : j ∈ Render.Node.styleLinks n := by
  unfold Render.Node.styleLinks at *
  rw [List.mem_filterMap] at hj ⊢
  obtain ⟨y, hy, he⟩ := hj
  refine ⟨y, ?_, he⟩
  split at he
  next a ha =>
    split at he
    · exact (Swaps.target h hw hy he).1
    · cases he
  · cases he

theorem ranked_mono {v v' : Nat → Prop} {r : Nat → Nat} {up up' : List Nat} {f : Forest} (hw : w.target = none) (hv : ∀ k, v' k → v k) (hu : ∀ x ∈ up', x ∈ up)
    (hn : ∀ n ∈ f.nodes, Swaps φ k w n) (h : Ranked v r up f) : Ranked v' r up' (f.map φ) := by
  induction f generalizing up up' with
  | nil => trivial
  | cons n a b iha ihb =>
    obtain ⟨h1, h2, h3⟩ := h
    have h0 := hn n (by simp)
    refine ⟨fun hk => ?_, iha (fun x hx => ?_) (fun m hm => hn m (by simp [hm])) h2, ihb hu (fun m hm => hn m (by simp [hm])) h3⟩
    · rw [h0.key] at hk ⊢
      obtain ⟨a1, a2, a3⟩ := h1 (hv _ hk)
      refine ⟨fun x hx => a1 x (hu x hx), fun x hx => a2 x (Swaps.links h0 hw hx).1, fun m hm x hx => ?_⟩
      rw [Forest.nodes_map] at hm
      obtain ⟨m', hm', rfl⟩ := List.mem_map.1 hm
      exact a3 m' hm' x (Swaps.links (hn m' (by simp [hm'])) hw hx).1
    · rcases List.mem_append.1 hx with hx | hx
      · exact List.mem_append_left _ (hu x hx)
      · exact List.mem_append_right _ (Swaps.styleLinks h0 hw hx)

theorem used_map {f : Forest} (hw : w.target = none) (hn : ∀ n ∈ f.nodes, Swaps φ k w n) {j : Nat} (h : (f.map φ).isUsed j = true) : f.isUsed j = true ∧ j ≠ k := by
  obtain ⟨m, hm, hl⟩ := Forest.isUsed_iff.1 h
  rw [Forest.nodes_map] at hm
  obtain ⟨n, hn', rfl⟩ := List.mem_map.1 hm
  obtain ⟨a, b⟩ := Swaps.links (hn n hn') hw hl
  exact ⟨Forest.isUsed_iff.2 ⟨n, hn', a⟩, b⟩

theorem top_map (f : Forest) : (f.map φ).top = f.top.map φ := by
  induction f with
  | nil => rfl
  | cons n a b _ ihb => simp [Forest.map, Forest.top, ihb]

theorem Swaps.isGradient {n : Node} (h : Swaps φ k w n) : (φ n).isGradient = n.isGradient := by
  unfold Node.isGradient Node.isTag
  rw [h.kind]

theorem Swaps.has {n : Node} (h : Swaps φ k w n) {a : AId} (ha : isPaint a = false) : (φ n).has a = n.has a := by
  rw [Node.has_eq, Node.has_eq, h.get ha]

theorem Swaps.flat {n : Node} (h : Swaps φ k w n) (ks : Forest) : Invisible.flat (φ n) (ks.map φ) = Invisible.flat n ks := by
  unfold Invisible.flat
  rw [Swaps.isGradient h, Swaps.has h (by decide), top_map, List.length_map]

theorem Swaps.plainEffects {n : Node} (h : Swaps φ k w n) : Invisible.plainEffects (φ n) = Invisible.plainEffects n := by
  simp only [Invisible.plainEffects, List.all_cons, List.all_nil]
  rw [h.get (by decide), h.get (by decide), h.get (by decide)]

theorem Swaps.plainStop {n : Node} (h : Swaps φ k w n) : Invisible.plainStop (φ n) = Invisible.plainStop n := by
  simp only [Invisible.plainStop, List.all_cons, List.all_nil]
  rw [Swaps.plainEffects h, h.get (by decide), Swaps.has h (by decide), Swaps.has h (by decide), Swaps.has h (by decide), Swaps.has h (by decide), Swaps.has h (by decide)]
  congr 3
  unfold Node.isTag
  rw [h.kind]

theorem keys_map {f : Forest} (hn : ∀ n ∈ f.nodes, (φ n).key = n.key) : (f.map φ).keys = f.keys := by
  induction f with
  | nil => rfl
  | cons n a b iha ihb =>
    simp only [Forest.map, Forest.keys_cons]
    rw [hn n (by simp), iha (fun m hm => hn m (by simp [hm])), ihb (fun m hm => hn m (by simp [hm]))]

theorem top_nodes {f : Forest} {n : Node} (h : n ∈ f.top) : n ∈ f.nodes := by
  induction f with
  | nil => cases h
  | cons m a b _ ihb =>
    simp only [Forest.top, List.mem_cons] at h
    rcases h with rfl | h
    · simp
    · simp [ihb h]

theorem Flat.map {f : Forest} (h : Flat f) (hw : w.target = none) (hn : ∀ n ∈ f.nodes, Swaps φ k w n) : Flat (f.map φ) := by
  have hk : ∀ n ∈ f.nodes, (φ n).kind = n.kind := fun n hm => (hn n hm).kind
  refine ⟨⟨?_, fun n hm => ?_⟩, ?_, fun p n ks hx hf => ?_, fun p n ks hx hf x hm y hy ht => ?_⟩
  · unfold Forest.UniqueKeys
    rw [keys_map (fun n hm => (hn n hm).key)]
    exact h.good.keys
  · rw [Forest.nodes_map] at hm
    obtain ⟨m, hm', rfl⟩ := List.mem_map.1 hm
    exact (hn m hm').names
  · obtain ⟨r, hr⟩ := h.acyclic
    exact ⟨r, ranked_mono hw (fun j hj => (used_map hw hn hj).1) (fun _ h => h) hn hr⟩
  · obtain ⟨m, c, h1, h2⟩ := spots_map hk hx
    cases h2
    have hm := spots_nodes h1
    rw [Swaps.flat (hn m hm.1)] at hf
    obtain ⟨a, b, c', d⟩ := h.spot p m c h1 hf
    refine ⟨by rw [hk m hm.1]; exact a, fun x hx => ?_, by rw [Swaps.plainEffects (hn m hm.1)]; exact c', fun s hs => ?_⟩
    · rw [Forest.nodes_map] at hx
      obtain ⟨x, hx', rfl⟩ := List.mem_map.1 hx
      rw [(hn x (hm.2 x hx')).key]
      by_contra hc
      have := (used_map hw hn (Bool.eq_true_of_not_eq_false hc)).1
      rw [b x hx'] at this
      cases this
    · rw [top_map] at hs
      obtain ⟨s, hs', rfl⟩ := List.mem_map.1 hs
      rw [Swaps.plainStop (hn s (hm.2 s (top_nodes hs')))]
      exact d s hs'
  · obtain ⟨m, c, h1, h2⟩ := spots_map hk hx
    cases h2
    have hm' := (spots_nodes h1).1
    rw [Swaps.flat (hn m hm')] at hf
    rw [(hn m hm').key] at ht
    rw [Forest.nodes_map] at hm
    obtain ⟨x, hx', rfl⟩ := List.mem_map.1 hm
    obtain ⟨a, b, c'⟩ := h.users p m c h1 hf x hx' y (Swaps.target (hn x hx') hw hy ht).1 ht
    refine ⟨a, ?_, by rw [Swaps.isGradient (hn x hx')]; exact c'⟩
    unfold Node.isSvgElem at b ⊢
    rw [(hn x hx').kind]
    exact b
end

/-! ### What the gradients paint -/

theorem plainEffects_ref {P : Type} {n : Node} (h : plainEffects n = true) (env : Env P) {a : AId} (ha : a ∈ [AId.mask, .clipPath, .filter]) :
    Seen.isRef (seenAttr env n a) = false := by
  have := List.all_eq_true.1 h a ha
  unfold seenAttr
  cases hg : n.get a with
  | none => rfl
  | some v =>
    rw [hg] at this
    cases v <;> first | rfl | cases this

theorem inner_plain {P : Type} {π : Painter P} {n : Node} (h : plainEffects n = true) (env : Env P) (via : Attrs P) (c : Ctx) (e : EId) (kids : List (Pic P)) :
    inner π env via c n e kids = core π env via (c.enter n) n e kids :=
  π.no_effect _ _ _ _ _ (plainEffects_ref h env (by simp)) (plainEffects_ref h env (by simp)) (plainEffects_ref h env (by simp))

theorem own_href {P : Type} {n : Node} (h : n.has .xlinkHref = false) (env : Env P) : Seen.isRef (own env n (.id .xlinkHref)) = false := by
  have : getAttr n.attrs (.id .xlinkHref) = none := by
    have := h
    unfold Node.has at this
    simpa using this
  unfold own
  rw [this]
  split <;> rfl

theorem grad_kind {n : Node} (h : n.isGradient = true) : ∃ e, (e = EId.linearGradient ∨ e = .radialGradient) ∧ n.kind = .elem e := by
  unfold Node.isGradient at h
  simp only [Bool.or_eq_true] at h
  rcases h with h | h
  · exact ⟨_, .inl rfl, (Node.isTag_iff _ _).1 h⟩
  · exact ⟨_, .inr rfl, (Node.isTag_iff _ _).1 h⟩

theorem grad_body {P : Type} {π : Painter P} {n : Node} (hg : n.isGradient = true) (hp : plainEffects n = true) (env : Env P) (via : Attrs P) (c : Ctx) (kids : List (Pic P)) :
    ∃ e, (e = EId.linearGradient ∨ e = .radialGradient) ∧ body π env via c n kids = π.paint e (own env n) (seenStyle env (c.enter n)) (c.enter n).ctm kids := by
  obtain ⟨e, he, hk⟩ := grad_kind hg
  refine ⟨e, he, ?_⟩
  rw [body_elem hk, inner_plain hp]
  rcases he with rfl | rfl <;> rfl

theorem grad_none {f : Forest} (hf : f.UniqueKeys) {p : Kind} {n : Node} (hx : (p, n, .nil) ∈ spots top f) (hg : n.isGradient = true) (hh : n.has .xlinkHref = false)
    (hp : plainEffects n = true) {P : Type} (π : Painter P) (d : Nat) : Stopless π.paint ((scene π f (d + 1)).here n.key) := by
  obtain ⟨c, e⟩ := hereOf_spots hf hx (π := π) (scene π f d) Ctx.start
  have : (scene π f (d + 1)).here n.key = body π (scene π f d) noVia c n (pics π (scene π f d) (c.enter n) .nil) := by
    show (hereOf π (scene π f d) n.key Ctx.start f).getD _ = _
    rw [e]
    rfl
  rw [this]
  obtain ⟨e, he, hb⟩ := grad_body (π := π) hg hp (scene π f d) noVia c (pics π (scene π f d) (c.enter n) .nil)
  rw [hb]
  exact ⟨e, _, _, _, he, own_href hh _, rfl⟩

theorem stop_draw {P : Type} {π : Painter P} {s : Node} (h : plainStop s = true) (env : Env P) (c : Ctx) (kids : List (Pic P)) :
    draw π env c s kids = π.paint .stop (own env s) (seenStyle env (c.enter s)) (c.enter s).ctm kids := by
  simp only [plainStop, Bool.and_eq_true, List.all_cons, List.all_nil, Bool.not_eq_true', decide_eq_true_eq] at h
  obtain ⟨⟨⟨h1, h2⟩, h3⟩, h4, h5, h6, h7, h8, _⟩ := h
  have hk := (Node.isTag_iff _ _).1 h1
  have hget : ∀ a, s.has a = false → s.get a = none := fun a ha => by rw [Node.has_eq] at ha; simpa using ha
  have hhid : hiddenBy s = false := by unfold hiddenBy; rw [hget _ h4]; rfl
  have hop : opacityOf s = 1 := by unfold opacityOf; rw [hget _ h5]
  have hal : allowed π s = true := by unfold allowed holds; rw [hget _ h6, hget _ h7, hget _ h8]; rfl
  unfold draw
  rw [hk, body_elem hk, inner_plain h2, hhid, hop, hal, π.fade_one]
  rfl

theorem own_plain {P : Type} {n : Node} {a : AId} {v : Value} (ha : isOwn (.id a) = true) (h : n.get a = some v) (hv : v.target = none) (env : Env P) :
    own env n (.id a) = some (.plain v) := by
  unfold own
  rw [if_pos ha]
  unfold Node.get at h
  cases hx : getAttr n.attrs (.id a) with
  | none => rw [hx] at h; cases h
  | some y =>
    rw [hx] at h
    simp only [Option.map_some, Option.some.injEq] at h ⊢
    unfold see
    rw [h, hv]

theorem grad_solid {f : Forest} (hf : f.UniqueKeys) {p : Kind} {n s : Node} {ks : Forest} (hx : (p, n, .cons s ks .nil) ∈ spots top f) (hg : n.isGradient = true)
    (hh : n.has .xlinkHref = false) (hp : plainEffects n = true) (hs : plainStop s = true) {r g b : Nat} (hc : s.get .stopColor = some (.color r g b))
    {P : Type} (π : Painter P) (d : Nat) : Solid π.paint (r, g, b) ((scene π f (d + 1)).here n.key) := by
  obtain ⟨c, e⟩ := hereOf_spots hf hx (π := π) (scene π f d) Ctx.start
  have : (scene π f (d + 1)).here n.key = body π (scene π f d) noVia c n (pics π (scene π f d) (c.enter n) (.cons s ks .nil)) := by
    show (hereOf π (scene π f d) n.key Ctx.start f).getD _ = _
    rw [e]
    rfl
  rw [this]
  obtain ⟨e, he, hb⟩ := grad_body (π := π) hg hp (scene π f d) noVia c (pics π (scene π f d) (c.enter n) (.cons s ks .nil))
  rw [hb]
  have hst : s.kind = .elem .stop := by
    simp only [plainStop, Bool.and_eq_true] at hs
    exact (Node.isTag_iff _ _).1 hs.1.1.1
  have ho : s.get .stopOpacity = some (.number 1) := by
    simp only [plainStop, Bool.and_eq_true, decide_eq_true_eq] at hs
    exact hs.1.2
  refine ⟨e, own (scene π f d) n, seenStyle (scene π f d) (c.enter n), (c.enter n).ctm, allowed π s, own (scene π f d) s, seenStyle (scene π f d) ((c.enter n).enter s), ((c.enter n).enter s).ctm,
    pics π (scene π f d) ((c.enter n).enter s) ks, he, own_href hh _, own_plain (by decide) hc rfl _, own_plain (by decide) ho rfl _, ?_⟩
  simp only [pics]
  rw [stop_draw hs, hst]

/-! ### The steps -/

/-- What is known of a gradient with the key `k` that is replaced by `w`. -/
def Plain (k : Nat) (w : Value) (f : Forest) : Prop := ∀ p n ks, (p, n, ks) ∈ spots top f → n.key = k → flat n ks = true ∧
  ((ks = .nil ∧ w = .kw .none) ∨ ∃ s k' r g b, ks = .cons s k' .nil ∧ s.get .stopColor = some (.color r g b) ∧ w = .color r g b)

theorem Plain.map {φ : Node → Node} {j k : Nat} {v w : Value} {f : Forest} (h : Plain k w f) (hn : ∀ n ∈ f.nodes, Swaps φ j v n) : Plain k w (f.map φ) := by
  intro p n ks hx hk
  obtain ⟨m, c, h1, h2⟩ := spots_map (fun n hm => (hn n hm).kind) hx
  cases h2
  have hm := spots_nodes h1
  rw [(hn m hm.1).key] at hk
  rw [Swaps.flat (hn m hm.1)]
  obtain ⟨a, b⟩ := h p m c h1 hk
  refine ⟨a, ?_⟩
  rcases b with ⟨rfl, b⟩ | ⟨s, k', r, g, b, rfl, e1, e2⟩
  · exact .inl ⟨rfl, b⟩
  · refine .inr ⟨φ s, k'.map φ, r, g, b, rfl, ?_, e2⟩
    rw [(hn s (hm.2 s (by simp))).get (by decide), e1]

theorem Plain.value {k : Nat} {w : Value} {f : Forest} (h : Plain k w f) (hk : k ∈ f.keys) : w.target = none ∧ w ≠ .kw .inherit := by
  obtain ⟨n, hn, rfl⟩ := Forest.mem_keys.1 hk
  obtain ⟨p, ks, hx⟩ := nodes_spots top hn
  rcases (h p n ks hx rfl).2 with ⟨_, rfl⟩ | ⟨s, k', r, g, b, _, _, rfl⟩
  · exact ⟨rfl, by simp⟩
  · exact ⟨rfl, by simp⟩

theorem flat_step {φ : Node → Node} {k : Nat} {w : Value} {f : Forest} (hf : Flat f) (hp : Plain k w f) (hk : k ∈ f.keys) (hn : ∀ n ∈ f.nodes, Swaps φ k w n) :
    SameView f (f.map φ) := by
  obtain ⟨hw, hi⟩ := hp.value hk
  have hf' := hf.map hw hn
  have hp' := hp.map hn
  have hk' : k ∈ (f.map φ).keys := by rw [keys_map (fun n hm => (hn n hm).key)]; exact hk
  refine swap_view hw hi hf.acyclic hn (fun P π d => ?_)
  obtain ⟨n, hm, rfl⟩ := Forest.mem_keys.1 hk'
  obtain ⟨p, ks, hx⟩ := nodes_spots top hm
  obtain ⟨h1, h2⟩ := hp' p n ks hx rfl
  obtain ⟨_, _, h3, h4⟩ := hf'.spot p n ks hx h1
  simp only [flat, Bool.and_eq_true, Bool.not_eq_true'] at h1
  rcases h2 with ⟨rfl, rfl⟩ | ⟨s, k', r, g, b, rfl, e1, rfl⟩
  · exact same_none π (grad_none hf'.good.keys hx h1.1.1 h1.1.2 h3 π d)
  · exact same_solid π (grad_solid hf'.good.keys hx h1.1.1 h1.1.2 h3 (h4 s (by simp [Forest.top])) e1 π d)

theorem Flat.paintOnly {k : Nat} {w : Value} {f : Forest} (hf : Flat f) (hp : Plain k w f) (hk : k ∈ f.keys) : ∀ n ∈ f.nodes, PaintOnly k n := by
  obtain ⟨n, hm, rfl⟩ := Forest.mem_keys.1 hk
  obtain ⟨p, ks, hx⟩ := nodes_spots top hm
  exact hf.users p n ks hx (hp p n ks hx rfl).1

/-- What is kept by the replacements. -/
structure State (C : List (Nat × Value)) (f : Forest) : Prop where
  flat : Flat f
  plain : ∀ x ∈ C, Plain x.1 x.2 f ∧ x.1 ∈ f.keys

theorem State.map {C : List (Nat × Value)} {f : Forest} (h : State C f) {φ : Node → Node} {k : Nat} {w : Value} (hw : w.target = none)
    (hn : ∀ n ∈ f.nodes, Swaps φ k w n) : State C (f.map φ) := by
  refine ⟨h.flat.map hw hn, fun x hx => ⟨(h.plain x hx).1.map hn, ?_⟩⟩
  rw [keys_map (fun n hm => (hn n hm).key)]
  exact (h.plain x hx).2

theorem noneSteps {L : List Nat} {C : List (Nat × Value)} {f : Forest} (hf : State C f) (hL : ∀ k ∈ L, (k, Value.kw .none) ∈ C) :
    SameView f (L.foldl noneStep f) ∧ State C (L.foldl noneStep f) ∧ (∀ j, (L.foldl noneStep f).isUsed j = true → f.isUsed j = true ∧ j ∉ L) := by
  induction L generalizing f with
  | nil => exact ⟨(SameLook.refl f).view, hf, fun j hj => ⟨hj, by simp⟩⟩
  | cons k L ih =>
    obtain ⟨h1, h2⟩ := hf.plain _ (hL k List.mem_cons_self)
    have hn : ∀ n ∈ f.nodes, Swaps (noneLinks k) k (.kw .none) n := fun n hm => noneLinks_swaps (hf.flat.good.attrs n hm) (hf.flat.paintOnly h1 h2 n hm)
    obtain ⟨a, b, c⟩ := ih (f := noneStep f k) (hf.map rfl hn) (fun j hj => hL j (List.mem_cons_of_mem _ hj))
    refine ⟨(flat_step hf.flat h1 h2 hn).trans a, b, fun j hj => ?_⟩
    obtain ⟨d, e⟩ := c j hj
    obtain ⟨u, v⟩ := used_map rfl hn d
    exact ⟨u, by simp [v, e]⟩

/-- The colour of the stop. -/
def tint (x : Nat × Node) : Nat × Value := (x.1, (x.2.get .stopColor).getD (.kw .none))

theorem solidSteps_view {L : List (Nat × Node)} {C : List (Nat × Value)} {f g : Forest} (hf : State C f) (hL : ∀ x ∈ L, tint x ∈ C ∧ plainStop x.2 = true)
    (h : solidSteps L f = some g) :
    SameView f g ∧ State C g ∧ (∀ j, g.isUsed j = true → f.isUsed j = true ∧ j ∉ L.map (·.1)) := by
  induction L generalizing f with
  | nil => cases h; exact ⟨(SameLook.refl _).view, hf, fun j hj => ⟨hj, by simp⟩⟩
  | cons x L ih =>
    obtain ⟨hx, hs⟩ := hL x List.mem_cons_self
    obtain ⟨h1, h2⟩ := hf.plain _ hx
    simp only [solidSteps] at h
    cases hst : solidStep f x with
    | none => rw [hst] at h; cases h
    | some f1 =>
      rw [hst] at h
      simp only [Option.bind_some] at h
      have ho : x.2.get .stopOpacity = some (.number 1) := by
        simp only [plainStop, Bool.and_eq_true, decide_eq_true_eq] at hs
        exact hs.1.2
      unfold solidStep at hst
      split at hst
      next r gg b hc =>
        rw [ho] at hst
        simp only [Option.some.injEq] at hst
        have ht : tint x = (x.1, .color r gg b) := by unfold tint; rw [hc]; rfl
        rw [ht] at h1 h2
        have hn : ∀ n ∈ f.nodes, Swaps (fun n => if n.isGradient then n else solidLinks x.1 (.color r gg b) 1 n) x.1 (.color r gg b) n :=
          fun n hm => solidLinks_swaps (hf.flat.good.attrs n hm) (hf.flat.paintOnly h1 h2 n hm)
        obtain ⟨a, b', c⟩ := ih (f := f1) (hst ▸ hf.map rfl hn) (fun j hj => hL j (List.mem_cons_of_mem _ hj)) h
        refine ⟨(hst ▸ flat_step hf.flat h1 h2 hn).trans a, b', fun j hj => ?_⟩
        obtain ⟨d, e⟩ := c j hj
        rw [← hst] at d
        obtain ⟨u, v⟩ := used_map rfl hn d
        exact ⟨u, by simp only [List.map_cons, List.mem_cons, not_or]; exact ⟨v, e⟩⟩
      next => cases hst

theorem mem_emptyGradients {f : Forest} {k : Nat} (p : Kind) (h : k ∈ emptyGradients f) :
    ∃ q n, (q, n, .nil) ∈ spots p f ∧ n.key = k ∧ flat n .nil = true := by
  induction f generalizing p with
  | nil => cases h
  | cons m c r ihc ihr =>
    simp only [emptyGradients, List.mem_append] at h
    simp only [spots, List.mem_cons, List.mem_append]
    rcases h with (h | h) | h
    · split at h
      next hm =>
        simp only [List.mem_singleton] at h
        simp only [Bool.and_eq_true] at hm
        cases c with
        | nil => exact ⟨p, m, .inl rfl, h.symm, by simp [flat, hm.1.1, hm.2, Forest.top]⟩
        | cons => exact absurd hm.1.2 (by simp [Forest.isEmpty])
      · cases h
    · obtain ⟨q, n, a, b⟩ := ihc m.kind h
      exact ⟨q, n, .inr (.inl a), b⟩
    · obtain ⟨q, n, a, b⟩ := ihr p h
      exact ⟨q, n, .inr (.inr a), b⟩

theorem mem_solidGradients {f : Forest} {x : Nat × Node} (p : Kind) (h : x ∈ solidGradients f) :
    ∃ q n c, (q, n, .cons x.2 c .nil) ∈ spots p f ∧ n.key = x.1 ∧ flat n (.cons x.2 c .nil) = true := by
  induction f generalizing p with
  | nil => cases h
  | cons m c r ihc ihr =>
    simp only [solidGradients, List.mem_append] at h
    simp only [spots, List.mem_cons, List.mem_append]
    rcases h with (h | h) | h
    · split at h
      next s c' =>
        split at h
        next hm =>
          simp only [List.mem_singleton] at h
          subst h
          simp only [Bool.and_eq_true] at hm
          exact ⟨p, m, c', .inl rfl, rfl, by simp [flat, hm.1, Forest.top]; simpa using hm.2⟩
        · cases h
      · cases h
    · obtain ⟨q, n, c', a, b⟩ := ihc m.kind h
      exact ⟨q, n, c', .inr (.inl a), b⟩
    · obtain ⟨q, n, c', a, b⟩ := ihr p h
      exact ⟨q, n, c', .inr (.inr a), b⟩

theorem State.drop {C : List (Nat × Value)} {f : Forest} (h : State C f) {x : Nat × Value} (hx : x ∈ C) (hu : f.isUsed x.1 = false) : Drop f x.1 := by
  obtain ⟨h1, _⟩ := h.plain x hx
  refine ⟨fun p n ks hs hk => ?_, fun y hy z hz ht => ?_⟩
  · have hfl := (h1 p n ks hs hk).1
    obtain ⟨a, b, _, _⟩ := h.flat.spot p n ks hs hfl
    refine ⟨a, .inr (fun P π d c _ => ?_), b⟩
    simp only [Invisible.flat, Bool.and_eq_true] at hfl
    obtain ⟨e, he, hk⟩ := grad_kind hfl.1.1
    unfold draw
    rw [hk]
    rcases he with rfl | rfl <;> rfl
  · rw [Forest.isUsed_iff.2 ⟨y, hy, Node.mem_links.2 ⟨z, hz, ht⟩⟩] at hu
    cases hu

/-- **C38**, gradients: those without stops are replaced by `none`, those with one opaque stop by its colour. -/
theorem C38_gradients_partial {f g : Forest} {b : Bool} (hf : Flat f) (h : gradientStep f = some (g, b)) : SameView f g := by
  unfold gradientStep at h
  -- the gradients without stops
  have hC : State ((emptyGradients f).map (·, Value.kw .none)) f := by
    refine ⟨hf, fun x hx => ?_⟩
    obtain ⟨k, hk, rfl⟩ := List.mem_map.1 hx
    obtain ⟨q, n, h1, rfl, h3⟩ := mem_emptyGradients top hk
    refine ⟨fun p m c hm e => ?_, keys_spots h1⟩
    cases spots_unique hf.good.keys h1 hm e.symm
    exact ⟨h3, .inl ⟨rfl, rfl⟩⟩
  obtain ⟨a1, a2, a3⟩ := noneSteps hC (L := emptyGradients f) (fun k hk => List.mem_map_of_mem hk)
  simp only at h
  generalize hg : (emptyGradients f).foldl noneStep f = g1 at h a1 a2 a3
  -- the gradients with one stop
  cases hs : solidSteps (solidGradients g1) g1 with
  | none => rw [hs] at h; cases h
  | some g2 =>
    rw [hs] at h
    simp only [Option.map_some, Option.some.injEq, Prod.mk.injEq] at h
    obtain ⟨h, _⟩ := h
    have hspot : ∀ x ∈ solidGradients g1, plainStop x.2 = true := by
      intro x hx
      obtain ⟨q, n, c, e1, e2, e3⟩ := mem_solidGradients top hx
      exact (a2.flat.spot q n _ e1 e3).2.2.2 x.2 (by simp [Forest.top])
    have hcol : ∀ (L : List (Nat × Node)) (f g : Forest), solidSteps L f = some g → ∀ x ∈ L, ∃ r g b, x.2.get .stopColor = some (.color r g b) := by
      intro L
      induction L with
      | nil => intro _ _ _ x hx; cases hx
      | cons y L ih =>
        intro f g h x hx
        simp only [solidSteps] at h
        cases hst : solidStep f y with
        | none => rw [hst] at h; cases h
        | some f1 =>
          rw [hst] at h
          rcases List.mem_cons.1 hx with rfl | hx
          · unfold solidStep at hst
            split at hst
            next r g b hc => exact ⟨r, g, b, hc⟩
            · cases hst
          · exact ih f1 g h x hx
    have hC2 : State ((solidGradients g1).map tint ++ (emptyGradients f).map (·, Value.kw .none)) g1 := by
      refine ⟨a2.flat, fun x hx => ?_⟩
      rcases List.mem_append.1 hx with hx | hx
      · obtain ⟨y, hy, rfl⟩ := List.mem_map.1 hx
        obtain ⟨q, n, c, e1, e2, e3⟩ := mem_solidGradients top hy
        obtain ⟨r, g, b, hc⟩ := hcol _ _ _ hs y hy
        refine ⟨fun p m c' hm e => ?_, by show y.1 ∈ _; rw [← e2]; exact keys_spots e1⟩
        have e : m.key = y.1 := e
        cases spots_unique a2.flat.good.keys e1 hm (e2.trans e.symm)
        refine ⟨e3, .inr ⟨y.2, c, r, g, b, rfl, hc, ?_⟩⟩
        unfold tint
        rw [hc]
        rfl
      · exact a2.plain x hx
    obtain ⟨b1, b2, b3⟩ := solidSteps_view hC2 (L := solidGradients g1) (fun x hx => ⟨List.mem_append_left _ (List.mem_map_of_mem hx), hspot x hx⟩) hs
    rw [← h]
    refine (a1.trans b1).trans (rmKeys_look b2.flat.good (fun k hk => ?_)).1.view
    rcases List.mem_append.1 hk with hk | hk
    · refine b2.drop (x := (k, .kw .none)) (List.mem_append_right _ (List.mem_map_of_mem hk)) ?_
      by_contra hc
      exact (a3 k (b3 k (Bool.eq_true_of_not_eq_false hc)).1).2 hk
    · obtain ⟨y, hy, rfl⟩ := List.mem_map.1 hk
      refine b2.drop (x := tint y) (List.mem_append_left _ (List.mem_map_of_mem hy)) ?_
      by_contra hc
      exact (b3 y.1 (Bool.eq_true_of_not_eq_false hc)).2 (List.mem_map_of_mem hy)

end Verif.Invisible
