import Verif.PipelineCrash
import Verif.MergeWhole
/-
C53: what keeps the tasks that follow the preparation from crashing.
-/
namespace Verif.Crash
open Verif.Dom Verif.Spec
open Verif.Dom (Res)
open Verif.Pipeline

/-- What is fixed while the tasks run: the root element, the `defs` element, what the nodes were, and an order in which the children of an
element and the target of a `use` element come before the element. -/
structure Ctx where
  s : Nat
  d : Nat
  kind : Nat → Kind
  rank : Nat → Nat
  /-- new gradients, whose attributes are still missing -/
  bare : Nat → Prop
  /-- whether each gradient still has stops of its own or a reference, but not both -/
  early : Prop
  /-- whether the ids of the gradients are still unique -/
  uniq : Prop
  /-- there are less nodes than this -/
  cap : Nat
  /-- whether the points of polylines have not yet been fixed -/
  raw : Prop

/-- The elements that are collected in `defs`. -/
def defKind : Kind → Bool
  | .elem e => e.isReferenced
  | _ => false

/-- The elements that are turned into paths. -/
def shapeKind : Kind → Bool
  | .elem .line | .elem .rect | .elem .polyline | .elem .polygon => true
  | _ => false

def svgKind : Kind → Bool
  | .elem _ => true
  | _ => false

def gradKind : Kind → Bool
  | .elem .linearGradient | .elem .radialGradient => true
  | _ => false

/-- The attributes that the preparation gives to each gradient and to each stop. -/
def wanted : Kind → List AId
  | .elem .linearGradient => [.x1, .y1, .x2, .y2, .gradientUnits, .spreadMethod]
  | .elem .radialGradient => [.cx, .cy, .r, .fx, .fy, .gradientUnits, .spreadMethod]
  | .elem .stop => [.stopColor, .stopOpacity]
  | _ => []

/-- An attribute, with regard to gradients. -/
structure GradAttr (C : Ctx) (n : Node) (a : AName) (v : Value) : Prop where
  ts : a = .id .gradientTransform → ∃ t, v = .transform t
  color : a = .id .stopColor → ∃ r g b, v = .color r g b
  opacity : a = .id .stopOpacity → ∃ q, v = .number q
  href : gradKind n.kind = true → a = .id .xlinkHref → ∃ k, v = .link k
  link : gradKind n.kind = true → ∀ k, v.target = some k → a = .id .xlinkHref ∧ gradKind (C.kind k) = true ∧ C.rank k < C.rank n.key
  shown : gradKind n.kind = true ∨ n.kind = .elem .stop → a = .id .display → v ≠ .kw .none
  stop : n.kind = .elem .stop → v.target = none

/-- An attribute of a node. -/
structure AttrOk (C : Ctx) (n : Node) (a : AName) (v : Value) : Prop where
  grad : GradAttr C n a v
  transform : a = .id .transform → n.isSvgElem = true ∧ ∃ t, v = .transform t
  opacity : a = .id .opacity → ∃ q, v = .number q
  points : a = .id .points → n.kind ≠ .elem .g ∧ n.kind ≠ .elem .use ∧
    (n.kind = .elem .polyline ∨ n.kind = .elem .polygon → ¬ C.raw → ∀ l, v = .numberList l → l ≠ [] ∧ l.length % 2 = 0)
  d : a = .id .d → n.kind ≠ .elem .g ∧ n.kind ≠ .elem .use ∧ ∀ p, v = .path p → p = [] ∨ Paths.StartsWithMove p
  /-- The root element and `defs` are not hidden. -/
  shown : a = .id .display → v = .kw .none → n.key ≠ C.s ∧ n.key ≠ C.d
  /-- References. -/
  link : ∀ k, v.target = some k → n.key ≠ C.s ∧ n.key ≠ C.d ∧ n.kind ≠ .elem .filter ∧ k ≠ C.s ∧ (∃ b, a = .id b) ∧
    (a ≠ .id .xlinkHref → defKind (C.kind k) = true) ∧
    (a = .id .xlinkHref → n.kind ≠ .elem .g ∧
      (n.kind = .elem .use → k ≠ C.d ∧ (defKind (C.kind k) = true → C.kind k = .elem .symbol) ∧ svgKind (C.kind k) = true ∧ C.kind k ≠ .elem .svg ∧ C.rank k < C.rank n.key ∧ C.kind k ≠ .elem .stop))

/-- The kind of a node is what it was, or it was a shape and is a path. -/
def Kin (a b : Kind) : Prop := b = a ∨ (shapeKind a = true ∧ b = .elem .path)

theorem Kin.refl (a : Kind) : Kin a a := .inl rfl
theorem Kin.trans {a b c : Kind} (h1 : Kin a b) (h2 : Kin b c) : Kin a c := by
  rcases h2 with rfl | ⟨h2, rfl⟩
  · exact h1
  · rcases h1 with rfl | ⟨_, rfl⟩
    · exact .inr ⟨h2, rfl⟩
    · cases h2

theorem Kin.eq {a b : Kind} (h : Kin a b) (ha : shapeKind a = false) : b = a := by
  rcases h with h | ⟨h, _⟩
  · exact h
  · rw [ha] at h; cases h

theorem Kin.eq' {a b : Kind} (h : Kin a b) (hb : b ≠ .elem .path) : b = a := by
  rcases h with h | ⟨_, h⟩
  · exact h
  · exact absurd h hb

theorem Kin.svg {a b : Kind} (h : Kin a b) : svgKind b = svgKind a := by
  rcases h with rfl | ⟨h, rfl⟩
  · rfl
  · cases a with
    | elem e => rfl
    | _ => cases h

theorem isSvgElem_eq (n : Node) : n.isSvgElem = svgKind n.kind := by
  obtain ⟨k, kind, i, as⟩ := n
  cases kind <;> rfl

theorem Kin.def {a b : Kind} (h : Kin a b) : defKind b = defKind a := by
  rcases h with rfl | ⟨h, rfl⟩
  · rfl
  · cases a with
    | elem e => cases e <;> first | rfl | cases h
    | _ => cases h

theorem Kin.ne {a b : Kind} (h : Kin a b) {e : EId} (he : e ≠ .path) (hs : shapeKind (.elem e) = false) : b = .elem e ↔ a = .elem e := by
  rcases h with rfl | ⟨h, rfl⟩
  · rfl
  · constructor
    · intro e'; injection e' with e'; exact absurd e'.symm he
    · rintro rfl; rw [hs] at h; cases h

theorem Kin.grad {a b : Kind} (h : Kin a b) : gradKind b = gradKind a := by
  rcases h with rfl | ⟨h, rfl⟩
  · rfl
  · cases a with
    | elem e => cases e <;> first | rfl | cases h
    | _ => cases h

theorem Kin.wanted {a b : Kind} (h : Kin a b) : wanted b = wanted a := by
  rcases h with rfl | ⟨h, rfl⟩
  · rfl
  · cases a with
    | elem e => cases e <;> first | rfl | cases h
    | _ => cases h

theorem gradKind_eq (n : Node) : gradKind n.kind = n.isGradient := by
  obtain ⟨k, kind, i, as⟩ := n
  cases kind with
  | elem e => cases e <;> rfl
  | _ => rfl

theorem gradKind_def {a : Kind} (h : gradKind a = true) : defKind a = true := by
  cases a with
  | elem e => cases e <;> first | rfl | cases h
  | _ => cases h

/-- How many references by `xlink:href` a node has. -/
def hrefs (n : Node) : Nat := (n.attrs.filter fun x => decide (x.name = .id .xlinkHref)).length

/-- A node. -/
structure NodeOk (C : Ctx) (n : Node) : Prop where
  kind : Kin (C.kind n.key) n.kind
  full : gradKind n.kind = true → ¬ C.bare n.key → ∀ a ∈ wanted n.kind, n.has a = true
  named : n.kind = .elem .filter ∨ gradKind n.kind = true → n.id ≠ ""
  single : gradKind n.kind = true → hrefs n ≤ 1
  attrs : ∀ x ∈ n.attrs, AttrOk C n x.name x.value

/-- A gradient refers to at most one element. -/
theorem NodeOk.one {C : Ctx} {n : Node} (h : NodeOk C n) (hg : gradKind n.kind = true) : ∀ j ∈ n.links, ∀ k ∈ n.links, j = k := by
  intro j hj k hk
  obtain ⟨x, hx, ex⟩ := Node.mem_links.1 hj
  obtain ⟨y, hy, ey⟩ := Node.mem_links.1 hk
  have h1 : x ∈ n.attrs.filter fun x => decide (x.name = .id .xlinkHref) := List.mem_filter.2 ⟨hx, by simpa using ((h.attrs x hx).grad.link hg j ex).1⟩
  have h2 : y ∈ n.attrs.filter fun x => decide (x.name = .id .xlinkHref) := List.mem_filter.2 ⟨hy, by simpa using ((h.attrs y hy).grad.link hg k ey).1⟩
  have hs := h.single hg
  unfold hrefs at hs
  cases hl : n.attrs.filter fun x => decide (x.name = .id .xlinkHref) with
  | nil => rw [hl] at h1; cases h1
  | cons z t =>
    rw [hl] at h1 h2 hs
    simp only [List.length_cons] at hs
    have : t = [] := List.length_eq_zero_iff.1 (by omega)
    subst this
    rw [List.mem_singleton] at h1 h2
    rw [h1] at ex
    rw [h2, ex] at ey
    exact Option.some.inj ey

/-- A node with what is in it. -/
structure TreeOk (C : Ctx) (n : Node) (k : Forest) : Prop where
  group : n.kind = .elem .g → ∀ m ∈ k.top, svgKind m.kind = true
  leaf : n.kind = .elem .use → k.keys = []
  stops : gradKind n.kind = true → ∀ m ∈ k.top, m.kind = .elem .stop ∧ ∀ a ∈ wanted m.kind, m.has a = true
  early : C.early → gradKind n.kind = true → (n.has .xlinkHref = true ↔ k.top = [])
  below : n.key ≠ C.s → n.key ≠ C.d → ∀ j ∈ k.keys, defKind (C.kind j) = false ∧ j ≠ C.s ∧ j ≠ C.d ∧ (gradKind n.kind = false → C.rank j < C.rank n.key ∧ C.kind j ≠ .elem .stop)

/-- The root element has the `defs` element as a child. -/
def Anchored (C : Ctx) (f : Forest) : Prop :=
  ∃ S ks D, svgElement f = some (S, ks) ∧ S.key = C.s ∧ D ∈ ks.top ∧ D.key = C.d ∧ D.kind = .elem .defs

/-- What holds between the tasks. -/
structure Inv (C : Ctx) (f : Forest) : Prop where
  unique : f.UniqueKeys
  links : f.LinksOk
  nodes : ∀ n ∈ f.nodes, NodeOk C n
  trees : ∀ x ∈ subs f, TreeOk C x.1 x.2
  root : Anchored C f
  count : f.nodes.length < C.cap
  ids : C.uniq → ∀ n ∈ f.nodes, gradKind n.kind = true → ∀ m ∈ f.nodes, m.id = n.id → m.key = n.key

/-- A task that does not crash and keeps something. -/
def Holds (P : Forest → Prop) (t : Task) : Prop := ∀ f, P f → t f ≠ .panic ∧ ∀ g, t f = .ok g → P g

theorem Holds.on {P : Forest → Prop} {t : Task} (h : Holds P t) (b : Bool) : Holds P (on b t) := by
  intro f hf
  unfold Pipeline.on
  cases b
  · exact ⟨by simp, fun g e => by cases e; exact hf⟩
  · exact h f hf

theorem Holds.runAll {P : Forest → Prop} {ts : List Task} (h : ∀ t ∈ ts, Holds P t) : Holds P (runAll ts) := by
  intro f hf
  induction ts generalizing f with
  | nil => exact ⟨by simp [Pipeline.runAll], fun g e => by cases e; exact hf⟩
  | cons t ts ih =>
    obtain ⟨h1, h2⟩ := h t (by simp) f hf
    rw [Pipeline.runAll]
    cases hr : t f with
    | panic => exact absurd hr h1
    | err e => exact ⟨by simp [Res.bind], fun _ e => by cases e⟩
    | ok g => exact ih (fun t ht => h t (by simp [ht])) g (h2 g hr)

theorem Holds.sure {P : Forest → Prop} {t : Forest → Forest} (h : ∀ f, P f → P (t f)) : Holds P (sure t) :=
  fun f hf => ⟨by simp [Pipeline.sure], fun g e => by cases e; exact h f hf⟩

theorem Holds.may {P : Forest → Prop} {t : Forest → Option Forest} (h : ∀ f, P f → ∃ g, t f = some g ∧ P g) : Holds P (may t) := by
  intro f hf
  obtain ⟨g, hg, hp⟩ := h f hf
  exact ⟨may_panic ⟨g, hg⟩, fun g' e => by have := may_ok e; rw [hg] at this; cases this; exact hp⟩

/-! ### Nodes -/

/-- A node that has become another one. -/
structure Tame (C : Ctx) (n m : Node) : Prop where
  key : m.key = n.key
  id : m.id = n.id
  kind : Kin n.kind m.kind
  attrs : ∀ x ∈ m.attrs, AttrOk C m x.name x.value ∨ ∃ y ∈ n.attrs, y.name = x.name ∧ y.value = x.value
  links : ∀ k ∈ m.links, k ∈ n.links
  keeps : ∀ a ∈ wanted n.kind, n.has a = true → m.has a = true
  href : C.early → gradKind n.kind = true → (n.has .xlinkHref = true ↔ m.has .xlinkHref = true)
  few : gradKind n.kind = true → hrefs m ≤ hrefs n

theorem Kin.attr {C : Ctx} {n m : Node} (hk : m.key = n.key) (h : Kin n.kind m.kind) {a : AName} {v : Value} (ha : AttrOk C n a v) : AttrOk C m a v := by
  have h1 : m.kind = .elem .g ↔ n.kind = .elem .g := h.ne (by decide) rfl
  have h2 : m.kind = .elem .use ↔ n.kind = .elem .use := h.ne (by decide) rfl
  have h3 : m.kind = .elem .filter ↔ n.kind = .elem .filter := h.ne (by decide) rfl
  have h4 : m.isSvgElem = n.isSvgElem := by rw [isSvgElem_eq, isSvgElem_eq, h.svg]
  refine ⟨?_, ?_, ha.opacity, ?_, ?_, ?_, ?_⟩
  · refine ⟨ha.grad.ts, ha.grad.color, ha.grad.opacity, ?_, ?_, ?_, ?_⟩
    · rw [h.grad]; exact ha.grad.href
    · rw [h.grad, hk]; exact ha.grad.link
    · rw [h.grad]; exact fun e => ha.grad.shown (e.imp_right (h.ne (by decide) rfl).1)
    · exact fun e => ha.grad.stop ((h.ne (by decide) rfl).1 e)
  · rw [h4]; exact ha.transform
  · intro e
    obtain ⟨p1, p2, p3⟩ := ha.points e
    refine ⟨fun x => p1 (h1.1 x), fun x => p2 (h2.1 x), fun x => p3 ?_⟩
    rcases x with x | x
    · have := h.eq' (by rw [x]; decide)
      rw [← this]; exact .inl x
    · have := h.eq' (by rw [x]; decide)
      rw [← this]; exact .inr x
  · intro e
    obtain ⟨p1, p2, p3⟩ := ha.d e
    exact ⟨fun x => p1 (h1.1 x), fun x => p2 (h2.1 x), p3⟩
  · rw [hk]; exact ha.shown
  · intro k e
    obtain ⟨p1, p2, p3, p4, p5, p6, p7⟩ := ha.link k e
    rw [hk]
    exact ⟨p1, p2, fun x => p3 (h3.1 x), p4, p5, p6, fun x => ⟨fun y => (p7 x).1 (h1.1 y), fun y => (p7 x).2 (h2.1 y)⟩⟩

theorem Tame.refl (C : Ctx) (n : Node) : Tame C n n := ⟨rfl, rfl, Kin.refl _, fun x hx => .inr ⟨x, hx, rfl, rfl⟩, fun _ h => h, fun _ _ h => h, fun _ _ => Iff.rfl, fun _ => Nat.le_refl _⟩

theorem Tame.trans {C : Ctx} {a b c : Node} (h1 : Tame C a b) (h2 : Tame C b c) : Tame C a c where
  key := h2.key.trans h1.key
  id := h2.id.trans h1.id
  kind := h1.kind.trans h2.kind
  links k hk := h1.links k (h2.links k hk)
  keeps a ha h := h2.keeps a (by rw [h1.kind.wanted]; exact ha) (h1.keeps a ha h)
  href he hg := (h1.href he hg).trans (h2.href he (by rw [h1.kind.grad]; exact hg))
  few hg := (h2.few (by rw [h1.kind.grad]; exact hg)).trans (h1.few hg)
  attrs x hx := by
    rcases h2.attrs x hx with h | ⟨y, hy, e1, e2⟩
    · exact .inl h
    · rcases h1.attrs y hy with h | ⟨z, hz, e3, e4⟩
      · rw [e1, e2] at h
        exact .inl (h2.kind.attr h2.key h)
      · exact .inr ⟨z, hz, e3.trans e1, e4.trans e2⟩

theorem NodeOk.tame {C : Ctx} {n m : Node} (h : NodeOk C n) (ht : Tame C n m) : NodeOk C m where
  kind := by rw [ht.key]; exact h.kind.trans ht.kind
  full e hb a ha := by
    rw [ht.kind.grad] at e
    rw [ht.kind.wanted] at ha
    rw [ht.key] at hb
    exact ht.keeps a ha (h.full e hb a ha)
  named e := by
    rw [ht.id]
    rw [ht.kind.grad] at e
    exact h.named (e.imp_left (ht.kind.ne (by decide) rfl).1)
  single e := by
    rw [ht.kind.grad] at e
    exact (ht.few e).trans (h.single e)
  attrs x hx := by
    rcases ht.attrs x hx with h' | ⟨y, hy, e1, e2⟩
    · exact h'
    · have := h.attrs y hy
      rw [e1, e2] at this
      exact ht.kind.attr ht.key this

theorem has_iff {n : Node} {a : AId} : n.has a = true ↔ ∃ x ∈ n.attrs, x.name = .id a := by
  unfold Node.has getAttr
  rw [List.find?_isSome]
  simp

theorem Tame.sub {C : Ctx} {n m : Node} (h1 : m.key = n.key) (h2 : m.id = n.id) (h3 : m.kind = n.kind) (h4' : m.attrs.Sublist n.attrs)
    (h5 : ∀ a ∈ wanted n.kind, n.has a = true → m.has a = true) (h6 : C.early → gradKind n.kind = true → n.has .xlinkHref = true → m.has .xlinkHref = true) : Tame C n m :=
  have h4 : ∀ x ∈ m.attrs, x ∈ n.attrs := fun _ h => h4'.mem h
  ⟨h1, h2, .inl h3, fun x hx => .inr ⟨x, h4 x hx, rfl, rfl⟩, fun k hk => by
    obtain ⟨x, hx, e⟩ := Node.mem_links.1 hk
    exact Node.mem_links.2 ⟨x, h4 x hx, e⟩, h5, fun he hg => ⟨h6 he hg, fun hh => by
      obtain ⟨x, hx, e⟩ := has_iff.1 hh
      exact has_iff.2 ⟨x, h4 x hx, e⟩⟩, fun _ => (h4'.filter _).length_le⟩

theorem Tame.rm (C : Ctx) (n : Node) {a : AId} (ha : a ∉ wanted n.kind) (hx : gradKind n.kind = true → a ≠ .xlinkHref) : Tame C n (n.rm a) :=
  Tame.sub rfl rfl rfl List.filter_sublist (fun b hb h => by
    rw [Node.has_rm, if_neg]
    · exact h
    · rintro rfl; exact ha hb) fun _ hg h => by
    rw [Node.has_rm, if_neg]
    · exact h
    · rintro rfl; exact hx hg rfl

/-- All attributes that are wanted anywhere. -/
def allWanted : List AId := [.xlinkHref, .x1, .y1, .x2, .y2, .gradientUnits, .spreadMethod, .cx, .cy, .r, .fx, .fy, .stopColor, .stopOpacity]

theorem not_wanted {a : AId} (h : a ∉ allWanted) (k : Kind) : a ∉ wanted k := by
  simp only [allWanted, List.mem_cons, List.not_mem_nil, or_false, not_or] at h
  cases k with
  | elem e => cases e <;> simp [Crash.wanted, h]
  | _ => simp [Crash.wanted]

theorem Tame.rmFree (C : Ctx) (n : Node) {a : AId} (h : a ∉ allWanted) : Tame C n (n.rm a) := Tame.rm C n (not_wanted h _) fun _ e => h (by rw [e]; simp [allWanted])

/-- The attributes that are wanted do not refer to anything. -/
theorem AttrOk.noLink {C : Ctx} {n : Node} {a : AId} {v : Value} (h : AttrOk C n (.id a) v) (ha : a ∈ wanted n.kind) : v.target = none := by
  cases hv : v.target with
  | none => rfl
  | some k =>
    exfalso
    cases hg : gradKind n.kind with
    | true =>
      have := (h.grad.link hg k hv).1
      injection this with this
      subst this
      clear h hg
      revert ha
      obtain ⟨key, kind, i, as⟩ := n
      cases kind with
      | elem e => cases e <;> simp [Crash.wanted]
      | _ => simp [Crash.wanted]
    | false =>
      have hs : n.kind = .elem .stop := by
        clear h
        obtain ⟨key, kind, i, as⟩ := n
        cases kind with
        | elem e => cases e <;> first | rfl | (cases ha; done) | (cases hg; done)
        | _ => cases ha
      rw [hs] at ha
      simp only [Crash.wanted, List.mem_cons, List.not_mem_nil, or_false] at ha
      rcases ha with rfl | rfl
      · obtain ⟨_, _, _, rfl⟩ := h.grad.color rfl; cases hv
      · obtain ⟨_, rfl⟩ := h.grad.opacity rfl; cases hv

theorem Tame.unlink {C : Ctx} {n : Node} (h : NodeOk C n) (s : Nat → Bool) (hs : C.early → gradKind n.kind = true → ∀ k ∈ n.links, s k = false) : Tame C n (n.unlink s) :=
  Tame.sub rfl rfl rfl List.filter_sublist (fun a ha hh => by
    obtain ⟨x, hx, e⟩ := has_iff.1 hh
    have h1 := h.attrs x hx
    rw [e] at h1
    exact has_iff.2 ⟨x, List.mem_filter.2 ⟨hx, by rw [h1.noLink ha]⟩, e⟩) fun he hg hh => by
    obtain ⟨x, hx, e⟩ := has_iff.1 hh
    refine has_iff.2 ⟨x, List.mem_filter.2 ⟨hx, ?_⟩, e⟩
    obtain ⟨k, hk⟩ := (h.attrs x hx).grad.href hg e
    have hk : x.value.target = some k := by rw [hk]; rfl
    rw [hk]
    simp [hs he hg k (Node.mem_links.2 ⟨x, hx, hk⟩)]

theorem Tame.hide (C : Ctx) (n : Node) (a : AId) : Tame C n (n.hide a) := by
  refine ⟨rfl, rfl, .inl rfl, fun x hx => ?_, fun k hk => by rwa [Node.links_hide] at hk, fun b _ h => by rw [Node.has_hide]; exact h, fun _ _ => by rw [Node.has_hide], fun _ => ?_⟩
  swap
  · unfold hrefs Node.hide hideAttr
    rw [List.filter_map, List.length_map]
    refine Nat.le_of_eq (congrArg _ (List.filter_congr fun x _ => ?_))
    simp only [Function.comp]
    split <;> rfl
  obtain ⟨y, hy, e⟩ := List.mem_map.1 hx
  refine .inr ⟨y, hy, ?_⟩
  split at e <;> (rw [← e]; exact ⟨rfl, rfl⟩)

theorem has_put {n : Node} {x : Attr} {a : AId} (h : n.has a = true) : ({ n with attrs := putAttr n.attrs x } : Node).has a = true := by
  unfold Node.has at *
  dsimp only
  rw [getAttr_put]
  split
  · rfl
  · exact h

theorem gradHref {C : Ctx} {n : Node} {v : Value} (h : GradAttr C n (.id .xlinkHref) v) (hg : gradKind n.kind = true) : v.target ≠ none := by
  obtain ⟨k, rfl⟩ := h.href hg rfl
  simp [Value.target]

theorem hrefs_put {n : Node} {x : Attr} (h : x.name ≠ .id .xlinkHref) : hrefs { n with attrs := putAttr n.attrs x } ≤ hrefs n := by
  unfold hrefs putAttr
  dsimp only
  split
  · rw [List.filter_map, List.length_map]
    refine Nat.le_of_eq (congrArg _ (List.filter_congr fun y _ => ?_))
    simp only [Function.comp]
    split
    next e => rw [e]
    · rfl
  · rw [List.filter_append, List.filter_cons_of_neg (by simpa using h)]
    simp

theorem Tame.put {C : Ctx} (n : Node) {x : Attr} (h : AttrOk C n x.name x.value) (hv : x.value.target = none) :
    Tame C n { n with attrs := putAttr n.attrs x } := by
  refine ⟨rfl, rfl, .inl rfl, fun y hy => ?_, fun k hk => ?_, fun a _ h => has_put h, fun _ hg => ?_, fun hg => hrefs_put fun e => ?_⟩
  rotate_left 3
  · rw [e] at h
    exact gradHref h.grad hg hv
  rotate_left 2
  · unfold Node.has
    dsimp only
    rw [getAttr_put, if_neg]
    intro e
    rw [← e] at h
    exact gradHref h.grad hg hv
  swap
  · obtain ⟨y, hy, e⟩ := Node.mem_links.1 hk
    rcases Node.mem_putAttr hy with rfl | hy
    · rw [hv] at e; cases e
    · exact Node.mem_links.2 ⟨y, hy, e⟩
  rcases Node.mem_putAttr hy with rfl | hy
  · exact .inl (Kin.attr (n := n) (m := { n with attrs := putAttr n.attrs y }) rfl (.inl rfl) h)
  · exact .inr ⟨y, hy, rfl, rfl⟩

theorem Tame.set {C : Ctx} (n : Node) {a : AId} {v : Value} (h : AttrOk C n (.id a) v) (hv : v.target = none) : Tame C n (n.set a v) :=
  Tame.put n (x := ⟨.id a, v, true⟩) h hv

/-- Names that nothing depends on. -/
def freeName (a : AName) : Bool := a != .id .transform && a != .id .opacity && a != .id .points && a != .id .d && a != .id .display &&
  a != .id .gradientTransform && a != .id .stopColor && a != .id .stopOpacity && a != .id .xlinkHref

theorem GradAttr.free {C : Ctx} {n : Node} {a : AName} {v : Value} (h1 : a ≠ .id .gradientTransform) (h2 : a ≠ .id .stopColor) (h3 : a ≠ .id .stopOpacity)
    (h4 : a ≠ .id .xlinkHref) (h5 : a ≠ .id .display) (hv : v.target = none) : GradAttr C n a v :=
  ⟨fun e => absurd e h1, fun e => absurd e h2, fun e => absurd e h3, fun _ e => absurd e h4, fun _ k e => (by rw [hv] at e; cases e), fun _ e => absurd e h5, fun _ => hv⟩

theorem AttrOk.free {C : Ctx} {n : Node} {a : AName} {v : Value} (h : freeName a = true) (hv : v.target = none) : AttrOk C n a v := by
  simp only [freeName, Bool.and_eq_true, bne_iff_ne, ne_eq] at h
  obtain ⟨⟨⟨⟨⟨⟨⟨⟨h1, h2⟩, h3⟩, h4⟩, h5⟩, h6⟩, h7⟩, h8⟩, h9⟩ := h
  exact ⟨GradAttr.free h6 h7 h8 h9 h5 hv, fun e => absurd e h1, fun e => absurd e h2, fun e => absurd e h3, fun e => absurd e h4, fun e => absurd e h5, fun k e => by rw [hv] at e; cases e⟩

theorem Tame.setFree (C : Ctx) (n : Node) {a : AId} {v : Value} (h : freeName (.id a) = true) (hv : v.target = none) : Tame C n (n.set a v) :=
  Tame.set n (AttrOk.free h hv) hv

theorem Tame.foldl {C : Ctx} {α : Type} {g : Node → α → Node} (h : ∀ n x, Tame C n (g n x)) (l : List α) (n : Node) : Tame C n (l.foldl g n) := by
  induction l generalizing n with
  | nil => exact Tame.refl C n
  | cons x t ih => exact (h n x).trans (ih _)

/-! ### Trees -/

/-- The nodes of a document come from those of another one, and nothing has moved into an element. -/
def Flow (C : Ctx) (f g : Forest) : Prop :=
  ∀ y ∈ subs g, ∃ x ∈ subs f, Tame C x.1 y.1 ∧ (∀ j ∈ y.2.keys, j ∈ x.2.keys) ∧
    (x.1.kind = .elem .g ∨ gradKind x.1.kind = true → ∀ m ∈ y.2.top, ∃ n ∈ x.2.top, Tame C n m) ∧
    (C.early → gradKind x.1.kind = true → y.2.top = [] → x.2.top = [])

theorem Flow.refl (C : Ctx) (f : Forest) : Flow C f f :=
  fun y hy => ⟨y, hy, Tame.refl C _, fun _ h => h, fun _ m hm => ⟨m, hm, Tame.refl C _⟩, fun _ _ h => h⟩

theorem Flow.trans {C : Ctx} {f g h : Forest} (h1 : Flow C f g) (h2 : Flow C g h) : Flow C f h := by
  intro z hz
  obtain ⟨y, hy, t2, k2, p2, q2⟩ := h2 z hz
  obtain ⟨x, hx, t1, k1, p1, q1⟩ := h1 y hy
  refine ⟨x, hx, t1.trans t2, fun j hj => k1 j (k2 j hj), fun e m hm => ?_, fun he hg h => q1 he hg (q2 he (by rw [t1.kind.grad]; exact hg) h)⟩
  obtain ⟨n, hn, e1⟩ := p2 (by rw [t1.kind.grad]; exact e.imp_left (t1.kind.ne (by decide) rfl).2) m hm
  obtain ⟨l, hl, e2⟩ := p1 e n hn
  exact ⟨l, hl, e2.trans e1⟩

theorem Flow.along {C : Ctx} {f g : Forest} (h : Along (Tame C) f g) : Flow C f g := by
  intro y hy
  obtain ⟨x, hx, hr, hs⟩ := along_bind h hy
  refine ⟨x, hx, hr, fun j hj => ?_, fun _ m hm => ?_, fun _ _ e => ?_⟩
  · rw [hs.keys fun _ _ h => h.key] at hj; exact hj
  · obtain ⟨n, hn, e⟩ := Simple.forall₂_mem_right hs.top hm
    exact ⟨n, hn, e⟩
  · have := hs.top
    rw [e] at this
    exact List.forall₂_nil_right_iff.1 this

theorem nodes_subs {f : Forest} {n : Node} (h : n ∈ f.nodes) : ∃ k, (n, k) ∈ subs f := by
  induction f with
  | nil => cases h
  | cons m k r ih1 ih2 =>
    simp only [Forest.nodes, List.mem_cons, List.mem_append] at h
    rcases h with rfl | h | h
    · exact ⟨k, by simp [subs]⟩
    · obtain ⟨c, hc⟩ := ih1 h; exact ⟨c, by simp [subs, hc]⟩
    · obtain ⟨c, hc⟩ := ih2 h; exact ⟨c, by simp [subs, hc]⟩

theorem subs_nodes {f : Forest} {x : Node × Forest} (h : x ∈ subs f) : x.1 ∈ f.nodes := GroupStyle.mem_nodes_of_subs h

theorem TreeOk.flow {C : Ctx} {n m : Node} {k c : Forest} (h : TreeOk C n k) (ht : Tame C n m) (hk : ∀ j ∈ c.keys, j ∈ k.keys)
    (hg : n.kind = .elem .g ∨ gradKind n.kind = true → ∀ m ∈ c.top, ∃ n ∈ k.top, Tame C n m)
    (hq : C.early → gradKind n.kind = true → c.top = [] → k.top = []) : TreeOk C m c where
  early he e := by
    rw [ht.kind.grad] at e
    rw [← ht.href he e, h.early he e]
    refine ⟨fun h0 => ?_, hq he e⟩
    refine List.eq_nil_iff_forall_not_mem.2 fun p hp => ?_
    obtain ⟨q, hq, _⟩ := hg (.inr e) p hp
    rw [h0] at hq
    cases hq
  group e p hp := by
    obtain ⟨q, hq, e'⟩ := hg (.inl ((ht.kind.ne (by decide) rfl).1 e)) p hp
    rw [e'.kind.svg]
    exact h.group ((ht.kind.ne (by decide) rfl).1 e) q hq
  leaf e := by
    have := h.leaf ((ht.kind.ne (by decide) rfl).1 e)
    rw [this] at hk
    exact List.eq_nil_iff_forall_not_mem.2 fun j hj => by cases hk j hj
  stops e p hp := by
    rw [ht.kind.grad] at e
    obtain ⟨q, hq, e'⟩ := hg (.inr e) p hp
    obtain ⟨h1, h2⟩ := h.stops e q hq
    refine ⟨(e'.kind.ne (by decide) rfl).2 h1, fun a ha => ?_⟩
    rw [e'.kind.wanted] at ha
    exact e'.keeps a ha (h2 a ha)
  below h1 h2 j hj := by
    rw [ht.key] at *
    rw [ht.kind.grad]
    exact h.below h1 h2 j (hk j hj)

theorem length_flow {C : Ctx} {f g : Forest} (hf : Flow C f g) (hu : g.UniqueKeys) : g.nodes.length ≤ f.nodes.length := by
  have : g.keys.length ≤ f.keys.length := by
    refine (List.Nodup.subperm hu fun j hj => ?_).length_le
    obtain ⟨n, hn, rfl⟩ := Forest.mem_keys.1 hj
    obtain ⟨k, hk⟩ := nodes_subs hn
    obtain ⟨x, hx, ht, _⟩ := hf _ hk
    rw [show n.key = x.1.key from ht.key]
    exact Forest.key_mem (subs_nodes hx)
  simpa [Forest.keys] using this

theorem Inv.flow {C : Ctx} {f g : Forest} (h : Inv C f) (hf : Flow C f g) (hu : g.UniqueKeys) (hl : g.LinksOk) (hr : Anchored C g) : Inv C g where
  unique := hu
  links := hl
  root := hr
  count := Nat.lt_of_le_of_lt (length_flow hf hu) h.count
  nodes n hn := by
    obtain ⟨k, hk⟩ := nodes_subs hn
    obtain ⟨x, hx, ht, _⟩ := hf _ hk
    exact (h.nodes x.1 (subs_nodes hx)).tame ht
  trees y hy := by
    obtain ⟨x, hx, ht, hk, hg, hq⟩ := hf y hy
    exact (h.trees x hx).flow ht hk hg hq
  ids hu n hn hg m hm e := by
    obtain ⟨k, hk⟩ := nodes_subs hn
    obtain ⟨x, hx, ht, _⟩ := hf _ hk
    obtain ⟨k', hk'⟩ := nodes_subs hm
    obtain ⟨x', hx', ht', _⟩ := hf _ hk'
    rw [show m.key = x'.1.key from ht'.key, show n.key = x.1.key from ht.key]
    refine h.ids hu x.1 (subs_nodes hx) ?_ x'.1 (subs_nodes hx') ?_
    · rw [← ht.kind.grad]; exact hg
    · rw [← ht'.id, ← ht.id]; exact e

theorem anchored_along {C : Ctx} {f g : Forest} (h : Along (Tame C) f g) (hr : Anchored C f) : Anchored C g := by
  obtain ⟨S, ks, D, h1, h2, h3, h4, h5⟩ := hr
  induction h with
  | nil => cases h1
  | @cons n m k k' r r' hn hk _ _ ih =>
    have hi : m.isTag .svg = n.isTag .svg := by
      unfold Node.isTag
      rw [decide_eq_decide]
      exact hn.kind.ne (by decide) rfl
    unfold svgElement at h1
    split at h1
    next e =>
      cases h1
      have : ∃ D' ∈ k'.top, Tame C D D' := by
        have := hk.top
        generalize k'.top = b at this
        generalize ks.top = a at this h3
        clear hk
        induction this with
        | nil => cases h3
        | cons h' _ ih =>
          rcases List.mem_cons.1 h3 with rfl | h3
          · exact ⟨_, by simp, h'⟩
          · obtain ⟨D', hD, t⟩ := ih h3
            exact ⟨D', by simp [hD], t⟩
      obtain ⟨D', hD, t⟩ := this
      refine ⟨m, k', D', by rw [svgElement, if_pos (by rw [hi]; exact e)], hn.key.trans h2, hD, t.key.trans h4, (t.kind.ne (by decide) rfl).2 h5⟩
    next e =>
      obtain ⟨S', ks', D', g1, g2⟩ := ih h1
      exact ⟨S', ks', D', by rw [svgElement, if_neg (by rw [hi]; exact e)]; exact g1, g2⟩

/-- The nodes are changed one by one. -/
theorem Inv.along {C : Ctx} {f g : Forest} (h : Inv C f) (ha : Along (Tame C) f g) : Inv C g := by
  have hk : g.keys = f.keys := ha.keys fun _ _ h => h.key
  refine h.flow (Flow.along ha) (by unfold Forest.UniqueKeys; rw [hk]; exact h.unique) (fun m hm k hkm => ?_) (anchored_along ha h.root)
  obtain ⟨n, hn, ht⟩ := along_mem ha hm
  rw [hk]
  exact h.links n hn k (ht.links k hkm)

/-! ### Nodes are removed -/

/-- A gradient that keeps its stops, or some of them. -/
def Stay (C : Ctx) (p : Node → Bool) (f : Forest) : Prop :=
  C.early → ∀ x ∈ subs f, gradKind x.1.kind = true → (∀ k ∈ x.1.links, k ∉ f.prunedKeys p) ∧ (x.2.top ≠ [] → ∃ m ∈ x.2.top, p m = false)

theorem flow_prune {C : Ctx} {p : Node → Bool} {f : Forest} (H : C.early → ∀ x ∈ subs f, gradKind x.1.kind = true → x.2.top ≠ [] → ∃ m ∈ x.2.top, p m = false) :
    Flow C f (f.prune p) := by
  induction f with
  | nil => exact Flow.refl C _
  | cons n k r ih1 ih2 =>
    intro y hy
    replace ih1 := ih1 fun he x hx => H he x (by simp [subs, hx])
    replace ih2 := ih2 fun he x hx => H he x (by simp [subs, hx])
    rw [Forest.prune] at hy
    split at hy
    · obtain ⟨x, hx, h⟩ := ih2 y hy
      exact ⟨x, by simp [subs, hx], h⟩
    · simp only [subs, List.mem_cons, List.mem_append] at hy
      rcases hy with rfl | hy | hy
      · refine ⟨(n, k), by simp [subs], Tame.refl C n, fun j hj => ?_, fun _ m hm => ?_, fun he hg e => ?_⟩
        rotate_left 2
        · by_contra h0
          obtain ⟨m, hm, hp⟩ := H he (n, k) (by simp [subs]) hg h0
          dsimp only at e
          rw [Stops.top_prune] at e
          have : m ∈ ([] : List Node) := e ▸ List.mem_filter.2 ⟨hm, by simp [hp]⟩
          cases this
        · obtain ⟨m, hm, rfl⟩ := Forest.mem_keys.1 hj
          exact Forest.mem_keys.2 ⟨m, (Forest.nodes_prune_sublist p k).subset hm, rfl⟩
        · rw [Stops.top_prune] at hm
          exact ⟨m, List.mem_of_mem_filter hm, Tame.refl C _⟩
      · obtain ⟨x, hx, h⟩ := ih1 y hy
        exact ⟨x, by simp [subs, hx], h⟩
      · obtain ⟨x, hx, h⟩ := ih2 y hy
        exact ⟨x, by simp [subs, hx], h⟩

theorem tame_unlink {C : Ctx} {p : Node → Bool} {f : Forest} (h : ∀ n ∈ f.nodes, NodeOk C n) (H : Stay C p f) :
    ∀ n ∈ (f.prune p).nodes, Tame C n (n.unlink fun k => decide (k ∈ f.prunedKeys p)) := by
  intro n hn
  have hn := (Forest.nodes_prune_sublist p f).subset hn
  refine Tame.unlink (h n hn) _ fun he hg k hk => ?_
  obtain ⟨c, hc⟩ := nodes_subs hn
  simpa using (H he _ hc hg).1 k hk

theorem flow_remove {C : Ctx} {p : Node → Bool} {f : Forest} (h : ∀ n ∈ f.nodes, NodeOk C n) (H : Stay C p f) : Flow C f (f.remove p) :=
  (flow_prune fun he x hx hg => (H he x hx hg).2).trans (Flow.along (Along.map (tame_unlink h H)))

theorem top_prune_keep {p : Node → Bool} {f : Forest} {n : Node} (h : n ∈ f.top) (hp : p n = false) : n ∈ (f.prune p).top := by
  induction f with
  | nil => cases h
  | cons m k r _ ih =>
    rw [Forest.prune]
    rcases List.mem_cons.1 h with rfl | h
    · rw [if_neg (by rw [hp]; simp)]; exact List.mem_cons_self ..
    · split
      · exact ih h
      · exact List.mem_cons_of_mem _ (ih h)

theorem svgElement_prune {p : Node → Bool} {f : Forest} {S : Node} {ks : Forest} (h : svgElement f = some (S, ks)) (hp : p S = false) :
    svgElement (f.prune p) = some (S, ks.prune p) := by
  induction f with
  | nil => cases h
  | cons m k r _ ih =>
    rw [svgElement] at h
    rw [Forest.prune]
    split at h
    next e =>
      cases h
      rw [if_neg (by rw [hp]; simp), svgElement, if_pos e]
    next e =>
      split
      · exact ih h
      · rw [svgElement, if_neg e]; exact ih h

theorem anchored_remove {C : Ctx} {p : Node → Bool} {f : Forest} (hn : ∀ n ∈ f.nodes, NodeOk C n) (h : Anchored C f) (hs : ∀ n ∈ f.nodes, n.key = C.s → p n = false)
    (hd : ∀ n ∈ f.nodes, n.key = C.d → p n = false) (H : Stay C p f) : Anchored C (f.remove p) := by
  refine anchored_along (Along.map (tame_unlink hn H)) ?_
  obtain ⟨S, ks, D, h1, h2, h3, h4, h5⟩ := h
  have hS : S ∈ f.nodes := subs_nodes (GroupDefs.svgElement_mem h1).1
  have hD : D ∈ f.nodes := GroupDefs.kid_nodes (GroupDefs.svgElement_mem h1).1 h3
  exact ⟨S, ks.prune p, D, svgElement_prune h1 (hs S hS h2), h2, top_prune_keep h3 (hd D hD h4), h4, h5⟩

theorem Inv.remove {C : Ctx} {p : Node → Bool} {f : Forest} (h : Inv C f) (hs : ∀ n ∈ f.nodes, n.key = C.s → p n = false)
    (hd : ∀ n ∈ f.nodes, n.key = C.d → p n = false) (H : Stay C p f) : Inv C (f.remove p) := by
  have := (Step.remove p f).safe h.unique h.links
  exact h.flow (flow_remove h.nodes H) this.unique this.links (anchored_remove h.nodes h.root hs hd H)

theorem Inv.kindS {C : Ctx} {f : Forest} (h : Inv C f) {n : Node} (hn : n ∈ f.nodes) (e : n.key = C.s) : n.kind = .elem .svg := by
  obtain ⟨S, ks, D, h1, h2, _⟩ := h.root
  obtain ⟨h3, h4⟩ := GroupDefs.svgElement_mem h1
  rw [Forest.eq_of_key h.unique hn (subs_nodes h3) (e.trans h2.symm)]
  exact h4

theorem Inv.kindD {C : Ctx} {f : Forest} (h : Inv C f) {n : Node} (hn : n ∈ f.nodes) (e : n.key = C.d) : n.kind = .elem .defs := by
  obtain ⟨S, ks, D, h1, h2, h3, h4, h5⟩ := h.root
  rw [Forest.eq_of_key h.unique hn (GroupDefs.kid_nodes (GroupDefs.svgElement_mem h1).1 h3) (e.trans h4.symm)]
  exact h5

theorem Inv.memS {C : Ctx} {f : Forest} (h : Inv C f) : ∃ n ∈ f.nodes, n.key = C.s := by
  obtain ⟨S, ks, D, h1, h2, _⟩ := h.root
  exact ⟨S, subs_nodes (GroupDefs.svgElement_mem h1).1, h2⟩

theorem Inv.memD {C : Ctx} {f : Forest} (h : Inv C f) : ∃ n ∈ f.nodes, n.key = C.d := by
  obtain ⟨S, ks, D, h1, h2, h3, h4, h5⟩ := h.root
  exact ⟨D, GroupDefs.kid_nodes (GroupDefs.svgElement_mem h1).1 h3, h4⟩

/-- Nodes that are neither gradients nor stops. -/
def noGrad (k : Kind) : Prop := gradKind k = false ∧ k ≠ .elem .stop

theorem Kin.noGrad {a b : Kind} (h : Kin a b) : noGrad b ↔ noGrad a := by
  unfold Crash.noGrad
  rw [h.grad, ne_eq, ne_eq, h.ne (e := .stop) (by decide) rfl]

/-- If no gradient and no stop is removed, the gradients stay. -/
theorem Inv.stay {C : Ctx} {p : Node → Bool} {f : Forest} (h : Inv C f) (hs : ∀ n ∈ f.nodes, n.key = C.s → p n = false)
    (hd : ∀ n ∈ f.nodes, n.key = C.d → p n = false) (hp : C.early → ∀ n ∈ f.nodes, p n = true → noGrad n.kind) : Stay C p f := by
  intro he x hx hg
  have hnx := h.nodes x.1 (subs_nodes hx)
  constructor
  · intro k hk hkp
    obtain ⟨y, hy, e⟩ := Node.mem_links.1 hk
    have h1 := ((hnx.attrs y hy).grad.link hg k e).2.1
    obtain ⟨z, hz, hpz, e⟩ := Merge.mem_prunedKeys hkp
    have hzn := subs_nodes hz
    rcases e with rfl | e
    · rw [← (h.nodes z.1 hzn).kind.grad] at h1
      rw [(hp he z.1 hzn hpz).1] at h1
      cases h1
    · have := ((h.trees z hz).below (fun e => by rw [hs z.1 hzn e] at hpz; cases hpz) (fun e => by rw [hd z.1 hzn e] at hpz; cases hpz) k e).1
      rw [gradKind_def h1] at this
      cases this
  · intro h0
    obtain ⟨m, hm⟩ := List.exists_mem_of_ne_nil _ h0
    refine ⟨m, hm, ?_⟩
    cases hpm : p m with
    | false => rfl
    | true => exact absurd ((h.trees x hx).stops hg m hm).1 (hp he m (GroupDefs.kid_nodes hx hm) hpm).2

/-- Something that no gradient refers to is removed. -/
theorem Inv.rmUnused {C : Ctx} {f : Forest} (h : Inv C f) {k : Nat} (h1 : k ≠ C.s) (h2 : k ≠ C.d) (h3 : C.kind k ≠ .elem .stop)
    (h4 : C.early → ∀ n ∈ f.nodes, gradKind n.kind = true → k ∉ n.links) : Inv C (Invisible.rmKey k f) := by
  have a1 : ∀ n ∈ f.nodes, n.key = C.s → decide (n.key = k) = false := fun n _ e => by simp [e, h1.symm]
  have a2 : ∀ n ∈ f.nodes, n.key = C.d → decide (n.key = k) = false := fun n _ e => by simp [e, h2.symm]
  refine h.remove a1 a2 fun he x hx hg => ?_
  have hnx := h.nodes x.1 (subs_nodes hx)
  constructor
  · intro j hj hjp
    obtain ⟨y, hy, e⟩ := Node.mem_links.1 hj
    have hjg := ((hnx.attrs y hy).grad.link hg j e).2.1
    obtain ⟨z, hz, hpz, e⟩ := Merge.mem_prunedKeys hjp
    have hzn := subs_nodes hz
    have hzk : z.1.key = k := by simpa using hpz
    rcases e with rfl | e
    · exact h4 he x.1 (subs_nodes hx) hg (hzk ▸ hj)
    · have := ((h.trees z hz).below (hzk ▸ h1) (hzk ▸ h2) j e).1
      rw [gradKind_def hjg] at this
      cases this
  · intro h0
    obtain ⟨m, hm⟩ := List.exists_mem_of_ne_nil _ h0
    refine ⟨m, hm, ?_⟩
    rw [decide_eq_false_iff_not]
    intro e
    have hs := ((h.trees x hx).stops hg m hm).1
    rw [(h.nodes m (GroupDefs.kid_nodes hx hm)).kind.ne (by decide) rfl, e] at hs
    exact h3 hs

theorem Inv.rmKey {C : Ctx} {f : Forest} (h : Inv C f) {k : Nat} (h1 : k ≠ C.s) (h2 : k ≠ C.d) (h3 : C.early → noGrad (C.kind k)) : Inv C (Invisible.rmKey k f) := by
  have a1 : ∀ n ∈ f.nodes, n.key = C.s → decide (n.key = k) = false := fun n _ e => by simp [e, h1.symm]
  have a2 : ∀ n ∈ f.nodes, n.key = C.d → decide (n.key = k) = false := fun n _ e => by simp [e, h2.symm]
  refine h.remove a1 a2 (h.stay a1 a2 fun he n hn e => ?_)
  have e : n.key = k := by simpa using e
  rw [(h.nodes n hn).kind.noGrad, e]
  exact h3 he

theorem Inv.rmKeys {C : Ctx} {f : Forest} (h : Inv C f) {ks : List Nat} (hk : ∀ k ∈ ks, k ≠ C.s ∧ k ≠ C.d ∧ (C.early → noGrad (C.kind k))) :
    Inv C (Invisible.rmKeys ks f) := by
  induction ks generalizing f with
  | nil => exact h
  | cons k t ih =>
    exact ih (h.rmKey (hk k (by simp)).1 (hk k (by simp)).2.1 (hk k (by simp)).2.2) fun j hj => hk j (by simp [hj])

/-- `removeTitle`, `removeDesc`, `removeMetadata` -/
theorem holds_removeElement {C : Ctx} {e : EId} (h1 : e ≠ .svg) (h2 : e ≠ .defs) (h3 : noGrad (.elem e)) : Holds (Inv C) (sure (Simple.removeElement e)) := by
  refine Holds.sure fun f hf => ?_
  unfold Simple.removeElement
  have a1 : ∀ n ∈ f.nodes, n.key = C.s → n.isTag e = false := fun n hn e => by
    have := hf.kindS hn e; simp [Node.isTag, this, h1.symm]
  have a2 : ∀ n ∈ f.nodes, n.key = C.d → n.isTag e = false := fun n hn e => by
    have := hf.kindD hn e; simp [Node.isTag, this, h2.symm]
  refine hf.remove a1 a2 (hf.stay a1 a2 fun _ n _ e => ?_)
  rw [Node.isTag_iff] at e
  rw [e]
  exact h3

/-- What is no longer asked for. -/
theorem Inv.late {C : Ctx} {f : Forest} (h : Inv C f) (P Q : Prop) (hP : P → C.early) (hQ : Q → C.uniq) : Inv { C with early := P, uniq := Q } f where
  unique := h.unique
  links := h.links
  nodes n hn := ⟨(h.nodes n hn).kind, (h.nodes n hn).full, (h.nodes n hn).named, (h.nodes n hn).single, fun x hx => by
    have := (h.nodes n hn).attrs x hx
    exact ⟨⟨this.grad.ts, this.grad.color, this.grad.opacity, this.grad.href, this.grad.link, this.grad.shown, this.grad.stop⟩, this.transform, this.opacity, this.points,
      this.d, this.shown, this.link⟩⟩
  trees x hx := ⟨(h.trees x hx).group, (h.trees x hx).leaf, (h.trees x hx).stops, fun he => (h.trees x hx).early (hP he), (h.trees x hx).below⟩
  root := h.root
  count := h.count
  ids hu := h.ids (hQ hu)

theorem Inv.asEarly {C : Ctx} {f : Forest} (h : Inv { C with early := False } f)
    (H : C.early → ∀ x ∈ subs f, gradKind x.1.kind = true → (x.1.has .xlinkHref = true ↔ x.2.top = [])) : Inv C f where
  unique := h.unique
  links := h.links
  nodes n hn := ⟨(h.nodes n hn).kind, (h.nodes n hn).full, (h.nodes n hn).named, (h.nodes n hn).single, fun x hx => by
    have := (h.nodes n hn).attrs x hx
    exact ⟨⟨this.grad.ts, this.grad.color, this.grad.opacity, this.grad.href, this.grad.link, this.grad.shown, this.grad.stop⟩, this.transform, this.opacity, this.points,
      this.d, this.shown, this.link⟩⟩
  trees x hx := ⟨(h.trees x hx).group, (h.trees x hx).leaf, (h.trees x hx).stops, fun he => H he x hx, (h.trees x hx).below⟩
  root := h.root
  count := h.count
  ids hu := h.ids hu

theorem Inv.map {C : Ctx} {f : Forest} (h : Inv C f) {u : Node → Node} (hu : ∀ n ∈ f.nodes, Tame C n (u n)) : Inv C (f.map u) := h.along (Along.map hu)

end Verif.Crash
