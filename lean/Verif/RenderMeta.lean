import Verif.RenderDrop
import Verif.FinalProps
import Verif.UnusedDefsLook
/-
The picture and the passes that should not touch it at all: titles, version information, namespaces, ids, `defs` elements,
identity transforms.
-/
namespace Verif.Render
open Verif.Dom Verif.Spec
open Verif.Simple

/-! ### Nodes that differ in what does not matter -/

/-- The nodes show the same. -/
structure Twin (n m : Node) : Prop where
  key : m.key = n.key
  kind : m.kind = n.kind
  own : ∀ b, isOwn b = true → getAttr m.attrs b = getAttr n.attrs b
  style : ∀ a, inherits a = true → m.get a = n.get a
  fixed : ∀ a, isFixed a = true → a ≠ .transform → m.get a = n.get a
  transform : nodeTransform m = nodeTransform n
  foreign : isElem n.kind = false → m.attrs = n.attrs
  links : ∀ k ∈ m.links, k ∈ n.links

theorem Twin.refl (n : Node) : Twin n n := ⟨rfl, rfl, fun _ _ => rfl, fun _ _ => rfl, fun _ _ _ => rfl, rfl, fun _ => rfl, fun _ h => h⟩

theorem Twin.enter {n m : Node} (h : Twin n m) (c : Ctx) : c.enter m = c.enter n := by
  unfold Ctx.enter
  rw [h.kind, h.transform]
  congr 1
  funext a
  by_cases ha : inherits a = true
  · simp only [ha, if_true, h.style a ha]
  · simp [ha]

theorem Twin.allowed {P : Type} {n m : Node} (h : Twin n m) (π : Painter P) : Render.allowed π m = Render.allowed π n := by
  unfold Render.allowed holds
  rw [h.fixed .requiredFeatures rfl (by decide), h.fixed .requiredExtensions rfl (by decide), h.fixed .systemLanguage rfl (by decide)]

theorem Twin.body {P : Type} {n m : Node} (h : Twin n m) (π : Painter P) (env : Env P) (via : Attrs P) (c : Ctx) (kids : List (Pic P)) :
    Render.body π env via c m kids = Render.body π env via c n kids := by
  cases hk : n.kind with
  | elem e =>
    rw [body_elem (h.kind.trans hk), body_elem hk]
    have h1 : hiddenBy m = hiddenBy n := by unfold hiddenBy; rw [h.fixed .display rfl (by decide)]
    have h2 : opacityOf m = opacityOf n := by unfold opacityOf; rw [h.fixed .opacity rfl (by decide)]
    rw [h1, h2, h.allowed, inner_eq h.own (fun a ha => ?_) (h.enter c)]
    simp only [List.mem_cons, List.not_mem_nil, or_false] at ha
    rcases ha with rfl | rfl | rfl <;> exact h.fixed _ rfl (by decide)
  | text s => unfold Render.body; rw [h.kind, hk]
  | comment s => unfold Render.body; rw [h.kind, hk]
  | other t =>
    unfold Render.body
    rw [h.kind, hk]
    simp only
    rw [h.foreign (by rw [hk]; rfl), h.enter c]

theorem Twin.node {u : Nat → Prop} {n m : Node} {k k' : Forest} (h : Twin n m) (hk : Like u k k') : NodeLike u n k m k' :=
  ⟨h.key, h.kind, h.allowed, fun π e c => by rw [h.body, h.enter, hk.pics], fun π e v c _ => by rw [h.body, h.enter, hk.pics], hk.inst,
   fun π e c x hx => by rw [h.enter]; exact hk.here π e _ x hx⟩

/-- The same tree, with nodes that show the same. -/
inductive Twins : Forest → Forest → Prop
  | nil : Twins .nil .nil
  | cons {n m : Node} {k k' r r' : Forest} : Twin n m → Twins k k' → Twins r r' → Twins (.cons n k r) (.cons m k' r')

theorem Twins.refl (f : Forest) : Twins f f := by
  induction f with
  | nil => exact .nil
  | cons n k r ihk ihr => exact .cons (Twin.refl n) ihk ihr

theorem Twins.like {u : Nat → Prop} {f g : Forest} (h : Twins f g) : Like u f g := by
  induction h with
  | nil => exact Like.refl _ _
  | cons hn _ _ ihk ihr => exact Like.cons (hn.node ihk) ihr

theorem Twins.look {f g : Forest} (h : Twins f g) : SameLook f g := sameLook_of_like (u := fun _ => True) h.like fun _ _ _ _ => trivial

theorem Twins.map {f : Forest} {h : Node → Node} (hh : ∀ n ∈ f.nodes, Twin n (h n)) : Twins f (f.map h) := by
  induction f with
  | nil => exact .nil
  | cons n k r ihk ihr =>
    rw [Forest.map_cons]
    exact .cons (hh n (by simp)) (ihk fun m hm => hh m (by simp [hm])) (ihr fun m hm => hh m (by simp [hm]))

theorem Twins.setSvg {f : Forest} {n : Node} {k : Forest} (hs : svgElement f = some (n, k)) {n' : Node} (h : Twin n n') : Twins f (setSvgElement n' k f) := by
  induction f with
  | nil => cases hs
  | cons m c r _ ih =>
    unfold svgElement at hs
    unfold setSvgElement
    split at hs
    next ht => cases hs; rw [if_pos ht]; exact .cons h (Twins.refl _) (Twins.refl _)
    next ht => rw [if_neg ht]; exact .cons (Twin.refl _) (Twins.refl _) (ih hs)

theorem Twins.nodes {f g : Forest} (h : Twins f g) {m : Node} (hm : m ∈ g.nodes) : ∃ n ∈ f.nodes, Twin n m := by
  induction h with
  | nil => cases hm
  | cons hn _ _ ihk ihr =>
    simp only [Forest.nodes_cons, List.mem_cons, List.mem_append] at hm ⊢
    rcases hm with rfl | hm | hm
    · exact ⟨_, .inl rfl, hn⟩
    · obtain ⟨n, h1, h2⟩ := ihk hm; exact ⟨n, .inr (.inl h1), h2⟩
    · obtain ⟨n, h1, h2⟩ := ihr hm; exact ⟨n, .inr (.inr h1), h2⟩

theorem Twins.used {f g : Forest} (h : Twins f g) {k : Nat} (hk : f.isUsed k = false) : g.isUsed k = false := by
  cases hg : g.isUsed k with
  | false => rfl
  | true =>
    obtain ⟨m, hm, hl⟩ := Forest.isUsed_iff.1 hg
    obtain ⟨n, hn, ht⟩ := h.nodes hm
    have := Forest.isUsed_iff.2 ⟨n, hn, ht.links k hl⟩
    rw [hk] at this
    cases this

theorem Twins.spots {f g : Forest} (h : Twins f g) {p : Kind} {x : Kind × Node × Forest} (hx : x ∈ spots p g) :
    ∃ y ∈ Render.spots p f, y.1 = x.1 ∧ Twin y.2.1 x.2.1 := by
  induction h generalizing p with
  | nil => cases hx
  | @cons n m k k' r r' hn _ _ ihk ihr =>
    simp only [Render.spots, List.mem_cons, List.mem_append] at hx ⊢
    rcases hx with rfl | hx | hx
    · exact ⟨_, .inl rfl, rfl, hn⟩
    · rw [hn.kind] at hx
      obtain ⟨n, h1, h2⟩ := ihk hx; exact ⟨n, .inr (.inl h1), h2⟩
    · obtain ⟨n, h1, h2⟩ := ihr hx; exact ⟨n, .inr (.inr h1), h2⟩

/-! ### The passes that only change nodes -/

theorem twin_id (n : Node) (i : String) : Twin n { n with id := i } :=
  ⟨rfl, rfl, fun _ _ => rfl, fun _ _ => rfl, fun _ _ _ => rfl, rfl, fun _ => rfl, fun _ h => h⟩

theorem twins_unreferenced (f : Forest) : Twins f (removeUnreferencedIds f) := by
  refine Twins.map fun n _ => ?_
  split
  · exact twin_id n _
  · exact Twin.refl n

theorem twins_trimGo {f : Forest} {d : List Nat} {x : Forest × List Nat} (h : trimGo f d = some x) : Twins f x.1 := by
  induction f generalizing d x with
  | nil => cases h; exact .nil
  | cons n k r ihk ihr =>
    rw [trimGo] at h
    obtain ⟨a, h1, h⟩ := Option.bind_eq_some_iff.1 h
    obtain ⟨b, h2, h⟩ := Option.bind_eq_some_iff.1 h
    obtain ⟨c, h3, rfl⟩ := Option.map_eq_some_iff.1 h
    refine .cons ?_ (ihk h2) (ihr h3)
    unfold trimNode at h1
    split at h1
    · obtain ⟨e, _, rfl⟩ := Option.map_eq_some_iff.1 h1
      exact twin_id n _
    · cases h1; exact Twin.refl n

/-! ### Taking apart `defs` elements -/

open Verif.UnusedDefs (Bare style_bare)

/-- Only properties that are inherited have a value. -/
def Proper (c : Ctx) : Prop := ∀ a, inherits a = false → c.style a = none

theorem proper_enter (c : Ctx) (n : Node) : Proper (c.enter n) := fun a ha => by simp [Ctx.enter, ha]

theorem proper_start : Proper Ctx.start := fun _ _ => rfl

/-- A child that can be seen where it stands. -/
def shows (k : Kind) : Bool := !(isElem k && neverRendered k)

variable {P : Type} {π : Painter P}

theorem pics_never {env : Env P} {c : Ctx} {f : Forest} : ∀ x ∈ pics π env c f, neverRendered x.kind = true → x.pic = π.empty := by
  induction f generalizing c with
  | nil => intro x hx; cases hx
  | cons n k r _ ih =>
    intro x hx hn
    rcases List.mem_cons.1 hx with rfl | hx
    · simp only [draw] at hn ⊢
      rw [if_pos hn]
    · exact ih x hx hn

theorem stack_shows (q : Kind → Bool) {l : List (Pic P)} (h : ∀ x ∈ l, neverRendered x.kind = true → x.pic = π.empty) :
    stack π q (l.filter fun x => shows x.kind) = stack π q l := by
  induction l with
  | nil => rfl
  | cons x l ih =>
    have ih := ih fun y hy => h y (by simp [hy])
    rw [List.filter_cons]
    cases hs : shows x.kind with
    | true => rw [if_pos rfl, stack_cons, stack_cons, ih]
    | false =>
      rw [if_neg (by simp), stack_cons, ih]
      simp only [shows, Bool.not_eq_false', Bool.and_eq_true] at hs
      rw [h x (by simp) hs.2, π.empty_over]
      simp

theorem choose_shows (l : List (Pic P)) : choose π (l.filter fun x => shows x.kind) = choose π l := by
  induction l with
  | nil => rfl
  | cons x l ih =>
    rw [List.filter_cons]
    cases hs : shows x.kind with
    | true => rw [if_pos rfl, choose_cons, choose_cons, ih]
    | false =>
      rw [if_neg (by simp), choose_cons, ih]
      simp only [shows, Bool.not_eq_false', Bool.and_eq_true] at hs
      simp [hs.2]

theorem clip_shows {k : Kind} (h : clipKind k = true) : shows k = true := by
  cases k with
  | elem a => cases a <;> first | rfl | exact absurd h (by decide)
  | _ => rfl

theorem clipKids_shows (l : List (Pic P)) : clipKids (l.filter fun x => shows x.kind) = clipKids l := by
  unfold clipKids
  rw [List.filter_filter]
  congr 1
  refine List.filter_congr fun x _ => ?_
  cases hc : clipKind x.kind with
  | false => rfl
  | true => simp [clip_shows hc]

theorem equiv_of_shows {p : Kind} {l l' : List (Pic P)} (hp : groupPlace p = true) (h1 : ∀ x ∈ l, neverRendered x.kind = true → x.pic = π.empty)
    (h2 : ∀ x ∈ l', neverRendered x.kind = true → x.pic = π.empty)
    (h : (l.filter fun x => shows x.kind) = l'.filter fun x => shows x.kind) : Equiv π p l l' := by
  refine ⟨fun _ _ => ?_, fun _ => ?_, fun _ => ?_, fun he => absurd (hp.symm.trans he) (by simp)⟩
  · rw [← stack_shows isElem h1, ← stack_shows isElem h2, ← stack_shows (fun k => isElem k || isChars k) h1,
      ← stack_shows (fun k => isElem k || isChars k) h2, h]
    exact ⟨rfl, rfl⟩
  · rw [← choose_shows l, ← choose_shows l', h]
  · rw [← clipKids_shows l, ← clipKids_shows l', h]

/-- The second forest comes from the first, the children of an element of kind `p`, by taking apart `defs` elements. -/
structure Shed (u : Nat → Prop) (p : Kind) (f g : Forest) : Prop where
  shown : ∀ {P : Type} (π : Painter P) env c, ((Render.pics π env c f).filter fun x => shows x.kind) = (Render.pics π env c g).filter fun x => shows x.kind
  strict : groupPlace p = false → ∀ {P : Type} (π : Painter P) env c, Render.pics π env c f = Render.pics π env c g
  inst : ∀ {P : Type} (π : Painter P) env via c k, u k → instOf π env via c k f = instOf π env via c k g
  here : ∀ {P : Type} (π : Painter P) env c k, u k → Proper c → hereOf π env k c f = hereOf π env k c g

theorem Shed.refl (u : Nat → Prop) (p : Kind) (f : Forest) : Shed u p f f :=
  ⟨fun _ _ _ => rfl, fun _ _ _ _ _ => rfl, fun _ _ _ _ _ _ => rfl, fun _ _ _ _ _ _ => rfl⟩

theorem Shed.equiv {u : Nat → Prop} {p : Kind} {f g : Forest} (h : Shed u p f g) (π : Painter P) (env : Env P) (c : Ctx) :
    Equiv π p (Render.pics π env c f) (Render.pics π env c g) := by
  cases hp : groupPlace p with
  | true => exact equiv_of_shows hp pics_never pics_never (h.shown π env c)
  | false => rw [h.strict hp]; exact Equiv.refl _ _

theorem Shed.cons {u : Nat → Prop} {p : Kind} {n : Node} {k k' r r' : Forest} (hk : Shed u n.kind k k') (hr : Shed u p r r') :
    Shed u p (.cons n k r) (.cons n k' r') := by
  have hb : ∀ {P : Type} (π : Painter P) env via (c : Ctx), Render.body π env via c n (Render.pics π env (c.enter n) k) =
      Render.body π env via c n (Render.pics π env (c.enter n) k') := fun π env via c => body_equiv (hk.equiv π env _) env via c
  refine ⟨fun π env c => ?_, fun hp P π env c => ?_, fun π env via c x hx => ?_, fun π env c x hx hc => ?_⟩
  · simp only [Render.pics, draw, hb, List.filter_cons, hr.shown π env c]
  · simp only [Render.pics, draw, hb, hr.strict hp π]
  · simp only [instOf, hb, hk.inst π env via c x hx, hr.inst π env via c x hx]
  · simp only [hereOf, hb, hk.here π env _ x hx (proper_enter _ _), hr.here π env c x hx hc]

theorem filter_allNever {f : Forest} (hf : Verif.Simple.allNever f) (he : ∀ n ∈ f.top, isElem n.kind = true) (env : Env P) (c : Ctx) :
    ((pics π env c f).filter fun x => shows x.kind) = [] := by
  induction f generalizing c with
  | nil => rfl
  | cons n k r _ ih =>
    have h1 := hf n (by simp [Forest.top])
    have h2 := he n (by simp [Forest.top])
    simp only [pics, List.filter_cons, shows, h1, h2, Bool.and_self, Bool.not_true, Bool.false_eq_true, if_false]
    exact ih (fun m hm => hf m (by simp [Forest.top, hm])) (fun m hm => he m (by simp [Forest.top, hm])) c

theorem allNever_elem {n : Node} (h : neverRendered n.kind = true) : isElem n.kind = true := by
  obtain ⟨k, kind, i, as⟩ := n
  cases kind with
  | elem a => rfl
  | _ => cases h

/-- A `defs` element is replaced by its children. -/
theorem Shed.drop {u : Nat → Prop} {p q : Kind} {n : Node} {k k' r b : Forest} (hn : n.kind = .elem .defs) (hp : groupPlace p = true) (hu : ¬ u n.key) (hb : Bare n)
    (ha : Verif.Simple.allNever k') (hk : Shed u q k k') (hr : Shed u p r b) : Shed u p (.cons n k r) (k' ++ b) := by
  refine ⟨fun π env c => ?_, fun he => absurd (hp.symm.trans he) (by simp), fun π env via c x hx => ?_, fun π env c x hx hc => ?_⟩
  · rw [pics_append, List.filter_append, filter_allNever ha (fun m hm => allNever_elem (ha m hm)), List.nil_append, ← hr.shown π env c]
    simp only [Render.pics, List.filter_cons, hn]
    rfl
  · have : n.key ≠ x := fun e => hu (e ▸ hx)
    rw [instOf_append, ← hk.inst π env via c x hx, ← hr.inst π env via c x hx]
    simp only [instOf, this, if_false]
  · have : n.key ≠ x := fun e => hu (e ▸ hx)
    rw [hereOf_append, ← hk.here π env c x hx hc, ← hr.here π env c x hx hc]
    simp only [hereOf, this, if_false]
    rw [hereOf_style env x (style_bare hb hc)]

theorem Shed.scene {u : Nat → Prop} {f g : Forest} (h : Shed u top f g) (hg : LinksIn u g) (π : Painter P) (d : Nat) :
    Agree u (scene π f d) (scene π g d) := by
  induction d with
  | zero => exact ⟨fun _ h => h, fun _ _ => rfl, fun _ _ _ _ _ => rfl⟩
  | succ d ih =>
    refine ⟨fun _ h => h, fun k hk => ?_, fun k c via hk hc => ?_⟩
    · simp only [Render.scene]
      rw [h.here π _ _ k hk proper_start, hereOf_env ih hg (by intro a v k hv; cases hv)]
    · simp only [Render.scene]
      rw [h.inst π _ _ _ k hk, instOf_env ih hg hc]

theorem Shed.look {u : Nat → Prop} {f g : Forest} (h : Shed u top f g) (hg : LinksIn u g) : SameLook f g := by
  intro P π d
  unfold picture
  rw [← stack_shows isElem pics_never, h.shown, stack_shows isElem pics_never,
    pics_env (h.scene hg π d) hg (by intro a v k hv; cases hv)]

/-- The `defs` elements of a document are not referred to, have no attributes that are inherited, and stand where groups may stand. -/
def DefsOk (u : Nat → Prop) (p : Kind) (f : Forest) : Prop :=
  ∀ x ∈ spots p f, x.2.1.kind = .elem .defs → ¬ u x.2.1.key ∧ Bare x.2.1 ∧ groupPlace x.1 = true

theorem shed_ungroup {u : Nat → Prop} {f : Forest} {p : Kind} (h : DefsOk u p f) (s : Bool) : Shed u p f (ungroupDefsGo f s).1 := by
  induction f generalizing p s with
  | nil => cases s <;> exact Shed.refl _ _ _
  | cons n k r ihk ihr =>
    cases s with
    | true => rw [ungroupDefsGo_stopped]; exact Shed.refl _ _ _
    | false =>
      have hk : DefsOk u n.kind k := fun x hx => h x (by simp [spots, hx])
      have hr : DefsOk u p r := fun x hx => h x (by simp [spots, hx])
      rw [ungroupDefsGo_cons]
      split
      next hc =>
        simp only [Bool.and_eq_true, List.all_eq_true] at hc
        have hn := (Node.isTag_iff _ _).1 hc.1
        obtain ⟨h1, h2, h3⟩ := h (p, n, k) (by simp [spots]) hn
        exact Shed.drop hn h3 h1 h2 (ungroupDefsGo_top _ _ fun m hm => referenced_never m (hc.2 m hm)) (ihk hk _) (ihr hr _)
      next hc => exact Shed.cons (ihk hk _) (ihr hr _)

theorem shed_empty {u : Nat → Prop} {f : Forest} {p : Kind} (h : DefsOk u p f) : Shed u p f (dropEmptyDefs f).1 := by
  induction f generalizing p with
  | nil => exact Shed.refl _ _ _
  | cons n k r _ ihr =>
    have hr : DefsOk u p r := fun x hx => h x (by simp [spots, hx])
    unfold dropEmptyDefs
    split
    next hc =>
      simp only [Bool.and_eq_true] at hc
      have hn := (Node.isTag_iff _ _).1 hc.1
      obtain ⟨h1, h2, h3⟩ := h (p, n, k) (by simp [spots]) hn
      cases k with
      | cons => simp [Forest.isEmpty] at hc
      | nil => exact Shed.drop (q := p) (k' := .nil) hn h3 h1 h2 (fun m hm => by cases hm) (Shed.refl _ _ _) (Shed.refl _ _ _)
    next => exact Shed.cons (Shed.refl _ _ _) (ihr hr)

theorem shed_setSvg {u : Nat → Prop} {f : Forest} {p : Kind} {n : Node} {k k' : Forest} (hs : svgElement f = some (n, k)) (h : Shed u n.kind k k') :
    Shed u p f (setSvgElement n k' f) := by
  induction f with
  | nil => cases hs
  | cons m c r _ ih =>
    unfold svgElement at hs
    unfold setSvgElement
    split at hs
    next ht => cases hs; rw [if_pos ht]; exact Shed.cons h (Shed.refl _ _ _)
    next ht => rw [if_neg ht]; exact Shed.cons (Shed.refl _ _ _) (ih hs)

theorem spots_svg {f : Forest} {p : Kind} {n : Node} {k : Forest} (hs : svgElement f = some (n, k)) : ∀ x ∈ spots n.kind k, x ∈ spots p f := by
  induction f with
  | nil => cases hs
  | cons m c r _ ih =>
    unfold svgElement at hs
    intro x hx
    simp only [spots, List.mem_cons, List.mem_append]
    split at hs
    next ht => cases hs; exact .inr (.inl hx)
    next ht => exact .inr (.inr (ih hs x hx))

theorem unlinkAll_id {ks : List Nat} {f : Forest} (h : ∀ n ∈ f.nodes, ∀ k ∈ n.links, k ∉ ks) : unlinkAll ks f = f := by
  unfold unlinkAll
  refine Forest.map_id' fun n hn => ?_
  have : n.attrs.filter (fun x => match x.value.target with | some k => !decide (k ∈ ks) | none => true) = n.attrs := by
    refine List.filter_eq_self.2 fun a ha => ?_
    cases ht : a.value.target with
    | none => rfl
    | some k => simpa using h n hn k (Node.mem_links.2 ⟨a, ha, ht⟩)
  exact congrArg (fun l => { n with attrs := l }) this

end Verif.Render
