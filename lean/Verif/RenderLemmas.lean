import Verif.Render
/-
Lemmas about the specification in `Render.lean`: when two documents look the same.
-/
namespace Verif.Render
open Verif.Dom Verif.Spec
open Verif.Paths (Transform)

variable {P : Type} {π : Painter P}

/-! ### Pictures depend only on the references that occur -/

/-- All references of a forest are in `u`. -/
def LinksIn (u : Nat → Prop) (f : Forest) : Prop := ∀ n ∈ f.nodes, ∀ k ∈ n.links, u k

def StyleIn (u : Nat → Prop) (c : Ctx) : Prop := ∀ a v k, c.style a = some v → v.target = some k → u k

/-- The pictures of the elements in `u` where they stand, and of those in `w` as shown by `use` elements, are the same. -/
structure AgreeOn (u w : Nat → Prop) (env env' : Env P) : Prop where
  sub : ∀ k, w k → u k
  here : ∀ k, u k → env.here k = env'.here k
  inst : ∀ k c via, w k → StyleIn u c → env.inst k c via = env'.inst k c via

abbrev Agree (u : Nat → Prop) (env env' : Env P) : Prop := AgreeOn u u env env'

theorem mem_links {n : Node} {x : AName} {y : Attr} {k : Nat} (h : getAttr n.attrs x = some y) (ht : y.value.target = some k) :
    k ∈ n.links := List.mem_filterMap.2 ⟨y, getAttr_mem h, ht⟩

theorem see_env {u w : Nat → Prop} {env env' : Env P} (h : AgreeOn u w env env') {v : Value} (hv : ∀ k, v.target = some k → u k) :
    see env v = see env' v := by
  unfold see
  split
  next k hk => rw [h.here k (hv k hk)]
  next => rfl

theorem attr_env {u w : Nat → Prop} {env env' : Env P} (h : AgreeOn u w env env') {n : Node} (hn : ∀ k ∈ n.links, w k) (x : AName) :
    (getAttr n.attrs x).map (fun y => see env y.value) = (getAttr n.attrs x).map (fun y => see env' y.value) := by
  cases hx : getAttr n.attrs x with
  | none => rfl
  | some y => simp only [Option.map_some]; rw [see_env h (fun k hk => h.sub _ (hn k (mem_links hx hk)))]

theorem own_env {u w : Nat → Prop} {env env' : Env P} (h : AgreeOn u w env env') {n : Node} (hn : ∀ k ∈ n.links, w k) :
    own env n = own env' n := by
  funext x
  unfold own
  split
  · exact attr_env h hn x
  · rfl

theorem seenAttr_env {u w : Nat → Prop} {env env' : Env P} (h : AgreeOn u w env env') {n : Node} (hn : ∀ k ∈ n.links, w k) (a : AId) :
    seenAttr env n a = seenAttr env' n a := by
  unfold seenAttr Node.get
  cases hx : getAttr n.attrs (.id a) with
  | none => rfl
  | some y =>
    simp only [Option.map_some]
    unfold seeFunc
    split
    next k hk => rw [h.here k (h.sub _ <| hn k (mem_links hx (by rw [hk]; rfl)))]
    next => rfl

theorem seenStyle_env {u w : Nat → Prop} {env env' : Env P} (h : AgreeOn u w env env') {c : Ctx} (hc : StyleIn u c) :
    seenStyle env c = seenStyle env' c := by
  funext a
  unfold seenStyle
  cases hx : c.style a with
  | none => rfl
  | some v => simp only [Option.map_some]; rw [see_env h (fun k hk => hc a v k hx hk)]

theorem styleIn_enter {u : Nat → Prop} {c : Ctx} (hc : StyleIn u c) {n : Node} (hn : ∀ k ∈ n.links, u k) : StyleIn u (c.enter n) := by
  intro a v k hv hk
  simp only [Ctx.enter] at hv
  split at hv
  · split at hv
    · exact hc a v k hv hk
    next w hw =>
      split at hv
      · exact hc a v k hv hk
      · cases hv
        unfold Node.get at hw
        cases hx : getAttr n.attrs (.id a) with
        | none => rw [hx] at hw; cases hw
        | some y =>
          rw [hx] at hw
          simp only [Option.map_some, Option.some.injEq] at hw
          subst hw
          exact hn k (mem_links hx hk)
  · cases hv

theorem useOf_env {u w : Nat → Prop} {env env' : Env P} (h : AgreeOn u w env env') {c : Ctx} (hc : StyleIn u c) {n : Node}
    (hn : ∀ k ∈ n.links, w k) : useOf π env c n = useOf π env' c n := by
  unfold useOf
  split
  next k hk =>
    have hv : viaOf env n = viaOf env' n := by unfold viaOf; rw [own_env h hn]
    rw [hv]
    refine h.inst _ _ _ ?_ hc
    unfold Node.get at hk
    cases hx : getAttr n.attrs (.id .xlinkHref) with
    | none => rw [hx] at hk; cases hk
    | some y =>
      rw [hx] at hk
      simp only [Option.map_some, Option.some.injEq] at hk
      exact hn k (mem_links hx (by rw [hk]; rfl))
  next => rfl

theorem core_env {u w : Nat → Prop} {env env' : Env P} (h : AgreeOn u w env env') {c : Ctx} (hc : StyleIn u c) {n : Node}
    (hn : ∀ k ∈ n.links, w k) (via : Attrs P) (e : EId) (kids : List (Pic P)) :
    core π env via c n e kids = core π env' via c n e kids := by
  unfold core
  rw [useOf_env h hc hn, own_env h hn, seenStyle_env h hc]

theorem body_env {u w : Nat → Prop} {env env' : Env P} (h : AgreeOn u w env env') {c : Ctx} (hc : StyleIn u c) {n : Node}
    (hn : ∀ k ∈ n.links, w k) (via : Attrs P) (kids : List (Pic P)) :
    body π env via c n kids = body π env' via c n kids := by
  unfold body
  split
  · rw [seenStyle_env h hc]
  · rfl
  · rw [seenStyle_env h (styleIn_enter hc (fun k hk => h.sub k (hn k hk)))]
    congr 1
    funext x
    exact attr_env h hn x
  · simp only [core_env h (styleIn_enter hc (fun k hk => h.sub k (hn k hk))) hn, seenAttr_env h hn]

theorem pics_env {u w : Nat → Prop} {env env' : Env P} (h : AgreeOn u w env env') {f : Forest} (hf : LinksIn w f) {c : Ctx}
    (hc : StyleIn u c) : pics π env c f = pics π env' c f := by
  induction f generalizing c with
  | nil => rfl
  | cons n k r ihk ihr =>
    have hn : ∀ k ∈ n.links, w k := hf n (by simp [Forest.nodes])
    simp only [pics]
    rw [ihk (fun m hm => hf m (by simp [Forest.nodes, hm])) (styleIn_enter hc (fun k hk => h.sub k (hn k hk))),
      ihr (fun m hm => hf m (by simp [Forest.nodes, hm])) hc]
    unfold draw
    rw [body_env h hc hn]

theorem instOf_env {u w : Nat → Prop} {env env' : Env P} (h : AgreeOn u w env env') {f : Forest} (hf : LinksIn w f) {c : Ctx}
    (hc : StyleIn u c) (via : Attrs P) (k : Nat) : instOf π env via c k f = instOf π env' via c k f := by
  induction f with
  | nil => rfl
  | cons n ks r ihk ihr =>
    have hn : ∀ k ∈ n.links, w k := hf n (by simp [Forest.nodes])
    have hk : LinksIn w ks := fun m hm => hf m (by simp [Forest.nodes, hm])
    simp only [instOf]
    rw [ihk hk, ihr (fun m hm => hf m (by simp [Forest.nodes, hm])), pics_env h hk (styleIn_enter hc (fun k hk => h.sub k (hn k hk))), body_env h hc hn]

theorem hereOf_env {u w : Nat → Prop} {env env' : Env P} (h : AgreeOn u w env env') {f : Forest} (hf : LinksIn w f) {c : Ctx}
    (hc : StyleIn u c) (k : Nat) : hereOf π env k c f = hereOf π env' k c f := by
  induction f generalizing c with
  | nil => rfl
  | cons n ks r ihk ihr =>
    have hn : ∀ k ∈ n.links, w k := hf n (by simp [Forest.nodes])
    have hk : LinksIn w ks := fun m hm => hf m (by simp [Forest.nodes, hm])
    have hc' : StyleIn u ⟨c.style, one⟩ := hc
    simp only [hereOf]
    rw [ihk hk (styleIn_enter hc (fun k hk => h.sub k (hn k hk))), ihr (fun m hm => hf m (by simp [Forest.nodes, hm])) hc,
      pics_env h hk (styleIn_enter hc' (fun k hk => h.sub k (hn k hk))), body_env h hc' hn]

/-! ### Forests with the same pictures -/

/-- The forests have the same pictures in every context, and so do their elements with keys in `u`. -/
structure Like (u : Nat → Prop) (f g : Forest) : Prop where
  pics : ∀ {P : Type} (π : Painter P) env c, pics π env c f = pics π env c g
  inst : ∀ {P : Type} (π : Painter P) env via c k, u k → instOf π env via c k f = instOf π env via c k g
  here : ∀ {P : Type} (π : Painter P) env c k, u k → hereOf π env k c f = hereOf π env k c g

theorem Like.refl (u : Nat → Prop) (f : Forest) : Like u f f := ⟨fun _ _ _ => rfl, fun _ _ _ _ _ _ => rfl, fun _ _ _ _ _ => rfl⟩

theorem Like.trans {u : Nat → Prop} {f g h : Forest} (a : Like u f g) (b : Like u g h) : Like u f h :=
  ⟨fun π e c => (a.pics π e c).trans (b.pics π e c), fun π e v c k hk => (a.inst π e v c k hk).trans (b.inst π e v c k hk),
   fun π e c k hk => (a.here π e c k hk).trans (b.here π e c k hk)⟩

theorem Like.mono {u v : Nat → Prop} {f g : Forest} (h : Like u f g) (hv : ∀ k, v k → u k) : Like v f g :=
  ⟨h.pics, fun π e w c k hk => h.inst π e w c k (hv k hk), fun π e c k hk => h.here π e c k (hv k hk)⟩

theorem scene_agree {u : Nat → Prop} {f g : Forest} (h : Like u f g) (hg : LinksIn u g) (π : Painter P) (d : Nat) :
    Agree u (scene π f d) (scene π g d) := by
  induction d with
  | zero => exact ⟨fun _ h => h, fun _ _ => rfl, fun _ _ _ _ _ => rfl⟩
  | succ d ih =>
    refine ⟨fun _ h => h, ?_, ?_⟩
    · intro k hk
      simp only [scene]
      rw [h.here π _ _ k hk, hereOf_env ih hg (by intro a v k hv; cases hv)]
    · intro k c via hk hc
      simp only [scene]
      rw [h.inst π _ _ _ k hk, instOf_env ih hg hc]

/-- Documents with the same pictures in every context look the same. -/
theorem sameLook_of_like {u : Nat → Prop} {f g : Forest} (h : Like u f g) (hg : LinksIn u g) : SameLook f g := by
  intro P π d
  unfold picture
  rw [h.pics, pics_env (scene_agree h hg π d) hg (by intro a v k hv; cases hv)]

/-! ### One node -/

/-- A node with children, and another one, have the same pictures. -/
structure NodeLike (u : Nat → Prop) (n : Node) (k : Forest) (n' : Node) (k' : Forest) : Prop where
  key : n'.key = n.key
  kind : n'.kind = n.kind
  allowed : ∀ {P : Type} (π : Painter P), Render.allowed π n' = Render.allowed π n
  body : ∀ {P : Type} (π : Painter P) env (c : Ctx), Render.body π env noVia c n (Render.pics π env (c.enter n) k) =
    Render.body π env noVia c n' (Render.pics π env (c.enter n') k')
  inst : ∀ {P : Type} (π : Painter P) env via (c : Ctx), u n.key → Render.body π env via c n (Render.pics π env (c.enter n) k) =
    Render.body π env via c n' (Render.pics π env (c.enter n') k')
  kidInst : ∀ {P : Type} (π : Painter P) env via c x, u x → instOf π env via c x k = instOf π env via c x k'
  kidHere : ∀ {P : Type} (π : Painter P) env (c : Ctx) x, u x → hereOf π env x (c.enter n) k = hereOf π env x (c.enter n') k'

theorem Like.cons {u : Nat → Prop} {n n' : Node} {k k' r r' : Forest} (h : NodeLike u n k n' k') (hr : Like u r r') :
    Like u (.cons n k r) (.cons n' k' r') := by
  constructor
  · intro P π env c
    simp only [Render.pics, draw]
    rw [hr.pics, h.kind, h.body, h.allowed]
  · intro P π env via c x hx
    simp only [instOf]
    rw [h.key]
    by_cases hn : n.key = x
    · simp only [hn, if_true]
      rw [h.inst π env via c (by rw [hn]; exact hx)]
    · simp only [hn, if_false]
      rw [h.kidInst π env via c x hx, hr.inst π env via c x hx]
  · intro P π env c x hx
    simp only [hereOf]
    rw [h.key]
    by_cases hn : n.key = x
    · simp only [hn, if_true]
      rw [h.body]
    · simp only [hn, if_false]
      rw [h.kidHere π env c x hx, hr.here π env c x hx]

theorem NodeLike.refl (u : Nat → Prop) (n : Node) (k : Forest) : NodeLike u n k n k :=
  ⟨rfl, rfl, fun _ => rfl, fun _ _ _ => rfl, fun _ _ _ _ _ => rfl, fun _ _ _ _ _ _ => rfl, fun _ _ _ _ _ => rfl⟩

theorem NodeLike.of_kids {u : Nat → Prop} {n : Node} {k k' : Forest} (h : Like u k k') : NodeLike u n k n k' :=
  ⟨rfl, rfl, fun _ => rfl, fun π e c => by rw [h.pics], fun π e _ c _ => by rw [h.pics], h.inst, fun π e c => h.here π e _⟩

/-! ### Bodies -/

/-- An SVG element without opacity and conditions. -/
def inner (π : Painter P) (env : Env P) (via : Attrs P) (c : Ctx) (n : Node) (e : EId) (kids : List (Pic P)) : P :=
  π.effect (seenAttr env n .mask) (seenAttr env n .clipPath) (seenAttr env n .filter) (c.enter n).ctm
    (core π env via (c.enter n) n e kids)

theorem body_elem {n : Node} {e : EId} (h : n.kind = .elem e) (env : Env P) (via : Attrs P) (c : Ctx) (kids : List (Pic P)) :
    body π env via c n kids =
      if neverRendered (.elem e) && decide (e ≠ .symbol) then inner π env via c n e kids
      else if hiddenBy n || !allowed π n then π.empty else π.fade (opacityOf n) (inner π env via c n e kids) := by
  unfold body
  rw [h]
  rfl

theorem inner_eq {n n' : Node} (hown : ∀ b, isOwn b = true → getAttr n'.attrs b = getAttr n.attrs b)
    (hm : ∀ a ∈ [AId.mask, .clipPath, .filter], n'.get a = n.get a) {c c' : Ctx} (hc : c'.enter n' = c.enter n)
    (env : Env P) (via : Attrs P) (e : EId) (kids : List (Pic P)) :
    inner π env via c' n' e kids = inner π env via c n e kids := by
  have h1 : own env n' = own env n := by
    funext x
    unfold own
    split
    next hx => rw [hown x hx]
    next => rfl
  have hg : ∀ a, isOwn (.id a) = true → n'.get a = n.get a := fun a ha => by unfold Node.get; rw [hown _ ha]
  unfold inner core useOf viaOf seenAttr offset
  rw [h1, hc, hm .mask (by decide), hm .clipPath (by decide), hm .filter (by decide), hg .xlinkHref (by decide), hg .x (by decide),
    hg .y (by decide)]

/-! ### Elements as paint servers -/

theorem enter_style {c c' : Ctx} (h : c.style = c'.style) (n : Node) : (c.enter n).style = (c'.enter n).style := by
  unfold Ctx.enter
  rw [h]

theorem hereOf_style {f : Forest} (env : Env P) (k : Nat) {c c' : Ctx} (h : c.style = c'.style) :
    hereOf π env k c f = hereOf π env k c' f := by
  induction f generalizing c c' with
  | nil => rfl
  | cons n ks r ihk ihr =>
    simp only [hereOf]
    rw [ihk (enter_style h n), ihr h, h]

/-! ### Siblings one on top of the other -/

theorem stack_cons (q : Kind → Bool) (x : Pic P) (l : List (Pic P)) :
    stack π q (x :: l) = if q x.kind then π.over x.pic (stack π q l) else stack π q l := rfl

theorem stack_append (q : Kind → Bool) (l l' : List (Pic P)) : stack π q (l ++ l') = π.over (stack π q l) (stack π q l') := by
  induction l with
  | nil => exact (π.empty_over _).symm
  | cons x l ih =>
    rw [List.cons_append, stack_cons, stack_cons, ih]
    split
    · rw [π.over_assoc]
    · rfl

theorem choose_cons (x : Pic P) (l : List (Pic P)) :
    choose π (x :: l) = if isElem x.kind && !neverRendered x.kind && x.chosen then x.pic else choose π l := by
  unfold choose
  rw [List.find?_cons]
  cases isElem x.kind && !neverRendered x.kind && x.chosen <;> rfl

theorem pics_append (env : Env P) (c : Ctx) (f g : Forest) : pics π env c (f ++ g) = pics π env c f ++ pics π env c g := by
  induction f with
  | nil => rfl
  | cons n k r _ ih => exact congrArg _ ih

theorem instOf_append (env : Env P) (via : Attrs P) (c : Ctx) (x : Nat) (f g : Forest) :
    instOf π env via c x (f ++ g) = (instOf π env via c x f).or (instOf π env via c x g) := by
  induction f with
  | nil => rfl
  | cons n k r _ ih =>
    show instOf π env via c x (.cons n k (r ++ g)) = _
    simp only [instOf]
    split
    · rfl
    · rw [ih, Option.or_assoc]

theorem hereOf_append (env : Env P) (x : Nat) (c : Ctx) (f g : Forest) :
    hereOf π env x c (f ++ g) = (hereOf π env x c f).or (hereOf π env x c g) := by
  induction f with
  | nil => rfl
  | cons n k r _ ih =>
    show hereOf π env x c (.cons n k (r ++ g)) = _
    simp only [hereOf]
    split
    · rfl
    · rw [ih, Option.or_assoc]

/-- What an element of kind `p` sees of its children is the same. -/
structure Equiv (π : Painter P) (p : Kind) (l l' : List (Pic P)) : Prop where
  stacked : p ≠ .elem .switch → p ≠ .elem .clipPath → stack π isElem l = stack π isElem l' ∧
    stack π (fun k => isElem k || isChars k) l = stack π (fun k => isElem k || isChars k) l'
  chosen : p = .elem .switch → choose π l = choose π l'
  filtered : p = .elem .clipPath → clipKids l = clipKids l'
  strict : groupPlace p = false → l = l'

theorem Equiv.refl (p : Kind) (l : List (Pic P)) : Equiv π p l l := ⟨fun _ _ => ⟨rfl, rfl⟩, fun _ => rfl, fun _ => rfl, fun _ => rfl⟩

theorem Equiv.cons {p : Kind} {l l' : List (Pic P)} (h : Equiv π p l l') (x : Pic P) : Equiv π p (x :: l) (x :: l') := by
  refine ⟨fun h1 h2 => ?_, fun h1 => ?_, fun h1 => ?_, fun h1 => ?_⟩
  · obtain ⟨a, b⟩ := h.stacked h1 h2
    rw [stack_cons, stack_cons, stack_cons, stack_cons, a, b]
    exact ⟨rfl, rfl⟩
  · rw [choose_cons, choose_cons, h.chosen h1]
  · have := h.filtered h1
    unfold clipKids at this ⊢
    rw [List.filter_cons, List.filter_cons]
    split <;> simp only [List.map_cons, this]
  · rw [h.strict h1]

theorem core_equiv {e : EId} {l l' : List (Pic P)} (h : Equiv π (.elem e) l l') (env : Env P) (via : Attrs P) (c : Ctx) (n : Node) :
    core π env via c n e l = core π env via c n e l' := by
  by_cases h1 : e = .switch
  · subst h1
    have := h.chosen rfl
    simp [core, this]
  by_cases h2 : e = .clipPath
  · subst h2
    have := h.filtered rfl
    simp only [core, isFrame, this]
    simp
  cases hp : groupPlace (.elem e) with
  | false => rw [h.strict hp]
  | true =>
    obtain ⟨a, b⟩ := h.stacked (by simpa using h1) (by simpa using h2)
    unfold core
    rw [a, b]
    simp only [groupPlace, Bool.or_eq_true, decide_eq_true_eq, List.mem_cons, h1, h2, List.not_mem_nil, or_false] at hp
    rcases hp with hp | hp
    · simp [hp, h1]
    · simp [hp]

theorem body_equiv {n : Node} {l l' : List (Pic P)} (h : Equiv π n.kind l l') (env : Env P) (via : Attrs P) (c : Ctx) :
    body π env via c n l = body π env via c n l' := by
  cases hk : n.kind with
  | elem e =>
    rw [hk] at h
    rw [body_elem hk, body_elem hk]
    unfold inner
    rw [core_equiv h]
  | text s => unfold body; rw [hk]
  | comment s => unfold body; rw [hk]
  | other t =>
    rw [h.strict (by rw [hk]; rfl)]

/-- The children of an element of kind `p` have the same pictures as far as it matters, and so do the elements with keys in
`u`. -/
structure KidsLike (u : Nat → Prop) (p : Kind) (f g : Forest) : Prop where
  equiv : ∀ {P : Type} (π : Painter P) env c, Equiv π p (Render.pics π env c f) (Render.pics π env c g)
  inst : ∀ {P : Type} (π : Painter P) env via c k, u k → instOf π env via c k f = instOf π env via c k g
  here : ∀ {P : Type} (π : Painter P) env c k, u k → hereOf π env k c f = hereOf π env k c g

theorem KidsLike.of_like {u : Nat → Prop} {p : Kind} {f g : Forest} (h : Like u f g) : KidsLike u p f g :=
  ⟨fun π e c => by rw [h.pics]; exact Equiv.refl _ _, h.inst, h.here⟩

theorem KidsLike.cons {u : Nat → Prop} {p : Kind} {f g : Forest} (h : KidsLike u p f g) (n : Node) (k : Forest) :
    KidsLike u p (.cons n k f) (.cons n k g) := by
  refine ⟨fun π e c => (h.equiv π e c).cons _, fun π e v c x hx => ?_, fun π e c x hx => ?_⟩
  · simp only [instOf]; rw [h.inst π e v c x hx]
  · simp only [hereOf]; rw [h.here π e c x hx]

theorem KidsLike.node {u : Nat → Prop} {n : Node} {k k' : Forest} (h : KidsLike u n.kind k k') : NodeLike u n k n k' :=
  ⟨rfl, rfl, fun _ => rfl, fun π e c => body_equiv (h.equiv π e _) e _ c, fun π e v c _ => body_equiv (h.equiv π e _) e _ c, h.inst,
    fun π e c => h.here π e _⟩

end Verif.Render
