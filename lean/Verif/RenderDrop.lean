import Verif.RenderDepth
/-
Removing elements that show nothing: when two documents look the same (see `Render.lean`).
-/
namespace Verif.Render
open Verif.Dom Verif.Spec
open Verif.Paths (Transform)

variable {P : Type} {π : Painter P}

/-! ### Children that have no effect -/

/-- The child, of kind `k`, of an element of kind `p` has no effect whatever it shows. -/
def unseen (p k : Kind) : Bool := decide (p = .elem .clipPath) && !clipKind k

/-- A child of kind `k` of an element of kind `p` has no effect if it shows nothing. -/
def gone (p k : Kind) : Bool :=
  match p with
  | .elem e => isDesc k || (isElem k && (skips e || (groupPlace p && decide (e ≠ .switch)))) || (decide (e = .switch) && neverRendered k) ||
      unseen p k
  | _ => false

/-- The second list is the first one without children that have no effect. -/
inductive Skip (π : Painter P) (p : Kind) : List (Pic P) → List (Pic P) → Prop
  | nil : Skip π p [] []
  | keep (x : Pic P) {l l' : List (Pic P)} : Skip π p l l' → Skip π p (x :: l) (x :: l')
  | drop (x : Pic P) {l l' : List (Pic P)} : gone p x.kind = true → (unseen p x.kind = true ∨ x.pic = π.empty) → Skip π p l l' → Skip π p (x :: l) l'

theorem Skip.refl (p : Kind) (l : List (Pic P)) : Skip π p l l := by
  induction l with
  | nil => exact .nil
  | cons x l ih => exact .keep x ih

theorem isDesc_never {k : Kind} (h : isDesc k = true) : neverRendered k = true ∧ isElem k = true ∧ clipKind k = false := by
  unfold isDesc at h
  split at h
  · exact ⟨rfl, rfl, rfl⟩
  · exact ⟨rfl, rfl, rfl⟩
  · exact ⟨rfl, rfl, rfl⟩
  · cases h

theorem Skip.stack {p : Kind} {l l' : List (Pic P)} (h : Skip π p l l') (hp : p ≠ .elem .clipPath) (q : Kind → Bool) :
    stack π q l = stack π q l' := by
  induction h with
  | nil => rfl
  | keep x _ ih => rw [stack_cons, stack_cons, ih]
  | drop x hg hx _ ih =>
    have hx := hx.resolve_left (by simp [unseen, hp])
    rw [stack_cons, ih, hx]
    split
    · rw [π.empty_over]
    · rfl

theorem Skip.choose {l l' : List (Pic P)} (h : Skip π (.elem .switch) l l') : choose π l = choose π l' := by
  induction h with
  | nil => rfl
  | keep x _ ih => rw [choose_cons, choose_cons, ih]
  | drop x hg hx _ ih =>
    have hn : neverRendered x.kind = true := by
      simp only [gone, groupPlace, skips, unseen, isFrame, Bool.or_eq_true, Bool.and_eq_true, decide_eq_true_eq] at hg
      rcases hg with ((hg | hg) | hg) | hg
      · exact (isDesc_never hg).1
      · simp at hg
      · exact hg.2
      · simp at hg
    rw [choose_cons, hn, ih]
    simp

theorem clipKids_cons (x : Pic P) (l : List (Pic P)) :
    clipKids (x :: l) = if clipKind x.kind then { x with kind := .elem .use } :: clipKids l else clipKids l := by
  unfold clipKids
  rw [List.filter_cons]
  split <;> rfl

theorem Skip.clip {l l' : List (Pic P)} (h : Skip π (.elem .clipPath) l l') (as : Attrs P) (st : Style P) (t : Transform) (pre : List (Pic P)) :
    π.paint .clipPath as st t (pre ++ clipKids l) = π.paint .clipPath as st t (pre ++ clipKids l') := by
  induction h generalizing pre with
  | nil => rfl
  | keep x _ ih =>
    rw [clipKids_cons, clipKids_cons]
    split
    · have := ih (pre ++ [{ x with kind := .elem .use }])
      simpa using this
    · exact ih pre
  | drop x hg hx _ ih =>
    rw [clipKids_cons]
    split
    next hc =>
      exact (π.paint_skip .clipPath as st t pre { x with kind := .elem .use } _ rfl rfl (hx.resolve_left (by simp [unseen, hc]))).trans (ih pre)
    next => exact ih pre

theorem Skip.paint {e : EId} {l l' : List (Pic P)} (h : Skip π (.elem e) l l') (he : e ≠ .clipPath) (hs : e ≠ .switch) (hg : groupPlace (.elem e) = false)
    (as : Attrs P) (st : Style P) (t : Transform) (pre : List (Pic P)) : π.paint e as st t (pre ++ l) = π.paint e as st t (pre ++ l') := by
  induction h generalizing pre with
  | nil => rfl
  | keep x _ ih =>
    have := ih (pre ++ [x])
    simpa using this
  | drop x hx hp _ ih =>
    have hp := hp.resolve_left (by simp [unseen, he])
    simp only [gone, hg, unseen, Bool.or_eq_true, Bool.and_eq_true, decide_eq_true_eq, hs, Bool.false_eq_true, false_and, or_false,
      Kind.elem.injEq, he] at hx
    rcases hx with hx | hx
    · rw [π.paint_desc _ _ _ _ _ _ _ hx hp]
      exact ih pre
    · rw [π.paint_skip _ _ _ _ _ _ _ hx.2 hx.1 hp]
      exact ih pre

theorem core_skip {e : EId} {l l' : List (Pic P)} (h : Skip π (.elem e) l l') (env : Env P) (via : Attrs P) (c : Ctx) (n : Node) :
    core π env via c n e l = core π env via c n e l' := by
  by_cases h1 : e = .switch
  · subst h1
    simp [core, h.choose]
  by_cases h2 : e = .clipPath
  · subst h2
    have := h.clip (own env n) (seenStyle env c) c.ctm []
    simp only [List.nil_append] at this
    simp [core, isFrame, this]
  cases hp : groupPlace (.elem e) with
  | false =>
    have := h.paint h2 h1 hp (own env n) (seenStyle env c) c.ctm []
    simp only [List.nil_append] at this
    simp only [groupPlace, Bool.or_eq_false_iff, decide_eq_false_iff_not, List.mem_cons, not_or] at hp
    by_cases hu : e = .use
    · subst hu; rfl
    · have ha : e ≠ .a := by rintro rfl; exact absurd hp.1 (by decide)
      simp [core, hp.1, hp.2.1, hu, h1, h2, this, ha]
  | true =>
    have a := h.stack (by simpa using h2) isElem
    have b := h.stack (by simpa using h2) (fun k => isElem k || isChars k)
    unfold core
    rw [a, b]
    simp only [groupPlace, Bool.or_eq_true, decide_eq_true_eq, List.mem_cons, h1, h2, List.not_mem_nil, or_false] at hp
    rcases hp with hp | hp
    · simp [hp, h1]
    · simp [hp]

theorem body_skip {n : Node} {l l' : List (Pic P)} (h : Skip π n.kind l l') (env : Env P) (via : Attrs P) (c : Ctx) :
    body π env via c n l = body π env via c n l' := by
  cases hk : n.kind with
  | elem e =>
    rw [hk] at h
    rw [body_elem hk, body_elem hk]
    unfold inner
    rw [core_skip h]
  | text s => unfold body; rw [hk]
  | comment s => unfold body; rw [hk]
  | other t =>
    rw [hk] at h
    have : l = l' := by
      induction h with
      | nil => rfl
      | keep x _ ih => rw [ih]
      | drop x hg _ _ _ => cases hg
    rw [this]

/-! ### Cutting subtrees -/

/-- Every node with the kind of its parent and its children. -/
def spots (p : Kind) : Forest → List (Kind × Node × Forest)
  | .nil => []
  | .cons n k r => (p, n, k) :: (spots n.kind k ++ spots p r)

/-- The top-most nodes that satisfy `pr`, with the kinds of their parents and their children. -/
def cuts (pr : Node → Bool) (p : Kind) : Forest → List (Kind × Node × Forest)
  | .nil => []
  | .cons n k r => if pr n then (p, n, k) :: cuts pr p r else cuts pr n.kind k ++ cuts pr p r

theorem cuts_spots {pr : Node → Bool} {p : Kind} {f : Forest} {x : Kind × Node × Forest} (h : x ∈ cuts pr p f) :
    x ∈ spots p f ∧ pr x.2.1 = true := by
  induction f generalizing p with
  | nil => cases h
  | cons n k r ihk ihr =>
    simp only [cuts] at h
    simp only [spots, List.mem_cons, List.mem_append]
    split at h
    next hn =>
      rcases List.mem_cons.1 h with rfl | h
      · exact ⟨.inl rfl, hn⟩
      · exact ⟨.inr (.inr (ihr h).1), (ihr h).2⟩
    next hn =>
      rcases List.mem_append.1 h with h | h
      · exact ⟨.inr (.inl (ihk h).1), (ihk h).2⟩
      · exact ⟨.inr (.inr (ihr h).1), (ihr h).2⟩

theorem spots_subs {p : Kind} {f : Forest} {x : Kind × Node × Forest} (h : x ∈ spots p f) : x.2 ∈ subs f := by
  induction f generalizing p with
  | nil => cases h
  | cons n k r ihk ihr =>
    simp only [spots, List.mem_cons, List.mem_append] at h
    simp only [subs, List.mem_cons, List.mem_append]
    rcases h with rfl | h | h
    · exact .inl rfl
    · exact .inr (.inl (ihk h))
    · exact .inr (.inr (ihr h))

/-- The forest without the subtrees, and without the references to nodes in `s`. -/
def cut (pr : Node → Bool) (s : Nat → Bool) (f : Forest) : Forest := (f.prune pr).map (·.unlink s)

theorem remove_eq (pr : Node → Bool) (f : Forest) : f.remove pr = cut pr (fun k => decide (k ∈ f.prunedKeys pr)) f := rfl

theorem cut_cons (pr : Node → Bool) (s : Nat → Bool) (n : Node) (k r : Forest) :
    cut pr s (.cons n k r) = if pr n then cut pr s r else .cons (n.unlink s) (cut pr s k) (cut pr s r) := by
  unfold cut
  simp only [Forest.prune]
  split <;> rfl

/-- The references of a node to nodes in `s`: only those of `use` elements, to elements that show nothing. -/
def Loose (env : Env P) (π : Painter P) (u : Nat → Prop) (s : Nat → Bool) (n : Node) : Prop :=
  (n.attrs.map (·.name)).Nodup ∧ ∀ y ∈ n.attrs, ∀ k, y.value.target = some k → s k = true →
    n.kind = .elem .use ∧ y.name = .id .xlinkHref ∧ ∀ c via, StyleIn u c → env.inst k c via = π.empty

/-- What is needed to cut subtrees from a part of the tree, in one scene. -/
structure CutAt (π : Painter P) (env : Env P) (u : Nat → Prop) (pr : Node → Bool) (s : Nat → Bool) (p : Kind) (f : Forest) : Prop where
  gone : ∀ x ∈ cuts pr p f, gone x.1 x.2.1.kind = true ∧
    (unseen x.1 x.2.1.kind = true ∨ ∀ c, StyleIn u c → draw π env c x.2.1 (pics π env (c.enter x.2.1) x.2.2) = π.empty)
  loose : ∀ n ∈ (f.prune pr).nodes, Loose env π u s n
  links : LinksIn u f

theorem getAttr_filter {as : List Attr} {q : Attr → Bool} {x : AName} (h : ∀ y ∈ as, y.name = x → q y = true) :
    getAttr (as.filter q) x = getAttr as x := by
  unfold getAttr
  induction as with
  | nil => rfl
  | cons y t ih =>
    have ih := ih (fun z hz => h z (List.mem_cons_of_mem _ hz))
    rw [List.filter_cons]
    by_cases hx : y.name = x
    · rw [if_pos (h y List.mem_cons_self hx), List.find?_cons_of_pos (by simpa using hx), List.find?_cons_of_pos (by simpa using hx)]
    · cases q y with
      | true => rw [if_pos rfl, List.find?_cons_of_neg (by simpa using hx), List.find?_cons_of_neg (by simpa using hx), ih]
      | false => rw [if_neg (by simp), List.find?_cons_of_neg (by simpa using hx), ih]

theorem getAttr_unlink {n : Node} {s : Nat → Bool} {x : AName} (h : ∀ y ∈ n.attrs, y.name = x → ∀ k, y.value.target = some k → s k = false) :
    getAttr (n.unlink s).attrs x = getAttr n.attrs x := by
  refine getAttr_filter (fun y hy hx => ?_)
  cases ht : y.value.target with
  | none => rfl
  | some k => simp [h y hy hx k ht]

section
variable {env : Env P} {u : Nat → Prop} {s : Nat → Bool} {n : Node}

theorem Loose.attr (h : Loose env π u s n) {x : AName} (hx : n.kind ≠ .elem .use ∨ x ≠ .id .xlinkHref) :
    getAttr (n.unlink s).attrs x = getAttr n.attrs x := by
  refine getAttr_unlink (fun y hy he k hk => ?_)
  by_contra hs
  obtain ⟨h1, h2, _⟩ := h.2 y hy k hk (by simpa using hs)
  rcases hx with hx | hx
  · exact hx h1
  · exact hx (he ▸ h2)

theorem Loose.get (h : Loose env π u s n) {a : AId} (ha : a ≠ .xlinkHref) : (n.unlink s).get a = n.get a := by
  unfold Node.get
  rw [h.attr (.inr (by simpa using ha))]

theorem Loose.enter (h : Loose env π u s n) (c : Ctx) : c.enter (n.unlink s) = c.enter n := by
  unfold Ctx.enter nodeTransform
  rw [h.get (a := .transform) (by decide)]
  congr 1
  funext a
  by_cases ha : inherits a = true
  · rw [if_pos ha, if_pos ha, h.get (by rintro rfl; cases ha)]
  · rw [if_neg ha, if_neg ha]

theorem Loose.use (h : Loose env π u s n) (hk : n.kind = .elem .use) {c : Ctx} (hc : StyleIn u c) : useOf π env c (n.unlink s) = useOf π env c n := by
  have hv : viaOf env (n.unlink s) = viaOf env n := by
    funext x
    unfold viaOf own
    split
    next hx =>
      rw [h.attr (.inr ?_)]
      rcases hx with rfl | rfl <;> simp
    · rfl
  have ho : ∀ a, a ≠ .xlinkHref → offset π (n.unlink s) a = offset π n a := fun a ha => by unfold offset; rw [h.get ha]
  unfold useOf
  rw [hv, ho .x (by decide), ho .y (by decide)]
  cases hx : getAttr n.attrs (.id .xlinkHref) with
  | none =>
    have : getAttr (n.unlink s).attrs (.id .xlinkHref) = none := by
      unfold getAttr Node.unlink at *
      rw [List.find?_eq_none] at hx ⊢
      exact fun y hy => hx y (List.mem_of_mem_filter hy)
    unfold Node.get
    rw [this, hx]
  | some y =>
    have hm := getAttr_mem hx
    have hn := getAttr_name hx
    by_cases hs : ∃ k, y.value.target = some k ∧ s k = true
    · obtain ⟨k, hk', hsk⟩ := hs
      have hnone : getAttr (n.unlink s).attrs (.id .xlinkHref) = none := by
        unfold getAttr Node.unlink
        rw [List.find?_eq_none]
        intro z hz he
        simp only [decide_eq_true_eq] at he
        obtain ⟨hz, hf⟩ := List.mem_filter.1 hz
        have : z = y := List.inj_on_of_nodup_map h.1 hz hm (he.trans hn.symm)
        subst this
        rw [hk'] at hf
        simp [hsk] at hf
      have hi := (h.2 y hm k hk' hsk).2.2
      unfold Node.get
      rw [hnone, hx]
      simp only [Option.map_some, Option.map_none]
      cases hy : y.value with
      | link k' =>
        rw [hy] at hk'
        cases hk'
        refine (hi ⟨c.style, mul c.ctm ⟨1, 0, 0, 1, offset π n .x, offset π n .y⟩⟩ (viaOf env n) hc).symm
      | _ => rfl
    · have : getAttr (n.unlink s).attrs (.id .xlinkHref) = some y := by
        rw [getAttr_unlink, hx]
        intro z hz he k hk'
        have : z = y := List.inj_on_of_nodup_map h.1 hz hm (he.trans hn.symm)
        subst this
        by_contra hc
        exact hs ⟨k, hk', by simpa using hc⟩
      unfold Node.get
      rw [this, hx]

theorem Loose.body (h : Loose env π u s n) {c : Ctx} (hc : StyleIn u c) (hn : ∀ k ∈ n.links, u k) (via : Attrs P) (kids : List (Pic P)) :
    body π env via c (n.unlink s) kids = body π env via c n kids := by
  have hseen : ∀ a, a ≠ .xlinkHref → seenAttr env (n.unlink s) a = seenAttr env n a := fun a ha => by unfold seenAttr; rw [h.get ha]
  have hhold : ∀ a, a ≠ .xlinkHref → holds π (n.unlink s) a = holds π n a := fun a ha => by unfold holds; rw [h.get ha]
  have hal : allowed π (n.unlink s) = allowed π n := by
    unfold allowed
    rw [hhold _ (by decide), hhold _ (by decide), hhold _ (by decide)]
  have hhid : hiddenBy (n.unlink s) = hiddenBy n := by unfold hiddenBy; rw [h.get (by decide)]
  have hop : opacityOf (n.unlink s) = opacityOf n := by unfold opacityOf; rw [h.get (by decide)]
  unfold Render.body
  rw [Node.kind_unlink]
  split
  · rfl
  · rfl
  next t ht =>
    rw [h.enter]
    congr 1
    funext x
    rw [h.attr (.inl (by rw [ht]; simp))]
  next e he =>
    rw [h.enter, hseen _ (by decide), hseen _ (by decide), hseen _ (by decide), hal, hhid, hop]
    have : core π env via (c.enter n) (n.unlink s) e kids = core π env via (c.enter n) n e kids := by
      by_cases hu : e = .use
      · subst hu
        simp only [core]
        exact h.use he (styleIn_enter hc hn)
      · have ho : own env (n.unlink s) = own env n := by
          funext x
          unfold own
          rw [h.attr (.inl (by rw [he]; simpa using hu))]
        unfold core
        rw [ho]
        simp only [hu, if_false]
    rw [this]

theorem Loose.allowed (h : Loose env π u s n) : Render.allowed π (n.unlink s) = Render.allowed π n := by
  have hhold : ∀ a, a ≠ .xlinkHref → holds π (n.unlink s) a = holds π n a := fun a ha => by unfold holds; rw [h.get ha]
  unfold Render.allowed
  rw [hhold _ (by decide), hhold _ (by decide), hhold _ (by decide)]
end

section
variable {env : Env P} {u : Nat → Prop} {pr : Node → Bool} {s : Nat → Bool}

theorem CutAt.kids {p : Kind} {n : Node} {k r : Forest} (h : CutAt π env u pr s p (.cons n k r)) (hn : pr n = false) :
    CutAt π env u pr s n.kind k ∧ Loose env π u s n ∧ (∀ x ∈ n.links, u x) := by
  refine ⟨⟨fun x hx => h.gone x ?_, fun m hm => h.loose m ?_, fun m hm => h.links m ?_⟩, h.loose n ?_, h.links n ?_⟩
  · simp [cuts, hn, hx]
  · simp [Forest.prune, hn, hm]
  · simp [hm]
  · simp [Forest.prune, hn]
  · simp

theorem CutAt.rest {p : Kind} {n : Node} {k r : Forest} (h : CutAt π env u pr s p (.cons n k r)) : CutAt π env u pr s p r := by
  refine ⟨fun x hx => h.gone x ?_, fun m hm => h.loose m ?_, fun m hm => h.links m ?_⟩
  · simp only [cuts]; split <;> simp [hx]
  · simp only [Forest.prune]; split <;> simp [hm]
  · simp [hm]

theorem CutAt.pics {p : Kind} {f : Forest} (h : CutAt π env u pr s p f) {c : Ctx} (hc : StyleIn u c) :
    Skip π p (pics π env c f) (Render.pics π env c (cut pr s f)) := by
  induction f generalizing p c with
  | nil => exact .nil
  | cons n k r ihk ihr =>
    rw [cut_cons]
    cases hn : pr n with
    | true =>
      simp only [if_true, Render.pics]
      obtain ⟨h1, h2⟩ := h.gone (p, n, k) (by simp [cuts, hn])
      exact .drop _ h1 (h2.imp id (fun h => h c hc)) (ihr h.rest hc)
    | false =>
      obtain ⟨hk, hl, hu⟩ := h.kids hn
      have : draw π env c (n.unlink s) (Render.pics π env (c.enter n) (cut pr s k)) = draw π env c n (Render.pics π env (c.enter n) k) := by
        unfold draw
        rw [Node.kind_unlink, hl.body hc hu, body_skip (ihk hk (styleIn_enter hc hu))]
      simp only [Bool.false_eq_true, if_false, Render.pics]
      rw [hl.enter, hl.allowed, this]
      exact .keep _ (ihr h.rest hc)

theorem CutAt.body {p : Kind} {n : Node} {k r : Forest} (h : CutAt π env u pr s p (.cons n k r)) (hn : pr n = false) {c : Ctx} (hc : StyleIn u c)
    (via : Attrs P) : body π env via c (n.unlink s) (Render.pics π env (c.enter (n.unlink s)) (cut pr s k)) =
      body π env via c n (Render.pics π env (c.enter n) k) := by
  obtain ⟨hk, hl, hu⟩ := h.kids hn
  rw [hl.enter, hl.body hc hu, body_skip (hk.pics (styleIn_enter hc hu))]

theorem CutAt.inst {p : Kind} {f : Forest} (h : CutAt π env u pr s p f) {c : Ctx} (hc : StyleIn u c) {x : Nat} (hx : x ∉ f.prunedKeys pr)
    (via : Attrs P) : instOf π env via c x (cut pr s f) = instOf π env via c x f := by
  induction f generalizing p with
  | nil => rfl
  | cons n k r ihk ihr =>
    rw [cut_cons]
    simp only [Forest.prunedKeys] at hx
    cases hn : pr n with
    | true =>
      rw [hn] at hx
      simp only [if_true, List.cons_append, List.mem_cons, List.mem_append, not_or] at hx
      simp only [if_true, instOf]
      rw [if_neg (fun e => hx.1 e.symm), instOf_none hx.2.1, ihr h.rest hx.2.2]
      rfl
    | false =>
      rw [hn] at hx
      simp only [Bool.false_eq_true, if_false, List.mem_append, not_or] at hx
      simp only [Bool.false_eq_true, if_false, instOf]
      rw [Node.key_unlink, h.body hn hc, ihk (h.kids hn).1 hx.1, ihr h.rest hx.2]

theorem CutAt.here {p : Kind} {f : Forest} (h : CutAt π env u pr s p f) {c : Ctx} (hc : StyleIn u c) {x : Nat} (hx : x ∉ f.prunedKeys pr) :
    hereOf π env x c (cut pr s f) = hereOf π env x c f := by
  induction f generalizing p c with
  | nil => rfl
  | cons n k r ihk ihr =>
    rw [cut_cons]
    simp only [Forest.prunedKeys] at hx
    cases hn : pr n with
    | true =>
      rw [hn] at hx
      simp only [if_true, List.cons_append, List.mem_cons, List.mem_append, not_or] at hx
      simp only [if_true, hereOf]
      rw [if_neg (fun e => hx.1 e.symm), hereOf_none hx.2.1, ihr h.rest hc hx.2.2]
      rfl
    | false =>
      rw [hn] at hx
      simp only [Bool.false_eq_true, if_false, List.mem_append, not_or] at hx
      obtain ⟨hk, hl, hu⟩ := h.kids hn
      have hc' : StyleIn u ⟨c.style, one⟩ := hc
      simp only [Bool.false_eq_true, if_false, hereOf]
      rw [Node.key_unlink, h.body hn hc', hl.enter, ihk hk (styleIn_enter hc hu) hx.1, ihr h.rest hc hx.2]
end

/-! ### Documents -/

/-- The kind that stands for the parent of the nodes of the top level. -/
abbrev top : Kind := .elem .g

/-- The references in the inherited properties are references that occur in the document. -/
abbrev Used (f : Forest) (k : Nat) : Prop := f.isUsed k = true

/-- The element `n` of `f`, with the children `ks`, shows nothing where it stands. -/
def Undrawn (f : Forest) (n : Node) (ks : Forest) : Prop :=
  ∀ (P : Type) (π : Painter P) (d : Nat) (c : Ctx), StyleIn (Used f) c →
    draw π (scene π f d) c n (Render.pics π (scene π f d) (c.enter n) ks) = π.empty

/-- The element with the key `k` shows nothing when it is shown by a `use` element. -/
def Blank (f : Forest) (k : Nat) : Prop :=
  ∀ (P : Type) (π : Painter P) (d : Nat) (c : Ctx) (via : Attrs P), StyleIn (Used f) c → (scene π f d).inst k c via = π.empty

/-- The element with the key `k` shows nothing as a mask, clip path, filter and so on. -/
def Void (f : Forest) (k : Nat) : Prop := ∀ (P : Type) (π : Painter P) (d : Nat), (scene π f d).here k = π.empty

/-- What is needed to remove the subtrees whose top nodes satisfy `pr`. -/
structure Cut (f : Forest) (pr : Node → Bool) : Prop where
  gone : ∀ x ∈ cuts pr top f, gone x.1 x.2.1.kind = true ∧ (unseen x.1 x.2.1.kind = true ∨ Undrawn f x.2.1 x.2.2)
  attrs : ∀ n ∈ f.nodes, (n.attrs.map (·.name)).Nodup
  links : ∀ n ∈ (f.prune pr).nodes, ∀ y ∈ n.attrs, ∀ k, y.value.target = some k → k ∈ f.prunedKeys pr →
    n.kind = .elem .use ∧ y.name = .id .xlinkHref ∧ Blank f k

theorem Cut.at {f : Forest} {pr : Node → Bool} (h : Cut f pr) (π : Painter P) (d : Nat) :
    CutAt π (scene π f d) (Used f) pr (fun k => decide (k ∈ f.prunedKeys pr)) top f :=
  ⟨fun x hx => ⟨(h.gone x hx).1, (h.gone x hx).2.imp id (fun hd c hc => hd P π d c hc)⟩,
   fun n hn => ⟨h.attrs n ((Forest.nodes_prune_sublist _ _).subset hn), fun y hy k hk hs => by
     obtain ⟨h1, h2, h3⟩ := h.links n hn y hy k hk (by simpa using hs)
     exact ⟨h1, h2, fun c via hc => h3 P π d c via hc⟩⟩, used_links f⟩

/-- The references that are left. -/
def Left (f : Forest) (pr : Node → Bool) (k : Nat) : Prop := Used f k ∧ k ∉ f.prunedKeys pr

theorem left_links (f : Forest) (pr : Node → Bool) : LinksIn (Left f pr) (f.remove pr) := by
  intro n hn k hk
  rw [remove_eq] at hn
  unfold cut at hn
  rw [Forest.nodes_map] at hn
  obtain ⟨m, hm, rfl⟩ := List.mem_map.1 hn
  rw [Node.links_unlink] at hk
  obtain ⟨hk, hs⟩ := List.mem_filter.1 hk
  exact ⟨Forest.isUsed_iff.2 ⟨m, (Forest.nodes_prune_sublist _ _).subset hm, hk⟩, by simpa using hs⟩

theorem left_of_used {f : Forest} {pr : Node → Bool} {k : Nat} (h : Used (f.remove pr) k) : Left f pr k := by
  obtain ⟨n, hn, hk⟩ := Forest.isUsed_iff.1 h
  exact left_links f pr n hn k hk

theorem Cut.scene {f : Forest} {pr : Node → Bool} (h : Cut f pr) (π : Painter P) (d : Nat) :
    Agree (Left f pr) (scene π (f.remove pr) d) (scene π f d) := by
  induction d with
  | zero => exact Agree.refl _ _
  | succ d ih =>
    have hg := left_links f pr
    refine ⟨fun _ h => h, fun k hk => ?_, fun k c via hk hc => ?_⟩
    · simp only [Render.scene]
      rw [hereOf_env ih hg (fun a v k hv => by cases hv), remove_eq, (h.at π d).here (fun a v k hv => by cases hv) hk.2]
    · simp only [Render.scene]
      rw [instOf_env ih hg hc, remove_eq, (h.at π d).inst (hc.mono (fun _ h => h.1)) hk.2]

/-- Removing elements that show nothing keeps the picture. -/
theorem Cut.look {f : Forest} {pr : Node → Bool} (h : Cut f pr) : SameLook f (f.remove pr) := by
  intro P π d
  unfold picture
  rw [pics_env (h.scene π d) (left_links f pr) (fun a v k hv => by cases hv), remove_eq]
  exact ((h.at π d).pics (fun a v k hv => by cases hv)).stack (by simp) _

theorem Cut.blank {f : Forest} {pr : Node → Bool} (h : Cut f pr) {k : Nat} (hk : Used (f.remove pr) k) (hb : Blank f k) : Blank (f.remove pr) k := by
  intro P π d c via hc
  rw [(h.scene π d).inst k c via (left_of_used hk) (hc.mono fun _ => left_of_used)]
  exact hb P π d c via (hc.mono fun _ h => (left_of_used h).1)

theorem Cut.void {f : Forest} {pr : Node → Bool} (h : Cut f pr) {k : Nat} (hk : Used (f.remove pr) k) (hb : Void f k) : Void (f.remove pr) k := by
  intro P π d
  rw [(h.scene π d).here k (left_of_used hk)]
  exact hb P π d

/-- Every node that is left, with its children, comes from one of the document. -/
theorem spots_cut {pr : Node → Bool} {s : Nat → Bool} {p : Kind} {f : Forest} {x : Kind × Node × Forest} (h : x ∈ spots p (cut pr s f)) :
    ∃ n ks, (x.1, n, ks) ∈ spots p f ∧ pr n = false ∧ x.2 = (n.unlink s, cut pr s ks) ∧ (∀ y ∈ cuts pr n.kind ks, y ∈ cuts pr p f) ∧
      ∀ m ∈ (Forest.cons n ks .nil).prune pr |>.nodes, m ∈ (f.prune pr).nodes := by
  induction f generalizing p with
  | nil => cases h
  | cons n k r ihk ihr =>
    rw [cut_cons] at h
    cases hn : pr n with
    | true =>
      rw [hn, if_pos rfl] at h
      obtain ⟨m, ks, h1, h2, h3, h4, h5⟩ := ihr h
      exact ⟨m, ks, by simp [spots, h1], h2, h3, fun y hy => by simp [cuts, hn, h4 y hy], fun y hy => by simp only [Forest.prune, hn]; exact h5 y hy⟩
    | false =>
      rw [hn, if_neg (by simp)] at h
      simp only [spots, List.mem_cons, List.mem_append] at h
      rcases h with rfl | h | h
      · exact ⟨n, k, by simp [spots], hn, rfl, fun y hy => by simp [cuts, hn, hy], fun y hy => by
          simp only [Forest.prune, hn, Bool.false_eq_true, if_false, Forest.nodes_cons, Forest.nodes_nil, List.append_nil, List.mem_cons] at hy
          simp only [Forest.prune, hn, Bool.false_eq_true, if_false, Forest.nodes_cons, List.mem_cons, List.mem_append]
          tauto⟩
      · obtain ⟨m, ks, h1, h2, h3, h4, h5⟩ := ihk h
        refine ⟨m, ks, by simp only [spots, List.mem_cons, List.mem_append]; exact .inr (.inl h1), h2, h3, fun y hy => by simp only [cuts, hn, Bool.false_eq_true, if_false]; exact List.mem_append_left _ (h4 y hy), fun y hy => ?_⟩
        simp only [Forest.prune, hn, Bool.false_eq_true, if_false, Forest.nodes_cons, List.mem_cons, List.mem_append]
        exact .inr (.inl (h5 y hy))
      · obtain ⟨m, ks, h1, h2, h3, h4, h5⟩ := ihr h
        refine ⟨m, ks, by simp only [spots, List.mem_cons, List.mem_append]; exact .inr (.inr h1), h2, h3, fun y hy => by simp [cuts, hn, h4 y hy], fun y hy => ?_⟩
        simp only [Forest.prune, hn, Bool.false_eq_true, if_false, Forest.nodes_cons, List.mem_cons, List.mem_append]
        exact .inr (.inr (h5 y hy))

theorem spots_nodes {p : Kind} {f : Forest} {x : Kind × Node × Forest} (h : x ∈ spots p f) : x.2.1 ∈ f.nodes ∧ ∀ m ∈ x.2.2.nodes, m ∈ f.nodes := by
  induction f generalizing p with
  | nil => cases h
  | cons n k r ihk ihr =>
    simp only [spots, List.mem_cons, List.mem_append] at h
    simp only [Forest.nodes_cons, List.mem_cons, List.mem_append]
    rcases h with rfl | h | h
    · exact ⟨.inl rfl, fun m hm => .inr (.inl hm)⟩
    · exact ⟨.inr (.inl (ihk h).1), fun m hm => .inr (.inl ((ihk h).2 m hm))⟩
    · exact ⟨.inr (.inr (ihr h).1), fun m hm => .inr (.inr ((ihr h).2 m hm))⟩

/-- What shows nothing still shows nothing. -/
theorem Cut.undrawn {f : Forest} {pr : Node → Bool} (h : Cut f pr) {p : Kind} {n : Node} {ks : Forest}
    (hx : (p, n, ks) ∈ spots top (f.remove pr)) :
    ∃ m k, (p, m, k) ∈ spots top f ∧ n = m.unlink (fun k => decide (k ∈ f.prunedKeys pr)) ∧ pr m = false ∧
      (∀ x ∈ ks.nodes, ∃ y ∈ k.nodes, x.key = y.key) ∧ (Undrawn f m k → Undrawn (f.remove pr) n ks) ∧ (k.isEmpty = true → ks.isEmpty = true) := by
  rw [remove_eq] at hx
  obtain ⟨m, k, h1, h2, h3, h4, h5⟩ := spots_cut hx
  cases h3
  refine ⟨m, k, h1, rfl, h2, fun x hx => ?_, fun hu P π d c hc => ?_, fun he => ?_⟩
  · unfold cut at hx
    rw [Forest.nodes_map] at hx
    obtain ⟨y, hy, rfl⟩ := List.mem_map.1 hx
    exact ⟨y, (Forest.nodes_prune_sublist _ _).subset hy, rfl⟩
  · have hc1 : StyleIn (Left f pr) c := hc.mono fun _ => left_of_used
    have hc2 : StyleIn (Used f) c := hc1.mono fun _ h => h.1
    have hat : CutAt π (Render.scene π f d) (Used f) pr (fun k => decide (k ∈ f.prunedKeys pr)) p (.cons m k .nil) := by
      have := h.at π d
      refine ⟨fun x hx => this.gone x (h4 x (by simpa [cuts, h2] using hx)), fun x hx => this.loose x (h5 x hx), fun x hx => this.links x ?_⟩
      have := spots_nodes h1
      simp only [Forest.nodes_cons, Forest.nodes_nil, List.append_nil, List.mem_cons] at hx
      rcases hx with rfl | hx
      · exact this.1
      · exact this.2 x hx
    have hl := left_links f pr
    have hn := spots_nodes hx
    have := hu P π d c hc2
    unfold draw at this ⊢
    rw [Node.kind_unlink]
    split
    · rfl
    next he =>
      rw [if_neg he] at this
      rw [body_env (h.scene π d) hc1 (fun k hk => hl _ hn.1 k hk),
        pics_env (h.scene π d) (fun x hx => hl _ (hn.2 x hx)) (styleIn_enter hc1 (fun k hk => hl _ hn.1 k hk)), hat.body h2 hc2, this]
  · cases k with
    | nil => rfl
    | cons => cases he

end Verif.Render
