import Verif.RenderDrop
import Verif.GradUnitsProps
/-
Replacing the references to a paint server by a value: when two documents look the same (see `Render.lean`).
-/
namespace Verif.Render
open Verif.Dom Verif.Spec
open Verif.Paths (Transform)

variable {P : Type} {π : Painter P}

/-- As a paint, the picture `q` of a paint server is the same as the value `w`. -/
structure Same (π : Painter P) (q : P) (w : Value) : Prop where
  paint : ∀ e as st t l a, (a = .fill ∨ a = .stroke) → st a = some (.ref q) →
    π.paint e as st t l = π.paint e as (Function.update st a (some (.plain w))) t l
  chars : ∀ s st t a, (a = .fill ∨ a = .stroke) → st a = some (.ref q) → π.chars s st t = π.chars s (Function.update st a (some (.plain w))) t
  foreign : ∀ s as st t l a, (a = .fill ∨ a = .stroke) → st a = some (.ref q) →
    π.foreign s as st t l = π.foreign s as (Function.update st a (some (.plain w))) t l

theorem same_none (π : Painter P) {q : P} (h : Stopless π.paint q) : Same π q (.kw .none) :=
  ⟨fun e as st t l a ha hs => π.paint_none e as st t l a q ha hs h, fun s st t a ha hs => π.chars_none s st t a q ha hs h,
   fun s as st t l a ha hs => π.foreign_none s as st t l a q ha hs h⟩

theorem same_solid (π : Painter P) {q : P} {r g b : Nat} (h : Solid π.paint (r, g, b) q) : Same π q (.color r g b) :=
  ⟨fun e as st t l a ha hs => π.paint_solid e as st t l a q r g b ha hs h, fun s st t a ha hs => π.chars_solid s st t a q r g b ha hs h,
   fun s as st t l a ha hs => π.foreign_solid s as st t l a q r g b ha hs h⟩

/-- The value `w` instead of references to `k`. -/
def swap (k : Nat) (w v : Value) : Value := if v.target = some k then w else v

def swapAttr (k : Nat) (w : Value) (y : Attr) : Attr := if y.value.target = some k then ⟨y.name, w, true⟩ else y

def isPaint (a : AId) : Bool := decide (a = .fill ∨ a = .stroke)

/-- The context with `w` for the paint server. -/
def swapCtx (k : Nat) (w : Value) (c : Ctx) : Ctx := ⟨fun a => if isPaint a then (c.style a).map (swap k w) else c.style a, c.ctm⟩

/-- In the nodes of `f` the function `φ` replaces the references to `k`, which are all in `fill` and `stroke` attributes of SVG elements, by `w`. -/
structure Swaps (φ : Node → Node) (k : Nat) (w : Value) (n : Node) : Prop where
  key : (φ n).key = n.key
  kind : (φ n).kind = n.kind
  attr : ∀ x, getAttr (φ n).attrs x = (getAttr n.attrs x).map (swapAttr k w)
  names : ((φ n).attrs.map (·.name)).Nodup
  users : ∀ y ∈ n.attrs, y.value.target = some k → (y.name = .id .fill ∨ y.name = .id .stroke) ∧ n.isSvgElem = true

section
variable {φ : Node → Node} {k : Nat} {w : Value} {n : Node}

theorem Swaps.same (h : Swaps φ k w n) {x : AName} (hx : x ≠ .id .fill ∧ x ≠ .id .stroke) : getAttr (φ n).attrs x = getAttr n.attrs x := by
  rw [h.attr]
  cases hy : getAttr n.attrs x with
  | none => rfl
  | some y =>
    have : swapAttr k w y = y := by
      unfold swapAttr
      rw [if_neg]
      intro ht
      have := (h.users y (getAttr_mem hy) ht).1
      rw [getAttr_name hy] at this
      rcases this with e | e
      · exact hx.1 e
      · exact hx.2 e
    simp [this]

theorem Swaps.get (h : Swaps φ k w n) {a : AId} (ha : isPaint a = false) : (φ n).get a = n.get a := by
  unfold Node.get
  rw [h.same]
  simpa [isPaint, not_or] using ha

theorem Swaps.getPaint (h : Swaps φ k w n) (a : AId) : (φ n).get a = (n.get a).map (swap k w) := by
  unfold Node.get
  rw [h.attr]
  cases getAttr n.attrs (.id a) with
  | none => rfl
  | some y =>
    simp only [Option.map_some]
    unfold swapAttr swap
    split <;> rfl

theorem swap_inherit (hw : w ≠ .kw .inherit) (v : Value) : swap k w v = .kw .inherit ↔ v = .kw .inherit := by
  unfold swap
  split
  next ht =>
    refine ⟨fun h => absurd h hw, fun h => ?_⟩
    subst h
    cases ht
  next => rfl

theorem Swaps.enter (h : Swaps φ k w n) (hw : w ≠ .kw .inherit) (c : Ctx) : (swapCtx k w c).enter (φ n) = swapCtx k w (c.enter n) := by
  have hs : ∀ a, ((swapCtx k w c).enter (φ n)).style a = (swapCtx k w (c.enter n)).style a := by
    intro a
    simp only [Ctx.enter, swapCtx]
    by_cases ha : inherits a = true
    · simp only [ha, if_true]
      cases hp : isPaint a with
      | true =>
        rw [h.getPaint]
        simp only [if_true]
        cases n.get a with
        | none => rfl
        | some v =>
          simp only [Option.map_some, swap_inherit hw]
          split <;> rfl
      | false =>
        rw [h.get hp]
        rfl
    · simp [ha]
  have hc : ((swapCtx k w c).enter (φ n)).ctm = (swapCtx k w (c.enter n)).ctm := by
    simp only [Ctx.enter, swapCtx, h.kind, nodeTransform]
    rw [h.get (a := .transform) (by decide)]
  have e : ∀ {c c' : Ctx}, (∀ a, c.style a = c'.style a) → c.ctm = c'.ctm → c = c' := by
    intro c c' h1 h2
    cases c; cases c'
    simp only [Ctx.mk.injEq] at *
    exact ⟨funext h1, h2⟩
  exact e hs hc

/-- Two ways to see references, related by the replacement. -/
structure Match (k : Nat) (w : Value) (env env' : Env P) : Prop where
  here : env'.here = env.here
  inst : ∀ j c via, env'.inst j (swapCtx k w c) via = env.inst j c via

variable {env env' : Env P}

theorem Match.see (h : Match k w env env') (v : Value) : see env' v = see env v := by unfold Render.see; rw [h.here]

theorem Match.own (h : Match k w env env') (hn : Swaps φ k w n) : own env' (φ n) = own env n := by
  funext x
  unfold Render.own
  by_cases hx : isOwn x = true
  · rw [if_pos hx, if_pos hx, hn.same]
    · congr 1
      funext y
      exact h.see _
    · constructor <;> (rintro rfl; cases hx)
  · rw [if_neg hx, if_neg hx]

theorem Match.seenAttr (h : Match k w env env') (hn : Swaps φ k w n) {a : AId} (ha : isPaint a = false) : seenAttr env' (φ n) a = seenAttr env n a := by
  unfold Render.seenAttr
  rw [hn.get ha]
  congr 1
  funext v
  unfold seeFunc
  rw [h.here]

/-- The style with `w` for the paint server in the property `a`. -/
def swapStyle (k : Nat) (w : Value) (c : Ctx) (a : AId) (st : Style P) : Style P :=
  if (c.style a).bind Value.target = some k then Function.update st a (some (.plain w)) else st

theorem Match.style (h : Match k w env env') (hw : w.target = none) (c : Ctx) :
    seenStyle env' (swapCtx k w c) = swapStyle k w c .stroke (swapStyle k w c .fill (seenStyle env c)) := by
  funext a
  have hr : ∀ (b : AId) (st : Style P), b ≠ a → swapStyle k w c b st a = st a := by
    intro b st hb
    unfold swapStyle
    split
    · exact Function.update_of_ne (fun e => hb e.symm) _ _
    · rfl
  have hs : ∀ (st : Style P), isPaint a = true → st a = seenStyle env c a → swapStyle k w c a st a = seenStyle env' (swapCtx k w c) a := by
    intro st ha he
    unfold swapStyle
    unfold seenStyle swapCtx at *
    simp only [ha, if_true]
    cases hc : c.style a with
    | none => simp [he, hc]
    | some v =>
      simp only [Option.bind_some, Option.map_some, swap]
      split
      next ht =>
        simp [Render.see, hw]
      next ht =>
        rw [he, hc]
        simp only [Option.map_some]
        rw [h.see]
  by_cases h1 : a = .stroke
  · subst h1
    rw [hs _ rfl]
    exact hr .fill _ (by decide)
  · rw [hr .stroke _ (fun e => h1 e.symm)]
    by_cases h2 : a = .fill
    · subst h2
      rw [hs _ rfl rfl]
    · rw [hr .fill _ (fun e => h2 e.symm)]
      unfold seenStyle swapCtx
      have : isPaint a = false := by simp [isPaint, h1, h2]
      simp only [this, Bool.false_eq_true, if_false]
      congr 1
      funext v
      exact h.see v

theorem style_ref (c : Ctx) {a : AId} (h : (c.style a).bind Value.target = some k) : seenStyle env c a = some (.ref (env.here k)) := by
  unfold seenStyle
  cases hc : c.style a with
  | none => rw [hc] at h; cases h
  | some v =>
    rw [hc] at h
    simp only [Option.bind_some] at h
    simp [Render.see, h]

theorem swap_fill {Q : Type} (F : Style P → Q) (c : Ctx) (st : Style P) (hst : st = seenStyle env c)
    (hF : ∀ st a, (a = .fill ∨ a = .stroke) → st a = some (.ref (env.here k)) → F st = F (Function.update st a (some (.plain w)))) :
    F (swapStyle k w c .stroke (swapStyle k w c .fill st)) = F st := by
  have h1 : F (swapStyle k w c .fill st) = F st := by
    unfold swapStyle
    split
    next h => exact (hF st .fill (.inl rfl) (by rw [hst]; exact style_ref c h)).symm
    next => rfl
  rw [← h1]
  have hv : (swapStyle k w c .fill st) .stroke = st .stroke := by
    unfold swapStyle
    split
    · exact Function.update_of_ne (by decide) _ _
    · rfl
  generalize swapStyle k w c .fill st = st' at hv
  unfold swapStyle
  split
  next h => exact (hF st' .stroke (.inr rfl) (by rw [hv, hst]; exact style_ref c h)).symm
  next => rfl

theorem Match.use (h : Match k w env env') (hn : Swaps φ k w n) (c : Ctx) : useOf π env' (swapCtx k w c) (φ n) = useOf π env c n := by
  have ho : ∀ a, isPaint a = false → offset π (φ n) a = offset π n a := fun a ha => by unfold offset; rw [hn.get ha]
  have hv : viaOf env' (φ n) = viaOf env n := by unfold viaOf; rw [h.own hn]
  unfold useOf
  rw [hn.get (a := .xlinkHref) (by decide), hv, ho .x (by decide), ho .y (by decide)]
  split
  next j _ => exact h.inst j ⟨c.style, mul c.ctm ⟨1, 0, 0, 1, offset π n .x, offset π n .y⟩⟩ _
  next => rfl

theorem Match.allowed (hn : Swaps φ k w n) : allowed π (φ n) = allowed π n := by
  have hh : ∀ a, isPaint a = false → holds π (φ n) a = holds π n a := fun a ha => by unfold holds; rw [hn.get ha]
  unfold Render.allowed
  rw [hh _ (by decide), hh _ (by decide), hh _ (by decide)]

theorem Match.body (h : Match k w env env') (hw : w.target = none) (hi : w ≠ .kw .inherit) (hs : Same π (env.here k) w) (hn : Swaps φ k w n)
    (via : Attrs P) (c : Ctx) (kids : List (Pic P)) : body π env' via (swapCtx k w c) (φ n) kids = body π env via c n kids := by
  have hhid : hiddenBy (φ n) = hiddenBy n := by unfold hiddenBy; rw [hn.get (by decide)]
  have hop : opacityOf (φ n) = opacityOf n := by unfold opacityOf; rw [hn.get (by decide)]
  cases hk : n.kind with
  | text s =>
    unfold Render.body
    rw [hn.kind, hk]
    simp only
    rw [h.style hw]
    exact swap_fill (fun st => π.chars s st (swapCtx k w c).ctm) c _ rfl (fun st a ha => hs.chars _ _ _ _ ha)
  | comment s => unfold Render.body; rw [hn.kind, hk]
  | other s =>
    unfold Render.body
    rw [hn.kind, hk]
    simp only
    have : (fun x => (getAttr (φ n).attrs x).map (fun y => Render.see env' y.value)) = (fun x => (getAttr n.attrs x).map (fun y => Render.see env y.value)) := by
      funext x
      rw [hn.attr]
      cases hy : getAttr n.attrs x with
      | none => rfl
      | some y =>
        have : swapAttr k w y = y := by
          unfold swapAttr
          rw [if_neg]
          intro ht
          have := (hn.users y (getAttr_mem hy) ht).2
          simp [Node.isSvgElem, hk] at this
        simp [this, h.see]
    rw [this, hn.enter hi, h.style hw]
    exact swap_fill (fun st => π.foreign s _ st (swapCtx k w c).ctm kids) (c.enter n) _ rfl (fun st a ha => hs.foreign _ _ _ _ _ _ ha)
  | elem e =>
    rw [body_elem (hn.kind.trans hk), body_elem hk]
    have : inner π env' via (swapCtx k w c) (φ n) e kids = inner π env via c n e kids := by
      unfold inner
      rw [h.seenAttr hn (by decide), h.seenAttr hn (by decide), h.seenAttr hn (by decide), hn.enter hi]
      have : core π env' via (swapCtx k w (c.enter n)) (φ n) e kids = core π env via (c.enter n) n e kids := by
        unfold core
        rw [h.own hn, h.use hn, h.style hw]
        have hp : ∀ l, π.paint e (Render.own env n) (swapStyle k w (c.enter n) .stroke (swapStyle k w (c.enter n) .fill (seenStyle env (c.enter n)))) (swapCtx k w (c.enter n)).ctm l =
            π.paint e (Render.own env n) (seenStyle env (c.enter n)) (c.enter n).ctm l := fun l =>
          swap_fill (fun st => π.paint e (Render.own env n) st (swapCtx k w (c.enter n)).ctm l) (c.enter n) _ rfl (fun st a ha => hs.paint _ _ _ _ _ _ ha)
        rw [hp, hp]
        rfl
      rw [this]
      rfl
    rw [this, hhid, hop, Match.allowed hn]

theorem Match.pics (h : Match k w env env') (hw : w.target = none) (hi : w ≠ .kw .inherit) (hs : Same π (env.here k) w) {f : Forest}
    (hn : ∀ n ∈ f.nodes, Swaps φ k w n) (c : Ctx) : pics π env' (swapCtx k w c) (f.map φ) = pics π env c f := by
  induction f generalizing c with
  | nil => rfl
  | cons n a b iha ihb =>
    have h0 := hn n (by simp)
    simp only [Forest.map, Render.pics, draw]
    rw [h0.enter hi, iha (fun m hm => hn m (by simp [hm])), ihb (fun m hm => hn m (by simp [hm])), h0.kind, Match.allowed h0, h.body hw hi hs h0]

theorem Match.instOf (h : Match k w env env') (hw : w.target = none) (hi : w ≠ .kw .inherit) (hs : Same π (env.here k) w) {f : Forest}
    (hn : ∀ n ∈ f.nodes, Swaps φ k w n) (via : Attrs P) (c : Ctx) (j : Nat) : instOf π env' via (swapCtx k w c) j (f.map φ) = instOf π env via c j f := by
  induction f with
  | nil => rfl
  | cons n a b iha ihb =>
    have h0 := hn n (by simp)
    simp only [Forest.map, Render.instOf]
    rw [h0.key, iha (fun m hm => hn m (by simp [hm])), ihb (fun m hm => hn m (by simp [hm])), h0.enter hi, h.pics hw hi hs (fun m hm => hn m (by simp [hm])),
      h.body hw hi hs h0]

theorem Match.hereOf (h : Match k w env env') (hw : w.target = none) (hi : w ≠ .kw .inherit) (hs : Same π (env.here k) w) {f : Forest}
    (hn : ∀ n ∈ f.nodes, Swaps φ k w n) (c : Ctx) (j : Nat) : hereOf π env' j (swapCtx k w c) (f.map φ) = hereOf π env j c f := by
  induction f generalizing c with
  | nil => rfl
  | cons n a b iha ihb =>
    have h0 := hn n (by simp)
    have e : (⟨(swapCtx k w c).style, one⟩ : Ctx) = swapCtx k w ⟨c.style, one⟩ := rfl
    simp only [Forest.map, Render.hereOf]
    rw [h0.key, e, h0.enter hi c, iha (fun m hm => hn m (by simp [hm])), ihb (fun m hm => hn m (by simp [hm])), h0.enter hi, h.pics hw hi hs (fun m hm => hn m (by simp [hm])),
      h.body hw hi hs h0]
end

theorem swapCtx_start (k : Nat) (w : Value) : swapCtx k w Ctx.start = Ctx.start := by
  unfold swapCtx Ctx.start
  congr 1
  funext a
  split <;> rfl

/-- Replacing the references to a paint server by a value that paints the same keeps the picture. -/
theorem swap_view {f : Forest} {φ : Node → Node} {k : Nat} {w : Value} (hw : w.target = none) (hi : w ≠ .kw .inherit) (ha : Acyclic f)
    (hn : ∀ n ∈ f.nodes, Swaps φ k w n) (hs : ∀ (P : Type) (π : Painter P) (d : Nat), Same π ((scene π (f.map φ) (d + 1)).here k) w) :
    SameView f (f.map φ) := by
  intro P π
  obtain ⟨r, hr⟩ := ha
  let s' : Nat → Env P := fun d => ⟨fun j c via => (scene π (f.map φ) (d + 1)).inst j (swapCtx k w c) via, (scene π (f.map φ) (d + 1)).here⟩
  have hm : ∀ d, Match k w (s' d) (scene π (f.map φ) (d + 1)) := fun d => ⟨rfl, fun _ _ _ => rfl⟩
  have hs' : ∀ d, Agree (fun k => f.isUsed k = true) (s' (d + 1)) (next π f (s' d)) := by
    intro d
    refine ⟨fun _ h => h, fun j _ => ?_, fun j c via _ _ => ?_⟩
    · show (hereOf π (scene π (f.map φ) (d + 1)) j Ctx.start (f.map φ)).getD _ = (hereOf π (s' d) j Ctx.start f).getD _
      rw [← swapCtx_start k w, (hm d).hereOf hw hi (hs P π d) hn, swapCtx_start]
    · show (instOf π (scene π (f.map φ) (d + 1)) via (swapCtx k w c) j (f.map φ)).getD _ = (instOf π (s' d) via c j f).getD _
      rw [(hm d).instOf hw hi (hs P π d) hn]
  obtain ⟨D, hD⟩ := converge (π := π) (used_links f) hr (fun d => scene π f (d + 1)) s' (fun d => Agree.refl _ _) hs'
  refine ⟨D + 1, fun d hd => ?_⟩
  obtain ⟨d, rfl⟩ : ∃ e, d = e + 1 := ⟨d - 1, by omega⟩
  unfold picture
  rw [pics_env (hD d (by omega)) (used_links f) (fun a v k hv => by cases hv), ← (hm d).pics hw hi (hs P π d) hn, swapCtx_start]

end Verif.Render
