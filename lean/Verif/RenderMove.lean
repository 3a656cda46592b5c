import Verif.RenderDrop
import Verif.GroupDefsCases
/-
Documents in which definitions have been moved: what is seen of them where they are referred to depends on the element, its children and
what it inherits, and not on where it stands.
-/
namespace Verif.Render
open Verif.Dom Verif.Spec
open Verif.Paths (Transform)

variable {P : Type}

/-- The node with the key `x`, with its ancestors, nearest first, and its children. -/
def locate (x : Nat) (anc : List Node) : Forest → Option (List Node × Node × Forest)
  | .nil => none
  | .cons n ks r => if n.key = x then some (anc, n, ks) else (locate x (n :: anc) ks).or (locate x anc r)

/-- The properties that the children of `n` inherit, if `n` inherits `st`. -/
def into (st : AId → Option Value) (n : Node) : AId → Option Value := (Ctx.enter ⟨st, one⟩ n).style

/-- The properties that an element with these ancestors, nearest first, inherits. -/
def styleOf : List Node → AId → Option Value
  | [] => Ctx.start.style
  | n :: t => into (styleOf t) n

theorem enter_into (c : Ctx) (n : Node) : (c.enter n).style = into c.style n := rfl

/-! ### Uses and other references -/

/-- The elements that `use` elements of `f` show. -/
def UsesIn (y : Nat → Prop) (f : Forest) : Prop := ∀ n ∈ f.nodes, n.kind = .elem .use → ∀ k, n.get .xlinkHref = some (.link k) → y k

section
variable {π : Painter P} {i i' : Nat → Ctx → Attrs P → P} {h : Nat → P} {y : Nat → Prop}

theorem useOf_inst (hi : ∀ k c via, y k → i k c via = i' k c via) {n : Node} (hn : ∀ k, n.get .xlinkHref = some (.link k) → y k) (c : Ctx) :
    useOf π ⟨i, h⟩ c n = useOf π ⟨i', h⟩ c n := by
  unfold useOf
  split
  next k hk => exact hi _ _ _ (hn k hk)
  next => rfl

theorem body_inst (hi : ∀ k c via, y k → i k c via = i' k c via) {n : Node} (hn : n.kind = .elem .use → ∀ k, n.get .xlinkHref = some (.link k) → y k)
    (via : Attrs P) (c : Ctx) (kids : List (Pic P)) : body π ⟨i, h⟩ via c n kids = body π ⟨i', h⟩ via c n kids := by
  cases hk : n.kind with
  | elem e =>
    rw [body_elem hk, body_elem hk]
    have : core π ⟨i, h⟩ via (c.enter n) n e kids = core π ⟨i', h⟩ via (c.enter n) n e kids := by
      by_cases he : e = .use
      · subst he
        simp only [core]
        exact useOf_inst hi (hn hk) _
      · unfold core
        simp only [he, if_false]
        rfl
    unfold inner
    rw [this]
    rfl
  | text s => unfold body; rw [hk]; rfl
  | comment s => unfold body; rw [hk]
  | other t => unfold body; rw [hk]; rfl

theorem pics_inst (hi : ∀ k c via, y k → i k c via = i' k c via) {f : Forest} (hf : UsesIn y f) (c : Ctx) :
    pics π ⟨i, h⟩ c f = pics π ⟨i', h⟩ c f := by
  induction f generalizing c with
  | nil => rfl
  | cons n k r ihk ihr =>
    simp only [pics, draw]
    rw [ihk (fun m hm => hf m (by simp [hm])), ihr (fun m hm => hf m (by simp [hm])), body_inst hi (hf n (by simp))]

theorem instOf_inst (hi : ∀ k c via, y k → i k c via = i' k c via) {f : Forest} (hf : UsesIn y f) (via : Attrs P) (c : Ctx) (x : Nat) :
    instOf π ⟨i, h⟩ via c x f = instOf π ⟨i', h⟩ via c x f := by
  induction f with
  | nil => rfl
  | cons n k r ihk ihr =>
    simp only [instOf]
    rw [ihk (fun m hm => hf m (by simp [hm])), ihr (fun m hm => hf m (by simp [hm])), body_inst hi (hf n (by simp)),
      pics_inst hi (fun m hm => hf m (by simp [hm]))]

theorem hereOf_inst (hi : ∀ k c via, y k → i k c via = i' k c via) {f : Forest} (hf : UsesIn y f) (c : Ctx) (x : Nat) :
    hereOf π ⟨i, h⟩ x c f = hereOf π ⟨i', h⟩ x c f := by
  induction f generalizing c with
  | nil => rfl
  | cons n k r ihk ihr =>
    simp only [hereOf]
    rw [ihk (fun m hm => hf m (by simp [hm])), ihr (fun m hm => hf m (by simp [hm])), body_inst hi (hf n (by simp)),
      pics_inst hi (fun m hm => hf m (by simp [hm]))]
end

/-- The scenes agree on the elements in `u`, and on those in `y` as shown by `use` elements. -/
structure AgreeUse (u y : Nat → Prop) (E E' : Env P) : Prop where
  here : ∀ k, u k → E.here k = E'.here k
  inst : ∀ k c via, y k → StyleIn u c → E.inst k c via = E'.inst k c via

open Classical in
/-- `E`, but with the second scene's pictures for elements that no `use` element shows. -/
noncomputable def half (y : Nat → Prop) (E E' : Env P) : Env P := ⟨fun k c via => if y k then E.inst k c via else E'.inst k c via, E.here⟩

theorem half_agree {u y : Nat → Prop} {E E' : Env P} (h : AgreeUse u y E E') : Agree u (half y E E') E' := by
  classical
  refine ⟨fun _ h => h, h.here, fun k c via _ hc => ?_⟩
  unfold half
  dsimp only
  split
  next hy => exact h.inst k c via hy hc
  next => rfl

theorem half_inst {y : Nat → Prop} {E E' : Env P} : ∀ k c via, y k → E.inst k c via = (half y E E').inst k c via := by
  classical
  intro k c via hy
  unfold half
  dsimp only
  rw [if_pos hy]

section
variable {π : Painter P} {u y : Nat → Prop} {E E' : Env P} (h : AgreeUse u y E E') {f : Forest} (hl : LinksIn u f) (hy : UsesIn y f) {c : Ctx}
  (hc : StyleIn u c)
include h hl hy hc

theorem AgreeUse.pics : pics π E c f = Render.pics π E' c f := by
  rw [show Render.pics π E c f = Render.pics π (half y E E') c f from pics_inst (h := E.here) half_inst hy c, pics_env (half_agree h) hl hc]

theorem AgreeUse.instOf (via : Attrs P) (x : Nat) : instOf π E via c x f = Render.instOf π E' via c x f := by
  rw [show Render.instOf π E via c x f = Render.instOf π (half y E E') via c x f from instOf_inst (h := E.here) half_inst hy via c x,
    instOf_env (half_agree h) hl hc]

theorem AgreeUse.hereOf (x : Nat) : hereOf π E x c f = Render.hereOf π E' x c f := by
  rw [show Render.hereOf π E x c f = Render.hereOf π (half y E E') x c f from hereOf_inst (h := E.here) half_inst hy c x,
    hereOf_env (half_agree h) hl hc]
end

/-! ### Where elements are found -/

theorem hereOf_locate (π : Painter P) (env : Env P) (x : Nat) (f : Forest) {c : Ctx} {anc : List Node} (hc : c.style = styleOf anc) :
    hereOf π env x c f = (locate x anc f).map fun z =>
      body π env noVia ⟨styleOf z.1, one⟩ z.2.1 (pics π env (Ctx.enter ⟨styleOf z.1, one⟩ z.2.1) z.2.2) := by
  induction f generalizing c anc with
  | nil => rfl
  | cons n k r ihk ihr =>
    simp only [hereOf, locate]
    split
    · rw [hc]; rfl
    · rw [ihk (c := c.enter n) (anc := n :: anc) (by rw [enter_into, hc]; rfl), ihr hc]
      cases locate x (n :: anc) k <;> rfl

theorem instOf_locate (π : Painter P) (env : Env P) (via : Attrs P) (x : Nat) (f : Forest) (c : Ctx) (anc : List Node) :
    instOf π env via c x f = (locate x anc f).map fun z => body π env via c z.2.1 (pics π env (c.enter z.2.1) z.2.2) := by
  induction f generalizing anc with
  | nil => rfl
  | cons n k r ihk ihr =>
    simp only [instOf, locate]
    split
    · rfl
    · rw [ihk (n :: anc), ihr anc]
      cases locate x (n :: anc) k <;> rfl

/-- The two nodes, with their children, are seen alike where they stand, if they inherit `st`. -/
def SameHere (st : AId → Option Value) (n : Node) (k : Forest) (n' : Node) (k' : Forest) : Prop :=
  ∀ (P : Type) (π : Painter P) (env : Env P), body π env noVia ⟨st, one⟩ n (pics π env (Ctx.enter ⟨st, one⟩ n) k) =
    body π env noVia ⟨st, one⟩ n' (pics π env (Ctx.enter ⟨st, one⟩ n') k')

/-- The two nodes, with their children, are seen alike in every context. -/
def SameInst (n : Node) (k : Forest) (n' : Node) (k' : Forest) : Prop :=
  ∀ (P : Type) (π : Painter P) (env : Env P) (via : Attrs P) (c : Ctx), body π env via c n (pics π env (c.enter n) k) =
    body π env via c n' (pics π env (c.enter n') k')

theorem SameInst.here {n n' : Node} {k k' : Forest} (h : SameInst n k n' k') (st : AId → Option Value) : SameHere st n k n' k' :=
  fun P π env => h P π env noVia ⟨st, one⟩

/-- What is drawn is the same, and the elements in `u` inherit the same and are seen alike where they stand, those in `y` in every
context. -/
structure Moved (u y : Nat → Prop) (f g : Forest) : Prop where
  stack : ∀ {P : Type} (π : Painter P) (env : Env P), stack π isElem (pics π env Ctx.start f) = stack π isElem (pics π env Ctx.start g)
  found : ∀ x anc n ks, u x → locate x [] f = some (anc, n, ks) → ∃ anc' n' ks', locate x [] g = some (anc', n', ks') ∧ n'.kind = n.kind ∧
    styleOf anc' = styleOf anc ∧ SameHere (styleOf anc) n ks n' ks' ∧ (y x → SameInst n ks n' ks')

theorem Moved.refl (u y : Nat → Prop) (f : Forest) : Moved u y f f :=
  ⟨fun _ _ => rfl, fun _ anc n ks _ h => ⟨anc, n, ks, h, rfl, rfl, fun _ _ _ => rfl, fun _ _ _ _ _ _ => rfl⟩⟩

theorem Moved.trans {u y : Nat → Prop} {f g h : Forest} (a : Moved u y f g) (b : Moved u y g h) : Moved u y f h := by
  refine ⟨fun π env => (a.stack π env).trans (b.stack π env), fun x anc n ks hu hx => ?_⟩
  obtain ⟨a1, n1, k1, h1, e1, s1, p1, q1⟩ := a.found x anc n ks hu hx
  obtain ⟨a2, n2, k2, h2, e2, s2, p2, q2⟩ := b.found x a1 n1 k1 hu h1
  refine ⟨a2, n2, k2, h2, e2.trans e1, s2.trans s1, fun P π env => (p1 P π env).trans ?_, fun hy P π env via c => (q1 hy P π env via c).trans (q2 hy P π env via c)⟩
  have := p2 P π env
  rwa [s1] at this

theorem locate_some {x : Nat} {f : Forest} (h : x ∈ f.keys) (anc : List Node) : ∃ z, locate x anc f = some z := by
  induction f generalizing anc with
  | nil => cases h
  | cons n k r ihk ihr =>
    simp only [locate]
    simp only [Forest.keys, Forest.nodes, List.map_cons, List.map_append, List.mem_cons, List.mem_append] at h
    split
    · exact ⟨_, rfl⟩
    next hn =>
      rcases h with h | h | h
      · exact absurd h.symm hn
      · obtain ⟨z, hz⟩ := ihk h (n :: anc)
        rw [hz]; exact ⟨z, rfl⟩
      · obtain ⟨z, hz⟩ := ihr h anc
        rw [hz]
        cases locate x (n :: anc) k <;> exact ⟨_, rfl⟩

theorem sameLook_of_moved {u y : Nat → Prop} {f g : Forest} (h : Moved u y f g) (hl : LinksIn u g) (hy : UsesIn y g) (hu : ∀ k, u k → k ∈ f.keys)
    (hyu : ∀ k, y k → u k) : SameLook f g := by
  have hstart : StyleIn u Ctx.start := by intro a v k hv; cases hv
  intro P π d
  have key : ∀ d, AgreeUse u y (scene π f d) (scene π g d) := by
    intro d
    induction d with
    | zero => exact ⟨fun _ _ => rfl, fun _ _ _ _ _ => rfl⟩
    | succ d ih =>
      refine ⟨fun k hk => ?_, fun k c via hk hc => ?_⟩
      · obtain ⟨⟨anc, n, ks⟩, hz⟩ := locate_some (hu k hk) []
        obtain ⟨anc', n', ks', hz', -, hs, hh, -⟩ := h.found k anc n ks hk hz
        simp only [scene]
        rw [← ih.hereOf hl hy hstart, hereOf_locate π _ k f (anc := []) rfl, hereOf_locate π _ k g (anc := []) rfl, hz, hz']
        simp only [Option.map_some, Option.getD_some, hs]
        exact hh P π _
      · obtain ⟨⟨anc, n, ks⟩, hz⟩ := locate_some (hu k (hyu k hk)) []
        obtain ⟨anc', n', ks', hz', -, hs, -, hi⟩ := h.found k anc n ks (hyu k hk) hz
        simp only [scene]
        rw [← ih.instOf hl hy hc, instOf_locate π _ via k f c [], instOf_locate π _ via k g c [], hz, hz']
        simp only [Option.map_some, Option.getD_some]
        exact hi hk P π _ via c
  unfold picture
  rw [← (key d).pics hl hy hstart]
  exact h.stack π _

end Verif.Render
