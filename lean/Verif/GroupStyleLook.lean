import Verif.GroupStyleProps
/-
Property C37: grouping by style keeps the picture, continued.
-/
namespace Verif.GroupStyle
open Verif.Dom Verif.Spec Verif.Render
open Verif.Stops (modValue getAttr_modValue)
open Verif.Needless (rmAll getAttr_rmAll get_rmAll rmAll_same)
open Verif.Ungroup (copyAttr linksIn_cons linksIn_append draw_group not_isRef enter_empty nodeTransform_none ctx_ext putAttr_names
  modValue_names linksIn_used isUsed_of_linksIn)
open Verif.ApplyTs (append isValidAttrs SameBut)
open Verif.Paths (Transform)

variable {P : Type} {π : Painter P}

/-- Non-SVG nodes are not referred to, and neither is what is in them. -/
def Plain (u : Nat → Bool) : Forest → Prop := Tops fun n k => n.isSvgElem = false → ∀ m ∈ n :: k.nodes, u m.key = false

/-- The children `f` in the context `c` have the same pictures as the children `g` in the context `c'`. -/
structure Same (u : Nat → Bool) (π : Painter P) (env : Env P) (c c' : Ctx) (f g : Forest) : Prop where
  stacked : stack π isElem (pics π env c f) = stack π isElem (pics π env c' g)
  here : ∀ x, u x = true → hereOf π env x c f = hereOf π env x c' g
  inst : ∀ via d x, u x = true → instOf π env via d x f = instOf π env via d x g

theorem Same.refl (u : Nat → Bool) (env : Env P) (c : Ctx) (f : Forest) : Same u π env c c f f := ⟨rfl, fun _ _ => rfl, fun _ _ _ _ => rfl⟩

theorem Same.trans {u : Nat → Bool} {env : Env P} {c c' c'' : Ctx} {f g h : Forest} (a : Same u π env c c' f g)
    (b : Same u π env c' c'' g h) : Same u π env c c'' f h :=
  ⟨a.stacked.trans b.stacked, fun x hx => (a.here x hx).trans (b.here x hx), fun v d x hx => (a.inst v d x hx).trans (b.inst v d x hx)⟩

theorem Same.append {u : Nat → Bool} {env : Env P} {c c' : Ctx} {f g f' g' : Forest} (a : Same u π env c c' f f')
    (b : Same u π env c c' g g') : Same u π env c c' (f ++ g) (f' ++ g') := by
  refine ⟨?_, fun x hx => ?_, fun v d x hx => ?_⟩
  · rw [pics_append, pics_append, stack_append, stack_append, a.stacked, b.stacked]
  · rw [hereOf_append, hereOf_append, a.here x hx, b.here x hx]
  · rw [instOf_append, instOf_append, a.inst v d x hx, b.inst v d x hx]

theorem isElem_of {n : Node} (h : n.isSvgElem = true) : isElem n.kind = true := h

theorem tops_mono {Q R : Node → Forest → Prop} (h : ∀ n k, Q n k → R n k) {f : Forest} (hf : Tops Q f) : Tops R f := by
  induction f with
  | nil => trivial
  | cons n k r _ ih => exact ⟨h n k hf.1, ih hf.2⟩

theorem tops_true {Q : Node → Forest → Prop} (h : ∀ n k, Q n k) (f : Forest) : Tops Q f := by
  induction f with
  | nil => trivial
  | cons n k r _ ih => exact ⟨h n k, ih⟩

theorem picE_plain (env : Env P) (c : Ctx) (f : Forest) : Tops (fun n k => n.isSvgElem = false → picE π env c n k = π.empty) f := by
  apply tops_true
  intro n k h
  unfold picE
  rw [if_neg]
  intro h'
  have : n.isSvgElem = true := h'
  rw [h] at this
  cases this

theorem ne_of_unused {u : Nat → Bool} {x y : Nat} (hx : u x = true) (hy : u y = false) : y ≠ x := by
  rintro rfl
  rw [hx] at hy
  cases hy

theorem hereE_plain {u : Nat → Bool} {f : Forest} (h : Plain u f) (env : Env P) (c : Ctx) {x : Nat} (hx : u x = true) :
    Tops (fun n k => n.isSvgElem = false → hereE π env x c n k = none) f := by
  refine tops_mono (fun n k hn hs => ?_) h
  have := hn hs
  unfold hereE
  rw [if_neg (ne_of_unused hx (this n (List.mem_cons_self ..))),
    here_none (fun m hm => ne_of_unused hx (this m (List.mem_cons_of_mem _ hm)))]

theorem instE_plain {u : Nat → Bool} {f : Forest} (h : Plain u f) (env : Env P) (via : Attrs P) (c : Ctx) {x : Nat} (hx : u x = true) :
    Tops (fun n k => n.isSvgElem = false → instE π env via c x n k = none) f := by
  refine tops_mono (fun n k hn hs => ?_) h
  have := hn hs
  unfold instE
  rw [if_neg (ne_of_unused hx (this n (List.mem_cons_self ..))),
    inst_none (fun m hm => ne_of_unused hx (this m (List.mem_cons_of_mem _ hm)))]

/-- A node that can be moved. -/
structure CanMove (u : Nat → Bool) (A : List Attr) (n : Node) : Prop where
  fit : NodeFit n
  unused : u n.key = false
  has : ∀ x ∈ A, x ∈ n.attrs

section
variable {u : Nat → Bool} {A : List Attr} {g0 g : Node} (hA : Movable A) (hg : setAll A g0 = some g)
include hA hg

theorem picE_hoist (hg0 : .transform ∈ ids A → takesTransform g0.kind = true ∧ ∀ v, g0.get .transform = some v → ∃ t, v = .transform t)
    (env : Env P) (c : Ctx) (n : Node) (k : Forest) (hn : CanMove u A n) (hs : n.isSvgElem = true) :
    picE π env (c.enter g) (rmAll n (ids A)) k = picE π env (c.enter g0) n k := by
  unfold picE
  rw [(rmAll_sameBut n (ids A)).kind, hoist_draw hA hn.fit hn.has hg hs hg0]

theorem hereE_hoist (env : Env P) (c : Ctx) {x : Nat} (hx : u x = true) (n : Node) (k : Forest) (hn : CanMove u A n) :
    hereE π env x (c.enter g) (rmAll n (ids A)) k = hereE π env x (c.enter g0) n k := by
  unfold hereE
  rw [(rmAll_sameBut n (ids A)).key, if_neg (ne_of_unused hx hn.unused), if_neg (ne_of_unused hx hn.unused)]
  exact hereOf_style env x (hoist_style hA hn.fit hn.has hg c)

omit hA hg in
theorem instE_hoist (env : Env P) (via : Attrs P) (c : Ctx) {x : Nat} (hx : u x = true) (n : Node) (k : Forest) (hn : CanMove u A n) :
    instE π env via c x (rmAll n (ids A)) k = instE π env via c x n k := by
  unfold instE
  rw [(rmAll_sameBut n (ids A)).key, if_neg (ne_of_unused hx hn.unused), if_neg (ne_of_unused hx hn.unused)]

/-- All children move to an element that takes the attributes. -/
theorem same_reuse (hg0 : .transform ∈ ids A → takesTransform g0.kind = true ∧ ∀ v, g0.get .transform = some v → ∃ t, v = .transform t)
    {t : Forest} (hp : Plain u t) (hn : ∀ n ∈ svgTop t, CanMove u A n) (env : Env P) (c : Ctx) :
    Same u π env (c.enter g0) (c.enter g) t (nonSvg t ++ pick (ids A) 0 ((svgTop t).length - 1) 0 t) := by
  have hr : InRange (CanMove u A) 0 ((svgTop t).length - 1) 0 t :=
    inRange_of (fun idx n hi _ _ => hn n (List.mem_of_getElem? hi))
  refine ⟨?_, fun x hx => ?_, fun via d x hx => ?_⟩
  · rw [stack_fold, stack_fold, fold_append π.empty_over π.over_assoc, fold_nonSvg π.empty_over (picE_plain env _ t), π.empty_over]
    exact fold_pick π.empty_over (fun n k => picE_hoist hA hg hg0 env c n k) (Nat.le_refl 0) (by omega) hr (picE_plain env _ t)
  · rw [here_fold, here_fold, fold_append (fun _ => by simp) (fun _ _ _ => Option.or_assoc),
      fold_nonSvg (fun _ => by simp) (hereE_plain hp env _ hx), Option.none_or]
    exact fold_pick (fun _ => by simp) (fun n k h _ => hereE_hoist hA hg env c hx n k h) (Nat.le_refl 0) (by omega) hr (hereE_plain hp env _ hx)
  · rw [inst_fold, inst_fold, fold_append (fun _ => by simp) (fun _ _ _ => Option.or_assoc),
      fold_nonSvg (fun _ => by simp) (instE_plain hp env via d hx), Option.none_or]
    exact fold_pick (fun _ => by simp) (fun n k h _ => instE_hoist env via d hx n k h) (Nat.le_refl 0) (by omega) hr
      (instE_plain hp env via d hx)

end

theorem enter_newG (c : Ctx) (p : Node) (k : Nat) : (c.enter p).enter (newG k) = c.enter p := by
  apply ctx_ext
  · funext a
    simp only [Ctx.enter]
    cases ha : inherits a with
    | false => rfl
    | true => rfl
  · show mul (c.enter p).ctm one = _
    rw [ApplyTs.mul_one'']

/-- A range of children moves to a new group. -/
theorem same_place {u : Nat → Bool} {A : List Attr} {fresh : Nat} {g : Node} (hA : Movable A) (hg : setAll A (newG fresh) = some g)
    (hu : u fresh = false) {t : Forest} (hp : Plain u t) {i j : Nat} (hij : i ≤ j) (hr : InRange (CanMove u A) i j 0 t)
    (env : Env P) (c0 : Ctx) (p : Node) {K : Forest}
    (hK : Same u π env ((c0.enter p).enter g) ((c0.enter p).enter g) (pick (ids A) i j 0 t) K) :
    Same u π env (c0.enter p) (c0.enter p) t (place g K i j 0 t) := by
  have hsb := setAll_same hg hA.ids
  have hg0 : AId.transform ∈ ids A → takesTransform (newG fresh).kind = true ∧ ∀ v, (newG fresh).get .transform = some v → ∃ t, v = .transform t :=
    fun _ => ⟨rfl, fun v hv => by cases hv⟩
  have hkey : g.key = fresh := hsb.key
  have hk : g.kind = .elem .g := hsb.kind
  have hhas : ∀ a, isFixed a = true → a ≠ .transform → g.has a = false := by
    intro a h1 h2
    rw [Node.has_eq, (keeps hA hsb).2 a h1 h2]
    rfl
  have e := enter_newG c0 p fresh
  refine ⟨?_, fun x hx => ?_, fun via d x hx => ?_⟩
  · have h1 := hK.stacked
    rw [stack_fold, stack_fold] at h1
    rw [stack_fold, stack_fold]
    refine fold_place (Q := CanMove u A) π.empty_over π.over_empty π.over_assoc (fun n k hn hs => ?_) hij (Nat.zero_le i) hr
      (picE_plain env _ t) h1.symm ?_
    · rw [picE_hoist hA hg hg0 env (c0.enter p) n k hn hs, e]
    · unfold picE
      rw [hk]
      show draw π env _ g _ = _
      rw [draw_group hk (hhas .mask (by decide) (by decide)) (hhas .clipPath (by decide) (by decide)) (hhas .filter (by decide) (by decide)),
        stack_fold]
      obtain ⟨k1, k2, k3⟩ := keeps_look hA hsb
      unfold Ungroup.through
      rw [k1, k2, k3]
      exact π.fade_one _
  · have h1 := hK.here x hx
    rw [here_fold, here_fold] at h1
    rw [here_fold, here_fold]
    refine fold_place (Q := CanMove u A) (fun _ => by simp) (fun _ => by simp) (fun _ _ _ => Option.or_assoc) (fun n k hn hs => ?_) hij
      (Nat.zero_le i) hr (hereE_plain hp env _ hx) h1.symm ?_
    · rw [hereE_hoist hA hg env (c0.enter p) hx n k hn, e]
    · unfold hereE
      rw [hkey, if_neg (ne_of_unused hx hu), here_fold]
      rfl
  · have h1 := hK.inst via d x hx
    rw [inst_fold, inst_fold] at h1
    rw [inst_fold, inst_fold]
    refine fold_place (Q := CanMove u A) (fun _ => by simp) (fun _ => by simp) (fun _ _ _ => Option.or_assoc) (fun n k hn hs => ?_) hij
      (Nat.zero_le i) hr (instE_plain hp env via d hx) h1.symm ?_
    · exact instE_hoist env via d hx n k hn
    · unfold instE
      rw [hkey, if_neg (ne_of_unused hx hu), inst_fold]
      rfl

/-! ### Rows -/

/-- The row says the truth about the nodes. -/
structure RowFor (u : Nat → Bool) (d : Row) (t : Forest) : Prop where
  movable : Movable d.attrs
  length : d.flags.length = (svgTop t).length
  nodes : ∀ (i : Nat) (n : Node), d.flags[i]? = some true → (svgTop t)[i]? = some n → CanMove u d.attrs n

theorem wrapRow_same {u : Nat → Bool} {d : Row} {t t' : Forest} {fresh fr : Nat} (h : wrapRow d t fresh = some (t', fr))
    (hd : RowFor u d t) (hp : Plain u t) (hu : u fresh = false) (env : Env P) (c : Ctx) (p : Node) :
    Same u π env (c.enter p) (c.enter p) t t' := by
  unfold wrapRow at h
  simp only [Option.bind_eq_some_iff, Option.map_eq_some_iff] at h
  obtain ⟨⟨i, j⟩, hl, g, hg, h⟩ := h
  cases h
  obtain ⟨hij, hfl⟩ := longestRange_spec hl
  exact same_place hd.movable hg hu hp hij (inRange_of (fun idx n hi h1 h2 => hd.nodes idx n (hfl idx (by omega) (by omega)) hi)) env c p
    (Same.refl _ _ _ _)

theorem wrapRow_fresh {d : Row} {t t' : Forest} {fresh fr : Nat} (h : wrapRow d t fresh = some (t', fr)) : fr = fresh + 1 := by
  unfold wrapRow at h
  simp only [Option.bind_eq_some_iff, Option.map_eq_some_iff] at h
  obtain ⟨⟨i, j⟩, hl, g, hg, h⟩ := h
  cases h
  rfl

/-! ### The nodes that were moved -/

theorem svgTop_cons (n : Node) (k r : Forest) : svgTop (.cons n k r) = if n.isSvgElem then n :: svgTop r else svgTop r := by
  simp [svgTop, Forest.top, List.filter_cons]

theorem isSvgElem_rmAll (n : Node) (l : List AId) : (rmAll n l).isSvgElem = n.isSvgElem := by
  unfold Node.isSvgElem
  rw [(rmAll_sameBut n l).kind]

theorem svgTop_pick (as : List AId) {i j m : Nat} {t : Forest} (hm : i ≤ m) (hj : m + (svgTop t).length ≤ j + 1) :
    svgTop (pick as i j m t) = (svgTop t).map (fun n => rmAll n as) := by
  induction t generalizing m with
  | nil => rfl
  | cons n k r _ ih =>
    rw [svgTop_cons] at hj ⊢
    unfold pick
    by_cases hs : n.isSvgElem = true
    · rw [if_pos hs] at hj ⊢
      rw [if_pos hs, if_pos ⟨hm, by simp only [List.length_cons] at hj; omega⟩, svgTop_cons, isSvgElem_rmAll, if_pos hs]
      rw [List.map_cons, ih (by omega) (by simp only [List.length_cons] at hj; omega)]
    · rw [if_neg hs] at hj ⊢
      rw [if_neg hs]
      exact ih hm hj

theorem pick_plain (u : Nat → Bool) (as : List AId) (i j m : Nat) (t : Forest) : Plain u (pick as i j m t) := by
  induction t generalizing m with
  | nil => trivial
  | cons n k r _ ih =>
    unfold pick
    split
    next hs =>
      split
      · refine ⟨fun h => ?_, ih _⟩
        rw [isSvgElem_rmAll, hs] at h
        cases h
      · exact ih _
    next => exact ih _

theorem rmAll_mem {n : Node} {l : List AId} (hn : (n.attrs.map (·.name)).Nodup) {x : Attr} :
    x ∈ (rmAll n l).attrs ↔ x ∈ n.attrs ∧ ∀ a ∈ l, x.name ≠ .id a := by
  unfold rmAll
  induction l generalizing n with
  | nil => simp
  | cons a l ih =>
    simp only [List.foldl_cons]
    have hsub : ((n.rm a).attrs.map (·.name)).Nodup := List.Nodup.sublist (List.Sublist.map _ List.filter_sublist) hn
    rw [ih hsub]
    have : x ∈ (n.rm a).attrs ↔ x ∈ n.attrs ∧ x.name ≠ .id a := by
      show x ∈ n.attrs.filter _ ↔ _
      rw [List.mem_filter]
      simp
    rw [this]
    simp only [List.forall_mem_cons, and_assoc]

theorem rmAll_names {n : Node} (l : List AId) (hn : (n.attrs.map (·.name)).Nodup) : ((rmAll n l).attrs.map (·.name)).Nodup := by
  unfold rmAll
  induction l generalizing n with
  | nil => exact hn
  | cons a l ih =>
    simp only [List.foldl_cons]
    exact ih (List.Nodup.sublist (List.Sublist.map _ List.filter_sublist) hn)

theorem rmAll_fit {n : Node} (l : List AId) (h : NodeFit n) : NodeFit (rmAll n l) := by
  refine ⟨rmAll_names l h.names, fun hs ht => ?_, fun v hv => ?_, fun x hx => ?_⟩
  · rw [(rmAll_sameBut n l).kind]
    rw [isSvgElem_rmAll] at hs
    refine h.takes hs ?_
    rw [Node.has_eq, get_rmAll] at ht
    rw [Node.has_eq]
    split at ht
    · cases ht
    · exact ht
  · rw [get_rmAll] at hv
    split at hv
    · cases hv
    · exact h.typed v hv
  · exact h.inherit x ((rmAll_mem h.names).1 hx).1

/-! ### The table -/

theorem row_movable {anc nodes : List Node} {t : List Row} (h : TableOk anc nodes t) {d : Row} (hd : d ∈ t) : Movable d.attrs := by
  refine ⟨fun x hx => ?_, ?_⟩
  · obtain ⟨n, _, hw⟩ := (h.rows d hd).wanted x hx
    obtain ⟨a, ha, hc⟩ := wants_spec hw
    refine ⟨a, ha, ?_⟩
    rcases hc with ⟨h, _⟩ | ⟨_, h⟩
    · exact .inl h
    · exact .inr h
  · obtain ⟨l1, l2, rfl⟩ := List.append_of_mem hd
    have := h.nodup
    rw [List.flatMap_append, List.flatMap_cons] at this
    exact (List.nodup_append.1 (List.nodup_append.1 this).2.1).1

theorem row_for {u : Nat → Bool} {anc : List Node} {rows : List Row} {t : Forest} (h : TableOk anc (svgTop t) rows)
    (hf : ∀ n ∈ svgTop t, NodeFit n ∧ u n.key = false) {d : Row} (hd : d ∈ rows) : RowFor u d t :=
  ⟨row_movable h hd, (h.rows d hd).length, fun i n hi hn =>
    ⟨(hf n (List.mem_of_getElem? hn)).1, (hf n (List.mem_of_getElem? hn)).2, (h.rows d hd).sound i n hi hn⟩⟩

/-- The second row, after the nodes have lost the attributes of the first one. -/
theorem row_next {u : Nat → Bool} {anc : List Node} {d : Row} {ds : List Row} {t : Forest} (h : TableOk anc (svgTop t) (d :: ds))
    (hf : ∀ n ∈ svgTop t, NodeFit n ∧ u n.key = false) (hall : ∀ n ∈ svgTop t, ∀ x ∈ d.attrs, x ∈ n.attrs) {e : Row} (he : e ∈ ds)
    (hne : 0 < (svgTop t).length) :
    RowFor u e (pick (ids d.attrs) 0 ((svgTop t).length - 1) 0 t) := by
  have hr := row_for (u := u) h hf (List.mem_cons_of_mem d he)
  have e0 := svgTop_pick (ids d.attrs) (i := 0) (j := (svgTop t).length - 1) (m := 0) (t := t) (Nat.le_refl 0) (by omega)
  refine ⟨hr.movable, by rw [e0, List.length_map]; exact hr.length, fun i n hi hn => ?_⟩
  rw [e0, List.getElem?_map] at hn
  simp only [Option.map_eq_some_iff] at hn
  obtain ⟨n0, hn0, rfl⟩ := hn
  have hc := hr.nodes i n0 hi hn0
  refine ⟨rmAll_fit _ hc.fit, by rw [(rmAll_sameBut n0 _).key]; exact hc.unused, fun x hx => ?_⟩
  rw [rmAll_mem hc.fit.names]
  refine ⟨hc.has x hx, fun a ha e1 => ?_⟩
  obtain ⟨y, hy, e2⟩ := mem_ids.1 ha
  have h1 := GradUnits.getAttr_of_mem hc.fit.names (hc.has x hx)
  have h2 := GradUnits.getAttr_of_mem hc.fit.names (hall n0 (List.mem_of_getElem? hn0) y hy)
  rw [e1] at h1
  rw [e2, h1] at h2
  have hxy : x = y := Option.some.inj h2
  have hnd := h.nodup
  rw [List.flatMap_cons, List.nodup_append] at hnd
  exact hnd.2.2 y hy x (List.mem_flatMap.2 ⟨e, he, hx⟩) hxy.symm

theorem wrapFirst_same {u : Nat → Bool} {rows : List Row} {t t' : Forest} {fresh fr : Nat} (h : wrapFirst rows t fresh = some (t', fr))
    (hd : ∀ d ∈ rows, RowFor u d t) (hp : Plain u t) (hu : u fresh = false) (env : Env P) (c : Ctx) (p : Node) :
    Same u π env (c.enter p) (c.enter p) t t' := by
  unfold wrapFirst at h
  split at h
  · cases h; exact Same.refl _ _ _ _
  · exact wrapRow_same h (hd _ (List.mem_cons_self ..)) hp hu env c p

theorem wrapFirst_fresh {rows : List Row} {t t' : Forest} {fresh fr : Nat} (h : wrapFirst rows t fresh = some (t', fr)) : fresh ≤ fr := by
  unfold wrapFirst at h
  split at h
  · cases h; exact Nat.le_refl _
  · rw [wrapRow_fresh h]; omega

/-! ### References -/

theorem mem_top_nodes {f : Forest} {n : Node} (h : n ∈ f.top) : n ∈ f.nodes := by
  induction f with
  | nil => cases h
  | cons m k r _ ih =>
    simp only [Forest.top, List.mem_cons] at h
    simp only [Forest.nodes, List.mem_cons, List.mem_append]
    rcases h with rfl | h
    · exact .inl rfl
    · exact .inr (.inr (ih h))

theorem links_rmAll {n : Node} {l : List AId} {k : Nat} (h : k ∈ (rmAll n l).links) : k ∈ n.links := by
  unfold rmAll at h
  induction l generalizing n with
  | nil => exact h
  | cons a l ih => exact Node.links_rm_subset _ _ (ih h)

theorem pick_links {v : Nat → Prop} {as : List AId} {i j m : Nat} {t : Forest} (h : LinksIn v t) : LinksIn v (pick as i j m t) := by
  induction t generalizing m with
  | nil => exact h
  | cons n k r _ ih =>
    rw [linksIn_cons] at h
    unfold pick
    split
    · split
      · rw [linksIn_cons]
        exact ⟨fun x hx => h.1 x (links_rmAll hx), h.2.1, ih h.2.2⟩
      · exact ih h.2.2
    · exact ih h.2.2

theorem nonSvg_links {v : Nat → Prop} {t : Forest} (h : LinksIn v t) : LinksIn v (nonSvg t) := by
  induction t with
  | nil => exact h
  | cons n k r _ ih =>
    rw [linksIn_cons] at h
    unfold nonSvg
    split
    · exact ih h.2.2
    · rw [linksIn_cons]
      exact ⟨h.1, h.2.1, ih h.2.2⟩

theorem place_links {v : Nat → Prop} {g : Node} {K : Forest} {i j m : Nat} {t : Forest} (h : LinksIn v t) (hg : ∀ x ∈ g.links, v x)
    (hK : LinksIn v K) : LinksIn v (place g K i j m t) := by
  induction t generalizing m with
  | nil => exact h
  | cons n k r _ ih =>
    rw [linksIn_cons] at h
    unfold place
    split
    · split
      · rw [linksIn_cons]
        exact ⟨hg, hK, ih h.2.2⟩
      · split
        · exact ih h.2.2
        · rw [linksIn_cons]
          exact ⟨h.1, h.2.1, ih h.2.2⟩
    · rw [linksIn_cons]
      exact ⟨h.1, h.2.1, ih h.2.2⟩

theorem modValue_links {n : Node} {a : AId} {f : Value → Value} (hf : ∀ w, (f w).target = w.target) {k : Nat}
    (h : k ∈ (modValue n a f).links) : k ∈ n.links := by
  rw [Node.mem_links] at *
  obtain ⟨x, hx, hk⟩ := h
  obtain ⟨y, hy, rfl⟩ := List.mem_map.1 hx
  refine ⟨y, hy, ?_⟩
  split at hk
  · simp only [hf] at hk; exact hk
  · exact hk

theorem setOn_links {g g' : Node} {x : Attr} (h : setOn g x = some g') {k : Nat} (hk : k ∈ g'.links) :
    k ∈ g.links ∨ x.value.target = some k := by
  unfold setOn at h
  split at h
  · cases h
    unfold appendValue at hk
    split at hk
    · exact .inl (modValue_links (fun w => by cases w <;> rfl) hk)
    · exact .inl hk
  · unfold copyAttr at h
    split at h
    · cases h
    · cases h
      rw [Node.mem_links] at hk
      obtain ⟨y, hy, hk⟩ := hk
      rcases Node.mem_putAttr hy with rfl | hy
      · exact .inr hk
      · exact .inl (Node.mem_links.2 ⟨y, hy, hk⟩)

theorem setAll_links {A : List Attr} {g g' : Node} (h : setAll A g = some g') {k : Nat} (hk : k ∈ g'.links) :
    k ∈ g.links ∨ ∃ x ∈ A, x.value.target = some k := by
  induction A generalizing g with
  | nil => cases h; exact .inl hk
  | cons x t ih =>
    simp only [setAll, Option.bind_eq_some_iff] at h
    obtain ⟨g1, h1, h2⟩ := h
    rcases ih h2 with h | ⟨y, hy, e⟩
    · rcases setOn_links h1 h with h | h
      · exact .inl h
      · exact .inr ⟨x, List.mem_cons_self .., h⟩
    · exact .inr ⟨y, List.mem_cons_of_mem _ hy, e⟩

/-- The attributes of a row come from the nodes. -/
theorem attrs_links {v : Nat → Prop} {A : List Attr} {t : Forest} (h : LinksIn v t) {n : Node} (hn : n ∈ svgTop t) (hs : ∀ x ∈ A, x ∈ n.attrs) :
    ∀ x ∈ A, ∀ k, x.value.target = some k → v k := fun x hx k hk =>
  h n (mem_top_nodes (List.mem_filter.1 hn).1) k (Node.mem_links.2 ⟨x, hs x hx, hk⟩)

theorem wrapRow_links {u : Nat → Bool} {v : Nat → Prop} {d : Row} {t t' : Forest} {fresh fr : Nat} (h : wrapRow d t fresh = some (t', fr))
    (hd : RowFor u d t) (hl : LinksIn v t) : LinksIn v t' := by
  unfold wrapRow at h
  simp only [Option.bind_eq_some_iff, Option.map_eq_some_iff] at h
  obtain ⟨⟨i, j⟩, hr, g, hg, h⟩ := h
  cases h
  obtain ⟨hij, hfl⟩ := longestRange_spec hr
  have hi := hfl i (Nat.le_refl i) hij
  have hlt : i < (svgTop t).length := by
    rw [← hd.length]
    rw [List.getElem?_eq_some_iff] at hi
    exact hi.1
  have hn := hd.nodes i _ hi (List.getElem?_eq_getElem hlt)
  refine place_links hl (fun x hx => ?_) (pick_links hl)
  rcases setAll_links hg hx with h | ⟨y, hy, e⟩
  · cases h
  · exact attrs_links hl (List.getElem_mem hlt) hn.has y hy x e

theorem wrapFirst_links {u : Nat → Bool} {v : Nat → Prop} {rows : List Row} {t t' : Forest} {fresh fr : Nat}
    (h : wrapFirst rows t fresh = some (t', fr)) (hd : ∀ d ∈ rows, RowFor u d t) (hl : LinksIn v t) : LinksIn v t' := by
  unfold wrapFirst at h
  split at h
  · cases h; exact hl
  · exact wrapRow_links h (hd _ (List.mem_cons_self ..)) hl

/-! ### The list of children -/

theorem splitTail_spec (used : Nat → Bool) (f : Forest) : f = (splitTail used f).1 ++ (splitTail used f).2 ∧
    ∀ n ∈ svgTop (splitTail used f).2, used n.key = false := by
  induction f with
  | nil => exact ⟨rfl, fun n hn => by cases hn⟩
  | cons n k r _ ih =>
    unfold splitTail
    revert ih
    generalize splitTail used r = x
    obtain ⟨b, t⟩ := x
    intro ih
    simp only at ih ⊢
    split
    · exact ⟨congrArg (Forest.cons n k) ih.1, ih.2⟩
    next hb =>
      have hb' : b = .nil := by
        cases b with
        | nil => rfl
        | cons _ _ _ => simp [Forest.isEmpty] at hb
      subst hb'
      split
      · exact ⟨congrArg (Forest.cons n k) ih.1, ih.2⟩
      next hc =>
        refine ⟨congrArg (Forest.cons n k) ih.1, fun m hm => ?_⟩
        rw [svgTop_cons] at hm
        split at hm
        next hs =>
          rcases List.mem_cons.1 hm with rfl | hm
          · rw [hs] at hc
            simp only [Bool.true_and, Bool.or_eq_true, not_or, Bool.not_eq_true] at hc
            exact hc.2
          · exact ih.2 m hm
        next => exact ih.2 m hm

theorem tops_append {Q : Node → Forest → Prop} {f g : Forest} : Tops Q (f ++ g) ↔ Tops Q f ∧ Tops Q g := by
  induction f with
  | nil => exact ⟨fun h => ⟨trivial, h⟩, fun h => h.2⟩
  | cons n k r _ ih =>
    show Q n k ∧ Tops Q (r ++ g) ↔ _
    rw [ih]
    exact ⟨fun h => ⟨⟨h.1, h.2.1⟩, h.2.2⟩, fun h => ⟨h.1.1, h.1.2, h.2⟩⟩

theorem svgTop_append (f g : Forest) : svgTop (f ++ g) = svgTop f ++ svgTop g := by
  induction f with
  | nil => rfl
  | cons n k r _ ih =>
    show svgTop (.cons n k (r ++ g)) = _
    rw [svgTop_cons, svgTop_cons, ih]
    split <;> rfl

theorem linksIn_append_iff {v : Nat → Prop} {f g : Forest} : LinksIn v (f ++ g) ↔ LinksIn v f ∧ LinksIn v g := by
  induction f with
  | nil => exact ⟨fun h => ⟨fun n hn => (by cases hn), h⟩, fun h => h.2⟩
  | cons n k r _ ih =>
    show LinksIn v (.cons n k (r ++ g)) ↔ _
    rw [linksIn_cons, linksIn_cons, ih]
    exact ⟨fun h => ⟨⟨h.1, h.2.1, h.2.2.1⟩, h.2.2.2⟩, fun h => ⟨h.1.1, h.1.2.1, h.1.2.2, h.2⟩⟩

/-! ### One element -/

/-- An `svg` element that does not take the transform of its children: one of them is there that has none. -/
def Anchored (k : Forest) : Prop :=
  ∃ c ∈ k.top, c.isSvgElem = true ∧ c.kind ≠ .elem .g ∧ c.kind ≠ .elem .svg ∧ c.has .transform = false

/-- The children of an element, when it is looked at. -/
structure KidsFit (u : Nat → Bool) (k : Forest) : Prop where
  plain : Plain u k
  fit : ∀ n ∈ svgTop k, NodeFit n

/-- The pictures of an element whose attributes have been added to. -/
theorem body_reuse {u : Nat → Bool} {A : List Attr} {p p' : Node} {anc : List Node} {k k' : Forest} (hA : Movable A)
    (hp : p.kind = .elem .g ∨ p.kind = .elem .svg) (hsb : SameBut (ids A) p p')
    (ht : AId.transform ∈ ids A → p.kind = .elem .g ∧ isValidAttrs (p :: anc) = true)
    (hs : ∀ {P : Type} (π : Painter P) env (c : Ctx), Same u π env (c.enter p) (c.enter p') k k')
    {P : Type} (π : Painter P) (env : Env P) (via : Attrs P) (c : Ctx) :
    body π env via c p (pics π env (c.enter p) k) = body π env via c p' (pics π env (c.enter p') k') := by
  obtain ⟨k1, k2, k3⟩ := keeps_look hA hsb
  obtain ⟨o1, o2⟩ := keeps hA hsb
  have hown : own env p' = own env p := by
    funext x
    unfold own
    split
    next hx => rw [o1 x hx]
    next => rfl
  have hseen : ∀ a, isFixed a = true → a ≠ .transform → seenAttr env p' a = seenAttr env p a := fun a h1 h2 => by
    unfold seenAttr; rw [o2 a h1 h2]
  have hctm : AId.transform ∉ ids A → (c.enter p').ctm = (c.enter p).ctm := by
    intro h
    simp only [Ctx.enter, hsb.kind]
    have : nodeTransform p' = nodeTransform p := by unfold nodeTransform; rw [hsb.get h]
    rw [this]
  have hst := (hs π env c).stacked
  have hcore : ∀ e, p.kind = .elem e → core π env via (c.enter p') p' e (pics π env (c.enter p') k') =
      core π env via (c.enter p) p e (pics π env (c.enter p) k) := by
    intro e he
    rcases hp with hp | hp
    · rw [hp] at he
      cases he
      exact hst.symm
    · rw [hp] at he
      cases he
      have hno : AId.transform ∉ ids A := fun h => by
        have := (ht h).1
        rw [hp] at this
        cases this
      show π.frame .svg (own env p') via (c.enter p').ctm (stack π isElem _) = π.frame .svg (own env p) via (c.enter p).ctm (stack π isElem _)
      rw [hown, hctm hno, hst]
  have hinner : ∀ e, p.kind = .elem e → inner π env via c p' e (pics π env (c.enter p') k') =
      inner π env via c p e (pics π env (c.enter p) k) := by
    intro e he
    unfold inner
    rw [hcore e he, hseen .mask (by decide) (by decide), hseen .clipPath (by decide) (by decide), hseen .filter (by decide) (by decide)]
    by_cases hm : AId.transform ∈ ids A
    · have hno := ApplyTs.noOwnLinks_of (ht hm).2
      have href : ∀ a ∈ [AId.filter, .mask, .clipPath], Seen.isRef (seenAttr env p a) = false := by
        intro a ha
        have hx : ∀ kk, p.get a ≠ some (.funcLink kk) := hno a (by
          simp only [List.mem_cons, List.not_mem_nil, or_false] at ha
          rcases ha with rfl | rfl | rfl <;> decide)
        unfold seenAttr
        cases hget : p.get a with
        | none => rfl
        | some v =>
          cases v with
          | funcLink kk => exact absurd hget (hx kk)
          | _ => rfl
      rw [π.no_effect _ _ _ _ _ (href .mask (by decide)) (href .clipPath (by decide)) (href .filter (by decide)),
        π.no_effect _ _ _ _ _ (href .mask (by decide)) (href .clipPath (by decide)) (href .filter (by decide))]
    · rw [hctm hm]
  have : ∃ e, p.kind = .elem e := by
    rcases hp with h | h
    · exact ⟨_, h⟩
    · exact ⟨_, h⟩
  obtain ⟨e, he⟩ := this
  rw [body_elem he, body_elem (hsb.kind.trans he), k1, k2, k3, hinner e he]

/-- What is kept of an element. -/
structure Done (u : Nat → Bool) (p : Node) (k : Forest) (fresh : Nat) (p' : Node) (k' : Forest) (fr : Nat) : Prop where
  like : NodeLike (fun x => u x = true) p k p' k'
  fresh : fresh ≤ fr
  links : ∀ {v : Nat → Prop}, (∀ x ∈ p.links, v x) → LinksIn v k → (∀ x ∈ p'.links, v x) ∧ LinksIn v k'
  fit : NodeFit p'
  other : p.kind ≠ .elem .g → p.kind ≠ .elem .svg → p' = p

theorem nodeLike_same {u : Nat → Bool} {A : List Attr} {p p' : Node} {anc : List Node} {k k' : Forest} (hA : Movable A)
    (hp : p.kind = .elem .g ∨ p.kind = .elem .svg) (hsb : SameBut (ids A) p p')
    (ht : AId.transform ∈ ids A → p.kind = .elem .g ∧ isValidAttrs (p :: anc) = true)
    (hs : ∀ {P : Type} (π : Painter P) env (c : Ctx), Same u π env (c.enter p) (c.enter p') k k') :
    NodeLike (fun x => u x = true) p k p' k' :=
  ⟨hsb.key, hsb.kind, (keeps_look hA hsb).2.2, fun π e c => body_reuse hA hp hsb ht hs π e noVia c,
    fun π e via c _ => body_reuse hA hp hsb ht hs π e via c, fun π e via c x hx => (hs π e c).inst via c x hx,
    fun π e c x hx => (hs π e c).here x hx⟩

theorem Movable.nil : Movable [] := ⟨fun x hx => (by cases hx), List.nodup_nil⟩

theorem setAll_fit {A : List Attr} {p p' n : Node} (hA : Movable A) (h : setAll A p = some p') (hp : NodeFit p) (hn : NodeFit n)
    (hs : ∀ x ∈ A, x ∈ n.attrs) (ht : AId.transform ∈ ids A → p.kind = .elem .g) : NodeFit p' := by
  have hsb := setAll_same h hA.ids
  have hnd := names_of_sub hA.nodup hn.names hs
  have hval : ∀ x ∈ p'.attrs, ∀ a, x.name = .id a → inherits a = true → x.value ≠ .kw .inherit := by
    have : ∀ (B : List Attr) (q q' : Node), setAll B q = some q' → (∀ x ∈ B, x ∈ n.attrs) →
        (∀ x ∈ q.attrs, ∀ a, x.name = .id a → inherits a = true → x.value ≠ .kw .inherit) →
        ∀ x ∈ q'.attrs, ∀ a, x.name = .id a → inherits a = true → x.value ≠ .kw .inherit := by
      intro B
      induction B with
      | nil => intro q q' hq _ hh; cases hq; exact hh
      | cons y B ih =>
        intro q q' hq hb hh
        simp only [setAll, Option.bind_eq_some_iff] at hq
        obtain ⟨q1, h1, h2⟩ := hq
        refine ih q1 q' h2 (fun x hx => hb x (List.mem_cons_of_mem _ hx)) ?_
        intro x hx a ha hi
        unfold setOn at h1
        split at h1
        · cases h1
          unfold appendValue at hx
          split at hx
          · obtain ⟨z, hz, rfl⟩ := List.mem_map.1 hx
            by_cases hzn : z.name = .id .transform
            · rw [if_pos hzn] at ha
              simp only [hzn] at ha
              cases ha
              cases hi
            · rw [if_neg hzn] at ha ⊢
              exact hh z hz a ha hi
          · exact hh x hx a ha hi
        · unfold copyAttr at h1
          split at h1
          · cases h1
          · cases h1
            rcases Node.mem_putAttr hx with rfl | hx
            · exact hn.inherit x (hb x (List.mem_cons_self ..)) a ha hi
            · exact hh x hx a ha hi
    exact this A p p' h hs hp.inherit
  have hnames : (p'.attrs.map (·.name)).Nodup := by
    have : ∀ (B : List Attr) (q q' : Node), setAll B q = some q' → (q.attrs.map (·.name)).Nodup → (q'.attrs.map (·.name)).Nodup := by
      intro B
      induction B with
      | nil => intro q q' hq hh; cases hq; exact hh
      | cons y B ih =>
        intro q q' hq hh
        simp only [setAll, Option.bind_eq_some_iff] at hq
        obtain ⟨q1, h1, h2⟩ := hq
        refine ih q1 q' h2 ?_
        unfold setOn at h1
        split at h1
        · cases h1
          unfold appendValue
          split
          · rw [modValue_names]; exact hh
          · exact hh
        · unfold copyAttr at h1
          split at h1
          · cases h1
          · cases h1
            exact putAttr_names _ _ hh
    exact this A p p' h hp.names
  refine ⟨hnames, fun _ hh => ?_, fun v hv => ?_, hval⟩
  · by_cases hm : AId.transform ∈ ids A
    · left
      rw [hsb.kind, ht hm]
      rfl
    · rw [hsb.kind]
      rw [Node.has_eq, hsb.get hm, ← Node.has_eq] at hh
      exact hp.takes (by rename_i hs'; unfold Node.isSvgElem at hs' ⊢; rw [← hsb.kind]; exact hs') hh
  · by_cases hm : AId.transform ∈ ids A
    · obtain ⟨x, hx, e⟩ := mem_ids.1 hm
      have e2 : n.get .transform = some x.value := by
        unfold Node.get; rw [← e, GradUnits.getAttr_of_mem hn.names (hs x hx)]; rfl
      obtain ⟨t, ht'⟩ := hn.typed _ e2
      rw [setAll_transform h hA.ids hnd hx e ht' hp.typed] at hv
      exact ⟨_, (Option.some.inj hv).symm⟩
    · rw [hsb.get hm] at hv
      exact hp.typed v hv

theorem regroup_done {u : Nat → Bool} {anc : List Node} {p p' : Node} {k k' : Forest} {fresh fr : Nat}
    (h : regroup u anc p k fresh = some (p', k', fr)) (hk : KidsFit u k) (hp : NodeFit p) (hsvg : p.kind = .elem .svg → Anchored k)
    (hu : ∀ x, fresh ≤ x → u x = false) : Done u p k fresh p' k' fr := by
  have triv : ∀ {p' k' fr}, some (p, k, fresh) = some (p', k', fr) → Done u p k fresh p' k' fr := by
    intro p' k' fr e
    cases e
    exact ⟨NodeLike.refl _ _ _, Nat.le_refl _, fun h1 h2 => ⟨h1, h2⟩, hp, fun _ _ => rfl⟩
  unfold regroup at h
  split at h
  · exact triv h
  next htag =>
    have hpk : p.kind = .elem .g ∨ p.kind = .elem .svg := by
      simp only [Bool.and_eq_true, Bool.not_eq_true', not_and, Bool.not_eq_false] at htag
      by_cases hs : p.isTag .svg = true
      · exact .inr ((Node.isTag_iff _ _).1 hs)
      · exact .inl ((Node.isTag_iff _ _).1 (htag (by simpa using hs)))
    have hother : ∀ q : Node, p.kind ≠ .elem .g → p.kind ≠ .elem .svg → q = p := by
      intro q h1 h2
      rcases hpk with h | h
      · exact absurd h h1
      · exact absurd h h2
    obtain ⟨e0, hun⟩ := splitTail_spec u k
    revert h e0 hun
    generalize (splitTail u k).1 = b
    generalize (splitTail u k).2 = t
    intro h e0 hun
    dsimp only at h
    split at h
    · exact triv h
    next hlen =>
      have hpl : Plain u t := by
        have := hk.plain
        rw [e0] at this
        exact (tops_append.1 this).2
      have hfit : ∀ n ∈ svgTop t, NodeFit n ∧ u n.key = false := by
        intro n hn
        refine ⟨hk.fit n ?_, hun n hn⟩
        rw [e0, svgTop_append]
        exact List.mem_append_right _ hn
      have htab := table_ok (p :: anc) (svgTop t)
      have hfr := hu fresh (Nat.le_refl _)
      have hpos : 0 < (svgTop t).length := by omega
      obtain ⟨n0, hn0⟩ : ∃ n, n ∈ svgTop t := ⟨_, List.getElem_mem hpos⟩
      split at h
      · exact triv h
      next d ds htd =>
        rw [htd] at htab
        have hrow := row_for (u := u) htab hfit (List.mem_cons_self ..)
        have hA := hrow.movable
        split at h
        next hcount =>
          have hall : ∀ n ∈ svgTop t, CanMove u d.attrs n := by
            intro n hn
            obtain ⟨i, hi, e⟩ := List.getElem_of_mem hn
            have hi' : (svgTop t)[i]? = some n := by rw [List.getElem?_eq_getElem hi, e]
            exact hrow.nodes i n (all_true (by rw [hcount, hrow.length]) i (by rw [hrow.length]; exact hi)) hi'
          have hnext : ∀ e ∈ ds, RowFor u e (pick (ids d.attrs) 0 ((svgTop t).length - 1) 0 t) := fun e he =>
            row_next htab hfit (fun n hn => (hall n hn).has) he hpos
          have hppl := pick_plain u (ids d.attrs) 0 ((svgTop t).length - 1) 0 t
          split at h
          next hb =>
            have hb' : b = .nil := by
              cases b with
              | nil => rfl
              | cons _ _ _ => simp [Forest.isEmpty] at hb
            subst hb'
            have e0' : k = t := e0
            subst e0'
            simp only [Option.bind_eq_some_iff, Option.map_eq_some_iff] at h
            obtain ⟨p1, hp1, ⟨x1, x2⟩, hx, h⟩ := h
            cases h
            have hsb := setAll_same hp1 hA.ids
            have ht : AId.transform ∈ ids d.attrs → p.kind = .elem .g ∧ isValidAttrs (p :: anc) = true := by
              intro hm
              obtain ⟨x, hx, e⟩ := mem_ids.1 hm
              constructor
              · rcases hpk with h | h
                · exact h
                · exfalso
                  obtain ⟨c, hc, hcs, _, _, hct⟩ := hsvg h
                  have hcm : c ∈ svgTop k := List.mem_filter.2 ⟨hc, hcs⟩
                  have := hall c hcm
                  rw [Node.has_eq] at hct
                  unfold Node.get at hct
                  rw [← e, GradUnits.getAttr_of_mem this.fit.names (this.has x hx)] at hct
                  cases hct
              · obtain ⟨n, _, hw⟩ := (htab.rows d (List.mem_cons_self ..)).wanted x hx
                obtain ⟨a, ha, hc⟩ := wants_spec hw
                rw [e] at ha
                cases ha
                rcases hc with ⟨_, h⟩ | ⟨h, _⟩
                · exact h
                · exact absurd rfl h
            have hg0 : AId.transform ∈ ids d.attrs → takesTransform p.kind = true ∧ ∀ v, p.get .transform = some v → ∃ t, v = .transform t :=
              fun hm => ⟨by rw [(ht hm).1]; rfl, hp.typed⟩
            refine ⟨nodeLike_same hA hpk hsb ht (fun π env c => ?_), wrapFirst_fresh hx, fun {v} hv1 hv2 => ⟨fun y hy => ?_, ?_⟩,
              setAll_fit hA hp1 hp (hall n0 hn0).fit (hall n0 hn0).has (fun hm => (ht hm).1), hother _⟩
            · exact (same_reuse hA hp1 hg0 hpl hall env c).trans
                (Same.append (Same.refl _ _ _ _) (wrapFirst_same hx hnext hppl hfr env c _))
            · rcases setAll_links hp1 hy with h | ⟨z, hz, e⟩
              · exact hv1 y h
              · exact attrs_links hv2 hn0 (hall n0 hn0).has z hz y e
            · exact linksIn_append (nonSvg_links hv2) (wrapFirst_links hx hnext (pick_links hv2))
          next hb =>
            simp only [Option.bind_eq_some_iff, Option.map_eq_some_iff] at h
            obtain ⟨g, hg, ⟨x1, x2⟩, hx, h⟩ := h
            cases h
            have hin : InRange (CanMove u d.attrs) 0 ((svgTop t).length - 1) 0 t :=
              inRange_of (fun idx n hi _ _ => hall n (List.mem_of_getElem? hi))
            refine ⟨nodeLike_same Movable.nil hpk (SameBut.refl _ _) (fun hm => by cases hm) (anc := anc) (fun π env c => ?_),
              Nat.le_trans (Nat.le_succ _) (wrapFirst_fresh hx), fun {v} hv1 hv2 => ⟨hv1, ?_⟩, hp, hother _⟩
            · conv => arg 6; rw [e0]
              refine Same.append (Same.refl _ _ _ _) (same_place hA hg hfr hpl (by omega) hin env c p ?_)
              exact wrapFirst_same hx hnext hppl (hu _ (Nat.le_succ _)) env (c.enter p) g
            · rw [e0, linksIn_append_iff] at hv2
              refine linksIn_append hv2.1 (place_links hv2.2 (fun y hy => ?_) (wrapFirst_links hx hnext (pick_links hv2.2)))
              rcases setAll_links hg hy with h | ⟨z, hz, e⟩
              · cases h
              · exact attrs_links hv2.2 hn0 (hall n0 hn0).has z hz y e
        next hcount =>
          simp only [Option.map_eq_some_iff] at h
          obtain ⟨⟨x1, x2⟩, hx, h⟩ := h
          cases h
          refine ⟨nodeLike_same Movable.nil hpk (SameBut.refl _ _) (fun hm => by cases hm) (anc := anc) (fun π env c => ?_),
            by rw [wrapRow_fresh hx]; omega, fun {v} hv1 hv2 => ⟨hv1, ?_⟩, hp, hother _⟩
          · conv => arg 6; rw [e0]
            exact Same.append (Same.refl _ _ _ _) (wrapRow_same hx hrow hpl hfr env c p)
          · rw [e0, linksIn_append_iff] at hv2
            exact linksIn_append hv2.1 (wrapRow_links hx hrow hv2.2)

/-! ### All elements -/

/-- What is required of an element and its children. -/
structure SubFit (u : Nat → Bool) (x : Node × Forest) : Prop where
  plain : x.1.isSvgElem = false → ∀ m ∈ x.1 :: x.2.nodes, u m.key = false
  fit : x.1.isSvgElem = true → NodeFit x.1
  svg : x.1.kind = .elem .svg → Anchored x.2

/-- What is kept of siblings. -/
structure AllDone (u : Nat → Bool) (f : Forest) (fresh : Nat) (g : Forest) (fr : Nat) : Prop where
  like : Like (fun x => u x = true) f g
  fresh : fresh ≤ fr
  links : ∀ {v : Nat → Prop}, LinksIn v f → LinksIn v g
  kids : KidsFit u g
  other : ∀ n ∈ f.top, n.kind ≠ .elem .g → n.kind ≠ .elem .svg → n ∈ g.top

theorem AllDone.cons {u : Nat → Bool} {n n' : Node} {k k' r r' : Forest} {a b c : Nat} (h1 : Done u n k a n' k' b)
    (h2 : AllDone u r b r' c) (hs : n.isSvgElem = true) : AllDone u (.cons n k r) a (.cons n' k' r') c := by
  have hs' : n'.isSvgElem = true := by unfold Node.isSvgElem at *; rw [h1.like.kind]; exact hs
  refine ⟨Like.cons h1.like h2.like, Nat.le_trans h1.fresh h2.fresh, fun hv => ?_, ⟨⟨fun h => ?_, h2.kids.plain⟩, fun m hm => ?_⟩,
    fun m hm e1 e2 => ?_⟩
  · rw [linksIn_cons] at hv ⊢
    obtain ⟨g1, g2⟩ := h1.links hv.1 hv.2.1
    exact ⟨g1, g2, h2.links hv.2.2⟩
  · rw [hs'] at h; cases h
  · rw [svgTop_cons, if_pos hs'] at hm
    rcases List.mem_cons.1 hm with rfl | hm
    · exact h1.fit
    · exact h2.kids.fit m hm
  · simp only [Forest.top, List.mem_cons] at hm ⊢
    rcases hm with rfl | hm
    · exact .inl (h1.other e1 e2).symm
    · exact .inr (h2.other m hm e1 e2)

theorem AllDone.skip {u : Nat → Bool} {n : Node} {k r r' : Forest} {b c : Nat} (h1 : SubFit u (n, k))
    (h2 : AllDone u r b r' c) : AllDone u (.cons n k r) b (.cons n k r') c := by
  refine ⟨Like.cons (NodeLike.refl _ _ _) h2.like, h2.fresh, fun hv => ?_, ⟨⟨h1.plain, h2.kids.plain⟩, fun m hm => ?_⟩,
    fun m hm e1 e2 => ?_⟩
  · rw [linksIn_cons] at hv ⊢
    exact ⟨hv.1, hv.2.1, h2.links hv.2.2⟩
  · rw [svgTop_cons] at hm
    split at hm
    next hs =>
      rcases List.mem_cons.1 hm with rfl | hm
      · exact h1.fit hs
      · exact h2.kids.fit m hm
    next => exact h2.kids.fit m hm
  · simp only [Forest.top, List.mem_cons] at hm ⊢
    rcases hm with rfl | hm
    · exact .inl rfl
    · exact .inr (h2.other m hm e1 e2)

theorem groupKids_done {u : Nat → Bool} {anc : List Node} {f g : Forest} {fresh fr : Nat} (h : groupKids u anc f fresh = some (g, fr))
    (hf : ∀ x ∈ subs f, SubFit u x) (hu : ∀ x, fresh ≤ x → u x = false) : AllDone u f fresh g fr := by
  induction f generalizing anc g fresh fr with
  | nil =>
    simp only [groupKids, Option.some.injEq, Prod.mk.injEq] at h
    obtain ⟨rfl, rfl⟩ := h
    exact ⟨Like.refl _ _, Nat.le_refl _, fun h => h, ⟨trivial, fun n hn => by cases hn⟩, fun n hn => by cases hn⟩
  | cons n k r ihk ihr =>
    simp only [subs, List.mem_cons, List.mem_append] at hf
    have hn := hf (n, k) (.inl rfl)
    unfold groupKids at h
    by_cases hc : (n.isSvgElem && !(n.isTag .defs || u n.key) && !k.isEmpty) = true
    · rw [if_pos hc] at h
      simp only [Option.bind_eq_some_iff, Option.map_eq_some_iff] at h
      obtain ⟨⟨n', k', a⟩, ⟨⟨k1, b⟩, hk, hr⟩, ⟨r', c⟩, hr', h⟩ := h
      simp only [Prod.mk.injEq] at h
      obtain ⟨rfl, rfl⟩ := h
      have hs : n.isSvgElem = true := by
        simp only [Bool.and_eq_true] at hc
        exact hc.1.1
      have h1 := ihk hk (fun x hx => hf x (.inr (.inl hx))) hu
      have h2 := regroup_done hr h1.kids (hn.fit hs) (fun hsvg => by
        obtain ⟨c, hc1, hc2, hc3, hc4, hc5⟩ := hn.svg hsvg
        exact ⟨c, h1.other c hc1 hc3 hc4, hc2, hc3, hc4, hc5⟩) (fun x hx => hu x (Nat.le_trans h1.fresh hx))
      have h3 := ihr hr' (fun x hx => hf x (.inr (.inr hx))) (fun x hx => hu x (Nat.le_trans h1.fresh (Nat.le_trans h2.fresh hx)))
      refine AllDone.cons (b := a) ⟨Ungroup.NodeLike.trans (NodeLike.of_kids h1.like) h2.like, Nat.le_trans h1.fresh h2.fresh,
        fun hv1 hv2 => h2.links hv1 (h1.links hv2), h2.fit, h2.other⟩ h3 hs
    · rw [if_neg hc] at h
      simp only [Option.bind_some, Option.map_eq_some_iff] at h
      obtain ⟨⟨r', c⟩, hr', h⟩ := h
      simp only [Prod.mk.injEq] at h
      obtain ⟨rfl, rfl⟩ := h
      exact AllDone.skip hn (ihr hr' (fun x hx => hf x (.inr (.inr hx))) hu)

theorem svg_subs {f : Forest} {s : Node} {k : Forest} (h : svgElement f = some (s, k)) :
    (s, k) ∈ subs f ∧ (∀ x ∈ subs k, x ∈ subs f) ∧ s.kind = .elem .svg := by
  induction f with
  | nil => cases h
  | cons n c r _ ih =>
    unfold svgElement at h
    simp only [subs, List.mem_cons, List.mem_append]
    split at h
    next ht => cases h; exact ⟨.inl rfl, fun x hx => .inr (.inl hx), (Node.isTag_iff _ _).1 ht⟩
    next =>
      obtain ⟨h1, h2, h3⟩ := ih h
      exact ⟨.inr (.inr h1), fun x hx => .inr (.inr (h2 x hx)), h3⟩

theorem setSvg_like {u : Nat → Prop} {f : Forest} {s s' : Node} {k k' : Forest} (h : svgElement f = some (s, k))
    (hl : NodeLike u s k s' k') : Like u f (setSvgElement s' k' f) := by
  induction f with
  | nil => cases h
  | cons n c r _ ih =>
    unfold svgElement at h
    unfold setSvgElement
    split at h
    next ht => cases h; rw [if_pos ht]; exact Like.cons hl (Like.refl _ _)
    next ht => rw [if_neg ht]; exact Like.cons (NodeLike.refl _ _ _) (ih h)

theorem setSvg_links {v : Nat → Prop} {f : Forest} {s s' : Node} {k k' : Forest} (h : svgElement f = some (s, k))
    (hv : LinksIn v f) (hl : (∀ x ∈ s.links, v x) → LinksIn v k → (∀ x ∈ s'.links, v x) ∧ LinksIn v k') :
    LinksIn v (setSvgElement s' k' f) := by
  induction f with
  | nil => cases h
  | cons n c r _ ih =>
    rw [linksIn_cons] at hv
    unfold svgElement at h
    unfold setSvgElement
    split at h
    next ht =>
      cases h
      rw [if_pos ht, linksIn_cons]
      obtain ⟨h1, h2⟩ := hl hv.1 hv.2.1
      exact ⟨h1, h2, hv.2.2⟩
    next ht =>
      rw [if_neg ht, linksIn_cons]
      exact ⟨hv.1, hv.2.1, ih h hv.2.2⟩

theorem le_foldr_max {l : List Nat} {x : Nat} (h : x ∈ l) : x ≤ l.foldr max 0 := by
  induction l with
  | nil => cases h
  | cons y t ih =>
    rw [List.foldr_cons]
    rcases List.mem_cons.1 h with rfl | h
    · exact Nat.le_max_left _ _
    · exact Nat.le_trans (ih h) (Nat.le_max_right _ _)

theorem fresh_unused (f : Forest) {x : Nat} (h : freshKey f ≤ x) : f.isUsed x = false := by
  cases hx : f.isUsed x with
  | false => rfl
  | true =>
    exfalso
    obtain ⟨n, hn, hk⟩ := List.any_eq_true.1 hx
    have : x ∈ f.nodes.flatMap fun n => n.key :: n.links := List.mem_flatMap.2 ⟨n, hn, List.mem_cons_of_mem _ (by simpa using hk)⟩
    have := le_foldr_max this
    unfold freshKey at h
    omega

/-- C37 in full: grouping by style does not change what the document looks like. -/
def C37_full : Prop := ∀ f g : Forest, groupByStyle f = some g → SameLook f g

/-- The documents of `C37_look_partial`. -/
structure Styled (f : Forest) : Prop where
  /-- Nothing refers to elements outside SVG, to text, or to something inside of them. -/
  foreign : ∀ x ∈ subs f, x.1.isSvgElem = false → ∀ m ∈ x.1 :: x.2.nodes, f.isUsed m.key = false
  /-- No element has two attributes of the same name. -/
  names : UniqueAttrs f
  /-- `transform` is used where it means something, or in definitions. -/
  takes : ∀ n ∈ f.nodes, n.has .transform = true → takesTransform n.kind = true ∨ neverRendered n.kind = true
  typed : ∀ n ∈ f.nodes, ∀ v, n.get .transform = some v → ∃ t, v = .transform t
  /-- `inherit` has been resolved. -/
  inherit : ∀ n ∈ f.nodes, ∀ x ∈ n.attrs, ∀ a, x.name = .id a → inherits a = true → x.value ≠ .kw .inherit
  /-- Every `svg` element has a child, other than a group or an `svg` element, without a transform (such as `defs`, which is always
  there in the pipeline). -/
  svg : ∀ x ∈ subs f, x.1.kind = .elem .svg → Anchored x.2

theorem mem_nodes_of_subs {f : Forest} {x : Node × Forest} (h : x ∈ subs f) : x.1 ∈ f.nodes := by
  induction f with
  | nil => cases h
  | cons n k r ihk ihr =>
    simp only [subs, List.mem_cons, List.mem_append] at h
    simp only [Forest.nodes, List.mem_cons, List.mem_append]
    rcases h with rfl | h | h
    · exact .inl rfl
    · exact .inr (.inl (ihk h))
    · exact .inr (.inr (ihr h))

/-- **C37**: grouping by style does not change what the document looks like, whatever the way to draw shapes, text and so on. -/
theorem C37_look_partial {f g : Forest} (hf : Styled f) (h : groupByStyle f = some g) : SameLook f g := by
  have hsub : ∀ x ∈ subs f, SubFit f.isUsed x := fun x hx => by
    have hn := mem_nodes_of_subs hx
    exact ⟨hf.foreign x hx, fun _ => ⟨hf.names _ hn, fun _ => hf.takes _ hn, hf.typed _ hn, hf.inherit _ hn⟩, hf.svg x hx⟩
  unfold groupByStyle at h
  simp only [Option.bind_eq_some_iff, Option.map_eq_some_iff] at h
  obtain ⟨⟨s, k⟩, hs, ⟨k1, a⟩, hk, ⟨s', k', b⟩, hr, rfl⟩ := h
  obtain ⟨h1, h2, h3⟩ := svg_subs hs
  have hu : ∀ x, freshKey f ≤ x → f.isUsed x = false := fun x hx => fresh_unused f hx
  have d1 := groupKids_done hk (fun x hx => hsub x (h2 x hx)) hu
  have d2 := regroup_done hr d1.kids ((hsub _ h1).fit (by simp only [Node.isSvgElem, h3])) (fun hsvg => by
    obtain ⟨c, hc1, hc2, hc3, hc4, hc5⟩ := hf.svg _ h1 hsvg
    exact ⟨c, d1.other c hc1 hc3 hc4, hc2, hc3, hc4, hc5⟩) (fun x hx => hu x (Nat.le_trans d1.fresh hx))
  refine sameLook_of_like (setSvg_like hs (Ungroup.NodeLike.trans (NodeLike.of_kids d1.like) d2.like)) ?_
  exact setSvg_links hs (linksIn_used f) (fun hv1 hv2 => d2.links hv1 (d1.links hv2))

end Verif.GroupStyle
