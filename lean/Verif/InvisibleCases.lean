import Verif.InvisibleServers
import Verif.UngroupCases
/-
Property C38, continued: documents that meet the conditions, and documents for which the full claim fails.
-/
namespace Verif.Invisible
open Verif.Dom Verif.Spec Verif.Render
open Verif.ApplyTs (elem px)
open Verif.Ungroup (svg rect shift scale2)

/-! ### Filters that do nothing, if nothing refers to them -/

/-- A filter that holds a colour matrix with the identity. -/
def hasMatrix (n : Node) (ks : Forest) : Bool :=
  n.isTag .filter && ks.nodes.any fun c => c.isTag .feColorMatrix && decide (c.get .type_ = some (.str "matrix")) &&
    decide (c.get .values = some (.str "1 0 0 0 0  0 1 0 0 0  0 0 1 0 0  0 0 0 1 0"))

theorem hasMatrix_of {n : Node} {ks : Forest} (h : defaultMatrix n ks = true) : hasMatrix n ks = true := by
  unfold defaultMatrix at h
  simp only [hasMatrix, Bool.and_eq_true] at h ⊢
  refine ⟨h.1, ?_⟩
  cases ks with
  | nil => exact absurd h.2 (by simp)
  | cons c k r =>
    cases r with
    | nil => simp only [Forest.nodes_cons, List.any_cons, Bool.or_eq_true]; exact .inl h.2
    | cons => exact absurd h.2 (by simp)

theorem Idle.matrix {f : Forest} (h : Idle hasMatrix f) {p : Kind} {n : Node} {ks : Forest} (hx : (p, n, ks) ∈ spots top f) (hq : hasMatrix n ks = true) :
    Idle hasMatrix (rmKey n.key f) := by
  obtain ⟨_, h1, h2⟩ := h.place p n ks hx hq
  have hu := pruned_unused h.good.keys hx rfl h1 h2
  refine ⟨h.good.remove _, fun p' m k hm hqm => ?_⟩
  obtain ⟨m', k', a, b, c, d, _⟩ := spots_remove hm
  rw [unlink_pruned hu (spots_nodes a).1] at b
  subst b
  have : hasMatrix m k' = true := by
    simp only [hasMatrix, Bool.and_eq_true, List.any_eq_true] at hqm ⊢
    obtain ⟨e1, x, hxk, e2⟩ := hqm
    refine ⟨e1, x, ?_, e2⟩
    obtain ⟨y, hy, e⟩ := d x hxk
    obtain ⟨w, hw, e', _⟩ := remove_node ((spots_nodes hm).2 x hxk)
    rw [unlink_pruned hu hw] at e'
    subst e'
    have hy' := (spots_nodes a).2 y hy
    have i1 := Forest.find_of_mem h.good.keys hw
    have i2 := Forest.find_of_mem h.good.keys hy'
    rw [e, i2] at i1
    cases i1
    exact hy
  obtain ⟨u, v, w⟩ := h.place p' m k' a this
  refine ⟨u, used_remove v, fun x hx => ?_⟩
  obtain ⟨y, hy, e⟩ := d x hx
  rw [e]
  exact used_remove (w y hy)

/-- **C38**, filters with a colour matrix that is the identity: removing them keeps the picture if nothing refers to them.  Missing: filters
that are referred to (see `C38_refuted_matrix`). -/
theorem C38_matrix_partial {f : Forest} (hf : Idle hasMatrix f) : SameLook f (matrixStep f) := by
  refine (drain_look (I := Idle hasMatrix) (fun _ h => h.good) (fun g p n ks hg hx hq => ?_) hf).1
  have hq := hasMatrix_of hq
  obtain ⟨a, b, c⟩ := hg.place p n ks hx hq
  refine ⟨drop_unused hg.good hx a (.inr (fun P π d c _ => ?_)) b c, hg.matrix hx hq⟩
  simp only [hasMatrix, Bool.and_eq_true] at hq
  unfold draw
  rw [(Node.isTag_iff _ _).1 hq.1]
  rfl

/-! ### The conditions can be checked -/

def goodB (f : Forest) : Bool := decide f.UniqueKeys && f.nodes.all (fun n => decide (n.attrs.map (·.name)).Nodup)

theorem good_of {f : Forest} (h : goodB f = true) : Good f := by
  simp only [goodB, Bool.and_eq_true, List.all_eq_true, decide_eq_true_eq] at h
  exact ⟨h.1, h.2⟩

def apartB (f : Forest) (p : Kind) (n : Node) (ks : Forest) : Bool :=
  gone p n.kind && ks.nodes.all (fun m => !f.isUsed m.key) &&
  f.nodes.all (fun x => x.attrs.all (fun y => !decide (y.value.target = some n.key) || (decide (x.kind = .elem .use) && decide (y.name = .id .xlinkHref))))

theorem apart_of {f : Forest} {p : Kind} {n : Node} {ks : Forest} (h : apartB f p n ks = true) : Apart f p n ks := by
  simp only [apartB, Bool.and_eq_true, Bool.or_eq_true, Bool.not_eq_true', List.all_eq_true, decide_eq_true_eq, decide_eq_false_iff_not] at h
  exact ⟨h.1.1, h.1.2, fun x hx y hy ht => (h.2 x hx y hy).resolve_left (fun e => e ht)⟩

def readyB (q : Node → Bool) (f : Forest) : Bool :=
  goodB f && (spots top f).all (fun x => !q x.2.1 || (apartB f x.1 x.2.1 x.2.2 && unfiltered x.2.1))

theorem ready_of {q : Node → Bool} {f : Forest} (h : readyB q f = true) : Ready q f := by
  simp only [readyB, Bool.and_eq_true, Bool.or_eq_true, Bool.not_eq_true', List.all_eq_true] at h
  refine ⟨good_of h.1, fun p n ks hx hq => apart_of ((h.2 _ hx).resolve_left (by simp [hq])).1, fun n hn hq => ?_⟩
  obtain ⟨p, ks, hx⟩ := nodes_spots top hn
  exact ((h.2 _ hx).resolve_left (by simp [hq])).2

def idleB (q : Node → Forest → Bool) (f : Forest) : Bool :=
  goodB f && (spots top f).all (fun x => !q x.2.1 x.2.2 || (gone x.1 x.2.1.kind && !f.isUsed x.2.1.key && x.2.2.nodes.all (fun m => !f.isUsed m.key)))

theorem idle_of {q : Node → Forest → Bool} {f : Forest} (h : idleB q f = true) : Idle q f := by
  simp only [idleB, Bool.and_eq_true, Bool.or_eq_true, Bool.not_eq_true', List.all_eq_true] at h
  refine ⟨good_of h.1, fun p n ks hx hq => ?_⟩
  have := (h.2 _ hx).resolve_left (by simp [hq])
  exact ⟨this.1.1, this.1.2, this.2⟩

def unusedB (a : AId) (C : List Nat) (f : Forest) : Bool :=
  goodB f && (spots top f).all (fun x => (!decide (x.2.1.key ∈ C) || (gone x.1 x.2.1.kind && bareServer x.2.1)) &&
    x.2.1.attrs.all (fun y => C.all (fun k => !decide (y.value.target = some k) ||
      (decide (y.name = .id a) && decide (y.value = .funcLink k) && x.2.1.isSvgElem && apartB f x.1 x.2.1 x.2.2))))

theorem unused_of {a : AId} {C : List Nat} {f : Forest} (h : unusedB a C f = true) : Unused a C f := by
  simp only [unusedB, Bool.and_eq_true, Bool.or_eq_true, Bool.not_eq_true', List.all_eq_true, decide_eq_true_eq, decide_eq_false_iff_not] at h
  refine ⟨good_of h.1, fun p n ks hx hn => (h.2 _ hx).1.resolve_left (fun e => e hn), fun p n ks hx y hy k hk ht => ?_⟩
  have := ((h.2 _ hx).2 y hy k hk).resolve_left (fun e => e ht)
  exact ⟨this.1.1.1, this.1.1.2, this.1.2, apart_of this.2⟩

def clipOkB (f : Forest) : Bool :=
  goodB f && (spots top f).all (fun x => !decide (x.1 = .elem .clipPath) || clipAllowed f x.2.1 ||
    (!f.isUsed x.2.1.key && x.2.2.nodes.all (fun m => !f.isUsed m.key) &&
      (!clipKind x.2.1.kind || (x.2.1.isTag .use && decide (x.2.1.get .xlinkHref = none) && unfiltered x.2.1))))

theorem clipOk_of {f : Forest} (h : clipOkB f = true) : ClipGood f := by
  simp only [clipOkB, Bool.and_eq_true, Bool.or_eq_true, Bool.not_eq_true', List.all_eq_true, decide_eq_true_eq, decide_eq_false_iff_not] at h
  refine ⟨good_of h.1, fun p n ks hx hp hv => ?_⟩
  have := ((h.2 _ hx).resolve_left (by rw [hv]; simp [hp]))
  exact ⟨this.1.1, this.1.2, this.2.imp id (fun h => ⟨h.1.1, h.1.2, h.2⟩)⟩

/-! ### Documents that meet the conditions -/

/-- A group that is hidden, with content; a hidden element inside a text. -/
def displaySample : Forest :=
  svg (.cons (elem 2 .g [(.display, .kw .none)]) (rect 3 [] .nil)
    (.cons (elem 4 .text []) (.cons (elem 5 .tspan [(.display, .kw .none)]) .nil .nil) (rect 6 [] .nil)))

example : (displayStep displaySample).1 = svg (.cons (elem 4 .text []) .nil (rect 6 [] .nil)) ∧
    SameLook displaySample (displayStep displaySample).1 := by
  refine ⟨by decide +kernel, C38_display_partial (good_of (by decide +kernel)) (fun p n ks hx hh _ => ?_)⟩
  have : ∀ x ∈ spots top displaySample, hiddenBy x.2.1 = true → gone x.1 x.2.1.kind = true := by decide +kernel
  exact this _ hx hh

/-- A path without data, to which a `use` element refers, and one with an empty one. -/
def pathSample : Forest :=
  svg (.cons (elem 2 .defs []) (.cons (elem 3 .path []) .nil .nil)
    (.cons (elem 4 .use [(.xlinkHref, .link 3)]) .nil (.cons (elem 5 .path [(.d, .path [])]) .nil (rect 6 [] .nil))))

example : (pathStep pathSample).1 = svg (.cons (elem 2 .defs []) .nil (.cons (elem 4 .use []) .nil (rect 6 [] .nil))) ∧
    SameLook pathSample (pathStep pathSample).1 :=
  ⟨by decide +kernel, C38_paths_partial (ready_of (by decide +kernel))⟩

example : (useStep (pathStep pathSample).1).1 = svg (.cons (elem 2 .defs []) .nil (rect 6 [] .nil)) ∧
    SameLook (pathStep pathSample).1 (useStep (pathStep pathSample).1).1 := by
  refine ⟨by decide +kernel, C38_uses_partial (idle_of (by decide +kernel)) ?_⟩
  decide +kernel

/-- Rectangles in a clip path and in a group. -/
def rectSample : Forest :=
  svg (.cons (elem 2 .clipPath []) (.cons (elem 3 .rect [(.width, px 0)]) .nil (rect 4 [] .nil))
    (.cons (elem 5 .g [(.clipPath, .funcLink 2)]) (.cons (elem 6 .rect [(.width, px 5), (.height, px 0)]) .nil (rect 7 [] .nil)) .nil))

example : (rectStep rectSample).1 = svg (.cons (elem 2 .clipPath []) (rect 4 [] .nil) (.cons (elem 5 .g [(.clipPath, .funcLink 2)]) (rect 7 [] .nil) .nil)) ∧
    SameLook rectSample (rectStep rectSample).1 :=
  ⟨by decide +kernel, C38_rects_partial (ready_of (by decide +kernel))⟩

/-- A clip path with a group only, one with a group and a rectangle; elements that refer to them, one of them shown by a `use` element. -/
def clipSample : Forest :=
  svg (.cons (elem 2 .clipPath []) (.cons (elem 3 .g []) (rect 4 [] .nil) (.cons (elem 5 .use []) .nil .nil))
    (.cons (elem 6 .clipPath []) (.cons (elem 7 .g []) .nil (rect 8 [] .nil))
      (.cons (elem 9 .g [(.clipPath, .funcLink 2)]) (rect 10 [] .nil)
        (rect 11 [(.clipPath, .funcLink 2)] (.cons (elem 12 .use [(.xlinkHref, .link 11)]) .nil
          (rect 13 [(.clipPath, .funcLink 6)] .nil))))))

example : (clipStep clipSample).1 = svg (.cons (elem 6 .clipPath []) (rect 8 [] .nil)
      (.cons (elem 12 .use []) .nil (rect 13 [(.clipPath, .funcLink 6)] .nil))) ∧ SameLook clipSample (clipStep clipSample).1 :=
  ⟨by decide +kernel, C38_clips_partial (clipOk_of (by decide +kernel)) (by decide +kernel) (unused_of (by decide +kernel))⟩

/-- A filter without children; a group that refers to it. -/
def filterSample : Forest :=
  svg (.cons (elem 2 .filter []) .nil (.cons (elem 3 .g [(.filter, .funcLink 2)]) (rect 4 [] .nil) (rect 5 [] .nil)))

example : (filterStep filterSample).1 = svg (rect 5 [] .nil) ∧ SameLook filterSample (filterStep filterSample).1 :=
  ⟨by decide +kernel, C38_filters_partial (by decide +kernel) (unused_of (by decide +kernel))⟩

def matrixSample : Forest :=
  svg (.cons (elem 2 .filter []) (.cons (elem 3 .feColorMatrix [(.type_, .str "matrix"),
    (.values, .str "1 0 0 0 0  0 1 0 0 0  0 0 1 0 0  0 0 0 1 0")]) .nil .nil) (rect 4 [] .nil))

example : matrixStep matrixSample = svg (rect 4 [] .nil) ∧ SameLook matrixSample (matrixStep matrixSample) :=
  ⟨by decide +kernel, C38_matrix_partial (idle_of (by decide +kernel))⟩

/-! ### Where the full claim fails -/

/-- **C38** in full: the pass keeps the picture.  It is false. -/
def C38_full : Prop := ∀ f g, Good f → f.LinksOk → removeInvisible f = some g → SameView f g

theorem refute {f g : Forest} (h1 : goodB f = true) (h2 : f.LinksOk) (h : removeInvisible f = some g) (hf : ∀ d, picture scribe (d + 1) f = picture scribe 1 f)
    (hg : ∀ d, picture scribe (d + 1) g = picture scribe 1 g) (hd : picture scribe 1 f ≠ picture scribe 1 g) : ¬ C38_full := by
  intro hc
  obtain ⟨D, hD⟩ := hc f g (good_of h1) h2 h _ scribe
  exact hd (by rw [← hf D, ← hg D]; exact hD (D + 1) (by omega))

/-- Without `use` elements it only matters how elements are seen where they stand. -/
theorem pics_here {P : Type} {π : Painter P} {f : Forest} (h : ∀ n ∈ f.nodes, n.kind ≠ .elem .use) (i i' : Nat → Ctx → Attrs P → P) (e : Nat → P) (c : Ctx) :
    pics π ⟨i, e⟩ c f = pics π ⟨i', e⟩ c f ∧ ∀ k, hereOf π ⟨i, e⟩ k c f = hereOf π ⟨i', e⟩ k c f := by
  have hb : ∀ (n : Node), n.kind ≠ .elem .use → ∀ via c kids, body π ⟨i, e⟩ via c n kids = body π ⟨i', e⟩ via c n kids := by
    intro n hn via c kids
    cases hk : n.kind with
    | elem x =>
      rw [body_elem hk, body_elem hk]
      have hx : x ≠ .use := by rintro rfl; exact hn hk
      have : core π ⟨i, e⟩ via (c.enter n) n x kids = core π ⟨i', e⟩ via (c.enter n) n x kids := by
        unfold core
        rw [if_neg hx, if_neg hx]
        rfl
      unfold inner
      rw [this]
      rfl
    | text s => unfold body; rw [hk]; rfl
    | comment s => unfold body; rw [hk]
    | other s => unfold body; rw [hk]; rfl
  have hp : ∀ (f : Forest), (∀ n ∈ f.nodes, n.kind ≠ .elem .use) → ∀ c, pics π ⟨i, e⟩ c f = pics π ⟨i', e⟩ c f := by
    intro f
    induction f with
    | nil => intros; rfl
    | cons n k r ihk ihr =>
      intro h c
      simp only [pics, draw]
      rw [ihk (fun m hm => h m (by simp [hm])), ihr (fun m hm => h m (by simp [hm])), hb n (h n (by simp))]
  refine ⟨hp f h c, ?_⟩
  induction f generalizing c with
  | nil => intro k; rfl
  | cons n k r ihk ihr =>
    intro x
    simp only [hereOf]
    rw [ihk (fun m hm => h m (by simp [hm])), ihr (fun m hm => h m (by simp [hm])), hb n (h n (by simp)), hp k (fun m hm => h m (by simp [hm]))]

theorem steady {f : Forest} {m : Nat} (h : ∀ n ∈ f.nodes, n.kind ≠ .elem .use)
    (hm : ∀ k ∈ f.keys, (scene scribe f (m + 1)).here k = (scene scribe f m).here k) (d : Nat) : picture scribe (m + d) f = picture scribe m f := by
  have h0 : (scene scribe f (m + 1)).here = (scene scribe f m).here := by
    funext k
    by_cases hk : k ∈ f.keys
    · exact hm k hk
    · cases m with
      | zero => show (hereOf _ _ k _ f).getD _ = _; rw [hereOf_none hk]; rfl
      | succ m => show (hereOf _ _ k _ f).getD _ = (hereOf _ _ k _ f).getD _; rw [hereOf_none hk, hereOf_none hk]
  have h1 : ∀ d, (scene scribe f (m + d)).here = (scene scribe f m).here := by
    intro d
    induction d with
    | zero => rfl
    | succ d ih =>
      rw [← h0]
      funext k
      show (hereOf _ (scene scribe f (m + d)) k _ f).getD _ = (hereOf _ (scene scribe f m) k _ f).getD _
      have e : scene scribe f (m + d) = ⟨(scene scribe f (m + d)).inst, (scene scribe f m).here⟩ := by rw [← ih]
      rw [e, (pics_here h _ (scene scribe f m).inst _ _).2]
  have e : scene scribe f (m + d) = ⟨(scene scribe f (m + d)).inst, (scene scribe f m).here⟩ := by rw [← h1 d]
  unfold picture
  rw [e, (pics_here h _ (scene scribe f m).inst _ _).1]

theorem refute2 {f g : Forest} (h1 : goodB f = true) (h2 : f.LinksOk) (h : removeInvisible f = some g)
    (hf : (∀ n ∈ f.nodes, n.kind ≠ .elem .use) ∧ ∀ k ∈ f.keys, (scene scribe f 3).here k = (scene scribe f 2).here k)
    (hg : (∀ n ∈ g.nodes, n.kind ≠ .elem .use) ∧ ∀ k ∈ g.keys, (scene scribe g 3).here k = (scene scribe g 2).here k)
    (hd : picture scribe 2 f ≠ picture scribe 2 g) : ¬ C38_full := by
  intro hc
  obtain ⟨D, hD⟩ := hc f g (good_of h1) h2 h _ scribe
  have := hD (2 + D) (by omega)
  rw [steady hf.1 hf.2, steady hg.1 hg.2] at this
  exact hd this

def defs (r : Forest) : Forest := .cons (elem 100 .defs []) .nil r

def switchIn : Forest := svg (defs (.cons (elem 2 .switch []) (rect 3 [(.display, .kw .none)] (rect 4 [] .nil)) .nil))
def switchOut : Forest := svg (defs (.cons (elem 2 .switch []) (rect 4 [] .nil) .nil))

/-- **Finding.** A hidden child of a `switch` element is removed although it is the one that is chosen (`display` has no effect on the choice, SVG 1.1,
5.8.2); the next one is shown then. -/
theorem C38_refuted_switch : ¬ C38_full :=
  refute (f := switchIn) (g := switchOut) (by decide +kernel) (by decide +kernel) (by decide +kernel) (fun _ => rfl) (fun _ => rfl) (by decide +kernel)

def usedIn : Forest := svg (.cons (elem 2 .defs []) (.cons (elem 3 .clipPath []) .nil .nil)
  (.cons (elem 4 .g [(.clipPath, .funcLink 3)]) (rect 5 [] .nil) (.cons (elem 6 .use [(.xlinkHref, .link 5)]) .nil .nil)))
def usedOut : Forest := svg (.cons (elem 2 .defs []) .nil .nil)

/-- **Finding.** An element with an empty clip path is removed together with descendants that are shown elsewhere. -/
theorem C38_refuted_used : ¬ C38_full :=
  refute (f := usedIn) (g := usedOut) (by decide +kernel) (by decide +kernel) (by decide +kernel) (fun _ => rfl) (fun _ => rfl) (by decide +kernel)

def clipIn : Forest := svg (.cons (elem 2 .defs []) (.cons (elem 3 .clipPath []) .nil
    (.cons (elem 4 .clipPath [(.clipPath, .funcLink 3)]) (rect 5 [] .nil) .nil)) (rect 6 [(.clipPath, .funcLink 4)] .nil))
def clipOut : Forest := svg (.cons (elem 2 .defs []) .nil (rect 6 [] .nil))

/-- **Finding.** A clip path that is itself clipped by an empty clip path is removed; what it clipped is then shown in full. -/
theorem C38_refuted_clip : ¬ C38_full :=
  refute2 (f := clipIn) (g := clipOut) (by decide +kernel) (by decide +kernel) (by decide +kernel) (by decide +kernel) (by decide +kernel) (by decide +kernel)

def badIn : Forest := svg (.cons (elem 2 .defs []) (.cons (elem 3 .clipPath []) (.cons (elem 4 .g []) (rect 5 [] .nil) (rect 6 [] .nil)) .nil)
  (.cons (elem 7 .use [(.xlinkHref, .link 5)]) .nil (rect 8 [(.clipPath, .funcLink 3)] .nil)))
def badOut : Forest := svg (.cons (elem 2 .defs []) (.cons (elem 3 .clipPath []) (rect 6 [] .nil) .nil)
  (rect 8 [(.clipPath, .funcLink 3)] .nil))

/-- **Finding.** An invalid child of a clip path is removed together with descendants that are shown elsewhere. -/
theorem C38_refuted_kids : ¬ C38_full :=
  refute (f := badIn) (g := badOut) (by decide +kernel) (by decide +kernel) (by decide +kernel) (fun _ => rfl) (fun _ => rfl) (by decide +kernel)

def hrefIn : Forest := svg (.cons (elem 2 .defs []) (.cons (elem 3 .filter []) (.cons (elem 4 .feFlood []) .nil .nil) (.cons (elem 5 .filter [(.xlinkHref, .link 3)]) .nil .nil))
  (rect 6 [(.filter, .funcLink 5)] .nil))
def hrefOut : Forest := svg (.cons (elem 2 .defs []) .nil .nil)

/-- **Finding.** A filter without children that refers to another one, whose primitives it uses, is taken for an empty one; the elements with
this filter are removed. -/
theorem C38_refuted_href : ¬ C38_full :=
  refute2 (f := hrefIn) (g := hrefOut) (by decide +kernel) (by decide +kernel) (by decide +kernel) (by decide +kernel) (by decide +kernel) (by decide +kernel)

def matrixIn : Forest := svg (.cons (elem 2 .defs []) (.cons (elem 3 .filter [(.width, px 0)]) (.cons (elem 4 .feColorMatrix [(.type_, .str "matrix"),
    (.values, .str "1 0 0 0 0  0 1 0 0 0  0 0 1 0 0  0 0 0 1 0")]) .nil .nil) .nil) (rect 6 [(.filter, .funcLink 3)] .nil))
def matrixOut : Forest := svg (.cons (elem 2 .defs []) .nil (rect 6 [] .nil))

/-- **Finding.** A filter with the identity as a colour matrix still has a filter region; with one of width zero, which disables the rendering of the
elements that refer to it, those elements show up when the filter is removed. -/
theorem C38_refuted_matrix : ¬ C38_full :=
  refute2 (f := matrixIn) (g := matrixOut) (by decide +kernel) (by decide +kernel) (by decide +kernel) (by decide +kernel) (by decide +kernel) (by decide +kernel)

/-- A gradient with one half transparent stop and a rectangle with it, which is itself half transparent. -/
def opacityIn : Forest := svg (.cons (elem 2 .defs []) (.cons (elem 3 .linearGradient []) (.cons (elem 4 .stop [(.stopColor, .color 1 2 3), (.stopOpacity, .number (1/2))]) .nil .nil) .nil)
  (rect 5 [(.fill, .funcLink 3), (.fillOpacity, .number (1/2))] .nil))
def opacityOut : Forest := svg (.cons (elem 2 .defs []) .nil (rect 5 [(.fill, .color 1 2 3), (.fillOpacity, .number (1/2))] .nil))

/-- **Finding.** The opacity of the only stop of a gradient replaces the one of the element instead of being multiplied with it: the rectangle
is painted with opacity 1/2 instead of 1/4. -/
theorem C38_refuted_opacity : removeInvisible opacityIn = some opacityOut := by decide +kernel

/-- **Finding.** A gradient whose only child is not a stop makes the pass panic.  (In a whole run, `resolve_stop_attributes` has given the
child the attributes of a stop.) -/
theorem C38_refuted_panic : removeInvisible (svg (.cons (elem 2 .defs []) (.cons (elem 3 .linearGradient []) (.cons (elem 4 .title []) .nil .nil) .nil) .nil)) = none := by
  decide +kernel

/-- **Finding.** So does a gradient with one stop that has the colour `currentColor`, which `resolve_inherit` has replaced in a whole run. -/
theorem C38_refuted_current : removeInvisible (svg (.cons (elem 2 .defs []) (.cons (elem 3 .linearGradient [])
    (.cons (elem 4 .stop [(.stopColor, .kw .currentColor), (.stopOpacity, .number 1)]) .nil .nil) .nil) .nil)) = none := by
  decide +kernel

end Verif.Invisible
