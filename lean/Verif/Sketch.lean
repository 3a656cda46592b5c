import Verif.FileOnly
import Verif.InvisibleWhole
import Verif.UngroupLook
import Verif.GroupStyleLook
import Verif.GroupDefsLook
/-
C66: the documents for which a whole run keeps the picture: a drawing of groups, shapes, images and text, with gradients as paints.
-/
namespace Verif.Draft
open Verif.Dom Verif.Spec Verif.Render
open Verif.Invisible (plainStop)
open Verif.Ungroup (groupAttr)

/-! ### Specification -/

/-- What a group may contain: groups, shapes, images and text. -/
def scene : EId → Bool
  | .g | .rect | .circle | .ellipse | .line | .polyline | .polygon | .path | .image | .text => true
  | _ => false

/-- The parent of the root element. -/
def doc : Kind := .comment ""

/-- The contents of descriptive elements: character data and elements outside of SVG. -/
def data : Kind → Bool
  | .text _ | .other _ => true
  | _ => false

/-- Which element stands in which.  Shapes, images and stops have no children (SVG also allows descriptive elements and animations
there). -/
def fits : Kind → Kind → Bool
  | .comment _, k => decide (k = .elem .svg)
  | .elem .svg, .elem e => scene e || decide (e = .defs) || isDesc (.elem e)
  | .elem .g, .elem e => scene e || isDesc (.elem e)
  | .elem .text, k | .elem .tspan, k => decide (k = .elem .tspan) || isChars k
  | .elem .defs, k => decide (k = .elem .linearGradient) || decide (k = .elem .radialGradient)
  | .elem .linearGradient, k | .elem .radialGradient, k => decide (k = .elem .stop)
  | .elem .title, k | .elem .desc, k | .elem .metadata, k | .other _, k => data k
  | _, _ => false

/-- Elements of the drawing, and descriptive elements. -/
def loose : Kind → Bool
  | .elem e => scene e || decide (e = .tspan) || isDesc (.elem e)
  | _ => false

/-- Further conditions on elements and attributes (C71), that what a run does to a drawing preserves: transforms and opacities are of no
concern, nor are paints that take the place of references. -/
class Flavour where
  kind : Kind → Prop
  attr : Kind → Attr → Prop
  give : ∀ k y, fits (.elem .g) k = true → groupAttr y = true → attr (.elem .g) y → attr k y
  transform : ∀ k t b, (b = false → ∃ k' v, attr k' ⟨.id .transform, v, false⟩) → attr k ⟨.id .transform, .transform t, b⟩
  opacity : ∀ k a q, a = .opacity ∨ a = .fillOpacity ∨ a = .strokeOpacity → attr k ⟨.id a, .number q, true⟩
  paint : ∀ k y v, y.value.target ≠ none → (v = .kw .none ∨ ∃ r g b, v = .color r g b) → attr k y → attr k ⟨y.name, v, true⟩

/-- No further conditions (C66). -/
instance plainFlavour : Flavour := ⟨fun _ => True, fun _ _ => True, fun _ _ _ _ _ => trivial, fun _ _ _ _ => trivial, fun _ _ _ _ => trivial, fun _ _ _ _ _ _ => trivial⟩

variable [Flavour]

/-- The conditions on an attribute of an element of the given kind; `G` are the gradients. -/
structure AttrFine (G : Nat → Prop) (k : Kind) (y : Attr) : Prop where
  /-- All references are paints, and refer to gradients. -/
  paint : ∀ t, y.value.target = some t → (y.name = .id .fill ∨ y.name = .id .stroke) ∧ loose k = true ∧ G t
  /-- No conditional processing. -/
  cond : ∀ a, isCond a = true → y.name ≠ .id a
  /-- `inherit` has been resolved. -/
  inherit : y.value ≠ .kw .inherit
  /-- Transforms are used where they mean something (or on descriptive elements). -/
  transform : y.name = .id .transform → (takesTransform k = true ∨ isDesc k = true) ∧ ∃ t, y.value = .transform t
  /-- Only elements of the drawing are hidden. -/
  display : y.name = .id .display → loose k = true
  /-- Groups have no attributes that mean nothing for groups. -/
  group : k = .elem .g → groupAttr y = true
  /-- Nothing is inherited from `defs`. -/
  defs : k = .elem .defs → ∀ a, y.name = .id a → inherits a = false
  extra : Flavour.attr k y

/-- The conditions on a node `n` with the children `ks` in an element of kind `p`. -/
structure Fine (G : Nat → Prop) (p : Kind) (n : Node) (ks : Forest) : Prop where
  place : fits p n.kind = true
  names : (n.attrs.map (·.name)).Nodup
  attrs : ∀ y ∈ n.attrs, AttrFine G n.kind y
  /-- There is a `defs` element in the root element (the preparation makes one). -/
  anchor : n.kind = .elem .svg → ∃ m ∈ ks.top, m.kind = .elem .defs
  /-- The stop of a gradient with one stop is opaque. -/
  single : n.isGradient = true → ∀ s, ks.top = [s] → plainStop s = true
  extra : Flavour.kind n.kind

/-- There is a gradient with the key `k`. -/
def Grad (f : Forest) (k : Nat) : Prop := ∃ m ∈ f.nodes, m.key = k ∧ m.isGradient = true

/-- A drawing. -/
structure Sketch (f : Forest) : Prop where
  keys : f.UniqueKeys
  nodes : ∀ x ∈ spots doc f, Fine (Grad f) x.1 x.2.1 x.2.2

/-! ### Consequences -/

theorem isGradient_iff {n : Node} : n.isGradient = true ↔ n.kind = .elem .linearGradient ∨ n.kind = .elem .radialGradient := by
  unfold Node.isGradient
  rw [Bool.or_eq_true, Node.isTag_iff, Node.isTag_iff]

theorem spots_top {p q : Kind} {f : Forest} {x : Kind × Node × Forest} (h : x ∈ spots p f) :
    x ∈ spots q f ∨ x.1 = p ∧ (q, x.2) ∈ spots q f := by
  induction f with
  | nil => cases h
  | cons n k r _ ih =>
    simp only [spots, List.mem_cons, List.mem_append] at h ⊢
    rcases h with rfl | h | h
    · exact .inr ⟨rfl, .inl rfl⟩
    · exact .inl (.inr (.inl h))
    · rcases ih h with h | ⟨h1, h2⟩
      · exact .inl (.inr (.inr h))
      · exact .inr ⟨h1, .inr (.inr h2)⟩

variable {f : Forest} (hf : Sketch f)
include hf

/-- A node of the document, in the place where `spots top` has it. -/
theorem Sketch.at {p : Kind} {n : Node} {ks : Forest} (h : (p, n, ks) ∈ spots top f) :
    Fine (Grad f) p n ks ∨ n.kind = .elem .svg ∧ Fine (Grad f) doc n ks ∧ p = top := by
  rcases spots_top (q := doc) h with h | ⟨h1, h2⟩
  · exact .inl (hf.nodes _ h)
  · have := hf.nodes _ h2
    have hp := this.place
    simp only [fits, doc, decide_eq_true_eq] at hp
    exact .inr ⟨hp, this, h1⟩

theorem Sketch.node {n : Node} (h : n ∈ f.nodes) : ∃ p ks, (p, n, ks) ∈ spots doc f ∧ Fine (Grad f) p n ks := by
  obtain ⟨x, hx, rfl⟩ := mem_spots (p := doc) h
  exact ⟨x.1, x.2.2, hx, hf.nodes x hx⟩

theorem Sketch.attr {n : Node} (h : n ∈ f.nodes) {y : Attr} (hy : y ∈ n.attrs) : AttrFine (Grad f) n.kind y := by
  obtain ⟨p, ks, _, h⟩ := hf.node h
  exact h.attrs y hy

theorem Sketch.used {k : Nat} (h : f.isUsed k = true) : Grad f k := by
  obtain ⟨n, hn, hk⟩ := Forest.isUsed_iff.1 h
  obtain ⟨y, hy, ht⟩ := Node.mem_links.1 hk
  exact ((hf.attr hn hy).paint k ht).2.2

theorem Sketch.same {n m : Node} (hn : n ∈ f.nodes) (hm : m ∈ f.nodes) (h : n.key = m.key) : n = m := Forest.eq_of_key hf.keys hn hm h

/-- Only gradients are referred to. -/
theorem Sketch.unused {n : Node} (hn : n ∈ f.nodes) (hg : n.isGradient = false) : f.isUsed n.key = false := by
  cases hu : f.isUsed n.key with
  | false => rfl
  | true =>
    obtain ⟨m, hm, hk, hmg⟩ := hf.used hu
    rw [hf.same hm hn hk, hg] at hmg
    cases hmg

omit hf in
theorem no_gradient {n : Node} {e : EId} (h : n.kind = .elem e) (h1 : e ≠ .linearGradient) (h2 : e ≠ .radialGradient) : n.isGradient = false := by
  cases hg : n.isGradient with
  | false => rfl
  | true =>
    rcases isGradient_iff.1 hg with e' | e' <;> rw [h] at e' <;> injection e' with e'
    · exact absurd e' h1
    · exact absurd e' h2

theorem Sketch.good : Invisible.Good f := ⟨hf.keys, fun n hn => by obtain ⟨p, ks, _, h⟩ := hf.node hn; exact h.names⟩


omit hf

theorem fits_loose {p : Kind} {e : EId} (h : fits p (.elem e) = true) (he : scene e = true ∨ isDesc (.elem e) = true) : p = .elem .svg ∨ p = .elem .g := by
  cases p with
  | elem q =>
    cases q
    case svg => exact .inl rfl
    case g => exact .inr rfl
    all_goals first
      | (cases h; done)
      | (exfalso; cases e <;> first | (cases h; done) | (rcases he with he | he <;> cases he))
  | other s => cases h
  | text s => cases h
  | comment s => exfalso; cases e <;> first | (cases h; done) | (rcases he with he | he <;> cases he)

theorem fits_tspan {p : Kind} (h : fits p (.elem .tspan) = true) : p = .elem .text ∨ p = .elem .tspan := by
  cases p with
  | elem q => cases q <;> first | (cases h; done) | exact .inl rfl | exact .inr rfl
  | _ => cases h

theorem fits_defs {p : Kind} (h : fits p (.elem .defs) = true) : p = .elem .svg := by
  cases p with
  | elem q => cases q <;> first | (cases h; done) | rfl
  | _ => cases h

theorem fits_svg {p : Kind} (h : fits p (.elem .svg) = true) : ∃ s, p = .comment s := by
  cases p with
  | elem q => cases q <;> cases h
  | comment s => exact ⟨s, rfl⟩
  | _ => cases h

theorem fits_gradient {p : Kind} {n : Node} (h : fits p n.kind = true) (hg : n.isGradient = true) : p = .elem .defs := by
  rcases isGradient_iff.1 hg with e | e <;> rw [e] at h <;>
  · cases p with
    | elem q => cases q <;> first | (cases h; done) | rfl
    | _ => cases h

theorem fits_stop {p : Kind} (h : fits p (.elem .stop) = true) : p = .elem .linearGradient ∨ p = .elem .radialGradient := by
  cases p with
  | elem q => cases q <;> first | (cases h; done) | exact .inl rfl | exact .inr rfl
  | _ => cases h

/-- The SVG elements of a drawing. -/
theorem fits_elem {p : Kind} {e : EId} (h : fits p (.elem e) = true) :
    loose (.elem e) = true ∨ e ∈ [EId.svg, .defs, .linearGradient, .radialGradient, .stop] := by
  cases p with
  | elem q => cases q <;> cases e <;> first | (cases h; done) | exact .inl rfl | exact .inr (by decide)
  | _ => cases e <;> first | (cases h; done) | exact .inr (by decide)

/-- Nothing stands in a shape, an image or a stop. -/
theorem fits_leaf {e : EId} {k : Kind} (h : fits (.elem e) k = true) :
    e ∈ [EId.svg, .g, .text, .tspan, .defs, .linearGradient, .radialGradient, .title, .desc, .metadata] := by
  cases e <;> first | (cases h; done) | decide

theorem loose_not {k : Kind} (h : loose k = true) : isElem k = true ∧ k ≠ .elem .svg ∧ k ≠ .elem .defs ∧ k ≠ .elem .linearGradient ∧ k ≠ .elem .radialGradient ∧ k ≠ .elem .stop := by
  cases k with
  | elem e => cases e <;> first | (cases h; done) | decide
  | _ => cases h

theorem loose_gone {p k : Kind} (h : fits p k = true) (hl : loose k = true) : gone p k = true := by
  cases k with
  | elem e =>
    by_cases ht : e = .tspan
    · subst ht
      rcases fits_tspan h with rfl | rfl <;> rfl
    · have he : scene e = true ∨ isDesc (.elem e) = true := by
        simp only [loose, Bool.or_eq_true, decide_eq_true_eq, ht, or_false] at hl
        exact hl
      rcases fits_loose h he with rfl | rfl
      · cases e <;> first | rfl | (rcases he with he | he <;> cases he)
      · cases e <;> first | rfl | (rcases he with he | he <;> cases he)
  | _ => cases hl

include hf

omit hf in
theorem fits_comment {p : Kind} {s : String} : fits p (.comment s) = false := by
  cases p with
  | elem q => cases q <;> rfl
  | _ => rfl

omit hf in
/-- Gradients stand in `defs`, which stands in `svg`. -/
theorem below {g : Forest} {r : Kind} (hx : ∀ x ∈ spots r g, fits x.1 x.2.1.kind = true) (h1 : r ≠ .elem .svg) (h2 : r ≠ .elem .defs) (h3 : ∀ s, r ≠ .comment s) :
    ∀ m ∈ g.nodes, m.isGradient = false := by
  induction g generalizing r with
  | nil => intro m hm; cases hm
  | cons a b c ihb ihc =>
    intro m hm
    have ha := hx (r, a, b) (by simp [spots])
    simp only [Forest.nodes_cons, List.mem_cons, List.mem_append] at hm
    rcases hm with rfl | hm | hm
    · cases hg : m.isGradient with
      | false => rfl
      | true => exact absurd (fits_gradient ha hg) h2
    · refine ihb (r := a.kind) (fun x hx' => hx x (by simp [spots, hx'])) ?_ ?_ ?_ m hm
      · intro e
        dsimp only at ha
        rw [e] at ha
        obtain ⟨s, hs⟩ := fits_svg ha
        exact h3 s hs
      · intro e
        dsimp only at ha
        rw [e] at ha; exact h1 (fits_defs ha)
      · intro s e
        dsimp only at ha
        rw [e, fits_comment] at ha; cases ha
    · exact ihc (fun x hx' => hx x (by simp [spots, hx'])) h1 h2 h3 m hm

theorem Sketch.kids_unused {p : Kind} {n : Node} {ks : Forest} {q : Kind} (h : (p, n, ks) ∈ spots q f) (hn : n.kind ≠ .elem .svg) (hd : n.kind ≠ .elem .defs) :
    ∀ m ∈ ks.nodes, f.isUsed m.key = false := by
  intro m hm
  have hs := spots_subs h
  refine hf.unused ((spots_nodes h).2 m hm) (below (r := n.kind) (fun x hx => (hf.nodes x (spots_of_subs hs x hx)).place) hn hd ?_ m hm)
  intro s e
  obtain ⟨p', ks', _, hfn⟩ := hf.node (spots_nodes h).1
  have := hfn.place
  dsimp only at this
  rw [e, fits_comment] at this
  cases this

omit hf in
theorem desc_loose {k : Kind} (h : isDesc k = true) : loose k = true := by
  cases k with
  | elem e => simp [loose, h]
  | _ => cases h

omit hf in
theorem get_none {n : Node} {a : AId} (h : ∀ y ∈ n.attrs, y.name ≠ .id a) : n.get a = none := by
  unfold Node.get getAttr
  rw [Option.map_eq_none_iff, List.find?_eq_none]
  intro y hy
  simpa using h y hy

omit hf in
theorem get_attr {n : Node} {a : AId} {v : Value} (h : n.get a = some v) : ∃ y ∈ n.attrs, y.name = .id a ∧ y.value = v := by
  unfold Node.get at h
  obtain ⟨y, hy, rfl⟩ := Option.map_eq_some_iff.1 h
  have := List.find?_some hy
  exact ⟨y, List.mem_of_find?_eq_some hy, by simpa using this, rfl⟩

theorem Sketch.plain : Render.Plain f where
  names := hf.good.attrs
  desc x hx hd := by
    obtain ⟨p, n, ks⟩ := x
    dsimp only at hd ⊢
    have hl := loose_not (desc_loose hd)
    rcases hf.at hx with h | ⟨h, _⟩
    · refine ⟨?_, hf.unused (spots_nodes hx).1 ?_, hf.kids_unused hx hl.2.1 hl.2.2.1⟩
      · cases hk : n.kind with
        | elem e =>
          have := h.place
          rw [hk] at this hd
          rcases fits_loose this (.inr hd) with rfl | rfl <;> rfl
        | _ => rw [hk] at hd; cases hd
      · cases hg : n.isGradient with
        | false => rfl
        | true => rcases isGradient_iff.1 hg with e | e <;> rw [e] at hd <;> cases hd
    · exact absurd h hl.2.1
  defs x hx hk := by
    obtain ⟨p, n, ks⟩ := x
    dsimp only at hk ⊢
    rcases hf.at hx with h | ⟨h, _⟩
    · refine ⟨hf.unused (spots_nodes hx).1 (no_gradient hk (by decide) (by decide)), fun a ha => get_none fun y hy e => ?_, ?_⟩
      · have := (h.attrs y hy).defs hk a e
        rw [ha] at this; cases this
      · have := h.place
        rw [hk] at this
        rw [fits_defs this]; rfl
    · rw [hk] at h; cases h
  foreign n hn he := get_none fun y hy e => by
    rcases ((hf.attr hn hy).transform e).1 with h | h
    · cases hk : n.kind with
      | elem e => rw [hk] at he; cases he
      | _ => rw [hk] at h; cases h
    · rw [(loose_not (desc_loose h)).1] at he; cases he


omit hf in
/-- No conditional attributes. -/
theorem Fine.no_cond {G : Nat → Prop} {p : Kind} {n : Node} {ks : Forest} (h : Fine G p n ks) {a : AId} (ha : a ∈ Ungroup.conds) : n.has a = false := by
  have hc : isCond a = true := by
    simp only [Ungroup.conds, List.mem_cons, List.not_mem_nil, or_false] at ha
    rcases ha with rfl | rfl | rfl <;> rfl
  have := get_none fun y hy => (h.attrs y hy).cond a hc
  rw [Node.has_eq, this]
  rfl

theorem Sketch.fit {g : Forest} {p : Kind} {w : Ungroup.Around} (hg : ∀ x ∈ spots p g, Fine (Grad f) x.1 x.2.1 x.2.2) (hn : ∀ n ∈ g.nodes, n ∈ f.nodes)
    (hc : w.conds = []) (hs : w.switch = false) (ht : w.transform = true → p = .elem .g) : Ungroup.Fit f.isUsed p w g := by
  induction g generalizing p w with
  | nil => trivial
  | cons n k r ihk ihr =>
    have h := hg (p, n, k) (by simp [spots])
    refine ⟨⟨fun hk => ⟨?_, h.names, fun x hx => (h.attrs x hx).group hk, fun hp => ?_, fun hu => ?_⟩, fun hw => ?_, fun a ha _ => h.no_cond ha, fun hp => ⟨?_, fun x hx => (h.attrs x hx).inherit, fun v hv => ?_⟩⟩, ?_, ?_⟩
    · have := h.place
      dsimp only at this
      rw [hk] at this
      rcases fits_loose this (.inl rfl) with rfl | rfl <;> rfl
    · have := h.place
      dsimp only at this
      rw [hp] at this; cases this
    · rw [hf.unused (hn n (by simp)) (no_gradient hk (by decide) (by decide))] at hu; cases hu
    · have hp := ht hw
      have hpl := h.place
      dsimp only at hpl
      rw [hp] at hpl
      refine ⟨hf.unused (hn n (by simp)) ?_, ?_⟩
      · cases hg : n.isGradient with
        | false => rfl
        | true => have := fits_gradient hpl hg; cases this
      · cases hk : n.kind with
        | elem e => rw [hk] at hpl; cases e <;> first | rfl | cases hpl
        | _ => rfl
    · have hpl := h.place
      dsimp only at hpl
      rw [hp] at hpl
      cases hk : n.kind with
      | text s => rw [hk] at hpl; cases hpl
      | _ => rfl
    · obtain ⟨y, hy, h1, rfl⟩ := get_attr hv
      exact ((h.attrs y hy).transform h1).2
    · refine ihk (fun x hx => hg x (by simp [spots, hx])) (fun m hm => hn m (by simp [hm])) ?_ ?_ ?_
      · unfold Ungroup.Around.enter
        split
        · have : Ungroup.conds.filter n.has = [] := List.filter_eq_nil_iff.2 fun a ha => by rw [h.no_cond ha]; decide
          show w.conds ++ _ = []
          rw [hc, this]; rfl
        · rfl
      · unfold Ungroup.Around.enter
        split
        · show (w.switch || decide (p = .elem .switch)) = false
          rw [hs]
          have := h.place
          simp only [Bool.false_or, decide_eq_false_iff_not]
          rintro rfl
          cases this
        · rfl
      · unfold Ungroup.Around.enter
        split
        next hk => exact fun _ => hk
        next => intro e; cases e
    · exact ihr (fun x hx => hg x (by simp [spots, hx])) (fun m hm => hn m (by simp [hm])) hc hs ht

theorem Sketch.groupable : Ungroup.Groupable f := hf.fit hf.nodes (fun _ h => h) rfl rfl (fun h => by cases h)

theorem Sketch.styled : GroupStyle.Styled f where
  foreign x hx he m hm := by
    obtain ⟨q, hq⟩ := Invisible.subs_spots (p := top) hx
    rcases List.mem_cons.1 hm with rfl | hm
    · refine hf.unused (spots_nodes hq).1 ?_
      cases hg : x.1.isGradient with
      | false => rfl
      | true => rcases isGradient_iff.1 hg with e | e <;> simp [Node.isSvgElem, e] at he
    · refine hf.kids_unused (n := x.1) (ks := x.2) hq ?_ ?_ m hm <;> intro e <;> simp [Node.isSvgElem, e] at he
  names := hf.good.attrs
  takes n hn ht := by
    rw [Node.has_eq] at ht
    obtain ⟨v, hv⟩ := Option.isSome_iff_exists.1 ht
    obtain ⟨y, hy, h1, _⟩ := get_attr hv
    rcases ((hf.attr hn hy).transform h1).1 with h | h
    · exact .inl h
    · exact .inr (isDesc_never h).1
  typed n hn v hv := by
    obtain ⟨y, hy, h1, rfl⟩ := get_attr hv
    exact ((hf.attr hn hy).transform h1).2
  inherit n hn x hx _ _ _ := (hf.attr hn hx).inherit
  svg x hx hk := by
    obtain ⟨q, hq⟩ := Invisible.subs_spots (p := doc) hx
    obtain ⟨m, hm, hd⟩ := (hf.nodes _ hq).anchor hk
    refine ⟨m, hm, by simp [Node.isSvgElem, hd], by rw [hd]; decide, by rw [hd]; decide, ?_⟩
    have hmn : m ∈ f.nodes := (spots_nodes hq).2 m (Invisible.top_nodes hm)
    rw [Node.has_eq, get_none]
    · rfl
    · intro y hy e
      rcases ((hf.attr hmn hy).transform e).1 with h | h <;> rw [hd] at h <;> cases h

omit hf in
theorem Fine.no_links {G : Nat → Prop} {p : Kind} {n : Node} {ks : Forest} (h : Fine G p n ks) (hl : loose n.kind = false) : n.links = [] := by
  rw [List.eq_nil_iff_forall_not_mem]
  intro k hk
  obtain ⟨y, hy, ht⟩ := Node.mem_links.1 hk
  rw [((h.attrs y hy).paint k ht).2.1] at hl
  cases hl

omit hf in
theorem styleLinks_sub {n : Node} {k : Nat} (h : k ∈ Node.styleLinks n) : k ∈ n.links := by
  unfold Node.styleLinks at h
  obtain ⟨y, hy, h⟩ := List.mem_filterMap.1 h
  refine Node.mem_links.2 ⟨y, hy, ?_⟩
  split at h
  · split at h
    · exact h
    · cases h
  · cases h

theorem Sketch.ranked {g : Forest} {p : Kind} {up : List Nat} (hg : ∀ x ∈ spots p g, Fine (Grad f) x.1 x.2.1 x.2.2) (hn : ∀ n ∈ g.nodes, n ∈ f.nodes)
    (hu : (∃ s, p = .comment s) ∨ p = .elem .svg ∨ p = .elem .defs → up = []) : Ranked (fun k => f.isUsed k = true) (fun _ => 0) up g := by
  induction g generalizing p up with
  | nil => trivial
  | cons n k r ihk ihr =>
    have h := hg (p, n, k) (by simp [spots])
    have hpl := h.place
    dsimp only at hpl
    refine ⟨fun hv => ?_, ?_, ?_⟩
    · have hng : n.isGradient = true := by
        cases hg : n.isGradient with
        | true => rfl
        | false => exact absurd (show f.isUsed n.key = true from hv) (by rw [hf.unused (hn n (by simp)) hg]; decide)
      have hl : ∀ e : EId, (e = .linearGradient ∨ e = .radialGradient) → n.kind = .elem e → n.links = [] ∧ ∀ m ∈ k.nodes, m.links = [] := by
        intro e he hk
        have h1 : n.links = [] := h.no_links (by rw [hk]; rcases he with rfl | rfl <;> rfl)
        refine ⟨h1, fun m hm => ?_⟩
        -- the children of a gradient are stops, without children
        have key : ∀ (c : Forest) (q : Kind), (q = .elem .linearGradient ∨ q = .elem .radialGradient ∨ q = .elem .stop) → (∀ x ∈ spots q c, Fine (Grad f) x.1 x.2.1 x.2.2) →
            ∀ m ∈ c.nodes, m.links = [] := by
          intro c
          induction c with
          | nil => intro q _ _ m hm; cases hm
          | cons a b c ihb ihc =>
            intro q hq hx m hm
            have ha := hx (q, a, b) (by simp [spots])
            have hs : a.kind = .elem .stop := by
              have := ha.place
              rcases hq with rfl | rfl | rfl
              · simpa [fits] using this
              · simpa [fits] using this
              · cases this
            simp only [Forest.nodes_cons, List.mem_cons, List.mem_append] at hm
            rcases hm with rfl | hm | hm
            · exact ha.no_links (by rw [hs]; rfl)
            · exact ihb a.kind (.inr (.inr hs)) (fun x hx' => hx x (by simp [spots, hx'])) m hm
            · exact ihc q hq (fun x hx' => hx x (by simp [spots, hx'])) m hm
        refine key k n.kind (by rw [hk]; rcases he with rfl | rfl <;> simp) (fun x hx' => hg x (by simp [spots, hx'])) m hm
      have hup : up = [] := hu (.inr (.inr (fits_gradient hpl hng)))
      obtain ⟨h1, h2⟩ : n.links = [] ∧ ∀ m ∈ k.nodes, m.links = [] := by
        rcases isGradient_iff.1 hng with e | e
        · exact hl _ (.inl rfl) e
        · exact hl _ (.inr rfl) e
      subst hup
      refine ⟨fun x hx => (by simp at hx), fun x hx => (by rw [h1] at hx; cases hx), fun m hm x hx => ?_⟩
      rw [h2 m hm] at hx; cases hx
    · refine ihk (p := n.kind) (fun x hx => hg x (by simp [spots, hx])) (fun m hm => hn m (by simp [hm])) fun hk => ?_
      have h0 : up = [] := by
        refine hu ?_
        rcases hk with hk | hk | hk
        · obtain ⟨s, hk⟩ := hk
          rw [hk, fits_comment] at hpl; cases hpl
        · rw [hk] at hpl
          exact .inl (fits_svg hpl)
        · rw [hk] at hpl; exact .inr (.inl (fits_defs hpl))
      have hs : Node.styleLinks n = [] := by
        rw [List.eq_nil_iff_forall_not_mem]
        intro x hx
        have := styleLinks_sub hx
        rw [h.no_links] at this
        · cases this
        · rcases hk with ⟨s, hk⟩ | hk | hk <;> rw [hk] <;> rfl
      rw [h0, hs]; rfl
    · exact ihr (fun x hx => hg x (by simp [spots, hx])) (fun m hm => hn m (by simp [hm])) hu

end Verif.Draft
