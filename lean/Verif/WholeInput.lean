import Verif.WholeCheck
import Verif.GroupDefsProps
import Verif.Idem
/-
C71: from the document that is read.
-/
namespace Verif.Whole
open Verif.Dom Verif.Spec Verif.Render Verif.Draft Verif.Pipeline
open Verif.Dom (Res)
open Verif.Cli (CleaningOptions)
open Verif.Simple
open Verif.Reader (Standard Sane onPaper svgInitial_sane svgInitial_standard draftsman)
open Verif.DefaultAttrs (svgInitial)
open Verif.GroupDefs (newDefs)
open Verif.GroupStyle (freshKey)

/-! ### Specification -/

/-- The document with an empty `defs` element as the first child of the root element, as the preparation adds it. -/
def addDefs (f : Forest) : Forest :=
  match svgElement f with
  | some (n, k) => setSvgElement n (.cons (newDefs (freshKey f)) .nil k) f
  | none => f

/-- What the preparation leaves as it is. -/
structure Exact (o : CleaningOptions) (n : Node) : Prop where
  /-- No definitions. -/
  defs : n.kind ≠ .elem .defs ∧ n.kind ≠ .elem .linearGradient ∧ n.kind ≠ .elem .radialGradient
  /-- All numbers are given to the precision of the options. -/
  round : ∀ y ∈ n.attrs, ∀ a, y.name = .id a → Round.value (precisions o) a y.value = some y.value
  /-- The code removes `marker` attributes. -/
  marker : ∀ y ∈ n.attrs, y.name ≠ .id .marker
  /-- Rectangles have a size. -/
  size : n.kind = .elem .rect → n.has .width = true ∧ n.has .height = true
  radius : n.kind = .elem .rect → ∀ y ∈ n.attrs, y.name = .id .rx ∨ y.name = .id .ry → ∀ l, y.value = .length l → 0 ≤ l.num
  /-- Points have two coordinates. -/
  points : n.kind = .elem .polyline ∨ n.kind = .elem .polygon → ∀ y ∈ n.attrs, y.name = .id .points → ∀ p, y.value = .numberList p → p.length % 2 = 0

/-! ### The tasks of the preparation -/

section
variable {ini : AId → Option Value} {o : CleaningOptions} {f : Forest}

theorem addDefs_nodes (f : Forest) : (∀ n ∈ f.nodes, n ∈ (addDefs f).nodes) ∧ ∀ n ∈ (addDefs f).nodes, n ∈ f.nodes ∨ n = newDefs (freshKey f) := by
  unfold addDefs
  split
  swap
  · exact ⟨fun n hn => hn, fun n hn => .inl hn⟩
  rename_i s k hs
  generalize newDefs (freshKey f) = d
  induction f with
  | nil => cases hs
  | cons n ks r _ ih =>
    unfold svgElement at hs
    unfold setSvgElement
    split at hs
    next hn =>
      cases hs
      rw [if_pos hn]
      simp [Forest.nodes]
      tauto
    next hn =>
      rw [if_neg hn]
      obtain ⟨h1, h2⟩ := ih hs
      simp only [Forest.nodes, List.mem_cons, List.mem_append]
      refine ⟨fun m hm => ?_, fun m hm => ?_⟩
      · rcases hm with hm | hm | hm
        exacts [.inl hm, .inr (.inl hm), .inr (.inr (h1 m hm))]
      · rcases hm with hm | hm | hm
        · exact .inl (.inl hm)
        · exact .inl (.inr (.inl hm))
        · exact (h2 m hm).imp (fun h => .inr (.inr h)) id

theorem resolveStops_id (h : ∀ n ∈ f.nodes, n.isGradient = false) : Stops.resolveStops f = .ok f := by
  induction f with
  | nil => rw [Stops.resolveStops]
  | cons n k r ih1 ih2 =>
    have e := h n (by simp [Forest.nodes])
    rw [Stops.resolveStops]
    split
    next hk => rw [e] at hk; cases hk
    next hk => rw [e] at hk; cases hk
    next k1 hk =>
      rw [e] at hk
      cases hk
      rw [ih1 fun m hm => h m (by simp [Forest.nodes, hm]), ih2 fun m hm => h m (by simp [Forest.nodes, hm])]
      rfl

theorem fixGo_id (h : ∀ n ∈ f.nodes, n.isGradient = false ∧ Stops.fixNode n = n) : Stops.fixGo f = some f := by
  induction f with
  | nil => rw [Stops.fixGo]
  | cons n k r ih1 ih2 =>
    obtain ⟨e, e'⟩ := h n (by simp [Forest.nodes])
    rw [Stops.fixGo]
    split
    next hk => rw [e] at hk; cases hk
    next k1 hk =>
      rw [e] at hk
      cases hk
      rw [ih1 fun m hm => h m (by simp [Forest.nodes, hm]), ih2 fun m hm => h m (by simp [Forest.nodes, hm])]
      simp [e']

theorem mapRes_id {g : List Node → Node → Res Node} (h : ∀ n ∈ f.nodes, ∀ anc, g anc n = .ok n) (anc : List Node) : f.mapRes g anc = .ok f := by
  induction f generalizing anc with
  | nil => rfl
  | cons n k r ih1 ih2 =>
    unfold Forest.mapRes
    rw [h n (by simp [Forest.nodes]), ]
    show ((k.mapRes g (n :: anc)).bind fun k' => (r.mapRes g anc).bind fun r' => Res.ok (Forest.cons n k' r')) = _
    rw [ih1 fun m hm => h m (by simp [Forest.nodes, hm]), ih2 fun m hm => h m (by simp [Forest.nodes, hm])]
    rfl

theorem gradients_id {e : EId} (g : Nat → Forest → Option Forest) (h : ∀ n ∈ f.nodes, n.isTag e = false) : (Gradients.genOrder f e).bind (fun order => Gradients.forEach g order f) = some f := by
  have : Gradients.ofKind f e = [] := by
    unfold Gradients.ofKind
    rw [List.filter_eq_nil_iff.2 fun n hn => by rw [h n hn]; simp]
    rfl
  unfold Gradients.genOrder
  rw [this]
  rfl

theorem inherit_id {n : Node} (h : ∀ y ∈ n.attrs, y.value ≠ .kw .inherit ∧ y.value ≠ .kw .currentColor) (anc : List Node) : Inherit.body anc n = .ok n := by
  have : ∀ w, w = .inherit ∨ w = .currentColor → Inherit.withKw n w = [] := by
    intro w hw
    unfold Inherit.withKw
    rw [List.filterMap_eq_nil_iff]
    intro y hy
    split
    · rw [if_neg]
      rcases hw with rfl | rfl
      exacts [(h y hy).1, (h y hy).2]
    · rfl
  unfold Inherit.body
  split
  · rw [this _ (.inl rfl), this _ (.inr rfl)]
    rfl
  · rfl

theorem fixNode_id {n : Node} (hn : Exact o n) (ho : ∀ y ∈ n.attrs, OutlineApt o n.kind y) : Stops.fixNode n = n := by
  unfold Stops.fixNode
  have hlen : ∀ a, n.has a = true → (∀ y ∈ n.attrs, y.name = .id a → ∀ l, y.value = .length l → 0 ≤ l.num) → Stops.fixLen n a = n := by
    intro a ha h
    unfold Stops.fixLen
    rw [if_pos ha]
    split
    next l hl =>
      obtain ⟨y, hy, e, e'⟩ := get_attr hl
      rw [if_neg (not_lt.2 (h y hy e l e'))]
    next => rfl
  have hrm : ∀ a, (∀ y ∈ n.attrs, y.name = .id a → ∀ l, y.value = .length l → 0 ≤ l.num) → Stops.rmNegativeLen n a = n := by
    intro a h
    unfold Stops.rmNegativeLen
    split
    next l hl =>
      obtain ⟨y, hy, e, e'⟩ := get_attr hl
      rw [if_neg (not_lt.2 (h y hy e l e'))]
    next => rfl
  have hpoly : n.kind = .elem .polyline ∨ n.kind = .elem .polygon → Stops.fixPoly n = n := by
    intro hk
    unfold Stops.fixPoly
    split
    next p hp =>
      obtain ⟨y, hy, e, e'⟩ := get_attr hp
      have h1 := hn.points hk y hy e p e'
      have h2 := (ho y hy).points hk e
      have h3 : Stops.evenPoints p = p := by unfold Stops.evenPoints; rw [if_neg (by simpa using h1)]
      rw [h3, if_neg fun h => h2 (by rw [e', h])]
      unfold Stops.modValue
      have : n.attrs.map (fun x => if x.name = .id .points then { x with value := Stops.evenPointsValue x.value } else x) = n.attrs := by
        conv_rhs => rw [← List.map_id n.attrs]
        refine List.map_congr_left fun x hx => ?_
        split
        next hxn =>
          obtain ⟨xn, xv, xb⟩ := x
          cases xv with
          | numberList q =>
            have : Stops.evenPoints q = q := by unfold Stops.evenPoints; rw [if_neg (by simpa using hn.points hk _ hx hxn q rfl)]
            simp [Stops.evenPointsValue, this]
          | _ => rfl
        next => rfl
      rw [this]
    next => rfl
  split
  next hk =>
    unfold Stops.fixRect
    rw [hlen .width (hn.size hk).1 fun y hy e => (ho y hy).size hk (.inl e), hlen .height (hn.size hk).2 fun y hy e => (ho y hy).size hk (.inr e),
      hrm .rx fun y hy e => hn.radius hk y hy (.inl e), hrm .ry fun y hy e => hn.radius hk y hy (.inr e)]
  next hk => exact hpoly (.inl hk)
  next hk => exact hpoly (.inr hk)
  next => rfl

theorem fixInvalid_id (h : ∀ n ∈ f.nodes, n.isGradient = false ∧ Exact o n ∧ ∀ y ∈ n.attrs, OutlineApt o n.kind y) : Stops.fixInvalidAttributes f = some f := by
  unfold Stops.fixInvalidAttributes
  rw [fixGo_id fun n hn => ⟨(h n hn).1, fixNode_id (h n hn).2.1 (h n hn).2.2⟩]
  show some (f.map _) = _
  rw [Forest.map_id']
  intro n hn
  have : n.attrs.filter (fun x => decide (x.name ≠ .id .marker)) = n.attrs := List.filter_eq_self.2 fun y hy => by simpa using (h n hn).2.1.marker y hy
  unfold Node.rm rmAttr
  rw [this]

theorem node_id {p : Round.Precisions} {n : Node} (h : ∀ y ∈ n.attrs, ∀ a, y.name = .id a → Round.value p a y.value = some y.value) : Round.node p n = some n := by
  have : Round.attrs p n.attrs = some n.attrs := by
    generalize n.attrs = l at h
    induction l with
    | nil => rfl
    | cons x t ih =>
      unfold Round.attrs
      rw [ih fun y hy => h y (List.mem_cons_of_mem _ hy)]
      cases hx : x.name with
      | id a =>
        dsimp only
        rw [h x List.mem_cons_self a hx, ← hx]
        rfl
      | name _ => rfl
  unfold Round.node
  rw [this]
  split <;> rfl

theorem mapOpt_id {g : Node → Option Node} (h : ∀ n ∈ f.nodes, g n = some n) : f.mapOpt g = some f := by
  induction f with
  | nil => rfl
  | cons n k r ih1 ih2 =>
    unfold Forest.mapOpt
    rw [h n (by simp [Forest.nodes]), ih1 fun m hm => h m (by simp [Forest.nodes, hm]), ih2 fun m hm => h m (by simp [Forest.nodes, hm])]
    rfl

theorem Exact.not_gradient {n : Node} (h : Exact o n) : n.isGradient = false := by
  unfold Node.isGradient Node.isTag
  simp [h.defs.2.1, h.defs.2.2]

theorem fresh_link {n : Node} (hn : n ∈ f.nodes) {x : Nat} (hx : x ∈ n.links) : x ≠ freshKey f := by
  rintro rfl
  have := GroupStyle.fresh_unused f (le_refl (freshKey f))
  rw [Forest.isUsed_iff.2 ⟨n, hn, hx⟩] at this
  cases this

/-- Adding the `defs` element is not seen. -/
theorem addDefs_look (h : Tidy (addDefs f)) (hs : ∃ s, svgElement f = some s) : SameLook (addDefs f) f := by
  have : removeEmptyDefs (addDefs f) = some f := by
    obtain ⟨⟨s, k⟩, hs⟩ := hs
    have hsvg : s.isTag .svg = true := by
      have := (GroupDefs.svgElement_mem hs).2
      simpa [Node.isTag] using this
    unfold removeEmptyDefs addDefs
    rw [hs]
    dsimp only
    rw [(Idem.svgElement_set hs hsvg).1]
    show some (unlinkAll [freshKey f] (setSvgElement s k _)) = _
    rw [(Idem.svgElement_set hs hsvg).2, GroupDefs.setSvg_self hs]
    unfold unlinkAll
    rw [Forest.map_id']
    intro n hn
    exact Invisible.unlink_id fun x hx => by simpa using fresh_link hn hx
  exact (removeEmptyDefs_tidy h this).1

theorem groupDefs_add (hs : ∃ s, svgElement f = some s) (h : ∀ n ∈ (addDefs f).nodes, n.tag.any EId.isReferenced = false) (hd : ∀ n ∈ f.nodes, n.kind ≠ .elem .defs) :
    GroupDefs.groupDefs f = some (addDefs f) := by
  have h1 : GroupDefs.mainDefs f = (newDefs (freshKey f), .nil) := by
    have : UnusedDefs.firstDefs f = none := by
      unfold UnusedDefs.firstDefs
      rw [List.find?_eq_none.2 fun n hn => by simp [Node.isTag, hd n hn]]
      rfl
    unfold GroupDefs.mainDefs
    rw [this]
    rfl
  have hk : ∀ n ∈ f.nodes, n.key ≠ freshKey f := fun n hn e => Regroup.fresh_key f (e ▸ Forest.key_mem hn)
  have h2 : GroupDefs.putFirst (newDefs (freshKey f), .nil) f = some (addDefs f) := by
    obtain ⟨⟨s, k⟩, hs⟩ := hs
    obtain ⟨A, B, e, _⟩ := Spec.setSvg_split hs
    have hk' : ∀ n ∈ k.nodes, n.key ≠ freshKey f := fun n hn => hk n (by rw [e]; simp [hn])
    unfold GroupDefs.putFirst addDefs
    rw [hs]
    show some _ = some _
    congr 1
    dsimp only
    rw [if_neg]
    · rw [GroupDefs.prune_id (p := fun m => decide (m.key = (newDefs (freshKey f)).key)) (f := k) fun n hn => decide_eq_false (hk' n hn), GroupDefs.prune_id (p := fun m => decide (m.key = (newDefs (freshKey f)).key)) (f := f) fun n hn => decide_eq_false (hk n hn)]
    · cases k with
      | nil => simp [GroupDefs.startsWith]
      | cons m _ _ => exact fun e => hk' m (by simp [Forest.nodes]) (of_decide_eq_true e)
  have h3 : ∀ (d : Nat) (p : Option Nat) (g : Forest), (∀ n ∈ g.nodes, n.tag.any EId.isReferenced = false) → GroupDefs.strays d p g = [] := by
    intro d p g
    induction g generalizing p with
    | nil => intro _; rfl
    | cons n k r ih1 ih2 =>
      intro h
      unfold GroupDefs.strays
      rw [h n (by simp [Forest.nodes]), ih1 _ fun m hm => h m (by simp [Forest.nodes, hm]), ih2 _ fun m hm => h m (by simp [Forest.nodes, hm])]
      rfl
  have h4 : ∀ n ∈ (addDefs f).nodes, GroupDefs.otherDefs (freshKey f) n = false := by
    intro n hn
    rcases (addDefs_nodes _).2 n hn with hn | rfl
    · simp [GroupDefs.otherDefs, Node.isTag, hd n hn]
    · simp [GroupDefs.otherDefs, newDefs]
  have h5 : ∀ (g : Forest), (∀ n ∈ g.nodes, GroupDefs.otherDefs (freshKey f) n = false) → GroupDefs.defsKids (freshKey f) g = [] := by
    intro g
    induction g with
    | nil => intro _; rfl
    | cons n k r ih1 ih2 =>
      intro h
      unfold GroupDefs.defsKids
      rw [h n (by simp [Forest.nodes]), ih1 fun m hm => h m (by simp [Forest.nodes, hm]), ih2 fun m hm => h m (by simp [Forest.nodes, hm])]
      rfl
  unfold GroupDefs.groupDefs
  rw [h1]
  show (GroupDefs.putFirst (newDefs (freshKey f), .nil) f).bind _ = _
  rw [h2]
  show (GroupDefs.moveRefs (freshKey f) (GroupDefs.strays (freshKey f) none (addDefs f)) (addDefs f)).map _ = _
  rw [h3 _ _ _ h]
  show some ((GroupDefs.moveAll (freshKey f) (GroupDefs.defsKids (freshKey f) (addDefs f)) (addDefs f)).remove _) = _
  rw [h5 _ h4]
  show some ((addDefs f).remove (GroupDefs.otherDefs (freshKey f))) = _
  obtain ⟨e1, e2⟩ := Idem.prune_none h4
  unfold Forest.remove
  rw [e1, e2, Forest.map_id' fun n _ => Idem.unlink_none n]

theorem no_reference {n : Node} {p : Kind} (h : fits p n.kind = true) (h1 : n.kind ≠ .elem .linearGradient) (h2 : n.kind ≠ .elem .radialGradient) : n.tag.any EId.isReferenced = false := by
  unfold Node.tag
  split
  next e he =>
    rw [he] at h h1 h2
    cases e <;> first | rfl | exact absurd rfl h1 | exact absurd rfl h2 | skip
    all_goals (exfalso; rcases p with e | _ | _ | _ <;> first | (cases h; done) | (cases e <;> cases h))
  next => rfl

/-- The preparation adds the `defs` element and leaves the rest as it is. -/
theorem prepared (E : Pipeline.Env) (hp : Apt ini .shapes o (addDefs f)) (hx : ∀ n ∈ f.nodes, Exact o n) {p : Forest} (h : runUpTo E o 8 f = .ok p) :
    p = addDefs f ∧ ∃ s, svgElement f = some s := by
  have hsub := (addDefs_nodes f).1
  have ha : ∀ n ∈ f.nodes, ∀ y ∈ n.attrs, AttrApt ini .shapes o n.kind y := fun n hn y hy => attr_apt (hp.attr (hsub n hn) hy)
  have hi : ∀ n ∈ f.nodes, ∀ y ∈ n.attrs, y.value ≠ .kw .inherit := fun n hn y hy => @AttrFine.inherit (apt ini .shapes o) _ _ _ (hp.attr (hsub n hn) hy)
  have hg : ∀ n ∈ f.nodes, n.isGradient = false := fun n hn => (hx n hn).not_gradient
  have e : (plan (tasks E o) o).take 8 = [check (tasks E o).precleanChecks, (tasks E o).resolveLinear, (tasks E o).resolveRadial, (tasks E o).resolveStops, (tasks E o).resolveInherit,
    (tasks E o).fixInvalid, (tasks E o).groupDefs, (tasks E o).roundNumbers] := rfl
  unfold runUpTo at h
  rw [e] at h
  obtain ⟨f1, h1, r1⟩ := runAll_cons h
  have e1 : f1 = f := by
    unfold check at h1
    split at h1 <;> cases h1
    rfl
  subst e1
  obtain ⟨f2, h2, r2⟩ := runAll_cons r1
  have h2 := may_ok (show (may Gradients.resolveLinear) _ = .ok f2 from h2)
  unfold Gradients.resolveLinear at h2
  rw [gradients_id _ fun n hn => by simpa [Node.isTag] using (hx n hn).defs.2.1] at h2
  cases h2
  obtain ⟨f3, h3, r3⟩ := runAll_cons r2
  have h3 := may_ok (show (may Gradients.resolveRadial) _ = .ok f3 from h3)
  unfold Gradients.resolveRadial at h3
  rw [gradients_id _ fun n hn => by simpa [Node.isTag] using (hx n hn).defs.2.2] at h3
  cases h3
  obtain ⟨f4, h4, r4⟩ := runAll_cons r3
  have h4 : Stops.resolveStops f1 = .ok f4 := h4
  rw [resolveStops_id hg] at h4
  cases h4
  obtain ⟨f5, h5, r5⟩ := runAll_cons r4
  have h5 : Inherit.resolveInherit f1 = .ok f5 := h5
  unfold Inherit.resolveInherit at h5
  rw [mapRes_id fun n hn anc => inherit_id (fun y hy => ⟨hi n hn y hy, (ha n hn y hy).current⟩) anc] at h5
  cases h5
  obtain ⟨f6, h6, r6⟩ := runAll_cons r5
  have h6 := may_ok (show (may Stops.fixInvalidAttributes) _ = .ok f6 from h6)
  rw [fixInvalid_id fun n hn => ⟨hg n hn, hx n hn, fun y hy => (ha n hn y hy).outline rfl⟩] at h6
  cases h6
  obtain ⟨f7, h7, r7⟩ := runAll_cons r6
  have h7 := may_ok (show (may GroupDefs.groupDefs) _ = .ok f7 from h7)
  have hs : ∃ s, svgElement f1 = some s := by
    cases hq : svgElement f1 with
    | some s => exact ⟨s, rfl⟩
    | none =>
      unfold GroupDefs.groupDefs GroupDefs.putFirst at h7
      rw [hq] at h7
      cases h7
  refine ⟨?_, hs⟩
  rw [groupDefs_add hs (fun n hn => ?_) fun n hn => (hx n hn).defs.1] at h7
  swap
  · obtain ⟨p, hp'⟩ := hp.fits hn
    rcases (addDefs_nodes _).2 n hn with hn | rfl
    · exact no_reference hp' (hx n hn).defs.2.1 (hx n hn).defs.2.2
    · rfl
  cases h7
  obtain ⟨f8, h8, r8⟩ := runAll_cons r7
  have h8 := may_ok (show (may (Round.roundNumbers (precisions o))) _ = .ok f8 from h8)
  unfold Round.roundNumbers at h8
  rw [mapOpt_id fun n hn => ?_] at h8
  swap
  · refine node_id fun y hy => ?_
    rcases (addDefs_nodes _).2 n hn with hn | rfl
    · exact (hx n hn).round y hy
    · cases hy
  cases h8
  cases r8
  rfl

/-- C71 from the document that is read, for drawings without definitions in which all numbers are given to the precision of the options: what is
written is drawn as what was read.  (The preparation adds an empty `defs` element, `addDefs`; it is removed in the end.)  Missing: other documents, as in
`C71_drawing_partial`. -/
theorem C71_input_partial (E : Pipeline.Env) (o : CleaningOptions) (hs : Standard E.ini) (hn : Sane E.ini) {f g : Forest} (hp : Apt E.ini .shapes o (addDefs f))
    (hx : ∀ n ∈ f.nodes, Exact o n) (hg : cleanDoc E o f = .ok g) :
    ∃ d, g = joinStyleAttributes E.nameOf E.ser o.joinStyleAttributes d ∧ SameDrawing E.ini f (onPaper d) ∧
      (o.joinStyleAttributes = .none → SameDrawing E.ini f (onPaper g)) := by
  have e : plan (tasks E o) o = (plan (tasks E o) o).take 8 ++ (plan (tasks E o) o).drop 8 := (List.take_append_drop 8 _).symm
  have hg' := hg
  unfold cleanDoc at hg'
  rw [e] at hg'
  obtain ⟨p, h1, _⟩ := runAll_append hg'
  obtain ⟨rfl, hsvg⟩ := prepared E hp hx h1
  obtain ⟨d, rfl, _, h3, h4⟩ := C71_drawing_partial E o hs hn h1 hp hg
  have hl : SameDrawing E.ini f (addDefs f) := .of_view (SameLook.view fun P π d => (addDefs_look hp.sketch.plain.tidy hsvg P π d).symm)
  exact ⟨d, rfl, hl.trans h3, fun hj => hl.trans (h4 hj)⟩

end

/-! ### Example -/

def exactB (o : CleaningOptions) (n : Node) : Bool :=
  !decide (n.kind = .elem .defs ∨ n.kind = .elem .linearGradient ∨ n.kind = .elem .radialGradient) &&
  n.attrs.all (fun y => (match y.name with
    | .id a => decide (Round.value (precisions o) a y.value = some y.value) && decide (a ≠ .marker) && (!decide (n.kind = .elem .rect ∧ (a = .rx ∨ a = .ry)) || (match y.value with | .length l => decide (0 ≤ l.num) | _ => true)) &&
      (!decide (a = .points) || (match y.value with | .numberList p => decide (p.length % 2 = 0) | _ => true))
    | .name _ => true)) &&
  (!decide (n.kind = .elem .rect) || n.has .width && n.has .height)

theorem exact_of {o : CleaningOptions} {n : Node} (h : exactB o n = true) : Exact o n := by
  simp only [exactB, Bool.and_eq_true, Bool.or_eq_true, Bool.not_eq_true', decide_eq_false_iff_not, List.all_eq_true, not_or] at h
  obtain ⟨⟨h1, h2⟩, h3⟩ := h
  have h2' : ∀ y ∈ n.attrs, ∀ a, y.name = .id a → Round.value (precisions o) a y.value = some y.value ∧ a ≠ .marker ∧ (n.kind = .elem .rect ∧ (a = .rx ∨ a = .ry) → ∀ l, y.value = .length l → 0 ≤ l.num) ∧
      (a = .points → ∀ p, y.value = .numberList p → p.length % 2 = 0) := by
    intro y hy a e
    have := h2 y hy
    rw [e] at this
    simp only [Bool.and_eq_true, Bool.or_eq_true, Bool.not_eq_true', decide_eq_false_iff_not, decide_eq_true_eq] at this
    obtain ⟨⟨⟨a1, a2⟩, a3⟩, a4⟩ := this
    refine ⟨a1, a2, fun hc l hl => ?_, fun hc l hl => ?_⟩
    · have := a3.resolve_left fun h => h hc
      rw [hl] at this
      simpa using this
    · have := a4.resolve_left fun h => h hc
      rw [hl] at this
      simpa using this
  exact ⟨h1, fun y hy a e => (h2' y hy a e).1, fun y hy e => (h2' y hy _ e).2.1 rfl, fun e => h3.resolve_left fun h => h e,
    fun e y hy e' => e'.elim (fun e' => (h2' y hy _ e').2.2.1 ⟨e, .inl rfl⟩) fun e' => (h2' y hy _ e').2.2.1 ⟨e, .inr rfl⟩, fun _ y hy e' => (h2' y hy _ e').2.2.2 rfl⟩

/-- The example of `WholeCheck.lean`, from the document that is read. -/
example : Apt svgInitial .shapes allOpts (addDefs wholeDoc) ∧ (∀ n ∈ wholeDoc.nodes, Exact allOpts n) ∧ cleanDoc svgEnv allOpts wholeDoc = .ok (svgUpTo allOpts 42 wholeDoc) ∧
    SameDrawing svgInitial wholeDoc (onPaper (svgUpTo allOpts 42 wholeDoc)) := by
  have h1 : Apt svgInitial .shapes allOpts (addDefs wholeDoc) := whole_of (by decide +kernel)
  have h2 : ∀ n ∈ wholeDoc.nodes, Exact allOpts n := fun n hn => exact_of (List.all_eq_true.1 (show wholeDoc.nodes.all (exactB allOpts) = true by decide +kernel) n hn)
  have h3 : cleanDoc svgEnv allOpts wholeDoc = .ok (svgUpTo allOpts 42 wholeDoc) := by decide +kernel
  obtain ⟨d, _, _, h⟩ := C71_input_partial svgEnv allOpts svgInitial_standard svgInitial_sane h1 h2 h3
  exact ⟨h1, h2, h3, h rfl⟩

end Verif.Whole
