import Verif.GroupStyleLook
import Verif.UngroupCases
/-
Property C37, continued: the program does not panic; documents that meet the conditions, and documents for which the full claim fails.
-/
namespace Verif.GroupStyle
open Verif.Dom Verif.Spec Verif.Render
open Verif.ApplyTs (elem px)
open Verif.Needless (rmAll)
open Verif.Ungroup (svg rect scale2 shift not_sameLook isTransform copyAttr)

/-! ### No panic -/

theorem setAll_isSome {A : List Attr} {g : Node} (h : ∀ x ∈ A, x.value.target ≠ some g.key) : (setAll A g).isSome = true := by
  induction A generalizing g with
  | nil => rfl
  | cons x t ih =>
    have hx := h x (List.mem_cons_self ..)
    have key : ∃ g1, setOn g x = some g1 ∧ g1.key = g.key := by
      unfold setOn
      split
      · refine ⟨_, rfl, ?_⟩
        unfold appendValue
        split <;> rfl
      · unfold copyAttr
        rw [if_neg hx]
        exact ⟨_, rfl, rfl⟩
    obtain ⟨g1, h1, h2⟩ := key
    simp only [setAll, h1, Option.bind_some]
    exact ih (fun y hy => by rw [h2]; exact h y (List.mem_cons_of_mem _ hy))

/-- All attributes of a table are attributes of the nodes. -/
theorem attrs_of_table {anc : List Node} {t : Forest} {d : Row} (hd : d ∈ table anc (svgTop t)) {v : Nat → Prop} (hl : LinksIn v t) :
    ∀ x ∈ d.attrs, ∀ k, x.value.target = some k → v k := by
  intro x hx k hk
  have hrow := (table_ok anc (svgTop t)).rows d hd
  obtain ⟨⟨i, j⟩, hr⟩ := Option.isSome_iff_exists.1 (longestRange_isSome (table_count anc (svgTop t) d hd))
  obtain ⟨hij, hfl⟩ := longestRange_spec hr
  have hi := hfl i (Nat.le_refl i) hij
  have hlt : i < (svgTop t).length := by
    rw [← hrow.length]
    rw [List.getElem?_eq_some_iff] at hi
    exact hi.1
  exact attrs_links hl (List.getElem_mem hlt) (fun y hy => hrow.sound i _ hi (List.getElem?_eq_getElem hlt) y hy) x hx k hk

theorem wrapRow_isSome {d : Row} {t : Forest} {fresh : Nat} (hc : 2 ≤ count d.flags) (hx : ∀ x ∈ d.attrs, x.value.target ≠ some fresh) :
    (wrapRow d t fresh).isSome = true := by
  unfold wrapRow
  obtain ⟨⟨i, j⟩, hr⟩ := Option.isSome_iff_exists.1 (longestRange_isSome hc)
  obtain ⟨g, hg⟩ := Option.isSome_iff_exists.1 (setAll_isSome (g := newG fresh) hx)
  rw [hr]
  simp only [Option.bind_some, hg, Option.map_some, Option.isSome_some]

theorem wrapFirst_isSome {rows : List Row} {t : Forest} {fresh : Nat} (hc : ∀ d ∈ rows, 2 ≤ count d.flags)
    (hx : ∀ d ∈ rows, ∀ x ∈ d.attrs, x.value.target ≠ some fresh) : (wrapFirst rows t fresh).isSome = true := by
  unfold wrapFirst
  split
  · rfl
  · exact wrapRow_isSome (hc _ (List.mem_cons_self ..)) (hx _ (List.mem_cons_self ..))

/-- One element: there is no panic, if nothing refers to it. -/
theorem regroup_isSome {u : Nat → Bool} {anc : List Node} {p : Node} {k : Forest} {fresh : Nat} (hl : LinksIn (fun x => u x = true) k)
    (hp : u p.key = false) (hu : ∀ x, fresh ≤ x → u x = false) : (regroup u anc p k fresh).isSome = true := by
  unfold regroup
  split
  · rfl
  · have e0 := (splitTail_spec u k).1
    revert e0
    generalize (splitTail u k).1 = b
    generalize (splitTail u k).2 = t
    intro e0
    dsimp only
    split
    · rfl
    · split
      · rfl
      next d ds htd =>
        rw [e0, linksIn_append_iff] at hl
        have hx : ∀ y, u y = false → ∀ e ∈ d :: ds, ∀ x ∈ e.attrs, x.value.target ≠ some y := by
          intro y hy e he x hx hk
          have := attrs_of_table (anc := p :: anc) (by rw [htd]; exact he) hl.2 x hx y hk
          simp only [hy] at this
          cases this
        have hc := table_count (p :: anc) (svgTop t)
        rw [htd] at hc
        split
        · split
          · obtain ⟨g, hg⟩ := Option.isSome_iff_exists.1 (setAll_isSome (g := p) (hx _ hp d (List.mem_cons_self ..)))
            obtain ⟨w, hw⟩ := Option.isSome_iff_exists.1 (wrapFirst_isSome (t := pick (ids d.attrs) 0 ((svgTop t).length - 1) 0 t) (fresh := fresh)
              (fun e he => hc e (List.mem_cons_of_mem _ he)) (fun e he => hx _ (hu _ (Nat.le_refl _)) e (List.mem_cons_of_mem _ he)))
            rw [hg]
            simp only [Option.bind_some, hw, Option.map_some, Option.isSome_some]
          · obtain ⟨g, hg⟩ := Option.isSome_iff_exists.1 (setAll_isSome (g := newG fresh) (hx _ (hu _ (Nat.le_refl _)) d (List.mem_cons_self ..)))
            obtain ⟨w, hw⟩ := Option.isSome_iff_exists.1 (wrapFirst_isSome (t := pick (ids d.attrs) 0 ((svgTop t).length - 1) 0 t) (fresh := fresh + 1)
              (fun e he => hc e (List.mem_cons_of_mem _ he)) (fun e he => hx _ (hu _ (Nat.le_succ _)) e (List.mem_cons_of_mem _ he)))
            rw [hg]
            simp only [Option.bind_some, hw, Option.map_some, Option.isSome_some]
        · obtain ⟨w, hw⟩ := Option.isSome_iff_exists.1 (wrapRow_isSome (t := t) (hc d (List.mem_cons_self ..))
            (hx _ (hu _ (Nat.le_refl _)) d (List.mem_cons_self ..)))
          rw [hw]
          rfl

theorem regroup_links {u : Nat → Bool} {anc : List Node} {p p' : Node} {k k' : Forest} {fresh fr : Nat}
    (h : regroup u anc p k fresh = some (p', k', fr)) {v : Nat → Prop} (hp : ∀ x ∈ p.links, v x) (hl : LinksIn v k) :
    fresh ≤ fr ∧ (∀ x ∈ p'.links, v x) ∧ LinksIn v k' := by
  have triv : ∀ {p' k' fr}, some (p, k, fresh) = some (p', k', fr) → fresh ≤ fr ∧ (∀ x ∈ p'.links, v x) ∧ LinksIn v k' := by
    intro p' k' fr e
    cases e
    exact ⟨Nat.le_refl _, hp, hl⟩
  unfold regroup at h
  split at h
  · exact triv h
  · have e0 := (splitTail_spec u k).1
    revert h e0
    generalize (splitTail u k).1 = b
    generalize (splitTail u k).2 = t
    intro h e0
    dsimp only at h
    split at h
    · exact triv h
    · split at h
      · exact triv h
      next d ds htd =>
        have hl' := hl
        rw [e0, linksIn_append_iff] at hl'
        have hx : ∀ e ∈ d :: ds, ∀ x ∈ e.attrs, ∀ y, x.value.target = some y → v y := fun e he =>
          attrs_of_table (anc := p :: anc) (by rw [htd]; exact he) hl'.2
        have hset : ∀ {e : Row} {q q' : Node}, e ∈ d :: ds → (∀ x ∈ q.links, v x) → setAll e.attrs q = some q' → ∀ x ∈ q'.links, v x := by
          intro e q q' he hq hs x hxx
          rcases setAll_links hs hxx with h | ⟨z, hz, e1⟩
          · exact hq x h
          · exact hx e he z hz x e1
        have hrow : ∀ {e : Row} {s s' : Forest} {fresh fr : Nat}, e ∈ d :: ds → LinksIn v s → wrapRow e s fresh = some (s', fr) → LinksIn v s' := by
          intro e s s' fresh fr he hs hw
          unfold wrapRow at hw
          simp only [Option.bind_eq_some_iff, Option.map_eq_some_iff] at hw
          obtain ⟨⟨i, j⟩, _, g, hg, hw⟩ := hw
          cases hw
          exact place_links hs (hset he (fun x hx => by cases hx) hg) (pick_links hs)
        have hfirst : ∀ {s s' : Forest} {fresh fr : Nat}, LinksIn v s → wrapFirst ds s fresh = some (s', fr) → LinksIn v s' := by
          intro s s' fresh fr hs hw
          unfold wrapFirst at hw
          split at hw
          · cases hw; exact hs
          · exact hrow (by simp) hs hw
        split at h
        · split at h
          · simp only [Option.bind_eq_some_iff, Option.map_eq_some_iff] at h
            obtain ⟨p1, hp1, ⟨x1, x2⟩, hx1, h⟩ := h
            cases h
            exact ⟨wrapFirst_fresh hx1, hset (List.mem_cons_self ..) hp hp1,
              Ungroup.linksIn_append (nonSvg_links hl'.2) (hfirst (pick_links hl'.2) hx1)⟩
          · simp only [Option.bind_eq_some_iff, Option.map_eq_some_iff] at h
            obtain ⟨g, hg, ⟨x1, x2⟩, hx1, h⟩ := h
            cases h
            exact ⟨Nat.le_trans (Nat.le_succ _) (wrapFirst_fresh hx1), hp, Ungroup.linksIn_append hl'.1
              (place_links hl'.2 (hset (List.mem_cons_self ..) (fun x hx => by cases hx) hg) (hfirst (pick_links hl'.2) hx1))⟩
        · simp only [Option.map_eq_some_iff] at h
          obtain ⟨⟨x1, x2⟩, hx1, h⟩ := h
          cases h
          exact ⟨by rw [wrapRow_fresh hx1]; omega, hp, Ungroup.linksIn_append hl'.1 (hrow (List.mem_cons_self ..) hl'.2 hx1)⟩

theorem groupKids_isSome {u : Nat → Bool} {anc : List Node} {f : Forest} {fresh : Nat} (hl : LinksIn (fun x => u x = true) f)
    (hu : ∀ x, fresh ≤ x → u x = false) :
    ∃ g fr, groupKids u anc f fresh = some (g, fr) ∧ fresh ≤ fr ∧ LinksIn (fun x => u x = true) g := by
  induction f generalizing anc fresh with
  | nil => exact ⟨_, _, rfl, Nat.le_refl _, hl⟩
  | cons n k r ihk ihr =>
    rw [Ungroup.linksIn_cons] at hl
    unfold groupKids
    by_cases hc : (n.isSvgElem && !(n.isTag .defs || u n.key) && !k.isEmpty) = true
    · rw [if_pos hc]
      obtain ⟨k1, a, hk, ha, hl1⟩ := ihk (anc := n :: anc) hl.2.1 hu
      simp only [Bool.and_eq_true, Bool.not_eq_true', Bool.or_eq_false_iff] at hc
      obtain ⟨⟨n', k', b⟩, hr⟩ := Option.isSome_iff_exists.1 (regroup_isSome (anc := anc) (p := n) hl1 hc.1.2.2
        (fun x hx => hu x (Nat.le_trans ha hx)))
      obtain ⟨h1, h2, h3⟩ := regroup_links hr hl.1 hl1
      obtain ⟨r', c, hr', hc', hl2⟩ := ihr (anc := anc) hl.2.2 (fun x hx => hu x (Nat.le_trans ha (Nat.le_trans h1 hx)))
      refine ⟨.cons n' k' r', c, ?_, Nat.le_trans ha (Nat.le_trans h1 hc'), Ungroup.linksIn_cons.2 ⟨h2, h3, hl2⟩⟩
      rw [hk]
      simp only [Option.bind_some, hr, hr', Option.map_some]
    · rw [if_neg hc]
      obtain ⟨r', c, hr', hc', hl2⟩ := ihr (anc := anc) hl.2.2 hu
      refine ⟨.cons n k r', c, ?_, hc', Ungroup.linksIn_cons.2 ⟨hl.1, hl.2.1, hl2⟩⟩
      simp only [Option.bind_some, hr', Option.map_some]

/-- **C37 (no panic)**: a document with an `svg` element that nothing refers to is processed to the end. -/
theorem C37_no_panic {f : Forest} {s : Node} {k : Forest} (h : svgElement f = some (s, k)) (hs : f.isUsed s.key = false) :
    ∃ g, groupByStyle f = some g := by
  have hu : ∀ x, freshKey f ≤ x → f.isUsed x = false := fun x hx => fresh_unused f hx
  have hsk : (∀ x ∈ s.links, f.isUsed x = true) ∧ LinksIn (fun x => f.isUsed x = true) k := by
    have key : ∀ {v : Nat → Prop} {f : Forest}, svgElement f = some (s, k) → LinksIn v f → (∀ x ∈ s.links, v x) ∧ LinksIn v k := by
      intro v f h hv
      induction f with
      | nil => cases h
      | cons n c r _ ih =>
        rw [Ungroup.linksIn_cons] at hv
        unfold svgElement at h
        split at h
        · cases h; exact ⟨hv.1, hv.2.1⟩
        · exact ih h hv.2.2
    exact key h (Ungroup.linksIn_used f)
  obtain ⟨k1, a, hk, ha, hl⟩ := groupKids_isSome (anc := [s]) hsk.2 hu
  obtain ⟨⟨s', k', b⟩, hr⟩ := Option.isSome_iff_exists.1 (regroup_isSome (anc := []) (p := s) hl hs (fun x hx => hu x (Nat.le_trans ha hx)))
  refine ⟨setSvgElement s' k' f, ?_⟩
  unfold groupByStyle
  rw [h]
  simp only [Option.bind_some, hk, hr, Option.map_some]

/-- svgdom panics if an element is made to refer to itself: the attributes of the children go to the `svg` element they refer
to. -/
example : groupByStyle (.cons (elem 1 .svg []) (rect 2 [(.fill, .funcLink 1)] (rect 3 [(.fill, .funcLink 1)] .nil)) .nil) = none := by
  decide +kernel

/-! ### The conditions can be checked -/

def nodeFitB (n : Node) : Bool :=
  decide (n.attrs.map (·.name)).Nodup && (!n.has .transform || takesTransform n.kind || neverRendered n.kind) &&
  (n.get .transform).all isTransform &&
  n.attrs.all (fun x => match x.name with | .id a => !inherits a || decide (x.value ≠ .kw .inherit) | .name _ => true)

def anchoredB (k : Forest) : Bool :=
  k.top.any (fun c => c.isSvgElem && decide (c.kind ≠ .elem .g) && decide (c.kind ≠ .elem .svg) && !c.has .transform)

def styledB (f : Forest) : Bool :=
  f.nodes.all nodeFitB &&
  (subs f).all (fun x => (x.1.isSvgElem || (x.1 :: x.2.nodes).all (fun m => !f.isUsed m.key)) &&
    (!decide (x.1.kind = .elem .svg) || anchoredB x.2))

theorem styled_of {f : Forest} (h : styledB f = true) : Styled f := by
  simp only [styledB, Bool.and_eq_true, List.all_eq_true, Bool.or_eq_true, Bool.not_eq_true', decide_eq_false_iff_not] at h
  obtain ⟨h1, h2⟩ := h
  have h1' : ∀ n ∈ f.nodes, (n.attrs.map (·.name)).Nodup ∧ (n.has .transform = true → takesTransform n.kind = true ∨ neverRendered n.kind = true) ∧
      (∀ v, n.get .transform = some v → ∃ t, v = .transform t) ∧
      ∀ x ∈ n.attrs, ∀ a, x.name = .id a → inherits a = true → x.value ≠ .kw .inherit := by
    intro n hn
    have := h1 n hn
    simp only [nodeFitB, Bool.and_eq_true, decide_eq_true_eq, Bool.or_eq_true, Bool.not_eq_true', List.all_eq_true] at this
    obtain ⟨⟨⟨a, b⟩, c⟩, d⟩ := this
    refine ⟨a, fun ht => ?_, fun v hv => ?_, fun x hx a ha hi => ?_⟩
    · rcases b with (b | b) | b
      · rw [ht] at b; cases b
      · exact .inl b
      · exact .inr b
    · rw [hv] at c
      cases v with
      | transform t => exact ⟨t, rfl⟩
      | _ => cases c
    · have := d x hx
      rw [ha] at this
      simp only [Bool.or_eq_true, Bool.not_eq_true', decide_eq_true_eq, hi] at this
      simpa using this
  refine ⟨fun x hx hs m hm => ?_, fun n hn => (h1' n hn).1, fun n hn => (h1' n hn).2.1, fun n hn => (h1' n hn).2.2.1,
    fun n hn => (h1' n hn).2.2.2, fun x hx hs => ?_⟩
  · rcases (h2 x hx).1 with h | h
    · rw [hs] at h; cases h
    · exact h m hm
  · rcases (h2 x hx).2 with h | h
    · exact absurd hs h
    · simp only [anchoredB, List.any_eq_true, Bool.and_eq_true, decide_eq_true_eq, Bool.not_eq_true'] at h
      obtain ⟨c, hc, ⟨⟨⟨a, b⟩, c'⟩, d⟩⟩ := h
      exact ⟨c, hc, a, b, c', d⟩

/-! ### A document that meets the conditions -/

def red : Value := .kw .none

/-- A `defs` element, five elements with the same style of which three have the same transform, a group with a transform whose
children have the same transform, text, and a copy. -/
def sample : Forest :=
  svg (.cons (elem 2 .defs []) (rect 20 [] .nil)
    (.cons ⟨3, .text "x", "", []⟩ .nil
      (rect 4 [(.fill, red), (.transform, shift)]
        (rect 5 [(.fill, red), (.transform, shift)]
          (.cons ⟨6, .comment "y", "", []⟩ .nil
            (rect 7 [(.fill, red), (.transform, shift)]
              (.cons (elem 8 .g [(.fill, red), (.transform, scale2)])
                (rect 9 [(.transform, shift)] (rect 10 [(.transform, shift)] .nil))
                (.cons (elem 11 .use [(.xlinkHref, .link 20), (.fill, red)]) .nil .nil))))))))

/-- A new group with the style, and in it a new group with the transform; the transform of the group has been changed. -/
def sampleOut : Forest :=
  svg (.cons (elem 2 .defs []) (rect 20 [] .nil)
    (.cons ⟨3, .text "x", "", []⟩ .nil
      (.cons (elem 21 .g [(.fill, red)])
        (.cons (elem 22 .g [(.transform, shift)]) (rect 4 [] (rect 5 [] (rect 7 [] .nil)))
          (.cons (elem 8 .g [(.transform, .transform ⟨2, 0, 0, 2, 20, 0⟩)]) (rect 9 [] (rect 10 [] .nil))
            (.cons (elem 11 .use [(.xlinkHref, .link 20)]) .nil .nil)))
        (.cons ⟨6, .comment "y", "", []⟩ .nil .nil))))

theorem sample_run : groupByStyle sample = some sampleOut := by decide +kernel

example : SameLook sample sampleOut := C37_look_partial (styled_of (by decide +kernel)) sample_run

/-- The picture is not trivial: six elements, one of them a copy. -/
example : (picture scribe 1 sample).length = 6 ∧ (picture scribe 1 sample)[3]? =
    some (.elem .rect none (some (px 5)) (some red) ⟨2, 0, 0, 2, 20, 0⟩ 1) := by decide +kernel

/-- `C37_no_panic` applies to it. -/
example : svgElement sample ≠ none ∧ sample.isUsed 1 = false ∧ (svgElement sample).map (·.1.key) = some 1 := by decide +kernel

/-! ### Where the full claim fails -/

theorem refute {f g : Forest} (d : Nat) (h : groupByStyle f = some g) (hd : picture scribe d f ≠ picture scribe d g) : ¬ C37_full :=
  fun hf => not_sameLook d hd (hf f g h)

/-- **Finding.** A transform that all elements of the document have is moved to the `svg` element, where it has no effect
(SVG 1.1).  In the whole program this is hidden by the `defs` element that `group_defs` always makes. -/
theorem C37_refuted_root_transform : ¬ C37_full :=
  refute (f := svg (rect 2 [(.transform, shift)] (rect 3 [(.transform, shift)] .nil)))
    (g := .cons (elem 1 .svg [(.transform, shift)]) (rect 2 [] (rect 3 [] .nil)) .nil) 0 (by decide +kernel) (by decide +kernel)

/-- **Finding.** A nested `svg` element is not protected by `defs`. -/
theorem C37_refuted_nested_transform : ¬ C37_full :=
  refute (f := svg (.cons (elem 4 .defs []) .nil (.cons (elem 5 .svg []) (rect 2 [(.transform, shift)] (rect 3 [(.transform, shift)] .nil)) .nil)))
    (g := svg (.cons (elem 4 .defs []) .nil (.cons (elem 5 .svg [(.transform, shift)]) (rect 2 [] (rect 3 [] .nil)) .nil))) 0
    (by decide +kernel) (by decide +kernel)

/-- **Finding.** A transform on an element that takes none (SVG 1.1), here on nested `svg` elements, gets an effect when it is moved
to a group. -/
theorem C37_refuted_meaningless_transform : ¬ C37_full :=
  refute (f := svg (.cons (elem 4 .g []) (.cons (elem 5 .svg [(.transform, shift)]) (rect 2 [] .nil)
      (.cons (elem 6 .svg [(.transform, shift)]) (rect 3 [] .nil) .nil)) .nil))
    (g := svg (.cons (elem 4 .g [(.transform, shift)]) (.cons (elem 5 .svg []) (rect 2 [] .nil)
      (.cons (elem 6 .svg []) (rect 3 [] .nil) .nil)) .nil)) 0
    (by decide +kernel) (by decide +kernel)

/-- **Finding.** `inherit` of the children replaces the value they inherit.  In the whole program `resolve_inherit` comes before. -/
theorem C37_refuted_inherit : ¬ C37_full :=
  refute (f := svg (.cons (elem 4 .g [(.fill, red)]) (rect 2 [(.fill, .kw .inherit)] (rect 3 [(.fill, .kw .inherit)] .nil)) .nil))
    (g := svg (.cons (elem 4 .g [(.fill, .kw .inherit)]) (rect 2 [] (rect 3 [] .nil)) .nil)) 0
    (by decide +kernel) (by decide +kernel)

end Verif.GroupStyle
