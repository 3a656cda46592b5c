import Verif.WholeRun
import Verif.WholePaleStyle
/-
C71: the file that is written.
-/
namespace Verif.Whole
open Verif.Dom Verif.Spec Verif.Render Verif.Draft Verif.Pipeline
open Verif.Dom (Res)
open Verif.Cli (CleaningOptions)
open Verif.Simple
open Verif.Reader (Standard Sane onPaper)

section
variable {ini : AId → Option Value} {V W : AId → Prop} {f g : Forest} {n m : Node} {o : CleaningOptions}

/-! ### The last tasks -/

theorem Pale.setRoot {s s' : Node} {k : Forest} (hf : Pale ini V f) (h : svgElement f = some (s, k)) (hw : Wither false s s') : Pale ini V (setSvgElement s' k f) :=
  hf.along (setSvg_along (Wither.refl false) h hw (wither_same k))

theorem Pale.unreferenced (hf : Pale ini V f) : Pale ini V (removeUnreferencedIds f) := by
  refine hf.along (Along.map fun n _ => ?_)
  split
  · exact ⟨rfl, id, fun _ h => .inl h, fun _ _ h => h⟩
  · exact .refl _ n

theorem Pale.trim (hf : Pale ini V f) (h : trimIds f = some g) : Pale ini V g := by
  obtain ⟨x, hx, rfl⟩ := Option.map_eq_some_iff.1 h
  refine hf.along ?_
  have : ∀ (f : Forest) (d : List Nat) (x : Forest × List Nat), trimGo f d = some x → Along (Wither false) f x.1 := by
    intro f
    induction f with
    | nil => intro d x h; cases h; exact .nil
    | cons n k r ih1 ih2 =>
      intro d x h
      rw [trimGo] at h
      obtain ⟨a, h1, h⟩ := Option.bind_eq_some_iff.1 h
      obtain ⟨b, h2, h⟩ := Option.bind_eq_some_iff.1 h
      obtain ⟨c, h3, rfl⟩ := Option.map_eq_some_iff.1 h
      refine .cons ?_ (ih1 _ _ h2) (ih2 _ _ h3)
      unfold trimNode at h1
      split at h1
      · obtain ⟨d', _, rfl⟩ := Option.map_eq_some_iff.1 h1
        exact ⟨rfl, id, fun _ h => .inl h, fun _ _ h => h⟩
      · cases h1; exact .refl _ n
  exact this _ _ _ hx

theorem Pale.version (hf : Pale ini V f) (h : removeVersion f = some g) : Pale ini V g := by
  obtain ⟨⟨n, k⟩, hs, rfl⟩ := Option.map_eq_some_iff.1 h
  exact hf.setRoot hs ((Wither.rm n (by decide)).trans (.rm _ (by decide)))

theorem Pale.xmlns {b : Bool} (hf : Pale ini V f) (h : fixXmlnsAttribute b f = some g) : Pale ini V g := by
  obtain ⟨⟨n, k⟩, hs, rfl⟩ := Option.map_eq_some_iff.1 h
  refine hf.setRoot hs ?_
  unfold fixXmlnsRoot
  split
  · exact .rm n (by decide)
  · split
    · exact .set n (by decide) ⟨by simp, by simp⟩ (.inr rfl)
    · exact .refl _ n

theorem Pale.dropDefault (hf : Pale ini V f) : Pale ini V (removeDefaultTransform f) := by
  refine hf.along (Along.map fun n _ => ?_)
  unfold Simple.dropDefault
  split
  · split
    · exact .rm n (by decide)
    · exact .refl _ n
  · exact .refl _ n

theorem ungroupDefsGo_pale (b : Bool) (hf : Pale ini V f) : Pale ini V (ungroupDefsGo f b).1 := by
  induction f generalizing V b with
  | nil => trivial
  | cons n k r ih1 ih2 =>
    cases b with
    | true => exact hf
    | false =>
      obtain ⟨⟨h1, h2, h3⟩, h4, h5⟩ := hf
      by_cases hc : (n.isTag .defs && k.top.all isReferencedNode) = true
      · cases k with
        | nil =>
          rw [ungroupDefsGo, if_pos hc]
          exact h5
        | cons n1 k1 r1 =>
          rw [ungroupDefsGo, if_pos hc]
          exact pale_append.2 ⟨(ih1 false h4).mono fun a ha => .inl ha, ih2 _ h5⟩
      · have e0 : ungroupDefsGo (.cons n k r) false = (.cons n (ungroupDefsGo k false).1 (ungroupDefsGo r (ungroupDefsGo k false).2.2).1, (ungroupDefsGo k false).2.1 ++ (ungroupDefsGo r (ungroupDefsGo k false).2.2).2.1,
            (ungroupDefsGo r (ungroupDefsGo k false).2.2).2.2) := by
          cases k <;> (conv => lhs; rw [ungroupDefsGo]) <;> rw [if_neg hc]
        rw [e0]
        refine ⟨⟨h1, h2, fun e => ?_⟩, ih1 false h4, ih2 _ h5⟩
        rw [h3 e]; rfl

theorem Pale.ungroupDefs (hf : Pale ini V f) : Pale ini V (ungroupDefs f) :=
  (ungroupDefsGo_pale false hf).along (Along.map fun n _ => Wither.unlink n _)

theorem dropEmpty_pale (hf : Pale ini V f) : Pale ini V (dropEmptyDefs f).1 := by
  induction f with
  | nil => trivial
  | cons n k r _ ih =>
    rw [dropEmptyDefs]
    split
    · exact hf.2.2
    · exact ⟨hf.1, hf.2.1, ih hf.2.2⟩

theorem Pale.emptyDefs (hf : Pale ini V f) (h : removeEmptyDefs f = some g) : Pale ini V g := by
  obtain ⟨⟨n, k⟩, hs, rfl⟩ := Option.map_eq_some_iff.1 h
  obtain ⟨⟨h1, h2, h3⟩, h4, _⟩ := hf.svg hs
  refine (hf.setSvg (s' := n) ⟨⟨h1, h2, fun e => ?_⟩, dropEmpty_pale h4, trivial⟩).along (Along.map fun n _ => Wither.unlink n _)
  rw [svg_elem hs] at e; cases e

/-! ### The run -/

variable {Q R S : Forest → Prop} {t : Task} {b : Stage}

theorem serene_with (h : Serene ini Q R t) (hs : ∀ f g, Q f → S f → t f = .ok g → S g) : Serene ini (fun f => Q f ∧ S f) (fun f => R f ∧ S f) t :=
  fun f g hf hg => ⟨(h f g hf.1 hg).1, (h f g hf.1 hg).2, hs f g hf.1 hf.2 hg⟩

theorem serene_pale (b : Bool) (h : b = true → Serene ini Q Q t) (hs : b = true → ∀ f g, Q f → Pale ini V f → t f = .ok g → Pale ini V g) :
    Serene ini (fun f => Q f ∧ Pale ini V f) (fun f => Q f ∧ Pale ini V f) (on b t) :=
  serene_if b (fun _ h => h) fun e => serene_with (h e) (hs e)

end

/-- The tasks up to the one that hides attributes. -/
theorem serene_start (E : Pipeline.Env) (o : CleaningOptions) : Serene E.ini (Apt E.ini .shapes o) (Apt E.ini .paths o) (runAll (((plan (tasks E o) o).drop 8).take 19)) := by
  show Serene E.ini _ _ (runAll (_ :: _ :: _ :: _))
  refine serene_cons (serene_on _ (serene_desc rfl)) (serene_cons (serene_on _ (serene_desc rfl)) (serene_cons (serene_on _ (serene_desc rfl)) ?_))
  refine serene_cons (serene_on _ serene_defs) ?_
  refine serene_cons (serene_gradient (fun h => h.invalidStops) fun f g h hg => by cases hg; exact h.stops) ?_
  refine serene_cons (serene_gradient (fun h => h.gradientTs) fun f g h hg => h.transforms (may_ok hg)) ?_
  refine serene_cons (serene_gradient (fun h => h.duplLinear) fun f g h hg => h.linear (may_ok hg)) ?_
  refine serene_cons (serene_gradient (fun h => h.duplRadial) fun f g h hg => h.radial (may_ok hg)) ?_
  refine serene_cons (serene_on _ (serene_id fun f g hf hg => hf.blurs (may_ok hg))) ?_
  refine serene_cons (serene_gradient (fun h => h.merge) fun f g h hg => h.merge (may_ok hg)) ?_
  refine serene_cons (serene_gradient (fun h => h.gradientTs) fun f g h hg => h.transforms (may_ok hg)) ?_
  refine serene_cons (serene_on _ (serene_ungroup _)) ?_
  refine serene_cons (serene_on _ fun f g hf hg => hf.shapeTs (by decide) (may_ok hg)) ?_
  refine serene_cons (serene_on _ fun f g hf hg => hf.shapes (may_ok hg)) ?_
  refine serene_cons (R := Apt E.ini .paths o) (serene_if _ (fun f hf => hf.later) fun _ f g hf hg => hf.paths (may_ok hg)) ?_
  refine serene_cons (serene_on _ (serene_invisible E)) ?_
  refine serene_cons (serene_gradient (fun h => h.regroup) fun f g h hg => h.regroup (may_ok hg)) ?_
  exact serene_cons (serene_on _ (serene_ungroup _)) (serene_cons (serene_on _ serene_use) serene_nil)

/-- The tasks from the one that hides attributes to the one that makes new groups: what is hidden means nothing. -/
theorem serene_hide (E : Pipeline.Env) (o : CleaningOptions) (hs : Standard E.ini) (hn : Sane E.ini) :
    Serene E.ini (Apt E.ini .paths o) (fun f => Apt E.ini .late o f ∧ Pale E.ini (fun _ => False) f) (runAll (((plan (tasks E o) o).drop 27).take 6)) := by
  show Serene E.ini _ _ (runAll (_ :: _ :: _ :: _))
  refine serene_cons (R := fun f => Apt E.ini .late o f ∧ Pale E.ini (fun _ => False) f) (serene_if _ (fun f hf => ⟨hf.last, hf.pale (by decide)⟩)
    fun _ f g hf hg => ⟨(hf.last.defaults (may_ok hg)).1, (hf.last.defaults (may_ok hg)).2, hf.pale_defaults hn (by decide) (may_ok hg)⟩) ?_
  refine serene_cons (serene_pale _ (fun ho f g hf hg => hf.text ho (may_ok hg)) fun _ f g _ hp hg => hp.text (may_ok hg)) ?_
  refine serene_cons (serene_pale _ (fun _ f g hf hg => by cases hg; exact hf.needless hs) fun _ f g hf hp hg => by cases hg; exact hp.needlessGo (fun n hn => hf.no_clip hn) (by simp)) ?_
  refine serene_cons (R := fun f => Apt E.ini .late o f ∧ Pale E.ini (fun _ => False) f) (fun f g hf hg => ?_) ?_
  · rcases hf.1.gradients with h' | h'
    · rw [h'.gradientAttrs] at hg
      rw [on_off hg]
      exact ⟨.refl _, hf⟩
    · rcases on_cases hg with rfl | hg
      · exact ⟨.refl _, hf⟩
      · rw [h'.attributes (may_ok hg)]; exact ⟨.refl _, hf⟩
  refine serene_cons (serene_pale _ (fun ho f g hf hg => by cases hg; exact hf.coords ho) fun ho f g hf hp hg => by cases hg; exact hp.coordsGo fun n hn top => hf.placed ho hn top) ?_
  refine serene_cons (serene_pale _ (fun _ => serene_ungroup _) fun _ f g hf hp hg => ?_) serene_nil
  have hg : (may fun f => (Ungroup.ungroupGroups (tsOpts o) f).bind id) f = .ok g := hg
  obtain ⟨x, hx, hg⟩ := Option.bind_eq_some_iff.1 (may_ok hg)
  cases hg
  exact @Pale.ungroup E.ini _ f g (apt E.ini .late o) _ hf hp hx

/-- The last tasks, but for the very last one. -/
theorem serene_end (E : Pipeline.Env) (o : CleaningOptions) :
    Serene E.ini (fun f => Apt E.ini .late o f ∧ Pale E.ini (fun _ => False) f) (fun f => Tidy f ∧ Pale E.ini (fun _ => False) f) (runAll (((plan (tasks E o) o).drop 33).take 8)) := by
  show Serene E.ini _ _ (runAll (_ :: _ :: _ :: _))
  refine serene_cons (serene_with (serene_of (@calm_style (apt E.ini .late o) _)) fun f g _ hp hg => ?_) ?_
  · rcases on_cases hg with rfl | hg
    · exact hp
    · exact hp.byStyle (may_ok hg)
  refine serene_cons (serene_pale _ (fun _ => serene_of (calm_twins fun f g _ h => by cases h; exact twins_unreferenced f)) fun _ f g _ hp hg => by cases hg; exact hp.unreferenced) ?_
  refine serene_cons (serene_pale _ (fun _ => serene_of (calm_twins fun f g _ h => twins_trim (may_ok h))) fun _ f g _ hp hg => hp.trim (may_ok hg)) ?_
  refine serene_cons (serene_pale _ (fun _ => serene_of (calm_twins fun f g _ h => twins_version (may_ok h))) fun _ f g _ hp hg => hp.version (may_ok hg)) ?_
  refine serene_cons (serene_pale _ (fun _ => serene_of (calm_of fun f g hf h => by cases h; exact ungroupDefs_tidy hf)) fun _ f g _ hp hg => by cases hg; exact hp.ungroupDefs) ?_
  refine serene_cons (R := fun f => Tidy f ∧ Pale E.ini (fun _ => False) f) (serene_with (serene_of (calm_of fun f g hf h => ⟨(removeEmptyDefs_tidy hf (may_ok h)).1, removeEmptyDefs_keeps hf (may_ok h)⟩))
    fun f g _ hp hg => hp.emptyDefs (may_ok hg)) ?_
  refine serene_cons (R := fun f => Tidy f ∧ Pale E.ini (fun _ => False) f) (serene_with (serene_of (calm_twins fun f g _ h => twins_xmlns (may_ok h))) fun f g _ hp hg => hp.xmlns (may_ok hg)) ?_
  exact serene_cons (R := fun f => Tidy f ∧ Pale E.ini (fun _ => False) f) (serene_with (serene_of (calm_twins fun f g hf h => by cases h; exact twins_dropDefault hf))
    fun f g _ hp hg => by cases hg; exact hp.dropDefault) serene_nil

/-- All tasks after the preparation, but for the last one. -/
theorem serene_file (E : Pipeline.Env) (o : CleaningOptions) (hs : Standard E.ini) (hn : Sane E.ini) {f d : Forest} (hf : Apt E.ini .shapes o f)
    (h : runAll (((plan (tasks E o) o).drop 8).take 33) f = .ok d) : SameDrawing E.ini f d ∧ SameDrawing E.ini f (onPaper d) := by
  have e : ((plan (tasks E o) o).drop 8).take 33 = ((plan (tasks E o) o).drop 8).take 19 ++ (((plan (tasks E o) o).drop 27).take 6 ++ ((plan (tasks E o) o).drop 33).take 8) := rfl
  rw [e] at h
  obtain ⟨a, h1, h2⟩ := runAll_append h
  obtain ⟨b, h2, h3⟩ := runAll_append h2
  obtain ⟨l1, q1⟩ := serene_start E o f a hf h1
  obtain ⟨l2, q2⟩ := serene_hide E o hs hn a b q1 h2
  obtain ⟨l3, q3⟩ := serene_end E o b d q2 h3
  have := l1.trans (l2.trans l3)
  exact ⟨this, this.trans (.of_read (q3.2.read hn))⟩

end Verif.Whole
