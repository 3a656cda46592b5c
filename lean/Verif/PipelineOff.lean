import Verif.PipelineProps
/-
C54: with all options off the run only corrects attributes and collects definitions in one `defs` element.
-/
namespace Verif.Pipeline
open Verif.Dom Verif.Spec Verif.Simple
open Verif.Dom (Res)
open Verif.Cli (CleaningOptions)

/-- A node without its attributes. -/
def strip (n : Node) : Node := { n with attrs := [] }

/-- The same tree, except for attributes. -/
def Still (f g : Forest) : Prop := g.map strip = f.map strip

theorem Still.refl (f : Forest) : Still f f := rfl
theorem Still.trans {f g h : Forest} (h1 : Still f g) (h2 : Still g h) : Still f h := Eq.trans h2 h1

theorem Still.cons {n m : Node} {k k' r r' : Forest} (hn : strip m = strip n) (hk : Still k k') (hr : Still r r') : Still (.cons n k r) (.cons m k' r') := by
  unfold Still at *
  rw [Forest.map_cons, Forest.map_cons, hn, hk, hr]

theorem Still.map {h : Node → Node} (hs : ∀ n, strip (h n) = strip n) (f : Forest) : Still f (f.map h) := by
  induction f with
  | nil => rfl
  | cons n k r ih1 ih2 => rw [Forest.map_cons]; exact Still.cons (hs n) ih1 ih2

theorem Still.modify {h : Node → Node} (hs : ∀ n, strip (h n) = strip n) (k : Nat) (f : Forest) : Still f (f.modify k h) :=
  Still.map (fun n => by split <;> simp [hs]) f

theorem Still.forEach {g : Nat → Forest → Option Forest} (h : ∀ k f f', g k f = some f' → Still f f') {l : List Nat} {f f' : Forest}
    (e : Gradients.forEach g l f = some f') : Still f f' := by
  induction l generalizing f with
  | nil => cases e; exact Still.refl _
  | cons k t ih =>
    simp only [Gradients.forEach] at e
    obtain ⟨f1, h1, h2⟩ := Option.bind_eq_some_iff.1 e
    exact (h k f f1 h1).trans (ih h2)

theorem still_checkAttr {k : Nat} {a : AId} {d : Option Value} {f g : Forest} (h : Gradients.checkAttr k a d f = some g) : Still f g := by
  unfold Gradients.checkAttr at h
  obtain ⟨n, hn, h⟩ := Option.bind_eq_some_iff.1 h
  split at h
  · cases h; exact Still.refl _
  · obtain ⟨v, hv, h⟩ := Option.map_eq_some_iff.1 h
    cases v with
    | none => cases h; exact Still.refl _
    | some v => cases h; exact Still.modify (h := fun n => Stops.setHidden n a v) (fun n => rfl) _ _

theorem still_resolveLinear {f g : Forest} (h : Gradients.resolveLinear f = some g) : Still f g := by
  obtain ⟨l, _, h⟩ := Option.bind_eq_some_iff.1 h
  refine Still.forEach (fun k f g h => ?_) h
  simp only [Gradients.resolveLinearNode, Option.bind_eq_some_iff] at h
  obtain ⟨f1, h1, f2, h2, f3, h3, f4, h4, f5, h5, f6, h6, h7⟩ := h
  exact (((((((still_checkAttr h1).trans (still_checkAttr h2)).trans (still_checkAttr h3)).trans (still_checkAttr h4)).trans (still_checkAttr h5)).trans
    (still_checkAttr h6)).trans (still_checkAttr h7))

theorem still_resolveRadial {f g : Forest} (h : Gradients.resolveRadial f = some g) : Still f g := by
  obtain ⟨l, _, h⟩ := Option.bind_eq_some_iff.1 h
  refine Still.forEach (fun k f g h => ?_) h
  simp only [Gradients.resolveRadialNode, Option.bind_eq_some_iff] at h
  obtain ⟨f1, h1, f2, h2, f3, h3, f4, h4, f5, h5, n, hn, f6, h6, f7, h7, h8⟩ := h
  exact ((((((((still_checkAttr h1).trans (still_checkAttr h2)).trans (still_checkAttr h3)).trans (still_checkAttr h4)).trans (still_checkAttr h5)).trans
    (still_checkAttr h6)).trans (still_checkAttr h7))).trans (still_checkAttr h8)

section
open Verif.Stops

theorem strip_setDefault (n : Node) (a : AId) (v : Value) : strip (setDefault n a v) = strip n := by
  unfold setDefault
  split <;> rfl

theorem strip_stopDefaults (n : Node) : strip (stopDefaults n) = strip n := by
  unfold stopDefaults
  rw [strip_setDefault, strip_setDefault]

theorem strip_resolveStop {b : Bool} {n m : Node} (h : resolveStop b n = .ok m) : strip m = strip n := by
  unfold resolveStop at h
  cases hg : n.get .offset with
  | none =>
    rw [hg] at h
    cases b <;> cases h
    rw [strip_stopDefaults]; rfl
  | some v =>
    rw [hg] at h
    cases v with
    | length l => 
      cases h; rw [strip_stopDefaults]
      by_cases hp : l.unit = .percent
      · rw [if_pos hp]; rfl
      · rw [if_neg hp]
    | _ => cases b <;> cases h <;> (rw [strip_stopDefaults]; rfl)

theorem still_resolveStopKids {b : Bool} {f g : Forest} (h : resolveStopKids b f = .ok g) : Still f g := by
  induction f generalizing b g with
  | nil => cases h; exact Still.refl _
  | cons n k r _ ih =>
    rw [resolveStopKids] at h
    obtain ⟨n', h1, h⟩ := bind_ok.1 h
    obtain ⟨r', h2, h⟩ := bind_ok.1 h
    cases h
    exact Still.cons (strip_resolveStop h1) (Still.refl _) (ih h2)

theorem still_resolveStops (s : Nat) {f g : Forest} (hs : size f ≤ s) (h : resolveStops f = .ok g) : Still f g := by
  induction s generalizing f g with
  | zero => cases f with
    | nil => rw [resolveStops] at h; cases h; exact Still.refl _
    | cons n k r => simp [size] at hs
  | succ s ih => cases f with
    | nil => rw [resolveStops] at h; cases h; exact Still.refl _
    | cons n k r =>
      rw [resolveStops_cons] at h
      obtain ⟨k1, h1, h⟩ := bind_ok.1 h
      obtain ⟨k2, h2, h⟩ := bind_ok.1 h
      obtain ⟨r', h3, h⟩ := bind_ok.1 h
      cases h
      simp only [size] at hs
      have hk : size k1 = size k ∧ Still k k1 := by
        split at h1
        · exact ⟨resolveStopKids_size h1, still_resolveStopKids h1⟩
        · cases h1; exact ⟨rfl, Still.refl _⟩
      exact Still.cons rfl (hk.2.trans (ih (by omega) h2)) (ih (by omega) h3)

theorem strip_fixLen (n : Node) (a : AId) : strip (fixLen n a) = strip n := by
  unfold fixLen
  split
  · split
    · split <;> rfl
    · rfl
  · rfl

theorem strip_rmNegativeLen (n : Node) (a : AId) : strip (rmNegativeLen n a) = strip n := by
  unfold rmNegativeLen
  split
  · split <;> rfl
  · rfl

theorem strip_fixNode (n : Node) : strip (fixNode n) = strip n := by
  unfold fixNode
  split
  · unfold fixRect
    rw [strip_rmNegativeLen, strip_rmNegativeLen, strip_fixLen, strip_fixLen]
  · unfold fixPoly
    split
    · split <;> rfl
    · rfl
  · unfold fixPoly
    split
    · split <;> rfl
    · rfl
  · rfl

theorem still_fixStopKids {p : ℚ} {f g : Forest} (h : fixStopKids p f = some g) : Still f g := by
  induction f generalizing p g with
  | nil => cases h; exact Still.refl _
  | cons n k r _ ih =>
    rw [fixStopKids] at h
    split at h
    · split at h
      · obtain ⟨r', h1, h⟩ := Option.map_eq_some_iff.1 h
        cases h
        exact Still.cons rfl (Still.refl _) (ih h1)
      · cases h
    · cases h

theorem still_fixGo (s : Nat) {f g : Forest} (hs : size f ≤ s) (h : fixGo f = some g) : Still f g := by
  induction s generalizing f g with
  | zero => cases f with
    | nil => rw [fixGo] at h; cases h; exact Still.refl _
    | cons n k r => simp [size] at hs
  | succ s ih => cases f with
    | nil => rw [fixGo] at h; cases h; exact Still.refl _
    | cons n k r =>
      obtain ⟨k1, k2, r', h1, h2, h3, rfl⟩ := fixGo_cons h
      simp only [size] at hs
      have hk : size k1 = size k ∧ Still k k1 := by
        split at h1
        · exact ⟨fixStopKids_size h1, still_fixStopKids h1⟩
        · cases h1; exact ⟨rfl, Still.refl _⟩
      exact Still.cons (strip_fixNode n) (hk.2.trans (ih (by omega) h2)) (ih (by omega) h3)

theorem still_fixInvalid {f g : Forest} (h : fixInvalidAttributes f = some g) : Still f g := by
  obtain ⟨f1, h1, h⟩ := Option.map_eq_some_iff.1 h
  cases h
  exact (still_fixGo _ (Nat.le_refl _) h1).trans (Still.map (h := fun n => n.rm .marker) (fun n => rfl) _)

end

section
open Verif.Inherit
open Verif.Stops (bind_ok)

theorem strip_setChecked {n m : Node} {a : AId} {v : Value} (h : setChecked n a v = .ok m) : strip m = strip n := by
  unfold setChecked at h
  split at h
  · cases h
  · cases h; rfl

theorem strip_resolveImpl {anc : List Node} {c p : AId} {n m : Node} (h : resolveImpl anc c p n = .ok m) : strip m = strip n := by
  unfold resolveImpl at h
  split at h
  · exact strip_setChecked h
  · cases h

theorem strip_forAttrs {g : AId → Node → Res Node} (hg : ∀ a n m, g a n = .ok m → strip m = strip n) {l : List AId} {n m : Node}
    (h : forAttrs g l n = .ok m) : strip m = strip n := by
  induction l generalizing n with
  | nil => cases h; rfl
  | cons a t ih =>
    rw [forAttrs] at h
    obtain ⟨n1, h1, h2⟩ := bind_ok.1 h
    exact (ih h2).trans (hg a n n1 h1)

theorem strip_body {anc : List Node} {n m : Node} (h : Inherit.body anc n = .ok m) : strip m = strip n := by
  unfold Inherit.body at h
  split at h
  · obtain ⟨n1, h1, h2⟩ := bind_ok.1 h
    refine (strip_forAttrs (fun a n m h => ?_) h2).trans (strip_forAttrs (fun a n m h => strip_resolveImpl h) h1)
    unfold resolveColor at h
    split at h
    · exact strip_setChecked h
    · exact strip_resolveImpl h
  · cases h; rfl

theorem still_mapRes {g : List Node → Node → Res Node} (hg : ∀ a n m, g a n = .ok m → strip m = strip n) {f f' : Forest} {anc : List Node}
    (h : f.mapRes g anc = .ok f') : Still f f' := by
  induction f generalizing anc f' with
  | nil => cases h; exact Still.refl _
  | cons n k r ih1 ih2 =>
    rw [Forest.mapRes] at h
    obtain ⟨n1, h1, h⟩ := bind_ok.1 h
    obtain ⟨k1, h2, h⟩ := bind_ok.1 h
    obtain ⟨r1, h3, h⟩ := bind_ok.1 h
    cases h
    exact Still.cons (hg _ _ _ h1) (ih1 h2) (ih2 h3)

theorem still_resolveInherit {f g : Forest} (h : resolveInherit f = .ok g) : Still f g := still_mapRes (fun _ _ _ => strip_body) h

end

theorem still_mapOpt {h : Node → Option Node} (hs : ∀ n m, h n = some m → strip m = strip n) {f g : Forest} (e : f.mapOpt h = some g) : Still f g := by
  induction f generalizing g with
  | nil => cases e; exact Still.refl _
  | cons n k r ih1 ih2 =>
    simp only [Forest.mapOpt, Option.bind_eq_some_iff, Option.map_eq_some_iff] at e
    obtain ⟨n1, h1, k1, h2, r1, h3, e⟩ := e
    cases e
    exact Still.cons (hs _ _ h1) (ih1 h2) (ih2 h3)

theorem still_roundNumbers {o : Round.Precisions} {f g : Forest} (h : Round.roundNumbers o f = some g) : Still f g := by
  refine still_mapOpt (fun n m h => ?_) h
  unfold Round.node at h
  split at h
  · obtain ⟨as, _, h⟩ := Option.map_eq_some_iff.1 h
    cases h; rfl
  · cases h; rfl

theorem still_setSvg {f : Forest} {n n' : Node} {k : Forest} (h : svgElement f = some (n, k)) (hn : strip n' = strip n) : Still f (setSvgElement n' k f) := by
  induction f with
  | nil => cases h
  | cons m c r _ ih =>
    rw [svgElement] at h
    rw [setSvgElement]
    split at h
    next ht => cases h; rw [if_pos ht]; exact Still.cons hn (Still.refl _) (Still.refl _)
    next ht => rw [if_neg ht]; exact Still.cons rfl (Still.refl _) (ih h)

theorem still_fixXmlns {b : Bool} {f g : Forest} (h : fixXmlnsAttribute b f = some g) : Still f g := by
  unfold fixXmlnsAttribute at h
  obtain ⟨⟨n, k⟩, hs, h⟩ := Option.map_eq_some_iff.1 h
  cases h
  refine still_setSvg hs ?_
  unfold fixXmlnsRoot
  split
  · rfl
  · split <;> rfl

theorem still_removeDefaultTransform (f : Forest) : Still f (removeDefaultTransform f) := Still.map (fun n => by
  unfold dropDefault
  split <;> first | rfl | (split <;> rfl)) f

theorem strip_joinNode (nameOf : AId → List Char) (ser : Value → List Char) (m : Cli.StyleJoinMode) (n : Node) : strip (joinNode nameOf ser m n) = strip n := by
  unfold joinNode
  dsimp only
  split <;> rfl

/-! ### What stays -/

/-- The nodes stay, apart from `defs` elements; what is drawn stays where it is. -/
structure Calm (f g : Forest) : Prop where
  /-- Every node that is not a `defs` element is still there, with its kind and id. -/
  kept : ∀ n ∈ f.nodes, n.kind ≠ .elem .defs → ∃ m ∈ g.nodes, strip m = strip n
  /-- Every node was there, except at most a `defs` element. -/
  known : ∀ m ∈ g.nodes, (∃ n ∈ f.nodes, strip m = strip n) ∨ m.kind = .elem .defs ∧ m.id = ""
  /-- What is drawn is the same, at the same places. -/
  drawn : (drawn g).map strip = (drawn f).map strip

theorem Calm.refl (f : Forest) : Calm f f := ⟨fun n hn _ => ⟨n, hn, rfl⟩, fun m hm => .inl ⟨m, hm, rfl⟩, rfl⟩

theorem Calm.trans {f g h : Forest} (h1 : Calm f g) (h2 : Calm g h) : Calm f h where
  kept n hn hk := by
    obtain ⟨m, hm, e⟩ := h1.kept n hn hk
    have : m.kind = n.kind := congrArg (fun x : Node => x.kind) (a₁ := strip m) (a₂ := strip n) e
    obtain ⟨l, hl, e'⟩ := h2.kept m hm (this ▸ hk)
    exact ⟨l, hl, e'.trans e⟩
  known m hm := by
    rcases h2.known m hm with ⟨n, hn, e⟩ | h
    · rcases h1.known n hn with ⟨l, hl, e'⟩ | ⟨hk, hi⟩
      · exact .inl ⟨l, hl, e.trans e'⟩
      · right
        exact ⟨(congrArg (fun x : Node => x.kind) (a₁ := strip m) (a₂ := strip n) e).trans hk,
          (congrArg (fun x : Node => x.id) (a₁ := strip m) (a₂ := strip n) e).trans hi⟩
    · exact .inr h
  drawn := h2.drawn.trans h1.drawn

theorem Still.calm {f g : Forest} (h : Still f g) : Calm f g := by
  have hn : g.nodes.map strip = f.nodes.map strip := by rw [← Forest.nodes_map, ← Forest.nodes_map, h]
  refine ⟨fun n hn' _ => ?_, fun m hm => .inl ?_, ?_⟩
  · have : strip n ∈ g.nodes.map strip := hn ▸ List.mem_map_of_mem hn'
    obtain ⟨m, hm, e⟩ := List.mem_map.1 this
    exact ⟨m, hm, e⟩
  · have : strip m ∈ f.nodes.map strip := hn ▸ List.mem_map_of_mem hm
    obtain ⟨n, hn, e⟩ := List.mem_map.1 this
    exact ⟨n, hn, e.symm⟩
  · have h1 := Simple.drawn_map (g := strip) (fun n => rfl) g
    have h2 := Simple.drawn_map (g := strip) (fun n => rfl) f
    rw [← h1, ← h2, h]

theorem calm_groupDefs {f g : Forest} (hu : f.UniqueKeys) (h : GroupDefs.groupDefs f = some g) : Calm f g := by
  obtain ⟨s, ks, d, D, e, C⟩ := GroupDefs.C35_collected hu h
  have he : ∀ n ∈ f.nodes, strip (e n) = strip n := by
    intro n hn
    have hk := C.key hn
    have hd := C.kind hn
    have hi := (C.kept n hn).id
    unfold strip
    rw [hk, hd, hi]
  refine ⟨fun n hn hk => ?_, fun m hm => ?_, ?_⟩
  · refine ⟨e n, C.nodes.mem_iff.2 (List.mem_cons_of_mem _ (List.mem_map.2 ⟨n, List.mem_filter.2 ⟨hn, ?_⟩, rfl⟩)), he n hn⟩
    simp [GroupDefs.isDefs, hk]
  · rcases List.mem_cons.1 (C.nodes.mem_iff.1 hm) with rfl | hm
    · rcases C.same with ⟨n, hn, rfl⟩ | ⟨_, _, hi, _⟩
      · have := List.mem_of_find?_eq_some hn
        exact .inl ⟨n, this, he n this⟩
      · exact .inr ⟨C.main, hi⟩
    · obtain ⟨n, hn, rfl⟩ := List.mem_map.1 hm
      obtain ⟨hn, _⟩ := List.mem_filter.1 hn
      exact .inl ⟨n, hn, he n hn⟩
  · obtain ⟨gone, _, hd⟩ := GroupDefs.C35_drawn hu h
    rw [hd, Forest.map_map]
    rfl

theorem calm_removeEmptyDefs {f g : Forest} (h : removeEmptyDefs f = some g) : Calm f g := by
  obtain ⟨n, k, hs, h | ⟨d, a, b, hd, hk, h⟩⟩ := C48_empty_defs f g h
  · rw [h]; exact Calm.refl f
  · obtain ⟨A, B, e1, e2⟩ := setSvg_split hs
    dsimp only at e1 e2
    subst hk
    refine Calm.trans (g := setSvgElement n (a ++ b) f) ⟨fun x hx hk => ?_, fun x hx => .inl ?_, ?_⟩
      (by rw [h]; exact (Still.map (h := fun m => m.unlink fun x => decide (x = d.key)) (fun _ => rfl) _).calm)
    · refine ⟨x, ?_, rfl⟩
      rw [e1] at hx
      rw [e2]
      simp only [List.mem_append, List.mem_cons, Forest.nodes_append, Forest.nodes, List.not_mem_nil, false_or, or_false] at hx ⊢
      have : x ≠ d := fun e => hk (e ▸ hd)
      tauto
    · refine ⟨x, ?_, rfl⟩
      rw [e2] at hx
      rw [e1]
      simp only [List.mem_append, List.mem_cons, Forest.nodes_append, Forest.nodes, List.not_mem_nil, false_or, or_false] at hx ⊢
      tauto
    · have : Spec.drawn (setSvgElement n (a ++ b) f) = Spec.drawn f := by
        refine GroupDefs.drawn_setSvg hs ?_
        rw [drawn_append, drawn_append, drawn_append]
        have : Spec.drawn (.cons d .nil .nil) = .nil := by rw [Spec.drawn, if_pos (by rw [hd]; rfl)]; rfl
        rw [this]; rfl
      rw [this]

/-! ### C54 -/

/-- All options are off; precisions may be set, and the attribute `xmlns:xlink` may be removed. -/
def AllOff (o : CleaningOptions) : Prop :=
  o = { removeXmlnsXlinkAttribute := o.removeXmlnsXlinkAttribute, appendNewline := o.appendNewline,
        coordinatesPrecision := o.coordinatesPrecision, propertiesPrecision := o.propertiesPrecision,
        pathsCoordinatesPrecision := o.pathsCoordinatesPrecision, transformsPrecision := o.transformsPrecision }

theorem may_ok {t : Forest → Option Forest} {f g : Forest} (h : may t f = .ok g) : t f = some g := by
  unfold may at h
  cases ht : t f with
  | none => rw [ht] at h; cases h
  | some x => rw [ht] at h; cases h; rfl

/-- The tasks of a run with all options off. -/
theorem plan_off (E : Env) {o : CleaningOptions} (ho : AllOff o) (f : Forest) : runAll (plan (tasks E o) o) f =
    runAll [check precleanChecks, may Gradients.resolveLinear, may Gradients.resolveRadial, Stops.resolveStops,
      Inherit.resolveInherit, may Stops.fixInvalidAttributes, may GroupDefs.groupDefs, may (Round.roundNumbers (precisions o)),
      may removeEmptyDefs, may (fixXmlnsAttribute o.removeXmlnsXlinkAttribute), sure removeDefaultTransform,
      sure (joinStyleAttributes E.nameOf E.ser .none)] f := by
  unfold AllOff at ho
  rw [ho]
  rfl

/-- C54: a run with all options off keeps every node, its kind and its id, except `defs` elements; it makes at most a `defs` element; what
is drawn is the same, in the same order. -/
theorem C54_all_off (E : Env) {o : CleaningOptions} (ho : AllOff o) {f g : Forest} (hu : f.UniqueKeys) (h : cleanDoc E o f = .ok g) : Calm f g := by
  unfold cleanDoc at h
  rw [plan_off E ho] at h
  obtain ⟨f0, h0, h⟩ := runAll_cons h
  obtain ⟨f1, h1, h⟩ := runAll_cons h
  obtain ⟨f2, h2, h⟩ := runAll_cons h
  obtain ⟨f3, h3, h⟩ := runAll_cons h
  obtain ⟨f4, h4, h⟩ := runAll_cons h
  obtain ⟨f5, h5, h⟩ := runAll_cons h
  obtain ⟨f6, h6, h⟩ := runAll_cons h
  obtain ⟨f7, h7, h⟩ := runAll_cons h
  obtain ⟨f8, h8, h⟩ := runAll_cons h
  obtain ⟨f9, h9, h⟩ := runAll_cons h
  obtain ⟨f10, h10, h⟩ := runAll_cons h
  obtain ⟨f11, h11, h⟩ := runAll_cons h
  have h : f11 = g := by cases h; rfl
  subst h
  have e0 : f0 = f := by
    unfold check at h0
    split at h0
    · cases h0; rfl
    · cases h0
  subst e0
  have s5 : Still f0 f5 := ((((still_resolveLinear (may_ok h1)).trans (still_resolveRadial (may_ok h2))).trans (still_resolveStops _ (Nat.le_refl _) h3)).trans
    (still_resolveInherit h4)).trans (still_fixInvalid (may_ok h5))
  have hu5 : f5.UniqueKeys := by
    have e1 : f5.keys = f0.keys := by
      have := congrArg (fun x : Forest => x.nodes.map Node.key) s5
      simpa [Forest.nodes_map, Forest.keys, strip, Function.comp_def] using this
    unfold Forest.UniqueKeys; rw [e1]; exact hu
  have s11 : Still f8 f11 := by
    refine (still_fixXmlns (may_ok h9)).trans ?_
    cases h10
    refine (still_removeDefaultTransform f9).trans ?_
    cases h11
    exact Still.refl _
  exact (((s5.calm.trans (calm_groupDefs hu5 (may_ok h6))).trans (still_roundNumbers (may_ok h7)).calm).trans (calm_removeEmptyDefs (may_ok h8))).trans s11.calm

end Verif.Pipeline
