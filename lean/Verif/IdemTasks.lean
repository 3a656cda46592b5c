import Verif.IdemMore
import Verif.GroupStyle
import Verif.StopsProps
/-
C67, third part: gradients, transforms, default values; and the tasks that are not settled after one run.
-/
namespace Verif.Idem
open Verif.Dom Verif.Pipeline Verif.Simple

/-! ### merge_gradients.rs -/

theorem mergeNode_keeps (s : Forest × List Nat) (k : Nat) (h : (Merge.mergeNode s k).2 = []) : Merge.mergeNode s k = s := by
  unfold Merge.mergeNode at h ⊢
  split at h
  · split at h
    · simp at h
    · rename_i h1 _ h2; simp only [h1, h2]
  · rename_i h1; simp only [h1]

theorem mergeNode_grows (s : Forest × List Nat) (k : Nat) (h : (Merge.mergeNode s k).2 = []) : s.2 = [] := by
  rw [mergeNode_keeps s k h] at h; exact h

theorem mergeKeys_grows {l : List Nat} {s s' : Forest × List Nat} (h : Merge.mergeKeys l s = some s') (h' : s'.2 = []) :
    s.2 = [] ∧ s' = s := by
  induction l generalizing s with
  | nil => cases h; exact ⟨h', rfl⟩
  | cons k t ih =>
    unfold Merge.mergeKeys at h
    split at h
    · cases h
    · obtain ⟨h1, h2⟩ := ih h
      have := mergeNode_keeps s k h1
      rw [this] at h1 h2
      exact ⟨h1, h2⟩

theorem mergeLoop_end {fuel : Nat} {f g : Forest} (h : Merge.mergeLoop fuel f = some g) : Merge.mergeRound g = some (g, []) := by
  induction fuel generalizing f with
  | zero => cases h
  | succ fuel ih =>
    unfold Merge.mergeLoop at h
    obtain ⟨s, hs, h⟩ := Option.bind_eq_some_iff.1 h
    split at h
    · rename_i he
      have he : s.2 = [] := by simpa using he
      cases h
      have h2 := (mergeKeys_grows (by unfold Merge.mergeRound at hs; exact hs) he).2
      subst h2
      exact hs
    · exact ih h

/-- Gradients that could not be merged are not merged by a second run. -/
theorem C67_merge : Settles Any (may Merge.mergeGradients) := by
  refine settles_may fun f g _ h => ?_
  unfold Merge.mergeGradients at h ⊢
  unfold Merge.mergeLoop
  rw [mergeLoop_end h]
  rfl

/-! ### Loops that look at the ancestors -/

theorem mapCtx_settles {u : List Node → Node → Option Node} (hu : ∀ anc n m, u anc n = some m → u anc m = some m) {anc : List Node}
    {f g : Forest} (h : f.mapCtx u anc = some g) : g.mapCtx u anc = some g := by
  induction f generalizing anc g with
  | nil => cases h; rfl
  | cons n k r ihk ihr =>
    simp only [Forest.mapCtx, Option.bind_eq_some_iff, Option.map_eq_some_iff] at h
    obtain ⟨n', h1, k', h2, r', h3, rfl⟩ := h
    simp only [Forest.mapCtx, hu _ _ _ h1, ihk h2, ihr h3, Option.bind_some, Option.map_some]

/-- A rescaled stroke has no transform, if there was none. -/
theorem rescale_has {anc : List Node} {n : Node} {t : Paths.Transform} (h : n.has .transform = false) :
    (ApplyTs.rescaleStroke anc n t).has .transform = false := by
  have hnum : ∀ (m : Node) (a : AId) (s : ℚ), a ≠ .transform → m.has .transform = false → (ApplyTs.recalcNum anc m a s).has .transform = false := by
    intro m a s ha hm
    unfold ApplyTs.recalcNum
    split
    · split
      · simp [ha.symm, hm]
      · exact hm
    · exact hm
  have hdash : ∀ (m : Node) (s : ℚ), m.has .transform = false → (ApplyTs.recalcDash anc m s).has .transform = false := by
    intro m s hm
    unfold ApplyTs.recalcDash
    split
    · simp [hm]
    · exact hm
  unfold ApplyTs.rescaleStroke
  split
  · exact hnum _ _ _ (by decide) (hdash _ _ (hnum _ _ _ (by decide) h))
  · exact h

theorem processShape_again {move : Node → Paths.Transform → Node} {e : EId} {anc : List Node} {n m : Node}
    (h : ApplyTs.processShape move e anc n = some m) : m = n ∨ m.has .transform = false := by
  unfold ApplyTs.processShape at h
  obtain ⟨ok, _, h⟩ := Option.bind_eq_some_iff.1 h
  split at h
  · cases h; exact .inl rfl
  · obtain ⟨t, _, rfl⟩ := Option.map_eq_some_iff.1 h
    exact .inr (rescale_has (rm_has _ _))

theorem shapeBody_again {anc : List Node} {n m : Node} (h : ApplyTs.shapeBody anc n = some m) : ApplyTs.shapeBody anc m = some m := by
  have key : m = n ∨ m.has .transform = false := by
    unfold ApplyTs.shapeBody at h
    split at h
    · split at h
      · exact processShape_again h
      · exact processShape_again h
      · exact processShape_again h
      · exact processShape_again h
      · cases h; exact .inl rfl
      · cases h
    · cases h; exact .inl rfl
  rcases key with rfl | e
  · exact h
  · unfold ApplyTs.shapeBody
    rw [e]; rfl

/-- Transforms that could not be applied to a shape are not applied by a second run. -/
theorem C67_apply_shapes : Settles Any (may ApplyTs.applyToShapes) :=
  settles_may fun _ _ _ h => mapCtx_settles (u := ApplyTs.shapeBody) (fun _ _ _ => shapeBody_again) h

/-! ### rm_default_attrs.rs -/

/-- Names and values of attributes. -/
def said (l : List Attr) : List (AName × Value) := l.map fun x => (x.name, x.value)

theorem said_hide (n : Node) (a : AId) : said (n.hide a).attrs = said n.attrs := by
  unfold said Node.hide hideAttr
  simp only [List.map_map]
  refine List.map_congr_left fun x _ => ?_
  simp only [Function.comp]
  split <;> rfl

theorem said_hideAll (n : Node) (l : List AId) : said (hideAll n l).attrs = said n.attrs := by
  unfold hideAll
  induction l generalizing n with
  | nil => rfl
  | cons a t ih => rw [List.foldl_cons, ih, said_hide]

theorem rmList_said {ini : AId → Option Value} {root : Option Nat} {anc : List Node} {n m : Node} {e : EId} (hk : m.key = n.key)
    {l l' : List Attr} (h : said l = said l') : DefaultAttrs.rmList ini root anc m e l = DefaultAttrs.rmList ini root anc n e l' := by
  induction l generalizing l' with
  | nil =>
    cases l' with
    | nil => rfl
    | cons => cases h
  | cons x t ih =>
    cases l' with
    | nil => cases h
    | cons y t' =>
      simp only [said, List.map_cons, List.cons.injEq, Prod.mk.injEq] at h
      obtain ⟨⟨h1, h2⟩, h3⟩ := h
      unfold DefaultAttrs.rmList
      rw [h1, ih (by unfold said; exact h3), h2]
      split
      · rfl
      · unfold DefaultAttrs.toHide
        rw [hk]

theorem defaultBody_again {ini : AId → Option Value} {root : Option Nat} {anc : List Node} {n m : Node}
    (h : DefaultAttrs.body ini root anc n = some m) : DefaultAttrs.body ini root anc m = some m ∧ m.key = n.key ∧ m.kind = n.kind := by
  have keyOf : ∀ (n : Node) (l : List AId), (hideAll n l).key = n.key := by
    intro n l
    unfold hideAll
    induction l generalizing n with
    | nil => rfl
    | cons a t ih => rw [List.foldl_cons, ih]; rfl
  unfold DefaultAttrs.body at h
  split at h
  · rename_i e he
    obtain ⟨l, hl, rfl⟩ := Option.map_eq_some_iff.1 h
    refine ⟨?_, keyOf _ _, hideAll_kind _ _⟩
    unfold DefaultAttrs.body
    rw [hideAll_kind, he]
    dsimp only
    rw [rmList_said (keyOf n l) (said_hideAll n l), hl, Option.map_some, hideAll_twice]
  · cases h
    refine ⟨?_, rfl, rfl⟩
    unfold DefaultAttrs.body
    split
    · rename_i h1 _ e h2; exact absurd h2 (h1 e)
    · rfl

theorem mapCtx_root {ini : AId → Option Value} {root : Option Nat} {anc : List Node} {f g : Forest}
    (h : f.mapCtx (DefaultAttrs.body ini root) anc = some g) : (svgElement g).map (·.1.key) = (svgElement f).map (·.1.key) := by
  induction f generalizing anc g with
  | nil => cases h; rfl
  | cons n k r _ ihr =>
    simp only [Forest.mapCtx, Option.bind_eq_some_iff, Option.map_eq_some_iff] at h
    obtain ⟨n', h1, k', _, r', h3, rfl⟩ := h
    obtain ⟨_, hk, hd⟩ := defaultBody_again h1
    unfold svgElement
    have : n'.isTag .svg = n.isTag .svg := by unfold Node.isTag; rw [hd]
    rw [this]
    split
    · simp [hk]
    · exact ihr h3

/-- Attributes that are not removed as defaults are not removed by a second run. -/
theorem C67_defaults (E : Env) : Settles Any (may (DefaultAttrs.removeDefaults E.ini)) := by
  refine settles_may fun f g _ h => ?_
  unfold DefaultAttrs.removeDefaults at h ⊢
  rw [mapCtx_root h]
  exact mapCtx_settles (u := DefaultAttrs.body E.ini _) (fun _ _ _ h => (defaultBody_again h).1) h

/-! ### resolve_gradients.rs: stops -/

theorem setDefault_has (n : Node) {a : AId} (v : Value) (b : AId) : (Stops.setDefault n a v).has b = (decide (b = a) || n.has b) := by
  unfold Stops.setDefault
  by_cases h : n.has a = true
  · rw [if_pos h]
    by_cases e : b = a
    · subst e; simp [h]
    · simp [e]
  · rw [if_neg h]
    have : (Stops.setHidden n a v).has b = if b = a then true else n.has b := by
      unfold Stops.setHidden Node.has
      rw [getAttr_put]
      by_cases e : b = a
      · subst e; simp
      · simp [e]
    rw [this]
    by_cases e : b = a <;> simp [e]

theorem setDefault_get (n : Node) {a : AId} (v : Value) {b : AId} (h : b ≠ a) : (Stops.setDefault n a v).get b = n.get b := by
  unfold Stops.setDefault
  split
  · rfl
  · unfold Stops.setHidden Node.get
    rw [getAttr_put]
    simp [h]

theorem stopDefaults_done {n : Node} (h1 : n.has .stopColor = true) (h2 : n.has .stopOpacity = true) : Stops.stopDefaults n = n := by
  unfold Stops.stopDefaults
  have : Stops.setDefault n .stopColor (.color 0 0 0) = n := by unfold Stops.setDefault; rw [if_pos h1]
  rw [this]
  unfold Stops.setDefault; rw [if_pos h2]

theorem stopDefaults_facts (n : Node) : (Stops.stopDefaults n).has .stopColor = true ∧ (Stops.stopDefaults n).has .stopOpacity = true ∧
    (Stops.stopDefaults n).get .offset = n.get .offset := by
  unfold Stops.stopDefaults
  refine ⟨?_, ?_, ?_⟩
  · rw [setDefault_has, setDefault_has]; simp
  · rw [setDefault_has]; simp
  · rw [setDefault_get _ _ (by decide), setDefault_get _ _ (by decide)]

theorem resolveStop_again {b : Bool} {n m : Node} (h : Stops.resolveStop b n = .ok m) : Stops.resolveStop b m = .ok m := by
  have key : ∃ l : Len, m.get .offset = some (.length l) ∧ l.unit ≠ .percent ∧ m.has .stopColor = true ∧ m.has .stopOpacity = true := by
    unfold Stops.resolveStop at h
    split at h
    · rename_i l hl
      injection h with h
      subst h
      obtain ⟨h1, h2, h3⟩ := stopDefaults_facts (if l.unit = .percent then n.set .offset (.length ⟨l.num / 100, .none⟩) else n)
      by_cases hu : l.unit = .percent
      · rw [if_pos hu] at h1 h2 h3 ⊢
        exact ⟨⟨l.num / 100, .none⟩, by rw [h3]; simp, (by simp), h1, h2⟩
      · rw [if_neg hu] at h1 h2 h3 ⊢
        exact ⟨l, by rw [h3]; exact hl, hu, h1, h2⟩
    · split at h
      · injection h with h
        subst h
        obtain ⟨h1, h2, h3⟩ := stopDefaults_facts (n.set .offset (.length ⟨0, .none⟩))
        exact ⟨⟨0, .none⟩, by rw [h3]; simp, by decide, h1, h2⟩
      · cases h
  obtain ⟨l, hl, hu, h1, h2⟩ := key
  unfold Stops.resolveStop
  rw [hl]
  dsimp only
  rw [if_neg hu, stopDefaults_done h1 h2]

theorem resolveStopKids_again {b : Bool} {f g c : Forest} (h : Stops.resolveStopKids b f = .ok g) (hc : c.top = g.top) :
    Stops.resolveStopKids b c = .ok c := by
  induction f generalizing b g c with
  | nil =>
    simp [Stops.resolveStopKids] at h; subst h
    cases c with
    | nil => rfl
    | cons => cases hc
  | cons n k r _ ih =>
    simp only [Stops.resolveStopKids, Stops.bind_ok] at h
    obtain ⟨n', h1, r', h2, h⟩ := h
    simp at h; subst h
    cases c with
    | nil => cases hc
    | cons m k' c' =>
      simp only [Forest.top, List.cons.injEq] at hc
      obtain ⟨rfl, hc⟩ := hc
      simp only [Stops.resolveStopKids, resolveStop_again h1, ih h2 hc, Res.bind]

theorem resolveStops_again (s : Nat) {f g : Forest} (hs : Stops.size f ≤ s) (h : Stops.resolveStops f = .ok g) :
    Stops.resolveStops g = .ok g := by
  induction s generalizing f g with
  | zero =>
    cases f with
    | nil => rw [Stops.resolveStops.eq_def] at h; simp at h; rw [← h, Stops.resolveStops.eq_def]
    | cons n k r => simp [Stops.size] at hs
  | succ s ih =>
    cases f with
    | nil => rw [Stops.resolveStops.eq_def] at h; simp at h; rw [← h, Stops.resolveStops.eq_def]
    | cons n k r =>
      rw [Stops.resolveStops_cons] at h
      simp only [Stops.bind_ok] at h
      obtain ⟨k1, h1, k2, h2, r', h3, h⟩ := h
      simp at h; subst h
      simp only [Stops.size] at hs
      have h4 : (if n.isGradient then Stops.resolveStopKids true k2 else .ok k2) = .ok k2 := by
        by_cases hg : n.isGradient = true
        · rw [if_pos hg] at h1 ⊢
          exact resolveStopKids_again h1 (Stops.resolveStops_top h2)
        · rw [if_neg hg]
      have hsz : Stops.size k1 = Stops.size k := by
        by_cases hg : n.isGradient = true
        · rw [if_pos hg] at h1; exact Stops.resolveStopKids_size h1
        · rw [if_neg hg] at h1; injection h1 with h1; rw [h1]
      rw [Stops.resolveStops_cons, h4]
      simp only [Res.bind]
      rw [ih (by omega) h2]
      simp only [Res.bind]
      rw [ih (by omega) h3]

/-- A second run finds nothing to add to the stops of the gradients. -/
theorem C67_stops : Settles Any Stops.resolveStops := fun _ _ _ h => resolveStops_again _ (le_refl _) h

/-! ### fix_attrs.rs -/

/-- `marker` is removed at the end. -/
def noMarker (n : Node) : Node := n.rm .marker

theorem get_noMarker {n : Node} {a : AId} (h : a ≠ .marker) : (noMarker n).get a = n.get a := by simp [noMarker, h]
theorem has_noMarker {n : Node} {a : AId} (h : a ≠ .marker) : (noMarker n).has a = n.has a := by simp [noMarker, h]

/-- A length that is not negative. -/
def Fine (n : Node) (a : AId) : Prop := ∀ l, n.get a = some (.length l) → ¬ l.num < 0

theorem fixLen_has (n : Node) (a b : AId) : (Stops.fixLen n a).has b = (decide (b = a) || n.has b) := by
  unfold Stops.fixLen
  by_cases h : n.has a = true
  · rw [if_pos h]
    have : ∀ m : Node, m = n.set a (.length ⟨0, .none⟩) ∨ m = n → m.has b = (decide (b = a) || n.has b) := by
      rintro m (rfl | rfl)
      · by_cases e : b = a <;> simp [e]
      · by_cases e : b = a
        · subst e; simp [h]
        · simp [e]
    apply this
    split
    · split
      · exact .inl rfl
      · exact .inr rfl
    · exact .inr rfl
  · rw [if_neg h]
    by_cases e : b = a <;> simp [e]

theorem fixLen_get {n : Node} {a b : AId} (h : b ≠ a) : (Stops.fixLen n a).get b = n.get b := by
  unfold Stops.fixLen
  split
  · split
    · split
      · simp [h]
      · rfl
    · rfl
  · simp [h]

theorem fixLen_fine (n : Node) (a : AId) : Fine (Stops.fixLen n a) a := by
  intro l hl
  unfold Stops.fixLen at hl
  split at hl
  · split at hl
    · split at hl
      · simp at hl; subst hl; simp
      · rename_i h1 h2; rw [h1] at hl; injection hl with hl; injection hl with hl; subst hl; exact h2
    · rename_i h1; exact absurd hl (h1 l)
  · simp at hl; subst hl; simp

theorem rmNeg_get {n : Node} {a b : AId} (h : b ≠ a) : (Stops.rmNegativeLen n a).get b = n.get b := by
  unfold Stops.rmNegativeLen
  split
  · split
    · simp [h]
    · rfl
  · rfl

theorem rmNeg_fine (n : Node) (a : AId) : Fine (Stops.rmNegativeLen n a) a := by
  intro l hl
  unfold Stops.rmNegativeLen at hl
  split at hl
  · split at hl
    · rw [get_rm_self] at hl; cases hl
    · rename_i h1 h2; rw [h1] at hl; injection hl with hl; injection hl with hl; subst hl; exact h2
  · rename_i h1; exact absurd hl (h1 l)

theorem rmNeg_has {n : Node} {a b : AId} (h : b ≠ a) : (Stops.rmNegativeLen n a).has b = n.has b := by
  unfold Stops.rmNegativeLen
  split
  · split
    · simp [h]
    · rfl
  · rfl

theorem fixLen_done {n : Node} {a : AId} (h1 : n.has a = true) (h2 : Fine n a) : Stops.fixLen n a = n := by
  unfold Stops.fixLen
  rw [if_pos h1]
  split
  · rename_i l hl; rw [if_neg (h2 l hl)]
  · rfl

theorem rmNeg_done {n : Node} {a : AId} (h2 : Fine n a) : Stops.rmNegativeLen n a = n := by
  unfold Stops.rmNegativeLen
  split
  · rename_i l hl; rw [if_neg (h2 l hl)]
  · rfl

theorem fixRect_again (n : Node) : Stops.fixRect (noMarker (Stops.fixRect n)) = noMarker (Stops.fixRect n) := by
  have hw : (Stops.fixRect n).has .width = true ∧ (Stops.fixRect n).has .height = true := by
    unfold Stops.fixRect
    rw [rmNeg_has (by decide), rmNeg_has (by decide), fixLen_has, fixLen_has, rmNeg_has (by decide), rmNeg_has (by decide), fixLen_has]
    simp
  have hf : ∀ a ∈ [AId.width, .height, .rx, .ry], Fine (noMarker (Stops.fixRect n)) a := by
    intro a ha l hl
    rw [get_noMarker (by rintro rfl; revert ha; decide)] at hl
    unfold Stops.fixRect at hl
    simp only [List.mem_cons, List.not_mem_nil, or_false] at ha
    rcases ha with rfl | rfl | rfl | rfl
    · rw [rmNeg_get (by decide), rmNeg_get (by decide), fixLen_get (by decide)] at hl
      exact fixLen_fine _ _ l hl
    · rw [rmNeg_get (by decide), rmNeg_get (by decide)] at hl
      exact fixLen_fine _ _ l hl
    · rw [rmNeg_get (by decide)] at hl
      exact rmNeg_fine _ _ l hl
    · exact rmNeg_fine _ _ l hl
  have h1 : Stops.fixLen (noMarker (Stops.fixRect n)) .width = noMarker (Stops.fixRect n) :=
    fixLen_done (by rw [has_noMarker (by decide)]; exact hw.1) (hf _ (by simp))
  have h2 : Stops.fixLen (noMarker (Stops.fixRect n)) .height = noMarker (Stops.fixRect n) :=
    fixLen_done (by rw [has_noMarker (by decide)]; exact hw.2) (hf _ (by simp))
  have h3 := rmNeg_done (hf .rx (by simp))
  have h4 := rmNeg_done (hf .ry (by simp))
  generalize noMarker (Stops.fixRect n) = m at *
  unfold Stops.fixRect
  rw [h1, h2, h3, h4]

theorem evenPoints_again (p : List ℚ) : Stops.evenPoints (Stops.evenPoints p) = Stops.evenPoints p := by
  unfold Stops.evenPoints
  split
  · rename_i h
    rw [if_neg]
    simp only [List.length_dropLast, not_not]
    omega
  · rfl

theorem evenValue_again (v : Value) : Stops.evenPointsValue (Stops.evenPointsValue v) = Stops.evenPointsValue v := by
  cases v <;> try rfl
  simp only [Stops.evenPointsValue, evenPoints_again]

theorem modValue_get (n : Node) (a : AId) (g : Value → Value) (b : AId) :
    (Stops.modValue n a g).get b = if b = a then (n.get a).map g else n.get b := by
  unfold Stops.modValue Node.get getAttr
  simp only
  induction n.attrs with
  | nil => simp
  | cons x t ih =>
    by_cases hx : x.name = .id a
    · by_cases hb : b = a
      · subst hb; simp [hx]
      · have : (AName.id a = AName.id b) ↔ False := by simp [Ne.symm hb]
        simp only [hb, if_false] at ih ⊢
        simp [hx, Ne.symm hb] at ih ⊢
        exact ih
    · by_cases hb : b = a
      · subst hb
        simp [hx] at ih ⊢
        exact ih
      · by_cases hxb : x.name = .id b
        · simp [hx, hxb, hb]
        · simp [hx, hxb, hb] at ih ⊢
          exact ih

theorem fixPoly_again (n : Node) : Stops.fixPoly (noMarker (Stops.fixPoly n)) = noMarker (Stops.fixPoly n) := by
  by_cases hp : ∃ p, n.get .points = some (.numberList p)
  · obtain ⟨p, hp⟩ := hp
    by_cases he : Stops.evenPoints p = []
    · have : Stops.fixPoly n = n.rm .points := by unfold Stops.fixPoly; rw [hp]; dsimp only; rw [if_pos he]
      rw [this]
      unfold Stops.fixPoly
      rw [get_noMarker (by decide), get_rm_self]
    · have : Stops.fixPoly n = Stops.modValue n .points Stops.evenPointsValue := by
        unfold Stops.fixPoly; rw [hp]; dsimp only; rw [if_neg he]
      rw [this]
      have hg : (noMarker (Stops.modValue n .points Stops.evenPointsValue)).get .points = some (.numberList (Stops.evenPoints p)) := by
        rw [get_noMarker (by decide), modValue_get, if_pos rfl, hp]; rfl
      unfold Stops.fixPoly
      rw [hg]
      dsimp only
      rw [evenPoints_again, if_neg he]
      unfold Stops.modValue noMarker Node.rm rmAttr
      simp only [List.filter_map, List.map_map]
      congr 1
      refine List.map_congr_left fun x _ => ?_
      simp only [Function.comp]
      by_cases hx : x.name = .id .points
      · simp [hx, evenValue_again]
      · simp [hx]
  · have : Stops.fixPoly n = n := by
      unfold Stops.fixPoly
      split
      · rename_i p h; exact absurd ⟨p, h⟩ hp
      · rfl
    rw [this]
    unfold Stops.fixPoly
    rw [get_noMarker (by decide)]
    split
    · rename_i p h; exact absurd ⟨p, h⟩ hp
    · rfl

theorem fixNode_again (n : Node) : Stops.fixNode (noMarker (Stops.fixNode n)) = noMarker (Stops.fixNode n) := by
  have hk : (noMarker (Stops.fixNode n)).kind = n.kind := by
    show (Stops.fixNode n).kind = n.kind
    exact (Stops.fixNode_same n).2.1
  by_cases h1 : n.kind = .elem .rect
  · have e : ∀ m : Node, m.kind = n.kind → Stops.fixNode m = Stops.fixRect m := by
      intro m hm; unfold Stops.fixNode; rw [hm, h1]
    rw [e _ hk, e n rfl, fixRect_again]
  · by_cases h2 : n.kind = .elem .polyline ∨ n.kind = .elem .polygon
    · have e : ∀ m : Node, m.kind = n.kind → Stops.fixNode m = Stops.fixPoly m := by
        intro m hm; unfold Stops.fixNode; rw [hm]
        rcases h2 with h2 | h2 <;> rw [h2]
      rw [e _ hk, e n rfl, fixPoly_again]
    · have e : ∀ m : Node, m.kind = n.kind → Stops.fixNode m = m := by
        intro m hm; unfold Stops.fixNode; rw [hm]
        split
        · rename_i h; exact absurd h h1
        · rename_i h; exact absurd (.inl h) h2
        · rename_i h; exact absurd (.inr h) h2
        · rfl
      rw [e _ hk]


/-- All attributes of this name are this visible one. -/
def Only (n : Node) (a : AId) (v : Value) : Prop :=
  (getAttr n.attrs (.id a)).isSome = true ∧ ∀ x ∈ n.attrs, x.name = .id a → x = ⟨.id a, v, true⟩

theorem only_set (n : Node) (a : AId) (v : Value) : Only (n.set a v) a v := by
  refine ⟨?_, ?_⟩
  · unfold Node.set
    rw [getAttr_put, if_pos rfl]; rfl
  · intro x hx hn
    unfold Node.set putAttr at hx
    dsimp only at hx
    split at hx
    · obtain ⟨y, hy, rfl⟩ := List.mem_map.1 hx
      by_cases e : y.name = .id a
      · rw [if_pos e]
      · rw [if_neg e] at hn; exact absurd hn e
    · rename_i h
      rcases List.mem_append.1 hx with hx | hx
      · exact absurd (List.any_eq_true.2 ⟨x, hx, by simpa using hn⟩) h
      · exact List.mem_singleton.1 hx

theorem set_only {n : Node} {a : AId} {v : Value} (h : Only n a v) : n.set a v = n := by
  have hany : (n.attrs.any fun y => decide (y.name = AName.id a)) = true := by
    obtain ⟨x, hx⟩ := Option.isSome_iff_exists.1 h.1
    exact List.any_eq_true.2 ⟨x, getAttr_mem hx, by simpa using getAttr_name hx⟩
  have : n.attrs.map (fun y => if y.name = .id a then (⟨.id a, v, true⟩ : Attr) else y) = n.attrs := by
    conv_rhs => rw [← List.map_id n.attrs]
    refine List.map_congr_left fun y hy => ?_
    simp only [id]
    split
    · rename_i hyn; exact (h.2 y hy hyn).symm
    · rfl
  unfold Node.set putAttr
  dsimp only
  rw [if_pos hany, this]

theorem mem_fixLen {n : Node} {a : AId} {x : Attr} (hx : x ∈ (Stops.fixLen n a).attrs) (h : x.name ≠ .id a) : x ∈ n.attrs := by
  have key : ∀ v, x ∈ (n.set a v).attrs → x ∈ n.attrs := by
    intro v hx
    rcases Node.mem_putAttr hx with rfl | hx
    · exact absurd rfl h
    · exact hx
  unfold Stops.fixLen at hx
  split at hx
  · split at hx
    · split at hx
      · exact key _ hx
      · exact hx
    · exact hx
  · exact key _ hx

theorem mem_rmNeg {n : Node} {a : AId} {x : Attr} (hx : x ∈ (Stops.rmNegativeLen n a).attrs) : x ∈ n.attrs := by
  unfold Stops.rmNegativeLen at hx
  split at hx
  · split at hx
    · exact List.mem_of_mem_filter hx
    · exact hx
  · exact hx

theorem mem_fixNode {n : Node} {x : Attr} (hx : x ∈ (Stops.fixNode n).attrs) (h : x.name = .id .offset) : x ∈ n.attrs := by
  have hpoly : x ∈ (Stops.fixPoly n).attrs → x ∈ n.attrs := by
    intro hx
    unfold Stops.fixPoly at hx
    split at hx
    · split at hx
      · exact List.mem_of_mem_filter hx
      · obtain ⟨y, hy, e⟩ := List.mem_map.1 hx
        by_cases hp : y.name = .id .points
        · rw [if_pos hp] at e; rw [← e] at h; rw [hp] at h; cases h
        · rw [if_neg hp] at e; rw [← e]; exact hy
    · exact hx
  unfold Stops.fixNode at hx
  split at hx
  · unfold Stops.fixRect at hx
    exact mem_fixLen (mem_fixLen (mem_rmNeg (mem_rmNeg hx)) (by rw [h]; decide)) (by rw [h]; decide)
  · exact hpoly hx
  · exact hpoly hx
  · exact hx

theorem only_fix {n : Node} {v : Value} (h : Only n .offset v) : Only (noMarker (Stops.fixNode n)) .offset v := by
  refine ⟨?_, fun x hx hn => ?_⟩
  · have : getAttr (noMarker (Stops.fixNode n)).attrs (.id .offset) = getAttr n.attrs (.id .offset) := by
      unfold noMarker Node.rm
      rw [getAttr_rm, if_neg (by decide), Stops.offset_fixNode]
    rw [this]; exact h.1
  · exact h.2 x (mem_fixNode (List.mem_of_mem_filter hx) hn) hn

theorem only_get {n : Node} {a : AId} {v : Value} (h : Only n a v) : n.get a = some v := by
  obtain ⟨x, hx⟩ := Option.isSome_iff_exists.1 h.1
  unfold Node.get
  rw [hx, h.2 x (getAttr_mem hx) (getAttr_name hx)]
  rfl

theorem fixOffset_again (p o : ℚ) : Stops.fixOffset p (Stops.fixOffset p o) = Stops.fixOffset p o ∨ 1 < p := by
  by_cases hp : 1 < p
  · exact .inr hp
  · left
    unfold Stops.fixOffset
    dsimp only
    split_ifs <;> first | rfl | linarith

theorem fixStopKids_again {p : ℚ} {f g c : Forest} (hp : 0 ≤ p ∧ p ≤ 1) (h : Stops.fixStopKids p f = some g)
    (hc : c.top = g.top.map fun n => noMarker (Stops.fixNode n)) : Stops.fixStopKids p c = some c := by
  induction f generalizing p g c with
  | nil =>
    simp [Stops.fixStopKids] at h; subst h
    cases c with
    | nil => rfl
    | cons => cases hc
  | cons n k r _ ih =>
    unfold Stops.fixStopKids at h
    split at h
    · rename_i l hl
      split at h
      · obtain ⟨r', h2, rfl⟩ := Option.map_eq_some_iff.1 h
        cases c with
        | nil => cases hc
        | cons m k' c' =>
          simp only [Forest.top, List.map_cons, List.cons.injEq] at hc
          obtain ⟨rfl, hc⟩ := hc
          have ho := only_fix (only_set n .offset (.length ⟨Stops.fixOffset p l.num, .none⟩))
          have hr : 0 ≤ Stops.fixOffset p l.num ∧ Stops.fixOffset p l.num ≤ 1 := by
            unfold Stops.fixOffset
            dsimp only
            split_ifs <;> constructor <;> linarith [hp.1, hp.2]
          have hf : Stops.fixOffset p (Stops.fixOffset p l.num) = Stops.fixOffset p l.num := by
            rcases fixOffset_again p l.num with h | h
            · exact h
            · exact absurd hp.2 (not_le.2 h)
          generalize noMarker (Stops.fixNode (n.set .offset (.length ⟨Stops.fixOffset p l.num, .none⟩))) = m at *
          unfold Stops.fixStopKids
          rw [only_get ho]
          dsimp only
          rw [if_pos rfl, hf, ih hr h2 hc, set_only ho]
          rfl
      · cases h
    · cases h

theorem top_map (u : Node → Node) (f : Forest) : (f.map u).top = f.top.map u := by
  induction f with
  | nil => rfl
  | cons n k r _ ih => simp only [Forest.map, Forest.top, List.map_cons, ih]

theorem fixGo_eq {n : Node} {k r : Forest} : Stops.fixGo (.cons n k r) = (if n.isGradient then Stops.fixStopKids 0 k else some k).bind fun k1 =>
    (Stops.fixGo k1).bind fun k2 => (Stops.fixGo r).map fun r' => .cons (Stops.fixNode n) k2 r' := by
  rw [Stops.fixGo.eq_def]
  simp only
  split <;> (rename_i h; rw [h]; rfl)

theorem fixGo_again (s : Nat) {f g : Forest} (hs : Stops.size f ≤ s) (h : Stops.fixGo f = some g) :
    Stops.fixGo (g.map noMarker) = some (g.map noMarker) := by
  induction s generalizing f g with
  | zero =>
    cases f with
    | nil => rw [Stops.fixGo.eq_def] at h; simp at h; rw [← h, Stops.fixGo.eq_def]; rfl
    | cons n k r => simp [Stops.size] at hs
  | succ s ih =>
    cases f with
    | nil => rw [Stops.fixGo.eq_def] at h; simp at h; rw [← h, Stops.fixGo.eq_def]; rfl
    | cons n k r =>
      obtain ⟨k1, k2, r', h1, h2, h3, rfl⟩ := Stops.fixGo_cons h
      simp only [Stops.size] at hs
      have hg : (noMarker (Stops.fixNode n)).isGradient = n.isGradient := by
        have : (noMarker (Stops.fixNode n)).kind = n.kind := (Stops.fixNode_same n).2.1
        unfold Node.isGradient Node.isTag
        rw [this]
      have h4 : (if n.isGradient then Stops.fixStopKids 0 (k2.map noMarker) else some (k2.map noMarker)) = some (k2.map noMarker) := by
        by_cases hg : n.isGradient = true
        · rw [if_pos hg] at h1 ⊢
          refine fixStopKids_again ⟨le_refl _, by norm_num⟩ h1 ?_
          rw [top_map, Stops.fixGo_top h2, List.map_map]; rfl
        · rw [if_neg hg]
      have hsz : Stops.size k1 = Stops.size k := by
        by_cases hg : n.isGradient = true
        · rw [if_pos hg] at h1; exact Stops.fixStopKids_size h1
        · rw [if_neg hg] at h1; injection h1 with h1; rw [h1]
      simp only [Forest.map]
      rw [fixGo_eq, hg, h4, Option.bind_some, ih (by omega) h2, Option.bind_some, ih (by omega) h3, Option.map_some, fixNode_again]

/-- A second run finds nothing to repair. -/
theorem C67_repair : Settles Any (may Stops.fixInvalidAttributes) := by
  refine settles_may fun f g _ h => ?_
  unfold Stops.fixInvalidAttributes at h ⊢
  obtain ⟨c, hc, rfl⟩ := Option.map_eq_some_iff.1 h
  have := fixGo_again _ (le_refl _) hc
  show Option.map _ (Stops.fixGo (c.map noMarker)) = some (c.map noMarker)
  rw [this]
  show some ((c.map noMarker).map noMarker) = _
  rw [map_settles (fun n => rm_rm n .marker)]

end Verif.Idem
