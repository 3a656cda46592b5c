import Verif.Pipeline
import Verif.PipelineCases
import Verif.FinalProps
import Verif.IdsProps
import Verif.ConvShapesProps
/-
C67: a second run of a task on its own result changes nothing.
-/
namespace Verif.Idem
open Verif.Dom Verif.Spec Verif.Pipeline

/-! ### Specification -/

/-- If the task succeeds on a document, then it succeeds on the result, and changes nothing. -/
def Settles (P : Forest → Prop) (t : Task) : Prop := ∀ f g, P f → t f = .ok g → t g = .ok g

/-- For all documents. -/
abbrev Any : Forest → Prop := fun _ => True

theorem settles_sure {P : Forest → Prop} {t : Forest → Forest} (h : ∀ f, P f → t (t f) = t f) : Settles P (sure t) := by
  intro f g hf e
  cases e
  exact congrArg Res.ok (h f hf)

theorem settles_may {P : Forest → Prop} {t : Forest → Option Forest} (h : ∀ f g, P f → t f = some g → t g = some g) : Settles P (may t) := by
  intro f g hf e
  unfold may at e ⊢
  cases ht : t f with
  | none => rw [ht] at e; cases e
  | some g' =>
    rw [ht] at e
    cases e
    rw [h f _ hf ht]
    rfl

/-! ### Removal -/

theorem map_id_of {u : Node → Node} {f : Forest} (h : ∀ n ∈ f.nodes, u n = n) : f.map u = f := by
  induction f with
  | nil => rfl
  | cons n k r ihk ihr =>
    have h1 : u n = n := h n (by simp [Forest.nodes])
    have h2 := ihk fun m hm => h m (by simp [Forest.nodes, hm])
    have h3 := ihr fun m hm => h m (by simp [Forest.nodes, hm])
    simp only [Forest.map, h1, h2, h3]

theorem prune_none {p : Node → Bool} {f : Forest} (h : ∀ n ∈ f.nodes, p n = false) : f.prune p = f ∧ f.prunedKeys p = [] := by
  induction f with
  | nil => exact ⟨rfl, rfl⟩
  | cons n k r ihk ihr =>
    have h1 : p n = false := h n (by simp [Forest.nodes])
    have h2 := ihk fun m hm => h m (by simp [Forest.nodes, hm])
    have h3 := ihr fun m hm => h m (by simp [Forest.nodes, hm])
    simp [Forest.prune, Forest.prunedKeys, h1, h2, h3]

theorem unlink_none (n : Node) : n.unlink (fun k => decide (k ∈ ([] : List Nat))) = n := by
  unfold Node.unlink
  rw [List.filter_eq_self.2]
  intro x _
  split <;> simp

/-- Nothing to remove. -/
theorem remove_none {p : Node → Bool} {f : Forest} (h : ∀ n ∈ f.nodes, p n = false) : f.remove p = f := by
  unfold Forest.remove
  rw [(prune_none h).1, (prune_none h).2]
  exact map_id_of fun n _ => unlink_none n

/-- **C67** for `remove-title`, `remove-desc`, `remove-metadata`. -/
theorem C67_elements (e : EId) : Settles Any (sure (Simple.removeElement e)) := by
  refine settles_sure fun f _ => ?_
  unfold Simple.removeElement
  refine remove_none fun n hn => ?_
  obtain ⟨m, hm, rfl⟩ := Forest.mem_remove hn
  have := Forest.mem_prune hm
  exact this

/-! ### Changes of single nodes -/

theorem mapOpt_settles {u : Node → Option Node} (hu : ∀ n m, u n = some m → u m = some m) {f g : Forest} (h : f.mapOpt u = some g) :
    g.mapOpt u = some g := by
  induction f generalizing g with
  | nil => cases h; rfl
  | cons n k r ihk ihr =>
    simp only [Forest.mapOpt, Option.bind_eq_some_iff, Option.map_eq_some_iff] at h
    obtain ⟨n', h1, k', h2, r', h3, rfl⟩ := h
    simp only [Forest.mapOpt, hu _ _ h1, ihk h2, ihr h3, Option.bind_some, Option.map_some]

theorem map_settles {u : Node → Node} (hu : ∀ n, u (u n) = u n) (f : Forest) : (f.map u).map u = f.map u := by
  refine map_id_of fun n hn => ?_
  rw [Forest.nodes_map] at hn
  obtain ⟨m, _, rfl⟩ := List.mem_map.1 hn
  exact hu m

theorem get_rm_self (n : Node) (a : AId) : (n.rm a).get a = none := by
  unfold Node.get Node.rm
  dsimp only
  unfold rmAttr getAttr
  rw [Option.map_eq_none_iff, List.find?_eq_none]
  intro x hx
  have := (List.mem_filter.1 hx).2
  simp only [decide_eq_true_eq] at this ⊢
  exact this

theorem rm_of_absent {n : Node} {a : AId} (h : ∀ x ∈ n.attrs, x.name ≠ .id a) : n.rm a = n := by
  unfold Node.rm rmAttr
  rw [List.filter_eq_self.2]
  intro x hx
  simpa using h x hx

theorem rm_rm (n : Node) (a : AId) : (n.rm a).rm a = n.rm a := by
  refine rm_of_absent fun x hx => ?_
  have := (List.mem_filter.1 hx).2
  simpa using this

theorem rm_comm (n : Node) (a b : AId) : (n.rm a).rm b = (n.rm b).rm a := by
  unfold Node.rm rmAttr
  simp only [List.filter_filter]
  congr 1
  refine List.filter_congr fun x _ => ?_
  rw [Bool.and_comm]

theorem rm_has (n : Node) (a : AId) : (n.rm a).has a = false := by
  have := get_rm_self n a
  unfold Node.get at this
  unfold Node.has
  rw [Option.map_eq_none_iff] at this
  rw [this]
  rfl

/-- **C67** for the removal of identity transforms. -/
theorem C67_default_transform : Settles Any (sure Simple.removeDefaultTransform) := by
  refine settles_sure fun f _ => map_settles (fun n => ?_) f
  by_cases h : n.get .transform = some (.transform Simple.identity)
  · have e : Simple.dropDefault n = n.rm .transform := by unfold Simple.dropDefault; rw [h]; rfl
    rw [e]
    unfold Simple.dropDefault
    rw [get_rm_self]
  · have e : Simple.dropDefault n = n := by
      unfold Simple.dropDefault
      split
      case h_1 t ht => exact if_neg fun e => h (by rw [ht, e])
      case h_2 => rfl
    rw [e, e]

/-- **C67** for `convert-shapes`. -/
theorem C67_shapes : Settles Any (may ConvShapes.convertShapes) := by
  refine settles_may fun f g _ h => mapOpt_settles (fun n m hn => ?_) h
  have hpath : ∀ m : Node, m.kind = .elem .path → ConvShapes.convertNode m = some m := by
    intro m hm
    unfold ConvShapes.convertNode
    rw [hm]
  have hn' := hn
  unfold ConvShapes.convertNode at hn
  split at hn
  · cases hn
    by_cases hc : (ConvShapes.convertLine n).kind = .elem .path
    · exact hpath _ hc
    · have : ConvShapes.convertLine n = n := by
        unfold ConvShapes.convertLine at hc ⊢
        dsimp only at hc ⊢
        split
        · rename_i hu; rw [if_pos hu] at hc; exact absurd rfl hc
        · rfl
      rw [this] at hn' ⊢
      exact hn'
  · cases hn
    by_cases hc : (ConvShapes.convertRect n).kind = .elem .path
    · exact hpath _ hc
    · have : ConvShapes.convertRect n = n := by
        unfold ConvShapes.convertRect at hc ⊢
        dsimp only at hc ⊢
        split
        · rfl
        · rename_i h1
          rw [if_neg h1] at hc
          split
          · rfl
          · rename_i h2
            rw [if_neg h2] at hc
            split
            · rename_i hu; rw [if_pos hu] at hc; exact absurd rfl hc
            · rfl
      rw [this] at hn' ⊢
      exact hn'
  · have key : m.kind = .elem .path ∨ m = n := by
      unfold ConvShapes.convertPoly at hn
      split at hn
      · rw [Option.map_eq_some_iff] at hn
        obtain ⟨p, _, rfl⟩ := hn
        exact .inl rfl
      · cases hn; exact .inr rfl
    rcases key with h | rfl
    · exact hpath _ h
    · exact hn'
  · have key : m.kind = .elem .path ∨ m = n := by
      unfold ConvShapes.convertPoly at hn
      split at hn
      · rw [Option.map_eq_some_iff] at hn
        obtain ⟨p, _, rfl⟩ := hn
        exact .inl rfl
      · cases hn; exact .inr rfl
    rcases key with h | rfl
    · exact hpath _ h
    · exact hn'
  · cases hn
    exact hn'

/-! ### The root element -/

theorem svgElement_set {f : Forest} {n n' : Node} {k k' : Forest} (h : svgElement f = some (n, k)) (hn : n'.isTag .svg = true) :
    svgElement (setSvgElement n' k' f) = some (n', k') ∧ ∀ n'' k'', setSvgElement n'' k'' (setSvgElement n' k' f) = setSvgElement n'' k'' f := by
  induction f with
  | nil => cases h
  | cons m c r _ ihr =>
    unfold svgElement at h
    unfold setSvgElement
    split at h
    · rename_i hm
      simp only [hm, if_true, svgElement, setSvgElement, hn, implies_true, and_self]
    · rename_i hm
      obtain ⟨h1, h2⟩ := ihr h
      simp only [hm, if_false, svgElement, setSvgElement, h1, h2, implies_true, and_self, Bool.false_eq_true]

theorem svgElement_tag {f : Forest} {n : Node} {k : Forest} (h : svgElement f = some (n, k)) : n.isTag .svg = true := by
  induction f with
  | nil => cases h
  | cons m c r _ ihr =>
    unfold svgElement at h
    split at h
    · rename_i hm; cases h; exact hm
    · exact ihr h

/-- **C67** for `remove-version`. -/
theorem C67_version : Settles Any (may Simple.removeVersion) := by
  refine settles_may fun f g _ h => ?_
  unfold Simple.removeVersion at h ⊢
  rw [Option.map_eq_some_iff] at h
  obtain ⟨⟨n, k⟩, h1, rfl⟩ := h
  dsimp only
  obtain ⟨h2, h3⟩ := svgElement_set (n' := (n.rm .version).rm .baseProfile) (k' := k) h1 (show n.isTag .svg = true from svgElement_tag h1)
  rw [h2]
  simp only [Option.map_some, h3, Option.some.injEq]
  congr 1
  rw [rm_comm ((n.rm .version).rm .baseProfile) .version .baseProfile, rm_rm, rm_comm n, rm_rm]

theorem nodes_setSvg {f : Forest} {n : Node} {k : Forest} (h : svgElement f = some (n, k)) :
    ∃ a b, f.nodes = a ++ n :: (k.nodes ++ b) ∧ ∀ n' k', (setSvgElement n' k' f).nodes = a ++ n' :: (k'.nodes ++ b) := by
  induction f with
  | nil => cases h
  | cons m c r _ ihr =>
    unfold svgElement at h
    split at h
    · rename_i hm
      cases h
      exact ⟨[], r.nodes, rfl, fun n' k' => by simp only [setSvgElement, hm, if_true, Forest.nodes, List.nil_append]⟩
    · rename_i hm
      obtain ⟨a, b, h1, h2⟩ := ihr h
      exact ⟨m :: (c.nodes ++ a), b, by simp [Forest.nodes, h1], fun n' k' => by simp [setSvgElement, hm, Forest.nodes, h2]⟩

theorem links_set {n : Node} {a : AId} {s : String} (h : n.has a = false) : (n.set a (.str s)).links = n.links := by
  have : putAttr n.attrs ⟨.id a, .str s, true⟩ = n.attrs ++ [⟨.id a, .str s, true⟩] := by
    unfold putAttr
    rw [if_neg]
    intro hc
    rw [List.any_eq_true] at hc
    unfold Node.has at h
    rw [Option.isSome_eq_false_iff, Option.isNone_iff_eq_none] at h
    unfold getAttr at h
    rw [List.find?_eq_none] at h
    obtain ⟨x, hx, e⟩ := hc
    exact h x hx e
  unfold Node.links Node.set
  dsimp only
  rw [this, List.filterMap_append]
  simp [Value.target]

theorem links_rm (n : Node) (a : AId) : ∀ k ∈ (n.rm a).links, k ∈ n.links := by
  intro k hk
  obtain ⟨y, hy, e⟩ := Node.mem_links.1 hk
  exact Node.mem_links.2 ⟨y, (List.mem_filter.1 hy).1, e⟩

/-- **C67** for the declaration of the xlink namespace. -/
theorem C67_xmlns (b : Bool) : Settles Any (may (Simple.fixXmlnsAttribute b)) := by
  refine settles_may fun f g _ h => ?_
  unfold Simple.fixXmlnsAttribute at h
  rw [Option.map_eq_some_iff] at h
  obtain ⟨⟨n, k⟩, h1, rfl⟩ := h
  dsimp only
  have hkey : ∀ l, (Simple.fixXmlnsRoot b l n).key = n.key ∧ (Simple.fixXmlnsRoot b l n).kind = n.kind := by
    intro l
    unfold Simple.fixXmlnsRoot
    split
    · exact ⟨rfl, rfl⟩
    · split <;> exact ⟨rfl, rfl⟩
  obtain ⟨h2, h3⟩ := svgElement_set (n' := Simple.fixXmlnsRoot b (Simple.hasLinks f) n) (k' := k) h1
    (by unfold Node.isTag; rw [(hkey _).2]; exact svgElement_tag h1)
  obtain ⟨a, c, e1, e2⟩ := nodes_setSvg h1
  have e2 := e2 (Simple.fixXmlnsRoot b (Simple.hasLinks f) n) k
  have hl : Simple.hasLinks (setSvgElement (Simple.fixXmlnsRoot b (Simple.hasLinks f) n) k f) = Simple.hasLinks f := by
    cases hb : Simple.hasLinks f with
    | false =>
      rw [hb] at e2
      rw [Bool.eq_false_iff] at hb ⊢
      intro hc
      refine hb ?_
      unfold Simple.hasLinks at hc ⊢
      rw [List.any_eq_true] at hc ⊢
      have old : ∀ m ∈ a ++ Simple.fixXmlnsRoot b false n :: (k.nodes ++ c), ∃ m' ∈ f.nodes, m'.key = m.key ∧ m'.isSvgElem = m.isSvgElem ∧
          (m.has .xlinkHref = true → m'.has .xlinkHref = true) ∧ ∀ x ∈ m.links, x ∈ m'.links := by
        intro m hm
        rw [e1]
        rw [List.mem_append, List.mem_cons] at hm
        rcases hm with hm | rfl | hm
        · exact ⟨m, List.mem_append_left _ hm, rfl, rfl, id, fun _ h => h⟩
        · refine ⟨n, List.mem_append_right _ (List.mem_cons_self ..), (hkey _).1.symm, ?_, ?_⟩
          · unfold Node.isSvgElem; rw [(hkey _).2]
          · unfold Simple.fixXmlnsRoot
            split
            · exact ⟨fun h => by simpa using h, links_rm n _⟩
            · simp
        · exact ⟨m, List.mem_append_right _ (List.mem_cons_of_mem _ hm), rfl, rfl, id, fun _ h => h⟩
      obtain ⟨m, hm, hc⟩ := hc
      rw [e2] at hm
      obtain ⟨m', h4, h5, h6, h7, _⟩ := old m hm
      refine ⟨m', h4, ?_⟩
      rw [Bool.and_eq_true, Bool.or_eq_true] at hc ⊢
      refine ⟨by rw [h6]; exact hc.1, hc.2.imp (fun hu => ?_) h7⟩
      rw [h5]
      obtain ⟨z, hz, hk⟩ := Forest.isUsed_iff.1 hu
      rw [e2] at hz
      obtain ⟨z', h8, _, _, _, h9⟩ := old z hz
      exact Forest.isUsed_iff.2 ⟨z', h8, h9 _ hk⟩
    | true =>
      refine Eq.trans ?_ hb
      have hr : (Simple.fixXmlnsRoot b true n).links = n.links ∧ (Simple.fixXmlnsRoot b true n).has .xlinkHref = n.has .xlinkHref := by
        unfold Simple.fixXmlnsRoot
        split
        · rename_i h; simp at h
        · split
          · rename_i h
            simp only [Bool.true_and, Bool.not_eq_true'] at h
            exact ⟨links_set h, by simp⟩
          · exact ⟨rfl, rfl⟩
      have hu : ∀ x, (setSvgElement (Simple.fixXmlnsRoot b true n) k f).isUsed x = f.isUsed x := by
        intro x
        unfold Forest.isUsed
        rw [hb] at e2
        rw [e2, e1]
        simp only [List.any_append, List.any_cons, hr.1]
      unfold Simple.hasLinks
      rw [hb] at e2
      simp only [hu]
      rw [e2, e1]
      simp only [List.any_append, List.any_cons, hr.2, (hkey true).1, Node.isSvgElem, (hkey true).2]
  unfold Simple.fixXmlnsAttribute
  rw [h2]
  simp only [Option.map_some, h3, Option.some.injEq]
  congr 1
  rw [hl]
  cases Simple.hasLinks f <;> cases b <;> cases hx : n.has .xmlnsXlink <;> simp [Simple.fixXmlnsRoot, hx]

/-! ### Ids -/

/-- **C67** for `remove-unreferenced-ids`. -/
theorem C67_unreferenced_ids : Settles Any (sure Simple.removeUnreferencedIds) := by
  refine settles_sure fun f _ => ?_
  have hu : ∀ k, (Simple.removeUnreferencedIds f).isUsed k = f.isUsed k := by
    intro k
    unfold Simple.removeUnreferencedIds Forest.isUsed
    rw [Forest.nodes_map, List.any_map]
    congr 1
    funext n
    dsimp only [Function.comp]
    split <;> rfl
  unfold Simple.removeUnreferencedIds at hu ⊢
  refine map_id_of fun n hn => ?_
  simp only [hu]
  rw [Forest.nodes_map] at hn
  obtain ⟨m, _, rfl⟩ := List.mem_map.1 hn
  by_cases hc : m.id ≠ "" ∧ f.isUsed m.key = false
  · rw [if_pos hc]; simp
  · rw [if_neg hc, if_neg hc]

theorem trimNode_again {d d' : List Nat} {n n' : Node} (hd : TrimIds.toBytes d ≠ []) (h : Simple.trimNode d n = some (n', d')) :
    Simple.trimNode d n' = some (n', d') := by
  unfold Simple.trimNode at h
  split at h
  · rename_i hc
    rw [Option.map_eq_some_iff] at h
    obtain ⟨e, h1, h2⟩ := h
    cases h2
    simp only [Bool.and_eq_true, decide_eq_true_eq] at hc
    unfold Simple.trimNode
    rw [if_pos]
    · rw [h1]; rfl
    · have := Simple.idString_ne hd
      simp only [Bool.and_eq_true, decide_eq_true_eq]
      exact ⟨hc.1, this⟩
  · rename_i hc
    cases h
    unfold Simple.trimNode
    rw [if_neg hc]

/-- **C67** for `trim-ids`. -/
theorem C67_trim : Settles Any (may Simple.trimIds) := by
  refine settles_may fun f g _ h => ?_
  have key : ∀ (f : Forest) (i : Nat) (d d' : List Nat) (g : Forest), TrimIds.state i = some d → Simple.trimGo f d = some (g, d') →
      Simple.trimGo g d = some (g, d') := by
    intro f
    induction f with
    | nil => intro i d d' g _ h; cases h; rfl
    | cons n k r ihk ihr =>
      intro i d d' g hd h
      simp only [Simple.trimGo, Option.bind_eq_some_iff, Option.map_eq_some_iff, Prod.mk.injEq] at h
      obtain ⟨⟨n', d1⟩, hn, ⟨k', d2⟩, hk, ⟨r', d3⟩, hr, rfl, rfl⟩ := h
      have h1 : ∃ i1, TrimIds.state i1 = some d1 := by
        unfold Simple.trimNode at hn
        split at hn
        · rw [Option.map_eq_some_iff] at hn
          obtain ⟨e, h1, h2⟩ := hn
          cases h2
          exact ⟨i + 1, by simp [TrimIds.state, hd, h1]⟩
        · cases hn
          exact ⟨i, hd⟩
      obtain ⟨i1, h1⟩ := h1
      obtain ⟨i2, _, h2, _⟩ := Simple.trimGo_spec k d1 i1 h1 k' d2 hk
      have hne : TrimIds.toBytes d ≠ [] := (Simple.genId_ok (m := i) (by simp [TrimIds.genId, hd])).1
      simp only [Simple.trimGo, trimNode_again hne hn, ihk i1 d1 d2 k' h1 hk, ihr i2 d2 d3 r' h2 hr, Option.bind_some, Option.map_some]
  unfold Simple.trimIds at h ⊢
  rw [Option.map_eq_some_iff] at h
  obtain ⟨⟨g', d'⟩, h1, rfl⟩ := h
  rw [key f 0 _ d' g' rfl h1]
  rfl

end Verif.Idem
