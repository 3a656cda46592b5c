import Verif.SimpleProps
/- C48 (defs), C49 (style attributes), C46 (unused coordinates). -/
namespace Verif.Simple
open Verif.Dom Verif.Spec

/-! ### C48 -/

def allNever (f : Forest) : Prop := ∀ n ∈ f.top, neverRendered n.kind = true

theorem drawn_allNever {f : Forest} (h : allNever f) : drawn f = .nil := by
  induction f with
  | nil => rfl
  | cons n k r _ ih =>
    unfold drawn
    rw [if_pos (h n (by simp [Forest.top])), ih (fun m hm => h m (by simp [Forest.top, hm]))]

theorem top_append (f g : Forest) : (f ++ g).top = f.top ++ g.top := by
  induction f with
  | nil => rfl
  | cons n k r _ ih => simp [Forest.top, ih]

theorem drawn_append (f g : Forest) : drawn (f ++ g) = drawn f ++ drawn g := by
  induction f with
  | nil => rfl
  | cons n k r _ ih =>
    rw [Forest.cons_append, drawn, drawn]
    split
    · exact ih
    · rw [ih, Forest.cons_append]

theorem referenced_never (n : Node) (h : isReferencedNode n = true) : neverRendered n.kind = true := by
  unfold isReferencedNode at h
  split at h
  · rename_i e he; rw [he]; cases e <;> simp_all [EId.isReferenced, neverRendered]
  · cases h

theorem ungroupDefsGo_stopped (f : Forest) : ungroupDefsGo f true = (f, [], true) := by
  cases f <;> simp [ungroupDefsGo]

/-- The two shapes of a step of `ungroupDefsGo`. -/
theorem ungroupDefsGo_cons (n : Node) (k r : Forest) :
    ungroupDefsGo (.cons n k r) false =
      if n.isTag .defs && k.top.all isReferencedNode then
        let a := ungroupDefsGo k (k.isEmpty)
        let b := ungroupDefsGo r a.2.2
        (a.1 ++ b.1, n.key :: (a.2.1 ++ b.2.1), b.2.2)
      else
        let a := ungroupDefsGo k false
        let b := ungroupDefsGo r a.2.2
        (.cons n a.1 b.1, a.2.1 ++ b.2.1, b.2.2) := by
  cases k with
  | nil => simp [ungroupDefsGo, ungroupDefsGo_stopped, Forest.isEmpty]
  | cons => rfl

theorem ungroupDefsGo_top (f : Forest) (s : Bool) (h : allNever f) : allNever (ungroupDefsGo f s).1 := by
  induction f generalizing s with
  | nil => simpa [ungroupDefsGo] using h
  | cons n k r ih1 ih2 =>
    cases s with
    | true => rw [ungroupDefsGo_stopped]; exact h
    | false =>
      have hr : allNever r := fun m hm => h m (by simp [Forest.top, hm])
      rw [ungroupDefsGo_cons]
      split
      · rename_i hc
        simp only [Bool.and_eq_true, List.all_eq_true] at hc
        have hk : allNever k := fun m hm => referenced_never m (hc.2 m hm)
        intro m hm
        rw [top_append] at hm
        rcases List.mem_append.1 hm with hm | hm
        · exact ih1 _ hk m hm
        · exact ih2 _ hr m hm
      · intro m hm
        simp only [Forest.top, List.mem_cons] at hm
        rcases hm with rfl | hm
        · exact h m (by simp [Forest.top])
        · exact ih2 _ hr m hm

theorem ungroupDefsGo_drawn (f : Forest) (s : Bool) : drawn (ungroupDefsGo f s).1 = drawn f := by
  induction f generalizing s with
  | nil => rfl
  | cons n k r ih1 ih2 =>
    cases s with
    | true => rw [ungroupDefsGo_stopped]
    | false =>
      rw [ungroupDefsGo_cons]
      split
      · rename_i hc
        simp only [Bool.and_eq_true, List.all_eq_true] at hc
        have hk : allNever k := fun m hm => referenced_never m (hc.2 m hm)
        have hn : neverRendered n.kind = true := by rw [(Node.isTag_iff _ _).1 hc.1]; rfl
        simp only [drawn_append, drawn_allNever (ungroupDefsGo_top _ _ hk), ih2, drawn, hn, if_true, Forest.nil_append]
      · simp only [drawn, ih1, ih2]

/-- What happens to the nodes: the removed ones are `defs` elements. -/
theorem ungroupDefsGo_nodes (f : Forest) (s : Bool) :
    (ungroupDefsGo f s).1.nodes.Sublist f.nodes ∧
    ∀ n ∈ f.nodes, n ∈ (ungroupDefsGo f s).1.nodes ∨ (n.kind = .elem .defs ∧ n.key ∈ (ungroupDefsGo f s).2.1) := by
  induction f generalizing s with
  | nil => simp [ungroupDefsGo]
  | cons n k r ih1 ih2 =>
    cases s with
    | true => rw [ungroupDefsGo_stopped]; exact ⟨List.Sublist.refl _, fun m hm => .inl hm⟩
    | false =>
      rw [ungroupDefsGo_cons]
      split
      · rename_i hc
        simp only [Bool.and_eq_true] at hc
        refine ⟨?_, ?_⟩
        · simp only [Forest.nodes_append, Forest.nodes_cons]
          exact ((ih1 _).1.append (ih2 _).1).cons _
        · intro m hm
          simp only [Forest.nodes_cons, List.mem_cons, List.mem_append] at hm
          simp only [Forest.nodes_append, List.mem_append, List.mem_cons]
          rcases hm with rfl | hm | hm
          · exact .inr ⟨(Node.isTag_iff _ _).1 hc.1, .inl rfl⟩
          · rcases (ih1 k.isEmpty).2 m hm with h | h
            · exact .inl (.inl h)
            · exact .inr ⟨h.1, .inr (.inl h.2)⟩
          · rcases (ih2 (ungroupDefsGo k k.isEmpty).2.2).2 m hm with h | h
            · exact .inl (.inr h)
            · exact .inr ⟨h.1, .inr (.inr h.2)⟩
      · refine ⟨?_, ?_⟩
        · simp only [Forest.nodes_cons]
          exact ((ih1 _).1.append (ih2 _).1).cons_cons _
        · intro m hm
          simp only [Forest.nodes_cons, List.mem_cons, List.mem_append] at hm
          simp only [Forest.nodes_cons, List.mem_append, List.mem_cons]
          rcases hm with rfl | hm | hm
          · exact .inl (.inl rfl)
          · rcases (ih1 false).2 m hm with h | h
            · exact .inl (.inr (.inl h))
            · exact .inr ⟨h.1, .inl h.2⟩
          · rcases (ih2 (ungroupDefsGo k false).2.2).2 m hm with h | h
            · exact .inl (.inr (.inr h))
            · exact .inr ⟨h.1, .inr h.2⟩

theorem removed_are_defs (f : Forest) (s : Bool) : ∀ x ∈ (ungroupDefsGo f s).2.1, ∃ n ∈ f.nodes, n.key = x ∧ n.kind = .elem .defs := by
  induction f generalizing s with
  | nil => simp [ungroupDefsGo]
  | cons n k r ih1 ih2 =>
    cases s with
    | true => rw [ungroupDefsGo_stopped]; simp
    | false =>
      rw [ungroupDefsGo_cons]
      intro x hx
      have lift : (∃ m ∈ k.nodes, m.key = x ∧ m.kind = .elem .defs) ∨ (∃ m ∈ r.nodes, m.key = x ∧ m.kind = .elem .defs) →
          ∃ m ∈ (Forest.cons n k r).nodes, m.key = x ∧ m.kind = .elem .defs := by
        rintro (⟨m, h1, h2⟩ | ⟨m, h1, h2⟩) <;> exact ⟨m, by simp [h1], h2⟩
      split at hx
      · rename_i hc
        simp only [Bool.and_eq_true] at hc
        simp only [List.mem_cons, List.mem_append] at hx
        rcases hx with rfl | hx | hx
        · exact ⟨n, by simp, rfl, (Node.isTag_iff _ _).1 hc.1⟩
        · exact lift (.inl (ih1 _ _ hx))
        · exact lift (.inr (ih2 _ _ hx))
      · simp only [List.mem_append] at hx
        rcases hx with hx | hx
        · exact lift (.inl (ih1 _ _ hx))
        · exact lift (.inr (ih2 _ _ hx))

theorem drawn_map {g : Node → Node} (hg : ∀ n, (g n).kind = n.kind) (f : Forest) : drawn (f.map g) = (drawn f).map g := by
  induction f with
  | nil => rfl
  | cons n k r ih1 ih2 =>
    simp only [Forest.map_cons, drawn, hg, ih1, ih2]
    split <;> simp

/-- C48: the same elements are drawn, at the same places and with the same attributes but references to a removed wrapper; only `defs` wrappers are gone, and the elements that stay keep
their order, kind, id and all attributes but references to a removed wrapper. -/
theorem C48_ungroup_draws_the_same (f : Forest) :
    (∃ gone : Nat → Bool, (∀ k, gone k = true → ∃ d ∈ f.nodes, d.kind = .elem .defs ∧ d.key = k) ∧ drawn (ungroupDefs f) = (drawn f).map fun n => n.unlink gone) ∧
    ((ungroupDefs f).nodes.map (fun n => (n.key, n.kind, n.id))).Sublist (f.nodes.map (fun n => (n.key, n.kind, n.id))) ∧
    (∀ n ∈ f.nodes, n.kind ≠ .elem .defs → ∃ m ∈ (ungroupDefs f).nodes, m.key = n.key ∧ m.kind = n.kind ∧ m.id = n.id ∧
      ∀ x ∈ n.attrs, x ∈ m.attrs ∨ ∃ d ∈ f.nodes, d.kind = .elem .defs ∧ x.value.target = some d.key) := by
  unfold ungroupDefs unlinkAll
  simp only
  have hk : ∀ n : Node, (n.unlink fun k => decide (k ∈ (ungroupDefsGo f false).2.1)).kind = n.kind := fun n => rfl
  refine ⟨?_, ?_, ?_⟩
  · refine ⟨fun k => decide (k ∈ (ungroupDefsGo f false).2.1), fun k hk => ?_, by rw [drawn_map hk, ungroupDefsGo_drawn]⟩
    obtain ⟨d, h1, h2, h3⟩ := removed_are_defs f false k (of_decide_eq_true hk)
    exact ⟨d, h1, h3, h2⟩
  · rw [Forest.nodes_map, List.map_map]
    exact ((ungroupDefsGo_nodes f false).1).map _
  · intro n hn hd
    rcases (ungroupDefsGo_nodes f false).2 n hn with h | h
    · refine ⟨n.unlink _, by rw [Forest.nodes_map]; exact List.mem_map_of_mem h, rfl, rfl, rfl, ?_⟩
      intro x hx
      by_cases hm : ∃ k ∈ (ungroupDefsGo f false).2.1, x.value.target = some k
      · obtain ⟨k, hk, ht⟩ := hm
        obtain ⟨d, hd1, rfl, hd3⟩ := removed_are_defs f false k hk
        exact .inr ⟨d, hd1, hd3, ht⟩
      · left
        simp only [Node.unlink, List.mem_filter]
        refine ⟨hx, ?_⟩
        split
        · rename_i k hk'
          simp only [Bool.not_eq_eq_eq_not, Bool.not_true, decide_eq_false_iff_not]
          exact fun h => hm ⟨k, h, hk'⟩
        · rfl
    · exact absurd h.1 hd

/-- `<svg><defs><clipPath/><linearGradient/></defs><g><defs><rect/></defs></g><rect/></svg>` -/
def defsDoc : Forest :=
  .cons ⟨0, .elem .svg, "", []⟩
    (.cons ⟨1, .elem .defs, "", []⟩ (.cons ⟨2, .elem .clipPath, "c", []⟩ .nil (.cons ⟨3, .elem .linearGradient, "l", []⟩ .nil .nil))
    (.cons ⟨4, .elem .g, "", []⟩ (.cons ⟨5, .elem .defs, "", []⟩ (.cons ⟨6, .elem .rect, "", []⟩ .nil .nil) .nil)
    (.cons ⟨7, .elem .rect, "", []⟩ .nil .nil))) .nil

example : (ungroupDefs defsDoc).keys = [0, 2, 3, 4, 5, 6, 7] ∧ (drawn defsDoc).keys = [0, 4, 7] := by decide

/-- Inherited values inside the definitions are kept if no `defs` element sets the property. -/
theorem C48_style_kept_partial (f : Forest) (a : AId) (v : Option Value) (s : Bool)
    (hd : ∀ n ∈ f.nodes, n.kind = .elem .defs → written n a = none) :
    (inherited a v (ungroupDefsGo f s).1).Sublist (inherited a v f) := by
  induction f generalizing s v with
  | nil => simp [ungroupDefsGo]
  | cons n k r ih1 ih2 =>
    cases s with
    | true => rw [ungroupDefsGo_stopped]
    | false =>
      have hk : ∀ m ∈ k.nodes, m.kind = .elem .defs → written m a = none := fun m hm => hd m (by simp [hm])
      have hr : ∀ m ∈ r.nodes, m.kind = .elem .defs → written m a = none := fun m hm => hd m (by simp [hm])
      rw [ungroupDefsGo_cons]
      split
      · rename_i hc
        simp only [Bool.and_eq_true] at hc
        have hw := hd n (by simp) ((Node.isTag_iff _ _).1 hc.1)
        have happ : ∀ f g : Forest, inherited a v (f ++ g) = inherited a v f ++ inherited a v g := by
          intro f g
          induction f with
          | nil => rfl
          | cons n k r _ ih => simp [inherited, ih]
        simp only [happ, inherited, hw, Option.none_or]
        exact ((ih1 v _ hk).append (ih2 v _ hr)).cons _
      · simp only [inherited]
        exact ((ih1 _ _ hk).append (ih2 v _ hr)).cons_cons _

/-- `<svg><defs fill="red"><marker><path/></marker></defs></svg>` -/
def styledDefs : Forest :=
  .cons ⟨0, .elem .svg, "", []⟩
    (.cons ⟨1, .elem .defs, "", [⟨.id .fill, .color 255 0 0, true⟩]⟩
      (.cons ⟨2, .elem .marker, "m", []⟩ (.cons ⟨3, .elem .path, "", []⟩ .nil .nil) .nil) .nil) .nil

/-- Without that condition a style can be lost: the path in the marker was red and becomes black. -/
theorem C48_refuted_style_on_defs :
    (3, some (.color 255 0 0)) ∈ inherited .fill none styledDefs ∧
    (3, none) ∈ inherited .fill none (ungroupDefs styledDefs) ∧ (ungroupDefs styledDefs).keys = [0, 2, 3] := by
  decide

theorem dropEmptyDefs_spec (f : Forest) :
    ((dropEmptyDefs f).2 = [] ∧ (dropEmptyDefs f).1 = f) ∨
    ∃ n, n.kind = .elem .defs ∧ (dropEmptyDefs f).2 = [n.key] ∧
      ∃ l r, f.nodes = l ++ n :: r ∧ (dropEmptyDefs f).1.nodes = l ++ r ∧ f.kidsOf n.key ≠ none ∧
        ∃ g h, f = g ++ (.cons n .nil .nil ++ h) ∧ (dropEmptyDefs f).1 = g ++ h := by
  induction f with
  | nil => exact .inl ⟨rfl, rfl⟩
  | cons n k r _ ih =>
    unfold dropEmptyDefs
    split
    · rename_i hc
      simp only [Bool.and_eq_true] at hc
      have hk : k = .nil := by cases k with | nil => rfl | cons => simp [Forest.isEmpty] at hc
      subst hk
      exact .inr ⟨n, (Node.isTag_iff _ _).1 hc.1, rfl, [], r.nodes, by simp, by simp, by simp [Forest.kidsOf], .nil, r, rfl, rfl⟩
    · rcases ih with ⟨h1, h2⟩ | ⟨m, h1, h2, l, r', h3, h4, h5, g, h, h6, h7⟩
      · exact .inl ⟨h1, by simp [h2]⟩
      · refine .inr ⟨m, h1, h2, n :: (k.nodes ++ l), r', by simp [h3], by simp [h4], ?_, .cons n k g, h, by simp [h6], by simp [h7]⟩
        unfold Forest.kidsOf
        split
        · simp
        · intro e
          rw [Option.or_eq_none_iff] at e
          exact h5 e.2

/-- C48 for `remove-empty-defs`: either nothing changes, or one childless `defs` that is a child of the root element is
taken out, with the references to it. -/
theorem C48_empty_defs (f f' : Forest) (h : removeEmptyDefs f = some f') :
    ∃ n k, svgElement f = some (n, k) ∧
      (f' = f ∨ ∃ d g h, d.kind = .elem .defs ∧ k = g ++ (.cons d .nil .nil ++ h) ∧
        f' = (setSvgElement n (g ++ h) f).map (fun m => m.unlink (fun x => decide (x = d.key)))) := by
  unfold removeEmptyDefs at h
  rw [Option.map_eq_some_iff] at h
  obtain ⟨⟨n, k⟩, hs, h⟩ := h
  refine ⟨n, k, hs, ?_⟩
  rcases dropEmptyDefs_spec k with ⟨h1, h2⟩ | ⟨d, h1, h2, l, r, h3, h4, _, g, h', h6, h7⟩
  · left
    simp only [h1, h2] at h
    rw [← h]
    have e1 : setSvgElement n k f = f := by
      clear * - hs
      induction f with
      | nil => rfl
      | cons m c r _ ih =>
        unfold svgElement at hs; unfold setSvgElement
        split at hs
        · rename_i ht
          simp only [Option.some.injEq, Prod.mk.injEq] at hs
          rw [if_pos ht, hs.1, hs.2]
        · rename_i ht
          rw [if_neg ht, ih hs]
    rw [e1]
    unfold unlinkAll
    apply Forest.map_id'
    intro m _
    unfold Node.unlink
    have : ∀ as : List Attr, as.filter (fun x => match x.value.target with | some k => !(fun k => decide (k ∈ ([] : List Nat))) k | none => true) = as := by
      intro as
      rw [List.filter_eq_self]
      intro x _; split <;> simp
    cases m with
    | mk key kind id attrs => exact congrArg _ (this attrs)
  · right
    refine ⟨d, g, h', h1, h6, ?_⟩
    simp only [h2, h7] at h
    rw [← h]
    unfold unlinkAll
    simp

example : ∃ f f', removeEmptyDefs f = some f' ∧ f.keys = [0, 1, 2] ∧ f'.keys = [0, 2] :=
  ⟨.cons ⟨0, .elem .svg, "", []⟩ (.cons ⟨1, .elem .defs, "", []⟩ .nil (.cons ⟨2, .elem .rect, "", []⟩ .nil .nil)) .nil,
   .cons ⟨0, .elem .svg, "", []⟩ (.cons ⟨2, .elem .rect, "", []⟩ .nil .nil) .nil, by decide, by decide, by decide⟩

/-! ### C49: style attributes -/

/-- Split a text at every `c`. -/
def splitOn (c : Char) : List Char → List (List Char)
  | [] => [[]]
  | x :: t => if x = c then [] :: splitOn c t else
    match splitOn c t with
    | h :: r => (x :: h) :: r
    | [] => [[x]]

/-- A style text read as a list of declarations: split at `;`, then name and value at the first `:`. -/
def readStyle (s : List Char) : List (List Char × List Char) :=
  if s = [] then [] else (splitOn ';' s).map (fun d => (d.takeWhile (fun c => decide (c ≠ ':')), (d.dropWhile (fun c => decide (c ≠ ':'))).tail))

/-- The visible presentation attributes of a node, as they are written. -/
def presentation (nameOf : AId → List Char) (ser : Value → List Char) (n : Node) : List (List Char × List Char) :=
  n.attrs.filterMap fun x => match x.name with
    | .id a => if a.isPresentation && x.visible then some (nameOf a, ser x.value) else none
    | .name _ => none

/-- The other attributes. -/
def others (n : Node) : List Attr := n.attrs.filter fun x => match x.name with
    | .id a => !(a.isPresentation && x.visible)
    | .name _ => true

/-- The text of the `style` attribute. -/
def styleOf (n : Node) : Option String :=
  match n.get .style with
  | some (.str s) => some s
  | _ => none

theorem splitOn_append (c : Char) (l : List Char) (h : c ∉ l) (t : List Char) : splitOn c (l ++ c :: t) = l :: splitOn c t := by
  induction l with
  | nil => simp [splitOn]
  | cons x l ih =>
    simp only [List.mem_cons, not_or] at h
    simp only [List.cons_append, splitOn, ih h.2]
    rw [if_neg (Ne.symm h.1)]

theorem splitOn_none (c : Char) (l : List Char) (h : c ∉ l) : splitOn c l = [l] := by
  induction l with
  | nil => rfl
  | cons x l ih =>
    simp only [List.mem_cons, not_or] at h
    simp only [splitOn, ih h.2]
    rw [if_neg (Ne.symm h.1)]

/-- Pieces without `;`, each ended by `;`, the last `;` dropped: splitting gives the pieces back. -/
theorem splitOn_pieces (ps : List (List Char)) (hne : ps ≠ []) (h : ∀ p ∈ ps, ';' ∉ p) :
    splitOn ';' ((ps.flatMap (fun p => p ++ [';'])).dropLast) = ps := by
  induction ps with
  | nil => exact absurd rfl hne
  | cons p ps ih =>
    by_cases hps : ps = []
    · subst hps
      simp only [List.flatMap_cons, List.flatMap_nil, List.append_nil, List.dropLast_concat]
      exact splitOn_none _ _ (h p (by simp))
    · have hfm : ps.flatMap (fun p => p ++ [';']) ≠ [] := by
        cases ps with
        | nil => exact absurd rfl hps
        | cons q qs => simp
      rw [List.flatMap_cons, List.append_assoc, List.dropLast_append_of_ne_nil (by simp)]
      rw [List.singleton_append, List.dropLast_cons_of_ne_nil hfm]
      rw [splitOn_append _ _ (h p (by simp)), ih hps (fun q hq => h q (by simp [hq]))]

theorem readStyle_styleText (nameOf : AId → List Char) (ser : Value → List Char) (as : List Attr)
    (hn : ∀ a, ':' ∉ nameOf a ∧ ';' ∉ nameOf a) (hv : ∀ x ∈ as.filter joinable, ';' ∉ ser x.value) :
    readStyle (styleText nameOf ser as) = (as.filter joinable).map (fun x =>
      (nameText nameOf x.name, ser x.value)) := by
  have hjoin : ∀ x ∈ as.filter joinable, ∃ a, x.name = .id a := by
    intro x hx
    have := (List.mem_filter.1 hx).2
    unfold joinable at this
    cases hxn : x.name with
    | id a => exact ⟨a, rfl⟩
    | name s => rw [hxn] at this; simp at this
  unfold readStyle styleText
  generalize as.filter joinable = l at *
  by_cases hl : l = []
  · subst hl; simp
  · have e : l.flatMap (stylePiece nameOf ser) = (l.map (fun x =>
        nameText nameOf x.name ++ ':' :: ser x.value)).flatMap (fun p => p ++ [';']) := by
      rw [List.flatMap_map]
      congr 1
      funext x
      simp [stylePiece]
    rw [e]
    have hs := splitOn_pieces (l.map (fun x =>
        nameText nameOf x.name ++ ':' :: ser x.value)) (by simpa using hl) (by
      intro p hp
      simp only [List.mem_map] at hp
      obtain ⟨x, hx, rfl⟩ := hp
      obtain ⟨a, ha⟩ := hjoin x hx
      simp only [ha, nameText, List.mem_append, List.mem_cons, not_or]
      exact ⟨(hn a).2, by decide, hv x hx⟩)
    rw [hs]
    rw [if_neg]
    · rw [List.map_map]
      apply List.map_congr_left
      intro x hx
      obtain ⟨a, ha⟩ := hjoin x hx
      simp only [Function.comp, ha, nameText, Prod.mk.injEq]
      have h1 : ∀ (l t : List Char), ':' ∉ l → (l ++ ':' :: t).takeWhile (fun c => decide (c ≠ ':')) = l ∧
          (l ++ ':' :: t).dropWhile (fun c => decide (c ≠ ':')) = ':' :: t := by
        intro l t h
        induction l with
        | nil => simp
        | cons c l ih =>
          simp only [List.mem_cons, not_or] at h
          have hc : c ≠ ':' := Ne.symm h.1
          simp only [List.cons_append, List.takeWhile_cons, List.dropWhile_cons]
          rw [if_pos (by simp [hc]), if_pos (by simp [hc]), (ih h.2).1, (ih h.2).2]
          exact ⟨rfl, rfl⟩
      rw [(h1 _ _ (hn a).1).1, (h1 _ _ (hn a).1).2]
      exact ⟨rfl, rfl⟩
    · intro hnil
      rw [hnil] at hs
      simp only [splitOn] at hs
      cases l with
      | nil => exact hl rfl
      | cons x l =>
        simp only [List.map_cons, List.cons.injEq] at hs
        have := congrArg List.length hs.1
        simp at this

/-- Whether the attributes of a node are to be joined: always in mode `all`, for more than five in mode `some`. -/
def Joins (mode : Cli.StyleJoinMode) (n : Node) (count : Nat) : Prop :=
  n.isSvgElem = true ∧ (mode = .all ∨ (mode = .some ∧ 5 < count))

theorem presentation_eq (nameOf : AId → List Char) (ser : Value → List Char) (n : Node) :
    presentation nameOf ser n = (n.attrs.filter joinable).map (fun x =>
      (nameText nameOf x.name, ser x.value)) := by
  unfold presentation
  induction n.attrs with
  | nil => rfl
  | cons x t ih =>
    rw [List.filterMap_cons, List.filter_cons]
    rw [ih]
    cases hx : x.name with
    | name s =>
      have : joinable x = false := by unfold joinable; rw [hx]; rfl
      simp [this]
    | id a =>
      by_cases hc : (a.isPresentation && x.visible) = true
      · have : joinable x = true := by unfold joinable; rw [hx]; exact hc
        simp [hc, this, hx, nameText]
      · have : joinable x = false := by unfold joinable; rw [hx]; simpa using hc
        simp [hc, this]

theorem others_eq (n : Node) : others n = n.attrs.filter (fun x => !joinable x) := by
  unfold others joinable
  apply List.filter_congr
  intro x _
  split <;> simp_all

/-- C49, full statement: whatever the attribute values, the style text holds exactly the name/value pairs. -/
def C49_full : Prop :=
  ∀ (nameOf : AId → List Char) (ser : Value → List Char) (mode : Cli.StyleJoinMode) (n : Node),
    (∀ a, ':' ∉ nameOf a ∧ ';' ∉ nameOf a) → n.get .style = none → Joins mode n (presentation nameOf ser n).length →
    ∃ s, styleOf (joinNode nameOf ser mode n) = some s ∧ readStyle s.toList = presentation nameOf ser n

/-- C49: if no value contains `;` the style attribute holds exactly the visible presentation attributes with their
values, in order; all other attributes stay as they are, and elements that do not qualify are not touched. -/
theorem C49_join_is_lossless_partial (nameOf : AId → List Char) (ser : Value → List Char) (mode : Cli.StyleJoinMode) (n : Node)
    (hn : ∀ a, ':' ∉ nameOf a ∧ ';' ∉ nameOf a) (hst : n.get .style = none)
    (hv : ∀ p ∈ presentation nameOf ser n, ';' ∉ p.2) :
    (Joins mode n (presentation nameOf ser n).length →
      ∃ s, (joinNode nameOf ser mode n).attrs = others n ++ [⟨.id .style, .str s, true⟩] ∧
        styleOf (joinNode nameOf ser mode n) = some s ∧ readStyle s.toList = presentation nameOf ser n) ∧
    (¬ Joins mode n (presentation nameOf ser n).length → joinNode nameOf ser mode n = n) ∧
    (joinNode nameOf ser mode n).key = n.key ∧ (joinNode nameOf ser mode n).id = n.id ∧ (joinNode nameOf ser mode n).kind = n.kind := by
  have hlen : (presentation nameOf ser n).length = (n.attrs.filter joinable).length := by rw [presentation_eq]; simp
  have hcond : (n.isSvgElem && ((decide (mode = .some) && decide (5 < (n.attrs.filter joinable).length)) || decide (mode = .all))) = true
      ↔ Joins mode n (presentation nameOf ser n).length := by
    rw [hlen]; unfold Joins
    simp only [Bool.and_eq_true, Bool.or_eq_true, decide_eq_true_eq]
    tauto
  have hg : getAttr n.attrs (.id .style) = none := by
    unfold Node.get at hst; simpa using hst
  have hput : ∀ v, putAttr n.attrs ⟨.id .style, v, true⟩ = n.attrs ++ [⟨.id .style, v, true⟩] := by
    intro v
    unfold putAttr
    rw [if_neg]
    intro h
    simp only [List.any_eq_true] at h
    obtain ⟨y, hy, hc⟩ := h
    unfold getAttr at hg
    rw [List.find?_eq_none] at hg
    exact hg y hy hc
  refine ⟨?_, ?_, ?_⟩
  · intro hj
    have e : joinNode nameOf ser mode n = { n with attrs := others n ++ [⟨.id .style, .str (String.ofList (styleText nameOf ser n.attrs)), true⟩] } := by
      unfold joinNode
      simp only
      rw [if_pos (hcond.2 hj), hput, List.filter_append, others_eq]
      simp [joinable, AId.isPresentation]
    refine ⟨String.ofList (styleText nameOf ser n.attrs), by rw [e], ?_, ?_⟩
    · rw [e]
      have : getAttr (others n ++ [⟨.id .style, .str (String.ofList (styleText nameOf ser n.attrs)), true⟩]) (.id .style) =
          some ⟨.id .style, .str (String.ofList (styleText nameOf ser n.attrs)), true⟩ := by
        unfold getAttr at hg ⊢
        rw [List.find?_append]
        have : (others n).find? (fun x => decide (x.name = .id .style)) = none := by
          rw [List.find?_eq_none] at hg ⊢
          intro x hx
          exact hg x (by unfold others at hx; exact (List.mem_filter.1 hx).1)
        rw [this]; simp
      simp [styleOf, Node.get, this]
    · rw [String.toList_ofList, readStyle_styleText _ _ _ hn, presentation_eq]
      intro x hx
      have := hv (nameText nameOf x.name, ser x.value)
      apply this
      rw [presentation_eq]
      exact List.mem_map_of_mem (f := fun x : Attr => (nameText nameOf x.name, ser x.value)) hx
  · intro hj
    unfold joinNode
    simp only
    rw [if_neg (fun h => hj (hcond.1 h))]
  · unfold joinNode
    simp only
    split <;> exact ⟨rfl, rfl, rfl⟩

/-- The whole document: every node is treated by itself; mode `none` changes nothing. -/
theorem C49_document (nameOf : AId → List Char) (ser : Value → List Char) (mode : Cli.StyleJoinMode) (f : Forest) :
    (joinStyleAttributes nameOf ser mode f).nodes = f.nodes.map (joinNode nameOf ser mode) ∧
    (mode = .none → joinStyleAttributes nameOf ser mode f = f) ∧
    shape none (joinStyleAttributes nameOf ser mode f) = shape none f := by
  have hnone : ∀ n, joinNode nameOf ser .none n = n := by
    intro n; unfold joinNode; simp
  have hkey : ∀ n, (joinNode nameOf ser mode n).key = n.key := by
    intro n; unfold joinNode; simp only; split <;> rfl
  unfold joinStyleAttributes
  refine ⟨?_, ?_, ?_⟩
  · split
    · rename_i h; subst h
      have : joinNode nameOf ser .none = id := funext hnone
      rw [this, List.map_id]
    · rw [Forest.nodes_map]
  · intro h; rw [if_pos h]
  · split
    · rfl
    · exact shape_map hkey _ _

/-- A small writer for the witnesses. -/
def wName : AId → List Char
  | .fontFamily => "font-family".toList
  | .fill => "fill".toList
  | _ => "x".toList
def wSer : Value → List Char
  | .str s => s.toList
  | .kw .none => "none".toList
  | _ => "v".toList

/-- `<text font-family="A;B"/>` -/
def semicolon : Node := ⟨0, .elem .text, "", [⟨.id .fontFamily, .str "A;B", true⟩]⟩

/-- A value with `;` breaks the style text: it is read back as two declarations. -/
theorem C49_refuted_semicolon : ¬ C49_full := by
  intro h
  obtain ⟨s, h1, h2⟩ := h wName wSer .all semicolon (by intro a; cases a <;> decide) (by decide) ⟨by decide, .inl rfl⟩
  have h3 : styleOf (joinNode wName wSer .all semicolon) = some "font-family:A;B" := by decide
  rw [h3] at h1
  cases h1
  revert h2
  decide

example : ∃ n : Node, n.get .style = none ∧ Joins .all n (presentation wName wSer n).length ∧
    (∀ p ∈ presentation wName wSer n, ';' ∉ p.2) ∧ (presentation wName wSer n).length = 2 :=
  ⟨⟨0, .elem .text, "", [⟨.id .fontFamily, .str "A", true⟩, ⟨.id .x, .str "5", true⟩, ⟨.id .fill, .kw .none, true⟩]⟩,
   by decide, ⟨by decide, .inl rfl⟩, by decide, by decide⟩

/-- In mode `all` an element without any presentation attribute is given an empty style attribute. -/
theorem C49_all_adds_empty_style : (joinNode wName wSer .all ⟨0, .elem .defs, "", []⟩).attrs = [⟨.id .style, .str "", true⟩] := by
  decide

/-! ### C46: unused coordinates -/

/-- How lengths are resolved: user units per unit, along the horizontal and the vertical axis.  Only percentages depend
on the axis. -/
structure Viewport where
  perUnit : LUnit → ℚ
  percentX : ℚ
  percentY : ℚ

def Viewport.h (v : Viewport) (l : Len) : ℚ := l.num * (if l.unit = .percent then v.percentX else v.perUnit l.unit)
def Viewport.v (v : Viewport) (l : Len) : ℚ := l.num * (if l.unit = .percent then v.percentY else v.perUnit l.unit)

def asLen : Option Value → Option Len
  | some (.length l) => some l
  | _ => none

/-- The horizontal and vertical corner radius of a rectangle as the standard defines them: a missing radius is the
other one, 0 if both are missing. -/
def radii (v : Viewport) (n : Node) : ℚ × ℚ :=
  match asLen (written n .rx), asLen (written n .ry) with
  | some x, some y => (v.h x, v.v y)
  | some x, none => (v.h x, v.h x)
  | none, some y => (v.v y, v.v y)
  | none, none => (0, 0)

theorem written_hide (n : Node) (a b : AId) : written (n.hide b) a = if a = b then none else written n a := by
  unfold written Node.hide
  simp only [getAttr_hide]
  cases getAttr n.attrs (.id a) with
  | none => simp
  | some x =>
    simp only [Option.map_some, AName.id.injEq]
    by_cases h : a = b <;> simp [h]

theorem written_hideAll (n : Node) (as : List AId) (a : AId) : written (hideAll n as) a = if a ∈ as then none else written n a := by
  unfold hideAll
  induction as generalizing n with
  | nil => simp
  | cons b t ih =>
    simp only [List.foldl_cons, ih, written_hide, List.mem_cons]
    by_cases h1 : a ∈ t
    · simp [h1]
    · by_cases h2 : a = b <;> simp [h1, h2]

/-- C46 for rectangles, full statement. -/
def C46_rect_full : Prop :=
  ∀ (v : Viewport) (doc : Forest) (top : Bool) (n : Node), n.kind = .elem .rect → (∀ x ∈ n.attrs, x.visible = true) →
    radii v (hideAll n (unusedCoords doc top n)) = radii v n

/-- C46 for rectangles: the corner radii are the same if the radius is not a percentage. -/
theorem C46_rect_partial (v : Viewport) (doc : Forest) (top : Bool) (n : Node) (hk : n.kind = .elem .rect)
    (hvis : ∀ x ∈ n.attrs, x.visible = true) (hp : ∀ l, n.get .rx = some (.length l) → l.unit ≠ .percent) :
    radii v (hideAll n (unusedCoords doc top n)) = radii v n := by
  unfold unusedCoords
  rw [hk]
  simp only
  split
  · rename_i hc
    simp only [Bool.and_eq_true, decide_eq_true_eq] at hc
    have hw : ∀ a, written n a = n.get a := by
      intro a
      unfold written Node.get
      cases h : getAttr n.attrs (.id a) with
      | none => rfl
      | some x => simp [hvis x (getAttr_mem h)]
    unfold radii
    simp only [written_hideAll, List.mem_singleton]
    simp only [hw, hc.2, reduceCtorEq, if_false, if_true]
    cases hy : n.get .ry with
    | none => rfl
    | some w =>
      cases w <;> try rfl
      rename_i l
      have hunit := hp l (by rw [hc.2, hy])
      simp only [asLen, Viewport.h, Viewport.v, if_neg hunit]
  · rfl

/-- `<rect rx="10%" ry="10%"/>` in a viewport of 200 by 100: the vertical radius was 10 and becomes 20. -/
theorem C46_refuted_percent : ¬ C46_rect_full := by
  intro h
  have := h ⟨fun _ => 1, 2, 1⟩ .nil false ⟨0, .elem .rect, "", [⟨.id .rx, .length ⟨10, .percent⟩, true⟩, ⟨.id .ry, .length ⟨10, .percent⟩, true⟩]⟩
    rfl (by decide)
  revert this
  decide +kernel

/-- C46, what is hidden at all: `x`/`y` of the root element (which have no effect there), `ry` of a rectangle and
`fx`/`fy` of a radial gradient; nothing is added, no value and no other attribute changes. -/
theorem C46_hides_only (doc : Forest) (top : Bool) (n : Node) (a : AId) :
    (hideAll n (unusedCoords doc top n)).get a = n.get a ∧
    (written (hideAll n (unusedCoords doc top n)) a = written n a ∨
      (written (hideAll n (unusedCoords doc top n)) a = none ∧
        ((n.kind = .elem .svg ∧ top = true ∧ a ∈ [AId.x, .y]) ∨ (n.kind = .elem .rect ∧ a = .ry ∧ n.has .rx) ∨
         (n.kind = .elem .radialGradient ∧ a ∈ [AId.fx, .fy])))) := by
  refine ⟨?_, ?_⟩
  · have : ∀ (as : List AId) (n : Node), (hideAll n as).get a = n.get a := by
      intro as
      unfold hideAll
      induction as with
      | nil => intro n; rfl
      | cons b t ih => intro n; simp [ih]
    exact this _ _
  · rw [written_hideAll]
    by_cases hm : a ∈ unusedCoords doc top n
    · rw [if_pos hm]
      right
      refine ⟨rfl, ?_⟩
      unfold unusedCoords at hm
      split at hm
      · rename_i hk
        left
        split at hm
        · rename_i ht
          refine ⟨hk, ht, ?_⟩
          simp only [List.mem_append] at hm
          rcases hm with hm | hm
          · split at hm <;> simp_all
          · split at hm <;> simp_all
        · cases hm
      · rename_i hk
        right; left
        split at hm
        · rename_i hc
          simp only [Bool.and_eq_true] at hc
          exact ⟨hk, by simpa using hm, hc.1⟩
        · cases hm
      · rename_i hk
        right; right
        refine ⟨hk, ?_⟩
        simp only at hm
        have hr : ∀ fa ca, a ∈ rmF doc n fa ca → a = fa := by
          intro fa ca h
          unfold rmF at h
          split at h
          · split at h
            · simpa using h
            · cases h
          · cases h
        have : a ∈ rmF doc n .fx .cx ++ rmF doc n .fy .cy := by
          revert hm
          generalize (match n.get .xlinkHref with
            | some (.link k) => (match doc.find k with | some m => m.isTag .radialGradient | none => false)
            | _ => false) = b
          cases b <;> simp
        rcases List.mem_append.1 this with h | h
        · simp [hr _ _ h]
        · simp [hr _ _ h]
      · cases hm
    · rw [if_neg hm]; left; rfl

/-- The value of a radial gradient attribute in the written file: its own, else along the chain of references. -/
def gradientValue (doc : Forest) (a : AId) : Nat → Node → Option Value
  | 0, _ => none
  | fuel + 1, n => (written n a).or
    (match n.get .xlinkHref with
     | some (.link k) => (doc.find k).bind (gradientValue doc a fuel)
     | _ => none)

/-- The focal point of a radial gradient: `f` (`fx`/`fy`) along the chain, else the centre `c` (`cx`/`cy`) along the
chain, else 50%. -/
def focal (doc : Forest) (f c : AId) (fuel : Nat) (n : Node) : Value :=
  ((gradientValue doc f fuel n).or (gradientValue doc c fuel n)).getD (.length ⟨50, .percent⟩)

/-- The node after the task. -/
def coordsOf (doc : Forest) (n : Node) : Node := hideAll n (unusedCoords doc false n)

theorem hideAll_key (n : Node) (as : List AId) : (hideAll n as).key = n.key := by
  unfold hideAll
  induction as generalizing n with
  | nil => rfl
  | cons b t ih => simp [ih]

theorem hideAll_get (n : Node) (as : List AId) (a : AId) : (hideAll n as).get a = n.get a := by
  unfold hideAll
  induction as generalizing n with
  | nil => rfl
  | cons b t ih => simp [ih]

/-- C46 for radial gradients: if radial gradients only refer to radial gradients, and hidden centre values agree with
what the file says, no radial gradient's focal point changes. -/
theorem C46_gradient_partial (doc : Forest) (f c : AId) (hfc : (f = .fx ∧ c = .cx) ∨ (f = .fy ∧ c = .cy)) (fuel : Nat)
    (hu : doc.UniqueKeys)
    (hchain : ∀ n ∈ doc.nodes, n.kind = .elem .radialGradient → ∀ v, n.get .xlinkHref = some v →
      ∃ m ∈ doc.nodes, v = .link m.key ∧ m.kind = .elem .radialGradient)
    (hhid : ∀ n ∈ doc.nodes, n.kind = .elem .radialGradient → n.get .xlinkHref = none → ∀ v, n.get c = some v →
      (written n c).getD (.length ⟨50, .percent⟩) = v)
    (n : Node) (hn : n ∈ doc.nodes) (hk : n.kind = .elem .radialGradient) :
    focal (doc.map (coordsOf doc)) f c (fuel + 1) (coordsOf doc n) = focal doc f c (fuel + 1) n := by
  have hkey : ∀ m, (coordsOf doc m).key = m.key := fun m => hideAll_key m _
  have hget : ∀ m a, (coordsOf doc m).get a = m.get a := fun m a => hideAll_get m _ a
  -- the centre is never hidden
  have hc : ∀ m ∈ doc.nodes, m.kind = .elem .radialGradient → written (coordsOf doc m) c = written m c := by
    intro m hm hkm
    rcases (C46_hides_only doc false m c).2 with h | ⟨_, h⟩
    · exact h
    · exfalso
      rcases h with h | h | h
      · rw [hkm] at h; cases h.1
      · rw [hkm] at h; cases h.1
      · rcases hfc with ⟨_, rfl⟩ | ⟨_, rfl⟩ <;> exact absurd h.2 (by decide)
  -- a node with a reference, or that a radial gradient refers to, is not changed
  have hkeep : ∀ m ∈ doc.nodes, m.kind = .elem .radialGradient →
      (m.get .xlinkHref ≠ none ∨ ∃ l ∈ doc.nodes, l.kind = .elem .radialGradient ∧ m.key ∈ l.links) → coordsOf doc m = m := by
    intro m hm hkm h
    unfold coordsOf unusedCoords
    rw [hkm]
    simp only
    rcases h with h | ⟨l, hl, hlk, hlm⟩
    · cases hx : m.get .xlinkHref with
      | none => exact absurd hx h
      | some v =>
        obtain ⟨t, ht, rfl, htk⟩ := hchain m hm hkm v hx
        simp only [Forest.find_of_mem hu ht, (Node.isTag_iff t _).2 htk, if_true]
        rfl
    · have hnz : ((doc.linkedNodes m.key).filter (fun x => x.isTag .radialGradient)).length ≠ 0 := by
        intro h0
        rw [List.length_eq_zero_iff, List.filter_eq_nil_iff] at h0
        refine h0 l ?_ ((Node.isTag_iff l _).2 hlk)
        unfold Forest.linkedNodes
        rw [List.mem_filter]
        exact ⟨hl, by simpa using hlm⟩
      have hr : ∀ fa ca, rmF doc m fa ca = [] := by
        intro fa ca
        unfold rmF
        split
        · rw [if_neg (fun h => hnz h.2)]
        · rfl
      rw [hr, hr]
      simp [hideAll]
  have hlink : ∀ m : Node, ∀ t : Node, m.get .xlinkHref = some (.link t.key) → t.key ∈ m.links := by
    intro m t h
    unfold Node.get at h
    rw [Option.map_eq_some_iff] at h
    obtain ⟨x, hx, hv⟩ := h
    rw [Node.mem_links]
    exact ⟨x, getAttr_mem hx, by rw [hv]; rfl⟩
  -- along a chain that starts at an unchanged node nothing changes
  have hgv : ∀ (a : AId) (fuel : Nat) (m : Node), m ∈ doc.nodes → m.kind = .elem .radialGradient → coordsOf doc m = m →
      gradientValue (doc.map (coordsOf doc)) a fuel m = gradientValue doc a fuel m := by
    intro a fuel
    induction fuel with
    | zero => intros; rfl
    | succ fuel ih =>
      intro m hm hkm he
      unfold gradientValue
      congr 1
      cases hx : m.get .xlinkHref with
      | none => rfl
      | some v =>
        obtain ⟨t, ht, rfl, htk⟩ := hchain m hm hkm v hx
        simp only [Forest.find_map hkey, Forest.find_of_mem hu ht, Option.map_some, Option.bind_some]
        have hte : coordsOf doc t = t := hkeep t ht htk (.inr ⟨m, hm, hkm, hlink m t hx⟩)
        rw [hte]
        exact ih t ht htk hte
  by_cases he : coordsOf doc n = n
  · rw [he]
    unfold focal
    rw [hgv f _ n hn hk he, hgv c _ n hn hk he]
  · have hx : n.get .xlinkHref = none := by
      by_contra h; exact he (hkeep n hn hk (.inl h))
    have hx' : (coordsOf doc n).get .xlinkHref = none := by rw [hget]; exact hx
    unfold focal
    simp only [gradientValue, hx, hx', Option.or_none]
    rw [hc n hn hk]
    rcases (C46_hides_only doc false n f).2 with h | ⟨h, _⟩
    · have h : written (coordsOf doc n) f = written n f := h
      rw [h]
    · have h : written (coordsOf doc n) f = none := h
      rw [h, Option.none_or]
      cases hf : written n f with
      | none => simp
      | some v =>
        -- `f` was visible and is hidden: it equals the centre
        have hgf : n.get f = some v := by
          unfold written at hf; unfold Node.get
          cases hg : getAttr n.attrs (.id f) with
          | none => rw [hg] at hf; cases hf
          | some x => rw [hg] at hf; simp only at hf; split at hf <;> simp_all
        have hcv : n.get c = some v := by
          by_contra hne
          -- not hidden in this case
          have : f ∈ unusedCoords doc false n := by
            by_contra hni
            have := written_hideAll n (unusedCoords doc false n) f
            rw [if_neg hni] at this
            have h' : written (hideAll n (unusedCoords doc false n)) f = none := h
            rw [h', hf] at this; cases this
          unfold unusedCoords at this
          rw [hk, hx] at this
          simp only [Bool.false_eq_true, if_false, List.mem_append] at this
          have hrm : ∀ fa ca, f ∈ rmF doc n fa ca → fa = f ∧ ∃ v, n.get fa = some v ∧ n.get ca = some v := by
            intro fa ca h
            unfold rmF at h
            split at h
            · rename_i v w hv hw
              split at h
              · rename_i hvw
                simp only [List.mem_singleton] at h
                exact ⟨h.symm, v, hv, by rw [hw, hvw.1]⟩
              · cases h
            · cases h
          rcases hfc with ⟨rfl, rfl⟩ | ⟨rfl, rfl⟩
          · rcases this with h | h
            · obtain ⟨_, v', h1, h2⟩ := hrm _ _ h
              rw [hgf] at h1; cases h1; exact hne h2
            · exact absurd (hrm _ _ h).1 (by decide)
          · rcases this with h | h
            · exact absurd (hrm _ _ h).1 (by decide)
            · obtain ⟨_, v', h1, h2⟩ := hrm _ _ h
              rw [hgf] at h1; cases h1; exact hne h2
        have := hhid n hn hk hx v hcv
        simp [this]

/-- `A` (radial, fx = cx = 10) refers to `B` (linear), which refers to `C` (radial, fx = 70). -/
def focalDoc : Forest :=
  .cons ⟨0, .elem .radialGradient, "A", [⟨.id .xlinkHref, .link 1, true⟩, ⟨.id .fx, .length ⟨10, .percent⟩, true⟩, ⟨.id .cx, .length ⟨10, .percent⟩, true⟩]⟩ .nil
  (.cons ⟨1, .elem .linearGradient, "B", [⟨.id .xlinkHref, .link 2, true⟩]⟩ .nil
  (.cons ⟨2, .elem .radialGradient, "C", [⟨.id .fx, .length ⟨70, .percent⟩, true⟩, ⟨.id .cx, .length ⟨20, .percent⟩, true⟩]⟩ .nil .nil))

/-- With a linear gradient in between, hiding `fx` exposes the `fx` of a gradient further along the chain. -/
theorem C46_refuted_mixed_chain :
    focal focalDoc .fx .cx 3 (focalDoc.nodes.getD 0 ⟨0, .text "", "", []⟩) = .length ⟨10, .percent⟩ ∧
    focal (removeUnusedCoords focalDoc) .fx .cx 3 ((removeUnusedCoords focalDoc).nodes.getD 0 ⟨0, .text "", "", []⟩) = .length ⟨70, .percent⟩ := by
  decide +kernel

/-- A document meeting the hypotheses of `C46_gradient_partial` where something is hidden. -/
example : ∃ doc : Forest, doc.UniqueKeys ∧ (∃ n ∈ doc.nodes, coordsOf doc n ≠ n) ∧
    (∀ n ∈ doc.nodes, n.kind = .elem .radialGradient → n.get .xlinkHref = none) ∧
    (∀ n ∈ doc.nodes, ∀ x ∈ n.attrs, x.visible = true) :=
  ⟨.cons ⟨0, .elem .radialGradient, "A", [⟨.id .fx, .length ⟨10, .percent⟩, true⟩, ⟨.id .cx, .length ⟨10, .percent⟩, true⟩]⟩ .nil .nil,
   by decide, by decide +kernel, by decide, by decide⟩

/-- The document-level task treats each node as above; only nodes at the top level count as having no parent. -/
theorem C46_document (f : Forest) : ∀ m ∈ (removeUnusedCoords f).nodes, ∃ n ∈ f.nodes, ∃ top, m = hideAll n (unusedCoords f top n) ∧
    (top = true → n ∈ f.top) := by
  have key : ∀ (g : Forest) (top : Bool), ∀ m ∈ (removeUnusedCoordsGo f top g).nodes, ∃ n ∈ g.nodes, ∃ t,
      m = hideAll n (unusedCoords f t n) ∧ (t = true → top = true ∧ n ∈ g.top) := by
    intro g
    induction g with
    | nil => intro top m hm; simp [removeUnusedCoordsGo] at hm
    | cons n k r ih1 ih2 =>
      intro top m hm
      simp only [removeUnusedCoordsGo, Forest.nodes_cons, List.mem_cons, List.mem_append] at hm
      rcases hm with rfl | hm | hm
      · exact ⟨n, by simp, top, rfl, fun h => ⟨h, by simp [Forest.top]⟩⟩
      · obtain ⟨x, hx, t, e, ht⟩ := ih1 false m hm
        exact ⟨x, by simp [hx], t, e, fun h => absurd (ht h).1 (by simp)⟩
      · obtain ⟨x, hx, t, e, ht⟩ := ih2 top m hm
        exact ⟨x, by simp [hx], t, e, fun h => ⟨(ht h).1, by simp [Forest.top, (ht h).2]⟩⟩
  intro m hm
  obtain ⟨n, hn, t, e, ht⟩ := key f true m hm
  exact ⟨n, hn, t, e, fun h => (ht h).2⟩

end Verif.Simple
