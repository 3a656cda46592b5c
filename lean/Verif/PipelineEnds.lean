import Verif.PipelineCases
/-
C59 and C60: what the written document looks like after the whole run.
-/
namespace Verif.Pipeline
open Verif.Dom Verif.Spec
open Verif.Dom (Res)
open Verif.Cli (CleaningOptions)
open Verif.Simple

/-- A run, cut before and after a task. -/
theorem run_cut {E : Env} {o : CleaningOptions} {f g : Forest} (h : cleanDoc E o f = .ok g) {as bs : List Task} {t : Task}
    (e : plan (tasks E o) o = as ++ (t :: bs)) : ∃ a b, runAll as f = .ok a ∧ t a = .ok b ∧ runAll bs b = .ok g ∧ Safe f a ∧ Safe a b ∧ Safe b g := by
  unfold cleanDoc at h
  rw [e] at h
  obtain ⟨a, h1, h2⟩ := runAll_append h
  obtain ⟨b, h3, h4⟩ := runAll_cons h2
  have hs : ∀ s ∈ as ++ (t :: bs), Sound s := by rw [← e]; exact sound_plan E o
  exact ⟨a, b, h1, h3, h4, sound_runAll (fun s hm => hs s (by simp [hm])) f a h1, hs t (by simp) a b h3,
    sound_runAll (fun s hm => hs s (by simp [hm])) b g h4⟩

/-! ### C59: what is asked to be removed is gone -/

/-- The elements that the options ask to remove. -/
def Asked (o : CleaningOptions) (e : EId) : Prop :=
  (e = .title ∧ o.removeTitle = true) ∨ (e = .desc ∧ o.removeDesc = true) ∨ (e = .metadata ∧ o.removeMetadata = true)

theorem none_left (e : EId) (f : Forest) : ∀ m ∈ (removeElement e f).nodes, m.kind ≠ .elem e := by
  intro m hm he
  unfold removeElement at hm
  obtain ⟨n, hn, rfl⟩ := Forest.mem_remove hm
  have := Forest.mem_prune hn
  have hk : (n.unlink (fun k => decide (k ∈ f.prunedKeys fun n => n.isTag e))).kind = n.kind := rfl
  rw [hk] at he
  simp [Node.isTag, he] at this

theorem gone {E : Env} {o : CleaningOptions} {f g : Forest} (hu : f.UniqueKeys) (hl : f.LinksOk) (h : cleanDoc E o f = .ok g) {e : EId}
    (he : remade e = false) {as bs : List Task} (hp : plan (tasks E o) o = as ++ (sure (removeElement e) :: bs)) : ∀ m ∈ g.nodes, m.kind ≠ .elem e := by
  intro m hm hk
  obtain ⟨a, b, _, h2, _, s1, s2, s3⟩ := run_cut h hp
  have k1 := s1 hu hl
  have k2 := s2 k1.unique k1.links
  obtain ⟨n, hn, _, hkn⟩ := (s3 k2.unique k2.links).lasting m hm (fun e' he' => by rw [hk] at he'; cases he'; exact he)
  cases h2
  exact none_left e a n hn (hkn.trans hk)

/-- C59: with `remove-title`, `remove-desc` or `remove-metadata`, whatever the other options are, the written document has no such
element, and all elements that the cleaner does not make are the same elements as before. -/
theorem C59_removed (E : Env) (o : CleaningOptions) {f g : Forest} (hu : f.UniqueKeys) (hl : f.LinksOk) (h : cleanDoc E o f = .ok g) :
    (∀ e, Asked o e → ∀ m ∈ g.nodes, m.kind ≠ .elem e) ∧ ∀ m ∈ g.nodes, Lasting m → ∃ n ∈ f.nodes, n.key = m.key ∧ n.kind = m.kind := by
  refine ⟨?_, (keeps_run h hu hl).lasting⟩
  rintro e (⟨rfl, ho⟩ | ⟨rfl, ho⟩ | ⟨rfl, ho⟩)
  · refine gone hu hl h rfl (as := (plan (tasks E o) o).take 8) (bs := (plan (tasks E o) o).drop 9) ?_
    have : on o.removeTitle (tasks E o).removeTitle = sure (removeElement .title) := by rw [ho]; rfl
    rw [← this]; rfl
  · refine gone hu hl h rfl (as := (plan (tasks E o) o).take 9) (bs := (plan (tasks E o) o).drop 10) ?_
    have : on o.removeDesc (tasks E o).removeDesc = sure (removeElement .desc) := by rw [ho]; rfl
    rw [← this]; rfl
  · refine gone hu hl h rfl (as := (plan (tasks E o) o).take 10) (bs := (plan (tasks E o) o).drop 11) ?_
    have : on o.removeMetadata (tasks E o).removeMetadata = sure (removeElement .metadata) := by rw [ho]; rfl
    rw [← this]; rfl

/-! ### C60: the form of the written document -/

theorem svgElement_map {f : Forest} {h : Node → Node} (hk : ∀ n, (h n).kind = n.kind) : svgElement (f.map h) = (svgElement f).map fun x => (h x.1, x.2.map h) := by
  induction f with
  | nil => rfl
  | cons n k r _ ih =>
    have ht : (h n).isTag .svg = n.isTag .svg := by unfold Node.isTag; rw [hk]
    simp only [Forest.map_cons, svgElement, ht]
    split
    · rfl
    · exact ih

theorem svgElement_append (f g : Forest) : svgElement (f ++ g) = (svgElement f).or (svgElement g) := by
  induction f with
  | nil => rfl
  | cons n k r _ ih =>
    rw [Forest.cons_append]
    simp only [svgElement]
    split
    · rfl
    · exact ih

theorem referenced_not_svg {n : Node} (h : isReferencedNode n = true) : n.isTag .svg = false := by
  obtain ⟨k, kind, i, as⟩ := n
  cases kind with
  | elem a => cases a <;> first | rfl | exact absurd h (by simp [isReferencedNode, EId.isReferenced])
  | _ => rfl

theorem svgElement_referenced {f : Forest} (h : f.top.all isReferencedNode = true) : svgElement f = none := by
  induction f with
  | nil => rfl
  | cons n k r _ ih =>
    simp only [Forest.top, List.all_cons, Bool.and_eq_true] at h
    unfold svgElement
    rw [referenced_not_svg h.1]
    exact ih h.2

theorem svgElement_ungroupGo (f : Forest) (s : Bool) : (svgElement (ungroupDefsGo f s).1).map Prod.fst = (svgElement f).map Prod.fst := by
  induction f generalizing s with
  | nil => cases s <;> rfl
  | cons n k r ihk ihr =>
    cases s with
    | true => rfl
    | false =>
      unfold ungroupDefsGo
      split
      next hc =>
        simp only [Bool.and_eq_true] at hc
        have hn : n.isTag .svg = false := by
          have := (Node.isTag_iff _ _).1 hc.1
          simp [Node.isTag, this]
        have hk := svgElement_referenced hc.2
        cases k with
        | nil => simp [svgElement, hn]
        | cons n1 k1 r1 =>
          have h1 := ihk false
          rw [hk] at h1
          have h1 : svgElement (ungroupDefsGo (.cons n1 k1 r1) false).1 = none := by
            cases hx : svgElement (ungroupDefsGo (.cons n1 k1 r1) false).1 with
            | none => rfl
            | some x => rw [hx] at h1; cases h1
          simp only [svgElement_append, h1, Option.none_or]
          rw [ihr]
          simp [svgElement, hn]
      next hc =>
        simp only [svgElement]
        split
        · rfl
        · exact ihr _

/-- The root element has no version information. -/
def Versionless (f : Forest) : Prop := ∃ n k, svgElement f = some (n, k) ∧ ∀ x ∈ n.attrs, x.name ≠ .id .version ∧ x.name ≠ .id .baseProfile

/-- No attributes but `xmlns:xlink` and `style` are new. -/
structure Few (n m : Node) : Prop where
  kind : m.kind = n.kind
  names : ∀ x ∈ m.attrs, (∃ y ∈ n.attrs, y.name = x.name) ∨ x.name = .id .xmlnsXlink ∨ x.name = .id .style

theorem few_unlink (n : Node) (s : Nat → Bool) : Few n (n.unlink s) :=
  ⟨rfl, fun x hx => .inl ⟨x, List.mem_of_mem_filter hx, rfl⟩⟩

theorem few_rm (n : Node) (a : AId) : Few n (n.rm a) :=
  ⟨rfl, fun x hx => .inl ⟨x, List.mem_of_mem_filter hx, rfl⟩⟩

theorem few_dropDefault (n : Node) : Few n (dropDefault n) := by
  unfold dropDefault
  split
  · split
    · exact few_rm n _
    · exact ⟨rfl, fun x hx => .inl ⟨x, hx, rfl⟩⟩
  · exact ⟨rfl, fun x hx => .inl ⟨x, hx, rfl⟩⟩

theorem few_fixRoot (b c : Bool) (n : Node) : Few n (fixXmlnsRoot b c n) := by
  unfold fixXmlnsRoot
  split
  · exact few_rm n _
  · split
    · refine ⟨rfl, fun x hx => ?_⟩
      rcases Node.mem_putAttr hx with rfl | hx
      · exact .inr (.inl rfl)
      · exact .inl ⟨x, hx, rfl⟩
    · exact ⟨rfl, fun x hx => .inl ⟨x, hx, rfl⟩⟩

theorem few_join (nameOf : AId → List Char) (ser : Value → List Char) (m : Cli.StyleJoinMode) (n : Node) : Few n (joinNode nameOf ser m n) := by
  unfold joinNode
  simp only
  split
  · refine ⟨rfl, fun x hx => ?_⟩
    rcases Node.mem_putAttr (List.mem_of_mem_filter hx) with rfl | hx
    · exact .inr (.inr rfl)
    · exact .inl ⟨x, hx, rfl⟩
  · exact ⟨rfl, fun x hx => .inl ⟨x, hx, rfl⟩⟩

theorem versionless_few {n m : Node} (h : Few n m) (hn : ∀ x ∈ n.attrs, x.name ≠ .id .version ∧ x.name ≠ .id .baseProfile) :
    ∀ x ∈ m.attrs, x.name ≠ .id .version ∧ x.name ≠ .id .baseProfile := by
  intro x hx
  rcases h.names x hx with ⟨y, hy, e⟩ | e | e
  · rw [← e]; exact hn y hy
  · rw [e]; exact ⟨by decide, by decide⟩
  · rw [e]; exact ⟨by decide, by decide⟩

theorem versionless_map {f : Forest} {h : Node → Node} (hh : ∀ n, Few n (h n)) (hf : Versionless f) : Versionless (f.map h) := by
  obtain ⟨n, k, hs, hn⟩ := hf
  refine ⟨h n, k.map h, ?_, versionless_few (hh n) hn⟩
  rw [svgElement_map (fun n => (hh n).kind), hs]
  rfl

theorem versionless_removeVersion {f g : Forest} (h : removeVersion f = some g) : Versionless g := by
  unfold removeVersion at h
  obtain ⟨⟨n, k⟩, hs, rfl⟩ := Option.map_eq_some_iff.1 h
  refine ⟨_, _, svgElement_set hs _ _ (svgElement_some hs).1, fun x hx => ?_⟩
  have h2 : x ∈ rmAttr (rmAttr n.attrs (.id .version)) (.id .baseProfile) := hx
  simp only [rmAttr, List.mem_filter, decide_eq_true_eq] at h2
  exact ⟨h2.1.2, h2.2⟩

theorem versionless_ungroupDefs {f : Forest} (hf : Versionless f) : Versionless (ungroupDefs f) := by
  refine versionless_map (fun n => few_unlink n _) ?_
  obtain ⟨n, k, hs, hn⟩ := hf
  have := svgElement_ungroupGo f false
  rw [hs] at this
  obtain ⟨⟨n', k'⟩, h1, h2⟩ := Option.map_eq_some_iff.1 this
  exact ⟨n', k', h1, by cases h2; exact hn⟩

theorem versionless_set {f : Forest} {n : Node} {k : Forest} (hs : svgElement f = some (n, k)) (hf : Versionless f) {n' : Node} (h : Few n n') (k' : Forest) :
    Versionless (setSvgElement n' k' f) := by
  obtain ⟨n1, k1, h1, hn⟩ := hf
  rw [hs] at h1
  cases h1
  exact ⟨n', k', svgElement_set hs _ _ (h.kind.trans (svgElement_some hs).1), versionless_few h hn⟩

theorem versionless_removeEmptyDefs {f g : Forest} (h : removeEmptyDefs f = some g) (hf : Versionless f) : Versionless g := by
  unfold removeEmptyDefs at h
  obtain ⟨⟨n, k⟩, hs, rfl⟩ := Option.map_eq_some_iff.1 h
  exact versionless_map (fun n => few_unlink n _) (versionless_set hs hf ⟨rfl, fun x hx => .inl ⟨x, hx, rfl⟩⟩ _)

theorem versionless_fixXmlns {b : Bool} {f g : Forest} (h : fixXmlnsAttribute b f = some g) (hf : Versionless f) : Versionless g := by
  unfold fixXmlnsAttribute at h
  obtain ⟨⟨n, k⟩, hs, rfl⟩ := Option.map_eq_some_iff.1 h
  exact versionless_set hs hf (few_fixRoot _ _ _) _

/-- The last five tasks. -/
theorem last_five {E : Env} {o : CleaningOptions} {f g : Forest} (h : cleanDoc E o f = .ok g) :
    ∃ a b c d, runUpTo E o 37 f = .ok a ∧ b = (if o.ungroupDefs then ungroupDefs a else a) ∧ removeEmptyDefs b = some c ∧
      fixXmlnsAttribute o.removeXmlnsXlinkAttribute c = some d ∧
      g = joinStyleAttributes E.nameOf E.ser o.joinStyleAttributes (removeDefaultTransform d) := by
  have e : plan (tasks E o) o = (plan (tasks E o) o).take 37 ++ [on o.ungroupDefs (sure ungroupDefs), may removeEmptyDefs,
      may (fixXmlnsAttribute o.removeXmlnsXlinkAttribute), sure removeDefaultTransform, sure (joinStyleAttributes E.nameOf E.ser o.joinStyleAttributes)] := rfl
  unfold cleanDoc at h
  rw [e] at h
  obtain ⟨a, h1, h2⟩ := runAll_append h
  obtain ⟨b, h3, h4⟩ := runAll_cons h2
  obtain ⟨c, h5, h6⟩ := runAll_cons h4
  obtain ⟨d, h7, h8⟩ := runAll_cons h6
  obtain ⟨d', h9, h10⟩ := runAll_cons h8
  obtain ⟨g', h11, h12⟩ := runAll_cons h10
  cases h12; cases h11; cases h9
  refine ⟨a, b, c, d, h1, ?_, may_ok h5, may_ok h7, rfl⟩
  unfold on at h3
  split at h3
  next hb => cases h3; rw [if_pos hb]
  next hb => cases h3; rw [if_neg hb]

theorem join_map {E : Env} {m : Cli.StyleJoinMode} (f : Forest) : joinStyleAttributes E.nameOf E.ser m f = f.map (joinNode E.nameOf E.ser m) := by
  unfold joinStyleAttributes
  split
  next hm =>
    refine (Forest.map_id' fun n _ => ?_).symm
    unfold joinNode
    rw [hm]
    simp
  · rfl

/-- C60: with `remove-version`, the root element of the written document has neither `version` nor `baseProfile`. -/
theorem C60_version (E : Env) (o : CleaningOptions) (ho : o.removeVersion = true) {f g : Forest} (h : cleanDoc E o f = .ok g) :
    ∃ n k, svgElement g = some (n, k) ∧ ∀ x ∈ n.attrs, x.name ≠ .id .version ∧ x.name ≠ .id .baseProfile := by
  obtain ⟨a, b, c, d, h1, rfl, h2, h3, rfl⟩ := last_five h
  have e : (plan (tasks E o) o).take 37 = (plan (tasks E o) o).take 36 ++ [may removeVersion] := by
    have : on o.removeVersion (tasks E o).removeVersion = may removeVersion := by rw [ho]; rfl
    rw [← this]; rfl
  unfold runUpTo at h1
  rw [e] at h1
  obtain ⟨a0, _, h5⟩ := runAll_append h1
  obtain ⟨a1, h6, h7⟩ := runAll_cons h5
  cases h7
  have va := versionless_removeVersion (may_ok h6)
  have vb : Versionless (if o.ungroupDefs then ungroupDefs a else a) := by
    split
    · exact versionless_ungroupDefs va
    · exact va
  have vd := versionless_fixXmlns h3 (versionless_removeEmptyDefs h2 vb)
  rw [join_map]
  exact versionless_map (few_join _ _ _) (versionless_map few_dropDefault vd)

theorem get_join (nameOf : AId → List Char) (ser : Value → List Char) (m : Cli.StyleJoinMode) (n : Node) {a : AId} (ha : a.isPresentation = false) (hs : a ≠ .style) :
    (joinNode nameOf ser m n).get a = n.get a := by
  unfold joinNode
  simp only
  split
  · unfold Node.get
    simp only
    rw [show getAttr ((putAttr n.attrs ⟨.id .style, .str (String.ofList (styleText nameOf ser n.attrs)), true⟩).filter fun x => !joinable x) (.id a)
      = getAttr (putAttr n.attrs ⟨.id .style, .str (String.ofList (styleText nameOf ser n.attrs)), true⟩) (.id a) from ?_]
    · rw [getAttr_put]
      simp [hs]
    · unfold getAttr
      generalize putAttr n.attrs _ = l
      induction l with
      | nil => rfl
      | cons x l ih =>
        by_cases hx : x.name = .id a
        · have : joinable x = false := by unfold joinable; rw [hx]; simp [ha]
          simp [this, hx]
        · by_cases hj : joinable x = true
          · simp [hj, hx, ih]
          · simp [hj, hx, ih]
  · rfl

/-- C60: no element of the written document has the identity as its transform. -/
theorem C60_transform (E : Env) (o : CleaningOptions) {f g : Forest} (h : cleanDoc E o f = .ok g) :
    ∀ m ∈ g.nodes, m.get .transform ≠ some (.transform one) := by
  obtain ⟨a, b, c, d, _, _, _, _, rfl⟩ := last_five h
  rw [join_map, Forest.nodes_map]
  intro m hm
  obtain ⟨n, hn, rfl⟩ := List.mem_map.1 hm
  rw [get_join _ _ _ _ rfl (by decide)]
  rw [(C51_drops_exactly_identity d).1] at hn
  obtain ⟨l, _, rfl⟩ := List.mem_map.1 hn
  split
  · intro he
    unfold Node.get getAttr at he
    obtain ⟨x, hx, _⟩ := Option.map_eq_some_iff.1 he
    have h1 := List.mem_of_find?_eq_some hx
    have h2 := List.find?_some hx
    simp only [List.mem_filter, decide_eq_true_eq] at h1 h2
    exact h1.2 h2
  · assumption

/-- C60: with `join-style-attributes` set to `all`, no element of SVG has a written presentation attribute; with `some`, none has more
than five of them.  (An attribute that is not visible is not written.) -/
theorem C60_style (E : Env) (o : CleaningOptions) {f g : Forest} (h : cleanDoc E o f = .ok g) :
    ∀ m ∈ g.nodes, (∃ e, m.kind = .elem e) →
      (o.joinStyleAttributes = .all → ∀ x ∈ m.attrs, ∀ a, x.name = .id a → a.isPresentation = true → x.visible = false) ∧
      (o.joinStyleAttributes = .some → ∀ l : List Attr, l.Sublist m.attrs → (∀ x ∈ l, x.visible = true ∧ ∃ a : AId, x.name = .id a ∧ a.isPresentation = true) → l.length ≤ 5) := by
  obtain ⟨a, b, c, d, _, _, _, _, rfl⟩ := last_five h
  rw [join_map, Forest.nodes_map]
  rintro m hm ⟨e, hk⟩
  obtain ⟨n, hn, rfl⟩ := List.mem_map.1 hm
  rw [(few_join _ _ _ n).kind] at hk
  have hsv : n.isSvgElem = true := by unfold Node.isSvgElem; rw [hk]
  have key : ∀ x : Attr, ∀ a, x.name = .id a → a.isPresentation = true → joinable x = x.visible := fun x a h1 h2 => by
    unfold joinable; rw [h1]; simp [h2]
  constructor
  · intro ho x hx a h1 h2
    unfold joinNode at hx
    simp only [hsv, ho, decide_true, Bool.or_true, Bool.and_true, if_true, List.mem_filter] at hx
    have := hx.2
    rw [key x a h1 h2] at this
    simpa using this
  · intro ho l hl hp
    have hj : ∀ x ∈ l, joinable x = true := fun x hx => by
      obtain ⟨h1, a, h2, h3⟩ := hp x hx
      rw [key x a h2 h3, h1]
    unfold joinNode at hl
    by_cases hc : 5 < (n.attrs.filter joinable).length
    · simp only [hsv, ho, hc, decide_true, Bool.true_and, Bool.true_or, if_true] at hl
      cases l with
      | nil => simp
      | cons x l =>
        have hx := hl.subset (List.mem_cons_self ..)
        have := (List.mem_filter.1 hx).2
        rw [hj x (List.mem_cons_self ..)] at this
        cases this
    · simp only [hsv, ho, hc, decide_false, Bool.and_false, Bool.true_and, Bool.false_or] at hl
      rw [if_neg (by simp)] at hl
      have := hl.filter joinable
      rw [List.filter_eq_self.2 hj] at this
      have := this.length_le
      omega

/-- C60: if an element of SVG in the written document has `xlink:href`, then the root element declares the prefix. -/
theorem C60_xlink (E : Env) (o : CleaningOptions) {f g : Forest} (hu : f.UniqueKeys) (hl : f.LinksOk) (h : cleanDoc E o f = .ok g)
    (hx : ∃ m ∈ g.nodes, (∃ e, m.kind = .elem e) ∧ m.get .xlinkHref ≠ none) : ∃ n k, svgElement g = some (n, k) ∧ n.get .xmlnsXlink ≠ none := by
  obtain ⟨a, b, c, d, h1, rfl, h2, h3, rfl⟩ := last_five h
  have ka := keeps_upTo h1 hu hl
  have kb : Keeps a (if o.ungroupDefs then ungroupDefs a else a) := by
    split
    · exact (step_ungroupDefs a).safe ka.unique ka.links
    · exact Safe.refl a ka.unique ka.links
  have kc := (step_removeEmptyDefs h2).safe kb.unique kb.links
  obtain ⟨n, k, n', _, h5, h6, _⟩ := C47_declared_partial _ _ _ kc.unique h3
  have hd : ∀ (m : Node) (a : AId), a ≠ .transform → (dropDefault m).get a = m.get a := fun m a ha => by
    unfold dropDefault
    split
    · split
      · rw [Node.get_rm, if_neg ha]
      · rfl
    · rfl
  have hget : ∀ (m : Node) (a : AId), a.isPresentation = false → a ≠ .style → a ≠ .transform →
      (joinNode E.nameOf E.ser o.joinStyleAttributes (dropDefault m)).get a = m.get a := fun m a h1 h2 h3 => by
    rw [get_join _ _ _ _ h1 h2, hd _ _ h3]
  rw [join_map] at hx ⊢
  obtain ⟨m, hm, ⟨e, hk⟩, hg⟩ := hx
  unfold removeDefaultTransform at hm ⊢
  rw [Forest.nodes_map, Forest.nodes_map, List.map_map] at hm
  obtain ⟨l, hl, rfl⟩ := List.mem_map.1 hm
  have hg : (joinNode E.nameOf E.ser o.joinStyleAttributes (dropDefault l)).get .xlinkHref ≠ none := hg
  rw [hget l .xlinkHref rfl (by decide) (by decide)] at hg
  have hk : (joinNode E.nameOf E.ser o.joinStyleAttributes (dropDefault l)).kind = .elem e := hk
  rw [(few_join _ _ _ _).kind, (few_dropDefault _).kind] at hk
  have := h6 ⟨l, hl, by unfold Node.isSvgElem; rw [hk], by
    rw [Node.has_eq]
    cases hy : l.get .xlinkHref with
    | none => exact absurd hy hg
    | some v => rfl⟩
  refine ⟨joinNode E.nameOf E.ser o.joinStyleAttributes (dropDefault n'), (k.map dropDefault).map (joinNode E.nameOf E.ser o.joinStyleAttributes), ?_, ?_⟩
  · rw [svgElement_map (fun n => (few_join _ _ _ n).kind), svgElement_map (fun n => (few_dropDefault n).kind), h5]
    rfl
  · rw [hget n' .xmlnsXlink rfl (by decide) (by decide)]
    rw [Node.has_eq] at this
    intro hy
    rw [hy] at this
    cases this

end Verif.Pipeline
