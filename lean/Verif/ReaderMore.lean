import Verif.ReaderNeedless
/-
C70 for `remove_unused_coordinates` and `remove_text_attributes`.
-/
namespace Verif.Reader
open Verif.Dom Verif.Spec Verif.Render Verif.Plot Verif.Simple
open Verif.TextAttrs (concernsText TextGone textAttributes mem_text goText rmSpace rmFontFace removeText isText)
open Verif.Needless (rmAll)

variable {ini : AId → Option Value}

/-! ### Unused coordinates -/

theorem paper_same {n : Node} (hv : ∀ y ∈ n.attrs, y.visible = true) : paper n = n := by
  unfold paper
  rw [List.filter_eq_self.2 hv]

theorem Trimmed.of_own {n m : Node} (hk : m.key = n.key) (hd : m.kind = n.kind) (hg : ∀ a, inherits a = true ∨ isFixed a = true → m.get a = n.get a)
    (ho : ∀ e, n.kind = .elem e → ∀ x, isOwn x = true → val m x = val n x ∨ SilentV ini e n x ∧ SilentV ini e m x) : Trimmed ini n m := by
  refine ⟨hk, hd, fun a ha => hg a (.inr (by revert ha; cases a <;> decide)), ?_, ?_, ?_, fun a ha => .inl (hg a (.inr ?_)), ho⟩
  · unfold nodeTransform; rw [hg _ (.inr rfl)]
  · unfold opacityOf; rw [hg _ (.inr rfl)]
  · unfold hiddenBy; rw [hg _ (.inr rfl)]
  · simp only [List.mem_cons, List.not_mem_nil, or_false] at ha
    rcases ha with rfl | rfl | rfl <;> rfl

/-- The conditions for `remove_unused_coordinates`: a root without a position (which has no effect there, but may have elsewhere), corner radii
that are not percentages (`C46_refuted_percent`), and no focal points (C46 treats them). -/
structure Placed (top : Bool) (n : Node) : Prop where
  root : top = true → n.kind = .elem .svg → n.get .x = none ∧ n.get .y = none
  radius : n.kind = .elem .rect → ∀ l, n.get .rx = some (.length l) → l.unit ≠ .percent
  lengths : n.kind = .elem .rect → ∀ v, n.get .rx = some v → ∃ l, v = .length l
  focus : n.kind = .elem .radialGradient → n.get .fx = none ∧ n.get .fy = none

theorem has_none {n : Node} {a : AId} (h : n.get a = none) : n.has a = false := by rw [Node.has_eq, h]; rfl

theorem rmF_none {doc : Forest} {n : Node} {a b : AId} (h : n.get a = none) : rmF doc n a b = [] := by
  unfold rmF
  rw [h]

theorem coords_cases {doc : Forest} {top : Bool} {n : Node} (h : Placed top n) :
    unusedCoords doc top n = [] ∨ unusedCoords doc top n = [.ry] ∧ n.kind = .elem .rect ∧ n.has .rx = true ∧ n.get .rx = n.get .ry := by
  unfold unusedCoords
  split
  next hk =>
    left
    cases top with
    | false => rfl
    | true => simp [has_none (h.root rfl hk).1, has_none (h.root rfl hk).2]
  next hk =>
    split
    next hc =>
      simp only [Bool.and_eq_true, decide_eq_true_eq] at hc
      exact .inr ⟨rfl, hk, hc.1, hc.2⟩
    next => exact .inl rfl
  next hk =>
    left
    simp only
    split <;> split <;> first | rfl | (rw [rmF_none (h.focus hk).1, rmF_none (h.focus hk).2]; rfl)
  next => exact .inl rfl

theorem coords_paper {doc : Forest} {top : Bool} {n : Node} (h : Placed top n) (hu : (n.attrs.map Attr.name).Nodup) (hv : ∀ y ∈ n.attrs, y.visible = true) :
    (paper (hideAll n (unusedCoords doc top n)) = n) ∨ n.kind = .elem .rect ∧ n.has .rx = true ∧ n.get .rx = n.get .ry ∧
      ∀ x, val (paper (hideAll n (unusedCoords doc top n))) x = if x = .id .ry then none else val n x := by
  rcases coords_cases (doc := doc) h with e | ⟨e, hk, h1, h2⟩
  · rw [e]
    exact .inl (paper_same hv)
  · refine .inr ⟨hk, h1, h2, fun x => ?_⟩
    rw [e]
    unfold val paper
    simp only [hideAll, List.foldl_cons, List.foldl_nil, Node.hide]
    have hn : ((hideAttr n.attrs (.id .ry)).map Attr.name).Nodup := by
      have : (hideAttr n.attrs (.id .ry)).map Attr.name = n.attrs.map Attr.name := by
        unfold hideAttr
        rw [List.map_map]
        congr 1
        funext y
        simp only [Function.comp]
        split <;> rfl
      rw [this]; exact hu
    rw [getAttr_paper hn, getAttr_hide]
    cases hg : getAttr n.attrs x with
    | none => simp
    | some y =>
      by_cases hx : x = .id .ry
      · simp [hx, Option.filter]
      · simp [hx, Option.filter, hv y (getAttr_mem hg)]

theorem Ink.refl (ini : AId → Option Value) (text : Bool) (s : Inherited) : Ink ini text s s :=
  ⟨fun _ _ _ _ _ => rfl, .inr fun _ _ => rfl, .inr fun _ _ => rfl⟩

theorem inh_congr {n m : Node} (h : ∀ a, inherits a = true → m.get a = n.get a) (s : Inherited) : inh s m = inh s n := by
  funext a
  unfold inh Ctx.enter
  cases hi : inherits a with
  | false => simp [hi]
  | true => simp only [h a hi]

theorem leaves_coords (doc : Forest) {f : Forest} {top : Bool}
    (hf : ∀ n ∈ f.nodes, (n.attrs.map Attr.name).Nodup ∧ (n.kind ≠ .elem .use ∧ ∀ t, n.kind ≠ .other t) ∧ ∀ y ∈ n.attrs, y.visible = true)
    (hp : (∀ n ∈ f.nodes, Placed top n) ∧ ∀ n ∈ f.nodes, Placed false n) (s : Inherited) : Leaves ini s s f (onPaper (removeUnusedCoordsGo doc top f)) := by
  induction f generalizing top s with
  | nil => exact .nil s s
  | cons n k r ihk ihr =>
    simp only [removeUnusedCoordsGo, onPaper_cons]
    obtain ⟨hu, hkind, hv⟩ := hf n (by simp)
    have hget : ∀ a, a ≠ .ry → (paper (hideAll n (unusedCoords doc top n))).get a = n.get a := by
      intro a ha
      rcases coords_paper (doc := doc) (hp.1 n (by simp)) hu hv with e | ⟨_, _, _, e⟩
      · rw [e]
      · rw [← val_get, e, if_neg (by simpa using ha)]; rfl
    have hsame : (hideAll n (unusedCoords doc top n)).key = n.key ∧ (hideAll n (unusedCoords doc top n)).kind = n.kind := by
      generalize unusedCoords doc top n = l
      unfold hideAll
      clear * -
      induction l generalizing n with
      | nil => exact ⟨rfl, rfl⟩
      | cons a t ih => rw [List.foldl_cons]; exact ih (n.hide a)
    have hih := inh_congr (fun a ha => hget a (by rintro rfl; cases ha)) s
    refine .cons (Trimmed.of_own hsame.1 hsame.2 (fun a ha => hget a ?_) ?_) ?_ ?_
      (ihr (fun x hx => hf x (by simp [hx])) ⟨fun x hx => hp.1 x (by simp [hx]), fun x hx => hp.2 x (by simp [hx])⟩ s)
    · rintro rfl
      rcases ha with h | h <;> cases h
    · intro e he x hx
      rcases coords_paper (doc := doc) (hp.1 n (by simp)) hu hv with e' | ⟨hk, h1, h2, e'⟩
      · rw [e']; exact .inl rfl
      · rw [e' x]
        by_cases h : x = .id .ry
        · subst h
          right
          rw [Node.has_eq] at h1
          obtain ⟨v, hv⟩ := Option.isSome_iff_exists.1 h1
          have hpl := hp.1 n (by simp)
          obtain ⟨l, rfl⟩ := hpl.lengths hk v hv
          refine ⟨.inr (.inr (.inr (.inr (.inr (.inl ⟨?_, rfl, h2.symm, l, h2.symm.trans hv, hpl.radius hk l hv⟩))))), .inl ?_⟩
          · rw [hk] at he; cases he; rfl
          · rw [e', if_pos rfl]
        · rw [if_neg h]; exact .inl rfl
    · unfold Drawn
      split
      next => exact ⟨Ink.refl _ _ _, .inl rfl⟩
      next => trivial
      next t ht => exact hkind.2 t ht
      next e he =>
        rw [hih]
        exact ⟨fun e' => hkind.1 (by rw [he, e']), ⟨true, Ink.refl _ _ _, .inl rfl⟩, .inl rfl⟩
    · rw [hih]
      exact ihk (fun x hx => hf x (by simp [hx])) ⟨fun x hx => hp.2 x (by simp [hx]), fun x hx => hp.2 x (by simp [hx])⟩ _

/-- **C70, coordinates.** The picture of the file in which unused coordinates are left out is the picture of the document with them. -/
theorem C70_coords_partial {f : Forest}
    (hf : ∀ n ∈ f.nodes, (n.attrs.map Attr.name).Nodup ∧ (n.kind ≠ .elem .use ∧ ∀ t, n.kind ≠ .other t) ∧ ∀ y ∈ n.attrs, y.visible = true)
    (hp : ∀ n ∈ f.nodes, Placed true n) : SameRead ini f (onPaper (removeUnusedCoords f)) :=
  (leaves_coords f hf ⟨hp, fun n hn => ⟨fun e => (by cases e), (hp n hn).radius, (hp n hn).lengths, (hp n hn).focus⟩⟩ _).picture

/-! ### Text attributes -/

/-- Attributes that concern text are taken away. -/
structure Strip (n m : Node) : Prop where
  gone : TextGone n m
  sub : ∀ y ∈ m.attrs, y ∈ n.attrs
  names : (n.attrs.map Attr.name).Nodup → (m.attrs.map Attr.name).Nodup

inductive Stripped : Forest → Forest → Prop
  | nil : Stripped .nil .nil
  | cons {n m : Node} {k k' r r' : Forest} : Strip n m → Stripped k k' → Stripped r r' → Stripped (.cons n k r) (.cons m k' r')

theorem Strip.refl (n : Node) : Strip n n := ⟨⟨⟨rfl, rfl, rfl⟩, fun _ _ => rfl⟩, fun _ h => h, id⟩
theorem Strip.trans {a b c : Node} (h : Strip a b) (h' : Strip b c) : Strip a c :=
  ⟨⟨h.gone.same.trans h'.gone.same, fun x hx => (h'.gone.other x hx).trans (h.gone.other x hx)⟩, fun y hy => h.sub y (h'.sub y hy), fun x => h'.names (h.names x)⟩
theorem Stripped.refl (f : Forest) : Stripped f f := by
  induction f with
  | nil => exact .nil
  | cons n k r ihk ihr => exact .cons (Strip.refl n) ihk ihr
theorem Stripped.trans {f g h : Forest} (h1 : Stripped f g) (h2 : Stripped g h) : Stripped f h := by
  induction h1 generalizing h with
  | nil => cases h2; exact .nil
  | cons a _ _ ih1 ih2 =>
    cases h2 with
    | cons a' b c => exact .cons (a.trans a') (ih1 b) (ih2 c)

theorem rm_names (n : Node) (a : AId) (h : (n.attrs.map Attr.name).Nodup) : ((n.rm a).attrs.map Attr.name).Nodup := h.sublist (List.filter_sublist.map _)

theorem rmAll_names (n : Node) (l : List AId) (h : (n.attrs.map Attr.name).Nodup) : ((rmAll n l).attrs.map Attr.name).Nodup := by
  unfold rmAll
  induction l generalizing n with
  | nil => exact h
  | cons a t ih => exact ih (n.rm a) (rm_names n a h)

theorem Strip.rm (n : Node) {a : AId} (ha : concernsText a = true) : Strip n (n.rm a) :=
  ⟨⟨Needless.rm_same _ _, fun b hb => by rw [Needless.getAttr_nodeRm, if_neg (hb a ha)]⟩, TextAttrs.rm_subset n _, rm_names n a⟩

theorem Strip.all (n : Node) : Strip n (rmAll n textAttributes) :=
  ⟨⟨Needless.rmAll_same _ _, fun b hb => by
    rw [Needless.getAttr_rmAll, if_neg (by rintro ⟨a, ha, e⟩; exact hb a (mem_text.1 ha) e)]⟩, TextAttrs.rmAll_subset _ _, rmAll_names n _⟩

theorem stripped_go (f c : Forest) : Stripped c (goText f c).1 := by
  induction c with
  | nil => exact .nil
  | cons n k r ihk ihr =>
    unfold goText
    simp only
    have h1 := Strip.rm n (a := .lineHeight) rfl
    split
    · exact .cons h1 (Stripped.refl k) ihr
    · split
      · split
        · refine .cons ?_ ihk ihr
          split
          · exact h1
          · exact h1.trans (Strip.all _)
        · exact .cons h1 ihk ihr
      · rename_i hk
        have : k = .nil := by cases k with
          | nil => rfl
          | cons => simp [Forest.isEmpty] at hk
        subst this
        refine .cons ?_ .nil ihr
        split
        · exact h1.trans (Strip.all _)
        · exact h1

theorem stripped_space (c : Forest) : Stripped c (rmSpace c) := by
  induction c with
  | nil => exact .nil
  | cons n k r ihk ihr =>
    unfold rmSpace
    have h1 := Strip.rm n (a := .xmlSpace) rfl
    split
    · exact .cons (Strip.refl n) ihk ihr
    · split
      · refine .cons ?_ ihk ihr
        split
        · exact Strip.refl n
        · exact h1
      · rename_i hk
        have : k = .nil := by cases k with
          | nil => rfl
          | cons => simp [Forest.isEmpty] at hk
        subst this
        exact .cons h1 .nil ihr

theorem stripped_map (f : Forest) {h : Node → Node} (hh : ∀ n, Strip n (h n)) : Stripped f (f.map h) := by
  induction f with
  | nil => exact .nil
  | cons n k r ihk ihr => exact .cons (hh n) ihk ihr

theorem stripped_text {f g : Forest} (h : removeText f = some g) : Stripped f g := by
  unfold removeText rmFontFace at h
  obtain ⟨x, _, rfl⟩ := Option.map_eq_some_iff.1 h
  refine ((stripped_go f f).trans (stripped_space _)).trans ?_
  split
  · exact Stripped.refl _
  · refine stripped_map _ fun n => ?_
    split
    · exact Strip.all n
    · exact Strip.refl n

/-- Elements that are no text, and have no length in units of the font size. -/
structure Wordless (n : Node) : Prop where
  kind : (∃ s, n.kind = .comment s) ∨ ∃ e, n.kind = .elem e ∧ e ≠ .use ∧ isTextual e = false
  units : ∀ y ∈ n.attrs, fontRelative y.value = false

theorem strip_get {n m : Node} (h : Strip n m) {a : AId} (ha : concernsText a = false) : m.get a = n.get a := by
  unfold Node.get
  rw [h.gone.other _ (by rintro b hb e; cases e; rw [ha] at hb; cases hb)]

theorem mem_val {n : Node} {x : AName} {v : Value} (h : val n x = some v) : ∃ y ∈ n.attrs, y.value = v := by
  obtain ⟨y, hy, e⟩ := Option.map_eq_some_iff.1 h
  exact ⟨y, getAttr_mem hy, e⟩

theorem inh_units {n : Node} (hn : ∀ y ∈ n.attrs, fontRelative y.value = false) {s : Inherited} (hs : ∀ a v, s a = some v → fontRelative v = false) :
    ∀ a v, inh s n a = some v → fontRelative v = false := by
  intro a v h
  unfold inh Ctx.enter at h
  simp only at h
  split at h
  · cases hv : n.get a with
    | none => rw [hv] at h; exact hs a v h
    | some w =>
      rw [hv] at h
      simp only at h
      split at h
      · exact hs a v h
      · cases h
        obtain ⟨y, hy, e⟩ := mem_val (x := .id a) hv
        rw [← e]; exact hn y hy
  · cases h

theorem leaves_text {f g : Forest} (h : Stripped f g) (hf : ∀ n ∈ f.nodes, Wordless n) {s s' : Inherited} (he : ∀ a, concernsText a = false → s a = s' a)
    (hs : ∀ a v, s a = some v → fontRelative v = false) (hs' : ∀ a v, s' a = some v → fontRelative v = false) : Leaves ini s s' f g := by
  induction h generalizing s s' with
  | nil => exact .nil s s'
  | @cons n m k k' r r' h1 _ _ ih1 ih2 =>
    have hn := hf n (by simp)
    have hm : ∀ y ∈ m.attrs, fontRelative y.value = false := fun y hy => hn.units y (h1.sub y hy)
    have hin : ∀ a, concernsText a = false → inh s n a = inh s' m a := by
      intro a ha
      unfold inh Ctx.enter
      simp only [strip_get h1 ha, he a ha]
    have hu := inh_units hn.units hs
    have hu' := inh_units hm hs'
    have hfix : ∀ a, isFixed a = true → concernsText a = false := by intro a; cases a <;> decide
    refine .cons ?_ ?_ (ih1 (fun x hx => hf x (by simp [hx])) hin hu hu') (ih2 (fun x hx => hf x (by simp [hx])) he hs hs')
    · refine ⟨h1.gone.same.1, h1.gone.same.2.1, fun a ha => strip_get h1 (hfix a (by revert ha; cases a <;> decide)), ?_, ?_, ?_, fun a ha => .inl (strip_get h1 (hfix a ?_)), ?_⟩
      · unfold nodeTransform; rw [strip_get h1 rfl]
      · unfold opacityOf; rw [strip_get h1 rfl]
      · unfold hiddenBy; rw [strip_get h1 rfl]
      · simp only [List.mem_cons, List.not_mem_nil, or_false] at ha
        rcases ha with rfl | rfl | rfl <;> rfl
      · intro e hk x _
        by_cases hx : ∃ a, x = .id a ∧ concernsText a = true
        · have ht : isTextual e = false := by
            rcases hn.kind with ⟨t, ht⟩ | ⟨e', he', _, ht⟩
            · rw [hk] at ht; cases ht
            · rw [hk] at he'; cases he'; exact ht
          exact .inr ⟨.inr (.inr (.inr (.inr (.inl ⟨ht, hx⟩)))), .inr (.inr (.inr (.inr (.inl ⟨ht, hx⟩))))⟩
        · left
          unfold val
          rw [h1.gone.other x (fun a ha e => hx ⟨a, e, ha⟩)]
    · unfold Drawn
      rcases hn.kind with ⟨t, ht⟩ | ⟨e, hk, hne, ht⟩
      · rw [ht]; trivial
      · rw [hk]
        refine ⟨hne, ⟨false, ⟨fun a _ _ _ h => ?_, .inr fun a ha => ?_, .inr fun a ha => ?_⟩, .inr ⟨ht, ⟨?_, hu⟩, ⟨?_, hu'⟩⟩⟩, .inl ?_⟩
        · rcases h with h | h
          · cases h
          · unfold took; rw [hin a h]
        · unfold took; rw [hin a (by revert ha; cases a <;> decide)]
        · unfold took; rw [hin a (by revert ha; cases a <;> decide)]
        · intro x v hv
          obtain ⟨y, hy, e⟩ := mem_val hv
          rw [← e]; exact hn.units y hy
        · intro x v hv
          obtain ⟨y, hy, e⟩ := mem_val hv
          rw [← e]; exact hm y hy
        · unfold took; rw [hin _ rfl]

/-- **C70, text attributes.** In a document without text, and without lengths in units of the font size, text attributes may be removed. -/
theorem C70_text_partial {f g : Forest} (hf : ∀ n ∈ f.nodes, Wordless n) (h : removeText f = some g) : SameRead ini f g :=
  (leaves_text (stripped_text h) hf (fun _ _ => rfl) (fun _ _ e => (by cases e)) (fun _ _ e => (by cases e))).picture

end Verif.Reader
