import Verif.WholeRest
/-
C71: the hidden attributes of the document, which are not in the file.
-/
namespace Verif.Whole
open Verif.Dom Verif.Spec Verif.Render Verif.Draft
open Verif.Cli (CleaningOptions)
open Verif.Reader (Sane onPaper paper val inh took getAttr_paper get_paper val_get Leaves Trimmed SilentV inh_eq inherits_default fixed_default onPaper_cons)
open Verif.Plot (Inherited)
open Verif.Pipeline (Along)

/-- An inherited property that is in memory, but not in the file. -/
def Hid (n : Node) (a : AId) : Prop := inherits a = true ∧ ∃ y ∈ n.attrs, y.name = .id a ∧ y.visible = false

/-- An inherited property that is in the file. -/
def Vis (n : Node) (a : AId) : Prop := inherits a = true ∧ ∃ y ∈ n.attrs, y.name = .id a ∧ y.visible = true

/-- A hidden attribute means nothing on the element, as long as no ancestor has it. -/
def Mute (ini : AId → Option Value) (n : Node) (y : Attr) : Prop :=
  y.value.target = none ∧ ∃ a e, y.name = .id a ∧ n.kind = .elem e ∧ a ≠ .overflow ∧ ((a.isPresentation = true ∧ ini a = some y.value) ∨
    (a.isPresentation = false ∧ DefaultAttrs.meansNothing e a y.value = true ∧ DefaultAttrs.isTemplated e = false) ∨
    (a = .ry ∧ e = .rect ∧ n.get .rx = some y.value ∧ ∃ l, y.value = .length l ∧ l.unit ≠ .percent))

structure Local (ini : AId → Option Value) (n : Node) : Prop where
  names : (n.attrs.map Attr.name).Nodup
  kind : n.kind ≠ .elem .use ∧ ∀ t, n.kind ≠ .other t
  values : ∀ y ∈ n.attrs, y.value ≠ .kw .inherit ∧ y.value ≠ .kw .currentColor
  mute : ∀ y ∈ n.attrs, y.visible = false → Mute ini n y

/-- The hidden attributes mean nothing: no ancestor has them.  `V` are the properties above. -/
def Pale (ini : AId → Option Value) : (AId → Prop) → Forest → Prop
  | _, .nil => True
  | V, .cons n k r => (Local ini n ∧ (∀ a, V a → ¬ Hid n a) ∧ (isElem n.kind = false → k = .nil)) ∧ Pale ini (fun a => V a ∨ Vis n a) k ∧ Pale ini V r

section
variable {ini : AId → Option Value} {V W : AId → Prop} {f g : Forest} {n m : Node}

theorem Pale.mono (h : Pale ini V f) (hw : ∀ a, W a → V a) : Pale ini W f := by
  induction f generalizing V W with
  | nil => trivial
  | cons n k r ih1 ih2 =>
    obtain ⟨⟨h1, h2, h3⟩, h4, h5⟩ := h
    exact ⟨⟨h1, fun a ha => h2 a (hw a ha), h3⟩, ih1 h4 fun a ha => ha.imp (hw a) id, ih2 h5 hw⟩

theorem pale_append : Pale ini V (f ++ g) ↔ Pale ini V f ∧ Pale ini V g := by
  induction f with
  | nil => exact ⟨fun h => ⟨trivial, h⟩, fun h => h.2⟩
  | cons n k r _ ih =>
    rw [Forest.cons_append]
    show _ ∧ _ ∧ _ ↔ (_ ∧ _ ∧ _) ∧ _
    rw [ih]
    tauto

/-! ### What is on paper -/

theorem val_paper (h : Local ini n) (x : AName) : val (paper n) x = val n x ∨ val (paper n) x = none ∧ ∃ y ∈ n.attrs, y.name = x ∧ y.visible = false ∧ val n x = some y.value := by
  unfold val paper
  simp only
  rw [getAttr_paper h.names]
  cases e : getAttr n.attrs x with
  | none => exact .inl rfl
  | some y =>
    cases hv : y.visible with
    | true => left; simp [Option.filter, hv]
    | false => exact .inr ⟨by simp [Option.filter, hv], y, getAttr_mem e, getAttr_name e, hv, rfl⟩

theorem get_vis (h : Local ini n) {a : AId} {v : Value} (e : (paper n).get a = some v) : n.get a = some v ∧ ∃ y ∈ n.attrs, y.name = .id a ∧ y.visible = true := by
  rw [← val_get] at e
  unfold val paper at e
  simp only at e
  rw [getAttr_paper h.names] at e
  obtain ⟨y, hy, rfl⟩ := Option.map_eq_some_iff.1 e
  rw [Option.filter_eq_some_iff] at hy
  exact ⟨by unfold Node.get; rw [hy.1]; rfl, y, getAttr_mem hy.1, getAttr_name hy.1, hy.2⟩

theorem Local.get (h : Local ini n) {a : AId} {v : Value} (hv : n.get a = some v) : v ≠ .kw .inherit ∧ v ≠ .kw .currentColor := by
  unfold Node.get at hv
  obtain ⟨y, hy, rfl⟩ := Option.map_eq_some_iff.1 hv
  exact h.values y (getAttr_mem hy)

theorem Local.trimmed (hs : Sane ini) (h : Local ini n) : Trimmed ini n (paper n) := by
  have hp : ∀ a, a ≠ .ry → (paper n).get a = n.get a ∨ (paper n).get a = none ∧ ∃ y ∈ n.attrs, ∃ e, y.name = .id a ∧ n.kind = .elem e ∧ n.get a = some y.value ∧
      ((a.isPresentation = true ∧ ini a = some y.value) ∨ (a.isPresentation = false ∧ DefaultAttrs.meansNothing e a y.value = true)) := by
    intro a hne
    rcases val_paper h (.id a) with e | ⟨e, y, hy, hn, hv, e'⟩
    · exact .inl e
    · obtain ⟨_, b, c, hb, hc, _, h3⟩ := h.mute y hy hv
      have : b = a := by rw [hn] at hb; injection hb with hb; exact hb.symm
      subst this
      refine .inr ⟨e, y, hy, c, hn, hc, e', ?_⟩
      rcases h3 with h3 | h3 | h3
      · exact .inl h3
      · exact .inr ⟨h3.1, h3.2.1⟩
      · exact absurd h3.1 hne
  have hfix : ∀ a, isCond a = true ∨ a = .transform → (paper n).get a = n.get a := by
    intro a ha
    rcases hp a (by rintro rfl; rcases ha with h | h <;> cases h) with e | ⟨_, y, _, e, _, _, _, h3⟩
    · exact e
    · have := fixed_default ha e y.value
      rcases h3 with h3 | h3
      · rw [this.2.1] at h3; cases h3.1
      · rw [this.1] at h3; cases h3.2
  have hpres : ∀ a, a.isPresentation = true → (paper n).get a = n.get a ∨ (paper n).get a = none ∧ n.get a = ini a := by
    intro a ha
    rcases hp a (by rintro rfl; cases ha) with e | ⟨e, y, _, _, _, _, hv, h3⟩
    · exact .inl e
    · rcases h3 with h3 | h3
      · exact .inr ⟨e, hv.trans h3.2.symm⟩
      · rw [ha] at h3; cases h3.1
  refine ⟨rfl, rfl, fun a ha => hfix a (.inl ha), ?_, ?_, ?_, fun a ha => ?_, fun e he x hx => ?_⟩
  · unfold nodeTransform
    rw [hfix _ (.inr rfl)]
  · rcases hpres .opacity rfl with h | ⟨h1, h2⟩
    · unfold opacityOf; rw [h]
    · unfold opacityOf
      rw [h1, h2]
      rcases hs.opacity with h | h <;> rw [h]
  · rcases hpres .display rfl with h | ⟨h1, h2⟩
    · unfold hiddenBy; rw [h]
    · unfold hiddenBy
      rw [h1, h2, decide_eq_false hs.display]
      rfl
  · have hp : a.isPresentation = true := by
      simp only [List.mem_cons, List.not_mem_nil, or_false] at ha
      rcases ha with rfl | rfl | rfl <;> rfl
    rcases hpres a hp with h | ⟨h1, h2⟩
    · exact .inl h
    · right
      intro k
      refine ⟨fun e => ?_, by rw [h1]; simp⟩
      have := hs.plain a _ (h2 ▸ e)
      cases this
  · rcases val_paper h x with e' | ⟨e', y, hy, hn, hv, hx'⟩
    · exact .inl e'
    · right
      refine ⟨?_, .inl e'⟩
      obtain ⟨h1, a, c, ha, hc, hov, h3⟩ := h.mute y hy hv
      rw [he] at hc
      cases hc
      rw [hn] at ha
      subst ha
      rcases h3 with h3 | h3 | ⟨rfl, rfl, h4, l, h5, h6⟩
      · exact .inr (.inr (.inr (.inr (.inr (.inr ⟨a, y.value, rfl, hx', h1, by rw [if_pos h3.1]; exact ⟨hov, h3.2⟩⟩)))))
      · exact .inr (.inr (.inr (.inr (.inr (.inr ⟨a, y.value, rfl, hx', h1, by rw [if_neg (by simp [h3.1])]; exact ⟨h3.2.1, fun e => by rw [h3.2.2] at e; cases e⟩⟩)))))
      · exact .inr (.inr (.inr (.inr (.inr (.inl ⟨rfl, rfl, hx'.trans h4.symm, l, hx'.trans (by rw [h5]), h6⟩)))))

/-- What is inherited in memory and on paper. -/
structure Faded (ini : AId → Option Value) (V : AId → Prop) (s s' : Inherited) : Prop where
  same : ∀ a, s a = s' a ∨ s' a = none ∧ s a = ini a
  above : ∀ a, s' a ≠ none → V a

theorem Faded.took {s s' : Inherited} (h : Faded ini V s s') (a : AId) : took ini s a = took ini s' a := by
  unfold Reader.took
  rcases h.same a with e | ⟨e1, e2⟩
  · rw [e]
  · rw [e1, e2]; cases ini a <;> rfl

theorem Faded.ink {s s' : Inherited} (h : Faded ini V s s') : Reader.Ink ini true s s' :=
  ⟨fun a _ _ _ _ => h.took a, .inr fun a _ => h.took a, .inr fun a _ => h.took a⟩

theorem Faded.enter {s s' : Inherited} (h : Faded ini V s s') (hn : Local ini n) (hc : ∀ a, V a → ¬ Hid n a) :
    Faded ini (fun a => V a ∨ Vis n a) (inh s n) (inh s' (paper n)) := by
  have hi : ∀ a v, n.get a = some v → v ≠ .kw .inherit := fun a v e => (hn.get e).1
  have hi' : ∀ a v, (paper n).get a = some v → v ≠ .kw .inherit := fun a v e => hi a v (get_vis hn e).1
  refine ⟨fun a => ?_, fun a ha => ?_⟩
  · rw [inh_eq hi, inh_eq hi']
    by_cases hin : inherits a = true
    · rw [if_pos hin, if_pos hin]
      rcases val_paper hn (.id a) with e | ⟨e, y, hy, hny, hv, e'⟩
      · rw [val_get, val_get] at e
        rw [e]
        cases hg : n.get a with
        | some v => exact .inl rfl
        | none => exact h.same a
      · rw [val_get] at e e'
        right
        rw [e, e']
        have hno : s' a = none := by
          by_contra hne
          exact hc a (h.above a hne) ⟨hin, y, hy, hny, hv⟩
        refine ⟨hno, ?_⟩
        obtain ⟨_, b, c, hb, _, _, h3⟩ := hn.mute y hy hv
        rw [hny] at hb
        injection hb with hb
        subst hb
        rcases h3 with h3 | h3 | ⟨rfl, _⟩
        · exact h3.2.symm
        · rw [inherits_default hin h3.1] at h3; cases h3.2.1
        · cases hin
    · rw [if_neg hin, if_neg hin]
      exact .inl rfl
  · rw [inh_eq hi'] at ha
    by_cases hin : inherits a = true
    · rw [if_pos hin] at ha
      cases hg : (paper n).get a with
      | some v => exact .inr ⟨hin, (get_vis hn hg).2⟩
      | none => rw [hg] at ha; exact .inl (h.above a ha)
    · rw [if_neg hin] at ha; exact absurd rfl ha

theorem Pale.leaves (hs : Sane ini) (h : Pale ini V f) {s s' : Inherited} (hf : Faded ini V s s') : Leaves ini s s' f (onPaper f) := by
  induction f generalizing V s s' with
  | nil => exact .nil s s'
  | cons n k r ih1 ih2 =>
    obtain ⟨⟨h1, h2, h3⟩, h4, h5⟩ := h
    have he := hf.enter h1 h2
    rw [onPaper_cons]
    refine .cons (h1.trimmed hs) ?_ (ih1 h4 he) (ih2 h5 hf)
    unfold Reader.Drawn
    split
    next => exact ⟨hf.ink, .inl (hf.took _)⟩
    next => trivial
    next t ht => exact h1.kind.2 t ht
    next e hk => exact ⟨fun e' => h1.kind.1 (by rw [hk, e']), ⟨true, he.ink, .inl rfl⟩, .inl (he.took _)⟩

/-- The file is drawn as the document. -/
theorem Pale.read (hs : Sane ini) (h : Pale ini (fun _ => False) f) : Reader.SameRead ini f (onPaper f) :=
  (h.leaves hs ⟨fun _ => .inl rfl, fun _ e => absurd rfl e⟩).picture

/-! ### Changing attributes -/

/-- Attributes are removed, and new ones come that are not inherited (or there is nothing to inherit them). -/
structure Wither (leaf : Bool) (n m : Node) : Prop where
  kind : m.kind = n.kind
  names : (n.attrs.map Attr.name).Nodup → (m.attrs.map Attr.name).Nodup
  attrs : ∀ y ∈ m.attrs, y ∈ n.attrs ∨ y.visible = true ∧ (y.value ≠ .kw .inherit ∧ y.value ≠ .kw .currentColor) ∧ (leaf = true ∨ ∀ a, y.name = .id a → inherits a = false)
  rx : n.kind = .elem .rect → ∀ l, n.get .rx = some (.length l) → m.get .rx = some (.length l)

theorem Wither.refl (b : Bool) (n : Node) : Wither b n n := ⟨rfl, id, fun _ h => .inl h, fun _ _ h => h⟩

theorem Wither.trans {b : Bool} {n m l : Node} (h : Wither b n m) (h' : Wither b m l) : Wither b n l where
  kind := h'.kind.trans h.kind
  names x := h'.names (h.names x)
  attrs y hy := by
    rcases h'.attrs y hy with hy | hy
    · exact h.attrs y hy
    · exact .inr hy
  rx e x hx := h'.rx (h.kind.trans e) x (h.rx e x hx)

theorem Wither.weaken {b : Bool} (h : Wither false n m) : Wither b n m :=
  ⟨h.kind, h.names, fun y hy => (h.attrs y hy).imp id fun ⟨a, c, d⟩ => ⟨a, c, .inr (d.resolve_left (by simp))⟩, h.rx⟩

theorem Wither.rm {b : Bool} (n : Node) {a : AId} (ha : a ≠ .rx) : Wither b n (n.rm a) where
  kind := rfl
  names h := h.sublist (List.filter_sublist.map _)
  attrs y hy := .inl (List.mem_filter.1 hy).1
  rx _ _ h := by rw [← h, Node.get_rm, if_neg (fun e => ha e.symm)]

theorem Wither.set {b : Bool} (n : Node) {a : AId} {v : Value} (ha : a ≠ .rx) (hv : v ≠ .kw .inherit ∧ v ≠ .kw .currentColor) (hb : b = true ∨ inherits a = false) :
    Wither b n (n.set a v) where
  kind := rfl
  names h := ResolveUse.set_names h _ _
  attrs y hy := by
    rcases Node.mem_putAttr hy with rfl | hy
    · exact .inr ⟨rfl, hv, hb.imp id fun h c e => by injection e with e; rw [← e]; exact h⟩
    · exact .inl hy
  rx _ _ h := by rw [← h, Node.get_set, if_neg (fun e => ha e.symm)]

theorem Wither.filter {b : Bool} (n : Node) (q : Attr → Bool) (h : ∀ y l, y.value = .length l → q y = true) : Wither b n { n with attrs := n.attrs.filter q } where
  kind := rfl
  names h := h.sublist (List.filter_sublist.map _)
  attrs y hy := .inl (List.mem_filter.1 hy).1
  rx _ l e := by
    unfold Node.get getAttr at e ⊢
    obtain ⟨y, hy, hl⟩ := Option.map_eq_some_iff.1 e
    simp only
    rw [List.find?_filter]
    generalize n.attrs = as at hy
    rw [Option.map_eq_some_iff]
    refine ⟨y, ?_, hl⟩
    induction as with
    | nil => cases hy
    | cons z t ih =>
      rw [List.find?_cons] at hy ⊢
      by_cases hz : decide (z.name = .id .rx) = true
      · rw [hz] at hy
        cases hy
        rw [hz, h y l hl]
        rfl
      · rw [Bool.not_eq_true] at hz
        rw [hz] at hy
        rw [hz, decide_eq_false (by simp)]
        exact ih hy

theorem Wither.unlink {b : Bool} (n : Node) (s : Nat → Bool) : Wither b n (n.unlink s) := .filter n _ fun y l e => by rw [e]; rfl

theorem Wither.rmAll {b : Bool} (n : Node) (l : List AId) (ha : ∀ a ∈ l, a ≠ .rx) : Wither b n (Needless.rmAll n l) := by
  unfold Needless.rmAll
  induction l generalizing n with
  | nil => exact .refl b n
  | cons a l ih =>
    rw [List.foldl_cons]
    exact (Wither.rm n (ha a List.mem_cons_self)).trans (ih (n.rm a) fun c hc => ha c (List.mem_cons_of_mem _ hc))

theorem Mute.mono {y : Attr} (h : Mute ini n y) (hk : m.kind = n.kind) (hr : n.kind = .elem .rect → ∀ l, n.get .rx = some (.length l) → m.get .rx = some (.length l)) : Mute ini m y := by
  obtain ⟨h1, a, e, h2, h3, h4, h5⟩ := h
  refine ⟨h1, a, e, h2, by rw [hk]; exact h3, h4, ?_⟩
  rcases h5 with h5 | h5 | ⟨rfl, rfl, h6, h7⟩
  · exact .inl h5
  · exact .inr (.inl h5)
  · obtain ⟨l, h7, h8⟩ := h7
    exact .inr (.inr ⟨rfl, rfl, (hr h3 l (h6.trans (by rw [h7]))).trans (by rw [h7]), l, h7, h8⟩)

theorem Wither.loc {b : Bool} (h : Wither b n m) (hn : Local ini n) : Local ini m where
  names := h.names hn.names
  kind := by rw [h.kind]; exact hn.kind
  values y hy := (h.attrs y hy).elim (hn.values y) fun h => h.2.1
  mute y hy hv := (h.attrs y hy).elim (fun hy => (hn.mute y hy hv).mono h.kind h.rx) fun h => by rw [h.1] at hv; cases hv

theorem Wither.hid {b : Bool} (h : Wither b n m) {a : AId} (ha : Hid m a) : Hid n a := by
  obtain ⟨hi, y, hy, hn, hv⟩ := ha
  rcases h.attrs y hy with hy | hy
  · exact ⟨hi, y, hy, hn, hv⟩
  · rw [hy.1] at hv; cases hv

theorem Wither.vis (h : Wither false n m) {a : AId} (ha : Vis m a) : Vis n a := by
  obtain ⟨hi, y, hy, hn, hv⟩ := ha
  rcases h.attrs y hy with hy | ⟨_, _, h⟩
  · exact ⟨hi, y, hy, hn, hv⟩
  · rw [h.resolve_left (by simp) a hn] at hi; cases hi

theorem Pale.along (hf : Pale ini V f) (h : Along (Wither false) f g) : Pale ini V g := by
  induction h generalizing V with
  | nil => trivial
  | @cons n m k k' r r' hn hk hr ih1 ih2 =>
    obtain ⟨⟨h1, h2, h3⟩, h4, h5⟩ := hf
    refine ⟨⟨hn.loc h1, fun a ha hh => h2 a ha (hn.hid hh), fun e => ?_⟩, (ih1 h4).mono fun a ha => ha.imp id hn.vis, ih2 h5⟩
    rw [hn.kind] at e
    have := h3 e
    subst this
    cases hk
    rfl

/-! ### Drawings where nothing is hidden -/

theorem Apt.text_nil {b : Stage} {o : CleaningOptions} (h : Apt ini b o f) {p : Kind} {k : Forest} (hx : (p, n, k) ∈ spots doc f) (hn : isElem n.kind = false) : k = .nil := by
  cases k with
  | nil => rfl
  | cons c kc r =>
    exfalso
    have hc : (n.kind, c, kc) ∈ spots doc f := by
      have : ∀ {q : Kind} {g : Forest}, (p, n, Forest.cons c kc r) ∈ spots q g → (n.kind, c, kc) ∈ spots q g := by
        intro q g
        induction g generalizing q with
        | nil => intro h; cases h
        | cons a b d ih1 ih2 =>
          intro h
          simp only [spots, List.mem_cons, List.mem_append] at h ⊢
          rcases h with h | h | h
          · cases h
            exact .inr (.inl (by simp [spots]))
          · exact .inr (.inl (ih1 h))
          · exact .inr (.inr (ih2 h))
      exact this hx
    have := (h.sketch.nodes _ hc).place
    have hp := (h.sketch.nodes _ hx).place
    dsimp only at this hp
    have hk := h.kind (spots_nodes hx).1
    dsimp only at hk
    cases e : n.kind with
    | elem c => rw [e] at hn; cases hn
    | other t => rw [e] at hk; exact hk
    | text s => rw [e] at this; cases this
    | comment s => rw [e, fits_comment] at hp; cases hp

theorem pale_of (h : ∀ x ∈ spots doc f, Local ini x.2.1 ∧ (∀ a, ¬ Hid x.2.1 a) ∧ (isElem x.2.1.kind = false → x.2.2 = .nil)) : Pale ini V f := by
  have : ∀ (p : Kind) (f : Forest) (V : AId → Prop), (∀ x ∈ spots p f, Local ini x.2.1 ∧ (∀ a, ¬ Hid x.2.1 a) ∧ (isElem x.2.1.kind = false → x.2.2 = .nil)) → Pale ini V f := by
    intro p f
    induction f generalizing p with
    | nil => intros; trivial
    | cons n k r ih1 ih2 =>
      intro V h
      obtain ⟨h1, h2, h3⟩ := h (p, n, k) (by simp [spots])
      exact ⟨⟨h1, fun a _ => h2 a, h3⟩, ih1 n.kind _ fun x hx => h x (by simp [spots, hx]), ih2 p _ fun x hx => h x (by simp [spots, hx])⟩
  exact this doc f V h

theorem Apt.pale {b : Stage} (hb : b ≠ .late) {o : CleaningOptions} (h : Apt ini b o f) : Pale ini V f := by
  refine pale_of fun x hx => ?_
  have hn := (spots_nodes hx).1
  have hv : ∀ y ∈ x.2.1.attrs, y.visible = true := fun y hy => (attr_apt (h.attr hn hy)).shown hb
  have hs := h.simple hn
  refine ⟨⟨hs.names, hs.kind, hs.values, fun y hy e => (by rw [hv y hy] at e; cases e)⟩, fun a ⟨_, y, hy, _, e⟩ => (by rw [hv y hy] at e; cases e), fun e => h.text_nil hx e⟩

end

end Verif.Whole
