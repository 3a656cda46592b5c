import Verif.WholePaleGroups
/-
C71: groups are made, as far as hidden attributes are concerned.
-/
namespace Verif.Whole
open Verif.Dom Verif.Spec Verif.Render Verif.Draft
open Verif.GroupStyle
open Verif.Needless (rmAll)
open Verif.Cli (CleaningOptions)
open Verif.Pipeline (Along)

section
variable {ini : AId → Option Value} {V W : AId → Prop} {f g t : Forest} {n m p p' : Node} {A : List Attr}

/-- Attributes that can be moved to a group. -/
structure Loose (A : List Attr) : Prop where
  shown : ∀ x ∈ A, x.visible = true
  plain : ∀ x ∈ A, x.value ≠ .kw .inherit ∧ x.value ≠ .kw .currentColor
  ids : ∀ x ∈ A, ∃ a, x.name = .id a
  rx : ∀ x ∈ A, x.name ≠ .id .rx

/-- The properties among the attributes. -/
def Among (A : List Attr) (a : AId) : Prop := inherits a = true ∧ ∃ x ∈ A, x.name = .id a

/-- A node that has been given the attributes. -/
structure Laden (A : List Attr) (p q : Node) : Prop where
  kind : q.kind = p.kind
  names : (p.attrs.map Attr.name).Nodup → (q.attrs.map Attr.name).Nodup
  attrs : ∀ y ∈ q.attrs, y ∈ p.attrs ∨ y ∈ A ∨ y.visible = true ∧ (y.value ≠ .kw .inherit ∧ y.value ≠ .kw .currentColor) ∧ ∀ a, y.name = .id a → inherits a = false

theorem setOn_laden {x : Attr} (hp : ∀ y ∈ p.attrs, y.name = .id .transform → y.visible = true ∧ y.value ≠ .kw .inherit ∧ y.value ≠ .kw .currentColor) (h : setOn p x = some p') : Laden [x] p p' := by
  unfold setOn at h
  split at h
  · cases h
    unfold appendValue
    split
    next s =>
      refine ⟨rfl, fun h => by rw [Ungroup.modValue_names]; exact h, fun y hy => ?_⟩
      obtain ⟨z, hz, rfl⟩ := List.mem_map.1 hy
      by_cases hzn : z.name = .id .transform
      · rw [if_pos hzn]
        refine .inr (.inr ⟨(hp z hz hzn).1, ?_, fun a ha => ?_⟩)
        · dsimp only
          have := (hp z hz hzn).2
          unfold appendTo
          split
          · exact ⟨by simp, by simp⟩
          · exact this
        · dsimp only at ha
          rw [hzn] at ha
          injection ha with ha
          subst ha
          rfl
      · rw [if_neg hzn]
        exact .inl hz
    next => exact ⟨rfl, id, fun y hy => .inl hy⟩
  · unfold Ungroup.copyAttr at h
    split at h
    · cases h
    · cases h
      refine ⟨rfl, Ungroup.putAttr_names _ _, fun y hy => ?_⟩
      rcases Node.mem_putAttr hy with rfl | hy
      · exact .inr (.inl (List.mem_singleton.2 rfl))
      · exact .inl hy

theorem setAll_laden (hp : ∀ y ∈ p.attrs, y.name = .id .transform → y.visible = true ∧ y.value ≠ .kw .inherit ∧ y.value ≠ .kw .currentColor) (hA : Loose A) (h : setAll A p = some p') : Laden A p p' := by
  induction A generalizing p with
  | nil => cases h; exact ⟨rfl, id, fun y hy => .inl hy⟩
  | cons x t ih =>
    obtain ⟨q, h1, h2⟩ := Option.bind_eq_some_iff.1 h
    have l1 := setOn_laden hp h1
    have hx := List.mem_cons_self (a := x) (l := t)
    have hq : ∀ y ∈ q.attrs, y.name = .id .transform → y.visible = true ∧ y.value ≠ .kw .inherit ∧ y.value ≠ .kw .currentColor := fun y hy e => by
      rcases l1.attrs y hy with hy | hy | hy
      · exact hp y hy e
      · rw [List.mem_singleton.1 hy]; exact ⟨hA.shown x hx, hA.plain x hx⟩
      · exact ⟨hy.1, hy.2.1⟩
    have l2 := ih hq ⟨fun y hy => hA.shown y (List.mem_cons_of_mem _ hy), fun y hy => hA.plain y (List.mem_cons_of_mem _ hy), fun y hy => hA.ids y (List.mem_cons_of_mem _ hy),
      fun y hy => hA.rx y (List.mem_cons_of_mem _ hy)⟩ h2
    refine ⟨l2.kind.trans l1.kind, fun h => l2.names (l1.names h), fun y hy => ?_⟩
    rcases l2.attrs y hy with hy | hy | hy
    · rcases l1.attrs y hy with hy | hy | hy
      · exact .inl hy
      · rw [List.mem_singleton.1 hy]; exact .inr (.inl hx)
      · exact .inr (.inr hy)
    · exact .inr (.inl (List.mem_cons_of_mem _ hy))
    · exact .inr (.inr hy)

theorem Laden.loc (h : Laden A p p') (hA : Loose A) (hk : p.kind ≠ .elem .rect) (hp : Local ini p) : Local ini p' where
  names := h.names hp.names
  kind := by rw [h.kind]; exact hp.kind
  values y hy := by
    rcases h.attrs y hy with hy | hy | hy
    · exact hp.values y hy
    · exact hA.plain y hy
    · exact hy.2.1
  mute y hy hv := by
    rcases h.attrs y hy with hy | hy | hy
    · exact (hp.mute y hy hv).mono h.kind fun e => absurd e hk
    · rw [hA.shown y hy] at hv; cases hv
    · rw [hy.1] at hv; cases hv

theorem Laden.hid (h : Laden A p p') (hA : Loose A) {a : AId} (ha : Hid p' a) : Hid p a := by
  obtain ⟨hi, y, hy, hn, hv⟩ := ha
  rcases h.attrs y hy with hy | hy | hy
  · exact ⟨hi, y, hy, hn, hv⟩
  · rw [hA.shown y hy] at hv; cases hv
  · rw [hy.1] at hv; cases hv

theorem Laden.vis (h : Laden A p p') {a : AId} (ha : Vis p' a) : Vis p a ∨ Among A a := by
  obtain ⟨hi, y, hy, hn, hv⟩ := ha
  rcases h.attrs y hy with hy | hy | hy
  · exact .inl ⟨hi, y, hy, hn, hv⟩
  · exact .inr ⟨hi, y, hy, hn⟩
  · rw [hy.2.2 a hn] at hi; cases hi

theorem Local.transform (h : Local ini n) : ∀ y ∈ n.attrs, y.name = .id .transform → y.visible = true ∧ y.value ≠ .kw .inherit ∧ y.value ≠ .kw .currentColor :=
  fun _ hy e => ⟨h.no_transform hy e, h.values _ hy⟩

theorem newG_local (k : Nat) : Local ini (newG k) := ⟨List.nodup_nil, ⟨by simp [newG], by simp [newG]⟩, fun y hy => (by cases hy), fun y hy => (by cases hy)⟩

theorem newG_laden {k : Nat} (hA : Loose A) (h : setAll A (newG k) = some n) : Local ini n ∧ (∀ a, ¬ Hid n a) ∧ (∀ a, Vis n a → Among A a) ∧ n.kind = .elem .g := by
  have l := setAll_laden (fun y hy => by cases hy) hA h
  refine ⟨l.loc hA (by simp [newG]) (newG_local k), fun a ha => ?_, fun a ha => ?_, l.kind⟩
  · obtain ⟨_, y, hy, _⟩ := l.hid hA ha
    cases hy
  · rcases l.vis ha with ⟨_, y, hy, _⟩ | ha
    · cases hy
    · exact ha

/-! ### Moving nodes -/

theorem rmAll_wither (hA : Loose A) : Wither false n (rmAll n (ids A)) := .rmAll n _ fun a ha e => by
  obtain ⟨x, hx, hn⟩ := mem_ids.1 ha
  exact hA.rx x hx (by rw [hn, e])

theorem rmAll_pale (hA : Loose A) {k : Forest} (hx : ∀ x ∈ A, x ∈ n.attrs) (h : Pale ini W (.cons n k t)) : Pale ini (fun a => W a ∨ Among A a) (.cons (rmAll n (ids A)) k .nil) := by
  obtain ⟨⟨h1, h2, h3⟩, h4, _⟩ := h
  have w : Wither false n (rmAll n (ids A)) := rmAll_wither hA
  refine ⟨⟨w.loc h1, fun a ha hh => ?_, fun e => h3 (by rw [← w.kind]; exact e)⟩, h4.mono fun a ha => ?_, trivial⟩
  · rcases ha with ha | ⟨_, x, hxA, hxn⟩
    · exact h2 a ha (w.hid hh)
    · obtain ⟨_, y, hy, hyn, _⟩ := hh
      exact ((rmAll_mem h1.names).1 hy).2 a (mem_ids.2 ⟨x, hxA, hxn⟩) hyn
  · rcases ha with (ha | ⟨hi, x, hxA, hxn⟩) | ha
    · exact .inl ha
    · exact .inr ⟨hi, x, hx x hxA, hxn, hA.shown x hxA⟩
    · exact .inr (w.vis ha)

theorem pick_pale (hA : Loose A) {i j m : Nat} (hr : InRange (fun n => ∀ x ∈ A, x ∈ n.attrs) i j m t) (h : Pale ini W t) : Pale ini (fun a => W a ∨ Among A a) (pick (ids A) i j m t) := by
  induction t generalizing m with
  | nil => trivial
  | cons n k r _ ih =>
    rw [pick]
    unfold InRange at hr
    split
    next e =>
      rw [if_pos e] at hr
      split
      next e' =>
        obtain ⟨a, b, _⟩ := rmAll_pale hA (hr.1 e') h
        exact ⟨a, b, ih hr.2 h.2.2⟩
      next => exact ih hr.2 h.2.2
    next e =>
      rw [if_neg e] at hr
      exact ih hr h.2.2

theorem place_pale {K : Forest} {i j m : Nat} (hn : Pale ini W (.cons n K .nil)) (h : Pale ini W t) : Pale ini W (place n K i j m t) := by
  induction t generalizing m with
  | nil => trivial
  | cons a k r _ ih =>
    obtain ⟨h1, h2, h3⟩ := h
    rw [place]
    split
    · split
      · exact ⟨hn.1, hn.2.1, ih h3⟩
      · split
        · exact ih h3
        · exact ⟨h1, h2, ih h3⟩
    · exact ⟨h1, h2, ih h3⟩

theorem nonSvg_pale (h : Pale ini W t) : Pale ini V (nonSvg t) := by
  induction t with
  | nil => trivial
  | cons n k r _ ih =>
    obtain ⟨⟨h1, h2, h3⟩, h4, h5⟩ := h
    rw [nonSvg]
    split
    · exact ih h5
    next e =>
      have he : isElem n.kind = false := by rw [Bool.not_eq_true] at e; exact e
      have hk := h3 he
      subst hk
      refine ⟨⟨h1, fun a _ ⟨_, y, hy, _, hv⟩ => ?_, fun _ => rfl⟩, trivial, ih h5⟩
      obtain ⟨_, a, c, _, hc, _⟩ := h1.mute y hy hv
      rw [hc] at he
      cases he

/-! ### The rows -/

/-- The row says the truth about the nodes. -/
structure RowOn (d : Row) (t : Forest) : Prop where
  wanted : ∀ x ∈ d.attrs, x.visible = true ∧ ∃ a, x.name = .id a ∧ a ≠ .rx
  length : d.flags.length = (svgTop t).length
  nodes : ∀ (i : Nat) (n : Node), d.flags[i]? = some true → (svgTop t)[i]? = some n → ∀ x ∈ d.attrs, x ∈ n.attrs

theorem row_on {anc : List Node} {rows : List Row} {t : Forest} (h : TableOk anc (svgTop t) rows) {d : Row} (hd : d ∈ rows) : RowOn d t where
  wanted x hx := by
    obtain ⟨n, _, hw⟩ := (h.rows d hd).wanted x hx
    refine ⟨(by unfold wants at hw; exact (Bool.and_eq_true_iff.1 hw).1), ?_⟩
    obtain ⟨a, ha, hc⟩ := wants_spec hw
    refine ⟨a, ha, ?_⟩
    rintro rfl
    rcases hc with ⟨h, _⟩ | ⟨_, h⟩
    · cases h
    · cases h
  length := (h.rows d hd).length
  nodes := (h.rows d hd).sound

theorem svgTop_local (h : Pale ini W t) (hn : n ∈ svgTop t) : Local ini n := by
  induction t with
  | nil => cases hn
  | cons m k r _ ih =>
    rw [GroupStyle.svgTop_cons] at hn
    split at hn
    · rcases List.mem_cons.1 hn with rfl | hn
      · exact h.1.1
      · exact ih h.2.2 hn
    · exact ih h.2.2 hn

theorem RowOn.loose {d : Row} (h : RowOn d t) (hp : Pale ini W t) {i : Nat} (hi : d.flags[i]? = some true) : Loose d.attrs := by
  refine ⟨fun x hx => (h.wanted x hx).1, fun x hx => ?_, fun x hx => ?_, fun x hx e => ?_⟩
  · have hl : i < (svgTop t).length := by
      rw [← h.length]
      exact (List.getElem?_eq_some_iff.1 hi).1
    exact (svgTop_local hp (List.getElem_mem hl)).values x (h.nodes i _ hi (List.getElem?_eq_getElem hl) x hx)
  · obtain ⟨_, a, ha, _⟩ := h.wanted x hx
    exact ⟨a, ha⟩
  · obtain ⟨_, a, ha, hne⟩ := h.wanted x hx
    rw [e] at ha
    injection ha with ha
    exact hne ha.symm

theorem wrapRow_pale {d : Row} {fresh fr : Nat} (h : wrapRow d t fresh = some (g, fr)) (hd : RowOn d t) (hp : Pale ini W t) : Pale ini W g := by
  unfold wrapRow at h
  obtain ⟨⟨i, j⟩, hl, h⟩ := Option.bind_eq_some_iff.1 h
  obtain ⟨n, hn, h⟩ := Option.map_eq_some_iff.1 h
  cases h
  obtain ⟨hij, hfl⟩ := longestRange_spec hl
  have hA := hd.loose hp (hfl i (Nat.le_refl i) hij)
  obtain ⟨l1, l2, l3, l4⟩ := newG_laden (ini := ini) hA hn
  refine place_pale ⟨⟨l1, fun a _ => l2 a, fun e => ?_⟩, (pick_pale hA (inRange_of fun idx n hx h1 h2 => ?_) hp).mono fun a ha => ha.imp id (l3 a), trivial⟩ hp
  · rw [l4] at e; cases e
  · exact hd.nodes idx n (hfl idx (by omega) (by omega)) hx

theorem wrapFirst_pale {rows : List Row} {fresh fr : Nat} (h : wrapFirst rows t fresh = some (g, fr)) (hd : ∀ d ∈ rows, RowOn d t) (hp : Pale ini W t) : Pale ini W g := by
  unfold wrapFirst at h
  split at h
  · cases h; exact hp
  · exact wrapRow_pale h (hd _ List.mem_cons_self) hp

theorem row_next {anc : List Node} {d : Row} {ds : List Row} {t : Forest} (h : TableOk anc (svgTop t) (d :: ds))
    (hl : ∀ n ∈ svgTop t, (n.attrs.map Attr.name).Nodup) (hall : ∀ n ∈ svgTop t, ∀ x ∈ d.attrs, x ∈ n.attrs) {e : Row} (he : e ∈ ds) (hne : 0 < (svgTop t).length) :
    RowOn e (pick (ids d.attrs) 0 ((svgTop t).length - 1) 0 t) := by
  have hr := row_on h (List.mem_cons_of_mem d he)
  have e0 := svgTop_pick (ids d.attrs) (i := 0) (j := (svgTop t).length - 1) (m := 0) (t := t) (Nat.le_refl 0) (by omega)
  refine ⟨hr.wanted, by rw [e0, List.length_map]; exact hr.length, fun i n hi hn x hx => ?_⟩
  rw [e0, List.getElem?_map] at hn
  simp only [Option.map_eq_some_iff] at hn
  obtain ⟨n0, hn0, rfl⟩ := hn
  have hm := List.mem_of_getElem? hn0
  have hxn := hr.nodes i n0 hi hn0 x hx
  rw [rmAll_mem (hl n0 hm)]
  refine ⟨hxn, fun a ha e1 => ?_⟩
  obtain ⟨y, hy, e2⟩ := mem_ids.1 ha
  have h1 := GradUnits.getAttr_of_mem (hl n0 hm) hxn
  have h2 := GradUnits.getAttr_of_mem (hl n0 hm) (hall n0 hm y hy)
  rw [e1] at h1
  rw [e2, h1] at h2
  have hxy : x = y := Option.some.inj h2
  have hnd := h.nodup
  rw [List.flatMap_cons, List.nodup_append] at hnd
  exact hnd.2.2 y hy x (List.mem_flatMap.2 ⟨e, he, hx⟩) hxy.symm

theorem regroup_pale {used : Nat → Bool} {anc : List Node} {p p' : Node} {k k' : Forest} {fresh fr : Nat} (h : regroup used anc p k fresh = some (p', k', fr))
    (hp : Pale ini V (.cons p k .nil)) : Pale ini V (.cons p' k' .nil) := by
  unfold regroup at h
  split at h
  · cases h; exact hp
  next htag =>
    have hpk : p.kind ≠ .elem .rect ∧ isElem p.kind = true := by
      have : p.kind = .elem .svg ∨ p.kind = .elem .g := by
        rw [← Node.isTag_iff, ← Node.isTag_iff]
        cases h1 : p.isTag .svg with
        | true => exact .inl rfl
        | false =>
          cases h2 : p.isTag .g with
          | true => exact .inr rfl
          | false => exact absurd (by rw [h1, h2]; rfl) htag
      rcases this with e | e <;> rw [e] <;> exact ⟨by simp, rfl⟩
    obtain ⟨⟨h1, h2, h3⟩, h4, _⟩ := hp
    have hsp := (splitTail_spec used k).1
    dsimp only at h
    generalize hb : (splitTail used k).1 = b at h hsp
    generalize ht : (splitTail used k).2 = t at h hsp
    have done : ∀ {K : Forest}, Pale ini (fun a => V a ∨ Vis p a) K → Pale ini V (.cons p K .nil) := fun hK => ⟨⟨h1, h2, fun e => by rw [hpk.2] at e; cases e⟩, hK, trivial⟩
    have same := done h4
    rw [hsp] at h4
    obtain ⟨hkb, hkt⟩ := pale_append.1 h4
    split at h
    · cases h; exact same
    next hlen =>
      have htab := table_ok (p :: anc) (svgTop t)
      split at h
      · cases h; exact same
      next d ds htd =>
        rw [htd] at htab
        have hrow := row_on htab List.mem_cons_self
        split at h
        next hcount =>
          have hfl : ∀ i, i < (svgTop t).length → d.flags[i]? = some true := fun i hi => all_true (by rw [hcount, hrow.length]) i (by rw [hrow.length]; exact hi)
          have hall : ∀ n ∈ svgTop t, ∀ x ∈ d.attrs, x ∈ n.attrs := by
            intro n hn
            obtain ⟨i, hi, e⟩ := List.getElem_of_mem hn
            exact hrow.nodes i n (hfl i hi) (by rw [List.getElem?_eq_getElem hi, e])
          have hA := hrow.loose hkt (hfl 0 (by omega))
          have hnext : ∀ e ∈ ds, RowOn e (pick (ids d.attrs) 0 ((svgTop t).length - 1) 0 t) := fun e he =>
            row_next htab (fun n hn => (svgTop_local hkt hn).names) hall he (by omega)
          have hpick := pick_pale hA (inRange_of (i := 0) (j := (svgTop t).length - 1) (m := 0) (f := t) fun idx n hx _ _ => hall n (List.mem_of_getElem? hx)) hkt
          split at h
          · obtain ⟨q, hq, h⟩ := Option.bind_eq_some_iff.1 h
            obtain ⟨⟨x1, x2⟩, hx, h⟩ := Option.map_eq_some_iff.1 h
            cases h
            have l := setAll_laden h1.transform hA hq
            refine ⟨⟨l.loc hA hpk.1 h1, fun a ha hh => h2 a ha (l.hid hA hh), fun e => ?_⟩, pale_append.2 ⟨nonSvg_pale hkt, (wrapFirst_pale hx hnext hpick).mono fun a ha => ?_⟩, trivial⟩
            · rw [l.kind, hpk.2] at e; cases e
            · rcases ha with ha | ha
              · exact .inl (.inl ha)
              · rcases l.vis ha with ha | ha
                · exact .inl (.inr ha)
                · exact .inr ha
          · obtain ⟨q, hq, h⟩ := Option.bind_eq_some_iff.1 h
            obtain ⟨⟨x1, x2⟩, hx, h⟩ := Option.map_eq_some_iff.1 h
            cases h
            obtain ⟨l1, l2, l3, l4⟩ := newG_laden (ini := ini) hA hq
            refine done (pale_append.2 ⟨hkb, place_pale ⟨⟨l1, fun a _ => l2 a, fun e => ?_⟩, (wrapFirst_pale hx hnext hpick).mono fun a ha => ha.imp id (l3 a), trivial⟩ hkt⟩)
            rw [l4] at e; cases e
        · obtain ⟨⟨x1, x2⟩, hx, h⟩ := Option.map_eq_some_iff.1 h
          cases h
          exact done (pale_append.2 ⟨hkb, wrapRow_pale hx hrow hkt⟩)

theorem groupKids_pale {used : Nat → Bool} {anc : List Node} {fresh fr : Nat} (h : groupKids used anc f fresh = some (g, fr)) (hf : Pale ini V f) : Pale ini V g := by
  induction f generalizing anc fresh g fr V with
  | nil => cases h; trivial
  | cons n k r ih1 ih2 =>
    obtain ⟨h1, h2, h3⟩ := hf
    rw [groupKids] at h
    obtain ⟨⟨y1, y2, y3⟩, hy, h⟩ := Option.bind_eq_some_iff.1 h
    obtain ⟨⟨z1, z2⟩, hz, h⟩ := Option.map_eq_some_iff.1 h
    cases h
    have hr := ih2 hz h3
    split at hy
    next e =>
      obtain ⟨⟨x1, x2⟩, hx, hy⟩ := Option.bind_eq_some_iff.1 hy
      have he : isElem n.kind = true := (Bool.and_eq_true_iff.1 (Bool.and_eq_true_iff.1 e).1).1
      obtain ⟨a, b, _⟩ := regroup_pale hy (V := V) ⟨⟨h1.1, h1.2.1, fun e => by rw [he] at e; cases e⟩, ih1 hx h2, trivial⟩
      exact ⟨a, b, hr⟩
    · cases hy
      exact ⟨h1, h2, hr⟩

theorem Pale.byStyle (hf : Pale ini V f) (h : groupByStyle f = some g) : Pale ini V g := by
  unfold groupByStyle at h
  obtain ⟨⟨s, k⟩, hs, h⟩ := Option.bind_eq_some_iff.1 h
  obtain ⟨⟨k1, a⟩, hk, h⟩ := Option.bind_eq_some_iff.1 h
  obtain ⟨⟨s', k', b⟩, hr, rfl⟩ := Option.map_eq_some_iff.1 h
  obtain ⟨h1, h2, _⟩ := hf.svg hs
  refine hf.setSvg (regroup_pale hr ⟨⟨h1.1, h1.2.1, fun e => ?_⟩, groupKids_pale hk h2, trivial⟩)
  rw [(svg_subs hs).2.2] at e; cases e

end

end Verif.Whole
