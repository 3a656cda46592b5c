import Verif.CrashEnd
import Verif.RoundDocProps
/-
C53: rounding keeps what the other tasks need.
-/
namespace Verif.Crash
open Verif.Dom Verif.Spec
open Verif.Dom (Res)
open Verif.Pipeline
open Verif.Cli (CleaningOptions)

variable {C : Ctx}

theorem length_nums {p : Nat} {l l' : List ℚ} (h : Round.nums p l = some l') : l'.length = l.length := by
  induction l generalizing l' with
  | nil => cases h; rfl
  | cons q t ih =>
    rw [Round.nums] at h
    obtain ⟨q', _, h⟩ := Option.bind_eq_some_iff.1 h
    obtain ⟨t', ht, h⟩ := Option.map_eq_some_iff.1 h
    cases h
    simp [ih ht]

theorem move_round {p : Nat} {d d' : Paths.Path} (h : Round.path p d = some d') (hd : d = [] ∨ Paths.StartsWithMove d) : d' = [] ∨ Paths.StartsWithMove d' := by
  have key : ∀ pow, d' = Round.roundPath pow d → d' = [] ∨ Paths.StartsWithMove d' := by
    rintro pow rfl
    rcases hd with rfl | ⟨b, x, y, t, rfl⟩
    · exact .inl rfl
    · exact .inr ⟨b, _, _, _, rfl⟩
  unfold Round.path at h
  split at h
  · split at h
    · split at h
      · cases h; exact .inl rfl
      · cases h
    · cases h; exact key _ rfl
  · split at h
    · cases h; exact .inl rfl
    · cases h

theorem GradAttr.same {n : Node} {a : AName} {v v' : Value} (h : GradAttr C n a v) (hv : v'.target = none) (h1 : a = .id .gradientTransform → ∃ t, v' = .transform t)
    (h2 : a ≠ .id .stopColor) (h3 : a = .id .stopOpacity → ∃ q, v' = .number q) (h4 : a ≠ .id .xlinkHref) (h5 : a ≠ .id .display) : GradAttr C n a v' :=
  ⟨h1, fun e => absurd e h2, h3, fun _ e => absurd e h4, fun _ k e => (by rw [hv] at e; cases e), fun _ e => absurd e h5, fun _ => hv⟩

theorem AttrOk.round {o : Round.Precisions} {n : Node} {a : AId} {v v' : Value} (h : Round.value o a v = some v') (ha : AttrOk C n (.id a) v) :
    AttrOk C n (.id a) v' ∧ (v' = v ∨ v'.target = none) := by
  have same : some v = some v' → AttrOk C n (.id a) v' ∧ (v' = v ∨ v'.target = none) := fun e => by cases e; exact ⟨ha, .inl rfl⟩
  unfold Round.value at h
  by_cases h1 : Round.isCoord a = true
  · rw [if_pos h1] at h
    have hf : freeName (.id a) = true := by cases a <;> first | rfl | cases h1
    split at h
    · obtain ⟨l, _, rfl⟩ := Option.map_eq_some_iff.1 h
      exact ⟨AttrOk.free hf rfl, .inr rfl⟩
    · obtain ⟨l, _, rfl⟩ := Option.map_eq_some_iff.1 h
      exact ⟨AttrOk.free hf rfl, .inr rfl⟩
    · exact same h
  rw [if_neg h1] at h
  by_cases h2 : Round.isProp a = true
  · rw [if_pos h2] at h
    split at h
    · obtain ⟨q, _, rfl⟩ := Option.map_eq_some_iff.1 h
      refine ⟨⟨ha.grad.same rfl ?_ ?_ (fun _ => ⟨q, rfl⟩) ?_ ?_, ?_, fun _ => ⟨q, rfl⟩, ?_, ?_, ?_, fun k e => by cases e⟩, .inr rfl⟩ <;> (intro e; cases e; cases h2)
    · obtain ⟨q, _, rfl⟩ := Option.map_eq_some_iff.1 h
      refine ⟨⟨ha.grad.same rfl ?_ ?_ (fun e => ?_) ?_ ?_, ?_, fun e => ?_, ?_, ?_, ?_, fun k e => by cases e⟩, .inr rfl⟩
      · intro e; cases e; cases h2
      · intro e; cases e; cases h2
      · obtain ⟨x, hx⟩ := ha.grad.opacity e; cases hx
      · intro e; cases e; cases h2
      · intro e; cases e; cases h2
      · intro e; cases e; cases h2
      · obtain ⟨x, hx⟩ := ha.opacity e; cases hx
      all_goals (intro e; cases e; cases h2)
    · exact same h
  rw [if_neg h2] at h
  by_cases h3 : Round.isTs a = true
  · rw [if_pos h3] at h
    split at h
    · obtain ⟨t, _, rfl⟩ := Option.map_eq_some_iff.1 h
      refine ⟨⟨ha.grad.same rfl (fun _ => ⟨t, rfl⟩) ?_ ?_ ?_ ?_, fun e => ⟨(ha.transform e).1, t, rfl⟩, ?_, ?_, ?_, ?_, fun k e => by cases e⟩, .inr rfl⟩ <;> (intro e; cases e; cases h3)
    · exact same h
  rw [if_neg h3] at h
  by_cases h4 : a = .d
  · rw [if_pos h4] at h
    subst h4
    split at h
    · obtain ⟨d, hd, rfl⟩ := Option.map_eq_some_iff.1 h
      refine ⟨⟨ha.grad.same rfl ?_ ?_ ?_ ?_ ?_, ?_, ?_, ?_, fun e => ?_, ?_, fun k e => by cases e⟩, .inr rfl⟩
      · intro e; cases e
      · intro e; cases e
      · intro e; cases e
      · intro e; cases e
      · intro e; cases e
      · intro e; cases e
      · intro e; cases e
      · intro e; cases e
      · obtain ⟨p1, p2, p3⟩ := ha.d rfl
        exact ⟨p1, p2, fun p e => by cases e; exact move_round hd (p3 _ rfl)⟩
      · intro e; cases e
    · exact same h
  rw [if_neg h4] at h
  by_cases h5 : (a = .viewBox || a = .points) = true
  · rw [if_pos h5] at h
    split at h
    · obtain ⟨l, hl, rfl⟩ := Option.map_eq_some_iff.1 h
      have := length_nums hl
      refine ⟨⟨ha.grad.same rfl ?_ ?_ ?_ ?_ ?_, ?_, ?_, fun e => ?_, ?_, ?_, fun k e => by cases e⟩, .inr rfl⟩
      · intro e; cases e; simp at h5
      · intro e; cases e; simp at h5
      · intro e; cases e; simp at h5
      · intro e; cases e; simp at h5
      · intro e; cases e; simp at h5
      · intro e; cases e; simp at h5
      · intro e; cases e; simp at h5
      · obtain ⟨p1, p2, p3⟩ := ha.points e
        refine ⟨p1, p2, fun hk hr l' e => ?_⟩
        cases e
        obtain ⟨q1, q2⟩ := p3 hk hr _ rfl
        rw [this]
        exact ⟨fun e => q1 (by rw [e] at this; exact List.length_eq_zero_iff.1 this.symm), q2⟩
      · intro e; cases e; simp at h5
      · intro e; cases e; simp at h5
    · exact same h
  rw [if_neg h5] at h
  exact same h

theorem names_attrs {o : Round.Precisions} {l l' : List Attr} (h : Round.attrs o l = some l') : l'.map Attr.name = l.map Attr.name := by
  induction l generalizing l' with
  | nil => cases h; rfl
  | cons x t ih =>
    rw [Round.attrs] at h
    obtain ⟨x', hx, h⟩ := Option.bind_eq_some_iff.1 h
    obtain ⟨t', ht, h⟩ := Option.map_eq_some_iff.1 h
    cases h
    have : x'.name = x.name := by
      split at hx
      · obtain ⟨v, _, rfl⟩ := Option.map_eq_some_iff.1 hx; rfl
      · cases hx; rfl
    rw [List.map_cons, List.map_cons, this, ih ht]

theorem has_names {n m : Node} (h : m.attrs.map Attr.name = n.attrs.map Attr.name) (a : AId) : m.has a = n.has a := by
  have : ∀ n : Node, n.has a = true ↔ AName.id a ∈ n.attrs.map Attr.name := fun n => by
    rw [has_iff, List.mem_map]
  rw [Bool.eq_iff_iff, this, this, h]

theorem hrefs_names {n m : Node} (h : m.attrs.map Attr.name = n.attrs.map Attr.name) : hrefs m = hrefs n := by
  have : ∀ l : List Attr, (l.filter fun x => decide (x.name = .id .xlinkHref)).length = ((l.map Attr.name).filter fun x => decide (x = .id .xlinkHref)).length := fun l => by
    rw [List.filter_map, List.length_map]; rfl
  unfold hrefs
  rw [this, this, h]

theorem tame_round {o : Round.Precisions} {n m : Node} (hn : NodeOk C n) (h : Round.node o n = some m) : Tame C n m := by
  unfold Round.node at h
  split at h
  · obtain ⟨as, h', rfl⟩ := Option.map_eq_some_iff.1 h
    replace h := h'
    have key : ∀ (l l' : List Attr), (∀ x ∈ l, AttrOk C n x.name x.value) → Round.attrs o l = some l' →
        ∀ y ∈ l', AttrOk C n y.name y.value ∧ (y.value.target = none ∨ ∃ x ∈ l, x.value = y.value) := by
      intro l
      induction l with
      | nil => intro l' _ e; cases e; simp
      | cons x t ih =>
        intro l' hl e
        rw [Round.attrs] at e
        obtain ⟨x', hx, e⟩ := Option.bind_eq_some_iff.1 e
        obtain ⟨t', ht, e⟩ := Option.map_eq_some_iff.1 e
        cases e
        intro y hy
        rcases List.mem_cons.1 hy with rfl | hy
        · split at hx
          next a ha =>
            obtain ⟨v, hv, rfl⟩ := Option.map_eq_some_iff.1 hx
            have := AttrOk.round (C := C) (n := n) hv (by rw [← ha]; exact hl x (by simp))
            dsimp only
            rw [ha]
            refine ⟨this.1, ?_⟩
            rcases this.2 with e | e
            · exact .inr ⟨x, by simp, e.symm⟩
            · exact .inl e
          next => cases hx; exact ⟨hl _ (by simp), .inr ⟨_, List.mem_cons_self, rfl⟩⟩
        · obtain ⟨q1, q2⟩ := ih t' (fun x hx => hl x (by simp [hx])) ht y hy
          exact ⟨q1, q2.imp id fun ⟨x, hx, e⟩ => ⟨x, by simp [hx], e⟩⟩
    have := key n.attrs as hn.attrs h
    have hnames := names_attrs h
    refine ⟨rfl, rfl, .inl rfl, fun x hx => .inl (Kin.attr (n := n) (m := { n with attrs := as }) rfl (.inl rfl) (this x hx).1), fun k hk => ?_, fun a _ ha => ?_, fun _ _ => ?_, fun _ => ?_⟩
    · obtain ⟨x, hx, e⟩ := Node.mem_links.1 hk
      rcases (this x hx).2 with h' | ⟨y, hy, h'⟩
      · rw [h'] at e; cases e
      · exact Node.mem_links.2 ⟨y, hy, by rw [h']; exact e⟩
    · rw [has_names (m := { n with attrs := as }) (n := n) hnames]; exact ha
    · rw [has_names (m := { n with attrs := as }) (n := n) hnames]
    · exact Nat.le_of_eq (hrefs_names (m := { n with attrs := as }) (n := n) hnames)
  · cases h; exact Tame.refl C n

theorem Inv.round {o : Round.Precisions} {f g : Forest} (hf : Inv C f) (h : Round.roundNumbers o f = some g) : Inv C g :=
  hf.along (along_mapOpt (fun n hn _ e => tame_round (hf.nodes n hn) e) h)

end Verif.Crash
