import Verif.ShadeUnits
/-
C72: applying gradient transforms (C30).
-/
namespace Verif.Shade
open Verif.Dom Verif.Spec Verif.Render Verif.Reader
open Verif.Paths (Transform Pt)
open Verif.ApplyTs (Good put moveGradient gradientBody applyToGradients Viewport Axis)

theorem Looks.valueT {f : Forest} {n : Node} {l : GLook} (_ : Looks f n l) : l.value .gradientTransform = l.attr .gradientTransform := by
  unfold GLook.value GLook.plain centreOf
  have : ∀ k, gradientDefault k .gradientTransform = none := by
    intro k; unfold gradientDefault; split <;> first | rfl | (rename_i h; cases h)
  simp [this]

theorem Looks.coord {f : Forest} {n : Node} {l : GLook} (h : Looks f n l) {a : AId} (h1 : a ≠ .xlinkHref) (h2 : isOwn (.id a) = true) (u : Viewport) (d : Axis) (q : ℚ) :
    ApplyTs.CoordIs u d f n a q ↔ l.Coord u d a q := by
  unfold ApplyTs.CoordIs GLook.Coord
  simp only [h.value h1 h2]

theorem Looks.movedT {f : Forest} {n : Node} {l : GLook} (h : Looks f n l) (T : Transform) : ApplyTs.GTransform f n T ↔ l.Moved T := by
  unfold ApplyTs.GTransform GLook.Moved
  simp only [h.value (a := .gradientTransform) (by decide) (by decide), h.valueT]
  have : (∀ v, ¬ l.attr .gradientTransform = some v) ↔ l.attr .gradientTransform = none := by
    rw [Option.eq_none_iff_forall_not_mem]; rfl
  rw [this]

theorem Looks.offset {f : Forest} {n : Node} {l : GLook} (h : Looks f n l) (u : Viewport) (q : Pt) (t : ℚ) : ApplyTs.ParamAt u f n q t ↔ l.At u q t := by
  unfold ApplyTs.ParamAt GLook.At ApplyTs.Param
  have hk : ∀ e, n.kind = .elem e ↔ l.kind = e := fun e => by rw [h.kind]; simp
  simp only [h.movedT, hk, h.coord (a := .x1) (by decide) (by decide), h.coord (a := .y1) (by decide) (by decide), h.coord (a := .x2) (by decide) (by decide),
    h.coord (a := .y2) (by decide) (by decide), h.coord (a := .cx) (by decide) (by decide), h.coord (a := .cy) (by decide) (by decide),
    h.coord (a := .r) (by decide) (by decide), h.coord (a := .fx) (by decide) (by decide), h.coord (a := .fy) (by decide) (by decide)]

theorem mod_names (n : Node) (a : AId) (g : Value → Value) : (Stops.modValue n a g).attrs.map Attr.name = n.attrs.map Attr.name := by
  unfold Stops.modValue
  show List.map Attr.name (n.attrs.map _) = _
  rw [List.map_map]
  refine List.map_congr_left fun x _ => ?_
  simp only [Function.comp]
  split <;> rfl

theorem rm_names {n : Node} (a : AId) (h : (n.attrs.map Attr.name).Nodup) : ((n.rm a).attrs.map Attr.name).Nodup := by
  show (List.map Attr.name (rmAttr n.attrs (.id a))).Nodup
  unfold rmAttr
  exact h.sublist (List.Sublist.map _ List.filter_sublist)

theorem moved_names {n : Node} (T : Transform) (h : (n.attrs.map Attr.name).Nodup) : ((moveGradient n T).attrs.map Attr.name).Nodup := by
  have hc : ∀ {n : Node} (a b : AId), (n.attrs.map Attr.name).Nodup → ((ApplyTs.transformCoords n a b T).attrs.map Attr.name).Nodup := by
    intro n a b h
    unfold ApplyTs.transformCoords
    exact set_names _ _ (set_names _ _ h)
  unfold moveGradient
  dsimp only
  refine rm_names _ ?_
  split
  · exact hc _ _ (hc _ _ h)
  · split
    · unfold ApplyTs.scaleCoord
      rw [mod_names]
      exact hc _ _ (hc _ _ h)
    · exact hc _ _ (hc _ _ h)

theorem moved_written (n : Node) (T : Transform) (a : AId) (v : Value) (h : written (moveGradient n T) a = some v) :
    a ≠ .gradientTransform ∧ (written n a = some v ∨ (∃ x, v = .length x) ∨ a = .r ∧ ∃ v', written n .r = some v' ∧ v = ApplyTs.scaleLen T.a v') := by
  unfold moveGradient at h
  dsimp only at h
  rw [ApplyTs.written_rm] at h
  have hc : ∀ (n : Node) (a b c : AId), written (ApplyTs.transformCoords n a b T) c = some v → written n c = some v ∨ ∃ x, v = .length x := by
    intro n a b c h
    rw [ApplyTs.written_coords] at h
    split at h
    · cases h; exact .inr ⟨_, rfl⟩
    · split at h
      · cases h; exact .inr ⟨_, rfl⟩
      · exact .inl h
  have hc2 : ∀ (a b c d e : AId), written (ApplyTs.transformCoords (ApplyTs.transformCoords n a b T) c d T) e = some v → written n e = some v ∨ ∃ x, v = .length x := by
    intro a b c d e h
    rcases hc _ _ _ _ h with h | h
    · exact hc _ _ _ _ h
    · exact .inr h
  split at h
  · cases h
  next hne =>
    refine ⟨hne, ?_⟩
    split at h
    · rcases hc2 _ _ _ _ _ h with h | h
      · exact .inl h
      · exact .inr (.inl h)
    · split at h
      · unfold ApplyTs.scaleCoord at h
        rw [ApplyTs.written_mod] at h
        split at h
        next e =>
          subst e
          obtain ⟨v', h1, rfl⟩ := Option.map_eq_some_iff.1 h
          refine .inr (.inr ⟨rfl, v', ?_, rfl⟩)
          rw [ApplyTs.written_coords, ApplyTs.written_coords] at h1
          simpa using h1
        · rcases hc2 _ _ _ _ _ h with h | h
          · exact .inl h
          · exact .inr (.inl h)
      · rcases hc2 _ _ _ _ _ h with h | h
        · exact .inl h
        · exact .inr (.inl h)

theorem body_shape {k : Nat} {f g : Forest} (hu : f.UniqueKeys) (h : gradientBody k f = some g) :
    g = f ∨ ∃ n ∈ f.nodes, n.isGradient = true ∧ ∃ T, g = put f n (moveGradient n T) := by
  unfold gradientBody at h
  cases hn : f.find k with
  | none => rw [hn] at h; cases h; exact .inl rfl
  | some n =>
    rw [hn] at h
    dsimp only at h
    obtain ⟨hmem, rfl⟩ := Forest.find_some hn
    split at h
    next hc =>
      simp only [Bool.and_eq_true] at hc
      split at h
      · cases h; exact .inl rfl
      · split at h
        · cases h; exact .inl rfl
        · cases ht : n.get .gradientTransform with
          | none => rw [ht] at h; cases h
          | some v =>
            rw [ht] at h
            cases v with
            | transform T =>
              simp only at h
              split at h
              · cases h; exact .inl rfl
              · cases h4 : ApplyTs.isValidCoords n (if n.isTag .linearGradient then .linearGradient else .radialGradient)
                · rw [h4] at h; cases h; exact .inl rfl
                · rw [h4] at h
                  simp only [Bool.not_true, Bool.false_eq_true, if_false, Option.some.injEq] at h
                  refine .inr ⟨n, hmem, hc.1, T, ?_⟩
                  rw [← h]
                  unfold Forest.modify put
                  apply Forest.map_congr
                  intro x hx
                  by_cases hxk : x.key = n.key
                  · rw [if_pos hxk, if_pos hxk, Forest.eq_of_key hu hx hmem hxk]
                  · rw [if_neg hxk, if_neg hxk]
            | _ => cases h
    · cases h; exact .inl rfl

theorem body_shade {k : Nat} {f g : Forest} (hf : Page f) (hg : Good f) (h : gradientBody k f = some g) : Page g ∧ SameShade (onPaper f) (onPaper g) := by
  obtain ⟨_, hpaint⟩ := ApplyTs.gradientBody_spec hg h
  rcases body_shape hf.unique h with rfl | ⟨n, hn, hng, T, rfl⟩
  · exact ⟨hf, SameShade.refl _⟩
  have hpaint := hpaint.2
  have hput : put f n (moveGradient n T) = f.map (fun x => if x.key = n.key then moveGradient n T else x) := rfl
  have hsame := ApplyTs.moveGradient_same n T
  generalize hg' : put f n (moveGradient n T) = g at hpaint
  have hnodes : g.nodes = f.nodes.map (fun x => if x.key = n.key then moveGradient n T else x) := by rw [← hg', hput, Forest.nodes_map]
  rw [hnodes, List.forall₂_map_right_iff, List.forall₂_same] at hpaint
  have hput := hg'.symm.trans hput
  clear hg' hnodes
  generalize hw : (fun x : Node => if x.key = n.key then moveGradient n T else x) = w at hput
  have hpaint : ∀ x ∈ f.nodes, if x.isGradient = true then ApplyTs.SamePaint f x g (w x) else w x = x := by rw [← hw]; exact hpaint
  have hcases : ∀ x ∈ f.nodes, x = n ∧ w x = moveGradient n T ∨ x.key ≠ n.key ∧ w x = x := by
    intro x hx
    rw [← hw]
    exact ApplyTs.put_cases hf.unique hn hx
  have hk : ∀ x, (w x).key = x.key := by
    intro x
    rw [← hw]
    exact ApplyTs.put_key hsame.key x
  have turned : ∀ x ∈ f.nodes, x.isGradient = true → Turned x (w x) := by
    intro x hx hgx
    have get0 : ∀ a, (paper x).get a = written x a := fun a => get_paper (hf.attrs x hx) a
    have coords : ∀ a ∈ coordAttrs, ∀ v, written x a = some v → ∃ y, v = .length y := fun a ha v hv =>
      hf.sheet.coords (paper x) (mem_paper hx) hgx a ha v (by rw [get0]; exact hv)
    rcases hcases x hx with ⟨rfl, e⟩ | ⟨_, e⟩
    · rw [e]
      refine ⟨hsame.kind, moved_names T (hf.attrs x hx), ?_, ?_, ?_, ?_⟩
      · intro a h1 h2 h3
        refine ApplyTs.written_same hsame ?_
        intro h4
        simp only [ApplyTs.geoAttrs, coordAttrs, List.mem_cons, List.not_mem_nil, or_false] at h4 h1
        tauto
      · intro a ha v hv
        obtain ⟨_, h | h | ⟨rfl, v', h1, rfl⟩⟩ := moved_written _ _ _ _ hv
        · exact coords a ha v h
        · exact h
        · obtain ⟨y, rfl⟩ := coords .r (by decide) v' h1
          exact ⟨_, rfl⟩
      · intro v hv
        exact absurd rfl (moved_written _ _ _ _ hv).1
      · intro v hv
        rw [ApplyTs.written_same hsame (by decide), ← get0] at hv
        exact hf.sheet.words (paper x) (mem_paper hx) hgx _ (by decide) (by decide) v hv
    · rw [e]
      refine ⟨rfl, hf.attrs x hx, fun _ _ _ _ => rfl, coords, fun v hv => ?_, fun v hv => ?_⟩
      · exact hf.sheet.moved (paper x) (mem_paper hx) hgx v (by rw [get0]; exact hv)
      · exact hf.sheet.words (paper x) (mem_paper hx) hgx .gradientUnits (by decide) (by decide) v (by rw [get0]; exact hv)
  have ho : ∀ x ∈ f.nodes, x.isGradient = false → w x = x := fun x hx hgx => by
    have := hpaint x hx
    rwa [if_neg (by rw [hgx]; decide)] at this
  rw [hput]
  refine ⟨page_turned hf hk turned ho, shade_turned hf hk turned ho ?_⟩
  intro x hx hgx _ l l' h1 h2 _ _
  have sp := hpaint x hx
  rw [if_pos hgx, hput] at sp
  have hkind := sp.same.kind
  rw [h1.kind, h2.kind] at hkind
  refine ⟨(Kind.elem.inj hkind).symm, ?_, ?_, turned_looks_stops hf hk turned ho hx h1 h2, fun u q t => ?_⟩
  · exact h1.values_eq h2 (by decide) (by decide) fun v => (sp.units v).symm
  · exact h1.values_eq h2 (by decide) (by decide) fun v => (sp.spread v).symm
  · rw [← h1.offset, ← h2.offset, sp.offset]

/-- **C72** Applying the transforms of gradients does not change what is drawn. -/
theorem C72_transforms_partial {f g : Forest} (hf : Page f) (hg : Good f) (h : applyToGradients f = some g) : Page g ∧ SameShade (onPaper f) (onPaper g) := by
  unfold applyToGradients at h
  generalize f.keys = ks at h
  induction ks generalizing f with
  | nil => cases h; exact ⟨hf, SameShade.refl _⟩
  | cons k t ih =>
    simp only [Gradients.forEach, Option.bind_eq_some_iff] at h
    obtain ⟨f1, h1, h2⟩ := h
    obtain ⟨p1, s1⟩ := body_shade hf hg h1
    obtain ⟨p2, s2⟩ := ih p1 (ApplyTs.gradientBody_spec hg h1).1 h2
    exact ⟨p2, s1.trans s2⟩

end Verif.Shade
