import Verif.Idem
import Verif.UnusedDefs
/-
C67, continued: attributes, definitions.
-/
namespace Verif.Idem
open Verif.Dom Verif.Spec Verif.Pipeline

/-! ### Coordinates -/

theorem hide_hide (n : Node) (a : AId) : (n.hide a).hide a = n.hide a := by
  unfold Node.hide hideAttr
  dsimp only
  congr 1
  rw [List.map_map]
  refine List.map_congr_left fun x _ => ?_
  dsimp only [Function.comp]
  by_cases h : x.name = .id a <;> simp [h]

theorem hide_comm (n : Node) (a b : AId) : (n.hide a).hide b = (n.hide b).hide a := by
  unfold Node.hide hideAttr
  dsimp only
  congr 1
  rw [List.map_map, List.map_map]
  refine List.map_congr_left fun x _ => ?_
  dsimp only [Function.comp]
  by_cases h : x.name = .id a <;> by_cases h' : x.name = .id b <;> simp_all

theorem hideAll_hide (n : Node) (a : AId) (l : List AId) : Simple.hideAll (n.hide a) l = (Simple.hideAll n l).hide a := by
  induction l generalizing n with
  | nil => rfl
  | cons b l ih =>
    show Simple.hideAll ((n.hide a).hide b) l = (Simple.hideAll (n.hide b) l).hide a
    rw [hide_comm, ih]

theorem hideAll_twice (n : Node) (l : List AId) : Simple.hideAll (Simple.hideAll n l) l = Simple.hideAll n l := by
  induction l generalizing n with
  | nil => rfl
  | cons a l ih =>
    show Simple.hideAll ((Simple.hideAll (n.hide a) l).hide a) l = Simple.hideAll (n.hide a) l
    rw [hideAll_hide, ih, ← hideAll_hide, hide_hide]

theorem hideAll_kind (n : Node) (l : List AId) : (Simple.hideAll n l).kind = n.kind := by
  induction l generalizing n with
  | nil => rfl
  | cons a l ih => exact ih _

theorem hideAll_has (n : Node) (l : List AId) (a : AId) : (Simple.hideAll n l).has a = n.has a := by
  induction l generalizing n with
  | nil => rfl
  | cons b l ih => show (Simple.hideAll (n.hide b) l).has a = _; rw [ih, Node.has_hide]

theorem hideAll_links (n : Node) (l : List AId) : (Simple.hideAll n l).links = n.links := by
  induction l generalizing n with
  | nil => rfl
  | cons b l ih =>
    show (Simple.hideAll (n.hide b) l).links = _
    rw [ih]
    unfold Node.links Node.hide hideAttr
    rw [List.filterMap_map]
    refine List.filterMap_congr fun x _ => ?_
    dsimp only [Function.comp]
    split <;> rfl

/-- Two documents that differ in what is hidden only. -/
def Veil (n m : Node) : Prop := m.key = n.key ∧ m.kind = n.kind ∧ m.links = n.links ∧ ∀ a, m.get a = n.get a ∧ m.has a = n.has a

theorem veil_unused {f g : Forest} (h : List.Forall₂ Veil f.nodes g.nodes) (top : Bool) {n m : Node} (hn : Veil n m) :
    Simple.unusedCoords g top m = Simple.unusedCoords f top n := by
  have hfind : ∀ k, (g.find k).map Node.kind = (f.find k).map Node.kind := by
    intro k
    unfold Forest.find
    generalize f.nodes = l at h
    generalize g.nodes = l' at h
    induction h with
    | nil => rfl
    | cons h _ ih =>
      obtain ⟨h1, h2, _⟩ := h
      simp only [List.find?_cons, h1]
      split
      · exact congrArg some h2
      · exact ih
  have hlink : ∀ k, ((g.linkedNodes k).filter (fun m => m.isTag .radialGradient)).length =
      ((f.linkedNodes k).filter (fun m => m.isTag .radialGradient)).length := by
    intro k
    unfold Forest.linkedNodes
    generalize f.nodes = l at h
    generalize g.nodes = l' at h
    clear hfind
    induction h with
    | nil => rfl
    | @cons a b _ _ h _ ih =>
      obtain ⟨h1, h2, h3, _⟩ := h
      have e : b.isTag .radialGradient = a.isTag .radialGradient := by unfold Node.isTag; rw [h2]
      simp only [List.filter_filter] at ih ⊢
      simp only [List.filter_cons, h3, e]
      split
      · rw [List.length_cons, List.length_cons, ih]
      · exact ih
  obtain ⟨h1, h2, h3, h4⟩ := hn
  have hrm : ∀ a b, Simple.rmF g m a b = Simple.rmF f n a b := by
    intro a b
    unfold Simple.rmF
    rw [(h4 a).1, (h4 b).1, h1]
    split
    · rw [hlink]
    · rfl
  unfold Simple.unusedCoords
  rw [h2]
  split
  · simp only [(h4 _).2]
  · simp only [(h4 _).2, (h4 _).1]
  · simp only [(h4 _).1, hrm]
    cases hx : n.get .xlinkHref with
    | none => rfl
    | some v =>
      cases v with
      | link k =>
        have key : ∀ x y : Option Node, x.map Node.kind = y.map Node.kind →
            (match x with | some m => m.isTag .radialGradient | none => false) = (match y with | some m => m.isTag .radialGradient | none => false) := by
          intro x y e
          cases x with
          | none =>
            cases y with
            | none => rfl
            | some y => cases e
          | some x =>
            cases y with
            | none => cases e
            | some y =>
              have : x.kind = y.kind := Option.some.inj e
              dsimp only
              unfold Node.isTag
              rw [this]
        have hq := key _ _ (hfind k)
        dsimp only
        split
        · rename_i c1
          split
          · rfl
          · rename_i c2; exact absurd (hq.symm.trans c1) c2
        · rename_i c1
          split
          · rename_i c2; exact absurd (hq.trans c2) c1
          · rfl
      | _ => rfl
  · rfl

/-- **C67** for `remove-unused-coordinates`. -/
theorem C67_coords : Settles Any (sure Simple.removeUnusedCoords) := by
  refine settles_sure fun f _ => ?_
  have veil : ∀ n l, Veil n (Simple.hideAll n l) := fun n l =>
    ⟨Simple.hideAll_key n l, hideAll_kind n l, hideAll_links n l, fun a => ⟨Simple.hideAll_get n l a, hideAll_has n l a⟩⟩
  have hv : ∀ top (g : Forest), List.Forall₂ Veil g.nodes (Simple.removeUnusedCoordsGo f top g).nodes := by
    intro top g
    induction g generalizing top with
    | nil => exact .nil
    | cons n k r ihk ihr => exact .cons (veil n _) (List.rel_append (ihk false) (ihr top))
  have key : ∀ top (g : Forest), Simple.removeUnusedCoordsGo (Simple.removeUnusedCoords f) top (Simple.removeUnusedCoordsGo f top g) =
      Simple.removeUnusedCoordsGo f top g := by
    intro top g
    induction g generalizing top with
    | nil => rfl
    | cons n k r ihk ihr =>
      simp only [Simple.removeUnusedCoordsGo, ihk, ihr]
      have e : Simple.unusedCoords (Simple.removeUnusedCoords f) top (Simple.hideAll n (Simple.unusedCoords f top n)) = Simple.unusedCoords f top n :=
        veil_unused (hv true f) top (veil n _)
      rw [e, hideAll_twice]
  exact key true f

/-! ### Style attributes -/

theorem joinable_style (v : Value) (b : Bool) : Simple.joinable ⟨.id .style, v, b⟩ = false := rfl

/-- **C67** for `join-style-attributes` with `no` and `some`. -/
theorem C67_join {E : Env} {m : Cli.StyleJoinMode} (hm : m ≠ .all) : Settles Any (sure (Simple.joinStyleAttributes E.nameOf E.ser m)) := by
  refine settles_sure fun f _ => ?_
  unfold Simple.joinStyleAttributes
  split
  · rfl
  · refine map_settles (fun n => ?_) f
    have hd : decide (m = .all) = false := decide_eq_false hm
    by_cases hc : (n.isSvgElem && ((decide (m = .some) && decide (5 < (n.attrs.filter Simple.joinable).length)) || decide (m = .all))) = true
    · have e : Simple.joinNode E.nameOf E.ser m n = { n with attrs :=
          (putAttr n.attrs ⟨.id .style, .str (String.ofList (Simple.styleText E.nameOf E.ser n.attrs)), true⟩).filter (fun x => !Simple.joinable x) } := by
        unfold Simple.joinNode
        dsimp only
        rw [if_pos hc]
      rw [e]
      generalize putAttr n.attrs _ = as
      unfold Simple.joinNode
      dsimp only
      rw [if_neg]
      have : (as.filter (fun x => !Simple.joinable x)).filter Simple.joinable = [] := by
        rw [List.filter_filter, List.filter_eq_nil_iff]
        intro x _
        cases Simple.joinable x <;> simp
      rw [this, hd]
      simp
    · have e : Simple.joinNode E.nameOf E.ser m n = n := by
        unfold Simple.joinNode
        dsimp only
        rw [if_neg hc]
      rw [e, e]

/-! ### Definitions -/

theorem first_setKids {f : Forest} (hu : f.UniqueKeys) {m : Node} (h : f.nodes.find? (fun n => n.isTag .defs) = some m) (c : Forest) :
    (f.setKids m.key c).nodes.find? (fun n => n.isTag .defs) = some m := by
  induction f with
  | nil => cases h
  | cons n k r ihk ihr =>
    obtain ⟨u1, u2, u3, u4, u5⟩ := UnusedDefs.nodup_cons hu
    simp only [Forest.nodes, List.find?_cons] at h
    split at h
    · rename_i hn
      cases h
      simp only [Forest.setKids, if_true, Forest.nodes, List.find?_cons, hn]
    · rename_i hn
      rw [List.find?_append] at h
      have hm : m ∈ k.nodes ++ r.nodes := by
        rw [← List.find?_append] at h
        exact List.mem_of_find?_eq_some h
      have hne : n.key ≠ m.key := by
        intro e
        rcases List.mem_append.1 hm with hm | hm
        · exact u1 (by rw [e]; exact Forest.key_mem hm)
        · exact u2 (by rw [e]; exact Forest.key_mem hm)
      simp only [Forest.setKids, hne, if_false, Forest.nodes, List.find?_cons, hn, List.find?_append]
      cases hk : k.nodes.find? (fun n => n.isTag .defs) with
      | none =>
        rw [hk] at h
        simp only [Option.none_or] at h
        have : m.key ∉ k.keys := fun e => u5 _ e (Forest.key_mem (List.mem_of_find?_eq_some h))
        rw [UnusedDefs.setKids_not_mem this, hk, ihr u4 h]
        rfl
      | some x =>
        rw [hk] at h
        cases h
        rw [ihk u3 hk]
        rfl

/-- **C67** for `remove-unused-defs`. -/
theorem C67_unused_defs : Settles Forest.UniqueKeys (may UnusedDefs.removeUnusedDefs) := by
  refine settles_may fun f g hu h => ?_
  unfold UnusedDefs.removeUnusedDefs at h
  obtain ⟨k, hk, h⟩ := Option.bind_eq_some_iff.1 h
  obtain ⟨c, hc, h⟩ := Option.bind_eq_some_iff.1 h
  have hk' := hk
  unfold UnusedDefs.firstDefs at hk'
  obtain ⟨d, hd, rfl⟩ := Option.map_eq_some_iff.1 hk'
  have hs0 : UnusedDefs.State d.key f c f c :=
    ⟨hc, (UnusedDefs.setKids_self hu hc).symm, fun q hq => ⟨fun p hp => UnusedDefs.mem_subs_tops.2 ⟨q, hq, .inr hp⟩,
      .inl (UnusedDefs.mem_subs_tops.2 ⟨q, hq, .inl rfl⟩)⟩, ⟨[], by simp, by simp⟩⟩
  obtain ⟨c', hs, ht⟩ := UnusedDefs.loop_spec hu (Forest.key_mem (List.mem_of_find?_eq_some hd)) hs0 h
  have hg : UnusedDefs.firstDefs g = some d.key := by
    unfold UnusedDefs.firstDefs
    rw [hs.tree, first_setKids hu hd]
    rfl
  have hend : ∀ fuel, UnusedDefs.loop d.key fuel g = some g := by
    intro fuel
    unfold UnusedDefs.loop
    rw [hs.kids]
    simp only [Option.bind_some]
    rw [if_neg]
    intro ha
    obtain ⟨n, hn, e⟩ := List.any_eq_true.1 ha
    rw [ht n hn] at e
    cases e
  unfold UnusedDefs.removeUnusedDefs
  rw [hg]
  simp only [Option.bind_some, hs.kids, hend]

/-- `ungroup-defs` stops at a `defs` element without children: a second run goes on with the next one. -/
theorem C67_refuted_ungroup_defs : ¬ Settles Parsed (sure Simple.ungroupDefs) := by
  intro h
  have := h (.cons ⟨0, .elem .svg, "", []⟩ (.cons ⟨1, .elem .defs, "", []⟩ .nil (.cons ⟨2, .elem .defs, "", []⟩ .nil .nil)) .nil) _
    (by decide +kernel) rfl
  revert this
  decide +kernel

end Verif.Idem
