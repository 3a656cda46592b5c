import Verif.IdemRefuted
import Verif.GroupDefsCases
import Verif.RegroupCases
/-
C67: the collecting of definitions and the regrouping of stops.
-/
namespace Verif.Idem
open Verif.Dom Verif.Spec Verif.Pipeline
open Verif.GroupDefs (groupDefs Collected mainDefs otherDefs isDefinition strays defsKids)

/-- Nodes occur once, and references lead to nodes of the document. -/
def Sound (f : Forest) : Prop := f.UniqueKeys ∧ f.LinksOk

instance (f : Forest) : Decidable (Sound f) := by unfold Sound; infer_instance

/-- **C67** for `group_defs`: where the definitions are collected, they are left where they are. -/
theorem C67_group_defs : Settles Sound (may groupDefs) := by
  refine settles_may fun f g hf h => ?_
  obtain ⟨s, ks, d, D, e, C⟩ := GroupDefs.C35_collected hf.1 h
  obtain ⟨hu, -⟩ := GroupDefs.C35_wellformed hf.1 hf.2 h
  obtain ⟨s', d', D', r', e1, -, hone, hin⟩ := GroupDefs.C35_one_defs hf.1 h
  have e2 := C.first.symm.trans e1
  simp only [Option.some.injEq, Prod.mk.injEq, Forest.cons.injEq] at e2
  obtain ⟨rfl, rfl, rfl, rfl⟩ := e2
  have hs : (d, D) ∈ subs g := UnusedDefs.subs_trans (GroupDefs.svgElement_mem e1).1 (by simp [subs])
  have hd : d ∈ g.nodes := UnusedDefs.node_of_subs hs
  have htag : d.isTag .defs = true := (Node.isTag_iff d _).2 C.main
  have hfind : g.nodes.find? (fun n => n.isTag .defs) = some d := by
    cases hx : g.nodes.find? (fun n => n.isTag .defs) with
    | none => exact absurd htag (by simpa using List.find?_eq_none.1 hx d hd)
    | some n => rw [hone n (List.mem_of_find?_eq_some hx) ((Node.isTag_iff n _).1 (List.find?_some (p := fun n : Node => n.isTag .defs) hx))]
  have hmain : mainDefs g = (d, D) := by
    unfold mainDefs UnusedDefs.firstDefs
    rw [hfind]
    show (match ResolveUse.subtree d.key g with | some x => x | none => _) = _
    rw [GroupDefs.subtree_of hu hs]
  have hother : ∀ n ∈ g.nodes, otherDefs d.key n = false := by
    intro n hn
    unfold otherDefs
    by_cases ht : n.isTag .defs = true
    · rw [hone n hn ((Node.isTag_iff n _).1 ht)]; simp
    · simp [ht]
  have hput : GroupDefs.putFirst (mainDefs g) g = some g := by
    unfold GroupDefs.putFirst
    rw [e1, hmain, Option.map_some]
    simp [GroupDefs.startsWith]
  have hstrays : strays d.key none g = [] := by
    rw [List.eq_nil_iff_forall_not_mem]
    intro k hk
    obtain ⟨n, -, hn, hp⟩ := GroupDefs.mem_strays.1 hk
    have hg : n ∈ g.nodes := by
      rcases hp with h | ⟨x, hx, h, -⟩
      · exact (Stops.top_sub_nodes _).mem h.1
      · exact (Stops.subs_kids_sub hx).1.mem ((Stops.top_sub_nodes _).mem h)
    have hdef : isDefinition n = true := by rw [GroupDefs.isDefinition_eq, hn, Bool.or_true]
    rcases hin n hg hdef with rfl | hD
    · rw [Node.tag, C.main] at hn; revert hn; decide
    · rcases hp with h | ⟨x, hx, h, hne⟩
      · exact GroupDefs.top_not_kid hu h.1 hs hD rfl
      · rw [Stops.parent_unique hu hx hs h hD rfl] at hne; exact hne rfl
  have hkids : defsKids d.key g = [] := by
    rw [List.eq_nil_iff_forall_not_mem]
    intro k hk
    obtain ⟨x, hx, ho, -⟩ := GroupDefs.mem_defsKids.1 hk
    rw [hother _ (UnusedDefs.node_of_subs hx)] at ho
    cases ho
  unfold groupDefs
  dsimp only
  rw [hput, hmain, Option.bind_some, hstrays]
  show some ((GroupDefs.moveAll d.key (defsKids d.key g) g).remove (otherDefs d.key)) = some g
  rw [hkids]
  show some (g.remove (otherDefs d.key)) = some g
  rw [remove_none hother]

example : ∃ f g, Sound f ∧ groupDefs f = some g ∧ g ≠ f :=
  ⟨GroupDefs.sampleIn, GroupDefs.sampleOut, by decide +kernel, by decide +kernel, by decide +kernel⟩

/-- **C67** for `regroup-gradient-stops`, for the documents of C40: what is shared is not shared once more. -/
theorem C67_regroup : Settles Regroup.Good (may Regroup.regroup) := by
  refine settles_may fun f g hf h => ?_
  obtain ⟨g', h', R⟩ := Regroup.C40_regrouped_partial hf
  obtain rfl := Option.some.inj (h.symm.trans h')
  have hnd : (Regroup.candidates g).Nodup := by
    have h1 : ((subs g).map fun x => x.1.key).Nodup := by rw [Stops.subs_keys]; exact R.unique
    exact h1.sublist (List.filter_sublist.map _)
  have alone : ∀ j ∈ Regroup.candidates g, ∀ k ∈ Regroup.candidates g, Regroup.alike g j k = true → j = k := by
    intro j hj k hk ha
    obtain ⟨n, rfl, hn⟩ := (Regroup.mem_candidates R.unique).1 hj
    obtain ⟨m, rfl, hm⟩ := (Regroup.mem_candidates R.unique).1 hk
    unfold Regroup.alike at ha
    split at ha
    · rename_i c d hc hd
      have e := R.shared n hn.mem m hm.mem hn.grad hm.grad hn.free hm.free c d hc hd (by
        rintro rfl
        obtain ⟨c, h1, h2⟩ := hn.kids
        rw [hc] at h1; cases h1; exact h2 rfl) (by
        refine (Dupl.equalStops_forall ha).imp fun s t h => ?_
        simpa [Dupl.sameStop, and_assoc] using h)
      rw [e]
    · cases ha
  have loop : ∀ fuel (l : List Nat), l.Nodup → (∀ k ∈ l, k ∈ Regroup.candidates g) → Regroup.regroupLoop fuel l g = some (g, false) := by
    intro fuel
    induction fuel with
    | zero => intro l _ _; unfold Regroup.regroupLoop; rfl
    | succ fuel ih =>
      intro l hl hm
      cases l with
      | nil => unfold Regroup.regroupLoop; rfl
      | cons k ks =>
        unfold Regroup.regroupLoop
        rw [if_pos]
        · exact ih ks (List.nodup_cons.1 hl).2 fun j hj => hm j (List.mem_cons_of_mem _ hj)
        · rw [List.isEmpty_iff, List.filter_eq_nil_iff]
          intro j hj ha
          have := alone k (hm k List.mem_cons_self) j (hm j (List.mem_cons_of_mem _ hj)) ha
          subst this
          exact (List.nodup_cons.1 hl).1 hj
  unfold Regroup.regroup
  rw [loop _ _ hnd fun k hk => hk]
  rfl

example : ∃ f g, Regroup.Good f ∧ Regroup.regroup f = some g ∧ g ≠ f :=
  ⟨Regroup.four, Regroup.fourAfter, Regroup.good_of (rank := id) (by decide +kernel), by decide +kernel, by decide +kernel⟩

end Verif.Idem
