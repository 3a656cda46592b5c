import Verif.IdemInherit
/-
C67: needless gradient stops.
-/
namespace Verif.Idem
open Verif.Dom Verif.Spec Verif.Pipeline
open Verif.Stops (sameStop dupL keepL invalidStops removeInvalidStops)

theorem sameStop_iff {m n : Node} : sameStop m n = true ↔ m.get .offset = n.get .offset ∧ m.get .stopColor = n.get .stopColor ∧ m.get .stopOpacity = n.get .stopOpacity := by
  unfold sameStop
  simp only [Bool.and_eq_true, decide_eq_true_eq, and_assoc]

/-- Among the stops that stay no two neighbours are equal; `p` is the last one that stayed, `m` the last one that was looked at. -/
theorem dupL_keep {u : Node → Node} (hu : ∀ n m, sameStop (u n) (u m) = sameStop n m) {p m : Node} (hp : sameStop p m = true) (l : List Node) :
    dupL (some (u p)) ((keepL (some m) l).map u) = [] := by
  induction l generalizing p m with
  | nil => rfl
  | cons c t ih =>
    unfold keepL
    by_cases h : sameStop m c = true
    · rw [if_pos h, List.nil_append]
      refine ih ?_
      rw [sameStop_iff] at hp h ⊢
      exact ⟨hp.1.trans h.1, hp.2.1.trans h.2.1, hp.2.2.trans h.2.2⟩
    · rw [if_neg h, List.singleton_append, List.map_cons]
      unfold dupL
      rw [hu, if_neg, List.nil_append]
      · exact ih (sameStop_iff.2 ⟨rfl, rfl, rfl⟩)
      · intro h'
        refine h ?_
        rw [sameStop_iff] at hp h' ⊢
        exact ⟨hp.1.symm.trans h'.1, hp.2.1.symm.trans h'.2.1, hp.2.2.symm.trans h'.2.2⟩

theorem dupL_kept {u : Node → Node} (hu : ∀ n m, sameStop (u n) (u m) = sameStop n m) (l : List Node) : dupL none ((keepL none l).map u) = [] := by
  cases l with
  | nil => rfl
  | cons c t => exact dupL_keep hu (sameStop_iff.2 ⟨rfl, rfl, rfl⟩) t

/-- Nodes occur once, and the attributes of stops are no references. -/
structure PlainStops (f : Forest) : Prop where
  unique : f.UniqueKeys
  plain : ∀ n ∈ f.nodes, ∀ a ∈ [AId.offset, .stopColor, .stopOpacity], ∀ x ∈ n.attrs, x.name = .id a → x.value.target = none

theorem get_unlink_plain {n : Node} {a : AId} (h : ∀ x ∈ n.attrs, x.name = .id a → x.value.target = none) (s : Nat → Bool) :
    (n.unlink s).get a = n.get a := by
  cases hg : n.get a with
  | some v =>
    refine Stops.get_unlink hg ?_
    rw [Node.get, Option.map_eq_some_iff] at hg
    obtain ⟨x, hx, rfl⟩ := hg
    exact h x (getAttr_mem hx) (getAttr_name hx)
  | none =>
    rw [Node.get, Option.map_eq_none_iff] at hg ⊢
    unfold getAttr at hg ⊢
    rw [List.find?_eq_none] at hg ⊢
    exact fun x hx => hg x (List.mem_filter.1 hx).1

/-- **C67** for `remove-invalid-stops`. -/
theorem C67_invalid_stops : Settles PlainStops (sure removeInvalidStops) := by
  refine settles_sure fun f hf => ?_
  have hu := hf.unique
  have hinv : ∀ k ∈ invalidStops f, ∃ x ∈ subs f, x.1.isGradient ∧ k ∈ dupL none x.2.top := by
    intro k hk
    rw [Stops.invalidStops_eq, List.mem_flatMap] at hk
    obtain ⟨x, hx, h⟩ := hk
    split at h
    · rename_i hg; exact ⟨x, hx, hg, by rwa [Stops.dupStops_eq] at h⟩
    · simp at h
  have hnone : invalidStops (removeInvalidStops f) = [] := by
    rw [Stops.invalidStops_eq, List.flatMap_eq_nil_iff]
    intro y hy
    split
    · rename_i hg
      unfold removeInvalidStops Forest.remove at hy
      rw [Stops.subs_map, List.mem_map] at hy
      obtain ⟨z, hz, rfl⟩ := hy
      obtain ⟨x, hx, e1, e2⟩ := Stops.subs_prune hz
      simp only [Stops.isGradient_unlink, e1] at hg
      generalize (fun k => decide (k ∈ f.prunedKeys fun n => decide (n.key ∈ invalidStops f))) = s
      have hnd : (x.2.top.map (·.key)).Nodup := List.Nodup.sublist (((Stops.top_sub_nodes _).trans (Stops.subs_kids_sub hx).1).map _) hu
      have hkeep : (x.2.prune (fun n => decide (n.key ∈ invalidStops f))).top = keepL none x.2.top := by
        rw [Stops.top_prune, ← Stops.filter_dupL _ _ hnd]
        refine List.filter_congr fun c hc => ?_
        congr 1
        rw [decide_eq_decide]
        constructor
        · intro h
          obtain ⟨x', hx', hg', h⟩ := hinv _ h
          obtain ⟨d, hd, e⟩ := Stops.dupL_sub h
          rw [Stops.parent_unique hu hx hx' hc hd e.symm]
          exact h
        · intro h
          rw [Stops.invalidStops_eq, List.mem_flatMap]
          exact ⟨x, hx, by rw [if_pos hg, Stops.dupStops_eq]; exact h⟩
      rw [Stops.dupStops_eq]
      dsimp only
      rw [e2, Stops.top_map, hkeep]
      -- On the nodes of the document `unlink` does not change what is compared; elsewhere any function will do.
      have hm : ∀ c ∈ keepL none x.2.top, c ∈ f.nodes := by
        intro c hc
        rw [← Stops.filter_dupL _ _ hnd] at hc
        exact (Stops.subs_kids_sub hx).1.mem (Invisible.top_nodes (List.mem_filter.1 hc).1)
      classical
      have hmap : (keepL none x.2.top).map (fun n => n.unlink s) = (keepL none x.2.top).map (fun n => if n ∈ f.nodes then n.unlink s else n) :=
        List.map_congr_left fun c hc => (if_pos (hm c hc)).symm
      rw [hmap]
      have hget : ∀ (n : Node) (a : AId), a ∈ [AId.offset, .stopColor, .stopOpacity] → (if n ∈ f.nodes then n.unlink s else n).get a = n.get a := by
        intro n a ha
        split
        · rename_i hn; exact get_unlink_plain (hf.plain n hn a ha) s
        · rfl
      refine dupL_kept (fun n m => ?_) _
      unfold sameStop
      rw [hget n _ (by decide), hget m _ (by decide), hget n .stopColor (by decide), hget m .stopColor (by decide), hget n .stopOpacity (by decide),
        hget m .stopOpacity (by decide)]
    · rfl
  change (removeInvalidStops f).remove (fun n => decide (n.key ∈ invalidStops (removeInvalidStops f))) = _
  rw [hnone]
  exact remove_none fun n _ => by simp

/-! ### Cases -/

def stop (k : Nat) (q : ℚ) (i : Value) : Node := el k .stop "" [(.offset, .length ⟨q, .none⟩), (.stopColor, i), (.stopOpacity, .number 1)]

/-- Three equal stops in a row, and another one. -/
def rampDoc : Forest := doc (.cons (el 1 .linearGradient "a" []) (leaf (stop 2 0 red) (leaf (stop 3 (1/2) red) (leaf (stop 4 (1/2) red) (leaf (stop 5 (1/2) red)
  (leaf (stop 6 1 red) .nil))))) .nil)

instance (f : Forest) : Decidable (PlainStops f) :=
  decidable_of_iff (f.UniqueKeys ∧ ∀ n ∈ f.nodes, ∀ a ∈ [AId.offset, .stopColor, .stopOpacity], ∀ x ∈ n.attrs, x.name = .id a → x.value.target = none)
    ⟨fun h => ⟨h.1, h.2⟩, fun h => ⟨h.1, h.2⟩⟩

example : PlainStops rampDoc ∧ removeInvalidStops rampDoc ≠ rampDoc := ⟨by decide +kernel, by decide +kernel⟩

/-- Stops that differ in a reference to one that is removed. -/
def linkedStops : Forest := doc (.cons (el 1 .linearGradient "a" []) (leaf (el 2 .stop "" [(.offset, px 0)]) (leaf (el 3 .stop "s" [(.offset, px 0)])
  (leaf (el 4 .stop "" [(.offset, px 1)]) (leaf (el 5 .stop "" [(.offset, px 1), (.stopColor, .funcLink 3)]) .nil)))) .nil)

theorem C67_refuted_invalid_stops : ¬ Settles Parsed (sure removeInvalidStops) :=
  unsettled' (f := linkedStops) (by decide +kernel) (by decide +kernel)

end Verif.Idem
