import Verif.RenderMove
import Verif.UnusedDefsLook
import Verif.GradPaint
/-
C35: the picture does not change when definitions are collected, as long as they inherit what the root element gives them.
-/
namespace Verif.Render
open Verif.Dom Verif.Spec
open Verif.ResolveUse (subtree)
open Verif.GroupDefs (chain)

variable {P : Type}

/-! ### Where nodes are found -/

theorem uk_cons {n : Node} {k r : Forest} (h : (Forest.cons n k r).UniqueKeys) :
    n.key ∉ k.keys ∧ n.key ∉ r.keys ∧ k.UniqueKeys ∧ r.UniqueKeys ∧ ∀ x ∈ k.keys, x ∉ r.keys := by
  unfold Forest.UniqueKeys at h ⊢
  rw [Forest.keys_cons, List.nodup_cons, List.nodup_append, List.mem_append, not_or] at h
  exact ⟨h.1.1, h.1.2, h.2.1, h.2.2.1, fun x hx hr => h.2.2.2 x hx x hr rfl⟩

theorem locate_none {x : Nat} {f : Forest} (h : x ∉ f.keys) (anc : List Node) : locate x anc f = none := by
  induction f generalizing anc with
  | nil => rfl
  | cons n k r ihk ihr =>
    rw [Forest.keys_cons, List.mem_cons, List.mem_append, not_or, not_or] at h
    rw [locate, if_neg (Ne.symm h.1), ihk h.2.1, ihr h.2.2]
    rfl

theorem locate_acc (x : Nat) (anc : List Node) (f : Forest) : locate x anc f = (locate x [] f).map fun z => (z.1 ++ anc, z.2) := by
  induction f generalizing anc with
  | nil => rfl
  | cons n k r ihk ihr =>
    simp only [locate]
    split
    · simp
    · rw [ihk (n :: anc), ihk [n], ihr anc]
      cases locate x [] k <;> cases locate x [] r <;> simp

theorem locate_mem {x : Nat} {f : Forest} {anc : List Node} {z : List Node × Node × Forest} (h : locate x anc f = some z) :
    z.2.1.key = x ∧ z.2 ∈ subs f := by
  induction f generalizing anc with
  | nil => cases h
  | cons n k r ihk ihr =>
    simp only [locate] at h
    split at h
    next hn => cases h; exact ⟨hn, by simp [subs]⟩
    next hn =>
      rcases Option.or_eq_some_iff.1 h with h | ⟨_, h⟩
      · exact ⟨(ihk h).1, by simp [subs, (ihk h).2]⟩
      · exact ⟨(ihr h).1, by simp [subs, (ihr h).2]⟩

theorem locate_key {x : Nat} {f : Forest} {anc : List Node} {z : List Node × Node × Forest} (h : locate x anc f = some z) : x ∈ f.keys := by
  by_contra hx
  rw [locate_none hx] at h
  cases h

theorem subtree_locate (x : Nat) (anc : List Node) (f : Forest) : subtree x f = (locate x anc f).map fun z => z.2 := by
  induction f generalizing anc with
  | nil => rfl
  | cons n k r ihk ihr =>
    simp only [locate, subtree]
    split
    · rfl
    · rw [ihk (n :: anc), ihr anc]
      cases locate x (n :: anc) k <;> rfl

theorem kidsOf_locate (x : Nat) (anc : List Node) (f : Forest) : f.kidsOf x = (locate x anc f).map fun z => z.2.2 := by
  induction f generalizing anc with
  | nil => rfl
  | cons n k r ihk ihr =>
    simp only [locate, Forest.kidsOf]
    split
    · rfl
    · rw [ihk (n :: anc), ihr anc]
      cases locate x (n :: anc) k <;> rfl

theorem chain_locate (x : Nat) (anc : List Node) (f : Forest) : chain x anc f = (locate x anc f).map fun z => z.2.1 :: z.1 := by
  induction f generalizing anc with
  | nil => rfl
  | cons n k r ihk ihr =>
    simp only [locate, chain]
    split
    · rfl
    · rw [ihk (n :: anc), ihr anc]
      cases locate x (n :: anc) k <;> rfl

theorem locate_append (x : Nat) (anc : List Node) (a b : Forest) : locate x anc (a ++ b) = (locate x anc a).or (locate x anc b) := by
  induction a with
  | nil => rfl
  | cons n k r _ ihr =>
    rw [show Forest.cons n k r ++ b = Forest.cons n k (r ++ b) from rfl]
    simp only [locate]
    rw [ihr]
    split
    · rfl
    · rw [Option.or_assoc]

theorem locate_prune {q : Node → Bool} {f : Forest} {x : Nat} (hx : x ∉ f.prunedKeys q) (anc : List Node) :
    locate x anc (f.prune q) = (locate x anc f).map fun z => (z.1, z.2.1, z.2.2.prune q) := by
  induction f generalizing anc with
  | nil => rfl
  | cons n k r ihk ihr =>
    simp only [Forest.prunedKeys] at hx
    simp only [Forest.prune]
    split at hx
    next hq =>
      rw [if_pos hq]
      simp only [List.mem_append, List.mem_cons, not_or] at hx
      rw [locate, if_neg (Ne.symm hx.1.1), locate_none hx.1.2, ihr hx.2]
      rfl
    next hq =>
      rw [if_neg hq]
      simp only [List.mem_append, not_or] at hx
      simp only [locate]
      split
      · rfl
      · rw [ihk hx.1, ihr hx.2]
        cases locate x (n :: anc) k <;> rfl

/-- Nodes that are not among the old children of `d`. -/
theorem locate_setKids_out {f : Forest} (hu : f.UniqueKeys) {d : Nat} {X K : Forest} (hK : f.kidsOf d = some K) {x : Nat} (hd : x ≠ d)
    (hX : x ∉ X.keys) (hxK : x ∉ K.keys) (anc : List Node) :
    locate x anc (f.setKids d X) = (locate x anc f).map fun z => (z.1, z.2.1, z.2.2.setKids d X) := by
  induction f generalizing anc with
  | nil => rfl
  | cons n k r ihk ihr =>
    obtain ⟨h1, h2, h3, h4, h5⟩ := uk_cons hu
    simp only [Forest.kidsOf] at hK
    simp only [Forest.setKids]
    split at hK
    next hn =>
      cases hK
      rw [if_pos hn]
      simp only [locate]
      rw [locate_none hX, locate_none hxK, UnusedDefs.setKids_not_mem (hn ▸ h2)]
      by_cases hnx : n.key = x
      · exact absurd (hnx.symm.trans hn) hd
      · rw [if_neg hnx, if_neg hnx, Option.none_or]
        cases hr : locate x anc r with
        | none => rfl
        | some z =>
          have hz := (locate_mem hr).2
          have : d ∉ z.2.2.keys := fun hh => (hn ▸ h2) (GroupDefs.kids_subs hz hh)
          simp only [Option.map_some]
          rw [UnusedDefs.setKids_not_mem this]
    next hn =>
      rw [if_neg hn]
      simp only [locate]
      split
      · rfl
      · have e1 : ∀ anc, locate x anc (k.setKids d X) = (locate x anc k).map fun z => (z.1, z.2.1, z.2.2.setKids d X) := by
          intro anc
          by_cases hdk : d ∈ k.keys
          · obtain ⟨c, hc⟩ := Spec.kidsOf_isSome hdk
            rw [hc] at hK
            cases hK
            exact ihk h3 hc anc
          · rw [UnusedDefs.setKids_not_mem hdk]
            cases hr : locate x anc k with
            | none => rfl
            | some z =>
              simp only [Option.map_some]
              rw [UnusedDefs.setKids_not_mem fun hh => hdk (GroupDefs.kids_subs (locate_mem hr).2 hh)]
        have e2 : ∀ anc, locate x anc (r.setKids d X) = (locate x anc r).map fun z => (z.1, z.2.1, z.2.2.setKids d X) := by
          intro anc
          by_cases hdk : d ∈ r.keys
          · rw [UnusedDefs.kidsOf_none fun hh => h5 d hh hdk] at hK
            exact ihr h4 hK anc
          · rw [UnusedDefs.setKids_not_mem hdk]
            cases hr : locate x anc r with
            | none => rfl
            | some z =>
              simp only [Option.map_some]
              rw [UnusedDefs.setKids_not_mem fun hh => hdk (GroupDefs.kids_subs (locate_mem hr).2 hh)]
        rw [e1, e2]
        cases locate x (n :: anc) k <;> rfl

/-- Nodes that are among the new children of `d`. -/
theorem locate_setKids_in {f : Forest} (hu : f.UniqueKeys) {d : Nat} {X : Forest} {a anc : List Node} {dn : Node} {K : Forest}
    (hK : locate d anc f = some (a, dn, K)) {x : Nat} (hd : x ≠ d) (hX : x ∈ X.keys) (hxK : x ∈ f.keys → x ∈ K.keys) :
    locate x anc (f.setKids d X) = locate x (dn :: a) X := by
  induction f generalizing anc with
  | nil => cases hK
  | cons n k r ihk ihr =>
    obtain ⟨h1, h2, h3, h4, h5⟩ := uk_cons hu
    simp only [locate] at hK
    simp only [Forest.setKids]
    rw [Forest.keys_cons] at hxK
    split at hK
    next hn =>
      cases hK
      rw [if_pos hn, UnusedDefs.setKids_not_mem (hn ▸ h2)]
      rw [locate, if_neg (fun e => hd (e.symm.trans hn))]
      obtain ⟨z, hz⟩ := locate_some hX (dn :: a)
      rw [hz]; rfl
    next hn =>
      rw [if_neg hn]
      by_cases hdk : d ∈ k.keys
      · obtain ⟨z, hz⟩ := locate_some hdk (n :: anc)
        rw [hz] at hK
        cases hK
        have hKk : ∀ y ∈ K.keys, y ∈ k.keys := fun y hy => GroupDefs.kids_subs (locate_mem hz).2 hy
        have hnx : n.key ≠ x := fun e => h1 (e ▸ hKk x (hxK (by simp [e])))
        rw [locate, if_neg hnx, ihk h3 hz (fun hh => hxK (by simp [hh])), UnusedDefs.setKids_not_mem (h5 d hdk),
          locate_none (fun hh => h5 x (hKk x (hxK (by simp [hh]))) hh), Option.or_none]
      · rw [locate_none hdk, Option.none_or] at hK
        have hKr : ∀ y ∈ K.keys, y ∈ r.keys := fun y hy => GroupDefs.kids_subs (locate_mem hK).2 hy
        have hnx : n.key ≠ x := fun e => h2 (e ▸ hKr x (hxK (by simp [e])))
        rw [locate, if_neg hnx, UnusedDefs.setKids_not_mem hdk, locate_none (fun hh => h5 x hh (hKr x (hxK (by simp [hh])))), Option.none_or]
        exact ihr h4 hK (fun hh => hxK (by simp [hh]))

/-- The node `d` itself. -/
theorem locate_setKids_self {f : Forest} {d : Nat} {X : Forest} {a anc : List Node} {dn : Node} {K : Forest} (hu : f.UniqueKeys)
    (hK : locate d anc f = some (a, dn, K)) : locate d anc (f.setKids d X) = some (a, dn, X) := by
  induction f generalizing anc with
  | nil => cases hK
  | cons n k r ihk ihr =>
    obtain ⟨h1, h2, h3, h4, h5⟩ := uk_cons hu
    simp only [locate] at hK
    simp only [Forest.setKids]
    split at hK
    next hn => cases hK; rw [if_pos hn, locate, if_pos hn]
    next hn =>
      rw [if_neg hn, locate, if_neg hn]
      rcases Option.or_eq_some_iff.1 hK with hK | ⟨hk, hK⟩
      · rw [ihk h3 hK]; rfl
      · have : d ∉ k.keys := fun hh => by obtain ⟨z, hz⟩ := locate_some hh (n :: anc); rw [hz] at hk; cases hk
        rw [UnusedDefs.setKids_not_mem this, hk, ihr h4 hK]; rfl

/-- What is inside of the node `k`. -/
theorem locate_inside {f : Forest} (hu : f.UniqueKeys) {k : Nat} {a anc : List Node} {n : Node} {c : Forest}
    (hk : locate k anc f = some (a, n, c)) {x : Nat} (hx : x ∈ (Forest.cons n c .nil).keys) : locate x anc f = locate x a (.cons n c .nil) := by
  induction f generalizing anc with
  | nil => cases hk
  | cons m ks r ihk ihr =>
    obtain ⟨h1, h2, h3, h4, h5⟩ := uk_cons hu
    simp only [locate] at hk
    split at hk
    next hn =>
      cases hk
      have : x ∉ r.keys := by
        rw [Forest.keys_cons] at hx
        simp only [Forest.keys_nil, List.append_nil, List.mem_cons] at hx
        rcases hx with rfl | hx
        · exact h2
        · exact h5 x hx
      simp only [locate]
      rw [locate_none this]
    next hn =>
      have sub : ∀ {F : Forest} {b : List Node}, locate k b F = some (a, n, c) → ∀ y ∈ (Forest.cons n c .nil).keys, y ∈ F.keys := by
        intro F b hb y hy
        have hs := (locate_mem hb).2
        rw [Forest.keys_cons] at hy
        simp only [Forest.keys_nil, List.append_nil, List.mem_cons] at hy
        rcases hy with rfl | hy
        · exact GroupDefs.key_subs hs
        · exact GroupDefs.kids_subs hs hy
      rcases Option.or_eq_some_iff.1 hk with hk | ⟨hn', hk⟩
      · have hxk := sub hk x hx
        rw [locate, if_neg (fun e : m.key = x => h1 (e ▸ hxk)), ihk h3 hk, locate_none (h5 x hxk), Option.or_none]
      · have hxr := sub hk x hx
        rw [locate, if_neg (fun e : m.key = x => h2 (e ▸ hxr)), locate_none (fun hh => h5 x hh hxr), Option.none_or, ihr h4 hk]

/-! ### Nodes that are taken away -/

theorem spots_of_subs {p : Kind} {f : Forest} {x : Node × Forest} (hx : x ∈ subs f) : ∀ z ∈ spots x.1.kind x.2, z ∈ spots p f := by
  induction f generalizing p with
  | nil => cases hx
  | cons n k r ihk ihr =>
    intro z hz
    simp only [subs, List.mem_cons, List.mem_append] at hx
    simp only [spots, List.mem_cons, List.mem_append]
    rcases hx with rfl | hx | hx
    · exact .inr (.inl hz)
    · exact .inr (.inl (ihk hx z hz))
    · exact .inr (.inr (ihr hx z hz))

/-- The nodes that satisfy `q` are never drawn and stand where this has no effect, or are in `defs` elements. -/
def Harmless (q : Node → Bool) (p : Kind) (f : Forest) : Prop :=
  ∀ z ∈ spots p f, q z.2.1 = true → (gone z.1 z.2.1.kind = true ∧ neverRendered z.2.1.kind = true) ∨ z.1 = .elem .defs

theorem Harmless.kids {q : Node → Bool} {p : Kind} {f : Forest} (h : Harmless q p f) {x : Node × Forest} (hx : x ∈ subs f) :
    Harmless q x.1.kind x.2 := fun z hz => h z (spots_of_subs hx z hz)

theorem pics_prune {q : Node → Bool} {p : Kind} {f : Forest} (h : Harmless q p f) (hp : p ≠ .elem .defs) (π : Painter P) (env : Env P) (c : Ctx) :
    Skip π p (pics π env c f) (pics π env c (f.prune q)) := by
  induction f generalizing p c with
  | nil => exact .nil
  | cons n k r ihk ihr =>
    have hr : Harmless q p r := fun z hz => h z (by simp [spots, hz])
    simp only [Forest.prune]
    split
    next hq =>
      obtain ⟨hg, hn⟩ := (h (p, n, k) (by simp [spots]) hq).resolve_right hp
      exact .drop _ hg (.inr (by simp [draw, hn])) (ihr hr hp c)
    next hq =>
      simp only [pics]
      have : draw π env c n (pics π env (c.enter n) k) = draw π env c n (pics π env (c.enter n) (k.prune q)) := by
        unfold draw
        cases hn : neverRendered n.kind with
        | true => rfl
        | false =>
          have hd : n.kind ≠ .elem .defs := fun e => by rw [e] at hn; cases hn
          rw [if_neg (by simp), if_neg (by simp)]
          exact body_skip (ihk (h.kids (x := (n, k)) (by simp [subs])) hd _) env noVia c
      rw [this]
      exact .keep _ (ihr hr hp c)

theorem sameInst_prune {q : Node → Bool} {n : Node} {k : Forest} (h : Harmless q n.kind k) (hn : n.kind ≠ .elem .defs) : SameInst n k n (k.prune q) :=
  fun P π env via c => body_skip (pics_prune h hn π env (c.enter n)) env via c

theorem SameInst.trans {n n' n'' : Node} {k k' k'' : Forest} (a : SameInst n k n' k') (b : SameInst n' k' n'' k'') : SameInst n k n'' k'' :=
  fun P π env via c => (a P π env via c).trans (b P π env via c)

theorem sameInst_setKids {n : Node} {k : Forest} {d : Nat} (h : ∀ m ∈ k.nodes, m.key = d → neverRendered m.kind = true) (X : Forest) :
    SameInst n k n (k.setKids d X) := fun P π env via c => by rw [UnusedDefs.pics_setKids h]

theorem styleOf_append {a b : List Node} (h : styleOf a = styleOf b) (l : List Node) : styleOf (l ++ a) = styleOf (l ++ b) := by
  induction l with
  | nil => exact h
  | cons n t ih => rw [List.cons_append, List.cons_append, styleOf, styleOf, ih]

end Verif.Render

namespace Verif.GroupDefs
open Verif.Dom Verif.Spec Verif.Render
open Verif.ResolveUse (subtree)
open Verif.UnusedDefs (setKids_not_mem kidsOf_subs)

theorem locate_of_sub {f : Forest} (hu : f.UniqueKeys) {x : Node × Forest} (h : x ∈ subs f) : ∃ anc, locate x.1.key [] f = some (anc, x) := by
  obtain ⟨⟨a, z⟩, hz⟩ := locate_some (key_subs h) []
  have := locate_mem hz
  refine ⟨a, ?_⟩
  rw [hz, show z = x from subs_unique hu this.2 h this.1]

theorem locate_root {f : Forest} {x : Node × Forest} (h : svgElement f = some x) (hu : f.UniqueKeys) : locate x.1.key [] f = some ([], x) := by
  induction f with
  | nil => cases h
  | cons n k r _ ihr =>
    obtain ⟨h1, h2, h3, h4, h5⟩ := uk_cons hu
    simp only [svgElement] at h
    split at h
    · cases h
      rw [locate, if_pos rfl]
    · have hr := key_subs (svgElement_mem h).1
      rw [locate, if_neg (fun e : n.key = x.1.key => h2 (e ▸ hr)), locate_none (fun hh => h5 _ hh hr), Option.none_or]
      exact ihr h h4

section
variable {d : Nat} {f : Forest} {s dn : Node} {D r : Forest} (P : Placed d f s dn D r)
include P

theorem Placed.loc : locate d [] f = some ([s], dn, D) := by
  have h1 := locate_root P.root P.unique
  have hd : d ∈ (Forest.cons s (.cons dn D r) .nil).keys := by simp [P.key]
  rw [locate_inside P.unique h1 hd, locate, if_neg P.sne]
  simp only [locate]
  rw [if_pos P.key]
  rfl

/-- Where a node is after a move. -/
theorem Placed.move {k : Nat} {anc : List Node} {n : Node} {c : Forest} (hk : locate k [] f = some (anc, n, c)) (hkd : k ≠ d) (hks : k ≠ s.key)
    (hh : Harmless (fun m => decide (m.key = k)) top f) {x : Nat} {z : List Node × Node × Forest} (hz : locate x [] f = some z) :
    ∃ z', locate x [] (moveTo d k f) = some z' ∧ z'.2.1 = z.2.1 ∧
      ((x ∉ (Forest.cons n c .nil).keys ∧ z'.1 = z.1) ∨ (x ∈ (Forest.cons n c .nil).keys ∧ ∃ inner, z.1 = inner ++ anc ∧ z'.1 = inner ++ [dn, s])) ∧
      (z.2.1.kind ≠ .elem .defs → SameInst z.2.1 z.2.2 z'.2.1 z'.2.2) := by
  have hu := P.unique
  obtain ⟨hnk, hsub⟩ := locate_mem hk
  dsimp only at hnk
  have hsubt : subtree k f = some (n, c) := by rw [subtree_locate k [] f, hk]; rfl
  have hcl : Clear d [k] f := P.clear (by simpa using hks.symm) (by simpa using hkd.symm)
  have hdN : d ∉ (Forest.cons n c .nil).keys := by
    have := hcl (n, c) hsub (by simp [hnk])
    simp only [Forest.keys_cons, Forest.keys_nil, List.append_nil, List.mem_cons, not_or]
    exact ⟨fun e => this.1 e.symm, this.2⟩
  rw [moveTo_eq hsubt]
  have hperm : (f.prunedKeys fun m => decide (m.key = k)).Perm (Forest.cons n c .nil).keys := by
    have h1 := Forest.keys_prune_perm (fun m => decide (m.key = k)) f
    have h2 := (nodes_prune_one hu hsub).map Node.key
    rw [List.map_append, hnk] at h2
    have h3 := (h1.trans h2).trans List.perm_append_comm
    have h4 := (List.perm_append_right_iff _).1 h3
    rw [Forest.keys_cons, Forest.keys_nil, List.append_nil]
    exact h4
  have hpk : ∀ x, x ∈ f.prunedKeys (fun m => decide (m.key = k)) ↔ x ∈ (Forest.cons n c .nil).keys := fun x => hperm.mem_iff
  have hg0 : ∀ x, x ∈ (f.prune fun m => decide (m.key = k)).keys → x ∉ (Forest.cons n c .nil).keys := by
    intro x hx hN
    have h1 := (Forest.keys_prune_perm (fun m => decide (m.key = k)) f).nodup_iff.2 hu
    exact (List.nodup_append.1 h1).2.2 x ((hpk x).2 hN) x hx rfl
  have hu0 : (f.prune fun m => decide (m.key = k)).UniqueKeys := Forest.uniqueKeys_prune hu
  have hd0 : locate d [] (f.prune fun m => decide (m.key = k)) = some ([s], dn, D.prune fun m => decide (m.key = k)) := by
    rw [locate_prune (fun h => hdN ((hpk d).1 h)), P.loc]
    rfl
  have hK0 : (f.prune fun m => decide (m.key = k)).kidsOf d = some (D.prune fun m => decide (m.key = k)) := by
    rw [kidsOf_locate d [] _, hd0]; rfl
  have hloc0 : ∀ x, x ∉ (Forest.cons n c .nil).keys → locate x [] (f.prune fun m => decide (m.key = k)) =
      (locate x [] f).map fun z => (z.1, z.2.1, z.2.2.prune fun m => decide (m.key = k)) := fun x hx => locate_prune (fun h => hx ((hpk x).1 h)) []
  rw [hK0, Option.getD_some]
  have hdk : ∀ m ∈ (f.prune fun m => decide (m.key = k)).nodes, m.key = d → neverRendered m.kind = true := by
    intro m hm he
    have : m = dn := Forest.eq_of_key hu ((Forest.nodes_prune_sublist _ _).mem hm) (UnusedDefs.node_of_subs P.sub_main) (he.trans P.key.symm)
    rw [this, P.kind]; rfl
  have hD0 : ∀ y ∈ (D.prune fun m => decide (m.key = k)).keys, y ∈ (f.prune fun m => decide (m.key = k)).keys := fun y hy =>
    kids_subs (locate_mem hd0).2 hy
  generalize hq : (fun m : Node => decide (m.key = k)) = q at *
  have hsame : z.2.1.kind ≠ .elem .defs → SameInst z.2.1 z.2.2 z.2.1 (z.2.2.prune q) := sameInst_prune (hh.kids (locate_mem hz).2)
  by_cases hxN : x ∈ (Forest.cons n c .nil).keys
  · -- it has been moved
    have hxd : x ≠ d := fun e => hdN (e ▸ hxN)
    have hx0 : x ∉ (f.prune q).keys := fun h => hg0 x h hxN
    have h1 : locate x [] f = locate x anc (.cons n c .nil) := locate_inside hu hk hxN
    rw [hz, locate_acc] at h1
    obtain ⟨w, hw, e⟩ := Option.map_eq_some_iff.1 h1.symm
    refine ⟨(w.1 ++ [dn, s], w.2), ?_, by rw [← e], .inr ⟨hxN, w.1, by rw [← e], rfl⟩, fun _ => by rw [← e]; exact fun _ _ _ _ _ => rfl⟩
    rw [locate_setKids_in hu0 hd0 hxd (by rw [Forest.keys_append]; exact List.mem_append_right _ hxN) (fun h => absurd h hx0), locate_append,
      locate_none (fun h => hx0 (hD0 x h)), Option.none_or, locate_acc, hw]
    rfl
  · have hz0 := hloc0 x hxN
    rw [hz, Option.map_some] at hz0
    by_cases hxd : x = d
    · subst hxd
      rw [P.loc] at hz
      cases hz
      refine ⟨_, locate_setKids_self hu0 hd0, rfl, .inl ⟨hxN, rfl⟩, fun h => absurd P.kind h⟩
    · by_cases hxD : x ∈ (D.prune q).keys
      · refine ⟨(z.1, z.2.1, z.2.2.prune q), ?_, rfl, .inl ⟨hxN, rfl⟩, hsame⟩
        rw [← hz0, locate_setKids_in hu0 hd0 hxd (by rw [Forest.keys_append]; exact List.mem_append_left _ hxD) (fun _ => hxD), locate_append,
          locate_none hxN, Option.or_none, locate_inside hu0 hd0 (x := x) (by simp [hxD])]
        simp only [locate]
        rw [if_neg (fun e : dn.key = x => hxd (e.symm.trans P.key)), Option.or_none]
      · refine ⟨(z.1, z.2.1, (z.2.2.prune q).setKids d (D.prune q ++ .cons n c .nil)), ?_, rfl, .inl ⟨hxN, rfl⟩, fun h => (hsame h).trans ?_⟩
        · rw [locate_setKids_out hu0 hK0 hxd (by rw [Forest.keys_append, List.mem_append, not_or]; exact ⟨hxD, hxN⟩) hxD, hz0]
          rfl
        · refine sameInst_setKids (fun m hm => hdk m ?_) _
          exact (Stops.subs_kids_sub (locate_mem hz0).2).1.mem hm

end

/-! ### Parents -/

theorem spots_prune {q : Node → Bool} {p : Kind} {f : Forest} {z : Kind × Node × Forest} (h : z ∈ spots p (f.prune q)) :
    ∃ ks, (z.1, z.2.1, ks) ∈ spots p f := by
  induction f generalizing p with
  | nil => cases h
  | cons n k r ihk ihr =>
    simp only [Forest.prune] at h
    split at h
    · obtain ⟨ks, hs⟩ := ihr h
      exact ⟨ks, by simp [spots, hs]⟩
    · simp only [spots, List.mem_cons, List.mem_append] at h
      rcases h with rfl | h | h
      · exact ⟨k, by simp [spots]⟩
      · obtain ⟨ks, hs⟩ := ihk h
        exact ⟨ks, by simp [spots, hs]⟩
      · obtain ⟨ks, hs⟩ := ihr h
        exact ⟨ks, by simp [spots, hs]⟩

theorem spots_append (p : Kind) (a b : Forest) : spots p (a ++ b) = spots p a ++ spots p b := by
  induction a with
  | nil => rfl
  | cons n k r _ ihr =>
    rw [show Forest.cons n k r ++ b = Forest.cons n k (r ++ b) from rfl]
    simp [spots, ihr]

theorem spots_setKids {d : Nat} {X : Forest} {p : Kind} {f : Forest} {z : Kind × Node × Forest} (h : z ∈ spots p (f.setKids d X)) :
    (∃ ks, (z.1, z.2.1, ks) ∈ spots p f) ∨ ∃ n ∈ f.nodes, n.key = d ∧ z ∈ spots n.kind X := by
  induction f generalizing p with
  | nil => cases h
  | cons n k r ihk ihr =>
    simp only [Forest.setKids] at h
    split at h
    next hn =>
      simp only [spots, List.mem_cons, List.mem_append] at h
      rcases h with rfl | h | h
      · exact .inl ⟨k, by simp [spots]⟩
      · exact .inr ⟨n, by simp, hn, h⟩
      · rcases ihr h with ⟨ks, hs⟩ | ⟨m, hm, e⟩
        · exact .inl ⟨ks, by simp [spots, hs]⟩
        · exact .inr ⟨m, by simp [hm], e⟩
    next hn =>
      simp only [spots, List.mem_cons, List.mem_append] at h
      rcases h with rfl | h | h
      · exact .inl ⟨k, by simp [spots]⟩
      · rcases ihk h with ⟨ks, hs⟩ | ⟨m, hm, e⟩
        · exact .inl ⟨ks, by simp [spots, hs]⟩
        · exact .inr ⟨m, by simp [hm], e⟩
      · rcases ihr h with ⟨ks, hs⟩ | ⟨m, hm, e⟩
        · exact .inl ⟨ks, by simp [spots, hs]⟩
        · exact .inr ⟨m, by simp [hm], e⟩

theorem spots_nodes {p : Kind} {f : Forest} {z : Kind × Node × Forest} (h : z ∈ spots p f) : z.2.1 ∈ f.nodes :=
  UnusedDefs.node_of_subs (spots_subs h)

theorem spots_moveTo {d k : Nat} {f : Forest} {s dn : Node} {D r : Forest} (P : Placed d f s dn D r) {z : Kind × Node × Forest}
    (h : z ∈ spots top (moveTo d k f)) : z.2.1 ∈ f.nodes ∧ ((∃ ks, (z.1, z.2.1, ks) ∈ spots top f) ∨ (z.1 = .elem .defs ∧ z.2.1.key = k)) := by
  have done : ∀ {ks}, (z.1, z.2.1, ks) ∈ spots top f →
      z.2.1 ∈ f.nodes ∧ ((∃ ks, (z.1, z.2.1, ks) ∈ spots top f) ∨ (z.1 = .elem .defs ∧ z.2.1.key = k)) :=
    fun {ks} h => ⟨spots_nodes (z := (z.1, z.2.1, ks)) h, .inl ⟨ks, h⟩⟩
  cases hs : subtree k f with
  | none => unfold moveTo at h; rw [hs] at h; exact done (ks := z.2.2) h
  | some x =>
    have hx := (subtree_mem hs).1
    rw [moveTo_eq hs] at h
    rcases spots_setKids h with ⟨ks, h⟩ | ⟨n, hn, hnd, h⟩
    · obtain ⟨ks, h⟩ := spots_prune h
      exact done h
    · have hn' := (Forest.nodes_prune_sublist _ _).mem hn
      have : n = dn := Forest.eq_of_key P.unique hn' (UnusedDefs.node_of_subs P.sub_main) (hnd.trans P.key.symm)
      rw [spots_append, List.mem_append] at h
      rcases h with h | h
      · cases hk : (f.prune fun m => decide (m.key = k)).kidsOf d with
        | none => rw [hk] at h; cases h
        | some c =>
          rw [hk, Option.getD_some] at h
          obtain ⟨m, hm, hsub⟩ := UnusedDefs.subs_kidsOf hk
          have : m = n := Forest.eq_of_key (Forest.uniqueKeys_prune P.unique) (UnusedDefs.node_of_subs hsub) hn (hm.trans hnd.symm)
          obtain ⟨ks, h⟩ := spots_prune (spots_of_subs hsub z (by rw [this]; exact h))
          exact done h
      · simp only [spots, List.append_nil, List.mem_cons] at h
        rcases h with rfl | h
        · exact ⟨UnusedDefs.node_of_subs hx, .inr ⟨by rw [this]; exact P.kind, (subtree_mem hs).2⟩⟩
        · exact done (ks := z.2.2) (spots_of_subs hx z h)

/-! ### The invariant -/

/-- An element without attributes that the pass gives to others. -/
def Clean (a : Node) : Prop := ∀ x ∈ a.attrs, inheritable x = false

/-- While definitions are moved: `u` are the elements that are referred to, `y` those that `use` elements show, `Q` those that are
moved. -/
structure Inv (u y Q : Nat → Prop) (d : Nat) (s dn : Node) (f : Forest) : Prop where
  placed : ∃ D r, Placed d f s dn D r
  used : ∀ n ∈ f.nodes, n.kind = .elem .defs → ¬ u n.key
  spot : ∀ z ∈ spots top f, isDefinition z.2.1 = true → gone z.1 z.2.1.kind = true
  style : ∀ x, Q x → ∀ z, locate x [] f = some z → styleOf z.1 = styleOf [dn, s]
  own : ∀ z ∈ spots top f, ∀ m : Node, m.kind = z.1 → isScene m = true → ∀ t, z.2.1.kind ≠ .other t
  clean : ∀ x, y x → ∀ z, locate x [] f = some z → (isScene z.2.1 = true ∨ ∃ p t, z.1 = p :: t ∧ isScene p = true) →
    (∀ a ∈ z.1, Clean a) ∧ Clean dn ∧ Clean s
  kids : ∀ z ∈ spots top f, z.1 = .elem .defs → Q z.2.1.key
  links : LinksIn u f
  uses : UsesIn y f

theorem Placed.after {d k : Nat} {f : Forest} {s dn : Node} {D r : Forest} (P : Placed d f s dn D r) (hkd : k ≠ d) (hks : k ≠ s.key) :
    ∃ D' r', Placed d (moveTo d k f) s dn D' r' := by
  have hcl : Clear d [k] f := P.clear (by simpa using hks.symm) (by simpa using hkd.symm)
  have hu : (moveTo d k f).UniqueKeys := (moveTo_keys P.unique P.mem hcl).nodup_iff.2 P.unique
  cases hs : subtree k f with
  | none => exact ⟨D, r, by unfold moveTo; rw [hs]; exact P⟩
  | some x =>
    have h1 := svgElement_prune P.root (p := fun m => decide (m.key = k)) (by simpa using hks.symm)
    have h2 := svgElement_setKids h1 (d := d) P.sne
      (((f.prune fun m => decide (m.key = k)).kidsOf d).getD .nil ++ .cons x.1 x.2 .nil)
    rw [← moveTo_eq hs] at h2
    dsimp only at h2
    rw [Forest.prune, if_neg (by rw [P.key]; simpa using hkd.symm), Forest.setKids, if_pos P.key] at h2
    exact ⟨_, _, hu, h2, P.key, P.kind⟩

theorem neverRendered_def {n : Node} (h : isDefinition n = true) : neverRendered n.kind = true ∧ isElem n.kind = true := by
  unfold isDefinition at h
  split at h <;> first | (cases h; done) | (rename_i e; rw [e]; exact ⟨rfl, rfl⟩)

theorem gone_defs {n : Node} (h : isDefinition n = true) : gone (.elem .defs) n.kind = true := by
  obtain ⟨_, h⟩ := neverRendered_def h
  simp [gone, h, groupPlace, isFrame]

theorem Inv.move {u y Q : Nat → Prop} {d : Nat} {s dn : Node} {f : Forest} (I : Inv u y Q d s dn f) (hyu : ∀ x, y x → u x) {k : Nat}
    (hkd : k ≠ d) (hks : k ≠ s.key) (hQ : Q k) (hpos : ∀ z ∈ spots top f, z.2.1.key = k → isDefinition z.2.1 = true ∨ z.1 = .elem .defs) :
    Inv u y Q d s dn (moveTo d k f) ∧ Moved u y f (moveTo d k f) := by
  obtain ⟨D, r, P⟩ := I.placed
  have hcl : Clear d [k] f := P.clear (by simpa using hks.symm) (by simpa using hkd.symm)
  have hperm := moveTo_nodes P.unique P.mem hcl
  by_cases hkf : k ∈ f.keys
  swap
  · have : moveTo d k f = f := by unfold moveTo; rw [subtree_none.2 hkf]
    rw [this]
    exact ⟨I, Moved.refl _ _ _⟩
  obtain ⟨⟨anc, n, c⟩, hk⟩ := locate_some hkf []
  have hh : Harmless (fun m => decide (m.key = k)) top f := by
    intro z hz he
    rcases hpos z hz (by simpa using he) with h | h
    · exact .inl ⟨I.spot z hz h, (neverRendered_def h).1⟩
    · exact .inr h
  have hst : styleOf anc = styleOf [dn, s] := I.style k hQ _ hk
  have hfound : ∀ x z, locate x [] f = some z → _ := fun x z hz => P.move hk hkd hks hh hz
  have hback : ∀ x z', locate x [] (moveTo d k f) = some z' → ∃ z, locate x [] f = some z ∧ z'.2.1 = z.2.1 ∧
      (z'.1 = z.1 ∨ ∃ inner, z.1 = inner ++ anc ∧ z'.1 = inner ++ [dn, s]) := by
    intro x z' hz'
    have hx : x ∈ f.keys := (moveTo_keys P.unique P.mem hcl).mem_iff.1 (locate_key hz')
    obtain ⟨z, hz⟩ := locate_some hx []
    obtain ⟨z2, h2, e, h3, _⟩ := hfound x z hz
    rw [hz'] at h2
    cases h2
    refine ⟨z, hz, e, ?_⟩
    rcases h3 with h3 | h3
    · exact .inl h3.2
    · exact .inr h3.2
  have hstyle : ∀ {z z' : List Node × Node × Forest}, (z'.1 = z.1 ∨ ∃ inner, z.1 = inner ++ anc ∧ z'.1 = inner ++ [dn, s]) → styleOf z'.1 = styleOf z.1 := by
    rintro z z' (h | ⟨i, h1, h2⟩)
    · rw [h]
    · rw [h1, h2]; exact (styleOf_append hst i).symm
  refine ⟨⟨P.after hkd hks, fun m hm => I.used m (hperm.mem_iff.1 hm), fun z hz hd => ?_, fun x hx z' hz' => ?_, fun z hz m hm hs t => ?_,
    fun x hx z' hz' hs => ?_, fun z hz hd => ?_, fun m hm => I.links m (hperm.mem_iff.1 hm), fun m hm => I.uses m (hperm.mem_iff.1 hm)⟩,
    ⟨fun {T} π env => ?_, fun x a m ks hu hz => ?_⟩⟩
  · rcases (spots_moveTo P hz).2 with ⟨ks, h⟩ | h
    · exact I.spot (z.1, z.2.1, ks) h hd
    · rw [h.1]; exact gone_defs hd
  · obtain ⟨z, hz, _, h⟩ := hback x z' hz'
    rw [hstyle h]
    exact I.style x hx z hz
  · rcases (spots_moveTo P hz).2 with ⟨ks, h⟩ | h
    · exact I.own (z.1, z.2.1, ks) h m hm hs t
    · rw [h.1] at hm
      unfold isScene at hs
      rw [hm] at hs
      cases hs
  · obtain ⟨z, hz, e, h⟩ := hback x z' hz'
    have hnd : isScene dn = false := by unfold isScene; rw [P.kind]
    have old : isScene z.2.1 = true ∨ ∃ p t, z.1 = p :: t ∧ isScene p = true := by
      rcases hs with hs | ⟨p, t, hp, hs⟩
      · exact .inl (e ▸ hs)
      · rcases h with h | ⟨i, h1, h2⟩
        · exact .inr ⟨p, t, h ▸ hp, hs⟩
        · cases i with
          | nil =>
            rw [h2] at hp
            cases hp
            rw [hnd] at hs
            cases hs
          | cons b i =>
            rw [h2] at hp
            cases hp
            exact .inr ⟨_, _, h1, hs⟩
    obtain ⟨h1, h2, h3⟩ := I.clean x hx z hz old
    refine ⟨fun a ha => ?_, h2, h3⟩
    rcases h with h | ⟨i, e1, e2⟩
    · exact h1 a (h ▸ ha)
    · rw [e2] at ha
      rcases List.mem_append.1 ha with ha | ha
      · exact h1 a (by rw [e1]; exact List.mem_append_left _ ha)
      · simp only [List.mem_cons, List.not_mem_nil, or_false] at ha
        rcases ha with rfl | rfl
        · exact h2
        · exact h3
  · rcases (spots_moveTo P hz).2 with ⟨ks, h⟩ | h
    · exact I.kids (z.1, z.2.1, ks) h hd
    · rw [h.2]; exact hQ
  · have hsk := pics_prune hh (by decide) π env Ctx.start
    rw [Skip.stack hsk (by decide)]
    have : subtree k f = some (n, c) := by rw [subtree_locate k [] f, hk]; rfl
    rw [moveTo_eq this, UnusedDefs.pics_setKids]
    intro m hm he
    have : m = dn := Forest.eq_of_key P.unique ((Forest.nodes_prune_sublist _ _).mem hm) (UnusedDefs.node_of_subs P.sub_main) (he.trans P.key.symm)
    rw [this, P.kind]; rfl
  · obtain ⟨z', hz', e, h3, h4⟩ := hfound x _ hz
    have hmk : m.key = x := (locate_mem hz).1
    have hmf : m ∈ f.nodes := UnusedDefs.node_of_subs (locate_mem hz).2
    refine ⟨z'.1, z'.2.1, z'.2.2, hz', by rw [e], hstyle (z := (a, m, ks)) (h3.imp And.right And.right), ?_, fun hy => ?_⟩
    · exact (h4 fun hd => I.used m hmf hd (hmk ▸ hu)).here _
    · exact h4 fun hd => I.used m hmf hd (hmk ▸ hyu x hy)

end Verif.GroupDefs
