import Verif.GradPaint
/-
Specification of references that are given to other nodes.
-/
namespace Verif.Spec
open Verif.Dom

/-- A value whose references are changed by `ρ`. -/
def renameValue (ρ : Nat → Nat) : Value → Value
  | .link k => .link (ρ k)
  | .funcLink k => .funcLink (ρ k)
  | v => v

/-- An element whose references are changed by `ρ`; nothing else is changed. -/
def rename (ρ : Nat → Nat) (n : Node) : Node := { n with attrs := n.attrs.map fun x => { x with value := renameValue ρ x.value } }

/-- References are made by `xlink:href`, and by the `url(...)` of other attributes; they are all written. -/
def LinkForm (f : Forest) : Prop :=
  ∀ n ∈ f.nodes, ∀ x ∈ n.attrs, x.value.target ≠ none → x.visible = true ∧
    ((x.name = .id .xlinkHref ∧ ∃ k, x.value = .link k) ∨ ∃ a, a ≠ .xlinkHref ∧ x.name = .id a ∧ ∃ k, x.value = .funcLink k)

/-! ### Lemmas -/

theorem renameValue_target (ρ : Nat → Nat) (v : Value) : (renameValue ρ v).target = v.target.map ρ := by cases v <;> rfl

theorem renameValue_none (ρ : Nat → Nat) {v : Value} (h : v.target = none) : renameValue ρ v = v := by
  cases v <;> first | rfl | simp [Value.target] at h

theorem renameValue_comp (ρ σ : Nat → Nat) (v : Value) : renameValue σ (renameValue ρ v) = renameValue (fun k => σ (ρ k)) v := by cases v <;> rfl

theorem renameValue_id {ρ : Nat → Nat} {v : Value} (h : ∀ k, v.target = some k → ρ k = k) : renameValue ρ v = v := by
  cases v <;> first | rfl | exact congrArg _ (h _ rfl)

theorem rename_comp (ρ σ : Nat → Nat) (n : Node) : rename σ (rename ρ n) = rename (fun k => σ (ρ k)) n := by
  simp [rename, renameValue_comp]

theorem rename_id {ρ : Nat → Nat} {n : Node} (h : ∀ k ∈ n.links, ρ k = k) : rename ρ n = n := by
  obtain ⟨k, kd, i, as⟩ := n
  simp only [rename]
  congr 1
  conv => rhs; rw [← List.map_id as]
  refine List.map_congr_left fun x hx => ?_
  rw [renameValue_id fun j hj => h j (Node.mem_links.2 ⟨x, hx, hj⟩)]
  rfl

theorem rename_key (ρ : Nat → Nat) (n : Node) : (rename ρ n).key = n.key := rfl
theorem rename_kind (ρ : Nat → Nat) (n : Node) : (rename ρ n).kind = n.kind := rfl
theorem rename_idd (ρ : Nat → Nat) (n : Node) : (rename ρ n).id = n.id := rfl
theorem rename_gradient (ρ : Nat → Nat) (n : Node) : (rename ρ n).isGradient = n.isGradient := rfl

theorem mem_rename_links {ρ : Nat → Nat} {n : Node} {k : Nat} : k ∈ (rename ρ n).links ↔ ∃ j ∈ n.links, ρ j = k := by
  simp only [Node.mem_links, rename, List.mem_map]
  constructor
  · rintro ⟨y, ⟨x, hx, rfl⟩, ht⟩
    simp only [renameValue_target, Option.map_eq_some_iff] at ht
    obtain ⟨j, hj, e⟩ := ht
    exact ⟨j, ⟨x, hx, hj⟩, e⟩
  · rintro ⟨j, ⟨x, hx, hj⟩, e⟩
    exact ⟨_, ⟨x, hx, rfl⟩, by simp [renameValue_target, hj, e]⟩

theorem getAttr_rename (ρ : Nat → Nat) (n : Node) (a : AName) :
    getAttr (rename ρ n).attrs a = (getAttr n.attrs a).map fun x => { x with value := renameValue ρ x.value } := by
  unfold getAttr rename
  rw [List.find?_map]
  rfl

theorem get_rename (ρ : Nat → Nat) (n : Node) (a : AId) : (rename ρ n).get a = (n.get a).map (renameValue ρ) := by
  unfold Node.get
  rw [getAttr_rename]
  cases getAttr n.attrs (.id a) <;> rfl

theorem written_rename (ρ : Nat → Nat) (n : Node) (a : AId) : written (rename ρ n) a = (written n a).map (renameValue ρ) := by
  unfold written
  rw [getAttr_rename]
  cases getAttr n.attrs (.id a) with
  | none => rfl
  | some x =>
    dsimp only [Option.map_some]
    split <;> rfl

theorem linkForm_rename {f g : Forest} (h : LinkForm f) {ρ : Nat → Nat} (hg : ∀ y ∈ g.nodes, ∃ x ∈ f.nodes, y = rename ρ x) : LinkForm g := by
  intro y hy z hz ht
  obtain ⟨x, hx, rfl⟩ := hg y hy
  obtain ⟨w, hw, rfl⟩ := List.mem_map.1 hz
  have ht' : w.value.target ≠ none := by
    intro e; simp [renameValue_target, e] at ht
  obtain ⟨h1, h2⟩ := h x hx w hw ht'
  refine ⟨h1, ?_⟩
  rcases h2 with ⟨e, k, hk⟩ | ⟨a, ha, e, k, hk⟩
  · exact .inl ⟨e, ρ k, by simp [hk, renameValue]⟩
  · exact .inr ⟨a, ha, e, ρ k, by simp [hk, renameValue]⟩

end Verif.Spec
