import Verif.DomMore
/-
Model of `is_equal_stops` in `src/task/rm_dupl_defs/mod.rs`.
-/
namespace Verif.Dupl
open Verif.Dom

/-- The comparison of two children, `src/task/rm_dupl_defs/mod.rs:140-142`. -/
def sameStop (s t : Node) : Bool :=
  decide (s.get .offset = t.get .offset) && decide (s.get .stopColor = t.get .stopColor) && decide (s.get .stopOpacity = t.get .stopOpacity)

/-- `is_equal_stops`, `src/task/rm_dupl_defs/mod.rs:122-148`, for the children of two nodes. -/
def equalStops (c d : Forest) : Bool :=
  decide (c.top.length = d.top.length) && (c.top.zip d.top).all fun x => sameStop x.1 x.2

theorem forall_of_zip {α : Type} {p : α → α → Bool} {l l' : List α} (hl : l.length = l'.length) (h : (l.zip l').all (fun x => p x.1 x.2) = true) :
    List.Forall₂ (fun s t => p s t = true) l l' := by
  induction l generalizing l' with
  | nil => cases l' with
    | nil => exact .nil
    | cons => cases hl
  | cons a l ih => cases l' with
    | nil => cases hl
    | cons b l' =>
      simp only [List.zip_cons_cons, List.all_cons, Bool.and_eq_true] at h
      exact .cons h.1 (ih (Nat.succ.inj hl) h.2)

theorem equalStops_forall {c d : Forest} (h : equalStops c d = true) : List.Forall₂ (fun s t => sameStop s t = true) c.top d.top := by
  simp only [equalStops, Bool.and_eq_true, decide_eq_true_eq] at h
  exact forall_of_zip h.1 h.2

end Verif.Dupl
