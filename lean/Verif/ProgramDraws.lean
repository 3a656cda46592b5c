import Verif.ProgramProps
import Verif.WholeInput
/-
C71 for the whole program: from the command line to the file that is written.
-/
namespace Verif.Program
open Verif.Dom Verif.Spec
open Verif.Cli (Args)
open Verif.Driver (OS World)
open Verif.Whole (Apt Exact addDefs SameDrawing)
open Verif.Reader (onPaper)
open Verif.Driver (delivered)

/-- What the program writes when it is run once: the written form of what the cleaner makes of the document that is read. -/
theorem once {L : Lib} {os : OS} {a : Args} {w : World} {fuel : Nat} {e : End} (h : main L os a w fuel = some e) (hc : e.clean)
    (hm : a.present "multipass" = false) : ∃ o d raw f g, Cli.genAll a = some o ∧ Cli.output a = some d ∧ Driver.load os (inputOf a) w = .ok raw ∧
      L.parse o.parse raw = some f ∧ Pipeline.cleanDoc (L.env o.write) o.clean f = .ok g ∧
      e.world w = delivered os (outputOf d) w (if o.clean.appendNewline then L.write o.write g ++ [10] else L.write o.write g) := by
  obtain ⟨o, d, raw, k, buf, _, ho, hd, hl, _, h1, hp, _, hw, _⟩ := C63_success L os a w fuel e h hc
  obtain rfl := h1 hm
  cases hp with
  | succ hp hcl =>
    cases hp
    obtain ⟨f, g, hf, hg, rfl⟩ := hcl
    exact ⟨o, d, raw, f, g, ho, hd, hl, hf, hg, hw⟩

/-- **C71** from the command line to the file: a run in one pass, without an error message, on a file whose document meets the conditions of
`C71_input_partial`.  What is written is drawn as what was read (before the attributes are joined to styles; if they are not joined, as it
stands).  Missing: as there, and several passes. -/
theorem C71_program_partial (L : Lib) (os : OS) (a : Args) (w : World) (fuel : Nat) (e : End) (h : main L os a w fuel = some e) (hc : e.clean)
    (hm : a.present "multipass" = false) (hs : ∀ o, Reader.Standard (L.env o).ini) (hn : ∀ o, Reader.Sane (L.env o).ini)
    (hp : ∀ o raw f, Cli.genAll a = some o → Driver.load os (inputOf a) w = .ok raw → L.parse o.parse raw = some f →
      Apt (L.env o.write).ini .shapes o.clean (addDefs f) ∧ ∀ n ∈ f.nodes, Exact o.clean n) :
    ∃ o d raw f g t, Cli.genAll a = some o ∧ Cli.output a = some d ∧ Driver.load os (inputOf a) w = .ok raw ∧ L.parse o.parse raw = some f ∧
      e.world w = delivered os (outputOf d) w (if o.clean.appendNewline then L.write o.write g ++ [10] else L.write o.write g) ∧
      g = Simple.joinStyleAttributes (L.env o.write).nameOf (L.env o.write).ser o.clean.joinStyleAttributes t ∧
      SameDrawing (L.env o.write).ini f (onPaper t) ∧
      (o.clean.joinStyleAttributes = .none → SameDrawing (L.env o.write).ini f (onPaper g)) := by
  obtain ⟨o, d, raw, f, g, ho, hd, hl, hf, hg, hw⟩ := once h hc hm
  obtain ⟨h1, h2⟩ := hp o raw f ho hl hf
  obtain ⟨t, ht, h3, h4⟩ := Whole.C71_input_partial (L.env o.write) o.clean (hs _) (hn _) h1 h2 hg
  exact ⟨o, d, raw, f, g, t, ho, hd, hl, hf, hw, ht, h3, h4⟩

/-- Documents that have been written are read as what is on paper. -/
def Faithful (L : Lib) : Prop := ∀ (o : Cli.Opts) (g f : Forest), L.parse o.parse (L.write o.write g) = some f →
  SameDrawing (L.env o.write).ini (onPaper g) f

theorem passes_draw {L : Lib} (hL : Faithful L) (hs : ∀ o, Reader.Standard (L.env o).ini) (hn : ∀ o, Reader.Sane (L.env o).ini) {o : Cli.Opts}
    (hj : o.clean.joinStyleAttributes = .none) {raw : Driver.Bytes}
    (hp : ∀ k b f, Passes L o k raw b → L.parse o.parse b = some f → Apt (L.env o.write).ini .shapes o.clean (addDefs f) ∧ ∀ n ∈ f.nodes, Exact o.clean n)
    {k : Nat} {buf : Driver.Bytes} (h : Passes L o k raw buf) (hk : 1 ≤ k) :
    ∃ f g, L.parse o.parse raw = some f ∧ buf = L.write o.write g ∧ SameDrawing (L.env o.write).ini f (onPaper g) := by
  generalize hr : raw = r at h
  induction h with
  | zero b => omega
  | @succ n b c d h1 h2 ih =>
    subst hr
    obtain ⟨f1, g, hf, hg, rfl⟩ := h2
    obtain ⟨p1, p2⟩ := hp n c f1 h1 hf
    obtain ⟨-, -, -, h4⟩ := Whole.C71_input_partial (L.env o.write) o.clean (hs _) (hn _) p1 p2 hg
    cases n with
    | zero =>
      cases h1
      exact ⟨f1, g, hf, rfl, h4 hj⟩
    | succ n =>
      obtain ⟨f, g0, e1, rfl, e2⟩ := ih (by omega) rfl
      exact ⟨f, g, e1, rfl, e2.trans ((hL _ _ _ hf).trans (h4 hj))⟩

/-- C71 with `--multipass`, too, if what is written is read as what is on paper: a run without an error message that does not join attributes
to styles, every document of which meets the conditions of `C71_input_partial`.  What is written is drawn as what was read. -/
theorem C71_multipass_partial (L : Lib) (hL : Faithful L) (os : OS) (a : Args) (w : World) (fuel : Nat) (e : End) (h : main L os a w fuel = some e)
    (hc : e.clean) (hs : ∀ o, Reader.Standard (L.env o).ini) (hn : ∀ o, Reader.Sane (L.env o).ini)
    (hj : ∀ o, Cli.genAll a = some o → o.clean.joinStyleAttributes = .none)
    (hp : ∀ o raw k b f, Cli.genAll a = some o → Driver.load os (inputOf a) w = .ok raw → Passes L o k raw b → L.parse o.parse b = some f →
      Apt (L.env o.write).ini .shapes o.clean (addDefs f) ∧ ∀ n ∈ f.nodes, Exact o.clean n) :
    ∃ o d raw f g, Cli.genAll a = some o ∧ Cli.output a = some d ∧ Driver.load os (inputOf a) w = .ok raw ∧ L.parse o.parse raw = some f ∧
      e.world w = delivered os (outputOf d) w (if o.clean.appendNewline then L.write o.write g ++ [10] else L.write o.write g) ∧
      SameDrawing (L.env o.write).ini f (onPaper g) := by
  obtain ⟨o, d, raw, k, buf, _, ho, hd, hl, hk, _, hpp, _, hw, _⟩ := C63_success L os a w fuel e h hc
  obtain ⟨f, g, hf, rfl, hs⟩ := passes_draw hL hs hn (hj o ho) (fun k b f => hp o raw k b f ho hl) hpp hk
  exact ⟨o, d, raw, f, g, ho, hd, hl, hf, hw, hs⟩

/-! ### Example -/

/-- `svgcleaner --join-style-attributes=no in.svg out.svg` -/
def plainArgs : Args := { Cli.exArgs with value := fun s => if s = "join-style-attributes" then some "no" else none }

/-- Reads `wholeDoc`; writes the keys of the nodes. -/
def drawLib : Lib where
  parse _ _ := some Whole.wholeDoc
  write _ d := d.nodes.map fun n => UInt8.ofNat n.key
  env _ := Whole.svgEnv

theorem plain_ends : ∃ e, main drawLib Driver.exOS plainArgs (exWorld 20) 1 = some e ∧ e.clean ∧ e.status = 0 ∧
    (e.world (exWorld 20)).fs 1 = some [0, 3, 12, 7, 8, 9, 10] := by
  have h : sight 20 (main drawLib Driver.exOS plainArgs (exWorld 20) 1) =
    some (0, [.ratio], some (List.replicate 20 0), some [0, 3, 12, 7, 8, 9, 10]) := by decide +kernel
  unfold sight at h
  obtain ⟨e, he, h⟩ := Option.map_eq_some_iff.1 h
  simp only [Prod.mk.injEq] at h
  refine ⟨e, he, ?_, h.1, h.2.2.2⟩
  cases e with
  | ended r =>
    have := h.2.1
    dsimp only at this
    show ∀ m ∈ r.msgs, m.isError = false
    rw [this]
    simp [Driver.Msg.isError]
  | _ => simp at h

theorem plain_apt : ∀ o, Cli.genAll plainArgs = some o → Apt DefaultAttrs.svgInitial .shapes o.clean (addDefs Whole.wholeDoc) ∧
    ∀ n ∈ Whole.wholeDoc.nodes, Exact o.clean n := by
  intro o ho
  have h : (Cli.genAll plainArgs).map (fun o => (Whole.wholeB o.clean (addDefs Whole.wholeDoc), Whole.wholeDoc.nodes.all (Whole.exactB o.clean))) =
    some (true, true) := by decide +kernel
  rw [ho] at h
  have h := Option.some.inj h
  simp only [Prod.mk.injEq] at h
  exact ⟨Whole.whole_of h.1, fun n hn => Whole.exact_of (List.all_eq_true.1 h.2 n hn)⟩

/-- The hypotheses are met by the default options: eleven nodes are read, seven are written, and they are drawn in the same way. -/
example : ∃ e o g, main drawLib Driver.exOS plainArgs (exWorld 20) 1 = some e ∧ Cli.genAll plainArgs = some o ∧
    (e.world (exWorld 20)).fs 1 = some (drawLib.write o.write g) ∧ SameDrawing DefaultAttrs.svgInitial Whole.wholeDoc (onPaper g) := by
  obtain ⟨e, he, hc, _⟩ := plain_ends
  obtain ⟨o, d, raw, f, g, t, ho, hd, hl, hf, hw, _, _, h⟩ := C71_program_partial drawLib _ _ _ _ e he hc rfl
    (fun _ => Reader.svgInitial_standard) (fun _ => Reader.svgInitial_sane) fun o raw f ho _ hf => by
      cases hf
      exact plain_apt o ho
  cases hf
  have hj : (Cli.genAll plainArgs).map (fun o => (o.clean.joinStyleAttributes, o.clean.appendNewline)) = some (.none, false) := by decide +kernel
  rw [ho] at hj
  have hj := Option.some.inj hj
  simp only [Prod.mk.injEq] at hj
  refine ⟨e, o, g, he, ho, ?_, h hj.1⟩
  rw [hw, hj.2, show Cli.output plainArgs = some (.file "out.svg") by decide +kernel] at *
  cases hd
  rfl

/-- `svgcleaner --multipass --join-style-attributes=no in.svg out.svg` -/
def multiArgs : Args := { plainArgs with present := fun s => s = "multipass" }

/-- What one pass leaves of `wholeDoc`. -/
def cleaned : Forest :=
  match Cli.genAll multiArgs with
  | some o => match Pipeline.cleanDoc Whole.svgEnv o.clean Whole.wholeDoc with | .ok g => onPaper g | _ => .nil
  | none => .nil

/-- Reads `wholeDoc` from files of 20 bytes, and what it has written. -/
def multiLib : Lib where
  parse _ b := if b = [1] then some cleaned else if b.length = 20 then some Whole.wholeDoc else none
  write _ d := if onPaper d = cleaned then [1] else [2, 2]
  env _ := Whole.svgEnv

theorem multi_faithful : Faithful multiLib := by
  intro o g f h
  simp only [multiLib] at h
  by_cases c : onPaper g = cleaned
  · rw [if_pos c, if_pos rfl] at h
    cases h
    rw [c]; exact Whole.SameDrawing.refl _
  · rw [if_neg c, if_neg (by decide), if_neg (by decide)] at h
    cases h

/-- The hypotheses of `C71_multipass_partial` are met: two passes, of which the second changes nothing. -/
example : sight 20 (main multiLib Driver.exOS multiArgs (exWorld 20) 3) = some (0, [.ratio], some (List.replicate 20 0), some [1]) := by decide +kernel

theorem multi_apt : ∀ o b f, Cli.genAll multiArgs = some o → multiLib.parse o.parse b = some f →
    Apt DefaultAttrs.svgInitial .shapes o.clean (addDefs f) ∧ ∀ n ∈ f.nodes, Exact o.clean n := by
  have key : ∀ f, (Cli.genAll multiArgs).map (fun o => (Whole.wholeB o.clean (addDefs f), f.nodes.all (Whole.exactB o.clean))) = some (true, true) →
      ∀ o, Cli.genAll multiArgs = some o → Apt DefaultAttrs.svgInitial .shapes o.clean (addDefs f) ∧ ∀ n ∈ f.nodes, Exact o.clean n := by
    intro f h o ho
    rw [ho] at h
    have h := Option.some.inj h
    simp only [Prod.mk.injEq] at h
    exact ⟨Whole.whole_of h.1, fun n hn => Whole.exact_of (List.all_eq_true.1 h.2 n hn)⟩
  intro o b f ho h
  simp only [multiLib] at h
  split at h
  · cases h
    exact key _ (by decide +kernel) o ho
  · split at h
    · cases h
      exact key _ (by decide +kernel) o ho
    · cases h

end Verif.Program
