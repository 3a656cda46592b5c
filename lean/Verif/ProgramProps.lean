import Verif.Program
import Verif.PipelineCases
/-
C63: the program as a whole.
-/
namespace Verif.Program
open Verif.Dom
open Verif.Cli (Args Opts)
open Verif.Driver (Bytes OS World Msg Flags Result delivered Tool iterPass)
open Verif.Pipeline (Env cleanDoc)

/-! ### Specification vocabulary -/

/-- `b'` is a written form of what the cleaner makes of the document read from `b`. -/
def Cleans (L : Lib) (o : Opts) (b b' : Bytes) : Prop :=
  ∃ d d', L.parse o.parse b = some d ∧ cleanDoc (L.env o.write) o.clean d = .ok d' ∧ b' = L.write o.write d'

/-- `n` times in a row. -/
inductive Passes (L : Lib) (o : Opts) : Nat → Bytes → Bytes → Prop
  | zero (b : Bytes) : Passes L o 0 b b
  | succ {n : Nat} {b c d : Bytes} : Passes L o n b c → Cleans L o c d → Passes L o (n + 1) b d

/-- The cleaner panics on the document read from `b`. -/
def Crashes (L : Lib) (o : Opts) (b : Bytes) : Prop :=
  ∃ d, L.parse o.parse b = some d ∧ cleanDoc (L.env o.write) o.clean d = .panic

/-- The world after an end. -/
def End.world (w : World) : End → World
  | .refused => w
  | .dependency => w
  | .panicked w' => w'
  | .ended r => r.world

/-- The exit status. -/
def End.status : End → Nat
  | .refused => 1
  | .dependency => 0
  | .panicked _ => 101
  | .ended r => r.exitCode

/-- Nothing was reported as an error. -/
def End.clean : End → Prop
  | .ended r => ∀ m ∈ r.msgs, m.isError = false
  | _ => False

/-! ### The program and the driver -/

/-- The cleaner as `Driver.lean` sees it; a panic counts as a failure there. -/
def toolOf (L : Lib) (o : Opts) : Tool where
  Doc := Forest
  parse := L.parse o.parse
  clean d := match cleanDoc (L.env o.write) o.clean d with
    | .ok d' => some d'
    | _ => none
  ser := L.write o.write

def LoopEnd.out : LoopEnd → Option Driver.LoopOut
  | .finished b => some (.finished b)
  | .parseErr => some .parseErr
  | .cleanErr b => some (.cleanErr b)
  | .panic => none

theorem pass_tool (L : Lib) (o : Opts) (b : Bytes) :
    match pass L o b with
    | .ok b' => (toolOf L o).pass b = .ok b' ∧ Cleans L o b b'
    | .parseErr => (toolOf L o).pass b = .error .parseError
    | .cleanErr => (toolOf L o).pass b = .error .cleanError
    | .panic => Crashes L o b ∧ (toolOf L o).pass b = .error .cleanError := by
  unfold pass Tool.pass
  cases hp : L.parse o.parse b with
  | none => simp [toolOf, hp]
  | some d =>
    cases hc : cleanDoc (L.env o.write) o.clean d with
    | ok d' => simp only [toolOf, hp, hc]; exact ⟨trivial, d, d', hp, hc, rfl⟩
    | err e => simp [toolOf, hp, hc]
    | panic => simp only [toolOf, hp, hc]; exact ⟨⟨d, hp, hc⟩, trivial⟩

theorem cleans_pass {L : Lib} {o : Opts} {b b' : Bytes} (h : (toolOf L o).pass b = .ok b') : Cleans L o b b' := by
  have := pass_tool L o b
  cases hp : pass L o b with
  | ok c => rw [hp] at this; rw [this.1] at h; cases h; exact this.2
  | parseErr => rw [hp] at this; rw [this] at h; cases h
  | cleanErr => rw [hp] at this; rw [this] at h; cases h
  | panic => rw [hp] at this; rw [this.2] at h; cases h

theorem passes_iter {L : Lib} {o : Opts} {n : Nat} {b b' : Bytes} (h : iterPass (toolOf L o) n b = .ok b') : Passes L o n b b' := by
  induction n generalizing b' with
  | zero => cases h; exact .zero b
  | succ n ih =>
    unfold iterPass at h
    cases hi : iterPass (toolOf L o) n b with
    | error e => rw [hi] at h; cases h
    | ok c => rw [hi] at h; exact .succ (ih hi) (cleans_pass h)

/-- Without a panic the loop is the driver's. -/
theorem loop_tool (L : Lib) (o : Opts) (m : Bool) (fuel : Nat) (b : Bytes) (p : Nat) (raw : Bytes) (n : Nat) (hn : Passes L o n raw b) :
    (loop L o m fuel b p = none ∧ Driver.loop (toolOf L o) m fuel b p = none) ∨
    (∃ e x, loop L o m fuel b p = some e ∧ e.out = some x ∧ Driver.loop (toolOf L o) m fuel b p = some x) ∨
    (loop L o m fuel b p = some .panic ∧ ∃ k c, Passes L o k raw c ∧ Crashes L o c) := by
  induction fuel generalizing b p n with
  | zero => exact .inl ⟨rfl, rfl⟩
  | succ fuel ih =>
    have ht := pass_tool L o b
    unfold loop Driver.loop
    cases hp : pass L o b with
    | parseErr => rw [hp] at ht; rw [ht]; exact .inr (.inl ⟨.parseErr, _, rfl, rfl, rfl⟩)
    | cleanErr => rw [hp] at ht; rw [ht]; exact .inr (.inl ⟨.cleanErr b, _, rfl, rfl, rfl⟩)
    | panic => rw [hp] at ht; exact .inr (.inr ⟨rfl, n, b, hn, ht.1⟩)
    | ok b' =>
      rw [hp] at ht
      rw [ht.1]
      dsimp only
      cases m with
      | false => exact .inr (.inl ⟨.finished b', _, rfl, rfl, rfl⟩)
      | true =>
        by_cases he : (p == b'.length) = true
        · simp only [Bool.not_true, Bool.false_eq_true, if_false, he, if_true]
          exact .inr (.inl ⟨.finished b', _, rfl, rfl, rfl⟩)
        · simp only [Bool.not_true, Bool.false_eq_true, if_false, he]
          exact ih b' _ (n + 1) (.succ hn ht.2)

/-- The body ends as the driver does, or it panics and then nothing has changed. -/
theorem body_tool {L : Lib} {os : OS} {o : Opts} {f : Flags} {i : Driver.InputFrom} {d : Driver.OutputTo} {w : World} {fuel : Nat} {e : End}
    (h : body L os o f i d w fuel = some e) :
    (∃ r, e = .ended r ∧ Driver.run (toolOf L o) os f i d w fuel = some r) ∨
    (e = .panicked w ∧ ∃ raw k c, Driver.load os i w = .ok raw ∧ Passes L o k raw c ∧ Crashes L o c) := by
  unfold body at h
  unfold Driver.run
  cases hl : Driver.load os i w with
  | error m => rw [hl] at h; cases h; exact .inl ⟨_, rfl, rfl⟩
  | ok raw =>
    rw [hl] at h
    dsimp only at h ⊢
    rcases loop_tool L o f.multipass fuel raw 0 raw 0 (.zero raw) with ⟨h1, h2⟩ | ⟨e', x, h1, hx, h2⟩ | ⟨h1, k, c, hk, hc⟩
    · rw [h1] at h; cases h
    · rw [h1] at h
      cases e' with
      | panic => cases hx
      | finished b =>
        cases hx
        rw [h2]
        cases h
        exact .inl ⟨_, rfl, rfl⟩
      | parseErr =>
        cases hx
        rw [h2]
        cases h
        exact .inl ⟨_, rfl, rfl⟩
      | cleanErr b =>
        cases hx
        rw [h2]
        dsimp only at h ⊢
        generalize Driver.onErr os f i d w = z at h ⊢
        obtain ⟨w', m, q⟩ := z
        cases q <;> cases h <;> exact .inl ⟨_, rfl, rfl⟩
    · rw [h1] at h
      cases h
      exact .inr ⟨rfl, raw, k, c, rfl, hk, hc⟩

/-- What `main` does with an accepted command line. -/
theorem main_cases {L : Lib} {os : OS} {a : Args} {w : World} {fuel : Nat} {e : End} (h : main L os a w fuel = some e) :
    (e = .refused ∧ Cli.clapAccepts a = false) ∨ (e = .dependency ∧ Cli.clapAccepts a = true ∧ Cli.checkValues a = some false) ∨
    (Cli.clapAccepts a = true ∧ Cli.checkValues a = some true ∧
      ∃ o d, Cli.genAll a = some o ∧ Cli.output a = some d ∧ body L os o (flagsOf a o) (inputOf a) (outputOf d) w fuel = some e) := by
  unfold main at h
  cases hc : Cli.clapAccepts a with
  | false => rw [hc] at h; cases h; exact .inl ⟨rfl, rfl⟩
  | true =>
    obtain ⟨⟨b, hb⟩, ⟨d, hd⟩, o, ho, _⟩ := Cli.C09_accepted_args_give_options a hc
    rw [hc, hb] at h
    simp only [Bool.true_eq_false, if_false] at h
    cases b with
    | false => cases h; exact .inr (.inl ⟨rfl, rfl, hb⟩)
    | true => rw [ho, hd] at h; exact .inr (.inr ⟨rfl, hb, o, d, ho, hd, h⟩)

/-! ### C63 -/

/-- C63, a run without an error message: the destination named on the command line, and nothing else, has changed; it holds the
written form of a document that the cleaner, with the options of the command line, has made of the input, in one pass, or, with
`--multipass`, in several. -/
theorem C63_success (L : Lib) (os : OS) (a : Args) (w : World) (fuel : Nat) (e : End) (h : main L os a w fuel = some e) (hc : e.clean) :
    ∃ o d raw k buf, Cli.clapAccepts a = true ∧ Cli.genAll a = some o ∧ Cli.output a = some d ∧ Driver.load os (inputOf a) w = .ok raw ∧
      1 ≤ k ∧ (a.present "multipass" = false → k = 1) ∧ Passes L o k raw buf ∧ (a.present "allow-bigger-file" = false → buf.length ≤ raw.length) ∧
      e.world w = delivered os (outputOf d) w (if o.clean.appendNewline then buf ++ [10] else buf) ∧ e.status = 0 := by
  rcases main_cases h with ⟨rfl, _⟩ | ⟨rfl, _⟩ | ⟨ha, _, o, d, ho, hd, hb⟩
  · exact hc.elim
  · exact hc.elim
  · rcases body_tool hb with ⟨r, rfl, hr⟩ | ⟨rfl, _⟩
    · have hz := (Driver.C56_refuted_exit_status).1 _ _ _ _ _ _ _ _ hr
      obtain ⟨raw, k, buf, hl, hk, _, hi, hw⟩ := Driver.C03_success_writes_last_pass (toolOf L o) os (flagsOf a o) (inputOf a) (outputOf d) w fuel r hr hc
      have hmn : Cli.Key.multipass.name = "multipass" := by decide +kernel
      have han : Cli.Key.allowBiggerFile.name = "allow-bigger-file" := by decide +kernel
      -- the buffer that was written, and in how many passes
      unfold Driver.run at hr
      rw [hl] at hr
      dsimp only at hr
      cases hlp : Driver.loop (toolOf L o) (flagsOf a o).multipass fuel raw 0 with
      | none => rw [hlp] at hr; cases hr
      | some x =>
        rw [hlp] at hr
        cases x with
        | parseErr =>
          cases hr
          exact absurd (hc .parseError (by simp)) (by decide)
        | cleanErr b =>
          dsimp only at hr
          generalize Driver.onErr os (flagsOf a o) (inputOf a) (outputOf d) w = z at hr
          obtain ⟨w', m, q⟩ := z
          exfalso
          cases q <;> cases hr
          · have : Msg.cleanError ∈ (Driver.finish os (flagsOf a o) (inputOf a) (outputOf d) raw.length b w' (.cleanError :: m)).msgs := by
              unfold Driver.finish
              split
              · simp
              · rcases Driver.save os (outputOf d) w' (Driver.withNewline (flagsOf a o) b) with ⟨w2, b2⟩
                cases b2 <;> simp
            exact absurd (hc _ this) (by decide)
          · exact absurd (hc .cleanError (by simp)) (by decide)
        | finished b =>
          cases hr
          have hsz : (!(flagsOf a o).allowBigger && decide (b.length > raw.length)) = false := by
            by_contra hne
            rw [Bool.not_eq_false] at hne
            unfold End.clean Driver.finish at hc
            rw [if_pos hne] at hc
            exact absurd (hc .biggerError (by simp)) (by decide)
          have hdel : (Driver.finish os (flagsOf a o) (inputOf a) (outputOf d) raw.length b w []).world =
              delivered os (outputOf d) w (Driver.withNewline (flagsOf a o) b) := by
            unfold End.clean Driver.finish at hc
            unfold Driver.finish
            rw [hsz] at hc ⊢
            simp only [Bool.false_eq_true, if_false] at hc ⊢
            generalize outputOf d = out at hc ⊢
            unfold Driver.save at hc ⊢
            rcases out with _ | outf <;> cases hsv : os.saveRes <;> simp [hsv, Msg.isError, delivered] at hc ⊢
          obtain ⟨k, hk1, hkm, hkp⟩ : ∃ k, 1 ≤ k ∧ (a.present "multipass" = false → k = 1) ∧ iterPass (toolOf L o) k raw = .ok b := by
            cases hm : (flagsOf a o).multipass with
            | true =>
              rw [hm] at hlp
              obtain ⟨k, h1, h2, h3, _⟩ := (Driver.C04_multipass_stops_at_first_stable _ raw b fuel).1 hlp
              refine ⟨k, h1, fun hn => ?_, h3⟩
              rw [← hmn] at hn
              exact absurd (hm.symm.trans hn) (by decide)
            | false =>
              rw [hm] at hlp
              cases fuel with
              | zero => cases hlp
              | succ n =>
                rw [Driver.C04_single_pass] at hlp
                refine ⟨1, Nat.le_refl _, fun _ => rfl, ?_⟩
                revert hlp
                cases hp : iterPass (toolOf L o) 1 raw with
                | ok b' => intro h; simp at h; rw [h]
                | error e => cases e <;> simp
          refine ⟨o, d, raw, k, b, ha, ho, hd, hl, hk1, hkm, passes_iter hkp, fun hn => ?_, hdel, hz⟩
          rw [← han] at hn
          have : (flagsOf a o).allowBigger = false := hn
          rw [this] at hsz
          simpa using hsz
    · exact hc.elim

/-- C63, a panic: it comes from the cleaner, not from the command line, and no file has been written or created, nothing has been sent to
the output; the exit status is 101. -/
theorem C63_panic (L : Lib) (os : OS) (a : Args) (w w' : World) (fuel : Nat) (h : main L os a w fuel = some (.panicked w')) :
    w' = w ∧ (End.panicked w').status = 101 ∧
      ∃ o raw k c, Cli.genAll a = some o ∧ Driver.load os (inputOf a) w = .ok raw ∧ Passes L o k raw c ∧ Crashes L o c := by
  rcases main_cases h with ⟨he, _⟩ | ⟨he, _⟩ | ⟨_, _, o, d, ho, _, hb⟩
  · cases he
  · cases he
  · rcases body_tool hb with ⟨r, he, _⟩ | ⟨he, raw, k, c, h1, h2, h3⟩
    · cases he
    · cases he
      exact ⟨rfl, rfl, o, raw, k, c, ho, h1, h2, h3⟩

/-- C63, in any case: at most the destination changes; without a destination (the command line is refused) nothing does. -/
theorem C63_only_output (L : Lib) (os : OS) (a : Args) (w : World) (fuel : Nat) (e : End) (h : main L os a w fuel = some e) (i : Nat)
    (hi : ∀ p, Cli.output a = some (.file p) → i ≠ os.resolve p) : (e.world w).fs i = w.fs i := by
  rcases main_cases h with ⟨rfl, _⟩ | ⟨rfl, _⟩ | ⟨_, _, o, d, _, hd, hb⟩
  · rfl
  · rfl
  · rcases body_tool hb with ⟨r, rfl, hr⟩ | ⟨rfl, _⟩
    · refine (Driver.C02_only_output_touched _ _ _ _ _ _ _ _ hr).1 i fun p hp => ?_
      cases d with
      | stdout => cases hp
      | file q => cases hp; exact hi _ hd
    · rfl

/-- A flag is in force: it is written with a value that means yes, or not written while defaults are in force and its default is yes. -/
def InForce (a : Args) (name : String) : Prop :=
  (∃ v, a.value name = some v ∧ Cli.saysYes v = true) ∨ (a.value name = none ∧ a.noDefaults = false)

theorem Passes.last {L : Lib} {o : Opts} {k : Nat} {raw buf : Bytes} (h : Passes L o k raw buf) (hk : 1 ≤ k) : ∃ b, Cleans L o b buf := by
  cases h with
  | zero => exact absurd hk (by decide)
  | succ _ h => exact ⟨_, h⟩

/-- C63, from the command line to the document: if the parser gives documents whose references lead to nodes of theirs, the file
written by a run without an error message is the written form of a document in which each reference leads to one of its nodes, and which
has no element that a flag in force removes. -/
theorem C63_document (L : Lib) (hL : ∀ po b d, L.parse po b = some d → d.UniqueKeys ∧ d.LinksOk)
    (os : OS) (a : Args) (w : World) (fuel : Nat) (e : End) (h : main L os a w fuel = some e) (hc : e.clean) :
    ∃ o d g, Cli.genAll a = some o ∧ Cli.output a = some d ∧
      e.world w = delivered os (outputOf d) w (if o.clean.appendNewline then L.write o.write g ++ [10] else L.write o.write g) ∧
      (∀ n ∈ g.nodes, ∀ k ∈ n.links, ∃ t ∈ g.nodes, t.key = k) ∧
      (InForce a "remove-title" → ∀ n ∈ g.nodes, n.kind ≠ .elem .title) ∧
      (InForce a "remove-desc" → ∀ n ∈ g.nodes, n.kind ≠ .elem .desc) ∧
      (InForce a "remove-metadata" → ∀ n ∈ g.nodes, n.kind ≠ .elem .metadata) := by
  obtain ⟨o, d, raw, k, buf, ha, ho, hd, _, hk, _, hp, _, hw, _⟩ := C63_success L os a w fuel e h hc
  obtain ⟨b, f, g, hf, hg, rfl⟩ := hp.last hk
  obtain ⟨hu, hl⟩ := hL _ _ _ hf
  obtain ⟨o', ho', hfl⟩ := Cli.C06_flag_resolution a ha
  obtain rfl : o' = o := Option.some.inj (ho'.symm.trans ho)
  have key : ∀ x ∈ Cli.docFlags, x.dflt = true → InForce a x.name → x.effect o' = true := by
    intro x hx hdf hin
    rcases hin with ⟨v, hv, hy⟩ | ⟨hv, hn⟩
    · exact ((hfl x hx).1 v hv).trans hy
    · exact ((hfl x hx).2 hv hn).trans hdf
  have hgone := (Pipeline.C59_removed _ _ hu hl hg).1
  refine ⟨o', d, g, ho, hd, hw, fun n hn k hk => ?_, fun hi => ?_, fun hi => ?_, fun hi => ?_⟩
  · exact (Pipeline.C22_references _ _ 42 hu hl hg).2 n hn k hk
  · exact hgone .title (.inl ⟨rfl, key ⟨"remove-title", true, fun o => o.clean.removeTitle⟩ (by simp [Cli.docFlags]) rfl hi⟩)
  · exact hgone .desc (.inr (.inl ⟨rfl, key ⟨"remove-desc", true, fun o => o.clean.removeDesc⟩ (by simp [Cli.docFlags]) rfl hi⟩))
  · exact hgone .metadata (.inr (.inr ⟨rfl, key ⟨"remove-metadata", true, fun o => o.clean.removeMetadata⟩ (by simp [Cli.docFlags]) rfl hi⟩))

/-! ### Cases -/

/-- A document with a title, a gradient, two shapes painted with it. -/
def exDoc : Forest :=
  Pipeline.doc (Pipeline.leaf (Pipeline.el 1 .title "" []) (.cons (Pipeline.el 2 .defs "" [])
    (.cons (Pipeline.el 3 .linearGradient "l" []) (Pipeline.leaf (Pipeline.el 4 .stop "" [(.offset, Pipeline.px 0)]) (Pipeline.leaf (Pipeline.el 5 .stop "" [(.offset, Pipeline.px 1)]) .nil)) .nil)
    (Pipeline.leaf (Pipeline.el 6 .rect "" [(.fill, .funcLink 3), (.width, Pipeline.px 5), (.height, Pipeline.px 5)])
      (Pipeline.leaf (Pipeline.el 7 .circle "" [(.fill, .funcLink 3), (.r, Pipeline.px 5)]) .nil))))

/-- Reads `exDoc` from any file of more than 5 bytes; writes the keys of the nodes. -/
def exLib : Lib where
  parse _ b := if 5 < b.length then some exDoc else if b.length = 5 then some Pipeline.inPattern else none
  write _ d := d.nodes.map fun n => UInt8.ofNat n.key
  env _ := Pipeline.env

def exWorld (n : Nat) : World := { fs := fun i => if i = 0 then some (List.replicate n 0) else none, stdout := [] }

/-- The end of `svgcleaner in.svg out.svg`, as far as it can be compared. -/
def sight (n : Nat) (e : Option End) : Option (Nat × List Msg × Option Bytes × Option Bytes) :=
  e.map fun e => (e.status, (match e with | .ended r => r.msgs | _ => []), (e.world (exWorld n)).fs 0, (e.world (exWorld n)).fs 1)

/-- The hypotheses of `C63_success` and `C63_document` are met: a file of 20 bytes is cleaned, the title is gone, there is a new group (8). -/
example : sight 20 (main exLib Driver.exOS Cli.exArgs (exWorld 20) 1) =
    some (0, [.ratio], some (List.replicate 20 0), some [0, 3, 4, 5, 8, 6, 7]) := by decide +kernel
example : ∀ po b d, exLib.parse po b = some d → d.UniqueKeys ∧ d.LinksOk := by
  intro po b d h
  simp only [exLib] at h
  split at h
  · cases h; decide +kernel
  · split at h
    · cases h; decide +kernel
    · cases h
example : InForce Cli.exArgs "remove-title" := .inr ⟨rfl, rfl⟩

/-- The hypothesis of `C63_panic` is met: the program dies on a file of 5 bytes; both files are as before. -/
example : sight 5 (main exLib Driver.exOS Cli.exArgs (exWorld 5) 1) = some (101, [], some (List.replicate 5 0), none) := by decide +kernel

/-- And a file that is no document. -/
example : sight 2 (main exLib Driver.exOS Cli.exArgs (exWorld 2) 1) = some (0, [.parseError], some (List.replicate 2 0), none) := by decide +kernel

end Verif.Program
