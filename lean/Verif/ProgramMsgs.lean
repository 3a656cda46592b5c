import Verif.ProgramProps
/-
C65: the switches `--quiet`, `--copy-on-error` and `--allow-bigger-file`, from the command line to the files and messages.
-/
namespace Verif.Program
open Verif.Dom
open Verif.Cli (Args Opts)
open Verif.Driver (Bytes OS World Msg Flags Result Tool)

/-! ### The driver -/

theorem finish_quiet (os : OS) (f : Flags) (q : Bool) (i : Driver.InputFrom) (d : Driver.OutputTo) (n : Nat) (buf : Bytes) (w : World) (ms : List Msg) :
    (Driver.finish os { f with quiet := q } i d n buf w ms).world = (Driver.finish os f i d n buf w ms).world ∧
    (Driver.finish os { f with quiet := q } i d n buf w ms).exitCode = (Driver.finish os f i d n buf w ms).exitCode ∧
    (Driver.finish os { f with quiet := q } i d n buf w ms).msgs.filter Msg.isError = (Driver.finish os f i d n buf w ms).msgs.filter Msg.isError := by
  unfold Driver.finish
  dsimp only
  have hn : Driver.withNewline { f with quiet := q } buf = Driver.withNewline f buf := rfl
  have he : Driver.onErr os { f with quiet := q } i d w = Driver.onErr os f i d w := rfl
  rw [hn, he]
  split
  · exact ⟨rfl, rfl, rfl⟩
  · rcases Driver.save os d w (Driver.withNewline f buf) with ⟨w', b⟩
    cases b
    · exact ⟨rfl, rfl, rfl⟩
    · refine ⟨rfl, rfl, ?_⟩
      dsimp only
      cases q <;> cases f.quiet <;> simp [Msg.isError]

theorem run_quiet {t : Tool} {os : OS} {f : Flags} {i : Driver.InputFrom} {d : Driver.OutputTo} {w : World} {fuel : Nat} {r : Result}
    (h : Driver.run t os f i d w fuel = some r) (q : Bool) : ∃ r', Driver.run t os { f with quiet := q } i d w fuel = some r' ∧ r'.world = r.world ∧
      r'.exitCode = r.exitCode ∧ r'.msgs.filter Msg.isError = r.msgs.filter Msg.isError := by
  unfold Driver.run at h ⊢
  cases hl : Driver.load os i w with
  | error m => rw [hl] at h; cases h; exact ⟨_, rfl, rfl, rfl, rfl⟩
  | ok raw =>
    rw [hl] at h
    dsimp only at h ⊢
    cases hlp : Driver.loop t f.multipass fuel raw 0 with
    | none => rw [hlp] at h; cases h
    | some x =>
      rw [hlp] at h
      have he : Driver.onErr os { f with quiet := q } i d w = Driver.onErr os f i d w := rfl
      cases x with
      | finished b =>
        cases h
        obtain ⟨h1, h2, h3⟩ := finish_quiet os f q i d raw.length b w []
        exact ⟨_, rfl, h1, h2, h3⟩
      | parseErr => cases h; exact ⟨_, rfl, rfl, rfl, rfl⟩
      | cleanErr b =>
        dsimp only at h ⊢
        rw [he]
        rcases hz : Driver.onErr os f i d w with ⟨w', m, b'⟩
        rw [hz] at h
        cases b'
        · cases h
          obtain ⟨h1, h2, h3⟩ := finish_quiet os f q i d raw.length b w' (.cleanError :: m)
          exact ⟨_, rfl, h1, h2, h3⟩
        · cases h; exact ⟨_, rfl, rfl, rfl, rfl⟩

/-- Only `finish` reports how much smaller the file is, and not with `quiet`. -/
theorem run_ratio {t : Tool} {os : OS} {f : Flags} {i : Driver.InputFrom} {d : Driver.OutputTo} {w : World} {fuel : Nat} {r : Result}
    (h : Driver.run t os f i d w fuel = some r) (hq : f.quiet = true) : Msg.ratio ∉ r.msgs := by
  have hon : ∀ w, Msg.ratio ∉ (Driver.onErr os f i d w).2.1 := by
    intro w
    unfold Driver.onErr
    split
    · split
      · split <;> simp
      · simp
    · simp
  have hfin : ∀ n buf w ms, Msg.ratio ∉ ms → Msg.ratio ∉ (Driver.finish os f i d n buf w ms).msgs := by
    intro n buf w ms hm
    unfold Driver.finish
    split
    · simp [hm, hon]
    · rcases Driver.save os d w (Driver.withNewline f buf) with ⟨w', b⟩
      cases b <;> simp [hm, hq]
  unfold Driver.run at h
  cases hl : Driver.load os i w with
  | error m =>
    rw [hl] at h; cases h
    intro e
    cases (List.mem_singleton.1 e)
    unfold Driver.load at hl
    split at hl
    · split at hl
      · cases hl
      · split at hl <;> cases hl
    · split at hl <;> cases hl
  | ok raw =>
    rw [hl] at h
    dsimp only at h
    cases hlp : Driver.loop t f.multipass fuel raw 0 with
    | none => rw [hlp] at h; cases h
    | some x =>
      rw [hlp] at h
      cases x with
      | finished b => cases h; exact hfin _ _ _ _ (by simp)
      | parseErr => cases h; simp [hon]
      | cleanErr b =>
        dsimp only at h
        have := hon w
        rcases hz : Driver.onErr os f i d w with ⟨w', m, b'⟩
        rw [hz] at h this
        cases b'
        · cases h; exact hfin _ _ _ _ (by simpa using this)
        · cases h; simpa using this

/-- The run did not deliver a cleaned file because of the document. -/
def Failed (r : Result) : Prop := Msg.parseError ∈ r.msgs ∨ Msg.cleanError ∈ r.msgs ∨ Msg.biggerError ∈ r.msgs

theorem run_failed {t : Tool} {os : OS} {f : Flags} {inf outf : String} {w : World} {fuel : Nat} {r : Result}
    (h : Driver.run t os f (.file inf) (.file outf) w fuel = some r) (hf : Failed r) :
    (f.copyOnError = false → r.world = w ∧ Msg.copyError ∉ r.msgs) ∧
    (f.copyOnError = true → inf ≠ outf → os.resolve inf ≠ os.resolve outf →
      (os.copyRes = .ok → r.world = w.setFile (os.resolve outf) (w.fs (os.resolve inf)) ∧ Msg.copyError ∉ r.msgs) ∧
      (os.copyRes ≠ .ok → Msg.copyError ∈ r.msgs)) := by
  unfold Driver.run at h
  cases hl : Driver.load os (.file inf) w with
  | error m =>
    exfalso
    rw [hl] at h; cases h
    unfold Driver.load at hl
    dsimp only at hl
    unfold Failed at hf
    split at hl
    · cases hl; simp at hf
    · split at hl <;> cases hl
      simp at hf
  | ok raw =>
    have hraw : w.fs (os.resolve inf) = some raw := by
      unfold Driver.load at hl
      dsimp only at hl
      split at hl
      · cases hl
      · split at hl <;> cases hl
        assumption
    rw [hl] at h
    dsimp only at h
    -- what `on_err` does
    have on0 : f.copyOnError = false → Driver.onErr os f (.file inf) (.file outf) w = (w, [], true) := fun h => by simp [Driver.onErr, h]
    have on1 : f.copyOnError = true → inf ≠ outf → os.resolve inf ≠ os.resolve outf → os.copyRes = .ok →
        Driver.onErr os f (.file inf) (.file outf) w = (w.setFile (os.resolve outf) (w.fs (os.resolve inf)), [], true) := fun h1 h2 h3 h4 => by
      simp [Driver.onErr, Driver.fsCopy, h1, h2, h3, h4, hraw]
    have on2 : f.copyOnError = true → inf ≠ outf → os.resolve inf ≠ os.resolve outf → os.copyRes ≠ .ok →
        ∃ w', Driver.onErr os f (.file inf) (.file outf) w = (w', [.copyError], false) := fun h1 h2 h3 h4 => by
      cases hc : os.copyRes with
      | ok => exact absurd hc h4
      | failedUntouched => exact ⟨_, by simp [Driver.onErr, Driver.fsCopy, h1, h2, hc]; rfl⟩
      | failedAfter n => exact ⟨_, by simp [Driver.onErr, Driver.fsCopy, h1, h2, hc]; rfl⟩
    cases hlp : Driver.loop t f.multipass fuel raw 0 with
    | none => rw [hlp] at h; cases h
    | some x =>
      rw [hlp] at h
      cases x with
      | finished b =>
        cases h
        unfold Driver.finish at hf ⊢
        by_cases hb : (!f.allowBigger && decide (b.length > raw.length)) = true
        · rw [if_pos hb]
          dsimp only
          refine ⟨fun hc => ?_, fun h1 h2 h3 => ⟨fun h4 => ?_, fun h4 => ?_⟩⟩
          · rw [on0 hc]; simp
          · rw [on1 h1 h2 h3 h4]; simp
          · obtain ⟨w', e⟩ := on2 h1 h2 h3 h4
            rw [e]; simp
        · exfalso
          rw [if_neg hb] at hf
          rcases hs : Driver.save os (.file outf) w (Driver.withNewline f b) with ⟨w', b'⟩
          rw [hs] at hf
          cases b' <;> cases hq : f.quiet <;> simp [Failed, hq] at hf
      | parseErr =>
        cases h
        refine ⟨fun hc => ?_, fun h1 h2 h3 => ⟨fun h4 => ?_, fun h4 => ?_⟩⟩
        · dsimp only; rw [on0 hc]; simp
        · dsimp only; rw [on1 h1 h2 h3 h4]; simp
        · obtain ⟨w', e⟩ := on2 h1 h2 h3 h4
          dsimp only; rw [e]; simp
      | cleanErr b =>
        dsimp only at h
        refine ⟨fun hc => ?_, fun h1 h2 h3 => ⟨fun h4 => ?_, fun h4 => ?_⟩⟩
        · rw [on0 hc] at h; cases h; simp
        · rw [on1 h1 h2 h3 h4] at h; cases h; simp
        · obtain ⟨w', e⟩ := on2 h1 h2 h3 h4
          rw [e] at h
          cases h
          unfold Driver.finish
          split
          · simp
          · rcases Driver.save os (.file outf) w' (Driver.withNewline f b) with ⟨w2, b2⟩
            cases b2 <;> simp

/-! ### C65 -/

/-- The same command line with or without `--quiet`. -/
def setQuiet (a : Args) (q : Bool) : Args := { a with present := fun s => if s = "quiet" then q else a.present s }

theorem ended_run {L : Lib} {os : OS} {a : Args} {w : World} {fuel : Nat} {r : Result} (h : main L os a w fuel = some (.ended r)) :
    ∃ o d, Cli.clapAccepts a = true ∧ Cli.checkValues a = some true ∧ Cli.genAll a = some o ∧ Cli.output a = some d ∧
      body L os o (flagsOf a o) (inputOf a) (outputOf d) w fuel = some (.ended r) ∧
      Driver.run (toolOf L o) os (flagsOf a o) (inputOf a) (outputOf d) w fuel = some r := by
  rcases main_cases h with ⟨he, _⟩ | ⟨he, _⟩ | ⟨hc, hv, o, d, ho, hd, hb⟩
  · cases he
  · cases he
  · rcases body_tool hb with ⟨r', he, hr⟩ | ⟨he, _⟩
    · cases he; exact ⟨o, d, hc, hv, ho, hd, hb, hr⟩
    · cases he

/-- **C65**: a successful run reports the ratio and nothing else, or nothing with `--quiet`. -/
theorem C65_success_message (L : Lib) (os : OS) (a : Args) (w : World) (fuel : Nat) (r : Result) (h : main L os a w fuel = some (.ended r))
    (hc : (End.ended r).clean) : r.msgs = if a.present "quiet" then [] else [.ratio] := by
  obtain ⟨o, d, _, _, _, _, _, hr⟩ := ended_run h
  have hq : (flagsOf a o).quiet = a.present "quiet" := by
    have : Cli.Key.quiet.name = "quiet" := by decide +kernel
    unfold flagsOf; rw [this]
  rw [← hq]
  generalize flagsOf a o = f at hr
  generalize inputOf a = i at hr
  generalize outputOf d = d at hr
  have hcl : ∀ m ∈ r.msgs, m.isError = false := hc
  unfold Driver.run at hr
  cases hl : Driver.load os i w with
  | error m =>
    exfalso
    rw [hl] at hr; cases hr
    have := hcl m (by simp)
    unfold Driver.load at hl
    split at hl
    · split at hl
      · cases hl; cases this
      · split at hl <;> cases hl
        cases this
    · split at hl <;> cases hl
      cases this
  | ok raw =>
    rw [hl] at hr
    dsimp only at hr
    cases hlp : Driver.loop (toolOf L o) f.multipass fuel raw 0 with
    | none => rw [hlp] at hr; cases hr
    | some x =>
      rw [hlp] at hr
      cases x with
      | finished b =>
        cases hr
        unfold Driver.finish at hcl ⊢
        by_cases hb : (!f.allowBigger && decide (b.length > raw.length)) = true
        · exfalso
          rw [if_pos hb] at hcl
          exact absurd (hcl .biggerError (by simp)) (by decide)
        · rw [if_neg hb] at hcl ⊢
          rcases hs : Driver.save os d w (Driver.withNewline f b) with ⟨w', b'⟩
          rw [hs] at hcl
          cases b'
          · exact absurd (hcl .saveError (by simp)) (by decide)
          · simp
      | parseErr => cases hr; exact absurd (hcl .parseError (by simp)) (by decide)
      | cleanErr b =>
        exfalso
        dsimp only at hr
        rcases hz : Driver.onErr os f i d w with ⟨w', m, b'⟩
        rw [hz] at hr
        cases b' <;> cases hr
        · have : Msg.cleanError ∈ (Driver.finish os f i d raw.length b w' (.cleanError :: m)).msgs := by
            unfold Driver.finish
            split
            · simp
            · rcases Driver.save os d w' (Driver.withNewline f b) with ⟨w2, b2⟩
              cases b2 <;> simp
          exact absurd (hcl _ this) (by decide)
        · exact absurd (hcl .cleanError (by simp)) (by decide)

/-- **C65**: `--quiet` changes nothing but the messages: files, output, exit status and all messages about errors are the same; and the
ratio is not reported. -/
theorem C65_quiet (L : Lib) (os : OS) (a : Args) (w : World) (fuel : Nat) (r : Result) (h : main L os a w fuel = some (.ended r)) (q : Bool) :
    ∃ r', main L os (setQuiet a q) w fuel = some (.ended r') ∧ r'.world = r.world ∧ r'.exitCode = r.exitCode ∧
      r'.msgs.filter Msg.isError = r.msgs.filter Msg.isError ∧ (q = true → Msg.ratio ∉ r'.msgs) := by
  obtain ⟨o, d, hc, hv, ho, hd, hb, hr⟩ := ended_run h
  have hp : ∀ s, s ≠ "quiet" → (setQuiet a q).present s = a.present s := fun s hs => by simp [setQuiet, hs]
  have n1 : Cli.Key.stdout.name = "stdout" := by decide +kernel
  have n2 : Cli.Key.noDefaults.name = "no-defaults" := by decide +kernel
  have n3 : Cli.Key.quiet.name = "quiet" := by decide +kernel
  have n4 : Cli.Key.multipass.name = "multipass" := by decide +kernel
  have n5 : Cli.Key.allowBiggerFile.name = "allow-bigger-file" := by decide +kernel
  have n6 : Cli.Key.copyOnError.name = "copy-on-error" := by decide +kernel
  have hc' : Cli.clapAccepts (setQuiet a q) = true := by
    rw [← hc]
    unfold Cli.clapAccepts
    rw [n1, hp "stdout" (by decide)]
    rfl
  have hv' : Cli.checkValues (setQuiet a q) = some true := hv
  have hrs : ∀ old k, Cli.resolve (setQuiet a q) old k = Cli.resolve a old k := by
    intro old k
    unfold Cli.resolve Cli.resolve?
    rw [n2, hp "no-defaults" (by decide)]
    rfl
  have hri : ∀ old k, Cli.resolveInv (setQuiet a q) old k = Cli.resolveInv a old k := by
    intro old k
    unfold Cli.resolveInv Cli.resolve?
    rw [n2, hp "no-defaults" (by decide)]
    rfl
  have hvo : ∀ s, (setQuiet a q).valueOf s = a.valueOf s := fun _ => rfl
  have ho' : Cli.genAll (setQuiet a q) = some o := by
    rw [← ho]
    unfold Cli.genAll Cli.genParseOptions Cli.genWriteOptions Cli.genCleaningOptions
    simp only [hrs, hri, hvo]
  have hd' : Cli.output (setQuiet a q) = some d := by
    rw [← hd]
    unfold Cli.output
    rw [n1, hp "stdout" (by decide)]
    rfl
  have hi' : inputOf (setQuiet a q) = inputOf a := by
    unfold inputOf Cli.input
    rw [n1, hp "stdout" (by decide)]
    rfl
  have hf' : flagsOf (setQuiet a q) o = { flagsOf a o with quiet := q } := by
    unfold flagsOf
    rw [n3, n4, n5, n6, hp "multipass" (by decide), hp "allow-bigger-file" (by decide), hp "copy-on-error" (by decide)]
    simp [setQuiet]
  obtain ⟨r', h1, h2, h3, h4⟩ := run_quiet hr q
  have hb' : ∃ r', body L os o { flagsOf a o with quiet := q } (inputOf a) (outputOf d) w fuel = some (.ended r') := by
    unfold body at hb ⊢
    cases hl : Driver.load os (inputOf a) w with
    | error m => exact ⟨_, rfl⟩
    | ok raw =>
      rw [hl] at hb
      dsimp only at hb ⊢
      cases hlp : loop L o (flagsOf a o).multipass fuel raw 0 with
      | none => rw [hlp] at hb; cases hb
      | some x =>
        rw [hlp] at hb
        cases x with
        | panic => cases hb
        | finished b => exact ⟨_, rfl⟩
        | parseErr => exact ⟨_, rfl⟩
        | cleanErr b =>
          dsimp only
          rcases Driver.onErr os { flagsOf a o with quiet := q } (inputOf a) (outputOf d) w with ⟨w', m, b'⟩
          cases b' <;> exact ⟨_, rfl⟩
  obtain ⟨r2, hb'⟩ := hb'
  have : r2 = r' := by
    rcases body_tool hb' with ⟨r3, he, hr3⟩ | ⟨he, _⟩
    · cases he
      exact Option.some.inj (hr3.symm.trans h1)
    · cases he
  subst this
  refine ⟨r2, ?_, h2, h3, h4, fun hq => run_ratio h1 hq⟩
  unfold main
  rw [hc', hv', ho', hd', hi']
  show body L os o (flagsOf (setQuiet a q) o) (inputOf a) (outputOf d) w fuel = _
  rw [hf']
  exact hb'

/-- **C65**: `svgcleaner IN OUT`, two different files, and the document cannot be read or cleaned or the result is bigger.  Without
`--copy-on-error` no file has changed.  With it, `OUT` has become a copy of `IN` and nothing else has changed; if it could not be copied,
this is reported. -/
theorem C65_copy_on_error (L : Lib) (os : OS) (a : Args) (w : World) (fuel : Nat) (r : Result) (h : main L os a w fuel = some (.ended r))
    {inf outf : String} (hi : inputOf a = .file inf) (ho : Cli.output a = some (.file outf)) (hf : Failed r) :
    (a.present "copy-on-error" = false → r.world = w ∧ Msg.copyError ∉ r.msgs) ∧
    (a.present "copy-on-error" = true → inf ≠ outf → os.resolve inf ≠ os.resolve outf →
      (os.copyRes = .ok → r.world = w.setFile (os.resolve outf) (w.fs (os.resolve inf)) ∧ Msg.copyError ∉ r.msgs) ∧
      (os.copyRes ≠ .ok → Msg.copyError ∈ r.msgs)) := by
  obtain ⟨o, d, _, _, _, hd, _, hr⟩ := ended_run h
  rw [ho] at hd
  cases hd
  have hcf : (flagsOf a o).copyOnError = a.present "copy-on-error" := by
    have : Cli.Key.copyOnError.name = "copy-on-error" := by decide +kernel
    unfold flagsOf; rw [this]
  rw [hi] at hr
  have := run_failed hr hf
  rw [hcf] at this
  exact this

/-! ### Cases -/

def withSwitch (s : String) : Args := { Cli.exArgs with present := fun x => x == s }

/-- A file that is no document, with `--copy-on-error`. -/
example : sight 2 (main exLib Driver.exOS (withSwitch "copy-on-error") (exWorld 2) 1) =
    some (0, [.parseError], some (List.replicate 2 0), some (List.replicate 2 0)) := by decide +kernel
example : inputOf (withSwitch "copy-on-error") = .file "in.svg" ∧ Cli.output (withSwitch "copy-on-error") = some (.file "out.svg") ∧
    Driver.exOS.resolve "in.svg" ≠ Driver.exOS.resolve "out.svg" ∧ Driver.exOS.copyRes = .ok := by decide +kernel
/-- The copy fails. -/
example : sight 2 (main exLib { Driver.exOS with copyRes := .failedUntouched } (withSwitch "copy-on-error") (exWorld 2) 1) =
    some (0, [.parseError, .copyError], some (List.replicate 2 0), none) := by decide +kernel
/-- The result is bigger. -/
example : sight 6 (main exLib Driver.exOS (withSwitch "copy-on-error") (exWorld 6) 1) =
    some (0, [.biggerError], some (List.replicate 6 0), some (List.replicate 6 0)) := by decide +kernel
/-- `--quiet`. -/
example : sight 20 (main exLib Driver.exOS (withSwitch "quiet") (exWorld 20) 1) =
    some (0, [], some (List.replicate 20 0), some [0, 3, 4, 5, 8, 6, 7]) := by decide +kernel

end Verif.Program
