import Verif.Driver
/-
Properties C01-C04, C56 of the command line driver.
-/
namespace Verif.Driver

/-! ### Specification vocabulary -/

/-- `n` cleaning passes in a row, each fed with the previous output. -/
def iterPass (t : Tool) : Nat → Bytes → Except Msg Bytes
  | 0, b => .ok b
  | n + 1, b =>
    match iterPass t n b with
    | .ok b' => t.pass b'
    | .error e => .error e

/-- One byte if a trailing newline was requested. -/
def newlineBytes (f : Flags) : Nat := if f.appendNewline then 1 else 0

/-- The messages that report a failure. -/
def Msg.isError : Msg → Bool
  | .ratio => false
  | _ => true

/-- The run reported that the document could not be processed (or the result was bigger). -/
def Result.rejected (r : Result) : Prop :=
  Msg.parseError ∈ r.msgs ∨ Msg.cleanError ∈ r.msgs ∨ Msg.biggerError ∈ r.msgs

/-- Size of the output of pass `k`; before the first pass the program remembers 0. -/
def SizeAfter (t : Tool) (raw : Bytes) (k n : Nat) : Prop :=
  (k = 0 ∧ n = 0) ∨ (0 < k ∧ ∃ b, iterPass t k raw = .ok b ∧ b.length = n)

/-- Pass `k` (counted from 1) gave as many bytes as the pass before. -/
def Stable (t : Tool) (raw : Bytes) (k : Nat) : Prop :=
  ∃ n, SizeAfter t raw (k - 1) n ∧ SizeAfter t raw k n

/-- The world in which the destination holds exactly `data` (a file is replaced, a stream is appended to) and
nothing else has changed. -/
def delivered (os : OS) (o : OutputTo) (w : World) (data : Bytes) : World :=
  match o with
  | .file p => w.setFile (os.resolve p) (some data)
  | .stdout => { w with stdout := w.stdout ++ data }

/-! ### Auxiliary lemmas -/

theorem iterPass_succ' (t : Tool) (n : Nat) (b b' : Bytes) (h : t.pass b = .ok b') :
    iterPass t (n + 1) b = iterPass t n b' := by
  induction n with
  | zero => simp [iterPass, h]
  | succ n ih => rw [iterPass, ih, iterPass]

theorem pass_err (t : Tool) (b : Bytes) (e : Msg) (h : t.pass b = .error e) :
    e = .parseError ∨ e = .cleanError := by
  unfold Tool.pass at h
  split at h
  · left; cases h; rfl
  · split at h
    · right; cases h; rfl
    · cases h

theorem take_len (n : Nat) (l : Bytes) : (l.take n).length ≤ l.length := by
  simp [List.length_take]; omega

theorem withNewline_len (f : Flags) (b : Bytes) :
    (withNewline f b).length = b.length + newlineBytes f := by
  unfold withNewline newlineBytes; split <;> simp

/-- Each file holds what it held in `w`, or at most `n` bytes; stdout got at most `n` bytes. -/
def Small (w : World) (n : Nat) (w' : World) : Prop :=
  (∀ i c, w'.fs i = some c → w.fs i = some c ∨ c.length ≤ n) ∧
  ∃ d, w'.stdout = w.stdout ++ d ∧ d.length ≤ n

theorem Small.refl (w : World) (n : Nat) : Small w n w :=
  ⟨fun _ _ h => .inl h, [], by simp, by simp⟩

theorem Small.setFile {w w' : World} {n : Nat} (h : Small w n w') (i : Nat) (c : Bytes)
    (hc : c.length ≤ n) : Small w n (w'.setFile i (some c)) := by
  refine ⟨fun j d hj => ?_, h.2⟩
  by_cases e : j = i
  · simp [World.setFile, e] at hj; subst hj; exact .inr hc
  · simp [World.setFile, e] at hj; exact h.1 j d hj

/-- `w'` has the same contents as `w` in every file other than `outI`. -/
def OnlyOut (os : OS) (output : OutputTo) (w w' : World) : Prop :=
  (∀ i, (∀ p, output = .file p → i ≠ os.resolve p) → w'.fs i = w.fs i) ∧
  (∀ p, output = .file p → w'.stdout = w.stdout)

theorem OnlyOut.refl (os : OS) (o : OutputTo) (w : World) : OnlyOut os o w w :=
  ⟨fun _ _ => rfl, fun _ _ => rfl⟩

theorem OnlyOut.trans {os : OS} {o : OutputTo} {a b c : World} (h : OnlyOut os o a b)
    (k : OnlyOut os o b c) : OnlyOut os o a c :=
  ⟨fun i hi => (k.1 i hi).trans (h.1 i hi), fun p hp => (k.2 p hp).trans (h.2 p hp)⟩

theorem onErr_onlyOut (os : OS) (f : Flags) (i : InputFrom) (o : OutputTo) (w : World) :
    OnlyOut os o w (onErr os f i o w).1 := by
  unfold onErr fsCopy
  rcases i with _ | inf <;> rcases o with _ | outf <;> try exact OnlyOut.refl ..
  dsimp only
  split
  · cases os.copyRes <;> dsimp only
    · constructor
      · intro i hi; have := hi outf rfl; simp [World.setFile, this]
      · intros; rfl
    · exact OnlyOut.refl ..
    · constructor
      · intro i hi; have := hi outf rfl; simp [World.setFile, this]
      · intros; rfl
  · exact OnlyOut.refl ..

theorem save_onlyOut (os : OS) (o : OutputTo) (w : World) (d : Bytes) :
    OnlyOut os o w (save os o w d).1 := by
  unfold save
  rcases o with _ | outf <;> cases os.saveRes <;> dsimp only
  all_goals first
    | exact OnlyOut.refl ..
    | (constructor
       · intro i hi; first | rfl | (have := hi outf rfl; simp [World.setFile, this])
       · intro p hp; first | rfl | cases hp)

theorem onErr_small (os : OS) (f : Flags) (i : InputFrom) (o : OutputTo) (w w' : World) (n : Nat)
    (hs : Small w n w')
    (hin : ∀ p, i = .file p → ∃ c, w.fs (os.resolve p) = some c ∧ c.length ≤ n) :
    Small w n (onErr os f i o w').1 := by
  unfold onErr
  rcases i with _ | inf <;> rcases o with _ | outf <;> try exact hs
  dsimp only
  split
  · have key : ∀ m, Small w n (w'.setFile (os.resolve outf) (some
        ((if os.resolve inf = os.resolve outf then [] else (w'.fs (os.resolve inf)).getD []).take m))) := by
      intro m
      apply hs.setFile
      refine Nat.le_trans (take_len _ _) ?_
      split
      · simp
      · cases hc : w'.fs (os.resolve inf) with
        | none => simp
        | some c =>
          rcases hs.1 _ _ hc with h | h
          · obtain ⟨c', h1, h2⟩ := hin inf rfl
            rw [h1] at h; cases h; simpa using h2
          · simpa using h
    have key' := fun m (h : _ ≤ m) => by
      have := key m; rw [List.take_of_length_le h] at this; exact this
    unfold fsCopy
    cases os.copyRes <;> dsimp only
    · exact key' _ (Nat.le_refl _)
    · exact hs
    · exact key _
  · exact hs

theorem finish_small (os : OS) (f : Flags) (i : InputFrom) (o : OutputTo) (w w' : World)
    (raw buf : Bytes) (ms : List Msg) (hb : f.allowBigger = false)
    (hs : Small w (raw.length + newlineBytes f) w')
    (hso : w'.stdout = w.stdout)
    (hin : ∀ p, i = .file p → ∃ c, w.fs (os.resolve p) = some c ∧ c.length ≤ raw.length + newlineBytes f) :
    Small w (raw.length + newlineBytes f) (finish os f i o raw.length buf w' ms).world := by
  unfold finish
  split
  · exact onErr_small os f i o w w' _ hs hin
  · rename_i hle
    simp [hb] at hle
    have hl : (withNewline f buf).length ≤ raw.length + newlineBytes f := by
      rw [withNewline_len]; omega
    have : Small w (raw.length + newlineBytes f) (save os o w' (withNewline f buf)).1 := by
      unfold save
      rcases o with _ | outf <;> cases os.saveRes <;> dsimp only
      · exact ⟨hs.1, _, by rw [hso], hl⟩
      · exact hs
      · exact ⟨hs.1, _, by rw [hso], Nat.le_trans (take_len _ _) hl⟩
      · exact hs.setFile _ _ hl
      · exact hs
      · exact hs.setFile _ _ (Nat.le_trans (take_len _ _) hl)
    revert this
    rcases save os o w' (withNewline f buf) with ⟨w2, b⟩
    cases b <;> exact id

theorem load_file_some {os : OS} {i : InputFrom} {w : World} {raw : Bytes}
    (hl : load os i w = .ok raw) : ∀ p, i = .file p → w.fs (os.resolve p) = some raw := by
  intro p hp; subst hp
  unfold load at hl
  cases h : w.fs (os.resolve p) with
  | none => simp [h] at hl
  | some c => simp [h] at hl; split at hl <;> simp_all

theorem onErr_stdout (os : OS) (f : Flags) (i : InputFrom) (o : OutputTo) (w : World) :
    (onErr os f i o w).1.stdout = w.stdout := by
  unfold onErr fsCopy
  rcases i with _ | inf <;> rcases o with _ | outf <;> try rfl
  dsimp only
  split
  · cases os.copyRes <;> rfl
  · rfl

/-! ### C01 -/

/-- **C01** Unless `--allow-bigger-file` is given, after the run each file either holds what it held before or
at most as many bytes as the input (plus the newline if asked for); the same for what was
sent to standard output. -/
theorem C01_output_not_bigger (t : Tool) (os : OS) (f : Flags) (i : InputFrom) (o : OutputTo)
    (w : World) (fuel : Nat) (r : Result) (raw : Bytes)
    (hload : load os i w = .ok raw)
    (hbig : f.allowBigger = false)
    (hrun : run t os f i o w fuel = some r) :
    (∀ file c, r.world.fs file = some c →
        w.fs file = some c ∨ c.length ≤ raw.length + newlineBytes f) ∧
    ∃ d, r.world.stdout = w.stdout ++ d ∧ d.length ≤ raw.length + newlineBytes f := by
  show Small w _ r.world
  have hin : ∀ p, i = .file p →
      ∃ c, w.fs (os.resolve p) = some c ∧ c.length ≤ raw.length + newlineBytes f :=
    fun p hp => ⟨raw, load_file_some hload p hp, by omega⟩
  unfold run at hrun
  rw [hload] at hrun
  dsimp only at hrun
  have hs := Small.refl w (raw.length + newlineBytes f)
  cases hlp : loop t f.multipass fuel raw 0 with
  | none => simp [hlp] at hrun
  | some lo =>
    cases lo with
    | finished buf =>
      simp [hlp] at hrun; subst hrun
      exact finish_small os f i o w w raw buf _ hbig hs rfl hin
    | parseErr =>
      simp [hlp] at hrun; subst hrun
      exact onErr_small os f i o w w _ hs hin
    | cleanErr buf =>
      simp only [hlp] at hrun
      have h1 := onErr_small os f i o w w _ hs hin
      have h2 := onErr_stdout os f i o w
      rcases he : onErr os f i o w with ⟨w', m, b⟩
      rw [he] at hrun h1 h2
      cases b <;> simp at hrun <;> subst hrun
      · exact finish_small os f i o w w' raw buf _ hbig h1 h2 hin
      · exact h1

/-- Non-vacuity of C01: a tool that shrinks a 3-byte input to 2 bytes. -/
def exTool : Tool := { Doc := Bytes, parse := some, clean := fun d => some d, ser := fun d => d.take 2 }
def exOS : OS := { resolve := fun p => if p = "in.svg" then 0 else 1, readable := fun _ => true, stdin := none,
                   copyRes := .ok, saveRes := .ok }
def exWorld : World := { fs := fun i => if i = 0 then some [1,2,3] else none, stdout := [] }
def exFlags : Flags := { multipass := true, allowBigger := false, copyOnError := false, quiet := false,
                         appendNewline := true }

example : load exOS (.file "in.svg") exWorld = .ok [1,2,3] ∧ exFlags.allowBigger = false ∧
    ∃ r, run exTool exOS exFlags (.file "in.svg") (.file "out.svg") exWorld 5 = some r ∧
      r.world.fs 1 = some [1,2,10] := by
  refine ⟨rfl, rfl, _, rfl, rfl⟩

/-! ### C02 -/

/-- **C02** (what holds) If the run reports a parse error, a cleaning error or a bigger result, and the operating
system's copy (when one is asked for) does not fail and does not run onto the input file itself, then
nothing changes, except that with `--copy-on-error` and two different paths the destination becomes
a byte copy of the input.

Missing for the full property: a failing copy, and two paths naming one file; see the two
refutations below. -/
theorem C02_failure_is_harmless_partial (t : Tool) (os : OS) (f : Flags) (i : InputFrom) (o : OutputTo)
    (w : World) (fuel : Nat) (r : Result)
    (hcopy : os.copyRes = .ok)
    (halias : ∀ p q, i = .file p → o = .file q → p ≠ q → os.resolve p ≠ os.resolve q)
    (hrun : run t os f i o w fuel = some r)
    (hrej : r.rejected) :
    (r.world = w) ∨
    (f.copyOnError = true ∧ ∃ p q raw, i = .file p ∧ o = .file q ∧ p ≠ q ∧
      w.fs (os.resolve p) = some raw ∧ r.world = w.setFile (os.resolve q) (some raw)) := by
  have key : ∀ raw, load os i w = .ok raw →
      ((onErr os f i o w).2 = ([], true)) ∧ ((onErr os f i o w).1 = w ∨
      (f.copyOnError = true ∧ ∃ p q raw, i = .file p ∧ o = .file q ∧ p ≠ q ∧
        w.fs (os.resolve p) = some raw ∧ (onErr os f i o w).1 = w.setFile (os.resolve q) (some raw))) := by
    intro raw hl
    unfold onErr fsCopy
    rcases i with _ | inf <;> rcases o with _ | outf <;> try exact ⟨rfl, .inl rfl⟩
    dsimp only
    split
    · rename_i hc
      simp at hc
      simp only [hcopy]
      refine ⟨trivial, .inr ⟨hc.1, inf, outf, raw, rfl, rfl, hc.2, load_file_some hl _ rfl, ?_⟩⟩
      have := halias inf outf rfl rfl hc.2
      simp [this, load_file_some hl inf rfl]
    · exact ⟨rfl, .inl rfl⟩
  unfold run at hrun
  cases hl : load os i w with
  | error m =>
    rw [hl] at hrun
    simp at hrun; subst hrun
    simp [Result.rejected] at hrej
    exact .inl rfl
  | ok raw =>
    obtain ⟨k1, k2⟩ := key raw hl
    rw [hl] at hrun
    dsimp only at hrun
    rcases he : onErr os f i o w with ⟨w', m, b⟩
    rw [he] at k1 k2
    simp at k1
    obtain ⟨rfl, rfl⟩ := k1
    cases hlp : loop t f.multipass fuel raw 0 with
    | none => simp [hlp] at hrun
    | some lo =>
      cases lo with
      | finished buf =>
        simp [hlp] at hrun; subst hrun
        unfold finish at hrej ⊢
        split
        · simpa [he] using k2
        · rename_i hns
          simp only [hns] at hrej
          rcases hsv : save os o w (withNewline f buf) with ⟨w2, b⟩
          rw [hsv] at hrej
          cases b <;> simp [Result.rejected] at hrej
      | parseErr =>
        simp [hlp, he] at hrun; subst hrun; exact k2
      | cleanErr buf =>
        simp [hlp, he] at hrun; subst hrun; exact k2

/-- Non-vacuity of C02: an unparsable file, copied to the destination. -/
example :
    let t : Tool := { exTool with parse := fun _ => none }
    let f : Flags := { exFlags with copyOnError := true }
    ∃ r, run t exOS f (.file "in.svg") (.file "out.svg") exWorld 1 = some r ∧ r.rejected ∧
      r.world.fs 1 = some [1,2,3] ∧ exOS.copyRes = .ok := by
  refine ⟨_, rfl, ?_, rfl, rfl⟩
  left; decide

/-- **C02, refutation 1.** With `--copy-on-error`, if the two path strings differ but name one file
(`a.svg` and `./a.svg`), a parse error destroys the only copy of the input. -/
theorem C02_refuted_alias : ∃ (t : Tool) (os : OS) (f : Flags) (w : World) (r : Result),
    os.copyRes = .ok ∧ w.fs 0 = some [1,2,3] ∧
    run t os f (.file "a.svg") (.file "./a.svg") w 1 = some r ∧ r.msgs = [.parseError] ∧
    r.world.fs 0 = some [] := by
  refine ⟨{ exTool with parse := fun _ => none }, { exOS with resolve := fun _ => 0 },
    { exFlags with copyOnError := true }, exWorld, _, rfl, rfl, rfl, rfl, rfl⟩

/-- **C02, refutation 2.** If the cleaner reports an error and the copy asked for by `--copy-on-error` fails,
`main` goes on and writes the output of an earlier pass to the destination. -/
theorem C02_refuted_copy_fails : ∃ (t : Tool) (os : OS) (f : Flags) (w : World) (r : Result),
    os.resolve "in.svg" ≠ os.resolve "out.svg" ∧ w.fs (os.resolve "in.svg") = some [1,2,3] ∧
    run t os f (.file "in.svg") (.file "out.svg") w 2 = some r ∧ Msg.cleanError ∈ r.msgs ∧
    r.world.fs (os.resolve "out.svg") = some [7] := by
  refine ⟨{ Doc := Bytes, parse := some, clean := fun d => if d = [1,2,3] then some [7] else none, ser := id },
    { exOS with copyRes := .failedUntouched },
    { exFlags with copyOnError := true, appendNewline := false }, exWorld, _, by decide, rfl, rfl, by decide, rfl⟩

/-- **C02** (second half of what holds, for every outcome of the copy) Whatever happens, no file other
than the named output is modified, and standard output is not used when the output is a file. -/
theorem C02_only_output_touched (t : Tool) (os : OS) (f : Flags) (i : InputFrom) (o : OutputTo)
    (w : World) (fuel : Nat) (r : Result)
    (hrun : run t os f i o w fuel = some r) :
    (∀ file, (∀ p, o = .file p → file ≠ os.resolve p) → r.world.fs file = w.fs file) ∧
    (∀ p, o = .file p → r.world.stdout = w.stdout) := by
  show OnlyOut os o w r.world
  have hf : ∀ w' n buf ms, OnlyOut os o w w' → OnlyOut os o w (finish os f i o n buf w' ms).world := by
    intro w' n buf ms hw
    unfold finish
    split
    · exact hw.trans (onErr_onlyOut ..)
    · have := save_onlyOut os o w' (withNewline f buf)
      revert this
      rcases save os o w' (withNewline f buf) with ⟨w2, b⟩
      intro this
      cases b <;> exact hw.trans this
  unfold run at hrun
  cases hl : load os i w with
  | error m => rw [hl] at hrun; simp at hrun; subst hrun; exact OnlyOut.refl ..
  | ok raw =>
    rw [hl] at hrun
    dsimp only at hrun
    have he' := onErr_onlyOut os f i o w
    rcases he : onErr os f i o w with ⟨w', m, b⟩
    rw [he] at he'
    cases hlp : loop t f.multipass fuel raw 0 with
    | none => simp [hlp] at hrun
    | some lo =>
      cases lo with
      | finished buf => simp [hlp] at hrun; subst hrun; exact hf _ _ _ _ (OnlyOut.refl ..)
      | parseErr => simp [hlp, he] at hrun; subst hrun; exact he'
      | cleanErr buf =>
        cases b <;> simp [hlp, he] at hrun <;> subst hrun
        · exact hf _ _ _ _ he'
        · exact he'

/-- A missing or unreadable input has no effect at all. -/
theorem C02_load_failure_no_effect (t : Tool) (os : OS) (f : Flags) (i : InputFrom) (o : OutputTo)
    (w : World) (fuel : Nat) (m : Msg) (h : load os i w = .error m) :
    run t os f i o w fuel = some { world := w, msgs := [m], exitCode := 0 } := by
  simp [run, h]

/-! ### C04 (and the loop part of C03) -/

/-- The loop, started at pass `j` with the right memory of the previous size, finishes exactly at the first
stable pass. -/
theorem loop_multi (t : Tool) (raw : Bytes) : ∀ fuel j buf prev,
    iterPass t j raw = .ok buf → SizeAfter t raw j prev →
    ∀ out, loop t true fuel buf prev = some (.finished out) ↔
      ∃ k, j < k ∧ k ≤ j + fuel ∧ iterPass t k raw = .ok out ∧ Stable t raw k ∧
        ∀ i, j < i → i < k → ¬ Stable t raw i := by
  intro fuel
  induction fuel with
  | zero =>
    intro j buf prev _ _ out
    simp [loop]
    intro k h1 h2; omega
  | succ fuel ih =>
    intro j buf prev hb hp out
    unfold loop
    cases hpass : t.pass buf with
    | error e =>
      have hnext : ∀ k, j < k → iterPass t k raw = .error e := by
        intro k hk
        induction k with
        | zero => omega
        | succ k ihk =>
          by_cases hjk : j = k
          · subst hjk; simp [iterPass, hb, hpass]
          · simp [iterPass, ihk (by omega)]
      have : ¬ ∃ k, j < k ∧ k ≤ j + (fuel + 1) ∧ iterPass t k raw = .ok out ∧ Stable t raw k ∧
        ∀ i, j < i → i < k → ¬ Stable t raw i := by
        rintro ⟨k, h1, _, h3, _⟩
        rw [hnext k h1] at h3; cases h3
      rcases pass_err t buf e hpass with rfl | rfl <;> simp [this]
    | ok b' =>
      have hb' : iterPass t (j+1) raw = .ok b' := by simp [iterPass, hb, hpass]
      have hs' : SizeAfter t raw (j+1) b'.length := .inr ⟨by omega, b', hb', rfl⟩
      have huniq : ∀ k n m, SizeAfter t raw k n → SizeAfter t raw k m → n = m := by
        intro k n m h1 h2
        rcases h1 with ⟨hk, h1⟩ | ⟨hk, c, h1, h1'⟩ <;> rcases h2 with ⟨hk2, h2⟩ | ⟨hk2, d, h2, h2'⟩
        · omega
        · omega
        · omega
        · rw [h1] at h2; cases h2; omega
      have hstab : Stable t raw (j+1) ↔ prev = b'.length := by
        constructor
        · rintro ⟨n, h1, h2⟩
          simp at h1
          rw [huniq _ _ _ hp h1, huniq _ _ _ h2 hs']
        · intro e; exact ⟨b'.length, by simpa [e] using hp, hs'⟩
      simp only [Bool.not_true, Bool.false_eq_true, if_false]
      by_cases he : prev = b'.length
      · simp only [he, beq_self_eq_true, if_true]
        constructor
        · intro h; simp at h; subst h
          exact ⟨j+1, by omega, by omega, hb', hstab.2 he, fun i h1 h2 => by omega⟩
        · rintro ⟨k, h1, h2, h3, h4, h5⟩
          have : k = j + 1 := by
            by_cases hk : k = j + 1
            · exact hk
            · exact absurd (hstab.2 he) (h5 (j+1) (by omega) (by omega))
          subst this
          rw [hb'] at h3; cases h3; rfl
      · have hne : (prev == b'.length) = false := by simp [he]
        simp only [hne, Bool.false_eq_true, if_false]
        rw [ih (j+1) b' b'.length hb' hs' out]
        constructor
        · rintro ⟨k, h1, h2, h3, h4, h5⟩
          refine ⟨k, by omega, by omega, h3, h4, fun i hi1 hi2 => ?_⟩
          by_cases hi : i = j + 1
          · subst hi; rw [hstab]; exact he
          · exact h5 i (by omega) hi2
        · rintro ⟨k, h1, h2, h3, h4, h5⟩
          have : k ≠ j + 1 := by rintro rfl; exact he (hstab.1 h4)
          exact ⟨k, by omega, by omega, h3, h4, fun i hi1 hi2 => h5 i (by omega) hi2⟩

/-- **C04** With `--multipass` the loop ends normally with `out` within `fuel` passes exactly if `out` is
the result of the first pass `k` whose output size equals that of the pass before. -/
theorem C04_multipass_stops_at_first_stable (t : Tool) (raw out : Bytes) (fuel : Nat) :
    loop t true fuel raw 0 = some (.finished out) ↔
      ∃ k, 0 < k ∧ k ≤ fuel ∧ iterPass t k raw = .ok out ∧ Stable t raw k ∧
        ∀ i, 0 < i → i < k → ¬ Stable t raw i := by
  have := loop_multi t raw fuel 0 raw 0 rfl (.inl ⟨rfl, rfl⟩) out
  simpa using this

/-- **C04** Without `--multipass` exactly one pass runs. -/
theorem C04_single_pass (t : Tool) (raw : Bytes) (fuel : Nat) :
    loop t false (fuel + 1) raw 0 =
      some (match iterPass t 1 raw with
        | .ok b => .finished b
        | .error .parseError => .parseErr
        | .error _ => .cleanErr raw) := by
  simp only [loop, iterPass]
  cases h : t.pass raw with
  | ok b => simp
  | error e => cases e <;> simp

/-- **C04** If no pass makes the document bigger, multipass terminates: after at most
`|first output| + 2` passes the loop has ended (normally or with an error). -/
theorem C04_multipass_terminates (t : Tool) (raw : Bytes)
    (hshrink : ∀ b b', t.pass b = .ok b' → b'.length ≤ b.length) :
    ∃ out, loop t true (raw.length + 2) raw 0 = some out := by
  have aux : ∀ n fuel buf, buf.length ≤ n → n < fuel → ∃ out, loop t true fuel buf buf.length = some out := by
    intro n
    induction n with
    | zero =>
      intro fuel buf hb hf
      obtain ⟨fuel, rfl⟩ : ∃ m, fuel = m + 1 := ⟨fuel - 1, by omega⟩
      unfold loop
      cases hp : t.pass buf with
      | error e => rcases pass_err t buf e hp with rfl | rfl <;> simp
      | ok b' =>
        have := hshrink _ _ hp
        have e : buf.length = b'.length := by omega
        simp [e]
    | succ n ih =>
      intro fuel buf hb hf
      obtain ⟨fuel, rfl⟩ : ∃ m, fuel = m + 1 := ⟨fuel - 1, by omega⟩
      unfold loop
      cases hp : t.pass buf with
      | error e => rcases pass_err t buf e hp with rfl | rfl <;> simp
      | ok b' =>
        have := hshrink _ _ hp
        by_cases e : buf.length = b'.length
        · simp [e]
        · simp [e]
          exact ih fuel b' (by omega) (by omega)
  unfold loop
  cases hp : t.pass raw with
  | error e => rcases pass_err t raw e hp with rfl | rfl <;> simp
  | ok b' =>
    by_cases e : 0 = b'.length
    · simp [e]
    · simp [e]
      exact aux raw.length (raw.length + 1) b' (hshrink _ _ hp) (by omega)

example : ∀ b b', exTool.pass b = .ok b' → b'.length ≤ b.length := by
  intro b b' h
  simp [exTool, Tool.pass] at h
  subst h; simp [List.length_take]; omega

/-- A tool whose passes alternate between two sizes. -/
def flipTool : Tool := { Doc := Bytes, parse := some, clean := some,
                         ser := fun d => if d.length = 1 then [0, 0] else [0] }

/-- **C04** The program does not guard against oscillation: there are tools (parser, cleaner, writer) for which
`--multipass` never ends. -/
theorem C04_multipass_may_diverge :
    ∀ fuel, loop flipTool true fuel [0, 0, 0] 0 = none := by
  have h : ∀ fuel, loop flipTool true fuel [0] 1 = none ∧ loop flipTool true fuel [0,0] 2 = none := by
    intro fuel
    induction fuel with
    | zero => exact ⟨rfl, rfl⟩
    | succ n ih =>
      constructor
      · simp [loop, flipTool, Tool.pass]; exact ih.2
      · simp [loop, flipTool, Tool.pass]; exact ih.1
  intro fuel
  cases fuel with
  | zero => rfl
  | succ n => simp [loop, flipTool, Tool.pass]; exact (h n).1

example : Stable exTool [1,2,3] 2 ∧ ¬ Stable exTool [1,2,3] 1 := by
  constructor
  · exact ⟨2, .inr ⟨by decide, _, rfl, rfl⟩, .inr ⟨by decide, _, rfl, rfl⟩⟩
  · rintro ⟨n, h1, h2⟩
    rcases h1 with ⟨_, h1⟩ | ⟨h, _⟩
    · rcases h2 with ⟨h, _⟩ | ⟨_, b, h2, h3⟩
      · omega
      · have : b = [1,2] := by cases h2; rfl
        subst this; simp at h3; omega
    · omega

/-! ### C03 -/

/-- **C03** If no error is reported, the only effect of the run is that the destination holds exactly the
output of the last of `k ≥ 1` successful passes, plus the newline if asked for. -/
theorem C03_success_writes_last_pass (t : Tool) (os : OS) (f : Flags) (i : InputFrom) (o : OutputTo)
    (w : World) (fuel : Nat) (r : Result)
    (hrun : run t os f i o w fuel = some r)
    (hok : ∀ m ∈ r.msgs, m.isError = false) :
    ∃ raw k buf, load os i w = .ok raw ∧ 1 ≤ k ∧ k ≤ fuel ∧ iterPass t k raw = .ok buf ∧
      r.world = delivered os o w (withNewline f buf) := by
  unfold run at hrun
  cases hl : load os i w with
  | error m =>
    rw [hl] at hrun; simp at hrun; subst hrun
    simp at hok
    unfold load at hl
    rcases i with _ | p
    · dsimp only at hl; split at hl
      · cases hl; simp [Msg.isError] at hok
      · cases hl
    · dsimp only at hl; split at hl
      · cases hl; simp [Msg.isError] at hok
      · split at hl
        · cases hl
        · cases hl; simp [Msg.isError] at hok
  | ok raw =>
    rw [hl] at hrun
    dsimp only at hrun
    rcases he : onErr os f i o w with ⟨w', m, b⟩
    cases hlp : loop t f.multipass fuel raw 0 with
    | none => simp [hlp] at hrun
    | some lo =>
      cases lo with
      | finished buf =>
        obtain ⟨k, hk1, hk2, hk3⟩ : ∃ k, 1 ≤ k ∧ k ≤ fuel ∧ iterPass t k raw = .ok buf := by
          cases hm : f.multipass with
          | true =>
            rw [hm] at hlp
            obtain ⟨k, h1, h2, h3, _⟩ := (C04_multipass_stops_at_first_stable t raw buf fuel).1 hlp
            exact ⟨k, h1, h2, h3⟩
          | false =>
            rw [hm] at hlp
            cases fuel with
            | zero => simp [loop] at hlp
            | succ n =>
              rw [C04_single_pass] at hlp
              refine ⟨1, by omega, by omega, ?_⟩
              revert hlp
              cases hp : iterPass t 1 raw with
              | ok b => intro h; simp at h; rw [h]
              | error e => cases e <;> simp
        refine ⟨raw, k, buf, rfl, hk1, hk2, hk3, ?_⟩
        simp [hlp] at hrun; subst hrun
        unfold finish at hok ⊢
        split
        · rename_i hc
          simp [hc, Msg.isError] at hok
        · rename_i hns
          simp only [hns] at hok
          unfold save at hok ⊢
          rcases o with _ | outf <;> cases hsv : os.saveRes <;> simp [hsv, Msg.isError, delivered] at hok ⊢
      | parseErr =>
        simp [hlp, he] at hrun; subst hrun
        exact absurd (hok .parseError (by simp)) (by simp [Msg.isError])
      | cleanErr buf =>
        cases b <;> simp [hlp, he] at hrun <;> subst hrun
        · exfalso
          have : Msg.cleanError ∈ (finish os f i o raw.length buf w' (.cleanError :: m)).msgs := by
            unfold finish
            split
            · simp
            · rcases save os o w' (withNewline f buf) with ⟨w2, b2⟩
              cases b2 <;> simp
          exact absurd (hok _ this) (by simp [Msg.isError])
        · exact absurd (hok .cleanError (by simp)) (by simp [Msg.isError])

example : ∃ r, run exTool exOS exFlags (.file "in.svg") (.file "out.svg") exWorld 5 = some r ∧
    ∀ m ∈ r.msgs, m.isError = false := ⟨_, rfl, by decide⟩

/-- **C03** (converse) If every pass up to the last one succeeds, the last result is not bigger than the input or
bigger results are allowed, and the destination can be written, then the destination receives exactly this result and no
error is reported. -/
theorem C03_good_result_is_written (t : Tool) (os : OS) (f : Flags) (i : InputFrom) (o : OutputTo)
    (w : World) (fuel k : Nat) (raw buf : Bytes)
    (hload : load os i w = .ok raw)
    (hpass : iterPass t k raw = .ok buf)
    (hk : 1 ≤ k ∧ k ≤ fuel)
    (hlast : if f.multipass then Stable t raw k ∧ ∀ i, 1 ≤ i → i < k → ¬ Stable t raw i else k = 1)
    (hsize : f.allowBigger = true ∨ buf.length ≤ raw.length)
    (hsave : os.saveRes = .ok) :
    ∃ r, run t os f i o w fuel = some r ∧ r.world = delivered os o w (withNewline f buf) ∧
      ∀ m ∈ r.msgs, m.isError = false := by
  have hlp : loop t f.multipass fuel raw 0 = some (.finished buf) := by
    cases hm : f.multipass with
    | true =>
      rw [hm] at hlast
      simp only [if_true] at hlast
      exact (C04_multipass_stops_at_first_stable t raw buf fuel).2 ⟨k, hk.1, hk.2, hpass, hlast.1, hlast.2⟩
    | false =>
      rw [hm] at hlast
      simp at hlast
      subst hlast
      cases fuel with
      | zero => omega
      | succ n => rw [C04_single_pass, hpass]
  refine ⟨finish os f i o raw.length buf w [], by simp [run, hload, hlp], ?_⟩
  unfold finish
  have hn : (!f.allowBigger && decide (buf.length > raw.length)) = false := by
    rcases hsize with h | h
    · simp [h]
    · simp; intro _; exact h
  rw [hn]
  simp only [save, hsave]
  rcases o with _ | outf <;> simp only [delivered] <;> cases f.quiet <;> simp [Msg.isError]

/-- The hypotheses are met by a two-pass run, and by a single pass that makes the document bigger. -/
example : (iterPass exTool 2 [1,2,3] = .ok [1,2] ∧ Stable exTool [1,2,3] 2 ∧ ∀ i, 1 ≤ i → i < 2 → ¬ Stable exTool [1,2,3] i) ∧
    ∃ r, run { Doc := Bytes, parse := some, clean := some, ser := fun d => d ++ [9] } exOS { exFlags with multipass := false, allowBigger := true }
      (.file "in.svg") (.file "out.svg") exWorld 1 = some r ∧ r.world.fs 1 = some [1,2,3,9,10] := by
  refine ⟨⟨rfl, ⟨2, .inr ⟨by omega, [1,2], rfl, rfl⟩, .inr ⟨by omega, [1,2], rfl, rfl⟩⟩, ?_⟩, _, rfl, rfl⟩
  intro i h1 h2
  obtain rfl : i = 1 := by omega
  rintro ⟨n, h | h, h' | h'⟩
  · omega
  · obtain ⟨_, b, hb, hl⟩ := h'
    cases hb
    exact absurd (hl.trans h.2) (by decide)
  · omega
  · exact absurd h.1 (by omega)

/-- **C03** Before the loop has ended nothing has been written: no result exists, and a run that never leaves
the loop never modifies the world (the model performs effects only in `run` after `loop`). The
observable form: the effects of a run do not depend on how many passes ran before the final
buffer was reached. -/
theorem C03_effects_depend_only_on_final_buffer (t t' : Tool) (os : OS) (f : Flags) (i : InputFrom)
    (o : OutputTo) (w : World) (raw buf : Bytes) (fuel fuel' : Nat)
    (hl : load os i w = .ok raw)
    (h : loop t f.multipass fuel raw 0 = some (.finished buf))
    (h' : loop t' f.multipass fuel' raw 0 = some (.finished buf)) :
    run t os f i o w fuel = run t' os f i o w fuel' := by
  simp [run, hl, h, h']

/-! ### C56: error reporting -/

/-- **C56** (what holds) Whenever the destination does not receive the output of a successful last pass, an error
was printed. -/
theorem C56_errors_are_reported_partial (t : Tool) (os : OS) (f : Flags) (i : InputFrom) (o : OutputTo)
    (w : World) (fuel : Nat) (r : Result)
    (hrun : run t os f i o w fuel = some r)
    (hbad : ¬ ∃ raw k buf, load os i w = .ok raw ∧ 1 ≤ k ∧ iterPass t k raw = .ok buf ∧
      r.world = delivered os o w (withNewline f buf)) :
    ∃ m ∈ r.msgs, m.isError = true := by
  by_cases h : ∃ m ∈ r.msgs, m.isError = true
  · exact h
  · exfalso
    apply hbad
    have : ∀ m ∈ r.msgs, m.isError = false := by
      intro m hm
      cases e : m.isError with
      | false => rfl
      | true => exact absurd ⟨m, hm, e⟩ h
    obtain ⟨raw, k, buf, h1, h2, _, h4, h5⟩ := C03_success_writes_last_pass t os f i o w fuel r hrun this
    exact ⟨raw, k, buf, h1, h2, h4, h5⟩

/-- **C56, refutation.** The exit status does not tell success from failure: it is 0 in every terminating run,
also when the input cannot be parsed. -/
theorem C56_refuted_exit_status :
    (∀ (t : Tool) (os : OS) (f : Flags) (i : InputFrom) (o : OutputTo) (w : World) (fuel : Nat) (r : Result),
      run t os f i o w fuel = some r → r.exitCode = 0) ∧
    ∃ (t : Tool) (r : Result), run t exOS exFlags (.file "in.svg") (.file "out.svg") exWorld 1 = some r ∧
      Msg.parseError ∈ r.msgs ∧ r.exitCode = 0 := by
  constructor
  · intro t os f i o w fuel r hrun
    have hf : ∀ n buf w' ms, (finish os f i o n buf w' ms).exitCode = 0 := by
      intro n buf w' ms
      unfold finish
      split
      · rfl
      · rcases save os o w' (withNewline f buf) with ⟨w2, b2⟩
        cases b2 <;> rfl
    unfold run at hrun
    cases hl : load os i w with
    | error m => rw [hl] at hrun; simp at hrun; subst hrun; rfl
    | ok raw =>
      rw [hl] at hrun
      dsimp only at hrun
      rcases he : onErr os f i o w with ⟨w', m, b⟩
      cases hlp : loop t f.multipass fuel raw 0 with
      | none => simp [hlp] at hrun
      | some lo =>
        cases lo with
        | finished buf => simp [hlp] at hrun; subst hrun; exact hf ..
        | parseErr => simp [hlp, he] at hrun; subst hrun; rfl
        | cleanErr buf =>
          cases b <;> simp [hlp, he] at hrun <;> subst hrun
          · exact hf ..
          · rfl
  · exact ⟨{ exTool with parse := fun _ => none }, _, rfl, by decide, rfl⟩

end Verif.Driver
