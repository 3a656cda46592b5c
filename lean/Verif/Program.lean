import Verif.CliProps
import Verif.DriverProps
import Verif.PipelineEnds
/-
Model of the whole program: `main`, `src/main.rs:56-194`, from the command line to the files, with the cleaner of
`Pipeline.lean` in it.  `Driver.lean` leaves the cleaner open and lets it only succeed or fail; here it may panic, too.
-/
namespace Verif.Program
open Verif.Dom
open Verif.Cli (Args Opts ParseOptions WriteOptions)
open Verif.Driver (Bytes OS World Msg Flags Result)
open Verif.Pipeline (Env cleanDoc)

/-- svgdom: `Document::from_str_with_opt` (`cleaner::parse_data`, `src/cleaner.rs:59-61`; `none`: a parse error) and
`WriteBuffer::write_buf_opt` (`cleaner::write_buffer`, `src/cleaner.rs:250-252`).  Simplification: neither panics, and what is written is
valid UTF-8 (`src/main.rs:127`). -/
structure Lib where
  parse : ParseOptions → Bytes → Option Forest
  write : WriteOptions → Forest → Bytes
  /-- how values are written depends on the options, `src/task/join_style_attrs.rs:48-60` -/
  env : WriteOptions → Env

/-- What one turn of the loop may come to. -/
inductive PassOut
  | ok (b : Bytes)
  | parseErr
  | cleanErr
  | panic

/-- `src/main.rs:127-153` -/
def pass (L : Lib) (o : Opts) (b : Bytes) : PassOut :=
  match L.parse o.parse b with
  | none => .parseErr
  | some d =>
    match cleanDoc (L.env o.write) o.clean d with
    | .ok d' => .ok (L.write o.write d')
    | .err _ => .cleanErr
    | .panic => .panic

/-- How the loop is left. -/
inductive LoopEnd
  | finished (buf : Bytes)
  | parseErr
  | cleanErr (buf : Bytes)
  | panic

/-- `src/main.rs:121-166`; `none`: still looping after `fuel` turns. -/
def loop (L : Lib) (o : Opts) (multipass : Bool) : Nat → Bytes → Nat → Option LoopEnd
  | 0, _, _ => none
  | fuel + 1, buf, prev =>
    match pass L o buf with
    | .parseErr => some .parseErr
    | .cleanErr => some (.cleanErr buf)
    | .panic => some .panic
    | .ok buf' =>
      if !multipass then some (.finished buf')
      else if prev == buf'.length then some (.finished buf')
      else loop L o multipass fuel buf' buf'.length

/-- How the program may end. -/
inductive End
  /-- clap refuses the command line: a message, exit status 1 (`src/main.rs:66-72`) -/
  | refused
  /-- `check_values` refuses it: a message, exit status 0 (`src/main.rs:75`) -/
  | dependency
  /-- a panic: exit status 101.  (A task that goes round for ever, see C53, counts as a panic; then the program does not end.) -/
  | panicked (w : World)
  | ended (r : Result)

/-- `src/main.rs:80` -/
def inputOf (a : Args) : Driver.InputFrom :=
  match Cli.input a with
  | .stdin => .stdin
  | .file p => .file p

/-- `src/main.rs:81` -/
def outputOf : Cli.OutputTo → Driver.OutputTo
  | .stdout => .stdout
  | .file p => .file p

/-- The switches `main` asks for itself, `src/main.rs:104,155,169,180,190`. -/
def flagsOf (a : Args) (o : Opts) : Flags where
  multipass := a.present Cli.Key.multipass.name
  allowBigger := a.present Cli.Key.allowBiggerFile.name
  copyOnError := a.present Cli.Key.copyOnError.name
  quiet := a.present Cli.Key.quiet.name
  appendNewline := o.clean.appendNewline

/-- `src/main.rs:83-194` -/
def body (L : Lib) (os : OS) (o : Opts) (f : Flags) (i : Driver.InputFrom) (d : Driver.OutputTo) (w : World) (fuel : Nat) : Option End :=
  match Driver.load os i w with
  | .error m => some (.ended { world := w, msgs := [m], exitCode := 0 })
  | .ok raw =>
    match loop L o f.multipass fuel raw 0 with
    | none => none
    | some .panic => some (.panicked w)
    | some (.finished buf) => some (.ended (Driver.finish os f i d raw.length buf w []))
    | some .parseErr =>
      some (.ended { world := (Driver.onErr os f i d w).1, msgs := .parseError :: (Driver.onErr os f i d w).2.1, exitCode := 0 })
    | some (.cleanErr buf) =>
      match Driver.onErr os f i d w with
      | (w', m, true) => some (.ended { world := w', msgs := .cleanError :: m, exitCode := 0 })
      | (w', m, false) => some (.ended (Driver.finish os f i d raw.length buf w' (.cleanError :: m)))

/-- `main`, `src/main.rs:56-194`.  `none`: it has not ended after `fuel` turns of the loop. -/
def main (L : Lib) (os : OS) (a : Args) (w : World) (fuel : Nat) : Option End :=
  if Cli.clapAccepts a = false then some .refused
  else
    match Cli.checkValues a with
    | none => some (.panicked w)
    | some false => some .dependency
    | some true =>
      match Cli.genAll a with
      | none => some (.panicked w)
      | some o =>
        match Cli.output a with
        | none => some (.panicked w)
        | some d => body L os o (flagsOf a o) (inputOf a) (outputOf d) w fuel

end Verif.Program
