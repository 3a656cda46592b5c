/-
Model of the command line driver: `src/main.rs`, function `main` (lines 56-194).

The XML parser, the cleaner and the serialiser are arbitrary functions (fields of `Tool`);
the operating system is an arbitrary record `OS` plus a file store, so that the theorems hold for
every behaviour of these parts.  Path names are resolved to file identities (`OS.resolve`), because
two different path strings may name one file.
-/
namespace Verif.Driver

abbrev Bytes := List UInt8

/-- `src/cli.rs:41-45` -/
inductive InputFrom | stdin | file (path : String)
  deriving DecidableEq, Repr
/-- `src/cli.rs:47-51` -/
inductive OutputTo | stdout | file (path : String)
  deriving DecidableEq, Repr

/-- The presence-only flags used by `main` (`src/main.rs:104,155,169,190`) and
`cleaning_opt.append_newline` (`src/main.rs:180`). -/
structure Flags where
  multipass : Bool
  allowBigger : Bool
  copyOnError : Bool
  quiet : Bool
  appendNewline : Bool
  deriving DecidableEq, Repr

/-- `cleaner::parse_data`, `cleaner::clean_doc` and `cleaner::write_buffer`
(`src/cleaner.rs:59-61`, `63-248`, `250-252`), as used at `src/main.rs:127-153`.
`none` stands for `Err(_)`.  Simplification: the serialiser's output is valid UTF-8, so
`str::from_utf8(&buf).unwrap()` does not panic. -/
structure Tool where
  Doc : Type
  parse : Bytes → Option Doc
  clean : Doc → Option Doc
  ser : Doc → Bytes

/-- Outcome of `fs::copy` (`src/main.rs:110`): success, failure before the destination was touched,
or failure after the destination was truncated and `n` bytes were copied. -/
inductive CopyRes | ok | failedUntouched | failedAfter (n : Nat)
  deriving DecidableEq, Repr

/-- Outcome of `save_file`/`write_stdout` (`src/cleaner.rs:254-264`): success, failure to open, or failure
after `n` bytes were written (the file has been truncated before). -/
inductive SaveRes | ok | failedUntouched | failedAfter (n : Nat)
  deriving DecidableEq, Repr

structure OS where
  /-- file identity named by a path -/
  resolve : String → Nat
  /-- `load_file` fails (permissions, not UTF-8) -/
  readable : String → Bool
  /-- contents of standard input; `none` if `read_to_string` fails -/
  stdin : Option Bytes
  copyRes : CopyRes
  saveRes : SaveRes

structure World where
  /-- contents of each file, `none` if it does not exist -/
  fs : Nat → Option Bytes
  stdout : Bytes

def World.setFile (w : World) (i : Nat) (c : Option Bytes) : World :=
  { w with fs := fun j => if j = i then c else w.fs j }

/-- Messages on standard error. -/
inductive Msg
  | inputMissing | readError | parseError | cleanError | copyError | biggerError | saveError | ratio
  deriving DecidableEq, Repr

/-- What is observable after the process ended.  `exitCode` is the status given to the shell. -/
structure Result where
  world : World
  msgs : List Msg
  exitCode : Nat

/-- One iteration's data transformation, `src/main.rs:127-153`: the error is the failing stage. -/
def Tool.pass (t : Tool) (b : Bytes) : Except Msg Bytes :=
  match t.parse b with
  | none => .error .parseError
  | some d =>
    match t.clean d with
    | none => .error .cleanError
    | some d' => .ok (t.ser d')

/-- How the `loop` at `src/main.rs:121-166` is left. `parseErr`/`cleanErr` are the two error branches,
before `on_err()` is called; `buf` is the content of `buf` at that point. -/
inductive LoopOut
  | finished (buf : Bytes)
  | parseErr
  | cleanErr (buf : Bytes)
  deriving Repr

/-- `src/main.rs:121-166`. `none`: still looping after `fuel` iterations. -/
def loop (t : Tool) (multipass : Bool) : Nat → Bytes → Nat → Option LoopOut
  | 0, _, _ => none
  | fuel + 1, buf, prevSize =>
    match t.pass buf with
    | .error .parseError => some .parseErr
    | .error _ => some (.cleanErr buf)
    | .ok buf' =>
      if !multipass then some (.finished buf')
      else if prevSize == buf'.length then some (.finished buf')
      else loop t multipass fuel buf' buf'.length

/-- `fs::copy(inf, outf)`, used at `src/main.rs:110`.  If both paths name one file, opening
the destination truncates the source before it is read (documented behaviour of `std::fs::copy`). -/
def fsCopy (os : OS) (w : World) (inf outf : String) : World × Bool :=
  let i := os.resolve inf
  let o := os.resolve outf
  let src : Bytes := if i = o then [] else (w.fs i).getD []
  match os.copyRes with
  | .ok => (w.setFile o (some src), true)
  | .failedUntouched => (w, false)
  | .failedAfter n => (w.setFile o (some (src.take n)), false)

/-- The closure `on_err`, `src/main.rs:96-115`.  Result: the new world, messages, and whether the process
has exited (`std::process::exit(0)`); `false` means that `try_msg!` returned from the closure
after a failed copy. -/
def onErr (os : OS) (f : Flags) (input : InputFrom) (output : OutputTo) (w : World) :
    World × List Msg × Bool :=
  match input, output with
  | .file inf, .file outf =>
    if f.copyOnError && inf != outf then
      match fsCopy os w inf outf with
      | (w', true) => (w', [], true)
      | (w', false) => (w', [.copyError], false)
    else (w, [], true)
  | _, _ => (w, [], true)

/-- `src/main.rs:185-188` with `save_file`/`write_stdout` (`src/cleaner.rs:254-264`). -/
def save (os : OS) (output : OutputTo) (w : World) (data : Bytes) : World × Bool :=
  match output, os.saveRes with
  | .stdout, .ok => ({ w with stdout := w.stdout ++ data }, true)
  | .stdout, .failedUntouched => (w, false)
  | .stdout, .failedAfter n => ({ w with stdout := w.stdout ++ data.take n }, false)
  | .file p, .ok => (w.setFile (os.resolve p) (some data), true)
  | .file _, .failedUntouched => (w, false)
  | .file p, .failedAfter n => (w.setFile (os.resolve p) (some (data.take n)), false)

/-- `src/main.rs:180-182` -/
def withNewline (f : Flags) (buf : Bytes) : Bytes :=
  if f.appendNewline then buf ++ [10] else buf

/-- `src/main.rs:168-193`: everything after the loop.  `msgs` are the messages so far. -/
def finish (os : OS) (f : Flags) (input : InputFrom) (output : OutputTo) (inputSize : Nat)
    (buf : Bytes) (w : World) (msgs : List Msg) : Result :=
  if !f.allowBigger && decide (buf.length > inputSize) then
    let (w', m, _) := onErr os f input output w
    { world := w', msgs := msgs ++ [.biggerError] ++ m, exitCode := 0 }
  else
    match save os output w (withNewline f buf) with
    | (w', true) =>
      { world := w', msgs := msgs ++ (if f.quiet then [] else [.ratio]), exitCode := 0 }
    | (w', false) => { world := w', msgs := msgs ++ [.saveError], exitCode := 0 }

/-- `src/main.rs:83-94`: the existence check and loading. -/
def load (os : OS) (input : InputFrom) (w : World) : Except Msg Bytes :=
  match input with
  | .file p =>
    match w.fs (os.resolve p) with
    | none => .error .inputMissing
    | some c => if os.readable p then .ok c else .error .readError
  | .stdin =>
    match os.stdin with
    | none => .error .readError
    | some c => .ok c

/-- `main` after argument parsing, `src/main.rs:83-194`.  `none`: the loop has not ended within `fuel` passes.
Returning from `main` and `std::process::exit(0)` both give exit status 0. -/
def run (t : Tool) (os : OS) (f : Flags) (input : InputFrom) (output : OutputTo) (w : World)
    (fuel : Nat) : Option Result :=
  match load os input w with
  | .error m => some { world := w, msgs := [m], exitCode := 0 }
  | .ok raw =>
    match loop t f.multipass fuel raw 0 with
    | none => none
    | some (.finished buf) => some (finish os f input output raw.length buf w [])
    | some .parseErr =>
      let (w', m, _) := onErr os f input output w
      some { world := w', msgs := .parseError :: m, exitCode := 0 }
    | some (.cleanErr buf) =>
      match onErr os f input output w with
      | (w', m, true) => some { world := w', msgs := .cleanError :: m, exitCode := 0 }
      | (w', m, false) => some (finish os f input output raw.length buf w' (.cleanError :: m))

end Verif.Driver
