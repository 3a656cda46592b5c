/-
Model of the id generator of `src/task/trim_ids.rs` (lines 21-103).

The array `d: [u8; 5]` is a list of five numbers; 255 marks an unused position.
`none` stands for a panic (`self.d[pos-1]` with `pos = 0`).
-/
namespace Verif.TrimIds

/-- `NUM_SIZE`, `CHARS_SIZE`, `MAX_NUM_CHAR`, `src/task/trim_ids.rs:21-23` -/
def NUM_SIZE : Nat := 5
def CHARS_SIZE : Nat := 62
def MAX_NUM_CHAR : Nat := CHARS_SIZE - 1

/-- The table filled in `Num::new`, `src/task/trim_ids.rs:32-47`: a-z, A-Z, 0-9. -/
def chars : List Nat :=
  (List.range 26).map (· + 97) ++ (List.range 26).map (· + 65) ++ (List.range 10).map (· + 48)

/-- `Num::new`, `src/task/trim_ids.rs:49-55` -/
def numNew : List Nat := [255, 255, 255, 255, 0]

/-- `Num::shift`, `src/task/trim_ids.rs:58-73` -/
def shift (head : Nat) : Nat → List Nat → Option (List Nat)
  | pos, d =>
    let n := d.getD pos 0
    if n = MAX_NUM_CHAR ∨ (n = 51 ∧ pos = head) then
      let d := d.set pos 0
      match pos with
      | 0 => none
      | p + 1 => if d.getD p 0 = 255 then some (d.set p 0) else shift head p d
    else some (d.set pos (n + 1))

/-- The `for` loop of `Num::plus_one`, `src/task/trim_ids.rs:77-83`. -/
def findHead (d : List Nat) : Nat :=
  if d.getD 4 0 = 255 then 5
  else if d.getD 3 0 = 255 then 4
  else if d.getD 2 0 = 255 then 3
  else if d.getD 1 0 = 255 then 2
  else if d.getD 0 0 = 255 then 1
  else NUM_SIZE - 1

/-- `Num::plus_one`, `src/task/trim_ids.rs:76-86` -/
def plusOne (d : List Nat) : Option (List Nat) := shift (findHead d) (NUM_SIZE - 1) d

/-- `Num::to_string`, `src/task/trim_ids.rs:88-102`: the characters of the used positions, as bytes. -/
def toBytes (d : List Nat) : List Nat :=
  ((d.reverse.takeWhile (· ≠ 255)).map (fun n => chars.getD n 0)).reverse

/-- The state of the generator when the `n`-th id (counted from 0) is generated, i.e. after `n` calls of `plus_one`
(`src/task/trim_ids.rs:106-112`). -/
def state : Nat → Option (List Nat)
  | 0 => some numNew
  | n + 1 => (state n).bind plusOne

/-- The id given to the `n`-th element that has an id, `src/task/trim_ids.rs:105-113`, as a list of character codes. -/
def genId (n : Nat) : Option (List Nat) := (state n).map toBytes

end Verif.TrimIds
