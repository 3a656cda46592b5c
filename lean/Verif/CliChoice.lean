import Verif.CliProps
/-
C64: the options that take a value other than yes or no.
-/
namespace Verif.Cli

/-! ### Specification -/

/-- The value of an option: what is written on the command line, or the default of `data/help.txt`. -/
def chosen (a : Args) (name dflt : String) : String := (a.value name).getD dflt

/-- What `--list-separator` means, `data/help.txt:83`. -/
def docSeparators : List (String × ListSeparator) := [("space", .space), ("comma", .comma), ("comma-space", .commaSpace)]

/-- What `--indent` means, `data/help.txt:84`. -/
def docIndents : List (String × Indent) :=
  [("none", .none), ("0", .spaces 0), ("1", .spaces 1), ("2", .spaces 2), ("3", .spaces 3), ("4", .spaces 4), ("tabs", .tabs)]

/-- What `--join-style-attributes` means, `data/help.txt:64`. -/
def docJoins : List (String × StyleJoinMode) := [("no", .none), ("some", .some), ("all", .all)]

/-- The precisions, `data/help.txt:79-82`: name, default, effect. -/
def docPrecisions : List (String × String × (Opts → Nat)) :=
  [("coordinates-precision", "6", fun o => o.clean.coordinatesPrecision), ("properties-precision", "6", fun o => o.clean.propertiesPrecision),
   ("transforms-precision", "8", fun o => o.clean.transformsPrecision), ("paths-coordinates-precision", "8", fun o => o.clean.pathsCoordinatesPrecision)]

/-- The numbers from 1 to 12, as they are written. -/
def docNumbers : List (String × Nat) :=
  [("1", 1), ("2", 2), ("3", 3), ("4", 4), ("5", 5), ("6", 6), ("7", 7), ("8", 8), ("9", 9), ("10", 10), ("11", 11), ("12", 12)]

/-! ### C64 -/

theorem valueOf_chosen (a : Args) {name dflt : String} (h : defaultOf name = some dflt) : a.valueOf name = some (chosen a name dflt) := by
  unfold Args.valueOf chosen
  rw [h]
  cases a.value name <;> rfl

theorem choice_accepted {a : Args} (h : clapAccepts a = true) (k : Key) (vs : List String) (d : String) (hk : (k, vs, d) ∈ choiceArgs) : chosen a k.name d ∈ vs := by
  obtain ⟨v, hv, e⟩ := choice_ok h k vs d hk
  have hd : ∀ x ∈ choiceArgs, defaultOf x.1.name = some x.2.2 := by decide +kernel
  rw [valueOf_chosen a (hd _ hk)] at e
  cases e
  exact hv

/-- **C64**: with every accepted command line, each option that takes a value means what the help says, whether or not `--no-defaults` is
written; a value that the help does not list is refused.  And what no option changes: attributes that the cleaner hides are not written,
leading zeros are dropped, quotes are double, attributes are not put on lines of their own; documents with errors in attributes, CSS or
paints are not accepted silently. -/
theorem C64_values (a : Args) (h : clapAccepts a = true) : ∃ o, genAll a = some o ∧
    (∃ x ∈ docSeparators, chosen a "list-separator" "space" = x.1 ∧ o.write.listSeparator = x.2) ∧
    (∃ x ∈ docIndents, chosen a "indent" "none" = x.1 ∧ o.write.indent = x.2) ∧
    (∃ x ∈ docJoins, chosen a "join-style-attributes" "some" = x.1 ∧ o.clean.joinStyleAttributes = x.2) ∧
    (∀ p ∈ docPrecisions, ∀ x ∈ docNumbers, chosen a p.1 p.2.1 = x.1 → p.2.2 o = x.2) ∧
    (o.write.writeHiddenAttributes = false ∧ o.write.removeLeadingZero = true ∧ o.write.useSingleQuote = false ∧ o.write.attributesIndent = .none) ∧
    (o.parse.parsePxUnit = false ∧ o.parse.skipInvalidAttributes = false ∧ o.parse.skipInvalidCss = false ∧ o.parse.skipPaintFallback = false) := by
  obtain ⟨sep, ind, hs, hi, hw⟩ := write_eq h
  obtain ⟨jm, p1, p2, p3, p4, hj, c1, c2, c3, c4, -, -, -, -, hcl⟩ := clean_eq h
  have n1 : Key.listSeparator.name = "list-separator" := by decide +kernel
  have n2 : Key.indent.name = "indent" := by decide +kernel
  have n3 : Key.joinStyleAttributes.name = "join-style-attributes" := by decide +kernel
  have m1 := choice_accepted h .listSeparator ["space", "comma", "comma-space"] "space" (by simp [choiceArgs])
  have m2 := choice_accepted h .indent ["none", "0", "1", "2", "3", "4", "tabs"] "none" (by simp [choiceArgs])
  have m3 := choice_accepted h .joinStyleAttributes ["no", "some", "all"] "some" (by simp [choiceArgs])
  rw [n1] at m1; rw [n2] at m2; rw [n3] at m3
  rw [valueOf_chosen a (dflt := "space") (by decide +kernel)] at hs
  rw [valueOf_chosen a (dflt := "none") (by decide +kernel)] at hi
  rw [valueOf_chosen a (dflt := "some") (by decide +kernel)] at hj
  rw [valueOf_chosen a (dflt := "6") (by decide +kernel)] at c1 c2
  rw [valueOf_chosen a (dflt := "8") (by decide +kernel)] at c3 c4
  simp only [Option.bind_some] at hs hi hj c1 c2 c3 c4
  have num : ∀ x ∈ docNumbers, parseU8 x.1 = some x.2 := by decide +kernel
  have sepT : ∀ v ∈ ["space", "comma", "comma-space"], ∃ x ∈ docSeparators, v = x.1 ∧ parseSeparator v = some x.2 := by decide +kernel
  have indT : ∀ v ∈ ["none", "0", "1", "2", "3", "4", "tabs"], ∃ x ∈ docIndents, v = x.1 ∧ parseIndent v = some x.2 := by decide +kernel
  have joinT : ∀ v ∈ ["no", "some", "all"], ∃ x ∈ docJoins, v = x.1 ∧ parseJoinMode v = some x.2 := by decide +kernel
  refine ⟨_, by simp only [genAll, parse_eq h, hw, hcl]; rfl, ?_, ?_, ?_, ?_, ⟨rfl, rfl, rfl, rfl⟩, ⟨rfl, rfl, rfl, rfl⟩⟩
  · obtain ⟨x, hx, e1, e2⟩ := sepT _ m1
    rw [hs] at e2
    exact ⟨x, hx, e1, Option.some.inj e2⟩
  · obtain ⟨x, hx, e1, e2⟩ := indT _ m2
    rw [hi] at e2
    exact ⟨x, hx, e1, Option.some.inj e2⟩
  · obtain ⟨x, hx, e1, e2⟩ := joinT _ m3
    rw [hj] at e2
    exact ⟨x, hx, e1, Option.some.inj e2⟩
  · intro p hp x hx e
    have hn := num x hx
    rw [← e] at hn
    simp only [docPrecisions, List.mem_cons, List.not_mem_nil, or_false] at hp
    rcases hp with rfl | rfl | rfl | rfl
    · rw [c1] at hn; exact Option.some.inj hn
    · rw [c2] at hn; exact Option.some.inj hn
    · rw [c4] at hn; exact Option.some.inj hn
    · rw [c3] at hn; exact Option.some.inj hn

/-- A value that is not listed is refused. -/
theorem C64_refused (a : Args) (h : clapAccepts a = true) :
    (∀ v, a.value "list-separator" = some v → v ∈ docSeparators.map Prod.fst) ∧ (∀ v, a.value "indent" = some v → v ∈ docIndents.map Prod.fst) ∧
    (∀ v, a.value "join-style-attributes" = some v → v ∈ docJoins.map Prod.fst) := by
  obtain ⟨o, _, ⟨x, hx, e1, _⟩, ⟨y, hy, e2, _⟩, ⟨z, hz, e3, _⟩, _⟩ := C64_values a h
  refine ⟨fun v hv => ?_, fun v hv => ?_, fun v hv => ?_⟩
  · unfold chosen at e1; rw [hv] at e1; rw [show v = x.1 from e1]; exact List.mem_map_of_mem hx
  · unfold chosen at e2; rw [hv] at e2; rw [show v = y.1 from e2]; exact List.mem_map_of_mem hy
  · unfold chosen at e3; rw [hv] at e3; rw [show v = z.1 from e3]; exact List.mem_map_of_mem hz

/-- Not vacuous: `--indent=2 --list-separator=comma-space --join-style-attributes=no --paths-coordinates-precision=5` is accepted. -/
def choiceArgsEx : Args := { exArgs with value := fun s => if s = "indent" then some "2" else if s = "list-separator" then some "comma-space"
  else if s = "join-style-attributes" then some "no" else if s = "paths-coordinates-precision" then some "5" else none }
example : clapAccepts choiceArgsEx = true := by decide +kernel

end Verif.Cli
