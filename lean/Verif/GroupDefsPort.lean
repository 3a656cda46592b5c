import Verif.GroupDefsPicture
/-
C35: a test for documents whose definitions look the same wherever they stand, and an example.
-/
namespace Verif.GroupDefs
open Verif.Dom Verif.Spec Verif.Render
open Verif.UnusedDefs (Bare)
open Verif.Ungroup (svg rect)
open Verif.ApplyTs (elem)

def bareTest (n : Node) : Bool := n.attrs.all fun x =>
  match x.name with
  | .id a => !inherits a
  | .name _ => true

theorem bare_of_test {n : Node} (h : bareTest n = true) : Bare n := by
  intro a ha
  unfold Node.get getAttr
  rw [Option.map_eq_none_iff, List.find?_eq_none]
  intro x hx e
  have e : x.name = .id a := by simpa using e
  have := List.all_eq_true.1 h x hx
  rw [e] at this
  simp [ha] at this

def restTest (s : Node) (l : List Node) : Bool :=
  match l.reverse with
  | a :: t => decide (a = s) && t.all bareTest
  | [] => false

theorem styleOf_rest {s : Node} {l : List Node} (h : restTest s l = true) : styleOf l = styleOf [s] := by
  unfold restTest at h
  split at h
  next a t e =>
    simp only [Bool.and_eq_true, decide_eq_true_eq] at h
    obtain ⟨rfl, ht⟩ := h
    have : l = t.reverse ++ [a] := by rw [← List.reverse_reverse l, e]; simp
    rw [this]
    have hb : ∀ q ∈ t.reverse, Bare q := fun q hq => bare_of_test (List.all_eq_true.1 ht q (by simpa using hq))
    generalize t.reverse = v at hb
    clear * - hb
    induction v with
    | nil => rfl
    | cons q v ih =>
      rw [List.cons_append, styleOf_bare (hb q (by simp))]
      exact ih fun b hb' => hb b (by simp [hb'])
  next => cases h

def styleTest (f : Forest) (s : Node) : Bool := f.nodes.all fun n => !isDefinition n || ((locate n.key [] f).all fun z => restTest s z.1)

def useTest (f : Forest) (s : Node) : Bool := f.nodes.all fun n =>
  if n.kind = .elem .use then
    match n.get .xlinkHref with
    | some (.link k) => (locate k [] f).all fun z => !(isScene z.2.1 || z.1.head?.any isScene) || (s :: z.1).all bareTest
    | _ => true
  else true

def ownTest (f : Forest) : Bool := (subs f).all fun x => !isScene x.1 || (x.2.top.all fun m =>
  match m.kind with
  | .other _ => false
  | _ => true)

def portTest (f : Forest) (s : Node) : Bool :=
  decide ((svgElement f).map Prod.fst = some s) && (f.nodes.all fun n => !isDefs n || (bareTest n && f.nodes.all fun m => !m.links.contains n.key)) &&
  ((spots top f).all fun z => !isDefinition z.2.1 || gone z.1 z.2.1.kind) && styleTest f s && ownTest f && useTest f s

theorem portable_of_test {f : Forest} {s : Node} (h : portTest f s = true) : Portable f s := by
  simp only [portTest, Bool.and_eq_true, decide_eq_true_eq] at h
  obtain ⟨⟨⟨⟨⟨h1, h2⟩, h3⟩, h4⟩, h5⟩, h6⟩ := h
  have hd : ∀ {n : Node}, n.kind = .elem .defs → isDefs n = true := fun h => by simp [isDefs, h]
  refine ⟨?_, fun n hn hk => ?_, fun n hn hk m hm hl => ?_, fun z hz hdz => ?_, fun anc n ks hl hdn => ?_, fun x hx hs m hm t ht => ?_, ?_⟩
  · obtain ⟨x, hx, rfl⟩ := Option.map_eq_some_iff.1 h1
    exact ⟨x.2, hx⟩
  · have := List.all_eq_true.1 h2 n hn
    rw [hd hk] at this
    simp only [Bool.not_true, Bool.false_or, Bool.and_eq_true] at this
    exact bare_of_test this.1
  · have := List.all_eq_true.1 h2 n hn
    rw [hd hk] at this
    simp only [Bool.not_true, Bool.false_or, Bool.and_eq_true] at this
    have := List.all_eq_true.1 this.2 m hm
    simp [hl] at this
  · have := List.all_eq_true.1 h3 z hz
    rw [hdz] at this
    simpa using this
  · have := List.all_eq_true.1 h4 n (UnusedDefs.node_of_subs (locate_mem hl).2)
    rw [hdn, hl] at this
    exact styleOf_rest (by simpa using this)
  · have := List.all_eq_true.1 h5 x hx
    rw [hs] at this
    have := List.all_eq_true.1 (by simpa using this) m hm
    rw [ht] at this
    cases this
  · rintro k ⟨m, hm, hk, hg⟩ anc n ks hl hs a ha
    have := List.all_eq_true.1 h6 m hm
    rw [if_pos hk, hg] at this
    dsimp only at this
    rw [hl, Option.all_some] at this
    have hc : (isScene n || anc.head?.any isScene) = true := by
      rcases hs with h | ⟨p, t, rfl, h⟩
      · simp [h]
      · simp [h]
    dsimp only at this
    rw [hc] at this
    exact bare_of_test (List.all_eq_true.1 (by simpa using this) a ha)

/-- A gradient and a clip path with a property in a group, two `defs` elements, and a symbol that is shown by `use`. -/
def portIn : Forest :=
  svg
    (.cons (elem 2 .g []) (.cons (elem 3 .linearGradient []) (.cons (elem 4 .stop [(.stopColor, red)]) .nil .nil)
        (.cons (elem 7 .clipPath [(.clipRule, .str "evenodd")]) (.cons (elem 8 .path []) .nil .nil)
        (rect 5 [(.fill, .funcLink 3), (.clipPath, .funcLink 7)] .nil))) <|
      .cons (elem 6 .defs []) (.cons (elem 9 .mask []) (rect 14 [] .nil) .nil) <|
      .cons (elem 15 .defs []) (rect 16 [] .nil) <|
      .cons (elem 10 .symbol [(.fill, green)]) (.cons (elem 11 .circle []) .nil .nil) <|
      .cons (elem 12 .use [(.xlinkHref, .link 10)]) .nil <|
      .cons (elem 13 .use [(.xlinkHref, .link 16), (.mask, .funcLink 9)]) .nil .nil)

def portOut : Forest :=
  svg
    (.cons (elem 6 .defs [])
        (.cons (elem 9 .mask []) (rect 14 [] .nil) <|
        .cons (elem 3 .linearGradient []) (.cons (elem 4 .stop [(.stopColor, red)]) .nil .nil) <|
        .cons (elem 7 .clipPath [(.clipRule, .str "evenodd")]) (.cons (elem 8 .path [(.clipRule, .str "evenodd")]) .nil .nil) <|
        .cons (elem 10 .symbol [(.fill, green)]) (.cons (elem 11 .circle [(.fill, green)]) .nil .nil) <|
        rect 16 [] .nil) <|
      .cons (elem 2 .g []) (rect 5 [(.fill, .funcLink 3), (.clipPath, .funcLink 7)] .nil) <|
      .cons (elem 12 .use [(.xlinkHref, .link 10)]) .nil <|
      .cons (elem 13 .use [(.xlinkHref, .link 16), (.mask, .funcLink 9)]) .nil .nil)

theorem portSample : portIn.UniqueKeys ∧ portIn.LinksOk ∧ groupDefs portIn = some portOut := by decide +kernel

example : SameLook portIn portOut :=
  C35_look_partial (s := elem 1 .svg []) portSample.1 portSample.2.1 (portable_of_test (by decide +kernel)) portSample.2.2

end Verif.GroupDefs
