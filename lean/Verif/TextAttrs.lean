import Verif.Needless
import Verif.UnusedDefs
/-
Model of `src/task/rm_text_attrs.rs`, and property C43.
-/
namespace Verif.TextAttrs
open Verif.Dom Verif.Spec Verif.Simple
open Verif.Needless (rmAll getAttr_rmAll rmAll_same SameNode near near_cons Place places getAttr_nodeRm get_of_attr rm_same)
open Verif.DefaultAttrs (len)

/-! ### The model -/

/-- `TEXT_ATTRIBUTES`, `src/task/rm_text_attrs.rs:29-52` -/
def textAttributes : List AId :=
  [.alignmentBaseline, .baselineShift, .direction, .dominantBaseline, .font, .fontFamily, .fontSize, .fontSizeAdjust,
   .fontStretch, .fontStyle, .fontVariant, .fontWeight, .glyphOrientationHorizontal, .glyphOrientationVertical, .kerning,
   .letterSpacing, .lineHeight, .textAnchor, .textDecoration, .wordSpacing, .writingMode, .xmlSpace]

/-- `node_type() == NodeType::Text` -/
def isText (n : Node) : Bool := match n.kind with | .text _ => true | _ => false

/-- `has_em_ex_attributes`, `src/task/rm_text_attrs.rs:129-146` -/
def hasEmEx (n : Node) : Bool :=
  n.attrs.any (fun x => match x.value with
    | .length l => decide (l.unit = .em) || decide (l.unit = .ex)
    | _ => false)

/-- `is_linked_text`, `src/task/rm_text_attrs.rs:148-160` -/
def isLinkedText (f : Forest) (n : Node) : Bool :=
  n.isTag .use && (match n.get .xlinkHref with
    | some (.link k) => (match f.find k, f.kidsOf k with
      | some t, some c => isText t || c.nodes.any isText
      | _, _ => false)
    | _ => false)

/-- `_remove_text_attributes`, `src/task/rm_text_attrs.rs:75-127`: the new children and the returned flag.  The siblings do
not depend on each other, so that their order does not matter. -/
def goText (f : Forest) : Forest → Forest × Bool
  | .nil => (.nil, true)
  | .cons n k r =>
    let n0 := n.rm .lineHeight
    let (r', tr) := goText f r
    if !n.isSvgElem then (.cons n0 k r', if isText n then false else tr)
    else if !k.isEmpty then
      let (k', can) := goText f k
      if can then (.cons (if n.isTag .fontFace then n0 else rmAll n0 textAttributes) k' r', tr)
      else (.cons n0 k' r', false)
    else
      let noTd := !(n.isTag .tref || hasEmEx n0)
      (.cons (if noTd && !n.isTag .fontFace && !isLinkedText f n0 then rmAll n0 textAttributes else n0) .nil r', noTd && tr)

/-- `char::is_whitespace` of Rust: the Unicode property `White_Space`. -/
def isWs (c : Char) : Bool :=
  let n := c.toNat
  (9 ≤ n && n ≤ 13) || n = 32 || n = 0x85 || n = 0xA0 || n = 0x1680 || (0x2000 ≤ n && n ≤ 0x200A) || n = 0x2028 ||
    n = 0x2029 || n = 0x202F || n = 0x205F || n = 0x3000

/-- `str::trim` of Rust. -/
def trim (l : List Char) : List Char := ((l.dropWhile isWs).reverse.dropWhile isWs).reverse

/-- "Check that text contains pair of spaces", `src/task/rm_text_attrs.rs:230-240` -/
def hasPair (l : List Char) : Bool := (l.zip l.tail).any (fun x => isWs x.1 && isWs x.2)

/-- `is_text_contains_spaces`, `src/task/rm_text_attrs.rs:214-241` -/
def containsSpaces (s : String) : Bool :=
  let l := s.toList
  if l.isEmpty then false
  else if trim l ≠ l then true
  else hasPair (trim l)

/-- A text node with such text. -/
def spacedText (n : Node) : Bool := match n.kind with | .text s => containsSpaces s | _ => false

/-- `_remove_xml_space`, `src/task/rm_text_attrs.rs:169-212` -/
def rmSpace : Forest → Forest
  | .nil => .nil
  | .cons n k r =>
    if n.get .xmlSpace ≠ some (.str "preserve") then .cons n (rmSpace k) (rmSpace r)
    else if !k.isEmpty then
      .cons (if (n :: k.nodes).any spacedText then n else n.rm .xmlSpace) (rmSpace k) (rmSpace r)
    else .cons (n.rm .xmlSpace) .nil (rmSpace r)

/-- The last step, `src/task/rm_text_attrs.rs:58-71` -/
def rmFontFace (f : Forest) : Option Forest :=
  (svgElement f).map fun x =>
    if (x.1 :: x.2.nodes).any isText then f
    else f.map (fun n => if n.isTag .fontFace then rmAll n textAttributes else n)

/-- `remove_text_attributes`, `src/task/rm_text_attrs.rs:54-72`; `none` is the panic of `svg_element().unwrap()`. -/
def removeText (f : Forest) : Option Forest := rmFontFace (rmSpace (goText f f).1)

/-! ### Specification -/

/-- What a reader shows for character data (SVG 1.1, 10.15): with `xml:space="preserve"` newlines and tabs become spaces;
otherwise newlines go, tabs become spaces, leading and trailing spaces go and runs of spaces become one space. -/
def isNl (c : Char) : Bool := c = '\n' || c = '\r'
def tabToSpace (c : Char) : Char := if c = '\t' then ' ' else c
def collapse : List Char → List Char
  | [] => []
  | [c] => [c]
  | c :: d :: t => if c = ' ' ∧ d = ' ' then collapse (d :: t) else c :: collapse (d :: t)
def strip (l : List Char) : List Char := ((l.dropWhile (· = ' ')).reverse.dropWhile (· = ' ')).reverse
def shown (preserve : Bool) (s : String) : List Char :=
  if preserve then s.toList.map (fun c => if isNl c then ' ' else tabToSpace c)
  else collapse (strip ((s.toList.filter (fun c => !isNl c)).map tabToSpace))

/-- The font and text layout properties of SVG 1.1 (10.8 to 10.13). -/
def isTextProperty : AId → Bool
  | .font | .fontFamily | .fontSize | .fontSizeAdjust | .fontStretch | .fontStyle | .fontVariant | .fontWeight
  | .direction | .letterSpacing | .wordSpacing | .kerning | .textAnchor | .textDecoration | .writingMode
  | .alignmentBaseline | .baselineShift | .dominantBaseline | .glyphOrientationHorizontal | .glyphOrientationVertical => true
  | _ => false

/-- The attributes that concern nothing but text: these, `line-height`, which SVG does not use, and `xml:space`, which is
treated by `shown`. -/
def concernsText (a : AId) : Bool := isTextProperty a || decide (a = .lineHeight) || decide (a = .xmlSpace)

theorem mem_text {a : AId} : a ∈ textAttributes ↔ concernsText a = true := by
  cases a <;> decide

/-- A length in units of the font size. -/
def FontRelative (n : Node) : Prop :=
  ∃ x ∈ n.attrs, x.name ≠ .id .lineHeight ∧ ∃ l, x.value = .length l ∧ (l.unit = .em ∨ l.unit = .ex)

/-- The places that depend on the font: character data, `tref` elements, and elements with font-relative lengths; all inside
SVG elements. The last two: without children. -/
structure Depends (x : Place) : Prop where
  inSvg : ∀ p ∈ x.anc, p.isSvgElem = true
  why : isText x.node = true ∨
    (x.leaf = true ∧ x.node.isSvgElem = true ∧ (x.node.kind = .elem .tref ∨ FontRelative x.node))

/-- The same node but for attributes that concern text. -/
structure TextGone (n m : Node) : Prop where
  same : SameNode n m
  other : ∀ b, (∀ a, concernsText a = true → b ≠ .id a) → getAttr m.attrs b = getAttr n.attrs b

/-- What the pass may do: attributes that concern text go, but not where something depends on them. -/
structure Kept (x y : Place) : Prop where
  gone : TextGone x.node y.node
  leaf : y.leaf = x.leaf
  /-- All text properties of the place. -/
  kept : Depends x → (∀ p ∈ x.node :: x.anc, p.kind ≠ .elem .fontFace) ∨ isText x.node = true → ∀ a, isTextProperty a = true →
    near a (y.node :: y.anc) = near a (x.node :: x.anc)
  /-- The characters shown. -/
  shown : ∀ s, x.node.kind = .text s → (∀ p ∈ x.anc, p.isSvgElem = true) → (∀ c ∈ s.toList, isNl c = false) →
    TextAttrs.shown (decide (near .xmlSpace (y.node :: y.anc) = some (.str "preserve"))) s =
      TextAttrs.shown (decide (near .xmlSpace (x.node :: x.anc) = some (.str "preserve"))) s

/-! ### Proof: first step -/

/-- The nodes are the same but for `line-height`. -/
def SameBut (n m : Node) : Prop := ∀ b, b ≠ .id .lineHeight → getAttr m.attrs b = getAttr n.attrs b

structure Kept1 (x y : Place) : Prop where
  gone : TextGone x.node y.node
  leaf : y.leaf = x.leaf
  kept : Depends x → List.Forall₂ SameBut (x.node :: x.anc) (y.node :: y.anc)

theorem sameBut_rm (n : Node) : SameBut n (n.rm .lineHeight) := by
  intro b hb; rw [getAttr_nodeRm, if_neg hb]

theorem gone_rm (n : Node) : TextGone n (n.rm .lineHeight) :=
  ⟨rm_same _ _, fun b hb => sameBut_rm n b (hb _ (by decide))⟩

theorem gone_all (n : Node) : TextGone n (rmAll (n.rm .lineHeight) textAttributes) :=
  ⟨(rm_same _ _).trans (rmAll_same _ _), fun b hb => by
    rw [getAttr_rmAll, if_neg (by rintro ⟨a, ha, e⟩; exact hb a (mem_text.1 ha) e), (gone_rm n).other b hb]⟩

theorem fontRelative_iff (n : Node) : hasEmEx (n.rm .lineHeight) = true ↔ FontRelative n := by
  unfold hasEmEx FontRelative Node.rm rmAttr
  simp only [List.any_filter, List.any_eq_true]
  constructor
  · rintro ⟨x, hx, h⟩
    simp only [Bool.and_eq_true, decide_eq_true_eq] at h
    refine ⟨x, hx, h.1, ?_⟩
    have h2 := h.2
    split at h2
    · rename_i l hl
      exact ⟨l, hl, by simpa using h2⟩
    · cases h2
  · rintro ⟨x, hx, hn, l, hl, hu⟩
    exact ⟨x, hx, by simp [hn, hl, hu]⟩

theorem isEmpty_goText (f : Forest) (c : Forest) : (goText f c).1.isEmpty = c.isEmpty := by
  cases c with
  | nil => rfl
  | cons n k r =>
    unfold goText
    simp only
    split
    · rfl
    · split
      · split <;> rfl
      · rfl

theorem mem_places_anc {anc : List Node} {c : Forest} {x : Place} (hx : x ∈ places anc c) : ∀ p ∈ anc, p ∈ x.anc := by
  induction c generalizing anc with
  | nil => simp [places] at hx
  | cons n k r ihk ihr =>
    simp only [places, List.mem_cons, List.mem_append] at hx
    rcases hx with rfl | hx | hx
    · exact fun p hp => hp
    · exact fun p hp => ihk hx p (by simp [hp])
    · exact ihr hx

theorem not_text_of_svg {n : Node} (h : n.isSvgElem = true) : isText n = false := by
  unfold Node.isSvgElem at h
  unfold isText
  split at h
  · rename_i e he; rw [he]
  · cases h

/-- Nothing is changed below an element outside SVG. -/
theorem places_same {n : Node} {anc anc' : List Node} (hn : n.isSvgElem = false) {c : Forest} {above above' : List Node}
    (hmem : n ∈ above) : List.Forall₂ Kept1 (places above c) (places above' c) := by
  induction c generalizing above above' with
  | nil => exact .nil
  | cons m k r ihk ihr =>
    refine .cons ⟨⟨.refl m, fun _ _ => rfl⟩, rfl, fun h => ?_⟩ (List.rel_append (ihk (by simp [hmem])) (ihr hmem))
    have := h.inSvg n hmem
    rw [hn] at this; cases this

theorem goText_spec (f : Forest) {c : Forest} {anc anc' : List Node}
    (hA : (∃ x ∈ places anc c, Depends x) → List.Forall₂ SameBut anc anc') :
    List.Forall₂ Kept1 (places anc c) (places anc' (goText f c).1) ∧
      ((goText f c).2 = true → ∀ x ∈ places anc c, ¬ Depends x) := by
  induction c generalizing anc anc' with
  | nil => exact ⟨.nil, by simp [places]⟩
  | cons n k r ihk ihr =>
    have hr := ihr (anc := anc) (anc' := anc') (fun ⟨x, hx, hd⟩ => hA ⟨x, by simp [places, hx], hd⟩)
    cases hs : n.isSvgElem with
    | false =>
      have hg : goText f (.cons n k r) = (.cons (n.rm .lineHeight) k (goText f r).1, if isText n then false else (goText f r).2) := by
        simp [goText, hs]
      rw [hg]
      constructor
      · simp only [places]
        refine .cons ⟨gone_rm n, rfl, fun hd => .cons (sameBut_rm n) (hA ⟨_, by simp [places], hd⟩)⟩
          (List.rel_append (places_same (anc := anc) (anc' := anc') hs (by simp)) hr.1)
      · simp only [places, List.mem_cons, List.mem_append]
        intro hb x hx hd
        by_cases ht : isText n = true
        · simp [ht] at hb
        · simp only [ht] at hb
          rcases hx with rfl | hx | hx
          · rcases hd.why with h | ⟨_, h, _⟩
            · exact ht h
            · simp only at h; rw [hs] at h; cases h
          · have := hd.inSvg n (mem_places_anc hx n (by simp))
            rw [hs] at this; cases this
          · exact hr.2 (by simpa using hb) x hx hd
    | true =>
      have hnt := not_text_of_svg hs
      cases he : k.isEmpty with
      | false =>
        cases hc : (goText f k).2 with
        | true =>
          have hg : goText f (.cons n k r) = (.cons (if n.isTag .fontFace then n.rm .lineHeight
              else rmAll (n.rm .lineHeight) textAttributes) (goText f k).1 (goText f r).1, (goText f r).2) := by
            simp [goText, hs, he, hc]
          rw [hg]
          generalize hm : (if n.isTag .fontFace then n.rm .lineHeight else rmAll (n.rm .lineHeight) textAttributes) = m
          have hgone : TextGone n m := by
            rw [← hm]; split
            · exact gone_rm n
            · exact gone_all n
          have hno : ∀ x ∈ places (n :: anc) k, ¬ Depends x := by
            -- the flag does not depend on the ancestors
            by_contra hex
            simp only [not_forall, not_not] at hex
            obtain ⟨x, hx, hd⟩ := hex
            have hanc := hA ⟨x, by simp [places, hx], hd⟩
            exact (ihk (anc := n :: anc) (anc' := n :: anc') (fun _ => .cons (fun _ _ => rfl) hanc)).2 hc x hx hd
          have hk := ihk (anc := n :: anc) (anc' := m :: anc') (fun ⟨x, hx, hd⟩ => absurd hd (hno x hx))
          constructor
          · simp only [places]
            refine .cons ⟨hgone, by simpa using isEmpty_goText f k, fun hd => ?_⟩ (List.rel_append hk.1 hr.1)
            rcases hd.why with h | ⟨h, _⟩
            · simp only at h; rw [hnt] at h; cases h
            · simp only at h; rw [he] at h; cases h
          · simp only [places, List.mem_cons, List.mem_append]
            rintro hb x (rfl | hx | hx)
            · intro hd
              rcases hd.why with h | ⟨h, _⟩
              · simp only at h; rw [hnt] at h; cases h
              · simp only at h; rw [he] at h; cases h
            · exact hno x hx
            · exact hr.2 hb x hx
        | false =>
          have hg : goText f (.cons n k r) = (.cons (n.rm .lineHeight) (goText f k).1 (goText f r).1, false) := by
            simp [goText, hs, he, hc]
          rw [hg]
          have hk := ihk (anc := n :: anc) (anc' := n.rm .lineHeight :: anc')
            (fun ⟨x, hx, hd⟩ => .cons (sameBut_rm n) (hA ⟨x, by simp [places, hx], hd⟩))
          constructor
          · simp only [places]
            exact .cons ⟨gone_rm n, by simpa using isEmpty_goText f k,
              fun hd => .cons (sameBut_rm n) (hA ⟨_, by simp [places], hd⟩)⟩ (List.rel_append hk.1 hr.1)
          · simp
      | true =>
        have hk : k = .nil := by cases k with | nil => rfl | cons => cases he
        subst hk
        generalize hno : (!(n.isTag .tref || hasEmEx (n.rm .lineHeight))) = noTd
        have hg : goText f (.cons n .nil r) = (.cons (if noTd && !n.isTag .fontFace && !isLinkedText f (n.rm .lineHeight)
            then rmAll (n.rm .lineHeight) textAttributes else n.rm .lineHeight) .nil (goText f r).1, noTd && (goText f r).2) := by
          subst hno
          simp [goText, hs, Forest.isEmpty]
        rw [hg]
        have hdep : noTd = true → ¬ Depends ⟨n, anc, true⟩ := by
          intro h hd
          rw [← hno] at h
          simp only [Bool.not_eq_true', Bool.or_eq_false_iff] at h
          rcases hd.why with h' | ⟨_, _, h' | h'⟩
          · simp only at h'; rw [hnt] at h'; cases h'
          · have := h.1
            simp only at h'
            simp [Node.isTag, h'] at this
          · rw [(fontRelative_iff n).2 h'] at h; cases h.2
        constructor
        · simp only [places, List.nil_append]
          refine .cons ⟨?_, rfl, fun hd => ?_⟩ hr.1
          · simp only; split
            · exact gone_all n
            · exact gone_rm n
          · have : noTd = false := by
              cases h : noTd with
              | false => rfl
              | true => exact absurd hd (hdep h)
            simp only [this, Bool.false_and, Bool.false_eq_true, if_false]
            exact .cons (sameBut_rm n) (hA ⟨_, by simp [places], hd⟩)
        · simp only [places, List.nil_append, List.mem_cons, Bool.and_eq_true]
          rintro ⟨hb, hb'⟩ x (rfl | hx)
          · exact hdep hb
          · exact hr.2 hb' x hx

/-! ### Proof: white space -/

theorem dropWhile_eq_self {α : Type} {p : α → Bool} {l : List α} (h : ∀ a, l.head? = some a → p a = false) :
    l.dropWhile p = l := by
  cases l with
  | nil => rfl
  | cons a t => rw [List.dropWhile_cons_of_neg (by simp [h a rfl])]

theorem head_of_dropWhile {α : Type} {p : α → Bool} {l : List α} {a : α} (h : (l.dropWhile p).head? = some a) : p a = false := by
  induction l with
  | nil => cases h
  | cons b t ih =>
    by_cases hb : p b = true
    · rw [List.dropWhile_cons_of_pos hb] at h; exact ih h
    · rw [List.dropWhile_cons_of_neg hb] at h; cases h; simpa using hb

/-- A trimmed text has no white space at its ends. -/
theorem trim_ends {l : List Char} (h : trim l = l) :
    (∀ c, l.head? = some c → isWs c = false) ∧ (∀ c, l.reverse.head? = some c → isWs c = false) := by
  have h2 : ∀ c, l.reverse.head? = some c → isWs c = false := by
    intro c hc
    rw [← h] at hc
    unfold trim at hc
    rw [List.reverse_reverse] at hc
    exact head_of_dropWhile hc
  refine ⟨fun c hc => ?_, h2⟩
  have hlen : (l.dropWhile isWs).length = l.length := by
    apply le_antisymm (List.dropWhile_suffix _).length_le
    have : (trim l).length ≤ (l.dropWhile isWs).length := by
      unfold trim
      rw [List.length_reverse]
      exact le_trans (List.dropWhile_suffix _).length_le (le_of_eq List.length_reverse)
    rwa [h] at this
  have : l.dropWhile isWs = l := (List.dropWhile_suffix isWs).eq_of_length hlen
  rw [← this] at hc
  exact head_of_dropWhile hc

theorem collapse_eq {l : List Char} (h : (l.zip l.tail).all (fun x => !(x.1 = ' ' && x.2 = ' ')) = true) : collapse l = l := by
  induction l with
  | nil => rfl
  | cons c t ih =>
    cases t with
    | nil => rfl
    | cons d t =>
      simp only [List.tail_cons, List.zip_cons_cons, List.all_cons, Bool.and_eq_true] at h
      unfold collapse
      rw [if_neg (by have := h.1; simp only [Bool.not_eq_true', Bool.and_eq_false_iff, decide_eq_false_iff_not] at this; tauto), ih (by simpa using h.2)]

theorem isWs_of_space {c : Char} (h : tabToSpace c = ' ') : isWs c = true := by
  unfold tabToSpace at h
  split at h
  · rename_i hc; subst hc; decide
  · subst h; decide

/-- Text without superfluous spaces (and newlines) looks the same with and without `xml:space="preserve"`. -/
theorem shown_same {s : String} (hn : ∀ c ∈ s.toList, isNl c = false) (h : containsSpaces s = false) (p q : Bool) :
    shown p s = shown q s := by
  have key : shown false s = shown true s := by
    unfold shown
    simp only [Bool.false_eq_true, if_false, if_true]
    unfold containsSpaces at h
    generalize s.toList = l at *
    simp only at h
    have e1 : l.filter (fun c => !isNl c) = l := List.filter_eq_self.2 (by intro c hc; simp [hn c hc])
    have e2 : l.map (fun c => if isNl c then ' ' else tabToSpace c) = l.map tabToSpace :=
      List.map_congr_left (fun c hc => by simp [hn c hc])
    rw [e1, e2]
    by_cases hl : l.isEmpty = true
    · have : l = [] := by simpa using hl
      subst this; rfl
    · rw [if_neg hl] at h
      by_cases ht : trim l = l
      · rw [if_neg (by simpa using ht), ht] at h
        obtain ⟨h1, h2⟩ := trim_ends ht
        have e3 : strip (l.map tabToSpace) = l.map tabToSpace := by
          unfold strip
          rw [dropWhile_eq_self (l := l.map tabToSpace), dropWhile_eq_self, List.reverse_reverse]
          · intro c hc
            rw [← List.map_reverse, List.head?_map] at hc
            simp only [Option.map_eq_some_iff] at hc
            obtain ⟨d, hd, rfl⟩ := hc
            have := h2 d hd
            by_contra hcon
            rw [isWs_of_space (by simpa using hcon)] at this; cases this
          · intro c hc
            rw [List.head?_map] at hc
            simp only [Option.map_eq_some_iff] at hc
            obtain ⟨d, hd, rfl⟩ := hc
            have := h1 d hd
            by_contra hcon
            rw [isWs_of_space (by simpa using hcon)] at this; cases this
        rw [e3]
        apply collapse_eq
        unfold hasPair at h
        rw [List.all_eq_true]
        rw [List.any_eq_false] at h
        intro x hx
        rw [← List.map_tail, List.zip_map] at hx
        simp only [List.mem_map] at hx
        obtain ⟨y, hy, rfl⟩ := hx
        have := h y hy
        by_contra hcon
        simp only [Prod.map_fst, Prod.map_snd, Bool.not_eq_true', Bool.not_eq_false, Bool.and_eq_true, decide_eq_true_eq] at hcon
        rw [isWs_of_space hcon.1, isWs_of_space hcon.2] at this
        exact this rfl
      · simp [ht] at h
  cases p <;> cases q <;> first | rfl | exact key | exact key.symm

/-! ### Proof: second step -/

structure Kept2 (x y : Place) : Prop where
  same : SameNode x.node y.node
  other : ∀ b, b ≠ .id .xmlSpace → getAttr y.node.attrs b = getAttr x.node.attrs b
  leaf : y.leaf = x.leaf
  chain : ∀ a, a ≠ .xmlSpace → near a (y.node :: y.anc) = near a (x.node :: x.anc)
  shown : ∀ s, x.node.kind = .text s → (∀ c ∈ s.toList, isNl c = false) →
    TextAttrs.shown (decide (near .xmlSpace (y.node :: y.anc) = some (.str "preserve"))) s =
      TextAttrs.shown (decide (near .xmlSpace (x.node :: x.anc) = some (.str "preserve"))) s

theorem isEmpty_rmSpace (c : Forest) : (rmSpace c).isEmpty = c.isEmpty := by
  cases c with
  | nil => rfl
  | cons n k r =>
    unfold rmSpace
    split
    · rfl
    · split
      · rfl
      · rfl

theorem rmSpace_spec {c : Forest} {anc anc' : List Node} (hA : ∀ a, a ≠ .xmlSpace → near a anc' = near a anc)
    (hS : near .xmlSpace anc' = near .xmlSpace anc ∨ ∀ n ∈ c.nodes, spacedText n = false)
    (hT : ∀ n ∈ c.nodes, isText n = true → n.attrs = []) :
    List.Forall₂ Kept2 (places anc c) (places anc' (rmSpace c)) := by
  induction c generalizing anc anc' with
  | nil => exact .nil
  | cons n k r ihk ihr =>
    have hr := ihr hA (hS.imp id (fun h n hn => h n (by simp [hn]))) (fun n hn => hT n (by simp [hn]))
    -- a node that stays
    have stay : List.Forall₂ Kept2 (places anc (.cons n k r)) (places anc' (.cons n (rmSpace k) (rmSpace r))) := by
      have hA' : ∀ a, a ≠ .xmlSpace → near a (n :: anc') = near a (n :: anc) := fun a ha => by
        rw [near_cons, near_cons, hA a ha]
      have hk := ihk (anc := n :: anc) (anc' := n :: anc') hA'
        (by
          rcases hS with h | h
          · left; rw [near_cons, near_cons, h]
          · exact .inr (fun m hm => h m (by simp [hm]))) (fun m hm => hT m (by simp [hm]))
      simp only [places]
      refine .cons ⟨.refl n, fun _ _ => rfl, isEmpty_rmSpace k, hA', ?_⟩ (List.rel_append hk hr)
      intro s hs hn
      rcases hS with h | h
      · simp only [near_cons, h]
      · have := h n (by simp)
        unfold spacedText at this
        simp only at hs
        rw [hs] at this
        exact shown_same hn this _ _
    -- a node that loses the attribute
    have lose : (∀ m ∈ n :: k.nodes, spacedText m = false) →
        List.Forall₂ Kept2 (places anc (.cons n k r)) (places anc' (.cons (n.rm .xmlSpace) (rmSpace k) (rmSpace r))) := by
      intro hsp
      have hA' : ∀ a, a ≠ .xmlSpace → near a (n.rm .xmlSpace :: anc') = near a (n :: anc) := fun a ha => by
        rw [near_cons, near_cons, hA a ha]; simp [ha]
      have hk := ihk (anc := n :: anc) (anc' := n.rm .xmlSpace :: anc') hA' (.inr (fun m hm => hsp m (by simp [hm])))
        (fun m hm => hT m (by simp [hm]))
      simp only [places]
      refine .cons ⟨rm_same _ _, fun b hb => by simp only [getAttr_nodeRm, if_neg hb], isEmpty_rmSpace k, hA', ?_⟩
        (List.rel_append hk hr)
      intro s hs hn
      have := hsp n (by simp)
      unfold spacedText at this
      simp only at hs
      rw [hs] at this
      exact shown_same hn this _ _
    unfold rmSpace
    split
    · exact stay
    · split
      · split
        · exact stay
        · rename_i hsp
          refine lose (fun m hm => ?_)
          simp only [Bool.not_eq_true, List.any_eq_false] at hsp
          simpa using hsp m hm
      · rename_i hpres hk
        have : k = .nil := by cases k with | nil => rfl | cons => simp [Forest.isEmpty] at hk
        subst this
        by_cases hsn : spacedText n = true
        · exfalso
          have : isText n = true := by
            unfold spacedText at hsn
            unfold isText
            split at hsn
            · rfl
            · cases hsn
          apply hpres
          have := hT n (by simp) this
          unfold Node.get
          rw [this]
          simp [getAttr]
        · exact lose (by simpa using hsn)

/-! ### Proof: third step, and all together -/

def bare (n : Node) : Node := { n with attrs := [] }

theorem skel_goText (f c : Forest) : (goText f c).1.map bare = c.map bare := by
  have hrm : ∀ (n : Node), bare (n.rm .lineHeight) = bare n := fun _ => rfl
  have hall : ∀ (n : Node), bare (rmAll (n.rm .lineHeight) textAttributes) = bare n := fun n => by
    obtain ⟨h1, h2, h3⟩ := (gone_all n).same
    unfold bare; rw [h1, h2, h3]
  induction c with
  | nil => rfl
  | cons n k r ihk ihr =>
    unfold goText
    simp only
    split
    · simp only [Forest.map, ihr, hrm]
    · split
      · split
        · simp only [Forest.map, ihr, ihk]
          split
          · rw [hrm]
          · rw [hall]
        · simp only [Forest.map, ihr, ihk, hrm]
      · rename_i hk
        have : k = .nil := by cases k with | nil => rfl | cons => simp [Forest.isEmpty] at hk
        subst this
        simp only [Forest.map, ihr]
        split
        · rw [hall]
        · rw [hrm]

theorem skel_rmSpace (c : Forest) : (rmSpace c).map bare = c.map bare := by
  have hrm : ∀ (n : Node), bare (n.rm .xmlSpace) = bare n := fun _ => rfl
  induction c with
  | nil => rfl
  | cons n k r ihk ihr =>
    unfold rmSpace
    split
    · simp only [Forest.map, ihk, ihr]
    · split
      · simp only [Forest.map, ihk, ihr]
        split
        · rfl
        · rw [hrm]
      · rename_i hk
        have : k = .nil := by cases k with | nil => rfl | cons => simp [Forest.isEmpty] at hk
        subst this
        simp only [Forest.map, ihr, hrm]

/-- The test of the last step. -/
def hasText (f : Forest) : Option Bool := (svgElement f).map (fun x => (x.1 :: x.2.nodes).any isText)

theorem any_bare (f : Forest) : (f.map bare).nodes.any isText = f.nodes.any isText := by
  induction f with
  | nil => rfl
  | cons n k r ihk ihr =>
    simp only [Forest.map, Forest.nodes_cons, List.any_cons, List.any_append, ihk, ihr]
    rfl

theorem hasText_bare (f : Forest) : hasText (f.map bare) = hasText f := by
  unfold hasText
  induction f with
  | nil => rfl
  | cons n k r _ ihr =>
    simp only [Forest.map, svgElement]
    have : (bare n).isTag .svg = n.isTag .svg := rfl
    rw [this]
    split
    · simp only [Option.map_some, List.any_cons, any_bare]
      rfl
    · exact ihr

theorem places_map (h : Node → Node) (anc : List Node) (f : Forest) :
    places (anc.map h) (f.map h) = (places anc f).map (fun p => ⟨h p.node, p.anc.map h, p.leaf⟩) := by
  induction f generalizing anc with
  | nil => rfl
  | cons n k r ihk ihr =>
    simp only [Forest.map, places, List.map_cons, List.map_append, ← ihr, ← ihk]
    congr 2
    cases k <;> rfl

/-- Character data is inside the root element (XML) and has no attributes. -/
structure TextOk (f : Forest) : Prop where
  inRoot : ∃ x, svgElement f = some x ∧ ∀ n ∈ f.nodes, isText n = true → n ∈ x.2.nodes
  bare : ∀ n ∈ f.nodes, isText n = true → n.attrs = []

structure Kept3 (text : Bool) (x y : Place) : Prop where
  gone : TextGone x.node y.node
  leaf : y.leaf = x.leaf
  kept : (∀ p ∈ x.node :: x.anc, p.kind ≠ .elem .fontFace) ∨ text = true → y.node :: y.anc = x.node :: x.anc

theorem rmFontFace_spec {f g : Forest} (h : rmFontFace f = some g) :
    List.Forall₂ (Kept3 (decide (hasText f = some true))) (places [] f) (places [] g) ∧ g.map bare = f.map bare := by
  unfold rmFontFace at h
  simp only [Option.map_eq_some_iff] at h
  obtain ⟨x, hx, h⟩ := h
  split at h
  · subst h
    refine ⟨?_, rfl⟩
    rw [List.forall₂_same]
    exact fun _ _ => ⟨⟨.refl _, fun _ _ => rfl⟩, rfl, fun _ => rfl⟩
  · rename_i ht
    have hno : hasText f ≠ some true := by
      unfold hasText; rw [hx]; simpa using ht
    subst h
    have hsame : ∀ n : Node, TextGone n (if n.isTag .fontFace then rmAll n textAttributes else n) := by
      intro n
      split
      · exact ⟨rmAll_same _ _, fun b hb => by rw [getAttr_rmAll, if_neg (by rintro ⟨a, ha, e⟩; exact hb a (mem_text.1 ha) e)]⟩
      · exact ⟨.refl n, fun _ _ => rfl⟩
    refine ⟨?_, ?_⟩
    · have := places_map (fun n => if n.isTag .fontFace then rmAll n textAttributes else n) [] f
      simp only [List.map_nil] at this
      rw [this, List.forall₂_map_right_iff, List.forall₂_same]
      intro p _
      refine ⟨hsame p.node, rfl, ?_⟩
      rintro (hp | hp)
      · have he : ∀ q ∈ p.node :: p.anc, (if q.isTag .fontFace then rmAll q textAttributes else q) = q := fun q hq => by
          rw [if_neg]; simpa [Node.isTag] using hp q hq
        simp only
        rw [he p.node (by simp)]
        congr 1
        conv_rhs => rw [← List.map_id p.anc]
        exact List.map_congr_left (fun q hq => he q (by simp [hq]))
      · simp [hno] at hp
    · clear hx hno ht
      induction f with
      | nil => rfl
      | cons n k r ihk ihr =>
        simp only [Forest.map, ihk, ihr]
        congr 1
        obtain ⟨h1, h2, h3⟩ := (hsame n).same
        unfold TextAttrs.bare; rw [h1, h2, h3]

theorem near_sameBut {l l' : List Node} (h : List.Forall₂ SameBut l l') {a : AId} (ha : a ≠ .lineHeight) :
    near a l' = near a l := by
  induction h with
  | nil => rfl
  | cons h1 _ ih =>
    rw [near_cons, near_cons, ih, get_of_attr (h1 (.id a) (by simpa using ha))]

theorem shape_bare (f : Forest) (o : Option Nat) : shape o (f.map bare) = shape o f := by
  induction f generalizing o with
  | nil => rfl
  | cons n k r ihk ihr =>
    simp only [Forest.map, shape, ihk, ihr]
    rfl

theorem kinds {x y : Place} (h : List.Forall₂ SameNode (x.node :: x.anc) (y.node :: y.anc))
    (hx : ∀ p ∈ x.node :: x.anc, p.kind ≠ .elem .fontFace) : ∀ p ∈ y.node :: y.anc, p.kind ≠ .elem .fontFace := by
  intro q hq
  obtain ⟨p, hp, hpq⟩ := Stops.forall2_right h hq
  rw [hpq.2.1]
  exact hx p hp

/-- The chains of two trees that differ in attributes only. -/
theorem chains {f g : Forest} (h : g.map bare = f.map bare) {anc anc' : List Node} (hA : List.Forall₂ SameNode anc anc') :
    List.Forall₂ (fun x y : Place => List.Forall₂ SameNode (x.node :: x.anc) (y.node :: y.anc)) (places anc f) (places anc' g) := by
  induction f generalizing g anc anc' with
  | nil =>
    cases g with
    | nil => exact .nil
    | cons => cases h
  | cons n k r ihk ihr =>
    cases g with
    | nil => cases h
    | cons m k' r' =>
      simp only [Forest.map, Forest.cons.injEq] at h
      obtain ⟨hn, hk, hr⟩ := h
      have hs : SameNode n m := by
        have h1 := congrArg Node.key hn
        have h2 := congrArg Node.kind hn
        have h3 := congrArg Node.id hn
        exact ⟨h1, h2, h3⟩
      exact .cons (.cons hs hA) (List.rel_append (ihk hk (.cons hs hA)) (ihr hr hA))

theorem forall2_and {α β : Type} {R S : α → β → Prop} {l : List α} {l' : List β} (h : List.Forall₂ R l l')
    (h' : List.Forall₂ S l l') : List.Forall₂ (fun x y => R x y ∧ S x y) l l' := by
  induction h with
  | nil => exact .nil
  | cons h1 _ ih => cases h' with | cons h1' h2' => exact .cons ⟨h1, h1'⟩ (ih h2')

theorem forall2_mem {α β : Type} {R : α → β → Prop} {l : List α} {l' : List β} (h : List.Forall₂ R l l') :
    List.Forall₂ (fun x y => x ∈ l ∧ R x y) l l' := by
  induction h with
  | nil => exact .nil
  | cons h1 _ ih => exact .cons ⟨by simp, h1⟩ (ih.imp (fun _ _ h => ⟨by simp [h.1], h.2⟩))

theorem mem_places_nodes {anc : List Node} {c : Forest} {x : Place} (hx : x ∈ places anc c) : x.node ∈ c.nodes := by
  induction c generalizing anc with
  | nil => simp [places] at hx
  | cons n k r ihk ihr =>
    simp only [places, List.mem_cons, List.mem_append] at hx
    rcases hx with rfl | hx | hx
    · simp
    · simp [ihk hx]
    · simp [ihr hx]

theorem rm_subset (n : Node) (a : AId) : ∀ x ∈ (n.rm a).attrs, x ∈ n.attrs := fun _ hx => List.mem_of_mem_filter hx

theorem rmAll_subset (n : Node) (l : List AId) : ∀ x ∈ (rmAll n l).attrs, x ∈ n.attrs := by
  unfold rmAll
  induction l generalizing n with
  | nil => exact fun _ h => h
  | cons a t ih => exact fun x hx => rm_subset n a x (ih (n.rm a) x hx)

theorem goText_attrs (f c : Forest) : ∀ m ∈ (goText f c).1.nodes, ∃ n ∈ c.nodes, m.kind = n.kind ∧ ∀ x ∈ m.attrs, x ∈ n.attrs := by
  have key : ∀ n m : Node, (m = n.rm .lineHeight ∨ m = rmAll (n.rm .lineHeight) textAttributes) →
      m.kind = n.kind ∧ ∀ x ∈ m.attrs, x ∈ n.attrs := by
    rintro n m (rfl | rfl)
    · exact ⟨rfl, rm_subset n _⟩
    · exact ⟨(gone_all n).same.2.1, fun x hx => rm_subset n _ x (rmAll_subset _ _ x hx)⟩
  induction c with
  | nil => simp [goText]
  | cons n k r ihk ihr =>
    have build : ∀ (m : Node) (k' : Forest), (m = n.rm .lineHeight ∨ m = rmAll (n.rm .lineHeight) textAttributes) →
        (k' = k ∨ k' = (goText f k).1) → ∀ y ∈ (Forest.cons m k' (goText f r).1).nodes,
        ∃ z ∈ (Forest.cons n k r).nodes, y.kind = z.kind ∧ ∀ x ∈ y.attrs, x ∈ z.attrs := by
      intro m k' hm hk y hy
      simp only [Forest.nodes_cons, List.mem_cons, List.mem_append] at hy
      rcases hy with rfl | hy | hy
      · exact ⟨n, by simp, key n y hm⟩
      · rcases hk with rfl | rfl
        · exact ⟨y, by simp [hy], rfl, fun _ h => h⟩
        · obtain ⟨z, hz, h⟩ := ihk y hy
          exact ⟨z, by simp [hz], h⟩
      · obtain ⟨z, hz, h⟩ := ihr y hy
        exact ⟨z, by simp [hz], h⟩
    unfold goText
    simp only
    split
    · exact build _ _ (.inl rfl) (.inl rfl)
    · split
      · split
        · refine build _ _ ?_ (.inr rfl)
          split
          · exact .inl rfl
          · exact .inr rfl
        · exact build _ _ (.inl rfl) (.inr rfl)
      · rename_i hk
        have : k = .nil := by cases k with | nil => rfl | cons => simp [Forest.isEmpty] at hk
        subst this
        refine build _ _ ?_ (.inl rfl)
        split
        · exact .inr rfl
        · exact .inl rfl

/-- C43 (partial; see `Depends` and the counterexamples for what is left out): the tree stays, only attributes that concern
text go, and wherever something depends on the font — character data, `tref` elements, elements with lengths in em and ex —
all text properties keep their values, and all characters are shown as before. -/
theorem C43_text_partial {f g : Forest} (hf : TextOk f) (h : removeText f = some g) :
    List.Forall₂ Kept (places [] f) (places [] g) ∧ shape none g = shape none f := by
  unfold removeText at h
  generalize hf1 : (goText f f).1 = f1 at h
  generalize hf2 : rmSpace f1 = f2 at h
  have k1 := (goText_spec f (c := f) (anc := []) (anc' := []) (fun _ => .nil)).1
  rw [hf1] at k1
  have s1 : f1.map bare = f.map bare := by rw [← hf1]; exact skel_goText f f
  have s2 : f2.map bare = f1.map bare := by rw [← hf2]; exact skel_rmSpace f1
  obtain ⟨k3, s3⟩ := rmFontFace_spec h
  have hT1 : ∀ n ∈ f1.nodes, isText n = true → n.attrs = [] := by
    intro m hm ht
    rw [← hf1] at hm
    obtain ⟨n, hn, hk, hsub⟩ := goText_attrs f f m hm
    have := hf.bare n hn (by unfold isText at ht ⊢; rw [← hk]; exact ht)
    rw [this] at hsub
    exact List.eq_nil_iff_forall_not_mem.2 (fun x hx => by simpa using hsub x hx)
  have k2 := rmSpace_spec (c := f1) (anc := []) (anc' := []) (fun _ _ => rfl) (.inl rfl) hT1
  rw [hf2] at k2
  have c2 := chains s2 (anc := []) (anc' := []) .nil
  have c1 := chains s1 (anc := []) (anc' := []) .nil
  have htext : hasText f2 = hasText f := by
    rw [← hasText_bare, s2, s1, hasText_bare]
  rw [htext] at k3
  have hany : ∀ x ∈ places [] f, isText x.node = true → hasText f = some true := by
    intro x hx ht
    obtain ⟨y, hy, hall⟩ := hf.inRoot
    unfold hasText
    rw [hy]
    simp only [Option.map_some, Option.some.injEq, List.any_eq_true]
    exact ⟨x.node, by simp [hall x.node (mem_places_nodes hx) ht], ht⟩
  refine ⟨?_, ?_⟩
  · have k23 := Stops.forall2_comp (R := fun x y : Place => Kept2 x y ∧ List.Forall₂ SameNode (x.node :: x.anc) (y.node :: y.anc))
      (S := Kept3 (decide (hasText f = some true)))
      (T := fun x z : Place => ∃ y : Place, (Kept2 x y ∧ List.Forall₂ SameNode (x.node :: x.anc) (y.node :: y.anc)) ∧
        Kept3 (decide (hasText f = some true)) y z) (fun x y z h1 h2 => ⟨y, h1, h2⟩) (forall2_and k2 c2) k3
    refine Stops.forall2_comp (R := fun x y : Place => x ∈ places [] f ∧
      (Kept1 x y ∧ List.Forall₂ SameNode (x.node :: x.anc) (y.node :: y.anc))) (T := Kept) ?_
      (forall2_mem (forall2_and k1 c1)) k23
    rintro x y w ⟨hx, h1, hc1⟩ ⟨z, ⟨h2, hc2⟩, h3⟩
    have hchain : ∀ (_ : (∀ p ∈ x.node :: x.anc, p.kind ≠ .elem .fontFace) ∨ isText x.node = true),
        w.node :: w.anc = z.node :: z.anc := by
      intro hor
      apply h3.kept
      rcases hor with h | h
      · exact .inl (kinds hc2 (kinds hc1 h))
      · exact .inr (by simp [hany x hx h])
    refine ⟨⟨(h1.gone.same.trans h2.same).trans h3.gone.same, ?_⟩, h3.leaf.trans (h2.leaf.trans h1.leaf), ?_, ?_⟩
    · intro b hb
      rw [h3.gone.other b hb, h2.other b (hb _ (by decide)), h1.gone.other b hb]
    · intro hd hor a ha
      rw [hchain hor, h2.chain a (by rintro rfl; simp [isTextProperty] at ha), near_sameBut (h1.kept hd) (by rintro rfl; simp [isTextProperty] at ha)]
    · intro s hs hsvg hn
      have ht : isText x.node = true := by unfold isText; rw [hs]
      have hd : Depends x := ⟨hsvg, .inl ht⟩
      rw [hchain (.inr ht), h2.shown s (by rw [h1.gone.same.2.1, hs]) hn, near_sameBut (h1.kept hd) (by decide)]
  · rw [← shape_bare, s3, s2, s1, shape_bare]

/-- The pass crashes only if there is no `svg` element. -/
theorem C43_no_crash {f : Forest} (h : svgElement f ≠ none) : removeText f ≠ none := by
  unfold removeText rmFontFace
  have : hasText (rmSpace (goText f f).1) = hasText f := by
    rw [← hasText_bare, skel_rmSpace, skel_goText, hasText_bare]
  intro hn
  apply h
  simp only [Option.map_eq_none_iff] at hn
  unfold hasText at this
  rw [hn] at this
  simp only [Option.map_none] at this
  exact Option.map_eq_none_iff.1 this.symm

/-! ### Examples and counterexamples -/

def node (k : Nat) (e : EId) (as : List (AId × Value)) : Node :=
  ⟨k, .elem e, "", as.map fun x => ⟨.id x.1, x.2, true⟩⟩
def chars (k : Nat) (s : String) : Node := ⟨k, .text s, "", []⟩

theorem linked_of {f : Forest} (hu : f.UniqueKeys) {n t : Node} {c : Forest} (hn : n.kind = .elem .use)
    (hl : n.get .xlinkHref = some (.link t.key)) (ht : (t, c) ∈ subs f) (htext : ∃ m ∈ t :: c.nodes, isText m = true) :
    isLinkedText f (n.rm .lineHeight) = true := by
  have h1 : (n.rm .lineHeight).get .xlinkHref = some (.link t.key) := by
    rw [Node.get, getAttr_nodeRm, if_neg (by decide)]; exact hl
  have h2 : (n.rm .lineHeight).isTag .use = true := by simp [Node.isTag, Node.rm, hn]
  have h3 : f.find t.key = some t := Forest.find_of_mem hu (UnusedDefs.node_of_subs ht)
  have h4 := UnusedDefs.kidsOf_subs hu ht
  unfold isLinkedText
  rw [h1, h2]
  simp only [h3, h4, Bool.true_and]
  obtain ⟨m, hm, hmt⟩ := htext
  rcases List.mem_cons.1 hm with rfl | hm
  · simp [hmt]
  · simp only [Bool.or_eq_true, List.any_eq_true]
    exact .inr ⟨m, hm, hmt⟩

theorem goText_linked {f : Forest} {n : Node} (hl : isLinkedText f (n.rm .lineHeight) = true) {c : Forest}
    (h : (n, Forest.nil) ∈ subs c) : (n, Forest.nil) ∈ subs (goText f c).1 ∨ (n.rm .lineHeight, Forest.nil) ∈ subs (goText f c).1 := by
  induction c with
  | nil => simp [subs] at h
  | cons m k r ihk ihr =>
    simp only [subs, List.mem_cons, List.mem_append, Prod.mk.injEq] at h
    have hs : n.isSvgElem = true := by
      unfold isLinkedText at hl
      simp only [Bool.and_eq_true, Node.isTag_iff] at hl
      unfold Node.isSvgElem
      have : n.kind = .elem .use := hl.1
      rw [this]
    rcases h with ⟨rfl, rfl⟩ | h | h
    · right
      simp [goText, hs, Forest.isEmpty, hl, subs]
    · by_cases hm : m.isSvgElem = true
      · cases he : k.isEmpty with
        | true => cases k <;> simp [subs, Forest.isEmpty] at h he
        | false =>
          have := ihk h
          simp only [goText, hm, he]
          simp only [Bool.not_true, Bool.false_eq_true, if_false, Bool.not_false, if_true]
          cases (goText f k).2 <;> simp only [Bool.false_eq_true, if_false, if_true, subs, List.mem_cons, List.mem_append] <;>
            rcases this with h | h <;> simp [h]
      · left
        simp only [goText, Bool.not_eq_true] at hm ⊢
        simp [hm, subs, h]
    · have := ihr h
      simp only [goText]
      split
      · simp only [subs, List.mem_cons, List.mem_append]
        rcases this with h | h <;> simp [h]
      · split
        · split <;> simp only [subs, List.mem_cons, List.mem_append] <;> rcases this with h | h <;> simp [h]
        · simp only [subs, List.mem_cons, List.mem_append]
          rcases this with h | h <;> simp [h]

theorem rmSpace_leaf {n : Node} {c : Forest} (h : (n, Forest.nil) ∈ subs c) :
    (n, Forest.nil) ∈ subs (rmSpace c) ∨ (n.rm .xmlSpace, Forest.nil) ∈ subs (rmSpace c) := by
  induction c with
  | nil => simp [subs] at h
  | cons m k r ihk ihr =>
    simp only [subs, List.mem_cons, List.mem_append, Prod.mk.injEq] at h
    rcases h with ⟨rfl, rfl⟩ | h | h
    · simp only [rmSpace]
      split
      · simp [subs, rmSpace]
      · simp [Forest.isEmpty, subs]
    · have := ihk h
      have he : k.isEmpty = false := by cases k <;> simp [subs, Forest.isEmpty] at h ⊢
      simp only [rmSpace, he]
      split
      · simp only [subs, List.mem_cons, List.mem_append]
        rcases this with h | h <;> simp [h]
      · simp only [Bool.not_false, if_true, subs, List.mem_cons, List.mem_append]
        rcases this with h | h <;> simp [h]
    · have := ihr h
      simp only [rmSpace]
      split
      · simp only [subs, List.mem_cons, List.mem_append]
        rcases this with h | h <;> simp [h]
      · split
        · simp only [subs, List.mem_cons, List.mem_append]
          rcases this with h | h <;> simp [h]
        · simp only [subs, List.mem_cons, List.mem_append]
          rcases this with h | h <;> simp [h]

/-- **C43 (use)**: a `use` element that shows text - the element it refers to is or contains character data - keeps all its
attributes but for `line-height` and `xml:space`: its font properties are those of the text. -/
theorem C43_use_keeps {f g : Forest} (hu : f.UniqueKeys) (h : removeText f = some g) {n t : Node} {c : Forest}
    (hn : n.kind = .elem .use) (hnf : (n, Forest.nil) ∈ subs f) (hl : n.get .xlinkHref = some (.link t.key))
    (ht : (t, c) ∈ subs f) (htext : ∃ m ∈ t :: c.nodes, isText m = true) :
    ∃ m, (m, Forest.nil) ∈ subs g ∧ m.key = n.key ∧ m.kind = n.kind ∧
      ∀ b, b ≠ .id .lineHeight → b ≠ .id .xmlSpace → getAttr m.attrs b = getAttr n.attrs b := by
  have hlk := linked_of hu hn hl ht htext
  have s1 : ∃ m, (m, Forest.nil) ∈ subs (goText f f).1 ∧ m.key = n.key ∧ m.kind = n.kind ∧
      ∀ b, b ≠ .id .lineHeight → b ≠ .id .xmlSpace → getAttr m.attrs b = getAttr n.attrs b := by
    rcases goText_linked hlk hnf with h | h
    · exact ⟨n, h, rfl, rfl, fun _ _ _ => rfl⟩
    · refine ⟨_, h, rfl, rfl, fun b hb _ => ?_⟩
      rw [getAttr_nodeRm, if_neg (fun e => hb e)]
  obtain ⟨m1, hm1, k1, e1, a1⟩ := s1
  have s2 : ∃ m, (m, Forest.nil) ∈ subs (rmSpace (goText f f).1) ∧ m.key = n.key ∧ m.kind = n.kind ∧
      ∀ b, b ≠ .id .lineHeight → b ≠ .id .xmlSpace → getAttr m.attrs b = getAttr n.attrs b := by
    rcases rmSpace_leaf hm1 with h | h
    · exact ⟨m1, h, k1, e1, a1⟩
    · refine ⟨_, h, k1, e1, fun b hb hb' => ?_⟩
      rw [getAttr_nodeRm, if_neg (fun e => hb' e)]
      exact a1 b hb hb'
  obtain ⟨m2, hm2, k2, e2, a2⟩ := s2
  unfold removeText rmFontFace at h
  simp only [Option.map_eq_some_iff] at h
  obtain ⟨x, _, rfl⟩ := h
  split
  · exact ⟨m2, hm2, k2, e2, a2⟩
  · refine ⟨m2, ?_, k2, e2, a2⟩
    rw [Stops.subs_map]
    refine List.mem_map.2 ⟨_, hm2, ?_⟩
    simp [Node.isTag, e2, hn, Forest.map]

example : ∃ m, (m, Forest.nil) ∈ subs (.cons (node 0 .svg []) (.cons (node 1 .text []) (.cons (chars 2 "a") .nil .nil)
      (.cons (node 3 .use [(.xlinkHref, .link 1), (.fontSize, len 20 .none)]) .nil .nil)) .nil) ∧ m.key = 3 ∧
    removeText (.cons (node 0 .svg []) (.cons (node 1 .text []) (.cons (chars 2 "a") .nil .nil)
      (.cons (node 3 .use [(.xlinkHref, .link 1), (.fontSize, len 20 .none)]) .nil .nil)) .nil) =
    some (.cons (node 0 .svg []) (.cons (node 1 .text []) (.cons (chars 2 "a") .nil .nil)
      (.cons (node 3 .use [(.xlinkHref, .link 1), (.fontSize, len 20 .none)]) .nil .nil)) .nil) := by
  exact ⟨_, .tail _ (.tail _ (.tail _ (.head _))), rfl, by decide +kernel⟩

def sample : Forest :=
  .cons (node 0 .svg [(.fontSize, len 20 .none)])
    (.cons (node 1 .g [(.fontFamily, .str "Arial")]) (.cons (node 2 .rect [(.fontSize, len 5 .none)]) .nil .nil)
      (.cons (node 3 .text [(.fontStyle, .str "italic"), (.xmlSpace, .str "preserve")]) (.cons (chars 4 "a b") .nil .nil) .nil)) .nil

def sampleOut : Forest :=
  .cons (node 0 .svg [(.fontSize, len 20 .none)])
    (.cons (node 1 .g []) (.cons (node 2 .rect []) .nil .nil)
      (.cons (node 3 .text [(.fontStyle, .str "italic")]) (.cons (chars 4 "a b") .nil .nil) .nil)) .nil

example : TextOk sample := ⟨⟨_, rfl, by decide +kernel⟩, by decide +kernel⟩
example : removeText sample = some sampleOut := by decide +kernel
example : ∃ x ∈ places [] sample, Depends x :=
  ⟨⟨chars 4 "a b", [node 3 .text [(.fontStyle, .str "italic"), (.xmlSpace, .str "preserve")],
    node 0 .svg [(.fontSize, len 20 .none)]], true⟩, by simp [places, sample, Forest.isEmpty],
    ⟨by decide +kernel, .inl rfl⟩⟩

/-- `<text id="t">a</text>` in `defs`, shown by `<g font-size="20"><use xlink:href="#t"/></g>` -/
def useText : Forest :=
  .cons (node 0 .svg [])
    (.cons (node 1 .defs []) (.cons (node 2 .text []) (.cons (chars 3 "a") .nil .nil) .nil)
      (.cons (node 4 .g [(.fontSize, len 20 .none)]) (.cons (node 5 .use [(.xlinkHref, .link 2)]) .nil .nil) .nil)) .nil

/-- C43 does not hold for text shown through `use`: the group that gives its size to the copy loses it. -/
theorem C43_refuted_use :
    near .fontSize [chars 3 "a", node 2 .text [], node 5 .use [(.xlinkHref, .link 2)], node 4 .g [(.fontSize, len 20 .none)],
      node 0 .svg []] = some (len 20 .none) ∧
    ∃ g, removeText useText = some g ∧ node 4 .g [] ∈ g.nodes ∧
      near .fontSize [chars 3 "a", node 2 .text [], node 5 .use [(.xlinkHref, .link 2)], node 4 .g [], node 0 .svg []] = none := by
  refine ⟨by decide +kernel, _, rfl, by decide +kernel, by decide +kernel⟩

/-- `<svg><marker markerWidth="2em" font-size="20"><rect/></marker></svg>`; here the width is called `width`. -/
def emGroup : Forest :=
  .cons (node 0 .svg []) (.cons (node 1 .pattern [(.width, len 2 .em), (.fontSize, len 20 .none)])
    (.cons (node 2 .rect []) .nil .nil) .nil) .nil

/-- C43 does not hold for font-relative lengths on elements with children: a width of 2em changes with the font size. -/
theorem C43_refuted_em :
    FontRelative (node 1 .pattern [(.width, len 2 .em), (.fontSize, len 20 .none)]) ∧
    ∃ g, removeText emGroup = some g ∧ node 1 .pattern [(.width, len 2 .em)] ∈ g.nodes ∧
      near .fontSize [node 1 .pattern [(.width, len 2 .em), (.fontSize, len 20 .none)], node 0 .svg []] = some (len 20 .none) ∧
      near .fontSize [node 1 .pattern [(.width, len 2 .em)], node 0 .svg []] = none := by
  refine ⟨⟨_, .head _, by decide, _, rfl, .inl rfl⟩, _, rfl, by decide +kernel, by decide +kernel, by decide +kernel⟩

/-- `<svg><foreignObject font-size="20"><p>a</p></foreignObject></svg>` -/
def foreign : Forest :=
  .cons (node 0 .svg []) (.cons (node 1 .foreignObject [(.fontSize, len 20 .none)])
    (.cons ⟨2, .other "p", "", []⟩ (.cons (chars 3 "a") .nil .nil) .nil) .nil) .nil

/-- C43 does not hold for text inside elements outside SVG. -/
theorem C43_refuted_foreign :
    near .fontSize [chars 3 "a", ⟨2, .other "p", "", []⟩, node 1 .foreignObject [(.fontSize, len 20 .none)], node 0 .svg []] =
      some (len 20 .none) ∧
    ∃ g, removeText foreign = some g ∧ node 1 .foreignObject [] ∈ g.nodes := by
  refine ⟨by decide +kernel, _, rfl, by decide +kernel⟩

/-- `xml:space="preserve"` on text with a newline. -/
def newline : Forest :=
  .cons (node 0 .svg []) (.cons (node 1 .text [(.xmlSpace, .str "preserve")]) (.cons (chars 2 "a\nb") .nil .nil) .nil) .nil

/-- The characters of text with a newline change: "a b" becomes "ab". -/
theorem C43_refuted_newline :
    shown true "a\nb" = ['a', ' ', 'b'] ∧ shown false "a\nb" = ['a', 'b'] ∧
    ∃ g, removeText newline = some g ∧ node 1 .text [] ∈ g.nodes := by
  refine ⟨by decide +kernel, by decide +kernel, _, rfl, by decide +kernel⟩

end Verif.TextAttrs
