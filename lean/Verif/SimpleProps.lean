import Verif.Simple
import Verif.DomSpec
import Verif.DomLemmas
import Mathlib.Tactic.Ring
/- Properties of the small tasks: C23, C24, C47, C50, C51. -/
namespace Verif.Simple
open Verif.Dom Verif.Spec

/-! ### C23: unsupported documents -/

/-- SVG 1.1 event attributes. -/
def eventAttributes : List AId :=
  [.onactivate, .onclick, .onfocusin, .onfocusout, .onload, .onmousedown, .onmousemove, .onmouseout, .onmouseover,
   .onmouseup, .onabort, .onerror, .onresize, .onscroll, .onunload, .onzoom, .onbegin, .onend, .onrepeat]

def animationElements : List EId := [.animate, .animateColor, .animateMotion, .animateTransform, .set]

/-- Why a node makes the document unsupported, by kind of error, given the conditional-processing attributes. -/
def Unsupported (conditionals : List AId) (n : Node) : ErrKind → Prop
  | .scripting => n.kind = .elem .script ∨
      (n.isSvgElem ∧ ∃ x ∈ n.attrs, ∃ a ∈ eventAttributes, x.name = .id a)
  | .animation => ∃ e ∈ animationElements, n.kind = .elem e
  | .conditional => n.isSvgElem ∧ ∃ a ∈ conditionals, ∃ s, n.get a = some (.str s) ∧ s ≠ ""
  | .externalHref s => (∃ e, n.kind = .elem e ∧ e ∉ [EId.a, .image, .fontFaceUri, .feImage]) ∧
      n.get .xlinkHref = some (.str s)
  | _ => False

theorem isEvent_iff (a : AId) : a.isEvent = true ↔ a ∈ eventAttributes := by
  cases a <;> decide

theorem elementError_iff (n : Node) (e : ErrKind) :
    elementError n = some e ↔ (e = .scripting ∧ n.kind = .elem .script) ∨ (e = .animation ∧ ∃ t ∈ animationElements, n.kind = .elem t) := by
  unfold elementError animationElements
  split <;> simp_all [eq_comm]

theorem scriptError_iff (n : Node) (e : ErrKind) :
    scriptError n = some e ↔ e = .scripting ∧ n.isSvgElem ∧ ∃ x ∈ n.attrs, ∃ a ∈ eventAttributes, x.name = .id a := by
  unfold scriptError
  have h : (n.attrs.any (fun x => match x.name with | .id a => a.isEvent | .name _ => false) = true) ↔
      ∃ x ∈ n.attrs, ∃ a ∈ eventAttributes, x.name = .id a := by
    simp only [List.any_eq_true]
    constructor
    · rintro ⟨x, hx, h⟩
      refine ⟨x, hx, ?_⟩
      split at h
      · rename_i a ha; exact ⟨a, (isEvent_iff a).1 h, ha⟩
      · simp at h
    · rintro ⟨x, hx, a, ha, hn⟩
      exact ⟨x, hx, by rw [hn]; exact (isEvent_iff a).2 ha⟩
  split
  · rename_i hc
    simp only [Bool.and_eq_true] at hc
    have := h.1 hc.2
    simp [hc.1, this, eq_comm]
  · rename_i hc
    simp only [Bool.and_eq_true] at hc
    simp only [reduceCtorEq, false_iff]
    rintro ⟨_, h1, h2⟩
    exact hc ⟨h1, h.2 h2⟩

theorem conditionalAttr_iff (n : Node) (a : AId) : conditionalAttr n a = true ↔ ∃ s, n.get a = some (.str s) ∧ s ≠ "" := by
  unfold conditionalAttr
  split
  · rename_i s hs; simp [hs]
  · rename_i h
    simp only [Bool.false_eq_true, false_iff]
    rintro ⟨s, hs, _⟩
    exact h s hs

theorem conditionalError_iff (n : Node) (e : ErrKind) :
    conditionalError n = some e ↔ e = .conditional ∧ n.isSvgElem ∧
      ∃ a ∈ [AId.requiredFeatures, .systemLanguage], ∃ s, n.get a = some (.str s) ∧ s ≠ "" := by
  unfold conditionalError
  simp only [List.mem_cons, List.not_mem_nil, or_false, exists_eq_or_imp, exists_eq_left, ← conditionalAttr_iff]
  split
  · rename_i hc; simp only [Bool.and_eq_true, Bool.or_eq_true] at hc
    simp only [hc, and_true, Option.some.injEq]; exact eq_comm
  · rename_i hc; simp only [Bool.and_eq_true, Bool.or_eq_true] at hc; simp only [reduceCtorEq, false_iff]; tauto

theorem xlinkError_iff (n : Node) (e : ErrKind) :
    xlinkError n = some e ↔ ∃ s, e = .externalHref s ∧
      (∃ t, n.kind = .elem t ∧ t ∉ [EId.a, .image, .fontFaceUri, .feImage]) ∧ n.get .xlinkHref = some (.str s) := by
  unfold xlinkError
  split
  case h_5 t h1 h2 h3 h4 hk =>
    split
    · rename_i s hs
      simp only [hs, Option.some.injEq, Value.str.injEq, hk, Kind.elem.injEq]
      constructor
      · rintro rfl
        refine ⟨s, rfl, ⟨t, rfl, ?_⟩, rfl⟩
        simp only [List.mem_cons, List.not_mem_nil, or_false]
        rintro (rfl | rfl | rfl | rfl)
        · exact h1 rfl
        · exact h2 rfl
        · exact h3 rfl
        · exact h4 rfl
      · rintro ⟨s', rfl, _, rfl⟩; rfl
    · rename_i h
      simp only [reduceCtorEq, false_iff]
      rintro ⟨s, _, _, hs⟩
      exact h s hs
  all_goals simp_all

theorem findSome_ne {α β : Type} {l : List α} {g : α → Option β} {e : β} (h : l.findSome? g = some e) :
    ∃ a ∈ l, g a = some e := by
  rw [List.findSome?_eq_some_iff] at h
  obtain ⟨_, a, _, rfl, h, _⟩ := h
  exact ⟨a, by simp, h⟩

/-- The conditional attributes the code looks at. -/
def checkedConditionals : List AId := [.requiredFeatures, .systemLanguage]

/-- A reported error names a reason that is in the document. -/
theorem C23_error_is_true (f : Forest) (e : ErrKind) (h : precleanChecks f = .error e) :
    ∃ n ∈ f.nodes, Unsupported checkedConditionals n e := by
  unfold precleanChecks at h
  split at h
  · rename_i e' he; cases h
    obtain ⟨n, hn, hg⟩ := findSome_ne he
    rcases (elementError_iff n _).1 hg with ⟨rfl, hk⟩ | ⟨rfl, hk⟩
    · exact ⟨n, hn, .inl hk⟩
    · exact ⟨n, hn, hk⟩
  split at h
  · rename_i e' he; cases h
    obtain ⟨n, hn, hg⟩ := findSome_ne he
    obtain ⟨rfl, hk⟩ := (scriptError_iff n _).1 hg
    exact ⟨n, hn, .inr hk⟩
  split at h
  · rename_i e' he; cases h
    obtain ⟨n, hn, hg⟩ := findSome_ne he
    obtain ⟨rfl, hk⟩ := (conditionalError_iff n _).1 hg
    exact ⟨n, hn, hk⟩
  split at h
  · rename_i e' he; cases h
    obtain ⟨n, hn, hg⟩ := findSome_ne he
    obtain ⟨s, rfl, hk⟩ := (xlinkError_iff n _).1 hg
    exact ⟨n, hn, hk⟩
  · simp at h

/-- A document with a reason is rejected. -/
theorem C23_reason_is_found (f : Forest) (e : ErrKind) (n : Node) (hn : n ∈ f.nodes)
    (h : Unsupported checkedConditionals n e) : ∃ e', precleanChecks f = .error e' := by
  unfold precleanChecks
  split
  · exact ⟨_, rfl⟩
  rename_i h1
  split
  · exact ⟨_, rfl⟩
  rename_i h2
  split
  · exact ⟨_, rfl⟩
  rename_i h3
  split
  · exact ⟨_, rfl⟩
  rename_i h4
  exfalso
  simp only [List.findSome?_eq_none_iff] at h1 h2 h3 h4
  have h1 := h1 n hn; have h2 := h2 n hn; have h3 := h3 n hn; have h4 := h4 n hn
  cases e with
  | scripting =>
    rcases h with h | h
    · have := (elementError_iff n .scripting).2 (.inl ⟨rfl, h⟩); simp_all
    · have := (scriptError_iff n .scripting).2 ⟨rfl, h⟩; simp_all
  | animation => have := (elementError_iff n .animation).2 (.inr ⟨rfl, h⟩); simp_all
  | conditional => have := (conditionalError_iff n .conditional).2 ⟨rfl, h⟩; simp_all
  | externalHref s => have := (xlinkError_iff n (.externalHref s)).2 ⟨s, rfl, h⟩; simp_all
  | _ => exact h

/-- C23, full statement: with the three conditional-processing attributes of the standard. -/
def C23_full : Prop :=
  ∀ f : Forest, (∃ e, precleanChecks f = .error e) ↔
    ∃ n ∈ f.nodes, ∃ e, Unsupported [.requiredFeatures, .systemLanguage, .requiredExtensions] n e

/-- C23 but for `requiredExtensions`: a document is rejected exactly when it has one of the listed features. -/
theorem C23_rejected_iff_partial (f : Forest) :
    (∃ e, precleanChecks f = .error e) ↔ ∃ n ∈ f.nodes, ∃ e, Unsupported checkedConditionals n e := by
  constructor
  · rintro ⟨e, h⟩
    obtain ⟨n, hn, h⟩ := C23_error_is_true f e h
    exact ⟨n, hn, e, h⟩
  · rintro ⟨n, hn, e, h⟩; exact C23_reason_is_found f e n hn h

/-- A document with a non-empty `requiredExtensions` attribute is accepted (`TODO` at `preclean_checks.rs:76`). -/
def withExtensions : Forest :=
  .cons ⟨0, .elem .svg, "", []⟩ (.cons ⟨1, .elem .g, "", [⟨.id .requiredExtensions, .str "http://example.org", true⟩]⟩ .nil .nil) .nil

theorem C23_refuted_requiredExtensions : ¬ C23_full := by
  intro h
  have h2 : ∃ n ∈ withExtensions.nodes, ∃ e, Unsupported [.requiredFeatures, .systemLanguage, .requiredExtensions] n e :=
    ⟨⟨1, .elem .g, "", [⟨.id .requiredExtensions, .str "http://example.org", true⟩]⟩, by decide, .conditional,
      by decide, .requiredExtensions, by decide, "http://example.org", by decide, by decide⟩
  obtain ⟨e, he⟩ := (h withExtensions).2 h2
  have h3 : precleanChecks withExtensions = .ok () := rfl
  rw [h3] at he; cases he

/-- Both outcomes occur. -/
example : ∃ f g, precleanChecks f = .error .animation ∧ precleanChecks g = .ok () ∧ g.nodes.length = 3 :=
  ⟨.cons ⟨0, .elem .svg, "", []⟩ (.cons ⟨1, .elem .set, "", []⟩ .nil .nil) .nil,
   .cons ⟨0, .elem .svg, "", []⟩ (.cons ⟨1, .elem .image, "", [⟨.id .xlinkHref, .str "a.png", true⟩]⟩ .nil
     (.cons ⟨2, .elem .g, "", [⟨.id .systemLanguage, .str "", true⟩]⟩ .nil .nil)) .nil, rfl, rfl, rfl⟩

/-! ### C24: removing elements -/

theorem not_inside_nil {p : Node → Prop} {x : Nat} : ¬ Inside p .nil x := by rintro ⟨⟩

theorem shape_keys (o : Option Nat) (f : Forest) : (shape o f).map (·.1) = f.keys := by
  induction f generalizing o with
  | nil => rfl
  | cons n k r ih1 ih2 => simp [shape, ih1, ih2]

theorem inside_mem {p : Node → Prop} {f : Forest} {x : Nat} (h : Inside p f x) : x ∈ f.keys := by
  induction h with
  | self _ => simp
  | under _ h => simp [h]
  | kid _ ih => simp [ih]
  | next _ ih => simp [ih]

theorem inside_iff {p : Node → Prop} {n : Node} {k r : Forest} {x : Nat} :
    Inside p (.cons n k r) x ↔ (p n ∧ (x = n.key ∨ x ∈ k.keys)) ∨ Inside p k x ∨ Inside p r x := by
  constructor
  · intro h
    cases h with
    | self h => exact .inl ⟨h, .inl rfl⟩
    | under h h2 => exact .inl ⟨h, .inr h2⟩
    | kid h => exact .inr (.inl h)
    | next h => exact .inr (.inr h)
  · rintro (⟨h, rfl | h2⟩ | h | h)
    · exact .self h
    · exact .under h h2
    · exact .kid h
    · exact .next h

theorem prunedKeys_iff {p : Node → Bool} {f : Forest} {x : Nat} :
    x ∈ f.prunedKeys p ↔ Inside (fun n => p n = true) f x := by
  induction f with
  | nil => simp [Forest.prunedKeys, not_inside_nil]
  | cons n k r ih1 ih2 =>
    rw [inside_iff]
    unfold Forest.prunedKeys
    by_cases hp : p n = true
    · rw [if_pos hp]
      simp only [List.mem_append, List.mem_cons, ih2, hp, true_and]
      constructor
      · rintro ((h | h) | h) <;> tauto
      · rintro ((h | h) | h | h)
        · tauto
        · tauto
        · exact .inl (.inr (inside_mem h))
        · tauto
    · rw [if_neg hp]
      simp [ih1, ih2, hp]

theorem shape_prune (p : Node → Bool) (f : Forest) (o : Option Nat) (h : f.UniqueKeys) :
    shape o (f.prune p) = (shape o f).filter (fun e => decide (e.1 ∉ f.prunedKeys p)) := by
  induction f generalizing o with
  | nil => rfl
  | cons n k r ih1 ih2 =>
    have hk : k.UniqueKeys ∧ r.UniqueKeys ∧ n.key ∉ k.keys ∧ n.key ∉ r.keys ∧ ∀ x ∈ k.keys, x ∉ r.keys := by
      unfold Forest.UniqueKeys at h
      simp only [Forest.keys_cons, List.nodup_cons, List.mem_append, List.nodup_append, not_or] at h
      exact ⟨h.2.1, h.2.2.1, h.1.1, h.1.2, fun x hx hr => h.2.2.2 x hx x hr rfl⟩
    obtain ⟨u1, u2, d1, d2, d3⟩ := hk
    have hsub : ∀ x ∈ k.prunedKeys p, x ∈ k.keys := fun x hx => inside_mem (prunedKeys_iff.1 hx)
    have hsubr : ∀ x ∈ r.prunedKeys p, x ∈ r.keys := fun x hx => inside_mem (prunedKeys_iff.1 hx)
    have key : ∀ (g : Forest) (o : Option Nat) (q : Nat → Prop) [DecidablePred q] (q' : Nat → Prop) [DecidablePred q'],
        (∀ x ∈ g.keys, (q x ↔ q' x)) → (shape o g).filter (fun e => decide (q e.1)) = (shape o g).filter (fun e => decide (q' e.1)) := by
      intro g o q _ q' _ hq
      apply List.filter_congr
      intro e he
      have : e.1 ∈ g.keys := by rw [← shape_keys o g]; exact List.mem_map_of_mem he
      simp [hq _ this]
    unfold Forest.prune Forest.prunedKeys
    by_cases hp : p n = true
    · rw [if_pos hp, if_pos hp, ih2 _ u2]
      simp only [shape, List.filter_append]
      rw [List.filter_cons_of_neg (by simp)]
      rw [List.filter_append]
      have e1 : (shape (some n.key) k).filter (fun e => decide (e.1 ∉ n.key :: k.keys ++ r.prunedKeys p)) = [] := by
        rw [List.filter_eq_nil_iff]
        intro e he
        have : e.1 ∈ k.keys := by rw [← shape_keys (some n.key) k]; exact List.mem_map_of_mem he
        simp [this]
      rw [e1, List.nil_append]
      apply key r o (fun x => x ∉ r.prunedKeys p) (fun x => x ∉ n.key :: k.keys ++ r.prunedKeys p)
      intro x hx
      simp only [List.cons_append, List.mem_cons, List.mem_append, not_or]
      constructor
      · intro h1; exact ⟨fun e => d2 (e ▸ hx), fun h => d3 x h hx, h1⟩
      · exact fun h => h.2.2
    · rw [if_neg hp, if_neg hp]
      simp only [shape]
      rw [List.filter_cons_of_pos]
      · rw [List.filter_append, ih1 _ u1, ih2 _ u2]
        congr 2
        · apply key k _ (fun x => x ∉ k.prunedKeys p) (fun x => x ∉ k.prunedKeys p ++ r.prunedKeys p)
          intro x hx
          simp only [List.mem_append, not_or]
          exact ⟨fun h => ⟨h, fun h2 => d3 x hx (hsubr x h2)⟩, fun h => h.1⟩
        · apply key r _ (fun x => x ∉ r.prunedKeys p) (fun x => x ∉ k.prunedKeys p ++ r.prunedKeys p)
          intro x hx
          simp only [List.mem_append, not_or]
          exact ⟨fun h => ⟨fun h2 => d3 x (hsub x h2) hx, h⟩, fun h => h.2⟩
      · simp only [List.mem_append, not_or, decide_eq_true_eq]
        exact ⟨fun h => d1 (hsub _ h), fun h => d2 (hsubr _ h)⟩

theorem shape_map {g : Node → Node} (hg : ∀ n, (g n).key = n.key) (o : Option Nat) (f : Forest) :
    shape o (f.map g) = shape o f := by
  induction f generalizing o with
  | nil => rfl
  | cons n k r ih1 ih2 => simp [shape, ih1, ih2, hg]

/-- C24: after removing the elements of a kind, exactly the nodes in or below such an element are gone, the others
keep their place, and they keep their kind, id and all attributes but references to what was removed. -/
theorem C24_removes_exactly (e : EId) (f : Forest) (hu : f.UniqueKeys) :
    (∀ x, x ∈ (removeElement e f).keys ↔ x ∈ f.keys ∧ ¬ Inside (fun n => n.kind = .elem e) f x) ∧
    (shape none (removeElement e f)).Sublist (shape none f) ∧
    (∀ m ∈ (removeElement e f).nodes, ∃ n ∈ f.nodes, m.key = n.key ∧ m.kind = n.kind ∧ m.id = n.id ∧
      ∀ x, x ∈ m.attrs ↔ x ∈ n.attrs ∧ ∀ k, x.value.target = some k → ¬ Inside (fun n => n.kind = .elem e) f k) := by
  have hin : ∀ x, x ∈ f.prunedKeys (fun n => n.isTag e) ↔ Inside (fun n => n.kind = .elem e) f x := by
    intro x
    rw [prunedKeys_iff]
    simp only [Node.isTag_iff]
  refine ⟨?_, ?_, ?_⟩
  · intro x
    rw [← hin]
    unfold removeElement
    rw [Forest.keys_remove, ← shape_keys none, shape_prune _ _ _ hu, ← shape_keys none f]
    simp only [List.mem_map, List.mem_filter, decide_eq_true_eq]
    constructor
    · rintro ⟨y, ⟨h1, h2⟩, rfl⟩; exact ⟨⟨y, h1, rfl⟩, h2⟩
    · rintro ⟨⟨y, h1, rfl⟩, h2⟩; exact ⟨y, ⟨h1, h2⟩, rfl⟩
  · unfold removeElement Forest.remove
    rw [shape_map (by simp), shape_prune _ _ _ hu]
    exact List.filter_sublist
  · intro m hm
    obtain ⟨n, hn, rfl⟩ := Forest.mem_remove hm
    refine ⟨n, (Forest.nodes_prune_sublist _ f).subset hn, rfl, rfl, rfl, ?_⟩
    intro x
    simp only [Node.unlink, List.mem_filter, ← hin]
    constructor
    · rintro ⟨h1, h2⟩
      refine ⟨h1, ?_⟩
      intro k hk
      rw [hk] at h2
      simpa using h2
    · rintro ⟨h1, h2⟩
      refine ⟨h1, ?_⟩
      split
      · rename_i k hk; simpa using h2 k hk
      · rfl

/-- A document with a nested `desc` and a reference into it. -/
example : ∃ f : Forest, f.UniqueKeys ∧ f.keys = [0, 1, 2, 3, 4] ∧ (removeElement .desc f).keys = [0, 4] :=
  ⟨.cons ⟨0, .elem .svg, "", []⟩
     (.cons ⟨1, .elem .desc, "", []⟩ (.cons ⟨2, .elem .desc, "", []⟩ .nil (.cons ⟨3, .elem .rect, "r", []⟩ .nil .nil))
       (.cons ⟨4, .elem .use, "", [⟨.id .xlinkHref, .link 3, true⟩]⟩ .nil .nil)) .nil, by decide, by decide, by decide⟩

/-! ### C50: version attributes -/

theorem svgElement_some {f : Forest} {n : Node} {k : Forest} (h : svgElement f = some (n, k)) :
    n.kind = .elem .svg ∧ n ∈ f.nodes ∧ ∀ m ∈ k.nodes, m ∈ f.nodes := by
  induction f with
  | nil => simp [svgElement] at h
  | cons m c r ih1 ih2 =>
    unfold svgElement at h
    split at h
    · rename_i ht
      simp only [Option.some.injEq, Prod.mk.injEq] at h
      obtain ⟨rfl, rfl⟩ := h
      exact ⟨(Node.isTag_iff _ _).1 ht, by simp, fun x hx => by simp [hx]⟩
    · obtain ⟨h1, h2, h3⟩ := ih2 h
      exact ⟨h1, by simp [h2], fun x hx => by simp [h3 x hx]⟩

theorem setSvg_eq_map {f : Forest} {n : Node} {k : Forest} (hu : f.UniqueKeys) (h : svgElement f = some (n, k))
    (g : Node → Node) : setSvgElement (g n) k f = f.map (fun m => if m.key = n.key then g m else m) := by
  induction f with
  | nil => simp [svgElement] at h
  | cons m c r ih1 ih2 =>
    unfold Forest.UniqueKeys at hu
    simp only [Forest.keys_cons, List.nodup_cons, List.mem_append, List.nodup_append, not_or] at hu
    unfold svgElement at h
    unfold setSvgElement
    split at h
    · rename_i ht
      simp only [Option.some.injEq, Prod.mk.injEq] at h
      obtain ⟨rfl, rfl⟩ := h
      simp only [ht, if_true, Forest.map_cons]
      rw [Forest.map_id' (f := c), Forest.map_id' (f := r)]
      · intro x hx
        rw [if_neg]
        intro e; exact hu.1.2 (e ▸ Forest.key_mem hx)
      · intro x hx
        rw [if_neg]
        intro e; exact hu.1.1 (e ▸ Forest.key_mem hx)
    · rename_i ht
      obtain ⟨_, h2, _⟩ := svgElement_some h
      have hmk : ¬ m.key = n.key := fun e => hu.1.2 (e ▸ Forest.key_mem h2)
      simp only [ht, Bool.false_eq_true, if_false, Forest.map_cons, if_neg hmk]
      rw [ih2 hu.2.2.1 h, Forest.map_id' (f := c)]
      intro x hx
      rw [if_neg]
      intro e
      exact hu.2.2.2 _ (Forest.key_mem hx) _ (e ▸ Forest.key_mem h2) rfl

/-- C50: exactly the attributes `version` and `baseProfile` of the first top-level `svg` element are gone. -/
theorem C50_only_root_version (f : Forest) (hu : f.UniqueKeys) (n : Node) (k : Forest) (h : svgElement f = some (n, k)) :
    removeVersion f = some (f.map fun m => if m.key = n.key then
      { m with attrs := m.attrs.filter (fun x => decide (x.name ≠ .id .version ∧ x.name ≠ .id .baseProfile)) } else m) := by
  unfold removeVersion
  rw [h]
  simp only [Option.map_some]
  rw [setSvg_eq_map hu h (fun n => (n.rm .version).rm .baseProfile)]
  congr 2
  funext m
  split
  · simp only [Node.rm, rmAttr, List.filter_filter]
    congr 1
    apply List.filter_congr
    intro x _
    rw [Bool.eq_iff_iff]
    simp [and_comm]
  · rfl

/-- The step panics exactly when there is no root element. -/
theorem C50_panics_iff (f : Forest) : removeVersion f = none ↔ ∀ n ∈ f.top, n.kind ≠ .elem .svg := by
  unfold removeVersion
  rw [Option.map_eq_none_iff]
  induction f with
  | nil => simp [svgElement, Forest.top]
  | cons n k r ih1 ih2 =>
    unfold svgElement
    simp only [Forest.top, List.mem_cons, forall_eq_or_imp]
    split
    · rename_i ht; simp [(Node.isTag_iff _ _).1 ht]
    · rename_i ht
      rw [ih2]
      have : n.kind ≠ .elem .svg := fun e => ht ((Node.isTag_iff _ _).2 e)
      simp [this]

example : removeVersion (.cons ⟨0, .elem .svg, "", [⟨.id .version, .str "1.1", true⟩, ⟨.id .width, .str "5", true⟩]⟩ .nil .nil)
    = some (.cons ⟨0, .elem .svg, "", [⟨.id .width, .str "5", true⟩]⟩ .nil .nil) := by decide

/-! ### C51: identity transforms -/

theorem mul_one' (s : Paths.Transform) : mul s one = s := by
  cases s; simp [mul, one]

theorem dropDefault_key (n : Node) : (dropDefault n).key = n.key := by
  unfold dropDefault
  split
  · split <;> rfl
  · rfl

/-- C51, rendering: no node's total transform changes. -/
theorem C51_totals_unchanged (f : Forest) (t : Paths.Transform) : totals t (removeDefaultTransform f) = totals t f := by
  have key : ∀ n : Node, nodeTransform (dropDefault n) = nodeTransform n := by
    intro n
    unfold dropDefault
    split
    · rename_i t h
      split
      · rename_i ht
        simp only [nodeTransform, Node.get_rm, if_true, h, ht]
        rfl
      · rfl
    · rfl
  unfold removeDefaultTransform
  induction f generalizing t with
  | nil => rfl
  | cons n k r ih1 ih2 => simp only [Forest.map_cons, totals, key, dropDefault_key, ih1, ih2]

/-- C51: exactly the identity transforms are dropped; nothing else changes. -/
theorem C51_drops_exactly_identity (f : Forest) :
    (removeDefaultTransform f).nodes = f.nodes.map (fun n =>
      if n.get .transform = some (.transform one) then { n with attrs := n.attrs.filter (fun x => decide (x.name ≠ .id .transform)) } else n) ∧
    shape none (removeDefaultTransform f) = shape none f := by
  constructor
  · unfold removeDefaultTransform
    rw [Forest.nodes_map]
    apply List.map_congr_left
    intro n _
    unfold dropDefault
    split
    · rename_i t ht
      simp only [ht, Option.some.injEq, Value.transform.injEq]
      rfl
    · rename_i h
      rw [if_neg (h one)]
  · unfold removeDefaultTransform
    exact shape_map dropDefault_key _ _

example : ∃ f, removeDefaultTransform f ≠ f ∧ totals one f ≠ [] :=
  ⟨.cons ⟨0, .elem .svg, "", []⟩ (.cons ⟨1, .elem .g, "", [⟨.id .transform, .transform one, true⟩]⟩
    (.cons ⟨2, .elem .g, "", [⟨.id .transform, .transform ⟨2, 0, 0, 2, 0, 0⟩, true⟩]⟩ .nil .nil) .nil) .nil,
    by decide +kernel, by decide +kernel⟩

/-! ### C47: the xlink namespace -/

/-- The attributes of the xlink namespace. -/
def xlinkAttributes : List AId := [.xlinkHref, .xlinkType, .xlinkRole, .xlinkArcrole, .xlinkTitle, .xlinkShow, .xlinkActuate]

/-- C47, full statement: if an element is written with an xlink attribute, the root declares the namespace. -/
def C47_full : Prop :=
  ∀ (rm : Bool) (f f' : Forest), f.UniqueKeys → fixXmlnsAttribute rm f = some f' →
    (∃ n ∈ f'.nodes, ∃ a ∈ xlinkAttributes, (written n a).isSome) →
    ∃ n k, svgElement f' = some (n, k) ∧ n.has .xmlnsXlink

theorem svgElement_set {f : Forest} {n : Node} {k : Forest} (h : svgElement f = some (n, k)) (n' : Node) (k' : Forest)
    (hn : n'.kind = .elem .svg) : svgElement (setSvgElement n' k' f) = some (n', k') := by
  induction f with
  | nil => simp [svgElement] at h
  | cons m c r ih1 ih2 =>
    unfold svgElement at h
    unfold setSvgElement
    split at h
    · rename_i ht
      simp only [ht, if_true]
      unfold svgElement
      rw [if_pos ((Node.isTag_iff _ _).2 hn)]
    · rename_i ht
      simp only [ht, Bool.false_eq_true, if_false]
      unfold svgElement
      rw [if_neg ht]
      exact ih2 h

theorem fixXmlnsRoot_kind (rm l : Bool) (n : Node) : (fixXmlnsRoot rm l n).kind = n.kind := by
  unfold fixXmlnsRoot; split
  · rfl
  · split <;> rfl

theorem fixXmlnsRoot_key (rm l : Bool) (n : Node) : (fixXmlnsRoot rm l n).key = n.key := by
  unfold fixXmlnsRoot; split
  · rfl
  · split <;> rfl

theorem fixXmlnsRoot_get (rm l : Bool) (n : Node) (a : AId) (h : a ≠ .xmlnsXlink) : (fixXmlnsRoot rm l n).get a = n.get a := by
  unfold fixXmlnsRoot; split
  · simp [h]
  · split <;> simp [h]

/-- C47 for `xlink:href` on SVG elements: the declaration is there whenever such an attribute is; it is dropped only
if asked for and no SVG element has one; nothing but the declaration changes. -/
theorem C47_declared_partial (rm : Bool) (f f' : Forest) (hu : f.UniqueKeys) (h : fixXmlnsAttribute rm f = some f') :
    ∃ n k n', svgElement f = some (n, k) ∧ svgElement f' = some (n', k) ∧
      ((∃ m ∈ f'.nodes, m.isSvgElem ∧ m.has .xlinkHref) → n'.has .xmlnsXlink) ∧
      (n.has .xmlnsXlink → ¬ n'.has .xmlnsXlink → rm = true ∧ ∀ m ∈ f'.nodes, m.isSvgElem → ¬ m.has .xlinkHref) ∧
      (∀ a, a ≠ .xmlnsXlink → n'.get a = n.get a) ∧
      f' = f.map (fun m => if m.key = n.key then n' else m) := by
  unfold fixXmlnsAttribute at h
  rw [Option.map_eq_some_iff] at h
  obtain ⟨⟨n, k⟩, hs, hf⟩ := h
  change setSvgElement (fixXmlnsRoot rm (hasLinks f) n) k f = f' at hf
  subst hf
  have hkind := (svgElement_some hs).1
  have hmap := setSvg_eq_map hu hs (fixXmlnsRoot rm (hasLinks f))
  have hnode : ∀ m ∈ (setSvgElement (fixXmlnsRoot rm (hasLinks f) n) k f).nodes, m.isSvgElem → m.has .xlinkHref → hasLinks f = true := by
    intro m hm he hx
    rw [hmap, Forest.nodes_map, List.mem_map] at hm
    obtain ⟨m0, hm0, rfl⟩ := hm
    unfold hasLinks
    rw [List.any_eq_true]
    refine ⟨m0, hm0, ?_⟩
    split at hx
    · rename_i hk
      simp only [hk, if_true] at he
      rw [Node.has_eq, fixXmlnsRoot_get _ _ _ _ (by decide), ← Node.has_eq] at hx
      have : m0.isSvgElem = true := by
        unfold Node.isSvgElem at he ⊢; rwa [fixXmlnsRoot_kind] at he
      simp [this, hx]
    · rename_i hk
      rw [if_neg hk] at he
      simp [he, hx]
  refine ⟨n, k, fixXmlnsRoot rm (hasLinks f) n, hs, svgElement_set hs _ _ (by rw [fixXmlnsRoot_kind]; exact hkind), ?_, ?_, ?_, ?_⟩
  · rintro ⟨m, hm, he, hx⟩
    have hl := hnode m hm he hx
    unfold fixXmlnsRoot
    rw [hl]
    simp only [Bool.not_true, Bool.false_and, Bool.false_eq_true, if_false, Bool.true_and]
    split
    · simp
    · rename_i hc; simpa using hc
  · intro h1 h2
    unfold fixXmlnsRoot at h2
    cases hl : hasLinks f with
    | true => simp [hl, h1] at h2
    | false =>
      cases hr : rm with
      | false => simp [hl, hr, h1] at h2
      | true =>
        refine ⟨rfl, ?_⟩
        intro m hm he hx
        subst hr
        have := hnode m (by rw [hl]; exact hm) he hx
        rw [hl] at this; cases this
  · intro a ha; exact fixXmlnsRoot_get _ _ _ _ ha
  · rw [hmap]
    apply Forest.map_congr
    intro m hm
    split
    · rename_i hk
      rw [Forest.eq_of_key hu hm (svgElement_some hs).2.1 hk]
    · rfl

/-- `<svg xmlns:xlink="..."><a xlink:title="t"/></svg>`: `xlink:title` is used but there is no `xlink:href`. -/
def titledLink : Forest :=
  .cons ⟨0, .elem .svg, "", [⟨.id .xmlnsXlink, .str "http://www.w3.org/1999/xlink", true⟩]⟩
    (.cons ⟨1, .elem .a, "", [⟨.id .xlinkTitle, .str "t", true⟩]⟩ .nil .nil) .nil

/-- The declaration is dropped although an element is written with `xlink:title`: the output is not a namespace
well-formed document. -/
theorem C47_refuted_other_xlink : ¬ C47_full := by
  intro h
  have h1 : fixXmlnsAttribute true titledLink = some (.cons ⟨0, .elem .svg, "", []⟩
    (.cons ⟨1, .elem .a, "", [⟨.id .xlinkTitle, .str "t", true⟩]⟩ .nil .nil) .nil) := by decide +kernel
  obtain ⟨n, k, h2, h3⟩ := h true titledLink _ (by decide) h1
    ⟨⟨1, .elem .a, "", [⟨.id .xlinkTitle, .str "t", true⟩]⟩, by decide, .xlinkTitle, by decide, by decide⟩
  simp only [svgElement, Node.isTag] at h2
  simp only [decide_true, if_true, Option.some.injEq, Prod.mk.injEq] at h2
  rw [← h2.1] at h3
  revert h3; decide

example : ∃ f f', f.UniqueKeys ∧ fixXmlnsAttribute true f = some f' ∧ f' ≠ f ∧ ∃ m ∈ f'.nodes, m.isSvgElem ∧ m.has .xlinkHref :=
  ⟨.cons ⟨0, .elem .svg, "", []⟩ (.cons ⟨1, .elem .rect, "r", []⟩ .nil
      (.cons ⟨2, .elem .use, "", [⟨.id .xlinkHref, .link 1, true⟩]⟩ .nil .nil)) .nil,
   .cons ⟨0, .elem .svg, "", [⟨.id .xmlnsXlink, .str "http://www.w3.org/1999/xlink", true⟩]⟩ (.cons ⟨1, .elem .rect, "r", []⟩ .nil
      (.cons ⟨2, .elem .use, "", [⟨.id .xlinkHref, .link 1, true⟩]⟩ .nil .nil)) .nil,
   by decide, by decide, by decide, by decide⟩

end Verif.Simple
