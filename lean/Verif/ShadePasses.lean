import Verif.ShadePages
import Verif.GradUnitsProps
import Verif.UngroupProps
/-
C72: the passes that change attributes of gradients.
-/
namespace Verif.Shade
open Verif.Dom Verif.Spec Verif.Render Verif.Reader
open Verif.Paths (Transform Pt)

/-- The coordinates of gradients. -/
def coordAttrs : List AId := [.x1, .y1, .x2, .y2, .cx, .cy, .r, .fx, .fy]

/-- A gradient in which only the attributes that say where and how it is painted are changed. -/
structure Turned (n m : Node) : Prop where
  kind : m.kind = n.kind
  names : (m.attrs.map Attr.name).Nodup
  rest : ∀ a, a ∉ coordAttrs → a ≠ .gradientTransform → a ≠ .gradientUnits → written m a = written n a
  coords : ∀ a ∈ coordAttrs, ∀ v, written m a = some v → ∃ x, v = .length x
  moved : ∀ v, written m .gradientTransform = some v → ∃ T, v = .transform T
  units : ∀ v, written m .gradientUnits = some v → v.target = none

theorem drawn_not_gradient {f : Forest} {n : Node} (h : n ∈ (drawn f).nodes) : n.isGradient = false := by
  have hn : neverRendered n.kind = false := by
    induction f with
    | nil => cases h
    | cons m k r ihk ihr =>
      unfold drawn at h
      split at h
      · exact ihr h
      next hm =>
        simp only [Forest.nodes, List.mem_cons, List.mem_append] at h
        rcases h with rfl | h | h
        · simpa using hm
        · exact ihk h
        · exact ihr h
  cases hg : n.isGradient with
  | false => rfl
  | true =>
    obtain ⟨e, he, hk⟩ := Invisible.grad_kind hg
    rw [hk] at hn
    rcases he with rfl | rfl <;> cases hn

theorem drawn_sub_nodes {f : Forest} {n : Node} (h : n ∈ (drawn f).nodes) : n ∈ f.nodes := by
  induction f with
  | nil => cases h
  | cons m k r ihk ihr =>
    unfold drawn at h
    simp only [Forest.nodes, List.mem_cons, List.mem_append]
    split at h
    · exact .inr (.inr (ihr h))
    · simp only [Forest.nodes, List.mem_cons, List.mem_append] at h
      rcases h with rfl | h | h
      · exact .inl rfl
      · exact .inr (.inl (ihk h))
      · exact .inr (.inr (ihr h))

theorem stop_not_gradient {n : Node} (h : n.kind = .elem .stop) : n.isGradient = false := by
  cases hg : n.isGradient with
  | false => rfl
  | true =>
    obtain ⟨e, he, hk⟩ := Invisible.grad_kind hg
    rw [hk] at h
    rcases he with rfl | rfl <;> cases h

section
variable {f : Forest} {w : Node → Node} (hf : Page f) (hk : ∀ n, (w n).key = n.key) (hw : ∀ n ∈ f.nodes, n.isGradient = true → Turned n (w n))
  (ho : ∀ n ∈ f.nodes, n.isGradient = false → w n = n)

theorem isGradient_congr {n m : Node} (h : m.kind = n.kind) : m.isGradient = n.isGradient := by unfold Node.isGradient Node.isTag; rw [h]

include hw ho in
theorem turned_kind {n : Node} (hn : n ∈ f.nodes) : (w n).kind = n.kind := by
  cases hg : n.isGradient with
  | true => exact (hw n hn hg).kind
  | false => rw [ho n hn hg]

include hw ho in
theorem turned_gradient {n : Node} (hn : n ∈ f.nodes) : (w n).isGradient = n.isGradient := isGradient_congr (turned_kind hw ho hn)

include hw ho in
theorem turned_drawn : drawn (f.map w) = drawn f := by
  rw [GroupDefs.drawn_map_nodes fun n hn => turned_kind hw ho hn]
  exact Forest.map_id' fun n hn => ho n (drawn_sub_nodes hn) (drawn_not_gradient hn)

include hw ho in
theorem turned_stops {c : Forest} (hc : ∀ n ∈ c.nodes, n ∈ f.nodes) : stopKids (c.map w) = stopKids c := by
  unfold stopKids
  rw [Stops.top_map, List.filter_map]
  have htop : ∀ n ∈ c.top, n ∈ f.nodes := fun n hn => hc n (Invisible.top_nodes hn)
  have : ((fun n : Node => decide (n.kind = .elem .stop)) ∘ w) = fun n => decide ((w n).kind = .elem .stop) := rfl
  rw [this]
  rw [List.filter_congr (q := fun n : Node => decide (n.kind = .elem .stop)) fun n hn => by rw [turned_kind hw ho (htop n hn)]]
  conv => rhs; rw [← List.map_id (List.filter _ _)]
  refine List.map_congr_left fun n hn => ?_
  obtain ⟨h1, h2⟩ := List.mem_filter.1 hn
  exact ho n (htop n h1) (stop_not_gradient (by simpa using h2))

include hf hk hw ho in
/-- Such changes do not lead out of the documents in question. -/
theorem page_turned : Page (f.map w) := by
  have names : ∀ n ∈ f.nodes, ((w n).attrs.map Attr.name).Nodup := by
    intro n hn
    cases hg : n.isGradient with
    | true => exact (hw n hn hg).names
    | false => rw [ho n hn hg]; exact hf.attrs n hn
  have get : ∀ n ∈ f.nodes, ∀ a, (paper (w n)).get a = written (w n) a := fun n hn a => get_paper (names n hn) a
  have get0 : ∀ n ∈ f.nodes, ∀ a, (paper n).get a = written n a := fun n hn a => get_paper (hf.attrs n hn) a
  have mem : ∀ {x}, x ∈ (onPaper (f.map w)).nodes → ∃ n ∈ f.nodes, x = paper (w n) := by
    intro x hx
    obtain ⟨m, hm, rfl⟩ := of_paper hx
    rw [Forest.nodes_map] at hm
    obtain ⟨n, hn, rfl⟩ := List.mem_map.1 hm
    exact ⟨n, hn, rfl⟩
  have memg : ∀ {x}, x ∈ (onPaper (f.map w)).nodes → x.isGradient = true → ∃ n ∈ f.nodes, n.isGradient = true ∧ x = paper (w n) := by
    intro x hx hg
    obtain ⟨n, hn, rfl⟩ := mem hx
    exact ⟨n, hn, by rw [← turned_gradient hw ho hn]; exact hg, rfl⟩
  have sub : ∀ {x}, x ∈ subs (f.map w) → x.1.isGradient = true → ∃ y ∈ subs f, y.1.isGradient = true ∧ x = (w y.1, y.2.map w) ∧ stopKids x.2 = stopKids y.2 := by
    intro x hx hg
    rw [Stops.subs_map] at hx
    obtain ⟨y, hy, rfl⟩ := List.mem_map.1 hx
    have hn := UnusedDefs.node_of_subs hy
    exact ⟨y, hy, by rw [← turned_gradient hw ho hn]; exact hg, rfl, turned_stops hw ho fun n hn => (Stops.subs_kids_sub hy).1.mem hn⟩
  refine ⟨?_, ?_, ?_⟩
  · intro m hm
    rw [Forest.nodes_map] at hm
    obtain ⟨n, hn, rfl⟩ := List.mem_map.1 hm
    exact names n hn
  · refine ⟨?_, ?_, ?_, ?_, ?_, ?_, ?_, ?_, ?_, ?_⟩
    · have := hf.unique
      unfold Forest.UniqueKeys at this ⊢
      rw [onPaper_map, Forest.keys_map (g := paper) (fun _ => rfl), Forest.keys_map hk]
      exact this
    · intro x hx y hy
      obtain ⟨n, _, rfl⟩ := mem hx
      exact (List.mem_filter.1 hy).2
    · obtain ⟨rank, hr⟩ := hf.href
      refine ⟨rank, fun x hx hg v hv => ?_⟩
      obtain ⟨n, hn, hng, rfl⟩ := memg hx hg
      rw [written_paper (names n hn), (hw n hn hng).rest _ (by decide) (by decide) (by decide)] at hv
      obtain ⟨t, ht, e, htg, hlt⟩ := hr n hn hng v hv
      refine ⟨paper (w t), mem_paper ?_, ?_, ?_, ?_⟩
      · rw [Forest.nodes_map]; exact List.mem_map_of_mem ht
      · rw [e]; exact congrArg _ (hk t).symm
      · exact (turned_gradient hw ho ht).trans htg
      · show rank (w t).key < rank (w n).key
        rw [hk, hk]; exact hlt
    · intro x hx hg
      obtain ⟨n, hn, hng, rfl⟩ := memg hx hg
      have := hf.sheet.plain (paper n) (mem_paper hn) hng
      unfold Invisible.plainEffects at this ⊢
      simp only [List.all_cons, List.all_nil] at this ⊢
      rw [get0 n hn, get0 n hn, get0 n hn] at this
      rw [get n hn, get n hn, get n hn, (hw n hn hng).rest _ (by decide) (by decide) (by decide), (hw n hn hng).rest _ (by decide) (by decide) (by decide),
        (hw n hn hng).rest _ (by decide) (by decide) (by decide)]
      exact this
    · intro x hx hg a ha v hv
      obtain ⟨n, hn, hng, rfl⟩ := memg hx hg
      rw [get n hn] at hv
      exact (hw n hn hng).coords a ha v hv
    · intro x hx hg v hv
      obtain ⟨n, hn, hng, rfl⟩ := memg hx hg
      rw [get n hn] at hv
      exact (hw n hn hng).moved v hv
    · intro x hx hg a ha hown v hv
      obtain ⟨n, hn, hng, rfl⟩ := memg hx hg
      rw [get n hn] at hv
      by_cases h1 : a ∈ coordAttrs
      · obtain ⟨y, rfl⟩ := (hw n hn hng).coords a h1 v hv; rfl
      · by_cases h2 : a = .gradientTransform
        · subst h2
          obtain ⟨y, rfl⟩ := (hw n hn hng).moved v hv; rfl
        · by_cases h3 : a = .gradientUnits
          · subst h3
            exact (hw n hn hng).units v hv
          · rw [(hw n hn hng).rest a h1 h2 h3, ← get0 n hn] at hv
            exact hf.sheet.words (paper n) (mem_paper hn) hng a ha hown v hv
    · intro x hx hg s hs
      obtain ⟨y, hy, rfl⟩ := subs_paper hx
      obtain ⟨z, hz, hzg, e, hst⟩ := sub hy hg
      rw [stopKids_paper, hst, ← stopKids_paper] at hs
      refine hf.sheet.stops (paper z.1, onPaper z.2) ?_ hzg s hs
      rw [onPaper_map, Stops.subs_map]
      exact List.mem_map.2 ⟨z, hz, by rw [onPaper_map]⟩
    · intro n hn x hx k hkk
      rw [drawn_paper, turned_drawn hw ho, ← drawn_paper] at hn
      obtain ⟨h1, h2, m, hm, rfl, hmg⟩ := hf.sheet.links n hn x hx k hkk
      obtain ⟨t, ht, rfl⟩ := of_paper hm
      refine ⟨h1, h2, paper (w t), mem_paper ?_, hk t, (turned_gradient hw ho ht).trans hmg⟩
      rw [Forest.nodes_map]; exact List.mem_map_of_mem ht
    · intro z hz
      rw [onPaper_map, fringe_map (w := paper) (fun _ _ => rfl), fringe_map fun n hn => turned_kind hw ho hn] at hz
      refine hf.sheet.place z ?_
      rw [onPaper_map, fringe_map (w := paper) (fun _ _ => rfl)]
      exact hz
  · intro x hx hg s hs
    obtain ⟨y, hy, hyg, _, hst⟩ := sub hx hg
    rw [hst] at hs
    exact hf.stops y hy hyg s hs

include hf hk hw ho in
/-- Such changes, if the gradients that are used give the same paint. -/
theorem shade_turned (hp : ∀ n ∈ f.nodes, n.isGradient = true → (∃ x ∈ f.nodes, x.isGradient = false ∧ n.key ∈ x.links) → ∀ l l', Looks f n l → Looks (f.map w) (w n) l' →
    l.Sound → l'.Sound → Alike l l') : SameShade (onPaper f) (onPaper (f.map w)) := by
  refine shade_pages (ρ := id) hf (page_turned hf hk hw ho) ?_ ?_
  · rw [turned_drawn hw ho]
    exact (Forest.map_id' fun n _ => rename_id fun _ _ => rfl).symm
  · rintro n hn hng ⟨x, hx, hl⟩
    refine ⟨w n, ?_, hk n, (turned_gradient hw ho hn).trans hng, hp n hn hng ⟨x, drawn_sub_nodes hx, drawn_not_gradient hx, hl⟩⟩
    rw [Forest.nodes_map]; exact List.mem_map_of_mem hn

include hw ho in
theorem turned_href {n : Node} (hn : n ∈ f.nodes) : written (w n) .xlinkHref = written n .xlinkHref := by
  cases hg : n.isGradient with
  | true => exact (hw n hn hg).rest _ (by decide) (by decide) (by decide)
  | false => rw [ho n hn hg]

include hf hk hw ho in
/-- The stops of the gradients are the same. -/
theorem turned_gstops {n : Node} (hn : n ∈ f.nodes) {ss : List Node} (h : GStops f n ss) : GStops (f.map w) (w n) ss := by
  have kids : ∀ {n : Node} {c : Forest}, f.kidsOf n.key = some c → (f.map w).kidsOf (w n).key = some (c.map w) ∧ stopKids (c.map w) = stopKids c := by
    intro n c hc
    rw [hk, GroupDefs.kidsOf_map (h := w) hk, hc]
    obtain ⟨m, _, hm⟩ := UnusedDefs.subs_kidsOf hc
    exact ⟨rfl, turned_stops hw ho fun x hx => (Stops.subs_kids_sub hm).1.mem hx⟩
  induction h with
  | own h1 h2 =>
    obtain ⟨k1, k2⟩ := kids h1
    rw [← k2] at h2 ⊢
    exact .own k1 h2
  | @ref y c k m l h1 h2 h3 h4 _ ih =>
    obtain ⟨k1, k2⟩ := kids h1
    obtain ⟨hm, rfl⟩ := Forest.find_some h4
    have hmem : w m ∈ (f.map w).nodes := by rw [Forest.nodes_map]; exact List.mem_map_of_mem hm
    have := Forest.find_of_mem ((Forest.uniqueKeys_map hk).2 hf.unique) hmem
    rw [hk] at this
    exact .ref k1 (k2.trans h2) (by rw [turned_href hw ho hn]; exact h3) this (ih hm)
  | none h1 h2 h3 =>
    obtain ⟨k1, k2⟩ := kids h1
    exact .none k1 (k2.trans h2) (by rw [turned_href hw ho hn]; exact h3)

include hf hk hw ho in
theorem turned_looks_stops {n : Node} (hn : n ∈ f.nodes) {l l' : GLook} (h : Looks f n l) (h' : Looks (f.map w) (w n) l') : l.stops = l'.stops := by
  obtain ⟨t, b1, b2⟩ := h.stops
  obtain ⟨t', c1, c2⟩ := h'.stops
  rw [b2, c2, c1.unique (turned_gstops hf hk hw ho hn b1)]

end

end Verif.Shade
