import Verif.ShadeProps
import Verif.FinalProps
import Verif.GroupDefsProps
/-
C72: documents in memory and the files that are written for them.
-/
namespace Verif.Shade
open Verif.Dom Verif.Spec Verif.Render Verif.Reader
open Verif.Paths (Transform Pt)

theorem onPaper_map (f : Forest) : onPaper f = f.map paper := by
  induction f with
  | nil => rfl
  | cons n k r ihk ihr => rw [onPaper_cons, ihk, ihr]; rfl

theorem paper_rename (ρ : Nat → Nat) (n : Node) : paper (rename ρ n) = rename ρ (paper n) := by
  unfold paper rename
  simp only [List.filter_map, Function.comp_def]

theorem drawn_paper (f : Forest) : drawn (onPaper f) = (drawn f).map paper := by
  rw [onPaper_map]
  exact Simple.drawn_map (g := paper) (fun _ => rfl) f

theorem mem_paper {f : Forest} {n : Node} (h : n ∈ f.nodes) : paper n ∈ (onPaper f).nodes := by
  rw [onPaper_map, Forest.nodes_map]
  exact List.mem_map_of_mem h

theorem of_paper {f : Forest} {n : Node} (h : n ∈ (onPaper f).nodes) : ∃ m ∈ f.nodes, paper m = n := by
  rw [onPaper_map, Forest.nodes_map] at h
  exact List.mem_map.1 h

theorem fringe_map {w : Node → Node} {p : Kind} {f : Forest} (h : ∀ n ∈ f.nodes, (w n).kind = n.kind) : fringe p (f.map w) = fringe p f := by
  induction f generalizing p with
  | nil => rfl
  | cons n k r ihk ihr =>
    simp only [Forest.map, fringe]
    rw [h n (by simp [Forest.nodes]), ihk fun m hm => h m (by simp [Forest.nodes, hm]), ihr fun m hm => h m (by simp [Forest.nodes, hm])]

theorem subs_paper {f : Forest} {x : Node × Forest} (h : x ∈ subs (onPaper f)) : ∃ y ∈ subs f, x = (paper y.1, onPaper y.2) := by
  rw [onPaper_map, Stops.subs_map] at h
  obtain ⟨y, hy, rfl⟩ := List.mem_map.1 h
  exact ⟨y, hy, by rw [onPaper_map]⟩

theorem stopKids_paper (c : Forest) : stopKids (onPaper c) = (stopKids c).map paper := by
  unfold stopKids
  rw [onPaper_map, Stops.top_map, List.filter_map]
  rfl

theorem written_paper {n : Node} (hu : (n.attrs.map Attr.name).Nodup) (a : AId) : written (paper n) a = written n a := by
  rw [← get_paper hu]
  refine written_visible (fun y hy => ?_) a
  exact (List.mem_filter.1 hy).2

/-- What a stop is, is seen in the file. -/
theorem nodeStop_paper {s : Node} (hu : (s.attrs.map Attr.name).Nodup) (h : ∀ y ∈ s.attrs, y.visible = true ∨ y.name = .id .stopOpacity ∧ y.value = .number 1 ∨
    y.name = .id .stopColor ∧ y.value = .color 0 0 0) : nodeStop (paper s) = nodeStop s := by
  unfold nodeStop
  rw [get_paper hu, get_paper hu, get_paper hu]
  have key : ∀ a, written s a = s.get a ∨ a = .stopOpacity ∧ written s a = none ∧ s.get a = some (.number 1) ∨
      a = .stopColor ∧ written s a = none ∧ s.get a = some (.color 0 0 0) := by
    intro a
    unfold written Node.get
    cases hg : getAttr s.attrs (.id a) with
    | none => exact .inl rfl
    | some y =>
      have hn := getAttr_name hg
      rcases h y (getAttr_mem hg) with h | ⟨h, hv⟩ | ⟨h, hv⟩
      · simp [h]
      · by_cases hvis : y.visible = true
        · simp [hvis]
        · rw [hn] at h
          cases h
          exact .inr (.inl ⟨rfl, by simp [hvis], by simp [hv]⟩)
      · by_cases hvis : y.visible = true
        · simp [hvis]
        · rw [hn] at h
          cases h
          exact .inr (.inr ⟨rfl, by simp [hvis], by simp [hv]⟩)
  have e1 : written s .offset = s.get .offset := by
    rcases key .offset with h | ⟨h, _⟩ | ⟨h, _⟩
    · exact h
    · cases h
    · cases h
  have e2 : (written s .stopOpacity).getD (.number 1) = (s.get .stopOpacity).getD (.number 1) := by
    rcases key .stopOpacity with h | ⟨_, h1, h2⟩ | ⟨h, _⟩
    · rw [h]
    · rw [h1, h2]; rfl
    · cases h
  have e3 : (written s .stopColor).getD (.color 0 0 0) = (s.get .stopColor).getD (.color 0 0 0) := by
    rcases key .stopColor with h | ⟨h, _⟩ | ⟨_, h1, h2⟩
    · rw [h]
    · cases h
    · rw [h1, h2]; rfl
  rw [e1, e2, e3]

section
variable {f : Forest} (hf : Page f)
include hf

theorem Page.unique : f.UniqueKeys := by
  have := hf.sheet.unique
  unfold Forest.UniqueKeys at this ⊢
  rw [onPaper_map] at this
  rwa [Forest.keys_map (g := paper) (fun _ => rfl)] at this

theorem Page.effective_of {n : Node} (hn : n ∈ f.nodes) {a : AId} {m : Node} {v : Option Value} (hm : paper n = m) (h : Effective (onPaper f) a m v) : Effective f a n v := by
  induction h generalizing n with
  | own h => subst hm; exact .own (by rw [← written_paper (hf.attrs n hn)]; exact h)
  | ref h1 h2 h3 _ ih =>
    subst hm
    rw [written_paper (hf.attrs n hn)] at h1 h2
    obtain ⟨h4, e⟩ := Forest.find_some h3
    obtain ⟨t, ht, rfl⟩ := of_paper h4
    have := Forest.find_of_mem hf.unique ht
    rw [show t.key = _ from e] at this
    exact .ref h1 h2 this (ih ht rfl)
  | stop h1 h2 =>
    subst hm
    rw [written_paper (hf.attrs n hn)] at h1 h2
    exact .stop h1 h2

theorem Page.gstops_of {n : Node} (hn : n ∈ f.nodes) {m : Node} {l : List Node} (hm : paper n = m) (h : GStops (onPaper f) m l) : ∃ l', GStops f n l' ∧ l = l'.map paper := by
  have kids : ∀ {n : Node} {c : Forest}, (onPaper f).kidsOf (paper n).key = some c → ∃ d, f.kidsOf n.key = some d ∧ c = onPaper d := by
    intro n c hc
    rw [onPaper_map, GroupDefs.kidsOf_map (h := paper) (fun _ => rfl)] at hc
    obtain ⟨d, hd, rfl⟩ := Option.map_eq_some_iff.1 hc
    exact ⟨d, hd, (onPaper_map d).symm⟩
  induction h generalizing n with
  | own h1 h2 =>
    subst hm
    obtain ⟨d, hd, rfl⟩ := kids h1
    rw [stopKids_paper] at h2 ⊢
    exact ⟨_, .own hd (by simpa using h2), rfl⟩
  | ref h1 h2 h3 h4 _ ih =>
    subst hm
    obtain ⟨d, hd, rfl⟩ := kids h1
    rw [written_paper (hf.attrs n hn)] at h3
    rw [stopKids_paper] at h2
    obtain ⟨h5, e⟩ := Forest.find_some h4
    obtain ⟨t, ht, rfl⟩ := of_paper h5
    have := Forest.find_of_mem hf.unique ht
    rw [show t.key = _ from e] at this
    obtain ⟨l', g1, g2⟩ := ih ht rfl
    exact ⟨l', .ref hd (by simpa using h2) h3 this g1, g2⟩
  | none h1 h2 h3 =>
    subst hm
    obtain ⟨d, hd, rfl⟩ := kids h1
    rw [written_paper (hf.attrs n hn)] at h3
    rw [stopKids_paper] at h2
    exact ⟨[], .none hd (by simpa using h2) h3, rfl⟩

theorem Page.href : HrefOk f := by
  obtain ⟨rank, hr⟩ := hf.sheet.href
  refine ⟨rank, fun n hn hg v hv => ?_⟩
  obtain ⟨t, ht, e, htg, hlt⟩ := hr (paper n) (mem_paper hn) hg v (by rw [written_paper (hf.attrs n hn)]; exact hv)
  obtain ⟨s, hs, rfl⟩ := of_paper ht
  exact ⟨s, hs, e, htg, hlt⟩

theorem Page.looks {n : Node} (hn : n ∈ f.nodes) (hg : n.isGradient = true) {l : GLook} (h : Looks (onPaper f) (paper n) l) : Looks f n l := by
  refine ⟨h.kind, fun a h1 h2 => hf.effective_of hn rfl (h.attr a h1 h2), ?_⟩
  obtain ⟨ss, h1, h2⟩ := h.stops
  obtain ⟨l', h3, rfl⟩ := hf.gstops_of hn rfl h1
  refine ⟨l', h3, ?_⟩
  rw [h2, List.map_map]
  refine List.map_congr_left fun s hs => ?_
  obtain ⟨rank, hr⟩ := hf.href
  obtain ⟨x, hx, hxg, hk⟩ := gstops_mem hf.unique hr hn hg h3 hs
  refine nodeStop_paper (hf.attrs s ?_) (hf.stops x hx hxg s hk)
  exact (Stops.subs_kids_sub hx).1.mem (Invisible.top_nodes (List.mem_filter.1 hk).1)

end

/-- **Files whose drawn elements are the same, but for references to gradients that give the same paint, are drawn the same.** -/
theorem shade_pages {f g : Forest} {ρ : Nat → Nat} (hf : Page f) (hg : Page g) (hd : drawn g = (drawn f).map (rename ρ))
    (hp : ∀ n ∈ f.nodes, n.isGradient = true → (∃ x ∈ (drawn f).nodes, n.key ∈ x.links) → ∃ m ∈ g.nodes, m.key = ρ n.key ∧ m.isGradient = true ∧
      ∀ l l', Looks f n l → Looks g m l' → l.Sound → l'.Sound → Alike l l') : SameShade (onPaper f) (onPaper g) := by
  refine shade_of (ρ := ρ) hf.sheet hg.sheet ?_ ?_
  · rw [drawn_paper, drawn_paper, hd, Forest.map_map, Forest.map_map]
    congr 1
    funext n
    exact paper_rename ρ n
  · intro n' hn' hng hx
    obtain ⟨n, hn, rfl⟩ := of_paper hn'
    obtain ⟨y, hy, hk⟩ := hx
    rw [drawn_paper, Forest.nodes_map] at hy
    obtain ⟨x, hx, rfl⟩ := List.mem_map.1 hy
    obtain ⟨m, hm, e, hmg, hl⟩ := hp n hn hng ⟨x, hx, by
      obtain ⟨z, hz, ht⟩ := Node.mem_links.1 hk
      exact Node.mem_links.2 ⟨z, (List.mem_filter.1 hz).1, ht⟩⟩
    refine ⟨paper m, mem_paper hm, e, hmg, fun l l' h1 h2 => ?_⟩
    exact hl l l' (hf.looks hn hng h1) (hg.looks hm hmg h2) (hf.sheet.sound (mem_paper hn) hng h1) (hg.sheet.sound (mem_paper hm) hmg h2)

end Verif.Shade
