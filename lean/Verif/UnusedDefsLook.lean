import Verif.UnusedDefs
import Verif.RenderDepth
import Verif.UngroupCases
/-
Property C25, continued: removing unused definitions keeps the picture.
-/
namespace Verif.UnusedDefs
open Verif.Dom Verif.Spec Verif.Render
open Verif.Paths (Transform)

/-- An element without attributes that its descendants inherit. -/
def Bare (n : Node) : Prop := ∀ a, inherits a = true → n.get a = none

theorem style_bare {n : Node} (h : Bare n) {c : Ctx} (hc : ∀ a, inherits a = false → c.style a = none) : (c.enter n).style = c.style := by
  funext a
  simp only [Ctx.enter]
  by_cases ha : inherits a = true
  · simp [ha, h a ha]
  · simp [ha, hc a (by simpa using ha)]

theorem or_swap {α : Type} {x y z : Option α} (h : x = none ∨ y = none) : x.or (y.or z) = y.or (x.or z) := by
  cases x <;> cases y <;> simp_all

theorem keys_kept {f c : Forest} {k : Nat} (h : k ∈ (kept f c).keys) : k ∈ c.keys := by
  induction c with
  | nil => exact h
  | cons n ks r _ ih =>
    simp only [kept] at h
    split at h
    · split at h
      · exact by simp [Forest.keys_cons, ih h]
      · simp only [Forest.keys_cons, List.mem_cons, List.mem_append] at h ⊢
        rcases h with h | h | h
        · exact .inl h
        · cases h
        · exact .inr (.inr (ih h))
    · simp only [Forest.keys_cons, List.mem_cons, List.mem_append] at h ⊢
      rcases h with h | h | h
      · exact .inl h
      · exact .inr (.inl h)
      · exact .inr (.inr (ih h))

section
variable {P : Type} {π : Painter P}

theorem inst_round {f c : Forest} (hu : c.UniqueKeys) {k : Nat} (hk : f.isUsed k = true) (env : Env P) (via : Attrs P) (x : Ctx) :
    instOf π env via x k (kept f c ++ moved f c) = instOf π env via x k c := by
  rw [instOf_append]
  induction c with
  | nil => rfl
  | cons n ks r _ ih =>
    obtain ⟨h1, h2, h3, h4, h5⟩ := nodup_cons hu
    have ih := ih h4
    by_cases hn : unused f n = true
    · have hne : n.key ≠ k := by
        rintro rfl
        simp [unused, hk] at hn
      have e : instOf π env via x k (kept f (.cons n ks r)) = instOf π env via x k (kept f r) := by
        simp only [kept, hn, if_true]
        split
        · rfl
        · simp [instOf, hne]
      rw [e]
      simp only [moved, hn, if_true]
      rw [instOf_append, instOf, if_neg hne, ← ih]
      apply or_swap
      by_cases hm : k ∈ ks.keys
      · exact .inl (instOf_none (fun h => h5 k hm (keys_kept h)) _ _ _)
      · exact .inr (instOf_none hm _ _ _)
    · simp only [kept, moved, hn, Bool.false_eq_true, if_false, instOf]
      split
      · rfl
      · rw [← ih, Option.or_assoc]

theorem here_round {f c : Forest} (hu : c.UniqueKeys) {k : Nat} (hk : f.isUsed k = true)
    (hb : ∀ n ks, (n, ks) ∈ tops c → unused f n = true → k ∈ ks.keys → Bare n) (env : Env P) {x : Ctx} (hx : ∀ a, inherits a = false → x.style a = none) :
    hereOf π env k x (kept f c ++ moved f c) = hereOf π env k x c := by
  rw [hereOf_append]
  induction c with
  | nil => rfl
  | cons n ks r _ ih =>
    obtain ⟨h1, h2, h3, h4, h5⟩ := nodup_cons hu
    have ih := ih h4 (fun m c hm => hb m c (by simp [tops, hm]))
    by_cases hn : unused f n = true
    · have hne : n.key ≠ k := by
        rintro rfl
        simp [unused, hk] at hn
      have e : hereOf π env k x (kept f (.cons n ks r)) = hereOf π env k x (kept f r) := by
        simp only [kept, hn, if_true]
        split
        · rfl
        · simp [hereOf, hne]
      rw [e]
      simp only [moved, hn, if_true]
      have e2 : hereOf π env k (x.enter n) ks = hereOf π env k x ks := by
        by_cases hm : k ∈ ks.keys
        · exact hereOf_style _ _ (style_bare (hb n ks (by simp [tops]) hn hm) hx)
        · rw [hereOf_none hm, hereOf_none hm]
      rw [hereOf_append, hereOf, if_neg hne, ← ih, e2]
      apply or_swap
      by_cases hm : k ∈ ks.keys
      · exact .inl (hereOf_none (fun h => h5 k hm (keys_kept h)) _ _)
      · exact .inr (hereOf_none hm _ _)
    · simp only [kept, moved, hn, Bool.false_eq_true, if_false, hereOf]
      split
      · rfl
      · rw [← ih, Option.or_assoc]

theorem pics_setKids {f : Forest} {d : Nat} (h : ∀ n ∈ f.nodes, n.key = d → neverRendered n.kind = true) (c : Forest) (env : Env P) (x : Ctx) :
    pics π env x (f.setKids d c) = pics π env x f := by
  induction f generalizing x with
  | nil => rfl
  | cons m k r ihk ihr =>
    have hk := ihk (fun n hn => h n (by simp [hn]))
    have hr := ihr (fun n hn => h n (by simp [hn])) x
    by_cases e : m.key = d
    · have := h m (by simp) e
      rw [Forest.setKids, if_pos e]
      simp only [pics, draw, this, if_true, hr]
    · rw [Forest.setKids, if_neg e]
      simp only [pics, hk, hr]

end

/-- Other children for an element that is not drawn. -/
theorem like_setKids {u : Nat → Prop} {f : Forest} (hu : f.UniqueKeys) {d : Nat} (hd : ¬ u d) (h : ∀ n ∈ f.nodes, n.key = d → neverRendered n.kind = true)
    {c c' : Forest} (hc : f.kidsOf d = some c)
    (hi : ∀ {P : Type} (π : Painter P) env via x k, u k → instOf π env via x k c = instOf π env via x k c')
    (hh : ∀ {P : Type} (π : Painter P) env (x : Ctx) k, (∀ a, inherits a = false → x.style a = none) → u k → hereOf π env k x c = hereOf π env k x c') :
    Like u f (f.setKids d c') := by
  refine ⟨fun π env x => (pics_setKids h c' env x).symm, ?_, ?_⟩
  · intro P π env via x k hk
    induction f with
    | nil => rfl
    | cons m ks r ihk ihr =>
      obtain ⟨h1, h2, h3, h4, h5⟩ := nodup_cons hu
      by_cases e : m.key = d
      · have hne : m.key ≠ k := fun h => hd (by rw [← e, h]; exact hk)
        unfold Forest.kidsOf at hc
        rw [if_pos e] at hc
        cases hc
        rw [Forest.setKids, if_pos e, setKids_not_mem (by rw [← e]; exact h2), instOf, instOf, if_neg hne, if_neg hne, hi π env via x k hk]
      · rw [Forest.setKids, if_neg e, instOf, instOf]
        unfold Forest.kidsOf at hc
        rw [if_neg e] at hc
        split
        · rw [pics_setKids (fun n hn => h n (by simp [hn]))]
        · cases hkd : ks.kidsOf d with
          | some c1 =>
            rw [hkd] at hc
            cases hc
            obtain ⟨n, hn, hm⟩ := subs_kidsOf hkd
            have : d ∈ ks.keys := by rw [← Stops.subs_keys]; exact List.mem_map.2 ⟨_, hm, hn⟩
            rw [setKids_not_mem (h5 _ this), ihk h3 (fun n hn => h n (by simp [hn])) hkd]
          | none =>
            rw [hkd] at hc
            obtain ⟨n, hn, hm⟩ := subs_kidsOf hc
            have : d ∈ r.keys := by rw [← Stops.subs_keys]; exact List.mem_map.2 ⟨_, hm, hn⟩
            rw [setKids_not_mem (fun hx => h5 _ hx this), ihr h4 (fun n hn => h n (by simp [hn])) hc]
  · intro P π env x k hk
    induction f generalizing x with
    | nil => rfl
    | cons m ks r ihk ihr =>
      obtain ⟨h1, h2, h3, h4, h5⟩ := nodup_cons hu
      by_cases e : m.key = d
      · have hne : m.key ≠ k := fun h => hd (by rw [← e, h]; exact hk)
        unfold Forest.kidsOf at hc
        rw [if_pos e] at hc
        cases hc
        have ht : ∀ a, inherits a = false → (x.enter m).style a = none := fun a ha => by simp [Ctx.enter, ha]
        rw [Forest.setKids, if_pos e, setKids_not_mem (by rw [← e]; exact h2), hereOf, hereOf, if_neg hne, if_neg hne, hh π env _ k ht hk]
      · rw [Forest.setKids, if_neg e, hereOf, hereOf]
        unfold Forest.kidsOf at hc
        rw [if_neg e] at hc
        split
        · rw [pics_setKids (fun n hn => h n (by simp [hn]))]
        · cases hkd : ks.kidsOf d with
          | some c1 =>
            rw [hkd] at hc
            cases hc
            obtain ⟨n, hn, hm⟩ := subs_kidsOf hkd
            have : d ∈ ks.keys := by rw [← Stops.subs_keys]; exact List.mem_map.2 ⟨_, hm, hn⟩
            rw [setKids_not_mem (h5 _ this), ihk h3 (fun n hn => h n (by simp [hn])) hkd]
          | none =>
            rw [hkd] at hc
            obtain ⟨n, hn, hm⟩ := subs_kidsOf hc
            have : d ∈ r.keys := by rw [← Stops.subs_keys]; exact List.mem_map.2 ⟨_, hm, hn⟩
            rw [setKids_not_mem (fun hx => h5 _ hx this), ihr h4 (fun n hn => h n (by simp [hn])) hc]

/-- Every child of `defs` is one of the elements it had, or one that has lost its content; all below is as it was. -/
def Old (c0 c : Forest) : Prop := ∀ q ∈ tops c, (q.2 = .nil ∨ q ∈ subs c0) ∧ ∀ p ∈ subs q.2, p ∈ subs c0

theorem old_round {c0 f c : Forest} (h : Old c0 c) : Old c0 (kept f c ++ moved f c) := by
  intro q hq
  rw [tops_append, List.mem_append] at hq
  have base : ∀ q ∈ tops c, (q.2 = .nil ∨ q ∈ subs c0) ∧ ∀ p ∈ subs q.2, p ∈ subs c0 := h
  clear h
  induction c with
  | nil => simp [kept, moved, tops] at hq
  | cons n k r _ ih =>
    have hb := base (n, k) (by simp [tops])
    have hr : ∀ q ∈ tops r, (q.2 = .nil ∨ q ∈ subs c0) ∧ ∀ p ∈ subs q.2, p ∈ subs c0 := fun q hq => base q (by simp [tops, hq])
    by_cases hu : unused f n
    · simp only [kept, moved, hu, if_true] at hq
      rw [tops_append, List.mem_append] at hq
      rcases hq with hq | hq | hq
      · split at hq
        · exact ih (.inl hq) hr
        · simp only [tops, List.mem_cons] at hq
          rcases hq with rfl | hq
          · exact ⟨.inl rfl, by simp [subs]⟩
          · exact ih (.inl hq) hr
      · have hs : q ∈ subs k := mem_subs_tops.2 ⟨q, hq, .inl rfl⟩
        exact ⟨.inr (hb.2 q hs), fun p hp => hb.2 p (subs_trans hs hp)⟩
      · exact ih (.inr hq) hr
    · simp only [kept, moved, hu, Bool.false_eq_true, if_false, tops, List.mem_cons] at hq
      rcases hq with (rfl | hq) | hq
      · exact hb
      · exact ih (.inl hq) hr
      · exact ih (.inr hq) hr

/-- One round keeps the picture. -/
theorem round_look {f c : Forest} (hu : f.UniqueKeys) {d : Nat} (hd : f.isUsed d = false) (h : ∀ n ∈ f.nodes, n.key = d → neverRendered n.kind = true)
    (hc : f.kidsOf d = some c) (hb : ∀ n ks, (n, ks) ∈ tops c → unused f n = true → ∀ k ∈ ks.keys, f.isUsed k = true → Bare n)
    (hs : ∀ n ∈ (round d f c).nodes, n ∈ f.nodes) : SameLook f (round d f c) := by
  have hcu : c.UniqueKeys := by
    obtain ⟨A, hA⟩ := nodes_setKids hu (k := d) (by
      obtain ⟨n, hn, hm⟩ := subs_kidsOf hc
      rw [← Stops.subs_keys]; exact List.mem_map.2 ⟨_, hm, hn⟩)
    have := hA c
    rw [setKids_self hu hc] at this
    have h2 : ((A ++ c.nodes).map (·.key)).Nodup := (this.map _).nodup_iff.1 hu
    rw [List.map_append, List.nodup_append] at h2
    exact h2.2.1
  refine sameLook_of_like (u := fun k => f.isUsed k = true) (like_setKids hu (by simp [hd]) h hc (fun π env via x k hk => (inst_round hcu hk env via x).symm)
    (fun π env x k hx hk => (here_round hcu hk (fun n ks h1 h2 h3 => hb n ks h1 h2 k h3 hk) env hx).symm)) ?_
  intro n hn k hk
  exact Forest.isUsed_iff.2 ⟨n, hs n hn, hk⟩

theorem loop_mono {d fuel : Nat} {f0 c0 f c g : Forest} (hu : f0.UniqueKeys) (hd : d ∈ f0.keys) (hs : State d f0 c0 f c) (h : loop d fuel f = some g) :
    ∀ n ∈ g.nodes, n ∈ f.nodes := by
  induction fuel generalizing f c with
  | zero =>
    unfold loop at h
    rw [hs.kids] at h
    simp only [Option.bind_some] at h
    split at h
    · cases h
    · cases h; exact fun _ h => h
  | succ fuel ih =>
    unfold loop at h
    rw [hs.kids] at h
    simp only [Option.bind_some] at h
    split at h
    · exact fun n hn => (step hu hd hs).2 n (ih (step hu hd hs).1 h n hn)
    · cases h; exact fun _ h => h

theorem loop_look {d fuel : Nat} {f0 c0 f c g : Forest} (hu : f0.UniqueKeys) (hd : d ∈ f0.keys) (hc0 : f0.kidsOf d = some c0) (h0 : f0.isUsed d = false)
    (hk : ∀ n ∈ f0.nodes, n.key = d → neverRendered n.kind = true) (hs : State d f0 c0 f c) (hf : ∀ n ∈ f.nodes, n ∈ f0.nodes) (ho : Old c0 c) (h : loop d fuel f = some g)
    (hb : ∀ n ks, (n, ks) ∈ subs c0 → unused g n = true → ∀ k ∈ ks.keys, f0.isUsed k = true → Bare n) : SameLook f g := by
  induction fuel generalizing f c with
  | zero =>
    unfold loop at h
    rw [hs.kids] at h
    simp only [Option.bind_some] at h
    split at h
    · cases h
    · cases h; exact SameLook.refl _
  | succ fuel ih =>
    have hm := loop_mono hu hd hs h
    unfold loop at h
    rw [hs.kids] at h
    simp only [Option.bind_some] at h
    split at h
    · obtain ⟨h1, h2⟩ := step hu hd hs
      have used_mono : ∀ k, f.isUsed k = true → f0.isUsed k = true := fun k hk => by
        obtain ⟨m, a, b⟩ := Forest.isUsed_iff.1 hk
        exact Forest.isUsed_iff.2 ⟨m, hf m a, b⟩
      refine (round_look ?_ ?_ (fun n hn => hk n (hf n hn)) hs.kids ?_ h2).trans (ih h1 (fun n hn => hf n (h2 n hn)) (old_round ho) h)
      · obtain ⟨A, hA⟩ := nodes_setKids hu hd
        obtain ⟨R, hR, _⟩ := hs.gone
        have e1 := hA c
        rw [← hs.tree] at e1
        have e0 := hA c0
        rw [setKids_self hu hc0] at e0
        have h3 : (A ++ (c.nodes ++ R)).Perm f0.nodes := (List.Perm.append_left A hR).symm.trans e0.symm
        have h4 : ((A ++ (c.nodes ++ R)).map (·.key)).Nodup := (h3.map _).nodup_iff.2 hu
        rw [← List.append_assoc, List.map_append, List.nodup_append] at h4
        exact (e1.map _).nodup_iff.2 h4.1
      · by_contra hx
        rw [used_mono d (by simpa using hx)] at h0
        cases h0
      · intro n ks hq hn k hk hku
        obtain ⟨hq1, _⟩ := ho _ hq
        rcases hq1 with e | e
        · simp only at e
          subst e
          cases hk
        · exact hb n ks e (unused_mono hm hn) k hk (used_mono k hku)
    · cases h; exact SameLook.refl _
/-- **C25** for the picture: removing unused definitions keeps the picture if nothing refers to the `defs` element itself, and if an element in it that
is not used after the pass, but has descendants that are referred to, has no attributes that those descendants inherit.  Missing: other
documents (see `C25_refuted_inherit`). -/
theorem C25_look_partial {f g : Forest} (hu : f.UniqueKeys) (h : removeUnusedDefs f = some g)
    (hd : ∀ d, firstDefs f = some d → f.isUsed d = false)
    (hb : ∀ d c, firstDefs f = some d → f.kidsOf d = some c → ∀ n ks, (n, ks) ∈ subs c → unused g n = true → (∃ k ∈ ks.keys, f.isUsed k = true) → Bare n) :
    SameLook f g := by
  unfold removeUnusedDefs at h
  obtain ⟨k, hk, h⟩ := Option.bind_eq_some_iff.1 h
  obtain ⟨c, hc, h⟩ := Option.bind_eq_some_iff.1 h
  have hd := hd k hk
  have hb := hb k c hk hc
  obtain ⟨d, hdn, hkind, rfl⟩ := firstDefs_spec hk
  have hs0 : State d.key f c f c :=
    ⟨hc, (setKids_self hu hc).symm, fun q hq => ⟨fun p hp => mem_subs_tops.2 ⟨q, hq, .inr hp⟩,
      .inl (mem_subs_tops.2 ⟨q, hq, .inl rfl⟩)⟩, ⟨[], by simp, by simp⟩⟩
  refine loop_look hu (Forest.key_mem hdn) hc hd (fun n hn e => ?_) hs0 (fun _ h => h) (fun q hq => ⟨.inr (mem_subs_tops.2 ⟨q, hq, .inl rfl⟩), fun p hp => mem_subs_tops.2 ⟨q, hq, .inr hp⟩⟩) h
    (fun n ks hq hn k hk hku => hb n ks hq hn ⟨k, hk, hku⟩)
  have := Forest.eq_of_key hu hn hdn e
  subst this
  rw [hkind]
  rfl

/-! ### Cases -/

open Verif.ApplyTs (elem px)
open Verif.Ungroup (svg rect)

/-- An unused group with a mask that is used and an empty one that is not, and an unused chain. -/
def lookSample : Forest :=
  svg (.cons (elem 2 .defs []) (.cons (elem 3 .g [(.opacity, .number (1/2))]) (.cons (elem 4 .mask [(.fill, .color 1 2 3)]) (rect 5 [] .nil) (.cons (elem 6 .mask []) .nil .nil))
    (.cons (elem 7 .linearGradient [(.xlinkHref, .link 8)]) .nil (.cons (elem 8 .linearGradient []) .nil .nil)))
    (rect 9 [(.mask, .funcLink 4)] .nil))

example : ∃ g, removeUnusedDefs lookSample = some g ∧ g = svg (.cons (elem 2 .defs []) (.cons (elem 4 .mask [(.fill, .color 1 2 3)]) (rect 5 [] .nil) .nil)
    (rect 9 [(.mask, .funcLink 4)] .nil)) ∧ SameLook lookSample g := by
  have h0 : removeUnusedDefs lookSample = some (svg (.cons (elem 2 .defs []) (.cons (elem 4 .mask [(.fill, .color 1 2 3)]) (rect 5 [] .nil) .nil)
    (rect 9 [(.mask, .funcLink 4)] .nil))) := by decide +kernel
  refine ⟨_, h0, rfl, C25_look_partial (by decide +kernel) h0 ?_ ?_⟩
  · have : firstDefs lookSample = some 2 := by decide +kernel
    rw [this]
    rintro _ ⟨⟩
    decide +kernel
  · have hf : firstDefs lookSample = some 2 := by decide +kernel
    rw [hf]
    rintro _ c ⟨⟩ hc n ks hm hn ⟨k, hk, hku⟩ a ha
    have hc' : lookSample.kidsOf 2 = some (.cons (elem 3 .g [(.opacity, .number (1/2))]) (.cons (elem 4 .mask [(.fill, .color 1 2 3)]) (rect 5 [] .nil) (.cons (elem 6 .mask []) .nil .nil))
      (.cons (elem 7 .linearGradient [(.xlinkHref, .link 8)]) .nil (.cons (elem 8 .linearGradient []) .nil .nil))) := by decide +kernel
    rw [hc'] at hc
    cases hc
    have : ∀ x ∈ subs (.cons (elem 3 .g [(.opacity, .number (1/2))]) (.cons (elem 4 .mask [(.fill, .color 1 2 3)]) (rect 5 [] .nil) (.cons (elem 6 .mask []) .nil .nil))
      (.cons (elem 7 .linearGradient [(.xlinkHref, .link 8)]) .nil (.cons (elem 8 .linearGradient []) .nil .nil))),
        (∃ k ∈ x.2.keys, lookSample.isUsed k = true) → x.1 = elem 3 .g [(.opacity, .number (1/2))] := by decide +kernel
    have e : n = _ := this _ hm ⟨k, hk, hku⟩
    rw [e]
    cases a <;> first | rfl | cases ha

/-- The picture part of **C25** in full.  It is false. -/
def C25_look_full : Prop := ∀ f g, f.UniqueKeys → f.LinksOk → removeUnusedDefs f = some g → SameView f g

/-- A painter that shows the masks, too. -/
def maskScribe : Painter (List Mark) :=
  { scribe with
    effect := fun m c f t p => if Seen.blank c || Seen.blank f then [] else if p.isEmpty then (if Seen.isRef f then p else []) else
      match m with
      | some (.ref q) => q ++ p
      | _ => p
    no_effect := by
      intro m c f t p hm hc hf
      have h1 : Seen.blank c = false := by unfold Seen.blank; split <;> first | rfl | cases hc
      have h2 : Seen.blank f = false := by unfold Seen.blank; split <;> first | rfl | cases hf
      simp only [h1, h2, hf]
      cases p with
      | nil => rfl
      | cons x l =>
        simp only [Bool.or_self, Bool.false_eq_true, if_false, List.isEmpty_cons]
        split
        · cases hm
        · rfl
    effect_empty := by
      intro m c f t hf
      show (if _ then _ else if _ then _ else _) = _
      split
      · rfl
      · simp [hf, scribe]
    clip_all := by intros; rfl
    filter_all := by
      intro m c t p
      show (if _ || _ then _ else _) = _
      have : Seen.blank (some (Seen.ref ([] : List Mark))) = true := rfl
      rw [show (scribe.empty) = ([] : List Mark) from rfl, this]
      simp }

def inheritIn : Forest :=
  svg (.cons (elem 2 .defs []) (.cons (elem 3 .g [(.fill, .color 1 2 3)]) (.cons (elem 4 .mask []) (rect 5 [] .nil) .nil) .nil) (rect 9 [(.mask, .funcLink 4)] .nil))
def inheritOut : Forest :=
  svg (.cons (elem 2 .defs []) (.cons (elem 4 .mask []) (rect 5 [] .nil) .nil) (rect 9 [(.mask, .funcLink 4)] .nil))

/-- **Finding.** The content of a mask in a group in `defs` loses the fill that it inherits from the group, which is removed because nothing refers to it. -/
theorem C25_refuted_inherit : ¬ C25_look_full := by
  intro h
  obtain ⟨D, hD⟩ := h inheritIn inheritOut (by decide +kernel) (by decide +kernel) (by decide +kernel) _ maskScribe
  have h1 : ∀ d, picture maskScribe (d + 1) inheritIn = picture maskScribe 1 inheritIn := fun _ => rfl
  have h2 : ∀ d, picture maskScribe (d + 1) inheritOut = picture maskScribe 1 inheritOut := fun _ => rfl
  have := hD (D + 1) (by omega)
  rw [h1, h2] at this
  revert this
  decide +kernel

end Verif.UnusedDefs
