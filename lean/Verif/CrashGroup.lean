import Verif.CrashStops
import Verif.GroupDefsCases
/-
C53: the definitions are collected.
-/
namespace Verif.Crash
open Verif.Dom Verif.Spec
open Verif.Dom (Res)
open Verif.Pipeline

/-- What the nodes of a document are. -/
def kindOf (f : Forest) (k : Nat) : Kind := ((f.find k).map Node.kind).getD (.elem .defs)

theorem kindOf_mem {f : Forest} (hu : f.UniqueKeys) {n : Node} (hn : n ∈ f.nodes) : kindOf f n.key = n.kind := by
  unfold kindOf; rw [Forest.find_of_mem hu hn]; rfl

theorem kindOf_new {f : Forest} {k : Nat} (h : k ∉ f.keys) : kindOf f k = .elem .defs := by
  unfold kindOf
  cases hc : f.find k with
  | none => rfl
  | some n =>
    obtain ⟨h1, h2⟩ := Forest.find_some hc
    exact absurd (Forest.mem_keys.2 ⟨n, h1, h2⟩) h

theorem isDefinition_iff (n : Node) : GroupDefs.isDefinition n = true ↔ defKind n.kind = true ∨ n.kind = .elem .defs := by
  obtain ⟨k, kind, i, as⟩ := n
  cases kind with
  | elem e => cases e <;> simp [GroupDefs.isDefinition, defKind, EId.isReferenced]
  | _ => simp [GroupDefs.isDefinition, defKind]

theorem svgKind_iff (k : Kind) : svgKind k = true ↔ ∃ e, k = .elem e := by
  cases k <;> simp [svgKind]

theorem sub_nodes {f : Forest} {x : Node × Forest} (hx : x ∈ subs f) {m : Node} (hm : m ∈ x.2.nodes) : m ∈ f.nodes := by
  induction f with
  | nil => cases hx
  | cons n k r ih1 ih2 =>
    simp only [subs, List.mem_cons, List.mem_append] at hx
    simp only [Forest.nodes, List.mem_cons, List.mem_append]
    rcases hx with rfl | hx | hx
    · exact .inr (.inl hm)
    · exact .inr (.inl (ih1 hx))
    · exact .inr (.inr (ih2 hx))

theorem top_not_below {f : Forest} (hu : f.UniqueKeys) {n : Node} (hn : n ∈ f.top) {x : Node × Forest} (hx : x ∈ subs f) : n ∉ x.2.nodes := by
  intro hm
  induction f with
  | nil => cases hn
  | cons m k r ih1 ih2 =>
    unfold Forest.UniqueKeys at hu
    rw [Forest.keys_cons, List.nodup_cons, List.nodup_append] at hu
    obtain ⟨u1, u2, u3, u4⟩ := hu
    have hin : n ∈ k.nodes → False := fun h => by
      rcases List.mem_cons.1 hn with rfl | hn
      · exact u1 (List.mem_append_left _ (Forest.key_mem h))
      · exact u4 _ (Forest.key_mem h) _ (Forest.key_mem (GroupStyle.mem_top_nodes hn)) rfl
    simp only [subs, List.mem_cons, List.mem_append] at hx
    rcases hx with rfl | hx | hx
    · exact hin hm
    · exact hin (sub_nodes hx hm)
    · rcases List.mem_cons.1 hn with rfl | hn
      · exact u1 (List.mem_append_right _ (Forest.key_mem (sub_nodes hx hm)))
      · exact ih2 u3 hn hx

theorem inheritable_name {a : AId} (h : a.isInheritable = true) : freeName (.id a) = true ∧ a ≠ .xlinkHref := by
  revert h; cases a <;> decide

/-- The context of a document. -/
def ctx (f : Forest) (rank : Nat → Nat) (cap : Nat) (s : Node) (d : Nat) : Ctx := ⟨s.key, d, kindOf f, rank, fun _ => False, True, True, cap, False⟩

/-- A document whose definitions are to be collected. -/
structure Ready (f : Forest) (rank : Nat → Nat) (cap : Nat) (s : Node) (ks : Forest) : Prop where
  unique : f.UniqueKeys
  links : f.LinksOk
  root : svgElement f = some (s, ks)
  nodes : ∀ d, kindOf f d = .elem .defs → ∀ n ∈ f.nodes, NodeOk (ctx f rank cap s d) n
  scenes : ∀ x ∈ subs f, GroupDefs.isScene x.1 = true → ∀ m ∈ x.2.top, GroupDefs.isDefinition m = false
  groups : ∀ x ∈ subs f, x.1.kind = .elem .g → ∀ m ∈ x.2.top, ∃ e, m.kind = .elem e
  uses : ∀ x ∈ subs f, x.1.kind = .elem .use → x.2 = .nil
  nested : ∀ x ∈ subs f, ∀ m ∈ x.2.nodes, rank m.key < rank x.1.key
  stops : ∀ x ∈ subs f, gradKind x.1.kind = true → ∀ m ∈ x.2.top, m.kind = .elem .stop ∧ ∀ a ∈ wanted m.kind, m.has a = true
  only : ∀ x ∈ subs f, gradKind x.1.kind = false → ∀ m ∈ x.2.top, m.kind ≠ .elem .stop
  tmpl : ∀ x ∈ subs f, gradKind x.1.kind = true → (x.1.has .xlinkHref = true ↔ x.2.top = [])
  ids : ∀ n ∈ f.nodes, gradKind n.kind = true → ∀ m ∈ f.nodes, m.id = n.id → m.key = n.key
  count : f.nodes.length + 1 < cap

/-- A node below is a child of the top node or of a node below. -/
theorem below_parent {k : Forest} {m : Node} (h : m ∈ k.nodes) : m ∈ k.top ∨ ∃ x ∈ subs k, m ∈ x.2.top := by
  induction k with
  | nil => cases h
  | cons n c r ih1 ih2 =>
    simp only [Forest.nodes, List.mem_cons, List.mem_append] at h
    simp only [Forest.top, List.mem_cons, subs, List.mem_append]
    rcases h with rfl | h | h
    · exact .inl (.inl rfl)
    · rcases ih1 h with h | ⟨x, hx, h⟩
      · exact .inr ⟨(n, c), .inl rfl, h⟩
      · exact .inr ⟨x, .inr (.inl hx), h⟩
    · rcases ih2 h with h | ⟨x, hx, h⟩
      · exact .inl (.inr h)
      · exact .inr ⟨x, .inr (.inr hx), h⟩

theorem inheritable_free {a : AId} (h : a.isInheritable = true) : freeName (.id a) = true := by
  revert h; cases a <;> decide

theorem gradKind_not_scene {n : Node} (h : gradKind n.kind = true) : GroupDefs.isDefinition n = true := (isDefinition_iff n).2 (.inl (gradKind_def h))

section
variable {f : Forest} {rank : Nat → Nat} {cap : Nat} {s : Node} {ks : Forest} (hf : Ready f rank cap s ks)
include hf

theorem Ready.grouped : ∃ g, GroupDefs.groupDefs f = some g := by
  obtain ⟨d, hd⟩ : ∃ d, d ∉ f.keys := ⟨_, Infinite.exists_notMem_finset f.keys.toFinset |>.choose_spec |> fun h => by simpa using h⟩
  refine GroupDefs.C35_no_crash hf.unique ⟨s, GroupDefs.svgElement_top hf.root, (Simple.svgElement_some hf.root).1⟩ fun p hp x hx a ha hi y hy hsc n hn e => ?_
  have hk := (((hf.nodes d (kindOf_new hd) p hp).attrs x hx).link _ e).2.2.2.2.2.1 (by rw [ha]; intro e; exact (inheritable_name hi).2 (by injection e))
  have hnm : n ∈ f.nodes := GroupDefs.kid_nodes hy hn
  have : defKind n.kind = true := by rw [← kindOf_mem hf.unique hnm]; exact hk
  have h2 := (isDefinition_iff n).2 (.inl this)
  rw [hf.scenes y hy hsc n hn] at h2; cases h2

/-- After the definitions have been collected. -/
theorem Ready.inv {g : Forest} (hg : GroupDefs.groupDefs f = some g) : ∃ d, Inv (ctx f rank cap s d) g := by
  obtain ⟨s5, ks5, d, D, e, K⟩ := GroupDefs.C35_collected hf.unique hg
  obtain ⟨hu, hl⟩ := GroupDefs.C35_wellformed hf.unique hf.links hg
  have hs5 : s5 = s := by
    have := hf.root
    rw [K.root] at this
    cases this; rfl
  have hsm : s ∈ f.nodes := (Simple.svgElement_some hf.root).2.1
  have hsk : s.kind = .elem .svg := (Simple.svgElement_some hf.root).1
  have hd : kindOf f d.key = .elem .defs := by
    rcases K.same with ⟨m, hm, rfl⟩ | ⟨_, _, _, h⟩
    · have hmm := List.mem_of_find?_eq_some hm
      rw [(K.kept m hmm).key, kindOf_mem hf.unique hmm, ← (K.kept _ hmm).kind]
      exact K.main
    · exact kindOf_new h
  have hds : d.key ≠ s.key := fun h => by
    rw [h, kindOf_mem hf.unique hsm, hsk] at hd
    cases hd
  have hok := hf.nodes d.key hd
  -- attributes that refer to nothing are kept
  have stay : ∀ n ∈ f.nodes, ∀ a, (∀ k, (∃ x ∈ n.attrs, x.name = .id a ∧ x.value.target = some k) → GroupDefs.isDefs n = false ∧ kindOf f k ≠ .elem .defs) → n.has a = true → (e n).has a = true := by
    intro n hn a hk ha
    rw [has_iff] at ha ⊢
    obtain ⟨x, hx, ex⟩ := ha
    obtain ⟨more, hmore, _⟩ := (K.kept n hn).attrs
    refine ⟨x, ?_, ex⟩
    rw [hmore]
    refine List.mem_filter.2 ⟨List.mem_append_left _ hx, ?_⟩
    cases ht : x.value.target with
    | none => rfl
    | some k =>
      have h1 := (hk k ⟨x, hx, ex, ht⟩).2
      simp only [Option.any_some, Bool.not_eq_true', Bool.and_eq_false_iff]
      refine .inr ?_
      rw [Bool.eq_false_iff]
      intro h
      obtain ⟨m, hm, hm2⟩ := List.any_eq_true.1 h
      simp only [Bool.and_eq_true, decide_eq_true_eq] at hm2
      refine h1 ?_
      rw [← hm2.2, kindOf_mem hf.unique hm]
      simpa [GroupDefs.isDefs] using hm2.1
  have free : ∀ n ∈ f.nodes, (gradKind n.kind = true ∨ n.kind = .elem .stop) → ∀ a, a ≠ .xlinkHref → n.has a = true → (e n).has a = true := by
    intro n hn hg a ha
    refine stay n hn a fun k ⟨x, hx, ex, ht⟩ => ?_
    exfalso
    have := (hok n hn).attrs x hx
    rcases hg with hg | hg
    · have := (this.grad.link hg k ht).1
      rw [ex] at this
      exact ha (by injection this)
    · rw [this.grad.stop hg] at ht; cases ht
  have inner : ∀ n ∈ f.nodes, gradKind n.kind = true → (e n).attrs = n.attrs.filter fun x =>
      !x.value.target.any fun k => decide (k ≠ d.key) && f.nodes.any fun m => GroupDefs.isDefs m && decide (m.key = k) := by
    intro n hn hg
    rw [K.plain n hn]
    intro x hx hs hm
    have := hf.scenes x hx hs n hm
    rw [gradKind_not_scene hg] at this; cases this
  have hhref : ∀ n ∈ f.nodes, gradKind n.kind = true → ((e n).has .xlinkHref = true ↔ n.has .xlinkHref = true) := by
    intro n hn hg
    constructor
    · intro h
      rw [has_iff] at h ⊢
      obtain ⟨x, hx, ex⟩ := h
      rw [inner n hn hg] at hx
      exact ⟨x, List.mem_of_mem_filter hx, ex⟩
    · refine stay n hn _ fun k ⟨x, hx, ex, ht⟩ => ⟨?_, fun hk => ?_⟩
      · cases h : GroupDefs.isDefs n with
        | false => rfl
        | true =>
          have : n.kind = .elem .defs := by simpa [GroupDefs.isDefs] using h
          rw [this] at hg; cases hg
      · have h : gradKind (kindOf f k) = true := (((hok n hn).attrs x hx).grad.link hg k ht).2.1
        rw [hk] at h; cases h
  -- the nodes
  have hnode : ∀ n ∈ f.nodes, NodeOk (ctx f rank cap s d.key) (e n) := by
    intro n hn
    have k := K.kept _ hn
    refine ⟨.inl ?_, fun hg _ a ha => ?_, fun h => ?_, fun hg => ?_, fun x hx => ?_⟩
    · rw [k.key, k.kind]; exact (kindOf_mem hf.unique hn).symm
    · rw [k.kind] at hg ha
      exact free n hn (.inl hg) a (fun e => href_not_wanted _ (e ▸ ha)) ((hok n hn).full hg (fun h => h) a ha)
    · rw [k.id]
      exact (hok n hn).named (by rw [← k.kind]; exact h)
    · rw [k.kind] at hg
      refine le_trans ?_ ((hok n hn).single hg)
      unfold hrefs
      rw [inner n hn hg]
      exact ((List.filter_sublist (l := n.attrs)).filter _).length_le
    · refine Kin.attr (n := n) k.key (.inl k.kind) ?_
      obtain ⟨more, hmore, hall⟩ := k.attrs
      have hx' := hx
      rw [hmore] at hx
      rcases List.mem_append.1 (List.mem_of_mem_filter hx) with h | h
      · exact (hok n hn).attrs x h
      · by_cases hsc : ∀ y ∈ subs f, GroupDefs.isScene y.1 = true → n ∉ y.2.top
        · rw [K.plain _ hn hsc] at hx'
          exact (hok n hn).attrs x (List.mem_of_mem_filter hx')
        · push Not at hsc
          obtain ⟨y, hy, h1, h2⟩ := hsc
          obtain ⟨⟨p, hp, hpx⟩, ⟨a, ha, hi⟩, _⟩ := hall x h
          have hok' := (hok p hp).attrs x hpx
          have i1 := inheritable_free hi
          obtain ⟨_, i2⟩ := inheritable_name hi
          have hdef := hf.scenes y hy h1 _ h2
          have ndef : ¬ (defKind n.kind = true ∨ n.kind = .elem .defs) := fun h => by
            rw [← isDefinition_iff, hdef] at h; cases h
          have hng : gradKind n.kind = false := by
            cases hc : gradKind n.kind with
            | false => rfl
            | true => exact absurd (.inl (gradKind_def hc)) ndef
          have hyg : gradKind y.1.kind = false := by
            revert h1
            unfold GroupDefs.isScene
            cases y.1.kind with
            | elem e => cases e <;> decide
            | _ => exact fun _ => rfl
          have hns' : n.kind ≠ .elem .stop := hf.only y hy hyg n h2
          have hns : n ≠ s := by
            rintro rfl
            exact absurd (GroupStyle.mem_top_nodes h2) (top_not_below hf.unique (GroupDefs.svgElement_top hf.root) hy)
          cases ht : x.value.target with
          | none => rw [ha]; exact AttrOk.free i1 ht
          | some t =>
            rw [ha] at hok' ⊢
            simp only [freeName, Bool.and_eq_true, bne_iff_ne, ne_eq] at i1
            obtain ⟨⟨⟨⟨⟨⟨⟨⟨j1, j2⟩, j3⟩, j4⟩, j5⟩, j6⟩, j7⟩, j8⟩, j9⟩ := i1
            refine ⟨⟨fun e => absurd e j6, fun e => absurd e j7, fun e => absurd e j8, fun _ e => absurd e j9, fun e => (by rw [hng] at e; cases e), fun _ e => absurd e j5, fun e => absurd e hns'⟩,
              fun e => absurd e j1, fun e => absurd e j2, fun e => absurd e j3, fun e => absurd e j4, fun e => absurd e j5, fun k e => ?_⟩
            obtain ⟨p1, p2, p3, p4, p5, p6, p7⟩ := hok'.link k e
            refine ⟨?_, ?_, ?_, p4, p5, p6, fun h => absurd (by injection h) i2⟩
            · exact fun h => hns (Forest.eq_of_key hf.unique hn hsm h)
            · intro h
              refine ndef (.inr ?_)
              rw [← kindOf_mem hf.unique hn]
              exact (congrArg (kindOf f) h).trans hd
            · intro h; exact ndef (.inl (by rw [h]; rfl))
  have hall : ∀ m ∈ g.nodes, m = d ∨ ∃ n ∈ f.nodes, m = e n ∧ n.kind ≠ .elem .defs := by
    intro m hm
    rcases List.mem_cons.1 (K.nodes.mem_iff.1 hm) with rfl | hm
    · exact .inl rfl
    · obtain ⟨n, hm', rfl⟩ := List.mem_map.1 hm
      obtain ⟨h1, h2⟩ := List.mem_filter.1 hm'
      refine .inr ⟨n, h1, rfl, fun h => ?_⟩
      simp [GroupDefs.isDefs, h] at h2
  have hdn : NodeOk (ctx f rank cap s d.key) d := by
    rcases K.same with ⟨m', hm', h⟩ | ⟨_, h1, h2, _⟩
    · have := hnode m' (List.mem_of_find?_eq_some hm')
      rw [← h] at this
      exact this
    · refine ⟨.inl (K.main.trans hd.symm), fun h => ?_, fun h => ?_, fun h => ?_, fun x hx => ?_⟩
      · rw [K.main] at h; cases h
      · rw [K.main] at h; rcases h with h | h <;> cases h
      · rw [K.main] at h; cases h
      · rw [h1] at hx; cases hx
  refine ⟨d.key, ⟨hu, hl, fun m hm => ?_, fun y hy => ?_, ?_, ?_, fun _ n hn hg m hm e' => ?_⟩⟩
  · rcases hall m hm with rfl | ⟨n, hn, rfl, _⟩
    · exact hdn
    · exact hnode n hn
  · rcases hall y.1 (subs_nodes hy) with h | ⟨n, hn, h, hnd⟩
    · refine ⟨fun h' => ?_, fun h' => ?_, fun h' => ?_, fun _ h' => ?_, fun _ h' => ?_⟩
      · rw [h, K.main] at h'; cases h'
      · rw [h, K.main] at h'; cases h'
      · rw [h, K.main] at h'; cases h'
      · rw [h, K.main] at h'; cases h'
      · exact absurd (congrArg Node.key h) h'
    · have k := K.kept _ hn
      obtain ⟨c, hc⟩ := nodes_subs hn
      rcases K.kids _ hc (by unfold GroupDefs.isDefs; simpa using hnd) with h' | h'
      · -- the root element
        have hns : n = s := by rw [← hs5]; exact congrArg Prod.fst h'
        have hkk : y.1.key = s.key := by rw [h, k.key, hns]
        have hk : y.1.kind = .elem .svg := by rw [h, k.kind, hns]; exact hsk
        refine ⟨fun h' => ?_, fun h' => ?_, fun h' => ?_, fun _ h' => ?_, fun h' _ => absurd hkk h'⟩
        all_goals (rw [hk] at h'; cases h')
      · have hy2 := GroupDefs.subs_unique hu hy h' (by rw [h])
        have hkind : y.1.kind = n.kind := by rw [h, k.kind]
        have hpar : ∀ j ∈ y.2.keys, ∃ m ∈ c.nodes, m.key = j ∧ GroupDefs.isDefinition m = false ∧
            (gradKind n.kind = false → m.kind ≠ .elem .stop) := by
          intro j hj
          rw [hy2] at hj
          dsimp only at hj
          obtain ⟨q, hq, rfl⟩ := Forest.mem_keys.1 hj
          rw [Forest.nodes_map] at hq
          obtain ⟨q1, hq1, rfl⟩ := List.mem_map.1 hq
          have hp := Forest.mem_prune hq1
          have hq2 := (Forest.nodes_prune_sublist _ _).subset hq1
          refine ⟨q1, hq2, ?_, hp, fun hng hst => ?_⟩
          · rw [(K.kept _ (sub_nodes hc hq2)).key]
          · rcases below_parent hq1 with ht | ⟨x, hx, ht⟩
            · rw [Stops.top_prune] at ht
              exact hf.only _ hc hng q1 (List.mem_of_mem_filter ht) hst
            · obtain ⟨c', hc', e1, e2⟩ := Stops.subs_prune hx
              have hxn := Forest.mem_prune (subs_nodes hx)
              rw [e2, Stops.top_prune] at ht
              rw [e1] at hxn
              refine hf.only _ (UnusedDefs.subs_trans hc hc') ?_ q1 (List.mem_of_mem_filter ht) hst
              cases hcg : gradKind c'.1.kind with
              | false => rfl
              | true => rw [gradKind_not_scene hcg] at hxn; cases hxn
        have htop : ∀ m ∈ y.2.top, ∃ m0 ∈ c.top, m = e m0 := by
          intro m hm
          rw [hy2] at hm
          dsimp only at hm
          rw [Stops.top_map, Stops.top_prune] at hm
          obtain ⟨m1, hm1, rfl⟩ := List.mem_map.1 hm
          exact ⟨m1, List.mem_of_mem_filter hm1, rfl⟩
        refine ⟨fun hgk m hm => ?_, fun huk => ?_, fun hgk m hm => ?_, fun _ hgk => ?_, fun h1 h2 j hj => ?_⟩
        · obtain ⟨m0, hm0, rfl⟩ := htop m hm
          rw [(K.kept _ (GroupDefs.kid_nodes hc hm0)).kind, svgKind_iff]
          exact hf.groups _ hc (by rw [← hkind]; exact hgk) m0 hm0
        · have := hf.uses _ hc (by rw [← hkind]; exact huk)
          dsimp only at this
          rw [hy2, this]; rfl
        · obtain ⟨m0, hm0, rfl⟩ := htop m hm
          have hm0f := GroupDefs.kid_nodes hc hm0
          obtain ⟨q1, q2⟩ := hf.stops _ hc (by rw [← hkind]; exact hgk) m0 hm0
          rw [(K.kept _ hm0f).kind]
          exact ⟨q1, fun a ha => free m0 hm0f (.inr q1) a (fun e => href_not_wanted _ (e ▸ ha)) (q2 a ha)⟩
        · rw [hkind] at hgk
          rw [h, hhref n hn hgk, hf.tmpl _ hc hgk]
          constructor
          · intro h0
            refine List.eq_nil_iff_forall_not_mem.2 fun m hm => ?_
            obtain ⟨m0, hm0, _⟩ := htop m hm
            dsimp only at h0
            rw [h0] at hm0; cases hm0
          · intro h0
            refine List.eq_nil_iff_forall_not_mem.2 fun m hm => ?_
            dsimp only at hm
            have : e m ∈ y.2.top := by
              rw [hy2]
              dsimp only
              rw [Stops.top_map, Stops.top_prune]
              refine List.mem_map.2 ⟨m, List.mem_filter.2 ⟨hm, ?_⟩, rfl⟩
              have hst := (hf.stops _ hc hgk m hm).1
              have : GroupDefs.isDefinition m = false := by
                cases hcd : GroupDefs.isDefinition m with
                | false => rfl
                | true => rw [isDefinition_iff, hst] at hcd; rcases hcd with hcd | hcd <;> cases hcd
              simp [this]
            rw [h0] at this; cases this
        · obtain ⟨m, hm, rfl, hnd', hst⟩ := hpar j hj
          have hmf : m ∈ f.nodes := sub_nodes hc hm
          have hk : (ctx f rank cap s d.key).kind m.key = m.kind := kindOf_mem hf.unique hmf
          have hnn : ¬ (defKind m.kind = true ∨ m.kind = .elem .defs) := fun h => by rw [← isDefinition_iff, hnd'] at h; cases h
          refine ⟨?_, ?_, ?_, fun hng => ⟨?_, ?_⟩⟩
          · rw [hk]
            cases hh : defKind m.kind with
            | false => rfl
            | true => exact absurd (.inl hh) hnn
          · intro e'
            have : m = s := Forest.eq_of_key hf.unique hmf hsm e'
            subst this
            exact absurd hm (top_not_below hf.unique (GroupDefs.svgElement_top hf.root) hc)
          · intro e'
            refine hnn (.inr ?_)
            rw [← kindOf_mem hf.unique hmf]
            exact (congrArg (kindOf f) e').trans hd
          · have := hf.nested _ hc m hm
            rw [h, k.key]; exact this
          · rw [hk]; exact hst (by rw [← hkind]; exact hng)
  · refine ⟨_, _, d, K.first, ?_, by simp [Forest.top], rfl, K.main⟩
    rw [(K.kept _ (by rw [hs5]; exact hsm)).key, hs5]; rfl
  · have h1 := K.nodes.length_eq
    have h2 := List.length_filter_le (fun n => !GroupDefs.isDefs n) f.nodes
    have h4 := hf.count
    simp only [List.length_cons, List.length_map] at h1
    show _ < cap
    omega
  · rcases hall n hn with rfl | ⟨n', hn', rfl, _⟩
    · rw [K.main] at hg; cases hg
    · have kn := K.kept _ hn'
      have hid : (e n').id ≠ "" := (hnode n' hn').named (.inr hg)
      rw [kn.kind] at hg
      rcases hall m hm with rfl | ⟨m', hm', rfl, _⟩
      · rcases K.same with ⟨q, hq, h⟩ | ⟨_, _, h2, _⟩
        · have hqm := List.mem_of_find?_eq_some hq
          rw [h] at e' ⊢
          rw [(K.kept _ hqm).id, kn.id] at e'
          rw [(K.kept _ hqm).key, kn.key]
          exact hf.ids n' hn' hg q hqm e'
        · rw [h2] at e'; exact absurd e'.symm hid
      · rw [(K.kept _ hm').id, kn.id] at e'
        rw [(K.kept _ hm').key, kn.key]
        exact hf.ids n' hn' hg m' hm' e'

end

end Verif.Crash
