import Verif.Model.Heap
/-
Simulation between the reference-level state (Model/Heap) and the value-level state
(Model/State): the separation invariant `Rel` and its preservation.
-/

namespace VgmX

theorem deref_ok {α : Type} {l : List α} {r : Nat} {a : α} (h : l[r]? = some a) :
    deref l r = .ok a := by unfold deref; rw [h]

theorem deref_ok_iff {α : Type} {l : List α} {r : Nat} {a : α} :
    deref l r = .ok a ↔ l[r]? = some a := by
  unfold deref
  cases l[r]? <;> simp

theorem pyIndex_ok {α : Type} {l : List α} {r : Nat} {a : α} (h : l[r]? = some a) :
    pyIndex l r = .ok a := by unfold pyIndex; rw [h]

theorem readAll_ok {α β : Type} (f : α → Except PyErr β) (l : List α) (l' : List β) :
    readAll f l = .ok l' ↔ l.map f = l'.map .ok := by
  induction l generalizing l' with
  | nil => cases l' <;> simp [readAll]
  | cons a l ih =>
    cases ha : f a with
    | error e => cases l' <;> simp [readAll, ha]
    | ok b =>
      cases l' with
      | nil =>
        simp only [readAll, ha, List.map_cons, List.map_nil]
        cases readAll f l <;> simp
      | cons b' l' =>
        simp only [readAll, ha, List.map_cons, List.cons.injEq, Except.ok.injEq]
        rw [← ih]
        cases readAll f l <;> simp

theorem readAll_congr {α β : Type} {f g : α → Except PyErr β} {l : List α}
    (h : ∀ a ∈ l, f a = g a) : readAll f l = readAll g l := by
  induction l with
  | nil => rfl
  | cons a l ih =>
    simp only [readAll]
    rw [h a (List.mem_cons_self ..), ih (fun b hb => h b (List.mem_cons_of_mem _ hb))]

theorem readAll_append {α β : Type} {f : α → Except PyErr β} {l m : List α} {l' m' : List β}
    (h : readAll f l = .ok l') (h' : readAll f m = .ok m') :
    readAll f (l ++ m) = .ok (l' ++ m') := by
  rw [readAll_ok] at *
  simp [h, h']

/-- Reading the objects 0..n-1 after one of them changed. -/
theorem readAll_range_modify {β : Type} {f g : Nat → Except PyErr β} {n k : Nat} {l : List β}
    {u : β → β} (h : readAll f (List.range n) = .ok l) (hne : ∀ i < n, i ≠ k → g i = f i)
    (heq : ∀ b, f k = .ok b → g k = .ok (u b)) :
    readAll g (List.range n) = .ok (l.modify k u) := by
  rw [readAll_ok] at *
  have hl : l.length = n := by simpa using (congrArg List.length h).symm
  apply List.ext_getElem?
  intro i
  have hi := congrArg (fun l => l[i]?) h
  simp only [List.getElem?_map, List.getElem?_modify] at hi ⊢
  by_cases hin : i < n
  · rw [List.getElem?_range hin] at hi ⊢
    rw [List.getElem?_eq_getElem (by omega)] at hi ⊢
    simp only [Option.map_some, Option.some.injEq] at hi ⊢
    by_cases hk : k = i
    · subst hk
      simp only [if_true, Option.map_eq_map, Option.map_some, Option.some.injEq]
      exact heq _ hi
    · simp only [if_neg hk, Option.map_eq_map, Option.map_some, Option.some.injEq]
      rw [hne i hin (fun e => hk e.symm)]
      exact hi
  · rw [List.getElem?_eq_none (by simpa using hin), List.getElem?_eq_none (by omega)]
    simp

theorem readAll_range_get {β : Type} {f : Nat → Except PyErr β} {n k : Nat} {l : List β}
    (h : readAll f (List.range n) = .ok l) (hk : k < n) : ∃ b, l[k]? = some b ∧ f k = .ok b := by
  rw [readAll_ok] at h
  have hi := congrArg (fun l => l[k]?) h
  simp only [List.getElem?_map, List.getElem?_range hk, Option.map_some] at hi
  cases hl : l[k]? with
  | none => rw [hl] at hi; simp at hi
  | some b =>
    rw [hl] at hi
    simp only [Option.map_some, Option.some.injEq] at hi
    exact ⟨b, rfl, hi⟩

/-- A recorded instrument: its objects are allocated and none of them is an object that
`State` still writes to (current base; channels 0..7; operators 0..31). -/
structure Frozen (s : HState) (c : HConfig) : Prop where
  base : ∃ b, s.bases[c.base]? = some b
  baseNe : c.base ≠ s.baseRef
  channel : 8 ≤ c.channel
  ops : ∃ o l os, s.chans[c.channel]? = some o ∧ s.opLists[o.operators]? = some l ∧
    (∀ k ∈ l, 32 ≤ k) ∧ readAll (deref s.ops) l = .ok os

/-- Everything outside the writable objects is kept. -/
structure Keeps (s s' : HState) : Prop where
  bases : ∀ i, i ≠ s.baseRef → ∀ b, s.bases[i]? = some b → s'.bases[i]? = some b
  chans : ∀ i, 8 ≤ i → ∀ o, s.chans[i]? = some o → s'.chans[i]? = some o
  opLists : ∀ (i : Nat) (l : List Nat), s.opLists[i]? = some l → s'.opLists[i]? = some l
  ops : ∀ i, 32 ≤ i → ∀ o, s.ops[i]? = some o → s'.ops[i]? = some o

theorem Keeps.refl (s : HState) : Keeps s s :=
  ⟨fun _ _ _ h => h, fun _ _ _ h => h, fun _ _ h => h, fun _ _ _ h => h⟩

theorem readAll_keep {s s' : HState} (hk : Keeps s s') {l : List Nat} {os : List OperatorConfig}
    (hl : ∀ k ∈ l, 32 ≤ k) (h : readAll (deref s.ops) l = .ok os) :
    readAll (deref s'.ops) l = .ok os := by
  rw [← h]
  have hm := (readAll_ok _ _ _).mp h
  apply readAll_congr
  intro a ha
  have hmem : deref s.ops a ∈ l.map (deref s.ops) := List.mem_map_of_mem ha
  rw [hm] at hmem
  obtain ⟨o, _, ho⟩ := List.mem_map.mp hmem
  rw [← ho, deref_ok_iff]
  exact hk.ops a (hl a ha) o (deref_ok_iff.mp ho.symm)

/-- Recorded instruments read the same after a change that keeps everything frozen. -/
theorem Frozen.keep {s s' : HState} {c : HConfig} (hf : Frozen s c) (hk : Keeps s s')
    (hb : c.base ≠ s'.baseRef) : Frozen s' c ∧ s'.readConfig c = s.readConfig c := by
  obtain ⟨b, h1⟩ := hf.base
  obtain ⟨o, l, os, h2, h3, h4, h5⟩ := hf.ops
  have k1 := hk.bases _ hf.baseNe b h1
  have k2 := hk.chans _ hf.channel o h2
  have k3 := hk.opLists _ l h3
  have k5 := readAll_keep hk h4 h5
  refine ⟨⟨⟨b, k1⟩, hb, hf.channel, o, l, os, k2, k3, h4, k5⟩, ?_⟩
  simp only [HState.readConfig, HState.readChannel, deref_ok h1, deref_ok h2, deref_ok h3, h5,
    deref_ok k1, deref_ok k2, deref_ok k3, k5]

/-- The separation invariant and the correspondence with a value-level state. -/
structure Rel (s : HState) (t : State) : Prop where
  chanRefs : s.chanRefs = List.range 8
  noteRefs : s.noteRefs = List.range 8
  pressRefs : s.pressRefs = List.range 8
  chans : ∀ i < 8, ∃ c, s.chans[i]? = some c ∧ c.operators = i
  opLists : ∀ i < 8, s.opLists[i]? = some [4 * i, 4 * i + 1, 4 * i + 2, 4 * i + 3]
  nOps : 32 ≤ s.ops.length
  frozen : ∀ c ∈ s.configs, Frozen s c
  vPresses : readAll (deref s.presses) (List.range 8) = .ok t.keyPresses
  vChans : readAll s.readChannel (List.range 8) = .ok t.channelConfigs
  vNotes : readAll (deref s.notes) (List.range 8) = .ok t.noteConfigs
  vBase : s.bases[s.baseRef]? = some t.base
  vConfigs : readAll s.readConfig s.configs = .ok t.configs
  vSamples : s.samples = t.samples
  vBeats : s.noteBeats = t.noteBeats
  vFirst : s.firstBeat = t.firstBeat

theorem Rel.view {s : HState} {t : State} (h : Rel s t) : s.view = .ok t := by
  unfold HState.view
  rw [h.pressRefs, h.chanRefs, h.noteRefs, h.vPresses, h.vChans, h.vNotes, deref_ok h.vBase,
    h.vConfigs]
  simp only [h.vSamples, h.vBeats, h.vFirst]

theorem Rel.init : Rel HState.init State.init := by
  refine ⟨by decide, by decide, by decide, ?_, by decide, by decide, by simp [HState.init, HState.initLoop, HState.newChannel, allocOps], by decide +kernel,
    by decide +kernel, by decide +kernel, by decide, by decide +kernel, rfl, rfl, rfl⟩
  intro i hi
  have : ∀ i < 8, HState.init.chans[i]? = some ⟨i, 0, 0, 0, 0, false, 0⟩ := by decide
  exact ⟨_, this i hi, rfl⟩

theorem frozen_configs {s s' : HState} {cs : List Config} (hf : ∀ c ∈ s.configs, Frozen s c)
    (hr : readAll s.readConfig s.configs = .ok cs) (hk : Keeps s s')
    (hb : ∀ c ∈ s.configs, c.base ≠ s'.baseRef) :
    (∀ c ∈ s.configs, Frozen s' c) ∧ readAll s'.readConfig s.configs = .ok cs := by
  refine ⟨fun c hc => ((hf c hc).keep hk (hb c hc)).1, ?_⟩
  rw [← hr]
  exact readAll_congr (fun c hc => ((hf c hc).keep hk (hb c hc)).2)

theorem lt_of_get {α : Type} {l : List α} {i : Nat} {a : α} (h : l[i]? = some a) : i < l.length := by
  obtain ⟨h, _⟩ := List.getElem?_eq_some_iff.mp h
  exact h

/-! ### The single updates -/

theorem Rel.updBase {s : HState} {t : State} (h : Rel s t) (f : BaseConfig → BaseConfig) :
    ∃ s', s.updBase f = .ok s' ∧ Rel s' { t with base := f t.base } := by
  refine ⟨{ s with bases := s.bases.set s.baseRef (f t.base) }, ?_, ?_⟩
  · unfold HState.updBase
    rw [deref_ok h.vBase]
  · have hk : Keeps s { s with bases := s.bases.set s.baseRef (f t.base) } := by
      refine ⟨?_, fun _ _ _ h => h, fun _ _ h => h, fun _ _ _ h => h⟩
      intro i hi b hb
      rw [List.getElem?_set_ne (Ne.symm hi)]
      exact hb
    obtain ⟨h1, h2⟩ := frozen_configs h.frozen h.vConfigs hk (fun c hc => (h.frozen c hc).baseNe)
    exact ⟨h.chanRefs, h.noteRefs, h.pressRefs, h.chans, h.opLists, h.nOps, h1, h.vPresses,
      h.vChans, h.vNotes, by simp [lt_of_get h.vBase], h2, h.vSamples, h.vBeats, h.vFirst⟩

theorem Rel.updNote {s : HState} {t : State} (h : Rel s t) (ch : Nat) (hch : ch < 8)
    (f : NoteConfig → NoteConfig) :
    ∃ s', s.updNote ch f = .ok s' ∧ Rel s' (t.updNote ch f) := by
  obtain ⟨n, hn, hd⟩ := readAll_range_get h.vNotes hch
  have hd' := deref_ok_iff.mp hd
  refine ⟨{ s with notes := s.notes.set ch (f n) }, ?_, ?_⟩
  · unfold HState.updNote
    rw [h.noteRefs, pyIndex_ok (List.getElem?_range hch)]
    simp only [hd]
  · have hk : Keeps s { s with notes := s.notes.set ch (f n) } :=
      ⟨fun _ _ _ h => h, fun _ _ _ h => h, fun _ _ h => h, fun _ _ _ h => h⟩
    obtain ⟨h1, h2⟩ := frozen_configs h.frozen h.vConfigs hk (fun c hc => (h.frozen c hc).baseNe)
    refine ⟨h.chanRefs, h.noteRefs, h.pressRefs, h.chans, h.opLists, h.nOps, h1, h.vPresses,
      h.vChans, ?_, h.vBase, h2, h.vSamples, h.vBeats, h.vFirst⟩
    apply readAll_range_modify h.vNotes
    · intro i _ hi
      unfold deref
      rw [List.getElem?_set_ne (Ne.symm hi)]
    · intro b hb
      rw [hd] at hb
      cases hb
      rw [deref_ok_iff]
      simp [lt_of_get hd']

/-- Reading a live channel. -/
theorem Rel.live {s : HState} {t : State} (h : Rel s t) (i : Nat) (hi : i < 8) (c : ChanObj)
    (hc : s.chans[i]? = some c) :
    ∃ o0 o1 o2 o3, s.ops[4 * i]? = some o0 ∧ s.ops[4 * i + 1]? = some o1 ∧
      s.ops[4 * i + 2]? = some o2 ∧ s.ops[4 * i + 3]? = some o3 ∧
      s.readChannel i = .ok (c.withOps [o0, o1, o2, o3]) := by
  have hn := h.nOps
  obtain ⟨c', hc', ho⟩ := h.chans i hi
  rw [hc] at hc'
  cases hc'
  have g0 := List.getElem?_eq_getElem (l := s.ops) (i := 4 * i) (by omega)
  have g1 := List.getElem?_eq_getElem (l := s.ops) (i := 4 * i + 1) (by omega)
  have g2 := List.getElem?_eq_getElem (l := s.ops) (i := 4 * i + 2) (by omega)
  have g3 := List.getElem?_eq_getElem (l := s.ops) (i := 4 * i + 3) (by omega)
  refine ⟨_, _, _, _, g0, g1, g2, g3, ?_⟩
  unfold HState.readChannel
  rw [deref_ok hc]
  simp only [ho, deref_ok (h.opLists i hi), readAll, deref_ok g0, deref_ok g1, deref_ok g2,
    deref_ok g3]

theorem Rel.updChannel {s : HState} {t : State} (h : Rel s t) (ch : Nat) (hch : ch < 8)
    (f : ChanObj → ChanObj) (g : ChannelConfig → ChannelConfig)
    (hfo : ∀ c, (f c).operators = c.operators)
    (hfg : ∀ c os, (f c).withOps os = g (c.withOps os)) :
    ∃ s', s.updChannel ch f = .ok s' ∧ Rel s' (t.updChannel ch g) := by
  obtain ⟨c, hc, ho⟩ := h.chans ch hch
  refine ⟨{ s with chans := s.chans.set ch (f c) }, ?_, ?_⟩
  · unfold HState.updChannel
    rw [h.chanRefs, pyIndex_ok (List.getElem?_range hch)]
    simp only [deref_ok hc]
  · have hk : Keeps s { s with chans := s.chans.set ch (f c) } := by
      refine ⟨fun _ _ _ h => h, ?_, fun _ _ h => h, fun _ _ _ h => h⟩
      intro i hi o ho
      rw [List.getElem?_set_ne (by omega)]
      exact ho
    obtain ⟨h1, h2⟩ := frozen_configs h.frozen h.vConfigs hk (fun c hc => (h.frozen c hc).baseNe)
    refine ⟨h.chanRefs, h.noteRefs, h.pressRefs, ?_, h.opLists, h.nOps, h1, h.vPresses,
      ?_, h.vNotes, h.vBase, h2, h.vSamples, h.vBeats, h.vFirst⟩
    · intro i hi
      by_cases hic : i = ch
      · subst hic
        exact ⟨f c, by simp [lt_of_get hc], by rw [hfo, ho]⟩
      · obtain ⟨d, hd, hdo⟩ := h.chans i hi
        exact ⟨d, by rw [List.getElem?_set_ne (Ne.symm hic)]; exact hd, hdo⟩
    · apply readAll_range_modify h.vChans
      · intro i _ hi
        unfold HState.readChannel
        have : deref (s.chans.set ch (f c)) i = deref s.chans i := by
          unfold deref; rw [List.getElem?_set_ne (Ne.symm hi)]
        simp only [this]
      · intro b hb
        have e : (s.chans.set ch (f c))[ch]? = some (f c) := by simp [lt_of_get hc]
        obtain ⟨o0, o1, o2, o3, g0, g1, g2, g3, gr⟩ := h.live ch hch c hc
        rw [gr] at hb
        cases hb
        unfold HState.readChannel
        simp only [deref_ok e, hfo, ho, deref_ok (h.opLists ch hch), readAll, deref_ok g0,
          deref_ok g1, deref_ok g2, deref_ok g3, hfg]

theorem Rel.updOperator {s : HState} {t : State} (h : Rel s t) (ch op : Nat) (hch : ch < 8)
    (hop : op < 4) (f : OperatorConfig → OperatorConfig) :
    ∃ s', s.updOperator ch op f = .ok s' ∧ Rel s' (t.updOperator ch op f) := by
  obtain ⟨c, hc, ho⟩ := h.chans ch hch
  have hn := h.nOps
  have hk' : s.ops[4 * ch + op]? = some (s.ops[4 * ch + op]'(by omega)) :=
    List.getElem?_eq_getElem _
  generalize hoo : (s.ops[4 * ch + op]'(by omega)) = o at hk'
  have hidx : ([4 * ch, 4 * ch + 1, 4 * ch + 2, 4 * ch + 3] : List Nat)[op]? = some (4 * ch + op) := by
    match op, hop with
    | 0, _ => rfl
    | 1, _ => rfl
    | 2, _ => rfl
    | 3, _ => rfl
  refine ⟨{ s with ops := s.ops.set (4 * ch + op) (f o) }, ?_, ?_⟩
  · unfold HState.updOperator
    rw [h.chanRefs, pyIndex_ok (List.getElem?_range hch)]
    simp only [deref_ok hc, ho, deref_ok (h.opLists ch hch), pyIndex_ok hidx, deref_ok hk']
  · have hk : Keeps s { s with ops := s.ops.set (4 * ch + op) (f o) } := by
      refine ⟨fun _ _ _ h => h, fun _ _ _ h => h, fun _ _ h => h, ?_⟩
      intro i hi o ho
      rw [List.getElem?_set_ne (by omega)]
      exact ho
    obtain ⟨h1, h2⟩ := frozen_configs h.frozen h.vConfigs hk (fun c hc => (h.frozen c hc).baseNe)
    refine ⟨h.chanRefs, h.noteRefs, h.pressRefs, h.chans, h.opLists, by simpa using h.nOps, h1,
      h.vPresses, ?_, h.vNotes, h.vBase, h2, h.vSamples, h.vBeats, h.vFirst⟩
    have hread : ∀ i < 8, ∀ d, s.chans[i]? = some d → d.operators = i → ∀ p0 p1 p2 p3,
        (s.ops.set (4 * ch + op) (f o))[4 * i]? = some p0 →
        (s.ops.set (4 * ch + op) (f o))[4 * i + 1]? = some p1 →
        (s.ops.set (4 * ch + op) (f o))[4 * i + 2]? = some p2 →
        (s.ops.set (4 * ch + op) (f o))[4 * i + 3]? = some p3 →
        HState.readChannel { s with ops := s.ops.set (4 * ch + op) (f o) } i =
          .ok (d.withOps [p0, p1, p2, p3]) := by
      intro i hi d hd hdo p0 p1 p2 p3 g0 g1 g2 g3
      unfold HState.readChannel
      simp only [deref_ok hd, hdo, deref_ok (h.opLists i hi), readAll, deref_ok g0, deref_ok g1,
        deref_ok g2, deref_ok g3]
    apply readAll_range_modify h.vChans
    · intro i hi hne
      obtain ⟨d, hd, hdo⟩ := h.chans i hi
      obtain ⟨o0, o1, o2, o3, g0, g1, g2, g3, gr⟩ := h.live i hi d hd
      rw [gr]
      apply hread i hi d hd hdo
      · rw [List.getElem?_set_ne (by omega)]; exact g0
      · rw [List.getElem?_set_ne (by omega)]; exact g1
      · rw [List.getElem?_set_ne (by omega)]; exact g2
      · rw [List.getElem?_set_ne (by omega)]; exact g3
    · intro b hb
      obtain ⟨o0, o1, o2, o3, g0, g1, g2, g3, gr⟩ := h.live ch hch c hc
      rw [gr] at hb
      cases hb
      have hset : (s.ops.set (4 * ch + op) (f o))[4 * ch + op]? = some (f o) := by
        rw [List.getElem?_set_self (by omega)]
      have h4 : op = 0 ∨ op = 1 ∨ op = 2 ∨ op = 3 := by omega
      rcases h4 with rfl | rfl | rfl | rfl
      · simp only [Nat.add_zero] at hk' hset hread ⊢
        rw [g0] at hk'
        cases hk'
        rw [hread ch hch c hc ho (f o) o1 o2 o3 hset
          (by rw [List.getElem?_set_ne (by omega)]; exact g1)
          (by rw [List.getElem?_set_ne (by omega)]; exact g2)
          (by rw [List.getElem?_set_ne (by omega)]; exact g3)]
        rfl
      · rw [g1] at hk'
        cases hk'
        rw [hread ch hch c hc ho o0 (f o) o2 o3
          (by rw [List.getElem?_set_ne (by omega)]; exact g0) hset
          (by rw [List.getElem?_set_ne (by omega)]; exact g2)
          (by rw [List.getElem?_set_ne (by omega)]; exact g3)]
        rfl
      · rw [g2] at hk'
        cases hk'
        rw [hread ch hch c hc ho o0 o1 (f o) o3
          (by rw [List.getElem?_set_ne (by omega)]; exact g0)
          (by rw [List.getElem?_set_ne (by omega)]; exact g1) hset
          (by rw [List.getElem?_set_ne (by omega)]; exact g3)]
        rfl
      · rw [g3] at hk'
        cases hk'
        rw [hread ch hch c hc ho o0 o1 o2 (f o)
          (by rw [List.getElem?_set_ne (by omega)]; exact g0)
          (by rw [List.getElem?_set_ne (by omega)]; exact g1)
          (by rw [List.getElem?_set_ne (by omega)]; exact g2) hset]
        rfl

/-! ### Key events -/

theorem Rel.compare {s : HState} {t : State} (h : Rel s t) (c : HConfig) (v : Config)
    (hr : s.readConfig c = .ok v) (ch op : Nat) (hch : ch < 8) :
    s.compare c s.baseRef ch op = .ok (v.compare t.base (t.channelConfigs.getD ch {}) op) := by
  unfold HState.readConfig at hr
  unfold HState.compare
  cases hb : deref s.bases c.base with
  | error e => rw [hb] at hr; simp at hr
  | ok b =>
    rw [hb] at hr
    simp only at hr ⊢
    cases hcc : s.readChannel c.channel with
    | error e => rw [hcc] at hr; simp at hr
    | ok cc =>
      rw [hcc] at hr
      simp only [Except.ok.injEq] at hr
      subst hr
      obtain ⟨d, hd, hl⟩ := readAll_range_get h.vChans hch
      simp only [deref_ok h.vBase, hl, List.getD_eq_getElem?_getD, hd, Option.getD_some,
        Config.compare]
      cases b.pyEq t.base <;> cases cc.pyEq d <;> simp

theorem Rel.find {s : HState} {t : State} (h : Rel s t) (ch op : Nat) (hch : ch < 8) :
    s.find ch op s.configs 0 =
      .ok (t.configs.findIdx (fun c => c.compare t.base (t.channelConfigs.getD ch {}) op)) := by
  have hlen : t.configs.length = s.configs.length := by
    have := (readAll_ok _ _ _).mp h.vConfigs
    simpa using (congrArg List.length this).symm
  have key : ∀ (cs : List HConfig) (vs : List Config) (i : Nat), readAll s.readConfig cs = .ok vs →
      i + cs.length = s.configs.length →
      s.find ch op cs i =
        .ok (i + vs.findIdx (fun c => c.compare t.base (t.channelConfigs.getD ch {}) op)) := by
    intro cs
    induction cs with
    | nil =>
      intro vs i hr hi
      simp only [readAll, Except.ok.injEq] at hr
      subst hr
      simp at hi
      simp [HState.find, hi]
    | cons c cs ih =>
      intro vs i hr hi
      simp only [readAll] at hr
      cases hc : s.readConfig c with
      | error e => rw [hc] at hr; simp at hr
      | ok v =>
        rw [hc] at hr
        simp only at hr
        cases hcs : readAll s.readConfig cs with
        | error e => rw [hcs] at hr; simp at hr
        | ok vs' =>
          rw [hcs] at hr
          simp only [Except.ok.injEq] at hr
          subst hr
          simp only [HState.find, h.chanRefs, pyIndex_ok (List.getElem?_range hch),
            h.compare c v hc ch op hch]
          rw [List.findIdx_cons]
          cases v.compare t.base (t.channelConfigs.getD ch {}) op with
          | true => simp
          | false =>
            simp only [cond_false]
            rw [ih vs' (i + 1) hcs (by simp at hi; omega)]
            congr 1
            omega
  have := key s.configs t.configs 0 h.vConfigs (by omega)
  rw [this, Nat.zero_add]

theorem copyOps_ok (l : List Nat) (arena : List OperatorConfig) (acc : List Nat)
    (os : List OperatorConfig) (h : readAll (deref arena) l = .ok os) :
    ∃ l', copyOps l arena acc = .ok (arena ++ os.map OperatorConfig.copy, acc ++ l') ∧
      (∀ k ∈ l', arena.length ≤ k) ∧
      readAll (deref (arena ++ os.map OperatorConfig.copy)) l' = .ok (os.map OperatorConfig.copy) := by
  induction l generalizing arena acc os with
  | nil =>
    simp only [readAll, Except.ok.injEq] at h
    subst h
    exact ⟨[], by simp [copyOps], by simp, rfl⟩
  | cons r l ih =>
    simp only [readAll] at h
    cases hr : deref arena r with
    | error e => rw [hr] at h; simp at h
    | ok o =>
      rw [hr] at h
      simp only at h
      cases hl : readAll (deref arena) l with
      | error e => rw [hl] at h; simp at h
      | ok os' =>
        rw [hl] at h
        simp only [Except.ok.injEq] at h
        subst h
        have hl' : readAll (deref (arena ++ [o.copy])) l = .ok os' := by
          rw [← hl]
          have hm := (readAll_ok _ _ _).mp hl
          apply readAll_congr
          intro a ha
          have hmem : deref arena a ∈ l.map (deref arena) := List.mem_map_of_mem ha
          rw [hm] at hmem
          obtain ⟨p, _, hp⟩ := List.mem_map.mp hmem
          have hp' := deref_ok_iff.mp hp.symm
          rw [← hp, deref_ok_iff, List.getElem?_append_left (lt_of_get hp')]
          exact hp'
        obtain ⟨l', h1, h2, h3⟩ := ih (arena ++ [o.copy]) (acc ++ [arena.length]) os' hl'
        refine ⟨arena.length :: l', ?_, ?_, ?_⟩
        · simp only [copyOps, hr, h1, List.map_cons, List.append_assoc, List.cons_append,
            List.nil_append]
        · intro k hk
          rcases List.mem_cons.mp hk with rfl | hk
          · exact Nat.le_refl _
          · have := h2 k hk
            simp at this
            omega
        · simp only [List.map_cons]
          rw [show arena ++ o.copy :: os'.map OperatorConfig.copy =
            arena ++ [o.copy] ++ os'.map OperatorConfig.copy by simp]
          have : deref (arena ++ [o.copy] ++ os'.map OperatorConfig.copy) arena.length = .ok o.copy := by
            rw [deref_ok_iff]
            simp
          simp only [readAll, this, h3]

theorem withOps_copy (c : ChanObj) (os : List OperatorConfig) (k : Nat) :
    ({ c with operators := k } : ChanObj).withOps (os.map OperatorConfig.copy) =
      (c.withOps os).copy := rfl

/-- Recording a new instrument keeps the correspondence. -/
theorem Rel.recordNew {s : HState} {t : State} (h : Rel s t) (ch op found : Nat) (hch : ch < 8)
    (hop : op ≠ 0) (hf : found = s.configs.length) :
    ∃ s', s.record ch op found = .ok (s', (found : Int)) ∧
      Rel s' { t with
        base := t.base.copy
        configs := t.configs ++ [⟨found, t.base.copy, op, (t.channelConfigs.getD ch {}).copy⟩] } := by
  obtain ⟨c, hc, ho⟩ := h.chans ch hch
  obtain ⟨o0, o1, o2, o3, g0, g1, g2, g3, gr⟩ := h.live ch hch c hc
  obtain ⟨d, hd, hl⟩ := readAll_range_get h.vChans hch
  rw [gr] at hl
  simp only [Except.ok.injEq] at hl
  have hos : readAll (deref s.ops) [4 * ch, 4 * ch + 1, 4 * ch + 2, 4 * ch + 3] =
      .ok [o0, o1, o2, o3] := by
    simp only [readAll, deref_ok g0, deref_ok g1, deref_ok g2, deref_ok g3]
  obtain ⟨l', k1, k2, k3⟩ := copyOps_ok _ _ [] _ hos
  rw [List.nil_append] at k1
  have hb := h.vBase
  have hblt := lt_of_get hb
  let newOps := s.ops ++ [o0, o1, o2, o3].map OperatorConfig.copy
  let s' : HState := { s with
    bases := s.bases ++ [t.base.copy] ++ [t.base.copy]
    ops := newOps
    opLists := s.opLists ++ [l']
    chans := s.chans ++ [{ c with operators := s.opLists.length }]
    configs := s.configs ++ [HConfig.mk found s.bases.length op s.chans.length]
    baseRef := s.bases.length + 1 }
  have hbb : (s.bases ++ [t.base.copy])[s.baseRef]? = some t.base := by
    rw [List.getElem?_append_left hblt]; exact hb
  refine ⟨s', ?_, ?_⟩
  · unfold HState.record
    rw [if_pos hf.symm, if_pos hop]
    simp only [HState.copyBase, deref_ok hb, h.chanRefs, pyIndex_ok (List.getElem?_range hch),
      HState.copyChannel, deref_ok hc, ho, deref_ok (h.opLists ch hch), k1, deref_ok hbb]
    congr 1
    simp [s', newOps]
    exact h.chanRefs.symm
  · have hk : Keeps s s' := by
      refine ⟨?_, ?_, ?_, ?_⟩
      · intro i _ b hb
        show (s.bases ++ [t.base.copy] ++ [t.base.copy])[i]? = some b
        rw [List.append_assoc, List.getElem?_append_left (lt_of_get hb)]; exact hb
      · intro i _ o ho
        show (s.chans ++ [_])[i]? = some o
        rw [List.getElem?_append_left (lt_of_get ho)]; exact ho
      · intro i l hl
        show (s.opLists ++ [l'])[i]? = some l
        rw [List.getElem?_append_left (lt_of_get hl)]; exact hl
      · intro i _ o ho
        show newOps[i]? = some o
        rw [List.getElem?_append_left (lt_of_get ho)]; exact ho
    obtain ⟨f1, f2⟩ := frozen_configs (s' := s') h.frozen h.vConfigs hk (by
      intro c hc
      obtain ⟨b, hb⟩ := (h.frozen c hc).base
      have := lt_of_get hb
      show c.base ≠ s.bases.length + 1
      omega)
    have hnl : 8 ≤ s.chans.length := by
      obtain ⟨e, he, _⟩ := h.chans 7 (by decide)
      have := lt_of_get he
      omega
    have e1 : s'.bases[s.bases.length]? = some t.base.copy := by simp [s']
    have e2 : s'.chans[s.chans.length]? = some { c with operators := s.opLists.length } := by
      simp [s']
    have e3 : s'.opLists[s.opLists.length]? = some l' := by simp [s']
    have fnew : Frozen s' (HConfig.mk found s.bases.length op s.chans.length) := by
      refine ⟨⟨_, e1⟩, ?_, hnl, ⟨_, l', _, e2, e3, ?_, k3⟩⟩
      · show s.bases.length ≠ s.bases.length + 1
        omega
      · intro k hk
        have := k2 k hk
        have := h.nOps
        omega
    have rnew : s'.readConfig (HConfig.mk found s.bases.length op s.chans.length) =
        .ok ⟨found, t.base.copy, op, (t.channelConfigs.getD ch {}).copy⟩ := by
      have k3' : readAll (deref s'.ops) l' = .ok ([o0, o1, o2, o3].map OperatorConfig.copy) := k3
      unfold HState.readConfig HState.readChannel
      simp only [deref_ok e1, deref_ok e2, deref_ok e3, k3', withOps_copy, hl,
        List.getD_eq_getElem?_getD, hd, Option.getD_some]
    have hread : ∀ i < 8, s'.readChannel i = s.readChannel i := by
      intro i hi
      obtain ⟨d, hd, hdo⟩ := h.chans i hi
      obtain ⟨p0, p1, p2, p3, q0, q1, q2, q3, qr⟩ := h.live i hi d hd
      rw [qr]
      have c1 : s'.chans[i]? = some d := by
        show (s.chans ++ [_])[i]? = some d
        rw [List.getElem?_append_left (lt_of_get hd)]; exact hd
      have c2 := hk.opLists i _ (h.opLists i hi)
      have c3 : ∀ k o, s.ops[k]? = some o → deref s'.ops k = .ok o := by
        intro k o ho
        rw [deref_ok_iff]
        show newOps[k]? = some o
        rw [List.getElem?_append_left (lt_of_get ho)]; exact ho
      unfold HState.readChannel
      simp only [deref_ok c1, hdo, deref_ok c2, readAll, c3 _ _ q0, c3 _ _ q1, c3 _ _ q2, c3 _ _ q3]
    refine ⟨h.chanRefs, h.noteRefs, h.pressRefs, ?_, ?_, ?_, ?_, h.vPresses, ?_, h.vNotes, ?_, ?_,
      h.vSamples, h.vBeats, h.vFirst⟩
    · intro i hi
      obtain ⟨d, hd, hdo⟩ := h.chans i hi
      refine ⟨d, ?_, hdo⟩
      show (s.chans ++ [_])[i]? = some d
      rw [List.getElem?_append_left (lt_of_get hd)]; exact hd
    · intro i hi
      exact hk.opLists i _ (h.opLists i hi)
    · show 32 ≤ newOps.length
      have := h.nOps
      simp only [newOps, List.length_append]
      omega
    · intro c hc
      have hc' : c ∈ s.configs ++ [HConfig.mk found s.bases.length op s.chans.length] := hc
      rcases List.mem_append.mp hc' with hc' | hc'
      · exact f1 c hc'
      · rw [List.mem_singleton] at hc'
        subst hc'
        exact fnew
    · rw [readAll_congr (fun i hi => hread i (by simpa using hi))]
      exact h.vChans
    · show (s.bases ++ [t.base.copy] ++ [t.base.copy])[s.bases.length + 1]? = some t.base.copy
      simp
    · show readAll s'.readConfig (s.configs ++ [_]) = _
      exact readAll_append f2 (by simp only [readAll, rnew])

theorem Rel.keyEvent {s : HState} {t : State} (h : Rel s t) (value : Nat) :
    ∃ s', s.keyEvent value = .ok s' ∧ Rel s' (t.keyEvent value) := by
  have hch : value &&& 0x07 < 8 := Nat.lt_of_le_of_lt Nat.and_le_right (by decide)
  have hop : ¬ 15 < (value >>> 3) &&& 0xF := Nat.not_lt.mpr Nat.and_le_right
  have hlen : t.configs.length = s.configs.length := by
    have := (readAll_ok _ _ _).mp h.vConfigs
    simpa using (congrArg List.length this).symm
  unfold HState.keyEvent State.keyEvent
  simp only [if_neg hop, h.find _ _ hch]
  generalize (value >>> 3) &&& 0xF = op
  generalize hcg : value &&& 7 = ch at hch
  generalize hfd : t.configs.findIdx (fun c => c.compare t.base (t.channelConfigs.getD ch {}) op) = found
  -- the instrument part
  have hrec : ∃ s1 : HState, ∃ id : Int, s.record ch op found = .ok (s1, id) ∧
      id = (if (t.configs.length == found) && op == 0 then -1 else (found : Int)) ∧
      Rel s1 { t with
        configs := if (t.configs.length == found) && op != 0 then
            t.configs ++ [⟨found, t.base.copy, op, (t.channelConfigs.getD ch {}).copy⟩]
          else t.configs
        base := if (t.configs.length == found) && op != 0 then t.base.copy else t.base } := by
    by_cases hnew : t.configs.length = found
    · by_cases ho : op = 0
      · refine ⟨s, -1, ?_, ?_, ?_⟩
        · unfold HState.record
          rw [if_pos (by omega), if_neg (by simp [ho])]
        · simp [hnew, ho]
        · simpa [hnew, ho] using h
      · obtain ⟨s1, h1, h2⟩ := h.recordNew ch op found hch ho (by omega)
        refine ⟨s1, found, h1, ?_, ?_⟩
        · simp [ho]
        · simpa [hnew, ho] using h2
    · refine ⟨s, found, ?_, ?_, ?_⟩
      · unfold HState.record
        rw [if_neg (by omega)]
      · simp [hnew]
      · simpa [hnew] using h
  obtain ⟨s1, id, h1, hid, hr⟩ := hrec
  rw [h1]
  simp only
  rw [← hid]
  generalize (if (t.configs.length == found) && op != 0 then
            t.configs ++ [⟨found, t.base.copy, op, (t.channelConfigs.getD ch {}).copy⟩]
          else t.configs) = cfgs at hr
  generalize (if (t.configs.length == found) && op != 0 then t.base.copy else t.base) = bs at hr
  -- first beat
  have hs : s1.samples = t.samples := hr.vSamples
  have hfb : s1.firstBeat = t.firstBeat := hr.vFirst
  generalize hnb : (if op != 0 && !truthy t.firstBeat then some t.samples else t.firstBeat) = fb
  have hfirst : (if op != 0 && !truthy s1.firstBeat then { s1 with firstBeat := some s1.samples }
      else s1) = { s1 with firstBeat := fb } := by
    rw [hfb, ← hnb]
    split
    · rw [hs]
    · rw [← hfb]
  rw [hfirst]
  have hr2 : Rel { s1 with firstBeat := fb } { t with configs := cfgs, base := bs, firstBeat := fb } :=
    ⟨hr.chanRefs, hr.noteRefs, hr.pressRefs, hr.chans, hr.opLists, hr.nOps, fun c hc =>
      ((hr.frozen c hc).keep (s' := { s1 with firstBeat := fb })
        ⟨fun _ _ _ h => h, fun _ _ _ h => h, fun _ _ h => h, fun _ _ _ h => h⟩ (hr.frozen c hc).baseNe).1,
      hr.vPresses, hr.vChans, hr.vNotes, hr.vBase, hr.vConfigs, hr.vSamples, hr.vBeats, rfl⟩
  -- the note
  obtain ⟨nc, hn, hnd⟩ := readAll_range_get hr2.vNotes hch
  obtain ⟨l, hl, hld⟩ := readAll_range_get hr2.vPresses hch
  have hng : t.noteConfigs.getD ch {} = nc := by
    have : t.noteConfigs[ch]? = some nc := hn
    simp [this]
  have hpr : ∃ s2, (if truthy fb then HState.addNote { s1 with firstBeat := fb } ch id
      else .ok { s1 with firstBeat := fb } : Except PyErr HState) = .ok s2 ∧
      Rel s2 { t with configs := cfgs, base := bs, firstBeat := fb,
                      keyPresses := if truthy fb then t.keyPresses.modify ch
                        (· ++ [Note.init id nc t.samples]) else t.keyPresses } := by
    by_cases ht : truthy fb
    · simp only [if_pos ht]
      have hnd' : deref s1.notes ch = .ok nc := hnd
      have hld' : deref s1.presses ch = .ok l := hld
      have e1 : pyIndex s1.noteRefs ch = .ok ch := by
        rw [hr.noteRefs]; exact pyIndex_ok (List.getElem?_range hch)
      have e2 : pyIndex s1.pressRefs ch = .ok ch := by
        rw [hr.pressRefs]; exact pyIndex_ok (List.getElem?_range hch)
      simp only [HState.addNote, e1, e2, hnd', hld']
      refine ⟨_, rfl, ?_⟩
      refine ⟨hr2.chanRefs, hr2.noteRefs, hr2.pressRefs, hr2.chans, hr2.opLists, hr2.nOps,
        fun c hc => ⟨(hr2.frozen c hc).1, (hr2.frozen c hc).2, (hr2.frozen c hc).3, (hr2.frozen c hc).4⟩,
        ?_, hr2.vChans, hr2.vNotes, hr2.vBase, hr2.vConfigs, hr2.vSamples, hr2.vBeats, rfl⟩
      apply readAll_range_modify hr2.vPresses
      · intro i _ hi
        unfold deref
        rw [List.getElem?_set_ne (Ne.symm hi)]
      · intro b hb
        rw [hld] at hb
        cases hb
        rw [deref_ok_iff, hs]
        have := lt_of_get (deref_ok_iff.mp hld')
        simp [this]
    · simp only [if_neg ht]
      exact ⟨_, rfl, hr2⟩
  obtain ⟨s2, e2, r2⟩ := hpr
  rw [hng]
  refine ⟨if id ≥ 0 then { s2 with noteBeats := setAdd s2.samples s2.noteBeats } else s2, ?_, ?_⟩
  · rw [e2]
  · by_cases hi : id ≥ 0
    · simp only [if_pos hi]
      refine ⟨r2.chanRefs, r2.noteRefs, r2.pressRefs, r2.chans, r2.opLists, r2.nOps,
        fun c hc => ⟨(r2.frozen c hc).1, (r2.frozen c hc).2, (r2.frozen c hc).3, (r2.frozen c hc).4⟩,
        r2.vPresses, r2.vChans, r2.vNotes, r2.vBase, r2.vConfigs, r2.vSamples, ?_, r2.vFirst⟩
      show setAdd s2.samples s2.noteBeats = setAdd t.samples t.noteBeats
      rw [r2.vSamples, r2.vBeats]
    · simp only [if_neg hi]
      exact r2

theorem Rel.beat {s : HState} {t : State} (h : Rel s t) (n : Nat) : Rel (s.beat n) (t.beat n) :=
  ⟨h.chanRefs, h.noteRefs, h.pressRefs, h.chans, h.opLists, h.nOps,
    fun c hc => ⟨(h.frozen c hc).1, (h.frozen c hc).2, (h.frozen c hc).3, (h.frozen c hc).4⟩,
    h.vPresses, h.vChans, h.vNotes, h.vBase, h.vConfigs, by
      show s.samples + n = t.samples + n
      rw [h.vSamples], h.vBeats, h.vFirst⟩

/-- Every register write, with any values, succeeds at reference level and does what the
value-level model says. -/
theorem Rel.apply {s : HState} {t : State} (h : Rel s t) (reg value : Nat) :
    ∃ s', s.apply reg value = .ok s' ∧ Rel s' (t.apply reg value) := by
  have hch : reg &&& 0x07 < 8 := Nat.lt_of_le_of_lt Nat.and_le_right (by decide)
  have hop : (reg >>> 3) &&& 0x03 < 4 := Nat.lt_of_le_of_lt Nat.and_le_right (by decide)
  have hw : ∃ w, Waveform.ofNat? (value &&& 0x3) = some w := by
    have : value &&& 0x3 < 4 := Nat.lt_of_le_of_lt Nat.and_le_right (by decide)
    generalize value &&& 0x3 = n at this
    match n, this with
    | 0, _ => exact ⟨_, rfl⟩
    | 1, _ => exact ⟨_, rfl⟩
    | 2, _ => exact ⟨_, rfl⟩
    | 3, _ => exact ⟨_, rfl⟩
  unfold HState.apply State.apply
  simp only
  by_cases c1 : reg = 0x08
  · rw [if_pos c1, if_pos c1]; exact h.keyEvent value
  rw [if_neg c1, if_neg c1]
  by_cases c2 : reg = 0x0F
  · rw [if_pos c2, if_pos c2]
    exact h.updChannel 7 (by decide) _ _ (fun _ => rfl) (fun _ _ => rfl)
  rw [if_neg c2, if_neg c2]
  by_cases c3 : reg = 0x18
  · rw [if_pos c3, if_pos c3]; exact h.updBase _
  rw [if_neg c3, if_neg c3]
  by_cases c4 : reg = 0x19
  · rw [if_pos c4, if_pos c4]
    by_cases cv : (value &&& (1 <<< 7)) > 0
    · rw [if_pos cv, if_pos cv]; exact h.updBase _
    · rw [if_neg cv, if_neg cv]; exact h.updBase _
  rw [if_neg c4, if_neg c4]
  by_cases c5 : reg = 0x1B
  · rw [if_pos c5, if_pos c5]
    obtain ⟨w, hw⟩ := hw
    simp only [hw, Option.getD_some]
    exact h.updBase _
  rw [if_neg c5, if_neg c5]
  by_cases c6 : reg &&& 0xF8 = 0x20
  · rw [if_pos c6, if_pos c6]
    obtain ⟨s1, e1, r1⟩ := h.updNote (reg &&& 7) hch (fun n =>
      { n with right := decide ((value &&& (1 <<< 7)) > 0),
               left := decide ((value &&& (1 <<< 6)) > 0) })
    rw [e1]
    exact r1.updChannel _ hch _ _ (fun _ => rfl) (fun _ _ => rfl)
  rw [if_neg c6, if_neg c6]
  by_cases c7 : reg &&& 0xF8 = 0x28
  · rw [if_pos c7, if_pos c7]; exact h.updNote _ hch _
  rw [if_neg c7, if_neg c7]
  by_cases c8 : reg &&& 0xF8 = 0x30
  · rw [if_pos c8, if_pos c8]; exact h.updNote _ hch _
  rw [if_neg c8, if_neg c8]
  by_cases c9 : reg &&& 0xF8 = 0x38
  · rw [if_pos c9, if_pos c9]
    exact h.updChannel _ hch _ _ (fun _ => rfl) (fun _ _ => rfl)
  rw [if_neg c9, if_neg c9]
  by_cases c10 : reg &&& 0xE0 = 0x40
  · rw [if_pos c10, if_pos c10]; exact h.updOperator _ _ hch hop _
  rw [if_neg c10, if_neg c10]
  by_cases c11 : reg &&& 0xE0 = 0x60
  · rw [if_pos c11, if_pos c11]; exact h.updOperator _ _ hch hop _
  rw [if_neg c11, if_neg c11]
  by_cases c12 : reg &&& 0xE0 = 0x80
  · rw [if_pos c12, if_pos c12]; exact h.updOperator _ _ hch hop _
  rw [if_neg c12, if_neg c12]
  by_cases c13 : reg &&& 0xE0 = 0xA0
  · rw [if_pos c13, if_pos c13]; exact h.updOperator _ _ hch hop _
  rw [if_neg c13, if_neg c13]
  by_cases c14 : reg &&& 0xE0 = 0xC0
  · rw [if_pos c14, if_pos c14]; exact h.updOperator _ _ hch hop _
  rw [if_neg c14, if_neg c14]
  by_cases c15 : reg &&& 0xE0 = 0xE0
  · rw [if_pos c15, if_pos c15]; exact h.updOperator _ _ hch hop _
  rw [if_neg c15, if_neg c15]
  exact ⟨s, rfl, h⟩

end VgmX
