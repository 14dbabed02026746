import Verif.Lemmas.Heap
import Verif.Spec.Edits
/-
Where the objects of `State` lie, and that edits through them do what they do on values.
-/

namespace VgmX
open Spec

/-- Channel object `i` has the list object `i`, which has the operators `4 i .. 4 i + 3`; no two
instruments have the same channel object. -/
structure Laid (s : HState) : Prop where
  nl : s.opLists.length = s.chans.length
  no : s.ops.length = 4 * s.chans.length
  chans : ∀ (i : Nat) (c : ChanObj), s.chans[i]? = some c → c.operators = i
  lists : ∀ i, i < s.chans.length → s.opLists[i]? = some [4 * i, 4 * i + 1, 4 * i + 2, 4 * i + 3]
  lt : ∀ c ∈ s.configs, c.channel < s.chans.length
  nodup : (s.configs.map (·.channel)).Nodup

theorem Laid.init : Laid HState.init := by
  refine ⟨by decide, by decide, ?_, by decide, by
    simp [HState.init, HState.initLoop, HState.newChannel, allocOps], by
    simp [HState.init, HState.initLoop, HState.newChannel, allocOps]⟩
  intro i c h
  have hl := lt_of_get h
  have h8 : HState.init.chans.length = 8 := by decide
  have : ∀ i < 8, HState.init.chans[i]? = some ⟨i, 0, 0, 0, 0, false, 0⟩ := by decide
  rw [this i (by omega)] at h
  cases h
  rfl

/-- A change that keeps the places. -/
theorem Laid.of_eq {s s' : HState} (h : Laid s) (h1 : s'.ops.length = s.ops.length)
    (h2 : s'.opLists = s.opLists) (h3 : s'.chans.length = s.chans.length)
    (h4 : ∀ (i : Nat) (c : ChanObj), s'.chans[i]? = some c →
      ∃ d, s.chans[i]? = some d ∧ c.operators = d.operators)
    (h5 : s'.configs = s.configs) : Laid s' := by
  refine ⟨by rw [h2, h3, h.nl], by rw [h1, h3, h.no], ?_, ?_, ?_, by rw [h5]; exact h.nodup⟩
  · intro i c hc
    obtain ⟨d, hd, e⟩ := h4 i c hc
    rw [e]; exact h.chans i d hd
  · intro i hi
    rw [h2]; exact h.lists i (by omega)
  · rw [h5, h3]; exact h.lt

theorem Laid.updChannel {s s' : HState} (h : Laid s) {ch : Nat} {f : ChanObj → ChanObj}
    (hfo : ∀ c, (f c).operators = c.operators) (he : s.updChannel ch f = .ok s') : Laid s' := by
  unfold HState.updChannel at he
  repeat' split at he
  all_goals cases he
  rename_i r _ _ c hc
  rw [deref_ok_iff] at hc
  refine h.of_eq rfl rfl (by simp) ?_ rfl
  intro i c' h'
  by_cases hi : r = i
  · subst hi
    simp only [List.getElem?_set_self (lt_of_get hc), Option.some.injEq] at h'
    exact ⟨c, hc, by rw [← h', hfo]⟩
  · simp only [List.getElem?_set_ne hi] at h'
    exact ⟨c', h', rfl⟩

theorem Laid.updOperator {s s' : HState} (h : Laid s) {ch k : Nat}
    {f : OperatorConfig → OperatorConfig} (he : s.updOperator ch k f = .ok s') : Laid s' := by
  unfold HState.updOperator at he
  repeat' split at he
  all_goals cases he
  exact h.of_eq (by simp) rfl rfl (fun i c hc => ⟨c, hc, rfl⟩) rfl

theorem Laid.updInstrument {s s' : HState} (h : Laid s) {ch k : Nat}
    {f : OperatorConfig → OperatorConfig} (he : s.updInstrument ch k f = .ok s') : Laid s' := by
  unfold HState.updInstrument at he
  repeat' split at he
  all_goals cases he
  exact h.of_eq (by simp) rfl rfl (fun i c hc => ⟨c, hc, rfl⟩) rfl

theorem Laid.updNote {s s' : HState} (h : Laid s) {ch : Nat} {f : NoteConfig → NoteConfig}
    (he : s.updNote ch f = .ok s') : Laid s' := by
  unfold HState.updNote at he
  repeat' split at he
  all_goals cases he
  exact h.of_eq rfl rfl rfl (fun i c hc => ⟨c, hc, rfl⟩) rfl

theorem Laid.updBase {s s' : HState} (h : Laid s) {f : BaseConfig → BaseConfig}
    (he : s.updBase f = .ok s') : Laid s' := by
  unfold HState.updBase at he
  repeat' split at he
  all_goals cases he
  exact h.of_eq rfl rfl rfl (fun i c hc => ⟨c, hc, rfl⟩) rfl

theorem Laid.copyBase {s s' : HState} (h : Laid s) {r b : Nat}
    (he : s.copyBase r = .ok (s', b)) : Laid s' := by
  unfold HState.copyBase at he
  repeat' split at he
  all_goals cases he
  exact h.of_eq rfl rfl rfl (fun i c hc => ⟨c, hc, rfl⟩) rfl

theorem copyOps_places (l : List Nat) (arena : List OperatorConfig) (acc : List Nat)
    (a' : List OperatorConfig) (l' : List Nat) (h : copyOps l arena acc = .ok (a', l')) :
    a'.length = arena.length + l.length ∧ l' = acc ++ List.range' arena.length l.length := by
  induction l generalizing arena acc with
  | nil => cases h; simp
  | cons r l ih =>
    simp only [copyOps] at h
    split at h
    · cases h
    · obtain ⟨h1, h2⟩ := ih _ _ h
      simp only [List.length_append, List.length_cons, List.length_nil] at h1 h2 ⊢
      refine ⟨by omega, ?_⟩
      rw [h2, List.range'_succ, List.append_assoc]
      rfl

theorem Laid.copyChannel {s s' : HState} (h : Laid s) {r c : Nat}
    (he : s.copyChannel r = .ok (s', c)) :
    Laid s' ∧ c = s.chans.length ∧ s'.chans.length = s.chans.length + 1 ∧
      s'.configs = s.configs := by
  unfold HState.copyChannel at he
  repeat' split at he
  all_goals cases he
  rename_i o ho _ l hl _ ops l' hcp
  rw [deref_ok_iff] at ho hl
  have hr := h.chans _ o ho
  rw [hr, h.lists _ (lt_of_get ho)] at hl
  cases hl
  obtain ⟨p1, p2⟩ := copyOps_places _ _ _ _ _ hcp
  simp only [List.length_cons, List.length_nil, List.nil_append, h.no] at p1 p2
  refine ⟨⟨?_, ?_, ?_, ?_, ?_, h.nodup⟩, rfl, by simp, rfl⟩
  · simp [h.nl]
  · simp only [List.length_append, List.length_cons, List.length_nil, p1]; omega
  · intro i c hc
    simp only [List.getElem?_append] at hc
    split at hc
    · exact h.chans i c hc
    · rename_i hlt
      have hi : i = s.chans.length := by
        have := lt_of_get hc
        simp only [List.length_cons, List.length_nil] at this
        omega
      subst hi
      simp only [Nat.sub_self, List.getElem?_cons_zero, Option.some.injEq] at hc
      rw [← hc]
      exact h.nl
  · intro i hi
    simp only [List.length_append, List.length_cons, List.length_nil] at hi
    simp only [List.getElem?_append, h.nl]
    split
    · exact h.lists i (by assumption)
    · have : i = s.chans.length := by omega
      subst this
      rw [p2]
      simp [List.range']
  · intro c hc
    have := h.lt c hc
    simp only [List.length_append, List.length_cons, List.length_nil]
    omega

theorem Laid.record {s s' : HState} (h : Laid s) {ch op found : Nat} {id : Int}
    (he : s.record ch op found = .ok (s', id)) : Laid s' := by
  unfold HState.record at he
  split at he
  · split at he
    · split at he
      · cases he
      rename_i s1 b hb
      split at he
      · cases he
      rename_i r _
      split at he
      · cases he
      rename_i s2 c hc
      obtain ⟨h2, e2, e3, e4⟩ := (h.copyBase hb).copyChannel hc
      dsimp only at he
      split at he
      · cases he
      rename_i s3 b' hb'
      cases he
      have h3 : Laid { s2 with configs := s2.configs ++ [HConfig.mk found b op c] } := by
        refine ⟨h2.nl, h2.no, h2.chans, h2.lists, ?_, ?_⟩
        · intro d hd
          rcases List.mem_append.mp hd with hd | hd
          · exact h2.lt d hd
          · rw [List.mem_singleton] at hd
            subst hd
            show c < s2.chans.length
            omega
        · simp only [List.map_append, List.map_cons, List.map_nil]
          rw [List.nodup_append]
          refine ⟨h2.nodup, by simp, ?_⟩
          intro a ha b' hb' e
          rw [List.mem_singleton] at hb'
          obtain ⟨d, hd, hda⟩ := List.mem_map.mp ha
          rw [e4] at hd
          have := (h.copyBase hb).lt d hd
          omega
      exact (h3.copyBase hb').of_eq rfl rfl rfl (fun i c hc => ⟨c, hc, rfl⟩) rfl
    · cases he; exact h
  · cases he; exact h

theorem Laid.addNote {s s' : HState} (h : Laid s) {ch : Nat} {id : Int}
    (he : s.addNote ch id = .ok s') : Laid s' := by
  unfold HState.addNote at he
  repeat' split at he
  all_goals cases he
  exact h.of_eq rfl rfl rfl (fun i c hc => ⟨c, hc, rfl⟩) rfl

theorem Laid.keyEvent {s s' : HState} (h : Laid s) {value : Nat}
    (he : s.keyEvent value = .ok s') : Laid s' := by
  unfold HState.keyEvent at he
  simp only at he
  split at he
  · cases he
  split at he
  · cases he
  split at he
  · cases he
  rename_i s1 id hr
  have h1 := h.record hr
  have h2 : Laid (if ((value >>> 3 &&& 15 != 0) && !truthy s1.firstBeat) = true then
      { s1 with firstBeat := some s1.samples } else s1) := by
    split
    · exact h1.of_eq rfl rfl rfl (fun i c hc => ⟨c, hc, rfl⟩) rfl
    · exact h1
  generalize (if ((value >>> 3 &&& 15 != 0) && !truthy s1.firstBeat) = true then
      { s1 with firstBeat := some s1.samples } else s1) = s2 at he h2
  split at he
  · cases he
  rename_i s3 h3e
  have h3 : Laid s3 := by
    split at h3e
    · exact h2.addNote h3e
    · cases h3e; exact h2
  cases he
  split
  · exact h3.of_eq rfl rfl rfl (fun i c hc => ⟨c, hc, rfl⟩) rfl
  · exact h3

theorem Laid.apply {s s' : HState} (h : Laid s) {reg value : Nat}
    (he : s.apply reg value = .ok s') : Laid s' := by
  unfold HState.apply at he
  simp only at he
  by_cases c1 : reg = 0x08
  · rw [if_pos c1] at he; exact h.keyEvent he
  rw [if_neg c1] at he
  by_cases c2 : reg = 0x0F
  · rw [if_pos c2] at he; exact h.updChannel (by intro _; rfl) he
  rw [if_neg c2] at he
  by_cases c3 : reg = 0x18
  · rw [if_pos c3] at he; exact h.updBase he
  rw [if_neg c3] at he
  by_cases c4 : reg = 0x19
  · rw [if_pos c4] at he
    by_cases cv : (value &&& (1 <<< 7)) > 0
    · rw [if_pos cv] at he; exact h.updBase he
    · rw [if_neg cv] at he; exact h.updBase he
  rw [if_neg c4] at he
  by_cases c5 : reg = 0x1B
  · rw [if_pos c5] at he
    cases hw : Waveform.ofNat? (value &&& 0x3) with
    | none => rw [hw] at he; cases he
    | some w => rw [hw] at he; exact h.updBase he
  rw [if_neg c5] at he
  by_cases c6 : reg &&& 0xF8 = 0x20
  · rw [if_pos c6] at he
    cases hn : s.updNote (reg &&& 7) (fun n =>
      { n with right := decide ((value &&& (1 <<< 7)) > 0),
               left := decide ((value &&& (1 <<< 6)) > 0) }) with
    | error e => rw [hn] at he; cases he
    | ok s1 =>
      rw [hn] at he
      exact (h.updNote hn).updChannel (by intro _; rfl) he
  rw [if_neg c6] at he
  by_cases c7 : reg &&& 0xF8 = 0x28
  · rw [if_pos c7] at he; exact h.updNote he
  rw [if_neg c7] at he
  by_cases c8 : reg &&& 0xF8 = 0x30
  · rw [if_pos c8] at he; exact h.updNote he
  rw [if_neg c8] at he
  by_cases c9 : reg &&& 0xF8 = 0x38
  · rw [if_pos c9] at he; exact h.updChannel (by intro _; rfl) he
  rw [if_neg c9] at he
  by_cases c10 : reg &&& 0xE0 = 0x40
  · rw [if_pos c10] at he; exact h.updOperator he
  rw [if_neg c10] at he
  by_cases c11 : reg &&& 0xE0 = 0x60
  · rw [if_pos c11] at he; exact h.updOperator he
  rw [if_neg c11] at he
  by_cases c12 : reg &&& 0xE0 = 0x80
  · rw [if_pos c12] at he; exact h.updOperator he
  rw [if_neg c12] at he
  by_cases c13 : reg &&& 0xE0 = 0xA0
  · rw [if_pos c13] at he; exact h.updOperator he
  rw [if_neg c13] at he
  by_cases c14 : reg &&& 0xE0 = 0xC0
  · rw [if_pos c14] at he; exact h.updOperator he
  rw [if_neg c14] at he
  by_cases c15 : reg &&& 0xE0 = 0xE0
  · rw [if_pos c15] at he; exact h.updOperator he
  rw [if_neg c15] at he
  cases he
  exact h

theorem Laid.beat {s : HState} (h : Laid s) (n : Nat) : Laid (s.beat n) :=
  h.of_eq rfl rfl rfl (fun i c hc => ⟨c, hc, rfl⟩) rfl

/-- What is read of any channel object. -/
theorem Laid.read {s : HState} (h : Laid s) {i : Nat} {c : ChanObj} (hc : s.chans[i]? = some c) :
    ∃ o0 o1 o2 o3, s.ops[4 * i]? = some o0 ∧ s.ops[4 * i + 1]? = some o1 ∧
      s.ops[4 * i + 2]? = some o2 ∧ s.ops[4 * i + 3]? = some o3 ∧
      s.readChannel i = .ok (c.withOps [o0, o1, o2, o3]) := by
  have hi := lt_of_get hc
  have hn := h.no
  have g0 := List.getElem?_eq_getElem (l := s.ops) (i := 4 * i) (by omega)
  have g1 := List.getElem?_eq_getElem (l := s.ops) (i := 4 * i + 1) (by omega)
  have g2 := List.getElem?_eq_getElem (l := s.ops) (i := 4 * i + 2) (by omega)
  have g3 := List.getElem?_eq_getElem (l := s.ops) (i := 4 * i + 3) (by omega)
  refine ⟨_, _, _, _, g0, g1, g2, g3, ?_⟩
  unfold HState.readChannel
  rw [deref_ok hc]
  simp only [h.chans i c hc, deref_ok (h.lists i hi), readAll, deref_ok g0, deref_ok g1,
    deref_ok g2, deref_ok g3]

theorem four_places (j k : Nat) (hk : k < 4) :
    ([4 * j, 4 * j + 1, 4 * j + 2, 4 * j + 3] : List Nat)[k]? = some (4 * j + k) := by
  match k, hk with
  | 0, _ => rfl
  | 1, _ => rfl
  | 2, _ => rfl
  | 3, _ => rfl

/-- After a change of operator object `4 j + k`, channel objects other than `j` read as before. -/
theorem Laid.read_other {s : HState} (h : Laid s) {i j k : Nat} (hk : k < 4)
    (o : OperatorConfig) (hi : i < s.chans.length) (hij : i ≠ j) :
    HState.readChannel { s with ops := s.ops.set (4 * j + k) o } i = s.readChannel i := by
  have hc := List.getElem?_eq_getElem hi
  have h' : Laid { s with ops := s.ops.set (4 * j + k) o } :=
    h.of_eq (by simp) rfl rfl (fun i c hc => ⟨c, hc, rfl⟩) rfl
  obtain ⟨p0, p1, p2, p3, g0, g1, g2, g3, e⟩ := h.read hc
  obtain ⟨q0, q1, q2, q3, f0, f1, f2, f3, e'⟩ := h'.read (i := i) hc
  simp only at f0 f1 f2 f3
  rw [List.getElem?_set_ne (by omega)] at f0 f1 f2 f3
  rw [g0] at f0; rw [g1] at f1; rw [g2] at f2; rw [g3] at f3
  cases f0; cases f1; cases f2; cases f3
  rw [e, e']

/-- .. and channel object `j` has it as its operator `k`. -/
theorem Laid.read_self {s : HState} (h : Laid s) {j k : Nat} (hk : k < 4)
    (f : OperatorConfig → OperatorConfig) (o : OperatorConfig) (ho : s.ops[4 * j + k]? = some o)
    (hj : j < s.chans.length) (v : ChannelConfig) (hv : s.readChannel j = .ok v) :
    HState.readChannel { s with ops := s.ops.set (4 * j + k) (f o) } j =
      .ok { v with operators := v.operators.modify k f } := by
  have hc := List.getElem?_eq_getElem hj
  have h' : Laid { s with ops := s.ops.set (4 * j + k) (f o) } :=
    h.of_eq (by simp) rfl rfl (fun i c hc => ⟨c, hc, rfl⟩) rfl
  obtain ⟨p0, p1, p2, p3, g0, g1, g2, g3, e⟩ := h.read hc
  obtain ⟨q0, q1, q2, q3, f0, f1, f2, f3, e'⟩ := h'.read (i := j) hc
  rw [e] at hv
  cases hv
  rw [e']
  have hset : (s.ops.set (4 * j + k) (f o))[4 * j + k]? = some (f o) := by
    rw [List.getElem?_set_self (lt_of_get ho)]
  simp only at f0 f1 f2 f3
  have h4 : k = 0 ∨ k = 1 ∨ k = 2 ∨ k = 3 := by omega
  rcases h4 with rfl | rfl | rfl | rfl
  · rw [Nat.add_zero] at ho hset f0 f1 f2 f3
    rw [hset] at f0; cases f0
    rw [List.getElem?_set_ne (by omega)] at f1 f2 f3
    rw [g0] at ho; rw [g1] at f1; rw [g2] at f2; rw [g3] at f3
    cases ho; cases f1; cases f2; cases f3
    rfl
  · rw [hset] at f1; cases f1
    rw [List.getElem?_set_ne (by omega)] at f0 f2 f3
    rw [g1] at ho; rw [g0] at f0; rw [g2] at f2; rw [g3] at f3
    cases ho; cases f0; cases f2; cases f3
    rfl
  · rw [hset] at f2; cases f2
    rw [List.getElem?_set_ne (by omega)] at f0 f1 f3
    rw [g2] at ho; rw [g0] at f0; rw [g1] at f1; rw [g3] at f3
    cases ho; cases f0; cases f1; cases f3
    rfl
  · rw [hset] at f3; cases f3
    rw [List.getElem?_set_ne (by omega)] at f0 f1 f2
    rw [g3] at ho; rw [g0] at f0; rw [g1] at f1; rw [g2] at f2
    cases ho; cases f0; cases f1; cases f2
    rfl

theorem readAll_modify {α β : Type} {f g : α → Except PyErr β} {l : List α} {vs : List β}
    {i : Nat} {u : β → β} (h : readAll f l = .ok vs)
    (hne : ∀ j c, l[j]? = some c → j ≠ i → g c = f c)
    (heq : ∀ c v, l[i]? = some c → f c = .ok v → g c = .ok (u v)) :
    readAll g l = .ok (vs.modify i u) := by
  rw [readAll_ok] at *
  apply List.ext_getElem?
  intro j
  have hj := congrArg (fun l => l[j]?) h
  simp only [List.getElem?_map, List.getElem?_modify] at hj ⊢
  cases hl : l[j]? with
  | none =>
    rw [hl] at hj
    cases hv : vs[j]? with
    | none => simp
    | some v => rw [hv] at hj; simp at hj
  | some c =>
    rw [hl] at hj
    cases hv : vs[j]? with
    | none => rw [hv] at hj; simp at hj
    | some v =>
      rw [hv] at hj
      simp only [Option.map_some, Option.some.injEq] at hj
      simp only [Option.map_some, Option.map_eq_map, Option.some.injEq]
      by_cases hij : i = j
      · subst hij
        rw [if_pos rfl]
        exact heq c v hl hj
      · rw [if_neg hij, hne j c hl (fun e => hij e.symm)]
        exact hj

theorem readAll_mem {α β : Type} {f : α → Except PyErr β} {l : List α} {vs : List β}
    (h : readAll f l = .ok vs) {a : α} (ha : a ∈ l) : ∃ v ∈ vs, f a = .ok v := by
  rw [readAll_ok] at h
  have : f a ∈ l.map f := List.mem_map_of_mem ha
  rw [h] at this
  obtain ⟨v, hv, e⟩ := List.mem_map.mp this
  exact ⟨v, hv, e.symm⟩

/-- Editing an operator of an instrument. -/
theorem Rel.updInstrument {s : HState} {t : State} (h : Rel s t) (hl : Laid s) (i k : Nat)
    (hi : i < s.configs.length) (hk : k < 4) (f : OperatorConfig → OperatorConfig) :
    ∃ s', s.updInstrument i k f = .ok s' ∧
      Rel s' { t with configs := t.configs.modify i (fun p =>
        { p with channel := { p.channel with operators := p.channel.operators.modify k f } }) } := by
  obtain ⟨cfg, hcfg⟩ : ∃ c, s.configs[i]? = some c := ⟨_, List.getElem?_eq_getElem hi⟩
  have hmem : cfg ∈ s.configs := List.mem_of_getElem? hcfg
  have hfz := h.frozen cfg hmem
  have hlt := hl.lt cfg hmem
  have h8 := hfz.channel
  obtain ⟨c, hc⟩ : ∃ c, s.chans[cfg.channel]? = some c := ⟨_, List.getElem?_eq_getElem hlt⟩
  obtain ⟨o, ho⟩ : ∃ o, s.ops[4 * cfg.channel + k]? = some o :=
    ⟨_, List.getElem?_eq_getElem (by have := hl.no; omega)⟩
  refine ⟨{ s with ops := s.ops.set (4 * cfg.channel + k) (f o) }, ?_, ?_⟩
  · unfold HState.updInstrument
    simp only [pyIndex_ok hcfg, deref_ok hc, hl.chans _ c hc, deref_ok (hl.lists _ hlt),
      pyIndex_ok (four_places _ k hk), deref_ok ho]
  have h' : Laid { s with ops := s.ops.set (4 * cfg.channel + k) (f o) } :=
    hl.of_eq (by simp) rfl rfl (fun i c hc => ⟨c, hc, rfl⟩) rfl
  refine ⟨h.chanRefs, h.noteRefs, h.pressRefs, h.chans, h.opLists, by simpa using h.nOps, ?_,
    h.vPresses, ?_, h.vNotes, h.vBase, ?_, h.vSamples, h.vBeats, h.vFirst⟩
  · intro d hd
    have hz := h.frozen d hd
    obtain ⟨e, he⟩ : ∃ c, s.chans[d.channel]? = some c :=
      ⟨_, List.getElem?_eq_getElem (hl.lt d hd)⟩
    obtain ⟨o0, o1, o2, o3, g0, g1, g2, g3, _⟩ := h'.read (i := d.channel) he
    refine ⟨hz.base, hz.baseNe, hz.channel, e,
      [4 * d.channel, 4 * d.channel + 1, 4 * d.channel + 2, 4 * d.channel + 3],
      [o0, o1, o2, o3], he, ?_, ?_, ?_⟩
    · rw [hl.chans _ e he]; exact hl.lists _ (hl.lt d hd)
    · have := hz.channel
      intro x hx
      simp only [List.mem_cons, List.not_mem_nil, or_false] at hx
      omega
    · simp only [readAll, deref_ok g0, deref_ok g1, deref_ok g2, deref_ok g3]
  · rw [← h.vChans]
    apply readAll_congr
    intro j hj
    have hj8 : j < 8 := by simpa using hj
    obtain ⟨d, hd, _⟩ := h.chans j hj8
    exact hl.read_other hk _ (lt_of_get hd) (by omega)
  · apply readAll_modify h.vConfigs
    · intro j d hd hj
      have hdm : d ∈ s.configs := List.mem_of_getElem? hd
      have hne : d.channel ≠ cfg.channel := by
        intro e
        apply hj
        have n := hl.nodup
        have a1 : (s.configs.map (·.channel))[j]? = some cfg.channel := by
          rw [List.getElem?_map, hd, Option.map_some, e]
        have a2 : (s.configs.map (·.channel))[i]? = some cfg.channel := by
          rw [List.getElem?_map, hcfg, Option.map_some]
        exact (List.getElem?_inj (lt_of_get a1) n).mp (a1.trans a2.symm)
      unfold HState.readConfig
      simp only
      rw [hl.read_other hk _ (hl.lt d hdm) hne]
    · intro d v hd hv
      rw [hcfg] at hd
      cases hd
      unfold HState.readConfig at hv ⊢
      simp only at hv ⊢
      cases hb : deref s.bases cfg.base with
      | error e => rw [hb] at hv; cases hv
      | ok b =>
        rw [hb] at hv
        simp only at hv
        cases hch : s.readChannel cfg.channel with
        | error e => rw [hch] at hv; cases hv
        | ok v' =>
          rw [hch] at hv
          cases hv
          simp only [hl.read_self hk f o ho hlt v' hch]

theorem readAll_pick {α : Type} {l cs : List α} {ps : List Nat}
    (h : readAll (pyIndex l) ps = .ok cs) : ∀ c ∈ cs, ∃ p ∈ ps, l[p]? = some c := by
  induction ps generalizing cs with
  | nil => cases h; simp
  | cons p ps ih =>
    simp only [readAll, pyIndex] at h
    cases hp : l[p]? with
    | none => rw [hp] at h; cases h
    | some c =>
      rw [hp] at h
      simp only at h
      cases hr : readAll (pyIndex l) ps with
      | error e =>
        rw [hr] at h
        cases h
      | ok cs' =>
        rw [hr] at h
        cases h
        intro d hd
        rcases List.mem_cons.mp hd with rfl | hd
        · exact ⟨p, by simp, hp⟩
        · obtain ⟨q, hq, e⟩ := ih hr d hd
          exact ⟨q, by simp [hq], e⟩

theorem readAll_pick_nodup {α β : Type} {l cs : List α} {ps : List Nat} (key : α → β)
    (h : readAll (pyIndex l) ps = .ok cs) (hps : ps.Nodup) (hl : (l.map key).Nodup) :
    (cs.map key).Nodup := by
  induction ps generalizing cs with
  | nil => cases h; simp
  | cons p ps ih =>
    rw [List.nodup_cons] at hps
    simp only [readAll] at h
    cases hp : pyIndex l p with
    | error e => rw [hp] at h; cases h
    | ok c =>
      rw [hp] at h
      simp only at h
      cases hr : readAll (pyIndex l) ps with
      | error e => rw [hr] at h; cases h
      | ok cs' =>
        rw [hr] at h
        cases h
        rw [List.map_cons, List.nodup_cons]
        refine ⟨?_, ih hr hps.2⟩
        intro hm
        obtain ⟨d, hd, e⟩ := List.mem_map.mp hm
        obtain ⟨q, hq, eq⟩ := readAll_pick hr d hd
        have hp' : l[p]? = some c := by
          unfold pyIndex at hp
          cases h' : l[p]? with
          | none => rw [h'] at hp; cases hp
          | some c' => rw [h'] at hp; cases hp; rfl
        have a1 : (l.map key)[p]? = some (key c) := by rw [List.getElem?_map, hp', Option.map_some]
        have a2 : (l.map key)[q]? = some (key c) := by
          rw [List.getElem?_map, eq, Option.map_some, e]
        have := (List.getElem?_inj (lt_of_get a1) hl).mp (a1.trans a2.symm)
        subst this
        exact hps.1 hq

/-- Choosing by positions, on references and on values. -/
theorem readAll_choose {α β : Type} {f : α → Except PyErr β} {l : List α} {vs : List β}
    (h : readAll f l = .ok vs) (ps : List Nat) (hp : ∀ p ∈ ps, p < l.length) :
    ∃ cs, readAll (pyIndex l) ps = .ok cs ∧
      readAll f cs = .ok (ps.filterMap (fun i => vs[i]?)) := by
  have hm := (readAll_ok _ _ _).mp h
  induction ps with
  | nil => exact ⟨[], rfl, rfl⟩
  | cons p ps ih =>
    obtain ⟨cs, h1, h2⟩ := ih (fun q hq => hp q (by simp [hq]))
    have hlt := hp p (by simp)
    have e1 : l[p]? = some l[p] := List.getElem?_eq_getElem hlt
    have hg := congrArg (fun l => l[p]?) hm
    simp only [List.getElem?_map, e1, Option.map_some] at hg
    cases hv : vs[p]? with
    | none => rw [hv] at hg; cases hg
    | some v =>
      rw [hv] at hg
      simp only [Option.map_some, Option.some.injEq] at hg
      refine ⟨l[p] :: cs, ?_, ?_⟩
      · simp only [readAll, pyIndex_ok e1, h1]
      · simp only [readAll, hg, h2, List.filterMap_cons, hv]

theorem readAll_choose_error {α : Type} {l : List α} (ps : List Nat)
    (hp : ¬ ∀ p ∈ ps, p < l.length) : readAll (pyIndex l) ps = .error .index := by
  induction ps with
  | nil => exact absurd (by simp) hp
  | cons p ps ih =>
    simp only [readAll]
    by_cases hlt : p < l.length
    · rw [pyIndex_ok (List.getElem?_eq_getElem hlt)]
      simp only
      rw [ih (fun h => hp (fun q hq => by
        rcases List.mem_cons.mp hq with rfl | hq
        · exact hlt
        · exact h q hq))]
    · have : l[p]? = none := List.getElem?_eq_none (by omega)
      unfold pyIndex
      rw [this]

theorem rel_length {s : HState} {t : State} (h : Rel s t) : t.configs.length = s.configs.length := by
  have := (readAll_ok _ _ _).mp h.vConfigs
  simpa using (congrArg List.length this).symm

theorem pyIndex_range {i : Nat} (h : ¬ i < 8) : pyIndex (List.range 8) i = .error .index := by
  unfold pyIndex
  rw [List.getElem?_eq_none (by simpa using h)]

theorem assign_chan (a : ChanAssign) (c : ChanObj) (os : List OperatorConfig) :
    (a.onObj c).withOps os = assignChannel (c.withOps os) a := by cases a <;> rfl

theorem assign_chan_ops (a : ChanAssign) (c : ChanObj) : (a.onObj c).operators = c.operators := by
  cases a <;> rfl

theorem assign_op (a : OpAssign) : (fun o => a.onObj o) = fun o => assignOperator o a := by
  funext o; cases a <;> rfl

/-- Every edit, at reference level and on values. -/
theorem Rel.edit {s : HState} {t : State} (h : Rel s t) (hl : Laid s) (e : Edit)
    (hk : ∀ ps, e = .keep ps → ps.Nodup) :
    match edited t e with
    | some t' => ∃ s', s.edit e = .ok s' ∧ Rel s' t' ∧ Laid s'
    | none => s.edit e = .error .index := by
  cases e with
  | channel ch a =>
    simp only [edited, HState.edit]
    by_cases hc : ch < 8
    · rw [if_pos hc]
      obtain ⟨s', e, r⟩ := h.updChannel ch hc (fun c => a.onObj c) (fun c => assignChannel c a)
        (assign_chan_ops a) (assign_chan a)
      exact ⟨s', e, r, hl.updChannel (assign_chan_ops a) e⟩
    · rw [if_neg hc]
      show HState.updChannel s ch _ = _
      unfold HState.updChannel
      rw [h.chanRefs, pyIndex_range hc]
  | operator ch k a =>
    simp only [edited, HState.edit]
    by_cases hc : ch < 8
    · by_cases hk4 : k < 4
      · rw [if_pos ⟨hc, hk4⟩]
        obtain ⟨s', e, r⟩ := h.updOperator ch k hc hk4 (fun o => a.onObj o)
        refine ⟨s', e, ?_, hl.updOperator e⟩
        rw [assign_op] at r
        exact r
      · rw [if_neg (fun h => hk4 h.2)]
        obtain ⟨c, hcc, hco⟩ := h.chans ch hc
        show HState.updOperator s ch k _ = _
        unfold HState.updOperator
        have : ([4 * ch, 4 * ch + 1, 4 * ch + 2, 4 * ch + 3] : List Nat)[k]? = none :=
          List.getElem?_eq_none (by simpa using hk4)
        have hi : pyIndex ([4 * ch, 4 * ch + 1, 4 * ch + 2, 4 * ch + 3] : List Nat) k
            = .error .index := by unfold pyIndex; rw [this]
        rw [h.chanRefs, pyIndex_ok (List.getElem?_range hc)]
        simp only [deref_ok hcc, hco, deref_ok (h.opLists ch hc), hi]
    · rw [if_neg (fun h => hc h.1)]
      show HState.updOperator s ch k _ = _
      unfold HState.updOperator
      rw [h.chanRefs, pyIndex_range hc]
  | instrument i k a =>
    simp only [edited, HState.edit]
    rw [rel_length h]
    by_cases hc : i < s.configs.length
    · by_cases hk4 : k < 4
      · rw [if_pos ⟨hc, hk4⟩]
        obtain ⟨s', e, r⟩ := h.updInstrument hl i k hc hk4 (fun o => a.onObj o)
        refine ⟨s', e, ?_, hl.updInstrument e⟩
        rw [assign_op] at r
        exact r
      · rw [if_neg (fun h => hk4 h.2)]
        obtain ⟨cfg, hcfg⟩ : ∃ c, s.configs[i]? = some c := ⟨_, List.getElem?_eq_getElem hc⟩
        have hlt := hl.lt cfg (List.mem_of_getElem? hcfg)
        obtain ⟨c, hcc⟩ : ∃ c, s.chans[cfg.channel]? = some c := ⟨_, List.getElem?_eq_getElem hlt⟩
        show HState.updInstrument s i k _ = _
        unfold HState.updInstrument
        have hi : pyIndex ([4 * cfg.channel, 4 * cfg.channel + 1, 4 * cfg.channel + 2,
            4 * cfg.channel + 3] : List Nat) k = .error .index := by
          unfold pyIndex; rw [List.getElem?_eq_none (by simpa using hk4)]
        simp only [pyIndex_ok hcfg, deref_ok hcc, hl.chans _ c hcc, deref_ok (hl.lists _ hlt), hi]
    · rw [if_neg (fun h => hc h.1)]
      show HState.updInstrument s i k _ = _
      unfold HState.updInstrument
      have hi : pyIndex s.configs i = .error .index := by
        unfold pyIndex; rw [List.getElem?_eq_none (by omega)]
      rw [hi]
  | notes ch l =>
    simp only [edited, HState.edit]
    by_cases hc : ch < 8
    · have hx : pyIndex s.pressRefs ch = .ok ch := by
        rw [h.pressRefs]; exact pyIndex_ok (List.getElem?_range hc)
      rw [if_pos hc, hx]
      refine ⟨_, rfl, ?_, hl.of_eq rfl rfl rfl (fun i c hc => ⟨c, hc, rfl⟩) rfl⟩
      obtain ⟨p, hp, hd⟩ := readAll_range_get h.vPresses hc
      have hlt := lt_of_get (deref_ok_iff.mp hd)
      refine ⟨h.chanRefs, h.noteRefs, h.pressRefs, h.chans, h.opLists, h.nOps,
        fun c hc => ⟨(h.frozen c hc).1, (h.frozen c hc).2, (h.frozen c hc).3, (h.frozen c hc).4⟩,
        ?_, h.vChans, h.vNotes, h.vBase, h.vConfigs, h.vSamples, h.vBeats, h.vFirst⟩
      have e : t.keyPresses.set ch l = t.keyPresses.modify ch (fun _ => l) := by
        apply List.ext_getElem?
        intro j
        rw [List.getElem?_set, List.getElem?_modify]
        by_cases hj : ch = j
        · subst hj
          have := lt_of_get hp
          simp [this]
        · simp [hj]
      show readAll (deref (s.presses.set ch l)) (List.range 8) = .ok (t.keyPresses.set ch l)
      rw [e]
      apply readAll_range_modify h.vPresses
      · intro i _ hi
        unfold deref
        rw [List.getElem?_set_ne (Ne.symm hi)]
      · intro b _
        rw [deref_ok_iff]
        simp [hlt]
    · rw [if_neg hc, h.pressRefs, pyIndex_range hc]
  | keep ps =>
    simp only [edited, HState.edit]
    rw [rel_length h]
    by_cases hp : ∀ i ∈ ps, i < s.configs.length
    · rw [if_pos hp]
      obtain ⟨cs, h1, h2⟩ := readAll_choose h.vConfigs ps hp
      have hsub : ∀ c ∈ cs, c ∈ s.configs := by
        intro c hc
        obtain ⟨p, _, e⟩ := readAll_pick h1 c hc
        exact List.mem_of_getElem? e
      rw [h1]
      refine ⟨_, rfl, ?_, ?_⟩
      · exact ⟨h.chanRefs, h.noteRefs, h.pressRefs, h.chans, h.opLists, h.nOps,
          fun c hc => ⟨(h.frozen c (hsub c hc)).1, (h.frozen c (hsub c hc)).2,
            (h.frozen c (hsub c hc)).3, (h.frozen c (hsub c hc)).4⟩,
          h.vPresses, h.vChans, h.vNotes, h.vBase, h2, h.vSamples, h.vBeats, h.vFirst⟩
      · exact ⟨hl.nl, hl.no, hl.chans, hl.lists, fun c hc => hl.lt c (hsub c hc),
          readAll_pick_nodup _ h1 (hk ps rfl) hl.nodup⟩
    · rw [if_neg hp, readAll_choose_error ps hp]

end VgmX
