import Verif.Lemmas.Heap
import Verif.Props.State
/-
Property C18: recorded instruments never change, channels and operators do not share
state, and `apply` never raises. About the reference-level model, Model/Heap.
-/

namespace VgmX
open Spec

/-- One API call on the reference-level state. -/
def HState.step (s : HState) : Event → Except PyErr HState
  | .write r v => s.apply r v
  | .wait n => .ok (s.beat n)

/-- A history of API calls from some state; stops at the first exception. -/
def HState.steps (s : HState) : List Event → Except PyErr HState
  | [] => .ok s
  | e :: es =>
    match s.step e with
    | .error e => .error e
    | .ok s' => s'.steps es

/-- A history of API calls from a fresh `State()`. -/
def hrun (h : List Event) : Except PyErr HState := HState.init.steps h

theorem Rel.steps {s : HState} {t : State} (h : Rel s t) (es : List Event) :
    ∃ s', s.steps es = .ok s' ∧ Rel s' (es.foldl State.step t) := by
  induction es generalizing s t with
  | nil => exact ⟨s, rfl, h⟩
  | cons e es ih =>
    have : ∃ s1, s.step e = .ok s1 ∧ Rel s1 (t.step e) := by
      cases e with
      | write r v => exact h.apply r v
      | wait n => exact ⟨s.beat n, rfl, h.beat n⟩
    obtain ⟨s1, h1, r1⟩ := this
    obtain ⟨s2, h2, r2⟩ := ih r1
    refine ⟨s2, ?_, r2⟩
    simp only [HState.steps, h1]
    exact h2

theorem hrun_rel (h : List Event) : ∃ s, hrun h = .ok s ∧ Rel s (run h) := Rel.init.steps h

/-- C18. No history makes `apply` raise, and what can be read through the references is
exactly the value-level state: all theorems about `run` hold of the reference-level model. -/
theorem c18_refines (h : List Event) : ∃ s, hrun h = .ok s ∧ s.view = .ok (run h) := by
  obtain ⟨s, h1, h2⟩ := hrun_rel h
  exact ⟨s, h1, h2.view⟩

theorem steps_append (s : HState) (a b : List Event) :
    s.steps (a ++ b) = match s.steps a with
      | .ok s' => s'.steps b
      | .error e => .error e := by
  induction a generalizing s with
  | nil => rfl
  | cons e a ih =>
    simp only [List.cons_append, HState.steps]
    cases s.step e with
    | error e => rfl
    | ok s' => exact ih s'

/-! The instrument objects are the same objects for ever. -/

theorem updChannel_configs {s s' : HState} {ch f} (h : s.updChannel ch f = .ok s') :
    s'.configs = s.configs := by
  unfold HState.updChannel at h
  repeat' split at h
  all_goals cases h
  rfl

theorem updOperator_configs {s s' : HState} {ch op f} (h : s.updOperator ch op f = .ok s') :
    s'.configs = s.configs := by
  unfold HState.updOperator at h
  repeat' split at h
  all_goals cases h
  rfl

theorem updNote_configs {s s' : HState} {ch f} (h : s.updNote ch f = .ok s') :
    s'.configs = s.configs := by
  unfold HState.updNote at h
  repeat' split at h
  all_goals cases h
  rfl

theorem updBase_configs {s s' : HState} {f} (h : s.updBase f = .ok s') :
    s'.configs = s.configs := by
  unfold HState.updBase at h
  repeat' split at h
  all_goals cases h
  rfl

theorem addNote_configs {s s' : HState} {ch id} (h : s.addNote ch id = .ok s') :
    s'.configs = s.configs := by
  unfold HState.addNote at h
  repeat' split at h
  all_goals cases h
  rfl

theorem copyBase_configs {s s' : HState} {r b} (h : s.copyBase r = .ok (s', b)) :
    s'.configs = s.configs := by
  unfold HState.copyBase at h
  repeat' split at h
  all_goals cases h
  rfl

theorem copyChannel_configs {s s' : HState} {r b} (h : s.copyChannel r = .ok (s', b)) :
    s'.configs = s.configs := by
  unfold HState.copyChannel at h
  repeat' split at h
  all_goals cases h
  rfl

theorem record_configs {s s' : HState} {ch op found id} (h : s.record ch op found = .ok (s', id)) :
    s.configs <+: s'.configs := by
  unfold HState.record at h
  by_cases h1 : s.configs.length = found
  · rw [if_pos h1] at h
    by_cases h2 : op ≠ 0
    · rw [if_pos h2] at h
      cases e1 : s.copyBase s.baseRef with
      | error e => rw [e1] at h; cases h
      | ok p =>
        obtain ⟨s1, b1⟩ := p
        rw [e1] at h
        simp only at h
        cases e2 : pyIndex s1.chanRefs ch with
        | error e => rw [e2] at h; cases h
        | ok r =>
          rw [e2] at h
          simp only at h
          cases e3 : s1.copyChannel r with
          | error e => rw [e3] at h; cases h
          | ok p =>
            obtain ⟨s2, c2⟩ := p
            rw [e3] at h
            simp only at h
            split at h
            · cases h
            · rename_i s3 b3 e4
              cases h
              show s.configs <+: s3.configs
              rw [copyBase_configs e4, copyChannel_configs e3, copyBase_configs e1]
              exact List.prefix_append _ _
    · rw [if_neg h2] at h
      cases h
      exact List.prefix_rfl
  · rw [if_neg h1] at h
    cases h
    exact List.prefix_rfl

theorem keyEvent_configs {s s' : HState} {v} (h : s.keyEvent v = .ok s') :
    s.configs <+: s'.configs := by
  unfold HState.keyEvent at h
  simp only at h
  split at h
  · cases h
  split at h
  · cases h
  split at h
  · cases h
  rename_i s1 id hrec
  have hp := record_configs hrec
  have hx : (if (v >>> 3 &&& 15 != 0 && !truthy s1.firstBeat) = true then
      { s1 with firstBeat := some s1.samples } else s1 : HState).configs = s1.configs := by
    split <;> rfl
  generalize (if (v >>> 3 &&& 15 != 0 && !truthy s1.firstBeat) = true then
      { s1 with firstBeat := some s1.samples } else s1 : HState) = sx at h hx
  split at h
  · cases h
  rename_i s2 he
  have h2 : s2.configs = s1.configs := by
    rw [← hx]
    by_cases ht : truthy sx.firstBeat
    · rw [if_pos ht] at he
      exact addNote_configs he
    · rw [if_neg ht] at he
      cases he
      rfl
  cases h
  rw [← h2] at hp
  split <;> exact hp

theorem apply_configs {s s' : HState} {r v} (h : s.apply r v = .ok s') :
    s.configs <+: s'.configs := by
  have key : ∀ {l : List HConfig}, l = s.configs → s.configs <+: l := by
    rintro l rfl; exact List.prefix_rfl
  let P : Except PyErr HState → Prop := fun x => ∀ s', x = .ok s' → s.configs <+: s'.configs
  have hP : P (s.apply r v) := by
    unfold HState.apply
    simp only
    refine iteInduction (motive := P) (fun _ s' h => keyEvent_configs h) (fun _ => ?_)
    refine iteInduction (motive := P) (fun _ s' h => key (updChannel_configs h)) (fun _ => ?_)
    refine iteInduction (motive := P) (fun _ s' h => key (updBase_configs h)) (fun _ => ?_)
    refine iteInduction (motive := P) (fun _ => iteInduction (motive := P)
      (fun _ s' h => key (updBase_configs h)) (fun _ s' h => key (updBase_configs h))) (fun _ => ?_)
    refine iteInduction (motive := P) (fun _ s' h => ?_) (fun _ => ?_)
    · split at h
      · cases h
      · exact key (updBase_configs h)
    refine iteInduction (motive := P) (fun _ s' h => ?_) (fun _ => ?_)
    · split at h
      · cases h
      · rename_i s1 e1
        rw [← updNote_configs e1, updChannel_configs h]
        exact List.prefix_rfl
    refine iteInduction (motive := P) (fun _ s' h => key (updNote_configs h)) (fun _ => ?_)
    refine iteInduction (motive := P) (fun _ s' h => key (updNote_configs h)) (fun _ => ?_)
    refine iteInduction (motive := P) (fun _ s' h => key (updChannel_configs h)) (fun _ => ?_)
    refine iteInduction (motive := P) (fun _ s' h => key (updOperator_configs h)) (fun _ => ?_)
    refine iteInduction (motive := P) (fun _ s' h => key (updOperator_configs h)) (fun _ => ?_)
    refine iteInduction (motive := P) (fun _ s' h => key (updOperator_configs h)) (fun _ => ?_)
    refine iteInduction (motive := P) (fun _ s' h => key (updOperator_configs h)) (fun _ => ?_)
    refine iteInduction (motive := P) (fun _ s' h => key (updOperator_configs h)) (fun _ => ?_)
    refine iteInduction (motive := P) (fun _ s' h => key (updOperator_configs h)) (fun _ => ?_)
    intro s' h
    cases h
    exact List.prefix_rfl
  exact hP s' h

theorem steps_configs {s s' : HState} {es : List Event} (h : s.steps es = .ok s') :
    s.configs <+: s'.configs := by
  induction es generalizing s with
  | nil => cases h; exact List.prefix_rfl
  | cons e es ih =>
    simp only [HState.steps] at h
    cases he : s.step e with
    | error x => rw [he] at h; cases h
    | ok s1 =>
      rw [he] at h
      have h1 : s.configs <+: s1.configs := by
        cases e with
        | write r v => exact apply_configs he
        | wait n => cases he; exact List.prefix_rfl
      exact h1.trans (ih h)

theorem step_value_configs (t : State) (e : Event) : t.configs <+: (t.step e).configs := by
  cases e with
  | wait n => exact List.prefix_rfl
  | write r v =>
    have : (t.apply r v).configs = t.configs ∨ ∃ c, (t.apply r v).configs = t.configs ++ [c] := by
      by_cases h8 : r = 8
      · subst h8
        simp only [State.apply, if_true, State.keyEvent]
        split
        · exact .inr ⟨_, rfl⟩
        · exact .inl rfl
      · left
        simp only [State.apply, apply_ite State.configs, State.updOperator, State.updNote,
          State.updChannel, ite_self, if_neg h8]
    rcases this with h | ⟨c, h⟩ <;> simp only [State.step, h]
    · exact List.prefix_rfl
    · exact List.prefix_append _ _

theorem steps_value_configs (t : State) (es : List Event) :
    t.configs <+: (es.foldl State.step t).configs := by
  induction es generalizing t with
  | nil => exact List.prefix_rfl
  | cons e es ih => exact (step_value_configs t e).trans (ih _)

theorem rel_config {s : HState} {t : State} (h : Rel s t) (i : Nat) (c : HConfig)
    (hc : s.configs[i]? = some c) : ∃ v, s.readConfig c = .ok v ∧ t.configs[i]? = some v := by
  have hm := (readAll_ok _ _ _).mp h.vConfigs
  have := congrArg (fun l => l[i]?) hm
  simp only [List.getElem?_map, hc, Option.map_some] at this
  cases ht : t.configs[i]? with
  | none => rw [ht] at this; simp at this
  | some v =>
    rw [ht] at this
    simp only [Option.map_some, Option.some.injEq] at this
    exact ⟨v, this, rfl⟩

/-- C18. An instrument object recorded after history `h` stays in the list at its place, and
reading it through its references after any further history gives the same settings. -/
theorem c18_immutable (h t : List Event) (s s' : HState) (hs : hrun h = .ok s)
    (hs' : hrun (h ++ t) = .ok s') (i : Nat) (c : HConfig) (hc : s.configs[i]? = some c) :
    s'.configs[i]? = some c ∧ ∃ v, s.readConfig c = .ok v ∧ s'.readConfig c = .ok v := by
  obtain ⟨s1, e1, r1⟩ := hrun_rel h
  rw [hs] at e1
  cases e1
  obtain ⟨s2, e2, r2⟩ := hrun_rel (h ++ t)
  rw [hs'] at e2
  cases e2
  have hst : s.steps t = .ok s' := by
    have := steps_append HState.init h t
    unfold hrun at hs hs'
    rw [hs, hs'] at this
    exact this.symm
  have hc' : s'.configs[i]? = some c := by
    obtain ⟨l, hl⟩ := steps_configs hst
    rw [← hl, List.getElem?_append_left (lt_of_get hc)]
    exact hc
  refine ⟨hc', ?_⟩
  obtain ⟨v, hv, htv⟩ := rel_config r1 i c hc
  obtain ⟨v', hv', htv'⟩ := rel_config r2 i c hc'
  have : (run (h ++ t)).configs[i]? = some v := by
    unfold run
    rw [List.foldl_append]
    obtain ⟨l, hl⟩ := steps_value_configs (run h) t
    have hrun : run h = h.foldl State.step State.init := rfl
    rw [hrun] at hl htv
    rw [← hl, List.getElem?_append_left (lt_of_get htv)]
    exact htv
  rw [this] at htv'
  cases htv'
  exact ⟨v, hv, hv'⟩

/-- A history with an instrument, after which every register of its channel changes. -/
def freezeSample : List Event :=
  [.wait 1, .write 0x20 0xC1, .write 0x40 5, .write 0x19 0x85, .write 8 0x78]

example : ∃ s c v, hrun freezeSample = .ok s ∧ s.configs[0]? = some c ∧ s.readConfig c = .ok v ∧
    v.channel.connection = 1 ∧ v.base.phsMd = 5 := by
  obtain ⟨s, h1, h2⟩ := hrun_rel freezeSample
  have hl : s.configs.length = 1 := by
    have := congrArg List.length ((readAll_ok _ _ _).mp h2.vConfigs)
    have hr : (run freezeSample).configs.length = 1 := by decide +kernel
    simpa [hr] using this
  obtain ⟨v, hv, ht⟩ := rel_config h2 0 _ (List.getElem?_eq_getElem (by omega))
  refine ⟨s, _, v, h1, List.getElem?_eq_getElem (by omega), hv, ?_⟩
  have : ∀ v, (run freezeSample).configs[0]? = some v → v.channel.connection = 1 ∧ v.base.phsMd = 5 := by
    intro v hv
    have e : (run freezeSample).configs[0]? = some
        ⟨0, { phsMd := 5 }, 15, { operators := [{ multiply := 5 }, {}, {}, {}], connection := 1 }⟩ := by
      decide +kernel
    rw [e] at hv
    cases hv
    exact ⟨rfl, rfl⟩
  exact this v ht

theorem getD_modify_ne {α : Type} (l : List α) (i j : Nat) (f : α → α) (d : α) (h : i ≠ j) :
    (l.modify i f).getD j d = l.getD j d := by
  simp only [List.getD_eq_getElem?_getD, List.getElem?_modify, if_neg h]
  cases l[j]? <;> rfl

/-- C18. Channels do not share state: a register write changes what is read of at most one
channel, the one its address denotes (channel 7 for the noise register 0x0F). -/
theorem c18_channels_separate (h : List Event) (s s' : HState) (r v : Nat) (hs : hrun h = .ok s)
    (hs' : s.apply r v = .ok s') (b : Nat) (hb : b < 8) (hne : b ≠ r % 8) :
    s'.readChannel b = s.readChannel b := by
  obtain ⟨s1, e1, r1⟩ := hrun_rel h
  rw [hs] at e1
  cases e1
  obtain ⟨s2, e2, r2⟩ := r1.apply r v
  rw [hs'] at e2
  cases e2
  have h7 : r &&& 0x07 = r % 8 := Nat.and_two_pow_sub_one_eq_mod r 3
  have hval : ((run h).apply r v).channelConfigs.getD b {} = (run h).channelConfigs.getD b {} := by
    have h15 : r = 15 → 7 ≠ b := by intro h; omega
    simp only [State.apply, apply_ite State.channelConfigs, State.keyEvent,
      State.updOperator, State.updNote, State.updChannel, ite_self, h7]
    by_cases c2 : r = 0x0F
    · subst c2
      exact getD_modify_ne _ _ _ _ _ (h15 rfl)
    · simp only [if_neg c2]
      have := fun f => getD_modify_ne (run h).channelConfigs (r % 8) b f {} (Ne.symm hne)
      let P : List ChannelConfig → Prop := fun l => l.getD b {} = (run h).channelConfigs.getD b {}
      show P _
      repeat' refine iteInduction (motive := P) (fun _ => ?_) (fun _ => ?_)
      all_goals first | exact rfl | exact this _
  obtain ⟨d, hd, hl⟩ := readAll_range_get r1.vChans hb
  obtain ⟨d', hd', hl'⟩ := readAll_range_get r2.vChans hb
  rw [hl, hl']
  simp only [List.getD_eq_getElem?_getD, hd, hd', Option.getD_some] at hval
  rw [hval]

/-- C18. Operators do not share state: a register write leaves all operators but one of its
channel alone. -/
theorem c18_operators_separate (h : List Event) (s s' : HState) (r v : Nat) (hs : hrun h = .ok s)
    (hs' : s.apply r v = .ok s') (b k : Nat) (hb : b < 8) (hk : k ≠ r / 8 % 4) :
    ∃ c c', s.readChannel b = .ok c ∧ s'.readChannel b = .ok c' ∧
      c'.operators[k]? = c.operators[k]? := by
  obtain ⟨s1, e1, r1⟩ := hrun_rel h
  rw [hs] at e1
  cases e1
  obtain ⟨s2, e2, r2⟩ := r1.apply r v
  rw [hs'] at e2
  cases e2
  have h3 : (r >>> 3) &&& 0x03 = r / 8 % 4 := by
    rw [Nat.and_two_pow_sub_one_eq_mod _ 2, Nat.shiftRight_eq_div_pow]
  have hm : ∀ (l : List ChannelConfig) (i : Nat) (f : ChannelConfig → ChannelConfig),
      (∀ c, (f c).operators[k]? = c.operators[k]?) →
      ((l.modify i f).getD b {}).operators[k]? = ((l.getD b {}).operators)[k]? := by
    intro l i f hf
    simp only [List.getD_eq_getElem?_getD, List.getElem?_modify]
    cases l[b]? with
    | none => rfl
    | some c =>
      by_cases hi : i = b
      · simp [hi, hf]
      · simp [hi]
  have hmo : ∀ (f : OperatorConfig → OperatorConfig) (l : List OperatorConfig),
      (l.modify (r / 8 % 4) f)[k]? = l[k]? := by
    intro f l
    rw [List.getElem?_modify]
    simp only [if_neg (Ne.symm hk)]
    cases l[k]? <;> rfl
  have hval : (((run h).apply r v).channelConfigs.getD b {}).operators[k]? =
      ((run h).channelConfigs.getD b {}).operators[k]? := by
    simp only [State.apply, apply_ite State.channelConfigs, State.keyEvent,
      State.updOperator, State.updNote, State.updChannel, ite_self, h3]
    let P : List ChannelConfig → Prop := fun l =>
      (l.getD b {}).operators[k]? = ((run h).channelConfigs.getD b {}).operators[k]?
    show P _
    repeat' refine iteInduction (motive := P) (fun _ => ?_) (fun _ => ?_)
    all_goals first | exact rfl | exact hm _ _ _ (fun _ => rfl) | exact hm _ _ _ (fun _ => hmo _ _)
  obtain ⟨d, hd, hl⟩ := readAll_range_get r1.vChans hb
  obtain ⟨d', hd', hl'⟩ := readAll_range_get r2.vChans hb
  refine ⟨d, d', hl, hl', ?_⟩
  simp only [List.getD_eq_getElem?_getD, hd, hd', Option.getD_some] at hval
  exact hval

example : ∃ s s', hrun freezeSample = .ok s ∧ s.apply 0x61 9 = .ok s' ∧
    s'.readChannel 1 ≠ s.readChannel 1 := by
  refine ⟨(hrun freezeSample).toOption.getD HState.init,
    (((hrun freezeSample).toOption.getD HState.init).apply 0x61 9).toOption.getD HState.init, ?_, ?_, ?_⟩
  · decide +kernel
  · decide +kernel
  · decide +kernel

end VgmX
