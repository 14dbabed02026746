import Verif.Model.Live
import Verif.Props.Multi
import Verif.Props.Attr
/-
C75: what `key_presses` and `channel_config` return stays connected to the state.
-/

namespace VgmX
open Spec

/-- The references held by a state object for its lists and configurations. -/
def HState.refs (s : HState) : List Nat × List Nat × List Nat := (s.pressRefs, s.chanRefs, s.noteRefs)

theorem updBase_refs {s s' : HState} {f : BaseConfig → BaseConfig} (h : s.updBase f = .ok s') :
    s'.refs = s.refs := by
  unfold HState.updBase at h
  cases h1 : deref s.bases s.baseRef <;> simp [h1] at h
  subst h; rfl

theorem updNote_refs {s s' : HState} {ch : Nat} {f : NoteConfig → NoteConfig}
    (h : s.updNote ch f = .ok s') : s'.refs = s.refs := by
  unfold HState.updNote at h
  cases h1 : pyIndex s.noteRefs ch with
  | error e => simp [h1] at h
  | ok r =>
    cases h2 : deref s.notes r <;> simp [h1, h2] at h
    subst h; rfl

theorem updChannel_refs {s s' : HState} {ch : Nat} {f : ChanObj → ChanObj}
    (h : s.updChannel ch f = .ok s') : s'.refs = s.refs := by
  unfold HState.updChannel at h
  cases h1 : pyIndex s.chanRefs ch with
  | error e => simp [h1] at h
  | ok r =>
    cases h2 : deref s.chans r <;> simp [h1, h2] at h
    subst h; rfl

theorem updOperator_refs {s s' : HState} {ch op : Nat} {f : OperatorConfig → OperatorConfig}
    (h : s.updOperator ch op f = .ok s') : s'.refs = s.refs := by
  unfold HState.updOperator at h
  cases h1 : pyIndex s.chanRefs ch with
  | error e => simp [h1] at h
  | ok r =>
  cases h2 : deref s.chans r with
  | error e => simp [h1, h2] at h
  | ok c =>
  cases h3 : deref s.opLists c.operators with
  | error e => simp [h1, h2, h3] at h
  | ok l =>
  cases h4 : pyIndex l op with
  | error e => simp [h1, h2, h3, h4] at h
  | ok k =>
  cases h5 : deref s.ops k <;> simp [h1, h2, h3, h4, h5] at h
  subst h; rfl

theorem addNote_refs {s s' : HState} {ch : Nat} {id : Int} (h : s.addNote ch id = .ok s') :
    s'.refs = s.refs := by
  unfold HState.addNote at h
  cases h1 : pyIndex s.noteRefs ch with
  | error e => simp [h1] at h
  | ok r =>
  cases h2 : deref s.notes r with
  | error e => simp [h1, h2] at h
  | ok c =>
  cases h3 : pyIndex s.pressRefs ch with
  | error e => simp [h1, h2, h3] at h
  | ok l =>
  cases h4 : deref s.presses l <;> simp [h1, h2, h3, h4] at h
  subst h; rfl

theorem copyBase_refs {s s' : HState} {r n : Nat} (h : s.copyBase r = .ok (s', n)) :
    s'.refs = s.refs := by
  unfold HState.copyBase at h
  cases h1 : deref s.bases r <;> simp [h1] at h
  rw [← h.1]; rfl

theorem copyChannel_refs {s s' : HState} {r n : Nat} (h : s.copyChannel r = .ok (s', n)) :
    s'.refs = s.refs := by
  unfold HState.copyChannel at h
  cases h1 : deref s.chans r with
  | error e => simp [h1] at h
  | ok c =>
  cases h2 : deref s.opLists c.operators with
  | error e => simp [h1, h2] at h
  | ok l =>
  cases h3 : copyOps l s.ops [] <;> simp [h1, h2, h3] at h
  rw [← h.1]; rfl

theorem record_refs {s s' : HState} {ch op found : Nat} {id : Int}
    (h : s.record ch op found = .ok (s', id)) : s'.refs = s.refs := by
  unfold HState.record at h
  by_cases c1 : s.configs.length = found
  · rw [if_pos c1] at h
    by_cases c2 : op ≠ 0
    · rw [if_pos c2] at h
      cases h1 : s.copyBase s.baseRef with
      | error e => simp [h1] at h
      | ok p =>
      obtain ⟨s1, b⟩ := p
      cases h2 : pyIndex s1.chanRefs ch with
      | error e => simp [h1, h2] at h
      | ok r =>
      cases h3 : s1.copyChannel r with
      | error e => simp [h1, h2, h3] at h
      | ok p =>
      obtain ⟨s2, c⟩ := p
      simp only [h1, h2, h3] at h
      cases h4 : HState.copyBase { s2 with configs := s2.configs ++ [HConfig.mk found b op c] }
          s2.baseRef with
      | error e => simp [h4] at h
      | ok p =>
      obtain ⟨s3, b'⟩ := p
      simp only [h4, Except.ok.injEq, Prod.mk.injEq] at h
      rw [← h.1]
      show s3.refs = s.refs
      rw [copyBase_refs h4, ← copyBase_refs h1, ← copyChannel_refs h3]
      rfl
    · rw [if_neg c2] at h
      simp only [Except.ok.injEq, Prod.mk.injEq] at h
      rw [h.1]
  · rw [if_neg c1] at h
    simp only [Except.ok.injEq, Prod.mk.injEq] at h
    rw [h.1]

theorem keyEvent_refs {s s' : HState} {v : Nat} (h : s.keyEvent v = .ok s') : s'.refs = s.refs := by
  unfold HState.keyEvent at h
  simp only at h
  generalize (v >>> 3) &&& 0xF = op at h
  generalize v &&& 0x07 = ch at h
  by_cases c0 : 15 < op
  · simp [if_pos c0] at h
  rw [if_neg c0] at h
  cases h1 : s.find ch op s.configs 0 with
  | error e => simp [h1] at h
  | ok found =>
  cases h2 : s.record ch op found with
  | error e => simp [h1, h2] at h
  | ok p =>
  obtain ⟨s1, id⟩ := p
  simp only [h1, h2] at h
  have e1 : (if op != 0 && !truthy s1.firstBeat then { s1 with firstBeat := some s1.samples }
      else s1).refs = s.refs := by
    rw [← record_refs h2]; split <;> rfl
  revert h e1
  generalize (if op != 0 && !truthy s1.firstBeat then { s1 with firstBeat := some s1.samples } else s1) = s2
  intro h e1
  have fin : ∀ s3 : HState, (if id ≥ 0 then { s3 with noteBeats := setAdd s3.samples s3.noteBeats }
      else s3).refs = s3.refs := by intro s3; split <;> rfl
  by_cases c3 : truthy s2.firstBeat = true
  · rw [if_pos c3] at h
    cases h3 : s2.addNote ch id with
    | error e => simp [h3] at h
    | ok s3 =>
      simp only [h3, Except.ok.injEq] at h
      rw [← h, fin, addNote_refs h3, e1]
  · rw [if_neg c3] at h
    simp only [Except.ok.injEq] at h
    rw [← h, fin, e1]

theorem apply_refs {s s' : HState} {r v : Nat} (h : s.apply r v = .ok s') : s'.refs = s.refs := by
  unfold HState.apply at h
  dsimp only at h
  by_cases c0 : r = 0x08
  · rw [if_pos c0] at h
    exact keyEvent_refs h
  rw [if_neg c0] at h
  by_cases c1 : r = 0x0F
  · rw [if_pos c1] at h
    exact updChannel_refs h
  rw [if_neg c1] at h
  by_cases c2 : r = 0x18
  · rw [if_pos c2] at h
    exact updBase_refs h
  rw [if_neg c2] at h
  by_cases c3 : r = 0x19
  · rw [if_pos c3] at h
    by_cases cv : (v &&& (1 <<< 7)) > 0
    · rw [if_pos cv] at h; exact updBase_refs h
    · rw [if_neg cv] at h; exact updBase_refs h
  rw [if_neg c3] at h
  by_cases c4 : r = 0x1B
  · rw [if_pos c4] at h
    cases hw : Waveform.ofNat? (v &&& 0x3) with
    | none => rw [hw] at h; simp at h
    | some w => rw [hw] at h; exact updBase_refs h
  rw [if_neg c4] at h
  by_cases c5 : r &&& 0xF8 = 0x20
  · rw [if_pos c5] at h
    cases hn : s.updNote (r &&& 7) (fun n =>
      { n with right := decide ((v &&& (1 <<< 7)) > 0), left := decide ((v &&& (1 <<< 6)) > 0) }) with
    | error e => rw [hn] at h; simp at h
    | ok s1 =>
      rw [hn] at h
      exact (updChannel_refs (ch := r &&& 7) (f := fun c =>
        { c with fb := (v >>> 3) &&& 0x07, connection := v &&& 0x07 }) h).trans (updNote_refs hn)
  rw [if_neg c5] at h
  by_cases c6 : r &&& 0xF8 = 0x28
  · rw [if_pos c6] at h
    exact updNote_refs h
  rw [if_neg c6] at h
  by_cases c7 : r &&& 0xF8 = 0x30
  · rw [if_pos c7] at h
    exact updNote_refs h
  rw [if_neg c7] at h
  by_cases c8 : r &&& 0xF8 = 0x38
  · rw [if_pos c8] at h
    exact updChannel_refs h
  rw [if_neg c8] at h
  by_cases c9 : r &&& 0xE0 = 0x40
  · rw [if_pos c9] at h
    exact updOperator_refs h
  rw [if_neg c9] at h
  by_cases c10 : r &&& 0xE0 = 0x60
  · rw [if_pos c10] at h
    exact updOperator_refs h
  rw [if_neg c10] at h
  by_cases c11 : r &&& 0xE0 = 0x80
  · rw [if_pos c11] at h
    exact updOperator_refs h
  rw [if_neg c11] at h
  by_cases c12 : r &&& 0xE0 = 0xA0
  · rw [if_pos c12] at h
    exact updOperator_refs h
  rw [if_neg c12] at h
  by_cases c13 : r &&& 0xE0 = 0xC0
  · rw [if_pos c13] at h
    exact updOperator_refs h
  rw [if_neg c13] at h
  by_cases c14 : r &&& 0xE0 = 0xE0
  · rw [if_pos c14] at h
    exact updOperator_refs h
  rw [if_neg c14] at h
  cases h; rfl

theorem call_refs {s s' : HState} {e : Event} (h : s.call e = .ok s') : s'.refs = s.refs := by
  cases e with
  | write r v => exact apply_refs h
  | wait n => cases h; rfl

/-- The references of an object never change, whatever is called. -/
theorem steps_refs {p q : Proc} {cs : List Call} (h : p.steps cs = .ok q) (k : Nat) (o : StateObj)
    (ho : p.states[k]? = some o) :
    ∃ o', q.states[k]? = some o' ∧ o'.pressRefs = o.pressRefs ∧ o'.chanRefs = o.chanRefs := by
  induction cs generalizing p o with
  | nil => cases h; exact ⟨o, ho, rfl, rfl⟩
  | cons c cs ih =>
    simp only [Proc.steps] at h
    cases h1 : p.step c with
    | error e => simp [h1] at h
    | ok p1 =>
      simp only [h1] at h
      have : ∃ o1, p1.states[k]? = some o1 ∧ o1.pressRefs = o.pressRefs ∧ o1.chanRefs = o.chanRefs := by
        cases c with
        | new =>
          simp only [Proc.step, Except.ok.injEq] at h1
          subst h1
          exact ⟨o, by rw [List.getElem?_append_left (lt_of_get ho)]; exact ho, rfl, rfl⟩
        | on j e =>
          simp only [Proc.step] at h1
          cases hj : p.states[j]? with
          | none => simp only [hj, Except.ok.injEq] at h1; subst h1; exact ⟨o, ho, rfl, rfl⟩
          | some oj =>
            simp only [hj] at h1
            cases hc : (p.heap.with oj).call e with
            | error e => simp [hc] at h1
            | ok s =>
              simp only [hc, Except.ok.injEq] at h1
              subst h1
              have hr := call_refs hc
              simp only [HState.refs, Prod.mk.injEq] at hr
              by_cases hjk : j = k
              · subst hjk
                rw [ho] at hj
                cases hj
                exact ⟨s.obj, List.getElem?_set_self (lt_of_get ho), hr.1, hr.2.1⟩
              · exact ⟨o, by rw [List.getElem?_set_ne hjk]; exact ho, rfl, rfl⟩
      obtain ⟨o1, a, b, c⟩ := this
      obtain ⟨o2, a', b', c'⟩ := ih h o1 a
      exact ⟨o2, a', b'.trans b, c'.trans c⟩

theorem readAll_listGet {β : Type} {f : Nat → Except PyErr β} {l : List Nat} {vs : List β}
    (h : readAll f l = .ok vs) {i : Int} {r : Nat} (hr : pyListGet l i = .ok r) :
    f r = pyListGet vs i := by
  rw [readAll_ok] at h
  have hlen : l.length = vs.length := by simpa using congrArg List.length h
  have key : ∀ n : Nat, ∀ x, l[n]? = some x → ∃ v, vs[n]? = some v ∧ f x = .ok v := by
    intro n x hx
    have hn := congrArg (fun l => l[n]?) h
    simp only [List.getElem?_map, hx, Option.map_some] at hn
    cases hv : vs[n]? with
    | none => rw [hv] at hn; simp at hn
    | some v => rw [hv] at hn; simp at hn; exact ⟨v, rfl, hn⟩
  unfold pyListGet at hr ⊢
  rw [← hlen]
  by_cases c1 : 0 ≤ i
  · rw [if_pos c1] at hr ⊢
    cases hx : l[i.toNat]? with
    | none => rw [hx] at hr; simp at hr
    | some x =>
      rw [hx] at hr
      cases hr
      obtain ⟨v, e1, e2⟩ := key _ _ hx
      rw [e1, e2]
  · rw [if_neg c1] at hr ⊢
    by_cases c2 : 0 ≤ i + l.length
    · rw [if_pos c2] at hr ⊢
      cases hx : l[(i + l.length).toNat]? with
      | none => rw [hx] at hr; simp at hr
      | some x =>
        rw [hx] at hr
        cases hr
        obtain ⟨v, e1, e2⟩ := key _ _ hx
        rw [e1, e2]
    · rw [if_neg c2] at hr; simp at hr

theorem view_parts {s : HState} {t : State} (h : s.view = .ok t) :
    readAll (deref s.presses) s.pressRefs = .ok t.keyPresses ∧
      readAll s.readChannel s.chanRefs = .ok t.channelConfigs := by
  unfold HState.view at h
  cases h1 : readAll (deref s.presses) s.pressRefs with
  | error e => rw [h1] at h; simp at h
  | ok kp =>
  cases h2 : readAll s.readChannel s.chanRefs with
  | error e => rw [h1, h2] at h; simp at h
  | ok cc =>
  cases h3 : readAll (deref s.notes) s.noteRefs with
  | error e => rw [h1, h2, h3] at h; simp at h
  | ok nc =>
  cases h4 : deref s.bases s.baseRef with
  | error e => rw [h1, h2, h3, h4] at h; simp at h
  | ok b =>
  cases h5 : readAll s.readConfig s.configs with
  | error e => rw [h1, h2, h3, h4, h5] at h; simp at h
  | ok cs =>
  rw [h1, h2, h3, h4, h5] at h
  simp only [Except.ok.injEq] at h
  rw [← h]
  exact ⟨rfl, rfl⟩

theorem Proc.steps_append (p : Proc) (cs ds : List Call) :
    p.steps (cs ++ ds) = match p.steps cs with
      | .error e => .error e
      | .ok q => q.steps ds := by
  induction cs generalizing p with
  | nil => rfl
  | cons d cs ih =>
    simp only [List.cons_append, Proc.steps]
    cases p.step d with
    | error e => rfl
    | ok q => exact ih q

/-- C75. The list that `key_presses(ch)` returned after the calls `cs`, and the object that
`channel_config(ch)` returned, are the ones that are returned after any further calls, and reading
them then shows the key presses and the settings of that time. -/
theorem c75_live (cs ds : List Call) (hp : Possible (cs ++ ds)) (k : Nat) (hk : k < created cs)
    (ch : Int) :
    ∃ p q o o', Proc.start.steps cs = .ok p ∧ Proc.start.steps (cs ++ ds) = .ok q ∧
      p.states[k]? = some o ∧ q.states[k]? = some o' ∧
      (q.heap.with o').keyPressesRef ch = (p.heap.with o).keyPressesRef ch ∧
      (q.heap.with o').channelRef ch = (p.heap.with o).channelRef ch ∧
      (∀ r, (p.heap.with o).keyPressesRef ch = .ok r →
        deref q.heap.presses r = (run (callsOn k (cs ++ ds))).keyPressesAt ch) ∧
      (∀ r, (p.heap.with o).channelRef ch = .ok r →
        (q.heap.with o').readChannel r = (run (callsOn k (cs ++ ds))).channelConfigAt ch) := by
  obtain ⟨p, h1, h2, h3⟩ := c74_independent cs (possible_prefix hp)
  obtain ⟨q, k1, k2, k3⟩ := c74_independent (cs ++ ds) hp
  have hq : p.steps ds = .ok q := by
    rw [Proc.steps_append, h1] at k1
    exact k1
  have hko : p.states[k]? = some (p.states[k]'(by omega)) := List.getElem?_eq_getElem _
  generalize (p.states[k]'(by omega)) = o at hko
  obtain ⟨o', a, b, c⟩ := steps_refs hq k o hko
  have hk' : k < created (cs ++ ds) := by rw [← k2]; exact lt_of_get a
  have hv := k3 k hk'
  unfold Proc.view at hv
  rw [a, Option.map_some, Option.some.injEq] at hv
  obtain ⟨v1, v2⟩ := view_parts hv
  refine ⟨p, q, o, o', h1, k1, hko, a, ?_, ?_, ?_, ?_⟩
  · show pyListGet o'.pressRefs ch = pyListGet o.pressRefs ch
    rw [b]
  · show pyListGet o'.chanRefs ch = pyListGet o.chanRefs ch
    rw [c]
  · intro r hr
    refine readAll_listGet v1 ?_
    show pyListGet o'.pressRefs ch = .ok r
    rw [b]; exact hr
  · intro r hr
    refine readAll_listGet v2 ?_
    show pyListGet o'.chanRefs ch = .ok r
    rw [c]; exact hr

theorem relList_range {ρ b : List Nat} {n : Nat} (h : relList ρ (List.range n) b) {i r : Nat}
    (hi : b[i]? = some r) : ρ[i]? = some r := by
  have hl : n = b.length := by
    have := congrArg List.length h
    simpa [relList] using this
  have hin : i < n := by rw [hl]; exact lt_of_get hi
  obtain ⟨y, h1, h2⟩ := h.get (i := i) (x := i) (by rw [List.getElem?_range hin])
  rw [hi] at h1
  cases h1
  exact h2

theorem nodup_get {l : List Nat} (h : l.Nodup) {i j r : Nat} (hi : l[i]? = some r)
    (hj : l[j]? = some r) : i = j := by
  have h1 := lt_of_get hi
  have h2 := lt_of_get hj
  rw [List.getElem?_eq_getElem h1, Option.some.injEq] at hi
  rw [List.getElem?_eq_getElem h2, Option.some.injEq] at hj
  exact (List.Nodup.getElem_inj_iff h).mp (hi.trans hj.symm)

/-- C75. The lists of different channels, and of different states, are different objects; so are
the channel configurations. -/
theorem c75_separate (cs : List Call) (hp : Possible cs) (j k : Nat) (a b : Nat) :
    ∃ p, Proc.start.steps cs = .ok p ∧ ∀ oj ok r, p.states[j]? = some oj → p.states[k]? = some ok →
      ((p.heap.with oj).keyPressesRef a = .ok r → (p.heap.with ok).keyPressesRef b = .ok r →
        j = k ∧ a = b) ∧
      ((p.heap.with oj).channelRef a = .ok r → (p.heap.with ok).channelRef b = .ok r →
        j = k ∧ a = b) := by
  obtain ⟨p, h1, h2⟩ := pinv_run cs hp
  obtain ⟨place, hs, hd⟩ := h2.sep
  refine ⟨p, h1, ?_⟩
  intro oj ok r hj hk
  have nat : ∀ (l : List Nat) (i : Nat), pyListGet l (i : Int) = .ok r → l[i]? = some r := by
    intro l i h
    unfold pyListGet at h
    rw [if_pos (by omega)] at h
    rw [Int.toNat_natCast] at h
    cases hx : l[i]? with
    | none => rw [hx] at h; simp at h
    | some x => rw [hx] at h; simp only [Except.ok.injEq] at h; rw [h]
  obtain ⟨s, e1, e2⟩ := hs j oj hj
  obtain ⟨t, f1, f2⟩ := hs k ok hk
  obtain ⟨s', e3, e4⟩ := hrun_rel (callsOn j cs)
  obtain ⟨t', f3, f4⟩ := hrun_rel (callsOn k cs)
  rw [e1] at e3; cases e3
  rw [f1] at f3; cases f3
  have pj := e2.pressRefs
  have pk := f2.pressRefs
  have cj := e2.chanRefs
  have ck := f2.chanRefs
  rw [e4.pressRefs] at pj
  rw [f4.pressRefs] at pk
  rw [e4.chanRefs] at cj
  rw [f4.chanRefs] at ck
  constructor
  · intro ha hb
    have a1 := relList_range pj (nat _ _ ha)
    have b1 := relList_range pk (nat _ _ hb)
    have hjk : j = k := by
      by_contra hne
      exact (hd j k (lt_of_get hj) (lt_of_get hk) hne).presses r (List.mem_of_getElem? a1)
        (List.mem_of_getElem? b1)
    subst hjk
    exact ⟨rfl, nodup_get e2.presses.nodup a1 b1⟩
  · intro ha hb
    have a1 := relList_range cj (nat _ _ ha)
    have b1 := relList_range ck (nat _ _ hb)
    have hjk : j = k := by
      by_contra hne
      exact (hd j k (lt_of_get hj) (lt_of_get hk) hne).chans r (List.mem_of_getElem? a1)
        (List.mem_of_getElem? b1)
    subst hjk
    exact ⟨rfl, nodup_get e2.chans.nodup a1 b1⟩

/-- A list that was empty when it was obtained shows the key presses that came later. -/
example : (run (callsOn 0 [.new])).keyPressesAt 0 = .ok [] ∧
    ((run (callsOn 0 exampleCalls)).keyPressesAt (-8)).map List.length = .ok 2 ∧
    (run (callsOn 0 exampleCalls)).keyPressesAt 8 = .error .index := by decide +kernel

end VgmX
