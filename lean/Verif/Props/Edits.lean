import Verif.Lemmas.Edits
import Verif.Lemmas.Apply
/-
Property C108: what a caller may change through the objects that `State` hands out.
-/

namespace VgmX
open Spec

theorem session_rel (cs : List EditCall) (hk : ∀ ps, EditCall.edit (.keep ps) ∈ cs → ps.Nodup)
    (s : HState) (t : State) (h : Rel s t) (hl : Laid s) :
    (s.session cs).1 = (editSession t cs).1 ∧ Rel (s.session cs).2 (editSession t cs).2 := by
  induction cs generalizing s t with
  | nil => exact ⟨rfl, h⟩
  | cons c cs ih =>
    have hk' : ∀ ps, EditCall.edit (.keep ps) ∈ cs → ps.Nodup := fun ps hp => hk ps (by simp [hp])
    cases c with
    | write r v =>
      obtain ⟨s', e, r'⟩ := h.apply r v
      obtain ⟨i1, i2⟩ := ih hk' s' _ r' (hl.apply e)
      simp only [HState.session, HState.editCall, e, editSession]
      exact ⟨by rw [i1], i2⟩
    | wait n =>
      obtain ⟨i1, i2⟩ := ih hk' _ _ (h.beat n) (hl.beat n)
      simp only [HState.session, HState.editCall, editSession]
      exact ⟨by rw [i1], i2⟩
    | edit e =>
      have he := h.edit hl e (fun ps hp => hk ps (by simp [hp]))
      simp only [HState.session, HState.editCall, editSession]
      cases hed : edited t e with
      | none =>
        rw [hed] at he
        simp only at he
        obtain ⟨i1, i2⟩ := ih hk' s t h hl
        simp only [he]
        exact ⟨by rw [i1], i2⟩
      | some t' =>
        rw [hed] at he
        obtain ⟨s', e1, r', l'⟩ := he
        obtain ⟨i1, i2⟩ := ih hk' s' t' r' l'
        simp only [e1]
        exact ⟨by rw [i1], i2⟩

/-- C108. Register writes, waits and edits through the objects handed out, in any order: each edit
changes the one thing it names, and nothing else, neither then nor later; it raises `IndexError`
exactly if there is no such thing, and nothing else raises. (`edited` in Spec/Edits works on values,
where nothing can be shared.) -/
theorem c108_separate (cs : List EditCall)
    (hk : ∀ ps, EditCall.edit (.keep ps) ∈ cs → ps.Nodup) :
    (HState.init.session cs).1 = (editSession State.init cs).1 ∧
    (HState.init.session cs).2.view = .ok (editSession State.init cs).2 := by
  obtain ⟨h1, h2⟩ := session_rel cs hk _ _ Rel.init Laid.init
  exact ⟨h1, h2.view⟩

theorem apply_op (s : State) (r v : Nat) (hr : r < 256) (h : 0x40 ≤ r) :
    s.apply r v = s.updOperator (r % 8) (r / 8 % 4) (opFn r v) := by
  obtain ⟨e1, e2, e3, e4⟩ := low_facts r hr
  unfold State.apply
  simp only [e1, e2, e3, e4]
  rw [if_neg (by omega), if_neg (by omega), if_neg (by omega), if_neg (by omega), if_neg (by omega),
    if_neg (by omega), if_neg (by omega), if_neg (by omega), if_neg (by omega)]
  unfold opFn
  simp only [e2]
  by_cases c1 : r / 32 * 32 = 0x40
  · simp only [if_pos c1]
  simp only [if_neg c1]
  by_cases c2 : r / 32 * 32 = 0x60
  · simp only [if_pos c2]
  simp only [if_neg c2]
  by_cases c3 : r / 32 * 32 = 0x80
  · simp only [if_pos c3]
  simp only [if_neg c3]
  by_cases c4 : r / 32 * 32 = 0xA0
  · simp only [if_pos c4]
  simp only [if_neg c4]
  by_cases c5 : r / 32 * 32 = 0xC0
  · simp only [if_pos c5]
  simp only [if_neg c5]
  by_cases c6 : r / 32 * 32 = 0xE0
  · simp only [if_pos c6]
  · omega

theorem byte_facts : ∀ v < 256, (v >>> 4) &&& 7 = v / 16 % 8 ∧ (v >>> 4) &&& 15 = v / 16 ∧
    (v >>> 6) &&& 3 = v / 64 ∧ v &&& 15 = v % 16 ∧ v &&& 31 = v % 32 ∧ v &&& 127 = v % 128 ∧
    v &&& 3 = v % 4 ∧ decide ((v &&& 0x80) > 0) = decide (128 ≤ v) ∧
    decide ((v &&& (1 <<< 7)) > 0) = decide (128 ≤ v) := by decide +kernel

/-- Two assignments to one operator. -/
theorem edited_two (t : State) (ch k : Nat) (hch : ch < 8) (hk : k < 4) (a b : OpAssign) :
    editedAll t [.operator ch k a, .operator ch k b] =
      some (t.updOperator ch k (fun o => assignOperator (assignOperator o a) b)) := by
  simp only [editedAll, edited, hch, hk, and_self, if_true, Option.bind_some, State.updOperator,
    State.updChannel, modify_modify_same, inChannel]

/-- C108. Assigning values that the chip can have is the same as the register writes, as far as can
be told then or later. (The register written sets both fields of a pair.) -/
theorem c108_as_write (t : State) (ch k : Nat) (hch : ch < 8) (hk : k < 4) :
    (∀ v < 128, editedAll t [.operator ch k (.totalLevel v)] =
      some (t.apply (0x60 + 8 * k + ch) v)) ∧
    (∀ d < 8, ∀ m < 16,
      editedAll t [.operator ch k (.firstDetune d), .operator ch k (.multiply m)] =
        some (t.apply (0x40 + 8 * k + ch) (16 * d + m))) ∧
    (∀ s < 4, ∀ a < 32,
      editedAll t [.operator ch k (.keyScale s), .operator ch k (.attackRate a)] =
        some (t.apply (0x80 + 8 * k + ch) (64 * s + a))) ∧
    (∀ b : Bool, ∀ d < 32,
      editedAll t [.operator ch k (.ase b), .operator ch k (.firstDecayRate d)] =
        some (t.apply (0xA0 + 8 * k + ch) (128 * b.toNat + d))) ∧
    (∀ d < 4, ∀ r < 16,
      editedAll t [.operator ch k (.secondDetune d), .operator ch k (.secondDecayRate r)] =
        some (t.apply (0xC0 + 8 * k + ch) (64 * d + r))) ∧
    (∀ l < 16, ∀ r < 16,
      editedAll t [.operator ch k (.firstDecayLevel l), .operator ch k (.releaseRate r)] =
        some (t.apply (0xE0 + 8 * k + ch) (16 * l + r))) ∧
    (∀ p < 8, ∀ a < 4,
      editedAll t [.channel ch (.pms p), .channel ch (.ams a)] =
        some (t.apply (0x38 + ch) (16 * p + a))) ∧
    (∀ b : Bool, ∀ f < 32,
      editedAll t [.channel 7 (.noise b), .channel 7 (.noiseFreq f)] =
        some (t.apply 0x0F (128 * b.toNat + f))) := by
  have place : ∀ base v, base < 256 → base / 32 * 32 = base → 0x40 ≤ base →
      t.apply (base + 8 * k + ch) v = t.updOperator ch k (opFn (base + 8 * k + ch) v) := by
    intro base v h1 h2 h3
    rw [apply_op t _ v (by omega) (by omega)]
    congr 1 <;> omega
  have low : ∀ base, base < 256 → base / 32 * 32 = base →
      (base + 8 * k + ch) &&& 0xE0 = base := by
    intro base h1 h2
    rw [(low_facts _ (by omega)).2.1]
    omega
  refine ⟨?_, ?_, ?_, ?_, ?_, ?_, ?_, ?_⟩
  · intro v hv
    obtain ⟨-, -, -, -, -, e, -⟩ := byte_facts v (by omega)
    rw [place 0x60 v (by decide) (by decide) (by decide)]
    have : (fun o => assignOperator o (.totalLevel v)) = opFn (0x60 + 8 * k + ch) v := by
      funext o
      unfold opFn
      rw [low 0x60 (by decide) (by decide), e]
      simp [assignOperator, Nat.mod_eq_of_lt hv]
    rw [← this]
    simp only [editedAll, edited, hch, hk, and_self, if_true, Option.bind_some, State.updOperator,
      State.updChannel]
    rfl
  · intro d hd m hm
    obtain ⟨e1, e2, e3, e4, e5, e6, -⟩ := byte_facts (16 * d + m) (by omega)
    rw [place 0x40 _ (by decide) (by decide) (by decide), edited_two t ch k hch hk]
    congr 2
    funext o
    unfold opFn
    rw [low 0x40 (by decide) (by decide), e1, e4]
    have a1 : (16 * d + m) / 16 % 8 = d := by omega
    have a2 : (16 * d + m) % 16 = m := by omega
    simp [assignOperator, a1, a2]
  · intro d hd m hm
    obtain ⟨e1, e2, e3, e4, e5, e6, -⟩ := byte_facts (64 * d + m) (by omega)
    rw [place 0x80 _ (by decide) (by decide) (by decide), edited_two t ch k hch hk]
    congr 2
    funext o
    unfold opFn
    rw [low 0x80 (by decide) (by decide), e3, e5]
    have a1 : (64 * d + m) / 64 = d := by omega
    have a2 : (64 * d + m) % 32 = m := by omega
    simp [assignOperator, a1, a2]
  · intro b m hm
    have hb : 128 * b.toNat + m < 256 := by cases b <;> simp <;> omega
    obtain ⟨e1, e2, e3, e4, e5, e6, -, e8, -⟩ := byte_facts (128 * b.toNat + m) hb
    rw [place 0xA0 _ (by decide) (by decide) (by decide), edited_two t ch k hch hk]
    congr 2
    funext o
    unfold opFn
    rw [low 0xA0 (by decide) (by decide), e8, e5]
    have a1 : decide (128 ≤ 128 * b.toNat + m) = b := by cases b <;> simp <;> omega
    have a2 : (128 * b.toNat + m) % 32 = m := by omega
    simp [assignOperator, a1, a2]
  · intro d hd m hm
    obtain ⟨e1, e2, e3, e4, e5, e6, -⟩ := byte_facts (64 * d + m) (by omega)
    rw [place 0xC0 _ (by decide) (by decide) (by decide), edited_two t ch k hch hk]
    congr 2
    funext o
    unfold opFn
    rw [low 0xC0 (by decide) (by decide), e3, e4]
    have a1 : (64 * d + m) / 64 = d := by omega
    have a2 : (64 * d + m) % 16 = m := by omega
    simp [assignOperator, a1, a2]
  · intro d hd m hm
    obtain ⟨e1, e2, e3, e4, e5, e6, -⟩ := byte_facts (16 * d + m) (by omega)
    rw [place 0xE0 _ (by decide) (by decide) (by decide), edited_two t ch k hch hk]
    congr 2
    funext o
    unfold opFn
    rw [low 0xE0 (by decide) (by decide), e2, e4]
    have a1 : (16 * d + m) / 16 = d := by omega
    have a2 : (16 * d + m) % 16 = m := by omega
    simp [assignOperator, a1, a2]
  · intro p hp a ha
    obtain ⟨e1, -, -, -, -, -, e7, -⟩ := byte_facts (16 * p + a) (by omega)
    have a1 : (16 * p + a) / 16 % 8 = p := by omega
    have a2 : (16 * p + a) % 4 = a := by omega
    obtain ⟨f1, f2, f3, f4⟩ := low_facts (0x38 + ch) (by omega)
    have g1 : (0x38 + ch) / 8 * 8 = 0x38 := by omega
    have g3 : (0x38 + ch) % 8 = ch := by omega
    unfold State.apply
    simp only [f1, g1, f3, g3, e1, e7, a1, a2]
    rw [if_neg (by omega), if_neg (by omega), if_neg (by omega), if_neg (by omega),
      if_neg (by omega), if_neg (by omega), if_neg (by omega), if_neg (by omega), if_pos trivial]
    simp only [editedAll, edited, hch, if_true, Option.bind_some, State.updChannel,
      modify_modify_same, assignChannel]
  · intro b f hf
    have hb : 128 * b.toNat + f < 256 := by cases b <;> simp <;> omega
    obtain ⟨-, -, -, -, e5, -, -, -, e9⟩ := byte_facts (128 * b.toNat + f) hb
    have a1 : decide (128 ≤ 128 * b.toNat + f) = b := by cases b <;> simp <;> omega
    have a2 : (128 * b.toNat + f) % 32 = f := by omega
    unfold State.apply
    simp only [e9, e5, a1, a2]
    rw [if_neg (by omega), if_pos trivial]
    simp only [editedAll, edited, if_true, Option.bind_some, State.updChannel,
      modify_modify_same, assignChannel, Nat.reduceLT]

theorem session_append (s : HState) (a b : List EditCall) :
    (s.session (a ++ b)).2 = ((s.session a).2.session b).2 := by
  induction a generalizing s with
  | nil => rfl
  | cons c a ih =>
    simp only [List.cons_append, HState.session]
    cases s.editCall c with
    | error e => exact ih s
    | ok s' => exact ih s'

/-- C108. After any session a key-on refers to the first instrument in `configs`, as it is then, that
sounds as the channel, as it is then; if there is none it is added, with its place as number. Where
the instruments in the list came from, and what numbers they have, does not matter. -/
theorem c108_key (cs : List EditCall) (hk : ∀ ps, EditCall.edit (.keep ps) ∈ cs → ps.Nodup)
    (value : Nat) (hon : keyedOps value ≠ 0) (t t' : State)
    (ht : (HState.init.session cs).2.view = .ok t)
    (ht' : (HState.init.session (cs ++ [.write 8 value])).2.view = .ok t') (hs : 0 < t.samples) :
    ∃ (c : ChannelConfig) (l : List Note) (n : Note) (i : Nat), t.channelConfigs[value % 8]? = some c ∧ t.keyPresses[value % 8]? = some l ∧
      t'.keyPresses = t.keyPresses.set (value % 8) (l ++ [n]) ∧ n.configId = (i : Int) ∧
      (∀ j < i, ∀ p, t.configs[j]? = some p → ¬ sounds t.base c (keyedOps value) p) ∧
      ((∃ p, t.configs[i]? = some p ∧ sounds t.base c (keyedOps value) p ∧ t'.configs = t.configs) ∨
       (i = t.configs.length ∧
        t'.configs = t.configs ++ [⟨i, t.base, keyedOps value, c⟩])) := by
  have hk' : ∀ ps, EditCall.edit (.keep ps) ∈ cs ++ [.write 8 value] → ps.Nodup := by
    intro ps hp
    rcases List.mem_append.mp hp with hp | hp
    · exact hk ps hp
    · simp at hp
  obtain ⟨-, r⟩ := session_rel cs hk _ _ Rel.init Laid.init
  rw [r.view] at ht
  cases ht
  generalize (editSession State.init cs).2 = t at *
  have r' : (HState.init.session (cs ++ [.write 8 value])).2.view = .ok (t.apply 8 value) := by
    rw [session_append]
    obtain ⟨s', e, r'⟩ := r.apply 8 value
    simp only [HState.session, HState.editCall, e]
    exact r'.view
  rw [r'] at ht'
  cases ht'
  obtain ⟨c, hc, -⟩ := readAll_range_get r.vChans (Nat.mod_lt value (by decide : 0 < 8))
  obtain ⟨l, hl, -⟩ := readAll_range_get r.vPresses (Nat.mod_lt value (by decide : 0 < 8))
  have e1 : value &&& 7 = value % 8 := Nat.and_two_pow_sub_one_eq_mod value 3
  have e2 : (value >>> 3) &&& 15 = keyedOps value := by
    rw [show (15 : Nat) = 2 ^ 4 - 1 from rfl, Nat.and_two_pow_sub_one_eq_mod,
      Nat.shiftRight_eq_div_pow]
    rfl
  have hfi : ∃ i, t.configs.findIdx (fun p => p.compare t.base c (keyedOps value)) = i ∧
      (∀ j < i, ∀ p, t.configs[j]? = some p → ¬ sounds t.base c (keyedOps value) p) ∧
      (i = t.configs.length ∨
        ∃ p, t.configs[i]? = some p ∧ sounds t.base c (keyedOps value) p ∧
          i < t.configs.length) := by
    refine ⟨_, rfl, ?_, ?_⟩
    · intro j hj p hp hs
      have := List.not_of_lt_findIdx hj
      obtain ⟨hlt, e⟩ := List.getElem?_eq_some_iff.mp hp
      rw [e] at this
      rw [(Config.compare_iff ..).mpr hs] at this
      cases this
    · rcases Nat.lt_or_ge (t.configs.findIdx (fun p => p.compare t.base c (keyedOps value)))
        t.configs.length with h | h
      · right
        refine ⟨_, List.getElem?_eq_getElem h, ?_, h⟩
        exact (Config.compare_iff ..).mp (List.findIdx_getElem (w := h))
      · left
        exact Nat.le_antisymm List.findIdx_le_length h
  obtain ⟨i, hf, hb, hi⟩ := hfi
  have hcd : t.channelConfigs.getD (value % 8) {} = c := by
    rw [List.getD_eq_getElem?_getD, hc]; rfl
  have htr : truthy (if keyedOps value != 0 && !truthy t.firstBeat then some t.samples
      else t.firstBeat) = true := by
    by_cases h : truthy t.firstBeat = true
    · simp [h]
    · have h' : truthy t.firstBeat = false := by simpa using h
      have h2 : (keyedOps value != 0) = true := by simpa using hon
      rw [h', h2]
      show (t.samples != 0) = true
      simp; omega
  have hmod : ∀ n : Note, t.keyPresses.modify (value % 8) (· ++ [n])
      = t.keyPresses.set (value % 8) (l ++ [n]) := by
    intro n
    apply List.ext_getElem?
    intro j
    rw [List.getElem?_set, List.getElem?_modify]
    by_cases hj : value % 8 = j
    · rw [if_pos hj, if_pos (lt_of_get hl), ← hj, hl]
      simp
    · rw [if_neg hj]
      simp only [if_neg hj]
      cases t.keyPresses[j]? <;> rfl
  refine ⟨c, l, Note.init i (t.noteConfigs.getD (value % 8) {}) t.samples, i, hc, hl, ?_, rfl, hb, ?_⟩
  · show (t.keyEvent value).keyPresses = _
    unfold State.keyEvent
    simp only [e1, e2, hcd, hf, htr, if_true, hmod]
    have : ((t.configs.length == i) && keyedOps value == 0) = false := by simp [hon]
    rw [this]
    rfl
  · rcases hi with hi | ⟨p, hp, hs, hlt⟩
    · right
      refine ⟨hi, ?_⟩
      show (t.keyEvent value).configs = _
      unfold State.keyEvent
      simp only [e1, e2, hcd, hf, BaseConfig.copy_eq, ChannelConfig.copy_eq]
      rw [if_pos (by simp [hi, hon])]
    · left
      refine ⟨p, hp, hs, ?_⟩
      show (t.keyEvent value).configs = _
      unfold State.keyEvent
      simp only [e1, e2, hcd, hf]
      rw [if_neg (by simp; omega)]

/-- C108 applies: an instrument is recorded, its first operator is made louder, and the channel is
keyed on again: now there are two instruments, the edited one and the one that was recorded. -/
def editExample : List EditCall :=
  [.wait 5, .write 0x60 9, .write 8 0x78, .edit (.instrument 0 0 (.totalLevel 3)),
    .edit (.instrument 1 0 (.totalLevel 3)), .write 8 0x78]

example : (editSession State.init editExample).1 =
      [none, none, none, none, some .index, none] ∧
    (editSession State.init editExample).2.configs.map
      (fun c => (c.id, (c.channel.operators.map (·.totalLevel)))) =
      [(0, [3, 0, 0, 0]), (1, [9, 0, 0, 0])] ∧
    ((editSession State.init editExample).2.channelConfigs[0]?.map
      (fun c => c.operators.map (·.totalLevel))) = some [9, 0, 0, 0] ∧
    ((editSession State.init editExample).2.keyPresses[0]?.map (fun l => l.map (·.configId)))
      = some [0, 1] := by
  decide +kernel

/-- .. and if the list of instruments is cleared, the numbers begin again: two notes of different
instruments have the same number. -/
example : let t := (editSession State.init
      [.wait 5, .write 8 0x78, .edit (.keep []), .write 0x60 9, .write 8 0x78]).2
    t.configs.length = 1 ∧
    (t.keyPresses[0]?.map (fun l => l.map (·.configId))) = some [0, 0] := by
  decide +kernel

end VgmX
