import Verif.Lemmas.Regs
/-
`State.apply` on non-key registers as independent updates of the three setting groups;
used for idempotence and commutation in arbitrary (not only reachable) states.
-/

set_option linter.unusedSimpArgs false

namespace VgmX

theorem modify_modify_same {α : Type} (l : List α) (i : Nat) (f g : α → α) :
    (l.modify i f).modify i g = l.modify i (fun a => g (f a)) := by
  apply List.ext_getElem?
  intro j
  simp only [List.getElem?_modify]
  cases l[j]? <;> by_cases h : i = j <;> simp [h]

theorem modify_comm {α : Type} (l : List α) (i j : Nat) (f g : α → α)
    (h : i ≠ j ∨ ∀ a, g (f a) = f (g a)) :
    (l.modify i f).modify j g = (l.modify j g).modify i f := by
  apply List.ext_getElem?
  intro k
  simp only [List.getElem?_modify]
  by_cases h1 : i = k <;> by_cases h2 : j = k
  · subst h1; subst h2
    rcases h with h | h
    · exact absurd rfl h
    · cases l[j]? <;> simp [h]
  all_goals cases l[k]? <;> simp [h1, h2]

theorem modify_congr {α : Type} (l : List α) (i : Nat) (f g : α → α) (h : ∀ a, f a = g a) :
    l.modify i f = l.modify i g := by
  have : f = g := funext h
  rw [this]

theorem modify_id' {α : Type} (l : List α) (i : Nat) (f : α → α) (h : ∀ a, f a = a) :
    l.modify i f = l := by
  apply List.ext_getElem?
  intro k
  simp only [List.getElem?_modify]
  cases l[k]? <;> simp [h]

/-- Effect on the global settings. -/
def baseFn (r v : Nat) (b : BaseConfig) : BaseConfig :=
  if r = 0x18 then { b with lfo := v }
  else if r = 0x19 then
    if (v &&& (1 <<< 7)) > 0 then { b with phsMd := v &&& 0x7F } else { b with ampMd := v }
  else if r = 0x1B then { b with waveform := (Waveform.ofNat? (v &&& 0x3)).getD .saw }
  else b

/-- Effect on the pitch/panning of channel `r & 7`. -/
def noteFn (r v : Nat) (n : NoteConfig) : NoteConfig :=
  if r &&& 0xF8 = 0x20 then
    { n with right := decide ((v &&& (1 <<< 7)) > 0), left := decide ((v &&& (1 <<< 6)) > 0) }
  else if r &&& 0xF8 = 0x28 then
    { n with octave := (v >>> 4) &&& 0x07, note := v &&& 0x0F }
  else if r &&& 0xF8 = 0x30 then { n with keyFraction := (v >>> 2) &&& 0x3F }
  else n

/-- Effect on an operator. -/
def opFn (r v : Nat) (o : OperatorConfig) : OperatorConfig :=
  if r &&& 0xE0 = 0x40 then
    { o with firstDetune := (v >>> 4) &&& 0x07, multiply := v &&& 0x0F }
  else if r &&& 0xE0 = 0x60 then { o with totalLevel := v &&& 0x7F }
  else if r &&& 0xE0 = 0x80 then
    { o with keyScale := (v >>> 6) &&& 0x3, attackRate := v &&& 0x1F }
  else if r &&& 0xE0 = 0xA0 then
    { o with ase := decide ((v &&& 0x80) > 0), firstDecayRate := v &&& 0x1F }
  else if r &&& 0xE0 = 0xC0 then
    { o with secondDetune := (v >>> 6) &&& 0x03, secondDecayRate := v &&& 0x0F }
  else if r &&& 0xE0 = 0xE0 then
    { o with firstDecayLevel := (v >>> 4) &&& 0x0F, releaseRate := v &&& 0x0F }
  else o

/-- Effect on the channel settings other than the operators. -/
def chanFn (r v : Nat) (c : ChannelConfig) : ChannelConfig :=
  if r = 0x0F then { c with noise := decide ((v &&& (1 <<< 7)) > 0), noiseFreq := v &&& 0x1F }
  else if r &&& 0xF8 = 0x20 then { c with fb := (v >>> 3) &&& 0x07, connection := v &&& 0x07 }
  else if r &&& 0xF8 = 0x38 then { c with pms := (v >>> 4) &&& 0x07, ams := v &&& 0x03 }
  else c

/-- Both. -/
def chanOpFn (r v : Nat) (c : ChannelConfig) : ChannelConfig :=
  { chanFn r v c with
    operators := (chanFn r v c).operators.modify ((r >>> 3) &&& 0x03) (opFn r v) }

theorem chanFn_operators (r v : Nat) (c : ChannelConfig) :
    (chanFn r v c).operators = c.operators := by
  unfold chanFn
  split
  · rfl
  · split
    · rfl
    · split <;> rfl

/-- All of `apply` on a non-key register. -/
def applyFn (s : State) (r v : Nat) : State :=
  { s with
    base := baseFn r v s.base
    noteConfigs := s.noteConfigs.modify (r &&& 0x07) (noteFn r v)
    channelConfigs := s.channelConfigs.modify (r &&& 0x07) (chanOpFn r v) }

theorem low_facts : ∀ r < 256, r &&& 0xF8 = r / 8 * 8 ∧ r &&& 0xE0 = r / 32 * 32 ∧ r &&& 7 = r % 8
    ∧ (r >>> 3) &&& 3 = r / 8 % 4 := by decide +kernel

theorem apply_eq_applyFn (s : State) (r v : Nat) (hr : r < 256) (h8 : r ≠ 8) :
    s.apply r v = applyFn s r v := by
  obtain ⟨e1, e2, e3, e4⟩ := low_facts r hr
  have idb : ∀ b, r < 0x18 ∨ 0x19 < r ∧ r < 0x1B ∨ 0x1B < r → baseFn r v b = b := by
    intro b hb
    unfold baseFn
    rw [if_neg (by omega), if_neg (by omega), if_neg (by omega)]
  have idn : ∀ n, r < 0x20 ∨ 0x38 ≤ r → noteFn r v n = n := by
    intro n hn
    unfold noteFn
    rw [e1, if_neg (by omega), if_neg (by omega), if_neg (by omega)]
  have ido : ∀ o, r < 0x40 → opFn r v o = o := by
    intro o ho
    unfold opFn
    rw [e2, if_neg (by omega), if_neg (by omega), if_neg (by omega), if_neg (by omega),
      if_neg (by omega), if_neg (by omega)]
  have idc : ∀ c, r ≠ 0x0F → (r < 0x20 ∨ 0x28 ≤ r ∧ r < 0x38 ∨ 0x40 ≤ r) → chanFn r v c = c := by
    intro c h1 h2
    unfold chanFn
    rw [e1, if_neg (by omega), if_neg (by omega), if_neg (by omega)]
  have idco : ∀ c, r < 0x40 → chanOpFn r v c = chanFn r v c := by
    intro c h1
    unfold chanOpFn
    rw [modify_id' _ _ _ (fun o => ido o h1)]
  have idall : ∀ c, r ≠ 0x0F → (r < 0x20 ∨ 0x28 ≤ r ∧ r < 0x38) → chanOpFn r v c = c := by
    intro c h1 h2
    rw [idco c (by omega), idc c h1 (by omega)]
  have coOp : ∀ c, 0x40 ≤ r → chanOpFn r v c
      = { c with operators := c.operators.modify ((r >>> 3) &&& 0x03) (opFn r v) } := by
    intro c h1
    unfold chanOpFn
    rw [idc c (by omega) (by omega)]
  have opCase : ∀ f, 0x40 ≤ r → (∀ o, opFn r v o = f o) →
      s.updOperator (r &&& 0x07) ((r >>> 3) &&& 0x03) f = applyFn s r v := by
    intro f h1 h2
    have hf : opFn r v = f := funext h2
    unfold applyFn State.updOperator State.updChannel
    rw [idb _ (by omega), modify_id' _ _ _ (fun n => idn n (by omega)),
      modify_congr _ _ _ _ (fun c => coOp c h1), hf]
  unfold State.apply
  simp only [h8, if_false]
  by_cases h0F : r = 0x0F
  · rw [if_pos h0F]; subst h0F
    unfold applyFn State.updChannel
    rw [idb _ (by omega), modify_id' _ _ _ (fun n => idn n (by omega)),
      modify_congr _ _ _ _ (fun c => idco c (by omega))]
    rfl
  rw [if_neg h0F]
  by_cases h18 : r = 0x18
  · rw [if_pos h18]; subst h18
    unfold applyFn
    rw [modify_id' _ _ _ (fun n => idn n (by omega)),
      modify_id' _ _ _ (fun c => idall c (by omega) (by omega))]
    rfl
  rw [if_neg h18]
  by_cases h19 : r = 0x19
  · rw [if_pos h19]; subst h19
    unfold applyFn
    rw [modify_id' _ _ _ (fun n => idn n (by omega)),
      modify_id' _ _ _ (fun c => idall c (by omega) (by omega))]
    have hb : baseFn 0x19 v s.base = if (v &&& (1 <<< 7)) > 0
        then { s.base with phsMd := v &&& 0x7F } else { s.base with ampMd := v } := by
      unfold baseFn
      rw [if_neg (show ¬ (0x19 : Nat) = 0x18 by omega), if_pos rfl]
    rw [hb]
    by_cases hv : (v &&& (1 <<< 7)) > 0
    · simp only [if_pos hv]
    · simp only [if_neg hv]
  rw [if_neg h19]
  by_cases h1B : r = 0x1B
  · rw [if_pos h1B]; subst h1B
    unfold applyFn
    rw [modify_id' _ _ _ (fun n => idn n (by omega)),
      modify_id' _ _ _ (fun c => idall c (by omega) (by omega))]
    rfl
  rw [if_neg h1B]
  have idb' := fun b => idb b (by omega)
  by_cases h20 : r &&& 0xF8 = 0x20
  · rw [if_pos h20]
    unfold applyFn State.updChannel State.updNote
    rw [idb', modify_congr _ _ _ _ (fun c => idco c (by omega))]
    have en : noteFn r v = fun n => noteFn r v n := rfl
    have ec : chanFn r v = fun c => chanFn r v c := rfl
    rw [en, ec]
    simp only [noteFn, chanFn, if_pos h20, if_neg h0F]
  rw [if_neg h20]
  by_cases h28 : r &&& 0xF8 = 0x28
  · rw [if_pos h28]
    unfold applyFn State.updNote
    rw [idb', modify_id' _ _ _ (fun c => idall c (by omega) (by omega))]
    have en : noteFn r v = fun n => noteFn r v n := rfl
    rw [en]
    simp only [noteFn, if_pos h28, if_neg h20]
  rw [if_neg h28]
  by_cases h30 : r &&& 0xF8 = 0x30
  · rw [if_pos h30]
    unfold applyFn State.updNote
    rw [idb', modify_id' _ _ _ (fun c => idall c (by omega) (by omega))]
    have en : noteFn r v = fun n => noteFn r v n := rfl
    rw [en]
    simp only [noteFn, if_pos h30, if_neg h20, if_neg h28]
  rw [if_neg h30]
  by_cases h38 : r &&& 0xF8 = 0x38
  · rw [if_pos h38]
    unfold applyFn State.updChannel
    rw [idb', modify_congr _ _ _ _ (fun c => idco c (by omega)),
      modify_id' _ _ _ (fun n => idn n (by omega))]
    have ec : chanFn r v = fun c => chanFn r v c := rfl
    rw [ec]
    simp only [chanFn, if_pos h38, if_neg h20, if_neg h0F]
  rw [if_neg h38]
  by_cases h40 : r &&& 0xE0 = 0x40
  · rw [if_pos h40]
    refine opCase _ (by omega) ?_
    intro o; unfold opFn; rw [if_pos h40]
  rw [if_neg h40]
  by_cases h60 : r &&& 0xE0 = 0x60
  · rw [if_pos h60]
    refine opCase _ (by omega) ?_
    intro o; unfold opFn; rw [if_neg h40, if_pos h60]
  rw [if_neg h60]
  by_cases h80 : r &&& 0xE0 = 0x80
  · rw [if_pos h80]
    refine opCase _ (by omega) ?_
    intro o; unfold opFn; rw [if_neg h40, if_neg h60, if_pos h80]
  rw [if_neg h80]
  by_cases hA0 : r &&& 0xE0 = 0xA0
  · rw [if_pos hA0]
    refine opCase _ (by omega) ?_
    intro o; unfold opFn; rw [if_neg h40, if_neg h60, if_neg h80, if_pos hA0]
  rw [if_neg hA0]
  by_cases hC0 : r &&& 0xE0 = 0xC0
  · rw [if_pos hC0]
    refine opCase _ (by omega) ?_
    intro o; unfold opFn; rw [if_neg h40, if_neg h60, if_neg h80, if_neg hA0, if_pos hC0]
  rw [if_neg hC0]
  by_cases hE0 : r &&& 0xE0 = 0xE0
  · rw [if_pos hE0]
    refine opCase _ (by omega) ?_
    intro o; unfold opFn
    rw [if_neg h40, if_neg h60, if_neg h80, if_neg hA0, if_neg hC0, if_pos hE0]
  rw [if_neg hE0]
  unfold applyFn
  rw [idb', modify_id' _ _ _ (fun n => idn n (by omega)),
    modify_id' _ _ _ (fun c => idall c (by omega) (by omega))]

/-! ### Idempotence and commutation of the parts -/

theorem baseFn_idem (r v : Nat) (b : BaseConfig) : baseFn r v (baseFn r v b) = baseFn r v b := by
  unfold baseFn
  by_cases h1 : r = 0x18
  · simp only [if_pos h1]
  by_cases h2 : r = 0x19
  · simp only [if_neg h1, if_pos h2]
    by_cases hv : (v &&& (1 <<< 7)) > 0
    · simp only [if_pos hv]
    · simp only [if_neg hv]
  by_cases h3 : r = 0x1B
  · simp only [if_neg h1, if_neg h2, if_pos h3]
  · simp only [if_neg h1, if_neg h2, if_neg h3]

theorem baseFn_comm (r v q w : Nat) (b : BaseConfig) (h : r ≠ q) :
    baseFn q w (baseFn r v b) = baseFn r v (baseFn q w b) := by
  unfold baseFn
  by_cases h1 : r = 0x18 <;> by_cases h2 : r = 0x19 <;> by_cases h3 : r = 0x1B <;>
  by_cases g1 : q = 0x18 <;> by_cases g2 : q = 0x19 <;> by_cases g3 : q = 0x1B <;>
  first
  | (exfalso; omega)
  | (simp only [h1, h2, h3, g1, g2, g3, if_true, if_false]; done)
  | (simp only [h1, h2, h3, g1, g2, g3, if_true, if_false]
     by_cases hv : (v &&& (1 <<< 7)) > 0 <;> by_cases hw : (w &&& (1 <<< 7)) > 0 <;>
     simp only [if_pos, if_neg, hv, hw, not_false_eq_true] <;> rfl)

theorem noteFn_idem (r v : Nat) (n : NoteConfig) : noteFn r v (noteFn r v n) = noteFn r v n := by
  unfold noteFn
  by_cases h1 : r &&& 0xF8 = 0x20
  · simp only [if_pos h1]
  by_cases h2 : r &&& 0xF8 = 0x28
  · simp only [if_neg h1, if_pos h2]
  by_cases h3 : r &&& 0xF8 = 0x30
  · simp only [if_neg h1, if_neg h2, if_pos h3]
  · simp only [if_neg h1, if_neg h2, if_neg h3]

theorem noteFn_comm (r v q w : Nat) (n : NoteConfig) (h : r &&& 0xF8 ≠ q &&& 0xF8) :
    noteFn q w (noteFn r v n) = noteFn r v (noteFn q w n) := by
  unfold noteFn
  generalize r &&& 0xF8 = a at *
  generalize q &&& 0xF8 = c at *
  by_cases h1 : a = 0x20 <;> by_cases h2 : a = 0x28 <;> by_cases h3 : a = 0x30 <;>
  by_cases g1 : c = 0x20 <;> by_cases g2 : c = 0x28 <;> by_cases g3 : c = 0x30 <;>
  first
  | (exfalso; omega)
  | simp [h1, h2, h3, g1, g2, g3]

theorem opFn_idem (r v : Nat) (o : OperatorConfig) : opFn r v (opFn r v o) = opFn r v o := by
  unfold opFn
  generalize r &&& 0xE0 = a
  by_cases h1 : a = 0x40
  · simp only [if_pos h1]
  by_cases h2 : a = 0x60
  · simp only [if_neg h1, if_pos h2]
  by_cases h3 : a = 0x80
  · simp only [if_neg h1, if_neg h2, if_pos h3]
  by_cases h4 : a = 0xA0
  · simp only [if_neg h1, if_neg h2, if_neg h3, if_pos h4]
  by_cases h5 : a = 0xC0
  · simp only [if_neg h1, if_neg h2, if_neg h3, if_neg h4, if_pos h5]
  by_cases h6 : a = 0xE0
  · simp only [if_neg h1, if_neg h2, if_neg h3, if_neg h4, if_neg h5, if_pos h6]
  · simp only [if_neg h1, if_neg h2, if_neg h3, if_neg h4, if_neg h5, if_neg h6]

theorem opFn_cases (r v : Nat) (P : (OperatorConfig → OperatorConfig) → Prop)
    (h1 : r &&& 0xE0 = 0x40 → P fun o =>
      { o with firstDetune := (v >>> 4) &&& 0x07, multiply := v &&& 0x0F })
    (h2 : r &&& 0xE0 = 0x60 → P fun o => { o with totalLevel := v &&& 0x7F })
    (h3 : r &&& 0xE0 = 0x80 → P fun o =>
      { o with keyScale := (v >>> 6) &&& 0x3, attackRate := v &&& 0x1F })
    (h4 : r &&& 0xE0 = 0xA0 → P fun o =>
      { o with ase := decide ((v &&& 0x80) > 0), firstDecayRate := v &&& 0x1F })
    (h5 : r &&& 0xE0 = 0xC0 → P fun o =>
      { o with secondDetune := (v >>> 6) &&& 0x03, secondDecayRate := v &&& 0x0F })
    (h6 : r &&& 0xE0 = 0xE0 → P fun o =>
      { o with firstDecayLevel := (v >>> 4) &&& 0x0F, releaseRate := v &&& 0x0F })
    (h7 : P fun o => o) : P (opFn r v) := by
  have e : opFn r v = fun o => opFn r v o := rfl
  rw [e]
  unfold opFn
  by_cases a1 : r &&& 0xE0 = 0x40
  · simp only [if_pos a1]; exact h1 a1
  simp only [if_neg a1]
  by_cases a2 : r &&& 0xE0 = 0x60
  · simp only [if_pos a2]; exact h2 a2
  simp only [if_neg a2]
  by_cases a3 : r &&& 0xE0 = 0x80
  · simp only [if_pos a3]; exact h3 a3
  simp only [if_neg a3]
  by_cases a4 : r &&& 0xE0 = 0xA0
  · simp only [if_pos a4]; exact h4 a4
  simp only [if_neg a4]
  by_cases a5 : r &&& 0xE0 = 0xC0
  · simp only [if_pos a5]; exact h5 a5
  simp only [if_neg a5]
  by_cases a6 : r &&& 0xE0 = 0xE0
  · simp only [if_pos a6]; exact h6 a6
  simp only [if_neg a6]
  exact h7

theorem opFn_comm (r v q w : Nat) (o : OperatorConfig) (h : r &&& 0xE0 ≠ q &&& 0xE0) :
    opFn q w (opFn r v o) = opFn r v (opFn q w o) := by
  refine opFn_cases r v (fun f => opFn q w (f o) = f (opFn q w o)) ?_ ?_ ?_ ?_ ?_ ?_ rfl
  all_goals intro h1
  · refine opFn_cases q w (fun g => g _ = { g o with
      firstDetune := (v >>> 4) &&& 0x07, multiply := v &&& 0x0F }) ?_ ?_ ?_ ?_ ?_ ?_ rfl
    all_goals intro h2; first | rfl | (exfalso; omega)
  · refine opFn_cases q w (fun g => g _ = { g o with totalLevel := v &&& 0x7F })
      ?_ ?_ ?_ ?_ ?_ ?_ rfl
    all_goals intro h2; first | rfl | (exfalso; omega)
  · refine opFn_cases q w (fun g => g _ = { g o with
      keyScale := (v >>> 6) &&& 0x3, attackRate := v &&& 0x1F }) ?_ ?_ ?_ ?_ ?_ ?_ rfl
    all_goals intro h2; first | rfl | (exfalso; omega)
  · refine opFn_cases q w (fun g => g _ = { g o with
      ase := decide ((v &&& 0x80) > 0), firstDecayRate := v &&& 0x1F }) ?_ ?_ ?_ ?_ ?_ ?_ rfl
    all_goals intro h2; first | rfl | (exfalso; omega)
  · refine opFn_cases q w (fun g => g _ = { g o with
      secondDetune := (v >>> 6) &&& 0x03, secondDecayRate := v &&& 0x0F }) ?_ ?_ ?_ ?_ ?_ ?_ rfl
    all_goals intro h2; first | rfl | (exfalso; omega)
  · refine opFn_cases q w (fun g => g _ = { g o with
      firstDecayLevel := (v >>> 4) &&& 0x0F, releaseRate := v &&& 0x0F }) ?_ ?_ ?_ ?_ ?_ ?_ rfl
    all_goals intro h2; first | rfl | (exfalso; omega)

theorem chanFn_idem (r v : Nat) (c : ChannelConfig) : chanFn r v (chanFn r v c) = chanFn r v c := by
  unfold chanFn
  by_cases h1 : r = 0x0F
  · simp only [if_pos h1]
  by_cases h2 : r &&& 0xF8 = 0x20
  · simp only [if_neg h1, if_pos h2]
  by_cases h3 : r &&& 0xF8 = 0x38
  · simp only [if_neg h1, if_neg h2, if_pos h3]
  · simp only [if_neg h1, if_neg h2, if_neg h3]

theorem chanFn_comm (r v q w : Nat) (c : ChannelConfig) (h : r ≠ q)
    (h' : r &&& 0xF8 ≠ q &&& 0xF8 ∨ r < 0x10 ∧ q < 0x10) :
    chanFn q w (chanFn r v c) = chanFn r v (chanFn q w c) := by
  have hl : ∀ x, x < 0x10 → x &&& 0xF8 ≠ 0x20 ∧ x &&& 0xF8 ≠ 0x38 := by decide
  unfold chanFn
  by_cases h1 : r = 0x0F
  · have h2 : ¬ q = 0x0F := by omega
    simp only [if_pos h1, if_neg h2]
    by_cases h3 : q &&& 0xF8 = 0x20
    · simp only [if_pos h3]
    · by_cases h4 : q &&& 0xF8 = 0x38
      · simp only [if_neg h3, if_pos h4]
      · simp only [if_neg h3, if_neg h4]
  · by_cases h2 : q = 0x0F
    · simp only [if_neg h1, if_pos h2]
      by_cases h3 : r &&& 0xF8 = 0x20
      · simp only [if_pos h3]
      · by_cases h4 : r &&& 0xF8 = 0x38
        · simp only [if_neg h3, if_pos h4]
        · simp only [if_neg h3, if_neg h4]
    · simp only [if_neg h1, if_neg h2]
      rcases h' with h' | ⟨ha, hb⟩
      · generalize r &&& 0xF8 = a at *
        generalize q &&& 0xF8 = b at *
        by_cases a1 : a = 0x20 <;> by_cases a2 : a = 0x38 <;>
        by_cases b1 : b = 0x20 <;> by_cases b2 : b = 0x38 <;>
        first
        | (exfalso; omega)
        | simp [a1, a2, b1, b2]
      · simp only [if_neg (hl r ha).1, if_neg (hl r ha).2, if_neg (hl q hb).1, if_neg (hl q hb).2]

theorem chanOpFn_idem (r v : Nat) (c : ChannelConfig) :
    chanOpFn r v (chanOpFn r v c) = chanOpFn r v c := by
  have key : ∀ c o, chanFn r v { c with operators := o } = { chanFn r v c with operators := o } := by
    intro c o
    unfold chanFn
    by_cases h1 : r = 0x0F
    · simp only [if_pos h1]
    by_cases h2 : r &&& 0xF8 = 0x20
    · simp only [if_neg h1, if_pos h2]
    by_cases h3 : r &&& 0xF8 = 0x38
    · simp only [if_neg h1, if_neg h2, if_pos h3]
    · simp only [if_neg h1, if_neg h2, if_neg h3]
  unfold chanOpFn
  rw [key, chanFn_idem, modify_modify_same, modify_congr _ _ _ _ (fun o => opFn_idem r v o)]

theorem chanOpFn_comm (r v q w : Nat) (c : ChannelConfig)
    (h1 : ∀ c, chanFn q w (chanFn r v c) = chanFn r v (chanFn q w c))
    (h2 : (r >>> 3) &&& 0x03 ≠ (q >>> 3) &&& 0x03 ∨ ∀ o, opFn q w (opFn r v o) = opFn r v (opFn q w o)) :
    chanOpFn q w (chanOpFn r v c) = chanOpFn r v (chanOpFn q w c) := by
  have key : ∀ r v c o, chanFn r v { c with operators := o }
      = { chanFn r v c with operators := o } := by
    intro r v c o
    unfold chanFn
    by_cases h1 : r = 0x0F
    · simp only [if_pos h1]
    by_cases h2 : r &&& 0xF8 = 0x20
    · simp only [if_neg h1, if_pos h2]
    by_cases h3 : r &&& 0xF8 = 0x38
    · simp only [if_neg h1, if_neg h2, if_pos h3]
    · simp only [if_neg h1, if_neg h2, if_neg h3]
  unfold chanOpFn
  rw [key q w (chanFn r v c), key r v (chanFn q w c), h1 c, chanFn_operators, chanFn_operators]
  simp only
  rw [modify_comm _ _ _ _ _ h2]

theorem applyFn_idem (s : State) (r v : Nat) : applyFn (applyFn s r v) r v = applyFn s r v := by
  unfold applyFn
  simp only [baseFn_idem, modify_modify_same]
  rw [modify_congr _ _ _ _ (fun n => noteFn_idem r v n),
    modify_congr _ _ _ _ (fun c => chanOpFn_idem r v c)]

theorem applyFn_comm (s : State) (r v q w : Nat) (hr : r < 256) (hq : q < 256) (h : r ≠ q) :
    applyFn (applyFn s r v) q w = applyFn (applyFn s q w) r v := by
  obtain ⟨a1, a2, a3, a4⟩ := low_facts r hr
  obtain ⟨b1, b2, b3, b4⟩ := low_facts q hq
  unfold applyFn
  simp only [baseFn_comm r v q w s.base h]
  have hn : (s.noteConfigs.modify (r &&& 7) (noteFn r v)).modify (q &&& 7) (noteFn q w)
      = (s.noteConfigs.modify (q &&& 7) (noteFn q w)).modify (r &&& 7) (noteFn r v) := by
    apply modify_comm
    by_cases he : r &&& 7 = q &&& 7
    · right; intro n; apply noteFn_comm; omega
    · left; exact he
  have hc : (s.channelConfigs.modify (r &&& 7) (chanOpFn r v)).modify (q &&& 7) (chanOpFn q w)
      = (s.channelConfigs.modify (q &&& 7) (chanOpFn q w)).modify (r &&& 7) (chanOpFn r v) := by
    apply modify_comm
    by_cases he : r &&& 7 = q &&& 7
    · right
      intro c
      apply chanOpFn_comm
      · intro c; apply chanFn_comm _ _ _ _ _ h; omega
      · by_cases hk : (r >>> 3) &&& 3 = (q >>> 3) &&& 3
        · right; intro o; apply opFn_comm; omega
        · left; exact hk
    · left; exact he
  rw [hn, hc]

end VgmX
