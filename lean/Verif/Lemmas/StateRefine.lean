import Verif.Lemmas.RegRefine
/-
The key-event part of the refinement: instruments, key presses, ticks.
-/

set_option linter.unusedSimpArgs false

namespace VgmX
open Spec

theorem filterMap_congr' {α β : Type} {f g : α → Option β} {l : List α}
    (h : ∀ a ∈ l, f a = g a) : l.filterMap f = l.filterMap g := by
  induction l with
  | nil => rfl
  | cons a l ih =>
    simp only [List.filterMap_cons, h a (by simp)]
    rw [ih (fun x hx => h x (by simp [hx]))]

/-! ### Key events of an extended history -/

theorem keyEvents_snoc (h : List Event) (e : Event) :
    keyEvents (h ++ [e]) = keyEvents h ++
      (match e with
       | .write r v => if r = 0x08 then [keyEventAt h v] else []
       | .wait _ => []) := by
  unfold keyEvents
  rw [List.length_append, List.length_singleton, List.range_succ, List.filterMap_append]
  congr 1
  · apply filterMap_congr'
    intro i hi
    rw [List.mem_range] at hi
    rw [List.getElem?_append_left hi, List.take_append_of_le_length (by omega)]
  · cases e with
    | wait n => simp
    | write r v => by_cases h8 : r = 8 <;> simp [h8]

theorem keyEvents_wait (h : List Event) (n : Nat) :
    keyEvents (h ++ [.wait n]) = keyEvents h := by
  rw [keyEvents_snoc]; simp

theorem keyEvents_other (h : List Event) (r v : Nat) (h8 : r ≠ 8) :
    keyEvents (h ++ [.write r v]) = keyEvents h := by
  rw [keyEvents_snoc]; simp [h8]

theorem keyEvents_key (h : List Event) (v : Nat) :
    keyEvents (h ++ [.write 8 v]) = keyEvents h ++ [keyEventAt h v] := by
  rw [keyEvents_snoc]; simp

theorem patchesKeyedOn_key (h : List Event) (v : Nat) :
    patchesKeyedOn (h ++ [.write 8 v]) = patchesKeyedOn h ++
      (if (keyEventAt h v).isOn then [(keyEventAt h v).patch] else []) := by
  unfold patchesKeyedOn
  rw [keyEvents_key]
  by_cases ho : (keyEventAt h v).isOn <;> simp [ho]

theorem instruments_key (h : List Event) (v : Nat) :
    instruments (h ++ [.write 8 v]) = instruments h ++
      (if (keyEventAt h v).isOn ∧ (keyEventAt h v).patch ∉ instruments h
       then [(keyEventAt h v).patch] else []) := by
  unfold instruments
  rw [patchesKeyedOn_key, List.eraseDups_append]
  congr 1
  by_cases ho : (keyEventAt h v).isOn
  · by_cases hm : (keyEventAt h v).patch ∈ patchesKeyedOn h
    · simp [ho, hm, List.mem_eraseDups, List.removeAll]
    · simp [ho, hm, List.mem_eraseDups, List.removeAll, List.eraseDups_cons]
  · simp [ho, List.removeAll]

theorem instruments_congr {h h' : List Event} (hk : keyEvents h' = keyEvents h) :
    instruments h' = instruments h := by
  simp [instruments, patchesKeyedOn, hk]

theorem mem_instruments (h : List Event) (p : Patch) :
    p ∈ instruments h ↔ ∃ e ∈ keyEvents h, e.isOn ∧ e.patch = p := by
  simp only [instruments, List.mem_eraseDups, patchesKeyedOn, List.mem_map, List.mem_filter,
    decide_eq_true_eq, and_assoc]

/-- Whether the extractor has seen a key-on at a time > 0. -/
def started (l : List KeyEvent) : Bool := l.any (fun e => decide (e.isOn ∧ 0 < e.time))

theorem recorded_congr {h h' : List Event} (hk : keyEvents h' = keyEvents h) :
    recorded h' = recorded h := by
  simp [recorded, hk]

theorem recorded_key (h : List Event) (v : Nat) :
    recorded (h ++ [.write 8 v]) = recorded h ++
      (if started (keyEvents h ++ [keyEventAt h v]) then [keyEventAt h v] else []) := by
  unfold recorded
  rw [keyEvents_key, List.length_append, List.length_singleton, List.range_succ,
    List.filterMap_append]
  congr 1
  · apply filterMap_congr'
    intro i hi
    rw [List.mem_range] at hi
    rw [List.getElem?_append_left hi, List.take_append_of_le_length (by omega)]
  · have ht : (keyEvents h ++ [keyEventAt h v]).take ((keyEvents h).length + 1)
        = keyEvents h ++ [keyEventAt h v] := by
      apply List.take_of_length_le; simp
    unfold started
    simp only [List.filterMap_cons, List.filterMap_nil, ht]
    by_cases hs : (keyEvents h ++ [keyEventAt h v]).any
        (fun e => decide (e.isOn ∧ 0 < e.time)) = true
    · rw [if_pos hs, if_pos hs]; simp
    · rw [if_neg hs, if_neg hs]

theorem mem_keyEvents_of_recorded {h : List Event} {e : KeyEvent} (he : e ∈ recorded h) :
    e ∈ keyEvents h := by
  simp only [recorded, List.mem_filterMap] at he
  obtain ⟨i, _, hi⟩ := he
  split at hi
  · exact List.mem_of_getElem? hi
  · simp at hi

/-! ### The invariant -/

/-- Instrument records for a list of patches. -/
def configsOf (ps : List Patch) : List Config :=
  ps.mapIdx (fun i p => ⟨i, p.base, p.operators, p.channel⟩)

theorem configsOf_snoc (ps : List Patch) (p : Patch) :
    configsOf (ps ++ [p]) = configsOf ps ++ [⟨ps.length, p.base, p.operators, p.channel⟩] := by
  simp [configsOf, List.mapIdx_append]

theorem findIdx_configsOf (ps : List Patch) (b : BaseConfig) (c : ChannelConfig) (op : Nat) :
    (configsOf ps).findIdx (fun x => x.compare b c op) = ps.idxOf ⟨b, c, op⟩ := by
  have key : ∀ (n : Nat), (ps.mapIdx (fun i p => (⟨i + n, p.base, p.operators, p.channel⟩ : Config))).findIdx
      (fun x => x.compare b c op) = ps.idxOf ⟨b, c, op⟩ := by
    induction ps with
    | nil => intro n; simp
    | cons p ps ih =>
      intro n
      rw [List.mapIdx_cons, List.findIdx_cons, List.idxOf_cons]
      have hc : (Config.mk (0 + n) p.base p.operators p.channel).compare b c op
          = (p == (⟨b, c, op⟩ : Patch)) := by
        rw [Bool.eq_iff_iff, Config.compare_iff, beq_iff_eq]
        cases p; simp [Patch.mk.injEq]
      rw [hc]
      have := ih (n + 1)
      simp only [Nat.add_assoc, Nat.add_comm 1 n] at this ⊢
      rw [this]
  simpa [configsOf] using key 0

/-- The full refinement invariant. -/
structure Inv (h : List Event) (s : State) : Prop where
  regs : RegInv h s
  samples : s.samples = time h
  configs : s.configs = configsOf (instruments h)
  first : truthy s.firstBeat = started (keyEvents h)
  presses : s.keyPresses = (List.range 8).map (Spec.keyPresses h)
  beats : ∀ t, t ∈ s.noteBeats ↔ ∃ e ∈ keyEvents h, e.isOn ∧ e.time = t
  nodup : s.noteBeats.Nodup

theorem inv_init : Inv [] State.init := by
  refine ⟨regInv_init, rfl, rfl, rfl, by decide, ?_, by decide⟩
  intro t; simp [State.init, keyEvents]


/-- Everything except the register-derived settings. -/
structure Frame (s s' : State) : Prop where
  samples : s'.samples = s.samples
  configs : s'.configs = s.configs
  firstBeat : s'.firstBeat = s.firstBeat
  keyPresses : s'.keyPresses = s.keyPresses
  noteBeats : s'.noteBeats = s.noteBeats

theorem Frame.ite {c : Prop} [Decidable c] {s a b : State} (ha : Frame s a) (hb : Frame s b) :
    Frame s (if c then a else b) := by
  by_cases h : c
  · rwa [if_pos h]
  · rwa [if_neg h]

theorem apply_frame (s : State) (r v : Nat) (h8 : r ≠ 8) : Frame s (s.apply r v) := by
  unfold State.apply State.updOperator State.updNote State.updChannel
  simp only [h8, if_false]
  repeat' first | apply Frame.ite | exact ⟨rfl, rfl, rfl, rfl, rfl⟩

theorem keyPresses_congr {h h' : List Event} (hk : keyEvents h' = keyEvents h) (c : Nat) :
    Spec.keyPresses h' c = Spec.keyPresses h c := by
  have : noteOf h' = noteOf h := by
    funext e; simp [noteOf, instruments_congr hk]
  simp [Spec.keyPresses, recorded_congr hk, this]

/-- Events other than key on/off. -/
theorem inv_quiet (h : List Event) (s s' : State) (e : Event) (hi : Inv h s)
    (hr : RegInv (h ++ [e]) s') (hk : keyEvents (h ++ [e]) = keyEvents h)
    (ht : s'.samples = time (h ++ [e])) (hf : s'.configs = s.configs)
    (hfb : s'.firstBeat = s.firstBeat) (hkp : s'.keyPresses = s.keyPresses)
    (hnb : s'.noteBeats = s.noteBeats) : Inv (h ++ [e]) s' := by
  obtain ⟨_, _, h3, h4, h5, h6, h7⟩ := hi
  refine ⟨hr, ht, ?_, ?_, ?_, ?_, ?_⟩
  · rw [hf, h3, instruments_congr hk]
  · rw [hfb, h4, hk]
  · rw [hkp, h5]; exact map_range_congr fun c _ => (keyPresses_congr hk c).symm
  · rw [hnb, hk]; exact h6
  · rw [hnb]; exact h7

theorem noteOf_key (h : List Event) (v : Nat) (e : KeyEvent) (he : e ∈ keyEvents h) :
    noteOf (h ++ [.write 8 v]) e = noteOf h e := by
  by_cases ho : e.isOn
  · have hm : e.patch ∈ instruments h := (mem_instruments h e.patch).mpr ⟨e, he, ho, rfl⟩
    simp only [noteOf, ho, if_true, instruments_key, List.idxOf_append, hm]
  · simp [noteOf, ho]

theorem recorded_note_key (h : List Event) (v : Nat) (c : Nat) :
    Spec.keyPresses (h ++ [.write 8 v]) c = Spec.keyPresses h c ++
      (if started (keyEvents h ++ [keyEventAt h v]) ∧ (keyEventAt h v).ch = c
       then [noteOf (h ++ [.write 8 v]) (keyEventAt h v)] else []) := by
  unfold Spec.keyPresses
  rw [recorded_key, List.filter_append, List.map_append]
  congr 1
  · apply List.map_congr_left
    intro e he
    exact noteOf_key h v e (mem_keyEvents_of_recorded (List.mem_filter.mp he).1)
  · by_cases hs : started (keyEvents h ++ [keyEventAt h v]) = true
    · by_cases hc : (keyEventAt h v).ch = c <;> simp [hs, hc]
    · simp [hs]

theorem started_snoc (l : List KeyEvent) (e : KeyEvent) :
    started (l ++ [e]) = (started l || decide (e.isOn ∧ 0 < e.time)) := by
  simp [started]

theorem setAdd_nodup (x : Nat) (l : List Nat) (hn : l.Nodup) : (setAdd x l).Nodup := by
  unfold setAdd
  by_cases hin : x ∈ l
  · rwa [if_pos hin]
  · rw [if_neg hin, List.nodup_append]
    refine ⟨hn, by simp, ?_⟩
    intro a ha b hb' hab
    simp at hb'; subst hb'; subst hab; exact hin ha

theorem ite_setAdd_nodup (c : Prop) [Decidable c] (x : Nat) (l : List Nat) (hn : l.Nodup) :
    (if c then setAdd x l else l).Nodup := by
  by_cases h : c
  · rw [if_pos h]; exact setAdd_nodup x l hn
  · rwa [if_neg h]

theorem inv_key (h : List Event) (s : State) (hi : Inv h s) (v : Nat) :
    Inv (h ++ [.write 8 v]) (s.apply 8 v) := by
  obtain ⟨hr, ht, hc, hf, hp, hb, hn⟩ := hi
  have hch : s.channelConfigs.getD (v % 8) {} = Spec.channel h (v % 8) := by
    rw [hr.chans, getD_map_range _ _ _ _ (Nat.mod_lt _ (by decide))]
  have hno : s.noteConfigs.getD (v % 8) {} = Spec.noteConfig h (v % 8) := by
    rw [hr.notes, getD_map_range _ _ _ _ (Nat.mod_lt _ (by decide))]
  have hfind : s.configs.findIdx
      (fun c => c.compare s.base (s.channelConfigs.getD (v % 8) {}) (v / 8 % 16))
        = (instruments h).idxOf (keyEventAt h v).patch := by
    rw [hc, hch, hr.base, findIdx_configsOf]; rfl
  have hlen : s.configs.length = (instruments h).length := by rw [hc]; simp [configsOf]
  have hoff : ∀ p ∈ instruments h, p.operators ≠ 0 := by
    intro p hp
    obtain ⟨e, _, ho, rfl⟩ := (mem_instruments h p).mp hp
    exact ho
  have hon : (keyEventAt h v).isOn ↔ v / 8 % 16 ≠ 0 := Iff.rfl
  have hmem : (keyEventAt h v).patch ∈ instruments h ↔
      (instruments h).idxOf (keyEventAt h v).patch < (instruments h).length :=
    List.idxOf_lt_length_iff.symm
  have hle := List.idxOf_le_length (a := (keyEventAt h v).patch) (l := instruments h)
  have hreg := regInv_key h s hr v
  generalize hidx : (instruments h).idxOf (keyEventAt h v).patch = idx at *
  -- the new first beat is truthy iff the extended event list has started
  have hfirst : truthy (if (v / 8 % 16 != 0 && !truthy s.firstBeat) = true then some s.samples
      else s.firstBeat) = started (keyEvents h ++ [keyEventAt h v]) := by
    rw [started_snoc, ← hf]
    have htime : (keyEventAt h v).time = s.samples := ht.symm
    by_cases ho : v / 8 % 16 = 0
    · simp [hon, ho]
    · cases htf : truthy s.firstBeat
      · by_cases hz : s.samples = 0
        · simp [hon, ho, htime, truthy, hz]
        · simp [hon, ho, htime, truthy, Nat.pos_iff_ne_zero, hz]
      · simp [ho, htf]
  have hcfg : (s.apply 8 v).configs = configsOf (instruments (h ++ [.write 8 v])) := by
    simp only [State.apply, State.keyEvent, if_true, and7, andF, shr3, hfind, hlen]
    rw [instruments_key]
    by_cases hnew : idx = (instruments h).length
    · have hnm : (keyEventAt h v).patch ∉ instruments h := by rw [hmem]; omega
      by_cases ho : v / 8 % 16 = 0
      · simp [hnew, ho, hon, hc]
      · simp only [hnew, hnm, hon, ho]
        simp only [← List.getD_eq_getElem?_getD, hch]
        simp [configsOf_snoc, hc, hr.base, keyEventAt, ho]
    · have hm : (keyEventAt h v).patch ∈ instruments h := by rw [hmem]; omega
      have hne : ¬ (instruments h).length = idx := fun h => hnew h.symm
      simp [hm, hne, hc]
  -- the instrument number of the new note
  have hid : (if ((instruments h).length == idx && v / 8 % 16 == 0) = true then (-1 : Int)
      else (idx : Int)) = (noteOf (h ++ [.write 8 v]) (keyEventAt h v)).configId := by
    by_cases ho : v / 8 % 16 = 0
    · have hnm : (keyEventAt h v).patch ∉ instruments h := fun hm => hoff _ hm ho
      have : (instruments h).length = idx := by rw [hmem] at hnm; omega
      simp [noteOf, hon, ho, this]
    · simp only [noteOf, hon, ho, instruments_key, List.idxOf_append, hidx]
      by_cases hm : (keyEventAt h v).patch ∈ instruments h
      · simp [hm, ho]
      · have : (instruments h).length = idx := by rw [hmem] at hm; omega
        simp [hm, List.idxOf_cons, this, ho]
  refine ⟨hreg, ?_, hcfg, ?_, ?_, ?_, ?_⟩
  · rw [time_write, ← ht]; simp [State.apply, State.keyEvent]
  · rw [keyEvents_key, ← hfirst]
    simp only [State.apply, State.keyEvent, if_true, andF, shr3]
  · simp only [State.apply, State.keyEvent, if_true, and7, andF, shr3, hfind, hlen, hfirst]
    rw [hid, hno, hp]
    have hnote : Note.init (noteOf (h ++ [.write 8 v]) (keyEventAt h v)).configId
        (Spec.noteConfig h (v % 8)) s.samples = noteOf (h ++ [.write 8 v]) (keyEventAt h v) := by
      rw [ht]; rfl
    rw [hnote]
    by_cases hs : started (keyEvents h ++ [keyEventAt h v]) = true
    · rw [if_pos hs, map_range_modify]
      apply map_range_congr
      intro c hc8
      rw [recorded_note_key]
      by_cases hcv : c = v % 8
      · have : (keyEventAt h v).ch = c := hcv.symm
        simp [hs, hcv, this]
      · have : ¬ (keyEventAt h v).ch = c := fun h => hcv h.symm
        simp [hcv, this]
    · rw [if_neg hs]
      apply map_range_congr
      intro c hc8
      rw [recorded_note_key]
      simp [hs]
  · intro t
    simp only [State.apply, State.keyEvent, if_true, and7, andF, shr3, hfind, hlen]
    rw [hid, keyEvents_key]
    by_cases ho : (keyEventAt h v).isOn
    · have hge : (noteOf (h ++ [.write 8 v]) (keyEventAt h v)).configId ≥ 0 := by
        simp [noteOf, ho]
      rw [if_pos hge]
      have hmemadd : t ∈ setAdd s.samples s.noteBeats ↔ t = s.samples ∨ t ∈ s.noteBeats := by
        unfold setAdd
        by_cases hin : s.samples ∈ s.noteBeats
        · rw [if_pos hin]
          constructor
          · exact Or.inr
          · rintro (h | h)
            · exact h ▸ hin
            · exact h
        · rw [if_neg hin]; simp [or_comm]
      rw [hmemadd, hb]
      have htime : (keyEventAt h v).time = s.samples := ht.symm
      constructor
      · rintro (rfl | ⟨e, he, h1, h2⟩)
        · exact ⟨_, by simp, ho, htime⟩
        · exact ⟨e, by simp [he], h1, h2⟩
      · rintro ⟨e, he, h1, h2⟩
        rcases List.mem_append.mp he with he | he
        · exact Or.inr ⟨e, he, h1, h2⟩
        · rw [List.mem_singleton] at he; subst he
          exact Or.inl (by rw [← h2, htime])
    · have hlt : ¬ (noteOf (h ++ [.write 8 v]) (keyEventAt h v)).configId ≥ 0 := by
        simp [noteOf, ho]
      rw [if_neg hlt, hb]
      constructor
      · rintro ⟨e, he, h1, h2⟩; exact ⟨e, by simp [he], h1, h2⟩
      · rintro ⟨e, he, h1, h2⟩
        rcases List.mem_append.mp he with he | he
        · exact ⟨e, he, h1, h2⟩
        · rw [List.mem_singleton] at he; subst he; exact absurd h1 ho
  · simp only [State.apply, State.keyEvent, if_true]
    exact ite_setAdd_nodup _ _ _ hn

theorem inv_step (h : List Event) (s : State) (hi : Inv h s) (e : Event) (he : e.IsByte) :
    Inv (h ++ [e]) (s.step e) := by
  have hr := regInv_step h s hi.regs e he
  cases e with
  | wait n =>
    exact inv_quiet h s _ _ hi hr (keyEvents_wait h n)
      (by simp [State.step, State.beat, hi.samples, time_wait]) rfl rfl rfl rfl
  | write r v =>
    by_cases h8 : r = 8
    · subst h8; exact inv_key h s hi v
    · have hf := apply_frame s r v h8
      exact inv_quiet h s _ _ hi hr (keyEvents_other h r v h8)
        (by rw [time_write, ← hi.samples]; exact hf.samples) hf.configs hf.firstBeat
        hf.keyPresses hf.noteBeats

/-- Refinement: after every byte history the state is the one the specification says. -/
theorem inv_run (h : List Event) (hb : ByteHistory h) : Inv h (run h) := by
  refine snoc_induction (P := fun h => Inv h (run h)) inv_init ?_ h hb
  intro h e _ he hi
  rw [run_snoc]
  exact inv_step h _ hi e he

end VgmX
