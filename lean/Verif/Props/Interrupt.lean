import Verif.Spec.Interrupt
import Verif.Props.Watch
/-
C123: commands that are cut off in the middle.
-/

namespace VgmX
open Spec

/-- What holds of a state however its commands were cut off. -/
structure SoundState (s : State) : Prop extends Fine s where
  numbered : ∀ (i : Nat) (c : Config), s.configs[i]? = some c → c.id = i
  apart : s.configs.Pairwise
    (fun a b => ¬ (a.base = b.base ∧ a.channel = b.channel ∧ a.operators = b.operators))
  order : ∀ ch, (s.keyPressesOf ch).Pairwise (fun a b => a.sample ≤ b.sample)
  past : ∀ ch, ∀ n ∈ s.keyPressesOf ch, n.sample ≤ s.samples

/-- The changes for which `SoundState` must be shown. -/
def Store.Fits' (s : State) : Store → Prop
  | .press _ n => n.sample = s.samples
  | .append c => c.id = s.configs.length ∧
      ∀ a ∈ s.configs, ¬ (a.base = c.base ∧ a.channel = c.channel ∧ a.operators = c.operators)
  | .samples n => s.samples ≤ n
  | _ => True

/-- Changes that may be made one after the other. -/
def AllFit' (s : State) : List Store → Prop
  | [] => True
  | x :: l => x.Fits' s ∧ AllFit' (x.put s) l

theorem keyPresses_press (s : State) (ch : Nat) (n : Note) (ch' : Nat) :
    (Store.put s (.press ch n)).keyPressesOf ch' = s.keyPressesOf ch' ∨
      (Store.put s (.press ch n)).keyPressesOf ch' = s.keyPressesOf ch' ++ [n] := by
  show (s.keyPresses.modify ch _).getD ch' [] = s.keyPresses.getD ch' [] ∨
    (s.keyPresses.modify ch _).getD ch' [] = s.keyPresses.getD ch' [] ++ [n]
  rw [List.getD_eq_getElem?_getD, List.getD_eq_getElem?_getD, List.getElem?_modify]
  cases s.keyPresses[ch']? with
  | none => left; rfl
  | some l =>
    by_cases e : ch = ch'
    · right; simp [e]
    · left; simp [e]

theorem SoundState.put {s : State} (hs : SoundState s) (x : Store) (hx : x.Fits s) (hx' : x.Fits' s) :
    SoundState (x.put s) := by
  refine ⟨hs.toFine.put x hx, ?_, ?_, ?_, ?_⟩
  · intro i c hc
    cases x with
    | append c' =>
      have hc : (s.configs ++ [c'])[i]? = some c := hc
      by_cases hi : i < s.configs.length
      · rw [List.getElem?_append_left hi] at hc
        exact hs.numbered i c hc
      · rw [List.getElem?_append_right (by omega)] at hc
        have h0 : i - s.configs.length = 0 := by
          by_cases h : i - s.configs.length = 0
          · exact h
          · rw [List.getElem?_singleton, if_neg h] at hc; cases hc
        rw [h0] at hc
        cases hc
        rw [hx'.1]; omega
    | _ => exact hs.numbered i c hc
  · cases x with
    | append c' =>
      refine List.pairwise_append.mpr ⟨hs.apart, List.pairwise_singleton _ _, ?_⟩
      intro a ha b hb
      rw [List.mem_singleton.mp hb]
      exact hx'.2 a ha
    | _ => exact hs.apart
  · intro ch
    cases x with
    | press ch' n =>
      rcases keyPresses_press s ch' n ch with h | h
      · rw [h]; exact hs.order ch
      · rw [h]
        refine List.pairwise_append.mpr ⟨hs.order ch, List.pairwise_singleton _ _, ?_⟩
        intro a ha b hb
        rw [List.mem_singleton.mp hb, hx']
        exact hs.past ch a ha
    | _ => exact hs.order ch
  · intro ch n hn
    cases x with
    | press ch' n' =>
      rcases keyPresses_press s ch' n' ch with h | h
      · rw [h] at hn; exact hs.past ch n hn
      · rw [h] at hn
        rcases List.mem_append.mp hn with h | h
        · exact hs.past ch n h
        · rw [List.mem_singleton.mp h, hx']; exact Nat.le_refl _
    | samples m => exact Nat.le_trans (hs.past ch n hn) hx'
    | _ => exact hs.past ch n hn

theorem SoundState.puts {l : List Store} {s : State} (hs : SoundState s) (h : AllFit s l) (h' : AllFit' s l)
    (j : Nat) : SoundState ((l.take j).foldl Store.put s) := by
  induction l generalizing s j with
  | nil => rw [List.take_nil]; exact hs
  | cons x l ih =>
    cases j with
    | zero => exact hs
    | succ j =>
      rw [List.take_succ_cons, List.foldl_cons]
      exact ih (hs.put x h.1 h'.1) h.2 h'.2 j

theorem allFit'_plain (l : List Store) (s : State)
    (h : l.all (fun x => x.Plain && !(x matches .samples _)) = true) : AllFit' s l := by
  induction l generalizing s with
  | nil => trivial
  | cons x l ih =>
    rw [List.all_cons, Bool.and_eq_true] at h
    refine ⟨?_, ih _ h.2⟩
    cases x <;> first | trivial | cases h.1

theorem allFit'_ite {c : Prop} [Decidable c] {s : State} {a b : List Store} (ha : AllFit' s a)
    (hb : AllFit' s b) : AllFit' s (if c then a else b) := by
  by_cases h : c
  · rw [if_pos h]; exact ha
  · rw [if_neg h]; exact hb

theorem allFit'_key (s : State) (v : Nat) : AllFit' s (s.keyStores v) := by
  unfold State.keyStores
  dsimp only
  generalize (v >>> 3) &&& 0xF = op
  generalize v &&& 0x07 = ch
  generalize s.channelConfigs.getD ch {} = channel
  generalize hf : s.configs.findIdx (fun c => c.compare s.base channel op) = found
  generalize (op != 0 && !truthy s.firstBeat) = b2
  generalize truthy _ = b3
  have rest : ∀ s' : State, s'.samples = s.samples → ∀ (P : Prop) [Decidable P] (n : Note),
      n.sample = s.samples →
      AllFit' s' ((if b2 then [Store.firstBeat s.samples] else [])
        ++ (if b3 then [Store.press ch n] else []) ++ (if P then [Store.tick s.samples] else [])) := by
    intro s' h1 P _ n hn
    by_cases h : P <;> cases b2 <;> cases b3 <;>
      simp [h, AllFit', Store.Fits', Store.put, h1, hn]
  by_cases hnew : (s.configs.length == found && op != 0) = true
  · rw [if_pos hnew]
    have hl : s.configs.length = found := by
      simp only [Bool.and_eq_true, beq_iff_eq] at hnew; exact hnew.1
    simp only [List.cons_append, List.nil_append]
    refine ⟨⟨hl.symm, ?_⟩, trivial, ?_⟩
    · intro a ha hc
      have := List.findIdx_eq_length.mp (hf.trans hl.symm) a ha
      rw [Bool.eq_false_iff] at this
      refine this ((Config.compare_iff _ _ _ _).mpr ?_)
      simpa using hc
    · apply rest <;> rfl
  · rw [if_neg hnew, List.nil_append]
    apply rest <;> rfl

theorem allFit'_changes (s : State) (e : Event) : AllFit' s (s.changes e) := by
  cases e with
  | wait n => exact ⟨Nat.le_add_right _ _, trivial⟩
  | write r v =>
    show AllFit' s (s.stores r v)
    unfold State.stores
    dsimp only
    refine allFit'_ite (allFit'_key s v) ?_
    repeat' refine allFit'_ite ?_ ?_
    all_goals exact allFit'_plain _ _ rfl

theorem SoundState.cut {s : State} (hs : SoundState s) (e : Event) (j : Nat) : SoundState (s.cut e j) :=
  hs.puts (allFit_changes s hs.toFine e) (allFit'_changes s e) j

theorem SoundState.step {s : State} (hs : SoundState s) (e : Event) : SoundState (s.step e) := by
  have := hs.cut e (s.changes e).length
  unfold State.cut at this
  rwa [List.take_length, changes_put] at this

theorem sound_init : SoundState State.init := by
  have hk : ∀ ch, State.init.keyPressesOf ch = [] := by
    intro ch
    show (List.replicate 8 ([] : List Note)).getD ch [] = []
    rw [List.getD_eq_getElem?_getD, List.getElem?_replicate]
    split <;> rfl
  refine ⟨fine_init, ?_, List.Pairwise.nil, ?_, ?_⟩
  · intro i c hc; cases hc
  · intro ch; rw [hk]; exact List.Pairwise.nil
  · intro ch n hn; rw [hk] at hn; cases hn

theorem sound_runCut (d : List (Event × Option Nat)) : SoundState (runCut d) := by
  unfold runCut
  have : ∀ s, SoundState s → SoundState (d.foldl State.stepCut s) := by
    induction d with
    | nil => intro s h; exact h
    | cons x d ih =>
      intro s h
      refine ih _ ?_
      obtain ⟨e, o⟩ := x
      cases o with
      | none => exact h.step e
      | some j => exact h.cut e j
  exact this _ sound_init

/-- C123. Whichever commands were cut off, and wherever: the instruments are different from each
other and numbered by position, every note is a key-off or has an instrument that is there, the
notes of a channel are in the order of time, and every time in `ticks()` but 0 is that of a note. -/
theorem c123_sound (d : List (Event × Option Nat)) :
    (∀ (i : Nat) (c : Config), (runCut d).configs[i]? = some c → c.id = i) ∧
    (∀ (i j : Nat) (a b : Config), (runCut d).configs[i]? = some a → (runCut d).configs[j]? = some b →
      a.base = b.base → a.channel = b.channel → a.operators = b.operators → i = j) ∧
    (∀ ch, ∀ n ∈ (runCut d).keyPressesOf ch, n.configId = -1 ∨
      ∃ (i : Nat) (c : Config), n.configId = i ∧ (runCut d).configs[i]? = some c) ∧
    (∀ ch, ((runCut d).keyPressesOf ch).Pairwise (fun a b => a.sample ≤ b.sample)) ∧
    ∀ t ∈ (runCut d).ticks, t ≠ 0 →
      ∃ ch, ∃ n ∈ (runCut d).keyPressesOf ch, n.sample = t ∧ 0 ≤ n.configId := by
  have hs := sound_runCut d
  generalize runCut d = s at hs
  refine ⟨hs.numbered, ?_, ?_, hs.order, ?_⟩
  · intro i j a b hi hj h1 h2 h3
    have hil := (List.getElem?_eq_some_iff.mp hi)
    have hjl := (List.getElem?_eq_some_iff.mp hj)
    obtain ⟨hi', rfl⟩ := hil
    obtain ⟨hj', rfl⟩ := hjl
    have hp := List.pairwise_iff_getElem.mp hs.apart
    rcases Nat.lt_trichotomy i j with h | h | h
    · exact absurd ⟨h1, h2, h3⟩ (hp i j hi' hj' h)
    · exact h
    · exact absurd ⟨h1.symm, h2.symm, h3.symm⟩ (hp j i hj' hi' h)
  · intro ch n hn
    rcases hs.notes ch n hn with h | ⟨i, e, hi⟩
    · exact .inl h
    · exact .inr ⟨i, _, e, List.getElem?_eq_getElem hi⟩
  · intro t ht h0
    exact hs.ticks t ((mem_ticks_iff s t).mp ht) h0

/-! ### Once more from the beginning -/

/-- Changes that can be made in any order and more than once. -/
def Tame (l : List Store) : Prop :=
  (∀ x ∈ l, ∀ s, Store.put (Store.put s x) x = Store.put s x) ∧
    l.Pairwise (fun x y => ∀ s, Store.put (Store.put s x) y = Store.put (Store.put s y) x)

theorem put_past (x : Store) (l : List Store)
    (h : ∀ y ∈ l, ∀ s, Store.put (Store.put s x) y = Store.put (Store.put s y) x) (s : State) :
    Store.put (l.foldl Store.put s) x = l.foldl Store.put (Store.put s x) := by
  induction l generalizing s with
  | nil => rfl
  | cons y l ih =>
    rw [List.foldl_cons, List.foldl_cons, ih (fun z hz => h z (by simp [hz])), h y (by simp)]

theorem Tame.twice {l : List Store} (h : Tame l) (s : State) :
    l.foldl Store.put (l.foldl Store.put s) = l.foldl Store.put s := by
  induction l generalizing s with
  | nil => rfl
  | cons x l ih =>
    obtain ⟨h1, h2⟩ := List.pairwise_cons.mp h.2
    rw [List.foldl_cons, List.foldl_cons, put_past x l h1, h.1 x (by simp)]
    exact ih ⟨fun y hy => h.1 y (by simp [hy]), h2⟩ _

theorem Tame.again {l : List Store} (h : Tame l) (s : State) (j : Nat) :
    l.foldl Store.put ((l.take j).foldl Store.put s) = l.foldl Store.put s := by
  have ht : Tame (l.take j) :=
    ⟨fun x hx => h.1 x (List.mem_of_mem_take hx), h.2.sublist (List.take_sublist j l)⟩
  conv => lhs; rw [← List.take_append_drop j l]
  conv => rhs; rw [← List.take_append_drop j l]
  rw [List.foldl_append, List.foldl_append]
  congr 1
  have : (l.take j ++ l.drop j).take j = l.take j := by rw [List.take_append_drop]
  rw [this, ht.twice]

theorem tame_ite {c : Prop} [Decidable c] {a b : List Store} (ha : Tame a) (hb : Tame b) :
    Tame (if c then a else b) := by
  by_cases h : c
  · rw [if_pos h]; exact ha
  · rw [if_neg h]; exact hb

/-- What a write to a register other than the key register changes, whatever the state. -/
theorem stores_same (s s' : State) (r v : Nat) (hr : r ≠ 8) : s.stores r v = s'.stores r v := by
  unfold State.stores
  rw [if_neg hr, if_neg hr]

theorem stores_tame (s : State) (r v : Nat) (hr : r ≠ 8) : Tame (s.stores r v) := by
  unfold State.stores
  dsimp only
  rw [if_neg hr]
  repeat' refine tame_ite ?_ ?_
  all_goals
    simp [Tame, Store.put, ChanAssign.put, OpAssign.onObj, NoteAssign.put, BaseAssign.put,
      modify_modify_eq]

/-- C123. A write to any register but that for keys which was cut off anywhere and is done once more
has the effect of having been done once. (`s` is any state.) -/
theorem c123_again_write (s : State) (r v j : Nat) (hr : r ≠ 8) :
    (s.cut (.write r v) j).step (.write r v) = s.step (.write r v) := by
  rw [← changes_put, ← changes_put]
  show ((s.cut (.write r v) j).stores r v).foldl Store.put
    (((s.stores r v).take j).foldl Store.put s) = (s.stores r v).foldl Store.put s
  rw [stores_same (s.cut (.write r v) j) s r v hr]
  exact (stores_tame s r v hr).again s j

/-- C123. A wait that was cut off has been made or not. -/
theorem c123_wait (s : State) (n j : Nat) :
    s.cut (.wait n) j = s ∨ s.cut (.wait n) j = s.step (.wait n) := by
  cases j with
  | zero => exact .inl rfl
  | succ j => right; unfold State.cut; rw [List.take_of_length_le (by simp [State.changes])]; rfl

/-- The number of the instrument that a key event finds is the same after it has been added. -/
theorem found_again (l : List Config) (b : BaseConfig) (c : ChannelConfig) (op : Nat) (n : Nat)
    (h : l.findIdx (fun x => x.compare b c op) = l.length) :
    (l ++ [Config.mk n b op c]).findIdx (fun x : Config => x.compare b c op) = l.length := by
  rw [List.findIdx_append, h, if_neg (Nat.lt_irrefl _), List.findIdx_singleton,
    (Config.compare_iff _ _ _ _).mpr ⟨rfl, rfl, rfl⟩]
  simp

theorem setAdd_twice (t : Nat) (l : List Nat) : setAdd t (setAdd t l) = setAdd t l := by
  unfold setAdd
  by_cases h : t ∈ l <;> simp [h]

theorem truthy_some (n : Nat) : truthy (some n) = (n != 0) := rfl

/-- C123. A key event that was cut off before its note was recorded, and is done once more, has the
effect of having been done once; if the note had been recorded, it is recorded once more, and
everything else is as if done once. (`s` is any state.) -/
theorem c123_again_key (s : State) (v j : Nat) :
    ((s.cut (.write 8 v) j).keyPresses = s.keyPresses ∧
      (s.cut (.write 8 v) j).step (.write 8 v) = s.step (.write 8 v)) ∨
    ∃ n : Note, (s.cut (.write 8 v) j).keyPresses = s.keyPresses.modify (v % 8) (· ++ [n]) ∧
      (s.step (.write 8 v)).keyPresses = s.keyPresses.modify (v % 8) (· ++ [n]) ∧
      (s.cut (.write 8 v) j).step (.write 8 v) =
        { s.step (.write 8 v) with
          keyPresses := s.keyPresses.modify (v % 8) (fun l => l ++ [n, n]) } := by
  have hv : v &&& 7 = v % 8 := Nat.and_two_pow_sub_one_eq_mod v 3
  have e1 : s.cut (.write 8 v) j = ((s.keyStores v).take j).foldl Store.put s := rfl
  have e2 : ∀ s : State, s.step (.write 8 v) = s.keyEvent v := fun _ => rfl
  rw [e1, e2, e2]
  rw [← hv]
  unfold State.keyStores State.keyEvent
  dsimp only
  generalize (v >>> 3) &&& 0xF = op
  generalize v &&& 7 = ch
  have hfa := found_again s.configs s.base (s.channelConfigs.getD ch {}) op
  obtain ⟨found, hf⟩ : ∃ n, s.configs.findIdx
      (fun c => c.compare s.base (s.channelConfigs.getD ch {}) op) = n := ⟨_, rfl⟩
  rw [hf] at hfa
  simp only [BaseConfig.copy_eq, ChannelConfig.copy_eq]
  by_cases hl : s.configs.length = found
  · have hfa := fun n => hfa n hl.symm
    by_cases hop : op = 0
    · subst hop
      cases hfb : truthy s.firstBeat <;> rcases j with _ | j <;>
        simp [-List.getD_eq_getElem?_getD, hl, hf, hfb, Store.put, modify_modify_eq] <;>
        exact .inr ⟨_, rfl, rfl⟩
    · cases hfb : truthy s.firstBeat <;> by_cases hs : s.samples = 0 <;>
        rcases j with _ | _ | _ | _ | _ | j <;>
        simp [-List.getD_eq_getElem?_getD, hl, hf, hfb, hfa, hop, hs, Store.put, modify_modify_eq, truthy_some, setAdd_twice] <;>
        exact .inr ⟨_, rfl, rfl⟩
  · by_cases hop : op = 0
    · subst hop
      cases hfb : truthy s.firstBeat <;> rcases j with _ | _ | j <;>
        simp [-List.getD_eq_getElem?_getD, hl, hf, hfb, Store.put, modify_modify_eq, setAdd_twice] <;>
        exact .inr ⟨_, rfl, rfl⟩
    · cases hfb : truthy s.firstBeat <;> by_cases hs : s.samples = 0 <;>
        rcases j with _ | _ | _ | j <;>
        simp [-List.getD_eq_getElem?_getD, hl, hf, hfb, hop, hs, Store.put, modify_modify_eq, truthy_some, setAdd_twice] <;>
        exact .inr ⟨_, rfl, rfl⟩

theorem cut_zero (s : State) (e : Event) : s.cut e 0 = s := rfl

/-- C123. Commands that are cut off and made once more: if every one of them is a write to another
register than that for keys, or was cut off before it changed anything, the state is as if nothing
had been cut off. -/
theorem c123_session (d : List (Event × Option Nat))
    (hd : ∀ e j, (e, some j) ∈ d → j = 0 ∨ ∃ r v, e = .write r v ∧ r ≠ 8) :
    runCut (doneAgain d) = run (d.map (·.1)) := by
  unfold runCut run
  generalize State.init = s
  induction d generalizing s with
  | nil => rfl
  | cons x d ih =>
    have ih := fun s => ih (fun e j h => hd e j (List.mem_cons_of_mem _ h)) s
    obtain ⟨e, o⟩ := x
    cases o with
    | none => exact ih _
    | some j =>
      show (doneAgain d).foldl State.stepCut ((s.cut e j).step e) = _
      rw [ih]
      show _ = (d.map (·.1)).foldl State.step (s.step e)
      rcases hd e j (by simp) with rfl | ⟨r, v, rfl, hr⟩
      · rw [cut_zero]
      · rw [c123_again_write s r v j hr]

/-- Interrupted in a pan register (after the right side was set), and done again. -/
example :
    let d : List (Event × Option Nat) := [(.write 0x20 0xC7, some 1), (.write 0x28 0x4A, none),
      (.wait 5, some 0), (.write 0x08 0x78, none)]
    (∀ e j, (e, some j) ∈ d → j = 0 ∨ ∃ r v, e = .write r v ∧ r ≠ 8) ∧
    (runCut d).keyPressesOf 0 = [] ∧
    (runCut (doneAgain d)).keyPressesOf 0 = [⟨0, true, true, 4, 10, 0, 5⟩] := by
  refine ⟨?_, by decide +kernel, by decide +kernel⟩
  intro e j h
  simp at h
  rcases h with ⟨rfl, rfl⟩ | ⟨rfl, rfl⟩
  · exact .inr ⟨_, _, rfl, by decide⟩
  · exact .inl rfl

/-- A key-on cut off after its instrument was listed (nothing else), and after its note was
recorded (the time is missing); done again, the first is whole, the second has the note twice. -/
example :
    let h : List (Event × Option Nat) := [(.wait 5, none), (.write 0x20 0xC7, none)]
    let a := runCut (h ++ [(.write 0x08 0x78, some 1)])
    let b := runCut (h ++ [(.write 0x08 0x78, some 4)])
    a.configs.length = 1 ∧ a.keyPressesOf 0 = [] ∧
    (b.keyPressesOf 0).length = 1 ∧ b.ticks = [] ∧
    ((a.step (.write 0x08 0x78)).keyPressesOf 0).length = 1 ∧
    (a.step (.write 0x08 0x78)).configs.length = 1 ∧
    ((b.step (.write 0x08 0x78)).keyPressesOf 0).length = 2 ∧
    (b.step (.write 0x08 0x78)).ticks = [5] := by decide +kernel

end VgmX
