import Verif.Lemmas.Watch
import Verif.Lemmas.Sort
/-
C122: looking at a `State` while another thread feeds it.
-/

namespace VgmX
open Spec

theorem changes_put (s : State) (e : Event) : (s.changes e).foldl Store.put s = s.step e := by
  cases e with
  | write r v => exact stores_put s r v
  | wait n => rfl

theorem changes_apart (s : State) (e : Event) : ApartStores (s.changes e) := by
  cases e with
  | write r v => exact stores_apart s r v
  | wait n => exact List.pairwise_singleton _ _

theorem run_snoc' (h : List Event) (e : Event) : run (h ++ [e]) = (run h).step e := by
  unfold run; rw [List.foldl_append]; rfl

/-- Where the thread is: at the beginning, or `j` changes into the command `e`. -/
inductive Where (h : List Event) (f : Feeder) : Prop
  | start (hs : f.state = State.init) (ht : f.todo = []) (hl : f.left = h)
  | within (q : List Event) (e : Event) (j : Nat) (hh : h = q ++ e :: f.left)
      (hs : f.state = (((run q).changes e).take j).foldl Store.put (run q))
      (ht : f.todo = ((run q).changes e).drop j)

theorem Where.step {h : List Event} {f : Feeder} (w : Where h f) : Where h f.step := by
  obtain ⟨s, todo, left⟩ := f
  cases w with
  | start hs ht hl =>
    dsimp only at hs ht hl
    subst hs ht hl
    cases left with
    | nil => exact .start rfl rfl rfl
    | cons e l =>
      exact .within [] e 0 rfl rfl rfl
  | within q e j hh hs ht =>
    dsimp only at hh hs ht
    cases todo with
    | cons x t =>
      refine .within q e (j + 1) hh ?_ ?_
      · have hx : ((run q).changes e)[j]? = some x := by
          rw [← List.head?_drop, ← ht]; rfl
        show x.put s = _
        rw [List.take_succ, hx, hs, List.foldl_append]; rfl
      · show t = _
        rw [← List.tail_drop, ← ht]; rfl
    | nil =>
      have hd : ((run q).changes e).take j = (run q).changes e :=
        List.take_of_length_le (List.drop_eq_nil_iff.mp ht.symm)
      have hr : s = run (q ++ [e]) := by rw [hs, hd, changes_put, run_snoc']
      cases left with
      | nil => exact .within q e j hh hs ht
      | cons e' l =>
        have hh' : h = (q ++ [e]) ++ e' :: l := by rw [hh]; simp
        exact .within (q ++ [e]) e' 0 hh' hr (by rw [hr]; rfl)

theorem where_after (h : List Event) (n : Nat) : Where h ((Feeder.start h).after n) := by
  induction n with
  | zero => exact .start rfl rfl rfl
  | succ n ih => exact ih.step

theorem left_step (f : Feeder) : f.step.left.length ≤ f.left.length := by
  obtain ⟨s, todo, left⟩ := f
  cases todo with
  | cons x t => exact Nat.le_refl _
  | nil =>
    cases left with
    | nil => exact Nat.le_refl _
    | cons e l => exact Nat.le_succ _

theorem left_after (h : List Event) {n m : Nat} (hnm : n ≤ m) :
    ((Feeder.start h).after m).left.length ≤ ((Feeder.start h).after n).left.length := by
  induction m with
  | zero => rw [Nat.le_zero.mp hnm]; exact Nat.le_refl _
  | succ m ih =>
    by_cases e : n = m + 1
    · rw [e]; exact Nat.le_refl _
    · exact Nat.le_trans (left_step _) (ih (by omega))

theorem after_add (f : Feeder) (a b : Nat) : f.after (a + b) = (f.after a).after b := by
  induction b with
  | zero => rfl
  | succ b ih => show (f.after (a + b)).step = ((f.after a).after b).step; rw [ih]

theorem todo_done (todo : List Store) (s : State) (left : List Event) :
    ∃ n s', (Feeder.mk s todo left).after n = ⟨s', [], left⟩ := by
  induction todo generalizing s with
  | nil => exact ⟨0, s, rfl⟩
  | cons x t ih =>
    obtain ⟨n, s', e⟩ := ih (x.put s)
    exact ⟨1 + n, s', by rw [after_add]; exact e⟩

theorem all_done (left : List Event) (todo : List Store) (s : State) :
    ∃ n s', (Feeder.mk s todo left).after n = ⟨s', [], []⟩ := by
  induction left generalizing todo s with
  | nil => exact todo_done todo s []
  | cons e l ih =>
    obtain ⟨n, s', h1⟩ := todo_done todo s (e :: l)
    have : ∃ t, (Feeder.mk s' [] (e :: l)).step = ⟨s', t, l⟩ := ⟨_, rfl⟩
    obtain ⟨t, h2⟩ := this
    obtain ⟨m, s'', h3⟩ := ih t s'
    refine ⟨n + (1 + m), s'', ?_⟩
    rw [after_add, h1, after_add]
    show ((Feeder.mk s' [] (e :: l)).step).after m = _
    rw [h2, h3]

theorem stays (s : State) (n : Nat) : (Feeder.mk s [] []).after n = ⟨s, [], []⟩ := by
  induction n with
  | zero => rfl
  | succ n ih => show ((Feeder.mk s [] []).after n).step = _; rw [ih]; rfl

/-- C122. While one thread gives commands to a state, a thread that looks at any moment sees of
every list and every setting what it was before the command then being carried out, or what it is
after it, and nothing else. The command is the same for all looks at one moment, later moments have
later commands, and in the end it is the last one. -/
theorem c122_between (h : List Event) :
    ∃ k : Nat → Nat, (∀ n m, n ≤ m → k n ≤ k m) ∧
      (∀ n, k n ≤ h.length) ∧
      (∀ n (l : Look), l.at (moment h n) = l.at (run (h.take (k n - 1))) ∨
        l.at (moment h n) = l.at (run (h.take (k n)))) ∧
      ∃ n0, ∀ n, n0 ≤ n → k n = h.length ∧ moment h n = run h := by
  refine ⟨fun n => h.length - ((Feeder.start h).after n).left.length, ?_, ?_, ?_, ?_⟩
  · intro n m hnm
    exact Nat.sub_le_sub_left (left_after h hnm) _
  · intro n; exact Nat.sub_le _ _
  · intro n l
    dsimp only
    have w := where_after h n
    unfold moment
    generalize (Feeder.start h).after n = f at w
    cases w with
    | start hs ht hl =>
      left
      rw [hs, hl, Nat.sub_self]; rfl
    | within q e j hh hs ht =>
      have e1 : h.length - f.left.length = q.length + 1 := by rw [hh]; simp; omega
      have e2 : h.take (h.length - f.left.length - 1) = q := by rw [e1, hh]; simp
      have e3 : h.take (h.length - f.left.length) = q ++ [e] := by
        rw [e1, hh, show q ++ e :: f.left = (q ++ [e]) ++ f.left by simp]
        exact List.take_left' (by simp)
      rw [e2, e3, hs, run_snoc', ← changes_put]
      exact look_between _ (changes_apart _ _) _ _ _
  · obtain ⟨n0, s, e⟩ := all_done h [] State.init
    have e : (Feeder.start h).after n0 = ⟨s, [], []⟩ := e
    have hr : s = run h := by
      have w := where_after h n0
      rw [e] at w
      cases w with
      | start hs ht hl =>
        dsimp only at hs hl
        rw [hs, ← hl]; rfl
      | within q e j hh hs ht =>
        dsimp only at hh hs ht
        rw [hs, List.take_of_length_le (List.drop_eq_nil_iff.mp ht.symm), changes_put, hh, run_snoc']
    refine ⟨n0, fun n hn => ?_⟩
    have e' : (Feeder.start h).after n = ⟨s, [], []⟩ := by
      rw [← Nat.add_sub_cancel' hn, after_add, e, stays]
    exact ⟨by dsimp only; rw [e']; rfl, by unfold moment; rw [e', hr]⟩

/-! ### What there is stays -/

/-- Nothing that could be seen before has gone or changed. -/
def Grown (a b : State) : Prop :=
  a.configs <+: b.configs ∧ (∀ ch, a.keyPressesOf ch <+: b.keyPressesOf ch) ∧
    ∀ t ∈ a.noteBeats, t ∈ b.noteBeats

theorem Grown.refl (a : State) : Grown a a :=
  ⟨List.prefix_rfl, fun _ => List.prefix_rfl, fun _ h => h⟩

theorem Grown.trans {a b c : State} (h1 : Grown a b) (h2 : Grown b c) : Grown a c :=
  ⟨h1.1.trans h2.1, fun ch => (h1.2.1 ch).trans (h2.2.1 ch), fun t h => h2.2.2 t (h1.2.2 t h)⟩

theorem Grown.put (s : State) (x : Store) : Grown s (x.put s) := by
  cases x with
  | append c => exact ⟨List.prefix_append _ _, fun _ => List.prefix_rfl, fun _ h => h⟩
  | press ch n =>
    refine ⟨List.prefix_rfl, fun ch' => ?_, fun _ h => h⟩
    show s.keyPresses.getD ch' [] <+: (s.keyPresses.modify ch _).getD ch' []
    rw [List.getD_eq_getElem?_getD, List.getD_eq_getElem?_getD, List.getElem?_modify]
    cases s.keyPresses[ch']? with
    | none => exact List.prefix_rfl
    | some l =>
      by_cases e : ch = ch'
      · simp [e]
      · simp [e]
  | tick t =>
    refine ⟨List.prefix_rfl, fun _ => List.prefix_rfl, fun t' h => ?_⟩
    show t' ∈ setAdd t s.noteBeats
    unfold setAdd
    split
    · exact h
    · exact List.mem_append_left _ h
  | _ => exact ⟨List.prefix_rfl, fun _ => List.prefix_rfl, fun _ h => h⟩

theorem Grown.step (f : Feeder) : Grown f.state f.step.state := by
  obtain ⟨s, todo, left⟩ := f
  cases todo with
  | cons x t => exact Grown.put s x
  | nil =>
    cases left with
    | nil => exact Grown.refl s
    | cons e l => exact Grown.refl s

theorem moment_grown (h : List Event) {n m : Nat} (hnm : n ≤ m) :
    Grown (moment h n) (moment h m) := by
  induction m with
  | zero => rw [Nat.le_zero.mp hnm]; exact Grown.refl _
  | succ m ih =>
    by_cases e : n = m + 1
    · rw [e]; exact Grown.refl _
    · exact (ih (by omega)).trans (Grown.step _)

theorem moment_end (h : List Event) (n : Nat) : Grown (moment h n) (run h) := by
  obtain ⟨k, _, _, _, n0, hn0⟩ := c122_between h
  have := moment_grown h (Nat.le_max_left n n0)
  rwa [(hn0 _ (Nat.le_max_right n n0)).2] at this

/-! ### What belongs together comes in the right order -/

/-- A note with an instrument that is there, or a key-off. -/
def NoteOk (s : State) (n : Note) : Prop :=
  n.configId = -1 ∨ ∃ i : Nat, n.configId = i ∧ i < s.configs.length

/-- There is a note at this time, with an instrument. -/
def Heard (s : State) (t : Nat) : Prop :=
  ∃ ch, ∃ n ∈ s.keyPressesOf ch, n.sample = t ∧ 0 ≤ n.configId

/-- What holds of a state at all moments. -/
structure Fine (s : State) : Prop where
  channels : s.keyPresses.length = 8
  notes : ∀ ch, ∀ n ∈ s.keyPressesOf ch, NoteOk s n
  ticks : ∀ t ∈ s.noteBeats, t ≠ 0 → Heard s t
  sounding : ∀ c ∈ s.configs, c.operators ≠ 0

/-- A change that may be made now. -/
def Store.Fits (s : State) : Store → Prop
  | .press _ n => NoteOk s n
  | .tick t => t ≠ 0 → Heard s t
  | .append c => c.operators ≠ 0
  | _ => True

/-- Changes that may be made one after the other. -/
def AllFit (s : State) : List Store → Prop
  | [] => True
  | x :: l => x.Fits s ∧ AllFit (x.put s) l

theorem Heard.put {s : State} {t : Nat} (h : Heard s t) (x : Store) : Heard (x.put s) t := by
  obtain ⟨ch, n, hn, h1⟩ := h
  exact ⟨ch, n, ((Grown.put s x).2.1 ch).subset hn, h1⟩

theorem NoteOk.put {s : State} {n : Note} (h : NoteOk s n) (x : Store) : NoteOk (x.put s) n := by
  rcases h with h | ⟨i, e, hi⟩
  · exact .inl h
  · exact .inr ⟨i, e, Nat.lt_of_lt_of_le hi (Grown.put s x).1.length_le⟩

theorem Fine.put {s : State} (hs : Fine s) (x : Store) (hx : x.Fits s) : Fine (x.put s) := by
  refine ⟨?_, ?_, ?_, ?_⟩
  · cases x with
    | press ch n => exact (List.length_modify ..).trans hs.channels
    | _ => exact hs.channels
  · intro ch n hn
    cases x with
    | press ch' n' =>
      have hn : n ∈ (s.keyPresses.modify ch' (· ++ [n'])).getD ch [] := hn
      rw [List.getD_eq_getElem?_getD, List.getElem?_modify] at hn
      have hk : n ∈ s.keyPressesOf ch ∨ n = n' := by
        unfold State.keyPressesOf
        rw [List.getD_eq_getElem?_getD]
        cases hl : s.keyPresses[ch]? with
        | none => rw [hl] at hn; simp at hn
        | some l =>
          rw [hl] at hn
          by_cases e : ch' = ch
          · simpa [e] using hn
          · left; simpa [e] using hn
      rcases hk with hk | rfl
      · exact NoteOk.put (hs.notes ch n hk) (.press ch' n')
      · exact NoteOk.put hx (.press ch' n)
    | _ => exact NoteOk.put (hs.notes ch n hn) _
  · intro t ht h0
    cases x with
    | tick t' =>
      have ht : t ∈ setAdd t' s.noteBeats := ht
      unfold setAdd at ht
      split at ht
      · exact (hs.ticks t ht h0).put _
      · rcases List.mem_append.mp ht with h | h
        · exact (hs.ticks t h h0).put _
        · have : t = t' := by simpa using h
          subst this
          exact Heard.put (hx h0) _
    | _ => exact Heard.put (hs.ticks t ht h0) _
  · intro c hc
    cases x with
    | append c' =>
      rcases List.mem_append.mp hc with h | h
      · exact hs.sounding c h
      · have : c = c' := by simpa using h
        rw [this]; exact hx
    | _ => exact hs.sounding c hc

theorem allFit_key (s : State) (hs : Fine s) (v : Nat) : AllFit s (s.keyStores v) := by
  unfold State.keyStores
  dsimp only
  generalize ho : (v >>> 3) &&& 0xF = op
  generalize hch : v &&& 0x07 = ch
  have hlt : ch < 8 := by rw [← hch]; exact Nat.lt_of_le_of_lt Nat.and_le_right (by decide)
  generalize s.channelConfigs.getD ch {} = channel
  generalize hf : s.configs.findIdx (fun c => c.compare s.base channel op) = found
  have hle : found ≤ s.configs.length := by rw [← hf]; exact List.findIdx_le_length
  -- nothing sounding is found for no operators
  have hop : op = 0 → found = s.configs.length := by
    intro h0
    rcases Nat.lt_or_ge found s.configs.length with hne | hne
    case inr => omega
    have hl : found < s.configs.length := by omega
    have hx := List.findIdx_getElem (xs := s.configs)
      (p := fun c => c.compare s.base channel op) (w := by rw [hf]; exact hl)
    have hm : s.configs.findIdx (fun c => c.compare s.base channel op) < s.configs.length := by
      rw [hf]; exact hl
    refine absurd ?_ (hs.sounding _ (List.getElem_mem hm))
    have key : ∀ c : Config, c.compare s.base channel op = true → c.operators = op := by
      intro c hc
      unfold Config.compare at hc
      simp only [Bool.and_eq_true, beq_iff_eq] at hc
      exact hc.2
    rw [key _ hx, h0]
  by_cases hop0 : op = 0
  · have e := hop hop0
    subst hop0
    rw [e]
    simp only [beq_self_eq_true, bne_self_eq_false, Bool.and_false, Bool.false_and,
      Bool.true_and, if_true, if_false, Bool.false_eq_true, List.nil_append, Int.reduceNeg,
      ge_iff_le, Int.reduceLE, List.append_nil]
    split
    · exact ⟨.inl rfl, trivial⟩
    · trivial
  · have hb : (op != 0) = true := by simpa using hop0
    have hb' : (op == 0) = false := by simpa using hop0
    simp only [hb, hb', Bool.and_true, Bool.true_and, Bool.and_false, Bool.false_eq_true, if_false]
    rw [if_pos (show (found : Int) ≥ 0 by omega)]
    -- the note that is recorded, and the rest of the changes
    have last : ∀ s' : State, s'.keyPresses.length = 8 → found < s'.configs.length →
        ∀ b : Bool, (s.samples ≠ 0 → b = true) → ∀ n : Note, n.configId = found →
          n.sample = s.samples →
          AllFit s' ((if b then [Store.press ch n] else []) ++ [.tick s.samples]) := by
      intro s' hk hc b hb n hn hn'
      cases b with
      | false => exact ⟨fun h => absurd (hb h) (by simp), trivial⟩
      | true =>
        refine ⟨.inr ⟨found, hn, hc⟩, fun _ => ⟨ch, n, ?_, hn', by omega⟩, trivial⟩
        show n ∈ (s'.keyPresses.modify ch (· ++ [n])).getD ch []
        rw [List.getD_eq_getElem?_getD, List.getElem?_modify,
          List.getElem?_eq_getElem (by omega)]
        simp
    have hb3 : s.samples ≠ 0 → truthy (if (!truthy s.firstBeat) = true then some s.samples
        else s.firstBeat) = true := by
      intro h
      cases ht : truthy s.firstBeat with
      | true => simp [ht]
      | false => simp [truthy, h]
    have hlen : found < (s.configs ++ [Config.mk found s.base.copy op channel.copy]).length := by
      rw [List.length_append]; exact Nat.lt_succ_of_le hle
    by_cases hnew : s.configs.length = found
    · rw [if_pos (by simpa using hnew)]
      cases hfb : truthy s.firstBeat with
      | true =>
        rw [hfb] at hb3
        simp only [List.append_assoc, List.cons_append, List.nil_append]
        refine ⟨hop0, trivial, last _ ?_ ?_ _ hb3 _ rfl rfl⟩
        · exact hs.channels
        · exact hlen
      | false =>
        rw [hfb] at hb3
        simp only [List.append_assoc, List.cons_append, List.nil_append]
        refine ⟨hop0, trivial, trivial, last _ ?_ ?_ _ hb3 _ rfl rfl⟩
        · exact hs.channels
        · exact hlen
    · rw [if_neg (by simpa using hnew)]
      cases hfb : truthy s.firstBeat with
      | true =>
        rw [hfb] at hb3
        refine last _ ?_ ?_ _ hb3 _ rfl rfl
        · exact hs.channels
        · omega
      | false =>
        rw [hfb] at hb3
        simp only [List.append_assoc, List.cons_append, List.nil_append]
        refine ⟨trivial, last _ ?_ ?_ _ hb3 _ rfl rfl⟩
        · exact hs.channels
        · show found < s.configs.length; omega

/-- None of the three changes that something depends on. -/
def Store.Plain : Store → Bool
  | .press .. => false
  | .tick _ => false
  | .append _ => false
  | _ => true

theorem allFit_plain (l : List Store) (s : State) (h : l.all Store.Plain = true) : AllFit s l := by
  induction l generalizing s with
  | nil => trivial
  | cons x l ih =>
    obtain ⟨h1, h2⟩ := by simpa using h
    refine ⟨?_, ih _ (by simpa using h2)⟩
    cases x <;> first | trivial | cases h1

theorem allFit_ite {c : Prop} [Decidable c] {s : State} {a b : List Store} (ha : AllFit s a)
    (hb : AllFit s b) : AllFit s (if c then a else b) := by
  by_cases h : c
  · rw [if_pos h]; exact ha
  · rw [if_neg h]; exact hb

theorem allFit_changes (s : State) (hs : Fine s) (e : Event) : AllFit s (s.changes e) := by
  cases e with
  | wait n => exact ⟨trivial, trivial⟩
  | write r v =>
    show AllFit s (s.stores r v)
    unfold State.stores
    dsimp only
    refine allFit_ite (allFit_key s hs v) ?_
    repeat' refine allFit_ite ?_ ?_
    all_goals exact allFit_plain _ _ rfl

theorem fine_init : Fine State.init := by
  refine ⟨rfl, ?_, ?_, ?_⟩
  · intro ch n hn
    have : n ∈ (List.replicate 8 ([] : List Note)).getD ch [] := hn
    rw [List.getD_eq_getElem?_getD, List.getElem?_replicate] at this
    split at this <;> simp at this
  · intro t ht; cases ht
  · intro c hc; cases hc

theorem fine_step (f : Feeder) (h : Fine f.state ∧ AllFit f.state f.todo) :
    Fine f.step.state ∧ AllFit f.step.state f.step.todo := by
  obtain ⟨s, todo, left⟩ := f
  cases todo with
  | cons x t => exact ⟨h.1.put x h.2.1, h.2.2⟩
  | nil =>
    cases left with
    | nil => exact h
    | cons e l => exact ⟨h.1, allFit_changes s h.1 e⟩

theorem fine_moment (h : List Event) (n : Nat) : Fine (moment h n) := by
  have : Fine ((Feeder.start h).after n).state ∧
      AllFit ((Feeder.start h).after n).state ((Feeder.start h).after n).todo := by
    induction n with
    | zero => exact ⟨fine_init, trivial⟩
    | succ n ih => exact fine_step _ ih
  exact this.1

theorem mem_ticks_iff (s : State) (t : Nat) : t ∈ s.ticks ↔ t ∈ s.noteBeats :=
  (pySorted_perm _ _).mem_iff

/-- C122. What has been seen stays: in what is seen later, and in the end, the instruments and the
notes of every channel begin with those seen before, unchanged, and the times are among those. -/
theorem c122_stays (h : List Event) (n m : Nat) (hnm : n ≤ m) :
    ((moment h n).configs <+: (moment h m).configs ∧ (moment h m).configs <+: (run h).configs) ∧
    (∀ ch, (moment h n).keyPressesOf ch <+: (moment h m).keyPressesOf ch ∧
      (moment h m).keyPressesOf ch <+: (run h).keyPressesOf ch) ∧
    ∀ t, (t ∈ (moment h n).ticks → t ∈ (moment h m).ticks) ∧
      (t ∈ (moment h m).ticks → t ∈ (run h).ticks) :=
  ⟨⟨(moment_grown h hnm).1, (moment_end h m).1⟩,
    fun ch => ⟨(moment_grown h hnm).2.1 ch, (moment_end h m).2.1 ch⟩,
    fun t => by
      simp only [mem_ticks_iff]
      exact ⟨(moment_grown h hnm).2.2 t, (moment_end h m).2.2 t⟩⟩

/-- C122. Whoever sees a note finds its instrument when looking for it then or later, complete: it
is the one that has this number in the end. (Only key-offs have none.) -/
theorem c122_instrument (h : List Event) (n m : Nat) (hnm : n ≤ m) (ch : Nat) (note : Note)
    (hn : note ∈ (moment h n).keyPressesOf ch) :
    note.configId = -1 ∨ ∃ (i : Nat) (c : Config), note.configId = i ∧
      (moment h m).configs[i]? = some c ∧ (run h).configs[i]? = some c := by
  rcases (fine_moment h n).notes ch note hn with h1 | ⟨i, e, hi⟩
  · exact .inl h1
  · have h2 : ∀ l, (moment h n).configs <+: l → l[i]? = some (moment h n).configs[i] := by
      intro l hl
      exact (List.prefix_iff_getElem?.mp hl) i hi
    exact .inr ⟨i, _, e, h2 _ (moment_grown h hnm).1, h2 _ (moment_end h n).1⟩

/-- C122. Whoever sees a time in `ticks()` finds a note with this time and an instrument, then or
later. (Except time 0, at which keys may be pressed that are not recorded.) -/
theorem c122_tick (h : List Event) (n m : Nat) (hnm : n ≤ m) (t : Nat)
    (ht : t ∈ (moment h n).ticks) (h0 : t ≠ 0) :
    ∃ ch, ∃ note ∈ (moment h m).keyPressesOf ch, note.sample = t ∧ 0 ≤ note.configId := by
  obtain ⟨ch, note, h1, h2⟩ := (fine_moment h n).ticks t ((mem_ticks_iff _ t).mp ht) h0
  exact ⟨ch, note, ((moment_grown h hnm).2.1 ch).subset h1, h2⟩

/-! ### A case -/

/-- Two commands that set up a sound, a key-on, and another instrument. -/
def watchSample : List Event :=
  [.write 0x20 0xC7, .write 0x28 0x4A, .wait 5, .write 0x08 0x78, .wait 5, .write 0x0F 0x9F,
   .write 0x08 0x78]

/-- A look in the middle of the key-on: the instrument is there, the note is not. One step later
but one the note is there, the time is not yet. -/
example :
    (moment watchSample 12).configs.length = 1 ∧ (moment watchSample 12).keyPressesOf 0 = [] ∧
    (moment watchSample 15).keyPressesOf 0 = [⟨0, true, true, 4, 10, 0, 5⟩] ∧
    (moment watchSample 15).ticks = [] ∧ (moment watchSample 16).ticks = [5] := by
  decide +kernel

/-- Half of the noise register: the enable bit is set, the frequency is not. -/
example :
    ((moment watchSample 20).channelConfig 7).noise = true ∧
    ((moment watchSample 20).channelConfig 7).noiseFreq = 0 ∧
    ((run watchSample).channelConfig 7).noiseFreq = 31 := by decide +kernel

/-- C122. What is *not* so: `extract_tracks_to_xrns` in another thread takes the number of
instruments before it takes the notes, so it can make a song with a note whose instrument is not in
the song. -/
theorem c122_export_dangling : ∃ (h : List Event) (n : Nat) (song : Song),
    exportWatching (moment h n) (fun _ => run h) 1000 = .ok song ∧ song.instruments.length = 0 ∧
    ∃ p ∈ song.patternPool.patterns, ∃ t ∈ p.tracks, ∃ l ∈ t.lines,
      l.2.instrument = some "00".toList := by
  have key : (match exportWatching (moment watchSample 0) (fun _ => run watchSample) 1000 with
      | .error _ => false
      | .ok song => decide (song.instruments.length = 0 ∧
          ∃ p ∈ song.patternPool.patterns, ∃ t ∈ p.tracks, ∃ l ∈ t.lines,
            l.2.instrument = some "00".toList)) = true := by decide +kernel
  cases hs : exportWatching (moment watchSample 0) (fun _ => run watchSample) 1000 with
  | error e => rw [hs] at key; cases key
  | ok song =>
    rw [hs] at key
    exact ⟨watchSample, 0, song, hs, of_decide_eq_true key⟩

end VgmX
