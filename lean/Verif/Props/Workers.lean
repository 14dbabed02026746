import Verif.Spec.Workers
import Verif.Props.SharedReader
import Verif.Props.FeedersExport
import Verif.Props.FeedersEnd
import Verif.Props.Size
import Verif.Props.Calls
/-
Threads that share a reader and a state.
-/

namespace VgmX
open Spec

theorem Workers.step_none {w : Workers} {i : Nat} (h : w.threads[i]? = none) : w.step i = w := by
  unfold Workers.step; rw [h]

theorem Workers.step_over {w : Workers} {i : Nat} {t : Worker} (h : w.threads[i]? = some t)
    (hs : t.stage = .over) : w.step i = w := by
  unfold Workers.step; rw [h]; simp only; rw [hs]

theorem Workers.step_read {w : Workers} {i n : Nat} {t : Worker} {c : Option NextCall}
    {k : Bytes → NextCall} (h : w.threads[i]? = some t) (hs : t.stage = .reading c)
    (hc : c.getD nextReads = .read n k) :
    w.step i = { w with
      file := (w.file.read n).2
      threads := w.threads.set i { t with stage := .reading (some (k (w.file.read n).1)) } } := by
  unfold Workers.step; rw [h]; simp only; rw [hs]; simp only; rw [hc]

theorem Workers.step_back {w : Workers} {i : Nat} {t : Worker} {c : Option NextCall}
    {r : Option (Except PyErr Cmd)} (h : w.threads[i]? = some t) (hs : t.stage = .reading c)
    (hc : c.getD nextReads = .back r) :
    w.step i = { w with threads := w.threads.set i ⟨.take r, t.got ++ [r]⟩ } := by
  unfold Workers.step; rw [h]; simp only; rw [hs]; simp only; rw [hc]

theorem Workers.step_done {w : Workers} {i : Nat} {t : Worker} (h : w.threads[i]? = some t)
    (hs : t.stage = .feeding .done) :
    w.step i = { w with threads := w.threads.set i { t with stage := .reading none } } := by
  unfold Workers.step; rw [h]; simp only; rw [hs]

theorem Workers.step_feed {w : Workers} {i : Nat} {t : Worker} {p : Prog} (h : w.threads[i]? = some t)
    (hs : t.stage = .feeding p) (hp : p ≠ .done) :
    w.step i = { w with
      shared := (p.step w.shared).1
      threads := w.threads.set i { t with stage := .feeding (p.step w.shared).2 } } := by
  unfold Workers.step; rw [h]; simp only; rw [hs]
  cases p <;> first | rfl | exact absurd rfl hp

theorem feeders_begin {f : Feeders} {i : Nat} {e : Event} {l : List Event}
    (h : f.threads[i]? = some (.done, e :: l)) :
    f.step i = { f with threads := f.threads.set i (callProg e, l) } := by
  unfold Feeders.step; rw [h]

theorem feeders_go {f : Feeders} {i : Nat} {p : Prog} {l : List Event}
    (h : f.threads[i]? = some (p, l)) (hp : p ≠ .done) :
    f.step i = ⟨(p.step f.shared).1, f.threads.set i ((p.step f.shared).2, l)⟩ := by
  unfold Feeders.step; rw [h]
  cases p <;> first | rfl | exact absurd rfl hp

/-- What a thread is to the reader. -/
def Worker.asSharer (t : Worker) : Sharer :=
  ⟨match t.stage with | .reading c => c | _ => none, t.got⟩

/-- What a thread is doing to the state. -/
def Worker.prog (t : Worker) : Prog :=
  match t.stage with
  | .feeding p => p
  | _ => .done

theorem eventsOf_append (a : List (Option (Except PyErr Cmd))) (r : Option (Except PyErr Cmd)) :
    eventsOf (a ++ [r]) = eventsOf a ++ eventsOf [r] := by
  simp [eventsOf]

/-- What `next` gave brings either nothing, or one call on the state. -/
theorem take_cases (r : Option (Except PyErr Cmd)) :
    (eventsOf [r] = [] ∧ (LoopStage.take r = .over ∨ LoopStage.take r = .reading none)) ∨
      ∃ e, eventsOf [r] = [e] ∧ LoopStage.take r = .feeding (callProg e) := by
  match r with
  | none => left; exact ⟨rfl, .inl rfl⟩
  | some (.error _) => left; exact ⟨rfl, .inl rfl⟩
  | some (.ok (.ym2151 _ r v)) => right; exact ⟨_, rfl, rfl⟩
  | some (.ok (.wait _ (some n))) => right; exact ⟨_, rfl, rfl⟩
  | some (.ok (.wait _ none)) => left; exact ⟨rfl, .inl rfl⟩
  | some (.ok (.plain _ _)) => left; exact ⟨rfl, .inr rfl⟩
  | some (.ok (.eos _)) => left; exact ⟨rfl, .inr rfl⟩

/-- The reader's part of the threads. -/
def AsReaders (f : Stream) (n : Nat) (w : Workers) : Prop :=
  ∃ o, ((Sharers.start f n).after o).file = w.file ∧
    ((Sharers.start f n).after o).threads = w.threads.map Worker.asSharer

theorem after_snoc_readers (w : Sharers) (o : List Nat) (i : Nat) :
    w.after (o ++ [i]) = (w.after o).step i := by
  unfold Sharers.after; rw [List.foldl_append]; rfl

theorem after_snoc_feeders (w : Feeders) (o : List Nat) (i : Nat) :
    w.after (o ++ [i]) = (w.after o).step i := by
  unfold Feeders.after; rw [List.foldl_append]; rfl

theorem map_set_same {l : List Worker} {i : Nat} {t u : Worker} (h : l[i]? = some t)
    (he : u.asSharer = t.asSharer) :
    (l.set i u).map Worker.asSharer = l.map Worker.asSharer := by
  rw [List.map_set, he]
  apply List.ext_getElem?
  intro j
  rw [List.getElem?_set]
  by_cases hij : i = j
  · subst hij
    have hlt : i < l.length := (List.getElem?_eq_some_iff.1 h).1
    have e : l[i] = t := (List.getElem?_eq_some_iff.1 h).2
    simp [hlt, e]
  · rw [if_neg hij]

theorem AsReaders.step {f : Stream} {n : Nat} {w : Workers} (h : AsReaders f n w) (i : Nat) :
    AsReaders f n (w.step i) := by
  obtain ⟨o, hf, ht⟩ := h
  cases hi : w.threads[i]? with
  | none => rw [Workers.step_none hi]; exact ⟨o, hf, ht⟩
  | some t =>
    have hs : ((Sharers.start f n).after o).threads[i]? = some t.asSharer := by
      rw [ht, List.getElem?_map, hi]; rfl
    cases hst : t.stage with
    | over => rw [Workers.step_over hi hst]; exact ⟨o, hf, ht⟩
    | feeding p =>
      by_cases hp : p = .done
      · subst hp
        rw [Workers.step_done hi hst]
        refine ⟨o, hf, ?_⟩
        rw [ht]
        exact (map_set_same hi (by simp [Worker.asSharer, hst])).symm
      · rw [Workers.step_feed hi hst hp]
        refine ⟨o, hf, ?_⟩
        rw [ht]
        exact (map_set_same hi (by simp [Worker.asSharer, hst])).symm
    | reading c =>
      have hc : t.asSharer.call = c := by simp [Worker.asSharer, hst]
      cases hk : c.getD nextReads with
      | read m k =>
        rw [Workers.step_read hi hst hk]
        refine ⟨o ++ [i], ?_⟩
        rw [after_snoc_readers, Sharers.step_read hs (by rw [hc]; exact hk), hf, ht]
        refine ⟨rfl, ?_⟩
        rw [List.map_set]
        rfl
      | back r =>
        rw [Workers.step_back hi hst hk]
        refine ⟨o ++ [i], ?_⟩
        rw [after_snoc_readers, Sharers.step_back hs (by rw [hc]; exact hk), ht]
        refine ⟨hf, ?_⟩
        rw [List.map_set]
        unfold Worker.asSharer
        rcases take_cases r with ⟨_, h1 | h1⟩ | ⟨e, _, h1⟩ <;> simp [h1]

/-- The state's part of the threads, whatever calls they are going to make. -/
def AsFeeders (n : Nat) (w : Workers) : Prop :=
  w.threads.length = n ∧ ∃ o, ∀ calls : List (List Event), calls.length = n →
    (∀ i t, w.threads[i]? = some t → eventsOf t.got <+: calls.getD i []) →
    ((Feeders.start calls).after o).shared = w.shared ∧
    ∀ i t, w.threads[i]? = some t → ((Feeders.start calls).after o).threads[i]? =
      some (t.prog, (calls.getD i []).drop (eventsOf t.got).length)

theorem get_set_cases {α : Type} {l : List α} {i j : Nat} {a b : α} (h : (l.set i a)[j]? = some b) :
    (i = j ∧ b = a) ∨ (i ≠ j ∧ l[j]? = some b) := by
  rw [List.getElem?_set] at h
  by_cases hij : i = j
  · left
    rw [if_pos hij] at h
    split at h
    · exact ⟨hij, (Option.some.inj h).symm⟩
    · cases h
  · right
    rw [if_neg hij] at h
    exact ⟨hij, h⟩

theorem AsFeeders.same {n : Nat} {w : Workers} (h : AsFeeders n w) {i : Nat} {t u : Worker}
    (hi : w.threads[i]? = some t) (hg : eventsOf u.got = eventsOf t.got) (hp : u.prog = t.prog)
    (f : Stream) : AsFeeders n { w with file := f, threads := w.threads.set i u } := by
  obtain ⟨hl, o, h⟩ := h
  refine ⟨by simpa using hl, o, fun calls hn hc => ?_⟩
  obtain ⟨h1, h2⟩ := h calls hn (fun j x hx => by
    by_cases hij : i = j
    · subst hij
      rw [hi] at hx
      cases hx
      rw [← hg]
      exact hc i u (by
        have hlt : i < w.threads.length := (List.getElem?_eq_some_iff.1 hi).1
        simp [hlt])
    · exact hc j x (by simpa [List.getElem?_set, hij] using hx))
  refine ⟨h1, fun j x hx => ?_⟩
  rcases get_set_cases hx with ⟨rfl, rfl⟩ | ⟨_, hx⟩
  · rw [h2 i t hi, hp, hg]
  · exact h2 j x hx

theorem AsFeeders.step {n : Nat} {w : Workers} (h : AsFeeders n w) (i : Nat) :
    AsFeeders n (w.step i) := by
  cases hi : w.threads[i]? with
  | none => rw [Workers.step_none hi]; exact h
  | some t =>
    have hlt : i < w.threads.length := (List.getElem?_eq_some_iff.1 hi).1
    cases hst : t.stage with
    | over => rw [Workers.step_over hi hst]; exact h
    | feeding p =>
      by_cases hp : p = .done
      · subst hp
        rw [Workers.step_done hi hst]
        exact h.same (u := { t with stage := .reading none }) hi rfl (by simp [Worker.prog, hst]) _
      · rw [Workers.step_feed hi hst hp]
        obtain ⟨hl, o, h⟩ := h
        refine ⟨by simpa using hl, o ++ [i], fun calls hn hc => ?_⟩
        obtain ⟨h1, h2⟩ := h calls hn (fun j x hx => by
          by_cases hij : i = j
          · subst hij
            rw [hi] at hx
            cases hx
            exact hc i { t with stage := .feeding (p.step w.shared).2 } (by simp [hlt])
          · exact hc j x (by simpa [List.getElem?_set, hij] using hx))
        have hti := h2 i t hi
        have hpt : t.prog = p := by simp [Worker.prog, hst]
        rw [hpt] at hti
        rw [after_snoc_feeders, feeders_go hti hp, h1]
        refine ⟨rfl, fun j x hx => ?_⟩
        have hfl : i < ((Feeders.start calls).after o).threads.length :=
          (List.getElem?_eq_some_iff.1 hti).1
        rcases get_set_cases hx with ⟨rfl, rfl⟩ | ⟨hij, hx⟩
        · simp [hfl, Worker.prog]
        · simp only [List.getElem?_set, if_neg hij]
          exact h2 j x hx
    | reading c =>
      have hpd : t.prog = .done := by simp [Worker.prog, hst]
      cases hk : c.getD nextReads with
      | read m k =>
        rw [Workers.step_read hi hst hk]
        exact h.same (u := { t with stage := .reading (some (k (w.file.read m).1)) }) hi rfl
          (by simp [Worker.prog, hst]) _
      | back r =>
        rw [Workers.step_back hi hst hk]
        rcases take_cases r with ⟨he, h1⟩ | ⟨e, he, h1⟩
        · refine h.same hi (by simp only; rw [eventsOf_append, he, List.append_nil]) ?_ w.file
          rw [hpd]
          rcases h1 with h1 | h1 <;> simp [Worker.prog, h1]
        · obtain ⟨hl, o, h⟩ := h
          refine ⟨by simpa using hl, o ++ [i], fun calls hn hc => ?_⟩
          have hci := hc i ⟨.take r, t.got ++ [r]⟩ (by simp [hlt])
          simp only at hci
          rw [eventsOf_append, he] at hci
          obtain ⟨rest, hrest⟩ := hci
          obtain ⟨h3, h2⟩ := h calls hn (fun j x hx => by
            by_cases hij : i = j
            · subst hij
              rw [hi] at hx
              cases hx
              exact ⟨e :: rest, by rw [← hrest]; simp⟩
            · exact hc j x (by simpa [List.getElem?_set, hij] using hx))
          have hti := h2 i t hi
          rw [hpd, ← hrest] at hti
          have hd : ((eventsOf t.got ++ [e] ++ rest).drop (eventsOf t.got).length) = e :: rest := by
            rw [List.append_assoc, List.drop_left]; rfl
          rw [hd] at hti
          rw [after_snoc_feeders, feeders_begin hti]
          refine ⟨h3, fun j x hx => ?_⟩
          have hfl : i < ((Feeders.start calls).after o).threads.length :=
            (List.getElem?_eq_some_iff.1 hti).1
          rcases get_set_cases hx with ⟨rfl, rfl⟩ | ⟨hij, hx⟩
          · have hd2 : (calls.getD i []).drop (eventsOf (t.got ++ [r])).length = rest := by
              rw [eventsOf_append, he, ← hrest, List.drop_left]
            simp only [List.getElem?_set, if_pos hfl]
            rw [hd2]
            simp [Worker.prog, h1]
          · simp only [List.getElem?_set, if_neg hij]
            exact h2 j x hx

theorem workers_after {f : Stream} {n : Nat} : ∀ (order : List Nat) {w : Workers},
    AsReaders f n w → AsFeeders n w → AsReaders f n (w.after order) ∧ AsFeeders n (w.after order)
  | [], _, h, h' => ⟨h, h'⟩
  | i :: is, _, h, h' => workers_after is (h.step i) (h'.step i)

theorem workers_start (f : Stream) (n : Nat) :
    AsReaders f n (Workers.start f n) ∧ AsFeeders n (Workers.start f n) := by
  have hthread : ∀ (i : Nat) (t : Worker), (Workers.start f n).threads[i]? = some t → t = ⟨.reading none, []⟩ := by
    intro i t ht
    have := List.mem_of_getElem? ht
    simp only [Workers.start, List.mem_replicate] at this
    exact this.2
  refine ⟨⟨[], rfl, ?_⟩, ?_⟩
  · simp [Sharers.start, Sharers.after, Workers.start, Worker.asSharer]
  · refine ⟨by simp [Workers.start], ([] : List Nat), ?_⟩
    intro calls hn _
    refine ⟨rfl, fun i t ht => ?_⟩
    have hlt : i < n := by
      have := (List.getElem?_eq_some_iff.1 ht).1
      simpa [Workers.start] using this
    rw [hthread i t ht]
    simp [Feeders.start, Feeders.after, Worker.prog, eventsOf, List.getElem?_map,
      List.getD_eq_getElem?_getD, List.getElem?_eq_getElem (show i < calls.length by omega)]

/-- C129: what the threads make is what threads make that take commands from one reader (C128), and
what threads make that give those commands to one state (C124). -/
theorem c129_split (f : Stream) (n : Nat) (order : List Nat) :
    let w := (Workers.start f n).after order
    (∃ o, ((Sharers.start f n).after o).file = w.file ∧
      ((Sharers.start f n).after o).threads.map (·.done) = w.threads.map (·.got)) ∧
    ∃ o, workedOn f n order = fedBy (workOf w) o := by
  intro w
  obtain ⟨⟨o, h1, h2⟩, hl, o', h3⟩ := workers_after order (workers_start f n).1 (workers_start f n).2
  refine ⟨⟨o, h1, ?_⟩, o', ?_⟩
  · rw [h2, List.map_map]; rfl
  · have := (h3 (workOf w) (by simpa [workOf] using hl) (fun i t ht => by
      have : (workOf w).getD i [] = eventsOf t.got := by
        simp only [workOf, List.getD_eq_getElem?_getD, List.getElem?_map]
        rw [ht]; rfl
      rw [this])).1
    show Shared.view _ = Shared.view _
    rw [this]

/-! ### What it costs -/

/-- Every register write counts 65535, every sample of time one. -/
def expense (h : List Event) : Nat := 65535 * writeCount h + time h

theorem expense_append (a b : List Event) : expense (a ++ b) = expense a + expense b := by
  unfold expense writeCount time
  simp only [List.map_append, List.sum_append]
  omega

theorem next_expense {g : Bytes} {c : Cmd}
    (h : next ⟨g, 0⟩ = (some (.ok c), ⟨g, g.length⟩)) : expense (history [c]) ≤ 21845 * g.length := by
  obtain ⟨_, _, r, h3, h4⟩ := next_progress h
  have hr : r.length = 0 := by rw [← h4]; simp [Stream.rest]
  have := (step_cost h3).2
  rw [hr] at this
  have hg : (Stream.mk g 0).rest.length = g.length := by simp [Stream.rest]
  rw [hg] at this
  unfold expense
  omega

theorem eventsOf_expense (L : Nat → Nat) (d : List (Option (Except PyErr Cmd)))
    (h : ∀ c r, d[c]? = some r → expense (eventsOf [r]) ≤ 21845 * L c) :
    expense (eventsOf d) ≤ 21845 * ((List.range d.length).map L).sum := by
  induction d using List.reverseRecOn with
  | nil => simp [eventsOf, expense, writeCount, time]
  | append_singleton d r ih =>
    have h1 := ih (fun c x hx => h c x (by
      rw [List.getElem?_append_left (List.getElem?_eq_some_iff.1 hx).1]; exact hx))
    have h2 := h d.length r (by simp)
    rw [eventsOf_append, expense_append]
    simp only [List.length_append, List.length_singleton, List.range_succ, List.map_append,
      List.sum_append, List.map_cons, List.map_nil, List.sum_cons, List.sum_nil]
    omega

theorem sum_le_range {α : Type} (l : List α) (g : α → Nat) (G : Nat → Nat)
    (h : ∀ (i : Nat) (t : α), l[i]? = some t → g t ≤ G i) :
    (l.map g).sum ≤ ((List.range l.length).map G).sum := by
  induction l using List.reverseRecOn with
  | nil => simp
  | append_singleton l x ih =>
    have h1 := ih (fun i t ht => h i t (by
      rw [List.getElem?_append_left (List.getElem?_eq_some_iff.1 ht).1]; exact ht))
    have h2 := h l.length x (by simp)
    simp only [List.length_append, List.length_singleton, List.range_succ, List.map_append,
      List.sum_append, List.map_cons, List.map_nil, List.sum_cons, List.sum_nil]
    omega

theorem sum_range_le (n : Nat) (A B : Nat → Nat) (h : ∀ i, i < n → A i ≤ B i) :
    ((List.range n).map A).sum ≤ ((List.range n).map B).sum := by
  induction n with
  | zero => simp
  | succ n ih =>
    have h1 := ih (fun i hi => h i (by omega))
    have h2 := h n (by omega)
    simp only [List.range_succ, List.map_append, List.sum_append, List.map_cons, List.map_nil,
      List.sum_cons, List.sum_nil]
    omega

theorem sum_range_add (n : Nat) (A B : Nat → Nat) :
    ((List.range n).map fun i => A i + B i).sum =
      ((List.range n).map A).sum + ((List.range n).map B).sum := by
  induction n with
  | zero => simp
  | succ n ih =>
    simp only [List.range_succ, List.map_append, List.sum_append, List.map_cons, List.map_nil,
      List.sum_cons, List.sum_nil, ih]
    omega

theorem sum_range_mul (n m : Nat) (A : Nat → Nat) :
    ((List.range n).map fun i => m * A i).sum = m * ((List.range n).map A).sum := by
  induction n with
  | zero => simp
  | succ n ih =>
    simp only [List.range_succ, List.map_append, List.sum_append, List.map_cons, List.map_nil,
      List.sum_cons, List.sum_nil, ih, Nat.mul_add, Nat.mul_zero, Nat.add_zero]

theorem sum_range_ite (n x a : Nat) :
    ((List.range n).map fun c => if x = c then a else 0).sum = if x < n then a else 0 := by
  induction n with
  | zero => simp
  | succ n ih =>
    simp only [List.range_succ, List.map_append, List.sum_append, List.map_cons, List.map_nil,
      List.sum_cons, List.sum_nil, ih]
    split_ifs <;> omega

/-- How many bytes call `c` of thread `i` has in a list of reads. -/
def lenIn (l : List (Nat × Nat × Bytes)) (i c : Nat) : Nat :=
  ((l.filter fun x => x.1 == i && x.2.1 == c).map fun x => x.2.2).flatten.length

theorem lenIn_cons (x : Nat × Nat × Bytes) (l : List (Nat × Nat × Bytes)) (i c : Nat) :
    lenIn (x :: l) i c = (if x.1 = i then (if x.2.1 = c then x.2.2.length else 0) else 0) +
      lenIn l i c := by
  unfold lenIn
  by_cases h1 : x.1 = i
  · by_cases h2 : x.2.1 = c
    · rw [List.filter_cons_of_pos (by simp [h1, h2])]
      simp [h1, h2]
    · rw [List.filter_cons_of_neg (by simp [h2])]
      simp [h2]
  · rw [List.filter_cons_of_neg (by simp [h1])]
    simp [h1]

theorem lenIn_total (n : Nat) (k : Nat → Nat) (l : List (Nat × Nat × Bytes)) :
    ((List.range n).map fun i => ((List.range (k i)).map fun c => lenIn l i c).sum).sum ≤
      ((l.map fun x => x.2.2).flatten).length := by
  induction l with
  | nil =>
    have : ∀ i c, lenIn [] i c = 0 := fun _ _ => rfl
    simp [this]
  | cons x l ih =>
    simp only [lenIn_cons, sum_range_add]
    have h1 : ((List.range n).map fun i => ((List.range (k i)).map fun c =>
        if x.1 = i then (if x.2.1 = c then x.2.2.length else 0) else 0).sum).sum ≤ x.2.2.length := by
      have h2 : ((List.range n).map fun i => ((List.range (k i)).map fun c =>
          if x.1 = i then (if x.2.1 = c then x.2.2.length else 0) else 0).sum).sum ≤
          ((List.range n).map fun i => if x.1 = i then x.2.2.length else 0).sum := by
        apply sum_range_le
        intro i _
        by_cases hi : x.1 = i
        · simp only [if_pos hi, sum_range_ite]
          split_ifs <;> omega
        · simp [if_neg hi]
      rw [sum_range_ite] at h2
      refine h2.trans ?_
      split_ifs <;> omega
    simp only [List.map_cons, List.flatten_cons, List.length_append]
    have ih' : ((List.range n).map fun i => ((List.range (k i)).map (lenIn l i)).sum).sum ≤
      ((l.map fun x => x.2.2).flatten).length := ih
    omega

/-- What all threads together give to the state is paid for in bytes. -/
theorem readers_expense {f : Stream} {n : Nat} {w : Workers} (h : AsReaders f n w) :
    ((workOf w).map expense).sum ≤ 21845 * (f.data.length - f.pos) := by
  obtain ⟨o, h1, h2⟩ := h
  have inv := (Sharers.inv_start f n).after o
  have e : (workOf w).map expense =
      ((Sharers.start f n).after o).threads.map fun t => expense (eventsOf t.done) := by
    rw [h2]
    simp [workOf, List.map_map, Worker.asSharer, Function.comp_def]
  rw [e]
  generalize hS : (Sharers.start f n).after o = S at *
  have h3 := sum_le_range S.threads (fun t => expense (eventsOf t.done))
    (fun i => 21845 * ((List.range (S.threads.getD i ⟨none, []⟩).done.length).map
      fun c => lenIn S.reads i c).sum) (by
    intro i t ht
    have hg : S.threads.getD i ⟨none, []⟩ = t := by
      rw [List.getD_eq_getElem?_getD, ht]; rfl
    rw [hg]
    apply eventsOf_expense
    intro c r hr
    have h4 := (inv.threads i t ht).results c r hr
    match r, h4 with
    | none, _ => simp [eventsOf, expense, writeCount, time]
    | some (.error _), _ => simp [eventsOf, expense, writeCount, time]
    | some (.ok c'), h4 =>
      have e2 : eventsOf [some (.ok c')] = history [c'] := by simp [eventsOf]
      rw [e2]
      exact next_expense h4)
  rw [sum_range_mul] at h3
  have h5 := lenIn_total S.threads.length (fun i => (S.threads.getD i ⟨none, []⟩).done.length) S.reads
  have h6 : ((S.reads.map fun x => x.2.2).flatten).length ≤ f.data.length - f.pos := by
    have := inv.bytes
    unfold allRead at this
    rw [this]
    simp only [List.length_take, List.length_drop]
    omega
  omega

theorem work_expense (f : Stream) (n : Nat) (order : List Nat) :
    ((workOf ((Workers.start f n).after order)).map expense).sum ≤
      21845 * (f.data.length - f.pos) :=
  readers_expense (workers_after order (workers_start f n).1 (workers_start f n).2).1

theorem sum_expense (l : List (List Event)) :
    (l.map expense).sum = 65535 * (l.map writeCount).sum + (l.map time).sum := by
  induction l with
  | nil => rfl
  | cons a l ih =>
    simp only [List.map_cons, List.sum_cons, ih]
    unfold expense
    omega

theorem sum_map_le {l : List (List Event)} {a b : List Event → Nat} (h : ∀ x, a x ≤ b x) :
    (l.map a).sum ≤ (l.map b).sum := by
  induction l with
  | nil => simp
  | cons x l ih =>
    have := h x
    simp only [List.map_cons, List.sum_cons]; omega

theorem keysTo_le (ch : Nat) (h : List Event) : keysTo ch h ≤ writeCount h := by
  unfold keysTo writeCount
  induction h with
  | nil => simp
  | cons e h ih =>
    rw [List.countP_cons]
    simp only [List.map_cons, List.sum_cons]
    cases e with
    | write r v => simp only; split_ifs <;> omega
    | wait n => simpa using ih

theorem keyOns_le (h : List Event) : keyOns h ≤ writeCount h := by
  unfold keyOns writeCount
  induction h with
  | nil => simp
  | cons e h ih =>
    rw [List.countP_cons]
    simp only [List.map_cons, List.sum_cons]
    cases e with
    | write r v => simp only; split_ifs <;> omega
    | wait n => simpa using ih

/-- C129: the state that the threads make. -/
theorem c129_notes (f : Stream) (n : Nat) (order : List Nat) :
    let s := workedOn f n order
    let B := f.data.length - f.pos
    (∀ ch, ∀ k ∈ s.keyPressesOf ch, (k.configId = -1 ∨ 0 ≤ k.configId ∧
        k.configId < s.configs.length) ∧ k.octave < 8 ∧ k.note < 16 ∧ k.keyFraction < 64 ∧
        k.sample ≤ 21845 * B) ∧
    s.samples ≤ 21845 * B ∧ (∀ x ∈ s.ticks, x ≤ 21845 * B) ∧
    3 * s.configs.length ≤ B ∧ ∀ ch, 3 * (s.keyPressesOf ch).length ≤ B := by
  intro s B
  have hc := work_expense f n order
  rw [sum_expense] at hc
  obtain ⟨_, o, ho⟩ := c129_split f n order
  have hs : s = fedBy (workOf ((Workers.start f n).after order)) o := ho
  generalize workOf ((Workers.start f n).after order) = calls at *
  obtain ⟨h1, h2, h3⟩ := c124_notes calls o
  have h4 := c124_instruments calls o
  have h5 := sum_map_le (l := calls) keyOns_le
  rw [hs]
  have hB : (calls.map time).sum ≤ 21845 * B := by show _ ≤ 21845 * (f.data.length - f.pos); omega
  have hW : 3 * (calls.map writeCount).sum ≤ B := by show _ ≤ f.data.length - f.pos; omega
  refine ⟨fun ch k hk => ?_, h2.trans hB, fun x hx => (h3 x hx).trans hB, by omega, fun ch => ?_⟩
  · obtain ⟨a, b, c, d, e⟩ := h1 ch k hk
    exact ⟨a, b, c, d, e.trans hB⟩
  · have h6 := c124_count calls o ch
    have h7 := sum_map_le (l := calls) (keysTo_le ch)
    omega

/-- C129: it can be exported without an error (the file being of a size that can be). -/
theorem c129_exports (f : Stream) (n : Nat) (order : List Nat) (hf : f.data.length < 2 ^ 1000) :
    let s := workedOn f n order
    (∀ ticks : Int, ticks ≠ 0 → ∃ out, extractTracks s ticks = some (out, none)) ∧
    (∀ t : Nat, 0 < t → t < maxTicks → ∃ d, exportXrns s t = .ok d ∧
      d.instruments.length = s.configs.length) ∧
    (∃ text, instrumentsText s = .ok text ∧ Ascii text ∧
      readInstrumentFile text = some (s.configs.map fun c => (c.id, ⟨c.base, c.channel, c.operators⟩))) ∧
    ∃ b, s.ticksPerNote = .ok b := by
  intro s
  have hc := work_expense f n order
  rw [sum_expense] at hc
  obtain ⟨_, o, ho⟩ := c129_split f n order
  have hs : s = fedBy (workOf ((Workers.start f n).after order)) o := ho
  generalize workOf ((Workers.start f n).after order) = calls at *
  rw [hs]
  refine ⟨fun ticks hz => c125_csv calls o ticks hz ?_, fun t h0 hm => ?_, c125_instruments calls o, ?_⟩
  · have h8 : (calls.map time).sum ≤ 21845 * f.data.length := by omega
    have h9 : 21845 * f.data.length < 2 ^ 1023 := by
      have : (2 : Nat) ^ 1023 = 2 ^ 23 * 2 ^ 1000 := by rw [← Nat.pow_add]
      omega
    omega
  · obtain ⟨d, h1, h2, _⟩ := c125_song calls o t h0 hm
    exact ⟨d, h1, h2⟩
  · obtain ⟨b, h1, _⟩ := c125_tempo calls o
    exact ⟨b, h1⟩

/-! ### It ends -/

theorem AsFeeders.state {n : Nat} {w : Workers} (h : AsFeeders n w) :
    ∃ o, ((Feeders.start (workOf w)).after o).shared = w.shared := by
  obtain ⟨hl, o, h⟩ := h
  refine ⟨o, (h (workOf w) (by simpa [workOf] using hl) (fun i t ht => ?_)).1⟩
  have : (workOf w).getD i [] = eventsOf t.got := by
    simp only [workOf, List.getD_eq_getElem?_getD, List.getElem?_map]
    rw [ht]; rfl
  rw [this]

theorem workers_fit {f : Stream} {n : Nat} {w : Workers} (h : AsReaders f n w) (h' : AsFeeders n w) :
    FitsIn ((f.data.length - f.pos) / 3) w.shared := by
  have hc := readers_expense h
  rw [sum_expense] at hc
  have h5 := sum_map_le (l := workOf w) keyOns_le
  obtain ⟨o, ho⟩ := h'.state
  obtain ⟨R, U, C, hs, _, _, hK⟩ := kept_after o (kept_start none (workOf w))
  rw [ho] at hs hK
  have hfew : w.shared.st.configs.length ≤ ((workOf w).map keyOns).sum :=
    Nat.le_trans (Nat.le_add_right _ _) hK
  exact ⟨by omega, hs.four, fun c hc => (hs.instr c hc).1⟩

/-- The threads that have not ended have only got commands. -/
def OkSoFar (w : Workers) : Prop :=
  ∀ (i : Nat) (t : Worker), w.threads[i]? = some t → isOver t = false → ∀ r ∈ t.got, r.isSome = true

theorem OkSoFar.set {w : Workers} (h : OkSoFar w) {i : Nat} {t u : Worker}
    (hi : w.threads[i]? = some t) (ho : isOver u = false → isOver t = false)
    (hg : isOver u = false → ∀ r ∈ u.got, r ∈ t.got ∨ r.isSome = true) (f : Stream) (s : Shared) :
    OkSoFar ⟨f, s, w.threads.set i u⟩ := by
  intro j x hx hxo r hr
  rcases get_set_cases hx with ⟨rfl, rfl⟩ | ⟨_, hx⟩
  · rcases hg hxo r hr with h1 | h1
    · exact h i t hi (ho hxo) r h1
    · exact h1
  · exact h j x hx hxo r hr

theorem OkSoFar.step {w : Workers} (h : OkSoFar w) (i : Nat) : OkSoFar (w.step i) := by
  cases hi : w.threads[i]? with
  | none => rw [Workers.step_none hi]; exact h
  | some t =>
    cases hst : t.stage with
    | over => rw [Workers.step_over hi hst]; exact h
    | feeding p =>
      have ho : isOver t = false := by simp [isOver, hst]
      by_cases hp : p = .done
      · subst hp
        rw [Workers.step_done hi hst]
        exact h.set (u := { t with stage := .reading none }) hi (fun _ => ho) (fun _ r hr => .inl hr) _ _
      · rw [Workers.step_feed hi hst hp]
        exact h.set (u := { t with stage := .feeding (p.step w.shared).2 }) hi (fun _ => ho) (fun _ r hr => .inl hr) _ _
    | reading c =>
      have ho : isOver t = false := by simp [isOver, hst]
      cases hk : c.getD nextReads with
      | read m k =>
        rw [Workers.step_read hi hst hk]
        exact h.set (u := { t with stage := .reading (some (k (w.file.read m).1)) }) hi (fun _ => ho) (fun _ r hr => .inl hr) _ _
      | back r =>
        rw [Workers.step_back hi hst hk]
        refine h.set hi (fun _ => ho) (fun hu x hx => ?_) _ _
        simp only [List.mem_append, List.mem_singleton] at hx
        rcases hx with hx | rfl
        · exact .inl hx
        · right
          cases x with
          | none => simp [isOver, LoopStage.take] at hu
          | some y => rfl

theorem got_le {f : Stream} {n : Nat} {w : Workers} (h : AsReaders f n w) (h' : OkSoFar w) {i : Nat}
    {t : Worker} (hi : w.threads[i]? = some t) (ho : isOver t = false) :
    t.got.length ≤ f.data.length - f.pos := by
  obtain ⟨o, h1, h2⟩ := h
  have h3 := (c128_count f n o).2
  have h4 : t.got.length ≤ given ((Sharers.start f n).after o) := by
    unfold given
    rw [h2, List.map_map]
    have h5 : t.got.filter (fun r => r.isSome) = t.got := by
      rw [List.filter_eq_self]
      exact h' i t hi ho
    have h6 : t.got.length ∈ w.threads.map
        ((fun t : Sharer => (t.done.filter fun r => r.isSome).length) ∘ Worker.asSharer) := by
      refine List.mem_map.2 ⟨t, List.mem_of_getElem? hi, ?_⟩
      show (t.got.filter fun r => r.isSome).length = _
      rw [h5]
    exact List.le_sum_of_mem h6
  omega

/-- A thread ends within `r` more steps of its own (`B` bytes being there at the beginning). -/
def Left (B : Nat) (t : Worker) (r : Nat) : Prop :=
  match t.stage with
  | .over => True
  | .reading none => (B + 1 - t.got.length) * (58 * (B / 3) + 142) ≤ r
  | .reading (some p) => ∃ k ≤ 2, (p = .back none ∨ p.Tame k) ∧
      k + 58 * (B / 3) + 139 + (B - t.got.length) * (58 * (B / 3) + 142) ≤ r
  | .feeding p => ∃ m, EndsBy (B / 3) m p ∧ m + 1 + (B + 1 - t.got.length) * (58 * (B / 3) + 142) ≤ r

theorem left_mono {B : Nat} {t : Worker} {r r' : Nat} (h : Left B t r) (hr : r ≤ r') : Left B t r' := by
  unfold Left at *
  split at h
  · trivial
  · omega
  · obtain ⟨k, a, b, c⟩ := h; exact ⟨k, a, b, by omega⟩
  · obtain ⟨m, a, b⟩ := h; exact ⟨m, a, by omega⟩

theorem Left.step {f : Stream} {n : Nat} {w : Workers} (h : AsReaders f n w) (h' : AsFeeders n w)
    (hok : OkSoFar w) {j r : Nat}
    (hl : ∃ t, w.threads[j]? = some t ∧ Left (f.data.length - f.pos) t r) (i : Nat) :
    ∃ t, (w.step i).threads[j]? = some t ∧
      Left (f.data.length - f.pos) t (r - if i = j then 1 else 0) := by
  have hfit := workers_fit h h'
  have hgot := fun i t => got_le h hok (i := i) (t := t)
  generalize f.data.length - f.pos = B at *
  obtain ⟨t, ht, hl⟩ := hl
  by_cases hij : i = j
  · subst hij
    have hlt : i < w.threads.length := (List.getElem?_eq_some_iff.1 ht).1
    rw [if_pos rfl]
    cases hst : t.stage with
    | over =>
      rw [Workers.step_over ht hst]
      exact ⟨t, ht, by unfold Left; rw [hst]; trivial⟩
    | feeding p =>
      have hg := hgot i t ht (by simp [isOver, hst])
      unfold Left at hl
      rw [hst] at hl
      obtain ⟨m, hm, hr⟩ := hl
      by_cases hp : p = .done
      · subst hp
        rw [Workers.step_done ht hst]
        refine ⟨{ t with stage := .reading none }, by simp [hlt], ?_⟩
        show (B + 1 - t.got.length) * _ ≤ r - 1
        omega
      · rw [Workers.step_feed ht hst hp]
        obtain ⟨h1, h2⟩ := hm.step hfit hp
        exact ⟨{ t with stage := .feeding (p.step w.shared).2 }, by simp [hlt], m - 1, h2,
          by show m - 1 + 1 + (B + 1 - t.got.length) * _ ≤ r - 1; omega⟩
    | reading c =>
      have hg := hgot i t ht (by simp [isOver, hst])
      have hs : B + 1 - t.got.length = (B - t.got.length) + 1 := by omega
      cases hk : c.getD nextReads with
      | read m k =>
        rw [Workers.step_read ht hst hk]
        refine ⟨{ t with stage := .reading (some (k (w.file.read m).1)) }, by simp [hlt], ?_⟩
        unfold Left at hl
        rw [hst] at hl
        cases c with
        | none =>
          simp only [Option.getD_none, nextReads, NextCall.read.injEq] at hk
          obtain ⟨rfl, rfl⟩ := hk
          simp only at hl
          rw [hs, Nat.succ_mul] at hl
          exact ⟨2, Nat.le_refl _, (nextGoes_shape w.file).imp (·.1) id, by
            show 2 + 58 * (B / 3) + 139 + (B - t.got.length) * _ ≤ r - 1
            omega⟩
        | some p =>
          have : p = .read m k := hk
          subst this
          obtain ⟨q, hq, hp, hr⟩ := hl
          rcases hp with hp | hp
          · cases hp
          · cases q with
            | zero => exact hp.elim
            | succ q =>
              exact ⟨q, by omega, .inr (hp _), by
                show q + 58 * (B / 3) + 139 + (B - t.got.length) * _ ≤ r - 1
                omega⟩
      | back x =>
        rw [Workers.step_back ht hst hk]
        refine ⟨⟨.take x, t.got ++ [x]⟩, by simp [hlt], ?_⟩
        cases c with
        | none => exact absurd hk (by simp [nextReads])
        | some p =>
          unfold Left at hl
          rw [hst] at hl
          obtain ⟨q, hq, _, hr⟩ := hl
          have hlen : (t.got ++ [x]).length = t.got.length + 1 := by simp
          have hs2 : B + 1 - (t.got.length + 1) = B - t.got.length := by omega
          unfold Left
          rcases take_cases x with ⟨_, h1 | h1⟩ | ⟨e, _, h1⟩
          · simp only [h1]
          · simp only [h1]
            rw [hlen, hs2]; omega
          · simp only [h1]
            refine ⟨58 * (B / 3) + 137, ends_call (B / 3) e, ?_⟩
            rw [hlen, hs2]; omega
  · rw [if_neg hij]
    refine ⟨t, ?_, hl⟩
    cases hi : w.threads[i]? with
    | none => rw [Workers.step_none hi]; exact ht
    | some u =>
      cases hst : u.stage with
      | over => rw [Workers.step_over hi hst]; exact ht
      | feeding p =>
        by_cases hp : p = .done
        · subst hp
          rw [Workers.step_done hi hst]
          simpa only [List.getElem?_set, if_neg hij] using ht
        · rw [Workers.step_feed hi hst hp]
          simpa only [List.getElem?_set, if_neg hij] using ht
      | reading c =>
        cases hk : c.getD nextReads with
        | read m k =>
          rw [Workers.step_read hi hst hk]
          simpa only [List.getElem?_set, if_neg hij] using ht
        | back x =>
          rw [Workers.step_back hi hst hk]
          simpa only [List.getElem?_set, if_neg hij] using ht

theorem Left.after {f : Stream} {n j : Nat} : ∀ (order : List Nat) {w : Workers} {r : Nat},
    AsReaders f n w → AsFeeders n w → OkSoFar w →
    (∃ t, w.threads[j]? = some t ∧ Left (f.data.length - f.pos) t r) →
    ∃ t, (w.after order).threads[j]? = some t ∧
      Left (f.data.length - f.pos) t (r - order.count j) ∧ OkSoFar (w.after order)
  | [], _, r, _, _, h3, ⟨t, h4, h5⟩ => ⟨t, h4, h5, h3⟩
  | i :: is, w, r, h1, h2, h3, h4 => by
    obtain ⟨t, a, b, c⟩ := Left.after is (h1.step i) (h2.step i) (h3.step i) (Left.step h1 h2 h3 h4 i)
    refine ⟨t, a, ?_, c⟩
    rw [List.count_cons]
    simp only [beq_iff_eq]
    exact left_mono b (by omega)

theorem okSoFar_start (f : Stream) (n : Nat) : OkSoFar (Workers.start f n) := by
  intro i t ht _ r hr
  have := List.mem_of_getElem? ht
  simp only [Workers.start, List.mem_replicate] at this
  rw [this.2] at hr
  cases hr

/-- C129: a thread ends after so many steps of its own, however many or few the others make between
them (`B` bytes being left in the file). -/
theorem c129_ends (f : Stream) (n : Nat) (order : List Nat) (i : Nat) (hi : i < n)
    (hc : let B := f.data.length - f.pos
      (B + 1) * (58 * (B / 3) + 142) ≤ order.count i) :
    ∃ t, ((Workers.start f n).after order).threads[i]? = some t ∧ isOver t = true := by
  obtain ⟨h1, h2⟩ := workers_start f n
  obtain ⟨t, a, b, c⟩ := Left.after (j := i) order h1 h2 (okSoFar_start f n)
    (r := (f.data.length - f.pos + 1) * (58 * ((f.data.length - f.pos) / 3) + 142))
    ⟨⟨.reading none, []⟩, by simp [Workers.start, hi], by
      show (f.data.length - f.pos + 1 - 0) * _ ≤ _
      exact Nat.le_refl _⟩
  refine ⟨t, a, ?_⟩
  obtain ⟨h1', h2'⟩ := workers_after order h1 h2
  cases hov : isOver t with
  | true => rfl
  | false =>
    exfalso
    have hg := got_le h1' c a hov
    simp only at hc
    have hz : (f.data.length - f.pos + 1) * (58 * ((f.data.length - f.pos) / 3) + 142) -
      order.count i = 0 := by omega
    rw [hz] at b
    unfold Left at b
    split at b
    · next hst => simp [isOver, hst] at hov
    · have : 0 < (f.data.length - f.pos + 1 - t.got.length) *
          (58 * ((f.data.length - f.pos) / 3) + 142) := Nat.mul_pos (by omega) (by omega)
      omega
    · obtain ⟨k, _, _, h⟩ := b; omega
    · obtain ⟨m, _, h⟩ := b; omega

end VgmX
