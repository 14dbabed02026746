import Verif.Props.Workers
/-
Threads that share a reader and a state, with a lock.
-/

namespace VgmX
open Spec

theorem yields_snoc {f g g' : Stream} {cs : List Cmd} {c : Cmd} (h : Yields f cs g)
    (hn : next g = (some (.ok c), g')) : Yields f (cs ++ [c]) g' := by
  induction h with
  | nil => exact .cons hn .nil
  | cons h1 _ ih => exact .cons h1 (ih hn)

theorem yields_runs {f g : Stream} {cs ds : List Cmd} {o : Outcome} (h : Yields f cs g)
    (hr : Runs g ds o) : Runs f (cs ++ ds) o := by
  induction h with
  | nil => exact hr
  | cons h1 _ ih => exact .yield h1 (ih hr)

theorem atEnd_next {g : Stream} (h : atEnd g) : next g = (none, g) := by
  unfold next
  rw [shr_read_atEnd h]

theorem rest_atEnd {g : Stream} (h : g.rest = []) : atEnd g := by
  have := congrArg List.length h
  simp only [Stream.rest, List.length_drop, List.length_nil] at this
  unfold atEnd
  omega

/-- The state `s` is what one thread has made when the file is at `g`; `ended` if a thread has ended. -/
def Sofar (f g : Stream) (s : State) (ended : Prop) : Prop :=
  (¬ ended ∧ ∃ cs, Yields f cs g ∧ s = run (history cs)) ∨
    (atEnd g ∧ ∃ cs o, Runs f cs o ∧ s = run (history cs))

/-- Some thread has ended. -/
def someOver (w : Workers) : Prop := ∃ (i : Nat) (t : Worker), w.threads[i]? = some t ∧ isOver t = true

/-- All threads but `i` are between two commands. -/
def othersIdle (w : Workers) (i : Nat) : Prop :=
  ∀ (j : Nat) (t : Worker), j ≠ i → w.threads[j]? = some t → atTop t = true

/-- With a lock, either all threads are between two commands or one of them is on its way. -/
def LockInv (f : Stream) (w : Workers) : Prop :=
  ((∀ (j : Nat) (t : Worker), w.threads[j]? = some t → atTop t = true) ∧ w.shared.cur < w.shared.bases.length ∧
    Sofar f w.file w.shared.view (someOver w)) ∨
  ∃ (i : Nat) (t : Worker), w.threads[i]? = some t ∧ othersIdle w i ∧
    ((∃ p g, t.stage = .reading (some p) ∧ w.shared.cur < w.shared.bases.length ∧
        Sofar f g w.shared.view (someOver w) ∧ p.alone w.file = next g) ∨
      ∃ p s0 e m, t.stage = .feeding p ∧ s0.cur < s0.bases.length ∧
        Sofar f w.file (s0.view.step e) (someOver w) ∧ stepN m s0 (callProg e) = (w.shared, p))

theorem someOver_set {w : Workers} {i : Nat} {t u : Worker} (hi : w.threads[i]? = some t)
    (ht : isOver t = false) (hu : isOver u = false) (f : Stream) (s : Shared) :
    someOver ⟨f, s, w.threads.set i u⟩ ↔ someOver w := by
  have hlt : i < w.threads.length := (List.getElem?_eq_some_iff.1 hi).1
  constructor
  · rintro ⟨j, x, hx, hxo⟩
    rcases get_set_cases hx with ⟨rfl, rfl⟩ | ⟨_, hx⟩
    · rw [hu] at hxo; cases hxo
    · exact ⟨j, x, hx, hxo⟩
  · rintro ⟨j, x, hx, hxo⟩
    by_cases hij : i = j
    · subst hij
      rw [hi] at hx; cases hx
      rw [ht] at hxo; cases hxo
    · exact ⟨j, x, by simpa [List.getElem?_set, hij] using hx, hxo⟩

theorem othersIdle_set {w : Workers} {i : Nat} {u : Worker} (h : othersIdle w i) (f : Stream)
    (s : Shared) : othersIdle ⟨f, s, w.threads.set i u⟩ i := by
  intro j x hji hx
  rcases get_set_cases hx with ⟨rfl, _⟩ | ⟨_, hx⟩
  · exact absurd rfl hji
  · exact h j x hji hx

theorem allIdle_set {w : Workers} {i : Nat} {u : Worker} (h : othersIdle w i) (hu : atTop u = true)
    (f : Stream) (s : Shared) :
    ∀ (j : Nat) (t : Worker), (Workers.mk f s (w.threads.set i u)).threads[j]? = some t → atTop t = true := by
  intro j x hx
  rcases get_set_cases hx with ⟨_, rfl⟩ | ⟨hij, hx⟩
  · exact hu
  · exact h j x (fun e => hij e.symm) hx

theorem Sofar.congr {f g : Stream} {s : State} {a b : Prop} (h : Sofar f g s a) (hab : b ↔ a) :
    Sofar f g s b := by
  rcases h with ⟨h1, h2⟩ | h
  · exact .inl ⟨fun hb => h1 (hab.1 hb), h2⟩
  · exact .inr h

theorem history_snoc (cs : List Cmd) (c : Cmd) : history (cs ++ [c]) = history cs ++ history [c] := by
  unfold history; rw [List.filterMap_append]

theorem LockInv.step {f : Stream} {w : Workers} (h : LockInv f w) (i : Nat)
    (ho : othersIdle w i) : LockInv f (w.step i) := by
  cases hi : w.threads[i]? with
  | none => rw [Workers.step_none hi]; exact h
  | some t =>
    have hlt : i < w.threads.length := (List.getElem?_eq_some_iff.1 hi).1
    have busy : atTop t = false → ∀ (k : Nat) (x : Worker), w.threads[k]? = some x → othersIdle w k →
        k = i := by
      intro htop k x _ hk
      by_contra hne
      have := hk i t (fun e => hne e.symm) hi
      rw [htop] at this; cases this
    have busy' : ∀ (k : Nat) (x : Worker), w.threads[k]? = some x → atTop x = false → k = i := by
      intro k x hk hx
      by_contra hne
      have := ho k x hne hk
      rw [hx] at this; cases this
    cases hst : t.stage with
    | over => rw [Workers.step_over hi hst]; exact h
    | feeding p =>
      have htop : atTop t = false := by simp [atTop, hst]
      have hov : isOver t = false := by simp [isOver, hst]
      rcases h with ⟨h1, _⟩ | ⟨k, x, hk, _, h⟩
      · have := h1 i t hi; rw [htop] at this; cases this
      · have hki : k = i := by
          rcases h with ⟨q, g, hq, _⟩ | ⟨q, s0, e, m, hq, _⟩
          · exact busy' k x hk (by simp [atTop, hq])
          · exact busy' k x hk (by simp [atTop, hq])
        subst hki
        rw [hi] at hk
        cases hk
        rcases h with ⟨q, g, hq, _⟩ | ⟨q, s0, e, m, hq, hc, hs, hm⟩
        · rw [hst] at hq; cases hq
        · rw [hst] at hq
          cases hq
          by_cases hp : p = .done
          · subst hp
            rw [Workers.step_done hi hst]
            obtain ⟨t', a, b, c⟩ := call_ends s0 hc e
            have : t' = w.shared := a.unique ⟨m, hm⟩
            subst this
            exact .inl ⟨allIdle_set ho rfl _ _, c, by
              simp only
              rw [b]
              exact hs.congr (someOver_set hi hov rfl _ _)⟩
          · rw [Workers.step_feed hi hst hp]
            refine .inr ⟨k, { t with stage := .feeding (p.step w.shared).2 }, by simp [hlt],
              othersIdle_set ho _ _, .inr ⟨_, s0, e, m + 1, rfl, hc,
                hs.congr (someOver_set hi hov rfl _ _), ?_⟩⟩
            rw [stepN_add, hm]
            rfl
    | reading c =>
      have hov : isOver t = false := by simp [isOver, hst]
      -- what is known before the step: the rest of the call gives what `next` gives at `g`
      have key : ∃ g, w.shared.cur < w.shared.bases.length ∧
          Sofar f g w.shared.view (someOver w) ∧ (c.getD nextReads).alone w.file = next g := by
        rcases h with ⟨h1, h2, h3⟩ | ⟨k, x, hk, _, h⟩
        · have := h1 i t hi
          cases c with
          | none => exact ⟨w.file, h2, h3, nextReads_alone _⟩
          | some p => simp [atTop, hst] at this
        · have hki : k = i := by
            rcases h with ⟨q, g, hq, _⟩ | ⟨q, s0, e, m, hq, _⟩
            · exact busy' k x hk (by simp [atTop, hq])
            · exact busy' k x hk (by simp [atTop, hq])
          subst hki
          rw [hi] at hk
          cases hk
          rcases h with ⟨q, g, hq, h2, h3, h4⟩ | ⟨q, s0, e, m, hq, _⟩
          · rw [hst] at hq
            cases hq
            exact ⟨g, h2, h3, h4⟩
          · rw [hst] at hq; cases hq
      obtain ⟨g, hcur, hs, hg⟩ := key
      cases hk : c.getD nextReads with
      | read m k =>
        rw [Workers.step_read hi hst hk]
        rw [hk] at hg
        exact .inr ⟨i, { t with stage := .reading (some (k (w.file.read m).1)) }, by simp [hlt],
          othersIdle_set ho _ _, .inl ⟨_, g, rfl, hcur,
            hs.congr (someOver_set hi hov rfl _ _), hg⟩⟩
      | back r =>
        rw [Workers.step_back hi hst hk]
        rw [hk] at hg
        have hg' : next g = (r, w.file) := hg.symm
        have over_some : isOver ⟨.take r, t.got ++ [r]⟩ = true →
            someOver ⟨w.file, w.shared, w.threads.set i ⟨.take r, t.got ++ [r]⟩⟩ :=
          fun h => ⟨i, _, by simp [hlt], h⟩
        match r, hg', over_some with
        | none, hg', _ =>
          have hwg : atEnd w.file := by
            have h1 := next_stop hg'
            have h2 : next g = (none, g) := atEnd_next (rest_atEnd h1)
            rw [hg'] at h2
            have : w.file = g := (Prod.mk.inj h2).2
            rw [this]; exact rest_atEnd h1
          refine .inl ⟨allIdle_set ho rfl _ _, hcur, .inr ⟨hwg, ?_⟩⟩
          rcases hs with ⟨_, cs, h1, h2⟩ | ⟨_, h⟩
          · exact ⟨cs ++ [], .stop, yields_runs h1 (.stop hg'), by simpa using h2⟩
          · exact h
        | some (.error e), hg', _ =>
          rcases hs with ⟨_, cs, h1, h2⟩ | ⟨he, _⟩
          · exact .inl ⟨allIdle_set ho rfl _ _, hcur, .inr ⟨rest_atEnd (next_error_rest hg'), cs ++ [],
              .raised e, yields_runs h1 (.raise hg'), by simpa using h2⟩⟩
          · rw [atEnd_next he] at hg'; cases hg'
        | some (.ok c'), hg', _ =>
          rcases hs with ⟨hno, cs, h1, h2⟩ | ⟨he, _⟩
          · have hy := yields_snoc h1 hg'
            have idle (hev : history [c'] = []) (hstg : LoopStage.take (some (.ok c')) = .reading none) :
                LockInv f ⟨w.file, w.shared, w.threads.set i
                  ⟨.take (some (.ok c')), t.got ++ [some (.ok c')]⟩⟩ := by
              refine .inl ⟨allIdle_set ho (by simp [atTop, hstg]) _ _, hcur, .inl ⟨?_, cs ++ [c'], hy, ?_⟩⟩
              · rw [someOver_set hi hov (by simp [isOver, hstg])]; exact hno
              · rw [history_snoc, hev, List.append_nil]; exact h2
            have feed (e : Event) (hev : history [c'] = [e])
                (hstg : LoopStage.take (some (.ok c')) = .feeding (callProg e)) :
                LockInv f ⟨w.file, w.shared, w.threads.set i
                  ⟨.take (some (.ok c')), t.got ++ [some (.ok c')]⟩⟩ := by
              refine .inr ⟨i, _, by simp only [List.getElem?_set, if_pos hlt]; rfl,
                othersIdle_set ho _ _, .inr
                ⟨callProg e, w.shared, e, 0, hstg, hcur, .inl ⟨?_, cs ++ [c'], hy, ?_⟩, rfl⟩⟩
              · rw [someOver_set hi hov (by simp [isOver, hstg])]; exact hno
              · rw [history_snoc, hev, run_append1, h2]
            match c', hg' with
            | .ym2151 _ r v, _ => exact feed (.write r v) rfl rfl
            | .wait _ (some n), _ => exact feed (.wait n) rfl rfl
            | .wait _ none, hg' => exact absurd hg' next_no_none
            | .plain _ _, _ => exact idle rfl rfl
            | .eos _, _ => exact idle rfl rfl
          · rw [atEnd_next he] at hg'; cases hg'

theorem lockInv_start (f : Stream) (n : Nat) : LockInv f (Workers.start f n) := by
  have hthread : ∀ (i : Nat) (t : Worker), (Workers.start f n).threads[i]? = some t →
      t = ⟨.reading none, []⟩ := by
    intro i t ht
    have := List.mem_of_getElem? ht
    simp only [Workers.start, List.mem_replicate] at this
    exact this.2
  refine .inl ⟨fun j t ht => by rw [hthread j t ht]; rfl, Nat.zero_lt_one, .inl ⟨?_, [], .nil, rfl⟩⟩
  rintro ⟨i, t, ht, ho⟩
  rw [hthread i t ht] at ho
  cases ho

theorem LockInv.after {f : Stream} : ∀ (order : List Nat) {w : Workers}, LockInv f w →
    lockedLoop w order = true → LockInv f (w.after order)
  | [], _, h, _ => h
  | i :: is, w, h, hl => by
    unfold lockedLoop at hl
    rw [Bool.and_eq_true, List.all_eq_true] at hl
    refine LockInv.after is (h.step i ?_) hl.2
    intro j t hji ht
    have hlt : j < w.threads.length := (List.getElem?_eq_some_iff.1 ht).1
    have hm : (t, j) ∈ w.threads.zipIdx := by
      rw [List.mem_zipIdx_iff_getElem?]; exact ht
    have := hl.1 (t, j) hm
    simpa [hji] using this

/-- C129: with a lock, so that one thread at a time takes a command and gives it to the state, the
threads make together what one thread makes: the state after all commands of the file, whether the
file ends regularly or with an exception, which one of the threads gets. -/
theorem c129_locked (f : Stream) (n : Nat) (hn : 0 < n) (order : List Nat)
    (hl : lockedLoop (Workers.start f n) order = true)
    (ho : ((Workers.start f n).after order).threads.all isOver = true) :
    ∃ cs o, Runs f cs o ∧ workedOn f n order = run (history cs) ∧
      (o = .stop → processVgm f = .ok (workedOn f n order)) := by
  have h := LockInv.after order (lockInv_start f n) hl
  rw [List.all_eq_true] at ho
  have hlen : ((Workers.start f n).after order).threads.length = n :=
    (workers_after order (workers_start f n).1 (workers_start f n).2).2.1
  have h0 : ((Workers.start f n).after order).threads[0]? =
      some ((Workers.start f n).after order).threads[0] := List.getElem?_eq_getElem _
  have fin : ∃ cs o, Runs f cs o ∧ workedOn f n order = run (history cs) := by
    rcases h with ⟨_, _, h⟩ | ⟨i, t, hi, _, h⟩
    · rcases h with ⟨h1, _⟩ | ⟨_, h⟩
      · exact absurd ⟨0, _, h0, ho _ (List.mem_of_getElem? h0)⟩ h1
      · exact h
    · have := ho t (List.mem_of_getElem? hi)
      rcases h with ⟨q, g, hq, _⟩ | ⟨q, s0, e, m, hq, _⟩ <;> simp [isOver, hq] at this
  obtain ⟨cs, o, h1, h2⟩ := fin
  refine ⟨cs, o, h1, h2, fun hs => ?_⟩
  rw [processVgm_runs h1, hs, h2]
  rfl

/-- A file with a wait, a register write and a key-on. (For C129.) -/
def sharedFile : Stream := ⟨[0x61, 0x05, 0x00, 0x54, 0x20, 0xC1, 0x54, 0x08, 0x78], 0⟩

/-- Two threads that take turns, and what they have made together. -/
example :
    let order := steps 0 6 ++ steps 1 200 ++ steps 0 10
    lockedLoop (Workers.start sharedFile 2) order = true ∧
    ((Workers.start sharedFile 2).after order).threads.all isOver = true ∧
    workedOn sharedFile 2 order = run [.wait 5, .write 0x20 0xC1, .write 8 0x78] ∧
    ((workedOn sharedFile 2 order).keyPressesOf 0).length = 1 := by
  decide +kernel

/-- The operands of a wait are 71 54. (For C129.) -/
def tangledFile : Stream := ⟨[0x61, 0x71, 0x54, 0x08, 0x78, 0x00], 0⟩

/-- C129 is not that the threads make what the file says: without a lock the operands of a wait, which
another thread takes for commands, can become a note, of which there is none in the file. -/
theorem c129_torn_refuted : ∃ order,
    ((Workers.start tangledFile 2).after order).threads.all isOver = true ∧
    ((workedOn tangledFile 2 order).keyPressesOf 0).length = 1 ∧
    ∃ cs, Runs tangledFile cs .stop ∧ ∀ ch, (run (history cs)).keyPressesOf ch = [] := by
  refine ⟨[0] ++ steps 1 200 ++ steps 0 10, ?_⟩
  refine ⟨by decide +kernel, by decide +kernel,
    [.wait 0x61 (some 0x5471), .plain 8 none, .wait 0x78 (some 9), .plain 0 none], ?_, ?_⟩
  · exact .yield (s' := { tangledFile with pos := 3 }) (by decide +kernel)
      (.yield (s' := { tangledFile with pos := 4 }) (by decide +kernel)
      (.yield (s' := { tangledFile with pos := 5 }) (by decide +kernel)
      (.yield (s' := { tangledFile with pos := 6 }) (by decide +kernel)
      (.stop (s' := { tangledFile with pos := 6 }) (by decide +kernel)))))
  · intro ch
    have h : (run (history [.wait 0x61 (some 0x5471), .plain 8 none, .wait 0x78 (some 9),
        .plain 0 none])).keyPresses = List.replicate 8 [] := by decide +kernel
    unfold State.keyPressesOf
    rw [h]
    simp only [List.getD_eq_getElem?_getD, List.getElem?_replicate]
    split <;> rfl

end VgmX
