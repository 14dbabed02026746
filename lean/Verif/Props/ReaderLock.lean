import Verif.Spec.ReaderLock
import Verif.Props.WorkersLocked
/-
Threads that share a reader and a state, with a lock around the taking of a command only: every command
of the file is given to exactly one of them.
-/

namespace VgmX
open Spec

/-- The file after `m` calls of `next`. -/
def nextFile (f : Stream) : Nat → Stream
  | 0 => f
  | m + 1 => (next (nextFile f m)).2

/-- What `m` calls of `next` give. -/
def nextGot (f : Stream) : Nat → List (Option (Except PyErr Cmd))
  | 0 => []
  | m + 1 => nextGot f m ++ [(next (nextFile f m)).1]

/-- What thread `i` has of it. -/
def dealtTo {α : Type} (i : Nat) (deals : List (Nat × α)) : List α :=
  (deals.filter fun d => d.1 == i).map Prod.snd

def Dealt (f : Stream) (w : Workers) (deals : List (Nat × Option (Except PyErr Cmd))) : Prop :=
  (∀ d ∈ deals, d.1 < w.threads.length) ∧
  deals.map Prod.snd = nextGot f deals.length ∧
  (∀ (i : Nat) (t : Worker), w.threads[i]? = some t → t.got = dealtTo i deals) ∧
  (((∀ (j : Nat) (t : Worker), w.threads[j]? = some t → inNext t = false) ∧
      w.file = nextFile f deals.length) ∨
    ∃ (i : Nat) (t : Worker) (p : NextCall), w.threads[i]? = some t ∧ t.stage = .reading (some p) ∧
      (∀ (j : Nat) (u : Worker), j ≠ i → w.threads[j]? = some u → inNext u = false) ∧
      p.alone w.file = next (nextFile f deals.length))

theorem take_not_inNext (r : Option (Except PyErr Cmd)) (l : List (Option (Except PyErr Cmd))) :
    inNext ⟨.take r, l⟩ = false := by
  match r with
  | none => rfl
  | some (.error _) => rfl
  | some (.ok (.ym2151 _ _ _)) => rfl
  | some (.ok (.wait _ (some _))) => rfl
  | some (.ok (.wait _ none)) => rfl
  | some (.ok (.plain _ _)) => rfl
  | some (.ok (.eos _)) => rfl

theorem dealt_start (f : Stream) (n : Nat) : Dealt f (Workers.start f n) [] := by
  have h : ∀ (i : Nat) (t : Worker), (Workers.start f n).threads[i]? = some t →
      t = ⟨.reading none, []⟩ := by
    intro i t ht
    have := List.mem_of_getElem? ht
    simp only [Workers.start, List.mem_replicate] at this
    exact this.2
  refine ⟨fun d hd => (List.not_mem_nil hd).elim, rfl, fun i t ht => ?_, .inl ⟨fun j t ht => ?_, rfl⟩⟩
  · cases h i t ht; rfl
  · cases h j t ht; rfl

/-- A step that neither reads nor gets anything: the thread stays out of `next`. -/
theorem Dealt.quiet {f : Stream} {w : Workers} {deals : List (Nat × Option (Except PyErr Cmd))}
    (h : Dealt f w deals) {i : Nat} {t : Worker} {st : LoopStage} (hi : w.threads[i]? = some t)
    (ht : inNext t = false) (hst : inNext { t with stage := st } = false) (s : Shared) :
    Dealt f { w with shared := s, threads := w.threads.set i { t with stage := st } } deals := by
  obtain ⟨h1, h2, h3, h4⟩ := h
  refine ⟨fun d hd => by simpa using h1 d hd, h2, fun j u hu => ?_, ?_⟩
  · rcases get_set_cases hu with ⟨rfl, rfl⟩ | ⟨_, hu⟩
    · exact h3 i t hi
    · exact h3 j u hu
  · rcases h4 with ⟨h4, h5⟩ | ⟨k, x, p, hk, hp, ho, ha⟩
    · refine .inl ⟨fun j u hu => ?_, h5⟩
      rcases get_set_cases hu with ⟨rfl, rfl⟩ | ⟨_, hu⟩
      · exact hst
      · exact h4 j u hu
    · have hik : i ≠ k := by
        rintro rfl
        rw [hi] at hk
        cases hk
        simp [inNext, hp] at ht
      refine .inr ⟨k, x, p, by simpa [List.getElem?_set, hik] using hk, hp, fun j u hj hu => ?_, ha⟩
      rcases get_set_cases hu with ⟨rfl, rfl⟩ | ⟨_, hu⟩
      · exact hst
      · exact ho j u hj hu

theorem Dealt.step {f : Stream} {w : Workers} {deals : List (Nat × Option (Except PyErr Cmd))}
    (h : Dealt f w deals) (i : Nat)
    (hl : ∀ t, w.threads[i]? = some t → atNext t = true → ∀ (j : Nat) (u : Worker), j ≠ i →
      w.threads[j]? = some u → inNext u = false) :
    ∃ deals', Dealt f (w.step i) deals' := by
  cases hi : w.threads[i]? with
  | none => rw [Workers.step_none hi]; exact ⟨_, h⟩
  | some t =>
    have hlt : i < w.threads.length := (List.getElem?_eq_some_iff.1 hi).1
    cases hst : t.stage with
    | over => rw [Workers.step_over hi hst]; exact ⟨_, h⟩
    | feeding p =>
      have ht : inNext t = false := by simp [inNext, hst]
      by_cases hp : p = .done
      · subst hp
        rw [Workers.step_done hi hst]
        exact ⟨deals, h.quiet hi ht rfl w.shared⟩
      · rw [Workers.step_feed hi hst hp]
        exact ⟨deals, h.quiet hi ht rfl _⟩
    | reading c =>
      have hothers := hl t hi (by simp [atNext, hst])
      obtain ⟨h1, h2, h3, h4⟩ := h
      have key : (c.getD nextReads).alone w.file = next (nextFile f deals.length) := by
        rcases h4 with ⟨h4, h5⟩ | ⟨k, x, p, hk, hp, ho, ha⟩
        · cases c with
          | none => rw [← h5]; exact nextReads_alone _
          | some p => have := h4 i t hi; simp [inNext, hst] at this
        · have hki : k = i := by
            by_contra hne
            have := hothers k x hne hk
            simp [inNext, hp] at this
          subst hki
          rw [hi] at hk
          cases hk
          rw [hst] at hp
          cases hp
          exact ha
      have others (u : Worker) (g : Stream) (s : Shared) : ∀ (j : Nat) (x : Worker), j ≠ i →
          (Workers.mk g s (w.threads.set i u)).threads[j]? = some x → inNext x = false := by
        intro j x hj hx
        rcases get_set_cases hx with ⟨rfl, _⟩ | ⟨_, hx⟩
        · exact absurd rfl hj
        · exact hothers j x hj hx
      cases hk : c.getD nextReads with
      | read m k =>
        rw [Workers.step_read hi hst hk]
        rw [hk] at key
        refine ⟨deals, fun d hd => by simpa using h1 d hd, h2, fun j u hu => ?_, .inr
          ⟨i, { t with stage := .reading (some (k (w.file.read m).1)) }, _, by simp [hlt], rfl,
            others _ _ _, key⟩⟩
        rcases get_set_cases hu with ⟨rfl, rfl⟩ | ⟨_, hu⟩
        · exact h3 i t hi
        · exact h3 j u hu
      | back r =>
        rw [Workers.step_back hi hst hk]
        rw [hk] at key
        have key' : next (nextFile f deals.length) = (r, w.file) := key.symm
        refine ⟨deals ++ [(i, r)], fun d hd => ?_, ?_, fun j u hu => ?_, .inl ⟨fun j u hu => ?_, ?_⟩⟩
        · rw [List.mem_append, List.mem_singleton] at hd
          simp only [List.length_set]
          rcases hd with hd | rfl
          · exact h1 d hd
          · exact hlt
        · rw [List.map_append, List.length_append, h2]
          simp only [List.map_cons, List.map_nil, List.length_cons, List.length_nil, nextGot, key']
        · unfold dealtTo
          rw [List.filter_append, List.map_append]
          rcases get_set_cases hu with ⟨rfl, rfl⟩ | ⟨hij, hu⟩
          · rw [h3 i t hi]
            simp [dealtTo]
          · rw [h3 j u hu]
            simp [dealtTo, hij]
        · by_cases hij : j = i
          · subst hij
            rcases get_set_cases hu with ⟨_, rfl⟩ | ⟨hne, _⟩
            · exact take_not_inNext r _
            · exact absurd rfl hne
          · exact others _ w.file w.shared j u hij hu
        · rw [List.length_append]
          simp only [List.length_cons, List.length_nil, nextFile, key']

theorem Dealt.after {f : Stream} : ∀ (order : List Nat) {w : Workers}
    {deals : List (Nat × Option (Except PyErr Cmd))}, Dealt f w deals →
    lockedReader w order = true → ∃ deals', Dealt f (w.after order) deals'
  | [], _, _, h, _ => ⟨_, h⟩
  | i :: is, w, deals, h, hl => by
    unfold lockedReader at hl
    rw [Bool.and_eq_true] at hl
    obtain ⟨d, hd⟩ := h.step i (by
      intro t hi ha j u hji hu
      have h1 := hl.1
      rw [hi] at h1
      simp only [ha, Bool.not_true, Bool.false_or, List.all_eq_true] at h1
      have hm : (u, j) ∈ w.threads.zipIdx := by
        rw [List.mem_zipIdx_iff_getElem?]; exact hu
      have := h1 (u, j) hm
      simpa [hji] using this)
    exact Dealt.after is hd hl.2

/-! ### What the calls give -/

/-- The commands among results. -/
def oks (l : List (Option (Except PyErr Cmd))) : List Cmd :=
  l.filterMap fun | some (.ok c) => some c | _ => none

/-- The exceptions among results. -/
def errs (l : List (Option (Except PyErr Cmd))) : List PyErr :=
  l.filterMap fun | some (.error e) => some e | _ => none

/-- The results until now are commands only, or the file is at its end and they are those of the whole
file. -/
theorem nextGot_so_far (f : Stream) : ∀ m : Nat,
    (Yields f (oks (nextGot f m)) (nextFile f m) ∧ errs (nextGot f m) = [] ∧
      ∀ r ∈ nextGot f m, ∃ c, r = some (.ok c)) ∨
    (atEnd (nextFile f m) ∧ ∃ o, Runs f (oks (nextGot f m)) o ∧ errs (nextGot f m) = exceptionsOf o)
  | 0 => .inl ⟨.nil, rfl, fun _ h => by cases h⟩
  | m + 1 => by
    have ho : oks (nextGot f (m + 1)) = oks (nextGot f m) ++ oks [(next (nextFile f m)).1] := by
      show oks (nextGot f m ++ [_]) = _
      unfold oks; rw [List.filterMap_append]
    have he : errs (nextGot f (m + 1)) = errs (nextGot f m) ++ errs [(next (nextFile f m)).1] := by
      show errs (nextGot f m ++ [_]) = _
      unfold errs; rw [List.filterMap_append]
    rw [ho, he]
    rcases nextGot_so_far f m with ⟨hy, hn, hall⟩ | ⟨hend, o, hr, hx⟩
    · cases hnx : next (nextFile f m) with
      | mk r g =>
        have hg : nextFile f (m + 1) = g := by unfold nextFile; rw [hnx]
        rw [hg, hn]
        match r, hnx with
        | none, hnx =>
          refine .inr ⟨?_, .stop, ?_, rfl⟩
          · have h1 := next_stop hnx
            have h2 : next (nextFile f m) = (none, nextFile f m) := atEnd_next (rest_atEnd h1)
            rw [hnx] at h2
            rw [(Prod.mk.inj h2).2]
            exact rest_atEnd h1
          · exact yields_runs hy (.stop hnx)
        | some (.error e), hnx =>
          exact .inr ⟨rest_atEnd (next_error_rest hnx), .raised e, yields_runs hy (.raise hnx), rfl⟩
        | some (.ok c), hnx =>
          refine .inl ⟨yields_snoc hy hnx, rfl, fun r hr => ?_⟩
          unfold nextGot at hr
          rw [List.mem_append, List.mem_singleton, hnx] at hr
          rcases hr with hr | rfl
          · exact hall r hr
          · exact ⟨c, rfl⟩
    · have hnx := atEnd_next hend
      refine .inr ⟨?_, o, ?_, ?_⟩
      · unfold nextFile; rw [hnx]; exact hend
      · rw [hnx]; simpa [oks] using hr
      · rw [hnx]; simpa [errs] using hx

/-! ### Dealing -/

theorem single_perm {α : Type} (x : α) (k : Nat) : ∀ n : Nat,
    ((List.range n).flatMap fun i => if k == i then [x] else []) = if k < n then [x] else []
  | 0 => rfl
  | n + 1 => by
    rw [List.range_succ, List.flatMap_append, single_perm x k n]
    by_cases h : k < n
    · have : ¬ k = n := by omega
      simp [h, this, Nat.lt_succ_of_lt h]
    · by_cases h' : k = n
      · subst h'; simp
      · have : ¬ k < n + 1 := by omega
        simp [h, h', this]

theorem dealt_perm {α : Type} (n : Nat) : ∀ deals : List (Nat × α), (∀ d ∈ deals, d.1 < n) →
    ((List.range n).flatMap fun i => dealtTo i deals).Perm (deals.map Prod.snd)
  | [], _ => by simp [dealtTo]
  | (k, x) :: ds, h => by
    have hk : k < n := h (k, x) (List.mem_cons_self ..)
    have ih := dealt_perm n ds (fun d hd => h d (List.mem_cons_of_mem _ hd))
    have e : ((List.range n).flatMap fun i => dealtTo i ((k, x) :: ds)) =
        (List.range n).flatMap fun i => (if k == i then [x] else []) ++ dealtTo i ds := by
      congr 1
      funext i
      unfold dealtTo
      rw [List.filter_cons]
      by_cases hki : k = i <;> simp [hki]
    rw [e]
    refine (List.flatMap_append_perm _ _ _).symm.trans ?_
    rw [single_perm, if_pos hk]
    exact ih.cons x

theorem threads_dealt {f : Stream} {w : Workers} {deals : List (Nat × Option (Except PyErr Cmd))}
    (h : Dealt f w deals) :
    w.threads.map (·.got) = (List.range w.threads.length).map fun i => dealtTo i deals := by
  apply List.ext_getElem?
  intro i
  rw [List.getElem?_map, List.getElem?_map]
  by_cases hi : i < w.threads.length
  · rw [List.getElem?_eq_getElem hi, List.getElem?_range hi]
    simp only [Option.map_some]
    rw [h.2.2.1 i _ (List.getElem?_eq_getElem hi)]
  · rw [List.getElem?_eq_none (by omega), List.getElem?_eq_none (by simpa using Nat.le_of_not_lt hi)]
    rfl

theorem got_perm {f : Stream} {w : Workers} {deals : List (Nat × Option (Except PyErr Cmd))}
    (h : Dealt f w deals) :
    (w.threads.flatMap (·.got)).Perm (nextGot f deals.length) := by
  rw [← h.2.1]
  rw [List.flatMap_def, threads_dealt h, ← List.flatMap_def]
  exact dealt_perm _ _ h.1

theorem commandsGot_eq (w : Workers) : commandsGot w = oks (w.threads.flatMap (·.got)) := by
  unfold commandsGot oks
  rw [List.filterMap_flatMap]
  rfl

theorem exceptionsGot_eq (w : Workers) : exceptionsGot w = errs (w.threads.flatMap (·.got)) := by
  unfold exceptionsGot errs
  rw [List.filterMap_flatMap]
  rfl

/-- C130: with a lock around the calls of `next`, what the threads get is what one reader gives: there is
an order of all their calls, in which each thread's calls are in its own order, such that the results are
those of as many calls of `next` one after the other. -/
theorem c130_dealt (f : Stream) (n : Nat) (order : List Nat)
    (hl : lockedReader (Workers.start f n) order = true) :
    ∃ deals : List (Nat × Option (Except PyErr Cmd)),
      (∀ (i : Nat) (t : Worker), ((Workers.start f n).after order).threads[i]? = some t →
        t.got = (deals.filter fun d => d.1 == i).map Prod.snd) ∧
      (∀ d ∈ deals, d.1 < n) ∧
      ∀ (k : Nat) (d : Nat × Option (Except PyErr Cmd)), deals[k]? = some d →
        d.2 = (next ((fun g => (next g).2)^[k] f)).1 := by
  obtain ⟨deals, h⟩ := Dealt.after order (dealt_start f n) hl
  have hlen : ((Workers.start f n).after order).threads.length = n :=
    (workers_after order (workers_start f n).1 (workers_start f n).2).2.1
  refine ⟨deals, h.2.2.1, fun d hd => by have := h.1 d hd; omega, fun k d hd => ?_⟩
  have hfile : ∀ m, nextFile f m = (fun g => (next g).2)^[m] f := by
    intro m
    induction m with
    | zero => rfl
    | succ m ih => rw [Function.iterate_succ_apply', ← ih]; rfl
  have hgot : ∀ m k, k < m → (nextGot f m)[k]? = some (next (nextFile f k)).1 := by
    intro m
    have hl : ∀ m, (nextGot f m).length = m := by
      intro m
      induction m with
      | zero => rfl
      | succ m ih => unfold nextGot; rw [List.length_append, ih]; rfl
    induction m with
    | zero => intro k hk; omega
    | succ m ih =>
      intro k hk
      unfold nextGot
      by_cases hkm : k < m
      · rw [List.getElem?_append_left (by rw [hl]; exact hkm)]; exact ih k hkm
      · have : k = m := by omega
        subst this
        rw [List.getElem?_append_right (by rw [hl])]
        simp [hl]
  have hk : k < deals.length := (List.getElem?_eq_some_iff.1 hd).1
  have := congrArg (fun l => l[k]?) h.2.1
  simp only [List.getElem?_map, hd, Option.map_some, hgot _ _ hk] at this
  rw [← hfile]
  exact Option.some.inj this

/-- C130: at any time, the commands that the threads have got are, in some order, the first commands of
the file. -/
theorem c130_commands (f : Stream) (n : Nat) (order : List Nat)
    (hl : lockedReader (Workers.start f n) order = true) :
    let w := (Workers.start f n).after order
    ∃ cs, (commandsGot w).Perm cs ∧
      ((exceptionsGot w = [] ∧ ∃ g, Yields f cs g) ∨ ∃ o, Runs f cs o ∧ exceptionsGot w = exceptionsOf o) := by
  intro w
  obtain ⟨deals, h⟩ := Dealt.after order (dealt_start f n) hl
  have hp := got_perm h
  refine ⟨oks (nextGot f deals.length), ?_, ?_⟩
  · rw [commandsGot_eq]; exact hp.filterMap _
  · have he : (exceptionsGot w).Perm (errs (nextGot f deals.length)) := by
      rw [exceptionsGot_eq]; exact hp.filterMap _
    rcases nextGot_so_far f deals.length with ⟨h1, h2, _⟩ | ⟨_, o, h1, h2⟩
    · rw [h2] at he
      exact .inl ⟨he.eq_nil, _, h1⟩
    · refine .inr ⟨o, h1, ?_⟩
      rw [h2] at he
      cases o with
      | stop => exact he.eq_nil
      | raised e => exact List.perm_singleton.1 he

theorem over_last {f : Stream} {n : Nat} {order : List Nat} {i : Nat} {t : Worker}
    (ht : ((Workers.start f n).after order).threads[i]? = some t) (ho : isOver t = true) :
    ∃ r ∈ t.got, LoopStage.take r = .over := by
  have key : ∀ (order : List Nat) (w : Workers),
      (∀ (i : Nat) (t : Worker), w.threads[i]? = some t → isOver t = true →
        ∃ r ∈ t.got, LoopStage.take r = .over) →
      ∀ (i : Nat) (t : Worker), (w.after order).threads[i]? = some t → isOver t = true →
        ∃ r ∈ t.got, LoopStage.take r = .over := by
    intro order
    induction order with
    | nil => intro w h; exact h
    | cons k ks ih =>
      intro w h
      refine ih (w.step k) ?_
      intro i t ht ho
      cases hk : w.threads[k]? with
      | none => rw [Workers.step_none hk] at ht; exact h i t ht ho
      | some u =>
        have set_case (g : Stream) (s : Shared) (v : Worker) (hv : isOver v = true →
            ∃ r ∈ v.got, LoopStage.take r = .over)
            (he : w.step k = ⟨g, s, w.threads.set k v⟩) :
            ∃ r ∈ t.got, LoopStage.take r = .over := by
          rw [he] at ht
          rcases get_set_cases ht with ⟨_, rfl⟩ | ⟨_, ht⟩
          · exact hv ho
          · exact h i t ht ho
        cases hst : u.stage with
        | over => rw [Workers.step_over hk hst] at ht; exact h i t ht ho
        | feeding p =>
          by_cases hp : p = .done
          · subst hp
            exact set_case _ _ _ (fun h => by simp [isOver] at h) (Workers.step_done hk hst)
          · exact set_case _ _ _ (fun h => by simp [isOver] at h) (Workers.step_feed hk hst hp)
        | reading c =>
          cases hc : c.getD nextReads with
          | read m q =>
            exact set_case _ _ _ (fun h => by simp [isOver] at h) (Workers.step_read hk hst hc)
          | back r =>
            refine set_case _ _ _ (fun hv => ⟨r, by simp, ?_⟩) (Workers.step_back hk hst hc)
            unfold isOver at hv
            simp only at hv
            split at hv
            · assumption
            · cases hv
  refine key order _ ?_ i t ht ho
  intro i t ht ho
  have := List.mem_of_getElem? ht
  simp only [Workers.start, List.mem_replicate] at this
  rw [this.2] at ho
  cases ho

/-- C130: as soon as one thread has ended, the threads have got all commands of the file, each one of
them once, and the exception if the file ends with one. -/
theorem c130_all (f : Stream) (n : Nat) (order : List Nat)
    (hl : lockedReader (Workers.start f n) order = true) (i : Nat) (t : Worker)
    (ht : ((Workers.start f n).after order).threads[i]? = some t) (ho : isOver t = true) :
    let w := (Workers.start f n).after order
    ∃ cs o, Runs f cs o ∧ (commandsGot w).Perm cs ∧ exceptionsGot w = exceptionsOf o := by
  intro w
  obtain ⟨deals, h⟩ := Dealt.after order (dealt_start f n) hl
  have hp := got_perm h
  have hc : (commandsGot w).Perm (oks (nextGot f deals.length)) := by
    rw [commandsGot_eq]; exact hp.filterMap _
  have he : (exceptionsGot w).Perm (errs (nextGot f deals.length)) := by
    rw [exceptionsGot_eq]; exact hp.filterMap _
  obtain ⟨r, hr, hover⟩ := over_last ht ho
  have hmem : r ∈ nextGot f deals.length :=
    hp.subset (List.mem_flatMap.2 ⟨t, List.mem_of_getElem? ht, hr⟩)
  rcases nextGot_so_far f deals.length with ⟨h1, h2, h3⟩ | ⟨_, o, h1, h2⟩
  · exfalso
    obtain ⟨c, rfl⟩ := h3 r hmem
    match c, hover, hmem with
    | .ym2151 _ _ _, hover, _ => cases hover
    | .wait _ (some _), hover, _ => cases hover
    | .plain _ _, hover, _ => cases hover
    | .eos _, hover, _ => cases hover
    | .wait id none, _, hmem =>
      have : ∀ m, some (.ok (.wait id none)) ∉ nextGot f m := by
        intro m
        induction m with
        | zero => simp [nextGot]
        | succ m ih =>
          unfold nextGot
          rw [List.mem_append, List.mem_singleton]
          rintro (h | h)
          · exact ih h
          · exact next_no_none (s := nextFile f m) (s' := (next (nextFile f m)).2) (i := id)
              (Prod.ext h.symm rfl)
      exact this _ hmem
  · refine ⟨_, o, h1, hc, ?_⟩
    rw [h2] at he
    cases o with
    | stop => exact he.eq_nil
    | raised e => exact List.perm_singleton.1 he

/-! ### The state -/

theorem eventsOf_eq (got : List (Option (Except PyErr Cmd))) : eventsOf got = history (oks got) := by
  induction got with
  | nil => rfl
  | cons r got ih =>
    have e : eventsOf (r :: got) = eventsOf [r] ++ eventsOf got := by
      unfold eventsOf; rw [← List.flatMap_append]; rfl
    have e' : oks (r :: got) = oks [r] ++ oks got := by
      unfold oks; rw [← List.filterMap_append]; rfl
    rw [e, e', ih]
    have e'' : history (oks [r] ++ oks got) = history (oks [r]) ++ history (oks got) := by
      unfold history; rw [List.filterMap_append]
    rw [e'']
    congr 1
    match r with
    | none => rfl
    | some (.error _) => rfl
    | some (.ok c) => simp [eventsOf, oks]

theorem workOf_flatten (w : Workers) : (workOf w).flatten = history (commandsGot w) := by
  unfold workOf commandsGot
  induction w.threads with
  | nil => rfl
  | cons t l ih =>
    rw [List.map_cons, List.flatten_cons, ih, List.flatMap_cons, eventsOf_eq]
    exact (List.filterMap_append ..).symm

theorem sum_flatten {a : List Event → Nat} (h0 : a [] = 0) (h : ∀ x y, a (x ++ y) = a x + a y)
    (l : List (List Event)) : (l.map a).sum = a l.flatten := by
  induction l with
  | nil => simp [h0]
  | cons x l ih => rw [List.map_cons, List.sum_cons, ih, List.flatten_cons, h]

theorem yields_prefix {f g : Stream} {cs ds : List Cmd} {o : Outcome} (hy : Yields f cs g)
    (hr : Runs f ds o) : cs <+: ds := by
  induction hy generalizing ds with
  | nil => exact List.nil_prefix
  | cons h1 _ ih =>
    cases hr with
    | stop h => rw [h1] at h; cases h
    | raise h => rw [h1] at h; cases h
    | yield h hr =>
      rw [h1] at h
      cases h
      exact (List.cons_prefix_cons.2 ⟨rfl, ih hr⟩)

theorem sum_le_file {f : Stream} {n : Nat} {order : List Nat}
    (hl : lockedReader (Workers.start f n) order = true) {ds : List Cmd} {o : Outcome} (hr : Runs f ds o)
    {a : List Event → Nat} (h0 : a [] = 0) (h : ∀ x y, a (x ++ y) = a x + a y)
    (hperm : ∀ x y, x.Perm y → a x = a y) :
    ((workOf ((Workers.start f n).after order)).map a).sum ≤ a (history ds) := by
  rw [sum_flatten h0 h, workOf_flatten]
  obtain ⟨cs, h1, h2⟩ := c130_commands f n order hl
  have e : a (history (commandsGot ((Workers.start f n).after order))) = a (history cs) :=
    hperm _ _ (by unfold history; exact h1.filterMap _)
  have hpre : cs <+: ds := by
    rcases h2 with ⟨_, g, h2⟩ | ⟨o', h2, _⟩
    · exact yields_prefix h2 hr
    · rw [(runs_unique h2 hr).1]
  obtain ⟨es, rfl⟩ := hpre
  rw [e]
  have : history (cs ++ es) = history cs ++ history es := by
    unfold history; rw [List.filterMap_append]
  rw [this, h]
  omega

/-- C130: with a lock around the calls of `next` only, the state has no more in it than the file: no more
notes on a channel than the file has key events for it, no more instruments than it has key-ons, and
nothing is later than the file is long. -/
theorem c130_state (f : Stream) (n : Nat) (order : List Nat)
    (hl : lockedReader (Workers.start f n) order = true) (cs : List Cmd) (o : Outcome)
    (hr : Runs f cs o) :
    let s := workedOn f n order
    s.samples ≤ time (history cs) ∧ (∀ x ∈ s.ticks, x ≤ time (history cs)) ∧
    s.configs.length ≤ keyOns (history cs) ∧
    ∀ ch, (s.keyPressesOf ch).length ≤ keysTo ch (history cs) ∧
      ∀ k ∈ s.keyPressesOf ch, k.sample ≤ time (history cs) := by
  intro s
  obtain ⟨_, o', ho⟩ := c129_split f n order
  have hs : s = fedBy (workOf ((Workers.start f n).after order)) o' := ho
  have hT := sum_le_file hl hr (a := time) rfl
    (fun x y => by unfold time; rw [List.map_append, List.sum_append])
    (fun x y h => by unfold time; exact (h.map _).sum_eq)
  have hK := sum_le_file hl hr (a := keyOns) rfl
    (fun x y => by unfold keyOns; rw [List.countP_append])
    (fun x y h => by unfold keyOns; exact h.countP_eq _)
  have hC := fun ch => sum_le_file hl hr (a := keysTo ch) rfl
    (fun x y => by unfold keysTo; rw [List.countP_append])
    (fun x y h => by unfold keysTo; exact h.countP_eq _)
  rw [hs]
  generalize workOf ((Workers.start f n).after order) = calls at *
  obtain ⟨h1, h2, h3⟩ := c124_notes calls o'
  refine ⟨h2.trans hT, fun x hx => (h3 x hx).trans hT, (c124_instruments calls o').trans hK,
    fun ch => ⟨(c124_count calls o' ch).trans (hC ch), fun k hk => ?_⟩⟩
  exact (h1 ch k hk).2.2.2.2.trans hT

/-- C130 is not that the state is that of one thread: the file has a wait and then a key-on; if the thread
that takes the wait is slow, the key-on is applied at the beginning, where a first key-on is lost. -/
theorem c130_order_refuted : ∃ order,
    lockedReader (Workers.start sharedFile 2) order = true ∧
    ((Workers.start sharedFile 2).after order).threads.all isOver = true ∧
    (workedOn sharedFile 2 order).keyPressesOf 0 = [] ∧
    ((run [.wait 5, .write 0x20 0xC1, .write 8 0x78]).keyPressesOf 0).length = 1 :=
  ⟨steps 0 3 ++ steps 1 200 ++ steps 0 10, by decide +kernel⟩

/-- Two threads, one reading while the other is within `beat`; both get something. -/
example :
    let order := steps 0 3 ++ [1, 0, 1, 0, 1] ++ steps 1 2 ++ steps 0 200 ++ steps 1 200
    lockedReader (Workers.start sharedFile 2) order = true ∧
    lockedLoop (Workers.start sharedFile 2) order = false ∧
    ((Workers.start sharedFile 2).after order).threads.all isOver = true ∧
    ((Workers.start sharedFile 2).after order).threads.map (fun t => t.got.length) = [3, 2] := by
  decide +kernel

end VgmX
