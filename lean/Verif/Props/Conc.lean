import Verif.Model.Conc
import Verif.Props.Crash
/-
Property C87: runs of the program at the same time.
-/

namespace VgmX
open Spec

/-- The jobs keep apart: no output of one is an output or the input of another. -/
def Apart (J : Nat → Job) : Prop :=
  ∀ i j n, i ≠ j → IsOutput (J i).instr (J i).track n →
    ¬ IsOutput (J j).instr (J j).track n ∧ (J j).vgm ≠ some n

theorem Job.ops_names (j : Job) (w : World) : ∀ o ∈ j.ops w, IsOutput j.instr j.track o.name := by
  obtain ⟨A, B, h1, _, hA, hB, _⟩ := mainOps_shape j.env j.vgm j.instr j.track j.ticks w
  unfold Job.ops
  rw [h1]
  intro o ho
  rcases List.mem_append.mp ho with ho | ho
  · rcases hA with rfl | ⟨i, text, h, _, hi, hp, _, rfl⟩
    · simp at ho
    · have : o.name = i := by
        rcases List.mem_cons.mp ho with rfl | ho
        · rfl
        · exact puts_name _ _ _ o ho
      rw [this]
      exact .inl ⟨hi, hp.1, hp.2⟩
  · rcases hB with rfl | ⟨tr, d, htr, hne, _, rfl⟩
    · simp at ho
    · have : o.name = tr := by
        rcases List.mem_cons.mp ho with rfl | ho
        · rfl
        · exact zipOps_name _ _ _ _ _ o ho
      rw [this]
      exact .inr ⟨htr, hne⟩

theorem outputsOps_congr (env : Env) (instr track : Option Str) (s : State) (t : Int)
    (w w' : World) : outputsOps env instr track s t w = outputsOps env instr track s t w' := by
  cases hj : instrumentsJs s with
  | error e =>
    unfold outputsOps extractInstruments
    simp only [hj]
  | ok js => rw [outputsOps_eq env instr track s t w js hj, outputsOps_eq env instr track s t w' js hj]

theorem mainTicks_result (env : Env) (ticks : Option Int) (s : State) (w w' : World) :
    (mainTicks env ticks s w).1 = (mainTicks env ticks s w').1 := by
  unfold mainTicks
  cases ticks with
  | none => rfl
  | some t =>
    dsimp only
    split <;> rfl

theorem bodyOps_congr (env : Env) (instr track : Option Str) (ticks : Option Int) (f : Handle)
    (w w' : World) (h : ∀ id name, f = .file id name → w.fs name = w'.fs name)
    (hc : w.clocks = w'.clocks) :
    bodyOps env instr track ticks f w = bodyOps env instr track ticks f w' := by
  unfold bodyOps
  cases env.argsFile with
  | none => rfl
  | some a =>
    dsimp only
    have hr : (readerOn env w f).1 = (readerOn env w' f).1 := by
      unfold readerOn
      cases f with
      | file id name => dsimp only; rw [h id name rfl, hc]
      | stdin => dsimp only; split <;> rfl
      | stdout => dsimp only; split <;> rfl
    rcases hx : readerOn env w f with ⟨r, w1⟩
    rcases hx' : readerOn env w' f with ⟨r', w1'⟩
    rw [hx, hx'] at hr
    dsimp only at hr
    subst hr
    rcases r with e | _ | vgm
    · rfl
    · rfl
    · dsimp only
      cases fprocessVgm vgm.stream with
      | error e => rfl
      | ok s =>
        dsimp only
        have ht := mainTicks_result env ticks s w1 w1'
        rcases hy : mainTicks env ticks s w1 with ⟨r, w2⟩
        rcases hy' : mainTicks env ticks s w1' with ⟨r', w2'⟩
        rw [hy, hy'] at ht
        dsimp only at ht
        subst ht
        cases r with
        | error e => rfl
        | ok t => exact outputsOps_congr env instr track s t w2 w2'

/-- What a job does depends on the files only through its input. -/
theorem ops_congr (j : Job) (w : World) (fs : Str → Option Bytes)
    (h : ∀ name, j.vgm = some name → fs name = w.fs name) :
    j.ops { w with fs := fs } = j.ops w := by
  unfold Job.ops mainOps
  by_cases hp : (nameTruthy j.vgm && j.vgm != some ['-']) = true
  · rw [if_pos hp, if_pos hp]
    cases hv : j.vgm with
    | none => rw [hv] at hp; cases hp
    | some name =>
      have hf := h name hv
      simp only [Option.getD_some, openFile_rb]
      rw [hf]
      cases j.env.openErr name false with
      | some e => rfl
      | none =>
        cases w.fs name with
        | none => rfl
        | some c =>
          refine bodyOps_congr _ _ _ _ _ _ _ (fun id n e => ?_) rfl
          cases e
          exact hf
  · rw [if_neg hp, if_neg hp]
    exact bodyOps_congr _ _ _ _ _ _ _ (fun id n e => by cases e) rfl

/-! ### The invariant -/

/-- What holds of process `i` at any time. -/
def Sound (J : Nat → Job) (w : World) (s : Sys) (i : Nat) : Prop :=
  match s.phase i with
  | .idle => ∀ n, IsOutput (J i).instr (J i).track n → s.fs n = w.fs n
  | .reading part =>
    (∀ n, IsOutput (J i).instr (J i).track n → s.fs n = w.fs n) ∧
    ∃ name c, (J i).vgm = some name ∧ w.fs name = some c ∧ part <+: c
  | .writing ops => ∃ k, ops = ((J i).ops w).drop k ∧
    ∀ n, IsOutput (J i).instr (J i).track n → s.fs n = applyOps (((J i).ops w).take k) w.fs n

theorem Sound.same {J : Nat → Job} {w : World} {s s' : Sys} {i : Nat} (h : Sound J w s i)
    (hp : s'.phase i = s.phase i)
    (hf : ∀ n, IsOutput (J i).instr (J i).track n → s'.fs n = s.fs n) : Sound J w s' i := by
  unfold Sound at h ⊢
  rw [hp]
  cases hph : s.phase i with
  | idle => rw [hph] at h; exact fun n hn => (hf n hn).trans (h n hn)
  | reading part => rw [hph] at h; exact ⟨fun n hn => (hf n hn).trans (h.1 n hn), h.2⟩
  | writing ops =>
    rw [hph] at h
    obtain ⟨k, h1, h2⟩ := h
    exact ⟨k, h1, fun n hn => (hf n hn).trans (h2 n hn)⟩

/-- What holds of the whole system at any time. -/
structure ConcInv (J : Nat → Job) (w : World) (s : Sys) : Prop where
  sound : ∀ i, Sound J w s i
  others : ∀ n, (∀ i, ¬ IsOutput (J i).instr (J i).track n) → s.fs n = w.fs n

/-- A process that has not begun to write finds its input as it was. -/
theorem ConcInv.input {J : Nat → Job} {w : World} {s : Sys} (hJ : Apart J) (h : ConcInv J w s) {i : Nat}
    (hi : ∀ n, IsOutput (J i).instr (J i).track n → s.fs n = w.fs n) (name : Str)
    (hv : (J i).vgm = some name) : s.fs name = w.fs name := by
  by_cases ho : ∃ j, IsOutput (J j).instr (J j).track name
  · obtain ⟨j, hj⟩ := ho
    by_cases hij : j = i
    · subst hij; exact hi name hj
    · exact absurd hv (hJ j i name hij hj).2
  · exact h.others name (fun i hi => ho ⟨i, hi⟩)

theorem Sys.go_fs (s : Sys) (i : Nat) (p : Phase) : (s.go i p).fs = s.fs := rfl

theorem Sys.go_self (s : Sys) (i : Nat) (p : Phase) : (s.go i p).phase i = p := by simp [Sys.go]

theorem Sys.go_other (s : Sys) {i j : Nat} (p : Phase) (h : j ≠ i) :
    (s.go i p).phase j = s.phase j := by simp [Sys.go, h]

/-- A step that leaves the files alone. -/
theorem ConcInv.quiet {J : Nat → Job} {w : World} {s : Sys} (h : ConcInv J w s) (i : Nat) (p : Phase)
    (hi : Sound J w (s.go i p) i) : ConcInv J w (s.go i p) := by
  refine ⟨fun j => ?_, h.others⟩
  by_cases hj : j = i
  · subst hj; exact hi
  · exact (h.sound j).same (Sys.go_other s p hj) (fun _ _ => rfl)

theorem conc_step {J : Nat → Job} {w : World} (hJ : Apart J) {s s' : Sys} (h : ConcInv J w s)
    (hs : Step J w s s') : ConcInv J w s' := by
  have hsound := h.sound
  cases hs with
  | @fail i hp hn =>
    have hi := hsound i
    unfold Sound at hi
    rw [hp] at hi
    apply h.quiet
    unfold Sound
    rw [Sys.go_self]
    refine ⟨0, ?_, hi⟩
    rw [List.drop_zero]
    exact ops_congr (J i) w s.fs (h.input hJ hi)
  | @start i name c hp hv h1 h2 ho hc =>
    have hi := hsound i
    unfold Sound at hi
    rw [hp] at hi
    apply h.quiet
    unfold Sound
    rw [Sys.go_self]
    refine ⟨hi, name, c, hv, ?_, List.nil_prefix⟩
    rw [← h.input hJ hi name hv]; exact hc
  | @read i name part m hp hv =>
    have hi := hsound i
    unfold Sound at hi
    rw [hp] at hi
    obtain ⟨hi, name', c, hv', hc, hpre⟩ := hi
    rw [hv] at hv'; cases hv'
    apply h.quiet
    unfold Sound
    rw [Sys.go_self]
    refine ⟨hi, name, c, hv, hc, ?_⟩
    rw [h.input hJ hi name hv, hc, Option.getD_some]
    obtain ⟨rest, rfl⟩ := hpre
    rw [List.drop_left]
    exact List.prefix_append_right_inj _ |>.mpr (List.take_prefix _ _)
  | @finish i name part hp hv he =>
    have hi := hsound i
    unfold Sound at hi
    rw [hp] at hi
    obtain ⟨hi, name', c, hv', hc, hpre⟩ := hi
    rw [hv] at hv'; cases hv'
    have hin := h.input hJ hi
    rw [hin name hv, hc, Option.getD_some] at he
    have hpc : part = c := hpre.eq_of_length_le he
    apply h.quiet
    unfold Sound
    rw [Sys.go_self]
    refine ⟨0, ?_, hi⟩
    rw [List.drop_zero]
    apply ops_congr
    intro n hn
    rw [hv] at hn; cases hn
    simp only [setFile, if_true]
    rw [hc, hpc]
  | @write i o ops hp =>
    have hi := hsound i
    unfold Sound at hi
    rw [hp] at hi
    obtain ⟨k, hk, hfs⟩ := hi
    have hget : ((J i).ops w)[k]? = some o := by
      have := congrArg (·[0]?) hk
      simpa using this.symm
    have hout : IsOutput (J i).instr (J i).track o.name :=
      (J i).ops_names w o (List.mem_of_getElem? hget)
    have hother : ∀ n, n ≠ o.name → o.apply s.fs n = s.fs n := by
      intro n hn
      have := applyOps_other [o] n (by simp; exact fun e => hn e.symm) s.fs
      exact this
    refine ⟨fun j => ?_, fun n hn => ?_⟩
    · by_cases hj : j = i
      · subst hj
        unfold Sound
        show match (s.go j (.writing ops)).phase j with
          | .idle => _
          | .reading part => _
          | .writing ops => _
        rw [Sys.go_self]
        refine ⟨k + 1, ?_, fun n hn => ?_⟩
        · have := congrArg List.tail hk
          simpa using this
        · have htake : ((J j).ops w).take (k + 1) = ((J j).ops w).take k ++ [o] := by
            rw [List.take_add_one, hget]; rfl
          rw [htake, applyOps_append]
          show o.apply s.fs n = o.apply _ n
          by_cases hn' : n = o.name
          · subst hn'
            have := hfs o.name hout
            cases o with
            | create m => simp [FsOp.apply, setFile, FsOp.name]
            | put m q b =>
              simp only [FsOp.apply, setFile, FsOp.name, if_true] at this ⊢
              rw [this]
          · rw [hother n hn', hfs n hn]
            exact (applyOps_other [o] n (by simp; exact fun e => hn' e.symm) _).symm
      · refine (hsound j).same (Sys.go_other s _ hj) (fun n hn => ?_)
        apply hother
        rintro rfl
        exact (hJ i j o.name (fun e => hj e.symm) hout).1 hn
    · show o.apply s.fs n = _
      rw [hother n (by rintro rfl; exact hn i hout)]
      exact h.others n hn

theorem conc_reach {J : Nat → Job} {w : World} (hJ : Apart J) {s : Sys} (h : Reach J w s) :
    ConcInv J w s := by
  induction h with
  | init => exact ⟨fun _ _ _ => rfl, fun _ _ => rfl⟩
  | step _ hs ih => exact conc_step hJ ih hs

/-! ### C87 -/

/-- C87. However the processes take turns, and wherever they have got to: every output of a job is
what the job on its own would have made of it by some point. -/
theorem c87_at_any_time (J : Nat → Job) (w : World) (hJ : Apart J) (s : Sys) (h : Reach J w s)
    (i : Nat) : ∃ k, ∀ n, IsOutput (J i).instr (J i).track n →
      s.fs n = killedAfter k (J i).env (J i).vgm (J i).instr (J i).track (J i).ticks w n := by
  have := (conc_reach hJ h).sound i
  unfold Sound at this
  unfold killedAfter
  cases hp : s.phase i with
  | idle => rw [hp] at this; exact ⟨0, this⟩
  | reading part => rw [hp] at this; exact ⟨0, this.1⟩
  | writing ops =>
    rw [hp] at this
    obtain ⟨k, _, h2⟩ := this
    exact ⟨k, h2⟩

/-- C87. The outputs of a job that has come to its end are those of a run on its own. -/
theorem c87_finished (J : Nat → Job) (w : World) (hJ : Apart J) (s : Sys) (h : Reach J w s)
    (i : Nat) (hi : s.phase i = .writing []) (n : Str)
    (hn : IsOutput (J i).instr (J i).track n) :
    s.fs n = (main (J i).env (J i).vgm (J i).instr (J i).track (J i).ticks w).2.fs n := by
  have := (conc_reach hJ h).sound i
  unfold Sound at this
  rw [hi] at this
  obtain ⟨k, h1, h2⟩ := this
  rw [h2 n hn]
  obtain ⟨A, B, e1, e2, _⟩ := mainOps_shape (J i).env (J i).vgm (J i).instr (J i).track (J i).ticks w
  rw [e2, ← e1]
  have hk : ((J i).ops w).length ≤ k := by
    have := congrArg List.length h1
    simp at this
    omega
  rw [List.take_of_length_le hk]
  rfl

/-- C87. Files that are no job's output are never touched. -/
theorem c87_others (J : Nat → Job) (w : World) (hJ : Apart J) (s : Sys) (h : Reach J w s) (n : Str)
    (hn : ∀ i, ¬ IsOutput (J i).instr (J i).track n) : s.fs n = w.fs n :=
  (conc_reach hJ h).others n hn

/-! ### No process is ever in the way of another -/

/-- `s'` comes about from `s`. -/
inductive Steps (J : Nat → Job) (w : World) (s : Sys) : Sys → Prop
  | refl : Steps J w s s
  | tail {s' s''} : Steps J w s s' → Step J w s' s'' → Steps J w s s''

theorem Steps.trans {J : Nat → Job} {w : World} {s s' s'' : Sys} (h : Steps J w s s')
    (h' : Steps J w s' s'') : Steps J w s s'' := by
  induction h' with
  | refl => exact h
  | tail _ hs ih => exact ih.tail hs

theorem Steps.reach {J : Nat → Job} {w : World} {s s' : Sys} (h : Reach J w s)
    (h' : Steps J w s s') : Reach J w s' := by
  induction h' with
  | refl => exact h
  | tail _ hs ih => exact ih.step hs

theorem writes_finish (J : Nat → Job) (w : World) (i : Nat) : ∀ (ops : List FsOp) (s : Sys),
    s.phase i = .writing ops →
    ∃ s', Steps J w s s' ∧ s'.phase i = .writing [] ∧ ∀ j, j ≠ i → s'.phase j = s.phase j
  | [], s, h => ⟨s, .refl, h, fun _ _ => rfl⟩
  | o :: ops, s, h => by
    obtain ⟨s', h1, h2, h3⟩ := writes_finish J w i ops
      { s.go i (.writing ops) with fs := o.apply s.fs } (Sys.go_self s i _)
    exact ⟨s', Steps.trans (.tail .refl (.write h)) h1, h2,
      fun j hj => (h3 j hj).trans (Sys.go_other s _ hj)⟩

theorem reads_finish (J : Nat → Job) (w : World) (i : Nat) (s : Sys) (part : Bytes) (name : Str)
    (h : s.phase i = .reading part) (hv : (J i).vgm = some name) :
    ∃ s', Steps J w s s' ∧ s'.phase i = .writing [] ∧ ∀ j, j ≠ i → s'.phase j = s.phase j := by
  let s1 := s.go i (.reading (part ++ (((s.fs name).getD []).drop part.length).take
    ((s.fs name).getD []).length))
  have hs1 : Step J w s s1 := .read _ h hv
  have hp1 := Sys.go_self s i (.reading (part ++ (((s.fs name).getD []).drop part.length).take
    ((s.fs name).getD []).length))
  have hs2 : Step J w s1 _ := .finish (i := i) (name := name) hp1 hv (by
    show ((s.fs name).getD []).length ≤ _
    simp only [List.length_append, List.length_take, List.length_drop]
    omega)
  obtain ⟨s', h1, h2, h3⟩ := writes_finish J w i _ _ (Sys.go_self s1 i _)
  exact ⟨s', Steps.trans (.tail (.tail .refl hs1) hs2) h1, h2,
    fun j hj => (h3 j hj).trans ((Sys.go_other s1 _ hj).trans (Sys.go_other s _ hj))⟩

/-- Only processes with an input file read. -/
theorem reach_reading {J : Nat → Job} {w : World} {s : Sys} (h : Reach J w s) :
    ∀ i part, s.phase i = .reading part → (J i).vgm ≠ none := by
  induction h with
  | init => intro i part e; cases e
  | @step s s' _ hs ih =>
    intro j part e
    cases hs with
    | @fail i hp hn =>
      by_cases hj : j = i
      · subst hj; rw [Sys.go_self] at e; cases e
      · rw [Sys.go_other s _ hj] at e; exact ih j part e
    | @start i name c hp hv h1 h2 ho hc =>
      by_cases hj : j = i
      · subst hj; rw [hv]; simp
      · rw [Sys.go_other s _ hj] at e; exact ih j part e
    | @read i name part' m hp hv =>
      by_cases hj : j = i
      · subst hj; rw [hv]; simp
      · rw [Sys.go_other s _ hj] at e; exact ih j part e
    | @finish i name part' hp hv he =>
      by_cases hj : j = i
      · subst hj; rw [Sys.go_self] at e; cases e
      · rw [Sys.go_other s _ hj] at e; exact ih j part e
    | @write i o ops hp =>
      by_cases hj : j = i
      · subst hj
        have : (s.go j (.writing ops)).phase j = .reading part := e
        rw [Sys.go_self] at this; cases this
      · have : (s.go i (.writing ops)).phase j = .reading part := e
        rw [Sys.go_other s _ hj] at this; exact ih j part this

/-- C87. From wherever the processes have got to, each can come to its end on its own, with the
others where they are. -/
theorem c87_no_waiting (J : Nat → Job) (w : World) (s : Sys) (h : Reach J w s) (i : Nat) :
    ∃ s', Steps J w s s' ∧ s'.phase i = .writing [] ∧ ∀ j, j ≠ i → s'.phase j = s.phase j := by
  have hr := reach_reading h
  cases hp : s.phase i with
  | writing ops => exact writes_finish J w i ops s hp
  | reading part =>
    cases hv : (J i).vgm with
    | none => exact absurd hv (hr i part hp)
    | some name => exact reads_finish J w i s part name hp hv
  | idle =>
    by_cases hn : ∀ name, (J i).vgm = some name → name ≠ [] → name ≠ ['-'] →
        (J i).env.openErr name false ≠ none ∨ s.fs name = none
    · obtain ⟨s', h1, h2, h3⟩ := writes_finish J w i _ _
        (Sys.go_self s i (.writing ((J i).ops { w with fs := s.fs })))
      exact ⟨s', Steps.trans (.tail .refl (.fail hp hn)) h1, h2,
        fun j hj => (h3 j hj).trans (Sys.go_other s _ hj)⟩
    · push Not at hn
      obtain ⟨name, hv, h1, h2, ho, hc⟩ := hn
      cases hc' : s.fs name with
      | none => exact absurd hc' hc
      | some c =>
        obtain ⟨s', e1, e2, e3⟩ := reads_finish J w i _ [] name
          (Sys.go_self s i (.reading [])) hv
        exact ⟨s', Steps.trans (.tail .refl (.start hp hv h1 h2 ho hc')) e1, e2,
          fun j hj => (e3 j hj).trans (Sys.go_other s _ hj)⟩

/-! ### Two runs at once, an example -/

/-- Two conversions of the same recording, to different outputs; the other processes have no
outputs. -/
def twoJobs : Nat → Job
  | 0 => ⟨sampleEnv, some "in.vgm".toList, some "a".toList, some "at".toList, some 50⟩
  | 1 => ⟨sampleEnv, some "in.vgm".toList, some "b".toList, some "bt".toList, some 25⟩
  | _ => ⟨sampleEnv, some "in.vgm".toList, none, none, none⟩

theorem twoJobs_output (i : Nat) (n : Str) (h : IsOutput (twoJobs i).instr (twoJobs i).track n) :
    (i = 0 ∧ (n = "a".toList ∨ n = "at".toList)) ∨ (i = 1 ∧ (n = "b".toList ∨ n = "bt".toList)) := by
  match i, h with
  | 0, h =>
    rcases h with ⟨h, _⟩ | ⟨h, _⟩
    · exact .inl ⟨rfl, .inl (Option.some.inj h).symm⟩
    · exact .inl ⟨rfl, .inr (Option.some.inj h).symm⟩
  | 1, h =>
    rcases h with ⟨h, _⟩ | ⟨h, _⟩
    · exact .inr ⟨rfl, .inl (Option.some.inj h).symm⟩
    · exact .inr ⟨rfl, .inr (Option.some.inj h).symm⟩
  | n + 2, h =>
    rcases h with ⟨h, _⟩ | ⟨h, _⟩ <;> cases h

theorem twoJobs_vgm (i : Nat) : (twoJobs i).vgm = some "in.vgm".toList := by
  match i with
  | 0 => rfl
  | 1 => rfl
  | n + 2 => rfl

theorem twoJobs_apart : Apart twoJobs := by
  intro i j n hij h
  have hi := twoJobs_output i n h
  refine ⟨fun h' => ?_, fun e => ?_⟩
  · have hj := twoJobs_output j n h'
    rcases hi with ⟨rfl, rfl | rfl⟩ | ⟨rfl, rfl | rfl⟩ <;>
      rcases hj with ⟨rfl, hj | hj⟩ | ⟨rfl, hj | hj⟩ <;>
      first | exact hij rfl | (revert hj; decide)
  · rw [twoJobs_vgm] at e
    have e := Option.some.inj e
    rcases hi with ⟨_, rfl | rfl⟩ | ⟨_, rfl | rfl⟩ <;> (revert e; decide)

theorem finished_as (jobs : Nat → Job) (w : World) (ha : Apart jobs) (s : Sys)
    (h : Reach jobs w s) (i : Nat) (hp : s.phase i = .writing []) (env : Env)
    (vgm instr track : Option Str) (ticks : Option Int)
    (hj : jobs i = ⟨env, vgm, instr, track, ticks⟩) (n : Str) (hn : IsOutput instr track n) :
    s.fs n = (main env vgm instr track ticks w).2.fs n := by
  have := c87_finished jobs w ha s h i hp
  rw [hj] at this
  exact this n hn

/-- Both runs can come to their end; then both outputs are there, each as if it had been alone. -/
example : ∃ s, Reach twoJobs sampleWorld s ∧
    s.phase 0 = .writing [] ∧ s.phase 1 = .writing [] ∧
    (∀ n, n = "a".toList ∨ n = "at".toList → s.fs n =
      (main sampleEnv (some "in.vgm".toList) (some "a".toList) (some "at".toList) (some 50)
        sampleWorld).2.fs n) ∧
    (∀ n, n = "b".toList ∨ n = "bt".toList → s.fs n =
      (main sampleEnv (some "in.vgm".toList) (some "b".toList) (some "bt".toList) (some 25)
        sampleWorld).2.fs n) := by
  obtain ⟨s1, a1, a2, _⟩ := c87_no_waiting twoJobs sampleWorld ⟨sampleWorld.fs, fun _ => .idle⟩
    .init 0
  obtain ⟨s2, b1, b2, b3⟩ := c87_no_waiting twoJobs sampleWorld s1
    (Steps.reach .init a1) 1
  have h2 := Steps.reach (Steps.reach .init a1) b1
  have p0 : s2.phase 0 = .writing [] := (b3 0 (by decide)).trans a2
  have e0 : twoJobs 0 =
      ⟨sampleEnv, some "in.vgm".toList, some "a".toList, some "at".toList, some 50⟩ := rfl
  have e1 : twoJobs 1 =
      ⟨sampleEnv, some "in.vgm".toList, some "b".toList, some "bt".toList, some 25⟩ := rfl
  have f0 := finished_as twoJobs sampleWorld twoJobs_apart s2 h2 0 p0 _ _ _ _ _ e0
  have f1 := finished_as twoJobs sampleWorld twoJobs_apart s2 h2 1 b2 _ _ _ _ _ e1
  refine ⟨s2, h2, p0, b2, ?_, ?_⟩
  · intro n hn
    refine f0 n ?_
    rcases hn with rfl | rfl
    · exact .inl ⟨rfl, by decide, by decide⟩
    · exact .inr ⟨rfl, by decide⟩
  · intro n hn
    refine f1 n ?_
    rcases hn with rfl | rfl
    · exact .inl ⟨rfl, by decide, by decide⟩
    · exact .inr ⟨rfl, by decide⟩

end VgmX
