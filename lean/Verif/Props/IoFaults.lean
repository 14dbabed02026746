import Verif.Model.IoFaults
import Verif.Props.Io
import Verif.Props.Disk
/-
Property C91: whatever is refused, at any time, a run that ends without an exception has done
everything.
-/

namespace VgmX
open Spec

variable {D : Device}

/-! ### The parts of `main` -/

/-- How a part of the program, from `w`, may end at a refusal: with that exception, and in a state
that differs from `w` in what is printed and the clocks, or, at a `print`, in the state `z`. -/
def QuietF (w z : FWorld D) (kind : Refused) (e : PyErr) (a : ResF D) : Prop :=
  a.1 = .error e ∧
    ((a.2.fs = w.fs ∧ a.2.trace = w.trace ∧ a.2.nextId = w.nextId ∧ a.2.failed = w.failed) ∨
      (kind = .print ∧ a.2 = z))

theorem tracks_meetsF {b : Buffers} {env : Env} {track : Option Str} {s : State} {t : Int}
    {f : FStream} {Q : Refused → PyErr → ResF D → Prop} (x : ResF D)
    (hq : ∀ e w, x = (.ok (), w) → Q .print e (.error e, w)) :
    Meets Q (tracksIoF b env track s t x) f
      (match x.1 with
      | .error e => (.error e, x.2)
      | .ok () =>
        match track with
        | some (c :: cs) => extractTracksF b env s (c :: cs) t x.2
        | _ => (.ok (), x.2)) := by
  obtain ⟨r, w⟩ := x
  cases r with
  | error e => exact .ret rfl
  | ok u =>
    cases u
    rcases track with _ | _ | ⟨c, cs⟩
    · exact .ret rfl
    · exact .ret rfl
    · exact .print (fun e => hq e w rfl) (.ret rfl)

theorem outputs_meetsF {b : Buffers} {env : Env} {instr track : Option Str} {s : State} {t : Int}
    {w : FWorld D} {f : FStream} :
    Meets (QuietF w (mainOutputsF b env instr none s t w).2) (outputsIoF b env instr track s t w) f
      (mainOutputsF b env instr track s t w) := by
  unfold outputsIoF mainOutputsF
  by_cases hi : nameTruthy instr = true
  · simp only [if_pos hi]
    unfold extractInstrumentsIoF extractInstrumentsF
    refine .print (fun e => ⟨rfl, .inl ⟨rfl, rfl, rfl, rfl⟩⟩) ?_
    dsimp only
    generalize hw1 : w.print _ = w1
    have g1 : w1.fs = w.fs := by rw [← hw1]; rfl
    have g2 : w1.trace = w.trace := by rw [← hw1]; rfl
    have g3 : w1.nextId = w.nextId := by rw [← hw1]; rfl
    have g4 : w1.failed = w.failed := by rw [← hw1]; rfl
    clear hw1
    cases hj : instrumentsJs s with
    | error e => exact .ret rfl
    | ok js =>
      dsimp only
      by_cases hd : (nameTruthy instr && instr != some ['-']) = true
      · rw [if_pos hd, if_pos hd]
        generalize withWriter env (instr.getD []) ['w'] _ w1 = x
        refine tracks_meetsF (b := b) (env := env) (track := track) (s := s) (t := t) x ?_
        intro e w2 hx
        refine ⟨rfl, .inr ⟨rfl, ?_⟩⟩
        rw [hx]
      · rw [if_neg hd, if_neg hd]
        refine .print (fun e => ⟨rfl, .inl ⟨g1, g2, g3, g4⟩⟩)
          (.print (fun e => ⟨rfl, .inl ⟨g1, g2, g3, g4⟩⟩) ?_)
        refine tracks_meetsF (b := b) (env := env) (track := track) (s := s) (t := t) (.ok (), _) ?_
        intro e w2 hx
        cases hx
        exact ⟨rfl, .inl ⟨g1, g2, g3, g4⟩⟩
  · simp only [if_neg hi]
    refine tracks_meetsF (b := b) (env := env) (track := track) (s := s) (t := t) (.ok (), w) ?_
    intro e w2 hx
    cases hx
    exact ⟨rfl, .inl ⟨rfl, rfl, rfl, rfl⟩⟩

theorem ticks_meetsF {env : Env} {ticks : Option Int} {s : State} {w : FWorld D}
    {k : Int → FWorld D → Io (ResF D)} {f : FStream} {Q : Refused → PyErr → ResF D → Prop}
    {r : ResF D}
    (hq : ∀ e (w' : FWorld D), w'.fs = w.fs → w'.trace = w.trace → w'.nextId = w.nextId →
      w'.failed = w.failed → Q .print e (.error e, w'))
    (he : ∀ e w', mainTicks env ticks s w.toWorld = (.error e, w') →
      r = (.error e, { w with toWorld := w' }))
    (hk : ∀ t w', mainTicks env ticks s w.toWorld = (.ok t, w') →
      Meets Q (k t { w with toWorld := w' }) f r) :
    Meets Q (ticksIoF ticks s w k) f r := by
  unfold ticksIoF
  unfold mainTicks at he hk
  have e0 : ∀ (p : Str) (he : ∀ e w', (s.ticksPerNote.map Int.ofNat,
        (w.toWorld.print p).print (s.ticksReport)) = (Except.error e, w') →
          r = (.error e, { w with toWorld := w' }))
      (hk : ∀ t w', (s.ticksPerNote.map Int.ofNat,
        (w.toWorld.print p).print (s.ticksReport)) = (Except.ok t, w') →
          Meets Q (k t { w with toWorld := w' }) f r),
      Meets Q (.print (fun e => (.error e, w)) (.print (fun e => (.error e, w.print p))
        (match s.ticksPerNote with
        | .error e => .ret (.error e, (w.print p).print s.ticksReport)
        | .ok n => k n ((w.print p).print s.ticksReport)))) f r := by
    intro p he hk
    refine .print (fun e => hq e _ rfl rfl rfl rfl) (.print (fun e => hq e _ rfl rfl rfl rfl) ?_)
    cases ht : s.ticksPerNote with
    | error e => rw [ht] at he; exact .ret (he _ _ rfl)
    | ok n => rw [ht] at hk; exact hk _ _ rfl
  have e1 := e0 "Calculating Ticks Per Note".toList
  clear e0
  revert e1 he hk
  generalize "Calculating Ticks Per Note".toList = p
  generalize s.ticksReport = rep
  generalize s.ticksPerNote = n
  intro he hk e1
  cases ticks with
  | none => exact e1 he hk
  | some t =>
    dsimp only at he hk ⊢
    by_cases h : t ≠ 0
    · rw [if_pos h] at hk ⊢
      exact hk _ _ rfl
    · rw [if_neg h] at he hk ⊢
      exact e1 he hk

theorem body_meetsF {b : Buffers} {env : Env} {instr track : Option Str} {ticks : Option Int}
    {name : Str} {id : Nat} {w : FWorld D} {f : FStream} :
    Meets (QuietF w (mainBodyF b env instr none ticks (.file id name) w).2)
      (bodyIoF b env instr track ticks ((w.fs name).getD []) w) f
      (mainBodyF b env instr track ticks (.file id name) w) := by
  unfold bodyIoF mainBodyF
  cases env.argsFile with
  | none => exact .ret rfl
  | some a =>
    dsimp only
    refine .print (fun e => ⟨rfl, .inl ⟨rfl, rfl, rfl, rfl⟩⟩) (.switch ?_)
    generalize hw1 : w.print _ = w1
    have g1 : w1.fs = w.fs := by rw [← hw1]; rfl
    have g2 : w1.trace = w.trace := by rw [← hw1]; rfl
    have g3 : w1.nextId = w.nextId := by rw [← hw1]; rfl
    have g4 : w1.failed = w.failed := by rw [← hw1]; rfl
    clear hw1
    have hr : readerOn env w1.toWorld (.file id name) =
      ((freader env.inflate w1.clocks ((w.fs name).getD [])).1,
        { w1.toWorld with clocks := (freader env.inflate w1.clocks ((w.fs name).getD [])).2 }) := by
      rw [← g1]; rfl
    rw [hr]
    generalize (w.fs name).getD [] = content
    refine reader_meets (fun e c => ⟨rfl, .inl ⟨g1, g2, g3, g4⟩⟩) (fun e c h => ?_) (fun h => ?_)
      (fun v c h hl => ?_)
    · rw [h]
    · rw [h]
    · rw [h]
      dsimp only
      refine process_meets (fun e => ⟨rfl, .inl ⟨g1, g2, g3, g4⟩⟩) _ _ _ _
        (fprocessStream_enough _ _ (by omega)) (fun e he => ?_) (fun s f' hs => ?_)
      · rw [he]
      · rw [hs]
        dsimp only
        refine ticks_meetsF (env := env) (fun e w' h1 h2 h3 h4 => ⟨rfl, .inl
          ⟨h1.trans g1, h2.trans g2, h3.trans g3, h4.trans g4⟩⟩) (fun e w' ht => ?_)
          (fun t w' ht => ?_)
        · rw [ht]
        · have hsame := mainTicks_same env ticks s { w1.toWorld with clocks := c }
          rw [ht] at hsame ⊢
          dsimp only at hsame ⊢
          obtain ⟨e1, e2, e3⟩ := hsame
          refine .print (fun e => ⟨rfl, .inl ⟨e1.trans g1, e2.trans g2, e3.trans g3, g4⟩⟩) ?_
          generalize hp : ("Ticks per Note: ".toList ++ intStr t ++ ['\n']) = p
          have hW : ∃ w2 : FWorld D, FWorld.print { w1 with toWorld := w' } p = w2 ∧
              ({ w1 with toWorld := w'.print p } : FWorld D) = w2 ∧ w2.fs = w.fs ∧
              w2.trace = w.trace ∧ w2.nextId = w.nextId ∧ w2.failed = w.failed :=
            ⟨_, rfl, rfl, e1.trans g1, e2.trans g2, e3.trans g3, g4⟩
          obtain ⟨w2, hw2, hw2', k1, k2, k3, k4⟩ := hW
          rw [hw2, hw2']
          refine (outputs_meetsF (b := b) (env := env) (instr := instr) (track := track) (s := s)
            (t := t) (w := w2) (f := f')).weaken (fun kind e a h => ⟨h.1, ?_⟩)
          rcases h.2 with ⟨h1, h2, h3, h4⟩ | h
          · exact .inl ⟨h1.trans k1, h2.trans k2, h3.trans k3, h4.trans k4⟩
          · exact .inr h

/-! ### The whole program -/

/-- How the program may end at a refused read, move or print: with that exception; it has opened
and closed the input and no other file, and every file is as it was; or, at a `print`, it has done
what it does if no song file is asked for. -/
def HaltedF (b : Buffers) (env : Env) (vgm : Str) (instr : Option Str) (ticks : Option Int)
    (w : FWorld D) (kind : Refused) (e : PyErr) (a : ResF D) : Prop :=
  a.1 = .error e ∧
    ((a.2.fs = w.fs ∧ a.2.failed = w.failed ∧ a.2.trace = w.trace ++
        [.opened w.nextId vgm ['r', 'b'], .closed w.nextId]) ∨
      (kind = .print ∧ a.2 = (mainF b env (some vgm) instr none ticks w).2))

theorem main_meetsF {b : Buffers} {env : Env} {vgm : Str} {instr track : Option Str}
    {ticks : Option Int} {w : FWorld D} {f : FStream} (hp : Proper vgm) :
    Meets (HaltedF b env vgm instr ticks w) (mainIoF b env vgm instr track ticks w) f
      (mainF b env (some vgm) instr track ticks w) := by
  have hn : (nameTruthy (some vgm) && some vgm != some ['-']) = true := by
    rw [nameTruthy_some]
    simp [hp.1, hp.2]
  unfold HaltedF mainIoF mainF
  simp only [if_pos hn, Option.getD_some, openFile_rb]
  cases env.openErr vgm false with
  | some e => exact .ret rfl
  | none =>
    cases hw : w.fs vgm with
    | none => exact .ret rfl
    | some c =>
      dsimp only
      generalize hW : ({ w with toWorld := { w.toWorld with
          trace := w.trace ++ [.opened w.nextId vgm ['r', 'b']]
          nextId := w.nextId + 1 } } : FWorld D) = W
      have hfs : W.fs = w.fs := by rw [← hW]
      have hfl : W.failed = w.failed := by rw [← hW]
      have htr : W.trace = w.trace ++ [.opened w.nextId vgm ['r', 'b']] := by rw [← hW]
      have h := body_meetsF (b := b) (env := env) (instr := instr) (track := track)
        (ticks := ticks) (name := vgm) (id := w.nextId) (w := W) (f := f)
      rw [hfs] at h
      refine h.map (fun x => (x.1, { x.2 with toWorld := x.2.toWorld.close (.file w.nextId vgm) }))
        (fun kind e a ha => ?_)
      obtain ⟨h1, h2 | h2⟩ := ha
      · refine ⟨h1, .inl ⟨h2.1.trans hfs, h2.2.2.2.trans hfl, ?_⟩⟩
        simp [World.close, h2.2.1, htr]
      · refine ⟨h1, .inr ⟨h2.1, ?_⟩⟩
        dsimp only
        rw [h2.2]

/-- C91. Reads, moves, prints and writes may be refused, at any time, with any exceptions, a write
also in the middle. If the program ends without an exception, then nothing at all has been refused,
and everything (the files, what is printed) is as on a perfect system, where it ends without an
exception as well. -/
theorem c91_success (b : Buffers) (env : Env) (vgm : Str) (instr track : Option Str)
    (ticks : Option Int) (w : FWorld D) (f : FStream) (a : ResF D)
    (o : Option (Refused × PyErr)) (hp : Proper vgm) (hw : w.failed = false)
    (h : (mainIoF b env vgm instr track ticks w).Ends f a o) (hok : a.1 = .ok ()) :
    o = none ∧ a.2.failed = false ∧
      a.2.toWorld = (main env (some vgm) instr track ticks w.toWorld).2 ∧
      (main env (some vgm) instr track ticks w.toWorld).1 = .ok () := by
  have hm := (main_meetsF hp).ends h
  cases o with
  | some o =>
    obtain ⟨kind, e⟩ := o
    have := (hm.2 _ _ rfl).1
    rw [hok] at this
    cases this
  | none =>
    have e := hm.1 rfl
    subst e
    refine ⟨rfl, ?_, c80_success b env (some vgm) instr track ticks w hw hok⟩
    rcases (main_runs b env (some vgm) instr track ticks w).raised with h | ⟨⟨e, h⟩, _⟩
    · exact h.trans hw
    · rw [hok] at h; cases h

/-- C91. If nothing is refused, the run is the one on a perfect system. -/
theorem c91_none (b : Buffers) (env : Env) (vgm : Str) (instr track : Option Str)
    (ticks : Option Int) (w : FWorld D) (f : FStream) (a : ResF D) (hp : Proper vgm)
    (hw : w.failed = false) (h : (mainIoF b env vgm instr track ticks w).Ends f a none)
    (hf : a.2.failed = false) :
    (a.1, a.2.toWorld) = main env (some vgm) instr track ticks w.toWorld := by
  have e := ((main_meetsF hp).ends h).1 rfl
  subst e
  exact (c80_faults b env (some vgm) instr track ticks w hw).1 hf

/-- C91. Whatever is refused, files other than the requested outputs are as they were. -/
theorem c91_others (b : Buffers) (env : Env) (vgm : Str) (instr track : Option Str)
    (ticks : Option Int) (w : FWorld D) (f : FStream) (a : ResF D)
    (o : Option (Refused × PyErr)) (hp : Proper vgm)
    (h : (mainIoF b env vgm instr track ticks w).Ends f a o) (n : Str)
    (hn : ¬ IsOutput instr track n) : a.2.fs n = w.fs n := by
  have hm := (main_meetsF hp).ends h
  cases o with
  | none =>
    rw [hm.1 rfl]
    exact c80_others b env (some vgm) instr track ticks w n hn
  | some o =>
    obtain ⟨kind, e⟩ := o
    rcases (hm.2 _ _ rfl).2 with h2 | h2
    · rw [h2.1]
    · rw [h2.2]
      refine c80_others b env (some vgm) instr none ticks w n (fun h => hn ?_)
      rcases h with h | h
      · exact .inl h
      · cases h.1

/-- C91. Whatever is refused, the song file is not touched unless the instrument file is complete,
as on a perfect system. -/
theorem c91_order (b : Buffers) (env : Env) (vgm : Str) (i tr : Str)
    (ticks : Option Int) (w : FWorld D) (f : FStream) (a : ResF D)
    (o : Option (Refused × PyErr)) (hp : Proper vgm) (hw : w.failed = false)
    (hi : i ≠ [] ∧ i ≠ ['-']) (hne : i ≠ tr)
    (h : (mainIoF b env vgm (some i) (some tr) ticks w).Ends f a o)
    (hc : a.2.fs tr ≠ w.fs tr) :
    a.2.fs i = (main env (some vgm) (some i) (some tr) ticks w.toWorld).2.fs i := by
  have hm := (main_meetsF hp).ends h
  cases o with
  | none =>
    have e := hm.1 rfl
    subst e
    exact c80_order b env (some vgm) ticks w hw i tr hi hne hc
  | some o =>
    obtain ⟨kind, e⟩ := o
    exfalso
    rcases (hm.2 _ _ rfl).2 with h2 | h2
    · exact hc (by rw [h2.1])
    · refine hc ?_
      rw [h2.2]
      refine c80_others b env (some vgm) (some i) none ticks w tr (fun h => ?_)
      rcases h with h | h
      · exact hne (Option.some.inj h.1)
      · cases h.1

/-- C91. Whatever is refused, every file opened has been closed, once and in the opposite order,
and no other file. -/
theorem c91_closed (b : Buffers) (env : Env) (vgm : Str) (instr track : Option Str)
    (ticks : Option Int) (w : FWorld D) (f : FStream) (a : ResF D)
    (o : Option (Refused × PyErr)) (hp : Proper vgm)
    (h : (mainIoF b env vgm instr track ticks w).Ends f a o) :
    ∃ t, a.2.trace = w.trace ++ t ∧ Nested t ∧
      (openedIds t).Nodup ∧ (closedIds t).Perm (openedIds t) := by
  have hm := (main_meetsF hp).ends h
  cases o with
  | none =>
    rw [hm.1 rfl]
    exact c80_closed b env (some vgm) instr track ticks w
  | some o =>
    obtain ⟨kind, e⟩ := o
    rcases (hm.2 _ _ rfl).2 with h2 | h2
    · refine ⟨_, h2.2.2, .wrap _ _ _ .nil, ?_, ?_⟩
      · simp [openedIds]
      · simp [openedIds, closedIds]
    · rw [h2.2]
      exact c80_closed b env (some vgm) instr none ticks w

/-- C91. What the program does on the device alone is among its ways to end. -/
theorem c91_possible (b : Buffers) (env : Env) (vgm : Str) (instr track : Option Str)
    (ticks : Option Int) (w : FWorld D) (f : FStream) (hp : Proper vgm) :
    (mainIoF b env vgm instr track ticks w).Ends f
      (mainF b env (some vgm) instr track ticks w) none := by
  have := Io.ends_run (mainIoF b env vgm instr track ticks w) f
  rw [(main_meetsF hp).run] at this
  exact this

/-! ### Examples -/

/-- The sample run on a disk with `free` bytes left, its operation number `n` refused. -/
def sampleTrouble (free n : Nat) : ResF disk × Option (Refused × PyErr) :=
  (mainIoF usualBuffers sampleEnv "in.vgm".toList (some "i".toList) (some "t".toList) (some 50)
    (diskWorld free)).refuse (.other 5) n ⟨[], 0, none⟩

/-- The hypotheses of `c91_success` are met if there is room and nothing is refused; both kinds of
trouble occur: the last `print` refused after the instruments were written, and, with the same
operation to be refused, a disk that is full before. -/
theorem sample_trouble :
    ((sampleTrouble 9000 42).1.1 = .ok () ∧ (sampleTrouble 9000 42).2 = none) ∧
    ((sampleTrouble 9000 41).1.1 = .error (.other 5) ∧
      (sampleTrouble 9000 41).2 = some (.print, .other 5) ∧
      (sampleTrouble 9000 41).1.2.failed = false ∧
      (sampleTrouble 9000 41).1.2.fs "i".toList ≠ none) ∧
    ((sampleTrouble 10 41).1.1 = .error (.other 28) ∧ (sampleTrouble 10 41).2 = none ∧
      (sampleTrouble 10 41).1.2.failed = true) := by
  decide +kernel

example : (sampleTrouble 9000 42).1.2.toWorld =
    (main sampleEnv (some "in.vgm".toList) (some "i".toList) (some "t".toList) (some 50)
      sampleWorld).2 := by
  have h := Io.ends_refuse (.other 5) (mainIoF usualBuffers sampleEnv "in.vgm".toList
    (some "i".toList) (some "t".toList) (some 50) (diskWorld 9000)) 42 ⟨[], 0, none⟩
  have h2 := sample_trouble.1.1
  unfold sampleTrouble at h2 ⊢
  generalize Io.refuse _ _ _ _ = x at h h2 ⊢
  exact (c91_success _ _ _ _ _ _ _ _ _ _ (by decide) rfl h h2).2.2.1

end VgmX
