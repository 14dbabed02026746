import Verif.Lemmas.Io
import Verif.Props.Faults
/-
Property C82: a refused read or print is never mistaken for the end of the input.
-/

namespace VgmX
open Spec

/-! ### The parts of `main` -/

/-- How a part of the program, from `w`, may end at a refusal: with that exception, and in a state
that differs from `w` in what is printed and the clocks, or, at a `print`, in the state `z`. -/
def Quiet (w z : World) (kind : Refused) (e : PyErr) (a : Res) : Prop :=
  a.1 = .error e ∧
    ((a.2.fs = w.fs ∧ a.2.trace = w.trace ∧ a.2.nextId = w.nextId) ∨ (kind = .print ∧ a.2 = z))

theorem tracks_meets {env : Env} {track : Option Str} {s : State} {t : Int} {f : FStream}
    {Q : Refused → PyErr → Res → Prop} (x : Res) (hq : ∀ e w, x = (.ok (), w) →
      Q .print e (.error e, w)) :
    Meets Q (tracksIo env track s t x) f
      (match x.1 with
      | .error e => (.error e, x.2)
      | .ok () =>
        match track with
        | some (c :: cs) => extractTracksToXrns env s (c :: cs) t x.2
        | _ => (.ok (), x.2)) := by
  obtain ⟨r, w⟩ := x
  cases r with
  | error e => exact .ret rfl
  | ok u =>
    cases u
    rcases track with _ | _ | ⟨c, cs⟩
    · exact .ret rfl
    · exact .ret rfl
    · exact .print (fun e => hq e w rfl) (.ret rfl)

theorem outputs_meets {env : Env} {instr track : Option Str} {s : State} {t : Int} {w : World}
    {f : FStream} :
    Meets (Quiet w (mainOutputs env instr none s t w).2) (outputsIo env instr track s t w) f
      (mainOutputs env instr track s t w) := by
  unfold outputsIo mainOutputs
  by_cases hi : nameTruthy instr = true
  · simp only [if_pos hi]
    unfold extractInstrumentsIo extractInstruments
    refine .print (fun e => ⟨rfl, .inl ⟨rfl, rfl, rfl⟩⟩) ?_
    dsimp only
    generalize hw1 : w.print _ = w1
    have g1 : w1.fs = w.fs := by rw [← hw1]; rfl
    have g2 : w1.trace = w.trace := by rw [← hw1]; rfl
    have g3 : w1.nextId = w.nextId := by rw [← hw1]; rfl
    clear hw1
    cases hj : instrumentsJs s with
    | error e => exact .ret rfl
    | ok js =>
      dsimp only
      by_cases hd : (nameTruthy instr && instr != some ['-']) = true
      · rw [if_pos hd]
        generalize smartOpen env instr ['w'] _ w1 = x
        refine tracks_meets (env := env) (track := track) (s := s) (t := t) x ?_
        intro e w2 hx
        refine ⟨rfl, .inr ⟨rfl, ?_⟩⟩
        rw [hx]
      · have hs : smartOpen env instr ['w']
            (fun fo w => (.ok (), (w.write fo js).write fo ['\n'])) w1
            = ((.ok (), (w1.print js).print ['\n']) : Res) := by
          unfold smartOpen
          rw [if_neg hd]
          rfl
        rw [if_neg hd, hs]
        refine .print (fun e => ⟨rfl, .inl ⟨g1, g2, g3⟩⟩) (.print (fun e => ⟨rfl, .inl ⟨g1, g2, g3⟩⟩) ?_)
        refine tracks_meets (env := env) (track := track) (s := s) (t := t) (.ok (), _) ?_
        intro e w2 hx
        cases hx
        exact ⟨rfl, .inl ⟨g1, g2, g3⟩⟩
  · simp only [if_neg hi]
    refine tracks_meets (env := env) (track := track) (s := s) (t := t) (.ok (), w) ?_
    intro e w2 hx
    cases hx
    exact ⟨rfl, .inl ⟨rfl, rfl, rfl⟩⟩

theorem ticks_meets {env : Env} {ticks : Option Int} {s : State} {w : World}
    {k : Int → World → Io Res} {f : FStream} {Q : Refused → PyErr → Res → Prop} {r : Res}
    (hq : ∀ e w', w'.fs = w.fs → w'.trace = w.trace → w'.nextId = w.nextId →
      Q .print e (.error e, w'))
    (he : ∀ e w', mainTicks env ticks s w = (.error e, w') → r = (.error e, w'))
    (hk : ∀ t w', mainTicks env ticks s w = (.ok t, w') → Meets Q (k t w') f r) :
    Meets Q (ticksIo ticks s w k) f r := by
  unfold ticksIo
  unfold mainTicks at he hk
  have e0 : ∀ (p : Str) (he : ∀ e w', (s.ticksPerNote.map Int.ofNat,
        (w.print p).print (s.ticksReport)) = (Except.error e, w') → r = (.error e, w'))
      (hk : ∀ t w', (s.ticksPerNote.map Int.ofNat,
        (w.print p).print (s.ticksReport)) = (Except.ok t, w') → Meets Q (k t w') f r),
      Meets Q (.print (fun e => (.error e, w)) (.print (fun e => (.error e, w.print p))
        (match s.ticksPerNote with
        | .error e => .ret (.error e, (w.print p).print s.ticksReport)
        | .ok n => k n ((w.print p).print s.ticksReport)))) f r := by
    intro p he hk
    refine .print (fun e => hq e _ rfl rfl rfl) (.print (fun e => hq e _ rfl rfl rfl) ?_)
    cases ht : s.ticksPerNote with
    | error e => rw [ht] at he; exact .ret (he _ _ rfl)
    | ok n => rw [ht] at hk; exact hk _ _ rfl
  have e1 := e0 "Calculating Ticks Per Note".toList
  clear e0
  revert e1 he hk
  generalize "Calculating Ticks Per Note".toList = p
  generalize s.ticksReport = rep
  generalize s.ticksPerNote = n
  intro he hk e1
  cases ticks with
  | none => exact e1 he hk
  | some t =>
    dsimp only at he hk ⊢
    by_cases h : t ≠ 0
    · rw [if_pos h] at hk ⊢
      exact hk _ _ rfl
    · rw [if_neg h] at he hk ⊢
      exact e1 he hk

theorem body_meets {env : Env} {instr track : Option Str} {ticks : Option Int} {name : Str}
    {id : Nat} {w : World} {f : FStream} :
    Meets (Quiet w (mainBody env instr none ticks (.file id name) w).2)
      (bodyIo env instr track ticks ((w.fs name).getD []) w) f
      (mainBody env instr track ticks (.file id name) w) := by
  unfold bodyIo mainBody
  cases env.argsFile with
  | none => exact .ret rfl
  | some a =>
    dsimp only
    refine .print (fun e => ⟨rfl, .inl ⟨rfl, rfl, rfl⟩⟩) (.switch ?_)
    generalize hw1 : w.print _ = w1
    have g1 : w1.fs = w.fs := by rw [← hw1]; rfl
    have g2 : w1.trace = w.trace := by rw [← hw1]; rfl
    have g3 : w1.nextId = w.nextId := by rw [← hw1]; rfl
    clear hw1
    have hr : readerOn env w1 (.file id name) =
      ((freader env.inflate w1.clocks ((w.fs name).getD [])).1, { w1 with clocks := (freader env.inflate w1.clocks ((w.fs name).getD [])).2 }) := by
      unfold readerOn; rw [g1]
    rw [hr]
    generalize (w.fs name).getD [] = content
    refine reader_meets (fun e c => ⟨rfl, .inl ⟨g1, g2, g3⟩⟩) (fun e c h => ?_) (fun h => ?_)
      (fun v c h hl => ?_)
    · rw [h]
    · rw [h]
    · rw [h]
      dsimp only
      refine process_meets (fun e => ⟨rfl, .inl ⟨g1, g2, g3⟩⟩) _ _ _ _
        (fprocessStream_enough _ _ (by omega)) (fun e he => ?_) (fun s f' hs => ?_)
      · rw [he]
      · rw [hs]
        dsimp only
        refine ticks_meets (env := env) (fun e w' h1 h2 h3 => ⟨rfl, .inl
          ⟨h1.trans g1, h2.trans g2, h3.trans g3⟩⟩) (fun e w' ht => ?_) (fun t w' ht => ?_)
        · rw [ht]
        · have hsame := mainTicks_same env ticks s { w1 with clocks := c }
          rw [ht] at hsame ⊢
          dsimp only at hsame ⊢
          obtain ⟨e1, e2, e3⟩ := hsame
          refine .print (fun e => ⟨rfl, .inl ⟨e1.trans g1, e2.trans g2, e3.trans g3⟩⟩) ?_
          generalize hw2 : w'.print ("Ticks per Note: ".toList ++ intStr t ++ ['\n']) = w2
          have k1 : w2.fs = w.fs := by rw [← hw2]; exact e1.trans g1
          have k2 : w2.trace = w.trace := by rw [← hw2]; exact e2.trans g2
          have k3 : w2.nextId = w.nextId := by rw [← hw2]; exact e3.trans g3
          refine (outputs_meets (env := env) (instr := instr) (track := track) (s := s) (t := t)
            (w := w2) (f := f')).weaken (fun kind e a h => ⟨h.1, ?_⟩)
          rcases h.2 with ⟨h1, h2, h3⟩ | h
          · exact .inl ⟨h1.trans k1, h2.trans k2, h3.trans k3⟩
          · exact .inr h

/-! ### The whole program -/

/-- How the program may end at a refusal: with that exception; it has opened and closed the input
and no other file, and every file is as it was; or, at a `print`, it has done what it does if no
song file is asked for. -/
def Halted (env : Env) (vgm : Str) (instr : Option Str) (ticks : Option Int) (w : World)
    (kind : Refused) (e : PyErr) (a : Res) : Prop :=
  a.1 = .error e ∧
    ((a.2.fs = w.fs ∧ a.2.trace = w.trace ++
        [.opened w.nextId vgm ['r', 'b'], .closed w.nextId]) ∨
      (kind = .print ∧ a.2 = (main env (some vgm) instr none ticks w).2))

theorem main_meets {env : Env} {vgm : Str} {instr track : Option Str} {ticks : Option Int}
    {w : World} {f : FStream} (hp : Proper vgm) :
    Meets (Halted env vgm instr ticks w) (mainIo env vgm instr track ticks w) f
      (main env (some vgm) instr track ticks w) := by
  have hn : (nameTruthy (some vgm) && some vgm != some ['-']) = true := by
    rw [nameTruthy_some]
    simp [hp.1, hp.2]
  unfold Halted mainIo main smartOpen
  simp only [if_pos hn, Option.getD_some, openFile_rb]
  cases env.openErr vgm false with
  | some e => exact .ret rfl
  | none =>
    cases hw : w.fs vgm with
    | none => exact .ret rfl
    | some c =>
      dsimp only
      generalize hW : ({ w with
          trace := w.trace ++ [.opened w.nextId vgm ['r', 'b']]
          nextId := w.nextId + 1 } : World) = W
      have hfs : W.fs = w.fs := by rw [← hW]
      have htr : W.trace = w.trace ++ [.opened w.nextId vgm ['r', 'b']] := by rw [← hW]
      have h := body_meets (env := env) (instr := instr) (track := track) (ticks := ticks)
        (name := vgm) (id := w.nextId) (w := W) (f := f)
      rw [hfs] at h
      simp only [ne_eq, reduceCtorEq, not_false_eq_true, and_self, if_true]
      refine h.map (fun x => (x.1, x.2.close (.file w.nextId vgm))) (fun kind e a ha => ?_)
      obtain ⟨h1, h2 | h2⟩ := ha
      · refine ⟨h1, .inl ⟨h2.1.trans hfs, ?_⟩⟩
        simp [World.close, h2.2.1, htr]
      · refine ⟨h1, .inr ⟨h2.1, ?_⟩⟩
        dsimp only
        rw [h2.2]

/-- C82. With any reads, moves and prints refused, or none: if nothing is refused, the program
does what it does on a perfect system. -/
theorem c82_none (env : Env) (vgm : Str) (instr track : Option Str) (ticks : Option Int)
    (w : World) (f : FStream) (a : Res) (hp : Proper vgm)
    (h : (mainIo env vgm instr track ticks w).Ends f a none) :
    a = main env (some vgm) instr track ticks w :=
  ((main_meets hp).ends h).1 rfl

/-- C82. If a read of the input, or a move in it, is refused, the program ends with that
exception, and no file is touched: a refusal is not taken for the end of the input. -/
theorem c82_input (env : Env) (vgm : Str) (instr track : Option Str) (ticks : Option Int)
    (w : World) (f : FStream) (a : Res) (e : PyErr) (hp : Proper vgm)
    (h : (mainIo env vgm instr track ticks w).Ends f a (some (.input, e))) :
    a.1 = .error e ∧ a.2.fs = w.fs := by
  obtain ⟨h1, h2 | h2⟩ := ((main_meets hp).ends h).2 _ _ rfl
  · exact ⟨h1, h2.1⟩
  · cases h2.1

/-- C82. If a `print` is refused, the program ends with that exception, and the files are as they
were, or as after a run asked for the instruments only. -/
theorem c82_print (env : Env) (vgm : Str) (instr track : Option Str) (ticks : Option Int)
    (w : World) (f : FStream) (a : Res) (e : PyErr) (hp : Proper vgm)
    (h : (mainIo env vgm instr track ticks w).Ends f a (some (.print, e))) :
    a.1 = .error e ∧
      (a.2.fs = w.fs ∨ a.2.fs = (main env (some vgm) instr none ticks w).2.fs) := by
  obtain ⟨h1, h2 | h2⟩ := ((main_meets hp).ends h).2 _ _ rfl
  · exact ⟨h1, .inl h2.1⟩
  · exact ⟨h1, .inr (by rw [h2.2])⟩

/-- C82. Whatever is refused, every file opened has been closed, once and in the opposite order,
and no other file. -/
theorem c82_closed (env : Env) (vgm : Str) (instr track : Option Str) (ticks : Option Int)
    (w : World) (f : FStream) (a : Res) (o : Option (Refused × PyErr)) (hp : Proper vgm)
    (h : (mainIo env vgm instr track ticks w).Ends f a o) :
    ∃ t, a.2.trace = w.trace ++ t ∧ Nested t ∧
      (openedIds t).Nodup ∧ (closedIds t).Perm (openedIds t) := by
  cases o with
  | none =>
    rw [c82_none env vgm instr track ticks w f a hp h]
    exact c53_main env (some vgm) instr track ticks w
  | some o =>
    obtain ⟨kind, e⟩ := o
    obtain ⟨_, h2 | h2⟩ := ((main_meets hp).ends h).2 _ _ rfl
    · refine ⟨_, h2.2, .wrap _ _ _ .nil, ?_, ?_⟩
      · simp [openedIds]
      · simp [openedIds, closedIds]
    · rw [h2.2]
      exact c53_main env (some vgm) instr none ticks w

/-- C82. A run with no refusal is always possible. -/
theorem c82_possible (env : Env) (vgm : Str) (instr track : Option Str) (ticks : Option Int)
    (w : World) (f : FStream) (hp : Proper vgm) :
    (mainIo env vgm instr track ticks w).Ends f (main env (some vgm) instr track ticks w) none := by
  have := Io.ends_run (mainIo env vgm instr track ticks w) f
  rw [(main_meets hp).run] at this
  exact this

/-! ### Examples -/

/-- The program if its operation number `n` (from 0) is refused with `e`, and no other. -/
def Io.refuse {α : Type} (e : PyErr) : Nat → Io α → FStream → α × Option (Refused × PyErr)
  | _, .ret a, _ => (a, none)
  | 0, .read _ err _, _ => (err e, some (.input, e))
  | n + 1, .read m err k, f =>
    match f.read m with
    | (.error e', _) => (err e', none)
    | (.ok b, f') => (k b).refuse e n f'
  | 0, .seek _ err _, _ => (err e, some (.input, e))
  | n + 1, .seek p err k, f =>
    match f.seek p with
    | .error e' => (err e', none)
    | .ok f' => k.refuse e n f'
  | n, .switch g k, f => k.refuse e n (g f.data)
  | 0, .print err _, _ => (err e, some (.print, e))
  | n + 1, .print _ k, f => k.refuse e n f

theorem Io.ends_refuse {α : Type} (e : PyErr) (p : Io α) : ∀ (n : Nat) (f : FStream),
    p.Ends f (p.refuse e n f).1 (p.refuse e n f).2 := by
  induction p with
  | ret a => intro n f; cases n <;> exact .ret
  | read m err k ih =>
    intro n f
    cases n with
    | zero => exact .readRefused e
    | succ n =>
      unfold Io.refuse
      rcases h : f.read m with ⟨r, f'⟩
      cases r with
      | error e' => exact .damaged h
      | ok b => exact .read h (ih b n f')
  | seek p err k ih =>
    intro n f
    cases n with
    | zero => exact .seekRefused e
    | succ n =>
      unfold Io.refuse
      cases h : f.seek p with
      | error e' => exact .seekDamaged h
      | ok f' => exact .seek h (ih n f')
  | switch g k ih => intro n f; cases n <;> exact .switch (ih _ _)
  | print err k ih =>
    intro n f
    cases n with
    | zero => exact .printRefused e
    | succ n => exact .print (ih n f)

/-- The sample run with operation `n` refused. -/
def sampleRefused (n : Nat) : Res × Option (Refused × PyErr) :=
  (mainIo sampleEnv "in.vgm".toList (some "i".toList) (some "t".toList) (some 50)
    sampleWorld).refuse (.other 5) n ⟨[], 0, none⟩

/-- The hypotheses of `c82_input` are met by the refusal of the very last read, the one that would
have reported the end of the file; those of `c82_print`, with both outcomes, by the last three
`print`s. -/
theorem sample_refused :
    (sampleRefused 38).2 = some (.input, .other 5) ∧ (sampleRefused 39).2 = some (.print, .other 5) ∧
    ((sampleRefused 40).2 = some (.print, .other 5) ∧
      (sampleRefused 40).1.2.fs "i".toList = none) ∧
    ((sampleRefused 41).2 = some (.print, .other 5) ∧
      (sampleRefused 41).1.2.fs "i".toList ≠ none ∧ (sampleRefused 41).1.2.fs "t".toList = none) := by
  decide +kernel

example : (sampleRefused 38).1.1 = .error (.other 5) ∧ (sampleRefused 38).1.2.fs = sampleWorld.fs := by
  have h := Io.ends_refuse (.other 5) (mainIo sampleEnv "in.vgm".toList (some "i".toList)
    (some "t".toList) (some 50) sampleWorld) 38 ⟨[], 0, none⟩
  have h2 := sample_refused.1
  unfold sampleRefused at *
  rw [h2] at h
  exact c82_input _ _ _ _ _ _ _ _ _ (by decide) h

end VgmX
