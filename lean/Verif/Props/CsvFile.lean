import Verif.Model.CsvFile
import Verif.Props.Csv
import Verif.Props.Main
/-
C72: the CSV export as a function on files.
-/

namespace VgmX
open Spec

/-! ### When the table raises -/

theorem fraction_ok_int (x : Nat) (t : Int) (ht : t ≠ 0) (hx : x < 2 ^ 1023) :
    ∃ f, fractionText x t = .ok f := by
  rcases lt_or_gt_of_ne ht with h | h
  · obtain ⟨u, rfl⟩ : ∃ u : Nat, t = -(u : Int) := ⟨t.natAbs, by omega⟩
    have hu : 0 < u := by omega
    have hq0 : (0 : ℚ) ≤ (x : ℚ) / (u : ℚ) := div_nonneg (Nat.cast_nonneg _) (Nat.cast_nonneg _)
    have hu1 : (1 : ℚ) ≤ u := by exact_mod_cast hu
    have hq1 : (x : ℚ) / (u : ℚ) < pow2 1023 := by
      have h1 : (x : ℚ) / (u : ℚ) ≤ x := div_le_self (Nat.cast_nonneg _) hu1
      have h2 : (x : ℚ) < pow2 1023 := by
        have : pow2 1023 = ((2 ^ 1023 : Nat) : ℚ) := rfl
        rw [this]
        exact_mod_cast hx
      linarith
    obtain ⟨h1, h2⟩ := roundDouble_small hq0 hq1
    unfold fractionText intTrueDiv
    rw [if_neg ht]
    have hcast : (((x : Int) : ℚ) / ((-(u : Int) : Int) : ℚ)) = -((x : ℚ) / (u : ℚ)) := by
      push_cast; rw [div_neg]
    simp only [hcast, roundDouble_neg]
    have : tooLarge (-roundDouble ((x : ℚ) / (u : ℚ))) = false := by
      simp only [tooLarge, Bool.or_eq_false_iff, decide_eq_false_iff_not, not_le]
      have := pow2_pos 1024
      exact ⟨by linarith, by linarith⟩
    simp only [this]
    exact ⟨_, rfl⟩
  · obtain ⟨u, rfl⟩ : ∃ u : Nat, t = (u : Int) := ⟨t.toNat, by omega⟩
    obtain ⟨f, hf, _⟩ := fraction_ok x u (by omega) hx
    exact ⟨f, hf⟩

theorem popRow_mem {ticks row : Int} {l : List Note} {n : Note} (h : n ∈ popRow ticks row l) :
    n ∈ l := by
  unfold popRow at h
  split at h
  · exact h
  · split at h
    · exact List.mem_cons_of_mem _ h
    · exact h

/-- With notes that have a text and times that are not astronomic, the loop does not raise unless
it divides by zero. -/
theorem csvLoop_ok (ticks : Int) (hz : ticks ≠ 0) (fuel : Nat) (pend : Nat → List Note) (R : Int)
    (cell : Nat → Str) (out : List Str)
    (hs : ∀ c < 8, ∀ n ∈ pend c, ∃ s, n.str = .ok s)
    (ht : ∀ c < 8, ∀ n ∈ pend c, n.sample < 2 ^ 1023)
    (r : List Str × Option PyErr)
    (h : csvLoop ticks fuel ((List.range 8).map (fun c => Slot.take (pend c))) R
      ((List.range 8).map cell) out = some r) : r.2 = none := by
  induction fuel generalizing pend R cell out with
  | zero => simp [csvLoop] at h
  | succ fuel ih =>
    unfold csvLoop at h
    cases hm : minOf (((List.range 8).map (fun c => Slot.take (pend c))).filterMap
        (fun s => s.cur.map (·.sample))) with
    | none => rw [hm] at h; simp only [Option.some.injEq] at h; rw [← h]
    | some m =>
      rw [hm] at h
      obtain ⟨h1, _⟩ := minOf_some hm
      obtain ⟨c, hc, n, rest, hp, hn⟩ := (currents pend m).mp h1
      have hmlt : m < 2 ^ 1023 := by rw [← hn]; exact ht c hc n (by rw [hp]; simp)
      obtain ⟨f, hf⟩ := fraction_ok_int m ticks hz hmlt
      simp only [if_neg hz, hf] at h
      have hpop : ∀ row c', c' < 8 → ∀ n ∈ popRow ticks row (pend c'), (∃ s, n.str = .ok s) ∧
          n.sample < 2 ^ 1023 :=
        fun row c' hc' n hn' => ⟨hs c' hc' n (popRow_mem hn'), ht c' hc' n (popRow_mem hn')⟩
      split at h
      · rw [blankRow_eq, takeRow_ok _ _ _ _ _ (fun c' hc' => hs c' (List.mem_range.mp hc'))] at h
        exact ih _ _ _ _ (fun c' hc' n hn' => (hpop _ c' hc' n hn').1)
          (fun c' hc' n hn' => (hpop _ c' hc' n hn').2) h
      · rw [takeRow_ok _ _ _ _ _ (fun c' hc' => hs c' (List.mem_range.mp hc'))] at h
        exact ih _ _ _ _ (fun c' hc' n hn' => (hpop _ c' hc' n hn').1)
          (fun c' hc' n hn' => (hpop _ c' hc' n hn').2) h

/-- C72: the table is complete unless the ticks-per-note is zero; then, if there is any key press,
it ends with `ZeroDivisionError` right after the header. -/
theorem c72_outcome (h : List Event) (hb : ByteHistory h) (ticks : Int) (hT : time h < 2 ^ 1023) :
    (ticks ≠ 0 → ∃ out, extractTracks (run h) ticks = some (out, none)) ∧
    (ticks = 0 → (∃ c < 8, (run h).keyPressesOf c ≠ []) →
      extractTracks (run h) ticks = some ([csvHeader], some .zeroDivision)) ∧
    (ticks = 0 → (∀ c < 8, (run h).keyPressesOf c = []) →
      extractTracks (run h) ticks = some ([csvHeader], none)) := by
  have hsample : ∀ c < 8, ∀ n ∈ (run h).keyPressesOf c, n.sample < 2 ^ 1023 := by
    intro c hc n hn
    obtain ⟨i, v, _, _, e, _⟩ := c24_note_capture h hb c hc n hn
    rw [e]; exact lt_of_le_of_lt (time_take_le h i) hT
  have hstr : ∀ c < 8, ∀ n ∈ (run h).keyPressesOf c, ∃ x, n.str = .ok x := by
    intro c hc n hn
    obtain ⟨_, _, _, x, _, _, _, _, e, _⟩ := c33_off h hb c hc n hn
    exact ⟨x, e⟩
  refine ⟨?_, ?_, ?_⟩
  · intro hz
    obtain ⟨out, err, e⟩ := c45_terminates (run h) ticks
    have e' := e
    unfold extractTracks at e'
    rw [blankRow_eq] at e'
    have := csvLoop_ok ticks hz _ _ _ _ _ hstr hsample _ e'
    simp only at this
    subst this
    exact ⟨out, e⟩
  · rintro rfl ⟨c, hc, hne⟩
    unfold extractTracks
    rw [csvLoop]
    cases hm : minOf (((List.range 8).map (fun c => Slot.take ((run h).keyPressesOf c))).filterMap
        (fun s => s.cur.map (·.sample))) with
    | none =>
      exfalso
      obtain ⟨n, rest, hp⟩ := List.exists_cons_of_ne_nil hne
      have := (currents (run h).keyPressesOf n.sample).mpr ⟨c, hc, n, rest, hp, rfl⟩
      rw [(minOf_none _).mp hm] at this
      simp at this
    | some m => simp
  · rintro rfl hall
    unfold extractTracks
    rw [csvLoop]
    cases hm : minOf (((List.range 8).map (fun c => Slot.take ((run h).keyPressesOf c))).filterMap
        (fun s => s.cur.map (·.sample))) with
    | none => rfl
    | some m =>
      exfalso
      obtain ⟨h1, _⟩ := minOf_some hm
      obtain ⟨c, hc, n, rest, hp, _⟩ := (currents _ m).mp h1
      rw [hall c hc] at hp
      cases hp

/-! ### The file -/

theorem writes_file (lines : List Str) (id : Nat) (name : Str) (w : World) :
    lines.foldl (fun w line => w.write (.file id name) line) w =
      if lines = [] then w
      else { w with fs := setFile w.fs name ((w.fs name).getD [] ++ asciiBytes lines.flatten) } := by
  have hset : ∀ (fs : Str → Option Bytes) (a b : Bytes),
      setFile (setFile fs name a) name b = setFile fs name b := by
    intro fs a b
    funext n
    simp only [setFile]
    split <;> rfl
  induction lines generalizing w with
  | nil => rfl
  | cons l ls ih =>
    rw [List.foldl_cons, ih, if_neg (List.cons_ne_nil _ _)]
    by_cases hl : ls = []
    · subst hl
      simp [World.write]
    · rw [if_neg hl]
      simp only [World.write, hset]
      have : setFile w.fs name ((w.fs name).getD [] ++ asciiBytes l) name =
        some ((w.fs name).getD [] ++ asciiBytes l) := by simp [setFile]
      rw [this]
      simp only [Option.getD_some, List.flatten_cons, asciiBytes, List.map_append, List.append_assoc]

theorem writes_stdout (lines : List Str) (w : World) :
    lines.foldl (fun w line => w.write .stdout line) w =
      { w with stdout := w.stdout ++ lines.flatten } := by
  induction lines generalizing w with
  | nil => simp
  | cons l ls ih =>
    rw [List.foldl_cons, ih]
    simp [World.write, World.print, List.append_assoc]

/-- The message of `extract_tracks`. -/
def csvMessage (name : Str) : Str := "Writing tracks to ".toList ++ name ++ "...\n".toList

/-- C72: writing to a file. Whatever the state and the ticks-per-note: if the file cannot be
opened nothing is changed; otherwise its content is replaced by the lines of the table up to the
point where it ended or failed, the file is closed, and the failure is passed on. -/
theorem c72_file (env : Env) (s : State) (name : Str) (hn : Proper name) (ticks : Int) (w : World)
    (out : List Str) (err : Option PyErr) (he : extractTracks s ticks = some (out, err)) :
    let r := extractTracksFile env s (some name) ticks w
    r.2.stdout = w.stdout ++ csvMessage name ∧ r.2.clocks = w.clocks ∧
    (∀ e, env.openErr name true = some e →
      r.1 = .error e ∧ r.2.fs = w.fs ∧ r.2.trace = w.trace) ∧
    (env.openErr name true = none →
      r.1 = endsWith err ∧
      r.2.fs name = some (asciiBytes out.flatten) ∧ (∀ n, n ≠ name → r.2.fs n = w.fs n) ∧
      r.2.trace = w.trace ++ [.opened w.nextId name ['w'], .closed w.nextId]) := by
  have hmsg : "Writing tracks to ".toList ++ nameStr (some name) ++ "...\n".toList
      = csvMessage name := rfl
  simp only [extractTracksFile, he, Option.getD_some, hmsg]
  generalize csvMessage name = msg
  rw [smartOpen_proper env name _ hn]
  simp only [openFile, List.head?_cons]
  cases ho : env.openErr name true with
  | some e =>
    refine ⟨rfl, rfl, ?_, fun h => (Option.some_ne_none _ h).elim⟩
    intro e' h'
    cases h'
    exact ⟨rfl, rfl, rfl⟩
  | none =>
    simp only [writes_file]
    refine ⟨?_, ?_, fun e h => (Option.some_ne_none _ h.symm).elim, fun _ => ⟨?_, ?_, ?_, ?_⟩⟩
    · split <;> rfl
    · split <;> rfl
    · trivial
    · split
      · rename_i hout
        subst hout
        simp [World.close, setFile, asciiBytes]
      · simp [World.close, setFile]
    · intro n hne
      split <;> simp [World.close, setFile, hne, World.print]
    · split <;> simp [World.close, World.print]

/-- C72: for `-`, the empty name and no name the table goes to standard output, which stays
open; no file is touched. -/
theorem c72_stdout (env : Env) (s : State) (filename : Option Str)
    (hn : ∀ name, filename = some name → ¬ Proper name) (ticks : Int) (w : World)
    (out : List Str) (err : Option PyErr) (he : extractTracks s ticks = some (out, err)) :
    extractTracksFile env s filename ticks w =
      (endsWith err,
        { w with stdout := w.stdout ++ csvMessage (nameStr filename) ++ out.flatten }) := by
  simp only [extractTracksFile, he, Option.getD_some]
  rw [smartOpen_std env filename _ hn]
  simp only [List.head?_cons, if_true, writes_stdout]
  rfl

/-- C72: with ticks-per-note zero an existing table is lost, a header takes its place, and the
call fails; the song export leaves the file alone in the same situation. -/
theorem c72_zero (env : Env) (h : List Event) (hb : ByteHistory h) (hT : time h < 2 ^ 1023)
    (hp : ∃ c < 8, (run h).keyPressesOf c ≠ []) (name : Str) (hn : Proper name) (w : World)
    (ho : env.openErr name true = none) :
    (extractTracksFile env (run h) (some name) 0 w).1 = .error .zeroDivision ∧
    (extractTracksFile env (run h) (some name) 0 w).2.fs name = some (asciiBytes csvHeader) ∧
    (extractTracksToXrns env (run h) name 0 w).1 = .error .zeroDivision ∧
    (extractTracksToXrns env (run h) name 0 w).2.fs = w.fs := by
  have e := (c72_outcome h hb 0 hT).2.1 rfl hp
  obtain ⟨_, _, _, h4⟩ := c72_file env (run h) name hn 0 w _ _ e
  obtain ⟨h5, h6, _, _⟩ := h4 ho
  have hbpm : bpmOf 0 = .error .zeroDivision := by decide +kernel
  have hsong : exportSong (run h) 0 = .error .zeroDivision := by
    simp only [exportSong, hbpm]
  refine ⟨h5, ?_, ?_, ?_⟩
  rotate_left
  · simp only [extractTracksToXrns, hsong]
  · simp only [extractTracksToXrns, hsong]; rfl
  rw [h6]
  simp [asciiBytes]

/-- C72: with any other ticks-per-note the call succeeds and the file holds the whole table
(which for positive numbers is described by C45 to C48). -/
theorem c72_written (env : Env) (h : List Event) (hb : ByteHistory h) (hT : time h < 2 ^ 1023)
    (name : Str) (hn : Proper name) (ticks : Int) (hz : ticks ≠ 0) (w : World)
    (ho : env.openErr name true = none) :
    ∃ out, extractTracks (run h) ticks = some (out, none) ∧
      (extractTracksFile env (run h) (some name) ticks w).1 = .ok () ∧
      (extractTracksFile env (run h) (some name) ticks w).2.fs name =
        some (asciiBytes out.flatten) := by
  obtain ⟨out, e⟩ := (c72_outcome h hb ticks hT).1 hz
  obtain ⟨_, _, _, h4⟩ := c72_file env (run h) name hn ticks w _ _ e
  obtain ⟨h5, h6, _, _⟩ := h4 ho
  exact ⟨out, e, h5, h6⟩

/-- There are histories with key presses. -/
example : ∃ c < 8, (run sample).keyPressesOf c ≠ [] := by decide +kernel

end VgmX
