import Verif.Props.Feeders
import Verif.Props.Xrns
import Verif.Props.Json
import Verif.Props.CsvFile
import Verif.Props.Ticks
/-
Property C125: what several threads have made of a state can be exported.
-/

namespace VgmX
open Spec

/-- What the exporters need of a state that is made by several threads. -/
theorem fed_sound (calls : List (List Event)) (order : List Nat) :
    SharedSound ((Feeders.start calls).after order).shared (calls.map time).sum := by
  obtain ⟨R, U, C, hs, _, hW, _⟩ := kept_after order (kept_start none calls)
  exact hs.mono (by omega)

theorem fed_note (calls : List (List Event)) (order : List Nat) (ch : Nat) (n : Note)
    (hn : n ∈ (fedBy calls order).keyPressesOf ch) :
    NoteOf (fedBy calls order).configs.length (calls.map time).sum n := by
  have hs := fed_sound calls order
  have hn' : n ∈ ((Feeders.start calls).after order).shared.st.keyPresses.getD ch [] := hn
  rw [List.getD_eq_getElem?_getD] at hn'
  cases hl : ((Feeders.start calls).after order).shared.st.keyPresses[ch]? with
  | none => rw [hl] at hn'; cases hn'
  | some l =>
    rw [hl] at hn'
    exact hs.notes l (List.mem_of_getElem? hl) n hn'

theorem fed_xrns_name (calls : List (List Event)) (order : List Nat) (ch : Nat) (n : Note)
    (hn : n ∈ (fedBy calls order).keyPressesOf ch) : ∃ name, n.xrnsNote = .ok name := by
  obtain ⟨h1, _, _, _, h5, _⟩ := fed_note calls order ch n hn
  by_cases h : n.configId < 0
  · exact ⟨_, by unfold Note.xrnsNote; rw [if_pos h]⟩
  · obtain ⟨_, _, _, _, e, _⟩ := xrnsNote_on n (by omega) (by omega)
    exact ⟨_, e⟩

theorem fed_name (calls : List (List Event)) (order : List Nat) (ch : Nat) (n : Note)
    (hn : n ∈ (fedBy calls order).keyPressesOf ch) : ∃ name, n.str = .ok name := by
  obtain ⟨h1, _, _, _, h5, _⟩ := fed_note calls order ch n hn
  by_cases h : n.configId < 0
  · exact ⟨_, by unfold Note.str; rw [if_pos h]⟩
  · obtain ⟨_, _, _, _, e⟩ := str_on n (by omega) (by omega)
    exact ⟨_, e⟩

/-- C125. The song of a state that several threads have fed, interrupted anywhere, can be exported: it
has an instrument for every instrument of the state; every cell that is not empty shows the last note
that was recorded for its row; and every instrument that a cell shows is in the song. -/
theorem c125_song (calls : List (List Event)) (order : List Nat) (t : Nat) (ht : 0 < t)
    (hm : t < maxTicks) :
    let s := fedBy calls order
    ∃ d, exportXrns s t = .ok d ∧ d.instruments.length = s.configs.length ∧
      ∀ p c r, c < 8 → r < 64 →
        (columnsAt d p c r = none ↔ ∀ n ∈ s.keyPressesOf c, n.sample / t ≠ 64 * p + r) ∧
        ∀ n, (onRow (s.keyPressesOf c) t (64 * p + r)).getLast? = some n →
          ∃ col, columnsAt d p c r = some [col] ∧ Shows col n ∧
            ∀ x, col.instrument = some x → ∃ k, readBase 16 x = some k ∧ k < d.instruments.length := by
  intro s
  obtain ⟨pool, hi, e⟩ := exportSong_ok s t ht _ (bpm_pos t ht hm)
    (fun ch _ n hn => fed_xrns_name calls order ch n hn)
  refine ⟨render _, by unfold exportXrns; rw [e], by simp [render], ?_⟩
  intro p c r hc hr
  unfold columnsAt
  rw [linesOf_render, find_lookup, lookup_track hi p c r hc hr]
  constructor
  · rw [Option.map_eq_none_iff, Option.map_eq_none_iff, List.getLast?_eq_none_iff]
    unfold onRow
    rw [List.filter_eq_nil_iff]
    simp
  · intro n hn
    rw [hn]
    have hmem : n ∈ s.keyPressesOf c := (List.mem_filter.mp (List.mem_of_getLast? hn)).1
    obtain ⟨name, hname⟩ := fed_xrns_name calls order c n hmem
    obtain ⟨h1, h2, _⟩ := fed_note calls order c n hmem
    have hsh := lineOf_shows n name hname h1
    refine ⟨_, rfl, hsh, ?_⟩
    intro x hx
    have hin := hsh.instrument
    split at hin
    · rw [hin] at hx; cases hx
    · obtain ⟨y, hy, hk, _⟩ := hin
      rw [hy] at hx
      cases hx
      refine ⟨_, hk, ?_⟩
      simp only [render, List.length_map, List.length_replicate]
      have : n.configId < (s.configs.length : Int) := h2
      omega

/-- C125. The instruments file of such a state is written, and reading it gives the instruments of the
state. -/
theorem c125_instruments (calls : List (List Event)) (order : List Nat) :
    let s := fedBy calls order
    ∃ text, instrumentsText s = .ok text ∧ Ascii text ∧
      readInstrumentFile text = some (s.configs.map fun c => (c.id, ⟨c.base, c.channel, c.operators⟩)) := by
  intro s
  have hs := fed_sound calls order
  obtain ⟨text, _, h1, h2, _, h3, _⟩ := instrumentsText_good s (fun c hc => by
    obtain ⟨a, b, d⟩ := hs.instr c hc
    exact ⟨a, b, d⟩)
  exact ⟨text, h1, h2, h3⟩

/-- C125. Its CSV table is written without an error. -/
theorem c125_csv (calls : List (List Event)) (order : List Nat) (ticks : Int) (hz : ticks ≠ 0)
    (hT : (calls.map time).sum < 2 ^ 1023) :
    ∃ out, extractTracks (fedBy calls order) ticks = some (out, none) := by
  obtain ⟨out, err, e⟩ := c45_terminates (fedBy calls order) ticks
  have e' := e
  unfold extractTracks at e'
  rw [blankRow_eq] at e'
  have := csvLoop_ok ticks hz _ _ _ _ _ (fun c _ n hn => fed_name calls order c n hn)
    (fun c _ n hn => lt_of_le_of_lt (fed_note calls order c n hn).2.2.1 hT) _ e'
  simp only at this
  subst this
  exact ⟨out, e⟩

/-- C125. A tempo is found, and it is the best one for the beats that were recorded. -/
theorem c125_tempo (calls : List (List Event)) (order : List Nat) :
    let s := fedBy calls order
    ∃ b, s.ticksPerNote = .ok b ∧ BestShift (s.ticks.filter fun t => decide (t < 32000)) b := by
  intro s
  refine ticksPerNote_spec s (List.Pairwise.filter _ ?_)
  have hn : s.ticks.Nodup :=
    (pySorted_perm _ _).nodup_iff.mpr (fed_sound calls order).beats
  exact (List.Pairwise.and (pySorted_nat_sorted _) hn).imp fun h => by omega

/-- Two threads whose calls mix (both notes get instrument 0, and there are two instruments of that
number): the export is the subject of the theorems above. -/
example :
    let calls : List (List Event) :=
      [[.wait 5, .write 0x20 0xC1, .write 8 0x78], [.write 0x21 0xC2, .write 8 0x79]]
    let s := fedBy calls (steps 0 8 ++ steps 1 5 ++ steps 0 4 ++ steps 1 80 ++ steps 0 90)
    s.configs.length = 2 ∧ (onRow (s.keyPressesOf 1) 3 1).length = 1 ∧ (calls.map time).sum = 5 ∧
    3 < maxTicks := by
  refine ⟨by decide +kernel, by decide +kernel, by decide +kernel, by decide +kernel⟩

end VgmX
