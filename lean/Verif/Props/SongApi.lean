import Verif.Lemmas.SongApi
import Verif.Props.Xrns
/-
C71: a song built by any sequence of calls. Vocabulary: Spec/SongApi.lean, Spec/Song.lean.
-/

namespace VgmX
open Spec

/-- C71: a call fails exactly if its pattern or its track does not exist, with `IndexError`. -/
theorem c71_errors (T I : Int) (L : Nat) (calls : List SongCall) (i : Nat) (c : SongCall)
    (hc : calls[i]? = some c) :
    ((Song.make T I L).calls calls).1[i]? =
      some (if CallFails T.toNat (calls.take i) c then .error .index else .ok ()) := by
  have hi : i < calls.length := (List.getElem?_eq_some_iff.mp hc).1
  have hsplit : calls = calls.take i ++ (c :: calls.drop (i + 1)) := by
    rw [← (List.getElem?_eq_some_iff.mp hc).2]
    simp
  have hlen : ∀ (s : Song) (l : List SongCall), (s.calls l).1.length = l.length := by
    intro s l
    induction l generalizing s with
    | nil => rfl
    | cons a l ih => simp [Song.calls, ih]
  have hstep := callsInv_step T I L _ _ (callsInv T I L (calls.take i)) c
  conv => lhs; rw [hsplit, calls_append]
  simp only
  have hl : (((Song.make T I L).calls (calls.take i)).1).length = i := by
    rw [hlen, List.length_take]; omega
  rw [List.getElem?_append_right (by omega), hl, Nat.sub_self]
  simp only [Song.calls, List.getElem?_cons_zero]
  congr 1
  split
  · rename_i h; exact hstep.2.1 h
  · rename_i h; exact hstep.2.2 h

/-- C71: the rendered song has just enough patterns, each with the song's tracks, and the sequence
as it was given. -/
theorem c71_shape (T I : Int) (L : Nat) (calls : List SongCall) :
    let d := render ((Song.make T I L).calls calls).2
    d.patterns.length = patternCount calls ∧
    (∀ pat ∈ d.patterns, pat.patternTrack.length = T.toNat ∧
      pat.patternMasterTrack.length = 1 ∧ pat.patternSendTrack.length = 1) ∧
    d.tracks.sequencerTrack.length = T.toNat ∧
    d.instruments.length = I.toNat ∧
    d.sequenceEntries = sequenceOf calls := by
  have h := callsInv T I L calls
  refine ⟨?_, ?_, ?_, ?_, h.sequence⟩
  · simp only [render, List.length_map]; exact h.count
  · intro pat hpat
    simp only [render, List.mem_map] at hpat
    obtain ⟨q, hq, rfl⟩ := hpat
    obtain ⟨_, h2, h3, h4⟩ := h.shape q hq
    simp [renderPattern, h2, h3, h4]
  · have : ∀ (l : List SequencerTrack) (cs : List Str), (renderSeqTracks l cs).length = l.length := by
      intro l
      induction l with
      | nil => intro cs; simp [renderSeqTracks]
      | cons t l ih => intro cs; cases cs <;> simp [renderSeqTracks, ih]
    simp only [render, renderTracks, this, h.tracks, Tracks.new, List.length_map, List.length_range]
  · simp [render, h.instruments]

/-- C71: a cell of the rendered song shows what the last call for this cell has put there, and
nothing if there was no such call. -/
theorem c71_cells (T I : Int) (L : Nat) (calls : List SongCall) (p c r : Nat) :
    columnsAt (render ((Song.make T I L).calls calls).2) p c r =
      (cellLast T.toNat calls (p, c, r)).map (fun x => [⟨x.note, x.instrument, x.pan⟩]) := by
  have h := callsInv T I L calls
  unfold columnsAt
  rw [linesOf_render, find_lookup, h.lines, dictOf_lookup]
  unfold cellLast trackSets
  rw [List.filter_map, List.filter_filter, List.getLast?_map]
  have : List.filter (fun a : (Nat × Nat × Int) × Line =>
        ((fun x : Int × Line => decide (x.1 = (r : Int))) ∘ fun x : (Nat × Nat × Int) × Line => (x.1.2.2, x.2)) a
          && decide (a.1.1 = p ∧ a.1.2.1 = c)) (cellsSet T.toNat calls)
      = List.filter (fun x => decide (x.1 = (p, c, (r : Int)))) (cellsSet T.toNat calls) := by
    apply List.filter_congr
    rintro ⟨⟨a, b, d⟩, x⟩ _
    by_cases h1 : a = p <;> by_cases h2 : b = c <;> by_cases h3 : d = (r : Int) <;>
      simp [h1, h2, h3]
  rw [this]
  cases (List.filter (fun x => decide (x.1 = (p, c, (r : Int)))) (cellsSet T.toNat calls)).getLast? <;> rfl

/-- C71: the lines of a track are those that have been set, each once, in the order in which they
were first set. -/
theorem c71_order (T I : Int) (L : Nat) (calls : List SongCall) (p c : Nat) :
    (linesOf (render ((Song.make T I L).calls calls).2) p c).map (·.index) =
      linesSet T.toNat calls p c := by
  have h := callsInv T I L calls
  rw [linesOf_render, List.map_map]
  have : ((fun l : DaoLine => l.index) ∘ fun x : Int × Line =>
      (⟨x.1, [⟨x.2.note, x.2.instrument, x.2.pan⟩]⟩ : DaoLine)) = (·.1) := rfl
  rw [this, h.lines, dictOf_keys]
  unfold linesSet trackSets
  rw [List.map_map]
  rfl

/-- A song of two tracks: the last write wins, also through negative numbers; the line set first
stays first; a failing call leaves its patterns behind. -/
def c71Calls : List SongCall :=
  [ .addNote 0 0 5 ⟨"C-4".toList, none, none⟩
  , .addNote 0 1 3 ⟨"D-4".toList, none, none⟩
  , .addNote 0 0 2 ⟨"E-4".toList, none, none⟩
  , .addNote 1 2 0 ⟨"F-4".toList, none, none⟩
  , .addNote (-2) (-2) 5 ⟨"G-4".toList, some "01".toList, none⟩
  , .addNote (-3) 0 5 ⟨"A-4".toList, none, none⟩
  , .addPattern 1 ]

example : ((Song.make 2 1 64).calls c71Calls).1.map (fun r => r.toOption.isSome) =
    [true, true, true, false, true, false, true] := by
  decide +kernel

example : patternCount c71Calls = 2 ∧ linesSet 2 c71Calls 0 0 = [5, 2] ∧
    (cellLast 2 c71Calls (0, 0, 5)).map (·.note) = some "G-4".toList := by
  decide +kernel

/-- C71 and the extractor: `addNote` of Model/Xrns is the same method. -/
theorem c71_extractor (pool : PatternPool) (p c l : Int) (note : Str) (i pan : Option Str) :
    pool.addNote p c l note i pan =
      match pool.addNoteCall p c l ⟨note, i, pan⟩ with
      | (.ok (), pool') => .ok pool'
      | (.error e, _) => .error e := addNote_eq_call pool p c l note i pan

end VgmX
