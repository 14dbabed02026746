import Verif.Lemmas.Xrns
import Verif.Spec.SongApi
/-
Lemmas for C71: the pool under any sequence of calls.
-/

namespace VgmX
open Spec

/-- A failing call of `addNote` is one of `addNoteCall`, and a succeeding one leaves the same. -/
theorem addNote_eq_call (pool : PatternPool) (p c l : Int) (note : Str) (i pan : Option Str) :
    pool.addNote p c l note i pan =
      match pool.addNoteCall p c l ⟨note, i, pan⟩ with
      | (.ok (), pool') => .ok pool'
      | (.error e, _) => .error e := by
  unfold PatternPool.addNote PatternPool.addNoteCall
  simp only [PatternPool.extend]
  generalize pool.patterns ++ List.replicate ((p + 1).toNat - pool.patterns.length)
    (Pattern.new pool.tracks pool.linesPerTrack) = pats
  cases pyPos pats.length p with
  | none => rfl
  | some p' =>
    simp only
    cases pyPos (pats[p']?.elim 0 (·.tracks.length)) c with
    | none => rfl
    | some c' => rfl

theorem pyPos_element (n : Nat) (i : Int) : pyPos n i = element n i := by
  unfold pyPos element
  by_cases h : 0 ≤ i
  · rw [if_pos h]
    by_cases h2 : i < n
    · rw [if_pos h2, if_pos ⟨by omega, h2⟩, Int.emod_eq_of_lt h h2]
    · rw [if_neg h2, if_neg (fun x => h2 x.2)]
  · rw [if_neg h]
    by_cases h2 : 0 ≤ i + n
    · rw [if_pos h2, if_pos ⟨by omega, by omega⟩]
      rw [← Int.add_emod_right, Int.emod_eq_of_lt h2 (by omega)]
    · rw [if_neg h2, if_neg (fun x => h2 (by omega))]

theorem element_lt {n : Nat} {i : Int} {k : Nat} (h : element n i = some k) : k < n := by
  unfold element at h
  split at h
  · rename_i hh
    have hn : (0 : Int) < n := by omega
    have h1 := Int.emod_nonneg i (by omega : (n : Int) ≠ 0)
    have h2 := Int.emod_lt_of_pos i hn
    injection h with h
    omega
  · cases h

/-- Patterns as `Pattern.__init__` makes them, apart from their lines. -/
def Pattern.Shape (T L : Nat) (pat : Pattern) : Prop :=
  pat.linesPerTrack = L ∧ pat.tracks.length = T ∧ pat.masterTracks = [{}] ∧ pat.sendTracks = [{}]

theorem extend_linesAt (pool : PatternPool) (q : Int) (p c : Nat) :
    (pool.extend q).linesAt p c = pool.linesAt p c := by
  unfold PatternPool.linesAt PatternPool.extend
  by_cases hlt : p < pool.patterns.length
  · simp only; rw [List.getElem?_append_left hlt]
  · simp only
    rw [List.getElem?_append_right (by omega),
      List.getElem?_eq_none (by omega : pool.patterns.length ≤ p), List.getElem?_replicate]
    split
    · simp only [Pattern.new, Option.bind_some, List.getElem?_replicate]
      split <;> rfl
    · rfl

theorem extend_shape (pool : PatternPool) (q : Int) (T L : Nat) (hT : pool.tracks = T)
    (hL : pool.linesPerTrack = L) (h : ∀ pat ∈ pool.patterns, pat.Shape T L) :
    ∀ pat ∈ (pool.extend q).patterns, pat.Shape T L := by
  intro pat hpat
  rcases List.mem_append.mp hpat with h' | h'
  · exact h pat h'
  · rw [(List.mem_replicate.mp h').2, hT, hL]
    exact ⟨rfl, by simp [Pattern.new], rfl, rfl⟩

theorem extend_length (pool : PatternPool) (q : Int) :
    (pool.extend q).patterns.length = max pool.patterns.length (q + 1).toNat := by
  simp only [PatternPool.extend, List.length_append, List.length_replicate]; omega

/-- Setting a line of an existing track. -/
theorem modify_linesAt (pool : PatternPool) (p c : Nat) (l : Int) (x : Line) (T L : Nat)
    (hs : ∀ pat ∈ pool.patterns, pat.Shape T L) (hp : p < pool.patterns.length) (hc : c < T)
    (p' c' : Nat) :
    ({ pool with
        patterns := pool.patterns.modify p (fun pat =>
          { pat with tracks := pat.tracks.modify c (fun tr =>
            { tr with lines := dictSet l x tr.lines }) }) } : PatternPool).linesAt p' c' =
      if p' = p ∧ c' = c then dictSet l x (pool.linesAt p c) else pool.linesAt p' c' := by
  have hpget : pool.patterns[p]? = some pool.patterns[p] := List.getElem?_eq_getElem hp
  simp only [PatternPool.linesAt, List.getElem?_modify]
  by_cases hpp : p = p'
  · subst hpp
    have hq : pool.patterns[p].tracks.length = T := (hs _ (List.getElem_mem _)).2.1
    generalize pool.patterns[p] = q at hq hpget ⊢
    rw [hpget]
    simp only [Option.bind_some, true_and]
    by_cases hcc : c = c'
    · subst hcc
      have : c < q.tracks.length := by omega
      simp [List.getElem?_eq_getElem this]
    · rw [if_neg (fun h => hcc h.symm)]
      simp only [if_true, Option.map_eq_map, Option.map_some, Option.bind_some,
        List.getElem?_modify, if_neg hcc]
      cases q.tracks[c']? <;> rfl
  · rw [if_neg (fun h => hpp h.1.symm)]
    simp only [if_neg hpp]
    cases pool.patterns[p']? <;> rfl

theorem modify_shape (pats : List Pattern) (p c : Nat) (l : Int) (x : Line) (T L : Nat)
    (hs : ∀ pat ∈ pats, pat.Shape T L) :
    ∀ pat ∈ pats.modify p (fun pat =>
          { pat with tracks := pat.tracks.modify c (fun tr =>
            { tr with lines := dictSet l x tr.lines }) }), pat.Shape T L := by
  intro pat hpat
  obtain ⟨i, hi⟩ := List.mem_iff_getElem?.mp hpat
  rw [List.getElem?_modify] at hi
  obtain ⟨q, hq, rfl⟩ := Option.map_eq_some_iff.mp hi
  have hq' := hs q (List.mem_iff_getElem?.mpr ⟨i, hq⟩)
  split
  · obtain ⟨a, b, c, d⟩ := hq'
    exact ⟨a, by simpa using b, c, d⟩
  · exact hq'

/-! ### Sequences of calls -/

theorem calls_append (s : Song) (a b : List SongCall) :
    s.calls (a ++ b) = ((s.calls a).1 ++ ((s.calls a).2.calls b).1, ((s.calls a).2.calls b).2) := by
  induction a generalizing s with
  | nil => simp [Song.calls]
  | cons c a ih => simp only [List.cons_append, Song.calls, ih]

theorem patternCount_snoc (calls : List SongCall) (c : SongCall) :
    patternCount (calls ++ [c]) = match c with
      | .addNote p .. => max (patternCount calls) (p + 1).toNat
      | .addPattern _ => patternCount calls := by
  unfold patternCount
  rw [List.foldl_append]
  rfl

theorem cellsSet_snoc (T : Nat) (calls : List SongCall) (c : SongCall) :
    cellsSet T (calls ++ [c]) = cellsSet T calls ++ (cellSet T calls c).toList := by
  unfold cellsSet
  rw [List.length_append, List.length_singleton, List.range_succ, List.filterMap_append]
  congr 1
  · apply List.filterMap_congr
    intro i hi
    have hi := List.mem_range.mp hi
    rw [List.getElem?_append_left hi, List.take_append_of_le_length (by omega)]
  · rw [List.filterMap_cons, List.filterMap_nil, List.getElem?_append_right (Nat.le_refl _),
      Nat.sub_self]
    simp only [List.getElem?_cons_zero, Option.bind_some, List.take_left]
    cases cellSet T calls c <;> rfl

/-- The assignments to the lines of one track. -/
def trackSets (sets : List ((Nat × Nat × Int) × Line)) (p c : Nat) : List (Int × Line) :=
  (sets.filter (fun x => x.1.1 = p ∧ x.1.2.1 = c)).map (fun x => (x.1.2.2, x.2))

/-- The song after the calls. -/
structure CallsInv (T I : Int) (L : Nat) (calls : List SongCall) (s : Song) : Prop where
  globals : s.globals = {}
  instruments : s.instruments = List.replicate I.toNat {}
  tracks : s.tracks = Tracks.new T.toNat
  sequence : s.patternSequence = sequenceOf calls
  poolTracks : s.patternPool.tracks = T.toNat
  poolLines : s.patternPool.linesPerTrack = L
  count : s.patternPool.patterns.length = patternCount calls
  shape : ∀ pat ∈ s.patternPool.patterns, pat.Shape T.toNat L
  lines : ∀ p c, s.patternPool.linesAt p c = dictOf (trackSets (cellsSet T.toNat calls) p c)

theorem element_none_pattern (calls : List SongCall) (p c l : Int) (x : Line) :
    element (patternCount (calls ++ [.addNote p c l x])) p = none ↔
      p < -(patternCount calls : Int) := by
  rw [patternCount_snoc]
  unfold element
  simp only
  by_cases h : 0 ≤ p
  · rw [if_pos (by omega)]
    constructor
    · intro e; cases e
    · intro e; omega
  · have : (p + 1).toNat = 0 := by omega
    simp only [this, Nat.max_zero]
    by_cases h2 : -(patternCount calls : Int) ≤ p
    · rw [if_pos (by omega)]
      constructor
      · intro e; cases e
      · intro e; omega
    · rw [if_neg (fun e => h2 e.1)]
      exact ⟨fun _ => by omega, fun _ => rfl⟩

theorem callsInv_step (T I : Int) (L : Nat) (calls : List SongCall) (s : Song)
    (h : CallsInv T I L calls s) (c : SongCall) :
    CallsInv T I L (calls ++ [c]) (s.call c).2 ∧
      (CallFails T.toNat calls c → (s.call c).1 = .error .index) ∧
      (¬ CallFails T.toNat calls c → (s.call c).1 = .ok ()) := by
  cases c with
  | addPattern p =>
    refine ⟨⟨h.globals, h.instruments, h.tracks, ?_, h.poolTracks, h.poolLines, ?_, h.shape, ?_⟩, fun hf => hf.elim, fun _ => rfl⟩
    · simp only [Song.call, Song.addPattern, h.sequence, sequenceOf, List.filterMap_append]
      rfl
    · rw [patternCount_snoc]; exact h.count
    · intro p c
      rw [cellsSet_snoc]
      simp only [cellSet, Option.toList_none, List.append_nil]
      exact h.lines p c
  | addNote p c l x =>
    have hcnt : (s.patternPool.extend p).patterns.length
        = patternCount (calls ++ [.addNote p c l x]) := by
      rw [extend_length, h.count, patternCount_snoc]
    have hshape := extend_shape s.patternPool p _ L h.poolTracks h.poolLines h.shape
    have hseq : sequenceOf (calls ++ [.addNote p c l x]) = sequenceOf calls := by
      simp only [sequenceOf, List.filterMap_append]; simp
    -- a failing call leaves the extended pool
    have hfail : cellSet T.toNat calls (.addNote p c l x) = none →
        CallsInv T I L (calls ++ [.addNote p c l x])
          { s with patternPool := s.patternPool.extend p } := by
      intro hn
      refine ⟨h.globals, h.instruments, h.tracks, by rw [hseq]; exact h.sequence, h.poolTracks,
        h.poolLines, hcnt, hshape, ?_⟩
      intro p' c'
      rw [cellsSet_snoc, hn]
      simp only [Option.toList_none, List.append_nil]
      rw [extend_linesAt, h.lines]
    simp only [Song.call, PatternPool.addNoteCall]
    rw [pyPos_element, hcnt]
    cases hp : element (patternCount (calls ++ [.addNote p c l x])) p with
    | none =>
      refine ⟨hfail (by simp only [cellSet, hp]), fun _ => rfl, fun hf => absurd ?_ hf⟩
      exact Or.inl ((element_none_pattern calls p c l x).mp hp)
    | some p' =>
      have hp' := element_lt hp
      rw [← hcnt] at hp'
      have hget : (s.patternPool.extend p).patterns[p']?.elim 0 (·.tracks.length) = T.toNat := by
        rw [List.getElem?_eq_getElem hp']
        exact (hshape _ (List.getElem_mem _)).2.1
      simp only [hget]
      rw [pyPos_element]
      cases hc : element T.toNat c with
      | none =>
        refine ⟨hfail (by simp only [cellSet, hp, hc]), fun _ => rfl, fun hf => absurd ?_ hf⟩
        refine Or.inr ?_
        unfold element at hc
        split at hc
        · cases hc
        · omega
      | some c' =>
        have hc' := element_lt hc
        refine ⟨⟨h.globals, h.instruments, h.tracks, by rw [hseq]; exact h.sequence, h.poolTracks,
          h.poolLines, by simpa using hcnt, modify_shape _ _ _ _ _ _ _ hshape, ?_⟩, fun hf => ?_, fun _ => rfl⟩
        · intro q d
          rw [modify_linesAt _ p' c' l x _ L hshape hp' hc', cellsSet_snoc]
          simp only [cellSet, hp, hc, Option.toList_some, extend_linesAt, h.lines]
          unfold trackSets
          rw [List.filter_append]
          by_cases hq : q = p' ∧ d = c'
          · obtain ⟨rfl, rfl⟩ := hq
            rw [if_pos ⟨rfl, rfl⟩]
            simp only [List.map_append]
            have : List.filter (fun x : (Nat × Nat × Int) × Line => decide (x.1.1 = q ∧ x.1.2.1 = d))
                [((q, d, l), x)] = [((q, d, l), x)] := by simp
            rw [this]
            simp only [List.map_cons, List.map_nil, dictOf_snoc]
          · rw [if_neg hq]
            have : List.filter (fun x : (Nat × Nat × Int) × Line => decide (x.1.1 = q ∧ x.1.2.1 = d))
                [((p', c', l), x)] = [] := by
              have : ¬ (p' = q ∧ c' = d) := fun e => hq ⟨e.1.symm, e.2.symm⟩
              simp only [List.filter_cons, List.filter_nil]
              rw [if_neg (by simpa using this)]
            rw [this, List.append_nil]
        · exfalso
          rcases hf with hf | hf
          · rw [(element_none_pattern calls p c l x).mpr hf] at hp; cases hp
          · unfold element at hc
            split at hc
            · omega
            · cases hc

theorem callsInv (T I : Int) (L : Nat) (calls : List SongCall) :
    CallsInv T I L calls ((Song.make T I L).calls calls).2 := by
  induction calls using List.reverseRecOn with
  | nil =>
    refine ⟨rfl, rfl, rfl, rfl, rfl, rfl, rfl, ?_, ?_⟩
    · intro pat hpat
      simp [Song.calls, Song.make, Song.new] at hpat
    · intro p c; rfl
  | append_singleton calls c ih =>
    rw [calls_append]
    exact (callsInv_step T I L calls _ ih c).1

/-- Keys of a dictionary: in the order of the first assignment. -/
theorem dictSet_keys {α : Type} (k : Int) (v : α) (d : List (Int × α)) :
    (dictSet k v d).map (·.1) = if k ∈ d.map (·.1) then d.map (·.1) else d.map (·.1) ++ [k] := by
  induction d with
  | nil => simp [dictSet]
  | cons x d ih =>
    simp only [dictSet]
    by_cases h : x.1 = k
    · rw [if_pos h]; simp [h]
    · rw [if_neg h]
      simp only [List.map_cons, ih, List.mem_cons]
      have h' : ¬ k = x.1 := fun e => h e.symm
      simp only [h', false_or]
      split <;> simp

theorem dictOf_keys {α : Type} (l : List (Int × α)) :
    (dictOf l).map (·.1) = (l.map (·.1)).eraseDups := by
  induction l using List.reverseRecOn with
  | nil => rfl
  | append_singleton l x ih =>
    rw [dictOf_snoc, dictSet_keys, List.map_append, List.eraseDups_append]
    have hm := dictOf_keys_mem l x.1
    by_cases h : x.1 ∈ l.map (·.1)
    · rw [if_pos (hm.mpr h), ih]
      have : List.removeAll (List.map (fun x => x.1) [x]) (l.map (·.1)) = [] := by
        simp only [List.removeAll, List.map_cons, List.map_nil, List.filter_cons, List.filter_nil]
        rw [if_neg]
        simpa using h
      rw [this]; simp
    · rw [if_neg (fun e => h (hm.mp e)), ih]
      have : List.removeAll (List.map (fun x => x.1) [x]) (l.map (·.1)) = [x.1] := by
        simp only [List.removeAll, List.map_cons, List.map_nil, List.filter_cons, List.filter_nil]
        rw [if_pos]
        simpa using h
      rw [this]; rfl

end VgmX
