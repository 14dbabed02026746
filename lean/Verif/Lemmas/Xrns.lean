import Verif.Model.Xrns
import Verif.Lemmas.Bpm
/-
The loop invariant of the song export.
-/

namespace VgmX

/-! ### `for` loops and dictionaries -/

theorem forExcept_append {α β : Type} (f : β → α → Except PyErr β) (b : β) (l m : List α) :
    forExcept f b (l ++ m) =
      match forExcept f b l with
      | .error e => .error e
      | .ok b' => forExcept f b' m := by
  induction l generalizing b with
  | nil => rfl
  | cons a l ih =>
    simp only [List.cons_append, forExcept]
    cases f b a with
    | error e => rfl
    | ok b' => exact ih b'

/-- Nested loops as one. -/
theorem forExcept_nested {α γ β : Type} (f : γ → β → α → Except PyErr β) (g : γ → List α)
    (b : β) (cs : List γ) :
    forExcept (fun b c => forExcept (f c) b (g c)) b cs =
      forExcept (fun b x => f x.1 b x.2) b (cs.flatMap (fun c => (g c).map (fun a => (c, a)))) := by
  induction cs generalizing b with
  | nil => rfl
  | cons c cs ih =>
    rw [List.flatMap_cons, forExcept_append]
    have : ∀ (b : β) (l : List α), forExcept (fun b x => f x.1 b x.2) b (l.map (fun a => (c, a)))
        = forExcept (f c) b l := by
      intro b l
      induction l generalizing b with
      | nil => rfl
      | cons a l ih2 =>
        simp only [List.map_cons, forExcept]
        cases f c b a with
        | error e => rfl
        | ok b' => exact ih2 b'
    rw [this]
    simp only [forExcept]
    cases forExcept (f c) b (g c) with
    | error e => rfl
    | ok b' => exact ih b'

/-- A loop keeps an invariant over the items done so far. -/
theorem forExcept_inv {α β : Type} (f : β → α → Except PyErr β) (P : List α → β → Prop)
    (l : List α)
    (step : ∀ done b a, a ∈ l → P done b → ∃ b', f b a = .ok b' ∧ P (done ++ [a]) b') :
    ∀ done b, P done b → ∃ b', forExcept f b l = .ok b' ∧ P (done ++ l) b' := by
  induction l with
  | nil => intro done b h; exact ⟨b, rfl, by simpa using h⟩
  | cons a l ih =>
    intro done b h
    obtain ⟨b', e, h'⟩ := step done b a (by simp) h
    obtain ⟨b'', e', h''⟩ := ih (fun done b x hx => step done b x (by simp [hx])) _ _ h'
    refine ⟨b'', ?_, by simpa using h''⟩
    simp only [forExcept, e, e']

/-- The dictionary after a sequence of assignments. -/
def dictOf {α : Type} (l : List (Int × α)) : List (Int × α) :=
  l.foldl (fun d x => dictSet x.1 x.2 d) []

theorem dictOf_snoc {α : Type} (l : List (Int × α)) (x : Int × α) :
    dictOf (l ++ [x]) = dictSet x.1 x.2 (dictOf l) := by simp [dictOf]

theorem dictSet_lookup {α : Type} (k : Int) (v : α) (d : List (Int × α)) (k' : Int) :
    (dictSet k v d).lookup k' = if k' = k then some v else d.lookup k' := by
  induction d with
  | nil =>
    simp only [dictSet, List.lookup_cons, List.lookup_nil]
    by_cases h : k' = k
    · simp [h]
    · simp [h, beq_eq_false_iff_ne.mpr h]
  | cons x d ih =>
    obtain ⟨k0, v0⟩ := x
    simp only [dictSet]
    by_cases h0 : k0 = k
    · rw [if_pos h0]
      simp only [List.lookup_cons]
      by_cases h : k' = k
      · subst h; simp [h0]
      · have : k' ≠ k0 := by rw [h0]; exact h
        simp [h, beq_eq_false_iff_ne.mpr this]
    · rw [if_neg h0]
      simp only [List.lookup_cons]
      by_cases h1 : k' = k0
      · subst h1; simp [h0]
      · simp only [beq_eq_false_iff_ne.mpr h1]; exact ih

/-- A dictionary holds the last value assigned. -/
theorem dictOf_lookup {α : Type} (l : List (Int × α)) (k : Int) :
    (dictOf l).lookup k = (l.filter (fun x => decide (x.1 = k))).getLast?.map (·.2) := by
  induction l using List.reverseRecOn with
  | nil => simp [dictOf]
  | append_singleton l x ih =>
    rw [dictOf_snoc, dictSet_lookup, List.filter_append]
    by_cases h : k = x.1
    · rw [if_pos h]; simp [h]
    · rw [if_neg h, ih]
      have : ¬ x.1 = k := fun e => h e.symm
      simp [this]

theorem dictSet_keys_mem {α : Type} (k : Int) (v : α) (d : List (Int × α)) (k' : Int) :
    k' ∈ (dictSet k v d).map (·.1) ↔ k' = k ∨ k' ∈ d.map (·.1) := by
  induction d with
  | nil => simp [dictSet]
  | cons x d ih =>
    simp only [dictSet]
    split
    · rename_i h; simp [h]
    · simp only [List.map_cons, List.mem_cons, ih]; tauto

theorem dictOf_keys_mem {α : Type} (l : List (Int × α)) (k : Int) :
    k ∈ (dictOf l).map (·.1) ↔ k ∈ l.map (·.1) := by
  induction l using List.reverseRecOn with
  | nil => simp [dictOf]
  | append_singleton l x ih =>
    rw [dictOf_snoc, dictSet_keys_mem, ih]; simp; tauto

theorem dictSet_last {α : Type} (k : Int) (v : α) (d : List (Int × α))
    (hs : (d.map (·.1)).Pairwise (· < ·)) (hle : ∀ k' ∈ d.map (·.1), k' ≤ k) :
    ((dictSet k v d).map (·.1)).Pairwise (· < ·) := by
  induction d with
  | nil => simp [dictSet]
  | cons x d ih =>
    simp only [List.map_cons, List.pairwise_cons] at hs
    simp only [dictSet]
    split
    · simpa using hs
    · rename_i h
      simp only [List.map_cons, List.pairwise_cons]
      refine ⟨?_, ih hs.2 (fun k' hk' => hle k' (by simp at hk' ⊢; right; exact hk'))⟩
      intro k' hk'
      rcases (dictSet_keys_mem k v d k').mp hk' with rfl | hk'
      · have := hle x.1 (by simp)
        omega
      · exact hs.1 k' hk'

/-- Assignments with non-decreasing keys leave a dictionary in increasing order. -/
theorem dictOf_sorted {α : Type} (l : List (Int × α))
    (hs : (l.map (·.1)).Pairwise (· ≤ ·)) : ((dictOf l).map (·.1)).Pairwise (· < ·) := by
  induction l using List.reverseRecOn with
  | nil => simp [dictOf]
  | append_singleton l x ih =>
    rw [List.map_append, List.pairwise_append] at hs
    rw [dictOf_snoc]
    apply dictSet_last _ _ _ (ih hs.1)
    intro k' hk'
    exact hs.2.2 k' ((dictOf_keys_mem l k').mp hk') x.1 (by simp)

/-! ### The pattern pool -/

/-- The lines of track `c` of pattern `p`; none if there is no such track. -/
def PatternPool.linesAt (pool : PatternPool) (p c : Nat) : List (Int × Line) :=
  ((pool.patterns[p]?.bind (fun pat => pat.tracks[c]?)).map (·.lines)).getD []

/-- What every pattern of an eight-track song looks like. -/
def Pattern.Plain (pat : Pattern) : Prop :=
  pat.linesPerTrack = 64 ∧ pat.tracks.length = 8 ∧ pat.masterTracks = [{}] ∧ pat.sendTracks = [{}]

/-- A well-formed pool of an eight-track song. -/
structure PatternPool.Plain (pool : PatternPool) : Prop where
  tracks : pool.tracks = 8
  lines : pool.linesPerTrack = 64
  patterns : ∀ pat ∈ pool.patterns, pat.Plain

/-- The line a note becomes (its name if it has one). -/
def lineOf (n : Note) : Line :=
  ⟨n.xrnsNote.toOption.getD [], instrColumn n, panColumn n⟩

theorem pyPos_nat (len i : Nat) (h : i < len) : pyPos len (i : Int) = some i := by
  unfold pyPos
  rw [if_pos (by omega), if_pos (by omega)]; simp

theorem Pattern.new_plain : (Pattern.new 8 64).Plain := ⟨rfl, rfl, rfl, rfl⟩

theorem addNote_ok (pool : PatternPool) (hp : pool.Plain) (p c r : Nat) (hc : c < 8)
    (note : Str) (instrument pan : Option Str) :
    ∃ pool', pool.addNote p c r note instrument pan = .ok pool' ∧ pool'.Plain ∧
      pool'.patterns.length = max pool.patterns.length (p + 1) ∧
      ∀ p' c', pool'.linesAt p' c' =
        if p' = p ∧ c' = c then dictSet r ⟨note, instrument, pan⟩ (pool.linesAt p c)
        else pool.linesAt p' c' := by
  obtain ⟨h1, h2, h3⟩ := hp
  unfold PatternPool.addNote
  simp only [h1, h2]
  have hnat : ((p : Int) + 1).toNat = p + 1 := by omega
  rw [hnat]
  set pats := pool.patterns ++ List.replicate (p + 1 - pool.patterns.length) (Pattern.new 8 64)
    with hpats
  have hlen : pats.length = max pool.patterns.length (p + 1) := by
    rw [hpats, List.length_append, List.length_replicate]; omega
  have hplain : ∀ pat ∈ pats, pat.Plain := by
    intro pat hpat
    rcases List.mem_append.mp hpat with h | h
    · exact h3 pat h
    · rw [(List.mem_replicate.mp h).2]; exact Pattern.new_plain
  rw [pyPos_nat _ _ (by omega)]
  have hpget : pats[p]? = some pats[p] := List.getElem?_eq_getElem (by omega)
  have htl : (pats[p]?.elim 0 (·.tracks.length)) = 8 := by
    rw [hpget]
    exact (hplain _ (List.getElem_mem _)).2.1
  simp only [htl]
  rw [pyPos_nat _ _ hc]
  refine ⟨_, rfl, ?_, ?_, ?_⟩
  · refine ⟨rfl, rfl, ?_⟩
    intro pat hpat
    simp only at hpat
    obtain ⟨i, hi⟩ := List.mem_iff_getElem?.mp hpat
    rw [List.getElem?_modify] at hi
    obtain ⟨q, hq, rfl⟩ := Option.map_eq_some_iff.mp hi
    have hq' := hplain q (List.mem_iff_getElem?.mpr ⟨i, hq⟩)
    split
    · obtain ⟨a, b, c, d⟩ := hq'
      exact ⟨a, by simpa using b, c, d⟩
    · exact hq'
  · simp only [List.length_modify]; exact hlen
  · intro p' c'
    have hold : ∀ p' c', ((pats[p']?.bind (fun pat => pat.tracks[c']?)).map (·.lines)).getD []
        = pool.linesAt p' c' := by
      intro p' c'
      unfold PatternPool.linesAt
      rw [hpats]
      by_cases hlt : p' < pool.patterns.length
      · rw [List.getElem?_append_left hlt]
      · rw [List.getElem?_append_right (by omega), List.getElem?_eq_none (by omega : pool.patterns.length ≤ p')]
        rw [List.getElem?_replicate]
        split
        · simp only [Pattern.new, Option.bind_some, List.getElem?_replicate]
          split <;> rfl
        · rfl
    rw [← hold p' c', ← hold p c]
    simp only [PatternPool.linesAt, List.getElem?_modify]
    by_cases hpp : p = p'
    · subst hpp
      have hq : pats[p].tracks.length = 8 := (hplain _ (List.getElem_mem _)).2.1
      generalize pats[p] = q at hq hpget ⊢
      rw [hpget]
      simp only [Option.bind_some, true_and]
      by_cases hcc : c = c'
      · subst hcc
        have : c < q.tracks.length := by omega
        simp [List.getElem?_eq_getElem this]
      · rw [if_neg (fun h => hcc h.symm)]
        simp only [if_true, Option.map_eq_map, Option.map_some, Option.bind_some,
          List.getElem?_modify, if_neg hcc]
        cases q.tracks[c']? <;> rfl
    · rw [if_neg (fun h => hpp h.1.symm)]
      simp only [if_neg hpp]
      cases pats[p']? <;> rfl

/-- The invariant of the export loop. -/
structure PoolInv (t : Nat) (done : List (Nat × Note)) (pool : PatternPool) : Prop where
  plain : pool.Plain
  length : ∀ p, p < pool.patterns.length ↔ ∃ x ∈ done, p ≤ x.2.sample / t / 64
  lines : ∀ p c, pool.linesAt p c =
    dictOf ((done.filter (fun x => decide (x.1 = c ∧ x.2.sample / t / 64 = p))).map
      (fun x => (((x.2.sample / t % 64 : Nat) : Int), lineOf x.2)))

theorem exportNote_ok (t : Nat) (ht : 0 < t) (done : List (Nat × Note)) (pool : PatternPool)
    (hi : PoolInv t done pool) (ch : Nat) (hch : ch < 8) (n : Note) (name : Str)
    (hn : n.xrnsNote = .ok name) :
    ∃ pool', exportNote t ch pool n = .ok pool' ∧ PoolInv t (done ++ [(ch, n)]) pool' := by
  have e1 : Int.fdiv (n.sample : Int) (t : Int) = ((n.sample / t : Nat) : Int) := by
    rw [Int.fdiv_eq_ediv_of_nonneg _ (by omega)]; push_cast; rfl
  have e2 : Int.fdiv ((n.sample / t : Nat) : Int) 64 = ((n.sample / t / 64 : Nat) : Int) := by
    rw [Int.fdiv_eq_ediv_of_nonneg _ (by omega)]; push_cast; rfl
  have e3 : Int.fmod ((n.sample / t : Nat) : Int) 64 = ((n.sample / t % 64 : Nat) : Int) := by
    rw [Int.fmod_eq_emod_of_nonneg _ (by omega)]; push_cast; rfl
  unfold exportNote
  simp only [e1, e2, e3, hn]
  obtain ⟨pool', h1, h2, h3, h4⟩ := addNote_ok pool hi.plain (n.sample / t / 64) ch
    (n.sample / t % 64) hch name (instrColumn n) (panColumn n)
  refine ⟨pool', h1, h2, ?_, ?_⟩
  · intro p
    rw [h3]
    simp only [List.mem_append, List.mem_singleton]
    constructor
    · intro h
      by_cases hp : p < pool.patterns.length
      · obtain ⟨x, hx, hle⟩ := (hi.length p).mp hp
        exact ⟨x, .inl hx, hle⟩
      · exact ⟨(ch, n), .inr rfl, by show p ≤ n.sample / t / 64; omega⟩
    · rintro ⟨x, hx | rfl, hle⟩
      · have := (hi.length p).mpr ⟨x, hx, hle⟩; omega
      · simp only at hle; omega
  · intro p c
    rw [h4, List.filter_append, List.map_append]
    have hline : lineOf n = ⟨name, instrColumn n, panColumn n⟩ := by
      simp [lineOf, hn, Except.toOption]
    by_cases hpc : p = n.sample / t / 64 ∧ c = ch
    · rw [if_pos hpc]
      obtain ⟨rfl, rfl⟩ := hpc
      simp only [List.filter_cons, List.filter_nil, and_self, decide_true, if_true, List.map_cons,
        List.map_nil]
      rw [dictOf_snoc, hi.lines, hline]
    · rw [if_neg hpc, hi.lines]
      have : ¬ (ch = c ∧ n.sample / t / 64 = p) := fun h => hpc ⟨h.2.symm, h.1.symm⟩
      simp [this]

/-- All key presses of a state with their channel, in the order of the export loop. -/
def pressItems (s : State) : List (Nat × Note) :=
  (List.range 8).flatMap (fun c => (s.keyPressesOf c).map (fun n => (c, n)))

theorem mem_pressItems (s : State) (x : Nat × Note) :
    x ∈ pressItems s ↔ x.1 < 8 ∧ x.2 ∈ s.keyPressesOf x.1 := by
  unfold pressItems
  simp only [List.mem_flatMap, List.mem_range, List.mem_map]
  constructor
  · rintro ⟨c, hc, n, hn, rfl⟩; exact ⟨hc, hn⟩
  · rintro ⟨h1, h2⟩; exact ⟨x.1, h1, x.2, h2, rfl⟩

theorem filter_flatMap_pairs (g : Nat → List Note) (q : Note → Bool) (c : Nat) (m : Nat) :
    ((List.range m).flatMap (fun c => (g c).map (fun n => (c, n)))).filter
      (fun x => decide (x.1 = c) && q x.2)
      = if c < m then ((g c).filter q).map (fun n => (c, n)) else [] := by
  induction m with
  | zero => simp
  | succ m ih =>
    rw [List.range_succ, List.flatMap_append, List.filter_append, ih]
    simp only [List.flatMap_cons, List.flatMap_nil, List.append_nil]
    by_cases hc : c = m
    · subst hc
      rw [if_neg (by omega), if_pos (by omega), List.nil_append, List.filter_map]
      congr 1
      apply List.filter_congr
      intro n _; simp
    · have : ((g m).map (fun n => (m, n))).filter (fun x => decide (x.1 = c) && q x.2) = [] := by
        rw [List.filter_eq_nil_iff]
        intro x hx
        obtain ⟨n, _, rfl⟩ := List.mem_map.mp hx
        simp [Ne.symm hc]
      rw [this, List.append_nil]
      by_cases h : c < m
      · rw [if_pos h, if_pos (by omega)]
      · rw [if_neg h, if_neg (by omega)]

/-- What the song export makes of a state all of whose notes have names. -/
theorem exportSong_ok (s : State) (t : Nat) (ht : 0 < t) (bpm : Int) (hb : bpmOf (t : Int) = .ok bpm)
    (hn : ∀ ch < 8, ∀ n ∈ s.keyPressesOf ch, ∃ name, n.xrnsNote = .ok name) :
    ∃ pool : PatternPool, PoolInv t (pressItems s) pool ∧
      exportSong s t = .ok
        { globals := { beatsPerMin := bpm }
          instruments := List.replicate s.configs.length {}
          tracks := Tracks.new 8
          patternPool := pool
          patternSequence := List.range pool.patterns.length } := by
  have h0 : PoolInv t [] ⟨[], 8, 64⟩ := by
    refine ⟨⟨rfl, rfl, by simp⟩, by simp, ?_⟩
    intro p c; simp [PatternPool.linesAt, dictOf]
  obtain ⟨pool, e, hi⟩ := forExcept_inv (fun pool (x : Nat × Note) => exportNote t x.1 pool x.2)
    (PoolInv t) (pressItems s) (by
      intro done b a ha hP
      obtain ⟨h1, h2⟩ := (mem_pressItems s a).mp ha
      obtain ⟨name, hname⟩ := hn _ h1 _ h2
      exact exportNote_ok t ht done b hP a.1 h1 a.2 name hname) [] _ h0
  refine ⟨pool, by simpa using hi, ?_⟩
  unfold exportSong
  simp only [hb, Song.new]
  rw [forExcept_nested (fun ch pool n => exportNote t ch pool n) (fun ch => s.keyPressesOf ch)]
  have e' : forExcept (fun b x => exportNote (t : Int) x.1 b x.2) ⟨[], 8, 64⟩
      ((List.range 8).flatMap (fun c => (s.keyPressesOf c).map (fun a => (c, a)))) = .ok pool := e
  simp only [e']
  have hfold : ∀ (song : Song) (l : List Nat), l.foldl Song.addPattern song =
      { song with patternSequence := song.patternSequence ++ l } := by
    intro song l
    induction l generalizing song with
    | nil => simp
    | cons a l ih => rw [List.foldl_cons, ih]; simp [Song.addPattern]
  rw [hfold]
  simp

/-- The lines of one track, from the invariant. -/
theorem PoolInv.track {s : State} {t : Nat} {pool : PatternPool}
    (hi : PoolInv t (pressItems s) pool) (p c : Nat) (hc : c < 8) :
    pool.linesAt p c = dictOf (((s.keyPressesOf c).filter
      (fun n => decide (n.sample / t / 64 = p))).map
        (fun n => (((n.sample / t % 64 : Nat) : Int), lineOf n))) := by
  rw [hi.lines]
  have := filter_flatMap_pairs (fun c => s.keyPressesOf c) (fun n => decide (n.sample / t / 64 = p)) c 8
  rw [if_pos hc] at this
  have h2 : (pressItems s).filter (fun x => decide (x.1 = c ∧ x.2.sample / t / 64 = p)) =
      ((s.keyPressesOf c).filter (fun n => decide (n.sample / t / 64 = p))).map (fun n => (c, n)) := by
    rw [← this]
    unfold pressItems
    apply List.filter_congr
    intro x _
    simp [Bool.decide_and]
  rw [h2, List.map_map]
  rfl

end VgmX
