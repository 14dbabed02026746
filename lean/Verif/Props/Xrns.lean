import Verif.Props.Note
import Verif.Props.Ticks
import Verif.Lemmas.Xrns
import Verif.Spec.Song
/-
Properties C36-C44: the exported song, over all histories and all ticks-per-note.
Vocabulary: Spec/Song.lean.
-/

namespace VgmX
open Spec

theorem presses_named (h : List Event) (hb : ByteHistory h) :
    ∀ ch < 8, ∀ n ∈ (run h).keyPressesOf ch, ∃ name, n.xrnsNote = .ok name := by
  intro ch hch n hn
  obtain ⟨_, _, s, _, _, _, _, h4, _⟩ := c33_off h hb ch hch n hn
  exact ⟨s, h4⟩

theorem presses_late (h : List Event) (hb : ByteHistory h) :
    ∀ ch < 8, ∀ n ∈ (run h).keyPressesOf ch, 0 < n.sample := by
  intro ch hch n hn
  rw [keyPresses_run h hb ch hch] at hn
  simp only [Spec.keyPresses, List.mem_map, List.mem_filter] at hn
  obtain ⟨e, ⟨he, _⟩, rfl⟩ := hn
  exact c21_time_zero_lost h e he

/-- The tempo of the song. -/
def songBpm (t : Nat) : Int := ((661500 / t - (if t ∈ badTicks then 1 else 0) : Nat) : Int)

/-- The export succeeds; everything about the song. -/
theorem export_run (h : List Event) (hb : ByteHistory h) (t : Nat) (ht : 0 < t) (hm : t < maxTicks) :
    ∃ pool : PatternPool, PoolInv t (pressItems (run h)) pool ∧
      exportXrns (run h) t = .ok (render
        { globals := { beatsPerMin := songBpm t }
          instruments := List.replicate (run h).configs.length {}
          tracks := Tracks.new 8
          patternPool := pool
          patternSequence := List.range pool.patterns.length }) := by
  obtain ⟨pool, h1, h2⟩ := exportSong_ok (run h) t ht _ (bpm_pos t ht hm) (presses_named h hb)
  refine ⟨pool, h1, ?_⟩
  unfold exportXrns
  rw [h2]
  rfl

/-- Lines of a rendered track. -/
theorem linesOf_render (song : Song) (p c : Nat) :
    linesOf (render song) p c = (song.patternPool.linesAt p c).map
      (fun x => ⟨x.1, [⟨x.2.note, x.2.instrument, x.2.pan⟩]⟩) := by
  unfold linesOf PatternPool.linesAt
  simp only [render, List.getElem?_map]
  cases song.patternPool.patterns[p]? with
  | none => rfl
  | some pat =>
    simp only [Option.map_some, renderPattern, List.getElem?_map, Option.bind_some]
    cases pat.tracks[c]? with
    | none => rfl
    | some tr => rfl

theorem find_lookup (l : List (Int × Line)) (r : Int) :
    ((l.map (fun x => (⟨x.1, [⟨x.2.note, x.2.instrument, x.2.pan⟩]⟩ : DaoLine))).find?
      (fun x => decide (x.index = r))).map (·.noteColumns)
      = (l.lookup r).map (fun x => [⟨x.note, x.instrument, x.pan⟩]) := by
  induction l with
  | nil => rfl
  | cons x l ih =>
    obtain ⟨k, v⟩ := x
    simp only [List.map_cons, List.find?_cons, List.lookup_cons]
    by_cases hk : k = r
    · subst hk; simp
    · have : ¬ r = k := fun e => hk e.symm
      simp only [hk, decide_false, beq_eq_false_iff_ne.mpr this]
      exact ih

theorem getLast?_map' {α β : Type} (f : α → β) (l : List α) :
    (l.map f).getLast? = l.getLast?.map f := by
  rw [List.getLast?_map]

theorem lookup_track {s : State} {t : Nat} {pool : PatternPool}
    (hi : PoolInv t (pressItems s) pool) (p c r : Nat) (hc : c < 8) (hr : r < 64) :
    (pool.linesAt p c).lookup (r : Int) =
      (onRow (s.keyPressesOf c) t (64 * p + r)).getLast?.map lineOf := by
  rw [hi.track p c hc, dictOf_lookup, List.filter_map, List.getLast?_map, List.filter_filter]
  rw [Option.map_map]
  have : (s.keyPressesOf c).filter (fun n => ((fun x : Int × Line => decide (x.1 = (r : Int))) ∘
      fun n => (((n.sample / t % 64 : Nat) : Int), lineOf n)) n && decide (n.sample / t / 64 = p))
      = onRow (s.keyPressesOf c) t (64 * p + r) := by
    unfold onRow
    apply List.filter_congr
    intro n _
    simp only [Function.comp_apply]
    rw [← Bool.decide_and]
    apply decide_eq_decide.mpr
    omega
  rw [this]
  rfl

/-! ### C36 -/

theorem lineOf_shows (n : Note) (name : Str) (hn : n.xrnsNote = .ok name) (hid : -1 ≤ n.configId) :
    Shows ⟨(lineOf n).note, (lineOf n).instrument, (lineOf n).pan⟩ n := by
  refine ⟨?_, ?_, ?_⟩
  · simp [lineOf, hn, Except.toOption]
  · simp only [lineOf, instrColumn]
    by_cases h0 : n.configId = -1
    · rw [if_pos h0, if_neg (by omega)]
    · rw [if_neg h0, if_pos (by omega)]
      obtain ⟨h1, h2, h3, _⟩ := c35_hex n.configId.toNat
      exact ⟨_, rfl, h1, h2, by rw [h3]; omega⟩
  · simp only [lineOf, panColumn]
    cases n.left <;> cases n.right <;> rfl

/-- C36. The export succeeds, and in the song row `r` of pattern `p` of channel `c` is empty
iff no key press of the channel falls on row `64 p + r`; otherwise it holds one note column,
which shows the last of those key presses. -/
theorem c36_cells (h : List Event) (hb : ByteHistory h) (t : Nat) (ht : 0 < t) (hm : t < maxTicks) :
    ∃ d, exportXrns (run h) t = .ok d ∧
      ∀ p c r, c < 8 → r < 64 →
        (columnsAt d p c r = none ↔ ∀ n ∈ (run h).keyPressesOf c, n.sample / t ≠ 64 * p + r) ∧
        ∀ n, (onRow ((run h).keyPressesOf c) t (64 * p + r)).getLast? = some n →
          ∃ col, columnsAt d p c r = some [col] ∧ Shows col n := by
  obtain ⟨pool, hi, e⟩ := export_run h hb t ht hm
  refine ⟨_, e, ?_⟩
  intro p c r hc hr
  unfold columnsAt
  rw [linesOf_render, find_lookup, lookup_track hi p c r hc hr]
  constructor
  · rw [Option.map_eq_none_iff, Option.map_eq_none_iff, List.getLast?_eq_none_iff]
    unfold onRow
    rw [List.filter_eq_nil_iff]
    simp
  · intro n hn
    rw [hn]
    refine ⟨_, rfl, ?_⟩
    have hmem : n ∈ (run h).keyPressesOf c := by
      have := List.mem_of_getLast? hn
      exact (List.mem_filter.mp this).1
    obtain ⟨name, hname⟩ := presses_named h hb c hc n hmem
    exact lineOf_shows n name hname ((c25_ranges h hb).2.2.2 c hc n hmem).2.2.2.1

/-- Samples 100 and 150 fall on rows 2 and 3 of channel 1, 157 also on row 3. -/
example : (onRow ((run sample).keyPressesOf 1) 50 2).length = 1 ∧
    (onRow ((run sample).keyPressesOf 1) 50 3).length = 2 ∧ 50 < maxTicks := by
  refine ⟨by decide +kernel, by decide +kernel, by decide +kernel⟩

/-! ### C37 -/

/-- C37, when no two key presses of a channel fall on one row: every key press is in the
song, at its own row. -/
theorem c37_all_partial (h : List Event) (hb : ByteHistory h) (t : Nat) (ht : 0 < t)
    (hm : t < maxTicks) :
    ∃ d, exportXrns (run h) t = .ok d ∧
      ∀ c < 8, ((run h).keyPressesOf c).Pairwise (fun a b => a.sample / t ≠ b.sample / t) →
        ∀ n ∈ (run h).keyPressesOf c,
          ∃ col, columnsAt d (n.sample / t / 64) c (n.sample / t % 64) = some [col] ∧ Shows col n := by
  obtain ⟨d, e, hd⟩ := c36_cells h hb t ht hm
  refine ⟨d, e, ?_⟩
  intro c hc hp n hn
  have hrow : 64 * (n.sample / t / 64) + n.sample / t % 64 = n.sample / t := by omega
  obtain ⟨_, h2⟩ := hd (n.sample / t / 64) c (n.sample / t % 64) hc (by omega)
  rw [hrow] at h2
  apply h2
  have : onRow ((run h).keyPressesOf c) t (n.sample / t) = [n] := by
    unfold onRow
    generalize (run h).keyPressesOf c = l at hp hn
    induction l with
    | nil => simp at hn
    | cons a l ih =>
      rw [List.pairwise_cons] at hp
      rcases List.mem_cons.mp hn with rfl | hn
      · rw [List.filter_cons, if_pos (by simp)]
        congr 1
        rw [List.filter_eq_nil_iff]
        intro b hbm
        simpa using fun e => hp.1 b hbm e.symm
      · rw [List.filter_cons, if_neg (by simpa using hp.1 n hn)]
        exact ih hp.2 hn
  rw [this]; rfl

/-- C37, in general: the row of the `i`-th key press of a channel holds that key press or a
later one of the channel on the same row; so a key press is lost only to a later one that
falls on its row. -/
theorem c37_lost_partial (h : List Event) (hb : ByteHistory h) (t : Nat) (ht : 0 < t)
    (hm : t < maxTicks) :
    ∃ d, exportXrns (run h) t = .ok d ∧
      ∀ c < 8, ∀ (i : Nat) (n : Note), ((run h).keyPressesOf c)[i]? = some n →
        ∃ j m col, i ≤ j ∧ ((run h).keyPressesOf c)[j]? = some m ∧ m.sample / t = n.sample / t ∧
          (∀ k m', j < k → ((run h).keyPressesOf c)[k]? = some m' → m'.sample / t ≠ n.sample / t) ∧
          columnsAt d (n.sample / t / 64) c (n.sample / t % 64) = some [col] ∧ Shows col m := by
  obtain ⟨d, e, hd⟩ := c36_cells h hb t ht hm
  refine ⟨d, e, ?_⟩
  intro c hc i n hn
  have hrow : 64 * (n.sample / t / 64) + n.sample / t % 64 = n.sample / t := by omega
  obtain ⟨_, h2⟩ := hd (n.sample / t / 64) c (n.sample / t % 64) hc (by omega)
  rw [hrow] at h2
  have key : ∀ (l : List Note) (i : Nat), l[i]? = some n →
      ∃ j m, i ≤ j ∧ l[j]? = some m ∧ m.sample / t = n.sample / t ∧
        (∀ k m', j < k → l[k]? = some m' → m'.sample / t ≠ n.sample / t) ∧
        (onRow l t (n.sample / t)).getLast? = some m := by
    intro l
    induction l using List.reverseRecOn with
    | nil => intro i hi; simp at hi
    | append_singleton l a ih =>
      intro i hi
      have hil : i ≤ l.length := by
        have := (List.getElem?_eq_some_iff.mp hi).1
        simp at this; omega
      by_cases ha : a.sample / t = n.sample / t
      · refine ⟨l.length, a, hil, by simp, ha, ?_, ?_⟩
        · intro k m' hk hm'
          rw [List.getElem?_eq_none (by simp; omega)] at hm'
          simp at hm'
        · unfold onRow
          rw [List.filter_append]
          simp [ha]
      · have hi' : l[i]? = some n := by
          by_cases hlt : i < l.length
          · rw [List.getElem?_append_left hlt] at hi; exact hi
          · have : i = l.length := by omega
            subst this
            simp at hi
            exact absurd (by rw [hi]) ha
        obtain ⟨j, m, h1, h2, h3, h4, h5⟩ := ih i hi'
        have hjl := (List.getElem?_eq_some_iff.mp h2).1
        refine ⟨j, m, h1, by rw [List.getElem?_append_left hjl]; exact h2, h3, ?_, ?_⟩
        · intro k m' hk hm'
          by_cases hkl : k < l.length
          · rw [List.getElem?_append_left hkl] at hm'; exact h4 k m' hk hm'
          · rw [List.getElem?_append_right (by omega)] at hm'
            by_cases hk0 : k = l.length
            · subst hk0; simp at hm'; rw [← hm']; exact ha
            · rw [List.getElem?_eq_none (by simp; omega)] at hm'; simp at hm'
        · unfold onRow at h5 ⊢
          rw [List.filter_append]
          simp [ha, h5]
  obtain ⟨j, m, h3, h4, h5, h6, h7⟩ := key _ i hn
  obtain ⟨col, h8, h9⟩ := h2 m h7
  exact ⟨j, m, col, h3, h4, h5, h6, h8, h9⟩

/-- C37 is false as stated: a key-on followed by a key-off on the same row is lost, the song
shows only the key-off (here at every row, for ticks = 3000). -/
theorem c37_refuted : ∃ h, ByteHistory h ∧ ∃ d, exportXrns (run h) 3000 = .ok d ∧
    (∃ n ∈ (run h).keyPressesOf 0, 0 ≤ n.configId ∧ n.sample = 3000) ∧
    ∀ p c r col, c < 8 → r < 64 → columnsAt d p c r = some [col] → col.note = ['O', 'f', 'f'] := by
  have hb : ByteHistory [.wait 3000, .write 8 0x78, .wait 10, .write 8 0] := by decide
  obtain ⟨d, e, hd⟩ := c36_cells _ hb 3000 (by omega) (by decide +kernel)
  refine ⟨_, hb, d, e, by decide +kernel, ?_⟩
  intro p c r col hc hr hcol
  obtain ⟨h1, h2⟩ := hd p c r hc hr
  cases hl : (onRow ((run [.wait 3000, .write 8 0x78, .wait 10, .write 8 0]).keyPressesOf c) 3000
      (64 * p + r)).getLast? with
  | none =>
    rw [List.getLast?_eq_none_iff] at hl
    unfold onRow at hl
    rw [List.filter_eq_nil_iff] at hl
    rw [h1.mpr (by simpa using hl)] at hcol
    cases hcol
  | some n =>
    obtain ⟨col', h3, h4⟩ := h2 n hl
    rw [h3] at hcol
    cases hcol
    have hn : n.configId = -1 := by
      by_cases hc0 : c = 0
      · subst hc0
        have hk : (run [.wait 3000, .write 8 0x78, .wait 10, .write 8 0]).keyPressesOf 0 =
            [⟨0, false, false, 0, 0, 0, 3000⟩, ⟨-1, false, false, 0, 0, 0, 3010⟩] := by
          decide +kernel
        rw [hk] at hl
        unfold onRow at hl
        by_cases hr1 : 1 = 64 * p + r
        · rw [← hr1] at hl
          have : ([(⟨0, false, false, 0, 0, 0, 3000⟩ : Note), ⟨-1, false, false, 0, 0, 0, 3010⟩].filter
            (fun n => decide (n.sample / 3000 = 1))).getLast? =
              some ⟨-1, false, false, 0, 0, 0, 3010⟩ := by decide +kernel
          rw [this] at hl
          cases hl; rfl
        · exfalso
          have : ([(⟨0, false, false, 0, 0, 0, 3000⟩ : Note), ⟨-1, false, false, 0, 0, 0, 3010⟩].filter
            (fun n => decide (n.sample / 3000 = 64 * p + r))) = [] := by
            rw [List.filter_eq_nil_iff]
            intro x hx
            simp only [List.mem_cons, List.not_mem_nil, or_false] at hx
            rcases hx with rfl | rfl
            · simpa using hr1
            · simpa using hr1
          rw [this] at hl; simp at hl
      · exfalso
        have : ∀ c < 8, c ≠ 0 → (run [.wait 3000, .write 8 0x78, .wait 10, .write 8 0]).keyPressesOf c
            = [] := by decide +kernel
        rw [this c hc hc0] at hl
        simp [onRow] at hl
    have hnote := h4.note
    unfold Note.xrnsNote at hnote
    rw [if_pos (by omega)] at hnote
    exact (Except.ok.inj hnote).symm

example : ((run sample).keyPressesOf 1).Pairwise (fun a b => a.sample / 5 ≠ b.sample / 5) ∧
    ((run sample).keyPressesOf 1).length = 3 := by decide +kernel

/-! ### C38 -/

/-- C38. Pattern `p` exists iff some key press falls on it or after it; the sequence plays
every pattern once, in order. -/
theorem c38_patterns (h : List Event) (hb : ByteHistory h) (t : Nat) (ht : 0 < t)
    (hm : t < maxTicks) :
    ∃ d, exportXrns (run h) t = .ok d ∧
      (∀ p, p < d.patterns.length ↔
        ∃ c < 8, ∃ n ∈ (run h).keyPressesOf c, p ≤ n.sample / t / 64) ∧
      (∀ pat ∈ d.patterns, pat.patternTrack.length = 8 ∧ pat.patternMasterTrack.length = 1 ∧
        pat.patternSendTrack.length = 1) ∧
      d.sequenceEntries = List.range d.patterns.length := by
  obtain ⟨pool, hi, e⟩ := export_run h hb t ht hm
  refine ⟨_, e, ?_, ?_, ?_⟩
  · intro p
    simp only [render, List.length_map]
    rw [hi.length]
    constructor
    · rintro ⟨x, hx, hle⟩
      obtain ⟨h1, h2⟩ := (mem_pressItems _ x).mp hx
      exact ⟨x.1, h1, x.2, h2, hle⟩
    · rintro ⟨c, hc, n, hn, hle⟩
      exact ⟨(c, n), (mem_pressItems _ _).mpr ⟨hc, hn⟩, hle⟩
  · intro pat hpat
    simp only [render, List.mem_map] at hpat
    obtain ⟨q, hq, rfl⟩ := hpat
    obtain ⟨_, h2, h3, h4⟩ := hi.plain.patterns q hq
    simp [renderPattern, h2, h3, h4]
  · simp [render]

/-- A song of two patterns: the first key press is on row 80. -/
example : ∃ n ∈ (run [.wait 80, .write 8 0x78]).keyPressesOf 0, 1 ≤ n.sample / 1 / 64 := by
  decide +kernel

/-! ### C39 -/

/-- C39. In every track of every pattern the lines are in strictly increasing order, have
indices 0..63 and exactly one note column each. -/
theorem c39_lines (h : List Event) (hb : ByteHistory h) (t : Nat) (ht : 0 < t)
    (hm : t < maxTicks) :
    ∃ d, exportXrns (run h) t = .ok d ∧
      ∀ p c, ((linesOf d p c).map (·.index)).Pairwise (· < ·) ∧
        ∀ l ∈ linesOf d p c, 0 ≤ l.index ∧ l.index < 64 ∧ l.noteColumns.length = 1 := by
  obtain ⟨pool, hi, e⟩ := export_run h hb t ht hm
  refine ⟨_, e, ?_⟩
  intro p c
  rw [linesOf_render, List.map_map]
  have hcomp : ((fun x : DaoLine => x.index) ∘ fun x : Int × Line =>
      (⟨x.1, [⟨x.2.note, x.2.instrument, x.2.pan⟩]⟩ : DaoLine)) = (·.1) := rfl
  rw [hcomp]
  by_cases hc : c < 8
  · simp only [hi.track p c hc]
    constructor
    · apply dictOf_sorted
      rw [List.map_map, List.pairwise_map]
      have hs := (c22_chronological h hb c hc).filter (fun n => decide (n.sample / t / 64 = p))
      refine List.Pairwise.imp_of_mem ?_ hs
      intro a b ha hb' hab
      have h1 := of_decide_eq_true (List.mem_filter.mp ha).2
      have h2 := of_decide_eq_true (List.mem_filter.mp hb').2
      simp only [Function.comp_apply]
      have := Nat.div_le_div_right (c := t) hab
      omega
    · intro l hl
      obtain ⟨x, hx, rfl⟩ := List.mem_map.mp hl
      have hk := (dictOf_keys_mem _ x.1).mp (List.mem_map.mpr ⟨x, hx, rfl⟩)
      rw [List.map_map] at hk
      obtain ⟨n, _, hn⟩ := List.mem_map.mp hk
      simp only [Function.comp_apply] at hn
      refine ⟨?_, ?_, rfl⟩
      · show 0 ≤ x.1; omega
      · show x.1 < 64; omega
  · have : pool.linesAt p c = [] := by
      unfold PatternPool.linesAt
      cases hp : pool.patterns[p]? with
      | none => rfl
      | some pat =>
        have := (hi.plain.patterns pat (List.mem_iff_getElem?.mpr ⟨p, hp⟩)).2.1
        rw [Option.bind_some, List.getElem?_eq_none (by omega)]; rfl
    simp only [this]
    exact ⟨List.Pairwise.nil, by simp⟩

/-! ### C40 -/

/-- C40. Every instrument number in the song is the two-digit (or longer) hexadecimal
number of an instrument of the song; the song has as many instruments as were extracted. -/
theorem references (h : List Event) (hb : ByteHistory h) (t : Nat) (ht : 0 < t)
    (hm : t < maxTicks) :
    ∃ d, exportXrns (run h) t = .ok d ∧ d.instruments.length = (run h).configs.length ∧
      ∀ p c, ∀ l ∈ linesOf d p c, ∀ col ∈ l.noteColumns, ∀ s, col.instrument = some s →
        ∃ k, readBase 16 s = some k ∧ k < d.instruments.length ∧ 2 ≤ s.length ∧
          (s.length = 2 ↔ k < 256) ∧ ∀ x ∈ s, x ∈ ['0', '1', '2', '3', '4', '5', '6', '7', '8', '9',
            'A', 'B', 'C', 'D', 'E', 'F'] := by
  obtain ⟨pool, hi, e⟩ := export_run h hb t ht hm
  refine ⟨_, e, by simp [render], ?_⟩
  intro p c l hl col hcol s hs
  rw [linesOf_render] at hl
  obtain ⟨x, hx, rfl⟩ := List.mem_map.mp hl
  simp only [List.mem_singleton] at hcol
  subst hcol
  simp only at hs
  have hc : c < 8 := by
    by_contra hc
    have : pool.linesAt p c = [] := by
      unfold PatternPool.linesAt
      cases hp : pool.patterns[p]? with
      | none => rfl
      | some pat =>
        have := (hi.plain.patterns pat (List.mem_iff_getElem?.mpr ⟨p, hp⟩)).2.1
        rw [Option.bind_some, List.getElem?_eq_none (by omega)]; rfl
    rw [this] at hx
    simp at hx
  simp only [hi.track p c hc] at hx
  have hval : ∀ (m : List (Int × Line)) (x : Int × Line), x ∈ dictOf m → ∃ y ∈ m, y.2 = x.2 := by
    intro m
    induction m using List.reverseRecOn with
    | nil => intro x hx; simp [dictOf] at hx
    | append_singleton m a ih =>
      intro x hx
      rw [dictOf_snoc] at hx
      have hset : ∀ (d : List (Int × Line)) (x : Int × Line), x ∈ dictSet a.1 a.2 d →
          x.2 = a.2 ∨ x ∈ d := by
        intro d
        induction d with
        | nil => intro x hx; simp [dictSet] at hx; exact .inl (by rw [hx])
        | cons y d ihd =>
          intro x hx
          obtain ⟨k, v⟩ := y
          simp only [dictSet] at hx
          split at hx
          · rcases List.mem_cons.mp hx with rfl | hx
            · exact .inl rfl
            · exact .inr (by simp [hx])
          · rcases List.mem_cons.mp hx with rfl | hx
            · exact .inr (by simp)
            · rcases ihd x hx with h | h
              · exact .inl h
              · exact .inr (by simp [h])
      rcases hset _ x hx with h | h
      · exact ⟨a, by simp, h.symm⟩
      · obtain ⟨y, hy, e⟩ := ih x h
        exact ⟨y, by simp [hy], e⟩
  obtain ⟨y, hy, hyx⟩ := hval _ x hx
  obtain ⟨n, hn, rfl⟩ := List.mem_map.mp hy
  have hn' := (List.mem_filter.mp hn).1
  obtain ⟨_, _, _, h1, h2⟩ := (c25_ranges h hb).2.2.2 c hc n hn'
  rw [← hyx] at hs
  simp only [lineOf, instrColumn] at hs
  split at hs
  · cases hs
    obtain ⟨a1, a2, a3, a4⟩ := c35_hex n.configId.toNat
    refine ⟨_, a1, ?_, a2, a3, a4⟩
    simp only [render, List.length_map, List.length_replicate]
    omega
  · cases hs

/-- C40. The song lists as many instruments as were recorded, and every instrument number in a
cell is one of them. -/
theorem c40_references (h : List Event) (hb : ByteHistory h) (t : Nat) (ht : 0 < t)
    (hm : t < maxTicks) :
    ∃ d, exportXrns (run h) t = .ok d ∧ d.instruments.length = (run h).configs.length ∧
      ∀ p c, ∀ l ∈ linesOf d p c, ∀ col ∈ l.noteColumns, ∀ s, col.instrument = some s →
        ∃ k, readBase 16 s = some k ∧ k < d.instruments.length := by
  obtain ⟨d, e, hl, hd⟩ := references h hb t ht hm
  refine ⟨d, e, hl, ?_⟩
  intro p c l h1 col h2 s h3
  obtain ⟨k, a1, a2, _⟩ := hd p c l h1 col h2 s h3
  exact ⟨k, a1, a2⟩

/-- C35. Every instrument number in the exported song is written in upper case hexadecimal digits,
at least two, and just two iff it is below 256; reading it gives the number of the instrument of
the key press. -/
theorem c35_song (h : List Event) (hb : ByteHistory h) (t : Nat) (ht : 0 < t) (hm : t < maxTicks) :
    ∃ d, exportXrns (run h) t = .ok d ∧
      (∀ p c, ∀ l ∈ linesOf d p c, ∀ col ∈ l.noteColumns, ∀ s, col.instrument = some s →
        ∃ k, readBase 16 s = some k ∧ 2 ≤ s.length ∧ (s.length = 2 ↔ k < 256) ∧
          ∀ x ∈ s, x ∈ ['0', '1', '2', '3', '4', '5', '6', '7', '8', '9', 'A', 'B', 'C', 'D', 'E',
            'F']) ∧
      ∀ p c r n, c < 8 → r < 64 → (onRow ((run h).keyPressesOf c) t (64 * p + r)).getLast? = some n →
        ∃ col, columnsAt d p c r = some [col] ∧
          col.instrument.bind (readBase 16) = if n.configId = -1 then none else some n.configId.toNat := by
  obtain ⟨d, e, _, hd⟩ := references h hb t ht hm
  obtain ⟨d', e', hc⟩ := c36_cells h hb t ht hm
  rw [e] at e'
  cases e'
  refine ⟨d, e, ?_, ?_⟩
  · intro p c l h1 col h2 s h3
    obtain ⟨k, a1, _, a2, a3, a4⟩ := hd p c l h1 col h2 s h3
    exact ⟨k, a1, a2, a3, a4⟩
  · intro p c r n h1 h2 h3
    obtain ⟨col, b1, b2⟩ := (hc p c r h1 h2).2 n h3
    refine ⟨col, b1, ?_⟩
    have := b2.instrument
    by_cases h0 : n.configId = -1
    · rw [if_pos h0] at this ⊢
      rw [this]; rfl
    · rw [if_neg h0] at this ⊢
      obtain ⟨s, c1, c2, _⟩ := this
      rw [c1, Option.bind_some, c2]

example : (run sample).configs.length = 2 ∧
    ∃ n ∈ (run sample).keyPressesOf 1, instrColumn n = some ['0', '1'] := by decide +kernel

/-! ### C41 -/

/-- C41, exact form: the song's tempo is `floor(661500 / t)`, and one less for nine values
of `t`. -/
theorem c41_bpm_partial (h : List Event) (hb : ByteHistory h) (t : Nat) (ht : 0 < t)
    (hm : t < maxTicks) :
    ∃ d, exportXrns (run h) t = .ok d ∧ d.globalSongData.beatsPerMin =
      if t ∈ [45, 90, 105, 180, 210, 375, 420, 750, 1500] then ((661500 / t : Nat) : Int) - 1
      else ((661500 / t : Nat) : Int) := by
  obtain ⟨pool, hi, e⟩ := export_run h hb t ht hm
  refine ⟨_, e, ?_⟩
  simp only [render, renderGlobals, songBpm]
  by_cases hbad : t ∈ badTicks
  · rw [if_pos hbad, if_pos (show t ∈ [45, 90, 105, 180, 210, 375, 420, 750, 1500] from hbad)]
    have : ∀ t ∈ badTicks, 1 ≤ 661500 / t := by decide
    have := this t hbad
    omega
  · rw [if_neg hbad, if_neg (show t ∉ [45, 90, 105, 180, 210, 375, 420, 750, 1500] from hbad)]
    rfl

/-- C41 is false as stated: 1500 samples per row are 441 beats per minute, the song says
440. (The estimate can be 1500.) -/
theorem c41_refuted (h : List Event) (hb : ByteHistory h) :
    ∃ d, exportXrns (run h) 1500 = .ok d ∧ d.globalSongData.beatsPerMin = 440 ∧
      661500 / 1500 = 441 ∧ 661500 % 1500 = 0 := by
  obtain ⟨d, e, h1⟩ := c41_bpm_partial h hb 1500 (by omega) (by decide +kernel)
  exact ⟨d, e, by rw [h1]; decide, by decide, by decide⟩

/-- C41: for every estimated ticks-per-note the export succeeds with a tempo of 82..661. -/
theorem c41_estimated (h : List Event) (hb : ByteHistory h) :
    ∃ t d, (run h).ticksPerNote = .ok t ∧ exportXrns (run h) t = .ok d ∧
      82 ≤ d.globalSongData.beatsPerMin ∧ d.globalSongData.beatsPerMin ≤ 661 := by
  obtain ⟨t, h1, h2, h3⟩ := c26_range h hb
  have hlt : t < maxTicks := by
    have : 8000 < maxTicks := by decide +kernel
    omega
  obtain ⟨d, e, h4⟩ := c41_bpm_partial h hb t (by omega) hlt
  refine ⟨t, d, h1, e, ?_⟩
  rw [h4]
  have h5 : 661500 / t ≤ 661500 / 1000 := Nat.div_le_div_left h2 (by omega)
  have h6 : 661500 / 7999 ≤ 661500 / t := Nat.div_le_div_left (by omega) (by omega)
  split
  · rename_i hbad
    have : ∀ t ∈ [45, 90, 105, 180, 210, 375, 420, 750, 1500], 83 ≤ 661500 / t := by decide
    have := this t hbad
    omega
  · omega

/-! ### C42 -/

theorem renderSeqTracks_eq (ts : List SequencerTrack) (cs : List Str) :
    renderSeqTracks ts cs = ts.mapIdx (fun i t => renderTrack t cs[i]?) := by
  induction ts generalizing cs with
  | nil => rfl
  | cons t ts ih =>
    rw [List.mapIdx_cons]
    cases cs with
    | nil => simp [renderSeqTracks, ih]
    | cons c cs => simp [renderSeqTracks, ih]

/-- C42. Every song whose patterns all have the pool's number of lines and whose pool counts
its tracks can be read back from its rendering. -/
theorem c42_read_back (s : Song) (ht : s.patternPool.tracks = s.tracks.tracks.length)
    (hl : ∀ p ∈ s.patternPool.patterns, p.linesPerTrack = s.patternPool.linesPerTrack)
    (hm : ∀ p ∈ s.patternPool.patterns, (∀ t ∈ p.masterTracks, t.lines = []) ∧
      ∀ t ∈ p.sendTracks, t.lines = []) :
    readBack s.patternPool.linesPerTrack (render s) = s := by
  obtain ⟨g, ins, ⟨tr, mt, st⟩, ⟨pats, ntr, lpt⟩, sq⟩ := s
  simp only at ht hl hm
  have h1 : (ins.map (fun _ => ({} : DaoEmpty))).map (fun _ => ({} : Instrument)) = ins := by
    induction ins with
    | nil => rfl
    | cons a l ih => simp only [List.map_cons]; rw [ih]
  have h2 : (renderSeqTracks tr trackColors).map (fun t => (⟨t.name, t.state, t.soloed⟩ : SequencerTrack))
      = tr := by
    rw [renderSeqTracks_eq]
    apply List.ext_getElem?
    intro i
    rw [List.getElem?_map, List.getElem?_mapIdx]
    cases tr[i]? <;> rfl
  have h3 : (mt.map renderMasterTrack).map (fun t => (⟨t.name, t.state, t.soloed⟩ : SequencerTrack))
      = mt := by
    rw [List.map_map]; exact List.map_id _
  have h4 : (st.map renderSendTrack).map (fun t => (⟨t.name, t.state, t.soloed⟩ : SequencerTrack))
      = st := by
    rw [List.map_map]; exact List.map_id _
  have h5 : (renderSeqTracks tr trackColors).length = ntr := by
    rw [renderSeqTracks_eq, List.length_mapIdx, ht]
  have hempty : ∀ l : List PatternTrack, (∀ t ∈ l, t.lines = []) →
      (l.map (fun _ => ({} : DaoEmpty))).map (fun _ => ({} : PatternTrack)) = l := by
    intro l hl
    induction l with
    | nil => rfl
    | cons a l ih =>
      simp only [List.map_cons]
      rw [ih (fun t h => hl t (by simp [h]))]
      have := hl a (by simp)
      obtain ⟨ls⟩ := a
      simp only at this
      rw [this]
  have h6 : pats.map (fun p =>
        ({ linesPerTrack := lpt
           tracks := (renderPattern p).patternTrack.map (fun t =>
            (⟨t.lines.map (fun l => (l.index,
              match l.noteColumns with
              | [col] => ⟨col.note, col.instrument, col.panning⟩
              | _ => ⟨[], none, none⟩))⟩ : PatternTrack))
           masterTracks := (renderPattern p).patternMasterTrack.map (fun _ => {})
           sendTracks := (renderPattern p).patternSendTrack.map (fun _ => {}) } : Pattern)) = pats := by
    conv_rhs => rw [← List.map_id pats]
    apply List.map_congr_left
    intro p hp
    obtain ⟨a, b, c, d⟩ := p
    have ha := hl _ hp
    obtain ⟨hc, hd⟩ := hm _ hp
    simp only at ha hc hd
    simp only [renderPattern, id, hempty c hc, hempty d hd]
    congr 1
    · exact ha.symm
    · rw [List.map_map]
      conv_rhs => rw [← List.map_id b]
      apply List.map_congr_left
      intro tr _
      obtain ⟨ls⟩ := tr
      simp only [Function.comp_apply, renderPatternTrack, List.map_map, id]
      congr 1
      conv_rhs => rw [← List.map_id ls]
      rfl
  simp only [readBack, render, renderTracks, h1, h2, h3, h4, h5, renderGlobals, List.map_map] at h6 ⊢
  congr 1
  congr 1

/-- C42 applies to every exported song. -/
theorem c42_exported (h : List Event) (hb : ByteHistory h) (t : Nat) (ht : 0 < t)
    (hm : t < maxTicks) :
    ∃ song d, exportSong (run h) t = .ok song ∧ exportXrns (run h) t = .ok d ∧
      readBack 64 d = song := by
  obtain ⟨pool, hi, e⟩ := exportSong_ok (run h) t ht _ (bpm_pos t ht hm) (presses_named h hb)
  refine ⟨_, _, e, by unfold exportXrns; rw [e], ?_⟩
  have := c42_read_back { globals := { beatsPerMin := songBpm t }
                          instruments := List.replicate (run h).configs.length {}
                          tracks := Tracks.new 8
                          patternPool := pool
                          patternSequence := List.range pool.patterns.length }
    (by rw [hi.plain.tracks]; simp [Tracks.new])
    (fun p hp => by rw [(hi.plain.patterns p hp).1, hi.plain.lines])
    (fun p hp => by
      obtain ⟨_, _, h3, h4⟩ := hi.plain.patterns p hp
      rw [h3, h4]; simp)
  rw [show pool.linesPerTrack = 64 from hi.plain.lines] at this
  exact this

/-- C42, tracks: a rendered song lists the song's tracks in order with their names, the
first eight in eight different colours and the others without; then the master and send
tracks. -/
theorem c42_tracks (s : Song) :
    (render s).tracks.sequencerTrack.map (·.name) = s.tracks.tracks.map (·.name) ∧
    (render s).tracks.sequencerMasterTrack.map (·.name) = s.tracks.masterTracks.map (·.name) ∧
    (render s).tracks.sequencerSendTrack.map (·.name) = s.tracks.sendTracks.map (·.name) ∧
    (∀ (i : Nat) a, (render s).tracks.sequencerTrack[i]? = some a → (a.color = none ↔ 8 ≤ i)) ∧
    (∀ (i j : Nat) a b, (render s).tracks.sequencerTrack[i]? = some a →
      (render s).tracks.sequencerTrack[j]? = some b → i < 8 → a.color = b.color → i = j) := by
  have hget : ∀ i : Nat, (render s).tracks.sequencerTrack[i]? =
      s.tracks.tracks[i]?.map (fun t => renderTrack t trackColors[i]?) := by
    intro i
    simp only [render, renderTracks, renderSeqTracks_eq, List.getElem?_mapIdx]
  refine ⟨?_, ?_, ?_, ?_, ?_⟩
  · apply List.ext_getElem?
    intro i
    rw [List.getElem?_map, hget, List.getElem?_map]
    cases s.tracks.tracks[i]? <;> rfl
  · simp only [render, renderTracks, List.map_map]; rfl
  · simp only [render, renderTracks, List.map_map]; rfl
  · intro i a ha
    rw [hget] at ha
    obtain ⟨t, _, rfl⟩ := Option.map_eq_some_iff.mp ha
    simp only [renderTrack, List.getElem?_eq_none_iff]
    rfl
  · intro i j a b ha hb hi hc
    rw [hget] at ha hb
    obtain ⟨t, _, rfl⟩ := Option.map_eq_some_iff.mp ha
    obtain ⟨u, _, rfl⟩ := Option.map_eq_some_iff.mp hb
    simp only [renderTrack] at hc
    have hall : ∀ i < 8, ∀ j < 8, trackColors[i]? = trackColors[j]? → i = j := by decide +kernel
    by_cases hj : j < 8
    · exact hall i hi j hj hc
    · exfalso
      rw [List.getElem?_eq_none (by simp [trackColors]; omega : trackColors.length ≤ j),
        List.getElem?_eq_none_iff] at hc
      simp [trackColors] at hc; omega

/-- C42, tracks of an exported song: `Track 1` .. `Track 8`, `Mst`, `S01`. -/
theorem c42_exported_tracks (h : List Event) (hb : ByteHistory h) (t : Nat) (ht : 0 < t)
    (hm : t < maxTicks) :
    ∃ d, exportXrns (run h) t = .ok d ∧
      d.tracks.sequencerTrack.map (·.name) =
        [some "Track 1".toList, some "Track 2".toList, some "Track 3".toList,
         some "Track 4".toList, some "Track 5".toList, some "Track 6".toList,
         some "Track 7".toList, some "Track 8".toList] ∧
      d.tracks.sequencerMasterTrack.map (·.name) = [some "Mst".toList] ∧
      d.tracks.sequencerSendTrack.map (·.name) = [some "S01".toList] := by
  obtain ⟨pool, hi, e⟩ := export_run h hb t ht hm
  refine ⟨_, e, ?_, ?_, ?_⟩
  · show (renderSeqTracks (Tracks.new 8).tracks trackColors).map (·.name) = _
    decide +kernel
  · rfl
  · rfl

/-- A song outside the exporter's range: nine tracks, one unnamed. -/
example : (renderSeqTracks (List.replicate 9 ⟨none, [], true⟩) trackColors).map (·.color) =
    trackColors.map some ++ [none] := by decide +kernel

/-! ### C43 -/

/-- The panning shown for a recorded note is blank iff the last write to 0x20+ch before
it enabled both speakers, `00` iff only the right one, `F0` otherwise. -/
theorem panning_shown (h : List Event) (hb : ByteHistory h) (ch : Nat) (hch : ch < 8) (n : Note)
    (hn : n ∈ (run h).keyPressesOf ch) :
    ∃ i v, h[i]? = some (.write 8 v) ∧ v % 8 = ch ∧ n.sample = time (h.take i) ∧
      ∀ col, Shows col n →
        (col.panning = none ↔ 192 ≤ regVal (h.take i) (0x20 + ch)) ∧
        (col.panning = some ['0', '0'] ↔
          128 ≤ regVal (h.take i) (0x20 + ch) ∧ regVal (h.take i) (0x20 + ch) < 192) ∧
        (col.panning = some ['F', '0'] ↔ regVal (h.take i) (0x20 + ch) < 128) := by
  obtain ⟨i, v, h1, h2, h3, _, _, _, h4, h5⟩ := c24_note_capture h hb ch hch n hn
  refine ⟨i, v, h1, h2, h3, ?_⟩
  intro col hcol
  rw [hcol.panning]
  have hlt : regVal (h.take i) (0x20 + ch) < 256 := by
    have : ∀ (h : List Event), ByteHistory h → ∀ r, regVal h r < 256 := by
      intro h hb r
      unfold regVal
      cases hg : (writesTo h r).getLast? with
      | none => simp
      | some x =>
        have := List.mem_of_getLast? hg
        simp only [writesTo, List.mem_filterMap] at this
        obtain ⟨e, he, hx⟩ := this
        cases e with
        | wait k => simp at hx
        | write r' v' =>
          have := hb _ he
          simp only [Event.IsByte] at this
          simp only at hx
          split at hx
          · cases hx; exact this.2
          · cases hx
    exact this _ (fun e he => hb e (List.mem_of_mem_take he)) _
  generalize regVal (h.take i) (0x20 + ch) = x at h4 h5 hlt
  rw [h4, h5]
  by_cases a : 128 ≤ x <;> by_cases b : 64 ≤ x % 128 <;>
    simp only [a, b, decide_true, decide_false, true_iff, reduceCtorEq, false_iff, Option.some.injEq,
      List.cons.injEq, and_true, true_and] <;> refine ⟨?_, ?_, ?_⟩ <;> (try omega)
  all_goals simp
  all_goals omega

/-- C43. In the exported song every filled row `r` of pattern `p` of channel `c` has one note column;
it belongs to a key event of the channel in that row, and its panning is blank iff the last write to
0x20+c before the event enabled both speakers, `00` iff only the right one, `F0` otherwise. -/
theorem c43_panning (h : List Event) (hb : ByteHistory h) (t : Nat) (ht : 0 < t) (hm : t < maxTicks) :
    ∃ d, exportXrns (run h) t = .ok d ∧
      ∀ p c r cols, c < 8 → r < 64 → columnsAt d p c r = some cols →
        ∃ col i v, cols = [col] ∧ h[i]? = some (.write 8 v) ∧ v % 8 = c ∧
          time (h.take i) / t = 64 * p + r ∧
          (col.panning = none ↔ 192 ≤ regVal (h.take i) (0x20 + c)) ∧
          (col.panning = some ['0', '0'] ↔
            128 ≤ regVal (h.take i) (0x20 + c) ∧ regVal (h.take i) (0x20 + c) < 192) ∧
          (col.panning = some ['F', '0'] ↔ regVal (h.take i) (0x20 + c) < 128) := by
  obtain ⟨d, e, hd⟩ := c36_cells h hb t ht hm
  refine ⟨d, e, ?_⟩
  intro p c r cols hc hr hcols
  obtain ⟨h1, h2⟩ := hd p c r hc hr
  cases hl : (onRow ((run h).keyPressesOf c) t (64 * p + r)).getLast? with
  | none =>
    exfalso
    have : columnsAt d p c r = none := by
      rw [h1]
      rw [List.getLast?_eq_none_iff] at hl
      unfold onRow at hl
      rw [List.filter_eq_nil_iff] at hl
      intro n hn
      simpa using hl n hn
    rw [this] at hcols
    cases hcols
  | some n =>
    obtain ⟨col, hcol, hs⟩ := h2 n hl
    rw [hcols, Option.some.injEq] at hcol
    have hmem := List.mem_filter.mp (List.mem_of_getLast? hl)
    obtain ⟨i, v, a1, a2, a3, a4⟩ := panning_shown h hb c hc n hmem.1
    refine ⟨col, i, v, hcol, a1, a2, ?_, a4 col hs⟩
    rw [← a3]
    simpa using hmem.2

/-- All three values occur. -/
example : ((run [.write 0x20 0x80, .write 0x21 0xC0, .wait 1, .write 8 0x78, .write 8 0x79,
    .write 8 0x7A]).keyPresses.take 3).map (·.map panColumn) =
    [[some ['0', '0']], [none], [some ['F', '0']]] := by decide +kernel

/-! ### C44 -/

theorem forExcept_first {α β : Type} (f : β → α → Except PyErr β) (b : β) (l : List α) (e : PyErr)
    (hne : l ≠ []) (hf : ∀ a ∈ l, f b a = .error e) : forExcept f b l = .error e := by
  cases l with
  | nil => exact absurd rfl hne
  | cons a l => simp [forExcept, hf a (by simp)]

/-- A key press at a positive time raises `IndexError` under a negative ticks-per-note. -/
theorem exportNote_neg (t : Nat) (ht : 0 < t) (ch : Nat) (n : Note) (name : Str)
    (hn : n.xrnsNote = .ok name) (hs : 0 < n.sample) :
    exportNote (-(t : Int)) ch ⟨[], 8, 64⟩ n = .error .index := by
  unfold exportNote
  simp only [hn]
  have h1 : Int.fdiv (n.sample : Int) (-(t : Int)) < 0 := by
    have e : Int.fdiv (n.sample : Int) (-(t : Int)) = Int.fdiv (-(n.sample : Int)) (t : Int) := by
      rw [← Int.neg_fdiv_neg, neg_neg]
    rw [e, Int.fdiv_eq_ediv_of_nonneg _ (by omega)]
    exact Int.ediv_neg_of_neg_of_pos (by omega) (by omega)
  have h2 : Int.fdiv (Int.fdiv (n.sample : Int) (-(t : Int))) 64 < 0 := by
    rw [Int.fdiv_eq_ediv_of_nonneg _ (by omega)]
    omega
  generalize Int.fdiv (Int.fdiv (n.sample : Int) (-(t : Int))) 64 = p at h2
  unfold PatternPool.addNote
  have : (p + 1).toNat = 0 := by omega
  simp only [this, List.length_nil, Nat.sub_self, List.replicate_zero, List.append_nil]
  unfold pyPos
  rw [if_neg (by omega), if_neg (by simp; omega)]

/-- C44. With a negative ticks-per-note the export raises `IndexError` iff a key press was
recorded (no file has been opened then); without key presses it yields a song without
patterns and with a tempo that is not positive. -/
theorem c44_negative (h : List Event) (hb : ByteHistory h) (t : Nat) (ht : 0 < t)
    (hm : t < maxTicks) :
    (exportXrns (run h) (-(t : Int)) = .error .index ↔ ∃ c < 8, (run h).keyPressesOf c ≠ []) ∧
    ((∀ c < 8, (run h).keyPressesOf c = []) →
      ∃ d, exportXrns (run h) (-(t : Int)) = .ok d ∧ d.patterns = [] ∧
        d.globalSongData.beatsPerMin ≤ 0) := by
  have hbpm : bpmOf (-(t : Int)) = .ok (-songBpm t) := by
    rw [bpm_neg t ht, bpm_pos t ht hm]; rfl
  have hloop : ∀ g : PatternPool → Nat → Except PyErr PatternPool, g = (fun pool ch =>
      forExcept (exportNote (-(t : Int)) ch) pool ((run h).keyPressesOf ch)) → 
      exportXrns (run h) (-(t : Int)) = match forExcept g ⟨[], 8, 64⟩ (List.range 8) with
      | .error e => .error e
      | .ok pool => .ok (render ((List.range pool.patterns.length).foldl Song.addPattern
        { globals := { beatsPerMin := -songBpm t }
          instruments := List.replicate (run h).configs.length {}
          tracks := Tracks.new 8
          patternPool := pool
          patternSequence := [] })) := by
    rintro g rfl
    unfold exportXrns exportSong
    rw [hbpm]
    simp only [Song.new]
    cases forExcept (fun pool ch => forExcept (exportNote (-(t : Int)) ch) pool
      ((run h).keyPressesOf ch)) ⟨[], 8, 64⟩ (List.range 8) <;> rfl
  have hL := hloop _ rfl
  rw [forExcept_nested (fun ch pool n => exportNote (-(t : Int)) ch pool n)
    (fun ch => (run h).keyPressesOf ch)] at hL
  have hempty : (∀ c < 8, (run h).keyPressesOf c = []) →
      ∃ d, exportXrns (run h) (-(t : Int)) = .ok d ∧ d.patterns = [] ∧
        d.globalSongData.beatsPerMin ≤ 0 := by
    intro hall
    have hnil : (List.range 8).flatMap (fun c => ((run h).keyPressesOf c).map (fun a => (c, a))) = [] := by
      rw [List.flatMap_eq_nil_iff]
      intro c hc
      rw [hall c (List.mem_range.mp hc)]; rfl
    rw [hnil] at hL
    refine ⟨_, hL, rfl, ?_⟩
    show -songBpm t ≤ 0
    unfold songBpm
    omega
  refine ⟨?_, hempty⟩
  constructor
  · intro herr
    by_contra hno
    push Not at hno
    obtain ⟨d, hd, _⟩ := hempty hno
    rw [hd] at herr
    cases herr
  · rintro ⟨c, hc, hne⟩
    have hf : forExcept (fun b x => exportNote (-(t : Int)) x.1 b x.2) ⟨[], 8, 64⟩
        ((List.range 8).flatMap (fun c => ((run h).keyPressesOf c).map (fun a => (c, a))))
        = .error .index := by
      apply forExcept_first
      · intro hnil
        rw [List.flatMap_eq_nil_iff] at hnil
        have := hnil c (List.mem_range.mpr hc)
        exact hne (by simpa using this)
      · intro x hx
        obtain ⟨h1, h2⟩ := (mem_pressItems (run h) x).mp hx
        obtain ⟨name, hname⟩ := presses_named h hb _ h1 _ h2
        exact exportNote_neg t ht x.1 x.2 name hname (presses_late h hb _ h1 _ h2)
    rw [hL, hf]

/-- The other ticks-per-note: 0 raises `ZeroDivisionError`, an enormous one
`OverflowError`. -/
theorem c44_other (s : State) (t : Nat) (hm : maxTicks ≤ t) :
    exportXrns s 0 = .error .zeroDivision ∧ exportXrns s t = .error .overflow ∧
    exportXrns s (-(t : Int)) = .error .overflow := by
  have ht : 0 < t := lt_of_lt_of_le (by decide +kernel) hm
  have h1 := bpm_overflow t ht hm
  have h2 := bpm_neg t ht
  rw [h1] at h2
  unfold exportXrns exportSong
  refine ⟨?_, ?_, ?_⟩
  · rw [bpm_zero]
  · rw [h1]
  · rw [h2]; rfl

example : ∃ c < 8, (run sample).keyPressesOf c ≠ [] := by decide +kernel

example : ∀ c < 8, (run [.write 8 0x78]).keyPressesOf c = [] := by decide +kernel

end VgmX
