import Verif.Props.Ticks
import Verif.Props.Csv
import Verif.Props.Main
import Verif.Lemmas.Report
/-
Property C66: the table of tempo estimates that the program prints.
Vocabulary: Spec/Report.lean (estimateOf, Better, similarity), Spec/Ticks.lean (score).
-/

namespace VgmX
open Spec

/-- A line of the table without its line end. -/
def estLine (T : List Nat) (sh : Nat) : Str :=
  natStr sh ++ [':', ' '] ++ (natStr (hundredths T sh / 100) ++ ['.'] ++
    padLeft '0' 2 (natStr (hundredths T sh % 100))) ++ ['%']

theorem estimateLine_eq (T : List Nat) (sh : Nat) :
    estimateLine (sh, .fin (ratioQ T sh)) = estLine T sh ++ ['\n'] := by
  unfold estimateLine estLine
  simp only []
  rw [percent_eq]
  have h0 := (percentQ_range T sh).1
  unfold fmtFixed2 hundredths
  simp only []
  rw [if_neg (by linarith), if_neg (by linarith)]
  simp

theorem dropWhile_dec {s r : List Char} (hs : ∀ c ∈ s, isDec c = true)
    (hr : ∀ c ∈ r.head?, isDec c = false) : (s ++ r).dropWhile isDec = r := by
  induction s with
  | nil =>
    cases r with
    | nil => rfl
    | cons c r => simp [hr c rfl]
  | cons c s ih =>
    rw [List.cons_append, List.dropWhile_cons_of_pos (hs c List.mem_cons_self),
      ih (fun c hc => hs c (List.mem_cons_of_mem _ hc))]

theorem two_digits : ∀ r < 100, ∃ a b, padLeft '0' 2 (natStr r) = [a, b] ∧
    ∀ n, readFrom 10 n [a, b] = some (n * 100 + r) := by
  have h : ∀ r < 100, ∃ a b, padLeft '0' 2 (natStr r) = [a, b] ∧
      digitVal a = some (r / 10) ∧ digitVal b = some (r % 10) := by
    intro r hr
    have : ∀ r < 100, padLeft '0' 2 (natStr r) = [digitChar (r / 10), digitChar (r % 10)] ∧
      digitVal (digitChar (r / 10)) = some (r / 10) ∧
      digitVal (digitChar (r % 10)) = some (r % 10) := by decide +kernel
    exact ⟨_, _, this r hr⟩
  intro r hr
  obtain ⟨a, b, e, ha, hb⟩ := h r hr
  refine ⟨a, b, e, ?_⟩
  intro n
  simp only [readFrom, ha, hb]
  rw [if_pos (by omega), if_pos (by omega)]
  congr 1
  omega

theorem readFrom_natStr (n : Nat) : readFrom 10 0 (natStr n) = some n := by
  have := readBase_natStr n
  unfold readBase at this
  rwa [if_neg (natStr_ne_nil n)] at this

theorem estimateOf_line (T : List Nat) (sh : Nat) :
    estimateOf (estLine T sh) = some (sh, hundredths T sh) := by
  generalize hp : hundredths T sh = p
  obtain ⟨a, b, e, hr⟩ := two_digits (p % 100) (Nat.mod_lt _ (by omega))
  have hl : estLine T sh = natStr sh ++ (':' :: ' ' :: (natStr (p / 100) ++ ['.', a, b, '%'])) := by
    unfold estLine
    rw [hp, e]
    simp
  have hc : ∀ c ∈ (':' :: ' ' :: (natStr (p / 100) ++ ['.', a, b, '%'])).head?,
      isDec c = false := by
    intro c hc
    simp only [List.head?_cons, Option.mem_def, Option.some.injEq] at hc
    rw [← hc]; decide
  have hd : ∀ c ∈ (['.', a, b, '%']).head?, isDec c = false := by
    intro c hc
    simp only [List.head?_cons, Option.mem_def, Option.some.injEq] at hc
    rw [← hc]; decide
  unfold estimateOf
  rw [hl, dropWhile_dec (natStr_dec _) hc, takeWhile_dec (natStr_dec _) hc]
  simp only []
  rw [dropWhile_dec (natStr_dec _) hd, takeWhile_dec (natStr_dec _) hd]
  simp only []
  rw [if_neg (natStr_ne_nil _), readBase_natStr]
  have : readBase 10 (natStr (p / 100) ++ [a, b]) = some p := by
    unfold readBase
    rw [if_neg (by simp), readFrom_append, readFrom_natStr, Option.bind_some, hr]
    congr 1
    omega
  rw [this]

theorem estLine_no_nl (T : List Nat) (sh : Nat) : '\n' ∉ estLine T sh := by
  have hd : ∀ n, '\n' ∉ natStr n := by
    intro n hn
    have := natStr_dec n _ hn
    revert this; decide
  unfold estLine padLeft
  simp only [List.mem_append, List.mem_cons, List.not_mem_nil, or_false, not_or, List.mem_replicate]
  refine ⟨⟨⟨hd _, by decide, by decide⟩, ⟨hd _, by decide⟩, ?_, hd _⟩, by decide⟩
  rintro ⟨_, h⟩
  revert h; decide

theorem splitAt_lines (l : List Str) (h : ∀ s ∈ l, '\n' ∉ s) :
    splitAt '\n' (l.flatMap (fun s => s ++ ['\n'])) = l ++ [[]] := by
  induction l with
  | nil => rfl
  | cons s l ih =>
    rw [List.flatMap_cons, List.append_assoc, List.singleton_append,
      splitAt_cons (h s List.mem_cons_self), ih (fun s hs => h s (List.mem_cons_of_mem _ hs))]
    rfl

/-- The ranking of all candidates. -/
theorem ranking (s : State)
    (hT : (s.ticks.filter (fun t => decide (t < 32000))).Pairwise (· < ·)) (T : List Nat)
    (e : s.ticks.filter (fun t => decide (t < 32000)) = T) :
    T.length ≤ 32000 ∧ ∃ L : List Nat,
      s.estimates = .ok (L.map (fun sh => (sh, F64.fin (ratioQ T sh)))) ∧
      L.length = 7000 ∧ L.Pairwise (Better T) ∧ ∀ sh, sh ∈ L ↔ 1000 ≤ sh ∧ sh < 8000 := by
  obtain ⟨N, o, hN, ho, hl, he⟩ := estimates_eq s hT
  rw [e] at he hl
  refine ⟨hl, ?_⟩
  generalize hc : (List.range N).map (fun i => (i + o, F64.fin (ratioQ T (i + o)))) = cand at he
  have hmem : ∀ x ∈ cand, x = (x.1, F64.fin (ratioQ T x.1)) ∧ 1000 ≤ x.1 ∧ x.1 < 8000 := by
    intro x hx
    rw [← hc] at hx
    simp only [List.mem_map, List.mem_range] at hx
    obtain ⟨i, hi, rfl⟩ := hx
    exact ⟨rfl, by simp only []; omega, by simp only []; omega⟩
  have htag : cand.Pairwise (fun a b => a.1 < b.1) := by
    rw [← hc, List.pairwise_map]
    refine List.pairwise_lt_range.imp ?_
    intro a b hab
    simp only []
    omega
  have hsort := pySorted_stable (fun a b : Nat × F64 => a.2.lt b.2) (fun a => a.1)
    (fun a b c h1 h2 => F64.not_lt_trans a.2 b.2 c.2 h1 h2)
    (fun a b h => F64.lt_asymm a.2 b.2 h) cand htag
  have hperm := pySorted_perm (fun a b : Nat × F64 => a.2.lt b.2) cand
  generalize pySorted (fun a b : Nat × F64 => a.2.lt b.2) cand = top at *
  have hmem' : ∀ x ∈ top, x = (x.1, F64.fin (ratioQ T x.1)) ∧ 1000 ≤ x.1 ∧ x.1 < 8000 :=
    fun x hx => hmem x (hperm.mem_iff.mp hx)
  refine ⟨top.map (·.1), ?_, ?_, ?_, ?_⟩
  · rw [he, List.map_map]
    have := List.map_congr_left (l := top) (f := fun x => (x.1, F64.fin (ratioQ T x.1)))
      (g := fun x => x) (fun x hx => (hmem' x hx).1.symm)
    rw [List.map_id'] at this
    exact congrArg Except.ok this.symm
  · rw [List.length_map, hperm.length_eq, ← hc, List.length_map, List.length_range, hN]
  · rw [List.pairwise_map]
    refine List.Pairwise.imp_of_mem ?_ hsort
    intro a b ha hb h
    have ha := (hmem' a ha).1
    have hb := (hmem' b hb).1
    have h1 := ratio_lt T hl a.1 b.1
    have h2 := ratio_lt T hl b.1 a.1
    rw [ha, hb] at h
    simp only [ratioQ] at h
    unfold Better
    rcases h with h | ⟨h, hlt⟩
    · exact .inl (h1.mp h)
    · have : ¬ score T b.1 < score T a.1 := by
        intro hc
        rw [h2.mpr hc] at h
        cases h
      rcases Nat.lt_or_ge (score T a.1) (score T b.1) with h3 | h3
      · exact .inl h3
      · exact .inr ⟨by omega, hlt⟩
  · intro sh
    rw [List.mem_map]
    constructor
    · rintro ⟨x, hx, rfl⟩
      exact (hmem' x hx).2
    · rintro ⟨h1, h2⟩
      refine ⟨(sh, F64.fin (ratioQ T sh)), hperm.mem_iff.mpr ?_, rfl⟩
      rw [← hc, List.mem_map]
      refine ⟨sh - o, List.mem_range.mpr (by omega), ?_⟩
      rw [show sh - o + o = sh by omega]

/-! ### C66 -/

/-- C66. The report: ten dots, a heading and ten lines. The lines list the ten best candidate
lengths, best first (the first is the estimate itself), each with the similarity of the key-on
times to themselves shifted by that length, as a percentage with two decimals. -/
theorem c66_report (h : List Event) (hb : ByteHistory h) (T : List Nat)
    (hs : T.Pairwise (· < ·)) (hT : ∀ t, t ∈ T ↔ t < 32000 ∧ KeyOnAt h t) :
    ∃ (lines : List (List Char)) (est : List (Nat × Nat)),
      splitAt '\n' (run h).ticksReport =
        ["..........".toList, "Ticks Per Note estimates:".toList] ++ lines ++ [[]] ∧
      lines.map estimateOf = est.map some ∧
      est.length = 10 ∧
      (∃ e, est.head? = some e ∧ (run h).ticksPerNote = .ok e.1) ∧
      est.Pairwise (fun a b => Better T a.1 b.1 ∧ b.2 ≤ a.2) ∧
      (∀ sh, 1000 ≤ sh → sh < 8000 → (∀ e ∈ est, e.1 ≠ sh) → ∀ e ∈ est, Better T e.1 sh) ∧
      ∀ e ∈ est, 1000 ≤ e.1 ∧ e.1 < 8000 ∧ e.2 ≤ 10000 ∧
        |(e.2 : ℚ) - 10000 * similarity T e.1| ≤ 51 / 100 := by
  have e : (run h).ticks.filter (fun t => decide (t < 32000)) = T :=
    sorted_ext _ _ (window_sorted h hb) hs (fun x => by rw [window_mem h hb, hT])
  obtain ⟨hl, L, hest, hlen, hpair, hmem⟩ := ranking (run h) (window_sorted h hb) T e
  have hsub : ∀ sh ∈ L.take 10, sh ∈ L := fun sh hx => List.mem_of_mem_take hx
  refine ⟨(L.take 10).map (estLine T), (L.take 10).map (fun sh => (sh, hundredths T sh)),
    ?_, ?_, ?_, ?_, ?_, ?_, ?_⟩
  · unfold State.ticksReport
    rw [hest, progressDots_eq]
    simp only []
    rw [← List.map_take, List.flatMap_map]
    have hf : (fun sh => estimateLine (sh, F64.fin (ratioQ T sh))) =
        (fun sh => estLine T sh ++ ['\n']) := by
      funext sh; exact estimateLine_eq T sh
    rw [hf]
    have h1 : '\n' ∉ List.replicate 10 '.' := by decide
    have h2 : '\n' ∉ "Ticks Per Note estimates:".toList := by decide
    have h3 : "..........".toList = List.replicate 10 '.' := by decide
    rw [h3]
    generalize "Ticks Per Note estimates:".toList = H at *
    generalize List.replicate 10 '.' = D at *
    rw [List.append_assoc, List.append_assoc, List.singleton_append, splitAt_cons h1,
      List.singleton_append, splitAt_cons h2]
    have h4 := splitAt_lines ((L.take 10).map (estLine T)) (by
      intro s hs
      obtain ⟨sh, _, rfl⟩ := List.mem_map.mp hs
      exact estLine_no_nl T sh)
    rw [List.flatMap_map] at h4
    rw [h4]
    rfl
  · rw [List.map_map, List.map_map]
    apply List.map_congr_left
    intro sh _
    exact estimateOf_line T sh
  · rw [List.length_map, List.length_take, hlen]; rfl
  · cases hL : L with
    | nil => rw [hL] at hlen; simp at hlen
    | cons a L' =>
      refine ⟨(a, hundredths T a), by simp, ?_⟩
      unfold State.ticksPerNote
      rw [hest, hL]
      rfl
  · rw [List.pairwise_map]
    refine (hpair.sublist (List.take_sublist 10 L)).imp ?_
    intro a b hab
    refine ⟨hab, hundredths_mono T a b ?_⟩
    rcases hab with h | h <;> omega
  · intro sh h1 h2 hno x hx
    obtain ⟨y, hy, rfl⟩ := List.mem_map.mp hx
    have hin : sh ∈ L := (hmem sh).mpr ⟨h1, h2⟩
    rw [← List.take_append_drop 10 L, List.mem_append] at hin
    rcases hin with hin | hin
    · exact absurd rfl (hno (sh, hundredths T sh) (List.mem_map.mpr ⟨sh, hin, rfl⟩))
    · rw [← List.take_append_drop 10 L, List.pairwise_append] at hpair
      exact hpair.2.2 y hy sh hin
  · intro x hx
    obtain ⟨y, hy, rfl⟩ := List.mem_map.mp hx
    obtain ⟨h1, h2⟩ := (hmem y).mp (hsub y hy)
    exact ⟨h1, h2, hundredths_le T y, hundredths_close T hl y⟩

/-- C66. What `main` prints on a readable file, up to its messages about the output files: the
name, the report (only if no ticks-per-note was given), and the number used. -/
theorem c66_main (env : Env) (vgm a : Str) (instr track : Option Str) (ticks : Option Int)
    (content : Bytes) (cs : List Cmd) (w : World) (hn : vgm ≠ [] ∧ vgm ≠ ['-'])
    (ho : env.openErr vgm false = none) (ha : env.argsFile = some a)
    (hf : w.fs vgm = some content) (h : Readable env.gunzip content cs) :
    ∃ (t : Int) (rest : Str), TicksInUse ticks (run (history cs)).ticksPerNote t ∧
      (main env (some vgm) instr track ticks w).2.stdout =
        w.stdout ++ "Opening file: ".toList ++ a ++ ['\n'] ++
        (if ticks = none ∨ ticks = some 0 then
          "Calculating Ticks Per Note".toList ++ (run (history cs)).ticksReport else []) ++
        "Ticks per Note: ".toList ++ intStr t ++ ['\n'] ++ rest := by
  obtain ⟨hb, t, text, ht, _, hall⟩ :=
    main_readable env vgm instr track ticks content cs a hn ho ha h
  have hd := (hall w hf).stdout
  refine ⟨t, (bothEffect (instrEffect env instr text)
      (trackEffect env track (exportXrns (run (history cs)) t))).2.2, ht, ?_⟩
  rw [hd]
  unfold preamble ticksOutput
  simp only [List.append_assoc]

/-- The report on the steady beat: 2000 comes first, with one mismatch of the five possible. -/
example : ∃ (lines : List (List Char)) (e : Nat × Nat) (est : List (Nat × Nat)),
    splitAt '\n' (run steady).ticksReport =
      ["..........".toList, "Ticks Per Note estimates:".toList] ++ lines ++ [[]] ∧
    lines.map estimateOf = (e :: est).map some ∧ e = (2000, 8000) := by
  obtain ⟨lines, est, h1, h2, h3, ⟨e, he, h4⟩, _, _, h7⟩ := c66_report steady steady_byte
    [100, 2100, 4100] (by decide) (by
      intro t
      rw [steady_ap]
      constructor
      · intro ht
        simp only [List.mem_cons, List.not_mem_nil, or_false] at ht
        rcases ht with rfl | rfl | rfl
        · exact ⟨0, by omega, by omega⟩
        · exact ⟨1, by omega, by omega⟩
        · exact ⟨2, by omega, by omega⟩
      · rintro ⟨k, hk, rfl⟩
        have : k = 0 ∨ k = 1 ∨ k = 2 := by omega
        rcases this with rfl | rfl | rfl <;> simp)
  cases est with
  | nil => simp at he
  | cons e' est =>
    refine ⟨lines, e', est, h1, h2, ?_⟩
    have e2000 : e'.1 = 2000 := by
      have : (run steady).ticksPerNote = .ok 2000 :=
        c30_steady steady steady_byte 100 2000 3 (by omega) (by omega) (by omega) steady_ap
      simp only [List.head?_cons, Option.some.injEq] at he
      rw [this, ← he] at h4
      exact (Except.ok.inj h4).symm
    have h5 := (h7 e' List.mem_cons_self).2.2.2
    have h6 : similarity [100, 2100, 4100] 2000 = 4 / 5 := by decide +kernel
    rw [e2000, h6, abs_le] at h5
    have h8 : ((e'.2 : Nat) : ℚ) < 8001 := by linarith
    have h9 : (7999 : ℚ) < (e'.2 : Nat) := by linarith
    have h8 : e'.2 < 8001 := by exact_mod_cast h8
    have h9 : 7999 < e'.2 := by exact_mod_cast h9
    ext
    · exact e2000
    · simp only []; omega

end VgmX
