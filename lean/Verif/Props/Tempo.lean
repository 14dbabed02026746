import Verif.Spec.Tempo
import Verif.Props.Xrns
import Mathlib.Tactic.Linarith
import Mathlib.Tactic.FieldSimp
import Mathlib.Tactic.Ring
import Mathlib.Tactic.Positivity
/-
C79: when the notes of the exported song are played, compared with the recording.
Vocabulary: Spec/Tempo.lean.
-/

namespace VgmX
open Spec

/-- The nine values for which the tempo is one too small (C41). -/
def roundedDown : List Nat := [45, 90, 105, 180, 210, 375, 420, 750, 1500]

theorem tempo_bounds (t : Nat) (ht : 0 < t) (hm : t ≤ 661500) :
    let b : Nat := if t ∈ roundedDown then 661500 / t - 1 else 661500 / t
    0 < b ∧ t * b ≤ 661500 ∧ 661500 < t * (b + 2) ∧ (t ∉ roundedDown → 661500 < t * (b + 1)) := by
  intro b
  have h1 : 1 ≤ 661500 / t := (Nat.one_le_div_iff ht).mpr hm
  have h2 : t * (661500 / t) ≤ 661500 := Nat.mul_div_le _ _
  have h3 : 661500 < t * (661500 / t + 1) := by
    have := Nat.lt_mul_div_succ 661500 ht
    simpa using this
  by_cases hbad : t ∈ roundedDown
  · have hall : ∀ t ∈ roundedDown, 440 ≤ 661500 / t - 1 ∧ t * (661500 / t - 1) ≤ 661500 ∧
        661500 < t * (661500 / t - 1 + 2) := by decide
    have := hall t hbad
    simp only [b, if_pos hbad]
    exact ⟨by omega, this.2.1, this.2.2, fun h => absurd hbad h⟩
  · simp only [b, if_neg hbad]
    refine ⟨by omega, h2, ?_, fun _ => h3⟩
    calc 661500 < t * (661500 / t + 1) := h3
      _ ≤ t * (661500 / t + 2) := Nat.mul_le_mul_left _ (by omega)

/-- C79. For up to 661500 samples per row the tempo is positive, and the row of every key press
is played at most one row earlier than the key was pressed in the recording, and later only by
the relative error of the tempo, which is less than 1/tempo (2/tempo for the nine values of
C41). -/
theorem c79_timing (h : List Event) (hb : ByteHistory h) (t : Nat) (ht : 0 < t) (hm : t ≤ 661500) :
    ∃ d, exportXrns (run h) t = .ok d ∧
      ∃ b : Nat, d.globalSongData.beatsPerMin = b ∧ 0 < b ∧
      ∀ c < 8, ∀ n ∈ (run h).keyPressesOf c,
        recordedAt n.sample - recordedAt t < playedAt b d.globalSongData.linesPerBeat (n.sample / t) ∧
        playedAt b d.globalSongData.linesPerBeat (n.sample / t) ≤ recordedAt n.sample * (1 + 2 / b) ∧
        (t ∉ [45, 90, 105, 180, 210, 375, 420, 750, 1500] →
          playedAt b d.globalSongData.linesPerBeat (n.sample / t)
            ≤ recordedAt n.sample * (1 + 1 / b)) := by
  have hlt : t < maxTicks := by
    have : 661500 < maxTicks := by decide +kernel
    omega
  obtain ⟨d, e, hbpm⟩ := c41_bpm_partial h hb t ht hlt
  have hlpb : d.globalSongData.linesPerBeat = 4 := by
    obtain ⟨pool, _, e'⟩ := export_run h hb t ht hlt
    rw [e] at e'
    cases e'
    rfl
  obtain ⟨h1, h2, h3, h4⟩ := tempo_bounds t ht hm
  refine ⟨d, e, _, ?_, h1, ?_⟩
  · rw [hbpm]
    by_cases hbad : t ∈ roundedDown
    · rw [if_pos (show t ∈ [45, 90, 105, 180, 210, 375, 420, 750, 1500] from hbad), if_pos hbad]
      rw [if_pos hbad] at h1
      omega
    · rw [if_neg (show t ∉ [45, 90, 105, 180, 210, 375, 420, 750, 1500] from hbad), if_neg hbad]
  · generalize (if t ∈ roundedDown then 661500 / t - 1 else 661500 / t) = b at h1 h2 h3 h4 ⊢
    intro c hc n _
    rw [hlpb]
    generalize n.sample = s
    have hq1 : t * (s / t) ≤ s := Nat.mul_div_le _ _
    have hq2 : s < t * (s / t) + t := by
      have := Nat.lt_mul_div_succ s ht
      rw [Nat.mul_add, Nat.mul_one] at this
      exact this
    generalize s / t = q at hq1 hq2
    have b0 : (0 : ℚ) < b := by exact_mod_cast h1
    have t0 : (0 : ℚ) < t := by exact_mod_cast ht
    have q0 : (0 : ℚ) ≤ q := Nat.cast_nonneg q
    have h2' : (t : ℚ) * b ≤ 661500 := by
      have := (Nat.cast_le (α := ℚ)).mpr h2
      push_cast at this
      exact this
    have h3' : (661500 : ℚ) < t * (b + 2) := by
      have := (Nat.cast_lt (α := ℚ)).mpr h3
      push_cast at this
      exact this
    have hq1' : (t : ℚ) * q ≤ s := by exact_mod_cast hq1
    have hq2' : (s : ℚ) < t * q + t := by exact_mod_cast hq2
    have hplay : playedAt b ((4 : Nat) : ℚ) q = q * 15 / b := by
      unfold playedAt
      push_cast
      field_simp
      ring
    rw [hplay]
    unfold recordedAt
    have key : ∀ k : ℚ, 0 < k → 661500 < (t : ℚ) * (b + k) →
        (q : ℚ) * 15 / b ≤ s / 44100 * (1 + k / b) := by
      intro k hk hx
      rw [show (s : ℚ) / 44100 * (1 + k / b) = s * (b + k) / 44100 / b by field_simp]
      apply div_le_div_of_nonneg_right _ b0.le
      rw [le_div_iff₀ (by norm_num)]
      calc (q : ℚ) * 15 * 44100 = q * 661500 := by ring
        _ ≤ q * (t * (b + k)) := mul_le_mul_of_nonneg_left hx.le q0
        _ = t * q * (b + k) := by ring
        _ ≤ s * (b + k) := mul_le_mul_of_nonneg_right hq1' (by linarith)
    refine ⟨?_, key 2 (by norm_num) h3', ?_⟩
    · rw [lt_div_iff₀ b0, ← sub_div, div_mul_eq_mul_div, div_lt_iff₀ (by norm_num)]
      calc ((s : ℚ) - t) * b < t * q * b := by
            apply mul_lt_mul_of_pos_right _ b0; linarith
        _ = q * (t * b) := by ring
        _ ≤ q * 661500 := mul_le_mul_of_nonneg_left h2' q0
        _ = q * 15 * 44100 := by ring
    · intro hnb
      have := (Nat.cast_lt (α := ℚ)).mpr (h4 hnb)
      push_cast at this
      exact key 1 (by norm_num) this

/-- C79. With the estimated ticks-per-note the tempo is one the tracker accepts (32 to 999), and
every key press is played at most one row early and less than 1.25 percent late. -/
theorem c79_estimated (h : List Event) (hb : ByteHistory h) :
    ∃ t d, (run h).ticksPerNote = .ok t ∧ exportXrns (run h) t = .ok d ∧
      ∃ b : Nat, d.globalSongData.beatsPerMin = b ∧ 32 ≤ b ∧ b ≤ 999 ∧
      ∀ c < 8, ∀ n ∈ (run h).keyPressesOf c,
        recordedAt n.sample - recordedAt t < playedAt b d.globalSongData.linesPerBeat (n.sample / t) ∧
        playedAt b d.globalSongData.linesPerBeat (n.sample / t) ≤ recordedAt n.sample * (1 + 1 / 80) := by
  obtain ⟨t, h1, h2, h3⟩ := c26_range h hb
  obtain ⟨d, e, b, hbpm, hb0, hall⟩ := c79_timing h hb t (by omega) (by omega)
  obtain ⟨t', d', e1, e2, e3, e4⟩ := c41_estimated h hb
  rw [h1] at e1
  cases e1
  rw [e] at e2
  cases e2
  rw [hbpm] at e3 e4
  have e3' : 82 ≤ b := by omega
  refine ⟨t, d, h1, e, b, hbpm, by omega, by omega, ?_⟩
  intro c hc n hn
  obtain ⟨a1, a2, a3⟩ := hall c hc n hn
  refine ⟨a1, ?_⟩
  have hs : (0 : ℚ) ≤ recordedAt n.sample := by unfold recordedAt; positivity
  have hbq : (82 : ℚ) ≤ b := by exact_mod_cast e3'
  by_cases hbad : t ∈ [45, 90, 105, 180, 210, 375, 420, 750, 1500]
  · -- only 1500 is in range
    have ht : t = 1500 := by
      simp only [List.mem_cons, List.not_mem_nil, or_false] at hbad
      omega
    obtain ⟨d2, x1, x2, _⟩ := c41_refuted h hb
    subst ht
    rw [show ((1500 : Nat) : Int) = 1500 from rfl] at e
    rw [e] at x1
    cases x1
    rw [hbpm] at x2
    have : b = 440 := by omega
    refine a2.trans (mul_le_mul_of_nonneg_left ?_ hs)
    rw [this]
    norm_num
  · refine (a3 hbad).trans (mul_le_mul_of_nonneg_left ?_ hs)
    have : (1 : ℚ) / b ≤ 1 / 80 := by
      apply one_div_le_one_div_of_le (by norm_num); linarith
    linarith

/-- C79. The tempo is within the tracker's limits, 32 to 999, iff there are 662 to 20671 samples
per row; from 661501 samples per row on it is zero. -/
theorem c79_limits (h : List Event) (hb : ByteHistory h) (t : Nat) (ht : 0 < t) (hm : t < maxTicks) :
    ∃ d, exportXrns (run h) t = .ok d ∧
      (32 ≤ d.globalSongData.beatsPerMin ∧ d.globalSongData.beatsPerMin ≤ 999 ↔
        662 ≤ t ∧ t ≤ 20671) ∧
      (d.globalSongData.beatsPerMin = 0 ↔ 661500 < t) := by
  obtain ⟨d, e, hbpm⟩ := c41_bpm_partial h hb t ht hm
  refine ⟨d, e, ?_⟩
  rw [hbpm]
  by_cases hbad : t ∈ [45, 90, 105, 180, 210, 375, 420, 750, 1500]
  · rw [if_pos hbad]
    have hall : ∀ t ∈ [45, 90, 105, 180, 210, 375, 420, 750, 1500],
        (32 ≤ ((661500 / t : Nat) : Int) - 1 ∧ ((661500 / t : Nat) : Int) - 1 ≤ 999 ↔
          662 ≤ t ∧ t ≤ 20671) ∧ (((661500 / t : Nat) : Int) - 1 = 0 ↔ 661500 < t) := by decide
    exact hall t hbad
  · rw [if_neg hbad]
    have a1 : 32 ≤ 661500 / t ↔ t ≤ 20671 := by
      rw [Nat.le_div_iff_mul_le ht]; omega
    have a2 : 661500 / t < 1000 ↔ 662 ≤ t := by
      rw [Nat.div_lt_iff_lt_mul ht]; omega
    have a3 : 661500 / t < 1 ↔ 661500 < t := by
      rw [Nat.div_lt_iff_lt_mul ht]; omega
    generalize 661500 / t = x at a1 a2 a3
    constructor <;> omega

example : ∃ n ∈ (run sample).keyPressesOf 1, n.sample = 150 ∧ (150 : Nat) / 40 = 3 := by
  decide +kernel

end VgmX
