import Verif.Spec.Rhythm
import Verif.Props.Beat
import Mathlib.Data.Nat.ModEq
/-
C101: the tempo estimate of a rhythm that repeats.
Vocabulary: Spec/Ticks.lean, Spec/Rhythm.lean, `KeyOnAt` in Props/Ticks.lean.
-/

namespace VgmX
open Spec

theorem repeats_mul {R : Nat → Prop} {p : Nat} (h : Repeats R p) (j t : Nat) :
    R (t + j * p) ↔ R t := by
  induction j with
  | zero => simp
  | succ j ih => rw [Nat.succ_mul, ← Nat.add_assoc, h, ih]

/-- In every stretch of `p` samples there is an equivalent time. -/
theorem repeats_in {R : Nat → Prop} {p : Nat} (hp : 0 < p) (h : Repeats R p) (a t : Nat) (ht : R t) :
    ∃ x, a ≤ x ∧ x < a + p ∧ R x := by
  -- `a + (t - a) mod p`, without negative numbers
  refine ⟨a + (t + (p - 1) * a) % p, by omega, by have := Nat.mod_lt (t + (p - 1) * a) hp; omega, ?_⟩
  have e : a + (t + (p - 1) * a) % p + ((t + (p - 1) * a) / p) * p = t + a * p := by
    have h1 := Nat.mod_add_div (t + (p - 1) * a) p
    rw [Nat.mul_comm p] at h1
    have h2 : (p - 1) * a + a = a * p := by
      obtain ⟨q, rfl⟩ : ∃ q, p = q + 1 := ⟨p - 1, by omega⟩
      rw [Nat.add_sub_cancel, Nat.mul_succ, Nat.mul_comm]
    omega
  rw [← repeats_mul h ((t + (p - 1) * a) / p), e, repeats_mul h]
  exact ht

/-- A rhythm contained in itself shifted by `d` is itself shifted by `d`. -/
theorem repeats_of_sub {R : Nat → Prop} {p d : Nat} (hp : 0 < p) (h : Repeats R p)
    (hd : ∀ t, R t → R (t + d)) : Repeats R d := by
  intro t
  refine ⟨fun hr => ?_, hd t⟩
  have hm : ∀ j t, R t → R (t + j * d) := by
    intro j
    induction j with
    | zero => simp
    | succ j ih =>
      intro t ht
      rw [Nat.succ_mul, ← Nat.add_assoc]
      exact hd _ (ih t ht)
  have h1 := hm (p - 1) _ hr
  have e : t + d + (p - 1) * d = t + d * p := by
    obtain ⟨q, rfl⟩ : ∃ q, p = q + 1 := ⟨p - 1, by omega⟩
    rw [Nat.add_sub_cancel, Nat.mul_succ, Nat.mul_comm q]
    omega
  rw [e, repeats_mul h] at h1
  exact h1

theorem repeats_back {R : Nat → Prop} {p d : Nat} (h : Repeats R p) (hd : d ≤ p)
    (hr : Repeats R (p - d)) : Repeats R d := by
  intro t
  rw [← hr (t + d), show t + d + (p - d) = t + p by omega, h]

/-- The ticks of a rhythm played from `t0` to `t1`. -/
theorem score_period {R : Nat → Prop} {p t0 t1 : Nat} {T : List Nat} (h : Repeats R p)
    (hT : ∀ t, t ∈ T ↔ t0 ≤ t ∧ t < t1 ∧ R t) :
    (∀ t ∈ unmatchedTicks T p, t ∈ T ∧ t < t0 + p) ∧ unmatchedShifted T p = [] := by
  constructor
  · intro t ht
    rw [unmatchedTicks, List.mem_filter] at ht
    obtain ⟨ht, hu⟩ := ht
    simp only [decide_eq_true_eq] at hu
    refine ⟨ht, ?_⟩
    obtain ⟨h1, h2, h3⟩ := (hT t).mp ht
    by_contra hge
    refine hu (t - p) ((hT _).mpr ⟨by omega, by omega, ?_⟩) (by omega)
    rw [← h, show t - p + p = t by omega]
    exact h3
  · rw [List.eq_nil_iff_forall_not_mem]
    intro u hu
    rw [unmatchedShifted, List.mem_filter] at hu
    obtain ⟨hu, hx⟩ := hu
    simp only [decide_eq_true_eq] at hx
    obtain ⟨hn, t, ht, hlt⟩ := hx
    obtain ⟨_, h2, _⟩ := (hT t).mp ht
    obtain ⟨u1, _, u3⟩ := (hT u).mp hu
    exact hn ((hT _).mpr ⟨by omega, by omega, (h u).mpr u3⟩)

/-- A longer shift is not better than the period. -/
theorem score_longer {R : Nat → Prop} {p d t0 t1 : Nat} {T : List Nat} (hn : T.Nodup)
    (h : Repeats R p) (hT : ∀ t, t ∈ T ↔ t0 ≤ t ∧ t < t1 ∧ R t) (hd : p ≤ d) :
    score T p ≤ score T d := by
  obtain ⟨h1, h2⟩ := score_period h hT
  have : (unmatchedTicks T p).length ≤ (unmatchedTicks T d).length :=
    length_of_subset (hn.filter _) (by
      intro t ht
      obtain ⟨a, b⟩ := h1 t ht
      rw [unmatchedTicks, List.mem_filter]
      refine ⟨a, ?_⟩
      simp only [decide_eq_true_eq]
      intro u hu e
      have := ((hT u).mp hu).1
      omega)
  unfold score
  rw [h2]
  simp only [List.length_nil]
  omega

/-- `n` equivalent times in a row. -/
def inRow (x p n : Nat) : List Nat := (List.range n).map (fun j => x + j * p)

theorem inRow_nodup (x p n : Nat) (hp : 0 < p) : (inRow x p n).Nodup := by
  apply List.Nodup.map _ List.nodup_range
  intro i j e
  have e : i * p = j * p := by simpa using e
  exact Nat.eq_of_mul_eq_mul_right hp e

/-- A shorter shift that is no period has at least `2 * k - 2` mismatches if the rhythm is played
`k` times. -/
theorem score_shorter {R : Nat → Prop} {p d t0 t1 k : Nat} {T : List Nat} (h : Repeats R p)
    (hT : ∀ t, t ∈ T ↔ t0 ≤ t ∧ t < t1 ∧ R t) (hk : t0 + k * p ≤ t1) (hd1 : d < p)
    (hnot : ¬ Repeats R d) (hR : ∃ t, R t) (hk2 : 2 ≤ k) : 2 * k - 2 ≤ score T d := by
  have hp : 0 < p := by omega
  have stretch : ∀ j, j < k → (j + 1) * p ≤ k * p := fun j hj => Nat.mul_le_mul_right p hj
  have h1 : k ≤ (unmatchedTicks T d).length := by
    have : ∃ t, R t ∧ ¬ R (t + (p - d)) := by
      by_contra hc
      refine hnot (repeats_back h (by omega) (repeats_of_sub hp h (fun t ht => ?_)))
      by_contra hx
      exact hc ⟨t, ht, hx⟩
    obtain ⟨t, ht⟩ := this
    obtain ⟨x, x1, x2, x3, x4⟩ := repeats_in (R := fun t => R t ∧ ¬ R (t + (p - d))) hp (by
      intro t
      dsimp only
      rw [h, show t + p + (p - d) = t + (p - d) + p by omega, h]) t0 t ht
    have := length_of_subset (l := inRow x p k) (l' := unmatchedTicks T d) (inRow_nodup x p k hp) (by
      intro y hy
      obtain ⟨j, hj, rfl⟩ := List.mem_map.mp hy
      have hj := List.mem_range.mp hj
      have := stretch j hj
      rw [Nat.succ_mul] at this
      rw [unmatchedTicks, List.mem_filter]
      refine ⟨(hT _).mpr ⟨by omega, by omega, (repeats_mul h j x).mpr x3⟩, ?_⟩
      simp only [decide_eq_true_eq]
      intro u hu e
      apply x4
      rw [← repeats_mul h j, show x + (p - d) + j * p = u + p by omega, h]
      exact ((hT u).mp hu).2.2)
    simpa [inRow] using this
  have h2 : k - 2 ≤ (unmatchedShifted T d).length := by
    have : ∃ t, R t ∧ ¬ R (t + d) := by
      by_contra hc
      refine hnot (repeats_of_sub hp h (fun t ht => ?_))
      by_contra hx
      exact hc ⟨t, ht, hx⟩
    obtain ⟨t, ht⟩ := this
    obtain ⟨x, x1, x2, x3, x4⟩ := repeats_in (R := fun t => R t ∧ ¬ R (t + d)) hp (by
      intro t
      dsimp only
      rw [h, show t + p + d = t + d + p by omega, h]) t0 t ht
    obtain ⟨r, hr⟩ := hR
    obtain ⟨l, l1, l2, l3⟩ := repeats_in hp h (t0 + (k - 1) * p) r hr
    have hkp : (k - 1) * p + p = k * p := by
      rw [← Nat.succ_mul, Nat.succ_eq_add_one, Nat.sub_add_cancel (by omega)]
    have := length_of_subset (l := inRow x p (k - 2)) (l' := unmatchedShifted T d)
      (inRow_nodup x p (k - 2) hp) (by
      intro y hy
      obtain ⟨j, hj, rfl⟩ := List.mem_map.mp hy
      have hj := List.mem_range.mp hj
      have hs : (j + 2) * p ≤ (k - 1) * p := Nat.mul_le_mul_right p (by omega)
      rw [Nat.add_mul] at hs
      rw [unmatchedShifted, List.mem_filter]
      refine ⟨(hT _).mpr ⟨by omega, by omega, (repeats_mul h j x).mpr x3⟩, ?_⟩
      simp only [decide_eq_true_eq]
      refine ⟨fun hm => x4 ?_, l, (hT l).mpr ⟨by omega, by omega, l3⟩, by omega⟩
      rw [← repeats_mul h j, show x + d + j * p = x + j * p + d by omega]
      exact ((hT _).mp hm).2.2)
    simpa [inRow] using this
  unfold score
  omega

/-- C101. A rhythm that repeats after `p` samples (in the range of the estimate) is played from
`t0` to `t1`, or to the end of the part that is looked at: the estimate is at most `p`. -/
theorem c101_at_most (h : List Event) (hb : ByteHistory h) (R : Nat → Prop) (p t0 t1 : Nat)
    (hp1 : 1000 ≤ p) (hp2 : p < 8000) (hr : Repeats R p)
    (hk : ∀ t < 32000, KeyOnAt h t ↔ t0 ≤ t ∧ t < t1 ∧ R t) :
    ∃ b, (run h).ticksPerNote = .ok b ∧ b ≤ p := by
  obtain ⟨T, hs, hT⟩ := c28_ticks_exist h hb
  have hT' : ∀ t, t ∈ T ↔ t0 ≤ t ∧ t < min t1 32000 ∧ R t := by
    intro t
    rw [hT]
    constructor
    · rintro ⟨a, b⟩
      obtain ⟨x, y, z⟩ := (hk t a).mp b
      exact ⟨x, by omega, z⟩
    · rintro ⟨a, b, c⟩
      exact ⟨by omega, (hk t (by omega)).mpr ⟨a, by omega, c⟩⟩
  obtain ⟨b, hb', _⟩ := c26_range h hb
  have hbest := (c28_best h hb T hs hT b).mp hb'
  refine ⟨b, hb', ?_⟩
  by_contra hc
  have h1 := hbest.2.2.2 p hp1 (by omega)
  have h2 := score_longer (d := b) (hs.imp (fun h => Nat.ne_of_lt h)) hr hT' (by omega)
  omega

/-- C101. If moreover no shorter shift in the range maps the rhythm to itself, and it is played at
least `k` times where twice `k` is more than the number of key-ons in a period plus two, then the
estimate is the period. -/
theorem c101_period (h : List Event) (hb : ByteHistory h) (R : Nat → Prop) (p t0 t1 : Nat)
    (hp1 : 1000 ≤ p) (hp2 : p < 8000) (hr : Repeats R p) (ht1 : t1 ≤ 32000)
    (hk : ∀ t < 32000, KeyOnAt h t ↔ t0 ≤ t ∧ t < t1 ∧ R t)
    (hmin : ∀ d, 1000 ≤ d → d < p → ¬ Repeats R d)
    (notes : List Nat) (hne : notes ≠ []) (hn : ∀ t, t ∈ notes ↔ t0 ≤ t ∧ t < t0 + p ∧ R t)
    (k : Nat) (hk1 : t0 + k * p ≤ t1) (hk2 : notes.length + 2 < 2 * k) :
    (run h).ticksPerNote = .ok p := by
  obtain ⟨T, hs, hT⟩ := c28_ticks_exist h hb
  have hnd : T.Nodup := hs.imp (fun h => Nat.ne_of_lt h)
  have hT' : ∀ t, t ∈ T ↔ t0 ≤ t ∧ t < t1 ∧ R t := by
    intro t
    rw [hT]
    constructor
    · rintro ⟨a, b⟩; exact (hk t a).mp b
    · rintro ⟨a, b, c⟩; exact ⟨by omega, (hk t (by omega)).mpr ⟨a, b, c⟩⟩
  obtain ⟨r, hr1⟩ := List.exists_mem_of_ne_nil _ hne
  have hpos := List.length_pos_of_mem hr1
  rw [c28_best h hb T hs hT]
  obtain ⟨h1, h2⟩ := score_period hr hT'
  have hp : score T p ≤ notes.length := by
    have := length_of_subset (l := unmatchedTicks T p) (l' := notes) (hnd.filter _) (by
      intro t ht
      obtain ⟨a, b⟩ := h1 t ht
      exact (hn t).mpr ⟨((hT' t).mp a).1, b, ((hT' t).mp a).2.2⟩)
    unfold score
    rw [h2]
    simp only [List.length_nil]
    omega
  have hshort : ∀ c, 1000 ≤ c → c < p → score T p < score T c := by
    intro c hc1 hc2
    have := score_shorter hr hT' hk1 hc2 (hmin c hc1 hc2) ⟨r, ((hn r).mp hr1).2.2⟩ (by omega)
    omega
  refine ⟨hp1, hp2, fun c hc1 hc2 => ?_, hshort⟩
  by_cases hc : c < p
  · exact Nat.le_of_lt (hshort c hc1 hc)
  · exact score_longer hnd hr hT' (by omega)

/-- C101. Key-ons in unequal steps `a`, `b`, `a`, `b`, ... (swing, or a beat that is not a whole
number of samples): the estimate is the sum of the two, not the beat. -/
theorem c101_swing (h : List Event) (hb : ByteHistory h) (a b t0 t1 : Nat) (ha : 0 < a)
    (hb0 : 0 < b) (hab : a ≠ b) (h1 : 1000 ≤ a + b) (h2 : a + b < 8000) (ht1 : t1 ≤ 32000)
    (h3 : t0 + 3 * (a + b) ≤ t1)
    (hk : ∀ t < 32000, KeyOnAt h t ↔
      t < t1 ∧ ∃ i, t = t0 + i * (a + b) ∨ t = t0 + i * (a + b) + a) :
    (run h).ticksPerNote = .ok (a + b) := by
  obtain ⟨p, hp⟩ : ∃ p, p = a + b := ⟨_, rfl⟩
  rw [← hp] at h1 h2 h3 hk ⊢
  have hp0 : 0 < p := by omega
  have hin : ∀ t, t0 ≤ t → ∀ c, (t % p = (t0 + c) % p ↔ (t - t0) % p = c % p) := by
    intro t ht c
    constructor
    · intro e
      have : (t0 + (t - t0)) % p = (t0 + c) % p := by rw [Nat.add_sub_cancel' ht]; exact e
      exact Nat.ModEq.add_left_cancel' t0 this
    · intro e
      have : (t0 + (t - t0)) % p = (t0 + c) % p := Nat.ModEq.add_left t0 e
      rwa [Nat.add_sub_cancel' ht] at this
  have hap : a % p = a := Nat.mod_eq_of_lt (by omega)
  have hform : ∀ t, (t0 ≤ t ∧ (t % p = (t0 + 0) % p ∨ t % p = (t0 + a) % p)) ↔
      ∃ i, t = t0 + i * p ∨ t = t0 + i * p + a := by
    intro t
    constructor
    · rintro ⟨ht, e⟩
      rw [hin t ht, hin t ht] at e
      have hdm := Nat.mod_add_div (t - t0) p
      rw [Nat.mul_comm] at hdm
      refine ⟨(t - t0) / p, ?_⟩
      rcases e with e | e
      · left
        rw [Nat.zero_mod] at e
        omega
      · right
        rw [hap] at e
        omega
    · rintro ⟨i, rfl | rfl⟩
      · exact ⟨by omega, .inl (by simp)⟩
      · refine ⟨by omega, .inr ?_⟩
        rw [show t0 + i * p + a = t0 + a + i * p by omega]
        simp
  refine c101_period h hb (fun t => t % p = (t0 + 0) % p ∨ t % p = (t0 + a) % p) p t0 t1 h1 h2
    (fun t => by simp) ht1 (fun t ht => ?_) ?_ [t0, t0 + a] (by simp) ?_ 3 h3 (by simp)
  · rw [hk t ht, ← hform t]
    exact ⟨fun ⟨x, y, z⟩ => ⟨y, x, z⟩, fun ⟨y, x, z⟩ => ⟨x, y, z⟩⟩
  · intro d hd1 hd2 hrep
    have e1 := (hrep t0).mpr (.inl rfl)
    have e2 := (hrep (t0 + a)).mpr (.inr rfl)
    dsimp only at e1 e2
    rw [hin _ (by omega), hin _ (by omega), Nat.add_sub_cancel_left, Nat.zero_mod,
      Nat.mod_eq_of_lt hd2, hap] at e1
    rw [hin _ (by omega), hin _ (by omega), show t0 + a + d - t0 = a + d by omega, Nat.zero_mod,
      hap] at e2
    have hda : d = a := by omega
    subst hda
    rcases e2 with e | e
    · obtain ⟨q, hq⟩ := Nat.dvd_of_mod_eq_zero e
      have : q = 1 := by
        rcases q with _ | _ | q
        · omega
        · rfl
        · rw [Nat.mul_succ, Nat.mul_succ] at hq; omega
      subst this
      omega
    · by_cases hl : d + d < p
      · rw [Nat.mod_eq_of_lt hl] at e; omega
      · rw [Nat.mod_eq_sub_mod (by omega), Nat.mod_eq_of_lt (by omega)] at e; omega
  · intro t
    constructor
    · intro ht
      simp only [List.mem_cons, List.not_mem_nil, or_false] at ht
      rcases ht with rfl | rfl
      · exact ⟨by omega, by omega, .inl rfl⟩
      · exact ⟨by omega, by omega, .inr rfl⟩
    · rintro ⟨x, y, z⟩
      rw [hin t x, hin t x, Nat.zero_mod, hap, Nat.mod_eq_of_lt (by omega)] at z
      simp only [List.mem_cons, List.not_mem_nil, or_false]
      omega

/-- A beat of 2000.5 samples. -/
def halfSample : List Event :=
  [.wait 100, .write 8 0x78, .wait 2000, .write 8 0x78, .wait 2001, .write 8 0x78, .wait 2000,
   .write 8 0x78, .wait 2001, .write 8 0x78, .wait 2000, .write 8 0x78]

theorem halfSample_byte : ByteHistory halfSample := by decide

theorem halfSample_window : (run halfSample).ticks.filter (fun t => decide (t < 32000)) =
    [100, 2100, 4101, 6101, 8102, 10102] := by decide +kernel

/-- Its estimate is two beats. -/
example : (run halfSample).ticksPerNote = .ok 4001 := by
  refine c101_swing halfSample halfSample_byte 2000 2001 100 12103 (by omega) (by omega) (by omega)
    (by omega) (by omega) (by omega) (by omega) (fun t ht => ?_)
  have := window_mem halfSample halfSample_byte t
  rw [halfSample_window] at this
  simp only [List.mem_cons, List.not_mem_nil, or_false] at this
  constructor
  · intro hk
    rcases this.mpr ⟨ht, hk⟩ with rfl | rfl | rfl | rfl | rfl | rfl
    · exact ⟨by omega, 0, by omega⟩
    · exact ⟨by omega, 0, by omega⟩
    · exact ⟨by omega, 1, by omega⟩
    · exact ⟨by omega, 1, by omega⟩
    · exact ⟨by omega, 2, by omega⟩
    · exact ⟨by omega, 2, by omega⟩
  · rintro ⟨h1, i, hi⟩
    exact (this.mp (by omega)).2

/-- A rhythm of three key-ons with distances 1500, 1500 and 1000, three times. -/
def tresillo : List Event :=
  [.wait 7, .write 8 0x78, .wait 1500, .write 8 0x78, .wait 1500, .write 8 0x78, .wait 1000,
   .write 8 0x78, .wait 1500, .write 8 0x78, .wait 1500, .write 8 0x78, .wait 1000,
   .write 8 0x78, .wait 1500, .write 8 0x78, .wait 1500, .write 8 0x78]

theorem tresillo_byte : ByteHistory tresillo := by decide

theorem tresillo_window : (run tresillo).ticks.filter (fun t => decide (t < 32000)) =
    [7, 1507, 3007, 4007, 5507, 7007, 8007, 9507, 11007] := by decide +kernel

example : (run tresillo).ticksPerNote = .ok 4000 := by
  refine c101_period tresillo tresillo_byte
    (fun t => t % 4000 = 7 ∨ t % 4000 = 1507 ∨ t % 4000 = 3007) 4000 7 12007 (by omega) (by omega)
    (fun t => by simp) (by omega) (fun t ht => ?_) ?_ [7, 1507, 3007] (by simp) ?_ 3 (by omega)
    (by simp)
  · have := window_mem tresillo tresillo_byte t
    rw [tresillo_window] at this
    simp only [List.mem_cons, List.not_mem_nil, or_false] at this
    constructor
    · intro hk
      have := this.mpr ⟨ht, hk⟩
      omega
    · intro hr
      exact (this.mp (by omega)).2
  · intro d hd1 hd2 hrep
    have h1 := (hrep 7).mpr (by decide)
    have h2 := (hrep 1507).mpr (by decide)
    have h3 := (hrep 3007).mpr (by decide)
    dsimp only at h1 h2 h3
    omega
  · intro t
    simp only [List.mem_cons, List.not_mem_nil, or_false]
    omega

end VgmX
