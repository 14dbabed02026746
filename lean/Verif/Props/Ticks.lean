import Verif.Props.State
import Verif.Lemmas.Ticks
/-
Properties C26-C30 of the tempo estimate `State.ticks_per_note`.
Vocabulary: Spec/Ticks.lean (score, BestShift), Spec/Ym2151.lean (histories).
-/

namespace VgmX.Spec

/-- Some key-on (a write to 0x08 with an operator bit set) happens at time `t`. -/
def KeyOnAt (h : List Event) (t : Nat) : Prop :=
  ∃ i v : Nat, h[i]? = some (.write 8 v) ∧ v / 8 % 16 ≠ 0 ∧ t = time (h.take i)

end VgmX.Spec

namespace VgmX
open Spec

/-- A steady beat: three key-ons, 2000 samples apart, with another register write and a
key-off in between. -/
def steady : List Event :=
  [.wait 100, .write 8 0x78, .wait 50, .write 8 0, .wait 1950, .write 0x20 7, .write 8 0x78,
   .wait 2000, .write 8 0x79]

theorem steady_byte : ByteHistory steady := by decide

theorem sorted_ext : ∀ (l l' : List Nat), l.Pairwise (· < ·) → l'.Pairwise (· < ·) →
    (∀ x, x ∈ l ↔ x ∈ l') → l = l' := by
  intro l
  induction l with
  | nil =>
    intro l' _ _ h
    cases l' with
    | nil => rfl
    | cons b l' => exact absurd ((h b).mpr List.mem_cons_self) (by simp)
  | cons a l ih =>
    intro l' hl hl' h
    cases l' with
    | nil => exact absurd ((h a).mp List.mem_cons_self) (by simp)
    | cons b l' =>
      rw [List.pairwise_cons] at hl hl'
      have hab : a = b := by
        rcases List.mem_cons.mp ((h a).mp List.mem_cons_self) with e | e
        · exact e
        · rcases List.mem_cons.mp ((h b).mpr List.mem_cons_self) with e' | e'
          · exact e'.symm
          · have := hl'.1 a e; have := hl.1 b e'; omega
      subst hab
      rw [ih l' hl.2 hl'.2]
      intro x
      constructor
      · intro hx
        rcases List.mem_cons.mp ((h x).mp (List.mem_cons_of_mem _ hx)) with e | e
        · have := hl.1 x hx; omega
        · exact e
      · intro hx
        rcases List.mem_cons.mp ((h x).mpr (List.mem_cons_of_mem _ hx)) with e | e
        · have := hl'.1 x hx; omega
        · exact e

theorem bestShift_unique {T : List Nat} {a b : Nat} (ha : BestShift T a) (hb : BestShift T b) :
    a = b := by
  obtain ⟨a1, a2, a3, a4⟩ := ha
  obtain ⟨b1, b2, b3, b4⟩ := hb
  rcases Nat.lt_trichotomy a b with h | h | h
  · have := b4 a a1 h; have := a3 b b1 b2; omega
  · exact h
  · have := a4 b b1 h; have := b3 a a1 a2; omega

theorem window_sorted (h : List Event) (hb : ByteHistory h) :
    ((run h).ticks.filter (fun t => decide (t < 32000))).Pairwise (· < ·) :=
  (c23_ticks h hb).1.sublist List.filter_sublist

theorem window_mem (h : List Event) (hb : ByteHistory h) (t : Nat) :
    t ∈ (run h).ticks.filter (fun t => decide (t < 32000)) ↔ t < 32000 ∧ KeyOnAt h t := by
  rw [List.mem_filter, (c23_ticks h hb).2 t]
  simp only [decide_eq_true_eq, KeyOnAt, and_comm]

/-! ### C27 -/

/-- C27. For every strictly increasing tick list and positive shift, the merge loop ends
and its result is the number of mismatches. -/
theorem c27_score (T : List Nat) (hT : T.Pairwise (· < ·)) (shift : Nat) (hs : 0 < shift) :
    symDiff T shift = some (score T shift) := symDiff_eq T hT shift hs

example : [3, 10, 12, 30].Pairwise (· < ·) ∧ symDiff [3, 10, 12, 30] 7 = some 5 ∧
    score [3, 10, 12, 30] 7 = 5 := by decide +kernel

/-! ### C28 -/

/-- C28. The estimate is the least shift in [1000, 8000) with minimal score, the scores
being taken over the key-on times below 32000. (The code compares floating-point ratios.) -/
theorem c28_best (h : List Event) (hb : ByteHistory h) (T : List Nat)
    (hs : T.Pairwise (· < ·)) (hT : ∀ t, t ∈ T ↔ t < 32000 ∧ KeyOnAt h t) (b : Nat) :
    (run h).ticksPerNote = .ok b ↔ BestShift T b := by
  have e : (run h).ticks.filter (fun t => decide (t < 32000)) = T :=
    sorted_ext _ _ (window_sorted h hb) hs (fun x => by rw [window_mem h hb, hT])
  obtain ⟨b', hr, hbest⟩ := ticksPerNote_spec (run h) (window_sorted h hb)
  rw [e] at hbest
  rw [hr]
  constructor
  · intro hx; cases hx; exact hbest
  · intro hx; rw [bestShift_unique hx hbest]

/-- Such a list of ticks exists for every history. -/
theorem c28_ticks_exist (h : List Event) (hb : ByteHistory h) :
    ∃ T : List Nat, T.Pairwise (· < ·) ∧ ∀ t, t ∈ T ↔ t < 32000 ∧ KeyOnAt h t :=
  ⟨_, window_sorted h hb, window_mem h hb⟩

example : (run steady).ticks.filter (fun t => decide (t < 32000)) = [100, 2100, 4100] := by
  decide +kernel

/-! ### C26 -/

/-- C26. The estimate never raises and is in [1000, 8000), for every history. -/
theorem c26_range (h : List Event) (hb : ByteHistory h) :
    ∃ b, (run h).ticksPerNote = .ok b ∧ 1000 ≤ b ∧ b < 8000 := by
  obtain ⟨b, hr, hbest⟩ := ticksPerNote_spec (run h) (window_sorted h hb)
  exact ⟨b, hr, hbest.1, hbest.2.1⟩

example : ByteHistory steady := steady_byte

/-! ### C29 -/

/-- C29. The estimate depends only on the key-on times below 32000. -/
theorem c29_local (h₁ h₂ : List Event) (hb₁ : ByteHistory h₁) (hb₂ : ByteHistory h₂)
    (h : ∀ t < 32000, KeyOnAt h₁ t ↔ KeyOnAt h₂ t) :
    (run h₁).ticksPerNote = (run h₂).ticksPerNote := by
  obtain ⟨b, hr, _⟩ := c26_range h₂ hb₂
  rw [hr]
  obtain ⟨T, hs, hT⟩ := c28_ticks_exist h₂ hb₂
  rw [c28_best h₁ hb₁ T hs (fun t => by
    rw [hT]
    constructor
    · rintro ⟨a, c⟩; exact ⟨a, (h t a).mpr c⟩
    · rintro ⟨a, c⟩; exact ⟨a, (h t a).mp c⟩)]
  exact (c28_best h₂ hb₂ T hs hT b).mp hr

/-- C29. With fewer than two key-on times below 32000 the estimate is 1000. -/
theorem c29_few (h : List Event) (hb : ByteHistory h)
    (hf : ∀ t u, t < 32000 → u < 32000 → KeyOnAt h t → KeyOnAt h u → t = u) :
    (run h).ticksPerNote = .ok 1000 := by
  obtain ⟨T, hs, hT⟩ := c28_ticks_exist h hb
  rw [c28_best h hb T hs hT]
  have hc : ∀ a b, 1000 ≤ a → 1000 ≤ b → score T a = score T b := by
    intro a b ha hb'
    have hone : T = [] ∨ ∃ x, T = [x] := by
      cases T with
      | nil => exact Or.inl rfl
      | cons x T =>
        cases T with
        | nil => exact Or.inr ⟨x, rfl⟩
        | cons y T =>
          have h1 := (hT x).mp (by simp)
          have h2 := (hT y).mp (by simp)
          have := hf x y h1.1 h2.1 h1.2 h2.2
          have := (List.pairwise_cons.mp hs).1 y (by simp)
          omega
    rcases hone with rfl | ⟨x, rfl⟩
    · rfl
    · have key : ∀ c, 1000 ≤ c → score [x] c = 1 := by
        intro c hc
        simp [score, unmatchedTicks, unmatchedShifted, show c ≠ 0 by omega]
      rw [key a ha, key b hb']
  refine ⟨by omega, by omega, ?_, ?_⟩
  · intro c h1 _; exact Nat.le_of_eq (hc _ _ (by omega) h1)
  · intro c h1 h2; omega

example : ∀ t u, t < 32000 → u < 32000 → KeyOnAt [.wait 5, .write 8 8] t →
    KeyOnAt [.wait 5, .write 8 8] u → t = u := by
  have : ∀ t, KeyOnAt [.wait 5, .write 8 8] t → t = 5 := by
    rintro t ⟨i, v, h1, h2, h3⟩
    rcases i with _ | _ | i
    · simp at h1
    · rw [h3]; rfl
    · simp at h1
  intro t u _ _ ht hu; rw [this t ht, this u hu]

/-! ### C30 -/

/-- C30. If the key-on times below 32000 are an arithmetic progression of at least two terms
whose step is in [1000, 8000), the estimate is the step. -/
theorem c30_steady (h : List Event) (hb : ByteHistory h) (a g n : Nat) (hn : 2 ≤ n)
    (hg1 : 1000 ≤ g) (hg2 : g < 8000)
    (hap : ∀ t, t < 32000 ∧ KeyOnAt h t ↔ ∃ k < n, t = a + k * g) :
    (run h).ticksPerNote = .ok g := by
  obtain ⟨T, hs, hT⟩ := c28_ticks_exist h hb
  rw [c28_best h hb T hs hT]
  have hm : ∀ t, t ∈ T ↔ ∃ k < n, t = a + k * g := fun t => (hT t).trans (hap t)
  have hnd : T.Nodup := hs.imp (fun h => Nat.ne_of_lt h)
  have ha : a ∈ T := (hm a).mpr ⟨0, by omega, by omega⟩
  have hmin : ∀ t ∈ T, a ≤ t := by
    intro t ht; obtain ⟨k, _, rfl⟩ := (hm t).mp ht; omega
  -- the first tick is never matched
  have hfirst : ∀ c, 0 < c → a ∈ unmatchedTicks T c := by
    intro c hc
    unfold unmatchedTicks
    rw [List.mem_filter]
    refine ⟨ha, ?_⟩
    simp only [decide_eq_true_eq]
    intro u hu; have := hmin u hu; omega
  have hge : ∀ c, 0 < c → 1 ≤ score T c := by
    intro c hc
    have := List.length_pos_of_mem (hfirst c hc)
    unfold score; omega
  have hg : score T g = 1 := by
    have h1 : unmatchedTicks T g = [a] := by
      apply sorted_ext
      · exact hs.sublist List.filter_sublist
      · simp
      · intro x
        unfold unmatchedTicks
        rw [List.mem_filter]
        simp only [decide_eq_true_eq, List.mem_singleton]
        constructor
        · rintro ⟨hx, hu⟩
          obtain ⟨k, hk, rfl⟩ := (hm x).mp hx
          cases k with
          | zero => omega
          | succ k =>
            refine absurd ?_ (hu (a + k * g) ((hm _).mpr ⟨k, by omega, rfl⟩))
            rw [Nat.succ_mul]; omega
        · rintro rfl
          refine ⟨ha, fun u hu => ?_⟩
          have := hmin u hu; omega
    have h2 : unmatchedShifted T g = [] := by
      unfold unmatchedShifted
      rw [List.filter_eq_nil_iff]
      intro u hu
      simp only [decide_eq_true_eq]
      rintro ⟨hnot, t, ht, hlt⟩
      obtain ⟨k, hk, rfl⟩ := (hm u).mp hu
      obtain ⟨j, hj, rfl⟩ := (hm t).mp ht
      apply hnot
      rw [hm]
      refine ⟨k + 1, ?_, by rw [Nat.succ_mul]; omega⟩
      have : (k + 1) * g < j * g := by rw [Nat.succ_mul]; omega
      have := Nat.lt_of_mul_lt_mul_right this
      omega
    unfold score; rw [h1, h2]; rfl
  refine ⟨hg1, hg2, ?_, ?_⟩
  · intro c h1 _; rw [hg]; exact hge c (by omega)
  · intro c h1 h2
    have h3 : a ∈ unmatchedShifted T c := by
      unfold unmatchedShifted
      rw [List.mem_filter]
      refine ⟨ha, ?_⟩
      simp only [decide_eq_true_eq]
      constructor
      · rw [hm]
        rintro ⟨k, hk, e⟩
        cases k with
        | zero => omega
        | succ k =>
          rw [Nat.succ_mul] at e
          have : 0 ≤ k * g := Nat.zero_le _
          omega
      · exact ⟨a + 1 * g, (hm _).mpr ⟨1, by omega, rfl⟩, by omega⟩
    have h4 := List.length_pos_of_mem (hfirst c (by omega))
    have h5 := List.length_pos_of_mem h3
    rw [hg]; unfold score; omega

theorem steady_ap : ∀ t, t < 32000 ∧ KeyOnAt steady t ↔ ∃ k < 3, t = 100 + k * 2000 := by
  intro t
  rw [← window_mem steady steady_byte]
  have : (run steady).ticks.filter (fun t => decide (t < 32000)) = [100, 2100, 4100] := by
    decide +kernel
  rw [this]
  simp only [List.mem_cons, List.not_mem_nil, or_false]
  constructor
  · rintro (rfl | rfl | rfl)
    · exact ⟨0, by omega, rfl⟩
    · exact ⟨1, by omega, rfl⟩
    · exact ⟨2, by omega, rfl⟩
  · rintro ⟨k, hk, rfl⟩
    rcases (by omega : k = 0 ∨ k = 1 ∨ k = 2) with rfl | rfl | rfl <;> simp

example : (run steady).ticksPerNote = .ok 2000 :=
  c30_steady steady steady_byte 100 2000 3 (by omega) (by omega) (by omega) steady_ap

end VgmX
