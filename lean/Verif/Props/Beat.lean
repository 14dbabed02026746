import Verif.Props.Ticks
import Mathlib.Data.List.Perm.Subperm
/-
C94: the tempo estimate of a beat with missing and additional key-ons.
Vocabulary: Spec/Ticks.lean, `KeyOnAt` in Props/Ticks.lean.
-/

namespace VgmX
open Spec

theorem length_of_subset {l l' : List Nat} (hn : l.Nodup) (h : ∀ x ∈ l, x ∈ l') :
    l.length ≤ l'.length :=
  (List.subperm_of_subset hn h).length_le

/-- A shift that is no multiple of the grid matches a tick of the grid only with one beside it. -/
theorem score_offgrid {T extra : List Nat} (hT : T.Nodup) {g a s : Nat}
    (he : ∀ t ∈ T, t % g = a % g ∨ t ∈ extra) (hs : ¬ g ∣ s) :
    (T.filter (fun t => decide (t % g = a % g))).length ≤ score T s + extra.length := by
  have h := length_of_subset (l := T.filter (fun t => decide (t % g = a % g)))
    (l' := unmatchedTicks T s ++ extra.map (· + s)) (hT.filter _) (by
      intro t ht
      rw [List.mem_filter] at ht
      obtain ⟨ht, hg⟩ := ht
      simp only [decide_eq_true_eq] at hg
      rw [List.mem_append]
      by_cases hm : ∃ u ∈ T, u + s = t
      · obtain ⟨u, hu, rfl⟩ := hm
        right
        rcases he u hu with hu' | hu'
        · exfalso
          apply hs
          have h1 : u % g = (u + s) % g := hu'.trans hg.symm
          have h2 : (u + s - u) % g = 0 := Nat.sub_mod_eq_zero_of_mod_eq h1.symm
          rw [Nat.add_sub_cancel_left] at h2
          exact Nat.dvd_of_mod_eq_zero h2
        · exact List.mem_map.mpr ⟨u, hu', rfl⟩
      · left
        unfold unmatchedTicks
        rw [List.mem_filter]
        refine ⟨ht, ?_⟩
        simp only [decide_eq_true_eq]
        exact fun u hu e => hm ⟨u, hu, e⟩)
  rw [List.length_append, List.length_map] at h
  unfold score
  omega

/-- C94. All key-on times below 32000 but those in `extra` lie on a grid of step `g`, and there is
some shift in range that has fewer mismatches than there are key-on times on the grid, not
counting as many as lie beside it: then the estimate is a multiple of `g`. -/
theorem c94_grid (h : List Event) (hb : ByteHistory h) (T : List Nat)
    (hs : T.Pairwise (· < ·)) (hT : ∀ t, t ∈ T ↔ t < 32000 ∧ KeyOnAt h t) (a g : Nat)
    (extra : List Nat) (he : ∀ t ∈ T, t % g = a % g ∨ t ∈ extra) (c : Nat) (hc1 : 1000 ≤ c)
    (hc2 : c < 8000)
    (hc : score T c + extra.length < (T.filter (fun t => decide (t % g = a % g))).length) :
    ∃ m, (run h).ticksPerNote = .ok (m * g) := by
  obtain ⟨b, hr, _⟩ := c26_range h hb
  have hbest := (c28_best h hb T hs hT b).mp hr
  have hnd : T.Nodup := hs.imp (fun h => Nat.ne_of_lt h)
  by_cases hd : g ∣ b
  · obtain ⟨m, rfl⟩ := hd
    exact ⟨m, by rw [Nat.mul_comm m g]; exact hr⟩
  · exfalso
    have h1 := score_offgrid hnd he hd
    have h2 := hbest.2.2.1 c hc1 hc2
    omega

/-- C94. A beat of `N` key-ons with step `g`, some of them missing, and with key-ons in other
places: if more than three times as many beats as there are missing and additional key-ons, and
more than two besides, then the estimate is a multiple of `g`. -/
theorem c94_robust (h : List Event) (hb : ByteHistory h) (a g N : Nat) (hg1 : 1000 ≤ g)
    (hg2 : g < 8000) (missing extra : List Nat)
    (hm : ∀ i < N, (a + i * g < 32000 ∧ KeyOnAt h (a + i * g)) ∨ a + i * g ∈ missing)
    (he : ∀ t < 32000, KeyOnAt h t → (∃ i < N, t = a + i * g) ∨ t ∈ extra)
    (hN : 3 * missing.length + 3 * extra.length + 2 < N) :
    ∃ m, 0 < m ∧ (run h).ticksPerNote = .ok (m * g) := by
  obtain ⟨T, hs, hT⟩ := c28_ticks_exist h hb
  have hnd : T.Nodup := hs.imp (fun h => Nat.ne_of_lt h)
  have hm' : ∀ i < N, a + i * g ∈ T ∨ a + i * g ∈ missing := fun i hi =>
    (hm i hi).imp (fun x => (hT _).mpr x) id
  have he' : ∀ t ∈ T, (∃ i < N, t = a + i * g) ∨ t ∈ extra := fun t ht =>
    he t ((hT t).mp ht).1 ((hT t).mp ht).2
  have h1 : (unmatchedTicks T g).length ≤ (extra ++ a :: missing.map (· + g)).length :=
    length_of_subset (hnd.filter _) (by
      intro t ht
      rw [unmatchedTicks, List.mem_filter] at ht
      obtain ⟨ht, hu⟩ := ht
      simp only [decide_eq_true_eq] at hu
      rw [List.mem_append, List.mem_cons]
      rcases he' t ht with ⟨i, hi, rfl⟩ | hx
      · right
        cases i with
        | zero => left; omega
        | succ i =>
          right
          have e : a + (i + 1) * g = a + i * g + g := by rw [Nat.succ_mul]; omega
          rcases hm' i (by omega) with hx | hx
          · exact absurd e.symm (hu _ hx)
          · exact List.mem_map.mpr ⟨_, hx, e.symm⟩
      · exact .inl hx)
  have h2 : (unmatchedShifted T g).length ≤
      (extra ++ (a + (N - 1) * g) :: missing.map (· - g)).length :=
    length_of_subset (hnd.filter _) (by
      intro t ht
      rw [unmatchedShifted, List.mem_filter] at ht
      obtain ⟨ht, hu⟩ := ht
      simp only [decide_eq_true_eq] at hu
      rw [List.mem_append, List.mem_cons]
      rcases he' t ht with ⟨i, hi, rfl⟩ | hx
      · right
        by_cases hl : i = N - 1
        · subst hl; exact .inl rfl
        · right
          have e : a + (i + 1) * g = a + i * g + g := by rw [Nat.succ_mul]; omega
          rcases hm' (i + 1) (by omega) with hx | hx
          · rw [e] at hx; exact absurd hx hu.1
          · exact List.mem_map.mpr ⟨_, hx, by omega⟩
      · exact .inl hx)
  have h3 : N ≤ (T.filter (fun t => decide (t % g = a % g)) ++ missing).length := by
    have := length_of_subset (l := (List.range N).map (fun i => a + i * g))
      (l' := T.filter (fun t => decide (t % g = a % g)) ++ missing)
      (by
        apply List.Nodup.map _ List.nodup_range
        intro i j e
        have e : i * g = j * g := by simpa using e
        exact Nat.eq_of_mul_eq_mul_right (by omega) e)
      (by
        intro x hx
        obtain ⟨i, hi, rfl⟩ := List.mem_map.mp hx
        rw [List.mem_append, List.mem_filter]
        rcases hm' i (List.mem_range.mp hi) with h | h
        · exact .inl ⟨h, by simp⟩
        · exact .inr h)
    simpa using this
  simp only [List.length_append, List.length_cons, List.length_map] at h1 h2 h3
  obtain ⟨m, hr⟩ := c94_grid h hb T hs hT a g extra
    (fun t ht => (he' t ht).imp (fun ⟨i, _, e⟩ => by rw [e]; simp) id) g hg1 hg2
    (by unfold score; omega)
  refine ⟨m, ?_, hr⟩
  rcases Nat.eq_zero_or_pos m with rfl | h
  · obtain ⟨b, hr', hb1, _⟩ := c26_range h hb
    rw [hr] at hr'
    cases hr'
    omega
  · exact h

/-- A beat of 3000 samples with ten beats, the fourth of which is missing, and a key-on between the
second and the third. -/
def shaky : List Event :=
  [.wait 100, .write 8 0x78, .wait 3000, .write 8 0x78, .wait 700, .write 8 0x79, .wait 2300,
   .write 8 0x78, .wait 6000, .write 8 0x78, .wait 3000, .write 8 0x78, .wait 3000, .write 8 0x78,
   .wait 3000, .write 8 0x78, .wait 3000, .write 8 0x78, .wait 3000, .write 8 0x78]

theorem shaky_byte : ByteHistory shaky := by decide

theorem shaky_window : (run shaky).ticks.filter (fun t => decide (t < 32000)) =
    [100, 3100, 3800, 6100, 12100, 15100, 18100, 21100, 24100, 27100] := by decide +kernel

example : ∃ m, 0 < m ∧ (run shaky).ticksPerNote = .ok (m * 3000) := by
  apply c94_robust shaky shaky_byte 100 3000 10 (by omega) (by omega) [9100] [3800]
  · intro i hi
    rw [← window_mem shaky shaky_byte, shaky_window]
    rcases (by omega : i = 0 ∨ i = 1 ∨ i = 2 ∨ i = 3 ∨ i = 4 ∨ i = 5 ∨ i = 6 ∨ i = 7 ∨ i = 8 ∨ i = 9)
      with rfl | rfl | rfl | rfl | rfl | rfl | rfl | rfl | rfl | rfl <;> decide
  · intro t ht hk
    have := (window_mem shaky shaky_byte t).mpr ⟨ht, hk⟩
    rw [shaky_window] at this
    simp only [List.mem_cons, List.not_mem_nil, or_false] at this
    rcases this with rfl | rfl | rfl | rfl | rfl | rfl | rfl | rfl | rfl | rfl
    · exact .inl ⟨0, by omega, rfl⟩
    · exact .inl ⟨1, by omega, rfl⟩
    · exact .inr (by decide)
    · exact .inl ⟨2, by omega, rfl⟩
    · exact .inl ⟨4, by omega, rfl⟩
    · exact .inl ⟨5, by omega, rfl⟩
    · exact .inl ⟨6, by omega, rfl⟩
    · exact .inl ⟨7, by omega, rfl⟩
    · exact .inl ⟨8, by omega, rfl⟩
    · exact .inl ⟨9, by omega, rfl⟩
  · decide

end VgmX
