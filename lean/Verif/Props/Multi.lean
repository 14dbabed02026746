import Mathlib.Data.List.Induction
import Verif.Lemmas.Multi
import Verif.Spec.Multi
/-
C74: several state objects in one process do not influence each other.
-/

namespace VgmX
open Spec

/-- Every state object is the relocated image of one that ran alone, and owns its own objects. -/
structure PInv (cs : List Call) (p : Proc) : Prop where
  len : p.states.length = created cs
  sep : ∃ place : Nat → Place,
    (∀ k o, p.states[k]? = some o → ∃ s, hrun (callsOn k cs) = .ok s ∧ Sim (place k) s (p.heap.with o)) ∧
    (∀ j k, j < p.states.length → k < p.states.length → j ≠ k → Disj (place j) (place k))

theorem hrun_snoc {es : List Event} {s : HState} (h : hrun es = .ok s) (e : Event) {s' : HState}
    (h' : s.call e = .ok s') : hrun (es ++ [e]) = .ok s' := by
  unfold hrun at *
  rw [steps_append, h]
  have : s.step e = .ok s' := by cases e <;> exact h'
  simp only [HState.steps, this]

theorem call_total {es : List Event} {s : HState} (h : hrun es = .ok s) (e : Event) :
    ∃ s', s.call e = .ok s' := by
  obtain ⟨s1, e1, r1⟩ := hrun_rel es
  rw [h] at e1
  cases e1
  cases e with
  | write r v => obtain ⟨s', h', _⟩ := r1.apply r v; exact ⟨s', h'⟩
  | wait n => exact ⟨_, rfl⟩

theorem with_obj (s : HState) : s.heap.with s.obj = s := rfl

theorem callsOn_snoc (k : Nat) (cs : List Call) (c : Call) :
    callsOn k (cs ++ [c]) = callsOn k cs ++ callsOn k [c] := by
  unfold callsOn; rw [List.filterMap_append]

theorem created_snoc (cs : List Call) (c : Call) :
    created (cs ++ [c]) = created cs + created [c] := by
  unfold created; rw [List.countP_append]

theorem callsOn_le {k : Nat} {cs : List Call} (hp : Possible cs) (hk : created cs ≤ k) :
    callsOn k cs = [] := by
  unfold callsOn
  rw [List.filterMap_eq_nil_iff]
  intro c hc
  obtain ⟨pre, post, rfl⟩ := List.append_of_mem hc
  cases c with
  | new => rfl
  | on j e =>
    have h1 := hp pre j e post rfl
    have h2 : created pre ≤ created (pre ++ Call.on j e :: post) := by
      unfold created; rw [List.countP_append]; omega
    show (if j = k then some e else none) = none
    rw [if_neg (by omega)]

theorem possible_prefix {cs ds : List Call} (h : Possible (cs ++ ds)) : Possible cs := by
  intro pre k e post he
  exact h pre k e (post ++ ds) (by rw [he]; simp)

theorem PInv.start : PInv [] Proc.start :=
  ⟨rfl, ⟨fun _ => ⟨[], [], [], [], [], []⟩, fun k o h => by simp [Proc.start] at h,
    fun j k h => by simp [Proc.start] at h⟩⟩

theorem PInv.step {cs : List Call} {p : Proc} (h : PInv cs p) (c : Call) (hp : Possible (cs ++ [c])) :
    ∃ p', p.step c = .ok p' ∧ PInv (cs ++ [c]) p' := by
  obtain ⟨place, hs, hd⟩ := h.sep
  cases c with
  | new =>
    obtain ⟨ρ, h1, x1⟩ := Sim.new p.heap
    refine ⟨_, rfl, ⟨?_, ?_⟩⟩
    · rw [created_snoc, ← h.len]
      simp [created]
    · have hd0 : ∀ σ : Place, Disj σ ⟨[], [], [], [], [], []⟩ := fun σ => by
        refine ⟨?_, ?_, ?_, ?_, ?_, ?_⟩ <;> simp
      have hframe : ∀ k o, p.states[k]? = some o → ∃ s, hrun (callsOn k cs) = .ok s ∧
          Sim (place k) s ((HState.new p.heap).heap.with o) ∧ Disj (place k) ρ := by
        intro k o hk
        obtain ⟨s, e1, e2⟩ := hs k o hk
        obtain ⟨a, b⟩ := Sim.frame e2 x1 (hd0 _)
        exact ⟨s, e1, a, b⟩
      refine ⟨fun k => if k = p.states.length then ρ else place k, ?_, ?_⟩
      · intro k o hk
        by_cases hlt : k < p.states.length
        · simp only [if_neg (show ¬ k = p.states.length by omega)]
          rw [List.getElem?_append_left hlt] at hk
          obtain ⟨s, e1, e2, _⟩ := hframe k o hk
          exact ⟨s, by rw [callsOn_snoc]; simpa [callsOn] using e1, e2⟩
        · have h1' := lt_of_get hk
          simp only [List.length_append, List.length_singleton] at h1'
          have : k = p.states.length := by omega
          subst this
          simp only [List.getElem?_concat_length, Option.some.injEq] at hk
          subst hk
          refine ⟨HState.init, ?_, ?_⟩
          · have : callsOn p.states.length cs = [] :=
              callsOn_le (possible_prefix hp) (Nat.le_of_eq h.len.symm)
            rw [callsOn_snoc, this]
            rfl
          · simp only [if_true]
            exact h1
      · intro j k hj hk hne
        simp only [List.length_append, List.length_singleton] at hj hk
        by_cases e1 : j = p.states.length
        · simp only [if_pos e1, if_neg (show ¬ k = p.states.length by omega)]
          have hkl : k < p.states.length := by omega
          obtain ⟨s, _, _, b⟩ := hframe k _ (List.getElem?_eq_getElem hkl)
          exact b.symm
        · have hjl : j < p.states.length := by omega
          obtain ⟨s, _, _, b⟩ := hframe j _ (List.getElem?_eq_getElem hjl)
          by_cases e2 : k = p.states.length
          · simp only [if_neg e1, if_pos e2]; exact b
          · simp only [if_neg e1, if_neg e2]
            exact hd j k hjl (by omega) hne
  | on i e =>
    have hi : i < p.states.length := by
      rw [h.len]
      exact hp cs i e [] rfl
    obtain ⟨o, ho⟩ : ∃ o, p.states[i]? = some o := ⟨_, List.getElem?_eq_getElem hi⟩
    obtain ⟨s, e1, e2⟩ := hs i o ho
    obtain ⟨s', hs'⟩ := call_total e1 e
    obtain ⟨ρ', S', k1, r1, x1⟩ := e2.call e hs'
    refine ⟨⟨S'.heap, p.states.set i S'.obj⟩, ?_, ⟨?_, ?_⟩⟩
    · simp only [Proc.step, ho, k1]
    · rw [created_snoc, ← h.len]
      simp [created]
    · have hframe : ∀ k o, k ≠ i → p.states[k]? = some o → ∃ s, hrun (callsOn k cs) = .ok s ∧
          Sim (place k) s (S'.heap.with o) ∧ Disj (place k) ρ' := by
        intro k o' hne hk
        obtain ⟨s, a1, a2⟩ := hs k o' hk
        obtain ⟨a, b⟩ := Sim.frame (S := p.heap.with o) a2 x1 (hd k i (lt_of_get hk) hi hne)
        exact ⟨s, a1, a, b⟩
      refine ⟨fun k => if k = i then ρ' else place k, ?_, ?_⟩
      · intro k o' hk
        by_cases hki : k = i
        · subst hki
          simp only [if_true]
          rw [List.getElem?_set_self hi, Option.some.injEq] at hk
          subst hk
          refine ⟨s', ?_, r1⟩
          rw [callsOn_snoc]
          have : callsOn k [Call.on k e] = [e] := by simp [callsOn]
          rw [this]
          exact hrun_snoc e1 e hs'
        · simp only [if_neg hki]
          rw [List.getElem?_set_ne (fun h => hki h.symm)] at hk
          obtain ⟨s, a1, a2, _⟩ := hframe k o' hki hk
          refine ⟨s, ?_, a2⟩
          rw [callsOn_snoc]
          have : callsOn k [Call.on i e] = [] := by simp [callsOn, Ne.symm hki]
          rw [this, List.append_nil]
          exact a1
      · intro j k hj hk hne
        simp only [List.length_set] at hj hk
        by_cases c1 : j = i
        · have c2 : k ≠ i := by omega
          simp only [if_pos c1, if_neg c2]
          obtain ⟨s, _, _, b⟩ := hframe k _ c2 (List.getElem?_eq_getElem hk)
          exact b.symm
        · obtain ⟨s, _, _, b⟩ := hframe j _ c1 (List.getElem?_eq_getElem hj)
          by_cases c2 : k = i
          · simp only [if_neg c1, if_pos c2]; exact b
          · simp only [if_neg c1, if_neg c2]; exact hd j k hj hk hne

theorem Proc.steps_snoc (p : Proc) (cs : List Call) (c : Call) :
    p.steps (cs ++ [c]) = match p.steps cs with
      | .error e => .error e
      | .ok q => q.step c := by
  induction cs generalizing p with
  | nil =>
    simp only [List.nil_append, Proc.steps]
    cases p.step c <;> rfl
  | cons d cs ih =>
    simp only [List.cons_append, Proc.steps]
    cases p.step d with
    | error e => rfl
    | ok q => exact ih q

theorem pinv_run (cs : List Call) (hp : Possible cs) : ∃ p, Proc.start.steps cs = .ok p ∧ PInv cs p := by
  induction cs using List.reverseRecOn with
  | nil => exact ⟨_, rfl, PInv.start⟩
  | append_singleton cs c ih =>
    obtain ⟨p, h1, h2⟩ := ih (possible_prefix hp)
    obtain ⟨p', h3, h4⟩ := h2.step c hp
    exact ⟨p', by rw [Proc.steps_snoc, h1]; exact h3, h4⟩

/-- C74. However the calls on any number of state objects are interleaved, no call raises, and every
object shows exactly what its own calls, made on a single object, give. -/
theorem c74_independent (cs : List Call) (hp : Possible cs) :
    ∃ p, Proc.start.steps cs = .ok p ∧ p.states.length = created cs ∧
      ∀ k < created cs, p.view k = some (.ok (run (callsOn k cs))) := by
  obtain ⟨p, h1, h2⟩ := pinv_run cs hp
  refine ⟨p, h1, h2.len, ?_⟩
  intro k hk
  rw [← h2.len] at hk
  obtain ⟨place, hs, _⟩ := h2.sep
  obtain ⟨s, e1, e2⟩ := hs k _ (List.getElem?_eq_getElem hk)
  obtain ⟨s', e3, e4⟩ := c18_refines (callsOn k cs)
  rw [e1] at e3
  cases e3
  unfold Proc.view
  rw [List.getElem?_eq_getElem hk, Option.map_some, e2.view e4]

/-- C74, as a statement about schedules: two programs that make the same calls on object `k` see the
same object, whatever they do with other objects. -/
theorem c74_schedule (cs ds : List Call) (hc : Possible cs) (hd : Possible ds) (k j : Nat)
    (hk : k < created cs) (hj : j < created ds) (h : callsOn k cs = callsOn j ds) :
    ∃ p q, Proc.start.steps cs = .ok p ∧ Proc.start.steps ds = .ok q ∧ p.view k = q.view j := by
  obtain ⟨p, h1, _, h3⟩ := c74_independent cs hc
  obtain ⟨q, h4, _, h6⟩ := c74_independent ds hd
  exact ⟨p, q, h1, h4, by rw [h3 k hk, h6 j hj, h]⟩

theorem possible_nil : Possible [] := by
  intro pre k e post h
  simp at h

theorem possible_snoc {cs : List Call} (h : Possible cs) (c : Call)
    (hc : ∀ k e, c = .on k e → k < created cs) : Possible (cs ++ [c]) := by
  intro pre k e post he
  by_cases hpost : post = []
  · subst hpost
    obtain ⟨rfl, h2⟩ := List.append_inj' he rfl
    simp only [List.cons.injEq, and_true] at h2
    exact hc k e h2
  · obtain ⟨p', x, rfl⟩ : ∃ p' x, post = p' ++ [x] := ⟨_, _, (List.dropLast_append_getLast hpost).symm⟩
    have : cs ++ [c] = (pre ++ Call.on k e :: p') ++ [x] := by rw [he]; simp
    obtain ⟨h1, _⟩ := List.append_inj' this rfl
    exact h pre k e p' h1

/-- Two objects, the second created after the first has recorded an instrument; writes to both
alternate. -/
def exampleCalls : List Call :=
  [.new, .on 0 (.wait 5), .on 0 (.write 0x20 0xC7), .on 0 (.write 0x08 0x78), .new,
    .on 1 (.write 0x20 0x41), .on 0 (.write 0x18 9), .on 1 (.wait 7), .on 1 (.write 0x08 0x08),
    .on 0 (.write 0x08 0x78)]

example : Possible exampleCalls := by
  unfold exampleCalls
  have snoc : ∀ (cs : List Call) (c : Call), Possible cs →
      (match c with | .new => true | .on k _ => decide (k < created cs)) = true →
      Possible (cs ++ [c]) := by
    intro cs c h hc
    refine possible_snoc h c ?_
    rintro k e rfl
    simpa using hc
  have h0 := snoc [] .new possible_nil rfl
  have h1 := snoc _ (.on 0 (.wait 5)) h0 (by decide)
  have h2 := snoc _ (.on 0 (.write 0x20 0xC7)) h1 (by decide)
  have h3 := snoc _ (.on 0 (.write 0x08 0x78)) h2 (by decide)
  have h4 := snoc _ .new h3 rfl
  have h5 := snoc _ (.on 1 (.write 0x20 0x41)) h4 (by decide)
  have h6 := snoc _ (.on 0 (.write 0x18 9)) h5 (by decide)
  have h7 := snoc _ (.on 1 (.wait 7)) h6 (by decide)
  have h8 := snoc _ (.on 1 (.write 0x08 0x08)) h7 (by decide)
  exact snoc _ (.on 0 (.write 0x08 0x78)) h8 (by decide)

example : (run (callsOn 0 exampleCalls)).configs.length = 2 ∧
    (run (callsOn 1 exampleCalls)).configs.length = 1 ∧
    ((run (callsOn 0 exampleCalls)).keyPresses.getD 0 []).map (·.sample) = [5, 5] ∧
    ((run (callsOn 1 exampleCalls)).keyPresses.getD 0 []).map (·.sample) = [7] := by decide +kernel

end VgmX
