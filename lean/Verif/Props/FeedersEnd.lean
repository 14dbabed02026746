import Verif.Props.Feeders
/-
C124: a thread that feeds a shared state finishes its calls within a bounded number of its own steps,
whatever the other threads do in between.
-/

namespace VgmX
open Spec

/-- There are at most `K` instruments, and every channel has its four operators. -/
structure FitsIn (K : Nat) (s : Shared) : Prop where
  few : s.st.configs.length ≤ K
  four : ∀ c ∈ s.st.channelConfigs, c.operators.length = 4
  instr : ∀ c ∈ s.st.configs, c.channel.operators.length = 4

/-- The call ends within `n` steps, whatever the states are that it meets. -/
def EndsBy (K : Nat) : Nat → Prog → Prop
  | _, .done => True
  | n, .read k => 1 ≤ n ∧ ∀ s, FitsIn K s → EndsBy K (n - 1) (k s)
  | n, .put _ p => 1 ≤ n ∧ EndsBy K (n - 1) p
  | n, .scan _ _ _ i k => ∃ m, (K + 1 - i) * 58 + 1 + m ≤ n ∧ ∀ j, EndsBy K m (k j)

theorem EndsBy.mono {K n n' : Nat} {p : Prog} (h : EndsBy K n p) (hn : n ≤ n') : EndsBy K n' p := by
  induction p generalizing n n' with
  | done => trivial
  | read k ih => exact ⟨Nat.le_trans h.1 hn, fun s hs => ih s (h.2 s hs) (by omega)⟩
  | put c p ih => exact ⟨Nat.le_trans h.1 hn, ih h.2 (by omega)⟩
  | scan ch op d i k ih =>
    obtain ⟨m, hm, hk⟩ := h
    exact ⟨m, by omega, hk⟩

theorem EndsBy.rd {K n : Nat} {k : Shared → Prog} (h : ∀ s, FitsIn K s → EndsBy K n (k s)) :
    EndsBy K (n + 1) (.read k) := ⟨by omega, h⟩

theorem EndsBy.ch {K n : Nat} {c : Change} {p : Prog} (h : EndsBy K n p) : EndsBy K (n + 1) (.put c p) :=
  ⟨by omega, h⟩

theorem EndsBy.tests {K n : Nat} (ts : List (Shared → Bool)) (yes no : Prog) (hy : EndsBy K n yes)
    (hn : EndsBy K n no) : EndsBy K (n + ts.length) (testsProg ts yes no) := by
  induction ts with
  | nil => exact hy
  | cons t ts ih =>
    refine EndsBy.rd (n := n + ts.length) fun s _ => ?_
    split
    · exact ih
    · exact hn.mono (by omega)

theorem compareTests_length (c : Config) (b ch op : Nat) (h : c.channel.operators.length = 4) :
    (compareTests c b ch op).length = 56 := by
  simp only [compareTests, channelTests, h, opTests]
  rfl

theorem EndsBy.copyBase {K n : Nat} (b : Nat) (k : BaseConfig → Prog) (h : ∀ x, EndsBy K n (k x)) :
    EndsBy K (n + 4) (copyBase b k) :=
  .rd fun _ _ => .rd fun _ _ => .rd fun _ _ => .rd fun _ _ => h _

theorem EndsBy.readOp {K n : Nat} (j i : Nat) (k : OperatorConfig → Prog) (h : ∀ x, EndsBy K n (k x)) :
    EndsBy K (n + 11) (readOp j i k) :=
  .rd fun _ _ => .rd fun _ _ => .rd fun _ _ => .rd fun _ _ => .rd fun _ _ => .rd fun _ _ =>
  .rd fun _ _ => .rd fun _ _ => .rd fun _ _ => .rd fun _ _ => .rd fun _ _ => h _

theorem EndsBy.readOps {K n : Nat} (j c i : Nat) (acc : List OperatorConfig)
    (k : List OperatorConfig → Prog) (h : ∀ x, EndsBy K n (k x)) :
    EndsBy K (n + 11 * c) (readOps j c i acc k) := by
  induction c generalizing i acc with
  | zero => exact h _
  | succ c ih => exact EndsBy.readOp (n := n + 11 * c) j i _ fun o => ih (i + 1) (acc ++ [o])

theorem FitsIn.four_getD {K : Nat} {s : Shared} (h : FitsIn K s) (j : Nat) :
    (s.st.channelConfigs.getD j {}).operators.length = 4 := by
  rw [List.getD_eq_getElem?_getD]
  cases hc : s.st.channelConfigs[j]? with
  | none => rfl
  | some c => exact h.four c (List.mem_of_getElem? hc)

theorem EndsBy.copyChannel {K n : Nat} (j : Nat) (k : ChannelConfig → Prog) (h : ∀ x, EndsBy K n (k x)) :
    EndsBy K (n + 51) (copyChannel j k) := by
  refine EndsBy.rd (n := n + 50) fun s hs => ?_
  rw [hs.four_getD j]
  exact EndsBy.readOps (n := n + 6) j 4 0 [] _ fun _ =>
    .rd fun _ _ => .rd fun _ _ => .rd fun _ _ => .rd fun _ _ => .rd fun _ _ => .rd fun _ _ => h _

theorem EndsBy.readNote {K n : Nat} (cid : Int) (j sample : Nat) (k : Note → Prog)
    (h : ∀ x, EndsBy K n (k x)) : EndsBy K (n + 5) (readNote cid j sample k) :=
  .rd fun _ _ => .rd fun _ _ => .rd fun _ _ => .rd fun _ _ => .rd fun _ _ => h _

theorem ends_keyTick (K : Nat) (cid : Int) : EndsBy K 2 (keyTick cid) := by
  unfold keyTick
  split
  · exact .rd (n := 1) fun _ _ => .ch (n := 0) trivial
  · trivial

theorem ends_keyNote (K j : Nat) (cid : Int) : EndsBy K 10 (keyNote j cid) := by
  refine .rd (n := 9) fun _ _ => ?_
  split
  · exact .rd (n := 8) fun _ _ => .readNote (n := 3) _ _ _ _ fun _ => .ch (n := 2) (ends_keyTick K cid)
  · exact (ends_keyTick K cid).mono (by omega)

theorem ends_keyFirst (K op j : Nat) (cid : Int) : EndsBy K 13 (keyFirst op j cid) := by
  unfold keyFirst
  split
  · exact (ends_keyNote K j cid).mono (by omega)
  · refine .rd (n := 12) fun _ _ => ?_
    split
    · exact (ends_keyNote K j cid).mono (by omega)
    · exact .rd (n := 11) fun _ _ => .ch (n := 10) (ends_keyNote K j cid)

theorem ends_keyNew (K op j found : Nat) : EndsBy K 76 (keyNew op j found) :=
  .rd (n := 75) fun _ _ => .copyBase (n := 71) _ _ fun _ => .copyChannel (n := 20) _ _ fun _ =>
    .ch (n := 19) <| .rd (n := 18) fun _ _ => .copyBase (n := 14) _ _ fun _ =>
    .ch (n := 13) (ends_keyFirst K op j found)

theorem ends_keyFound (K op j found : Nat) : EndsBy K 77 (keyFound op j found) := by
  refine .rd (n := 76) fun _ _ => ?_
  split
  · split
    · exact (ends_keyFirst K op j (-1)).mono (by omega)
    · exact ends_keyNew K op j found
  · exact (ends_keyFirst K op j found).mono (by omega)

theorem ends_keyProg (K v : Nat) : EndsBy K (58 * K + 137) (keyProg v) :=
  .rd (n := 58 * K + 136) fun _ _ => ⟨77, by omega, fun j => ends_keyFound K _ _ j⟩

theorem ends_storesProg (K : Nat) (l : List Store) : EndsBy K (2 * l.length) (storesProg l) := by
  induction l with
  | nil => trivial
  | cons x l ih =>
    rw [List.length_cons, Nat.mul_add]
    cases x with
    | base a => exact .rd fun _ _ => .ch ih
    | _ => exact EndsBy.mono (.ch ih) (by omega)

theorem ite_len {c : Prop} [Decidable c] {a b : List Store} {n : Nat} (ha : a.length ≤ n)
    (hb : b.length ≤ n) : (if c then a else b).length ≤ n := by
  split
  · exact ha
  · exact hb

theorem stores_len (s : State) (r v : Nat) (hr : r ≠ 8) : (s.stores r v).length ≤ 4 := by
  unfold State.stores
  rw [if_neg hr]
  repeat' apply ite_len
  all_goals simp

theorem ends_call (K : Nat) (e : Event) : EndsBy K (58 * K + 137) (callProg e) := by
  cases e with
  | wait n => exact EndsBy.mono (n := 2) (.rd (n := 1) fun _ _ => .ch (n := 0) trivial) (by omega)
  | write r v =>
    show EndsBy K _ (if r = 8 then keyProg v else storesProg (State.init.stores r v))
    split
    · exact ends_keyProg K v
    · next hr =>
      have := stores_len State.init r v hr
      exact (ends_storesProg K _).mono (by omega)

theorem EndsBy.step {K n : Nat} {p : Prog} {s : Shared} (hs : FitsIn K s) (h : EndsBy K n p)
    (hp : p ≠ .done) : 1 ≤ n ∧ EndsBy K (n - 1) (p.step s).2 := by
  cases p with
  | done => exact absurd rfl hp
  | read k => exact ⟨h.1, h.2 s hs⟩
  | put c p => exact h
  | scan ch op d i k =>
    obtain ⟨m, hm, hk⟩ := h
    refine ⟨by omega, ?_⟩
    show EndsBy K (n - 1) (Prog.step s (.scan ch op d i k)).2
    unfold Prog.step
    cases hc : s.st.configs[i]? with
    | none =>
      simp only [hc]
      exact EndsBy.mono (n := m) (hk d) (by omega)
    | some c =>
      simp only [hc]
      obtain ⟨hi, _⟩ := List.getElem?_eq_some_iff.mp hc
      have := hs.few
      have hl := hs.instr c (List.mem_of_getElem? hc)
      refine EndsBy.mono (n := (K + 1 - (i + 1)) * 58 + 1 + m + 56 + 1) 
        (EndsBy.rd (n := (K + 1 - (i + 1)) * 58 + 1 + m + 56) fun s' _ => ?_) ?_
      · rw [← compareTests_length c s'.cur ch op hl]
        exact EndsBy.tests _ _ _ ((hk i).mono (by omega)) ⟨m, Nat.le_refl _, hk⟩
      · have : K + 1 - i = K + 1 - (i + 1) + 1 := by omega
        rw [this] at hm
        omega

/-- Thread `i` ends all its calls within `r` more steps of its own. -/
def EndsAll (K : Nat) (f : Feeders) (i r : Nat) : Prop :=
  ∃ p l n, f.threads[i]? = some (p, l) ∧ EndsBy K n p ∧ n + l.length * (58 * K + 138) ≤ r

theorem endsAll_step {K : Nat} {f : Feeders} {i r : Nat} (hs : FitsIn K f.shared) (h : EndsAll K f i r)
    (j : Nat) : EndsAll K (f.step j) i (if j = i then r - 1 else r) := by
  obtain ⟨p, l, n, hi, hp, hr⟩ := h
  by_cases hj : j = i
  · subst hj
    rw [if_pos rfl]
    obtain ⟨hlt, _⟩ := List.getElem?_eq_some_iff.mp hi
    unfold Feeders.step
    rw [hi]
    by_cases hd : p = .done
    · subst hd
      cases l with
      | nil => exact ⟨.done, [], 0, hi, trivial, by simp⟩
      | cons e l =>
        refine ⟨callProg e, l, 58 * K + 137, by simp [hlt], ends_call K e, ?_⟩
        rw [List.length_cons, Nat.succ_mul] at hr
        omega
    · obtain ⟨h1, h2⟩ := hp.step hs hd
      refine ⟨(p.step f.shared).2, l, n - 1, ?_, h2, by omega⟩
      cases p with
      | done => exact absurd rfl hd
      | _ => simp [hlt]
  · rw [if_neg hj]
    refine ⟨p, l, n, ?_, hp, hr⟩
    rw [← hi]
    unfold Feeders.step
    split
    · rfl
    · rfl
    · exact List.getElem?_set_ne hj
    · exact List.getElem?_set_ne hj

theorem endsAll_after {W K : Nat} (order : List Nat) {f : Feeders} {i r : Nat}
    (hk : KeptBy none W K f) (h : EndsAll K f i r) :
    EndsAll K (f.after order) i (r - order.count i) := by
  induction order generalizing f r with
  | nil => exact h
  | cons j order ih =>
    have hs : FitsIn K f.shared := by
      obtain ⟨R, U, C, hs, _, _, hK⟩ := hk
      exact ⟨Nat.le_trans (Nat.le_add_right _ _) hK, hs.four, fun c hc => (hs.instr c hc).1⟩
    have := ih (kept_step hk j) (endsAll_step hs h j)
    show EndsAll K ((f.step j).after order) i _
    rw [List.count_cons]
    by_cases hj : j = i
    · subst hj
      simp only [if_pos, BEq.rfl] at this ⊢
      rwa [show r - (order.count j + 1) = r - 1 - order.count j by omega]
    · rw [if_neg hj] at this
      simpa [hj] using this

/-- C124. No thread can hold up another: a thread has made all its calls when it has had so many steps,
however many or few the other threads have had in between. -/
theorem c124_ends (calls : List (List Event)) (order : List Nat) (i : Nat) (l : List Event)
    (hl : calls[i]? = some l)
    (hn : l.length * (58 * (calls.map keyOns).sum + 138) ≤ order.count i) :
    ((Feeders.start calls).after order).threads[i]? = some (.done, []) := by
  have h0 : EndsAll (calls.map keyOns).sum (Feeders.start calls) i
      (l.length * (58 * (calls.map keyOns).sum + 138)) :=
    ⟨.done, l, 0, by simp [Feeders.start, hl], trivial, by omega⟩
  obtain ⟨p, l', n, hi, hp, hr⟩ := endsAll_after order (kept_start none calls) h0
  have hn0 : n = 0 := by omega
  have hl0 : l' = [] := by
    cases l' with
    | nil => rfl
    | cons e l' => rw [List.length_cons, Nat.succ_mul] at hr; omega
  subst hn0 hl0
  rw [hi]
  cases p with
  | done => rfl
  | read k => exact absurd hp.1 (by omega)
  | put c p => exact absurd hp.1 (by omega)
  | scan ch op d i k => obtain ⟨m, hm, _⟩ := hp; omega

/-- C124. All threads come to an end, in every order in which each of them gets enough steps. -/
theorem c124_all_end (calls : List (List Event)) (order : List Nat)
    (hn : ∀ i l, calls[i]? = some l →
      l.length * (58 * (calls.map keyOns).sum + 138) ≤ order.count i) :
    allOver ((Feeders.start calls).after order) = true := by
  refine List.all_eq_true.mpr fun x hx => ?_
  obtain ⟨i, hi⟩ := List.mem_iff_getElem?.mp hx
  have hlen := length_after (Feeders.start calls) order
  obtain ⟨hlt, _⟩ := List.getElem?_eq_some_iff.mp hi
  have hlt' : i < calls.length := by
    rw [hlen] at hlt
    simpa [Feeders.start] using hlt
  have hl : calls[i]? = some calls[i] := List.getElem?_eq_getElem hlt'
  have := c124_ends calls order i _ hl (hn i _ hl)
  rw [hi] at this
  cases this
  rfl

/-- The first thread is through although the second is stopped within its call. -/
example :
    let calls : List (List Event) := [[.wait 5, .write 8 0x79], [.write 8 0x7A]]
    let order := steps 1 40 ++ steps 0 600
    (2 * (58 * (calls.map keyOns).sum + 138) ≤ order.count 0) ∧
    between ((Feeders.start calls).after order) 1 = false ∧
    ((fedBy calls order).keyPressesOf 1).length = 1 := by
  decide +kernel

end VgmX
