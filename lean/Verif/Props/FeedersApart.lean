import Verif.Props.Feeders
import Verif.Lemmas.Apply
/-
C124: threads that write different registers, and no key events, need no lock.
-/

namespace VgmX
open Spec

/-! ### What a change is about -/

/-- The register that a change belongs to (none: the clock), if it is not one of a key event. -/
def Store.subj : Store → Option Nat
  | .channel ch (.fb _) => some (0x20 + ch)
  | .channel ch (.connection _) => some (0x20 + ch)
  | .channel ch (.ams _) => some (0x38 + ch)
  | .channel ch (.pms _) => some (0x38 + ch)
  | .channel _ (.noise _) => some 0x0F
  | .channel _ (.noiseFreq _) => some 0x0F
  | .noteConfig ch (.right _) => some (0x20 + ch)
  | .noteConfig ch (.left _) => some (0x20 + ch)
  | .noteConfig ch (.octave _) => some (0x28 + ch)
  | .noteConfig ch (.note _) => some (0x28 + ch)
  | .noteConfig ch (.keyFraction _) => some (0x30 + ch)
  | .base (.lfo _) => some 0x18
  | .base (.phsMd _) => some 0x19
  | .base (.ampMd _) => some 0x19
  | .base (.waveform _) => some 0x1B
  | .operator ch k (.firstDetune _) => some (0x40 + 8 * k + ch)
  | .operator ch k (.multiply _) => some (0x40 + 8 * k + ch)
  | .operator ch k (.totalLevel _) => some (0x60 + 8 * k + ch)
  | .operator ch k (.keyScale _) => some (0x80 + 8 * k + ch)
  | .operator ch k (.attackRate _) => some (0x80 + 8 * k + ch)
  | .operator ch k (.ase _) => some (0xA0 + 8 * k + ch)
  | .operator ch k (.firstDecayRate _) => some (0xA0 + 8 * k + ch)
  | .operator ch k (.secondDetune _) => some (0xC0 + 8 * k + ch)
  | .operator ch k (.secondDecayRate _) => some (0xC0 + 8 * k + ch)
  | .operator ch k (.firstDecayLevel _) => some (0xE0 + 8 * k + ch)
  | .operator ch k (.releaseRate _) => some (0xE0 + 8 * k + ch)
  | _ => none

/-- Not a change that only key events make. -/
def Store.plain : Store → Bool
  | .append _ => false
  | .freshBase => false
  | .firstBeat _ => false
  | .press _ _ => false
  | .tick _ => false
  | _ => true

theorem forall_ite {P : Store → Prop} {c : Prop} [Decidable c] {a b : List Store}
    (ha : c → ∀ x ∈ a, P x) (hb : ¬ c → ∀ x ∈ b, P x) : ∀ x ∈ (if c then a else b), P x := by
  by_cases h : c
  · rw [if_pos h]; exact ha h
  · rw [if_neg h]; exact hb h

theorem stores_subj (s : State) (r v : Nat) (hr : r < 256) (h8 : r ≠ 8) :
    ∀ x ∈ s.stores r v, x.subj = some r ∧ x.plain = true := by
  obtain ⟨e1, e2, e3, e4⟩ := low_facts r hr
  unfold State.stores
  rw [if_neg h8]
  simp only [e1, e2, e3, e4]
  repeat' (refine forall_ite (fun _ => ?_) (fun _ => ?_))
  all_goals
    intro x hx
    simp only [List.mem_cons, List.not_mem_nil, or_false] at hx
  all_goals first
    | exact absurd hx id
    | (rcases hx with rfl | rfl | rfl | rfl <;> refine ⟨?_, rfl⟩ <;>
        simp only [Store.subj, Option.some.injEq] <;> omega)
    | (rcases hx with rfl | rfl <;> refine ⟨?_, rfl⟩ <;>
        simp only [Store.subj, Option.some.injEq] <;> omega)
    | (rcases hx with rfl <;> refine ⟨?_, rfl⟩ <;>
        simp only [Store.subj, Option.some.injEq] <;> omega)

theorem plain_comm (x y : Store) (hx : x.plain = true) (hy : y.plain = true) (h : x.subj ≠ y.subj)
    (s : State) : y.put (x.put s) = x.put (y.put s) := by
  cases x with
  | append _ => cases hx
  | freshBase => cases hx
  | firstBeat _ => cases hx
  | press _ _ => cases hx
  | tick _ => cases hx
  | samples n =>
    cases y with
    | samples m => exact absurd rfl h
    | _ => first | rfl | cases hy
  | base a =>
    cases y with
    | base b => cases a <;> cases b <;> first | rfl | exact absurd rfl h
    | _ => first | rfl | cases hy
  | noteConfig c a =>
    cases y with
    | noteConfig d b =>
      simp only [Store.put]
      congr 1
      refine modify_comm _ _ _ _ _ ?_
      by_cases hcd : c = d
      · subst hcd
        refine .inr fun n => ?_
        cases a <;> cases b <;> first | rfl | exact absurd rfl h
      · exact .inl hcd
    | _ => first | rfl | cases hy
  | channel c a =>
    cases y with
    | channel d b =>
      simp only [Store.put]
      congr 1
      refine modify_comm _ _ _ _ _ ?_
      by_cases hcd : c = d
      · subst hcd
        refine .inr fun n => ?_
        cases a <;> cases b <;> first | rfl | exact absurd rfl h
      · exact .inl hcd
    | operator d k b =>
      simp only [Store.put]
      congr 1
      refine modify_comm _ _ _ _ _ (.inr fun n => ?_)
      cases a <;> rfl
    | _ => first | rfl | cases hy
  | operator c k a =>
    cases y with
    | operator d j b =>
      simp only [Store.put]
      congr 1
      refine modify_comm _ _ _ _ _ ?_
      by_cases hcd : c = d
      · subst hcd
        refine .inr fun n => ?_
        congr 1
        refine modify_comm _ _ _ _ _ ?_
        by_cases hkj : k = j
        · subst hkj
          refine .inr fun o => ?_
          cases a <;> cases b <;> first | rfl | exact absurd rfl h
        · exact .inl hkj
      · exact .inl hcd
    | channel d b =>
      simp only [Store.put]
      congr 1
      refine modify_comm _ _ _ _ _ (.inr fun n => ?_)
      cases b <;> rfl
    | _ => first | rfl | cases hy

/-! ### Changes of different threads, put in order -/

theorem foldl_past (x : Store) (l : List Store) (h : ∀ y ∈ l, ∀ s, y.put (x.put s) = x.put (y.put s))
    (s : State) : l.foldl Store.put (x.put s) = x.put (l.foldl Store.put s) := by
  induction l generalizing s with
  | nil => rfl
  | cons y l ih =>
    rw [List.foldl_cons, List.foldl_cons, h y List.mem_cons_self,
      ih fun z hz => h z (List.mem_cons_of_mem _ hz)]

/-- The changes that thread `i` has made. -/
def madeBy (T : List (Nat × Store)) (i : Nat) : List Store :=
  (T.filter fun x => x.1 == i).map Prod.snd

theorem foldl_split (T : List (Nat × Store)) (n : Nat)
    (h : ∀ x ∈ T, ∀ y ∈ T, x.1 ≠ y.1 → ∀ s, y.2.put (x.2.put s) = x.2.put (y.2.put s)) (s : State) :
    (T.map Prod.snd).foldl Store.put s
      = (madeBy T n).foldl Store.put
          (((T.filter fun x => !(x.1 == n)).map Prod.snd).foldl Store.put s) := by
  induction T generalizing s with
  | nil => rfl
  | cons x T ih =>
    have ih' := fun s => ih (fun a ha b hb => h a (List.mem_cons_of_mem _ ha) b
      (List.mem_cons_of_mem _ hb)) s
    rw [List.map_cons, List.foldl_cons, ih']
    by_cases hx : x.1 = n
    · have hm : madeBy (x :: T) n = x.2 :: madeBy T n := by simp [madeBy, hx]
      rw [hm, List.foldl_cons, List.filter_cons_of_neg (by simp [hx]), ← foldl_past]
      intro y hy s
      obtain ⟨z, hz, rfl⟩ := List.mem_map.mp hy
      obtain ⟨hz1, hz2⟩ := List.mem_filter.mp hz
      exact h x List.mem_cons_self z (List.mem_cons_of_mem _ hz1)
        (by simp at hz2; omega) s
    · have hm : madeBy (x :: T) n = madeBy T n := by simp [madeBy, hx]
      rw [hm, List.filter_cons_of_pos (by simp [hx]), List.map_cons, List.foldl_cons]

theorem foldl_sorted (n : Nat) (T : List (Nat × Store)) (hn : ∀ x ∈ T, x.1 < n)
    (h : ∀ x ∈ T, ∀ y ∈ T, x.1 ≠ y.1 → ∀ s, y.2.put (x.2.put s) = x.2.put (y.2.put s)) (s : State) :
    (T.map Prod.snd).foldl Store.put s
      = ((List.range n).flatMap (madeBy T)).foldl Store.put s := by
  induction n generalizing T with
  | zero =>
    cases T with
    | nil => rfl
    | cons x T => exact absurd (hn x List.mem_cons_self) (by omega)
  | succ n ih =>
    have hsub : ∀ x ∈ T.filter (fun x => !(x.1 == n)), x ∈ T ∧ x.1 ≠ n := fun x hx => by
      have := List.mem_filter.mp hx
      simpa using this
    rw [foldl_split T n h, ih (T.filter fun x => !(x.1 == n)), List.range_succ, List.flatMap_append,
      List.foldl_append]
    · congr 1
      · congr 1
        refine List.flatMap_congr fun i hi => ?_
        have hin : i < n := List.mem_range.mp hi
        unfold madeBy
        rw [List.filter_filter]
        congr 1
        refine List.filter_congr fun x _ => ?_
        by_cases hx : x.1 = i
        · have : x.1 ≠ n := by omega
          simp [hx]; omega
        · simp [hx]
      · simp
    · intro x hx
      have := hn x (hsub x hx).1
      have := (hsub x hx).2
      omega
    · intro x hx y hy
      exact h x (hsub x hx).1 y (hsub y hy).1

/-! ### The changes of a list of calls -/

/-- The changes that the calls make, the clock being at `t`. -/
def sto : Nat → List Event → List Store
  | _, [] => []
  | t, .write r v :: l => State.init.stores r v ++ sto t l
  | t, .wait n :: l => .samples (t + n) :: sto (t + n) l

theorem sto_still (t u : Nat) (l : List Event) (h : ∀ n, Event.wait n ∉ l) : sto t l = sto u l := by
  induction l with
  | nil => rfl
  | cons e l ih =>
    cases e with
    | wait n => exact absurd List.mem_cons_self (h n)
    | write r v =>
      show _ ++ _ = _ ++ _
      rw [ih fun n hn => h n (List.mem_cons_of_mem _ hn)]

theorem stores_any (s : State) (r v : Nat) (h8 : r ≠ 8) : s.stores r v = State.init.stores r v := by
  unfold State.stores
  rw [if_neg h8, if_neg h8]

theorem plain_samples (x : Store) (hx : x.plain = true) (hs : x.subj ≠ none) (s : State) :
    (x.put s).samples = s.samples := by
  cases x with
  | samples n => exact absurd rfl hs
  | append _ => cases hx
  | freshBase => cases hx
  | firstBeat _ => cases hx
  | press _ _ => cases hx
  | tick _ => cases hx
  | _ => rfl

theorem foldl_still (l : List Store) (h : ∀ x ∈ l, x.plain = true ∧ x.subj ≠ none) (s : State) :
    (l.foldl Store.put s).samples = s.samples := by
  induction l generalizing s with
  | nil => rfl
  | cons x l ih =>
    rw [List.foldl_cons, ih fun y hy => h y (List.mem_cons_of_mem _ hy)]
    exact plain_samples x (h x List.mem_cons_self).1 (h x List.mem_cons_self).2 s

theorem run_sto (l : List Event) (h : ∀ r v, Event.write r v ∈ l → r < 256 ∧ r ≠ 8) (s : State) :
    l.foldl State.step s = (sto s.samples l).foldl Store.put s := by
  induction l generalizing s with
  | nil => rfl
  | cons e l ih =>
    have h' := fun r v hv => h r v (List.mem_cons_of_mem _ hv)
    rw [List.foldl_cons, ih h']
    cases e with
    | wait n => rfl
    | write r v =>
      obtain ⟨hr, h8⟩ := h r v List.mem_cons_self
      show (sto (s.apply r v).samples l).foldl Store.put (s.apply r v) = _
      rw [sto, List.foldl_append, ← stores_put, stores_any s r v h8, foldl_still]
      intro x hx
      obtain ⟨a, b⟩ := stores_subj _ r v hr h8 x hx
      exact ⟨b, by rw [a]; exact Option.some_ne_none _⟩

theorem step_samples (l : List Event) (h : ∀ r v, Event.write r v ∈ l → r < 256 ∧ r ≠ 8)
    (hw : ∀ n, Event.wait n ∉ l) (s : State) : (l.foldl State.step s).samples = s.samples := by
  induction l generalizing s with
  | nil => rfl
  | cons e l ih =>
    rw [List.foldl_cons, ih (fun r v hv => h r v (List.mem_cons_of_mem _ hv))
      (fun n hn => hw n (List.mem_cons_of_mem _ hn))]
    cases e with
    | wait n => exact absurd List.mem_cons_self (hw n)
    | write r v =>
      obtain ⟨hr, h8⟩ := h r v List.mem_cons_self
      show (s.apply r v).samples = _
      rw [← stores_put, foldl_still]
      intro x hx
      obtain ⟨a, b⟩ := stores_subj _ r v hr h8 x hx
      exact ⟨b, by rw [a]; exact Option.some_ne_none _⟩

theorem flatten_sto (calls : List (List Event))
    (h : ∀ l ∈ calls, ∀ r v, Event.write r v ∈ l → r < 256 ∧ r ≠ 8)
    (hp : calls.Pairwise fun l m => ∀ n k, Event.wait n ∈ l → Event.wait k ∉ m) (s : State)
    (hs : (∃ l ∈ calls, ∃ n, Event.wait n ∈ l) → s.samples = 0) :
    calls.flatten.foldl State.step s = (calls.flatMap (sto 0)).foldl Store.put s := by
  induction calls generalizing s with
  | nil => rfl
  | cons l calls ih =>
    obtain ⟨hp1, hp2⟩ := List.pairwise_cons.mp hp
    have hl := h l List.mem_cons_self
    have e : sto s.samples l = sto 0 l := by
      by_cases hw : ∃ n, Event.wait n ∈ l
      · rw [hs ⟨l, List.mem_cons_self, hw⟩]
      · exact sto_still _ _ _ fun n hn => hw ⟨n, hn⟩
    rw [List.flatten_cons, List.foldl_append, List.flatMap_cons, List.foldl_append,
      ih (fun m hm => h m (List.mem_cons_of_mem _ hm)) hp2, run_sto l hl, e]
    rintro ⟨m, hm, k, hk⟩
    rw [step_samples l hl fun n hn => hp1 m hm n k hn hk]
    exact hs ⟨m, List.mem_cons_of_mem _ hm, k, hk⟩

/-! ### What a thread still has to change -/

/-- In a state whose clock is at `c`, the rest of the call will make these changes. -/
inductive Pend (c : Nat) : Prog → List Store → Prop
  | regs (l : List Store) : Pend c (storesProg l) l
  | half (a : BaseAssign) (l : List Store) : Pend c (.put (.base 0 a) (storesProg l)) (.base a :: l)
  | look (n : Nat) : Pend c (callProg (.wait n)) [.samples (c + n)]
  | set (t : Nat) : Pend c (.put (.store (.samples t)) .done) [.samples t]

theorem Pend.done {c : Nat} {l : List Store} (h : Pend c .done l) : l = [] := by
  generalize hp : Prog.done = p at h
  cases h with
  | regs l =>
    cases l with
    | nil => rfl
    | cons x l => cases x <;> cases hp
  | half => cases hp
  | look => cases hp
  | set => cases hp

/-- The clock after the changes. -/
def clockAfter (c : Nat) : List Store → Nat
  | [] => c
  | .samples t :: l => clockAfter t l
  | _ :: l => clockAfter c l

theorem clockAfter_still (c : Nat) (l : List Store) (h : ∀ x ∈ l, x.subj ≠ none) :
    clockAfter c l = c := by
  induction l with
  | nil => rfl
  | cons x l ih =>
    have ih' := ih fun y hy => h y (List.mem_cons_of_mem _ hy)
    cases x with
    | samples n => exact absurd rfl (h _ List.mem_cons_self)
    | _ => exact ih'

theorem clockAfter_put (c : Nat) (x : Store) (l : List Store) (hx : x.plain = true) (s : State)
    (hs : s.samples = c) : clockAfter (x.put s).samples l = clockAfter c (x :: l) := by
  subst hs
  cases x with
  | append _ => cases hx
  | freshBase => cases hx
  | firstBeat _ => cases hx
  | press _ _ => cases hx
  | tick _ => cases hx
  | _ => rfl

/-- Change `x` is about something that one of the calls is about. -/
def About (all : List Event) (x : Store) : Prop :=
  x.plain = true ∧ ∃ e ∈ all, subject e = x.subj

/-- How far thread `i` is: the changes made, to be made by the current call, and by the other calls are
those of all its calls. -/
structure Along (c : Nat) (T : List (Nat × Store)) (i : Nat) (all : List Event) (p : Prog)
    (l : List Event) : Prop where
  rest : ∀ e ∈ l, e ∈ all
  ex : ∃ pend t, Pend c p pend ∧ (∀ x ∈ pend, About all x) ∧
    madeBy T i ++ (pend ++ sto t l) = sto 0 all ∧
    ((∃ n, Event.wait n ∈ all) → clockAfter c pend = t)

/-- What holds at any moment. -/
structure Split (calls : List (List Event)) (f : Feeders) (T : List (Nat × Store)) : Prop where
  view : f.shared.view = (T.map Prod.snd).foldl Store.put State.init
  cur : f.shared.cur = 0
  one : f.shared.bases.length = 1
  made : ∀ x ∈ T, ∃ all, calls[x.1]? = some all ∧ About all x.2
  along : ∀ i p l, f.threads[i]? = some (p, l) →
    ∃ all, calls[i]? = some all ∧ Along f.shared.st.samples T i all p l

theorem madeBy_snoc (T : List (Nat × Store)) (i j : Nat) (x : Store) :
    madeBy (T ++ [(i, x)]) j = madeBy T j ++ (if i = j then [x] else []) := by
  unfold madeBy
  rw [List.filter_append, List.map_append]
  by_cases h : i = j <;> simp [h]

theorem set_cases {α : Type} {l : List α} {i j : Nat} {a b : α} (h : (l.set i a)[j]? = some b) :
    (j = i ∧ b = a) ∨ (j ≠ i ∧ l[j]? = some b) := by
  rw [List.getElem?_set] at h
  by_cases hij : i = j
  · subst hij
    rw [if_pos rfl] at h
    split at h
    · cases h; exact .inl ⟨rfl, rfl⟩
    · cases h
  · rw [if_neg hij] at h
    exact .inr ⟨fun e => hij e.symm, h⟩

/-- A step that changes nothing. -/
theorem Split.quiet {calls : List (List Event)} {f : Feeders} {T : List (Nat × Store)}
    (h : Split calls f T) {i : Nat} {p' : Prog} {l' : List Event} {all : List Event}
    (hc : calls[i]? = some all) (ha : Along f.shared.st.samples T i all p' l') :
    Split calls ⟨f.shared, f.threads.set i (p', l')⟩ T := by
  refine ⟨h.view, h.cur, h.one, h.made, fun j p l hj => ?_⟩
  rcases set_cases hj with ⟨rfl, e⟩ | ⟨_, hj'⟩
  · cases e; exact ⟨all, hc, ha⟩
  · exact h.along j p l hj'

/-- A step that makes a change. -/
theorem Split.make {calls : List (List Event)} {f : Feeders} {T : List (Nat × Store)}
    (hd : DividedUp calls) (h : Split calls f T) {i : Nat} {x : Store} {c : Change} {p' : Prog}
    {l : List Event} {all : List Event} {pend : List Store} {t : Nat}
    (hc : calls[i]? = some all) (hv : (c.put f.shared).view = x.put f.shared.view)
    (hcur : (c.put f.shared).cur = f.shared.cur)
    (hone : (c.put f.shared).bases.length = f.shared.bases.length)
    (hp : ∀ c', Pend c' p' pend) (hab : ∀ y ∈ x :: pend, About all y) (hl : ∀ e ∈ l, e ∈ all)
    (he : madeBy T i ++ (x :: pend ++ sto t l) = sto 0 all)
    (hk : (∃ n, Event.wait n ∈ all) → clockAfter f.shared.st.samples (x :: pend) = t) :
    ∃ T', Split calls ⟨c.put f.shared, f.threads.set i (p', l)⟩ T' := by
  have hx := hab x List.mem_cons_self
  have hsam : (c.put f.shared).st.samples = (x.put f.shared.view).samples := by
    rw [← hv]; rfl
  refine ⟨T ++ [(i, x)], ?_, hcur.trans h.cur, hone.trans h.one, ?_, fun j q m hj => ?_⟩
  · rw [List.map_append, List.foldl_append, ← h.view]
    exact hv
  · intro y hy
    rcases List.mem_append.mp hy with hy | hy
    · exact h.made y hy
    · cases List.mem_singleton.mp hy
      exact ⟨all, hc, hx⟩
  · rcases set_cases hj with ⟨rfl, e⟩ | ⟨hji, hj'⟩
    · cases e
      refine ⟨all, hc, hl, pend, t, hp _, fun y hy => hab y (List.mem_cons_of_mem _ hy), ?_, ?_⟩
      · rw [madeBy_snoc, if_pos rfl, List.append_assoc]
        exact he
      · intro hw
        rw [← hk hw, hsam]
        exact clockAfter_put _ x pend hx.1 _ rfl
    · obtain ⟨all', hc', hrest, pend', t', h1, h2, h3, h4⟩ := h.along j q m hj'
      refine ⟨all', hc', hrest, pend', t', ?_, h2, ?_, ?_⟩
      · by_cases hn : x.subj = none
        · cases h1 with
          | regs => exact .regs _
          | half => exact .half _ _
          | set t => exact .set t
          | look n =>
            obtain ⟨_, e, hee, hs⟩ := h2 _ List.mem_cons_self
            obtain ⟨_, e', hee', hs'⟩ := hx
            exact absurd (hs'.trans (hn.trans hs.symm)) (hd.2 i j _ _ (Ne.symm hji) hc hc' e' hee' e hee)
        · rw [show (c.put f.shared).st.samples = f.shared.st.samples by
            rw [hsam, plain_samples x hx.1 hn]; rfl]
          exact h1
      · rw [madeBy_snoc, if_neg (Ne.symm hji), List.append_nil]
        exact h3
      · rintro ⟨n, hn⟩
        obtain ⟨_, e', hee', hs'⟩ := hx
        have hne : x.subj ≠ none := fun h0 =>
          absurd (hs'.trans h0) (hd.2 i j _ _ (Ne.symm hji) hc hc' e' hee' (.wait n) hn)
        rw [show (c.put f.shared).st.samples = f.shared.st.samples by
            rw [hsam, plain_samples x ‹_› hne]; rfl]
        exact h4 ⟨n, hn⟩

theorem about_stores {all : List Event} {r v : Nat} (h : Event.write r v ∈ all) (hr : r < 256)
    (h8 : r ≠ 8) : ∀ x ∈ State.init.stores r v, About all x := fun x hx => by
  obtain ⟨a, b⟩ := stores_subj _ r v hr h8 x hx
  exact ⟨b, _, h, a.symm⟩

theorem split_step {calls : List (List Event)} {f : Feeders} {T : List (Nat × Store)}
    (hd : DividedUp calls) (h : Split calls f T) (i : Nat) : ∃ T', Split calls (f.step i) T' := by
  unfold Feeders.step
  split
  · exact ⟨T, h⟩
  · exact ⟨T, h⟩
  · next e l hi =>
    obtain ⟨all, hc, hrest, pend, t, h1, h2, h3, h4⟩ := h.along i _ _ hi
    cases h1.done
    have hmem := hrest e List.mem_cons_self
    have hrest' : ∀ e ∈ l, e ∈ all := fun e' he' => hrest e' (List.mem_cons_of_mem _ he')
    refine ⟨T, h.quiet hc ⟨hrest', ?_⟩⟩
    cases e with
    | wait n =>
      have ht : f.shared.st.samples = t := h4 ⟨n, hmem⟩
      refine ⟨[.samples (f.shared.st.samples + n)], t + n, .look n, ?_, ?_, ?_⟩
      · intro x hx
        cases List.mem_singleton.mp hx
        exact ⟨rfl, _, hmem, rfl⟩
      · rw [← h3, ht]; rfl
      · intro _
        rw [ht]; rfl
    | write r v =>
      obtain ⟨hr, h8⟩ := hd.1 all (List.mem_of_getElem? hc) r v hmem
      have hab := about_stores hmem hr h8
      refine ⟨State.init.stores r v, t, ?_, hab, ?_, ?_⟩
      · show Pend _ (if r = 8 then keyProg v else storesProg (State.init.stores r v)) _
        rw [if_neg h8]
        exact .regs _
      · rw [← h3]; rfl
      · intro hw
        rw [← h4 hw, clockAfter_still]
        · rfl
        · intro x hx
          rw [(stores_subj _ r v hr h8 x hx).1]
          exact Option.some_ne_none _
  · next p l hnd0 hnd1 hi =>
    obtain ⟨all, hc, hrest, pend, t, h1, h2, h3, h4⟩ := h.along i _ _ hi
    cases h1 with
    | regs pend =>
      cases pend with
      | nil =>
        cases l with
        | nil => exact absurd rfl (hnd0 rfl)
        | cons e l => exact absurd rfl (hnd1 e l rfl)
      | cons x pend =>
        by_cases hb : ∃ a, x = .base a
        · obtain ⟨a, rfl⟩ := hb
          refine ⟨T, h.quiet hc ⟨hrest, .base a :: pend, t, ?_, h2, h3, h4⟩⟩
          show Pend _ (.put (.base f.shared.cur a) (storesProg pend)) _
          rw [h.cur]
          exact .half a pend
        · have hprog : storesProg (x :: pend) = .put (.store x) (storesProg pend) := by
            cases x with
            | base a => exact absurd ⟨a, rfl⟩ hb
            | _ => rfl
          have hview : (Change.put f.shared (.store x)).view = x.put f.shared.view := by
            cases x with
            | base a => exact absurd ⟨a, rfl⟩ hb
            | _ => rfl
          rw [hprog]
          exact h.make hd (c := .store x) hc hview rfl rfl (fun _ => .regs pend) h2 hrest h3 h4
    | half a pend =>
      refine h.make hd (c := .base 0 a) (x := .base a) hc ?_ rfl ?_ (fun _ => .regs pend) h2 hrest h3 h4
      · simp [Change.put, Shared.view, Store.put, h.cur, h.one]
      · simp [Change.put]
    | look n =>
      exact ⟨T, h.quiet hc ⟨hrest, [.samples (f.shared.st.samples + n)], t, .set _, h2, h3, h4⟩⟩
    | set u => exact h.make hd (c := .store (.samples u)) (x := .samples u) hc rfl rfl rfl (fun _ => .regs []) h2 hrest h3 h4

theorem split_start (calls : List (List Event)) : Split calls (Feeders.start calls) [] := by
  refine ⟨rfl, rfl, rfl, fun x hx => (by cases hx), fun i p l hi => ?_⟩
  have hi' : (calls.map fun l => (Prog.done, l))[i]? = some (p, l) := hi
  rw [List.getElem?_map] at hi'
  cases hc : calls[i]? with
  | none => rw [hc] at hi'; cases hi'
  | some m =>
    rw [hc] at hi'
    cases hi'
    exact ⟨_, rfl, fun e he => he, [], 0, .regs [], fun x hx => (by cases hx), rfl, fun _ => rfl⟩

theorem split_after {calls : List (List Event)} (hd : DividedUp calls) (order : List Nat) {f : Feeders}
    {T : List (Nat × Store)} (h : Split calls f T) : ∃ T', Split calls (f.after order) T' := by
  induction order generalizing f T with
  | nil => exact ⟨T, h⟩
  | cons i order ih =>
    obtain ⟨T', h'⟩ := split_step hd h i
    exact ih h'

/-- C124. Threads that write different registers, of which at most one waits, and that make no key
events, need no lock: in the end the state is that of one thread which makes all the calls. -/
theorem c124_apart (calls : List (List Event)) (hd : DividedUp calls) (order : List Nat)
    (hall : allOver ((Feeders.start calls).after order) = true) :
    fedBy calls order = run calls.flatten := by
  obtain ⟨T, h⟩ := split_after hd order (split_start calls)
  have hlen : ((Feeders.start calls).after order).threads.length = calls.length := by
    rw [length_after]; simp [Feeders.start]
  have hmade : ∀ i (hi : i < calls.length), madeBy T i = sto 0 calls[i] := fun i hi => by
    obtain ⟨⟨p, l⟩, ht⟩ : ∃ x, ((Feeders.start calls).after order).threads[i]? = some x :=
      ⟨_, List.getElem?_eq_getElem (by omega)⟩
    have := List.all_eq_true.mp hall _ (List.mem_of_getElem? ht)
    simp only [Bool.and_eq_true, List.isEmpty_iff] at this
    obtain ⟨hp, rfl⟩ := this
    cases callOver_eq hp
    obtain ⟨all, hc, _, pend, t, h1, _, h3, _⟩ := h.along i _ _ ht
    cases h1.done
    rw [List.getElem?_eq_getElem hi] at hc
    cases hc
    rw [← h3]
    simp [sto]
  have hcomm : ∀ x ∈ T, ∀ y ∈ T, x.1 ≠ y.1 → ∀ s, y.2.put (x.2.put s) = x.2.put (y.2.put s) := by
    intro x hx y hy hxy s
    obtain ⟨a, ha, px, e, he, hse⟩ := h.made x hx
    obtain ⟨b, hb, py, e', he', hse'⟩ := h.made y hy
    refine plain_comm _ _ px py ?_ s
    rw [← hse, ← hse']
    exact hd.2 _ _ _ _ hxy ha hb e he e' he'
  have hlt : ∀ x ∈ T, x.1 < calls.length := fun x hx => by
    obtain ⟨a, ha, _⟩ := h.made x hx
    exact (List.getElem?_eq_some_iff.mp ha).1
  show Shared.view _ = _
  rw [h.view, foldl_sorted calls.length T hlt hcomm]
  have : (List.range calls.length).flatMap (madeBy T) = calls.flatMap (sto 0) := by
    rw [List.flatMap, List.flatMap]
    congr 1
    apply List.ext_getElem
    · simp
    · intro i h1 h2
      simp only [List.getElem_map, List.getElem_range]
      exact hmade i (by simpa using h1)
  rw [this]
  refine (flatten_sto calls hd.1 ?_ State.init fun _ => rfl).symm
  refine List.pairwise_iff_getElem.mpr fun i j hi hj hij n k hn hk => ?_
  exact hd.2 i j _ _ (by omega) (List.getElem?_eq_getElem hi) (List.getElem?_eq_getElem hj) _ hn _ hk rfl

/-- Two threads that keep out of each other's way. -/
example : DividedUp [[.write 0x20 0xC1, .wait 5, .write 0x18 9], [.write 0x28 0x3A, .write 0x1B 2]] := by
  refine ⟨?_, fun i j l m hij hi hj => ?_⟩
  · simp only [List.mem_cons, List.not_mem_nil, or_false, forall_eq_or_imp, forall_eq, Event.write.injEq,
      reduceCtorEq, false_or]
    exact ⟨fun r v h => by omega, fun r v h => by omega⟩
  match i, j with
  | 0, 0 => exact absurd rfl hij
  | 1, 1 => exact absurd rfl hij
  | 0, 1 => cases hi; cases hj; decide
  | 1, 0 => cases hi; cases hj; decide
  | 0, j + 2 => cases hj
  | 1, j + 2 => cases hj
  | i + 2, _ => cases hi

/-- The same, interleaved step by step. -/
example :
    let calls : List (List Event) :=
      [[.write 0x20 0xC1, .wait 5, .write 0x18 9], [.write 0x28 0x3A, .write 0x1B 2]]
    let order := (List.replicate 12 [0, 1]).flatten
    allOver ((Feeders.start calls).after order) = true ∧
    fedBy calls order = run calls.flatten ∧ (fedBy calls order).base.lfo = 9 := by
  decide +kernel

end VgmX
