import Verif.Spec.SharedReader
import Verif.Props.Reader
/-
Threads that share one reader.
-/

namespace VgmX
open Spec

/-- A call that nothing interrupts: what it gives and the file after it. -/
def NextCall.alone : NextCall → Stream → Option (Except PyErr Cmd) × Stream
  | .back r, s => (r, s)
  | .read n k, s => (k (s.read n).1).alone (s.read n).2

theorem plainReads_alone (id n : Nat) (s : Stream) :
    (plainReads id n).alone s = (some (plainRead id s n).1, (plainRead id s n).2) := rfl

theorem alone_ite {s : Stream} {c : Prop} [Decidable c] {a b : NextCall}
    {x y : Except PyErr Cmd × Stream} (h : c → a.alone s = (some x.1, x.2))
    (h' : ¬ c → b.alone s = (some y.1, y.2)) :
    (if c then a else b).alone s =
      (some (if c then x else y).1, (if c then x else y).2) := by
  by_cases hc : c
  · rw [if_pos hc, if_pos hc]; exact h hc
  · rw [if_neg hc, if_neg hc]; exact h' hc

theorem commandReads_alone (id : Nat) (s : Stream) :
    (commandReads id).alone s = (some (command id s).1, (command id s).2) := by
  unfold commandReads command
  refine alone_ite (fun _ => rfl) fun _ => ?_
  refine alone_ite (fun _ => rfl) fun _ => ?_
  refine alone_ite (fun _ => rfl) fun _ => ?_
  refine alone_ite (fun _ => rfl) fun _ => ?_
  refine alone_ite (fun _ => rfl) fun _ => ?_
  refine alone_ite (fun _ => ?_) fun _ => ?_
  · simp only [NextCall.alone, read8]
    by_cases h1 : (s.read 1).1.length ≠ 1
    · simp only [if_pos h1, NextCall.alone]
    · simp only [if_neg h1, NextCall.alone]
      by_cases h2 : ((s.read 1).2.read 1).1.length ≠ 1
      · simp only [if_pos h2, NextCall.alone]
      · simp only [if_neg h2, NextCall.alone]
  refine alone_ite (fun _ => rfl) fun _ => ?_
  refine alone_ite (fun _ => ?_) fun _ => ?_
  · simp only [NextCall.alone, read16]
    by_cases h1 : (s.read 2).1.length ≠ 2
    · simp only [if_pos h1, NextCall.alone]
    · simp only [if_neg h1, NextCall.alone]
  refine alone_ite (fun _ => rfl) fun _ => ?_
  refine alone_ite (fun _ => rfl) fun _ => ?_
  refine alone_ite (fun _ => rfl) fun _ => ?_
  refine alone_ite (fun _ => ?_) fun _ => ?_
  · simp only [NextCall.alone]
    by_cases h1 : (s.read 6).1.length ≠ 6
    · simp only [if_pos h1, NextCall.alone]
    · simp only [if_neg h1, plainReads_alone]
  refine alone_ite (fun _ => ?_) fun _ => ?_
  · simp only [NextCall.alone]
    by_cases h1 : (s.read 11).1.length ≠ 11
    · simp only [if_pos h1, NextCall.alone]
    · simp only [if_neg h1, plainReads_alone]
  refine alone_ite (fun _ => rfl) fun _ => ?_
  refine alone_ite (fun _ => rfl) fun _ => ?_
  refine alone_ite (fun _ => rfl) fun _ => ?_
  refine alone_ite (fun _ => rfl) fun _ => ?_
  refine alone_ite (fun _ => rfl) fun _ => ?_
  refine alone_ite (fun _ => rfl) fun _ => ?_
  refine alone_ite (fun _ => rfl) fun _ => ?_
  refine alone_ite (fun _ => rfl) fun _ => ?_
  rfl

theorem nextReads_alone (s : Stream) : nextReads.alone s = next s := by
  unfold nextReads next
  simp only [NextCall.alone]
  cases h : (s.read 1).1 with
  | nil => simp [nextGoes, NextCall.alone]
  | cons b bs => simp [nextGoes, commandReads_alone]

/-- A call that returns after at most so many further reads, with a command or an exception. -/
def NextCall.Tame : Nat → NextCall → Prop
  | _, .back r => r ≠ none
  | 0, .read _ _ => False
  | k + 1, .read _ f => ∀ b, (f b).Tame k

theorem shr_tame_ite {k : Nat} {c : Prop} [Decidable c] {a b : NextCall} (h : c → a.Tame k)
    (h' : ¬ c → b.Tame k) : (if c then a else b).Tame k := by
  by_cases hc : c
  · rw [if_pos hc]; exact h hc
  · rw [if_neg hc]; exact h' hc

theorem shr_tame_back {k : Nat} {r : Except PyErr Cmd} : (NextCall.back (some r)).Tame k := by
  unfold NextCall.Tame; simp

theorem shr_tame_plain {k id n : Nat} : (plainReads id n).Tame (k + 1) := fun _ => shr_tame_back

theorem commandReads_tame (id : Nat) : (commandReads id).Tame 2 := by
  unfold commandReads
  refine shr_tame_ite (fun _ => shr_tame_back) fun _ => ?_
  iterate 4 refine shr_tame_ite (fun _ => shr_tame_plain) fun _ => ?_
  refine shr_tame_ite (fun _ b => shr_tame_ite (fun _ => shr_tame_back) fun _ b' =>
    shr_tame_ite (fun _ => shr_tame_back) fun _ => shr_tame_back) fun _ => ?_
  refine shr_tame_ite (fun _ => shr_tame_plain) fun _ => ?_
  refine shr_tame_ite (fun _ b => shr_tame_ite (fun _ => shr_tame_back) fun _ => shr_tame_back) fun _ => ?_
  iterate 3 refine shr_tame_ite (fun _ => shr_tame_back) fun _ => ?_
  iterate 2 refine shr_tame_ite (fun _ b => shr_tame_ite (fun _ => shr_tame_back) fun _ => shr_tame_plain) fun _ => ?_
  refine shr_tame_ite (fun _ => shr_tame_back) fun _ => ?_
  iterate 7 refine shr_tame_ite (fun _ => shr_tame_plain) fun _ => ?_
  exact shr_tame_plain

theorem shr_read_data (s : Stream) (n : Nat) : (s.read n).2.data = s.data := rfl

theorem shr_read_pos (s : Stream) (n : Nat) : (s.read n).2.pos = s.pos + (s.read n).1.length := rfl

theorem shr_read_bytes (s : Stream) (n : Nat) : (s.read n).1 = (s.data.drop s.pos).take n := rfl

theorem shr_read_full_or_end (s : Stream) (n : Nat) :
    (s.read n).1.length = n ∨ atEnd (s.read n).2 := by
  unfold atEnd
  rw [shr_read_pos, shr_read_data, shr_read_bytes]
  rw [List.length_take, List.length_drop]
  omega

theorem shr_read_atEnd {s : Stream} (h : atEnd s) (n : Nat) : s.read n = ([], s) := by
  have : s.data.drop s.pos = [] := List.drop_eq_nil_of_le h
  unfold Stream.read
  simp [this]

/-- The bytes `g`, read so far by a call, explain where it is (the file being at `f`). -/
def Explains (g : Bytes) (f : Stream) (p : NextCall) : Prop :=
  (∀ e, nextReads.alone ⟨g ++ e, 0⟩ = p.alone ⟨g ++ e, g.length⟩) ∨
    (atEnd f ∧ nextReads.alone ⟨g, 0⟩ = p.alone ⟨g, g.length⟩)

theorem atEnd_read {s : Stream} (h : atEnd s) (n : Nat) : atEnd (s.read n).2 := by
  rw [shr_read_atEnd h]; exact h

theorem Explains.other {g : Bytes} {f : Stream} {p : NextCall} (h : Explains g f p) (n : Nat) :
    Explains g (f.read n).2 p := h.imp id fun h => ⟨atEnd_read h.1 n, h.2⟩

theorem Explains.read {g : Bytes} {f : Stream} {n : Nat} {k : Bytes → NextCall}
    (h : Explains g f (.read n k)) :
    Explains (g ++ (f.read n).1) (f.read n).2 (k (f.read n).1) := by
  have key (b e : Bytes) (hb : b.length = n ∨ (e = [] ∧ b.length ≤ n)) :
      (NextCall.read n k).alone ⟨g ++ (b ++ e), g.length⟩ =
        (k b).alone ⟨g ++ (b ++ e), (g ++ b).length⟩ := by
    have e1 : ((Stream.mk (g ++ (b ++ e)) g.length).read n).1 = b := by
      rw [shr_read_bytes]
      simp only [List.drop_left]
      rcases hb with hb | ⟨rfl, hb⟩
      · rw [← hb, List.take_left]
      · rw [List.append_nil, List.take_of_length_le hb]
    have e2 : ((Stream.mk (g ++ (b ++ e)) g.length).read n).2 =
        ⟨g ++ (b ++ e), (g ++ b).length⟩ := by
      have h1 := shr_read_data ⟨g ++ (b ++ e), g.length⟩ n
      have h2 := shr_read_pos ⟨g ++ (b ++ e), g.length⟩ n
      rw [e1] at h2
      cases hs : ((Stream.mk (g ++ (b ++ e)) g.length).read n).2 with
      | mk d q =>
        rw [hs] at h1 h2
        simp only at h1 h2
        rw [h1, h2, List.length_append]
    show (k _).alone _ = _
    rw [e1, e2]
  rcases h with h | ⟨he, h⟩
  · rcases shr_read_full_or_end f n with hf | hf
    · left; intro e
      rw [List.append_assoc, h, key _ _ (.inl hf)]
    · right
      refine ⟨hf, ?_⟩
      have h1 := h (f.read n).1
      rw [h1]
      have h2 := key (f.read n).1 [] (.inr ⟨rfl, by rw [shr_read_bytes]; simp; omega⟩)
      simpa using h2
  · right
    rw [shr_read_atEnd he]
    refine ⟨he, ?_⟩
    have h2 := key [] [] (.inr ⟨rfl, by simp⟩)
    simp only [List.append_nil] at h2 ⊢
    rw [h]
    exact h2

/-- What is known of thread `i` when the threads are at `w`. -/
structure Sharer.Inv (w : Sharers) (i : Nat) (t : Sharer) : Prop where
  numbers : ∀ x ∈ w.reads, x.1 = i → x.2.1 < t.done.length ∨
    (x.2.1 = t.done.length ∧ t.call ≠ none)
  results : ∀ c r, t.done[c]? = some r →
    next ⟨readBy w i c, 0⟩ = (r, ⟨readBy w i c, (readBy w i c).length⟩)
  call : ∀ p, t.call = some p → Explains (readBy w i t.done.length) w.file p
  shape : ∀ p, t.call = some p → (p = .back none ∧ atEnd w.file) ∨ p.Tame 2
  stop : none ∈ t.done → atEnd w.file

/-- What is known when the threads are at `w`. -/
structure Sharers.Inv (f : Stream) (w : Sharers) : Prop where
  data : w.file.data = f.data
  le : f.pos ≤ w.file.pos
  bytes : allRead w = (f.data.drop f.pos).take (w.file.pos - f.pos)
  threads : ∀ (i : Nat) (t : Sharer), w.threads[i]? = some t → t.Inv w i

theorem readBy_append (f : Stream) (ts : List Sharer) (rs : List (Nat × Nat × Bytes))
    (x : Nat × Nat × Bytes) (i c : Nat) :
    readBy ⟨f, ts, rs ++ [x]⟩ i c =
      readBy ⟨f, ts, rs⟩ i c ++ (if x.1 = i ∧ x.2.1 = c then x.2.2 else []) := by
  unfold readBy
  simp only [List.filter_append, List.map_append, List.flatten_append]
  congr 1
  by_cases h : x.1 = i ∧ x.2.1 = c
  · have : (x.1 == i && x.2.1 == c) = true := by simp [h]
    rw [if_pos h, List.filter_cons_of_pos (by simpa using this)]
    simp
  · rw [if_neg h, List.filter_cons_of_neg (by simpa using h)]
    simp

theorem readBy_congr {w w' : Sharers} (h : w'.reads = w.reads) (i c : Nat) :
    readBy w' i c = readBy w i c := by unfold readBy; rw [h]

theorem readBy_none {w : Sharers} {i c : Nat}
    (h : ∀ x ∈ w.reads, x.1 = i → x.2.1 ≠ c) : readBy w i c = [] := by
  unfold readBy
  rw [List.filter_eq_nil_iff.2]
  · rfl
  · intro x hx hc
    simp only [Bool.and_eq_true, beq_iff_eq] at hc
    exact h x hx hc.1 hc.2

theorem nextGoes_shape (f : Stream) :
    (nextGoes (f.read 1).1 = .back none ∧ atEnd (f.read 1).2) ∨ (nextGoes (f.read 1).1).Tame 2 := by
  cases h : (f.read 1).1 with
  | nil =>
    left
    refine ⟨rfl, ?_⟩
    rcases shr_read_full_or_end f 1 with h1 | h1
    · rw [h] at h1; simp at h1
    · exact h1
  | cons b bs => right; exact commandReads_tame _

theorem NextCall.Tame.le {k m : Nat} {p : NextCall} (h : p.Tame k) (hk : k ≤ m) : p.Tame m := by
  induction k generalizing p m with
  | zero =>
    cases p with
    | back r => unfold NextCall.Tame at *; exact h
    | read n f => exact h.elim
  | succ k ih =>
    cases p with
    | back r => unfold NextCall.Tame at *; exact h
    | read n f =>
      obtain ⟨m, rfl⟩ : ∃ m', m = m' + 1 := ⟨m - 1, by omega⟩
      exact fun b => ih (h b) (by omega)

theorem shr_take_add_read (f g : Stream) (n : Nat) (h : g.data = f.data) (hp : f.pos ≤ g.pos) :
    (f.data.drop f.pos).take (g.pos - f.pos) ++ (g.read n).1 =
      (f.data.drop f.pos).take ((g.read n).2.pos - f.pos) := by
  rw [shr_read_pos, shr_read_bytes, h]
  have h1 : f.data.drop g.pos = (f.data.drop f.pos).drop (g.pos - f.pos) := by
    rw [List.drop_drop]; congr 1; omega
  rw [h1]
  generalize f.data.drop f.pos = l
  have h2 : g.pos + (((l.drop (g.pos - f.pos)).take n)).length - f.pos =
      (g.pos - f.pos) + min n (l.length - (g.pos - f.pos)) := by
    simp only [List.length_take, List.length_drop]; omega
  rw [h2, List.take_add]
  congr 1
  rw [List.take_eq_take_iff]
  simp

theorem Sharers.step_none {w : Sharers} {i : Nat} (h : w.threads[i]? = none) : w.step i = w := by
  unfold Sharers.step; rw [h]

theorem Sharers.step_read {w : Sharers} {i n : Nat} {t : Sharer} {k : Bytes → NextCall}
    (h : w.threads[i]? = some t) (hp : t.call.getD nextReads = .read n k) :
    w.step i =
      { file := (w.file.read n).2
        threads := w.threads.set i { t with call := some (k (w.file.read n).1) }
        reads := w.reads ++ [(i, t.done.length, (w.file.read n).1)] } := by
  unfold Sharers.step; rw [h]; simp only; rw [hp]

theorem Sharers.step_back {w : Sharers} {i : Nat} {t : Sharer} {r : Option (Except PyErr Cmd)}
    (h : w.threads[i]? = some t) (hp : t.call.getD nextReads = .back r) :
    w.step i = { w with threads := w.threads.set i ⟨none, t.done ++ [r]⟩ } := by
  unfold Sharers.step; rw [h]; simp only; rw [hp]

theorem Sharers.Inv.step {f : Stream} {w : Sharers} (h : w.Inv f) (i : Nat) :
    (w.step i).Inv f := by
  cases hi : w.threads[i]? with
  | none => rw [Sharers.step_none hi]; exact h
  | some t =>
    have ht := h.threads i t hi
    have hlt : i < w.threads.length := (List.getElem?_eq_some_iff.1 hi).1
    cases hp : t.call.getD nextReads with
    | back r =>
      rw [Sharers.step_back hi hp]
      have hc : t.call = some (.back r) := by
        cases hq : t.call with
        | none => rw [hq] at hp; exact absurd hp (by simp [nextReads])
        | some p => rw [hq] at hp; exact congrArg some hp
      refine ⟨h.data, h.le, h.bytes, ?_⟩
      intro j u hu
      simp only [List.getElem?_set] at hu
      by_cases hij : i = j
      · subst hij
        rw [if_pos rfl, if_pos hlt] at hu
        cases hu
        refine ⟨?_, ?_, by simp, by simp, ?_⟩
        · intro x hx hxi
          rcases ht.numbers x hx hxi with h1 | ⟨h1, _⟩
          · left; simp; omega
          · left; simp; omega
        · intro c q hq
          simp only at hq
          show next ⟨readBy w i c, 0⟩ = (q, ⟨readBy w i c, (readBy w i c).length⟩)
          by_cases hcl : c < t.done.length
          · rw [List.getElem?_append_left hcl] at hq
            exact ht.results c q hq
          · have : c = t.done.length := by
              have := (List.getElem?_eq_some_iff.1 hq).1
              simp at this; omega
            subst this
            simp only [List.getElem?_append_right, Nat.le_refl, Nat.sub_self,
              List.getElem?_cons_zero, Option.some.injEq] at hq
            subst hq
            have h1 : nextReads.alone ⟨readBy w i t.done.length, 0⟩ =
                (NextCall.back r).alone ⟨readBy w i t.done.length,
                  (readBy w i t.done.length).length⟩ := by
              rcases ht.call _ hc with h1 | ⟨_, h1⟩
              · simpa using h1 []
              · exact h1
            rw [nextReads_alone] at h1
            exact h1
        · intro hn
          simp only [List.mem_append, List.mem_singleton] at hn
          rcases hn with hn | hn
          · exact ht.stop hn
          · subst hn
            rcases ht.shape _ hc with ⟨_, h1⟩ | h1
            · exact h1
            · exact absurd rfl h1
      · rw [if_neg hij] at hu
        have hu' := h.threads j u hu
        exact ⟨hu'.numbers, hu'.results, hu'.call, hu'.shape, hu'.stop⟩
    | read n k =>
      rw [Sharers.step_read hi hp]
      refine ⟨h.data, ?_, ?_, ?_⟩
      · show f.pos ≤ (w.file.read n).2.pos
        rw [shr_read_pos]; have := h.le; omega
      · show allRead _ = (f.data.drop f.pos).take ((w.file.read n).2.pos - f.pos)
        rw [← shr_take_add_read f w.file n h.data h.le, ← h.bytes]
        simp [allRead]
      · intro j u hu
        simp only [List.getElem?_set] at hu
        by_cases hij : i = j
        · subst hij
          rw [if_pos rfl, if_pos hlt] at hu
          cases hu
          have hold (c : Nat) (hcl : c < t.done.length) (ts : List Sharer) :
              readBy ⟨(w.file.read n).2, ts, w.reads ++ [(i, t.done.length, (w.file.read n).1)]⟩ i c
                = readBy w i c := by
            rw [readBy_append, if_neg (by simp; omega), List.append_nil]
            exact readBy_congr rfl _ _
          have hnew (ts : List Sharer) :
              readBy ⟨(w.file.read n).2, ts, w.reads ++ [(i, t.done.length, (w.file.read n).1)]⟩ i
                t.done.length = readBy w i t.done.length ++ (w.file.read n).1 := by
            rw [readBy_append, if_pos ⟨rfl, rfl⟩]
            rw [readBy_congr (w := w) (by rfl)]
          refine ⟨?_, ?_, ?_, ?_, ?_⟩
          · intro x hx hxi
            simp only [List.mem_append, List.mem_singleton] at hx
            rcases hx with hx | hx
            · rcases ht.numbers x hx hxi with h1 | ⟨h1, _⟩
              · exact .inl h1
              · exact .inr ⟨h1, by simp⟩
            · subst hx; exact .inr ⟨rfl, by simp⟩
          · intro c q hq
            have hcl := (List.getElem?_eq_some_iff.1 hq).1
            simp only at hq hcl
            rw [hold c hcl]
            exact ht.results c q hq
          · intro p hpp
            simp only [Option.some.injEq] at hpp
            subst hpp
            simp only
            rw [hnew]
            apply Explains.read
            cases hq : t.call with
            | none =>
              rw [hq] at hp
              have hnil : readBy w i t.done.length = [] := by
                apply readBy_none
                intro x hx hxi hxc
                rcases ht.numbers x hx hxi with h1 | ⟨_, h1⟩
                · omega
                · exact h1 hq
              rw [hnil]
              left; intro e
              rw [← hp]; rfl
            | some p =>
              rw [hq] at hp
              have : p = .read n k := hp
              subst this
              exact ht.call _ hq
          · intro p hpp
            simp only [Option.some.injEq] at hpp
            subst hpp
            cases hq : t.call with
            | none =>
              rw [hq] at hp
              simp only [Option.getD_none, nextReads, NextCall.read.injEq] at hp
              obtain ⟨rfl, rfl⟩ := hp
              exact nextGoes_shape w.file
            | some p =>
              rw [hq] at hp
              have : p = .read n k := hp
              subst this
              rcases ht.shape _ hq with ⟨h1, _⟩ | h1
              · cases h1
              · exact .inr (NextCall.Tame.le (k := 1) (h1 _) (by omega))
          · intro hn; exact atEnd_read (ht.stop hn) n
        · rw [if_neg hij] at hu
          have hu' := h.threads j u hu
          have hsame (c : Nat) (ts : List Sharer) :
              readBy ⟨(w.file.read n).2, ts, w.reads ++ [(i, t.done.length, (w.file.read n).1)]⟩ j c
                = readBy w j c := by
            rw [readBy_append, if_neg (by simp; intro h; exact absurd h hij), List.append_nil]
            exact readBy_congr rfl _ _
          refine ⟨?_, ?_, ?_, ?_, ?_⟩
          · intro x hx hxi
            simp only [List.mem_append, List.mem_singleton] at hx
            rcases hx with hx | hx
            · exact hu'.numbers x hx hxi
            · subst hx; exact absurd hxi hij
          · intro c q hq
            rw [hsame]; exact hu'.results c q hq
          · intro p hpp
            rw [hsame]
            exact (hu'.call p hpp).other n
          · intro p hpp
            exact (hu'.shape p hpp).imp (fun h => ⟨h.1, atEnd_read h.2 n⟩) id
          · intro hn; exact atEnd_read (hu'.stop hn) n

theorem Sharers.inv_start (f : Stream) (n : Nat) : (Sharers.start f n).Inv f := by
  refine ⟨rfl, Nat.le_refl _, by simp [Sharers.start, allRead], ?_⟩
  intro i t ht
  have : t = ⟨none, []⟩ := by
    have := List.mem_of_getElem? ht
    simp only [Sharers.start, List.mem_replicate] at this
    exact this.2
  subst this
  refine ⟨by simp [Sharers.start], by simp, by simp, by simp, by simp⟩

theorem Sharers.Inv.after {f : Stream} : ∀ (order : List Nat) {w : Sharers}, w.Inv f →
    (w.after order).Inv f
  | [], _, h => h
  | i :: is, _, h => Sharers.Inv.after is (h.step i)

/-- The thread has taken `c` steps. -/
def Sharer.Paid (t : Sharer) (c : Nat) : Prop :=
  (t.call = none ∧ c ≤ 4 * t.done.length) ∨
    ∃ p, t.call = some p ∧ ∃ k ≤ 2, (p = .back none ∨ p.Tame k) ∧ c + k + 1 ≤ 4 * t.done.length + 4

theorem Sharers.step_paid {w : Sharers} {i j c : Nat} (h : ∀ t, w.threads[j]? = some t → t.Paid c)
    {t : Sharer} (ht : (w.step i).threads[j]? = some t) :
    t.Paid (c + if i = j then 1 else 0) := by
  cases hi : w.threads[i]? with
  | none =>
    rw [Sharers.step_none hi] at ht
    have hij : i ≠ j := by rintro rfl; rw [hi] at ht; cases ht
    rw [if_neg hij]; exact h t ht
  | some u =>
    have hlt : i < w.threads.length := (List.getElem?_eq_some_iff.1 hi).1
    by_cases hij : i = j
    · subst hij
      rw [if_pos rfl]
      have hu := h u hi
      cases hp : u.call.getD nextReads with
      | back r =>
        rw [Sharers.step_back hi hp] at ht
        simp only [List.getElem?_set, if_pos hlt] at ht
        cases ht
        left
        refine ⟨rfl, ?_⟩
        simp only [List.length_append, List.length_singleton]
        rcases hu with ⟨_, h1⟩ | ⟨p, _, k, _, _, h1⟩ <;> omega
      | read n k =>
        rw [Sharers.step_read hi hp] at ht
        simp only [List.getElem?_set, if_pos hlt] at ht
        cases ht
        right
        refine ⟨_, rfl, ?_⟩
        rcases hu with ⟨h0, h1⟩ | ⟨p, h0, m, hm, h2, h1⟩
        · rw [h0] at hp
          simp only [Option.getD_none, nextReads, NextCall.read.injEq] at hp
          obtain ⟨rfl, rfl⟩ := hp
          refine ⟨2, Nat.le_refl _, ?_, by simp only; omega⟩
          exact (nextGoes_shape w.file).imp (·.1) id
        · rw [h0] at hp
          have : p = .read n k := hp
          subst this
          rcases h2 with h2 | h2
          · cases h2
          · cases m with
            | zero => exact h2.elim
            | succ m => exact ⟨m, by omega, .inr (h2 _), by simp only; omega⟩
    · rw [if_neg hij]
      apply h
      cases hp : u.call.getD nextReads with
      | back r =>
        rw [Sharers.step_back hi hp] at ht
        simpa only [List.getElem?_set, if_neg hij] using ht
      | read n k =>
        rw [Sharers.step_read hi hp] at ht
        simpa only [List.getElem?_set, if_neg hij] using ht

theorem Sharers.after_paid (j : Nat) : ∀ (order : List Nat) (w : Sharers) (c : Nat),
    (∀ t, w.threads[j]? = some t → t.Paid c) →
    ∀ t, (w.after order).threads[j]? = some t → t.Paid (c + order.count j)
  | [], w, c, h, t, ht => by simpa using h t ht
  | i :: is, w, c, h, t, ht => by
    have := Sharers.after_paid j is (w.step i) _ (fun t ht => Sharers.step_paid h ht) t ht
    rw [List.count_cons]
    simp only [beq_iff_eq]
    have e : c + (is.count j + if i = j then 1 else 0) =
      c + (if i = j then 1 else 0) + is.count j := by omega
    rw [e]
    exact this

/-- What a call counts that has got its first byte. -/
def pending : Option NextCall → Nat
  | none => 0
  | some (.back none) => 0
  | some _ => 1

/-- What a thread counts. -/
def Sharer.weight (t : Sharer) : Nat := (t.done.filter fun r => r.isSome).length + pending t.call

theorem pending_le (o : Option NextCall) : pending o ≤ 1 := by
  unfold pending; split <;> omega

theorem sum_set_nat (l : List Nat) (i a b : Nat) (h : l[i]? = some a) :
    (l.set i b).sum + a = l.sum + b := by
  induction l generalizing i with
  | nil => simp at h
  | cons x l ih =>
    cases i with
    | zero =>
      simp only [List.getElem?_cons_zero, Option.some.injEq] at h
      subst h
      simp only [List.set_cons_zero, List.sum_cons]; omega
    | succ i =>
      simp only [List.getElem?_cons_succ] at h
      have := ih i h
      simp only [List.set_cons_succ, List.sum_cons]; omega

theorem weight_set {w : Sharers} {i : Nat} {t u : Sharer} (h : w.threads[i]? = some t) :
    ((w.threads.set i u).map Sharer.weight).sum + t.weight =
      (w.threads.map Sharer.weight).sum + u.weight := by
  rw [List.map_set]
  apply sum_set_nat
  simp [h]

theorem Sharers.step_weight {w : Sharers} (i : Nat)
    (h : (w.threads.map Sharer.weight).sum ≤ (allRead w).length) :
    ((w.step i).threads.map Sharer.weight).sum ≤ (allRead (w.step i)).length := by
  cases hi : w.threads[i]? with
  | none => rw [Sharers.step_none hi]; exact h
  | some t =>
    cases hp : t.call.getD nextReads with
    | back r =>
      rw [Sharers.step_back hi hp]
      have hc : t.call = some (.back r) := by
        cases hq : t.call with
        | none => rw [hq] at hp; exact absurd hp (by simp [nextReads])
        | some p => rw [hq] at hp; exact congrArg some hp
      have h1 := weight_set (u := ⟨none, t.done ++ [r]⟩) hi
      have h2 : (Sharer.mk none (t.done ++ [r])).weight = t.weight := by
        unfold Sharer.weight
        rw [hc]
        cases r <;> simp [pending, List.filter_append]
      rw [h2] at h1
      show ((w.threads.set i _).map Sharer.weight).sum ≤ (allRead w).length
      omega
    | read n k =>
      rw [Sharers.step_read hi hp]
      have h1 := weight_set (u := { t with call := some (k (w.file.read n).1) }) hi
      have h3 (ts : List Sharer) :
          (allRead ⟨(w.file.read n).2, ts, w.reads ++ [(i, t.done.length, (w.file.read n).1)]⟩).length
            = (allRead w).length + (w.file.read n).1.length := by
        simp [allRead]
      rw [h3]
      have h2 : ({ t with call := some (k (w.file.read n).1) } : Sharer).weight ≤
          t.weight + (w.file.read n).1.length := by
        unfold Sharer.weight
        simp only
        cases hq : t.call with
        | none =>
          rw [hq] at hp
          simp only [Option.getD_none, nextReads, NextCall.read.injEq] at hp
          obtain ⟨rfl, rfl⟩ := hp
          cases hb : (w.file.read 1).1 with
          | nil => simp [nextGoes, pending]
          | cons b bs =>
            have := pending_le (some (nextGoes (b :: bs)))
            simp only [List.length_cons]
            omega
        | some p =>
          rw [hq] at hp
          have : p = .read n k := hp
          subst this
          have := pending_le (some (k (w.file.read n).1))
          have e : pending (some (.read n k)) = 1 := rfl
          omega
      simp only
      omega

theorem given_le_weight (l : List Sharer) :
    (l.map fun t => (t.done.filter fun r => r.isSome).length).sum ≤ (l.map Sharer.weight).sum := by
  induction l with
  | nil => simp
  | cons t l ih =>
    simp only [List.map_cons, List.sum_cons]
    have : (t.done.filter fun r => r.isSome).length ≤ t.weight := Nat.le_add_right _ _
    omega

theorem Sharers.after_weight : ∀ (order : List Nat) (w : Sharers),
    (w.threads.map Sharer.weight).sum ≤ (allRead w).length →
    ((w.after order).threads.map Sharer.weight).sum ≤ (allRead (w.after order)).length
  | [], _, h => h
  | i :: is, w, h => Sharers.after_weight is (w.step i) (Sharers.step_weight i h)

theorem start_weight (f : Stream) (n : Nat) :
    ((Sharers.start f n).threads.map Sharer.weight).sum ≤ (allRead (Sharers.start f n)).length := by
  have : ∀ n, ((List.replicate n (Sharer.mk none [])).map Sharer.weight).sum = 0 := by
    intro n
    induction n with
    | zero => rfl
    | succ n ih => simp [List.replicate_succ, Sharer.weight, pending] at *
  unfold Sharers.start
  simp only [this]
  omega

/-- A call under way, not interrupted until it returns. -/
theorem run_call (i : Nat) : ∀ (k : Nat) (p : NextCall) (w : Sharers) (t : Sharer),
    w.threads[i]? = some t → t.call = some p → (p = .back none ∨ p.Tame k) →
    ∃ m ≤ k + 1, (w.after (List.replicate m i)).file = (p.alone w.file).2 ∧
      (w.after (List.replicate m i)).threads =
        w.threads.set i ⟨none, t.done ++ [(p.alone w.file).1]⟩ := by
  have ret (k : Nat) (r) (w : Sharers) (t : Sharer) (ht : w.threads[i]? = some t)
      (hc : t.call = some (.back r)) :
      ∃ m ≤ k + 1, (w.after (List.replicate m i)).file = ((NextCall.back r).alone w.file).2 ∧
      (w.after (List.replicate m i)).threads =
        w.threads.set i ⟨none, t.done ++ [((NextCall.back r).alone w.file).1]⟩ := by
    refine ⟨1, by omega, ?_⟩
    have hp : t.call.getD nextReads = .back r := by rw [hc]; rfl
    simp only [Sharers.after, List.replicate, List.foldl]
    rw [Sharers.step_back ht hp]
    exact ⟨rfl, rfl⟩
  intro k
  induction k with
  | zero =>
    intro p w t ht hc hp
    cases p with
    | back r => exact ret 0 r w t ht hc
    | read n f => rcases hp with hp | hp; cases hp; exact hp.elim
  | succ k ih =>
    intro p w t ht hc hp
    cases p with
    | back r => exact ret _ r w t ht hc
    | read n f =>
      have hlt : i < w.threads.length := (List.getElem?_eq_some_iff.1 ht).1
      have hg : t.call.getD nextReads = .read n f := by rw [hc]; rfl
      have hs := Sharers.step_read ht hg
      have ht' : (w.step i).threads[i]? = some { t with call := some (f (w.file.read n).1) } := by
        rw [hs]; simp [hlt]
      obtain ⟨m, hm, h1, h2⟩ := ih (f (w.file.read n).1) (w.step i) _ ht' rfl
        (.inr (by rcases hp with hp | hp; cases hp; exact hp _))
      refine ⟨m + 1, by omega, ?_⟩
      have e : w.after (List.replicate (m + 1) i) = (w.step i).after (List.replicate m i) := rfl
      rw [e, h1, h2, hs]
      refine ⟨rfl, ?_⟩
      simp only [List.set_set]
      rfl

theorem Sharers.step_end {w : Sharers} (h : atEnd w.file) {i j : Nat} {d : List (Option (Except PyErr Cmd))}
    (hj : ∀ t, w.threads[j]? = some t → (t.call = none ∨ t.call = some (.back none)) ∧
      ∃ m, t.done = d ++ List.replicate m none) :
    (w.step i).file = w.file ∧
    ∀ t, (w.step i).threads[j]? = some t → (t.call = none ∨ t.call = some (.back none)) ∧
      ∃ m, t.done = d ++ List.replicate m none := by
  cases hi : w.threads[i]? with
  | none => rw [Sharers.step_none hi]; exact ⟨rfl, hj⟩
  | some u =>
    have hlt : i < w.threads.length := (List.getElem?_eq_some_iff.1 hi).1
    cases hp : u.call.getD nextReads with
    | back r =>
      rw [Sharers.step_back hi hp]
      refine ⟨rfl, fun t ht => ?_⟩
      by_cases hij : i = j
      · subst hij
        simp only [List.getElem?_set, if_pos hlt] at ht
        cases ht
        obtain ⟨h1, m, h2⟩ := hj u hi
        have hr : r = none := by
          rcases h1 with h1 | h1
          · rw [h1] at hp; exact absurd hp (by simp [nextReads])
          · rw [h1] at hp; simpa using hp.symm
        refine ⟨.inl rfl, m + 1, ?_⟩
        simp only
        rw [h2, hr, List.append_assoc, List.replicate_succ']
      · exact hj t (by simpa only [List.getElem?_set, if_neg hij] using ht)
    | read n k =>
      rw [Sharers.step_read hi hp, shr_read_atEnd h]
      refine ⟨rfl, fun t ht => ?_⟩
      by_cases hij : i = j
      · subst hij
        simp only [List.getElem?_set, if_pos hlt] at ht
        cases ht
        obtain ⟨h1, h2⟩ := hj u hi
        refine ⟨.inr ?_, h2⟩
        rcases h1 with h1 | h1
        · rw [h1] at hp
          simp only [Option.getD_none, nextReads, NextCall.read.injEq] at hp
          obtain ⟨rfl, rfl⟩ := hp
          rfl
        · rw [h1] at hp; cases hp
      · exact hj t (by simpa only [List.getElem?_set, if_neg hij] using ht)

theorem Sharers.after_end {j : Nat} {d : List (Option (Except PyErr Cmd))} :
    ∀ (order : List Nat) {w : Sharers}, atEnd w.file →
    (∀ t, w.threads[j]? = some t → (t.call = none ∨ t.call = some (.back none)) ∧
      ∃ m, t.done = d ++ List.replicate m none) →
    (w.after order).file = w.file ∧
    ∀ t, (w.after order).threads[j]? = some t → ∃ m, t.done = d ++ List.replicate m none
  | [], _, _, hj => ⟨rfl, fun t ht => (hj t ht).2⟩
  | i :: is, w, h, hj => by
    obtain ⟨h1, h2⟩ := Sharers.step_end (i := i) h hj
    obtain ⟨h3, h4⟩ := Sharers.after_end is (w := w.step i) (by rw [h1]; exact h) h2
    exact ⟨h3.trans h1, h4⟩

theorem next_kinds {s s' : Stream} {e : PyErr} (h : next s = (some (.error e), s')) :
    e = .eof ∨ e = .struct := c04_exceptions s [] e (.raise h)

/-- C128: whatever the turns, every byte of the file goes to exactly one read, in order: what has
been read together is the part of the file between where it was and where it is now. -/
theorem c128_bytes (f : Stream) (n : Nat) (order : List Nat) :
    ((Sharers.start f n).after order).file.data = f.data ∧
    f.pos ≤ ((Sharers.start f n).after order).file.pos ∧
    allRead ((Sharers.start f n).after order) =
      (f.data.drop f.pos).take (((Sharers.start f n).after order).file.pos - f.pos) := by
  have h := (Sharers.inv_start f n).after order
  exact ⟨h.data, h.le, h.bytes⟩

/-- C128: a call gives what a reader would give that has just the bytes which the call has read, and
it has read all of them: a command, `StopIteration` or an exception for missing bytes. -/
theorem c128_calls (f : Stream) (n : Nat) (order : List Nat) (i c : Nat) (t : Sharer)
    (r : Option (Except PyErr Cmd))
    (ht : ((Sharers.start f n).after order).threads[i]? = some t) (hr : t.done[c]? = some r) :
    next ⟨readBy ((Sharers.start f n).after order) i c, 0⟩ =
      (r, ⟨readBy ((Sharers.start f n).after order) i c,
        (readBy ((Sharers.start f n).after order) i c).length⟩) ∧
    ∀ e, r = some (.error e) → e = .eof ∨ e = .struct := by
  have h := (((Sharers.inv_start f n).after order).threads i t ht).results c r hr
  exact ⟨h, fun e he => next_kinds (he ▸ h)⟩

/-- C128: the threads get together no more commands and exceptions than bytes have been read. -/
theorem c128_count (f : Stream) (n : Nat) (order : List Nat) :
    given ((Sharers.start f n).after order) ≤
      ((Sharers.start f n).after order).file.pos - f.pos ∧
    given ((Sharers.start f n).after order) ≤ f.data.length - f.pos := by
  have h := Sharers.after_weight order _ (start_weight f n)
  obtain ⟨_, _, hb⟩ := c128_bytes f n order
  rw [hb] at h
  simp only [List.length_take, List.length_drop] at h
  have hg : given ((Sharers.start f n).after order) ≤
      (((Sharers.start f n).after order).threads.map Sharer.weight).sum := by
    unfold given
    exact given_le_weight _
  omega

/-- C128: `StopIteration` is given only when nothing is left in the file. -/
theorem c128_stop (f : Stream) (n : Nat) (order : List Nat) (t : Sharer)
    (ht : t ∈ ((Sharers.start f n).after order).threads) (h : none ∈ t.done) :
    atEnd ((Sharers.start f n).after order).file := by
  obtain ⟨i, hi⟩ := List.getElem?_of_mem ht
  exact (((Sharers.inv_start f n).after order).threads i t hi).stop h

/-- C128: once nothing is left, a thread that is in no call gets only `StopIteration`. -/
theorem c128_end (w : Sharers) (h : atEnd w.file) (more : List Nat) (i : Nat) (t t' : Sharer)
    (ht : w.threads[i]? = some t) (hc : t.call = none)
    (ht' : (w.after more).threads[i]? = some t') :
    ∃ m, t'.done = t.done ++ List.replicate m none := by
  refine (Sharers.after_end (j := i) (d := t.done) more h ?_).2 t' ht'
  intro u hu
  rw [ht] at hu
  cases hu
  exact ⟨.inl hc, 0, by simp⟩

/-- C128: a thread never waits: with every four steps it takes it completes a call. -/
theorem c128_progress (f : Stream) (n : Nat) (order : List Nat) (i : Nat) (t : Sharer)
    (ht : ((Sharers.start f n).after order).threads[i]? = some t) :
    order.count i / 4 ≤ t.done.length := by
  have h := Sharers.after_paid i order (Sharers.start f n) 0 (by
    intro u hu
    left
    have := List.mem_of_getElem? hu
    simp only [Sharers.start, List.mem_replicate] at this
    rw [this.2]; simp) t ht
  rcases h with ⟨_, h⟩ | ⟨_, _, k, _, _, h⟩ <;> omega

/-- C128: a call that no other thread interrupts is a call of `next` on the file as it was: with a
lock around the calls the threads get together what one reader gives. -/
theorem c128_uninterrupted (w : Sharers) (i : Nat) (t : Sharer) (ht : w.threads[i]? = some t)
    (hc : t.call = none) :
    ∃ m ≤ 4, (w.after (List.replicate m i)).file = (next w.file).2 ∧
      (w.after (List.replicate m i)).threads =
        w.threads.set i ⟨none, t.done ++ [(next w.file).1]⟩ := by
  have hlt : i < w.threads.length := (List.getElem?_eq_some_iff.1 ht).1
  have hg : t.call.getD nextReads = .read 1 nextGoes := by rw [hc]; rfl
  have hs := Sharers.step_read ht hg
  have ht' : (w.step i).threads[i]? = some { t with call := some (nextGoes (w.file.read 1).1) } := by
    rw [hs]; simp [hlt]
  obtain ⟨m, hm, h1, h2⟩ := run_call i 2 (nextGoes (w.file.read 1).1) (w.step i) _ ht' rfl
    ((nextGoes_shape w.file).imp (·.1) id)
  refine ⟨m + 1, by omega, ?_⟩
  have e : w.after (List.replicate (m + 1) i) = (w.step i).after (List.replicate m i) := rfl
  rw [e, h1, h2, hs, ← nextReads_alone]
  refine ⟨rfl, ?_⟩
  simp only [List.set_set]
  rfl

/-- A wait for 1 sample and one for 735. (For C128.) -/
def tornFile : Stream := ⟨[0x61, 0x01, 0x00, 0x62], 0⟩

/-- C128 is not that the threads get the commands of the file: without a lock a call interrupted
between its reads makes commands of which none is in the file. -/
theorem c128_torn_refuted : ∃ order : List Nat,
    ((Sharers.start tornFile 2).after order).threads.map (·.done) =
      [[some (.ok (.wait 0x61 (some 25088))), none], [some (.ok (.plain 0x01 none)), none]] ∧
    ((Sharers.start tornFile 1).after (List.replicate 7 0)).threads.map (·.done) =
      [[some (.ok (.wait 0x61 (some 1))), some (.ok (.wait 0x62 (some 735))), none]] :=
  ⟨[0, 1, 1, 0, 0, 0, 0, 1, 1], by decide +kernel, by decide +kernel⟩

end VgmX
