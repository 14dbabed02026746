import Verif.Model.Calls
import Verif.Spec.Shown
import Verif.Lemmas.Text
import Verif.Props.Reader
/-
Property C92: calls of `next` after the end or after an exception. Property C93: the printed form
of commands.
-/

namespace VgmX
open Spec

/-! ### C92 -/

theorem execB_error_rest (op : Nat) (r : Bytes) (k : Kind) (e : PyErr)
    (h : (execB op r k).1 = .error e) : (execB op r k).2 = [] := by
  cases k with
  | nop => cases h
  | waitc n => cases h
  | eos => cases h
  | fixed n => cases h
  | ym =>
    match r with
    | [] => rfl
    | [_] => rfl
    | a :: b :: t => cases h
  | wait16 =>
    match r with
    | [] => rfl
    | [_] => rfl
    | a :: b :: t => cases h
  | block =>
    simp only [execB] at h ⊢
    split
    · rfl
    · rename_i hl; rw [if_neg hl] at h; cases h
  | ram =>
    simp only [execB] at h ⊢
    split
    · rfl
    · rename_i hl; rw [if_neg hl] at h; cases h

theorem next_error_rest {s s' : Stream} {e : PyErr} (h : next s = (some (.error e), s')) :
    s'.rest = [] := by
  obtain ⟨h1, h2⟩ := next_stepB s
  cases hr : stepB s.rest with
  | none => have := h1 hr; rw [h] at this; cases this
  | some x =>
    obtain ⟨x, r⟩ := x
    obtain ⟨a1, a2, _, _⟩ := h2 x r hr
    rw [h] at a1 a2
    cases a1
    rw [a2]
    cases hb : s.rest with
    | nil => rw [hb] at hr; cases hr
    | cons b t =>
      rw [hb] at hr
      simp only [stepB, Option.some.injEq] at hr
      have := execB_error_rest b.toNat t (classify b.toNat) e (by rw [hr])
      rw [hr] at this
      exact this

theorem next_nil {s : Stream} (h : s.rest = []) : (next s).1 = none ∧ (next s).2.rest = [] := by
  have h1 := (next_stepB s).1 (by rw [h]; rfl)
  refine ⟨h1, ?_⟩
  have hf := read_fst s 1
  have hr := read_rest s 1
  rw [h] at hf hr
  unfold next at h1 ⊢
  generalize s.read 1 = p at *
  obtain ⟨b, s1⟩ := p
  simp only [List.take_nil] at hf
  subst hf
  exact hr

theorem nextCalls_nil (n : Nat) : ∀ {s : Stream}, s.rest = [] →
    nextCalls n s = List.replicate n none := by
  induction n with
  | zero => intro s _; rfl
  | succ n ih =>
    intro s h
    obtain ⟨h1, h2⟩ := next_nil h
    unfold nextCalls
    rw [h1, ih h2]
    rfl

/-- What the calls that follow the commands give: an exception once, if the loop ends with one,
then `StopIteration`, for ever. -/
def afterwards : Outcome → Nat → List (Option (Except PyErr Cmd))
  | .stop, n => List.replicate n none
  | .raised e, n => some (.error e) :: List.replicate n none

/-- C92. Whatever the file and however often `next` is called, also after it has raised: the calls
give, in this order, the commands a `for` loop sees, then, if the loop ends with an exception, this
exception once, then `StopIteration` every time. -/
theorem c92_calls (s : Stream) (cs : List Cmd) (o : Outcome) (h : Runs s cs o) (n : Nat) :
    nextCalls n s = (cs.map (fun c => some (Except.ok c)) ++ afterwards o n).take n := by
  induction h generalizing n with
  | @stop s s' h =>
    have hr := next_stop h
    rw [nextCalls_nil n hr]
    simp [afterwards]
  | @raise s s' e h =>
    cases n with
    | zero => simp [nextCalls]
    | succ n =>
      have hr := next_error_rest h
      unfold nextCalls
      rw [h]
      simp only [nextCalls_nil n hr, afterwards, List.map_nil, List.nil_append,
        List.take_succ_cons]
      simp
  | @yield s s' c cs o h _ ih =>
    cases n with
    | zero => simp [nextCalls]
    | succ n =>
      unfold nextCalls
      rw [h]
      simp only [List.map_cons, List.cons_append, List.take_succ_cons, ih n]
      congr 1
      rw [List.take_append, List.take_append]
      congr 1
      cases o with
      | stop => simp [afterwards]; omega
      | raised e =>
        simp only [afterwards, List.length_map]
        cases hm : n - cs.length with
        | zero => rfl
        | succ m =>
          simp only [List.take_succ_cons, List.take_replicate]
          congr 2
          omega

/-- C92. The reader is its own iterator: a loop left by `break` and another loop later see
together what one loop sees. -/
theorem c92_resume (k : Nat) (s s' : Stream) (cs cs' : List Cmd) (o : Outcome)
    (h : loopBreak k s = (cs, none, s')) (h' : Runs s' cs' o) :
    cs.length = k ∧ Runs s (cs ++ cs') o := by
  induction k generalizing s cs with
  | zero =>
    cases h
    exact ⟨rfl, h'⟩
  | succ k ih =>
    unfold loopBreak at h
    rcases hn : next s with ⟨_ | e | c, s1⟩
    · rw [hn] at h; cases h
    · rw [hn] at h; cases h
    · rw [hn] at h
      dsimp only at h
      rcases hl : loopBreak k s1 with ⟨cs1, o1, s2⟩
      rw [hl] at h
      cases h
      obtain ⟨a, b⟩ := ih _ _ hl
      exact ⟨by simp [a], .yield hn b⟩

/-- C92. A loop that ends before its `break` has seen everything: the loop without `break` is the
same, and whatever is called then raises `StopIteration`. -/
theorem c92_ended (k : Nat) (s s' : Stream) (cs : List Cmd) (o : Outcome)
    (h : loopBreak k s = (cs, some o, s')) :
    Runs s cs o ∧ ∀ n, nextCalls n s' = List.replicate n none := by
  induction k generalizing s cs with
  | zero => cases h
  | succ k ih =>
    unfold loopBreak at h
    rcases hn : next s with ⟨_ | e | c, s1⟩
    · rw [hn] at h
      cases h
      refine ⟨.stop hn, fun n => nextCalls_nil n ?_⟩
      have := (next_nil (next_stop hn)).2
      rw [hn] at this
      exact this
    · rw [hn] at h
      cases h
      exact ⟨.raise hn, fun n => nextCalls_nil n (next_error_rest hn)⟩
    · rw [hn] at h
      dsimp only at h
      rcases hl : loopBreak k s1 with ⟨cs1, o1, s2⟩
      rw [hl] at h
      cases h
      obtain ⟨a, b⟩ := ih _ _ hl
      exact ⟨.yield hn a, b⟩

/-- The hypotheses are met: a wait, then a write that is cut off: the exception comes once. -/
example : nextCalls 5 ⟨[0x62, 0x54, 0x08], 0⟩ =
    [some (.ok (.wait 0x62 (some 735))), some (.error .eof), none, none, none] := by
  have h : Runs ⟨[0x62, 0x54, 0x08], 0⟩ [.wait 0x62 (some 735)] (.raised .eof) :=
    .yield (s' := ⟨[0x62, 0x54, 0x08], 1⟩) (by decide)
      (.raise (s' := ⟨[0x62, 0x54, 0x08], 3⟩) (by decide))
  exact c92_calls _ _ _ h 5

example : loopBreak 1 ⟨[0x62, 0x63], 0⟩ = ([.wait 0x62 (some 735)], none, ⟨[0x62, 0x63], 1⟩) ∧
    loopBreak 3 ⟨[0x62, 0x63], 0⟩ =
      ([.wait 0x62 (some 735), .wait 0x63 (some 882)], some .stop, ⟨[0x62, 0x63], 2⟩) := by
  decide

/-! ### C93 -/

theorem hexChar_upper : ∀ d < 16, (hexChar d).toUpper = digitChar d := by decide

theorem readHex_pyHex (n : Nat) : readHex (pyHex n) = some n := by
  unfold pyHex readHex
  simp only [List.cons_append, List.nil_append, List.map_map]
  have : ∀ l : List Nat, (∀ d ∈ l, d < 16) → l.map (Char.toUpper ∘ hexChar) = l.map digitChar := by
    intro l hl
    exact List.map_congr_left (fun d hd => hexChar_upper d (hl d hd))
  rw [this _ (digits_lt (by omega) _ _)]
  unfold readBase
  rw [if_neg (by simp [digits_ne_nil]), readFrom_digits (by omega) (by omega) _ _ (by omega)]

theorem readFrom_digit {b : Nat} : ∀ {s : List Char} {acc n : Nat}, readFrom b acc s = some n →
    ∀ c ∈ s, digitVal c ≠ none
  | [], _, _, _ => by simp
  | c :: s, acc, n, h => by
    unfold readFrom at h
    cases hc : digitVal c with
    | none => rw [hc] at h; cases h
    | some d =>
      rw [hc] at h
      dsimp only at h
      split at h
      · intro c' hc'
        rcases List.mem_cons.mp hc' with rfl | hc'
        · rw [hc]; simp
        · exact readFrom_digit h c' hc'
      · cases h

theorem readHex_form {a : List Char} {n : Nat} (h : readHex a = some n) :
    (∃ s, a = '0' :: 'x' :: s) ∧ ∀ c ∈ a, c ≠ ',' := by
  unfold readHex at h
  split at h
  · rename_i s
    refine ⟨⟨s, rfl⟩, ?_⟩
    unfold readBase at h
    split at h
    · cases h
    · have := readFrom_digit h
      intro c hc
      rcases List.mem_cons.mp hc with rfl | hc
      · decide
      rcases List.mem_cons.mp hc with rfl | hc
      · decide
      · rintro rfl
        exact this _ (List.mem_map_of_mem hc) (by decide)
  · cases h

theorem readBase_form {a : List Char} {n : Nat} (h : readBase 10 a = some n) : a ≠ [] := by
  rintro rfl
  cases h

/-- Unique splitting at the first character of a kind. -/
theorem split_at_char {x : Char} : ∀ {s s' r r' : List Char}, (∀ c ∈ s, c ≠ x) →
    (∀ c ∈ s', c ≠ x) → s ++ x :: r = s' ++ x :: r' → s = s' ∧ r = r'
  | [], [], _, _, _, _, h => by simpa using h
  | [], c :: s', _, _, _, h2, h => by
    simp only [List.nil_append, List.cons_append, List.cons.injEq] at h
    exact absurd h.1.symm (h2 c List.mem_cons_self)
  | c :: s, [], _, _, h1, _, h => by
    simp only [List.nil_append, List.cons_append, List.cons.injEq] at h
    exact absurd h.1 (h1 c List.mem_cons_self)
  | c :: s, c' :: s', r, r', h1, h2, h => by
    simp only [List.cons_append, List.cons.injEq] at h
    obtain ⟨e1, e2⟩ := split_at_char (fun c hc => h1 c (List.mem_cons_of_mem _ hc))
      (fun c hc => h2 c (List.mem_cons_of_mem _ hc)) h.2
    exact ⟨by rw [h.1, e1], e2⟩

theorem lit_write : "YM2151Command(Reg: ".toList =
    ['Y', 'M', '2', '1', '5', '1', 'C', 'o', 'm', 'm',
      'a', 'n', 'd', '(', 'R', 'e', 'g', ':', ' '] := by decide

theorem lit_data : ", Data: ".toList = [',', ' ', 'D', 'a', 't', 'a', ':', ' '] := by decide

theorem lit_other : "VgmCommand(".toList = ['V', 'g', 'm', 'C', 'o', 'm', 'm', 'a', 'n', 'd', '('] := by decide

theorem lit_wait : "VgmCommand(Wait: ".toList =
    "VgmCommand(".toList ++ ['W', 'a', 'i', 't', ':', ' '] := by decide

theorem lit_eos : "VgmCommand(EOS)".toList =
    "VgmCommand(".toList ++ ['E', 'O', 'S', ')'] := by decide

/-- C93. A text tells at most one thing: no two different writes, waits or opcodes print alike. -/
theorem c93_unique (t : Str) (x y : Shown) (hx : Prints t x) (hy : Prints t y) : x = y := by
  have hV : ∀ a b : Str, "YM2151Command(Reg: ".toList ++ a ≠ "VgmCommand(".toList ++ b := by
    intro a b h
    rw [lit_write, lit_other] at h
    simp at h
  have hW : ∀ {a b : Str} {m : Nat}, readHex b = some m →
      "VgmCommand(Wait: ".toList ++ a ++ ")".toList ≠ "VgmCommand(".toList ++ b ++ ")".toList := by
    intro a b m hb h
    obtain ⟨⟨s, rfl⟩, _⟩ := readHex_form hb
    rw [lit_wait] at h
    simp only [List.append_assoc, List.append_cancel_left_eq] at h
    simp at h
  have hE : ∀ {b : Str} {m : Nat}, readHex b = some m →
      "VgmCommand(EOS)".toList ≠ "VgmCommand(".toList ++ b ++ ")".toList := by
    intro b m hb h
    obtain ⟨⟨s, rfl⟩, _⟩ := readHex_form hb
    rw [lit_eos] at h
    simp only [List.append_assoc, List.append_cancel_left_eq] at h
    simp at h
  have hEW : ∀ {a : Str}, "VgmCommand(EOS)".toList ≠ "VgmCommand(Wait: ".toList ++ a ++ ")".toList := by
    intro a h
    rw [lit_eos, lit_wait] at h
    simp only [List.append_assoc, List.append_cancel_left_eq] at h
    simp at h
  generalize ht : t = t' at hy
  cases hx with
  | write ha hb =>
    cases hy with
    | write ha' hb' =>
      simp only [List.append_assoc, List.append_cancel_left_eq] at ht
      rw [lit_data] at ht
      obtain ⟨e1, e2⟩ := split_at_char (readHex_form ha).2 (readHex_form ha').2 ht
      simp at e2
      subst e1 e2
      rw [ha] at ha'
      rw [hb] at hb'
      cases ha'
      cases hb'
      rfl
    | wait =>
      rw [lit_wait] at ht
      simp only [List.append_assoc] at ht
      exact absurd ht (hV _ _)
    | eos =>
      rw [lit_eos] at ht
      simp only [List.append_assoc] at ht
      exact absurd ht (hV _ _)
    | other =>
      simp only [List.append_assoc] at ht
      exact absurd ht (hV _ _)
  | wait ha =>
    cases hy with
    | write =>
      rw [lit_wait] at ht
      simp only [List.append_assoc] at ht
      exact absurd ht.symm (hV _ _)
    | wait ha' =>
      simp only [List.append_assoc, List.append_cancel_left_eq, List.append_cancel_right_eq] at ht
      subst ht
      rw [ha] at ha'
      cases ha'
      rfl
    | eos => exact absurd ht.symm hEW
    | other ha' => exact absurd ht (hW ha')
  | eos =>
    cases hy with
    | write =>
      rw [lit_eos] at ht
      simp only [List.append_assoc] at ht
      exact absurd ht.symm (hV _ _)
    | wait => exact absurd ht hEW
    | eos => rfl
    | other ha' => exact absurd ht (hE ha')
  | other ha =>
    cases hy with
    | write =>
      simp only [List.append_assoc] at ht
      exact absurd ht.symm (hV _ _)
    | wait => exact absurd ht.symm (hW ha)
    | eos => exact absurd ht.symm (hE ha)
    | other ha' =>
      simp only [List.append_assoc, List.append_cancel_left_eq, List.append_cancel_right_eq] at ht
      subst ht
      rw [ha] at ha'
      cases ha'
      rfl

theorem next_wait {s s' : Stream} {id : Nat} {n : Option Nat}
    (h : next s = (some (.ok (.wait id n)), s')) : ∃ m, n = some m := by
  unfold next at h
  rcases hr : s.read 1 with ⟨_ | ⟨b, t⟩, s1⟩
  · rw [hr] at h; cases h
  · rw [hr] at h
    dsimp only at h
    rcases hc : command b.toNat s1 with ⟨r, s2⟩
    rw [hc] at h
    cases h
    exact ⟨_, (c05_waits b.toNat b.toNat_lt s1 _ id n hc).2.2.1⟩

/-- C93. The printed form of every command the reader yields, from whatever file, tells the
register and value of a write, the samples of a wait, the opcode of any other command. -/
theorem c93_tells (s s' : Stream) (cs : List Cmd) (h : Yields s cs s') :
    ∀ c ∈ cs, Prints c.str (shown c) := by
  induction h with
  | nil => simp
  | @cons s s1 s2 c cs hn _ ih =>
    intro c' hc'
    rcases List.mem_cons.mp hc' with rfl | hc'
    · cases c' with
      | plain i p => exact .other (readHex_pyHex i)
      | eos i => exact .eos
      | ym2151 i r v => exact .write (readHex_pyHex r) (readHex_pyHex v)
      | wait i n =>
        obtain ⟨m, rfl⟩ := next_wait hn
        exact .wait (readBase_natStr m)
    · exact ih c' hc'

/-- C93. So two commands that the reader yields print alike if and only if they are alike in what
one wants to see. -/
theorem c93_alike (s s' t t' : Stream) (cs ds : List Cmd) (h : Yields s cs s')
    (h' : Yields t ds t') (c d : Cmd) (hc : c ∈ cs) (hd : d ∈ ds) :
    c.str = d.str ↔ shown c = shown d := by
  constructor
  · intro e
    have h1 := c93_tells s s' cs h c hc
    rw [e] at h1
    exact c93_unique _ _ _ h1 (c93_tells t t' ds h' d hd)
  · intro e
    have hw : ∀ (s s' : Stream) (cs : List Cmd), Yields s cs s' → ∀ i, Cmd.wait i none ∉ cs := by
      intro s s' cs h i
      induction h with
      | nil => simp
      | cons hn _ ih =>
        intro hm
        rcases List.mem_cons.mp hm with e | hm
        · subst e
          obtain ⟨m, hm⟩ := next_wait hn
          cases hm
        · exact ih hm
    cases c with
    | plain i p => cases d <;> cases e <;> rfl
    | eos i => cases d <;> cases e <;> rfl
    | ym2151 i r v => cases d <;> cases e <;> rfl
    | wait i n =>
      cases d with
      | wait j m =>
        cases n with
        | none => exact absurd hc (hw _ _ _ h i)
        | some n =>
          cases m with
          | none => exact absurd hd (hw _ _ _ h' j)
          | some m => cases e; rfl
      | _ => cases e

example : Cmd.str (.ym2151 0x54 0x08 0x7b) = "YM2151Command(Reg: 0x8, Data: 0x7b)".toList ∧
    Cmd.str (.wait 0x61 (some 735)) = "VgmCommand(Wait: 735)".toList ∧
    Cmd.str (.plain 0xa0 (some [1, 2])) = "VgmCommand(0xa0)".toList := by decide

end VgmX
