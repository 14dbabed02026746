import Verif.Model.Io
import Verif.Lemmas.Damaged
import Verif.Props.Process
/-
Programs as trees of operations (Model/Io): running one without refusals gives what the models of
the other files give; at every operation that can be refused, the way the program then ends meets
a condition.
-/

namespace VgmX

variable {α : Type}

/-- The program without refusals. -/
def Io.run : Io α → FStream → α
  | .ret a, _ => a
  | .read n err k, f =>
    match f.read n with
    | (.error e, _) => err e
    | (.ok b, f') => (k b).run f'
  | .seek p err k, f =>
    match f.seek p with
    | .error e => err e
    | .ok f' => k.run f'
  | .switch g k, f => k.run (g f.data)
  | .print _ k, f => k.run f

/-- On the way of the program without refusals, every possible refusal meets `Q`. -/
def Io.Safe (Q : Refused → PyErr → α → Prop) : Io α → FStream → Prop
  | .ret _, _ => True
  | .read n err k, f => (∀ e, Q .input e (err e)) ∧
    match f.read n with
    | (.error _, _) => True
    | (.ok b, f') => (k b).Safe Q f'
  | .seek p err k, f => (∀ e, Q .input e (err e)) ∧
    match f.seek p with
    | .error _ => True
    | .ok f' => k.Safe Q f'
  | .switch g k, f => k.Safe Q (g f.data)
  | .print err k, f => (∀ e, Q .print e (err e)) ∧ k.Safe Q f

/-- Both: the result is `r`, and every refusal meets `Q`. -/
structure Meets (Q : Refused → PyErr → α → Prop) (p : Io α) (f : FStream) (r : α) : Prop where
  run : p.run f = r
  safe : p.Safe Q f

variable {Q : Refused → PyErr → α → Prop}

theorem Meets.ends {p : Io α} {f : FStream} {r a : α} {o : Option (Refused × PyErr)}
    (h : Meets Q p f r) (he : p.Ends f a o) :
    (o = none → a = r) ∧ (∀ kind e, o = some (kind, e) → Q kind e a) := by
  obtain ⟨h1, h2⟩ := h
  subst h1
  induction he with
  | ret => exact ⟨fun _ => rfl, fun _ _ h => by cases h⟩
  | read hr _ ih =>
    unfold Io.run
    unfold Io.Safe at h2
    rw [hr] at h2 ⊢
    exact ih h2.2
  | damaged hr =>
    unfold Io.run
    rw [hr]
    exact ⟨fun _ => rfl, fun _ _ h => by cases h⟩
  | readRefused e =>
    unfold Io.Safe at h2
    exact ⟨fun h => (by cases h), fun _ _ h => (by cases h; exact h2.1 e)⟩
  | seek hr _ ih =>
    unfold Io.run
    unfold Io.Safe at h2
    rw [hr] at h2 ⊢
    exact ih h2.2
  | seekDamaged hr =>
    unfold Io.run
    rw [hr]
    exact ⟨fun _ => rfl, fun _ _ h => by cases h⟩
  | seekRefused e =>
    unfold Io.Safe at h2
    exact ⟨fun h => (by cases h), fun _ _ h => (by cases h; exact h2.1 e)⟩
  | switch _ ih =>
    unfold Io.run
    unfold Io.Safe at h2
    exact ih h2
  | print _ ih =>
    unfold Io.run
    unfold Io.Safe at h2
    exact ih h2.2
  | printRefused e =>
    unfold Io.Safe at h2
    exact ⟨fun h => (by cases h), fun _ _ h => (by cases h; exact h2.1 e)⟩

/-- The program without refusals is one of the ways to end. -/
theorem Io.ends_run (p : Io α) (f : FStream) : p.Ends f (p.run f) none := by
  induction p generalizing f with
  | ret a => exact .ret
  | read n err k ih =>
    unfold Io.run
    rcases h : f.read n with ⟨r, f'⟩
    cases r with
    | error e => exact .damaged h
    | ok b => exact .read h (ih b f')
  | seek p err k ih =>
    unfold Io.run
    cases h : f.seek p with
    | error e => exact .seekDamaged h
    | ok f' => exact .seek h (ih f')
  | switch g k ih => exact .switch (ih _)
  | print err k ih => exact .print (ih f)

theorem Meets.map {p : Io α} {f : FStream} {r : α} {Q' : Refused → PyErr → α → Prop} (g : α → α)
    (h : Meets Q p f r) (hq : ∀ kind e a, Q kind e a → Q' kind e (g a)) :
    Meets Q' (p.map g) f (g r) := by
  obtain ⟨h1, h2⟩ := h
  subst h1
  induction p generalizing f with
  | ret a => exact ⟨rfl, trivial⟩
  | read n err k ih =>
    unfold Io.Safe at h2
    refine ⟨?_, ?_⟩
    · unfold Io.map Io.run
      rcases hr : f.read n with ⟨r, f'⟩
      rw [hr] at h2
      cases r with
      | error e => rfl
      | ok b => exact (ih b h2.2).run
    · unfold Io.map Io.Safe
      refine ⟨fun e => hq _ _ _ (h2.1 e), ?_⟩
      rcases hr : f.read n with ⟨r, f'⟩
      rw [hr] at h2
      cases r with
      | error e => trivial
      | ok b => exact (ih b h2.2).safe
  | seek p err k ih =>
    unfold Io.Safe at h2
    refine ⟨?_, ?_⟩
    · unfold Io.map Io.run
      cases hr : f.seek p with
      | error e => rfl
      | ok b => rw [hr] at h2; exact (ih h2.2).run
    · unfold Io.map Io.Safe
      refine ⟨fun e => hq _ _ _ (h2.1 e), ?_⟩
      cases hr : f.seek p with
      | error e => trivial
      | ok b => rw [hr] at h2; exact (ih h2.2).safe
  | switch g' k ih =>
    unfold Io.Safe at h2
    exact ⟨(ih h2).run, (ih h2).safe⟩
  | print err k ih =>
    unfold Io.Safe at h2
    exact ⟨(ih h2.2).run, fun e => hq _ _ _ (h2.1 e), (ih h2.2).safe⟩

theorem Meets.weaken {p : Io α} {f : FStream} {r : α} {Q' : Refused → PyErr → α → Prop}
    (h : Meets Q p f r) (hq : ∀ kind e a, Q kind e a → Q' kind e a) : Meets Q' p f r := by
  refine ⟨h.run, ?_⟩
  have h2 := h.safe
  clear h
  induction p generalizing f with
  | ret a => trivial
  | read n err k ih =>
    unfold Io.Safe at h2 ⊢
    refine ⟨fun e => hq _ _ _ (h2.1 e), ?_⟩
    rcases hr : f.read n with ⟨r, f'⟩
    rw [hr] at h2
    cases r with
    | error e => trivial
    | ok b => exact ih b h2.2
  | seek p err k ih =>
    unfold Io.Safe at h2 ⊢
    refine ⟨fun e => hq _ _ _ (h2.1 e), ?_⟩
    cases hr : f.seek p with
    | error e => trivial
    | ok b => rw [hr] at h2; exact ih h2.2
  | switch g' k ih =>
    unfold Io.Safe at h2 ⊢
    exact ih h2
  | print err k ih =>
    unfold Io.Safe at h2 ⊢
    exact ⟨fun e => hq _ _ _ (h2.1 e), ih h2.2⟩

/-! ### The operations -/

theorem Meets.ret {f : FStream} {r a : α} (h : r = a) : Meets Q (.ret a) f r :=
  ⟨h.symm, trivial⟩

theorem Meets.read {n : Nat} {err : PyErr → α} {k : Bytes → Io α} {f : FStream} {r : α}
    (hq : ∀ e, Q .input e (err e)) (he : ∀ e f', f.read n = (.error e, f') → r = err e)
    (hk : ∀ b f', f.read n = (.ok b, f') → Meets Q (k b) f' r) : Meets Q (.read n err k) f r := by
  constructor
  · unfold Io.run
    rcases h : f.read n with ⟨x, f'⟩
    cases x with
    | error e => exact (he e f' h).symm
    | ok b => exact (hk b f' h).run
  · unfold Io.Safe
    refine ⟨hq, ?_⟩
    rcases h : f.read n with ⟨x, f'⟩
    cases x with
    | error e => trivial
    | ok b => exact (hk b f' h).safe

theorem Meets.seek {p : Nat} {err : PyErr → α} {k : Io α} {f : FStream} {r : α}
    (hq : ∀ e, Q .input e (err e)) (he : ∀ e, f.seek p = .error e → r = err e)
    (hk : ∀ f', f.seek p = .ok f' → Meets Q k f' r) : Meets Q (.seek p err k) f r := by
  constructor
  · unfold Io.run
    cases h : f.seek p with
    | error e => exact (he e h).symm
    | ok f' => exact (hk f' h).run
  · unfold Io.Safe
    refine ⟨hq, ?_⟩
    cases h : f.seek p with
    | error e => trivial
    | ok f' => exact (hk f' h).safe

theorem Meets.switch {g : Bytes → FStream} {k : Io α} {f : FStream} {r : α}
    (hk : Meets Q k (g f.data) r) : Meets Q (.switch g k) f r := ⟨hk.run, hk.safe⟩

theorem Meets.print {err : PyErr → α} {k : Io α} {f : FStream} {r : α}
    (hq : ∀ e, Q .print e (err e)) (hk : Meets Q k f r) : Meets Q (.print err k) f r :=
  ⟨hk.run, hq, hk.safe⟩

/-! ### The reader -/

theorem readLe_meets {n : Nat} {err : PyErr → α} {k : Nat → Io α} {f : FStream} {r : α}
    (hq : ∀ e, Q .input e (err e)) (he : ∀ e f', freadLe n f = (.error e, f') → r = err e)
    (hk : ∀ v f', freadLe n f = (.ok v, f') → Meets Q (k v) f' r) :
    Meets Q (readLeIo n err k) f r := by
  unfold readLeIo
  unfold freadLe at he hk
  refine Meets.read hq (fun e f' h => ?_) (fun b f' h => ?_)
  · rw [h] at he; exact he e f' rfl
  · rw [h] at he hk
    dsimp only at he hk
    by_cases hl : b.length ≠ n
    · rw [if_pos hl] at he ⊢
      exact .ret (he _ _ rfl)
    · rw [if_neg hl] at hk ⊢
      exact hk _ _ rfl

theorem readBcd_meets {err : PyErr → α} {k : Nat → Io α} {f : FStream} {r : α}
    (hq : ∀ e, Q .input e (err e)) (he : ∀ e f', freadBcd f = (.error e, f') → r = err e)
    (hk : ∀ v f', freadBcd f = (.ok v, f') → Meets Q (k v) f' r) :
    Meets Q (readBcdIo err k) f r := by
  unfold readBcdIo
  unfold freadBcd at he hk
  refine Meets.read hq (fun e f' h => ?_) (fun b f' h => ?_)
  · rw [h] at he; exact he e f' rfl
  · rw [h] at he hk
    dsimp only at he hk
    by_cases hl : b.length ≠ 4
    · rw [if_pos hl] at he ⊢
      exact .ret (he _ _ rfl)
    · rw [if_neg hl] at hk ⊢
      exact hk _ _ rfl

theorem plain_meets {id n : Nat} {err : PyErr → α} {k : Cmd → Io α} {f : FStream} {r : α}
    (hq : ∀ e, Q .input e (err e)) (he : ∀ e f', fplain id f n = (.error e, f') → r = err e)
    (hk : ∀ c f', fplain id f n = (.ok c, f') → Meets Q (k c) f' r) :
    Meets Q (plainIo id n err k) f r := by
  unfold plainIo
  unfold fplain at he hk
  refine Meets.read hq (fun e f' h => ?_) (fun b f' h => ?_)
  · rw [h] at he; exact he e f' rfl
  · rw [h] at hk; exact hk _ _ rfl

theorem command_meets {id : Nat} {err : PyErr → α} {k : Cmd → Io α} {f : FStream} {r : α}
    (hq : ∀ e, Q .input e (err e)) (he : ∀ e f', fcommand id f = (.error e, f') → r = err e)
    (hk : ∀ c f', fcommand id f = (.ok c, f') → Meets Q (k c) f' r) :
    Meets Q (commandIo id err k) f r := by
  unfold commandIo
  unfold fcommand at he hk
  have both : ∀ (p : Prop) [Decidable p] (a b : Io α) (x y : Except PyErr Cmd × FStream),
      (∀ z, z = x → (∀ e f', z = (.error e, f') → r = err e) →
        (∀ c f', z = (.ok c, f') → Meets Q (k c) f' r) → Meets Q a f r) →
      (∀ z, z = y → (∀ e f', z = (.error e, f') → r = err e) →
        (∀ c f', z = (.ok c, f') → Meets Q (k c) f' r) → Meets Q b f r) →
      (∀ z, z = (if p then x else y) → (∀ e f', z = (.error e, f') → r = err e) →
        (∀ c f', z = (.ok c, f') → Meets Q (k c) f' r) → Meets Q (if p then a else b) f r) := by
    intro p _ a b x y ha hb z hz he hk
    by_cases hp : p
    · rw [if_pos hp] at hz ⊢; exact ha z hz he hk
    · rw [if_neg hp] at hz ⊢; exact hb z hz he hk
  have now : ∀ c : Cmd, ∀ z, z = (Except.ok (ε := PyErr) c, f) →
      (∀ e f', z = (.error e, f') → r = err e) →
      (∀ c f', z = (.ok c, f') → Meets Q (k c) f' r) → Meets Q (k c) f r :=
    fun c z hz _ hk => hk c f hz
  have plain : ∀ n : Nat, ∀ z, z = fplain id f n →
      (∀ e f', z = (.error e, f') → r = err e) →
      (∀ c f', z = (.ok c, f') → Meets Q (k c) f' r) → Meets Q (plainIo id n err k) f r :=
    fun n z hz he hk => plain_meets hq (by rw [← hz]; exact he) (by rw [← hz]; exact hk)
  refine both _ _ _ _ _ (now _) (both _ _ _ _ _ (plain _) (both _ _ _ _ _ (plain _)
    (both _ _ _ _ _ (plain _) (both _ _ _ _ _ (plain _) (both _ _ _ _ _ ?_
    (both _ _ _ _ _ (plain _) (both _ _ _ _ _ ?_ (both _ _ _ _ _ (now _) (both _ _ _ _ _ (now _)
    (both _ _ _ _ _ (now _) (both _ _ _ _ _ ?_ (both _ _ _ _ _ ?_ (both _ _ _ _ _ (now _)
    (both _ _ _ _ _ (plain _) (both _ _ _ _ _ (plain _) (both _ _ _ _ _ (plain _)
    (both _ _ _ _ _ (plain _) (both _ _ _ _ _ (plain _) (both _ _ _ _ _ (plain _)
    (both _ _ _ _ _ (plain _) (plain _)))))))))))))))))))))  _ rfl he hk
  · rintro z rfl he hk
    refine readLe_meets hq (fun e f' h => ?_) (fun v f1 h => ?_)
    · rw [h] at he; exact he _ _ rfl
    · rw [h] at he hk
      dsimp only at he hk
      refine readLe_meets hq (fun e f' h => ?_) (fun v f1 h => ?_)
      · rw [h] at he; exact he _ _ rfl
      · rw [h] at hk; exact hk _ _ rfl
  · rintro z rfl he hk
    refine readLe_meets hq (fun e f' h => ?_) (fun v f1 h => ?_)
    · rw [h] at he; exact he _ _ rfl
    · rw [h] at hk; exact hk _ _ rfl
  · rintro z rfl he hk
    refine Meets.read hq (fun e f' h => ?_) (fun b f1 h => ?_)
    · rw [h] at he; exact he _ _ rfl
    · rw [h] at he hk
      dsimp only at he hk
      by_cases hl : b.length ≠ 6
      · rw [if_pos hl] at he ⊢; exact .ret (he _ _ rfl)
      · rw [if_neg hl] at he hk ⊢; exact plain_meets hq he hk
  · rintro z rfl he hk
    refine Meets.read hq (fun e f' h => ?_) (fun b f1 h => ?_)
    · rw [h] at he; exact he _ _ rfl
    · rw [h] at he hk
      dsimp only at he hk
      by_cases hl : b.length ≠ 11
      · rw [if_pos hl] at he ⊢; exact .ret (he _ _ rfl)
      · rw [if_neg hl] at he hk ⊢; exact plain_meets hq he hk

theorem next_meets {err : PyErr → α} {stop : Io α} {k : Cmd → Io α} {f : FStream} {r : α}
    (hq : ∀ e, Q .input e (err e))
    (he : ∀ e f', fnext f = (some (.error e), f') → r = err e)
    (hs : ∀ f', fnext f = (none, f') → Meets Q stop f' r)
    (hk : ∀ c f', fnext f = (some (.ok c), f') → Meets Q (k c) f' r) :
    Meets Q (nextIo err stop k) f r := by
  unfold nextIo
  unfold fnext at he hs hk
  refine Meets.read hq (fun e f' h => ?_) (fun b f' h => ?_)
  · rw [h] at he; exact he e f' rfl
  · rw [h] at he hs hk
    cases b with
    | nil => exact hs _ rfl
    | cons b t =>
      dsimp only at he hk
      refine command_meets hq (fun e f1 h => ?_) (fun c f1 h => ?_)
      · rw [h] at he; exact he _ _ rfl
      · rw [h] at hk; exact hk _ _ rfl

theorem process_meets {err : PyErr → α} {k : State → Io α} {r : α}
    (hq : ∀ e, Q .input e (err e)) (fuel : Nat) : ∀ (f : FStream) (s : State) x,
    fprocessStream fuel f s = some x →
    (∀ e, x = .error e → r = err e) → (∀ s' f', x = .ok s' → Meets Q (k s') f' r) →
    Meets Q (processIo err k fuel s) f r := by
  induction fuel with
  | zero => intro f s x h; cases h
  | succ n ih =>
    intro f s x h he hk
    unfold processIo
    unfold fprocessStream at h
    refine next_meets hq (fun e f' h' => ?_) (fun f' h' => ?_) (fun c f' h' => ?_)
    · rw [h'] at h
      exact he e (Option.some.inj h).symm
    · rw [h'] at h
      exact hk s f' (Option.some.inj h).symm
    · rw [h'] at h
      dsimp only at h
      cases hp : s.process1 c with
      | error e =>
        rw [hp] at h
        exact .ret (he e (Option.some.inj h).symm)
      | ok s' =>
        rw [hp] at h
        exact ih f' s' x h he hk

theorem fprocessStream_more {n m : Nat} {f : FStream} {s : State} {x : Except PyErr State}
    (h : fprocessStream n f s = some x) (hm : n ≤ m) : fprocessStream m f s = some x := by
  induction n generalizing m f s with
  | zero => cases h
  | succ n ih =>
    obtain ⟨m, rfl⟩ : ∃ j, m = j + 1 := ⟨m - 1, by omega⟩
    unfold fprocessStream at h ⊢
    rcases hx : fnext f with ⟨r, f'⟩
    rw [hx] at h
    rcases r with _ | e | c
    · exact h
    · exact h
    · dsimp only at h ⊢
      cases hp : s.process1 c with
      | error e => rw [hp] at h; exact h
      | ok s' => rw [hp] at h; exact ih h (by omega)

theorem fprocessStream_total (f : FStream) (s : State) :
    ∃ x, fprocessStream (f.data.length - f.pos + 1) f s = some x := by
  obtain ⟨d, p, fail⟩ := f
  cases fail with
  | none =>
    obtain ⟨cs, o, h, _⟩ := runs_exists ⟨d, p⟩
    have := fprocessStream_sound (d.length - p + 1) ⟨d, p⟩ s
    exact ⟨_, this.trans (processStream_runs h _ (Nat.lt_succ_self _) s)⟩
  | some e => exact ⟨_, fprocess_damaged_aux d e _ p s (Nat.lt_succ_self _)⟩

/-- With rounds for every byte: what `process_vgm_file` gives. -/
theorem fprocessStream_enough (f : FStream) (m : Nat) (hm : f.data.length < m) :
    fprocessStream m f State.init = some (fprocessVgm f) := by
  obtain ⟨x, h⟩ := fprocessStream_total f State.init
  unfold fprocessVgm
  rw [h]
  exact fprocessStream_more h (by omega)

/-! ### Positions and contents -/

theorem FStream.read_data {f f' : FStream} {n : Nat} {r : Except PyErr Bytes}
    (h : f.read n = (r, f')) : f'.data = f.data := by
  have : (f.read n).2.data = f.data := by
    unfold FStream.read
    dsimp only
    split
    · rfl
    · split <;> rfl
  rw [h] at this; exact this

theorem FStream.seek_data {f f' : FStream} {p : Nat} (h : f.seek p = .ok f') :
    f'.data = f.data := by
  unfold FStream.seek at h
  split at h
  · cases h; rfl
  · split at h
    · cases h; rfl
    · cases h

theorem freadLe_data {f f' : FStream} {n : Nat} {r : Except PyErr Nat}
    (h : freadLe n f = (r, f')) : f'.data = f.data := by
  unfold freadLe at h
  rcases hr : f.read n with ⟨x, f1⟩
  have := FStream.read_data hr
  rw [hr] at h
  cases x with
  | error e => cases h; exact this
  | ok b =>
    dsimp only at h
    split at h <;> · cases h; exact this

theorem freadBcd_data {f f' : FStream} {r : Except PyErr Nat}
    (h : freadBcd f = (r, f')) : f'.data = f.data := by
  unfold freadBcd at h
  rcases hr : f.read 4 with ⟨x, f1⟩
  have := FStream.read_data hr
  rw [hr] at h
  cases x with
  | error e => cases h; exact this
  | ok b =>
    dsimp only at h
    split at h <;> · cases h; exact this

/-! ### Opening -/

theorem init_meets {clocks : Clocks} {err : PyErr → Clocks → α} {k : Clocks → Io α} {f : FStream}
    {r : α} (hq : ∀ e c, Q .input e (err e c))
    (he : ∀ e c, FVgm.init clocks f = (.error e, c) → r = err e c)
    (hk : ∀ v c, FVgm.init clocks f = (.ok v, c) → v.stream.data = f.data →
      Meets Q (k c) v.stream r) :
    Meets Q (initIo clocks err k) f r := by
  unfold initIo
  unfold FVgm.init at he hk
  refine readLe_meets (fun e => hq e _) (fun e f' h => ?_) (fun v f1 h => ?_)
  · rw [h] at he; exact he _ _ rfl
  rw [h] at he hk
  have d1 := freadLe_data h
  dsimp only at he hk
  refine readBcd_meets (fun e => hq e _) (fun e f' h => ?_) (fun v f2 h => ?_)
  · rw [h] at he; exact he _ _ rfl
  rw [h] at he hk
  have d2 := freadBcd_data h
  dsimp only at he hk
  refine readLe_meets (fun e => hq e _) (fun e f' h => ?_) (fun _ f3 h => ?_)
  · rw [h] at he; exact he _ _ rfl
  rw [h] at he hk
  have d3 := freadLe_data h
  dsimp only at he hk
  refine readLe_meets (fun e => hq e _) (fun e f' h => ?_) (fun ym f4 h => ?_)
  · rw [h] at he; exact he _ _ rfl
  rw [h] at he hk
  have d4 := freadLe_data h
  dsimp only at he hk ⊢
  refine Meets.seek (fun e => hq e _) (fun e h => ?_) (fun f5 h => ?_)
  · rw [h] at he; exact he _ _ rfl
  rw [h] at he hk
  have d5 := FStream.seek_data h
  dsimp only at he hk
  refine readLe_meets (fun e => hq e _) (fun e f' h => ?_) (fun _ f6 h => ?_)
  · rw [h] at he; exact he _ _ rfl
  rw [h] at he hk
  have d6 := freadLe_data h
  dsimp only at he hk ⊢
  by_cases hv : 150 ≤ v
  · rw [if_pos hv] at he hk ⊢
    refine readLe_meets (fun e => hq e _) (fun e f' h => ?_) (fun off f7 h => ?_)
    · rw [h] at he; exact he _ _ rfl
    rw [h] at he hk
    have d7 := freadLe_data h
    dsimp only at he hk ⊢
    refine Meets.seek (fun e => hq e _) (fun e h => ?_) (fun f8 h => ?_)
    · rw [h] at he; exact he _ _ rfl
    rw [h] at he hk
    have d8 := FStream.seek_data h
    exact hk _ _ rfl (by dsimp only; rw [d8, d7, d6, d5, d4, d3, d2, d1])
  · rw [if_neg hv] at he hk ⊢
    refine Meets.seek (fun e => hq e _) (fun e h => ?_) (fun f8 h => ?_)
    · rw [h] at he; exact he _ _ rfl
    rw [h] at he hk
    have d8 := FStream.seek_data h
    exact hk _ _ rfl (by dsimp only; rw [d8, d6, d5, d4, d3, d2, d1])

/-- The rest of `reader`, once the first four bytes are there. -/
def finishIo (clocks : Clocks) (err : PyErr → Clocks → α) (none : α) (k : Clocks → Io α)
    (header : Bytes) : Io α :=
  if header ≠ [0x56, 0x67, 0x6d, 0x20] then .ret none else initIo clocks err k

/-- The same, in `freader`. -/
def ffinish (clocks : Clocks) (header : Bytes) (f : FStream) :
    Except PyErr (Option FVgm) × Clocks :=
  if header ≠ [0x56, 0x67, 0x6d, 0x20] then (.ok none, clocks)
  else
    match FVgm.init clocks f with
    | (.error e, c) => (.error e, c)
    | (.ok v, c) => (.ok (some v), c)

theorem finish_meets {clocks : Clocks} {err : PyErr → Clocks → α} {none : α} {k : Clocks → Io α}
    {header : Bytes} {f : FStream} {r : α} (hq : ∀ e c, Q .input e (err e c))
    (he : ∀ e c, ffinish clocks header f = (.error e, c) → r = err e c)
    (hn : ffinish clocks header f = (.ok .none, clocks) → r = none)
    (hk : ∀ v c, ffinish clocks header f = (.ok (some v), c) → v.stream.data = f.data →
      Meets Q (k c) v.stream r) :
    Meets Q (finishIo clocks err none k header) f r := by
  unfold finishIo
  unfold ffinish at he hn hk
  by_cases hh : header ≠ [0x56, 0x67, 0x6d, 0x20]
  · rw [if_pos hh] at hn ⊢
    exact .ret (hn rfl)
  · rw [if_neg hh] at he hk ⊢
    refine init_meets hq (fun e c h => ?_) (fun v c h hd => ?_)
    · rw [h] at he; exact he _ _ rfl
    · rw [h] at hk; exact hk _ _ rfl hd

theorem reader_meets {inflate : Bytes → Bytes × Option PyErr} {clocks : Clocks}
    {err : PyErr → Clocks → α} {none : α} {k : Clocks → Io α} {content : Bytes} {r : α}
    (hq : ∀ e c, Q .input e (err e c))
    (he : ∀ e c, freader inflate clocks content = (.error e, c) → r = err e c)
    (hn : freader inflate clocks content = (.ok .none, clocks) → r = none)
    (hk : ∀ v c, freader inflate clocks content = (.ok (some v), c) →
      v.stream.data.length ≤ content.length + (inflate content).1.length →
      Meets Q (k c) v.stream r) :
    Meets Q (readerIo inflate clocks err none k) ⟨content, 0, .none⟩ r := by
  change Meets Q (.read 4 (err · clocks) (fun header =>
    if header.take 2 = [0x1f, 0x8b] then
      .seek 0 (err · clocks)
        (.switch (fun c => ⟨(inflate c).1, 0, (inflate c).2⟩)
          (.read 4 (err · clocks) (finishIo clocks err none k)))
    else finishIo clocks err none k header)) _ r
  have hf : freader inflate clocks content =
    match (FStream.mk content 0 .none).read 4 with
    | (.error e, _) => (.error e, clocks)
    | (.ok header, f) =>
      if header.take 2 = [0x1f, 0x8b] then
        match (FStream.mk (inflate content).1 0 (inflate content).2).read 4 with
        | (.error e, _) => (.error e, clocks)
        | (.ok header, f) => ffinish clocks header f
      else ffinish clocks header f := rfl
  rw [hf] at he hn hk
  refine Meets.read (fun e => hq e _) (fun e f' h => ?_) (fun header f1 h => ?_)
  · rw [h] at he; exact he _ _ rfl
  rw [h] at he hn hk
  have d1 := FStream.read_data h
  dsimp only at he hn hk d1
  by_cases hz : header.take 2 = [0x1f, 0x8b]
  · rw [if_pos hz] at he hn hk ⊢
    refine Meets.seek (fun e => hq e _) (fun e h' => ?_) (fun f2 h' => ?_)
    · exfalso
      have hfail : f1.fail = .none := by
        have : ((FStream.mk content 0 .none).read 4).2.fail = .none := rfl
        rw [h] at this; exact this
      unfold FStream.seek at h'
      rw [hfail] at h'
      cases h'
    have d2 := FStream.seek_data h'
    refine Meets.switch ?_
    rw [d2, d1]
    refine Meets.read (fun e => hq e _) (fun e f' h => ?_) (fun header f1 h => ?_)
    · rw [h] at he; exact he _ _ rfl
    rw [h] at he hn hk
    have d3 := FStream.read_data h
    refine finish_meets hq he hn (fun v c h' hd => hk v c h' ?_)
    rw [hd, d3]; dsimp only; omega
  · rw [if_neg hz] at he hn hk ⊢
    refine finish_meets hq he hn (fun v c h' hd => hk v c h' ?_)
    rw [hd, d1]; omega

end VgmX
