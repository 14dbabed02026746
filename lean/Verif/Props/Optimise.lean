import Verif.Spec.Optimise
import Verif.Props.Alike
/-
Property C88: recordings from which superfluous register writes have been removed.
-/

namespace VgmX
open Spec

/-- The last value written to `r` that satisfies `f`. -/
def lastVal (h : List Event) (r : Nat) (f : Nat → Bool) : Nat := (writesTo h r f).getLast?.getD 0

theorem writesTo_append (a b : List Event) (r : Nat) (f : Nat → Bool) :
    writesTo (a ++ b) r f = writesTo a r f ++ writesTo b r f := by
  unfold writesTo; rw [List.filterMap_append]

theorem lastVal_append (a b : List Event) (r : Nat) (f : Nat → Bool) :
    lastVal (a ++ b) r f = (writesTo b r f).getLast?.getD (lastVal a r f) := by
  unfold lastVal
  rw [writesTo_append, List.getLast?_append]
  cases (writesTo b r f).getLast? <;> rfl

/-- The places that a key event of channel `c` looks at. -/
def Looks (c r : Nat) (f : Nat → Bool) : Prop :=
  Concerns r c ∧ ((r ≠ 0x19 ∧ f = fun _ => true) ∨
    (r = 0x19 ∧ (f = (fun v => decide (v < 128)) ∨ f = (fun v => decide (128 ≤ v)))))

/-- Two pasts in which a key event of channel `c` finds the same. -/
def AgreeOn (c : Nat) (p q : List Event) : Prop :=
  time p = time q ∧ ∀ r f, Looks c r f → lastVal p r f = lastVal q r f

theorem AgreeOn.append {c : Nat} {p q : List Event} (h : AgreeOn c p q) (t : List Event) :
    AgreeOn c (p ++ t) (q ++ t) := by
  refine ⟨by rw [time_append, time_append, h.1], fun r f hl => ?_⟩
  rw [lastVal_append, lastVal_append, h.2 r f hl]

theorem keyEventAt_agree {p q : List Event} {v : Nat} (h : AgreeOn (v % 8) p q) :
    keyEventAt p v = keyEventAt q v := by
  obtain ⟨ht, hl⟩ := h
  have h8 : v % 8 < 8 := Nat.mod_lt _ (by decide)
  generalize hc : v % 8 = c at *
  have hr : ∀ r, Concerns r c → r ≠ 0x19 → regVal p r = regVal q r :=
    fun r h1 h2 => hl r _ ⟨h1, .inl ⟨h2, rfl⟩⟩
  have hch : ∀ b, 0x20 ≤ b → b % 8 = 0 → regVal p (b + c) = regVal q (b + c) := by
    intro b h1 h2
    apply hr
    · exact .inr (.inr (.inr (.inr ⟨by omega, by omega⟩)))
    · omega
  have ham : (writesTo p 0x19 (fun v => decide (v < 128))).getLast?.getD 0 =
      (writesTo q 0x19 (fun v => decide (v < 128))).getLast?.getD 0 :=
    hl _ _ ⟨.inr (.inl rfl), .inr ⟨rfl, .inl rfl⟩⟩
  have hpm : (writesTo p 0x19 (fun v => decide (128 ≤ v))).getLast?.getD 0 =
      (writesTo q 0x19 (fun v => decide (128 ≤ v))).getLast?.getD 0 :=
    hl _ _ ⟨.inr (.inl rfl), .inr ⟨rfl, .inr rfl⟩⟩
  have h1b := hr 0x1B (.inr (.inr (.inl rfl))) (by decide)
  have h18 := hr 0x18 (.inl rfl) (by decide)
  have hop : ∀ k, operatorWith (· % 16) p c k = operatorWith (· % 16) q c k := by
    intro k
    have g : ∀ b, 0x20 ≤ b → b % 8 = 0 → regVal p (b + 8 * k + c) = regVal q (b + 8 * k + c) :=
      fun b h1 h2 => hch (b + 8 * k) (by omega) (by omega)
    simp only [operatorWith, g 0x40 (by decide) rfl, g 0x60 (by decide) rfl,
      g 0x80 (by decide) rfl, g 0xA0 (by decide) rfl, g 0xC0 (by decide) rfl,
      g 0xE0 (by decide) rfl]
  have hno : c = 7 → regVal p 0x0F = regVal q 0x0F :=
    fun h7 => hr 0x0F (.inr (.inr (.inr (.inl ⟨rfl, h7⟩)))) (by decide)
  have hbase : Spec.base p = Spec.base q := by
    simp only [Spec.base, h1b, h18, ham, hpm]
  have hchan : Spec.channel p c = Spec.channel q c := by
    simp only [Spec.channel, channelWith, hop, hch 0x20 (by decide) rfl, hch 0x38 (by decide) rfl]
    by_cases h7 : c = 7
    · rw [hno h7]
    · simp [h7]
  have hnote : noteConfig p c = noteConfig q c := by
    simp only [noteConfig, hch 0x20 (by decide) rfl, hch 0x28 (by decide) rfl,
      hch 0x30 (by decide) rfl]
  simp only [keyEventAt, hc, ht, hbase, hchan, hnote]

/-- If the key events so far are the same, and the coming ones find the same, all are. -/
theorem keyEvents_agree {p q : List Event} (hk : keyEvents p = keyEvents q) (t : List Event)
    (ha : ∀ u, Event.write 8 u ∈ t → AgreeOn (u % 8) p q) :
    keyEvents (p ++ t) = keyEvents (q ++ t) := by
  induction t using list_snoc_ind with
  | nil => simpa using hk
  | snoc t e ih =>
    rw [← List.append_assoc, ← List.append_assoc, keyEvents_snoc, keyEvents_snoc,
      ih (fun u hu => ha u (by simp [hu]))]
    congr 1
    cases e with
    | wait n => rfl
    | write r v =>
      by_cases h8 : r = 8
      · subst h8
        simp only [if_true]
        rw [keyEventAt_agree ((ha v (by simp)).append t)]
      · simp [h8]

theorem writesTo_one (r v s : Nat) (f : Nat → Bool) :
    writesTo [.write r v] s f = if r = s ∧ f v = true then [v] else [] := by
  by_cases h : r = s ∧ f v = true
  · rw [if_pos h]; simp [writesTo, h]
  · rw [if_neg h]; simp [writesTo, h]

theorem keyEvents_one {r v : Nat} (h8 : r ≠ 8) (p : List Event) :
    keyEvents (p ++ [.write r v]) = keyEvents p := by
  rw [keyEvents_snoc]; simp [h8]

/-- Writing `v` to `r` is only seen where `r` is looked at. -/
theorem agree_write {r v c : Nat} {p : List Event} (hc : ¬ Concerns r c) :
    AgreeOn c (p ++ [.write r v]) p := by
  refine ⟨by rw [time_append]; simp [time], fun s f hl => ?_⟩
  rw [lastVal_append, writesTo_one, if_neg]
  · rfl
  · rintro ⟨rfl, _⟩; exact hc hl.1

/-- Which filter a value passes depends on the place only. -/
theorem looks_place {c r : Nat} {f : Nat → Bool} (hl : Looks c r f) {v w : Nat}
    (hv : f v = true) : decide (SamePlace r v w) = f w := by
  rcases hl.2 with ⟨h1, rfl⟩ | ⟨rfl, rfl | rfl⟩
  · simp [SamePlace, h1]
  · simp only [decide_eq_true_eq] at hv
    by_cases hw : w < 128 <;> simp [SamePlace, hv, hw]
  · simp only [decide_eq_true_eq] at hv
    rw [decide_eq_decide]
    unfold SamePlace
    omega

theorem agree_there {r v : Nat} {p : List Event} (h : AlreadyThere p r v) (c : Nat) :
    AgreeOn c (p ++ [.write r v]) p := by
  refine ⟨by rw [time_append]; simp [time], fun s f hl => ?_⟩
  rw [lastVal_append, writesTo_one]
  split
  · rename_i hh
    obtain ⟨rfl, hv⟩ := hh
    have hf : (fun w => decide (SamePlace r v w)) = f := funext fun w => looks_place hl hv
    unfold AlreadyThere at h
    rw [hf] at h
    exact h.symm
  · rfl

/-- A value that is overwritten is not seen any more. -/
theorem agree_over {r v w : Nat} (hs : SamePlace r v w) (c : Nat) (p m : List Event) :
    AgreeOn c (p ++ .write r v :: m ++ [.write r w]) (p ++ m ++ [.write r w]) := by
  refine ⟨by simp only [time_append]; simp [time], fun s f hl => ?_⟩
  rw [lastVal_append, lastVal_append (p ++ m), writesTo_one]
  split
  · rfl
  · rename_i hn
    show lastVal (p ++ .write r v :: m) s f = lastVal (p ++ m) s f
    have e : p ++ .write r v :: m = p ++ [.write r v] ++ m := by simp
    rw [e, lastVal_append, lastVal_append p m]
    congr 1
    rw [lastVal_append, writesTo_one, if_neg]
    · rfl
    · rintro ⟨rfl, hv⟩
      refine hn ⟨rfl, ?_⟩
      rw [← looks_place hl hv]
      simpa using hs

theorem keyEvents_drop {p q : List Event} {r v : Nat} (h8 : r ≠ 8)
    (why : AlreadyThere p r v ∨ NeverUsed r v q) :
    keyEvents (p ++ q) = keyEvents (p ++ .write r v :: q) := by
  have e : ∀ t, p ++ .write r v :: t = p ++ [.write r v] ++ t := fun t => by simp
  symm
  rcases why with h | ⟨m, rest, rfl, hm, hr⟩
  · rw [e]
    exact keyEvents_agree (keyEvents_one h8 p) q (fun u _ => agree_there h _)
  · have h1 : keyEvents (p ++ .write r v :: m) = keyEvents (p ++ m) := by
      rw [e]
      exact keyEvents_agree (keyEvents_one h8 p) m (fun u hu => agree_write (hm u hu))
    rcases hr with rfl | ⟨w, rest', rfl, hs⟩
    · simpa using h1
    · have e1 : p ++ .write r v :: (m ++ .write r w :: rest') =
          p ++ .write r v :: m ++ [.write r w] ++ rest' := by simp
      have e2 : p ++ (m ++ .write r w :: rest') = p ++ m ++ [.write r w] ++ rest' := by simp
      rw [e1, e2]
      refine keyEvents_agree ?_ rest' (fun u _ => agree_over hs _ p m)
      rw [keyEvents_one h8, keyEvents_one h8, h1]

theorem shrinks_keyEvents {h h' : List Event} (hs : Shrinks h h') :
    keyEvents h' = keyEvents h := by
  induction hs with
  | none => rfl
  | drop _ h8 why ih => rw [keyEvents_drop h8 why, ih]

theorem shrinks_byte {h h' : List Event} (hs : Shrinks h h') (hb : ByteHistory h) :
    ByteHistory h' := by
  induction hs with
  | none => exact hb
  | drop _ _ _ ih =>
    intro e he
    apply ih
    rcases List.mem_append.mp he with he | he <;> simp [he]

/-! ### C88 -/

/-- C88. Removing superfluous register writes from a recording changes neither its instruments,
nor its notes, nor its ticks. -/
theorem c88_result (h h' : List Event) (hb : ByteHistory h) (hs : Shrinks h h') :
    (run h').configs = (run h).configs ∧
    (∀ c < 8, (run h').keyPressesOf c = (run h).keyPressesOf c) ∧
    (run h').ticks = (run h).ticks :=
  c76_key_events h h' hb (shrinks_byte hs hb) (shrinks_keyEvents hs)

/-- C88, for the exporters. -/
theorem c88_exports (h h' : List Event) (hb : ByteHistory h) (hs : Shrinks h h') :
    (∀ t, exportXrns (run h') t = exportXrns (run h) t) ∧
    (∀ t, extractTracks (run h') t = extractTracks (run h) t) ∧
    instrumentsText (run h') = instrumentsText (run h) ∧
    (run h').ticksPerNote = (run h).ticksPerNote :=
  alike_exports h h' hb (shrinks_byte hs hb) (shrinks_keyEvents hs)

/-- C88, for the program: an input file from which superfluous writes were removed, and whose
waits were then written in another way, gives the same outputs. -/
theorem c88_program (env : Env) (vgm : Str) (instr track : Option Str) (ticks : Option Int)
    (w w' : World) (content content' : Bytes) (cs cs' : List Cmd) (hn : vgm ≠ [] ∧ vgm ≠ ['-'])
    (ho : env.openErr vgm false = none) (ha : env.argsFile ≠ none)
    (hc : w.fs vgm = some content) (hc' : w'.fs vgm = some content')
    (hr : Readable env.gunzip content cs) (hr' : Readable env.gunzip content' cs')
    (h : List Event) (hs : Shrinks (history cs) h)
    (hw : timedWrites 0 (history cs') = timedWrites 0 h) :
    let x := main env (some vgm) instr track ticks w
    let x' := main env (some vgm) instr track ticks w'
    x'.1 = x.1 ∧
    (∃ out, x.2.stdout = w.stdout ++ out ∧ x'.2.stdout = w'.stdout ++ out) ∧
    ∀ n, w'.fs n = w.fs n → x'.2.fs n = x.2.fs n :=
  alike_program env vgm instr track ticks w w' content content' cs cs' hn ho ha hc hc' hr hr'
    (by rw [keyEvents_timed (history cs'), hw, ← keyEvents_timed h, shrinks_keyEvents hs])

/-- A recording with superfluous writes: a level written twice, a key code that is overwritten
before the next key-on of its channel, a value for another channel after its last key event. -/
def wasteful : List Event :=
  [.write 0x61 40, .write 0x29 0x4A, .write 0x61 40, .wait 100, .write 0x08 0x19,
   .write 0x29 0x33, .wait 50, .write 0x08 0x1A, .write 0x29 0x4C, .write 0x22 7, .wait 7,
   .write 0x08 0x19]

/-- What is left without them. -/
def thrifty : List Event :=
  [.write 0x61 40, .write 0x29 0x4A, .wait 100, .write 0x08 0x19, .wait 50, .write 0x08 0x1A,
   .write 0x29 0x4C, .wait 7, .write 0x08 0x19]

theorem wasteful_shrinks : Shrinks wasteful thrifty := by
  have h1 : Shrinks wasteful ([.write 0x61 40, .write 0x29 0x4A] ++
      [.wait 100, .write 0x08 0x19, .write 0x29 0x33, .wait 50, .write 0x08 0x1A,
        .write 0x29 0x4C, .write 0x22 7, .wait 7, .write 0x08 0x19]) :=
    .drop (r := 0x61) (v := 40) .none (by decide) (.inl (by decide))
  have h2 : Shrinks wasteful ([.write 0x61 40, .write 0x29 0x4A, .wait 100, .write 0x08 0x19] ++
      [.wait 50, .write 0x08 0x1A, .write 0x29 0x4C, .write 0x22 7, .wait 7, .write 0x08 0x19]) :=
    .drop (r := 0x29) (v := 0x33) h1 (by decide) (.inr ⟨[.wait 50, .write 0x08 0x1A],
      [.write 0x29 0x4C, .write 0x22 7, .wait 7, .write 0x08 0x19], rfl,
      by intro u hu; simp at hu; subst hu; decide,
      .inr ⟨0x4C, _, rfl, by decide⟩⟩)
  exact .drop (p := [.write 0x61 40, .write 0x29 0x4A, .wait 100, .write 0x08 0x19, .wait 50,
      .write 0x08 0x1A, .write 0x29 0x4C]) (q := [.wait 7, .write 0x08 0x19])
    (r := 0x22) (v := 7) h2 (by decide) (.inr ⟨[.wait 7, .write 0x08 0x19], [], rfl,
      by intro u hu; simp at hu; subst hu; decide, .inl rfl⟩)

/-- The example has three notes on two channels and two instruments. -/
example : ByteHistory wasteful ∧ wasteful.length = thrifty.length + 3 ∧
    (run thrifty).configs.length = 2 ∧ ((run thrifty).keyPressesOf 1).length = 2 ∧
    ((run thrifty).keyPressesOf 2).length = 1 := by decide +kernel

/-- Register 0x19 does hold two values: a write to it may be needed though it is followed by
another. -/
theorem c88_two_places : ∃ (p m rest : List Event) (v w : Nat),
    (∀ u, Event.write 8 u ∉ m) ∧
    ByteHistory (p ++ .write 0x19 v :: (m ++ .write 0x19 w :: rest)) ∧
    (run (p ++ (m ++ .write 0x19 w :: rest))).configs ≠
      (run (p ++ .write 0x19 v :: (m ++ .write 0x19 w :: rest))).configs :=
  ⟨[], [], [.wait 1, .write 0x08 0x19], 5, 200, by simp, by decide +kernel, by decide +kernel⟩

end VgmX
