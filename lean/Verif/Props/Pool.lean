import Verif.Lemmas.Pool
import Verif.Lemmas.Regs
/-
C114: the classes of settings, used by a caller directly.
-/

namespace VgmX
open Spec

/-! ### Copies -/

theorem Pool.Own.value {p : Pool} {c : Nat} {o : PChan} {l : List Nat} (h : p.Own c o l) :
    channelOf p c = (operatorsAt p.ops l).map
      (fun v => ⟨v, o.fb, o.ams, o.pms, o.connection, o.noise, o.noiseFreq⟩) := by
  unfold channelOf
  rw [h.chan]
  dsimp only
  rw [h.list]
  dsimp only
  cases operatorsAt p.ops l <;> rfl

theorem Pool.Own.calls {c : Nat} {o : PChan} {l : List Nat} : ∀ (cs : List PCall) {p : Pool},
    p.Sound → p.Own c o l → (∀ x ∈ cs, touches c x = false) →
    channelOf (p.calls cs) c = channelOf p c
  | [], _, _, _, _ => rfl
  | x :: cs, p, hs, h, hx => by
    obtain ⟨h1, h2⟩ := h.call hs x (hx x (by simp))
    rw [Pool.calls, Pool.Own.calls cs (hs.call x) h1 (fun y hy => hx y (by simp [hy])), h1.value,
      h.value, operatorsAt_congr h2]

/-- Other channels do not notice. -/
theorem Pool.newChan_others {p : Pool} (hs : p.Sound) (other : Option Nat) (d : Nat)
    (hd : d ≠ p.chans.length) : channelOf (p.newChan other).2 d = channelOf p d := by
  rcases p.newChan_shape hs other with ⟨_, e⟩ | ⟨more, l, o, e, ho, hl, _⟩
  · rw [e]
  · rw [e]
    unfold channelOf
    by_cases hlt : d < p.chans.length
    · dsimp only
      rw [List.getElem?_append_left hlt]
      cases hc : p.chans[d]? with
      | none => rfl
      | some o' =>
        dsimp only
        rw [List.getElem?_append_left (hs.chans o' (List.mem_of_getElem? hc))]
        cases hl' : p.lists[o'.ops]? with
        | none => rfl
        | some l' =>
          dsimp only
          rw [operatorsAt_congr (fun a ha =>
            List.getElem?_append_left (hs.lists l' (List.mem_of_getElem? hl') a ha))]
    · dsimp only
      rw [List.getElem?_eq_none (by rw [List.length_append]; simp; omega),
        List.getElem?_eq_none (by omega)]

/-- Every channel has a value. -/
theorem Pool.Sound.channel {p : Pool} (hs : p.Sound) {c : Nat} (hc : c < p.chans.length) :
    ∃ v, channelOf p c = some v := by
  unfold channelOf
  rw [List.getElem?_eq_getElem hc]
  dsimp only
  have ho := hs.chans p.chans[c] (List.getElem_mem hc)
  rw [List.getElem?_eq_getElem ho]
  dsimp only
  obtain ⟨v, hv⟩ := operatorsAt_some (ops := p.ops) (hs.lists _ (List.getElem_mem ho))
  rw [hv]
  exact ⟨_, rfl⟩

theorem Pool.chans_pos : ∀ (cs : List PCall) {p : Pool}, 0 < p.chans.length → 0 < (p.calls cs).chans.length
  | [], _, h => h
  | x :: cs, p, h => by
    refine Pool.chans_pos cs ?_
    have hb : ∀ l i, (p.bind l i).2.chans = p.chans := by
      intro l i
      unfold Pool.bind
      split
      · rfl
      · split <;> rfl
    cases x with
    | newOp other => cases other with
      | none => exact h
      | some x => unfold Pool.call; dsimp only; split <;> exact h
    | newNote other => cases other with
      | none => exact h
      | some x => unfold Pool.call; dsimp only; split <;> exact h
    | newBase other => cases other with
      | none => exact h
      | some x => unfold Pool.call; dsimp only; split <;> exact h
    | newChan other =>
      show 0 < (p.newChan other).2.chans.length
      unfold Pool.newChan
      split
      · simp
      · split
        · exact h
        · simp
    | newConf id base chan operators => unfold Pool.call; dsimp only; split <;> exact h
    | getOp c i => show 0 < (p.bind (p.opList c) i).2.chans.length; rw [hb]; exact h
    | getConfOp k i =>
      unfold Pool.call
      dsimp only
      split
      · exact h
      · rw [hb]; exact h
    | editOp x v => unfold Pool.call; dsimp only; split <;> exact h
    | editNote n v => unfold Pool.call; dsimp only; split <;> exact h
    | editBase n v => unfold Pool.call; dsimp only; split <;> exact h
    | editChan c fb ams pms connection noise noiseFreq =>
      unfold Pool.call
      dsimp only
      split
      · exact h
      · simpa using h
    | setOps c d =>
      unfold Pool.call
      dsimp only
      split
      · simpa using h
      · exact h
    | setItem c i x =>
      unfold Pool.call
      dsimp only
      split
      · split <;> exact h
      · exact h
    | append c x => unfold Pool.call; dsimp only; split <;> exact h
    | delItem c i =>
      unfold Pool.call
      dsimp only
      split
      · split <;> exact h
      · exact h
    | eqOp x y => unfold Pool.call; dsimp only; split <;> exact h
    | eqNote x y => unfold Pool.call; dsimp only; split <;> exact h
    | eqBase x y => unfold Pool.call; dsimp only; split <;> exact h
    | eqChan x y => unfold Pool.call; dsimp only; split <;> exact h
    | compare k b c operators => unfold Pool.call; dsimp only; split <;> exact h

/-- C114. Whatever the caller has done before (also if channels share lists and operators):
`ChannelConfig(other)` and `copy.deepcopy(other)` give a new object with the settings `other` has at
this time, and `ChannelConfig()` one with four operators and zeros throughout; no other channel
changes. And whatever the caller does later without touching it, to `other` too, it stays as it
is. -/
theorem c114_copy (cs : List PCall) (other : Option Nat) (c : Nat)
    (h : ((Pool.start.calls cs).call (.newChan other)).1 = .made c) :
    let p := Pool.start.calls cs
    let q := (p.call (.newChan other)).2
    (∃ v, channelOf q c = some v ∧ (other = none → v = {}) ∧
      (∀ d, other = some d → channelOf p d = some v)) ∧
    channelOf p c = none ∧
    (∀ d, d ≠ c → channelOf q d = channelOf p d) ∧
    ∀ cs', (∀ x ∈ cs', touches c x = false) → channelOf (q.calls cs') c = channelOf q c := by
  intro p q
  have hs : p.Sound := Pool.sound_start.calls cs
  have hpos : 0 < p.chans.length := Pool.chans_pos cs (by decide)
  replace h : (p.newChan other).1 = .made c := h
  have hq : q = (p.newChan other).2 := rfl
  have hqs : q.Sound := hs.newChan other
  have hothers := p.newChan_others hs other
  rw [← hq] at hothers
  rcases p.newChan_shape hs other with ⟨_, e⟩ | ⟨more, l, o, e, ho, hl, hv⟩
  · rw [e] at h; cases h
  · rw [e] at h hq
    dsimp only at h hq
    cases h
    have hlen : ∀ x ∈ p.lists, ∀ a ∈ x, a ∉ l := by
      intro x hx a ha hal
      have h1 := hs.lists x hx a ha
      have h2 := (hl a hal).1
      omega
    have own : q.Own p.chans.length o l := by
      rw [hq]
      refine ⟨?_, ?_, ?_, ?_, ?_, ?_, by omega⟩
      · simp
      · simp [ho]
      · intro d o' hd hd'
        dsimp only at hd'
        by_cases hlt : d < p.chans.length
        · rw [List.getElem?_append_left hlt] at hd'
          have := hs.chans o' (List.mem_of_getElem? hd')
          omega
        · rw [List.getElem?_append_right (by omega)] at hd'
          have := (List.getElem?_eq_some_iff.mp hd').1
          simp at this
          omega
      · intro f hf
        have := (hs.confs f hf).2
        omega
      · intro a ha hal
        have h1 := hs.vars a ha
        have h2 := (hl a hal).1
        omega
      · intro j l' hj hj' a ha hal
        dsimp only at hj'
        by_cases hlt : j < p.lists.length
        · rw [List.getElem?_append_left hlt] at hj'
          exact hlen l' (List.mem_of_getElem? hj') a ha hal
        · rw [List.getElem?_append_right (by omega)] at hj'
          have := (List.getElem?_eq_some_iff.mp hj').1
          simp at this
          omega
    have hops : q.ops = p.ops ++ more := by rw [hq]
    refine ⟨?_, ?_, fun d hd => hothers d hd, fun cs' hcs => own.calls cs' hqs hcs⟩
    · rcases hv with ⟨rfl, h1, h2⟩ | ⟨d, od, rfl, hd, h1, h2⟩
      · refine ⟨{}, ?_, fun _ => rfl, fun d hd => by cases hd⟩
        rw [own.value, hops, h1, h2]
        rfl
      · obtain ⟨v, hv⟩ := hs.channel (List.getElem?_eq_some_iff.mp hd).1
        refine ⟨v, ?_, fun hn => (by cases hn), fun d' hd' => by cases hd'; exact hv⟩
        rw [own.value, hops, h1, h2, ← hv]
        unfold channelOf
        rw [hd]
        dsimp only
        have := hs.chans od (List.mem_of_getElem? hd)
        rw [List.getElem?_eq_getElem this]
        dsimp only [Option.getD_some]
        cases operatorsAt p.ops p.lists[od.ops] <;> rfl
    · unfold channelOf
      rw [List.getElem?_eq_none (Nat.le_refl _)]

/-! ### Working on a copy -/

/-- What has happened since `p`, if only channel number `p.chans.length` and new operators were
worked on. -/
structure Pool.Within (p q : Pool) : Prop where
  chan : ∃ o, q.chans[p.chans.length]? = some o ∧ o.ops = p.lists.length
  chans : ∀ d, d ≠ p.chans.length → q.chans[d]? = p.chans[d]?
  lists : ∀ j, j < p.lists.length → q.lists[j]? = p.lists[j]?
  ops : ∀ a, a < p.ops.length → q.ops[a]? = p.ops[a]?
  opsLen : p.ops.length ≤ q.ops.length
  vars : ∀ x, x < p.vars.length → q.vars[x]? = p.vars[x]?
  varsLen : p.vars.length ≤ q.vars.length
  newVars : ∀ x a, p.vars.length ≤ x → q.vars[x]? = some a → p.ops.length ≤ a
  own : ∀ a ∈ (q.lists[p.lists.length]?).getD [], p.ops.length ≤ a
  bases : q.bases = p.bases
  notes : q.notes = p.notes
  confs : q.confs = p.confs

theorem Pool.Within.newVar {p q : Pool} (h : p.Within q) (v : OperatorConfig) :
    p.Within { q with ops := q.ops ++ [v], vars := q.vars ++ [q.ops.length] } := by
  have h1 := h.opsLen
  have h2 := h.varsLen
  refine ⟨h.chan, h.chans, h.lists, ?_, ?_, ?_, ?_, ?_, h.own, h.bases, h.notes, h.confs⟩
  · intro a ha
    show (q.ops ++ [v])[a]? = _
    rw [List.getElem?_append_left (by omega), h.ops a ha]
  · show _ ≤ (q.ops ++ [v]).length
    rw [List.length_append]; omega
  · intro x hx
    show (q.vars ++ [q.ops.length])[x]? = _
    rw [List.getElem?_append_left (by omega), h.vars x hx]
  · show _ ≤ (q.vars ++ [q.ops.length]).length
    rw [List.length_append]; omega
  · intro x a hx ha
    replace ha : (q.vars ++ [q.ops.length])[x]? = some a := ha
    by_cases hlt : x < q.vars.length
    · rw [List.getElem?_append_left hlt] at ha
      exact h.newVars x a hx ha
    · rw [List.getElem?_append_right (by omega)] at ha
      have := List.mem_of_getElem? ha
      rw [List.mem_singleton] at this
      omega

theorem Pool.Within.setList {p q : Pool} (h : p.Within q) (l : List Nat)
    (hl : ∀ a ∈ l, p.ops.length ≤ a) : p.Within { q with lists := q.lists.set p.lists.length l } := by
  refine ⟨h.chan, h.chans, ?_, h.ops, h.opsLen, h.vars, h.varsLen, h.newVars, ?_, h.bases, h.notes,
    h.confs⟩
  · intro j hj
    show (q.lists.set p.lists.length l)[j]? = _
    rw [List.getElem?_set_ne (by omega), h.lists j hj]
  · show ∀ a ∈ ((q.lists.set p.lists.length l)[p.lists.length]?).getD [], _
    rw [List.getElem?_set]
    split
    · split
      · exact hl
      · intro a ha; cases ha
    · rename_i hn; exact absurd rfl hn

theorem Pool.Within.call {p q : Pool} (h : p.Within q) (x : PCall)
    (hx : onlyWithin p.chans.length p.vars.length x = true) : p.Within (q.call x).2 := by
  obtain ⟨o, hc, ho⟩ := h.chan
  cases x with
  | newOp other =>
    cases other with
    | none => exact h.newVar _
    | some x =>
      unfold Pool.call
      cases hv : q.vars[x]? with
      | none => simpa [hv] using h
      | some a => simpa only [hv] using h.newVar _
  | getOp d i =>
    have hd : d = p.chans.length := by simpa [onlyWithin] using hx
    subst hd
    show p.Within (q.bind (q.opList _) i).2
    unfold Pool.opList
    rw [hc]
    dsimp only
    rw [ho]
    cases hl : q.lists[p.lists.length]? with
    | none => exact h
    | some l =>
      unfold Pool.bind
      cases hi : l[i]? with
      | none => simpa [hi] using h
      | some a =>
        simp only [hi]
        have h2 := h.varsLen
        refine ⟨h.chan, h.chans, h.lists, h.ops, h.opsLen, ?_, ?_, ?_, h.own, h.bases, h.notes,
          h.confs⟩
        · intro x hx
          show (q.vars ++ [a])[x]? = _
          rw [List.getElem?_append_left (by omega), h.vars x hx]
        · show _ ≤ (q.vars ++ [a]).length
          rw [List.length_append]; omega
        · intro x b hx hb
          replace hb : (q.vars ++ [a])[x]? = some b := hb
          by_cases hlt : x < q.vars.length
          · rw [List.getElem?_append_left hlt] at hb
            exact h.newVars x b hx hb
          · rw [List.getElem?_append_right (by omega)] at hb
            have := List.mem_of_getElem? hb
            rw [List.mem_singleton] at this
            subst this
            have := h.own
            rw [hl] at this
            exact this _ (List.mem_of_getElem? hi)
  | editOp y v =>
    have hy : p.vars.length ≤ y := by simpa [onlyWithin] using hx
    unfold Pool.call
    cases hv : q.vars[y]? with
    | none => simpa [hv] using h
    | some a =>
      simp only [hv]
      have ha := h.newVars y a hy hv
      refine ⟨h.chan, h.chans, h.lists, ?_, by simpa using h.opsLen, h.vars, h.varsLen, h.newVars,
        h.own, h.bases, h.notes, h.confs⟩
      intro b hb
      show (q.ops.set a v)[b]? = _
      rw [List.getElem?_set_ne (by omega), h.ops b hb]
  | editChan d fb ams pms connection noise noiseFreq =>
    have hd : d = p.chans.length := by simpa [onlyWithin] using hx
    subst hd
    unfold Pool.call
    simp only [hc]
    refine ⟨?_, ?_, h.lists, h.ops, h.opsLen, h.vars, h.varsLen, h.newVars, h.own, h.bases, h.notes,
      h.confs⟩
    · refine ⟨_, List.getElem?_set_self (List.getElem?_eq_some_iff.mp hc).1, ho⟩
    · intro d hd
      show (q.chans.set _ _)[d]? = _
      rw [List.getElem?_set_ne (fun e => hd e.symm), h.chans d hd]
  | setItem d i y =>
    have hd : d = p.chans.length ∧ p.vars.length ≤ y := by simpa [onlyWithin] using hx
    obtain ⟨rfl, hy⟩ := hd
    unfold Pool.call
    cases hv : q.vars[y]? with
    | none => simpa [hc, hv] using h
    | some a =>
      simp only [hc, hv, ho]
      split
      · refine h.setList _ ?_
        intro b hb
        rcases mem_set_or hb with hb | rfl
        · exact h.own b hb
        · exact h.newVars y _ hy hv
      · exact h
  | append d y =>
    have hd : d = p.chans.length ∧ p.vars.length ≤ y := by simpa [onlyWithin] using hx
    obtain ⟨rfl, hy⟩ := hd
    unfold Pool.call
    cases hv : q.vars[y]? with
    | none => simpa [hc, hv] using h
    | some a =>
      simp only [hc, hv, ho]
      refine h.setList _ ?_
      intro b hb
      rcases List.mem_append.mp hb with hb | hb
      · exact h.own b hb
      · rw [List.mem_singleton] at hb
        subst hb
        exact h.newVars y _ hy hv
  | delItem d i =>
    have hd : d = p.chans.length := by simpa [onlyWithin] using hx
    subst hd
    unfold Pool.call
    simp only [hc, ho]
    split
    · refine h.setList _ ?_
      intro b hb
      exact h.own b (List.mem_of_mem_eraseIdx hb)
    · exact h
  | newNote other => cases hx
  | newBase other => cases hx
  | newChan other => cases hx
  | newConf id base chan operators => cases hx
  | getConfOp k i => cases hx
  | editNote n v => cases hx
  | editBase n v => cases hx
  | setOps c d => cases hx
  | eqOp x y => cases hx
  | eqNote x y => cases hx
  | eqBase x y => cases hx
  | eqChan x y => cases hx
  | compare k b c operators => cases hx

theorem Pool.Within.calls {p : Pool} : ∀ (cs : List PCall) {q : Pool}, p.Within q →
    (∀ x ∈ cs, onlyWithin p.chans.length p.vars.length x = true) → p.Within (q.calls cs)
  | [], _, h, _ => h
  | x :: cs, _, h, hx =>
    Pool.Within.calls cs (h.call x (hx x (by simp))) (fun y hy => hx y (by simp [hy]))

theorem Pool.Within.channel {p q : Pool} (hs : p.Sound) (h : p.Within q) (d : Nat)
    (hd : d ≠ p.chans.length) : channelOf q d = channelOf p d := by
  unfold channelOf
  rw [h.chans d hd]
  cases hc : p.chans[d]? with
  | none => rfl
  | some o =>
    dsimp only
    rw [h.lists _ (hs.chans o (List.mem_of_getElem? hc))]
    cases hl : p.lists[o.ops]? with
    | none => rfl
    | some l =>
      dsimp only
      rw [operatorsAt_congr (fun a ha => h.ops a (hs.lists l (List.mem_of_getElem? hl) a ha))]

/-- C114. Conversely, working on the new channel - its settings, its operators, its list - changes
nothing that there was before: no other channel, no operator, base, note or instrument. -/
theorem c114_isolated (cs : List PCall) (other : Option Nat) (c : Nat)
    (h : ((Pool.start.calls cs).call (.newChan other)).1 = .made c) (cs' : List PCall)
    (hcs : ∀ x ∈ cs', onlyWithin c (Pool.start.calls cs).vars.length x = true) :
    let p := Pool.start.calls cs
    let q := (p.call (.newChan other)).2.calls cs'
    (∀ d, d ≠ c → channelOf q d = channelOf p d) ∧
    (∀ x, x < p.vars.length → operatorOf q x = operatorOf p x) ∧
    q.bases = p.bases ∧ q.notes = p.notes ∧ ∀ k, instrumentOf q k = instrumentOf p k := by
  intro p q
  have hs : p.Sound := Pool.sound_start.calls cs
  have hw : p.chans.length = c ∧ p.Within (p.call (.newChan other)).2 := by
    rcases p.newChan_shape hs other with ⟨_, e⟩ | ⟨more, l, o, e, ho, hl, _⟩
    · replace h : (p.newChan other).1 = .made c := h
      rw [e] at h
      cases h
    · replace h : (p.newChan other).1 = .made c := h
      show _ ∧ p.Within (p.newChan other).2
      rw [e] at h ⊢
      refine ⟨PGot.made.inj h, ⟨o, by simp, ho⟩, ?_, ?_, ?_, ?_, fun _ _ => rfl, Nat.le_refl _, ?_, ?_,
        rfl, rfl, rfl⟩
      · intro d hd
        show (p.chans ++ [o])[d]? = _
        by_cases hlt : d < p.chans.length
        · exact List.getElem?_append_left hlt
        · rw [List.getElem?_eq_none (by rw [List.length_append]; simp; omega),
            List.getElem?_eq_none (by omega)]
      · intro j hj; exact List.getElem?_append_left hj
      · intro a ha; exact List.getElem?_append_left ha
      · show _ ≤ (p.ops ++ more).length
        rw [List.length_append]; omega
      · intro x a hx ha
        have := (List.getElem?_eq_some_iff.mp ha).1
        change x < p.vars.length at this
        omega
      · show ∀ a ∈ ((p.lists ++ [l])[p.lists.length]?).getD [], _
        rw [List.getElem?_append_right (Nat.le_refl _)]
        simp only [Nat.sub_self, List.getElem?_cons_zero, Option.getD_some]
        exact fun a ha => (hl a ha).1
  obtain ⟨rfl, hw⟩ := hw
  have hq : p.Within q := hw.calls cs' hcs
  refine ⟨fun d hd => hq.channel hs d hd, ?_, hq.bases, hq.notes, ?_⟩
  · intro x hx
    unfold operatorOf
    rw [hq.vars x hx]
    cases hv : p.vars[x]? with
    | none => rfl
    | some a => exact hq.ops a (hs.vars a (List.mem_of_getElem? hv))
  · intro k
    unfold instrumentOf
    rw [hq.confs]
    cases hk : p.confs[k]? with
    | none => rfl
    | some f =>
      dsimp only
      have := (hs.confs f (List.mem_of_getElem? hk)).2
      rw [hq.bases, hq.channel hs f.channel (by omega)]

/-! ### Operators, bases and notes -/

/-- The operator `a` can be reached through variable `x` only. -/
structure Pool.Solo (p : Pool) (x a : Nat) : Prop where
  at_ : p.vars[x]? = some a
  vars : ∀ y, y ≠ x → p.vars[y]? ≠ some a
  lists : ∀ l ∈ p.lists, a ∉ l

theorem Pool.Solo.addVar {p : Pool} {x a : Nat} (h : p.Solo x a) (b : Nat) (hb : b ≠ a) :
    ({ p with vars := p.vars ++ [b] } : Pool).Solo x a := by
  have hx := (List.getElem?_eq_some_iff.mp h.at_).1
  refine ⟨?_, ?_, h.lists⟩
  · show (p.vars ++ [b])[x]? = _
    rw [List.getElem?_append_left hx]
    exact h.at_
  · intro y hy
    show (p.vars ++ [b])[y]? ≠ _
    by_cases hlt : y < p.vars.length
    · rw [List.getElem?_append_left hlt]
      exact h.vars y hy
    · intro e
      rw [List.getElem?_append_right (by omega)] at e
      have := List.mem_of_getElem? e
      rw [List.mem_singleton] at this
      exact hb this.symm

theorem Pool.Solo.bindOf {p : Pool} {x a : Nat} (h : p.Solo x a) (d i : Nat) :
    (p.bind (p.opList d) i).2.Solo x a ∧ (p.bind (p.opList d) i).2.ops = p.ops := by
  unfold Pool.opList
  cases ho : p.chans[d]? with
  | none => exact ⟨h, rfl⟩
  | some o' =>
    dsimp only
    cases hl : p.lists[o'.ops]? with
    | none => exact ⟨h, rfl⟩
    | some l' =>
      unfold Pool.bind
      cases hi : l'[i]? with
      | none => exact ⟨by simpa [hi] using h, by simp [hi]⟩
      | some b =>
        simp only [hi]
        refine ⟨h.addVar b ?_, by first | rfl | trivial⟩
        rintro rfl
        exact h.lists l' (List.mem_of_getElem? hl) (List.mem_of_getElem? hi)

theorem Pool.Solo.setList {p : Pool} {x a : Nat} (h : p.Solo x a) (j : Nat) (l : List Nat)
    (hl : a ∉ l) : ({ p with lists := p.lists.set j l } : Pool).Solo x a := by
  refine ⟨h.at_, h.vars, ?_⟩
  intro l' hl'
  rcases mem_set_or hl' with hl' | rfl
  · exact h.lists l' hl'
  · exact hl

theorem Pool.Solo.listAt {p : Pool} {x a : Nat} (h : p.Solo x a) (j : Nat) :
    a ∉ (p.lists[j]?).getD [] := by
  cases e : p.lists[j]? with
  | none => simp
  | some l' => exact h.lists l' (List.mem_of_getElem? e)

theorem Pool.Solo.newVar {p : Pool} (hs : p.Sound) {x a : Nat} (h : p.Solo x a) (v : OperatorConfig) :
    ({ p with ops := p.ops ++ [v], vars := p.vars ++ [p.ops.length] } : Pool).Solo x a ∧
      (p.ops ++ [v])[a]? = p.ops[a]? := by
  have hlt := hs.vars a (List.mem_of_getElem? h.at_)
  have := h.addVar p.ops.length (by omega)
  exact ⟨⟨this.at_, this.vars, this.lists⟩, List.getElem?_append_left hlt⟩

theorem Pool.Solo.call {p : Pool} (hs : p.Sound) {x a : Nat} (h : p.Solo x a) (z : PCall)
    (hz : touchesVar x z = false) : (p.call z).2.Solo x a ∧ (p.call z).2.ops[a]? = p.ops[a]? := by
  have hlt := hs.vars a (List.mem_of_getElem? h.at_)
  cases z with
  | newOp other =>
    cases other with
    | none => exact h.newVar hs _
    | some y =>
      unfold Pool.call
      cases hx : p.vars[y]? with
      | none => simpa [hx] using h
      | some b => simpa only [hx] using h.newVar hs _
  | newNote other =>
    cases other with
    | none => exact ⟨⟨h.at_, h.vars, h.lists⟩, rfl⟩
    | some n =>
      unfold Pool.call
      dsimp only
      split
      · exact ⟨h, rfl⟩
      · exact ⟨⟨h.at_, h.vars, h.lists⟩, rfl⟩
  | newBase other =>
    cases other with
    | none => exact ⟨⟨h.at_, h.vars, h.lists⟩, rfl⟩
    | some n =>
      unfold Pool.call
      dsimp only
      split
      · exact ⟨h, rfl⟩
      · exact ⟨⟨h.at_, h.vars, h.lists⟩, rfl⟩
  | newChan other =>
    show (p.newChan other).2.Solo x a ∧ (p.newChan other).2.ops[a]? = p.ops[a]?
    rcases p.newChan_shape hs other with ⟨_, e⟩ | ⟨more, l, o, e, ho, hl, _⟩
    · rw [e]; exact ⟨h, rfl⟩
    · rw [e]
      refine ⟨⟨h.at_, h.vars, ?_⟩, List.getElem?_append_left hlt⟩
      intro l' hl'
      rcases List.mem_append.mp hl' with hl' | hl'
      · exact h.lists l' hl'
      · rw [List.mem_singleton] at hl'
        subst hl'
        intro ha
        have := (hl a ha).1
        omega
  | newConf id base chan operators =>
    unfold Pool.call
    dsimp only
    split
    · exact ⟨⟨h.at_, h.vars, h.lists⟩, rfl⟩
    · exact ⟨h, rfl⟩
  | getOp d i =>
    have := h.bindOf d i
    exact ⟨this.1, congrArg (·[a]?) this.2⟩
  | getConfOp k i =>
    unfold Pool.call
    dsimp only
    split
    · exact ⟨h, rfl⟩
    · rename_i f _
      have := h.bindOf f.channel i
      exact ⟨this.1, congrArg (·[a]?) this.2⟩
  | editOp y v =>
    have hy : y ≠ x := by simpa [touchesVar] using hz
    unfold Pool.call
    cases hv : p.vars[y]? with
    | none => simpa [hv] using h
    | some b =>
      simp only [hv]
      refine ⟨⟨h.at_, h.vars, h.lists⟩, ?_⟩
      have hne : b ≠ a := by
        rintro rfl
        exact h.vars y hy hv
      exact List.getElem?_set_ne hne
  | editNote n v =>
    unfold Pool.call
    dsimp only
    split
    · exact ⟨⟨h.at_, h.vars, h.lists⟩, rfl⟩
    · exact ⟨h, rfl⟩
  | editBase n v =>
    unfold Pool.call
    dsimp only
    split
    · exact ⟨⟨h.at_, h.vars, h.lists⟩, rfl⟩
    · exact ⟨h, rfl⟩
  | editChan d fb ams pms connection noise noiseFreq =>
    unfold Pool.call
    dsimp only
    split
    · exact ⟨h, rfl⟩
    · exact ⟨⟨h.at_, h.vars, h.lists⟩, rfl⟩
  | setOps d e =>
    unfold Pool.call
    dsimp only
    split
    · exact ⟨⟨h.at_, h.vars, h.lists⟩, rfl⟩
    · exact ⟨h, rfl⟩
  | setItem d i y =>
    have hy : y ≠ x := by simpa [touchesVar] using hz
    unfold Pool.call
    cases hc : p.chans[d]? with
    | none => simpa [hc] using h
    | some o' =>
      cases hv : p.vars[y]? with
      | none => simpa [hc, hv] using h
      | some b =>
        simp only [hc, hv]
        split
        · refine ⟨h.setList _ _ ?_, rfl⟩
          intro ha
          rcases mem_set_or ha with ha | rfl
          · exact h.listAt _ ha
          · exact h.vars y hy hv
        · exact ⟨h, rfl⟩
  | append d y =>
    have hy : y ≠ x := by simpa [touchesVar] using hz
    unfold Pool.call
    cases hc : p.chans[d]? with
    | none => simpa [hc] using h
    | some o' =>
      cases hv : p.vars[y]? with
      | none => simpa [hc, hv] using h
      | some b =>
        simp only [hc, hv]
        refine ⟨h.setList _ _ ?_, by first | rfl | trivial⟩
        intro ha
        rcases List.mem_append.mp ha with ha | ha
        · exact h.listAt _ ha
        · rw [List.mem_singleton] at ha
          subst ha
          exact h.vars y hy hv
  | delItem d i =>
    unfold Pool.call
    cases hc : p.chans[d]? with
    | none => simpa [hc] using h
    | some o' =>
      simp only [hc]
      split
      · exact ⟨h.setList _ _ (fun ha => h.listAt _ (List.mem_of_mem_eraseIdx ha)), rfl⟩
      · exact ⟨h, rfl⟩
  | eqOp x y => unfold Pool.call; dsimp only; split <;> exact ⟨h, rfl⟩
  | eqNote x y => unfold Pool.call; dsimp only; split <;> exact ⟨h, rfl⟩
  | eqBase x y => unfold Pool.call; dsimp only; split <;> exact ⟨h, rfl⟩
  | eqChan x y => unfold Pool.call; dsimp only; split <;> exact ⟨h, rfl⟩
  | compare k b c operators => unfold Pool.call; dsimp only; split <;> exact ⟨h, rfl⟩

theorem Pool.Solo.calls {x a : Nat} : ∀ (cs : List PCall) {p : Pool}, p.Sound → p.Solo x a →
    (∀ z ∈ cs, touchesVar x z = false) → operatorOf (p.calls cs) x = operatorOf p x
  | [], _, _, _, _ => rfl
  | z :: cs, p, hs, h, hz => by
    obtain ⟨h1, h2⟩ := h.call hs z (hz z (by simp))
    rw [Pool.calls, Pool.Solo.calls cs (hs.call z) h1 (fun y hy => hz y (by simp [hy]))]
    unfold operatorOf
    rw [h1.at_, h.at_]
    exact h2

/-- C114. `OperatorConfig(other)` and `copy.deepcopy(other)` give a new operator with the settings
`other` has at this time (zeros without `other`); no other operator changes, and as long as the
caller does not assign to it or put it into a channel, it stays as it is. -/
theorem c114_operator (cs : List PCall) (other : Option Nat) (x : Nat)
    (h : ((Pool.start.calls cs).call (.newOp other)).1 = .made x) :
    let p := Pool.start.calls cs
    let q := (p.call (.newOp other)).2
    (∃ v, operatorOf q x = some v ∧ (other = none → v = {}) ∧
      (∀ y, other = some y → operatorOf p y = some v)) ∧
    operatorOf p x = none ∧
    (∀ y, y ≠ x → operatorOf q y = operatorOf p y) ∧
    ∀ cs', (∀ z ∈ cs', touchesVar x z = false) → operatorOf (q.calls cs') x = operatorOf q x := by
  intro p q
  have hs : p.Sound := Pool.sound_start.calls cs
  have shape : ∃ v, x = p.vars.length ∧
      q = { p with ops := p.ops ++ [v], vars := p.vars ++ [p.ops.length] } ∧
      (other = none → v = {}) ∧ (∀ y, other = some y → operatorOf p y = some v) := by
    replace h : (p.call (.newOp other)).1 = .made x := h
    cases other with
    | none => cases h; exact ⟨_, rfl, rfl, fun _ => rfl, fun y hy => by cases hy⟩
    | some y =>
      have hq : q = (p.call (.newOp (some y))).2 := rfl
      unfold Pool.call at h hq
      dsimp only at h hq
      cases hv : p.vars[y]? with
      | none => rw [hv] at h; cases h
      | some a =>
        rw [hv] at h hq
        cases h
        refine ⟨_, rfl, hq, fun hn => (by cases hn), fun y' hy' => ?_⟩
        cases hy'
        have hlt := hs.vars a (List.mem_of_getElem? hv)
        unfold operatorOf
        rw [hv]
        dsimp only
        rw [operator_copy, List.getElem?_eq_getElem hlt]
        rfl
  obtain ⟨v, rfl, hq, hv1, hv2⟩ := shape
  have solo : q.Solo p.vars.length p.ops.length := by
    rw [hq]
    refine ⟨by simp, ?_, ?_⟩
    · intro y hy e
      dsimp only at e
      by_cases hlt : y < p.vars.length
      · rw [List.getElem?_append_left hlt] at e
        have := hs.vars _ (List.mem_of_getElem? e)
        omega
      · rw [List.getElem?_append_right (by omega)] at e
        have := (List.getElem?_eq_some_iff.mp e).1
        simp at this
        omega
    · intro l hl ha
      have := hs.lists l hl _ ha
      omega
  refine ⟨⟨v, ?_, hv1, hv2⟩, ?_, ?_, fun cs' hcs => solo.calls cs' (hs.call (.newOp other)) hcs⟩
  · unfold operatorOf
    rw [solo.at_, hq]
    simp
  · unfold operatorOf
    rw [List.getElem?_eq_none (Nat.le_refl _)]
  · intro y hy
    rw [hq]
    unfold operatorOf
    dsimp only
    by_cases hlt : y < p.vars.length
    · rw [List.getElem?_append_left hlt]
      cases e : p.vars[y]? with
      | none => rfl
      | some a => exact List.getElem?_append_left (hs.vars a (List.mem_of_getElem? e))
    · rw [List.getElem?_eq_none (by rw [List.length_append]; simp; omega),
        List.getElem?_eq_none (by omega)]

/-! ### Equality -/

theorem NoteConfig.equal_iff (a b : NoteConfig) : a.equal b = true ↔ a = b := by
  cases a; cases b
  simp [NoteConfig.equal]
  constructor
  · rintro ⟨⟨⟨⟨h1, h2⟩, h3⟩, h4⟩, h5⟩; exact ⟨h1, h2, h3, h4, h5⟩
  · rintro ⟨h1, h2, h3, h4, h5⟩; exact ⟨⟨⟨⟨h1, h2⟩, h3⟩, h4⟩, h5⟩

theorem Pool.listsEqual_iff (p : Pool) : ∀ (l l' : List Nat), (∀ a ∈ l, a < p.ops.length) →
    (∀ a ∈ l', a < p.ops.length) →
    (p.listsEqual l l' = true ↔ operatorsAt p.ops l = operatorsAt p.ops l')
  | [], [], _, _ => by simp [Pool.listsEqual]
  | [], b :: l', _, h' => by
    obtain ⟨v, hv⟩ := operatorsAt_some (fun x hx => h' x (by simp [hx]) : ∀ x ∈ l', x < p.ops.length)
    simp [Pool.listsEqual, operatorsAt, hv, List.getElem?_eq_getElem (h' b (by simp))]
  | a :: l, [], h, _ => by
    obtain ⟨v, hv⟩ := operatorsAt_some (fun x hx => h x (by simp [hx]) : ∀ x ∈ l, x < p.ops.length)
    simp [Pool.listsEqual, operatorsAt, hv, List.getElem?_eq_getElem (h a (by simp))]
  | a :: l, b :: l', h, h' => by
    obtain ⟨v, hv⟩ := operatorsAt_some (fun x hx => h x (by simp [hx]) : ∀ x ∈ l, x < p.ops.length)
    obtain ⟨v', hv'⟩ := operatorsAt_some (fun x hx => h' x (by simp [hx]) : ∀ x ∈ l', x < p.ops.length)
    have ih := Pool.listsEqual_iff p l l' (fun x hx => h x (by simp [hx]))
      (fun x hx => h' x (by simp [hx]))
    have ha := List.getElem?_eq_getElem (h a (by simp))
    have hb := List.getElem?_eq_getElem (h' b (by simp))
    rw [Pool.listsEqual, Bool.and_eq_true, ih, hv, hv', operatorsAt, operatorsAt, hv, hv', ha, hb]
    simp only [Option.getD_some, Bool.or_eq_true, OperatorConfig.pyEq_iff, beq_iff_eq,
      Option.some.injEq, List.cons.injEq]
    constructor
    · rintro ⟨h1 | h1, h2⟩
      · subst h1; exact ⟨rfl, h2⟩
      · exact ⟨h1, h2⟩
    · rintro ⟨h1, h2⟩; exact ⟨.inr h1, h2⟩

theorem Pool.chansEqual_iff {p : Pool} (hs : p.Sound) {c d : Nat} {a b : PChan}
    (hc : p.chans[c]? = some a) (hd : p.chans[d]? = some b) :
    p.chansEqual a b = true ↔ channelOf p c = channelOf p d := by
  have h1 := hs.chans a (List.mem_of_getElem? hc)
  have h2 := hs.chans b (List.mem_of_getElem? hd)
  have g1 := hs.lists _ (List.getElem_mem h1)
  have g2 := hs.lists _ (List.getElem_mem h2)
  have hl := p.listsEqual_iff _ _ g1 g2
  obtain ⟨v, hv⟩ := operatorsAt_some g1
  obtain ⟨v', hv'⟩ := operatorsAt_some g2
  unfold channelOf
  rw [hc, hd]
  dsimp only
  rw [List.getElem?_eq_getElem h1, List.getElem?_eq_getElem h2]
  dsimp only
  unfold Pool.chansEqual
  rw [List.getElem?_eq_getElem h1, List.getElem?_eq_getElem h2]
  simp only [Option.getD_some, Bool.and_eq_true, beq_iff_eq, hl, hv, hv', Option.some.injEq,
    ChannelConfig.mk.injEq]
  constructor
  · rintro ⟨⟨⟨⟨⟨⟨h1, h2⟩, h3⟩, h4⟩, h5⟩, h6⟩, h7⟩; exact ⟨h5, h1, h3, h4, h2, h6, h7⟩
  · rintro ⟨h5, h1, h3, h4, h2, h6, h7⟩; exact ⟨⟨⟨⟨⟨⟨h1, h2⟩, h3⟩, h4⟩, h5⟩, h6⟩, h7⟩

/-- C114. `==` says whether two objects have the same settings, all of them, whatever they share
(so it is an equivalence, and a copy is equal to what it was copied from), and `compare` whether
an instrument has these. -/
theorem c114_equal (cs : List PCall) (b : Bool) :
    let p := Pool.start.calls cs
    (∀ x y, (p.call (.eqOp x y)).1 = .truth b → (b = true ↔ operatorOf p x = operatorOf p y)) ∧
    (∀ n m, (p.call (.eqNote n m)).1 = .truth b → (b = true ↔ p.notes[n]? = p.notes[m]?)) ∧
    (∀ n m, (p.call (.eqBase n m)).1 = .truth b → (b = true ↔ p.bases[n]? = p.bases[m]?)) ∧
    (∀ c d, (p.call (.eqChan c d)).1 = .truth b → (b = true ↔ channelOf p c = channelOf p d)) ∧
    (∀ k n c operators, (p.call (.compare k n c operators)).1 = .truth b →
      (b = true ↔ ∃ i, instrumentOf p k = some i ∧ p.bases[n]? = some i.base ∧
        channelOf p c = some i.channel ∧ operators = i.operators)) := by
  intro p
  have hs : p.Sound := Pool.sound_start.calls cs
  refine ⟨?_, ?_, ?_, ?_, ?_⟩
  · intro x y h
    unfold Pool.call at h
    dsimp only at h
    split at h
    · rename_i a b' ha hb
      cases h
      have h1 := hs.vars a (List.mem_of_getElem? ha)
      have h2 := hs.vars b' (List.mem_of_getElem? hb)
      unfold operatorOf
      rw [ha, hb]
      dsimp only
      rw [List.getElem?_eq_getElem h1, List.getElem?_eq_getElem h2, Option.getD_some,
        Option.getD_some, OperatorConfig.pyEq_iff, Option.some.injEq]
    · cases h
  · intro x y h
    unfold Pool.call at h
    dsimp only at h
    split at h
    · rename_i a b' ha hb
      cases h
      rw [ha, hb, NoteConfig.equal_iff, Option.some.injEq]
    · cases h
  · intro x y h
    unfold Pool.call at h
    dsimp only at h
    split at h
    · rename_i a b' ha hb
      cases h
      rw [ha, hb, BaseConfig.pyEq_iff, Option.some.injEq]
    · cases h
  · intro x y h
    unfold Pool.call at h
    dsimp only at h
    split at h
    · rename_i a b' ha hb
      cases h
      exact Pool.chansEqual_iff hs ha hb
    · cases h
  · intro k n c operators h
    unfold Pool.call at h
    dsimp only at h
    split at h
    · rename_i f base chan hf hb hc
      cases h
      obtain ⟨hfb, hfc⟩ := hs.confs f (List.mem_of_getElem? hf)
      have hown := List.getElem?_eq_getElem hfc
      obtain ⟨v, hv⟩ := hs.channel hfc
      have he := Pool.chansEqual_iff hs hown hc
      unfold instrumentOf
      rw [hf]
      dsimp only
      rw [hown, List.getElem?_eq_getElem hfb, hv, hb]
      simp only [Option.getD_some, Bool.and_eq_true, BaseConfig.pyEq_iff, beq_iff_eq, he, hv]
      constructor
      · rintro ⟨⟨h1, h2⟩, h3⟩
        exact ⟨_, rfl, by rw [h1], h2.symm, h3.symm⟩
      · rintro ⟨i, h1, h2, h3, h4⟩
        cases h1
        exact ⟨⟨(Option.some.inj h2).symm, h3.symm⟩, h4.symm⟩
    · cases h

/-! ### What does not change -/

/-- The tables of bases, notes and instruments after a call: as before, apart from additions at the
end and the assignment the call is. -/
theorem Pool.call_tables (p : Pool) (x : PCall) :
    (∀ b, b < p.bases.length → editsBase b x = false → (p.call x).2.bases[b]? = p.bases[b]?) ∧
    (∀ n, n < p.notes.length → editsNote n x = false → (p.call x).2.notes[n]? = p.notes[n]?) ∧
    (∀ k, k < p.confs.length → (p.call x).2.confs[k]? = p.confs[k]?) ∧
    p.bases.length ≤ (p.call x).2.bases.length ∧ p.notes.length ≤ (p.call x).2.notes.length ∧
    p.confs.length ≤ (p.call x).2.confs.length ∧ p.chans.length ≤ (p.call x).2.chans.length := by
  have same : ∀ q : Pool, q.bases = p.bases → q.notes = p.notes → q.confs = p.confs →
      p.chans.length ≤ q.chans.length →
      (∀ b, b < p.bases.length → editsBase b x = false → q.bases[b]? = p.bases[b]?) ∧
      (∀ n, n < p.notes.length → editsNote n x = false → q.notes[n]? = p.notes[n]?) ∧
      (∀ k, k < p.confs.length → q.confs[k]? = p.confs[k]?) ∧
      p.bases.length ≤ q.bases.length ∧ p.notes.length ≤ q.notes.length ∧
      p.confs.length ≤ q.confs.length ∧ p.chans.length ≤ q.chans.length := by
    intro q h1 h2 h3 h4
    rw [h1, h2, h3]
    exact ⟨fun _ _ _ => rfl, fun _ _ _ => rfl, fun _ _ => rfl, Nat.le_refl _, Nat.le_refl _,
      Nat.le_refl _, h4⟩
  have self := same p rfl rfl rfl (Nat.le_refl _)
  have bind : ∀ l i, (p.bind l i).2.bases = p.bases ∧ (p.bind l i).2.notes = p.notes ∧
      (p.bind l i).2.confs = p.confs ∧ (p.bind l i).2.chans = p.chans := by
    intro l i
    unfold Pool.bind
    split
    · exact ⟨rfl, rfl, rfl, rfl⟩
    · split <;> exact ⟨rfl, rfl, rfl, rfl⟩
  cases x with
  | newOp other => cases other with
    | none => exact same _ rfl rfl rfl (Nat.le_refl _)
    | some y =>
      unfold Pool.call; dsimp only; split
      · exact self
      · exact same _ rfl rfl rfl (Nat.le_refl _)
  | newNote other =>
    have hn : ∀ o : NoteConfig, _ := fun o =>
      (⟨fun b _ _ => rfl, fun n hn _ => List.getElem?_append_left hn, fun _ _ => rfl, Nat.le_refl _,
        by rw [List.length_append]; omega, Nat.le_refl _, Nat.le_refl _⟩ :
        (∀ b, b < p.bases.length → editsBase b (.newNote other) = false →
          ({ p with notes := p.notes ++ [o] } : Pool).bases[b]? = p.bases[b]?) ∧
        (∀ n, n < p.notes.length → editsNote n (.newNote other) = false →
          (p.notes ++ [o])[n]? = p.notes[n]?) ∧
        (∀ k, k < p.confs.length → p.confs[k]? = p.confs[k]?) ∧
        p.bases.length ≤ p.bases.length ∧ p.notes.length ≤ (p.notes ++ [o]).length ∧
        p.confs.length ≤ p.confs.length ∧ p.chans.length ≤ p.chans.length)
    cases other with
    | none => exact hn _
    | some y =>
      unfold Pool.call; dsimp only; split
      · exact self
      · exact hn _
  | newBase other =>
    have hn : ∀ o : BaseConfig, _ := fun o =>
      (⟨fun b hb _ => List.getElem?_append_left hb, fun n hn _ => rfl, fun _ _ => rfl,
        by rw [List.length_append]; omega, Nat.le_refl _, Nat.le_refl _, Nat.le_refl _⟩ :
        (∀ b, b < p.bases.length → editsBase b (.newBase other) = false →
          (p.bases ++ [o])[b]? = p.bases[b]?) ∧
        (∀ n, n < p.notes.length → editsNote n (.newBase other) = false →
          p.notes[n]? = p.notes[n]?) ∧
        (∀ k, k < p.confs.length → p.confs[k]? = p.confs[k]?) ∧
        p.bases.length ≤ (p.bases ++ [o]).length ∧ p.notes.length ≤ p.notes.length ∧
        p.confs.length ≤ p.confs.length ∧ p.chans.length ≤ p.chans.length)
    cases other with
    | none => exact hn _
    | some y =>
      unfold Pool.call; dsimp only; split
      · exact self
      · exact hn _
  | newChan other =>
    refine same (p.newChan other).2 ?_ ?_ ?_ ?_ <;> unfold Pool.newChan <;> split <;>
      first
        | rfl
        | (split <;> first | rfl | exact Nat.le_refl _ | simp)
        | simp
  | newConf id base chan operators =>
    unfold Pool.call; dsimp only; split
    · refine ⟨fun _ _ _ => rfl, fun _ _ _ => rfl, fun k hk => List.getElem?_append_left hk,
        Nat.le_refl _, Nat.le_refl _, ?_, Nat.le_refl _⟩
      show _ ≤ (p.confs ++ [_]).length
      rw [List.length_append]; omega
    · exact self
  | getOp c i =>
    obtain ⟨h1, h2, h3, h4⟩ := bind (p.opList c) i
    exact same (p.bind (p.opList c) i).2 h1 h2 h3 (by rw [h4]; exact Nat.le_refl _)
  | getConfOp k i =>
    unfold Pool.call; dsimp only; split
    · exact self
    · rename_i f _
      obtain ⟨h1, h2, h3, h4⟩ := bind (p.opList f.channel) i
      exact same (p.bind (p.opList f.channel) i).2 h1 h2 h3 (by rw [h4]; exact Nat.le_refl _)
  | editOp y v =>
    unfold Pool.call; dsimp only; split
    · exact self
    · exact same _ rfl rfl rfl (Nat.le_refl _)
  | editNote m v =>
    unfold Pool.call; dsimp only; split
    · refine ⟨fun _ _ _ => rfl, ?_, fun _ _ => rfl, Nat.le_refl _, by simp, Nat.le_refl _,
        Nat.le_refl _⟩
      intro n hn he
      have : m ≠ n := by simpa [editsNote] using he
      exact List.getElem?_set_ne this
    · exact self
  | editBase m v =>
    unfold Pool.call; dsimp only; split
    · refine ⟨?_, fun _ _ _ => rfl, fun _ _ => rfl, by simp, Nat.le_refl _, Nat.le_refl _,
        Nat.le_refl _⟩
      intro n hn he
      have : m ≠ n := by simpa [editsBase] using he
      exact List.getElem?_set_ne this
    · exact self
  | editChan c fb ams pms connection noise noiseFreq =>
    unfold Pool.call; dsimp only; split
    · exact self
    · exact same _ rfl rfl rfl (by simp)
  | setOps c d =>
    unfold Pool.call; dsimp only; split
    · exact same _ rfl rfl rfl (by simp)
    · exact self
  | setItem c i x =>
    unfold Pool.call; dsimp only; split
    · split
      · exact same _ rfl rfl rfl (Nat.le_refl _)
      · exact self
    · exact self
  | append c x =>
    unfold Pool.call; dsimp only; split
    · exact same _ rfl rfl rfl (Nat.le_refl _)
    · exact self
  | delItem c i =>
    unfold Pool.call; dsimp only; split
    · split
      · exact same _ rfl rfl rfl (Nat.le_refl _)
      · exact self
    · exact self
  | eqOp x y => unfold Pool.call; dsimp only; split <;> exact self
  | eqNote x y => unfold Pool.call; dsimp only; split <;> exact self
  | eqBase x y => unfold Pool.call; dsimp only; split <;> exact self
  | eqChan x y => unfold Pool.call; dsimp only; split <;> exact self
  | compare k b c operators => unfold Pool.call; dsimp only; split <;> exact self

theorem Pool.calls_conf : ∀ (cs : List PCall) (p : Pool) (k : Nat), k < p.confs.length →
    (p.calls cs).confs[k]? = p.confs[k]?
  | [], _, _, _ => rfl
  | x :: cs, p, k, hk => by
    obtain ⟨_, _, h3, _, _, h6, _⟩ := p.call_tables x
    rw [Pool.calls, Pool.calls_conf cs _ k (by omega), h3 k hk]

theorem Pool.calls_base : ∀ (cs : List PCall) (p : Pool) (b : Nat), b < p.bases.length →
    (∀ x ∈ cs, editsBase b x = false) → (p.calls cs).bases[b]? = p.bases[b]?
  | [], _, _, _, _ => rfl
  | x :: cs, p, b, hb, hx => by
    obtain ⟨h1, _, _, h4, _⟩ := p.call_tables x
    rw [Pool.calls, Pool.calls_base cs _ b (by omega) (fun y hy => hx y (by simp [hy])),
      h1 b hb (hx x (by simp))]

theorem Pool.calls_note : ∀ (cs : List PCall) (p : Pool) (b : Nat), b < p.notes.length →
    (∀ x ∈ cs, editsNote b x = false) → (p.calls cs).notes[b]? = p.notes[b]?
  | [], _, _, _, _ => rfl
  | x :: cs, p, b, hb, hx => by
    obtain ⟨_, h1, _, _, h4, _⟩ := p.call_tables x
    rw [Pool.calls, Pool.calls_note cs _ b (by omega) (fun y hy => hx y (by simp [hy])),
      h1 b hb (hx x (by simp))]

/-- C114. The same for `BaseConfig` and `NoteConfig`: a new object with the settings of `other` at
this time (or the default ones), that changes only when it is assigned to itself. -/
theorem c114_base_note (cs : List PCall) (other : Option Nat) (n : Nat) :
    let p := Pool.start.calls cs
    ((p.call (.newBase other)).1 = .made n →
      let q := (p.call (.newBase other)).2
      (∃ v, q.bases[n]? = some v ∧ (other = none → v = {}) ∧ ∀ m, other = some m → p.bases[m]? = some v) ∧
      p.bases[n]? = none ∧
      ∀ cs', (∀ x ∈ cs', editsBase n x = false) → (q.calls cs').bases[n]? = q.bases[n]?) ∧
    ((p.call (.newNote other)).1 = .made n →
      let q := (p.call (.newNote other)).2
      (∃ v, q.notes[n]? = some v ∧ (other = none → v = {}) ∧ ∀ m, other = some m → p.notes[m]? = some v) ∧
      p.notes[n]? = none ∧
      ∀ cs', (∀ x ∈ cs', editsNote n x = false) → (q.calls cs').notes[n]? = q.notes[n]?) := by
  intro p
  have bcopy : ∀ o : BaseConfig, o.copy = o := by intro o; cases o; rfl
  have ncopy : ∀ o : NoteConfig, o.copied = o := by intro o; cases o; rfl
  constructor
  · intro h q
    have shape : ∃ v, n = p.bases.length ∧ q.bases = p.bases ++ [v] ∧ (other = none → v = {}) ∧
        ∀ m, other = some m → p.bases[m]? = some v := by
      cases other with
      | none => cases h; exact ⟨_, rfl, rfl, fun _ => rfl, fun m hm => by cases hm⟩
      | some m =>
        have hq : q = (p.call (.newBase (some m))).2 := rfl
        unfold Pool.call at h hq
        dsimp only at h hq
        cases hm : p.bases[m]? with
        | none => rw [hm] at h; cases h
        | some o =>
          rw [hm] at h hq
          dsimp only at hq
          cases h
          refine ⟨o, rfl, by rw [hq, bcopy], fun hn => (by cases hn), fun m' hm' => ?_⟩
          cases hm'
          exact hm
    obtain ⟨v, rfl, hq, h1, h2⟩ := shape
    refine ⟨⟨v, by rw [hq]; simp, h1, h2⟩, List.getElem?_eq_none (Nat.le_refl _), ?_⟩
    intro cs' hcs
    exact Pool.calls_base cs' q _ (by rw [hq]; simp) hcs
  · intro h q
    have shape : ∃ v, n = p.notes.length ∧ q.notes = p.notes ++ [v] ∧ (other = none → v = {}) ∧
        ∀ m, other = some m → p.notes[m]? = some v := by
      cases other with
      | none => cases h; exact ⟨_, rfl, rfl, fun _ => rfl, fun m hm => by cases hm⟩
      | some m =>
        have hq : q = (p.call (.newNote (some m))).2 := rfl
        unfold Pool.call at h hq
        dsimp only at h hq
        cases hm : p.notes[m]? with
        | none => rw [hm] at h; cases h
        | some o =>
          rw [hm] at h hq
          dsimp only at hq
          cases h
          refine ⟨o, rfl, by rw [hq, ncopy], fun hn => (by cases hn), fun m' hm' => ?_⟩
          cases hm'
          exact hm
    obtain ⟨v, rfl, hq, h1, h2⟩ := shape
    refine ⟨⟨v, by rw [hq]; simp, h1, h2⟩, List.getElem?_eq_none (Nat.le_refl _), ?_⟩
    intro cs' hcs
    exact Pool.calls_note cs' q _ (by rw [hq]; simp) hcs

/-- C114. An instrument that the caller makes does not copy the base and the channel it is given: at
any later time it shows the settings these have then. Without them it shows the settings of one
base and one channel (number 0) that all instruments made without have in common. -/
theorem c114_instrument (cs : List PCall) (id : Nat) (base chan : Option Nat) (operators k : Nat)
    (h : ((Pool.start.calls cs).call (.newConf id base chan operators)).1 = .made k)
    (cs' : List PCall) :
    let q := ((Pool.start.calls cs).call (.newConf id base chan operators)).2.calls cs'
    ∃ b c, q.bases[base.getD 0]? = some b ∧ channelOf q (chan.getD 0) = some c ∧
      instrumentOf q k = some ⟨id, b, operators, c⟩ := by
  intro q
  have hs : q.Sound := ((Pool.sound_start.calls cs).call _).calls cs'
  have hf : q.confs[k]? = some ⟨id, base.getD 0, operators, chan.getD 0⟩ := by
    have hq : q = ((Pool.start.calls cs).call (.newConf id base chan operators)).2.calls cs' := rfl
    generalize Pool.start.calls cs = p at h hq
    unfold Pool.call at h hq
    dsimp only at h hq
    split at h
    · rename_i hb
      rw [if_pos hb] at hq
      cases h
      rw [hq, Pool.calls_conf cs' _ _ (by simp)]
      simp
    · cases h
  obtain ⟨h1, h2⟩ := hs.confs _ (List.mem_of_getElem? hf)
  obtain ⟨c, hc⟩ := hs.channel h2
  refine ⟨_, c, List.getElem?_eq_getElem h1, hc, ?_⟩
  unfold instrumentOf
  rw [hf]
  dsimp only
  dsimp only at h1 hc
  rw [List.getElem?_eq_getElem h1, hc]

/-- C114. A call that raises changes nothing, and what it raises is `IndexError`; taking the `i`-th
operator raises it exactly if the channel does not have so many. -/
theorem c114_raises (cs : List PCall) (x : PCall) :
    let p := Pool.start.calls cs
    (∀ e, (p.call x).1 = .raised e → e = .index ∧ (p.call x).2 = p) ∧
    ∀ c i v, channelOf p c = some v →
      ((p.call (.getOp c i)).1 = .raised .index ↔ v.operators.length ≤ i) := by
  intro p
  constructor
  · intro e h
    have bind : ∀ l i, (p.bind l i).1 = .raised e → e = .index ∧ (p.bind l i).2 = p := by
      intro l i h
      unfold Pool.bind at h ⊢
      cases l with
      | none => cases h
      | some l =>
        dsimp only at h ⊢
        cases hi : l[i]? with
        | none => rw [hi] at h; cases h; exact ⟨rfl, rfl⟩
        | some a => rw [hi] at h; cases h
    cases x with
    | newOp other => cases other with
      | none => cases h
      | some y => unfold Pool.call at h; dsimp only at h; split at h <;> cases h
    | newNote other => cases other with
      | none => cases h
      | some y => unfold Pool.call at h; dsimp only at h; split at h <;> cases h
    | newBase other => cases other with
      | none => cases h
      | some y => unfold Pool.call at h; dsimp only at h; split at h <;> cases h
    | newChan other =>
      replace h : (p.newChan other).1 = .raised e := h
      unfold Pool.newChan at h
      split at h
      · cases h
      · split at h <;> cases h
    | newConf id base chan operators => unfold Pool.call at h; dsimp only at h; split at h <;> cases h
    | getOp c i => exact bind _ _ h
    | getConfOp k i =>
      unfold Pool.call at h ⊢
      dsimp only at h ⊢
      cases hk : p.confs[k]? with
      | none => rw [hk] at h; cases h
      | some f => rw [hk] at h; exact bind _ _ h
    | editOp x v => unfold Pool.call at h; dsimp only at h; split at h <;> cases h
    | editNote n v => unfold Pool.call at h; dsimp only at h; split at h <;> cases h
    | editBase n v => unfold Pool.call at h; dsimp only at h; split at h <;> cases h
    | editChan c fb ams pms connection noise noiseFreq =>
      unfold Pool.call at h; dsimp only at h; split at h <;> cases h
    | setOps c d => unfold Pool.call at h; dsimp only at h; split at h <;> cases h
    | setItem c i y =>
      unfold Pool.call at h ⊢
      dsimp only at h ⊢
      cases hc : p.chans[c]? with
      | none => rw [hc] at h; cases h
      | some o =>
        cases hv : p.vars[y]? with
        | none => rw [hc, hv] at h; cases h
        | some a =>
          rw [hc, hv] at h
          dsimp only at h ⊢
          split at h
          · cases h
          · rename_i hn
            cases h
            exact ⟨rfl, by rw [if_neg hn]⟩
    | append c y => unfold Pool.call at h; dsimp only at h; split at h <;> cases h
    | delItem c i =>
      unfold Pool.call at h ⊢
      dsimp only at h ⊢
      cases hc : p.chans[c]? with
      | none => rw [hc] at h; cases h
      | some o =>
        rw [hc] at h
        dsimp only at h ⊢
        split at h
        · cases h
        · rename_i hn
          cases h
          exact ⟨rfl, by rw [if_neg hn]⟩
    | eqOp x y => unfold Pool.call at h; dsimp only at h; split at h <;> cases h
    | eqNote x y => unfold Pool.call at h; dsimp only at h; split at h <;> cases h
    | eqBase x y => unfold Pool.call at h; dsimp only at h; split at h <;> cases h
    | eqChan x y => unfold Pool.call at h; dsimp only at h; split at h <;> cases h
    | compare k b c operators => unfold Pool.call at h; dsimp only at h; split at h <;> cases h
  · intro c i v hv
    have hlen : ∀ (l : List Nat) (r : List OperatorConfig), operatorsAt p.ops l = some r →
        r.length = l.length := by
      intro l
      induction l with
      | nil => intro r hr; cases hr; rfl
      | cons a l ih =>
        intro r hr
        rw [operatorsAt] at hr
        split at hr
        · rename_i o r' _ hr'
          cases hr
          simp [ih r' hr']
        · cases hr
    unfold channelOf at hv
    cases hc : p.chans[c]? with
    | none => rw [hc] at hv; cases hv
    | some o =>
      rw [hc] at hv
      dsimp only at hv
      cases hl : p.lists[o.ops]? with
      | none => rw [hl] at hv; cases hv
      | some l =>
        rw [hl] at hv
        dsimp only at hv
        cases hr : operatorsAt p.ops l with
        | none => rw [hr] at hv; cases hv
        | some r =>
          rw [hr] at hv
          cases hv
          show (p.bind (p.opList c) i).1 = _ ↔ r.length ≤ i
          unfold Pool.opList
          rw [hc]
          dsimp only
          rw [hl, hlen l r hr]
          unfold Pool.bind
          dsimp only
          cases hi : l[i]? with
          | none => exact ⟨fun _ => List.getElem?_eq_none_iff.mp hi, fun _ => rfl⟩
          | some a =>
            refine ⟨fun h => (by cases h), fun h => ?_⟩
            have := (List.getElem?_eq_some_iff.mp hi).1
            omega

/-! ### Examples -/

/-! ### What the assignments do -/

theorem operatorsAt_iff {ops : List OperatorConfig} : ∀ {l : List Nat} {v : List OperatorConfig},
    operatorsAt ops l = some v ↔ l.map (ops[·]?) = v.map some
  | [], v => by cases v <;> simp [operatorsAt]
  | a :: l, v => by
    unfold operatorsAt
    cases ha : ops[a]? with
    | none => cases v <;> simp [ha]
    | some o =>
      cases hl : operatorsAt ops l with
      | none =>
        cases v with
        | nil => simp
        | cons w v =>
          simp only [List.map_cons, ha, List.cons.injEq, reduceCtorEq, false_iff, not_and]
          intro _ h
          rw [operatorsAt_iff.mpr h] at hl
          cases hl
      | some r =>
        have hr := operatorsAt_iff.mp hl
        cases v with
        | nil => simp
        | cons w v =>
          simp only [List.map_cons, ha, List.cons.injEq, Option.some.injEq, hr]
          constructor
          · rintro ⟨rfl, rfl⟩; exact ⟨rfl, rfl⟩
          · rintro ⟨rfl, h⟩
            exact ⟨rfl, (List.map_inj_right (fun _ _ h => Option.some.inj h)).mp h⟩

theorem operatorsAt_length {ops : List OperatorConfig} {l : List Nat} {v : List OperatorConfig}
    (h : operatorsAt ops l = some v) : l.length = v.length := by
  have := congrArg List.length (operatorsAt_iff.mp h)
  simpa using this

theorem map_eraseIdx {α β : Type} (f : α → β) : ∀ (l : List α) (i : Nat),
    (l.eraseIdx i).map f = (l.map f).eraseIdx i
  | [], _ => by simp
  | _ :: _, 0 => by simp
  | _ :: l, i + 1 => by simp [map_eraseIdx f l i]

/-- A channel and its list. -/
theorem channelOf_some {p : Pool} {c : Nat} {v : ChannelConfig} (h : channelOf p c = some v) :
    ∃ o l, p.chans[c]? = some o ∧ p.lists[o.ops]? = some l ∧ operatorsAt p.ops l = some v.operators ∧
      v = ⟨v.operators, o.fb, o.ams, o.pms, o.connection, o.noise, o.noiseFreq⟩ := by
  unfold channelOf at h
  cases ho : p.chans[c]? with
  | none => rw [ho] at h; cases h
  | some o =>
    rw [ho] at h
    dsimp only at h
    cases hl : p.lists[o.ops]? with
    | none => rw [hl] at h; cases h
    | some l =>
      rw [hl] at h
      dsimp only at h
      cases hv : operatorsAt p.ops l with
      | none => rw [hv] at h; cases h
      | some w =>
        rw [hv] at h
        cases h
        exact ⟨o, l, rfl, hl, hv, rfl⟩

theorem operatorOf_some {p : Pool} {x : Nat} {o : OperatorConfig} (h : operatorOf p x = some o) :
    ∃ a, p.vars[x]? = some a ∧ p.ops[a]? = some o := by
  unfold operatorOf at h
  cases ha : p.vars[x]? with
  | none => rw [ha] at h; cases h
  | some a => rw [ha] at h; exact ⟨a, rfl, h⟩

/-- The channel after its list has been replaced. -/
theorem channelOf_setList {p : Pool} {c : Nat} {o : PChan} {l l' : List Nat} {w : List OperatorConfig}
    (ho : p.chans[c]? = some o) (hl : p.lists[o.ops]? = some l)
    (hw : l'.map (p.ops[·]?) = w.map some) :
    channelOf { p with lists := p.lists.set o.ops l' } c =
      some ⟨w, o.fb, o.ams, o.pms, o.connection, o.noise, o.noiseFreq⟩ := by
  unfold channelOf
  dsimp only
  rw [ho]
  dsimp only
  have hlt := (List.getElem?_eq_some_iff.mp hl).1
  rw [List.getElem?_set_self hlt]
  dsimp only
  rw [operatorsAt_iff.mpr hw]

/-- C114. What the assignments do: assigning to an operator gives it those settings; `c.operators[i]`
is the `i`-th operator of the channel; assigning it, `append` and `del` change the list as said, and
raise `IndexError` exactly if there is no such operator; assigning the settings of a channel leaves
its operators as they are. -/
theorem c114_effects (cs : List PCall) :
    let p := Pool.start.calls cs
    (∀ x o v, operatorOf p x = some o → operatorOf (p.call (.editOp x v)).2 x = some v) ∧
    (∀ c i n v, channelOf p c = some v → (p.call (.getOp c i)).1 = .made n →
      operatorOf (p.call (.getOp c i)).2 n = v.operators[i]?) ∧
    (∀ c v fb ams pms con noise freq, channelOf p c = some v →
      channelOf (p.call (.editChan c fb ams pms con noise freq)).2 c =
        some ⟨v.operators, fb, ams, pms, con, noise, freq⟩) ∧
    (∀ c d v w, channelOf p c = some v → channelOf p d = some w →
      channelOf (p.call (.setOps c d)).2 c = some { v with operators := w.operators }) ∧
    (∀ c i x v o, channelOf p c = some v → operatorOf p x = some o →
      (i < v.operators.length → channelOf (p.call (.setItem c i x)).2 c =
        some { v with operators := v.operators.set i o }) ∧
      ((p.call (.setItem c i x)).1 = .raised .index ↔ v.operators.length ≤ i)) ∧
    (∀ c x v o, channelOf p c = some v → operatorOf p x = some o →
      channelOf (p.call (.append c x)).2 c = some { v with operators := v.operators ++ [o] }) ∧
    (∀ c i v, channelOf p c = some v →
      (i < v.operators.length → channelOf (p.call (.delItem c i)).2 c =
        some { v with operators := v.operators.eraseIdx i }) ∧
      ((p.call (.delItem c i)).1 = .raised .index ↔ v.operators.length ≤ i)) := by
  intro p
  refine ⟨?_, ?_, ?_, ?_, ?_, ?_, ?_⟩
  · intro x o v h
    obtain ⟨a, ha, hoa⟩ := operatorOf_some h
    have hlt := (List.getElem?_eq_some_iff.mp hoa).1
    simp only [Pool.call, ha, operatorOf, List.getElem?_set_self hlt]
  · intro c i n v h hm
    obtain ⟨o, l, ho, hl, hv, _⟩ := channelOf_some h
    have hlist : p.opList c = some l := by unfold Pool.opList; rw [ho]; exact hl
    have hi := congrArg (·[i]?) (operatorsAt_iff.mp hv)
    simp only [List.getElem?_map] at hi
    unfold Pool.call Pool.bind at hm ⊢
    simp only [hlist] at hm ⊢
    cases hli : l[i]? with
    | none => simp only [hli] at hm; cases hm
    | some a =>
      simp only [hli] at hm ⊢
      cases hm
      rw [hli] at hi
      unfold operatorOf
      simp only [List.getElem?_concat_length]
      cases hvi : v.operators[i]? with
      | none => rw [hvi] at hi; cases hi
      | some w => rw [hvi] at hi; exact Option.some.inj hi
  · intro c v fb ams pms con noise freq h
    obtain ⟨o, l, ho, hl, hv, _⟩ := channelOf_some h
    have hlt := (List.getElem?_eq_some_iff.mp ho).1
    simp only [Pool.call, ho, channelOf, List.getElem?_set_self hlt, hl, hv]
  · intro c d v w h h'
    obtain ⟨o, l, ho, hl, hv, e⟩ := channelOf_some h
    obtain ⟨o', l', ho', hl', hv', e'⟩ := channelOf_some h'
    have hlt := (List.getElem?_eq_some_iff.mp ho).1
    rw [e]
    simp only [Pool.call, ho, ho', channelOf, List.getElem?_set_self hlt, hl', hv']
  · intro c i x v o h hx
    obtain ⟨a, ha, hoa⟩ := operatorOf_some hx
    obtain ⟨o', l, ho, hl, hv, e⟩ := channelOf_some h
    have hlen := operatorsAt_length hv
    constructor
    · intro hi
      simp only [Pool.call, ho, ha, hl, Option.getD_some]
      rw [if_pos (by omega)]
      have := channelOf_setList (l' := l.set i a) (w := v.operators.set i o) ho hl (by
        rw [List.map_set, List.map_set, operatorsAt_iff.mp hv, hoa])
      rw [e]
      exact this
    · simp only [Pool.call, ho, ha, hl, Option.getD_some]
      by_cases hi : i < l.length
      · rw [if_pos hi]; constructor
        · intro h; cases h
        · intro h; omega
      · rw [if_neg hi]; exact ⟨fun _ => by omega, fun _ => rfl⟩
  · intro c x v o h hx
    obtain ⟨a, ha, hoa⟩ := operatorOf_some hx
    obtain ⟨o', l, ho, hl, hv, e⟩ := channelOf_some h
    simp only [Pool.call, ho, ha, hl, Option.getD_some]
    have := channelOf_setList (l' := l ++ [a]) (w := v.operators ++ [o]) ho hl (by
      rw [List.map_append, List.map_append, operatorsAt_iff.mp hv]; simp [hoa])
    rw [e]
    exact this
  · intro c i v h
    obtain ⟨o', l, ho, hl, hv, e⟩ := channelOf_some h
    have hlen := operatorsAt_length hv
    constructor
    · intro hi
      simp only [Pool.call, ho, hl, Option.getD_some]
      rw [if_pos (by omega)]
      have := channelOf_setList (l' := l.eraseIdx i) (w := v.operators.eraseIdx i) ho hl (by
        rw [map_eraseIdx, map_eraseIdx, operatorsAt_iff.mp hv])
      rw [e]
      exact this
    · simp only [Pool.call, ho, hl, Option.getD_some]
      by_cases hi : i < l.length
      · rw [if_pos hi]; constructor
        · intro h; cases h
        · intro h; omega
      · rw [if_neg hi]; exact ⟨fun _ => by omega, fun _ => rfl⟩

/-- C114. The four operators of `ChannelConfig()` are different objects: taking one and assigning to
it changes this one only. -/
theorem c114_four (cs : List PCall) (c : Nat)
    (h : ((Pool.start.calls cs).call (.newChan none)).1 = .made c) (i : Nat) (hi : i < 4)
    (o : OperatorConfig) :
    let q := ((Pool.start.calls cs).call (.newChan none)).2
    (q.call (.getOp c i)).1 = .made q.vars.length ∧
    channelOf (q.calls [.getOp c i, .editOp q.vars.length o]) c =
      some { operators := [{}, {}, {}, {}].set i o } := by
  generalize Pool.start.calls cs = p at h ⊢
  cases h
  have hl : (p.newChan none).2.opList p.chans.length =
      some [p.ops.length, p.ops.length + 1, p.ops.length + 2, p.ops.length + 3] := by
    simp [Pool.newChan, Pool.opList]
  match i, hi with
  | 0, _ => simp [Pool.calls, Pool.call, hl, Pool.bind]; simp [Pool.newChan, channelOf, operatorsAt, List.getElem?_set, List.getElem?_append]
  | 1, _ => simp [Pool.calls, Pool.call, hl, Pool.bind]; simp [Pool.newChan, channelOf, operatorsAt, List.getElem?_set, List.getElem?_append]
  | 2, _ => simp [Pool.calls, Pool.call, hl, Pool.bind]; simp [Pool.newChan, channelOf, operatorsAt, List.getElem?_set, List.getElem?_append]
  | 3, _ => simp [Pool.calls, Pool.call, hl, Pool.bind]; simp [Pool.newChan, channelOf, operatorsAt, List.getElem?_set, List.getElem?_append]

/-- A channel one of whose operators occurs twice, copied; then the original is changed. -/
def copySession : List PCall :=
  [ .newChan none                                  -- channel 1
  , .getOp 1 0                                     -- variable 0
  , .setItem 1 3 0
  , .editOp 0 { totalLevel := 5 } ]

example : ((Pool.start.calls copySession).call (.newChan (some 1))).1 = .made 2 := by decide +kernel

/-- In the copy, too, it is one operator. -/
example : let q := ((Pool.start.calls copySession).call (.newChan (some 1))).2
    (q.opList 2).map (fun l => l[0]? == l[3]?) = some true ∧
    (q.opList 2).map (fun l => l[0]? == l[1]?) = some false ∧
    ((channelOf q 2).map (fun v => v.operators.map (·.totalLevel))) = some [5, 0, 0, 5] := by
  decide +kernel

example : ∀ x ∈ [PCall.editOp 0 { totalLevel := 9 }, .editChan 1 1 2 3 4 true 5, .append 1 0,
    .newChan (some 2)], touches 2 x = false := by decide

example : ∀ x ∈ [PCall.getOp 2 0, .editOp 1 { totalLevel := 9 }, .newOp (some 0), .append 2 2,
    .delItem 2 1], onlyWithin 2 (Pool.start.calls copySession).vars.length x = true := by
  decide +kernel

/-- A change through one instrument made without arguments shows in the other. -/
example : let q := Pool.start.calls [.newConf 1 none none 0, .newConf 2 none none 0, .getConfOp 0 0,
      .editOp 0 { totalLevel := 5 }]
    ((instrumentOf q 1).map (fun i => i.channel.operators.map (·.totalLevel))) =
      some [5, 0, 0, 0] := by
  decide +kernel

end VgmX
