import Verif.Spec.Pool
/-
Invariants of the caller's objects (Model/Pool).
-/

namespace VgmX
open Spec

/-- References refer to something. -/
structure Pool.Sound (p : Pool) : Prop where
  lists : ∀ l ∈ p.lists, ∀ a ∈ l, a < p.ops.length
  chans : ∀ o ∈ p.chans, o.ops < p.lists.length
  vars : ∀ a ∈ p.vars, a < p.ops.length
  confs : ∀ f ∈ p.confs, f.base < p.bases.length ∧ f.channel < p.chans.length

theorem operator_copy (o : OperatorConfig) : o.copy = o := by cases o; rfl

theorem copyMemo_spec (N : Nat) : ∀ (rs : List Nat) (arena : List OperatorConfig)
    (memo : List (Nat × Nat)), (∀ r ∈ rs, r < N) → N ≤ arena.length →
    (∀ r r', memo.lookup r = some r' → r < N ∧ N ≤ r' ∧ r' < arena.length ∧ arena[r']? = arena[r]?) →
    (∃ more, (copyMemo rs arena memo).1 = arena ++ more) ∧
    (∀ a ∈ (copyMemo rs arena memo).2, N ≤ a ∧ a < (copyMemo rs arena memo).1.length) ∧
    (copyMemo rs arena memo).2.map ((copyMemo rs arena memo).1[·]?) = rs.map (arena[·]?)
  | [], arena, memo, _, _, _ => by
    refine ⟨⟨[], by simp [copyMemo]⟩, by simp [copyMemo], by simp [copyMemo]⟩
  | r :: rs, arena, memo, hr, hN, hm => by
    have hr0 := hr r (by simp)
    have hrs : ∀ r ∈ rs, r < N := fun x hx => hr x (by simp [hx])
    unfold copyMemo
    cases hl : memo.lookup r with
    | some r' =>
      dsimp only
      obtain ⟨⟨more, e1⟩, e2, e3⟩ := copyMemo_spec N rs arena memo hrs hN hm
      obtain ⟨_, h2, h3, h4⟩ := hm r r' hl
      refine ⟨⟨more, e1⟩, ?_, ?_⟩
      · intro a ha
        rcases List.mem_cons.mp ha with rfl | ha
        · exact ⟨h2, by rw [e1, List.length_append]; omega⟩
        · exact e2 a ha
      · rw [List.map_cons, List.map_cons, e3]
        congr 1
        rw [e1, List.getElem?_append_left h3, h4]
    | none =>
      dsimp only
      rw [operator_copy]
      have hget : ∀ x, x < arena.length →
          (arena ++ [(arena[r]?).getD {}])[x]? = arena[x]? :=
        fun x hx => List.getElem?_append_left hx
      have hlen : (arena ++ [(arena[r]?).getD {}]).length = arena.length + 1 := by simp
      obtain ⟨⟨more, e1⟩, e2, e3⟩ := copyMemo_spec N rs (arena ++ [(arena[r]?).getD {}])
        ((r, arena.length) :: memo) hrs (by omega) (by
          intro x x' hx
          rw [List.lookup_cons] at hx
          by_cases hxr : x = r
          · subst hxr
            simp only [beq_self_eq_true] at hx
            cases hx
            refine ⟨hr0, hN, by omega, ?_⟩
            rw [hget x (by omega), List.getElem?_append_right (Nat.le_refl _)]
            simp [List.getElem?_eq_getElem (show x < arena.length by omega)]
          · rw [show (x == r) = false by simpa using hxr] at hx
            obtain ⟨h1, h2, h3, h4⟩ := hm x x' hx
            exact ⟨h1, h2, by omega, by rw [hget x' h3, hget x (by omega), h4]⟩)
      refine ⟨⟨(arena[r]?).getD {} :: more, by rw [e1]; simp⟩, ?_, ?_⟩
      · intro a ha
        rcases List.mem_cons.mp ha with rfl | ha
        · exact ⟨hN, by rw [e1]; simp⟩
        · exact e2 a ha
      · rw [List.map_cons, List.map_cons, e3]
        congr 1
        · rw [e1]
          simp [List.getElem?_eq_getElem (show r < arena.length by omega)]
        · apply List.map_congr_left
          intro x hx
          exact hget x (by have := hrs x hx; omega)

theorem operatorsAt_map {ops ops' : List OperatorConfig} : ∀ {l l' : List Nat},
    l.map (ops[·]?) = l'.map (ops'[·]?) → operatorsAt ops l = operatorsAt ops' l'
  | [], [], _ => rfl
  | [], _ :: _, h => by cases h
  | _ :: _, [], h => by cases h
  | a :: l, b :: l', h => by
    rw [List.map_cons, List.map_cons, List.cons.injEq] at h
    rw [operatorsAt, operatorsAt, h.1, operatorsAt_map h.2]

theorem operatorsAt_congr {ops ops' : List OperatorConfig} {l : List Nat}
    (h : ∀ a ∈ l, ops'[a]? = ops[a]?) : operatorsAt ops' l = operatorsAt ops l :=
  operatorsAt_map (List.map_congr_left h)

theorem operatorsAt_some {ops : List OperatorConfig} : ∀ {l : List Nat},
    (∀ a ∈ l, a < ops.length) → ∃ v, operatorsAt ops l = some v
  | [], _ => ⟨[], rfl⟩
  | a :: l, h => by
    obtain ⟨v, hv⟩ := operatorsAt_some (ops := ops) (l := l) (fun x hx => h x (by simp [hx]))
    exact ⟨_, by rw [operatorsAt, hv, List.getElem?_eq_getElem (h a (by simp))]⟩

/-! ### Every call keeps references sound -/

theorem Pool.Sound.bind {p : Pool} (h : p.Sound) (l : List Nat) (hl : ∀ a ∈ l, a < p.ops.length)
    (i : Nat) : (p.bind (some l) i).2.Sound := by
  unfold Pool.bind
  cases hi : l[i]? with
  | none => simpa [hi] using h
  | some a =>
    simp only [hi]
    refine ⟨h.lists, h.chans, ?_, h.confs⟩
    intro b hb
    rcases List.mem_append.mp hb with hb | hb
    · exact h.vars b hb
    · rw [List.mem_singleton] at hb
      subst hb
      exact hl _ (List.mem_of_getElem? hi)

theorem Pool.Sound.bindOf {p : Pool} (h : p.Sound) (c i : Nat) :
    (p.bind (p.opList c) i).2.Sound := by
  cases hc : p.opList c with
  | none => simpa [Pool.bind] using h
  | some l =>
    refine h.bind l ?_ i
    unfold Pool.opList at hc
    cases ho : p.chans[c]? with
    | none => rw [ho] at hc; cases hc
    | some o => rw [ho] at hc; exact h.lists l (List.mem_of_getElem? hc)

/-- More operators, more variables, more lists, more channels. -/
theorem Pool.Sound.grow {p : Pool} (h : p.Sound) (ops : List OperatorConfig)
    (ho : p.ops.length ≤ ops.length) (lists : List (List Nat)) (hl : ∀ l ∈ lists, ∀ a ∈ l, a < ops.length)
    (chans : List PChan) (hc : ∀ o ∈ chans, o.ops < (p.lists ++ lists).length) (vars : List Nat)
    (hv : ∀ a ∈ vars, a < ops.length) :
    ({ p with ops := ops, lists := p.lists ++ lists, chans := p.chans ++ chans,
              vars := p.vars ++ vars } : Pool).Sound := by
  refine ⟨?_, ?_, ?_, ?_⟩
  · intro l hl' a ha
    rcases List.mem_append.mp hl' with hl' | hl'
    · exact Nat.lt_of_lt_of_le (h.lists l hl' a ha) ho
    · exact hl l hl' a ha
  · intro o ho'
    rcases List.mem_append.mp ho' with ho' | ho'
    · have := h.chans o ho'
      show o.ops < (p.lists ++ lists).length
      rw [List.length_append]
      omega
    · exact hc o ho'
  · intro a ha
    rcases List.mem_append.mp ha with ha | ha
    · exact Nat.lt_of_lt_of_le (h.vars a ha) ho
    · exact hv a ha
  · intro f hf
    have := h.confs f hf
    refine ⟨this.1, ?_⟩
    show f.channel < (p.chans ++ chans).length
    rw [List.length_append]
    omega

theorem mem_set_or {α : Type} {l : List α} {i : Nat} {a x : α} (h : x ∈ l.set i a) : x ∈ l ∨ x = a := by
  rcases List.mem_or_eq_of_mem_set h with h | h
  · exact .inl h
  · exact .inr h

theorem Pool.Sound.setList {p : Pool} (h : p.Sound) (j : Nat) (l : List Nat)
    (hl : ∀ a ∈ l, a < p.ops.length) : ({ p with lists := p.lists.set j l } : Pool).Sound := by
  refine ⟨?_, ?_, h.vars, h.confs⟩
  · intro l' hl' a ha
    rcases mem_set_or hl' with hl' | rfl
    · exact h.lists l' hl' a ha
    · exact hl a ha
  · intro o ho
    show o.ops < (p.lists.set j l).length
    rw [List.length_set]
    exact h.chans o ho

theorem Pool.Sound.setChan {p : Pool} (h : p.Sound) (c : Nat) (o : PChan)
    (ho : o.ops < p.lists.length) : ({ p with chans := p.chans.set c o } : Pool).Sound := by
  refine ⟨h.lists, ?_, h.vars, ?_⟩
  · intro o' ho'
    rcases mem_set_or ho' with ho' | rfl
    · exact h.chans o' ho'
    · exact ho
  · intro f hf
    show _ ∧ f.channel < (p.chans.set c o).length
    rw [List.length_set]
    exact h.confs f hf

theorem Pool.Sound.listAt {p : Pool} (h : p.Sound) (j : Nat) :
    ∀ a ∈ (p.lists[j]?).getD [], a < p.ops.length := by
  cases hj : p.lists[j]? with
  | none => intro a ha; cases ha
  | some l => exact h.lists l (List.mem_of_getElem? hj)

/-- What copying does. -/
theorem Pool.copy_spec {p : Pool} (h : p.Sound) (j : Nat) :
    (∃ more, (copyMemo ((p.lists[j]?).getD []) p.ops []).1 = p.ops ++ more) ∧
    (∀ a ∈ (copyMemo ((p.lists[j]?).getD []) p.ops []).2,
      p.ops.length ≤ a ∧ a < (copyMemo ((p.lists[j]?).getD []) p.ops []).1.length) ∧
    (copyMemo ((p.lists[j]?).getD []) p.ops []).2.map
      ((copyMemo ((p.lists[j]?).getD []) p.ops []).1[·]?) =
      ((p.lists[j]?).getD []).map (p.ops[·]?) :=
  copyMemo_spec p.ops.length _ _ _ (h.listAt j) (Nat.le_refl _) (by intro r r' hr; cases hr)

/-- The new channel: fresh operators with the values to copy, in a fresh list. -/
theorem Pool.newChan_shape {p : Pool} (h : p.Sound) (other : Option Nat) :
    ((∃ c, other = some c ∧ p.chans[c]? = none) ∧ p.newChan other = (.unbound, p)) ∨
    ∃ more l o, p.newChan other = (.made p.chans.length,
        { p with ops := p.ops ++ more, lists := p.lists ++ [l], chans := p.chans ++ [o] }) ∧
      o.ops = p.lists.length ∧ (∀ a ∈ l, p.ops.length ≤ a ∧ a < (p.ops ++ more).length) ∧
      ((other = none ∧ operatorsAt (p.ops ++ more) l = some [{}, {}, {}, {}] ∧
          o = { ops := p.lists.length }) ∨
       ∃ c oc, other = some c ∧ p.chans[c]? = some oc ∧
          operatorsAt (p.ops ++ more) l = operatorsAt p.ops ((p.lists[oc.ops]?).getD []) ∧
          o = { oc with ops := p.lists.length }) := by
  cases other with
  | none =>
    refine .inr ⟨_, _, _, rfl, rfl, ?_, .inl ⟨rfl, ?_, rfl⟩⟩
    · intro a ha
      simp only [List.mem_cons, List.not_mem_nil, or_false] at ha
      simp only [List.length_append, List.length_cons, List.length_nil]
      omega
    · have hg : ∀ (k : Nat) (o : OperatorConfig),
          ([{}, {}, {}, {}] : List OperatorConfig)[k]? = some o →
          (p.ops ++ ([{}, {}, {}, {}] : List OperatorConfig))[p.ops.length + k]? = some o := by
        intro k o hk
        rw [List.getElem?_append_right (by omega), Nat.add_sub_cancel_left]
        exact hk
      have h0 := hg 0 {} rfl
      have h1 := hg 1 {} rfl
      have h2 := hg 2 {} rfl
      have h3 := hg 3 {} rfl
      rw [Nat.add_zero] at h0
      simp only [operatorsAt, h0, h1, h2, h3]
  | some c =>
    cases hc : p.chans[c]? with
    | none => exact .inl ⟨⟨c, rfl, hc⟩, by simp [Pool.newChan, hc]⟩
    | some o =>
      obtain ⟨⟨more, e1⟩, e2, e3⟩ := p.copy_spec h o.ops
      refine .inr ⟨more, (copyMemo ((p.lists[o.ops]?).getD []) p.ops []).2,
        { o with ops := p.lists.length }, ?_, rfl, ?_, .inr ⟨c, o, rfl, hc, ?_, rfl⟩⟩
      · simp only [Pool.newChan, hc, e1]
      · rw [e1] at e2; exact e2
      · rw [← e1]; exact operatorsAt_map e3

theorem Pool.Sound.newChan {p : Pool} (h : p.Sound) (other : Option Nat) :
    (p.newChan other).2.Sound := by
  rcases p.newChan_shape h other with ⟨_, e⟩ | ⟨more, l, o, e, ho, hl, _⟩
  · rw [e]; exact h
  · rw [e]
    have := h.grow (p.ops ++ more) (by simp) [l]
      (by intro l' hl' a ha
          rw [List.mem_singleton] at hl'
          subst hl'
          exact (hl a ha).2)
      [o] (by intro o' ho'; rw [List.mem_singleton] at ho'; subst ho'; simp [ho]) []
      (by intro a ha; cases ha)
    rw [List.append_nil] at this
    exact this

theorem Pool.Sound.newVar {p : Pool} (h : p.Sound) (o : OperatorConfig) :
    ({ p with ops := p.ops ++ [o], vars := p.vars ++ [p.ops.length] } : Pool).Sound := by
  have := h.grow (p.ops ++ [o]) (by simp) [] (by intro l hl; cases hl) [] (by intro l hl; cases hl)
    [p.ops.length] (by intro a ha; rw [List.mem_singleton] at ha; subst ha; simp)
  rw [List.append_nil, List.append_nil] at this
  exact this

theorem Pool.Sound.call {p : Pool} (h : p.Sound) (c : PCall) : (p.call c).2.Sound := by
  cases c with
  | newOp other =>
    cases other with
    | none => exact h.newVar _
    | some x =>
      unfold Pool.call
      cases hx : p.vars[x]? with
      | none => simpa [hx] using h
      | some a => simpa [hx] using h.newVar _
  | newNote other =>
    cases other with
    | none => exact ⟨h.lists, h.chans, h.vars, h.confs⟩
    | some n =>
      unfold Pool.call
      cases hx : p.notes[n]? with
      | none => simpa [hx] using h
      | some o => simp only [hx]; exact ⟨h.lists, h.chans, h.vars, h.confs⟩
  | newBase other =>
    have hg : ∀ b, ({ p with bases := p.bases ++ [b] } : Pool).Sound := fun b =>
      ⟨h.lists, h.chans, h.vars, fun f hf => ⟨by
        have := (h.confs f hf).1
        show f.base < (p.bases ++ [b]).length
        rw [List.length_append]; omega, (h.confs f hf).2⟩⟩
    cases other with
    | none => exact hg _
    | some n =>
      unfold Pool.call
      cases hx : p.bases[n]? with
      | none => simpa [hx] using h
      | some o => simp only [hx]; exact hg _
  | newChan other => exact h.newChan other
  | newConf id base chan operators =>
    unfold Pool.call
    dsimp only
    split
    · rename_i hb
      refine ⟨h.lists, h.chans, h.vars, ?_⟩
      intro f hf
      rcases List.mem_append.mp hf with hf | hf
      · exact h.confs f hf
      · rw [List.mem_singleton] at hf
        subst hf
        exact hb
    · exact h
  | getOp c i => exact h.bindOf c i
  | getConfOp k i =>
    unfold Pool.call
    cases hk : p.confs[k]? with
    | none => simpa [hk] using h
    | some f => simp only [hk]; exact h.bindOf f.channel i
  | editOp x v =>
    unfold Pool.call
    cases hx : p.vars[x]? with
    | none => simpa [hx] using h
    | some a =>
      simp only [hx]
      refine ⟨?_, h.chans, ?_, h.confs⟩
      · simpa only [List.length_set] using h.lists
      · simpa only [List.length_set] using h.vars
  | editNote n v =>
    unfold Pool.call
    dsimp only
    split
    · exact ⟨h.lists, h.chans, h.vars, h.confs⟩
    · exact h
  | editBase n v =>
    unfold Pool.call
    dsimp only
    split
    · exact ⟨h.lists, h.chans, h.vars, by simpa only [List.length_set] using h.confs⟩
    · exact h
  | editChan c fb ams pms connection noise noiseFreq =>
    unfold Pool.call
    cases hc : p.chans[c]? with
    | none => simpa [hc] using h
    | some o =>
      simp only [hc]
      exact h.setChan c _ (h.chans o (List.mem_of_getElem? hc))
  | setOps c d =>
    unfold Pool.call
    cases hc : p.chans[c]? with
    | none => simpa [hc] using h
    | some o =>
      cases hd : p.chans[d]? with
      | none => simpa [hc, hd] using h
      | some o' =>
        simp only [hc, hd]
        exact h.setChan c _ (h.chans o' (List.mem_of_getElem? hd))
  | setItem c i x =>
    unfold Pool.call
    cases hc : p.chans[c]? with
    | none => simpa [hc] using h
    | some o =>
      cases hx : p.vars[x]? with
      | none => simpa [hc, hx] using h
      | some a =>
        simp only [hc, hx]
        split
        · refine h.setList _ _ ?_
          intro b hb
          rcases mem_set_or hb with hb | rfl
          · exact h.listAt _ b hb
          · exact h.vars _ (List.mem_of_getElem? hx)
        · exact h
  | append c x =>
    unfold Pool.call
    cases hc : p.chans[c]? with
    | none => simpa [hc] using h
    | some o =>
      cases hx : p.vars[x]? with
      | none => simpa [hc, hx] using h
      | some a =>
        simp only [hc, hx]
        refine h.setList _ _ ?_
        intro b hb
        rcases List.mem_append.mp hb with hb | hb
        · exact h.listAt _ b hb
        · rw [List.mem_singleton] at hb
          subst hb
          exact h.vars _ (List.mem_of_getElem? hx)
  | delItem c i =>
    unfold Pool.call
    cases hc : p.chans[c]? with
    | none => simpa [hc] using h
    | some o =>
      simp only [hc]
      split
      · refine h.setList _ _ ?_
        intro b hb
        exact h.listAt _ b (List.mem_of_mem_eraseIdx hb)
      · exact h
  | eqOp x y => unfold Pool.call; dsimp only; split <;> exact h
  | eqNote x y => unfold Pool.call; dsimp only; split <;> exact h
  | eqBase x y => unfold Pool.call; dsimp only; split <;> exact h
  | eqChan x y => unfold Pool.call; dsimp only; split <;> exact h
  | compare k b c operators => unfold Pool.call; dsimp only; split <;> exact h

theorem Pool.sound_start : Pool.start.Sound := by
  refine ⟨?_, ?_, ?_, ?_⟩ <;> decide

theorem Pool.Sound.calls {p : Pool} (h : p.Sound) : ∀ cs : List PCall, (p.calls cs).Sound
  | [] => h
  | c :: cs => (h.call c).calls cs

theorem Pool.calls_append (p : Pool) : ∀ cs cs' : List PCall, p.calls (cs ++ cs') = (p.calls cs).calls cs'
  | [], _ => rfl
  | c :: cs, cs' => by rw [List.cons_append, Pool.calls, Pool.calls, Pool.calls_append]

/-! ### A channel that nobody else can reach -/

/-- Channel `c` is the object `o` with the list `l`, and nobody else has this list, an operator in
it, or `c`. -/
structure Pool.Own (p : Pool) (c : Nat) (o : PChan) (l : List Nat) : Prop where
  chan : p.chans[c]? = some o
  list : p.lists[o.ops]? = some l
  chans : ∀ d o', d ≠ c → p.chans[d]? = some o' → o'.ops ≠ o.ops
  confs : ∀ f ∈ p.confs, f.channel ≠ c
  vars : ∀ a ∈ p.vars, a ∉ l
  lists : ∀ j l', j ≠ o.ops → p.lists[j]? = some l' → ∀ a ∈ l', a ∉ l
  pos : c ≠ 0

theorem Pool.Own.bindOf {p : Pool} {c : Nat} {o : PChan} {l : List Nat} (h : p.Own c o l) (d i : Nat)
    (hd : d ≠ c) : (p.bind (p.opList d) i).2.Own c o l ∧ (p.bind (p.opList d) i).2.ops = p.ops := by
  unfold Pool.opList
  cases ho : p.chans[d]? with
  | none => exact ⟨h, rfl⟩
  | some o' =>
    dsimp only
    cases hl : p.lists[o'.ops]? with
    | none => exact ⟨h, rfl⟩
    | some l' =>
      unfold Pool.bind
      cases hi : l'[i]? with
      | none => exact ⟨by simpa [hi] using h, by simp [hi]⟩
      | some a =>
        simp only [hi]
        refine ⟨⟨h.chan, h.list, h.chans, h.confs, ?_, h.lists, h.pos⟩, by first | rfl | trivial⟩
        intro b hb
        rcases List.mem_append.mp hb with hb | hb
        · exact h.vars b hb
        · rw [List.mem_singleton] at hb
          subst hb
          exact h.lists _ l' (h.chans d o' hd ho) hl _ (List.mem_of_getElem? hi)

/-- Assigning to another list. -/
theorem Pool.Own.setList {p : Pool} {c : Nat} {o : PChan} {l : List Nat} (h : p.Own c o l) (j : Nat)
    (hj : j ≠ o.ops) (l' : List Nat) (hl' : ∀ a ∈ l', a ∉ l) :
    ({ p with lists := p.lists.set j l' } : Pool).Own c o l := by
  refine ⟨h.chan, ?_, h.chans, h.confs, h.vars, ?_, h.pos⟩
  · show (p.lists.set j l')[o.ops]? = some l
    rw [List.getElem?_set_ne hj]
    exact h.list
  · intro k m hk hm
    replace hm : (p.lists.set j l')[k]? = some m := hm
    rw [List.getElem?_set] at hm
    split at hm
    · split at hm
      · cases hm; exact hl'
      · cases hm
    · exact h.lists k m hk hm

theorem Pool.Own.listAt {p : Pool} {c : Nat} {o : PChan} {l : List Nat} (h : p.Own c o l) (j : Nat)
    (hj : j ≠ o.ops) : ∀ a ∈ (p.lists[j]?).getD [], a ∉ l := by
  cases e : p.lists[j]? with
  | none => intro a ha; cases ha
  | some l' => exact h.lists j l' hj e

/-- Assigning to another channel object. -/
theorem Pool.Own.setChan {p : Pool} {c : Nat} {o : PChan} {l : List Nat} (h : p.Own c o l) (d : Nat)
    (hd : d ≠ c) (o' : PChan) (ho' : o'.ops ≠ o.ops) :
    ({ p with chans := p.chans.set d o' } : Pool).Own c o l := by
  refine ⟨?_, h.list, ?_, h.confs, h.vars, h.lists, h.pos⟩
  · show (p.chans.set d o')[c]? = some o
    rw [List.getElem?_set_ne hd]
    exact h.chan
  · intro k m hk hm
    replace hm : (p.chans.set d o')[k]? = some m := hm
    rw [List.getElem?_set] at hm
    split at hm
    · split at hm
      · cases hm; exact ho'
      · cases hm
    · exact h.chans k m hk hm

theorem Pool.Own.newChan {p : Pool} (hs : p.Sound) {c : Nat} {o : PChan} {l : List Nat}
    (h : p.Own c o l) (other : Option Nat) : (p.newChan other).2.Own c o l ∧
      ∀ a ∈ l, (p.newChan other).2.ops[a]? = p.ops[a]? := by
  rcases p.newChan_shape hs other with ⟨_, e⟩ | ⟨more, l', o', e, ho, hl, _⟩
  · rw [e]; exact ⟨h, fun _ _ => by first | rfl | trivial⟩
  · rw [e]
    have hlt : ∀ a ∈ l, a < p.ops.length := hs.lists l (List.mem_of_getElem? h.list)
    have hc : c < p.chans.length := (List.getElem?_eq_some_iff.mp h.chan).1
    have hol : o.ops < p.lists.length := hs.chans o (List.mem_of_getElem? h.chan)
    refine ⟨⟨?_, ?_, ?_, h.confs, h.vars, ?_, h.pos⟩, fun a ha => List.getElem?_append_left (hlt a ha)⟩
    · show (p.chans ++ [o'])[c]? = _
      rw [List.getElem?_append_left hc]
      exact h.chan
    · show (p.lists ++ [l'])[o.ops]? = _
      rw [List.getElem?_append_left hol]
      exact h.list
    · intro d m hd hm
      replace hm : (p.chans ++ [o'])[d]? = some m := hm
      by_cases hdl : d < p.chans.length
      · rw [List.getElem?_append_left hdl] at hm
        exact h.chans d m hd hm
      · rw [List.getElem?_append_right (by omega)] at hm
        have := List.mem_of_getElem? hm
        rw [List.mem_singleton] at this
        subst this
        rw [ho]
        omega
    · intro j m hj hm a ha hal
      replace hm : (p.lists ++ [l'])[j]? = some m := hm
      by_cases hjl : j < p.lists.length
      · rw [List.getElem?_append_left hjl] at hm
        exact h.lists j m hj hm a ha hal
      · rw [List.getElem?_append_right (by omega)] at hm
        have := List.mem_of_getElem? hm
        rw [List.mem_singleton] at this
        subst this
        have h1 := (hl a ha).1
        have h2 := hlt a hal
        omega

theorem Pool.Own.newVar {p : Pool} (hs : p.Sound) {c : Nat} {o : PChan} {l : List Nat}
    (h : p.Own c o l) (v : OperatorConfig) :
    ({ p with ops := p.ops ++ [v], vars := p.vars ++ [p.ops.length] } : Pool).Own c o l ∧
      ∀ a ∈ l, (p.ops ++ [v])[a]? = p.ops[a]? := by
  have hlt : ∀ a ∈ l, a < p.ops.length := hs.lists l (List.mem_of_getElem? h.list)
  refine ⟨⟨h.chan, h.list, h.chans, h.confs, ?_, h.lists, h.pos⟩,
    fun a ha => List.getElem?_append_left (hlt a ha)⟩
  intro b hb
  rcases List.mem_append.mp hb with hb | hb
  · exact h.vars b hb
  · rw [List.mem_singleton] at hb
    subst hb
    intro hc
    exact absurd (hlt _ hc) (by omega)

/-- A call that does not touch it leaves it alone. -/
theorem Pool.Own.call {p : Pool} (hs : p.Sound) {c : Nat} {o : PChan} {l : List Nat}
    (h : p.Own c o l) (x : PCall) (hx : touches c x = false) : (p.call x).2.Own c o l ∧
      ∀ a ∈ l, (p.call x).2.ops[a]? = p.ops[a]? := by
  cases x with
  | newOp other =>
    cases other with
    | none => exact h.newVar hs _
    | some x =>
      unfold Pool.call
      cases hx : p.vars[x]? with
      | none => simpa [hx] using h
      | some a => simpa only [hx] using h.newVar hs _
  | newNote other =>
    cases other with
    | none => exact ⟨⟨h.chan, h.list, h.chans, h.confs, h.vars, h.lists, h.pos⟩, fun _ _ => by first | rfl | trivial⟩
    | some n =>
      unfold Pool.call
      cases hx : p.notes[n]? with
      | none => simpa [hx] using h
      | some o =>
        simp only [hx]
        exact ⟨⟨h.chan, h.list, h.chans, h.confs, h.vars, h.lists, h.pos⟩, fun _ _ => by first | rfl | trivial⟩
  | newBase other =>
    cases other with
    | none => exact ⟨⟨h.chan, h.list, h.chans, h.confs, h.vars, h.lists, h.pos⟩, fun _ _ => by first | rfl | trivial⟩
    | some n =>
      unfold Pool.call
      cases hx : p.bases[n]? with
      | none => simpa [hx] using h
      | some o =>
        simp only [hx]
        exact ⟨⟨h.chan, h.list, h.chans, h.confs, h.vars, h.lists, h.pos⟩, fun _ _ => by first | rfl | trivial⟩
  | newChan other => exact h.newChan hs other
  | newConf id base chan operators =>
    unfold Pool.call
    dsimp only
    split
    · refine ⟨⟨h.chan, h.list, h.chans, ?_, h.vars, h.lists, h.pos⟩, fun _ _ => by first | rfl | trivial⟩
      intro f hf
      rcases List.mem_append.mp hf with hf | hf
      · exact h.confs f hf
      · rw [List.mem_singleton] at hf
        subst hf
        cases chan with
        | none => exact fun e => h.pos e.symm
        | some d => simpa [touches] using hx
    · exact ⟨h, fun _ _ => by first | rfl | trivial⟩
  | getOp d i =>
    have := h.bindOf d i (by simpa [touches] using hx)
    exact ⟨this.1, fun a _ => congrArg (·[a]?) this.2⟩
  | getConfOp k i =>
    unfold Pool.call
    cases hk : p.confs[k]? with
    | none => simpa [hk] using h
    | some f =>
      simp only [hk]
      have := h.bindOf f.channel i (h.confs f (List.mem_of_getElem? hk))
      exact ⟨this.1, fun a _ => congrArg (·[a]?) this.2⟩
  | editOp x v =>
    unfold Pool.call
    cases hx : p.vars[x]? with
    | none => simpa [hx] using h
    | some a =>
      simp only [hx]
      refine ⟨⟨h.chan, h.list, h.chans, h.confs, h.vars, h.lists, h.pos⟩, ?_⟩
      intro b hb
      have hne : a ≠ b := by
        rintro rfl
        exact h.vars a (List.mem_of_getElem? hx) hb
      exact List.getElem?_set_ne hne
  | editNote n v =>
    unfold Pool.call
    dsimp only
    split
    · exact ⟨⟨h.chan, h.list, h.chans, h.confs, h.vars, h.lists, h.pos⟩, fun _ _ => by first | rfl | trivial⟩
    · exact ⟨h, fun _ _ => by first | rfl | trivial⟩
  | editBase n v =>
    unfold Pool.call
    dsimp only
    split
    · exact ⟨⟨h.chan, h.list, h.chans, h.confs, h.vars, h.lists, h.pos⟩, fun _ _ => by first | rfl | trivial⟩
    · exact ⟨h, fun _ _ => by first | rfl | trivial⟩
  | editChan d fb ams pms connection noise noiseFreq =>
    have hd : d ≠ c := by simpa [touches] using hx
    unfold Pool.call
    cases hc : p.chans[d]? with
    | none => simpa [hc] using h
    | some o' =>
      simp only [hc]
      exact ⟨h.setChan d hd _ (h.chans d o' hd hc), fun _ _ => by first | rfl | trivial⟩
  | setOps d e =>
    have hd : d ≠ c ∧ e ≠ c := by simpa [touches] using hx
    unfold Pool.call
    cases hc : p.chans[d]? with
    | none => simpa [hc] using h
    | some o1 =>
      cases he : p.chans[e]? with
      | none => simpa [hc, he] using h
      | some o2 =>
        simp only [hc, he]
        exact ⟨h.setChan d hd.1 _ (h.chans e o2 hd.2 he), fun _ _ => by first | rfl | trivial⟩
  | setItem d i x =>
    have hd : d ≠ c := by simpa [touches] using hx
    unfold Pool.call
    cases hc : p.chans[d]? with
    | none => simpa [hc] using h
    | some o' =>
      cases hv : p.vars[x]? with
      | none => simpa [hc, hv] using h
      | some a =>
        simp only [hc, hv]
        split
        · refine ⟨h.setList _ (h.chans d o' hd hc) _ ?_, fun _ _ => by first | rfl | trivial⟩
          intro b hb
          rcases mem_set_or hb with hb | rfl
          · exact h.listAt _ (h.chans d o' hd hc) b hb
          · exact h.vars _ (List.mem_of_getElem? hv)
        · exact ⟨h, fun _ _ => by first | rfl | trivial⟩
  | append d x =>
    have hd : d ≠ c := by simpa [touches] using hx
    unfold Pool.call
    cases hc : p.chans[d]? with
    | none => simpa [hc] using h
    | some o' =>
      cases hv : p.vars[x]? with
      | none => simpa [hc, hv] using h
      | some a =>
        simp only [hc, hv]
        refine ⟨h.setList _ (h.chans d o' hd hc) _ ?_, fun _ _ => by first | rfl | trivial⟩
        intro b hb
        rcases List.mem_append.mp hb with hb | hb
        · exact h.listAt _ (h.chans d o' hd hc) b hb
        · rw [List.mem_singleton] at hb
          subst hb
          exact h.vars _ (List.mem_of_getElem? hv)
  | delItem d i =>
    have hd : d ≠ c := by simpa [touches] using hx
    unfold Pool.call
    cases hc : p.chans[d]? with
    | none => simpa [hc] using h
    | some o' =>
      simp only [hc]
      split
      · refine ⟨h.setList _ (h.chans d o' hd hc) _ ?_, fun _ _ => by first | rfl | trivial⟩
        intro b hb
        exact h.listAt _ (h.chans d o' hd hc) b (List.mem_of_mem_eraseIdx hb)
      · exact ⟨h, fun _ _ => by first | rfl | trivial⟩
  | eqOp x y => unfold Pool.call; dsimp only; split <;> exact ⟨h, fun _ _ => by first | rfl | trivial⟩
  | eqNote x y => unfold Pool.call; dsimp only; split <;> exact ⟨h, fun _ _ => by first | rfl | trivial⟩
  | eqBase x y => unfold Pool.call; dsimp only; split <;> exact ⟨h, fun _ _ => by first | rfl | trivial⟩
  | eqChan x y => unfold Pool.call; dsimp only; split <;> exact ⟨h, fun _ _ => by first | rfl | trivial⟩
  | compare k b c operators => unfold Pool.call; dsimp only; split <;> exact ⟨h, fun _ _ => by first | rfl | trivial⟩

end VgmX
