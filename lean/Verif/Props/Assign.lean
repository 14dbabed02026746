import Verif.Spec.Assign
import Verif.Props.Attr
/-
C112: assigning attributes of a state or an instrument only masks them. Vocabulary: Spec/Assign.lean.
-/

namespace VgmX
open Spec Spec.Assign

theorem get_cons (x : Str × AttrVal) (d : Dict) (m : Str) :
    Dict.get (x :: d) m = if x.1 = m then some x.2 else d.get m := by
  unfold Dict.get
  rw [List.find?_cons]
  by_cases h : x.1 = m <;> simp [h]

theorem get_append (d e : Dict) (m : Str) :
    Dict.get (d ++ e) m = match d.get m with | some v => some v | none => e.get m := by
  induction d with
  | nil => rfl
  | cons x d ih =>
    rw [List.cons_append, get_cons, get_cons, ih]
    by_cases h : x.1 = m <;> simp [h]

theorem get_any (d : Dict) (m : Str) : d.any (fun x => x.1 = m) = (d.get m).isSome := by
  induction d with
  | nil => rfl
  | cons x d ih =>
    rw [List.any_cons, get_cons, ih]
    by_cases h : x.1 = m <;> simp [h]

theorem get_set (d : Dict) (n m : Str) (v : AttrVal) :
    (d.set n v).get m = if n = m then some v else d.get m := by
  unfold Dict.set
  split
  · rename_i h
    rw [get_any] at h
    induction d with
    | nil => simp [Dict.get] at h
    | cons x d ih =>
      rw [get_cons] at h
      by_cases hx : x.1 = n
      · rw [List.map_cons, if_pos hx, get_cons, get_cons]
        by_cases hm : n = m
        · simp [hm]
        · have : ¬ x.1 = m := hx ▸ hm
          simp only [hm, this, if_false]
          have keep : ∀ d : Dict, Dict.get (d.map (fun x => if x.1 = n then (n, v) else x)) m =
              d.get m := by
            intro d
            induction d with
            | nil => rfl
            | cons y d ih =>
              rw [List.map_cons, get_cons, get_cons, ih]
              by_cases hy : y.1 = n
              · rw [if_pos hy]
                have : ¬ y.1 = m := hy ▸ hm
                simp [this, hm]
              · rw [if_neg hy]
          exact keep d
      · rw [if_neg hx] at h
        rw [List.map_cons, if_neg hx, get_cons, get_cons, ih h]
        by_cases hm : n = m
        · have : ¬ x.1 = m := hm ▸ hx
          simp [hm, this]
        · simp [hm]
  · rename_i h
    rw [get_any] at h
    rw [get_append, get_cons]
    by_cases hm : n = m
    · subst hm
      cases hd : d.get n with
      | none => simp
      | some w => rw [hd] at h; simp at h
    · simp only [hm, if_false]
      cases hd : d.get m <;> rfl

theorem get_del (d : Dict) (n m : Str) : (d.del n).get m = if n = m then none else d.get m := by
  unfold Dict.del
  induction d with
  | nil => split <;> rfl
  | cons x d ih =>
    rw [List.filter_cons]
    by_cases hx : x.1 = n
    · simp only [hx, not_true_eq_false, decide_false, Bool.false_eq_true, if_false]
      rw [ih, get_cons]
      by_cases hm : n = m
      · simp [hm]
      · have : ¬ x.1 = m := hx ▸ hm
        simp [hm, this]
    · simp only [hx, not_false_eq_true, decide_true, if_true]
      rw [get_cons, get_cons, ih]
      by_cases hm : n = m
      · have : ¬ x.1 = m := hm ▸ hx
        simp [hm, this]
      · simp [hm]

theorem get_fold (l d : Dict) (m : Str) (hn : (l.map (·.1)).Nodup) :
    (l.foldl (fun d x => d.set x.1 x.2) d).get m =
      match l.get m with | some v => some v | none => d.get m := by
  induction l generalizing d with
  | nil => rfl
  | cons x l ih =>
    rw [List.map_cons, List.nodup_cons] at hn
    rw [List.foldl_cons, ih _ hn.2, get_set, get_cons]
    by_cases hx : x.1 = m
    · have : Dict.get l m = none := get_none (by rw [← hx]; exact hn.1)
      simp [hx, this]
    · simp [hx]

theorem get_putState (d : Dict) (s : State) (m : Str) :
    (putState d s).get m = match s.dict.get m with | some v => some v | none => d.get m := by
  unfold putState
  refine get_fold _ _ _ ?_
  rw [stateDict_keys]
  decide

theorem get_isSome {d : Dict} {n : Str} : (d.get n).isSome = true ↔ n ∈ d.map (·.1) := by
  induction d with
  | nil => simp [Dict.get]
  | cons x d ih =>
    rw [get_cons, List.map_cons, List.mem_cons]
    by_cases h : x.1 = n
    · simp [h]
    · simp only [h, if_false, ih]
      constructor
      · exact Or.inr
      · rintro (e | e)
        · exact absurd e.symm h
        · exact e

theorem stateDict_none (s s' : State) (n : Str) (h : s.dict.get n = none) : s'.dict.get n = none := by
  rw [← Option.not_isSome_iff_eq_none] at h ⊢
  rw [get_isSome] at h ⊢
  exact h

theorem stateDict_free (s : State) (n : Str) (h : Free reservedOnState n) : s.dict.get n = none := by
  refine get_none ?_
  rw [stateDict_keys]
  exact notMem_of (pub := reservedOnState) (by decide) h.1 h.2

theorem configDict_free (c : Config) (n : Str) (h : Free reservedOnInstr n) : c.dict.get n = none := by
  refine get_none ?_
  rw [configDict_keys]
  exact notMem_of (pub := reservedOnInstr) (by decide) h.1 h.2

theorem lookup_congr (obj : Str → Bool) (c : PyClass) (d d' : Dict) (n : Str)
    (h : d.get n = d'.get n) : lookup obj c d n = lookup obj c d' n := by
  unfold lookup; rw [h]

theorem stateAttr_congr (obj : Str → Bool) (d d' : Dict)
    (hb : d.get "_current_base_config".toList = d'.get "_current_base_config".toList) (k : Nat)
    (n : Str) (h : d.get n = d'.get n) : stateAttr obj k d n = stateAttr obj k d' n := by
  induction k generalizing n with
  | zero => rfl
  | succ k ih => rw [stateAttr, stateAttr, lookup_congr obj .state d d' n h, ih _ hb]

theorem configAttr_congr (obj : Str → Bool) (d d' : Dict)
    (hb : d.get "_base".toList = d'.get "_base".toList)
    (ho : d.get "_operators".toList = d'.get "_operators".toList)
    (hc : d.get "_channel".toList = d'.get "_channel".toList) (k : Nat)
    (n : Str) (h : d.get n = d'.get n) : configAttr obj k d n = configAttr obj k d' n := by
  induction k generalizing n with
  | zero => rfl
  | succ k ih =>
    rw [configAttr, configAttr, lookup_congr obj .config d d' n h, ih _ hb, ih _ ho, ih _ hc]

/-- What holds after every session. -/
structure AInv (o : AObj) (s : State) (a : Str → Option AttrVal) (b : Nat → Str → Option AttrVal) :
    Prop where
  dict : ∀ n, o.dict.get n = match s.dict.get n with | some v => some v | none => a n
  free : ∀ n, (a n).isSome = true → Free reservedOnState n
  extras : ∀ i n, (o.extras i).get n = b i n
  freeI : ∀ i n, (b i n).isSome = true → Free reservedOnInstr n
  bound : ∀ i n, (b i n).isSome = true → i < s.configs.length

theorem AInv.seen {o : AObj} {s : State} {a : Str → Option AttrVal} {b : Nat → Str → Option AttrVal}
    (h : AInv o s a b) : stateOf o.dict = some s := by
  unfold stateOf
  rw [h.dict, h.dict, h.dict, h.dict, h.dict, h.dict, h.dict, h.dict]
  rfl

theorem AInv.instr {o : AObj} {s : State} {a : Str → Option AttrVal}
    {b : Nat → Str → Option AttrVal} (h : AInv o s a b) (i : Nat) :
    o.instr i = match s.configs[i]? with | some c => .ok c | none => .error .index := by
  unfold AObj.instr
  rw [h.dict]
  rfl

theorem AInv.masked {o : AObj} {s : State} {a : Str → Option AttrVal}
    {b : Nat → Str → Option AttrVal} (h : AInv o s a b) (obj : Str → Bool) (k : Nat) :
    Masked obj (k + 1) o s a b := by
  have hlen : ∀ i, (s.configs[i]? = none ∧ ¬ i < s.configs.length) ∨
      ∃ c, s.configs[i]? = some c ∧ i < s.configs.length := by
    intro i
    cases hc : s.configs[i]? with
    | none => exact Or.inl ⟨rfl, by simpa using hc⟩
    | some c => exact Or.inr ⟨c, rfl, (List.getElem?_eq_some_iff.mp hc).1⟩
  refine ⟨h.seen, ?_, ?_, fun _ _ => rfl, ?_, ?_, ?_⟩
  · intro n
    show (stateAttr obj (k + 1) o.dict n).map some = _
    cases ha : a n with
    | some v =>
      have hg : o.dict.get n = some v := by
        rw [h.dict, stateDict_free s n (h.free n (by rw [ha]; rfl))]; exact ha
      rw [stateAttr, lookup, hg]
      rfl
    | none =>
      have hg : o.dict.get n = s.dict.get n := by
        rw [h.dict, ha]; cases s.dict.get n <;> rfl
      simp only
      rw [stateAttr_congr obj o.dict s.dict (by rw [h.dict]; rfl) _ _ hg]
  · intro i n
    show (match o.instr i with
      | .ok c => ((configAttr obj (k + 1) (c.dict ++ o.extras i) n).map some, o)
      | .error e => (.error e, o)).1 = _
    rw [h.instr]
    cases hc : s.configs[i]? with
    | none => rfl
    | some c =>
      simp only
      cases hb : b i n with
      | some v =>
        have hg : Dict.get (c.dict ++ o.extras i) n = some v := by
          rw [get_append, configDict_free c n (h.freeI i n (by rw [hb]; rfl)), h.extras]; exact hb
        rw [configAttr, lookup, hg]
        rfl
      | none =>
        have hg : Dict.get (c.dict ++ o.extras i) n = c.dict.get n := by
          rw [get_append, h.extras, hb]; cases c.dict.get n <;> rfl
        simp only
        rw [configAttr_congr obj _ c.dict (by rw [get_append]; rfl) (by rw [get_append]; rfl)
          (by rw [get_append]; rfl) _ _ hg]
  · intro i n v
    rw [AObj.call, h.instr]
    rcases hlen i with ⟨hc, hl⟩ | ⟨c, hc, hl⟩ <;> simp [hc, hl]
  · intro n hn
    rw [AObj.call]
    rw [h.dict, stateDict_free s n hn]
    simp only
    split <;> rfl
  · intro i n hn
    rw [AObj.call, h.instr, h.extras]
    rcases hlen i with ⟨hc, hl⟩ | ⟨c, hc, hl⟩
    · simp [hc, hl]
    · simp only [hc, hl, if_true]
      split <;> rfl


theorem events_snoc (past : List ACall) (c : ACall) :
    events (past ++ [c]) = events past ++ events [c] := by
  unfold events; rw [List.filterMap_append]

/-- A method call. -/
theorem AInv.method {o : AObj} {s : State} {a : Str → Option AttrVal}
    {b : Nat → Str → Option AttrVal} (h : AInv o s a b) (f : State → State)
    (hl : s.configs.length ≤ (f s).configs.length) : AInv (o.method f).2 (f s) a b := by
  unfold AObj.method
  rw [h.seen]
  refine ⟨?_, h.free, h.extras, h.freeI, fun i n hi => Nat.lt_of_lt_of_le (h.bound i n hi) hl⟩
  intro n
  simp only
  rw [get_putState, h.dict]
  cases hf : (f s).dict.get n with
  | some v => rfl
  | none => rw [stateDict_none (f s) s n hf]

theorem session_inv (obj : Str → Bool) (k : Nat) (cs : List ACall) :
    ∀ (past : List ACall) (o : AObj) (a : Str → Option AttrVal) (b : Nat → Str → Option AttrVal),
    AInv o (run (events past)) a b → ByteHistory (events (past ++ cs)) → (∀ c ∈ cs, Ok c) →
    AInv (o.session obj k cs) (run (events (past ++ cs))) (fun n => onState n cs (a n))
      (fun i n => onInstr i n past cs (b i n)) := by
  induction cs with
  | nil =>
    intro past o a b h _ _
    rw [List.append_nil]
    simpa only [onState, onInstr] using (show AInv (o.session obj k []) _ a b from h)
  | cons c cs ih =>
    intro past o a b h hb hok
    have hassoc : past ++ c :: cs = (past ++ [c]) ++ cs := by simp
    have hc := hok c (by simp)
    have hrest : ∀ c ∈ cs, Ok c := fun d hd => hok d (by simp [hd])
    rw [hassoc] at hb ⊢
    have hb1 : ByteHistory (events (past ++ [c])) := by
      intro e he
      exact hb e (by unfold events at he ⊢; rw [List.filterMap_append]; exact List.mem_append_left _ he)
    have hb0 : ByteHistory (events past) := by
      intro e he
      exact hb1 e (by rw [events_snoc]; exact List.mem_append_left _ he)
    have hlen : (instruments (events past)).length = (run (events past)).configs.length := by
      rw [← c19_instruments _ hb0, List.length_map]
    have hgrow : ∀ e, events (past ++ [c]) = events past ++ [e] →
        (run (events past)).configs.length ≤ ((run (events past)).step e).configs.length := by
      intro e he
      rw [he] at hb1
      rw [← run_snoc]
      exact (c19_grows _ _ hb1).length_le
    show AInv ((o.call obj k c).2.session obj k cs) _ _ _
    cases c with
    | apply r v =>
      refine ih (past ++ [.apply r v]) _ a b ?_ hb hrest
      rw [events_snoc]
      show AInv _ (run (events past ++ [.write r v])) a b
      rw [run_snoc]
      exact h.method (fun s => s.apply r v) (hgrow (.write r v) (events_snoc _ _))
    | beat n =>
      refine ih (past ++ [.beat n]) _ a b ?_ hb hrest
      rw [events_snoc]
      show AInv _ (run (events past ++ [.wait n])) a b
      rw [run_snoc]
      exact h.method (fun s => s.beat n) (hgrow (.wait n) (events_snoc _ _))
    | get n =>
      refine ih (past ++ [.get n]) _ a b ?_ hb hrest
      rw [events_snoc]
      show AInv _ (run (events past ++ [])) a b
      rw [List.append_nil]
      exact h
    | getInstr i n =>
      refine ih (past ++ [.getInstr i n]) _ a b ?_ hb hrest
      rw [events_snoc]
      show AInv _ (run (events past ++ [])) a b
      rw [List.append_nil, AObj.call, h.instr]
      cases (run (events past)).configs[i]? <;> exact h
    | set m v =>
      have hc : Free reservedOnState m := hc
      refine ih (past ++ [.set m v]) _ (fun n => if m = n then some v else a n) b ?_ hb hrest
      rw [events_snoc]
      show AInv _ (run (events past ++ [])) _ b
      rw [List.append_nil]
      refine ⟨?_, ?_, h.extras, h.freeI, h.bound⟩
      · intro n
        show (o.dict.set m v).get n = _
        rw [get_set, h.dict]
        by_cases hm : m = n
        · subst hm
          simp only [if_true, stateDict_free _ m hc]
        · simp only [hm, if_false]
      · intro n hn
        by_cases hm : m = n
        · exact hm ▸ hc
        · simp only [hm, if_false] at hn
          exact h.free n hn
    | del m =>
      have hc : Free reservedOnState m := hc
      refine ih (past ++ [.del m]) _ (fun n => if m = n then none else a n) b ?_ hb hrest
      rw [events_snoc]
      show AInv _ (run (events past ++ [])) _ b
      rw [List.append_nil]
      have hfree : ∀ n, (if m = n then none else a n).isSome = true → Free reservedOnState n := by
        intro n hn
        by_cases hm : m = n
        · exact hm ▸ hc
        · simp only [hm, if_false] at hn
          exact h.free n hn
      rw [AObj.call]
      split
      · refine ⟨?_, hfree, h.extras, h.freeI, h.bound⟩
        intro n
        show (o.dict.del m).get n = _
        rw [get_del, h.dict]
        by_cases hm : m = n
        · subst hm
          simp only [if_true, stateDict_free _ m hc]
        · simp only [hm, if_false]
      · rename_i hs
        refine ⟨?_, hfree, h.extras, h.freeI, h.bound⟩
        intro n
        rw [h.dict]
        by_cases hm : m = n
        · subst hm
          rw [h.dict, stateDict_free _ m hc] at hs
          simp only [if_true, stateDict_free _ m hc]
          simpa using hs
        · simp only [hm, if_false]
    | setInstr j m v =>
      have hc : Free reservedOnInstr m := hc
      refine ih (past ++ [.setInstr j m v]) _ a
        (fun i n => if j = i ∧ m = n ∧ i < (instruments (events past)).length then some v else b i n)
        ?_ hb hrest
      rw [events_snoc]
      show AInv _ (run (events past ++ [])) a _
      rw [List.append_nil, AObj.call, h.instr]
      simp only [hlen]
      cases hj : (run (events past)).configs[j]? with
      | none =>
        have hj : ¬ j < (run (events past)).configs.length := by simpa using hj
        have e : ∀ i n, (if j = i ∧ m = n ∧ i < (run (events past)).configs.length then some v
            else b i n) = b i n := by
          intro i n
          rw [if_neg]
          rintro ⟨e, -, h2⟩
          exact hj (e ▸ h2)
        simp only [e]
        exact h
      | some c =>
        have hj : j < (run (events past)).configs.length := (List.getElem?_eq_some_iff.mp hj).1
        refine ⟨h.dict, h.free, ?_, ?_, ?_⟩
        · intro i n
          simp only
          by_cases hi : i = j
          · subst hi
            rw [if_pos rfl, get_set, h.extras]
            by_cases hm : m = n
            · simp [hm, hj]
            · simp [hm]
          · rw [if_neg hi, h.extras, if_neg]
            rintro ⟨e, -⟩
            exact hi e.symm
        · intro i n hn
          split at hn
          · rename_i hh
            exact hh.2.1 ▸ hc
          · exact h.freeI i n hn
        · intro i n hn
          split at hn
          · rename_i hh
            exact hh.2.2
          · exact h.bound i n hn
    | delInstr j m =>
      have hc : Free reservedOnInstr m := hc
      refine ih (past ++ [.delInstr j m]) _ a
        (fun i n => if j = i ∧ m = n then none else b i n) ?_ hb hrest
      rw [events_snoc]
      show AInv _ (run (events past ++ [])) a _
      rw [List.append_nil, AObj.call, h.instr]
      have hsub : ∀ i n, (if j = i ∧ m = n then none else b i n).isSome = true →
          (b i n).isSome = true := by
        intro i n hn
        split at hn
        · simp at hn
        · exact hn
      cases hj : (run (events past)).configs[j]? with
      | none =>
        have hj : ¬ j < (run (events past)).configs.length := by simpa using hj
        have e : ∀ i n, (if j = i ∧ m = n then none else b i n) = b i n := by
          intro i n
          split
          · rename_i hh
            cases hbn : b i n with
            | none => rfl
            | some w =>
              have := h.bound i n (by rw [hbn]; rfl)
              exact absurd (hh.1 ▸ this) hj
          · rfl
        simp only [e]
        exact h
      | some c =>
        simp only
        split
        · refine ⟨h.dict, h.free, ?_, fun i n hn => h.freeI i n (hsub i n hn),
            fun i n hn => h.bound i n (hsub i n hn)⟩
          intro i n
          simp only
          by_cases hi : i = j
          · subst hi
            rw [if_pos rfl, get_del, h.extras]
            by_cases hm : m = n
            · simp [hm]
            · simp [hm]
          · rw [if_neg hi, h.extras, if_neg]
            rintro ⟨e, -⟩
            exact hi e.symm
        · rename_i hs
          refine ⟨h.dict, h.free, ?_, fun i n hn => h.freeI i n (hsub i n hn),
            fun i n hn => h.bound i n (hsub i n hn)⟩
          intro i n
          rw [h.extras]
          split
          · rename_i hh
            rw [hh.1, hh.2, h.extras] at hs
            simpa using hs
          · rfl

theorem fresh_inv : AInv AObj.fresh (run (events [])) (fun _ => none) (fun _ _ => none) := by
  refine ⟨?_, by simp, fun _ _ => rfl, by simp, by simp⟩
  intro n
  show State.init.dict.get n = match State.init.dict.get n with | some v => some v | none => none
  cases State.init.dict.get n <;> rfl

/-- C112: After any assignments, deletions, reads, register writes and waits, methods and exports see
what the writes and waits alone have made; reads give what was assigned where something is assigned,
and otherwise what they would give without. -/
theorem c112_session (obj : Str → Bool) (depth : Nat) (cs : List ACall) (hok : ∀ c ∈ cs, Ok c) :
    Masked obj (depth + 1) (AObj.fresh.session obj (depth + 1) cs) (run (events cs))
      (fun n => onState n cs none) (fun i n => onInstr i n [] cs none) := by
  have hb : ByteHistory (events cs) := by
    intro e he
    obtain ⟨c, hc, he⟩ := List.mem_filterMap.mp he
    have := hok c hc
    cases c <;> simp at he
    · subst he; exact this
    · subst he; trivial
  exact (session_inv obj (depth + 1) cs [] AObj.fresh _ _ fresh_inv hb hok).masked obj depth

/-- C112: The four global settings: what was assigned, or what the registers say. -/
theorem c112_settings (obj : Str → Bool) (ho : ObjectNames obj) (depth : Nat) (cs : List ACall)
    (hok : ∀ c ∈ cs, Ok c) (o : AObj) (hs : o = AObj.fresh.session obj (depth + 2) cs) :
    (o.call obj (depth + 2) (.get "lfo".toList)).1 =
      .ok (some ((onState "lfo".toList cs none).getD (.int (Spec.base (events cs)).lfo))) ∧
    (o.call obj (depth + 2) (.get "amp_md".toList)).1 =
      .ok (some ((onState "amp_md".toList cs none).getD (.int (Spec.base (events cs)).ampMd))) ∧
    (o.call obj (depth + 2) (.get "phs_md".toList)).1 =
      .ok (some ((onState "phs_md".toList cs none).getD (.int (Spec.base (events cs)).phsMd))) ∧
    (o.call obj (depth + 2) (.get "waveform".toList)).1 =
      .ok (some ((onState "waveform".toList cs none).getD
        (.waveform (Spec.base (events cs)).waveform))) := by
  subst hs
  have hb : ByteHistory (events cs) := by
    intro e he
    obtain ⟨c, hc, he⟩ := List.mem_filterMap.mp he
    have := hok c hc
    cases c <;> simp at he
    · subst he; exact this
    · subst he; trivial
  have h := c112_session obj (depth + 1) cs hok
  obtain ⟨h1, h2, h3, h4⟩ := c69_settings obj ho (events cs) hb depth
  refine ⟨?_, ?_, ?_, ?_⟩
  all_goals
    rw [h.get]
    cases hv : onState _ cs none with
    | some v => rfl
    | none => simp only [h1, h2, h3, h4]; rfl

/-- A session: the LFO register, an assignment, the register again, a key-on, and an assignment to the
instrument that it records; then deletions. -/
def c112Calls : List ACall :=
  [ .apply 0x18 5, .set "lfo".toList (.int 9), .apply 0x18 7, .setInstr 0 "fb".toList (.int 1)
  , .beat 10, .apply 0x20 0x38, .apply 0x08 0x78, .setInstr 0 "fb".toList (.int 1) ]

/-- Names that no class here defines. -/
def noNames : Str → Bool := fun _ => false

example : (∀ c ∈ c112Calls, Ok c) ∧ ObjectNames noNames := by
  refine ⟨?_, by unfold noNames; simp, rfl, rfl⟩
  intro c hc
  simp only [c112Calls, List.mem_cons, List.not_mem_nil, or_false] at hc
  rcases hc with rfl | rfl | rfl | rfl | rfl | rfl | rfl | rfl <;> (unfold Ok; try unfold Free) <;>
    decide

/-- The state keeps showing 9 although the register says 7, which the instrument has; the instrument
shows 1 for its feedback of 7; the first assignment to the instrument came too early. -/
example :
    onState "lfo".toList c112Calls none = some (.int 9) ∧
    (Spec.base (events c112Calls)).lfo = 7 ∧
    onState "lfo".toList (c112Calls ++ [.del "lfo".toList]) none = none ∧
    onInstr 0 "fb".toList [] (c112Calls.take 7) none = none ∧
    onInstr 0 "fb".toList [] c112Calls none = some (.int 1) ∧
    ((run (events c112Calls)).configs.map (fun c => (c.base.lfo, c.channel.fb))) = [(7, 7)] ∧
    ((AObj.fresh.session noNames 9 c112Calls).call noNames 9 (.get "lfo".toList)).1 =
      .ok (some (.int 9)) ∧
    (((AObj.fresh.session noNames 9 c112Calls).call noNames 9 (.del "lfo".toList)).2.call noNames 9
      (.get "lfo".toList)).1 = .ok (some (.int 7)) := by
  decide +kernel

/-- Why `configs` is excepted: that assignment is not a mask. -/
example : (stateOf (AObj.fresh.session noNames 9 (c112Calls ++
    [.set "configs".toList (.configs [])])).dict).map (fun s => s.configs.length) = some 0 := by
  decide +kernel

end VgmX
