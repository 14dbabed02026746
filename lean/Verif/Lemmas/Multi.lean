import Mathlib.Data.List.Forall2
import Mathlib.Data.List.Nodup
import Verif.Model.Multi
import Verif.Lemmas.Heap
import Verif.Props.Heap
/-
Relocation: a state object in a shared heap behaves like one in a heap of its own, and touches
only its own objects. `ρ` lists the address in the shared heap of every object of the private one.
-/

namespace VgmX
open Spec

/-- One arena: private objects at `ρ`, pairwise different places. -/
structure AEmb {α : Type} (ρ : List Nat) (R : α → α → Prop) (small big : List α) : Prop where
  len : ρ.length = small.length
  nodup : ρ.Nodup
  lt : ∀ r ∈ ρ, r < big.length
  get : ∀ (i : Nat) (a : α) (r : Nat), small[i]? = some a → ρ[i]? = some r → ∃ b, big[r]? = some b ∧ R a b

theorem AEmb.mono {α : Type} {ρ : List Nat} {R R' : α → α → Prop} {a b : List α}
    (h : AEmb ρ R a b) (hm : ∀ x y, R x y → R' x y) : AEmb ρ R' a b :=
  ⟨h.len, h.nodup, h.lt, fun i x r h1 h2 => by
    obtain ⟨y, hy, hr⟩ := h.get i x r h1 h2
    exact ⟨y, hy, hm x y hr⟩⟩

theorem AEmb.set {α : Type} {ρ : List Nat} {R : α → α → Prop} {s b : List α} (h : AEmb ρ R s b)
    {i r : Nat} {x y : α} (hr : ρ[i]? = some r) (hxy : R x y) : AEmb ρ R (s.set i x) (b.set r y) := by
  refine ⟨by simpa using h.len, h.nodup, by simpa using h.lt, ?_⟩
  intro j a q hj hq
  by_cases hij : i = j
  · subst hij
    rw [hr] at hq
    cases hq
    have hi : i < s.length := by
      have := lt_of_get hr
      rw [h.len] at this; exact this
    rw [List.getElem?_set_self hi] at hj
    cases hj
    exact ⟨y, List.getElem?_set_self (h.lt r (List.mem_of_getElem? hr)), hxy⟩
  · rw [List.getElem?_set_ne hij] at hj
    obtain ⟨z, hz, hrz⟩ := h.get j a q hj hq
    refine ⟨z, ?_, hrz⟩
    rw [List.getElem?_set_ne]
    · exact hz
    · intro e
      subst e
      have h1 := lt_of_get hr
      have h2 := lt_of_get hq
      rw [List.getElem?_eq_getElem h1, Option.some.injEq] at hr
      rw [List.getElem?_eq_getElem h2, Option.some.injEq] at hq
      exact hij ((List.Nodup.getElem_inj_iff h.nodup).mp (hr.trans hq.symm))

theorem AEmb.append {α : Type} {ρ : List Nat} {R : α → α → Prop} {s b : List α} (h : AEmb ρ R s b)
    {x y : α} (hxy : R x y) : AEmb (ρ ++ [b.length]) R (s ++ [x]) (b ++ [y]) := by
  refine ⟨by simp [h.len], ?_, ?_, ?_⟩
  · rw [List.nodup_append]
    refine ⟨h.nodup, by simp, ?_⟩
    intro a ha c hc
    rw [List.mem_singleton] at hc
    have := h.lt a ha
    omega
  · intro r hr
    rw [List.mem_append, List.mem_singleton] at hr
    simp only [List.length_append, List.length_singleton]
    rcases hr with hr | hr
    · have := h.lt r hr; omega
    · omega
  · intro i a r hi hr
    by_cases hlt : i < s.length
    · rw [List.getElem?_append_left hlt] at hi
      rw [List.getElem?_append_left (by rw [h.len]; exact hlt)] at hr
      obtain ⟨z, hz, hrz⟩ := h.get i a r hi hr
      exact ⟨z, by rw [List.getElem?_append_left (lt_of_get hz)]; exact hz, hrz⟩
    · have h1 := lt_of_get hi
      simp only [List.length_append, List.length_singleton] at h1
      have h2 : i = s.length := by omega
      subst h2
      rw [List.getElem?_append_right (by omega), Nat.sub_self] at hi
      rw [List.getElem?_append_right (Nat.le_of_eq h.len), h.len, Nat.sub_self] at hr
      simp only [List.getElem?_cons_zero, Option.some.injEq] at hi hr
      subst hi hr
      exact ⟨y, by simp, hxy⟩

/-- One arena of the shared heap before and after: only own objects and new places change, and the
new own objects are at new places. -/
structure AExt {α : Type} (ρ : List Nat) (b : List α) (ρ' : List Nat) (b' : List α) : Prop where
  le : b.length ≤ b'.length
  keep : ∀ (r : Nat) (x : α), r ∉ ρ → b[r]? = some x → b'[r]? = some x
  pre : ρ <+: ρ'
  fresh : ∀ r ∈ ρ', r ∈ ρ ∨ b.length ≤ r

theorem AExt.refl {α : Type} (ρ : List Nat) (b : List α) : AExt ρ b ρ b :=
  ⟨Nat.le_refl _, fun _ _ _ h => h, List.prefix_rfl, fun _ h => .inl h⟩

theorem AExt.trans {α : Type} {ρ ρ' ρ'' : List Nat} {b b' b'' : List α} (h : AExt ρ b ρ' b')
    (h' : AExt ρ' b' ρ'' b'') : AExt ρ b ρ'' b'' := by
  refine ⟨Nat.le_trans h.le h'.le, ?_, h.pre.trans h'.pre, ?_⟩
  · intro r x hr hx
    refine h'.keep r x ?_ (h.keep r x hr hx)
    intro hm
    rcases h.fresh r hm with hm | hm
    · exact hr hm
    · have := lt_of_get hx; omega
  · intro r hr
    rcases h'.fresh r hr with hr | hr
    · exact h.fresh r hr
    · exact .inr (Nat.le_trans h.le hr)

theorem AExt.set {α : Type} {ρ : List Nat} (b : List α) {i r : Nat} (y : α) (hr : ρ[i]? = some r) :
    AExt ρ b ρ (b.set r y) := by
  refine ⟨by simp, ?_, List.prefix_rfl, fun _ h => .inl h⟩
  intro q x hq hx
  rw [List.getElem?_set_ne]
  · exact hx
  · intro e; subst e; exact hq (List.mem_of_getElem? hr)

theorem AExt.append {α : Type} (ρ : List Nat) (b : List α) (y : α) :
    AExt ρ b (ρ ++ [b.length]) (b ++ [y]) := by
  refine ⟨by simp, ?_, List.prefix_append _ _, ?_⟩
  · intro r x _ hx
    rw [List.getElem?_append_left (lt_of_get hx)]; exact hx
  · intro r hr
    rw [List.mem_append, List.mem_singleton] at hr
    rcases hr with hr | hr
    · exact .inl hr
    · exact .inr (by omega)

theorem pre_get {l l' : List Nat} (h : l <+: l') {i r : Nat} (hi : l[i]? = some r) :
    l'[i]? = some r := by
  obtain ⟨t, rfl⟩ := h
  rw [List.getElem?_append_left (lt_of_get hi)]; exact hi

/-- Where the private objects are. -/
structure Place where
  bases : List Nat
  ops : List Nat
  opLists : List Nat
  chans : List Nat
  notes : List Nat
  presses : List Nat

/-- A list of private addresses and the same list relocated. -/
def relList (ρ : List Nat) (a b : List Nat) : Prop := a.map (fun i => ρ[i]?) = b.map some

theorem relList.mono {ρ ρ' a b : List Nat} (h : ρ <+: ρ') (hr : relList ρ a b) : relList ρ' a b := by
  unfold relList at *
  rw [← hr]
  apply List.map_congr_left
  intro i hi
  have hm : ρ[i]? ∈ b.map some := by rw [← hr]; exact List.mem_map.mpr ⟨i, hi, rfl⟩
  obtain ⟨r, _, e⟩ := List.mem_map.mp hm
  rw [← e]
  exact pre_get h e.symm

theorem relList.get {ρ a b : List Nat} (h : relList ρ a b) {i x : Nat} (hx : a[i]? = some x) :
    ∃ y, b[i]? = some y ∧ ρ[x]? = some y := by
  have := congrArg (fun l => l[i]?) h
  simp only [List.getElem?_map, hx, Option.map_some] at this
  cases hb : b[i]? with
  | none => rw [hb] at this; simp at this
  | some y => rw [hb] at this; simp at this; exact ⟨y, rfl, this⟩

theorem relList.snoc {ρ a b : List Nat} (h : relList ρ a b) {x y : Nat} (hx : ρ[x]? = some y) :
    relList ρ (a ++ [x]) (b ++ [y]) := by
  unfold relList at *
  simp [h, hx]

/-- A channel object and the same object relocated. -/
def relChan (ρ : Place) (a b : ChanObj) : Prop :=
  ρ.opLists[a.operators]? = some b.operators ∧ b = { a with operators := b.operators }

/-- A recorded instrument and the same relocated. -/
structure relConfig (ρ : Place) (a b : HConfig) : Prop where
  id : b.id = a.id
  ops : b.operators = a.operators
  base : ρ.bases[a.base]? = some b.base
  channel : ρ.chans[a.channel]? = some b.channel

/-- The private state `s` is embedded in the shared heap as `S`. -/
structure Sim (ρ : Place) (s S : HState) : Prop where
  bases : AEmb ρ.bases Eq s.bases S.bases
  ops : AEmb ρ.ops Eq s.ops S.ops
  opLists : AEmb ρ.opLists (relList ρ.ops) s.opLists S.opLists
  chans : AEmb ρ.chans (relChan ρ) s.chans S.chans
  notes : AEmb ρ.notes Eq s.notes S.notes
  presses : AEmb ρ.presses Eq s.presses S.presses
  pressRefs : relList ρ.presses s.pressRefs S.pressRefs
  chanRefs : relList ρ.chans s.chanRefs S.chanRefs
  noteRefs : relList ρ.notes s.noteRefs S.noteRefs
  baseRef : ρ.bases[s.baseRef]? = some S.baseRef
  configs : List.Forall₂ (relConfig ρ) s.configs S.configs
  samples : S.samples = s.samples
  beats : S.noteBeats = s.noteBeats
  first : S.firstBeat = s.firstBeat

/-- What a call on one state may do to the shared heap. -/
structure Ext (ρ : Place) (S : HState) (ρ' : Place) (S' : HState) : Prop where
  bases : AExt ρ.bases S.bases ρ'.bases S'.bases
  ops : AExt ρ.ops S.ops ρ'.ops S'.ops
  opLists : AExt ρ.opLists S.opLists ρ'.opLists S'.opLists
  chans : AExt ρ.chans S.chans ρ'.chans S'.chans
  notes : AExt ρ.notes S.notes ρ'.notes S'.notes
  presses : AExt ρ.presses S.presses ρ'.presses S'.presses

theorem Ext.refl (ρ : Place) (S : HState) : Ext ρ S ρ S :=
  ⟨.refl _ _, .refl _ _, .refl _ _, .refl _ _, .refl _ _, .refl _ _⟩

theorem Ext.trans {ρ ρ' ρ'' : Place} {S S' S'' : HState} (h : Ext ρ S ρ' S') (h' : Ext ρ' S' ρ'' S'') :
    Ext ρ S ρ'' S'' :=
  ⟨h.bases.trans h'.bases, h.ops.trans h'.ops, h.opLists.trans h'.opLists, h.chans.trans h'.chans,
    h.notes.trans h'.notes, h.presses.trans h'.presses⟩

theorem relChan.mono {ρ ρ' : Place} (h : ρ.opLists <+: ρ'.opLists) {a b : ChanObj}
    (hr : relChan ρ a b) : relChan ρ' a b := ⟨pre_get h hr.1, hr.2⟩

theorem relConfig.mono {ρ ρ' : Place} (h1 : ρ.bases <+: ρ'.bases) (h2 : ρ.chans <+: ρ'.chans)
    {a b : HConfig} (hr : relConfig ρ a b) : relConfig ρ' a b :=
  ⟨hr.id, hr.ops, pre_get h1 hr.base, pre_get h2 hr.channel⟩

theorem AEmb.deref {α : Type} {ρ : List Nat} {s b : List α} (h : AEmb ρ Eq s b) {i r : Nat}
    (hr : ρ[i]? = some r) {x : α} (hx : deref s i = .ok x) : deref b r = .ok x := by
  obtain ⟨y, hy, rfl⟩ := h.get i x r (deref_ok_iff.mp hx) hr
  exact deref_ok hy

theorem pyIndex_ok_iff {α : Type} {l : List α} {r : Nat} {a : α} :
    pyIndex l r = .ok a ↔ l[r]? = some a := by
  unfold pyIndex
  cases l[r]? <;> simp

theorem relList.pyIndex {ρ a b : List Nat} (h : relList ρ a b) {i x : Nat}
    (hx : pyIndex a i = .ok x) : ∃ y, pyIndex b i = .ok y ∧ ρ[x]? = some y := by
  obtain ⟨y, h1, h2⟩ := h.get (pyIndex_ok_iff.mp hx)
  exact ⟨y, pyIndex_ok h1, h2⟩

theorem relList.readAll {β : Type} {ρ a b : List Nat} {f g : Nat → Except PyErr β}
    (h : relList ρ a b) (hfg : ∀ x y v, ρ[x]? = some y → f x = .ok v → g y = .ok v) {vs : List β}
    (hv : readAll f a = .ok vs) : readAll g b = .ok vs := by
  induction a generalizing b vs with
  | nil =>
    cases b with
    | nil => exact hv
    | cons _ _ => simp [relList] at h
  | cons x a ih =>
    cases b with
    | nil => simp [relList] at h
    | cons y b =>
      simp only [relList, List.map_cons, List.cons.injEq] at h
      simp only [VgmX.readAll] at hv ⊢
      cases hx : f x with
      | error e => rw [hx] at hv; simp at hv
      | ok v =>
        rw [hx] at hv
        rw [hfg x y v h.1 hx]
        simp only at hv ⊢
        cases ha : VgmX.readAll f a with
        | error e => rw [ha] at hv; simp at hv
        | ok ws =>
          rw [ha] at hv
          simp only [ih h.2 ha]
          exact hv

theorem Sim.readChannel {ρ : Place} {s S : HState} (h : Sim ρ s S) {r q : Nat}
    (hq : ρ.chans[r]? = some q) {v : ChannelConfig} (hv : s.readChannel r = .ok v) :
    S.readChannel q = .ok v := by
  unfold HState.readChannel at hv ⊢
  cases hc : VgmX.deref s.chans r with
  | error e => rw [hc] at hv; simp at hv
  | ok c =>
    rw [hc] at hv
    obtain ⟨C, hC, h1, h2⟩ := h.chans.get r c q (deref_ok_iff.mp hc) hq
    rw [deref_ok hC]
    simp only at hv ⊢
    cases hl : VgmX.deref s.opLists c.operators with
    | error e => rw [hl] at hv; simp at hv
    | ok l =>
      rw [hl] at hv
      obtain ⟨L, hL, hr⟩ := h.opLists.get _ l _ (deref_ok_iff.mp hl) h1
      rw [deref_ok hL]
      simp only at hv ⊢
      cases hos : readAll (VgmX.deref s.ops) l with
      | error e => rw [hos] at hv; simp at hv
      | ok os =>
        rw [hos] at hv
        rw [hr.readAll (fun x y v hxy hx => h.ops.deref hxy hx) hos]
        simp only [Except.ok.injEq] at hv ⊢
        rw [← hv, h2]
        rfl

theorem Sim.readConfig {ρ : Place} {s S : HState} (h : Sim ρ s S) {c C : HConfig}
    (hc : relConfig ρ c C) {v : Config} (hv : s.readConfig c = .ok v) : S.readConfig C = .ok v := by
  unfold HState.readConfig at hv ⊢
  cases hb : VgmX.deref s.bases c.base with
  | error e => rw [hb] at hv; simp at hv
  | ok b =>
    rw [hb] at hv
    rw [h.bases.deref hc.base hb]
    simp only at hv ⊢
    cases hr : s.readChannel c.channel with
    | error e => rw [hr] at hv; simp at hv
    | ok ch =>
      rw [hr] at hv
      rw [h.readChannel hc.channel hr]
      simp only at hv ⊢
      rw [hc.id, hc.ops]
      exact hv

/-- What can be read is the same. -/
theorem Sim.view {ρ : Place} {s S : HState} (h : Sim ρ s S) {t : State} (ht : s.view = .ok t) :
    S.view = .ok t := by
  unfold HState.view at ht ⊢
  cases h1 : readAll (VgmX.deref s.presses) s.pressRefs with
  | error e => rw [h1] at ht; simp at ht
  | ok kp =>
  cases h2 : readAll s.readChannel s.chanRefs with
  | error e => rw [h1, h2] at ht; simp at ht
  | ok cc =>
  cases h3 : readAll (VgmX.deref s.notes) s.noteRefs with
  | error e => rw [h1, h2, h3] at ht; simp at ht
  | ok nc =>
  cases h4 : VgmX.deref s.bases s.baseRef with
  | error e => rw [h1, h2, h3, h4] at ht; simp at ht
  | ok b =>
  cases h5 : readAll s.readConfig s.configs with
  | error e => rw [h1, h2, h3, h4, h5] at ht; simp at ht
  | ok cs =>
  rw [h1, h2, h3, h4, h5] at ht
  rw [h.pressRefs.readAll (fun x y v hxy hx => h.presses.deref hxy hx) h1,
    h.chanRefs.readAll (fun x y v hxy hx => h.readChannel hxy hx) h2,
    h.noteRefs.readAll (fun x y v hxy hx => h.notes.deref hxy hx) h3,
    h.bases.deref h.baseRef h4]
  have h6 : readAll S.readConfig S.configs = .ok cs := by
    have := h.configs
    revert h5
    generalize s.configs = l at this
    generalize S.configs = L at this
    clear ht
    induction this generalizing cs with
    | nil => exact fun h => h
    | cons hab _ ih =>
      intro h5
      simp only [VgmX.readAll] at h5 ⊢
      rename_i a b l L _
      cases ha : s.readConfig a with
      | error e => rw [ha] at h5; simp at h5
      | ok v =>
        rw [ha] at h5
        rw [h.readConfig hab ha]
        simp only at h5 ⊢
        cases hl : readAll s.readConfig l with
        | error e => rw [hl] at h5; simp at h5
        | ok ws =>
          rw [hl] at h5
          simp only [ih ws hl]
          exact h5
  rw [h6]
  simp only [h.samples, h.beats, h.first]
  exact ht

/-! ### The single operations -/

theorem Sim.updBase {ρ : Place} {s S s' : HState} (h : Sim ρ s S) (f : BaseConfig → BaseConfig)
    (hs : s.updBase f = .ok s') : ∃ S', S.updBase f = .ok S' ∧ Sim ρ s' S' ∧ Ext ρ S ρ S' := by
  unfold HState.updBase at hs ⊢
  cases hb : VgmX.deref s.bases s.baseRef with
  | error e => rw [hb] at hs; simp at hs
  | ok b =>
    rw [hb] at hs
    simp only [Except.ok.injEq] at hs
    subst hs
    rw [h.bases.deref h.baseRef hb]
    refine ⟨_, rfl, { h with bases := h.bases.set h.baseRef rfl }, { Ext.refl ρ S with bases := .set _ _ h.baseRef }⟩

theorem Sim.updNote {ρ : Place} {s S s' : HState} (h : Sim ρ s S) (ch : Nat)
    (f : NoteConfig → NoteConfig) (hs : s.updNote ch f = .ok s') :
    ∃ S', S.updNote ch f = .ok S' ∧ Sim ρ s' S' ∧ Ext ρ S ρ S' := by
  unfold HState.updNote at hs ⊢
  cases hi : pyIndex s.noteRefs ch with
  | error e => rw [hi] at hs; simp at hs
  | ok r =>
    rw [hi] at hs
    obtain ⟨q, hq, hrq⟩ := h.noteRefs.pyIndex hi
    rw [hq]
    simp only at hs ⊢
    cases hn : VgmX.deref s.notes r with
    | error e => rw [hn] at hs; simp at hs
    | ok n =>
      rw [hn] at hs
      rw [h.notes.deref hrq hn]
      simp only [Except.ok.injEq] at hs
      subst hs
      exact ⟨_, rfl, { h with notes := h.notes.set hrq rfl }, { Ext.refl ρ S with notes := .set _ _ hrq }⟩

theorem Sim.updChannel {ρ : Place} {s S s' : HState} (h : Sim ρ s S) (ch : Nat)
    (f : ChanObj → ChanObj) (hf : ∀ c k, f { c with operators := k } = { f c with operators := k })
    (hfo : ∀ c, (f c).operators = c.operators)
    (hs : s.updChannel ch f = .ok s') : ∃ S', S.updChannel ch f = .ok S' ∧ Sim ρ s' S' ∧ Ext ρ S ρ S' := by
  unfold HState.updChannel at hs ⊢
  cases hi : pyIndex s.chanRefs ch with
  | error e => rw [hi] at hs; simp at hs
  | ok r =>
    rw [hi] at hs
    obtain ⟨q, hq, hrq⟩ := h.chanRefs.pyIndex hi
    rw [hq]
    simp only at hs ⊢
    cases hc : VgmX.deref s.chans r with
    | error e => rw [hc] at hs; simp at hs
    | ok c =>
      rw [hc] at hs
      simp only [Except.ok.injEq] at hs
      subst hs
      obtain ⟨C, hC, h1, h2⟩ := h.chans.get r c q (deref_ok_iff.mp hc) hrq
      rw [deref_ok hC]
      refine ⟨_, rfl, { h with chans := h.chans.set hrq ⟨?_, ?_⟩ }, { Ext.refl ρ S with chans := .set _ _ hrq }⟩
      · rw [hfo, hfo]; exact h1
      · rw [hfo C, ← hf, ← h2]

theorem Sim.updOperator {ρ : Place} {s S s' : HState} (h : Sim ρ s S) (ch op : Nat)
    (f : OperatorConfig → OperatorConfig) (hs : s.updOperator ch op f = .ok s') :
    ∃ S', S.updOperator ch op f = .ok S' ∧ Sim ρ s' S' ∧ Ext ρ S ρ S' := by
  unfold HState.updOperator at hs ⊢
  cases hi : pyIndex s.chanRefs ch with
  | error e => rw [hi] at hs; simp at hs
  | ok r =>
  rw [hi] at hs
  obtain ⟨q, hq, hrq⟩ := h.chanRefs.pyIndex hi
  rw [hq]
  simp only at hs ⊢
  cases hc : VgmX.deref s.chans r with
  | error e => rw [hc] at hs; simp at hs
  | ok c =>
  rw [hc] at hs
  obtain ⟨C, hC, h1, h2⟩ := h.chans.get r c q (deref_ok_iff.mp hc) hrq
  rw [deref_ok hC]
  simp only at hs ⊢
  cases hl : VgmX.deref s.opLists c.operators with
  | error e => rw [hl] at hs; simp at hs
  | ok l =>
  rw [hl] at hs
  obtain ⟨L, hL, hr⟩ := h.opLists.get _ l _ (deref_ok_iff.mp hl) h1
  rw [deref_ok hL]
  simp only at hs ⊢
  cases hk : pyIndex l op with
  | error e => rw [hk] at hs; simp at hs
  | ok k =>
  rw [hk] at hs
  obtain ⟨K, hK, hkK⟩ := hr.pyIndex hk
  rw [hK]
  simp only at hs ⊢
  cases ho : VgmX.deref s.ops k with
  | error e => rw [ho] at hs; simp at hs
  | ok o =>
  rw [ho] at hs
  rw [h.ops.deref hkK ho]
  simp only [Except.ok.injEq] at hs
  subst hs
  exact ⟨_, rfl, { h with ops := h.ops.set hkK rfl }, { Ext.refl ρ S with ops := .set _ _ hkK }⟩

theorem Sim.addNote {ρ : Place} {s S s' : HState} (h : Sim ρ s S) (ch : Nat) (id : Int)
    (hs : s.addNote ch id = .ok s') : ∃ S', S.addNote ch id = .ok S' ∧ Sim ρ s' S' ∧ Ext ρ S ρ S' := by
  unfold HState.addNote at hs ⊢
  cases hi : pyIndex s.noteRefs ch with
  | error e => rw [hi] at hs; simp at hs
  | ok r =>
  rw [hi] at hs
  obtain ⟨q, hq, hrq⟩ := h.noteRefs.pyIndex hi
  rw [hq]
  simp only at hs ⊢
  cases hn : VgmX.deref s.notes r with
  | error e => rw [hn] at hs; simp at hs
  | ok n =>
  rw [hn] at hs
  rw [h.notes.deref hrq hn]
  simp only at hs ⊢
  cases hp : pyIndex s.pressRefs ch with
  | error e => rw [hp] at hs; simp at hs
  | ok pr =>
  rw [hp] at hs
  obtain ⟨P, hP, hpP⟩ := h.pressRefs.pyIndex hp
  rw [hP]
  simp only at hs ⊢
  cases hl : VgmX.deref s.presses pr with
  | error e => rw [hl] at hs; simp at hs
  | ok l =>
  rw [hl] at hs
  rw [h.presses.deref hpP hl]
  simp only [Except.ok.injEq] at hs
  subst hs
  exact ⟨_, rfl, { h with presses := h.presses.set hpP (by rw [h.samples]) },
    { Ext.refl ρ S with presses := .set _ _ hpP }⟩

theorem Sim.compare {ρ : Place} {s S : HState} (h : Sim ρ s S) {c C : HConfig} (hc : relConfig ρ c C)
    {r q op : Nat} (hrq : ρ.chans[r]? = some q) {v : Bool} (hv : s.compare c s.baseRef r op = .ok v) :
    S.compare C S.baseRef q op = .ok v := by
  unfold HState.compare at hv ⊢
  cases hb : VgmX.deref s.bases c.base with
  | error e => rw [hb] at hv; simp at hv
  | ok b =>
  rw [hb] at hv
  rw [h.bases.deref hc.base hb]
  simp only at hv ⊢
  cases hb' : VgmX.deref s.bases s.baseRef with
  | error e => rw [hb'] at hv; simp at hv
  | ok b' =>
  rw [hb'] at hv
  rw [h.bases.deref h.baseRef hb']
  simp only at hv ⊢
  by_cases e1 : (!b.pyEq b') = true
  · rw [if_pos e1] at hv ⊢; exact hv
  rw [if_neg e1] at hv ⊢
  cases hr : s.readChannel c.channel with
  | error e => rw [hr] at hv; simp at hv
  | ok ch =>
  rw [hr] at hv
  rw [h.readChannel hc.channel hr]
  simp only at hv ⊢
  cases hr' : s.readChannel r with
  | error e => rw [hr'] at hv; simp at hv
  | ok ch' =>
  rw [hr'] at hv
  rw [h.readChannel hrq hr', hc.ops]
  exact hv

theorem Sim.find {ρ : Place} {s S : HState} (h : Sim ρ s S) (ch op : Nat) (cs CS : List HConfig)
    (hcs : List.Forall₂ (relConfig ρ) cs CS) (i n : Nat) (hn : s.find ch op cs i = .ok n) :
    S.find ch op CS i = .ok n := by
  induction hcs generalizing i with
  | nil =>
    simp only [HState.find] at hn ⊢
    rw [← h.configs.length_eq]; exact hn
  | cons hab _ ih =>
    rename_i a b l L _
    simp only [HState.find] at hn ⊢
    cases hi : pyIndex s.chanRefs ch with
    | error e => rw [hi] at hn; simp at hn
    | ok r =>
    rw [hi] at hn
    obtain ⟨q, hq, hrq⟩ := h.chanRefs.pyIndex hi
    rw [hq]
    simp only at hn ⊢
    cases hv : s.compare a s.baseRef r op with
    | error e => rw [hv] at hn; simp at hn
    | ok v =>
      rw [hv] at hn
      rw [h.compare hab hrq hv]
      cases v with
      | true => exact hn
      | false => exact ih (i + 1) hn

theorem Sim.copyBase {ρ : Place} {s S s' : HState} (h : Sim ρ s S) {r q n : Nat}
    (hrq : ρ.bases[r]? = some q) (hs : s.copyBase r = .ok (s', n)) :
    ∃ ρ' S' m, S.copyBase q = .ok (S', m) ∧ Sim ρ' s' S' ∧ Ext ρ S ρ' S' ∧ ρ'.bases[n]? = some m := by
  unfold HState.copyBase at hs ⊢
  cases hb : VgmX.deref s.bases r with
  | error e => rw [hb] at hs; simp at hs
  | ok b =>
    rw [hb] at hs
    simp only [Except.ok.injEq, Prod.mk.injEq] at hs
    obtain ⟨rfl, rfl⟩ := hs
    rw [h.bases.deref hrq hb]
    refine ⟨{ ρ with bases := ρ.bases ++ [S.bases.length] }, _, _, rfl, ?_, ?_, ?_⟩
    · exact { h with
        bases := h.bases.append rfl
        baseRef := pre_get (List.prefix_append _ _) h.baseRef
        configs := h.configs.imp (fun a b hab => ⟨hab.id, hab.ops, pre_get (List.prefix_append _ _) hab.base, hab.channel⟩) }
    · exact { Ext.refl ρ S with bases := .append _ _ _ }
    · rw [← h.bases.len]; simp

theorem copyOps_sim {ρo l L : List Nat} {a A : List OperatorConfig} (acc ACC : List Nat)
    {a' : List OperatorConfig} {acc' : List Nat} (h : AEmb ρo Eq a A) (hl : relList ρo l L)
    (hacc : relList ρo acc ACC) (hs : copyOps l a acc = .ok (a', acc')) :
    ∃ ρo' A' ACC', copyOps L A ACC = .ok (A', ACC') ∧ AEmb ρo' Eq a' A' ∧ AExt ρo A ρo' A' ∧
      relList ρo' acc' ACC' := by
  induction l generalizing L a A ρo acc ACC with
  | nil =>
    cases L with
    | cons _ _ => simp [relList] at hl
    | nil =>
      simp only [copyOps, Except.ok.injEq, Prod.mk.injEq] at hs
      obtain ⟨rfl, rfl⟩ := hs
      exact ⟨ρo, A, ACC, rfl, h, .refl _ _, hacc⟩
  | cons r l ih =>
    cases L with
    | nil => simp [relList] at hl
    | cons q L =>
      simp only [relList, List.map_cons, List.cons.injEq] at hl
      simp only [copyOps] at hs ⊢
      cases hd : VgmX.deref a r with
      | error e => rw [hd] at hs; simp at hs
      | ok o =>
        rw [hd] at hs
        rw [h.deref hl.1 hd]
        simp only at hs ⊢
        have hp : ρo <+: ρo ++ [A.length] := List.prefix_append _ _
        have hx : (ρo ++ [A.length])[a.length]? = some A.length := by rw [← h.len]; simp
        obtain ⟨ρ', A', ACC', e1, e2, e3, e4⟩ := ih (acc ++ [a.length]) (ACC ++ [A.length])
          (h.append rfl) (relList.mono hp hl.2) (relList.snoc (hacc.mono hp) hx) hs
        exact ⟨ρ', A', ACC', e1, e2, (AExt.append _ _ _).trans e3, e4⟩

theorem Sim.copyChannel {ρ : Place} {s S s' : HState} (h : Sim ρ s S) {r q n : Nat}
    (hrq : ρ.chans[r]? = some q) (hs : s.copyChannel r = .ok (s', n)) :
    ∃ ρ' S' m, S.copyChannel q = .ok (S', m) ∧ Sim ρ' s' S' ∧ Ext ρ S ρ' S' ∧ ρ'.chans[n]? = some m := by
  unfold HState.copyChannel at hs ⊢
  cases hc : VgmX.deref s.chans r with
  | error e => rw [hc] at hs; simp at hs
  | ok c =>
  rw [hc] at hs
  obtain ⟨C, hC, h1, h2⟩ := h.chans.get r c q (deref_ok_iff.mp hc) hrq
  rw [deref_ok hC]
  simp only at hs ⊢
  cases hl : VgmX.deref s.opLists c.operators with
  | error e => rw [hl] at hs; simp at hs
  | ok l =>
  rw [hl] at hs
  obtain ⟨L, hL, hr⟩ := h.opLists.get _ l _ (deref_ok_iff.mp hl) h1
  rw [deref_ok hL]
  simp only at hs ⊢
  cases hk : copyOps l s.ops [] with
  | error e => rw [hk] at hs; simp at hs
  | ok p =>
  obtain ⟨a', acc'⟩ := p
  rw [hk] at hs
  obtain ⟨ρo', A', ACC', e1, e2, e3, e4⟩ := copyOps_sim [] [] h.ops hr rfl hk
  rw [e1]
  simp only [Except.ok.injEq, Prod.mk.injEq] at hs
  obtain ⟨rfl, rfl⟩ := hs
  refine ⟨{ ρ with ops := ρo', opLists := ρ.opLists ++ [S.opLists.length],
                   chans := ρ.chans ++ [S.chans.length] }, _, _, rfl, ?_, ?_, ?_⟩
  · refine { h with ops := e2, opLists := ?_, chans := ?_, chanRefs := ?_, configs := ?_ }
    · exact (h.opLists.mono (fun a b hab => hab.mono e3.pre)).append e4
    · refine (h.chans.mono (fun a b hab => relChan.mono (List.prefix_append _ _) hab)).append ⟨?_, ?_⟩
      · show (ρ.opLists ++ [S.opLists.length])[s.opLists.length]? = some S.opLists.length
        rw [← h.opLists.len]; simp
      · simp only
        rw [h2]
    · exact h.chanRefs.mono (List.prefix_append _ _)
    · exact h.configs.imp (fun a b hab => ⟨hab.id, hab.ops, hab.base, pre_get (List.prefix_append _ _) hab.channel⟩)
  · exact { Ext.refl ρ S with ops := e3, opLists := .append _ _ _, chans := .append _ _ _ }
  · show (ρ.chans ++ [S.chans.length])[s.chans.length]? = some S.chans.length
    rw [← h.chans.len]; simp

theorem Sim.record {ρ : Place} {s S s' : HState} (h : Sim ρ s S) (ch op found : Nat) {id : Int}
    (hs : s.record ch op found = .ok (s', id)) :
    ∃ ρ' S', S.record ch op found = .ok (S', id) ∧ Sim ρ' s' S' ∧ Ext ρ S ρ' S' := by
  unfold HState.record at hs ⊢
  rw [← h.configs.length_eq]
  by_cases e1 : s.configs.length = found
  · rw [if_pos e1] at hs ⊢
    by_cases e2 : op ≠ 0
    · rw [if_pos e2] at hs ⊢
      cases hb : s.copyBase s.baseRef with
      | error e => rw [hb] at hs; simp at hs
      | ok p =>
      obtain ⟨s1, b⟩ := p
      rw [hb] at hs
      obtain ⟨ρ1, S1, B, k1, r1, x1, m1⟩ := h.copyBase h.baseRef hb
      rw [k1]
      simp only at hs ⊢
      cases hi : pyIndex s1.chanRefs ch with
      | error e => rw [hi] at hs; simp at hs
      | ok r =>
      rw [hi] at hs
      obtain ⟨q, hq, hrq⟩ := r1.chanRefs.pyIndex hi
      rw [hq]
      simp only at hs ⊢
      cases hc : s1.copyChannel r with
      | error e => rw [hc] at hs; simp at hs
      | ok p =>
      obtain ⟨s2, c⟩ := p
      rw [hc] at hs
      obtain ⟨ρ2, S2, C, k2, r2, x2, m2⟩ := r1.copyChannel hrq hc
      rw [k2]
      simp only at hs ⊢
      have r3 : Sim ρ2 { s2 with configs := s2.configs ++ [HConfig.mk found b op c] }
          { S2 with configs := S2.configs ++ [HConfig.mk found B op C] } := by
        refine { r2 with configs := ?_ }
        refine List.rel_append r2.configs (.cons ⟨rfl, rfl, ?_, m2⟩ .nil)
        exact pre_get x2.bases.pre m1
      cases hb2 : HState.copyBase { s2 with configs := s2.configs ++ [HConfig.mk found b op c] }
          s2.baseRef with
      | error e => rw [hb2] at hs; simp at hs
      | ok p =>
      obtain ⟨s3, b'⟩ := p
      rw [hb2] at hs
      obtain ⟨ρ3, S3, B', k3, r4, x3, m3⟩ := r3.copyBase r3.baseRef hb2
      rw [k3]
      simp only [Except.ok.injEq, Prod.mk.injEq] at hs ⊢
      obtain ⟨rfl, rfl⟩ := hs
      refine ⟨ρ3, _, ⟨rfl, rfl⟩, { r4 with baseRef := m3 }, ?_⟩
      have y1 := x1.trans x2
      have y2 : Ext ρ S ρ2 { S2 with configs := S2.configs ++ [HConfig.mk found B op C] } :=
        ⟨y1.bases, y1.ops, y1.opLists, y1.chans, y1.notes, y1.presses⟩
      have y3 := y2.trans x3
      exact ⟨y3.bases, y3.ops, y3.opLists, y3.chans, y3.notes, y3.presses⟩
    · rw [if_neg e2] at hs ⊢
      simp only [Except.ok.injEq, Prod.mk.injEq] at hs
      obtain ⟨rfl, rfl⟩ := hs
      exact ⟨ρ, S, rfl, h, .refl _ _⟩
  · rw [if_neg e1] at hs ⊢
    simp only [Except.ok.injEq, Prod.mk.injEq] at hs
    obtain ⟨rfl, rfl⟩ := hs
    exact ⟨ρ, S, rfl, h, .refl _ _⟩

theorem Sim.keyEvent {ρ : Place} {s S s' : HState} (h : Sim ρ s S) (value : Nat)
    (hs : s.keyEvent value = .ok s') :
    ∃ ρ' S', S.keyEvent value = .ok S' ∧ Sim ρ' s' S' ∧ Ext ρ S ρ' S' := by
  unfold HState.keyEvent at hs ⊢
  simp only at hs ⊢
  generalize (value >>> 3) &&& 0xF = op at hs ⊢
  generalize value &&& 0x07 = ch at hs ⊢
  by_cases e0 : 15 < op
  · rw [if_pos e0] at hs; simp at hs
  rw [if_neg e0] at hs ⊢
  cases hf : s.find ch op s.configs 0 with
  | error e => rw [hf] at hs; simp at hs
  | ok found =>
  rw [hf] at hs
  rw [h.find ch op _ _ h.configs 0 found hf]
  simp only at hs ⊢
  cases hr : s.record ch op found with
  | error e => rw [hr] at hs; simp at hs
  | ok p =>
  obtain ⟨s1, id⟩ := p
  rw [hr] at hs
  obtain ⟨ρ1, S1, k1, r1, x1⟩ := h.record ch op found hr
  rw [k1]
  simp only at hs ⊢
  have r2 : Sim ρ1 (if op != 0 && !truthy s1.firstBeat then { s1 with firstBeat := some s1.samples } else s1)
      (if op != 0 && !truthy S1.firstBeat then { S1 with firstBeat := some S1.samples } else S1) := by
    rw [r1.first]
    split
    · exact { r1 with first := by rw [r1.samples] }
    · exact r1
  have x2 : Ext ρ S ρ1 (if op != 0 && !truthy S1.firstBeat then { S1 with firstBeat := some S1.samples } else S1) := by
    split
    · exact ⟨x1.bases, x1.ops, x1.opLists, x1.chans, x1.notes, x1.presses⟩
    · exact x1
  revert hs r2 x2
  generalize (if op != 0 && !truthy s1.firstBeat then { s1 with firstBeat := some s1.samples } else s1) = s2
  generalize (if op != 0 && !truthy S1.firstBeat then { S1 with firstBeat := some S1.samples } else S1) = S2
  intro hs r2 x2
  have fin : ∀ s3 S3, Sim ρ1 s3 S3 → Ext ρ S ρ1 S3 →
      Sim ρ1 (if id ≥ 0 then { s3 with noteBeats := setAdd s3.samples s3.noteBeats } else s3)
        (if id ≥ 0 then { S3 with noteBeats := setAdd S3.samples S3.noteBeats } else S3) ∧
      Ext ρ S ρ1 (if id ≥ 0 then { S3 with noteBeats := setAdd S3.samples S3.noteBeats } else S3) := by
    intro s3 S3 r x
    split
    · exact ⟨{ r with beats := by rw [r.samples, r.beats] },
        ⟨x.bases, x.ops, x.opLists, x.chans, x.notes, x.presses⟩⟩
    · exact ⟨r, x⟩
  rw [r2.first]
  by_cases e3 : truthy s2.firstBeat = true
  · rw [if_pos e3] at hs ⊢
    cases ha : s2.addNote ch id with
    | error e => rw [ha] at hs; simp at hs
    | ok s3 =>
      rw [ha] at hs
      obtain ⟨S3, k3, r3, x3⟩ := r2.addNote ch id ha
      rw [k3]
      simp only [Except.ok.injEq] at hs
      subst hs
      obtain ⟨a, b⟩ := fin s3 S3 r3 (x2.trans x3)
      exact ⟨ρ1, _, rfl, a, b⟩
  · rw [if_neg e3] at hs ⊢
    simp only [Except.ok.injEq] at hs
    subst hs
    obtain ⟨a, b⟩ := fin s2 S2 r2 x2
    exact ⟨ρ1, _, rfl, a, b⟩

theorem Sim.apply {ρ : Place} {s S s' : HState} (h : Sim ρ s S) (reg value : Nat)
    (hs : s.apply reg value = .ok s') :
    ∃ ρ' S', S.apply reg value = .ok S' ∧ Sim ρ' s' S' ∧ Ext ρ S ρ' S' := by
  have ub : ∀ f, s.updBase f = .ok s' → ∃ ρ' S', S.updBase f = .ok S' ∧ Sim ρ' s' S' ∧ Ext ρ S ρ' S' :=
    fun f hf => ⟨ρ, h.updBase f hf⟩
  have un : ∀ ch f, s.updNote ch f = .ok s' →
      ∃ ρ' S', S.updNote ch f = .ok S' ∧ Sim ρ' s' S' ∧ Ext ρ S ρ' S' :=
    fun ch f hf => ⟨ρ, h.updNote ch f hf⟩
  have uo : ∀ ch op f, s.updOperator ch op f = .ok s' →
      ∃ ρ' S', S.updOperator ch op f = .ok S' ∧ Sim ρ' s' S' ∧ Ext ρ S ρ' S' :=
    fun ch op f hf => ⟨ρ, h.updOperator ch op f hf⟩
  unfold HState.apply at hs ⊢
  simp only at hs ⊢
  by_cases c1 : reg = 0x08
  · rw [if_pos c1] at hs ⊢; exact h.keyEvent value hs
  rw [if_neg c1] at hs ⊢
  by_cases c2 : reg = 0x0F
  · rw [if_pos c2] at hs ⊢
    exact ⟨ρ, h.updChannel 7 _ (fun _ _ => rfl) (fun _ => rfl) hs⟩
  rw [if_neg c2] at hs ⊢
  by_cases c3 : reg = 0x18
  · rw [if_pos c3] at hs ⊢; exact ub _ hs
  rw [if_neg c3] at hs ⊢
  by_cases c4 : reg = 0x19
  · rw [if_pos c4] at hs ⊢
    by_cases cv : (value &&& (1 <<< 7)) > 0
    · rw [if_pos cv] at hs ⊢; exact ub _ hs
    · rw [if_neg cv] at hs ⊢; exact ub _ hs
  rw [if_neg c4] at hs ⊢
  by_cases c5 : reg = 0x1B
  · rw [if_pos c5] at hs ⊢
    cases hw : Waveform.ofNat? (value &&& 0x3) with
    | none => rw [hw] at hs; simp at hs
    | some w => rw [hw] at hs; exact ub _ hs
  rw [if_neg c5] at hs ⊢
  by_cases c6 : reg &&& 0xF8 = 0x20
  · rw [if_pos c6] at hs ⊢
    cases hn : s.updNote (reg &&& 7) (fun n =>
      { n with right := decide ((value &&& (1 <<< 7)) > 0),
               left := decide ((value &&& (1 <<< 6)) > 0) }) with
    | error e => rw [hn] at hs; simp at hs
    | ok s1 =>
      rw [hn] at hs
      obtain ⟨S1, k1, r1, x1⟩ := h.updNote _ _ hn
      rw [k1]
      simp only at hs ⊢
      obtain ⟨S2, k2, r2, x2⟩ := r1.updChannel (reg &&& 7) (fun c =>
        { c with fb := (value >>> 3) &&& 0x07, connection := value &&& 0x07 }) (fun _ _ => rfl) (fun _ => rfl) hs
      exact ⟨ρ, S2, k2, r2, x1.trans x2⟩
  rw [if_neg c6] at hs ⊢
  by_cases c7 : reg &&& 0xF8 = 0x28
  · rw [if_pos c7] at hs ⊢; exact un _ _ hs
  rw [if_neg c7] at hs ⊢
  by_cases c8 : reg &&& 0xF8 = 0x30
  · rw [if_pos c8] at hs ⊢; exact un _ _ hs
  rw [if_neg c8] at hs ⊢
  by_cases c9 : reg &&& 0xF8 = 0x38
  · rw [if_pos c9] at hs ⊢
    exact ⟨ρ, h.updChannel _ _ (fun _ _ => rfl) (fun _ => rfl) hs⟩
  rw [if_neg c9] at hs ⊢
  by_cases c10 : reg &&& 0xE0 = 0x40
  · rw [if_pos c10] at hs ⊢; exact uo _ _ _ hs
  rw [if_neg c10] at hs ⊢
  by_cases c11 : reg &&& 0xE0 = 0x60
  · rw [if_pos c11] at hs ⊢; exact uo _ _ _ hs
  rw [if_neg c11] at hs ⊢
  by_cases c12 : reg &&& 0xE0 = 0x80
  · rw [if_pos c12] at hs ⊢; exact uo _ _ _ hs
  rw [if_neg c12] at hs ⊢
  by_cases c13 : reg &&& 0xE0 = 0xA0
  · rw [if_pos c13] at hs ⊢; exact uo _ _ _ hs
  rw [if_neg c13] at hs ⊢
  by_cases c14 : reg &&& 0xE0 = 0xC0
  · rw [if_pos c14] at hs ⊢; exact uo _ _ _ hs
  rw [if_neg c14] at hs ⊢
  by_cases c15 : reg &&& 0xE0 = 0xE0
  · rw [if_pos c15] at hs ⊢; exact uo _ _ _ hs
  rw [if_neg c15] at hs ⊢
  simp only [Except.ok.injEq] at hs
  subst hs
  exact ⟨ρ, S, rfl, h, .refl _ _⟩

theorem Sim.call {ρ : Place} {s S s' : HState} (h : Sim ρ s S) (e : Event) (hs : s.call e = .ok s') :
    ∃ ρ' S', S.call e = .ok S' ∧ Sim ρ' s' S' ∧ Ext ρ S ρ' S' := by
  cases e with
  | write r v => exact h.apply r v hs
  | wait n =>
    simp only [HState.call, Except.ok.injEq] at hs
    subst hs
    refine ⟨ρ, S.beat n, rfl, { h with samples := ?_ }, ?_⟩
    · show S.samples + n = s.samples + n
      rw [h.samples]
    · exact ⟨.refl _ _, .refl _ _, .refl _ _, .refl _ _, .refl _ _, .refl _ _⟩

/-! ### Creating an object -/

theorem allocOps_sim (n : Nat) {ρo acc ACC : List Nat} {a A : List OperatorConfig} (h : AEmb ρo Eq a A)
    (hacc : relList ρo acc ACC) :
    ∃ ρo', AEmb ρo' Eq (allocOps n a acc).1 (allocOps n A ACC).1 ∧
      AExt ρo A ρo' (allocOps n A ACC).1 ∧ relList ρo' (allocOps n a acc).2 (allocOps n A ACC).2 := by
  induction n generalizing ρo acc ACC a A with
  | zero => exact ⟨ρo, h, .refl _ _, hacc⟩
  | succ n ih =>
    have hp : ρo <+: ρo ++ [A.length] := List.prefix_append _ _
    have hx : (ρo ++ [A.length])[a.length]? = some A.length := by rw [← h.len]; simp
    obtain ⟨ρ', e1, e2, e3⟩ := ih (h.append (x := {}) rfl) (relList.snoc (hacc.mono hp) hx)
    exact ⟨ρ', e1, (AExt.append _ _ _).trans e2, e3⟩

theorem Sim.newChannel {ρ : Place} {s S : HState} (h : Sim ρ s S) :
    ∃ ρ', Sim ρ' s.newChannel.1 S.newChannel.1 ∧ Ext ρ S ρ' S.newChannel.1 ∧
      ρ'.chans[s.newChannel.2]? = some S.newChannel.2 := by
  obtain ⟨ρo', e1, e2, e3⟩ := allocOps_sim 4 h.ops (acc := []) (ACC := []) rfl
  refine ⟨{ ρ with ops := ρo', opLists := ρ.opLists ++ [S.opLists.length],
                   chans := ρ.chans ++ [S.chans.length] }, ?_, ?_, ?_⟩
  · refine { h with ops := e1, opLists := ?_, chans := ?_, chanRefs := ?_, configs := ?_ }
    · exact (h.opLists.mono (fun a b hab => hab.mono e2.pre)).append e3
    · refine (h.chans.mono (fun a b hab => relChan.mono (List.prefix_append _ _) hab)).append ⟨?_, ?_⟩
      · show (ρ.opLists ++ [S.opLists.length])[s.opLists.length]? = some S.opLists.length
        rw [← h.opLists.len]; simp
      · rfl
    · exact h.chanRefs.mono (List.prefix_append _ _)
    · exact h.configs.imp (fun a b hab => ⟨hab.id, hab.ops, hab.base, pre_get (List.prefix_append _ _) hab.channel⟩)
  · exact { Ext.refl ρ S with ops := e2, opLists := .append _ _ _, chans := .append _ _ _ }
  · show (ρ.chans ++ [S.chans.length])[s.chans.length]? = some S.chans.length
    rw [← h.chans.len]; simp

theorem Sim.initLoop (n : Nat) {ρ : Place} {s S : HState} (h : Sim ρ s S) :
    ∃ ρ', Sim ρ' (HState.initLoop n s) (HState.initLoop n S) ∧ Ext ρ S ρ' (HState.initLoop n S) := by
  induction n generalizing ρ s S with
  | zero => exact ⟨ρ, h, .refl _ _⟩
  | succ n ih =>
    have h1 : Sim { ρ with presses := ρ.presses ++ [S.presses.length] }
        { s with presses := s.presses ++ [[]], pressRefs := s.pressRefs ++ [s.presses.length] }
        { S with presses := S.presses ++ [[]], pressRefs := S.pressRefs ++ [S.presses.length] } := by
      refine { h with presses := h.presses.append rfl, pressRefs := ?_, configs := ?_ }
      · refine relList.snoc (h.pressRefs.mono (List.prefix_append _ _)) ?_
        rw [← h.presses.len]; simp
      · exact h.configs.imp (fun a b hab => ⟨hab.id, hab.ops, hab.base, hab.channel⟩)
    have x1 : Ext ρ S { ρ with presses := ρ.presses ++ [S.presses.length] }
        { S with presses := S.presses ++ [[]], pressRefs := S.pressRefs ++ [S.presses.length] } :=
      { Ext.refl ρ S with presses := .append _ _ _ }
    obtain ⟨ρ2, h2, x2, m2⟩ := h1.newChannel
    have h3 := h2
    revert h3 x2 m2
    clear h2
    simp only [HState.initLoop]
    generalize HState.newChannel { s with presses := s.presses ++ [[]], pressRefs := s.pressRefs ++ [s.presses.length] } = p
    generalize HState.newChannel { S with presses := S.presses ++ [[]], pressRefs := S.pressRefs ++ [S.presses.length] } = P
    obtain ⟨s2, r⟩ := p
    obtain ⟨S2, R⟩ := P
    simp only
    intro x2 m2 h2
    have h4 : Sim { ρ2 with notes := ρ2.notes ++ [S2.notes.length] }
        { s2 with chanRefs := s2.chanRefs ++ [r], notes := s2.notes ++ [NoteConfig.mk false false 0 0 0],
                  noteRefs := s2.noteRefs ++ [s2.notes.length] }
        { S2 with chanRefs := S2.chanRefs ++ [R], notes := S2.notes ++ [NoteConfig.mk false false 0 0 0],
                  noteRefs := S2.noteRefs ++ [S2.notes.length] } := by
      refine { h2 with notes := h2.notes.append rfl, noteRefs := ?_, chanRefs := ?_, configs := ?_ }
      · exact relList.snoc h2.chanRefs m2
      · refine relList.snoc (h2.noteRefs.mono (List.prefix_append _ _)) ?_
        rw [← h2.notes.len]; simp
      · exact h2.configs.imp (fun a b hab => ⟨hab.id, hab.ops, hab.base, hab.channel⟩)
    have x3 : Ext ρ2 S2 { ρ2 with notes := ρ2.notes ++ [S2.notes.length] }
        { S2 with chanRefs := S2.chanRefs ++ [R], notes := S2.notes ++ [NoteConfig.mk false false 0 0 0],
                  noteRefs := S2.noteRefs ++ [S2.notes.length] } :=
      { Ext.refl ρ2 S2 with notes := .append _ _ _ }
    obtain ⟨ρ5, h5, x5⟩ := ih h4
    exact ⟨ρ5, h5, ((x1.trans x2).trans x3).trans x5⟩

theorem Sim.new (h : Heap) : ∃ ρ, Sim ρ HState.init (HState.new h) ∧
    Ext ⟨[], [], [], [], [], []⟩ (h.with ⟨[], [], [], 0, [], 0, [], none⟩) ρ (HState.new h) := by
  have emp : ∀ {α : Type} (R : α → α → Prop) (b : List α), AEmb [] R [] b :=
    fun R b => ⟨rfl, by simp, by simp, by simp⟩
  have h0 : Sim ⟨[h.bases.length], [], [], [], [], []⟩
      { bases := [{}], ops := [], opLists := [], chans := [], notes := [], presses := [],
        pressRefs := [], chanRefs := [], noteRefs := [], baseRef := 0, configs := [],
        samples := 0, noteBeats := [], firstBeat := none }
      (Heap.with { h with bases := h.bases ++ [{}] } ⟨[], [], [], h.bases.length, [], 0, [], none⟩) :=
    ⟨(emp Eq h.bases).append rfl, emp _ _, emp _ _, emp _ _, emp _ _, emp _ _, rfl, rfl, rfl, rfl, .nil, rfl, rfl, rfl⟩
  obtain ⟨ρ, h1, x1⟩ := h0.initLoop 8
  refine ⟨ρ, h1, Ext.trans (ρ' := ⟨[h.bases.length], [], [], [], [], []⟩) ?_ x1⟩
  exact ⟨.append [] _ _, .refl _ _, .refl _ _, .refl _ _, .refl _ _, .refl _ _⟩

/-! ### Objects that belong to another state -/

/-- Two states own different objects. -/
structure Disj (ρ σ : Place) : Prop where
  bases : ∀ r ∈ ρ.bases, r ∉ σ.bases
  ops : ∀ r ∈ ρ.ops, r ∉ σ.ops
  opLists : ∀ r ∈ ρ.opLists, r ∉ σ.opLists
  chans : ∀ r ∈ ρ.chans, r ∉ σ.chans
  notes : ∀ r ∈ ρ.notes, r ∉ σ.notes
  presses : ∀ r ∈ ρ.presses, r ∉ σ.presses

theorem Disj.symm {ρ σ : Place} (h : Disj ρ σ) : Disj σ ρ :=
  ⟨fun r a b => h.bases r b a, fun r a b => h.ops r b a, fun r a b => h.opLists r b a,
    fun r a b => h.chans r b a, fun r a b => h.notes r b a, fun r a b => h.presses r b a⟩

theorem AEmb.frame {α : Type} {σ ρ ρ' : List Nat} {R : α → α → Prop} {s b b' : List α}
    (h : AEmb σ R s b) (x : AExt ρ b ρ' b') (hd : ∀ r ∈ σ, r ∉ ρ) : AEmb σ R s b' := by
  refine ⟨h.len, h.nodup, fun r hr => Nat.lt_of_lt_of_le (h.lt r hr) x.le, ?_⟩
  intro i a r h1 h2
  obtain ⟨y, hy, hr⟩ := h.get i a r h1 h2
  exact ⟨y, x.keep r y (hd r (List.mem_of_getElem? h2)) hy, hr⟩

theorem AExt.disj {α : Type} {σ ρ ρ' : List Nat} {R : α → α → Prop} {s b b' : List α}
    (h : AEmb σ R s b) (x : AExt ρ b ρ' b') (hd : ∀ r ∈ σ, r ∉ ρ) : ∀ r ∈ σ, r ∉ ρ' := by
  intro r hr hr'
  rcases x.fresh r hr' with h1 | h1
  · exact hd r hr h1
  · have := h.lt r hr; omega

/-- Another state is not affected. -/
theorem Sim.frame {σ ρ ρ' : Place} {t S S' : HState} {o : StateObj} (h : Sim σ t (S.heap.with o))
    (x : Ext ρ S ρ' S') (hd : Disj σ ρ) : Sim σ t (S'.heap.with o) ∧ Disj σ ρ' := by
  refine ⟨?_, ?_⟩
  · exact ⟨AEmb.frame h.bases x.bases hd.bases, AEmb.frame h.ops x.ops hd.ops,
      AEmb.frame h.opLists x.opLists hd.opLists, AEmb.frame h.chans x.chans hd.chans,
      AEmb.frame h.notes x.notes hd.notes, AEmb.frame h.presses x.presses hd.presses,
      h.pressRefs, h.chanRefs, h.noteRefs, h.baseRef, h.configs, h.samples, h.beats, h.first⟩
  · exact ⟨AExt.disj h.bases x.bases hd.bases, AExt.disj h.ops x.ops hd.ops,
      AExt.disj h.opLists x.opLists hd.opLists, AExt.disj h.chans x.chans hd.chans,
      AExt.disj h.notes x.notes hd.notes, AExt.disj h.presses x.presses hd.presses⟩

end VgmX
