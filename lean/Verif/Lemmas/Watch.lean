import Verif.Spec.Watch
import Verif.Lemmas.Regs
/-
Lemmas for Props/Watch: what the single changes of a command do.
-/

namespace VgmX
open Spec

theorem getD_modify_same {α : Type} (l : List α) (i : Nat) (f : α → α) (d : α) (g : α → Sight)
    (h : ∀ a, g (f a) = g a) (j : Nat) : g ((l.modify i f).getD j d) = g (l.getD j d) := by
  rw [List.getD_eq_getElem?_getD, List.getD_eq_getElem?_getD, List.getElem?_modify]
  cases l[j]? with
  | none => rfl
  | some a =>
    by_cases hij : i = j
    · simp [hij, h]
    · simp [hij]

theorem getD_modify_other {α : Type} (l : List α) (i j : Nat) (f : α → α) (d : α) (h : i ≠ j) :
    (l.modify i f).getD j d = l.getD j d := by
  rw [List.getD_eq_getElem?_getD, List.getD_eq_getElem?_getD, List.getElem?_modify]
  simp [h]

/-- Which setting of a channel is assigned. -/
def ChanAssign.field : ChanAssign → ChannelField
  | .fb _ => .fb
  | .ams _ => .ams
  | .pms _ => .pms
  | .connection _ => .connection
  | .noise _ => .noise
  | .noiseFreq _ => .noiseFreq

/-- Which setting of an operator is assigned. -/
def OpAssign.field : OpAssign → OperatorField
  | .totalLevel _ => .totalLevel
  | .attackRate _ => .attackRate
  | .firstDecayRate _ => .firstDecayRate
  | .firstDecayLevel _ => .firstDecayLevel
  | .secondDecayRate _ => .secondDecayRate
  | .releaseRate _ => .releaseRate
  | .keyScale _ => .keyScale
  | .multiply _ => .multiply
  | .firstDetune _ => .firstDetune
  | .secondDetune _ => .secondDetune
  | .ase _ => .ase

/-- Which shared setting is assigned. -/
def BaseAssign.field : BaseAssign → BaseField
  | .lfo _ => .lfo
  | .phsMd _ => .phsMd
  | .ampMd _ => .ampMd
  | .waveform _ => .waveform

/-- Where a change can be seen. -/
def Store.place : Store → Option Look
  | .channel ch a => some (.channel ch a.field)
  | .operator ch k a => some (.operator ch k a.field)
  | .noteConfig _ _ => none
  | .base a => some (.base a.field)
  | .append _ => some .instruments
  | .freshBase => none
  | .firstBeat _ => none
  | .press ch _ => some (.notes ch)
  | .tick _ => some .ticks
  | .samples _ => none

/-- What a look depends on. -/
def lookPlace : Look → Look
  | .estimate => .ticks
  | l => l

theorem chan_put_other (c : ChannelConfig) (a : ChanAssign) (f : ChannelField) (h : a.field ≠ f) :
    f.get (a.put c) = f.get c := by
  cases a <;> cases f <;> first | rfl | exact absurd rfl h

theorem op_put_other (o : OperatorConfig) (a : OpAssign) (f : OperatorField) (h : a.field ≠ f) :
    f.get (a.onObj o) = f.get o := by
  cases a <;> cases f <;> first | rfl | exact absurd rfl h

theorem base_put_other (b : BaseConfig) (a : BaseAssign) (f : BaseField) (h : a.field ≠ f) :
    f.get (a.put b) = f.get b := by
  cases a <;> cases f <;> first | rfl | exact absurd rfl h

theorem chan_put_ops (c : ChannelConfig) (a : ChanAssign) : (a.put c).operators = c.operators := by
  cases a <;> rfl

theorem estimate_congr {a b : State} (h : a.noteBeats = b.noteBeats) :
    a.ticksPerNote = b.ticksPerNote := by
  unfold State.ticksPerNote State.estimates State.ticks
  rw [h]

theorem put_beats (s : State) (x : Store) (h : x.place ≠ some .ticks) :
    (x.put s).noteBeats = s.noteBeats := by
  cases x with
  | tick n => exact absurd rfl h
  | _ => rfl

theorem getD_ops_same (l : List ChannelConfig) (i : Nat) (g : ChannelConfig → ChannelConfig)
    (k : Nat) (f : OperatorField)
    (h : ∀ c : ChannelConfig, f.get ((g c).operators.getD k {}) = f.get (c.operators.getD k {}))
    (j : Nat) :
    f.get (((l.modify i g).getD j {}).operators.getD k {}) =
      f.get ((l.getD j {}).operators.getD k {}) :=
  getD_modify_same l i g {} (fun c => f.get (c.operators.getD k {})) h j

/-- A change is seen at its own place only. -/
theorem look_put (s : State) (x : Store) (l : Look) (h : x.place ≠ some (lookPlace l)) :
    l.at (x.put s) = l.at s := by
  by_cases hl : l = .estimate
  · subst hl
    exact congrArg Sight.estimate (estimate_congr (put_beats s x h))
  by_cases hl' : l = .ticks
  · subst hl'
    have := put_beats s x h
    show Sight.ticks (x.put s).ticks = _
    unfold State.ticks
    rw [this]; rfl
  cases x with
  | channel ch a =>
    cases l with
    | channel ch' f =>
      show f.get _ = f.get _
      by_cases hc : ch = ch'
      · subst hc
        refine getD_modify_same _ ch _ _ f.get (fun c => chan_put_other c a f ?_) ch
        intro e; exact h (by rw [← e]; rfl)
      · exact congrArg f.get (getD_modify_other _ _ _ _ _ hc)
    | operator ch' k f =>
      exact getD_ops_same _ ch _ k f (fun c => by rw [chan_put_ops]) ch'
    | estimate => exact absurd rfl hl
    | ticks => exact absurd rfl hl'
    | _ => rfl
  | operator ch k a =>
    cases l with
    | channel ch' f =>
      exact getD_modify_same _ ch _ _ f.get (fun c => by cases f <;> rfl) ch'
    | operator ch' k' f =>
      show f.get ((((s.channelConfigs.modify ch _).getD ch' {}).operators).getD k' {}) = _
      by_cases hc : ch = ch'
      · subst hc
        refine getD_ops_same _ ch _ k' f (fun c => ?_) ch
        show f.get ((c.operators.modify k _).getD k' {}) = _
        by_cases hk : k = k'
        · subst hk
          refine getD_modify_same _ k _ _ f.get (fun o => op_put_other o a f ?_) k
          intro e; exact h (by rw [← e]; rfl)
        · exact congrArg f.get (getD_modify_other _ _ _ _ _ hk)
      · exact congrArg (fun c : ChannelConfig => f.get (c.operators.getD k' {}))
          (getD_modify_other _ _ _ _ _ hc)
    | estimate => exact absurd rfl hl
    | ticks => exact absurd rfl hl'
    | _ => rfl
  | noteConfig ch a =>
    cases l with
    | estimate => exact absurd rfl hl
    | ticks => exact absurd rfl hl'
    | _ => rfl
  | base a =>
    cases l with
    | base f =>
      refine base_put_other s.base a f ?_
      intro e; exact h (by rw [← e]; rfl)
    | estimate => exact absurd rfl hl
    | ticks => exact absurd rfl hl'
    | _ => rfl
  | append c =>
    cases l with
    | instruments => exact absurd rfl h
    | estimate => exact absurd rfl hl
    | ticks => exact absurd rfl hl'
    | _ => rfl
  | freshBase =>
    cases l with
    | base f => cases f <;> rfl
    | estimate => exact absurd rfl hl
    | ticks => exact absurd rfl hl'
    | _ => rfl
  | firstBeat n =>
    cases l with
    | estimate => exact absurd rfl hl
    | ticks => exact absurd rfl hl'
    | _ => rfl
  | press ch n =>
    cases l with
    | notes ch' =>
      have hc : ch ≠ ch' := fun e => h (by rw [e]; rfl)
      exact congrArg Sight.notes (getD_modify_other _ _ _ _ _ hc)
    | estimate => exact absurd rfl hl
    | ticks => exact absurd rfl hl'
    | _ => rfl
  | tick n =>
    cases l with
    | estimate => exact absurd rfl hl
    | ticks => exact absurd rfl hl'
    | _ => rfl
  | samples n =>
    cases l with
    | estimate => exact absurd rfl hl
    | ticks => exact absurd rfl hl'
    | _ => rfl

/-- Changes at different places. -/
def ApartStores (l : List Store) : Prop := l.Pairwise (fun x y => x.place = none ∨ x.place ≠ y.place)

theorem look_puts (l : List Store) (s : State) (k : Look)
    (h : ∀ x ∈ l, x.place ≠ some (lookPlace k)) : k.at (l.foldl Store.put s) = k.at s := by
  induction l generalizing s with
  | nil => rfl
  | cons x l ih =>
    rw [List.foldl_cons, ih _ (fun y hy => h y (by simp [hy])), look_put s x k (h x (by simp))]

/-- While changes at different places are made, every look shows what was before or what will be. -/
theorem look_between (l : List Store) (ha : ApartStores l) (s : State) (j : Nat) (k : Look) :
    k.at ((l.take j).foldl Store.put s) = k.at s ∨
      k.at ((l.take j).foldl Store.put s) = k.at (l.foldl Store.put s) := by
  induction l generalizing s j with
  | nil => left; simp
  | cons x l ih =>
    cases j with
    | zero => left; rfl
    | succ j =>
      obtain ⟨hx, hl⟩ := List.pairwise_cons.mp ha
      rw [List.take_succ_cons, List.foldl_cons, List.foldl_cons]
      by_cases hp : x.place = some (lookPlace k)
      · right
        have hn : ∀ y ∈ l, y.place ≠ some (lookPlace k) := by
          intro y hy e
          rcases hx y hy with h | h
          · rw [h] at hp; cases hp
          · exact h (hp.trans e.symm)
        rw [look_puts _ _ _ hn, look_puts _ _ _ (fun y hy => hn y (List.mem_of_mem_take hy))]
      · rcases ih hl (x.put s) j with h | h
        · left; rw [h, look_put s x k hp]
        · right; exact h

theorem apart_four (b1 b2 b3 : Bool) (P : Prop) [Decidable P] (c : Config) (t t' ch : Nat)
    (n : Note) :
    ApartStores ((if b1 then [.append c, .freshBase] else []) ++ (if b2 then [.firstBeat t] else [])
      ++ (if b3 then [.press ch n] else []) ++ (if P then [.tick t'] else [])) := by
  by_cases h : P <;> cases b1 <;> cases b2 <;> cases b3 <;> simp [h, ApartStores, Store.place]

theorem apart_ite {c : Prop} [Decidable c] {a b : List Store} (ha : ApartStores a) (hb : ApartStores b) :
    ApartStores (if c then a else b) := by
  by_cases h : c
  · rw [if_pos h]; exact ha
  · rw [if_neg h]; exact hb

theorem stores_apart (s : State) (r v : Nat) : ApartStores (s.stores r v) := by
  unfold State.stores
  dsimp only
  refine apart_ite (apart_four _ _ _ _ _ _ _ _ _) ?_
  repeat' refine apart_ite ?_ ?_
  all_goals simp [ApartStores, Store.place, ChanAssign.field, OpAssign.field]

theorem modify_modify_eq {α : Type} (l : List α) (i : Nat) (f g : α → α) :
    (l.modify i f).modify i g = l.modify i (fun a => g (f a)) := by
  apply List.ext_getElem?
  intro j
  simp only [List.getElem?_modify]
  cases l[j]? with
  | none => rfl
  | some a => by_cases h : i = j <;> simp [h]

theorem put_ite {c : Prop} [Decidable c] {a b : List Store} {s x y : State}
    (ha : a.foldl Store.put s = x) (hb : b.foldl Store.put s = y) :
    (if c then a else b).foldl Store.put s = if c then x else y := by
  by_cases h : c
  · rw [if_pos h, if_pos h]; exact ha
  · rw [if_neg h, if_neg h]; exact hb

theorem four_put (s : State) (b1 b2 b3 : Bool) (P : Prop) [Decidable P] (c : Config)
    (t ch : Nat) (n : Note) :
    ((if b1 then [Store.append c, .freshBase] else []) ++ (if b2 then [Store.firstBeat t] else [])
      ++ (if b3 then [Store.press ch n] else []) ++ (if P then [Store.tick t] else [])).foldl Store.put s =
    { s with
      configs := if b1 then s.configs ++ [c] else s.configs
      base := if b1 then s.base.copy else s.base
      firstBeat := if b2 then some t else s.firstBeat
      keyPresses := if b3 then s.keyPresses.modify ch (· ++ [n]) else s.keyPresses
      noteBeats := if P then setAdd t s.noteBeats else s.noteBeats } := by
  by_cases h : P <;> cases b1 <;> cases b2 <;> cases b3 <;> simp [h, Store.put]

theorem keyStores_put (s : State) (v : Nat) : (s.keyStores v).foldl Store.put s = s.keyEvent v :=
  by unfold State.keyStores State.keyEvent; exact four_put s _ _ _ _ _ _ _ _

/-- All the changes together are what the command does. -/
theorem stores_put (s : State) (r v : Nat) : (s.stores r v).foldl Store.put s = s.apply r v := by
  unfold State.stores State.apply
  dsimp only
  refine put_ite (keyStores_put s v) ?_
  repeat' refine put_ite ?_ ?_
  all_goals
    simp only [List.foldl_cons, List.foldl_nil, Store.put, ChanAssign.put, OpAssign.onObj,
      NoteAssign.put, BaseAssign.put, State.updChannel, State.updNote, State.updOperator,
      modify_modify_eq]

end VgmX
