import Verif.Model.Feeders
/-
Several threads that feed one state: what may be said about it.
-/

namespace VgmX.Spec

/-- The state, as it can be seen after the threads, each with its list of calls, have made steps in this
order. -/
def fedBy (calls : List (List Event)) (order : List Nat) : State :=
  ((Feeders.start calls).after order).shared.view

/-- How many key events of the channel are among the calls. -/
def keysTo (ch : Nat) (h : List Event) : Nat :=
  h.countP fun | .write r v => r == 8 && v % 8 == ch | .wait _ => false

/-- How many key-ons (writes to the key register with an operator) are among the calls. -/
def keyOns (h : List Event) : Nat :=
  h.countP fun | .write r v => r == 8 && v / 8 % 16 != 0 | .wait _ => false

/-- There is nothing left to do in the call. -/
def callOver : Prog → Bool
  | .done => true
  | _ => false

/-- Thread `i` is not within a call. -/
def between (f : Feeders) (i : Nat) : Bool :=
  match f.threads[i]? with
  | some (p, _) => callOver p
  | none => true

/-- All threads have made all their calls. -/
def allOver (f : Feeders) : Bool := f.threads.all fun x => callOver x.1 && x.2.isEmpty

/-- A thread makes a step only when none of the others is within a call (as with a lock around every
call). -/
def oneAtATime : Feeders → List Nat → Bool
  | _, [] => true
  | f, i :: order =>
    (List.range f.threads.length).all (fun j => j == i || between f j) && oneAtATime (f.step i) order

/-- The calls of one thread, in a list in which every call is marked with its thread. -/
def callsOf (i : Nat) (m : List (Nat × Event)) : List Event :=
  m.filterMap fun x => if x.1 = i then some x.2 else none

/-- What a call is about: a register, or the clock. -/
def subject : Event → Option Nat
  | .write r _ => some r
  | .wait _ => none

/-- The threads keep out of each other's way: no key events, and no two threads write the same register
or both wait. -/
def DividedUp (calls : List (List Event)) : Prop :=
  (∀ l ∈ calls, ∀ r v, Event.write r v ∈ l → r < 256 ∧ r ≠ 8) ∧
  ∀ (i j : Nat) (l m : List Event), i ≠ j → calls[i]? = some l → calls[j]? = some m →
    ∀ a ∈ l, ∀ b ∈ m, subject a ≠ subject b

end VgmX.Spec
