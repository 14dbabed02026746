import Verif.Model.Watch
/-
Several threads that call `apply` and `beat` of one `State`, without a lock
(src/vgm/ym2151/state.py:35-161).

A thread executes its calls in atomic steps: reading one attribute, assigning one attribute, `append`,
`add`, the next item of an iterator. Between two steps of a thread the others may do anything. The
`BaseConfig` objects have identities here: a key event replaces the current one by a copy, and a thread
may still be holding the old one. (`ChannelConfig`, `OperatorConfig` and `NoteConfig` objects of a state
are never replaced.)
-/

namespace VgmX
open Spec

/-- The state that the threads share. `st.base` is not used: the `BaseConfig` objects are in `bases`,
and `cur` says which of them `_current_base_config` is. (src/vgm/ym2151/state.py:17-30.) -/
structure Shared where
  st : State
  bases : List BaseConfig
  cur : Nat
  deriving DecidableEq

/-- A new `State`, src/vgm/ym2151/state.py:17-30. -/
def Shared.init : Shared := ⟨State.init, [{}], 0⟩

/-- The state as its owner sees it. (src/vgm/ym2151/state.py:17-30.) -/
def Shared.view (s : Shared) : State := { s.st with base := s.bases.getD s.cur {} }

/-- One change. (src/vgm/ym2151/state.py:35-161.) -/
inductive Change where
  /-- of anything but the shared settings -/
  | store (x : Store)
  /-- an assignment to an attribute of a `BaseConfig` -/
  | base (b : Nat) (a : BaseAssign)
  /-- `self._current_base_config = copy`, state.py:64 -/
  | newBase (b : BaseConfig)

/-- The state after the change. (src/vgm/ym2151/state.py:35-161.) -/
def Change.put (s : Shared) : Change → Shared
  | .store x => { s with st := x.put s.st }
  | .base b a => { s with bases := s.bases.modify b (fun o => a.put o) }
  | .newBase b => { s with bases := s.bases ++ [b], cur := s.bases.length }

/-- What a thread still has to do in a call. (src/vgm/ym2151/state.py:35-161.) -/
inductive Prog where
  /-- nothing -/
  | done
  /-- read an attribute, and go on -/
  | read (k : Shared → Prog)
  /-- make a change, and go on -/
  | put (c : Change) (p : Prog)
  /-- the loop over `self.configs` from position `i` on; go on with the position that was found, or with
  `dflt`, state.py:43-52 -/
  | scan (ch op dflt i : Nat) (k : Nat → Prog)

/-- One comparison after the other, until one fails. (src/vgm/ym2151/config.py:46-54, 78-93, 165-176,
224-229.) -/
def testsProg : List (Shared → Bool) → Prog → Prog → Prog
  | [], yes, _ => yes
  | t :: ts, yes, no => .read fun s => if t s then testsProg ts yes no else no

/-- Operator `k` of channel `ch`. (src/vgm/ym2151/state.py:22, config.py:148-163.) -/
def Shared.op (s : Shared) (ch k : Nat) : OperatorConfig :=
  ((s.st.channelConfigs.getD ch {}).operators.getD k {})

/-- `OperatorConfig.__eq__`, src/vgm/ym2151/config.py:78-93. -/
def opTests (o : OperatorConfig) (ch k : Nat) : List (Shared → Bool) :=
  [fun s => o.firstDetune == (s.op ch k).firstDetune,
   fun s => o.secondDetune == (s.op ch k).secondDetune,
   fun s => o.multiply == (s.op ch k).multiply,
   fun s => o.totalLevel == (s.op ch k).totalLevel,
   fun s => o.keyScale == (s.op ch k).keyScale,
   fun s => o.attackRate == (s.op ch k).attackRate,
   fun s => o.ase == (s.op ch k).ase,
   fun s => o.firstDecayRate == (s.op ch k).firstDecayRate,
   fun s => o.secondDecayRate == (s.op ch k).secondDecayRate,
   fun s => o.firstDecayLevel == (s.op ch k).firstDecayLevel,
   fun s => o.releaseRate == (s.op ch k).releaseRate]

/-- `ChannelConfig.__eq__`, src/vgm/ym2151/config.py:165-176. -/
def channelTests (c : ChannelConfig) (ch : Nat) : List (Shared → Bool) :=
  let now (s : Shared) := s.st.channelConfigs.getD ch {}
  [fun s => c.fb == (now s).fb,
   fun s => c.connection == (now s).connection,
   fun s => c.ams == (now s).ams,
   fun s => c.pms == (now s).pms,
   fun s => c.operators.length == (now s).operators.length]
  ++ (List.range c.operators.length).flatMap (fun k => opTests (c.operators.getD k {}) ch k)
  ++ [fun s => c.noise == (now s).noise,
      fun s => c.noiseFreq == (now s).noiseFreq]

/-- `Config.compare` with the object `b` as `base`, src/vgm/ym2151/config.py:224-229, 46-54. -/
def compareTests (c : Config) (b ch op : Nat) : List (Shared → Bool) :=
  let now (s : Shared) := s.bases.getD b {}
  [fun s => c.base.lfo == (now s).lfo,
   fun s => c.base.phsMd == (now s).phsMd,
   fun s => c.base.ampMd == (now s).ampMd,
   fun s => c.base.waveform == (now s).waveform]
  ++ channelTests c.channel ch
  ++ [fun _ => c.operators == op]

/-- The next step of a call. (src/vgm/ym2151/state.py:35-161.) -/
def Prog.step (s : Shared) : Prog → Shared × Prog
  | .done => (s, .done)
  | .read k => (s, k s)
  | .put c p => (c.put s, p)
  | .scan ch op dflt i k =>
    match s.st.configs[i]? with
    | none => (s, k dflt)
    | some c => (s, .read fun s' =>
        testsProg (compareTests c s'.cur ch op) (k i) (.scan ch op dflt (i + 1) k))

/-- `BaseConfig(other)`, src/vgm/ym2151/config.py:40-44. -/
def copyBase (b : Nat) (k : BaseConfig → Prog) : Prog :=
  .read fun s => let w := (s.bases.getD b {}).waveform
  .read fun s => let l := (s.bases.getD b {}).lfo
  .read fun s => let a := (s.bases.getD b {}).ampMd
  .read fun s => let p := (s.bases.getD b {}).phsMd
  k ⟨w, l, a, p⟩

/-- `OperatorConfig(other)`, src/vgm/ym2151/config.py:65-76. -/
def readOp (ch i : Nat) (k : OperatorConfig → Prog) : Prog :=
  .read fun s => let v1 := (s.op ch i).totalLevel
  .read fun s => let v2 := (s.op ch i).attackRate
  .read fun s => let v3 := (s.op ch i).firstDecayRate
  .read fun s => let v4 := (s.op ch i).firstDecayLevel
  .read fun s => let v5 := (s.op ch i).secondDecayRate
  .read fun s => let v6 := (s.op ch i).releaseRate
  .read fun s => let v7 := (s.op ch i).keyScale
  .read fun s => let v8 := (s.op ch i).multiply
  .read fun s => let v9 := (s.op ch i).firstDetune
  .read fun s => let v10 := (s.op ch i).secondDetune
  .read fun s => let v11 := (s.op ch i).ase
  k ⟨v1, v2, v3, v4, v5, v6, v7, v8, v9, v10, v11⟩

/-- `copy.deepcopy(other.operators)`: `n` operators from the `i`th on, src/vgm/ym2151/config.py:149-151. -/
def readOps (ch : Nat) : Nat → Nat → List OperatorConfig → (List OperatorConfig → Prog) → Prog
  | 0, _, acc, k => k acc
  | n + 1, i, acc, k => readOp ch i fun o => readOps ch n (i + 1) (acc ++ [o]) k

/-- `ChannelConfig(other)`, src/vgm/ym2151/config.py:148-159. -/
def copyChannel (ch : Nat) (k : ChannelConfig → Prog) : Prog :=
  let now (s : Shared) := s.st.channelConfigs.getD ch {}
  .read fun s => readOps ch (now s).operators.length 0 [] fun ops =>
  .read fun s => let fb := (now s).fb
  .read fun s => let ams := (now s).ams
  .read fun s => let pms := (now s).pms
  .read fun s => let con := (now s).connection
  .read fun s => let noise := (now s).noise
  .read fun s => let nf := (now s).noiseFreq
  k ⟨ops, fb, ams, pms, con, noise, nf⟩

/-- `Note(config_id, note_config, sample)`, src/vgm/ym2151/note.py:46-53. -/
def readNote (cid : Int) (ch sample : Nat) (k : Note → Prog) : Prog :=
  let now (s : Shared) := s.st.noteConfigs.getD ch {}
  .read fun s => let r := (now s).right
  .read fun s => let l := (now s).left
  .read fun s => let o := (now s).octave
  .read fun s => let n := (now s).note
  .read fun s => let f := (now s).keyFraction
  k ⟨cid, r, l, o, n, f, sample⟩

/-- src/vgm/ym2151/state.py:74-75. -/
def keyTick (cid : Int) : Prog :=
  if cid ≥ 0 then .read fun s => .put (.store (.tick s.st.samples)) .done else .done

/-- src/vgm/ym2151/state.py:71-75. -/
def keyNote (ch : Nat) (cid : Int) : Prog :=
  .read fun s =>
    if truthy s.st.firstBeat then
      .read fun s => readNote cid ch s.st.samples fun n => .put (.store (.press ch n)) (keyTick cid)
    else keyTick cid

/-- src/vgm/ym2151/state.py:68-75. -/
def keyFirst (op ch : Nat) (cid : Int) : Prog :=
  if op = 0 then keyNote ch cid
  else .read fun s =>
    if truthy s.st.firstBeat then keyNote ch cid
    else .read fun s => .put (.store (.firstBeat s.st.samples)) (keyNote ch cid)

/-- src/vgm/ym2151/state.py:54-66, the branch in which an instrument is added, and what follows. -/
def keyNew (op ch found : Nat) : Prog :=
  .read fun s => copyBase s.cur fun b => copyChannel ch fun c =>
  .put (.store (.append ⟨found, b, op, c⟩)) <|
  .read fun s => copyBase s.cur fun b =>
  .put (.newBase b) (keyFirst op ch found)

/-- src/vgm/ym2151/state.py:54-75. -/
def keyFound (op ch found : Nat) : Prog :=
  .read fun s =>
    if s.st.configs.length = found then
      if op = 0 then keyFirst op ch (-1) else keyNew op ch found
    else keyFirst op ch found

/-- The key on/off branch of `apply`, src/vgm/ym2151/state.py:40-75. -/
def keyProg (value : Nat) : Prog :=
  let op := (value >>> 3) &&& 0xF
  let ch := value &&& 0x07
  .read fun s => .scan ch op s.st.configs.length 0 (keyFound op ch)

/-- The changes of a register write. (src/vgm/ym2151/state.py:77-152.) -/
def storesProg : List Store → Prog
  | [] => .done
  | .base a :: l => .read fun s => .put (.base s.cur a) (storesProg l)
  | x :: l => .put (.store x) (storesProg l)

/-- What a call does. (What a register write other than of 0x08 changes does not depend on the state,
Model/Watch.) (src/vgm/ym2151/state.py:35-152 and 160-161.) -/
def callProg : Event → Prog
  | .write r v => if r = 0x08 then keyProg v else storesProg (State.init.stores r v)
  | .wait n => .read fun s => let now := s.st.samples; .put (.store (.samples (now + n))) .done

/-- The threads: for each of them what it is doing, and the calls that are still to come.
(src/vgm/ym2151/state.py:35-161.) -/
structure Feeders where
  shared : Shared
  threads : List (Prog × List Event)

/-- A new state, and the calls that the threads are going to make. (src/vgm/ym2151/state.py:17-30.) -/
def Feeders.start (calls : List (List Event)) : Feeders :=
  ⟨Shared.init, calls.map fun l => (.done, l)⟩

/-- Thread `i` makes its next step. (src/vgm/ym2151/state.py:35-161.) -/
def Feeders.step (f : Feeders) (i : Nat) : Feeders :=
  match f.threads[i]? with
  | none => f
  | some (.done, []) => f
  | some (.done, e :: l) => { f with threads := f.threads.set i (callProg e, l) }
  | some (p, l) => ⟨(p.step f.shared).1, f.threads.set i ((p.step f.shared).2, l)⟩

/-- After the threads have made steps in this order. (src/vgm/ym2151/state.py:35-161.) -/
def Feeders.after (f : Feeders) (order : List Nat) : Feeders := order.foldl Feeders.step f

end VgmX
