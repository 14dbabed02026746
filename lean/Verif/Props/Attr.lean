import Verif.Model.Attr
import Verif.Props.State
/-
C69: the attributes of the objects that hold the result.
-/

namespace VgmX
open Spec

/-- Names that every Python object has begin with two underscores; `__deepcopy__` and
`__setstate__` are not among them. -/
structure ObjectNames (obj : Str → Bool) : Prop where
  dunder : ∀ n, obj n = true → n.take 2 = ['_', '_']
  deepcopy : obj "__deepcopy__".toList = false
  setstate : obj "__setstate__".toList = false

/-- The names, without leading underscore, that can be read from the state. -/
def stateNames : List Str :=
  [ "waveform".toList, "lfo".toList, "amp_md".toList, "phs_md".toList, "repr_json".toList
  , "configs".toList, "apply".toList, "key_presses".toList, "channel_config".toList
  , "beat".toList, "ticks".toList, "ticks_per_note".toList ]

/-- The names, without leading underscore, that can be read from an instrument. -/
def configNames : List Str :=
  [ "waveform".toList, "lfo".toList, "amp_md".toList, "phs_md".toList, "enabled_operators".toList
  , "operators".toList, "fb".toList, "ams".toList, "pms".toList, "connection".toList
  , "noise".toList, "noise_freq".toList, "compare".toList, "repr_json".toList ]

theorem get_none {d : Dict} {n : Str} (h : n ∉ d.map (·.1)) : d.get n = none := by
  unfold Dict.get
  rw [Option.map_eq_none_iff, List.find?_eq_none]
  intro x hx
  simp only [decide_eq_true_eq]
  intro e
  exact h (List.mem_map.mpr ⟨x, hx, e⟩)

theorem lookup_none {obj : Str → Bool} {c : PyClass} {d : Dict} {n : Str}
    (h1 : n ∉ d.map (·.1)) (h2 : n ∉ c.functions) (h3 : obj n = false) :
    lookup obj c d n = none := by
  unfold lookup
  rw [get_none h1]
  simp [h2, h3]

theorem obj_false {obj : Str → Bool} (ho : ObjectNames obj) {n : Str} (h : n.take 2 ≠ ['_', '_']) :
    obj n = false := by
  rw [← Bool.not_eq_true]
  exact fun e => h (ho.dunder n e)

theorem public_take {n : Str} (hn : n.head? ≠ some '_') : n.take 2 ≠ ['_', '_'] := by
  intro e
  apply hn
  cases n with
  | nil => cases e
  | cons a n => simp at e; simp [e.1]

theorem notMem_of {n : Str} {keys pub : List Str}
    (hk : ∀ k ∈ keys, k.head? = some '_' ∨ k ∈ pub) (hn : n.head? ≠ some '_') (hp : n ∉ pub) :
    n ∉ keys := by
  intro h
  rcases hk n h with h' | h'
  · exact hn h'
  · exact hp h'

/-- The keys of the instance dictionaries. -/
theorem stateDict_keys (s : State) : s.dict.map (·.1) = State.init.dict.map (·.1) := rfl
theorem baseDict_keys (b : BaseConfig) : b.dict.map (·.1) = (BaseConfig.dict {}).map (·.1) := rfl
theorem channelDict_keys (c : ChannelConfig) :
    c.dict.map (·.1) = (ChannelConfig.dict {}).map (·.1) := rfl
theorem configDict_keys (c : Config) : c.dict.map (·.1) =
    (Config.dict ⟨0, {}, 0, {}⟩).map (·.1) := rfl

theorem stateAttr_base {obj : Str → Bool} (s : State) (d : Nat) :
    stateAttr obj (d + 1) s.dict "_current_base_config".toList = .ok (.base s.base) := by
  rfl

theorem configAttr_base {obj : Str → Bool} (c : Config) (d : Nat) :
    configAttr obj (d + 1) c.dict "_base".toList = .ok (.base c.base) := by
  rfl

theorem configAttr_channel {obj : Str → Bool} (c : Config) (d : Nat) :
    configAttr obj (d + 1) c.dict "_channel".toList = .ok (.channel c.channel) := by
  rfl

theorem configAttr_operators {obj : Str → Bool} (c : Config) (d : Nat) :
    configAttr obj (d + 1) c.dict "_operators".toList = .ok (.flags c.operators) := by
  rfl

theorem stateAttr_through {obj : Str → Bool} (s : State) (d : Nat) (n : Str)
    (h1 : n ∉ State.init.dict.map (·.1)) (h2 : n ∉ PyClass.state.functions) (h3 : obj n = false) :
    stateAttr obj (d + 2) s.dict n = plainAttr obj .baseConfig s.base.dict n := by
  rw [stateAttr, lookup_none (by rw [stateDict_keys]; exact h1) h2 h3]
  simp only [stateAttr_base]
  rfl

theorem base_run (h : List Event) (hb : ByteHistory h) : (run h).base = Spec.base h :=
  (inv_run h hb).regs.base

/-- C69. The global settings are read directly from the state: what the last writes set. -/
theorem c69_settings (obj : Str → Bool) (ho : ObjectNames obj) (h : List Event)
    (hb : ByteHistory h) (d : Nat) :
    stateAttr obj (d + 2) (run h).dict "lfo".toList = .ok (.int (Spec.base h).lfo) ∧
    stateAttr obj (d + 2) (run h).dict "amp_md".toList = .ok (.int (Spec.base h).ampMd) ∧
    stateAttr obj (d + 2) (run h).dict "phs_md".toList = .ok (.int (Spec.base h).phsMd) ∧
    stateAttr obj (d + 2) (run h).dict "waveform".toList = .ok (.waveform (Spec.base h).waveform) := by
  rw [← base_run h hb]
  refine ⟨?_, ?_, ?_, ?_⟩
  all_goals
    rw [stateAttr_through _ _ _ (by decide) (by decide) (obj_false ho (by decide))]
    rfl

/-- C69. Of the names without leading underscore, exactly those listed can be read from the
state; any other raises AttributeError. -/
theorem c69_names (obj : Str → Bool) (ho : ObjectNames obj) (s : State) (d : Nat) (n : Str)
    (hn : n.head? ≠ some '_') :
    ((∃ v, stateAttr obj (d + 2) s.dict n = .ok v) ↔ n ∈ stateNames) ∧
    (n ∉ stateNames → stateAttr obj (d + 2) s.dict n = .error .attribute) := by
  have miss : n ∉ stateNames → stateAttr obj (d + 2) s.dict n = .error .attribute := by
    intro hp
    have hobj := obj_false ho (public_take hn)
    rw [stateAttr_through _ _ _ (notMem_of (pub := stateNames) (by decide) hn hp)
      (notMem_of (pub := stateNames) (by decide) hn hp) hobj]
    unfold plainAttr
    rw [lookup_none (by rw [baseDict_keys]; exact notMem_of (pub := stateNames) (by decide) hn hp)
      (notMem_of (pub := stateNames) (by decide) hn hp) hobj]
  refine ⟨⟨fun ⟨v, hv⟩ => ?_, fun hp => ?_⟩, miss⟩
  · by_cases hp : n ∈ stateNames
    · exact hp
    · rw [miss hp] at hv; cases hv
  · simp only [stateNames, List.mem_cons, List.not_mem_nil, or_false] at hp
    rcases hp with rfl | rfl | rfl | rfl | rfl | rfl | rfl | rfl | rfl | rfl | rfl | rfl
    case inr.inr.inr.inr.inr.inl => exact ⟨_, rfl⟩
    case inr.inr.inr.inr.inr.inr.inl => exact ⟨_, rfl⟩
    case inr.inr.inr.inr.inr.inr.inr.inl => exact ⟨_, rfl⟩
    case inr.inr.inr.inr.inr.inr.inr.inr.inl => exact ⟨_, rfl⟩
    case inr.inr.inr.inr.inr.inr.inr.inr.inr.inl => exact ⟨_, rfl⟩
    case inr.inr.inr.inr.inr.inr.inr.inr.inr.inr.inl => exact ⟨_, rfl⟩
    case inr.inr.inr.inr.inr.inr.inr.inr.inr.inr.inr => exact ⟨_, rfl⟩
    all_goals
      rw [stateAttr_through _ _ _ (by decide) (by decide) (obj_false ho (by decide))]
      exact ⟨_, rfl⟩

/-- C69. In particular the settings of register 0x0F and the CT bits of 0x1B cannot be read from
the state (the repository's own tests read them). -/
theorem c69_tests_read (obj : Str → Bool) (ho : ObjectNames obj) (s : State) (d : Nat) (n : Str)
    (hn : n ∈ ["noise".toList, "noise_freq".toList, "ct1".toList, "ct2".toList]) :
    stateAttr obj (d + 2) s.dict n = .error .attribute := by
  have h1 : n.head? ≠ some '_' ∧ n ∉ stateNames := by
    revert n; decide
  exact (c69_names obj ho s d n h1.1).2 h1.2

theorem configAttr_through {obj : Str → Bool} (c : Config) (d : Nat) (n : Str)
    (h1 : n ∉ (Config.dict ⟨0, {}, 0, {}⟩).map (·.1)) (h2 : n ∉ PyClass.config.functions)
    (h3 : obj n = false)
    (h4 : n ∉ ["lfo".toList, "phs_md".toList, "amp_md".toList, "waveform".toList, "enabled_operators".toList]) :
    configAttr obj (d + 2) c.dict n = plainAttr obj .channelConfig c.channel.dict n := by
  have h5 : ¬ (n = "lfo".toList ∨ n = "phs_md".toList ∨ n = "amp_md".toList ∨ n = "waveform".toList) := by
    rintro (h | h | h | h) <;> exact h4 (by rw [h]; decide)
  have h6 : n ≠ "enabled_operators".toList := fun h => h4 (by rw [h]; decide)
  rw [configAttr, lookup_none (by rw [configDict_keys]; exact h1) h2 h3]
  simp only [if_neg h5, if_neg h6, configAttr_channel]
  rfl

/-- C69. The settings of an instrument: those of the chip when it was first keyed on. -/
theorem c69_instrument (obj : Str → Bool) (ho : ObjectNames obj) (h : List Event)
    (hb : ByteHistory h) (d i : Nat) (c : Config) (hc : (run h).configs[i]? = some c) :
    ∃ p, (instruments h)[i]? = some p ∧
      configAttr obj (d + 2) c.dict "lfo".toList = .ok (.int p.base.lfo) ∧
      configAttr obj (d + 2) c.dict "phs_md".toList = .ok (.int p.base.phsMd) ∧
      configAttr obj (d + 2) c.dict "amp_md".toList = .ok (.int p.base.ampMd) ∧
      configAttr obj (d + 2) c.dict "waveform".toList = .ok (.waveform p.base.waveform) ∧
      configAttr obj (d + 2) c.dict "enabled_operators".toList = .ok (.flags p.operators) ∧
      configAttr obj (d + 2) c.dict "operators".toList = .ok (.operators p.channel.operators) ∧
      configAttr obj (d + 2) c.dict "fb".toList = .ok (.int p.channel.fb) ∧
      configAttr obj (d + 2) c.dict "ams".toList = .ok (.int p.channel.ams) ∧
      configAttr obj (d + 2) c.dict "pms".toList = .ok (.int p.channel.pms) ∧
      configAttr obj (d + 2) c.dict "connection".toList = .ok (.int p.channel.connection) ∧
      configAttr obj (d + 2) c.dict "noise".toList = .ok (.bool p.channel.noise) ∧
      configAttr obj (d + 2) c.dict "noise_freq".toList = .ok (.int p.channel.noiseFreq) := by
  rw [configs_run h hb, List.getElem?_mapIdx] at hc
  obtain ⟨p, hp, rfl⟩ := Option.map_eq_some_iff.mp hc
  have five : ∀ n, n ∈ ["lfo".toList, "phs_md".toList, "amp_md".toList, "waveform".toList, "enabled_operators".toList] →
      lookup obj .config (Config.dict ⟨i, p.base, p.operators, p.channel⟩) n = none := by
    intro n hn
    have : n ∉ (Config.dict ⟨0, {}, 0, {}⟩).map (·.1) ∧ n ∉ PyClass.config.functions ∧
        n.take 2 ≠ ['_', '_'] := by
      revert n; decide
    exact lookup_none (by rw [configDict_keys]; exact this.1) this.2.1 (obj_false ho this.2.2)
  refine ⟨p, hp, ?_, ?_, ?_, ?_, ?_, ?_, ?_, ?_, ?_, ?_, ?_, ?_⟩
  · rw [configAttr, five _ (by decide)]; rfl
  · rw [configAttr, five _ (by decide)]; rfl
  · rw [configAttr, five _ (by decide)]; rfl
  · rw [configAttr, five _ (by decide)]; rfl
  · rw [configAttr, five _ (by decide)]; rfl
  all_goals
    rw [configAttr_through _ _ _ (by decide) (by decide) (obj_false ho (by decide)) (by decide)]
    rfl

/-- C69. Of the names without leading underscore, exactly those listed can be read from an
instrument. -/
theorem c69_instrument_names (obj : Str → Bool) (ho : ObjectNames obj) (c : Config) (d : Nat)
    (n : Str) (hn : n.head? ≠ some '_') :
    ((∃ v, configAttr obj (d + 2) c.dict n = .ok v) ↔ n ∈ configNames) ∧
    (n ∉ configNames → configAttr obj (d + 2) c.dict n = .error .attribute) := by
  have miss : n ∉ configNames → configAttr obj (d + 2) c.dict n = .error .attribute := by
    intro hp
    have hobj := obj_false ho (public_take hn)
    rw [configAttr_through _ _ _ (notMem_of (pub := configNames) (by decide) hn hp)
      (notMem_of (pub := configNames) (by decide) hn hp) hobj
      (notMem_of (pub := configNames) (by decide) hn hp)]
    unfold plainAttr
    rw [lookup_none (by rw [channelDict_keys]; exact notMem_of (pub := configNames) (by decide) hn hp)
      (notMem_of (pub := configNames) (by decide) hn hp) hobj]
  refine ⟨⟨fun ⟨v, hv⟩ => ?_, fun hp => ?_⟩, miss⟩
  · by_cases hp : n ∈ configNames
    · exact hp
    · rw [miss hp] at hv; cases hv
  · have five : ∀ n, n ∈ ["lfo".toList, "phs_md".toList, "amp_md".toList, "waveform".toList, "enabled_operators".toList] →
        lookup obj .config c.dict n = none := by
      intro n hn
      have : n ∉ (Config.dict ⟨0, {}, 0, {}⟩).map (·.1) ∧ n ∉ PyClass.config.functions ∧
          n.take 2 ≠ ['_', '_'] := by
        revert n; decide
      exact lookup_none (by rw [configDict_keys]; exact this.1) this.2.1 (obj_false ho this.2.2)
    by_cases h1 : n ∈ ["waveform".toList, "lfo".toList, "amp_md".toList, "phs_md".toList,
        "enabled_operators".toList]
    · simp only [List.mem_cons, List.not_mem_nil, or_false] at h1
      rcases h1 with rfl | rfl | rfl | rfl | rfl <;>
        (rw [configAttr, five _ (by decide)]; exact ⟨_, rfl⟩)
    · by_cases h2 : n ∈ ["compare".toList, "repr_json".toList]
      · simp only [List.mem_cons, List.not_mem_nil, or_false] at h2
        rcases h2 with rfl | rfl
        · exact ⟨_, rfl⟩
        · exact ⟨_, rfl⟩
      · have h3 : n ∈ ["operators".toList, "fb".toList, "ams".toList, "pms".toList,
            "connection".toList, "noise".toList, "noise_freq".toList] := by
          clear miss hn
          revert n; decide
        simp only [List.mem_cons, List.not_mem_nil, or_false] at h3
        rcases h3 with rfl | rfl | rfl | rfl | rfl | rfl | rfl <;>
          (rw [configAttr_through _ _ _ (by decide) (by decide) (obj_false ho (by decide)) (by decide)]
           exact ⟨_, rfl⟩)

/-- C69. What is read from an instrument does not change when playing goes on. -/
theorem c69_stable (obj : Str → Bool) (h t : List Event) (hb : ByteHistory (h ++ t)) (d i : Nat)
    (c c' : Config) (n : Str) (hc : (run h).configs[i]? = some c)
    (hc' : (run (h ++ t)).configs[i]? = some c') :
    configAttr obj d c.dict n = configAttr obj d c'.dict n := by
  have hp := c19_grows h t hb
  obtain ⟨l, hl⟩ := hp
  have hi : i < (run h).configs.length := by
    rw [List.getElem?_eq_some_iff] at hc; exact hc.1
  rw [← hl, List.getElem?_append_left hi, hc] at hc'
  cases hc'
  rfl

/-! ### Copies -/

/-- C69. `copy.deepcopy` of a state is not a state but its global settings. -/
theorem c69_deepcopy_state (obj : Str → Bool) (ho : ObjectNames obj) (h : List Event)
    (hb : ByteHistory h) (d : Nat) :
    (Obj.state (run h)).deepcopy obj (d + 2) = .ok (.base (Spec.base h)) := by
  have : (Obj.state (run h)).attr obj (d + 2) "__deepcopy__".toList =
      .ok (.method .baseConfig "__deepcopy__".toList) := by
    unfold Obj.attr
    simp only
    rw [stateAttr_through _ _ _ (by decide) (by decide) ho.deepcopy]
    rfl
  unfold Obj.deepcopy
  rw [this]
  simp only
  rw [base_run h hb]
  rfl

/-- C69. `copy.deepcopy` of an instrument is not an instrument but its channel settings. -/
theorem c69_deepcopy_instrument (obj : Str → Bool) (ho : ObjectNames obj) (c : Config) (d : Nat) :
    (Obj.config c).deepcopy obj (d + 2) = .ok (.channel c.channel) := by
  have : (Obj.config c).attr obj (d + 2) "__deepcopy__".toList =
      .ok (.method .channelConfig "__deepcopy__".toList) := by
    unfold Obj.attr
    simp only
    rw [configAttr_through _ _ _ (by decide) (by decide) ho.deepcopy (by decide)]
    rfl
  unfold Obj.deepcopy
  rw [this]
  simp only [ChannelConfig.copy_eq]

/-- C69. `copy.copy` and `pickle.loads` fail for states and instruments: the lookup of
`__setstate__` on the empty new object does not end, however deep calls may nest. -/
theorem c69_copy (obj : Str → Bool) (ho : ObjectNames obj) (o : Obj) (d : Nat) :
    o.reconstruct obj d = .error .recursion := by
  have hs : ∀ d n, n ∉ PyClass.state.functions → obj n = false →
      stateAttr obj d [] n = .error .recursion := by
    intro d
    induction d with
    | zero => intro n _ _; rfl
    | succ d ih =>
      intro n h1 h2
      rw [stateAttr, lookup_none (by simp) h1 h2]
      simp only [ih "_current_base_config".toList (by decide) (obj_false ho (by decide))]
  have hc : ∀ d n, n ∉ PyClass.config.functions → obj n = false →
      configAttr obj d [] n = .error .recursion := by
    intro d
    induction d with
    | zero => intro n _ _; rfl
    | succ d ih =>
      intro n h1 h2
      rw [configAttr, lookup_none (by simp) h1 h2]
      simp only [ih "_base".toList (by decide) (obj_false ho (by decide)),
        ih "_channel".toList (by decide) (obj_false ho (by decide)),
        ih "_operators".toList (by decide) (obj_false ho (by decide))]
      simp only [ite_self]
  cases o with
  | state s =>
    unfold Obj.reconstruct
    simp only [hs d "__setstate__".toList (by decide) ho.setstate]
  | config c =>
    unfold Obj.reconstruct
    simp only [hc d "__setstate__".toList (by decide) ho.setstate]

/-! ### Channels by number -/

theorem pyListGet_eight {α : Type} (l : List α) (hl : l.length = 8) (ch : Int) :
    (∀ k : Nat, k < 8 → ch = k ∨ ch = (k : Int) - 8 → ∀ x, l[k]? = some x → pyListGet l ch = .ok x) ∧
    (ch < -8 ∨ 8 ≤ ch → pyListGet l ch = .error .index) := by
  constructor
  · rintro k hk (rfl | rfl) x hx
    · unfold pyListGet
      rw [if_pos (by omega)]
      simp [hx]
    · unfold pyListGet
      rw [if_neg (by omega), if_pos (by rw [hl]; omega), hl]
      have : ((k : Int) - 8 + ((8 : Nat) : Int)).toNat = k := by omega
      rw [this, hx]
  · intro h
    unfold pyListGet
    rcases h with h | h
    · rw [if_neg (by omega), if_neg (by rw [hl]; omega)]
    · rw [if_pos (by omega)]
      have : l[ch.toNat]? = none := by
        rw [List.getElem?_eq_none_iff]; omega
      rw [this]

/-- C69. Channels are numbered 0-7, and, as in Python lists, also from the end by -8 to -1; any
other number raises IndexError. -/
theorem c69_channels (h : List Event) (hb : ByteHistory h) (ch : Int) :
    (∀ k : Nat, k < 8 → ch = k ∨ ch = (k : Int) - 8 →
      (run h).keyPressesAt ch = .ok (Spec.keyPresses h k) ∧
      (run h).channelConfigAt ch = .ok (Spec.channel h k)) ∧
    (ch < -8 ∨ 8 ≤ ch → (run h).keyPressesAt ch = .error .index ∧
      (run h).channelConfigAt ch = .error .index) := by
  have hk : (run h).keyPresses.length = 8 := by rw [(inv_run h hb).presses]; simp
  have hc : (run h).channelConfigs.length = 8 := by rw [(inv_run h hb).regs.chans]; simp
  refine ⟨fun k hk8 hch => ⟨?_, ?_⟩, fun hch => ⟨?_, ?_⟩⟩
  · refine (pyListGet_eight _ hk ch).1 k hk8 hch _ ?_
    rw [(inv_run h hb).presses]
    simp [hk8]
  · refine (pyListGet_eight _ hc ch).1 k hk8 hch _ ?_
    rw [(inv_run h hb).regs.chans]
    simp [hk8]
  · exact (pyListGet_eight _ hk ch).2 hch
  · exact (pyListGet_eight _ hc ch).2 hch

/-! ### Concrete cases -/

/-- Some names every object has. -/
def someObject : Str → Bool := fun n => n = "__class__".toList || n = "__dict__".toList

example : ObjectNames someObject := by
  refine ⟨?_, by decide, by decide⟩
  intro n hn
  simp only [someObject, Bool.or_eq_true, decide_eq_true_eq] at hn
  rcases hn with rfl | rfl <;> rfl

example : stateAttr someObject 2 (run [.write 0x18 0xC8]).dict "lfo".toList = .ok (.int 200) := by
  decide +kernel
example : stateAttr someObject 2 (run [.write 0x0F 0x80]).dict "noise".toList = .error .attribute := by
  decide +kernel
example : (run sample).configs[1]? ≠ none := by decide +kernel

end VgmX
