import Verif.Model.Damaged
import Verif.Props.Header
import Verif.Props.Process
/-
Reading with failures: without failure as before, with a failure at the end as reading any
continuation, until the failure is hit.
-/

namespace VgmX
open Spec

/-- The file without failures. -/
def Stream.sound (s : Stream) : FStream := ⟨s.data, s.pos, none⟩

/-! ### By kind of command -/

/-- As `exec`. -/
def fexec (cmdId : Nat) (f : FStream) : Kind → Except PyErr Cmd × FStream
  | .nop => (.ok (.plain cmdId none), f)
  | .fixed n => fplain cmdId f n
  | .ym =>
    match freadLe 1 f with
    | (.error e, f1) => (.error e, f1)
    | (.ok reg, f1) =>
      match freadLe 1 f1 with
      | (.error e, f2) => (.error e, f2)
      | (.ok value, f2) => (.ok (.ym2151 cmdId reg value), f2)
  | .wait16 =>
    match freadLe 2 f with
    | (.error e, f1) => (.error e, f1)
    | (.ok n, f1) => (.ok (mkWait cmdId (some n)), f1)
  | .waitc n => (.ok (mkWait cmdId n), f)
  | .eos => (.ok (.eos cmdId), f)
  | .block =>
    match f.read 6 with
    | (.error e, f1) => (.error e, f1)
    | (.ok buffer, f1) =>
      if buffer.length ≠ 6 then (.error .struct, f1)
      else fplain cmdId f1 (leNat (buffer.drop 2))
  | .ram =>
    match f.read 11 with
    | (.error e, f1) => (.error e, f1)
    | (.ok buffer, f1) =>
      if buffer.length ≠ 11 then (.error .struct, f1)
      else
        let ssB := leNat ((buffer.drop 8).take 1)
        let ssH := leNat ((buffer.drop 9).take 2)
        fplain cmdId f1 (ssH * 256 + ssB)

theorem fcommand_eq_fexec (op : Nat) (s : FStream) : fcommand op s = fexec op s (classify op) := by
  unfold classify
  simp only [apply_ite (fexec op s)]
  rfl

/-! ### Without failure -/

theorem fread_sound (s : Stream) (n : Nat) :
    s.sound.read n = (.ok (s.read n).1, (s.read n).2.sound) := rfl

theorem freadLe_sound (k : Nat) (s : Stream) :
    freadLe k s.sound =
      (if (s.read k).1.length ≠ k then .error .eof else .ok (leNat (s.read k).1),
        (s.read k).2.sound) := by
  unfold freadLe
  rw [fread_sound]
  simp only
  split <;> rfl

theorem read32_sound (s : Stream) : freadLe 4 s.sound = ((read32 s).1, (read32 s).2.sound) := by
  rw [freadLe_sound]
  unfold read32
  simp only
  split <;> rfl

theorem read16_sound (s : Stream) : freadLe 2 s.sound = ((read16 s).1, (read16 s).2.sound) := by
  rw [freadLe_sound]
  unfold read16
  simp only
  split <;> rfl

theorem read8_sound (s : Stream) : freadLe 1 s.sound = ((read8 s).1, (read8 s).2.sound) := by
  rw [freadLe_sound]
  unfold read8
  simp only
  split <;> rfl

theorem readBcd_sound (s : Stream) : freadBcd s.sound = ((readBcd s).1, (readBcd s).2.sound) := by
  unfold freadBcd readBcd
  rw [fread_sound]
  simp only
  split <;> rfl

theorem fplain_sound (op : Nat) (s : Stream) (n : Nat) :
    fplain op s.sound n = ((plainRead op s n).1, (plainRead op s n).2.sound) := rfl

theorem fexec_sound (op : Nat) (s : Stream) (k : Kind) :
    fexec op s.sound k = ((exec op s k).1, (exec op s k).2.sound) := by
  cases k with
  | nop => rfl
  | fixed n => rfl
  | waitc n => rfl
  | eos => rfl
  | ym =>
    simp only [fexec, exec]
    rw [read8_sound]
    rcases h : read8 s with ⟨r, s1⟩
    cases r with
    | error e => rfl
    | ok a =>
      simp only
      rw [read8_sound]
      rcases h2 : read8 s1 with ⟨r, s2⟩
      cases r <;> rfl
  | wait16 =>
    simp only [fexec, exec]
    rw [read16_sound]
    rcases h : read16 s with ⟨r, s1⟩
    cases r <;> rfl
  | block =>
    simp only [fexec, exec]
    rw [fread_sound]
    simp only
    split
    · rfl
    · rw [fplain_sound]
  | ram =>
    simp only [fexec, exec]
    rw [fread_sound]
    simp only
    split
    · rfl
    · rw [fplain_sound]

theorem fnext_sound (s : Stream) : fnext s.sound = ((next s).1, (next s).2.sound) := by
  unfold fnext next
  rw [fread_sound]
  rcases h : s.read 1 with ⟨b, s1⟩
  cases b with
  | nil => rfl
  | cons a t =>
    simp only
    rw [fcommand_eq_fexec, command_eq_exec, fexec_sound]

theorem fruns_sound_of_runs {s : Stream} {cs : List Cmd} {o : Outcome} (h : Runs s cs o) :
    FRuns s.sound cs o := by
  induction h with
  | stop hx => exact .stop (by rw [fnext_sound, hx])
  | raise hx => exact .raise (by rw [fnext_sound, hx])
  | yield hx _ ih => exact .yield (by rw [fnext_sound, hx]) ih

theorem fprocessStream_sound (fuel : Nat) (f : Stream) (s : State) :
    fprocessStream fuel f.sound s = processStream fuel f s := by
  induction fuel generalizing f s with
  | zero => rfl
  | succ n ih =>
    simp only [fprocessStream, processStream]
    rw [fnext_sound]
    rcases h : next f with ⟨r, f'⟩
    match r with
    | none => rfl
    | some (.error e) => rfl
    | some (.ok c) =>
      simp only
      cases s.process1 c with
      | error e => rfl
      | ok s' => exact ih f' s'

theorem fprocess_sound (f : Stream) : fprocessVgm f.sound = processVgm f := by
  unfold fprocessVgm processVgm
  rw [fprocessStream_sound]
  rfl

/-- The reader object without failures. -/
def Vgm.sound (v : Vgm) : FVgm := ⟨v.stream.sound, v.eofOffset, v.version, v.dataStart⟩

theorem init_sound (k : Clocks) (f : Stream) :
    FVgm.init k f.sound = ((Vgm.init k f).1.map Vgm.sound, (Vgm.init k f).2) := by
  unfold FVgm.init Vgm.init
  rw [read32_sound]
  rcases read32 f with ⟨r, f⟩
  cases r with
  | error e => rfl
  | ok a =>
  simp only
  rw [readBcd_sound]
  rcases readBcd f with ⟨r, f⟩
  cases r with
  | error e => rfl
  | ok version =>
  simp only
  rw [read32_sound]
  rcases read32 f with ⟨r, f⟩
  cases r with
  | error e => rfl
  | ok b =>
  simp only
  rw [read32_sound]
  rcases read32 f with ⟨r, f⟩
  cases r with
  | error e => rfl
  | ok c =>
  have hs : ∀ (f : Stream) (p : Nat), f.sound.seek p = .ok (f.seek p).sound := fun _ _ => rfl
  simp only [hs]
  rw [read32_sound]
  rcases read32 (f.seek 0x30) with ⟨r, f⟩
  cases r with
  | error e => rfl
  | ok y =>
  simp only
  by_cases hv : 150 ≤ version
  · rw [if_pos hv, if_pos hv, read32_sound]
    rcases read32 f with ⟨r, f⟩
    cases r with
    | error e => rfl
    | ok z =>
      simp only [hs]
      rfl
  · rw [if_neg hv, if_neg hv]
    rfl

/-- If there is no damage, or the file is not compressed, `reader` is the one of Model/Reader. -/
theorem freader_sound (inflate : Bytes → Bytes × Option PyErr) (k : Clocks) (c : Bytes)
    (h : c.take 2 = gzipMagic → (inflate c).2 = none) :
    freader inflate k c =
      ((reader (eager inflate) k c).1.map (Option.map Vgm.sound), (reader (eager inflate) k c).2) := by
  unfold freader reader
  have h0 : (FStream.mk c 0 none) = (Stream.mk c 0).sound := rfl
  rw [h0, fread_sound]
  have hfin : ∀ (header : Bytes) (f : Stream),
      (if header ≠ [0x56, 0x67, 0x6d, 0x20] then ((.ok none, k) : Except PyErr (Option FVgm) × Clocks)
        else
          match FVgm.init k f.sound with
          | (.error e, c) => (.error e, c)
          | (.ok v, c) => (.ok (some v), c))
      = ((if header ≠ [0x56, 0x67, 0x6d, 0x20] then ((.ok none, k) : Except PyErr (Option Vgm) × Clocks)
          else
            match Vgm.init k f with
            | (.error e, c) => (.error e, c)
            | (.ok v, c) => (.ok (some v), c)).1.map (Option.map Vgm.sound),
        (if header ≠ [0x56, 0x67, 0x6d, 0x20] then ((.ok none, k) : Except PyErr (Option Vgm) × Clocks)
          else
            match Vgm.init k f with
            | (.error e, c) => (.error e, c)
            | (.ok v, c) => (.ok (some v), c)).2) := by
    intro header f
    split
    · rfl
    · rw [init_sound]
      rcases Vgm.init k f with ⟨r, k'⟩
      cases r <;> rfl
  simp only
  split
  · rename_i hz
    have hz' : c.take 2 = gzipMagic := by
      have : (c.take 4).take 2 = c.take 2 := by rw [List.take_take]; rfl
      rw [← this]; exact hz
    have hn := h hz'
    rcases hi : inflate c with ⟨plain, o⟩
    rw [hi] at hn
    simp only at hn
    subst hn
    have he : eager inflate c = .ok plain := by unfold eager; rw [hi]
    rw [he]
    simp only
    have h1 : (FStream.mk plain 0 none) = (Stream.mk plain 0).sound := rfl
    rw [h1, fread_sound]
    simp only
    exact hfin _ _
  · exact hfin _ _

/-! ### With a failure -/

theorem fread_damaged (d : Bytes) (p : Nat) (e : PyErr) (n : Nat) :
    (((d.drop p).take n).length = n ∧ (p ≤ d.length → p + n ≤ d.length) ∧
      (FStream.mk d p (some e)).read n = (.ok ((d.drop p).take n), ⟨d, p + n, some e⟩) ∧
      ∀ x, (Stream.mk (d ++ x) p).read n = ((d.drop p).take n, ⟨d ++ x, p + n⟩)) ∨
    ((FStream.mk d p (some e)).read n = (.error e, ⟨d, p, some e⟩) ∧
      ∀ x, x ≠ [] → d.length < ((Stream.mk (d ++ x) p).read n).2.pos) := by
  by_cases h : n = 0 ∨ p + n ≤ d.length
  · left
    have hl : ((d.drop p).take n).length = n := by
      rw [List.length_take, List.length_drop]; omega
    refine ⟨hl, by omega, ?_, ?_⟩
    · unfold FStream.read
      simp only [if_pos h, hl]
    · intro x
      have : ((d ++ x).drop p).take n = (d.drop p).take n := by
        rcases h with h | h
        · subst h; simp
        · rw [List.drop_append_of_le_length (by omega),
            List.take_append_of_le_length (by rw [List.length_drop]; omega)]
      unfold Stream.read
      simp only [this, hl]
  · right
    refine ⟨?_, ?_⟩
    · unfold FStream.read
      simp only [if_neg h]
    · intro x hx
      have : 0 < x.length := List.length_pos_iff.mpr hx
      rw [read_pos, Stream.rest]
      simp only [List.length_drop, List.length_append]
      omega

/-- `r` is the result on what can be read, `g x` that on a continuation `x`. -/
def Tr {α : Type} (d : Bytes) (p : Nat) (e : PyErr) (r : Except PyErr α × FStream)
    (g : Bytes → Except PyErr α × Stream) : Prop :=
  (∃ a p', r = (.ok a, ⟨d, p', some e⟩) ∧ p ≤ p' ∧ (p ≤ d.length → p' ≤ d.length) ∧
    ∀ x, g x = (.ok a, ⟨d ++ x, p'⟩)) ∨
  (r.1 = .error e ∧ ∀ x, x ≠ [] → ∀ a s, g x = (.ok a, s) → d.length < s.pos)

theorem tr_plain (op : Nat) (d : Bytes) (p : Nat) (e : PyErr) (n : Nat) :
    Tr d p e (fplain op ⟨d, p, some e⟩ n) (fun x => plainRead op ⟨d ++ x, p⟩ n) := by
  rcases fread_damaged d p e n with ⟨hl, hb, h1, h2⟩ | ⟨h1, h2⟩
  · left
    refine ⟨.plain op (some ((d.drop p).take n)), p + n, ?_, by omega, hb, ?_⟩
    · unfold fplain; rw [h1]
    · intro x; simp only; unfold plainRead; rw [h2]
  · right
    refine ⟨?_, ?_⟩
    · unfold fplain; rw [h1]
    · intro x hx a s hs
      have := h2 x hx
      unfold plainRead at hs
      simp only [Prod.mk.injEq] at hs
      rw [← hs.2]; exact this

theorem tr_le (k : Nat) (d : Bytes) (p : Nat) (e : PyErr) :
    Tr d p e (freadLe k ⟨d, p, some e⟩) (fun x =>
      (if ((Stream.mk (d ++ x) p).read k).1.length ≠ k then .error .eof
        else .ok (leNat ((Stream.mk (d ++ x) p).read k).1), ((Stream.mk (d ++ x) p).read k).2)) := by
  rcases fread_damaged d p e k with ⟨hl, hb, h1, h2⟩ | ⟨h1, h2⟩
  · left
    refine ⟨leNat ((d.drop p).take k), p + k, ?_, by omega, hb, ?_⟩
    · unfold freadLe; rw [h1]; simp only [hl]; simp
    · intro x; simp only [h2, hl]; simp
  · right
    refine ⟨?_, ?_⟩
    · unfold freadLe; rw [h1]
    · intro x hx a s hs
      simp only [Prod.mk.injEq] at hs
      rw [← hs.2]; exact h2 x hx

theorem read32_form (s : Stream) : read32 s =
    (if (s.read 4).1.length ≠ 4 then .error .eof else .ok (leNat (s.read 4).1), (s.read 4).2) := by
  unfold read32; simp only; split <;> rfl

theorem read16_form (s : Stream) : read16 s =
    (if (s.read 2).1.length ≠ 2 then .error .eof else .ok (leNat (s.read 2).1), (s.read 2).2) := by
  unfold read16; simp only; split <;> rfl

theorem read8_form (s : Stream) : read8 s =
    (if (s.read 1).1.length ≠ 1 then .error .eof else .ok (leNat (s.read 1).1), (s.read 1).2) := by
  unfold read8; simp only; split <;> rfl

theorem read8_pos (s : Stream) : s.pos ≤ (read8 s).2.pos := by
  rw [read8_form]; simp only; rw [read_pos]; omega

theorem plain_pos (op : Nat) (s : Stream) (n : Nat) : s.pos ≤ (plainRead op s n).2.pos := by
  show s.pos ≤ (s.read n).2.pos
  rw [read_pos]; omega

theorem tr_exec (op : Nat) (d : Bytes) (p : Nat) (e : PyErr) (k : Kind) :
    Tr d p e (fexec op ⟨d, p, some e⟩ k) (fun x => exec op ⟨d ++ x, p⟩ k) := by
  cases k with
  | nop => exact .inl ⟨_, p, rfl, Nat.le_refl _, fun h => h, fun _ => rfl⟩
  | waitc n => exact .inl ⟨_, p, rfl, Nat.le_refl _, fun h => h, fun _ => rfl⟩
  | eos => exact .inl ⟨_, p, rfl, Nat.le_refl _, fun h => h, fun _ => rfl⟩
  | fixed n => exact tr_plain op d p e n
  | wait16 =>
    have h := tr_le 2 d p e
    simp only [← read16_form] at h
    rcases h with ⟨a, p', h1, h2, h3, h4⟩ | ⟨h1, h2⟩
    · simp only at h4
      left
      refine ⟨mkWait op (some a), p', ?_, h2, h3, ?_⟩
      · simp only [fexec]; rw [h1]
      · intro x; simp only [exec]; rw [h4]
    · right
      refine ⟨?_, ?_⟩
      · simp only [fexec]
        rcases h : freadLe 2 ⟨d, p, some e⟩ with ⟨r, s⟩
        rw [h] at h1
        simp only at h1
        subst h1
        rfl
      · intro x hx a s hs
        simp only [exec] at hs
        rcases h : read16 ⟨d ++ x, p⟩ with ⟨r, s'⟩
        rw [h] at hs
        cases r with
        | error e => simp at hs
        | ok b =>
          simp only [Prod.mk.injEq] at hs
          rw [← hs.2]
          exact h2 x hx b s' h
  | ym =>
    have h := tr_le 1 d p e
    simp only [← read8_form] at h
    rcases h with ⟨a, p', h1, h2, h3, h4⟩ | ⟨h1, h2⟩
    · simp only at h4
      have g := tr_le 1 d p' e
      simp only [← read8_form] at g
      rcases g with ⟨b, p'', g1, g2, g3, g4⟩ | ⟨g1, g2⟩
      · simp only at g4
        left
        refine ⟨.ym2151 op a b, p'', ?_, by omega, fun h => g3 (h3 h), ?_⟩
        · simp only [fexec]; rw [h1]; simp only; rw [g1]
        · intro x; simp only [exec]; rw [h4]; simp only; rw [g4]
      · right
        refine ⟨?_, ?_⟩
        · simp only [fexec]
          rw [h1]
          simp only
          rcases h : freadLe 1 ⟨d, p', some e⟩ with ⟨r, s⟩
          rw [h] at g1
          simp only at g1
          subst g1
          rfl
        · intro x hx a s hs
          simp only [exec] at hs
          rw [h4] at hs
          simp only at hs
          rcases h : read8 ⟨d ++ x, p'⟩ with ⟨r, s'⟩
          rw [h] at hs
          cases r with
          | error e => simp at hs
          | ok b =>
            simp only [Prod.mk.injEq] at hs
            rw [← hs.2]
            exact g2 x hx b s' h
    · right
      refine ⟨?_, ?_⟩
      · simp only [fexec]
        rcases h : freadLe 1 ⟨d, p, some e⟩ with ⟨r, s⟩
        rw [h] at h1
        simp only at h1
        subst h1
        rfl
      · intro x hx a s hs
        simp only [exec] at hs
        rcases h : read8 ⟨d ++ x, p⟩ with ⟨r, s'⟩
        rw [h] at hs
        cases r with
        | error e => simp at hs
        | ok b =>
          simp only at hs
          have hlt := h2 x hx b s' h
          have hm := read8_pos s'
          rcases h' : read8 s' with ⟨r, s''⟩
          rw [h'] at hs hm
          cases r with
          | error e => simp at hs
          | ok b =>
            simp only [Prod.mk.injEq] at hs
            rw [← hs.2]
            simp only at hm
            omega
  | block =>
    rcases fread_damaged d p e 6 with ⟨hl, hb, h1, h2⟩ | ⟨h1, h2⟩
    · have g := tr_plain op d (p + 6) e (leNat (((d.drop p).take 6).drop 2))
      have e1 : fexec op ⟨d, p, some e⟩ .block
          = fplain op ⟨d, p + 6, some e⟩ (leNat (((d.drop p).take 6).drop 2)) := by
        simp only [fexec]; rw [h1]; simp only; rw [if_neg (by rw [hl]; simp)]
      have e2 : ∀ x, exec op ⟨d ++ x, p⟩ .block
          = plainRead op ⟨d ++ x, p + 6⟩ (leNat (((d.drop p).take 6).drop 2)) := by
        intro x
        simp only [exec]; rw [h2]; simp only; rw [if_neg (by rw [hl]; simp)]
      simp only [e1, e2]
      rcases g with ⟨a, p', g1, g2, g3, g4⟩ | g
      · exact .inl ⟨a, p', g1, by omega, fun h => g3 (hb h), g4⟩
      · exact .inr g
    · right
      refine ⟨?_, ?_⟩
      · simp only [fexec]; rw [h1]
      · intro x hx a s hs
        have hlt := h2 x hx
        simp only [exec] at hs
        split at hs
        · simp at hs
        · have := plain_pos op ((Stream.mk (d ++ x) p).read 6).2
            (leNat (((Stream.mk (d ++ x) p).read 6).1.drop 2))
          rw [hs] at this
          simp only at this
          omega
  | ram =>
    rcases fread_damaged d p e 11 with ⟨hl, hb, h1, h2⟩ | ⟨h1, h2⟩
    · have g := tr_plain op d (p + 11) e (leNat ((((d.drop p).take 11).drop 9).take 2) * 256 +
        leNat ((((d.drop p).take 11).drop 8).take 1))
      have e1 : fexec op ⟨d, p, some e⟩ .ram
          = fplain op ⟨d, p + 11, some e⟩ (leNat ((((d.drop p).take 11).drop 9).take 2) * 256 +
        leNat ((((d.drop p).take 11).drop 8).take 1)) := by
        simp only [fexec]; rw [h1]; simp only; rw [if_neg (by rw [hl]; simp)]
      have e2 : ∀ x, exec op ⟨d ++ x, p⟩ .ram
          = plainRead op ⟨d ++ x, p + 11⟩ (leNat ((((d.drop p).take 11).drop 9).take 2) * 256 +
        leNat ((((d.drop p).take 11).drop 8).take 1)) := by
        intro x
        simp only [exec]; rw [h2]; simp only; rw [if_neg (by rw [hl]; simp)]
      simp only [e1, e2]
      rcases g with ⟨a, p', g1, g2, g3, g4⟩ | g
      · exact .inl ⟨a, p', g1, by omega, fun h => g3 (hb h), g4⟩
      · exact .inr g
    · right
      refine ⟨?_, ?_⟩
      · simp only [fexec]; rw [h1]
      · intro x hx a s hs
        have hlt := h2 x hx
        simp only [exec] at hs
        split at hs
        · simp at hs
        · have := plain_pos op ((Stream.mk (d ++ x) p).read 11).2
            (leNat ((((Stream.mk (d ++ x) p).read 11).1.drop 9).take 2) * 256 +
              leNat ((((Stream.mk (d ++ x) p).read 11).1.drop 8).take 1))
          rw [hs] at this
          simp only at this
          omega

/-- One step of the loop on a damaged file. -/
theorem fnext_damaged (d : Bytes) (p : Nat) (e : PyErr) :
    (∃ c p', fnext ⟨d, p, some e⟩ = (some (.ok c), ⟨d, p', some e⟩) ∧ p < p' ∧ p' ≤ d.length ∧
      ∀ x, next ⟨d ++ x, p⟩ = (some (.ok c), ⟨d ++ x, p'⟩)) ∨
    (∃ s', fnext ⟨d, p, some e⟩ = (some (.error e), s') ∧
      ∀ x, x ≠ [] → ∀ c s, next ⟨d ++ x, p⟩ = (some (.ok c), s) → d.length < s.pos) := by
  rcases fread_damaged d p e 1 with ⟨hl, hb, h1, h2⟩ | ⟨h1, h2⟩
  · have hp : p + 1 ≤ d.length := by
      rw [List.length_take, List.length_drop] at hl; omega
    rcases hx : (d.drop p).take 1 with _ | ⟨b, t⟩
    · rw [hx] at hl; simp at hl
    · rw [hx] at h1 h2
      rcases tr_exec b.toNat d (p + 1) e (classify b.toNat) with ⟨a, p', g1, g2, g3, g4⟩ | ⟨g1, g2⟩
      · simp only at g4
        left
        refine ⟨a, p', ?_, by omega, g3 hp, ?_⟩
        · unfold fnext
          rw [h1]
          simp only
          rw [fcommand_eq_fexec, g1]
        · intro x
          unfold next
          rw [h2]
          simp only
          rw [command_eq_exec, g4]
      · right
        refine ⟨(fexec b.toNat ⟨d, p + 1, some e⟩ (classify b.toNat)).2, ?_, ?_⟩
        · unfold fnext
          rw [h1]
          simp only
          rw [fcommand_eq_fexec, g1]
        · intro x hx c s hs
          unfold next at hs
          rw [h2] at hs
          simp only at hs
          rw [command_eq_exec] at hs
          simp only [Prod.mk.injEq, Option.some.injEq] at hs
          exact g2 x hx c s (Prod.ext hs.1 hs.2)
  · right
    refine ⟨⟨d, p, some e⟩, ?_, ?_⟩
    · unfold fnext
      rw [h1]
    · intro x hx c s hs
      have hlt := h2 x hx
      unfold next at hs
      rcases hr : (Stream.mk (d ++ x) p).read 1 with ⟨b, s1⟩
      rw [hr] at hs hlt
      cases b with
      | nil => simp at hs
      | cons b t =>
        simp only [Prod.mk.injEq, Option.some.injEq] at hs
        have := (exec_eq b.toNat s1 (classify b.toNat)).2.2.2
        rw [← command_eq_exec, hs.2] at this
        simp only at hlt
        omega

theorem fruns_unique {s : FStream} {cs cs' : List Cmd} {o o' : Outcome} (h : FRuns s cs o)
    (h' : FRuns s cs' o') : cs = cs' ∧ o = o' := by
  induction h generalizing cs' o' with
  | stop hx =>
    cases h' with
    | stop => exact ⟨rfl, rfl⟩
    | raise hy => rw [hx] at hy; simp at hy
    | yield hy _ => rw [hx] at hy; simp at hy
  | raise hx =>
    cases h' with
    | stop hy => rw [hx] at hy; simp at hy
    | raise hy =>
      rw [hx] at hy
      simp only [Prod.mk.injEq, Option.some.injEq, Except.error.injEq] at hy
      exact ⟨rfl, by rw [hy.1]⟩
    | yield hy _ => rw [hx] at hy; simp at hy
  | yield hx _ ih =>
    cases h' with
    | stop hy => rw [hx] at hy; simp at hy
    | raise hy => rw [hx] at hy; simp at hy
    | yield hy hr =>
      rw [hx] at hy
      simp only [Prod.mk.injEq, Option.some.injEq, Except.ok.injEq] at hy
      obtain ⟨rfl, rfl⟩ := hy
      obtain ⟨e1, e2⟩ := ih hr
      exact ⟨by rw [e1], e2⟩

/-- The whole loop on a damaged file. -/
theorem fruns_damaged (d : Bytes) (e : PyErr) (m : Nat) : ∀ p, d.length - p ≤ m →
    ∃ cs p', FRuns ⟨d, p, some e⟩ cs (.raised e) ∧ (∀ x, Yields ⟨d ++ x, p⟩ cs ⟨d ++ x, p'⟩) ∧
      (p' = p ∨ p' ≤ d.length) ∧ p ≤ p' ∧
      ∀ x, x ≠ [] → ∀ c s, next ⟨d ++ x, p'⟩ = (some (.ok c), s) → d.length < s.pos := by
  induction m with
  | zero =>
    intro p hp
    rcases fnext_damaged d p e with ⟨c, p', h1, h2, h3, h4⟩ | ⟨s', h1, h2⟩
    · omega
    · exact ⟨[], p, .raise h1, fun _ => .nil, .inl rfl, Nat.le_refl _, h2⟩
  | succ m ih =>
    intro p hp
    rcases fnext_damaged d p e with ⟨c, p', h1, h2, h3, h4⟩ | ⟨s', h1, h2⟩
    · obtain ⟨cs, p'', g1, g2, g3, g4, g5⟩ := ih p' (by omega)
      refine ⟨c :: cs, p'', .yield h1 g1, fun x => .cons (h4 x) (g2 x), .inr ?_, by omega, g5⟩
      rcases g3 with rfl | g3 <;> omega
    · exact ⟨[], p, .raise h1, fun _ => .nil, .inl rfl, Nat.le_refl _, h2⟩

theorem fprocess_damaged_aux (d : Bytes) (e : PyErr) (fuel : Nat) : ∀ p s, d.length - p < fuel →
    fprocessStream fuel ⟨d, p, some e⟩ s = some (.error e) := by
  induction fuel with
  | zero => intro p s h; omega
  | succ n ih =>
    intro p s h
    simp only [fprocessStream]
    rcases fnext_damaged d p e with ⟨c, p', h1, h2, h3, h4⟩ | ⟨s', h1, h2⟩
    · rw [h1]
      simp only
      have hc : ∃ s', s.process1 c = .ok s' := by
        cases c with
        | plain i p => exact ⟨_, rfl⟩
        | eos i => exact ⟨_, rfl⟩
        | ym2151 i r v => exact ⟨_, rfl⟩
        | wait i m =>
          cases m with
          | none => exact absurd (h4 []) next_no_none
          | some m => exact ⟨_, rfl⟩
      obtain ⟨s', hs'⟩ := hc
      rw [hs']
      exact ih p' s' (by omega)
    · rw [h1]

theorem fprocess_damaged (d : Bytes) (p : Nat) (e : PyErr) :
    fprocessVgm ⟨d, p, some e⟩ = .error e := by
  unfold fprocessVgm
  rw [fprocess_damaged_aux d e _ p _ (by simp)]
  rfl

/-! ### Opening a damaged file -/

theorem freadLe_at (d : Bytes) (p : Nat) (e : PyErr) (h : p + 4 ≤ d.length) :
    freadLe 4 ⟨d, p, some e⟩ = (.ok (word d p), ⟨d, p + 4, some e⟩) := by
  have hl : ((d.drop p).take 4).length = 4 := by rw [List.length_take, List.length_drop]; omega
  have hr : (FStream.mk d p (some e)).read 4 = (.ok ((d.drop p).take 4), ⟨d, p + 4, some e⟩) := by
    unfold FStream.read
    simp only [if_pos (Or.inr h), hl]
  unfold freadLe
  rw [hr]
  simp only [hl]
  simp only [word, leValue_eq]
  rfl

theorem freadLe_over (d : Bytes) (p : Nat) (e : PyErr) (h : d.length < p + 4) :
    freadLe 4 ⟨d, p, some e⟩ = (.error e, ⟨d, p, some e⟩) := by
  have hr : (FStream.mk d p (some e)).read 4 = (.error e, ⟨d, p, some e⟩) := by
    unfold FStream.read
    simp only [if_neg (show ¬ (4 = 0 ∨ p + 4 ≤ d.length) by omega)]
  unfold freadLe
  rw [hr]

theorem freadBcd_at (d : Bytes) (e : PyErr) (h : 12 ≤ d.length) :
    freadBcd ⟨d, 8, some e⟩ = (.ok (version d), ⟨d, 12, some e⟩) := by
  have hl : ((d.drop 8).take 4).length = 4 := by rw [List.length_take, List.length_drop]; omega
  have hr : (FStream.mk d 8 (some e)).read 4 = (.ok ((d.drop 8).take 4), ⟨d, 12, some e⟩) := by
    unfold FStream.read
    simp only [if_pos (Or.inr (show 8 + 4 ≤ d.length by omega)), hl]
  unfold freadBcd
  rw [hr]
  simp only [hl]
  rw [bcdValue_four d h]
  rfl

theorem freadBcd_over (d : Bytes) (e : PyErr) (h : d.length < 12) :
    freadBcd ⟨d, 8, some e⟩ = (.error e, ⟨d, 8, some e⟩) := by
  have hr : (FStream.mk d 8 (some e)).read 4 = (.error e, ⟨d, 8, some e⟩) := by
    unfold FStream.read
    simp only [if_neg (show ¬ (4 = 0 ∨ 8 + 4 ≤ d.length) by omega)]
  unfold freadBcd
  rw [hr]

/-- How much of the file opening it needs. -/
def needed (d : Bytes) : Nat := max (headerLen d) (dataStart d)

theorem finit_damaged (k : Clocks) (d : Bytes) (e : PyErr) :
    ∃ k', FVgm.init k ⟨d, 4, some e⟩ =
      (if needed d ≤ d.length then
          .ok ⟨⟨d, dataStart d, some e⟩, word d 4, version d, dataStart d⟩
        else .error e, k') := by
  unfold FVgm.init
  have h34 : 0x34 ≤ headerLen d := by unfold headerLen; split <;> omega
  by_cases h8 : d.length < 8
  · rw [freadLe_over d 4 e (by omega), if_neg (by unfold needed; omega)]
    exact ⟨_, rfl⟩
  rw [freadLe_at d 4 e (by omega)]
  simp only
  by_cases h12 : d.length < 12
  · rw [freadBcd_over d e h12, if_neg (by unfold needed; omega)]
    exact ⟨_, rfl⟩
  rw [freadBcd_at d e (by omega)]
  simp only
  by_cases h16 : d.length < 16
  · rw [freadLe_over d 12 e (by omega), if_neg (by unfold needed; omega)]
    exact ⟨_, rfl⟩
  rw [freadLe_at d 12 e (by omega)]
  simp only
  by_cases h20 : d.length < 20
  · rw [freadLe_over d 16 e (by omega), if_neg (by unfold needed; omega)]
    exact ⟨_, rfl⟩
  rw [freadLe_at d 16 e (by omega)]
  simp only [FStream.seek]
  by_cases h30 : d.length < 0x30
  · rw [if_neg (by omega), if_neg (by unfold needed; omega)]
    exact ⟨_, rfl⟩
  rw [if_pos (by omega)]
  simp only
  by_cases h34' : d.length < 0x34
  · rw [freadLe_over d 0x30 e (by omega), if_neg (by unfold needed; omega)]
    exact ⟨_, rfl⟩
  rw [freadLe_at d 0x30 e (by omega)]
  simp only
  generalize (if version d < 110 then ((k.set "ym2413" (word d 16)).set "ym2151" (word d 48)).set
    "ym2151" (word d 16) else (k.set "ym2413" (word d 16)).set "ym2151" (word d 48)) = K
  by_cases hv : 150 ≤ version d
  · rw [if_pos hv]
    have hh : headerLen d = 0x38 := by unfold headerLen; rw [if_pos hv]
    have hd : dataStart d = 0x34 + word d 0x34 := by unfold dataStart; rw [if_pos hv]
    by_cases h38 : d.length < 0x38
    · rw [freadLe_over d 0x34 e (by omega), if_neg (by unfold needed; omega)]
      exact ⟨_, rfl⟩
    rw [freadLe_at d 0x34 e (by omega)]
    simp only
    by_cases hs : 0x34 + word d 0x34 ≤ d.length
    · rw [if_pos hs, if_pos (by unfold needed; omega)]
      simp only [hd]
      exact ⟨_, rfl⟩
    · rw [if_neg hs, if_neg (by unfold needed; omega)]
      exact ⟨_, rfl⟩
  · rw [if_neg hv]
    have hh : headerLen d = 0x34 := by unfold headerLen; rw [if_neg hv]
    have hd : dataStart d = 0x40 := by unfold dataStart; rw [if_neg hv]
    by_cases hs : 0x40 ≤ d.length
    · rw [if_pos hs, if_pos (by unfold needed; omega)]
      simp only [hd]
      exact ⟨_, rfl⟩
    · rw [if_neg hs, if_neg (by unfold needed; omega)]
      exact ⟨_, rfl⟩

theorem freader_damaged (inflate : Bytes → Bytes × Option PyErr) (k : Clocks) (c d : Bytes)
    (e : PyErr) (hz : c.take 2 = gzipMagic) (hi : inflate c = (d, some e)) :
    ∃ k', freader inflate k c =
      (if d.length < 4 then .error e
        else if d.take 4 ≠ vgmMagic then .ok none
        else if needed d ≤ d.length then
          .ok (some ⟨⟨d, dataStart d, some e⟩, word d 4, version d, dataStart d⟩)
        else .error e, k') := by
  have h4 : (FStream.mk c 0 none).read 4 = (.ok (c.take 4), ⟨c, (c.take 4).length, none⟩) := by
    simp [FStream.read]
  have hz' : (c.take 4).take 2 = [0x1f, 0x8b] := by
    rw [List.take_take]; exact hz
  unfold freader
  simp only [h4]
  rw [if_pos hz', hi]
  simp only
  by_cases hl : d.length < 4
  · rw [if_pos hl]
    have : (FStream.mk d 0 (some e)).read 4 = (.error e, ⟨d, 0, some e⟩) := by
      unfold FStream.read
      simp only [if_neg (show ¬ (4 = 0 ∨ 0 + 4 ≤ d.length) by omega)]
    rw [this]
    exact ⟨_, rfl⟩
  · rw [if_neg hl]
    have : (FStream.mk d 0 (some e)).read 4 = (.ok (d.take 4), ⟨d, 4, some e⟩) := by
      unfold FStream.read
      simp only [if_pos (Or.inr (show 0 + 4 ≤ d.length by omega)), List.drop_zero,
        List.length_take]
      rw [Nat.min_eq_left (by omega)]
    rw [this]
    simp only
    by_cases hm : d.take 4 = vgmMagic
    · rw [if_neg (fun h => h hm), if_neg (fun h => h hm)]
      obtain ⟨k', hk⟩ := finit_damaged k d e
      rw [hk]
      refine ⟨k', ?_⟩
      by_cases hn : needed d ≤ d.length
      · simp only [if_pos hn]
      · simp only [if_neg hn]
    · rw [if_pos (show d.take 4 ≠ [0x56, 0x67, 0x6d, 0x20] from hm), if_pos hm]
      exact ⟨_, rfl⟩

end VgmX
