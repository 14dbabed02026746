import Verif.Props.Header
/-
C06, the other chips: what `clock` and `supports` say about a chip the header decoder does not
read.
-/

namespace VgmX
open Spec

theorem init_other (clocks : Clocks) (f : Stream) (chip : String) (h1 : chip ≠ "ym2413")
    (h2 : chip ≠ "ym2151") : (Vgm.init clocks f).2 chip = clocks chip := by
  have hs : ∀ (k : Clocks) (c : String) (n : Nat), chip ≠ c → k.set c n chip = k chip := by
    intro k c n hc; simp [Clocks.set, hc]
  unfold Vgm.init
  repeat' split
  all_goals simp only [apply_ite (fun k : Clocks => k chip), hs _ _ _ h1, hs _ _ _ h2, ite_self]

theorem reader_other (gunzip : Bytes → Except PyErr Bytes) (clocks : Clocks) (c : Bytes)
    (chip : String) (h1 : chip ≠ "ym2413") (h2 : chip ≠ "ym2151") :
    (reader gunzip clocks c).2 chip = clocks chip := by
  have hf : ∀ (header : Bytes) (f : Stream),
      (if header ≠ [0x56, 0x67, 0x6d, 0x20] then ((.ok none, clocks) : Except PyErr (Option Vgm) × Clocks)
        else match Vgm.init clocks f with
          | (.error e, c) => (.error e, c)
          | (.ok v, c) => (.ok (some v), c)).2 chip = clocks chip := by
    intro header f
    have := init_other clocks f chip h1 h2
    split
    · rfl
    · split <;> (rename_i hx; rw [hx] at this; exact this)
  unfold reader
  simp only
  split
  · split
    · rfl
    · exact hf _ _
  · exact hf _ _

/-- C06. Whatever files a process has opened, successfully or not, `supports` is false and
`clock` raises `KeyError` for every chip other than the YM2413 and the YM2151. -/
theorem c06_other_chips (gunzip : Bytes → Except PyErr Bytes) (cs : List Bytes) (chip : String)
    (h1 : chip ≠ "ym2413") (h2 : chip ≠ "ym2151") :
    supports (openAll gunzip (fun _ => none) cs).2 chip = false ∧
    clock (openAll gunzip (fun _ => none) cs).2 chip = .error .key := by
  have key : ∀ (cs : List Bytes) (k : Clocks), (openAll gunzip k cs).2 chip = k chip := by
    intro cs
    induction cs with
    | nil => intro k; rfl
    | cons c cs ih =>
      intro k
      simp only [openAll]
      rw [ih, reader_other gunzip k c chip h1 h2]
  constructor
  · simp [supports, key]
  · simp [clock, key]

/-- C06. Before any file has been opened, no chip is supported; afterwards the YM2413 is
supported exactly if its clock in the header of the file is not zero. -/
theorem c06_supports (gunzip : Bytes → Except PyErr Bytes) (k : Clocks) (c : Bytes)
    (hm : c.take 4 = vgmMagic) (hlen : headerLen c ≤ c.length) :
    (∀ chip, supports (fun _ => none) chip = false ∧ clock (fun _ => none) chip = .error .key) ∧
    supports (reader gunzip k c).2 "ym2413" = decide (0 < word c 0x10) := by
  obtain ⟨v, k', h1, _, _, _, _, h2, _⟩ := c06_header gunzip k c hm hlen
  refine ⟨fun _ => ⟨rfl, rfl⟩, ?_⟩
  rw [h1]
  unfold clock at h2
  unfold supports
  cases hk : k' "ym2413" with
  | none => rw [hk] at h2; simp at h2
  | some n =>
    rw [hk] at h2
    simp only [Except.ok.injEq] at h2
    simp only [hk, h2, gt_iff_lt]

example : "ym2612" ≠ "ym2413" ∧ "ym2612" ≠ "ym2151" ∧ sampleHeader.take 4 = vgmMagic ∧
    headerLen sampleHeader ≤ sampleHeader.length := by decide +kernel

end VgmX
