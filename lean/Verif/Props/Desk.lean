import Verif.Model.Desk
import Verif.Props.Short
import Verif.Props.Calls
import Verif.Props.Header
/-
Property C98: one file object and the readers made from it.
Vocabulary: Spec/Vgm.lean.
-/

namespace VgmX
open Spec

/-! ### `next` of a reader is `next` of the file -/

theorem run_readLe {α : Type} (n : Nat) (err : PyErr → α) (k : Nat → Rd α) (s : Stream) :
    (readLeRd n err k).run s =
      if (s.read n).1.length ≠ n then (err .eof, (s.read n).2)
      else (k (leNat (s.read n).1)).run (s.read n).2 := by
  show Rd.run (if (s.read n).1.length ≠ n then .ret (err .eof) else k (leNat (s.read n).1))
    (s.read n).2 = _
  split <;> rfl

theorem run_readBcd {α : Type} (err : PyErr → α) (k : Nat → Rd α) (s : Stream) :
    (readBcdRd err k).run s =
      if (s.read 4).1.length ≠ 4 then (err .eof, (s.read 4).2)
      else (k (bcdValue (s.read 4).1)).run (s.read 4).2 := by
  show Rd.run (if (s.read 4).1.length ≠ 4 then .ret (err .eof) else k (bcdValue (s.read 4).1))
    (s.read 4).2 = _
  split <;> rfl

theorem run_exec (op : Nat) (k : Kind) (s : Stream) :
    (execRd op some k).run s = (some (exec op s k).1, (exec op s k).2) := by
  cases k with
  | nop => rfl
  | fixed n => rfl
  | waitc n => rfl
  | eos => rfl
  | ym =>
    unfold execRd
    rw [run_readLe]
    by_cases h : (s.read 1).1.length = 1
    · rw [if_neg (by simp [h]), run_readLe]
      by_cases h' : ((s.read 1).2.read 1).1.length = 1
      · rw [if_neg (by simp [h'])]
        simp [exec, read8, h, h', Rd.run]
      · rw [if_pos h']
        simp [exec, read8, h, h']
    · rw [if_pos h]
      simp [exec, read8, h]
  | wait16 =>
    unfold execRd
    rw [run_readLe]
    by_cases h : (s.read 2).1.length = 2
    · rw [if_neg (by simp [h])]
      simp [exec, read16, h, Rd.run]
    · rw [if_pos h]
      simp [exec, read16, h]
  | block =>
    show Rd.run (if (s.read 6).1.length ≠ 6 then .ret _ else _) (s.read 6).2 = _
    unfold exec
    dsimp only
    split <;> rfl
  | ram =>
    show Rd.run (if (s.read 11).1.length ≠ 11 then .ret _ else _) (s.read 11).2 = _
    unfold exec
    dsimp only
    split <;> rfl

theorem run_next (s : Stream) : nextRd.run s = next s := by
  unfold nextRd next
  simp only [Rd.run]
  rcases (s.read 1).1 with _ | ⟨b, t⟩
  · rfl
  · dsimp only
    rw [commandRd_eq, command_eq_exec, run_exec]

/-- C98. All readers of one file object share its position: whichever of them is asked, the next
call gives what comes next in the file. So calls on the readers in any order give together what
one reader would give. -/
theorem c98_shared (d : Desk) (asked : List Nat) (h : ∀ i ∈ asked, i < d.readers.length) :
    (d.calls (asked.map .next)).1 = (nextCalls asked.length d.file).map .command := by
  induction asked generalizing d with
  | nil => rfl
  | cons i is ih =>
    obtain ⟨f, hf⟩ : ∃ f, d.readers[i]? = some f :=
      ⟨_, List.getElem?_eq_getElem (h i (by simp))⟩
    have hc : d.call (.next i) = (.command (next d.file).1, { d with file := (next d.file).2 }) := by
      simp only [Desk.call, hf, run_next]
    simp only [List.map_cons, Desk.calls, hc, List.length_cons, nextCalls]
    rw [ih { d with file := (next d.file).2 } (fun j hj => h j (by simp [hj]))]

/-- C98. As long as there are commands, each goes to exactly one of the readers: the `n`-th call
gets the `n`-th command, whichever reader was asked. -/
theorem c98_each_once (d : Desk) (cs : List Cmd) (f' : Stream) (hy : Yields d.file cs f')
    (asked : List Nat) (h : ∀ i ∈ asked, i < d.readers.length) (hl : asked.length = cs.length) :
    (d.calls (asked.map .next)).1 = cs.map (fun c => .command (some (.ok c))) := by
  rw [c98_shared d asked h, hl]
  generalize d.file = s at hy
  clear h hl
  induction hy with
  | nil => rfl
  | cons h _ ih =>
    simp only [List.length_cons, nextCalls, h, List.map_cons, ih]

/-! ### Where `reader` looks -/

theorem read_at (c : Bytes) (p n : Nat) (h : p + n ≤ c.length) :
    (Stream.mk c p).read n = ((c.drop p).take n, ⟨c, p + n⟩) := by
  rw [read_full ⟨c, p⟩ n (by simp only; omega)]
  rfl

theorem read_at_short (c : Bytes) (p n : Nat) (h : c.length < p + n) (hn : 0 < n) :
    ((Stream.mk c p).read n).1.length ≠ n := by
  simp [Stream.read]; omega

/-- Where the commands are taken to start if `reader` is called at position `p`: the version is
that at `p`, the offset that of the beginning of the file. -/
def startFrom (c : Bytes) (p : Nat) : Nat :=
  if 150 ≤ version (c.drop p) then 0x34 + word c 0x34 else 0x40

theorem run_init (clocks : Clocks) (c : Bytes) (p : Nat) :
    let v := version (c.drop p)
    (p + 20 ≤ c.length ∧ (if 150 ≤ v then 0x38 else 0x34) ≤ c.length →
      (initRd clocks).run ⟨c, p + 4⟩ =
        ((.ok (.vgm (word c (p + 4)) v (startFrom c p)),
          (clocks.set "ym2413" (word c (p + 0x10))).set "ym2151"
            (if v < 110 then word c (p + 0x10) else word c 0x30)), ⟨c, startFrom c p⟩)) ∧
    (¬ (p + 20 ≤ c.length ∧ (if 150 ≤ v then 0x38 else 0x34) ≤ c.length) →
      ((initRd clocks).run ⟨c, p + 4⟩).1.1 = .error .eof) := by
  intro v
  have hword : ∀ o, leNat ((c.drop o).take 4) = word c o := fun o => by rw [word, leValue_eq]
  have hver : p + 12 ≤ c.length → bcdValue ((c.drop (p + 8)).take 4) = v := by
    intro h
    rw [← List.drop_drop]
    exact bcdValue_four (c.drop p) (by rw [List.length_drop]; omega)
  have hlen : ∀ o, o + 4 ≤ c.length → ¬ ((c.drop o).take 4).length ≠ 4 := by
    intro o h; simp; omega
  have ok : ∀ {α : Type} (err : PyErr → α) (k : Nat → Rd α) (o : Nat), o + 4 ≤ c.length →
      (readLeRd 4 err k).run ⟨c, o⟩ = (k (word c o)).run ⟨c, o + 4⟩ := by
    intro α err k o h
    rw [run_readLe, read_at c o 4 h, if_neg (hlen o h), hword]
  have bad : ∀ {α : Type} (err : PyErr → α) (k : Nat → Rd α) (o : Nat), c.length < o + 4 →
      ((readLeRd 4 err k).run ⟨c, o⟩).1 = err .eof := by
    intro α err k o h
    rw [run_readLe, if_pos (read_at_short c o 4 h (by omega))]
  unfold initRd
  by_cases h1 : p + 8 ≤ c.length
  · rw [ok _ _ _ h1, run_readBcd]
    by_cases h2 : p + 12 ≤ c.length
    · rw [read_at c (p + 4 + 4) 4 (by omega), if_neg (hlen _ (by omega)),
        show p + 4 + 4 = p + 8 from rfl, hver h2]
      by_cases h3 : p + 16 ≤ c.length
      · rw [ok _ _ _ (by omega : p + 8 + 4 + 4 ≤ c.length)]
        by_cases h4 : p + 20 ≤ c.length
        · rw [ok _ _ _ (by omega : p + 8 + 4 + 4 + 4 ≤ c.length)]
          simp only [Rd.run, Stream.seek]
          by_cases h5 : 0x34 ≤ c.length
          · rw [ok _ _ 0x30 (by omega)]
            have hclk : ∀ w w' : Nat, (if v < 110 then ((clocks.set "ym2413" w).set "ym2151" w').set
                "ym2151" w else (clocks.set "ym2413" w).set "ym2151" w') =
                (clocks.set "ym2413" w).set "ym2151" (if v < 110 then w else w') := by
              intro w w'
              split
              · rw [set_set]
              · rfl
            rw [hclk]
            have hst : startFrom c p = if 150 ≤ v then 0x34 + word c 0x34 else 0x40 := rfl
            rw [hst]
            by_cases h6 : 150 ≤ v
            · simp only [if_pos h6]
              by_cases h7 : 0x38 ≤ c.length
              · refine ⟨fun _ => ?_, fun hn => absurd ⟨h4, h7⟩ hn⟩
                rw [ok _ _ _ (by omega : 0x30 + 4 + 4 ≤ c.length)]
                rfl
              · refine ⟨fun hp => absurd hp.2 h7, fun _ => ?_⟩
                rw [bad _ _ _ (by omega : c.length < 0x30 + 4 + 4)]
            · simp only [if_neg h6]
              exact ⟨fun _ => rfl, fun hn => absurd ⟨h4, h5⟩ hn⟩
          · refine ⟨fun hp => ?_, fun _ => ?_⟩
            · have := hp.2; split at this <;> omega
            · rw [bad _ _ _ (by omega : c.length < 0x30 + 4)]
        · exact ⟨fun hp => absurd hp.1 h4, fun _ => by
            rw [bad _ _ _ (by omega : c.length < p + 8 + 4 + 4 + 4)]⟩
      · exact ⟨fun hp => absurd hp.1 (by omega), fun _ => by
          rw [bad _ _ _ (by omega : c.length < p + 8 + 4 + 4)]⟩
    · refine ⟨fun hp => absurd hp.1 (by omega), fun _ => ?_⟩
      rw [if_pos (read_at_short c (p + 4 + 4) 4 (by omega) (by omega))]
  · exact ⟨fun hp => absurd hp.1 (by omega), fun _ => by
      rw [bad _ _ _ (by omega : c.length < p + 4 + 4)]⟩

/-- C98. `reader` on a file at position `p` (not compressed) goes by the four bytes there. If they
are not the magic, it returns `None`. Otherwise size, version and the YM2413 clock are those of a
header at `p`, but the YM2151 clock (from version 1.10 on) and the place of the data (from version
1.50 on) are taken from the beginning of the file, and so is the position 0x40; it raises
`EOFError` exactly if one of these fields is not all there. Every reader of the file then
continues at that place. -/
theorem c98_position (d : Desk) (c : Bytes) (p : Nat) (hf : d.file = ⟨c, p⟩)
    (hz : (c.drop p).take 2 ≠ gzipMagic) :
    let v := version (c.drop p)
    let start := if 150 ≤ v then 0x34 + word c 0x34 else 0x40
    let complete := p + 20 ≤ c.length ∧ (if 150 ≤ v then 0x38 else 0x34) ≤ c.length
    let r := d.call .reader
    ((c.drop p).take 4 ≠ vgmMagic →
      r.1 = .opened (.ok .notVgm) ∧ r.2.readers = d.readers ∧ r.2.clocks = d.clocks) ∧
    ((c.drop p).take 4 = vgmMagic → complete →
      r.1 = .opened (.ok (.vgm (word c (p + 4)) v start)) ∧
      r.2.readers = d.readers ++ [⟨word c (p + 4), v, start⟩] ∧
      clock r.2.clocks "ym2413" = .ok (word c (p + 0x10)) ∧
      clock r.2.clocks "ym2151" = .ok (if v < 110 then word c (p + 0x10) else word c 0x30) ∧
      r.2.file = ⟨c, start⟩) ∧
    ((c.drop p).take 4 = vgmMagic → ¬ complete →
      r.1 = .opened (.error .eof) ∧ r.2.readers = d.readers) := by
  intro v start complete r
  have hread : ((Stream.mk c p).read 4).1 = (c.drop p).take 4 := rfl
  have hz' : ¬ ((c.drop p).take 4).take 2 = [0x1f, 0x8b] := by
    rw [List.take_take]; exact hz
  have hrun : (readerRd d.clocks).run d.file =
      Rd.run (if (c.drop p).take 4 ≠ vgmMagic then .ret (.ok .notVgm, d.clocks) else initRd d.clocks)
        ((Stream.mk c p).read 4).2 := by
    rw [hf]
    show Rd.run (if _ then _ else _) _ = _
    rw [hread, if_neg hz']
    rfl
  have hr : r = d.call .reader := rfl
  unfold Desk.call at hr
  rw [hrun] at hr
  refine ⟨fun hm => ?_, fun hm hc => ?_, fun hm hc => ?_⟩
  · rw [if_pos hm] at hr
    rw [hr]
    exact ⟨rfl, rfl, rfl⟩
  all_goals
    have hl : p + 4 ≤ c.length := by
      have := congrArg List.length hm
      simp [vgmMagic] at this
      omega
    rw [if_neg (by simp [hm]), read_at c p 4 hl] at hr
  · rw [(run_init d.clocks c p).1 hc] at hr
    rw [hr]
    refine ⟨rfl, rfl, ?_, ?_, rfl⟩
    · simp [clock, Clocks.set]
    · simp [clock, Clocks.set, v]
  · have := (run_init d.clocks c p).2 hc
    generalize hq : (initRd d.clocks).run ⟨c, p + 4⟩ = q at *
    obtain ⟨⟨q1, q2⟩, q3⟩ := q
    simp only at this
    subst this
    rw [hr]
    exact ⟨rfl, rfl⟩

/-- C98. Going back to the beginning and calling `reader` once more gives a reader with the same
fields, and puts every reader of the file at the first command. -/
theorem c98_again (d : Desk) (hm : d.file.data.take 4 = vgmMagic)
    (hl : headerLen d.file.data ≤ d.file.data.length) :
    let c := d.file.data
    let r := d.calls [.seek 0, .reader]
    r.1 = [.done, .opened (.ok (.vgm (word c 4) (version c) (dataStart c)))] ∧
    r.2.file = ⟨c, dataStart c⟩ ∧
    (∀ (i : Nat) (f : Fields), d.readers[i]? = some f → r.2.readers[i]? = some f) ∧
    ∀ asked : List Nat, (∀ i ∈ asked, i ≤ d.readers.length) →
      (r.2.calls (asked.map .next)).1 = (nextCalls asked.length ⟨c, dataStart c⟩).map .command := by
  intro c r
  have h34 : 0x34 ≤ c.length := by
    have hl : headerLen c ≤ c.length := hl
    unfold headerLen at hl; split at hl <;> omega
  obtain ⟨_, h2, _⟩ := c98_position (d.call (.seek 0)).2 c 0 rfl
    (by
      show c.take 2 ≠ gzipMagic
      exact magic_not_gzip c hm)
  obtain ⟨a1, a2, _, _, a5⟩ := h2 hm ⟨by omega, hl⟩
  have e1 : r.1 = [.done, ((d.call (.seek 0)).2.call .reader).1] := rfl
  have e2 : r.2 = ((d.call (.seek 0)).2.call .reader).2 := rfl
  have e3 : (d.call (.seek 0)).2.readers = d.readers := rfl
  rw [e3] at a2
  refine ⟨by rw [e1, a1]; simp [dataStart], by rw [e2, a5]; rfl, ?_, ?_⟩
  · intro i f hif
    rw [e2, a2, List.getElem?_append_left (List.getElem?_eq_some_iff.mp hif).1]
    exact hif
  · intro asked h
    rw [c98_shared r.2 asked (by
      intro i hi
      rw [e2, a2, List.length_append]
      have := h i hi
      simp only [List.length_cons, List.length_nil]
      omega), e2, a5]
    rfl

/-! ### A file with two readers -/

/-- A header of version 1.51, then a register write, two waits and the end. -/
def deskFile : Bytes := sampleHeader.take 0x40 ++ [0x54, 0x08, 0x78, 0x62, 0x63, 0x66]

/-- Two readers are made (the file is moved back in between); then they are asked in turn. -/
def twoReaders : Desk :=
  ((⟨⟨deskFile, 0⟩, [], fun _ => none⟩ : Desk).calls [.reader, .seek 0, .reader]).2

example : twoReaders.readers.length = 2 ∧ twoReaders.file.pos = dataStart deskFile ∧
    (twoReaders.calls [.next 0, .next 1, .next 1, .next 0, .next 1]).1 =
      [.command (some (.ok (.ym2151 0x54 0x08 0x78))), .command (some (.ok (.wait 0x62 (some 735)))),
        .command (some (.ok (.wait 0x63 (some 882)))), .command (some (.ok (.eos 0x66))),
        .command none] := by
  decide +kernel

/-- A recording inside another file, at position 4, is recognised but read from the wrong place. -/
example :
    let c := [0, 0, 0, 0] ++ deskFile
    ((⟨⟨c, 4⟩, [], fun _ => none⟩ : Desk).call .reader).1 =
      .opened (.ok (.vgm (word deskFile 4) (version deskFile) (0x34 + word c 0x34))) ∧
    0x34 + word c 0x34 ≠ 4 + dataStart deskFile := by
  decide +kernel

/-- C98. The caller reaches every position: after `seek p`, whatever happened before, `reader` and
`next` find the bytes from position `p` on. -/
theorem c98_seek (d : Desk) (p : Nat) (cs : List DeskCall) :
    d.calls (.seek p :: cs) =
      (.done :: (({ d with file := ⟨d.file.data, p⟩ } : Desk).calls cs).1,
        (({ d with file := ⟨d.file.data, p⟩ } : Desk).calls cs).2) := rfl

end VgmX
