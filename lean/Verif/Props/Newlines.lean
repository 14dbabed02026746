import Verif.Model.Newlines
import Verif.Spec.Newlines
import Verif.Props.Json
import Verif.Props.Csv
import Verif.Props.Main
/-
C107: the text outputs on systems with other line ends and encodings.
-/

namespace VgmX

open Spec

/-- ASCII, and no control character but the line end. -/
def Inky (s : Str) : Prop := ∀ c ∈ s, c.toNat < 128 ∧ c ≠ '\r'

instance (s : Str) : Decidable (Inky s) := by unfold Inky; infer_instance

theorem inky_append {s t : Str} (hs : Inky s) (ht : Inky t) : Inky (s ++ t) := by
  intro c hc
  rcases List.mem_append.mp hc with h | h
  · exact hs c h
  · exact ht c h

theorem isDec_lt {c : Char} (h : isDec c = true) : c.toNat < 128 ∧ c ≠ '\r' := by
  unfold isDec at h
  simp only [Bool.and_eq_true, decide_eq_true_eq] at h
  have h1 : c.toNat ≤ '9'.toNat := h.2
  refine ⟨lt_of_le_of_lt h1 (by decide), ?_⟩
  rintro rfl
  exact absurd h.1 (by decide)

theorem inky_dec {s : Str} (h : ∀ c ∈ s, isDec c = true) : Inky s := fun c hc => isDec_lt (h c hc)

theorem inky_natStr (n : Nat) : Inky (natStr n) := inky_dec (natStr_dec n)

theorem inky_intStr (z : Int) : Inky (intStr z) := by
  cases z with
  | ofNat n => exact inky_natStr n
  | negSucc n => exact inky_append (s := ['-']) (by decide) (inky_natStr _)

theorem inky_zeros (n : Nat) : Inky (List.replicate n '0') := by
  intro c hc
  rw [(List.mem_replicate.mp hc).2]; decide

theorem inky_layout2 (d k : Nat) : Inky (layout2 d k) := by
  have hdot : Inky ['.'] := by decide
  have h0 : Inky ['0', '.'] := by decide
  have he : Inky ['e', '-'] := by decide
  unfold layout2
  split
  · exact inky_append (inky_append (inky_natStr _) hdot) (inky_natStr _)
  · split
    · refine inky_append (inky_append h0 (inky_zeros _)) ?_
      split <;> exact inky_natStr _
    · refine inky_append (inky_append ?_ he) (inky_append (inky_zeros _) (inky_natStr _))
      split
      · exact inky_natStr _
      · exact inky_append (inky_append (inky_natStr _) hdot) (inky_natStr _)

theorem inky_fmt2 (q : Rat) : Inky (fmt2 q) := by
  unfold fmt2
  split
  · decide
  · simp only
    split <;> exact inky_layout2 _ _

theorem inky_note (n : Note) (hn : n.note ≤ 15) (hk : n.keyFraction ≤ 63)
    (s : Str) (hs : n.str = .ok s) : Inky s := by
  by_cases h0 : n.configId < 0
  · unfold Note.str at hs
    rw [if_pos h0] at hs
    cases hs
    decide
  · obtain ⟨l, a, e1, _, e2⟩ := str_on n (by omega) hn
    rw [e2] at hs
    cases hs
    have hla : Inky [l, a] := by
      have : ∀ k < 16, ∀ x ∈ (noteLookup k).toOption, Inky x := by
        intro k hk x hx
        have hk : k = 0 ∨ k = 1 ∨ k = 2 ∨ k = 3 ∨ k = 4 ∨ k = 5 ∨ k = 6 ∨ k = 7 ∨ k = 8 ∨ k = 9 ∨
          k = 10 ∨ k = 11 ∨ k = 12 ∨ k = 13 ∨ k = 14 ∨ k = 15 := by omega
        rcases hk with rfl | rfl | rfl | rfl | rfl | rfl | rfl | rfl | rfl | rfl | rfl | rfl | rfl |
          rfl | rfl | rfl <;> · cases hx; decide
      exact this n.note (by omega) _ (by rw [e1]; rfl)
    have hkf : Inky (kfText n.keyFraction) := by
      rcases kfText_shape n.keyFraction (by omega) with e | ⟨s, e, hs⟩
      · rw [e]; decide
      · rw [e]
        exact inky_append (s := ['-']) (by decide) (inky_dec hs)
    have hpan : Inky (panText n.right n.left) := by
      cases n.right <;> cases n.left <;> decide
    have e : l :: a :: '-' :: (natStr n.octave ++ (kfText n.keyFraction ++ (' ' :: '[' ::
        (natStr n.configId.toNat ++ (']' :: ' ' :: panText n.right n.left))))) =
        [l, a] ++ (['-'] ++ (natStr n.octave ++ (kfText n.keyFraction ++ ([' ', '['] ++
        (natStr n.configId.toNat ++ ([']', ' '] ++ panText n.right n.left)))))) := by simp
    rw [e]
    exact inky_append hla (inky_append (by decide) (inky_append (inky_natStr _)
      (inky_append hkf (inky_append (by decide) (inky_append (inky_natStr _)
        (inky_append (by decide) hpan))))))

theorem inky_join {l : List Str} (h : ∀ s ∈ l, Inky s) : Inky (join [','] l) := by
  intro c hc
  rcases mem_join hc with hc | ⟨s, hs, hc⟩
  · have : c = ',' := by simpa using hc
    subst this; decide
  · exact h s hs c hc

theorem inky_line (sample : Nat) (row : Int) (f : Str) (cells : List Str) (hf : Inky f)
    (hc : ∀ s ∈ cells, Inky s) : Inky (csvLine sample row f cells) := by
  unfold csvLine
  refine inky_append (inky_join ?_) (by decide)
  intro s hs
  rcases List.mem_append.mp hs with hs | hs
  · simp only [List.mem_cons, List.not_mem_nil, or_false] at hs
    rcases hs with rfl | rfl | rfl | rfl | rfl
    · exact inky_natStr _
    · exact inky_intStr _
    · exact inky_intStr _
    · exact inky_intStr _
    · exact hf
  · exact hc s hs

theorem inky_blank : ∀ s ∈ blankRow, Inky s := by decide

/-- The notes still to come can be printed in ASCII. -/
def InkyNotes (l : List Note) : Prop := ∀ n ∈ l, ∀ s, n.str = .ok s → Inky s

/-- The same for a channel in the merge. -/
def InkySlot (s : Slot) : Prop := InkyNotes s.cur.toList ∧ InkyNotes s.rest

theorem inkySlot_take (l : List Note) (h : InkyNotes l) : InkySlot (Slot.take l) := by
  cases l with
  | nil => exact ⟨by simp [InkyNotes, Slot.take], by simp [InkyNotes, Slot.take]⟩
  | cons n l =>
    refine ⟨?_, ?_⟩
    · intro m hm
      simp only [Slot.take, Option.toList_some, List.mem_singleton] at hm
      subst hm
      exact h m List.mem_cons_self
    · intro m hm
      exact h m (List.mem_cons_of_mem _ hm)

theorem inky_takeRow (ticks row : Int) (slots : List Slot) (cells : List Str)
    (hs : ∀ s ∈ slots, InkySlot s) (hc : ∀ s ∈ cells, Inky s) (slots' : List Slot)
    (cells' : List Str) (h : takeRow ticks row slots cells = .ok (slots', cells')) :
    (∀ s ∈ slots', InkySlot s) ∧ ∀ s ∈ cells', Inky s := by
  induction slots generalizing cells slots' cells' with
  | nil =>
    cases cells <;> (simp only [takeRow] at h; cases h; exact ⟨hs, hc⟩)
  | cons s slots ih =>
    cases cells with
    | nil => simp only [takeRow] at h; cases h; exact ⟨hs, hc⟩
    | cons cell cells =>
      have hs1 := hs s List.mem_cons_self
      have ih' := ih cells (fun x hx => hs x (List.mem_cons_of_mem _ hx))
        (fun x hx => hc x (List.mem_cons_of_mem _ hx))
      have hcell := hc cell List.mem_cons_self
      rw [takeRow] at h
      split at h
      · rename_i n hn
        split at h
        · split at h
          · cases h
          · rename_i text htext
            split at h
            · cases h
            · rename_i s2 c2 h2
              cases h
              obtain ⟨i1, i2⟩ := ih' s2 c2 h2
              refine ⟨List.forall_mem_cons.mpr ⟨inkySlot_take _ hs1.2, i1⟩,
                List.forall_mem_cons.mpr ⟨?_, i2⟩⟩
              exact hs1.1 n (by rw [hn]; simp) text htext
        · split at h
          · cases h
          · rename_i s2 c2 h2
            cases h
            obtain ⟨i1, i2⟩ := ih' s2 c2 h2
            exact ⟨List.forall_mem_cons.mpr ⟨hs1, i1⟩, List.forall_mem_cons.mpr ⟨hcell, i2⟩⟩
      · split at h
        · cases h
        · rename_i s2 c2 h2
          cases h
          obtain ⟨i1, i2⟩ := ih' s2 c2 h2
          exact ⟨List.forall_mem_cons.mpr ⟨hs1, i1⟩, List.forall_mem_cons.mpr ⟨hcell, i2⟩⟩

theorem inky_fraction (x : Nat) (ticks : Int) (f : Str) (h : fractionText x ticks = .ok f) :
    Inky f := by
  unfold fractionText at h
  split at h
  · cases h
  · cases h; exact inky_fmt2 _
  · cases h

theorem inky_csvLoop (ticks : Int) (fuel : Nat) (slots : List Slot) (total : Int)
    (row out : List Str) (hs : ∀ s ∈ slots, InkySlot s) (hr : ∀ s ∈ row, Inky s)
    (ho : ∀ s ∈ out, Inky s) (res : List Str) (e : Option PyErr)
    (h : csvLoop ticks fuel slots total row out = some (res, e)) : ∀ s ∈ res, Inky s := by
  induction fuel generalizing slots total row out with
  | zero => simp [csvLoop] at h
  | succ fuel ih =>
    rw [csvLoop] at h
    split at h
    · cases h; exact ho
    · rename_i cur hcur
      split at h
      · cases h; exact ho
      · simp only at h
        split at h
        · split at h
          · cases h; exact ho
          · rename_i f hf
            have hf := inky_fraction _ _ _ hf
            have ho' : ∀ s ∈ out ++ [csvLine cur total f row] ++
                gapLines cur total (Int.fdiv cur ticks) f, Inky s := by
              intro s hs
              rcases List.mem_append.mp hs with hs | hs
              · rcases List.mem_append.mp hs with hs | hs
                · exact ho s hs
                · rw [List.mem_singleton] at hs
                  subst hs
                  exact inky_line _ _ _ _ hf hr
              · unfold gapLines at hs
                obtain ⟨i, _, rfl⟩ := List.mem_map.mp hs
                exact inky_line _ _ _ _ hf inky_blank
            split at h
            · cases h; exact ho'
            · rename_i s2 r2 h2
              obtain ⟨i1, i2⟩ := inky_takeRow _ _ _ _ hs inky_blank _ _ h2
              exact ih s2 _ r2 _ i1 i2 ho' h
        · split at h
          · cases h; exact ho
          · rename_i s2 r2 h2
            obtain ⟨i1, i2⟩ := inky_takeRow _ _ _ _ hs hr _ _ h2
            exact ih s2 _ r2 _ i1 i2 ho h

theorem inky_tracks (h : List Event) (hb : ByteHistory h) (ticks : Int) (out : List Str)
    (e : Option PyErr) (he : extractTracks (run h) ticks = some (out, e)) :
    ∀ s ∈ out, Inky s := by
  unfold extractTracks at he
  refine inky_csvLoop ticks _ _ _ _ _ ?_ inky_blank ?_ out e he
  · intro s hs
    obtain ⟨c, hc, rfl⟩ := List.mem_map.mp hs
    apply inkySlot_take
    intro n hn s hs
    obtain ⟨_, h2, h3, _⟩ := (c25_ranges h hb).2.2.2 c (List.mem_range.mp hc) n hn
    exact inky_note n h2 h3 s hs
  · intro s hs
    rw [List.mem_singleton] at hs
    subst hs
    decide +kernel

theorem asciiText_textBytes (sep : Str) (hsep : Inky sep ∨ ∀ c ∈ sep, c.toNat < 128)
    (enc : Char → Bytes) (he : AsciiCompatible enc) (pieces : List Str)
    (hp : ∀ s ∈ pieces, Inky s) :
    asciiText (textBytes sep enc pieces) = withLinesep sep pieces.flatten := by
  have hsep' : ∀ c ∈ sep, c.toNat < 128 := by
    rcases hsep with h | h
    · exact fun c hc => (h c hc).1
    · exact h
  have enc_ascii : ∀ s : Str, (∀ c ∈ s, c.toNat < 128) → encodeText enc s = asciiBytes s := by
    intro s
    induction s with
    | nil => intro _; rfl
    | cons c s ih =>
      intro h
      unfold encodeText asciiBytes at *
      rw [List.flatMap_cons, List.map_cons, ih (fun x hx => h x (List.mem_cons_of_mem _ hx)),
        he c (h c List.mem_cons_self)]
      rfl
  have lin : ∀ s : Str, Inky s → ∀ c ∈ withLinesep sep s, c.toNat < 128 := by
    intro s hs c hc
    unfold withLinesep at hc
    obtain ⟨x, hx, hc⟩ := List.mem_flatMap.mp hc
    split at hc
    · exact hsep' c hc
    · rw [List.mem_singleton] at hc
      rw [hc]; exact (hs x hx).1
  induction pieces with
  | nil => rfl
  | cons s l ih =>
    have hs := hp s List.mem_cons_self
    have e1 : textBytes sep enc (s :: l) =
        encodeText enc (withLinesep sep s) ++ textBytes sep enc l := rfl
    have e2 : withLinesep sep (s :: l).flatten =
        withLinesep sep s ++ withLinesep sep l.flatten := by
      unfold withLinesep; rw [List.flatten_cons, List.flatMap_append]
    have e3 : ∀ a b : Bytes, asciiText (a ++ b) = asciiText a ++ asciiText b := by
      intro a b; unfold asciiText; exact List.map_append
    rw [e1, e2, e3, ih (fun x hx => hp x (List.mem_cons_of_mem _ hx)), enc_ascii _ (lin s hs),
      asciiText_asciiBytes _ (lin s hs)]

theorem universal_plain (c : Char) (s : Str) (hc : c ≠ '\r') :
    universal (c :: s) = c :: universal s := by
  rw [universal]
  · rw [if_neg hc]
  · intro s' h; exact absurd h hc

theorem universal_linesep (sep : Str) (hsep : sep ∈ linesepsKnown) (s : Str) (hs : Inky s) :
    universal (withLinesep sep s) = s := by
  unfold withLinesep
  simp only [linesepsKnown, List.mem_cons, List.not_mem_nil, or_false] at hsep
  rcases hsep with rfl | rfl | rfl
  · induction s with
    | nil => rfl
    | cons c s ih =>
      have hc := (hs c List.mem_cons_self).2
      rw [List.flatMap_cons]
      have : (if c = '\n' then ['\n'] else [c]) = [c] := by split <;> simp_all
      rw [this, List.singleton_append, universal_plain c _ hc,
        ih (fun x hx => hs x (List.mem_cons_of_mem _ hx))]
  · induction s with
    | nil => rfl
    | cons c s ih =>
      have hc := (hs c List.mem_cons_self).2
      have ih := ih (fun x hx => hs x (List.mem_cons_of_mem _ hx))
      rw [List.flatMap_cons]
      split
      · rename_i e
        subst e
        show universal ('\r' :: '\n' ::
          s.flatMap (fun c => if c = '\n' then ['\r', '\n'] else [c])) = _
        rw [universal, ih]
      · rw [List.singleton_append, universal_plain c _ hc, ih]
  · induction s with
    | nil => rfl
    | cons c s ih =>
      have hc := (hs c List.mem_cons_self).2
      have ih := ih (fun x hx => hs x (List.mem_cons_of_mem _ hx))
      rw [List.flatMap_cons]
      split
      · rename_i e
        subst e
        show universal ('\r' :: s.flatMap (fun c => if c = '\n' then ['\r'] else [c])) = _
        have hn : ∀ t, s.flatMap (fun c => if c = '\n' then ['\r'] else [c]) ≠ '\n' :: t := by
          intro t
          cases s with
          | nil => simp
          | cons x xs =>
            rw [List.flatMap_cons]
            split
            · simp
            · rename_i hx; simp [hx]
        rw [universal, if_pos rfl, ih]
        intro t _ h
        exact hn t h
      · rw [List.singleton_append, universal_plain c _ hc, ih]

theorem inky_jsonNewline (k : Nat) : Inky (jsonNewline k) := by
  intro c hc
  rcases List.mem_cons.mp hc with rfl | hc
  · decide
  · rw [List.eq_of_mem_replicate hc]; decide

theorem inky_jsonQuote {s : Str} (h : PlainStr s) : Inky (jsonQuote s) := by
  unfold jsonQuote
  refine inky_append (s := '"' :: s) ?_ (by decide)
  intro c hc
  rcases List.mem_cons.mp hc with rfl | hc
  · decide
  · obtain ⟨h1, h2⟩ := h c hc
    refine ⟨by omega, ?_⟩
    rintro rfl
    exact h1 (.inr (.inr (by decide)))

theorem inky_cons {c : Char} {s : Str} (hc : c.toNat < 128 ∧ c ≠ '\r') (hs : Inky s) :
    Inky (c :: s) := by
  intro x hx
  rcases List.mem_cons.mp hx with rfl | hx
  · exact hc
  · exact hs x hx

theorem inky_colon : Inky ": ".toList := by decide +kernel

mutual
theorem Json.inky_dump (level : Nat) : (v : Json) → v.Plain → Inky (v.dump level)
  | .num n, _ => by simp only [Json.dump]; exact inky_natStr n
  | .bool true, _ => by simp only [Json.dump]; decide +kernel
  | .bool false, _ => by simp only [Json.dump]; decide +kernel
  | .str s, h => by
    simp only [Json.Plain] at h
    simp only [Json.dump]; exact inky_jsonQuote h
  | .arr .nil, _ => by simp only [Json.dump]; decide +kernel
  | .obj .nil, _ => by simp only [Json.dump]; decide +kernel
  | .arr (.cons a l), h => by
    simp only [Json.Plain, JsonList.Plain] at h
    simp only [Json.dump]
    exact inky_append (inky_append (inky_append (inky_append
      (inky_cons (by decide) (inky_jsonNewline _))
      (Json.inky_dump (level + 1) a h.1)) (JsonList.inky_dump (level + 1) l h.2))
      (inky_jsonNewline _)) (by decide)
  | .obj (.cons k v l), h => by
    simp only [Json.Plain, JsonFields.Plain] at h
    simp only [Json.dump]
    exact inky_append (inky_append (inky_append (inky_append (inky_append (inky_append
      (inky_cons (by decide) (inky_jsonNewline _)) (inky_jsonQuote h.1)) inky_colon)
      (Json.inky_dump (level + 1) v h.2.1)) (JsonFields.inky_dump (level + 1) l h.2.2))
      (inky_jsonNewline _)) (by decide)
theorem JsonList.inky_dump (level : Nat) : (l : JsonList) → l.Plain → Inky (l.dump level)
  | .nil, _ => by simp only [JsonList.dump]; decide
  | .cons a l, h => by
    simp only [JsonList.Plain] at h
    simp only [JsonList.dump]
    exact inky_append (inky_append (inky_cons (by decide) (inky_jsonNewline _))
      (Json.inky_dump level a h.1)) (JsonList.inky_dump level l h.2)
theorem JsonFields.inky_dump (level : Nat) : (l : JsonFields) → l.Plain → Inky (l.dump level)
  | .nil, _ => by simp only [JsonFields.dump]; decide
  | .cons k v l, h => by
    simp only [JsonFields.Plain] at h
    simp only [JsonFields.dump]
    exact inky_append (inky_append (inky_append (inky_append
      (inky_cons (by decide) (inky_jsonNewline _)) (inky_jsonQuote h.1)) inky_colon)
      (Json.inky_dump level v h.2.1)) (JsonFields.inky_dump level l h.2.2)
end

theorem instrumentPieces_run (h : List Event) (hb : ByteHistory h) :
    ∃ js, instrumentPieces (run h) = .ok [js, ['\n']] ∧ instrumentsText (run h) = .ok (js ++ ['\n']) ∧
      Inky js := by
  obtain ⟨js, e1, e2, _, _⟩ := configs_json (run h).configs (run_good h hb)
  refine ⟨(Json.arr (.ofList js)).dump 0, ?_, ?_, ?_⟩
  · simp [instrumentPieces, instrumentsJs, e1]
  · simp [instrumentsText, instrumentsJs, e1]
  · exact Json.inky_dump 0 (.arr (.ofList js)) (by simpa only [Json.Plain] using e2)

/-! ### The parser does not see which line ends there are -/

/-- Line ends. -/
def Ends (sep : Str) : Prop := sep ≠ [] ∧ ∀ c ∈ sep, c = '\n' ∨ c = '\r'

theorem lexStep_end (m : Mode) (c : Char) (hc : c = '\n' ∨ c = '\r') (r : List Tok × Mode)
    (h : lexStep m '\n' = some r) : lexStep m c = some r ∧ r.2 = .idle := by
  cases m with
  | idle =>
    have h0 : lexStep .idle '\n' = some ([], .idle) := by decide
    rw [h0] at h
    cases h
    rcases hc with rfl | rfl <;> decide
  | inStr acc =>
    have h0 : lexStep (.inStr acc) '\n' = none := by
      rw [lexStep]
      rw [if_neg (by decide), if_pos (by decide)]
    rw [h0] at h; cases h
  | inNum n =>
    have h0 : lexStep (.inNum n) '\n' = some ([.num n], .idle) := by
      rw [lexStep]
      rw [if_neg (by decide)]
      rfl
    have h1 : lexStep (.inNum n) '\r' = some ([.num n], .idle) := by
      rw [lexStep]
      rw [if_neg (by decide)]
      rfl
    rw [h0] at h
    cases h
    rcases hc with rfl | rfl
    · exact ⟨h0, rfl⟩
    · exact ⟨h1, rfl⟩
  | inWord acc =>
    have h0 : lexStep (.inWord acc) '\n' = some ([.word acc.reverse], .idle) := by
      rw [lexStep]
      rw [if_neg (by decide)]
      rfl
    have h1 : lexStep (.inWord acc) '\r' = some ([.word acc.reverse], .idle) := by
      rw [lexStep]
      rw [if_neg (by decide)]
      rfl
    rw [h0] at h
    cases h
    rcases hc with rfl | rfl
    · exact ⟨h0, rfl⟩
    · exact ⟨h1, rfl⟩

theorem lexRun_ends (sep s : Str) (h : ∀ c ∈ sep, c = '\n' ∨ c = '\r') :
    lexRun .idle (sep ++ s) = lexRun .idle s := by
  induction sep with
  | nil => rfl
  | cons c sep ih =>
    have h0 : lexStep .idle c = some ([], .idle) := by
      rcases h c List.mem_cons_self with rfl | rfl <;> decide
    rw [List.cons_append, lexRun, h0]
    simp only [List.nil_append]
    rw [ih (fun x hx => h x (List.mem_cons_of_mem _ hx))]
    cases lexRun .idle s <;> rfl

theorem lexRun_linesep (sep : Str) (hs : Ends sep) (s : Str) (m : Mode) (r : List Tok × Mode)
    (h : lexRun m s = some r) : lexRun m (withLinesep sep s) = some r := by
  induction s generalizing m r with
  | nil => exact h
  | cons c s ih =>
    have e : withLinesep sep (c :: s) =
        (if c = '\n' then sep else [c]) ++ withLinesep sep s := rfl
    rw [e]
    rw [lexRun] at h
    split at h
    · cases h
    · rename_i ts m' hstep
      obtain ⟨r', hr', rfl⟩ := Option.map_eq_some_iff.mp h
      by_cases hc : c = '\n'
      · subst hc
        rw [if_pos rfl]
        obtain ⟨x, xs, rfl⟩ := List.exists_cons_of_ne_nil hs.1
        obtain ⟨h1, h2⟩ := lexStep_end m x (hs.2 x List.mem_cons_self) _ hstep
        have h2 : m' = .idle := h2
        subst h2
        rw [List.cons_append, lexRun, h1]
        simp only
        rw [lexRun_ends xs _ (fun y hy => hs.2 y (List.mem_cons_of_mem _ hy)), ih _ _ hr']
        rfl
      · rw [if_neg hc, List.singleton_append, lexRun, hstep]
        simp only
        rw [ih _ _ hr']
        rfl

theorem readInstrumentFile_linesep (sep : Str) (hs : Ends sep) (s : Str)
    (l : List (Nat × Patch)) (h : readInstrumentFile s = some l) :
    readInstrumentFile (withLinesep sep s) = some l := by
  have : ∀ j, parseJson s = some j → parseJson (withLinesep sep s) = some j := by
    intro j hj
    unfold parseJson at hj ⊢
    have hlex : ∀ ts, lex s = some ts → lex (withLinesep sep s) = some ts := by
      intro ts ht
      unfold lex at ht ⊢
      cases hr : lexRun .idle s with
      | none => rw [hr] at ht; cases ht
      | some r => rw [lexRun_linesep sep hs s .idle r hr]; rw [hr] at ht; exact ht
    cases hl : lex s with
    | none => rw [hl] at hj; cases hj
    | some ts => rw [hlex ts hl]; rw [hl] at hj; exact hj
  unfold readInstrumentFile at h ⊢
  cases hp : parseJson s with
  | none => rw [hp] at h; cases h
  | some j => rw [this j hp]; rw [hp] at h; exact h

theorem ends_known {sep : Str} (h : sep ∈ linesepsKnown) : Ends sep := by
  simp only [linesepsKnown, List.mem_cons, List.not_mem_nil, or_false] at h
  rcases h with rfl | rfl | rfl <;> exact ⟨by decide, by decide⟩

theorem ascii_known {sep : Str} (h : sep ∈ linesepsKnown) : ∀ c ∈ sep, c.toNat < 128 := by
  simp only [linesepsKnown, List.mem_cons, List.not_mem_nil, or_false] at h
  rcases h with rfl | rfl | rfl <;> decide

/-- C107. The instrument file, written on a system with whatever line ends and encoding: read with
universal line ends it is the text that the other properties are about, and read as it is, it is
JSON with the same instruments. -/
theorem c107_instruments (h : List Event) (hb : ByteHistory h) (sep : Str)
    (hsep : sep ∈ linesepsKnown) (enc : Char → Bytes) (henc : AsciiCompatible enc) :
    ∃ pieces, instrumentPieces (run h) = .ok pieces ∧
      instrumentsText (run h) = .ok (universal (asciiText (textBytes sep enc pieces))) ∧
      readInstrumentFile (asciiText (textBytes sep enc pieces)) =
        some ((instruments h).mapIdx (fun i p => (i, p))) := by
  obtain ⟨js, e1, e2, hi⟩ := instrumentPieces_run h hb
  obtain ⟨text, t1, _, t3⟩ := c49_read_back h hb
  rw [e2] at t1
  cases t1
  have hp : ∀ s ∈ [js, ['\n']], Inky s := by
    intro s hs
    simp only [List.mem_cons, List.not_mem_nil, or_false] at hs
    rcases hs with rfl | rfl
    · exact hi
    · decide
  have hfl : [js, ['\n']].flatten = js ++ ['\n'] := by simp
  have hib : Inky (js ++ ['\n']) := inky_append hi (by decide)
  refine ⟨_, e1, ?_, ?_⟩
  · rw [asciiText_textBytes sep (.inr (ascii_known hsep)) enc henc _ hp, hfl,
      universal_linesep sep hsep _ hib, e2]
  · rw [asciiText_textBytes sep (.inr (ascii_known hsep)) enc henc _ hp, hfl]
    exact readInstrumentFile_linesep sep (ends_known hsep) _ _ t3

/-- C107. The same for the table of tracks, for every ticks-per-note and also if it ends early. -/
theorem c107_table (h : List Event) (hb : ByteHistory h) (ticks : Int) (out : List Str)
    (err : Option PyErr) (he : extractTracks (run h) ticks = some (out, err)) (sep : Str)
    (hsep : sep ∈ linesepsKnown) (enc : Char → Bytes) (henc : AsciiCompatible enc) :
    universal (asciiText (textBytes sep enc out)) = out.flatten := by
  have hi := inky_tracks h hb ticks out err he
  rw [asciiText_textBytes sep (.inr (ascii_known hsep)) enc henc out hi]
  apply universal_linesep sep hsep
  intro c hc
  obtain ⟨s, hs, hc⟩ := List.mem_flatten.mp hc
  exact hi s hs c hc

/-- C107. On a system with `\n` as line end and an encoding that agrees with ASCII this is what
Model/Main and Model/CsvFile write. -/
theorem c107_here (s : Str) (hs : ∀ c ∈ s, c.toNat < 128) (enc : Char → Bytes)
    (henc : AsciiCompatible enc) : textBytes ['\n'] enc [s] = asciiBytes s := by
  unfold textBytes
  rw [List.flatMap_cons, List.flatMap_nil, List.append_nil]
  have e : withLinesep ['\n'] s = s := by
    unfold withLinesep
    have : (fun c => if c = '\n' then ['\n'] else [c]) = fun c : Char => [c] := by
      funext c; split <;> simp_all
    rw [this]; simp
  rw [e]
  induction s with
  | nil => rfl
  | cons c s ih =>
    have e' : withLinesep ['\n'] s = s := by
      have e2 : withLinesep ['\n'] (c :: s) =
        (if c = '\n' then ['\n'] else [c]) ++ withLinesep ['\n'] s := rfl
      rw [e2] at e
      split at e
      · rename_i hc; subst hc; exact (List.cons.inj e).2
      · exact (List.cons.inj e).2
    unfold encodeText asciiBytes at *
    rw [List.flatMap_cons, List.map_cons, henc c (hs c List.mem_cons_self),
      ih (fun x hx => hs x (List.mem_cons_of_mem _ hx)) e']
    rfl

/-- UTF-8 is such an encoding. -/
example : AsciiCompatible String.utf8EncodeChar := fun c hc => utf8Char_ascii c hc

/-- A concrete file with the line ends of Windows. -/
example :
    (match instrumentPieces (run [.write 0x68 5, .write 8 0x48]) with
      | .ok ps => (asciiText (textBytes ['\r', '\n'] String.utf8EncodeChar ps)).take 17
      | .error _ => []) = "[\r\n\t{\r\n\t\t\"id\": 0,".toList := by
  decide +kernel

end VgmX
