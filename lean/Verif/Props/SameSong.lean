import Verif.Spec.SameSong
import Verif.Props.Relate
/-
Property C118: exactly when two recordings give the same song. Vocabulary: Spec/SameSong.lean.
-/

namespace VgmX
open Spec

theorem semitone_eq (k : Nat) (hk : k ≤ 15) : semitone k =
    (if k = 15 then 1 else if k % 4 = 3 ∧ k ≠ 11 then k - k / 4 else 1 + (k - k / 4)) := by
  have : ∀ k < 16, semitone k =
    (if k = 15 then 1 else if k % 4 = 3 ∧ k ≠ 11 then k - k / 4 else 1 + (k - k / 4)) := by decide
  exact this k (by omega)

theorem semitone_range (k : Nat) : 1 ≤ semitone k ∧ semitone k ≤ 12 := by
  unfold semitone
  split <;> omega

theorem names_table : ∀ k < 16, ∀ k' < 16, semitone k = semitone k' →
    noteLookupXrns k = noteLookupXrns k' ∧ (k = 14 ↔ k' = 14) := by decide +kernel

/-- The names are alike if and only if the semitones are. -/
theorem xrnsNote_same (n n' : Note) (hid : 0 ≤ n.configId) (hid' : 0 ≤ n'.configId) (hn : n.note ≤ 15)
    (hn' : n'.note ≤ 15) : n'.xrnsNote = n.xrnsNote ↔
      12 * n'.octave + semitone n'.note = 12 * n.octave + semitone n.note := by
  constructor
  · intro h
    obtain ⟨s, h1, h2⟩ := xrns_pitch n hid hn
    obtain ⟨s', h1', h2'⟩ := xrns_pitch n' hid' hn'
    rw [← semitone_eq _ hn] at h2
    rw [← semitone_eq _ hn'] at h2'
    rw [h, h1] at h1'
    cases h1'
    rw [h2] at h2'
    exact (Option.some.inj h2').symm
  · intro h
    have r := semitone_range n.note
    have r' := semitone_range n'.note
    have ho : n'.octave = n.octave := by omega
    obtain ⟨e1, e2⟩ := names_table n'.note (by omega) n.note (by omega) (by omega)
    unfold Note.xrnsNote
    rw [if_neg (show ¬ n'.configId < 0 by omega), if_neg (show ¬ n.configId < 0 by omega), e1, ho]
    by_cases h14 : n.note = 14
    · have := e2.mpr h14
      simp only [h14, this]
    · have : n'.note ≠ 14 := fun h => h14 (e2.mp h)
      simp only [h14, this]

theorem xrnsNote_off (n : Note) (h : n.configId < 0) : n.xrnsNote = .ok ['O', 'f', 'f'] := by
  unfold Note.xrnsNote
  rw [if_pos h]

theorem panColumn_same (n n' : Note) : panColumn n' = panColumn n ↔ side n' = side n := by
  unfold panColumn side
  cases n.right <;> cases n.left <;> cases n'.right <;> cases n'.left <;> decide

theorem instrColumn_same (n n' : Note) : instrColumn n' = instrColumn n ↔
    ((n.configId < 0 ∧ n'.configId < 0) ∨ (0 ≤ n.configId ∧ n'.configId = n.configId)) := by
  unfold instrColumn
  by_cases h : 0 ≤ n.configId <;> by_cases h' : 0 ≤ n'.configId
  · rw [if_pos h, if_pos h', Option.some.injEq]
    constructor
    · intro e
      have := c35_injective _ _ e
      right; omega
    · rintro (e | e)
      · omega
      · rw [e.2]
  · rw [if_pos h, if_neg h']
    constructor
    · intro e; cases e
    · rintro (e | e) <;> omega
  · rw [if_neg h, if_pos h']
    constructor
    · intro e; cases e
    · rintro (e | e) <;> omega
  · rw [if_neg h, if_neg h']
    simp only [true_iff]
    left; omega

/-- The two notes make the same line if and only if they look the same. -/
theorem lineOf_same (n n' : Note) (hn : n.note ≤ 15) (hn' : n'.note ≤ 15) :
    lineOf n' = lineOf n ↔ LooksSame n n' := by
  have hl : lineOf n' = lineOf n ↔ (n'.xrnsNote.toOption.getD [] = n.xrnsNote.toOption.getD [] ∧
      instrColumn n' = instrColumn n ∧ panColumn n' = panColumn n) := by
    unfold lineOf
    rw [Line.mk.injEq]
  rw [hl, instrColumn_same, panColumn_same]
  unfold LooksSame
  constructor
  · rintro ⟨h1, h2 | ⟨h2, h3⟩, h4⟩
    · exact ⟨h4, .inl h2⟩
    · refine ⟨h4, .inr ⟨h2, h3, (xrnsNote_same n n' h2 (by omega) hn hn').mp ?_⟩⟩
      obtain ⟨s, e, _⟩ := xrns_pitch n h2 hn
      obtain ⟨s', e', _⟩ := xrns_pitch n' (by omega) hn'
      rw [e, e'] at h1 ⊢
      exact congrArg Except.ok h1
  · rintro ⟨h4, h2 | ⟨h2, h3, h1⟩⟩
    · exact ⟨by rw [xrnsNote_off n h2.1, xrnsNote_off n' h2.2], .inl h2, h4⟩
    · exact ⟨by rw [(xrnsNote_same n n' h2 (by omega) hn hn').mpr h1], .inr ⟨h2, h3⟩, h4⟩

/-! ### A song is its cells -/

theorem lines_ext (l l' : List DaoLine) (hs : (l.map (·.index)).Pairwise (· < ·))
    (hs' : (l'.map (·.index)).Pairwise (· < ·))
    (he : ∀ r, (l.find? (fun x => decide (x.index = r))).map (·.noteColumns)
      = (l'.find? (fun x => decide (x.index = r))).map (·.noteColumns)) : l = l' := by
  have hfind : ∀ (l : List DaoLine), (l.map (·.index)).Pairwise (· < ·) → ∀ x ∈ l,
      l.find? (fun y => decide (y.index = x.index)) = some x := by
    intro l
    induction l with
    | nil => intro _ x hx; cases hx
    | cons y l ih =>
      intro hs x hx
      rw [List.map_cons, List.pairwise_cons] at hs
      rcases List.mem_cons.mp hx with rfl | hx
      · rw [List.find?_cons]; simp
      · have : y.index < x.index := hs.1 _ (List.mem_map_of_mem hx)
        rw [List.find?_cons, decide_eq_false (by omega)]
        exact ih hs.2 x hx
  have hsub : ∀ (l l' : List DaoLine), (l.map (·.index)).Pairwise (· < ·) →
      (l'.map (·.index)).Pairwise (· < ·) →
      (∀ r, (l.find? (fun x => decide (x.index = r))).map (·.noteColumns)
        = (l'.find? (fun x => decide (x.index = r))).map (·.noteColumns)) → ∀ x ∈ l, x ∈ l' := by
    intro l l' hs hs' he x hx
    have h1 := he x.index
    rw [hfind l hs x hx] at h1
    cases hf : l'.find? (fun y => decide (y.index = x.index)) with
    | none => rw [hf] at h1; cases h1
    | some y =>
      rw [hf] at h1
      have h2 : y.index = x.index := by simpa using List.find?_some hf
      have h3 : x.noteColumns = y.noteColumns := Option.some.inj h1
      have : x = y := by
        cases x; cases y
        simp only at h2 h3
        rw [h2, h3]
      rw [this]
      exact List.mem_of_find?_eq_some hf
  have hord : ∀ l : List DaoLine, (l.map (·.index)).Pairwise (· < ·) →
      l.Pairwise (fun a b => a.index < b.index) := fun l h => List.pairwise_map.mp h
  refine List.Perm.eq_of_pairwise (le := fun a b : DaoLine => a.index < b.index) ?_ (hord l hs)
    (hord l' hs') ?_
  · intro a b _ _ h1 h2
    omega
  · have hnd : ∀ l : List DaoLine, (l.map (·.index)).Pairwise (· < ·) → l.Nodup := fun l h =>
      (hord l h).imp (fun {a b} h e => by rw [e] at h; omega)
    exact (List.perm_ext_iff_of_nodup (hnd l hs) (hnd l' hs')).mpr (fun x =>
      ⟨hsub l l' hs hs' he x, hsub l' l hs' hs (fun r => (he r).symm) x⟩)

theorem pattern_ext (d d' : DaoSong) (hl : d.patterns.length = d'.patterns.length)
    (h : ∀ pat ∈ d.patterns, pat.patternTrack.length = 8 ∧ pat.patternMasterTrack.length = 1 ∧
      pat.patternSendTrack.length = 1)
    (h' : ∀ pat ∈ d'.patterns, pat.patternTrack.length = 8 ∧ pat.patternMasterTrack.length = 1 ∧
      pat.patternSendTrack.length = 1)
    (he : ∀ p, ∀ c < 8, linesOf d p c = linesOf d' p c) : d.patterns = d'.patterns := by
  apply List.ext_getElem hl
  intro p h1 h2
  obtain ⟨a1, a2, a3⟩ := h _ (List.getElem_mem h1)
  obtain ⟨b1, b2, b3⟩ := h' _ (List.getElem_mem h2)
  have key : ∀ c < 8, linesOf d p c = linesOf d' p c := he p
  unfold linesOf at key
  rw [List.getElem?_eq_getElem h1, List.getElem?_eq_getElem h2] at key
  dsimp only at key
  generalize d.patterns[p] = x at *
  generalize d'.patterns[p] = y at *
  obtain ⟨xt, xm, xs⟩ := x
  obtain ⟨yt, ym, ys⟩ := y
  dsimp only at *
  have hone : ∀ l l' : List DaoEmpty, l.length = 1 → l'.length = 1 → l = l' := by
    intro l l' e e'
    obtain ⟨_, rfl⟩ := List.length_eq_one_iff.mp e
    obtain ⟨_, rfl⟩ := List.length_eq_one_iff.mp e'
    rfl
  rw [hone xm ym a2 b2, hone xs ys a3 b3]
  have : xt = yt := by
    apply List.ext_getElem (by omega)
    intro c k1 k2
    have := key c (by omega)
    rw [List.getElem?_eq_getElem k1, List.getElem?_eq_getElem k2] at this
    dsimp only at this
    generalize xt[c] = u at *
    generalize yt[c] = v at *
    cases u; cases v
    simp only at this
    rw [this]
  rw [this]

/-! ### The property -/

/-- C118. Two recordings give the same song, if and only if they have equally many instruments and, in
every channel and row, the last events look the same. -/
theorem c118_song (h h' : List Event) (hb : ByteHistory h) (hb' : ByteHistory h') (t : Nat)
    (ht : 0 < t) (hm : t < maxTicks) :
    exportXrns (run h') t = exportXrns (run h) t ↔
      ((run h').configs.length = (run h).configs.length ∧
        ∀ c < 8, ∀ row, LooksSame? (onRow ((run h).keyPressesOf c) t row).getLast?
          (onRow ((run h').keyPressesOf c) t row).getLast?) := by
  obtain ⟨d, e, hd⟩ := cell_eq h hb t ht hm
  obtain ⟨d', e', hd'⟩ := cell_eq h' hb' t ht hm
  have hnote : ∀ (h : List Event), ByteHistory h → ∀ c < 8, ∀ row n,
      (onRow ((run h).keyPressesOf c) t row).getLast? = some n → n.note ≤ 15 := by
    intro h hb c hc row n hn
    have hmem := List.mem_of_getLast? hn
    exact ((c25_ranges h hb).2.2.2 c hc n (List.mem_filter.mp hmem).1).2.1
  have hcell : ∀ c < 8, ∀ row, (columnsAt d' (row / 64) c (row % 64) = columnsAt d (row / 64) c
      (row % 64) ↔ LooksSame? (onRow ((run h).keyPressesOf c) t row).getLast?
        (onRow ((run h').keyPressesOf c) t row).getLast?) := by
    intro c hc row
    rw [hd _ _ _ hc (Nat.mod_lt _ (by omega)), hd' _ _ _ hc (Nat.mod_lt _ (by omega)),
      Nat.div_add_mod]
    have hn := hnote h hb c hc row
    have hn' := hnote h' hb' c hc row
    generalize (onRow ((run h).keyPressesOf c) t row).getLast? = x at *
    generalize (onRow ((run h').keyPressesOf c) t row).getLast? = y at *
    cases x with
    | none =>
      cases y with
      | none => exact ⟨fun _ => trivial, fun _ => rfl⟩
      | some n' => exact ⟨fun h => (by cases h), fun h => h.elim⟩
    | some n =>
      cases y with
      | none => exact ⟨fun h => (by cases h), fun h => h.elim⟩
      | some n' =>
        rw [show LooksSame? (some n) (some n') = LooksSame n n' from rfl,
          ← lineOf_same n n' (hn n rfl) (hn' n' rfl)]
        simp only [Option.map_some, Option.some.injEq, List.cons.injEq, and_true,
          DaoNoteColumn.mk.injEq]
        generalize lineOf n = a
        generalize lineOf n' = b
        cases a; cases b
        simp only [Line.mk.injEq]
  obtain ⟨pool, hi, x⟩ := export_run h hb t ht hm
  obtain ⟨pool', hi', x'⟩ := export_run h' hb' t ht hm
  constructor
  · intro heq
    rw [e, e'] at heq
    have hdd : d' = d := by injection heq
    subst hdd
    refine ⟨?_, fun c hc row => (hcell c hc row).mp rfl⟩
    rw [x] at e; rw [x'] at e'
    have e := (Except.ok.inj e)
    have e' := (Except.ok.inj e')
    have := congrArg (fun d : DaoSong => d.instruments.length) (e'.trans e.symm)
    simpa [render] using this
  · rintro ⟨h1, h2⟩
    obtain ⟨d1, y1, k1, k2, k3⟩ := c38_patterns h hb t ht hm
    obtain ⟨d1', y1', k1', k2', k3'⟩ := c38_patterns h' hb' t ht hm
    obtain ⟨d2, y2, k4⟩ := c39_lines h hb t ht hm
    obtain ⟨d2', y2', k4'⟩ := c39_lines h' hb' t ht hm
    rw [e] at y1 y2; rw [e'] at y1' y2'
    cases y1; cases y2; cases y1'; cases y2'
    have hlen : d'.patterns.length = d.patterns.length := by
      have hne : ∀ c < 8, ∀ row, (∃ n ∈ (run h').keyPressesOf c, n.sample / t = row) ↔
          ∃ n ∈ (run h).keyPressesOf c, n.sample / t = row := by
        intro c hc row
        have hx : ∀ l : List Note, (∃ n ∈ l, n.sample / t = row) ↔ (onRow l t row).getLast? ≠ none := by
          intro l
          rw [ne_eq, List.getLast?_eq_none_iff]
          unfold onRow
          rw [List.filter_eq_nil_iff]
          simp
        rw [hx, hx]
        have := h2 c hc row
        generalize (onRow ((run h).keyPressesOf c) t row).getLast? = x at *
        generalize (onRow ((run h').keyPressesOf c) t row).getLast? = y at *
        cases x <;> cases y <;> first | exact this.elim | simp
      have : ∀ p, p < d'.patterns.length ↔ p < d.patterns.length := by
        intro p
        rw [k1, k1']
        constructor
        · rintro ⟨c, hc, n, hn, hle⟩
          obtain ⟨n', hn', e1⟩ := (hne c hc _).mp ⟨n, hn, rfl⟩
          exact ⟨c, hc, n', hn', by rw [e1]; exact hle⟩
        · rintro ⟨c, hc, n, hn, hle⟩
          obtain ⟨n', hn', e1⟩ := (hne c hc _).mpr ⟨n, hn, rfl⟩
          exact ⟨c, hc, n', hn', by rw [e1]; exact hle⟩
      have a := this d.patterns.length
      have b := this d'.patterns.length
      omega
    have hpat : d'.patterns = d.patterns := by
      apply pattern_ext d' d hlen k2' k2
      intro p c hc
      apply lines_ext _ _ (k4' p c).1 (k4 p c).1
      intro r
      by_cases hr : 0 ≤ r ∧ r < 64
      · have := (hcell c hc (64 * p + r.toNat)).mpr (h2 c hc _)
        rw [show (64 * p + r.toNat) / 64 = p by omega,
          show (64 * p + r.toNat) % 64 = r.toNat by omega] at this
        unfold columnsAt at this
        rw [show ((r.toNat : Nat) : Int) = r by omega] at this
        exact this
      · have hno : ∀ l : List DaoLine, (∀ x ∈ l, 0 ≤ x.index ∧ x.index < 64 ∧
            x.noteColumns.length = 1) → l.find? (fun x => decide (x.index = r)) = none := by
          intro l hl
          rw [List.find?_eq_none]
          intro x hx
          have := hl x hx
          simp only [decide_eq_true_eq]
          omega
        rw [hno _ (k4 p c).2, hno _ (k4' p c).2]
    rw [e, e']
    congr 1
    have g : d'.globalSongData = d.globalSongData ∧ d'.instruments = d.instruments ∧
        d'.tracks = d.tracks := by
      rw [x] at e; rw [x'] at e'
      have e := (Except.ok.inj e)
      have e' := (Except.ok.inj e')
      subst e e'
      refine ⟨rfl, ?_, rfl⟩
      simp only [render, List.map_replicate, h1]
    obtain ⟨g1, g2, g3⟩ := g
    have g4 : d'.sequenceEntries = d.sequenceEntries := by rw [k3, k3', hlen]
    cases d; cases d'
    simp only at g1 g2 g3 g4 hpat
    rw [g1, g2, g3, g4, hpat]

/-- The sample three samples later, with another key fraction: the notes differ, the song does not. -/
example : ByteHistory (.wait 3 :: .write 0x31 0xFC :: sample) ∧
    (run (.wait 3 :: .write 0x31 0xFC :: sample)).keyPressesOf 1 ≠ (run sample).keyPressesOf 1 ∧
    (match exportXrns (run (.wait 3 :: .write 0x31 0xFC :: sample)) 50, exportXrns (run sample) 50 with
      | .ok d, .ok d' => decide (d = d')
      | _, _ => false) = true := by
  refine ⟨by decide +kernel, by decide +kernel, by decide +kernel⟩

/-- An octave higher it does. -/
example : (match exportXrns (run (sample.map fun
      | .write 0x29 v => .write 0x29 (v + 16)
      | e => e)) 50, exportXrns (run sample) 50 with
      | .ok d, .ok d' => decide (d = d')
      | _, _ => true) = false := by
  decide +kernel

end VgmX
