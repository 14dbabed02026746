import Verif.Lemmas.Damage
import Verif.Lemmas.Zip
import Verif.Props.Writer
/-
An archive whose directory speaks of more data than there is.
-/

namespace VgmX
open Spec

/-! ### A directory for more data than there is -/

/-- The one entry: so many bytes after the header as the directory says. -/
theorem unzip_claimed (t : DateTime) (name data : Bytes) (crc size : Nat) (es : List ZipEntry)
    (hn : name.length < 65536) (hs : data.length < 2 ^ 31) (hsize : size < 256 ^ 4)
    (hu : unzip (zipLocalHeader t name crc size ++ data ++ zipCentralHeader t name crc size ++
      zipEndRecord 1 (zipCentralHeader t name crc size).length
        (zipLocalHeader t name crc size ++ data).length) = some es) :
    ∃ e, es = [e] ∧ slice (zipLocalHeader t name crc size ++ data ++ zipCentralHeader t name crc size
      ++ zipEndRecord 1 (zipCentralHeader t name crc size).length
        (zipLocalHeader t name crc size ++ data).length) (30 + name.length) size = some e.data := by
  have gt : ∀ [Decidable True], (guard True : Option Unit) = some () := guard_true trivial
  generalize hcg : zipCentralHeader t name crc size = c at *
  generalize hlg : zipLocalHeader t name crc size ++ data = l at *
  have hcl : c.length = 46 + name.length := by
    simp only [← hcg, zipCentralHeader, zipCommon, List.length_append, length_pack]
  have hll : l.length = 30 + name.length + data.length := by
    simp only [← hlg, zipLocalHeader, zipCommon, List.length_append, length_pack]
  have hc : c = centralFixed t crc size name.length ++ name := hcg.symm
  have hl : l = localFixed t crc size name.length ++ name ++ data := hlg.symm
  clear hcg hlg
  have hel : (zipEndRecord 1 c.length l.length).length = 22 := by
    simp only [zipEndRecord, List.length_append, length_pack]
  have hcf : (centralFixed t crc size name.length).length = 46 := by
    simp only [centralFixed, zipCommon, List.length_append, length_pack]
  have hlf : (localFixed t crc size name.length).length = 30 := by
    simp only [localFixed, zipCommon, List.length_append, length_pack]
  have hcl4 : c.length < 256 ^ 4 := by omega
  have hll4 : l.length < 256 ^ 4 := by omega
  have e4 := end_count 1 c.length l.length (by decide)
  have e6 := end_offset 1 c.length l.length hll4
  have hn2 : name.length < 256 ^ 2 := by omega
  have c0 := cf_sig t crc size name.length
  have c1 := cf_nl t crc size name.length hn2
  have c2 := cf_xl t crc size name.length
  have c3 := cf_cl t crc size name.length
  have c6 := cf_flags t crc size name.length
  have c7 := cf_method t crc size name.length
  have c8 := cf_csize t crc size name.length hsize
  have l0 := lf_sig t crc size name.length
  have cl := cf_lf t crc size name.length
  have c4 := cf_size t crc size name.length hsize
  have c5 := cf_off t crc size name.length
  have l1 := lf_nl t crc size name.length hn2
  have l2 := lf_xl t crc size name.length
  generalize zipEndRecord 1 c.length l.length = E at *
  generalize centralFixed t crc size name.length = C at *
  generalize localFixed t crc size name.length = L at *
  have hb : l ++ c ++ E = l ++ (C ++ name) ++ E := by rw [hc]
  have hb2 : l ++ c ++ E = (L ++ name ++ data) ++ (C ++ name) ++ E := by rw [hc, hl]
  have hval : readEntry (l ++ c ++ E) l.length =
      (slice (l ++ c ++ E) (30 + name.length) size).bind (fun d =>
        (guard (crc32 d = leAt C 16 4) : Option Unit).bind (fun _ =>
          some (⟨name, d, leAt C 14 2, leAt C 12 2⟩, l.length + 46 + name.length + 0 + 0))) := by
    unfold readEntry
    rw [slice_at _ l C (name ++ E) l.length 46 (by rw [hb]; simp) rfl hcf.symm]
    simp only [Option.bind_eq_bind, Option.bind_some, c0, c1, c2, c3, c4, c5, gt]
    rw [slice_at _ (l ++ C) name E (l.length + 46) name.length (by rw [hb]; simp) (by simp [hcf]) rfl,
      slice_at _ [] L (name ++ data ++ (C ++ name) ++ E) 0 30 (by rw [hb2]; simp) rfl hlf.symm]
    simp only [Option.bind_some, l0, l1, l2, c6, c7, c8, cl, gt, and_self]
    rw [slice_at _ L name (data ++ (C ++ name) ++ E) (0 + 30) name.length (by rw [hb2]; simp)
      (by rw [hlf]) rfl]
    simp only [Option.bind_some, gt, Nat.zero_add, Nat.add_zero]
  have hentry : ∀ e p, readEntry (l ++ c ++ E) l.length = some (e, p) →
      slice (l ++ c ++ E) (30 + name.length) size = some e.data := by
    intro e p h
    rw [hval] at h
    cases hs : slice (l ++ c ++ E) (30 + name.length) size with
    | none => rw [hs] at h; cases h
    | some d =>
      rw [hs, Option.bind_some] at h
      cases hg : (guard (crc32 d = leAt C 16 4) : Option Unit) with
      | none => rw [hg] at h; cases h
      | some _ =>
        rw [hg, Option.bind_some, Option.some.injEq, Prod.mk.injEq] at h
        rw [← h.1]
  obtain ⟨x, h22, hx, _, _, _, _, _, hr⟩ := unzip_end hu
  have hlen : (l ++ c ++ E).length - 22 = l.length + c.length := by simp [hel]; omega
  have hdrop : (l ++ c ++ E).drop (l.length + c.length) = E := by
    rw [← List.length_append, List.drop_left]
  rw [hlen, hdrop] at hx
  rw [hx, e4, e6] at hr
  simp only [readEntries, Option.bind_eq_bind, Option.bind_eq_some_iff] at hr
  obtain ⟨⟨e, p⟩, h1, ⟨es', q⟩, h2, h3⟩ := hr
  simp only [Option.some.injEq, Prod.mk.injEq] at h2 h3
  exact ⟨e, by rw [← h3.1, ← h2.1], hentry e p h1⟩

theorem toNat_ofNat {n : Nat} (h : n < 128) : (Char.ofNat n).toNat = n := by
  unfold Char.ofNat
  rw [dif_pos (by left; omega)]
  rfl

theorem getElem?_byteAt {b : Bytes} {i : Nat} (h : i < b.length) :
    ∃ x, b[i]? = some x ∧ x.toNat = byteAt b i := by
  refine ⟨b[i], List.getElem?_eq_getElem h, ?_⟩
  unfold byteAt
  rw [List.getD_eq_getElem?_getD, List.getElem?_eq_getElem h]
  rfl

/-- The end tag of a song is not among the bytes of a directory. -/
theorem no_end_tag (t : DateTime) (crc size o q : Nat) (hq : 1 ≤ q) (hq' : q + 14 ≤ 40)
    (h : ∀ i c, "</RenoiseSong>".toList[i]? = some c →
      byteAt (zipCentralHeader t (utf8 "Song.xml".toList) crc size ++ zipEndRecord 1
        (zipCentralHeader t (utf8 "Song.xml".toList) crc size).length o) (q + i) = c.toNat) :
    False := by
  obtain ⟨t0, t1, d0, d1, r0, r1, r2, r3, s0, s1, s2, s3, o0, o1, o2, o3, e⟩ :=
    central_bytes t crc size o
  rw [e] at h
  clear e
  have ne : ∀ {a c : Nat}, a = c → Nat.beq a c = false → False :=
    fun h hf => Nat.ne_of_beq_eq_false hf h
  have get : ∀ i < 14, ∃ c, "</RenoiseSong>".toList[i]? = some c ∧ c.toNat ≠ 8 := by decide
  have g0 : "</RenoiseSong>".toList[0]? = some '<' := by decide
  have g6 : "</RenoiseSong>".toList[6]? = some 'i' := by decide
  have g7 : "</RenoiseSong>".toList[7]? = some 's' := by decide
  have g8 : "</RenoiseSong>".toList[8]? = some 'e' := by decide
  have g10 : "</RenoiseSong>".toList[10]? = some 'o' := by decide
  have g11 : "</RenoiseSong>".toList[11]? = some 'n' := by decide
  have g12 : "</RenoiseSong>".toList[12]? = some 'g' := by decide
  generalize "</RenoiseSong>".toList = tag at *
  by_cases h12 : q < 12
  · have k := h 0 _ g0
    clear h get
    interval_cases q <;> exact ne k rfl
  · by_cases h15 : q < 15
    · have : q = 12 ∨ q = 13 ∨ q = 14 := by omega
      rcases this with rfl | rfl | rfl
      · exact absurd ((h 8 _ g8).symm.trans (h 12 _ g12)) (by decide)
      · exact absurd ((h 7 _ g7).symm.trans (h 11 _ g11)) (by decide)
      · exact absurd ((h 6 _ g6).symm.trans (h 10 _ g10)) (by decide)
    · obtain ⟨c, hc, hc8⟩ := get (28 - q) (by omega)
      have k := h _ _ hc
      rw [show q + (28 - q) = 28 by omega] at k
      exact hc8 k.symm

/-- A header for all of a document, a part of the document, and a directory for all of it. -/
theorem damage_data (t : DateTime) (text : Str) (crc k : Nat)
    (hasc : ∀ c ∈ text, c.toNat < 128) (hdecl : NoDecl (text.drop 1))
    (hn : text.length < 2 ^ 31) (hk : k < text.length) :
    readSongFile (zipLocalHeader t (utf8 "Song.xml".toList) crc text.length ++ (utf8 text).take k ++
      zipCentralHeader t (utf8 "Song.xml".toList) crc text.length ++
      zipEndRecord 1 (zipCentralHeader t (utf8 "Song.xml".toList) crc text.length).length
        (zipLocalHeader t (utf8 "Song.xml".toList) crc text.length ++ (utf8 text).take k).length)
      = none := by
  have hutf := utf8_ascii _ hasc
  have hul : (utf8 text).length = text.length := by rw [hutf, List.length_map]
  have hnl : (utf8 "Song.xml".toList).length = 8 := by rw [songName]; rfl
  unfold readSongFile
  split
  · rename_i e hu
    split
    · cases hr : (asciiDecode e.data).bind readSongXml with
      | none => rfl
      | some d =>
        exfalso
        rw [Option.bind_eq_some_iff] at hr
        obtain ⟨S, hS, hd⟩ := hr
        obtain ⟨e', he, hslice⟩ := unzip_claimed t (utf8 "Song.xml".toList) ((utf8 text).take k) crc
          text.length [e] (by rw [hnl]; decide) (by rw [List.length_take]; omega)
          (by omega) hu
        cases he
        clear hu
        have hl := local_length t crc text.length
        rw [List.append_assoc (_ ++ _)] at hslice
        generalize ho : (zipLocalHeader t (utf8 "Song.xml".toList) crc text.length ++
          (utf8 text).take k).length = o at hslice
        have hnot := no_end_tag t crc text.length o
        have hR0 : ∃ R', zipCentralHeader t (utf8 "Song.xml".toList) crc text.length ++
            zipEndRecord 1 (zipCentralHeader t (utf8 "Song.xml".toList) crc text.length).length o
            = 0x50 :: R' := by
          obtain ⟨_, _, _, _, _, _, _, _, _, _, _, _, _, _, _, _, e⟩ :=
            central_bytes t crc text.length o
          exact ⟨_, e⟩
        have hR40 : byteAt (zipCentralHeader t (utf8 "Song.xml".toList) crc text.length ++
            zipEndRecord 1 (zipCentralHeader t (utf8 "Song.xml".toList) crc text.length).length o)
              40 = 128 := by
          obtain ⟨_, _, _, _, _, _, _, _, _, _, _, _, _, _, _, _, e⟩ :=
            central_bytes t crc text.length o
          rw [e]; rfl
        have hRl := central_length t crc text.length o
        generalize zipCentralHeader t (utf8 "Song.xml".toList) crc text.length ++
            zipEndRecord 1 (zipCentralHeader t (utf8 "Song.xml".toList) crc text.length).length o
            = R at *
        generalize zipLocalHeader t (utf8 "Song.xml".toList) crc text.length = H at *
        -- the data that is read
        unfold slice at hslice
        split at hslice
        swap
        · cases hslice
        rename_i hlen
        rw [List.length_append, List.length_append, List.length_take, hul, hl, hnl, hRl] at hlen
        have hdata : e.data = (utf8 text).take k ++ R.take (text.length - k) := by
          simp only [Option.some.injEq] at hslice
          rw [← hslice, hnl, show 30 + 8 = H.length by rw [hl], List.append_assoc, List.drop_left, List.take_append,
            List.length_take, hul, List.take_of_length_le (by rw [List.length_take]; omega),
            Nat.min_eq_left (by omega)]
        clear hslice
        -- its characters
        unfold asciiDecode at hS
        split at hS
        swap
        · cases hS
        rename_i hall
        simp only [Option.some.injEq] at hS
        rw [List.all_eq_true] at hall
        have hTl : (R.take (text.length - k)).length = text.length - k := by
          rw [List.length_take]; omega
        have h40 : text.length - k ≤ 40 := by
          by_contra hgt
          obtain ⟨x, hx, hxv⟩ := getElem?_byteAt (b := R.take (text.length - k)) (i := 40)
            (by omega)
          rw [byteAt_take (by omega), hR40] at hxv
          have := hall x (by
            rw [hdata]
            exact List.mem_append_right _ (List.mem_of_getElem? hx))
          simp at this
          omega
        have hback : ((utf8 text).take k).map (fun x : UInt8 => Char.ofNat x.toNat) = text.take k := by
          rw [hutf, ← List.map_take, List.map_map]
          conv_rhs => rw [← List.map_id (text.take k)]
          apply List.map_congr_left
          intro c hc
          have h128 := hasc c (List.mem_of_mem_take hc)
          simp only [Function.comp_apply, id_eq]
          rw [UInt8.toNat_ofNat', Nat.mod_eq_of_lt (by omega), Char.ofNat_toNat]
        have hSe : S = text.take k ++ (R.take (text.length - k)).map
            (fun x : UInt8 => Char.ofNat x.toNat) := by
          rw [← hS, hdata, List.map_append, hback]
        have htk : (text.take k).length = k := by rw [List.length_take]; omega
        have hSk : S[k]? = some 'P' := by
          obtain ⟨R', rfl⟩ := hR0
          obtain ⟨j, hj⟩ : ∃ j, text.length - k = j + 1 := ⟨text.length - k - 1, by omega⟩
          rw [hSe, List.getElem?_append_right (by omega), htk, Nat.sub_self, hj]
          rfl
        obtain ⟨a, r, hend, hrest⟩ := readSongXml_end hd
        have htag : ("</RenoiseSong>".toList).length = 14 := by decide
        have htagc : ∀ i < 14, "</RenoiseSong>".toList[i]? ≠ some 'P' := by decide
        have hSl : S.length = text.length := by
          rw [hSe, List.length_append, List.length_map, htk, hTl]; omega
        generalize htg : "</RenoiseSong>".toList = tag at *
        have hSl2 : S.length = a.length + (14 + r.length) := by
          rw [hend, List.length_append, List.length_append, htag]
        by_cases h1 : k < a.length
        · -- the tag is behind the part
          refine hnot (a.length - k) (by omega) (by omega) ?_
          intro i c hc
          have hi : i < 14 := by
            have := (List.getElem?_eq_some_iff.mp hc).1
            omega
          have e1 : S[a.length + i]? = some c := by
            rw [hend, List.getElem?_append_right (by omega), Nat.add_sub_cancel_left,
              List.getElem?_append_left (by omega), hc]
          rw [hSe, List.getElem?_append_right (by omega), htk, List.getElem?_map,
            Option.map_eq_some_iff] at e1
          obtain ⟨x, hx, hxc⟩ := e1
          have hx128 := hall x (by
            rw [hdata]
            exact List.mem_append_right _ (List.mem_of_getElem? hx))
          simp only [decide_eq_true_eq] at hx128
          have hxl := (List.getElem?_eq_some_iff.mp hx).1
          obtain ⟨y, hy, hyv⟩ := getElem?_byteAt hxl
          rw [hx] at hy
          cases hy
          rw [byteAt_take (by omega)] at hyv
          rw [show a.length - k + i = a.length + i - k by omega, ← hyv, ← hxc]
          exact (toNat_ofNat (by omega)).symm
        · by_cases h2 : k < a.length + 14
          · rw [hend, List.getElem?_append_right (by omega),
              List.getElem?_append_left (by omega)] at hSk
            exact htagc _ (by omega) hSk
          · have hrk : r[k - a.length - 14]? = some 'P' := by
              rw [hend, List.getElem?_append_right (by omega),
                List.getElem?_append_right (by omega), htag] at hSk
              exact hSk
            rcases hrest with hb | ⟨b, r', hb, rfl⟩
            · have := hb _ (List.mem_of_getElem? hrk)
              exact absurd this (by decide)
            · by_cases h3 : k - a.length - 14 < b.length
              · rw [List.getElem?_append_left h3] at hrk
                exact absurd (hb _ (List.mem_of_getElem? hrk)) (by decide)
              · rw [List.getElem?_append_right (by omega)] at hrk
                have h4 : 2 ≤ k - a.length - 14 - b.length := by
                  by_contra h4
                  have : k - a.length - 14 - b.length = 0 ∨ k - a.length - 14 - b.length = 1 := by
                    omega
                  rcases this with e | e
                  · rw [e] at hrk; revert hrk; simp
                  · rw [e] at hrk; revert hrk; simp
                -- a declaration within the part
                have hpre : S.take k = text.take k := by
                  rw [hSe, List.take_left' htk]
                have hS2 : S = (a ++ tag ++ b ++ ['<', '?']) ++ r' := by rw [hend]; simp
                have hl2 : (a ++ tag ++ b ++ ['<', '?']).length ≤ k := by
                  simp only [List.length_append, List.length_cons, List.length_nil, htag]; omega
                have ht2 : text = (a ++ tag ++ b ++ ['<', '?']) ++
                    text.drop (a ++ tag ++ b ++ ['<', '?']).length := by
                  conv_lhs => rw [← List.take_append_drop (a ++ tag ++ b ++ ['<', '?']).length text]
                  congr 1
                  have := congrArg (List.take (a ++ tag ++ b ++ ['<', '?']).length) hpre
                  rw [List.take_take, List.take_take, Nat.min_eq_left hl2] at this
                  rw [← this, hS2, List.take_left]
                apply noDecl_not hdecl ((a ++ tag ++ b).drop 1)
                  (text.drop (a ++ tag ++ b ++ ['<', '?']).length)
                conv_lhs => rw [ht2]
                have e3 : a ++ tag ++ b ++ ['<', '?'] ++
                    text.drop (a ++ tag ++ b ++ ['<', '?']).length = (a ++ tag ++ b) ++
                    ('<' :: '?' :: text.drop (a ++ tag ++ b ++ ['<', '?']).length) := by simp
                rw [e3, List.drop_append_of_le_length (by
                  simp only [List.length_append, htag]; omega)]
    · rfl
  · rfl

end VgmX
