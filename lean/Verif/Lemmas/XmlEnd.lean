import Verif.Lemmas.SongText
/-
How a text ends that reads as a song, and where a declaration can stand in a document.
-/

namespace VgmX
open Spec

/-! ### Declarations -/

/-- No `<?` in a text. -/
def NoDecl : Str → Prop
  | '<' :: '?' :: _ => False
  | _ :: s => NoDecl s
  | [] => True

theorem noDecl_skip (c : Char) (s : Str) (h : c ≠ '<') : NoDecl (c :: s) ↔ NoDecl s := by
  rw [NoDecl]
  rintro s' e
  cases e
  exact absurd rfl h

theorem noDecl_plain (a s : Str) (h : ∀ c ∈ a, c ≠ '<') : NoDecl (a ++ s) ↔ NoDecl s := by
  induction a with
  | nil => rfl
  | cons c a ih =>
    rw [List.cons_append, noDecl_skip _ _ (h c (by simp)), ih (fun d hd => h d (by simp [hd]))]

theorem noDecl_tag (c : Char) (s : Str) (h : c ≠ '?') : NoDecl ('<' :: c :: s) ↔ NoDecl (c :: s) := by
  rw [NoDecl]
  rintro s' _ e
  cases e
  exact h rfl

/-- Nowhere. -/
theorem noDecl_not {s : Str} (h : NoDecl s) : ∀ a b, s ≠ a ++ '<' :: '?' :: b := by
  intro a
  induction a generalizing s with
  | nil => rintro b rfl; exact h
  | cons c a ih =>
    rintro b rfl
    refine ih (s := a ++ '<' :: '?' :: b) ?_ b rfl
    by_cases hc : c = '<'
    · subst hc
      cases a with
      | nil => exact (noDecl_tag '<' _ (by decide)).mp h
      | cons d a =>
        by_cases hd : d = '?'
        · subst hd; exact h.elim
        · exact (noDecl_tag d _ hd).mp h
    · exact (noDecl_skip c _ hc).mp h

theorem lit {a : Str} (h : a.all (fun c => c != '<') = true) : ∀ c ∈ a, c ≠ '<' := by
  intro c hc
  have := List.all_eq_true.mp h c hc
  simpa using this

theorem escapeAttr_lt (s : Str) : ∀ c ∈ s.flatMap xmlEscapeAttrChar, c ≠ '<' := by
  intro d hd
  obtain ⟨c, _, hd⟩ := List.mem_flatMap.mp hd
  unfold xmlEscapeAttrChar at hd
  split at hd
  · exact lit (by decide) d hd
  · split at hd
    · exact lit (by decide) d hd
    · split at hd
      · exact lit (by decide) d hd
      · split at hd
        · exact lit (by decide) d hd
        · refine escape_lt [c] d ?_
          unfold xmlEscape
          simpa using hd

theorem attrs_lt (a : List (Str × Str)) (ha : ∀ x ∈ a, IsName x.1) : ∀ c ∈ xmlAttrs a, c ≠ '<' := by
  induction a with
  | nil => simp [xmlAttrs]
  | cons x a ih =>
    obtain ⟨k, v⟩ := x
    intro c hc
    simp only [xmlAttrs] at hc
    rcases List.mem_append.mp hc with hc | hc
    · rcases List.mem_append.mp hc with hc | hc
      · rcases List.mem_append.mp hc with hc | hc
        · rcases List.mem_append.mp hc with hc | hc
          · rcases List.mem_cons.mp hc with rfl | hc
            · decide
            · exact ((ha (k, v) (by simp)).2 c hc).2.2.2.2.2.2
          · exact lit (by decide) c hc
        · exact escapeAttr_lt v c hc
      · exact lit (by decide) c hc
    · exact ih (fun x hx => ha x (by simp [hx])) c hc

theorem noDecl_name (n s : Str) (hn : IsName n) : NoDecl ('<' :: (n ++ s)) ↔ NoDecl s := by
  obtain ⟨hne, hc⟩ := hn
  cases n with
  | nil => exact absurd rfl hne
  | cons c n =>
    rw [List.cons_append, noDecl_tag _ _ (hc c (by simp)).2.2.2.2.2.1, ← List.cons_append,
      noDecl_plain _ _ (fun d hd => (hc d hd).2.2.2.2.2.2)]

theorem noDecl_close (n s : Str) (hn : IsName n) :
    NoDecl ('<' :: '/' :: (n ++ '>' :: '\n' :: s)) ↔ NoDecl s := by
  rw [noDecl_tag _ _ (by decide), noDecl_skip _ _ (by decide),
    noDecl_plain _ _ (fun d hd => (hn.2 d hd).2.2.2.2.2.2), noDecl_skip _ _ (by decide),
    noDecl_skip _ _ (by decide)]

mutual
theorem noDecl_xml (x : Xml) (d : Nat) (s : Str) (hx : x.WF) :
    NoDecl (x.text d ++ s) ↔ NoDecl s := by
  match x, hx with
  | .leaf n a t, hx =>
    obtain ⟨hn, ha, ht⟩ := hx
    have e : (Xml.leaf n a t).text d ++ s = xmlIndent d ++ ('<' :: (n ++ (xmlAttrs a ++ '>' ::
        (xmlEscape t ++ ('<' :: '/' :: (n ++ '>' :: '\n' :: s)))))) := by
      simp [Xml.text]
    rw [e, noDecl_plain _ _ (indent_lt d), noDecl_name _ _ hn, noDecl_plain _ _ (attrs_lt a ha),
      noDecl_skip _ _ (by decide), noDecl_plain _ _ (escape_lt t), noDecl_close _ _ hn]
  | .node n a .nil, hx =>
    obtain ⟨hn, ha, _⟩ := hx
    have e : (Xml.node n a .nil).text d ++ s = xmlIndent d ++ ('<' :: (n ++ (xmlAttrs a ++
        '/' :: '>' :: '\n' :: s))) := by
      simp [Xml.text]
    rw [e, noDecl_plain _ _ (indent_lt d), noDecl_name _ _ hn, noDecl_plain _ _ (attrs_lt a ha),
      noDecl_skip _ _ (by decide), noDecl_skip _ _ (by decide), noDecl_skip _ _ (by decide)]
  | .node n a (.cons x l), hx =>
    obtain ⟨hn, ha, hx1, hx2⟩ := hx
    have e : (Xml.node n a (.cons x l)).text d ++ s = xmlIndent d ++ ('<' :: (n ++ (xmlAttrs a ++
        '>' :: '\n' :: (x.text (d + 1) ++ (l.text (d + 1) ++ (xmlIndent d ++
          ('<' :: '/' :: (n ++ '>' :: '\n' :: s)))))))) := by
      simp [Xml.text]
    rw [e, noDecl_plain _ _ (indent_lt d), noDecl_name _ _ hn, noDecl_plain _ _ (attrs_lt a ha),
      noDecl_skip _ _ (by decide), noDecl_skip _ _ (by decide), noDecl_xml x _ _ hx1,
      noDecl_xmls l _ _ hx2, noDecl_plain _ _ (indent_lt d), noDecl_close _ _ hn]
theorem noDecl_xmls (l : XmlList) (d : Nat) (s : Str) (hl : l.WF) :
    NoDecl (l.text d ++ s) ↔ NoDecl s := by
  match l, hl with
  | .nil, _ => simp [XmlList.text]
  | .cons x l, hl =>
    rw [XmlList.text, List.append_assoc, noDecl_xml x _ _ hl.1, noDecl_xmls l _ _ hl.2]
end

/-- A document has a declaration at its start and none behind. -/
theorem noDecl_document (x : Xml) (hx : x.WF) : NoDecl ((xmlDocument x).drop 1) := by
  have e : ∀ s : Str, ("<?xml version=\"1.0\" encoding=\"UTF-8\"?>\n".toList ++ s).drop 1 =
      "?xml version=\"1.0\" encoding=\"UTF-8\"?>\n".toList ++ s := fun _ => rfl
  unfold xmlDocument
  rw [e, ← List.append_nil (x.text 0), noDecl_plain _ _ (lit (by decide)), noDecl_xml x _ _ hx]
  trivial

/-! ### The last tag -/

theorem tagTok_empty_list {s : Str} (h : tagTok s = some []) : ∃ r, s = '?' :: r := by
  unfold tagTok at h
  split at h
  · exact ⟨_, rfl⟩
  · cases h
  · split at h
    · rw [Option.map_eq_some_iff] at h
      obtain ⟨_, _, h⟩ := h; cases h
    · rw [Option.map_eq_some_iff] at h
      obtain ⟨_, _, h⟩ := h; cases h

theorem tagTok_last {s m : Str} {us : List XTok} (h : tagTok s = some (us ++ [.close m])) :
    s = '/' :: m := by
  unfold tagTok at h
  split at h
  · simp at h
  · simp only [Option.some.injEq] at h
    cases us with
    | nil => cases h; rfl
    | cons u us => simp at h
  · split at h
    · rw [Option.map_eq_some_iff] at h
      obtain ⟨_, _, h⟩ := h
      cases us with
      | nil => cases h
      | cons u us => simp at h
    · rw [Option.map_eq_some_iff] at h
      obtain ⟨_, _, h⟩ := h
      cases us with
      | nil => cases h
      | cons u us => simp at h

theorem append_last {α : Type} {a b us : List α} {x : α} (h : a ++ b = us ++ [x]) :
    (b = [] ∧ a = us ++ [x]) ∨ ∃ vs, b = vs ++ [x] := by
  rcases List.eq_nil_or_concat b with rfl | ⟨vs, y, rfl⟩
  · left; simpa using h
  · right
    rw [List.concat_eq_append, ← List.append_assoc] at h
    have := List.append_inj_right' h rfl
    exact ⟨vs, by rw [List.concat_eq_append, this]⟩

/-- A text whose last token is an end tag. -/
theorem xlex_last (m : Str) : ∀ (s : Str) (mode : XMode) (us : List XTok),
    xlex mode s = some (us ++ [.close m]) →
    (∃ a r, s = a ++ ('<' :: '/' :: (m ++ '>' :: r)) ∧ xlex (.text []) r = some []) ∨
    (∃ acc q c r, mode = .tag acc q ∧ s = c ++ '>' :: r ∧ acc.reverse ++ c = '/' :: m ∧
      xlex (.text []) r = some [])
  | [], .text acc, us, h => by
    rw [xlex] at h
    unfold textTok at h
    split at h
    · simp at h
    · cases us with
      | nil => simp at h
      | cons u us => simp at h
  | [], .tag _ _, us, h => by rw [xlex] at h; cases h
  | c :: s, .text acc, us, h => by
    rw [xlex] at h
    split at h
    · rename_i hc
      subst hc
      rw [Option.map_eq_some_iff] at h
      obtain ⟨l, hl, e⟩ := h
      have htext : ∀ ws : List XTok, textTok acc.reverse ≠ ws ++ [.close m] := by
        intro ws hw
        unfold textTok at hw
        split at hw
        · simp at hw
        · cases ws with
          | nil => simp at hw
          | cons u us => simp at hw
      rcases append_last e with ⟨_, e⟩ | ⟨vs, rfl⟩
      · exact absurd e (htext us)
      · left
        rcases xlex_last m s _ vs hl with ⟨a, r, rfl, hr⟩ | ⟨acc', q, c, r, e1, rfl, e2, hr⟩
        · exact ⟨'<' :: a, r, rfl, hr⟩
        · cases e1
          simp only [List.reverse_nil, List.nil_append] at e2
          subst e2
          exact ⟨[], r, by simp, hr⟩
    · rcases xlex_last m s _ us h with ⟨a, r, rfl, hr⟩ | ⟨acc', q, c, r, e1, _⟩
      · exact .inl ⟨c :: a, r, rfl, hr⟩
      · cases e1
  | c :: s, .tag acc q, us, h => by
    rw [xlex] at h
    have step : ∀ q', xlex (.tag (c :: acc) q') s = some (us ++ [.close m]) →
        (∃ a r, c :: s = a ++ ('<' :: '/' :: (m ++ '>' :: r)) ∧ xlex (.text []) r = some []) ∨
        (∃ acc' q'' c' r, XMode.tag acc q = .tag acc' q'' ∧ c :: s = c' ++ '>' :: r ∧
          acc'.reverse ++ c' = '/' :: m ∧ xlex (.text []) r = some []) := by
      intro q' h
      rcases xlex_last m s _ us h with ⟨a, r, rfl, hr⟩ | ⟨acc', q'', c', r, e1, rfl, e2, hr⟩
      · exact .inl ⟨c :: a, r, rfl, hr⟩
      · cases e1
        exact .inr ⟨acc, q, c :: c', r, rfl, rfl, by simpa using e2, hr⟩
    split at h
    · exact step _ h
    · split at h
      · rename_i hc
        cases ht : tagTok acc.reverse with
        | none => rw [ht] at h; cases h
        | some ts =>
          rw [ht] at h
          dsimp only at h
          rw [Option.map_eq_some_iff] at h
          obtain ⟨l, hl, e⟩ := h
          rcases append_last e with ⟨rfl, rfl⟩ | ⟨vs, rfl⟩
          · right
            exact ⟨acc, q, [], s, rfl, by rw [hc.1]; rfl, by
              rw [List.append_nil]; exact tagTok_last ht, hl⟩
          · rcases xlex_last m s _ vs hl with ⟨a, r, rfl, hr⟩ | ⟨acc', q, c', r, e1, _⟩
            · exact .inl ⟨c :: a, r, rfl, hr⟩
            · cases e1
      · exact step _ h

/-- A tag without a token is a declaration. -/
theorem xlex_decl : ∀ (s acc : Str) (q : Bool), xlex (.tag acc q) s = some [] →
    ∃ r, acc.reverse ++ s = '?' :: r
  | [], _, _, h => by rw [xlex] at h; cases h
  | c :: s, acc, q, h => by
    rw [xlex] at h
    have step : ∀ q', xlex (.tag (c :: acc) q') s = some [] →
        ∃ r, acc.reverse ++ (c :: s) = '?' :: r := by
      intro q' h
      obtain ⟨r, hr⟩ := xlex_decl s (c :: acc) q' h
      exact ⟨r, by simpa using hr⟩
    split at h
    · exact step _ h
    · split at h
      · cases ht : tagTok acc.reverse with
        | none => rw [ht] at h; cases h
        | some ts =>
          rw [ht] at h
          dsimp only at h
          rw [Option.map_eq_some_iff] at h
          obtain ⟨l, hl, e⟩ := h
          rw [List.append_eq_nil_iff] at e
          rw [e.1] at ht
          obtain ⟨r, hr⟩ := tagTok_empty_list ht
          exact ⟨r ++ c :: s, by rw [hr]; rfl⟩
      · exact step _ h

/-- A text without tokens is blank, or blank up to a declaration. -/
theorem xlex_blank : ∀ (s acc : Str), xlex (.text acc) s = some [] →
    (∀ c ∈ s, isBlank c = true) ∨ ∃ b r, (∀ c ∈ b, isBlank c = true) ∧ s = b ++ '<' :: '?' :: r
  | [], _, _ => .inl (by simp)
  | c :: s, acc, h => by
    have key : ∀ {s acc : Str} {a : List XTok}, (xlex (.text acc) s = some [] →
        Blank acc) ∧ True := by
      intro s
      induction s with
      | nil =>
        intro acc _
        refine ⟨fun h => ?_, trivial⟩
        rw [xlex] at h
        unfold textTok at h
        split at h
        · rename_i hb; rw [List.all_reverse] at hb; exact hb
        · simp at h
      | cons c s ih =>
        intro acc _
        refine ⟨fun h => ?_, trivial⟩
        rw [xlex] at h
        split at h
        · rw [Option.map_eq_some_iff] at h
          obtain ⟨l, hl, e⟩ := h
          rw [List.append_eq_nil_iff] at e
          have h := e.1
          unfold textTok at h
          split at h
          · rename_i hb; rw [List.all_reverse] at hb; exact hb
          · simp at h
        · have := (ih (acc := c :: acc) (a := [])).1 h
          unfold Blank at this ⊢
          simp only [List.all_cons, Bool.and_eq_true] at this
          exact this.2
    rw [xlex] at h
    split at h
    · rename_i hc
      subst hc
      rw [Option.map_eq_some_iff] at h
      obtain ⟨l, hl, e⟩ := h
      rw [List.append_eq_nil_iff] at e
      rw [e.2] at hl
      obtain ⟨r, hr⟩ := xlex_decl s [] false hl
      right
      refine ⟨[], r, by simp, ?_⟩
      simpa using hr
    · have hb := (key (a := [])).1 h
      unfold Blank at hb
      simp only [List.all_cons, Bool.and_eq_true] at hb
      rcases xlex_blank s _ h with h | ⟨b, r, h1, rfl⟩
      · left
        intro d hd
        rcases List.mem_cons.mp hd with rfl | hd
        · exact hb.1
        · exact h d hd
      · right
        refine ⟨c :: b, r, ?_, rfl⟩
        intro d hd
        rcases List.mem_cons.mp hd with rfl | hd
        · exact hb.1
        · exact h1 d hd

mutual
/-- The last token of an element with children or text is its end tag. -/
theorem pNode_last : ∀ (k : Nat) (ts : List XTok) (x : Xml) (r : List XTok),
    pNode k ts = some (x, r) →
    (∃ n a, x = .node n a .nil) ∨ ∃ us, ts = us ++ .close (tagName x) :: r
  | 0, ts, x, r, h => by rw [pNode] at h; cases h
  | k + 1, ts, x, r, h => by
    unfold pNode at h
    split at h
    · cases h
    · simp only [Option.some.injEq, Prod.mk.injEq] at h
      exact .inl ⟨_, _, h.1.symm⟩
    · rename_i k' n a s m r' hk
      split at h
      · rename_i e
        simp only [Option.some.injEq, Prod.mk.injEq] at h
        obtain ⟨rfl, rfl⟩ := h
        right
        exact ⟨[.start n a, .text s], by rw [← e]; rfl⟩
      · cases h
    · rename_i k' n a r' _ hk
      cases hk
      cases hp : pKids k r' with
      | none => rw [hp] at h; cases h
      | some y =>
        obtain ⟨l, m, r''⟩ := y
        rw [hp] at h
        dsimp only at h
        split at h
        · rename_i e
          simp only [Option.some.injEq, Prod.mk.injEq] at h
          obtain ⟨rfl, rfl⟩ := h
          obtain ⟨us, hu⟩ := pKids_last k r' l m r'' hp
          right
          exact ⟨.start n a :: us, by rw [hu, e]; rfl⟩
        · cases h
    · cases h
theorem pKids_last : ∀ (k : Nat) (ts : List XTok) (l : XmlList) (m : Str) (r : List XTok),
    pKids k ts = some (l, m, r) → ∃ us, ts = us ++ .close m :: r
  | 0, ts, l, m, r, h => by rw [pKids] at h; cases h
  | k + 1, ts, l, m, r, h => by
    unfold pKids at h
    split at h
    · cases h
    · simp only [Option.some.injEq, Prod.mk.injEq] at h
      obtain ⟨_, rfl, rfl⟩ := h
      exact ⟨[], rfl⟩
    · rename_i ts _ _ k' hk _
      cases hk
      cases hp : pNode k ts with
      | none => rw [hp] at h; cases h
      | some y =>
        obtain ⟨x, r'⟩ := y
        rw [hp] at h
        dsimp only at h
        rw [Option.map_eq_some_iff] at h
        obtain ⟨⟨l', m', r''⟩, hl, e⟩ := h
        simp only [Prod.mk.injEq] at e
        obtain ⟨_, rfl, rfl⟩ := e
        obtain ⟨us, hu⟩ := pKids_last k r' l' m' r'' hl
        obtain ⟨vs, hv⟩ := pNode_rest k ts x r' hp
        exact ⟨vs ++ us, by rw [hv, hu, List.append_assoc]⟩
/-- What is left after an element is the end of the tokens. -/
theorem pNode_rest : ∀ (k : Nat) (ts : List XTok) (x : Xml) (r : List XTok),
    pNode k ts = some (x, r) → ∃ us, ts = us ++ r
  | 0, ts, x, r, h => by rw [pNode] at h; cases h
  | k + 1, ts, x, r, h => by
    unfold pNode at h
    split at h
    · cases h
    · rename_i e
      simp only [Option.some.injEq, Prod.mk.injEq] at h
      obtain ⟨_, rfl⟩ := h
      exact ⟨[_], rfl⟩
    · rename_i k' n a s m r' hk
      split at h
      · simp only [Option.some.injEq, Prod.mk.injEq] at h
        obtain ⟨rfl, rfl⟩ := h
        exact ⟨[.start n a, .text s, .close m], rfl⟩
      · cases h
    · rename_i k' n a r' _ hk
      cases hk
      cases hp : pKids k r' with
      | none => rw [hp] at h; cases h
      | some y =>
        obtain ⟨l, m, r''⟩ := y
        rw [hp] at h
        dsimp only at h
        split at h
        · rename_i e
          simp only [Option.some.injEq, Prod.mk.injEq] at h
          obtain ⟨rfl, rfl⟩ := h
          obtain ⟨us, hu⟩ := pKids_last k r' l m r'' hp
          exact ⟨.start n a :: us ++ [.close m], by rw [hu]; simp⟩
        · cases h
    · cases h
end

/-- A text that reads as a song ends with the end tag of the song, then white space, or white
space and a declaration. -/
theorem readSongXml_end {s : Str} {d : DaoSong} (h : readSongXml s = some d) :
    ∃ a r, s = a ++ ("</RenoiseSong>".toList ++ r) ∧ ((∀ c ∈ r, isBlank c = true) ∨
      ∃ b r', (∀ c ∈ b, isBlank c = true) ∧ r = b ++ '<' :: '?' :: r') := by
  unfold readSongXml at h
  rw [Option.bind_eq_some_iff] at h
  obtain ⟨x, hx, hs⟩ := h
  have hroot : tagName x = "RenoiseSong".toList ∧ ¬ ∃ n a, x = .node n a .nil := by
    unfold readSong at hs
    split at hs
    · rename_i h
      refine ⟨h.1, ?_⟩
      rintro ⟨n, a, rfl⟩
      simp [child, named, kids, kidsList, bind, Option.bind] at hs
    · cases hs
  unfold parseXml at hx
  cases ht : xlex (.text []) s with
  | none => rw [ht] at hx; cases hx
  | some ts =>
    rw [ht] at hx
    dsimp only at hx
    split at hx
    · rename_i y hp
      cases hx
      rcases pNode_last _ _ _ _ hp with h | ⟨us, hu⟩
      · exact absurd h hroot.2
      · rw [hu, hroot.1] at ht
        rcases xlex_last _ _ _ _ ht with ⟨a, r, e, hr⟩ | ⟨_, _, _, _, e, _⟩
        · exact ⟨a, r, by rw [e]; rfl, xlex_blank _ _ hr⟩
        · cases e
    · cases hx

end VgmX
