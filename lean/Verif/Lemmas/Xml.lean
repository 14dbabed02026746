import Verif.Spec.Xml
import Verif.Lemmas.Text
/-
The parser of Spec/Xml reads back what the writer of Model/Xml writes.
-/

namespace VgmX
open Spec

theorem unescape_ne (c : Char) (s : Str) (h : c ≠ '&') : unescape (c :: s) = c :: unescape s := by
  rw [unescape] <;> (intros; exact absurd ‹_› h)

theorem unescape_escapeChar (c : Char) (s : Str) :
    unescape (xmlEscapeChar c ++ s) = c :: unescape s := by
  unfold xmlEscapeChar
  split
  · rename_i h; subst h; simp [unescape]
  · split
    · rename_i h; subst h; simp [unescape]
    · split
      · rename_i h; subst h; simp [unescape]
      · rename_i h _ _; exact unescape_ne c s h

theorem unescape_escape (s : Str) : unescape (xmlEscape s) = s := by
  induction s with
  | nil => simp [xmlEscape, unescape]
  | cons c s ih =>
    rw [xmlEscape, List.flatMap_cons, unescape_escapeChar]
    exact congrArg _ ih

theorem unescape_escapeAttrChar (c : Char) (s : Str) :
    unescape (xmlEscapeAttrChar c ++ s) = c :: unescape s := by
  unfold xmlEscapeAttrChar
  split
  · rename_i h; subst h; simp [unescape]
  · split
    · rename_i h; subst h; simp [unescape]
    · split
      · rename_i h; subst h; simp [unescape]
      · split
        · rename_i h; subst h; simp [unescape]
        · exact unescape_escapeChar c s

theorem unescape_escapeAttr (s : Str) : unescape (s.flatMap xmlEscapeAttrChar) = s := by
  induction s with
  | nil => simp [unescape]
  | cons c s ih => rw [List.flatMap_cons, unescape_escapeAttrChar, ih]

theorem escape_lt (s : Str) : ∀ c ∈ xmlEscape s, c ≠ '<' := by
  intro c hc
  obtain ⟨d, _, hd⟩ := List.mem_flatMap.mp hc
  clear hc
  unfold xmlEscapeChar at hd
  split at hd
  · revert hd; revert c; decide
  · split at hd
    · revert hd; revert c; decide
    · split at hd
      · revert hd; revert c; decide
      · rename_i h _
        rw [List.mem_singleton.mp hd]; exact h

theorem escapeAttr_quote (s : Str) : ∀ c ∈ s.flatMap xmlEscapeAttrChar, c ≠ '"' := by
  intro c hc
  obtain ⟨d, _, hd⟩ := List.mem_flatMap.mp hc
  clear hc
  unfold xmlEscapeAttrChar at hd
  split at hd
  · revert hd; revert c; decide
  · rename_i hq
    split at hd
    · revert hd; revert c; decide
    · split at hd
      · revert hd; revert c; decide
      · split at hd
        · revert hd; revert c; decide
        · unfold xmlEscapeChar at hd
          split at hd
          · revert hd; revert c; decide
          · split at hd
            · revert hd; revert c; decide
            · split at hd
              · revert hd; revert c; decide
              · rw [List.mem_singleton.mp hd]; exact hq

/-! ### Names -/

/-- A character of a name. -/
def NameChar (c : Char) : Prop :=
  isBlank c = false ∧ c ≠ '"' ∧ c ≠ '>' ∧ c ≠ '=' ∧ c ≠ '/' ∧ c ≠ '?' ∧ c ≠ '<'

instance (c : Char) : Decidable (NameChar c) := by unfold NameChar; infer_instance

/-- A name of an element or attribute. -/
def IsName (n : Str) : Prop := n ≠ [] ∧ ∀ c ∈ n, NameChar c

instance (n : Str) : Decidable (IsName n) := by unfold IsName; infer_instance

mutual
/-- Names are names, and texts are not blank. -/
def Xml.WF : Xml → Prop
  | .leaf n a t => IsName n ∧ (∀ x ∈ a, IsName x.1) ∧ ∃ c ∈ t, isBlank c = false
  | .node n a l => IsName n ∧ (∀ x ∈ a, IsName x.1) ∧ l.WF
/-- See `Xml.WF`. -/
def XmlList.WF : XmlList → Prop
  | .nil => True
  | .cons x l => x.WF ∧ l.WF
end

mutual
/-- The tokens of an element. -/
def Xml.toks : Xml → List XTok
  | .leaf n a t => [.start n a, .text t, .close n]
  | .node n a .nil => [.empty n a]
  | .node n a (.cons x l) => .start n a :: (x.toks ++ l.toks ++ [.close n])
/-- The tokens of elements. -/
def XmlList.toks : XmlList → List XTok
  | .nil => []
  | .cons x l => x.toks ++ l.toks
end

/-! ### Attributes -/

theorem readAttrs_key (acc k s : Str) (h : ∀ c ∈ k, NameChar c) :
    readAttrs (.key acc) (k ++ '=' :: s) = readAttrs (.eq (acc.reverse ++ k)) s := by
  induction k generalizing acc with
  | nil => simp [readAttrs]
  | cons c k ih =>
    have hc := h c List.mem_cons_self
    rw [List.cons_append, readAttrs, if_neg hc.2.2.2.1, ih _ (fun x hx => h x (List.mem_cons_of_mem _ hx))]
    simp

theorem readAttrs_val (k acc v s : Str) (h : ∀ c ∈ v, c ≠ '"') :
    readAttrs (.val k acc) (v ++ '"' :: s) =
      (readAttrs .space s).map (fun l => (k, unescape (acc.reverse ++ v)) :: l) := by
  induction v generalizing acc with
  | nil => simp [readAttrs]
  | cons c v ih =>
    have hc := h c List.mem_cons_self
    rw [List.cons_append, readAttrs, if_neg hc, ih _ (fun x hx => h x (List.mem_cons_of_mem _ hx))]
    simp

theorem readAttrs_xmlAttrs (a : List (Str × Str)) (h : ∀ x ∈ a, IsName x.1) :
    readAttrs .space (xmlAttrs a) = some a := by
  induction a with
  | nil => rfl
  | cons x a ih =>
    obtain ⟨k, v⟩ := x
    have hk := h (k, v) List.mem_cons_self
    obtain ⟨hk0, hk1⟩ := hk
    cases k with
    | nil => exact absurd rfl hk0
    | cons c k =>
      have e : xmlAttrs ((c :: k, v) :: a) =
          ' ' :: c :: (k ++ '=' :: '"' :: (v.flatMap xmlEscapeAttrChar ++ '"' :: xmlAttrs a)) := by
        simp [xmlAttrs]
      rw [e, readAttrs, if_pos (by decide), readAttrs,
        if_neg (by rw [(hk1 c List.mem_cons_self).1]; simp),
        readAttrs_key _ _ _ (fun x hx => hk1 x (List.mem_cons_of_mem _ hx)), readAttrs, if_pos rfl,
        readAttrs_val _ _ _ _ (escapeAttr_quote v), ih (fun x hx => h x (List.mem_cons_of_mem _ hx))]
      simp [unescape_escapeAttr]

theorem xmlAttrs_head (a : List (Str × Str)) : xmlAttrs a = [] ∨ ∃ s, xmlAttrs a = ' ' :: s := by
  cases a with
  | nil => exact .inl rfl
  | cons x a => exact .inr ⟨_, rfl⟩

theorem split_name (n : Str) (a : List (Str × Str)) (hn : ∀ c ∈ n, NameChar c) :
    (n ++ xmlAttrs a).takeWhile (fun c => !isBlank c) = n ∧
    (n ++ xmlAttrs a).dropWhile (fun c => !isBlank c) = xmlAttrs a := by
  induction n with
  | nil =>
    rcases xmlAttrs_head a with h | ⟨s, h⟩
    · rw [h]; simp
    · rw [h]; simp [isBlank]
  | cons c n ih =>
    have hc := hn c List.mem_cons_self
    have := ih (fun x hx => hn x (List.mem_cons_of_mem _ hx))
    rw [List.cons_append, List.takeWhile_cons, List.dropWhile_cons]
    simp [hc.1, this]

theorem readTag_name (n : Str) (a : List (Str × Str)) (hn : IsName n) (ha : ∀ x ∈ a, IsName x.1) :
    readTag (n ++ xmlAttrs a) = some (n, a) := by
  obtain ⟨h1, h2⟩ := split_name n a hn.2
  unfold readTag
  rw [h1, h2, readAttrs_xmlAttrs a ha]
  rfl

theorem last_not_slash (n : Str) (a : List (Str × Str)) (hn : IsName n) :
    (n ++ xmlAttrs a).getLast? ≠ some '/' := by
  have hlast : ∀ a : List (Str × Str), a ≠ [] → (xmlAttrs a).getLast? = some '"' := by
    intro a
    induction a with
    | nil => intro h; exact absurd rfl h
    | cons x a ih =>
      intro _
      cases a with
      | nil => simp [xmlAttrs, List.getLast?_append, List.getLast?_cons]
      | cons y a =>
        have e : ∃ s, xmlAttrs (x :: y :: a) = s ++ xmlAttrs (y :: a) := ⟨_, rfl⟩
        obtain ⟨s, e⟩ := e
        rw [e, List.getLast?_append, ih (by simp)]
        rfl
  cases a with
  | nil =>
    simp only [xmlAttrs, List.append_nil]
    intro h
    exact (hn.2 _ (List.mem_of_getLast? h)).2.2.2.2.1 rfl
  | cons x a =>
    rw [List.getLast?_append, hlast _ (by simp)]
    simp

theorem tagTok_name (s : Str) (n : Str) (hn : IsName n) (h : ∃ t, s = n ++ t) :
    tagTok s = if s.getLast? = some '/' then (readTag s.dropLast).map (fun r => [.empty r.1 r.2])
      else (readTag s).map (fun r => [.start r.1 r.2]) := by
  obtain ⟨t, rfl⟩ := h
  obtain ⟨h0, h1⟩ := hn
  cases n with
  | nil => exact absurd rfl h0
  | cons c n =>
    have hc := h1 c List.mem_cons_self
    rw [List.cons_append, tagTok]
    · intro s e; exact absurd (List.cons.inj e).1 hc.2.2.2.2.2.1
    · intro s e; exact absurd (List.cons.inj e).1 hc.2.2.2.2.1

theorem tagTok_start (n : Str) (a : List (Str × Str)) (hn : IsName n) (ha : ∀ x ∈ a, IsName x.1) :
    tagTok (n ++ xmlAttrs a) = some [.start n a] := by
  rw [tagTok_name _ n hn ⟨_, rfl⟩, if_neg (last_not_slash n a hn), readTag_name n a hn ha]
  rfl

theorem tagTok_empty (n : Str) (a : List (Str × Str)) (hn : IsName n) (ha : ∀ x ∈ a, IsName x.1) :
    tagTok (n ++ xmlAttrs a ++ ['/']) = some [.empty n a] := by
  rw [tagTok_name _ n hn ⟨xmlAttrs a ++ ['/'], by simp⟩, if_pos (by simp), List.dropLast_concat,
    readTag_name n a hn ha]
  rfl

/-! ### Tags and text -/

theorem xlex_tag_run (acc n s : Str) (hn : ∀ c ∈ n, c ≠ '"' ∧ c ≠ '>') :
    xlex (.tag acc false) (n ++ s) = xlex (.tag (n.reverse ++ acc) false) s := by
  induction n generalizing acc with
  | nil => rfl
  | cons c n ih =>
    have hc := hn c List.mem_cons_self
    rw [List.cons_append, xlex, if_neg hc.1, if_neg (fun h => hc.2 h.1),
      ih _ (fun x hx => hn x (List.mem_cons_of_mem _ hx))]
    simp

theorem xlex_tag_quoted (acc v s : Str) (hv : ∀ c ∈ v, c ≠ '"') :
    xlex (.tag acc true) (v ++ '"' :: s) = xlex (.tag ('"' :: v.reverse ++ acc) false) s := by
  induction v generalizing acc with
  | nil => simp [xlex]
  | cons c v ih =>
    have hc := hv c List.mem_cons_self
    rw [List.cons_append, xlex, if_neg hc, if_neg (by simp),
      ih _ (fun x hx => hv x (List.mem_cons_of_mem _ hx))]
    simp

theorem xlex_attrs (acc s : Str) (a : List (Str × Str)) (ha : ∀ x ∈ a, IsName x.1) :
    xlex (.tag acc false) (xmlAttrs a ++ s) = xlex (.tag ((xmlAttrs a).reverse ++ acc) false) s := by
  induction a generalizing acc with
  | nil => rfl
  | cons x a ih =>
    obtain ⟨k, v⟩ := x
    have hk := (ha (k, v) List.mem_cons_self).2
    have e : xmlAttrs ((k, v) :: a) ++ s =
        (' ' :: k ++ ['=']) ++ '"' :: (v.flatMap xmlEscapeAttrChar ++ '"' :: (xmlAttrs a ++ s)) := by
      simp [xmlAttrs]
    rw [e, xlex_tag_run, xlex, if_pos rfl, Bool.not_false,
      xlex_tag_quoted _ _ _ (escapeAttr_quote v), ih _ (fun x hx => ha x (List.mem_cons_of_mem _ hx))]
    · simp [xmlAttrs]
    · intro c hc
      simp only [List.cons_append, List.mem_cons, List.mem_append, List.not_mem_nil, or_false] at hc
      rcases hc with rfl | hc | rfl
      · decide
      · exact ⟨(hk c hc).2.1, (hk c hc).2.2.1⟩
      · decide

theorem xlex_text_run (acc t s : Str) (ht : ∀ c ∈ t, c ≠ '<') :
    xlex (.text acc) (t ++ s) = xlex (.text (t.reverse ++ acc)) s := by
  induction t generalizing acc with
  | nil => rfl
  | cons c t ih =>
    rw [List.cons_append, xlex, if_neg (ht c List.mem_cons_self),
      ih _ (fun x hx => ht x (List.mem_cons_of_mem _ hx))]
    simp

/-- A start tag, from text mode. -/
theorem xlex_start (acc n s : Str) (a : List (Str × Str)) (hn : IsName n)
    (ha : ∀ x ∈ a, IsName x.1) :
    xlex (.text acc) ('<' :: n ++ xmlAttrs a ++ '>' :: s) =
      (xlex (.text []) s).map (fun l => textTok acc.reverse ++ .start n a :: l) := by
  have e : '<' :: n ++ xmlAttrs a ++ '>' :: s = '<' :: (n ++ (xmlAttrs a ++ '>' :: s)) := by simp
  rw [e, xlex, if_pos rfl, xlex_tag_run _ _ _ (fun c hc => ⟨(hn.2 c hc).2.1, (hn.2 c hc).2.2.1⟩),
    xlex_attrs _ _ _ ha, xlex, if_neg (by decide), if_pos ⟨rfl, rfl⟩]
  have : ((xmlAttrs a).reverse ++ (n.reverse ++ [])).reverse = n ++ xmlAttrs a := by simp
  rw [this, tagTok_start n a hn ha]
  simp only [Option.map_map]
  rfl

/-- An empty-element tag, from text mode. -/
theorem xlex_empty (acc n s : Str) (a : List (Str × Str)) (hn : IsName n)
    (ha : ∀ x ∈ a, IsName x.1) :
    xlex (.text acc) ('<' :: n ++ xmlAttrs a ++ '/' :: '>' :: s) =
      (xlex (.text []) s).map (fun l => textTok acc.reverse ++ .empty n a :: l) := by
  have e : '<' :: n ++ xmlAttrs a ++ '/' :: '>' :: s =
      '<' :: (n ++ (xmlAttrs a ++ ('/' :: '>' :: s))) := by simp
  rw [e, xlex, if_pos rfl, xlex_tag_run _ _ _ (fun c hc => ⟨(hn.2 c hc).2.1, (hn.2 c hc).2.2.1⟩),
    xlex_attrs _ _ _ ha, xlex, if_neg (by decide), if_neg (by decide), xlex, if_neg (by decide),
    if_pos ⟨rfl, rfl⟩]
  have : ('/' :: ((xmlAttrs a).reverse ++ (n.reverse ++ []))).reverse = n ++ xmlAttrs a ++ ['/'] := by
    simp
  rw [this, tagTok_empty n a hn ha]
  simp only [Option.map_map]
  rfl

/-- An end tag, from text mode. -/
theorem xlex_close (acc n s : Str) (hn : IsName n) :
    xlex (.text acc) ("</".toList ++ n ++ '>' :: s) =
      (xlex (.text []) s).map (fun l => textTok acc.reverse ++ .close n :: l) := by
  have e : "</".toList ++ n ++ '>' :: s = '<' :: ((['/'] ++ n) ++ '>' :: s) := by simp
  rw [e, xlex, if_pos rfl, xlex_tag_run _ _ _ (fun c hc => by
    rcases List.mem_append.mp hc with h | h
    · rw [List.mem_singleton.mp h]; decide
    · exact ⟨(hn.2 c h).2.1, (hn.2 c h).2.2.1⟩), xlex, if_neg (by decide), if_pos ⟨rfl, rfl⟩]
  have : ((['/'] ++ n).reverse ++ []).reverse = '/' :: n := by simp
  rw [this, tagTok]
  simp only [Option.map_map]
  rfl

/-- Only white space so far. -/
def Blank (acc : Str) : Prop := acc.all isBlank = true

instance (acc : Str) : Decidable (Blank acc) := by unfold Blank; infer_instance

theorem textTok_blank {acc : Str} (h : Blank acc) : textTok acc.reverse = [] := by
  unfold textTok
  rw [if_pos (by rw [List.all_reverse]; exact h)]

theorem blank_indent {acc : Str} (h : Blank acc) (d : Nat) :
    Blank ((xmlIndent d).reverse ++ acc) := by
  unfold Blank xmlIndent at *
  rw [List.all_append, h]
  simp [isBlank]

theorem indent_lt (d : Nat) : ∀ c ∈ xmlIndent d, c ≠ '<' := by
  intro c hc
  rw [(List.mem_replicate.mp hc).2]; decide

theorem escape_nonblank (t : Str) (h : ∃ c ∈ t, isBlank c = false) :
    (xmlEscape t).all isBlank = false := by
  obtain ⟨c, hc, hb⟩ := h
  rw [List.all_eq_false]
  have : ∃ d ∈ xmlEscapeChar c, isBlank d = false := by
    unfold xmlEscapeChar
    split
    · exact ⟨'&', by decide, by decide⟩
    · split
      · exact ⟨'&', by decide, by decide⟩
      · split
        · exact ⟨'&', by decide, by decide⟩
        · exact ⟨c, by simp, hb⟩
  obtain ⟨d, hd, hdb⟩ := this
  exact ⟨d, List.mem_flatMap.mpr ⟨c, hc, hd⟩, by rw [hdb]; simp⟩

theorem xlex_newline (s : Str) : xlex (.text []) ('\n' :: s) = xlex (.text ['\n']) s := by
  rw [xlex, if_neg (by decide)]

mutual
theorem xlex_xml (x : Xml) (d : Nat) (acc s : Str) (hx : x.WF) (hacc : Blank acc) :
    ∃ acc', Blank acc' ∧ xlex (.text acc) (x.text d ++ s) =
      (xlex (.text acc') s).map (fun l => x.toks ++ l) := by
  match x, hx with
  | .leaf n a t, hx =>
    obtain ⟨hn, ha, ht⟩ := hx
    refine ⟨['\n'], by decide, ?_⟩
    have e : (Xml.leaf n a t).text d ++ s = xmlIndent d ++ ('<' :: n ++ xmlAttrs a ++ '>' ::
        (xmlEscape t ++ ("</".toList ++ n ++ '>' :: ('\n' :: s)))) := by
      simp [Xml.text]
    rw [e, xlex_text_run _ _ _ (indent_lt d), xlex_start _ _ _ _ hn ha,
      textTok_blank (blank_indent hacc d), xlex_text_run _ _ _ (escape_lt t), xlex_close _ _ _ hn,
      xlex_newline]
    have ht' : textTok ((xmlEscape t).reverse ++ []).reverse = [.text t] := by
      unfold textTok
      simp [escape_nonblank t ht, unescape_escape]
    rw [ht', Option.map_map]
    rfl
  | .node n a .nil, hx =>
    obtain ⟨hn, ha, _⟩ := hx
    refine ⟨['\n'], by decide, ?_⟩
    have e : (Xml.node n a .nil).text d ++ s = xmlIndent d ++ ('<' :: n ++ xmlAttrs a ++
        '/' :: '>' :: ('\n' :: s)) := by
      simp [Xml.text]
    rw [e, xlex_text_run _ _ _ (indent_lt d), xlex_empty _ _ _ _ hn ha,
      textTok_blank (blank_indent hacc d), xlex_newline]
    rfl
  | .node n a (.cons x l), hx =>
    obtain ⟨hn, ha, hx1, hx2⟩ := hx
    refine ⟨['\n'], by decide, ?_⟩
    have e : (Xml.node n a (.cons x l)).text d ++ s = xmlIndent d ++ ('<' :: n ++ xmlAttrs a ++
        '>' :: ('\n' :: (x.text (d + 1) ++ (l.text (d + 1) ++ (xmlIndent d ++
          ("</".toList ++ n ++ '>' :: ('\n' :: s))))))) := by
      simp [Xml.text]
    obtain ⟨acc1, hacc1, e1⟩ := xlex_xml x (d + 1) ['\n'] (l.text (d + 1) ++ (xmlIndent d ++
          ("</".toList ++ n ++ '>' :: ('\n' :: s)))) hx1 (by decide)
    obtain ⟨acc2, hacc2, e2⟩ := xlex_list l (d + 1) acc1 (xmlIndent d ++
          ("</".toList ++ n ++ '>' :: ('\n' :: s))) hx2 hacc1
    rw [e, xlex_text_run _ _ _ (indent_lt d), xlex_start _ _ _ _ hn ha,
      textTok_blank (blank_indent hacc d), xlex_newline, e1, e2, xlex_text_run _ _ _ (indent_lt d),
      xlex_close _ _ _ hn, textTok_blank (blank_indent hacc2 d), xlex_newline]
    simp only [Option.map_map, Xml.toks]
    congr 1
    funext y
    simp
theorem xlex_list (l : XmlList) (d : Nat) (acc s : Str) (hl : l.WF) (hacc : Blank acc) :
    ∃ acc', Blank acc' ∧ xlex (.text acc) (l.text d ++ s) =
      (xlex (.text acc') s).map (fun t => l.toks ++ t) := by
  match l, hl with
  | .nil, _ => exact ⟨acc, hacc, by simp [XmlList.text, XmlList.toks]⟩
  | .cons x l, hl =>
    obtain ⟨acc1, hacc1, e1⟩ := xlex_xml x d acc (l.text d ++ s) hl.1 hacc
    obtain ⟨acc2, hacc2, e2⟩ := xlex_list l d acc1 s hl.2 hacc1
    refine ⟨acc2, hacc2, ?_⟩
    rw [XmlList.text, List.append_assoc, e1, e2]
    simp only [Option.map_map, XmlList.toks]
    congr 1
    funext y
    simp
end

mutual
theorem pNode_toks (x : Xml) (k : Nat) (r : List XTok) (hk : x.toks.length < k) :
    pNode k (x.toks ++ r) = some (x, r) := by
  match x, k, hk with
  | _, 0, hk => omega
  | .leaf n a t, k + 1, hk => simp [Xml.toks, pNode]
  | .node n a .nil, k + 1, hk => simp [Xml.toks, pNode]
  | .node n a (.cons x l), k + 1, hk =>
    simp only [Xml.toks, List.length_cons, List.length_append, List.length_nil] at hk
    have h : pKids k ((XmlList.cons x l).toks ++ .close n :: r) = some (.cons x l, n, r) :=
      pKids_toks (.cons x l) k n r (by simp only [XmlList.toks, List.length_append]; omega)
    have e : (Xml.node n a (.cons x l)).toks ++ r =
        .start n a :: ((XmlList.cons x l).toks ++ .close n :: r) := by
      simp [Xml.toks, XmlList.toks]
    rw [e, pNode]
    · rw [h]; simp
    · intro s m r' he
      have hx : ∀ y : Xml, ∀ s q, y.toks ≠ .text s :: q := by
        intro y s q
        match y with
        | .leaf _ _ _ => simp [Xml.toks]
        | .node _ _ .nil => simp [Xml.toks]
        | .node _ _ (.cons _ _) => simp [Xml.toks]
      have hne : ∀ y : Xml, y.toks ≠ [] := by
        intro y
        match y with
        | .leaf _ _ _ => simp [Xml.toks]
        | .node _ _ .nil => simp [Xml.toks]
        | .node _ _ (.cons _ _) => simp [Xml.toks]
      rw [XmlList.toks] at he
      cases hxt : x.toks with
      | nil => exact hne x hxt
      | cons y ys =>
        rw [hxt] at he
        simp only [List.cons_append] at he
        exact hx x s ys (by rw [hxt, (List.cons.inj he).1])
theorem pKids_toks (l : XmlList) (k : Nat) (n : Str) (r : List XTok) (hk : l.toks.length + 1 < k) :
    pKids k (l.toks ++ .close n :: r) = some (l, n, r) := by
  match l, k, hk with
  | _, 0, hk => omega
  | .nil, k + 1, _ => simp [XmlList.toks, pKids]
  | .cons x l, k + 1, hk =>
    simp only [XmlList.toks, List.length_append] at hk
    have hx : x.toks.length ≠ 0 ∧ ∀ m q, x.toks ≠ .close m :: q := by
      match x with
      | .leaf _ _ _ => simp [Xml.toks]
      | .node _ _ .nil => simp [Xml.toks]
      | .node _ _ (.cons _ _) => simp [Xml.toks]
    have h1 := pNode_toks x k (l.toks ++ .close n :: r) (by omega)
    have h2 := pKids_toks l k n r (by omega)
    rw [XmlList.toks, List.append_assoc]
    cases hxt : x.toks with
    | nil => rw [hxt] at hx; exact absurd rfl hx.1
    | cons y ys =>
      rw [hxt] at h1
      rw [List.cons_append] at h1 ⊢
      rw [pKids]
      · rw [h1]; simp [h2]
      · intro m r' e
        exact hx.2 m ys (by rw [hxt, (List.cons.inj e).1])
end

/-- A well-formed element is read back from its document. -/
theorem parseXml_document (x : Xml) (hx : x.WF) : parseXml (xmlDocument x) = some x := by
  have hdecl : ∀ s, xlex (.text []) ("<?xml version=\"1.0\" encoding=\"UTF-8\"?>\n".toList ++ s) =
      xlex (.text ['\n']) s := by
    intro s
    have e : "<?xml version=\"1.0\" encoding=\"UTF-8\"?>\n".toList ++ s =
      '<' :: ("?xml version=".toList ++ '"' :: ("1.0".toList ++ '"' :: (" encoding=".toList ++
        '"' :: ("UTF-8".toList ++ '"' :: ("?".toList ++ '>' :: ('\n' :: s)))))) := by simp
    rw [e, xlex, if_pos rfl, xlex_tag_run _ _ _ (by decide), xlex, if_pos rfl, Bool.not_false,
      xlex_tag_quoted _ _ _ (by decide), xlex_tag_run _ _ _ (by decide), xlex, if_pos rfl,
      Bool.not_false, xlex_tag_quoted _ _ _ (by decide), xlex_tag_run _ _ _ (by decide), xlex,
      if_neg (by decide), if_pos ⟨rfl, rfl⟩]
    simp [tagTok, textTok, xlex_newline]
  obtain ⟨acc, hacc, e⟩ := xlex_xml x 0 ['\n'] [] hx (by decide)
  unfold parseXml xmlDocument
  rw [hdecl, ← List.append_nil (x.text 0), e, xlex, textTok_blank hacc]
  simp only [Option.map_some, List.append_nil]
  have := pNode_toks x (x.toks.length + 1) [] (by omega)
  rw [List.append_nil] at this
  rw [this]

end VgmX
