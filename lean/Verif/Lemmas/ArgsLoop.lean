import Verif.Lemmas.ArgsInt
/-
The loop of the argument parser: the model against the specification.
-/

namespace VgmX
open Spec

/-- What the rest of a command line means, from the settings so far. -/
inductive Reads (u : Uni) : List Str → Args → Args → Prop
  | nil {s : Args} : s.file ≠ none → Reads u [] s s
  | separate {a v : Str} {o : Opt} {rest : List Str} {s s1 s2 : Args} :
      Names a o → OperandLike u v → Sets u o v s s1 → Reads u rest s1 s2 →
      Reads u (a :: v :: rest) s s2
  | joined {a v : Str} {o : Opt} {rest : List Str} {s s1 s2 : Args} :
      Joined a o v → Sets u o v s s1 → Reads u rest s1 s2 → Reads u (a :: rest) s s2
  | operand {a : Str} {rest : List Str} {s s2 : Args} :
      s.file = none → OperandLike u a → Reads u rest { s with file := some a } s2 →
      Reads u (a :: rest) s s2
  | operandDashes {a : Str} {s : Args} :
      s.file = none → OperandLike u a → Reads u [a, ['-', '-']] s { s with file := some a }
  | dashes {f : Str} {s : Args} :
      s.file = none → Reads u [['-', '-'], f] s { s with file := some f }

theorem sets_file {u : Uni} {o : Opt} {v : Str} {s s1 : Args} (h : Sets u o v s s1) :
    s1.file = s.file := by
  cases o
  · exact absurd h id
  · cases h; rfl
  · cases h; rfl
  · obtain ⟨n, _, rfl⟩ := h; rfl

theorem sets_with {u : Uni} {o : Opt} {v : Str} {s s1 : Args} (x : Option Str) (h : Sets u o v s s1) :
    Sets u o v { s with file := x } { s1 with file := x } := by
  cases o
  · exact absurd h id
  · cases h; rfl
  · cases h; rfl
  · obtain ⟨n, h, rfl⟩ := h; exact ⟨n, h, rfl⟩

theorem options_with {u : Uni} {l : List Str} {s s1 : Args} (x : Option Str) (h : Options u l s s1) :
    Options u l { s with file := x } { s1 with file := x } := by
  induction h with
  | nil s => exact .nil _
  | separate h1 h2 h3 _ ih => exact .separate h1 h2 (sets_with x h3) ih
  | joined h1 h3 _ ih => exact .joined h1 (sets_with x h3) ih

theorem options_file {u : Uni} {l : List Str} {s s1 : Args} (h : Options u l s s1) :
    s1.file = s.file := by
  induction h with
  | nil s => rfl
  | separate _ _ h3 _ ih => rw [ih, sets_file h3]
  | joined _ h3 _ ih => rw [ih, sets_file h3]

theorem reads_options {u : Uni} {l : List Str} {s s1 : Args} (h : Reads u l s s1)
    (hf : s.file ≠ none) : Options u l s s1 := by
  induction h with
  | nil _ => exact .nil _
  | separate h1 h2 h3 _ ih => exact .separate h1 h2 h3 (ih (by rw [sets_file h3]; exact hf))
  | joined h1 h3 _ ih => exact .joined h1 h3 (ih (by rw [sets_file h3]; exact hf))
  | operand h => exact absurd h hf
  | operandDashes h => exact absurd h hf
  | dashes h => exact absurd h hf

theorem options_reads {u : Uni} {l : List Str} {s s1 : Args} (h : Options u l s s1)
    (hf : s.file ≠ none) : Reads u l s s1 := by
  induction h with
  | nil s => exact .nil hf
  | separate h1 h2 h3 _ ih => exact .separate h1 h2 h3 (ih (by rw [sets_file h3]; exact hf))
  | joined h1 h3 _ ih => exact .joined h1 h3 (ih (by rw [sets_file h3]; exact hf))

theorem options_append {u : Uni} {l rest : List Str} {s s1 s2 : Args} (h : Options u l s s1)
    (h2 : Reads u rest s1 s2) : Reads u (l ++ rest) s s2 := by
  induction h with
  | nil s => exact h2
  | separate a1 a2 a3 _ ih => exact .separate a1 a2 a3 (ih h2)
  | joined a1 a3 _ ih => exact .joined a1 a3 (ih h2)

theorem reads_means {u : Uni} {argv : List Str} {s ns : Args} (h : Reads u argv s ns)
    (hf : s.file = none) :
    ∃ (before after : List Str) (f : Str) (s1 s2 : Args),
      Options u before s s1 ∧ Options u after s1 s2 ∧ ns = { s2 with file := some f } ∧
      ((argv = before ++ f :: after ∧ OperandLike u f) ∨
       (argv = before ++ [f, ['-', '-']] ∧ after = [] ∧ OperandLike u f) ∨
       (argv = before ++ [['-', '-'], f] ∧ after = [])) := by
  induction h with
  | nil h => exact absurd hf h
  | separate h1 h2 h3 _ ih =>
    obtain ⟨b, a, f, s1, s2, o1, o2, e, hc⟩ := ih (by rw [sets_file h3]; exact hf)
    refine ⟨_ :: _ :: b, a, f, s1, s2, .separate h1 h2 h3 o1, o2, e, ?_⟩
    rcases hc with ⟨rfl, h⟩ | ⟨rfl, h⟩ | ⟨rfl, h⟩
    · exact .inl ⟨rfl, h⟩
    · exact .inr (.inl ⟨rfl, h⟩)
    · exact .inr (.inr ⟨rfl, h⟩)
  | joined h1 h3 _ ih =>
    obtain ⟨b, a, f, s1, s2, o1, o2, e, hc⟩ := ih (by rw [sets_file h3]; exact hf)
    refine ⟨_ :: b, a, f, s1, s2, .joined h1 h3 o1, o2, e, ?_⟩
    rcases hc with ⟨rfl, h⟩ | ⟨rfl, h⟩ | ⟨rfl, h⟩
    · exact .inl ⟨rfl, h⟩
    · exact .inr (.inl ⟨rfl, h⟩)
    · exact .inr (.inr ⟨rfl, h⟩)
  | @operand a rest s s2 h1 h2 h3 _ =>
    have h4 := reads_options h3 (by simp)
    have h5 := options_with none h4
    have h6 := options_file h4
    refine ⟨[], rest, a, s, { s2 with file := none }, .nil _, ?_, ?_, .inl ⟨rfl, h2⟩⟩
    · have : ({ ({ s with file := some a } : Args) with file := none } : Args) = s := by
        cases s; cases hf; rfl
      rw [this] at h5
      exact h5
    · cases s2; simp at h6; simp [h6]
  | operandDashes h1 h2 => exact ⟨[], [], _, _, _, .nil _, .nil _, rfl, .inr (.inl ⟨rfl, rfl, h2⟩)⟩
  | dashes h1 => exact ⟨[], [], _, _, _, .nil _, .nil _, rfl, .inr (.inr ⟨rfl, rfl⟩)⟩

theorem reads_iff_means {u : Uni} {argv : List Str} {ns : Args} :
    Reads u argv ⟨none, none, none, none⟩ ns ↔ Means u argv ns := by
  constructor
  · intro h
    exact reads_means h rfl
  · rintro ⟨b, a, f, s1, s2, h1, h2, rfl, hc⟩
    have hf1 := options_file h1
    rcases hc with ⟨rfl, h⟩ | ⟨rfl, rfl, h⟩ | ⟨rfl, rfl⟩
    · exact options_append h1 (.operand hf1 h (options_reads (options_with (some f) h2) (by simp)))
    · cases h2
      exact options_append h1 (.operandDashes hf1 h)
    · cases h2
      exact options_append h1 (.dashes hf1)

/-! ### The model -/

theorem tagArgs_length {u : Uni} {argv : List Str} {l : List (Str × Tag)}
    (h : tagArgs u argv = .ok l) : l.length = argv.length := by
  induction argv generalizing l with
  | nil => cases h; rfl
  | cons a as ih =>
    rw [tagArgs] at h
    split_ifs at h with h1
    · cases h; simp
    · split at h
      · cases h
      · split at h
        · cases h
        · next ts hts => cases h; simp [ih hts]

theorem tagArgs_cons {u : Uni} {a : Str} {as : List Str} {l : List (Str × Tag)}
    (h : tagArgs u (a :: as) = .ok l) :
    (a = ['-', '-'] ∧ l = (a, .dashes) :: as.map (fun b => (b, .arg))) ∨
    (a ≠ ['-', '-'] ∧ ∃ t ts, parseOptional u a = .ok t ∧ tagArgs u as = .ok ts ∧
      l = (a, tagOf t) :: ts) := by
  rw [tagArgs] at h
  split_ifs at h with h1
  · cases h; exact .inl ⟨h1, rfl⟩
  · right
    refine ⟨h1, ?_⟩
    split at h
    · cases h
    · next t ht =>
      split at h
      · cases h
      · next ts hts => cases h; exact ⟨t, ts, ht, hts, rfl⟩

theorem tagArgs_push {u : Uni} {a : Str} {as : List Str} {t : Option OptTuple} {ts : List (Str × Tag)}
    (ha : a ≠ ['-', '-']) (h1 : parseOptional u a = .ok t) (h2 : tagArgs u as = .ok ts) :
    tagArgs u (a :: as) = .ok ((a, tagOf t) :: ts) := by
  rw [tagArgs, if_neg ha, h1]
  simp only [h2]

theorem parse_dashes (u : Uni) : parseOptional u ['-', '-'] = .error .usage := by
  have h := (parseOptional_double u []).2.2 .help .instr [.track, .ticks] (by decide)
  exact h

theorem ne_dashes {u : Uni} {a : Str} {t : Option OptTuple} (h : parseOptional u a = .ok t) :
    a ≠ ['-', '-'] := by
  rintro rfl
  rw [parse_dashes] at h
  cases h

theorem reads_tagArgs {u : Uni} {argv : List Str} {s ns : Args} (h : Reads u argv s ns) :
    ∃ l, tagArgs u argv = .ok l := by
  induction h with
  | nil => exact ⟨[], rfl⟩
  | separate h1 h2 _ _ ih =>
    obtain ⟨l, hl⟩ := ih
    obtain ⟨n, sp, h1⟩ := names_parse (u := u) h1
    have h2 := parseOptional_operand.mpr h2
    exact ⟨_, tagArgs_push (ne_dashes h1) h1 (tagArgs_push (ne_dashes h2) h2 hl)⟩
  | joined h1 _ _ ih =>
    obtain ⟨l, hl⟩ := ih
    obtain ⟨n, sp, h1⟩ := joined_parse (u := u) h1
    exact ⟨_, tagArgs_push (ne_dashes h1) h1 hl⟩
  | operand _ h2 _ ih =>
    obtain ⟨l, hl⟩ := ih
    have h2 := parseOptional_operand.mpr h2
    exact ⟨_, tagArgs_push (ne_dashes h2) h2 hl⟩
  | operandDashes _ h2 =>
    have h2 := parseOptional_operand.mpr h2
    exact ⟨_, tagArgs_push (ne_dashes h2) h2 rfl⟩
  | dashes => exact ⟨_, rfl⟩

theorem consumeOptional_extras {u : Uni} {a : Str} {t : OptTuple} {rest rest' : List (Str × Tag)}
    {ns ns' : Args} {ex ex' : List Str}
    (h : consumeOptional u a t rest ns ex = .ok (rest', ns', ex')) : ex <+: ex' := by
  unfold consumeOptional at h
  split at h
  · cases h; exact List.prefix_append _ _
  · split at h
    · cases h
    · split at h
      · cases h
      · cases h; exact List.prefix_append _ _

theorem parseLoop_extras {u : Uni} {fuel : Nat} {l : List (Str × Tag)} {s ns : Args}
    {ex ex' : List Str} (h : parseLoop u fuel l s ex = .ok (ns, ex')) : ex <+: ex' := by
  induction fuel generalizing l s ex with
  | zero => cases h
  | succ fuel ih =>
    rw [parseLoop] at h
    split at h
    · split at h
      · exact ih h
      · split at h
        · split at h
          · cases h
          · next hc =>
            exact ((List.prefix_append _ _).trans (consumeOptional_extras hc)).trans (ih h)
        · cases h
    · split at h
      · cases h; exact List.prefix_append _ _
      · cases h; exact List.prefix_append _ _

theorem not_ok_extras {u : Uni} {fuel : Nat} {l : List (Str × Tag)} {s ns : Args}
    {ex : List Str} (hex : ex ≠ []) : parseLoop u fuel l s ex ≠ .ok (ns, []) := by
  intro h
  exact hex (List.prefix_nil.mp (parseLoop_extras h))

theorem takeOption_iff {u : Uni} {s s1 : Args} {o : Opt} {v : Str} :
    takeOption u s (o, v) = .ok s1 ↔ Sets u o v s s1 := by
  cases o
  · simp [takeOption, Sets]
  · simp [takeOption, Sets, eq_comm]
  · simp [takeOption, Sets, eq_comm]
  · simp only [takeOption, Sets]
    constructor
    · intro h
      split at h
      · next n hn => cases h; exact ⟨n, pyInt_iff.mp hn, rfl⟩
      · cases h
    · rintro ⟨n, hn, rfl⟩
      rw [pyInt_iff.mpr hn]

theorem foldlM_help {u : Uni} {s s1 : Args} {v : Str} {acts : List (Opt × Str)} :
    ((Opt.help, v) :: acts).foldlM (takeOption u) s ≠ .ok s1 := by
  intro h
  rw [List.foldlM_cons] at h
  simp only [takeOption] at h
  cases h

theorem consumeLoop_help {fuel : Nat} {name : Str} {sep explicit : Option Str}
    {rest rest' : List (Str × Tag)} {acts : List (Opt × Str)} {ex : List Str}
    (h : consumeLoop fuel .help name sep explicit rest = .ok (acts, ex, rest')) :
    ∃ v acts', acts = (.help, v) :: acts' := by
  cases fuel with
  | zero => cases h
  | succ fuel =>
    cases explicit with
    | none =>
      simp only [consumeLoop, if_true] at h
      cases h
      exact ⟨_, _, rfl⟩
    | some e =>
      simp only [consumeLoop, if_true] at h
      split at h
      · split at h
        · cases h
        · split at h
          · split at h
            · cases h
            · cases h; exact ⟨_, _, rfl⟩
          · cases h; exact ⟨_, _, rfl⟩
      · cases h

theorem consumeOptional_help {u : Uni} {a : Str} {t : OptTuple} {rest : List (Str × Tag)}
    {s : Args} {ex : List Str} {r : List (Str × Tag) × Args × List Str}
    (ht : t.action = some .help) :
    consumeOptional u a t rest s ex ≠ .ok r := by
  intro h
  unfold consumeOptional at h
  rw [ht] at h
  dsimp only at h
  split at h
  · cases h
  · next acts extra rest' hc =>
    obtain ⟨v, acts', rfl⟩ := consumeLoop_help hc
    split at h
    · cases h
    · next hf => exact foldlM_help hf

theorem foldlM_one {u : Uni} {s : Args} {o : Opt} {v : Str} :
    [(o, v)].foldlM (takeOption u) s = takeOption u s (o, v) := by
  rw [List.foldlM_cons]
  cases takeOption u s (o, v) <;> rfl

theorem consumeOptional_explicit {u : Uni} {a v : Str} {t : OptTuple} {rest : List (Str × Tag)}
    {s : Args} {ex : List Str} {o : Opt} (ho : o ≠ .help) (ht : t.action = some o)
    (hv : t.explicit = some v) :
    consumeOptional u a t rest s ex =
      match takeOption u s (o, v) with
      | .error e => .error e
      | .ok ns => .ok (rest, ns, ex) := by
  unfold consumeOptional
  rw [ht, hv]
  simp only [consumeLoop, if_neg ho, foldlM_one, List.append_nil]
  cases takeOption u s (o, v) <;> rfl

theorem consumeOptional_separate {u : Uni} {a : Str} {t : OptTuple} {rest : List (Str × Tag)}
    {s : Args} {ex : List Str} {o : Opt} (ho : o ≠ .help) (ht : t.action = some o)
    (hv : t.explicit = none) :
    consumeOptional u a t rest s ex =
      match rest with
      | (v, .arg) :: rest =>
        match takeOption u s (o, v) with
        | .error e => .error e
        | .ok ns => .ok (rest, ns, ex)
      | _ => .error .usage := by
  unfold consumeOptional
  rw [ht, hv]
  simp only [consumeLoop, if_neg ho]
  match rest with
  | (v, .arg) :: rest =>
    simp only [foldlM_one, List.append_nil]
    cases takeOption u s (o, v) <;> rfl
  | (v, .dashes) :: rest => rfl
  | (v, .opt t) :: rest => rfl
  | [] => rfl

theorem hasOption_args (as : List Str) : hasOption (as.map (fun b => (b, Tag.arg))) = false := by
  simp [hasOption, notOption]

theorem parseLoop_opt {u : Uni} {fuel : Nat} {a : Str} {t : OptTuple} {ts : List (Str × Tag)}
    {s : Args} {ex : List Str} :
    parseLoop u (fuel + 1) ((a, .opt t) :: ts) s ex =
      match consumeOptional u a t ts s ex with
      | .error e => .error e
      | .ok (rest, ns, extras) => parseLoop u fuel rest ns extras := by
  have h1 : hasOption ((a, .opt t) :: ts) = true := by simp [hasOption, notOption]
  have h2 : (if s.file = none then matchPositional ((a, .opt t) :: ts) else none) = none := by
    split_ifs
    · rfl
    · rfl
  have h3 : ((a, Tag.opt t) :: ts).dropWhile notOption = (a, .opt t) :: ts := by
    simp [notOption]
  have h4 : ((a, Tag.opt t) :: ts).takeWhile notOption = [] := by
    simp [notOption]
  rw [parseLoop, if_pos h1, h2, h3, h4]
  simp only [List.map_nil, List.append_nil]
  rfl

/-- The tag of an argument that `Reads` takes as an option. -/
theorem reads_head_option {u : Uni} {a : Str} {as : List Str} {s ns : Args} {l : List (Str × Tag)}
    (h : Reads u (a :: as) s ns) (hf : s.file ≠ none) (hl : tagArgs u (a :: as) = .ok l) :
    hasOption l = true := by
  have key : ∀ t, parseOptional u a = .ok (some t) → hasOption l = true := by
    intro t ht
    rcases tagArgs_cons hl with ⟨h1, _⟩ | ⟨h1, t', ts, h2, h3, h4⟩
    · exact absurd h1 (ne_dashes ht)
    · rw [ht] at h2
      cases h2
      rw [h4]
      simp [hasOption, notOption, tagOf]
  cases h with
  | separate h1 =>
    obtain ⟨n, sp, h1⟩ := names_parse (u := u) h1
    exact key _ h1
  | joined h1 =>
    obtain ⟨n, sp, h1⟩ := joined_parse (u := u) h1
    exact key _ h1
  | operand h => exact absurd h hf
  | operandDashes h => exact absurd h hf
  | dashes h => exact absurd h hf

theorem matchPositional_last {u : Uni} (a : Str) {as : List Str} {ts : List (Str × Tag)}
    (hts : tagArgs u as = .ok ts) (hh : hasOption ts = false) :
    ∃ r, matchPositional ((a, Tag.arg) :: ts) = some (a, r) ∧
      (r = [] ↔ (as = [] ∨ as = [['-', '-']])) := by
  have hlen := tagArgs_length hts
  match as, ts, hts, hlen, hh with
  | [], [], _, _, _ => exact ⟨[], rfl, by simp⟩
  | [], _ :: _, _, h, _ => simp at h
  | _ :: _, [], _, h, _ => simp at h
  | b' :: as, (b, .dashes) :: r, h, hlen, _ =>
    refine ⟨r, rfl, ?_⟩
    rcases tagArgs_cons h with ⟨h1, h3⟩ | ⟨_, t, _, _, _, h3⟩
    · subst h1
      cases h3
      simp
    · cases t <;> cases h3
  | b' :: as, (b, .arg) :: r, h, hlen, _ =>
    refine ⟨_, rfl, ?_⟩
    rcases tagArgs_cons h with ⟨h1, h3⟩ | ⟨h1, t, _, _, _, h3⟩
    · cases h3
    · simp [h1]
  | b' :: as, (b, .opt t) :: r, h, hlen, hh => simp [hasOption, notOption] at hh

theorem parseLoop_reads {u : Uni} (n : Nat) : ∀ (argv : List Str), argv.length ≤ n →
    ∀ (l : List (Str × Tag)), tagArgs u argv = .ok l →
    ∀ (fuel : Nat), argv.length < fuel → ∀ (s ns : Args),
    ((parseLoop u fuel l s [] = .ok (ns, []) ∧ ns.file ≠ none) ↔ Reads u argv s ns) := by
  induction n with
  | zero =>
    intro argv hn l hl fuel hfu s ns
    have : argv = [] := List.length_eq_zero_iff.mp (by omega)
    subst this
    cases hl
    obtain ⟨fuel, rfl⟩ : ∃ k, fuel = k + 1 := ⟨fuel - 1, by omega⟩
    have : parseLoop u (fuel + 1) [] s [] = .ok (s, []) := by
      rw [parseLoop]
      simp [hasOption, matchPositional]
    rw [this]
    constructor
    · rintro ⟨h, h2⟩; cases h; exact .nil h2
    · intro h; cases h with | nil h => exact ⟨rfl, h⟩
  | succ n ih =>
    intro argv hn l hl fuel hfu s ns
    obtain ⟨fuel, rfl⟩ : ∃ k, fuel = k + 1 := ⟨fuel - 1, by omega⟩
    match argv, hl, hn, hfu with
    | [], hl, _, _ =>
      cases hl
      have : parseLoop u (fuel + 1) [] s [] = .ok (s, []) := by
        rw [parseLoop]
        simp [hasOption, matchPositional]
      rw [this]
      constructor
      · rintro ⟨h, h2⟩; cases h; exact .nil h2
      · intro h; cases h with | nil h => exact ⟨rfl, h⟩
    | a :: as, hl, hn, hfu =>
      simp only [List.length_cons] at hn hfu
      rcases tagArgs_cons hl with ⟨rfl, rfl⟩ | ⟨hne, t, ts, ht, hts, rfl⟩
      · -- `--`
        have hno : hasOption ((['-', '-'], Tag.dashes) :: as.map (fun b => (b, Tag.arg))) = false := by
          simp [hasOption, notOption]
        rw [parseLoop, hno]
        simp only [Bool.false_eq_true, if_false]
        have inv : Reads u (['-', '-'] :: as) s ns → s.file = none ∧ ∃ f, as = [f] ∧
            ns = { s with file := some f } := by
          intro h
          cases h with
          | separate h1 =>
            obtain ⟨_, _, h1⟩ := names_parse (u := u) h1
            exact absurd rfl (ne_dashes h1)
          | joined h1 =>
            obtain ⟨_, _, h1⟩ := joined_parse (u := u) h1
            exact absurd rfl (ne_dashes h1)
          | operand _ h1 => exact absurd rfl (ne_dashes (parseOptional_operand.mpr h1))
          | operandDashes _ h1 => exact absurd rfl (ne_dashes (parseOptional_operand.mpr h1))
          | dashes h => exact ⟨h, _, rfl, rfl⟩
        by_cases hf : s.file = none
        · rw [if_pos hf]
          match as with
          | [] =>
            simp only [List.map_nil, matchPositional, List.nil_append, List.map_cons]
            constructor
            · rintro ⟨h, _⟩; cases h
            · intro h; obtain ⟨_, f, h, _⟩ := inv h; cases h
          | f :: rest =>
            simp only [List.map_cons, matchPositional, List.nil_append]
            constructor
            · rintro ⟨h, _⟩
              simp only [Except.ok.injEq, Prod.mk.injEq] at h
              obtain ⟨rfl, h⟩ := h
              have : rest = [] := by simpa using h
              subst this
              exact .dashes hf
            · intro h
              obtain ⟨_, f', e, hns⟩ := inv h
              simp only [List.cons.injEq] at e
              obtain ⟨rfl, rfl⟩ := e
              rw [hns]
              exact ⟨rfl, by simp⟩
        · rw [if_neg hf]
          constructor
          · rintro ⟨h, _⟩; simp at h
          · intro h; exact absurd (inv h).1 hf
      · cases t with
        | none =>
          -- an operand
          have hop : OperandLike u a := parseOptional_operand.mp ht
          have nopt : ∀ o, ¬ Names a o := by
            intro o h
            obtain ⟨_, _, h⟩ := names_parse (u := u) h
            rw [ht] at h; cases h
          have njoin : ∀ o v, ¬ Joined a o v := by
            intro o v h
            obtain ⟨_, _, h⟩ := joined_parse (u := u) h
            rw [ht] at h; cases h
          simp only [tagOf]
          by_cases hf : s.file = none
          · by_cases hh : hasOption ((a, Tag.arg) :: ts) = true
            · have hh' : hasOption ts = true := by simpa [hasOption, notOption] using hh
              have hmp : matchPositional ((a, Tag.arg) :: ts) = some (a, ts) := by
                match as, ts, hts, hh' with
                | _, [], _, h => simp [hasOption, notOption] at h
                | _, (b, .arg) :: r, _, _ => rfl
                | _, (b, .opt _) :: r, _, _ => rfl
                | [], (b, .dashes) :: r, h, _ => cases h
                | b' :: as, (b, .dashes) :: r, h, h2 =>
                  rcases tagArgs_cons h with ⟨_, h3⟩ | ⟨_, t, _, _, _, h3⟩
                  · cases h3
                    simp [hasOption, notOption] at h2
                  · cases t <;> cases h3
              have e : parseLoop u (fuel + 1) ((a, Tag.arg) :: ts) s [] =
                  parseLoop u fuel ts { s with file := some a } [] := by
                rw [parseLoop, if_pos hh]
                simp only [if_pos hf, hmp]
              rw [e, ih as (by omega) ts hts fuel (by omega)]
              constructor
              · exact fun h => .operand hf hop h
              · intro h
                cases h with
                | separate h1 => exact absurd h1 (nopt _)
                | joined h1 => exact absurd h1 (njoin _ _)
                | operand _ _ h => exact h
                | operandDashes _ _ =>
                  cases hts
                  simp [hasOption, notOption] at hh'
                | dashes => exact absurd rfl hne
            · have hh1 : hasOption ((a, Tag.arg) :: ts) = false := by simpa using hh
              have hh' : hasOption ts = false := by simpa [hasOption, notOption] using hh1
              rw [parseLoop, hh1]
              simp only [Bool.false_eq_true, if_false, if_pos hf]
              have inv : Reads u (a :: as) s ns → ns = { s with file := some a } ∧
                  (as = [] ∨ as = [['-', '-']]) := by
                intro h
                cases h with
                | separate h1 => exact absurd h1 (nopt _)
                | joined h1 => exact absurd h1 (njoin _ _)
                | operand _ _ h =>
                  cases as with
                  | nil => cases h; exact ⟨rfl, .inl rfl⟩
                  | cons b bs =>
                    have := reads_head_option h (by simp) hts
                    rw [hh'] at this
                    cases this
                | operandDashes _ _ => exact ⟨rfl, .inr rfl⟩
                | dashes => exact absurd rfl hne
              have fromNil : as = [] → Reads u (a :: as) s { s with file := some a } := by
                rintro rfl
                exact .operand hf hop (.nil (by simp))
              have fromD : as = [['-', '-']] → Reads u (a :: as) s { s with file := some a } := by
                rintro rfl
                exact .operandDashes hf hop
              obtain ⟨r, hr, hiff⟩ := matchPositional_last a hts hh'
              rw [hr]
              constructor
              · rintro ⟨h, _⟩
                simp only [List.nil_append, Except.ok.injEq, Prod.mk.injEq] at h
                obtain ⟨rfl, h⟩ := h
                rcases hiff.mp (by simpa using h) with h | h
                · exact fromNil h
                · exact fromD h
              · intro h
                obtain ⟨hns, h'⟩ := inv h
                rw [hiff.mpr h', hns]
                exact ⟨rfl, by simp⟩
          · -- a second operand
            have rhs : ¬ Reads u (a :: as) s ns := by
              intro h
              cases h with
              | separate h1 => exact absurd h1 (nopt _)
              | joined h1 => exact absurd h1 (njoin _ _)
              | operand h => exact absurd h hf
              | operandDashes h => exact absurd h hf
              | dashes h => exact absurd h hf
            refine ⟨fun h => ?_, fun h => absurd h rhs⟩
            exfalso
            obtain ⟨h, -⟩ := h
            rw [parseLoop] at h
            simp only [if_neg hf] at h
            split at h
            · split at h
              · split at h
                · cases h
                · next hc =>
                  refine not_ok_extras ?_ h
                  intro he
                  have := consumeOptional_extras hc
                  rw [he] at this
                  have := List.prefix_nil.mp this
                  have h1 : notOption (a, Tag.arg) = true := rfl
                  rw [List.takeWhile_cons, h1] at this
                  simp at this
              · cases h
            · simp at h
        | some t =>
          simp only [tagOf]
          rw [parseLoop_opt]
          cases hta : t.action with
          | none =>
            -- an unknown option
            have rhs : ¬ Reads u (a :: as) s ns := by
              intro h
              cases h with
              | separate h1 =>
                obtain ⟨_, _, h1⟩ := names_parse (u := u) h1
                rw [ht] at h1; cases h1; cases hta
              | joined h1 =>
                obtain ⟨_, _, h1⟩ := joined_parse (u := u) h1
                rw [ht] at h1; cases h1; cases hta
              | operand _ h1 =>
                have h1 := parseOptional_operand.mpr h1
                rw [ht] at h1; cases h1
              | operandDashes _ h1 =>
                have h1 := parseOptional_operand.mpr h1
                rw [ht] at h1; cases h1
              | dashes => exact absurd rfl hne
            refine ⟨fun h => ?_, fun h => absurd h rhs⟩
            exfalso
            obtain ⟨h, -⟩ := h
            have : consumeOptional u a t ts s [] = .ok (ts, s, [] ++ [a]) := by
              rw [consumeOptional, hta]
            rw [this] at h
            exact not_ok_extras (by simp) h
          | some o =>
            by_cases ho : o = .help
            · subst ho
              have rhs : ¬ Reads u (a :: as) s ns := by
                intro h
                cases h with
                | separate h1 _ h3 =>
                  obtain ⟨_, _, h1⟩ := names_parse (u := u) h1
                  rw [ht] at h1; cases h1; cases hta; exact h3
                | joined h1 h3 =>
                  obtain ⟨_, _, h1⟩ := joined_parse (u := u) h1
                  rw [ht] at h1; cases h1; cases hta; exact h3
                | operand _ h1 =>
                  have h1 := parseOptional_operand.mpr h1
                  rw [ht] at h1; cases h1
                | operandDashes _ h1 =>
                  have h1 := parseOptional_operand.mpr h1
                  rw [ht] at h1; cases h1
                | dashes => exact absurd rfl hne
              refine ⟨fun h => ?_, fun h => absurd h rhs⟩
              exfalso
              obtain ⟨h, -⟩ := h
              split at h
              · cases h
              · next hc => exact consumeOptional_help hta hc
            · rcases (parseOptional_option ht hta).resolve_left ho with ⟨hex, hnm⟩ | ⟨v, hex, hj⟩
              · -- value in the next argument
                rw [consumeOptional_separate ho hta hex]
                have inv : Reads u (a :: as) s ns → ∃ v as' s1, as = v :: as' ∧ OperandLike u v ∧
                    Sets u o v s s1 ∧ Reads u as' s1 ns := by
                  intro h
                  cases h with
                  | separate h1 h2 h3 h4 =>
                    obtain ⟨_, _, h1⟩ := names_parse (u := u) h1
                    rw [ht] at h1; cases h1; cases hta
                    exact ⟨_, _, _, rfl, h2, h3, h4⟩
                  | joined h1 h3 =>
                    obtain ⟨_, _, h1⟩ := joined_parse (u := u) h1
                    rw [ht] at h1; cases h1; cases hex
                  | operand _ h1 =>
                    have h1 := parseOptional_operand.mpr h1
                    rw [ht] at h1; cases h1
                  | operandDashes _ h1 =>
                    have h1 := parseOptional_operand.mpr h1
                    rw [ht] at h1; cases h1
                  | dashes => exact absurd rfl hne
                match as, hts, hn, hfu, inv with
                | [], hts, _, _, inv =>
                  cases hts
                  constructor
                  · rintro ⟨h, _⟩; cases h
                  · intro h; obtain ⟨_, _, _, h, _⟩ := inv h; cases h
                | v :: as', hts, hn, hfu, inv =>
                  simp only [List.length_cons] at hn hfu
                  rcases tagArgs_cons hts with ⟨rfl, rfl⟩ | ⟨hne', t', ts', ht', hts', rfl⟩
                  · constructor
                    · rintro ⟨h, _⟩; cases h
                    · intro h
                      obtain ⟨_, _, _, h, h', _⟩ := inv h
                      cases h
                      exact absurd rfl (ne_dashes (parseOptional_operand.mpr h'))
                  · cases t' with
                    | some t' =>
                      constructor
                      · rintro ⟨h, _⟩; cases h
                      · intro h
                        obtain ⟨_, _, _, h, h', _⟩ := inv h
                        cases h
                        rw [parseOptional_operand.mpr h'] at ht'
                        cases ht'
                    | none =>
                      simp only [tagOf]
                      constructor
                      · rintro ⟨h, h'⟩
                        cases hto : takeOption u s (o, v) with
                        | error e => rw [hto] at h; cases h
                        | ok s1 =>
                          rw [hto] at h
                          exact .separate hnm (parseOptional_operand.mp ht') (takeOption_iff.mp hto)
                            ((ih as' (by omega) ts' hts' fuel (by omega) s1 ns).mp ⟨h, h'⟩)
                      · intro h
                        obtain ⟨_, _, s1, h, _, h2, h3⟩ := inv h
                        cases h
                        rw [takeOption_iff.mpr h2]
                        exact (ih as' (by omega) ts' hts' fuel (by omega) s1 ns).mpr h3
              · -- value in the same argument
                rw [consumeOptional_explicit ho hta hex]
                constructor
                · rintro ⟨h, h'⟩
                  cases hto : takeOption u s (o, v) with
                  | error e => rw [hto] at h; cases h
                  | ok s1 =>
                    rw [hto] at h
                    exact .joined hj (takeOption_iff.mp hto)
                      ((ih as (by omega) ts hts fuel (by omega) s1 ns).mp ⟨h, h'⟩)
                · intro h
                  cases h with
                  | separate h1 h2 h3 h4 =>
                    obtain ⟨_, _, h1⟩ := names_parse (u := u) h1
                    rw [ht] at h1; cases h1; cases hex
                  | joined h1 h3 h4 =>
                    obtain ⟨_, _, h1⟩ := joined_parse (u := u) h1
                    rw [ht] at h1; cases h1; cases hex; cases hta
                    rw [takeOption_iff.mpr h3]
                    exact (ih as (by omega) ts hts fuel (by omega) _ ns).mpr h4
                  | operand _ h1 =>
                    have h1 := parseOptional_operand.mpr h1
                    rw [ht] at h1; cases h1
                  | operandDashes _ h1 =>
                    have h1 := parseOptional_operand.mpr h1
                    rw [ht] at h1; cases h1
                  | dashes => exact absurd rfl hne

theorem parseArgs_iff {u : Uni} {argv : List Str} {ns : Args} :
    parseArgs u argv = .ok ns ↔ Means u argv ns := by
  rw [← reads_iff_means]
  unfold parseArgs
  constructor
  · intro h
    split at h
    · cases h
    · next l hl =>
      have hlen := tagArgs_length hl
      split at h
      · cases h
      · next ns' ex hp =>
        split_ifs at h with h1 h2
        cases h
        have h2 : ex = [] := Decidable.not_not.mp h2
        subst h2
        exact (parseLoop_reads _ argv (Nat.le_refl _) l hl _ (by omega) _ _).mp ⟨hp, h1⟩
  · intro h
    obtain ⟨l, hl⟩ := reads_tagArgs h
    have hlen := tagArgs_length hl
    obtain ⟨h1, h2⟩ := (parseLoop_reads _ argv (Nat.le_refl _) l hl (l.length + 1) (by omega) _ _).mpr h
    rw [hl]
    simp only [h1, if_neg h2, ne_eq, not_true_eq_false, if_false]

end VgmX
