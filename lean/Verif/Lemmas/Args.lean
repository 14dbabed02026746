import Verif.Spec.Args
import Mathlib.Tactic.SplitIfs
/-
Lemmas about the model of the argument parser.
-/

namespace VgmX
open Spec

theorem partitionEq_none {a : Str} (h : '=' ∉ a) : partitionEq a = (a, none) := by
  induction a with
  | nil => rfl
  | cons c s ih =>
    have h1 : c ≠ '=' := fun e => h (by simp [e])
    have h2 : '=' ∉ s := fun e => h (by simp [e])
    simp [partitionEq, h1, ih h2]

theorem partitionEq_some {n v : Str} (h : '=' ∉ n) :
    partitionEq (n ++ '=' :: v) = (n, some v) := by
  induction n with
  | nil => simp [partitionEq]
  | cons c s ih =>
    have h1 : c ≠ '=' := fun e => h (by simp [e])
    have h2 : '=' ∉ s := fun e => h (by simp [e])
    simp [partitionEq, h1, ih h2]

theorem partitionEq_cases (a : Str) :
    ('=' ∉ a ∧ partitionEq a = (a, none)) ∨
    ∃ n v, '=' ∉ n ∧ a = n ++ '=' :: v ∧ partitionEq a = (n, some v) := by
  by_cases h : '=' ∈ a
  · right
    obtain ⟨n, v, rfl, hn⟩ := List.eq_append_cons_of_mem h
    exact ⟨n, v, hn, rfl, partitionEq_some hn⟩
  · exact .inl ⟨h, partitionEq_none h⟩


/-- The options whose long name begins with `n`. -/
def longMatches (n : Str) : List Opt :=
  [Opt.help, .instr, .track, .ticks].filter fun o => n.isPrefixOf (longName o)

theorem optionOf_some {a : Str} {o : Opt} (h : optionOf a = some o) :
    a = shortName o ∨ a = longName o := by
  unfold optionOf at h
  cases hf : optionTable.find? (fun x => decide (x.1 = a)) with
  | none => rw [hf] at h; cases h
  | some x =>
    rw [hf] at h
    have h1 := List.find?_some hf
    have h2 := List.mem_of_find?_eq_some hf
    simp only [decide_eq_true_eq] at h1
    simp only [Option.map_some, Option.some.injEq] at h
    subst h1; subst h
    simp only [optionTable, List.mem_cons, List.not_mem_nil, or_false] at h2
    rcases h2 with rfl | rfl | rfl | rfl | rfl | rfl | rfl | rfl <;> decide

theorem optionOf_short (o : Opt) : optionOf (shortName o) = some o := by cases o <;> decide
theorem optionOf_long (o : Opt) : optionOf (longName o) = some o := by cases o <;> decide

theorem longMatches_long (o : Opt) : longMatches (longName o) = [o] := by cases o <;> decide

theorem optionTable_eq : optionTable =
    [(shortName .help, .help), (longName .help, .help), (shortName .instr, .instr),
      (longName .instr, .instr), (shortName .track, .track), (longName .track, .track),
      (shortName .ticks, .ticks), (longName .ticks, .ticks)] := rfl

theorem filter_table (p : Str → Bool) (h : ∀ o, p (shortName o) = false) :
    optionTable.filter (fun y => p y.1) =
      ([Opt.help, .instr, .track, .ticks].filter (fun o => p (longName o))).map
        (fun o => (longName o, o)) := by
  rw [optionTable_eq]
  generalize longName = ln at *
  generalize shortName = sn at *
  simp only [List.filter_cons, List.filter_nil, h, Bool.false_eq_true, if_false]
  cases h1 : p (ln .help) <;> cases h2 : p (ln .instr) <;> cases h3 : p (ln .track) <;>
    cases h4 : p (ln .ticks) <;> simp

theorem optionTuples_double (r : Str) :
    optionTuples ('-' :: '-' :: r) =
      (longMatches ('-' :: '-' :: (partitionEq r).1)).map fun o =>
        ⟨some o, longName o, (partitionEq r).2.map (fun _ => ['=']), (partitionEq r).2⟩ := by
  have e1 : (partitionEq ('-' :: '-' :: r)).1 = '-' :: '-' :: (partitionEq r).1 := by
    simp [partitionEq]
  have e2 : (partitionEq ('-' :: '-' :: r)).2 = (partitionEq r).2 := by
    simp [partitionEq]
  have e3 : ('-' :: '-' :: r)[1]? = some '-' := rfl
  unfold optionTuples
  rw [if_pos e3]
  simp only [e1, e2]
  generalize (partitionEq r).1 = n
  generalize (partitionEq r).2 = x
  have key : optionTable.filter (fun y => ('-' :: '-' :: n).isPrefixOf y.1) =
      (longMatches ('-' :: '-' :: n)).map (fun o => (longName o, o)) := by
    apply filter_table
    intro o
    cases o <;> simp [List.isPrefixOf, shortName]
  rw [key, List.map_map]
  rfl

theorem shortName_ne_double (o : Opt) (r : Str) : ('-' :: '-' :: r : Str) ≠ shortName o := by
  cases o <;> simp [shortName]

/-- An argument with two dashes: the options whose names it may begin decide. -/
theorem parseOptional_double (u : Uni) (r : Str) :
    (∀ o, longMatches ('-' :: '-' :: (partitionEq r).1) = [o] →
      ∃ name sep, parseOptional u ('-' :: '-' :: r) =
        .ok (some ⟨some o, name, sep, (partitionEq r).2⟩)) ∧
    (longMatches ('-' :: '-' :: (partitionEq r).1) = [] →
      parseOptional u ('-' :: '-' :: r) =
        if negativeNumber u ('-' :: '-' :: r) then .ok none
        else if ' ' ∈ ('-' :: '-' :: r) then .ok none
        else .ok (some ⟨none, '-' :: '-' :: r, none, none⟩)) ∧
    (∀ o o' l, longMatches ('-' :: '-' :: (partitionEq r).1) = o :: o' :: l →
      parseOptional u ('-' :: '-' :: r) = .error .usage) := by
  have e : partitionEq ('-' :: '-' :: r) = ('-' :: '-' :: (partitionEq r).1, (partitionEq r).2) := by
    simp [partitionEq]
  cases h1 : optionOf ('-' :: '-' :: r) with
  | some o1 =>
    have h2 : '-' :: '-' :: r = longName o1 :=
      (optionOf_some h1).resolve_left (shortName_ne_double _ _)
    have h3 : '=' ∉ ('-' :: '-' :: r) := by rw [h2]; cases o1 <;> decide
    have h4 : partitionEq r = (r, none) := partitionEq_none (fun h => h3 (by simp [h]))
    have h5 : longMatches ('-' :: '-' :: (partitionEq r).1) = [o1] := by
      rw [h4, h2]; exact longMatches_long o1
    have h6 : parseOptional u ('-' :: '-' :: r) = .ok (some ⟨some o1, '-' :: '-' :: r, none, none⟩) := by
      simp [parseOptional, h1]
    refine ⟨fun o ho => ?_, fun h => ?_, fun o o' l h => ?_⟩
    · rw [h5] at ho; cases ho
      exact ⟨_, _, by rw [h6, h4]⟩
    · rw [h5] at h; cases h
    · rw [h5] at h; cases h
  | none =>
    have h6 : parseOptional u ('-' :: '-' :: r) =
        match (partitionEq r).2, optionOf ('-' :: '-' :: (partitionEq r).1) with
          | some explicit, some o =>
            .ok (some ⟨some o, '-' :: '-' :: (partitionEq r).1, some ['='], some explicit⟩)
          | _, _ =>
            match optionTuples ('-' :: '-' :: r) with
            | [t] => .ok (some t)
            | _ :: _ :: _ => .error .usage
            | [] =>
              if negativeNumber u ('-' :: '-' :: r) then .ok none
              else if ' ' ∈ ('-' :: '-' :: r) then .ok none
              else .ok (some ⟨none, '-' :: '-' :: r, none, none⟩) := by
      rw [parseOptional]
      simp only [ne_eq, not_true_eq_false, if_false, h1, e, reduceCtorEq]
      rfl
    have gen : (∀ o, longMatches ('-' :: '-' :: (partitionEq r).1) = [o] →
        ∃ name sep, (match optionTuples ('-' :: '-' :: r) with
            | [t] => (.ok (some t) : Except Exit (Option OptTuple))
            | _ :: _ :: _ => .error .usage
            | [] =>
              if negativeNumber u ('-' :: '-' :: r) then .ok none
              else if ' ' ∈ ('-' :: '-' :: r) then .ok none
              else .ok (some ⟨none, '-' :: '-' :: r, none, none⟩)) =
          .ok (some ⟨some o, name, sep, (partitionEq r).2⟩)) ∧
      (longMatches ('-' :: '-' :: (partitionEq r).1) = [] →
        (match optionTuples ('-' :: '-' :: r) with
            | [t] => (.ok (some t) : Except Exit (Option OptTuple))
            | _ :: _ :: _ => .error .usage
            | [] =>
              if negativeNumber u ('-' :: '-' :: r) then .ok none
              else if ' ' ∈ ('-' :: '-' :: r) then .ok none
              else .ok (some ⟨none, '-' :: '-' :: r, none, none⟩)) =
          if negativeNumber u ('-' :: '-' :: r) then .ok none
          else if ' ' ∈ ('-' :: '-' :: r) then .ok none
          else .ok (some ⟨none, '-' :: '-' :: r, none, none⟩)) ∧
      (∀ o o' l, longMatches ('-' :: '-' :: (partitionEq r).1) = o :: o' :: l →
        (match optionTuples ('-' :: '-' :: r) with
            | [t] => (.ok (some t) : Except Exit (Option OptTuple))
            | _ :: _ :: _ => .error .usage
            | [] =>
              if negativeNumber u ('-' :: '-' :: r) then .ok none
              else if ' ' ∈ ('-' :: '-' :: r) then .ok none
              else .ok (some ⟨none, '-' :: '-' :: r, none, none⟩)) = .error .usage) := by
      rw [optionTuples_double]
      refine ⟨fun o ho => ?_, fun h => ?_, fun o o' l h => ?_⟩
      · rw [ho]; exact ⟨_, _, rfl⟩
      · rw [h]; rfl
      · rw [h]; rfl
    rw [h6]
    cases h7 : (partitionEq r).2 with
    | none => rw [h7] at gen; exact gen
    | some x =>
      cases h8 : optionOf ('-' :: '-' :: (partitionEq r).1) with
      | none => rw [h7] at gen; exact gen
      | some o1 =>
        have h2 := (optionOf_some h8).resolve_left (shortName_ne_double _ _)
        have h5 : longMatches ('-' :: '-' :: (partitionEq r).1) = [o1] := by
          rw [h2]; exact longMatches_long o1
        refine ⟨fun o ho => ?_, fun h => ?_, fun o o' l h => ?_⟩
        · rw [h5] at ho; cases ho
          exact ⟨_, _, rfl⟩
        · rw [h5] at h; cases h
        · rw [h5] at h; cases h

/-- The options that `-c…` names. -/
def shortOf (c : Char) : Option Opt :=
  if c = 'h' then some .help else if c = 'i' then some .instr
  else if c = 't' then some .track else none

theorem shortName_help : shortName .help = ['-', 'h'] := rfl
theorem shortName_instr : shortName .instr = ['-', 'i'] := rfl
theorem shortName_track : shortName .track = ['-', 't'] := rfl
theorem shortName_ticks : shortName .ticks = ['-', 't', 'n'] := rfl
theorem longName_double (o : Opt) : ∃ r, longName o = '-' :: '-' :: r ∧ r ≠ [] := by
  cases o
  · exact ⟨"help".toList, rfl, by decide⟩
  · exact ⟨"instrument".toList, rfl, by decide⟩
  · exact ⟨"track".toList, rfl, by decide⟩
  · exact ⟨"ticks-per-note".toList, rfl, by decide⟩

theorem optionOf_single {c : Char} {s : Str} {o : Opt} (hc : c ≠ '-')
    (h : optionOf ('-' :: c :: s) = some o) :
    (shortOf c = some o ∧ s = []) ∨ (c = 't' ∧ s = ['n'] ∧ o = .ticks) := by
  rcases optionOf_some h with h | h
  · cases o
    · rw [shortName_help] at h; cases h; exact .inl ⟨rfl, rfl⟩
    · rw [shortName_instr] at h; cases h; exact .inl ⟨rfl, rfl⟩
    · rw [shortName_track] at h; cases h; exact .inl ⟨rfl, rfl⟩
    · rw [shortName_ticks] at h; cases h; exact .inr ⟨rfl, rfl, rfl⟩
  · obtain ⟨r, hr, -⟩ := longName_double o
    rw [hr] at h; cases h; exact absurd rfl hc

theorem shortOf_some {c : Char} {o : Opt} (h : shortOf c = some o) :
    shortName o = ['-', c] ∧ c ≠ '-' ∧ c ≠ '=' ∧ o ≠ .ticks := by
  unfold shortOf at h
  split_ifs at h with h1 h2 h3
  all_goals (cases h; subst_vars; exact ⟨rfl, by decide, by decide, by decide⟩)

theorem optionTuples_single {c : Char} {s : Str} (hc : c ≠ '-') (hs : s ≠ [])
    (hn : ¬ (c = 't' ∧ s = ['n'])) :
    optionTuples ('-' :: c :: s) =
      (shortOf c).toList.map fun o => ⟨some o, ['-', c], some [], some s⟩ := by
  have e3 : ¬ (('-' :: c :: s)[1]? = some '-') := by simpa using hc
  unfold optionTuples
  rw [if_neg e3]
  have hl : ∀ o, (if longName o = ('-' :: c :: s).take 2 then
        some (⟨some o, longName o, some [], some (('-' :: c :: s).drop 2)⟩ : OptTuple)
      else if ('-' :: c :: s).isPrefixOf (longName o) then some ⟨some o, longName o, none, none⟩
      else none) = none := by
    intro o
    obtain ⟨r, hr, hr'⟩ := longName_double o
    rw [hr, if_neg (by simp [hr']), if_neg (by simp [List.isPrefixOf, hc])]
  have hsh : ∀ o, o ≠ .ticks → (if shortName o = ('-' :: c :: s).take 2 then
        some (⟨some o, shortName o, some [], some (('-' :: c :: s).drop 2)⟩ : OptTuple)
      else if ('-' :: c :: s).isPrefixOf (shortName o) then some ⟨some o, shortName o, none, none⟩
      else none) = if shortOf c = some o then some ⟨some o, ['-', c], some [], some s⟩ else none := by
    intro o ho
    have : ∃ d, shortName o = ['-', d] ∧ shortOf d = some o ∧
        (∀ c, shortOf c = some o → c = d) := by
      cases o
      · exact ⟨'h', rfl, rfl, fun c h => by have := (shortOf_some h).1; rw [shortName_help] at this; cases this; rfl⟩
      · exact ⟨'i', rfl, rfl, fun c h => by have := (shortOf_some h).1; rw [shortName_instr] at this; cases this; rfl⟩
      · exact ⟨'t', rfl, rfl, fun c h => by have := (shortOf_some h).1; rw [shortName_track] at this; cases this; rfl⟩
      · exact absurd rfl ho
    obtain ⟨d, hd, hd1, hd2⟩ := this
    rw [hd]
    obtain ⟨s0, s', rfl⟩ : ∃ s0 s', s = s0 :: s' := by
      cases s with
      | nil => exact absurd rfl hs
      | cons x y => exact ⟨x, y, rfl⟩
    by_cases h : d = c
    · subst h
      simp [hd1]
    · have h2 : shortOf c ≠ some o := fun h' => h (hd2 c h').symm
      rw [if_neg (by simp [h]), if_neg (by simp [List.isPrefixOf]), if_neg h2]
  have htn : (if shortName .ticks = ('-' :: c :: s).take 2 then
        some (⟨some .ticks, shortName .ticks, some [], some (('-' :: c :: s).drop 2)⟩ : OptTuple)
      else if ('-' :: c :: s).isPrefixOf (shortName .ticks) then some ⟨some .ticks, shortName .ticks, none, none⟩
      else none) = none := by
    rw [shortName_ticks, if_neg (by simp), if_neg]
    intro h
    obtain ⟨t, ht⟩ := List.isPrefixOf_iff_prefix.mp h
    simp only [List.cons_append, List.cons.injEq, true_and] at ht
    obtain ⟨rfl, ht⟩ := ht
    cases s with
    | nil => exact hs rfl
    | cons x y =>
      simp only [List.cons_append, List.cons.injEq, List.append_eq_nil_iff] at ht
      exact hn ⟨rfl, by rw [ht.1, ht.2.1]⟩
  rw [optionTable_eq]
  simp only [List.filterMap_cons, List.filterMap_nil, hl, hsh .help (by decide),
    hsh .instr (by decide), hsh .track (by decide), htn]
  cases hso : shortOf c with
  | none => simp
  | some o =>
    cases o
    · simp
    · simp
    · simp
    · exact absurd rfl (shortOf_some hso).2.2.2

/-- An argument with one dash that is none of the options' short names. -/
theorem parseOptional_single {u : Uni} {c : Char} {s : Str} (hc : c ≠ '-') :
    (∀ o, shortOf c = some o → s = [] →
      parseOptional u ('-' :: c :: s) = .ok (some ⟨some o, ['-', c], none, none⟩)) ∧
    (c = 't' → s = ['n'] →
      parseOptional u ('-' :: c :: s) = .ok (some ⟨some .ticks, ['-', 't', 'n'], none, none⟩)) ∧
    (∀ v, c = 't' → s = 'n' :: '=' :: v →
      parseOptional u ('-' :: c :: s) = .ok (some ⟨some .ticks, ['-', 't', 'n'], some ['='], some v⟩)) ∧
    (∀ o v, shortOf c = some o → s = '=' :: v →
      parseOptional u ('-' :: c :: s) = .ok (some ⟨some o, ['-', c], some ['='], some v⟩)) ∧
    (∀ o, shortOf c = some o → s ≠ [] → s.head? ≠ some '=' → ¬ (c = 't' ∧ s = ['n']) →
      ¬ (c = 't' ∧ ∃ v, s = 'n' :: '=' :: v) →
      parseOptional u ('-' :: c :: s) = .ok (some ⟨some o, ['-', c], some [], some s⟩)) ∧
    (shortOf c = none → parseOptional u ('-' :: c :: s) =
        if negativeNumber u ('-' :: c :: s) then .ok none
        else if ' ' ∈ ('-' :: c :: s) then .ok none
        else .ok (some ⟨none, '-' :: c :: s, none, none⟩)) := by
  have stop : optionOf ('-' :: c :: s) = none →
      ((partitionEq ('-' :: c :: s)).2 = none ∨ optionOf (partitionEq ('-' :: c :: s)).1 = none) →
      parseOptional u ('-' :: c :: s) =
            match optionTuples ('-' :: c :: s) with
            | [t] => .ok (some t)
            | _ :: _ :: _ => .error .usage
            | [] =>
              if negativeNumber u ('-' :: c :: s) then .ok none
              else if ' ' ∈ ('-' :: c :: s) then .ok none
              else .ok (some ⟨none, '-' :: c :: s, none, none⟩) := by
    intro h1 h2
    rw [parseOptional]
    simp only [ne_eq, not_true_eq_false, if_false, h1, reduceCtorEq]
    rcases h2 with h2 | h2
    · rw [h2]
      rfl
    · rw [h2]
      cases (partitionEq ('-' :: c :: s)).2 <;> rfl
  refine ⟨?_, ?_, ?_, ?_, ?_, ?_⟩
  · rintro o h rfl
    have := optionOf_short o
    rw [(shortOf_some h).1] at this
    simp [parseOptional, this]
  · rintro rfl rfl
    rfl
  · rintro v rfl rfl
    have h1 : optionOf ('-' :: 't' :: 'n' :: '=' :: v) = none := by
      cases h : optionOf ('-' :: 't' :: 'n' :: '=' :: v) with
      | none => rfl
      | some o => rcases optionOf_single hc h with ⟨_, h⟩ | ⟨_, h, _⟩ <;> cases h
    have h2 : partitionEq ('-' :: 't' :: 'n' :: '=' :: v) = (['-', 't', 'n'], some v) :=
      partitionEq_some (n := ['-', 't', 'n']) (by decide)
    have h3 : optionOf ['-', 't', 'n'] = some .ticks := optionOf_short .ticks
    rw [parseOptional]
    simp only [ne_eq, not_true_eq_false, if_false, h1, reduceCtorEq, h2, h3]
  · rintro o v h rfl
    have h1 : optionOf ('-' :: c :: '=' :: v) = none := by
      cases h : optionOf ('-' :: c :: '=' :: v) with
      | none => rfl
      | some o => rcases optionOf_single hc h with ⟨_, h⟩ | ⟨_, h, _⟩ <;> cases h
    have h2 : partitionEq ('-' :: c :: '=' :: v) = (['-', c], some v) :=
      partitionEq_some (n := ['-', c]) (by simp [Ne.symm (shortOf_some h).2.2.1])
    have h3 : optionOf ['-', c] = some o := by rw [← (shortOf_some h).1]; exact optionOf_short o
    rw [parseOptional]
    simp only [ne_eq, not_true_eq_false, if_false, h1, reduceCtorEq, h2, h3]
  · intro o h hs hh hn hn'
    have h1 : optionOf ('-' :: c :: s) = none := by
      cases h : optionOf ('-' :: c :: s) with
      | none => rfl
      | some o =>
        rcases optionOf_single hc h with ⟨_, h⟩ | ⟨h, h', _⟩
        · exact absurd h hs
        · exact absurd ⟨h, h'⟩ hn
    rw [stop h1, optionTuples_single hc hs hn, h]
    · rfl
    · rcases partitionEq_cases ('-' :: c :: s) with ⟨_, h2⟩ | ⟨n, v, hn2, h2, h3⟩
      · rw [h2]; exact .inl rfl
      · right
        rw [h3]
        cases h4 : optionOf n with
        | none => rfl
        | some o' =>
          exfalso
          cases n with
          | nil => cases h2
          | cons n0 n =>
            cases n with
            | nil =>
              simp only [List.cons_append, List.nil_append, List.cons.injEq] at h2
              exact (shortOf_some h).2.2.1 h2.2.1
            | cons n1 n =>
              simp only [List.cons_append, List.cons.injEq] at h2
              obtain ⟨rfl, rfl, rfl⟩ := h2
              rcases optionOf_single hc h4 with ⟨_, rfl⟩ | ⟨rfl, rfl, _⟩
              · exact hh rfl
              · exact hn' ⟨rfl, v, rfl⟩
  · intro h
    by_cases hs : s = []
    · subst hs
      have h1 : optionOf ['-', c] = none := by
        cases h' : optionOf ['-', c] with
        | none => rfl
        | some o =>
          rcases optionOf_single hc h' with ⟨h2, _⟩ | ⟨_, h2, _⟩
          · rw [h] at h2; cases h2
          · cases h2
      have h5 : optionTuples ['-', c] = [] := by
        have e3 : ¬ ((['-', c] : Str)[1]? = some '-') := by simpa using hc
        unfold optionTuples
        rw [if_neg e3, List.filterMap_eq_nil_iff, optionTable_eq]
        have hch : c ≠ 'h' := by rintro rfl; cases h
        have hci : c ≠ 'i' := by rintro rfl; cases h
        have hct : c ≠ 't' := by rintro rfl; cases h
        have hl : ∀ o, (if longName o = (['-', c] : Str).take 2 then
              some (⟨some o, longName o, some [], some ((['-', c] : Str).drop 2)⟩ : OptTuple)
            else if (['-', c] : Str).isPrefixOf (longName o) then some ⟨some o, longName o, none, none⟩
            else none) = none := by
          intro o
          obtain ⟨r, hr, hr'⟩ := longName_double o
          rw [hr, if_neg (by simp [hr']), if_neg (by simp [List.isPrefixOf, hc])]
        have hsh : ∀ o, (if shortName o = (['-', c] : Str).take 2 then
              some (⟨some o, shortName o, some [], some ((['-', c] : Str).drop 2)⟩ : OptTuple)
            else if (['-', c] : Str).isPrefixOf (shortName o) then some ⟨some o, shortName o, none, none⟩
            else none) = none := by
          intro o
          cases o
          · rw [shortName_help]; simp [List.isPrefixOf, hch, hch.symm]
          · rw [shortName_instr]; simp [List.isPrefixOf, hci, hci.symm]
          · rw [shortName_track]; simp [List.isPrefixOf, hct, hct.symm]
          · rw [shortName_ticks]; simp [List.isPrefixOf, hct]
        intro x hx
        simp only [List.mem_cons, List.not_mem_nil, or_false] at hx
        rcases hx with rfl | rfl | rfl | rfl | rfl | rfl | rfl | rfl <;>
          simp only [hl, hsh]
      rw [stop h1, h5]
      rcases partitionEq_cases ['-', c] with ⟨_, h2⟩ | ⟨n, v, hn2, h2, h3⟩
      · rw [h2]; exact .inl rfl
      · right
        rw [h3]
        cases h4 : optionOf n with
        | none => rfl
        | some o' =>
          exfalso
          cases n with
          | nil => cases h2
          | cons n0 n =>
            cases n with
            | nil =>
              simp only [List.cons_append, List.nil_append, List.cons.injEq] at h2
              obtain ⟨rfl, -⟩ := h2
              revert h4
              have : optionOf ['-'] = none := by decide
              rw [this]; simp
            | cons n1 n =>
              simp only [List.cons_append, List.cons.injEq] at h2
              obtain ⟨_, _, h2⟩ := h2
              cases n <;> cases h2
    · have h1 : optionOf ('-' :: c :: s) = none := by
        cases h' : optionOf ('-' :: c :: s) with
        | none => rfl
        | some o =>
          rcases optionOf_single hc h' with ⟨h2, _⟩ | ⟨h2, _⟩
          · rw [h] at h2; cases h2
          · subst h2; cases h
      have hn : ¬ (c = 't' ∧ s = ['n']) := by
        rintro ⟨rfl, _⟩; cases h
      rw [stop h1, optionTuples_single hc hs hn, h]
      · rfl
      · rcases partitionEq_cases ('-' :: c :: s) with ⟨_, h2⟩ | ⟨n, v, hn2, h2, h3⟩
        · rw [h2]; exact .inl rfl
        · right
          rw [h3]
          cases h4 : optionOf n with
          | none => rfl
          | some o' =>
            exfalso
            cases n with
            | nil => cases h2
            | cons n0 n =>
              cases n with
              | nil =>
                simp only [List.cons_append, List.nil_append, List.cons.injEq] at h2
                obtain ⟨rfl, -⟩ := h2
                revert h4
                have : optionOf ['-'] = none := by decide
                rw [this]; simp
              | cons n1 n =>
                simp only [List.cons_append, List.cons.injEq] at h2
                obtain ⟨rfl, rfl, rfl⟩ := h2
                rcases optionOf_single hc h4 with ⟨h5, _⟩ | ⟨rfl, _⟩
                · rw [h] at h5; cases h5
                · cases h

/-! ### Negative numbers -/

theorem isDigit_iff {u : Uni} {c : Char} : u.isDigit c = true ↔ Digit u c := by
  simp [Uni.isDigit, Digit]

theorem not_digit_nl {u : Uni} : ¬ Digit u '\n' := by
  rintro (⟨h, _⟩ | ⟨h, _⟩)
  · exact absurd h (by decide)
  · exact absurd h (by decide)

theorem not_digit_dot {u : Uni} : ¬ Digit u '.' := by
  rintro (⟨h, _⟩ | ⟨h, _⟩)
  · exact absurd h (by decide)
  · exact absurd h (by decide)

theorem dropWhile_digits {u : Uni} {ds : Str} (h : ∀ c ∈ ds, Digit u c) (t : Str) :
    (ds ++ '.' :: t).dropWhile u.isDigit = '.' :: t ∧ ds.dropWhile u.isDigit = [] := by
  induction ds with
  | nil =>
    have : u.isDigit '.' = false := by
      rw [← Bool.not_eq_true, isDigit_iff]; exact not_digit_dot
    simp [this]
  | cons c cs ih =>
    have h1 : u.isDigit c = true := isDigit_iff.mpr (h c (by simp))
    have := ih (fun d hd => h d (by simp [hd]))
    simp [h1, this]

theorem strip_nl {s nl : Str} (hnl : nl = [] ∨ nl = ['\n']) (hs : s.getLast? ≠ some '\n') :
    (if (s ++ nl).getLast? = some '\n' then (s ++ nl).dropLast else s ++ nl) = s := by
  rcases hnl with rfl | rfl
  · simp [hs]
  · simp

theorem negativeNumber_iff {u : Uni} {a : Str} :
    negativeNumber u a = true ↔ NegativeNumber u a := by
  constructor
  · intro h
    unfold negativeNumber at h
    split at h
    case h_2 => cases h
    case h_1 s0 =>
      obtain ⟨s, nl, hnl, h0, hs⟩ : ∃ s nl, (nl = [] ∨ nl = ['\n']) ∧ s0 = s ++ nl ∧
          (if s0.getLast? = some '\n' then s0.dropLast else s0) = s := by
        by_cases hl : s0.getLast? = some '\n'
        · refine ⟨s0.dropLast, ['\n'], .inr rfl, ?_, by simp [hl]⟩
          rw [List.getLast?_eq_some_iff] at hl
          obtain ⟨ys, rfl⟩ := hl
          simp
        · exact ⟨s0, [], .inl rfl, by simp, by simp [hl]⟩
      simp only [hs] at h
      have htd := List.takeWhile_append_dropWhile (p := u.isDigit) (l := s)
      have hdig : ∀ c ∈ s.takeWhile u.isDigit, Digit u c := by
        intro c hc
        have := List.all_takeWhile (p := u.isDigit) (l := s)
        rw [List.all_eq_true] at this
        exact isDigit_iff.mp (this c hc)
      subst h0
      rw [Bool.or_eq_true] at h
      rcases h with h | h
      · simp only [ne_eq, decide_not, Bool.and_eq_true, decide_eq_true_eq, Bool.not_eq_eq_eq_not,
          Bool.not_true, decide_eq_false_iff_not] at h
        rw [h.1, List.append_nil] at htd
        refine ⟨s, nl, by rw [← htd]; exact hdig, hnl, .inl ⟨h.2, rfl⟩⟩
      · split at h
        case h_2 => cases h
        case h_1 t ht =>
          simp only [ne_eq, decide_not, Bool.and_eq_true, Bool.not_eq_eq_eq_not,
            Bool.not_true, decide_eq_false_iff_not, List.all_eq_true] at h
          refine ⟨s.takeWhile u.isDigit, nl, hdig, hnl, .inr ⟨t, h.1, fun c hc => isDigit_iff.mp (h.2 c hc), ?_⟩⟩
          rw [ht] at htd
          have e := congrArg (fun z => '-' :: (z ++ nl)) htd
          simpa using e.symm
  · rintro ⟨ds, nl, hds, hnl, ⟨hne, rfl⟩ | ⟨fs, hne, hfs, rfl⟩⟩
    · have hl : ds.getLast? ≠ some '\n' := by
        intro h
        exact not_digit_nl (hds _ (List.mem_of_getLast? h))
      have h1 := strip_nl hnl hl
      simp only [negativeNumber, List.cons_append, h1, (dropWhile_digits hds []).2]
      simp [hne]
    · have hl : (ds ++ '.' :: fs).getLast? ≠ some '\n' := by
        intro h
        have : fs.getLast? = some '\n' := by
          rw [List.getLast?_append, List.getLast?_cons] at h
          cases fs with
          | nil => exact absurd rfl hne
          | cons x y => simpa [List.getLast?_cons] using h
        exact not_digit_nl (hfs _ (List.mem_of_getLast? this))
      have h1 := strip_nl hnl hl
      have e : ('-' :: ds ++ '.' :: fs ++ nl : Str) = '-' :: ((ds ++ '.' :: fs) ++ nl) := by simp
      simp only [negativeNumber, e, h1, (dropWhile_digits hds fs).1]
      simp [hne]
      intro c hc
      exact isDigit_iff.mpr (hfs c hc)

/-! ### What a single argument is -/

theorem mem_longMatches {n : Str} {o : Opt} : o ∈ longMatches n ↔ n <+: longName o := by
  unfold longMatches
  rw [List.mem_filter, List.isPrefixOf_iff_prefix]
  constructor
  · exact fun h => h.2
  · intro h
    exact ⟨by cases o <;> simp, h⟩

theorem nodup_longMatches (n : Str) : (longMatches n).Nodup :=
  List.Pairwise.filter _ (by decide)

theorem longMatches_single {n : Str} {o : Opt} :
    longMatches n = [o] ↔ n <+: longName o ∧ ∀ o', n <+: longName o' → o' = o := by
  constructor
  · intro h
    refine ⟨mem_longMatches.mp (by simp [h]), fun o' h' => ?_⟩
    have := mem_longMatches.mpr h'
    rw [h] at this
    simpa using this
  · rintro ⟨h1, h2⟩
    have hm := mem_longMatches.mpr h1
    have hn := nodup_longMatches n
    have hall : ∀ o' ∈ longMatches n, o' = o := fun o' h' => h2 o' (mem_longMatches.mp h')
    match hl : longMatches n with
    | [] => rw [hl] at hm; cases hm
    | [x] => rw [hl] at hm; simp at hm; rw [hm]
    | x :: y :: l =>
      rw [hl] at hn hall
      have hx := hall x (by simp)
      have hy := hall y (by simp)
      rw [hx, hy] at hn
      simp at hn

theorem noEq_of_prefix_long {n : Str} {o : Opt} (h : n <+: longName o) : '=' ∉ n := by
  intro hm
  have := h.subset hm
  cases o <;> exact absurd this (by decide)

theorem prefix_long_shape {n : Str} {o : Opt} (h : n <+: longName o) (h2 : 2 ≤ n.length) :
    ∃ r, n = '-' :: '-' :: r := by
  obtain ⟨r, hr, -⟩ := longName_double o
  rw [hr] at h
  match n, h2 with
  | a :: b :: n, _ =>
    simp only [List.cons_prefix_cons] at h
    exact ⟨n, by rw [h.1, h.2.1]⟩

theorem begins_double {r : Str} :
    BeginsLikeOption ('-' :: '-' :: r) ↔ longMatches ('-' :: '-' :: (partitionEq r).1) ≠ [] := by
  constructor
  · rintro (h | ⟨o, name, h2, hp, ha⟩)
    · exact absurd h (by simp)
    · intro hnil
      obtain ⟨r', rfl⟩ := prefix_long_shape hp h2
      have hne := noEq_of_prefix_long hp
      have hne' : '=' ∉ r' := fun h => hne (by simp [h])
      have : (partitionEq r).1 = r' := by
        rcases ha with ha | ⟨v, ha⟩
        · cases ha
          rw [partitionEq_none hne']
        · simp only [List.cons_append, List.cons.injEq, true_and] at ha
          rw [ha, partitionEq_some hne']
      rw [this] at hnil
      have := mem_longMatches.mpr hp
      rw [hnil] at this
      cases this
  · intro h
    obtain ⟨o, ho⟩ := List.exists_mem_of_ne_nil _ h
    refine .inr ⟨o, _, by simp, mem_longMatches.mp ho, ?_⟩
    rcases partitionEq_cases r with ⟨_, h1⟩ | ⟨n, v, _, h1, h2⟩
    · left; rw [h1]
    · right; rw [h2]; exact ⟨v, by simp [h1]⟩

theorem begins_single {c : Char} {s : Str} (hc : c ≠ '-') :
    BeginsLikeOption ('-' :: c :: s) ↔ shortOf c ≠ none := by
  constructor
  · rintro (h | ⟨o, name, h2, hp, ha⟩)
    · simp at h
      rcases h with rfl | rfl | rfl <;> simp [shortOf]
    · obtain ⟨r', rfl⟩ := prefix_long_shape hp h2
      exfalso
      rcases ha with ha | ⟨v, ha⟩
      · cases ha; exact hc rfl
      · simp only [List.cons_append, List.cons.injEq, true_and] at ha
        exact hc ha.1
  · intro h
    left
    unfold shortOf at h
    split_ifs at h with h1 h2 h3
    · simp [h1]
    · simp [h2]
    · simp [h3]
    · exact absurd rfl h

theorem parseOptional_operand {u : Uni} {a : Str} :
    parseOptional u a = .ok none ↔ OperandLike u a := by
  have fin : ∀ b : Str, (if negativeNumber u b then (.ok none : Except Exit (Option OptTuple))
        else if ' ' ∈ b then .ok none else .ok (some ⟨none, b, none, none⟩)) = .ok none ↔
      (NegativeNumber u b ∨ ' ' ∈ b) := by
    intro b
    rw [← negativeNumber_iff]
    split_ifs with h1 h2 <;> simp_all
  match a with
  | [] => simp [parseOptional, OperandLike]
  | c0 :: cs =>
    by_cases hc0 : c0 ≠ '-'
    · simp [parseOptional, OperandLike, hc0]
    replace hc0 := Decidable.not_not.mp hc0
    subst hc0
    match cs with
    | [] =>
      have : optionOf ['-'] = none := by decide
      simp [parseOptional, OperandLike, this]
    | c :: s =>
      have hsimp : OperandLike u ('-' :: c :: s) ↔
          ((NegativeNumber u ('-' :: c :: s) ∨ ' ' ∈ ('-' :: c :: s)) ∧ ¬ BeginsLikeOption ('-' :: c :: s)) := by
        simp [OperandLike]
      rw [hsimp]
      by_cases hc : c = '-'
      · subst hc
        rw [begins_double]
        obtain ⟨p1, p2, p3⟩ := parseOptional_double u s
        match hm : longMatches ('-' :: '-' :: (partitionEq s).1) with
        | [] =>
          rw [p2 hm, fin]; simp
        | [o] =>
          obtain ⟨name, sep, h⟩ := p1 o hm
          rw [h]; simp
        | o :: o' :: l =>
          rw [p3 o o' l hm]; simp
      · rw [begins_single hc]
        obtain ⟨p1, p2, p3, p4, p5, p6⟩ := parseOptional_single (u := u) (s := s) hc
        cases hs : shortOf c with
        | none => rw [p6 hs, fin]; simp
        | some o =>
          simp only [ne_eq, reduceCtorEq, not_false_eq_true, not_true_eq_false, and_false, iff_false]
          by_cases q1 : s = []
          · rw [p1 o hs q1]; simp
          by_cases q2 : c = 't' ∧ s = ['n']
          · rw [p2 q2.1 q2.2]; simp
          by_cases q3 : c = 't' ∧ ∃ v, s = 'n' :: '=' :: v
          · obtain ⟨q3, v, q4⟩ := q3
            rw [p3 v q3 q4]; simp
          by_cases q4 : s.head? = some '='
          · rw [List.head?_eq_some_iff] at q4
            obtain ⟨v, q4⟩ := q4
            rw [p4 o v hs q4]; simp
          · rw [p5 o hs q1 q4 q2 q3]; simp

/-- An argument that is read as an option. -/
theorem parseOptional_option {u : Uni} {a : Str} {t : OptTuple} {o : Opt}
    (h : parseOptional u a = .ok (some t)) (ho : t.action = some o) :
    o = .help ∨ (t.explicit = none ∧ Names a o) ∨ (∃ v, t.explicit = some v ∧ Joined a o v) := by
  have fin : ∀ b : Str, (if negativeNumber u b then (.ok none : Except Exit (Option OptTuple))
        else if ' ' ∈ b then .ok none else .ok (some ⟨none, b, none, none⟩)) ≠ .ok (some t) := by
    intro b
    split_ifs
    · simp
    · simp
    · intro h; cases h; cases ho
  match a with
  | [] => simp [parseOptional] at h
  | c0 :: cs =>
    by_cases hc0 : c0 ≠ '-'
    · simp [parseOptional, hc0] at h
    replace hc0 := Decidable.not_not.mp hc0
    subst hc0
    match cs with
    | [] =>
      have : optionOf ['-'] = none := by decide
      simp [parseOptional, this] at h
    | c :: s =>
      by_cases hc : c = '-'
      · subst hc
        obtain ⟨p1, p2, p3⟩ := parseOptional_double u s
        match hm : longMatches ('-' :: '-' :: (partitionEq s).1) with
        | [] => rw [p2 hm] at h; exact absurd h (fin _)
        | o1 :: o' :: l => rw [p3 o1 o' l hm] at h; cases h
        | [o1] =>
          obtain ⟨name, sep, h1⟩ := p1 o1 hm
          rw [h1] at h
          cases h
          cases ho
          right
          have hl := longMatches_single.mp hm
          have h3 : 3 ≤ ('-' :: '-' :: (partitionEq s).1).length := by
            cases h4 : (partitionEq s).1 with
            | nil =>
              exfalso
              rw [h4] at hm
              have : longMatches ['-', '-'] = [Opt.help, .instr, .track, .ticks] := by decide
              rw [this] at hm; cases hm
            | cons x y => simp
          rcases partitionEq_cases s with ⟨_, e⟩ | ⟨n, v, _, e, e'⟩
          · rw [e] at hl h3 ⊢
            exact .inl ⟨rfl, .inr ⟨h3, hl.1, hl.2⟩⟩
          · rw [e'] at hl h3 ⊢
            exact .inr ⟨v, rfl, .inl ⟨_, .inr ⟨h3, hl.1, hl.2⟩, by simp [e]⟩⟩
      · obtain ⟨p1, p2, p3, p4, p5, p6⟩ := parseOptional_single (u := u) (s := s) hc
        cases hs : shortOf c with
        | none => rw [p6 hs] at h; exact absurd h (fin _)
        | some o1 =>
          have hn := (shortOf_some hs).1
          by_cases q1 : s = []
          · rw [p1 o1 hs q1] at h; cases h; cases ho
            exact .inr (.inl ⟨rfl, .inl (by rw [hn, q1])⟩)
          by_cases q2 : c = 't' ∧ s = ['n']
          · rw [p2 q2.1 q2.2] at h; cases h; cases ho
            exact .inr (.inl ⟨rfl, .inl (by rw [q2.1, q2.2]; rfl)⟩)
          by_cases q3 : c = 't' ∧ ∃ v, s = 'n' :: '=' :: v
          · obtain ⟨q3, v, q4⟩ := q3
            rw [p3 v q3 q4] at h; cases h; cases ho
            exact .inr (.inr ⟨v, rfl, .inl ⟨shortName .ticks, .inl rfl, by rw [q3, q4, shortName_ticks]; rfl⟩⟩)
          by_cases q4 : s.head? = some '='
          · rw [List.head?_eq_some_iff] at q4
            obtain ⟨v, q4⟩ := q4
            rw [p4 o1 v hs q4] at h; cases h; cases ho
            exact .inr (.inr ⟨v, rfl, .inl ⟨shortName o, .inl rfl, by rw [q4, hn]; rfl⟩⟩)
          · rw [p5 o1 hs q1 q4 q2 q3] at h; cases h; cases ho
            cases o with
            | help => exact .inl rfl
            | ticks => exact absurd rfl (shortOf_some hs).2.2.2
            | instr =>
              rw [shortName_instr] at hn
              cases hn
              refine .inr (.inr ⟨s, rfl, .inr ⟨.inl rfl, rfl, q1, q4, ?_, ?_⟩⟩)
              · simp
              · simp
            | track =>
              rw [shortName_track] at hn
              cases hn
              refine .inr (.inr ⟨s, rfl, .inr ⟨.inr rfl, rfl, q1, q4, ?_, ?_⟩⟩)
              · intro h'
                simp at h'
                exact q2 ⟨rfl, h'⟩
              · rintro ⟨v, h'⟩
                simp at h'
                exact q3 ⟨rfl, v, h'.symm⟩

theorem names_parse {u : Uni} {a : Str} {o : Opt} (h : Names a o) :
    ∃ name sep, parseOptional u a = .ok (some ⟨some o, name, sep, none⟩) := by
  rcases h with rfl | ⟨h3, hp, hu⟩
  · exact ⟨shortName o, none, by cases o <;> rfl⟩
  · obtain ⟨r, rfl⟩ := prefix_long_shape hp (by omega)
    have hne := noEq_of_prefix_long hp
    have hne' : '=' ∉ r := fun h => hne (by simp [h])
    have := (parseOptional_double u r).1 o (by
      rw [partitionEq_none hne']; exact longMatches_single.mpr ⟨hp, hu⟩)
    rw [partitionEq_none hne'] at this
    exact this

theorem joined_parse {u : Uni} {a v : Str} {o : Opt} (h : Joined a o v) :
    ∃ name sep, parseOptional u a = .ok (some ⟨some o, name, sep, some v⟩) := by
  rcases h with ⟨name, hn, rfl⟩ | ⟨ho, rfl, hv, hh, h1, h2⟩
  · rcases hn with rfl | ⟨h3, hp, hu⟩
    · cases o
      · exact ⟨_, _, (parseOptional_single (c := 'h') (by decide)).2.2.2.1 .help v rfl rfl⟩
      · exact ⟨_, _, (parseOptional_single (c := 'i') (by decide)).2.2.2.1 .instr v rfl rfl⟩
      · exact ⟨_, _, (parseOptional_single (c := 't') (by decide)).2.2.2.1 .track v rfl rfl⟩
      · exact ⟨_, _, (parseOptional_single (c := 't') (by decide)).2.2.1 v rfl rfl⟩
    · obtain ⟨r, rfl⟩ := prefix_long_shape hp (by omega)
      have hne := noEq_of_prefix_long hp
      have hne' : '=' ∉ r := fun h => hne (by simp [h])
      have := (parseOptional_double u (r ++ '=' :: v)).1 o (by
        rw [partitionEq_some hne']; exact longMatches_single.mpr ⟨hp, hu⟩)
      rw [partitionEq_some hne'] at this
      exact this
  · rcases ho with rfl | rfl
    · exact ⟨_, _, (parseOptional_single (c := 'i') (by decide)).2.2.2.2.1 .instr rfl hv hh
        (by simp) (by simp)⟩
    · refine ⟨_, _, (parseOptional_single (c := 't') (by decide)).2.2.2.2.1 .track rfl hv hh ?_ ?_⟩
      · rintro ⟨_, rfl⟩; exact h1 rfl
      · rintro ⟨_, w, rfl⟩; exact h2 ⟨w, rfl⟩

end VgmX
