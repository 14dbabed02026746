import Verif.Lemmas.Args
import Verif.Lemmas.Text
/-
`int` of a text: the model against the specification.
-/

namespace VgmX
open Spec

theorem underscored_one (g : Str) : underscored [g] = g := by
  simp [underscored, List.intercalate]

theorem underscored_cons (g h : Str) (t : List Str) :
    underscored (g :: h :: t) = g ++ '_' :: underscored (h :: t) := by
  simp [underscored, List.intercalate]

theorem underscored_push (c : Char) (g : Str) (t : List Str) :
    underscored ((c :: g) :: t) = c :: underscored (g :: t) := by
  cases t with
  | nil => simp [underscored_one]
  | cons h t => simp [underscored_cons]

theorem readFrom_dec {c : Char} (hc : isDec c = true) (acc : Nat) (s : Str) :
    readFrom 10 acc (c :: s) = readFrom 10 (acc * 10 + (c.toNat - '0'.toNat)) s := by
  simp only [isDec, decide_eq_true_eq] at hc
  have h2 : c.toNat - '0'.toNat < 10 := by
    have h3 : c.toNat ≤ '9'.toNat := hc.2
    have e0 : '0'.toNat = 48 := rfl
    have e9 : '9'.toNat = 57 := rfl
    omega
  rw [readFrom]
  simp only [digitVal, if_pos hc, if_pos h2]

theorem pyDigits_sound {s : Str} {prev : Bool} {acc n v k : Nat}
    (h : pyDigits prev acc n s = some (v, k)) :
    ∃ g groups, (prev = false → g ≠ []) ∧ (∀ c ∈ g, isDec c = true) ∧
      (∀ g' ∈ groups, g' ≠ [] ∧ ∀ c ∈ g', isDec c = true) ∧
      s = underscored (g :: groups) ∧ k = n + (g :: groups).flatten.length ∧
      readFrom 10 acc (g :: groups).flatten = some v := by
  induction s generalizing prev acc n with
  | nil =>
    rw [pyDigits] at h
    cases prev with
    | false => cases h
    | true =>
      cases h
      exact ⟨[], [], by simp, by simp, by simp, rfl, by simp, rfl⟩
  | cons c s ih =>
    rw [pyDigits] at h
    split_ifs at h with h1 h2
    · obtain ⟨g, groups, _, a2, a3, a4, a5, a6⟩ := ih h
      have hc : isDec c = true := by simp [isDec, h1]
      refine ⟨c :: g, groups, by simp, ?_, a3, by rw [underscored_push, a4], ?_, ?_⟩
      · intro d hd
        rcases List.mem_cons.mp hd with rfl | hd
        · exact hc
        · exact a2 d hd
      · rw [a5]; simp; omega
      · rw [List.flatten_cons, List.cons_append, readFrom_dec hc, ← List.flatten_cons, a6]
    · obtain ⟨g, groups, a1, a2, a3, a4, a5, a6⟩ := ih h
      refine ⟨[], g :: groups, by simp [h2.2], by simp, ?_, by rw [underscored_cons, ← a4, h2.1]; rfl, ?_, ?_⟩
      · intro g' hg
        rcases List.mem_cons.mp hg with rfl | hg
        · exact ⟨a1 rfl, a2⟩
        · exact a3 g' hg
      · rw [a5]; simp
      · simpa using a6

theorem pyDigits_complete {groups : List Str} {g : Str} {prev : Bool} {acc n v : Nat}
    (hp : prev = false → g ≠ []) (hg : ∀ c ∈ g, isDec c = true)
    (hgs : ∀ g' ∈ groups, g' ≠ [] ∧ ∀ c ∈ g', isDec c = true)
    (hv : readFrom 10 acc (g :: groups).flatten = some v) :
    pyDigits prev acc n (underscored (g :: groups)) = some (v, n + (g :: groups).flatten.length) := by
  induction groups generalizing g prev acc n with
  | nil =>
    rw [underscored_one]
    induction g generalizing prev acc n with
    | nil =>
      have : prev = true := by
        cases prev with
        | true => rfl
        | false => exact absurd rfl (hp rfl)
      simp only [List.flatten_cons, List.flatten_nil, List.append_nil, readFrom, Option.some.injEq] at hv
      simp [pyDigits, this, hv]
    | cons c g ih =>
      have hc := hg c (by simp)
      have hc' : '0' ≤ c ∧ c ≤ '9' := by simpa [isDec] using hc
      rw [List.flatten_cons, List.cons_append, readFrom_dec hc, ← List.flatten_cons] at hv
      rw [pyDigits, if_pos hc', ih (prev := true) (by simp) (fun d hd => hg d (by simp [hd])) hv]
      simp; omega
  | cons h t iht =>
    induction g generalizing prev acc n with
    | nil =>
      have hpr : prev = true := by
        cases prev with
        | true => rfl
        | false => exact absurd rfl (hp rfl)
      rw [underscored_cons, List.nil_append, pyDigits, if_neg (by decide), if_pos ⟨rfl, hpr⟩,
        iht (g := h) (prev := false) (fun _ => (hgs h (by simp)).1) (hgs h (by simp)).2
          (fun g' hg' => hgs g' (by simp [hg'])) (by simpa using hv)]
      simp
    | cons c g ih =>
      have hc := hg c (by simp)
      have hc' : '0' ≤ c ∧ c ≤ '9' := by simpa [isDec] using hc
      rw [List.flatten_cons, List.cons_append, readFrom_dec hc, ← List.flatten_cons] at hv
      rw [underscored_push, pyDigits, if_pos hc', ih (prev := true) (by simp) (fun d hd => hg d (by simp [hd])) hv]
      simp; omega

/-! ### Blanks around a text -/

theorem cSpace_iff {c : Char} : cSpace c = true ↔
    (c = ' ' ∨ c = '\t' ∨ c = '\n' ∨ c = '\r' ∨ c = '\x0b' ∨ c = '\x0c') := by
  simp [cSpace, or_assoc]

theorem dropWhile_blank {b x : Str} (hb : Blank b) (hx : ∀ c ∈ x, cSpace c = false) :
    (b ++ x).dropWhile cSpace = x := by
  induction b with
  | nil =>
    cases x with
    | nil => rfl
    | cons c x => simp [hx c (by simp)]
  | cons c b ih =>
    have h1 : cSpace c = true := cSpace_iff.mpr (hb c (by simp))
    simp [h1, ih (fun d hd => hb d (by simp [hd]))]

theorem dropWhile_blank' {b x : Str} (hb : Blank b) (hx : ∀ c, x.head? = some c → cSpace c = false) :
    (b ++ x).dropWhile cSpace = x := by
  induction b with
  | nil =>
    cases x with
    | nil => rfl
    | cons c x => simp [hx c (by simp)]
  | cons c b ih =>
    have h1 : cSpace c = true := cSpace_iff.mpr (hb c (by simp))
    simp [h1, ih (fun d hd => hb d (by simp [hd]))]

theorem blank_reverse {b : Str} (h : Blank b) : Blank b.reverse := fun c hc => h c (by simpa using hc)

theorem strip_blank {b x a : Str} (hb : Blank b) (ha : Blank a) (hne : x ≠ [])
    (hx : ∀ c ∈ x, cSpace c = false) :
    (((b ++ x ++ a).dropWhile cSpace).reverse.dropWhile cSpace).reverse = x := by
  rw [List.append_assoc, dropWhile_blank' hb]
  · rw [List.reverse_append, dropWhile_blank (blank_reverse ha) (fun c hc => hx c (by simpa using hc)),
      List.reverse_reverse]
  · intro c hc
    cases x with
    | nil => exact absurd rfl hne
    | cons d x =>
      simp only [List.cons_append, List.head?_cons, Option.some.injEq] at hc
      exact hc ▸ hx d (by simp)

theorem blank_takeWhile (s : Str) : Blank (s.takeWhile cSpace) := by
  intro c hc
  have := List.all_takeWhile (p := cSpace) (l := s)
  rw [List.all_eq_true] at this
  exact cSpace_iff.mp (this c hc)

theorem strip_split (s : Str) : ∃ b a, Blank b ∧ Blank a ∧
    s = b ++ ((s.dropWhile cSpace).reverse.dropWhile cSpace).reverse ++ a := by
  refine ⟨s.takeWhile cSpace, ((s.dropWhile cSpace).reverse.takeWhile cSpace).reverse,
    blank_takeWhile s, blank_reverse (blank_takeWhile _), ?_⟩
  rw [List.append_assoc, ← List.reverse_append, List.takeWhile_append_dropWhile,
    List.reverse_reverse, List.takeWhile_append_dropWhile]

theorem dec_not_space {c : Char} (h : isDec c = true ∨ c = '_' ∨ c = '-' ∨ c = '+') :
    cSpace c = false := by
  rcases h with h | rfl | rfl | rfl
  · rw [← Bool.not_eq_true, cSpace_iff]
    rintro (rfl | rfl | rfl | rfl | rfl | rfl) <;> exact absurd h (by decide)
  · decide
  · decide
  · decide

theorem mem_underscored {groups : List Str}
    (h : ∀ g ∈ groups, g ≠ [] ∧ ∀ c ∈ g, isDec c = true) {c : Char} (hc : c ∈ underscored groups) :
    isDec c = true ∨ c = '_' := by
  induction groups with
  | nil => simp [underscored, List.intercalate] at hc
  | cons g t ih =>
    cases t with
    | nil => rw [underscored_one] at hc; exact .inl ((h g (by simp)).2 c hc)
    | cons k t =>
      rw [underscored_cons] at hc
      rcases List.mem_append.mp hc with hc | hc
      · exact .inl ((h g (by simp)).2 c hc)
      · rcases List.mem_cons.mp hc with rfl | hc
        · exact .inr rfl
        · exact ih (fun g' hg' => h g' (by simp [hg'])) hc

/-- The digits of `int`. -/
def intDigits (s : Str) : Option Nat :=
  match pyDigits false 0 0 s with
  | some (v, n) => if n ≤ 4300 then some v else none
  | none => none

theorem intDigits_iff {s : Str} {v : Nat} : intDigits s = some v ↔
    ∃ groups, s = underscored groups ∧ groups ≠ [] ∧
      (∀ g ∈ groups, g ≠ [] ∧ ∀ c ∈ g, isDec c = true) ∧
      groups.flatten.length ≤ 4300 ∧ readBase 10 groups.flatten = some v := by
  constructor
  · intro h
    unfold intDigits at h
    split at h
    case h_2 => cases h
    case h_1 v' n hp =>
      split_ifs at h with hn
      cases h
      obtain ⟨g, groups, a1, a2, a3, a4, a5, a6⟩ := pyDigits_sound hp
      refine ⟨g :: groups, a4, by simp, ?_, by omega, ?_⟩
      · intro g' hg'
        rcases List.mem_cons.mp hg' with rfl | hg'
        · exact ⟨a1 rfl, a2⟩
        · exact a3 g' hg'
      · rw [readBase, if_neg, a6]
        have := a1 rfl
        simp [this]
  · rintro ⟨groups, rfl, hne, hg, hl, hv⟩
    match groups, hne with
    | g :: groups, _ =>
      have hg0 := hg g (by simp)
      rw [readBase, if_neg (by simp [hg0.1])] at hv
      unfold intDigits
      rw [pyDigits_complete (fun _ => hg0.1) hg0.2 (fun g' h' => hg g' (by simp [h'])) hv]
      simp only [Nat.zero_add, if_pos hl]

theorem pyInt_ascii {u : Uni} {s : Str} (h : ∀ c ∈ s, c.toNat < 128) :
    pyInt u s =
      match ((s.dropWhile cSpace).reverse.dropWhile cSpace).reverse with
      | '-' :: s => (intDigits s).map (fun (v : Nat) => -(v : Int))
      | '+' :: s => (intDigits s).map (fun (v : Nat) => (v : Int))
      | s => (intDigits s).map (fun (v : Nat) => (v : Int)) := by
  have h1 : s.all (fun c => c.toNat < 128) = true := by simpa using h
  unfold pyInt
  rw [if_pos h1]
  rfl

theorem pyInt_iff {u : Uni} {s : Str} {n : Int} : pyInt u s = some n ↔ IntText u s n := by
  unfold IntText
  by_cases h : ∀ c ∈ s, c.toNat < 128
  case neg =>
    rw [if_neg h]
    unfold pyInt
    have h1 : ¬ s.all (fun c => c.toNat < 128) = true := by simpa using h
    rw [if_neg h1]
  rw [if_pos h, pyInt_ascii h]
  constructor
  · intro hp
    obtain ⟨b, a, hb, ha, hs⟩ := strip_split s
    generalize ((s.dropWhile cSpace).reverse.dropWhile cSpace).reverse = x at hp hs
    split at hp
    · obtain ⟨v, hv, rfl⟩ := Option.map_eq_some_iff.mp hp
      obtain ⟨groups, rfl, h1, h2, h3, h4⟩ := intDigits_iff.mp hv
      exact ⟨b, a, ['-'], groups, v, hb, ha, by simp [hs], h1, h2, h3, h4, .inl ⟨rfl, rfl⟩⟩
    · obtain ⟨v, hv, rfl⟩ := Option.map_eq_some_iff.mp hp
      obtain ⟨groups, rfl, h1, h2, h3, h4⟩ := intDigits_iff.mp hv
      exact ⟨b, a, ['+'], groups, v, hb, ha, by simp [hs], h1, h2, h3, h4, .inr ⟨.inr rfl, rfl⟩⟩
    · obtain ⟨v, hv, rfl⟩ := Option.map_eq_some_iff.mp hp
      obtain ⟨groups, rfl, h1, h2, h3, h4⟩ := intDigits_iff.mp hv
      exact ⟨b, a, [], groups, v, hb, ha, by simp [hs], h1, h2, h3, h4, .inr ⟨.inl rfl, rfl⟩⟩
  · rintro ⟨b, a, sign, groups, v, hb, ha, rfl, h1, h2, h3, h4, hsign⟩
    have hv := intDigits_iff.mpr ⟨groups, rfl, h1, h2, h3, h4⟩
    have hune : ∃ c s, isDec c = true ∧ underscored groups = c :: s := by
      match groups, h1 with
      | g :: t, _ =>
        have := h2 g (by simp)
        match g, this.1 with
        | c :: g, _ => exact ⟨c, _, this.2 c (by simp), underscored_push c g t⟩
    have hx : ∀ c ∈ sign ++ underscored groups, cSpace c = false := by
      intro c hc
      rcases List.mem_append.mp hc with hc | hc
      · apply dec_not_space
        rcases hsign with ⟨rfl, _⟩ | ⟨rfl | rfl, _⟩
        · simp at hc; simp [hc]
        · cases hc
        · simp at hc; simp [hc]
      · rcases mem_underscored h2 hc with h | h
        · exact dec_not_space (.inl h)
        · exact dec_not_space (.inr (.inl h))
    have hstrip := strip_blank hb ha (x := sign ++ underscored groups) (by
      obtain ⟨c, s, _, e⟩ := hune
      simp [e]) hx
    rw [show b ++ sign ++ underscored groups ++ a = b ++ (sign ++ underscored groups) ++ a by simp, hstrip]
    rcases hsign with ⟨rfl, rfl⟩ | ⟨rfl | rfl, rfl⟩
    · simp [hv]
    · obtain ⟨c, s, hc, e⟩ := hune
      rw [List.nil_append]
      split
      · next heq => rw [e] at heq; cases heq; exact absurd hc (by decide)
      · next heq => rw [e] at heq; cases heq; exact absurd hc (by decide)
      · simp [hv]
    · simp [hv]

end VgmX
