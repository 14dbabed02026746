import Verif.Lemmas.ArgsLoop
import Verif.Props.Main
/-
C68: what the command line means.
-/

namespace VgmX
open Spec

/-- C68. The command line is accepted, with these settings, exactly if it means them: options
with their values, and one file. -/
theorem c68_means (u : Uni) (argv : List Str) (ns : Args) :
    parseArgs u argv = .ok ns ↔ Means u argv ns := parseArgs_iff

/-- A command line means at most one thing. -/
theorem c68_unique (u : Uni) (argv : List Str) (a b : Args) (ha : Means u argv a)
    (hb : Means u argv b) : a = b := by
  rw [← c68_means] at ha hb
  rw [ha] at hb
  cases hb
  rfl

/-- A command line that means something runs `main` with what it means. -/
theorem c68_runs (u : Uni) (env : Env) (argv : List Str) (ns : Args) (h : Means u argv ns)
    (w : World) : ∃ f, ns.file = some f ∧
    script u env argv w =
      (.main (main { env with argsFile := some f } (some f) ns.instr ns.track ns.ticks w).1,
        (main { env with argsFile := some f } (some f) ns.instr ns.track ns.ticks w).2) := by
  obtain ⟨_, _, f, _, _, _, _, hns, _⟩ := id h
  have hf : ns.file = some f := by rw [hns]
  refine ⟨f, hf, ?_⟩
  rw [← c68_means] at h
  unfold script
  rw [h]
  simp only [hf]

/-- A command line that means nothing has no effect: the program exits before `main`. -/
theorem c68_no_effect (u : Uni) (env : Env) (argv : List Str) (h : ∀ ns, ¬ Means u argv ns)
    (w : World) : ∃ e, script u env argv w = (.exit e, w) := by
  unfold script
  cases hp : parseArgs u argv with
  | error e => exact ⟨e, rfl⟩
  | ok ns => exact absurd ((c68_means u argv ns).mp hp) (h ns)

/-- Only the files that the command line gives with `-i` or `-t` change. -/
theorem c68_writes (u : Uni) (env : Env) (argv : List Str) (w : World) (n : Str)
    (hn : (script u env argv w).2.fs n ≠ w.fs n) :
    n ≠ [] ∧ ∃ ns, Means u argv ns ∧ ((ns.instr = some n ∧ n ≠ ['-']) ∨ ns.track = some n) := by
  by_cases h : ∃ ns, Means u argv ns
  · obtain ⟨ns, h⟩ := h
    obtain ⟨f, _, hs⟩ := c68_runs u env argv ns h w
    rw [hs] at hn
    by_cases h' : (ns.instr = some n ∧ n ≠ [] ∧ n ≠ ['-']) ∨ (ns.track = some n ∧ n ≠ [])
    · rcases h' with ⟨h1, h2, h3⟩ | ⟨h1, h2⟩
      · exact ⟨h2, ns, h, .inl ⟨h1, h3⟩⟩
      · exact ⟨h2, ns, h, .inr h1⟩
    · exact absurd (c58_frame _ _ _ _ _ _ _ h') hn
  · obtain ⟨e, he⟩ := c68_no_effect u env argv (fun ns hns => h ⟨ns, hns⟩) w
    rw [he] at hn
    exact absurd rfl hn

/-- The file may stand anywhere between the options. -/
theorem c68_any_place (u : Uni) (before after : List Str) (f : Str) (s1 s2 : Args)
    (h1 : Options u before ⟨none, none, none, none⟩ s1) (h2 : Options u after s1 s2)
    (hf : OperandLike u f) :
    Means u (before ++ f :: after) { s2 with file := some f } ∧
    Means u (f :: (before ++ after)) { s2 with file := some f } ∧
    Means u (before ++ after ++ [f]) { s2 with file := some f } := by
  have happ : ∀ {l l' : List Str} {s s1 s2 : Args}, Options u l s s1 → Options u l' s1 s2 →
      Options u (l ++ l') s s2 := by
    intro l l' s s1 s2 h h'
    induction h with
    | nil => exact h'
    | separate a b c _ ih => exact .separate a b c (ih h')
    | joined a b _ ih => exact .joined a b (ih h')
  refine ⟨⟨before, after, f, s1, s2, h1, h2, rfl, .inl ⟨rfl, hf⟩⟩,
    ⟨[], before ++ after, f, _, s2, .nil _, happ h1 h2, rfl, .inl ⟨rfl, hf⟩⟩,
    ⟨before ++ after, [], f, s2, s2, happ h1 h2, .nil _, rfl, .inl ⟨rfl, hf⟩⟩⟩

/-- The option for ticks must be followed by its value in another argument, or by `=`: a value
that is joined to it without `=` is not refused, but makes a track file with a name that begins
with `n`. -/
theorem c68_trap (u : Uni) (v f : Str) (hv : v ≠ []) (he : v.head? ≠ some '=')
    (hf : OperandLike u f) :
    Means u ['-' :: 't' :: 'n' :: v, f] ⟨some f, none, some ('n' :: v), none⟩ := by
  refine ⟨['-' :: 't' :: 'n' :: v], [], f, ⟨none, none, some ('n' :: v), none⟩, _, ?_, .nil _, rfl,
    .inl ⟨rfl, hf⟩⟩
  refine .joined (o := .track) (v := 'n' :: v) (.inr ⟨.inr rfl, rfl, by simp, by simp, ?_, ?_⟩) rfl (.nil _)
  · simpa using hv
  · rintro ⟨t, ht⟩
    apply he
    simp at ht
    simp [← ht]

/-- A value that begins with `-` cannot be given in an argument of its own, unless it is `-`
itself, a negative number or contains a space (and even then not if it begins like an option).
Stated for a file name. -/
theorem c68_dash_name (u : Uni) (f : Str) (h : f.head? = some '-') (h1 : f ≠ ['-'])
    (h2 : ¬ NegativeNumber u f) (h3 : ' ' ∉ f) (h4 : ¬ ∃ o v, Joined f o v) (ns : Args) :
    ¬ Means u [f] ns ∧ Means u [['-', '-'], f] ⟨some f, none, none, none⟩ := by
  refine ⟨?_, ⟨[], [], f, _, _, .nil _, .nil _, rfl, .inr (.inr ⟨rfl, rfl⟩)⟩⟩
  have hop : ¬ OperandLike u f := by
    rintro (h' | h' | ⟨h' | h', _⟩)
    · exact h' h
    · exact h1 h'
    · exact h2 h'
    · exact h3 h'
  rw [← c68_means, parseArgs_iff, ← reads_iff_means]
  intro hr
  cases hr with
  | joined hj => exact h4 ⟨_, _, hj⟩
  | operand _ h => exact hop h

/-! ### Concrete command lines -/

/-- No digits but ASCII ones. -/
def ascii : Uni := ⟨fun _ => false, fun _ => none⟩

example : parseArgs ascii ["a.vgm".toList, "-i".toList, "o.json".toList, "--tr=s.xrns".toList,
    "-tn".toList, " 1_2 ".toList] =
    .ok ⟨some "a.vgm".toList, some "o.json".toList, some "s.xrns".toList, some 12⟩ := by decide
example : parseArgs ascii ["-i".toList, "o.json".toList] = .error .usage := by decide
example : parseArgs ascii ["a".toList, "b".toList] = .error .usage := by decide
example : parseArgs ascii ["a".toList, "--t".toList, "b".toList] = .error .usage := by decide
example : parseArgs ascii ["a".toList, "-tn".toList, "x".toList] = .error .usage := by decide
example : parseArgs ascii ["a".toList, "-tn".toList, "-3".toList] = .ok ⟨some ['a'], none, none, some (-3)⟩ := by decide
example : parseArgs ascii ["a".toList, "-i".toList, "-t".toList] = .error .usage := by decide
example : parseArgs ascii ["a".toList, "-h".toList] = .error .help := by decide

/-- The hypotheses of `c68_any_place` and `c68_trap` are met. -/
example : Options ascii ["-i".toList, "o".toList] ⟨none, none, none, none⟩ ⟨none, some ['o'], none, none⟩ :=
  .separate (o := .instr) (.inl rfl) (.inl (by decide)) rfl (.nil _)
example : OperandLike ascii "a.vgm".toList := .inl (by decide)
/-- `-tn24 a.vgm` writes a song to `n24`. -/
example : Means ascii ["-tn24".toList, "a.vgm".toList] ⟨some "a.vgm".toList, none, some "n24".toList, none⟩ :=
  c68_trap ascii "24".toList "a.vgm".toList (by decide) (by decide) (.inl (by decide))
/-- The hypotheses of `c68_no_effect`. -/
example : ∀ ns, ¬ Means ascii ["-i".toList, "o.json".toList] ns := by
  intro ns h
  rw [← c68_means] at h
  have : parseArgs ascii ["-i".toList, "o.json".toList] = .error .usage := by decide
  rw [this] at h
  cases h
/-- The hypotheses of `c68_dash_name`. -/
example : ¬ ∃ o v, Joined "-x.vgm".toList o v := by
  rintro ⟨o, v, h⟩
  obtain ⟨n, s, h⟩ := joined_parse (u := ascii) h
  have : parseOptional ascii "-x.vgm".toList = .ok (some ⟨none, "-x.vgm".toList, none, none⟩) := by decide
  rw [this] at h
  cases h
example : ¬ NegativeNumber ascii "-x.vgm".toList := by
  rw [← negativeNumber_iff]; decide

end VgmX
