import Verif.Spec.Encoder
import Verif.Props.Json
import Batteries.Data.List.Perm
/-
C104: `ConfigEncoder` on the caller's own values.
-/

namespace VgmX
open Spec

/-! ### One step -/

theorem encodeAll_ok {f : PyVal → Except PyErr Tree} {things : Things}
    (hf : ∀ v t, f v = .ok t → StandsFor things v t) :
    ∀ (l : List PyVal) (ts : List Tree), encodeAll f l = .ok ts → ListStandsFor things l ts
  | [], ts, h => by cases h; exact .nil
  | v :: l, ts, h => by
    unfold encodeAll at h
    cases h1 : f v with
    | error e => rw [h1] at h; cases h
    | ok t =>
      rw [h1] at h
      dsimp only at h
      cases h2 : encodeAll f l with
      | error e => rw [h2] at h; cases h
      | ok ts' =>
        rw [h2] at h
        cases h
        exact .cons (hf v t h1) (encodeAll_ok hf l ts' h2)

theorem encodeItems_ok {f : PyVal → Except PyErr Tree} {things : Things}
    (hf : ∀ v t, f v = .ok t → StandsFor things v t) :
    ∀ (l : List (Str × PyVal)) (ts : List (Str × Tree)), encodeItems f l = .ok ts →
      ItemsStandFor things l ts
  | [], ts, h => by cases h; exact .nil
  | (k, v) :: l, ts, h => by
    unfold encodeItems at h
    cases h1 : f v with
    | error e => rw [h1] at h; cases h
    | ok t =>
      rw [h1] at h
      dsimp only at h
      cases h2 : encodeItems f l with
      | error e => rw [h2] at h; cases h
      | ok ts' =>
        rw [h2] at h
        cases h
        exact .cons (hf v t h1) (encodeItems_ok hf l ts' h2)

theorem encode_sound (things : Things) : ∀ (depth : Nat) (markers : List Nat) (v : PyVal) (t : Tree),
    encode things depth markers v = .ok t → StandsFor things v t
  | 0, _, _, _, h => by cases h
  | d + 1, markers, v, t, h => by
    cases v with
    | none => cases h; exact .none
    | bool b => cases h; exact .bool b
    | int n => cases h; exact .int n
    | str s => cases h; exact .str s
    | ref r =>
      unfold encode at h
      cases hr : things r with
      | list l =>
        rw [hr] at h
        dsimp only at h
        split at h
        · rename_i hl
          cases h
          have : l = [] := by simpa using hl
          subst this
          exact .list hr .nil
        · split at h
          · cases h
          · cases h2 : encodeAll (encode things d (r :: markers)) l with
            | error e => rw [h2] at h; cases h
            | ok ts =>
              rw [h2] at h
              cases h
              exact .list hr (encodeAll_ok (fun v t => encode_sound things d _ v t) l ts h2)
      | dict l =>
        rw [hr] at h
        dsimp only at h
        split at h
        · rename_i hl
          cases h
          have : l = [] := by simpa using hl
          subst this
          exact .dict hr .nil
        · split at h
          · cases h
          · cases h2 : encodeItems (encode things d (r :: markers)) l with
            | error e => rw [h2] at h; cases h
            | ok ts =>
              rw [h2] at h
              cases h
              exact .dict hr (encodeItems_ok (fun v t => encode_sound things d _ v t) l ts h2)
      | object repr =>
        rw [hr] at h
        dsimp only at h
        split at h
        · cases h
        · cases repr with
          | error e => cases h
          | ok v => exact .object hr (encode_sound things d _ v t h)
      | plain =>
        rw [hr] at h
        dsimp only at h
        split at h <;> cases h

/-! ### How deep a value is -/

/-- `v` is no deeper than `n`, and nothing in it prevents encoding. -/
def Fits (things : Things) : Nat → PyVal → Prop
  | 0, _ => False
  | n + 1, .ref r =>
    match things r with
    | .list l => ∀ v ∈ l, Fits things n v
    | .dict l => ∀ x ∈ l, Fits things n x.2
    | .object (.ok v) => Fits things n v
    | .object (.error _) => False
    | .plain => False
  | _ + 1, _ => True

theorem fits_ref (things : Things) (n r : Nat) : Fits things (n + 1) (.ref r) ↔
    match things r with
    | .list l => ∀ v ∈ l, Fits things n v
    | .dict l => ∀ x ∈ l, Fits things n x.2
    | .object (.ok v) => Fits things n v
    | .object (.error _) => False
    | .plain => False := Iff.rfl

theorem fits_succ (things : Things) : ∀ (n : Nat) (v : PyVal), Fits things n v →
    Fits things (n + 1) v
  | 0, _, h => h.elim
  | n + 1, .none, _ => trivial
  | n + 1, .bool _, _ => trivial
  | n + 1, .int _, _ => trivial
  | n + 1, .str _, _ => trivial
  | n + 1, .ref r, h => by
    rw [fits_ref] at h ⊢
    cases hr : things r with
    | list l => rw [hr] at h; exact fun v hv => fits_succ things n v (h v hv)
    | dict l => rw [hr] at h; exact fun v hv => fits_succ things n v.2 (h v hv)
    | object repr =>
      rw [hr] at h
      cases repr with
      | error e => exact h
      | ok v => exact fits_succ things n v h
    | plain => rw [hr] at h; exact h

theorem fits_mono {things : Things} {n m : Nat} {v : PyVal} (h : Fits things n v) (hm : n ≤ m) :
    Fits things m v := by
  induction hm with
  | refl => exact h
  | step _ ih => exact fits_succ things _ _ ih

mutual
theorem stands_fits {things : Things} : ∀ {v : PyVal} {t : Tree}, StandsFor things v t →
    ∃ n, Fits things n v
  | _, _, .none => ⟨1, trivial⟩
  | _, _, .bool _ => ⟨1, trivial⟩
  | _, _, .int _ => ⟨1, trivial⟩
  | _, _, .str _ => ⟨1, trivial⟩
  | _, _, .list hr h => by
    obtain ⟨n, hn⟩ := list_fits h
    exact ⟨n + 1, by rw [fits_ref, hr]; exact hn⟩
  | _, _, .dict hr h => by
    obtain ⟨n, hn⟩ := items_fits h
    exact ⟨n + 1, by rw [fits_ref, hr]; exact hn⟩
  | _, _, .object hr h => by
    obtain ⟨n, hn⟩ := stands_fits h
    exact ⟨n + 1, by rw [fits_ref, hr]; exact hn⟩
theorem list_fits {things : Things} : ∀ {l : List PyVal} {ts : List Tree},
    ListStandsFor things l ts → ∃ n, ∀ v ∈ l, Fits things n v
  | _, _, .nil => ⟨0, by simp⟩
  | _, _, .cons h hs => by
    obtain ⟨n, hn⟩ := stands_fits h
    obtain ⟨m, hm⟩ := list_fits hs
    refine ⟨max n m, fun v hv => ?_⟩
    rcases List.mem_cons.mp hv with rfl | hv
    · exact fits_mono hn (Nat.le_max_left _ _)
    · exact fits_mono (hm v hv) (Nat.le_max_right _ _)
theorem items_fits {things : Things} : ∀ {l : List (Str × PyVal)} {ts : List (Str × Tree)},
    ItemsStandFor things l ts → ∃ n, ∀ x ∈ l, Fits things n x.2
  | _, _, .nil => ⟨0, by simp⟩
  | _, _, .cons h hs => by
    obtain ⟨n, hn⟩ := stands_fits h
    obtain ⟨m, hm⟩ := items_fits hs
    refine ⟨max n m, fun v hv => ?_⟩
    rcases List.mem_cons.mp hv with rfl | hv
    · exact fits_mono hn (Nat.le_max_left _ _)
    · exact fits_mono (hm v hv) (Nat.le_max_right _ _)
end

theorem encodeAll_complete {f : PyVal → Except PyErr Tree} {things : Things} :
    ∀ (l : List PyVal) (ts : List Tree), ListStandsFor things l ts →
      (∀ v ∈ l, ∀ t, StandsFor things v t → f v = .ok t) → encodeAll f l = .ok ts
  | _, _, .nil, _ => rfl
  | _, _, .cons (v := v) h hs, hf => by
    unfold encodeAll
    rw [hf v List.mem_cons_self _ h]
    dsimp only
    rw [encodeAll_complete _ _ hs (fun v hv => hf v (List.mem_cons_of_mem _ hv))]

theorem encodeItems_complete {f : PyVal → Except PyErr Tree} {things : Things} :
    ∀ (l : List (Str × PyVal)) (ts : List (Str × Tree)), ItemsStandFor things l ts →
      (∀ x ∈ l, ∀ t, StandsFor things x.2 t → f x.2 = .ok t) → encodeItems f l = .ok ts
  | _, _, .nil, _ => rfl
  | _, _, .cons (k := k) (v := v) h hs, hf => by
    unfold encodeItems
    rw [hf (k, v) List.mem_cons_self _ h]
    dsimp only
    rw [encodeItems_complete _ _ hs (fun v hv => hf v (List.mem_cons_of_mem _ hv))]

theorem encode_complete (things : Things) : ∀ (n : Nat) (markers : List Nat) (v : PyVal) (t : Tree),
    Fits things n v → StandsFor things v t → (∀ m ∈ markers, ¬ Fits things n (.ref m)) →
    ∀ depth, n ≤ depth → encode things depth markers v = .ok t
  | 0, _, _, _, h, _, _, _, _ => h.elim
  | n + 1, markers, v, t, hfit, hs, hm, depth, hd => by
    by_cases hlow : Fits things n v
    · exact encode_complete things n markers v t hlow hs
        (fun m h hf => hm m h (fits_succ _ _ _ hf)) depth (by omega)
    · obtain ⟨d, rfl⟩ : ∃ d, depth = d + 1 := ⟨depth - 1, by omega⟩
      cases hs with
      | none => rfl
      | bool => rfl
      | int => rfl
      | str => rfl
      | @list r l ts hr h =>
        have hrm : r ∉ markers := fun h => hm r h hfit
        have hm' : ∀ m ∈ r :: markers, ¬ Fits things n (.ref m) := by
          intro m h
          rcases List.mem_cons.mp h with rfl | h
          · exact hlow
          · exact fun hf => hm m h (fits_succ _ _ _ hf)
        rw [fits_ref, hr] at hfit
        have := encodeAll_complete (f := encode things d (r :: markers)) l ts h (fun v hv t ht =>
          encode_complete things n _ v t (hfit v hv) ht hm' d (by omega))
        unfold encode
        rw [hr]
        dsimp only
        by_cases hl : l.isEmpty = true
        · have hl' : l = [] := by simpa using hl
          subst hl'
          cases h
          rfl
        · rw [if_neg hl, if_neg hrm, this]
      | @dict r l ts hr h =>
        have hrm : r ∉ markers := fun h => hm r h hfit
        have hm' : ∀ m ∈ r :: markers, ¬ Fits things n (.ref m) := by
          intro m h
          rcases List.mem_cons.mp h with rfl | h
          · exact hlow
          · exact fun hf => hm m h (fits_succ _ _ _ hf)
        rw [fits_ref, hr] at hfit
        have := encodeItems_complete (f := encode things d (r :: markers)) l ts h (fun v hv t ht =>
          encode_complete things n _ v.2 t (hfit v hv) ht hm' d (by omega))
        unfold encode
        rw [hr]
        dsimp only
        by_cases hl : l.isEmpty = true
        · have hl' : l = [] := by simpa using hl
          subst hl'
          cases h
          rfl
        · rw [if_neg hl, if_neg hrm, this]
      | @object r v t hr h =>
        have hrm : r ∉ markers := fun h => hm r h hfit
        have hm' : ∀ m ∈ r :: markers, ¬ Fits things n (.ref m) := by
          intro m h
          rcases List.mem_cons.mp h with rfl | h
          · exact hlow
          · exact fun hf => hm m h (fits_succ _ _ _ hf)
        rw [fits_ref, hr] at hfit
        unfold encode
        rw [hr]
        dsimp only
        rw [if_neg hrm]
        exact encode_complete things n _ v t hfit h hm' d (by omega)

/-! ### What can be reached -/

theorem fits_refers {things : Things} {n r r' : Nat} (h : Fits things (n + 1) (.ref r))
    (hr : Refers things r r') : Fits things n (.ref r') := by
  rw [fits_ref] at h
  unfold Refers at hr
  cases ht : things r with
  | list l => rw [ht] at h hr; exact h _ hr
  | dict l =>
    rw [ht] at h hr
    obtain ⟨x, hx, he⟩ := List.mem_map.mp hr
    have := h x hx
    rwa [he] at this
  | object repr =>
    rw [ht] at h hr
    cases repr with
    | error e => exact hr.elim
    | ok v => cases hr; exact h
  | plain => rw [ht] at h; exact h.elim

theorem fits_reaches {things : Things} {n r r' : Nat} (h : Fits things n (.ref r))
    (hr : Reaches things r r') : Fits things n (.ref r') := by
  induction hr with
  | here => exact h
  | step h1 _ ih =>
    cases n with
    | zero => exact h.elim
    | succ n => exact ih (fits_succ _ _ _ (fits_refers h h1))

theorem not_circular {things : Things} {r : Nat} (hc : Circular things r) : ∀ n,
    ¬ Fits things n (.ref r)
  | 0, h => h
  | n + 1, h => by
    obtain ⟨r', h1, h2⟩ := hc
    exact not_circular ⟨r', h1, h2⟩ n (fits_reaches (fits_refers h h1) h2)

theorem reaches_trans {things : Things} {a b c : Nat} (h : Reaches things a b)
    (h' : Reaches things b c) : Reaches things a c := by
  induction h with
  | here => exact h'
  | step h1 _ ih => exact .step h1 (ih h')

theorem within_child {things : Things} {r : Nat} {v : PyVal} {x : Nat}
    (hr : ∀ r', v = .ref r' → Refers things r r') (h : Within things v x) :
    Within things (.ref r) x := by
  obtain ⟨r0, rfl, h⟩ := h
  exact ⟨r, rfl, .step (hr r0 rfl) h⟩

theorem encodeAll_error {f : PyVal → Except PyErr Tree} {e : PyErr} : ∀ (l : List PyVal),
    encodeAll f l = .error e → ∃ v ∈ l, f v = .error e
  | [], h => by cases h
  | v :: l, h => by
    unfold encodeAll at h
    cases h1 : f v with
    | error e' => rw [h1] at h; cases h; exact ⟨v, List.mem_cons_self, h1⟩
    | ok t =>
      rw [h1] at h
      dsimp only at h
      cases h2 : encodeAll f l with
      | error e' =>
        rw [h2] at h
        cases h
        obtain ⟨v', hv, h'⟩ := encodeAll_error l h2
        exact ⟨v', List.mem_cons_of_mem _ hv, h'⟩
      | ok ts => rw [h2] at h; cases h

theorem encodeItems_error {f : PyVal → Except PyErr Tree} {e : PyErr} :
    ∀ (l : List (Str × PyVal)), encodeItems f l = .error e → ∃ x ∈ l, f x.2 = .error e
  | [], h => by cases h
  | (k, v) :: l, h => by
    unfold encodeItems at h
    cases h1 : f v with
    | error e' => rw [h1] at h; cases h; exact ⟨_, List.mem_cons_self, h1⟩
    | ok t =>
      rw [h1] at h
      dsimp only at h
      cases h2 : encodeItems f l with
      | error e' =>
        rw [h2] at h
        cases h
        obtain ⟨v', hv, h'⟩ := encodeItems_error l h2
        exact ⟨v', List.mem_cons_of_mem _ hv, h'⟩
      | ok ts => rw [h2] at h; cases h

/-- Everything in `markers` contains `v`. -/
def Contain (things : Things) (markers : List Nat) (v : PyVal) : Prop :=
  ∀ m ∈ markers, ∀ r, v = .ref r → ∃ r', Refers things m r' ∧ Reaches things r' r

theorem contain_child {things : Things} {markers : List Nat} {r : Nat} {v : PyVal}
    (h : Contain things markers (.ref r)) (hr : ∀ r', v = .ref r' → Refers things r r') :
    Contain things (r :: markers) v := by
  intro m hm r' hv
  rcases List.mem_cons.mp hm with rfl | hm
  · exact ⟨r', hr r' hv, .here _⟩
  · obtain ⟨r1, h1, h2⟩ := h m hm r rfl
    exact ⟨r1, h1, reaches_trans h2 (.step (hr r' hv) (.here _))⟩

theorem encode_errors (things : Things) (v0 : PyVal) : ∀ (depth : Nat) (markers : List Nat)
    (v : PyVal) (e : PyErr), encode things depth markers v = .error e →
    Contain things markers v → markers.Nodup → (∀ m ∈ markers, Within things v0 m) →
    (∀ r, v = .ref r → Within things v0 r) →
    (∃ r, Within things v0 r ∧ Stops things r e) ∨
    (e = .recursion ∧ ∃ chain : List Nat, chain.length = depth + markers.length ∧ chain.Nodup ∧
      ∀ r ∈ chain, Within things v0 r)
  | 0, markers, v, e, h, _, hn, hw, _ => by
    cases h
    exact .inr ⟨rfl, markers, by simp, hn, hw⟩
  | d + 1, markers, v, e, h, hc, hn, hw, hv => by
    cases v with
    | none => cases h
    | bool b => cases h
    | int n => cases h
    | str s => cases h
    | ref r =>
      have hwr := hv r rfl
      have circ : r ∈ markers → ∃ r, Within things v0 r ∧ Stops things r .value := fun hm =>
        ⟨r, hwr, .inr (.inl ⟨hc r hm r rfl, rfl⟩)⟩
      have deeper : ∀ v', r ∉ markers → (∀ r', v' = .ref r' → Refers things r r') →
          encode things d (r :: markers) v' = .error e →
          (∃ r, Within things v0 r ∧ Stops things r e) ∨
          (e = .recursion ∧ ∃ chain : List Nat, chain.length = d + 1 + markers.length ∧
            chain.Nodup ∧ ∀ r ∈ chain, Within things v0 r) := by
        intro v' hrm hr' h'
        have := encode_errors things v0 d (r :: markers) v' e h' (contain_child hc hr')
          (List.nodup_cons.mpr ⟨hrm, hn⟩)
          (fun m hm => by
            rcases List.mem_cons.mp hm with rfl | hm
            · exact hwr
            · exact hw m hm)
          (fun r' he => by
            obtain ⟨r0, h0, h1⟩ := hwr
            exact ⟨r0, h0, reaches_trans h1 (.step (hr' r' he) (.here _))⟩)
        rcases this with h | ⟨h1, chain, h2, h3⟩
        · exact .inl h
        · exact .inr ⟨h1, chain, by rw [h2, List.length_cons]; omega, h3⟩
      unfold encode at h
      cases ht : things r with
      | list l =>
        rw [ht] at h
        dsimp only at h
        split at h
        · cases h
        · split at h
          · rename_i hm; cases h; exact .inl (circ hm)
          · rename_i hrm
            cases h2 : encodeAll (encode things d (r :: markers)) l with
            | ok ts => rw [h2] at h; cases h
            | error e' =>
              rw [h2] at h
              cases h
              obtain ⟨v', hv', h'⟩ := encodeAll_error l h2
              exact deeper v' hrm (fun r' he => by unfold Refers; rw [ht]; exact he ▸ hv') h'
      | dict l =>
        rw [ht] at h
        dsimp only at h
        split at h
        · cases h
        · split at h
          · rename_i hm; cases h; exact .inl (circ hm)
          · rename_i hrm
            cases h2 : encodeItems (encode things d (r :: markers)) l with
            | ok ts => rw [h2] at h; cases h
            | error e' =>
              rw [h2] at h
              cases h
              obtain ⟨x, hx, h'⟩ := encodeItems_error l h2
              exact deeper x.2 hrm (fun r' he => by
                unfold Refers; rw [ht]; exact List.mem_map.mpr ⟨x, hx, he⟩) h'
      | object repr =>
        rw [ht] at h
        dsimp only at h
        split at h
        · rename_i hm; cases h; exact .inl (circ hm)
        · rename_i hrm
          cases repr with
          | error e' => cases h; exact .inl ⟨r, hwr, .inr (.inr ht)⟩
          | ok v' => exact deeper v' hrm (fun r' he => by unfold Refers; rw [ht]; exact he) h
      | plain =>
        rw [ht] at h
        dsimp only at h
        split at h
        · rename_i hm; cases h; exact .inl (circ hm)
        · cases h; exact .inl ⟨r, hwr, .inl ⟨ht, rfl⟩⟩

/-! ### The property -/

/-- C104. If `json.dumps(v, cls=ConfigEncoder)` returns, its text is that of the value with every
object replaced by what its `repr_json` returns. -/
theorem c104_says (things : Things) (limit : Nat) (v : PyVal) (t : Tree)
    (h : dumps things limit v = .ok t) : StandsFor things v t :=
  encode_sound things limit [] v t h

/-- C104. And it does return if there is such a tree, unless the recursion limit is too low; in
particular it does not matter how often an object occurs (this is no circular reference). -/
theorem c104_returns (things : Things) (v : PyVal) (t : Tree) (h : StandsFor things v t) :
    ∃ n, ∀ limit, n ≤ limit → dumps things limit v = .ok t := by
  obtain ⟨n, hn⟩ := stands_fits h
  exact ⟨n, encode_complete things n [] v t hn h (by simp)⟩

/-- C104. There is at most one such tree: what is shared, and what the objects are, does not
matter. -/
theorem c104_unique (things : Things) (v : PyVal) (t t' : Tree) (h : StandsFor things v t)
    (h' : StandsFor things v t') : t = t' := by
  obtain ⟨n, hn⟩ := c104_returns things v t h
  obtain ⟨m, hm⟩ := c104_returns things v t' h'
  have := (hn (max n m) (Nat.le_max_left _ _)).symm.trans (hm (max n m) (Nat.le_max_right _ _))
  exact Except.ok.inj this

/-- C104. If it raises, then because of something within `v`: an object without `repr_json`
(`TypeError`), something that contains itself (`ValueError`), a `repr_json` that raised this, or
because as many different things are nested as the recursion limit allows (`RecursionError`). -/
theorem c104_errors (things : Things) (limit : Nat) (v : PyVal) (e : PyErr)
    (h : dumps things limit v = .error e) :
    (∃ r, Within things v r ∧ Stops things r e) ∨
    (e = .recursion ∧ ∃ chain : List Nat, chain.length = limit ∧ chain.Nodup ∧
      ∀ r ∈ chain, Within things v r) := by
  have := encode_errors things v limit [] v e h (by intro m hm; cases hm) List.nodup_nil
    (by simp) (fun r hr => ⟨r, hr, .here _⟩)
  simpa using this

/-- C104. If there is such a thing anywhere within `v`, then it raises: a text is never returned
for a part of the value only. -/
theorem c104_raises (things : Things) (v : PyVal) (r : Nat) (e : PyErr)
    (hw : Within things v r) (hs : Stops things r e) (limit : Nat) :
    ∃ e', dumps things limit v = .error e' := by
  cases hd : dumps things limit v with
  | error e' => exact ⟨e', rfl⟩
  | ok t =>
    exfalso
    obtain ⟨n, hn⟩ := stands_fits (c104_says things limit v t hd)
    obtain ⟨r0, rfl, hr⟩ := hw
    have hf := fits_reaches hn hr
    cases n with
    | zero => exact hf
    | succ n =>
      rcases hs with ⟨hs, _⟩ | ⟨hs, _⟩ | hs
      · rw [fits_ref, hs] at hf; exact hf
      · exact not_circular hs _ hf
      · rw [fits_ref, hs] at hf; exact hf

/-- C104. If no more than `n` things are within `v`, and the recursion limit is above this, then
it returns exactly if nothing within `v` stops it. -/
theorem c104_finite (things : Things) (v : PyVal) (all : List Nat) (limit : Nat)
    (hall : ∀ r, Within things v r → r ∈ all) (hl : all.length < limit) :
    (∃ t, dumps things limit v = .ok t) ↔ ∀ r e, Within things v r → ¬ Stops things r e := by
  constructor
  · rintro ⟨t, h⟩ r e hw hs
    obtain ⟨e', h'⟩ := c104_raises things v r e hw hs limit
    rw [h] at h'
    cases h'
  · intro hno
    cases hd : dumps things limit v with
    | ok t => exact ⟨t, rfl⟩
    | error e =>
      exfalso
      rcases c104_errors things limit v e hd with ⟨r, hw, hs⟩ | ⟨_, chain, h1, h2, h3⟩
      · exact hno r e hw hs
      · have := (List.subperm_of_subset h2 (fun r hr => hall r (h3 r hr))).length_le
        omega

/-! ### The objects of the package -/

theorem stands_repr {things : Things} {v : PyVal} {items : List (Str × PyVal)}
    {ts : List (Str × Tree)} (h : HasRepr things v items) (hi : ItemsStandFor things items ts) :
    StandsFor things v (.obj ts) := by
  obtain ⟨r, d, rfl, h1, h2⟩ := h
  exact .object h1 (.dict h2 hi)

theorem stands_operator {things : Things} {v : PyVal} {o : OperatorConfig}
    (h : HoldsOperator things v o) : StandsFor things v (jsonTree o.json) :=
  stands_repr h (.cons (.int _) (.cons (.int _) (.cons (.int _) (.cons (.int _) (.cons (.int _)
    (.cons (.int _) (.cons (.int _) (.cons (.int _) (.cons (.int _) (.cons (.int _)
    (.cons (.bool _) .nil)))))))))))

theorem stands_base {things : Things} {v : PyVal} {b : BaseConfig}
    (h : HoldsBase things v b) : StandsFor things v (jsonTree b.json) := by
  obtain ⟨w, ⟨r, rfl, hw⟩, h⟩ := h
  refine stands_repr h (.cons ?_ (.cons (.int _) (.cons (.int _) (.cons (.int _) .nil))))
  refine .object hw ?_
  cases b.waveform <;> exact .str _

theorem stands_operators {things : Things} {v : PyVal} {o : Nat}
    (h : HoldsOperators things v o) : StandsFor things v (jsonTree (operatorsJson o)) := by
  obtain ⟨r, rfl, hw⟩ := h
  exact .object hw (.str _)

theorem stands_channel {things : Things} {v : PyVal} {c : ChannelConfig}
    (h : HoldsChannel things v c) : ∃ j, c.json = .ok j ∧ StandsFor things v (jsonTree j) := by
  obtain ⟨o0, o1, o2, o3, v0, v1, v2, v3, h0, h1, h2, h3, g0, g1, g2, g3, h⟩ := h
  refine ⟨_, by simp only [ChannelConfig.json, ChannelConfig.operator, h0, h1, h2, h3]; rfl, ?_⟩
  exact stands_repr h (.cons (.int _) (.cons (.int _) (.cons (.int _) (.cons (.int _)
    (.cons (.bool _) (.cons (.int _) (.cons (stands_operator g0) (.cons (stands_operator g2)
    (.cons (stands_operator g1) (.cons (stands_operator g3) .nil))))))))))

theorem stands_config {things : Things} {v : PyVal} {c : Config}
    (h : HoldsConfig things v c) : ∃ j, c.json = .ok j ∧ StandsFor things v (jsonTree j) := by
  obtain ⟨b, o, ch, hb, ho, hc, h⟩ := h
  obtain ⟨j, hj, hs⟩ := stands_channel hc
  refine ⟨_, by simp only [Config.json, hj]; rfl, ?_⟩
  exact stands_repr h (.cons (.int _) (.cons (stands_base hb) (.cons (stands_operators ho)
    (.cons hs .nil))))

theorem stands_configs {things : Things} : ∀ (l : List PyVal) (cs : List Config),
    l.length = cs.length →
    (∀ (i : Nat) x c, l[i]? = some x → cs[i]? = some c → HoldsConfig things x c) →
    ∃ js, configsJson cs = .ok js ∧ ListStandsFor things l (jsonTrees (.ofList js))
  | [], [], _, _ => ⟨[], rfl, .nil⟩
  | x :: l, c :: cs, hl, h => by
    obtain ⟨j, hj, hs⟩ := stands_config (h 0 x c rfl rfl)
    obtain ⟨js, hjs, hss⟩ := stands_configs l cs (by simpa using hl)
      (fun i x c h1 h2 => h (i + 1) x c (by simpa using h1) (by simpa using h2))
    refine ⟨j :: js, by simp only [configsJson, hj, hjs]; rfl, .cons hs hss⟩
  | [], _ :: _, hl, _ => by cases hl
  | _ :: _, [], hl, _ => by cases hl

/-- C104. On the list of instruments, however its objects are laid out and shared, the encoder
returns the tree that C49 and C50 are about (from a recursion limit on). -/
theorem c104_instruments (things : Things) (v : PyVal) (s : State)
    (h : HoldsConfigs things v s.configs) :
    ∃ js, configsJson s.configs = .ok js ∧ instrumentsJs s = .ok ((Json.arr (.ofList js)).dump 0) ∧
      ∃ n, ∀ limit, n ≤ limit →
        dumps things limit v = .ok (jsonTree (.arr (.ofList js))) := by
  obtain ⟨r, l, rfl, h1, h2, h3⟩ := h
  obtain ⟨js, hj, hs⟩ := stands_configs l s.configs h2 h3
  refine ⟨js, hj, by simp only [instrumentsJs, hj], c104_returns things _ _ ?_⟩
  exact .list h1 hs

/-! ### Examples -/

/-- An object with `repr_json`, twice in a list (tests/test_config.py has the dict). -/
def sharedThings : Things
  | 0 => .list [.ref 1, .ref 1, .none]
  | 1 => .object (.ok (.ref 2))
  | 2 => .dict [("Bar".toList, .int 0)]
  | _ => .plain

example : StandsFor sharedThings (.ref 0)
    (.arr [.obj [("Bar".toList, .int 0)], .obj [("Bar".toList, .int 0)], .null]) := by
  have h1 : StandsFor sharedThings (.ref 1) (.obj [("Bar".toList, .int 0)]) :=
    .object rfl (.dict rfl (.cons (.int 0) .nil))
  exact .list rfl (.cons h1 (.cons h1 (.cons .none .nil)))

/-- An object that contains itself, beside one without `repr_json`. -/
def circularThings : Things
  | 0 => .list [.ref 1, .ref 3]
  | 1 => .object (.ok (.ref 2))
  | 2 => .dict [("self".toList, .ref 1)]
  | _ => .plain

example : Within circularThings (.ref 0) 1 ∧ Stops circularThings 1 .value ∧
    Within circularThings (.ref 0) 3 ∧ Stops circularThings 3 .type := by
  refine ⟨⟨0, rfl, .step ?_ (.here 1)⟩, .inr (.inl ⟨⟨2, ?_, .step ?_ (.here 1)⟩, rfl⟩),
    ⟨0, rfl, .step ?_ (.here 3)⟩, .inl ⟨rfl, rfl⟩⟩
  all_goals simp [Refers, circularThings]

example : ∀ limit, 4 ≤ limit → ∃ e, dumps circularThings limit (.ref 0) = .error e := fun limit _ =>
  c104_raises circularThings (.ref 0) 3 .type
    ⟨0, rfl, .step (by simp [Refers, circularThings]) (.here 3)⟩ (.inl ⟨rfl, rfl⟩) limit

/-- One instrument all of whose operators are the same object. -/
def configThings : Things
  | 0 => .list [.ref 1]
  | 1 => .object (.ok (.ref 2))
  | 2 => .dict [("id".toList, .int 0), ("base".toList, .ref 3), ("operators".toList, .ref 6),
      ("channel".toList, .ref 7)]
  | 3 => .object (.ok (.ref 4))
  | 4 => .dict [("waveform".toList, .ref 5), ("lfo".toList, .int 0), ("amp_md".toList, .int 0),
      ("phs_md".toList, .int 0)]
  | 5 => .object (.ok (.str "SAW".toList))
  | 6 => .object (.ok (.str "MOD1|CAR2".toList))
  | 7 => .object (.ok (.ref 8))
  | 8 => .dict [("feedback".toList, .int 0), ("connection".toList, .int 0), ("ams".toList, .int 0),
      ("pms".toList, .int 0), ("noise".toList, .bool false), ("noise_freq".toList, .int 0),
      ("m1".toList, .ref 9), ("c1".toList, .ref 9), ("m2".toList, .ref 9), ("c2".toList, .ref 9)]
  | 9 => .object (.ok (.ref 10))
  | 10 => .dict [("tl".toList, .int 0), ("ar".toList, .int 0), ("d1r".toList, .int 0),
      ("d1l".toList, .int 0), ("d2r".toList, .int 0), ("rr".toList, .int 0), ("ks".toList, .int 0),
      ("mul".toList, .int 0), ("dt1".toList, .int 0), ("dt2".toList, .int 0), ("ase".toList, .bool false)]
  | _ => .plain

example : HoldsConfigs configThings (.ref 0)
    [⟨0, ⟨.saw, 0, 0, 0⟩, 9, ⟨List.replicate 4 ⟨0, 0, 0, 0, 0, 0, 0, 0, 0, 0, false⟩, 0, 0, 0, 0, false, 0⟩⟩] := by
  refine ⟨0, [.ref 1], rfl, rfl, rfl, ?_⟩
  intro i x c h1 h2
  cases i with
  | succ i => simp at h1
  | zero =>
    cases h1
    cases h2
    have ho : HoldsOperator configThings (.ref 9) ⟨0, 0, 0, 0, 0, 0, 0, 0, 0, 0, false⟩ :=
      ⟨9, 10, rfl, rfl, rfl⟩
    exact ⟨.ref 3, .ref 6, .ref 7, ⟨.ref 5, ⟨5, rfl, rfl⟩, 3, 4, rfl, rfl, rfl⟩, ⟨6, rfl, by decide +kernel⟩,
      ⟨_, _, _, _, .ref 9, .ref 9, .ref 9, .ref 9, rfl, rfl, rfl, rfl, ho, ho, ho, ho, 7, 8, rfl, rfl,
        rfl⟩, 1, 2, rfl, rfl, rfl⟩

end VgmX
