import Verif.Util.IfaceLemmas
/-
Properties C33 (InterfaceSearch) and C34 (FormatIface).
-/
namespace Verif.Util
open Verif.C

/-! ## C34 -/

/-- C34 (missing: names without trailing digits, see `formatIface_clobbers`, and one or two digits in a small buffer, see
`formatIface_overruns`): three digits `v < 999` after a non-digit become `v + 1`. -/
theorem formatIface_increments_partial {b : Buf} {a : List Byte} {c : Byte} {v m : Nat} (h : IsStr b (a ++ [c] ++ digits3 v)) (hc : isdigit c = false)
    (hv : v < 999) (hm : (a ++ [c] ++ digits3 v).length < m) :
    ∃ b', formatIface b m = .ok (b', v + 1) ∧ b'.length = b.length ∧ IsStr b' (a ++ [c] ++ digits3 (v + 1)) := by
  obtain ⟨r, rfl, h0⟩ := h
  have hz : 0 ∉ a ++ [c] := fun hm => h0 (List.mem_append_left _ hm)
  have := formatIface_three (r := r) (m := m) hc hz (v := v) (by omega) (by simp [digits3_length] at hm; omega)
  rw [pad3_eq (by omega), List.take_of_length_le (by simp [digits3_length])] at this
  refine ⟨a ++ c :: digits3 (v + 1) ++ 0 :: r, ?_, ?_, r, ?_, ?_⟩
  · simp only [List.append_assoc, List.cons_append, List.nil_append] at this ⊢
    exact this
  · simp [digits3_length]
  · simp
  · intro hm
    rcases List.mem_append.1 hm with h | h
    · exact hz h
    · exact (digits3_digit 0 h).2 rfl

/-- `V009` becomes `V010`. -/
example : IsStr [86, 48, 48, 57, 0] ([] ++ [86] ++ digits3 9) ∧ isdigit 86 = false ∧ ([] ++ [86] ++ digits3 9).length < 5 ∧
    digits3 10 = [48, 49, 48] := ⟨⟨[], rfl, by decide⟩, by decide, by decide, rfl⟩

/-- C34, negation: a name not ending in a digit does not get `001` appended: its last character is overwritten. -/
theorem formatIface_clobbers {b : Buf} {a : List Byte} {c : Byte} {m : Nat} (h : IsStr b (a ++ [c])) (hc : isdigit c = false)
    (hm : a.length + 4 < m) (hb : m ≤ b.length) :
    ∃ b', formatIface b m = .ok (b', 1) ∧ IsStr b' (a ++ digits3 1) ∧ ¬ IsStr b' (a ++ [c] ++ digits3 1) := by
  have hl := strlen_of h
  obtain ⟨r, rfl, h0⟩ := h
  have hk := lastNonDigit_run (a := a) (c := c) (p := []) (r := 0 :: r) hc (by simp)
  have hza : 0 ∉ a ++ digits3 1 := by
    intro hm
    rcases List.mem_append.1 hm with h | h
    · exact h0 (List.mem_append_left _ h)
    · exact (digits3_digit 0 h).2 rfl
  unfold formatIface
  simp only [bind, Except.bind]
  rw [hl]
  dsimp only
  rw [show (a ++ [c]).length = a.length + 1 by simp]
  simp only [List.length_nil, Nat.add_zero] at hk
  rw [hk]
  dsimp only
  rw [if_neg (by rintro (⟨⟨_, h⟩, _⟩ | ⟨_, h⟩); exact h rfl; omega)]
  simp only [ne_eq, not_true_eq_false, if_false, Nat.add_one_ne_zero, Nat.add_sub_cancel]
  rw [if_pos (by decide)]
  have hw : wrs (a ++ [c] ++ 0 :: r) a.length ((pad3 (0 + 1)).take 3 ++ [0]) = .ok (a ++ digits3 1 ++ 0 :: r.drop 2) := by
    rw [pad3_eq (by omega)]
    unfold wrs
    simp only [List.length_append, List.length_cons, List.length_nil] at hb
    have hr : 2 ≤ r.length := by omega
    rw [if_pos (by simp [digits3_length]; omega)]
    congr 1
    rw [← List.drop_drop, show a ++ [c] ++ 0 :: r = a ++ c :: 0 :: r by simp, List.take_left, List.drop_left,
      List.append_assoc a (digits3 1)]
    exact List.append_assoc a _ _
  rw [hw]
  refine ⟨_, rfl, ⟨_, rfl, hza⟩, ?_⟩
  intro h2
  have := IsStr.inj ⟨_, rfl, hza⟩ h2
  have := congrArg List.length this
  simp [digits3_length] at this

/-- `Foo` becomes `Fo001`. -/
example : IsStr [70, 111, 111, 0, 0, 0, 0, 0] ([70, 111] ++ [111]) ∧ isdigit 111 = false ∧ ([70, 111] : List Byte).length + 4 < 8 :=
  ⟨⟨[0, 0, 0, 0], rfl, by decide⟩, by decide, by decide⟩

/-- C34, negation of "nothing outside the buffer is written": `V1` in a buffer of exactly its size. -/
theorem formatIface_overruns : formatIface [86, 49, 0] 3 = .error .outOfBounds := by
  have hp : (pad3 2).take 3 = [48, 48, 50] := by rw [pad3_eq (by omega)]; rfl
  simp [formatIface, strlen, lastNonDigit, rd, isdigit, atoiLoop, wrs, hp, bind, Except.bind, Except.map]

/-- C34, negation: the empty name writes before the buffer. -/
theorem formatIface_empty_faults {r : List Byte} {m : Nat} (hm : 3 < m) (hr : r.length < 2 ^ 63) : formatIface (0 :: r) m = .error .outOfBounds := by
  have hp : ((pad3 1).take 3).length = 3 := by rw [pad3_eq (by omega)]; rfl
  have hl : strlen (0 :: r) 0 = .ok 0 := by unfold strlen; simp
  unfold formatIface
  simp only [bind, Except.bind]
  rw [hl]
  simp only [lastNonDigit, ne_eq, not_true_eq_false, if_false, if_true, and_false, false_and, not_false_eq_true, true_and, false_or]
  rw [if_neg (by omega), if_pos (by decide)]
  have hw : wrs (0 :: r) (2 ^ 64 - 1) ((pad3 (0 + 1)).take 3 ++ [0]) = .error .outOfBounds := by
    unfold wrs
    rw [if_neg]
    simp only [List.length_append, List.length_cons, List.length_nil]
    omega
  rw [hw]

example : formatIface [0, 1, 2, 3, 4] 5 = .error .outOfBounds := formatIface_empty_faults (by decide) (by decide)

/-! ## C33 -/

/-- Spec: the answer of the first call that succeeds, calls being numbered from `i`, and the names called. -/
def firstAnswer (fn : Nat → List Byte → Option Nat) : Nat → List (List Byte) → Option Nat × List (List Byte)
  | _, [] => (none, [])
  | i, n :: ns => match fn i n with
    | some p => (some p, [n])
    | none => ((firstAnswer fn (i + 1) ns).1, n :: (firstAnswer fn (i + 1) ns).2)

/-- The name for version `n`; 1000 does not fit three digits and comes out as 100. -/
def versionName (P : List Byte) (n : Nat) : List Byte := P ++ if n < 1000 then digits3 n else digits3 100

theorem pad_version (n : Nat) (h : n ≤ 1000) : (pad3 n).take 3 = if n < 1000 then digits3 n else digits3 100 := by
  by_cases h1 : n < 1000
  · rw [if_pos h1, pad3_eq h1]; rfl
  · rw [if_neg h1, show n = 1000 by omega, pad3_1000]

theorem search_round {fn : Nat → List Byte → Option Nat} {a : List Byte} {c : Byte} (hc : isdigit c = false) (hz : 0 ∉ a ++ [c]) {n : Nat} (hn : n ≤ 1000)
    {r : List Byte} {num max : Int} {tried : List (List Byte)} (hmax : max ≤ 999) (hnum : n = 1000 → num = 1000) :
    searchRound fn (a.length + 4) max ⟨versionName (a ++ [c]) n ++ 0 :: r, num, tried⟩ =
      .ok (match fn tried.length (versionName (a ++ [c]) n) with
        | some p => .inl (some p, versionName (a ++ [c]) n :: tried)
        | none => if num > max then .inl (none, versionName (a ++ [c]) n :: tried)
          else .inr ⟨versionName (a ++ [c]) (n + 1) ++ 0 :: r, n + 1, versionName (a ++ [c]) n :: tried⟩) := by
  have hstr : IsStr (versionName (a ++ [c]) n ++ 0 :: r) (versionName (a ++ [c]) n) := by
    refine ⟨r, rfl, ?_⟩
    unfold versionName
    intro hm
    rcases List.mem_append.1 hm with h | h
    · exact hz h
    · split at h <;> exact (digits3_digit 0 h).2 rfl
  unfold searchRound
  simp only [bind, Except.bind]
  rw [cstr_of hstr]
  dsimp only
  cases hf : fn tried.length (versionName (a ++ [c]) n) with
  | some p => rfl
  | none =>
    dsimp only
    by_cases hgt : num > max
    · rw [if_pos hgt, if_pos hgt]
    · rw [if_neg hgt, if_neg hgt]
      have hn' : n < 1000 := by
        rcases Nat.lt_or_eq_of_le hn with h | h
        · exact h
        · have := hnum h; omega
      have hver := formatIface_three (r := r) (m := a.length + 4 + 1) hc hz hn' (by omega)
      rw [pad_version (n + 1) (by omega)] at hver
      have e1 : versionName (a ++ [c]) n ++ 0 :: r = a ++ c :: digits3 n ++ 0 :: r := by
        unfold versionName; rw [if_pos hn']; simp
      have e2 : versionName (a ++ [c]) (n + 1) ++ 0 :: r = a ++ c :: (if n + 1 < 1000 then digits3 (n + 1) else digits3 100) ++ 0 :: r := by
        unfold versionName; simp
      rw [e1, hver]
      dsimp only
      rw [if_pos (by omega), e2]

theorem search_loop {fn : Nat → List Byte → Option Nat} {a : List Byte} {c : Byte} (hc : isdigit c = false) (hz : 0 ∉ a ++ [c])
    {max : Nat} (hmax : max ≤ 999) {r : List Byte} (d : Nat) : ∀ (n : Nat) (num : Int) (tried : List (List Byte)) (rounds : Nat),
    n + d = max + 1 → num = n → d < rounds →
    searchLoop fn (a.length + 4) max rounds ⟨versionName (a ++ [c]) n ++ 0 :: r, num, tried⟩ =
      .ok (some ((firstAnswer fn tried.length ((List.range' n (d + 1)).map (versionName (a ++ [c])))).1,
        (firstAnswer fn tried.length ((List.range' n (d + 1)).map (versionName (a ++ [c])))).2.reverse ++ tried)) := by
  induction d with
  | zero =>
    intro n num tried rounds h1 h2 h3
    obtain ⟨k, rfl⟩ : ∃ k, rounds = k + 1 := ⟨rounds - 1, by omega⟩
    rw [searchLoop, search_round hc hz (by omega) (by omega) (by omega)]
    simp only [bind, Except.bind, Nat.zero_add, List.range'_one, List.map_cons, List.map_nil, firstAnswer]
    cases fn tried.length (versionName (a ++ [c]) n) with
    | some p => rfl
    | none => dsimp only; rw [if_pos (by omega)]; rfl
  | succ d ih =>
    intro n num tried rounds h1 h2 h3
    obtain ⟨k, rfl⟩ : ∃ k, rounds = k + 1 := ⟨rounds - 1, by omega⟩
    rw [searchLoop, search_round hc hz (by omega) (by omega) (by omega), List.range'_succ]
    simp only [bind, Except.bind, List.map_cons, firstAnswer]
    cases fn tried.length (versionName (a ++ [c]) n) with
    | some p => rfl
    | none =>
      dsimp only
      rw [if_neg (by omega)]
      have := ih (n + 1) ((n : Int) + 1) (versionName (a ++ [c]) n :: tried) k (by omega) (by omega) (by omega)
      dsimp only
      rw [this]
      simp

/-- The last version tried. -/
def lastVersion (v max : Nat) : Nat := Nat.max (v + 1) (min max 999 + 1)

/-- C33 (missing: names that do not end in three digits, see `search_never_ends`): from `P` followed by the three digits of `v`, the search
calls the factory for the versions `v, v + 1, …, lastVersion v max` in this order until one is answered, returns that answer
(NULL if there is none) and ends. -/
theorem search_partial (fn : Nat → List Byte → Option Nat) {a : List Byte} {c : Byte} (hc : isdigit c = false) (hz : 0 ∉ a ++ [c])
    (hlen : (a ++ [c]).length + 7 ≤ 256) {v : Nat} (hv : v < 1000) (max : Nat) (junk : List Byte) {rounds : Nat} (hr : 1002 ≤ rounds) :
    interfaceSearch fn (a ++ [c] ++ digits3 v) max junk rounds =
      .ok (some ((firstAnswer fn 0 ((List.range' v (lastVersion v max + 1 - v)).map (versionName (a ++ [c])))).1,
        (firstAnswer fn 0 ((List.range' v (lastVersion v max + 1 - v)).map (versionName (a ++ [c])))).2.reverse)) := by
  unfold interfaceSearch
  have hclamp : (if (max : Int) > 999 then (999 : Int) else max) = ((min max 999 : Nat) : Int) := by
    split <;> omega
  dsimp only
  rw [hclamp, if_neg (by simp [digits3_length] at hlen ⊢; omega)]
  have el : (a ++ [c] ++ digits3 v).length = a.length + 4 := by simp [digits3_length]
  rw [el]
  generalize junk.take (255 - (a.length + 4)) = r
  generalize hM : min max 999 = M
  have hM9 : M ≤ 999 := by omega
  have ev : a ++ [c] ++ digits3 v = versionName (a ++ [c]) v := by unfold versionName; rw [if_pos hv]
  rw [ev]
  obtain ⟨k, rfl⟩ : ∃ k, rounds = k + 1 := ⟨rounds - 1, by omega⟩
  rw [searchLoop, search_round hc hz (by omega) (by omega) (by omega)]
  have hcount : lastVersion v max + 1 - v = (lastVersion v max - v) + 1 := by
    have : v + 1 ≤ lastVersion v max := Nat.le_max_left _ _
    omega
  rw [hcount, List.range'_succ]
  simp only [bind, Except.bind, List.map_cons, firstAnswer, List.length_nil]
  cases fn 0 (versionName (a ++ [c]) v) with
  | some p => rfl
  | none =>
    dsimp only
    rw [if_neg (by omega)]
    -- the first round compares 0, later ones the version
    by_cases hvm : v ≤ M
    · have hlv : lastVersion v max = M + 1 := by unfold lastVersion; rw [hM]; exact Nat.max_eq_right (by omega)
      have := search_loop (fn := fn) hc hz hM9 (r := r) (M + 1 - (v + 1)) (v + 1) ((v : Int) + 1) [versionName (a ++ [c]) v] k (by omega) (by omega) (by omega)
      dsimp only
      rw [this, hlv, show M + 1 - (v + 1) + 1 = M + 1 - v by omega]
      simp
    · have hlv : lastVersion v max = v + 1 := by unfold lastVersion; rw [hM]; exact Nat.max_eq_left (by omega)
      obtain ⟨k', rfl⟩ : ∃ k', k = k' + 1 := ⟨k - 1, by omega⟩
      dsimp only
      rw [searchLoop, search_round hc hz (by omega) (by omega) (by omega), hlv, show v + 1 - v = 1 by omega]
      simp only [bind, Except.bind, List.range'_one, List.map_cons, List.map_nil, firstAnswer, List.length_cons, List.length_nil]
      cases fn (0 + 1) (versionName (a ++ [c]) (v + 1)) with
      | some p => rfl
      | none => dsimp only; rw [if_pos (by omega)]; rfl

/-- `VEngine002`, factory offering `VEngine004`, `max` 10. -/
example : isdigit 101 = false ∧ 0 ∉ ([86, 69] ++ [101] : List Byte) ∧
    firstAnswer (fun _ n => if n = [86, 69, 101] ++ digits3 4 then some 7 else none) 0
      ((List.range' 2 (lastVersion 2 10 + 1 - 2)).map (versionName [86, 69, 101])) =
      (some 7, [[86, 69, 101] ++ digits3 2, [86, 69, 101] ++ digits3 3, [86, 69, 101] ++ digits3 4]) := ⟨by decide, by decide, rfl⟩

/-- C33: an interface is returned whenever the factory offers one of these names. -/
theorem search_finds (fn : List Byte → Option Nat) {i : Nat} {ns : List (List Byte)} {n : List Byte} (hn : n ∈ ns) (hf : fn n ≠ none) :
    ∃ p m, (firstAnswer (fun _ => fn) i ns).1 = some p ∧ m ∈ ns ∧ fn m = some p := by
  induction ns generalizing i with
  | nil => cases hn
  | cons m ns ih =>
    unfold firstAnswer
    cases hm : fn m with
    | some p => exact ⟨p, m, rfl, by simp, hm⟩
    | none =>
      dsimp only
      rcases List.mem_cons.1 hn with rfl | hn
      · exact absurd hm hf
      · obtain ⟨p, q, h1, h2, h3⟩ := ih (i := i + 1) hn
        exact ⟨p, q, h1, List.mem_cons_of_mem _ h2, h3⟩

example : (2 : Nat) ∈ [1, 2] ∧ (fun n : List Byte => if n = [1] then some 5 else none) [1] ≠ none := by decide

/-- C33: the search itself returns an interface whenever the factory offers a version from `v` to `lastVersion v max`. -/
theorem search_returns_offered_partial (fn : List Byte → Option Nat) {a : List Byte} {c : Byte} (hc : isdigit c = false) (hz : 0 ∉ a ++ [c])
    (hlen : (a ++ [c]).length + 7 ≤ 256) {v : Nat} (hv : v < 1000) (max : Nat) (junk : List Byte) {n : Nat} (hn : v ≤ n) (hn' : n ≤ lastVersion v max)
    (hf : fn (versionName (a ++ [c]) n) ≠ none) :
    ∃ p tried, interfaceSearch (fun _ => fn) (a ++ [c] ++ digits3 v) max junk 1002 = .ok (some (some p, tried)) := by
  have := search_finds fn (i := 0) (ns := (List.range' v (lastVersion v max + 1 - v)).map (versionName (a ++ [c])))
    (List.mem_map.2 ⟨n, List.mem_range'_1.2 ⟨hn, by omega⟩, rfl⟩) hf
  obtain ⟨p, _, h1, _⟩ := this
  rw [search_partial _ hc hz hlen hv max junk (Nat.le_refl _), h1]
  exact ⟨_, _, rfl⟩

/-- Version 4 is offered, the search starts at version 2. -/
example : isdigit 101 = false ∧ (2 ≤ 4 ∧ 4 ≤ lastVersion 2 10) ∧
    (fun n : List Byte => if n = versionName [101] 4 then some 7 else none) (versionName [101] 4) ≠ none := by decide

/-- C33: each name is tried at most once, as long as `max` is below 999. -/
theorem search_tries_once (P : List Byte) {v max : Nat} (hv : v < 999) (hmax : max < 999) :
    ((List.range' v (lastVersion v max + 1 - v)).map (versionName P)).Nodup := by
  rw [List.nodup_iff_pairwise_ne, List.pairwise_map]
  have hlast : lastVersion v max ≤ 999 := by
    unfold lastVersion
    rcases Nat.le_total (v + 1) (min max 999 + 1) with h | h
    · rw [show Nat.max (v + 1) (min max 999 + 1) = min max 999 + 1 from Nat.max_eq_right h]; omega
    · rw [show Nat.max (v + 1) (min max 999 + 1) = v + 1 from Nat.max_eq_left h]; omega
  have hge : v + 1 ≤ lastVersion v max := Nat.le_max_left _ _
  refine (List.pairwise_lt_range' (s := v) (n := lastVersion v max + 1 - v)).imp_of_mem ?_
  intro x y hx hy hlt e
  obtain ⟨i, hi, rfl⟩ := List.mem_range'.1 hx
  obtain ⟨j, hj, rfl⟩ := List.mem_range'.1 hy
  unfold versionName at e
  rw [if_pos (by omega), if_pos (by omega)] at e
  have := digits3_inj (by omega) (by omega) (List.append_cancel_left e)
  omega

example : ((List.range' 2 (lastVersion 2 10 + 1 - 2)).map (versionName [86])).length = 10 := rfl

/-- C33, negation: with the usual `max` of 999, the version 100 is tried a second time after 999. -/
theorem search_repeats (P : List Byte) {v : Nat} (hv : v ≤ 100) :
    ¬ ((List.range' v (lastVersion v 999 + 1 - v)).map (versionName P)).Nodup := by
  have hl : lastVersion v 999 = 1000 := by unfold lastVersion; exact Nat.max_eq_right (by omega)
  rw [hl, List.nodup_iff_pairwise_ne, List.pairwise_map]
  intro h
  have h1 : List.range' v (1000 + 1 - v) = List.range' v (100 - v) ++ 100 :: (List.range' 101 899 ++ [1000]) := by
    rw [show 1000 + 1 - v = (100 - v) + (1 + (899 + 1)) by omega, ← List.range'_append_1, ← List.range'_append_1, ← List.range'_append_1]
    rw [show v + (100 - v) = 100 by omega]
    rfl
  rw [h1, List.pairwise_append] at h
  exact (List.pairwise_cons.1 h.2.1).1 1000 (by simp) rfl

example : (1 : Nat) ≤ 100 := by decide

/-- C33, negation of termination: with a factory that has none of the interfaces, a name that does not end in a digit
makes the search run forever (for every number of rounds it is not finished). -/
theorem search_never_ends {s : List Byte} (h0 : 0 ∉ s) (hlen : s.length + 4 ≤ 256) (hno : ∀ c ∈ s.getLast?, isdigit c = false) (max : Nat)
    (junk : List Byte) (rounds : Nat) : interfaceSearch (fun _ _ => none) s max junk rounds = .ok none := by
  unfold interfaceSearch
  have hclamp : (if (max : Int) > 999 then (999 : Int) else max) = ((min max 999 : Nat) : Int) := by
    split <;> omega
  dsimp only
  rw [hclamp, if_neg (by omega)]
  generalize junk.take (255 - s.length) = r
  generalize min max 999 = M
  have hs : IsStr (s ++ 0 :: r) s := ⟨r, rfl, h0⟩
  have key : ∀ rounds (num : Int) tried, num ≤ 0 → searchLoop (fun _ _ => none) s.length M rounds ⟨s ++ 0 :: r, num, tried⟩ = .ok none := by
    intro rounds
    induction rounds with
    | zero => intro num tried _; rfl
    | succ n ih =>
      intro num tried hnum
      rw [searchLoop]
      unfold searchRound
      simp only [bind, Except.bind]
      rw [cstr_of hs]
      dsimp only
      rw [if_neg (by omega), formatIface_refused hs hno]
      dsimp only
      rw [if_pos (by decide)]
      exact ih (-1) _ (by decide)
  exact key rounds 0 [] (Int.le_refl _)

/-- `VEngine` without a version. -/
example : 0 ∉ ([86, 69] : List Byte) ∧ ([86, 69] : List Byte).length + 4 ≤ 256 ∧ ∀ c ∈ ([86, 69] : List Byte).getLast?, isdigit c = false := by decide

/-- C33: `VInterfaceMatch` with a minimum version replaces the three digits of the name by that version and searches from there. -/
theorem vInterface_from {a : List Byte} {c : Byte} {v m : Nat} (hc : isdigit c = false) (hlen : a.length + 4 ≤ 252) (hm : m < 1000) :
    vInterfaceName (a ++ [c] ++ digits3 v) m = .ok (some (a ++ [c] ++ digits3 (if m = 0 then 1 else m))) := by
  unfold vInterfaceName
  rw [if_neg (by simp [digits3_length]; omega), if_neg (by omega)]
  have hs : stripDigits 0 (a ++ [c] ++ digits3 v).reverse = .ok (3, c :: a.reverse) := by
    have d1 := digit_facts (v / 100 % 10) (by omega)
    have d2 := digit_facts (v / 10 % 10) (by omega)
    have d3 := digit_facts (v % 10) (by omega)
    simp only [digits3, List.reverse_append, List.reverse_cons, List.reverse_nil, List.nil_append, List.cons_append, stripDigits]
    rw [if_pos ⟨d3.1, by decide⟩, if_pos ⟨d2.1, by decide⟩, if_pos ⟨d1.1, by decide⟩, if_neg (by simp [hc])]
  rw [hs]
  simp only [bind, Except.bind, ne_eq, not_true_eq_false, if_false]
  rw [show ((if (m : Int) = 0 then (1 : Int) else (m : Int))).toNat = if m = 0 then 1 else m by split <;> split <;> omega]
  rw [pad3_eq (by split <;> omega)]
  simp [digits3]

example : isdigit 86 = false ∧ ([] : List Byte).length + 4 ≤ 252 := by decide

/-- C33: a name that ends in fewer or more than three digits keeps them: the search starts from the name itself. -/
theorem vInterface_keeps {a p : List Byte} {c : Byte} {m : Nat} (hc : isdigit c = false) (hp : ∀ x ∈ p, isdigit x = true) (h3 : p.length ≠ 3)
    (hlen : (a ++ [c] ++ p).length ≤ 252) : vInterfaceName (a ++ [c] ++ p) m = .ok (some (a ++ [c] ++ p)) := by
  have key : ∀ (q : List Byte) (d : Nat), (∀ x ∈ q, isdigit x = true) → q.length + d ≠ 3 → d ≤ 4 → d ≠ 3 → ∃ k r, stripDigits d (q ++ c :: a.reverse) = .ok (k, r) ∧ k ≠ 3 := by
    intro q
    induction q with
    | nil =>
      intro d _ h3 _ _
      exact ⟨d, _, by rw [List.nil_append, stripDigits, if_neg (by simp [hc])], by simpa using h3⟩
    | cons x q ih =>
      intro d hq h3 h4 hd
      rw [List.cons_append, stripDigits]
      have hx := hq x (by simp)
      by_cases hd4 : d ≤ 3
      · rw [if_pos ⟨hx, hd4⟩]
        by_cases hd2 : d = 2
        · subst hd2
          cases q with
          | nil => simp at h3
          | cons y q =>
            rw [List.cons_append, stripDigits, if_pos ⟨hq y (by simp), by decide⟩]
            cases q with
            | nil => exact ⟨4, _, by rw [List.nil_append, stripDigits, if_neg (by simp [hc])], by decide⟩
            | cons z q => exact ⟨4, _, by rw [List.cons_append, stripDigits, if_neg (by omega)], by decide⟩
        · exact ih (d + 1) (fun x hx => hq x (List.mem_cons_of_mem _ hx)) (by simp only [List.length_cons] at h3; omega) (by omega) (by omega)
      · exact ⟨d, _, by rw [if_neg (fun h => hd4 h.2)], hd⟩
  obtain ⟨k, r, h, hk⟩ := key p.reverse 0 (fun x hx => hp x (List.mem_reverse.1 hx)) (by simpa using h3) (by decide) (by decide)
  unfold vInterfaceName
  rw [if_neg (by omega), if_neg (by omega)]
  rw [show (a ++ [c] ++ p).reverse = p.reverse ++ c :: a.reverse by simp, h]
  simp only [bind, Except.bind]
  rw [if_pos hk]

/-- Four digits. -/
example : vInterfaceName [86, 49, 50, 51, 52] 7 = .ok (some [86, 49, 50, 51, 52]) :=
  vInterface_keeps (a := []) (c := 86) (p := [49, 50, 51, 52]) (m := 7) (by decide) (by decide) (by decide) (by decide)

/-- C34: a buffer in which the name with its terminator, or without digits the name with a version, does not fit is refused and left as it is. -/
theorem formatIface_small {b : Buf} {a p : List Byte} {c : Byte} {m : Nat} (h : IsStr b (a ++ [c] ++ p)) (hc : isdigit c = false) (hp : ∀ x ∈ p, isdigit x = true)
    (hm : m ≤ (a ++ [c] ++ p).length + (if p = [] then 3 else 0)) : formatIface b m = .ok (b, -1) := by
  have hl := strlen_of h
  obtain ⟨r, rfl, h0⟩ := h
  have hk := lastNonDigit_run (a := a) (p := p) (r := 0 :: r) hc hp
  have e1 : (a ++ [c] ++ p).length = a.length + 1 + p.length := by simp; omega
  have e2 : a ++ [c] ++ p ++ 0 :: r = a ++ c :: p ++ 0 :: r := by simp
  rw [e1] at hl hm
  unfold formatIface
  simp only [bind, Except.bind, hl]
  rw [e2, hk]
  dsimp only
  rw [if_pos]
  by_cases hp0 : p = []
  · rw [if_pos hp0] at hm
    exact .inr ⟨by simp [hp0], hm⟩
  · rw [if_neg hp0] at hm
    have := List.length_pos_iff.2 hp0
    exact .inl ⟨⟨by omega, by omega⟩, hm⟩

/-- `V009` with a size of 4. -/
example : formatIface [86, 48, 48, 57, 0] 4 = .ok ([86, 48, 48, 57, 0], -1) :=
  formatIface_small (a := []) (c := 86) (p := [48, 48, 57]) ⟨[], rfl, by decide⟩ (by decide) (by decide) (by decide)

end Verif.Util

#print axioms Verif.Util.vInterface_keeps
#print axioms Verif.Util.formatIface_small
#print axioms Verif.Util.formatIface_increments_partial
#print axioms Verif.Util.formatIface_clobbers
#print axioms Verif.Util.formatIface_overruns
#print axioms Verif.Util.formatIface_empty_faults
#print axioms Verif.Util.search_partial
#print axioms Verif.Util.search_finds
#print axioms Verif.Util.search_returns_offered_partial
#print axioms Verif.Util.search_tries_once
#print axioms Verif.Util.search_repeats
#print axioms Verif.Util.search_never_ends
#print axioms Verif.Util.vInterface_from
