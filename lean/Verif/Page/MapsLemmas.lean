import Verif.Page.MapsText
/-
Lemmas about the reading of /proc/self/maps: lines, digits, numbers.
-/
namespace Verif.Maps
open Verif.C Verif.Page

theorem linesOf_line {l rest : List Byte} (h : 10 ∉ l) : linesOf (l ++ 10 :: rest) = (l ++ [10]) :: linesOf rest := by
  induction l with
  | nil => simp [linesOf]
  | cons c l ih =>
    have hc : c ≠ 10 := fun e => h (by simp [e])
    have := ih (fun hm => h (List.mem_cons_of_mem _ hm))
    simp [linesOf, hc, this]

/-- A digit as the kernel writes it is read as that digit. -/
theorem digit_read : ∀ d < 16, hexDigit (digitChar d) = some d := by decide +kernel

theorem digit_kind : ∀ d < 16, isspace (digitChar d) = false ∧ digitChar d ≠ 45 ∧ digitChar d ≠ 43 ∧ digitChar d ≠ 10 ∧
    digitChar d ≠ 120 ∧ digitChar d ≠ 88 := by decide +kernel

/-- No counterpart in /repo: a list of digits as the kernel writes them, with their value. -/
def val (ds : List Nat) : Nat := ds.foldl (fun a d => a * 16 + d) 0

theorem foldl_val (ds : List Nat) (acc : Nat) : ds.foldl (fun a d => a * 16 + d) acc = acc * 16 ^ ds.length + val ds := by
  unfold val
  induction ds generalizing acc with
  | nil => simp
  | cons d ds ih =>
    rw [List.foldl_cons, ih, List.foldl_cons, ih (0 * 16 + d)]
    simp only [List.length_cons, Nat.pow_succ, Nat.zero_mul, Nat.zero_add, Nat.add_mul, Nat.add_assoc]
    rw [Nat.mul_assoc, Nat.mul_comm 16]

theorem hexText_digits (n : Nat) : ∃ ds : List Nat, hexText n = ds.map digitChar ∧ (∀ d ∈ ds, d < 16) ∧ val ds = n ∧ ds ≠ [] := by
  induction n using Nat.strongRecOn with
  | _ n ih =>
    unfold hexText
    split
    · next h => exact ⟨[n], rfl, by simpa using h, by simp [val], by simp⟩
    · next h =>
      obtain ⟨ds, h1, h2, h3, _⟩ := ih (n / 16) (by omega)
      refine ⟨ds ++ [n % 16], by simp [h1], ?_, ?_, by simp⟩
      · intro d hd
        rcases List.mem_append.1 hd with hd | hd
        · exact h2 d hd
        · simp at hd; omega
      · unfold val at h3 ⊢
        rw [List.foldl_append, h3]
        simp only [List.foldl_cons, List.foldl_nil]
        omega

theorem padded_digits (n : Nat) : ∃ ds : List Nat, padded n = ds.map digitChar ∧ (∀ d ∈ ds, d < 16) ∧ val ds = n ∧ ds ≠ [] := by
  obtain ⟨ds, h1, h2, h3, h4⟩ := hexText_digits n
  refine ⟨List.replicate (8 - (hexText n).length) 0 ++ ds, ?_, ?_, ?_, by simp [h4]⟩
  · unfold padded
    rw [List.map_append, List.map_replicate, h1]; rfl
  · intro d hd
    rcases List.mem_append.1 hd with hd | hd
    · rw [List.mem_replicate] at hd; omega
    · exact h2 d hd
  · have hz : ∀ k, (List.replicate k 0).foldl (fun a d => a * 16 + d) 0 = 0 := by
      intro k
      induction k with
      | zero => rfl
      | succ k ih => rw [List.replicate_succ, List.foldl_cons]; exact ih
    unfold val at h3 ⊢
    rw [List.foldl_append, hz, h3]

theorem digitsFrom_read {a r : List Byte} {ds : List Nat} {c : Byte} (hd : ∀ d ∈ ds, d < 16) (hc : hexDigit c = none) (acc : Nat) :
    digitsFrom (a ++ ds.map digitChar ++ c :: r) a.length acc = .ok (ds.foldl (fun a d => a * 16 + d) acc, a.length + ds.length) := by
  induction ds generalizing a acc with
  | nil =>
    unfold digitsFrom
    rw [dif_pos (by simp)]
    simp [hc]
  | cons d ds ih =>
    have := ih (a := a ++ [digitChar d]) (fun x hx => hd x (List.mem_cons_of_mem _ hx)) (acc * 16 + d)
    unfold digitsFrom
    rw [dif_pos (by simp)]
    simp only [List.map_cons, List.append_assoc, List.cons_append, List.nil_append, List.length_append, List.length_cons, List.length_nil] at this ⊢
    have hg : (a ++ digitChar d :: (ds.map digitChar ++ c :: r))[a.length]'(by simp) = digitChar d := by simp
    rw [hg, digit_read d (hd d (by simp))]
    simp only [this, List.foldl_cons]
    congr 2
    omega

/-- What `strtoul` makes of a number as the kernel writes it, before a minus or a space. -/
theorem strtoul_read {W n : Nat} {a r : List Byte} {c : Byte} (hn : n < 2 ^ W) (hc : c = 45 ∨ c = 32) :
    strtoul16 W (a ++ padded n ++ c :: r) a.length = .ok (n, a.length + (padded n).length) := by
  obtain ⟨ds, h1, h2, h3, h4⟩ := padded_digits n
  have hcn : hexDigit c = none := by rcases hc with rfl | rfl <;> decide
  have hcx : c ≠ 120 ∧ c ≠ 88 := by rcases hc with rfl | rfl <;> decide
  have hD := digitsFrom_read (a := a) (r := r) h2 hcn 0
  rw [h1]
  cases ds with
  | nil => exact absurd rfl h4
  | cons d ds =>
    have hk := digit_kind d (h2 d (by simp))
    have hs : skipSpace (a ++ (d :: ds).map digitChar ++ c :: r) a.length = .ok a.length := by
      unfold skipSpace
      rw [dif_pos (by simp)]
      simp [hk.1]
    have hr : rd (a ++ (d :: ds).map digitChar ++ c :: r) a.length = .ok (digitChar d) := rd_get (by simp)
    have hp : hexPrefix (a ++ (d :: ds).map digitChar ++ c :: r) a.length = .ok false := by
      unfold hexPrefix
      rw [hr]
      simp only [bind, Except.bind]
      split
      · cases ds with
        | nil =>
          have : rd (a ++ [d].map digitChar ++ c :: r) (a.length + 1) = .ok c := rd_get (by simp)
          rw [this]
          simp [hcx.1, hcx.2]
        | cons e ds =>
          have he := digit_kind e (h2 e (by simp))
          have : rd (a ++ (d :: e :: ds).map digitChar ++ c :: r) (a.length + 1) = .ok (digitChar e) := rd_get (by simp)
          rw [this]
          simp [he.2.2.2.2.1, he.2.2.2.2.2]
      · rfl
    unfold strtoul16 sign
    rw [hs]
    simp only [bind, Except.bind]
    rw [hr]
    simp only [hk.2.1, hk.2.2.1, if_false]
    rw [hp]
    simp only [Bool.false_eq_true, if_false]
    rw [hD]
    simp only []
    rw [if_neg (by simp)]
    have hv : (d :: ds).foldl (fun a d => a * 16 + d) 0 = n := h3
    rw [hv]
    unfold clip
    rw [if_neg (by omega)]
    simp

theorem padded_no_newline (n : Nat) : 10 ∉ padded n := by
  obtain ⟨ds, h1, h2, _, _⟩ := padded_digits n
  rw [h1]
  intro h
  obtain ⟨d, hd, he⟩ := List.mem_map.1 h
  exact (digit_kind d (h2 d hd)).2.2.2.1 he

theorem flags_no_newline (b : Bits) : 10 ∉ flagText b := by
  cases b with | mk r w x => cases r <;> cases w <;> cases x <;> decide

theorem linesOf_file {W : Nat} {ms : List Mapping} (h : Written W ms) : linesOf (fileOf ms) = ms.map Mapping.line := by
  induction ms with
  | nil => rfl
  | cons m ms ih =>
    have hm := h m (by simp)
    have := ih (fun x hx => h x (List.mem_cons_of_mem _ hx))
    unfold fileOf at this ⊢
    rw [List.flatMap_cons, List.map_cons, ← this]
    have e : m.line ++ ms.flatMap Mapping.line =
        (padded m.lo ++ 45 :: padded m.hi ++ 32 :: flagText m.bits ++ m.rest) ++ 10 :: ms.flatMap Mapping.line := by
      simp [Mapping.line]
    rw [e, linesOf_line]
    · simp [Mapping.line]
    · have a := padded_no_newline m.lo
      have b := padded_no_newline m.hi
      have c := flags_no_newline m.bits
      have d := hm.2.2
      simp [a, b, c, d]

/-- No counterpart in /repo: the place where the second number of a line ends. -/
def afterHi (m : Mapping) : Nat := (padded m.lo).length + 1 + (padded m.hi).length

theorem bounds_read {W : Nat} {m : Mapping} {old : Buf} (h1 : m.lo < 2 ^ W) (h2 : m.hi < 2 ^ W) :
    bounds W (fill old m.line) = .ok (m.lo, m.hi, afterHi m) := by
  have e1 : fill old m.line = [] ++ padded m.lo ++ 45 :: (padded m.hi ++ 32 :: flagText m.bits ++ m.rest ++ [10] ++ 0 :: old.drop (m.line.length + 1)) := by
    simp [fill, Mapping.line]
  have e2 : fill old m.line = (padded m.lo ++ [45]) ++ padded m.hi ++ 32 :: (flagText m.bits ++ m.rest ++ [10] ++ 0 :: old.drop (m.line.length + 1)) := by
    simp [fill, Mapping.line]
  unfold bounds
  have a := strtoul_read (W := W) (a := []) (r := padded m.hi ++ 32 :: flagText m.bits ++ m.rest ++ [10] ++ 0 :: old.drop (m.line.length + 1)) (c := 45) h1 (Or.inl rfl)
  have b := strtoul_read (W := W) (a := padded m.lo ++ [45]) (r := flagText m.bits ++ m.rest ++ [10] ++ 0 :: old.drop (m.line.length + 1)) (c := 32) h2 (Or.inr rfl)
  rw [← e1] at a
  rw [← e2] at b
  simp only [List.length_nil, Nat.zero_add] at a
  simp only [List.length_append, List.length_cons, List.length_nil, Nat.zero_add] at b
  simp only [bind, Except.bind, a, b, afterHi]

theorem flags_read {m : Mapping} {old : Buf} : flagsAt (fill old m.line) (afterHi m) = .ok m.bits := by
  have e : fill old m.line = (padded m.lo ++ 45 :: padded m.hi) ++ 32 :: (flagText m.bits ++ (m.rest ++ [10] ++ 0 :: old.drop (m.line.length + 1))) := by
    simp [fill, Mapping.line]
  have hl : (padded m.lo ++ 45 :: padded m.hi).length = afterHi m := by
    simp [afterHi]; omega
  have g : ∀ k (hk : k < 3), (fill old m.line)[afterHi m + (k + 1)]? = (flagText m.bits)[k]? := by
    intro k hk
    rw [e, ← hl, List.getElem?_append_right (by omega)]
    have : (padded m.lo ++ 45 :: padded m.hi).length + (k + 1) - (padded m.lo ++ 45 :: padded m.hi).length = k + 1 := by omega
    rw [this, List.getElem?_cons_succ, List.getElem?_append_left (by simpa [flagText] using hk)]
  have g0 := rd_get ((g 0 (by omega)).trans (by simp [flagText]; rfl))
  have g1 := rd_get ((g 1 (by omega)).trans (by simp [flagText]; rfl))
  have g2 := rd_get ((g 2 (by omega)).trans (by simp [flagText]; rfl))
  unfold flagsAt
  simp only [bind, Except.bind, g0, g1, g2]
  rcases m with ⟨lo, hi, ⟨r, w, x⟩, rest⟩
  cases r <;> cases w <;> cases x <;> rfl

end Verif.Maps
