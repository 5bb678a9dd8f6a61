import Verif.Util.Iface
/-
Helper lemmas about interface names.
-/
namespace Verif.Util
open Verif.C

/-- Spec: a version number as exactly three digits. -/
def digits3 (v : Nat) : List Byte := [UInt8.ofNat (48 + v / 100 % 10), UInt8.ofNat (48 + v / 10 % 10), UInt8.ofNat (48 + v % 10)]

theorem digit_facts (d : Nat) (h : d < 10) : isdigit (UInt8.ofNat (48 + d)) = true ∧ (UInt8.ofNat (48 + d)).toNat - 48 = d ∧ UInt8.ofNat (48 + d) ≠ 0 := by
  have : ∀ d : Fin 10, isdigit (UInt8.ofNat (48 + d.1)) = true ∧ (UInt8.ofNat (48 + d.1)).toNat - 48 = d.1 ∧ UInt8.ofNat (48 + d.1) ≠ 0 := by decide
  exact this ⟨d, h⟩

theorem dec1 {n : Nat} (h : n < 10) : dec n = [UInt8.ofNat (48 + n)] := by unfold dec; rw [if_pos h]

theorem dec_step {n : Nat} (h : 10 ≤ n) : dec n = dec (n / 10) ++ [UInt8.ofNat (48 + n % 10)] := by
  conv => lhs; unfold dec
  rw [if_neg (by omega)]

theorem pad3_eq {v : Nat} (h : v < 1000) : pad3 v = digits3 v := by
  unfold pad3 digits3
  by_cases h1 : v < 10
  · rw [dec1 h1, show v / 100 % 10 = 0 by omega, show v / 10 % 10 = 0 by omega, show v % 10 = v by omega]; rfl
  · by_cases h2 : v < 100
    · rw [dec_step (by omega), dec1 (n := v / 10) (by omega), show v / 100 % 10 = 0 by omega, show v / 10 % 10 = v / 10 by omega]; rfl
    · rw [dec_step (by omega), dec_step (n := v / 10) (by omega), dec1 (n := v / 10 / 10) (by omega),
        show v / 100 % 10 = v / 10 / 10 by omega]; rfl

theorem pad3_1000 : (pad3 1000).take 3 = digits3 100 := by
  unfold pad3
  rw [dec_step (by omega), dec_step (n := 1000 / 10) (by omega), dec_step (n := 1000 / 10 / 10) (by omega), dec1 (n := 1000 / 10 / 10 / 10) (by omega)]
  rfl

theorem digits3_length (v : Nat) : (digits3 v).length = 3 := rfl

theorem digits3_digit {v : Nat} : ∀ c ∈ digits3 v, isdigit c = true ∧ c ≠ 0 := by
  intro c hc
  simp only [digits3, List.mem_cons, List.not_mem_nil, or_false] at hc
  rcases hc with rfl | rfl | rfl
  · have := digit_facts (v / 100 % 10) (by omega); exact ⟨this.1, this.2.2⟩
  · have := digit_facts (v / 10 % 10) (by omega); exact ⟨this.1, this.2.2⟩
  · have := digit_facts (v % 10) (by omega); exact ⟨this.1, this.2.2⟩

theorem digits3_inj {v w : Nat} (hv : v < 1000) (hw : w < 1000) (h : digits3 v = digits3 w) : v = w := by
  simp only [digits3, List.cons.injEq, and_true] at h
  have e : ∀ a b : Nat, a < 10 → b < 10 → UInt8.ofNat (48 + a) = UInt8.ofNat (48 + b) → a = b := by
    intro a b ha hb he
    have h1 := (digit_facts a ha).2.1
    have h2 := (digit_facts b hb).2.1
    rw [he] at h1
    omega
  have a1 := e _ _ (by omega) (by omega) h.1
  have a2 := e _ _ (by omega) (by omega) h.2.1
  have a3 := e _ _ (by omega) (by omega) h.2.2
  omega

theorem atoi_digits3 {v : Nat} (h : v < 1000) (r : List Byte) : atoiLoop 0 (digits3 v ++ 0 :: r) = .ok v := by
  have d1 := digit_facts (v / 100 % 10) (by omega)
  have d2 := digit_facts (v / 10 % 10) (by omega)
  have d3 := digit_facts (v % 10) (by omega)
  simp only [digits3, List.cons_append, List.nil_append, atoiLoop, d1.1, d2.1, d3.1, d1.2.1, d2.2.1, d3.2.1, if_true]
  rw [if_pos (by omega), if_pos (by omega), if_pos (by omega), if_neg (by decide)]
  congr 1; omega

theorem lastNonDigit_run {a p r : List Byte} {c : Byte} (hc : isdigit c = false) (hp : ∀ x ∈ p, isdigit x = true) :
    lastNonDigit (a ++ c :: p ++ r) (a.length + 1 + p.length) = .ok (a.length + 1) := by
  have key : ∀ n (p : List Byte) r, p.length = n → (∀ x ∈ p, isdigit x = true) → lastNonDigit (a ++ c :: p ++ r) (a.length + 1 + p.length) = .ok (a.length + 1) := by
    intro n
    induction n with
    | zero =>
      intro p r hl _
      obtain rfl := List.length_eq_zero_iff.1 hl
      rw [List.length_nil, Nat.add_zero, lastNonDigit, List.append_assoc, List.cons_append, rd_left]
      simp [bind, Except.bind, hc]
    | succ n ih =>
      intro p r hl hp
      rcases List.eq_nil_or_concat p with rfl | ⟨p', d, rfl⟩
      · cases hl
      · simp only [List.concat_eq_append, List.length_append, List.length_cons, List.length_nil, Nat.zero_add] at hl hp ⊢
        rw [← Nat.add_assoc, lastNonDigit]
        have e : a ++ c :: (p' ++ [d]) ++ r = (a ++ c :: p') ++ d :: r := by simp
        have := rd_left (a := a ++ c :: p') (c := d) (r := r)
        rw [List.length_append, List.length_cons, ← Nat.add_assoc, Nat.add_right_comm] at this
        rw [e, this]
        simp only [bind, Except.bind, hp d (by simp), if_true]
        exact ih p' (d :: r) (by omega) (fun x hx => hp x (List.mem_append_left _ hx))
  exact key _ p r rfl hp

theorem lastNonDigit_all {p r : List Byte} (hp : ∀ x ∈ p, isdigit x = true) : lastNonDigit (p ++ r) p.length = .ok 0 := by
  have key : ∀ n (p : List Byte) r, p.length = n → (∀ x ∈ p, isdigit x = true) → lastNonDigit (p ++ r) p.length = .ok 0 := by
    intro n
    induction n with
    | zero =>
      intro p r hl _
      obtain rfl := List.length_eq_zero_iff.1 hl
      rfl
    | succ n ih =>
      intro p r hl hp
      rcases List.eq_nil_or_concat p with rfl | ⟨p', d, rfl⟩
      · cases hl
      · simp only [List.concat_eq_append, List.length_append, List.length_cons, List.length_nil, Nat.zero_add] at hl hp ⊢
        rw [lastNonDigit, List.append_assoc, List.singleton_append, rd_left]
        simp only [bind, Except.bind, hp d (by simp), if_true]
        exact ih p' (d :: r) (by omega) (fun x hx => hp x (List.mem_append_left _ hx))
  exact key _ p r rfl hp

/-- `FormatIface` on a prefix ending in a non-digit and three digits. -/
theorem formatIface_three {a : List Byte} {c : Byte} {v m : Nat} {r : List Byte} (hc : isdigit c = false) (hz : 0 ∉ a ++ [c]) (hv : v < 1000)
    (hm : a.length + 4 < m) :
    formatIface (a ++ c :: digits3 v ++ 0 :: r) m = .ok (a ++ c :: (pad3 (v + 1)).take 3 ++ 0 :: r, v + 1) := by
  have hs : strlen (a ++ c :: digits3 v ++ 0 :: r) 0 = .ok (a.length + 1 + (digits3 v).length) := by
    rw [strlen_of (s := a ++ c :: digits3 v) ⟨r, by simp, by
      intro hm
      rcases List.mem_append.1 hm with h | h
      · exact hz (List.mem_append_left _ h)
      · rcases List.mem_cons.1 h with h | h
        · exact hz (by simp [h])
        · exact (digits3_digit 0 h).2 rfl⟩]
    simp only [List.length_append, List.length_cons]; congr 1; first | done | omega
  have hk := lastNonDigit_run (a := a) (p := digits3 v) (r := 0 :: r) hc (fun x hx => (digits3_digit x hx).1)
  unfold formatIface
  simp only [bind, Except.bind]
  rw [hs]
  dsimp only
  rw [hk]
  dsimp only
  rw [digits3_length]
  have hne : a.length + 1 ≠ a.length + 1 + 3 := by omega
  have hne0 : a.length + 1 ≠ 0 := by omega
  rw [if_neg (by
    rintro (⟨_, h⟩ | ⟨h, _⟩)
    · omega
    · exact h ⟨hne0, hne⟩)]
  rw [if_pos hne]
  have hd : List.drop (a.length + 1) (a ++ c :: digits3 v ++ 0 :: r) = digits3 v ++ 0 :: r := by
    rw [show a ++ c :: digits3 v ++ 0 :: r = (a ++ [c]) ++ (digits3 v ++ 0 :: r) by simp]
    rw [show a.length + 1 = (a ++ [c]).length by simp, List.drop_left]
  rw [hd, atoi_digits3 hv]
  dsimp only
  rw [if_pos (by omega), if_pos hne]
  have hp : ((pad3 (v + 1)).take 3).length = 3 := by
    by_cases h : v + 1 < 1000
    · rw [pad3_eq h]; rfl
    · rw [show v + 1 = 1000 by omega, pad3_1000]; rfl
  have hw : wrs (a ++ c :: digits3 v ++ 0 :: r) (a.length + 1) ((pad3 (v + 1)).take 3 ++ [0]) = .ok (a ++ c :: (pad3 (v + 1)).take 3 ++ 0 :: r) := by
    generalize (pad3 (v + 1)).take 3 = q at hp
    unfold wrs
    rw [if_pos (by simp [hp, digits3_length]; omega)]
    rw [show a ++ c :: digits3 v ++ 0 :: r = (a ++ [c]) ++ ((digits3 v ++ [0]) ++ r) by simp, show a.length + 1 = (a ++ [c]).length by simp]
    rw [List.take_left, ← List.drop_drop, List.drop_left]
    have : List.drop (q ++ [0]).length (digits3 v ++ [0] ++ r) = r := by
      have e : (q ++ [0]).length = (digits3 v ++ [0]).length := by simp [hp, digits3_length]
      rw [e, List.drop_left]
    rw [this]
    simp
  rw [hw]

/-- `FormatIface` with room for the string only: names that do not end in digits after a non-digit are refused. -/
theorem formatIface_refused {b : Buf} {s : List Byte} (h : IsStr b s) (hno : ∀ c ∈ s.getLast?, isdigit c = false) :
    formatIface b (s.length + 1) = .ok (b, -1) := by
  have hl := strlen_of h
  obtain ⟨r, rfl, h0⟩ := h
  unfold formatIface
  simp only [bind, Except.bind]
  rw [hl]
  dsimp only
  have hk : lastNonDigit (s ++ 0 :: r) s.length = .ok s.length := by
    rcases List.eq_nil_or_concat s with rfl | ⟨a, c, rfl⟩
    · rfl
    · have := lastNonDigit_run (a := a) (c := c) (p := []) (r := 0 :: r) (hno c (by simp)) (by simp)
      simpa using this
  rw [hk]
  dsimp only
  rw [if_pos (Or.inr ⟨fun h => h.2 rfl, by omega⟩)]

end Verif.Util
