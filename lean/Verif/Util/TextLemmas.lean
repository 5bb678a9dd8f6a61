import Verif.Util.Text
/-
Helper lemmas about the text helpers.
-/
namespace Verif.Util
open Verif.C

theorem mem_dropWhile {p : Byte → Bool} {s : List Byte} {x : Byte} (h : x ∈ s.dropWhile p) : x ∈ s :=
  (List.dropWhile_sublist p).subset h

theorem length_ltrim (s : List Byte) : (ltrim s).length ≤ s.length := (List.dropWhile_sublist _).length_le

theorem length_rtrim (s : List Byte) : (rtrim s).length ≤ s.length := by
  unfold rtrim
  have := (List.dropWhile_sublist isspace (l := s.reverse)).length_le
  simpa using this

theorem mem_rtrim {s : List Byte} {x : Byte} (h : x ∈ rtrim s) : x ∈ s := by
  unfold rtrim at h
  rw [List.mem_reverse] at h
  exact List.mem_reverse.1 (mem_dropWhile h)

/-- `skipSpace` over a white-space run. -/
theorem skipSpace_run {a p : List Byte} {c : Byte} {r : List Byte} (hp : ∀ x ∈ p, isspace x = true) (hc : isspace c = false) :
    skipSpace (a ++ p ++ c :: r) a.length = .ok (a.length + p.length) := by
  induction p generalizing a with
  | nil =>
    unfold skipSpace
    simp [hc]
  | cons x p ih =>
    have := ih (a := a ++ [x]) (fun y hy => hp y (List.mem_cons_of_mem _ hy))
    unfold skipSpace
    simp only [List.append_assoc, List.cons_append, List.nil_append, List.length_append, List.length_cons, List.length_nil] at this ⊢
    rw [dif_pos (by omega)]
    simp only [List.getElem_append_right (Nat.le_refl _), Nat.sub_self, List.getElem_cons_zero, hp x (List.mem_cons_self ..), if_true]
    rw [this]
    congr 1; omega

/-- `mm_TrimRight`'s loop over a white-space tail: only NULs are written, over the tail. -/
theorem trimRightLoop_run {a p r : List Byte} (hp : ∀ x ∈ p, isspace x = true) (ha : ∀ x ∈ a.getLast?, isspace x = false) :
    trimRightLoop (a ++ p ++ r) (a.length + p.length) = .ok (a ++ List.replicate p.length 0 ++ r) := by
  revert r
  have key : ∀ n (p : List Byte), p.length = n → (∀ x ∈ p, isspace x = true) → ∀ r, trimRightLoop (a ++ p ++ r) (a.length + p.length) = .ok (a ++ List.replicate p.length 0 ++ r) := by
    intro n
    induction n with
    | zero =>
      intro p hl _ r
      obtain rfl := List.length_eq_zero_iff.1 hl
      rcases List.eq_nil_or_concat a with rfl | ⟨a', c, rfl⟩
      · simp [trimRightLoop]
      · have hc : isspace c = false := ha c (by simp)
        simp only [List.concat_eq_append, List.length_append, List.length_cons, List.length_nil, Nat.zero_add, Nat.add_zero, List.append_nil]
        rw [trimRightLoop, List.append_assoc, List.singleton_append, rd_left]
        simp [bind, Except.bind, hc]
    | succ n ih =>
      intro p hl hp r
      rcases List.eq_nil_or_concat p with rfl | ⟨p', c, rfl⟩
      · cases hl
      · simp only [List.concat_eq_append, List.length_append, List.length_cons, List.length_nil, Nat.zero_add] at hl hp ⊢
        have hc : isspace c = true := hp c (by simp)
        have e : a ++ (p' ++ [c]) ++ r = (a ++ p') ++ c :: r := by simp
        have hlen : a.length + (p'.length + 1) = (a ++ p').length + 1 := by simp; omega
        rw [e, hlen, trimRightLoop, rd_left]
        simp only [bind, Except.bind, hc, if_true, wr_left]
        have := ih p' (by omega) (fun x hx => hp x (List.mem_append_left _ hx)) (0 :: r)
        rw [List.length_append, this, List.replicate_succ']
        simp
  exact fun {r} => key _ p rfl hp r

theorem scan_stop {b : Buf} {len i : Nat} {stop : Bool} (hi : len ≤ i) : scan b len stop i = .ok i := by
  unfold scan; rw [if_neg (by omega)]

/-- `scan` over a run of characters of the other kind. -/
theorem scan_run {a p r : List Byte} {stop : Bool} {len : Nat} (hp : ∀ x ∈ p, isspace x ≠ stop)
    (hr : a.length + p.length = len ∨ (a.length + p.length < len ∧ ∃ c ∈ r.head?, isspace c = stop)) :
    scan (a ++ p ++ r) len stop a.length = .ok (a.length + p.length) := by
  induction p generalizing a with
  | nil =>
    rcases hr with h | ⟨h, c, hc, hs⟩
    · rw [scan_stop (by simp at h; omega)]; simp
    · cases r with
      | nil => cases hc
      | cons d r =>
        cases hc
        simp only [List.length_nil, Nat.add_zero] at h
        unfold scan
        rw [if_pos h, List.append_nil, rd_left]
        simp [bind, Except.bind, hs]
  | cons x p ih =>
    have := ih (a := a ++ [x]) (fun y hy => hp y (List.mem_cons_of_mem _ hy)) (by
      simp only [List.length_append, List.length_cons, List.length_nil] at hr ⊢
      rcases hr with h | ⟨h, h2⟩
      · left; omega
      · right; exact ⟨by omega, h2⟩)
    have hlt : a.length < len := by
      simp only [List.length_cons] at hr
      rcases hr with h | ⟨h, _⟩ <;> omega
    unfold scan
    rw [if_pos hlt]
    simp only [List.append_assoc, List.cons_append, List.nil_append, List.length_append, List.length_cons, List.length_nil] at this ⊢
    rw [rd_left]
    simp only [bind, Except.bind, if_neg (hp x (List.mem_cons_self ..))]
    rw [this]
    congr 1; omega

theorem wr_wrs (b : Buf) (c : Nat) (x : Byte) : wr b c x = wrs b c [x] := by
  unfold wr wrs
  by_cases h : c < b.length
  · rw [if_pos h, if_pos (by simp; omega), List.set_eq_take_append_cons_drop, if_pos h]; simp
  · rw [if_neg h, if_neg (by simp; omega)]

theorem wr_then_wrs (b : Buf) (c : Nat) (x : Byte) (s : List Byte) :
    (do let b ← wr b c x; wrs b (c + 1) s : R Buf) = wrs b c (x :: s) := by
  unfold wr
  by_cases h : c < b.length
  · rw [if_pos h]
    simp only [bind, Except.bind, wrs, List.length_set, List.length_cons]
    by_cases h2 : c + 1 + s.length ≤ b.length
    · rw [if_pos h2, if_pos (by omega), List.drop_set_of_lt (by omega), List.take_set, List.set_eq_take_append_cons_drop,
        if_pos (by simp; omega)]
      have e : c + 1 + s.length = c + (s.length + 1) := by omega
      simp [List.take_take, e]
    · rw [if_neg h2, if_neg (by omega)]
  · rw [if_neg h]
    simp only [bind, Except.bind, wrs]
    rw [if_neg (by simp; omega)]

/-- The copy loop writes the longest prefix of at most `n` characters and a NUL behind it. -/
theorem copyOut_eq {a p r : List Byte} {n c : Nat} {out : Buf} :
    copyOut (a ++ p ++ r) (a.length + p.length) n a.length c out = wrs out c (p.take (n - c) ++ [0]) := by
  induction p generalizing a c out with
  | nil =>
    unfold copyOut
    rw [if_neg (by simp), wr_wrs]; simp
  | cons x p ih =>
    unfold copyOut
    rw [if_pos (by simp)]
    by_cases hc : c ≥ n
    · rw [if_pos hc, wr_wrs, Nat.sub_eq_zero_of_le hc]; simp
    · rw [if_neg hc]
      have := fun o => ih (a := a ++ [x]) (c := c + 1) (out := o)
      simp only [List.append_assoc, List.cons_append, List.nil_append, List.length_append, List.length_cons, List.length_nil] at this ⊢
      rw [rd_left]
      simp only [bind, Except.bind]
      have e : a.length + (p.length + 1) = a.length + (0 + 1) + p.length := by omega
      have e2 : n - c = (n - (c + 1)) + 1 := by omega
      rw [e2, List.take_succ_cons, List.cons_append, ← wr_then_wrs]
      simp only [bind, Except.bind]
      cases wr out c x with
      | error _ => rfl
      | ok o => dsimp only; rw [e]; exact this o

end Verif.Util
