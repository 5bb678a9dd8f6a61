import Verif.Cont.Str

/-!
C47: the string class agrees with character sequences and stays within its allocation.
-/
namespace Verif.CStr

open Verif.C

/-! ## Specification -/

/-- The string holds the text `t`, inside the array it allocated. -/
structure SRep (s : Str) (t : List Byte) : Prop where
  nonul : 0 ∉ t
  short : t.length < 2 ^ 63
  null : s.v = none → s.cap = 0 ∧ t = []
  arr : ∀ b, s.v = some b → b.length = s.cap ∧ IsStr b t
  cap : s.cap < 2 ^ 64

/-- The first index from `i` on with the character, `npos` if there is none. -/
def IsFirst (t : List Byte) (c : Byte) (i r : Nat) : Prop :=
  (r < t.length ∧ i ≤ r ∧ t[r]? = some c ∧ ∀ k, i ≤ k → k < r → t[k]? ≠ some c) ∨ (r = npos ∧ ∀ k, i ≤ k → t[k]? ≠ some c)

/-- The last index up to `i` with the character, `npos` if there is none. -/
def IsLast (t : List Byte) (c : Byte) (i r : Nat) : Prop :=
  (r ≤ i ∧ t[r]? = some c ∧ ∀ k, r < k → k ≤ i → t[k]? ≠ some c) ∨ (r = npos ∧ ∀ k, k ≤ i → t[k]? ≠ some c)

/-- Tab, line feed, vertical tab, form feed, carriage return, space. -/
def white (c : Byte) : Bool := decide (c ∈ [9, 10, 11, 12, 13, 32])

/-- White space removed from both ends. -/
def trimSpec (t : List Byte) : List Byte := ((t.dropWhile white).reverse.dropWhile white).reverse

theorem white_eq : white = isSpc := by
  funext c
  apply Bool.eq_iff_iff.2
  simp only [white, isSpc, List.mem_cons, List.not_mem_nil, or_false, decide_eq_true_eq, Bool.or_eq_true, beq_iff_eq]
  grind

/-! ## Lemmas -/

theorem SRep.init : SRep Str.init [] := ⟨by simp, by decide, fun _ => ⟨rfl, rfl⟩, by simp [Str.init], by decide⟩

theorem SRep.size {s : Str} {t : List Byte} (h : SRep s t) : s.size = .ok t.length := by
  unfold Str.size
  cases hv : s.v with
  | none => rw [(h.null hv).2]; rfl
  | some b => exact strlen_of (h.arr b hv).2

theorem SRep.cstr {s : Str} {t : List Byte} (h : SRep s t) : s.cstr = .ok t := by
  unfold Str.cstr
  cases hv : s.v with
  | none => rw [(h.null hv).2]
  | some b => exact cstr_of (h.arr b hv).2

theorem IsStr.length {b : Buf} {t : List Byte} (h : IsStr b t) : t.length + 1 ≤ b.length := by
  obtain ⟨r, rfl, _⟩ := h
  simp

theorem strcpy_at {b : Buf} {t u : List Byte} (h : IsStr b t) (hu : 0 ∉ u) (hl : t.length + u.length + 1 ≤ b.length) :
    ∃ b', strcpy b t.length u = .ok b' ∧ b'.length = b.length ∧ IsStr b' (t ++ u) := by
  obtain ⟨r, rfl, h0⟩ := h
  refine ⟨t ++ (u ++ [0]) ++ (t ++ 0 :: r).drop (t.length + (u ++ [0]).length), ?_, ?_, (t ++ 0 :: r).drop (t.length + (u ++ [0]).length), ?_, ?_⟩
  · unfold strcpy wrs
    rw [if_pos (by simp at hl ⊢; omega)]
    simp
  · simp at hl ⊢; omega
  · simp
  · simp [h0, hu]

theorem strcpy_fresh {b : Buf} {u : List Byte} (hu : 0 ∉ u) (hl : u.length + 1 ≤ b.length) :
    ∃ b', strcpy b 0 u = .ok b' ∧ b'.length = b.length ∧ IsStr b' u := by
  refine ⟨(u ++ [0]) ++ b.drop (u ++ [0]).length, ?_, ?_, b.drop (u ++ [0]).length, ?_, hu⟩
  · unfold strcpy wrs
    rw [if_pos (by simp; omega)]
    simp
  · simp; omega
  · simp

theorem newArr_length (junk : Nat → Byte) (n : Nat) : (newArr junk n).length = n := by simp [newArr]

/-- `Grow` with copying keeps the text and makes room. -/
theorem grow_copy (junk : Nat → Byte) {s : Str} {t : List Byte} {d : Nat} (h : SRep s t) (hd : 0 < d) (hd2 : d + 1 < 2 ^ 64) :
    ∃ s' b, s.grow junk d true = .ok s' ∧ SRep s' t ∧ d ≤ s'.cap ∧ s'.v = some b := by
  unfold Str.grow
  by_cases hc : d ≤ s.cap
  · rw [if_pos hc]
    cases hv : s.v with
    | none => have := (h.null hv).1; omega
    | some b => exact ⟨s, b, rfl, h, hc, hv⟩
  · rw [if_neg hc]
    have hsz : sz (d + 1) = d + 1 := Nat.mod_eq_of_lt hd2
    have hl := newArr_length junk (sz (d + 1))
    have fin : ∀ n' : Buf, n'.length = sz (d + 1) → IsStr n' t → SRep { v := some n', cap := sz (d + 1) } t := by
      intro n' e2 e3
      refine ⟨h.nonul, h.short, by simp, ?_, by show sz (d + 1) < 2 ^ 64; omega⟩
      intro b hb
      simp only [Option.some.injEq] at hb
      subst hb
      exact ⟨e2, e3⟩
    cases hv : s.v with
    | none =>
      obtain ⟨n', e1, e2, e3⟩ := strcpy_fresh (b := newArr junk (sz (d + 1))) (u := []) (by simp) (by simp only [List.length_nil]; omega)
      refine ⟨_, n', ?_, fin n' (e2.trans hl) (by rw [(h.null hv).2]; exact e3), by show d ≤ sz (d + 1); omega, rfl⟩
      dsimp only [bind, Except.bind]
      rw [e1]
    | some b =>
      have hb := h.arr b hv
      have := IsStr.length hb.2
      obtain ⟨n', e1, e2, e3⟩ := strcpy_fresh (b := newArr junk (sz (d + 1))) (u := t) h.nonul (by omega)
      refine ⟨_, n', ?_, fin n' (e2.trans hl) e3, by show d ≤ sz (d + 1); omega, rfl⟩
      dsimp only [bind, Except.bind]
      rw [if_pos rfl, cstr_of hb.2]
      dsimp only
      rw [e1]

/-- `Grow` without copying makes room. -/
theorem grow_nocopy (junk : Nat → Byte) {s : Str} {t : List Byte} {d : Nat} (h : SRep s t) (hd : 0 < d) (hd2 : d + 1 < 2 ^ 64) :
    ∃ s' b, s.grow junk d false = .ok s' ∧ s'.v = some b ∧ b.length = s'.cap ∧ d ≤ s'.cap ∧ s'.cap < 2 ^ 64 := by
  unfold Str.grow
  by_cases hc : d ≤ s.cap
  · rw [if_pos hc]
    cases hv : s.v with
    | none => have := (h.null hv).1; omega
    | some b => exact ⟨s, b, rfl, hv, (h.arr b hv).1, hc, h.cap⟩
  · rw [if_neg hc]
    have hsz : sz (d + 1) = d + 1 := Nat.mod_eq_of_lt hd2
    have hl := newArr_length junk (sz (d + 1))
    cases hv : s.v with
    | none =>
      obtain ⟨n', e1, e2, e3⟩ := strcpy_fresh (b := newArr junk (sz (d + 1))) (u := []) (by simp) (by simp only [List.length_nil]; omega)
      refine ⟨{ v := some n', cap := sz (d + 1) }, n', ?_, rfl, e2.trans hl, by show d ≤ sz (d + 1); omega, by show sz (d + 1) < 2 ^ 64; omega⟩
      dsimp only [bind, Except.bind]
      rw [e1]
    | some b =>
      exact ⟨{ v := some (newArr junk (sz (d + 1))), cap := sz (d + 1) }, _, rfl, rfl, hl, by show d ≤ sz (d + 1); omega, by show sz (d + 1) < 2 ^ 64; omega⟩

/-- Storing a new array with a text. -/
theorem SRep.of_buf {b : Buf} {t : List Byte} {cap : Nat} (h : IsStr b t) (hl : b.length = cap) (hs : t.length < 2 ^ 63) (hc : cap < 2 ^ 64) : SRep { v := some b, cap := cap } t :=
  ⟨by obtain ⟨r, _, h0⟩ := h; exact h0, hs, by simp, by intro b' hb'; simp only [Option.some.injEq] at hb'; subst hb'; exact ⟨hl, h⟩, hc⟩

/-! ## The claims -/

/-- C47: `append` appends. -/
theorem append_spec (junk : Nat → Byte) {s : Str} {t u : List Byte} (h : SRep s t) (hu : 0 ∉ u) (hl : t.length + u.length < 2 ^ 63) :
    ∃ s', s.append junk u = .ok s' ∧ SRep s' (t ++ u) := by
  unfold Str.append
  have hsz : sz (t.length + u.length + 1) = t.length + u.length + 1 := Nat.mod_eq_of_lt (by omega)
  obtain ⟨s1, b, e1, h1, hc, hv⟩ := grow_copy junk (d := sz (t.length + u.length + 1)) h (by omega) (by omega)
  obtain ⟨hb1, hb2⟩ := h1.arr b hv
  obtain ⟨b', e2, e3, e4⟩ := strcpy_at hb2 hu (by omega)
  refine ⟨{ s1 with v := some b' }, ?_, .of_buf e4 (e3.trans hb1) (by simp; omega) h1.cap⟩
  rw [h.size]
  simp only [bind, Except.bind]
  rw [e1]
  dsimp only
  rw [hv]
  dsimp only
  rw [strlen_of hb2]
  dsimp only
  rw [e2]

/-- C47: `append(char)` appends one character (nothing for NUL). -/
theorem appendC_spec (junk : Nat → Byte) {s : Str} {t : List Byte} (h : SRep s t) (c : Byte) (hl : t.length + 1 < 2 ^ 63) :
    ∃ s', s.appendC junk c = .ok s' ∧ SRep s' (if c = 0 then t else t ++ [c]) := by
  unfold Str.appendC
  have hsz : sz (t.length + 2) = t.length + 2 := Nat.mod_eq_of_lt (by omega)
  obtain ⟨s1, b, e1, h1, hc, hv⟩ := grow_copy junk (d := sz (t.length + 2)) h (by omega) (by omega)
  obtain ⟨hb1, r, rfl, h0⟩ := h1.arr b hv
  simp only [List.length_append, List.length_cons] at hb1
  match r with
  | [] => simp only [List.length_nil] at hb1; omega
  | x :: r' =>
    have w1 : wr (t ++ 0 :: x :: r') t.length c = .ok (t ++ c :: x :: r') := wr_left
    have w2 : wr (t ++ c :: x :: r') (t.length + 1) 0 = .ok (t ++ c :: 0 :: r') := by
      have := wr_left (a := t ++ [c]) (c := x) (d := 0) (r := r')
      simpa using this
    refine ⟨{ s1 with v := some (t ++ c :: 0 :: r') }, ?_, ?_⟩
    · rw [h.size]
      simp only [bind, Except.bind]
      rw [e1]
      dsimp only [vwr]
      rw [hv]
      dsimp only
      rw [w1]
      dsimp only
      rw [w2]
    · simp only [List.length_cons] at hb1
      split
      · next hc0 =>
        subst hc0
        exact .of_buf ⟨0 :: r', rfl, h0⟩ (by simp; omega) h.short h1.cap
      · next hc0 => exact .of_buf ⟨r', by simp, by simp [h0, Ne.symm hc0]⟩ (by simp; omega) (by simp; omega) h1.cap

/-- C47: `clear` empties. -/
theorem clear_spec {s : Str} {t : List Byte} (h : SRep s t) : ∃ s', s.clear = .ok s' ∧ SRep s' [] := by
  unfold Str.clear
  cases hv : s.v with
  | none =>
    have := (h.null hv).2
    subst this
    exact ⟨s, rfl, h⟩
  | some b =>
    obtain ⟨hb1, r, rfl, h0⟩ := h.arr b hv
    match t with
    | [] =>
      refine ⟨{ s with v := some (0 :: r) }, ?_, .of_buf ⟨r, rfl, by simp⟩ (by simpa using hb1) (by decide) h.cap⟩
      have : wr (0 :: r) 0 (0 : Byte) = .ok (0 :: r) := wr_left (a := [])
      simp only [bind, Except.bind, List.nil_append]
      rw [this]
    | x :: t' =>
      refine ⟨{ s with v := some (0 :: (t' ++ 0 :: r)) }, ?_, .of_buf ⟨t' ++ 0 :: r, rfl, by simp⟩ (by simpa using hb1) (by decide) h.cap⟩
      have : wr (x :: t' ++ 0 :: r) 0 (0 : Byte) = .ok (0 :: (t' ++ 0 :: r)) := wr_left (a := [])
      simp only [bind, Except.bind]
      rw [this]

/-- C47: `assign` sets the text; NULL clears. -/
theorem assign_spec (junk : Nat → Byte) {s : Str} {t : List Byte} (h : SRep s t) {u : List Byte} (hu : 0 ∉ u) (hl : u.length < 2 ^ 63) :
    ∃ s', s.assign junk (some u) = .ok s' ∧ SRep s' u := by
  unfold Str.assign
  have hsz : sz (u.length + 1) = u.length + 1 := Nat.mod_eq_of_lt (by omega)
  obtain ⟨s1, b, e1, hv, hb, hc, hcap⟩ := grow_nocopy junk (d := sz (u.length + 1)) h (by omega) (by omega)
  obtain ⟨b', e2, e3, e4⟩ := strcpy_fresh (b := b) (u := u) hu (by omega)
  refine ⟨{ s1 with v := some b' }, ?_, .of_buf e4 (e3.trans hb) hl hcap⟩
  simp only [bind, Except.bind]
  rw [e1]
  dsimp only
  rw [hv]
  dsimp only
  rw [e2]

theorem assign_null (junk : Nat → Byte) {s : Str} {t : List Byte} (h : SRep s t) : ∃ s', s.assign junk none = .ok s' ∧ SRep s' [] := clear_spec h

theorem strcmp_zero : ∀ {a b : List Byte}, strcmp a b = 0 ↔ a = b
  | [], [] => by simp [strcmp]
  | [], _ :: _ => by simp [strcmp]
  | _ :: _, [] => by simp [strcmp]
  | a :: as, b :: bs => by
    unfold strcmp
    by_cases h : a = b
    · rw [if_pos h, strcmp_zero, h]; simp
    · rw [if_neg h]
      split <;> simp [h]

theorem strcmp_neg : ∀ {a b : List Byte}, strcmp a b < 0 ↔ a < b
  | [], [] => by simp [strcmp]
  | [], _ :: _ => by simp [strcmp]
  | _ :: _, [] => by simp [strcmp]
  | a :: as, b :: bs => by
    unfold strcmp
    rw [List.cons_lt_cons_iff]
    by_cases h : a = b
    · rw [if_pos h, strcmp_neg, h]; simp
    · rw [if_neg h]
      split
      · next k => simp [k]
      · next k => simp [k, h]

/-- C47: `compare` is negative exactly if the text comes first in the order of its bytes as unsigned numbers. -/
theorem compare_order {s : Str} {t u : List Byte} (h : SRep s t) : ∃ r, s.compare u = .ok r ∧ (r < 0 ↔ t < u) := by
  refine ⟨strcmp t u, ?_, strcmp_neg⟩
  unfold Str.compare
  rw [h.cstr]
  rfl

/-- C47: `compare` is 0 exactly for the same text, and is `strcmp` of the text. -/
theorem compare_spec {s : Str} {t u : List Byte} (h : SRep s t) : ∃ r, s.compare u = .ok r ∧ r = strcmp t u ∧ (r = 0 ↔ t = u) := by
  refine ⟨strcmp t u, ?_, rfl, strcmp_zero⟩
  unfold Str.compare
  rw [h.cstr]
  rfl

/-- C47: `empty`. -/
theorem empty_spec {s : Str} {t : List Byte} (h : SRep s t) : s.empty = .ok (t.isEmpty) := by
  unfold Str.empty
  cases hv : s.v with
  | none => rw [(h.null hv).2]; rfl
  | some b =>
    obtain ⟨_, r, rfl, h0⟩ := h.arr b hv
    match t with
    | [] =>
      have : rd (0 :: r) 0 = .ok (0 : Byte) := rd_left (a := [])
      simp only [bind, Except.bind, List.nil_append]
      rw [this]
      rfl
    | x :: t' =>
      have : rd (x :: t' ++ 0 :: r) 0 = .ok x := rd_left (a := [])
      simp only [bind, Except.bind]
      rw [this]
      have hx : x ≠ 0 := fun e => h0 (by simp [e])
      simp [hx]

/-- Reading a character of the text. -/
theorem SRep.vrd {s : Str} {t : List Byte} (h : SRep s t) {i : Nat} (hi : i < t.length) : vrd s.v i = .ok t[i] := by
  unfold CStr.vrd
  cases hv : s.v with
  | none => have := (h.null hv).2; subst this; simp at hi
  | some b =>
    obtain ⟨_, r, rfl, _⟩ := h.arr b hv
    refine rd_get ?_
    rw [List.getElem?_append_left hi, List.getElem?_eq_getElem hi]

theorem findLoop_spec {s : Str} {t : List Byte} (h : SRep s t) (c : Byte) : ∀ (n i : Nat), i + n = t.length → ∃ r, findLoop s.v c n i = .ok r ∧ IsFirst t c i r := by
  intro n
  induction n with
  | zero =>
    intro i hi
    refine ⟨npos, rfl, .inr ⟨rfl, ?_⟩⟩
    intro k hk hc
    rw [List.getElem?_eq_none (by omega)] at hc
    cases hc
  | succ n ih =>
    intro i hi
    rw [findLoop, h.vrd (show i < t.length by omega)]
    simp only [bind, Except.bind]
    by_cases hc : t[i] = c
    · rw [if_pos hc]
      refine ⟨i, rfl, .inl ⟨by omega, Nat.le_refl _, by rw [List.getElem?_eq_getElem (by omega), hc], ?_⟩⟩
      intro k h1 h2
      omega
    · rw [if_neg hc]
      obtain ⟨r, e, hr⟩ := ih (i + 1) (by omega)
      refine ⟨r, e, ?_⟩
      have hni : t[i]? ≠ some c := by
        rw [List.getElem?_eq_getElem (by omega)]
        simpa using hc
      rcases hr with ⟨h1, h2, h3, h4⟩ | ⟨h1, h2⟩
      · refine .inl ⟨h1, by omega, h3, ?_⟩
        intro k hk1 hk2
        by_cases e : k = i
        · rw [e]; exact hni
        · exact h4 k (by omega) hk2
      · refine .inr ⟨h1, ?_⟩
        intro k hk
        by_cases e : k = i
        · rw [e]; exact hni
        · exact h2 k (by omega)

/-- C47: `find` gives the first position from the index on, for every index. -/
theorem find_spec {s : Str} {t : List Byte} (h : SRep s t) (c : Byte) (index : Nat) : ∃ r, s.find c index = .ok r ∧ IsFirst t c index r := by
  unfold Str.find
  rw [h.size]
  simp only [bind, Except.bind]
  have hout : t.length ≤ index → IsFirst t c index npos := by
    intro hi
    refine .inr ⟨rfl, ?_⟩
    intro k hk hc
    rw [List.getElem?_eq_none (by omega)] at hc
    cases hc
  by_cases h1 : t.length < 1
  · rw [if_pos h1]; exact ⟨npos, rfl, hout (by omega)⟩
  · rw [if_neg h1]
    by_cases h2 : index ≥ t.length
    · rw [if_pos h2]; exact ⟨npos, rfl, hout h2⟩
    · rw [if_neg h2]; exact findLoop_spec h c _ _ (by omega)

theorem findLastLoop_spec {s : Str} {t : List Byte} (h : SRep s t) (c : Byte) : ∀ (n : Nat), n < t.length → ∃ r, findLastLoop s.v c (n + 1) = .ok r ∧ IsLast t c n r := by
  intro n
  induction n with
  | zero =>
    intro hn
    rw [findLastLoop, h.vrd hn]
    simp only [bind, Except.bind, findLastLoop]
    by_cases hc : t[0] = c
    · rw [if_pos hc]
      exact ⟨0, rfl, .inl ⟨Nat.le_refl _, by rw [List.getElem?_eq_getElem hn, hc], fun k h1 h2 => by omega⟩⟩
    · rw [if_neg hc]
      refine ⟨npos, rfl, .inr ⟨rfl, ?_⟩⟩
      intro k hk
      have : k = 0 := by omega
      subst this
      rw [List.getElem?_eq_getElem hn]
      simpa using hc
  | succ n ih =>
    intro hn
    rw [findLastLoop, h.vrd hn]
    simp only [bind, Except.bind]
    by_cases hc : t[n + 1] = c
    · rw [if_pos hc]
      exact ⟨n + 1, rfl, .inl ⟨Nat.le_refl _, by rw [List.getElem?_eq_getElem hn, hc], fun k h1 h2 => by omega⟩⟩
    · rw [if_neg hc]
      obtain ⟨r, e, hr⟩ := ih (by omega)
      refine ⟨r, e, ?_⟩
      have hni : t[n + 1]? ≠ some c := by
        rw [List.getElem?_eq_getElem hn]
        simpa using hc
      rcases hr with ⟨h1, h2, h3⟩ | ⟨h1, h2⟩
      · refine .inl ⟨by omega, h2, ?_⟩
        intro k hk1 hk2
        by_cases e : k = n + 1
        · rw [e]; exact hni
        · exact h3 k hk1 (by omega)
      · refine .inr ⟨h1, ?_⟩
        intro k hk
        by_cases e : k = n + 1
        · rw [e]; exact hni
        · exact h2 k (by omega)

/-- C47: `find_last_of` with an index inside the text gives the last position up to it. -/
theorem findLastOf_spec {s : Str} {t : List Byte} (h : SRep s t) (c : Byte) {index : Nat} (hi : index < t.length) : ∃ r, s.findLastOf c index = .ok r ∧ IsLast t c index r := by
  unfold Str.findLastOf
  rw [h.size]
  simp only [bind, Except.bind]
  have hs := h.short
  rw [if_neg (by omega), if_neg (by omega), if_neg (by unfold npos; omega)]
  exact findLastLoop_spec h c index hi

/-- Without an index (`npos`) it never finds anything. -/
theorem findLastOf_default {s : Str} {t : List Byte} (h : SRep s t) (c : Byte) : s.findLastOf c npos = .ok npos := by
  unfold Str.findLastOf
  rw [h.size]
  simp only [bind, Except.bind]
  have hs := h.short
  split
  · rfl
  · rw [if_pos (by unfold npos; omega)]

/-- C47: `at`. -/
theorem at_spec {s : Str} {t : List Byte} (h : SRep s t) (i : Nat) : s.at_ i = .ok (match t[i]? with | some c => charInt c | none => -1) := by
  unfold Str.at_
  rw [h.size]
  simp only [bind, Except.bind]
  by_cases hi : i ≥ t.length
  · rw [if_pos hi, List.getElem?_eq_none hi]
  · rw [if_neg hi, h.vrd (by omega), List.getElem?_eq_getElem (by omega)]

/-- C47: setting a character (not NUL) inside the text. -/
theorem setAt_spec {s : Str} {t : List Byte} (h : SRep s t) (i : Nat) {c : Byte} (hc : c ≠ 0) : ∃ s', s.setAt i c = .ok (s', decide (i < t.length)) ∧ SRep s' (t.set i c) := by
  unfold Str.setAt
  rw [h.size]
  simp only [bind, Except.bind]
  by_cases hi : i ≥ t.length
  · rw [if_pos hi]
    refine ⟨s, by simp; omega, ?_⟩
    rw [List.set_eq_of_length_le hi]; exact h
  · rw [if_neg hi]
    cases hv : s.v with
    | none => have := (h.null hv).2; subst this; simp at hi
    | some b =>
      obtain ⟨hb, r, rfl, h0⟩ := h.arr b hv
      refine ⟨{ s with v := some (t.set i c ++ 0 :: r) }, ?_, .of_buf ⟨r, rfl, ?_⟩ (by simpa using hb) (by simpa using h.short) h.cap⟩
      · unfold vwr wr
        dsimp only
        rw [if_pos (by simp; omega)]
        dsimp only
        rw [List.set_append_left _ _ (by omega)]
        simp; omega
      · intro hm
        rcases List.mem_or_eq_of_mem_set hm with hm | hm
        · exact h0 hm
        · exact hc hm.symm

/-! ### erase -/

theorem isStr_of_get {b : Buf} {t : List Byte} (h1 : ∀ k, k < t.length → b[k]? = t[k]?) (h2 : b[t.length]? = some 0) (h3 : 0 ∉ t) : IsStr b t := by
  obtain ⟨hl, h2'⟩ := List.getElem?_eq_some_iff.1 h2
  refine ⟨b.drop (t.length + 1), ?_, h3⟩
  have e : b.take t.length = t := by
    apply List.ext_getElem?
    intro k
    by_cases hk : k < t.length
    · rw [List.getElem?_take_of_lt hk, h1 k hk]
    · rw [List.getElem?_eq_none (by simp; omega), List.getElem?_eq_none (by omega)]
  rw [← h2', ← List.drop_eq_getElem_cons hl]
  conv => lhs; rw [← List.take_append_drop t.length b, e]

/-- The array while `erase` moves characters: those from `start` to `i` are done. -/
def Moved (orig : Buf) (start num len i : Nat) (b : Buf) : Prop :=
  b.length = orig.length ∧ ∀ k, b[k]? = if start ≤ k ∧ k < i then (if k + num < len then orig[k + num]? else some 0) else orig[k]?

theorem eraseLoop_spec {orig : Buf} {start num len : Nat} (hs : start + num ≤ len) (hlen : len < orig.length) (hshort : len < 2 ^ 63) : ∀ (n i : Nat) (b : Buf), i + n = len →
    Moved orig start num len i b → ∃ b', eraseLoop start num len n i (decide (start < i ∧ 0 < num)) b = .ok b' ∧ Moved orig start num len len b' := by
  intro n
  induction n with
  | zero =>
    intro i b hi hm
    refine ⟨b, rfl, ?_⟩
    rw [show len = i by omega]
    rw [show len = i by omega] at hm
    exact hm
  | succ n ih =>
    intro i b hi hm
    have hz1 : sz (start + num) = start + num := Nat.mod_eq_of_lt (by omega)
    have hz2 : sz (i + num) = i + num := Nat.mod_eq_of_lt (by omega)
    rw [eraseLoop, hz1, hz2]
    by_cases hc : start ≤ i ∧ 0 < num
    · rw [if_pos (by
        by_cases h1 : start < i
        · right; simp [h1, hc.2]
        · left; omega)]
      have hflag : (true : Bool) = decide (start < i + 1 ∧ 0 < num) := by
        symm; rw [decide_eq_true_eq]; exact ⟨by omega, hc.2⟩
      have hset : ∀ c : Byte, (if i + num < len then orig[i + num]? else some 0) = some c → Moved orig start num len (i + 1) (b.set i c) := by
        intro c hcv
        refine ⟨by rw [List.length_set, hm.1], ?_⟩
        intro k
        by_cases hk : k = i
        · subst hk
          rw [List.getElem?_set_self (by rw [hm.1]; omega), if_pos ⟨hc.1, by omega⟩]
          exact hcv.symm
        · rw [List.getElem?_set_ne (fun e => hk e.symm), hm.2 k]
          by_cases hk2 : start ≤ k ∧ k < i
          · rw [if_pos hk2, if_pos (show start ≤ k ∧ k < i + 1 from ⟨hk2.1, by omega⟩)]
          · rw [if_neg hk2, if_neg (by omega)]
      by_cases hin : i + num < len
      · rw [if_pos hin]
        have hget : b[i + num]? = some (orig[i + num]'(by omega)) := by
          rw [hm.2, if_neg (by omega), List.getElem?_eq_getElem]
        simp only [bind, Except.bind]
        rw [rd_get hget]
        dsimp only
        unfold wr
        rw [if_pos (by rw [hm.1]; omega)]
        dsimp only
        rw [hflag]
        exact ih (i + 1) _ (by omega) (hset _ (by rw [if_pos hin, List.getElem?_eq_getElem]))
      · rw [if_neg hin]
        simp only [bind, Except.bind]
        unfold wr
        rw [if_pos (by rw [hm.1]; omega)]
        dsimp only
        rw [hflag]
        exact ih (i + 1) _ (by omega) (hset _ (by rw [if_neg hin]))
    · rw [if_neg (by
        rintro (h1 | h1)
        · exact hc ⟨h1.1, by omega⟩
        · rw [decide_eq_true_eq] at h1; exact hc ⟨by omega, h1.2⟩)]
      have hflag : decide (start < i ∧ 0 < num) = decide (start < i + 1 ∧ 0 < num) := by
        by_cases h0 : 0 < num
        · have hlt : ¬start ≤ i := fun h => hc ⟨h, h0⟩
          rw [decide_eq_false (by omega), decide_eq_false (by omega)]
        · rw [decide_eq_false (by omega), decide_eq_false (by omega)]
      rw [hflag]
      refine ih (i + 1) b (by omega) ⟨hm.1, ?_⟩
      intro k
      rw [hm.2 k]
      by_cases hk : k = i
      · subst hk
        rw [if_neg (by omega)]
        by_cases h1 : start ≤ k
        · have h0 : num = 0 := by
            rcases Nat.eq_zero_or_pos num with h0 | h0
            · exact h0
            · exact absurd ⟨h1, h0⟩ hc
          subst h0
          rw [if_pos ⟨h1, by omega⟩, if_pos (by omega)]
          rfl
        · rw [if_neg (by omega)]
      · by_cases hk2 : start ≤ k ∧ k < i
        · rw [if_pos hk2, if_pos (show start ≤ k ∧ k < i + 1 from ⟨hk2.1, by omega⟩)]
        · rw [if_neg hk2, if_neg (by omega)]

/-- The number of characters `erase` removes. -/
def eraseNum (len start num : Nat) : Nat := if num = npos ∨ start + num > len - start then len - start else num

/-- What `erase` does, for a start inside the text: it removes `num` characters if `start + num` is at most `len - start`, else all from `start` on. -/
theorem erase_actual {s : Str} {t : List Byte} (h : SRep s t) {start num : Nat} (h1 : start ≤ t.length) (h2 : num = npos ∨ start + num < 2 ^ 64) :
    ∃ s', s.erase start num = .ok s' ∧ SRep s' (t.take start ++ t.drop (start + eraseNum t.length start num)) := by
  have hshort := h.short
  unfold Str.erase
  cases hv : s.v with
  | none =>
    have := (h.null hv).2
    subst this
    exact ⟨s, rfl, by simpa using h⟩
  | some b =>
    obtain ⟨hb, hstr⟩ := h.arr b hv
    have hlen := IsStr.length hstr
    simp only [bind, Except.bind]
    rw [strlen_of hstr]
    dsimp only
    have hsub : szSub t.length start = t.length - start := by
      unfold szSub
      exact if_pos (by omega)
    have hnum : eraseClamp t.length start num = eraseNum t.length start num := by
      unfold eraseClamp eraseNum
      rw [hsub]
      rcases h2 with h2 | h2
      · rw [if_pos (.inl h2), if_pos (.inl h2)]
      · rw [show sz (start + num) = start + num from Nat.mod_eq_of_lt h2]
    rw [hnum]
    have hle : start + eraseNum t.length start num ≤ t.length := by
      unfold eraseNum
      split <;> omega
    generalize eraseNum t.length start num = m at hle
    unfold Str.eraseN
    simp only [bind, Except.bind]
    obtain ⟨b', e1, hl, hmv⟩ := eraseLoop_spec (orig := b) hle (by omega) hshort t.length 0 b (by omega) ⟨rfl, fun k => by rw [if_neg (by omega)]⟩
    rw [show decide (start < 0 ∧ 0 < m) = false from decide_eq_false (by omega)] at e1
    rw [e1]
    dsimp only
    have hsub2 : szSub t.length m = t.length - m := by
      unfold szSub
      exact if_pos (by omega)
    rw [hsub2]
    unfold wr
    rw [if_pos (by omega)]
    refine ⟨{ s with v := some (b'.set (t.length - m) 0) }, rfl, .of_buf (isStr_of_get ?_ ?_ ?_) (by rw [List.length_set, hl, hb]) (by simp; omega) h.cap⟩
    · intro k hk
      simp only [List.length_append, List.length_take, List.length_drop] at hk
      rw [List.getElem?_set_ne (by omega), hmv k]
      have ht : ∀ x, x < t.length → b[x]? = t[x]? := by
        obtain ⟨r, rfl, _⟩ := hstr
        intro x hx
        exact List.getElem?_append_left hx
      by_cases hks : k < start
      · rw [if_neg (by omega), ht k (by omega), List.getElem?_append_left (by simp; omega), List.getElem?_take_of_lt hks]
      · rw [if_pos ⟨by omega, by omega⟩, if_pos (by omega), ht _ (by omega), List.getElem?_append_right (by simp; omega), List.getElem?_drop]
        congr 1
        simp; omega
    · rw [List.length_append, List.length_take, List.length_drop, Nat.min_eq_left h1]
      rw [show start + (t.length - (start + m)) = t.length - m by omega]
      exact List.getElem?_set_self (by omega)
    · intro hm
      rcases List.mem_append.1 hm with hm | hm
      · exact h.nonul (List.mem_of_mem_take hm)
      · exact h.nonul (List.mem_of_mem_drop hm)

/-- C47: `erase` removes the characters asked for, when it is to the end or the characters kept after them are at least `start` many.
For other arguments the claim is false: `erase_removes_too_much`, `erase_past_end`, `erase_overruns`. -/
theorem erase_partial {s : Str} {t : List Byte} (h : SRep s t) {start num : Nat} (h1 : start ≤ t.length)
    (h2 : num = npos ∨ start + num < 2 ^ 64 ∧ (2 * start + num ≤ t.length ∨ t.length ≤ start + num)) :
    ∃ s', s.erase start num = .ok s' ∧ SRep s' (t.take start ++ t.drop (start + num)) := by
  obtain ⟨s', e, hr⟩ := erase_actual h h1 (h2.imp_right And.left)
  refine ⟨s', e, ?_⟩
  have hs := h.short
  have : t.drop (start + eraseNum t.length start num) = t.drop (start + num) := by
    unfold eraseNum
    split
    · next hc =>
      have hn : t.length ≤ start + num := by
        rcases h2 with h2 | h2
        · rw [h2]; unfold npos; omega
        · rcases hc with hc | hc
          · rw [hc]; unfold npos; omega
          · omega
      rw [List.drop_eq_nil_of_le (by omega), List.drop_eq_nil_of_le hn]
    · rfl
  rw [← this]; exact hr

/-! ### trim -/

/-- White space removed from the end. -/
def rtrim (t : List Byte) : List Byte := (t.reverse.dropWhile isSpc).reverse

theorem dropWhile_all {l : List Byte} {p : Byte → Bool} (h : ∀ x ∈ l, p x = true) : l.dropWhile p = [] := by
  induction l with
  | nil => rfl
  | cons a l ih => rw [List.dropWhile_cons, if_pos (h a (by simp)), ih (fun x hx => h x (List.mem_cons_of_mem _ hx))]

theorem dropWhile_append_all {l m : List Byte} {p : Byte → Bool} (h : ∀ x ∈ l, p x = true) : (l ++ m).dropWhile p = m.dropWhile p := by
  induction l with
  | nil => rfl
  | cons a l ih => rw [List.cons_append, List.dropWhile_cons, if_pos (h a (by simp)), ih (fun x hx => h x (List.mem_cons_of_mem _ hx))]

theorem rtrim_append {a sp : List Byte} (hsp : ∀ x ∈ sp, isSpc x = true) : rtrim (a ++ sp) = rtrim a := by
  unfold rtrim
  rw [List.reverse_append, dropWhile_append_all (by simpa using hsp)]

theorem rtrim_last {a : List Byte} {c : Byte} (hc : isSpc c = false) : rtrim (a ++ [c]) = a ++ [c] := by
  unfold rtrim
  rw [List.reverse_append, List.reverse_singleton, List.singleton_append, List.dropWhile_cons, if_neg (by simp [hc])]
  simp

theorem trimBwd_spec {t r : List Byte} : ∀ (n j : Nat), 0 < n → n ≤ t.length →
    ∃ i, trimBwd (t ++ 0 :: r) n j = .ok (some (i + 1, j + (n - 1 - i))) ∧ i < n ∧ (∀ x, i < x → x < n → ∃ c, t[x]? = some c ∧ isSpc c = true) ∧
      (i = 0 ∨ ∃ c, t[i]? = some c ∧ isSpc c = false) := by
  intro n
  induction n with
  | zero => intro j hn; omega
  | succ n ih =>
    intro j _ hn
    have hget : (t ++ 0 :: r)[n]? = some (t[n]'(by omega)) := by rw [List.getElem?_append_left (by omega), List.getElem?_eq_getElem]
    have hget' : t[n]? = some (t[n]'(by omega)) := List.getElem?_eq_getElem _
    rw [trimBwd, rd_get hget]
    simp only [bind, Except.bind]
    by_cases hc : isSpc (t[n]'(by omega)) = true
    · by_cases hn0 : n = 0
      · subst hn0
        rw [if_pos (by simp [hc])]
        exact ⟨0, by simp, by omega, fun x h1 h2 => by omega, .inl rfl⟩
      · rw [if_neg (by simp [hc, hn0])]
        obtain ⟨i, e, h1, h2, h3⟩ := ih (j + 1) (by omega) (by omega)
        refine ⟨i, by rw [e, show j + 1 + (n - 1 - i) = j + (n + 1 - 1 - i) by omega], by omega, ?_, h3⟩
        intro x hx1 hx2
        by_cases hxn : x = n
        · subst hxn; exact ⟨_, hget', hc⟩
        · exact h2 x hx1 (by omega)
    · rw [if_pos (by simp [hc])]
      exact ⟨n, by simp, by omega, fun x h1 h2 => by omega, .inr ⟨_, hget', by simpa using hc⟩⟩

theorem trimFwd_spec {t r : List Byte} : ∀ (n i : Nat), i + n = t.length → 0 < n →
    ∃ k, trimFwd (t ++ 0 :: r) t.length n i = .ok (some k) ∧ i ≤ k ∧ k < t.length ∧ (∀ x, i ≤ x → x < k → ∃ c, t[x]? = some c ∧ isSpc c = true) ∧
      (k + 1 = t.length ∨ ∃ c, t[k]? = some c ∧ isSpc c = false) := by
  intro n
  induction n with
  | zero => intro i _ hn; omega
  | succ n ih =>
    intro i hi _
    have hget : (t ++ 0 :: r)[i]? = some (t[i]'(by omega)) := by rw [List.getElem?_append_left (by omega), List.getElem?_eq_getElem]
    have hget' : t[i]? = some (t[i]'(by omega)) := List.getElem?_eq_getElem _
    rw [trimFwd, rd_get hget]
    simp only [bind, Except.bind]
    by_cases hc : isSpc (t[i]'(by omega)) = true
    · by_cases hl : i = t.length - 1
      · rw [if_pos (by simp [hl])]
        exact ⟨i, rfl, Nat.le_refl _, by omega, fun x h1 h2 => by omega, .inl (by omega)⟩
      · rw [if_neg (by simp [hc, hl])]
        obtain ⟨k, e, h1, h2, h3, h4⟩ := ih (i + 1) (by omega) (by omega)
        refine ⟨k, e, by omega, h2, ?_, h4⟩
        intro x hx1 hx2
        by_cases hxi : x = i
        · subst hxi; exact ⟨_, hget', hc⟩
        · exact h3 x (by omega) hx2
    · rw [if_pos (by simp [hc])]
      exact ⟨i, rfl, Nat.le_refl _, by omega, fun x h1 h2 => by omega, .inr ⟨_, hget', by simpa using hc⟩⟩

theorem trimEnd_spec {s : Str} {t : List Byte} (h : SRep s t) (hv : s.v ≠ none) (ht : t.length ≤ 1 ∨ ∃ c, t[0]? = some c ∧ isSpc c = false) :
    ∃ s', s.trimEnd = .ok s' ∧ SRep s' (rtrim t) := by
  unfold Str.trimEnd
  cases hb : s.v with
  | none => exact absurd hb hv
  | some b =>
    obtain ⟨hcap, hstr⟩ := h.arr b hb
    simp only [bind, Except.bind]
    rw [strlen_of hstr]
    dsimp only
    by_cases h1 : t.length < 1
    · rw [if_pos h1]
      have : t = [] := List.eq_nil_of_length_eq_zero (by omega)
      subst this
      exact ⟨s, rfl, h⟩
    · rw [if_neg h1]
      obtain ⟨r, rfl, h0⟩ := hstr
      have hne : t ≠ [] := by intro e; subst e; simp at h1
      have hlast : (t ++ 0 :: r)[t.length - 1]? = some (t[t.length - 1]'(by omega)) := by rw [List.getElem?_append_left (by omega), List.getElem?_eq_getElem]
      rw [rd_get hlast]
      dsimp only
      have hsplit : t = t.take (t.length - 1) ++ [t[t.length - 1]'(by omega)] := by
        conv => lhs; rw [← List.take_append_drop (t.length - 1) t]
        congr 1
        rw [List.drop_eq_getElem_cons (by omega), List.drop_eq_nil_of_le (by omega)]
      by_cases hc : isSpc (t[t.length - 1]'(by omega)) = true
      · rw [if_pos hc]
        obtain ⟨i, e, hi, hsp, hend⟩ := trimBwd_spec (r := r) t.length 0 (by omega) (Nat.le_refl _)
        rw [e]
        dsimp only
        have hs := h.short
        obtain ⟨s1, e1, h1r⟩ := erase_actual h (start := i + 1) (num := 0 + (t.length - 1 - i)) (by omega) (.inr (by omega))
        have hem : t.drop (i + 1 + eraseNum t.length (i + 1) (0 + (t.length - 1 - i))) = [] := by
          unfold eraseNum
          split <;> exact List.drop_eq_nil_of_le (by omega)
        rw [hem, List.append_nil] at h1r
        rw [e1]
        dsimp only
        have hdrop : ∀ x ∈ t.drop (i + 1), isSpc x = true := by
          intro x hx
          obtain ⟨k, hk, rfl⟩ := List.mem_iff_getElem.1 hx
          rw [List.length_drop] at hk
          obtain ⟨c, h2, h3⟩ := hsp (i + 1 + k) (by omega) (by omega)
          rw [List.getElem_drop]
          rw [List.getElem?_eq_getElem (by omega), Option.some.injEq] at h2
          rw [h2]; exact h3
        have hrt : rtrim t = rtrim (t.take (i + 1)) := by
          conv => lhs; rw [← List.take_append_drop (i + 1) t]
          exact rtrim_append hdrop
        have htake : ∀ c, t[i]? = some c → t.take (i + 1) = t.take i ++ [c] := by
          intro c hc'
          rw [List.take_add_one, hc']; rfl
        by_cases hl1 : t.length = 1
        · rw [if_pos hl1]
          have hi0 : i = 0 := by omega
          subst hi0
          have htk : t.take (0 + 1) = t := List.take_of_length_le (by omega)
          rw [htk] at h1r
          rw [h1r.vrd (show 0 < t.length by omega)]
          dsimp only
          have hc0 : isSpc (t[0]'(by omega)) = true := by
            have : t.length - 1 = 0 := by omega
            simp only [this] at hc
            exact hc
          rw [if_pos hc0]
          obtain ⟨s2, e2, h2r⟩ := clear_spec h1r
          refine ⟨s2, e2, ?_⟩
          have : rtrim t = [] := by
            unfold rtrim
            rw [dropWhile_all]
            · rfl
            · intro x hx
              rw [List.mem_reverse] at hx
              obtain ⟨k, hk, rfl⟩ := List.mem_iff_getElem.1 hx
              have : k = 0 := by omega
              subst this
              exact hc0
          rw [this]; exact h2r
        · rw [if_neg hl1]
          refine ⟨s1, rfl, ?_⟩
          have hnsp : ∃ c, t[i]? = some c ∧ isSpc c = false := by
            rcases hend with hend | hend
            · rcases ht with ht | ht
              · omega
              · rw [hend]; exact ht
            · exact hend
          obtain ⟨c, hc1, hc2⟩ := hnsp
          rw [hrt, htake c hc1, rtrim_last hc2, ← htake c hc1]
          exact h1r
      · rw [if_neg hc]
        have hrt : rtrim t = t := by
          conv => lhs; rw [hsplit]
          rw [rtrim_last (by simpa using hc), ← hsplit]
        by_cases hl1 : t.length = 1
        · rw [if_pos hl1, h.vrd (show 0 < t.length by omega)]
          dsimp only
          have hc0 : ¬isSpc (t[0]'(by omega)) = true := by
            have : t.length - 1 = 0 := by omega
            simp only [this] at hc
            exact hc
          rw [if_neg hc0]
          exact ⟨s, rfl, by rw [hrt]; exact h⟩
        · rw [if_neg hl1]
          exact ⟨s, rfl, by rw [hrt]; exact h⟩

/-- `erase` keeps the array. -/
theorem erase_v {s s' : Str} {start num : Nat} (hv : s.v ≠ none) (e : s.erase start num = .ok s') : s'.v ≠ none := by
  unfold Str.erase at e
  cases hb : s.v with
  | none => exact absurd hb hv
  | some b =>
    rw [hb] at e
    simp only [bind, Except.bind] at e
    split at e
    · cases e
    · unfold Str.eraseN at e
      simp only [bind, Except.bind] at e
      split at e
      · cases e
      · split at e
        · cases e
        · cases e; simp

/-- C47: `trim` removes the white space at both ends, for every text. -/
theorem trim_spec {s : Str} {t : List Byte} (h : SRep s t) : ∃ s', s.trim = .ok s' ∧ SRep s' (trimSpec t) := by
  unfold Str.trim
  cases hb : s.v with
  | none =>
    have := (h.null hb).2
    subst this
    exact ⟨s, rfl, h⟩
  | some b =>
    have hv : s.v ≠ none := by rw [hb]; simp
    obtain ⟨hcap, r, rfl, h0⟩ := h.arr b hb
    simp only [bind, Except.bind]
    rw [strlen_of ⟨r, rfl, h0⟩]
    dsimp only
    match t, h, h0 with
    | [], h, h0 =>
      have hr : rd ([] ++ 0 :: r) 0 = .ok (0 : Byte) := rd_left (a := [])
      rw [hr]
      dsimp only
      rw [if_neg (by simp), if_neg (by decide)]
      exact trimEnd_spec h hv (.inl (by simp))
    | x :: t', h, h0 =>
      have hr : rd (x :: t' ++ 0 :: r) 0 = .ok x := rd_left (a := [])
      rw [hr]
      dsimp only
      by_cases hx : isSpc x = true
      · by_cases hl1 : (x :: t').length = 1
        · rw [if_pos ⟨hl1, hx⟩]
          obtain ⟨s', e, hr'⟩ := clear_spec h
          refine ⟨s', e, ?_⟩
          have : t' = [] := by simpa using hl1
          subst this
          have : trimSpec [x] = [] := by simp [trimSpec, white_eq, hx]
          rw [this]; exact hr'
        · rw [if_neg (fun hc => hl1 hc.1), if_pos hx]
          obtain ⟨k, e, _, hk, hsp, hend⟩ := trimFwd_spec (t := x :: t') (r := r) (x :: t').length 0 (by omega) (by simp)
          rw [e]
          dsimp only
          have hs := h.short
          obtain ⟨s1, e1, h1⟩ := erase_actual h (start := 0) (num := k) (by omega) (.inr (by omega))
          have hen : eraseNum (x :: t').length 0 k = k := by
            unfold eraseNum
            rw [if_neg]
            unfold npos
            omega
          rw [hen, List.take_zero, List.nil_append, Nat.zero_add] at h1
          rw [e1]
          dsimp only
          have hlen : ((x :: t').drop k).length = (x :: t').length - k := List.length_drop
          obtain ⟨s2, e2, h2⟩ := trimEnd_spec h1 (erase_v hv e1) (by
            rcases hend with hend | ⟨c, h2, h3⟩
            · exact .inl (by omega)
            · exact .inr ⟨c, by rw [List.getElem?_drop]; exact h2, h3⟩)
          refine ⟨s2, e2, ?_⟩
          have htake : ∀ y ∈ (x :: t').take k, isSpc y = true := by
            intro y hy
            obtain ⟨m, hm, rfl⟩ := List.mem_iff_getElem.1 hy
            rw [List.length_take] at hm
            obtain ⟨c, h2, h3⟩ := hsp m (by omega) (by omega)
            rw [List.getElem_take]
            rw [List.getElem?_eq_getElem (by omega), Option.some.injEq] at h2
            rw [h2]; exact h3
          have hdw : (x :: t').dropWhile isSpc = ((x :: t').drop k).dropWhile isSpc := by
            conv => lhs; rw [← List.take_append_drop k (x :: t')]
            exact dropWhile_append_all htake
          have : trimSpec (x :: t') = rtrim ((x :: t').drop k) := by
            unfold trimSpec; rw [white_eq]
            rw [hdw]
            have hd : (x :: t').drop k = (x :: t')[k] :: (x :: t').drop (k + 1) := List.drop_eq_getElem_cons hk
            by_cases hck : isSpc ((x :: t')[k]) = true
            · have hk1 : k + 1 = (x :: t').length := by
                rcases hend with hend | ⟨c, h2, h3⟩
                · exact hend
                · rw [List.getElem?_eq_getElem hk, Option.some.injEq] at h2
                  rw [h2, h3] at hck
                  cases hck
              rw [hd, List.drop_eq_nil_of_le (by omega)]
              simp only [rtrim, List.reverse_singleton, List.dropWhile_cons, hck, if_true, List.dropWhile_nil, List.reverse_nil]
            · rw [hd, List.dropWhile_cons, if_neg hck]
              rfl
          rw [this]; exact h2
      · rw [if_neg (fun hc => hx hc.2), if_neg hx]
        obtain ⟨s', e, hr'⟩ := trimEnd_spec h hv (.inr ⟨x, rfl, by simpa using hx⟩)
        refine ⟨s', e, ?_⟩
        have : trimSpec (x :: t') = rtrim (x :: t') := by
          unfold trimSpec; rw [white_eq]
          rw [List.dropWhile_cons, if_neg hx]
          rfl
        rw [this]; exact hr'

/-! ### substr -/

theorem substrLoop_spec (junk : Nat → Byte) {t r : List Byte} (h0 : 0 ∉ t) (hs : t.length < 2 ^ 63) : ∀ (n i : Nat) (ns : Str) (w : List Byte), i + n ≤ t.length → w.length ≤ i → SRep ns w →
    ∃ ns', substrLoop junk (t ++ 0 :: r) n i ns = .ok ns' ∧ SRep ns' (w ++ (t.drop i).take n) := by
  intro n
  induction n with
  | zero =>
    intro i ns w hi hw h
    exact ⟨ns, rfl, by simpa using h⟩
  | succ n ih =>
    intro i ns w hi hw h
    have hget : (t ++ 0 :: r)[i]? = some (t[i]'(by omega)) := by rw [List.getElem?_append_left (by omega), List.getElem?_eq_getElem]
    rw [substrLoop, rd_get hget]
    simp only [bind, Except.bind]
    obtain ⟨ns1, e1, h1⟩ := appendC_spec junk h (t[i]'(by omega)) (by omega)
    have hne : t[i]'(by omega) ≠ 0 := fun e => h0 (by rw [← e]; exact List.getElem_mem _)
    rw [if_neg hne] at h1
    rw [e1]
    dsimp only
    obtain ⟨ns2, e2, h2⟩ := ih (i + 1) ns1 _ (by omega) (by simp; omega) h1
    refine ⟨ns2, e2, ?_⟩
    rw [List.drop_eq_getElem_cons (show i < t.length by omega), List.take_succ_cons]
    simpa using h2

/-- C47: `substr` gives the characters asked for, as far as the text goes.  The sum of the arguments must not wrap (`substr_wraps`, `substr_overruns`). -/
theorem substr_spec (junk : Nat → Byte) {s : Str} {t : List Byte} (h : SRep s t) {index num : Nat} (hn : num = npos ∨ index + num < 2 ^ 64) :
    ∃ s', s.substr junk index num = .ok s' ∧ SRep s' ((t.drop index).take num) := by
  have hs := h.short
  unfold Str.substr
  cases hb : s.v with
  | none =>
    have := (h.null hb).2
    subst this
    simpa using assign_spec junk SRep.init (u := []) (by simp) (by decide)
  | some b =>
    obtain ⟨hcap, r, rfl, h0⟩ := h.arr b hb
    simp only [bind, Except.bind]
    rw [strlen_of ⟨r, rfl, h0⟩]
    dsimp only
    by_cases hi : index ≥ t.length
    · rw [if_pos hi]
      refine ⟨_, rfl, ?_⟩
      rw [List.drop_eq_nil_of_le hi, List.take_nil]
      exact SRep.init
    · rw [if_neg hi]
      have hnum : ∃ m, substrClamp t.length index num = m ∧ index + m ≤ t.length ∧ (t.drop index).take m = (t.drop index).take num := by
        have hall : ∀ m, t.length ≤ index + m → (t.drop index).take (t.length - index) = (t.drop index).take m := by
          intro m hm
          rw [List.take_of_length_le (by simp), List.take_of_length_le (by simp; omega)]
        unfold substrClamp
        by_cases h1 : num = npos
        · exact ⟨_, if_pos h1, by omega, hall _ (by rw [h1]; unfold npos; omega)⟩
        · rcases hn with hn | hn
          · exact absurd hn h1
          · rw [if_neg h1, show sz (index + num) = index + num from Nat.mod_eq_of_lt hn]
            by_cases h2 : index + num ≥ t.length
            · exact ⟨_, if_pos h2, by omega, hall _ h2⟩
            · exact ⟨_, if_neg h2, by omega, rfl⟩
      obtain ⟨m, em, hm, htk⟩ := hnum
      rw [em]
      unfold substrN
      simp only [bind, Except.bind]
      have hz1 : sz (m + 2) = m + 2 := Nat.mod_eq_of_lt (by omega)
      have hz2 : sz (index + m) = index + m := Nat.mod_eq_of_lt (by omega)
      obtain ⟨s1, _, e1, h1, _, _⟩ := grow_copy junk SRep.init (d := sz (m + 2)) (by omega) (by omega)
      rw [e1]
      dsimp only
      rw [hz2, show index + m - index = m by omega]
      obtain ⟨s2, e2, h2⟩ := substrLoop_spec junk (r := r) h0 hs m index s1 [] hm (by simp) h1
      refine ⟨s2, e2, ?_⟩
      rw [← htk]; simpa using h2

/-! ### Where the class does something else -/

/-- `toLower` leaves every text as it is. -/
theorem toLower_nothing {s : Str} {t : List Byte} (h : SRep s t) : ∃ s', s.toLower = .ok s' ∧ SRep s' t := by
  have hbyte : ∀ c : Byte, 65 ≤ c ∧ c ≤ 90 → c &&& 0xDF = c := by
    have : ∀ n : Fin 256, 65 ≤ UInt8.ofNat n.val ∧ UInt8.ofNat n.val ≤ 90 → UInt8.ofNat n.val &&& 0xDF = UInt8.ofNat n.val := by decide +kernel
    intro c
    have h := this ⟨c.toNat, c.toNat_lt⟩
    simpa using h
  have hloop : ∀ (n i : Nat) (b : Buf), i + n ≤ b.length → lowerLoop n i b = .ok b := by
    intro n
    induction n with
    | zero => intro i b _; rfl
    | succ n ih =>
      intro i b hi
      rw [lowerLoop, rd_of_lt (by omega)]
      simp only [bind, Except.bind]
      by_cases hc : 65 ≤ b[i]'(by omega) ∧ b[i]'(by omega) ≤ 90
      · rw [if_pos hc, hbyte _ hc]
        unfold wr
        rw [if_pos (by omega)]
        dsimp only
        rw [List.set_getElem_self]
        exact ih (i + 1) b (by omega)
      · rw [if_neg hc]
        exact ih (i + 1) b (by omega)
  unfold Str.toLower
  cases hb : s.v with
  | none => exact ⟨s, rfl, h⟩
  | some b =>
    obtain ⟨hcap, hstr⟩ := h.arr b hb
    have := IsStr.length hstr
    simp only [bind, Except.bind]
    rw [strlen_of hstr]
    dsimp only
    rw [hloop _ _ _ (by omega)]
    exact ⟨_, rfl, .of_buf hstr hcap h.short h.cap⟩

/-- A string with a text. -/
def mkStr (t : List Byte) : Str := { v := some (t ++ [0]), cap := t.length + 1 }

theorem mkStr_rep {t : List Byte} (h0 : 0 ∉ t) (hs : t.length < 2 ^ 63) : SRep (mkStr t) t := .of_buf ⟨[], rfl, h0⟩ (by simp) hs (by omega)

/-- "ABC".toLower() is "ABC". -/
theorem toLower_wrong : ∃ s', (mkStr [65, 66, 67]).toLower = .ok s' ∧ s'.cstr = .ok [65, 66, 67] := by
  obtain ⟨s', e, h⟩ := toLower_nothing (mkStr_rep (t := [65, 66, 67]) (by decide) (by decide))
  exact ⟨s', e, h.cstr⟩

/-- "abcdef".erase(3, 1) is "abc". -/
theorem erase_removes_too_much : ∃ s', (mkStr [97, 98, 99, 100, 101, 102]).erase 3 1 = .ok s' ∧ s'.cstr = .ok [97, 98, 99] := by
  obtain ⟨s', e, h⟩ := erase_actual (mkStr_rep (t := [97, 98, 99, 100, 101, 102]) (by decide) (by decide)) (start := 3) (num := 1) (by decide) (by decide)
  exact ⟨s', e, h.cstr⟩

/-- "ab".erase(3, 1), past the end, is "a". -/
theorem erase_past_end : (mkStr [97, 98]).erase 3 1 = .ok { v := some [97, 0, 0], cap := 3 } := by
  simp [Str.erase, Str.eraseN, eraseClamp, mkStr, strlen, szSub, sz, npos, eraseLoop, wr, Except.map, bind, Except.bind]

/-- "ab".erase(10, 5) writes outside the array. -/
theorem erase_overruns : (mkStr [97, 98]).erase 10 5 = .error .outOfBounds := by
  simp [Str.erase, Str.eraseN, eraseClamp, mkStr, strlen, szSub, sz, npos, eraseLoop, wr, Except.map, bind, Except.bind]

/-- "abcdef".substr(3, npos - 1) is empty. -/
theorem substr_wraps (junk : Nat → Byte) : (mkStr [97, 98, 99, 100, 101, 102]).substr junk 3 (npos - 1) = .ok Str.init := by
  simp [Str.substr, substrN, substrClamp, mkStr, strlen, sz, npos, Except.map, bind, Except.bind, Str.grow, Str.init, substrLoop]

/-- "abcdef".substr(3, npos - 2) writes outside an array of no bytes. -/
theorem substr_overruns (junk : Nat → Byte) : (mkStr [97, 98, 99, 100, 101, 102]).substr junk 3 (npos - 2) = .error .outOfBounds := by
  simp [Str.substr, substrN, substrClamp, mkStr, strlen, sz, npos, Except.map, bind, Except.bind, Str.grow, Str.init, strcpy, wrs, newArr]

/-- Appending a string to itself is undefined, unless it never had an array. -/
theorem appendOwn_undefined (junk : Nat → Byte) (t : List Byte) : (mkStr t).appendOwn junk = .error .dangling := rfl

/-! ### Sequences of operations -/

/-- The operations that change a string. -/
inductive SOp where
  | assign (u : Option (List Byte))
  | append (u : List Byte)
  | appendC (c : Byte)
  | clear
  | trim
  | erase (start num : Nat)
  | setAt (i : Nat) (c : Byte)

/-- One operation. -/
def sstep (junk : Nat → Byte) (s : Str) : SOp → R Str
  | .assign u => s.assign junk u
  | .append u => s.append junk u
  | .appendC c => s.appendC junk c
  | .clear => s.clear
  | .trim => s.trim
  | .erase a n => s.erase a n
  | .setAt i c => do
    let x ← s.setAt i c
    .ok x.1

/-- What it should do to the text. -/
def stext (t : List Byte) : SOp → List Byte
  | .assign u => u.getD []
  | .append u => t ++ u
  | .appendC c => t ++ [c]
  | .clear => []
  | .trim => trimSpec t
  | .erase a n => t.take a ++ t.drop (a + n)
  | .setAt i c => t.set i c

/-- What is asked of the caller. -/
def sok (t : List Byte) : SOp → Prop
  | .assign u => 0 ∉ u.getD [] ∧ (u.getD []).length < 2 ^ 63
  | .append u => 0 ∉ u ∧ t.length + u.length < 2 ^ 63
  | .appendC c => c ≠ 0 ∧ t.length + 1 < 2 ^ 63
  | .clear => True
  | .trim => True
  | .erase a n => a ≤ t.length ∧ (n = npos ∨ a + n < 2 ^ 64 ∧ (2 * a + n ≤ t.length ∨ t.length ≤ a + n))
  | .setAt _ c => c ≠ 0

theorem sstep_spec (junk : Nat → Byte) {s : Str} {t : List Byte} {o : SOp} (h : SRep s t) (ho : sok t o) : ∃ s', sstep junk s o = .ok s' ∧ SRep s' (stext t o) := by
  cases o with
  | assign u =>
    cases u with
    | none => exact assign_null junk h
    | some u => exact assign_spec junk h ho.1 ho.2
  | append u => exact append_spec junk h ho.1 ho.2
  | appendC c =>
    obtain ⟨s', e, h'⟩ := appendC_spec junk h c ho.2
    rw [if_neg ho.1] at h'
    exact ⟨s', e, h'⟩
  | clear => exact clear_spec h
  | trim => exact trim_spec h
  | erase a n => exact erase_partial h ho.1 ho.2
  | setAt i c =>
    obtain ⟨s', e, h'⟩ := setAt_spec h i ho
    refine ⟨s', ?_, h'⟩
    simp only [sstep, e, bind, Except.bind]

/-- A sequence of operations; each may get different bytes from `new`. -/
def srun (s : Str) : List ((Nat → Byte) × SOp) → R Str
  | [] => .ok s
  | (j, o) :: os => match sstep j s o with
    | .error e => .error e
    | .ok s' => srun s' os

/-- The caller's part over a sequence. -/
def SOk (t : List Byte) : List ((Nat → Byte) × SOp) → Prop
  | [] => True
  | (_, o) :: os => sok t o ∧ SOk (stext t o) os

/-- C47: over every sequence of operations the text is that of the character sequence, and no access leaves the array.
The full claim is for all arguments; see the exceptions above. -/
theorem string_refines_partial {os : List ((Nat → Byte) × SOp)} (ho : SOk [] os) :
    ∃ s, srun Str.init os = .ok s ∧ s.cstr = .ok (os.foldl (fun t o => stext t o.2) []) ∧ s.size = .ok (os.foldl (fun t o => stext t o.2) []).length := by
  have gen : ∀ (os : List ((Nat → Byte) × SOp)) (s : Str) (t : List Byte), SRep s t → SOk t os → ∃ s', srun s os = .ok s' ∧ SRep s' (os.foldl (fun t o => stext t o.2) t) := by
    intro os
    induction os with
    | nil => intro s t h _; exact ⟨s, rfl, h⟩
    | cons o os ih =>
      intro s t h hk
      obtain ⟨s1, e1, h1⟩ := sstep_spec o.1 h hk.1
      obtain ⟨s2, e2, h2⟩ := ih s1 _ h1 hk.2
      refine ⟨s2, ?_, h2⟩
      rw [show o = (o.1, o.2) from rfl, srun, e1]
      exact e2
  obtain ⟨s, e, h⟩ := gen os _ _ SRep.init ho
  exact ⟨s, e, h.cstr, h.size⟩

/-- A run with growth, trimming and erasing. -/
example : SOk [] [(fun _ => 7, .assign (some [32, 97, 98])), (fun _ => 9, .append [99, 100, 32]), (fun _ => 1, .trim), (fun _ => 1, .erase 1 1), (fun _ => 1, .appendC 101)] := by
  simp [SOk, sok, stext, trimSpec, white, npos]

example : SRep (mkStr [97, 98]) [97, 98] ∧ ([97, 98] : List Byte) < [97, 200] ∧ ¬ ([97, 98] : List Byte) < [97] := ⟨mkStr_rep (by decide) (by decide), by decide, by decide⟩

example : SRep (mkStr [32, 97, 98, 32]) [32, 97, 98, 32] ∧ trimSpec [32, 97, 98, 32] = [97, 98] := ⟨mkStr_rep (by decide) (by decide), by decide⟩

example : SRep (mkStr [97, 98, 99]) [97, 98, 99] ∧ 2 ≤ [97, 98, 99].length ∧ IsFirst [97, 98, 99] 98 0 1 ∧ IsLast [97, 98, 99] 98 2 1 :=
  ⟨mkStr_rep (by decide) (by decide), by decide, .inl ⟨by decide, by decide, rfl, fun k _ hk => by rw [show k = 0 by omega]; decide⟩, .inl ⟨by decide, rfl, fun k h1 h2 => by rw [show k = 2 by omega]; decide⟩⟩

end Verif.CStr

#print axioms Verif.CStr.append_spec
#print axioms Verif.CStr.appendC_spec
#print axioms Verif.CStr.assign_spec
#print axioms Verif.CStr.compare_spec
#print axioms Verif.CStr.compare_order
#print axioms Verif.CStr.find_spec
#print axioms Verif.CStr.findLastOf_spec
#print axioms Verif.CStr.at_spec
#print axioms Verif.CStr.setAt_spec
#print axioms Verif.CStr.erase_partial
#print axioms Verif.CStr.trim_spec
#print axioms Verif.CStr.substr_spec
#print axioms Verif.CStr.string_refines_partial
#print axioms Verif.CStr.toLower_nothing
#print axioms Verif.CStr.erase_removes_too_much
#print axioms Verif.CStr.erase_past_end
#print axioms Verif.CStr.erase_overruns
#print axioms Verif.CStr.substr_wraps
#print axioms Verif.CStr.substr_overruns

#print axioms Verif.CStr.appendOwn_undefined
#print axioms Verif.CStr.assign_null
#print axioms Verif.CStr.clear_spec
#print axioms Verif.CStr.empty_spec
#print axioms Verif.CStr.erase_actual
#print axioms Verif.CStr.findLastOf_default
#print axioms Verif.CStr.toLower_wrong
