/-
C character buffers: an array object is the list of its bytes (the length of the list is the size
of the object), a C string in it ends at the first NUL.  Access outside the object is the outcome
`outOfBounds`.
-/
namespace Verif.C

/-- No counterpart in /repo: one byte of memory. -/
abbrev Byte := UInt8

/-- No counterpart in /repo: undefined behaviour on arrays, made visible. -/
inductive Fault
  | outOfBounds
  | fuel
  | overflow
  deriving DecidableEq, Repr

/-- No counterpart in /repo: a result, or undefined behaviour. -/
abbrev R := Except Fault

/-- One array object. No counterpart in /repo: C++ arrays such as `char buffer[…]`, core/metamod.cpp:264. -/
abbrev Buf := List Byte

/-- `b[i]` as an rvalue. No counterpart in /repo: a C++ operator. -/
def rd (b : Buf) (i : Nat) : R Byte := if h : i < b.length then .ok b[i] else .error .outOfBounds

/-- `b[i] = c`. No counterpart in /repo: a C++ operator. -/
def wr (b : Buf) (i : Nat) (c : Byte) : R Buf := if i < b.length then .ok (b.set i c) else .error .outOfBounds

/-- `memmove(&b[i], s, s.length)` where the bytes `s` were read before. No counterpart in /repo: the C library. -/
def wrs (b : Buf) (i : Nat) (s : List Byte) : R Buf :=
  if i + s.length ≤ b.length then .ok (b.take i ++ s ++ b.drop (i + s.length)) else .error .outOfBounds

/-- `strlen(&b[i])`. No counterpart in /repo: the C library. -/
def strlen (b : Buf) (i : Nat) : R Nat :=
  if h : i < b.length then
    if b[i] = 0 then .ok 0 else (strlen b (i + 1)).map (· + 1)
  else .error .outOfBounds
termination_by b.length - i

/-- The bytes of the C string at `&b[i]`, e.g. `std::string(&b[i])`. No counterpart in /repo: the C library. -/
def cstr (b : Buf) (i : Nat) : R (List Byte) := do
  let n ← strlen b i
  .ok ((b.drop i).take n)

/-- `strcpy(&b[i], s)` for a string `s` stored elsewhere. No counterpart in /repo: the C library. -/
def strcpy (b : Buf) (i : Nat) (s : List Byte) : R Buf := wrs b i (s ++ [0])

/-- `isspace` in the "C" locale (glibc tables; bytes from 0x80 are no white space). -/
def isspace (c : Byte) : Bool := c == 32 || (9 ≤ c && c ≤ 13)

/-- `isdigit`. No counterpart in /repo: the C library, called at core/metamod.cpp:661, 743. -/
def isdigit (c : Byte) : Bool := 48 ≤ c && c ≤ 57

/-- `isalpha` in the "C" locale.
No counterpart in /repo: the C library, called at core/metamod.cpp:313 and core/metamod_util.cpp:141, 193, 381. -/
def isalpha (c : Byte) : Bool := (65 ≤ c && c ≤ 90) || (97 ≤ c && c ≤ 122)

/-! Specification vocabulary. -/

/-- The object holds the string `s`, followed by its NUL and anything. No counterpart in /repo: used in statements. -/
def IsStr (b : Buf) (s : List Byte) : Prop := ∃ rest, b = s ++ 0 :: rest ∧ 0 ∉ s

/-! Lemmas. -/

theorem rd_of_lt {b : Buf} {i : Nat} (h : i < b.length) : rd b i = .ok b[i] := by simp [rd, h]

theorem rd_get {b : Buf} {i : Nat} {c : Byte} (h : b[i]? = some c) : rd b i = .ok c := by
  obtain ⟨h1, h2⟩ := List.getElem?_eq_some_iff.1 h
  rw [rd_of_lt h1, h2]

theorem rd_left {a : List Byte} {c : Byte} {r : List Byte} : rd (a ++ c :: r) a.length = .ok c :=
  rd_get (by simp)

theorem wr_left {a : List Byte} {c d : Byte} {r : List Byte} : wr (a ++ c :: r) a.length d = .ok (a ++ d :: r) := by
  simp [wr]

theorem strlen_str {a s r : List Byte} (h : 0 ∉ s) : strlen (a ++ s ++ 0 :: r) a.length = .ok s.length := by
  induction s generalizing a with
  | nil => unfold strlen; simp
  | cons c s ih =>
    have hc : c ≠ 0 := fun e => h (by simp [e])
    have := ih (a := a ++ [c]) (fun hm => h (List.mem_cons_of_mem _ hm))
    unfold strlen
    simp only [List.append_assoc, List.cons_append, List.nil_append, List.length_append, List.length_cons, List.length_nil] at this ⊢
    rw [dif_pos (by omega), this]
    simp [hc, Except.map]

theorem strlen_of {b : Buf} {s : List Byte} (h : IsStr b s) : strlen b 0 = .ok s.length := by
  obtain ⟨r, rfl, h0⟩ := h
  exact strlen_str (a := []) h0

theorem cstr_of {b : Buf} {s : List Byte} (h : IsStr b s) : cstr b 0 = .ok s := by
  unfold cstr
  rw [strlen_of h]
  obtain ⟨r, rfl, h0⟩ := h
  simp [bind, Except.bind]

theorem cstr_sound {b : Buf} {s : List Byte} (h : cstr b 0 = .ok s) : IsStr b s := by
  have key : ∀ (n : Nat) (b : Buf) (i : Nat), b.length - i = n → ∀ k, strlen b i = .ok k → ∃ r, b.drop i = (b.drop i).take k ++ 0 :: r ∧ 0 ∉ (b.drop i).take k := by
    intro n
    induction n with
    | zero =>
      intro b i hn k hk
      unfold strlen at hk
      rw [dif_neg (by omega)] at hk; cases hk
    | succ n ih =>
      intro b i hn k hk
      unfold strlen at hk
      rw [dif_pos (by omega)] at hk
      have hlt : i < b.length := by omega
      rw [List.drop_eq_getElem_cons hlt]
      split at hk
      · next h0 =>
        cases hk
        exact ⟨b.drop (i + 1), by simp [h0], by simp⟩
      · next h0 =>
        cases hs : strlen b (i + 1) with
        | error e => rw [hs] at hk; cases hk
        | ok m =>
          rw [hs] at hk
          cases hk
          obtain ⟨r, h1, h2⟩ := ih b (i + 1) (by omega) m hs
          refine ⟨r, ?_, ?_⟩
          · rw [List.take_succ_cons, List.cons_append, ← h1]
          · rw [List.take_succ_cons, List.mem_cons]
            rintro (e | e)
            · exact h0 e.symm
            · exact h2 e
  unfold cstr at h
  cases hs : strlen b 0 with
  | error e => rw [hs] at h; cases h
  | ok k =>
    rw [hs] at h
    cases h
    obtain ⟨r, h1, h2⟩ := key _ b 0 rfl k hs
    exact ⟨r, h1, h2⟩

theorem IsStr.inj {b : Buf} {s t : List Byte} (h1 : IsStr b s) (h2 : IsStr b t) : s = t := by
  have := (cstr_of h1).symm.trans (cstr_of h2)
  cases this; rfl

theorem strcpy_of {b : Buf} {s t : List Byte} (h : IsStr b s) (hl : t.length ≤ s.length) (ht : 0 ∉ t) :
    ∃ b', strcpy b 0 t = .ok b' ∧ b'.length = b.length ∧ IsStr b' t := by
  obtain ⟨r, rfl, h0⟩ := h
  refine ⟨t ++ 0 :: (s ++ 0 :: r).drop (t.length + 1), ?_, ?_, _, rfl, ht⟩
  · unfold strcpy wrs
    rw [if_pos (by simp; omega)]
    simp
  · simp; omega

theorem isspace_ne_zero {c : Byte} (h : isspace c = true) : c ≠ 0 := by rintro rfl; exact absurd h (by decide)

end Verif.C
