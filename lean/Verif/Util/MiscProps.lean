import Verif.Util.Misc
/-
Properties C38 (bounded formatting), C41 (pattern search) and C54 (command line lookup).
-/
namespace Verif.Util
open Verif.C

/-! ## C38 -/

/-- C38: for every text and every buffer size `n ≥ 1` (the object having at least `n` bytes) the buffer holds the longest
prefix of at most `n - 1` characters followed by a NUL, everything behind the NUL is unchanged, and the length of the prefix is returned. -/
theorem format_spec {b : Buf} {n : Nat} (hn : 1 ≤ n) (hb : n ≤ b.length) (t junk : List Byte) :
    ∃ b', format b n (some t) junk = .ok (b', min t.length (n - 1)) ∧
      b' = t.take (n - 1) ++ 0 :: b.drop (min t.length (n - 1) + 1) := by
  have hw : wrs b 0 (t.take (n - 1) ++ [0]) = .ok (t.take (n - 1) ++ 0 :: b.drop (min t.length (n - 1) + 1)) := by
    unfold wrs
    rw [if_pos (by simp; omega)]
    simp [Nat.min_comm]
  refine ⟨_, ?_, rfl⟩
  unfold format vsnprintf
  simp only [bind, Except.bind]
  rw [if_neg (by omega), hw]
  dsimp only
  by_cases hl : t.length ≥ n
  · rw [if_pos hl, if_neg (by omega)]
    have hmin : min t.length (n - 1) = n - 1 := by omega
    have hlen : (t.take (n - 1)).length = n - 1 := by simp; omega
    rw [hmin]
    have := wr_left (a := t.take (n - 1)) (c := 0) (d := 0) (r := b.drop (n - 1 + 1))
    rw [hlen] at this
    rw [this]
  · rw [if_neg hl]
    rw [show min t.length (n - 1) = t.length by omega]

example : format [1, 2, 3, 4, 5] 3 (some [97, 98, 99, 100]) [] = .ok ([97, 98, 0, 4, 5], 2) ∧
    format [1, 2, 3, 4, 5] 4 (some [97]) [] = .ok ([97, 0, 3, 4, 5], 1) := ⟨rfl, rfl⟩

/-- C38: also when the formatting fails the buffer ends with a NUL inside its size. -/
theorem format_failure_terminates {b : Buf} {n : Nat} (hn : 1 ≤ n) (hb : n ≤ b.length) (hs : n ≤ sizeMax) (junk : List Byte) :
    ∃ b', format b n none junk = .ok (b', n - 1) ∧ b'.length = b.length ∧ b'[n - 1]? = some 0 := by
  unfold format vsnprintf
  have hw : wrs b 0 (junk.take n) = .ok (junk.take n ++ b.drop (junk.take n).length) := by
    unfold wrs
    rw [if_pos (by simp; omega)]; simp
  simp only [bind, Except.bind]
  rw [hw]
  dsimp only
  rw [if_pos hs, if_neg (by omega)]
  have hl : (junk.take n ++ b.drop (junk.take n).length).length = b.length := by simp; omega
  unfold wr
  rw [if_pos (by omega)]
  refine ⟨_, rfl, by rw [List.length_set]; exact hl, ?_⟩
  rw [List.getElem?_set_self (by omega)]

example : format [1, 2, 3] 2 none [9, 9, 9] = .ok ([9, 0, 3], 1) := rfl

/-- Outside C38's range: with size 0 the functions write far outside the buffer. -/
theorem format_zero_faults {b : Buf} (hb : b.length ≤ sizeMax) (t junk : List Byte) : format b 0 (some t) junk = .error .outOfBounds := by
  unfold format vsnprintf
  simp only [bind, Except.bind, if_true]
  rw [if_pos (Nat.zero_le _)]
  unfold wr
  rw [if_neg (by omega)]

example : ([] : Buf).length ≤ sizeMax := by decide

theorem fixSeps_spec {a s r : List Byte} : fixSeps (a ++ s ++ r) (a.length + s.length) a.length =
    .ok (a ++ s.map (fun c => if c = 92 then 47 else c) ++ r) := by
  induction s generalizing a with
  | nil => unfold fixSeps; rw [if_neg (by simp)]; simp
  | cons c s ih =>
    unfold fixSeps
    rw [if_pos (by simp)]
    have ih := fun d => ih (a := a ++ [d])
    simp only [List.append_assoc, List.cons_append, List.nil_append, List.length_append, List.length_cons, List.length_nil, Nat.zero_add] at ih ⊢
    rw [rd_left]
    simp only [bind, Except.bind]
    rw [show a.length + (s.length + 1) = a.length + 1 + s.length by omega]
    by_cases hc : c = 92
    · rw [if_pos hc, wr_left]
      dsimp only
      rw [ih 47, List.map_cons, if_pos hc]; rfl
    · rw [if_neg hc]
      rw [ih c, List.map_cons, if_neg hc]; rfl

/-- C38 for `mm_PathFormat`: the same, with every backslash turned into a slash. -/
theorem pathFormat_spec {b : Buf} {n : Nat} (hn : 1 ≤ n) (hb : n ≤ b.length) (t junk : List Byte) :
    ∃ b', pathFormat b n (some t) junk = .ok (b', min t.length (n - 1)) ∧
      b' = (t.take (n - 1)).map (fun c => if c = 92 then 47 else c) ++ 0 :: b.drop (min t.length (n - 1) + 1) := by
  obtain ⟨b', h1, rfl⟩ := format_spec hn hb t junk
  unfold pathFormat
  simp only [bind, Except.bind]
  rw [h1]
  dsimp only
  have := fixSeps_spec (a := []) (s := t.take (n - 1)) (r := 0 :: b.drop (min t.length (n - 1) + 1))
  simp only [List.nil_append, List.length_nil, Nat.zero_add, List.length_take, Nat.min_comm (n - 1)] at this
  rw [this]
  exact ⟨_, rfl, rfl⟩

example : ∃ b', pathFormat [1, 2, 3, 4, 5] 4 (some [97, 92, 98, 92]) [] = .ok (b', 3) ∧ b' = [97, 47, 98, 0, 5] :=
  pathFormat_spec (b := [1, 2, 3, 4, 5]) (by decide) (by decide) [97, 92, 98, 92] []

/-! ## C41 -/

/-- Spec: the pattern occurs at `p` (0x2A matches anything). -/
def Occurs (mem : Nat → Option Byte) (pat : List Byte) (p : Nat) : Prop :=
  ∀ i c, pat[i]? = some c → c = 0x2A ∨ mem (p + i) = some c

theorem occurs_cons {mem : Nat → Option Byte} {c : Byte} {pat : List Byte} {p : Nat} :
    Occurs mem (c :: pat) p ↔ (c = 0x2A ∨ mem p = some c) ∧ Occurs mem pat (p + 1) := by
  constructor
  · intro h
    refine ⟨h 0 c rfl, fun i d hd => ?_⟩
    have := h (i + 1) d hd
    rw [show p + 1 + i = p + (i + 1) by omega]; exact this
  · rintro ⟨h1, h2⟩ i d hd
    cases i with
    | zero => cases hd; exact h1
    | succ i =>
      have := h2 i d hd
      rw [show p + (i + 1) = p + 1 + i by omega]; exact this

theorem matchAt_spec {mem : Nat → Option Byte} {pat : List Byte} {p : Nat} (hm : ∀ i, i < pat.length → mem (p + i) ≠ none) :
    ∃ r, matchAt mem pat p = .ok r ∧ (r = true ↔ Occurs mem pat p) := by
  induction pat generalizing p with
  | nil => exact ⟨true, rfl, by simp [Occurs]⟩
  | cons c pat ih =>
    obtain ⟨r, h1, h2⟩ := ih (p := p + 1) (by
      intro i hi
      have := hm (i + 1) (by simpa using hi)
      rw [show p + 1 + i = p + (i + 1) by omega]; exact this)
    rw [matchAt, occurs_cons]
    by_cases hc : c = 0x2A
    · rw [if_pos hc]; exact ⟨r, h1, by simp [hc, h2]⟩
    · rw [if_neg hc]
      cases hx : mem p with
      | none => exact absurd hx (hm 0 (by simp))
      | some x =>
        dsimp only
        by_cases hcx : c = x
        · subst hcx
          rw [if_neg (by simp)]
          exact ⟨r, h1, by simp [h2]⟩
        · rw [if_pos hcx]
          exact ⟨false, rfl, by simp [hc, Ne.symm hcx]⟩

theorem findIn_spec {mem : Nat → Option Byte} {pat : List Byte} {stop e : Nat} (he : stop + pat.length ≤ e) (n : Nat) : ∀ ptr, stop - ptr = n →
    (∀ a, ptr ≤ a → a < e → mem a ≠ none) →
    ∃ r, findIn mem pat ptr stop = .ok r ∧ (∀ p, r = some p → ptr ≤ p ∧ p < stop ∧ Occurs mem pat p ∧ ∀ q, ptr ≤ q → q < p → ¬ Occurs mem pat q) ∧
      (r = none → ∀ q, ptr ≤ q → q < stop → ¬ Occurs mem pat q) := by
  induction n with
  | zero =>
    intro ptr hn _
    refine ⟨none, ?_, by simp, fun _ q h1 h2 => by omega⟩
    unfold findIn; rw [if_neg (by omega)]
  | succ n ih =>
    intro ptr hn hm
    obtain ⟨r, h1, h2⟩ := matchAt_spec (mem := mem) (pat := pat) (p := ptr) (fun i hi => hm _ (by omega) (by omega))
    unfold findIn
    rw [if_pos (by omega), h1]
    simp only [bind, Except.bind]
    cases r with
    | true =>
      rw [if_pos rfl]
      refine ⟨some ptr, rfl, ?_, by simp⟩
      intro p hp; cases hp
      exact ⟨Nat.le_refl _, by omega, h2.1 rfl, fun q _ _ => by omega⟩
    | false =>
      rw [if_neg (by simp)]
      obtain ⟨r, k1, k2, k3⟩ := ih (ptr + 1) (by omega) (fun a ha hb => hm a (by omega) hb)
      have hno : ¬ Occurs mem pat ptr := fun h => by have := h2.2 h; cases this
      refine ⟨r, k1, ?_, ?_⟩
      · intro p hp
        obtain ⟨a1, a2, a3, a4⟩ := k2 p hp
        refine ⟨by omega, a2, a3, fun q h1 h2 => ?_⟩
        rcases Nat.eq_or_lt_of_le h1 with rfl | h1
        · exact hno
        · exact a4 q h1 h2
      · intro hr q h1 h2
        rcases Nat.eq_or_lt_of_le h1 with rfl | h1
        · exact hno
        · exact k3 hr q h1 h2

/-- The image: ranges of mapped addresses, each ending at or above the pattern length. -/
structure Image (mem : Nat → Option Byte) (len : Nat) (rs : List (Nat × Nat)) : Prop where
  mapped : ∀ r ∈ rs, ∀ a, r.1 ≤ a → a < r.2 → mem a ≠ none
  size : ∀ r ∈ rs, len ≤ r.2 ∧ r.2 < 2 ^ 64

/-- C41 (missing: a match that ends exactly at the end of a range, see `findPattern_misses_last`): no byte outside the image is
read; a position returned is an occurrence inside a range with no earlier one in it or in the ranges before; NULL means there is
no occurrence that ends before the end of its range. -/
theorem findPattern_partial {mem : Nat → Option Byte} {pat : List Byte} {rs : List (Nat × Nat)} (h : Image mem pat.length rs) :
    ∃ r, findPattern mem pat rs = .ok r ∧
      (∀ p, r = some p → ∃ A b e B, rs = A ++ (b, e) :: B ∧ b ≤ p ∧ p + pat.length < e ∧ Occurs mem pat p ∧
        (∀ q, b ≤ q → q < p → ¬ Occurs mem pat q) ∧ ∀ x ∈ A, ∀ q, x.1 ≤ q → q + pat.length < x.2 → ¬ Occurs mem pat q) ∧
      (r = none → ∀ x ∈ rs, ∀ q, x.1 ≤ q → q + pat.length < x.2 → ¬ Occurs mem pat q) := by
  induction rs with
  | nil => exact ⟨none, rfl, by simp, by simp⟩
  | cons x rs ih =>
    obtain ⟨b, e⟩ := x
    obtain ⟨hl, he⟩ := h.size (b, e) (by simp)
    have hstop : (e + 2 ^ 64 - pat.length) % 2 ^ 64 = e - pat.length := by
      dsimp only at hl he
      rw [show e + 2 ^ 64 - pat.length = (e - pat.length) + 2 ^ 64 by omega, Nat.add_mod_right, Nat.mod_eq_of_lt (by omega)]
    dsimp only at hl he
    obtain ⟨r, k1, k2, k3⟩ := findIn_spec (mem := mem) (pat := pat) (stop := e - pat.length) (e := e) (by omega) _ b rfl (h.mapped (b, e) (by simp))
    rw [findPattern, hstop, k1]
    simp only [bind, Except.bind]
    cases r with
    | some p =>
      refine ⟨some p, rfl, ?_, by simp⟩
      intro p' hp; cases hp
      obtain ⟨a1, a2, a3, a4⟩ := k2 p rfl
      exact ⟨[], b, e, rs, rfl, a1, by omega, a3, a4, by simp⟩
    | none =>
      obtain ⟨r, j1, j2, j3⟩ := ih ⟨fun y hy => h.mapped y (List.mem_cons_of_mem _ hy), fun y hy => h.size y (List.mem_cons_of_mem _ hy)⟩
      have hno : ∀ q, b ≤ q → q + pat.length < e → ¬ Occurs mem pat q := fun q h1 h2 => k3 rfl q h1 (by omega)
      refine ⟨r, j1, ?_, ?_⟩
      · intro p hp
        obtain ⟨A, b', e', B, rfl, a1, a2, a3, a4, a5⟩ := j2 p hp
        refine ⟨(b, e) :: A, b', e', B, rfl, a1, a2, a3, a4, ?_⟩
        intro y hy
        rcases List.mem_cons.1 hy with rfl | hy
        · exact hno
        · exact a5 y hy
      · intro hr y hy
        rcases List.mem_cons.1 hy with rfl | hy
        · exact hno
        · exact j3 hr y hy

/-- Image `0 1 2 1 2 9` at 100: the first `1 ?`. -/
def exMem (a : Nat) : Option Byte := if a < 100 then none else ([0, 1, 2, 1, 2, 9] : List Byte)[a - 100]?

theorem exImage : Image exMem 2 [(100, 106)] := by
  refine ⟨?_, by simp⟩
  intro r hr a h1 h2
  simp at hr
  subst hr
  dsimp only at h1 h2
  have : a = 100 ∨ a = 101 ∨ a = 102 ∨ a = 103 ∨ a = 104 ∨ a = 105 := by omega
  rcases this with rfl | rfl | rfl | rfl | rfl | rfl <;> decide

example : Image exMem ([1, 0x2A] : List Byte).length [(100, 106)] ∧ findPattern exMem [1, 0x2A] [(100, 106)] = .ok (some 101) := by
  refine ⟨exImage, ?_⟩
  simp [findPattern, findIn, matchAt, exMem, bind, Except.bind]

/-- C41, negation: `2 9` occurs at the very end of the image `0 1 2 1 2 9` and is not found. -/
theorem findPattern_misses_last : Image exMem ([2, 9] : List Byte).length [(100, 106)] ∧ Occurs exMem [2, 9] 104 ∧
    findPattern exMem [2, 9] [(100, 106)] = .ok none := by
  refine ⟨exImage, ?_, ?_⟩
  · intro i c hc
    rcases i with _ | _ | i
    · cases hc; exact Or.inr (by decide)
    · cases hc; exact Or.inr (by decide)
    · cases hc
  · simp [findPattern, findIn, matchAt, exMem, bind, Except.bind]

/-- C41: `UTIL_VerifySignature` accepts exactly the matching byte sequences, reading `len` bytes at most. -/
theorem verifySignature_spec {addr sig : Buf} (h : sig.length ≤ addr.length) :
    ∃ r, verifySignature addr sig sig.length 0 = .ok r ∧ (r = true ↔ Occurs (fun i => addr[i]?) sig 0) := by
  have key : ∀ n i, sig.length - i = n → i ≤ sig.length → ∃ r, verifySignature addr sig sig.length i = .ok r ∧
      (r = true ↔ Occurs (fun i => addr[i]?) (sig.drop i) i) := by
    intro n
    induction n with
    | zero =>
      intro i hn hi
      refine ⟨true, ?_, ?_⟩
      · unfold verifySignature; rw [if_neg (by omega)]
      · rw [List.drop_eq_nil_of_le (by omega)]; simp [Occurs]
    | succ n ih =>
      intro i hn hi
      have hlt : i < sig.length := by omega
      obtain ⟨r, h1, h2⟩ := ih (i + 1) (by omega) (by omega)
      unfold verifySignature
      rw [if_pos hlt, rd_of_lt hlt, List.drop_eq_getElem_cons hlt, occurs_cons]
      simp only [bind, Except.bind]
      by_cases hc : sig[i] = 0x2A
      · rw [if_pos hc]; exact ⟨r, h1, by simp [hc, h2]⟩
      · rw [if_neg hc, rd_of_lt (by omega)]
        dsimp only
        have hg : addr[i]? = some addr[i] := List.getElem?_eq_getElem (by omega)
        by_cases he : addr[i] = sig[i]
        · rw [if_neg (by simpa using he)]
          exact ⟨r, h1, by rw [hg]; simp [he, h2]⟩
        · rw [if_pos he]
          exact ⟨false, rfl, by rw [hg]; simp [hc, he]⟩
  exact key _ 0 rfl (Nat.zero_le _)

example : ([1, 0x2A, 3] : Buf).length ≤ ([1, 7, 3, 4] : Buf).length ∧ verifySignature [1, 7, 3, 4] [1, 0x2A, 3] 3 0 = .ok true := by
  refine ⟨by decide, ?_⟩
  simp [verifySignature, rd, bind, Except.bind]

/-! ## C54 -/

theorem getArgs_spec {args : List (List Byte)} (h : ∀ a ∈ args, 0 ∉ a) : getArgs [] (args.flatMap (· ++ [0])) = args := by
  have one : ∀ (a cur rest : List Byte), 0 ∉ a → getArgs cur (a ++ 0 :: rest) = (cur ++ a) :: getArgs [] rest := by
    intro a
    induction a with
    | nil => intro cur rest _; rw [List.nil_append, getArgs, if_pos rfl, List.append_nil]
    | cons c a ih =>
      intro cur rest h0
      have hc : c ≠ 0 := fun e => h0 (by simp [e])
      rw [List.cons_append, getArgs, if_neg hc, ih _ _ (fun hm => h0 (List.mem_cons_of_mem _ hm))]; simp
  induction args with
  | nil => rfl
  | cons a args ih =>
    rw [List.flatMap_cons, List.append_assoc, List.singleton_append, one a [] _ (h a (by simp)), ih (fun x hx => h x (List.mem_cons_of_mem _ hx))]
    rfl

theorem argLoop_step (name : List Byte) (n : Nat) (a : List Byte) (args : List (List Byte)) (b : Option Buf) :
    argLoop name n (a :: args) false b = argLoop name n args (a == name) b := by
  simp [argLoop.eq_def name n (a :: args)]

theorem argLoop_value (name : List Byte) (n : Nat) (a : List Byte) (args : List (List Byte)) (b : Buf) :
    argLoop name n (a :: args) true (some b) = if a.head? ≠ some 45 then (do
      let b ← copyArg b n a
      .ok (true, some b)) else .ok (true, some b) := by
  simp [argLoop.eq_def name n (a :: args)]

theorem argLoop_skip {name : List Byte} {n : Nat} {A rest : List (List Byte)} {b : Option Buf} (h : name ∉ A) :
    argLoop name n (A ++ rest) false b = argLoop name n rest false b := by
  induction A with
  | nil => rfl
  | cons a A ih =>
    rw [List.cons_append, argLoop_step]
    have : (a == name) = false := by
      rw [beq_eq_false_iff_ne]; rintro rfl; exact h (by simp)
    rw [this]
    exact ih fun hm => h (List.mem_cons_of_mem _ hm)

theorem copyArg_spec {b : Buf} {n : Nat} (hn : 1 ≤ n) (hb : n ≤ b.length) {arg : List Byte} (h0 : 0 ∉ arg) :
    ∃ b', copyArg b n arg = .ok b' ∧ b'.length = b.length ∧ IsStr b' (arg.take (n - 1)) := by
  unfold copyArg
  have hlen : (arg.take n ++ List.replicate (n - arg.length) 0).length = n := by simp; omega
  have hw : wrs b 0 (arg.take n ++ List.replicate (n - arg.length) 0) = .ok (arg.take n ++ List.replicate (n - arg.length) 0 ++ b.drop n) := by
    unfold wrs
    rw [if_pos (by rw [hlen]; omega), hlen]; simp
  rw [hw]
  simp only [bind, Except.bind]
  rw [if_neg (by omega)]
  unfold wr
  rw [if_pos (by simp; omega)]
  refine ⟨_, rfl, by simp; omega, ?_⟩
  have hni : 0 ∉ arg.take (n - 1) := fun hm => h0 (List.mem_of_mem_take hm)
  rw [List.set_eq_take_append_cons_drop, if_pos (by simp; omega)]
  have ht : (arg.take n ++ List.replicate (n - arg.length) 0 ++ b.drop n).take (n - 1) = arg.take (n - 1) ++ List.replicate (n - 1 - arg.length) 0 := by
    rw [List.take_append_of_le_length (by rw [hlen]; omega), List.take_append, List.take_take, List.take_replicate]
    congr 2
    · omega
    · simp; omega
  rw [ht]
  cases hr : n - 1 - arg.length with
  | zero => exact ⟨_, by rw [List.replicate_zero, List.append_nil], hni⟩
  | succ k => exact ⟨_, by rw [List.replicate_succ, List.append_assoc, List.cons_append], hni⟩

/-- The command line as the kernel shows it: every argument followed by a NUL. -/
def cmdBytes (args : List (List Byte)) : List Byte := args.flatMap (· ++ [0])

/-- C54: an argument followed by a value that does not start with `-`: the value, cut to the buffer, is stored. -/
theorem argument_value {A B : List (List Byte)} {name v : List Byte} {b : Buf} {n : Nat} (hargs : ∀ a ∈ A ++ name :: v :: B, 0 ∉ a)
    (hA : name ∉ A) (hv : v.head? ≠ some 45) (hn : 1 ≤ n) (hb : n ≤ b.length) :
    ∃ b', getCommandArgument (some (cmdBytes (A ++ name :: v :: B))) name (some b) n = .ok (true, some b') ∧ b'.length = b.length ∧
      IsStr b' (v.take (n - 1)) := by
  unfold getCommandArgument cmdBytes
  simp only [bind, Except.bind, wr]
  rw [if_pos (by omega)]
  dsimp only
  rw [getArgs_spec hargs]
  rw [argLoop_skip hA, argLoop_step, beq_self_eq_true, argLoop_value, if_pos hv]
  simp only [bind, Except.bind]
  obtain ⟨b', h1, h2, h3⟩ := copyArg_spec (b := b.set 0 0) (n := n) (arg := v) hn (by simpa using hb) (hargs v (by simp))
  rw [h1]
  exact ⟨b', rfl, by simpa using h2, h3⟩

/-- `srv -game csgo -x`. -/
example : (∀ a ∈ ([[115], [45, 103], [99, 115], [45, 120]] : List (List Byte)), 0 ∉ a) ∧ [45, 103] ∉ ([[115]] : List (List Byte)) ∧
    getCommandArgument (some (cmdBytes [[115], [45, 103], [99, 115], [45, 120]])) [45, 103] (some [7, 7, 7, 7]) 4 = .ok (true, some [99, 115, 0, 0]) :=
  ⟨by decide, by decide, rfl⟩

/-- C54: the argument is there without a value (last, or followed by another option): found, empty text. -/
theorem argument_without_value {A B : List (List Byte)} {name : List Byte} {b : Buf} {n : Nat} (hargs : ∀ a ∈ A ++ name :: B, 0 ∉ a)
    (hA : name ∉ A) (hB : ∀ v ∈ B.head?, v.head? = some 45) (hb : 1 ≤ b.length) :
    ∃ b', getCommandArgument (some (cmdBytes (A ++ name :: B))) name (some b) n = .ok (true, some b') ∧ b'.length = b.length ∧ IsStr b' [] := by
  unfold getCommandArgument cmdBytes
  simp only [bind, Except.bind, wr]
  rw [if_pos (by omega)]
  dsimp only
  rw [getArgs_spec hargs]
  have hs : IsStr (b.set 0 0) [] := by
    cases b with
    | nil => simp at hb
    | cons c b => exact ⟨b, rfl, by simp⟩
  rw [argLoop_skip hA, argLoop_step, beq_self_eq_true]
  cases B with
  | nil => exact ⟨_, rfl, by simp, hs⟩
  | cons v B =>
    rw [argLoop_value, if_neg (by simpa using hB v (by simp))]
    exact ⟨_, rfl, by simp, hs⟩

example : getCommandArgument (some (cmdBytes [[115], [45, 103], [45, 120]])) [45, 103] (some [7, 7]) 2 = .ok (true, some [0, 7]) := rfl

/-- C54: the argument is not there (or the command line cannot be read): not found, empty text. -/
theorem argument_absent {args : List (List Byte)} {name : List Byte} {b : Buf} {n : Nat} (hargs : ∀ a ∈ args, 0 ∉ a)
    (hA : name ∉ args) (hb : 1 ≤ b.length) :
    ∃ b', getCommandArgument (some (cmdBytes args)) name (some b) n = .ok (false, some b') ∧ getCommandArgument none name (some b) n = .ok (false, some b') ∧
      b'.length = b.length ∧ IsStr b' [] := by
  unfold getCommandArgument cmdBytes
  simp only [bind, Except.bind, wr]
  rw [if_pos (by omega)]
  dsimp only
  rw [getArgs_spec hargs]
  have hs : IsStr (b.set 0 0) [] := by
    cases b with
    | nil => simp at hb
    | cons c b => exact ⟨b, rfl, by simp⟩
  have := argLoop_skip (n := n) (rest := []) (b := some (b.set 0 0)) hA
  rw [List.append_nil] at this
  rw [this]
  exact ⟨_, rfl, rfl, by simp, hs⟩

example : getCommandArgument (some (cmdBytes [[115], [45, 103]])) [45, 104] (some [7, 7]) 2 = .ok (false, some [0, 7]) := rfl

end Verif.Util

#print axioms Verif.Util.format_spec
#print axioms Verif.Util.format_failure_terminates
#print axioms Verif.Util.format_zero_faults
#print axioms Verif.Util.pathFormat_spec
#print axioms Verif.Util.findPattern_partial
#print axioms Verif.Util.findPattern_misses_last
#print axioms Verif.Util.verifySignature_spec
#print axioms Verif.Util.argument_value
#print axioms Verif.Util.argument_without_value
#print axioms Verif.Util.argument_absent
