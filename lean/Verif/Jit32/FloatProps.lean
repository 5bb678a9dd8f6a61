import Verif.Jit32.HookSpec
/-
C76: what becomes of a floating point parameter. The generated code takes it through the floating point stack; `quiet32` and
`quiet64` of the machine are compared here with the bits of the format.
-/
namespace Verif.Jit32

open Spec

/-- Specification: a NaN in a format with `f` bits of fraction and `e` bits of exponent: the exponent is all ones and the fraction
is not zero. No counterpart in /repo: IEEE 754. -/
def NaN (f e : Nat) {w : Nat} (v : BitVec w) : Prop :=
  (∀ i, f ≤ i → i < f + e → v.getLsbD i = true) ∧ ∃ i, i < f ∧ v.getLsbD i = true

private theorem nan_iff (f e : Nat) {w : Nat} (v : BitVec w) :
    (v.toNat / 2 ^ f % 2 ^ e = 2 ^ e - 1 ∧ v.toNat % 2 ^ f ≠ 0) ↔ NaN f e v := by
  unfold NaN
  refine and_congr ?_ ?_
  · constructor
    · intro h i h1 h2
      have : (v.toNat / 2 ^ f % 2 ^ e).testBit (i - f) = true := by
        rw [h, Nat.testBit_two_pow_sub_one]
        simp; omega
      rw [Nat.testBit_mod_two_pow, Nat.testBit_div_two_pow] at this
      simp only [Bool.and_eq_true] at this
      rw [show i - f + f = i by omega] at this
      exact this.2
    · intro h
      apply Nat.eq_of_testBit_eq
      intro j
      rw [Nat.testBit_two_pow_sub_one, Nat.testBit_mod_two_pow, Nat.testBit_div_two_pow]
      by_cases hj : j < e
      · have := h (j + f) (by omega) (by omega)
        simp only [hj, decide_true, Bool.true_and]
        exact this
      · simp [hj]
  · constructor
    · intro h
      refine Classical.byContradiction fun hn => h ?_
      apply Nat.eq_of_testBit_eq
      intro j
      rw [Nat.testBit_mod_two_pow, Nat.zero_testBit]
      by_cases hj : j < f
      · have : v.getLsbD j = false := by
          cases hb : v.getLsbD j with
          | false => rfl
          | true => exact absurd ⟨j, hj, hb⟩ hn
        simp only [hj, decide_true, Bool.true_and]
        exact this
      · simp [hj]
    · rintro ⟨i, hi, hb⟩ h0
      have : (v.toNat % 2 ^ f).testBit i = true := by
        rw [Nat.testBit_mod_two_pow]
        simp only [hi, decide_true, Bool.true_and]
        exact hb
      rw [h0, Nat.zero_testBit] at this
      exact absurd this (by decide)

private theorem bit22 : ∀ i, i < 32 → (0x400000#32).getLsbD i = decide (i = 22) := by decide
private theorem bit51 : ∀ i, i < 64 → (0x8000000000000#64).getLsbD i = decide (i = 51) := by decide +kernel

/-- C76: loading and storing a number of single precision changes no number and no quiet NaN; of a signalling NaN exactly the
highest bit of the fraction is set. -/
theorem quiet32_bits (v : BitVec 32) :
    (¬ NaN 23 8 v → quiet32 v = v) ∧
    (NaN 23 8 v → ∀ i, i < 32 → (quiet32 v).getLsbD i = (v.getLsbD i || decide (i = 22))) := by
  refine ⟨fun h => ?_, fun h i hi => ?_⟩
  · unfold quiet32
    rw [if_neg (fun k => h ((nan_iff 23 8 v).1 k))]
  · unfold quiet32
    rw [if_pos ((nan_iff 23 8 v).2 h), BitVec.getLsbD_or, bit22 i hi]

/-- C76: the same for double precision. -/
theorem quiet64_bits (v : BitVec 64) :
    (¬ NaN 52 11 v → quiet64 v = v) ∧
    (NaN 52 11 v → ∀ i, i < 64 → (quiet64 v).getLsbD i = (v.getLsbD i || decide (i = 51))) := by
  refine ⟨fun h => ?_, fun h i hi => ?_⟩
  · unfold quiet64
    rw [if_neg (fun k => h ((nan_iff 52 11 v).1 k))]
  · unfold quiet64
    rw [if_pos ((nan_iff 52 11 v).2 h), BitVec.getLsbD_or, bit51 i hi]

/-- C76: a parameter that is passed by value and is a number of single or double precision, and no signalling NaN, arrives at the
handlers and the original function with the bytes the caller gave. -/
theorem float_arrives (m : Memory) (a : W) (p : Pass) (hr : p.flags.getLsbD 1 = false) (ht : p.type = 2) :
    (p.size = 4 → (¬ NaN 23 8 (rd m a) ∨ (rd m a).getLsbD 22 = true) → paramBytes m a p = word (rd m a)) ∧
    (p.size = 8 → (¬ NaN 52 11 (rd64 m a) ∨ (rd64 m a).getLsbD 51 = true) →
      paramBytes m a p = word ((rd64 m a).extractLsb' 0 32) ++ word ((rd64 m a).extractLsb' 32 32)) := by
  have q32 : ∀ v : BitVec 32, (¬ NaN 23 8 v ∨ v.getLsbD 22 = true) → quiet32 v = v := by
    intro v h
    by_cases hn : NaN 23 8 v
    · apply BitVec.eq_of_getLsbD_eq
      intro i hi
      rw [(quiet32_bits v).2 hn i hi]
      rcases h with h | h
      · exact absurd hn h
      · by_cases e : i = 22
        · simp [e, h]
        · simp [e]
    · exact (quiet32_bits v).1 hn
  have q64 : ∀ v : BitVec 64, (¬ NaN 52 11 v ∨ v.getLsbD 51 = true) → quiet64 v = v := by
    intro v h
    by_cases hn : NaN 52 11 v
    · apply BitVec.eq_of_getLsbD_eq
      intro i hi
      rw [(quiet64_bits v).2 hn i hi]
      rcases h with h | h
      · exact absurd hn h
      · by_cases e : i = 51
        · simp [e, h]
        · simp [e]
    · exact (quiet64_bits v).1 hn
  refine ⟨fun hs h => ?_, fun hs h => ?_⟩
  · unfold paramBytes
    rw [hr, ht, hs]
    simp [q32 _ h]
  · unfold paramBytes
    rw [hr, ht, hs]
    simp [q64 _ h]

/-- C76, finding: a signalling NaN does not arrive as it was given: the code for 32 bits carries floating point parameters through
the floating point stack, and what handlers and original see differs from the caller's value in one bit. -/
theorem signalling_nan_altered (m : Memory) (a : W) (p : Pass) (hr : p.flags.getLsbD 1 = false) (ht : p.type = 2) (hz : p.size = 4)
    (h : NaN 23 8 (rd m a)) (hs : (rd m a).getLsbD 22 = false) :
    ∃ v, paramBytes m a p = word v ∧ v ≠ rd m a ∧ ∀ i, i < 32 → i ≠ 22 → v.getLsbD i = (rd m a).getLsbD i := by
  refine ⟨quiet32 (rd m a), by unfold paramBytes; rw [hr, ht, hz]; simp, ?_, ?_⟩
  · intro e
    have := (quiet32_bits (rd m a)).2 h 22 (by omega)
    rw [e, hs] at this
    exact absurd this (by decide)
  · intro i hi hn
    rw [(quiet32_bits (rd m a)).2 h i hi]
    simp [hn]

example : NaN 23 8 (0x7F800001#32) ∧ (0x7F800001#32).getLsbD 22 = false ∧ ¬ NaN 23 8 (0x3F800000#32) := by
  refine ⟨(nan_iff 23 8 _).1 (by decide), by decide, fun k => absurd ((nan_iff 23 8 _).2 k) (by decide)⟩

example : NaN 52 11 (0x7FF0000000000001#64) ∧ ¬ NaN 52 11 (0x7FF0000000000000#64) :=
  ⟨(nan_iff 52 11 _).1 (by decide), fun k => absurd ((nan_iff 52 11 _).2 k) (by decide)⟩

/-- No counterpart in /repo: a parameter of type `float` by value, for the example. -/
def floatPass : Pass := { size := 4, type := 2, flags := 1, ctor := 0, cctor := 0, dtor := 0, assign := 0 }

/-- No counterpart in /repo: memory with the bytes of a signalling NaN at 0x1000. -/
def floatMem : Memory := fun a => if a = 0x1000 then 1 else if a = 0x1002 then 0x80 else if a = 0x1003 then 0x7F else 0

example : floatPass.flags.getLsbD 1 = false ∧ NaN 23 8 (rd floatMem 0x1000) ∧ (rd floatMem 0x1000).getLsbD 22 = false :=
  ⟨by decide, (nan_iff 23 8 _).1 (by decide), by decide⟩

#print axioms quiet32_bits
#print axioms quiet64_bits
#print axioms float_arrives
#print axioms signalling_nan_altered

end Verif.Jit32
