import Verif.Jit.Decode
/-
Helper lemmas about the instruction writer and the decoder.
-/
namespace Verif.Jit

theorem get32_bytes32 (x : BitVec 32) (rest : List Byte) :
    get32 (bytes32 x ++ rest) = some (x, rest) := by
  simp only [bytes32, List.cons_append, List.nil_append, get32, Option.some.injEq, Prod.mk.injEq,
    and_true]
  apply BitVec.eq_of_toNat_eq
  simp only [BitVec.toNat_ofNat, BitVec.extractLsb'_toNat, Nat.shiftRight_eq_div_pow]
  have := x.isLt
  omega

theorem get64_bytes64 (x : BitVec 64) (rest : List Byte) :
    get64 (bytes64 x ++ rest) = some (x, rest) := by
  simp only [bytes64, List.cons_append, List.nil_append, get64, get32, Option.some.injEq,
    Prod.mk.injEq, and_true]
  apply BitVec.eq_of_toNat_eq
  simp only [BitVec.toNat_ofNat, BitVec.extractLsb'_toNat, Nat.shiftRight_eq_div_pow]
  have := x.isLt
  omega

theorem sext_byte (d : BitVec 32) (h : -128 ≤ d.toInt ∧ d.toInt ≤ 127) :
    (d.extractLsb' 0 8).signExtend 32 = d := by
  apply BitVec.eq_of_toInt_eq
  have hd := d.isLt
  rw [BitVec.toInt_signExtend, BitVec.toInt_eq_toNat_bmod, BitVec.extractLsb'_toNat]
  rw [BitVec.toInt_eq_toNat_bmod] at *
  rw [show min 32 8 = 8 from rfl]
  simp only [Int.bmod_def, Nat.shiftRight_eq_div_pow] at *
  omega

theorem regNo_low : ∀ r : Fin 16, regNo (extended r) (low r) = r := by decide

theorem low_lt : ∀ r : Fin 16, low r < 8 := by decide

theorem mod_lt (m : RegRm) : m.mod < 3 := by
  unfold RegRm.mod; split
  · omega
  · split <;> omega

theorem modrm_fields : ∀ k : Fin 3, ∀ f r : Fin 16,
    (byte ((k.val <<< 6) ||| ((f.val &&& 0x7) <<< 3) ||| low r)).toNat / 64 = k.val ∧
    (byte ((k.val <<< 6) ||| ((f.val &&& 0x7) <<< 3) ||| low r)).toNat / 8 % 8 = f.val % 8 ∧
    (byte ((k.val <<< 6) ||| ((f.val &&& 0x7) <<< 3) ||| low r)).toNat % 8 = r.val % 8 := by
  decide +kernel

theorem regNo_mod : ∀ r : Fin 16, regNo (extended r) (r.val % 8) = r := by decide
theorem regNo_val : ∀ r : Fin 16, regNo (extended r) r.val = r := by decide

theorem getDisp_write (m : RegRm) (rest : List Byte) :
    getDisp m.mod ((if m.mod ≠ 0 then
          (if m.mod = 1 then [m.disp.extractLsb' 0 8]
           else if m.mod = 2 then bytes32 m.disp else [])
        else []) ++ rest) = some (m.disp, rest) := by
  unfold RegRm.mod
  by_cases h0 : m.disp = 0 ∧ m.rm ≠ rbp ∧ m.rm ≠ r13
  · simp [h0, getDisp]
  · by_cases h1 : -128 ≤ m.disp.toInt ∧ m.disp.toInt ≤ 127
    · simp only [h0, if_false, h1, and_self, if_true, getDisp]
      simp [sext_byte _ h1]
    · simp only [h0, if_false, h1, getDisp]
      simp [get32_bytes32]

theorem mod_zero (m : RegRm) (h : m.mod = 0) : m.rm ≠ rbp ∧ m.rm ≠ r13 := by
  unfold RegRm.mod at h
  split at h
  · rename_i h'; exact h'.2
  · split at h <;> omega

theorem sib_fields : ∀ r : Fin 16, (r = rsp ∨ r = r12) →
    (byte ((0 <<< 6) ||| (low r <<< 3) ||| low r)).toNat = 0x24 := by decide

theorem rm4 : ∀ r : Fin 16, r.val % 8 = 4 ↔ (r = rsp ∨ r = r12) := by decide
theorem rm5 : ∀ r : Fin 16, r.val % 8 = 5 ↔ (r = rbp ∨ r = r13) := by decide

/-- A memory operand as written is read back. -/
theorem getModRM_write (m : RegRm) (f : Fin 16) (rex : Rex) (hx : rex.x = false)
    (hb : rex.b = extended m.rm) (rest : List Byte) :
    getModRM rex (m.write f.val ++ rest)
      = some (f.val % 8, .mem ⟨.reg m.rm, none, m.disp⟩, rest) := by
  have hf := modrm_fields ⟨m.mod, mod_lt m⟩ f m.rm
  simp only at hf
  have hk := mod_lt m
  unfold RegRm.write
  simp only [List.cons_append, getModRM, RegRm.modrm]
  rw [hf.1, hf.2.1, hf.2.2]
  rw [if_neg (by omega)]
  unfold getMem
  by_cases h4 : m.rm = rsp ∨ m.rm = r12
  · rw [if_pos ((rm4 _).2 h4), if_pos h4]
    simp only [List.cons_append, List.nil_append, RegRm.sib, sib_fields _ h4, hx, hb]
    rw [if_neg (by omega), getDisp_write]
    have : ∀ r : Fin 16, (r = rsp ∨ r = r12) → regNo (extended r) 36 = r := by decide
    simp only [this _ h4]
    rfl
  · rw [if_neg (fun h => h4 ((rm4 _).1 h)), if_neg h4]
    rw [if_neg (fun h => by
      have := mod_zero m h.2
      rcases (rm5 _).1 h.1 with h' | h'
      · exact this.1 h'
      · exact this.2 h')]
    rw [List.nil_append, getDisp_write, hb]
    simp [regNo_mod]

theorem modrm_fields' : ∀ f r : Fin 16,
    (modrm f r).toNat / 64 = 3 ∧ (modrm f r).toNat / 8 % 8 = f.val % 8 ∧
    (∀ x, regNo x (modrm f r).toNat = regNo x r.val) := by
  decide +kernel

/-- A register operand as written is read back. -/
theorem getModRM_modrm (f r : Fin 16) (rex : Rex) (hb : rex.b = extended r) (rest : List Byte) :
    getModRM rex (modrm f r :: rest) = some (f.val % 8, .reg r, rest) := by
  have h := modrm_fields' f r
  simp only [getModRM]
  rw [h.1, h.2.1, h.2.2, hb, regNo_val]
  rfl

theorem modrmRm_fields : ∀ (f : Fin 8) (r : Fin 16),
    (modrmRm r f.val).toNat / 64 = 3 ∧ (modrmRm r f.val).toNat / 8 % 8 = f.val ∧
    (∀ x, regNo x (modrmRm r f.val).toNat = regNo x r.val) := by
  decide +kernel

theorem getModRM_modrmRm (f : Fin 8) (r : Fin 16) (rex : Rex) (hb : rex.b = extended r)
    (rest : List Byte) :
    getModRM rex (modrmRm r f.val :: rest) = some (f.val, .reg r, rest) := by
  have h := modrmRm_fields f r
  simp only [getModRM]
  rw [h.1, h.2.1, h.2.2, hb, regNo_val]
  rfl

theorem rexOf_wRex : ∀ reg rm : Fin 16,
    rexOf (wRex reg rm).toNat = some ⟨true, extended reg, false, extended rm⟩
    ∧ (wRex reg rm).toNat ≠ 0xF2 ∧ (wRex reg rm).toNat ≠ 0xF3 := by
  decide +kernel

theorem rexOf_rexW : ∀ r : Fin 16,
    rexOf (rexW r).toNat = some ⟨true, false, false, extended r⟩
    ∧ (rexW r).toNat ≠ 0xF2 ∧ (rexW r).toNat ≠ 0xF3 := by
  decide +kernel

/-- Decoding after a `w_rex` prefix. -/
theorem decode_wRex (reg rm : Fin 16) (l : List Byte) :
    decode (wRex reg rm :: l) = decodeOp ⟨true, extended reg, false, extended rm⟩ l := by
  have h := rexOf_wRex reg rm
  simp only [decode, h.2.1, h.2.2, if_false, getRex, h.1]

theorem decode_rexW (r : Fin 16) (l : List Byte) :
    decode (rexW r :: l) = decodeOp ⟨true, false, false, extended r⟩ l := by
  have h := rexOf_rexW r
  simp only [decode, h.2.1, h.2.2, if_false, getRex, h.1]

/-- Decoding after an optional `REX.B` prefix, if what follows does not start with a prefix. -/
theorem decode_rexB (r : Fin 16) (op : Byte) (l : List Byte)
    (h : rexOf op.toNat = none ∧ op.toNat ≠ 0xF2 ∧ op.toNat ≠ 0xF3) :
    decode (rexB r ++ op :: l) = decodeOp ⟨false, false, false, extended r⟩ (op :: l) := by
  unfold rexB
  cases he : extended r
  · simp only [Bool.false_eq_true, if_false, List.nil_append, decode, h.2.1, h.2.2, getRex, h.1]
    rfl
  · rfl

/-- Decoding without a prefix. -/
theorem decode_plain (op : Byte) (l : List Byte)
    (h : rexOf op.toNat = none ∧ op.toNat ≠ 0xF2 ∧ op.toNat ≠ 0xF3) :
    decode (op :: l) = decodeOp noRex (op :: l) := by
  simp only [decode, h.2.1, h.2.2, if_false, getRex, h.1]

end Verif.Jit
