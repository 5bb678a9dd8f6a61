import Verif.Jit32.AsmLemmas
/-
C73: what the 32-bit instruction writer pushes is, read as the processor reads it, the instruction
that the called function names, with the operands given, for every register, displacement and
immediate for which the function is meant (`Op.Fits`); and where it is not.
-/
namespace Verif.Jit32

open Verif.Jit (Byte byte bytes32 get32 get32_bytes32 sext_byte)

/-- Specification: reading a whole byte sequence as instructions. -/
inductive Reads : List Byte → List Instr → Prop
  | nil : Reads [] []
  | cons {l rest : List Byte} {i : Instr} {is : List Instr} :
      decode l = some (i, rest) → Reads rest is → Reads l (i :: is)

/-- **Finding.** The operand size prefix that core/sourcehook/sourcehook_hookmangen_x86.cpp:311-313
puts in front of `IA32_Movzx_Reg32_Rm16` turns it into a move of two bytes: the upper half of the
register is kept, not zeroed. -/
theorem movzx16_prefixed (r rm : Reg) (d : BitVec 32) (h : rm ≠ 4) (rest : List Byte) :
    decode (byte 0x66 :: ((Op.movzx16Auto r rm d).bytes ++ rest))
      = some (.mov16Rev r (at32 rm d), rest) := by
  by_cases h8 : -128 ≤ d.toInt ∧ d.toInt ≤ 127
  · simp only [Op.bytes, (fits8_iff d).2 h8, if_true]
    rw [← at8_lo8 _ h8]
    exact (dec_660FB7 _).trans (withRM_of (getModRM_m8 _ _ _ h _) rfl)
  · simp only [Op.bytes, mt (fits8_iff d).1 h8]
    exact (dec_660FB7 _).trans (withRM_of (getModRM_m32 _ _ _ h _) rfl)

/-- **C73.** Every call of the writer with arguments it is meant for writes exactly the instruction
it names: the processor decodes that instruction and continues right behind it. -/
theorem roundTrip (o : Op) (h : o.Fits) (rest : List Byte) :
    decode (o.bytes ++ rest) = some (o.instr, rest) := by
  cases o with
  | int3 => exact dec_CC _
  | incReg r => exact dec_r40 _ _
  | incD8 rm d => exact (dec_FF _).trans (group_of (getModRM_m8 _ _ _ h _) rfl)
  | incD32 rm d => exact (dec_FF _).trans (group_of (getModRM_m32 _ _ _ h _) rfl)
  | incSib b i k => exact (dec_FF _).trans (group_of (getModRM_s0 _ _ _ _ h _) rfl)
  | decReg r => exact dec_r48 _ _
  | decD8 rm d => exact (dec_FF _).trans (group_of (getModRM_m8 _ _ _ h _) rfl)
  | decD32 rm d => exact (dec_FF _).trans (group_of (getModRM_m32 _ _ _ h _) rfl)
  | decSib b i k => exact (dec_FF _).trans (group_of (getModRM_s0 _ _ _ _ h _) rfl)
  | xorRmReg rm r mode => exact (dec_31 _).trans (withRM_of (getModRM_mrm _ _ _ h _) rfl)
  | xorRegRm r rm mode => exact (dec_33 _).trans (withRM_of (getModRM_mrm _ _ _ h _) rfl)
  | xorImm8 rm mode v => exact (dec_83 _).trans (withImm_of (getModRM_mrm _ _ _ h _) (get8_cons _ _) rfl)
  | xorImm32 rm mode v => exact (dec_81 _).trans (withImm_of (getModRM_mrm _ _ _ h _) (get32_bytes32 _ _) rfl)
  | xorEax v => exact (dec_35 _).trans (imm_of (get32_bytes32 _ _) rfl)
  | neg rm mode => exact f7_of (getModRM_mrm _ _ _ h _) (by decide) rfl
  | orRegRm r rm mode => exact (dec_0B _).trans (withRM_of (getModRM_mrm _ _ _ h _) rfl)
  | andRegRm r rm mode => exact (dec_23 _).trans (withRM_of (getModRM_mrm _ _ _ h _) rfl)
  | andImm32 rm mode v => exact (dec_81 _).trans (withImm_of (getModRM_mrm _ _ _ h _) (get32_bytes32 _ _) rfl)
  | andImm8 rm mode v => exact (dec_83 _).trans (withImm_of (getModRM_mrm _ _ _ h _) (get8_cons _ _) rfl)
  | andEax v => exact (dec_25 _).trans (imm_of (get32_bytes32 _ _) rfl)
  | not rm mode => exact f7_of (getModRM_mrm _ _ _ h _) (by decide) rfl
  | shrImm rm v mode => exact c1_of (getModRM_mrm _ _ _ h _) rfl
  | shr1 rm mode => exact (dec_D1 _).trans (group_of (getModRM_mrm _ _ _ h _) rfl)
  | shlImm rm v mode => exact c1_of (getModRM_mrm _ _ _ h _) rfl
  | shl1 rm mode => exact (dec_D1 _).trans (group_of (getModRM_mrm _ _ _ h _) rfl)
  | sarImm rm v mode => exact c1_of (getModRM_mrm _ _ _ h _) rfl
  | sarCl rm mode => exact (dec_D3 _).trans (group_of (getModRM_mrm _ _ _ h _) rfl)
  | sar1 rm mode => exact (dec_D1 _).trans (group_of (getModRM_mrm _ _ _ h _) rfl)
  | shrCl rm mode => exact (dec_D3 _).trans (group_of (getModRM_mrm _ _ _ h _) rfl)
  | shlCl rm mode => exact (dec_D3 _).trans (group_of (getModRM_mrm _ _ _ h _) rfl)
  | xchgEax r => exact dec_r90 _ _
  | addRmReg rm r mode => exact (dec_01 _).trans (withRM_of (getModRM_mrm _ _ _ h _) rfl)
  | addRegRm r rm mode => exact (dec_03 _).trans (withRM_of (getModRM_mrm _ _ _ h _) rfl)
  | addImm8 rm v mode => exact (dec_83 _).trans (withImm_of (getModRM_mrm _ _ _ h _) (get8_cons _ _) rfl)
  | addImm32 rm v mode => exact (dec_81 _).trans (withImm_of (getModRM_mrm _ _ _ h _) (get32_bytes32 _ _) rfl)
  | addImmAuto rm v mode =>
    by_cases h8 : -128 ≤ v.toInt ∧ v.toInt ≤ 127
    · simp only [Op.bytes, (fits8_iff v).2 h8, if_true]
      exact (dec_83 _).trans (withImm_of (getModRM_mrm _ _ _ h _) (get8_cons _ _) (by rw [sx8_lo8 h8]; rfl))
    · simp only [Op.bytes, mt (fits8_iff v).1 h8]
      exact (dec_81 _).trans (withImm_of (getModRM_mrm _ _ _ h _) (get32_bytes32 _ _) rfl)
  | addEax v => exact (dec_05 _).trans (imm_of (get32_bytes32 _ _) rfl)
  | subRmReg rm r mode => exact (dec_29 _).trans (withRM_of (getModRM_mrm _ _ _ h _) rfl)
  | subRegRm r rm mode => exact (dec_2B _).trans (withRM_of (getModRM_mrm _ _ _ h _) rfl)
  | subRegD8 r rm d => exact (dec_2B _).trans (withRM_of (getModRM_m8 _ _ _ h _) rfl)
  | subD8Reg rm r d => exact (dec_29 _).trans (withRM_of (getModRM_m8 _ _ _ h _) rfl)
  | subImm8 rm v mode => exact (dec_83 _).trans (withImm_of (getModRM_mrm _ _ _ h _) (get8_cons _ _) rfl)
  | subImm32 rm v mode => exact (dec_81 _).trans (withImm_of (getModRM_mrm _ _ _ h _) (get32_bytes32 _ _) rfl)
  | subImmAuto rm v mode =>
    by_cases h8 : -128 ≤ v.toInt ∧ v.toInt ≤ 127
    · simp only [Op.bytes, (fits8_iff v).2 h8, if_true]
      exact (dec_83 _).trans (withImm_of (getModRM_mrm _ _ _ h _) (get8_cons _ _) (by rw [sx8_lo8 h8]; rfl))
    · simp only [Op.bytes, mt (fits8_iff v).1 h8]
      exact (dec_81 _).trans (withImm_of (getModRM_mrm _ _ _ h _) (get32_bytes32 _ _) rfl)
  | sbbRegRm r rm mode => exact (dec_1B _).trans (withRM_of (getModRM_mrm _ _ _ h _) rfl)
  | sbbImm8 rm v mode => exact (dec_83 _).trans (withImm_of (getModRM_mrm _ _ _ h _) (get8_cons _ _) rfl)
  | div rm mode => exact f7_of (getModRM_mrm _ _ _ h _) (by decide) rfl
  | idiv rm mode => exact f7_of (getModRM_mrm _ _ _ h _) (by decide) rfl
  | mul rm mode => exact f7_of (getModRM_mrm _ _ _ h _) (by decide) rfl
  | imul rm mode => exact f7_of (getModRM_mrm _ _ _ h _) (by decide) rfl
  | imulImm8 rm mode v =>
    obtain ⟨h, rfl⟩ := h
    exact (dec_6B _).trans (withImm_of (getModRM_mrm _ _ _ h _) (get8_cons _ _) rfl)
  | imulImm32 rm mode v =>
    obtain ⟨h, rfl⟩ := h
    exact (dec_69 _).trans (withImm_of (getModRM_mrm _ _ _ h _) (get32_bytes32 _ _) rfl)
  | imulRegRm r rm mode => exact (dec_0FAF _).trans (withRM_of (getModRM_mrm _ _ _ h _) rfl)
  | addD8Reg rm r d => exact (dec_01 _).trans (withRM_of (getModRM_m8 _ _ _ h _) rfl)
  | addRegD8 r rm d => exact (dec_03 _).trans (withRM_of (getModRM_m8 _ _ _ h _) rfl)
  | addImm8D8 rm v d => exact (dec_83 _).trans (withImm_of (getModRM_m8 _ _ _ h _) (get8_cons _ _) rfl)
  | addImm32D8 rm v d => exact (dec_81 _).trans (withImm_of (getModRM_m8 _ _ _ h _) (get32_bytes32 _ _) rfl)
  | addLater rm mode => exact (dec_81 _).trans (withImm_of (getModRM_mrm _ _ _ h _) (get32_bytes32 _ _) rfl)
  | addImm8D32 rm v d => exact (dec_83 _).trans (withImm_of (getModRM_m32 _ _ _ h _) (get8_cons _ _) rfl)
  | addImm8Sib b i k v => exact (dec_83 _).trans (withImm_of (getModRM_s8 _ _ _ _ _ _) (get8_cons _ _) rfl)
  | subImm8D8 rm v d => exact (dec_83 _).trans (withImm_of (getModRM_m8 _ _ _ h _) (get8_cons _ _) rfl)
  | subImm8D32 rm v d => exact (dec_83 _).trans (withImm_of (getModRM_m32 _ _ _ h _) (get8_cons _ _) rfl)
  | subImm8Sib b i k v => exact (dec_83 _).trans (withImm_of (getModRM_s8 _ _ _ _ _ _) (get8_cons _ _) rfl)
  | leaSib r b i k => exact (dec_8D _).trans (withM_of (getModRM_s0 _ _ _ _ h _) rfl)
  | leaEbpSib r b i k => exact (dec_8D _).trans (withM_of (getModRM_s8 _ _ _ _ _ _) rfl)
  | leaSib8 r b i k d => exact (dec_8D _).trans (withM_of (getModRM_s8 _ _ _ _ _ _) rfl)
  | leaSib32 r b i k d => exact (dec_8D _).trans (withM_of (getModRM_s32 _ _ _ _ _ _) rfl)
  | leaNoBase r i k d => exact (dec_8D _).trans (withM_of (getModRM_sn _ _ _ _ _) rfl)
  | lea8 r rm d => exact (dec_8D _).trans (withM_of (getModRM_m8 _ _ _ h _) rfl)
  | lea32 r rm d => exact (dec_8D _).trans (withM_of (getModRM_m32 _ _ _ h _) rfl)
  | leaAuto r rm d =>
    by_cases h8 : -128 ≤ d.toInt ∧ d.toInt ≤ 127
    · simp only [Op.bytes, (fits8_iff d).2 h8, if_true, Op.instr]
      have e := getModRM_m8 r rm (lo8 d) h rest
      rw [at8_lo8 _ h8] at e
      exact (dec_8D _).trans (withM_of e rfl)
    · simp only [Op.bytes, mt (fits8_iff d).1 h8]
      exact (dec_8D _).trans (withM_of (getModRM_m32 _ _ _ h _) rfl)
  | pop r => exact dec_r58 _ _
  | push r => exact dec_r50 _ _
  | pushImm8 v => exact (dec_6A _).trans (imm_of (get8_cons _ _) rfl)
  | pushImm32 v => exact (dec_68 _).trans (imm_of (get32_bytes32 _ _) rfl)
  | pushad => exact dec_60 _
  | popad => exact dec_61 _
  | pushD8 rm d => exact (dec_FF _).trans (group_of (getModRM_m8 _ _ _ h _) rfl)
  | pushD32 rm d => exact (dec_FF _).trans (group_of (getModRM_m32 _ _ _ h _) rfl)
  | pushAuto rm d =>
    by_cases h8 : -128 ≤ d.toInt ∧ d.toInt ≤ 127
    · simp only [Op.bytes, (fits8_iff d).2 h8, if_true, Op.instr]
      rw [← at8_lo8 _ h8]
      exact (dec_FF _).trans (group_of (getModRM_m8 _ _ _ h _) rfl)
    · simp only [Op.bytes, mt (fits8_iff d).1 h8]
      exact (dec_FF _).trans (group_of (getModRM_m32 _ _ _ h _) rfl)
  | pushEsp d => exact (dec_FF _).trans (group_of (getModRM_s8 _ _ _ _ _ _) rfl)
  | movRegRm r rm mode => exact (dec_8B _).trans (withRM_of (getModRM_mrm _ _ _ h _) rfl)
  | mov8RegRm r rm mode => exact (dec_8A _).trans (withRM_of (getModRM_mrm _ _ _ h _) rfl)
  | movRegEsp0 r => exact (dec_8B _).trans (withRM_of (getModRM_s0 _ _ _ _ (by decide) _) rfl)
  | movRegD8 r rm d => exact (dec_8B _).trans (withRM_of (getModRM_m8 _ _ _ h _) rfl)
  | mov8RegD8 r rm d => exact (dec_8A _).trans (withRM_of (getModRM_m8 _ _ _ h _) rfl)
  | movRegEsp r d => exact (dec_8B _).trans (withRM_of (getModRM_s8 _ _ _ _ _ _) rfl)
  | movRegD32 r rm d => exact (dec_8B _).trans (withRM_of (getModRM_m32 _ _ _ h _) rfl)
  | mov8RegD32 r rm d => exact (dec_8A _).trans (withRM_of (getModRM_m32 _ _ _ h _) rfl)
  | movRegSib r b i k => exact (dec_8B _).trans (withRM_of (getModRM_s0 _ _ _ _ h _) rfl)
  | movRegSib8 r b i k d => exact (dec_8B _).trans (withRM_of (getModRM_s8 _ _ _ _ _ _) rfl)
  | movRegEbpSib r b i k => exact (dec_8B _).trans (withRM_of (getModRM_s8 _ _ _ _ _ _) rfl)
  | movRegAuto r rm d =>
    obtain ⟨h4, hl, h5⟩ := h
    have e : getModRM ((if d = 0 then [mrm 0 r rm] else if d.toInt ≤ 127 then m8 r rm (lo8 d)
        else m32 r rm d) ++ rest) = some (r, at32 rm d, rest) := getModRM_auto _ _ _ h4 hl h5 _
    have e' : (Op.movRegAuto r rm d).bytes = byte 0x8B :: (if d = 0 then [mrm 0 r rm]
        else if d.toInt ≤ 127 then m8 r rm (lo8 d) else m32 r rm d) := by
      simp only [Op.bytes]; split
      · rfl
      · split <;> rfl
    rw [e']
    exact (dec_8B _).trans (withRM_of e rfl)
  | movRmReg rm r mode => exact (dec_89 _).trans (withRM_of (getModRM_mrm _ _ _ h _) rfl)
  | mov8RmReg rm r mode => exact (dec_88 _).trans (withRM_of (getModRM_mrm _ _ _ h _) rfl)
  | mov8D8Reg rm r d => exact (dec_88 _).trans (withRM_of (getModRM_m8 _ _ _ h _) rfl)
  | mov8D32Reg rm r d => exact (dec_88 _).trans (withRM_of (getModRM_m32 _ _ _ h _) rfl)
  | mov8AutoReg rm r d =>
    by_cases h8 : -128 ≤ d.toInt ∧ d.toInt ≤ 127
    · simp only [Op.bytes, (fits8_iff d).2 h8, if_true, Op.instr]
      rw [← at8_lo8 _ h8]
      exact (dec_88 _).trans (withRM_of (getModRM_m8 _ _ _ h _) rfl)
    · simp only [Op.bytes, mt (fits8_iff d).1 h8]
      exact (dec_88 _).trans (withRM_of (getModRM_m32 _ _ _ h _) rfl)
  | movEspReg r => exact (dec_89 _).trans (withRM_of (getModRM_s0 _ _ _ _ (by decide) _) rfl)
  | movD8Reg rm r d => exact (dec_89 _).trans (withRM_of (getModRM_m8 _ _ _ h _) rfl)
  | movD32Reg rm r d => exact (dec_89 _).trans (withRM_of (getModRM_m32 _ _ _ h _) rfl)
  | movAutoReg rm r d =>
    by_cases h8 : -128 ≤ d.toInt ∧ d.toInt ≤ 127
    · simp only [Op.bytes, (fits8_iff d).2 h8, if_true, Op.instr]
      rw [← at8_lo8 _ h8]
      exact (dec_89 _).trans (withRM_of (getModRM_m8 _ _ _ h _) rfl)
    · simp only [Op.bytes, mt (fits8_iff d).1 h8]
      exact (dec_89 _).trans (withRM_of (getModRM_m32 _ _ _ h _) rfl)
  | movSibReg b i k r => exact (dec_89 _).trans (withRM_of (getModRM_s8 _ _ _ _ _ _) rfl)
  | mov8SibReg b i k r => exact (dec_88 _).trans (withRM_of (getModRM_s8 _ _ _ _ _ _) rfl)
  | mov16SibReg b i k r => exact (dec_6689 _).trans (withRM_of (getModRM_s8 _ _ _ _ _ _) rfl)
  | movImm r v => exact (dec_rB8 _ _).trans (imm_of (get32_bytes32 _ _) rfl)
  | movRmImm rm v mode => exact (dec_C7 _).trans (withImm_of (getModRM_mrm _ _ _ h _) (get32_bytes32 _ _) rfl)
  | movD8Imm rm v d => exact (dec_C7 _).trans (withImm_of (getModRM_m8 _ _ _ h _) (get32_bytes32 _ _) rfl)
  | movD32Imm rm v d => exact (dec_C7 _).trans (withImm_of (getModRM_m32 _ _ _ h _) (get32_bytes32 _ _) rfl)
  | movSibImm b i k v => exact (dec_C7 _).trans (withImm_of (getModRM_s8 _ _ _ _ _ _) (get32_bytes32 _ _) rfl)
  | movEspImm d v => exact (dec_C7 _).trans (withImm_of (getModRM_s8 _ _ _ _ _ _) (get32_bytes32 _ _) rfl)
  | fstcwEsp => exact fstcw_of (getModRM_s0 _ _ _ _ (by decide) _)
  | fldcwEsp => exact (dec_D9 _).trans (group_of (getModRM_s0 _ _ _ _ (by decide) _) rfl)
  | fldcwEspD8 d => exact (dec_D9 _).trans (group_of (getModRM_s8 _ _ _ _ _ _) rfl)
  | fistpEsp => exact (dec_DB _).trans (group_of (getModRM_s0 _ _ _ _ (by decide) _) rfl)
  | fistpEspD8 d => exact (dec_DB _).trans (group_of (getModRM_s8 _ _ _ _ _ _) rfl)
  | fucomip r => exact dec_fpDF _ _
  | faddReg r => exact dec_fpDC _ _
  | faddD8 rm d => exact (dec_D8 _).trans (group_of (getModRM_m8 _ _ _ h _) rfl)
  | faddEsp => exact (dec_D8 _).trans (group_of (getModRM_s0 _ _ _ _ (by decide) _) rfl)
  | fsubD8 rm d => exact (dec_D8 _).trans (group_of (getModRM_m8 _ _ _ h _) rfl)
  | fmulD8 rm d => exact (dec_D8 _).trans (group_of (getModRM_m8 _ _ _ h _) rfl)
  | fdivD8 rm d => exact (dec_D8 _).trans (group_of (getModRM_m8 _ _ _ h _) rfl)
  | fild rm => exact (dec_DB _).trans (group_of (getModRM_mrm _ _ _ (okMode0 h) _) rfl)
  | fstp32 rm => exact (dec_D9 _).trans (group_of (getModRM_mrm _ _ _ (okMode0 h) _) rfl)
  | fstp32Auto rm d =>
    obtain ⟨h4, hl, hh⟩ := h
    have e := getModRM_m8 3 rm (lo8 d) h4 rest
    rw [at8_lo8 _ (by omega)] at e
    simp only [Op.bytes, if_pos (And.intro hl hh)]
    exact (dec_D9 _).trans (group_of e rfl)
  | fstp64 rm => exact (dec_DD _).trans (group_of (getModRM_mrm _ _ _ (okMode0 h) _) rfl)
  | fstp64Auto rm d =>
    obtain ⟨h4, hl, hh⟩ := h
    have e := getModRM_m8 3 rm (lo8 d) h4 rest
    rw [at8_lo8 _ (by omega)] at e
    simp only [Op.bytes, if_pos (And.intro hl hh)]
    exact (dec_DD _).trans (group_of e rfl)
  | fstp32Esp => exact (dec_D9 _).trans (group_of (getModRM_s0 _ _ _ _ (by decide) _) rfl)
  | fstp64Esp => exact (dec_DD _).trans (group_of (getModRM_s0 _ _ _ _ (by decide) _) rfl)
  | fstpReg r => exact dec_fpDD _ _
  | fld32 rm => exact (dec_D9 _).trans (group_of (getModRM_mrm _ _ _ (okMode0 h) _) rfl)
  | fld64 rm => exact (dec_DD _).trans (group_of (getModRM_mrm _ _ _ (okMode0 h) _) rfl)
  | fld32D8 rm d => exact (dec_D9 _).trans (group_of (getModRM_m8 _ _ _ h _) rfl)
  | fld64D8 rm d => exact (dec_DD _).trans (group_of (getModRM_m8 _ _ _ h _) rfl)
  | fld32D32 rm d => exact (dec_D9 _).trans (group_of (getModRM_m32 _ _ _ h _) rfl)
  | fld64D32 rm d => exact (dec_DD _).trans (group_of (getModRM_m32 _ _ _ h _) rfl)
  | fld32Auto rm d =>
    obtain ⟨h4, hl, h5⟩ := h
    have e : getModRM ((if d = 0 then [mrm 0 0 rm] else if d.toInt ≤ 127 then m8 0 rm (lo8 d)
        else m32 0 rm d) ++ rest) = some (0, at32 rm d, rest) := getModRM_auto _ _ _ h4 hl h5 _
    have e' : (Op.fld32Auto rm d).bytes = byte 0xD9 :: (if d = 0 then [mrm 0 0 rm]
        else if d.toInt ≤ 127 then m8 0 rm (lo8 d) else m32 0 rm d) := by
      simp only [Op.bytes]; split
      · rfl
      · split <;> rfl
    rw [e']
    exact (dec_D9 _).trans (group_of e rfl)
  | fld64Auto rm d =>
    obtain ⟨h4, hl, h5⟩ := h
    have e : getModRM ((if d = 0 then [mrm 0 0 rm] else if d.toInt ≤ 127 then m8 0 rm (lo8 d)
        else m32 0 rm d) ++ rest) = some (0, at32 rm d, rest) := getModRM_auto _ _ _ h4 hl h5 _
    have e' : (Op.fld64Auto rm d).bytes = byte 0xDD :: (if d = 0 then [mrm 0 0 rm]
        else if d.toInt ≤ 127 then m8 0 rm (lo8 d) else m32 0 rm d) := by
      simp only [Op.bytes]; split
      · rfl
      · split <;> rfl
    rw [e']
    exact (dec_DD _).trans (group_of e rfl)
  | movzx8 r rm mode => exact (dec_0FB6 _).trans (withRM_of (getModRM_mrm _ _ _ h _) rfl)
  | movzx8D8 r rm d => exact (dec_0FB6 _).trans (withRM_of (getModRM_m8 _ _ _ h _) rfl)
  | movzx8D32 r rm d => exact (dec_0FB6 _).trans (withRM_of (getModRM_m32 _ _ _ h _) rfl)
  | movzx8Auto r rm d =>
    by_cases h8 : -128 ≤ d.toInt ∧ d.toInt ≤ 127
    · simp only [Op.bytes, (fits8_iff d).2 h8, if_true, Op.instr]
      rw [← at8_lo8 _ h8]
      exact (dec_0FB6 _).trans (withRM_of (getModRM_m8 _ _ _ h _) rfl)
    · simp only [Op.bytes, mt (fits8_iff d).1 h8]
      exact (dec_0FB6 _).trans (withRM_of (getModRM_m32 _ _ _ h _) rfl)
  | movzx16 r rm mode => exact (dec_0FB7 _).trans (withRM_of (getModRM_mrm _ _ _ h _) rfl)
  | movzx16D8 r rm d => exact (dec_0FB7 _).trans (withRM_of (getModRM_m8 _ _ _ h _) rfl)
  | movzx16D32 r rm d => exact (dec_0FB7 _).trans (withRM_of (getModRM_m32 _ _ _ h _) rfl)
  | movzx16Auto r rm d =>
    by_cases h8 : -128 ≤ d.toInt ∧ d.toInt ≤ 127
    · simp only [Op.bytes, (fits8_iff d).2 h8, if_true, Op.instr]
      rw [← at8_lo8 _ h8]
      exact (dec_0FB7 _).trans (withRM_of (getModRM_m8 _ _ _ h _) rfl)
    · simp only [Op.bytes, mt (fits8_iff d).1 h8]
      exact (dec_0FB7 _).trans (withRM_of (getModRM_m32 _ _ _ h _) rfl)
  | movzx16Pre r rm d => exact movzx16_prefixed r rm d h rest
  | jcc8 c d => exact (dec_c70 _ _).trans (imm_of (get8_cons _ _) rfl)
  | jmp32 d => exact (dec_E9 _).trans (imm_of (get32_bytes32 _ _) rfl)
  | jmp8 d => exact (dec_EB _).trans (imm_of (get8_cons _ _) rfl)
  | jcc32 c d => exact (dec_c0F80 _ _).trans (imm_of (get32_bytes32 _ _) rfl)
  | jmpReg r => exact (dec_FF _).trans (group_of (getModRM_mrm _ _ _ (okMode3 _) _) rfl)
  | jmpRm rm mode => exact (dec_FF _).trans (group_of (getModRM_mrm _ _ _ h _) rfl)
  | callRel d => exact (dec_E8 _).trans (imm_of (get32_bytes32 _ _) rfl)
  | call r => exact (dec_FF _).trans (group_of (getModRM_mrm _ _ _ (okMode3 _) _) rfl)
  | callRm rm mode => exact h.elim
  | ret => exact dec_C3 _
  | retn n => exact (dec_C2 _ _ _).trans (by rw [ofNat16]; rfl)
  | testRmReg rm r mode => exact (dec_85 _).trans (withRM_of (getModRM_mrm _ _ _ h _) rfl)
  | test8RmReg rm r mode => exact (dec_84 _).trans (withRM_of (getModRM_mrm _ _ _ h _) rfl)
  | testImm rm v mode => exact f7imm_of (getModRM_mrm _ _ _ h _)
  | cmpRmReg rm r mode => exact (dec_39 _).trans (withRM_of (getModRM_mrm _ _ _ h _) rfl)
  | cmpRegRm r rm mode => exact (dec_3B _).trans (withRM_of (getModRM_mrm _ _ _ h _) rfl)
  | cmpRegEsp r => exact (dec_3B _).trans (withRM_of (getModRM_s0 _ _ _ _ (by decide) _) rfl)
  | cmpRegD8 r rm d => exact (dec_3B _).trans (withRM_of (getModRM_m8 _ _ _ h _) rfl)
  | cmpImm8 mode rm v => exact (dec_83 _).trans (withImm_of (getModRM_mrm _ _ _ h _) (get8_cons _ _) rfl)
  | cmpImm32 mode rm v => exact (dec_81 _).trans (withImm_of (getModRM_mrm _ _ _ h _) (get32_bytes32 _ _) rfl)
  | cmpD8Imm32 rm d v => exact (dec_81 _).trans (withImm_of (getModRM_m8 _ _ _ h _) (get32_bytes32 _ _) rfl)
  | cmpD8Imm8 rm d v => exact (dec_83 _).trans (withImm_of (getModRM_m8 _ _ _ h _) (get8_cons _ _) rfl)
  | cmpAl v => exact dec_3C _ _
  | cmpEax v => exact (dec_3D _).trans (imm_of (get32_bytes32 _ _) rfl)
  | setcc r c => exact (dec_c0F90 _ _).trans (group_of (getModRM_mrm _ _ _ (okMode3 _) _) rfl)
  | cmov rm c => exact (dec_c0F40 _ _).trans (withRM_of (getModRM_mrm _ _ _ (okMode0 h) _) rfl)
  | cmovD8 rm c d => exact (dec_c0F40 _ _).trans (withRM_of (getModRM_m8 _ _ _ h _) rfl)
  | cmpsb => exact dec_A6 _
  | repMovsd => exact dec_F3A5 _
  | repMovsb => exact dec_F3A4 _
  | repStosd => exact dec_F3AB _
  | repeCmpsb => exact dec_F3A6 _
  | movsd => exact dec_A5 _
  | movsb => exact dec_A4 _
  | stosd => exact dec_AB _
  | cld => exact dec_FC _

/-- **C73.** A sequence of calls reads back as the sequence of instructions, with no byte left
over. -/
theorem reads (ops : List Op) (h : ∀ o ∈ ops, o.Fits) :
    Reads (ops.flatMap Op.bytes) (ops.map Op.instr) := by
  induction ops with
  | nil => exact .nil
  | cons o ops ih =>
    rw [List.flatMap_cons, List.map_cons]
    exact .cons (roundTrip o (h o (by simp)) _) (ih fun o ho => h o (by simp [ho]))

/-! ## Where the name does not keep its promise -/

/-- **Finding.** `IA32_Call_Rm` writes a jump, not a call. -/
theorem callRm_jumps (rm : Reg) (mode : Fin 4) (h : okMode mode rm) (rest : List Byte) :
    decode ((Op.callRm rm mode).bytes ++ rest) = some (.jmpInd (opnd mode rm), rest) :=
  (dec_FF _).trans (group_of (getModRM_mrm _ _ _ h _) rfl)

/-- **Finding.** `IA32_IMul_Reg_Imm8` and `IA32_IMul_Reg_Imm32` put the product into EAX, whatever
register they are given. -/
theorem imulImm_eax (rm : Reg) (mode : Fin 4) (h : okMode mode rm) (rest : List Byte) :
    (∀ v, decode ((Op.imulImm8 rm mode v).bytes ++ rest)
      = some (.imul3 0 (opnd mode rm) (sx8 v), rest)) ∧
    (∀ v, decode ((Op.imulImm32 rm mode v).bytes ++ rest)
      = some (.imul3 0 (opnd mode rm) v, rest)) :=
  ⟨fun _ => (dec_6B _).trans (withImm_of (getModRM_mrm _ _ _ h _) (get8_cons _ _) rfl),
   fun _ => (dec_69 _).trans (withImm_of (getModRM_mrm _ _ _ h _) (get32_bytes32 _ _) rfl)⟩

/-- **Finding.** `IA32_Fstp_Mem32_DispAuto` and `IA32_Fstp_Mem64_DispAuto` announce a displacement
of four bytes outside -127 .. 126 but write one: the processor takes the first three bytes of the
next instruction for the rest of the displacement. -/
theorem fstpAuto_swallows (rm : Reg) (d : BitVec 32) (h4 : rm ≠ 4)
    (hd : ¬(-128 < d.toInt ∧ d.toInt < 127)) (a b c : Byte) (rest : List Byte) :
    decode ((Op.fstp32Auto rm d).bytes ++ a :: b :: c :: rest)
      = some (.fstp32 ⟨some rm, none, BitVec.ofNat 32 ((lo8 d).toNat + 256 * a.toNat
          + 65536 * b.toNat + 16777216 * c.toNat)⟩, rest) ∧
    decode ((Op.fstp64Auto rm d).bytes ++ a :: b :: c :: rest)
      = some (.fstp64 ⟨some rm, none, BitVec.ofNat 32 ((lo8 d).toNat + 256 * a.toNat
          + 65536 * b.toNat + 16777216 * c.toNat)⟩, rest) := by
  have e : getModRM (mrm 2 3 rm :: lo8 d :: a :: b :: c :: rest)
      = some (3, at32 rm (BitVec.ofNat 32 ((lo8 d).toNat + 256 * a.toNat
          + 65536 * b.toNat + 16777216 * c.toNat)), rest) := by
    obtain ⟨h1, h2, h3, -⟩ := mrm_fields 2 3 rm
    simp only [getModRM, h1, h2, h3]
    rw [if_neg (by decide)]
    simp [getMem, getDisp, get32, reg3_val, at32, val4, h4]
  constructor
  · simp only [Op.bytes, if_neg hd]
    exact (dec_D9 _).trans (group_of e rfl)
  · simp only [Op.bytes, if_neg hd]
    exact (dec_DD _).trans (group_of e rfl)

/-- **Finding.** `IA32_Mov_Reg_Rm_DispAuto`, `IA32_Fld_Mem32_DispAuto` and
`IA32_Fld_Mem64_DispAuto` test the displacement only from above: below -128 they keep its lowest
byte and access another address. -/
theorem auto_truncates (r rm : Reg) (d : BitVec 32) (h4 : rm ≠ 4) (hd : d.toInt < -128)
    (rest : List Byte) :
    decode ((Op.movRegAuto r rm d).bytes ++ rest) = some (.movRev r (at8 rm (lo8 d)), rest) ∧
    decode ((Op.fld32Auto rm d).bytes ++ rest) = some (.fld32 ⟨some rm, none, sx8 (lo8 d)⟩, rest) ∧
    decode ((Op.fld64Auto rm d).bytes ++ rest) = some (.fld64 ⟨some rm, none, sx8 (lo8 d)⟩, rest) ∧
    sx8 (lo8 d) ≠ d := by
  have h0 : d ≠ 0 := by
    intro e; subst e; exact absurd hd (by decide)
  have h8 : d.toInt ≤ 127 := by omega
  refine ⟨?_, ?_, ?_, ?_⟩
  · simp only [Op.bytes, if_neg h0, if_pos h8]
    exact (dec_8B _).trans (withRM_of (getModRM_m8 _ _ _ h4 _) rfl)
  · simp only [Op.bytes, if_neg h0, if_pos h8]
    exact (dec_D9 _).trans (group_of (getModRM_m8 _ _ _ h4 _) rfl)
  · simp only [Op.bytes, if_neg h0, if_pos h8]
    exact (dec_DD _).trans (group_of (getModRM_m8 _ _ _ h4 _) rfl)
  · intro e
    have : (sx8 (lo8 d)).toInt = (lo8 d).toInt := BitVec.toInt_signExtend_of_le (by omega)
    rw [e] at this
    have := BitVec.le_toInt (x := lo8 d)
    omega

/-- **Finding.** The same functions with base EBP and displacement 0 access an absolute address
made of the next four bytes of the code. -/
theorem auto_ebp_absolute (r : Reg) (x : BitVec 32) (rest : List Byte) :
    decode ((Op.movRegAuto r 5 0).bytes ++ (bytes32 x ++ rest))
      = some (.movRev r (.mem ⟨none, none, x⟩), rest) ∧
    decode ((Op.fld32Auto 5 0).bytes ++ (bytes32 x ++ rest)) = some (.fld32 ⟨none, none, x⟩, rest) ∧
    decode ((Op.fld64Auto 5 0).bytes ++ (bytes32 x ++ rest)) = some (.fld64 ⟨none, none, x⟩, rest) := by
  have e : ∀ f : Fin 8, getModRM (mrm 0 f 5 :: (bytes32 x ++ rest))
      = some (f, .mem ⟨none, none, x⟩, rest) := by
    intro f
    obtain ⟨h1, h2, h3, -⟩ := mrm_fields 0 f 5
    rw [show (5 : Fin 8).val = 5 from rfl] at h3
    simp only [getModRM, h1, h2, h3]
    rw [if_neg (by decide)]
    simp [getMem, get32_bytes32]
  exact ⟨(dec_8B _).trans (withRM_of (e _) rfl), (dec_D9 _).trans (group_of (e _) rfl),
    (dec_DD _).trans (group_of (e _) rfl)⟩

/-- **Finding.** With ESP as base register the functions without index write no SIB byte: the
processor takes the displacement for it and the next byte of the code for the displacement. -/
theorem esp_base (r : Reg) (d a : Byte) (rest : List Byte) :
    ∃ m, decode ((Op.movRegD8 r 4 d).bytes ++ a :: rest) = some (.movRev r (.mem m), rest) ∧
      m.disp = sx8 a := by
  have e : ∃ m, getModRM (mrm 1 r 4 :: d :: a :: rest) = some (r, .mem m, rest) ∧
      m.disp = sx8 a := by
    obtain ⟨h1, h2, h3, -⟩ := mrm_fields 1 r 4
    rw [show (4 : Fin 8).val = 4 from rfl] at h3
    simp only [getModRM, h1, h2, h3]
    rw [if_neg (by decide)]
    simp [getMem, getDisp, get8, sx8]
  obtain ⟨m, e, hm⟩ := e
  exact ⟨m, (dec_8B _).trans (withRM_of e rfl), hm⟩

/-! ### The hypotheses are met -/

example : (Op.movRegAuto ecx ebp (-4)).Fits := by
  simp only [Op.Fits]; decide

example : Reads [0x55, 0x89, 0xE5, 0x8B, 0x4D, 0xFC, 0xFF, 0xD1, 0xC2, 0x08, 0x00]
    [.push (.reg ebp), .mov (.reg ebp) esp, .movRev ecx (.mem ⟨some ebp, none, -4⟩),
      .call (.reg ecx), .retn 8] :=
  reads [.push ebp, .movRmReg ebp esp 3, .movRegAuto ecx ebp (-4), .call ecx, .retn 8] (by
    simp only [List.mem_cons, List.not_mem_nil, or_false]
    rintro o (rfl | rfl | rfl | rfl | rfl) <;> simp only [Op.Fits, okMode] <;> decide)

example : decode ((Op.callRm eax 3).bytes ++ []) = some (.jmpInd (.reg eax), []) :=
  callRm_jumps eax 3 (okMode3 _) []

example : decode ((Op.fstp32Auto ebp (-200)).bytes ++ [0x8B, 0x4D, 0xFC])
    = some (.fstp32 ⟨some ebp, none, 0xFC4D8B38⟩, []) :=
  (fstpAuto_swallows ebp (-200) (by decide) (by decide) 0x8B 0x4D 0xFC []).1

example : decode ((Op.movRegAuto eax ecx (-256)).bytes ++ [])
    = some (.movRev eax (.mem ⟨some ecx, none, 0⟩), []) :=
  (auto_truncates eax ecx (-256) (by decide) (by decide) []).1

end Verif.Jit32

#print axioms Verif.Jit32.roundTrip
#print axioms Verif.Jit32.reads
#print axioms Verif.Jit32.callRm_jumps
#print axioms Verif.Jit32.imulImm_eax
#print axioms Verif.Jit32.fstpAuto_swallows
#print axioms Verif.Jit32.auto_truncates
#print axioms Verif.Jit32.auto_ebp_absolute
#print axioms Verif.Jit32.esp_base
#print axioms Verif.Jit32.movzx16_prefixed
