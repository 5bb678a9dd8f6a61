import Verif.Jit32.Decode
/-
Specification: the instruction that the name of each function of the writer and its arguments
announce, and the arguments for which the function can keep that promise.
-/
namespace Verif.Jit32

open Verif.Jit (Byte byte bytes32)

/-- Specification: an operand given by a register and an addressing mode without displacement: the
register itself or the memory it points to. -/
def opnd (mode : Fin 4) (rm : Reg) : RM := if mode = 3 then .reg rm else .mem ⟨some rm, none, 0⟩

/-- Specification: an index register; code 4 means none. -/
def idx (i : Reg) (k : Fin 4) : Option (Reg × Fin 4) := if i = 4 then none else some (i, k)

/-- Specification: memory at base plus scaled index plus displacement. -/
def mem (b i : Reg) (k : Fin 4) (d : BitVec 32) : Mem := ⟨some b, idx i k, d⟩

/-- Specification: the same as an operand. -/
def sib (b i : Reg) (k : Fin 4) (d : BitVec 32) : RM := .mem (mem b i k d)

/-- Specification: a byte extended with its sign. -/
def sx8 (d : BitVec 8) : BitVec 32 := d.signExtend 32

/-- Specification: memory at a register plus a displacement of one byte. -/
def at8 (r : Reg) (d : BitVec 8) : RM := .mem ⟨some r, none, sx8 d⟩

/-- Specification: memory at a register plus a displacement of four bytes. -/
def at32 (r : Reg) (d : BitVec 32) : RM := .mem ⟨some r, none, d⟩

/-- Specification: the modes that need no further bytes.  Mode 0 with register 4 is the escape to
another form, with register 5 it is an absolute address; modes 1 and 2 want a displacement. -/
def okMode (mode : Fin 4) (rm : Reg) : Prop := mode = 3 ∨ (mode = 0 ∧ rm ≠ 4 ∧ rm ≠ 5)

/-- Specification: the instruction a call names. -/
def Op.instr : Op → Instr
  | .int3 => .int3
  | .incReg r => .inc (.reg r)
  | .incD8 rm d => .inc (at8 rm d)
  | .incD32 rm d => .inc (at32 rm d)
  | .incSib b i k => .inc (sib b i k 0)
  | .decReg r => .dec (.reg r)
  | .decD8 rm d => .dec (at8 rm d)
  | .decD32 rm d => .dec (at32 rm d)
  | .decSib b i k => .dec (sib b i k 0)
  | .xorRmReg rm r mode => .alu .xor (opnd mode rm) r
  | .xorRegRm r rm mode => .aluRev .xor r (opnd mode rm)
  | .xorImm8 rm mode v => .aluImm .xor (opnd mode rm) (sx8 v)
  | .xorImm32 rm mode v => .aluImm .xor (opnd mode rm) v
  | .xorEax v => .aluImm .xor (.reg 0) v
  | .neg rm mode => .neg (opnd mode rm)
  | .orRegRm r rm mode => .aluRev .or r (opnd mode rm)
  | .andRegRm r rm mode => .aluRev .and r (opnd mode rm)
  | .andImm32 rm mode v => .aluImm .and (opnd mode rm) v
  | .andImm8 rm mode v => .aluImm .and (opnd mode rm) (sx8 v)
  | .andEax v => .aluImm .and (.reg 0) v
  | .not rm mode => .not (opnd mode rm)
  | .shrImm rm v mode => .shift (.imm v) .shr (opnd mode rm)
  | .shr1 rm mode => .shift (.imm 1) .shr (opnd mode rm)
  | .shlImm rm v mode => .shift (.imm v) .shl (opnd mode rm)
  | .shl1 rm mode => .shift (.imm 1) .shl (opnd mode rm)
  | .sarImm rm v mode => .shift (.imm v) .sar (opnd mode rm)
  | .sarCl rm mode => .shift .cl .sar (opnd mode rm)
  | .sar1 rm mode => .shift (.imm 1) .sar (opnd mode rm)
  | .shrCl rm mode => .shift .cl .shr (opnd mode rm)
  | .shlCl rm mode => .shift .cl .shl (opnd mode rm)
  | .xchgEax r => .xchgEax r
  | .addRmReg rm r mode => .alu .add (opnd mode rm) r
  | .addRegRm r rm mode => .aluRev .add r (opnd mode rm)
  | .addImm8 rm v mode => .aluImm .add (opnd mode rm) (sx8 v)
  | .addImm32 rm v mode => .aluImm .add (opnd mode rm) v
  | .addImmAuto rm v mode => .aluImm .add (opnd mode rm) v
  | .addEax v => .aluImm .add (.reg 0) v
  | .subRmReg rm r mode => .alu .sub (opnd mode rm) r
  | .subRegRm r rm mode => .aluRev .sub r (opnd mode rm)
  | .subRegD8 r rm d => .aluRev .sub r (at8 rm d)
  | .subD8Reg rm r d => .alu .sub (at8 rm d) r
  | .subImm8 rm v mode => .aluImm .sub (opnd mode rm) (sx8 v)
  | .subImm32 rm v mode => .aluImm .sub (opnd mode rm) v
  | .subImmAuto rm v mode => .aluImm .sub (opnd mode rm) v
  | .sbbRegRm r rm mode => .aluRev .sbb r (opnd mode rm)
  | .sbbImm8 rm v mode => .aluImm .sbb (opnd mode rm) (sx8 v)
  | .div rm mode => .div (opnd mode rm)
  | .idiv rm mode => .idiv (opnd mode rm)
  | .mul rm mode => .mul (opnd mode rm)
  | .imul rm mode => .imul (opnd mode rm)
  | .imulImm8 rm mode v => .imul3 rm (opnd mode rm) (sx8 v)
  | .imulImm32 rm mode v => .imul3 rm (opnd mode rm) v
  | .imulRegRm r rm mode => .imul2 r (opnd mode rm)
  | .addD8Reg rm r d => .alu .add (at8 rm d) r
  | .addRegD8 r rm d => .aluRev .add r (at8 rm d)
  | .addImm8D8 rm v d => .aluImm .add (at8 rm d) (sx8 v)
  | .addImm32D8 rm v d => .aluImm .add (at8 rm d) v
  | .addLater rm mode => .aluImm .add (opnd mode rm) 0
  | .addImm8D32 rm v d => .aluImm .add (at32 rm d) (sx8 v)
  | .addImm8Sib b i k v => .aluImm .add (sib b i k 0) (sx8 v)
  | .subImm8D8 rm v d => .aluImm .sub (at8 rm d) (sx8 v)
  | .subImm8D32 rm v d => .aluImm .sub (at32 rm d) (sx8 v)
  | .subImm8Sib b i k v => .aluImm .sub (sib b i k 0) (sx8 v)
  | .leaSib r b i k => .lea r (mem b i k 0)
  | .leaEbpSib r b i k => .lea r (mem b i k 0)
  | .leaSib8 r b i k d => .lea r (mem b i k (sx8 d))
  | .leaSib32 r b i k d => .lea r (mem b i k d)
  | .leaNoBase r i k d => .lea r ⟨none, idx i k, d⟩
  | .lea8 r rm d => .lea r ⟨some rm, none, sx8 d⟩
  | .lea32 r rm d => .lea r ⟨some rm, none, d⟩
  | .leaAuto r rm d => .lea r ⟨some rm, none, d⟩
  | .pop r => .pop r
  | .push r => .push (.reg r)
  | .pushImm8 v => .pushImm (sx8 v)
  | .pushImm32 v => .pushImm v
  | .pushad => .pushad
  | .popad => .popad
  | .pushD8 rm d => .push (at8 rm d)
  | .pushD32 rm d => .push (at32 rm d)
  | .pushAuto rm d => .push (at32 rm d)
  | .pushEsp d => .push (sib 4 4 0 (sx8 d))
  | .movRegRm r rm mode => .movRev r (opnd mode rm)
  | .mov8RegRm r rm mode => .mov8Rev r (opnd mode rm)
  | .movRegEsp0 r => .movRev r (sib 4 4 0 0)
  | .movRegD8 r rm d => .movRev r (at8 rm d)
  | .mov8RegD8 r rm d => .mov8Rev r (at8 rm d)
  | .movRegEsp r d => .movRev r (sib 4 4 0 (sx8 d))
  | .movRegD32 r rm d => .movRev r (at32 rm d)
  | .mov8RegD32 r rm d => .mov8Rev r (at32 rm d)
  | .movRegSib r b i k => .movRev r (sib b i k 0)
  | .movRegSib8 r b i k d => .movRev r (sib b i k (sx8 d))
  | .movRegEbpSib r b i k => .movRev r (sib b i k 0)
  | .movRegAuto r rm d => .movRev r (at32 rm d)
  | .movRmReg rm r mode => .mov (opnd mode rm) r
  | .mov8RmReg rm r mode => .mov8 (opnd mode rm) r
  | .mov8D8Reg rm r d => .mov8 (at8 rm d) r
  | .mov8D32Reg rm r d => .mov8 (at32 rm d) r
  | .mov8AutoReg rm r d => .mov8 (at32 rm d) r
  | .movEspReg r => .mov (sib 4 4 0 0) r
  | .movD8Reg rm r d => .mov (at8 rm d) r
  | .movD32Reg rm r d => .mov (at32 rm d) r
  | .movAutoReg rm r d => .mov (at32 rm d) r
  | .movSibReg b i k r => .mov (sib b i k 0) r
  | .mov8SibReg b i k r => .mov8 (sib b i k 0) r
  | .mov16SibReg b i k r => .mov16 (sib b i k 0) r
  | .movImm r v => .movImm (.reg r) v
  | .movRmImm rm v mode => .movImm (opnd mode rm) v
  | .movD8Imm rm v d => .movImm (at8 rm d) v
  | .movD32Imm rm v d => .movImm (at32 rm d) v
  | .movSibImm b i k v => .movImm (sib b i k 0) v
  | .movEspImm d v => .movImm (sib 4 4 0 (sx8 d)) v
  | .fstcwEsp => .fstcw (mem 4 4 0 0)
  | .fldcwEsp => .fldcw (mem 4 4 0 0)
  | .fldcwEspD8 d => .fldcw (mem 4 4 0 (sx8 d))
  | .fistpEsp => .fistp (mem 4 4 0 0)
  | .fistpEspD8 d => .fistp (mem 4 4 0 (sx8 d))
  | .fucomip r => .fucomip r
  | .faddReg r => .faddReg r
  | .faddD8 rm d => .farith .fadd ⟨some rm, none, sx8 d⟩
  | .faddEsp => .farith .fadd (mem 4 4 0 0)
  | .fsubD8 rm d => .farith .fsub ⟨some rm, none, sx8 d⟩
  | .fmulD8 rm d => .farith .fmul ⟨some rm, none, sx8 d⟩
  | .fdivD8 rm d => .farith .fdiv ⟨some rm, none, sx8 d⟩
  | .fild rm => .fild ⟨some rm, none, 0⟩
  | .fstp32 rm => .fstp32 ⟨some rm, none, 0⟩
  | .fstp32Auto rm d => .fstp32 ⟨some rm, none, d⟩
  | .fstp64 rm => .fstp64 ⟨some rm, none, 0⟩
  | .fstp64Auto rm d => .fstp64 ⟨some rm, none, d⟩
  | .fstp32Esp => .fstp32 (mem 4 4 0 0)
  | .fstp64Esp => .fstp64 (mem 4 4 0 0)
  | .fstpReg r => .fstpReg r
  | .fld32 rm => .fld32 ⟨some rm, none, 0⟩
  | .fld64 rm => .fld64 ⟨some rm, none, 0⟩
  | .fld32D8 rm d => .fld32 ⟨some rm, none, sx8 d⟩
  | .fld64D8 rm d => .fld64 ⟨some rm, none, sx8 d⟩
  | .fld32D32 rm d => .fld32 ⟨some rm, none, d⟩
  | .fld64D32 rm d => .fld64 ⟨some rm, none, d⟩
  | .fld32Auto rm d => .fld32 ⟨some rm, none, d⟩
  | .fld64Auto rm d => .fld64 ⟨some rm, none, d⟩
  | .movzx8 r rm mode => .movzx8 r (opnd mode rm)
  | .movzx8D8 r rm d => .movzx8 r (at8 rm d)
  | .movzx8D32 r rm d => .movzx8 r (at32 rm d)
  | .movzx8Auto r rm d => .movzx8 r (at32 rm d)
  | .movzx16 r rm mode => .movzx16 r (opnd mode rm)
  | .movzx16D8 r rm d => .movzx16 r (at8 rm d)
  | .movzx16D32 r rm d => .movzx16 r (at32 rm d)
  | .movzx16Auto r rm d => .movzx16 r (at32 rm d)
  -- not `movzx`: see `movzx16_prefixed` in Verif.Jit32.AsmProps
  | .movzx16Pre r rm d => .mov16Rev r (at32 rm d)
  | .jcc8 c d => .jcc c (sx8 d)
  | .jmp32 d => .jmp d
  | .jmp8 d => .jmp (sx8 d)
  | .jcc32 c d => .jcc c d
  | .jmpReg r => .jmpInd (.reg r)
  | .jmpRm rm mode => .jmpInd (opnd mode rm)
  | .callRel d => .callRel d
  | .call r => .call (.reg r)
  | .callRm rm mode => .call (opnd mode rm)
  | .ret => .ret
  | .retn n => .retn n
  | .testRmReg rm r mode => .test (opnd mode rm) r
  | .test8RmReg rm r mode => .test8 (opnd mode rm) r
  | .testImm rm v mode => .testImm (opnd mode rm) v
  | .cmpRmReg rm r mode => .alu .cmp (opnd mode rm) r
  | .cmpRegRm r rm mode => .aluRev .cmp r (opnd mode rm)
  | .cmpRegEsp r => .aluRev .cmp r (sib 4 4 0 0)
  | .cmpRegD8 r rm d => .aluRev .cmp r (at8 rm d)
  | .cmpImm8 mode rm v => .aluImm .cmp (opnd mode rm) (sx8 v)
  | .cmpImm32 mode rm v => .aluImm .cmp (opnd mode rm) v
  | .cmpD8Imm32 rm d v => .aluImm .cmp (at8 rm d) v
  | .cmpD8Imm8 rm d v => .aluImm .cmp (at8 rm d) (sx8 v)
  | .cmpAl v => .cmpAl v
  | .cmpEax v => .aluImm .cmp (.reg 0) v
  | .setcc r c => .setcc c (.reg r)
  | .cmov rm c => .cmov c 0 (.mem ⟨some rm, none, 0⟩)
  | .cmovD8 rm c d => .cmov c 0 (at8 rm d)
  | .cmpsb => .cmpsb
  | .repMovsd => .repMovsd
  | .repMovsb => .repMovsb
  | .repStosd => .repStosd
  | .repeCmpsb => .repeCmpsb
  | .movsd => .movsd
  | .movsb => .movsb
  | .stosd => .stosd
  | .cld => .cld

/-- Specification: the arguments for which the bytes are the instruction named.  No condition: every
argument. -/
def Op.Fits : Op → Prop
  | .incD8 rm _ => rm ≠ 4
  | .incD32 rm _ => rm ≠ 4
  | .incSib b _ _ => b ≠ 5
  | .decD8 rm _ => rm ≠ 4
  | .decD32 rm _ => rm ≠ 4
  | .decSib b _ _ => b ≠ 5
  | .xorRmReg rm _ mode => okMode mode rm
  | .xorRegRm _ rm mode => okMode mode rm
  | .xorImm8 rm mode _ => okMode mode rm
  | .xorImm32 rm mode _ => okMode mode rm
  | .neg rm mode => okMode mode rm
  | .orRegRm _ rm mode => okMode mode rm
  | .andRegRm _ rm mode => okMode mode rm
  | .andImm32 rm mode _ => okMode mode rm
  | .andImm8 rm mode _ => okMode mode rm
  | .not rm mode => okMode mode rm
  | .shrImm rm _ mode => okMode mode rm
  | .shr1 rm mode => okMode mode rm
  | .shlImm rm _ mode => okMode mode rm
  | .shl1 rm mode => okMode mode rm
  | .sarImm rm _ mode => okMode mode rm
  | .sarCl rm mode => okMode mode rm
  | .sar1 rm mode => okMode mode rm
  | .shrCl rm mode => okMode mode rm
  | .shlCl rm mode => okMode mode rm
  | .addRmReg rm _ mode => okMode mode rm
  | .addRegRm _ rm mode => okMode mode rm
  | .addImm8 rm _ mode => okMode mode rm
  | .addImm32 rm _ mode => okMode mode rm
  | .addImmAuto rm _ mode => okMode mode rm
  | .subRmReg rm _ mode => okMode mode rm
  | .subRegRm _ rm mode => okMode mode rm
  | .subRegD8 _ rm _ => rm ≠ 4
  | .subD8Reg rm _ _ => rm ≠ 4
  | .subImm8 rm _ mode => okMode mode rm
  | .subImm32 rm _ mode => okMode mode rm
  | .subImmAuto rm _ mode => okMode mode rm
  | .sbbRegRm _ rm mode => okMode mode rm
  | .sbbImm8 rm _ mode => okMode mode rm
  | .div rm mode => okMode mode rm
  | .idiv rm mode => okMode mode rm
  | .mul rm mode => okMode mode rm
  | .imul rm mode => okMode mode rm
  | .imulImm8 rm mode _ => okMode mode rm ∧ rm = 0
  | .imulImm32 rm mode _ => okMode mode rm ∧ rm = 0
  | .imulRegRm _ rm mode => okMode mode rm
  | .addD8Reg rm _ _ => rm ≠ 4
  | .addRegD8 _ rm _ => rm ≠ 4
  | .addImm8D8 rm _ _ => rm ≠ 4
  | .addImm32D8 rm _ _ => rm ≠ 4
  | .addLater rm mode => okMode mode rm
  | .addImm8D32 rm _ _ => rm ≠ 4
  | .subImm8D8 rm _ _ => rm ≠ 4
  | .subImm8D32 rm _ _ => rm ≠ 4
  | .leaSib _ b _ _ => b ≠ 5
  | .lea8 _ rm _ => rm ≠ 4
  | .lea32 _ rm _ => rm ≠ 4
  | .leaAuto _ rm _ => rm ≠ 4
  | .pushD8 rm _ => rm ≠ 4
  | .pushD32 rm _ => rm ≠ 4
  | .pushAuto rm _ => rm ≠ 4
  | .movRegRm _ rm mode => okMode mode rm
  | .mov8RegRm _ rm mode => okMode mode rm
  | .movRegD8 _ rm _ => rm ≠ 4
  | .mov8RegD8 _ rm _ => rm ≠ 4
  | .movRegD32 _ rm _ => rm ≠ 4
  | .mov8RegD32 _ rm _ => rm ≠ 4
  | .movRegSib _ b _ _ => b ≠ 5
  | .movRegAuto _ rm d => rm ≠ 4 ∧ -128 ≤ d.toInt ∧ (d = 0 → rm ≠ 5)
  | .movRmReg rm _ mode => okMode mode rm
  | .mov8RmReg rm _ mode => okMode mode rm
  | .mov8D8Reg rm _ _ => rm ≠ 4
  | .mov8D32Reg rm _ _ => rm ≠ 4
  | .mov8AutoReg rm _ _ => rm ≠ 4
  | .movD8Reg rm _ _ => rm ≠ 4
  | .movD32Reg rm _ _ => rm ≠ 4
  | .movAutoReg rm _ _ => rm ≠ 4
  | .movRmImm rm _ mode => okMode mode rm
  | .movD8Imm rm _ _ => rm ≠ 4
  | .movD32Imm rm _ _ => rm ≠ 4
  | .faddD8 rm _ => rm ≠ 4
  | .fsubD8 rm _ => rm ≠ 4
  | .fmulD8 rm _ => rm ≠ 4
  | .fdivD8 rm _ => rm ≠ 4
  | .fild rm => rm ≠ 4 ∧ rm ≠ 5
  | .fstp32 rm => rm ≠ 4 ∧ rm ≠ 5
  | .fstp32Auto rm d => rm ≠ 4 ∧ -128 < d.toInt ∧ d.toInt < 127
  | .fstp64 rm => rm ≠ 4 ∧ rm ≠ 5
  | .fstp64Auto rm d => rm ≠ 4 ∧ -128 < d.toInt ∧ d.toInt < 127
  | .fld32 rm => rm ≠ 4 ∧ rm ≠ 5
  | .fld64 rm => rm ≠ 4 ∧ rm ≠ 5
  | .fld32D8 rm _ => rm ≠ 4
  | .fld64D8 rm _ => rm ≠ 4
  | .fld32D32 rm _ => rm ≠ 4
  | .fld64D32 rm _ => rm ≠ 4
  | .fld32Auto rm d => rm ≠ 4 ∧ -128 ≤ d.toInt ∧ (d = 0 → rm ≠ 5)
  | .fld64Auto rm d => rm ≠ 4 ∧ -128 ≤ d.toInt ∧ (d = 0 → rm ≠ 5)
  | .movzx8 _ rm mode => okMode mode rm
  | .movzx8D8 _ rm _ => rm ≠ 4
  | .movzx8D32 _ rm _ => rm ≠ 4
  | .movzx8Auto _ rm _ => rm ≠ 4
  | .movzx16 _ rm mode => okMode mode rm
  | .movzx16D8 _ rm _ => rm ≠ 4
  | .movzx16D32 _ rm _ => rm ≠ 4
  | .movzx16Auto _ rm _ => rm ≠ 4
  | .movzx16Pre _ rm _ => rm ≠ 4
  | .jmpRm rm mode => okMode mode rm
  | .callRm _ _ => False
  | .testRmReg rm _ mode => okMode mode rm
  | .test8RmReg rm _ mode => okMode mode rm
  | .testImm rm _ mode => okMode mode rm
  | .cmpRmReg rm _ mode => okMode mode rm
  | .cmpRegRm _ rm mode => okMode mode rm
  | .cmpRegD8 _ rm _ => rm ≠ 4
  | .cmpImm8 mode rm _ => okMode mode rm
  | .cmpImm32 mode rm _ => okMode mode rm
  | .cmpD8Imm32 rm _ _ => rm ≠ 4
  | .cmpD8Imm8 rm _ _ => rm ≠ 4
  | .cmov rm _ => rm ≠ 4 ∧ rm ≠ 5
  | .cmovD8 rm _ _ => rm ≠ 4
  | _ => True

end Verif.Jit32
