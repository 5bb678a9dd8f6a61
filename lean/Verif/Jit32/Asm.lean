import Verif.Jit.AsmLemmas
/-
The instruction writer of the 32-bit hook manager generator:
core/sourcehook/sourcehook_hookmangen_x86.h:19-1609, all of its functions.

Each function pushes bytes at the end of the buffer (core/sourcehook/sh_asm.h, see Verif.Jit.Asm);
it is modelled by the list of bytes it pushes.  The arguments have the types `jit_uint8_t` (a
register code 0 to 7, an addressing mode 0 to 3, a scale 0 to 3 or a condition code 0 to 15),
`jit_int8_t` (`BitVec 8`), `jit_int32_t` (`BitVec 32`) and `unsigned short` (`BitVec 16`).

Simplified: codes outside the ranges above are left out; `IA32_Rep` writes a prefix and is
modelled together with the instruction that follows; the position that some functions return (of
an immediate to be patched later) is the length of the buffer at that time and is modelled where it
is used.
-/
namespace Verif.Jit32

open Verif.Jit (Byte byte bytes32)

/-- core/sourcehook/sourcehook_hookmangen_x86.h:43-53: register codes. -/
abbrev Reg := Fin 8

/-- core/sourcehook/sourcehook_hookmangen_x86.h:44 `REG_EAX`. -/
abbrev eax : Reg := 0
/-- core/sourcehook/sourcehook_hookmangen_x86.h:45 `REG_ECX`. -/
abbrev ecx : Reg := 1
/-- core/sourcehook/sourcehook_hookmangen_x86.h:46 `REG_EDX`. -/
abbrev edx : Reg := 2
/-- core/sourcehook/sourcehook_hookmangen_x86.h:47 `REG_EBX`. -/
abbrev ebx : Reg := 3
/-- core/sourcehook/sourcehook_hookmangen_x86.h:48-50 `REG_ESP`, also `REG_SIB` and `REG_NOIDX`. -/
abbrev esp : Reg := 4
/-- core/sourcehook/sourcehook_hookmangen_x86.h:51-52 `REG_EBP`, also `REG_IMM_BASE`. -/
abbrev ebp : Reg := 5
/-- core/sourcehook/sourcehook_hookmangen_x86.h:53 `REG_ESI`. -/
abbrev esi : Reg := 6
/-- core/sourcehook/sourcehook_hookmangen_x86.h:54 `REG_EDI`. -/
abbrev edi : Reg := 7

/-- core/sourcehook/sourcehook_hookmangen_x86.h:202-210 `ia32_modrm`. -/
def mrm (mode : Fin 4) (field rm : Fin 8) : Byte :=
  byte ((mode.val <<< 6) ||| (field.val <<< 3) ||| rm.val)

/-- core/sourcehook/sourcehook_hookmangen_x86.h:215-223 `ia32_sib`. -/
def sibByte (scale : Fin 4) (index base : Fin 8) : Byte :=
  byte ((scale.val <<< 6) ||| (index.val <<< 3) ||| base.val)

/-- The conversion of an integer to `jit_int32_t` where the generator calls the writer
(core/sourcehook/sourcehook_hookmangen_x86.cpp, all calls). -/
def i32 (k : Int) : BitVec 32 := BitVec.ofInt 32 k

/-- The conversion of an integer to `jit_int8_t` where the generator calls the writer
(core/sourcehook/sourcehook_hookmangen_x86.cpp, all calls). -/
def i8 (k : Int) : BitVec 8 := BitVec.ofInt 8 k

/-- core/sourcehook/sh_asm.h:33-36, 103 `write_ushort`. -/
def bytes16 (x : BitVec 16) : List Byte := [x.extractLsb' 0 8, x.extractLsb' 8 8]

/-- core/sourcehook/sourcehook_hookmangen_x86.h:461, 750, `static_cast<jit_int8_t>`. -/
def lo8 (d : BitVec 32) : BitVec 8 := d.extractLsb' 0 8

/-- core/sourcehook/sourcehook_hookmangen_x86.h:460, 749, the test for a signed byte. -/
def fits8 (d : BitVec 32) : Bool := -128 ≤ d.toInt ∧ d.toInt ≤ 127

/-- The operand bytes of the `Disp8` functions, as in
core/sourcehook/sourcehook_hookmangen_x86.h:242-243. -/
def m8 (f rm : Fin 8) (d : BitVec 8) : List Byte := [mrm 1 f rm, d]

/-- The operand bytes of the `Disp32` functions, as in
core/sourcehook/sourcehook_hookmangen_x86.h:249-250. -/
def m32 (f rm : Fin 8) (d : BitVec 32) : List Byte := mrm 2 f rm :: bytes32 d

/-- The operand bytes of the functions with base and index, as in
core/sourcehook/sourcehook_hookmangen_x86.h:256-257. -/
def s0 (f base index : Fin 8) (scale : Fin 4) : List Byte := [mrm 0 f 4, sibByte scale index base]

/-- The same with a displacement of one byte, as in
core/sourcehook/sourcehook_hookmangen_x86.h:705-707. -/
def s8 (f base index : Fin 8) (scale : Fin 4) (d : BitVec 8) : List Byte :=
  [mrm 1 f 4, sibByte scale index base, d]

/-- The same with a displacement of four bytes, as in
core/sourcehook/sourcehook_hookmangen_x86.h:718-720. -/
def s32 (f base index : Fin 8) (scale : Fin 4) (d : BitVec 32) : List Byte :=
  mrm 2 f 4 :: sibByte scale index base :: bytes32 d

/-- The same without a base register, as in
core/sourcehook/sourcehook_hookmangen_x86.h:730-732. -/
def sn (f index : Fin 8) (scale : Fin 4) (d : BitVec 32) : List Byte :=
  mrm 0 f 4 :: sibByte scale index 5 :: bytes32 d

/-- core/sourcehook/sourcehook_hookmangen_x86.h:225-1609: a call of the writer. -/
inductive Op where
  /-- core/sourcehook/sourcehook_hookmangen_x86.h:225-228 `IA32_Int3` -/
  | int3
  /-- core/sourcehook/sourcehook_hookmangen_x86.h:234-237 `IA32_Inc_Reg` -/
  | incReg (r : Reg)
  /-- core/sourcehook/sourcehook_hookmangen_x86.h:239-244 `IA32_Inc_Rm_Disp8` -/
  | incD8 (rm : Reg) (d : BitVec 8)
  /-- core/sourcehook/sourcehook_hookmangen_x86.h:246-251 `IA32_Inc_Rm_Disp32` -/
  | incD32 (rm : Reg) (d : BitVec 32)
  /-- core/sourcehook/sourcehook_hookmangen_x86.h:253-258 `IA32_Inc_Rm_Disp_Reg` -/
  | incSib (b i : Reg) (k : Fin 4)
  /-- core/sourcehook/sourcehook_hookmangen_x86.h:260-263 `IA32_Dec_Reg` -/
  | decReg (r : Reg)
  /-- core/sourcehook/sourcehook_hookmangen_x86.h:265-270 `IA32_Dec_Rm_Disp8` -/
  | decD8 (rm : Reg) (d : BitVec 8)
  /-- core/sourcehook/sourcehook_hookmangen_x86.h:272-277 `IA32_Dec_Rm_Disp32` -/
  | decD32 (rm : Reg) (d : BitVec 32)
  /-- core/sourcehook/sourcehook_hookmangen_x86.h:279-284 `IA32_Dec_Rm_Disp_Reg` -/
  | decSib (b i : Reg) (k : Fin 4)
  /-- core/sourcehook/sourcehook_hookmangen_x86.h:290-294 `IA32_Xor_Rm_Reg` -/
  | xorRmReg (rm r : Reg) (mode : Fin 4)
  /-- core/sourcehook/sourcehook_hookmangen_x86.h:296-300 `IA32_Xor_Reg_Rm` -/
  | xorRegRm (r rm : Reg) (mode : Fin 4)
  /-- core/sourcehook/sourcehook_hookmangen_x86.h:302-307 `IA32_Xor_Rm_Imm8` -/
  | xorImm8 (rm : Reg) (mode : Fin 4) (v : BitVec 8)
  /-- core/sourcehook/sourcehook_hookmangen_x86.h:309-314 `IA32_Xor_Rm_Imm32` -/
  | xorImm32 (rm : Reg) (mode : Fin 4) (v : BitVec 32)
  /-- core/sourcehook/sourcehook_hookmangen_x86.h:316-320 `IA32_Xor_Eax_Imm32` -/
  | xorEax (v : BitVec 32)
  /-- core/sourcehook/sourcehook_hookmangen_x86.h:322-326 `IA32_Neg_Rm` -/
  | neg (rm : Reg) (mode : Fin 4)
  /-- core/sourcehook/sourcehook_hookmangen_x86.h:328-332 `IA32_Or_Reg_Rm` -/
  | orRegRm (r rm : Reg) (mode : Fin 4)
  /-- core/sourcehook/sourcehook_hookmangen_x86.h:334-338 `IA32_And_Reg_Rm` -/
  | andRegRm (r rm : Reg) (mode : Fin 4)
  /-- core/sourcehook/sourcehook_hookmangen_x86.h:340-345 `IA32_And_Rm_Imm32` -/
  | andImm32 (rm : Reg) (mode : Fin 4) (v : BitVec 32)
  /-- core/sourcehook/sourcehook_hookmangen_x86.h:347-352 `IA32_And_Rm_Imm8` -/
  | andImm8 (rm : Reg) (mode : Fin 4) (v : BitVec 8)
  /-- core/sourcehook/sourcehook_hookmangen_x86.h:354-358 `IA32_And_Eax_Imm32` -/
  | andEax (v : BitVec 32)
  /-- core/sourcehook/sourcehook_hookmangen_x86.h:360-364 `IA32_Not_Rm` -/
  | not (rm : Reg) (mode : Fin 4)
  /-- core/sourcehook/sourcehook_hookmangen_x86.h:366-371 `IA32_Shr_Rm_Imm8` -/
  | shrImm (rm : Reg) (v : BitVec 8) (mode : Fin 4)
  /-- core/sourcehook/sourcehook_hookmangen_x86.h:373-377 `IA32_Shr_Rm_1` -/
  | shr1 (rm : Reg) (mode : Fin 4)
  /-- core/sourcehook/sourcehook_hookmangen_x86.h:379-384 `IA32_Shl_Rm_Imm8` -/
  | shlImm (rm : Reg) (v : BitVec 8) (mode : Fin 4)
  /-- core/sourcehook/sourcehook_hookmangen_x86.h:386-390 `IA32_Shl_Rm_1` -/
  | shl1 (rm : Reg) (mode : Fin 4)
  /-- core/sourcehook/sourcehook_hookmangen_x86.h:392-397 `IA32_Sar_Rm_Imm8` -/
  | sarImm (rm : Reg) (v : BitVec 8) (mode : Fin 4)
  /-- core/sourcehook/sourcehook_hookmangen_x86.h:399-403 `IA32_Sar_Rm_CL` -/
  | sarCl (rm : Reg) (mode : Fin 4)
  /-- core/sourcehook/sourcehook_hookmangen_x86.h:405-409 `IA32_Sar_Rm_1` -/
  | sar1 (rm : Reg) (mode : Fin 4)
  /-- core/sourcehook/sourcehook_hookmangen_x86.h:411-415 `IA32_Shr_Rm_CL` -/
  | shrCl (rm : Reg) (mode : Fin 4)
  /-- core/sourcehook/sourcehook_hookmangen_x86.h:417-421 `IA32_Shl_Rm_CL` -/
  | shlCl (rm : Reg) (mode : Fin 4)
  /-- core/sourcehook/sourcehook_hookmangen_x86.h:423-426 `IA32_Xchg_Eax_Reg` -/
  | xchgEax (r : Reg)
  /-- core/sourcehook/sourcehook_hookmangen_x86.h:432-436 `IA32_Add_Rm_Reg` -/
  | addRmReg (rm r : Reg) (mode : Fin 4)
  /-- core/sourcehook/sourcehook_hookmangen_x86.h:438-442 `IA32_Add_Reg_Rm` -/
  | addRegRm (r rm : Reg) (mode : Fin 4)
  /-- core/sourcehook/sourcehook_hookmangen_x86.h:444-449 `IA32_Add_Rm_Imm8` -/
  | addImm8 (rm : Reg) (v : BitVec 8) (mode : Fin 4)
  /-- core/sourcehook/sourcehook_hookmangen_x86.h:451-456 `IA32_Add_Rm_Imm32` -/
  | addImm32 (rm : Reg) (v : BitVec 32) (mode : Fin 4)
  /-- core/sourcehook/sourcehook_hookmangen_x86.h:458-464 `IA32_Add_Rm_ImmAuto` -/
  | addImmAuto (rm : Reg) (v : BitVec 32) (mode : Fin 4)
  /-- core/sourcehook/sourcehook_hookmangen_x86.h:466-470 `IA32_Add_Eax_Imm32` -/
  | addEax (v : BitVec 32)
  /-- core/sourcehook/sourcehook_hookmangen_x86.h:472-476 `IA32_Sub_Rm_Reg` -/
  | subRmReg (rm r : Reg) (mode : Fin 4)
  /-- core/sourcehook/sourcehook_hookmangen_x86.h:478-482 `IA32_Sub_Reg_Rm` -/
  | subRegRm (r rm : Reg) (mode : Fin 4)
  /-- core/sourcehook/sourcehook_hookmangen_x86.h:484-489 `IA32_Sub_Reg_Rm_Disp8` -/
  | subRegD8 (r rm : Reg) (d : BitVec 8)
  /-- core/sourcehook/sourcehook_hookmangen_x86.h:491-496 `IA32_Sub_Rm_Reg_Disp8` -/
  | subD8Reg (rm r : Reg) (d : BitVec 8)
  /-- core/sourcehook/sourcehook_hookmangen_x86.h:498-503 `IA32_Sub_Rm_Imm8` -/
  | subImm8 (rm : Reg) (v : BitVec 8) (mode : Fin 4)
  /-- core/sourcehook/sourcehook_hookmangen_x86.h:505-510 `IA32_Sub_Rm_Imm32` -/
  | subImm32 (rm : Reg) (v : BitVec 32) (mode : Fin 4)
  /-- core/sourcehook/sourcehook_hookmangen_x86.h:512-518 `IA32_Sub_Rm_ImmAuto` -/
  | subImmAuto (rm : Reg) (v : BitVec 32) (mode : Fin 4)
  /-- core/sourcehook/sourcehook_hookmangen_x86.h:520-524 `IA32_Sbb_Reg_Rm` -/
  | sbbRegRm (r rm : Reg) (mode : Fin 4)
  /-- core/sourcehook/sourcehook_hookmangen_x86.h:526-531 `IA32_Sbb_Rm_Imm8` -/
  | sbbImm8 (rm : Reg) (v : BitVec 8) (mode : Fin 4)
  /-- core/sourcehook/sourcehook_hookmangen_x86.h:533-537 `IA32_Div_Rm` -/
  | div (rm : Reg) (mode : Fin 4)
  /-- core/sourcehook/sourcehook_hookmangen_x86.h:539-543 `IA32_IDiv_Rm` -/
  | idiv (rm : Reg) (mode : Fin 4)
  /-- core/sourcehook/sourcehook_hookmangen_x86.h:545-549 `IA32_Mul_Rm` -/
  | mul (rm : Reg) (mode : Fin 4)
  /-- core/sourcehook/sourcehook_hookmangen_x86.h:551-555 `IA32_IMul_Rm` -/
  | imul (rm : Reg) (mode : Fin 4)
  /-- core/sourcehook/sourcehook_hookmangen_x86.h:557-562 `IA32_IMul_Reg_Imm8` -/
  | imulImm8 (rm : Reg) (mode : Fin 4) (v : BitVec 8)
  /-- core/sourcehook/sourcehook_hookmangen_x86.h:564-569 `IA32_IMul_Reg_Imm32` -/
  | imulImm32 (rm : Reg) (mode : Fin 4) (v : BitVec 32)
  /-- core/sourcehook/sourcehook_hookmangen_x86.h:571-576 `IA32_IMul_Reg_Rm` -/
  | imulRegRm (r rm : Reg) (mode : Fin 4)
  /-- core/sourcehook/sourcehook_hookmangen_x86.h:578-583 `IA32_Add_Rm_Reg_Disp8` -/
  | addD8Reg (rm r : Reg) (d : BitVec 8)
  /-- core/sourcehook/sourcehook_hookmangen_x86.h:585-590 `IA32_Add_Reg_Rm_Disp8` -/
  | addRegD8 (r rm : Reg) (d : BitVec 8)
  /-- core/sourcehook/sourcehook_hookmangen_x86.h:592-601 `IA32_Add_Rm_Imm8_Disp8` -/
  | addImm8D8 (rm : Reg) (v d : BitVec 8)
  /-- core/sourcehook/sourcehook_hookmangen_x86.h:603-612 `IA32_Add_Rm_Imm32_Disp8` -/
  | addImm32D8 (rm : Reg) (v : BitVec 32) (d : BitVec 8)
  /-- core/sourcehook/sourcehook_hookmangen_x86.h:614-623 `IA32_Add_Rm_Imm32_Later` -/
  | addLater (rm : Reg) (mode : Fin 4)
  /-- core/sourcehook/sourcehook_hookmangen_x86.h:625-634 `IA32_Add_Rm_Imm8_Disp32` -/
  | addImm8D32 (rm : Reg) (v : BitVec 8) (d : BitVec 32)
  /-- core/sourcehook/sourcehook_hookmangen_x86.h:636-647 `IA32_Add_RmEBP_Imm8_Disp_Reg` -/
  | addImm8Sib (b i : Reg) (k : Fin 4) (v : BitVec 8)
  /-- core/sourcehook/sourcehook_hookmangen_x86.h:649-658 `IA32_Sub_Rm_Imm8_Disp8` -/
  | subImm8D8 (rm : Reg) (v d : BitVec 8)
  /-- core/sourcehook/sourcehook_hookmangen_x86.h:660-669 `IA32_Sub_Rm_Imm8_Disp32` -/
  | subImm8D32 (rm : Reg) (v : BitVec 8) (d : BitVec 32)
  /-- core/sourcehook/sourcehook_hookmangen_x86.h:671-682 `IA32_Sub_RmEBP_Imm8_Disp_Reg` -/
  | subImm8Sib (b i : Reg) (k : Fin 4) (v : BitVec 8)
  /-- core/sourcehook/sourcehook_hookmangen_x86.h:688-693 `IA32_Lea_Reg_DispRegMult` -/
  | leaSib (r b i : Reg) (k : Fin 4)
  /-- core/sourcehook/sourcehook_hookmangen_x86.h:695-701 `IA32_Lea_Reg_DispEBPRegMult` -/
  | leaEbpSib (r b i : Reg) (k : Fin 4)
  /-- core/sourcehook/sourcehook_hookmangen_x86.h:703-714 `IA32_Lea_Reg_DispRegMultImm8` -/
  | leaSib8 (r b i : Reg) (k : Fin 4) (d : BitVec 8)
  /-- core/sourcehook/sourcehook_hookmangen_x86.h:716-727 `IA32_Lea_Reg_DispRegMultImm32` -/
  | leaSib32 (r b i : Reg) (k : Fin 4) (d : BitVec 32)
  /-- core/sourcehook/sourcehook_hookmangen_x86.h:729-739 `IA32_Lea_Reg_RegMultImm32` -/
  | leaNoBase (r i : Reg) (k : Fin 4) (d : BitVec 32)
  /-- core/sourcehook/sourcehook_hookmangen_x86.h:741-746 `IA32_Lea_DispRegImm8` -/
  | lea8 (r rm : Reg) (d : BitVec 8)
  /-- core/sourcehook/sourcehook_hookmangen_x86.h:748-753 `IA32_Lea_DispRegImm32` -/
  | lea32 (r rm : Reg) (d : BitVec 32)
  /-- core/sourcehook/sourcehook_hookmangen_x86.h:755-761 `IA32_Lea_DispRegImmAuto` -/
  | leaAuto (r rm : Reg) (d : BitVec 32)
  /-- core/sourcehook/sourcehook_hookmangen_x86.h:767-770 `IA32_Pop_Reg` -/
  | pop (r : Reg)
  /-- core/sourcehook/sourcehook_hookmangen_x86.h:772-775 `IA32_Push_Reg` -/
  | push (r : Reg)
  /-- core/sourcehook/sourcehook_hookmangen_x86.h:777-781 `IA32_Push_Imm8` -/
  | pushImm8 (v : BitVec 8)
  /-- core/sourcehook/sourcehook_hookmangen_x86.h:783-787 `IA32_Push_Imm32` -/
  | pushImm32 (v : BitVec 32)
  /-- core/sourcehook/sourcehook_hookmangen_x86.h:789-792 `IA32_Pushad` -/
  | pushad
  /-- core/sourcehook/sourcehook_hookmangen_x86.h:794-797 `IA32_Popad` -/
  | popad
  /-- core/sourcehook/sourcehook_hookmangen_x86.h:799-804 `IA32_Push_Rm_Disp8` -/
  | pushD8 (rm : Reg) (d : BitVec 8)
  /-- core/sourcehook/sourcehook_hookmangen_x86.h:806-811 `IA32_Push_Rm_Disp32` -/
  | pushD32 (rm : Reg) (d : BitVec 32)
  /-- core/sourcehook/sourcehook_hookmangen_x86.h:813-819 `IA32_Push_Rm_DispAuto` -/
  | pushAuto (rm : Reg) (d : BitVec 32)
  /-- core/sourcehook/sourcehook_hookmangen_x86.h:821-827 `IA32_Push_Rm_Disp8_ESP` -/
  | pushEsp (d : BitVec 8)
  /-- core/sourcehook/sourcehook_hookmangen_x86.h:833-837 `IA32_Mov_Reg_Rm` -/
  | movRegRm (r rm : Reg) (mode : Fin 4)
  /-- core/sourcehook/sourcehook_hookmangen_x86.h:839-843 `IA32_Mov_Reg8_Rm8` -/
  | mov8RegRm (r rm : Reg) (mode : Fin 4)
  /-- core/sourcehook/sourcehook_hookmangen_x86.h:845-850 `IA32_Mov_Reg_RmESP` -/
  | movRegEsp0 (r : Reg)
  /-- core/sourcehook/sourcehook_hookmangen_x86.h:852-857 `IA32_Mov_Reg_Rm_Disp8` -/
  | movRegD8 (r rm : Reg) (d : BitVec 8)
  /-- core/sourcehook/sourcehook_hookmangen_x86.h:859-864 `IA32_Mov_Reg8_Rm8_Disp8` -/
  | mov8RegD8 (r rm : Reg) (d : BitVec 8)
  /-- core/sourcehook/sourcehook_hookmangen_x86.h:866-872 `IA32_Mov_Reg_Esp_Disp8` -/
  | movRegEsp (r : Reg) (d : BitVec 8)
  /-- core/sourcehook/sourcehook_hookmangen_x86.h:874-879 `IA32_Mov_Reg_Rm_Disp32` -/
  | movRegD32 (r rm : Reg) (d : BitVec 32)
  /-- core/sourcehook/sourcehook_hookmangen_x86.h:881-886 `IA32_Mov_Reg8_Rm8_Disp32` -/
  | mov8RegD32 (r rm : Reg) (d : BitVec 32)
  /-- core/sourcehook/sourcehook_hookmangen_x86.h:888-897 `IA32_Mov_Reg_Rm_Disp_Reg` -/
  | movRegSib (r b i : Reg) (k : Fin 4)
  /-- core/sourcehook/sourcehook_hookmangen_x86.h:899-910 `IA32_Mov_Reg_Rm_Disp_Reg_Disp8` -/
  | movRegSib8 (r b i : Reg) (k : Fin 4) (d : BitVec 8)
  /-- core/sourcehook/sourcehook_hookmangen_x86.h:912-922 `IA32_Mov_Reg_RmEBP_Disp_Reg` -/
  | movRegEbpSib (r b i : Reg) (k : Fin 4)
  /-- core/sourcehook/sourcehook_hookmangen_x86.h:924-932 `IA32_Mov_Reg_Rm_DispAuto` -/
  | movRegAuto (r rm : Reg) (d : BitVec 32)
  /-- core/sourcehook/sourcehook_hookmangen_x86.h:938-942 `IA32_Mov_Rm_Reg` -/
  | movRmReg (rm r : Reg) (mode : Fin 4)
  /-- core/sourcehook/sourcehook_hookmangen_x86.h:944-948 `IA32_Mov_Rm8_Reg8` -/
  | mov8RmReg (rm r : Reg) (mode : Fin 4)
  /-- core/sourcehook/sourcehook_hookmangen_x86.h:950-955 `IA32_Mov_Rm8_Reg8_Disp8` -/
  | mov8D8Reg (rm r : Reg) (d : BitVec 8)
  /-- core/sourcehook/sourcehook_hookmangen_x86.h:957-962 `IA32_Mov_Rm8_Reg8_Disp32` -/
  | mov8D32Reg (rm r : Reg) (d : BitVec 32)
  /-- core/sourcehook/sourcehook_hookmangen_x86.h:964-970 `IA32_Mov_Rm8_Reg8_DispAuto` -/
  | mov8AutoReg (rm r : Reg) (d : BitVec 32)
  /-- core/sourcehook/sourcehook_hookmangen_x86.h:972-977 `IA32_Mov_RmESP_Reg` -/
  | movEspReg (r : Reg)
  /-- core/sourcehook/sourcehook_hookmangen_x86.h:979-984 `IA32_Mov_Rm_Reg_Disp8` -/
  | movD8Reg (rm r : Reg) (d : BitVec 8)
  /-- core/sourcehook/sourcehook_hookmangen_x86.h:986-991 `IA32_Mov_Rm_Reg_Disp32` -/
  | movD32Reg (rm r : Reg) (d : BitVec 32)
  /-- core/sourcehook/sourcehook_hookmangen_x86.h:993-999 `IA32_Mov_Rm_Reg_DispAuto` -/
  | movAutoReg (rm r : Reg) (d : BitVec 32)
  /-- core/sourcehook/sourcehook_hookmangen_x86.h:1001-1011 `IA32_Mov_RmEBP_Reg_Disp_Reg` -/
  | movSibReg (b i : Reg) (k : Fin 4) (r : Reg)
  /-- core/sourcehook/sourcehook_hookmangen_x86.h:1013-1023 `IA32_Mov_Rm8EBP_Reg_Disp_Reg` -/
  | mov8SibReg (b i : Reg) (k : Fin 4) (r : Reg)
  /-- core/sourcehook/sourcehook_hookmangen_x86.h:1025-1036 `IA32_Mov_Rm16EBP_Reg_Disp_Reg` -/
  | mov16SibReg (b i : Reg) (k : Fin 4) (r : Reg)
  /-- core/sourcehook/sourcehook_hookmangen_x86.h:1042-1049 `IA32_Mov_Reg_Imm32` -/
  | movImm (r : Reg) (v : BitVec 32)
  /-- core/sourcehook/sourcehook_hookmangen_x86.h:1051-1056 `IA32_Mov_Rm_Imm32` -/
  | movRmImm (rm : Reg) (v : BitVec 32) (mode : Fin 4)
  /-- core/sourcehook/sourcehook_hookmangen_x86.h:1058-1067 `IA32_Mov_Rm_Imm32_Disp8` -/
  | movD8Imm (rm : Reg) (v : BitVec 32) (d : BitVec 8)
  /-- core/sourcehook/sourcehook_hookmangen_x86.h:1069-1078 `IA32_Mov_Rm_Imm32_Disp32` -/
  | movD32Imm (rm : Reg) (v d : BitVec 32)
  /-- core/sourcehook/sourcehook_hookmangen_x86.h:1080-1091 `IA32_Mov_RmEBP_Imm32_Disp_Reg` -/
  | movSibImm (b i : Reg) (k : Fin 4) (v : BitVec 32)
  /-- core/sourcehook/sourcehook_hookmangen_x86.h:1093-1100 `IA32_Mov_ESP_Disp8_Imm32` -/
  | movEspImm (d : BitVec 8) (v : BitVec 32)
  /-- core/sourcehook/sourcehook_hookmangen_x86.h:1106-1112 `IA32_Fstcw_Mem16_ESP` -/
  | fstcwEsp
  /-- core/sourcehook/sourcehook_hookmangen_x86.h:1114-1119 `IA32_Fldcw_Mem16_ESP` -/
  | fldcwEsp
  /-- core/sourcehook/sourcehook_hookmangen_x86.h:1121-1127 `IA32_Fldcw_Mem16_Disp8_ESP` -/
  | fldcwEspD8 (d : BitVec 8)
  /-- core/sourcehook/sourcehook_hookmangen_x86.h:1129-1134 `IA32_Fistp_Mem32_ESP` -/
  | fistpEsp
  /-- core/sourcehook/sourcehook_hookmangen_x86.h:1136-1142 `IA32_Fistp_Mem32_Disp8_Esp` -/
  | fistpEspD8 (d : BitVec 8)
  /-- core/sourcehook/sourcehook_hookmangen_x86.h:1144-1148 `IA32_Fucomip_ST0_FPUreg` -/
  | fucomip (r : Fin 8)
  /-- core/sourcehook/sourcehook_hookmangen_x86.h:1150-1154 `IA32_Fadd_FPUreg_ST0` -/
  | faddReg (r : Fin 8)
  /-- core/sourcehook/sourcehook_hookmangen_x86.h:1156-1161 `IA32_Fadd_Mem32_Disp8` -/
  | faddD8 (rm : Reg) (d : BitVec 8)
  /-- core/sourcehook/sourcehook_hookmangen_x86.h:1163-1168 `IA32_Fadd_Mem32_ESP` -/
  | faddEsp
  /-- core/sourcehook/sourcehook_hookmangen_x86.h:1170-1175 `IA32_Fsub_Mem32_Disp8` -/
  | fsubD8 (rm : Reg) (d : BitVec 8)
  /-- core/sourcehook/sourcehook_hookmangen_x86.h:1177-1182 `IA32_Fmul_Mem32_Disp8` -/
  | fmulD8 (rm : Reg) (d : BitVec 8)
  /-- core/sourcehook/sourcehook_hookmangen_x86.h:1184-1189 `IA32_Fdiv_Mem32_Disp8` -/
  | fdivD8 (rm : Reg) (d : BitVec 8)
  /-- core/sourcehook/sourcehook_hookmangen_x86.h:1191-1195 `IA32_Fild_Mem32` -/
  | fild (rm : Reg)
  /-- core/sourcehook/sourcehook_hookmangen_x86.h:1197-1201 `IA32_Fstp_Mem32` -/
  | fstp32 (rm : Reg)
  /-- core/sourcehook/sourcehook_hookmangen_x86.h:1203-1217 `IA32_Fstp_Mem32_DispAuto` -/
  | fstp32Auto (rm : Reg) (d : BitVec 32)
  /-- core/sourcehook/sourcehook_hookmangen_x86.h:1219-1223 `IA32_Fstp_Mem64` -/
  | fstp64 (rm : Reg)
  /-- core/sourcehook/sourcehook_hookmangen_x86.h:1225-1239 `IA32_Fstp_Mem64_DispAuto` -/
  | fstp64Auto (rm : Reg) (d : BitVec 32)
  /-- core/sourcehook/sourcehook_hookmangen_x86.h:1241-1246 `IA32_Fstp_Mem32_ESP` -/
  | fstp32Esp
  /-- core/sourcehook/sourcehook_hookmangen_x86.h:1248-1253 `IA32_Fstp_Mem64_ESP` -/
  | fstp64Esp
  /-- core/sourcehook/sourcehook_hookmangen_x86.h:1255-1259 `IA32_Fstp_FPUreg` -/
  | fstpReg (r : Fin 8)
  /-- core/sourcehook/sourcehook_hookmangen_x86.h:1261-1265 `IA32_Fld_Mem32` -/
  | fld32 (rm : Reg)
  /-- core/sourcehook/sourcehook_hookmangen_x86.h:1267-1271 `IA32_Fld_Mem64` -/
  | fld64 (rm : Reg)
  /-- core/sourcehook/sourcehook_hookmangen_x86.h:1273-1278 `IA32_Fld_Mem32_Disp8` -/
  | fld32D8 (rm : Reg) (d : BitVec 8)
  /-- core/sourcehook/sourcehook_hookmangen_x86.h:1280-1285 `IA32_Fld_Mem64_Disp8` -/
  | fld64D8 (rm : Reg) (d : BitVec 8)
  /-- core/sourcehook/sourcehook_hookmangen_x86.h:1287-1292 `IA32_Fld_Mem32_Disp32` -/
  | fld32D32 (rm : Reg) (d : BitVec 32)
  /-- core/sourcehook/sourcehook_hookmangen_x86.h:1294-1299 `IA32_Fld_Mem64_Disp32` -/
  | fld64D32 (rm : Reg) (d : BitVec 32)
  /-- core/sourcehook/sourcehook_hookmangen_x86.h:1301-1309 `IA32_Fld_Mem32_DispAuto` -/
  | fld32Auto (rm : Reg) (d : BitVec 32)
  /-- core/sourcehook/sourcehook_hookmangen_x86.h:1311-1319 `IA32_Fld_Mem64_DispAuto` -/
  | fld64Auto (rm : Reg) (d : BitVec 32)
  /-- core/sourcehook/sourcehook_hookmangen_x86.h:1325-1330 `IA32_Movzx_Reg32_Rm8` -/
  | movzx8 (r rm : Reg) (mode : Fin 4)
  /-- core/sourcehook/sourcehook_hookmangen_x86.h:1332-1338 `IA32_Movzx_Reg32_Rm8_Disp8` -/
  | movzx8D8 (r rm : Reg) (d : BitVec 8)
  /-- core/sourcehook/sourcehook_hookmangen_x86.h:1340-1346 `IA32_Movzx_Reg32_Rm8_Disp32` -/
  | movzx8D32 (r rm : Reg) (d : BitVec 32)
  /-- core/sourcehook/sourcehook_hookmangen_x86.h:1348-1354 `IA32_Movzx_Reg32_Rm8_DispAuto` -/
  | movzx8Auto (r rm : Reg) (d : BitVec 32)
  /-- core/sourcehook/sourcehook_hookmangen_x86.h:1356-1361 `IA32_Movzx_Reg32_Rm16` -/
  | movzx16 (r rm : Reg) (mode : Fin 4)
  /-- core/sourcehook/sourcehook_hookmangen_x86.h:1363-1369 `IA32_Movzx_Reg32_Rm16_Disp8` -/
  | movzx16D8 (r rm : Reg) (d : BitVec 8)
  /-- core/sourcehook/sourcehook_hookmangen_x86.h:1371-1377 `IA32_Movzx_Reg32_Rm16_Disp32` -/
  | movzx16D32 (r rm : Reg) (d : BitVec 32)
  /-- core/sourcehook/sourcehook_hookmangen_x86.h:1379-1385 `IA32_Movzx_Reg32_Rm16_DispAuto` -/
  | movzx16Auto (r rm : Reg) (d : BitVec 32)
  /-- core/sourcehook/sourcehook_hookmangen_x86.cpp:311-312: the byte `IA32_16BIT_PREFIX`
  (core/sourcehook/sourcehook_hookmangen_x86.h:55) and a call of `IA32_Movzx_Reg32_Rm16_DispAuto`,
  which nothing else calls -/
  | movzx16Pre (r rm : Reg) (d : BitVec 32)
  /-- core/sourcehook/sourcehook_hookmangen_x86.h:1391-1398 `IA32_Jump_Cond_Imm8` -/
  | jcc8 (c : Fin 16) (d : BitVec 8)
  /-- core/sourcehook/sourcehook_hookmangen_x86.h:1400-1407 `IA32_Jump_Imm32` -/
  | jmp32 (d : BitVec 32)
  /-- core/sourcehook/sourcehook_hookmangen_x86.h:1409-1416 `IA32_Jump_Imm8` -/
  | jmp8 (d : BitVec 8)
  /-- core/sourcehook/sourcehook_hookmangen_x86.h:1418-1426 `IA32_Jump_Cond_Imm32` -/
  | jcc32 (c : Fin 16) (d : BitVec 32)
  /-- core/sourcehook/sourcehook_hookmangen_x86.h:1428-1432 `IA32_Jump_Reg` -/
  | jmpReg (r : Reg)
  /-- core/sourcehook/sourcehook_hookmangen_x86.h:1434-1438 `IA32_Jump_Rm` -/
  | jmpRm (rm : Reg) (mode : Fin 4)
  /-- core/sourcehook/sourcehook_hookmangen_x86.h:1440-1447 `IA32_Call_Imm32` -/
  | callRel (d : BitVec 32)
  /-- core/sourcehook/sourcehook_hookmangen_x86.h:1449-1453 `IA32_Call_Reg` -/
  | call (r : Reg)
  /-- core/sourcehook/sourcehook_hookmangen_x86.h:1455-1459 `IA32_Call_Rm` -/
  | callRm (rm : Reg) (mode : Fin 4)
  /-- core/sourcehook/sourcehook_hookmangen_x86.h:1461-1464 `IA32_Return` -/
  | ret
  /-- core/sourcehook/sourcehook_hookmangen_x86.h:1466-1470 `IA32_Return_Popstack` -/
  | retn (n : BitVec 16)
  /-- core/sourcehook/sourcehook_hookmangen_x86.h:1472-1476 `IA32_Test_Rm_Reg` -/
  | testRmReg (rm r : Reg) (mode : Fin 4)
  /-- core/sourcehook/sourcehook_hookmangen_x86.h:1478-1482 `IA32_Test_Rm_Reg8` -/
  | test8RmReg (rm r : Reg) (mode : Fin 4)
  /-- core/sourcehook/sourcehook_hookmangen_x86.h:1484-1489 `IA32_Test_Rm_Imm32` -/
  | testImm (rm : Reg) (v : BitVec 32) (mode : Fin 4)
  /-- core/sourcehook/sourcehook_hookmangen_x86.h:1491-1495 `IA32_Cmp_Rm_Reg` -/
  | cmpRmReg (rm r : Reg) (mode : Fin 4)
  /-- core/sourcehook/sourcehook_hookmangen_x86.h:1497-1501 `IA32_Cmp_Reg_Rm` -/
  | cmpRegRm (r rm : Reg) (mode : Fin 4)
  /-- core/sourcehook/sourcehook_hookmangen_x86.h:1503-1508 `IA32_Cmp_Reg_Rm_ESP` -/
  | cmpRegEsp (r : Reg)
  /-- core/sourcehook/sourcehook_hookmangen_x86.h:1510-1515 `IA32_Cmp_Reg_Rm_Disp8` -/
  | cmpRegD8 (r rm : Reg) (d : BitVec 8)
  /-- core/sourcehook/sourcehook_hookmangen_x86.h:1517-1522 `IA32_Cmp_Rm_Imm8` -/
  | cmpImm8 (mode : Fin 4) (rm : Reg) (v : BitVec 8)
  /-- core/sourcehook/sourcehook_hookmangen_x86.h:1524-1529 `IA32_Cmp_Rm_Imm32` -/
  | cmpImm32 (mode : Fin 4) (rm : Reg) (v : BitVec 32)
  /-- core/sourcehook/sourcehook_hookmangen_x86.h:1531-1537 `IA32_Cmp_Rm_Imm32_Disp8` -/
  | cmpD8Imm32 (rm : Reg) (d : BitVec 8) (v : BitVec 32)
  /-- core/sourcehook/sourcehook_hookmangen_x86.h:1539-1545 `IA32_Cmp_Rm_Disp8_Imm8` -/
  | cmpD8Imm8 (rm : Reg) (d v : BitVec 8)
  /-- core/sourcehook/sourcehook_hookmangen_x86.h:1547-1551 `IA32_Cmp_Al_Imm8` -/
  | cmpAl (v : BitVec 8)
  /-- core/sourcehook/sourcehook_hookmangen_x86.h:1553-1557 `IA32_Cmp_Eax_Imm32` -/
  | cmpEax (v : BitVec 32)
  /-- core/sourcehook/sourcehook_hookmangen_x86.h:1559-1564 `IA32_SetCC_Rm8` -/
  | setcc (r : Reg) (c : Fin 16)
  /-- core/sourcehook/sourcehook_hookmangen_x86.h:1566-1571 `IA32_CmovCC_Rm` -/
  | cmov (rm : Reg) (c : Fin 16)
  /-- core/sourcehook/sourcehook_hookmangen_x86.h:1573-1579 `IA32_CmovCC_Rm_Disp8` -/
  | cmovD8 (rm : Reg) (c : Fin 16) (d : BitVec 8)
  /-- core/sourcehook/sourcehook_hookmangen_x86.h:1581-1584 `IA32_Cmpsb` -/
  | cmpsb
  /-- core/sourcehook/sourcehook_hookmangen_x86.h:1586-1589 `IA32_Rep` followed by `IA32_Movsd` -/
  | repMovsd
  /-- core/sourcehook/sourcehook_hookmangen_x86.h:1586-1589 `IA32_Rep` followed by `IA32_Movsb` -/
  | repMovsb
  /-- core/sourcehook/sourcehook_hookmangen_x86.h:1586-1589 `IA32_Rep` followed by `IA32_Stosd` -/
  | repStosd
  /-- core/sourcehook/sourcehook_hookmangen_x86.h:1586-1589 `IA32_Rep` followed by `IA32_Cmpsb` -/
  | repeCmpsb
  /-- core/sourcehook/sourcehook_hookmangen_x86.h:1591-1594 `IA32_Movsd` -/
  | movsd
  /-- core/sourcehook/sourcehook_hookmangen_x86.h:1596-1599 `IA32_Movsb` -/
  | movsb
  /-- core/sourcehook/sourcehook_hookmangen_x86.h:1601-1604 `IA32_Stosd` -/
  | stosd
  /-- core/sourcehook/sourcehook_hookmangen_x86.h:1606-1609 `IA32_Cld` -/
  | cld
deriving DecidableEq

/-- core/sourcehook/sourcehook_hookmangen_x86.h:225-1609: the bytes a call pushes; the lines of each
function are at its constructor. -/
def Op.bytes : Op → List Byte
  | .int3 => [byte 0xCC]
  | .incReg r => [byte (0x40 + r.val)]
  | .incD8 rm d => byte 0xFF :: m8 0 rm d
  | .incD32 rm d => byte 0xFF :: m32 0 rm d
  | .incSib b i k => byte 0xFF :: s0 0 b i k
  | .decReg r => [byte (0x48 + r.val)]
  | .decD8 rm d => byte 0xFF :: m8 1 rm d
  | .decD32 rm d => byte 0xFF :: m32 1 rm d
  | .decSib b i k => byte 0xFF :: s0 1 b i k
  | .xorRmReg rm r mode => [byte 0x31, mrm mode r rm]
  | .xorRegRm r rm mode => [byte 0x33, mrm mode r rm]
  | .xorImm8 rm mode v => [byte 0x83, mrm mode 6 rm, v]
  | .xorImm32 rm mode v => byte 0x81 :: mrm mode 6 rm :: bytes32 v
  | .xorEax v => byte 0x35 :: bytes32 v
  | .neg rm mode => [byte 0xF7, mrm mode 3 rm]
  | .orRegRm r rm mode => [byte 0x0B, mrm mode r rm]
  | .andRegRm r rm mode => [byte 0x23, mrm mode r rm]
  | .andImm32 rm mode v => byte 0x81 :: mrm mode 4 rm :: bytes32 v
  | .andImm8 rm mode v => [byte 0x83, mrm mode 4 rm, v]
  | .andEax v => byte 0x25 :: bytes32 v
  | .not rm mode => [byte 0xF7, mrm mode 2 rm]
  | .shrImm rm v mode => [byte 0xC1, mrm mode 5 rm, v]
  | .shr1 rm mode => [byte 0xD1, mrm mode 5 rm]
  | .shlImm rm v mode => [byte 0xC1, mrm mode 4 rm, v]
  | .shl1 rm mode => [byte 0xD1, mrm mode 4 rm]
  | .sarImm rm v mode => [byte 0xC1, mrm mode 7 rm, v]
  | .sarCl rm mode => [byte 0xD3, mrm mode 7 rm]
  | .sar1 rm mode => [byte 0xD1, mrm mode 7 rm]
  | .shrCl rm mode => [byte 0xD3, mrm mode 5 rm]
  | .shlCl rm mode => [byte 0xD3, mrm mode 4 rm]
  | .xchgEax r => [byte (0x90 + r.val)]
  | .addRmReg rm r mode => [byte 0x01, mrm mode r rm]
  | .addRegRm r rm mode => [byte 0x03, mrm mode r rm]
  | .addImm8 rm v mode => [byte 0x83, mrm mode 0 rm, v]
  | .addImm32 rm v mode => byte 0x81 :: mrm mode 0 rm :: bytes32 v
  | .addImmAuto rm v mode =>
    if fits8 v then [byte 0x83, mrm mode 0 rm, lo8 v]
    else byte 0x81 :: mrm mode 0 rm :: bytes32 v
  | .addEax v => byte 0x05 :: bytes32 v
  | .subRmReg rm r mode => [byte 0x29, mrm mode r rm]
  | .subRegRm r rm mode => [byte 0x2B, mrm mode r rm]
  | .subRegD8 r rm d => byte 0x2B :: m8 r rm d
  | .subD8Reg rm r d => byte 0x29 :: m8 r rm d
  | .subImm8 rm v mode => [byte 0x83, mrm mode 5 rm, v]
  | .subImm32 rm v mode => byte 0x81 :: mrm mode 5 rm :: bytes32 v
  | .subImmAuto rm v mode =>
    if fits8 v then [byte 0x83, mrm mode 5 rm, lo8 v]
    else byte 0x81 :: mrm mode 5 rm :: bytes32 v
  | .sbbRegRm r rm mode => [byte 0x1B, mrm mode r rm]
  | .sbbImm8 rm v mode => [byte 0x83, mrm mode 3 rm, v]
  | .div rm mode => [byte 0xF7, mrm mode 6 rm]
  | .idiv rm mode => [byte 0xF7, mrm mode 7 rm]
  | .mul rm mode => [byte 0xF7, mrm mode 4 rm]
  | .imul rm mode => [byte 0xF7, mrm mode 5 rm]
  | .imulImm8 rm mode v => [byte 0x6B, mrm mode 0 rm, v]
  | .imulImm32 rm mode v => byte 0x69 :: mrm mode 0 rm :: bytes32 v
  | .imulRegRm r rm mode => [byte 0x0F, byte 0xAF, mrm mode r rm]
  | .addD8Reg rm r d => byte 0x01 :: m8 r rm d
  | .addRegD8 r rm d => byte 0x03 :: m8 r rm d
  | .addImm8D8 rm v d => byte 0x83 :: m8 0 rm d ++ [v]
  | .addImm32D8 rm v d => byte 0x81 :: m8 0 rm d ++ bytes32 v
  | .addLater rm mode => byte 0x81 :: mrm mode 0 rm :: bytes32 0
  | .addImm8D32 rm v d => byte 0x83 :: m32 0 rm d ++ [v]
  | .addImm8Sib b i k v => byte 0x83 :: s8 0 b i k 0 ++ [v]
  | .subImm8D8 rm v d => byte 0x83 :: m8 5 rm d ++ [v]
  | .subImm8D32 rm v d => byte 0x83 :: m32 5 rm d ++ [v]
  | .subImm8Sib b i k v => byte 0x83 :: s8 5 b i k 0 ++ [v]
  | .leaSib r b i k => byte 0x8D :: s0 r b i k
  | .leaEbpSib r b i k => byte 0x8D :: s8 r b i k 0
  | .leaSib8 r b i k d => byte 0x8D :: s8 r b i k d
  | .leaSib32 r b i k d => byte 0x8D :: s32 r b i k d
  | .leaNoBase r i k d => byte 0x8D :: sn r i k d
  | .lea8 r rm d => byte 0x8D :: m8 r rm d
  | .lea32 r rm d => byte 0x8D :: m32 r rm d
  | .leaAuto r rm d => if fits8 d then byte 0x8D :: m8 r rm (lo8 d) else byte 0x8D :: m32 r rm d
  | .pop r => [byte (0x58 + r.val)]
  | .push r => [byte (0x50 + r.val)]
  | .pushImm8 v => [byte 0x6A, v]
  | .pushImm32 v => byte 0x68 :: bytes32 v
  | .pushad => [byte 0x60]
  | .popad => [byte 0x61]
  | .pushD8 rm d => byte 0xFF :: m8 6 rm d
  | .pushD32 rm d => byte 0xFF :: m32 6 rm d
  | .pushAuto rm d => if fits8 d then byte 0xFF :: m8 6 rm (lo8 d) else byte 0xFF :: m32 6 rm d
  | .pushEsp d => byte 0xFF :: s8 6 4 4 0 d
  | .movRegRm r rm mode => [byte 0x8B, mrm mode r rm]
  | .mov8RegRm r rm mode => [byte 0x8A, mrm mode r rm]
  | .movRegEsp0 r => byte 0x8B :: s0 r 4 4 0
  | .movRegD8 r rm d => byte 0x8B :: m8 r rm d
  | .mov8RegD8 r rm d => byte 0x8A :: m8 r rm d
  | .movRegEsp r d => byte 0x8B :: s8 r 4 4 0 d
  | .movRegD32 r rm d => byte 0x8B :: m32 r rm d
  | .mov8RegD32 r rm d => byte 0x8A :: m32 r rm d
  | .movRegSib r b i k => byte 0x8B :: s0 r b i k
  | .movRegSib8 r b i k d => byte 0x8B :: s8 r b i k d
  | .movRegEbpSib r b i k => byte 0x8B :: s8 r b i k 0
  | .movRegAuto r rm d =>
    if d = 0 then [byte 0x8B, mrm 0 r rm]
    else if d.toInt ≤ 127 then byte 0x8B :: m8 r rm (lo8 d)
    else byte 0x8B :: m32 r rm d
  | .movRmReg rm r mode => [byte 0x89, mrm mode r rm]
  | .mov8RmReg rm r mode => [byte 0x88, mrm mode r rm]
  | .mov8D8Reg rm r d => byte 0x88 :: m8 r rm d
  | .mov8D32Reg rm r d => byte 0x88 :: m32 r rm d
  | .mov8AutoReg rm r d => if fits8 d then byte 0x88 :: m8 r rm (lo8 d) else byte 0x88 :: m32 r rm d
  | .movEspReg r => byte 0x89 :: s0 r 4 4 0
  | .movD8Reg rm r d => byte 0x89 :: m8 r rm d
  | .movD32Reg rm r d => byte 0x89 :: m32 r rm d
  | .movAutoReg rm r d => if fits8 d then byte 0x89 :: m8 r rm (lo8 d) else byte 0x89 :: m32 r rm d
  | .movSibReg b i k r => byte 0x89 :: s8 r b i k 0
  | .mov8SibReg b i k r => byte 0x88 :: s8 r b i k 0
  | .mov16SibReg b i k r => byte 0x66 :: byte 0x89 :: s8 r b i k 0
  | .movImm r v => byte (0xB8 + r.val) :: bytes32 v
  | .movRmImm rm v mode => byte 0xC7 :: mrm mode 0 rm :: bytes32 v
  | .movD8Imm rm v d => byte 0xC7 :: m8 0 rm d ++ bytes32 v
  | .movD32Imm rm v d => byte 0xC7 :: m32 0 rm d ++ bytes32 v
  | .movSibImm b i k v => byte 0xC7 :: s8 0 b i k 0 ++ bytes32 v
  | .movEspImm d v => byte 0xC7 :: s8 0 4 4 0 d ++ bytes32 v
  | .fstcwEsp => byte 0x9B :: byte 0xD9 :: s0 7 4 4 0
  | .fldcwEsp => byte 0xD9 :: s0 5 4 4 0
  | .fldcwEspD8 d => byte 0xD9 :: s8 5 4 4 0 d
  | .fistpEsp => byte 0xDB :: s0 3 4 4 0
  | .fistpEspD8 d => byte 0xDB :: s8 3 4 4 0 d
  | .fucomip r => [byte 0xDF, byte (0xE8 + r.val)]
  | .faddReg r => [byte 0xDC, byte (0xC0 + r.val)]
  | .faddD8 rm d => byte 0xD8 :: m8 0 rm d
  | .faddEsp => byte 0xD8 :: s0 0 4 4 0
  | .fsubD8 rm d => byte 0xD8 :: m8 4 rm d
  | .fmulD8 rm d => byte 0xD8 :: m8 1 rm d
  | .fdivD8 rm d => byte 0xD8 :: m8 6 rm d
  | .fild rm => [byte 0xDB, mrm 0 0 rm]
  | .fstp32 rm => [byte 0xD9, mrm 0 3 rm]
  | .fstp32Auto rm d =>
    if -128 < d.toInt ∧ d.toInt < 127 then byte 0xD9 :: m8 3 rm (lo8 d)
    else [byte 0xD9, mrm 2 3 rm, lo8 d]
  | .fstp64 rm => [byte 0xDD, mrm 0 3 rm]
  | .fstp64Auto rm d =>
    if -128 < d.toInt ∧ d.toInt < 127 then byte 0xDD :: m8 3 rm (lo8 d)
    else [byte 0xDD, mrm 2 3 rm, lo8 d]
  | .fstp32Esp => byte 0xD9 :: s0 3 4 4 0
  | .fstp64Esp => byte 0xDD :: s0 3 4 4 0
  | .fstpReg r => [byte 0xDD, byte (0xD8 + r.val)]
  | .fld32 rm => [byte 0xD9, mrm 0 0 rm]
  | .fld64 rm => [byte 0xDD, mrm 0 0 rm]
  | .fld32D8 rm d => byte 0xD9 :: m8 0 rm d
  | .fld64D8 rm d => byte 0xDD :: m8 0 rm d
  | .fld32D32 rm d => byte 0xD9 :: m32 0 rm d
  | .fld64D32 rm d => byte 0xDD :: m32 0 rm d
  | .fld32Auto rm d =>
    if d = 0 then [byte 0xD9, mrm 0 0 rm]
    else if d.toInt ≤ 127 then byte 0xD9 :: m8 0 rm (lo8 d)
    else byte 0xD9 :: m32 0 rm d
  | .fld64Auto rm d =>
    if d = 0 then [byte 0xDD, mrm 0 0 rm]
    else if d.toInt ≤ 127 then byte 0xDD :: m8 0 rm (lo8 d)
    else byte 0xDD :: m32 0 rm d
  | .movzx8 r rm mode => [byte 0x0F, byte 0xB6, mrm mode r rm]
  | .movzx8D8 r rm d => byte 0x0F :: byte 0xB6 :: m8 r rm d
  | .movzx8D32 r rm d => byte 0x0F :: byte 0xB6 :: m32 r rm d
  | .movzx8Auto r rm d =>
    if fits8 d then byte 0x0F :: byte 0xB6 :: m8 r rm (lo8 d)
    else byte 0x0F :: byte 0xB6 :: m32 r rm d
  | .movzx16 r rm mode => [byte 0x0F, byte 0xB7, mrm mode r rm]
  | .movzx16D8 r rm d => byte 0x0F :: byte 0xB7 :: m8 r rm d
  | .movzx16D32 r rm d => byte 0x0F :: byte 0xB7 :: m32 r rm d
  | .movzx16Auto r rm d =>
    if fits8 d then byte 0x0F :: byte 0xB7 :: m8 r rm (lo8 d)
    else byte 0x0F :: byte 0xB7 :: m32 r rm d
  | .movzx16Pre r rm d =>
    byte 0x66 :: (if fits8 d then byte 0x0F :: byte 0xB7 :: m8 r rm (lo8 d)
      else byte 0x0F :: byte 0xB7 :: m32 r rm d)
  | .jcc8 c d => [byte (0x70 + c.val), d]
  | .jmp32 d => byte 0xE9 :: bytes32 d
  | .jmp8 d => [byte 0xEB, d]
  | .jcc32 c d => byte 0x0F :: byte (0x80 + c.val) :: bytes32 d
  | .jmpReg r => [byte 0xFF, mrm 3 4 r]
  | .jmpRm rm mode => [byte 0xFF, mrm mode 4 rm]
  | .callRel d => byte 0xE8 :: bytes32 d
  | .call r => [byte 0xFF, mrm 3 2 r]
  | .callRm rm mode => [byte 0xFF, mrm mode 4 rm]
  | .ret => [byte 0xC3]
  | .retn n => byte 0xC2 :: bytes16 n
  | .testRmReg rm r mode => [byte 0x85, mrm mode r rm]
  | .test8RmReg rm r mode => [byte 0x84, mrm mode r rm]
  | .testImm rm v mode => byte 0xF7 :: mrm mode 0 rm :: bytes32 v
  | .cmpRmReg rm r mode => [byte 0x39, mrm mode r rm]
  | .cmpRegRm r rm mode => [byte 0x3B, mrm mode r rm]
  | .cmpRegEsp r => byte 0x3B :: s0 r 4 4 0
  | .cmpRegD8 r rm d => byte 0x3B :: m8 r rm d
  | .cmpImm8 mode rm v => [byte 0x83, mrm mode 7 rm, v]
  | .cmpImm32 mode rm v => byte 0x81 :: mrm mode 7 rm :: bytes32 v
  | .cmpD8Imm32 rm d v => byte 0x81 :: m8 7 rm d ++ bytes32 v
  | .cmpD8Imm8 rm d v => byte 0x83 :: m8 7 rm d ++ [v]
  | .cmpAl v => [byte 0x3C, v]
  | .cmpEax v => byte 0x3D :: bytes32 v
  | .setcc r c => [byte 0x0F, byte (0x90 + c.val), mrm 3 0 r]
  | .cmov rm c => [byte 0x0F, byte (0x40 + c.val), mrm 0 0 rm]
  | .cmovD8 rm c d => byte 0x0F :: byte (0x40 + c.val) :: m8 0 rm d
  | .cmpsb => [byte 0xA6]
  | .repMovsd => [byte 0xF3, byte 0xA5]
  | .repMovsb => [byte 0xF3, byte 0xA4]
  | .repStosd => [byte 0xF3, byte 0xAB]
  | .repeCmpsb => [byte 0xF3, byte 0xA6]
  | .movsd => [byte 0xA5]
  | .movsb => [byte 0xA4]
  | .stosd => [byte 0xAB]
  | .cld => [byte 0xFC]

end Verif.Jit32
