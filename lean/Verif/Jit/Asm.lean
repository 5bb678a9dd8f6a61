/-
The instruction writer of the x86-64 hook manager generator:
core/sourcehook/sh_asm_x86_64.h and the byte buffer core/sourcehook/sh_asm.h.

Each method of `x64JitWriter` pushes bytes at the end of the buffer; it is modelled by the list
of bytes it pushes.  Integers are bit vectors: `std::int32_t` is `BitVec 32` (signed readings by
`toInt`), `std::uint64_t` is `BitVec 64`.  A register code is an element of `Fin 16` (the
enumerations `x8664Reg` and `x8664FloatReg` have exactly the values 0 to 15).

Simplified: the buffer of sh_asm.h is its contents (`m_pData[0 .. m_Size)`); growing the
allocation copies the contents (sh_asm.h:38-67) and is not visible in them; a failed allocation
and a size of 2^32 bytes or more are left out.
-/
namespace Verif.Jit

/-- core/sourcehook/sh_asm.h:12: an `unsigned char` of the buffer. -/
abbrev Byte := BitVec 8

/-- core/sourcehook/sh_asm_x86_64.h:11-28 `x8664Reg` (and 133-149 `x86_64_Reg`). -/
abbrev Reg := Fin 16

/-- core/sourcehook/sh_asm_x86_64.h:30-47 `x8664FloatReg` (and 49-61). -/
abbrev XReg := Fin 16

/-- core/sourcehook/sh_asm_x86_64.h:12. -/
abbrev rax : Reg := 0
/-- core/sourcehook/sh_asm_x86_64.h:13. -/
abbrev rcx : Reg := 1
/-- core/sourcehook/sh_asm_x86_64.h:14. -/
abbrev rdx : Reg := 2
/-- core/sourcehook/sh_asm_x86_64.h:15. -/
abbrev rbx : Reg := 3
/-- core/sourcehook/sh_asm_x86_64.h:16. -/
abbrev rsp : Reg := 4
/-- core/sourcehook/sh_asm_x86_64.h:17. -/
abbrev rbp : Reg := 5
/-- core/sourcehook/sh_asm_x86_64.h:18. -/
abbrev rsi : Reg := 6
/-- core/sourcehook/sh_asm_x86_64.h:19. -/
abbrev rdi : Reg := 7
/-- core/sourcehook/sh_asm_x86_64.h:20. -/
abbrev r8 : Reg := 8
/-- core/sourcehook/sh_asm_x86_64.h:21. -/
abbrev r9 : Reg := 9
/-- core/sourcehook/sh_asm_x86_64.h:22. -/
abbrev r10 : Reg := 10
/-- core/sourcehook/sh_asm_x86_64.h:24. -/
abbrev r12 : Reg := 12
/-- core/sourcehook/sh_asm_x86_64.h:25. -/
abbrev r13 : Reg := 13

/-- core/sourcehook/sh_asm_x86_64.h:142 and 57 `extended()`. -/
def extended (r : Fin 16) : Bool := (r.val &&& 0x8) == 0x8

/-- core/sourcehook/sh_asm_x86_64.h:143 and 58 `low()`. -/
def low (r : Fin 16) : Nat := r.val &&& 0x7

/-- core/sourcehook/sh_asm.h:100 `write_ubyte`: the value is converted to eight bits. -/
def byte (n : Nat) : Byte := BitVec.ofNat 8 n

/-- core/sourcehook/sh_asm.h:33-36, 107 `write_int32`: the four bytes of the object, which on
x86-64 lie with the least significant first. -/
def bytes32 (x : BitVec 32) : List Byte :=
  [x.extractLsb' 0 8, x.extractLsb' 8 8, x.extractLsb' 16 8, x.extractLsb' 24 8]

/-- core/sourcehook/sh_asm.h:33-36, 109 `write_uint64`. -/
def bytes64 (x : BitVec 64) : List Byte :=
  [x.extractLsb' 0 8, x.extractLsb' 8 8, x.extractLsb' 16 8, x.extractLsb' 24 8,
   x.extractLsb' 32 8, x.extractLsb' 40 8, x.extractLsb' 48 8, x.extractLsb' 56 8]

/-- core/sourcehook/sh_asm_x86_64.h:88-131 `x86_64_RegRm`: a memory operand, the register that
holds the base address and a displacement.  The member `mod` is a function of both, computed by
the constructor: `RegRm.mod`. -/
structure RegRm where
  rm : Reg
  disp : BitVec 32
deriving DecidableEq

/-- An `int` or `std::int32_t` argument (core/sourcehook/sh_asm_x86_64.h:140, 304-337, 346, 382,
390, 441, 458, 481, 572), reduced to 32 bits. -/
def i32 (k : Int) : BitVec 32 := BitVec.ofInt 32 k

/-- core/sourcehook/sh_asm_x86_64.h:139-140 `operator()`: the operand written `reg(disp)`. -/
def at_ (r : Reg) (disp : Int) : RegRm := ⟨r, i32 disp⟩

/-- core/sourcehook/sh_asm_x86_64.h:206-215 `Setup`; the values of `MOD_MODRM` are at 81-86. -/
def RegRm.mod (m : RegRm) : Nat :=
  if m.disp = 0 ∧ m.rm ≠ rbp ∧ m.rm ≠ r13 then 0
  else if -128 ≤ m.disp.toInt ∧ m.disp.toInt ≤ 127 then 1
  else 2

/-- core/sourcehook/sh_asm_x86_64.h:92-95 `sib`. -/
def RegRm.sib (m : RegRm) : Nat := (0 <<< 6) ||| (low m.rm <<< 3) ||| low m.rm

/-- core/sourcehook/sh_asm_x86_64.h:97-103 `modrm(reg)`; with `field = 0` also 105-107 `modrm()`. -/
def RegRm.modrm (m : RegRm) (field : Nat) : Nat :=
  (m.mod <<< 6) ||| ((field &&& 0x7) <<< 3) ||| low m.rm

/-- core/sourcehook/sh_asm_x86_64.h:234-270 `write_modrm(buffer, reg)` for both kinds of
registers; with `field = 0` also 217-232 `write_modrm(buffer)`. -/
def RegRm.write (m : RegRm) (field : Nat) : List Byte :=
  byte (m.modrm field)
  :: ((if m.rm = rsp ∨ m.rm = r12 then [byte m.sib] else [])
    ++ (if m.mod ≠ 0 then
          (if m.mod = 1 then [m.disp.extractLsb' 0 8]
           else if m.mod = 2 then bytes32 m.disp else [])
        else []))

/-- core/sourcehook/sh_asm_x86_64.h:186-196 `w_rex`. -/
def wRex (reg rm : Fin 16) : Byte :=
  byte (0x48 ||| (((extended reg).toNat <<< 2) ||| (extended rm).toNat))

/-- core/sourcehook/sh_asm_x86_64.h:198-200 `modrm(reg, rm)`. -/
def modrm (reg rm : Reg) : Byte := byte ((3 <<< 6) ||| ((reg.val &&& 0x7) <<< 3) ||| (rm.val &&& 0x7))

/-- core/sourcehook/sh_asm_x86_64.h:202-204 `modrm_rm`. -/
def modrmRm (rm : Reg) (base : Nat) : Byte := byte ((3 <<< 6) ||| (base <<< 3) ||| (rm.val &&& 0x7))

/-- core/sourcehook/sh_asm_x86_64.h:289-291 (also 297-299, 340-342, 357-359, 383-385): `REX::B`
for an extended register, else nothing. -/
def rexB (r : Reg) : List Byte := if extended r then [byte 0x41] else []

/-- core/sourcehook/sh_asm_x86_64.h:391-395 (also 406-410, 442-446, 459-463, 482-486, 573-577):
`REX::WB` for an extended register, else `REX::W`. -/
def rexW (r : Reg) : Byte := if extended r then byte 0x49 else byte 0x48

namespace Enc

/-- core/sourcehook/sh_asm_x86_64.h:278-280 `breakpoint`. -/
def breakpoint : List Byte := [byte 0xCC]

/-- core/sourcehook/sh_asm_x86_64.h:282-286 `rep_movs_bytes`. -/
def repMovsBytes : List Byte := [byte 0xF3, byte 0x48, byte 0xA4]

/-- core/sourcehook/sh_asm_x86_64.h:288-294 `call(reg)`. -/
def call (r : Reg) : List Byte := rexB r ++ [byte 0xFF, byte (0xD0 + low r)]

/-- core/sourcehook/sh_asm_x86_64.h:296-302 `jump(reg)`. -/
def jumpReg (r : Reg) : List Byte := rexB r ++ [byte 0xFF, byte (0xE0 + low r)]

/-- core/sourcehook/sh_asm_x86_64.h:304-307 `jump(off)`. -/
def jump (off : BitVec 32) : List Byte := byte 0xE9 :: bytes32 off

/-- core/sourcehook/sh_asm_x86_64.h:309-313 `jz`. -/
def jz (off : BitVec 32) : List Byte := byte 0x0F :: byte 0x84 :: bytes32 off

/-- core/sourcehook/sh_asm_x86_64.h:315-319 `jl`. -/
def jl (off : BitVec 32) : List Byte := byte 0x0F :: byte 0x8C :: bytes32 off

/-- core/sourcehook/sh_asm_x86_64.h:321-325 `jle`. -/
def jle (off : BitVec 32) : List Byte := byte 0x0F :: byte 0x8E :: bytes32 off

/-- core/sourcehook/sh_asm_x86_64.h:327-331 `je`. -/
def je (off : BitVec 32) : List Byte := byte 0x0F :: byte 0x84 :: bytes32 off

/-- core/sourcehook/sh_asm_x86_64.h:333-337 `jne`. -/
def jne (off : BitVec 32) : List Byte := byte 0x0F :: byte 0x85 :: bytes32 off

/-- core/sourcehook/sh_asm_x86_64.h:339-344 `push(reg)`. -/
def push (r : Reg) : List Byte := rexB r ++ [byte (0x50 + low r)]

/-- core/sourcehook/sh_asm_x86_64.h:346-354 `push(val)`. -/
def pushImm (v : BitVec 32) : List Byte :=
  if -128 ≤ v.toInt ∧ v.toInt ≤ 127 then [byte 0x6A, v.extractLsb' 0 8]
  else byte 0x68 :: bytes32 v

/-- core/sourcehook/sh_asm_x86_64.h:356-361 `pop(reg)`. -/
def pop (r : Reg) : List Byte := rexB r ++ [byte (0x58 + low r)]

/-- core/sourcehook/sh_asm_x86_64.h:364-368 `mov(dst, src)`. -/
def mov (dst src : Reg) : List Byte := [wRex src dst, byte 0x89, modrm src dst]

/-- core/sourcehook/sh_asm_x86_64.h:370-374 `mov(rm, reg)`. -/
def store (m : RegRm) (r : Reg) : List Byte := wRex r m.rm :: byte 0x89 :: m.write r.val

/-- core/sourcehook/sh_asm_x86_64.h:376-380 `mov(reg, rm)`. -/
def load (r : Reg) (m : RegRm) : List Byte := wRex r m.rm :: byte 0x8B :: m.write r.val

/-- core/sourcehook/sh_asm_x86_64.h:382-388 `mov(dst, int32)`. -/
def movImm (dst : Reg) (imm : BitVec 32) : List Byte := rexB dst ++ byte (0xB8 + low dst) :: bytes32 imm

/-- core/sourcehook/sh_asm_x86_64.h:390-399 `mov(rm, int32)`. -/
def storeImm (m : RegRm) (imm : BitVec 32) : List Byte :=
  rexW m.rm :: byte 0xC7 :: (m.write 0 ++ bytes32 imm)

/-- core/sourcehook/sh_asm_x86_64.h:401-414 `mov(dst, uint64)`. -/
def movImm64 (dst : Reg) (imm : BitVec 64) : List Byte :=
  if imm.toNat ≤ 0xFFFFFFFF then movImm dst (imm.setWidth 32)
  else rexW dst :: byte (0xB8 + low dst) :: bytes64 imm

/-- core/sourcehook/sh_asm_x86_64.h:416-422 `movsd(reg, rm)`. -/
def movsdLoad (x : XReg) (m : RegRm) : List Byte :=
  byte 0xF2 :: wRex x m.rm :: byte 0x0F :: byte 0x10 :: m.write x.val

/-- core/sourcehook/sh_asm_x86_64.h:424-432 `movsd(rm, reg)`. -/
def movsdStore (m : RegRm) (x : XReg) : List Byte :=
  byte 0xF2 :: ((if extended x || extended m.rm then [wRex x m.rm] else [])
    ++ byte 0x0F :: byte 0x11 :: m.write x.val)

/-- core/sourcehook/sh_asm_x86_64.h:435-439 `add(dst, src)`. -/
def add (dst src : Reg) : List Byte := [wRex src dst, byte 0x01, modrm src dst]

/-- core/sourcehook/sh_asm_x86_64.h:441-450 `add(dst, imm)`. -/
def addImm (dst : Reg) (imm : BitVec 32) : List Byte :=
  rexW dst :: byte 0x81 :: modrmRm dst 0 :: bytes32 imm

/-- core/sourcehook/sh_asm_x86_64.h:452-456 `sub(dst, src)`. -/
def sub (dst src : Reg) : List Byte := [wRex src dst, byte 0x29, modrm src dst]

/-- core/sourcehook/sh_asm_x86_64.h:458-467 `sub(dst, imm)`. -/
def subImm (dst : Reg) (imm : BitVec 32) : List Byte :=
  rexW dst :: byte 0x81 :: modrmRm dst 5 :: bytes32 imm

/-- core/sourcehook/sh_asm_x86_64.h:469-473 `xor(dst, src)`. -/
def xor (dst src : Reg) : List Byte := [wRex src dst, byte 0x31, modrm src dst]

/-- core/sourcehook/sh_asm_x86_64.h:475-479 `test(dst, src)`. -/
def test (dst src : Reg) : List Byte := [wRex src dst, byte 0x85, modrm src dst]

/-- core/sourcehook/sh_asm_x86_64.h:481-490 `test(reg, imm)`. -/
def testImm (r : Reg) (imm : BitVec 32) : List Byte :=
  rexW r :: byte 0xF7 :: modrmRm r 0 :: bytes32 imm

/-- core/sourcehook/sh_asm_x86_64.h:492-497 `cmovne(reg, rm)` (and 506-511 `cmovnz`). -/
def cmovneMem (r : Reg) (m : RegRm) : List Byte :=
  wRex r m.rm :: byte 0x0F :: byte 0x45 :: m.write r.val

/-- core/sourcehook/sh_asm_x86_64.h:499-504 `cmovne(reg, rm)` (and 513-518 `cmovnz`). -/
def cmovne (r rm : Reg) : List Byte := [wRex r rm, byte 0x0F, byte 0x45, modrm r rm]

/-- core/sourcehook/sh_asm_x86_64.h:520-525 `cmovge(reg, rm)`. -/
def cmovgeMem (r : Reg) (m : RegRm) : List Byte :=
  wRex r m.rm :: byte 0x0F :: byte 0x4D :: m.write r.val

/-- core/sourcehook/sh_asm_x86_64.h:527-532 `cmovge(reg, rm)`. -/
def cmovge (r rm : Reg) : List Byte := [wRex r rm, byte 0x0F, byte 0x4D, modrm r rm]

/-- core/sourcehook/sh_asm_x86_64.h:534-539 `cmovg(reg, rm)`. -/
def cmovgMem (r : Reg) (m : RegRm) : List Byte :=
  wRex r m.rm :: byte 0x0F :: byte 0x4F :: m.write r.val

/-- core/sourcehook/sh_asm_x86_64.h:541-546 `cmovg(reg, rm)`. -/
def cmovg (r rm : Reg) : List Byte := [wRex r rm, byte 0x0F, byte 0x4F, modrm r rm]

/-- core/sourcehook/sh_asm_x86_64.h:548-552 `lea(reg, rm)`. -/
def lea (r : Reg) (m : RegRm) : List Byte := wRex r m.rm :: byte 0x8D :: m.write r.val

/-- core/sourcehook/sh_asm_x86_64.h:554-558 `cmp(reg, rm)` with a memory operand. -/
def cmpMem (r : Reg) (m : RegRm) : List Byte := wRex r m.rm :: byte 0x3B :: m.write r.val

/-- core/sourcehook/sh_asm_x86_64.h:560-564 `cmp(rm, reg)`. -/
def cmpStore (m : RegRm) (r : Reg) : List Byte := wRex r m.rm :: byte 0x39 :: m.write r.val

/-- core/sourcehook/sh_asm_x86_64.h:566-570 `cmp(reg, rm)` with two registers. -/
def cmp (r rm : Reg) : List Byte := [wRex r rm, byte 0x3B, modrm r rm]

/-- core/sourcehook/sh_asm_x86_64.h:572-581 `cmp(dst, imm)`. -/
def cmpImm (dst : Reg) (imm : BitVec 32) : List Byte :=
  rexW dst :: byte 0x81 :: modrmRm dst 7 :: bytes32 imm

/-- core/sourcehook/sh_asm_x86_64.h:583-585 `retn`. -/
def retn : List Byte := [byte 0xC3]

end Enc

/-- The calls of `x64JitWriter` (core/sourcehook/sh_asm_x86_64.h:274-586): one constructor per
method and overload.  `jz` is `je` and `cmovnz` is `cmovne`: the same instructions. -/
inductive Op where
  | breakpoint | repMovsBytes
  | call (r : Reg) | jumpReg (r : Reg)
  | jump (off : BitVec 32) | jz (off : BitVec 32) | jl (off : BitVec 32) | jle (off : BitVec 32)
  | je (off : BitVec 32) | jne (off : BitVec 32)
  | push (r : Reg) | pushImm (v : BitVec 32) | pop (r : Reg)
  | mov (dst src : Reg) | store (m : RegRm) (r : Reg) | load (r : Reg) (m : RegRm)
  | movImm (dst : Reg) (imm : BitVec 32) | storeImm (m : RegRm) (imm : BitVec 32)
  | movImm64 (dst : Reg) (imm : BitVec 64)
  | movsdLoad (x : XReg) (m : RegRm) | movsdStore (m : RegRm) (x : XReg)
  | add (dst src : Reg) | addImm (dst : Reg) (imm : BitVec 32)
  | sub (dst src : Reg) | subImm (dst : Reg) (imm : BitVec 32)
  | xor (dst src : Reg) | test (dst src : Reg) | testImm (r : Reg) (imm : BitVec 32)
  | cmovneMem (r : Reg) (m : RegRm) | cmovne (r rm : Reg)
  | cmovgeMem (r : Reg) (m : RegRm) | cmovge (r rm : Reg)
  | cmovgMem (r : Reg) (m : RegRm) | cmovg (r rm : Reg)
  | lea (r : Reg) (m : RegRm)
  | cmpMem (r : Reg) (m : RegRm) | cmpStore (m : RegRm) (r : Reg) | cmp (r rm : Reg)
  | cmpImm (dst : Reg) (imm : BitVec 32)
  | retn

/-- The bytes pushed by a call (core/sourcehook/sh_asm_x86_64.h:274-586). -/
def Op.bytes : Op → List Byte
  | .breakpoint => Enc.breakpoint
  | .repMovsBytes => Enc.repMovsBytes
  | .call r => Enc.call r
  | .jumpReg r => Enc.jumpReg r
  | .jump o => Enc.jump o
  | .jz o => Enc.jz o
  | .jl o => Enc.jl o
  | .jle o => Enc.jle o
  | .je o => Enc.je o
  | .jne o => Enc.jne o
  | .push r => Enc.push r
  | .pushImm v => Enc.pushImm v
  | .pop r => Enc.pop r
  | .mov d s => Enc.mov d s
  | .store m r => Enc.store m r
  | .load r m => Enc.load r m
  | .movImm d i => Enc.movImm d i
  | .storeImm m i => Enc.storeImm m i
  | .movImm64 d i => Enc.movImm64 d i
  | .movsdLoad x m => Enc.movsdLoad x m
  | .movsdStore m x => Enc.movsdStore m x
  | .add d s => Enc.add d s
  | .addImm d i => Enc.addImm d i
  | .sub d s => Enc.sub d s
  | .subImm d i => Enc.subImm d i
  | .xor d s => Enc.xor d s
  | .test d s => Enc.test d s
  | .testImm r i => Enc.testImm r i
  | .cmovneMem r m => Enc.cmovneMem r m
  | .cmovne r s => Enc.cmovne r s
  | .cmovgeMem r m => Enc.cmovgeMem r m
  | .cmovge r s => Enc.cmovge r s
  | .cmovgMem r m => Enc.cmovgMem r m
  | .cmovg r s => Enc.cmovg r s
  | .lea r m => Enc.lea r m
  | .cmpMem r m => Enc.cmpMem r m
  | .cmpStore m r => Enc.cmpStore m r
  | .cmp r s => Enc.cmp r s
  | .cmpImm d i => Enc.cmpImm d i
  | .retn => Enc.retn

/-- core/sourcehook/sh_asm.h:69-79 `rewrite(offset, what)` for a four byte value: the bytes at
`offset` are replaced.  Every use has `offset + 4` at most the size of the contents; outside
that the result is `none`. -/
def rewrite32 (buf : List Byte) (offset : Nat) (v : BitVec 32) : Option (List Byte) :=
  if offset + 4 ≤ buf.length then
    some (buf.take offset ++ bytes32 v ++ buf.drop (offset + 4))
  else none

end Verif.Jit
