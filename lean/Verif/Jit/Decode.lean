import Verif.Jit.Asm
/-
Specification: the machine code of x86-64, for the instructions that matter here, as the
processor manuals define it (Intel SDM volume 2: instruction format in chapter 2, opcode maps in
appendix A).  Nothing in this file refers to how the writer in /repo encodes instructions; only
the byte type and the register numbering are shared.

An instruction that is outside the part described here (32-bit forms without REX.W, other
opcodes, other prefixes) is not decoded: `none`.
-/
namespace Verif.Jit

/-- Base of a memory operand: a register, the address of the next instruction, or nothing. -/
inductive Base where
  | reg (r : Reg)
  | rip
  | none
deriving DecidableEq

/-- A memory operand: base + index * 2^scale + disp. -/
structure Mem where
  base : Base
  index : Option (Reg × Fin 4)
  disp : BitVec 32
deriving DecidableEq

/-- An `r/m64` operand. -/
inductive RM where
  | reg (r : Reg)
  | mem (m : Mem)
deriving DecidableEq

/-- Two-operand operations on 64-bit values. -/
inductive Bin where
  | mov | add | sub | xor | cmp | test
deriving DecidableEq

/-- Conditions of `jcc` and `cmovcc`. -/
inductive Cond where
  | e | ne | l | ge | le | g
deriving DecidableEq

/-- The instructions; all operands have 64 bits except where said. -/
inductive Instr where
  /-- `op r/m64, r64` -/
  | bin (op : Bin) (dst : RM) (src : Reg)
  /-- `op r64, r/m64` -/
  | binRev (op : Bin) (dst : Reg) (src : RM)
  /-- `op r/m64, imm32`, the immediate extended with its sign -/
  | binImm (op : Bin) (dst : RM) (imm : BitVec 32)
  /-- `mov r32, imm32`: the upper half of the register becomes zero -/
  | movImm32 (dst : Reg) (imm : BitVec 32)
  /-- `mov r64, imm64` -/
  | movImm64 (dst : Reg) (imm : BitVec 64)
  | lea (dst : Reg) (m : Mem)
  | cmov (c : Cond) (dst : Reg) (src : RM)
  | push (r : Reg)
  /-- `push imm`, extended with its sign -/
  | pushImm (imm : BitVec 32)
  | pop (r : Reg)
  /-- call and jump through an operand -/
  | call (t : RM)
  | jmpInd (t : RM)
  /-- jumps relative to the next instruction -/
  | jmp (off : BitVec 32)
  | jcc (c : Cond) (off : BitVec 32)
  | ret
  | int3
  | repMovsb
  /-- `movsd xmm, m64` (the upper half of the register becomes zero) and `movsd m64, xmm` -/
  | movsdLoad (x : XReg) (m : Mem)
  | movsdStore (m : Mem) (x : XReg)
deriving DecidableEq

/-- The four bits of a REX prefix. -/
structure Rex where
  w : Bool
  r : Bool
  x : Bool
  b : Bool
deriving DecidableEq

/-- No REX prefix. -/
def noRex : Rex := ⟨false, false, false, false⟩

/-- A REX prefix is a byte 0x40 to 0x4F. -/
def rexOf (n : Nat) : Option Rex :=
  if n / 16 = 4 then some ⟨n / 8 % 2 = 1, n / 4 % 2 = 1, n / 2 % 2 = 1, n % 2 = 1⟩ else none

/-- A register number from three bits of the code and one bit of the prefix. -/
def regNo (ext : Bool) (n : Nat) : Fin 16 :=
  ⟨n % 8 + (if ext then 8 else 0), by split <;> omega⟩

/-- A four byte value, least significant byte first. -/
def get32 : List Byte → Option (BitVec 32 × List Byte)
  | a :: b :: c :: d :: rest =>
    some (BitVec.ofNat 32 (a.toNat + 256 * b.toNat + 65536 * c.toNat + 16777216 * d.toNat), rest)
  | _ => none

/-- An eight byte value, least significant byte first. -/
def get64 (l : List Byte) : Option (BitVec 64 × List Byte) :=
  match get32 l with
  | none => none
  | some (lo, l) =>
    match get32 l with
    | none => none
    | some (hi, l) => some (BitVec.ofNat 64 (lo.toNat + 4294967296 * hi.toNat), l)

/-- The displacement that goes with the `mod` field: none, one byte extended with its sign, or
four bytes. -/
def getDisp (mod : Nat) (l : List Byte) : Option (BitVec 32 × List Byte) :=
  if mod = 0 then some (0, l)
  else if mod = 1 then
    match l with
    | d :: rest => some (d.signExtend 32, rest)
    | [] => none
  else get32 l

/-- The memory operand of a ModRM byte with `mod ≠ 3` (SDM volume 2, tables 2-2 and 2-3 and
section 2.2.1). -/
def getMem (rex : Rex) (mod rm : Nat) (l : List Byte) : Option (Mem × List Byte) :=
  if rm = 4 then
    match l with
    | [] => none
    | s :: l =>
      let scale : Fin 4 := ⟨s.toNat / 64 % 4, by omega⟩
      let idx := regNo rex.x (s.toNat / 8)
      let index := if idx = 4 then Option.none else some (idx, scale)
      if s.toNat % 8 = 5 ∧ mod = 0 then
        (get32 l).map fun (d, l) => (⟨.none, index, d⟩, l)
      else
        (getDisp mod l).map fun (d, l) => (⟨.reg (regNo rex.b s.toNat), index, d⟩, l)
  else if rm = 5 ∧ mod = 0 then
    (get32 l).map fun (d, l) => (⟨.rip, none, d⟩, l)
  else
    (getDisp mod l).map fun (d, l) => (⟨.reg (regNo rex.b rm), none, d⟩, l)

/-- A ModRM byte with what follows: the three bits of the `reg` field, the operand, the rest. -/
def getModRM (rex : Rex) : List Byte → Option (Nat × RM × List Byte)
  | [] => none
  | m :: l =>
    if m.toNat / 64 = 3 then some (m.toNat / 8 % 8, .reg (regNo rex.b m.toNat), l)
    else (getMem rex (m.toNat / 64) (m.toNat % 8) l).map
      fun (mem, l) => (m.toNat / 8 % 8, .mem mem, l)

/-- The same where the operand must be memory. -/
def getModM (rex : Rex) (l : List Byte) : Option (Nat × Mem × List Byte) :=
  match getModRM rex l with
  | some (f, .mem m, l) => some (f, m, l)
  | _ => none

/-- `op r/m64, r64`. -/
def getBin (rex : Rex) (op : Bin) (l : List Byte) : Option (Instr × List Byte) :=
  if rex.w then (getModRM rex l).map fun (f, rm, l) => (.bin op rm (regNo rex.r f), l) else none

/-- `op r64, r/m64`. -/
def getBinRev (rex : Rex) (op : Bin) (l : List Byte) : Option (Instr × List Byte) :=
  if rex.w then (getModRM rex l).map fun (f, rm, l) => (.binRev op (regNo rex.r f) rm, l) else none

/-- The operations of the opcode group 1 (SDM volume 2, table A-6). -/
def group1 (f : Nat) : Option Bin :=
  if f = 0 then some .add else if f = 5 then some .sub else if f = 6 then some .xor
  else if f = 7 then some .cmp else none

/-- Conditions by their four bits (SDM volume 1, appendix B). -/
def condOf (n : Nat) : Option Cond :=
  if n = 4 then some .e else if n = 5 then some .ne else if n = 12 then some .l
  else if n = 13 then some .ge else if n = 14 then some .le else if n = 15 then some .g else none

/-- Opcodes after 0x0F. -/
def decode0F (rex : Rex) : List Byte → Option (Instr × List Byte)
  | [] => none
  | op :: l =>
    if op.toNat / 16 = 4 then
      match condOf (op.toNat % 16) with
      | none => none
      | some c =>
        if rex.w then (getModRM rex l).map fun (f, rm, l) => (.cmov c (regNo rex.r f) rm, l)
        else none
    else if op.toNat / 16 = 8 then
      match condOf (op.toNat % 16) with
      | none => none
      | some c => (get32 l).map fun (d, l) => (.jcc c d, l)
    else none

/-- Opcodes of one byte. -/
def decodeOp (rex : Rex) : List Byte → Option (Instr × List Byte)
  | [] => none
  | op :: l =>
    let n := op.toNat
    if n = 0x0F then decode0F rex l
    else if n = 0x01 then getBin rex .add l
    else if n = 0x29 then getBin rex .sub l
    else if n = 0x31 then getBin rex .xor l
    else if n = 0x39 then getBin rex .cmp l
    else if n = 0x85 then getBin rex .test l
    else if n = 0x89 then getBin rex .mov l
    else if n = 0x03 then getBinRev rex .add l
    else if n = 0x2B then getBinRev rex .sub l
    else if n = 0x33 then getBinRev rex .xor l
    else if n = 0x3B then getBinRev rex .cmp l
    else if n = 0x8B then getBinRev rex .mov l
    else if n = 0x8D then
      if rex.w then (getModM rex l).map fun (f, m, l) => (.lea (regNo rex.r f) m, l) else none
    else if n / 8 = 0x0A then some (.push (regNo rex.b n), l)
    else if n / 8 = 0x0B then some (.pop (regNo rex.b n), l)
    else if n = 0x68 then (get32 l).map fun (d, l) => (.pushImm d, l)
    else if n = 0x6A then
      match l with
      | d :: l => some (.pushImm (d.signExtend 32), l)
      | [] => none
    else if n = 0x81 then
      if rex.w then
        match getModRM rex l with
        | none => none
        | some (f, rm, l) =>
          match group1 f with
          | none => none
          | some op => (get32 l).map fun (d, l) => (.binImm op rm d, l)
      else none
    else if n / 8 = 0x17 then
      if rex.w then (get64 l).map fun (d, l) => (.movImm64 (regNo rex.b n) d, l)
      else (get32 l).map fun (d, l) => (.movImm32 (regNo rex.b n) d, l)
    else if n = 0xC3 then some (.ret, l)
    else if n = 0xC7 then
      if rex.w then
        match getModRM rex l with
        | none => none
        | some (f, rm, l) =>
          if f = 0 then (get32 l).map fun (d, l) => (.binImm .mov rm d, l) else none
      else none
    else if n = 0xCC then some (.int3, l)
    else if n = 0xE9 then (get32 l).map fun (d, l) => (.jmp d, l)
    else if n = 0xF7 then
      if rex.w then
        match getModRM rex l with
        | none => none
        | some (f, rm, l) =>
          if f = 0 then (get32 l).map fun (d, l) => (.binImm .test rm d, l) else none
      else none
    else if n = 0xFF then
      match getModRM rex l with
      | none => none
      | some (f, rm, l) =>
        if f = 2 then some (.call rm, l) else if f = 4 then some (.jmpInd rm, l) else none
    else none

/-- After the prefix 0xF2: the scalar double moves. -/
def decodeF2 (rex : Rex) : List Byte → Option (Instr × List Byte)
  | o :: op :: l =>
    if o.toNat = 0x0F then
      if op.toNat = 0x10 then (getModM rex l).map fun (f, m, l) => (.movsdLoad (regNo rex.r f) m, l)
      else if op.toNat = 0x11 then
        (getModM rex l).map fun (f, m, l) => (.movsdStore m (regNo rex.r f), l)
      else none
    else none
  | _ => none

/-- After the prefix 0xF3: the repeated byte move. -/
def decodeF3 : List Byte → Option (Instr × List Byte)
  | op :: l => if op.toNat = 0xA4 then some (.repMovsb, l) else none
  | _ => none

/-- Split off an optional REX prefix, which must be the last prefix. -/
def getRex : List Byte → Rex × List Byte
  | [] => (noRex, [])
  | p :: l =>
    match rexOf p.toNat with
    | some rex => (rex, l)
    | none => (noRex, p :: l)

/-- One instruction, and the bytes after it. -/
def decode : List Byte → Option (Instr × List Byte)
  | [] => none
  | p :: l =>
    if p.toNat = 0xF2 then decodeF2 (getRex l).1 (getRex l).2
    else if p.toNat = 0xF3 then decodeF3 (getRex l).2
    else decodeOp (getRex (p :: l)).1 (getRex (p :: l)).2

end Verif.Jit
