import Verif.Jit32.Asm
/-
Specification: the machine code of IA-32 (32-bit mode), for the instructions that matter here, as
the processor manuals define it (Intel SDM volume 2: instruction format in chapter 2, opcode maps
in appendix A).  Nothing in this file refers to how the writer in /repo encodes instructions; only
the byte type and the register numbering are shared.

An instruction that is outside the part described here is not decoded: `none`.
-/
namespace Verif.Jit32

open Verif.Jit (Byte get32)

/-- Specification: a memory operand: base + index * 2^scale + disp; without a base the address is
absolute. -/
structure Mem where
  base : Option Reg
  index : Option (Reg × Fin 4)
  disp : BitVec 32
deriving DecidableEq

/-- Specification: an `r/m` operand.  In instructions on bytes register codes 4 to 7 are the second
bytes of registers 0 to 3. -/
inductive RM where
  | reg (r : Reg)
  | mem (m : Mem)
deriving DecidableEq

/-- Specification: the eight operations of the arithmetic block of the opcode map. -/
inductive Alu where
  | add | or | adc | sbb | and | sub | xor | cmp
deriving DecidableEq

/-- Specification: shifts. -/
inductive Shift where
  | shl | shr | sar
deriving DecidableEq

/-- Specification: the count of a shift. -/
inductive Count where
  | imm (n : BitVec 8)
  | cl
deriving DecidableEq

/-- Specification: floating point arithmetic with a memory operand. -/
inductive FArith where
  | fadd | fmul | fsub | fdiv
deriving DecidableEq

/-- Specification: the instructions; operands have 32 bits except where said. -/
inductive Instr where
  /-- `op r/m32, r32` -/
  | alu (op : Alu) (dst : RM) (src : Reg)
  /-- `op r32, r/m32` -/
  | aluRev (op : Alu) (dst : Reg) (src : RM)
  /-- `op r/m32, imm` (an immediate of one byte is extended with its sign) -/
  | aluImm (op : Alu) (dst : RM) (imm : BitVec 32)
  /-- `cmp al, imm8` -/
  | cmpAl (imm : BitVec 8)
  | mov (dst : RM) (src : Reg)
  | movRev (dst : Reg) (src : RM)
  | movImm (dst : RM) (imm : BitVec 32)
  /-- moves of one byte and of two bytes -/
  | mov8 (dst : RM) (src : Reg)
  | mov8Rev (dst : Reg) (src : RM)
  | mov16 (dst : RM) (src : Reg)
  | mov16Rev (dst : Reg) (src : RM)
  /-- load one or two bytes, extended with zeros to 32 bits -/
  | movzx8 (dst : Reg) (src : RM)
  | movzx16 (dst : Reg) (src : RM)
  | test (dst : RM) (src : Reg)
  | test8 (dst : RM) (src : Reg)
  | testImm (dst : RM) (imm : BitVec 32)
  | inc (dst : RM)
  | dec (dst : RM)
  | not (dst : RM)
  | neg (dst : RM)
  | mul (src : RM)
  | imul (src : RM)
  | div (src : RM)
  | idiv (src : RM)
  /-- `imul r32, r/m32` and `imul r32, r/m32, imm` -/
  | imul2 (dst : Reg) (src : RM)
  | imul3 (dst : Reg) (src : RM) (imm : BitVec 32)
  | shift (n : Count) (op : Shift) (dst : RM)
  | xchgEax (r : Reg)
  | lea (dst : Reg) (m : Mem)
  | push (src : RM)
  /-- an immediate of one byte is extended with its sign -/
  | pushImm (imm : BitVec 32)
  | pop (r : Reg)
  | pushad
  | popad
  | setcc (c : Fin 16) (dst : RM)
  | cmov (c : Fin 16) (dst : Reg) (src : RM)
  /-- call and jump through an operand -/
  | call (t : RM)
  | jmpInd (t : RM)
  /-- relative to the next instruction -/
  | callRel (off : BitVec 32)
  | jmp (off : BitVec 32)
  | jcc (c : Fin 16) (off : BitVec 32)
  | ret
  /-- return and drop `n` bytes of arguments -/
  | retn (n : BitVec 16)
  | int3
  | cld
  | movsb
  | movsd
  | stosd
  | cmpsb
  | repMovsb
  | repMovsd
  | repStosd
  | repeCmpsb
  /-- the floating point stack -/
  | fld32 (m : Mem)
  | fld64 (m : Mem)
  | fstp32 (m : Mem)
  | fstp64 (m : Mem)
  | fild (m : Mem)
  | fistp (m : Mem)
  | fldcw (m : Mem)
  | fstcw (m : Mem)
  | farith (op : FArith) (m : Mem)
  /-- `fadd st(i), st0`, `fstp st(i)`, `fucomip st0, st(i)` -/
  | faddReg (i : Fin 8)
  | fstpReg (i : Fin 8)
  | fucomip (i : Fin 8)
deriving DecidableEq

/-- Specification: the lowest three bits as a register number. -/
def reg3 (n : Nat) : Reg := ⟨n % 8, by omega⟩

/-- Specification: the lowest four bits as a condition. -/
def cond4 (n : Nat) : Fin 16 := ⟨n % 16, by omega⟩

/-- Specification: a byte extended with its sign. -/
def get8 : List Byte → Option (BitVec 32 × List Byte)
  | d :: rest => some (d.signExtend 32, rest)
  | [] => none

/-- Specification: the displacement that goes with the `mod` field. -/
def getDisp (mod : Nat) (l : List Byte) : Option (BitVec 32 × List Byte) :=
  if mod = 0 then some (0, l) else if mod = 1 then get8 l else get32 l

/-- Specification: the memory operand of a ModRM byte with `mod ≠ 3` (SDM volume 2, tables 2-2 and
2-3). -/
def getMem (mod rm : Nat) (l : List Byte) : Option (Mem × List Byte) :=
  if rm = 4 then
    match l with
    | [] => none
    | s :: l =>
      let i := reg3 (s.toNat / 8)
      let index := if i = 4 then Option.none else some (i, (⟨s.toNat / 64 % 4, by omega⟩ : Fin 4))
      if s.toNat % 8 = 5 ∧ mod = 0 then (get32 l).map fun (d, l) => (⟨none, index, d⟩, l)
      else (getDisp mod l).map fun (d, l) => (⟨some (reg3 s.toNat), index, d⟩, l)
  else if rm = 5 ∧ mod = 0 then (get32 l).map fun (d, l) => (⟨none, none, d⟩, l)
  else (getDisp mod l).map fun (d, l) => (⟨some (reg3 rm), none, d⟩, l)

/-- Specification: a ModRM byte with what follows: the `reg` field, the operand, the rest. -/
def getModRM : List Byte → Option (Fin 8 × RM × List Byte)
  | [] => none
  | m :: l =>
    if m.toNat / 64 = 3 then some (reg3 (m.toNat / 8), .reg (reg3 m.toNat), l)
    else (getMem (m.toNat / 64) (m.toNat % 8) l).map
      fun (mem, l) => (reg3 (m.toNat / 8), .mem mem, l)

/-- Specification: the same where the operand must be memory. -/
def getModM (l : List Byte) : Option (Fin 8 × Mem × List Byte) :=
  match getModRM l with
  | some (f, .mem m, l) => some (f, m, l)
  | _ => none

/-- Specification: an instruction with an operand and a register. -/
def withRM (k : Fin 8 → RM → Instr) (l : List Byte) : Option (Instr × List Byte) :=
  (getModRM l).map fun (f, rm, l) => (k f rm, l)

/-- Specification: an instruction with a memory operand and a register. -/
def withM (k : Fin 8 → Mem → Instr) (l : List Byte) : Option (Instr × List Byte) :=
  (getModM l).map fun (f, m, l) => (k f m, l)

/-- Specification: an instruction with an operand and, after it, an immediate. -/
def withImm (get : List Byte → Option (BitVec 32 × List Byte))
    (k : Fin 8 → RM → BitVec 32 → Option Instr) (l : List Byte) : Option (Instr × List Byte) :=
  match getModRM l with
  | none => none
  | some (f, rm, l) =>
    match get l with
    | none => none
    | some (v, l) => (k f rm v).map fun i => (i, l)

/-- Specification: an instruction with an operand whose `reg` field extends the opcode. -/
def group (k : Fin 8 → RM → Option Instr) (l : List Byte) : Option (Instr × List Byte) :=
  match getModRM l with
  | none => none
  | some (f, rm, l) => (k f rm).map fun i => (i, l)

/-- Specification: an instruction with an immediate only. -/
def imm (get : List Byte → Option (BitVec 32 × List Byte)) (k : BitVec 32 → Instr) (l : List Byte) :
    Option (Instr × List Byte) :=
  (get l).map fun (v, l) => (k v, l)

/-- Specification: the operations by number (SDM volume 2, table A-6, group 1, and table A-2). -/
def aluOf (f : Fin 8) : Alu :=
  match f with
  | 0 => .add | 1 => .or | 2 => .adc | 3 => .sbb | 4 => .and | 5 => .sub | 6 => .xor | 7 => .cmp

/-- Specification: group 2, the shifts described. -/
def shiftOf (f : Fin 8) : Option Shift :=
  match f with
  | 4 => some .shl | 5 => some .shr | 7 => some .sar | _ => none

/-- Specification: group 3 without the `test` entry. -/
def group3 (f : Fin 8) (rm : RM) : Option Instr :=
  match f with
  | 2 => some (.not rm) | 3 => some (.neg rm) | 4 => some (.mul rm) | 5 => some (.imul rm)
  | 6 => some (.div rm) | 7 => some (.idiv rm) | _ => none

/-- Specification: group 5. -/
def group5 (f : Fin 8) (rm : RM) : Option Instr :=
  match f with
  | 0 => some (.inc rm) | 1 => some (.dec rm) | 2 => some (.call rm) | 4 => some (.jmpInd rm)
  | 6 => some (.push rm) | _ => none

/-- Specification: opcodes after 0x0F. -/
def decode0F : List Byte → Option (Instr × List Byte)
  | [] => none
  | op :: l =>
    let n := op.toNat
    if n / 16 = 4 then withRM (.cmov (cond4 n)) l
    else if n / 16 = 8 then imm get32 (.jcc (cond4 n)) l
    else if n / 16 = 9 then group (fun f rm => if f = 0 then some (.setcc (cond4 n) rm) else none) l
    else if n = 0xAF then withRM .imul2 l
    else if n = 0xB6 then withRM .movzx8 l
    else if n = 0xB7 then withRM .movzx16 l
    else none

/-- Specification: the floating point opcodes 0xD8 to 0xDF with a memory operand (SDM volume 2,
tables A-7 to A-22). -/
def fpMem (n : Nat) (f : Fin 8) (m : Mem) : Option Instr :=
  if n = 0xD8 then
    match f with
    | 0 => some (.farith .fadd m) | 1 => some (.farith .fmul m) | 4 => some (.farith .fsub m)
    | 6 => some (.farith .fdiv m) | _ => none
  else if n = 0xD9 then
    match f with
    | 0 => some (.fld32 m) | 3 => some (.fstp32 m) | 5 => some (.fldcw m) | _ => none
  else if n = 0xDB then
    match f with
    | 0 => some (.fild m) | 3 => some (.fistp m) | _ => none
  else if n = 0xDD then
    match f with
    | 0 => some (.fld64 m) | 3 => some (.fstp64 m) | _ => none
  else none

/-- Specification: the same with a register of the floating point stack. -/
def fpReg (n : Nat) (f : Fin 8) (i : Fin 8) : Option Instr :=
  if n = 0xDC ∧ f = 0 then some (.faddReg i)
  else if n = 0xDD ∧ f = 3 then some (.fstpReg i)
  else if n = 0xDF ∧ f = 5 then some (.fucomip i)
  else none

/-- Specification: a floating point opcode. -/
def decodeFp (n : Nat) : List Byte → Option (Instr × List Byte) :=
  group fun f rm =>
    match rm with
    | .mem m => fpMem n f m
    | .reg i => fpReg n f i

/-- Specification: opcodes of one byte. -/
def decodeOp : List Byte → Option (Instr × List Byte)
  | [] => none
  | op :: l =>
    let n := op.toNat
    if n = 0x0F then decode0F l
    else if n < 0x40 then
      if n % 8 = 1 then withRM (fun r rm => .alu (aluOf (reg3 (n / 8))) rm r) l
      else if n % 8 = 3 then withRM (.aluRev (aluOf (reg3 (n / 8)))) l
      else if n % 8 = 5 then imm get32 (.aluImm (aluOf (reg3 (n / 8))) (.reg 0)) l
      else if n = 0x3C then
        match l with
        | d :: l => some (.cmpAl d, l)
        | [] => none
      else none
    else if n / 8 = 8 then some (.inc (.reg (reg3 n)), l)
    else if n / 8 = 9 then some (.dec (.reg (reg3 n)), l)
    else if n / 8 = 10 then some (.push (.reg (reg3 n)), l)
    else if n / 8 = 11 then some (.pop (reg3 n), l)
    else if n = 0x60 then some (.pushad, l)
    else if n = 0x61 then some (.popad, l)
    else if n = 0x68 then imm get32 .pushImm l
    else if n = 0x69 then withImm get32 (fun r rm v => some (.imul3 r rm v)) l
    else if n = 0x6A then imm get8 .pushImm l
    else if n = 0x6B then withImm get8 (fun r rm v => some (.imul3 r rm v)) l
    else if n / 16 = 7 then imm get8 (.jcc (cond4 n)) l
    else if n = 0x81 then withImm get32 (fun f rm v => some (.aluImm (aluOf f) rm v)) l
    else if n = 0x83 then withImm get8 (fun f rm v => some (.aluImm (aluOf f) rm v)) l
    else if n = 0x84 then withRM (fun r rm => .test8 rm r) l
    else if n = 0x85 then withRM (fun r rm => .test rm r) l
    else if n = 0x88 then withRM (fun r rm => .mov8 rm r) l
    else if n = 0x89 then withRM (fun r rm => .mov rm r) l
    else if n = 0x8A then withRM .mov8Rev l
    else if n = 0x8B then withRM .movRev l
    else if n = 0x8D then withM .lea l
    else if n / 8 = 18 then some (.xchgEax (reg3 n), l)
    else if n = 0x9B then
      -- only as the first byte of `fstcw`
      match l with
      | b :: l =>
        if b.toNat = 0xD9 then
          match getModM l with
          | some (f, m, l) => if f = 7 then some (.fstcw m, l) else none
          | none => none
        else none
      | [] => none
    else if n = 0xA4 then some (.movsb, l)
    else if n = 0xA5 then some (.movsd, l)
    else if n = 0xA6 then some (.cmpsb, l)
    else if n = 0xAB then some (.stosd, l)
    else if n / 8 = 23 then imm get32 (.movImm (.reg (reg3 n))) l
    else if n = 0xC1 then
      match getModRM l with
      | some (f, rm, v :: l) => (shiftOf f).map fun s => (.shift (.imm v) s rm, l)
      | _ => none
    else if n = 0xC2 then
      match l with
      | a :: b :: l => some (.retn (BitVec.ofNat 16 (a.toNat + 256 * b.toNat)), l)
      | _ => none
    else if n = 0xC3 then some (.ret, l)
    else if n = 0xC7 then withImm get32 (fun f rm v => if f = 0 then some (.movImm rm v) else none) l
    else if n = 0xCC then some (.int3, l)
    else if n = 0xD1 then group (fun f rm => (shiftOf f).map fun s => .shift (.imm 1) s rm) l
    else if n = 0xD3 then group (fun f rm => (shiftOf f).map fun s => .shift .cl s rm) l
    else if n / 8 = 27 then decodeFp n l
    else if n = 0xE8 then imm get32 .callRel l
    else if n = 0xE9 then imm get32 .jmp l
    else if n = 0xEB then imm get8 .jmp l
    else if n = 0xF7 then
      match getModRM l with
      | none => none
      | some (f, rm, l) =>
        if f = 0 then imm get32 (.testImm rm) l else (group3 f rm).map fun i => (i, l)
    else if n = 0xFC then some (.cld, l)
    else if n = 0xFF then group group5 l
    else none

/-- Specification: after the operand size prefix 0x66. -/
def decode66 : List Byte → Option (Instr × List Byte)
  | [] => none
  | op :: l =>
    if op.toNat = 0x89 then withRM (fun r rm => .mov16 rm r) l
    else if op.toNat = 0x8B then withRM .mov16Rev l
    else if op.toNat = 0x0F then
      match l with
      | op :: l => if op.toNat = 0xB7 then withRM .mov16Rev l else none
      | [] => none
    else none

/-- Specification: after the prefix 0xF3. -/
def decodeRep : List Byte → Option (Instr × List Byte)
  | [] => none
  | op :: l =>
    if op.toNat = 0xA4 then some (.repMovsb, l)
    else if op.toNat = 0xA5 then some (.repMovsd, l)
    else if op.toNat = 0xA6 then some (.repeCmpsb, l)
    else if op.toNat = 0xAB then some (.repStosd, l)
    else none

/-- Specification: one instruction, and the bytes after it. -/
def decode : List Byte → Option (Instr × List Byte)
  | [] => none
  | p :: l =>
    if p.toNat = 0x66 then decode66 l
    else if p.toNat = 0xF3 then decodeRep l
    else decodeOp (p :: l)

end Verif.Jit32
