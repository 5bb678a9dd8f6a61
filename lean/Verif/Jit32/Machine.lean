import Verif.Jit32.AsmSpec
/-
Specification: what the instructions of `Verif.Jit32.Decode` that the generator of
core/sourcehook/sourcehook_hookmangen_x86.cpp uses do (Intel SDM volume 2), and what a call of
compiled code does under the calling convention of 32-bit Linux (System V ABI for i386; the
convention of GCC there, the `GCC_ONLY` parts of the generator).

* A byte of memory exists per 32-bit address; `acc` says which addresses may be accessed, an
  access elsewhere is the outcome `fault`.
* The code is a byte list of its own and does not change while it runs; the program counter is an
  offset into it.
* A call of foreign code is answered by an arbitrary answer.  The called function keeps EBX, EBP, ESI,
  EDI and removes its return address and, where it returns an object through memory, the pointer
  to that memory from the stack.  It keeps the bytes in `keep` (the caller's private memory) and the
  bytes of the caller's stack between its own arguments and `top`.  Everything else is as the answer
  says.  The state at the call is recorded in the trace.
* The floating point stack is a list of at most eight values of a type of which only this is known:
  a value loaded from memory and stored in the same format is the same, except that a signalling
  NaN becomes quiet.  It must be empty at a call.
* Of the flags only ZF, SF and OF are modelled; the direction flag is clear, as the convention wants.
-/
namespace Verif.Jit32

open Verif.Jit (Byte)

/-- A 32-bit word. -/
abbrev W := BitVec 32

/-- Memory: a byte per address. -/
abbrev Memory := W → Byte

/-- A single precision number, as loading and storing it leaves it: bit 22 of a NaN is set. -/
def quiet32 (v : BitVec 32) : BitVec 32 :=
  if v.toNat / 2 ^ 23 % 2 ^ 8 = 2 ^ 8 - 1 ∧ v.toNat % 2 ^ 23 ≠ 0 then v ||| 0x400000#32 else v

/-- The same for double precision. -/
def quiet64 (v : BitVec 64) : BitVec 64 :=
  if v.toNat / 2 ^ 52 % 2 ^ 11 = 2 ^ 11 - 1 ∧ v.toNat % 2 ^ 52 ≠ 0 then v ||| 0x8000000000000#64
  else v

/-- The floating point unit. -/
structure Fpu where
  F : Type
  of32 : BitVec 32 → F
  to32 : F → BitVec 32
  of64 : BitVec 64 → F
  to64 : F → BitVec 64
  back32 : ∀ v, to32 (of32 v) = quiet32 v
  back64 : ∀ v, to64 (of64 v) = quiet64 v

/-- The registers and flags and the memory. -/
structure Mach (U : Fpu) where
  reg : Reg → W
  fpu : List U.F
  mem : Memory
  zf : Bool
  sf : Bool
  of : Bool

variable {U : Fpu}

/-- The four bytes at an address, least significant first. -/
def rd (m : Memory) (a : W) : W :=
  BitVec.ofNat 32 ((m a).toNat + 2^8 * (m (a + 1)).toNat + 2^16 * (m (a + 2)).toNat
    + 2^24 * (m (a + 3)).toNat)

/-- Replace the four bytes at an address. -/
def wr (m : Memory) (a v : W) : Memory :=
  fun x => if (x - a).toNat < 4 then v.extractLsb' (8 * (x - a).toNat) 8 else m x

/-- The eight bytes at an address. -/
def rd64 (m : Memory) (a : W) : BitVec 64 := rd m (a + 4) ++ rd m a

/-- Replace the eight bytes at an address. -/
def wr64 (m : Memory) (a : W) (v : BitVec 64) : Memory :=
  wr (wr m a (v.extractLsb' 0 32)) (a + 4) (v.extractLsb' 32 32)

/-- Replace one byte. -/
def wr8 (m : Memory) (a : W) (v : Byte) : Memory := fun x => if x = a then v else m x

/-- Replace a register. -/
def Mach.set (s : Mach U) (r : Reg) (v : W) : Mach U :=
  { s with reg := fun x => if x = r then v else s.reg x }

/-- Replace the flags. -/
def Mach.flags (s : Mach U) (z n o : Bool) : Mach U := { s with zf := z, sf := n, of := o }

/-- Are `n` bytes from `a` accessible? -/
def okN (acc : W → Bool) (a : W) (n : Nat) : Bool :=
  (List.range n).all fun i => acc (a + BitVec.ofNat 32 i)

/-- The address of a memory operand. -/
def addr (s : Mach U) (m : Mem) : W :=
  let i : W := match m.index with
    | none => 0
    | some (r, k) => s.reg r <<< k.val
  match m.base with
  | some r => s.reg r + i + m.disp
  | none => i + m.disp

/-- The value of an operand. -/
def get (acc : W → Bool) (s : Mach U) : RM → Option W
  | .reg r => some (s.reg r)
  | .mem m => if okN acc (addr s m) 4 then some (rd s.mem (addr s m)) else none

/-- Write an operand. -/
def put (acc : W → Bool) (s : Mach U) (v : W) : RM → Option (Mach U)
  | .reg r => some (s.set r v)
  | .mem m => if okN acc (addr s m) 4 then some { s with mem := wr s.mem (addr s m) v } else none

/-- Where a register of one byte lies: codes 0 to 3 are the lowest bytes of the first four
registers, codes 4 to 7 their second bytes. -/
def byteReg (r : Reg) : Reg × Nat := if r.val < 4 then (r, 0) else (⟨r.val - 4, by omega⟩, 8)

/-- The value of a one byte operand. -/
def getB (acc : W → Bool) (s : Mach U) : RM → Option Byte
  | .reg r => some ((s.reg (byteReg r).1).extractLsb' (byteReg r).2 8)
  | .mem m => if acc (addr s m) then some (s.mem (addr s m)) else none

/-- A word with one byte replaced, starting at bit `i`. -/
def setByte (w : W) (i : Nat) (b : Byte) : W :=
  (w &&& ~~~(0xFF#32 <<< i)) ||| (b.setWidth 32 <<< i)

/-- Write a one byte operand. -/
def putB (acc : W → Bool) (s : Mach U) (v : Byte) : RM → Option (Mach U)
  | .reg r => some (s.set (byteReg r).1 (setByte (s.reg (byteReg r).1) (byteReg r).2 v))
  | .mem m => if acc (addr s m) then some { s with mem := wr8 s.mem (addr s m) v } else none

/-- The value of a two byte operand. -/
def getH (acc : W → Bool) (s : Mach U) : RM → Option (BitVec 16)
  | .reg r => some ((s.reg r).extractLsb' 0 16)
  | .mem m =>
    if okN acc (addr s m) 2 then some (s.mem (addr s m + 1) ++ s.mem (addr s m)) else none

/-- Flags after subtracting. -/
def Mach.subFlags (s : Mach U) (x y : W) : Mach U :=
  s.flags (x - y == 0) (x - y).msb
    (decide (x.toInt - y.toInt < -2^31) || decide (2^31 ≤ x.toInt - y.toInt))

/-- Flags after adding. -/
def Mach.addFlags (s : Mach U) (x y : W) : Mach U :=
  s.flags (x + y == 0) (x + y).msb
    (decide (x.toInt + y.toInt < -2^31) || decide (2^31 ≤ x.toInt + y.toInt))

/-- Flags after a bitwise operation with result `v`. -/
def Mach.logFlags (s : Mach U) (v : W) : Mach U := s.flags (v == 0) v.msb false

/-- A two-operand operation; `x` is the value of the destination, `y` of the source, `out` the
destination.  The operations that use the carry flag are not described. -/
def binop (acc : W → Bool) (s : Mach U) (op : Alu) (out : RM) (x y : W) : Option (Mach U) :=
  match op with
  | .add => (put acc s (x + y) out).map fun s => s.addFlags x y
  | .sub => (put acc s (x - y) out).map fun s => s.subFlags x y
  | .xor => (put acc s (x ^^^ y) out).map fun s => s.logFlags (x ^^^ y)
  | .and => (put acc s (x &&& y) out).map fun s => s.logFlags (x &&& y)
  | .or => (put acc s (x ||| y) out).map fun s => s.logFlags (x ||| y)
  | .cmp => some (s.subFlags x y)
  | .adc | .sbb => none

/-- The conditions by number (SDM volume 2, appendix B, table B-1); those that use the carry or the
parity flag are not described. -/
def holds (s : Mach U) (c : Fin 16) : Option Bool :=
  match c.val with
  | 0 => some s.of
  | 1 => some (!s.of)
  | 4 => some s.zf
  | 5 => some (!s.zf)
  | 8 => some s.sf
  | 9 => some (!s.sf)
  | 12 => some (s.sf != s.of)
  | 13 => some (s.sf == s.of)
  | 14 => some (s.zf || s.sf != s.of)
  | 15 => some (!s.zf && s.sf == s.of)
  | _ => none

/-- `rep movs` with elements of `w` bytes: `n` elements from `src` to `dst` in ascending order. -/
def copy (w : Nat) (m : Memory) (dst src : W) : Nat → Memory
  | 0 => m
  | n + 1 => copy w (fun x => if (x - dst).toNat < w then m (src + (x - dst)) else m x)
      (dst + BitVec.ofNat 32 w) (src + BitVec.ofNat 32 w) n

/-- `rep movs` with elements of `w` bytes. -/
def repMovs (acc : W → Bool) (s : Mach U) (w : Nat) : Option (Mach U) :=
  if okN acc (s.reg 6) (w * (s.reg 1).toNat) && okN acc (s.reg 7) (w * (s.reg 1).toNat) then
    some { (((s.set 6 (s.reg 6 + BitVec.ofNat 32 (w * (s.reg 1).toNat))).set 7
        (s.reg 7 + BitVec.ofNat 32 (w * (s.reg 1).toNat))).set 1 0) with
      mem := copy w s.mem (s.reg 7) (s.reg 6) (s.reg 1).toNat }
  else none

/-- Push a word. -/
def pushW (acc : W → Bool) (s : Mach U) (v : W) : Option (Mach U) :=
  if okN acc (s.reg 4 - 4) 4 then
    some { s.set 4 (s.reg 4 - 4) with mem := wr s.mem (s.reg 4 - 4) v }
  else none

/-- Push a value on the floating point stack. -/
def pushF (s : Mach U) (v : U.F) : Option (Mach U) :=
  if s.fpu.length < 8 then some { s with fpu := v :: s.fpu } else none

/-- The effect of an instruction that does not transfer control. -/
def exec (acc : W → Bool) (s : Mach U) : Instr → Option (Mach U)
  | .alu op dst src =>
    match get acc s dst with
    | none => none
    | some x => binop acc s op dst x (s.reg src)
  | .aluRev op dst src =>
    match get acc s src with
    | none => none
    | some y => binop acc s op (.reg dst) (s.reg dst) y
  | .aluImm op dst imm =>
    match get acc s dst with
    | none => none
    | some x => binop acc s op dst x imm
  | .mov dst src => put acc s (s.reg src) dst
  | .movRev dst src => (get acc s src).map fun v => s.set dst v
  | .movImm dst imm => put acc s imm dst
  | .mov8 dst src =>
    match getB acc s (.reg src) with
    | none => none
    | some v => putB acc s v dst
  | .mov16Rev dst src =>
    (getH acc s src).map fun v => s.set dst ((s.reg dst).extractLsb' 16 16 ++ v)
  | .movzx8 dst src => (getB acc s src).map fun v => s.set dst (v.setWidth 32)
  | .movzx16 dst src => (getH acc s src).map fun v => s.set dst (v.setWidth 32)
  | .test dst src => (get acc s dst).map fun x => s.logFlags (x &&& s.reg src)
  | .test8 dst src =>
    match getB acc s dst, getB acc s (.reg src) with
    | some x, some y => some (s.flags (x &&& y == 0) (x &&& y).msb false)
    | _, _ => none
  | .lea r m => some (s.set r (addr s m))
  | .push src => (get acc s src).bind fun v => pushW acc s v
  | .pushImm v => pushW acc s v
  | .pop r =>
    if okN acc (s.reg 4) 4 then some ((s.set 4 (s.reg 4 + 4)).set r (rd s.mem (s.reg 4))) else none
  | .setcc c dst => (holds s c).bind fun b => putB acc s (if b then 1 else 0) dst
  | .cld => some s
  | .repMovsb => repMovs acc s 1
  | .repMovsd => repMovs acc s 4
  | .fld32 m =>
    if okN acc (addr s m) 4 then pushF s (U.of32 (rd s.mem (addr s m))) else none
  | .fld64 m =>
    if okN acc (addr s m) 8 then pushF s (U.of64 (rd64 s.mem (addr s m))) else none
  | .fstp32 m =>
    match s.fpu with
    | [] => none
    | v :: l =>
      if okN acc (addr s m) 4 then
        some { s with mem := wr s.mem (addr s m) (U.to32 v), fpu := l }
      else none
  | .fstp64 m =>
    match s.fpu with
    | [] => none
    | v :: l =>
      if okN acc (addr s m) 8 then
        some { s with mem := wr64 s.mem (addr s m) (U.to64 v), fpu := l }
      else none
  | _ => none

/-- One step. -/
inductive Ctl (U : Fpu) where
  | go (pc : Nat) (s : Mach U)
  /-- a call of foreign code; it comes back at `pc` -/
  | call (target : W) (pc : Nat)
  /-- a return to the address found on the stack -/
  | ret (target : W) (s : Mach U)
  | fault

/-- A jump by `off` from the position `pc`. -/
def jumpTo (pc : Nat) (off : BitVec 32) (s : Mach U) : Ctl U :=
  if 0 ≤ (pc : Int) + off.toInt then .go ((pc : Int) + off.toInt).toNat s else .fault

/-- The effect of an instruction that ends at position `next`. -/
def stepI (acc : W → Bool) (next : Nat) (s : Mach U) : Instr → Ctl U
  | .call t =>
    -- the return address is written below the stack pointer
    match get acc s t with
    | none => .fault
    | some a => if okN acc (s.reg 4 - 4) 4 && s.fpu.isEmpty then .call a next else .fault
  | .jmp off => jumpTo next off s
  | .jcc c off =>
    match holds s c with
    | none => .fault
    | some true => jumpTo next off s
    | some false => .go next s
  | .ret =>
    if okN acc (s.reg 4) 4 then .ret (rd s.mem (s.reg 4)) (s.set 4 (s.reg 4 + 4)) else .fault
  | .retn n =>
    if okN acc (s.reg 4) 4 then .ret (rd s.mem (s.reg 4)) (s.set 4 (s.reg 4 + 4 + n.setWidth 32))
    else .fault
  | i =>
    match exec acc s i with
    | none => .fault
    | some s' => .go next s'

/-- The step at position `pc` of the code. -/
def step (acc : W → Bool) (code : List Byte) (pc : Nat) (s : Mach U) : Ctl U :=
  match decode (code.drop pc) with
  | none => .fault
  | some (i, rest) => stepI acc (code.length - rest.length) s i

/-- What a called function leaves behind: registers, the floating point stack, memory, flags; how
many bytes of arguments it took (`own`) and how many of those it removed (`pop`). -/
structure Ans (U : Fpu) where
  reg : Reg → W
  fpu : List U.F
  mem : Memory
  zf : Bool
  sf : Bool
  of : Bool
  own : Nat
  pop : Nat

/-- The registers a called function preserves, the stack pointer aside: EBX, EBP, ESI, EDI. -/
def preserved (r : Reg) : Bool := r == 3 || r == 5 || r == 6 || r == 7

/-- The surroundings of a running function: the memory that may be accessed, the memory that called
functions leave alone, the address up to which the stack belongs to the running function's calls. -/
structure Env where
  acc : W → Bool
  keep : W → Bool
  top : W

/-- Does `x` lie from `a` on and below `b`? -/
def between (a b x : W) : Bool := decide ((x - a).toNat < (b - a).toNat)

/-- The state after a call that found state `s`. -/
def after (E : Env) (s : Mach U) (a : Ans U) : Mach U where
  reg := fun r =>
    if r = 4 then s.reg 4 + BitVec.ofNat 32 a.pop else if preserved r then s.reg r else a.reg r
  fpu := a.fpu
  mem := fun x =>
    if E.keep x || between (s.reg 4 + BitVec.ofNat 32 a.own) E.top x then s.mem x else a.mem x
  zf := a.zf
  sf := a.sf
  of := a.of

/-- A call: the function called and the state it finds (before the return address is written). -/
structure Event (U : Fpu) where
  target : W
  state : Mach U

/-- A configuration: position, state, the answers of the calls still to come. -/
structure Conf (U : Fpu) where
  pc : Nat
  s : Mach U
  ans : List (Ans U)

/-- Running code, with the calls made. -/
inductive Steps (E : Env) (code : List Byte) : Conf U → List (Event U) → Conf U → Prop
  | refl (c : Conf U) : Steps E code c [] c
  | go {pc pc' : Nat} {s s' : Mach U} {ans : List (Ans U)} {tr : List (Event U)} {c : Conf U} :
      step E.acc code pc s = .go pc' s' → Steps E code ⟨pc', s', ans⟩ tr c →
      Steps E code ⟨pc, s, ans⟩ tr c
  | call {pc pc' : Nat} {s : Mach U} {t : W} {a : Ans U} {ans : List (Ans U)} {tr : List (Event U)}
      {c : Conf U} :
      step E.acc code pc s = .call t pc' → Steps E code ⟨pc', after E s a, ans⟩ tr c →
      Steps E code ⟨pc, s, a :: ans⟩ (⟨t, s⟩ :: tr) c

/-- The code returns to `target` with state `s'`, having made the calls `tr`. -/
def Returns (E : Env) (code : List Byte) (s : Mach U) (ans : List (Ans U)) (tr : List (Event U))
    (target : W) (s' : Mach U) (rest : List (Ans U)) : Prop :=
  ∃ pc s₁, Steps E code ⟨0, s, ans⟩ tr ⟨pc, s₁, rest⟩ ∧ step E.acc code pc s₁ = .ret target s'

/-- Word number `i` (from 0) of the arguments of a call that found state `s`. -/
def arg (s : Mach U) (i : Nat) : W := rd s.mem (s.reg 4 + BitVec.ofNat 32 (4 * i))

end Verif.Jit32
