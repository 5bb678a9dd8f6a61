import Verif.Jit.Decode
/-
Specification: what the instructions of `Verif.Jit.Decode` do (Intel SDM volume 2) and what a
call of compiled code does under the calling convention of 64-bit Windows, the only platform the
generator of core/sourcehook/sourcehook_hookmangen_x86_64.cpp is built for (core/AMBuilder:44-45;
on Linux the file is excluded and contains `static_assert(false)`).

* A byte of memory exists per 64-bit address; `acc` says which addresses may be accessed, an
  access elsewhere is the outcome `fault`.
* The code is a byte list of its own and does not change while it runs; the program counter is an
  offset into it.
* A call of foreign code is answered by an arbitrary answer: it keeps the stack pointer and the
  registers the convention preserves, it keeps the bytes in `keep` (the caller's private memory),
  and everything else is as the answer says.  The state at the call is recorded in the trace.
* Of the vector registers only the low 64 bits are modelled; of the flags only ZF, SF and OF.
-/
namespace Verif.Jit

/-- A 64-bit word. -/
abbrev W := BitVec 64

/-- Memory: a byte per address. -/
abbrev Memory := W → Byte

/-- The registers and flags and the memory. -/
structure Mach where
  reg : Reg → W
  xmm : XReg → W
  mem : Memory
  zf : Bool
  sf : Bool
  of : Bool

/-- The eight bytes at an address, least significant first. -/
def rd (m : Memory) (a : W) : W :=
  BitVec.ofNat 64 ((m a).toNat + 2^8 * (m (a + 1)).toNat + 2^16 * (m (a + 2)).toNat
    + 2^24 * (m (a + 3)).toNat + 2^32 * (m (a + 4)).toNat + 2^40 * (m (a + 5)).toNat
    + 2^48 * (m (a + 6)).toNat + 2^56 * (m (a + 7)).toNat)

/-- Replace the eight bytes at an address. -/
def wr (m : Memory) (a v : W) : Memory :=
  fun x => if (x - a).toNat < 8 then v.extractLsb' (8 * (x - a).toNat) 8 else m x

/-- Replace a register. -/
def Mach.set (s : Mach) (r : Reg) (v : W) : Mach :=
  { s with reg := fun x => if x = r then v else s.reg x }

/-- Replace a vector register. -/
def Mach.setX (s : Mach) (r : XReg) (v : W) : Mach :=
  { s with xmm := fun x => if x = r then v else s.xmm x }

/-- Replace the flags. -/
def Mach.flags (s : Mach) (z n o : Bool) : Mach := { s with zf := z, sf := n, of := o }

/-- An immediate or a displacement extended with its sign. -/
def sx (d : BitVec 32) : W := d.signExtend 64

/-- May all bytes of an eight byte access at `a` be accessed? -/
def okAt (acc : W → Bool) (a : W) : Bool :=
  acc a && acc (a + 1) && acc (a + 2) && acc (a + 3) && acc (a + 4) && acc (a + 5) && acc (a + 6)
    && acc (a + 7)

/-- The address of a memory operand; addresses relative to the code are not described. -/
def addr (s : Mach) (m : Mem) : Option W :=
  let i : W := match m.index with
    | none => 0
    | some (r, k) => s.reg r <<< k.val
  match m.base with
  | .reg r => some (s.reg r + i + sx m.disp)
  | .none => some (i + sx m.disp)
  | .rip => none

/-- The value of an operand. -/
def get (acc : W → Bool) (s : Mach) : RM → Option W
  | .reg r => some (s.reg r)
  | .mem m =>
    match addr s m with
    | none => none
    | some a => if okAt acc a then some (rd s.mem a) else none

/-- Write an operand. -/
def put (acc : W → Bool) (s : Mach) (v : W) : RM → Option Mach
  | .reg r => some (s.set r v)
  | .mem m =>
    match addr s m with
    | none => none
    | some a => if okAt acc a then some { s with mem := wr s.mem a v } else none

/-- Flags after subtracting. -/
def Mach.subFlags (s : Mach) (x y : W) : Mach :=
  s.flags (x - y == 0) (x - y).msb
    (decide (x.toInt - y.toInt < -2^63) || decide (2^63 ≤ x.toInt - y.toInt))

/-- Flags after adding. -/
def Mach.addFlags (s : Mach) (x y : W) : Mach :=
  s.flags (x + y == 0) (x + y).msb
    (decide (x.toInt + y.toInt < -2^63) || decide (2^63 ≤ x.toInt + y.toInt))

/-- Flags after a bitwise operation with result `v`. -/
def Mach.logFlags (s : Mach) (v : W) : Mach := s.flags (v == 0) v.msb false

/-- A two-operand operation; `x` is the value of the destination, `y` of the source, `out` the
destination. -/
def binop (acc : W → Bool) (s : Mach) (op : Bin) (out : RM) (x y : W) : Option Mach :=
  match op with
  | .mov => put acc s y out
  | .add => (put acc s (x + y) out).map fun s => s.addFlags x y
  | .sub => (put acc s (x - y) out).map fun s => s.subFlags x y
  | .xor => (put acc s (x ^^^ y) out).map fun s => s.logFlags (x ^^^ y)
  | .cmp => some (s.subFlags x y)
  | .test => some (s.logFlags (x &&& y))

/-- The conditions. -/
def holds (s : Mach) : Cond → Bool
  | .e => s.zf
  | .ne => !s.zf
  | .l => s.sf != s.of
  | .ge => s.sf == s.of
  | .le => s.zf || s.sf != s.of
  | .g => !s.zf && s.sf == s.of

/-- `rep movsb` with the direction flag clear, as the convention demands: `n` bytes from `src` to
`dst` in ascending order. -/
def copy (m : Memory) (dst src : W) : Nat → Memory
  | 0 => m
  | n + 1 => copy (fun x => if x = dst then m src else m x) (dst + 1) (src + 1) n

/-- Are `n` bytes from `a` accessible? -/
def okRange (acc : W → Bool) (a : W) (n : Nat) : Bool :=
  (List.range n).all fun i => acc (a + BitVec.ofNat 64 i)

/-- The effect of an instruction that does not transfer control. -/
def exec (acc : W → Bool) (s : Mach) : Instr → Option Mach
  | .bin op dst src =>
    match op with
    | .mov => put acc s (s.reg src) dst
    | op => match get acc s dst with
      | none => none
      | some x => binop acc s op dst x (s.reg src)
  | .binRev op dst src =>
    match get acc s src with
    | none => none
    | some y => binop acc s op (.reg dst) (s.reg dst) y
  | .binImm op dst imm =>
    match op with
    | .mov => put acc s (sx imm) dst
    | op => match get acc s dst with
      | none => none
      | some x => binop acc s op dst x (sx imm)
  | .movImm32 r i => some (s.set r (i.setWidth 64))
  | .movImm64 r i => some (s.set r i)
  | .lea r m => (addr s m).map fun a => s.set r a
  | .cmov c r src =>
    -- the operand is read even if the condition does not hold
    (get acc s src).map fun v => if holds s c then s.set r v else s
  | .push r =>
    if okAt acc (s.reg 4 - 8) then
      some { s.set 4 (s.reg 4 - 8) with mem := wr s.mem (s.reg 4 - 8) (s.reg r) }
    else none
  | .pushImm i =>
    if okAt acc (s.reg 4 - 8) then
      some { s.set 4 (s.reg 4 - 8) with mem := wr s.mem (s.reg 4 - 8) (sx i) }
    else none
  | .pop r =>
    if okAt acc (s.reg 4) then some ((s.set 4 (s.reg 4 + 8)).set r (rd s.mem (s.reg 4))) else none
  | .repMovsb =>
    if okRange acc (s.reg 6) (s.reg 1).toNat && okRange acc (s.reg 7) (s.reg 1).toNat then
      some { (((s.set 6 (s.reg 6 + s.reg 1)).set 7 (s.reg 7 + s.reg 1)).set 1 0) with
        mem := copy s.mem (s.reg 7) (s.reg 6) (s.reg 1).toNat }
    else none
  | .movsdLoad x m =>
    match addr s m with
    | none => none
    | some a => if okAt acc a then some (s.setX x (rd s.mem a)) else none
  | .movsdStore m x =>
    match addr s m with
    | none => none
    | some a => if okAt acc a then some { s with mem := wr s.mem a (s.xmm x) } else none
  | .call _ | .jmpInd _ | .jmp _ | .jcc _ _ | .ret | .int3 => none

/-- One step. -/
inductive Ctl where
  | go (pc : Nat) (s : Mach)
  /-- a call of foreign code; it comes back at `pc` -/
  | call (target : W) (pc : Nat)
  /-- a return to the address found on the stack -/
  | ret (target : W) (s : Mach)
  | fault

/-- A jump by `off` from the position `pc`. -/
def jumpTo (pc : Nat) (off : BitVec 32) (s : Mach) : Ctl :=
  if 0 ≤ (pc : Int) + off.toInt then .go ((pc : Int) + off.toInt).toNat s else .fault

/-- The effect of an instruction that ends at position `next`. -/
def stepI (acc : W → Bool) (next : Nat) (s : Mach) : Instr → Ctl
  | .call t =>
    match get acc s t with
    | none => .fault
    | some a => .call a next
  | .jmp off => jumpTo next off s
  | .jcc c off => if holds s c then jumpTo next off s else .go next s
  | .ret =>
    if okAt acc (s.reg 4) then .ret (rd s.mem (s.reg 4)) (s.set 4 (s.reg 4 + 8)) else .fault
  | .jmpInd _ => .fault
  | .int3 => .fault
  | i =>
    match exec acc s i with
    | none => .fault
    | some s' => .go next s'

/-- The step at position `pc` of the code. -/
def step (acc : W → Bool) (code : List Byte) (pc : Nat) (s : Mach) : Ctl :=
  match decode (code.drop pc) with
  | none => .fault
  | some (i, rest) => stepI acc (code.length - rest.length) s i

/-- What a called function leaves behind. -/
structure Ans where
  reg : Reg → W
  xmm : XReg → W
  mem : Memory
  zf : Bool
  sf : Bool
  of : Bool

/-- The registers a called function preserves (64-bit Windows: RBX, RBP, RDI, RSI, RSP, R12 to
R15). -/
def preserved (r : Reg) : Bool := r == 3 || r == 5 || r == 6 || r == 7 || r == 4 || 12 ≤ r.val

/-- The vector registers a called function preserves (64-bit Windows: XMM6 to XMM15). -/
def preservedX (r : XReg) : Bool := 6 ≤ r.val

/-- The state after a call that found state `s`. -/
def after (keep : W → Bool) (s : Mach) (a : Ans) : Mach where
  reg := fun r => if preserved r then s.reg r else a.reg r
  xmm := fun r => if preservedX r then s.xmm r else a.xmm r
  mem := fun x => if keep x then s.mem x else a.mem x
  zf := a.zf
  sf := a.sf
  of := a.of

/-- A call: the function called and the state it finds. -/
structure Event where
  target : W
  state : Mach

/-- A configuration: position, state, the answers of the calls still to come. -/
structure Conf where
  pc : Nat
  s : Mach
  ans : List Ans

/-- Running code, with the calls made. -/
inductive Steps (acc keep : W → Bool) (code : List Byte) : Conf → List Event → Conf → Prop
  | refl (c : Conf) : Steps acc keep code c [] c
  | go {pc pc' : Nat} {s s' : Mach} {ans : List Ans} {tr : List Event} {c : Conf} :
      step acc code pc s = .go pc' s' → Steps acc keep code ⟨pc', s', ans⟩ tr c →
      Steps acc keep code ⟨pc, s, ans⟩ tr c
  | call {pc pc' : Nat} {s : Mach} {t : W} {a : Ans} {ans : List Ans} {tr : List Event} {c : Conf} :
      step acc code pc s = .call t pc' → Steps acc keep code ⟨pc', after keep s a, ans⟩ tr c →
      Steps acc keep code ⟨pc, s, a :: ans⟩ (⟨t, s⟩ :: tr) c

/-- The code returns to `target` with state `s'`, having made the calls `tr`. -/
def Returns (acc keep : W → Bool) (code : List Byte) (s : Mach) (ans : List Ans) (tr : List Event)
    (target : W) (s' : Mach) (rest : List Ans) : Prop :=
  ∃ pc s₁, Steps acc keep code ⟨0, s, ans⟩ tr ⟨pc, s₁, rest⟩ ∧ step acc code pc s₁ = .ret target s'

/-- Argument number `i` (from 0) of a call that found state `s`: four registers, then the stack
above the 32 bytes the called function may use as it likes. -/
def arg (s : Mach) (i : Nat) : W :=
  if i = 0 then s.reg 1 else if i = 1 then s.reg 2 else if i = 2 then s.reg 8
  else if i = 3 then s.reg 9 else rd s.mem (s.reg 4 + BitVec.ofNat 64 (8 * i))

end Verif.Jit
