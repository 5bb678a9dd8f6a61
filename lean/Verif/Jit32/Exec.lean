import Verif.Jit32.MachLemmas
import Verif.Jit32.PubFunc
/-
Helper lemmas: the effect of the single instructions that the 32-bit generator uses.
-/
namespace Verif.Jit32

open Verif.Jit (Byte)

variable {U : Fpu}

/-- Write four bytes. -/
def Mach.wrs (s : Mach U) (a v : W) : Mach U := { s with mem := wr s.mem a v }
/-- Write eight bytes. -/
def Mach.wrs64 (s : Mach U) (a : W) (v : BitVec 64) : Mach U := { s with mem := wr64 s.mem a v }
/-- Write one byte. -/
def Mach.wrs8 (s : Mach U) (a : W) (v : Byte) : Mach U := { s with mem := wr8 s.mem a v }
/-- Replace the floating point stack. -/
def Mach.setF (s : Mach U) (l : List U.F) : Mach U := { s with fpu := l }
/-- Replace the memory. -/
def Mach.setM (s : Mach U) (m : Memory) : Mach U := { s with mem := m }

@[simp] theorem wrs_reg (s : Mach U) (a v : W) : (s.wrs a v).reg = s.reg := rfl
@[simp] theorem wrs_mem (s : Mach U) (a v : W) : (s.wrs a v).mem = wr s.mem a v := rfl
@[simp] theorem wrs_fpu (s : Mach U) (a v : W) : (s.wrs a v).fpu = s.fpu := rfl
@[simp] theorem wrs64_reg (s : Mach U) (a : W) (v : BitVec 64) : (s.wrs64 a v).reg = s.reg := rfl
@[simp] theorem wrs64_mem (s : Mach U) (a : W) (v : BitVec 64) :
    (s.wrs64 a v).mem = wr64 s.mem a v := rfl
@[simp] theorem wrs64_fpu (s : Mach U) (a : W) (v : BitVec 64) : (s.wrs64 a v).fpu = s.fpu := rfl
@[simp] theorem wrs8_reg (s : Mach U) (a : W) (v : Byte) : (s.wrs8 a v).reg = s.reg := rfl
@[simp] theorem wrs8_mem (s : Mach U) (a : W) (v : Byte) : (s.wrs8 a v).mem = wr8 s.mem a v := rfl
@[simp] theorem wrs8_fpu (s : Mach U) (a : W) (v : Byte) : (s.wrs8 a v).fpu = s.fpu := rfl
@[simp] theorem setF_reg (s : Mach U) (l : List U.F) : (s.setF l).reg = s.reg := rfl
@[simp] theorem setF_mem (s : Mach U) (l : List U.F) : (s.setF l).mem = s.mem := rfl
@[simp] theorem setF_fpu (s : Mach U) (l : List U.F) : (s.setF l).fpu = l := rfl
@[simp] theorem setM_reg (s : Mach U) (m : Memory) : (s.setM m).reg = s.reg := rfl
@[simp] theorem setM_mem (s : Mach U) (m : Memory) : (s.setM m).mem = m := rfl
@[simp] theorem setM_fpu (s : Mach U) (m : Memory) : (s.setM m).fpu = s.fpu := rfl

section
variable (acc : W → Bool) (s : Mach U)

theorem addr_off (b : Reg) (k : Int) : addr s ⟨some b, none, i32 k⟩ = off (s.reg b) k := by
  simp [addr, off]

theorem addr_base (b : Reg) : addr s ⟨some b, none, 0⟩ = s.reg b := by
  simp [addr]

theorem addr_esp (k : Int) : addr s (mem 4 4 0 (i32 k)) = off (s.reg 4) k := addr_off s 4 k

theorem addr_esp0 : addr s (mem 4 4 0 0) = s.reg 4 := addr_base s 4

theorem ite_map {α β : Type} (c : Prop) [Decidable c] (a : α) (f : α → β) :
    (if c then some a else none).map f = if c then some (f a) else none := by
  split <;> rfl

theorem ex_movReg (r q : Reg) : exec acc s (Op.movRegRm r q 3).instr = some (s.set r (s.reg q)) := rfl

theorem ex_loadBase (r b : Reg) : exec acc s (Op.movRegRm r b 0).instr
    = if okN acc (s.reg b) 4 then some (s.set r (rd s.mem (s.reg b))) else none := by
  have e : exec acc s (Op.movRegRm r b 0).instr
    = (if okN acc (addr s ⟨some b, none, 0⟩) 4 then some (rd s.mem (addr s ⟨some b, none, 0⟩)) else
      none).map fun v => s.set r v := rfl
  rw [e, addr_base, ite_map]

theorem ex_load (r b : Reg) (k : Int) : exec acc s (Op.movRegAuto r b (i32 k)).instr
    = if okN acc (off (s.reg b) k) 4 then some (s.set r (rd s.mem (off (s.reg b) k))) else none := by
  have e : exec acc s (Op.movRegAuto r b (i32 k)).instr
    = (if okN acc (addr s ⟨some b, none, i32 k⟩) 4 then
        some (rd s.mem (addr s ⟨some b, none, i32 k⟩)) else none).map fun v => s.set r v := rfl
  rw [e, addr_off, ite_map]

theorem ex_load8 (r b : Reg) (k : Int) (h : -128 ≤ k ∧ k < 128) :
    exec acc s (Op.movRegD8 r b (i8 k)).instr
    = if okN acc (off (s.reg b) k) 4 then some (s.set r (rd s.mem (off (s.reg b) k))) else none := by
  have e : exec acc s (Op.movRegD8 r b (i8 k)).instr
    = (if okN acc (addr s ⟨some b, none, sx8 (i8 k)⟩) 4 then
        some (rd s.mem (addr s ⟨some b, none, sx8 (i8 k)⟩)) else none).map fun v => s.set r v := rfl
  rw [e, sx8_i8 k h, addr_off, ite_map]

theorem ex_storeBase (b r : Reg) : exec acc s (Op.movRmReg b r 0).instr
    = if okN acc (s.reg b) 4 then some (s.wrs (s.reg b) (s.reg r)) else none := by
  have e : exec acc s (Op.movRmReg b r 0).instr
    = if okN acc (addr s ⟨some b, none, 0⟩) 4 then
        some (s.wrs (addr s ⟨some b, none, 0⟩) (s.reg r)) else none := rfl
  rw [e, addr_base]

theorem ex_store (b r : Reg) (k : Int) : exec acc s (Op.movAutoReg b r (i32 k)).instr
    = if okN acc (off (s.reg b) k) 4 then some (s.wrs (off (s.reg b) k) (s.reg r)) else none := by
  have e : exec acc s (Op.movAutoReg b r (i32 k)).instr
    = if okN acc (addr s ⟨some b, none, i32 k⟩) 4 then
        some (s.wrs (addr s ⟨some b, none, i32 k⟩) (s.reg r)) else none := rfl
  rw [e, addr_off]

theorem ex_store8 (b r : Reg) (k : Int) (h : -128 ≤ k ∧ k < 128) :
    exec acc s (Op.movD8Reg b r (i8 k)).instr
    = if okN acc (off (s.reg b) k) 4 then some (s.wrs (off (s.reg b) k) (s.reg r)) else none := by
  have e : exec acc s (Op.movD8Reg b r (i8 k)).instr
    = if okN acc (addr s ⟨some b, none, sx8 (i8 k)⟩) 4 then
        some (s.wrs (addr s ⟨some b, none, sx8 (i8 k)⟩) (s.reg r)) else none := rfl
  rw [e, sx8_i8 k h, addr_off]

theorem ex_storeImm (b : Reg) (v : W) (k : Int) (h : -128 ≤ k ∧ k < 128) :
    exec acc s (Op.movD8Imm b v (i8 k)).instr
    = if okN acc (off (s.reg b) k) 4 then some (s.wrs (off (s.reg b) k) v) else none := by
  have e : exec acc s (Op.movD8Imm b v (i8 k)).instr
    = if okN acc (addr s ⟨some b, none, sx8 (i8 k)⟩) 4 then
        some (s.wrs (addr s ⟨some b, none, sx8 (i8 k)⟩) v) else none := rfl
  rw [e, sx8_i8 k h, addr_off]

theorem ex_storeB (b r : Reg) (k : Int) : exec acc s (Op.mov8AutoReg b r (i32 k)).instr
    = if acc (off (s.reg b) k) then
        some (s.wrs8 (off (s.reg b) k) ((s.reg (byteReg r).1).extractLsb' (byteReg r).2 8))
      else none := by
  have e : exec acc s (Op.mov8AutoReg b r (i32 k)).instr
    = if acc (addr s ⟨some b, none, i32 k⟩) then
        some (s.wrs8 (addr s ⟨some b, none, i32 k⟩)
          ((s.reg (byteReg r).1).extractLsb' (byteReg r).2 8)) else none := rfl
  rw [e, addr_off]

theorem ex_movImm (r : Reg) (v : W) : exec acc s (Op.movImm r v).instr = some (s.set r v) := rfl
theorem ex_movRmImm (r : Reg) (v : W) :
    exec acc s (Op.movRmImm r v 3).instr = some (s.set r v) := rfl

theorem ex_lea (r b : Reg) (k : Int) :
    exec acc s (Op.leaAuto r b (i32 k)).instr = some (s.set r (off (s.reg b) k)) := by
  have e : exec acc s (Op.leaAuto r b (i32 k)).instr
    = some (s.set r (addr s ⟨some b, none, i32 k⟩)) := rfl
  rw [e, addr_off]

theorem ex_lea8 (r b : Reg) (k : Int) (h : -128 ≤ k ∧ k < 128) :
    exec acc s (Op.lea8 r b (i8 k)).instr = some (s.set r (off (s.reg b) k)) := by
  have e : exec acc s (Op.lea8 r b (i8 k)).instr
    = some (s.set r (addr s ⟨some b, none, sx8 (i8 k)⟩)) := rfl
  rw [e, sx8_i8 k h, addr_off]

theorem ex_leaEsp (r : Reg) (k : Int) (h : -128 ≤ k ∧ k < 128) :
    exec acc s (Op.leaSib8 r 4 4 0 (i8 k)).instr = some (s.set r (off (s.reg 4) k)) := by
  have e : exec acc s (Op.leaSib8 r 4 4 0 (i8 k)).instr
    = some (s.set r (addr s (mem 4 4 0 (sx8 (i8 k))))) := rfl
  rw [e, sx8_i8 k h, addr_esp]

theorem ex_leaMul (r i : Reg) (k : Fin 4) (d : W) (h : i ≠ 4) :
    exec acc s (Op.leaNoBase r i k d).instr = some (s.set r (s.reg i <<< k.val + d)) := by
  have e : exec acc s (Op.leaNoBase r i k d).instr
    = some (s.set r (addr s ⟨none, idx i k, d⟩)) := rfl
  rw [e, idx, if_neg h]
  rfl

theorem ex_addAuto (r : Reg) (k : Int) : exec acc s (Op.addImmAuto r (i32 k) 3).instr
    = some ((s.set r (off (s.reg r) k)).addFlags (s.reg r) (i32 k)) := rfl
theorem ex_add32 (r : Reg) (k : Int) : exec acc s (Op.addImm32 r (i32 k) 3).instr
    = some ((s.set r (off (s.reg r) k)).addFlags (s.reg r) (i32 k)) := rfl
theorem ex_add8 (r : Reg) (k : Int) (h : -128 ≤ k ∧ k < 128) :
    exec acc s (Op.addImm8 r (i8 k) 3).instr
    = some ((s.set r (off (s.reg r) k)).addFlags (s.reg r) (i32 k)) := by
  have e : exec acc s (Op.addImm8 r (i8 k) 3).instr
    = some ((s.set r (s.reg r + sx8 (i8 k))).addFlags (s.reg r) (sx8 (i8 k))) := rfl
  rw [e, sx8_i8 k h]
  rfl
theorem ex_subAuto (r : Reg) (k : Int) : exec acc s (Op.subImmAuto r (i32 k) 3).instr
    = some ((s.set r (off (s.reg r) (-k))).subFlags (s.reg r) (i32 k)) := by
  have e : exec acc s (Op.subImmAuto r (i32 k) 3).instr
    = some ((s.set r (s.reg r - i32 k)).subFlags (s.reg r) (i32 k)) := rfl
  rw [e, sub_i32]
theorem ex_sub32 (r : Reg) (k : Int) : exec acc s (Op.subImm32 r (i32 k) 3).instr
    = some ((s.set r (off (s.reg r) (-k))).subFlags (s.reg r) (i32 k)) := ex_subAuto acc s r k
theorem ex_sub8 (r : Reg) (k : Int) (h : -128 ≤ k ∧ k < 128) :
    exec acc s (Op.subImm8 r (i8 k) 3).instr
    = some ((s.set r (off (s.reg r) (-k))).subFlags (s.reg r) (i32 k)) := by
  have e : exec acc s (Op.subImm8 r (i8 k) 3).instr
    = some ((s.set r (s.reg r - sx8 (i8 k))).subFlags (s.reg r) (sx8 (i8 k))) := rfl
  rw [e, sx8_i8 k h, sub_i32]
theorem ex_and (r : Reg) (v : W) : exec acc s (Op.andImm32 r 3 v).instr
    = some ((s.set r (s.reg r &&& v)).logFlags (s.reg r &&& v)) := rfl
theorem ex_xor (r : Reg) : exec acc s (Op.xorRegRm r r 3).instr
    = some ((s.set r 0).logFlags 0) := by
  have e : exec acc s (Op.xorRegRm r r 3).instr
    = some ((s.set r (s.reg r ^^^ s.reg r)).logFlags (s.reg r ^^^ s.reg r)) := rfl
  rw [e, BitVec.xor_self]
  rfl
theorem ex_addReg (r q : Reg) : exec acc s (Op.addRegRm r q 3).instr
    = some ((s.set r (s.reg r + s.reg q)).addFlags (s.reg r) (s.reg q)) := rfl
theorem ex_test (r : Reg) : exec acc s (Op.testRmReg r r 3).instr
    = some (s.logFlags (s.reg r)) := by
  have e : exec acc s (Op.testRmReg r r 3).instr = some (s.logFlags (s.reg r &&& s.reg r)) := rfl
  rw [e, BitVec.and_self]
/-- The lowest byte of a register. -/
def low8 (v : W) : Byte := v.extractLsb' 0 8
theorem ex_test8 : exec acc s (Op.test8RmReg 0 0 3).instr
    = some (s.flags (low8 (s.reg 0) == 0) (low8 (s.reg 0)).msb false) := by
  have e : exec acc s (Op.test8RmReg 0 0 3).instr
    = some (s.flags (low8 (s.reg 0) &&& low8 (s.reg 0) == 0)
      (low8 (s.reg 0) &&& low8 (s.reg 0)).msb false) := rfl
  rw [e, BitVec.and_self]
theorem ex_cmpReg (r q : Reg) : exec acc s (Op.cmpRegRm r q 3).instr
    = some (s.subFlags (s.reg r) (s.reg q)) := rfl
theorem ex_cmpImm (r : Reg) (v : W) : exec acc s (Op.cmpImm32 3 r v).instr
    = some (s.subFlags (s.reg r) v) := rfl
theorem ex_cmpMem8 (b : Reg) (k v : Int) (h : -128 ≤ k ∧ k < 128) (hv : -128 ≤ v ∧ v < 128) :
    exec acc s (Op.cmpD8Imm8 b (i8 k) (i8 v)).instr
    = if okN acc (off (s.reg b) k) 4 then some (s.subFlags (rd s.mem (off (s.reg b) k)) (i32 v))
      else none := by
  have e : exec acc s (Op.cmpD8Imm8 b (i8 k) (i8 v)).instr
    = match (if okN acc (addr s ⟨some b, none, sx8 (i8 k)⟩) 4 then
        some (rd s.mem (addr s ⟨some b, none, sx8 (i8 k)⟩)) else none) with
      | none => none
      | some x => some (s.subFlags x (sx8 (i8 v))) := rfl
  rw [e, sx8_i8 k h, sx8_i8 v hv, addr_off]
  split <;> rename_i h1 <;> split at h1 <;> simp_all
theorem ex_setcc (c : Fin 16) {b : Bool} (h : holds s c = some b) :
    exec acc s (Op.setcc 0 c).instr
    = some (s.set 0 (setByte (s.reg 0) 0 (if b then 1 else 0))) := by
  have e : exec acc s (Op.setcc 0 c).instr = (holds s c).bind fun b =>
    some (s.set 0 (setByte (s.reg 0) 0 (if b then 1 else 0))) := rfl
  rw [e, h]
  rfl

theorem pushW_off (v : W) : pushW acc s v = if okN acc (off (s.reg 4) (-4)) 4 then
    some ((s.set 4 (off (s.reg 4) (-4))).wrs (off (s.reg 4) (-4)) v) else none := by
  have : s.reg 4 - 4 = off (s.reg 4) (-4) := by rw [i32_four, sub_i32]
  unfold pushW
  rw [this]
  rfl

theorem ex_push (r : Reg) : exec acc s (Op.push r).instr
    = if okN acc (off (s.reg 4) (-4)) 4 then
        some ((s.set 4 (off (s.reg 4) (-4))).wrs (off (s.reg 4) (-4)) (s.reg r)) else none := by
  have e : exec acc s (Op.push r).instr = pushW acc s (s.reg r) := rfl
  rw [e, pushW_off]
theorem ex_pushImm (v : W) : exec acc s (Op.pushImm32 v).instr
    = if okN acc (off (s.reg 4) (-4)) 4 then
        some ((s.set 4 (off (s.reg 4) (-4))).wrs (off (s.reg 4) (-4)) v) else none := by
  have e : exec acc s (Op.pushImm32 v).instr = pushW acc s v := rfl
  rw [e, pushW_off]
theorem ex_pushImm8 (k : Int) (h : -128 ≤ k ∧ k < 128) : exec acc s (Op.pushImm8 (i8 k)).instr
    = if okN acc (off (s.reg 4) (-4)) 4 then
        some ((s.set 4 (off (s.reg 4) (-4))).wrs (off (s.reg 4) (-4)) (i32 k)) else none := by
  have e : exec acc s (Op.pushImm8 (i8 k)).instr = pushW acc s (sx8 (i8 k)) := rfl
  rw [e, sx8_i8 k h, pushW_off]
theorem ex_pushMem (b : Reg) (k : Int) : exec acc s (Op.pushAuto b (i32 k)).instr
    = if okN acc (off (s.reg b) k) 4 then
        if okN acc (off (s.reg 4) (-4)) 4 then
          some ((s.set 4 (off (s.reg 4) (-4))).wrs (off (s.reg 4) (-4))
            (rd s.mem (off (s.reg b) k))) else none
      else none := by
  have e : exec acc s (Op.pushAuto b (i32 k)).instr
    = (if okN acc (addr s ⟨some b, none, i32 k⟩) 4 then
        some (rd s.mem (addr s ⟨some b, none, i32 k⟩)) else none).bind fun v => pushW acc s v := rfl
  rw [e, addr_off]
  split
  · rw [Option.bind_some, pushW_off]
  · rfl
theorem ex_pop (r : Reg) : exec acc s (Op.pop r).instr
    = if okN acc (s.reg 4) 4 then
        some ((s.set 4 (off (s.reg 4) 4)).set r (rd s.mem (s.reg 4))) else none := rfl

theorem ex_movzx8 (r b : Reg) (k : Int) : exec acc s (Op.movzx8Auto r b (i32 k)).instr
    = if acc (off (s.reg b) k) then some (s.set r ((s.mem (off (s.reg b) k)).setWidth 32))
      else none := by
  have e : exec acc s (Op.movzx8Auto r b (i32 k)).instr
    = (if acc (addr s ⟨some b, none, i32 k⟩) then some (s.mem (addr s ⟨some b, none, i32 k⟩))
      else none).map fun v => s.set r (v.setWidth 32) := rfl
  rw [e, addr_off, ite_map]
theorem ex_movzx8D8 (r b : Reg) (k : Int) (h : -128 ≤ k ∧ k < 128) :
    exec acc s (Op.movzx8D8 r b (i8 k)).instr
    = if acc (off (s.reg b) k) then some (s.set r ((s.mem (off (s.reg b) k)).setWidth 32))
      else none := by
  have e : exec acc s (Op.movzx8D8 r b (i8 k)).instr
    = (if acc (addr s ⟨some b, none, sx8 (i8 k)⟩) then
      some (s.mem (addr s ⟨some b, none, sx8 (i8 k)⟩))
      else none).map fun v => s.set r (v.setWidth 32) := rfl
  rw [e, sx8_i8 k h, addr_off, ite_map]
theorem ex_mov16 (r b : Reg) (k : Int) : exec acc s (Op.movzx16Pre r b (i32 k)).instr
    = if okN acc (off (s.reg b) k) 2 then
        some (s.set r ((s.reg r).extractLsb' 16 16
          ++ (s.mem (off (s.reg b) k + 1) ++ s.mem (off (s.reg b) k))))
      else none := by
  have e : exec acc s (Op.movzx16Pre r b (i32 k)).instr
    = (if okN acc (addr s ⟨some b, none, i32 k⟩) 2 then
        some (s.mem (addr s ⟨some b, none, i32 k⟩ + 1) ++ s.mem (addr s ⟨some b, none, i32 k⟩))
      else none).map fun v => s.set r ((s.reg r).extractLsb' 16 16 ++ v) := rfl
  rw [e, addr_off, ite_map]

theorem ex_cld : exec acc s Op.cld.instr = some s := rfl
theorem ex_repMovsd : exec acc s Op.repMovsd.instr = repMovs acc s 4 := rfl
theorem ex_repMovsb : exec acc s Op.repMovsb.instr = repMovs acc s 1 := rfl

theorem pushF_nil (v : U.F) (h : s.fpu = []) : pushF s v = some (s.setF [v]) := by
  unfold pushF
  rw [h]
  rfl

theorem ex_fld32 (b : Reg) (k : Int) (h : s.fpu = []) :
    exec acc s (Op.fld32Auto b (i32 k)).instr
    = if okN acc (off (s.reg b) k) 4 then
        some (s.setF [U.of32 (rd s.mem (off (s.reg b) k))]) else none := by
  have e : exec acc s (Op.fld32Auto b (i32 k)).instr
    = if okN acc (addr s ⟨some b, none, i32 k⟩) 4 then
        pushF s (U.of32 (rd s.mem (addr s ⟨some b, none, i32 k⟩))) else none := rfl
  rw [e, addr_off, pushF_nil _ _ h]
theorem ex_fld64 (b : Reg) (k : Int) (h : s.fpu = []) :
    exec acc s (Op.fld64Auto b (i32 k)).instr
    = if okN acc (off (s.reg b) k) 8 then
        some (s.setF [U.of64 (rd64 s.mem (off (s.reg b) k))]) else none := by
  have e : exec acc s (Op.fld64Auto b (i32 k)).instr
    = if okN acc (addr s ⟨some b, none, i32 k⟩) 8 then
        pushF s (U.of64 (rd64 s.mem (addr s ⟨some b, none, i32 k⟩))) else none := rfl
  rw [e, addr_off, pushF_nil _ _ h]
theorem ex_fld32Base (b : Reg) (h : s.fpu = []) :
    exec acc s (Op.fld32 b).instr
    = if okN acc (s.reg b) 4 then some (s.setF [U.of32 (rd s.mem (s.reg b))]) else none := by
  have e : exec acc s (Op.fld32 b).instr
    = if okN acc (addr s ⟨some b, none, 0⟩) 4 then
        pushF s (U.of32 (rd s.mem (addr s ⟨some b, none, 0⟩))) else none := rfl
  rw [e, addr_base, pushF_nil _ _ h]
theorem ex_fld64Base (b : Reg) (h : s.fpu = []) :
    exec acc s (Op.fld64 b).instr
    = if okN acc (s.reg b) 8 then some (s.setF [U.of64 (rd64 s.mem (s.reg b))]) else none := by
  have e : exec acc s (Op.fld64 b).instr
    = if okN acc (addr s ⟨some b, none, 0⟩) 8 then
        pushF s (U.of64 (rd64 s.mem (addr s ⟨some b, none, 0⟩))) else none := rfl
  rw [e, addr_base, pushF_nil _ _ h]
theorem ex_fstp32 (b : Reg) (k : Int) {v : U.F} {l : List U.F} (h : s.fpu = v :: l) :
    exec acc s (Op.fstp32Auto b (i32 k)).instr
    = if okN acc (off (s.reg b) k) 4 then
        some ((s.wrs (off (s.reg b) k) (U.to32 v)).setF l) else none := by
  have e : exec acc s (Op.fstp32Auto b (i32 k)).instr
    = match s.fpu with
      | [] => none
      | v :: l => if okN acc (addr s ⟨some b, none, i32 k⟩) 4 then
        some ((s.wrs (addr s ⟨some b, none, i32 k⟩) (U.to32 v)).setF l) else none := rfl
  rw [e, h, addr_off]
theorem ex_fstp64 (b : Reg) (k : Int) {v : U.F} {l : List U.F} (h : s.fpu = v :: l) :
    exec acc s (Op.fstp64Auto b (i32 k)).instr
    = if okN acc (off (s.reg b) k) 8 then
        some ((s.wrs64 (off (s.reg b) k) (U.to64 v)).setF l) else none := by
  have e : exec acc s (Op.fstp64Auto b (i32 k)).instr
    = match s.fpu with
      | [] => none
      | v :: l => if okN acc (addr s ⟨some b, none, i32 k⟩) 8 then
        some ((s.wrs64 (addr s ⟨some b, none, i32 k⟩) (U.to64 v)).setF l) else none := rfl
  rw [e, h, addr_off]
theorem ex_fstp32Esp {v : U.F} {l : List U.F} (h : s.fpu = v :: l) :
    exec acc s Op.fstp32Esp.instr
    = if okN acc (s.reg 4) 4 then some ((s.wrs (s.reg 4) (U.to32 v)).setF l) else none := by
  have e : exec acc s Op.fstp32Esp.instr
    = match s.fpu with
      | [] => none
      | v :: l => if okN acc (addr s (mem 4 4 0 0)) 4 then
        some ((s.wrs (addr s (mem 4 4 0 0)) (U.to32 v)).setF l) else none := rfl
  rw [e, h, addr_esp0]
theorem ex_fstp64Esp {v : U.F} {l : List U.F} (h : s.fpu = v :: l) :
    exec acc s Op.fstp64Esp.instr
    = if okN acc (s.reg 4) 8 then some ((s.wrs64 (s.reg 4) (U.to64 v)).setF l) else none := by
  have e : exec acc s Op.fstp64Esp.instr
    = match s.fpu with
      | [] => none
      | v :: l => if okN acc (addr s (mem 4 4 0 0)) 8 then
        some ((s.wrs64 (addr s (mem 4 4 0 0)) (U.to64 v)).setF l) else none := rfl
  rw [e, h, addr_esp0]

end

/-- Execute a block symbolically. -/
macro "sym" "[" ts:Lean.Parser.Tactic.simpLemma,* "]" : tactic =>
  `(tactic| simp (disch := omega) [execs, eax, ecx, edx, ebx, esp, ebp, esi, edi, ex_movReg, ex_loadBase, ex_load, ex_load8, ex_storeBase,
    ex_store, ex_store8, ex_storeImm, ex_storeB, ex_movImm, ex_movRmImm, ex_lea, ex_lea8, ex_leaEsp,
    ex_addAuto, ex_add32, ex_add8, ex_subAuto, ex_sub32, ex_sub8, ex_and, ex_xor, ex_addReg, ex_test,
    ex_test8, ex_cmpReg, ex_cmpImm, ex_cmpMem8, ex_push, ex_pushImm, ex_pushImm8, ex_pushMem, ex_pop,
    ex_movzx8, ex_movzx8D8, ex_cld, off_off, off_zero, $ts,*])

/-! ## Calls the writer can express -/

/-- The writer can express all these calls. -/
def AllFit (ops : List Op) : Prop := ∀ o ∈ ops, o.Fits

theorem allFit_nil : AllFit [] := fun _ h => absurd h List.not_mem_nil

theorem allFit_cons {o : Op} {l : List Op} (h : o.Fits) (h' : AllFit l) : AllFit (o :: l) := by
  intro x hx
  rcases List.mem_cons.1 hx with rfl | hx
  · exact h
  · exact h' x hx

theorem allFit_append {a b : List Op} (h : AllFit a) (h' : AllFit b) : AllFit (a ++ b) := by
  intro x hx
  rcases List.mem_append.1 hx with hx | hx
  · exact h x hx
  · exact h' x hx

theorem fits_loads {rm : Reg} {k : Int} (h : rm ≠ 4) (h1 : -128 ≤ k) (h2 : k < 2 ^ 31)
    (h3 : k = 0 → rm ≠ 5) : rm ≠ 4 ∧ -128 ≤ (i32 k).toInt ∧ (i32 k = 0 → rm ≠ 5) := by
  rw [i32_toInt k (by omega)]
  refine ⟨h, h1, fun hz => h3 ?_⟩
  have := i32_toInt k (by omega)
  rw [hz] at this
  simpa using this.symm

theorem fits_fstp {rm : Reg} {k : Int} (h : rm ≠ 4) (h1 : -128 < k) (h2 : k < 127) :
    rm ≠ 4 ∧ -128 < (i32 k).toInt ∧ (i32 k).toInt < 127 := by
  rw [i32_toInt k (by omega)]
  exact ⟨h, h1, h2⟩

/-- Split a list of calls and show of each that the writer can express it. -/
macro "fits" : tactic => `(tactic|
  (repeat' with_reducible first | exact allFit_nil | apply allFit_cons | apply allFit_append) <;>
  first
  | exact trivial
  | exact Or.inl rfl
  | (show (_ : Reg) ≠ (4 : Reg); decide)
  | exact Or.inr ⟨rfl, by decide, by decide⟩
  | exact fits_loads (by decide) (by omega) (by omega) (by omega)
  | exact fits_loads (by decide) (by omega) (by omega) (fun _ => by decide)
  | exact fits_fstp (by decide) (by omega) (by omega)
  | skip)

/-! ## Writing code -/

/-- The writer appends the calls `ops`. -/
def Writes (w : Writer) (ops : List Op) : Prop := ∀ b, w b = some (b ++ ops.flatMap Op.bytes)

theorem out_writes (ops : List Op) : Writes (out ops) ops := fun _ => rfl

theorem Writes.andThen {x y : Writer} {a b : List Op} (hx : Writes x a) (hy : Writes y b) :
    Writes (andThen x y) (a ++ b) := by
  intro l
  rw [Jit32.andThen, hx, Option.bind_some, hy]
  simp

theorem take_drop_mid (a b c d : List Byte) (h : b.length = d.length) :
    (a ++ b ++ c).take a.length ++ d ++ (a ++ b ++ c).drop (a.length + d.length) = a ++ d ++ c := by
  rw [← h, List.append_assoc a b c, List.take_left, ← List.length_append, ← List.append_assoc a b c,
    List.drop_left]

theorem Writes.over8 {x : Writer} {a : List Op} (c : Fin 16) (hx : Writes x a) :
    Writes (over8 c x) (.jcc8 c (i8 (size a)) :: a) := by
  intro l
  unfold Jit32.over8
  simp only [hx _, Option.bind_some]
  unfold rewrite8
  have e : ∀ d, (Op.jcc8 c d).bytes = [Verif.Jit.byte (0x70 + c.val), d] := fun _ => rfl
  rw [if_pos (by simp [e]; omega)]
  have hs : ((l ++ (Op.jcc8 c (i8 0)).bytes ++ a.flatMap Op.bytes).length
      - (l ++ (Op.jcc8 c (i8 0)).bytes).length : Nat) = size a := by
    rw [List.length_append, Nat.add_sub_cancel_left]; rfl
  rw [hs]
  have := take_drop_mid (l ++ [Verif.Jit.byte (0x70 + c.val)]) [i8 0] (a.flatMap Op.bytes)
    [i8 (size a)] rfl
  simp only [List.length_append, List.length_singleton] at this
  simp only [e, List.flatMap_cons, List.length_append, List.length_cons, List.length_nil,
    Nat.zero_add, Nat.reduceAdd, Option.some.injEq] at this ⊢
  simpa using this

theorem Writes.over32 {x : Writer} {a : List Op} (c : Fin 16) (hx : Writes x a) :
    Writes (over32 c x) (.jcc32 c (i32 (size a)) :: a) := by
  intro l
  unfold Jit32.over32
  simp only [hx _, Option.bind_some]
  unfold Verif.Jit.rewrite32
  have e : ∀ d, (Op.jcc32 c d).bytes
      = [Verif.Jit.byte 0x0F, Verif.Jit.byte (0x80 + c.val)] ++ Verif.Jit.bytes32 d := fun _ => rfl
  have e4 : ∀ d, (Verif.Jit.bytes32 d).length = 4 := fun _ => rfl
  rw [if_pos (by simp [e, e4]; omega)]
  have hs : ((l ++ (Op.jcc32 c (i32 0)).bytes ++ a.flatMap Op.bytes).length
      - (l ++ (Op.jcc32 c (i32 0)).bytes).length : Nat) = size a := by
    rw [List.length_append, Nat.add_sub_cancel_left]; rfl
  rw [hs]
  have := take_drop_mid (l ++ [Verif.Jit.byte 0x0F, Verif.Jit.byte (0x80 + c.val)])
    (Verif.Jit.bytes32 (i32 0)) (a.flatMap Op.bytes) (Verif.Jit.bytes32 (i32 (size a))) rfl
  simp only [e4, List.length_append, List.length_cons, List.length_nil] at this
  simp only [e, e4, List.flatMap_cons, List.length_append, List.length_cons, List.length_nil,
    Option.some.injEq] at this ⊢
  rw [show l.length + (0 + 1 + 1 + 4) - 4 = l.length + (0 + 1 + 1) by omega]
  simpa using this

end Verif.Jit32
