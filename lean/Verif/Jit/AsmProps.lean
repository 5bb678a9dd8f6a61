import Verif.Jit.AsmLemmas
/-
C63: what the instruction writer pushes is, read as the processor reads it, the instruction that
the called method names, with the operands given, for every register, displacement and immediate;
and a sequence of calls reads back as the sequence of instructions, with no byte left over.
-/
namespace Verif.Jit

/-! ## Specification -/

/-- The operand `reg(disp)` means: the memory at the register plus the displacement. -/
def RegRm.operand (m : RegRm) : Mem := ⟨.reg m.rm, none, m.disp⟩

/-- The instruction a call names. -/
def Op.instr : Op → Instr
  | .breakpoint => .int3
  | .repMovsBytes => .repMovsb
  | .call r => .call (.reg r)
  | .jumpReg r => .jmpInd (.reg r)
  | .jump o => .jmp o
  | .jz o => .jcc .e o
  | .jl o => .jcc .l o
  | .jle o => .jcc .le o
  | .je o => .jcc .e o
  | .jne o => .jcc .ne o
  | .push r => .push r
  | .pushImm v => .pushImm v
  | .pop r => .pop r
  | .mov d s => .bin .mov (.reg d) s
  | .store m r => .bin .mov (.mem m.operand) r
  | .load r m => .binRev .mov r (.mem m.operand)
  | .movImm d i => .movImm32 d i
  | .storeImm m i => .binImm .mov (.mem m.operand) i
  | .movImm64 d i =>
    -- the short form zeroes the upper half
    if i.toNat < 2 ^ 32 then .movImm32 d (i.setWidth 32) else .movImm64 d i
  | .movsdLoad x m => .movsdLoad x m.operand
  | .movsdStore m x => .movsdStore m.operand x
  | .add d s => .bin .add (.reg d) s
  | .addImm d i => .binImm .add (.reg d) i
  | .sub d s => .bin .sub (.reg d) s
  | .subImm d i => .binImm .sub (.reg d) i
  | .xor d s => .bin .xor (.reg d) s
  | .test d s => .bin .test (.reg d) s
  | .testImm r i => .binImm .test (.reg r) i
  | .cmovneMem r m => .cmov .ne r (.mem m.operand)
  | .cmovne r s => .cmov .ne r (.reg s)
  | .cmovgeMem r m => .cmov .ge r (.mem m.operand)
  | .cmovge r s => .cmov .ge r (.reg s)
  | .cmovgMem r m => .cmov .g r (.mem m.operand)
  | .cmovg r s => .cmov .g r (.reg s)
  | .lea r m => .lea r m.operand
  | .cmpMem r m => .binRev .cmp r (.mem m.operand)
  | .cmpStore m r => .bin .cmp (.mem m.operand) r
  | .cmp r s => .binRev .cmp r (.reg s)
  | .cmpImm d i => .binImm .cmp (.reg d) i
  | .retn => .ret

/-- Reading a whole byte sequence as instructions. -/
inductive Reads : List Byte → List Instr → Prop
  | nil : Reads [] []
  | cons {l rest : List Byte} {i : Instr} {is : List Instr} :
      decode l = some (i, rest) → Reads rest is → Reads l (i :: is)

/-! ## Round trips -/

theorem bin_reg (op : Bin) (code : Byte) (d s : Reg) (rest : List Byte)
    (h : ∀ rex l, decodeOp rex (code :: l) = getBin rex op l) :
    decode (wRex s d :: code :: modrm s d :: rest) = some (.bin op (.reg d) s, rest) := by
  rw [decode_wRex, h]
  simp only [getBin, if_true]
  rw [getModRM_modrm s d _ rfl]
  simp [regNo_mod]

theorem bin_mem (op : Bin) (code : Byte) (m : RegRm) (s : Reg) (rest : List Byte)
    (h : ∀ rex l, decodeOp rex (code :: l) = getBin rex op l) :
    decode (wRex s m.rm :: code :: (m.write s.val ++ rest))
      = some (.bin op (.mem m.operand) s, rest) := by
  rw [decode_wRex, h]
  simp only [getBin, if_true]
  rw [getModRM_write m s _ rfl rfl]
  simp [regNo_mod, RegRm.operand]

theorem binRev_reg (op : Bin) (code : Byte) (d s : Reg) (rest : List Byte)
    (h : ∀ rex l, decodeOp rex (code :: l) = getBinRev rex op l) :
    decode (wRex d s :: code :: modrm d s :: rest) = some (.binRev op d (.reg s), rest) := by
  rw [decode_wRex, h]
  simp only [getBinRev, if_true]
  rw [getModRM_modrm d s _ rfl]
  simp [regNo_mod]

theorem binRev_mem (op : Bin) (code : Byte) (m : RegRm) (d : Reg) (rest : List Byte)
    (h : ∀ rex l, decodeOp rex (code :: l) = getBinRev rex op l) :
    decode (wRex d m.rm :: code :: (m.write d.val ++ rest))
      = some (.binRev op d (.mem m.operand), rest) := by
  rw [decode_wRex, h]
  simp only [getBinRev, if_true]
  rw [getModRM_write m d _ rfl rfl]
  simp [regNo_mod, RegRm.operand]

theorem decodeOp_0F (rex : Rex) (l : List Byte) :
    decodeOp rex (byte 0x0F :: l) = decode0F rex l := by
  simp only [decodeOp]
  rw [if_pos (by decide)]

theorem cmov_reg (c : Cond) (code : Byte) (d s : Reg) (rest : List Byte)
    (h : code.toNat / 16 = 4 ∧ condOf (code.toNat % 16) = some c) :
    decode (wRex d s :: byte 0x0F :: code :: modrm d s :: rest)
      = some (.cmov c d (.reg s), rest) := by
  rw [decode_wRex, decodeOp_0F]
  simp only [decode0F, h.1, h.2, if_true]
  rw [getModRM_modrm d s _ rfl]
  simp [regNo_mod]

theorem cmov_mem (c : Cond) (code : Byte) (d : Reg) (m : RegRm) (rest : List Byte)
    (h : code.toNat / 16 = 4 ∧ condOf (code.toNat % 16) = some c) :
    decode (wRex d m.rm :: byte 0x0F :: code :: (m.write d.val ++ rest))
      = some (.cmov c d (.mem m.operand), rest) := by
  rw [decode_wRex, decodeOp_0F]
  simp only [decode0F, h.1, h.2, if_true]
  rw [getModRM_write m d _ rfl rfl]
  simp [regNo_mod, RegRm.operand]

theorem jcc_rt (c : Cond) (code : Byte) (o : BitVec 32) (rest : List Byte)
    (h : code.toNat / 16 = 8 ∧ condOf (code.toNat % 16) = some c) :
    decode (byte 0x0F :: code :: (bytes32 o ++ rest)) = some (.jcc c o, rest) := by
  rw [decode_plain _ _ (by decide), decodeOp_0F]
  simp only [decode0F, h.1, h.2]
  simp [get32_bytes32]

theorem group1_rt (op : Bin) (f : Fin 8) (r : Reg) (i : BitVec 32) (rest : List Byte)
    (h : group1 f.val = some op) :
    decode (rexW r :: byte 0x81 :: modrmRm r f.val :: (bytes32 i ++ rest))
      = some (.binImm op (.reg r) i, rest) := by
  rw [decode_rexW]
  simp only [decodeOp, show (byte 0x81).toNat = 0x81 from rfl]
  simp only [getModRM_modrmRm f r ⟨true, false, false, extended r⟩ rfl, h, get32_bytes32]
  rfl

theorem movImm_rt (d : Reg) (i : BitVec 32) (rest : List Byte) :
    decode (Enc.movImm d i ++ rest) = some (.movImm32 d i, rest) := by
  simp only [Enc.movImm, List.append_assoc, List.cons_append]
  rw [decode_rexB _ _ _ (by revert d; decide)]
  have h : ∀ r : Fin 16, (byte (0xB8 + low r)).toNat / 8 = 0x17 ∧
      regNo (extended r) (byte (0xB8 + low r)).toNat = r := by decide
  have h := h d
  simp only [decodeOp, h.1, h.2, get32_bytes32]
  repeat rw [if_neg (by omega)]
  rfl

/-- **C63.** Every call pushes bytes that the processor reads as the instruction the call names,
whatever bytes follow, and it reads exactly the bytes pushed. -/
theorem roundTrip (op : Op) (rest : List Byte) :
    decode (op.bytes ++ rest) = some (op.instr, rest) := by
  cases op with
  | breakpoint => rfl
  | repMovsBytes => rfl
  | retn => rfl
  | call r =>
    simp only [Op.bytes, Enc.call, List.append_assoc, List.cons_append, List.nil_append, Op.instr]
    rw [decode_rexB _ _ _ (by decide)]
    simp only [decodeOp, show (byte 0xFF).toNat = 0xFF from rfl]
    have := getModRM_modrmRm 2 r ⟨false, false, false, extended r⟩ rfl rest
    rw [show modrmRm r (2 : Fin 8).val = byte (0xD0 + low r) from by clear this; revert r; decide] at this
    rw [this]
    rfl
  | jumpReg r =>
    simp only [Op.bytes, Enc.jumpReg, List.append_assoc, List.cons_append, List.nil_append,
      Op.instr]
    rw [decode_rexB _ _ _ (by decide)]
    simp only [decodeOp, show (byte 0xFF).toNat = 0xFF from rfl]
    have := getModRM_modrmRm 4 r ⟨false, false, false, extended r⟩ rfl rest
    rw [show modrmRm r (4 : Fin 8).val = byte (0xE0 + low r) from by clear this; revert r; decide] at this
    rw [this]
    rfl
  | jump o =>
    simp only [Op.bytes, Enc.jump, List.cons_append, Op.instr]
    rw [decode_plain _ _ (by decide)]
    simp only [decodeOp, show (byte 0xE9).toNat = 0xE9 from rfl, get32_bytes32]
    rfl
  | jz o => exact jcc_rt .e (byte 0x84) o rest (by decide)
  | jl o => exact jcc_rt .l (byte 0x8C) o rest (by decide)
  | jle o => exact jcc_rt .le (byte 0x8E) o rest (by decide)
  | je o => exact jcc_rt .e (byte 0x84) o rest (by decide)
  | jne o => exact jcc_rt .ne (byte 0x85) o rest (by decide)
  | push r =>
    simp only [Op.bytes, Enc.push, List.append_assoc, List.cons_append, List.nil_append, Op.instr]
    rw [decode_rexB _ _ _ (by revert r; decide)]
    revert r
    have h : ∀ r : Fin 16, (byte (0x50 + low r)).toNat / 8 = 0x0A ∧
        regNo (extended r) (byte (0x50 + low r)).toNat = r := by decide
    intro r
    have h := h r
    simp only [decodeOp, h.1, h.2]
    repeat rw [if_neg (by omega)]
    rfl
  | pop r =>
    simp only [Op.bytes, Enc.pop, List.append_assoc, List.cons_append, List.nil_append, Op.instr]
    rw [decode_rexB _ _ _ (by revert r; decide)]
    have h : ∀ r : Fin 16, (byte (0x58 + low r)).toNat / 8 = 0x0B ∧
        regNo (extended r) (byte (0x58 + low r)).toNat = r := by decide
    have h := h r
    simp only [decodeOp, h.1, h.2]
    repeat rw [if_neg (by omega)]
    rfl
  | pushImm v =>
    simp only [Op.bytes, Enc.pushImm, Op.instr]
    split
    · rename_i h
      show some (Instr.pushImm (BitVec.signExtend 32 _), rest) = _
      rw [sext_byte v h]
    · rw [List.cons_append, decode_plain _ _ (by decide)]
      simp only [decodeOp, show (byte 0x68).toNat = 0x68 from rfl, get32_bytes32]
      rfl
  | mov d s => exact bin_reg .mov (byte 0x89) d s rest (fun _ _ => rfl)
  | store m r => exact bin_mem .mov (byte 0x89) m r rest (fun _ _ => rfl)
  | load r m => exact binRev_mem .mov (byte 0x8B) m r rest (fun _ _ => rfl)
  | movImm d i => exact movImm_rt d i rest
  | storeImm m i =>
    simp only [Op.bytes, Enc.storeImm, List.cons_append, List.append_assoc, Op.instr]
    rw [decode_rexW]
    simp only [decodeOp, show (byte 0xC7).toNat = 0xC7 from rfl]
    rw [show m.write 0 = m.write (0 : Fin 16).val from rfl, getModRM_write m 0 _ rfl rfl]
    simp only [get32_bytes32]
    rfl
  | movImm64 d i =>
    simp only [Op.bytes, Enc.movImm64, Op.instr]
    by_cases h : i.toNat ≤ 0xFFFFFFFF
    · rw [if_pos h, if_pos (by omega)]
      exact movImm_rt d _ rest
    · rw [if_neg h, if_neg (by omega), List.cons_append, decode_rexW]
      have h : ∀ r : Fin 16, (byte (0xB8 + low r)).toNat / 8 = 0x17 ∧
          regNo (extended r) (byte (0xB8 + low r)).toNat = r := by decide
      have h := h d
      simp only [List.cons_append, decodeOp, h.1, h.2, get64_bytes64]
      repeat rw [if_neg (by omega)]
      rfl
  | movsdLoad x m =>
    simp only [Op.bytes, Enc.movsdLoad, List.cons_append, Op.instr, decode,
      show (byte 0xF2).toNat = 0xF2 from rfl, if_true, getRex, (rexOf_wRex x m.rm).1, decodeF2,
      show (byte 0x0F).toNat = 0x0F from rfl, show (byte 0x10).toNat = 0x10 from rfl,
      getModM, getModRM_write m x ⟨true, extended x, false, extended m.rm⟩ rfl rfl]
    simp [regNo_mod, RegRm.operand]
  | movsdStore m x =>
    simp only [Op.bytes, Enc.movsdStore, List.cons_append, List.append_assoc, Op.instr, decode,
      show (byte 0xF2).toNat = 0xF2 from rfl, if_true]
    cases h : (extended x || extended m.rm)
    · have hx : extended x = false := by revert h; cases extended x <;> simp
      have hm : extended m.rm = false := by revert h; cases extended x <;> simp
      simp only [Bool.false_eq_true, if_false, List.nil_append, getRex,
        show rexOf 0x0F = none from rfl, decodeF2,
        show (byte 0x0F).toNat = 0x0F from rfl, show (byte 0x11).toNat = 0x11 from rfl,
        getModM, getModRM_write m x noRex rfl hm.symm, if_true]
      have := regNo_mod x
      rw [hx] at this
      simp [RegRm.operand, noRex, this]
    · simp only [if_true, List.cons_append, List.nil_append, getRex, (rexOf_wRex x m.rm).1, decodeF2,
        show (byte 0x0F).toNat = 0x0F from rfl, show (byte 0x11).toNat = 0x11 from rfl,
        getModM, getModRM_write m x ⟨true, extended x, false, extended m.rm⟩ rfl rfl]
      simp [regNo_mod, RegRm.operand]
  | add d s => exact bin_reg .add (byte 0x01) d s rest (fun _ _ => rfl)
  | addImm d i => exact group1_rt .add 0 d i rest rfl
  | sub d s => exact bin_reg .sub (byte 0x29) d s rest (fun _ _ => rfl)
  | subImm d i => exact group1_rt .sub 5 d i rest rfl
  | xor d s => exact bin_reg .xor (byte 0x31) d s rest (fun _ _ => rfl)
  | test d s => exact bin_reg .test (byte 0x85) d s rest (fun _ _ => rfl)
  | testImm r i =>
    simp only [Op.bytes, Enc.testImm, List.cons_append, Op.instr]
    rw [decode_rexW]
    simp only [decodeOp, show (byte 0xF7).toNat = 0xF7 from rfl]
    rw [show modrmRm r 0 = modrmRm r (0 : Fin 8).val from rfl, getModRM_modrmRm 0 r _ rfl]
    simp only [get32_bytes32]
    rfl
  | cmovneMem r m => exact cmov_mem .ne (byte 0x45) r m rest (by decide)
  | cmovne r s => exact cmov_reg .ne (byte 0x45) r s rest (by decide)
  | cmovgeMem r m => exact cmov_mem .ge (byte 0x4D) r m rest (by decide)
  | cmovge r s => exact cmov_reg .ge (byte 0x4D) r s rest (by decide)
  | cmovgMem r m => exact cmov_mem .g (byte 0x4F) r m rest (by decide)
  | cmovg r s => exact cmov_reg .g (byte 0x4F) r s rest (by decide)
  | lea r m =>
    simp only [Op.bytes, Enc.lea, List.cons_append, Op.instr]
    rw [decode_wRex]
    simp only [decodeOp, show (byte 0x8D).toNat = 0x8D from rfl]
    simp only [getModM, getModRM_write m r ⟨true, extended r, false, extended m.rm⟩ rfl rfl]
    simp [regNo_mod, RegRm.operand]
  | cmpMem r m => exact binRev_mem .cmp (byte 0x3B) m r rest (fun _ _ => rfl)
  | cmpStore m r => exact bin_mem .cmp (byte 0x39) m r rest (fun _ _ => rfl)
  | cmp r s => exact binRev_reg .cmp (byte 0x3B) r s rest (fun _ _ => rfl)
  | cmpImm d i => exact group1_rt .cmp 7 d i rest rfl

/-- The hypothesis-free statement on a concrete call: `mov [r12+0x80], r9`, which needs a SIB
byte and a four byte displacement. -/
example : (Op.store (at_ r12 0x80) r9).bytes
      = [0x4D, 0x89, 0x8C, 0x24, 0x80, 0, 0, 0]
    ∧ decode ([0x4D, 0x89, 0x8C, 0x24, 0x80, 0, 0, 0, 0xC3] : List Byte)
      = some (.bin .mov (.mem ⟨.reg r12, none, 0x80⟩) r9, [0xC3]) := by decide +kernel

/-- **C63.** A sequence of calls reads back as the sequence of instructions they name. -/
theorem reads (ops : List Op) : Reads (ops.flatMap Op.bytes) (ops.map Op.instr) := by
  induction ops with
  | nil => exact .nil
  | cons op ops ih => exact .cons (roundTrip op _) ih

example : Reads [0x55, 0x48, 0x89, 0xE5, 0x5D, 0xC3]
    [.push rbp, .bin .mov (.reg rbp) rsp, .pop rbp, .ret] :=
  reads [.push rbp, .mov rbp rsp, .pop rbp, .retn]

/-- Reading is a function: the processor cannot read a second listing from the same bytes. -/
theorem reads_unique {l : List Byte} {a b : List Instr} (ha : Reads l a) (hb : Reads l b) :
    a = b := by
  induction ha generalizing b with
  | nil =>
    cases hb with
    | nil => rfl
    | cons h _ => cases h
  | cons h _ ih =>
    cases hb with
    | nil => cases h
    | cons h' hr =>
      rw [h] at h'
      cases h'
      rw [ih hr]

example : ¬ Reads [0xC3] [.int3] := fun h => by
  have := reads_unique h (reads [.retn])
  cases this

/-- Two calls that push the same bytes name the same instruction. -/
theorem bytes_inj {a b : Op} (h : a.bytes = b.bytes) : a.instr = b.instr := by
  have ha := roundTrip a []
  have hb := roundTrip b []
  rw [h, hb] at ha
  exact (congrArg Prod.fst (Option.some.inj ha)).symm

example : (Op.jz 5).bytes = (Op.je 5).bytes ∧ (Op.jz 5).instr = (Op.je 5).instr := ⟨rfl, rfl⟩

/-- The value a load of a constant leaves in its register: the processor clears the upper half
for the 32-bit form (SDM volume 1, 3.4.1.1). -/
def constant : Instr → Option (Reg × BitVec 64)
  | .movImm32 r i => some (r, i.setWidth 64)
  | .movImm64 r i => some (r, i)
  | _ => none

/-- **C63.** `mov(reg, uint64)` leaves exactly the given value in the register, whichever of its
two forms it picks. -/
theorem movImm64_value (d : Reg) (i : BitVec 64) (rest : List Byte) :
    ∃ instr, decode (Enc.movImm64 d i ++ rest) = some (instr, rest) ∧
      constant instr = some (d, i) := by
  refine ⟨_, roundTrip (.movImm64 d i) rest, ?_⟩
  simp only [Op.instr]
  split
  · rename_i h
    simp only [constant, Option.some.injEq, Prod.mk.injEq, true_and]
    apply BitVec.eq_of_toNat_eq
    simp only [BitVec.toNat_setWidth]
    omega
  · rfl

example : constant (.movImm32 rax 0xFFFFFFFF) = some (rax, 0xFFFFFFFF) := by decide

/-- `mov(reg, int32)` leaves the given value in the register exactly when it is not negative. -/
theorem movImm_value (d : Reg) (i : BitVec 32) (rest : List Byte) :
    ∃ instr v, decode (Enc.movImm d i ++ rest) = some (instr, rest) ∧
      constant instr = some (d, v) ∧ (v.toInt = i.toInt ↔ 0 ≤ i.toInt) := by
  refine ⟨_, _, roundTrip (.movImm d i) rest, rfl, ?_⟩
  have h := i.isLt
  rw [BitVec.toInt_eq_toNat_cond, BitVec.toInt_eq_toNat_cond, BitVec.toNat_setWidth]
  constructor
  · intro e; split at e <;> split at e <;> (try omega)
  · intro e; split at e <;> split <;> omega

/-- FINDING.  `mov(reg, int32)` with a negative number does not leave that number in the 64-bit
register: `mov(rax, -1)` leaves 4294967295 (no REX.W, so the processor zero-extends), whereas the
overload that stores to memory extends the sign. -/
theorem movImm_negative_wrong : ∃ instr, decode (Enc.movImm rax (-1)) = some (instr, []) ∧
    constant instr = some (rax, 4294967295) ∧ (4294967295 : BitVec 64).toInt ≠ (-1 : BitVec 32).toInt :=
  ⟨.movImm32 rax (-1), by decide +kernel, by decide, by decide⟩

/-! ## Patching jumps -/

theorem rewrite_mid (before after : List Byte) (old new : BitVec 32) :
    rewrite32 (before ++ (bytes32 old ++ after)) before.length new
      = some (before ++ (bytes32 new ++ after)) := by
  unfold rewrite32
  rw [if_pos (by simp [bytes32])]
  rw [List.take_left, List.drop_append]
  simp [bytes32]

/-- **C63.** Rewriting the four bytes before a position, where the position is the end of a
conditional jump that was written with some distance, changes that jump's distance and nothing
else, whatever lies before and after. -/
theorem rewrite_jcc (before after : List Byte) (old new : BitVec 32) (code : Byte) :
    rewrite32 (before ++ (byte 0x0F :: code :: bytes32 old) ++ after)
        ((before ++ (byte 0x0F :: code :: bytes32 old)).length - 4) new
      = some (before ++ (byte 0x0F :: code :: bytes32 new) ++ after) := by
  have := rewrite_mid (before ++ [byte 0x0F, code]) after old new
  simpa [bytes32] using this

example : rewrite32 ([0x55] ++ Enc.jz 0 ++ [0xC3]) 3 0x1234
    = some ([0x55] ++ Enc.jz 0x1234 ++ [0xC3]) := by decide +kernel

/-- **C63.** The same for an unconditional jump. -/
theorem rewrite_jump (before after : List Byte) (old new : BitVec 32) :
    rewrite32 (before ++ Enc.jump old ++ after) ((before ++ Enc.jump old).length - 4) new
      = some (before ++ Enc.jump new ++ after) := by
  have := rewrite_mid (before ++ [byte 0xE9]) after old new
  simpa [bytes32, Enc.jump] using this

example : rewrite32 (Enc.jump 0 ++ [0xC3]) 1 (-5) = some (Enc.jump (-5) ++ [0xC3]) := by
  decide +kernel

end Verif.Jit

#print axioms Verif.Jit.roundTrip
#print axioms Verif.Jit.reads
#print axioms Verif.Jit.reads_unique
#print axioms Verif.Jit.bytes_inj
#print axioms Verif.Jit.movImm64_value
#print axioms Verif.Jit.movImm_value
#print axioms Verif.Jit.movImm_negative_wrong
#print axioms Verif.Jit.rewrite_jcc
#print axioms Verif.Jit.rewrite_jump
