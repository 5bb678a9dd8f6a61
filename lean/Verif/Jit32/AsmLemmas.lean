import Verif.Jit32.AsmSpec
/-
Helper lemmas about the 32-bit instruction writer and the decoder.
-/
namespace Verif.Jit32

open Verif.Jit (Byte byte bytes32 get32 get32_bytes32 sext_byte)

theorem fin8 {p : Fin 8 → Prop} (h0 : p 0) (h1 : p 1) (h2 : p 2) (h3 : p 3) (h4 : p 4) (h5 : p 5)
    (h6 : p 6) (h7 : p 7) : ∀ r, p r
  | 0 => h0 | 1 => h1 | 2 => h2 | 3 => h3 | 4 => h4 | 5 => h5 | 6 => h6 | 7 => h7

theorem fin16 {p : Fin 16 → Prop} (h0 : p 0) (h1 : p 1) (h2 : p 2) (h3 : p 3) (h4 : p 4) (h5 : p 5)
    (h6 : p 6) (h7 : p 7) (h8 : p 8) (h9 : p 9) (h10 : p 10) (h11 : p 11) (h12 : p 12)
    (h13 : p 13) (h14 : p 14) (h15 : p 15) : ∀ r, p r
  | ⟨0, _⟩ => h0 | ⟨1, _⟩ => h1 | ⟨2, _⟩ => h2 | ⟨3, _⟩ => h3 | ⟨4, _⟩ => h4 | ⟨5, _⟩ => h5
  | ⟨6, _⟩ => h6 | ⟨7, _⟩ => h7 | ⟨8, _⟩ => h8 | ⟨9, _⟩ => h9 | ⟨10, _⟩ => h10 | ⟨11, _⟩ => h11
  | ⟨12, _⟩ => h12 | ⟨13, _⟩ => h13 | ⟨14, _⟩ => h14 | ⟨15, _⟩ => h15
  | ⟨n + 16, h⟩ => absurd h (by omega)

/-! ## Operands -/

theorem mrm_fields : ∀ (k : Fin 4) (f r : Fin 8), (mrm k f r).toNat / 64 = k.val ∧
    reg3 ((mrm k f r).toNat / 8) = f ∧ (mrm k f r).toNat % 8 = r.val ∧
    reg3 (mrm k f r).toNat = r := by
  decide +kernel

theorem sib_fields : ∀ (k : Fin 4) (i b : Fin 8), (sibByte k i b).toNat / 64 % 4 = k.val ∧
    reg3 ((sibByte k i b).toNat / 8) = i ∧ (sibByte k i b).toNat % 8 = b.val ∧
    reg3 (sibByte k i b).toNat = b := by
  decide +kernel

theorem reg3_val : ∀ r : Fin 8, reg3 r.val = r := by decide

theorem val4 : ∀ r : Fin 8, r.val = 4 ↔ r = 4 := by decide
theorem val5 : ∀ r : Fin 8, r.val = 5 ↔ r = 5 := by decide

theorem getModRM_mrm (mode : Fin 4) (f rm : Fin 8) (h : okMode mode rm) (rest : List Byte) :
    getModRM (mrm mode f rm :: rest) = some (f, opnd mode rm, rest) := by
  obtain ⟨h1, h2, h3, h4⟩ := mrm_fields mode f rm
  simp only [getModRM, h1, h2, h3, h4]
  rcases h with h | ⟨h, n4, n5⟩
  · subst h; rfl
  · subst h
    rw [if_neg (by decide)]
    simp [getMem, getDisp, reg3_val, opnd, val4, val5, n4, n5]

theorem getModRM_m8 (f rm : Fin 8) (d : BitVec 8) (h : rm ≠ 4) (rest : List Byte) :
    getModRM (m8 f rm d ++ rest) = some (f, at8 rm d, rest) := by
  obtain ⟨h1, h2, h3, h4⟩ := mrm_fields 1 f rm
  simp only [m8, List.cons_append, List.nil_append, getModRM, h1, h2, h3]
  rw [if_neg (by decide)]
  simp [getMem, getDisp, get8, reg3_val, at8, sx8, val4, h]

theorem getModRM_m32 (f rm : Fin 8) (d : BitVec 32) (h : rm ≠ 4) (rest : List Byte) :
    getModRM (m32 f rm d ++ rest) = some (f, at32 rm d, rest) := by
  obtain ⟨h1, h2, h3, h4⟩ := mrm_fields 2 f rm
  simp only [m32, List.cons_append, getModRM, h1, h2, h3]
  rw [if_neg (by decide)]
  simp [getMem, getDisp, get32_bytes32, reg3_val, at32, val4, h]

theorem getModRM_s0 (f b i : Fin 8) (k : Fin 4) (h : b ≠ 5) (rest : List Byte) :
    getModRM (s0 f b i k ++ rest) = some (f, sib b i k 0, rest) := by
  obtain ⟨h1, h2, h3, h4⟩ := mrm_fields 0 f 4
  rw [show (4 : Fin 8).val = 4 from rfl] at h3
  obtain ⟨g1, g2, g3, g4⟩ := sib_fields k i b
  simp only [s0, List.cons_append, List.nil_append, getModRM, h1, h2, h3]
  rw [if_neg (by decide)]
  simp [getMem, getDisp, sib, mem, idx, g1, g2, g3, g4, val5, h]

theorem getModRM_s8 (f b i : Fin 8) (k : Fin 4) (d : BitVec 8) (rest : List Byte) :
    getModRM (s8 f b i k d ++ rest) = some (f, sib b i k (sx8 d), rest) := by
  obtain ⟨h1, h2, h3, h4⟩ := mrm_fields 1 f 4
  rw [show (4 : Fin 8).val = 4 from rfl] at h3
  obtain ⟨g1, g2, g3, g4⟩ := sib_fields k i b
  simp only [s8, List.cons_append, List.nil_append, getModRM, h1, h2, h3]
  rw [if_neg (by decide)]
  simp [getMem, getDisp, get8, sib, mem, idx, sx8, g1, g2, g4]

theorem getModRM_s32 (f b i : Fin 8) (k : Fin 4) (d : BitVec 32) (rest : List Byte) :
    getModRM (s32 f b i k d ++ rest) = some (f, sib b i k d, rest) := by
  obtain ⟨h1, h2, h3, h4⟩ := mrm_fields 2 f 4
  rw [show (4 : Fin 8).val = 4 from rfl] at h3
  obtain ⟨g1, g2, g3, g4⟩ := sib_fields k i b
  simp only [s32, List.cons_append, getModRM, h1, h2, h3]
  rw [if_neg (by decide)]
  simp [getMem, getDisp, get32_bytes32, sib, mem, idx, g1, g2, g4]

theorem getModRM_sn (f i : Fin 8) (k : Fin 4) (d : BitVec 32) (rest : List Byte) :
    getModRM (sn f i k d ++ rest) = some (f, .mem ⟨none, idx i k, d⟩, rest) := by
  obtain ⟨h1, h2, h3, h4⟩ := mrm_fields 0 f 4
  rw [show (4 : Fin 8).val = 4 from rfl] at h3
  obtain ⟨g1, g2, g3, g4⟩ := sib_fields k i 5
  rw [show (5 : Fin 8).val = 5 from rfl] at g3
  simp only [sn, List.cons_append, getModRM, h1, h2, h3]
  rw [if_neg (by decide)]
  simp [getMem, get32_bytes32, idx, g1, g2, g3]

theorem get8_cons (v : Byte) (rest : List Byte) : get8 (v :: rest) = some (sx8 v, rest) := rfl

theorem fits8_iff (d : BitVec 32) : fits8 d = true ↔ -128 ≤ d.toInt ∧ d.toInt ≤ 127 := by
  simp [fits8]

theorem sx8_lo8 {d : BitVec 32} (h : -128 ≤ d.toInt ∧ d.toInt ≤ 127) : sx8 (lo8 d) = d :=
  sext_byte d h

theorem at8_lo8 {d : BitVec 32} (r : Reg) (h : -128 ≤ d.toInt ∧ d.toInt ≤ 127) :
    at8 r (lo8 d) = at32 r d := by
  rw [at8, sx8_lo8 h, at32]

theorem ofNat16 (n : BitVec 16) : BitVec.ofNat 16
    ((n.extractLsb' 0 8).toNat + 256 * (n.extractLsb' 8 8).toNat) = n := by
  apply BitVec.eq_of_toNat_eq
  simp only [BitVec.toNat_ofNat, BitVec.extractLsb'_toNat, Nat.shiftRight_eq_div_pow]
  have := n.isLt
  omega

theorem okMode3 (r : Reg) : okMode 3 r := .inl rfl
theorem okMode0 {r : Reg} (h : r ≠ 4 ∧ r ≠ 5) : okMode 0 r := .inr ⟨rfl, h⟩
theorem opnd3 (r : Reg) : opnd 3 r = .reg r := rfl
theorem opnd0 (r : Reg) : opnd 0 r = .mem ⟨some r, none, 0⟩ := rfl

theorem getModRM_auto (f rm : Fin 8) (d : BitVec 32) (h4 : rm ≠ 4) (hl : -128 ≤ d.toInt)
    (h5 : d = 0 → rm ≠ 5) (rest : List Byte) :
    getModRM ((if d = 0 then [mrm 0 f rm] else if d.toInt ≤ 127 then m8 f rm (lo8 d)
      else m32 f rm d) ++ rest) = some (f, at32 rm d, rest) := by
  by_cases e : d = 0
  · rw [if_pos e]
    have := getModRM_mrm 0 f rm (okMode0 ⟨h4, h5 e⟩) rest
    rw [opnd0] at this
    rw [at32, e]
    exact this
  · rw [if_neg e]
    by_cases g : d.toInt ≤ 127
    · rw [if_pos g, ← at8_lo8 _ ⟨hl, g⟩]
      exact getModRM_m8 _ _ _ h4 _
    · rw [if_neg g]
      exact getModRM_m32 _ _ _ h4 _

/-! ## Forms of instructions -/

theorem withRM_of {k : Fin 8 → RM → Instr} {l rest : List Byte} {f : Fin 8} {rm : RM} {i : Instr}
    (h : getModRM l = some (f, rm, rest)) (e : k f rm = i) : withRM k l = some (i, rest) := by
  simp [withRM, h, e]

theorem getModM_of {l rest : List Byte} {f : Fin 8} {m : Mem}
    (h : getModRM l = some (f, .mem m, rest)) : getModM l = some (f, m, rest) := by
  simp [getModM, h]

theorem withM_of {k : Fin 8 → Mem → Instr} {l rest : List Byte} {f : Fin 8} {m : Mem} {i : Instr}
    (h : getModRM l = some (f, .mem m, rest)) (e : k f m = i) : withM k l = some (i, rest) := by
  simp [withM, getModM_of h, e]

theorem group_of {k : Fin 8 → RM → Option Instr} {l rest : List Byte} {f : Fin 8} {rm : RM}
    {i : Instr} (h : getModRM l = some (f, rm, rest)) (e : k f rm = some i) :
    group k l = some (i, rest) := by
  simp [group, h, e]

theorem withImm_of {get : List Byte → Option (BitVec 32 × List Byte)}
    {k : Fin 8 → RM → BitVec 32 → Option Instr} {l l' rest : List Byte} {f : Fin 8} {rm : RM}
    {v : BitVec 32} {i : Instr} (h : getModRM l = some (f, rm, l')) (g : get l' = some (v, rest))
    (e : k f rm v = some i) : withImm get k l = some (i, rest) := by
  simp [withImm, h, g, e]

theorem imm_of {get : List Byte → Option (BitVec 32 × List Byte)} {k : BitVec 32 → Instr}
    {l rest : List Byte} {v : BitVec 32} {i : Instr} (g : get l = some (v, rest)) (e : k v = i) :
    imm get k l = some (i, rest) := by
  simp [imm, g, e]

/-! ## Opcodes -/

theorem dec_01 (l : List Byte) : decode (byte 0x01 :: l) =
    withRM (fun r rm => .alu .add rm r) l := rfl
theorem dec_03 (l : List Byte) : decode (byte 0x03 :: l) = withRM (.aluRev .add) l := rfl
theorem dec_05 (l : List Byte) : decode (byte 0x05 :: l) =
    imm get32 (.aluImm .add (.reg 0)) l := rfl
theorem dec_09 (l : List Byte) : decode (byte 0x09 :: l) =
    withRM (fun r rm => .alu .or rm r) l := rfl
theorem dec_0B (l : List Byte) : decode (byte 0x0B :: l) = withRM (.aluRev .or) l := rfl
theorem dec_0D (l : List Byte) : decode (byte 0x0D :: l) =
    imm get32 (.aluImm .or (.reg 0)) l := rfl
theorem dec_11 (l : List Byte) : decode (byte 0x11 :: l) =
    withRM (fun r rm => .alu .adc rm r) l := rfl
theorem dec_13 (l : List Byte) : decode (byte 0x13 :: l) = withRM (.aluRev .adc) l := rfl
theorem dec_15 (l : List Byte) : decode (byte 0x15 :: l) =
    imm get32 (.aluImm .adc (.reg 0)) l := rfl
theorem dec_19 (l : List Byte) : decode (byte 0x19 :: l) =
    withRM (fun r rm => .alu .sbb rm r) l := rfl
theorem dec_1B (l : List Byte) : decode (byte 0x1B :: l) = withRM (.aluRev .sbb) l := rfl
theorem dec_1D (l : List Byte) : decode (byte 0x1D :: l) =
    imm get32 (.aluImm .sbb (.reg 0)) l := rfl
theorem dec_21 (l : List Byte) : decode (byte 0x21 :: l) =
    withRM (fun r rm => .alu .and rm r) l := rfl
theorem dec_23 (l : List Byte) : decode (byte 0x23 :: l) = withRM (.aluRev .and) l := rfl
theorem dec_25 (l : List Byte) : decode (byte 0x25 :: l) =
    imm get32 (.aluImm .and (.reg 0)) l := rfl
theorem dec_29 (l : List Byte) : decode (byte 0x29 :: l) =
    withRM (fun r rm => .alu .sub rm r) l := rfl
theorem dec_2B (l : List Byte) : decode (byte 0x2B :: l) = withRM (.aluRev .sub) l := rfl
theorem dec_2D (l : List Byte) : decode (byte 0x2D :: l) =
    imm get32 (.aluImm .sub (.reg 0)) l := rfl
theorem dec_31 (l : List Byte) : decode (byte 0x31 :: l) =
    withRM (fun r rm => .alu .xor rm r) l := rfl
theorem dec_33 (l : List Byte) : decode (byte 0x33 :: l) = withRM (.aluRev .xor) l := rfl
theorem dec_35 (l : List Byte) : decode (byte 0x35 :: l) =
    imm get32 (.aluImm .xor (.reg 0)) l := rfl
theorem dec_39 (l : List Byte) : decode (byte 0x39 :: l) =
    withRM (fun r rm => .alu .cmp rm r) l := rfl
theorem dec_3B (l : List Byte) : decode (byte 0x3B :: l) = withRM (.aluRev .cmp) l := rfl
theorem dec_3D (l : List Byte) : decode (byte 0x3D :: l) =
    imm get32 (.aluImm .cmp (.reg 0)) l := rfl
theorem dec_60 (l : List Byte) : decode (byte 0x60 :: l) = some (.pushad, l) := rfl
theorem dec_61 (l : List Byte) : decode (byte 0x61 :: l) = some (.popad, l) := rfl
theorem dec_68 (l : List Byte) : decode (byte 0x68 :: l) = imm get32 .pushImm l := rfl
theorem dec_69 (l : List Byte) : decode (byte 0x69 :: l) =
    withImm get32 (fun r rm v => some (.imul3 r rm v)) l := rfl
theorem dec_6A (l : List Byte) : decode (byte 0x6A :: l) = imm get8 .pushImm l := rfl
theorem dec_6B (l : List Byte) : decode (byte 0x6B :: l) =
    withImm get8 (fun r rm v => some (.imul3 r rm v)) l := rfl
theorem dec_81 (l : List Byte) : decode (byte 0x81 :: l) =
    withImm get32 (fun f rm v => some (.aluImm (aluOf f) rm v)) l := rfl
theorem dec_83 (l : List Byte) : decode (byte 0x83 :: l) =
    withImm get8 (fun f rm v => some (.aluImm (aluOf f) rm v)) l := rfl
theorem dec_84 (l : List Byte) : decode (byte 0x84 :: l) =
    withRM (fun r rm => .test8 rm r) l := rfl
theorem dec_85 (l : List Byte) : decode (byte 0x85 :: l) = withRM (fun r rm => .test rm r) l := rfl
theorem dec_88 (l : List Byte) : decode (byte 0x88 :: l) = withRM (fun r rm => .mov8 rm r) l := rfl
theorem dec_89 (l : List Byte) : decode (byte 0x89 :: l) = withRM (fun r rm => .mov rm r) l := rfl
theorem dec_8A (l : List Byte) : decode (byte 0x8A :: l) = withRM .mov8Rev l := rfl
theorem dec_8B (l : List Byte) : decode (byte 0x8B :: l) = withRM .movRev l := rfl
theorem dec_8D (l : List Byte) : decode (byte 0x8D :: l) = withM .lea l := rfl
theorem dec_A4 (l : List Byte) : decode (byte 0xA4 :: l) = some (.movsb, l) := rfl
theorem dec_A5 (l : List Byte) : decode (byte 0xA5 :: l) = some (.movsd, l) := rfl
theorem dec_A6 (l : List Byte) : decode (byte 0xA6 :: l) = some (.cmpsb, l) := rfl
theorem dec_AB (l : List Byte) : decode (byte 0xAB :: l) = some (.stosd, l) := rfl
theorem dec_C3 (l : List Byte) : decode (byte 0xC3 :: l) = some (.ret, l) := rfl
theorem dec_C7 (l : List Byte) : decode (byte 0xC7 :: l) =
    withImm get32 (fun f rm v => if f = 0 then some (.movImm rm v) else none) l := rfl
theorem dec_CC (l : List Byte) : decode (byte 0xCC :: l) = some (.int3, l) := rfl
theorem dec_D1 (l : List Byte) : decode (byte 0xD1 :: l) =
    group (fun f rm => (shiftOf f).map fun s => .shift (.imm 1) s rm) l := rfl
theorem dec_D3 (l : List Byte) : decode (byte 0xD3 :: l) =
    group (fun f rm => (shiftOf f).map fun s => .shift .cl s rm) l := rfl
theorem dec_D8 (l : List Byte) : decode (byte 0xD8 :: l) = decodeFp 0xD8 l := rfl
theorem dec_D9 (l : List Byte) : decode (byte 0xD9 :: l) = decodeFp 0xD9 l := rfl
theorem dec_DB (l : List Byte) : decode (byte 0xDB :: l) = decodeFp 0xDB l := rfl
theorem dec_DC (l : List Byte) : decode (byte 0xDC :: l) = decodeFp 0xDC l := rfl
theorem dec_DD (l : List Byte) : decode (byte 0xDD :: l) = decodeFp 0xDD l := rfl
theorem dec_DF (l : List Byte) : decode (byte 0xDF :: l) = decodeFp 0xDF l := rfl
theorem dec_E8 (l : List Byte) : decode (byte 0xE8 :: l) = imm get32 .callRel l := rfl
theorem dec_E9 (l : List Byte) : decode (byte 0xE9 :: l) = imm get32 .jmp l := rfl
theorem dec_EB (l : List Byte) : decode (byte 0xEB :: l) = imm get8 .jmp l := rfl
theorem dec_FC (l : List Byte) : decode (byte 0xFC :: l) = some (.cld, l) := rfl
theorem dec_FF (l : List Byte) : decode (byte 0xFF :: l) = group group5 l := rfl
theorem dec_C1 (l : List Byte) : decode (byte 0xC1 :: l) = (match getModRM l with
      | some (f, rm, v :: l) => (shiftOf f).map fun s => (.shift (.imm v) s rm, l)
      | _ => none) := rfl
theorem dec_F7 (l : List Byte) : decode (byte 0xF7 :: l) = (match getModRM l with
      | none => none
      | some (f, rm, l) =>
        if f = 0 then imm get32 (.testImm rm) l else (group3 f rm).map fun i => (i, l)) := rfl
theorem dec_3C (v : Byte) (l : List Byte) : decode (byte 0x3C :: v :: l) =
    some (.cmpAl v, l) := rfl
theorem dec_9BD9 (l : List Byte) : decode (byte 0x9B :: byte 0xD9 :: l) = (match getModM l with
      | some (f, m, l) => if f = 7 then some (.fstcw m, l) else none
      | none => none) := rfl
theorem dec_C2 (a b : Byte) (l : List Byte) : decode (byte 0xC2 :: a :: b :: l)
    = some (.retn (BitVec.ofNat 16 (a.toNat + 256 * b.toNat)), l) := rfl
theorem dec_0FAF (l : List Byte) : decode (byte 0x0F :: byte 0xAF :: l) = withRM .imul2 l := rfl
theorem dec_0FB6 (l : List Byte) : decode (byte 0x0F :: byte 0xB6 :: l) = withRM .movzx8 l := rfl
theorem dec_0FB7 (l : List Byte) : decode (byte 0x0F :: byte 0xB7 :: l) = withRM .movzx16 l := rfl
theorem dec_6689 (l : List Byte) : decode (byte 0x66 :: byte 0x89 :: l) =
    withRM (fun r rm => .mov16 rm r) l := rfl
theorem dec_660FB7 (l : List Byte) : decode (byte 0x66 :: byte 0x0F :: byte 0xB7 :: l) =
    withRM .mov16Rev l := rfl
theorem dec_F3A4 (l : List Byte) : decode (byte 0xF3 :: byte 0xA4 :: l) =
    some (.repMovsb, l) := rfl
theorem dec_F3A5 (l : List Byte) : decode (byte 0xF3 :: byte 0xA5 :: l) =
    some (.repMovsd, l) := rfl
theorem dec_F3A6 (l : List Byte) : decode (byte 0xF3 :: byte 0xA6 :: l) =
    some (.repeCmpsb, l) := rfl
theorem dec_F3AB (l : List Byte) : decode (byte 0xF3 :: byte 0xAB :: l) =
    some (.repStosd, l) := rfl
theorem dec_r40 (r : Reg) (l : List Byte) : decode (byte (0x40 + r.val) :: l) = some (.inc (.reg r), l) := by
  revert r; exact fin8 rfl rfl rfl rfl rfl rfl rfl rfl
theorem dec_r48 (r : Reg) (l : List Byte) : decode (byte (0x48 + r.val) :: l) = some (.dec (.reg r), l) := by
  revert r; exact fin8 rfl rfl rfl rfl rfl rfl rfl rfl
theorem dec_r50 (r : Reg) (l : List Byte) : decode (byte (0x50 + r.val) :: l) = some (.push (.reg r), l) := by
  revert r; exact fin8 rfl rfl rfl rfl rfl rfl rfl rfl
theorem dec_r58 (r : Reg) (l : List Byte) : decode (byte (0x58 + r.val) :: l) = some (.pop r, l) := by
  revert r; exact fin8 rfl rfl rfl rfl rfl rfl rfl rfl
theorem dec_r90 (r : Reg) (l : List Byte) : decode (byte (0x90 + r.val) :: l) = some (.xchgEax r, l) := by
  revert r; exact fin8 rfl rfl rfl rfl rfl rfl rfl rfl
theorem dec_rB8 (r : Reg) (l : List Byte) : decode (byte (0xB8 + r.val) :: l) = imm get32 (.movImm (.reg r)) l := by
  revert r; exact fin8 rfl rfl rfl rfl rfl rfl rfl rfl
theorem dec_c70 (c : Fin 16) (l : List Byte) : decode (byte (0x70 + c.val) :: l) = imm get8 (.jcc c) l := by
  revert c; exact fin16 rfl rfl rfl rfl rfl rfl rfl rfl rfl rfl rfl rfl rfl rfl rfl rfl
theorem dec_c0F40 (c : Fin 16) (l : List Byte) : decode (byte 0x0F :: byte (0x40 + c.val) :: l) = withRM (.cmov c) l := by
  revert c; exact fin16 rfl rfl rfl rfl rfl rfl rfl rfl rfl rfl rfl rfl rfl rfl rfl rfl
theorem dec_c0F80 (c : Fin 16) (l : List Byte) : decode (byte 0x0F :: byte (0x80 + c.val) :: l) = imm get32 (.jcc c) l := by
  revert c; exact fin16 rfl rfl rfl rfl rfl rfl rfl rfl rfl rfl rfl rfl rfl rfl rfl rfl
theorem dec_c0F90 (c : Fin 16) (l : List Byte) : decode (byte 0x0F :: byte (0x90 + c.val) :: l) = group (fun f rm => if f = 0 then some (.setcc c rm) else none) l := by
  revert c; exact fin16 rfl rfl rfl rfl rfl rfl rfl rfl rfl rfl rfl rfl rfl rfl rfl rfl
theorem dec_fpDF (r : Fin 8) (l : List Byte) : decode (byte 0xDF :: byte (0xE8 + r.val) :: l) = some (.fucomip r, l) := by
  revert r; exact fin8 rfl rfl rfl rfl rfl rfl rfl rfl
theorem dec_fpDC (r : Fin 8) (l : List Byte) : decode (byte 0xDC :: byte (0xC0 + r.val) :: l) = some (.faddReg r, l) := by
  revert r; exact fin8 rfl rfl rfl rfl rfl rfl rfl rfl
theorem dec_fpDD (r : Fin 8) (l : List Byte) : decode (byte 0xDD :: byte (0xD8 + r.val) :: l) = some (.fstpReg r, l) := by
  revert r; exact fin8 rfl rfl rfl rfl rfl rfl rfl rfl

theorem c1_of {l rest : List Byte} {f : Fin 8} {rm : RM} {v : Byte} {s : Shift}
    (h : getModRM l = some (f, rm, v :: rest)) (e : shiftOf f = some s) :
    decode (byte 0xC1 :: l) = some (.shift (.imm v) s rm, rest) := by
  rw [dec_C1, h]; simp [e]

theorem f7_of {l rest : List Byte} {f : Fin 8} {rm : RM} {i : Instr}
    (h : getModRM l = some (f, rm, rest)) (h0 : f ≠ 0) (e : group3 f rm = some i) :
    decode (byte 0xF7 :: l) = some (i, rest) := by
  rw [dec_F7, h]; simp [h0, e]

theorem f7imm_of {l rest : List Byte} {rm : RM} {v : BitVec 32}
    (h : getModRM l = some (0, rm, bytes32 v ++ rest)) :
    decode (byte 0xF7 :: l) = some (.testImm rm v, rest) := by
  rw [dec_F7, h]
  exact imm_of (get32_bytes32 _ _) rfl

theorem fstcw_of {l rest : List Byte} {m : Mem} (h : getModRM l = some (7, .mem m, rest)) :
    decode (byte 0x9B :: byte 0xD9 :: l) = some (.fstcw m, rest) := by
  rw [dec_9BD9, getModM_of h]
  rfl

end Verif.Jit32
