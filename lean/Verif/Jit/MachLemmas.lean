import Verif.Jit.Machine
import Verif.Jit.AsmProps
/-
Helper lemmas about the machine: memory, addresses, running a piece of generated code.
-/
namespace Verif.Jit

/-! ## Memory -/

theorem add_sub_self (a b : W) : a + b - a = b := by
  rw [BitVec.add_comm, BitVec.add_sub_cancel]

theorem rd_wr_same (m : Memory) (a v : W) : rd (wr m a v) a = v := by
  unfold rd wr
  simp only [add_sub_self, BitVec.sub_self]
  apply BitVec.eq_of_toNat_eq
  have := v.isLt
  simp [BitVec.extractLsb'_toNat, Nat.shiftRight_eq_div_pow]
  omega

/-- The ranges of eight bytes at `a` and at `b` do not meet. -/
def Apart (a b : W) : Prop := 8 ≤ (b - a).toNat ∧ (b - a).toNat ≤ 2 ^ 64 - 8

theorem rd_congr {m m' : Memory} {b : W} (h : ∀ i : Nat, i < 8 → m (b + BitVec.ofNat 64 i) = m' (b + BitVec.ofNat 64 i)) :
    rd m b = rd m' b := by
  unfold rd
  have h0 := h 0 (by omega)
  have h1 := h 1 (by omega)
  have h2 := h 2 (by omega)
  have h3 := h 3 (by omega)
  have h4 := h 4 (by omega)
  have h5 := h 5 (by omega)
  have h6 := h 6 (by omega)
  have h7 := h 7 (by omega)
  simp only [BitVec.ofNat_eq_ofNat, BitVec.add_zero] at *
  rw [h0, h1, h2, h3, h4, h5, h6, h7]

theorem rd_wr_apart (m : Memory) (a b v : W) (h : Apart a b) : rd (wr m a v) b = rd m b := by
  apply rd_congr
  intro i hi
  unfold wr
  rw [if_neg]
  unfold Apart at h
  rw [show b + BitVec.ofNat 64 i - a = (b - a) + BitVec.ofNat 64 i from by
    rw [BitVec.sub_eq_add_neg, BitVec.sub_eq_add_neg, BitVec.add_assoc, BitVec.add_assoc,
      BitVec.add_comm (BitVec.ofNat 64 i)]]
  rw [BitVec.toNat_add, BitVec.toNat_ofNat]
  omega

/-- A constant. -/
def c64 (k : Int) : W := BitVec.ofInt 64 k

/-- The address `k` bytes from `F`. -/
def off (F : W) (k : Int) : W := F + c64 k

theorem off_zero (F : W) : off F 0 = F := by simp [off, c64]

theorem off_add (F : W) (a b : Int) : off F a + c64 b = off F (a + b) := by
  unfold off c64
  rw [BitVec.add_assoc, BitVec.ofInt_add]

theorem off_sub (F : W) (a b : Int) : off F a - c64 b = off F (a - b) := by
  rw [Int.sub_eq_add_neg, ← off_add, c64, c64, BitVec.ofInt_neg, BitVec.sub_eq_add_neg]

theorem off_off (F : W) (a b : Int) : off (off F a) b = off F (a + b) := off_add F a b

theorem add_c64 (F : W) (b : Int) : F + c64 b = off F b := rfl

theorem sub_c64 (F : W) (b : Int) : F - c64 b = off F (-b) := by
  rw [off, c64, c64, BitVec.ofInt_neg, BitVec.sub_eq_add_neg]

theorem off_sub_off (F : W) (a b : Int) : off F b - off F a = c64 (b - a) := by
  unfold off c64
  rw [Int.sub_eq_add_neg, BitVec.ofInt_add, BitVec.ofInt_neg]
  rw [BitVec.sub_eq_add_neg, BitVec.neg_add]
  rw [BitVec.add_comm F, BitVec.add_assoc, BitVec.sub_eq_add_neg, ← BitVec.add_assoc F,
    BitVec.add_right_neg, BitVec.zero_add]

theorem off_apart (F : W) {a b : Int} (h : a + 8 ≤ b ∨ b + 8 ≤ a) (hr : b - a < 2 ^ 62 ∧ a - b < 2 ^ 62) :
    Apart (off F a) (off F b) := by
  unfold Apart
  rw [off_sub_off, c64, BitVec.toNat_ofInt]
  omega

theorem rd_wr_off (m : Memory) (F v : W) {a b : Int} (h : a + 8 ≤ b ∨ b + 8 ≤ a)
    (hr : b - a < 2 ^ 62 ∧ a - b < 2 ^ 62) :
    rd (wr m (off F a) v) (off F b) = rd m (off F b) :=
  rd_wr_apart _ _ _ _ (off_apart F h hr)

theorem rd_wr_off_eq (m : Memory) (F v : W) {a b : Int} (h : a = b) :
    rd (wr m (off F a) v) (off F b) = v := by
  rw [h, rd_wr_same]

theorem wr_off_far (m : Memory) (F v : W) {a b : Int} (h : a + 8 ≤ b ∨ b + 1 ≤ a)
    (hr : b - a < 2 ^ 62 ∧ a - b < 2 ^ 62) :
    wr m (off F a) v (off F b) = m (off F b) := by
  unfold wr
  rw [if_neg]
  rw [off_sub_off, c64, BitVec.toNat_ofInt]
  omega

theorem off_inj (F : W) {a b : Int} (hr : b - a < 2 ^ 62 ∧ a - b < 2 ^ 62) (h : off F a = off F b) :
    a = b := by
  have := off_sub_off F a b
  rw [h, BitVec.sub_self] at this
  have := congrArg BitVec.toNat this
  rw [c64, BitVec.toNat_ofInt] at this
  simp at this
  omega

theorem sx_i32 (k : Int) (h : -2 ^ 31 ≤ k ∧ k < 2 ^ 31) : sx (i32 k) = c64 k := by
  unfold sx i32 c64
  apply BitVec.eq_of_toInt_eq
  rw [BitVec.toInt_signExtend, BitVec.toInt_ofInt, BitVec.toInt_ofInt]
  rw [show min 64 32 = 32 from rfl]
  simp only [Int.bmod_def]
  omega

theorem off_bytes (F : W) (k : Int) (i : Nat) : off F k + BitVec.ofNat 64 i = off F (k + i) := by
  rw [← off_add]
  rfl

/-- Access to eight bytes in a range of accessible ones. -/
theorem okAt_off {acc : W → Bool} {F : W} {lo hi : Int}
    (h : ∀ k, lo ≤ k → k < hi → acc (off F k) = true) {k : Int} (h1 : lo ≤ k) (h2 : k + 8 ≤ hi) :
    okAt acc (off F k) = true := by
  have e : ∀ i : Nat, i < 8 → acc (off F k + BitVec.ofNat 64 i) = true := fun i hi => by
    rw [off_bytes]; exact h _ (by omega) (by omega)
  unfold okAt
  have h0 := h k (by omega) (by omega)
  have h1 := e 1 (by omega)
  have h2 := e 2 (by omega)
  have h3 := e 3 (by omega)
  have h4 := e 4 (by omega)
  have h5 := e 5 (by omega)
  have h6 := e 6 (by omega)
  have h7 := e 7 (by omega)
  simp only [BitVec.ofNat_eq_ofNat] at *
  simp [h0, h1, h2, h3, h4, h5, h6, h7]

theorem okRange_off {acc : W → Bool} {F : W} {lo hi : Int}
    (h : ∀ k, lo ≤ k → k < hi → acc (off F k) = true) {k : Int} {n : Nat} (h1 : lo ≤ k)
    (h2 : k + n ≤ hi) : okRange acc (off F k) n = true := by
  unfold okRange
  rw [List.all_eq_true]
  intro i hi'
  rw [List.mem_range] at hi'
  rw [off_bytes]
  exact h _ (by omega) (by omega)

/-- Memory kept by a call. -/
theorem rd_after {keep : W → Bool} {s : Mach} {a : Ans} {F : W} {k : Int}
    (h : ∀ j, k ≤ j → j < k + 8 → keep (off F j) = true) :
    rd (after keep s a).mem (off F k) = rd s.mem (off F k) := by
  apply rd_congr
  intro i hi
  rw [off_bytes]
  simp only [after, h (k + i) (by omega) (by omega), if_true]

/-! ## Registers -/

@[simp] theorem set_reg (s : Mach) (r x : Reg) (v : W) :
    (s.set r v).reg x = if x = r then v else s.reg x := rfl
@[simp] theorem set_mem (s : Mach) (r : Reg) (v : W) : (s.set r v).mem = s.mem := rfl
@[simp] theorem set_xmm (s : Mach) (r : Reg) (v : W) : (s.set r v).xmm = s.xmm := rfl
@[simp] theorem setX_reg (s : Mach) (r : XReg) (v : W) : (s.setX r v).reg = s.reg := rfl
@[simp] theorem setX_mem (s : Mach) (r : XReg) (v : W) : (s.setX r v).mem = s.mem := rfl
@[simp] theorem setX_xmm (s : Mach) (r x : XReg) (v : W) :
    (s.setX r v).xmm x = if x = r then v else s.xmm x := rfl
@[simp] theorem subFlags_reg (s : Mach) (x y : W) : (s.subFlags x y).reg = s.reg := rfl
@[simp] theorem subFlags_mem (s : Mach) (x y : W) : (s.subFlags x y).mem = s.mem := rfl
@[simp] theorem subFlags_xmm (s : Mach) (x y : W) : (s.subFlags x y).xmm = s.xmm := rfl
@[simp] theorem addFlags_reg (s : Mach) (x y : W) : (s.addFlags x y).reg = s.reg := rfl
@[simp] theorem addFlags_mem (s : Mach) (x y : W) : (s.addFlags x y).mem = s.mem := rfl
@[simp] theorem addFlags_xmm (s : Mach) (x y : W) : (s.addFlags x y).xmm = s.xmm := rfl
@[simp] theorem logFlags_reg (s : Mach) (x : W) : (s.logFlags x).reg = s.reg := rfl
@[simp] theorem logFlags_mem (s : Mach) (x : W) : (s.logFlags x).mem = s.mem := rfl
@[simp] theorem logFlags_xmm (s : Mach) (x : W) : (s.logFlags x).xmm = s.xmm := rfl

theorem preserved_cases : ∀ r : Reg, preserved r = true →
    r = 3 ∨ r = 4 ∨ r = 5 ∨ r = 6 ∨ r = 7 ∨ r = 12 ∨ r = 13 ∨ r = 14 ∨ r = 15 := by decide

/-- The two states agree in the registers a function has to preserve, the stack pointer aside. -/
def Same (s s' : Mach) : Prop := ∀ r, preserved r = true → r ≠ 4 → s'.reg r = s.reg r

theorem Same.refl (s : Mach) : Same s s := fun _ _ _ => rfl

theorem Same.trans {a b c : Mach} (h : Same a b) (h' : Same b c) : Same a c :=
  fun r hr h4 => (h' r hr h4).trans (h r hr h4)

theorem same_of {s s' : Mach} (h3 : s'.reg 3 = s.reg 3) (h5 : s'.reg 5 = s.reg 5)
    (h6 : s'.reg 6 = s.reg 6) (h7 : s'.reg 7 = s.reg 7) (hc : s'.reg 12 = s.reg 12)
    (hd : s'.reg 13 = s.reg 13) (he : s'.reg 14 = s.reg 14) (hf : s'.reg 15 = s.reg 15) :
    Same s s' := by
  intro r hr h4
  rcases preserved_cases r hr with h | h | h | h | h | h | h | h | h
  all_goals first | exact absurd h h4 | (subst h; assumption)

theorem same_after (keep : W → Bool) (s : Mach) (a : Ans) : Same s (after keep s a) := by
  intro r hr _
  simp [after, hr]

/-! ## Flags -/

theorem holds_e_sub (s : Mach) (x y : W) : holds (s.subFlags x y) .e = decide (x = y) := by
  simp only [holds, Mach.subFlags, Mach.flags]
  by_cases h : x = y
  · subst h; simp
  · have : x - y ≠ 0 := fun h' => h (by
      have := congrArg (· + y) h'
      simpa [BitVec.sub_add_cancel] using this)
    simp only [h, decide_false, beq_eq_false_iff_ne]
    exact this

theorem holds_l_sub (s : Mach) (x y : W) :
    holds (s.subFlags x y) .l = decide (x.toInt < y.toInt) := by
  simp only [holds, Mach.subFlags, Mach.flags]
  rw [BitVec.msb_eq_toInt, BitVec.toInt_sub]
  have hx := BitVec.toInt_lt (x := x)
  have hx' := BitVec.le_toInt (x := x)
  have hy := BitVec.toInt_lt (x := y)
  have hy' := BitVec.le_toInt (x := y)
  rw [Int.bmod_def]
  by_cases h1 : x.toInt - y.toInt < -2 ^ 63
  · simp only [h1, decide_true, Bool.true_or, Bool.bne_true, Bool.not_eq_eq_eq_not]
    rw [Bool.eq_iff_iff]; simp only [decide_eq_true_eq, Bool.not_eq_true', decide_eq_false_iff_not]; omega
  · by_cases h2 : 2 ^ 63 ≤ x.toInt - y.toInt
    · simp only [h1, h2, decide_true, decide_false, Bool.or_true, Bool.bne_true]
      rw [Bool.eq_iff_iff]; simp only [decide_eq_true_eq, Bool.not_eq_true', decide_eq_false_iff_not]; omega
    · simp only [h1, h2, decide_false, Bool.or_false, Bool.bne_false]
      rw [Bool.eq_iff_iff]; simp only [decide_eq_true_eq]; omega

theorem holds_ge_sub (s : Mach) (x y : W) :
    holds (s.subFlags x y) .ge = decide (y.toInt ≤ x.toInt) := by
  have := holds_l_sub s x y
  have h : holds (s.subFlags x y) .ge = !holds (s.subFlags x y) .l := by
    simp only [holds, bne, Bool.not_not]
  rw [h, this, Bool.eq_iff_iff]
  simp

theorem holds_g_sub (s : Mach) (x y : W) :
    holds (s.subFlags x y) .g = decide (y.toInt < x.toInt) := by
  have h : holds (s.subFlags x y) .g
      = (!holds (s.subFlags x y) .e && holds (s.subFlags x y) .ge) := rfl
  rw [h, holds_e_sub, holds_ge_sub, Bool.eq_iff_iff]
  simp only [Bool.and_eq_true, Bool.not_eq_true', decide_eq_false_iff_not, decide_eq_true_eq,
    ← BitVec.toInt_inj]
  omega

theorem holds_e_log (s : Mach) (v : W) : holds (s.logFlags v) .e = decide (v = 0) := by
  simp only [holds, Mach.logFlags, Mach.flags]
  rfl

/-! ## Running generated code -/

/-- The calls `ops` of the writer lie at position `pc` of the code. -/
def At (code : List Byte) (pc : Nat) (ops : List Op) : Prop :=
  ∃ pre post, code = pre ++ (ops.flatMap Op.bytes ++ post) ∧ pre.length = pc

/-- The number of bytes of a sequence of calls. -/
def size (ops : List Op) : Nat := (ops.flatMap Op.bytes).length

theorem size_append (a b : List Op) : size (a ++ b) = size a + size b := by
  simp [size]

theorem size_cons (a : Op) (b : List Op) : size (a :: b) = a.bytes.length + size b := by
  simp [size]

theorem At.left {code : List Byte} {pc : Nat} {a b : List Op} (h : At code pc (a ++ b)) :
    At code pc a := by
  obtain ⟨pre, post, h, hp⟩ := h
  exact ⟨pre, b.flatMap Op.bytes ++ post, by simpa using h, hp⟩

theorem At.right {code : List Byte} {pc : Nat} {a b : List Op} (h : At code pc (a ++ b)) :
    At code (pc + size a) b := by
  obtain ⟨pre, post, h, hp⟩ := h
  exact ⟨pre ++ a.flatMap Op.bytes, post, by simpa using h, by simp [size, hp]⟩

theorem At.tail {code : List Byte} {pc : Nat} {a : Op} {b : List Op} (h : At code pc (a :: b)) :
    At code (pc + a.bytes.length) b := by
  have := At.right (a := [a]) (b := b) h
  simpa [size] using this

theorem At.decode {code : List Byte} {pc : Nat} {a : Op} {b : List Op} (h : At code pc (a :: b)) :
    ∃ rest, decode (code.drop pc) = some (a.instr, rest) ∧
      code.length - rest.length = pc + a.bytes.length := by
  obtain ⟨pre, post, h, hp⟩ := h
  refine ⟨b.flatMap Op.bytes ++ post, ?_, ?_⟩
  · rw [h, ← hp, List.drop_left]
    simp only [List.flatMap_cons, List.append_assoc]
    exact roundTrip a _
  · rw [h]
    simp only [List.flatMap_cons, List.append_assoc, List.length_append]
    omega

/-- Does the instruction leave the control flow alone? -/
def straight : Instr → Bool
  | .call _ | .jmpInd _ | .jmp _ | .jcc _ _ | .ret | .int3 => false
  | _ => true

theorem exec_straight {acc : W → Bool} {s s' : Mach} {i : Instr} (h : exec acc s i = some s') :
    straight i = true := by
  cases i <;> first | rfl | (simp [exec] at h)

/-- The effect of a straight sequence of calls. -/
def execs (acc : W → Bool) (s : Mach) : List Op → Option Mach
  | [] => some s
  | a :: ops => (exec acc s a.instr).bind fun s => execs acc s ops

theorem execs_append (acc : W → Bool) (a b : List Op) (s : Mach) :
    execs acc s (a ++ b) = (execs acc s a).bind fun s => execs acc s b := by
  induction a generalizing s with
  | nil => rfl
  | cons x a ih =>
    simp only [List.cons_append, execs]
    cases exec acc s x.instr with
    | none => rfl
    | some s' => exact ih s'

theorem Steps.trans {acc keep : W → Bool} {code : List Byte} {a b c : Conf} {t u : List Event}
    (h : Steps acc keep code a t b) (h' : Steps acc keep code b u c) :
    Steps acc keep code a (t ++ u) c := by
  induction h with
  | refl => exact h'
  | go e _ ih => exact .go e (ih h')
  | call e _ ih => exact .call e (ih h')

theorem step_decode {acc : W → Bool} {code rest : List Byte} {pc : Nat} {i : Instr}
    (h : Jit.decode (code.drop pc) = some (i, rest)) (s : Mach) :
    step acc code pc s = stepI acc (code.length - rest.length) s i := by
  unfold step
  rw [h]

theorem stepI_exec {acc : W → Bool} {s s' : Mach} {i : Instr} (e : exec acc s i = some s')
    (n : Nat) : stepI acc n s i = .go n s' := by
  have hs := exec_straight e
  have h : ∀ o : Option Mach, o = some s' →
      (match o with | none => Ctl.fault | some s' => Ctl.go n s') = .go n s' := by
    intro o ho; rw [ho]
  cases i <;> first | (exact h _ e) | (cases hs)

theorem step_straight {acc : W → Bool} {code : List Byte} {pc : Nat} {a : Op} {b : List Op}
    (h : At code pc (a :: b)) {s s' : Mach} (e : exec acc s a.instr = some s') :
    step acc code pc s = .go (pc + a.bytes.length) s' := by
  obtain ⟨rest, h1, h2⟩ := h.decode
  rw [step_decode h1, h2, stepI_exec e]

/-- A straight piece runs through. -/
theorem steps_straight {acc keep : W → Bool} {code : List Byte} {ans : List Ans} (ops : List Op)
    {pc : Nat} (h : At code pc ops) {s s' : Mach} (e : execs acc s ops = some s') :
    Steps acc keep code ⟨pc, s, ans⟩ [] ⟨pc + size ops, s', ans⟩ := by
  induction ops generalizing pc s with
  | nil =>
    cases e
    exact .refl _
  | cons a ops ih =>
    simp only [execs] at e
    cases hx : exec acc s a.instr with
    | none => rw [hx] at e; cases e
    | some s₁ =>
      rw [hx] at e
      refine .go (step_straight h hx) ?_
      have := ih h.tail e
      rw [size_cons]
      rwa [Nat.add_assoc] at this

/-- A call. -/
theorem step_call {acc : W → Bool} {code : List Byte} {pc : Nat} {r : Reg} {b : List Op}
    (h : At code pc (.call r :: b)) (s : Mach) :
    step acc code pc s = .call (s.reg r) (pc + (Op.call r).bytes.length) := by
  obtain ⟨rest, h1, h2⟩ := h.decode
  rw [step_decode h1, h2]
  rfl

theorem steps_call {acc keep : W → Bool} {code : List Byte} {ans : List Ans} {a : Ans} {pc : Nat}
    {r : Reg} {b : List Op} (h : At code pc (.call r :: b)) (s : Mach) :
    Steps acc keep code ⟨pc, s, a :: ans⟩ [⟨s.reg r, s⟩]
      ⟨pc + (Op.call r).bytes.length, after keep s a, ans⟩ :=
  .call (step_call h s) (.refl _)

/-- The instruction is a conditional jump. -/
theorem step_jcc {acc : W → Bool} {code : List Byte} {pc : Nat} {o : Op} {b : List Op}
    (h : At code pc (o :: b)) {c : Cond} {d : BitVec 32} (ho : o.instr = .jcc c d) (s : Mach) :
    step acc code pc s = if holds s c then jumpTo (pc + o.bytes.length) d s
      else .go (pc + o.bytes.length) s := by
  obtain ⟨rest, h1, h2⟩ := h.decode
  rw [step_decode h1, ho, h2]
  rfl

theorem step_jmp {acc : W → Bool} {code : List Byte} {pc : Nat} {d : BitVec 32} {b : List Op}
    (h : At code pc (.jump d :: b)) (s : Mach) :
    step acc code pc s = jumpTo (pc + (Op.jump d).bytes.length) d s := by
  obtain ⟨rest, h1, h2⟩ := h.decode
  rw [step_decode h1, h2]
  rfl

theorem step_ret {acc : W → Bool} {code : List Byte} {pc : Nat} {b : List Op}
    (h : At code pc (.retn :: b)) {s : Mach} (hs : okAt acc (s.reg 4) = true) :
    step acc code pc s = .ret (rd s.mem (s.reg 4)) (s.set 4 (s.reg 4 + 8)) := by
  obtain ⟨rest, h1, h2⟩ := h.decode
  rw [step_decode h1]
  exact if_pos hs

theorem jumpTo_i32 (pc : Nat) (k : Int) (s : Mach) (h : -2 ^ 31 ≤ k ∧ k < 2 ^ 31)
    (h0 : 0 ≤ (pc : Int) + k) : jumpTo pc (i32 k) s = .go ((pc : Int) + k).toNat s := by
  unfold jumpTo
  have : (i32 k).toInt = k := by
    rw [i32, BitVec.toInt_ofInt, Int.bmod_def]; omega
  rw [this, if_pos h0]

/-! ## Lengths -/

theorem rexB_length (r : Reg) : (rexB r).length ≤ 1 := by
  unfold rexB; split <;> simp

theorem write_length (m : RegRm) (f : Nat) : (m.write f).length ≤ 6 := by
  unfold RegRm.write
  simp only [List.length_cons, List.length_append]
  split <;> split <;> (try split) <;> (try split) <;> simp [bytes32]

theorem bytes_length (o : Op) : o.bytes.length ≤ 15 := by
  have hr := rexB_length
  have hw := write_length
  cases o with
  | call r => have := hr r; simp [Op.bytes, Enc.call]; omega
  | jumpReg r => have := hr r; simp [Op.bytes, Enc.jumpReg]; omega
  | push r => have := hr r; simp [Op.bytes, Enc.push]; omega
  | pop r => have := hr r; simp [Op.bytes, Enc.pop]; omega
  | pushImm v => simp only [Op.bytes, Enc.pushImm]; split <;> simp [bytes32]
  | store m r => have := hw m r; simp [Op.bytes, Enc.store]; omega
  | load r m => have := hw m r; simp [Op.bytes, Enc.load]; omega
  | movImm d i => have := hr d; simp [Op.bytes, Enc.movImm, bytes32]; omega
  | storeImm m i => have := hw m 0; simp [Op.bytes, Enc.storeImm, bytes32]; omega
  | movImm64 d i =>
    have := hr d
    simp only [Op.bytes, Enc.movImm64]
    split
    · simp [Enc.movImm, bytes32]; omega
    · simp [bytes64]
  | movsdLoad x m => have := hw m x; simp [Op.bytes, Enc.movsdLoad]; omega
  | movsdStore m x =>
    have := hw m x
    simp only [Op.bytes, Enc.movsdStore]
    split <;> simp <;> omega
  | cmovneMem r m => have := hw m r; simp [Op.bytes, Enc.cmovneMem]; omega
  | cmovgeMem r m => have := hw m r; simp [Op.bytes, Enc.cmovgeMem]; omega
  | cmovgMem r m => have := hw m r; simp [Op.bytes, Enc.cmovgMem]; omega
  | lea r m => have := hw m r; simp [Op.bytes, Enc.lea]; omega
  | cmpMem r m => have := hw m r; simp [Op.bytes, Enc.cmpMem]; omega
  | cmpStore m r => have := hw m r; simp [Op.bytes, Enc.cmpStore]; omega
  | _ => simp [Op.bytes, Enc.breakpoint, Enc.repMovsBytes, Enc.jump, Enc.jz, Enc.jl, Enc.jle,
      Enc.je, Enc.jne, Enc.mov, Enc.add, Enc.addImm, Enc.sub, Enc.subImm, Enc.xor, Enc.test,
      Enc.testImm, Enc.cmovne, Enc.cmovge, Enc.cmovg, Enc.cmp, Enc.cmpImm, Enc.retn, bytes32]

theorem size_le (ops : List Op) : size ops ≤ 15 * ops.length := by
  induction ops with
  | nil => simp [size]
  | cons a l ih =>
    have := bytes_length a
    rw [size_cons, List.length_cons]
    omega

/-! ## Forward jumps -/

/-- A conditional jump over `skip`, taken. -/
theorem steps_skip {acc keep : W → Bool} {code : List Byte} {pc : Nat} {o : Op}
    {skip rest : List Op} (h : At code pc (o :: (skip ++ rest))) {c : Cond}
    (ho : o.instr = .jcc c (i32 (size skip))) (hl : skip.length < 2 ^ 27) {s : Mach}
    (hs : holds s c = true) (ans : List Ans) :
    Steps acc keep code ⟨pc, s, ans⟩ [] ⟨pc + o.bytes.length + size skip, s, ans⟩ := by
  refine .go ?_ (.refl _)
  have := size_le skip
  rw [step_jcc h ho, hs, if_pos rfl, jumpTo_i32 _ _ _ (by omega) (by omega)]
  congr 1

/-- A conditional jump not taken. -/
theorem steps_fall {acc keep : W → Bool} {code : List Byte} {pc : Nat} {o : Op}
    {rest : List Op} (h : At code pc (o :: rest)) {c : Cond} {d : BitVec 32}
    (ho : o.instr = .jcc c d) {s : Mach} (hs : holds s c = false) (ans : List Ans) :
    Steps acc keep code ⟨pc, s, ans⟩ [] ⟨pc + o.bytes.length, s, ans⟩ := by
  refine .go ?_ (.refl _)
  rw [step_jcc h ho, hs]
  simp

end Verif.Jit
