import Verif.Jit32.Machine
import Verif.Jit32.AsmProps
/-
Helper lemmas about the 32-bit machine: memory, addresses, running a piece of generated code.
-/
namespace Verif.Jit32

open Verif.Jit (Byte byte bytes32)

variable {U : Fpu}

/-! ## Memory -/

theorem add_sub_self (a b : W) : a + b - a = b := by
  rw [BitVec.add_comm, BitVec.add_sub_cancel]

theorem rd_wr_same (m : Memory) (a v : W) : rd (wr m a v) a = v := by
  unfold rd wr
  simp only [add_sub_self, BitVec.sub_self]
  apply BitVec.eq_of_toNat_eq
  have := v.isLt
  simp [BitVec.extractLsb'_toNat, Nat.shiftRight_eq_div_pow]
  omega

theorem rd_congr {m m' : Memory} {b : W}
    (h : ∀ i : Nat, i < 4 → m (b + BitVec.ofNat 32 i) = m' (b + BitVec.ofNat 32 i)) :
    rd m b = rd m' b := by
  unfold rd
  have h0 := h 0 (by omega)
  have h1 := h 1 (by omega)
  have h2 := h 2 (by omega)
  have h3 := h 3 (by omega)
  simp only [BitVec.ofNat_eq_ofNat, BitVec.add_zero] at *
  rw [h0, h1, h2, h3]

/-- The address `k` bytes from `F`. -/
def off (F : W) (k : Int) : W := F + i32 k

theorem off_zero (F : W) : off F 0 = F := by simp [off, i32]

theorem off_add (F : W) (a b : Int) : off F a + i32 b = off F (a + b) := by
  unfold off i32
  rw [BitVec.add_assoc, BitVec.ofInt_add]

theorem off_sub (F : W) (a b : Int) : off F a - i32 b = off F (a - b) := by
  rw [Int.sub_eq_add_neg, ← off_add, i32, i32, BitVec.ofInt_neg, BitVec.sub_eq_add_neg]

theorem off_off (F : W) (a b : Int) : off (off F a) b = off F (a + b) := off_add F a b

theorem add_i32 (F : W) (b : Int) : F + i32 b = off F b := rfl

theorem sub_i32 (F : W) (b : Int) : F - i32 b = off F (-b) := by
  rw [off, i32, i32, BitVec.ofInt_neg, BitVec.sub_eq_add_neg]

theorem off_sub_off (F : W) (a b : Int) : off F b - off F a = i32 (b - a) := by
  unfold off i32
  rw [Int.sub_eq_add_neg, BitVec.ofInt_add, BitVec.ofInt_neg]
  rw [BitVec.sub_eq_add_neg, BitVec.neg_add]
  rw [BitVec.add_comm F, BitVec.add_assoc, BitVec.sub_eq_add_neg, ← BitVec.add_assoc F,
    BitVec.add_right_neg, BitVec.zero_add]

theorem i32_toNat (k : Int) : ((i32 k).toNat : Int) = k % 2 ^ 32 := by
  rw [i32, BitVec.toNat_ofInt]
  omega

/-- `b` does not lie in the `n` bytes from `a`. -/
theorem far_toNat {a b : Int} {n : Nat} (h : a + n ≤ b ∨ b + 1 ≤ a)
    (hr : b - a < 2 ^ 31 ∧ a - b ≤ 2 ^ 32 - n) : ¬ (i32 (b - a)).toNat < n := by
  have := i32_toNat (b - a)
  omega

theorem wr_off_far (m : Memory) (F v : W) {a b : Int} (h : a + 4 ≤ b ∨ b + 1 ≤ a)
    (hr : b - a < 2 ^ 30 ∧ a - b < 2 ^ 30) :
    wr m (off F a) v (off F b) = m (off F b) := by
  unfold wr
  rw [if_neg]
  rw [off_sub_off]
  exact far_toNat (by omega) (by omega)

theorem wr8_off_far (m : Memory) (F : W) (v : Byte) {a b : Int} (h : a ≠ b)
    (hr : b - a < 2 ^ 30 ∧ a - b < 2 ^ 30) :
    wr8 m (off F a) v (off F b) = m (off F b) := by
  unfold wr8
  rw [if_neg]
  intro h'
  have := off_sub_off F a b
  rw [h', BitVec.sub_self] at this
  have := congrArg BitVec.toNat this
  have h2 := i32_toNat (b - a)
  rw [← this] at h2
  simp at h2
  omega

theorem off_bytes (F : W) (k : Int) (i : Nat) : off F k + BitVec.ofNat 32 i = off F (k + i) := by
  rw [← off_add]
  rfl

theorem rd_wr_off (m : Memory) (F v : W) {a b : Int} (h : a + 4 ≤ b ∨ b + 4 ≤ a)
    (hr : b - a < 2 ^ 29 ∧ a - b < 2 ^ 29) :
    rd (wr m (off F a) v) (off F b) = rd m (off F b) := by
  apply rd_congr
  intro i hi
  rw [off_bytes]
  exact wr_off_far m F v (by omega) (by omega)

theorem rd_wr_off_eq (m : Memory) (F v : W) {a b : Int} (h : a = b) :
    rd (wr m (off F a) v) (off F b) = v := by
  rw [h, rd_wr_same]

theorem off_inj (F : W) {a b : Int} (hr : b - a < 2 ^ 30 ∧ a - b < 2 ^ 30) (h : off F a = off F b) :
    a = b := by
  have := off_sub_off F a b
  rw [h, BitVec.sub_self] at this
  have := congrArg BitVec.toNat this
  have h2 := i32_toNat (b - a)
  rw [← this] at h2
  simp at h2
  omega

theorem i32_toInt (k : Int) (h : -2 ^ 31 ≤ k ∧ k < 2 ^ 31) : (i32 k).toInt = k := by
  rw [i32, BitVec.toInt_ofInt, Int.bmod_def]
  omega

theorem sx8_i8 (k : Int) (h : -128 ≤ k ∧ k < 128) : sx8 (i8 k) = i32 k := by
  unfold sx8 i8 i32
  apply BitVec.eq_of_toInt_eq
  rw [BitVec.toInt_signExtend, BitVec.toInt_ofInt, BitVec.toInt_ofInt]
  rw [show min 32 8 = 8 from rfl]
  simp only [Int.bmod_def]
  omega

theorem i32_zero : i32 0 = 0 := rfl
theorem i32_four : (4 : W) = i32 4 := rfl
theorem off_sub4 (F : W) (k : Int) : off F k - 4 = off F (k - 4) := by rw [i32_four, off_sub]
theorem off_add4 (F : W) (k : Int) : off F k + 4 = off F (k + 4) := by rw [i32_four, off_add]

theorem okN_off {acc : W → Bool} {F : W} {lo hi : Int}
    (h : ∀ k, lo ≤ k → k < hi → acc (off F k) = true) {k : Int} {n : Nat} (h1 : lo ≤ k)
    (h2 : k + n ≤ hi) : okN acc (off F k) n = true := by
  unfold okN
  rw [List.all_eq_true]
  intro i hi'
  rw [List.mem_range] at hi'
  rw [off_bytes]
  exact h _ (by omega) (by omega)

theorem okN_iff {acc : W → Bool} {a : W} {n : Nat} :
    okN acc a n = true ↔ ∀ i < n, acc (a + BitVec.ofNat 32 i) = true := by
  simp [okN, List.all_eq_true]

/-! ## Registers -/

@[simp] theorem set_reg (s : Mach U) (r x : Reg) (v : W) :
    (s.set r v).reg x = if x = r then v else s.reg x := rfl
@[simp] theorem set_mem (s : Mach U) (r : Reg) (v : W) : (s.set r v).mem = s.mem := rfl
@[simp] theorem set_fpu (s : Mach U) (r : Reg) (v : W) : (s.set r v).fpu = s.fpu := rfl
@[simp] theorem flags_reg (s : Mach U) (x y z : Bool) : (s.flags x y z).reg = s.reg := rfl
@[simp] theorem flags_mem (s : Mach U) (x y z : Bool) : (s.flags x y z).mem = s.mem := rfl
@[simp] theorem flags_fpu (s : Mach U) (x y z : Bool) : (s.flags x y z).fpu = s.fpu := rfl
@[simp] theorem subFlags_reg (s : Mach U) (x y : W) : (s.subFlags x y).reg = s.reg := rfl
@[simp] theorem subFlags_mem (s : Mach U) (x y : W) : (s.subFlags x y).mem = s.mem := rfl
@[simp] theorem subFlags_fpu (s : Mach U) (x y : W) : (s.subFlags x y).fpu = s.fpu := rfl
@[simp] theorem addFlags_reg (s : Mach U) (x y : W) : (s.addFlags x y).reg = s.reg := rfl
@[simp] theorem addFlags_mem (s : Mach U) (x y : W) : (s.addFlags x y).mem = s.mem := rfl
@[simp] theorem addFlags_fpu (s : Mach U) (x y : W) : (s.addFlags x y).fpu = s.fpu := rfl
@[simp] theorem logFlags_reg (s : Mach U) (x : W) : (s.logFlags x).reg = s.reg := rfl
@[simp] theorem logFlags_mem (s : Mach U) (x : W) : (s.logFlags x).mem = s.mem := rfl
@[simp] theorem logFlags_fpu (s : Mach U) (x : W) : (s.logFlags x).fpu = s.fpu := rfl

theorem preserved_cases : ∀ r : Reg, preserved r = true → r = 3 ∨ r = 5 ∨ r = 6 ∨ r = 7 := by
  decide

/-- The two states agree in the registers a function has to preserve, the stack pointer aside. -/
def Same (s s' : Mach U) : Prop := ∀ r, preserved r = true → s'.reg r = s.reg r

theorem Same.refl (s : Mach U) : Same s s := fun _ _ => rfl

theorem Same.trans {a b c : Mach U} (h : Same a b) (h' : Same b c) : Same a c :=
  fun r hr => (h' r hr).trans (h r hr)

theorem same_of {s s' : Mach U} (h3 : s'.reg 3 = s.reg 3) (h5 : s'.reg 5 = s.reg 5)
    (h6 : s'.reg 6 = s.reg 6) (h7 : s'.reg 7 = s.reg 7) : Same s s' := by
  intro r hr
  rcases preserved_cases r hr with h | h | h | h
  all_goals subst h; assumption

theorem after_reg (E : Env) (s : Mach U) (a : Ans U) (r : Reg) :
    (after E s a).reg r = if r = 4 then s.reg 4 + BitVec.ofNat 32 a.pop
      else if preserved r then s.reg r else a.reg r := rfl

/-! ## Flags -/

theorem holds_e_sub (s : Mach U) (x y : W) : holds (s.subFlags x y) 4 = some (decide (x = y)) := by
  simp only [holds, Mach.subFlags, Mach.flags]
  rw [show (4 : Fin 16).val = 4 from rfl]
  simp only [Option.some.injEq]
  by_cases h : x = y
  · subst h; simp
  · have : x - y ≠ 0 := fun h' => h (by
      have := congrArg (· + y) h'
      simpa [BitVec.sub_add_cancel] using this)
    simp only [h, decide_false, beq_eq_false_iff_ne]
    exact this

theorem sf_of_sub (s : Mach U) (x y : W) :
    ((s.subFlags x y).sf != (s.subFlags x y).of) = decide (x.toInt < y.toInt) := by
  simp only [Mach.subFlags, Mach.flags]
  rw [BitVec.msb_eq_toInt, BitVec.toInt_sub]
  have hx := BitVec.toInt_lt (x := x)
  have hx' := BitVec.le_toInt (x := x)
  have hy := BitVec.toInt_lt (x := y)
  have hy' := BitVec.le_toInt (x := y)
  rw [Int.bmod_def]
  by_cases h1 : x.toInt - y.toInt < -2 ^ 31
  · simp only [h1, decide_true, Bool.true_or, Bool.bne_true, Bool.not_eq_eq_eq_not]
    rw [Bool.eq_iff_iff]; simp only [decide_eq_true_eq, Bool.not_eq_true', decide_eq_false_iff_not]; omega
  · by_cases h2 : 2 ^ 31 ≤ x.toInt - y.toInt
    · simp only [h1, h2, decide_true, decide_false, Bool.or_true, Bool.bne_true]
      rw [Bool.eq_iff_iff]; simp only [decide_eq_true_eq, Bool.not_eq_true', decide_eq_false_iff_not]; omega
    · simp only [h1, h2, decide_false, Bool.or_false, Bool.bne_false]
      rw [Bool.eq_iff_iff]; simp only [decide_eq_true_eq]; omega

theorem holds_l_sub (s : Mach U) (x y : W) :
    holds (s.subFlags x y) 12 = some (decide (x.toInt < y.toInt)) := by
  rw [← sf_of_sub s x y]
  rfl

theorem holds_le_sub (s : Mach U) (x y : W) :
    holds (s.subFlags x y) 14 = some (decide (x.toInt ≤ y.toInt)) := by
  have h : holds (s.subFlags x y) 14
      = some ((s.subFlags x y).zf || ((s.subFlags x y).sf != (s.subFlags x y).of)) := rfl
  rw [h, sf_of_sub]
  have e : (s.subFlags x y).zf = decide (x = y) := by
    have := holds_e_sub s x y
    exact Option.some.inj this
  rw [e, Option.some.injEq, Bool.eq_iff_iff]
  simp only [Bool.or_eq_true, decide_eq_true_eq, ← BitVec.toInt_inj]
  omega

theorem holds_e_log (s : Mach U) (v : W) : holds (s.logFlags v) 4 = some (decide (v = 0)) := rfl

theorem holds_e_flags (s : Mach U) (z n o : Bool) : holds (s.flags z n o) 4 = some z := rfl

/-! ## Running generated code -/

/-- The calls `ops` of the writer lie at position `pc` of the code, and the writer can express
them. -/
def At (code : List Byte) (pc : Nat) (ops : List Op) : Prop :=
  (∃ pre post, code = pre ++ (ops.flatMap Op.bytes ++ post) ∧ pre.length = pc) ∧
    ∀ o ∈ ops, o.Fits

/-- The number of bytes of a sequence of calls. -/
def size (ops : List Op) : Nat := (ops.flatMap Op.bytes).length

theorem size_append (a b : List Op) : size (a ++ b) = size a + size b := by
  simp [size]

theorem size_cons (a : Op) (b : List Op) : size (a :: b) = a.bytes.length + size b := by
  simp [size]

theorem size_nil : size [] = 0 := rfl

theorem At.left {code : List Byte} {pc : Nat} {a b : List Op} (h : At code pc (a ++ b)) :
    At code pc a := by
  obtain ⟨⟨pre, post, h, hp⟩, hf⟩ := h
  exact ⟨⟨pre, b.flatMap Op.bytes ++ post, by simpa using h, hp⟩,
    fun o ho => hf o (List.mem_append_left _ ho)⟩

theorem At.right {code : List Byte} {pc : Nat} {a b : List Op} (h : At code pc (a ++ b)) :
    At code (pc + size a) b := by
  obtain ⟨⟨pre, post, h, hp⟩, hf⟩ := h
  exact ⟨⟨pre ++ a.flatMap Op.bytes, post, by simpa using h, by simp [size, hp]⟩,
    fun o ho => hf o (List.mem_append_right _ ho)⟩

theorem At.tail {code : List Byte} {pc : Nat} {a : Op} {b : List Op} (h : At code pc (a :: b)) :
    At code (pc + a.bytes.length) b := by
  have := At.right (a := [a]) (b := b) h
  simpa [size] using this

theorem At.decode {code : List Byte} {pc : Nat} {a : Op} {b : List Op} (h : At code pc (a :: b)) :
    ∃ rest, decode (code.drop pc) = some (a.instr, rest) ∧
      code.length - rest.length = pc + a.bytes.length := by
  obtain ⟨⟨pre, post, h, hp⟩, hf⟩ := h
  refine ⟨b.flatMap Op.bytes ++ post, ?_, ?_⟩
  · rw [h, ← hp, List.drop_left]
    simp only [List.flatMap_cons, List.append_assoc]
    exact roundTrip a (hf a List.mem_cons_self) _
  · rw [h]
    simp only [List.flatMap_cons, List.append_assoc, List.length_append]
    omega

/-- Does the instruction leave the control flow alone? -/
def straight : Instr → Bool
  | .call _ | .jmp _ | .jcc _ _ | .ret | .retn _ => false
  | _ => true

theorem exec_straight {acc : W → Bool} {s s' : Mach U} {i : Instr} (h : exec acc s i = some s') :
    straight i = true := by
  cases i <;> first | rfl | exact absurd (show (none : Option (Mach U)) = some s' from h) (by simp)

/-- The effect of a straight sequence of calls. -/
def execs (acc : W → Bool) (s : Mach U) : List Op → Option (Mach U)
  | [] => some s
  | a :: ops => (exec acc s a.instr).bind fun s => execs acc s ops

theorem execs_append (acc : W → Bool) (a b : List Op) (s : Mach U) :
    execs acc s (a ++ b) = (execs acc s a).bind fun s => execs acc s b := by
  induction a generalizing s with
  | nil => rfl
  | cons x a ih =>
    simp only [List.cons_append, execs]
    cases exec acc s x.instr with
    | none => rfl
    | some s' => exact ih s'

theorem execs_seq {acc : W → Bool} {a b : List Op} {s s' s'' : Mach U}
    (h : execs acc s a = some s') (h' : execs acc s' b = some s'') :
    execs acc s (a ++ b) = some s'' := by
  rw [execs_append, h]
  exact h'

theorem Steps.trans {E : Env} {code : List Byte} {a b c : Conf U} {t u : List (Event U)}
    (h : Steps E code a t b) (h' : Steps E code b u c) :
    Steps E code a (t ++ u) c := by
  induction h with
  | refl => exact h'
  | go e _ ih => exact .go e (ih h')
  | call e _ ih => exact .call e (ih h')

theorem step_decode {acc : W → Bool} {code rest : List Byte} {pc : Nat} {i : Instr}
    (h : Jit32.decode (code.drop pc) = some (i, rest)) (s : Mach U) :
    step acc code pc s = stepI acc (code.length - rest.length) s i := by
  unfold step
  rw [h]

theorem stepI_exec {acc : W → Bool} {s s' : Mach U} {i : Instr} (e : exec acc s i = some s')
    (n : Nat) : stepI acc n s i = .go n s' := by
  have hs := exec_straight e
  have h : ∀ o : Option (Mach U), o = some s' →
      (match o with | none => Ctl.fault | some s' => Ctl.go n s') = .go n s' := by
    intro o ho; rw [ho]
  cases i <;> first | (exact h _ e) | (cases hs)

theorem step_straight {acc : W → Bool} {code : List Byte} {pc : Nat} {a : Op} {b : List Op}
    (h : At code pc (a :: b)) {s s' : Mach U} (e : exec acc s a.instr = some s') :
    step acc code pc s = .go (pc + a.bytes.length) s' := by
  obtain ⟨rest, h1, h2⟩ := h.decode
  rw [step_decode h1, h2, stepI_exec e]

/-- A straight piece runs through. -/
theorem steps_straight {E : Env} {code : List Byte} {ans : List (Ans U)} (ops : List Op)
    {pc : Nat} (h : At code pc ops) {s s' : Mach U} (e : execs E.acc s ops = some s') :
    Steps E code ⟨pc, s, ans⟩ [] ⟨pc + size ops, s', ans⟩ := by
  induction ops generalizing pc s with
  | nil =>
    cases e
    exact .refl _
  | cons a ops ih =>
    simp only [execs] at e
    cases hx : exec E.acc s a.instr with
    | none => rw [hx] at e; cases e
    | some s₁ =>
      rw [hx] at e
      refine .go (step_straight h hx) ?_
      have := ih h.tail e
      rw [size_cons]
      rwa [Nat.add_assoc] at this

/-- A call. -/
theorem step_call {acc : W → Bool} {code : List Byte} {pc : Nat} {r : Reg} {b : List Op}
    (h : At code pc (.call r :: b)) {s : Mach U} (hok : okN acc (s.reg 4 - 4) 4 = true)
    (hf : s.fpu = []) :
    step acc code pc s = .call (s.reg r) (pc + (Op.call r).bytes.length) := by
  obtain ⟨rest, h1, h2⟩ := h.decode
  rw [step_decode h1, h2]
  have e : ∀ n, stepI acc n s (Op.call r).instr
      = if okN acc (s.reg 4 - 4) 4 && s.fpu.isEmpty then .call (s.reg r) n else .fault :=
    fun _ => rfl
  rw [e, hok, hf]
  rfl

theorem steps_call {E : Env} {code : List Byte} {ans : List (Ans U)} {a : Ans U} {pc : Nat}
    {r : Reg} {b : List Op} (h : At code pc (.call r :: b)) {s : Mach U}
    (hok : okN E.acc (s.reg 4 - 4) 4 = true) (hf : s.fpu = []) :
    Steps E code ⟨pc, s, a :: ans⟩ [⟨s.reg r, s⟩]
      ⟨pc + (Op.call r).bytes.length, after E s a, ans⟩ :=
  .call (step_call h hok hf) (.refl _)

/-- The instruction is a conditional jump. -/
theorem step_jcc {acc : W → Bool} {code : List Byte} {pc : Nat} {o : Op} {b : List Op}
    (h : At code pc (o :: b)) {c : Fin 16} {d : BitVec 32} (ho : o.instr = .jcc c d) {s : Mach U}
    {t : Bool} (hs : holds s c = some t) :
    step acc code pc s = if t then jumpTo (pc + o.bytes.length) d s
      else .go (pc + o.bytes.length) s := by
  obtain ⟨rest, h1, h2⟩ := h.decode
  rw [step_decode h1, ho, h2]
  have e : ∀ n, stepI acc n s (.jcc c d) = (match holds s c with
    | none => Ctl.fault
    | some true => jumpTo n d s
    | some false => .go n s) := fun _ => rfl
  rw [e, hs]
  cases t <;> rfl

theorem step_jmp {acc : W → Bool} {code : List Byte} {pc : Nat} {d : BitVec 32} {b : List Op}
    (h : At code pc (.jmp32 d :: b)) (s : Mach U) :
    step acc code pc s = jumpTo (pc + (Op.jmp32 d).bytes.length) d s := by
  obtain ⟨rest, h1, h2⟩ := h.decode
  rw [step_decode h1, h2]
  rfl

theorem step_ret {acc : W → Bool} {code : List Byte} {pc : Nat} {b : List Op}
    (h : At code pc (.ret :: b)) {s : Mach U} (hs : okN acc (s.reg 4) 4 = true) :
    step acc code pc s = .ret (rd s.mem (s.reg 4)) (s.set 4 (s.reg 4 + 4)) := by
  obtain ⟨rest, h1, h2⟩ := h.decode
  rw [step_decode h1]
  exact if_pos hs

theorem step_retn {acc : W → Bool} {code : List Byte} {pc : Nat} {n : BitVec 16} {b : List Op}
    (h : At code pc (.retn n :: b)) {s : Mach U} (hs : okN acc (s.reg 4) 4 = true) :
    step acc code pc s
      = .ret (rd s.mem (s.reg 4)) (s.set 4 (s.reg 4 + 4 + n.setWidth 32)) := by
  obtain ⟨rest, h1, h2⟩ := h.decode
  rw [step_decode h1]
  exact if_pos hs

theorem jumpTo_i32 (pc : Nat) (k : Int) (s : Mach U) (h : -2 ^ 31 ≤ k ∧ k < 2 ^ 31)
    (h0 : 0 ≤ (pc : Int) + k) : jumpTo pc (i32 k) s = .go ((pc : Int) + k).toNat s := by
  unfold jumpTo
  rw [i32_toInt k h, if_pos h0]

/-! ## Lengths -/

theorem bytes_length (o : Op) : o.bytes.length ≤ 15 := by
  have ite : ∀ {c : Prop} [Decidable c] {a b : List Byte}, a.length ≤ 15 → b.length ≤ 15 →
      (if c then a else b).length ≤ 15 := fun ha hb => by split <;> assumption
  cases o with
  | movRegAuto r rm d =>
    exact ite (Nat.le_of_ble_eq_true rfl) (ite (Nat.le_of_ble_eq_true rfl) (Nat.le_of_ble_eq_true rfl))
  | fld32Auto rm d =>
    exact ite (Nat.le_of_ble_eq_true rfl) (ite (Nat.le_of_ble_eq_true rfl) (Nat.le_of_ble_eq_true rfl))
  | fld64Auto rm d =>
    exact ite (Nat.le_of_ble_eq_true rfl) (ite (Nat.le_of_ble_eq_true rfl) (Nat.le_of_ble_eq_true rfl))
  | movzx16Pre r rm d =>
    exact Nat.succ_le_succ (m := 14) (by split <;> exact Nat.le_of_ble_eq_true rfl)
  | _ => first
    | exact Nat.le_of_ble_eq_true rfl
    | exact ite (Nat.le_of_ble_eq_true rfl) (Nat.le_of_ble_eq_true rfl)

theorem size_le (ops : List Op) : size ops ≤ 15 * ops.length := by
  induction ops with
  | nil => simp [size]
  | cons a l ih =>
    have := bytes_length a
    rw [size_cons, List.length_cons]
    omega

/-! ## Forward jumps -/

/-- A conditional jump over `skip`, taken. -/
theorem steps_skip {E : Env} {code : List Byte} {pc : Nat} {o : Op}
    {skip rest : List Op} (h : At code pc (o :: (skip ++ rest))) {c : Fin 16}
    (ho : o.instr = .jcc c (i32 (size skip))) (hl : size skip < 2 ^ 31) {s : Mach U}
    (hs : holds s c = some true) (ans : List (Ans U)) :
    Steps E code ⟨pc, s, ans⟩ [] ⟨pc + o.bytes.length + size skip, s, ans⟩ := by
  refine .go ?_ (.refl _)
  rw [step_jcc h ho hs, if_pos rfl, jumpTo_i32 _ _ _ (by omega) (by omega)]
  congr 1

/-- A conditional jump not taken. -/
theorem steps_fall {E : Env} {code : List Byte} {pc : Nat} {o : Op}
    {rest : List Op} (h : At code pc (o :: rest)) {c : Fin 16} {d : BitVec 32}
    (ho : o.instr = .jcc c d) {s : Mach U} (hs : holds s c = some false) (ans : List (Ans U)) :
    Steps E code ⟨pc, s, ans⟩ [] ⟨pc + o.bytes.length, s, ans⟩ := by
  refine .go ?_ (.refl _)
  rw [step_jcc h ho hs]
  simp

end Verif.Jit32
