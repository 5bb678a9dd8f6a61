import Verif.Jit.HookInv
import Verif.Jit.HookCode
/-
Helper lemmas for C65: the pieces of straight code of the generated hook function.
-/
namespace Verif.Jit

/-- Write eight bytes. -/
def Mach.wrs (s : Mach) (a v : W) : Mach := { s with mem := wr s.mem a v }

@[simp] theorem wrs_reg (s : Mach) (a v : W) : (s.wrs a v).reg = s.reg := rfl
@[simp] theorem wrs_mem (s : Mach) (a v : W) : (s.wrs a v).mem = wr s.mem a v := rfl
@[simp] theorem wrs_xmm (s : Mach) (a v : W) : (s.wrs a v).xmm = s.xmm := rfl

/-! ## The effect of single instructions -/

section
variable (acc : W → Bool) (s : Mach)

theorem ex_load (r b : Reg) (k : Int) (h : -2 ^ 31 ≤ k ∧ k < 2 ^ 31) :
    exec acc s (Op.load r (at_ b k)).instr = if okAt acc (off (s.reg b) k) = true then
      some (s.set r (rd s.mem (off (s.reg b) k))) else none := by
  simp only [Op.instr, exec, Jit.get, addr, RegRm.operand, at_, sx_i32 k h, BitVec.add_zero, add_c64,
    BitVec.ofNat_eq_ofNat]
  split <;> rename_i h1 <;> split at h1 <;> simp_all [binop, put]

theorem ex_store (r b : Reg) (k : Int) (h : -2 ^ 31 ≤ k ∧ k < 2 ^ 31) :
    exec acc s (Op.store (at_ b k) r).instr = if okAt acc (off (s.reg b) k) = true then
      some (s.wrs (off (s.reg b) k) (s.reg r)) else none := by
  simp only [Op.instr, exec, put, addr, RegRm.operand, at_, sx_i32 k h, BitVec.add_zero, add_c64,
    BitVec.ofNat_eq_ofNat]
  rfl

theorem ex_storeImm (b : Reg) (k v : Int) (h : -2 ^ 31 ≤ k ∧ k < 2 ^ 31)
    (hv : -2 ^ 31 ≤ v ∧ v < 2 ^ 31) :
    exec acc s (Op.storeImm (at_ b k) (i32 v)).instr = if okAt acc (off (s.reg b) k) = true then
      some (s.wrs (off (s.reg b) k) (c64 v)) else none := by
  simp only [Op.instr, exec, put, addr, RegRm.operand, at_, sx_i32 k h, sx_i32 v hv, BitVec.add_zero,
    add_c64, BitVec.ofNat_eq_ofNat]
  rfl

theorem ex_lea (r b : Reg) (k : Int) (h : -2 ^ 31 ≤ k ∧ k < 2 ^ 31) :
    exec acc s (Op.lea r (at_ b k)).instr = some (s.set r (off (s.reg b) k)) := by
  simp only [Op.instr, exec, addr, RegRm.operand, at_, sx_i32 k h, BitVec.add_zero,
    add_c64, BitVec.ofNat_eq_ofNat, Option.map_some]

theorem ex_mov (d r : Reg) : exec acc s (Op.mov d r).instr = some (s.set d (s.reg r)) := rfl

theorem ex_subImm (r : Reg) (k : Int) (h : -2 ^ 31 ≤ k ∧ k < 2 ^ 31) :
    exec acc s (Op.subImm r (i32 k)).instr
      = some ((s.set r (off (s.reg r) (-k))).subFlags (s.reg r) (c64 k)) := by
  simp only [Op.instr, exec, Jit.get, binop, put, sx_i32 k h, Option.map_some, sub_c64]

theorem ex_addImm (r : Reg) (k : Int) (h : -2 ^ 31 ≤ k ∧ k < 2 ^ 31) :
    exec acc s (Op.addImm r (i32 k)).instr
      = some ((s.set r (off (s.reg r) k)).addFlags (s.reg r) (c64 k)) := by
  simp only [Op.instr, exec, Jit.get, binop, put, sx_i32 k h, Option.map_some, add_c64]

theorem ex_movImm (r : Reg) (v : BitVec 32) :
    exec acc s (Op.movImm r v).instr = some (s.set r (v.setWidth 64)) := rfl

theorem ex_movsdLoad (x : XReg) (b : Reg) (k : Int) (h : -2 ^ 31 ≤ k ∧ k < 2 ^ 31) :
    exec acc s (Op.movsdLoad x (at_ b k)).instr = if okAt acc (off (s.reg b) k) = true then
      some (s.setX x (rd s.mem (off (s.reg b) k))) else none := by
  simp only [Op.instr, exec, addr, RegRm.operand, at_, sx_i32 k h, BitVec.add_zero, add_c64,
    BitVec.ofNat_eq_ofNat]

theorem ex_movsdStore (x : XReg) (b : Reg) (k : Int) (h : -2 ^ 31 ≤ k ∧ k < 2 ^ 31) :
    exec acc s (Op.movsdStore (at_ b k) x).instr = if okAt acc (off (s.reg b) k) = true then
      some (s.wrs (off (s.reg b) k) (s.xmm x)) else none := by
  simp only [Op.instr, exec, addr, RegRm.operand, at_, sx_i32 k h, BitVec.add_zero, add_c64,
    BitVec.ofNat_eq_ofNat]
  rfl

theorem ex_xor (r : Reg) : exec acc s (Op.xor r r).instr = some ((s.set r 0).logFlags 0) := by
  simp [Op.instr, exec, Jit.get, binop, put]

theorem ex_test (r : Reg) : exec acc s (Op.test r r).instr = some (s.logFlags (s.reg r)) := by
  simp [Op.instr, exec, Jit.get, binop]

theorem ex_testImm (r : Reg) (k : Int) (h : -2 ^ 31 ≤ k ∧ k < 2 ^ 31) :
    exec acc s (Op.testImm r (i32 k)).instr = some (s.logFlags (s.reg r &&& c64 k)) := by
  simp only [Op.instr, exec, Jit.get, binop, sx_i32 k h]

theorem ex_cmpImm (r : Reg) (k : Int) (h : -2 ^ 31 ≤ k ∧ k < 2 ^ 31) :
    exec acc s (Op.cmpImm r (i32 k)).instr = some (s.subFlags (s.reg r) (c64 k)) := by
  simp only [Op.instr, exec, Jit.get, binop, sx_i32 k h]

theorem ex_cmpMem (r b : Reg) (k : Int) (h : -2 ^ 31 ≤ k ∧ k < 2 ^ 31) :
    exec acc s (Op.cmpMem r (at_ b k)).instr = if okAt acc (off (s.reg b) k) = true then
      some (s.subFlags (s.reg r) (rd s.mem (off (s.reg b) k))) else none := by
  simp only [Op.instr, exec, Jit.get, addr, RegRm.operand, at_, sx_i32 k h, BitVec.add_zero, add_c64,
    BitVec.ofNat_eq_ofNat]
  split <;> rename_i h1 <;> split at h1 <;> simp_all [binop]

theorem ex_cmpStore (r b : Reg) (k : Int) (h : -2 ^ 31 ≤ k ∧ k < 2 ^ 31) :
    exec acc s (Op.cmpStore (at_ b k) r).instr = if okAt acc (off (s.reg b) k) = true then
      some (s.subFlags (rd s.mem (off (s.reg b) k)) (s.reg r)) else none := by
  simp only [Op.instr, exec, Jit.get, addr, RegRm.operand, at_, sx_i32 k h, BitVec.add_zero, add_c64,
    BitVec.ofNat_eq_ofNat]
  split <;> rename_i h1 <;> split at h1 <;> simp_all [binop]

theorem ex_cmovgMem (r b : Reg) (k : Int) (h : -2 ^ 31 ≤ k ∧ k < 2 ^ 31) :
    exec acc s (Op.cmovgMem r (at_ b k)).instr = if okAt acc (off (s.reg b) k) = true then
      some (if holds s .g then s.set r (rd s.mem (off (s.reg b) k)) else s) else none := by
  simp only [Op.instr, exec, Jit.get, addr, RegRm.operand, at_, sx_i32 k h, BitVec.add_zero, add_c64,
    BitVec.ofNat_eq_ofNat]
  split <;> simp

theorem ex_cmovge (d r : Reg) : exec acc s (Op.cmovge d r).instr
    = some (if holds s .ge then s.set d (s.reg r) else s) := rfl

theorem ex_push (r : Reg) : exec acc s (Op.push r).instr
    = if okAt acc (off (s.reg 4) (-8)) = true then
        some ((s.set 4 (off (s.reg 4) (-8))).wrs (off (s.reg 4) (-8)) (s.reg r))
      else none := by
  have : s.reg 4 - 8 = off (s.reg 4) (-8) := sub_c64 _ 8
  simp only [Op.instr, exec, this]
  rfl

theorem ex_pop (r : Reg) : exec acc s (Op.pop r).instr
    = if okAt acc (s.reg 4) = true then
        some ((s.set 4 (off (s.reg 4) 8)).set r (rd s.mem (s.reg 4))) else none := by
  have : s.reg 4 + 8 = off (s.reg 4) 8 := rfl
  simp only [Op.instr, exec, this]

theorem ex_rep : exec acc s Op.repMovsBytes.instr
    = if okRange acc (s.reg 6) (s.reg 1).toNat && okRange acc (s.reg 7) (s.reg 1).toNat then
      some { (((s.set 6 (s.reg 6 + s.reg 1)).set 7 (s.reg 7 + s.reg 1)).set 1 0) with
        mem := copy s.mem (s.reg 7) (s.reg 6) (s.reg 1).toNat }
    else none := rfl

end

attribute [local simp] rax rcx rdx rbx rsp rbp rsi rdi r8 r9 r10 vEntry vStatus vPrev vCur vIter
  vContext vThis

/-- Execute a block symbolically. -/
macro "sym" "[" ts:Lean.Parser.Tactic.simpLemma,* "]" : tactic =>
  `(tactic| simp (disch := omega) [execs, ex_load, ex_store, ex_storeImm, ex_lea, ex_mov, ex_subImm,
    ex_addImm, ex_movImm, exec_movImm64, ex_movsdLoad, ex_movsdStore, ex_xor, ex_test, ex_testImm,
    ex_cmpImm, ex_cmpMem, ex_cmpStore, ex_cmovgMem, ex_cmovge, off_off, off_zero, $ts,*])

/-! ## The frame -/

/-- The generator's data fit the stack of a call. -/
structure Fit (g : Gen) (S : Stack) : Prop where
  size : S.size = (frame g.ret).size
  wide : S.wide = (g.ret.size != 0)
  nargs : S.nargs = firstReg g.ret + g.params.length
  depth : S.depth = 96 + 8 * (g.params.length : Int)
  big : g.ret.size ≤ 2 ^ 26
  params : g.params.length ≤ 2 ^ 20
  void : g.ret.size = 0 → g.ret.has flagRetMem = false
  next : 8 * g.getNext < 2 ^ 31
  call : 8 * g.callIdx < 2 ^ 31
  over : 8 * g.getOverride < 2 ^ 31
  orig : 8 * g.getOrig < 2 ^ 31
  should : 8 * g.shouldCall < 2 ^ 31
  vtOff : -2 ^ 31 ≤ g.vtblOffs ∧ g.vtblOffs < 2 ^ 31
  vtIdx : -2 ^ 31 ≤ 8 * g.vtblIdx ∧ 8 * g.vtblIdx < 2 ^ 31

/-- The variables. -/
def varsAt (g : Gen) (S : Stack) : Vars :=
  ⟨off S.F vEntry, off S.F vStatus, off S.F vPrev, off S.F vCur, off S.F (frame g.ret).orig,
    off S.F (frame g.ret).override, off S.F (frame g.ret).plugin, off S.F (frame g.ret).memRet⟩

theorem alignSize_spec (x b : Nat) (hb : 0 < b) :
    x ≤ alignSize x b ∧ alignSize x b < x + b ∧ alignSize x b % b = 0 := by
  unfold alignSize
  have := Nat.div_add_mod x b
  have hm := Nat.mod_lt x hb
  have hc := Nat.mul_comm (x / b) b
  split
  · refine ⟨by omega, by omega, ?_⟩
    rw [hc]
    simp
  · omega

theorem cell_bound {g : Gen} {S : Stack} (f : Fit g S) :
    cellSize g.ret ≤ 2 ^ 27 ∧ cellSize g.ret % 16 = 0 := by
  have h1 := alignSize_spec (realSize g.ret) 8 (by omega)
  have h2 := alignSize_spec (alignSize (realSize g.ret) 8) 16 (by omega)
  have h3 : realSize g.ret ≤ 2 ^ 26 := by
    unfold realSize
    have := f.big
    split <;> omega
  unfold cellSize
  omega

/-- All offsets are small; the frame is a multiple of 16. -/
theorem frame_bound {g : Gen} {S : Stack} (f : Fit g S) :
    (-2 ^ 30 ≤ (frame g.ret).orig ∧ (frame g.ret).orig ≤ 0) ∧
    (-2 ^ 30 ≤ (frame g.ret).override ∧ (frame g.ret).override ≤ 0) ∧
    (-2 ^ 30 ≤ (frame g.ret).plugin ∧ (frame g.ret).plugin ≤ 0) ∧
    (-2 ^ 30 ≤ (frame g.ret).memRet ∧ (frame g.ret).memRet ≤ 0) ∧
    (64 ≤ (frame g.ret).size ∧ (frame g.ret).size ≤ 2 ^ 30) ∧ (frame g.ret).size % 16 = 0 ∧
    ((frame g.ret).retPtr = 0 ∨ (frame g.ret).retPtr = -72) ∧
    ((frame g.ret).memretPtr = 0 ∨ (frame g.ret).memretPtr = -80) := by
  have := cell_bound f
  unfold frame
  split
  · simp
  · dsimp only
    refine ⟨by omega, by omega, by omega, by omega, by omega, by omega, Or.inr rfl, Or.inr rfl⟩

variable {acc keep : W → Bool} {S : Stack} {g : Gen} {s₀ s s' : Mach} {d d' : Int} {loc : Int → W}
  {m : Memory}

theorem slot_this : S.slot (-64) := by simp [Stack.slot, Stack.priv]
theorem slot_ctx : S.slot (-56) := by simp [Stack.slot, Stack.priv]
theorem slot_iter : S.slot (-48) := by simp [Stack.slot, Stack.priv]
theorem slot_rbp : S.slot (-8) := by
  simp only [Stack.slot, Stack.priv]
  simp
  omega
theorem slot_ret (h : S.wide = true) : S.slot (-72) := by simp [Stack.slot, Stack.priv, h]
theorem slot_memret (h : S.wide = true) : S.slot (-80) := by simp [Stack.slot, Stack.priv, h]
theorem slot_arg {i : Nat} (h : i < S.nargs) : S.slot (8 + 8 * (i : Int)) := by
  simp only [Stack.slot, Stack.priv]
  simp
  omega

/-- Only registers change. -/
theorem Inv.of (h : Inv S s₀ d loc m s) (h5 : s'.reg 5 = s.reg 5)
    (h4 : s'.reg 4 = off S.F (-S.size - d')) (hm : s'.mem = s.mem)
    (h3 : s'.reg 3 = s.reg 3) (h6 : s'.reg 6 = s.reg 6) (h7 : s'.reg 7 = s.reg 7)
    (hc : s'.reg 12 = s.reg 12) (hd : s'.reg 13 = s.reg 13) (he : s'.reg 14 = s.reg 14)
    (hf : s'.reg 15 = s.reg 15)
    (hx : ∀ r, preservedX r = true → s'.xmm r = s.xmm r) : Inv S s₀ d' loc m s' :=
  h.regs h5 h4 hm (fun r hr n4 _ => same_of h3 h5 h6 h7 hc hd he hf r hr n4) hx

theorem off_congr (F : W) {a b : Int} (h : a = b) : off F a = off F b := by rw [h]

/-- Show that a state reached by instructions that change registers only has the invariant. -/
macro "inv_by" h:term:max rsp:term:max : tactic =>
  `(tactic| (refine Inv.of $h ?_ ?_ ?_ ?_ ?_ ?_ ?_ ?_ ?_ ?_ ?_ <;>
    first
    | (simp; done)
    | (simp [$rsp:term, off_off]; done)
    | (simp [$rsp:term, off_off]; apply off_congr; omega)))

/-- The same, where the state in `h` is a variable. -/
macro "inv_of" h:term:max : tactic => `(tactic| inv_by $h (Inv.rsp $h))


theorem off_nat (F : W) (n : Nat) : F + BitVec.ofNat 64 n = off F n := rfl

theorem off_nat8 (F : W) (n : Nat) : F + BitVec.ofNat 64 (8 * n) = off F (n * 8) := by
  rw [show ((n : Int) * 8) = ((8 * n : Nat) : Int) by omega]
  rfl

theorem off_nat8' (F : W) (n : Nat) : F + BitVec.ofNat 64 (8 * n) = off F (8 * n) := by
  rw [show (8 * (n : Int)) = ((8 * n : Nat) : Int) by omega]
  rfl

variable {code : List Byte} {P : Memory → Mach → Prop}

/-- The arguments from number `i` on are `l`. -/
def ArgsFrom (s : Mach) (i : Nat) (l : List Arg) : Prop :=
  ∀ j b, l[j]? = some b → ArgOk s (i + j) b

theorem argsFrom_nil (s : Mach) (i : Nat) : ArgsFrom s i [] := by
  intro j b h
  simp at h

theorem argsFrom_cons {s : Mach} {i : Nat} {a : Arg} {l : List Arg} (h : ArgOk s i a)
    (hl : ArgsFrom s (i + 1) l) : ArgsFrom s i (a :: l) := by
  intro j b hb
  cases j with
  | zero => cases hb; exact h
  | succ j =>
    have := hl j b hb
    rwa [show i + 1 + j = i + (j + 1) by omega] at this

theorem atCall1 (f : Fit g S) (h : Inv S s₀ 40 loc m s) {r : Reg} {t a : W} (ht : s.reg r = t)
    (h1 : s.reg 1 = a) : AtCall S s₀ 40 loc r t [.int a] m s := by
  have := f.depth
  have := f.size
  have := frame_bound f
  refine ⟨h, ht, ?_, ?_⟩
  · intro i x hx
    match i, hx with
    | 0, hx => cases hx; simpa [ArgOk, arg] using h1
  · refine ⟨by omega, ?_, by omega, by omega⟩
    show 8 * (1 : Int) ≤ 40
    omega

theorem atCall2 (f : Fit g S) (h : Inv S s₀ 40 loc m s) {r : Reg} {t a b : W} (ht : s.reg r = t)
    (h1 : s.reg 1 = a) (h2 : s.reg 2 = b) : AtCall S s₀ 40 loc r t [.int a, .int b] m s := by
  have := f.depth
  have := f.size
  have := frame_bound f
  refine ⟨h, ht, ?_, ?_⟩
  · intro i x hx
    match i, hx with
    | 0, hx => cases hx; simpa [ArgOk, arg] using h1
    | 1, hx => cases hx; simpa [ArgOk, arg] using h2
  · refine ⟨by omega, ?_, by omega, by omega⟩
    show 8 * (2 : Int) ≤ 40
    omega

/-- Giving back the stack used for a call. -/
theorem Called.add {a : Ans} (h : Called S s₀ d loc a m s) (hd : 0 ≤ d ∧ d < 2 ^ 31) :
    ∃ s', execs acc s [.addImm rsp (i32 d)] = some s' ∧ Called S s₀ 0 loc a m s' := by
  sym [h.inv.rsp]
  refine ⟨by inv_of (h.inv), by simpa using h.rax, by simpa using h.xmm0⟩

theorem Ref.call40 (ok : StackOk acc keep S) {pre : List Op} {r : Reg} {t : W} {args : List Arg}
    (hd : 0 ≤ d ∧ d < 2 ^ 31)
    (hpre : ∀ m s, P m s → ∃ s', execs acc s pre = some s' ∧ AtCall S s₀ d loc r t args m s') :
    Ref acc keep S code (pre ++ ([.call r] ++ [.addImm rsp (i32 d)])) P
      (callF (world acc keep S) t args) (Called S s₀ 0 loc) :=
  Ref.pre hpre (Ref.post (Ref.call ok) fun _ _ _ h => h.add hd)

/-- Forget the answer. -/
theorem Ref.void {ops : List Op} {α β : Type} {x : M α} {b : β} {Q : α → Memory → Mach → Prop}
    {R : β → Memory → Mach → Prop} (h : Ref acc keep S code ops P x Q)
    (hq : ∀ v m s, Q v m s → R b m s) :
    Ref acc keep S code ops P (x >>= fun _ => pure b) R := by
  have := h.seq (b := []) (f := fun _ => pure b) (R := R) fun v =>
    Ref.skip fun m s hs => ⟨s, rfl, hq v m s hs⟩
  rwa [List.append_nil] at this

/-! ## Constructors, `SetupHookLoop` -/

theorem construct_one (ok : StackOk acc keep S) (f : Fit g S) {v : Int}
    (hv : -2 ^ 30 ≤ v ∧ v ≤ 0) :
    Ref acc keep S code (constructOne g v) (Inv S s₀ 0 loc)
      (callF (world acc keep S) g.ret.ctor [.int (off S.F v)]) (fun _ => Inv S s₀ 0 loc) := by
  refine Ref.weaken (Ref.call40 ok (d := 40) (loc := loc) (s₀ := s₀) (r := r8)
    (pre := [.subImm rsp (i32 40), .lea rcx (at_ rbp v), .movImm64 r8 g.ret.ctor]) (by omega) ?_)
    (fun _ _ h => h) (fun _ _ _ h => h.inv)
  intro m s h
  sym [h.rsp, h.rbp]
  exact atCall1 f (by inv_of h) (by simp) (by simp)

theorem construct_ref (ok : StackOk acc keep S) (f : Fit g S) :
    Ref acc keep S code (constructOps g) (Inv S s₀ 0 loc)
      (construct (world acc keep S) (varsAt g S) g) (fun _ => Inv S s₀ 0 loc) := by
  have hb := frame_bound f
  unfold constructOps construct
  split
  · rw [List.append_assoc]
    exact (construct_one ok f hb.1).seq fun _ => (construct_one ok f hb.2.1).seq fun _ =>
      Ref.void (construct_one ok f hb.2.2.1) fun _ _ _ h => h
  · exact Ref.skip fun m s h => ⟨s, rfl, h⟩

theorem storeZero (ok : StackOk acc keep S) {k : Int} (hk : -2 ^ 30 ≤ k ∧ k ≤ 0) :
    Ref acc keep S code [.storeImm (at_ rbp k) (i32 0)] (Inv S s₀ d loc)
      (save (world acc keep S) (off S.F k) 0) (fun _ => Inv S s₀ d loc) := by
  refine Ref.save fun m s h ha => ?_
  sym [h.rbp, acc_of_vis ha]
  exact h.setVis ok ha 0

theorem init_ref (ok : StackOk acc keep S) :
    Ref acc keep S code initOps (Inv S s₀ 0 loc)
      (start (world acc keep S) (varsAt g S)) (fun _ => Inv S s₀ 0 loc) :=
  (storeZero ok (k := vStatus) (by decide)).seq fun _ =>
    (storeZero ok (k := vCur) (by decide)).seq fun _ => storeZero ok (k := vPrev) (by decide)

theorem setup_pre (ok : StackOk acc keep S) (f : Fit g S) (h : Inv S s₀ 0 loc m s)
    (h1 : okAt (world acc keep S).vis g.pHI = true)
    (h2 : okAt (world acc keep S).vis (off (loc vThis) g.vtblOffs) = true) :
    ∃ s', execs acc s (setupArgs g ++ setupRet g ++ [.movImm64 rax g.setupLoop]) = some s' ∧
      AtCall S s₀ 88 loc rax g.setupLoop
        [.int g.sh, .int (rd m g.pHI), .int (off (rd m (off (loc vThis) g.vtblOffs)) (8 * g.vtblIdx)),
         .int (loc vThis), .int (off S.F vEntry), .int (off S.F vStatus), .int (off S.F vPrev),
         .int (off S.F vCur), .int (if g.ret.size = 0 then 0 else off S.F (frame g.ret).orig),
         .int (if g.ret.size = 0 then 0 else off S.F (frame g.ret).override)] m s' := by
  have hd := f.depth
  have hs := f.size
  have hb := frame_bound f
  have hi := f.vtIdx
  have ho := f.vtOff
  have e1 : rd s.mem g.pHI = rd m g.pHI := h.rd_vis h1
  have e2 : rd s.mem (off (loc (-64)) g.vtblOffs) = rd m (off (loc (-64)) g.vtblOffs) := h.rd_vis h2
  have a1 := acc_of_vis h1
  have a2 := acc_of_vis h2
  have st : ∀ k, -S.size - S.depth ≤ k → k < 8 + 8 * (S.nargs : Int) → acc (off S.F k) = true :=
    ok.stack
  have key : ∃ s', execs acc s (setupArgs g) = some s' ∧ Inv S s₀ 88 loc m s' ∧
      s'.reg 1 = g.sh ∧ s'.reg 2 = rd m g.pHI ∧
      s'.reg 8 = off (rd m (off (loc vThis) g.vtblOffs)) (8 * g.vtblIdx) ∧
      s'.reg 9 = loc vThis ∧
      rd s'.mem (off S.F (-S.size - 56)) = off S.F vEntry ∧
      rd s'.mem (off S.F (-S.size - 48)) = off S.F vStatus ∧
      rd s'.mem (off S.F (-S.size - 40)) = off S.F vPrev ∧
      rd s'.mem (off S.F (-S.size - 32)) = off S.F vCur := by
    unfold setupArgs
    sym [h.rsp, h.rbp, okAt_slot ok slot_this, h.priv _ slot_this, e1, e2, a1, a2, okAt_off st,
      rd_wr_off, rd_wr_off_eq]
    have i1 := h.setLow ok (k := -S.size + -88 + 32) (by omega) (by omega) (off S.F (-16))
    have i2 := i1.setLow ok (k := -S.size + -88 + 40) (by omega) (by omega) (off S.F (-24))
    have i3 := i2.setLow ok (k := -S.size + -88 + 48) (by omega) (by omega) (off S.F (-32))
    have i4 := i3.setLow ok (k := -S.size + -88 + 56) (by omega) (by omega) (off S.F (-40))
    inv_by i4 h.rsp
  obtain ⟨s₁, x₁, i₁, b1, b2, b8, b9, p4, p5, p6, p7⟩ := key
  rw [List.append_assoc, execs_append, x₁, Option.bind_some]
  have fin : ∀ s₂ x y, Inv S s₀ 88 loc m s₂ → s₂.reg 0 = g.setupLoop → s₂.reg 1 = s₁.reg 1 →
      s₂.reg 2 = s₁.reg 2 → s₂.reg 8 = s₁.reg 8 → s₂.reg 9 = s₁.reg 9 →
      rd s₂.mem (off S.F (-S.size - 56)) = off S.F vEntry →
      rd s₂.mem (off S.F (-S.size - 48)) = off S.F vStatus →
      rd s₂.mem (off S.F (-S.size - 40)) = off S.F vPrev →
      rd s₂.mem (off S.F (-S.size - 32)) = off S.F vCur →
      rd s₂.mem (off S.F (-S.size - 24)) = x →
      rd s₂.mem (off S.F (-S.size - 16)) = y →
      AtCall S s₀ 88 loc rax g.setupLoop
        [.int g.sh, .int (rd m g.pHI), .int (off (rd m (off (loc vThis) g.vtblOffs)) (8 * g.vtblIdx)),
         .int (loc vThis), .int (off S.F vEntry), .int (off S.F vStatus), .int (off S.F vPrev),
         .int (off S.F vCur), .int x, .int y] m s₂ := by
    intro s₂ x y i₂ c0 c1 c2 c8 c9 q4 q5 q6 q7 q8 q9
    refine ⟨i₂, c0, ?_, ?_⟩
    · have hr : ∀ k : Nat, s₂.reg 4 + BitVec.ofNat 64 k = off S.F (-S.size - 88 + k) := by
        intro k
        rw [i₂.rsp, off_bytes]
      have hq : ∀ (n : Nat) (v : W) (k : Int), k = -S.size - 88 + (8 * (n + 4) : Nat) →
          rd s₂.mem (off S.F k) = v → ArgOk s₂ (n + 4) (.int v) := by
        intro n v k hk e
        show rd s₂.mem (s₂.reg 4 + BitVec.ofNat 64 (8 * (n + 4))) = v
        rw [hr, ← e, hk]
      intro i a ha
      have := argsFrom_cons (i := 0) (a := .int g.sh) (c1.trans b1) <|
        argsFrom_cons (a := .int (rd m g.pHI)) (c2.trans b2) <|
        argsFrom_cons (a := .int (off (rd m (off (loc vThis) g.vtblOffs)) (8 * g.vtblIdx))) (c8.trans b8) <|
        argsFrom_cons (a := .int (loc vThis)) (c9.trans b9) <|
        argsFrom_cons (hq 0 _ _ (by omega) q4) <| argsFrom_cons (hq 1 _ _ (by omega) q5) <|
        argsFrom_cons (hq 2 _ _ (by omega) q6) <| argsFrom_cons (hq 3 _ _ (by omega) q7) <|
        argsFrom_cons (hq 4 _ _ (by omega) q8) <| argsFrom_cons (hq 5 _ _ (by omega) q9) <|
        argsFrom_nil s₂ 10
      have := this i a ha
      rwa [Nat.zero_add] at this
    · refine ⟨by omega, ?_, by omega, by omega⟩
      show 8 * (10 : Int) ≤ 88
      omega
  unfold setupRet
  split
  · rename_i hz
    sym [i₁.rsp, i₁.rbp, okAt_off st, rd_wr_off, rd_wr_off_eq]
    have i2 := i₁.setLow ok (k := -S.size - 88 + 64) (by omega) (by omega) 0
    have i3 := i2.setLow ok (k := -S.size - 88 + 72) (by omega) (by omega) 0
    refine fin _ _ _ ?_ ?_ ?_ ?_ ?_ ?_ ?_ ?_ ?_ ?_ ?_ ?_
    · inv_by i3 i₁.rsp
    all_goals
      simp only [set_reg, set_mem, wrs_mem, wrs_reg, logFlags_mem, logFlags_reg]
      first | (simp; done) | (simp (disch := omega) [rd_wr_off, rd_wr_off_eq, p4, p5, p6, p7]; done)
  · rename_i hz
    sym [i₁.rsp, i₁.rbp, okAt_off st, rd_wr_off, rd_wr_off_eq]
    have i2 := i₁.setLow ok (k := -S.size - 88 + 64) (by omega) (by omega)
      (off S.F (frame g.ret).orig)
    have i3 := i2.setLow ok (k := -S.size - 88 + 72) (by omega) (by omega)
      (off S.F (frame g.ret).override)
    refine fin _ _ _ ?_ ?_ ?_ ?_ ?_ ?_ ?_ ?_ ?_ ?_ ?_ ?_
    · inv_by i3 i₁.rsp
    all_goals
      simp only [set_reg, set_mem, wrs_mem, wrs_reg]
      first | (simp; done) | (simp (disch := omega) [rd_wr_off, rd_wr_off_eq, p4, p5, p6, p7]; done)

end Verif.Jit
