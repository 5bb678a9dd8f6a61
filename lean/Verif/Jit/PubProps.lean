import Verif.Jit.PubFunc
import Verif.Jit.MachLemmas
/-
C64: running the generated public function does what the C code in the comment of
core/sourcehook/sourcehook_hookmangen_x86_64.cpp:1295-1306 says.
-/
namespace Verif.Jit

/-! ## Symbolic execution -/

theorem patch_jz (buf : List Byte) (ops more : List Op) (d d' : BitVec 32) :
    rewrite32 (emit (emit buf (ops ++ [.jz d])) more)
        ((emit buf (ops ++ [.jz d])).length - 4) d'
      = some (emit (emit buf (ops ++ [.jz d'])) more) := by
  have := rewrite_jcc (buf ++ ops.flatMap Op.bytes) (more.flatMap Op.bytes) d d' (byte 0x84)
  simpa [emit, Op.bytes, Enc.jz] using this

/-- The instructions of the public function, with the distances of the jumps filled in. -/
def pubOps (p : Pub) : List Op :=
  pubStart ++ .jz (i32 (size (pubStore p))) :: (pubStore p
    ++ .test r9 r9 :: .jz (i32 (size (pubCall p))) :: (pubCall p ++ pubEnd))

theorem emit_size (b : List Byte) (ops : List Op) : (emit b ops).length - b.length = size ops := by
  simp [emit, size]

theorem generatePubFunc_eq (p : Pub) :
    generatePubFunc p = some ((pubOps p).flatMap Op.bytes) := by
  unfold generatePubFunc
  simp only []
  rw [patch_jz]
  simp only []
  have h := fun b => patch_jz b [.test r9 r9] (pubCall p) (i32 0)
  simp only [List.cons_append, List.nil_append] at h
  rw [h]
  simp only [emit_size]
  simp [emit, pubOps]

theorem execs_cons {acc : W → Bool} {s s₁ : Mach} {a : Op} {ops : List Op}
    (h : exec acc s a.instr = some s₁) : execs acc s (a :: ops) = execs acc s₁ ops := by
  simp [execs, h]

theorem exec_movImm64 (acc : W → Bool) (s : Mach) (r : Reg) (v : W) :
    exec acc s (Op.movImm64 r v).instr = some (s.set r v) := by
  simp only [Op.instr]
  split
  · rename_i h
    simp only [exec, Option.some.injEq]
    congr 1
    apply BitVec.eq_of_toNat_eq
    simp only [BitVec.toNat_setWidth]
    omega
  · rfl

attribute [local simp] rax rcx rdx rbx rsp rbp rsi rdi r8 r9 r10

theorem start_exec {acc : W → Bool} {s : Mach} {S : W} (h4 : s.reg 4 = off S 0) :
    ∃ s', execs acc s pubStart = some s' ∧ s'.reg 4 = off S (-56) ∧ s'.mem = s.mem ∧
      s'.reg 9 = s.reg 2 ∧ s'.xmm = s.xmm ∧ Same s s' ∧
      holds s' .e = decide (s.reg 1 &&& 1 = 0) := by
  simp (disch := omega) [pubStart, execs, Op.instr, exec, Jit.get, put, binop, sx_i32, h4, off_sub,
    holds_e_log]
  exact ⟨by apply same_of <;> simp, Iff.rfl⟩

theorem store_exec {acc : W → Bool} {s : Mach} (p : Pub) (hc : okAt acc p.pHI = true) :
    ∃ s', execs acc s (pubStore p) = some s' ∧ s'.reg 4 = s.reg 4 ∧
      s'.mem = wr s.mem p.pHI (s.reg 9) ∧ s'.reg 9 = s.reg 9 ∧ s'.xmm = s.xmm ∧ Same s s' := by
  simp only [pubStore, execs, exec_movImm64]
  simp (disch := omega) [Op.instr, exec, put, addr, RegRm.operand, at_, sx_i32, c64, hc]
  apply same_of <;> simp

theorem test_exec {acc : W → Bool} {s : Mach} :
    ∃ s', execs acc s [.test r9 r9] = some s' ∧ s'.reg = s.reg ∧ s'.mem = s.mem ∧ s'.xmm = s.xmm ∧
      holds s' .e = decide (s.reg 9 = 0) := by
  simp [execs, Op.instr, exec, Jit.get, binop, holds_e_log]

/-- The call of `SetInfo` up to the call instruction. -/
theorem call_exec {acc : W → Bool} {s : Mach} {S : W} (p : Pub) (h4 : s.reg 4 = off S (-56))
    (hs : ∀ k, -56 ≤ k → k < 8 → acc (off S k) = true) (hi : okAt acc (s.reg 9) = true)
    (hp : 8 * p.setInfo < 2 ^ 31)
    (hv : okAt acc (off (rd s.mem (s.reg 9)) (8 * p.setInfo)) = true) :
    ∃ s', execs acc s (pubCall p).dropLast = some s' ∧ s'.reg 4 = off S (-56) ∧
      s'.mem = wr (wr s.mem (off S (-24)) p.builtPI) (off S (-16)) p.hookFunc ∧
      s'.reg 0 = rd s.mem (off (rd s.mem (s.reg 9)) (8 * p.setInfo)) ∧
      s'.reg 1 = s.reg 9 ∧ s'.reg 2 = 1 ∧ s'.reg 8 = (i32 p.vtblOffs).setWidth 64 ∧
      s'.reg 9 = (i32 p.vtblIdx).setWidth 64 ∧ s'.xmm = s.xmm ∧ Same s s' := by
  simp only [pubCall, List.dropLast, execs, exec_movImm64]
  simp (disch := omega) [Op.instr, exec, Jit.get, put, binop, addr, RegRm.operand, at_, sx_i32,
    add_c64, off_off, off_zero, h4, hi, hv, okAt_off hs]
  exact ⟨by decide, by apply same_of <;> simp⟩

theorem end_exec {acc : W → Bool} {s : Mach} {S : W} (h4 : s.reg 4 = off S (-56)) :
    ∃ s', execs acc s (pubEnd.dropLast) = some s' ∧ s'.reg 4 = S ∧ s'.mem = s.mem ∧ s'.reg 0 = 0 ∧
      s'.xmm = s.xmm ∧ Same s s' := by
  simp (disch := omega) [pubEnd, execs, Op.instr, exec, Jit.get, put, binop, sx_i32, h4, off_add,
    off_zero]
  apply same_of <;> simp

/-! ## Specification -/

/-- What the caller of the public function provides.  `store` is the first argument, a `bool` in
the lowest byte of RCX, `hi` the second, in RDX. -/
structure PubOk (acc keep : W → Bool) (p : Pub) (s : Mach) : Prop where
  /-- 56 bytes of stack below the stack pointer, and the return address above, may be used -/
  stack : ∀ k, -56 ≤ k → k < 8 → acc (off (s.reg 4) k) = true
  /-- the called function does not change the return address -/
  kept : ∀ k, 0 ≤ k → k < 8 → keep (off (s.reg 4) k) = true
  /-- the cell for `hi` exists and is not the return address -/
  cell : okAt acc p.pHI = true
  apart : Apart p.pHI (s.reg 4)

/-- The memory after `if (store) *m_pHI = hi`. -/
def stored (p : Pub) (s : Mach) : Memory :=
  if s.reg 1 &&& 1 = 0 then s.mem else wr s.mem p.pHI (s.reg 2)

/-- The code as generated. -/
def pubCode (p : Pub) : List Byte := (pubOps p).flatMap Op.bytes

/-! ## Theorems -/

theorem at_zero (ops : List Op) : At (ops.flatMap Op.bytes) 0 ops := ⟨[], [], by simp, rfl⟩

/-- Up to the test of `hi`. -/
theorem pub_first {acc keep : W → Bool} {p : Pub} {s : Mach} (h : PubOk acc keep p s)
    (ans : List Ans) :
    ∃ pc s', Steps acc keep (pubCode p) ⟨0, s, ans⟩ [] ⟨pc, s', ans⟩ ∧
      At (pubCode p) pc (.jz (i32 (size (pubCall p))) :: (pubCall p ++ pubEnd)) ∧
      s'.reg 4 = off (s.reg 4) (-56) ∧ s'.mem = stored p s ∧ s'.reg 9 = s.reg 2 ∧
      s'.xmm = s.xmm ∧ Same s s' ∧ holds s' .e = decide (s.reg 2 = 0) := by
  have h0 : At (pubCode p) 0 (pubOps p) := at_zero _
  unfold pubOps at h0
  obtain ⟨s₁, e₁, a4, am, a9, ax, as, ae⟩ := start_exec (acc := acc) (off_zero (s.reg 4)).symm
  have t₁ := steps_straight (keep := keep) (ans := ans) pubStart h0.left e₁
  have h1 := h0.right
  -- the optional store
  have key : ∃ s₂, Steps acc keep (pubCode p) ⟨0 + size pubStart, s₁, ans⟩ []
        ⟨0 + size pubStart + (Op.jz (i32 (size (pubStore p)))).bytes.length + size (pubStore p), s₂,
          ans⟩ ∧
      s₂.reg 4 = off (s.reg 4) (-56) ∧ s₂.mem = stored p s ∧ s₂.reg 9 = s.reg 2 ∧
      s₂.xmm = s.xmm ∧ Same s s₂ := by
    by_cases hst : s.reg 1 &&& 1 = 0
    · refine ⟨s₁, steps_skip h1 rfl (by simp [pubStore]) (by rw [ae]; exact decide_eq_true hst) ans, a4, ?_, a9, ax,
        as⟩
      rw [am, stored, if_pos hst]
    · have f := steps_fall (acc := acc) (keep := keep) h1 rfl (s := s₁)
        (by rw [ae, decide_eq_false_iff_not]; exact hst) ans
      obtain ⟨s₂, e₂, b4, bm, b9, bx, bs⟩ := store_exec (acc := acc) (s := s₁) p h.cell
      have g := steps_straight (keep := keep) (ans := ans) _ h1.tail.left e₂
      refine ⟨s₂, f.trans g, b4.trans a4, ?_, b9.trans a9, bx.trans ax, as.trans bs⟩
      rw [bm, am, a9, stored, if_neg hst]
  obtain ⟨s₂, t₂, b4, bm, b9, bx, bs⟩ := key
  have h2 := h1.tail.right
  obtain ⟨s₃, e₃, cr, cm, cx, ce⟩ := test_exec (acc := acc) (s := s₂)
  have t₃ := steps_straight (keep := keep) (ans := ans) [.test r9 r9] (At.left (a := [_]) h2) e₃
  refine ⟨_, s₃, (t₁.trans t₂).trans t₃, At.right (a := [_]) h2, ?_, ?_, ?_, ?_, ?_, ?_⟩
  · rw [cr]; exact b4
  · rw [cm]; exact bm
  · rw [cr]; exact b9
  · rw [cx]; exact bx
  · exact bs.trans fun r _ _ => by rw [cr]
  · rw [ce, b9]

/-- The epilogue. -/
theorem pub_last {acc keep : W → Bool} {p : Pub} {s : Mach} {S : W} {pc : Nat}
    (h : At (pubCode p) pc pubEnd) (h4 : s.reg 4 = off S (-56)) (ok : okAt acc S = true)
    (ans : List Ans) :
    ∃ pc' s₁ s', Steps acc keep (pubCode p) ⟨pc, s, ans⟩ [] ⟨pc', s₁, ans⟩ ∧
      step acc (pubCode p) pc' s₁ = .ret (rd s.mem S) s' ∧ s'.reg 0 = 0 ∧ s'.reg 4 = S + 8 ∧
      s'.mem = s.mem ∧ s'.xmm = s.xmm ∧ Same s s' := by
  obtain ⟨s₁, e₁, a4, am, a0, ax, as⟩ := end_exec (acc := acc) h4
  have hd : At (pubCode p) pc (pubEnd.dropLast ++ [.retn]) := h
  have t₁ := steps_straight (keep := keep) (ans := ans) _ hd.left e₁
  have r := step_ret (acc := acc) hd.right (s := s₁) (by rw [a4]; exact ok)
  rw [a4, am] at r
  refine ⟨_, s₁, _, t₁, r, ?_, ?_, ?_, ?_, ?_⟩
  · simp [a0]
  · simp
  · simp [am]
  · simp [ax]
  · refine as.trans fun r _ h4 => ?_
    simp [h4]

/-- **C64.** Without a `hi` the function only stores it (if told to) and returns 0: it calls
nothing, changes no other memory, keeps all registers the convention preserves and returns to its
caller with the stack pointer as the caller expects it. -/
theorem pub_null {acc keep : W → Bool} {p : Pub} {s : Mach} (h : PubOk acc keep p s)
    (hi : s.reg 2 = 0) (ans : List Ans) :
    ∃ code, generatePubFunc p = some code ∧
    ∃ s', Returns acc keep code s ans [] (rd s.mem (s.reg 4)) s' ans ∧
      s'.reg 0 = 0 ∧ s'.reg 4 = s.reg 4 + 8 ∧ s'.mem = stored p s ∧ s'.xmm = s.xmm ∧ Same s s' := by
  refine ⟨pubCode p, generatePubFunc_eq p, ?_⟩
  obtain ⟨pc, s₁, t₁, h₁, a4, am, a9, ax, as, ae⟩ := pub_first h ans
  have t₂ := steps_skip (acc := acc) (keep := keep) h₁ rfl (by simp [pubCall]) (s := s₁)
    (by rw [ae, hi]; simp) ans
  have ok : okAt acc (s.reg 4) = true := by
    rw [← off_zero (s.reg 4)]; exact okAt_off h.stack (by omega) (by omega)
  obtain ⟨pc', s₂, s', t₃, r, b0, b4, bm, bx, bs⟩ := pub_last (keep := keep) h₁.tail.right a4 ok ans
  refine ⟨s', ⟨pc', s₂, (t₁.trans t₂).trans t₃, ?_⟩, b0, b4, bm.trans am, bx.trans ax, as.trans bs⟩
  rw [r, am, stored]
  split
  · rfl
  · rw [rd_wr_apart _ _ _ _ h.apart]

/-- **C64.** With a `hi` the function stores it (if told to), then calls exactly one function, the
entry of `SetInfo` in the virtual table of `hi`, with `hi`, the version, the offset and the index
of the hooked function, the prototype and the address of the hook function's cell; at that call
the stack pointer is aligned if it was at the entry and the 32 bytes above it are free; apart from
its own stack the function changes no memory, and it returns 0 as in `pub_null`. -/
theorem pub_info {acc keep : W → Bool} {p : Pub} {s : Mach} (h : PubOk acc keep p s)
    (hidx : 8 * p.setInfo < 2 ^ 31) (hi : s.reg 2 ≠ 0) (hok : okAt acc (s.reg 2) = true)
    (hvt : okAt acc (rd (stored p s) (s.reg 2) + BitVec.ofNat 64 (8 * p.setInfo)) = true)
    (a : Ans) (ans : List Ans) :
    ∃ code, generatePubFunc p = some code ∧
    ∃ e s', Returns acc keep code s (a :: ans) [e] (rd s.mem (s.reg 4)) s' ans ∧
      e.target = rd (stored p s) (rd (stored p s) (s.reg 2) + BitVec.ofNat 64 (8 * p.setInfo)) ∧
      arg e.state 0 = s.reg 2 ∧ (arg e.state 1).setWidth 32 = i32 1 ∧
      (arg e.state 2).setWidth 32 = i32 p.vtblOffs ∧ (arg e.state 3).setWidth 32 = i32 p.vtblIdx ∧
      arg e.state 4 = p.builtPI ∧ arg e.state 5 = p.hookFunc ∧
      e.state.reg 4 = s.reg 4 - 56 ∧
      (∀ x : W, 16 ≤ (x - (s.reg 4 - 24)).toNat → e.state.mem x = stored p s x) ∧
      Same s e.state ∧
      s'.reg 0 = 0 ∧ s'.reg 4 = s.reg 4 + 8 ∧ s'.mem = (after keep e.state a).mem ∧
      Same s s' := by
  refine ⟨pubCode p, generatePubFunc_eq p, ?_⟩
  obtain ⟨pc, s₁, t₁, h₁, a4, am, a9, ax, as, ae⟩ := pub_first h (a :: ans)
  have t₂ := steps_fall (acc := acc) (keep := keep) h₁ rfl (s := s₁)
    (by rw [ae, decide_eq_false_iff_not]; exact hi) (a :: ans)
  have hv : rd (stored p s) (s.reg 2) + BitVec.ofNat 64 (8 * p.setInfo)
      = off (rd s₁.mem (s₁.reg 9)) (8 * p.setInfo) := by
    rw [am, a9]
    rfl
  rw [hv] at hvt ⊢
  obtain ⟨s₂, e₂, b4, bm, b0, b1, b2, b8, b9, bx, bs⟩ := call_exec p a4 h.stack
    (by rw [a9]; exact hok) hidx hvt
  have hd : At (pubCode p) _ (((pubCall p).dropLast ++ [.call rax]) ++ pubEnd) := h₁.tail
  have t₃ := steps_straight (keep := keep) (ans := a :: ans) _ hd.left.left e₂
  have hc := hd.left.right
  have t₄ := steps_call (acc := acc) (keep := keep) (ans := ans) (a := a) hc s₂
  have he : At (pubCode p) (pc + (Op.jz (i32 (size (pubCall p)))).bytes.length
      + size (pubCall p).dropLast + (Op.call rax).bytes.length) pubEnd := by
    have := hd.right
    rw [size_append, ← Nat.add_assoc, size_cons] at this
    exact this
  have ok : okAt acc (s.reg 4) = true := by
    rw [← off_zero (s.reg 4)]; exact okAt_off h.stack (by omega) (by omega)
  obtain ⟨pc', s₃, s', t₅, r, c0, c4, cm, cx, cs⟩ := pub_last (keep := keep) (s := after keep s₂ a)
    he (S := s.reg 4) (by simp [after, preserved, b4]) ok ans
  refine ⟨⟨s₂.reg rax, s₂⟩, s', ⟨pc', s₃, ?_, ?_⟩, ?_, ?_, ?_, ?_, ?_, ?_, ?_, ?_, ?_, ?_, c0, c4, cm, ?_⟩
  · exact (((t₁.trans t₂).trans t₃).trans t₄).trans t₅
  · rw [r]
    have hz := off_zero (s.reg 4)
    have : rd (after keep s₂ a).mem (s.reg 4) = rd s.mem (s.reg 4) := by
      have k := rd_after (keep := keep) (s := s₂) (a := a) (F := s.reg 4) (k := 0)
        (fun j h1 h2 => h.kept j h1 (by omega))
      rw [off_zero] at k
      have w1 := fun m v => rd_wr_off m (s.reg 4) v (a := -16) (b := 0) (by omega) (by omega)
      have w2 := fun m v => rd_wr_off m (s.reg 4) v (a := -24) (b := 0) (by omega) (by omega)
      rw [off_zero] at w1 w2
      rw [k, bm, w1, w2, am, stored]
      split
      · rfl
      · rw [rd_wr_apart _ _ _ _ h.apart]
    rw [this]
  · show s₂.reg 0 = _
    rw [b0, am]
  · exact b1.trans a9
  · show (s₂.reg 2).setWidth 32 = _
    rw [b2]; rfl
  · show (s₂.reg 8).setWidth 32 = _
    rw [b8]; simp
  · show (s₂.reg 9).setWidth 32 = _
    rw [b9]; simp
  · show rd s₂.mem (s₂.reg 4 + 32) = _
    rw [b4, show (32 : W) = c64 32 from rfl, off_add, bm, rd_wr_off _ _ _ (by omega) (by omega),
      rd_wr_off_eq _ _ _ (by omega)]
  · show rd s₂.mem (s₂.reg 4 + 40) = _
    rw [b4, show (40 : W) = c64 40 from rfl, off_add, bm, rd_wr_off_eq _ _ _ (by omega)]
  · show s₂.reg 4 = _
    rw [b4, show (56 : W) = c64 56 from rfl, sub_c64]
  · intro x hx
    show s₂.mem _ = _
    rw [show (24 : W) = c64 24 from rfl, sub_c64] at hx
    have h1 : x - off (s.reg 4) (-16) = x - off (s.reg 4) (-24) - 8 := by
      rw [show (-16 : Int) = -24 + 8 from rfl, ← off_add]
      show x - (off (s.reg 4) (-24) + 8) = _
      grind
    have h8 : (8 : W).toNat = 8 := rfl
    have := (x - off (s.reg 4) (-24)).isLt
    rw [bm, wr, if_neg, wr, if_neg, am]
    · omega
    · rw [h1, BitVec.toNat_sub, h8]
      omega
  · exact as.trans bs
  · exact (as.trans bs).trans ((same_after keep s₂ a).trans cs)

/-- **C64.** The alignment rule of the convention, spelled out: a caller has the stack pointer at
a multiple of 16 when it calls, so it is 8 off on entry; then it is a multiple of 16 again at the
call of `SetInfo`. -/
theorem pub_aligned (S : W) (h : S.toNat % 16 = 8) : (S - 56).toNat % 16 = 0 := by
  rw [BitVec.toNat_sub]
  have : (56 : W).toNat = 56 := rfl
  have := S.isLt
  omega

/-! ### The hypotheses are met -/

/-- A public function as `CHookManager` would make it. -/
def examplePub : Pub :=
  { pHI := 0x3000, builtPI := 0x4000, hookFunc := 0x5000, vtblOffs := 0, vtblIdx := 7, setInfo := 2 }

/-- A caller with `store = true` and `hi = v`; every address holds the byte 0. -/
def exampleMach (v : W) : Mach :=
  { reg := fun r => if r = 4 then 0x10008 else if r = 1 then 1 else if r = 2 then v else 0
    xmm := fun _ => 0, mem := fun _ => 0, zf := false, sf := false, of := false }

/-- The return address and the four cells above it are the caller's. -/
def exampleKeep (x : W) : Bool := (x - 0x10008).toNat < 40

theorem exampleMach_ok (v : W) :
    PubOk (fun _ => true) exampleKeep examplePub (exampleMach v) where
  stack := fun _ _ _ => rfl
  kept := by
    intro k h1 h2
    show exampleKeep (off 0x10008 k) = true
    have : k = 0 ∨ k = 1 ∨ k = 2 ∨ k = 3 ∨ k = 4 ∨ k = 5 ∨ k = 6 ∨ k = 7 := by omega
    rcases this with rfl | rfl | rfl | rfl | rfl | rfl | rfl | rfl <;> decide
  cell := by decide
  apart := by
    show Apart 0x3000 0x10008
    unfold Apart; decide

example : ∃ code, generatePubFunc examplePub = some code ∧
    ∃ s', Returns (fun _ => true) exampleKeep code (exampleMach 0) [] [] 0 s' [] ∧
      s'.mem = wr (fun _ => 0) 0x3000 0 ∧ s'.reg 4 = 0x10010 := by
  obtain ⟨c, hc, s', h, -, h4, hm, -⟩ := pub_null (exampleMach_ok 0) rfl []
  exact ⟨c, hc, s', h, hm, h4⟩

example (a : Ans) : ∃ code, generatePubFunc examplePub = some code ∧
    ∃ e s', Returns (fun _ => true) exampleKeep code (exampleMach 0x2000) [a] [e] 0 s' [] ∧
      arg e.state 0 = 0x2000 ∧ arg e.state 5 = 0x5000 ∧ e.state.reg 4 = 0xffd0 := by
  obtain ⟨c, hc, e, s', h, -, h0, -, -, -, -, h5, h4, -⟩ :=
    pub_info (exampleMach_ok 0x2000) (by decide) (by decide) (by decide) rfl a []
  exact ⟨c, hc, e, s', h, h0, h5, h4⟩

example : ((0x10008 : W) - 56).toNat % 16 = 0 := pub_aligned _ (by decide)

end Verif.Jit

#print axioms Verif.Jit.pub_null
#print axioms Verif.Jit.pub_info
#print axioms Verif.Jit.pub_aligned
