import Verif.Jit32.Exec
/-
C74: running the generated public function of the 32-bit generator does what the C code in the
comment of core/sourcehook/sourcehook_hookmangen_x86.cpp:1708-1719 says.
-/
namespace Verif.Jit32

open Verif.Jit (Byte)

variable {U : Fpu}

/-! ## The code -/

/-- The instructions of the public function, with the distances of the jumps filled in. -/
def pubOps (p : Pub) : List Op :=
  pubStart ++ (.jcc8 4 (i8 (size (pubStore p))) :: pubStore p
    ++ ([.testRmReg ecx ecx 3] ++ (.jcc8 4 (i8 (size (pubCall p))) :: pubCall p ++ pubEnd)))

theorem generatePubFunc_eq (p : Pub) :
    generatePubFunc p = some ((pubOps p).flatMap Op.bytes) :=
  ((out_writes _).andThen (((out_writes _).over8 4).andThen ((out_writes _).andThen
    (((out_writes _).over8 4).andThen (out_writes _))))) []

theorem pubStore_size (p : Pub) : size (pubStore p) = 8 := rfl
theorem pubCall_size (p : Pub) : size (pubCall p) = 35 := rfl

theorem pub_fits (p : Pub) : AllFit (pubOps p) := by
  unfold pubOps pubStart pubStore pubCall pubEnd
  fits

/-- `x` does not lie in the `n` bytes below `S`. -/
def Below (S : W) (n : Nat) (x : W) : Prop := n ≤ (x - off S (-n)).toNat

theorem wr_below (m : Memory) {S x v : W} {n : Nat} {k : Int} (h : Below S n x) (h1 : -n ≤ k)
    (h2 : k + 4 ≤ 0) (hn : n < 2 ^ 30) : wr m (off S k) v x = m x := by
  unfold Below at h
  have e : x - off S k = x - off S (-n) - i32 (k + n) := by
    have : off S k = off S (-n) + i32 (k + n) := by
      rw [off_add]; congr 1; omega
    rw [this]
    grind
  unfold wr
  rw [if_neg]
  rw [e, BitVec.toNat_sub]
  have := i32_toNat (k + n)
  have := (x - off S (-n)).isLt
  omega

theorem rd_wr_below (m : Memory) {S a v : W} {n : Nat} {k : Int}
    (h : ∀ i < 4, Below S n (a + BitVec.ofNat 32 i)) (h1 : -n ≤ k)
    (h2 : k + 4 ≤ 0) (hn : n < 2 ^ 30) : rd (wr m (off S k) v) a = rd m a :=
  rd_congr fun i hi => wr_below m (h i hi) h1 h2 hn

/-! ## Symbolic execution -/

theorem start_exec {acc : W → Bool} {s : Mach U}
    (h : ∀ k, -32 ≤ k → k < 12 → acc (off (s.reg 4) k) = true) :
    ∃ s', execs acc s pubStart = some s' ∧ s'.reg 4 = off (s.reg 4) (-4) ∧
      s'.reg 5 = off (s.reg 4) (-4) ∧ s'.mem = wr s.mem (off (s.reg 4) (-4)) (s.reg 5) ∧
      s'.reg 1 = rd s.mem (off (s.reg 4) 8) ∧ s'.fpu = s.fpu ∧
      s'.reg 3 = s.reg 3 ∧ s'.reg 6 = s.reg 6 ∧ s'.reg 7 = s.reg 7 ∧
      holds s' 4 = some (decide (s.mem (off (s.reg 4) 4) = 0)) := by
  have e8 : ∀ b : Byte, low8 (b.setWidth 32) = b := by
    intro b
    apply BitVec.eq_of_toNat_eq
    have := b.isLt
    simp [low8, BitVec.extractLsb'_toNat]
    omega
  sym [pubStart, okN_off h, h, rd_wr_off, wr_off_far, e8, holds_e_flags]
  rfl

theorem store_exec {acc : W → Bool} {s : Mach U} (p : Pub) (hc : okN acc p.pHI 4 = true) :
    ∃ s', execs acc s (pubStore p) = some s' ∧ s'.reg 4 = s.reg 4 ∧ s'.reg 5 = s.reg 5 ∧
      s'.mem = wr s.mem p.pHI (s.reg 1) ∧ s'.reg 1 = s.reg 1 ∧ s'.fpu = s.fpu ∧
      s'.reg 3 = s.reg 3 ∧ s'.reg 6 = s.reg 6 ∧ s'.reg 7 = s.reg 7 := by
  sym [pubStore, hc]

theorem test_exec {acc : W → Bool} {s : Mach U} :
    ∃ s', execs acc s [.testRmReg ecx ecx 3] = some s' ∧ s'.reg = s.reg ∧ s'.mem = s.mem ∧
      s'.fpu = s.fpu ∧ holds s' 4 = some (decide (s.reg 1 = 0)) := by
  sym [holds_e_log]

/-- The call of `SetInfo` up to the call instruction. -/
theorem call_exec {acc : W → Bool} {s : Mach U} {S : W} (p : Pub) (h4 : s.reg 4 = off S (-4))
    (hs : ∀ k, -32 ≤ k → k < 12 → acc (off S k) = true) (hi : okN acc (s.reg 1) 4 = true)
    (hib : ∀ i < 4, Below S 28 (s.reg 1 + BitVec.ofNat 32 i))
    (hv : okN acc (rd s.mem (s.reg 1)) 4 = true)
    (hvb : ∀ i < 4, Below S 28 (rd s.mem (s.reg 1) + BitVec.ofNat 32 i)) :
    ∃ s', execs acc s ((pubCall p).take 8) = some s' ∧ s'.reg 4 = off S (-28) ∧
      s'.mem = wr (wr (wr (wr (wr (wr s.mem (off S (-8)) p.hookFunc) (off S (-12)) p.builtPI)
        (off S (-16)) (i32 p.vtblIdx)) (off S (-20)) (i32 p.vtblOffs)) (off S (-24)) (i32 1))
        (off S (-28)) (s.reg 1) ∧
      s'.reg 0 = rd s.mem (rd s.mem (s.reg 1)) ∧ s'.fpu = s.fpu ∧ s'.reg 5 = s.reg 5 ∧
      s'.reg 3 = s.reg 3 ∧ s'.reg 6 = s.reg 6 ∧ s'.reg 7 = s.reg 7 := by
  sym [pubCall, h4, hi, hv, okN_off hs, rd_wr_below _ hib, rd_wr_below _ hvb]

theorem end_exec {acc : W → Bool} {s : Mach U} {S : W} (h5 : s.reg 5 = off S (-4))
    (hs : ∀ k, -32 ≤ k → k < 12 → acc (off S k) = true) :
    ∃ s', execs acc s (pubEnd.take 3) = some s' ∧ s'.reg 4 = S ∧ s'.mem = s.mem ∧ s'.reg 0 = 0 ∧
      s'.fpu = s.fpu ∧ s'.reg 5 = rd s.mem (off S (-4)) ∧
      s'.reg 3 = s.reg 3 ∧ s'.reg 6 = s.reg 6 ∧ s'.reg 7 = s.reg 7 := by
  sym [pubEnd, h5, okN_off hs]

/-! ## Specification -/

/-- What the caller of the public function provides.  On entry the stack holds the return address,
`store` (a `bool` in the lowest byte of a word) and `hi`. -/
structure PubOk (E : Env) (p : Pub) (s : Mach U) : Prop where
  /-- 32 bytes of stack below the stack pointer, and the 12 above, may be used -/
  stack : ∀ k, -32 ≤ k → k < 12 → E.acc (off (s.reg 4) k) = true
  /-- the called function leaves alone what lies on the stack above its arguments, up to and with
  the return address -/
  top : E.top = off (s.reg 4) 4
  /-- the cell for `hi` exists and does not lie on the stack -/
  cell : okN E.acc p.pHI 4 = true
  apart : ∀ i < 4, Below (off (s.reg 4) 12) 44 (p.pHI + BitVec.ofNat 32 i)
  /-- the floating point stack is empty, as the convention demands -/
  fpu : s.fpu = []

/-- The memory after `if (store) *m_pHI = hi`. -/
def stored (p : Pub) (s : Mach U) : Memory :=
  if s.mem (s.reg 4 + 4) = 0 then s.mem else wr s.mem p.pHI (arg s 2)

/-- The code as generated. -/
def pubCode (p : Pub) : List Byte := (pubOps p).flatMap Op.bytes

/-! ## Theorems -/

theorem at_zero {ops : List Op} (h : AllFit ops) : At (ops.flatMap Op.bytes) 0 ops :=
  ⟨⟨[], [], by simp, rfl⟩, h⟩

/-- The bytes of a word written at `a` are those from `a` on. -/
theorem wr_apart (m : Memory) {S a v : W} {n : Nat} {k : Int}
    (h : ∀ i < 4, Below S n (a + BitVec.ofNat 32 i)) (h1 : -n ≤ k) (h2 : k < 0) (hn : n < 2 ^ 30) :
    wr m a v (off S k) = m (off S k) := by
  unfold wr
  rw [if_neg]
  intro hlt
  have := h _ hlt
  unfold Below at this
  rw [BitVec.ofNat_toNat, BitVec.setWidth_eq] at this
  have e : a + (off S k - a) = off S k := by grind
  rw [e, off_sub_off] at this
  have := i32_toNat (k - -n)
  omega

theorem rd_wr_apart (m : Memory) {S a v : W} {n : Nat} {k : Int}
    (h : ∀ i < 4, Below S n (a + BitVec.ofNat 32 i)) (h1 : -n ≤ k) (h2 : k + 4 ≤ 0)
    (hn : n < 2 ^ 30) : rd (wr m a v) (off S k) = rd m (off S k) := by
  apply rd_congr
  intro i hi
  rw [off_bytes]
  exact wr_apart m h (by omega) (by omega) hn

theorem wr_comm (m : Memory) {a b u v x : W}
    (h : ∀ i j : Nat, i < 4 → j < 4 → a + BitVec.ofNat 32 i ≠ b + BitVec.ofNat 32 j) :
    wr (wr m a u) b v x = wr (wr m b v) a u x := by
  unfold wr
  by_cases h1 : (x - a).toNat < 4
  · by_cases h2 : (x - b).toNat < 4
    · exfalso
      apply h _ _ h1 h2
      rw [BitVec.ofNat_toNat, BitVec.setWidth_eq, BitVec.ofNat_toNat, BitVec.setWidth_eq]
      grind
    · rw [if_neg h2, if_pos h1, if_pos h1]
  · rw [if_neg h1, if_neg h1]

/-- The memory while the frame is set up: the caller's frame pointer has been pushed. -/
def framed (p : Pub) (s : Mach U) : Memory := wr (stored p s) (off (s.reg 4) (-4)) (s.reg 5)

/-- Up to the test of `hi`. -/
theorem pub_first {E : Env} {p : Pub} {s : Mach U} (h : PubOk E p s) (ans : List (Ans U)) :
    ∃ pc s', Steps E (pubCode p) ⟨0, s, ans⟩ [] ⟨pc, s', ans⟩ ∧
      At (pubCode p) pc (.jcc8 4 (i8 (size (pubCall p))) :: (pubCall p ++ pubEnd)) ∧
      s'.reg 4 = off (s.reg 4) (-4) ∧ s'.reg 5 = off (s.reg 4) (-4) ∧ s'.mem = framed p s ∧
      s'.reg 1 = arg s 2 ∧ s'.fpu = [] ∧
      s'.reg 3 = s.reg 3 ∧ s'.reg 6 = s.reg 6 ∧ s'.reg 7 = s.reg 7 ∧
      holds s' 4 = some (decide (arg s 2 = 0)) := by
  have h0 : At (pubCode p) 0 (pubOps p) := at_zero (pub_fits p)
  unfold pubOps at h0
  obtain ⟨s₁, e₁, a4, a5, am, a1, af, a3, a6, a7, ae⟩ := start_exec h.stack
  have t₁ := steps_straight (ans := ans) pubStart h0.left e₁
  have h1 := h0.right
  have harg : arg s 2 = rd s.mem (off (s.reg 4) 8) := rfl
  have hsb : s.mem (s.reg 4 + 4) = s.mem (off (s.reg 4) 4) := rfl
  have key : ∃ s₂, Steps E (pubCode p) ⟨0 + size pubStart, s₁, ans⟩ []
        ⟨0 + size pubStart + size (.jcc8 4 (i8 (size (pubStore p))) :: pubStore p), s₂, ans⟩ ∧
      s₂.reg 4 = off (s.reg 4) (-4) ∧ s₂.reg 5 = off (s.reg 4) (-4) ∧ s₂.mem = framed p s ∧
      s₂.reg 1 = arg s 2 ∧ s₂.fpu = [] ∧
      s₂.reg 3 = s.reg 3 ∧ s₂.reg 6 = s.reg 6 ∧ s₂.reg 7 = s.reg 7 := by
    by_cases hst : s.mem (s.reg 4 + 4) = 0
    · refine ⟨s₁, ?_, a4, a5, ?_, a1, af.trans h.fpu, a3, a6, a7⟩
      · have := steps_skip (E := E) (rest := _) (skip := pubStore p) h1 (c := 4)
          (show _ = Instr.jcc 4 (i32 (size (pubStore p))) from by
            rw [← sx8_i8 _ (by rw [pubStore_size]; decide)]; rfl)
          (by rw [pubStore_size]; decide) (s := s₁)
          (by rw [ae, ← hsb, hst]; rfl) ans
        rw [size_cons, ← Nat.add_assoc]
        exact this
      · rw [am, framed, stored, if_pos hst]
    · have f := steps_fall (E := E) h1 (c := 4) (d := i32 (size (pubStore p)))
          (show _ = Instr.jcc 4 (i32 (size (pubStore p))) from by
            rw [← sx8_i8 _ (by rw [pubStore_size]; decide)]; rfl) (s := s₁)
          (by rw [ae, ← hsb, decide_eq_false hst]) ans
      obtain ⟨s₂, e₂, b4, b5, bm, b1, bf, b3, b6, b7⟩ := store_exec (s := s₁) p h.cell
      have g := steps_straight (E := E) (ans := ans) _ (At.left (a := pubStore p) h1.tail) e₂
      refine ⟨s₂, ?_, b4.trans a4, b5.trans a5, ?_, b1.trans a1, bf.trans (af.trans h.fpu),
        b3.trans a3, b6.trans a6, b7.trans a7⟩
      · rw [size_cons, ← Nat.add_assoc]
        exact f.trans g
      · rw [bm, am, a1, framed, stored, if_neg hst]
        funext x
        apply wr_comm
        intro i j hi hj e
        have := h.apart j hj
        unfold Below at this
        rw [← e, off_off, off_bytes, off_sub_off] at this
        have := i32_toNat (-4 + (i : Int) - (12 + -((44 : Nat) : Int)))
        omega
  obtain ⟨s₂, t₂, b4, b5, bm, b1, bf, b3, b6, b7⟩ := key
  have h2 := h1.right
  obtain ⟨s₃, e₃, cr, cm, cf, ce⟩ := test_exec (acc := E.acc) (s := s₂)
  have t₃ := steps_straight (ans := ans) [.testRmReg ecx ecx 3] h2.left e₃
  refine ⟨_, s₃, (t₁.trans t₂).trans t₃, h2.right, ?_, ?_, ?_, ?_, ?_, ?_, ?_, ?_, ?_⟩
  · rw [cr]; exact b4
  · rw [cr]; exact b5
  · rw [cm]; exact bm
  · rw [cr]; exact b1
  · rw [cf]; exact bf
  · rw [cr]; exact b3
  · rw [cr]; exact b6
  · rw [cr]; exact b7
  · rw [ce, b1]

/-- The epilogue. -/
theorem pub_last {E : Env} {p : Pub} {s : Mach U} {S : W} {pc : Nat}
    (h : At (pubCode p) pc pubEnd) (h5 : s.reg 5 = off S (-4))
    (hs : ∀ k, -32 ≤ k → k < 12 → E.acc (off S k) = true) (ans : List (Ans U)) :
    ∃ pc' s₁ s', Steps E (pubCode p) ⟨pc, s, ans⟩ [] ⟨pc', s₁, ans⟩ ∧
      step E.acc (pubCode p) pc' s₁ = .ret (rd s.mem S) s' ∧ s'.reg 0 = 0 ∧ s'.reg 4 = S + 4 ∧
      s'.mem = s.mem ∧ s'.fpu = s.fpu ∧ s'.reg 5 = rd s.mem (off S (-4)) ∧
      s'.reg 3 = s.reg 3 ∧ s'.reg 6 = s.reg 6 ∧ s'.reg 7 = s.reg 7 := by
  obtain ⟨s₁, e₁, a4, am, a0, af, a5, a3, a6, a7⟩ := end_exec h5 hs
  have hd : At (pubCode p) pc (pubEnd.take 3 ++ [.ret]) := h
  have t₁ := steps_straight (E := E) (ans := ans) _ hd.left e₁
  have ok : okN E.acc S 4 = true := by
    rw [← off_zero S]; exact okN_off hs (by omega) (by omega)
  have r := step_ret (acc := E.acc) hd.right (s := s₁) (by rw [a4]; exact ok)
  rw [a4, am] at r
  refine ⟨_, s₁, _, t₁, r, ?_, ?_, ?_, ?_, ?_, ?_, ?_, ?_⟩
  · simp [a0]
  · simp
  · simp [am]
  · simp [af]
  · simp [a5]
  · simp [a3]
  · simp [a6]
  · simp [a7]

/-- The own stack of the function aside, memory is as after the optional store. -/
theorem framed_out {p : Pub} {s : Mach U} {x : W} (h : Below (s.reg 4) 28 x) :
    framed p s x = stored p s x := wr_below _ h (by omega) (by omega) (by omega)

theorem framed_ret {E : Env} {p : Pub} {s : Mach U} (h : PubOk E p s) :
    rd (framed p s) (s.reg 4) = rd s.mem (s.reg 4) := by
  have w := fun m v => rd_wr_off m (s.reg 4) v (a := -4) (b := 0) (by omega) (by omega)
  rw [off_zero] at w
  rw [framed, w, stored]
  split
  · rfl
  · have := rd_wr_apart s.mem (v := arg s 2) (k := -12) h.apart (by omega) (by omega) (by omega)
    rw [off_off] at this
    rw [← off_zero (s.reg 4)]
    exact this

/-- **C74.** Without a `hi` the function only stores it (if told to) and returns 0: it calls
nothing, changes no memory apart from the cell and four bytes of its own stack, keeps all registers
the convention preserves and returns to its caller with the stack pointer as the caller expects
it. -/
theorem pub_null {E : Env} {p : Pub} {s : Mach U} (h : PubOk E p s) (hi : arg s 2 = 0)
    (ans : List (Ans U)) :
    ∃ code, generatePubFunc p = some code ∧
    ∃ s', Returns E code s ans [] (rd s.mem (s.reg 4)) s' ans ∧
      s'.reg 0 = 0 ∧ s'.reg 4 = s.reg 4 + 4 ∧
      (∀ x, Below (s.reg 4) 4 x → s'.mem x = stored p s x) ∧ s'.fpu = [] ∧ Same s s' := by
  refine ⟨pubCode p, generatePubFunc_eq p, ?_⟩
  obtain ⟨pc, s₁, t₁, h₁, a4, a5, am, a1, af, a3, a6, a7, ae⟩ := pub_first h ans
  have t₂ := steps_skip (E := E) (skip := pubCall p) h₁ (c := 4)
    (show _ = Instr.jcc 4 (i32 (size (pubCall p))) from by
      rw [← sx8_i8 _ (by rw [pubCall_size]; decide)]; rfl)
    (by rw [pubCall_size]; decide) (s := s₁) (by rw [ae, hi]; rfl) ans
  obtain ⟨pc', s₂, s', t₃, r, b0, b4, bm, bf, b5, b3, b6, b7⟩ :=
    pub_last (E := E) h₁.tail.right a5 h.stack ans
  refine ⟨s', ⟨pc', s₂, (t₁.trans t₂).trans t₃, ?_⟩, b0, b4, ?_, bf.trans af, ?_⟩
  · rw [r, am, framed_ret h]
  · intro x hx
    rw [bm, am]
    exact wr_below _ hx (by omega) (by omega) (by omega)
  · apply same_of (b3.trans a3) _ (b6.trans a6) (b7.trans a7)
    rw [b5, am, framed, rd_wr_same]

/-- **C74.** With a `hi` the function stores it (if told to), then calls exactly one function, the
first entry of the virtual table of `hi`, with `hi`, the version, the offset and the index
of the hooked function, the prototype and the address of the hook function's cell; apart from
its own stack the function changes no memory, and it returns 0 as in `pub_null`.  The object and its
virtual table must not lie in the 28 bytes below the stack pointer; `SetInfo` must keep to the
convention: it takes the six words, removes none of them and leaves the floating point stack
empty. -/
theorem pub_info {E : Env} {p : Pub} {s : Mach U} (h : PubOk E p s) (hi : arg s 2 ≠ 0)
    (hok : okN E.acc (arg s 2) 4 = true)
    (hib : ∀ i < 4, Below (s.reg 4) 28 (arg s 2 + BitVec.ofNat 32 i))
    (hvt : okN E.acc (rd (stored p s) (arg s 2)) 4 = true)
    (hvb : ∀ i < 4, Below (s.reg 4) 28 (rd (stored p s) (arg s 2) + BitVec.ofNat 32 i))
    (a : Ans U) (ho : a.own = 24) (hp : a.pop = 0) (hf : a.fpu = []) (ans : List (Ans U)) :
    ∃ code, generatePubFunc p = some code ∧
    ∃ e s', Returns E code s (a :: ans) [e] (rd s.mem (s.reg 4)) s' ans ∧
      e.target = rd (stored p s) (rd (stored p s) (arg s 2)) ∧
      arg e.state 0 = arg s 2 ∧ arg e.state 1 = 1 ∧
      arg e.state 2 = i32 p.vtblOffs ∧ arg e.state 3 = i32 p.vtblIdx ∧
      arg e.state 4 = p.builtPI ∧ arg e.state 5 = p.hookFunc ∧
      e.state.reg 4 = s.reg 4 - 28 ∧ e.state.fpu = [] ∧
      (∀ x, Below (s.reg 4) 28 x → e.state.mem x = stored p s x) ∧
      s'.reg 0 = 0 ∧ s'.reg 4 = s.reg 4 + 4 ∧ s'.mem = (after E e.state a).mem ∧
      s'.fpu = [] ∧ Same s s' := by
  refine ⟨pubCode p, generatePubFunc_eq p, ?_⟩
  obtain ⟨pc, s₁, t₁, h₁, a4, a5, am, a1, af, a3, a6, a7, ae⟩ := pub_first h (a :: ans)
  have t₂ := steps_fall (E := E) h₁ (c := 4) (d := i32 (size (pubCall p)))
    (show _ = Instr.jcc 4 (i32 (size (pubCall p))) from by
      rw [← sx8_i8 _ (by rw [pubCall_size]; decide)]; rfl) (s := s₁)
    (by rw [ae, decide_eq_false hi]) (a :: ans)
  have r1 : rd s₁.mem (arg s 2) = rd (stored p s) (arg s 2) := by
    rw [am]; exact rd_congr fun i hi => framed_out (hib i hi)
  have r2 : rd s₁.mem (rd (stored p s) (arg s 2)) = rd (stored p s) (rd (stored p s) (arg s 2)) := by
    rw [am]; exact rd_congr fun i hi => framed_out (hvb i hi)
  obtain ⟨s₂, e₂, b4, bm, b0, bf, b5, b3, b6, b7⟩ := call_exec p a4 h.stack
    (by rw [a1]; exact hok) (by rw [a1]; exact hib) (by rw [a1, r1]; exact hvt)
    (by rw [a1, r1]; exact hvb)
  rw [a1, r1, r2] at b0
  rw [a1] at bm
  have hd : At (pubCode p) _ ((pubCall p).take 8 ++ ([.call eax] ++ ([.addImm8 esp (i8 24) 3]
      ++ pubEnd))) := h₁.tail
  have t₃ := steps_straight (E := E) (ans := a :: ans) _ hd.left e₂
  have t₄ := steps_call (E := E) (ans := ans) (a := a) hd.right (s := s₂)
    (by rw [b4, off_sub4]; exact okN_off h.stack (by omega) (by omega)) (bf.trans af)
  -- memory after the call
  have keepm : ∀ k, -4 ≤ k → k < 4 → (after E s₂ a).mem (off (s.reg 4) k) = s₂.mem (off (s.reg 4) k) := by
    intro k h1 h2
    have : between (s₂.reg 4 + BitVec.ofNat 32 a.own) E.top (off (s.reg 4) k) = true := by
      rw [ho, h.top, b4, off_bytes]
      unfold between
      rw [off_sub_off, off_sub_off, decide_eq_true_eq]
      have := i32_toNat (k - (-28 + ((24 : Nat) : Int)))
      have := i32_toNat (4 - (-28 + ((24 : Nat) : Int)))
      omega
    simp [after, this]
  have keepr : ∀ k, -4 ≤ k → k + 4 ≤ 4 → rd (after E s₂ a).mem (off (s.reg 4) k)
      = rd s₂.mem (off (s.reg 4) k) := by
    intro k h1 h2
    apply rd_congr
    intro i hi
    rw [off_bytes]
    exact keepm _ (by omega) (by omega)
  have rs₂ : ∀ k, -4 ≤ k → k + 4 ≤ 4 → rd s₂.mem (off (s.reg 4) k)
      = rd (framed p s) (off (s.reg 4) k) := by
    intro k h1 h2
    rw [bm, rd_wr_off _ _ _ (by omega) (by omega), rd_wr_off _ _ _ (by omega) (by omega),
      rd_wr_off _ _ _ (by omega) (by omega), rd_wr_off _ _ _ (by omega) (by omega),
      rd_wr_off _ _ _ (by omega) (by omega), rd_wr_off _ _ _ (by omega) (by omega), am]
  have g := hd.right.right
  rw [show ([Op.call eax] : List Op) = [Op.call eax] from rfl] at g
  obtain ⟨s₃, e₃, d4, d5, dm, df, d3, d6, d7⟩ : ∃ s₃,
      execs E.acc (after E s₂ a) [.addImm8 esp (i8 24) 3] = some s₃ ∧ s₃.reg 4 = off (s.reg 4) (-4) ∧
      s₃.reg 5 = off (s.reg 4) (-4) ∧ s₃.mem = (after E s₂ a).mem ∧ s₃.fpu = [] ∧
      s₃.reg 3 = s₂.reg 3 ∧ s₃.reg 6 = s₂.reg 6 ∧ s₃.reg 7 = s₂.reg 7 := by
    sym [after_reg, hp, b4, b5, a5, preserved]
    rw [show (after E s₂ a).fpu = a.fpu from rfl, hf]
  have t₅ := steps_straight (E := E) (ans := ans) _ g.left e₃
  obtain ⟨pc', s₄, s', t₆, r, c0, c4, cm, cf, c5, c3, c6, c7⟩ :=
    pub_last (E := E) g.right d5 h.stack ans
  have off0 := off_zero (s.reg 4)
  refine ⟨⟨s₂.reg eax, s₂⟩, s', ⟨pc', s₄, ?_, ?_⟩, b0, ?_, ?_, ?_, ?_, ?_, ?_, ?_, bf.trans af, ?_,
    c0, c4, ?_, cf.trans df, ?_⟩
  · exact ((((t₁.trans t₂).trans t₃).trans t₄).trans t₅).trans t₆
  · rw [r, dm]
    have k := keepr 0 (by omega) (by omega)
    have k' := rs₂ 0 (by omega) (by omega)
    rw [off0] at k k'
    rw [k, k', framed_ret h]
  · show rd s₂.mem (s₂.reg 4 + BitVec.ofNat 32 (4 * 0)) = _
    rw [b4, off_bytes, bm, rd_wr_off_eq _ _ _ (by omega)]
  · show rd s₂.mem (s₂.reg 4 + BitVec.ofNat 32 (4 * 1)) = _
    rw [b4, off_bytes, bm, rd_wr_off _ _ _ (by omega) (by omega), rd_wr_off_eq _ _ _ (by omega)]
    rfl
  · show rd s₂.mem (s₂.reg 4 + BitVec.ofNat 32 (4 * 2)) = _
    rw [b4, off_bytes, bm, rd_wr_off _ _ _ (by omega) (by omega),
      rd_wr_off _ _ _ (by omega) (by omega), rd_wr_off_eq _ _ _ (by omega)]
  · show rd s₂.mem (s₂.reg 4 + BitVec.ofNat 32 (4 * 3)) = _
    rw [b4, off_bytes, bm, rd_wr_off _ _ _ (by omega) (by omega),
      rd_wr_off _ _ _ (by omega) (by omega), rd_wr_off _ _ _ (by omega) (by omega),
      rd_wr_off_eq _ _ _ (by omega)]
  · show rd s₂.mem (s₂.reg 4 + BitVec.ofNat 32 (4 * 4)) = _
    rw [b4, off_bytes, bm, rd_wr_off _ _ _ (by omega) (by omega),
      rd_wr_off _ _ _ (by omega) (by omega), rd_wr_off _ _ _ (by omega) (by omega),
      rd_wr_off _ _ _ (by omega) (by omega), rd_wr_off_eq _ _ _ (by omega)]
  · show rd s₂.mem (s₂.reg 4 + BitVec.ofNat 32 (4 * 5)) = _
    rw [b4, off_bytes, bm, rd_wr_off _ _ _ (by omega) (by omega),
      rd_wr_off _ _ _ (by omega) (by omega), rd_wr_off _ _ _ (by omega) (by omega),
      rd_wr_off _ _ _ (by omega) (by omega), rd_wr_off _ _ _ (by omega) (by omega),
      rd_wr_off_eq _ _ _ (by omega)]
  · show s₂.reg 4 = _
    rw [b4, show (28 : W) = i32 28 from rfl, sub_i32]
  · intro x hx
    show s₂.mem x = _
    rw [bm, wr_below _ hx (by omega) (by omega) (by omega),
      wr_below _ hx (by omega) (by omega) (by omega), wr_below _ hx (by omega) (by omega) (by omega),
      wr_below _ hx (by omega) (by omega) (by omega), wr_below _ hx (by omega) (by omega) (by omega),
      wr_below _ hx (by omega) (by omega) (by omega), am, framed_out hx]
  · rw [cm, dm]
  · apply same_of
    · rw [c3, d3, b3, a3]
    · rw [c5, dm, keepr (-4) (by omega) (by omega), rs₂ (-4) (by omega) (by omega), framed,
        rd_wr_same]
    · rw [c6, d6, b6, a6]
    · rw [c7, d7, b7, a7]

/-- **C74.** The alignment rule of the convention, spelled out: a caller has the stack pointer at
a multiple of 16 when it calls, so it is 12 off on entry; then it is a multiple of 16 again at the
call of `SetInfo`. -/
theorem pub_aligned (S : W) (h : S.toNat % 16 = 12) : (S - 28).toNat % 16 = 0 := by
  rw [BitVec.toNat_sub]
  have : (28 : W).toNat = 28 := rfl
  have := S.isLt
  omega

/-! ### The hypotheses are met -/

/-- No counterpart in /repo: a floating point unit, for the examples. -/
def exampleFpu : Fpu :=
  { F := BitVec 32 × BitVec 64, of32 := fun v => (quiet32 v, 0), to32 := fun v => v.1
    of64 := fun v => (0, quiet64 v), to64 := fun v => v.2, back32 := fun _ => rfl
    back64 := fun _ => rfl }

/-- No counterpart in /repo: a public function as `CHookManager` would make it. -/
def examplePub : Pub :=
  { pHI := 0x3000, builtPI := 0x4000, hookFunc := 0x5000, vtblOffs := 0, vtblIdx := 7 }

/-- No counterpart in /repo: a caller with `store = true` and `hi = 256 * b`; other addresses hold
the byte 0. -/
def exampleMach (b : Byte) : Mach exampleFpu :=
  { reg := fun r => if r = 4 then 0x1000C else 0, fpu := []
    mem := fun x => if x = 0x10010 then 1 else if x = 0x10015 then b else 0
    zf := false, sf := false, of := false }

/-- No counterpart in /repo: everything may be accessed. -/
def exampleEnv : Env := { acc := fun _ => true, keep := fun _ => false, top := 0x10010 }

theorem exampleMach_ok (b : Byte) : PubOk exampleEnv examplePub (exampleMach b) where
  stack := fun _ _ _ => rfl
  top := by show (0x10010 : W) = off 0x1000C 4; decide
  cell := by decide
  apart := by
    show ∀ i < 4, 44 ≤ ((0x3000 : W) + BitVec.ofNat 32 i - off (off 0x1000C 12) (-(44 : Nat))).toNat
    decide
  fpu := rfl

example : ∃ code, generatePubFunc examplePub = some code ∧
    ∃ s', Returns exampleEnv code (exampleMach 0) [] [] 0 s' [] ∧
      s'.mem 0x3000 = 0 ∧ s'.reg 4 = 0x10010 := by
  obtain ⟨c, hc, s', h, -, h4, hm, -⟩ := pub_null (exampleMach_ok 0) (by decide +kernel) []
  refine ⟨c, hc, s', h, ?_, h4⟩
  rw [hm 0x3000 (by unfold Below; decide +kernel)]
  decide +kernel

example (a : Ans exampleFpu) (ho : a.own = 24) (hp : a.pop = 0) (hf : a.fpu = []) :
    ∃ code, generatePubFunc examplePub = some code ∧
    ∃ e s', Returns exampleEnv code (exampleMach 0x20) [a] [e] 0 s' [] ∧
      arg e.state 0 = 0x2000 ∧ arg e.state 5 = 0x5000 ∧ e.state.reg 4 = 0xfff0 := by
  have h2 : arg (exampleMach 0x20) 2 = 0x2000 := by decide +kernel
  have h3 : rd (stored examplePub (exampleMach 0x20)) 0x2000 = 0 := by decide +kernel
  obtain ⟨c, hc, e, s', h, -, h0, -, -, -, -, h5, h4, -⟩ :=
    pub_info (exampleMach_ok 0x20) (by rw [h2]; decide) rfl (by rw [h2]; unfold Below; decide +kernel)
      rfl (by rw [h2, h3]; unfold Below; decide +kernel) a ho hp hf []
  exact ⟨c, hc, e, s', h, h0.trans h2, h5, h4⟩

example : ((0x1000C : W) - 28).toNat % 16 = 0 := pub_aligned _ (by decide)

end Verif.Jit32

#print axioms Verif.Jit32.pub_null
#print axioms Verif.Jit32.pub_info
#print axioms Verif.Jit32.pub_aligned
