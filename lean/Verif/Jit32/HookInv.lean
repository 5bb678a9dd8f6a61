import Verif.Jit32.HookSpec
import Verif.Jit32.Exec
/-
Helper lemmas for C76: what is known about the machine while the generated hook function runs, as
an abstract state, and how instructions change it; machine code that follows a program.
-/
namespace Verif.Jit32

open Verif.Jit (Byte)
open Spec

variable {U : Fpu}

/-! ## The stack -/

/-- No counterpart in /repo: the conditions on the stack of a run. -/
structure StackOk (E : Env) (S : Stack) : Prop where
  acc : ∀ k, S.low - S.depth ≤ k → k < S.args → E.acc (off S.F k) = true
  keep : ∀ k, S.priv k = true → E.keep (off S.F k) = true
  low : -2 ^ 28 ≤ S.low ∧ S.low ≤ -24
  wide : S.wide = true → S.low ≤ -28
  depth : 0 ≤ S.depth ∧ S.depth ≤ 2 ^ 28
  args : S.args = 16 ∨ S.args = 20
  align : (off S.F S.low).toNat % 16 = 0
  top : E.top = off S.F S.low

/-- Specification: the world of the program. -/
def world (E : Env) (S : Stack) : World where
  vis x := E.acc x && !S.hidden x
  keep := E.keep

theorem off_toInt (F : W) (k : Int) (h : -2 ^ 31 ≤ k ∧ k < 2 ^ 31) : (off F k - F).toInt = k := by
  rw [off, add_sub_self, i32_toInt k h]

theorem hidden_off (S : Stack) (k : Int) (h : -2 ^ 31 ≤ k ∧ k < 2 ^ 31) :
    S.hidden (off S.F k) = (S.priv k || decide (S.low - S.depth ≤ k ∧ k < S.low)) := by
  rw [Stack.hidden, off_toInt _ _ h]

theorem priv_iff (S : Stack) (k : Int) : S.priv k = true ↔
    (0 ≤ k ∧ k < S.args) ∨ (-24 ≤ k ∧ k < -20) ∨ (S.wide = true ∧ -28 ≤ k ∧ k < -24) := by
  simp [Stack.priv, or_assoc]

/-- No counterpart in /repo: a word only the function itself uses. -/
def Spec.Stack.slot (S : Stack) (k : Int) : Prop := k % 4 = 0 ∧ S.priv k = true

section
variable {E : Env} {S : Stack} (hS : StackOk E S)
include hS

theorem priv_range {k : Int} (h : S.priv k = true) : S.low ≤ k ∧ k < S.args ∧ -28 ≤ k ∧ k < 20 := by
  rw [priv_iff] at h
  have h1 := hS.low
  have h2 := hS.wide
  have h3 := hS.args
  rcases h with h | h | ⟨hw, h⟩
  · omega
  · omega
  · have := h2 hw; omega

theorem slot_bytes {k : Int} (h : S.slot k) {i : Int} (h0 : 0 ≤ i) (h4 : i < 4) :
    S.priv (k + i) = true := by
  obtain ⟨hm, h⟩ := h
  rw [priv_iff] at h ⊢
  have h3 := hS.args
  rcases h with h | h | ⟨hw, h⟩
  · left; omega
  · right; left; omega
  · right; right; exact ⟨hw, by omega⟩

theorem hidden_priv {k : Int} (h : S.priv k = true) : S.hidden (off S.F k) = true := by
  have := priv_range hS h
  rw [hidden_off S k (by omega), h]
  rfl

theorem hidden_low {k : Int} (h1 : S.low - S.depth ≤ k) (h2 : k < S.low) :
    S.hidden (off S.F k) = true := by
  have := hS.low
  have := hS.depth
  rw [hidden_off S k (by omega)]
  simp [h1, h2]

omit hS in
/-- Every hidden address is an offset from the frame pointer. -/
theorem hidden_elim {x : W} (h : S.hidden x = true) :
    ∃ k, x = off S.F k ∧ (S.priv k = true ∨ (S.low - S.depth ≤ k ∧ k < S.low)) := by
  refine ⟨(x - S.F).toInt, ?_, ?_⟩
  · rw [off, i32, BitVec.ofInt_toInt, BitVec.add_comm, BitVec.sub_add_cancel]
  · simpa [Stack.hidden] using h

omit hS in
theorem acc_of_vis {x : W} (h : (world E S).vis x = true) : E.acc x = true := by
  simp [world] at h; exact h.1

omit hS in
theorem shown_of_vis {x : W} (h : (world E S).vis x = true) : S.hidden x = false := by
  simp [world] at h; exact h.2

omit hS in
theorem okN_of_vis {a : W} {n : Nat} (h : okN (world E S).vis a n = true) : okN E.acc a n = true := by
  rw [okN_iff] at h ⊢
  exact fun i hi => acc_of_vis (h i hi)

omit hS in
theorem okN_shown {a : W} {n : Nat} (h : okN (world E S).vis a n = true) {i : Nat} (hi : i < n) :
    S.hidden (a + BitVec.ofNat 32 i) = false := by
  rw [okN_iff] at h
  exact shown_of_vis (h i hi)

theorem okN_stack {k : Int} {n : Nat} (h1 : S.low - S.depth ≤ k) (h2 : k + n ≤ S.args) :
    okN E.acc (off S.F k) n = true := okN_off hS.acc h1 h2

theorem okN_slot {k : Int} (h : S.slot k) : okN E.acc (off S.F k) 4 = true := by
  have h1 := priv_range hS (slot_bytes hS h (i := 0) (by omega) (by omega))
  have h2 := priv_range hS (slot_bytes hS h (i := 3) (by omega) (by omega))
  have := hS.depth
  exact okN_stack hS (by omega) (by omega)

omit hS in
theorem slots_apart {a b : Int} (ha : S.slot a) (hb : S.slot b) (h : a ≠ b) :
    a + 4 ≤ b ∨ b + 4 ≤ a := by
  have := ha.1
  have := hb.1
  omega

end

theorem wr_out {m : Memory} {a v x : W} (h : ∀ i : Nat, i < 4 → x ≠ a + BitVec.ofNat 32 i) :
    wr m a v x = m x := by
  unfold wr
  rw [if_neg]
  intro hlt
  apply h _ hlt
  rw [BitVec.ofNat_toNat, BitVec.setWidth_eq, BitVec.add_comm, BitVec.sub_add_cancel]

theorem wr_in (m : Memory) (a v : W) {i : Nat} (h : i < 4) :
    wr m a v (a + BitVec.ofNat 32 i) = v.extractLsb' (8 * i) 8 := by
  unfold wr
  rw [add_sub_self]
  have : (BitVec.ofNat 32 i).toNat = i := by simp; omega
  rw [this, if_pos h]

/-! ## The abstract state -/

/-- No counterpart in /repo: what is known: the values of registers (not of ESP), the floating point
stack, the bytes of the
stack below the frame (the top first), the values of the private words. -/
structure Abs (U : Fpu) where
  reg : Reg → Option W
  fp : List U.F
  stk : Bytes
  loc : Int → W

/-- No counterpart in /repo: a register changes. -/
def Abs.set (A : Abs U) (r : Reg) (v : Option W) : Abs U :=
  { A with reg := fun x => if x = r then v else A.reg x }

/-- No counterpart in /repo: bytes come on top of the stack. -/
def Abs.grow (A : Abs U) (b : Bytes) : Abs U := { A with stk := b ++ A.stk }

/-- No counterpart in /repo: the stack changes. -/
def Abs.stack (A : Abs U) (b : Bytes) : Abs U := { A with stk := b }

/-- No counterpart in /repo: the floating point stack changes. -/
def Abs.setF (A : Abs U) (l : List U.F) : Abs U := { A with fp := l }

/-- No counterpart in /repo: a private word changes. -/
def Abs.setL (A : Abs U) (k : Int) (v : W) : Abs U :=
  { A with loc := fun x => if x = k then v else A.loc x }

/-- No counterpart in /repo: the bytes of a word that may be unknown. -/
def optWord : Option W → Bytes
  | some v => word v
  | none => List.replicate 4 none

@[simp] theorem optWord_length (o : Option W) : (optWord o).length = 4 := by cases o <;> rfl
@[simp] theorem word_length (v : W) : (word v).length = 4 := rfl

theorem word_get {v : W} {i : Nat} {b : Byte} (h : (word v)[i]? = some (some b)) :
    i < 4 ∧ b = v.extractLsb' (8 * i) 8 := by
  have hi : i < 4 := by
    have := (List.getElem?_eq_some_iff.1 h).1
    simpa using this
  refine ⟨hi, ?_⟩
  rcases (by omega : i = 0 ∨ i = 1 ∨ i = 2 ∨ i = 3) with rfl | rfl | rfl | rfl <;>
    exact (Option.some.inj (Option.some.inj h)).symm

@[simp] theorem Abs.set_reg (A : Abs U) (r x : Reg) (v : Option W) :
    (A.set r v).reg x = if x = r then v else A.reg x := rfl
@[simp] theorem Abs.set_stk (A : Abs U) (r : Reg) (v : Option W) : (A.set r v).stk = A.stk := rfl
@[simp] theorem Abs.set_fp (A : Abs U) (r : Reg) (v : Option W) : (A.set r v).fp = A.fp := rfl
@[simp] theorem Abs.set_loc (A : Abs U) (r : Reg) (v : Option W) : (A.set r v).loc = A.loc := rfl
@[simp] theorem Abs.grow_reg (A : Abs U) (b : Bytes) : (A.grow b).reg = A.reg := rfl
@[simp] theorem Abs.grow_stk (A : Abs U) (b : Bytes) : (A.grow b).stk = b ++ A.stk := rfl
@[simp] theorem Abs.grow_fp (A : Abs U) (b : Bytes) : (A.grow b).fp = A.fp := rfl
@[simp] theorem Abs.grow_loc (A : Abs U) (b : Bytes) : (A.grow b).loc = A.loc := rfl
@[simp] theorem Abs.stack_reg (A : Abs U) (b : Bytes) : (A.stack b).reg = A.reg := rfl
@[simp] theorem Abs.stack_stk (A : Abs U) (b : Bytes) : (A.stack b).stk = b := rfl
@[simp] theorem Abs.stack_fp (A : Abs U) (b : Bytes) : (A.stack b).fp = A.fp := rfl
@[simp] theorem Abs.stack_loc (A : Abs U) (b : Bytes) : (A.stack b).loc = A.loc := rfl
@[simp] theorem Abs.setF_reg (A : Abs U) (l : List U.F) : (A.setF l).reg = A.reg := rfl
@[simp] theorem Abs.setF_stk (A : Abs U) (l : List U.F) : (A.setF l).stk = A.stk := rfl
@[simp] theorem Abs.setF_fp (A : Abs U) (l : List U.F) : (A.setF l).fp = l := rfl
@[simp] theorem Abs.setF_loc (A : Abs U) (l : List U.F) : (A.setF l).loc = A.loc := rfl
@[simp] theorem Abs.setL_reg (A : Abs U) (k : Int) (v : W) : (A.setL k v).reg = A.reg := rfl
@[simp] theorem Abs.setL_stk (A : Abs U) (k : Int) (v : W) : (A.setL k v).stk = A.stk := rfl
@[simp] theorem Abs.setL_fp (A : Abs U) (k : Int) (v : W) : (A.setL k v).fp = A.fp := rfl
@[simp] theorem Abs.setL_loc (A : Abs U) (k x : Int) (v : W) :
    (A.setL k v).loc x = if x = k then v else A.loc x := rfl

/-- No counterpart in /repo: the state of the machine is as known, with the program's memory `m`. -/
structure Inv (S : Stack) (A : Abs U) (m : Memory) (s : Mach U) : Prop where
  noEsp : A.reg 4 = none
  ebp : s.reg 5 = S.F
  esp : s.reg 4 = off S.F (S.low - A.stk.length)
  room : A.stk.length ≤ S.depth
  reg : ∀ r v, A.reg r = some v → s.reg r = v
  fpu : s.fpu = A.fp
  stk : ∀ (i : Nat) b, A.stk[i]? = some (some b) →
    s.mem (off S.F (S.low - A.stk.length + i)) = b
  mem : ∀ x, S.hidden x = false → s.mem x = m x
  priv : ∀ k, S.slot k → rd s.mem (off S.F k) = A.loc k

section
variable {E : Env} {S : Stack} {A : Abs U} {m : Memory} {s : Mach U}

theorem Inv.congr (h : Inv S A m s) {s' : Mach U} (hr : s'.reg = s.reg) (hm : s'.mem = s.mem)
    (hf : s'.fpu = s.fpu) : Inv S A m s' :=
  ⟨h.noEsp, by rw [hr, h.ebp], by rw [hr, h.esp], h.room, fun r v hv => by rw [hr, h.reg r v hv],
   by rw [hf, h.fpu], fun i b hb => by rw [hm, h.stk i b hb], fun x hx => by rw [hm, h.mem x hx],
   fun k hk => by rw [hm, h.priv k hk]⟩

theorem Inv.setReg (h : Inv S A m s) {r : Reg} {w : W} {o : Option W} (h4 : r ≠ 4) (h5 : r ≠ 5)
    (ho : ∀ v, o = some v → w = v) : Inv S (A.set r o) m (s.set r w) := by
  refine ⟨?_, ?_, ?_, h.room, ?_, h.fpu, h.stk, h.mem, h.priv⟩
  · rw [Abs.set_reg, if_neg (Ne.symm h4)]; exact h.noEsp
  · rw [Jit32.set_reg, if_neg (Ne.symm h5)]; exact h.ebp
  · rw [Jit32.set_reg, if_neg (Ne.symm h4)]; exact h.esp
  · intro x v hv
    rw [Abs.set_reg] at hv
    rw [Jit32.set_reg]
    split at hv
    · rename_i e; rw [if_pos e]; exact ho v hv
    · rename_i e; rw [if_neg e]; exact h.reg x v hv

theorem Inv.setEsp (h : Inv S A m s) {b : Bytes} {v : W} (hr : b.length ≤ S.depth)
    (hv : v = off S.F (S.low - b.length))
    (hb : ∀ (i : Nat) y, b[i]? = some (some y) → s.mem (off S.F (S.low - b.length + i)) = y) :
    Inv S (A.stack b) m (s.set 4 v) := by
  refine ⟨h.noEsp, ?_, ?_, hr, ?_, h.fpu, hb, h.mem, h.priv⟩
  · rw [Jit32.set_reg, if_neg (by decide)]; exact h.ebp
  · rw [Jit32.set_reg, if_pos rfl]; exact hv
  · intro r w hw
    rw [Jit32.set_reg, if_neg]
    · exact h.reg r w hw
    · rintro rfl
      have := h.noEsp
      rw [Abs.stack_reg] at hw
      rw [this] at hw
      cases hw

variable (hS : StackOk E S)
include hS

/-- Memory changes in one place of the stack below the known part only. -/
theorem Inv.poke (h : Inv S A m s) {M : Memory} {lo : Int} (hlo : S.low - S.depth ≤ lo)
    (hm : ∀ x, (∀ k, lo ≤ k → k < S.low - A.stk.length → x ≠ off S.F k) → M x = s.mem x) :
    Inv S A m (s.setM M) := by
  have h1 := hS.low
  have h2 := hS.depth
  have hroom := h.room
  refine ⟨h.noEsp, h.ebp, h.esp, h.room, h.reg, h.fpu, ?_, ?_, ?_⟩
  · intro i b hb
    have hi := (List.getElem?_eq_some_iff.1 hb).1
    rw [setM_mem, hm _ ?_, h.stk i b hb]
    intro k hk1 hk2 he
    have := off_inj S.F (by omega) he
    omega
  · intro x hx
    rw [setM_mem, hm _ ?_, h.mem x hx]
    intro k hk1 hk2 he
    rw [he, hidden_low hS (by omega) (by omega)] at hx
    cases hx
  · intro k hk
    rw [setM_mem, ← h.priv k hk]
    apply rd_congr
    intro i hi
    rw [off_bytes, hm]
    intro k' hk1 hk2 he
    have := priv_range hS (slot_bytes hS hk (i := i) (by omega) (by omega))
    have := off_inj S.F (by omega) he
    omega

/-- Bytes come on top of the stack. -/
theorem Inv.grow (h : Inv S A m s) {M : Memory} (b : Bytes) (hr : A.stk.length + b.length ≤ S.depth)
    (hm : ∀ x, (∀ i : Nat, i < b.length → x ≠ off S.F (S.low - A.stk.length - b.length + i)) →
      M x = s.mem x)
    (hb : ∀ (i : Nat) y, b[i]? = some (some y) →
      M (off S.F (S.low - A.stk.length - b.length + i)) = y) :
    Inv S (A.grow b) m ((s.setM M).set 4 (off S.F (S.low - A.stk.length - b.length))) := by
  have h1 := hS.low
  have h2 := hS.depth
  have hp : Inv S A m (s.setM M) := by
    refine h.poke hS (lo := S.low - A.stk.length - b.length) (by omega) ?_
    intro x hx
    apply hm
    intro i hi
    exact hx _ (by omega) (by omega)
  have := hp.setEsp (b := b ++ A.stk) (v := off S.F (S.low - A.stk.length - b.length))
    (by simp; omega) (by congr 1; simp; omega) ?_
  · exact this
  · intro i y hy
    rw [List.getElem?_append] at hy
    have e : S.low - ((b ++ A.stk).length : Int) = S.low - A.stk.length - b.length := by
      simp; omega
    rw [e]
    split at hy
    · exact hb i y hy
    · rename_i hi
      have := hp.stk (i - b.length) y hy
      rw [← this]
      congr 2
      omega

theorem Inv.pushWord (h : Inv S A m s) {o : Option W} {w : W} (ho : ∀ v, o = some v → w = v)
    (hr : A.stk.length + 4 ≤ S.depth) :
    Inv S (A.grow (optWord o)) m ((s.set 4 (off (s.reg 4) (-4))).wrs (off (s.reg 4) (-4)) w) := by
  have e : off (s.reg 4) (-4) = off S.F (S.low - A.stk.length - 4) := by
    rw [h.esp, off_off]; rfl
  rw [e]
  have := h.grow hS (M := wr s.mem (off S.F (S.low - A.stk.length - 4)) w) (optWord o)
    (by simp; omega) ?_ ?_
  · rw [optWord_length] at this
    exact this.congr rfl rfl rfl
  · intro x hx
    apply wr_out
    intro i hi
    rw [off_bytes]
    have := hx i (by simp; omega)
    rw [optWord_length] at this
    exact this
  · intro i y hy
    rw [optWord_length, ← off_bytes]
    cases o with
    | none =>
      exfalso
      simp only [optWord, List.getElem?_replicate] at hy
      split at hy <;> simp at hy
    | some v =>
      obtain ⟨hi, rfl⟩ := word_get hy
      show wr s.mem (off S.F (S.low - A.stk.length - (4 : Int))) w (off S.F (S.low - A.stk.length - (4 : Int)) + _) = _
      rw [wr_in _ _ _ hi, ho v rfl]

omit hS in
/-- The top of the stack is removed. -/
theorem Inv.drop (h : Inv S A m s) {b rest : Bytes} (he : A.stk = b ++ rest) {v : W}
    (hv : v = off S.F (S.low - rest.length)) : Inv S (A.stack rest) m (s.set 4 v) := by
  have hr := h.room
  rw [he, List.length_append] at hr
  apply h.setEsp (by omega) hv
  intro i y hy
  have := h.stk (b.length + i) y (by
    rw [he, List.getElem?_append_right (by omega), Nat.add_sub_cancel_left]
    exact hy)
  rw [← this]
  congr 2
  rw [he, List.length_append]
  omega

omit hS in
/-- The word on top of the stack. -/
theorem Inv.top (h : Inv S A m s) {v : W} {rest : Bytes} (he : A.stk = word v ++ rest) :
    rd s.mem (s.reg 4) = v := by
  rw [← rd_wr_same s.mem (s.reg 4) v]
  apply rd_congr
  intro i hi
  rw [wr_in _ _ _ hi]
  rw [h.esp, off_bytes]
  apply h.stk
  rw [he, List.getElem?_append_left (by simpa using hi)]
  rcases (by omega : i = 0 ∨ i = 1 ∨ i = 2 ∨ i = 3) with rfl | rfl | rfl | rfl <;> rfl

theorem Inv.espOk (h : Inv S A m s) {n : Nat} (hn : n ≤ A.stk.length) :
    okN E.acc (s.reg 4) n = true := by
  have h1 := hS.low
  have h2 := hS.depth
  have h3 := hS.args
  have := h.room
  rw [h.esp]
  exact okN_stack hS (by omega) (by omega)

theorem Inv.pushOk (h : Inv S A m s) (hr : A.stk.length + 4 ≤ S.depth) :
    okN E.acc (off (s.reg 4) (-4)) 4 = true := by
  have h1 := hS.low
  have h2 := hS.depth
  have h3 := hS.args
  rw [h.esp, off_off]
  exact okN_stack hS (by omega) (by omega)

/-- A private word changes. -/
theorem Inv.setLoc (h : Inv S A m s) {k : Int} (hk : S.slot k) (v : W) :
    Inv S (A.setL k v) m (s.wrs (off S.F k) v) := by
  have h1 := hS.low
  have h2 := hS.depth
  have hroom := h.room
  have hb : ∀ i : Nat, i < 4 → S.priv (k + i) = true :=
    fun i hi => slot_bytes hS hk (by omega) (by omega)
  refine ⟨h.noEsp, h.ebp, h.esp, h.room, h.reg, h.fpu, ?_, ?_, ?_⟩
  · intro i b hb'
    rw [Abs.setL_stk] at hb' ⊢
    have hi := (List.getElem?_eq_some_iff.1 hb').1
    rw [wrs_mem, wr_out]
    · exact h.stk i b hb'
    · intro j hj he
      rw [off_bytes] at he
      have := priv_range hS (hb j hj)
      have := off_inj S.F (by omega) he
      omega
  · intro x hx
    rw [wrs_mem, wr_out, h.mem x hx]
    intro j hj he
    rw [off_bytes] at he
    rw [he, hidden_priv hS (hb j hj)] at hx
    cases hx
  · intro k' hk'
    rw [wrs_mem, Abs.setL_loc]
    split
    · rename_i e; rw [e, rd_wr_same]
    · rename_i e
      rw [← h.priv k' hk']
      have := priv_range hS hk.2
      have := priv_range hS hk'.2
      exact rd_wr_off _ _ _ (slots_apart hk hk' (Ne.symm e)) (by omega)

omit hS in
/-- Visible memory changes. -/
theorem Inv.setVis (h : Inv S A m s) {m' M : Memory}
    (hv : ∀ x, S.hidden x = false → M x = m' x) (hh : ∀ x, S.hidden x = true → M x = s.mem x)
    (hS : StackOk E S) : Inv S A m' (s.setM M) := by
  have h1 := hS.low
  have h2 := hS.depth
  have hroom := h.room
  refine ⟨h.noEsp, h.ebp, h.esp, h.room, h.reg, h.fpu, ?_, hv, ?_⟩
  · intro i b hb
    have hi := (List.getElem?_eq_some_iff.1 hb).1
    rw [setM_mem, hh _ (hidden_low hS (by omega) (by omega))]
    exact h.stk i b hb
  · intro k hk
    rw [setM_mem, ← h.priv k hk]
    apply rd_congr
    intro i hi
    rw [off_bytes, hh _ (hidden_priv hS (slot_bytes hS hk (by omega) (by omega)))]

omit hS in
theorem Inv.rd_vis (h : Inv S A m s) {a : W} (hv : okN (world E S).vis a 4 = true) :
    rd s.mem a = rd m a :=
  rd_congr fun _ hi => h.mem _ (okN_shown hv hi)

omit hS in
theorem rd64_congr {m m' : Memory} {a : W}
    (h : ∀ i : Nat, i < 8 → m (a + BitVec.ofNat 32 i) = m' (a + BitVec.ofNat 32 i)) :
    rd64 m a = rd64 m' a := by
  unfold rd64
  rw [rd_congr (b := a) fun i hi => h i (by omega), rd_congr (m := m) (m' := m') (b := a + 4)]
  intro i hi
  have := h (4 + i) (by omega)
  rw [BitVec.ofNat_add, ← BitVec.add_assoc] at this
  exact this

omit hS in
theorem Inv.rd64_vis (h : Inv S A m s) {a : W} (hv : okN (world E S).vis a 8 = true) :
    rd64 s.mem a = rd64 m a :=
  rd64_congr fun _ hi => h.mem _ (okN_shown hv hi)

/-- A visible word changes. -/
theorem Inv.saveVis (h : Inv S A m s) {a v : W} (hv : okN (world E S).vis a 4 = true) :
    Inv S A (wr m a v) (s.wrs a v) := by
  apply h.setVis _ _ hS
  · intro x hx
    unfold wr
    split
    · rfl
    · exact h.mem x hx
  · intro x hx
    apply wr_out
    intro i hi he
    rw [he, okN_shown hv hi] at hx
    cases hx

end

end Verif.Jit32
