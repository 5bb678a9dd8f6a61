import Verif.Jit32.PubProps
/-
Helper lemmas for C76: what the prologue and the epilogue do.
-/
namespace Verif.Jit32

variable {U : Fpu}

theorem enter_exec {acc : W → Bool} {s : Mach U} (n : Int)
    (hs : ∀ k, -8 ≤ k → k < 0 → acc (off (s.reg 4) k) = true) :
    ∃ s', execs acc s [.push ebp, .push ebx, .movRegRm ebp esp 3, .subImm32 esp (i32 n) 3,
        .andImm32 esp 3 (i32 (-16))] = some s' ∧ s'.reg 5 = off (s.reg 4) (-8) ∧
      s'.reg 4 = off (s.reg 4) (-8 + -n) &&& i32 (-16) ∧
      s'.mem = wr (wr s.mem (off (s.reg 4) (-4)) (s.reg 5)) (off (s.reg 4) (-8)) (s.reg 3) ∧
      s'.reg 6 = s.reg 6 ∧ s'.reg 7 = s.reg 7 ∧ s'.fpu = s.fpu := by
  sym [okN_off hs]

theorem leave_exec {acc : W → Bool} {s : Mach U} {F : W} (h5 : s.reg 5 = F)
    (hs : ∀ k, 0 ≤ k → k < 16 → acc (off F k) = true) :
    ∃ s', execs acc s [.movRegRm esp ebp 3, .pop ebx, .pop ebp] = some s' ∧ s'.reg 4 = off F 8 ∧
      s'.mem = s.mem ∧ s'.reg 0 = s.reg 0 ∧ s'.reg 2 = s.reg 2 ∧ s'.fpu = s.fpu ∧
      s'.reg 3 = rd s.mem (off F 0) ∧ s'.reg 5 = rd s.mem (off F 4) ∧ s'.reg 6 = s.reg 6 ∧
      s'.reg 7 = s.reg 7 := by
  have o1 : okN acc F 4 = true := by rw [← off_zero F]; exact okN_off hs (by omega) (by omega)
  have o2 : okN acc (off F 4) 4 = true := okN_off hs (by omega) (by omega)
  sym [h5, o1, o2]

end Verif.Jit32
