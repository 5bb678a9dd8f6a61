import Verif.Jit.HookLoop
/-
Helper lemmas for C65: the start of the generated hook function, the whole.
-/
namespace Verif.Jit

attribute [local simp] rax rcx rdx rbx rsp rbp rsi rdi r8 r9 r10 vEntry vStatus vPrev vCur vIter
  vContext vThis

variable {acc keep : W → Bool} {S : Stack} {g : Gen} {s₀ s s' : Mach} {d d' : Int} {loc : Int → W}
  {m : Memory} {code : List Byte} {P : Memory → Mach → Prop}

/-! ## Saving the parameters -/

theorem and_two_ne (b : BitVec 32) : (b &&& 2 != 0) = b.getLsbD 1 := by
  have h : (b &&& 2#32) = if b.getLsbD 1 then 2#32 else 0#32 := by
    apply BitVec.eq_of_getLsbD_eq
    intro i hi
    by_cases h1 : i = 1
    · subst h1
      rw [BitVec.getLsbD_and]
      cases hb : b.getLsbD 1 <;> rfl
    · have : (2#32).getLsbD i = false := by
        have e : (2#32) = BitVec.twoPow 32 1 := by decide
        rw [e, BitVec.getLsbD_twoPow]
        simp; omega
      rw [BitVec.getLsbD_and, this, Bool.and_false]
      split <;> simp [this]
  show (b &&& 2#32 != 0#32) = _
  rw [h]
  cases b.getLsbD 1 <;> decide

theorem inXmm_isFloat (p : Pass) : p.inXmm = p.isFloat := by
  unfold Pass.inXmm Pass.isFloat Pass.has
  rw [and_two_ne]
  rfl

theorem paramsIn_stack (s : Mach) (loc : Int → W) (ps : List Pass) : ∀ i : Nat, 4 ≤ i →
    (∀ j : Nat, 4 ≤ j → loc (8 + 8 * (j : Int)) = rd s.mem (off (s.reg 4) (8 + 8 * (j : Int)))) →
    argsOf loc i ps = paramsIn s i ps := by
  induction ps with
  | nil => intro i _ _; rfl
  | cons p ps ih =>
    intro i hi h
    simp only [argsOf, paramsIn, ← inXmm_isFloat]
    rw [ih (i + 1) (by omega) h, if_neg (by omega), if_neg (by omega), h i hi]
    congr 2
    unfold argIn
    rw [if_neg (by omega), if_neg (by omega), if_neg (by omega), if_neg (by omega)]
    rw [off_nat]
    exact congrArg _ (off_congr _ (by omega))

theorem saveRegs_exec (ok : StackOk acc keep S) (s : Mach) (ps : List Pass) :
    ∀ (i : Nat) (s₁ : Mach) (loc : Int → W), Inv S s₀ 0 loc m s₁ → 1 ≤ i → i + ps.length ≤ S.nargs →
    s₁.reg 1 = s.reg 1 → s₁.reg 2 = s.reg 2 → s₁.reg 8 = s.reg 8 → s₁.reg 9 = s.reg 9 →
    s₁.xmm = s.xmm →
    (∀ j : Nat, 4 ≤ j → loc (8 + 8 * (j : Int)) = rd s.mem (off (s.reg 4) (8 + 8 * (j : Int)))) →
    ∃ s' l, execs acc s₁ (saveRegs i ps) = some s' ∧ Inv S s₀ 0 l m s' ∧
      argsOf l i ps = paramsIn s i ps ∧ (∀ k, k < 8 + 8 * (i : Int) → l k = loc k) := by
  induction ps with
  | nil =>
    intro i s₁ loc h _ _ _ _ _ _ _ _
    exact ⟨s₁, loc, rfl, h, rfl, fun _ _ => rfl⟩
  | cons p ps ih =>
    intro i s₁ loc h h1 hn r1 r2 r8 r9 hx hst
    simp only [List.length_cons] at hn
    by_cases hi : i < 4
    · have hs := slot_arg (S := S) (i := i) (by omega)
      have e : (i : Int) * 8 + 8 = 8 + 8 * (i : Int) := by omega
      have hi' : i = 1 ∨ i = 2 ∨ i = 3 := by omega
      have key : ∃ v, exec acc s₁ (if p.inXmm then Op.movsdStore (at_ rbp (i * 8 + 8)) (paramXmm i)
            else .store (at_ rbp (i * 8 + 8)) (paramReg i)).instr
            = some (s₁.wrs (off S.F (8 + 8 * (i : Int))) v) ∧
          (if p.inXmm ∧ i < 4 then Arg.flt v else .int v)
            = (if p.inXmm ∧ i < 4 then .flt (s.xmm (Fin.ofNat 16 i)) else .int (argIn s i)) := by
        rw [e]
        cases hp : p.inXmm with
        | true =>
          simp only [if_true, hi, and_self]
          rw [ex_movsdStore _ _ _ _ _ (by omega), h.rbp, okAt_slot ok hs, if_pos rfl]
          refine ⟨_, rfl, ?_⟩
          rw [hx]
          rcases hi' with rfl | rfl | rfl <;> rfl
        | false =>
          simp only [Bool.false_eq_true, if_false, false_and]
          rw [ex_store _ _ _ _ _ (by omega), h.rbp, okAt_slot ok hs, if_pos rfl]
          refine ⟨_, rfl, ?_⟩
          rcases hi' with rfl | rfl | rfl
          · exact congrArg _ r2
          · exact congrArg _ r8
          · exact congrArg _ r9
      obtain ⟨v, x₁, ev⟩ := key
      obtain ⟨s₂, l, x₂, i₂, a₂, o₂⟩ := ih (i + 1) (s₁.wrs (off S.F (8 + 8 * (i : Int))) v) _
        (h.setSlot ok hs v) (by omega) (by omega) r1 r2 r8 r9 hx (by
          intro j hj
          rw [upd_ne _ _ (by omega)]
          exact hst j hj)
      refine ⟨s₂, l, ?_, i₂, ?_, ?_⟩
      · simp only [saveRegs, if_pos hi, execs, x₁, Option.bind_some, x₂]
      · simp only [argsOf, paramsIn, ← inXmm_isFloat]
        rw [a₂, o₂ _ (by omega), upd_same, ev]
      · intro k hk
        rw [o₂ k (by omega), upd_ne _ _ (by omega)]
    · refine ⟨s₁, loc, ?_, h, ?_, fun _ _ => rfl⟩
      · simp [saveRegs, hi, execs]
      · exact paramsIn_stack s loc _ i (by omega) hst

/-- The frame. -/
theorem frame_exec (ok : StackOk acc keep S) (f : Fit g S) (hF : s.reg 4 = S.F) :
    ∃ s₁, execs acc s [.subImm rsp (i32 (frame g.ret).size),
      .store (at_ rsp ((frame g.ret).size - 8)) rbp, .lea rbp (at_ rsp (frame g.ret).size)] = some s₁ ∧
      Inv S s 0 (upd (fun k => rd s.mem (off S.F k)) (-8) (s.reg 5)) s.mem s₁ ∧
      s₁.reg 1 = s.reg 1 ∧ s₁.reg 2 = s.reg 2 ∧ s₁.reg 8 = s.reg 8 ∧ s₁.reg 9 = s.reg 9 ∧
      s₁.xmm = s.xmm := by
  have hb := frame_bound f
  have hsz := f.size
  have base : Inv S s 0 (fun k => rd s.mem (off S.F k)) s.mem
      ((s.set 4 (off S.F (-S.size))).set 5 S.F) := by
    refine ⟨by simp, by simp, fun _ _ => rfl, fun _ _ => rfl, ?_, fun _ _ => rfl⟩
    intro r _ h4 h5
    simp [h4, h5]
  have b1 := base.setSlot ok slot_rbp (s.reg 5)
  have e8 : -(frame g.ret).size + ((frame g.ret).size - 8) = -8 := by omega
  have e0 : -(frame g.ret).size + (frame g.ret).size = 0 := by omega
  sym [hF, okAt_slot ok slot_rbp, e8, e0]
  refine Inv.of b1 ?_ ?_ ?_ ?_ ?_ ?_ ?_ ?_ ?_ ?_ ?_ <;> simp [hsz]

/-- A register stored into a slot. -/
theorem storeSlot_exec (ok : StackOk acc keep S) (h : Inv S s₀ 0 loc m s) {k : Int} (hk : S.slot k)
    (h1 : -2 ^ 31 ≤ k) (h2 : k < 2 ^ 31) (r : Reg) :
    ∃ s', exec acc s (Op.store (at_ rbp k) r).instr = some s' ∧
      Inv S s₀ 0 (upd loc k (s.reg r)) m s' ∧ s'.reg = s.reg ∧ s'.xmm = s.xmm := by
  refine ⟨s.wrs (off S.F k) (s.reg r), ?_, h.setSlot ok hk _, wrs_reg _ _ _, wrs_xmm _ _ _⟩
  rw [ex_store _ _ _ _ _ (by omega), h.rbp, okAt_slot ok hk, if_pos rfl]

/-- `this` and the place for the result. -/
theorem saveThis_exec (ok : StackOk acc keep S) (f : Fit g S) (h : Inv S s₀ 0 loc m s) :
    ∃ s₂ l, execs acc s ([.store (at_ rbp vThis) rcx, .store (at_ rbp 8) rcx]
      ++ (if g.ret.has flagRetMem then
        [.store (at_ rbp 16) rdx, .store (at_ rbp (frame g.ret).memretPtr) rdx] else [])) = some s₂ ∧
      Inv S s₀ 0 l m s₂ ∧ l (-8) = loc (-8) ∧ l 0 = loc 0 ∧ l vThis = s.reg 1 ∧
      (hiddenPtr g = true → l (-80) = s.reg 2) ∧
      s₂.reg = s.reg ∧ s₂.xmm = s.xmm ∧ (∀ k, 40 ≤ k → l k = loc k) := by
  have hna := f.nargs
  have hfr := firstReg_cases g.ret
  have hs0 : S.slot 8 := slot_arg (S := S) (i := 0) (by omega)
  obtain ⟨t₁, x₁, i₁, g₁, y₁⟩ := storeSlot_exec ok h (slot_this : S.slot vThis) (by decide) (by decide) rcx
  obtain ⟨t₂, x₂, i₂, g₂, y₂⟩ := storeSlot_exec ok i₁ hs0 (by omega) (by omega) rcx
  by_cases hm : g.ret.has flagRetMem = true
  · have hz : g.ret.size ≠ 0 := fun hz => by rw [f.void hz] at hm; cases hm
    have hw : S.wide = true := by rw [f.wide]; simpa using hz
    have hr : (frame g.ret).memretPtr = -80 := by simp [frame, hz]
    have hs1 : S.slot 16 := slot_arg (S := S) (i := 1) (by
      have : firstReg g.ret = 2 := if_pos hm
      omega)
    obtain ⟨t₃, x₃, i₃, g₃, y₃⟩ := storeSlot_exec ok i₂ hs1 (by omega) (by omega) rdx
    obtain ⟨t₄, x₄, i₄, g₄, y₄⟩ := storeSlot_exec ok i₃ (slot_memret hw) (by omega) (by omega) rdx
    rw [if_pos hm, hr]
    refine ⟨_, _, ?_, i₄, ?_, ?_, ?_, ?_, ?_, ?_, ?_⟩
    · simp only [List.cons_append, List.nil_append, execs, x₁, x₂, x₃, x₄, Option.bind_some]
    · rw [upd_ne _ _ (by omega), upd_ne _ _ (by omega), upd_ne _ _ (by omega), upd_ne _ _ (by omega)]
    · rw [upd_ne _ _ (by omega), upd_ne _ _ (by omega), upd_ne _ _ (by omega), upd_ne _ _ (by omega)]
    · rw [upd_ne _ _ (by decide), upd_ne _ _ (by decide), upd_ne _ _ (by decide), upd_same]
    · intro _; rw [upd_same, g₃, g₂, g₁]
    · rw [g₄, g₃, g₂, g₁]
    · rw [y₄, y₃, y₂, y₁]
    · intro k hk
      rw [upd_ne _ _ (by omega), upd_ne _ _ (by omega), upd_ne _ _ (by omega),
        upd_ne _ _ (by omega)]
  · rw [if_neg hm]
    refine ⟨_, _, ?_, i₂, ?_, ?_, ?_, ?_, ?_, ?_, ?_⟩
    · simp only [List.cons_append, List.nil_append, execs, x₁, x₂, Option.bind_some]
    · rw [upd_ne _ _ (by omega), upd_ne _ _ (by omega)]
    · rw [upd_ne _ _ (by omega), upd_ne _ _ (by omega)]
    · rw [upd_ne _ _ (by decide), upd_same]
    · intro h
      unfold hiddenPtr at h
      rw [Bool.and_eq_true] at h
      exact absurd h.2 hm
    · rw [g₂, g₁]
    · rw [y₂, y₁]
    · intro k hk
      rw [upd_ne _ _ (by omega), upd_ne _ _ (by omega)]

/-- The numbers left in RAX. -/
theorem numbers_exec (h : Inv S s₀ 0 loc m s) (a b : BitVec 32) (c : W) :
    ∃ s₃, execs acc s [.movImm rax a, .movImm rax b, .movImm64 rax c] = some s₃ ∧
      Inv S s₀ 0 loc m s₃ ∧ s₃.reg 1 = s.reg 1 ∧ s₃.reg 2 = s.reg 2 ∧ s₃.reg 8 = s.reg 8 ∧
      s₃.reg 9 = s.reg 9 ∧ s₃.xmm = s.xmm := by
  sym []
  inv_of h

/-- The start. -/
theorem prologue_exec (ok : StackOk acc keep S) (f : Fit g S) (hF : s.reg 4 = S.F) :
    ∃ s' l, execs acc s (prologue g) = some s' ∧ Inv S s 0 l s.mem s' ∧ l (-8) = s.reg 5 ∧
      l 0 = rd s.mem S.F ∧ l vThis = s.reg 1 ∧ (hiddenPtr g = true → l (-80) = s.reg 2) ∧
      passed g l = paramsIn s (firstReg g.ret) g.params := by
  have hna := f.nargs
  have hfr := firstReg_cases g.ret
  obtain ⟨s₁, x₁, i₁, p1, p2, p8, p9, px⟩ := frame_exec (keep := keep) ok f hF
  obtain ⟨s₂, l₂, x₃, i₄, q8, q0, qt, qm, tr, tx, tst⟩ := saveThis_exec ok f i₁
  obtain ⟨s₃, x₄, i₅, u1, u2, u8, u9, ux⟩ := numbers_exec (acc := acc) i₄ (i32 g.params.length)
    (i32 (firstReg g.ret)) (BitVec.ofNat 64 g.ret.size)
  rw [tr] at u1 u2 u8 u9
  obtain ⟨s₄, l, x₅, i₆, a₆, o₆⟩ := saveRegs_exec ok s g.params (firstReg g.ret) s₃ l₂ i₅
    (by omega) (by omega) (u1.trans p1) (u2.trans p2) (u8.trans p8) (u9.trans p9)
    (ux.trans (tx.trans px)) (by
      intro j hj
      rw [tst _ (by omega), upd_ne _ _ (by omega), hF])
  refine ⟨s₄, l, ?_, i₆, ?_, ?_, ?_, ?_, a₆⟩
  · unfold prologue
    rw [show ∀ (a b c d e : Op) (x y z : List Op), [a, b, c, d, e] ++ x ++ y ++ z
      = [a, b, c] ++ (([d, e] ++ x) ++ (y ++ z)) from fun _ _ _ _ _ _ _ _ => by simp]
    rw [execs_append, x₁, Option.bind_some, execs_append, x₃,
      Option.bind_some, execs_append, x₄, Option.bind_some, x₅]
  · rw [o₆ _ (by omega), q8, upd_same]
  · rw [o₆ _ (by omega), q0, upd_ne _ _ (by omega), off_zero]
  · rw [o₆ _ (by simp only [vThis]; omega), qt, p1]
  · intro h
    rw [o₆ _ (by omega), qm h, p2]

end Verif.Jit
