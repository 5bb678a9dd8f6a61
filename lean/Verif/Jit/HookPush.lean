import Verif.Jit.HookEnd
/-
Helper lemmas for C65: passing on the parameters.
-/
namespace Verif.Jit

attribute [local simp] rax rcx rdx rbx rsp rbp rsi rdi r8 r9 r10 vEntry vStatus vPrev vCur vIter
  vContext vThis

variable {acc keep : W → Bool} {S : Stack} {g : Gen} {s₀ s s' : Mach} {d d' : Int} {loc : Int → W}
  {m : Memory} {code : List Byte} {P : Memory → Mach → Prop}

theorem argsOf_length (loc : Int → W) (ps : List Pass) : ∀ i, (argsOf loc i ps).length = ps.length := by
  induction ps with
  | nil => intro i; rfl
  | cons p ps ih => intro i; simp [argsOf, ih]

theorem argsOf_stack (loc : Int → W) (ps : List Pass) : ∀ (i j : Nat) (b : Arg),
    (argsOf loc i ps)[j]? = some b → 4 ≤ i + j →
    b = .int (loc (8 + 8 * ((i + j : Nat) : Int))) ∧ j < ps.length := by
  induction ps with
  | nil => intro i j b h; simp [argsOf] at h
  | cons p ps ih =>
    intro i j b h hj
    cases j with
    | zero =>
      simp only [argsOf, List.getElem?_cons_zero, Option.some.injEq] at h
      rw [if_neg (by omega)] at h
      exact ⟨h.symm, by simp⟩
    | succ j =>
      simp only [argsOf, List.getElem?_cons_succ] at h
      have := ih (i + 1) j b h (by omega)
      rw [show i + 1 + j = i + (j + 1) by omega] at this
      exact ⟨this.1, by simp; omega⟩

/-- The first four arguments are in registers. -/
theorem ArgOk.regs {k : Nat} (hk : k < 4) (h1 : s'.reg 1 = s.reg 1) (h2 : s'.reg 2 = s.reg 2)
    (h8 : s'.reg 8 = s.reg 8) (h9 : s'.reg 9 = s.reg 9) (hx : s'.xmm = s.xmm) {b : Arg}
    (h : ArgOk s k b) : ArgOk s' k b := by
  cases b with
  | flt v => exact ⟨h.1, by rw [hx]; exact h.2⟩
  | int v =>
    have : k = 0 ∨ k = 1 ∨ k = 2 ∨ k = 3 := by omega
    rcases this with rfl | rfl | rfl | rfl
    · exact h1.trans h
    · exact h2.trans h
    · exact h8.trans h
    · exact h9.trans h

theorem ArgOk.all {k : Nat} (h1 : ∀ r, r ≠ 0 → s'.reg r = s.reg r) (hm : s'.mem = s.mem)
    (hx : s'.xmm = s.xmm) {b : Arg} (h : ArgOk s k b) : ArgOk s' k b := by
  by_cases hk : k < 4
  · exact h.regs hk (h1 1 (by decide)) (h1 2 (by decide)) (h1 8 (by decide)) (h1 9 (by decide)) hx
  · cases b with
    | flt v => exact ⟨h.1, by rw [hx]; exact h.2⟩
    | int v =>
      match k, hk, h with
      | n + 4, _, h =>
        show rd s'.mem (s'.reg 4 + BitVec.ofNat 64 (8 * (n + 4))) = v
        rw [hm, h1 4 (by decide)]
        exact h

/-- Loading the parameters that go into registers. -/
theorem loadRegs_exec (ok : StackOk acc keep S) (ps : List Pass) : ∀ (i : Nat) (s : Mach),
    Inv S s₀ d loc m s → 1 ≤ i → i + ps.length ≤ S.nargs →
    ∃ s', execs acc s (loadRegs i ps) = some s' ∧ Inv S s₀ d loc m s' ∧
      (∀ j b, (argsOf loc i ps)[j]? = some b → i + j < 4 → ArgOk s' (i + j) b) ∧
      (∀ k b, k < i → k < 4 → ArgOk s k b → ArgOk s' k b) := by
  induction ps with
  | nil =>
    intro i s h _ _
    exact ⟨s, rfl, h, fun j b hb => by simp [argsOf] at hb, fun _ _ _ _ h => h⟩
  | cons p ps ih =>
    intro i s h h1 hn
    simp only [List.length_cons] at hn
    by_cases hi : i < 4
    · have hs := slot_arg (S := S) (i := i) (by omega)
      have e : (i : Int) * 8 + 8 = 8 + 8 * (i : Int) := by omega
      -- the first one
      have key : ∃ s₁, exec acc s (if p.inXmm then Op.movsdLoad (paramXmm i) (at_ rbp (i * 8 + 8))
            else .load (paramReg i) (at_ rbp (i * 8 + 8))).instr = some s₁ ∧
          Inv S s₀ d loc m s₁ ∧
          ArgOk s₁ i (if p.inXmm ∧ i < 4 then .flt (loc (8 + 8 * (i : Int)))
            else .int (loc (8 + 8 * (i : Int)))) ∧
          (∀ k b, k < i → ArgOk s k b → ArgOk s₁ k b) := by
        rw [e]
        have hi' : i = 1 ∨ i = 2 ∨ i = 3 := by omega
        cases hp : p.inXmm with
        | true =>
          simp only [if_true, hi, and_self]
          rw [ex_movsdLoad _ _ _ _ _ (by omega), h.rbp, okAt_slot ok hs, if_pos rfl, h.priv _ hs]
          refine ⟨_, rfl, h.setX ?_ _, ?_, ?_⟩
          · rcases hi' with rfl | rfl | rfl <;> rfl
          · refine ⟨hi, ?_⟩
            rcases hi' with rfl | rfl | rfl <;> simp [paramXmm] <;> rfl
          · intro k b hk hb
            cases b with
            | int v =>
              have hk4 : k < 4 := by omega
              have hk' : k = 0 ∨ k = 1 ∨ k = 2 := by omega
              rcases hk' with rfl | rfl | rfl <;> exact hb
            | flt v =>
              refine ⟨hb.1, ?_⟩
              rw [setX_xmm, if_neg, hb.2]
              have hk' : k = 0 ∨ k = 1 ∨ k = 2 := by omega
              rcases hk' with rfl | rfl | rfl <;> rcases hi' with rfl | rfl | rfl <;>
                first | (simp only [paramXmm]; decide) | omega
        | false =>
          simp only [Bool.false_eq_true, if_false, false_and]
          rw [ex_load _ _ _ _ _ (by omega), h.rbp, okAt_slot ok hs, if_pos rfl, h.priv _ hs]
          refine ⟨_, rfl, ?_, ?_, ?_⟩
          · rcases hi' with rfl | rfl | rfl <;> simp only [paramReg] <;> inv_of h
          · rcases hi' with rfl | rfl | rfl <;> simp [paramReg, ArgOk, arg]
          · intro k b hk hb
            cases b with
            | flt v => exact hb
            | int v =>
              have hk' : k = 0 ∨ k = 1 ∨ k = 2 := by omega
              rcases hi' with rfl | rfl | rfl <;> rcases hk' with rfl | rfl | rfl <;>
                first | omega | (simpa [paramReg, ArgOk, arg] using hb)
      obtain ⟨s₁, x₁, i₁, a₁, o₁⟩ := key
      obtain ⟨s₂, x₂, i₂, a₂, o₂⟩ := ih (i + 1) s₁ i₁ (by omega) (by omega)
      refine ⟨s₂, ?_, i₂, ?_, ?_⟩
      · simp only [loadRegs, if_pos hi, execs, x₁, Option.bind_some, x₂]
      · intro j b hb hj
        cases j with
        | zero =>
          simp only [argsOf, List.getElem?_cons_zero, Option.some.injEq] at hb
          subst hb
          exact o₂ i _ (by omega) (by omega) a₁
        | succ j =>
          simp only [argsOf, List.getElem?_cons_succ] at hb
          have := a₂ j b hb (by omega)
          rwa [show i + 1 + j = i + (j + 1) by omega] at this
      · intro k b hk hk4 hb
        exact o₂ k b (by omega) hk4 (o₁ k b hk hb)
    · refine ⟨s, ?_, h, fun j b _ hj => by omega, fun _ _ _ _ hb => hb⟩
      simp [loadRegs, hi, execs]

/-- Copying the parameters on the stack. -/
theorem copyStack_exec (ok : StackOk acc keep S) (n : Nat) : ∀ (i : Nat) (s : Mach),
    Inv S s₀ d loc m s → 4 + i + n ≤ S.nargs → 32 + 8 * ((i + n : Nat) : Int) ≤ d → d ≤ S.depth →
    ∃ s', execs acc s (copyStack i n) = some s' ∧ Inv S s₀ d loc m s' ∧
      (∀ r, r ≠ 0 → s'.reg r = s.reg r) ∧ s'.xmm = s.xmm ∧
      (∀ j, j < n → rd s'.mem (off S.F (-S.size - d + 32 + 8 * ((i + j : Nat) : Int)))
        = loc (8 + 8 * ((4 + i + j : Nat) : Int))) ∧
      (∀ j, j < i → rd s'.mem (off S.F (-S.size - d + 32 + 8 * (j : Int)))
        = rd s.mem (off S.F (-S.size - d + 32 + 8 * (j : Int)))) := by
  induction n with
  | zero =>
    intro i s h _ _ _
    exact ⟨s, rfl, h, fun _ _ => rfl, rfl, fun j hj => by omega, fun _ _ => rfl⟩
  | succ n ih =>
    intro i s h hn hd hd'
    have hs := slot_arg (S := S) (i := 4 + i) (by omega)
    have hdep := ok.depth
    have hsm := ok.small
    have hna := ok.nargs
    have hsz := ok.size
    have e1 : (40 : Int) + 8 * i = 8 + 8 * ((4 + i : Nat) : Int) := by omega
    have st : okAt acc (off S.F (-S.size - d + (32 + 8 * (i : Int)))) = true :=
      okAt_stack ok (by omega) (by omega)
    have i₁ := (h.setLow ok (k := -S.size - d + (32 + 8 * (i : Int))) (by omega) (by omega)
      (loc (8 + 8 * ((4 + i : Nat) : Int))))
    have i₂ : Inv S s₀ d loc m ((s.set 0 (loc (8 + 8 * ((4 + i : Nat) : Int)))).wrs
        (off S.F (-S.size - d + (32 + 8 * (i : Int)))) (loc (8 + 8 * ((4 + i : Nat) : Int)))) := by
      inv_by i₁ h.rsp
    obtain ⟨s₂, x₂, j₂, r₂, xm₂, c₂, o₂⟩ := ih (i + 1) _ i₂ (by omega) (by omega) hd'
    refine ⟨s₂, ?_, j₂, ?_, ?_, ?_, ?_⟩
    · simp only [copyStack]
      rw [e1]
      simp only [execs]
      rw [ex_load _ _ _ _ _ (by omega), show s.reg rbp = S.F from h.rbp, okAt_slot ok hs, if_pos rfl,
        h.priv _ hs, Option.bind_some, ex_store _ _ _ _ _ (by omega)]
      have e2 : (s.set rax (loc (8 + 8 * ((4 + i : Nat) : Int)))).reg rsp
          = off S.F (-S.size - d) := by simpa using h.rsp
      rw [e2, off_off, st, if_pos rfl, Option.bind_some]
      exact x₂
    · intro r hr
      rw [r₂ r hr]
      simp [hr]
    · rw [xm₂]; rfl
    · intro j hj
      cases j with
      | zero =>
        have := o₂ i (by omega)
        rw [Nat.add_zero, Nat.add_zero, this, wrs_mem]
        exact rd_wr_off_eq _ _ _ (by omega)
      | succ j =>
        have := c₂ j (by omega)
        rw [show i + 1 + j = i + (j + 1) by omega, show 4 + (i + 1) + j = 4 + i + (j + 1) by omega] at this
        exact this
    · intro j hj
      rw [o₂ j (by omega), wrs_mem]
      exact rd_wr_off _ _ _ (by omega) (by omega)

theorem pushFirst_eq (f : Fit g S) : pushFirst g.ret = firstReg g.ret := by
  have := f.void
  unfold pushFirst firstReg
  by_cases h : g.ret.size = 0
  · rw [if_neg (fun hc => hc.1 h), if_neg (by rw [this h]; exact Bool.false_ne_true)]
  · by_cases hm : g.ret.has flagRetMem = true
    · rw [if_pos ⟨h, hm⟩, if_pos hm]
    · rw [if_neg (fun hc => hm hc.2), if_neg hm]

theorem hidden_cases (f : Fit g S) : (hiddenPtr g = true ∧ firstReg g.ret = 2) ∨
    (hiddenPtr g = false ∧ firstReg g.ret = 1) := by
  have := f.void
  unfold hiddenPtr firstReg
  by_cases hm : g.ret.has flagRetMem = true
  · have hz : g.ret.size ≠ 0 := fun hz => by rw [this hz] at hm; cases hm
    exact .inl ⟨by rw [hm, Bool.and_true, bne_iff_ne]; exact hz, if_pos hm⟩
  · exact .inr ⟨by rw [Bool.eq_false_iff.mpr hm, Bool.and_false], if_neg hm⟩

theorem firstReg_cases (r : Pass) : firstReg r = 1 ∨ firstReg r = 2 := by
  unfold firstReg
  split <;> simp

/-- The arguments passed on. -/
def passed (g : Gen) (loc : Int → W) : List Arg := argsOf loc (firstReg g.ret) g.params

theorem push_room (f : Fit g S) (t p : W) :
    32 ≤ (pushSpace g : Int) ∧
    8 * ((Arg.int t :: withPlace g p (passed g loc)).length : Int) ≤ pushSpace g ∧
    (pushSpace g : Int) ≤ S.depth ∧ (S.size + pushSpace g) % 16 = 8 := by
  have h1 := f.depth
  have h2 := f.size
  have h3 := frame_bound f
  have h4 := pushFirst_eq f
  have h5 := firstReg_cases g.ret
  have h6 : (withPlace g p (passed g loc)).length + 1 ≤ firstReg g.ret + g.params.length := by
    simp only [withPlace, passed, List.length_append, argsOf_length]
    rcases hidden_cases f with ⟨a, b⟩ | ⟨a, b⟩ <;> rw [a, b] <;> simp <;> omega
  rw [List.length_cons]
  unfold pushSpace onStack
  rw [h4]
  split <;> omega

/-- Passing on the parameters. -/
theorem push_exec (ok : StackOk acc keep S) (f : Fit g S) (h : Inv S s₀ 0 loc m s) {this ret : Int}
    (ht : S.slot this) (htb : -64 ≤ this ∧ this ≤ 0) (hr : -2 ^ 30 ≤ ret ∧ ret ≤ 0) :
    ∃ s', execs acc s (pushOps g this ret) = some s' ∧ Inv S s₀ (pushSpace g) loc m s' ∧
      ArgsFrom s' 0 (.int (loc this) :: withPlace g (off S.F ret) (passed g loc)) := by
  have hroom := push_room (loc := loc) f 0 0
  have hna := f.nargs
  have hpf := pushFirst_eq f
  have hfr := firstReg_cases g.ret
  have hpar := f.params
  have hd0 := f.depth
  -- `this` and the place for the returned value
  have k1 : ∃ s₁, execs acc s (.load rcx (at_ rbp this) :: (if g.ret.size ≠ 0 ∧ g.ret.has flagRetMem = true
        then [.lea rdx (at_ rbp ret)] else [])) = some s₁ ∧ Inv S s₀ 0 loc m s₁ ∧ s₁.reg 1 = loc this ∧
        (hiddenPtr g = true → s₁.reg 2 = off S.F ret) := by
    unfold hiddenPtr
    split
    · rename_i hc
      sym [h.rbp, okAt_slot ok ht, h.priv _ ht]
      inv_of h
    · rename_i hc
      sym [h.rbp, okAt_slot ok ht, h.priv _ ht]
      exact ⟨by inv_of h, fun h1 h2 => absurd ⟨h1, h2⟩ hc⟩
  obtain ⟨s₁, x₁, i₁, a0, a1⟩ := k1
  -- the registers
  obtain ⟨s₂, x₂, i₂, b2, o2⟩ := loadRegs_exec ok g.params (firstReg g.ret) s₁ i₁ (by omega) (by omega)
  -- the stack
  have k3 : ∃ s₃, execs acc s₂ ([.subImm rsp (i32 32), .subImm rsp (i32 (onStack g * 8 : Nat))]
      ++ (if onStack g % 2 = 0 then [.subImm rsp (i32 8)] else [])) = some s₃ ∧
      Inv S s₀ (pushSpace g) loc m s₃ ∧ (∀ r, r ≠ 4 → s₃.reg r = s₂.reg r) ∧ s₃.xmm = s₂.xmm := by
    have hon : onStack g ≤ 2 ^ 20 := by unfold onStack; omega
    unfold pushSpace
    split
    · sym [i₂.rsp]
      exact ⟨by inv_of i₂, fun r hr => by simp [hr]⟩
    · sym [i₂.rsp]
      exact ⟨by inv_of i₂, fun r hr => by simp [hr]⟩
  obtain ⟨s₃, x₃, i₃, r₃, xm₃⟩ := k3
  have hps : (32 : Int) + 8 * ((0 + onStack g : Nat) : Int) ≤ pushSpace g := by
    unfold pushSpace; split <;> omega
  by_cases hst : onStack g = 0
  · -- nothing on the stack
    refine ⟨s₃, ?_, i₃, ?_⟩
    · unfold pushOps
      rw [hst] at x₃ ⊢
      simp only [copyStack, List.append_nil]
      rw [show ∀ (o : Op) (a b c : List Op), o :: (a ++ b ++ [.subImm rsp (i32 32),
        .subImm rsp (i32 ((0 * 8 : Nat) : Int))] ++ c) = (o :: a) ++ (b ++ ([.subImm rsp (i32 32),
        .subImm rsp (i32 ((0 * 8 : Nat) : Int))] ++ c)) from fun _ _ _ _ => by simp,
        execs_append, x₁, Option.bind_some, execs_append, hpf, x₂, Option.bind_some]
      exact x₃
    · have low : ∀ k b, k < 4 → ArgOk s₂ k b → ArgOk s₃ k b := fun k b hk hb =>
        hb.regs hk (r₃ 1 (by decide)) (r₃ 2 (by decide)) (r₃ 8 (by decide)) (r₃ 9 (by decide)) xm₃
      refine argsFrom_cons (low 0 _ (by omega) (o2 0 _ (by omega) (by omega) a0)) ?_
      have rest : ArgsFrom s₃ (firstReg g.ret) (passed g loc) := by
        intro j b hb
        by_cases hj : firstReg g.ret + j < 4
        · exact low _ _ hj (b2 j b hb hj)
        · have := argsOf_stack _ _ _ _ _ hb (by omega)
          unfold onStack at hst
          omega
      unfold withPlace
      rcases hidden_cases f with ⟨hh, e1⟩ | ⟨hh, e1⟩
      · rw [e1] at rest
        rw [if_pos hh]
        exact argsFrom_cons (low 1 _ (by omega) (o2 1 _ (by omega) (by omega) (a1 hh))) rest
      · rw [e1] at rest
        rw [hh]
        exact rest
  · obtain ⟨s₄, x₄, i₄, r₄, xm₄, c₄, -⟩ := copyStack_exec ok (onStack g) 0 s₃ i₃
      (by unfold onStack at *; omega) hps (by omega)
    refine ⟨s₄, ?_, i₄, ?_⟩
    · unfold pushOps
      rw [show ∀ (o : Op) (a b c d : List Op), o :: (a ++ b ++ [.subImm rsp (i32 32),
        .subImm rsp (i32 ((onStack g * 8 : Nat) : Int))] ++ c ++ d) = (o :: a) ++ (b ++
        (([.subImm rsp (i32 32), .subImm rsp (i32 ((onStack g * 8 : Nat) : Int))] ++ c) ++ d))
        from fun _ _ _ _ _ => by simp,
        execs_append, x₁, Option.bind_some, execs_append, hpf, x₂, Option.bind_some, execs_append, x₃,
        Option.bind_some]
      exact x₄
    · have low : ∀ k b, k < 4 → ArgOk s₂ k b → ArgOk s₄ k b := fun k b hk hb =>
        hb.regs hk ((r₄ 1 (by decide)).trans (r₃ 1 (by decide)))
          ((r₄ 2 (by decide)).trans (r₃ 2 (by decide))) ((r₄ 8 (by decide)).trans (r₃ 8 (by decide)))
          ((r₄ 9 (by decide)).trans (r₃ 9 (by decide))) (xm₄.trans xm₃)
      refine argsFrom_cons (low 0 _ (by omega) (o2 0 _ (by omega) (by omega) a0)) ?_
      have rest : ArgsFrom s₄ (firstReg g.ret) (passed g loc) := by
        intro j b hb
        by_cases hj : firstReg g.ret + j < 4
        · exact low _ _ hj (b2 j b hb hj)
        · obtain ⟨hb', hjl⟩ := argsOf_stack _ _ _ _ _ hb (by omega)
          have hn : ∃ n, firstReg g.ret + j = n + 4 := ⟨firstReg g.ret + j - 4, by omega⟩
          obtain ⟨n, hn⟩ := hn
          rw [hb', hn]
          show rd s₄.mem (s₄.reg 4 + BitVec.ofNat 64 (8 * (n + 4))) = _
          rw [i₄.rsp, off_bytes]
          have := c₄ n (by unfold onStack; omega)
          rw [show 4 + 0 + n = n + 4 by omega] at this
          rw [← this]
          exact congrArg _ (off_congr _ (by omega))
      unfold withPlace
      rcases hidden_cases f with ⟨hh, e1⟩ | ⟨hh, e1⟩
      · rw [e1] at rest
        rw [if_pos hh]
        exact argsFrom_cons (low 1 _ (by omega) (o2 1 _ (by omega) (by omega) (a1 hh))) rest
      · rw [e1] at rest
        rw [hh]
        exact rest

end Verif.Jit
