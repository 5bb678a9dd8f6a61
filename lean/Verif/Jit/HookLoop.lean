import Verif.Jit.HookPush
/-
Helper lemmas for C65: the calls with parameters, the jumps, the loop.
-/
namespace Verif.Jit

attribute [local simp] rax rcx rdx rbx rsp rbp rsi rdi r8 r9 r10 vEntry vStatus vPrev vCur vIter
  vContext vThis

variable {acc keep : W → Bool} {S : Stack} {g : Gen} {s₀ s s' : Mach} {d d' : Int} {loc : Int → W}
  {m : Memory} {code : List Byte} {P : Memory → Mach → Prop} {α β : Type}

/-! ## From one position to another -/

/-- Running from `pc` in a state with `P` does what the program `x` does and leads to `pc'` and `Q`. -/
def RefTo (acc keep : W → Bool) (S : Stack) (code : List Byte) (pc pc' : Nat)
    (P : Memory → Mach → Prop) (x : M α) (Q : α → Memory → Mach → Prop) : Prop :=
  ∀ m as a m' as' t, x m as = some (a, m', as', t) → ∀ s, P m s →
    ∃ s' t', Steps acc keep code ⟨pc, s, as⟩ t' ⟨pc', s', as'⟩ ∧ AreCalls S t t' ∧ Q a m' s'

theorem Ref.to {ops : List Op} {x : M α} {Q : α → Memory → Mach → Prop}
    (h : Ref acc keep S code ops P x Q) {pc pc' : Nat} (hat : At code pc ops)
    (hp : pc' = pc + size ops) : RefTo acc keep S code pc pc' P x Q := by
  subst hp
  exact h pc hat

theorem RefTo.seq {pc pc' pc'' : Nat} {x : M α} {f : α → M β} {Q : α → Memory → Mach → Prop}
    {R : β → Memory → Mach → Prop} (h1 : RefTo acc keep S code pc pc' P x Q)
    (h2 : ∀ v, RefTo acc keep S code pc' pc'' (Q v) (f v) R) :
    RefTo acc keep S code pc pc'' P (x >>= f) R := by
  intro m as v m' as' t hx s hs
  obtain ⟨w, m₁, as₁, t₁, t₂, e1, e2, rfl⟩ := bind_some hx
  obtain ⟨s₁, u₁, st1, c1, q⟩ := h1 m as w m₁ as₁ t₁ e1 s hs
  obtain ⟨s₂, u₂, st2, c2, r⟩ := h2 w m₁ as₁ v m' as' t₂ e2 s₁ q
  exact ⟨s₂, u₁ ++ u₂, st1.trans st2, c1.append c2, r⟩

/-- The machine moves while the program does nothing. -/
theorem RefTo.move {pc pc' pc'' : Nat} {x : M α} {P' : Memory → Mach → Prop}
    {Q : α → Memory → Mach → Prop}
    (h : ∀ m s as, P m s → ∃ s', Steps acc keep code ⟨pc, s, as⟩ [] ⟨pc', s', as⟩ ∧ P' m s')
    (h2 : RefTo acc keep S code pc' pc'' P' x Q) : RefTo acc keep S code pc pc'' P x Q := by
  intro m as v m' as' t hx s hs
  obtain ⟨s₁, st1, p'⟩ := h m s as hs
  obtain ⟨s₂, u₂, st2, c2, r⟩ := h2 m as v m' as' t hx s₁ p'
  exact ⟨s₂, u₂, st1.trans st2, c2, r⟩

/-- The machine moves behind the program. -/
theorem RefTo.last {pc pc' pc'' : Nat} {x : M α} {Q R : α → Memory → Mach → Prop}
    (h1 : RefTo acc keep S code pc pc' P x Q)
    (h : ∀ v m s as, Q v m s → ∃ s', Steps acc keep code ⟨pc', s, as⟩ [] ⟨pc'', s', as⟩ ∧ R v m s') :
    RefTo acc keep S code pc pc'' P x R := by
  intro m as v m' as' t hx s hs
  obtain ⟨s₁, u, st1, c, q⟩ := h1 m as v m' as' t hx s hs
  obtain ⟨s₂, st2, r⟩ := h v m' s₁ as' q
  have := st1.trans st2
  rw [List.append_nil] at this
  exact ⟨s₂, u, this, c, r⟩

theorem RefTo.pure {pc : Nat} {a : α} :
    RefTo acc keep S code pc pc P (pure a : M α) (fun _ => P) := by
  intro m as v m' as' t hx s hs
  cases hx
  exact ⟨s, [], .refl _, .nil, hs⟩

theorem RefTo.weaken {pc pc' : Nat} {x : M α} {P' : Memory → Mach → Prop}
    {Q Q' : α → Memory → Mach → Prop} (h : RefTo acc keep S code pc pc' P x Q)
    (hp : ∀ m s, P' m s → P m s) (hq : ∀ v m s, Q v m s → Q' v m s) :
    RefTo acc keep S code pc pc' P' x Q' := by
  intro m as v m' as' t hx s hs
  obtain ⟨s₁, u, st, c, q⟩ := h m as v m' as' t hx s (hp m s hs)
  exact ⟨s₁, u, st, c, hq _ _ _ q⟩

/-! ## Jumps -/

/-- A conditional jump over `skip`, taken. -/
theorem Ref.taken {o : Op} {skip rest : List Op} {x : M α} {Q : α → Memory → Mach → Prop} {c : Cond}
    (ho : o.instr = .jcc c (i32 (size skip))) (hl : skip.length < 2 ^ 27)
    (hc : ∀ m s, P m s → holds s c = true) (h : Ref acc keep S code rest P x Q) :
    Ref acc keep S code (o :: (skip ++ rest)) P x Q := by
  intro pc hat m as v m' as' t hx s hs
  have st := steps_skip (acc := acc) (keep := keep) hat ho hl (hc m s hs) as
  have hr : At code (pc + o.bytes.length + size skip) rest := hat.tail.right
  obtain ⟨s₁, u, st1, c1, q⟩ := h _ hr m as v m' as' t hx s hs
  refine ⟨s₁, u, ?_, c1, q⟩
  rw [size_cons, size_append, show pc + (o.bytes.length + (size skip + size rest))
    = pc + o.bytes.length + size skip + size rest by omega]
  exact st.trans st1

/-- A conditional jump not taken. -/
theorem Ref.fall {o : Op} {rest : List Op} {x : M α} {Q : α → Memory → Mach → Prop} {c : Cond}
    {e : BitVec 32} (ho : o.instr = .jcc c e)
    (hc : ∀ m s, P m s → holds s c = false) (h : Ref acc keep S code rest P x Q) :
    Ref acc keep S code (o :: rest) P x Q := by
  intro pc hat m as v m' as' t hx s hs
  have st := steps_fall (acc := acc) (keep := keep) hat ho (hc m s hs) as
  obtain ⟨s₁, u, st1, c1, q⟩ := h _ hat.tail m as v m' as' t hx s hs
  refine ⟨s₁, u, ?_, c1, q⟩
  rw [size_cons, ← Nat.add_assoc]
  exact st.trans st1

/-- A jump at the end. -/
theorem Ref.over {a skip : List Op} {x : M α} {Q : α → Memory → Mach → Prop}
    (hl : skip.length < 2 ^ 27) (h : Ref acc keep S code a P x Q) :
    Ref acc keep S code (a ++ .jump (i32 (size skip)) :: skip) P x Q := by
  intro pc hat m as v m' as' t hx s hs
  obtain ⟨s₁, u, st1, c1, q⟩ := h _ hat.left m as v m' as' t hx s hs
  refine ⟨s₁, u, ?_, c1, q⟩
  have hsz := size_le skip
  have st2 : Steps acc keep code ⟨pc + size a, s₁, as'⟩ []
      ⟨pc + size (a ++ .jump (i32 (size skip)) :: skip), s₁, as'⟩ := by
    refine .go ?_ (.refl _)
    rw [step_jmp hat.right, jumpTo_i32 _ _ _ (by omega) (by omega)]
    congr 1
    rw [size_append, size_cons]
    omega
  have := st1.trans st2
  rwa [List.append_nil] at this

/-- A jump back. -/
theorem steps_back {pc to : Nat} {o : Op} {n : Nat} {s : Mach}
    (ho : step acc code pc s = jumpTo (pc + o.bytes.length) (i32 (-(n : Int))) s)
    (hn : pc + o.bytes.length = to + n) (hl : n < 2 ^ 31) (as : List Ans) :
    Steps acc keep code ⟨pc, s, as⟩ [] ⟨to, s, as⟩ := by
  refine .go ?_ (.refl _)
  rw [ho, jumpTo_i32 _ _ _ (by omega) (by omega)]
  congr 1
  omega

/-! ## Calls with parameters -/

/-- A call with the parameters: `pre` loads the function into RAX. -/
theorem Ref.pass (ok : StackOk acc keep S) (f : Fit g S) {this ret : Int} (ht : S.slot this)
    (htb : -64 ≤ this ∧ this ≤ 0) (hr : -2 ^ 30 ≤ ret ∧ ret ≤ 0) {pre : List Op} {fn : W}
    (hp : ∀ m s, P m s → Inv S s₀ 0 loc m s ∧ ∀ s₁ : Mach, Inv S s₀ (pushSpace g) loc m s₁ →
      ∃ s₂, execs acc s₁ pre = some s₂ ∧ Inv S s₀ (pushSpace g) loc m s₂ ∧ s₂.reg 0 = fn ∧
        (∀ r, r ≠ 0 → s₂.reg r = s₁.reg r) ∧ s₂.mem = s₁.mem ∧ s₂.xmm = s₁.xmm) :
    Ref acc keep S code ((pushOps g this ret ++ pre) ++ ([.call rax]
        ++ [.addImm rsp (i32 (pushSpace g))])) P
      (callF (world acc keep S) fn (.int (loc this) :: withPlace g (off S.F ret) (passed g loc)))
      (Called S s₀ 0 loc) := by
  have hroom := push_room (loc := loc) f (loc this) (off S.F ret)
  have hd := ok.depth
  refine Ref.call40 ok (by omega) ?_
  intro m s h
  obtain ⟨h, hpre⟩ := hp m s h
  obtain ⟨s₁, x₁, i₁, a₁⟩ := push_exec ok f h ht htb hr
  obtain ⟨s₂, x₂, i₂, e₂, r₂, m₂, xm₂⟩ := hpre s₁ i₁
  refine ⟨s₂, by rw [execs_append, x₁, Option.bind_some, x₂], i₂, e₂, ?_, hroom⟩
  intro i a ha
  have := a₁ i a ha
  rw [Nat.zero_add] at this
  exact this.all r₂ m₂ xm₂

theorem place_off (g : Gen) (S : Stack) (v : Int) :
    place (varsAt g S) g (off S.F v) = off S.F (if withTemp g.ret then (frame g.ret).memRet else v) := by
  unfold place
  split <;> rfl

theorem setPrev_ref (ok : StackOk acc keep S) :
    Ref acc keep S code [.load rax (at_ rbp vCur), .store (at_ rbp vPrev) rax] (Inv S s₀ 0 loc)
      (setPrev (world acc keep S) (varsAt g S)) (fun _ => Inv S s₀ 0 loc) := by
  unfold setPrev
  refine Ref.first (Ref.load _) fun c => Ref.save ?_
  rintro m s ⟨h, h1, e1⟩ h2
  have r1 := h.rd_vis h1
  have a1 := acc_of_vis h1
  have a2 := acc_of_vis h2
  simp only [varsAt, vCur, vPrev] at *
  have := h.setVis ok h2 c
  sym [h.rbp, a1, a2, r1, ← e1]
  inv_by this h.rsp

theorem call_pre (ok : StackOk acc keep S) (f : Fit g S)
    (h1 : okAt (world acc keep S).vis (loc (-48)) = true)
    (h2 : okAt (world acc keep S).vis (off (rd m (loc (-48))) (g.callIdx * 8)) = true)
    (h : Inv S s₀ d loc m s) :
    ∃ s₂, execs acc s [.load rax (at_ rbp vIter), .load rax (at_ rax 0),
        .load rax (at_ rax (g.callIdx * 8))] = some s₂ ∧ Inv S s₀ d loc m s₂ ∧
      s₂.reg 0 = rd m (off (rd m (loc (-48))) (g.callIdx * 8)) ∧
      (∀ r, r ≠ 0 → s₂.reg r = s.reg r) ∧ s₂.mem = s.mem ∧ s₂.xmm = s.xmm := by
  have hn := f.call
  have r1 := h.rd_vis h1
  have r2 := h.rd_vis h2
  have a1 := acc_of_vis h1
  have a2 := acc_of_vis h2
  sym [h.rbp, okAt_slot ok slot_iter, h.priv _ slot_iter, r1, r2, a1, a2]
  exact ⟨by inv_of h, fun r hr => by simp [hr]⟩

theorem hookOne_ref (ok : StackOk acc keep S) (f : Fit g S) (k : Bool) :
    Ref acc keep S code (hookOps g ++ saveOps g (frame g.ret).plugin) (Inv S s₀ 0 loc)
      (hookOne (world acc keep S) (varsAt g S) g ⟨false, k⟩ (loc vIter) (passed g loc))
      (fun _ => Inv S s₀ 0 loc) := by
  have hb := frame_bound f
  have hops : hookOps g ++ saveOps g (frame g.ret).plugin = [.storeImm (at_ rbp vCur) (i32 0)]
      ++ ([.load rax (at_ rbp vCur), .store (at_ rbp vPrev) rax]
      ++ (((pushOps g vIter (if withTemp g.ret then (frame g.ret).memRet else (frame g.ret).plugin)
        ++ [.load rax (at_ rbp vIter), .load rax (at_ rax 0), .load rax (at_ rax (g.callIdx * 8))])
        ++ ([.call rax] ++ [.addImm rsp (i32 (pushSpace g))]))
      ++ saveOps g (frame g.ret).plugin)) := by
    simp [hookOps]
  rw [hops]
  unfold hookOne
  refine (storeZero ok (by decide)).seq fun _ => ?_
  refine Ref.seq (Q := fun _ => Inv S s₀ 0 loc) ?_ fun _ => ?_
  · exact setPrev_ref ok
  · refine Ref.seq (Q := Called S s₀ 0 loc) ?_ fun a => ?_
    · unfold virt
      refine Ref.first (Ref.load _) fun vt => Ref.first (Ref.load _) fun fn => ?_
      rw [show (varsAt g S).plugin = off S.F (frame g.ret).plugin from rfl, place_off]
      refine Ref.pass ok f slot_iter (by decide) (by split <;> omega) ?_
      rintro m s ⟨⟨h, h1, e1⟩, h2, e2⟩
      rw [off_nat8] at h2 e2
      subst e1 e2
      exact ⟨h, fun s₁ i₁ => call_pre ok f h1 h2 i₁⟩
    · exact Ref.void (keep_ref ok f a hb.2.2.1) fun _ _ _ h => h

theorem entry_pre (h1 : okAt (world acc keep S).vis (off S.F (-16)) = true)
    (h : Inv S s₀ d loc m s) :
    ∃ s₂, execs acc s [.load rax (at_ rbp vEntry)] = some s₂ ∧ Inv S s₀ d loc m s₂ ∧
      s₂.reg 0 = rd m (off S.F (-16)) ∧
      (∀ r, r ≠ 0 → s₂.reg r = s.reg r) ∧ s₂.mem = s.mem ∧ s₂.xmm = s.xmm := by
  have r1 := h.rd_vis h1
  have a1 := acc_of_vis h1
  sym [h.rbp, r1, a1]
  exact ⟨by inv_of h, fun r hr => by simp [hr]⟩

theorem original_ref (ok : StackOk acc keep S) (f : Fit g S) :
    Ref acc keep S code (origOps g) (Inv S s₀ 0 loc)
      (callOriginal (world acc keep S) (varsAt g S) g (loc vThis) (passed g loc))
      (fun _ => Inv S s₀ 0 loc) := by
  have hb := frame_bound f
  have hops : origOps g
      = ((pushOps g vThis (if withTemp g.ret then (frame g.ret).memRet else (frame g.ret).orig)
        ++ [.load rax (at_ rbp vEntry)])
        ++ ([.call rax] ++ [.addImm rsp (i32 (pushSpace g))]))
      ++ saveOps g (frame g.ret).orig := by
    simp [origOps]
  rw [hops]
  unfold callOriginal
  refine Ref.first (Ref.load _) fun fn => ?_
  refine Ref.seq (Q := Called S s₀ 0 loc) ?_ fun a => keep_ref ok f a hb.1
  rw [show (varsAt g S).orig = off S.F (frame g.ret).orig from rfl, place_off]
  refine Ref.pass ok f slot_this (by decide) (by split <;> omega) ?_
  rintro m s ⟨h, h1, e1⟩
  subst e1
  exact ⟨h, fun s₁ i₁ => entry_pre h1 i₁⟩

/-! ## Lengths -/

theorem len_copyStack (n : Nat) : ∀ i, (copyStack i n).length = 2 * n := by
  induction n with
  | zero => intro i; rfl
  | succ n ih => intro i; simp [copyStack, ih]; omega

theorem len_loadRegs (ps : List Pass) : ∀ i, (loadRegs i ps).length ≤ ps.length := by
  induction ps with
  | nil => intro i; simp [loadRegs]
  | cons p ps ih =>
    intro i
    simp only [loadRegs]
    have := ih (i + 1)
    split <;> simp <;> omega

theorem len_push (g : Gen) (a b : Int) : (pushOps g a b).length ≤ 10 + 3 * g.params.length := by
  have h1 := len_loadRegs g.params (pushFirst g.ret)
  have h2 := len_copyStack (onStack g) 0
  have h3 : onStack g ≤ g.params.length := by unfold onStack; omega
  simp only [pushOps, List.length_cons, List.length_append]
  split <;> split <;> simp <;> omega

theorem len_move (g : Gen) (a b : Int) : (moveOps g a b).length ≤ 20 := by
  unfold moveOps
  split <;> simp [assignOps, copyOps]

theorem len_save (g : Gen) (a : Int) : (saveOps g a).length ≤ 30 := by
  have := len_move g a (frame g.ret).memRet
  have : (dropTemp g).length ≤ 5 := by unfold dropTemp; split <;> simp
  unfold saveOps
  repeat' split
  all_goals simp
  omega

theorem len_else (g : Gen) : (elseOps g).length ≤ 20 := by
  have := len_move g (frame g.ret).orig (frame g.ret).override
  unfold elseOps
  repeat' split
  all_goals simp
  omega

theorem len_orig (g : Gen) : (origPart g).length ≤ 60 + 3 * g.params.length := by
  have h1 := len_push g vThis (if withTemp g.ret then (frame g.ret).memRet else (frame g.ret).orig)
  have h2 := len_save g (frame g.ret).orig
  simp only [origPart, origOps, List.length_append, List.length_cons, List.length_nil]
  omega

theorem len_should (g : Gen) : (shouldPart g).length ≤ 80 + 3 * g.params.length := by
  have h1 := len_orig g
  simp only [shouldPart, shouldOps, List.length_append, List.length_cons, List.length_nil]
  omega

theorem len_hook (g : Gen) : (loopBody g).length ≤ 60 + 3 * g.params.length := by
  have h1 := len_push g vIter (if withTemp g.ret then (frame g.ret).memRet else (frame g.ret).plugin)
  have h2 := len_save g (frame g.ret).plugin
  simp only [loopBody, hookOps, statusOps, List.length_append, List.length_cons, List.length_nil]
  omega

theorem len_override (g : Gen) (n : Nat) : (overrideOps g n).length ≤ 40 := by
  have : (overrideSet g).length ≤ 20 := by
    unfold overrideSet
    repeat' split
    all_goals simp [copyOps]
  unfold overrideOps
  split
  · simp
  · simp only [overrideTest, overridePtr, List.length_append, List.length_cons, List.length_nil]
    omega

theorem len_rest (g : Gen) : (loopRest g).length ≤ 100 + 3 * g.params.length := by
  have h1 := len_hook g
  have h2 := len_override g (overrideAt g)
  simp only [loopRest, List.length_append]
  omega

/-! ## The original function -/

theorem status3_exec (h : Inv S s₀ 0 loc m s) {st : W} (hc : rd m (off S.F (-24)) = st)
    (ha : okAt (world acc keep S).vis (off S.F (-24)) = true) :
    ∃ s', execs acc s [.load rax (at_ rbp vStatus), .cmpImm rax (i32 3)] = some s' ∧
      Inv S s₀ 0 loc m s' ∧ holds s' .e = decide (st = 3) := by
  have r1 := h.rd_vis ha
  have a1 := acc_of_vis ha
  have e3 : c64 3 = 3 := rfl
  sym [h.rbp, r1, a1, hc, holds_e_sub, e3]
  inv_of h

theorem callOrig_ref (ok : StackOk acc keep S) (f : Fit g S) :
    Ref acc keep S code (callOrigOps g) (Inv S s₀ 0 loc)
      (callOrig (world acc keep S) (varsAt g S) g (loc vContext) (loc vThis) (passed g loc))
      (fun _ => Inv S s₀ 0 loc) := by
  have hp := f.params
  unfold callOrig callOrigOps
  refine Ref.first (Ref.load _) fun st => ?_
  refine Ref.pre (Q := fun m s => Inv S s₀ 0 loc m s ∧ holds s .e = decide (st = 3)) ?_ ?_
  · rintro m s ⟨h, h1, e1⟩
    exact status3_exec h e1.symm h1
  · split
    · rename_i h3
      refine Ref.taken (c := .e) rfl (by have := len_should g; omega) ?_
        (Ref.weaken (else_ref ok f) (fun _ _ h => h.1) (fun _ _ _ h => h))
      intro m s h
      rw [h.2]
      exact decide_eq_true h3
    · rename_i h3
      refine Ref.fall (c := .e) rfl ?_ ?_
      · intro m s h
        rw [h.2]
        exact decide_eq_false h3
      · rw [shouldPart, List.append_assoc, List.cons_append]
        refine Ref.seq (Ref.weaken (should_ref ok f) (fun _ _ h => h.1) (fun _ _ _ h => h)) fun a => ?_
        split
        · rename_i h1
          refine Ref.taken (c := .e) rfl (by have := len_orig g; omega) ?_
            (Ref.weaken (else_ref ok f) (fun _ _ h => h.1) (fun _ _ _ h => h))
          intro m s h
          rw [h.2]
          exact decide_eq_true h1
        · rename_i h1
          refine Ref.fall (c := .e) rfl ?_ ?_
          · intro m s h
            rw [h.2]
            exact decide_eq_false h1
          · rw [origPart, List.append_assoc]
            refine Ref.over (by have := len_else g; omega) ?_
            exact Ref.weaken (original_ref ok f) (fun _ _ h => h.1) (fun _ _ _ h => h)

/-! ## The loop -/

/-- The position of the end of the loop, seen from its parts. -/
theorem size_loop (g : Gen) : size (loopOps g) = loopSize g := by
  unfold loopOps loopSize
  simp only [size_append, size_cons, size_nil, len_jz, len_jump]
  omega

theorem loop_small (f : Fit g S) : loopSize g < 2 ^ 31 := by
  have h1 := len_rest g
  have h2 := f.params
  have h3 := size_le (loopHead g ++ [.jz (i32 0)] ++ loopRest g ++ [.jump (i32 0)])
  simp only [List.length_append, loopHead, nextOps, List.length_cons, List.length_nil] at h3
  unfold loopSize
  rw [show loopHead g = nextOps g ++ [.test rax rax] from rfl]
  unfold nextOps
  omega

/-- From behind the status to the start of the loop. -/
theorem back_ref (ok : StackOk acc keep S) (f : Fit g S) {pc : Nat} (hat : At code pc (loopOps g))
    (c : W) :
    RefTo acc keep S code (pc + overrideAt g) pc
      (fun m s => Inv S s₀ 0 loc m s ∧ rd m (off S.F vCur) = c ∧
        okAt (world acc keep S).vis (off S.F vCur) = true)
      (override (world acc keep S) (varsAt g S) g (loc vContext) c) (fun _ => Inv S s₀ 0 loc) := by
  have hsm := loop_small f
  -- the last jump
  have hend : At code (pc + loopSize g - 5) [.jump (i32 (-(loopSize g : Int)))] := by
    have h1 : At code pc ((loopHead g ++ .jz (i32 (size (loopRest g ++ [.jump (i32 0)])))
      :: loopRest g) ++ [.jump (i32 (-(loopSize g : Int)))]) := by
      have := hat
      unfold loopOps at this
      simpa using this
    have h2 := h1.right
    rwa [show pc + size (loopHead g ++ .jz (i32 (size (loopRest g ++ [.jump (i32 0)]))) :: loopRest g)
      = pc + loopSize g - 5 by
        simp only [loopSize, size_append, size_cons, size_nil, len_jz, len_jump]; omega] at h2
  have h5 : 5 ≤ loopSize g := by
    simp only [loopSize, size_append, size_jump]; omega
  have jumpBack : ∀ (s : Mach) (as : List Ans),
      Steps acc keep code ⟨pc + loopSize g - 5, s, as⟩ [] ⟨pc, s, as⟩ := fun s as =>
    steps_back (step_jmp hend s) (by rw [len_jump]; omega) hsm as
  -- the override
  have hov : At code (pc + overrideAt g) (overrideOps g (overrideAt g)) := by
    have h1 : At code pc ((loopHead g ++ .jz (i32 (size (loopRest g ++ [.jump (i32 0)])))
      :: loopBody g) ++ (overrideOps g (overrideAt g) ++ [.jump (i32 (-(loopSize g : Int)))])) := by
      have := hat
      unfold loopOps at this
      rw [loopRest] at this
      simpa [loopRest] using this
    have h2 := h1.right.left
    rwa [show pc + size (loopHead g ++ .jz (i32 (size (loopRest g ++ [.jump (i32 0)]))) :: loopBody g)
      = pc + overrideAt g by
        simp only [overrideAt, size_append, size_cons, size_nil, len_jz]; omega] at h2
  have hsz : pc + loopSize g - 5 = pc + overrideAt g + size (overrideOps g (overrideAt g)) := by
    simp only [loopSize, loopRest, overrideAt, size_append, size_jump]; omega
  unfold override
  unfold overrideOps at hov hsz
  by_cases hz : g.ret.size = 0
  · rw [if_pos (.inl hz)]
    rw [if_pos hz] at hsz
    refine RefTo.last (pc' := pc + overrideAt g) RefTo.pure ?_
    intro v m s as h
    have := jumpBack s as
    rw [hsz, size_nil, Nat.add_zero] at this
    exact ⟨s, this, h.1⟩
  · rw [if_neg hz] at hov hsz
    have step1 : ∀ m s as, (Inv S s₀ 0 loc m s ∧ rd m (off S.F vCur) = c ∧
        okAt (world acc keep S).vis (off S.F vCur) = true) →
        ∃ s', Steps acc keep code ⟨pc + overrideAt g, s, as⟩ []
          ⟨pc + overrideAt g + size overrideTest, s', as⟩ ∧ (Inv S s₀ 0 loc m s' ∧
          holds s' .l = decide (c.toInt < 2)) := by
      intro m s as h
      obtain ⟨s', e, q⟩ := overrideTest_exec h.1 h.2.1 h.2.2
      exact ⟨s', steps_straight overrideTest hov.left e, q⟩
    refine RefTo.move step1 ?_
    have hj := hov.right
    by_cases hc : c.toInt < 2
    · rw [if_pos (.inr hc)]
      refine RefTo.last (pc' := pc + overrideAt g + size overrideTest) RefTo.pure ?_
      intro v m s as h
      refine ⟨s, steps_back (o := .jl (i32 (-((overrideAt g
        + size (overrideTest ++ [.jl (i32 0)]) : Nat) : Int)))) (n := overrideAt g + size (overrideTest ++ [.jl (i32 0)])) ?_ ?_ ?_ as,
        h.1⟩
      · rw [step_jcc hj rfl, h.2, decide_eq_true hc, if_pos rfl]
      · rw [len_jl, size_append, size_jl]; omega
      · rw [size_append, size_cons, len_jl] at hsz
        rw [size_append, size_jl]
        omega
    · rw [if_neg (fun h => h.elim hz hc)]
      refine RefTo.move (pc' := pc + overrideAt g + size overrideTest + 6)
        (P' := Inv S s₀ 0 loc) ?_ ?_
      · intro m s as h
        have := steps_fall (acc := acc) (keep := keep) hj (c := .l) rfl (s := s)
          (by rw [h.2]; exact decide_eq_false hc) as
        rw [len_jl] at this
        exact ⟨s, this, h.1⟩
      · have ht := hj.tail
        rw [len_jl] at ht
        refine RefTo.last (Ref.to (override_ref ok f) ht rfl) ?_
        intro v m s as h
        have := jumpBack s as
        rw [hsz, size_append, size_cons, len_jl] at this
        rw [show pc + overrideAt g + size overrideTest + 6 + size (overridePtr g ++ overrideSet g)
          = pc + overrideAt g + (size overrideTest + (6 + size (overridePtr g ++ overrideSet g)))
          by omega]
        exact ⟨s, this, h⟩

/-- The private variables agree except for the iterator. -/
def Agree (l l' : Int → W) : Prop := ∀ k, k ≠ vIter → l k = l' k

theorem Agree.passed {l l' : Int → W} (h : Agree l l') (g : Gen) :
    Jit.passed g l = Jit.passed g l' :=
  argsOf_congr _ _ fun j _ _ => h _ (by simp only [vIter]; omega)

theorem test_exec0 (h : Inv S s₀ 0 loc m s) {v : W} (hv : s.reg 0 = v) :
    ∃ s', execs acc s [.test rax rax] = some s' ∧ Inv S s₀ 0 loc m s' ∧
      holds s' .e = decide (v = 0) := by
  sym [hv, holds_e_log]
  inv_of h

theorem loop_ref (ok : StackOk acc keep S) (f : Fit g S) (k : Bool) {pc : Nat}
    (hat : At code pc (loopOps g)) (n : Nat) : ∀ loc,
    RefTo acc keep S code pc (pc + size (loopOps g)) (Inv S s₀ 0 loc)
      (hooks (world acc keep S) (varsAt g S) g ⟨false, k⟩ (loc vContext) (passed g loc) n)
      (fun _ m s => ∃ l, Inv S s₀ 0 l m s ∧ Agree l loc) := by
  have hp := f.params
  have hr := len_rest g
  induction n with
  | zero =>
    intro loc m as v m' as' t hx
    cases hx
  | succ n ih =>
    intro loc
    simp only [hooks]
    have hat' := hat
    unfold loopOps at hat'
    refine RefTo.seq (pc' := pc + size (loopHead g)) (Q := fun a m s =>
      Inv S s₀ 0 (upd loc vIter (a.reg 0)) m s ∧ holds s .e = decide (a.reg 0 = 0)) ?_ fun a => ?_
    · refine Ref.to ?_ hat'.left rfl
      exact Ref.post (next_ref ok f) fun v m s h => test_exec0 h.1 h.2
    · have hj := hat'.right
      split
      · -- no further hook
        rename_i h0
        refine RefTo.last (pc' := pc + size (loopHead g)) RefTo.pure ?_
        intro v m s as h
        refine ⟨s, .go ?_ (.refl _), _, h.1, fun k hk => upd_ne _ _ hk⟩
        have hsz := size_le (loopRest g ++ [.jump (i32 0)])
        simp only [List.length_append, List.length_cons, List.length_nil] at hsz
        rw [step_jcc hj rfl, h.2, decide_eq_true h0, if_pos rfl, jumpTo_i32 _ _ _ (by omega) (by omega)]
        congr 1
        rw [size_loop]
        simp only [loopSize, size_append, size_cons, size_nil, len_jz, len_jump]
        omega
      · -- a hook
        rename_i h0
        refine RefTo.move (pc' := pc + size (loopHead g) + 6)
          (P' := Inv S s₀ 0 (upd loc vIter (a.reg 0))) ?_ ?_
        · intro m s as h
          have := steps_fall (acc := acc) (keep := keep) hj (c := .e) rfl (s := s)
            (by rw [h.2]; exact decide_eq_false h0) as
          rw [len_jz] at this
          exact ⟨s, this, h.1⟩
        · have ht := hj.tail
          rw [len_jz] at ht
          have hb : At code (pc + size (loopHead g) + 6) ((hookOps g ++ saveOps g (frame g.ret).plugin)
              ++ statusOps) := by
            rw [loopRest, loopBody] at ht
            exact ht.left.left
          have hag : Agree (upd loc vIter (a.reg 0)) loc := fun k hk => upd_ne _ _ hk
          have e1 : loc vContext = upd loc vIter (a.reg 0) vContext := (upd_ne _ _ (by decide)).symm
          have e2 : a.reg 0 = upd loc vIter (a.reg 0) vIter := (upd_same _ _ _).symm
          have hh := hookOne_ref (code := code) (loc := upd loc vIter (a.reg 0)) (s₀ := s₀) ok f k
          rw [← e2, hag.passed] at hh
          refine RefTo.seq (Ref.to hh hb.left rfl) fun _ => ?_
          refine RefTo.seq (pc' := pc + overrideAt g) (Ref.to (status_ref ok) hb.right ?_) fun c => ?_
          · simp only [overrideAt, loopBody, size_append, size_jz]
            omega
          · have hbk := back_ref (s₀ := s₀) (loc := upd loc vIter (a.reg 0)) ok f hat c
            rw [← e1] at hbk
            refine RefTo.seq hbk fun _ => ?_
            have := ih (upd loc vIter (a.reg 0))
            rw [← e1, hag.passed] at this
            refine this.weaken (fun _ _ h => h) ?_
            rintro _ m s ⟨l, hl, hl'⟩
            exact ⟨l, hl, fun k hk => (hl' k hk).trans (hag k hk)⟩

theorem callHooks_ref (ok : StackOk acc keep S) (f : Fit g S) (k : Bool) (n : Nat) :
    Ref acc keep S code (callHooksOps g) (Inv S s₀ 0 loc)
      (callHooks (world acc keep S) (varsAt g S) g ⟨false, k⟩ n (loc vContext) (passed g loc))
      (fun _ m s => ∃ l, Inv S s₀ 0 l m s ∧ Agree l loc) :=
  Ref.seq (a := [.storeImm (at_ rbp vPrev) (i32 0)]) (storeZero ok (by decide)) fun _ pc hat =>
    loop_ref ok f k hat n loc

end Verif.Jit
