import Verif.Jit.HookExec
/-
Helper lemmas for C65: the pieces of the generated hook function do what the pieces of the program
do.
-/
namespace Verif.Jit

attribute [local simp] rax rcx rdx rbx rsp rbp rsi rdi r8 r9 r10 vEntry vStatus vPrev vCur vIter
  vContext vThis

variable {acc keep : W → Bool} {S : Stack} {g : Gen} {s₀ s s' : Mach} {d d' : Int} {loc : Int → W}
  {m : Memory} {code : List Byte} {P : Memory → Mach → Prop}

theorem setup_ref (ok : StackOk acc keep S) (f : Fit g S) :
    Ref acc keep S code (setupOps g) (Inv S s₀ 0 loc)
      (setup (world acc keep S) (varsAt g S) g (loc vThis))
      (fun v => Inv S s₀ 0 (upd loc vContext v)) := by
  unfold setup
  refine Ref.first (Ref.load _) fun hi => Ref.first (Ref.load _) fun vt => ?_
  rw [show setupOps g = (setupArgs g ++ setupRet g ++ [.movImm64 rax g.setupLoop])
    ++ ([.call rax] ++ [.store (at_ rbp vContext) rax, .addImm rsp (i32 88)]) from by
      simp [setupOps]]
  refine Ref.pre (Q := AtCall S s₀ 88 loc rax g.setupLoop _) ?_ ((Ref.call ok).seq fun a => ?_)
  · rintro m s ⟨⟨h, h1, e1⟩, h2, e2⟩
    have := setup_pre ok f h h1 h2
    rw [e1, e2]
    exact this
  · refine Ref.skip fun m s h => ?_
    have hi := h.inv
    have hb := h.rax
    sym [hi.rsp, hi.rbp, okAt_slot ok slot_ctx]
    have := hi.setSlot ok slot_ctx (s.reg 0)
    rw [hb] at this ⊢
    inv_by this hi.rsp

/-! ## Copying and assigning a returned value -/

/-- Copying visible bytes; `ops` sets RDI and RSI. -/
theorem copy_exec (ok : StackOk acc keep S) (f : Fit g S) (h : Inv S s₀ 0 loc m s)
    {ops : List Op} {dst src : W}
    (hops : ∀ s₁ : Mach, s₁.reg 5 = S.F → s₁.reg 0 = s.reg 0 → s₁.reg 8 = s.reg 8 →
      (∀ k, S.slot k → rd s₁.mem (off S.F k) = loc k) →
      execs acc s₁ ops = some ((s₁.set 7 dst).set 6 src))
    (hs : okRange (world acc keep S).vis src g.ret.size = true)
    (hd : okRange (world acc keep S).vis dst g.ret.size = true) :
    ∃ s', execs acc s (copyOps g ops) = some s' ∧ Inv S s₀ 0 loc (copy m dst src g.ret.size) s' := by
  have h1 := f.depth
  have h2 := f.size
  have h3 := frame_bound f
  have h4 := f.big
  have st : ∀ k, -S.size - S.depth ≤ k → k < 8 + 8 * (S.nargs : Int) → acc (off S.F k) = true :=
    ok.stack
  have hn : g.ret.size % 2 ^ 64 = g.ret.size := Nat.mod_eq_of_lt (by omega)
  -- the registers are saved
  have k1 : ∃ s₁, execs acc s [.push rdi, .push rsi, .push rcx,
      .movImm64 rcx (BitVec.ofNat 64 g.ret.size)] = some s₁ ∧ Inv S s₀ 24 loc m s₁ ∧
      rd s₁.mem (off S.F (-S.size - 24)) = s.reg 1 ∧ rd s₁.mem (off S.F (-S.size - 16)) = s.reg 6 ∧
      rd s₁.mem (off S.F (-S.size - 8)) = s.reg 7 ∧ s₁.reg 1 = BitVec.ofNat 64 g.ret.size ∧
      s₁.reg 0 = s.reg 0 ∧ s₁.reg 8 = s.reg 8 := by
    sym [ex_push, h.rsp, okAt_off st, rd_wr_off, rd_wr_off_eq]
    have i1 := h.setLow ok (k := -S.size + -8) (by omega) (by omega) (s.reg 7)
    have i2 := i1.setLow ok (k := -S.size + -8 + -8) (by omega) (by omega) (s.reg 6)
    have i3 := i2.setLow ok (k := -S.size + -8 + -8 + -8) (by omega) (by omega) (s.reg 1)
    inv_by i3 h.rsp
  obtain ⟨s₁, x₁, i₁, l1, l6, l7, r1, r0, r8⟩ := k1
  have k2 := hops s₁ i₁.rbp r0 r8 i₁.priv
  have agree := copy_agree g.ret.size s₁.mem m dst src i₁.mem hs hd
  have low : ∀ k, -S.size - 24 ≤ k → k + 8 ≤ -S.size →
      rd (copy s₁.mem dst src g.ret.size) (off S.F k) = rd s₁.mem (off S.F k) := by
    intro k a b
    refine rd_congr fun i hi => ?_
    rw [off_bytes]
    exact agree.2 _ (hidden_low ok (by omega) (by omega))
  have i₂ := i₁.copyVis ok hs hd
  unfold copyOps
  rw [List.append_assoc, execs_append, x₁, Option.bind_some, execs_append, k2, Option.bind_some]
  sym [ex_pop, ex_rep, i₁.rsp, okAt_off st, r1, hn, range_acc hs, range_acc hd]
  have q6 : s₁.reg 6 = s.reg 6 := (i₁.same 6 rfl (by decide) (by decide)).trans
    (h.same 6 rfl (by decide) (by decide)).symm
  have q7 : s₁.reg 7 = s.reg 7 := (i₁.same 7 rfl (by decide) (by decide)).trans
    (h.same 7 rfl (by decide) (by decide)).symm
  have w6 : rd (copy s₁.mem dst src g.ret.size) (off S.F (-S.size - 24 + 8)) = s₁.reg 6 := by
    rw [low _ (by omega) (by omega), q6, ← l6]
    exact congrArg _ (off_congr _ (by omega))
  have w7 : rd (copy s₁.mem dst src g.ret.size) (off S.F (-S.size - 24 + 8 + 8)) = s₁.reg 7 := by
    rw [low _ (by omega) (by omega), q7, ← l7]
    exact congrArg _ (off_congr _ (by omega))
  rw [w6, w7]
  inv_by i₂ i₁.rsp

theorem move_ref (ok : StackOk acc keep S) (f : Fit g S) {dst src : Int}
    (hd : -2 ^ 30 ≤ dst ∧ dst ≤ 0) (hs : -2 ^ 30 ≤ src ∧ src ≤ 0) :
    Ref acc keep S code (moveOps g dst src) (Inv S s₀ 0 loc)
      (move (world acc keep S) g (off S.F dst) (off S.F src)) (fun _ => Inv S s₀ 0 loc) := by
  unfold moveOps move
  split
  · refine Ref.void (Ref.call40 ok (d := 40) (loc := loc) (s₀ := s₀) (r := rax)
      (pre := [.subImm rsp (i32 40), .lea rcx (at_ rbp dst), .lea rdx (at_ rbp src),
        .movImm64 rax g.ret.assign]) (by omega) ?_) (fun _ _ _ h => h.inv)
    intro m s h
    sym [h.rsp, h.rbp]
    exact atCall2 f (by inv_of h) (by simp) (by simp) (by simp)
  · refine Ref.memcpy fun m s h h1 h2 => copy_exec ok f h ?_ h1 h2
    intro s₁ h5 _ _ _
    sym [h5]

theorem dropT_ref (ok : StackOk acc keep S) (f : Fit g S) :
    Ref acc keep S code (dropTemp g) (Inv S s₀ 0 loc)
      (dropT (world acc keep S) (varsAt g S) g) (fun _ => Inv S s₀ 0 loc) := by
  have hb := frame_bound f
  unfold dropTemp dropT
  split
  · refine Ref.void (Ref.call40 ok (d := 40) (loc := loc) (s₀ := s₀) (r := rax)
      (pre := [.subImm rsp (i32 40), .lea rcx (at_ rbp (frame g.ret).memRet),
        .movImm64 rax g.ret.dtor]) (by omega) ?_) (fun _ _ _ h => h.inv)
    intro m s h
    sym [h.rsp, h.rbp]
    exact atCall1 f (by inv_of h) (by simp) (by simp [varsAt])
  · exact Ref.skip fun m s h => ⟨s, rfl, h⟩

theorem keep_ref (ok : StackOk acc keep S) (f : Fit g S) (a : Ans) {v : Int}
    (hv : -2 ^ 30 ≤ v ∧ v ≤ 0) :
    Ref acc keep S code (saveOps g v) (Called S s₀ 0 loc a)
      (keepResult (world acc keep S) (varsAt g S) g a (off S.F v)) (fun _ => Inv S s₀ 0 loc) := by
  have hb := frame_bound f
  have st : Ref acc keep S code [.store (at_ rbp v) rax] (Called S s₀ 0 loc a)
      (save (world acc keep S) (off S.F v) (a.reg 0)) (fun _ => Inv S s₀ 0 loc) := by
    refine Ref.save fun m s h ha => ?_
    have hi := h.inv
    sym [hi.rbp, acc_of_vis ha, h.rax]
    exact hi.setVis ok ha _
  unfold saveOps keepResult
  split
  · exact Ref.skip fun m s h => ⟨s, rfl, h.inv⟩
  · split
    · exact st
    · split
      · refine Ref.save fun m s h ha => ?_
        have hi := h.inv
        sym [hi.rbp, acc_of_vis ha, h.xmm0]
        exact hi.setVis ok ha _
      · split
        · exact st
        · split
          · split
            · exact Ref.weaken ((move_ref ok f hv hb.2.2.2.1).seq fun _ => dropT_ref ok f)
                (fun _ _ h => h.inv) (fun _ _ _ h => h)
            · exact Ref.skip fun m s h => ⟨s, rfl, h.inv⟩
          · exact Ref.skip fun m s h => ⟨s, rfl, h.inv⟩

/-! ## Virtual functions of the context -/

theorem next_pre (ok : StackOk acc keep S) (f : Fit g S) (h : Inv S s₀ 0 loc m s)
    (h1 : okAt (world acc keep S).vis (loc (-56)) = true)
    (h2 : okAt (world acc keep S).vis (off (rd m (loc (-56))) (g.getNext * 8)) = true) :
    ∃ s', execs acc s [.load rax (at_ rbp vContext), .load rax (at_ rax 0),
      .load rax (at_ rax (g.getNext * 8)), .subImm rsp (i32 40), .load rcx (at_ rbp vContext)] = some s' ∧
      AtCall S s₀ 40 loc rax (rd m (off (rd m (loc (-56))) (g.getNext * 8))) [.int (loc (-56))] m s' := by
  have hn := f.next
  have r1 := h.rd_vis h1
  have r2 := h.rd_vis h2
  have a1 := acc_of_vis h1
  have a2 := acc_of_vis h2
  sym [h.rsp, h.rbp, okAt_slot ok slot_ctx, h.priv _ slot_ctx, r1, r2, a1, a2]
  exact atCall1 f (by inv_of h) (by simp) (by simp)

theorem next_ref (ok : StackOk acc keep S) (f : Fit g S) :
    Ref acc keep S code (nextOps g) (Inv S s₀ 0 loc)
      (virt (world acc keep S) (loc vContext) g.getNext [])
      (fun a m s => Inv S s₀ 0 (upd loc vIter (a.reg 0)) m s ∧ s.reg 0 = a.reg 0) := by
  unfold virt
  refine Ref.first (Ref.load _) fun vt => Ref.first (Ref.load _) fun fn => ?_
  rw [show nextOps g = [.load rax (at_ rbp vContext), .load rax (at_ rax 0),
      .load rax (at_ rax (g.getNext * 8)), .subImm rsp (i32 40), .load rcx (at_ rbp vContext)]
    ++ ([.call rax] ++ [.store (at_ rbp vIter) rax, .addImm rsp (i32 40)]) from rfl]
  refine Ref.pre (Q := AtCall S s₀ 40 loc rax fn [.int (loc vContext)]) ?_
    (Ref.post (Ref.call ok) ?_)
  · rintro m s ⟨⟨h, h1, e1⟩, h2, e2⟩
    rw [off_nat8] at h2 e2
    subst e1 e2
    exact next_pre ok f h h1 h2
  · intro a m s h
    have hi := h.inv
    have hb := h.rax
    sym [hi.rsp, hi.rbp, okAt_slot ok slot_iter]
    have := hi.setSlot ok slot_iter (s.reg 0)
    rw [hb] at this ⊢
    exact ⟨by inv_by this hi.rsp, rfl⟩

theorem overridePtr_pre (ok : StackOk acc keep S) (f : Fit g S) (h : Inv S s₀ 0 loc m s)
    (h1 : okAt (world acc keep S).vis (loc (-56)) = true)
    (h2 : okAt (world acc keep S).vis (off (rd m (loc (-56))) (g.getOverride * 8)) = true) :
    ∃ s', execs acc s [.subImm rsp (i32 40), .load rax (at_ rbp vContext), .load rax (at_ rax 0),
      .load rax (at_ rax (g.getOverride * 8)), .load rcx (at_ rbp vContext)] = some s' ∧
      AtCall S s₀ 40 loc rax (rd m (off (rd m (loc (-56))) (g.getOverride * 8))) [.int (loc (-56))] m s' := by
  have hn := f.over
  have r1 := h.rd_vis h1
  have r2 := h.rd_vis h2
  have a1 := acc_of_vis h1
  have a2 := acc_of_vis h2
  sym [h.rsp, h.rbp, okAt_slot ok slot_ctx, h.priv _ slot_ctx, r1, r2, a1, a2]
  exact atCall1 f (by inv_of h) (by simp) (by simp)

theorem overridePtr_ref (ok : StackOk acc keep S) (f : Fit g S) :
    Ref acc keep S code (overridePtr g) (Inv S s₀ 0 loc)
      (virt (world acc keep S) (loc vContext) g.getOverride []) (Called S s₀ 0 loc) := by
  unfold virt
  refine Ref.first (Ref.load _) fun vt => Ref.first (Ref.load _) fun fn => ?_
  refine Ref.call40 (d := 40) ok (by omega) (pre := [.subImm rsp (i32 40),
    .load rax (at_ rbp vContext), .load rax (at_ rax 0),
    .load rax (at_ rax (g.getOverride * 8)), .load rcx (at_ rbp vContext)]) ?_
  rintro m s ⟨⟨h, h1, e1⟩, h2, e2⟩
  rw [off_nat8] at h2 e2
  subst e1 e2
  exact overridePtr_pre ok f h h1 h2

theorem should_pre (ok : StackOk acc keep S) (f : Fit g S) (h : Inv S s₀ 0 loc m s)
    (h1 : okAt (world acc keep S).vis (loc (-56)) = true)
    (h2 : okAt (world acc keep S).vis (off (rd m (loc (-56))) (8 * g.shouldCall)) = true) :
    ∃ s', execs acc s [.subImm rsp (i32 40), .load rax (at_ rbp vContext), .mov rcx rax,
      .load rax (at_ rax 0), .load rax (at_ rax (8 * g.shouldCall))] = some s' ∧
      AtCall S s₀ 40 loc rax (rd m (off (rd m (loc (-56))) (8 * g.shouldCall))) [.int (loc (-56))] m s' := by
  have hn := f.should
  have r1 := h.rd_vis h1
  have r2 := h.rd_vis h2
  have a1 := acc_of_vis h1
  have a2 := acc_of_vis h2
  sym [h.rsp, h.rbp, okAt_slot ok slot_ctx, h.priv _ slot_ctx, r1, r2, a1, a2]
  exact atCall1 f (by inv_of h) (by simp) (by simp)

theorem should_ref (ok : StackOk acc keep S) (f : Fit g S) :
    Ref acc keep S code (shouldOps g) (Inv S s₀ 0 loc)
      (virt (world acc keep S) (loc vContext) g.shouldCall [])
      (fun a m s => Inv S s₀ 0 loc m s ∧ holds s .e = decide (a.reg 0 &&& 1 = 0)) := by
  unfold virt
  refine Ref.first (Ref.load _) fun vt => Ref.first (Ref.load _) fun fn => ?_
  rw [show shouldOps g = [.subImm rsp (i32 40), .load rax (at_ rbp vContext), .mov rcx rax,
      .load rax (at_ rax 0), .load rax (at_ rax (8 * g.shouldCall))]
    ++ ([.call rax] ++ [.addImm rsp (i32 40), .testImm rax (i32 1)]) from rfl]
  refine Ref.pre (Q := AtCall S s₀ 40 loc rax fn [.int (loc vContext)]) ?_
    (Ref.post (Ref.call ok) ?_)
  · rintro m s ⟨⟨h, h1, e1⟩, h2, e2⟩
    rw [off_nat8'] at h2 e2
    subst e1 e2
    exact should_pre ok f h h1 h2
  · intro a m s h
    have hi := h.inv
    have hb := h.rax
    sym [hi.rsp, hb, holds_e_log]
    exact ⟨by inv_of hi, Iff.rfl⟩

/-! ## Status and override -/

theorem holds_set (s : Mach) (r : Reg) (v : W) (c : Cond) : holds (s.set r v) c = holds s c := by
  cases c <;> rfl

theorem status_ref (ok : StackOk acc keep S) :
    Ref acc keep S code statusOps (Inv S s₀ 0 loc)
      (raise (world acc keep S) (varsAt g S))
      (fun c m s => Inv S s₀ 0 loc m s ∧ rd m (off S.F vCur) = c ∧
        okAt (world acc keep S).vis (off S.F vCur) = true) := by
  unfold raise
  refine Ref.first (Ref.load _) fun c => Ref.first (Ref.load _) fun st => ?_
  have key : Ref acc keep S code statusOps
      (fun m s => (Inv S s₀ 0 loc m s ∧ okAt (world acc keep S).vis (off S.F vCur) = true ∧
          c = rd m (off S.F vCur)) ∧ okAt (world acc keep S).vis (off S.F vStatus) = true ∧
          st = rd m (off S.F vStatus))
      (save (world acc keep S) (off S.F vStatus) (if st.toInt < c.toInt then c else st))
      (fun _ m s => Inv S s₀ 0 loc m s ∧ rd m (off S.F vCur) = c ∧
        okAt (world acc keep S).vis (off S.F vCur) = true) := by
    refine Ref.save ?_
    rintro m s ⟨⟨h, h1, e1⟩, h2, e2⟩ ha
    have r1 := h.rd_vis h1
    have r2 := h.rd_vis h2
    have a1 := acc_of_vis h1
    have a2 := acc_of_vis h2
    have e3 : rd (wr m (off S.F (-24)) (if st.toInt < c.toInt then c else st)) (off S.F (-40))
        = rd m (off S.F (-40)) := rd_wr_off _ _ _ (by omega) (by omega)
    have hw := h.setVis ok h2 (if st.toInt < c.toInt then c else st)
    unfold statusOps
    simp only [vCur, vStatus] at *
    rw [e3, ← e1]
    by_cases hc : st.toInt < c.toInt
    · rw [if_pos hc] at hw ⊢
      sym [h.rbp, a1, a2, r1, r2, ← e1, ← e2, holds_g_sub, holds_set, hc]
      exact ⟨by inv_by hw h.rsp, h1⟩
    · rw [if_neg hc] at hw ⊢
      sym [h.rbp, a1, a2, r1, r2, ← e1, ← e2, holds_g_sub, holds_set, hc]
      exact ⟨by inv_by hw h.rsp, h1⟩
  exact Ref.void key fun _ _ _ h => h

theorem overrideTest_exec (h : Inv S s₀ 0 loc m s) {c : W} (hc : rd m (off S.F vCur) = c)
    (ha : okAt (world acc keep S).vis (off S.F vCur) = true) :
    ∃ s', execs acc s overrideTest = some s' ∧ Inv S s₀ 0 loc m s' ∧
      holds s' .l = decide (c.toInt < 2) := by
  have r1 := h.rd_vis ha
  have a1 := acc_of_vis ha
  unfold overrideTest
  simp only [vCur] at *
  have e2 : ((i32 2).setWidth 64 : W).toInt = 2 := by decide
  sym [h.rbp, h.rsp, r1, a1, hc, holds_l_sub, e2]
  inv_of h

theorem overrideSet_ref (ok : StackOk acc keep S) (f : Fit g S) (a : Ans) :
    Ref acc keep S code (overrideSet g) (Called S s₀ 0 loc a)
      (setOverride (world acc keep S) (varsAt g S) g (a.reg 0)) (fun _ => Inv S s₀ 0 loc) := by
  have hb := frame_bound f
  unfold overrideSet setOverride
  split
  · refine Ref.first (Ref.load _) fun v => Ref.save ?_
    rintro m s ⟨h, h1, e1⟩ h2
    have hi := h.inv
    have r1 := hi.rd_vis h1
    have a1 := acc_of_vis h1
    have a2 := acc_of_vis h2
    simp only [varsAt] at *
    have := hi.setVis ok h2 v
    sym [hi.rbp, h.rax, a1, a2, r1, ← e1]
    inv_by this hi.rsp
  · unfold move
    split
    · refine Ref.void (Ref.call40 ok (d := 40) (loc := loc) (s₀ := s₀) (r := rax)
        (pre := [.subImm rsp (i32 40), .mov rcx rax, .lea rdx (at_ rbp (frame g.ret).plugin),
          .movImm64 rax g.ret.assign]) (by omega) ?_) (fun _ _ _ h => h.inv)
      intro m s h
      have hi := h.inv
      sym [hi.rsp, hi.rbp, h.rax]
      exact atCall2 f (by inv_of hi) (by simp) (by simp) (by simp [varsAt])
    · refine Ref.memcpy fun m s h h1 h2 => copy_exec ok f h.inv ?_ h1 h2
      intro s₁ h5 h0 _ _
      sym [h5, h0, h.rax, varsAt]

/-- The override, once it has been decided that there is one. -/
theorem override_ref (ok : StackOk acc keep S) (f : Fit g S) :
    Ref acc keep S code (overridePtr g ++ overrideSet g) (Inv S s₀ 0 loc)
      (virt (world acc keep S) (loc vContext) g.getOverride [] >>= fun p =>
        setOverride (world acc keep S) (varsAt g S) g (p.reg 0)) (fun _ => Inv S s₀ 0 loc) :=
  (overridePtr_ref ok f).seq fun a => overrideSet_ref ok f a

theorem else_ref (ok : StackOk acc keep S) (f : Fit g S) :
    Ref acc keep S code (elseOps g) (Inv S s₀ 0 loc)
      (origElse (world acc keep S) (varsAt g S) g) (fun _ => Inv S s₀ 0 loc) := by
  have hb := frame_bound f
  unfold elseOps origElse
  split
  · exact Ref.skip fun m s h => ⟨s, rfl, h⟩
  · split
    · refine Ref.first (Ref.load _) fun v => Ref.save ?_
      rintro m s ⟨h, h1, e1⟩ h2
      have r1 := h.rd_vis h1
      have a1 := acc_of_vis h1
      have a2 := acc_of_vis h2
      simp only [varsAt] at *
      have := h.setVis ok h2 v
      sym [h.rbp, a1, a2, r1, ← e1]
      inv_by this h.rsp
    · exact move_ref ok f hb.1 hb.2.1

/-! ## The end -/

theorem prepare_pre (ok : StackOk acc keep S) (f : Fit g S) (h : Inv S s₀ 0 loc m s)
    (h1 : okAt (world acc keep S).vis (loc (-56)) = true)
    (h2 : okAt (world acc keep S).vis (off (rd m (loc (-56))) (g.getOrig * 8)) = true)
    (h3 : okAt (world acc keep S).vis (off (rd m (loc (-56))) (g.getOverride * 8)) = true)
    (h4 : okAt (world acc keep S).vis (off S.F (-24)) = true) :
    ∃ s', execs acc s [.load rax (at_ rbp vContext), .load rax (at_ rax 0), .mov r8 rax,
      .load rax (at_ rax (g.getOrig * 8)), .load r8 (at_ r8 (g.getOverride * 8)),
      .xor r9 r9, .load r9 (at_ rbp vStatus), .cmpImm r9 (i32 2), .cmovge rax r8,
      .subImm rsp (i32 40), .load rcx (at_ rbp vContext)] = some s' ∧
      AtCall S s₀ 40 loc rax (if 2 ≤ (rd m (off S.F (-24))).toInt
        then rd m (off (rd m (loc (-56))) (g.getOverride * 8))
        else rd m (off (rd m (loc (-56))) (g.getOrig * 8))) [.int (loc (-56))] m s' := by
  have hn := f.over
  have hn' := f.orig
  have r1 := h.rd_vis h1
  have r2 := h.rd_vis h2
  have r3 := h.rd_vis h3
  have r4 := h.rd_vis h4
  have a1 := acc_of_vis h1
  have a2 := acc_of_vis h2
  have a3 := acc_of_vis h3
  have a4 := acc_of_vis h4
  have e2 : (c64 2).toInt = 2 := rfl
  by_cases hc : 2 ≤ (rd m (off S.F (-24))).toInt
  · rw [if_pos hc]
    sym [h.rsp, h.rbp, okAt_slot ok slot_ctx, h.priv _ slot_ctx, r1, r2, r3, r4, a1, a2, a3, a4,
      holds_ge_sub, hc, e2]
    exact atCall1 f (by inv_of h) (by simp) (by simp)
  · rw [if_neg hc]
    sym [h.rsp, h.rbp, okAt_slot ok slot_ctx, h.priv _ slot_ctx, r1, r2, r3, r4, a1, a2, a3, a4,
      holds_ge_sub, hc, e2]
    exact atCall1 f (by inv_of h) (by simp) (by simp)

theorem prepare_ref (ok : StackOk acc keep S) (f : Fit g S) :
    Ref acc keep S code (prepareOps g) (Inv S s₀ 0 loc)
      (prepare (world acc keep S) (varsAt g S) g (loc vContext))
      (fun p m s => ∃ l, Inv S s₀ 0 l m s ∧ (∀ k, k ≠ -72 → l k = loc k) ∧
        (g.ret.size ≠ 0 → l (-72) = p)) := by
  by_cases hz : g.ret.size = 0
  · unfold prepareOps prepare
    rw [if_pos hz, if_pos hz]
    exact Ref.skip fun m s h => ⟨s, rfl, loc, h, fun _ _ => rfl, fun hn => absurd hz hn⟩
  · have hw : S.wide = true := by rw [f.wide]; simpa using hz
    have hr : (frame g.ret).retPtr = -72 := by simp [frame, hz]
    have hops : prepareOps g = [.load rax (at_ rbp vContext), .load rax (at_ rax 0), .mov r8 rax,
      .load rax (at_ rax (g.getOrig * 8)), .load r8 (at_ r8 (g.getOverride * 8)),
      .xor r9 r9, .load r9 (at_ rbp vStatus), .cmpImm r9 (i32 2), .cmovge rax r8,
      .subImm rsp (i32 40), .load rcx (at_ rbp vContext)]
      ++ ([.call rax] ++ [.addImm rsp (i32 40), .store (at_ rbp (-72)) rax]) := by
      simp [prepareOps, hz, hr]
    rw [hops]
    unfold prepare
    rw [if_neg hz]
    refine Ref.first (Ref.load _) fun vt => Ref.first (Ref.load _) fun fo =>
      Ref.first (Ref.load _) fun fv => Ref.first (Ref.load _) fun st => ?_
    refine Ref.pre (Q := AtCall S s₀ 40 loc rax (if 2 ≤ st.toInt then fv else fo)
        [.int (loc vContext)]) ?_ ((Ref.call ok).seq fun a => Ref.skip ?_)
    · rintro m s ⟨⟨⟨⟨h, h1, e1⟩, h2, e2⟩, h3, e3⟩, h4, e4⟩
      rw [off_nat8] at h2 e2 h3 e3
      subst e1 e2 e3 e4
      exact prepare_pre ok f h h1 h2 h3 h4
    · intro m s h
      have hi := h.inv
      have := hi.setSlot ok (slot_ret hw) (s.reg 0)
      have hb := h.rax
      sym [hi.rsp, hi.rbp, okAt_slot ok (slot_ret hw)]
      refine ⟨_, by inv_by this hi.rsp, fun k hk => upd_ne _ _ hk, fun _ => ?_⟩
      rw [upd_same, hb]

theorem end_ref (ok : StackOk acc keep S) (f : Fit g S) :
    Ref acc keep S code (endOps g) (Inv S s₀ 0 loc)
      (endContext (world acc keep S) g (loc vContext)) (fun _ => Inv S s₀ 0 loc) := by
  refine Ref.void (Ref.call40 ok (d := 40) (loc := loc) (s₀ := s₀) (r := rax)
    (pre := [.subImm rsp (i32 40), .movImm64 rcx g.sh, .load rdx (at_ rbp vContext),
      .movImm64 rax g.endContext]) (by omega) ?_) (fun _ _ _ h => h.inv)
  intro m s h
  sym [h.rsp, h.rbp, okAt_slot ok slot_ctx, h.priv _ slot_ctx]
  exact atCall2 f (by inv_of h) (by simp) (by simp) (by simp)

end Verif.Jit
