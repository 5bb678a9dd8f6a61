import Verif.Jit.HookParts
/-
Helper lemmas for C65: the end of the generated hook function.
-/
namespace Verif.Jit

attribute [local simp] rax rcx rdx rbx rsp rbp rsi rdi r8 r9 r10 vEntry vStatus vPrev vCur vIter
  vContext vThis

variable {acc keep : W → Bool} {S : Stack} {g : Gen} {s₀ s s' : Mach} {d d' : Int} {loc : Int → W}
  {m : Memory} {code : List Byte} {P : Memory → Mach → Prop}

/-- The parameters as saved, from number `i`. -/
def argsOf (loc : Int → W) : Nat → List Pass → List Arg
  | _, [] => []
  | i, p :: ps =>
    (if p.inXmm ∧ i < 4 then .flt (loc (8 + 8 * (i : Int))) else .int (loc (8 + 8 * (i : Int))))
      :: argsOf loc (i + 1) ps

theorem argsOf_congr {l l' : Int → W} (ps : List Pass) : ∀ (i : Nat),
    (∀ j : Nat, i ≤ j → j < i + ps.length → l (8 + 8 * (j : Int)) = l' (8 + 8 * (j : Int))) →
    argsOf l i ps = argsOf l' i ps := by
  induction ps with
  | nil => intro i _; rfl
  | cons p ps ih =>
    intro i h
    simp only [argsOf]
    rw [h i (Nat.le_refl i) (by simp), ih (i + 1) fun j h1 h2 => h j (by omega) (by simp at *; omega)]

/-! ## Parameters -/

theorem destroyed_int {p : Pass} (h : p.destroyed = true) : p.inXmm = false := by
  unfold Pass.destroyed at h
  unfold Pass.inXmm
  simp only [Bool.and_eq_true, beq_iff_eq] at h
  rw [h.1.1]
  rfl

theorem paramDtors_ref (ok : StackOk acc keep S) (f : Fit g S) (ps : List Pass) :
    ∀ i : Nat, i + ps.length ≤ S.nargs →
    Ref acc keep S code (paramDtors i ps) (Inv S s₀ 0 loc)
      (destroyParams (world acc keep S) ps (argsOf loc i ps)) (fun _ => Inv S s₀ 0 loc) := by
  induction ps with
  | nil => intro i _; exact Ref.skip fun m s h => ⟨s, rfl, h⟩
  | cons p ps ih =>
    intro i hi
    have hn := ok.nargs
    simp only [List.length_cons] at hi
    have hs := slot_arg (S := S) (i := i) (by omega)
    simp only [paramDtors, argsOf, destroyParams]
    by_cases hp : p.destroyed = true
    · rw [if_pos hp, if_pos hp]
      simp only [destroyed_int hp, Bool.false_eq_true, false_and, if_false]
      have hops : ∀ rest : List Op, .subImm rsp (i32 40)
          :: ([.load rcx (at_ rbp (8 + i * 8)), .movImm64 rax p.dtor, .call rax]
            ++ .addImm rsp (i32 40) :: rest)
          = ([.subImm rsp (i32 40), .load rcx (at_ rbp (8 + i * 8)), .movImm64 rax p.dtor]
            ++ ([.call rax] ++ [.addImm rsp (i32 40)])) ++ rest := fun _ => rfl
      rw [hops]
      refine Ref.seq (Ref.call40 ok (d := 40) (loc := loc) (s₀ := s₀) (by omega) ?_) fun _ =>
        Ref.weaken (ih (i + 1) (by omega)) (fun _ _ h => h.inv) (fun _ _ _ h => h)
      intro m s h
      have e : (8 : Int) + i * 8 = 8 + 8 * (i : Int) := by omega
      rw [e]
      sym [h.rsp, h.rbp, okAt_slot ok hs, h.priv _ hs]
      exact atCall1 f (by inv_of h) (by simp) (by simp)
    · rw [if_neg hp, if_neg hp]
      have hops : ∀ rest : List Op, .subImm rsp (i32 40)
          :: (([] : List Op) ++ .addImm rsp (i32 40) :: rest)
          = [.subImm rsp (i32 40), .addImm rsp (i32 40)] ++ rest := fun _ => rfl
      rw [hops]
      refine Ref.pre (Q := Inv S s₀ 0 loc) ?_ (ih (i + 1) (by omega))
      intro m s h
      sym [h.rsp]
      inv_of h

/-! ## The value to return -/

theorem Inv.setX (h : Inv S s₀ d loc m s) {x : XReg} (hx : preservedX x = false) (v : W) :
    Inv S s₀ d loc m (s.setX x v) := by
  refine h.regs rfl h.rsp rfl (fun _ _ _ _ => rfl) ?_
  intro r hr
  simp only [setX_xmm]
  rw [if_neg]
  intro e
  rw [e, hx] at hr
  cases hr

/-- The registers hold what is to be returned. -/
structure Holds (S : Stack) (s₀ : Mach) (loc : Int → W) (r : Ret) (m : Memory) (s : Mach) : Prop where
  inv : Inv S s₀ 0 loc m s
  rax : ∀ v, r.rax = some v → s.reg 0 = v
  xmm0 : ∀ v, r.xmm0 = some v → s.xmm 0 = v

theorem memReturn_ref (ok : StackOk acc keep S) (f : Fit g S) (hz : g.ret.size ≠ 0) (p : W) :
    Ref acc keep S code (memReturn g) (fun m s => Inv S s₀ 0 loc m s ∧ s.reg 8 = p)
      (returnMem (world acc keep S) g (loc (-80)) p)
      (fun _ m s => Inv S s₀ 0 loc m s ∧ s.reg 0 = loc (-80)) := by
  have hw : S.wide = true := by rw [f.wide]; simpa using hz
  have hr : (frame g.ret).memretPtr = -80 := by simp [frame, hz]
  unfold memReturn returnMem
  rw [hr]
  refine Ref.post (Q := fun _ => Inv S s₀ 0 loc) ?_ ?_
  · split
    · refine Ref.void (Ref.call40 ok (d := 40) (loc := loc) (s₀ := s₀) (r := Jit.rax)
        (pre := [.subImm rsp (i32 40), .load rcx (at_ rbp (-80)), .mov rdx r8,
          .movImm64 Jit.rax g.ret.cctor]) (by omega) ?_) (fun _ _ _ h => h.inv)
      rintro m s ⟨h, h8⟩
      sym [h.rsp, h.rbp, okAt_slot ok (slot_memret hw), h.priv _ (slot_memret hw), h8]
      exact atCall2 f (by inv_of h) (by simp) (by simp) (by simp)
    · refine Ref.memcpy fun m s h h1 h2 => copy_exec ok f h.1 ?_ h1 h2
      intro s₁ h5 h0 h8 hl
      sym [h5, okAt_slot ok (slot_memret hw), hl _ (slot_memret hw), h8, h.2]
  · intro _ m s h
    sym [h.rbp, okAt_slot ok (slot_memret hw), h.priv _ (slot_memret hw)]
    inv_of h

theorem return_ref (ok : StackOk acc keep S) (f : Fit g S) :
    Ref acc keep S code (returnOps g) (Inv S s₀ 0 loc)
      (doReturn (world acc keep S) g (loc (-80)) (loc (-72))) (Holds S s₀ loc) := by
  unfold returnOps doReturn
  by_cases hz : g.ret.size = 0
  · rw [if_pos hz, if_pos hz]
    exact Ref.skip fun m s h => ⟨s, rfl, h, (fun _ hv => nomatch hv), (fun _ hv => nomatch hv)⟩
  · have hw : S.wide = true := by rw [f.wide]; simpa using hz
    have hr : (frame g.ret).retPtr = -72 := by simp [frame, hz]
    rw [if_neg hz, if_neg hz, hr]
    by_cases hf : g.ret.has flagByRef = true
    · rw [if_pos hf, if_pos hf]
      refine Ref.first (Ref.load _) fun v => Ref.skip ?_
      rintro m s ⟨h, h1, e1⟩
      have r1 := h.rd_vis h1
      have a1 := acc_of_vis h1
      sym [h.rbp, okAt_slot ok (slot_ret hw), h.priv _ (slot_ret hw), a1, r1, ← e1]
      exact ⟨by inv_of h, fun v hv => by cases hv; simp, (fun _ hv => nomatch hv)⟩
    · rw [if_neg hf, if_neg hf]
      rw [show ∀ (o : Op) (a b : List Op), o :: (a ++ b) = (o :: a) ++ b from fun _ _ _ => rfl]
      refine Ref.seq (Q := fun v m s => Inv S s₀ 0 loc m s ∧ s.reg 8 = loc (-72) ∧
        (g.ret.type = typeFloat → s.xmm 0 = v) ∧
        (g.ret.type ≠ typeFloat → (g.ret.type = typeBasic ∨
          (g.ret.type = typeObject ∧ g.ret.has flagRetReg = true)) → s.reg 0 = v)) ?_ fun v => ?_
      · unfold retValue
        by_cases h1 : g.ret.type = typeFloat
        · rw [if_pos h1, if_pos (Or.inl h1)]
          refine Ref.weaken (Ref.post (a := []) (Ref.load _) ?_) (fun _ _ h => h) (fun _ _ _ h => h)
          rintro v m s ⟨h, ha, e⟩
          have r1 := h.rd_vis ha
          have a1 := acc_of_vis ha
          sym [h.rbp, okAt_slot ok (slot_ret hw), h.priv _ (slot_ret hw), a1, r1, ← e]
          refine ⟨Inv.setX (s := s.set 8 (loc (-72))) (by inv_of h) rfl v, fun hn => absurd h1 hn⟩
        · rw [if_neg h1]
          by_cases h2 : g.ret.type = typeBasic ∨
              (g.ret.type = typeObject ∧ g.ret.has flagRetReg = true)
          · rw [if_pos h2, if_pos (Or.inr h2)]
            refine Ref.weaken (Ref.post (a := []) (Ref.load _) ?_) (fun _ _ h => h) (fun _ _ _ h => h)
            rintro v m s ⟨h, ha, e⟩
            have r1 := h.rd_vis ha
            have a1 := acc_of_vis ha
            sym [h.rbp, okAt_slot ok (slot_ret hw), h.priv _ (slot_ret hw), a1, r1, ← e]
            refine ⟨by inv_of h, fun hn => absurd hn h1⟩
          · rw [if_neg h2, if_neg (fun h => h.elim h1 h2)]
            refine Ref.skip fun m s h => ?_
            sym [h.rbp, okAt_slot ok (slot_ret hw), h.priv _ (slot_ret hw)]
            exact ⟨by inv_of h, fun hn => absurd hn h1, fun _ hn => absurd hn h2⟩
      · by_cases h3 : g.ret.has flagRetMem = true
        · rw [if_pos h3, if_pos h3]
          refine Ref.void (Ref.weaken (memReturn_ref ok f hz (loc (-72)))
            (fun m s h => ⟨h.1, h.2.1⟩) (fun _ _ _ h => h)) ?_
          intro _ m s h
          exact ⟨h.1, fun v hv => by cases hv; exact h.2, (fun _ hv => nomatch hv)⟩
        · rw [if_neg h3, if_neg h3]
          split
          · rename_i h1
            exact Ref.skip fun m s h => ⟨s, rfl, h.1, (fun _ hv => nomatch hv),
              fun v hv => by cases hv; exact h.2.2.1 h1⟩
          · rename_i h1
            split
            · rename_i h2
              exact Ref.skip fun m s h => ⟨s, rfl, h.1, fun v hv => by cases hv; exact h.2.2.2 h1 h2,
                (fun _ hv => nomatch hv)⟩
            · exact Ref.skip fun m s h => ⟨s, rfl, h.1, (fun _ hv => nomatch hv), (fun _ hv => nomatch hv)⟩

theorem dtorOne_ref (ok : StackOk acc keep S) (f : Fit g S) {v : Int} (hv : -2 ^ 30 ≤ v ∧ v ≤ 0) :
    Ref acc keep S code (dtorOne g v) (Inv S s₀ 40 loc)
      (callF (world acc keep S) g.ret.dtor [.int (off S.F v)]) (Called S s₀ 40 loc) := by
  rw [show dtorOne g v = [.lea rcx (at_ rbp v), .movImm64 r8 g.ret.dtor] ++ [.call r8] from rfl]
  refine Ref.pre (Q := AtCall S s₀ 40 loc r8 g.ret.dtor [.int (off S.F v)]) ?_ (Ref.call ok)
  intro m s h
  sym [h.rbp]
  exact atCall1 f (by inv_of h) (by simp) (by simp)

theorem retDtors_ref (ok : StackOk acc keep S) (f : Fit g S) (p : Bool) (r : Ret) :
    Ref acc keep S code (retDtors g) (Holds S s₀ loc r)
      (destroyRet (world acc keep S) (varsAt g S) g ⟨p, false⟩ r) (Holds S s₀ loc) := by
  have hb := frame_bound f
  unfold retDtors destroyRet
  split
  · rw [List.append_assoc, List.append_assoc, List.append_assoc]
    refine Ref.pre (Q := Inv S s₀ 40 loc) ?_ ?_
    · intro m s h
      have h := h.inv
      sym [h.rsp]
      inv_of h
    · refine (dtorOne_ref ok f hb.1).seq fun _ => Ref.weaken (P := Inv S s₀ 40 loc)
        (Q := Holds S s₀ loc) ?_ (fun _ _ h => h.inv) (fun _ _ _ h => h)
      refine (dtorOne_ref ok f hb.2.1).seq fun _ => Ref.weaken (P := Inv S s₀ 40 loc)
        (Q := Holds S s₀ loc) ?_ (fun _ _ h => h.inv) (fun _ _ _ h => h)
      refine (dtorOne_ref ok f hb.2.2.1).seq fun a => Ref.skip fun m s h => ?_
      obtain ⟨s', e, h'⟩ := h.add (acc := acc) (by omega)
      exact ⟨s', e, h'.inv, fun v hv => by cases hv; exact h'.rax,
        fun v hv => by cases hv; exact h'.xmm0⟩
  · exact Ref.skip fun m s h => ⟨s, rfl, h⟩

end Verif.Jit
