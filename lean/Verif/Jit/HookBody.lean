import Verif.Jit.HookWhole
/-
Helper lemmas for C65: the parts of the generated hook function put together.
-/
namespace Verif.Jit

variable {acc keep : W → Bool} {S : Stack} {g : Gen} {s₀ s s' : Mach} {d d' : Int} {loc : Int → W}
  {m : Memory} {code : List Byte} {P : Memory → Mach → Prop}

theorem Ref.exists {α ι : Type} {ops : List Op} {P : ι → Memory → Mach → Prop} {x : M α} {A : ι → Prop}
    {R : α → Memory → Mach → Prop} (h : ∀ i, A i → Ref acc keep S code ops (P i) x R) :
    Ref acc keep S code ops (fun m s => ∃ i, P i m s ∧ A i) x R := by
  intro pc hat m as v m' as' t hx s ⟨i, hp, ha⟩
  exact h i ha pc hat m as v m' as' t hx s hp

theorem doReturn_congr (Wd : World) (g : Gen) {a b p q : W}
    (h : hiddenPtr g = true → a = b)
    (hp : g.ret.size ≠ 0 → p = q) : doReturn Wd g a p = doReturn Wd g b q := by
  unfold doReturn
  by_cases hz : g.ret.size = 0
  · rw [if_pos hz, if_pos hz]
  · rw [if_neg hz, if_neg hz, hp hz]
    by_cases hm : g.ret.has flagRetMem = true
    · have := h (by unfold hiddenPtr; rw [hm, Bool.and_true, bne_iff_ne]; exact hz)
      rw [this]
    · simp only [if_neg hm]

/-- The end of the program. -/
def lastPart (Wd : World) (V : Vars) (g : Gen) (D : Intent) (memret : W) (ps : List Arg) (ctx : W) :
    M Ret := do
  let p ← prepare Wd V g ctx
  endContext Wd g ctx
  destroyParams Wd g.params ps
  let r ← doReturn Wd g memret p
  destroyRet Wd V g D r

theorem last_ref (ok : StackOk acc keep S) (f : Fit g S) (k : Bool) (memret : W)
    (loc : Int → W) (hmr : hiddenPtr g = true → loc (-80) = memret) :
    Ref acc keep S code (prepareOps g ++ (endOps g ++ (paramDtors (firstReg g.ret) g.params
        ++ (returnOps g ++ retDtors g))))
      (Inv S s₀ 0 loc)
      (lastPart (world acc keep S) (varsAt g S) g ⟨k, false⟩ memret (passed g loc) (loc vContext))
      (fun r m s => ∃ l, Holds S s₀ l r m s ∧ l (-8) = loc (-8) ∧ l 0 = loc 0) := by
  have hfit := f.nargs
  unfold lastPart
  refine (prepare_ref ok f).seq fun p => Ref.exists fun l₂ h23 => ?_
  obtain ⟨h2, h3⟩ := h23
  have hps : passed g loc = argsOf l₂ (firstReg g.ret) g.params :=
    argsOf_congr _ _ fun j _ _ => (h2 _ (by omega)).symm
  have hdr : doReturn (world acc keep S) g memret p
      = doReturn (world acc keep S) g (l₂ (-80)) (l₂ (-72)) :=
    doReturn_congr _ g (fun hh => by rw [h2 _ (by omega)]; exact (hmr hh).symm) (fun hz => (h3 hz).symm)
  rw [← h2 vContext (by decide), hps, hdr]
  refine (end_ref ok f).seq fun _ => (paramDtors_ref ok f g.params _ (by omega)).seq fun _ =>
    (return_ref ok f).seq fun r => Ref.weaken (retDtors_ref ok f k r) (fun _ _ h => h) ?_
  intro r m s h
  exact ⟨l₂, h, h2 _ (by omega), h2 _ (by omega)⟩

/-- The loops and the original. -/
def middlePart (Wd : World) (V : Vars) (g : Gen) (D : Intent) (n : Nat) (this memret : W)
    (ps : List Arg) (ctx : W) : M Ret := do
  callHooks Wd V g D n ctx ps
  callOrig Wd V g ctx this ps
  callHooks Wd V g D n ctx ps
  lastPart Wd V g D memret ps ctx

theorem middle_ref (ok : StackOk acc keep S) (f : Fit g S) (n : Nat) (memret : W)
    (loc : Int → W) (hmr : hiddenPtr g = true → loc (-80) = memret) :
    Ref acc keep S code (callHooksOps g ++ (callOrigOps g ++ (callHooksOps g ++ (prepareOps g
        ++ (endOps g ++ (paramDtors (firstReg g.ret) g.params ++ (returnOps g ++ retDtors g)))))))
      (Inv S s₀ 0 loc)
      (middlePart (world acc keep S) (varsAt g S) g ⟨false, false⟩ n (loc vThis) memret (passed g loc)
        (loc vContext))
      (fun r m s => ∃ l, Holds S s₀ l r m s ∧ l (-8) = loc (-8) ∧ l 0 = loc 0) := by
  unfold middlePart
  refine (callHooks_ref ok f false n).seq fun _ => Ref.exists fun l ha => ?_
  rw [← ha vContext (by decide), ← ha vThis (by decide), ← ha.passed]
  refine (callOrig_ref ok f).seq fun _ => (callHooks_ref ok f false n).seq fun _ =>
    Ref.exists fun l' ha' => ?_
  rw [← ha' vContext (by decide), ← ha'.passed]
  refine Ref.weaken (last_ref ok f false memret l' (fun h => ?_)) (fun _ _ h => h) ?_
  · rw [ha' _ (by decide), ha _ (by decide)]; exact hmr h
  · intro r m s ⟨l₂, h, h8, h0⟩
    refine ⟨l₂, h, ?_, ?_⟩
    · rw [h8, ha' _ (by decide), ha _ (by decide)]
    · rw [h0, ha' _ (by decide), ha _ (by decide)]

theorem hookFunction_eq (Wd : World) (V : Vars) (g : Gen) (D : Intent) (n : Nat) (this memret : W)
    (ps : List Arg) : hookFunction Wd V g D n this memret ps =
      (construct Wd V g >>= fun _ => start Wd V >>= fun _ => setup Wd V g this >>= fun ctx =>
        middlePart Wd V g D n this memret ps ctx) := rfl

theorem whole_ref (ok : StackOk acc keep S) (f : Fit g S) (n : Nat) (memret : W)
    (loc : Int → W) (hmr : hiddenPtr g = true → loc (-80) = memret) :
    Ref acc keep S code (constructOps g ++ (initOps ++ (setupOps g ++ (callHooksOps g
        ++ (callOrigOps g ++ (callHooksOps g ++ (prepareOps g ++ (endOps g
        ++ (paramDtors (firstReg g.ret) g.params ++ (returnOps g ++ retDtors g))))))))))
      (Inv S s₀ 0 loc)
      (hookFunction (world acc keep S) (varsAt g S) g ⟨false, false⟩ n (loc vThis) memret (passed g loc))
      (fun r m s => ∃ l, Holds S s₀ l r m s ∧ l (-8) = loc (-8) ∧ l 0 = loc 0) := by
  rw [hookFunction_eq]
  refine (construct_ref ok f).seq fun _ => (init_ref ok).seq fun _ => (setup_ref ok f).seq fun v => ?_
  have h := middle_ref (s₀ := s₀) (code := code) ok f n memret (upd loc vContext v)
    (fun h => by rw [upd_ne _ _ (by decide)]; exact hmr h)
  have e : passed g (upd loc vContext v) = passed g loc :=
    argsOf_congr _ _ fun j _ _ => upd_ne _ _ (by simp only [vContext]; omega)
  rw [e, upd_same, upd_ne _ _ (by decide), upd_ne _ _ (by decide), upd_ne _ _ (by decide)] at h
  exact h

/-- From the entry to the end. -/
theorem entry_ref (ok : StackOk acc keep S) (f : Fit g S) (n : Nat) (hF : s.reg 4 = S.F) :
    Ref acc keep S code (prologue g ++ (constructOps g ++ (initOps ++ (setupOps g ++ (callHooksOps g
        ++ (callOrigOps g ++ (callHooksOps g ++ (prepareOps g ++ (endOps g
        ++ (paramDtors (firstReg g.ret) g.params ++ (returnOps g ++ retDtors g)))))))))))
      (fun m s' => m = s.mem ∧ s' = s)
      (hookFunction (world acc keep S) (varsAt g S) g ⟨false, false⟩ n (s.reg 1) (s.reg 2)
        (paramsIn s (firstReg g.ret) g.params))
      (fun r m s' => ∃ l, Holds S s l r m s' ∧ l (-8) = s.reg 5 ∧ l 0 = rd s.mem S.F) := by
  obtain ⟨s₁, l, x₁, i₁, e8, e0, et, em, ep⟩ := prologue_exec (keep := keep) ok f hF
  have h := whole_ref (s₀ := s) (code := code) ok f n (s.reg 2) l em
  rw [et, ep, e8, e0] at h
  refine Ref.pre ?_ h
  rintro m s' ⟨rfl, rfl⟩
  exact ⟨s₁, x₁, i₁⟩

end Verif.Jit
