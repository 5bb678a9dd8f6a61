import Verif.Jit32.HookFit
import Verif.Jit32.HookEnter
/-
Helper lemmas for C76: the pieces put together, the prologue and the epilogue.
-/
namespace Verif.Jit32

open Spec
open Verif.Jit (Byte)

variable {U : Fpu}

/-! ## Between prologue and epilogue -/

theorem pure_bind {α β : Type} (a : α) (f : α → M U β) : (Pure.pure a >>= f) = f a := by
  funext m as
  show M.andThen (M.ret a) f m as = f a m as
  unfold M.andThen M.ret
  simp only
  cases f a m as with
  | none => rfl
  | some q => rfl

/-- No counterpart in /repo: the program, with the values the function keeps for itself. -/
def inner (Wd : World) (V : Vars) (g : Gen) (n : Nat) (this memret a fmt : W) : M U (Ret U × W × W) := do
  start Wd V g fmt
  construct Wd V g
  let ctx ← setup Wd V g this
  Spec.callHooks Wd V g n ctx a
  Spec.callOrig Wd V g ctx this a
  Spec.callHooks Wd V g n ctx a
  let p ← prepare Wd V g ctx
  endContext Wd g ctx
  let r ← Spec.doReturn Wd g memret p
  destroyRet Wd V g
  pure (r, ctx, p)

theorem hookFunction_inner (Wd : World) (V : Vars) (g : Gen) (n : Nat) (this memret a fmt : W) :
    hookFunction Wd V g n this memret a fmt
      = (inner Wd V g n this memret a fmt >>= fun q => (Pure.pure q.1 : M U (Ret U))) := by
  unfold hookFunction inner
  simp only [bind_assoc, pure_bind]

/-- No counterpart in /repo: what the function keeps after `setup`. -/
def Kept.withCtx (K : Kept) (c : W) : Kept := { K with loc := fun k => if k = vCtx then c else K.loc k }

section
variable {E : Env} {S : Stack} {code : List Byte} {K : Kept} (hS : StackOk E S)
include hS

omit hS in
theorem vThis_slot {g : Gen} (ha : S.args = if hid g then 20 else 16) : S.slot g.vThis := by
  unfold Gen.vThis
  rw [has_retMem]
  unfold hid at ha
  refine ⟨?_, (priv_iff _ _).2 (Or.inl ?_)⟩
  · split <;> omega
  · cases h6 : g.ret.flags.getLsbD 6 <;> rw [h6] at ha <;>
      simp only [if_true, if_false, Bool.false_eq_true] at ha ⊢ <;> omega

theorem ref_inner {g : Gen} (hp : ∀ p ∈ g.params, PassOk p) (hg : RetOk g.ret)
    (hd : slots g.params + 128 ≤ S.depth) (hs : slots g.params < 32768)
    (hn : g.params.length < 2 ^ 16) (hva : g.varArgs = g.vafmt)
    (hw : S.wide = decide (g.ret.size ≠ 0)) (ha : S.args = if hid g then 20 else 16) (n : Nat) :
    Ref E S code (firstOps g ++ (loopsOps g ++ lastOps g)) (K.idle : Abs U)
      (inner (world E S) (varsAt g S) g n (K.loc g.vThis) (K.loc 12) (off S.F g.base)
        (off S.F (g.base + slots g.params)))
      (fun q => Kept.returned ((K.withCtx q.2.1).withRet g q.2.2) q.1) := by
  have hd' : 128 ≤ S.depth := by omega
  have hth := vThis_slot ha
  have hsz := size_store g
  have eo : firstOps g ++ (loopsOps g ++ lastOps g)
      = (.movD8Imm ebp 0 (i8 vStatus) :: (vaStart g ++ vaFormat g)) ++ (constructOps g ++ (setupOps g
        ++ ((.movD8Imm ebp 0 (i8 vPrev) :: loopOps g 0) ++ (origOps g (count₂ g)
        ++ ((.movD8Imm ebp 0 (i8 vPrev) :: loopOps g (count₃ g)) ++ (prepareReturn g ++ (endContextOps g
        ++ ((lower (alignBytes 0 4) ++ raiseBack (alignBytes 0 4)) ++ (Jit32.doReturn g
        ++ (destroyRetOps g ++ [])))))))))) := by
    unfold firstOps loopsOps lastOps
    rw [dropParams_nil hp]
    simp only [List.append_assoc, List.cons_append, List.nil_append, List.append_nil]
  rw [eo]
  unfold inner
  refine Ref.seq (ref_start hS g hd' hva (totalSize_small _ hs)) fun _ => ?_
  refine Ref.seq (ref_construct hS g hd') fun _ => ?_
  refine Ref.seq (ref_setup hS g hd' hth) fun c => ?_
  have e1 : (K.withCtx c).loc vCtx = c := rfl
  have e2 : (K.withCtx c).loc g.vThis = K.loc g.vThis := by
    have := vThis_bounds g
    exact if_neg (by show ¬ g.vThis = -24; omega)
  have e3 : (K.withCtx c).loc 12 = K.loc 12 := rfl
  refine Ref.seq (B := fun _ => (K.withCtx c).idle) (by
    have := ref_callHooks (code := code) (K := K.withCtx c) (U := U) hS hp hg hd hs hsz (size_body hp hn 0) n
    rw [e1] at this; exact this) fun _ => ?_
  refine Ref.seq (B := fun _ => (K.withCtx c).idle) (by
    have := ref_orig (code := code) (K := K.withCtx c) (U := U) hS hp hg hd hs hth
      (size_origCall hp hn (count₂ g)) (size_origElse g)
    rw [e1, e2] at this; exact this) fun _ => ?_
  refine Ref.seq (B := fun _ => (K.withCtx c).idle) (by
    have := ref_callHooks (code := code) (K := K.withCtx c) (U := U) hS hp hg hd hs hsz
      (size_body hp hn (count₃ g)) n
    rw [e1] at this; exact this) fun _ => ?_
  refine Ref.seq (B := fun p => ((K.withCtx c).withRet g p).idle) (by
    have := ref_prepare (code := code) (K := K.withCtx c) (U := U) (g := g) hS hd' hw
    rw [e1] at this; exact this) fun p => ?_
  have f1 : ((K.withCtx c).withRet g p).loc vCtx = c := by
    unfold Kept.withRet
    split <;> rfl
  have f3 : ((K.withCtx c).withRet g p).loc 12 = K.loc 12 := by
    unfold Kept.withRet
    split <;> rfl
  have f4 : g.ret.size ≠ 0 → ((K.withCtx c).withRet g p).loc (-28) = p := by
    intro h
    unfold Kept.withRet
    rw [if_neg h]
    rfl
  refine Ref.seq (B := fun _ => ((K.withCtx c).withRet g p).idle) (by
    have := ref_endContext (code := code) (K := (K.withCtx c).withRet g p) (U := U) hS g hd'
    rw [f1] at this; exact this) fun _ => ?_
  have ea : alignBytes 0 4 = ((12 : Nat) : Int) := by decide
  refine Ref.pre (A₁ := ((K.withCtx c).withRet g p).idle) ?_ ?_
  · rw [ea]
    refine (run_lower hS 12 (by simp [Kept.at]; omega)).append ((run_raiseBack
      (b := List.replicate 12 none) (rest := []) (by simp [Kept.at]) (by simp)).weaken ?_)
    exact Le.of (fun _ _ h => h) rfl rfl rfl
  · refine Ref.seqP (fun r : Ret U => g.ret.flags.getLsbD 0 = true ∧ g.ret.dtor ≠ 0 → r.st = none)
      (fun _ _ _ _ _ _ h hdt => st_none hg hdt h)
      (B := fun r => Kept.returned ((K.withCtx c).withRet g p) r) (by
        have := ref_doReturn (code := code) (K := (K.withCtx c).withRet g p) (U := U) hS hg hd' hw p f4
        rw [f3] at this; exact this) fun r hr => ?_
    exact Ref.seq (ref_destroyRet hS hd' r hr) fun _ => Ref.done (Le.refl _)

end

/-! ## Prologue and epilogue -/

theorem mask_bits : ∀ j : Fin 32, 4 ≤ j.val → (0xFFFFFFF0#32)[j.val] = true := by decide

theorem and_low (x : W) : x &&& i32 (-16) = off x (-((x.toNat % 16 : Nat) : Int)) := by
  have h1 : x &&& i32 (-16) = (x >>> 4) <<< 4 := by
    ext i hi
    have e : i32 (-16) = 0xFFFFFFF0#32 := by decide
    rw [e]
    rcases (by omega : i < 4 ∨ 4 ≤ i) with h | h
    · rcases (by omega : i = 0 ∨ i = 1 ∨ i = 2 ∨ i = 3) with rfl | rfl | rfl | rfl <;> simp
    · have : (0xFFFFFFF0#32)[i] = true := by
        exact mask_bits ⟨i, hi⟩ h
      simp only [BitVec.getElem_and, this, Bool.and_true, BitVec.getElem_shiftLeft]
      rw [decide_eq_false (by omega : ¬ i < 4)]
      simp
      rw [show 4 + (i - 4) = i by omega]
      exact (BitVec.getLsbD_eq_getElem hi).symm
  rw [h1]
  apply BitVec.eq_of_toNat_eq
  have h2 : off x (-((x.toNat % 16 : Nat) : Int)) = x - BitVec.ofNat 32 (x.toNat % 16) := by
    unfold off i32
    rw [BitVec.ofInt_neg, ← BitVec.sub_eq_add_neg]
    rfl
  rw [h2, BitVec.toNat_shiftLeft, BitVec.toNat_ushiftRight, BitVec.toNat_sub, BitVec.toNat_ofNat,
    Nat.shiftRight_eq_div_pow, Nat.shiftLeft_eq]
  have := x.isLt
  omega

/-- Specification: the stack of the generated function, entered with the stack pointer `sp`. -/
def stackOf (g : Gen) (sp : W) (depth : Int) : Stack where
  F := off sp (-8)
  low := -(frame g).size - ((off sp (-8 - (frame g).size)).toNat % 16 : Nat)
  depth := depth
  args := if hid g then 20 else 16
  wide := decide (g.ret.size ≠ 0)

theorem fbrr_none {ps : List Pass} (hp : ∀ p ∈ ps, PassOk p) : fbrrSize ps = 0 := by
  unfold fbrrSize
  generalize hz : (0 : Int) = z
  clear hz
  induction ps generalizing z with
  | nil => rfl
  | cons p ps ih =>
    have h : fbrrStep z p = z := by
      unfold fbrrStep
      rw [has_forced, (hp p List.mem_cons_self).notForced]
      rfl
    rw [List.foldl_cons, h]
    exact ih (fun q hq => hp q (List.mem_cons_of_mem _ hq)) z

theorem frame_bounds {g : Gen} (hp : ∀ p ∈ g.params, PassOk p) (hr : g.ret.size < 2 ^ 24) :
    24 ≤ (frame g).size ∧ (frame g).size ≤ 2 ^ 27 ∧ (g.ret.size ≠ 0 → 28 ≤ (frame g).size) := by
  have hc : stackSize g.ret ≤ 2 ^ 24 := by
    rw [stackSize_eq]; split <;> omega
  have e : (frame g).size = -(if g.vafmt then (if g.varArgs then (if fbrrSize g.params ≠ 0 then
      (if g.temp then (if g.ret.size ≠ 0 then -28 - 3 * (stackSize g.ret : Int) else -24) - (stackSize g.ret : Int)
        else (if g.ret.size ≠ 0 then -28 - 3 * (stackSize g.ret : Int) else -24)) - fbrrSize g.params else
      (if g.temp then (if g.ret.size ≠ 0 then -28 - 3 * (stackSize g.ret : Int) else -24) - (stackSize g.ret : Int)
        else (if g.ret.size ≠ 0 then -28 - 3 * (stackSize g.ret : Int) else -24))) - 4 else
      (if fbrrSize g.params ≠ 0 then
      (if g.temp then (if g.ret.size ≠ 0 then -28 - 3 * (stackSize g.ret : Int) else -24) - (stackSize g.ret : Int)
        else (if g.ret.size ≠ 0 then -28 - 3 * (stackSize g.ret : Int) else -24)) - fbrrSize g.params else
      (if g.temp then (if g.ret.size ≠ 0 then -28 - 3 * (stackSize g.ret : Int) else -24) - (stackSize g.ret : Int)
        else (if g.ret.size ≠ 0 then -28 - 3 * (stackSize g.ret : Int) else -24)))) - (4096 : Nat) else
      (if g.varArgs then (if fbrrSize g.params ≠ 0 then
      (if g.temp then (if g.ret.size ≠ 0 then -28 - 3 * (stackSize g.ret : Int) else -24) - (stackSize g.ret : Int)
        else (if g.ret.size ≠ 0 then -28 - 3 * (stackSize g.ret : Int) else -24)) - fbrrSize g.params else
      (if g.temp then (if g.ret.size ≠ 0 then -28 - 3 * (stackSize g.ret : Int) else -24) - (stackSize g.ret : Int)
        else (if g.ret.size ≠ 0 then -28 - 3 * (stackSize g.ret : Int) else -24))) - 4 else
      (if fbrrSize g.params ≠ 0 then
      (if g.temp then (if g.ret.size ≠ 0 then -28 - 3 * (stackSize g.ret : Int) else -24) - (stackSize g.ret : Int)
        else (if g.ret.size ≠ 0 then -28 - 3 * (stackSize g.ret : Int) else -24)) - fbrrSize g.params else
      (if g.temp then (if g.ret.size ≠ 0 then -28 - 3 * (stackSize g.ret : Int) else -24) - (stackSize g.ret : Int)
        else (if g.ret.size ≠ 0 then -28 - 3 * (stackSize g.ret : Int) else -24))))) := rfl
  rw [fbrr_none hp] at e
  rw [e]
  clear e
  by_cases h0 : g.ret.size = 0 <;> cases g.temp <;> cases g.varArgs <;> cases g.vafmt <;>
    simp only [h0, ne_eq, not_true, not_false_eq_true, if_true, if_false, Bool.false_eq_true] <;> 
    exact ⟨by omega, by omega, fun h => by first | exact h.elim | omega⟩

theorem stackOf_ok {E : Env} {g : Gen} (hp : ∀ p ∈ g.params, PassOk p) (hr : g.ret.size < 2 ^ 24)
    {sp : W} {depth : Int} (hd : 0 ≤ depth ∧ depth ≤ 2 ^ 28)
    (acc : ∀ k, (stackOf g sp depth).low - depth ≤ k → k < (stackOf g sp depth).args →
      E.acc (off (off sp (-8)) k) = true)
    (keep : ∀ k, (stackOf g sp depth).priv k = true → E.keep (off (off sp (-8)) k) = true)
    (top : E.top = off (off sp (-8)) (stackOf g sp depth).low) : StackOk E (stackOf g sp depth) := by
  have hb := frame_bounds hp hr
  refine ⟨acc, keep, ?_, ?_, hd, ?_, ?_, top⟩
  · unfold stackOf; simp only; omega
  · intro h
    have h : decide (g.ret.size ≠ 0) = true := h
    have := hb.2.2 (of_decide_eq_true h)
    show -(frame g).size - ((off sp (-8 - (frame g).size)).toNat % 16 : Nat) ≤ -28
    omega
  · unfold stackOf
    cases hid g <;> simp
  · have e : off (stackOf g sp depth).F (stackOf g sp depth).low
        = off sp (-8 - (frame g).size) &&& i32 (-16) := by
      rw [and_low, off_off]
      show off (off sp (-8)) (-(frame g).size - ((off sp (-8 - (frame g).size)).toNat % 16 : Nat)) = _
      rw [off_off]
      congr 1
      omega
    rw [e, and_low]
    generalize off sp (-8 - (frame g).size) = x
    have h2 : off x (-((x.toNat % 16 : Nat) : Int)) = x - BitVec.ofNat 32 (x.toNat % 16) := by
      unfold off i32
      rw [BitVec.ofInt_neg, ← BitVec.sub_eq_add_neg]
      rfl
    rw [h2, BitVec.toNat_sub, BitVec.toNat_ofNat]
    have := x.isLt
    omega

theorem stackOf_low (g : Gen) (sp : W) (depth : Int) : (stackOf g sp depth).low
    = -(frame g).size - ((off sp (-8 - (frame g).size)).toNat % 16 : Nat) := rfl

/-- The saved registers aside, the words above the frame are as on entry. -/
theorem entry_word (m : Memory) (sp a b : W) {k : Int} (h : 0 ≤ k) (hk : k < 100) :
    rd (wr (wr m (off sp (-4)) a) (off sp (-8)) b) (off sp k) = rd m (off sp k) := by
  rw [rd_wr_off _ _ _ (by omega) (by omega), rd_wr_off _ _ _ (by omega) (by omega)]

theorem esp_entry (g : Gen) (sp : W) (depth : Int) : off sp (-8 + -(frame g).size) &&& i32 (-16)
    = off (stackOf g sp depth).F ((stackOf g sp depth).low - (0 : Nat)) := by
  rw [and_low, off_off, stackOf_low]
  have hF : (stackOf g sp depth).F = off sp (-8) := rfl
  generalize (frame g).size = z
  rw [hF, off_off, show -8 + -z = -8 - z by omega]
  congr 1
  omega

theorem enter_run {E : Env} {S : Stack} (hS : StackOk E S) {g : Gen} {s : Mach U}
    (hF : S.F = off (s.reg 4) (-8))
    (hesp : off (s.reg 4) (-8 + -(frame g).size) &&& i32 (-16) = off S.F (S.low - (0 : Nat)))
    (hf : s.fpu = []) :
    ∃ s₁, ∃ K : Kept, execs E.acc s (enterOps g) = some s₁ ∧
      Inv S (K.idle : Abs U) s.mem s₁ ∧ K.si = s.reg 6 ∧ K.di = s.reg 7 ∧
      K.loc 0 = s.reg 3 ∧ K.loc 4 = s.reg 5 ∧
      ∀ k : Int, 8 ≤ k → k < 100 → K.loc k = rd s.mem (off (s.reg 4) (k - 8)) := by
  have hlow := hS.low
  have hdep := hS.depth
  have a16 : 16 ≤ S.args := by
    have := hS.args
    omega
  have hacc := hS.acc
  have hpriv : ∀ k : Int, 0 ≤ k → k < 16 → S.hidden (off (s.reg 4) (-8 + k)) = true := by
    intro k h1 h2
    have := hidden_priv hS (k := k) ((priv_iff _ _).2 (Or.inl (by omega)))
    rw [hF, off_off] at this
    exact this
  obtain ⟨s₁, x₁, e5, e4, em, e6, e7, ef⟩ := enter_exec (acc := E.acc) (s := s) (frame g).size
    (fun k h1 h2 => by
      have := hacc (k + 8) (by omega) (by omega)
      rw [hF, off_off] at this
      rw [show -8 + (k + 8) = k by omega] at this
      exact this)
  refine ⟨s₁, ⟨s.reg 6, s.reg 7, fun k => rd s₁.mem (off S.F k)⟩, x₁, ?_, rfl, rfl, ?_, ?_, ?_⟩
  · refine ⟨rfl, by rw [hF, e5], ?_, by show (0 : Int) ≤ _; omega, ?_, by rw [ef, hf]; rfl,
      fun i b hb => by simp [Kept.at] at hb, ?_, fun k _ => rfl⟩
    · rw [e4]; exact hesp
    · intro q v hv
      have hv : (if q = 0 then none else if q = 2 then none else if q = 6 then some (s.reg 6)
        else if q = 7 then some (s.reg 7) else none) = some v := hv
      split at hv
      · cases hv
      split at hv
      · cases hv
      split at hv
      · rename_i h; subst h; rw [e6]; exact Option.some.inj hv
      split at hv
      · rename_i h; subst h; rw [e7]; exact Option.some.inj hv
      · cases hv
    · intro x hxh
      have hne : ∀ (k : Int) (i : Nat), (k = -4 ∨ k = -8) → i < 4 →
          x ≠ off (s.reg 4) k + BitVec.ofNat 32 i := by
        intro k i hk hi e
        rw [off_bytes] at e
        have := hpriv (k + i + 8) (by omega) (by omega)
        rw [show -8 + (k + i + 8) = k + i by omega, ← e, hxh] at this
        cases this
      rw [em, wr_out fun i hi => hne (-8) i (by omega) hi, wr_out fun i hi => hne (-4) i (by omega) hi]
  · show rd s₁.mem (off S.F 0) = _
    rw [em, hF, off_off]
    exact rd_wr_off_eq _ _ _ (by omega)
  · show rd s₁.mem (off S.F 4) = _
    rw [em, hF, off_off, rd_wr_off _ _ _ (by omega) (by omega)]
    exact rd_wr_off_eq _ _ _ (by omega)
  · intro k h1 h2
    show rd s₁.mem (off S.F k) = _
    rw [em, hF, off_off, show -8 + k = k - 8 by omega]
    exact entry_word _ _ _ _ (by omega) (by omega)

/-- The epilogue, from a state that keeps `K`. -/
theorem leave_run {E : Env} {S : Stack} (hS : StackOk E S) {code : List Byte} {g : Gen} {pc : Nat} {K : Kept}
    {r : Ret U} {m : Memory} {s : Mach U} (hat : At code pc (epilogue g)) (h : Inv S (K.returned r) m s)
    (ans : List (Ans U)) :
    ∃ pc' s₁ s', Steps E code ⟨pc, s, ans⟩ [] ⟨pc', s₁, ans⟩ ∧
      step E.acc code pc' s₁ = .ret (K.loc 8) s' ∧
      (∀ v, r.eax = some v → s'.reg 0 = v) ∧ (∀ v, r.edx = some v → s'.reg 2 = v) ∧
      s'.fpu = r.st.toList ∧ s'.reg 4 = off S.F (if hid g then 16 else 12) ∧ s'.reg 3 = K.loc 0 ∧
      s'.reg 5 = K.loc 4 ∧ s'.reg 6 = K.si ∧ s'.reg 7 = K.di ∧
      ∀ x, S.hidden x = false → s'.mem x = m x := by
  have hlow := hS.low
  have hdep := hS.depth
  have a16 : 16 ≤ S.args := by have := hS.args; omega
  have hslot : ∀ k : Int, k % 4 = 0 → 0 ≤ k → k < 16 → S.slot k :=
    fun k h1 h2 h3 => ⟨h1, (priv_iff _ _).2 (Or.inl (by omega))⟩
  obtain ⟨s₃, x₃, d4, dm, d0, d2, df, d3, d5, d6, d7⟩ := leave_exec (acc := E.acc) h.ebp
    (fun k h1 h2 => hS.acc k (by omega) (by omega))
  have hend : At code pc ([.movRegRm esp ebp 3, .pop ebx, .pop ebp]
      ++ (if g.ret.has Verif.Jit.flagRetMem then [.retn 4] else [.ret])) := hat
  have t₃ := steps_straight (E := E) (ans := ans) _ hend.left x₃
  have hret := hend.right
  have ok : okN E.acc (s₃.reg 4) 4 = true := by
    rw [d4]
    exact okN_stack hS (by omega) (by omega)
  have w0 := h.priv 0 (hslot 0 (by omega) (by omega) (by omega))
  have w4 := h.priv 4 (hslot 4 (by omega) (by omega) (by omega))
  have w8 := h.priv 8 (hslot 8 (by omega) (by omega) (by omega))
  have h0 : ∀ v, r.eax = some v → s₃.reg 0 = v := by
    intro v hv; rw [d0]; exact h.reg 0 v hv
  have h2 : ∀ v, r.edx = some v → s₃.reg 2 = v := by
    intro v hv; rw [d2]; exact h.reg 2 v hv
  have hfp : s₃.fpu = r.st.toList := by
    rw [df, h.fpu]
    show (match r.st with | none => [] | some x => [x]) = _
    cases r.st <;> rfl
  have h6 : s₃.reg 6 = K.si := by rw [d6]; exact h.reg 6 _ rfl
  have h7 : s₃.reg 7 = K.di := by rw [d7]; exact h.reg 7 _ rfl
  have key : ∀ v : W, step E.acc code (pc + size [.movRegRm esp ebp 3, .pop ebx, .pop ebp]) s₃
        = .ret (rd s₃.mem (s₃.reg 4)) (s₃.set 4 v) → v = off S.F (if hid g then 16 else 12) →
      ∃ pc' s₁ s', Steps E code ⟨pc, s, ans⟩ [] ⟨pc', s₁, ans⟩ ∧
      step E.acc code pc' s₁ = .ret (K.loc 8) s' ∧
      (∀ v, r.eax = some v → s'.reg 0 = v) ∧ (∀ v, r.edx = some v → s'.reg 2 = v) ∧
      s'.fpu = r.st.toList ∧ s'.reg 4 = off S.F (if hid g then 16 else 12) ∧ s'.reg 3 = K.loc 0 ∧
      s'.reg 5 = K.loc 4 ∧ s'.reg 6 = K.si ∧ s'.reg 7 = K.di ∧
      ∀ x, S.hidden x = false → s'.mem x = m x := by
    intro v hst hv
    rw [dm, d4, w8] at hst
    exact ⟨_, s₃, s₃.set 4 v, t₃, hst, h0, h2, hfp, hv, d3.trans w0, d5.trans w4, h6, h7,
      fun x hx => by rw [show (s₃.set 4 v).mem = s₃.mem from rfl, dm]; exact h.mem x hx⟩
  rw [has_retMem] at hret
  unfold hid at key ⊢
  cases hr : g.ret.flags.getLsbD 6 with
  | false =>
    rw [hr] at hret key
    refine key _ (step_ret hret ok) ?_
    rw [d4, off_add4]; rfl
  | true =>
    rw [hr] at hret key
    refine key _ (step_retn hret ok) ?_
    rw [d4, off_add4]
    exact off_add _ _ 4

end Verif.Jit32
