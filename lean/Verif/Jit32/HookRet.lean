import Verif.Jit32.HookParts
/-
Helper lemmas for C76: the pieces of the generated hook function that deal with the returned value.
-/
namespace Verif.Jit32

open Verif.Jit (Byte flagByVal flagByRef flagODtor flagOCtor flagAssignOp flagCCtor flagRetMem flagRetReg
  typeBasic typeFloat typeObject)
open Spec

variable {U : Fpu}

/-- Specification: the returned types for which the theorem is stated.  `void` has no reference bit
and no
assignment operator; what is returned in memory is larger than eight bytes, or an object that is not
returned in registers as well; what is returned in registers is a `float` or `double` (without a
destructor), or a number or an object of at most eight bytes. -/
structure RetOk (p : Pass) : Prop where
  notForced : p.flags.getLsbD 30 = false
  void : p.size = 0 → p.flags.getLsbD 1 = false ∧ p.assign = 0
  inMem : p.flags.getLsbD 1 = false → p.flags.getLsbD 6 = true → p.size ≠ 0 →
    8 < p.size ∨ (p.type = 3 ∧ p.flags.getLsbD 7 = false)
  inReg : p.flags.getLsbD 1 = false → p.flags.getLsbD 6 = false → p.size ≠ 0 →
    (p.type = 2 ∧ (p.size = 4 ∨ p.size = 8) ∧ (p.flags.getLsbD 0 = false ∨ p.dtor = 0)) ∨
    ((p.type = 1 ∨ (p.type = 3 ∧ p.flags.getLsbD 7 = true)) ∧ p.size ≤ 8)
  small : p.size < 2 ^ 31

theorem temp_eq (g : Gen) : g.temp = tmp g := by
  rw [Gen.temp, tmp, has_retMem, has_special]

theorem realSize_eq {p : Pass} (h : RetOk p) (h1 : p.flags.getLsbD 1 = false) : realSize p = p.size := by
  rw [realSize, has_ref, h1, h.notForced]
  rfl

theorem realSize_ref {p : Pass} (h1 : p.flags.getLsbD 1 = true) : realSize p = 4 := by
  rw [realSize, has_ref, h1]
  rfl

section
variable {E : Env} {S : Stack} {A : Abs U} {m : Memory} {s : Mach U}

theorem Inv.setFpu (h : Inv S A m s) (l : List U.F) : Inv S (A.setF l) m (s.setF l) :=
  ⟨h.noEsp, h.ebp, h.esp, h.room, h.reg, rfl, h.stk, h.mem, h.priv⟩

theorem okN_lo {acc : W → Bool} {a : W} (h : okN acc a 8 = true) : okN acc a 4 = true :=
  okN_pre h 4 (by omega)

theorem okN_hi {acc : W → Bool} {a : W} (h : okN acc a 8 = true) : okN acc (a + 4) 4 = true :=
  okN_sub h 4 4 (by omega)

theorem Inv.saveVis64 (hS : StackOk E S) (h : Inv S A m s) {a : W} {v : BitVec 64}
    (hv : okN (world E S).vis a 8 = true) : Inv S A (wr64 m a v) (s.wrs64 a v) :=
  (h.saveVis hS (okN_lo hv)).saveVis hS (okN_hi hv)

end

section
variable {E : Env} {S : Stack} {code : List Byte} {A : Abs U} {K : Kept}

theorem ref_fld32 (b : Reg) {a : W} (hb : A.reg b = some a) (hf : A.fp = []) :
    Ref E S code [.fld32 b] A (load (world E S) a) (fun v => A.setF [U.of32 v]) := by
  apply Ref.one
  intro m as v m' as' t hx s hs
  obtain ⟨hv, rfl, rfl, rfl, rfl⟩ := load_some hx
  refine ⟨rfl, rfl, s.setF [U.of32 (rd m' a)], ?_, hs.setFpu _⟩
  rw [ex_fld32Base _ _ _ (by rw [hs.fpu, hf]), hs.reg b a hb, if_pos (okN_of_vis hv), hs.rd_vis hv]

theorem ref_fld64 (b : Reg) {a : W} (hb : A.reg b = some a) (hf : A.fp = []) :
    Ref E S code [.fld64 b] A (load64 (world E S) a) (fun v => A.setF [U.of64 v]) := by
  apply Ref.one
  intro m as v m' as' t hx s hs
  unfold load64 at hx
  split at hx
  · rename_i hv
    simp only [Option.some.injEq, Prod.mk.injEq] at hx
    obtain ⟨rfl, rfl, rfl, rfl⟩ := hx
    refine ⟨rfl, rfl, s.setF [U.of64 (rd64 m a)], ?_, hs.setFpu _⟩
    rw [ex_fld64Base _ _ _ (by rw [hs.fpu, hf]), hs.reg b a hb, if_pos (okN_of_vis hv),
      hs.rd64_vis hv]
  · cases hx

variable (hS : StackOk E S)
include hS

theorem ref_fstp32 (k : Int) {x : U.F} (hf : A.fp = [x]) :
    Ref E S code [.fstp32Auto ebp (i32 k)] A (save (world E S) (off S.F k) (U.to32 x))
      (fun _ => A.setF []) := by
  apply Ref.one
  intro m as v m' as' t hx s hs
  obtain ⟨hv, rfl, rfl, rfl⟩ := save_some hx
  refine ⟨rfl, rfl, _, ?_, (hs.saveVis hS hv).setFpu []⟩
  rw [ex_fstp32 _ _ _ _ (by rw [hs.fpu, hf]), hs.ebp, if_pos (okN_of_vis hv)]

theorem ref_fstp64 (k : Int) {x : U.F} (hf : A.fp = [x]) :
    Ref E S code [.fstp64Auto ebp (i32 k)] A (save64 (world E S) (off S.F k) (U.to64 x))
      (fun _ => A.setF []) := by
  apply Ref.one
  intro m as v m' as' t hx s hs
  unfold save64 at hx
  split at hx
  · rename_i hv
    simp only [Option.some.injEq, Prod.mk.injEq] at hx
    obtain ⟨_, rfl, rfl, rfl⟩ := hx
    refine ⟨rfl, rfl, _, ?_, (hs.saveVis64 hS hv).setFpu []⟩
    rw [ex_fstp64 _ _ _ _ (by rw [hs.fpu, hf]), hs.ebp, if_pos (okN_of_vis hv)]
  · cases hx

/-! ## Assigning -/

theorem ref_moveVars (g : Gen) (hd : 128 ≤ S.depth) (hsz : g.ret.size < 2 ^ 31) (v w : Int)
    {a d : Option W} :
    Ref E S code (if g.ret.assign ≠ 0 then assignOps g [.leaAuto edx ebp (i32 w),
        .leaAuto ecx ebp (i32 v), .push edx, .push ecx]
      else bitwiseCopy [.leaAuto edi ebp (i32 v), .leaAuto esi ebp (i32 w)] g.ret.size)
      (K.at a d [] : Abs U) (move (world E S) g (off S.F v) (off S.F w)) (fun _ => K.idle) := by
  unfold move
  split
  · apply Ref.drop
    refine ref_assign hS g hd (Run.cons (one_lea 2 _ (by decide) (by decide)) (Run.cons
      (one_lea 1 _ (by decide) (by decide)) (Run.cons (one_push hS 2 (by simp [Kept.at]; omega))
      (Run.cons (one_push hS 1 (by simp [Kept.at]; omega)) Run.nil)))) rfl rfl rfl rfl rfl
  · refine (ref_memcpy hS hsz (by simp [Kept.at]; omega) (Run.cons (one_lea 7 _ (by decide) (by decide))
      (Run.cons (one_lea 6 _ (by decide) (by decide)) Run.nil)) rfl rfl rfl).weaken fun _ => ?_
    exact idle_le rfl rfl rfl rfl rfl

theorem ref_storeOverride (g : Gen) (hd : 128 ≤ S.depth) (hsz : g.ret.size < 2 ^ 31) (p : W) :
    Ref E S code (storeOverride g) (K.at (some p) none [] : Abs U)
      (setOverride (world E S) (varsAt g S) g p) (fun _ => K.idle) := by
  unfold storeOverride setOverride
  rw [has_byRef]
  split
  · refine Ref.bind (ref_loadVar 1 _ (by decide) (by decide)) fun v => ?_
    exact (ref_saveBase hS 0 1 rfl rfl).weaken fun _ => idle_le rfl rfl rfl rfl rfl
  · unfold move
    split
    · apply Ref.drop
      refine ref_assign hS g hd (Run.cons (one_lea 2 _ (by decide) (by decide)) (Run.cons
        (one_push hS 2 (by simp [Kept.at]; omega)) (Run.cons (one_push hS 0 (by simp [Kept.at]; omega))
          Run.nil))) rfl rfl rfl rfl rfl
    · refine (ref_memcpy hS hsz (by simp [Kept.at]; omega) (Run.cons (one_movReg 7 0 (by decide)
        (by decide)) (Run.cons (one_lea 6 _ (by decide) (by decide)) Run.nil)) rfl rfl rfl).weaken
        fun _ => ?_
      exact idle_le rfl rfl rfl rfl rfl

theorem ref_origElse {g : Gen} (hg : RetOk g.ret) (hd : 128 ≤ S.depth) {a : Option W} :
    Ref E S code (Jit32.origElse g) (K.at a none [] : Abs U)
      (Spec.origElse (world E S) (varsAt g S) g) (fun _ => K.idle) := by
  unfold Jit32.origElse Spec.origElse
  rw [has_byRef]
  by_cases h0 : g.ret.size = 0
  · obtain ⟨h1, h2⟩ := hg.void h0
    rw [h1, if_pos h0, h2, h0]
    simp only [Bool.false_eq_true, if_false, ne_eq, not_true_eq_false]
    apply Ref.pure
    rw [bitwiseCopy_eq]
    refine (Run.cons one_cld (Run.cons (one_push hS 7 (by simp [Kept.at]; omega)) (Run.cons
      (one_push hS 6 (by simp [Kept.at]; omega)) (Run.cons (one_lea 7 _ (by decide) (by decide))
      (Run.cons (one_lea 6 _ (by decide) (by decide)) (Run.cons (one_pop hS (r := 6) (some K.si) rfl
        (by decide) (by decide)) (Run.cons (one_pop hS (r := 7) (some K.di) rfl (by decide)
        (by decide)) Run.nil))))))).weaken ?_
    exact idle_le rfl rfl rfl rfl rfl
  · rw [if_neg h0]
    split
    · refine Ref.bind (ref_loadVar 1 _ (by decide) (by decide)) fun v => ?_
      exact (ref_saveVar hS 1 _ rfl).weaken fun _ => idle_le rfl rfl rfl rfl rfl
    · exact ref_moveVars hS g hd hg.small _ _

/-! ## Keeping the result of a call -/

omit hS in
theorem saveValue_mem {g : Gen} (hg : RetOk g.ret) (h1 : g.ret.flags.getLsbD 1 = false)
    (h6 : g.ret.flags.getLsbD 6 = true) (h0 : g.ret.size ≠ 0) (v : Int) : saveValue g v = [] := by
  unfold saveValue saveRegs
  rw [realSize_eq hg h1, has_retReg]
  rcases hg.inMem h1 h6 h0 with h | ⟨ht, h7⟩
  · rw [if_neg (by omega : ¬ g.ret.size = 4), if_neg (by omega : ¬ g.ret.size = 8),
      if_neg (by omega : ¬ g.ret.size ≤ 4), if_neg (by omega : ¬ g.ret.size ≤ 8)]
    split
    · rfl
    · split
      · rfl
      · split <;> rfl
  · rw [if_neg (by rw [ht]; decide), if_neg (by rw [ht]; decide), if_neg (by rw [h7]; simp)]

theorem ref_saveRet {g : Gen} (hg : RetOk g.ret) (hd : 128 ≤ S.depth) (v : Int) (r : Ans U) :
    Ref E S code (saveRet g v)
      (K.at (some (r.reg 0)) (some (r.reg 2)) (if flt g then r.fpu else []))
      (keepResult (world E S) (varsAt g S) g r (off S.F v)) (fun _ => K.idle) := by
  unfold saveRet keepResult
  rw [has_byRef, has_retMem, temp_eq]
  cases h1 : g.ret.flags.getLsbD 1 with
  | true =>
    have h0 : g.ret.size ≠ 0 := by
      intro h
      have := (hg.void h).1
      rw [h1] at this
      cases this
    have hf : flt g = false := by unfold flt; rw [h1]; simp
    rw [realSize_ref h1, if_neg (by decide), if_neg h0, if_pos rfl, if_pos rfl, hf]
    exact (ref_saveVar hS 0 _ rfl).weaken fun _ => idle_le rfl rfl rfl rfl rfl
  | false =>
    rw [realSize_eq hg h1]
    by_cases h0 : g.ret.size = 0
    · have hf : flt g = false := by unfold flt; rw [h0]; simp
      rw [if_pos h0, if_pos h0, hf]
      exact Ref.done (idle_le rfl rfl rfl rfl rfl)
    rw [if_neg h0, if_neg h0]
    simp only [Bool.false_eq_true, if_false]
    unfold hid
    cases h6 : g.ret.flags.getLsbD 6 with
    | true =>
      have hf : flt g = false := by unfold flt; rw [h6]; simp
      rw [if_pos rfl, if_pos rfl, hf]
      split
      · rw [saveValue_mem hg h1 h6 h0, List.append_nil]
        unfold saveTemp
        refine Ref.seq (ref_moveVars hS g hd hg.small _ _) fun _ => ?_
        unfold dropT
        split
        · have e : alignBytes 0 4 = ((12 : Nat) : Int) := by decide
          rw [e]
          apply Ref.drop
          rw [List.append_assoc]
          refine Ref.pre (run_lower hS 12 (by simp [Kept.at]; omega)) ?_
          refine Ref.post (ref_call1 hS _ _ rfl (by simp [Kept.at]; omega) (by simp [Kept.at])) fun _ => ?_
          refine (run_raiseBack (b := List.replicate 12 none) (rest := []) rfl rfl).weaken ?_
          exact idle_le rfl rfl rfl rfl rfl
        · exact Ref.done (Le.refl _)
      · exact Ref.done (idle_le rfl rfl rfl rfl rfl)
    | false =>
      simp only [Bool.false_eq_true, if_false]
      unfold saveValue saveRegs
      rw [realSize_eq hg h1, has_retReg]
      rcases hg.inReg h1 h6 h0 with ⟨ht, hs, _⟩ | ⟨ht, hs⟩
      · have hf : flt g = true := by
          unfold flt; rw [h1, h6, ht]; simpa using h0
        rw [if_pos ht, hf, if_pos rfl, if_pos rfl]
        have none_ref : ∀ (l : List U.F), (∀ x, l ≠ [x]) → ∀ ops A,
            Ref E S code ops A (keepFloat (world E S) g (off S.F v) l) (fun _ => K.idle) := by
          intro l hl ops A pc _ m as a m' as' t hx
          match l, hl with
          | [], _ =>
            have hx : (none : Option (Unit × Memory × List (Ans U) × List SCall)) = some (a, m', as', t) := hx
            cases hx
          | [x], hl => exact absurd rfl (hl x)
          | x :: y :: l, _ =>
            have hx : (none : Option (Unit × Memory × List (Ans U) × List SCall)) = some (a, m', as', t) := hx
            cases hx
        match hl : r.fpu with
        | [] => exact none_ref [] (by simp) _ _
        | x :: y :: l => exact none_ref (x :: y :: l) (by simp) _ _
        | [x] =>
          have e : keepFloat (world E S) g (off S.F v) [x] = if g.ret.size = 4 then
            save (world E S) (off S.F v) (U.to32 x) else save64 (world E S) (off S.F v) (U.to64 x) := rfl
          rw [e]
          rcases hs with hs | hs
          · rw [hs, if_pos rfl, if_pos rfl]
            exact (ref_fstp32 hS _ rfl).weaken fun _ => idle_le rfl rfl rfl rfl rfl
          · rw [hs, if_neg (by decide), if_pos rfl, if_neg (by decide)]
            exact (ref_fstp64 hS _ rfl).weaken fun _ => idle_le rfl rfl rfl rfl rfl
      · have h2 : ¬ g.ret.type = 2 := by rcases ht with h | ⟨h, _⟩ <;> omega
        have hf : flt g = false := by unfold flt; simp [h2]
        have key : ∀ l : List Op, (if g.ret.type = typeBasic then l else
            if g.ret.type = typeObject ∧ g.ret.flags.getLsbD 7 = true then l else []) = l := by
          intro l
          rcases ht with h | ⟨h, h'⟩
          · rw [if_pos h]
          · rw [if_neg (by rw [h]; decide), if_pos ⟨h, h'⟩]
        rw [if_neg h2, hf, key]
        simp only [Bool.false_eq_true, if_false]
        split
        · exact (ref_saveVar hS 0 _ rfl).weaken fun _ => idle_le rfl rfl rfl rfl rfl
        · refine Ref.bind (ref_saveVar hS 0 _ rfl) fun _ => ?_
          rw [off_add4]
          exact (ref_saveVar hS 2 _ rfl).weaken fun _ => idle_le rfl rfl rfl rfl rfl

/-! ## Returning -/

/-- No counterpart in /repo: the pointer to the value to return becomes known. -/
def Kept.withRet (g : Gen) (K : Kept) (p : W) : Kept :=
  if g.ret.size = 0 then K else { K with loc := fun k => if k = -28 then p else K.loc k }

omit hS in
theorem one_leaMul {v : W} (hv : A.reg 0 = some v) :
    One E S A (.leaNoBase 0 0 2 (i32 4)) (A.set 0 (some (v <<< 2 + i32 4))) := by
  intro m s h
  refine ⟨_, ex_leaMul _ _ _ _ _ _ (by decide), h.setReg (by decide) (by decide) fun v' hv' => ?_⟩
  rw [h.reg 0 v hv]
  exact Option.some.inj hv'

omit hS in
theorem ref_below (h0 : A.reg 0 = some 0) :
    Ref E S code [.cmpD8Imm8 ebp (i8 vStatus) (i8 2), .setcc eax 12] A
      (load (world E S) (off S.F vStatus))
      (fun st => A.set 0 (some (if st.toInt < 2 then 1 else 0))) := by
  apply Ref.many
  intro m as v m' as' t hx s hs
  obtain ⟨hv, rfl, rfl, rfl, rfl⟩ := load_some hx
  refine ⟨rfl, rfl, ?_⟩
  have e1 : exec E.acc s (Op.cmpD8Imm8 ebp (i8 vStatus) (i8 2)).instr
      = some (s.subFlags (rd m' (off S.F vStatus)) (i32 2)) := by
    rw [ex_cmpMem8 _ _ _ _ _ (by decide) (by decide), hs.ebp, if_pos (okN_of_vis hv), hs.rd_vis hv]
  refine execs_cons_ex e1 (execs_cons_ex (ex_setcc _ _ _ (holds_l_sub _ _ _)) ⟨_, rfl, ?_⟩)
  refine (hs.congr rfl rfl rfl : Inv S A m' (s.subFlags _ _)).setReg (by decide) (by decide) fun w hw => ?_
  have h0' : s.reg 0 = 0 := hs.reg 0 0 h0
  rw [subFlags_reg, h0', ← Option.some.inj hw]
  have e2 : (i32 2).toInt = 2 := by decide
  rw [e2]
  by_cases hlt : (rd m' (off S.F vStatus)).toInt < 2
  · simp only [hlt, decide_true, if_true]; decide
  · simp only [hlt, decide_false, if_false]; decide

theorem ref_prepare {g : Gen} (hd : 128 ≤ S.depth) (hw : S.wide = decide (g.ret.size ≠ 0)) :
    Ref E S code (prepareReturn g) (K.idle : Abs U)
      (prepare (world E S) (varsAt g S) g (K.loc vCtx)) (fun p => (K.withRet g p).idle) := by
  unfold prepareReturn prepare Kept.withRet
  split
  · exact Ref.done (Le.refl _)
  · rename_i h0
    have hr : S.slot (frame g).retPtr := by
      have e : (frame g).retPtr = -28 := if_pos h0
      rw [e]
      refine ⟨by decide, (priv_iff _ _).2 (Or.inr (Or.inr ⟨?_, by decide, by decide⟩))⟩
      rw [hw]; simpa using h0
    unfold virt
    refine Ref.cons (one_loadSlot hS 1 vCtx slot_ctx (by decide) (by decide)) (Ref.cons
      (one_push hS 1 (by simp [Kept.at]; omega)) (Ref.cons (one_xor 0 (by decide) (by decide)) ?_))
    refine Ref.seq (a := [.cmpD8Imm8 ebp (i8 vStatus) (i8 2), .setcc eax 12]) (ref_below rfl) fun st => ?_
    have ev : ∀ vt : W, vt + BitVec.ofNat 32 (4 * (if st.toInt < 2 then 2 else 1))
        = vt + ((if st.toInt < 2 then (1 : W) else 0) <<< 2 + i32 4) := by
      intro vt
      congr 1
      by_cases hst : st.toInt < 2
      · simp only [hst, if_true]; decide
      · simp only [hst, if_false]; decide
    simp only [ev]
    refine Ref.map (f := fun a : Ans U => a.reg 0) (B := fun p => Kept.idle
      { K with loc := fun k => if k = -28 then p else K.loc k }) ?_
    refine Ref.cons (one_leaMul rfl) (Ref.bind (ref_loadBase 2 1 rfl (by decide) (by decide)) fun vt => ?_)
    refine Ref.cons (one_addReg 2 0 (v := vt) (w := (if st.toInt < 2 then (1 : W) else 0) <<< 2 + i32 4) rfl rfl
      (by decide) (by decide)) (Ref.bind (ref_loadBase 2 2 rfl (by decide) (by decide)) fun f => ?_)
    refine Ref.last (ref_call hS 2 plain false (args := word (K.loc vCtx)) (rest := []) rfl rfl rfl
      (fun h => nomatch h) (by simp [Kept.at]; omega) (fun h => nomatch h)) fun a => ?_
    refine (Run.cons (one_pop hS (r := 1) none (rest := []) rfl (by decide) (by decide)) (Run.cons
      (one_saveSlot hS 0 _ (v := a.reg 0) rfl hr) Run.nil)).weaken ?_
    refine idle_le rfl rfl rfl ?_ rfl
    have e : (frame g).retPtr = -28 := if_pos h0
    rw [e]
    rfl

/-- No counterpart in /repo: what is known when the function returns. -/
def Kept.returned (K : Kept) (r : Ret U) : Abs U :=
  K.at r.eax r.edx (match r.st with | none => [] | some x => [x])

omit hS in
theorem loadValue_mem {g : Gen} (hg : RetOk g.ret) (h1 : g.ret.flags.getLsbD 1 = false)
    (h6 : g.ret.flags.getLsbD 6 = true) (h0 : g.ret.size ≠ 0) : loadValue g = [] := by
  unfold loadValue
  rw [has_retReg]
  rcases hg.inMem h1 h6 h0 with h | ⟨ht, h7⟩
  · rw [if_neg (by omega : ¬ g.ret.size = 4), if_neg (by omega : ¬ g.ret.size = 8),
      if_neg (by omega : ¬ g.ret.size ≤ 4), if_neg (by omega : ¬ g.ret.size ≤ 8)]
    split
    · rfl
    · split <;> rfl
  · rw [if_neg (by rw [ht]; decide), if_neg (by rw [ht, h7]; decide)]

theorem ref_doReturn {g : Gen} (hg : RetOk g.ret) (hd : 128 ≤ S.depth)
    (hw : S.wide = decide (g.ret.size ≠ 0)) (p : W) (hp : g.ret.size ≠ 0 → K.loc (-28) = p) :
    Ref E S code (Jit32.doReturn g) (K.idle : Abs U)
      (Spec.doReturn (world E S) g (K.loc 12) p) K.returned := by
  unfold Jit32.doReturn Spec.doReturn
  split
  · exact Ref.done (Le.refl _)
  rename_i h0
  have e : (frame g).retPtr = -28 := if_pos h0
  have hr : S.slot (-28) := by
    refine ⟨by decide, (priv_iff _ _).2 (Or.inr (Or.inr ⟨?_, by decide, by decide⟩))⟩
    rw [hw]; simpa using h0
  have h12 : S.slot 12 := ⟨by decide, (priv_iff _ _).2 (Or.inl (by have := hS.args; omega))⟩
  rw [e, has_byRef]
  have hload : One E S (K.idle : Abs U) (.movRegAuto ecx ebp (i32 (-28))) (K.idle.set 1 (some p)) := by
    have := one_loadSlot (A := (K.idle : Abs U)) hS 1 _ hr (by decide) (by decide)
    rw [show (K.idle : Abs U).loc (-28) = p from hp h0] at this
    exact this
  cases h1 : g.ret.flags.getLsbD 1 with
  | true =>
    simp only [if_true]
    refine Ref.cons hload ?_
    refine Ref.map (f := fun v : W => (⟨some v, none, none⟩ : Ret U)) ((ref_loadBase 0 1 rfl (by decide)
      (by decide)).weaken fun v => at_le rfl rfl rfl rfl)
  | false =>
    simp only [Bool.false_eq_true, if_false]
    rw [List.append_assoc]
    refine Ref.cons hload ?_
    unfold hid
    cases h6 : g.ret.flags.getLsbD 6 with
    | true =>
      rw [loadValue_mem hg h1 h6 h0, if_pos rfl]
      unfold Jit32.returnMem
      rw [has_retMem, h6, if_pos rfl, List.nil_append]
      refine Ref.seq (b := [.movRegAuto eax ebp (i32 12)]) (B := fun _ => (K.idle : Abs U)) ?_
        fun _ => ?_
      · unfold Spec.returnMem
        split
        · have e8 : alignBytes 0 8 = ((8 : Nat) : Int) := by decide
          rw [e8]
          apply Ref.drop
          refine Ref.pre (run_lower hS 8 (by simp [Kept.at]; omega)) ?_
          refine Ref.cons (one_movReg 2 1 (by decide) (by decide)) (Ref.cons
            (one_push hS 2 (by simp [Kept.at]; omega)) (Ref.cons
            (one_pushSlot hS 12 h12 (by simp [Kept.at]; omega)) (Ref.cons
            (one_movImm 0 _ (by decide) (by decide)) (Ref.last (ref_call hS 0 plain true
              (args := word (K.loc 12) ++ word p) (rest := List.replicate 8 none) rfl rfl rfl
              (fun h => nomatch h) (by simp [Kept.at]; omega) (fun _ => by simp [Kept.at])) fun a => ?_))))
          refine Run.cons (one_raise (n := 8) (b := List.replicate 8 none)
            (rest := List.replicate 8 none) rfl rfl) ?_
          refine (run_raiseBack (b := List.replicate 8 none) (rest := []) rfl rfl).weaken ?_
          exact idle_le rfl rfl rfl rfl rfl
        · refine (ref_memcpy hS hg.small (by simp [Kept.at]; omega) (Run.cons (one_loadSlot hS 7 12 h12
            (by decide) (by decide)) (Run.cons (one_movReg 6 1 (by decide) (by decide)) Run.nil)) rfl rfl
            rfl).weaken fun _ => ?_
          exact idle_le rfl rfl rfl rfl rfl
      · exact Ref.pure ((Run.single (one_loadSlot hS 0 12 h12 (by decide) (by decide))).weaken
          (at_le rfl rfl rfl rfl))
    | false =>
      unfold Jit32.returnMem
      rw [has_retMem, h6]
      simp only [Bool.false_eq_true, if_false, List.append_nil]
      unfold loadValue
      rw [has_retReg]
      rcases hg.inReg h1 h6 h0 with ⟨ht, hs, _⟩ | ⟨ht, hs⟩
      · have hf : flt g = true := by
          unfold flt; rw [h1, h6, ht]; simpa using h0
        rw [if_pos ht, hf, if_pos rfl]
        rcases hs with hs | hs
        · rw [hs, if_pos rfl, if_pos rfl]
          exact Ref.map (f := fun v : W => (⟨none, none, some (U.of32 v)⟩ : Ret U))
            ((ref_fld32 1 rfl rfl).weaken fun v => at_le rfl rfl rfl rfl rfl (fun _ h => nomatch h))
        · rw [hs, if_neg (by decide), if_pos rfl, if_neg (by decide)]
          exact Ref.map (f := fun v : BitVec 64 => (⟨none, none, some (U.of64 v)⟩ : Ret U))
            ((ref_fld64 1 rfl rfl).weaken fun v => at_le rfl rfl rfl rfl rfl (fun _ h => nomatch h))
      · have h2 : ¬ g.ret.type = 2 := by rcases ht with h | ⟨h, _⟩ <;> omega
        have hf : flt g = false := by unfold flt; simp [h2]
        rw [if_neg h2, hf, if_pos ht]
        simp only [Bool.false_eq_true, if_false]
        split
        · exact Ref.map (f := fun v : W => (⟨some v, none, none⟩ : Ret U)) ((ref_loadBase 0 1 rfl
            (by decide) (by decide)).weaken fun v => at_le rfl rfl rfl rfl)
        · refine Ref.bind (ref_loadBase 0 1 rfl (by decide) (by decide)) fun v => ?_
          refine Ref.map (f := fun w : W => (⟨some v, some w, none⟩ : Ret U)) ?_
          exact (ref_load 2 1 4 rfl (by decide) (by decide)).weaken fun w => at_le rfl rfl rfl rfl
            rfl (fun _ h => h) (fun _ h => h)

omit hS in
/-- A value on the floating point stack excludes destructors. -/
theorem st_none {g : Gen} (hg : RetOk g.ret) (hdt : g.ret.flags.getLsbD 0 = true ∧ g.ret.dtor ≠ 0)
    {Wd : World} {memret p : W} {m m' : Memory} {as as' : List (Ans U)} {t : List SCall} {r : Ret U}
    (h : Spec.doReturn Wd g memret p m as = some (r, m', as', t)) : r.st = none := by
  have map_some : ∀ {α : Type} {x : M U α} {f : α → Ret U}, (∀ a, (f a).st = none) → ∀ {m m' as as' t},
      (x >>= fun a => Pure.pure (f a)) m as = some (r, m', as', t) → r.st = none := by
    intro α x f hf m m' as as' t hx
    obtain ⟨a, m₁, as₁, t₁, t₂, _, e₂, _⟩ := bind_some hx
    have e₂ : some (f a, m₁, as₁, ([] : List SCall)) = some (r, m', as', t₂) := e₂
    simp only [Option.some.injEq, Prod.mk.injEq] at e₂
    rw [← e₂.1]
    exact hf a
  unfold Spec.doReturn at h
  split at h
  · have h : some ((⟨none, none, none⟩ : Ret U), m, as, ([] : List SCall)) = some (r, m', as', t) := h
    simp only [Option.some.injEq, Prod.mk.injEq] at h
    rw [← h.1]
  · rename_i h0
    split at h
    · exact map_some (fun _ => rfl) h
    · rename_i h1
      split at h
      · exact map_some (f := fun _ => ⟨some memret, none, none⟩) (fun _ => rfl) h
      · rename_i h6
        have h1 : g.ret.flags.getLsbD 1 = false := by
          cases h' : g.ret.flags.getLsbD 1 with
          | false => rfl
          | true => exact absurd h' h1
        have h6 : g.ret.flags.getLsbD 6 = false := by
          cases h' : g.ret.flags.getLsbD 6 with
          | false => rfl
          | true => exact absurd h' h6
        rcases hg.inReg h1 h6 h0 with ⟨_, _, hx | hx⟩ | ⟨ht, hs⟩
        · rw [hx] at hdt; cases hdt.1
        · exact absurd hx hdt.2
        · have h2 : ¬ g.ret.type = 2 := by rcases ht with h | ⟨h, _⟩ <;> omega
          have hf : flt g = false := by unfold flt; simp [h2]
          rw [hf] at h
          simp only [Bool.false_eq_true, if_false] at h
          split at h
          · exact map_some (fun _ => rfl) h
          · obtain ⟨a, m₁, as₁, t₁, t₂, _, e₂, _⟩ := bind_some h
            exact map_some (f := fun w => ⟨some a, some w, none⟩) (fun _ => rfl) e₂

theorem ref_destroyRet {g : Gen} (hd : 128 ≤ S.depth) (r : Ret U)
    (hst : g.ret.flags.getLsbD 0 = true ∧ g.ret.dtor ≠ 0 → r.st = none) :
    Ref E S code (destroyRetOps g) (K.returned r)
      (destroyRet (world E S) (varsAt g S) g) (fun _ => K.returned r) := by
  unfold destroyRet destroyRetOps
  rw [has_byVal]
  split
  · rename_i hc
    have hst := hst hc
    have hfp : (K.returned r).fp = [] := by unfold Kept.returned; rw [hst]; rfl
    have e : alignBytes 8 4 = ((4 : Nat) : Int) := by decide
    rw [e]
    refine Ref.pre (Run.cons (one_push hS 0 (by simp [Kept.at, Kept.returned]; omega)) (Run.cons
      (one_push hS 2 (by simp [Kept.at, Kept.returned]; omega)) Run.nil)) ?_
    refine Ref.pre (run_lower hS 4 (by simp [Kept.at, Kept.returned]; omega)) ?_
    refine Ref.seq (ref_call1 hS _ _ hfp (by simp [Kept.at, Kept.returned]; omega)
      (by simp [Kept.at, Kept.returned])) fun _ => ?_
    refine Ref.seq (ref_call1 hS _ _ hfp (by simp [Kept.at, Abs.clob, Kept.returned]; omega)
      (by simp [Kept.at, Abs.clob, Kept.returned])) fun _ => ?_
    refine Ref.seq (ref_call1 hS _ _ hfp (by simp [Kept.at, Abs.clob, Kept.returned]; omega)
      (by simp [Kept.at, Abs.clob, Kept.returned])) fun _ => ?_
    refine Ref.pure (Run.append (run_raiseBack (b := List.replicate 4 none)
      (rest := optWord r.edx ++ optWord r.eax) (by
        simp [Abs.clob, Abs.grow, Kept.returned, Kept.at]) rfl) ((Run.cons (one_pop hS (r := 2) r.edx rfl (by decide)
        (by decide)) (Run.cons (one_pop hS (r := 0) r.eax (rest := []) (by simp) (by decide) (by decide))
        Run.nil)).weaken ?_))
    exact at_le rfl rfl rfl rfl rfl (fun _ h => h) (fun _ h => h)
  · exact Ref.done (Le.refl _)

end

end Verif.Jit32
