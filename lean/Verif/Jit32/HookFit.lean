import Verif.Jit32.HookCode
/-
Lemmas: the instruction writer expresses every instruction of the generated hook function, and how
long the parts are.
-/
namespace Verif.Jit32

open Spec
open Verif.Jit (Byte bytes32 rewrite32)

/-- `fits`, and the loads at fixed offsets. -/
macro "fits'" : tactic => `(tactic|
  (fits <;> exact fits_loads (by decide) (by decide) (by decide) (by decide)))

/-! ## Parameters -/

theorem fit_lower (n : Int) : AllFit (lower n) := by
  unfold lower; split <;> fits

theorem fit_raise (n : Int) : AllFit (raiseBack n) := by
  unfold raiseBack; split <;> fits

theorem fit_copy {place : List Op} (h : AllFit place) (n : Nat) : AllFit (bitwiseCopy place n) := by
  unfold bitwiseCopy
  refine allFit_append (allFit_append (allFit_append (allFit_append ?_ h) ?_) ?_) ?_
  · fits
  · split <;> fits
  · split <;> fits
  · fits

theorem fit_pushBasic {o : Int} (h1 : 16 ≤ o) (h2 : o + 4 < 2 ^ 31) (p : Pass) (c : Nat) :
    AllFit (pushBasic o p c).1 := by
  unfold pushBasic
  split
  · fits
  split
  · fits
  split
  · fits
  split
  · fits
  · fits

theorem fit_pushFloat {o : Int} (h1 : 16 ≤ o) (h2 : o + 4 < 2 ^ 31) (p : Pass) (c : Nat) :
    AllFit (pushFloat o p c).1 := by
  unfold pushFloat
  split
  · fits
  split
  · fits
  · fits

theorem fit_pushObject (o fb : Int) (p : Pass) : AllFit (pushObject o fb p) := by
  unfold pushObject
  refine allFit_append (allFit_append ?_ ?_) ?_
  · split <;> fits
  · split
    · unfold pushCctor
      refine allFit_append (allFit_append ?_ ?_) ?_
      · fits
      · split <;> fits
      · fits
    · unfold pushCopy
      refine fit_copy (allFit_append ?_ ?_) _
      · split <;> fits
      · fits
  · split <;> fits

theorem fit_pushOne {o : Int} (h1 : 16 ≤ o) (h2 : o + 4 < 2 ^ 31) (fb : Int) (p : Pass) (c : Nat)
    (last : Int) : AllFit (pushOne o fb p c last).1 := by
  unfold pushOne
  split
  · split
    · exact fit_pushBasic h1 h2 p c
    split
    · exact fit_pushFloat h1 h2 p c
    split
    · exact fit_pushObject o fb p
    · exact allFit_nil
  split
  · unfold pushRef; fits
  · exact allFit_nil

theorem fit_pushList {fb : Int} {ps : List Pass} : ∀ {o fo : Int} {c : Nat}, 16 ≤ o →
    o + slots ps + 4 < 2 ^ 31 → AllFit (pushList fb o fo ps c).1 := by
  induction ps with
  | nil => intro o fo c _ _; exact allFit_nil
  | cons p ps ih =>
    intro o fo c h1 h2
    rw [slots_cons] at h2
    rw [pushList]
    refine allFit_append (ih (by omega) (by omega)) (fit_pushOne h1 (by omega) _ _ _ _)

theorem len_lower (n : Int) : (lower n).length ≤ 1 := by
  unfold lower; split <;> simp

theorem len_raise (n : Int) : (raiseBack n).length ≤ 1 := by
  unfold raiseBack; split <;> simp

theorem len_copy (place : List Op) (n : Nat) : (bitwiseCopy place n).length ≤ place.length + 9 := by
  unfold bitwiseCopy
  by_cases h1 : n / 4 ≠ 0 <;> by_cases h2 : n % 4 ≠ 0 <;>
    simp only [h1, h2, if_true, if_false, List.length_append, List.length_cons, List.length_nil, not_false_eq_true, ne_eq] <;> omega

theorem len_pushObject (o fb : Int) (p : Pass) : (pushObject o fb p).length ≤ 16 := by
  have h1 : (if p.has flagForced then [] else [Op.subImmAuto esp (i32 (stackSize p)) 3]).length ≤ 1 := by
    split <;> simp
  have h2 : (if p.has flagForced then [Op.leaAuto ecx ebp (i32 fb), .push ecx] else []).length ≤ 2 := by
    split <;> simp
  have h3 : (pushCctor o fb p).length ≤ 9 := by
    unfold pushCctor
    split <;> simp
  have h4 : (pushCopy o fb p).length ≤ 11 := by
    unfold pushCopy
    refine Nat.le_trans (len_copy _ _) ?_
    split <;> simp
  have h5 : (if p.cctor ≠ 0 then pushCctor o fb p else pushCopy o fb p).length ≤ 11 := by
    split <;> omega
  unfold pushObject
  rw [List.length_append, List.length_append]
  omega

theorem len_pushOne (o fb : Int) (p : Pass) (c : Nat) (last : Int) :
    (pushOne o fb p c last).1.length ≤ 16 := by
  unfold pushOne
  split
  · split
    · unfold pushBasic
      split; · simp
      split; · simp
      split; · simp
      split <;> simp
    split
    · unfold pushFloat
      split; · simp
      split <;> simp
    split
    · exact len_pushObject o fb p
    · simp
  split
  · simp [pushRef]
  · simp

theorem len_pushList {fb : Int} {ps : List Pass} : ∀ {o fo : Int} {c : Nat},
    (pushList fb o fo ps c).1.length ≤ 16 * ps.length := by
  induction ps with
  | nil => intro o fo c; exact Nat.le_refl _
  | cons p ps ih =>
    intro o fo c
    rw [pushList]
    have h1 := ih (o := o + stackSize p) (fo := fbrrStep fo p) (c := c)
    simp only [List.length_append, List.length_cons]
    refine Nat.le_trans (Nat.add_le_add h1 (len_pushOne _ _ _ _ _)) ?_
    omega

/-! ## The pieces -/

theorem fit_call1 (f : W) (v : Int) : AllFit (call1 f v) := by
  unfold call1; fits

theorem fit_assign (g : Gen) {l : List Op} (h : AllFit l) : AllFit (assignOps g l) := by
  unfold assignOps
  refine allFit_append (fit_lower _) (allFit_append (allFit_append h ?_) (fit_raise _))
  fits

theorem fit_pushMemRet (g : Gen) (v : Int) : AllFit (pushMemRet g v) := by
  unfold pushMemRet; split <;> fits

theorem fit_saveTemp (g : Gen) (v : Int) : AllFit (saveTemp g v) := by
  unfold saveTemp
  refine allFit_append ?_ ?_
  · split
    · exact fit_assign g (by fits)
    · exact fit_copy (by fits) _
  · split
    · exact allFit_append (allFit_append (fit_lower _) (fit_call1 _ _)) (fit_raise _)
    · exact allFit_nil

theorem fit_saveRegs (n : Nat) (v : Int) : AllFit (saveRegs n v) := by
  unfold saveRegs
  split
  · fits
  split <;> fits

theorem fit_saveValue (g : Gen) {v : Int} (h : realSize g.ret ≤ 8 → -128 < v ∧ v < 127) :
    AllFit (saveValue g v) := by
  unfold saveValue
  split
  · split
    · have := h (by omega); fits
    split
    · have := h (by omega); fits
    · fits
  split
  · exact fit_saveRegs _ _
  split
  · exact fit_saveRegs _ _
  · fits

theorem fit_saveRet (g : Gen) {v : Int} (h : realSize g.ret ≠ 0 → realSize g.ret ≤ 8 → -128 < v ∧ v < 127) :
    AllFit (saveRet g v) := by
  unfold saveRet
  split
  · fits
  rename_i h0
  split
  · fits
  split
  · split
    · exact allFit_append (fit_saveTemp g v) (fit_saveValue g (h h0))
    · fits
  · exact fit_saveValue g (h h0)

theorem var_bounds {g : Gen} (hg : RetOk g.ret) (h0 : realSize g.ret ≠ 0) (h8 : realSize g.ret ≤ 8) :
    (-128 < (frame g).orig ∧ (frame g).orig < 0) ∧ (-128 < (frame g).override ∧ (frame g).override < 0)
      ∧ (-128 < (frame g).plugin ∧ (frame g).plugin < 0) := by
  have hs : g.ret.size ≠ 0 := by
    intro hz
    rw [realSize_eq hg (hg.void hz).1] at h0
    exact h0 hz
  have hc : stackSize g.ret ≤ 8 := by
    unfold stackSize align4
    split <;> omega
  refine ⟨?_, ?_, ?_⟩
  · show -128 < (if g.ret.size ≠ 0 then -28 - (stackSize g.ret : Int) else 0)
      ∧ (if g.ret.size ≠ 0 then -28 - (stackSize g.ret : Int) else 0) < 0
    rw [if_pos hs]; omega
  · show -128 < (if g.ret.size ≠ 0 then -28 - 2 * (stackSize g.ret : Int) else 0)
      ∧ (if g.ret.size ≠ 0 then -28 - 2 * (stackSize g.ret : Int) else 0) < 0
    rw [if_pos hs]; omega
  · show -128 < (if g.ret.size ≠ 0 then -28 - 3 * (stackSize g.ret : Int) else 0)
      ∧ (if g.ret.size ≠ 0 then -28 - 3 * (stackSize g.ret : Int) else 0) < 0
    rw [if_pos hs]; omega

theorem ref_bounds {g : Gen} (hg : RetOk g.ret) (h : g.ret.has Verif.Jit.flagByRef = true) :
    (-128 < (frame g).orig ∧ (frame g).orig < 0) ∧ (-128 < (frame g).override ∧ (frame g).override < 0)
      ∧ (-128 < (frame g).plugin ∧ (frame g).plugin < 0) := by
  have hr : realSize g.ret = 4 := by
    rw [realSize, has_ref]
    rw [has_byRef] at h
    rw [h]; rfl
  exact var_bounds hg (by omega) (by omega)

theorem fit_storeOverride {g : Gen} (hg : RetOk g.ret) : AllFit (storeOverride g) := by
  unfold storeOverride
  split
  · have := (ref_bounds hg (by assumption)).2.2
    fits
  split
  · exact fit_assign g (by fits)
  · exact fit_copy (by fits) _

theorem fit_getOverride : AllFit getOverride := by
  unfold getOverride; fits'

theorem fit_origElse {g : Gen} (hg : RetOk g.ret) : AllFit (Jit32.origElse g) := by
  unfold Jit32.origElse
  split
  · have := (ref_bounds hg (by assumption)).2.1
    fits
  split
  · exact fit_assign g (by fits)
  · exact fit_copy (by fits) _

theorem vThis_bounds (g : Gen) : 12 ≤ g.vThis ∧ g.vThis ≤ 16 := by
  unfold Gen.vThis; split <;> omega

theorem base_bounds (g : Gen) : 16 ≤ g.base ∧ g.base ≤ 20 := by
  unfold Gen.base; split <;> omega

theorem fit_pushParams {g : Gen} (hs : slots g.params < 32768) (c : Nat) : AllFit (pushParams g c).1 := by
  unfold pushParams
  have := base_bounds g
  exact fit_pushList (by omega) (by omega)

theorem fit_hookCall {g : Gen} (hp : ∀ p ∈ g.params, PassOk p) (hg : RetOk g.ret)
    (hs : slots g.params < 32768) (c : Nat) : AllFit (hookCall g (pushParams g c)) := by
  unfold hookCall
  rw [destroyParams_nil hp]
  refine allFit_append (allFit_append (allFit_append (allFit_append (allFit_append (allFit_append
    (allFit_append (allFit_append (allFit_append (allFit_append ?_ (fit_lower _)) ?_)
    (fit_pushParams hs c)) ?_) (fit_pushMemRet _ _)) ?_) (fit_raise _)) ?_) allFit_nil)
    (fit_saveRet g fun h0 h8 => ?_)
  · fits
  · split <;> fits
  · fits
  · fits
  · fits
  · have := (var_bounds hg h0 h8).2.2
    omega

theorem fit_origCall {g : Gen} (hp : ∀ p ∈ g.params, PassOk p) (hg : RetOk g.ret)
    (hs : slots g.params < 32768) (c : Nat) : AllFit (origCall g (pushParams g c)) := by
  unfold origCall
  rw [destroyParams_nil hp]
  have := vThis_bounds g
  refine allFit_append (allFit_append (allFit_append (allFit_append (allFit_append (allFit_append
    (allFit_append (allFit_append (allFit_append (fit_lower _) ?_)
    (fit_pushParams hs c)) ?_) (fit_pushMemRet _ _)) ?_) (fit_raise _)) ?_) allFit_nil)
    (fit_saveRet g fun h0 h8 => ?_)
  · split <;> fits
  · fits
  · fits'
  · fits
  · have := (var_bounds hg h0 h8).1
    omega

theorem fit_loop {g : Gen} (hp : ∀ p ∈ g.params, PassOk p) (hg : RetOk g.ret)
    (hs : slots g.params < 32768) (c : Nat) : AllFit (loopOps g c) := by
  unfold loopOps whileOps
  refine allFit_append (by fits') (allFit_cons (by exact Or.inl rfl) (allFit_cons trivial (allFit_append ?_ (by fits))))
  unfold bodyOps
  refine allFit_append (fit_hookCall hp hg hs c) (allFit_append (by unfold statusOps; fits') ?_)
  unfold overrideOps
  split
  · fits
  · exact allFit_append (by fits') (allFit_append fit_getOverride (fit_storeOverride hg))

theorem fit_orig {g : Gen} (hp : ∀ p ∈ g.params, PassOk p) (hg : RetOk g.ret)
    (hs : slots g.params < 32768) (c : Nat) : AllFit (origOps g c) := by
  unfold origOps condOps
  have h := fit_origCall hp hg hs c
  have h' := fit_origElse hg
  refine allFit_cons (fits_loads (by decide) (by decide) (by decide) (by decide))
    (allFit_cons (Or.inl rfl) (allFit_cons trivial (allFit_append (by fits')
    (allFit_cons (Or.inl rfl) (allFit_cons trivial (allFit_append h (allFit_cons trivial h')))))))

theorem fit_loops {g : Gen} (hp : ∀ p ∈ g.params, PassOk p) (hg : RetOk g.ret)
    (hs : slots g.params < 32768) : AllFit (loopsOps g) := by
  unfold loopsOps
  have e : (Op.movD8Imm ebp 0 (i8 vPrev)).Fits := by show (_ : Reg) ≠ (4 : Reg); decide
  exact allFit_append (allFit_cons e (fit_loop hp hg hs _)) (allFit_append (fit_orig hp hg hs _)
    (allFit_cons e (fit_loop hp hg hs _)))

theorem fit_setup {g : Gen} (ht : -128 ≤ g.vtblOffs ∧ g.vtblOffs < 2 ^ 31) : AllFit (setupOps g) := by
  unfold setupOps
  have := vThis_bounds g
  refine allFit_append ?_ ?_
  · split <;> fits
  · fits

theorem fit_first {g : Gen} (ht : -128 ≤ g.vtblOffs ∧ g.vtblOffs < 2 ^ 31) : AllFit (firstOps g) := by
  unfold firstOps
  refine allFit_append (allFit_cons (by show (_ : Reg) ≠ (4 : Reg); decide) (allFit_append ?_ ?_))
    (allFit_append ?_ (fit_setup ht))
  · unfold vaStart; split <;> fits
  · unfold vaFormat
    split
    · refine allFit_append (allFit_append (allFit_append (fit_lower _) (by fits)) (fit_raise _)) (by fits)
    · fits
  · unfold constructOps
    split
    · exact allFit_append (fit_lower _) (allFit_append (fit_call1 _ _) (allFit_append (fit_call1 _ _)
        (allFit_append (fit_call1 _ _) (fit_raise _))))
    · fits

theorem dropParams_nil {ps : List Pass} (hp : ∀ p ∈ ps, PassOk p) : ∀ o, dropParams o ps = [] := by
  induction ps with
  | nil => intro o; rfl
  | cons p ps ih =>
    intro o
    have h := hp p List.mem_cons_self
    rw [dropParams, ih (fun q hq => hp q (List.mem_cons_of_mem _ hq)), if_neg, List.nil_append]
    rintro ⟨ht, hd, hv, -⟩
    rw [has_byVal] at hv
    rw [has_dtor] at hd
    have ht' : p.type = 3 := ht
    rcases h.value hv with h' | h' | h'
    · omega
    · omega
    · rw [h'.2.2] at hd; exact absurd hd (by decide)

theorem retPtr_cases (g : Gen) : (g.ret.size = 0 ∧ (frame g).retPtr = 0)
    ∨ (g.ret.size ≠ 0 ∧ (frame g).retPtr = -28) := by
  by_cases h : g.ret.size = 0
  · exact Or.inl ⟨h, if_neg (fun hn => hn h)⟩
  · exact Or.inr ⟨h, if_pos h⟩

theorem fit_doReturn (g : Gen) : AllFit (Jit32.doReturn g) := by
  unfold Jit32.doReturn
  split
  · fits
  rename_i h0
  have hr : (frame g).retPtr = -28 := if_pos h0
  split
  · fits
  · refine allFit_append (allFit_append (by fits) ?_) ?_
    · unfold loadValue
      split
      · split
        · exact allFit_cons ⟨by decide, by decide⟩ allFit_nil
        split
        · exact allFit_cons ⟨by decide, by decide⟩ allFit_nil
        · fits
      split
      · split
        · fits
        split <;> fits
      · fits
    · unfold Jit32.returnMem
      split
      · refine allFit_append ?_ (by fits)
        split
        · exact allFit_append (fit_lower _) (allFit_append (by fits) (fit_raise _))
        · exact fit_copy (by fits) _
      · fits

theorem fit_last {g : Gen} (hp : ∀ p ∈ g.params, PassOk p) : AllFit (lastOps g) := by
  unfold lastOps
  rw [dropParams_nil hp]
  refine allFit_append ?_ (allFit_append ?_ (allFit_append (allFit_append (fit_lower _)
    (allFit_append allFit_nil (fit_raise _))) (allFit_append (fit_doReturn g) ?_)))
  · unfold prepareReturn
    split
    · fits
    · rcases retPtr_cases g with h | h <;> fits'
  · unfold endContextOps; fits'
  · unfold destroyRetOps
    split
    · exact allFit_append (by fits) (allFit_append (fit_lower _) (allFit_append (fit_call1 _ _)
        (allFit_append (fit_call1 _ _) (allFit_append (fit_call1 _ _)
          (allFit_append (fit_raise _) (by fits))))))
    · fits

theorem fit_epilogue (g : Gen) : AllFit (epilogue g) := by
  unfold epilogue
  refine allFit_append (by fits) ?_
  split <;> fits

theorem fit_hook {g : Gen} (hp : ∀ p ∈ g.params, PassOk p) (hg : RetOk g.ret)
    (hs : slots g.params < 32768) (ht : -128 ≤ g.vtblOffs ∧ g.vtblOffs < 2 ^ 31) : AllFit (hookOps g) := by
  unfold hookOps
  refine allFit_append (by unfold enterOps; fits) (allFit_append (allFit_append (fit_first ht)
    (allFit_append (fit_loops hp hg hs) (fit_last hp))) (fit_epilogue g))

/-! ## Sizes -/

theorem len_assign (g : Gen) (l : List Op) : (assignOps g l).length ≤ l.length + 5 := by
  unfold assignOps
  have h1 := len_lower (alignBytes 0 8)
  have h2 := len_raise (alignBytes 0 8)
  simp only [List.length_append, List.length_cons, List.length_nil]
  omega

theorem len_saveTemp (g : Gen) (v : Int) : (saveTemp g v).length ≤ 18 := by
  unfold saveTemp
  have h1 := len_lower (alignBytes 0 4)
  have h2 := len_raise (alignBytes 0 4)
  rw [List.length_append]
  have ha : (if g.ret.assign ≠ 0 then
      assignOps g [.leaAuto edx ebp (i32 (frame g).temp), .leaAuto ecx ebp (i32 v), .push edx, .push ecx]
    else bitwiseCopy [.leaAuto edi ebp (i32 v), .leaAuto esi ebp (i32 (frame g).temp)] g.ret.size).length
      ≤ 11 := by
    split
    · exact Nat.le_trans (len_assign _ _) (by simp)
    · exact Nat.le_trans (len_copy _ _) (by simp)
  have hb : (if g.ret.dtor ≠ 0 then
      lower (alignBytes 0 4) ++ call1 g.ret.dtor (frame g).temp ++ raiseBack (alignBytes 0 4)
    else []).length ≤ 7 := by
    split
    · simp only [call1, List.length_append, List.length_cons, List.length_nil]; omega
    · simp
  omega

theorem len_saveRegs (n : Nat) (v : Int) : (saveRegs n v).length ≤ 2 := by
  unfold saveRegs
  split
  · simp
  split <;> simp

theorem len_saveValue (g : Gen) (v : Int) : (saveValue g v).length ≤ 2 := by
  unfold saveValue
  split
  · split
    · simp
    split <;> simp
  split
  · exact len_saveRegs _ _
  split
  · exact len_saveRegs _ _
  · simp

theorem len_saveRet (g : Gen) (v : Int) : (saveRet g v).length ≤ 20 := by
  unfold saveRet
  have h1 := len_saveTemp g v
  have h2 := len_saveValue g v
  split
  · simp
  split
  · simp
  split
  · split
    · rw [List.length_append]; omega
    · simp
  · omega

theorem len_pushMemRet (g : Gen) (v : Int) : (pushMemRet g v).length ≤ 2 := by
  unfold pushMemRet; split <;> simp

theorem len_hookCall {g : Gen} (hp : ∀ p ∈ g.params, PassOk p) (c : Nat) :
    (hookCall g (pushParams g c)).length ≤ 16 * g.params.length + 40 := by
  unfold hookCall
  rw [destroyParams_nil hp]
  have h1 := len_lower (hookAlign g)
  have h2 := len_raise (hookAlign g)
  have h3 := len_pushMemRet g (frame g).plugin
  have h4 := len_saveRet g (frame g).plugin
  have h5 : (pushParams g c).1.length ≤ 16 * g.params.length := len_pushList
  have h6 : (if g.vafmt then [Op.leaAuto ecx ebp (i32 (frame g).vaBuf), .push ecx] else []).length ≤ 2 := by
    split <;> simp
  simp only [List.length_append, List.length_cons, List.length_nil]
  omega

theorem len_origCall {g : Gen} (hp : ∀ p ∈ g.params, PassOk p) (c : Nat) :
    (origCall g (pushParams g c)).length ≤ 16 * g.params.length + 40 := by
  unfold origCall
  rw [destroyParams_nil hp]
  have h1 := len_lower (origAlign g)
  have h2 := len_raise (origAlign g)
  have h3 := len_pushMemRet g (frame g).orig
  have h4 := len_saveRet g (frame g).orig
  have h5 : (pushParams g c).1.length ≤ 16 * g.params.length := len_pushList
  have h6 : (if g.vafmt then [Op.leaAuto ecx ebp (i32 (frame g).vaBuf), .push ecx, .pushImm32 g.fmtS]
      else []).length ≤ 3 := by
    split <;> simp
  simp only [List.length_append, List.length_cons, List.length_nil]
  omega

theorem len_storeOverride (g : Gen) : (storeOverride g).length ≤ 11 := by
  unfold storeOverride
  split
  · simp
  split
  · exact Nat.le_trans (len_assign _ _) (by simp)
  · exact Nat.le_trans (len_copy _ _) (by simp)

theorem len_origElse (g : Gen) : (Jit32.origElse g).length ≤ 11 := by
  unfold Jit32.origElse
  split
  · simp
  split
  · exact Nat.le_trans (len_assign _ _) (by simp)
  · exact Nat.le_trans (len_copy _ _) (by simp)

theorem size_origElse (g : Gen) : size (Jit32.origElse g) < 2 ^ 30 := by
  have h1 := len_origElse g
  have h2 := size_le (Jit32.origElse g)
  omega

theorem size_origCall {g : Gen} (hp : ∀ p ∈ g.params, PassOk p) (hn : g.params.length < 2 ^ 16) (c : Nat) :
    size (origCall g (pushParams g c)) < 2 ^ 30 := by
  have h1 := len_origCall hp c
  have h2 := size_le (origCall g (pushParams g c))
  omega

theorem size_body {g : Gen} (hp : ∀ p ∈ g.params, PassOk p) (hn : g.params.length < 2 ^ 16) (c : Nat) :
    size (bodyOps g c) < 2 ^ 30 := by
  have h1 := len_hookCall hp c
  have h2 := size_le (bodyOps g c)
  have h3 := len_storeOverride g
  have h4 : (overrideOps g).length ≤ 20 := by
    unfold overrideOps
    split
    · simp
    · simp only [getOverride, List.length_append, List.length_cons, List.length_nil]; omega
  have h5 : (bodyOps g c).length = (hookCall g (pushParams g c)).length + (6 + (overrideOps g).length) := by
    unfold bodyOps
    rw [List.length_append, List.length_append]; rfl
  omega

theorem len_autoLoad (r rm : Reg) (d : W) : (Op.movRegAuto r rm d).bytes.length ≤ 6 := by
  have e : (Op.movRegAuto r rm d).bytes = if d = 0 then [Verif.Jit.byte 0x8B, mrm 0 r rm]
    else if d.toInt ≤ 127 then Verif.Jit.byte 0x8B :: m8 r rm (lo8 d)
    else Verif.Jit.byte 0x8B :: m32 r rm d := rfl
  rw [e]
  split
  · exact Nat.le_of_ble_eq_true rfl
  split <;> exact Nat.le_of_ble_eq_true rfl

theorem len_leaAuto (r rm : Reg) (d : W) : (Op.leaAuto r rm d).bytes.length ≤ 6 := by
  have e : (Op.leaAuto r rm d).bytes = if fits8 d then Verif.Jit.byte 0x8D :: m8 r rm (lo8 d)
    else Verif.Jit.byte 0x8D :: m32 r rm d := rfl
  rw [e]
  split <;> exact Nat.le_of_ble_eq_true rfl

theorem size_copy {place : List Op} (n : Nat) : size (bitwiseCopy place n) ≤ size place + 19 := by
  unfold bitwiseCopy
  have h1 : size [.cld, .push edi, .push esi] = 3 := rfl
  have h2 : size [.pop esi, .pop edi] = 2 := rfl
  have h3 : size (if n / 4 ≠ 0 then [.movImm ecx (i32 (n / 4 : Nat)), .repMovsd] else []) ≤ 7 := by
    split <;> exact Nat.le_of_ble_eq_true rfl
  have h4 : size (if n % 4 ≠ 0 then [.movImm ecx (i32 (n % 4 : Nat)), .repMovsb] else []) ≤ 7 := by
    split <;> exact Nat.le_of_ble_eq_true rfl
  rw [size_append, size_append, size_append, size_append]
  omega

theorem size_store (g : Gen) : size (getOverride ++ storeOverride g) < 128 := by
  have h1 : size getOverride = 12 := rfl
  have h2 := len_leaAuto edx ebp (i32 (frame g).plugin)
  have h3 := len_leaAuto esi ebp (i32 (frame g).plugin)
  have h4 := len_autoLoad ecx ebp (i32 (frame g).plugin)
  have h5 : size (lower (alignBytes 0 8)) = 3 := rfl
  have h6 : size (raiseBack (alignBytes 0 8)) = 3 := rfl
  rw [size_append, h1]
  unfold storeOverride
  split
  · have : size [.movRegAuto ecx ebp (i32 (frame g).plugin), .movRmReg eax ecx 0]
        = (Op.movRegAuto ecx ebp (i32 (frame g).plugin)).bytes.length + 2 := by
      rw [size_cons]; rfl
    omega
  split
  · unfold assignOps
    rw [size_append, size_append, size_append, h5, h6]
    have e1 : size [.leaAuto edx ebp (i32 (frame g).plugin), .push edx, .push eax]
        = (Op.leaAuto edx ebp (i32 (frame g).plugin)).bytes.length + 2 := by
      rw [size_cons]; rfl
    have e2 : size [.movImm eax g.ret.assign, .call eax, .addImmAuto esp (i32 8) 3] = 10 := rfl
    omega
  · have e1 : size [.movRegRm edi eax 3, .leaAuto esi ebp (i32 (frame g).plugin)]
        = 2 + ((Op.leaAuto esi ebp (i32 (frame g).plugin)).bytes.length + 0) := by
      rw [size_cons, size_cons]; rfl
    have := size_copy (place := [.movRegRm edi eax 3, .leaAuto esi ebp (i32 (frame g).plugin)]) g.ret.size
    omega

end Verif.Jit32
