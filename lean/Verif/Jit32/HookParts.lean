import Verif.Jit32.HookPush
/-
Helper lemmas for C76: the pieces of the generated hook function without the loop.
-/
namespace Verif.Jit32

open Verif.Jit (Byte flagByVal flagByRef flagODtor flagOCtor flagAssignOp flagCCtor flagRetMem flagRetReg
  typeBasic typeFloat typeObject)
open Spec

variable {U : Fpu}

/-! ## More ways to put code together -/

section
variable {α β : Type} {E : Env} {S : Stack} {code : List Byte} {A A₁ : Abs U} {x : M U α}
  {o : Op} {ops : List Op}

theorem Ref.cons {B : α → Abs U} (h : One E S A o A₁) (h' : Ref E S code ops A₁ x B) :
    Ref E S code (o :: ops) A x B := Ref.pre (Run.single h) h'

theorem Ref.bind {B : α → Abs U} {f : α → M U β} {C : β → Abs U} (h : Ref E S code [o] A x B)
    (h' : ∀ r, Ref E S code ops (B r) (f r) C) : Ref E S code (o :: ops) A (x >>= f) C :=
  Ref.seq h h'

theorem Ref.last {B C : α → Abs U} (h : Ref E S code [o] A x B)
    (h' : ∀ r, Run E S (B r) ops (C r)) : Ref E S code (o :: ops) A x C :=
  Ref.post h h'

/-- A program whose result is not used. -/
theorem Ref.drop {B : Abs U} (h : Ref E S code ops A x (fun _ => B)) :
    Ref E S code ops A (x >>= fun _ => Pure.pure ()) (fun _ : Unit => B) :=
  Ref.map (f := fun _ => ()) h

theorem Run.le {A' : Abs U} (h : Run E S A₁ ops A') (hl : Le A A₁) : Run E S A ops A' :=
  fun m s hs => h m s (hs.weaken hl)

end

/-! ## Between the pieces -/

/-- No counterpart in /repo: what stays the same: ESI, EDI and the private words. -/
structure Kept where
  si : W
  di : W
  loc : Int → W

/-- No counterpart in /repo: the state between two pieces, with what is known of EAX, EDX and the
floating point stack. -/
def Kept.at (K : Kept) (a d : Option W) (f : List U.F) : Abs U where
  reg r := if r = 0 then a else if r = 2 then d else if r = 6 then some K.si
    else if r = 7 then some K.di else none
  fp := f
  stk := []
  loc := K.loc

/-- No counterpart in /repo: nothing is known of EAX and EDX. -/
abbrev Kept.idle (K : Kept) : Abs U := K.at none none []

theorem at_le {K : Kept} {A : Abs U} {a d : Option W} {f : List U.F} (h6 : A.reg 6 = some K.si)
    (h7 : A.reg 7 = some K.di) (hs : A.stk = []) (hl : A.loc = K.loc)
    (hf : A.fp = f := by rfl) (ha : ∀ v, a = some v → A.reg 0 = some v := by exact fun _ h => h)
    (hd : ∀ v, d = some v → A.reg 2 = some v := by exact fun _ h => nomatch h) :
    Le A (K.at a d f) := by
  refine Le.of ?_ hf.symm hs.symm hl.symm
  intro r v hv
  simp only [Kept.at] at hv
  split at hv
  · rename_i e; subst e; exact ha v hv
  · split at hv
    · rename_i e; subst e; exact hd v hv
    · split at hv
      · rename_i e; subst e; rw [h6]; exact hv
      · split at hv
        · rename_i e; subst e; rw [h7]; exact hv
        · cases hv

theorem idle_le {K : Kept} {A : Abs U} (h6 : A.reg 6 = some K.si)
    (h7 : A.reg 7 = some K.di) (hs : A.stk = []) (hl : A.loc = K.loc) (hf : A.fp = []) :
    Le A K.idle := at_le h6 h7 hs hl hf (fun _ h => nomatch h) (fun _ h => nomatch h)

/-- No counterpart in /repo: the registers a called function need not preserve are forgotten. -/
def Abs.clob (A : Abs U) : Abs U :=
  { A with reg := fun r => if preserved r then A.reg r else none }

theorem clob_le {A A' : Abs U} (hr : ∀ r, preserved r = true → A'.reg r = A.reg r) (hf : A.fp = A'.fp)
    (hs : A.stk = A'.stk) (hl : A.loc = A'.loc) : Le A' A.clob := by
  refine Le.of ?_ hf hs hl
  intro r v hv
  simp only [Abs.clob] at hv
  split at hv
  · rename_i h; rw [hr r h]; exact hv
  · cases hv

theorem slot_ctx {S : Stack} : S.slot vCtx :=
  ⟨by decide, (priv_iff _ _).2 (Or.inr (Or.inl ⟨by decide, by decide⟩))⟩

section
variable {E : Env} {S : Stack} {code : List Byte} {A : Abs U} {K : Kept} (hS : StackOk E S)
include hS

/-! ## Calls -/

theorem ref_call1 (f : W) (v : Int) (hfp : A.fp = []) (hr : A.stk.length + 8 ≤ S.depth)
    (hal : (A.stk.length + 4) % 16 = 0) :
    Ref E S code (call1 f v) A (callF (world E S) plain true f (word (off S.F v)))
      (fun _ => A.clob) := by
  refine Ref.cons (one_lea 1 v (by decide) (by decide)) (Ref.cons (one_push hS 1 (by simp; omega))
    (Ref.cons (one_movImm 0 f (by decide) (by decide)) (Ref.last
      (ref_call hS 0 plain true (args := word (off S.F v)) (rest := A.stk) rfl hfp rfl (fun h => nomatch h)
        (by simp; omega) (fun _ => by simp; omega)) fun a => ?_)))
  refine (Run.single (one_pop hS (r := 1) none (rest := A.stk) rfl (by decide) (by decide))).weaken
    (clob_le ?_ hfp rfl rfl)
  intro r hr
  rcases preserved_cases r hr with h | h | h | h <;> subst h <;> rfl

/-- `ptrs` pushes two pointers. -/
theorem ref_assign (g : Gen) {ptrs : List Op} {x y : W} {B : Abs U} {a d : Option W} {f : List U.F}
    (hd : 128 ≤ S.depth)
    (hrun : Run E S ((K.at a d f).grow (List.replicate 8 none)) ptrs B)
    (h6 : B.reg 6 = some K.si) (h7 : B.reg 7 = some K.di) (hl : B.loc = K.loc) (hf : B.fp = [])
    (hs : B.stk = (word x ++ word y) ++ List.replicate 8 none) :
    Ref E S code (assignOps g ptrs) (K.at a d f)
      (callF (world E S) plain true g.ret.assign (word x ++ word y)) (fun _ => K.idle) := by
  have e : alignBytes 0 8 = ((8 : Nat) : Int) := by decide
  unfold assignOps
  rw [e]
  refine Ref.pre (run_lower hS 8 (by simp [Kept.at]; omega)) ?_
  have hlen : B.stk.length = 16 := by rw [hs]; simp
  rw [List.append_assoc]
  refine Ref.pre hrun ?_
  refine Ref.cons (one_movImm 0 _ (by decide) (by decide)) ?_
  refine Ref.last (ref_call hS 0 plain true (args := word x ++ word y)
    (rest := List.replicate 8 none) rfl hf hs (fun h => nomatch h)
    (by simp [hlen]; omega) (fun _ => by simp [hlen])) fun a => ?_
  refine Run.cons (one_raise (n := 8) (b := List.replicate 8 none) (rest := List.replicate 8 none)
    rfl rfl) ?_
  refine (run_raiseBack (b := List.replicate 8 none) (rest := []) rfl rfl).weaken ?_
  exact idle_le h6 h7 rfl hl rfl

theorem ref_virt (hd : 128 ≤ S.depth) (X : Op) (idx : Nat)
    (hX : ∀ (A : Abs U) vt, A.reg 0 = some vt →
      Ref E S code [X] A (load (world E S) (vt + BitVec.ofNat 32 (4 * idx)))
        (fun v => A.set 0 (some v))) :
    Ref E S code [.movRegAuto ecx ebp (i32 vCtx), .push ecx, .movRegRm eax ecx 0, X, .call eax, .pop ecx]
      (K.idle : Abs U) (virt (world E S) (K.loc vCtx) idx)
      (fun a => K.at (some (a.reg 0)) none []) := by
  have hc : S.slot vCtx := slot_ctx
  unfold virt
  refine Ref.cons (one_loadSlot hS 1 vCtx hc (by decide) (by decide)) (Ref.cons
    (one_push hS 1 (by simp [Kept.at]; omega)) (Ref.bind (ref_loadBase 0 1 (a := K.loc vCtx) rfl
      (by decide) (by decide)) fun vt => Ref.bind (hX _ vt rfl) fun f => Ref.last
        (ref_call hS 0 plain false (args := word (K.loc vCtx)) (rest := []) rfl rfl rfl
          (fun h => nomatch h) (by simp [Kept.at]; omega) (fun h => nomatch h)) fun a => ?_))
  refine (Run.single (one_pop hS (r := 1) none (rest := []) rfl (by decide) (by decide))).weaken ?_
  exact at_le rfl rfl rfl rfl

theorem ref_getOverride (hd : 128 ≤ S.depth) :
    Ref E S code getOverride (K.idle : Abs U) (virt (world E S) (K.loc vCtx) 1)
      (fun a => K.at (some (a.reg 0)) none []) :=
  ref_virt hS hd _ 1 fun _ _ h => ref_load 0 0 4 h (by decide) (by decide)

theorem ref_origAsk (hd : 128 ≤ S.depth) :
    Ref E S code [.movRegAuto ecx ebp (i32 vCtx), .push ecx, .movRegRm eax ecx 0,
      .movRegD8 eax eax (i8 12), .call eax, .pop ecx]
      (K.idle : Abs U) (virt (world E S) (K.loc vCtx) 3)
      (fun a => K.at (some (a.reg 0)) none []) :=
  ref_virt hS hd _ 3 fun _ _ h => ref_load8 0 0 12 (by decide) h (by decide) (by decide)

theorem ref_loopHead (hd : 128 ≤ S.depth) :
    Ref E S code [.movRegAuto ecx ebp (i32 vCtx), .push ecx, .movRegRm eax ecx 0,
      .movRegRm eax eax 0, .call eax, .pop ecx]
      (K.idle : Abs U) (virt (world E S) (K.loc vCtx) 0)
      (fun a => K.at (some (a.reg 0)) none []) :=
  ref_virt hS hd _ 0 fun _ vt h => by
    have := ref_loadBase (E := E) (S := S) (code := code) 0 0 h (by decide) (by decide)
    simpa using this

/-! ## The start of the function -/

/-- Specification: the addresses of the variables. -/
def varsAt (g : Gen) (S : Stack) : Vars where
  entry := off S.F vEntry
  status := off S.F vStatus
  prev := off S.F vPrev
  cur := off S.F vCur
  orig := off S.F (frame g).orig
  override := off S.F (frame g).override
  plugin := off S.F (frame g).plugin
  temp := off S.F (frame g).temp
  vaArg := off S.F (frame g).vaArg
  vaBuf := off S.F (frame g).vaBuf

theorem ref_start (g : Gen) (hd : 128 ≤ S.depth) (hva : g.varArgs = g.vafmt)
    (ht : totalSize g.params = slots g.params) :
    Ref E S code (.movD8Imm ebp 0 (i8 vStatus) :: (vaStart g ++ vaFormat g)) (K.idle : Abs U)
      (start (world E S) (varsAt g S) g (off S.F (g.base + slots g.params))) (fun _ => K.idle) := by
  unfold start vaStart vaFormat
  rw [hva, ht]
  refine Ref.bind (ref_saveImm hS 0 vStatus (by decide)) fun _ => ?_
  cases hv : g.vafmt with
  | false => 
    simp only [when', if_false, Bool.false_eq_true, List.append_nil]
    exact Ref.seq (a := []) (b := []) (Ref.done (B := fun _ => K.idle) (Le.refl _)) fun _ =>
      Ref.done (Le.refl _)
  | true =>
    simp only [when', if_true, List.cons_append, List.nil_append, off_add4]
    refine Ref.cons (one_lea 0 _ (by decide) (by decide)) (Ref.bind (ref_saveVar hS 0 _ rfl) fun _ => ?_)
    have e : alignBytes 0 16 = ((0 : Nat) : Int) := by decide
    rw [e, List.append_assoc, List.append_assoc]
    refine Ref.pre (run_lower hS 0 (by simp [Kept.at]; omega)) ?_
    simp only [List.cons_append, List.nil_append]
    refine Ref.cons (one_push hS 0 (by simp [Kept.at]; omega)) (Ref.bind
      (ref_pushVar hS _ (by simp [Kept.at]; omega)) fun f => ?_)
    refine Ref.cons (one_pushImm hS _ (by simp [Kept.at]; omega)) (Ref.cons
      (one_lea 1 _ (by decide) (by decide)) (Ref.cons (one_push hS 1 (by simp [Kept.at]; omega))
        (Ref.cons (one_movImm 0 g.vsn (by decide) (by decide)) (Ref.bind
          (ref_call hS 0 plain true (args := word (off S.F (frame g).vaBuf) ++ word 4095 ++ word f
            ++ word (off S.F (g.base + slots g.params + 4))) (rest := []) rfl rfl rfl
            (fun h => nomatch h) (by simp [Kept.at]; omega) (fun _ => by simp [Kept.at])) fun a => ?_))))
    refine Ref.cons (one_raise32 (n := 16) (b := List.replicate 16 none) (rest := []) rfl rfl) ?_
    refine Ref.pre (run_raiseBack (b := []) (rest := []) rfl rfl) ?_
    refine Ref.cons (one_xor 2 (by decide) (by decide)) ?_
    have e2 : (varsAt g S).vaBuf + 4095 = off S.F ((frame g).vaBuf + strbufLen - 1) := by
      show off S.F (frame g).vaBuf + BitVec.ofNat 32 4095 = _
      rw [off_bytes]
      congr 1
      show (frame g).vaBuf + 4095 = (frame g).vaBuf + ((4096 : Nat) : Int) - 1
      omega
    rw [e2]
    refine (ref_saveByte hS _ (v := 0) rfl).weaken fun _ => idle_le rfl rfl rfl rfl rfl

theorem ref_construct (g : Gen) (hd : 128 ≤ S.depth) :
    Ref E S code (constructOps g) (K.idle : Abs U) (construct (world E S) (varsAt g S) g)
      (fun _ => K.idle) := by
  unfold construct constructOps
  rw [has_byVal]
  split
  · have e : alignBytes 0 4 = ((12 : Nat) : Int) := by decide
    rw [e]
    refine Ref.pre (run_lower hS 12 (by simp [Kept.at]; omega)) ?_
    refine Ref.seq (ref_call1 hS _ _ rfl (by simp [Kept.at]; omega) (by simp [Kept.at])) fun _ => ?_
    refine Ref.seq (ref_call1 hS _ _ rfl (by simp [Kept.at, Abs.clob]; omega)
      (by simp [Kept.at, Abs.clob])) fun _ => ?_
    refine Ref.seq (ref_call1 hS _ _ rfl (by simp [Kept.at, Abs.clob]; omega)
      (by simp [Kept.at, Abs.clob])) fun _ => ?_
    refine Ref.pure ((run_raiseBack (b := List.replicate 12 none) (rest := []) rfl rfl).weaken ?_)
    exact idle_le rfl rfl rfl rfl rfl
  · exact Ref.done (Le.refl _)

theorem ref_setup (g : Gen) (hd : 128 ≤ S.depth) (hargs : S.slot g.vThis) :
    Ref E S code (setupOps g) (K.idle : Abs U)
      (setup (world E S) (varsAt g S) g (K.loc g.vThis))
      (fun c => Kept.idle { K with loc := fun k => if k = vCtx then c else K.loc k }) := by
  have hc : S.slot vCtx := slot_ctx
  unfold setupOps
  let w₁ : W := if g.ret.size = 0 then 0 else (varsAt g S).orig
  let w₂ : W := if g.ret.size = 0 then 0 else (varsAt g S).override
  have h0 : Run E S (K.idle : Abs U) (if g.ret.size = 0 then [.pushImm8 (i8 0), .pushImm8 (i8 0)]
    else [.leaAuto eax ebp (i32 (frame g).override), .leaAuto edx ebp (i32 (frame g).orig), .push eax,
      .push edx]) ((K.idle : Abs U).stack (word w₁ ++ word w₂)) := by
    simp only [w₁, w₂]
    split
    · refine (Run.cons (one_pushImm8 hS 0 (by decide) (by simp [Kept.at]; omega)) (Run.cons
        (one_pushImm8 hS 0 (by decide) (by simp [Kept.at]; omega)) Run.nil)).weaken
        (Le.of (fun r v h => h) rfl rfl rfl)
    · refine (Run.cons (one_lea 0 _ (by decide) (by decide)) (Run.cons
        (one_lea 2 _ (by decide) (by decide)) (Run.cons (one_push hS 0 (by simp [Kept.at]; omega))
        (Run.cons (one_push hS 2 (by simp [Kept.at]; omega)) Run.nil)))).weaken ?_
      refine Le.of ?_ rfl rfl rfl
      intro r v hv
      have hr : r ≠ 0 ∧ r ≠ 2 := by
        constructor <;> rintro rfl <;> cases hv
      simp only [Abs.grow_reg, Abs.set_reg, if_neg hr.1, if_neg hr.2]
      exact hv
  unfold setup
  refine Ref.pre h0 ?_
  refine Ref.cons (one_lea8 0 vCur (by decide) (by decide) (by decide)) ?_
  refine Ref.cons (one_lea8 2 vPrev (by decide) (by decide) (by decide)) ?_
  refine Ref.cons (one_push hS 0 (by simp [Kept.at]; omega)) ?_
  refine Ref.cons (one_push hS 2 (by simp [Kept.at]; omega)) ?_
  refine Ref.cons (one_lea8 0 vStatus (by decide) (by decide) (by decide)) ?_
  refine Ref.cons (one_lea8 2 vEntry (by decide) (by decide) (by decide)) ?_
  refine Ref.cons (one_push hS 0 (by simp [Kept.at]; omega)) ?_
  refine Ref.cons (one_push hS 2 (by simp [Kept.at]; omega)) ?_
  refine Ref.cons (one_loadSlot hS 0 _ hargs (by decide) (by decide)) ?_
  refine Ref.cons (one_push hS 0 (by simp [Kept.at]; omega)) ?_
  refine Ref.cons (one_loadSlot hS 1 _ hargs (by decide) (by decide)) ?_
  refine Ref.bind (ref_load 0 1 (a := K.loc g.vThis) g.vtblOffs rfl (by decide) (by decide)) fun vt => ?_
  refine Ref.cons (one_add 0 _ (v := vt) rfl (by decide) (by decide)) ?_
  refine Ref.cons (one_push hS 0 (by simp [Kept.at]; omega)) ?_
  refine Ref.cons (one_movRmImm 2 _ (by decide) (by decide)) ?_
  refine Ref.bind (ref_loadBase 0 2 (a := g.pHI) rfl (by decide) (by decide)) fun hi => ?_
  refine Ref.cons (one_push hS 0 (by simp [Kept.at]; omega)) ?_
  refine Ref.cons (one_pushImm hS _ (by simp [Kept.at]; omega)) ?_
  refine Ref.cons (one_movImm 0 _ (by decide) (by decide)) ?_
  have ei : vt + BitVec.ofInt 32 (4 * g.vtblIdx) = off vt (g.vtblIdx * 4) := by
    rw [Int.mul_comm]; rfl
  rw [ei]
  refine Ref.bind (ref_call hS 0 plain false (rest := []) rfl rfl rfl
    (fun h => nomatch h) (by simp [Kept.at]; omega) (fun h => nomatch h)) fun a => ?_
  refine Ref.pure (Run.cons (one_raise8 (n := 40) (b := List.replicate 40 none) (rest := []) rfl rfl
    (by decide)) (Run.cons (one_saveSlot8 hS 0 vCtx (by decide) (v := a.reg 0) rfl hc)
      (Run.nil.weaken ?_)))
  exact idle_le rfl rfl rfl rfl rfl

theorem ref_endContext (g : Gen) (hd : 128 ≤ S.depth) :
    Ref E S code (endContextOps g) (K.idle : Abs U)
      (endContext (world E S) g (K.loc vCtx)) (fun _ => K.idle) := by
  have hc : S.slot vCtx := slot_ctx
  unfold endContextOps endContext
  apply Ref.drop
  refine Ref.cons (one_loadSlot hS 0 _ hc (by decide) (by decide)) (Ref.cons
    (one_push hS 0 (by simp [Kept.at]; omega)) (Ref.cons (one_pushImm hS _ (by simp [Kept.at]; omega))
    (Ref.cons (one_movImm 0 _ (by decide) (by decide)) (Ref.last (ref_call hS 0 plain false
      (args := word g.sh ++ word (K.loc vCtx)) (rest := []) rfl rfl rfl
      (fun h => nomatch h) (by simp [Kept.at]; omega) (fun h => nomatch h)) fun a => ?_))))
  refine (Run.single (one_raise8 (n := 8) (b := List.replicate 8 none) (rest := []) rfl rfl
    (by decide))).weaken (idle_le rfl rfl rfl rfl rfl)

end

end Verif.Jit32
