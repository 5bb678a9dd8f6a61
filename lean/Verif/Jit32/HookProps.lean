import Verif.Jit32.HookWhole
/-
C76: the 32-bit hook function that is generated does what the C function of the comments does
(`Spec.hookFunction`, Verif/Jit32/HookSpec.lean).
-/
namespace Verif.Jit32

open Spec
open Verif.Jit (Byte)

variable {U : Fpu}

/-- Specification: the prototypes for which the theorem is stated. -/
structure HookOk (g : Gen) : Prop where
  params : ∀ p ∈ g.params, PassOk p
  ret : RetOk g.ret
  slots : slots g.params < 32768
  count : g.params.length < 2 ^ 16
  retSize : g.ret.size < 2 ^ 24
  /-- the displacement for `this` fits what is written for it -/
  vtbl : -128 ≤ g.vtblOffs ∧ g.vtblOffs < 2 ^ 31
  /-- no convention with the second bit of `HasVafmt` alone -/
  conv : g.varArgs = g.vafmt

/-- Specification: what the caller of the function provides, entered with the stack pointer `sp`:
`depth` bytes of stack below the frame; the functions called leave the words alone that only this
function uses, and the stack that holds its temporary values. -/
structure CallerOk (E : Env) (g : Gen) (sp : W) (depth : Int) : Prop where
  acc : ∀ k, (stackOf g sp depth).low - depth ≤ k → k < (stackOf g sp depth).args →
    E.acc ((stackOf g sp depth).F + BitVec.ofInt 32 k) = true
  keep : ∀ k, (stackOf g sp depth).priv k = true →
    E.keep ((stackOf g sp depth).F + BitVec.ofInt 32 k) = true
  room : slots g.params + 128 ≤ depth ∧ depth ≤ 2 ^ 28
  top : E.top = (stackOf g sp depth).F + BitVec.ofInt 32 (stackOf g sp depth).low

/-- Specification: the offset of the first parameter from the stack pointer on entry. -/
def firstArg (g : Gen) : W := if hid g then 12 else 8

/-- Specification: where `this` is. -/
def thisArg (g : Gen) (s : Mach U) : W := arg s (if hid g then 2 else 1)

/-- Specification: the program the function stands for, in the state `s` on entry. -/
def program (E : Env) (g : Gen) (s : Mach U) (depth : Int) (n : Nat) : M U (Ret U) :=
  hookFunction (world E (stackOf g (s.reg 4) depth)) (varsAt g (stackOf g (s.reg 4) depth)) g n
    (thisArg g s) (arg s 1) (s.reg 4 + firstArg g) (s.reg 4 + firstArg g + BitVec.ofNat 32 (slots g.params))

theorem base_eq (g : Gen) : g.base = if hid g then 20 else 16 := by
  unfold Gen.base hid; rw [has_retMem]

theorem vThis_eq (g : Gen) : g.vThis = if hid g then 16 else 12 := by
  unfold Gen.vThis hid; rw [has_retMem]

theorem arg_off (s : Mach U) (i : Nat) : arg s i = rd s.mem (off (s.reg 4) (4 * i : Nat)) := by
  unfold arg off
  rfl

theorem hook_run {E : Env} {S : Stack} (hS : StackOk E S) {g : Gen} (hg : HookOk g) {s : Mach U}
    (hF : S.F = off (s.reg 4) (-8)) (hargs : S.args = if hid g then 20 else 16)
    (hwide : S.wide = decide (g.ret.size ≠ 0))
    (hesp : off (s.reg 4) (-8 + -(frame g).size) &&& i32 (-16) = off S.F (S.low - (0 : Nat)))
    (hd : slots g.params + 128 ≤ S.depth) (hf : s.fpu = []) {n : Nat} {ans rest : List (Ans U)}
    {r : Ret U} {m : Memory} {t : List SCall}
    (hx : hookFunction (world E S) (varsAt g S) g n
      (thisArg g s) (arg s 1) (s.reg 4 + firstArg g)
      (s.reg 4 + firstArg g + BitVec.ofNat 32 (slots g.params)) s.mem ans = some (r, m, rest, t)) :
    ∃ code tr s', generateHookFunc g = some code ∧ Returns E code s ans tr (arg s 0) s' rest ∧
      AreCalls S t tr ∧
      (∀ v, r.eax = some v → s'.reg 0 = v) ∧ (∀ v, r.edx = some v → s'.reg 2 = v) ∧
      s'.fpu = r.st.toList ∧ s'.reg 4 = s.reg 4 + (if hid g then 8 else 4) ∧ Same s s' ∧
      ∀ x, S.hidden x = false → s'.mem x = m x := by
  have hat : At ((hookOps g).flatMap Op.bytes) 0 (hookOps g) :=
    at_zero (fit_hook hg.params hg.ret hg.slots hg.vtbl)
  generalize hcode : (hookOps g).flatMap Op.bytes = code at hat
  have hgen : generateHookFunc g = some code := by rw [generateHookFunc_eq, hcode]
  obtain ⟨s₁, K, x₁, hinv, k6, k7, k0, k4, kl⟩ := enter_run hS hF hesp hf
  have t₁ := steps_straight (E := E) (ans := ans) (enterOps g) hat.left x₁
  -- the pieces
  have h1 : thisArg g s = K.loc g.vThis := by
    rw [vThis_eq, thisArg, arg_off]
    cases hid g
    · exact (kl 12 (by omega) (by omega)).symm
    · exact (kl 16 (by omega) (by omega)).symm
  have h2 : arg s 1 = K.loc 12 := by
    rw [arg_off]; exact (kl 12 (by omega) (by omega)).symm
  have h3 : s.reg 4 + firstArg g = off S.F g.base := by
    rw [hF, off_off, base_eq, firstArg]
    cases hid g <;> rfl
  rw [h1, h2, h3, off_bytes, hookFunction_inner] at hx
  obtain ⟨⟨r', c, p⟩, m₂, as₂, t₁', t₂', i₁, i₂, rfl⟩ := bind_some hx
  have i₂ : some (r', m₂, as₂, ([] : List SCall)) = some (r, m, rest, t₂') := i₂
  simp only [Option.some.injEq, Prod.mk.injEq] at i₂
  obtain ⟨rfl, rfl, rfl, rfl⟩ := i₂
  obtain ⟨s₂, tr, st₂, hc, hinv₂⟩ := ref_inner (K := K) hS hg.params hg.ret hd hg.slots hg.count
    hg.conv hwide hargs n _ hat.right.left _ _ _ _ _ _ i₁ s₁ hinv
  -- the epilogue
  obtain ⟨pc', s₃, s', st₃, hret, d0, d2, df, d4, d3, d5, d6, d7, dm⟩ :=
    leave_run hS hat.right.right hinv₂ as₂
  have hloc : ∀ k : Int, 0 ≤ k → ((K.withCtx c).withRet g p).loc k = K.loc k := by
    intro k hk
    unfold Kept.withRet Kept.withCtx
    split
    · exact if_neg (by show ¬ k = -24; omega)
    · exact (if_neg (by omega)).trans (if_neg (by show ¬ k = -24; omega))
  have hsi : ((K.withCtx c).withRet g p).si = K.si := by unfold Kept.withRet; split <;> rfl
  have hdi : ((K.withCtx c).withRet g p).di = K.di := by unfold Kept.withRet; split <;> rfl
  have k8 : K.loc 8 = arg s 0 := by rw [arg_off]; exact kl 8 (by omega) (by omega)
  refine ⟨code, tr, s', hgen, ⟨pc', s₃, ?_, ?_⟩, ?_, d0, d2, df, ?_, ?_, dm⟩
  · have := (t₁.trans st₂).trans st₃
    rwa [List.nil_append, List.append_nil] at this
  · rw [hret]
    dsimp only
    rw [hloc 8 (by omega), k8]
  · rw [List.append_nil]; exact hc
  · rw [d4, hF, off_off]
    cases hid g <;> rfl
  · refine same_of ?_ ?_ ?_ ?_
    · rw [d3]; dsimp only; rw [hloc 0 (by omega), k0]
    · rw [d5]; dsimp only; rw [hloc 4 (by omega), k4]
    · rw [d6]; dsimp only; rw [hsi, k6]
    · rw [d7]; dsimp only; rw [hdi, k7]

/-- **C76.** The generated function makes the calls the C function makes, in the same order, to the
same functions, with the same arguments and the same visible memory; it returns to its caller with
the same value, the registers to preserve as they were, the stack pointer behind the return address
(and the hidden pointer), and leaves the same memory behind. -/
theorem hook_function_partial {E : Env} {g : Gen} (hg : HookOk g) {s : Mach U} {depth : Int}
    (hE : CallerOk E g (s.reg 4) depth) (hf : s.fpu = []) {n : Nat} {ans rest : List (Ans U)}
    {r : Ret U} {m : Memory} {t : List SCall}
    (hx : program E g s depth n s.mem ans = some (r, m, rest, t)) :
    ∃ code tr s', generateHookFunc g = some code ∧ Returns E code s ans tr (arg s 0) s' rest ∧
      AreCalls (stackOf g (s.reg 4) depth) t tr ∧
      (∀ v, r.eax = some v → s'.reg 0 = v) ∧ (∀ v, r.edx = some v → s'.reg 2 = v) ∧
      s'.fpu = r.st.toList ∧ s'.reg 4 = s.reg 4 + (if hid g then 8 else 4) ∧ Same s s' ∧
      ∀ x, (stackOf g (s.reg 4) depth).hidden x = false → s'.mem x = m x :=
  hook_run (stackOf_ok hg.params hg.retSize ⟨by have := hE.room; omega, hE.room.2⟩ hE.acc hE.keep hE.top)
    hg rfl rfl rfl (esp_entry g (s.reg 4) depth) hE.room.1 hf hx

/-! ## Which accepted prototypes those are -/

/-- Specification: a prototype as a plugin describes it, without what the findings are about. -/
structure Plain (p : Proto) : Prop where
  /-- the flag of the generator itself is not given -/
  own : p.ret.flags.getLsbD 30 = false ∧ ∀ q ∈ p.params, q.flags.getLsbD 30 = false
  /-- by value or by reference, not both -/
  one : ∀ q ∈ p.params, ¬ (q.flags.getLsbD 0 = true ∧ q.flags.getLsbD 1 = true)
  /-- numbers have the size of a C++ type of 32-bit Linux, `long double` aside -/
  int : ∀ q ∈ p.params, q.flags.getLsbD 0 = true → q.type = 1 →
    q.size = 1 ∨ q.size = 2 ∨ q.size = 4 ∨ q.size = 8
  float : ∀ q ∈ p.params, q.flags.getLsbD 0 = true → q.type = 2 → q.size = 4 ∨ q.size = 8
  /-- objects by value can be copied as bytes -/
  object : ∀ q ∈ p.params, q.flags.getLsbD 0 = true → q.type = 3 → q.cctor = 0 ∧ q.flags.getLsbD 2 = false
  void : p.ret.size = 0 → p.ret.flags.getLsbD 1 = false ∧ p.ret.assign = 0
  /-- a `float` or `double` is returned without a destructor -/
  retFloat : p.ret.flags.getLsbD 0 = true → p.ret.type = 2 → p.ret.size ≠ 0 → p.ret.size ≤ 8 →
    (p.ret.size = 4 ∨ p.ret.size = 8) ∧ p.ret.dtor = 0
  /-- the plugin says one thing about a returned object, and no large one is returned in registers -/
  retObject : p.ret.flags.getLsbD 0 = true → p.ret.type = 3 →
    ¬ (p.ret.flags.getLsbD 6 = true ∧ p.ret.flags.getLsbD 7 = true) ∧
    (p.ret.flags.getLsbD 7 = true → p.ret.size ≤ 8)
  retSize : p.ret.size < 2 ^ 24
  slots : slots p.params < 32768
  count : p.params.length < 2 ^ 16
  /-- variable arguments with the format, or none -/
  conv : p.convention &&& 0x30000 = 0 ∨ p.convention &&& 0x30000 = 0x30000

/-- **C76.** What the generator takes meets the conditions of `hook_function_partial`, if it is plain in
the sense above. -/
theorem accepted_hookOk {p : Proto} (ha : accepts p = true) (hp : Plain p) {g : Gen}
    (hr : g.ret = p.detected.ret) (hps : g.params = p.detected.params) (hc : g.conv = p.convention)
    (hv : -128 ≤ g.vtblOffs ∧ g.vtblOffs < 2 ^ 31) : HookOk g := by
  obtain ⟨-, -, har, hap⟩ := (accepts_iff p).1 ha
  have hbits : ∀ q : Pass, ∀ i, i ≠ 30 → (forceRef q).getLsbD i = q.flags.getLsbD i := by
    intro q i hi
    rw [forceRef_bits, decide_eq_false hi, Bool.false_and, Bool.or_false]
  have h30 : ∀ q ∈ p.params, (forceRef q).getLsbD 30 = false := by
    intro q hq
    rw [forceRef_bits, hp.own.2 q hq]
    cases h0 : q.flags.getLsbD 0
    · simp
    · by_cases h3 : q.type = 3
      · rw [(hp.object q hq h0 h3).2]; simp
      · simp [h3]
  have hret : g.ret = { p.ret with flags := autoDetect p.ret } := hr
  have hbr : ∀ i, i ≠ 6 → i ≠ 7 → (autoDetect p.ret).getLsbD i = p.ret.flags.getLsbD i :=
    fun i h6 h7 => autoDetect_only p.ret i h6 h7
  have hsl : Jit32.slots g.params = Jit32.slots p.params := by
    rw [hps]
    show Jit32.slots (p.params.map fun q => { q with flags := forceRef q }) = _
    unfold Jit32.slots
    rw [List.map_map]
    congr 1
    apply List.map_congr_left
    intro q hq
    simp only [Function.comp_apply]
    rw [hbits q 1 (by omega), h30 q hq, hp.own.2 q hq]
  constructor
  · intro q' hq'
    rw [hps] at hq'
    obtain ⟨q, hq, rfl⟩ := List.mem_map.1 hq'
    have hk := (hap q hq).kind
    have h1 := hp.one q hq
    refine ⟨h30 q hq, ?_, ?_⟩
    · show (forceRef q).getLsbD 0 = !(forceRef q).getLsbD 1
      rw [hbits q 0 (by omega), hbits q 1 (by omega)]
      cases h0 : q.flags.getLsbD 0 <;> cases h1' : q.flags.getLsbD 1
      · rw [h0, h1'] at hk; simp at hk
      · rfl
      · rfl
      · exact (h1 ⟨h0, h1'⟩).elim
    · intro h0
      have h0 : (forceRef q).getLsbD 0 = true := h0
      rw [hbits q 0 (by omega)] at h0
      have ht := (hap q hq).type
      rcases ht with ht | ht | ht
      · exact Or.inl ⟨ht, hp.int q hq h0 ht⟩
      · exact Or.inr (Or.inl ⟨ht, hp.float q hq h0 ht⟩)
      · refine Or.inr (Or.inr ⟨ht, (hp.object q hq h0 ht).1, ?_⟩)
        show (forceRef q).getLsbD 2 = false
        rw [hbits q 2 (by omega)]
        exact (hp.object q hq h0 ht).2
  · rw [hret]
    refine ⟨?_, ?_, ?_, ?_, ?_⟩
    · show (autoDetect p.ret).getLsbD 30 = false
      rw [hbr 30 (by omega) (by omega)]; exact hp.own.1
    · intro hz
      show (autoDetect p.ret).getLsbD 1 = false ∧ _
      rw [hbr 1 (by omega) (by omega)]
      exact hp.void hz
    · intro h1 h6 hz
      have h6 : (autoDetect p.ret).getLsbD 6 = true := h6
      cases h0 : p.ret.flags.getLsbD 0
      · rw [(autoDetect_register p.ret (Or.inl h0)).1] at h6; cases h6
      · rcases (har hz).type with ht | ht | ht
        · by_cases hs : p.ret.size ≤ 8
          · rw [(autoDetect_register p.ret (Or.inr ⟨Or.inl ht, hs⟩)).1] at h6; cases h6
          · exact Or.inl (by show 8 < p.ret.size; omega)
        · by_cases hs : p.ret.size ≤ 8
          · rw [(autoDetect_register p.ret (Or.inr ⟨Or.inr ht, hs⟩)).1] at h6; cases h6
          · exact Or.inl (by show 8 < p.ret.size; omega)
        · refine Or.inr ⟨ht, ?_⟩
          show (autoDetect p.ret).getLsbD 7 = false
          have hb := (hp.retObject h0 ht).1
          cases k6 : p.ret.flags.getLsbD 6 <;> cases k7 : p.ret.flags.getLsbD 7
          · exact (autoDetect_object p.ret h0 ht k6 k7).2
          · rw [autoDetect_said p.ret h0 ht (Or.inr k7), k6] at h6; cases h6
          · rw [autoDetect_said p.ret h0 ht (Or.inl k6)]; exact k7
          · exact (hb ⟨k6, k7⟩).elim
    · intro h1 h6 hz
      have h6 : (autoDetect p.ret).getLsbD 6 = false := h6
      have h1 : (autoDetect p.ret).getLsbD 1 = false := h1
      rw [hbr 1 (by omega) (by omega)] at h1
      have h0 : p.ret.flags.getLsbD 0 = true := by
        have := (har hz).kind
        rw [h1] at this
        simpa using this
      rcases (har hz).type with ht | ht | ht
      · refine Or.inr ⟨Or.inl ht, ?_⟩
        show p.ret.size ≤ 8
        apply Decidable.byContradiction
        intro hs
        rw [(autoDetect_memory p.ret h0 (Or.inl ht) (by omega)).1] at h6
        cases h6
      · have hs : p.ret.size ≤ 8 := by
          apply Decidable.byContradiction
          intro hs
          rw [(autoDetect_memory p.ret h0 (Or.inr ht) (by omega)).1] at h6
          cases h6
        obtain ⟨k1, k2⟩ := hp.retFloat h0 ht hz hs
        exact Or.inl ⟨ht, k1, Or.inr k2⟩
      · refine Or.inr ⟨Or.inr ⟨ht, ?_⟩, ?_⟩
        all_goals
          cases k6 : p.ret.flags.getLsbD 6 <;> cases k7 : p.ret.flags.getLsbD 7
        · rw [(autoDetect_object p.ret h0 ht k6 k7).1] at h6; cases h6
        · show (autoDetect p.ret).getLsbD 7 = true
          rw [autoDetect_said p.ret h0 ht (Or.inr k7)]; exact k7
        · rw [autoDetect_said p.ret h0 ht (Or.inl k6), k6] at h6; cases h6
        · rw [autoDetect_said p.ret h0 ht (Or.inl k6), k6] at h6; cases h6
        · rw [(autoDetect_object p.ret h0 ht k6 k7).1] at h6; cases h6
        · exact (hp.retObject h0 ht).2 k7
        · rw [autoDetect_said p.ret h0 ht (Or.inl k6), k6] at h6; cases h6
        · rw [autoDetect_said p.ret h0 ht (Or.inl k6), k6] at h6; cases h6
    · show p.ret.size < 2 ^ 31
      have := hp.retSize
      omega
  · rw [hsl]; exact hp.slots
  · rw [hps]
    show (p.params.map _).length < _
    rw [List.length_map]
    exact hp.count
  · rw [hret]; exact hp.retSize
  · exact hv
  · show (g.conv &&& convVarArgs != 0) = (g.conv &&& convVafmt != 0)
    rw [hc]
    have e1 : p.convention &&& convVarArgs = (p.convention &&& 0x30000) &&& convVarArgs := by
      rw [BitVec.and_assoc]; rfl
    have e2 : p.convention &&& convVafmt = (p.convention &&& 0x30000) &&& convVafmt := by
      rw [BitVec.and_assoc]; rfl
    rw [e1, e2]
    rcases hp.conv with h | h <;> rw [h] <;> decide

/-! ## Example -/

/-- No counterpart in /repo: the surroundings in which everything may be accessed and the functions
called leave alone just what they must. -/
def hookEnv (g : Gen) (sp : W) (depth : Int) : Env where
  acc := fun _ => true
  keep := fun x => (stackOf g sp depth).priv (x - (stackOf g sp depth).F).toInt
  top := off (stackOf g sp depth).F (stackOf g sp depth).low

theorem hookEnv_ok {g : Gen} {sp : W} {depth : Int}
    (hd : slots g.params + 128 ≤ depth ∧ depth ≤ 2 ^ 28) : CallerOk (hookEnv g sp depth) g sp depth where
  acc := fun _ _ _ => rfl
  keep := by
    intro k hk
    have hb : -2 ^ 31 ≤ k ∧ k < 2 ^ 31 := by
      unfold Stack.priv stackOf at hk
      dsimp only at hk
      split at hk <;> simp at hk <;> omega
    show (stackOf g sp depth).priv (off (stackOf g sp depth).F k - (stackOf g sp depth).F).toInt = true
    rw [off_toInt _ _ hb]
    exact hk
  room := hd
  top := rfl

/-- No counterpart in /repo: the prototype `int f(int)`. -/
def exampleHook : Gen where
  sh := 0x2000
  pHI := 0x2100
  vtblOffs := 0
  vtblIdx := 5
  conv := 1
  ret := ⟨4, 1, 129, 0, 0, 0, 0⟩
  params := [⟨4, 1, 1, 0, 0, 0, 0⟩]
  setupLoop := 0x6000
  endContext := 0x6100
  vsn := 0x6200
  fmtS := 0x6300

/-- No counterpart in /repo: the memory, with the result of the last hook, the status and the value
to override with. -/
def exampleMem (cur status v : Byte) : Memory := fun x =>
  let y := (x - 0x10004).toInt
  if y = vCur then cur else if y = vStatus then status else if y = -36 then v else 0

/-- No counterpart in /repo: what a function answers. -/
def exampleAns (own : Nat) (eax : W) (m : Memory) : Ans exampleFpu where
  reg := fun r => if r = 0 then eax else 0
  fpu := []
  mem := m
  pop := 0
  own := own
  zf := false
  sf := false
  of := false

/-- No counterpart in /repo: `SetupHookLoop` returns a context, `GetNext` a hook, which returns 77 and
answers `MRES_SUPERCEDE`; `GetOverrideRetPtr`; no further hook; in the second loop none either; the
pointer to the value to return; `EndContext`. -/
def exampleAnswers : List (Ans exampleFpu) :=
  [exampleAns 40 0x3000 (exampleMem 0 0 0), exampleAns 4 0x4000 (exampleMem 0 0 0),
   exampleAns 8 77 (exampleMem 3 0 0), exampleAns 4 0xFFE0 (exampleMem 3 3 0),
   exampleAns 4 0 (exampleMem 3 3 77), exampleAns 4 0 (exampleMem 3 3 77),
   exampleAns 4 0xFFE0 (exampleMem 3 3 77), exampleAns 8 0 (exampleMem 3 3 77)]

theorem exampleHook_ok : HookOk exampleHook where
  params := by
    intro p hp
    simp only [exampleHook, List.mem_cons, List.not_mem_nil, or_false] at hp
    subst hp
    exact ⟨by decide, by decide, fun _ => Or.inl ⟨rfl, by decide⟩⟩
  ret := ⟨by decide, by decide, by decide, fun _ _ _ => Or.inr ⟨Or.inl rfl, by decide⟩, by decide⟩
  slots := by decide
  count := by decide
  retSize := by decide
  vtbl := by decide
  conv := by decide

theorem exampleRoom : slots exampleHook.params + 128 ≤ (256 : Int) ∧ (256 : Int) ≤ 2 ^ 28 := by
  have h : slots exampleHook.params = 4 := rfl
  rw [h]
  omega

example : HookOk exampleHook :=
  accepted_hookOk (p := ⟨1, 1, ⟨4, 1, 1, 0, 0, 0, 0⟩, [⟨4, 1, 1, 0, 0, 0, 0⟩]⟩) (by decide)
    ⟨by decide, by decide, by decide, by decide, by decide, by decide, by decide, by decide, by decide,
      by decide, by decide, by decide⟩ rfl rfl rfl (by decide)

/-- No counterpart in /repo: a call of it. -/
def exampleCall : Mach exampleFpu :=
  { reg := fun r => if r = 4 then 0x1000C else 0, fpu := [], mem := exampleMem 0 0 0
    zf := false, sf := false, of := false }

example : ∃ code tr s', generateHookFunc exampleHook = some code ∧
    Returns (hookEnv exampleHook 0x1000C 256) code exampleCall exampleAnswers tr 0 s' [] ∧
    s'.reg 0 = 77 ∧ s'.reg 4 = 0x10010 ∧ tr.length = 8 := by
  have h : (program (hookEnv exampleHook 0x1000C 256) exampleHook exampleCall 256 3 exampleCall.mem
      exampleAnswers).map (fun q => (q.1.eax, q.2.2.1.length, q.2.2.2.length)) = some (some 77, 0, 8) := by
    decide +kernel
  rw [Option.map_eq_some_iff] at h
  obtain ⟨⟨r, m, rest, t⟩, hx, he⟩ := h
  simp only [Prod.mk.injEq, List.length_eq_zero_iff] at he
  obtain ⟨he, rfl, ht⟩ := he
  obtain ⟨code, tr, s', h1, h2, h3, h4, -, -, h5, -⟩ :=
    hook_function_partial exampleHook_ok (s := exampleCall)
      (hookEnv_ok (g := exampleHook) (sp := 0x1000C) (depth := 256) exampleRoom) rfl hx
  refine ⟨code, tr, s', h1, ?_, h4 77 he, h5, ?_⟩
  · rwa [show arg exampleCall 0 = 0 by decide +kernel] at h2
  · rw [← ht]
    clear h2 hx ht
    induction h3 with
    | nil => rfl
    | cons _ _ ih => exact congrArg (· + 1) ih

end Verif.Jit32

#print axioms Verif.Jit32.accepted_hookOk
#print axioms Verif.Jit32.hook_function_partial
