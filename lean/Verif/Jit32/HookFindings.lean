import Verif.Jit32.HookProps
/-
C76, departures: prototypes the generator takes and for which the generated 32-bit function does not
do what the C function does.  Each is shown by a run of the generated bytes.
-/
namespace Verif.Jit32

open Spec
open Verif.Jit (Byte)

variable {U : Fpu}

/-- No counterpart in /repo: run the code for at most `n` steps. -/
def run (E : Env) (code : List Byte) : Nat → Conf U → Option (List (Event U) × W × Mach U × List (Ans U))
  | 0, _ => none
  | n + 1, c =>
    match step E.acc code c.pc c.s with
    | .fault => none
    | .ret t s => some ([], t, s, c.ans)
    | .go pc s => run E code n ⟨pc, s, c.ans⟩
    | .call t pc =>
      match c.ans with
      | [] => none
      | a :: as => (run E code n ⟨pc, after E c.s a, as⟩).map fun q => (⟨t, c.s⟩ :: q.1, q.2)

theorem run_sound {E : Env} {code : List Byte} : ∀ {n : Nat} {c : Conf U} {tr : List (Event U)} {t : W}
    {s' : Mach U} {rest : List (Ans U)}, run E code n c = some (tr, t, s', rest) →
    ∃ pc s₁, Steps E code c tr ⟨pc, s₁, rest⟩ ∧ step E.acc code pc s₁ = .ret t s' := by
  intro n
  induction n with
  | zero => intro c tr t s' rest h; cases h
  | succ n ih =>
    intro c tr t s' rest h
    obtain ⟨pc, s, as⟩ := c
    unfold run at h
    split at h
    · cases h
    · rename_i hst
      simp only [Option.some.injEq, Prod.mk.injEq] at h
      obtain ⟨rfl, rfl, rfl, rfl⟩ := h
      exact ⟨pc, s, .refl _, hst⟩
    · rename_i hst
      obtain ⟨pc', s₁, h1, h2⟩ := ih h
      exact ⟨pc', s₁, .go hst h1, h2⟩
    · rename_i hst
      split at h
      · cases h
      · rename_i e
        dsimp only at e
        subst e
        rw [Option.map_eq_some_iff] at h
        obtain ⟨⟨tr', q⟩, h, e⟩ := h
        simp only [Prod.mk.injEq] at e
        obtain ⟨rfl, rfl⟩ := e
        obtain ⟨pc', s₁, h1, h2⟩ := ih h
        exact ⟨pc', s₁, .call hst h1, h2⟩

/-- No counterpart in /repo: an object of four bytes with a destructor and, if `cc` is not 0, a copy
constructor; the flags as `Generate` completes them. -/
def objParam (cc : W) : Pass :=
  let p : Pass := ⟨4, 3, if cc = 0 then 5 else 37, 0, cc, 0x7000, 0⟩
  { p with flags := forceRef p }

/-- No counterpart in /repo: the prototype `int f(Object)`. -/
def objHook (cc : W) : Gen := { exampleHook with params := [objParam cc] }

/-- No counterpart in /repo: the first parameter of the call points to the object, at 0x5000. -/
def objCall : Mach exampleFpu :=
  { exampleCall with mem := fun x => if x = 0x10015 then 0x50 else if x = 0x5000 then 0xAB else 0 }

/-- No counterpart in /repo: the functions called leave all memory alone. -/
def quietEnv : Env := { acc := fun _ => true, keep := fun _ => true, top := 0xFFD0 }

/-- No counterpart in /repo: an answer that matters by its EAX only. -/
def says (own : Nat) (eax : W) : Ans exampleFpu := exampleAns own eax fun _ => 0

/-- No counterpart in /repo: no hooks; `ShouldCallOrig` says yes; the copy constructor, if there is one;
the original function returns 77, the destructor of the copy leaves 0x1234 in EAX; no hooks;
`GetOrigRetPtr` gives the variable for the original value, which is at 0xFFE4; `EndContext`. -/
def objAnswers (cc : W) : List (Ans exampleFpu) :=
  [says 40 0x3000, says 4 0, says 4 1] ++ (if cc = 0 then [] else [says 8 0])
  ++ [says 8 77, says 4 0x1234, says 4 0, says 4 0xFFE4, says 8 0]

/-- No counterpart in /repo: what the run shows. -/
def objRun (cc : W) : Option (List (Event exampleFpu) × W × Mach exampleFpu × List (Ans exampleFpu)) :=
  (generateHookFunc (objHook cc)).bind fun code => run quietEnv code 400 ⟨0, objCall, objAnswers cc⟩

/-- No counterpart in /repo: the prototype as it is handed to `Generate`. -/
def objProto (cc : W) : Proto :=
  ⟨1, 1, exampleHook.ret, [⟨4, 3, if cc = 0 then 5 else 37, 0, cc, 0x7000, 0⟩]⟩

theorem objRun_returns {cc : W} {β : Type} {f : List (Event exampleFpu) → W → Mach exampleFpu → β}
    {b : β} (h : (objRun cc).map (fun q => (f q.1 q.2.1 q.2.2.1, q.2.2.2.length)) = some (b, 0)) :
    ∃ code tr t s', generateHookFunc (objHook cc) = some code ∧
      Returns quietEnv code objCall (objAnswers cc) tr t s' [] ∧ f tr t s' = b := by
  unfold objRun at h
  rw [Option.map_eq_some_iff] at h
  obtain ⟨⟨tr, t, s', rest⟩, h, e⟩ := h
  rw [Option.bind_eq_some_iff] at h
  obtain ⟨code, hc, hr⟩ := h
  simp only [Prod.mk.injEq, List.length_eq_zero_iff] at e
  obtain ⟨rfl, rfl⟩ := e
  exact ⟨code, tr, t, s', hc, run_sound hr, rfl⟩

/-- **C76**, a departure: the destructors of parameters passed by value run between the call and the
place where its result is kept (core/sourcehook/sourcehook_hookmangen_x86.cpp:1014-1016,
1165-1168), and they may change EAX.  `int f(Object)` is hooked, there is no hook function at the
moment, the original function returns 77: the caller gets 0x1234, what the destructor left in EAX. -/
theorem destructor_result_returned : accepts (objProto 0) = true ∧
    (objHook 0).params = (objProto 0).detected.params ∧
    ∃ code tr s', generateHookFunc (objHook 0) = some code ∧
      Returns quietEnv code objCall [says 40 0x3000, says 4 0, says 4 1, says 8 77, says 4 0x1234,
        says 4 0, says 4 0xFFE4, says 8 0] tr 0 s' [] ∧ s'.reg 0 = 0x1234 := by
  refine ⟨by decide, rfl, ?_⟩
  obtain ⟨code, tr, t, s', h1, h2, h3⟩ := objRun_returns (cc := 0)
    (f := fun _ t s => (t, s.reg 0)) (b := (0, 0x1234)) (by decide +kernel)
  simp only [Prod.mk.injEq] at h3
  obtain ⟨rfl, h3⟩ := h3
  exact ⟨code, tr, s', h1, h2, h3⟩

/-- **C76**, a departure: an object with a destructor that is passed by value arrives as a pointer
(`PassFlag_ForcedByRef`); the copy that is passed on is made of the pointer, not of the object
(core/sourcehook/sourcehook_hookmangen_x86.cpp:394, 426).  The caller passes an object with the
contents 0xAB at 0x5000: the original function gets an object with the contents 0x5000. -/
theorem pointer_copied_for_object : accepts (objProto 0) = true ∧
    rd objCall.mem (arg objCall 2) = 0xAB ∧
    ∃ code tr s', generateHookFunc (objHook 0) = some code ∧
      Returns quietEnv code objCall (objAnswers 0) tr 0 s' [] ∧
      tr[3]?.map (fun e => rd e.state.mem (arg e.state 1)) = some 0x5000 := by
  refine ⟨by decide, by decide +kernel, ?_⟩
  obtain ⟨code, tr, t, s', h1, h2, h3⟩ := objRun_returns (cc := 0)
    (f := fun tr t _ => (t, tr[3]?.map (fun e => rd e.state.mem (arg e.state 1)))) (b := (0, some 0x5000))
    (by decide +kernel)
  simp only [Prod.mk.injEq] at h3
  obtain ⟨rfl, h3⟩ := h3
  exact ⟨code, tr, s', h1, h2, h3⟩

/-- **C76**, a departure: with a copy constructor, that is called for the address of the pointer
instead of the address of the object; and the stack is not aligned to 16 bytes at the call (the
comment in core/sourcehook/sourcehook_hookmangen_x86.cpp:379-381 leaves that open). -/
theorem copy_of_pointer_unaligned : accepts (objProto 0x7100) = true ∧ arg objCall 2 = 0x5000 ∧
    ∃ code tr s', generateHookFunc (objHook 0x7100) = some code ∧
      Returns quietEnv code objCall (objAnswers 0x7100) tr 0 s' [] ∧
      tr[3]?.map (fun e => (e.target, arg e.state 1, (e.state.reg 4).toNat % 16)) =
        some (0x7100, objCall.reg 4 + 8, 12) := by
  refine ⟨by decide, by decide +kernel, ?_⟩
  obtain ⟨code, tr, t, s', h1, h2, h3⟩ := objRun_returns (cc := 0x7100)
    (f := fun tr t _ => (t, tr[3]?.map (fun e => (e.target, arg e.state 1, (e.state.reg 4).toNat % 16))))
    (b := (0, some (0x7100, objCall.reg 4 + 8, 12))) (by decide +kernel)
  simp only [Prod.mk.injEq] at h3
  obtain ⟨rfl, h3⟩ := h3
  exact ⟨code, tr, s', h1, h2, h3⟩

end Verif.Jit32

#print axioms Verif.Jit32.destructor_result_returned
#print axioms Verif.Jit32.pointer_copied_for_object
#print axioms Verif.Jit32.copy_of_pointer_unaligned
