import Verif.Jit.Machine
import Verif.Jit.HookFunc
/-
Specification for C65: the C function that the generated hook function stands for, as written in
the comments of core/sourcehook/sourcehook_hookmangen_x86_64.cpp:661-671, 823-830, 1095-1096 and
534-535, and in the macros of core/sourcehook/sourcehook.h (`SH_CALL_HOOKS`, `SH_CALL_ORIG`, …):

    IHookContext *pContext = shptr->SetupHookLoop(hi, vfnptr, this, &origentry, &status, &prev_res,
      &cur_res, &orig_ret, &override_ret);
    prev_res = MRES_IGNORED;
    while ((iter = pContext->GetNext())) {
      cur_res = MRES_IGNORED;
      plugin_ret = iter->Call(params);
      prev_res = cur_res;
      if (cur_res > status) status = cur_res;
      if (cur_res >= MRES_OVERRIDE) *pContext->GetOverrideRetPtr() = plugin_ret;
    }
    if (status != MRES_SUPERCEDE && pContext->ShouldCallOrig()) orig_ret = this->*origentry(params);
    else orig_ret = override_ret;
    … the loop again …
    retptr = status >= MRES_OVERRIDE ? pContext->GetOverrideRetPtr() : pContext->GetOrigRetPtr();
    shptr->EndContext(pContext);
    … destructors of the parameters …
    return *retptr;
    … destructors of the return values …

A program works on a memory and a list of answers of the functions it calls.  Variables whose
address is passed on are memory (`Vars`); the others are values.  Reading or writing an address
outside `vis` has no result, nor has a call without an answer.
-/
namespace Verif.Jit

/-- An argument: in a general register or on the stack, or in a vector register. -/
inductive Arg where
  | int (v : W)
  | flt (v : W)

/-- A call: the function, the arguments, the memory it finds. -/
structure SCall where
  target : W
  args : List Arg
  mem : Memory

/-- A program with result in `α`. -/
def M (α : Type) := Memory → List Ans → Option (α × Memory × List Ans × List SCall)

namespace M

/-- No effect. -/
def ret {α : Type} (a : α) : M α := fun m as => some (a, m, as, [])

/-- One after the other. -/
def andThen {α β : Type} (x : M α) (f : α → M β) : M β := fun m as =>
  match x m as with
  | none => none
  | some (a, m, as, t) =>
    match f a m as with
    | none => none
    | some (b, m, as, u) => some (b, m, as, t ++ u)

end M

instance : Monad M where
  pure := M.ret
  bind := M.andThen

/-- The addresses a program may use and the memory the functions it calls leave alone. -/
structure World where
  vis : W → Bool
  keep : W → Bool

/-- The addressable variables. -/
structure Vars where
  entry : W
  status : W
  prev : W
  cur : W
  orig : W
  override : W
  plugin : W
  temp : W

/-- What is returned in RAX and in XMM0, where that is specified. -/
structure Ret where
  rax : Option W
  xmm0 : Option W

/-- Two places where the generated code departs from the C code above: `prevLate` stands for
`prev_res = cur_res` after the call of the hook, `resultKept` for returning the value the
destructors of the return values leave alone. -/
structure Intent where
  prevLate : Bool
  resultKept : Bool

section
variable (Wd : World) (V : Vars) (g : Gen) (D : Intent)

/-- Read eight bytes. -/
def load (a : W) : M W := fun m as => if okAt Wd.vis a then some (rd m a, m, as, []) else none

/-- Write eight bytes. -/
def save (a v : W) : M Unit := fun m as => if okAt Wd.vis a then some ((), wr m a v, as, []) else none

/-- Copy `n` bytes. -/
def memcpy (dst src : W) (n : Nat) : M Unit := fun m as =>
  if okRange Wd.vis src n && okRange Wd.vis dst n then some ((), copy m dst src n, as, []) else none

/-- Call a function. -/
def callF (f : W) (args : List Arg) : M Ans := fun m as =>
  match as with
  | [] => none
  | a :: as => some (a, fun x => if Wd.keep x then m x else a.mem x, as, [⟨f, args, m⟩])

/-- Only under a condition. -/
def when' (c : Bool) (x : M Unit) : M Unit := if c then x else pure ()

/-- Call a virtual function of `obj`. -/
def virt (obj : W) (idx : Nat) (args : List Arg) : M Ans := do
  let vt ← load Wd obj
  let f ← load Wd (vt + BitVec.ofNat 64 (8 * idx))
  callF Wd f (.int obj :: args)

/-- Is the value returned through a hidden pointer? -/
def hiddenPtr : Bool := g.ret.size != 0 && g.ret.has flagRetMem

/-- The arguments after `this`: the place for the returned value if there is one, the parameters. -/
def withPlace (place : W) (ps : List Arg) : List Arg :=
  (if hiddenPtr g then [.int place] else []) ++ ps

/-- Construct the variables for the returned value. -/
def construct : M Unit :=
  if g.ret.has flagByVal = true ∧ g.ret.ctor ≠ 0 then do
    let _ ← callF Wd g.ret.ctor [.int V.orig]
    let _ ← callF Wd g.ret.ctor [.int V.override]
    let _ ← callF Wd g.ret.ctor [.int V.plugin]
    pure ()
  else pure ()

/-- `status = cur_res = prev_res = MRES_IGNORED`. -/
def start : M Unit := do
  save Wd V.status 0
  save Wd V.cur 0
  save Wd V.prev 0

/-- `SetupHookLoop`. -/
def setup (this : W) : M W := do
  let hi ← load Wd g.pHI
  let vt ← load Wd (this + BitVec.ofInt 64 g.vtblOffs)
  let a ← callF Wd g.setupLoop
    [.int g.sh, .int hi, .int (vt + BitVec.ofInt 64 (8 * g.vtblIdx)), .int this, .int V.entry,
     .int V.status, .int V.prev, .int V.cur,
     .int (if g.ret.size = 0 then 0 else V.orig), .int (if g.ret.size = 0 then 0 else V.override)]
  pure (a.reg 0)

/-- Assign a returned value. -/
def move (dst src : W) : M Unit :=
  if g.ret.assign ≠ 0 then do
    let _ ← callF Wd g.ret.assign [.int dst, .int src]
    pure ()
  else memcpy Wd dst src g.ret.size

/-- Destroy the temporary object. -/
def dropT : M Unit :=
  if g.ret.dtor ≠ 0 then do
    let _ ← callF Wd g.ret.dtor [.int V.temp]
    pure ()
  else pure ()

/-- Keep the value a call returned in the variable `v`. -/
def keepResult (a : Ans) (v : W) : M Unit :=
  if g.ret.size = 0 then pure ()
  else if g.ret.has flagByRef then save Wd v (a.reg 0)
  else if g.ret.type = typeFloat then save Wd v (a.xmm 0)
  else if g.ret.type = typeBasic then save Wd v (a.reg 0)
  else if g.ret.has flagRetMem then
    if withTemp g.ret then do
      move Wd g v V.temp
      dropT Wd V g
    else pure ()
  else pure ()

/-- The place handed to a function whose result goes to the variable `v`. -/
def place (v : W) : W := if withTemp g.ret then V.temp else v

/-- `prev_res = cur_res`. -/
def setPrev : M Unit := do
  let c ← load Wd V.cur
  save Wd V.prev c

/-- One hook. -/
def hookOne (it : W) (ps : List Arg) : M Unit := do
  save Wd V.cur 0
  when' (!D.prevLate) (setPrev Wd V)
  let a ← virt Wd it g.callIdx (withPlace g (place V g V.plugin) ps)
  keepResult Wd V g a V.plugin
  when' D.prevLate (setPrev Wd V)

/-- `if (cur_res > status) status = cur_res`; the result is `cur_res`. -/
def raise : M W := do
  let c ← load Wd V.cur
  let st ← load Wd V.status
  save Wd V.status (if st.toInt < c.toInt then c else st)
  pure c

/-- `*p = plugin_ret`. -/
def setOverride (p : W) : M Unit :=
  if g.ret.has flagByRef then do
    let v ← load Wd V.plugin
    save Wd p v
  else move Wd g p V.plugin

/-- `if (cur_res >= MRES_OVERRIDE) *pContext->GetOverrideRetPtr() = plugin_ret`. -/
def override (ctx c : W) : M Unit :=
  if g.ret.size = 0 ∨ c.toInt < 2 then pure ()
  else do
    let p ← virt Wd ctx g.getOverride []
    setOverride Wd V g (p.reg 0)

/-- The loop over the hooks, for at most `n - 1` hooks. -/
def hooks (ctx : W) (ps : List Arg) : Nat → M Unit
  | 0 => fun _ _ => none
  | n + 1 => do
    let it ← virt Wd ctx g.getNext []
    if it.reg 0 = 0 then pure ()
    else do
      hookOne Wd V g D (it.reg 0) ps
      let c ← raise Wd V
      override Wd V g ctx c
      hooks ctx ps n

/-- `prev_res = MRES_IGNORED` and the loop. -/
def callHooks (n : Nat) (ctx : W) (ps : List Arg) : M Unit := do
  save Wd V.prev 0
  hooks Wd V g D ctx ps n

/-- `orig_ret = override_ret`. -/
def origElse : M Unit :=
  if g.ret.size = 0 then pure ()
  else if g.ret.has flagByRef then do
    let v ← load Wd V.override
    save Wd V.orig v
  else move Wd g V.orig V.override

/-- The call of the original function. -/
def callOriginal (this : W) (ps : List Arg) : M Unit := do
  let f ← load Wd V.entry
  let a ← callF Wd f (.int this :: withPlace g (place V g V.orig) ps)
  keepResult Wd V g a V.orig

/-- `if (status != MRES_SUPERCEDE && pContext->ShouldCallOrig()) …`. -/
def callOrig (ctx this : W) (ps : List Arg) : M Unit := do
  let st ← load Wd V.status
  if st = 3 then origElse Wd V g
  else do
    let a ← virt Wd ctx g.shouldCall []
    if a.reg 0 &&& 1 = 0 then origElse Wd V g else callOriginal Wd V g this ps

/-- The pointer to the value to return. -/
def prepare (ctx : W) : M W :=
  if g.ret.size = 0 then pure 0
  else do
    let vt ← load Wd ctx
    let fo ← load Wd (vt + BitVec.ofNat 64 (8 * g.getOrig))
    let fv ← load Wd (vt + BitVec.ofNat 64 (8 * g.getOverride))
    let st ← load Wd V.status
    let a ← callF Wd (if 2 ≤ st.toInt then fv else fo) [.int ctx]
    pure (a.reg 0)

/-- `EndContext`. -/
def endContext (ctx : W) : M Unit := do
  let _ ← callF Wd g.endContext [.int g.sh, .int ctx]
  pure ()

/-- The destructors of the parameters passed by value. -/
def destroyParams : List Pass → List Arg → M Unit
  | p :: ps, a :: as => do
    if p.destroyed then do
      let _ ← callF Wd p.dtor [a]
      destroyParams ps as
    else destroyParams ps as
  | _, _ => pure ()

/-- Write the value returned in memory. -/
def returnMem (memret p : W) : M Unit :=
  if g.ret.cctor ≠ 0 then do
    let _ ← callF Wd g.ret.cctor [.int memret, .int p]
    pure ()
  else memcpy Wd memret p g.ret.size

/-- The value returned in a register. -/
def retValue (p : W) : M W :=
  if g.ret.type = typeFloat ∨ g.ret.type = typeBasic ∨
      (g.ret.type = typeObject ∧ g.ret.has flagRetReg = true) then load Wd p else pure 0

/-- `return *retptr`. -/
def doReturn (memret p : W) : M Ret :=
  if g.ret.size = 0 then pure ⟨none, none⟩
  else if g.ret.has flagByRef then do
    let v ← load Wd p
    pure ⟨some v, none⟩
  else do
    let v ← retValue Wd g p
    if g.ret.has flagRetMem then do
      returnMem Wd g memret p
      pure ⟨some memret, none⟩
    else if g.ret.type = typeFloat then pure ⟨none, some v⟩
    else if g.ret.type = typeBasic ∨ (g.ret.type = typeObject ∧ g.ret.has flagRetReg = true) then
      pure ⟨some v, none⟩
    else pure ⟨none, none⟩

/-- The destructors of the variables for the returned value. -/
def destroyRet (r : Ret) : M Ret :=
  if g.ret.has flagByVal = true ∧ g.ret.dtor ≠ 0 then do
    let _ ← callF Wd g.ret.dtor [.int V.orig]
    let _ ← callF Wd g.ret.dtor [.int V.override]
    let a ← callF Wd g.ret.dtor [.int V.plugin]
    pure (if D.resultKept then r else ⟨some (a.reg 0), some (a.xmm 0)⟩)
  else pure r

/-- The whole function; each loop runs at most `n - 1` times. -/
def hookFunction (n : Nat) (this memret : W) (ps : List Arg) : M Ret := do
  construct Wd V g
  start Wd V
  let ctx ← setup Wd V g this
  callHooks Wd V g D n ctx ps
  callOrig Wd V g ctx this ps
  callHooks Wd V g D n ctx ps
  let p ← prepare Wd V g ctx
  endContext Wd g ctx
  destroyParams Wd g.params ps
  let r ← doReturn Wd g memret p
  destroyRet Wd V g D r

end

/-! ## Machine and program -/

/-- The stack of the generated function: `F` the stack pointer on entry, `size` the frame below
it, `depth` how far the stack reaches below the frame, `nargs` the number of parameters of the
calling convention, `wide` whether the frame has cells for a returned value. -/
structure Stack where
  F : W
  size : Int
  depth : Int
  nargs : Nat
  wide : Bool

/-- The bytes no other function may touch, relative to `F`: the return address and the place of
the parameters, the saved RBP, the variables `iter`, `pContext`, `this` and the two pointers for
the returned value. -/
def Stack.priv (S : Stack) (k : Int) : Bool :=
  decide (-8 ≤ k ∧ k < 8 + 8 * (S.nargs : Int)) || decide (-64 ≤ k ∧ k < -40)
    || (S.wide && decide (-80 ≤ k ∧ k < -64))

/-- The addresses the program has no name for: private ones and the stack below the frame. -/
def Stack.hidden (S : Stack) (x : W) : Bool :=
  S.priv (x - S.F).toInt
    || decide (-S.size - S.depth ≤ (x - S.F).toInt ∧ (x - S.F).toInt < -S.size)

/-- Argument `i` of a call is as the convention demands. -/
def ArgOk (s : Mach) (i : Nat) : Arg → Prop
  | .int v => arg s i = v
  | .flt v => i < 4 ∧ s.xmm (Fin.ofNat 16 i) = v

/-- The machine's call `e` is the program's call `c`: the same function, the same arguments, the
same visible memory; the stack pointer is aligned if it was, and the stack from it up to the frame
has room for the arguments, at least 32 bytes. -/
structure IsCall (S : Stack) (c : SCall) (e : Event) : Prop where
  target : e.target = c.target
  args : ∀ i a, c.args[i]? = some a → ArgOk e.state i a
  mem : ∀ x, S.hidden x = false → e.state.mem x = c.mem x
  stack : ∃ d : Int, e.state.reg 4 = S.F + BitVec.ofInt 64 (-S.size - d) ∧ 32 ≤ d ∧
    8 * (c.args.length : Int) ≤ d ∧ d ≤ S.depth ∧ (S.size + d) % 16 = 8

/-- Call for call. -/
inductive AreCalls (S : Stack) : List SCall → List Event → Prop
  | nil : AreCalls S [] []
  | cons {c : SCall} {e : Event} {cs : List SCall} {es : List Event} :
      IsCall S c e → AreCalls S cs es → AreCalls S (c :: cs) (e :: es)

/-- Parameter `i` of the convention on entry: the stack pointer points to the return address. -/
def argIn (s : Mach) (i : Nat) : W :=
  if i = 0 then s.reg 1 else if i = 1 then s.reg 2 else if i = 2 then s.reg 8
  else if i = 3 then s.reg 9 else rd s.mem (s.reg 4 + BitVec.ofNat 64 (8 + 8 * i))

/-- Specification: a floating point number passed as such (`PassType_Float` is 2), not a reference
to one (`PassFlag_ByRef` is bit 1). -/
def Pass.isFloat (p : Pass) : Bool := decide (p.type = 2) && !p.flags.getLsbD 1

/-- The parameters on entry, from number `i`: a floating point number among the first four is in
a vector register, everything else (also a reference to a floating point number) is not. -/
def paramsIn (s : Mach) : Nat → List Pass → List Arg
  | _, [] => []
  | i, p :: ps =>
    (if p.isFloat ∧ i < 4 then .flt (s.xmm (Fin.ofNat 16 i)) else .int (argIn s i))
      :: paramsIn s (i + 1) ps

end Verif.Jit
