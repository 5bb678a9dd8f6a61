import Verif.Jit32.Machine
import Verif.Jit32.HookFunc
/-
Specification for C76: the C function that the generated 32-bit hook function stands for, as written
in the comments of core/sourcehook/sourcehook_hookmangen_x86.cpp:1381-1415, 692-700, 786-812, 946-950,
1062-1080 and in the macros of core/sourcehook/sourcehook.h (`SH_CALL_HOOKS`, `SH_CALL_ORIG`, …):

    status = MRES_IGNORED;
    [variable arguments: vsnprintf(va_buf, STRBUF_LEN - 1, fmt, argptr); va_buf[STRBUF_LEN - 1] = 0;]
    [constructors of orig_ret, override_ret, plugin_ret]
    IHookContext *pContext = shptr->SetupHookLoop(hi, vfnptr, this, &origentry, &status, &prev_res,
      &cur_res, &orig_ret, &override_ret);
    prev_res = MRES_IGNORED;
    while ((iter = pContext->GetNext())) {
      cur_res = MRES_IGNORED;
      plugin_ret = iter->Call(params);
      prev_res = cur_res;
      if (cur_res > status) status = cur_res;
      if (cur_res >= MRES_OVERRIDE) *pContext->GetOverrideRetPtr() = plugin_ret;
    }
    if (status != MRES_SUPERCEDE && pContext->ShouldCallOrig()) orig_ret = this->*origentry(params);
    else orig_ret = override_ret;
    … the loop again …
    retptr = status < MRES_OVERRIDE ? pContext->GetOrigRetPtr() : pContext->GetOverrideRetPtr();
    shptr->EndContext(pContext);
    return *retptr;
    [destructors of plugin_ret, override_ret, orig_ret]

A program works on a memory and a list of answers of the functions it calls.  Variables whose
address is passed on, and the parameters, are memory; the others are values.  Reading or writing an
address outside `vis` has no result, nor has a copy between overlapping places, nor a call without
an answer or with an answer that breaks the calling convention.
-/
namespace Verif.Jit32

open Verif.Jit (Byte flagByVal flagByRef flagODtor flagAssignOp flagRetMem flagRetReg typeBasic
  typeFloat typeObject)

namespace Spec

variable {U : Fpu}

/-- Specification: a sequence of bytes on the stack; `none` stands for one that is not specified. -/
abbrev Bytes := List (Option Byte)

/-- Specification: the bytes of a word, least significant first. -/
def word (v : W) : Bytes :=
  [some (v.extractLsb' 0 8), some (v.extractLsb' 8 8), some (v.extractLsb' 16 8),
   some (v.extractLsb' 24 8)]

/-- Specification: a call: the function, the bytes of its arguments, whether the stack has to be
aligned, the memory
the function finds. -/
structure SCall where
  target : W
  args : Bytes
  aligned : Bool
  mem : Memory

/-- Specification: a program with result in `α`. -/
def M (U : Fpu) (α : Type) :=
  Memory → List (Ans U) → Option (α × Memory × List (Ans U) × List SCall)

namespace M

/-- Specification: no effect. -/
def ret {α : Type} (a : α) : M U α := fun m as => some (a, m, as, [])

/-- Specification: one after the other. -/
def andThen {α β : Type} (x : M U α) (f : α → M U β) : M U β := fun m as =>
  match x m as with
  | none => none
  | some (a, m, as, t) =>
    match f a m as with
    | none => none
    | some (b, m, as, u) => some (b, m, as, t ++ u)

end M

instance : Monad (M U) where
  pure := M.ret
  bind := M.andThen

/-- Specification: the addresses a program may use and the memory the functions it calls leave
alone. -/
structure World where
  vis : W → Bool
  keep : W → Bool

/-- Specification: the addressable variables. -/
structure Vars where
  entry : W
  status : W
  prev : W
  cur : W
  orig : W
  override : W
  plugin : W
  temp : W
  vaArg : W
  vaBuf : W

/-- Specification: what is returned in EAX, in EDX and on the floating point stack, where that is
specified. -/
structure Ret (U : Fpu) where
  eax : Option W
  edx : Option W
  st : Option U.F

/-- Specification: how a function returns: through a hidden pointer, which it removes from the
stack; on the
floating point stack. -/
structure Kind where
  hid : Bool
  flt : Bool

/-- Specification: a function that returns nothing, or a number in EAX. -/
abbrev plain : Kind := ⟨false, false⟩

section
variable (Wd : World) (V : Vars) (g : Gen)

/-- Specification: read four bytes. -/
def load (a : W) : M U W := fun m as => if okN Wd.vis a 4 then some (rd m a, m, as, []) else none

/-- Specification: read eight bytes. -/
def load64 (a : W) : M U (BitVec 64) :=
  fun m as => if okN Wd.vis a 8 then some (rd64 m a, m, as, []) else none

/-- Specification: write four bytes. -/
def save (a v : W) : M U Unit :=
  fun m as => if okN Wd.vis a 4 then some ((), wr m a v, as, []) else none

/-- Specification: write eight bytes. -/
def save64 (a : W) (v : BitVec 64) : M U Unit :=
  fun m as => if okN Wd.vis a 8 then some ((), wr64 m a v, as, []) else none

/-- Specification: write one byte. -/
def save8 (a : W) (v : Byte) : M U Unit :=
  fun m as => if Wd.vis a then some ((), wr8 m a v, as, []) else none

/-- Specification: the memory after `n` bytes have been copied from `src` to `dst`. -/
def blk (m : Memory) (dst src : W) (n : Nat) : Memory :=
  fun x => if (x - dst).toNat < n then m (src + (x - dst)) else m x

/-- Specification: the two places of `n` bytes do not overlap. -/
def apart (dst src : W) (n : Nat) : Bool :=
  decide (n ≤ (dst - src).toNat) && decide (n ≤ (src - dst).toNat)

/-- Specification: copy `n` bytes. -/
def memcpy (dst src : W) (n : Nat) : M U Unit := fun m as =>
  if okN Wd.vis src n && okN Wd.vis dst n && apart dst src n then some ((), blk m dst src n, as, [])
  else none

/-- Specification: the answer of a function that keeps to the calling convention. -/
def obeys (k : Kind) (args : Bytes) (a : Ans U) : Bool :=
  decide (a.own = args.length) && decide (a.pop = if k.hid then 4 else 0)
    && decide (a.fpu.length = if k.flt then 1 else 0)

/-- Specification: call a function. -/
def callF (k : Kind) (aligned : Bool) (f : W) (args : Bytes) : M U (Ans U) := fun m as =>
  match as with
  | [] => none
  | a :: as =>
    if obeys k args a then
      some (a, fun x => if Wd.keep x then m x else a.mem x, as, [⟨f, args, aligned, m⟩])
    else none

/-- Specification: only under a condition. -/
def when' (c : Bool) (x : M U Unit) : M U Unit := if c then x else pure ()

/-- Specification: call a virtual function of `obj` that takes no arguments and returns a number. -/
def virt (obj : W) (idx : Nat) : M U (Ans U) := do
  let vt ← load Wd obj
  let f ← load Wd (vt + BitVec.ofNat 32 (4 * idx))
  callF Wd plain false f (word obj)

/-! ### Parameters -/

/-- Specification: the bytes a parameter at address `a` takes in the arguments of a call: a
reference and a number
are copied, the upper half of a word with a 16-bit number is not specified, a floating point number
goes through the floating point stack, an object is copied and what fills up its last word is not
specified. -/
def paramBytes (m : Memory) (a : W) (p : Pass) : Bytes :=
  if p.flags.getLsbD 1 then word (rd m a)
  else if p.type = 1 then
    if p.size = 1 then word ((m a).setWidth 32)
    else if p.size = 2 then [some (m a), some (m (a + 1)), none, none]
    else if p.size = 4 then word (rd m a)
    else word (rd m a) ++ word (rd m (a + 4))
  else if p.type = 2 then
    if p.size = 4 then word (quiet32 (rd m a))
    else word ((quiet64 (rd64 m a)).extractLsb' 0 32) ++ word ((quiet64 (rd64 m a)).extractLsb' 32 32)
  else (List.range p.size).map (fun i => some (m (a + BitVec.ofNat 32 i)))
    ++ List.replicate ((p.size + 3) / 4 * 4 - p.size) none

/-- Specification: the bytes of the stack a parameter takes. -/
def slotSize (p : Pass) : Nat := if p.flags.getLsbD 1 then 4 else (p.size + 3) / 4 * 4

/-- Specification: the bytes of a parameter that are read. -/
def readSize (p : Pass) : Nat := if p.flags.getLsbD 1 then 4 else p.size

/-- Specification: read one parameter. -/
def param (a : W) (p : Pass) : M U Bytes := fun m as =>
  if okN Wd.vis a (readSize p) then some (paramBytes m a p, m, as, []) else none

/-- Specification: read the parameters, the first of which is at address `a`. -/
def params : W → List Pass → M U Bytes
  | _, [] => pure []
  | a, p :: ps => do
    let r ← params (a + BitVec.ofNat 32 (slotSize p)) ps
    let b ← param Wd a p
    pure (b ++ r)

/-! ### The returned value (bits of core/sourcehook/sourcehook.h:198-212) -/

/-- Specification: returned through a hidden pointer? -/
def hid : Bool := g.ret.flags.getLsbD 6

/-- Specification: returned on the floating point stack? -/
def flt : Bool :=
  g.ret.size != 0 && !g.ret.flags.getLsbD 1 && !g.ret.flags.getLsbD 6 && decide (g.ret.type = 2)

/-- Specification: does an object returned in memory need a temporary place? -/
def tmp : Bool := g.ret.flags.getLsbD 6 && (g.ret.flags.getLsbD 2 || g.ret.flags.getLsbD 4)

/-- Specification: the place handed to a function whose result goes to the variable `v`, if it needs
one. -/
def place (v : W) : Bytes := if hid g then word (if tmp g then V.temp else v) else []

/-! ### The pieces -/

/-- Specification: `status = MRES_IGNORED` and the variable arguments; `fmt` is the address of the
format, the last
parameter, behind which they start. -/
def start (fmt : W) : M U Unit := do
  save Wd V.status 0
  when' g.varArgs (save Wd V.vaArg (fmt + 4))
  if g.vafmt then do
    let f ← load Wd fmt
    let _ ← callF Wd plain true g.vsn (word V.vaBuf ++ word 4095 ++ word f ++ word (fmt + 4))
    save8 Wd (V.vaBuf + 4095) 0
  else pure ()

/-- Specification: construct the variables for the returned value. -/
def construct : M U Unit :=
  if g.ret.flags.getLsbD 0 = true ∧ g.ret.ctor ≠ 0 then do
    let _ ← callF Wd plain true g.ret.ctor (word V.orig)
    let _ ← callF Wd plain true g.ret.ctor (word V.override)
    let _ ← callF Wd plain true g.ret.ctor (word V.plugin)
    pure ()
  else pure ()

/-- Specification: `SetupHookLoop`. -/
def setup (this : W) : M U W := do
  let vt ← load Wd (this + BitVec.ofInt 32 g.vtblOffs)
  let hi ← load Wd g.pHI
  let a ← callF Wd plain false g.setupLoop
    (word g.sh ++ word hi ++ word (vt + BitVec.ofInt 32 (4 * g.vtblIdx)) ++ word this ++ word V.entry
     ++ word V.status ++ word V.prev ++ word V.cur
     ++ word (if g.ret.size = 0 then 0 else V.orig) ++ word (if g.ret.size = 0 then 0 else V.override))
  pure (a.reg 0)

/-- Specification: assign a returned value. -/
def move (dst src : W) : M U Unit :=
  if g.ret.assign ≠ 0 then do
    let _ ← callF Wd plain true g.ret.assign (word dst ++ word src)
    pure ()
  else memcpy Wd dst src g.ret.size

/-- Specification: destroy the temporary object. -/
def dropT : M U Unit :=
  if g.ret.dtor ≠ 0 then do
    let _ ← callF Wd plain true g.ret.dtor (word V.temp)
    pure ()
  else pure ()

/-- Specification: keep a value returned on the floating point stack. -/
def keepFloat (v : W) : List U.F → M U Unit
  | [x] => if g.ret.size = 4 then save Wd v (U.to32 x) else save64 Wd v (U.to64 x)
  | _ => fun _ _ => none

/-- Specification: keep the value a call returned in the variable `v`. -/
def keepResult (a : Ans U) (v : W) : M U Unit :=
  if g.ret.size = 0 then pure ()
  else if g.ret.flags.getLsbD 1 then save Wd v (a.reg 0)
  else if hid g then
    if tmp g then do
      move Wd g v V.temp
      dropT Wd V g
    else pure ()
  else if flt g then keepFloat Wd g v a.fpu
  else if g.ret.size ≤ 4 then save Wd v (a.reg 0)
  else do
    save Wd v (a.reg 0)
    save Wd (v + 4) (a.reg 2)

/-- Specification: one hook; `it` is its delegate, `a` the address of the parameters. -/
def hookOne (it a : W) : M U Unit := do
  save Wd V.cur 0
  let ps ← params Wd a g.params
  let vt ← load Wd it
  let f ← load Wd (vt + 8)
  let r ← callF Wd ⟨hid g, flt g⟩ true f
    (place V g V.plugin ++ word it ++ ps ++ (if g.vafmt then word V.vaBuf else []))
  keepResult Wd V g r V.plugin

/-- Specification: `prev_res = cur_res; if (cur_res > status) status = cur_res`. -/
def raise : M U Unit := do
  let c ← load Wd V.cur
  let st ← load Wd V.status
  save Wd V.prev c
  when' (decide (st.toInt < c.toInt)) (save Wd V.status c)

/-- Specification: `*p = plugin_ret`. -/
def setOverride (p : W) : M U Unit :=
  if g.ret.flags.getLsbD 1 then do
    let v ← load Wd V.plugin
    save Wd p v
  else move Wd g p V.plugin

/-- Specification: `if (cur_res >= MRES_OVERRIDE) *pContext->GetOverrideRetPtr() = plugin_ret`. -/
def override (ctx : W) : M U Unit :=
  if g.ret.size = 0 then pure ()
  else do
    let c ← load Wd V.cur
    if c.toInt < 2 then pure ()
    else do
      let p ← virt Wd ctx 1
      setOverride Wd V g (p.reg 0)

/-- Specification: the loop over the hooks, for at most `n - 1` hooks. -/
def hooks (ctx a : W) : Nat → M U Unit
  | 0 => fun _ _ => none
  | n + 1 => do
    let it ← virt Wd ctx 0
    if it.reg 0 = 0 then pure ()
    else do
      hookOne Wd V g (it.reg 0) a
      raise Wd V
      override Wd V g ctx
      hooks ctx a n

/-- Specification: `prev_res = MRES_IGNORED` and the loop. -/
def callHooks (n : Nat) (ctx a : W) : M U Unit := do
  save Wd V.prev 0
  hooks Wd V g ctx a n

/-- Specification: `orig_ret = override_ret`. -/
def origElse : M U Unit :=
  if g.ret.size = 0 then pure ()
  else if g.ret.flags.getLsbD 1 then do
    let v ← load Wd V.override
    save Wd V.orig v
  else move Wd g V.orig V.override

/-- Specification: the call of the original function. -/
def callOriginal (this a : W) : M U Unit := do
  let ps ← params Wd a g.params
  let f ← load Wd V.entry
  let r ← callF Wd ⟨hid g, flt g⟩ true f
    (place V g V.orig ++ word this ++ ps ++ (if g.vafmt then word g.fmtS ++ word V.vaBuf else []))
  keepResult Wd V g r V.orig

/-- Specification: `if (status != MRES_SUPERCEDE && pContext->ShouldCallOrig()) …`. -/
def callOrig (ctx this a : W) : M U Unit := do
  let st ← load Wd V.status
  if st = 3 then origElse Wd V g
  else do
    let r ← virt Wd ctx 3
    if (r.reg 0).extractLsb' 0 8 = 0 then origElse Wd V g else callOriginal Wd V g this a

/-- Specification: the pointer to the value to return. -/
def prepare (ctx : W) : M U W :=
  if g.ret.size = 0 then pure 0
  else do
    let st ← load Wd V.status
    let a ← virt Wd ctx (if st.toInt < 2 then 2 else 1)
    pure (a.reg 0)

/-- Specification: `EndContext`. -/
def endContext (ctx : W) : M U Unit := do
  let _ ← callF Wd plain false g.endContext (word g.sh ++ word ctx)
  pure ()

/-- Specification: write the value returned in memory. -/
def returnMem (memret p : W) : M U Unit :=
  if g.ret.cctor ≠ 0 then do
    let _ ← callF Wd plain true g.ret.cctor (word memret ++ word p)
    pure ()
  else memcpy Wd memret p g.ret.size

/-- Specification: `return *retptr`. -/
def doReturn (memret p : W) : M U (Ret U) :=
  if g.ret.size = 0 then pure ⟨none, none, none⟩
  else if g.ret.flags.getLsbD 1 then do
    let v ← load Wd p
    pure ⟨some v, none, none⟩
  else if hid g then do
    returnMem Wd g memret p
    pure ⟨some memret, none, none⟩
  else if flt g then
    if g.ret.size = 4 then do
      let v ← load Wd p
      pure ⟨none, none, some (U.of32 v)⟩
    else do
      let v ← load64 Wd p
      pure ⟨none, none, some (U.of64 v)⟩
  else if g.ret.size ≤ 4 then do
    let v ← load Wd p
    pure ⟨some v, none, none⟩
  else do
    let v ← load Wd p
    let w ← load Wd (p + 4)
    pure ⟨some v, some w, none⟩

/-- Specification: the destructors of the variables for the returned value. -/
def destroyRet : M U Unit :=
  if g.ret.flags.getLsbD 0 = true ∧ g.ret.dtor ≠ 0 then do
    let _ ← callF Wd plain true g.ret.dtor (word V.plugin)
    let _ ← callF Wd plain true g.ret.dtor (word V.override)
    let _ ← callF Wd plain true g.ret.dtor (word V.orig)
    pure ()
  else pure ()

/-- Specification: the whole function; each loop runs at most `n - 1` times; `a` is the address of
the parameters,
`fmt` the address right behind those of the prototype. -/
def hookFunction (n : Nat) (this memret a fmt : W) : M U (Ret U) := do
  start Wd V g fmt
  construct Wd V g
  let ctx ← setup Wd V g this
  callHooks Wd V g n ctx a
  callOrig Wd V g ctx this a
  callHooks Wd V g n ctx a
  let p ← prepare Wd V g ctx
  endContext Wd g ctx
  let r ← doReturn Wd g memret p
  destroyRet Wd V g
  pure r

end

/-! ## Machine and program -/

/-- Specification: the stack of the generated function, relative to its frame pointer `F`: `low` is
the bottom of the
frame, `depth` how far the stack reaches below it, `args` the end of the words only the function itself
uses (up to `this`), `wide` whether there is a variable for the pointer to the returned value. -/
structure Stack where
  F : W
  low : Int
  depth : Int
  args : Int
  wide : Bool

/-- Specification: the bytes no other function may touch, relative to `F`: the saved registers, the
return address,
`this` and the pointer for the returned value; the variables `pContext` and `retptr`. -/
def Stack.priv (S : Stack) (k : Int) : Bool :=
  decide (0 ≤ k ∧ k < S.args) || decide (-24 ≤ k ∧ k < -20) || (S.wide && decide (-28 ≤ k ∧ k < -24))

/-- Specification: the addresses the program has no name for: private ones and the stack below the
frame. -/
def Stack.hidden (S : Stack) (x : W) : Bool :=
  S.priv (x - S.F).toInt || decide (S.low - S.depth ≤ (x - S.F).toInt ∧ (x - S.F).toInt < S.low)

/-- Specification: the machine's call `e` is the program's call `c`: the same function, the same
arguments, the
same visible memory; the arguments lie in the stack below the frame, with room for the return
address; the stack pointer is a multiple of 16 where that is demanded. -/
structure IsCall (S : Stack) (c : SCall) (e : Event U) : Prop where
  target : e.target = c.target
  args : ∀ i b, c.args[i]? = some (some b) → e.state.mem (e.state.reg 4 + BitVec.ofNat 32 i) = b
  mem : ∀ x, S.hidden x = false → e.state.mem x = c.mem x
  stack : ∃ d : Int, e.state.reg 4 = S.F + BitVec.ofInt 32 (S.low - d) ∧
    (c.args.length : Int) ≤ d ∧ d + 4 ≤ S.depth
  align : c.aligned = true → (e.state.reg 4).toNat % 16 = 0

/-- Specification: call for call. -/
inductive AreCalls (S : Stack) : List SCall → List (Event U) → Prop
  | nil : AreCalls S [] []
  | cons {c : SCall} {e : Event U} {cs : List SCall} {es : List (Event U)} :
      IsCall S c e → AreCalls S cs es → AreCalls S (c :: cs) (e :: es)

end Spec

end Verif.Jit32
