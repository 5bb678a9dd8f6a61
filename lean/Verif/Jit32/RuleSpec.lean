import Verif.Jit32.HookProps
/-
Specification for C87: what the functions called by a generated 32-bit hook function promise (the
context of core/sourcehook/sourcehook.cpp, the handlers of the plugins, `vsnprintf`), and the rule by
which the hooks, the original function and the result of the call are to be chosen
(core/sourcehook/sourcehook.h:131-139 `META_RES`, and the comments of `SH_CALL_HOOKS`):

  * the hooks are called in order, each with the parameters of the call; where the function takes a
    format and variable arguments, with the text they make up;
  * the original function is called unless a hook in front of it said `MRES_SUPERCEDE` (3) or the
    context says no;
  * the call returns what the last hook that said `MRES_OVERRIDE` (2) or more returned, else what
    the original function returned.

A returned value is a sequence of bytes: of a number, a pointer or a reference, a floating point
number, or an object without special functions, in registers or in memory.
-/
namespace Verif.Jit32.Rule

open Spec
open Verif.Jit (Byte)

variable {U : Fpu}

/-- No counterpart in /repo (specification): a hook as the generated function meets it: the object
GetNext gives, its table of functions, the function `Call` in it, the result code it leaves and the
value it returns. -/
structure Hook where
  obj : W
  vt : W
  fn : W
  res : W
  val : List Byte

/-- No counterpart in /repo (specification): the context object (core/sourcehook/sourcehook.h:338-344
`IHookContext`): its address, its table of functions, the four functions in it, and the original
function. -/
structure Context where
  ctx : W
  vt : W
  next : W
  over : W
  orig : W
  should : W
  entry : W

/-- No counterpart in /repo (specification): what hooks can see of the call: the status so far,
the override value, the original value (`META_RESULT_STATUS`, `META_RESULT_OVERRIDE_RET`,
`META_RESULT_ORIG_RET`, core/sourcehook/sourcehook.h:590-593). -/
structure St where
  status : W
  ov : List Byte
  or : List Byte

/-- No counterpart in /repo (specification): a call of a hook function: the prototype and what the
generator knows, the object, the address for a value returned in memory, the address of the
parameters, the memory the call finds; the context and all hooks; the text a format and variable
arguments make up. -/
structure Case where
  Wd : World
  V : Vars
  g : Gen
  this : W
  memret : W
  args : W
  mem : Memory
  C : Context
  H : List Hook
  text : List Byte

/-- Specification: `n` bytes of memory. -/
def bytes (m : Memory) (a : W) (n : Nat) : List Byte :=
  (List.range n).map fun i => m (a + BitVec.ofNat 32 i)

/-- Specification: the bytes of a word, least significant first. -/
def wordBytes (v : W) : List Byte :=
  [v.extractLsb' 0 8, v.extractLsb' 8 8, v.extractLsb' 16 8, v.extractLsb' 24 8]

/-- Specification: no byte is in both places. -/
def Apart (a : W) (n : Nat) (b : W) (k : Nat) : Prop :=
  ∀ i j : Nat, i < n → j < k → a + BitVec.ofNat 32 i ≠ b + BitVec.ofNat 32 j

/-- Specification: the number of bytes of a returned value: four for a reference. -/
def width (g : Gen) : Nat := if g.ret.flags.getLsbD 1 then 4 else g.ret.size

/-- Specification: the number of bytes of a variable for one. -/
def room (g : Gen) : Nat := (width g + 3) / 4 * 4

/-- Specification: memory after a call answered by `a`. -/
def later (Wd : World) (m : Memory) (a : Ans U) : Memory :=
  fun x => if Wd.keep x then m x else a.mem x

/-- Specification: what is returned is copied as bytes: no constructor, destructor, copy constructor
or assignment operator. -/
structure Simple (g : Gen) : Prop where
  ctor : ¬ (g.ret.flags.getLsbD 0 = true ∧ g.ret.ctor ≠ 0)
  dtor : ¬ (g.ret.flags.getLsbD 0 = true ∧ g.ret.dtor ≠ 0)
  assign : g.ret.assign = 0
  cctor : hid g = true → g.ret.cctor = 0
  temp : tmp g = false

/-- Specification: the value a function returns: a reference in EAX; through the hidden pointer `v`;
on the floating point stack; in EAX and EDX. -/
def value (g : Gen) (a : Ans U) (m : Memory) (v : W) : List Byte :=
  if g.ret.flags.getLsbD 1 then wordBytes (a.reg 0)
  else if hid g then bytes m v g.ret.size
  else if flt g then
    match a.fpu with
    | [x] => if g.ret.size = 4 then wordBytes (U.to32 x)
      else wordBytes ((U.to64 x).extractLsb' 0 32) ++ wordBytes ((U.to64 x).extractLsb' 32 32)
    | _ => []
  else (wordBytes (a.reg 0) ++ wordBytes (a.reg 2)).take g.ret.size

/-- Specification: a function that keeps to the calling convention: it takes `n` bytes of arguments. -/
structure Polite (k : Kind) (n : Nat) (a : Ans U) : Prop where
  own : a.own = n
  pop : a.pop = if k.hid then 4 else 0
  fpu : a.fpu.length = if k.flt then 1 else 0

/-- Specification: the parameters as the caller passed them, the first at address `a`. -/
def argBytes (m : Memory) : W → List Pass → Bytes
  | _, [] => []
  | a, p :: ps => paramBytes m a p ++ argBytes m (a + BitVec.ofNat 32 (slotSize p)) ps

section
variable (K : Case)

/-- Specification: the parameters of the call, to be handed on. -/
def Case.params : Bytes := argBytes K.mem K.args K.g.params

/-- Specification: where the format is, behind the parameters. -/
def Case.fmt : W := K.args + BitVec.ofNat 32 (slots K.g.params)

/-- Specification: the bytes of the arguments that are read. -/
def Case.argSize : Nat := slots K.g.params + if K.g.vafmt then 4 else 0

/-- Specification: the objects the generated function relies on: the context with its table, the
hooks with theirs. -/
def Case.objects : List (W × W) :=
  [(K.C.ctx, K.C.vt), (K.C.vt, K.C.next)]
  ++ (if K.g.ret.size = 0 then [] else [(K.C.vt + 4, K.C.over), (K.C.vt + 8, K.C.orig)])
  ++ [(K.C.vt + 12, K.C.should)] ++ K.H.flatMap fun h => [(h.obj, h.vt), (h.vt + 8, h.fn)]

/-- Specification: the memory the generated function relies on: these objects and the address of the
original function. -/
def Case.cells : List (W × W) := (K.V.entry, K.C.entry) :: K.objects

/-- Specification: the variables the generated function writes, with their sizes. -/
def Case.written : List (W × Nat) :=
  [(K.V.status, 4), (K.V.cur, 4), (K.V.prev, 4)]
  ++ (if K.g.ret.size = 0 then []
    else [(K.V.orig, room K.g), (K.V.override, room K.g), (K.V.plugin, room K.g)])
  ++ if K.g.vafmt then [(K.V.vaArg, 4), (K.V.vaBuf, 4096)] else []

/-- Specification: the places are accessible and apart from each other. -/
structure Laid : Prop where
  ok : ∀ x ∈ K.written, okN K.Wd.vis x.1 x.2 = true
  apart : K.written.Pairwise fun a b => Apart a.1 a.2 b.1 b.2
  cellOk : ∀ c ∈ K.cells, okN K.Wd.vis c.1 4 = true
  cellApart : ∀ c ∈ K.cells, ∀ x ∈ K.written, Apart x.1 x.2 c.1 4
  argOk : okN K.Wd.vis K.args K.argSize = true
  argApart : ∀ x ∈ K.written, Apart x.1 x.2 K.args K.argSize

/-- Specification: the text with its end, where there is one. -/
def Case.buf : Option (List Byte) := if K.g.vafmt then some (K.text ++ [0]) else none

/-- Specification: the memory is as the state says. -/
structure Holds (m : Memory) (σ : St) : Prop where
  cell : ∀ c ∈ K.cells, rd m c.1 = c.2
  status : rd m K.V.status = σ.status
  ov : K.g.ret.size ≠ 0 → bytes m K.V.override (width K.g) = σ.ov
  or : K.g.ret.size ≠ 0 → bytes m K.V.orig (width K.g) = σ.or
  args : bytes m K.args K.argSize = bytes K.mem K.args K.argSize
  buf : ∀ b, K.buf = some b → bytes m K.V.vaBuf 4096 = b

/-- Specification: a function that leaves everything as it is. -/
def Quiet (a : Ans U) (σ : St) : Prop := ∀ m, Holds K m σ → Holds K (later K.Wd m a) σ

/-- Specification: a function of the context: no arguments but the object, nothing changed. -/
structure Served (a : Ans U) (σ : St) : Prop where
  quiet : Quiet K a σ
  polite : Polite plain 4 a

/-- Specification: how the hooked function returns. -/
def Case.kind : Kind := ⟨hid K.g, flt K.g⟩

/-- Specification: the arguments of a hook: the place for the value if it needs one, the object, the
parameters, the text. -/
def Case.hookArgs (h : Hook) : Bytes :=
  place K.V K.g K.V.plugin ++ word h.obj ++ K.params ++ if K.g.vafmt then word K.V.vaBuf else []

/-- Specification: the arguments of the original function: the place for the value if it needs one,
the object, the parameters, the format `"%s"` and the text. -/
def Case.origArgs : Bytes :=
  place K.V K.g K.V.orig ++ word K.this ++ K.params
    ++ if K.g.vafmt then word K.g.fmtS ++ word K.V.vaBuf else []

/-- Specification: a hook: it leaves its result code in `cur_res` and returns its value. -/
structure HookDone (a : Ans U) (h : Hook) (σ : St) : Prop where
  quiet : Quiet K a σ
  polite : Polite K.kind (K.hookArgs h).length a
  cur : ∀ m, Holds K m σ → rd (later K.Wd m a) K.V.cur = h.res
  val : K.g.ret.size ≠ 0 → ∀ m, Holds K m σ → value K.g a (later K.Wd m a) K.V.plugin = h.val

/-- Specification: the original function returns `v`; it may have written that to `orig_ret`. -/
structure OrigDone (a : Ans U) (v : List Byte) (σ : St) : Prop where
  quiet : ∀ m, Holds K m σ → ∃ x, Holds K (later K.Wd m a) { σ with or := x }
  polite : Polite K.kind K.origArgs.length a
  val : K.g.ret.size ≠ 0 → ∀ m, Holds K m σ → value K.g a (later K.Wd m a) K.V.orig = v

/-- Specification: a function that leaves the variable `plugin_ret`, whose address nobody has, as it
is. -/
def Spares (a : Ans U) (v : List Byte) : Prop :=
  ∀ m, bytes m K.V.plugin (width K.g) = v → bytes (later K.Wd m a) K.V.plugin (width K.g) = v

/-- Specification: the status a result code makes of a status. -/
def raised (st r : W) : W := if st.toNat < r.toNat then r else st

/-- Specification: the state after a hook. -/
def St.hook (σ : St) (h : Hook) : St where
  status := raised σ.status h.res
  ov := if 2 ≤ h.res.toNat then h.val else σ.ov
  or := σ.or

/-- Specification: the answers during one pass over the hooks `hs`, from a state to another: the
object of each hook from GetNext, the hook, GetOverrideRetPtr where the hook overrides, and null
from GetNext at the end. -/
inductive LoopAns : St → List Hook → List (Ans U) → St → Prop
  | done {σ : St} {a : Ans U} : Served K a σ → a.reg 0 = 0 → LoopAns σ [] [a] σ
  | hook {σ σ' : St} {h : Hook} {hs : List Hook} {a b : Ans U} {as : List (Ans U)} :
      h ∈ K.H → h.obj ≠ 0 → h.res.toNat ≤ 3 →
      Served K a σ → a.reg 0 = h.obj → HookDone K b h σ →
      (K.g.ret.size = 0 ∨ h.res.toNat < 2) →
      LoopAns (σ.hook h) hs as σ' → LoopAns σ (h :: hs) (a :: b :: as) σ'
  | over {σ σ' : St} {h : Hook} {hs : List Hook} {a b c : Ans U} {as : List (Ans U)} :
      h ∈ K.H → h.obj ≠ 0 → h.res.toNat ≤ 3 →
      Served K a σ → a.reg 0 = h.obj → HookDone K b h σ →
      K.g.ret.size ≠ 0 → 2 ≤ h.res.toNat →
      Served K c { σ with status := raised σ.status h.res } → Spares K c h.val →
      c.reg 0 = K.V.override →
      LoopAns (σ.hook h) hs as σ' → LoopAns σ (h :: hs) (a :: b :: c :: as) σ'

/-- Specification: the state after the original function, if that was called and returned `v`, or
without it. -/
def St.orig (σ : St) : Option (List Byte) → St
  | some v => { σ with or := v }
  | none => { σ with or := σ.ov }

/-- Specification: the answers between the two passes, with the choice made: `some v` if the
original function was called and returned `v`. -/
inductive OrigAns (σ : St) : List (Ans U) → Option (List Byte) → Prop
  | superceded : σ.status = 3 → OrigAns σ [] none
  | refused {a : Ans U} : σ.status ≠ 3 → Served K a σ → (a.reg 0).toNat % 256 = 0 →
      OrigAns σ [a] none
  | called {a b : Ans U} {v : List Byte} : σ.status ≠ 3 → Served K a σ →
      (a.reg 0).toNat % 256 ≠ 0 → OrigDone K b v σ → OrigAns σ [a, b] (some v)

/-- Specification: the answers at the end: GetOverrideRetPtr or GetOrigRetPtr, EndContext. -/
inductive EndAns (σ : St) : List (Ans U) → Prop
  | void {a : Ans U} : K.g.ret.size = 0 → Quiet K a σ → Polite plain 8 a → EndAns σ [a]
  | value {p a : Ans U} : K.g.ret.size ≠ 0 → Served K p σ →
      p.reg 0 = (if 2 ≤ σ.status.toNat then K.V.override else K.V.orig) → Quiet K a σ →
      Polite plain 8 a → EndAns σ [p, a]

/-! ## What is called -/

/-- Specification: a call as it has to be: function, arguments, what the called function can
see: the state and the text. -/
structure Seen where
  target : W
  args : Bytes
  st : St
  buf : Option (List Byte)

/-- Specification: the call made is the call wanted. -/
structure IsSeen (c : SCall) (e : Seen) : Prop where
  target : c.target = e.target
  args : c.args = e.args
  status : rd c.mem K.V.status = e.st.status
  ov : K.g.ret.size ≠ 0 → bytes c.mem K.V.override (width K.g) = e.st.ov
  or : K.g.ret.size ≠ 0 → bytes c.mem K.V.orig (width K.g) = e.st.or
  buf : ∀ b, e.buf = some b → bytes c.mem K.V.vaBuf 4096 = b

/-- Specification: call for call. -/
inductive AreSeen : List SCall → List Seen → Prop
  | nil : AreSeen [] []
  | cons {c : SCall} {e : Seen} {cs : List SCall} {es : List Seen} :
      IsSeen K c e → AreSeen cs es → AreSeen (c :: cs) (e :: es)

/-- Specification: a call of a function of the context. -/
def Case.ask (f : W) (σ : St) : Seen := ⟨f, word K.C.ctx, σ, K.buf⟩

/-- Specification: the calls of one pass. -/
def loopCalls : St → List Hook → List Seen
  | σ, [] => [K.ask K.C.next σ]
  | σ, h :: hs =>
    [K.ask K.C.next σ, ⟨h.fn, K.hookArgs h, σ, K.buf⟩]
    ++ (if K.g.ret.size ≠ 0 ∧ 2 ≤ h.res.toNat then
        [K.ask K.C.over { σ with status := raised σ.status h.res }] else [])
    ++ loopCalls (σ.hook h) hs

/-- Specification: the calls between the passes. -/
def origCalls (σ : St) (o : Option (List Byte)) : List Seen :=
  (if σ.status = 3 then [] else [K.ask K.C.should σ])
  ++ (if o.isSome then [⟨K.C.entry, K.origArgs, σ, K.buf⟩] else [])

/-- Specification: the calls at the end. -/
def endCalls (σ : St) : List Seen :=
  (if K.g.ret.size = 0 then [] else [K.ask (if 2 ≤ σ.status.toNat then K.C.over else K.C.orig) σ])
  ++ [⟨K.g.endContext, word K.g.sh ++ word K.C.ctx, σ, K.buf⟩]

/-! ## The whole call -/

/-- Specification: the state at the beginning, with the variables as they happen to be. -/
def first : St := ⟨0, bytes K.mem K.V.override (width K.g), bytes K.mem K.V.orig (width K.g)⟩

/-- Specification: the state after some hooks. -/
def passed (σ : St) (hs : List Hook) : St := hs.foldl St.hook σ

/-- Specification: the state at the end. -/
def last (pre post : List Hook) (o : Option (List Byte)) : St :=
  passed ((passed (first K) pre).orig o) post

/-- Specification: the memory when SetupHookLoop is called, as far as it matters. -/
structure Before (m : Memory) : Prop where
  status : rd m K.V.status = 0
  hi : rd m K.g.pHI = rd K.mem K.g.pHI
  vt : rd m (K.this + BitVec.ofInt 32 K.g.vtblOffs) = rd K.mem (K.this + BitVec.ofInt 32 K.g.vtblOffs)
  objects : ∀ c ∈ K.objects, rd m c.1 = rd K.mem c.1
  ov : K.g.ret.size ≠ 0 → bytes m K.V.override (width K.g) = (first K).ov
  or : K.g.ret.size ≠ 0 → bytes m K.V.orig (width K.g) = (first K).or
  args : bytes m K.args K.argSize = bytes K.mem K.args K.argSize

/-- Specification: the answer of `vsnprintf`: the text. -/
structure TextAns (a : Ans U) : Prop where
  polite : Polite plain 16 a
  done : ∀ m, Before K m → Before K (later K.Wd m a) ∧ bytes (later K.Wd m a) K.V.vaBuf 4095 = K.text

/-- Specification: the answer of SetupHookLoop: the context. -/
structure SetupAns (a : Ans U) : Prop where
  polite : Polite plain 40 a
  ctx : a.reg 0 = K.C.ctx
  done : ∀ m, Before K m → (∀ b, K.buf = some b → bytes m K.V.vaBuf 4096 = b) →
    Holds K (later K.Wd m a) (first K)

/-- Specification: what SetupHookLoop is told is accessible and apart from the variables. -/
structure Told : Prop where
  hi : okN K.Wd.vis K.g.pHI 4 = true
  vt : okN K.Wd.vis (K.this + BitVec.ofInt 32 K.g.vtblOffs) 4 = true
  hiApart : ∀ x ∈ K.written, Apart x.1 x.2 K.g.pHI 4
  vtApart : ∀ x ∈ K.written, Apart x.1 x.2 (K.this + BitVec.ofInt 32 K.g.vtblOffs) 4

/-- Specification: the place for a value returned in memory is accessible and apart from the
variables. -/
structure Placed : Prop where
  ok : okN K.Wd.vis K.memret K.g.ret.size = true
  apart : ∀ x ∈ K.written, Apart x.1 x.2 K.memret K.g.ret.size

/-- Specification: the answers before SetupHookLoop. -/
def Opening (as : List (Ans U)) : Prop :=
  if K.g.vafmt then ∃ a, as = [a] ∧ TextAns K a else as = []

/-- Specification: the answers during a whole call with the hooks `pre` and `post`, the original
function returning `o` if it was called; `mid` are the answers between the passes. -/
def Plays (pre post : List Hook) (mid ans : List (Ans U)) (o : Option (List Byte)) : Prop :=
  ∃ as₀ a as₁ as₃ as₄, ans = as₀ ++ (a :: (as₁ ++ (mid ++ (as₃ ++ as₄)))) ∧
    Opening K as₀ ∧ SetupAns K a ∧
    LoopAns K (first K) pre as₁ (passed (first K) pre) ∧
    OrigAns K (passed (first K) pre) mid o ∧
    LoopAns K ((passed (first K) pre).orig o) post as₃ (last K pre post o) ∧
    EndAns K (last K pre post o) as₄

/-- Specification: the call of `vsnprintf`. -/
def textCall : Seen :=
  ⟨K.g.vsn, word K.V.vaBuf ++ word 4095 ++ word (rd K.mem K.fmt) ++ word (K.fmt + 4), first K, none⟩

/-- Specification: the call of SetupHookLoop. -/
def setupCall : Seen :=
  ⟨K.g.setupLoop, word K.g.sh ++ word (rd K.mem K.g.pHI)
    ++ word (rd K.mem (K.this + BitVec.ofInt 32 K.g.vtblOffs) + BitVec.ofInt 32 (4 * K.g.vtblIdx))
    ++ word K.this ++ word K.V.entry ++ word K.V.status ++ word K.V.prev ++ word K.V.cur
    ++ word (if K.g.ret.size = 0 then 0 else K.V.orig)
    ++ word (if K.g.ret.size = 0 then 0 else K.V.override), first K, K.buf⟩

/-- Specification: all calls. -/
def wanted (pre post : List Hook) (o : Option (List Byte)) : List Seen :=
  let σ₁ := passed (first K) pre
  let σ₂ := σ₁.orig o
  (if K.g.vafmt then [textCall K] else []) ++ (setupCall K :: (loopCalls K (first K) pre
    ++ (origCalls K σ₁ o ++ (loopCalls K σ₂ post ++ endCalls K (last K pre post o)))))

/-! ## The rule -/

/-- Specification: the last hook that said `MRES_OVERRIDE` or `MRES_SUPERCEDE`. -/
def lastOverride (hs : List Hook) : Option Hook := (hs.filter fun h => 2 ≤ h.res.toNat).getLast?

/-- Specification: is a result code the highest of some hooks (`MRES_IGNORED` if there is none)? -/
def IsHighest (r : W) (hs : List Hook) : Prop :=
  (∀ h ∈ hs, h.res.toNat ≤ r.toNat) ∧ (r = 0 ∨ ∃ h ∈ hs, h.res = r)

/-- Specification: the value the call is to return: that of the last hook that overrides, else that
of the original function, else (nobody returned anything) the variable as it was found. -/
def ruled (pre post : List Hook) (o : Option (List Byte)) : List Byte :=
  match lastOverride (pre ++ post) with
  | some h => h.val
  | none => o.getD (bytes K.mem K.V.override (width K.g))

/-- Specification: the value `v` is what has been returned: in EAX; at the place for it, whose address
is in EAX; on the floating point stack; in EAX and EDX. -/
def Returned (g : Gen) (memret : W) (v : List Byte) (eax edx : W) (fpu : List U.F) (m : Memory) : Prop :=
  if g.ret.flags.getLsbD 1 then wordBytes eax = v
  else if hid g then eax = memret ∧ bytes m memret g.ret.size = v
  else if flt g then
    if g.ret.size = 4 then ∃ x, wordBytes x = v ∧ fpu = [U.of32 x]
    else ∃ x : BitVec 64, wordBytes (x.extractLsb' 0 32) ++ wordBytes (x.extractLsb' 32 32) = v ∧
      fpu = [U.of64 x]
  else (wordBytes eax ++ wordBytes edx).take g.ret.size = v

/-- Specification: `n` accessible bytes that are not part of the stack of the generated function:
above its own words or below the part in use. -/
structure Outside (acc : W → Bool) (S : Stack) (x : W) (n : Nat) : Prop where
  ok : okN acc x n = true
  away : ∀ i : Nat, i < n → S.args ≤ (x + BitVec.ofNat 32 i - S.F).toInt ∨
    (x + BitVec.ofNat 32 i - S.F).toInt < S.low - S.depth

end

end Verif.Jit32.Rule
