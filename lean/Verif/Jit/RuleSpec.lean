import Verif.Jit.HookProps
/-
Specification for C86: what the functions called by a generated hook function promise (the context
of core/sourcehook/sourcehook.cpp and the handlers of the plugins), and the rule by which the hooks,
the original function and the result of the call are to be chosen
(core/sourcehook/sourcehook.h:131-139 `META_RES`, and the comments of `SH_CALL_HOOKS`):

  * the hooks are called in order, each with the parameters of the call;
  * the original function is called unless a hook in front of it said `MRES_SUPERCEDE` (3) or the
    context says no;
  * the call returns what the last hook that said `MRES_OVERRIDE` (2) or more returned, else what
    the original function returned.

Values returned in a register (numbers, pointers, references) and functions without a result.
-/
namespace Verif.Jit.Rule

/-- No counterpart in /repo (specification): a hook as the generated function meets it: the object
GetNext gives, its table of functions, the function `Call` in it, the result code it leaves and the
value it returns. -/
structure Hook where
  obj : W
  vt : W
  fn : W
  res : W
  val : W

/-- No counterpart in /repo (specification): the context object (core/sourcehook/sourcehook.h:338-344
`IHookContext`): its address, its table of functions, the four functions used, and the original
function. -/
structure Context where
  ctx : W
  vt : W
  next : W
  over : W
  orig : W
  should : W
  entry : W

/-- No counterpart in /repo (specification): what hooks can see of the call: the status so far,
the override value, the original value (`META_RESULT_STATUS`, `META_RESULT_OVERRIDE_RET`,
`META_RESULT_ORIG_RET`, core/sourcehook/sourcehook.h:590-593). -/
structure St where
  status : W
  ov : W
  or : W

/-- Specification: the number of bytes of a returned value: eight for a reference. -/
def width (g : Gen) : Nat := if g.ret.has flagByRef then 8 else g.ret.size

/-- Specification: the low `n` bytes of `v`, the others of `old`. -/
def merge (n : Nat) (v old : W) : W :=
  BitVec.ofNat 64 (old.toNat / 256 ^ n * 256 ^ n + v.toNat % 256 ^ n)

/-- Specification: the low `n` bytes. -/
def low (n : Nat) (v : W) : Nat := v.toNat % 256 ^ n

/-- Specification: memory after a call answered by `a`. -/
def after (Wd : World) (m : Memory) (a : Ans) : Memory := fun x => if Wd.keep x then m x else a.mem x

/-- Specification: a function that returns a value in a register or nothing: no constructor, no
destructor, no assignment operator, no value in memory. -/
structure Simple (g : Gen) : Prop where
  ctor : ¬ (g.ret.has flagByVal = true ∧ g.ret.ctor ≠ 0)
  dtor : ¬ (g.ret.has flagByVal = true ∧ g.ret.dtor ≠ 0)
  assign : g.ret.assign = 0
  mem : g.ret.has flagRetMem = false
  kind : g.ret.size = 0 ∨ g.ret.has flagByRef = true ∨
    ((g.ret.type = typeBasic ∨ g.ret.type = typeFloat) ∧ g.ret.size ≤ 8)

section
variable (Wd : World) (V : Vars) (g : Gen) (C : Context) (H : List Hook)

/-- Specification: where the call of a function leaves its value: XMM0 for a floating point number
by value, RAX otherwise. -/
def valueOf (a : Ans) : W :=
  if g.ret.has flagByRef = false ∧ g.ret.type = typeFloat then a.xmm 0 else a.reg 0

/-- Specification: the objects the generated function relies on: the context with its table, the
hooks with theirs. -/
def objects : List (W × W) :=
  [(C.ctx, C.vt), (C.vt + BitVec.ofNat 64 (8 * g.getNext), C.next)]
  ++ (if g.ret.size = 0 then [] else [(C.vt + BitVec.ofNat 64 (8 * g.getOverride), C.over),
    (C.vt + BitVec.ofNat 64 (8 * g.getOrig), C.orig)])
  ++ [(C.vt + BitVec.ofNat 64 (8 * g.shouldCall), C.should)]
  ++ H.flatMap fun h => [(h.obj, h.vt), (h.vt + BitVec.ofNat 64 (8 * g.callIdx), h.fn)]

/-- Specification: the memory the generated function relies on: these objects and the address of the
original function. -/
def cells : List (W × W) := (V.entry, C.entry) :: objects g C H

/-- Specification: the variables the generated function writes. -/
def written : List W :=
  [V.status, V.cur, V.prev] ++ if g.ret.size = 0 then [] else [V.orig, V.override, V.plugin]

/-- Specification: the places are accessible and apart from each other. -/
structure Laid : Prop where
  ok : ∀ x ∈ written V g, okAt Wd.vis x = true
  apart : (written V g).Pairwise fun a b => Apart a b ∧ Apart b a
  cellOk : ∀ c ∈ cells V g C H, okAt Wd.vis c.1 = true
  cellApart : ∀ c ∈ cells V g C H, ∀ x ∈ written V g, Apart x c.1

/-- Specification: the memory is as the state says. -/
structure Holds (m : Memory) (σ : St) : Prop where
  cell : ∀ c ∈ cells V g C H, rd m c.1 = c.2
  status : rd m V.status = σ.status
  ov : g.ret.size ≠ 0 → rd m V.override = σ.ov
  or : g.ret.size ≠ 0 → rd m V.orig = σ.or

/-- Specification: a function that leaves everything as it is. -/
def Quiet (a : Ans) (σ : St) : Prop := ∀ m, Holds V g C H m σ → Holds V g C H (after Wd m a) σ

/-- Specification: a hook: it leaves its result code in `cur_res` (one of the four) and returns its
value. -/
structure HookDone (a : Ans) (h : Hook) (σ : St) : Prop where
  quiet : Quiet Wd V g C H a σ
  cur : ∀ m, Holds V g C H m σ → rd (after Wd m a) V.cur = h.res
  val : g.ret.size ≠ 0 → valueOf g a = h.val

/-- Specification: a function that leaves the variable `plugin_ret`, whose address nobody has, as it
is. -/
def Spares (a : Ans) (v : W) : Prop := ∀ m, rd m V.plugin = v → rd (after Wd m a) V.plugin = v

/-- Specification: the status a result code makes of a status. -/
def raised (st r : W) : W := if st.toNat < r.toNat then r else st

/-- Specification: the state after a hook. -/
def St.hook (σ : St) (h : Hook) : St where
  status := raised σ.status h.res
  ov := if 2 ≤ h.res.toNat then merge (width g) h.val σ.ov else σ.ov
  or := σ.or

/-- Specification: the answers during one pass over the hooks `hs`, from a state to another: the
object of each hook from GetNext, the hook, GetOverrideRetPtr where the hook overrides, and null
from GetNext at the end. -/
inductive LoopAns : St → List Hook → List Ans → St → Prop
  | done {σ : St} {a : Ans} : Quiet Wd V g C H a σ → a.reg 0 = 0 → LoopAns σ [] [a] σ
  | hook {σ σ' : St} {h : Hook} {hs : List Hook} {a b : Ans} {as : List Ans} :
      h ∈ H → h.obj ≠ 0 → h.res.toNat ≤ 3 →
      Quiet Wd V g C H a σ → a.reg 0 = h.obj → HookDone Wd V g C H b h σ →
      (g.ret.size = 0 ∨ h.res.toNat < 2) →
      LoopAns (σ.hook g h) hs as σ' → LoopAns σ (h :: hs) (a :: b :: as) σ'
  | over {σ σ' : St} {h : Hook} {hs : List Hook} {a b c : Ans} {as : List Ans} :
      h ∈ H → h.obj ≠ 0 → h.res.toNat ≤ 3 →
      Quiet Wd V g C H a σ → a.reg 0 = h.obj → HookDone Wd V g C H b h σ →
      g.ret.size ≠ 0 → 2 ≤ h.res.toNat →
      Quiet Wd V g C H c { σ with status := raised σ.status h.res } → Spares Wd V c h.val →
      c.reg 0 = V.override →
      LoopAns (σ.hook g h) hs as σ' → LoopAns σ (h :: hs) (a :: b :: c :: as) σ'

/-- Specification: the answers between the two passes, with the choice made: `some v` if the
original function was called and returned `v`. -/
inductive OrigAns : St → List Ans → Option W → St → Prop
  | superceded {σ : St} : σ.status = 3 →
      OrigAns σ [] none { σ with or := merge (width g) σ.ov σ.or }
  | refused {σ : St} {a : Ans} : σ.status ≠ 3 → Quiet Wd V g C H a σ → a.reg 0 &&& 1 = 0 →
      OrigAns σ [a] none { σ with or := merge (width g) σ.ov σ.or }
  | called {σ : St} {a b : Ans} : σ.status ≠ 3 → Quiet Wd V g C H a σ → a.reg 0 &&& 1 ≠ 0 →
      Quiet Wd V g C H b σ → OrigAns σ [a, b] (some (valueOf g b)) { σ with or := valueOf g b }

/-- Specification: the answers at the end: GetOverrideRetPtr or GetOrigRetPtr, EndContext, the
destructors of the parameters. -/
structure EndAns (σ : St) (as : List Ans) : Prop where
  ptr : g.ret.size ≠ 0 → ∃ p as', as = p :: as' ∧
    p.reg 0 = if 2 ≤ σ.status.toNat then V.override else V.orig
  quiet : ∀ a ∈ as, Quiet Wd V g C H a σ
  count : as.length = (if g.ret.size = 0 then 0 else 1) + 1 + (g.params.filter Pass.destroyed).length

/-! ## What is called -/

/-- Specification: a call as it has to be: function, arguments, what the called function can
see. -/
structure Seen where
  target : W
  args : List Arg
  st : St

/-- Specification: the call made is the call wanted. -/
structure IsSeen (c : SCall) (e : Seen) : Prop where
  target : c.target = e.target
  args : c.args = e.args
  status : rd c.mem V.status = e.st.status
  ov : g.ret.size ≠ 0 → rd c.mem V.override = e.st.ov
  or : g.ret.size ≠ 0 → rd c.mem V.orig = e.st.or

/-- Specification: call for call. -/
inductive AreSeen : List SCall → List Seen → Prop
  | nil : AreSeen [] []
  | cons {c : SCall} {e : Seen} {cs : List SCall} {es : List Seen} :
      IsSeen V g c e → AreSeen cs es → AreSeen (c :: cs) (e :: es)

/-- Specification: the calls of one pass. -/
def loopCalls (ps : List Arg) : St → List Hook → List Seen
  | σ, [] => [⟨C.next, [.int C.ctx], σ⟩]
  | σ, h :: hs =>
    [⟨C.next, [.int C.ctx], σ⟩, ⟨h.fn, .int h.obj :: ps, σ⟩]
    ++ (if g.ret.size ≠ 0 ∧ 2 ≤ h.res.toNat then
        [⟨C.over, [.int C.ctx], { σ with status := raised σ.status h.res }⟩] else [])
    ++ loopCalls ps (σ.hook g h) hs

/-- Specification: the calls between the passes. -/
def origCalls (this : W) (ps : List Arg) (σ : St) (o : Option W) : List Seen :=
  (if σ.status = 3 then [] else [⟨C.should, [.int C.ctx], σ⟩])
  ++ (if o.isSome then [⟨C.entry, .int this :: ps, σ⟩] else [])

/-- Specification: the destructors of the parameters. -/
def dtorCalls (σ : St) : List Pass → List Arg → List Seen
  | p :: ps, a :: as => (if p.destroyed then [⟨p.dtor, [a], σ⟩] else []) ++ dtorCalls σ ps as
  | _, _ => []

/-- Specification: the calls at the end. -/
def endCalls (ps : List Arg) (σ : St) : List Seen :=
  (if g.ret.size = 0 then []
    else [⟨if 2 ≤ σ.status.toNat then C.over else C.orig, [.int C.ctx], σ⟩])
  ++ [⟨g.endContext, [.int g.sh, .int C.ctx], σ⟩] ++ dtorCalls σ g.params ps

/-- Specification: where a value is returned. -/
def result (v : W) : Ret :=
  if g.ret.size = 0 then ⟨none, none⟩
  else if g.ret.has flagByRef = false ∧ g.ret.type = typeFloat then ⟨none, some v⟩
  else ⟨some v, none⟩

/-! ## The whole call -/

/-- Specification: the state at the beginning, with the variables as they happen to be. -/
def first (m : Memory) : St := ⟨0, rd m V.override, rd m V.orig⟩

/-- Specification: the state after some hooks. -/
def passed (σ : St) (hs : List Hook) : St := hs.foldl (St.hook g) σ

/-- Specification: the state after the original function, if that was called and returned `v`, or
without it. -/
def St.orig (σ : St) : Option W → St
  | some v => { σ with or := v }
  | none => { σ with or := merge (width g) σ.ov σ.or }

/-- Specification: the state at the end. -/
def last (m : Memory) (pre post : List Hook) (o : Option W) : St :=
  passed g ((passed g (first V m) pre).orig g o) post

/-- Specification: the answer of SetupHookLoop: the context; `m` is the memory before the call of
the hook function. -/
structure SetupAns (m : Memory) (a : Ans) : Prop where
  ctx : a.reg 0 = C.ctx
  holds : ∀ m', rd m' V.status = 0 →
    (∀ b, Apart V.status b → Apart V.cur b → Apart V.prev b → rd m' b = rd m b) →
    Holds V g C H (after Wd m' a) (first V m)

/-- Specification: what SetupHookLoop is told is accessible and apart from the variables. -/
structure Told (this : W) : Prop where
  hi : okAt Wd.vis g.pHI = true
  vt : okAt Wd.vis (this + BitVec.ofInt 64 g.vtblOffs) = true
  hiApart : ∀ x ∈ [V.status, V.cur, V.prev], Apart x g.pHI
  vtApart : ∀ x ∈ [V.status, V.cur, V.prev], Apart x (this + BitVec.ofInt 64 g.vtblOffs)

/-- Specification: the answers during a whole call with the hooks `pre` and `post`, the original
function returning `o` if it was called, from memory `m`; `mid` are the answers between the
passes. -/
def Plays (m : Memory) (pre post : List Hook) (mid ans : List Ans) (o : Option W) : Prop :=
  ∃ a as₁ as₃ as₄, ans = a :: (as₁ ++ (mid ++ (as₃ ++ as₄))) ∧
    SetupAns Wd V g C H m a ∧
    LoopAns Wd V g C H (first V m) pre as₁ (passed g (first V m) pre) ∧
    OrigAns Wd V g C H (passed g (first V m) pre) mid o ((passed g (first V m) pre).orig g o) ∧
    LoopAns Wd V g C H ((passed g (first V m) pre).orig g o) post as₃ (last V g m pre post o) ∧
    EndAns Wd V g C H (last V g m pre post o) as₄

/-- Specification: the call of SetupHookLoop. -/
def setupCall (m : Memory) (this : W) : Seen :=
  ⟨g.setupLoop, [.int g.sh, .int (rd m g.pHI),
    .int (rd m (this + BitVec.ofInt 64 g.vtblOffs) + BitVec.ofInt 64 (8 * g.vtblIdx)), .int this,
    .int V.entry, .int V.status, .int V.prev, .int V.cur,
    .int (if g.ret.size = 0 then 0 else V.orig), .int (if g.ret.size = 0 then 0 else V.override)],
    first V m⟩

/-- Specification: all calls. -/
def wanted (m : Memory) (this : W) (ps : List Arg) (pre post : List Hook) (o : Option W) : List Seen :=
  let σ₁ := passed g (first V m) pre
  let σ₂ := σ₁.orig g o
  setupCall V g m this :: (loopCalls g C ps (first V m) pre ++ (origCalls C this ps σ₁ o
    ++ (loopCalls g C ps σ₂ post ++ endCalls g C ps (last V g m pre post o))))

/-! ## The rule -/

/-- Specification: the last hook that said `MRES_OVERRIDE` or `MRES_SUPERCEDE`. -/
def lastOverride (hs : List Hook) : Option Hook := (hs.filter fun h => 2 ≤ h.res.toNat).getLast?

/-- Specification: is a result code the highest of some hooks (`MRES_IGNORED` if there is none)? -/
def IsHighest (r : W) (hs : List Hook) : Prop :=
  (∀ h ∈ hs, h.res.toNat ≤ r.toNat) ∧ (r = 0 ∨ ∃ h ∈ hs, h.res = r)

/-- Specification: the value the call is to return: that of the last hook that overrides, else that
of the original function, else (nobody returned anything) the variable as it was found. -/
def ruled (m : Memory) (pre post : List Hook) (o : Option W) : W :=
  match lastOverride (pre ++ post) with
  | some h => h.val
  | none => o.getD (rd m V.override)

/-- Specification: eight accessible bytes that are not part of the stack of the generated function:
above the parameters or below the part in use. -/
structure Outside (acc : W → Bool) (S : Stack) (x : W) : Prop where
  ok : okAt acc x = true
  away : (8 + 8 * (S.nargs : Int) ≤ (x - S.F).toInt ∧ (x - S.F).toInt + 8 ≤ 2 ^ 63) ∨
    (x - S.F).toInt + 8 ≤ -S.size - S.depth

end

end Verif.Jit.Rule
