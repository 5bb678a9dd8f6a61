import Verif.Jit.ClassSpec
/-
Specification for C93: what becomes of an object without special functions (a plain structure) that the
hooked function returns through a hidden pointer, in a call of a generated 64-bit hook function
(core/sourcehook/sourcehook_hookmangen_x86_64.cpp:619-806 `GenerateCallHooks`, 808-926
`GenerateCallOrig`, 928-984 `PushParameters`, 986-1066 `SaveReturnValue`, 1068-1123 `PrepareReturn`,
1125-1188 `DoReturn`, 1222-1227 `MemRetWithTempObj`): a hook writes its object into one variable, the
original function into another; bytes are copied to the override value, and at the end to the place the
caller named.

A value is named by a word, as in C89; `N` says which bytes a name stands for.
-/
namespace Verif.Jit.Plain

open Rule

/-- Specification: an object without special functions, returned in memory. -/
structure IsPlain (g : Gen) : Prop where
  notRef : g.ret.has flagByRef = false
  kind : g.ret.type = typeObject
  mem : g.ret.has flagRetMem = true
  reg : g.ret.has flagRetReg = false
  temp : g.ret.has flagODtor = false ∧ g.ret.has flagAssignOp = false
  size : g.ret.size ≠ 0
  ctor : g.ret.ctor = 0
  dtor : g.ret.dtor = 0
  assign : g.ret.assign = 0
  cctor : g.ret.cctor = 0

/-- Specification: `n` bytes of memory. -/
def bytesAt (m : Memory) (a : W) (n : Nat) : List Byte :=
  (List.range n).map fun i => m (a + BitVec.ofNat 64 i)

/-- Specification: `n` bytes at `a` and `k` bytes at `b` have none in common. -/
def Away (a : W) (n : Nat) (b : W) (k : Nat) : Prop :=
  ∀ i j : Nat, i < n → j < k → a + BitVec.ofNat 64 i ≠ b + BitVec.ofNat 64 j

/-- Specification: what hooks can see of the call: the status so far, the bytes of the override value
and of the original value. -/
structure St where
  status : W
  ov : List Byte
  or : List Byte

section
variable (Wd : World) (V : Vars) (g : Gen) (C : Context) (H : List Hook) (N : W → List Byte)

/-- Specification: the bytes of a variable for the returned object. -/
abbrev obj (m : Memory) (a : W) : List Byte := bytesAt m a g.ret.size

/-- Specification: the memory is as the state says. -/
structure Holds (m : Memory) (σ : St) : Prop where
  cell : ∀ c ∈ cells V g C H, rd m c.1 = c.2
  status : rd m V.status = σ.status
  ov : obj g m V.override = σ.ov
  or : obj g m V.orig = σ.or

/-- Specification: a function that leaves everything as it is. -/
def Quiet (a : Ans) (σ : St) : Prop := ∀ m, Holds V g C H m σ → Holds V g C H (Rule.after Wd m a) σ

/-- Specification: a hook: it leaves its result code in `cur_res` and writes its object to the place it
is given, the variable `plugin_ret`. -/
structure HookDone (a : Ans) (h : Hook) (σ : St) : Prop where
  quiet : Quiet Wd V g C H a σ
  cur : ∀ m, Holds V g C H m σ → rd (Rule.after Wd m a) V.cur = h.res
  val : ∀ m, Holds V g C H m σ → obj g (Rule.after Wd m a) V.plugin = N h.val

/-- Specification: the original function: it writes its object to the place it is given, the variable
`orig_ret`. -/
def OrigDone (a : Ans) (v : W) (σ : St) : Prop :=
  ∀ m, Holds V g C H m σ → Holds V g C H (Rule.after Wd m a) { σ with or := N v }

/-- Specification: a function that leaves the variable `plugin_ret` as it is. -/
def Spares (a : Ans) (v : List Byte) : Prop :=
  ∀ m, obj g m V.plugin = v → obj g (Rule.after Wd m a) V.plugin = v

/-- Specification: the state after a hook. -/
def St.hook (σ : St) (h : Hook) : St where
  status := raised σ.status h.res
  ov := if 2 ≤ h.res.toNat then N h.val else σ.ov
  or := σ.or

/-- Specification: the answers during one pass over the hooks `hs`, from a state to another: the object
of each hook from GetNext, the hook, GetOverrideRetPtr where the hook overrides, and null from GetNext
at the end. -/
inductive LoopAns : St → List Hook → List Ans → St → Prop
  | done {σ : St} {a : Ans} : Quiet Wd V g C H a σ → a.reg 0 = 0 → LoopAns σ [] [a] σ
  | hook {σ σ' : St} {h : Hook} {hs : List Hook} {a b : Ans} {as : List Ans} :
      h ∈ H → h.obj ≠ 0 → h.res.toNat ≤ 3 →
      Quiet Wd V g C H a σ → a.reg 0 = h.obj → HookDone Wd V g C H N b h σ → h.res.toNat < 2 →
      LoopAns (σ.hook N h) hs as σ' → LoopAns σ (h :: hs) (a :: b :: as) σ'
  | over {σ σ' : St} {h : Hook} {hs : List Hook} {a b c : Ans} {as : List Ans} :
      h ∈ H → h.obj ≠ 0 → h.res.toNat ≤ 3 →
      Quiet Wd V g C H a σ → a.reg 0 = h.obj → HookDone Wd V g C H N b h σ → 2 ≤ h.res.toNat →
      Quiet Wd V g C H c { σ with status := raised σ.status h.res } → Spares Wd V g c (N h.val) →
      c.reg 0 = V.override →
      LoopAns (σ.hook N h) hs as σ' → LoopAns σ (h :: hs) (a :: b :: c :: as) σ'

/-- Specification: the answers between the two passes; `some v`: the original function was called and
returned the value named `v`. -/
inductive OrigAns : St → List Ans → Option W → St → Prop
  | superceded {σ : St} : σ.status = 3 → OrigAns σ [] none { σ with or := σ.ov }
  | refused {σ : St} {a : Ans} : σ.status ≠ 3 → Quiet Wd V g C H a σ → a.reg 0 &&& 1 = 0 →
      OrigAns σ [a] none { σ with or := σ.ov }
  | called {σ : St} {a b : Ans} {v : W} : σ.status ≠ 3 → Quiet Wd V g C H a σ → a.reg 0 &&& 1 ≠ 0 →
      OrigDone Wd V g C H N b v σ → OrigAns σ [a, b] (some v) { σ with or := N v }

/-- Specification: the answers at the end: GetOverrideRetPtr or GetOrigRetPtr, EndContext, the
destructors of the parameters. -/
structure EndAns (σ : St) (as : List Ans) : Prop where
  ptr : ∃ p as', as = p :: as' ∧ p.reg 0 = if 2 ≤ σ.status.toNat then V.override else V.orig
  quiet : ∀ a ∈ as, Quiet Wd V g C H a σ
  count : as.length = 2 + (g.params.filter Pass.destroyed).length

/-! ## What is called -/

/-- Specification: a call as it has to be: function, arguments, what the called function can see. -/
structure Seen where
  target : W
  args : List Arg
  st : St

/-- Specification: the call made is the call wanted. -/
structure IsSeen (c : SCall) (e : Seen) : Prop where
  target : c.target = e.target
  args : c.args = e.args
  status : rd c.mem V.status = e.st.status
  ov : obj g c.mem V.override = e.st.ov
  or : obj g c.mem V.orig = e.st.or

/-- Specification: call for call. -/
inductive AreSeen : List SCall → List Seen → Prop
  | nil : AreSeen [] []
  | cons {c : SCall} {e : Seen} {cs : List SCall} {es : List Seen} :
      IsSeen V g c e → AreSeen cs es → AreSeen (c :: cs) (e :: es)

/-- Specification: the calls of one pass: a hook gets its object and the place for its result. -/
def loopCalls (ps : List Arg) : St → List Hook → List Seen
  | σ, [] => [⟨C.next, [.int C.ctx], σ⟩]
  | σ, h :: hs =>
    [⟨C.next, [.int C.ctx], σ⟩, ⟨h.fn, .int h.obj :: .int V.plugin :: ps, σ⟩]
    ++ (if 2 ≤ h.res.toNat then
        [⟨C.over, [.int C.ctx], { σ with status := raised σ.status h.res }⟩] else [])
    ++ loopCalls ps (σ.hook N h) hs

/-- Specification: the calls between the passes. -/
def origCalls (this : W) (ps : List Arg) (σ : St) (o : Option W) : List Seen :=
  (if σ.status = 3 then [] else [⟨C.should, [.int C.ctx], σ⟩])
  ++ (if o.isSome then [⟨C.entry, .int this :: .int V.orig :: ps, σ⟩] else [])

/-- Specification: the destructors of the parameters. -/
def dtorCalls (σ : St) : List Pass → List Arg → List Seen
  | p :: ps, a :: as => (if p.destroyed then [⟨p.dtor, [a], σ⟩] else []) ++ dtorCalls σ ps as
  | _, _ => []

/-- Specification: the calls at the end. -/
def endCalls (ps : List Arg) (σ : St) : List Seen :=
  [⟨if 2 ≤ σ.status.toNat then C.over else C.orig, [.int C.ctx], σ⟩,
   ⟨g.endContext, [.int g.sh, .int C.ctx], σ⟩] ++ dtorCalls σ g.params ps

/-! ## The whole call -/

/-- Specification: the state at the beginning, with the variables as they happen to be. -/
def first (m : Memory) : St := ⟨0, obj g m V.override, obj g m V.orig⟩

/-- Specification: the state after some hooks. -/
def passed (σ : St) (hs : List Hook) : St := hs.foldl (St.hook N) σ

/-- Specification: the state after the original function, if that was called, or without it. -/
def St.orig (σ : St) : Option W → St
  | some v => { σ with or := N v }
  | none => { σ with or := σ.ov }

/-- Specification: the state at the end. -/
def last (m : Memory) (pre post : List Hook) (o : Option W) : St :=
  passed N ((passed N (first V g m) pre).orig N o) post

/-- Specification: a byte that is not one of the variables `status`, `cur_res`, `prev_res`. -/
def Other (x : W) : Prop := ∀ v ∈ [V.status, V.cur, V.prev], 8 ≤ (x - v).toNat

/-- Specification: the answer of SetupHookLoop: the context; `m` is the memory before the call of the
hook function. -/
structure SetupAns (m : Memory) (a : Ans) : Prop where
  ctx : a.reg 0 = C.ctx
  holds : ∀ m', rd m' V.status = 0 → (∀ x, Other V x → m' x = m x) →
    Holds V g C H (Rule.after Wd m' a) (first V g m)

/-- Specification: the answers during a whole call with the hooks `pre` and `post`, the original
function returning the value `o` if it was called, from memory `m`; `mid` are the answers between the
passes. -/
def Plays (m : Memory) (pre post : List Hook) (mid ans : List Ans) (o : Option W) : Prop :=
  ∃ a as₁ as₃ as₄, ans = a :: (as₁ ++ (mid ++ (as₃ ++ as₄))) ∧
    SetupAns Wd V g C H m a ∧
    LoopAns Wd V g C H N (first V g m) pre as₁ (passed N (first V g m) pre) ∧
    OrigAns Wd V g C H N (passed N (first V g m) pre) mid o ((passed N (first V g m) pre).orig N o) ∧
    LoopAns Wd V g C H N ((passed N (first V g m) pre).orig N o) post as₃ (last V g N m pre post o) ∧
    EndAns Wd V g C H (last V g N m pre post o) as₄

/-- Specification: the call of SetupHookLoop. -/
def setupCall (m : Memory) (this : W) : Seen :=
  ⟨g.setupLoop, [.int g.sh, .int (rd m g.pHI),
    .int (rd m (this + BitVec.ofInt 64 g.vtblOffs) + BitVec.ofInt 64 (8 * g.vtblIdx)), .int this,
    .int V.entry, .int V.status, .int V.prev, .int V.cur, .int V.orig, .int V.override],
    first V g m⟩

/-- Specification: all calls. -/
def wanted (m : Memory) (this : W) (ps : List Arg) (pre post : List Hook) (o : Option W) : List Seen :=
  let σ₁ := passed N (first V g m) pre
  let σ₂ := σ₁.orig N o
  setupCall V g m this :: (loopCalls V C N ps (first V g m) pre ++ (origCalls V C this ps σ₁ o
    ++ (loopCalls V C N ps σ₂ post ++ endCalls g C ps (last V g N m pre post o))))

/-! ## The rule -/

/-- Specification: the bytes the caller is to get: those of the last hook that overrides, else those of
the original function, else (nobody returned anything) the variable as it was found. -/
def ruled (m : Memory) (pre post : List Hook) (o : Option W) : List Byte :=
  match lastOverride (pre ++ post) with
  | some h => N h.val
  | none =>
    match o with
    | some v => N v
    | none => obj g m V.override

/-- Specification: `n` accessible bytes that are not part of the stack of the generated function: above
the parameters or below the part in use. -/
structure Beyond (acc : W → Bool) (S : Stack) (x : W) (n : Nat) : Prop where
  ok : okRange acc x n = true
  away : (8 + 8 * (S.nargs : Int) ≤ (x - S.F).toInt ∧ (x - S.F).toInt + n ≤ 2 ^ 63) ∨
    (x - S.F).toInt + n ≤ -S.size - S.depth

/-- Specification: the variables for objects and the place for the result are accessible and have no
byte in common with each other nor with the other memory the function uses. -/
structure Room (memret : W) : Prop where
  ok : ∀ x ∈ [V.orig, V.override, V.plugin, memret], okRange Wd.vis x g.ret.size = true
  ovor : Away V.override g.ret.size V.orig g.ret.size
  orov : Away V.orig g.ret.size V.override g.ret.size
  ovpl : Away V.override g.ret.size V.plugin g.ret.size
  mrov : Away memret g.ret.size V.override g.ret.size
  mror : Away memret g.ret.size V.orig g.ret.size
  small : ∀ x ∈ [V.orig, V.override, V.plugin], ∀ v ∈ [V.status, V.cur, V.prev], Away x g.ret.size v 8
  cell : ∀ x ∈ [V.orig, V.override], ∀ c ∈ cells V g C H, Away x g.ret.size c.1 8

end

end Verif.Jit.Plain
