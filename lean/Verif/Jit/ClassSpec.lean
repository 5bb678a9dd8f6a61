import Verif.Jit.RuleSpec
/-
Specification for C89: what becomes of objects with special functions in a call of a generated 64-bit
hook function.  The hooked function returns an object of a class with constructor, copy constructor,
assignment operator and destructor through a hidden pointer.  For the generated function that means
(core/sourcehook/sourcehook_hookmangen_x86_64.cpp:399-419 and 494-512 in `GenerateHookFunc`, 619-806
`GenerateCallHooks`, 808-930 `GenerateCallOrig`, 986-1066 `SaveReturnValue`, 1125-1220 `DoReturn`,
1222-1227 `MemRetWithTempObj`): three variables are constructed; each hook and the original function
return into a temporary place; the operator assigns that to a variable, the temporary object is
destroyed; the copy constructor makes the object the caller gets; the three variables are destroyed.

The rules of C++ about objects are those of C88 (`Jit32/ClassSpec.lean`), over 64-bit addresses; a value
is named by a word (what it stands for does not matter).
-/
namespace Verif.Jit.Class

open Rule

/-- Specification: an object of a class with all special functions, returned in memory; no object with
a destructor is passed by value. -/
structure IsClass (g : Gen) : Prop where
  byVal : g.ret.has flagByVal = true
  notRef : g.ret.has flagByRef = false
  kind : g.ret.type = typeObject
  mem : g.ret.has flagRetMem = true
  temp : withTemp g.ret = true
  reg : g.ret.has flagRetReg = false
  size : g.ret.size ≠ 0
  ctor : g.ret.ctor ≠ 0
  dtor : g.ret.dtor ≠ 0
  assign : g.ret.assign ≠ 0
  cctor : g.ret.cctor ≠ 0
  params : ∀ p ∈ g.params, p.destroyed = false

/-! ## The life of objects -/

/-- Specification: where objects are, and with which values. -/
abbrev Store := W → Option (Option W)

/-- Specification: a store with one place changed. -/
def Store.set (L : Store) (a : W) (v : Option (Option W)) : Store := fun x => if x = a then v else L x

/-- Specification: the calls of a hook function: the context and SourceHook (`next` GetNext, `over`
GetOverrideRetPtr, `origPtr` GetOrigRetPtr, `should` ShouldCallOrig), the special functions, a hook and
the original function, which return an object at the place `a`. -/
inductive Want
  | setup
  | next
  | over
  | origPtr
  | should
  | endContext
  | construct (a : W)
  | destroy (a : W)
  | assign (dst src : W)
  | copy (dst src : W)
  | hook (a : W) (h : Hook)
  | original (a v : W)

/-- Specification: what a call does to the objects; `none`: a rule is broken. -/
def live (L : Store) : Want → Option Store
  | .construct a => if L a = none then some (L.set a (some none)) else none
  | .destroy a => if L a = none then none else some (L.set a none)
  | .assign d s =>
    match L d, L s with
    | some _, some v => some (L.set d (some v))
    | _, _ => none
  | .copy d s =>
    match L d, L s with
    | none, some v => some (L.set d (some v))
    | _, _ => none
  | .hook a h => if L a = none then some (L.set a (some (some h.val))) else none
  | .original a v => if L a = none then some (L.set a (some (some v))) else none
  | _ => some L

/-- Specification: what a sequence of calls does to the objects. -/
def lives (L : Store) : List Want → Option Store
  | [] => some L
  | w :: ws => (live L w).bind fun L => lives L ws

/-! ## The calls -/

/-- Specification: a call of a hook function: the addresses, the generator's data, the context, the
hooks, the object, the place for the result, the parameters and the memory on entry. -/
structure Case where
  Wd : World
  V : Vars
  g : Gen
  C : Context
  H : List Hook
  this : W
  memret : W
  ps : List Arg
  mem : Memory

section
variable (K : Case)

/-- Specification: the function called. -/
def Want.target : Want → W
  | .setup => K.g.setupLoop
  | .next => K.C.next
  | .over => K.C.over
  | .origPtr => K.C.orig
  | .should => K.C.should
  | .endContext => K.g.endContext
  | .construct _ => K.g.ret.ctor
  | .destroy _ => K.g.ret.dtor
  | .assign _ _ => K.g.ret.assign
  | .copy _ _ => K.g.ret.cctor
  | .hook _ h => h.fn
  | .original _ _ => K.C.entry

/-- Specification: its arguments. -/
def Want.args : Want → List Arg
  | .setup =>
    [.int K.g.sh, .int (rd K.mem K.g.pHI),
     .int (rd K.mem (K.this + BitVec.ofInt 64 K.g.vtblOffs) + BitVec.ofInt 64 (8 * K.g.vtblIdx)),
     .int K.this, .int K.V.entry, .int K.V.status, .int K.V.prev, .int K.V.cur, .int K.V.orig,
     .int K.V.override]
  | .next | .over | .origPtr | .should => [.int K.C.ctx]
  | .endContext => [.int K.g.sh, .int K.C.ctx]
  | .construct a | .destroy a => [.int a]
  | .assign d s | .copy d s => [.int d, .int s]
  | .hook a h => .int h.obj :: .int a :: K.ps
  | .original a _ => .int K.this :: .int a :: K.ps

/-- Specification: the call made is the call wanted; from SetupHookLoop on, with the status `e.2`. -/
structure IsMade (c : SCall) (e : Want × Option W) : Prop where
  target : c.target = e.1.target K
  args : c.args = e.1.args K
  status : ∀ st, e.2 = some st → rd c.mem K.V.status = st

/-- Specification: call for call. -/
inductive AreMade : List SCall → List (Want × Option W) → Prop
  | nil : AreMade [] []
  | cons {c : SCall} {e : Want × Option W} {cs : List SCall} {es : List (Want × Option W)} :
      IsMade K c e → AreMade cs es → AreMade (c :: cs) (e :: es)

/-- Specification: the status after some hooks. -/
def raisedBy (st : W) (hs : List Hook) : W := hs.foldl (fun st h => raised st h.res) st

/-- Specification: the calls of one pass. -/
def passCalls : W → List Hook → List (Want × Option W)
  | st, [] => [(.next, some st)]
  | st, h :: hs =>
    [(.next, some st), (.hook K.V.temp h, some st), (.assign K.V.plugin K.V.temp, some st),
     (.destroy K.V.temp, some st)]
    ++ (if 2 ≤ h.res.toNat then
        [(.over, some (raised st h.res)), (.assign K.V.override K.V.plugin, some (raised st h.res))]
      else [])
    ++ passCalls (raised st h.res) hs

/-- Specification: the calls between the passes. -/
def midCalls (st : W) (o : Option W) : List (Want × Option W) :=
  (if st = 3 then [] else [(.should, some st)])
  ++ match o with
    | some v => [(.original K.V.temp v, some st), (.assign K.V.orig K.V.temp, some st),
        (.destroy K.V.temp, some st)]
    | none => [(.assign K.V.orig K.V.override, some st)]

/-- Specification: the calls at the end. -/
def endCalls (st : W) : List (Want × Option W) :=
  [(if 2 ≤ st.toNat then .over else .origPtr, some st), (.endContext, some st),
   (.copy K.memret (if 2 ≤ st.toNat then K.V.override else K.V.orig), some st),
   (.destroy K.V.orig, some st), (.destroy K.V.override, some st), (.destroy K.V.plugin, some st)]

/-- Specification: all calls. -/
def wanted (pre post : List Hook) (o : Option W) : List (Want × Option W) :=
  [(.construct K.V.orig, none), (.construct K.V.override, none), (.construct K.V.plugin, none),
   (.setup, some 0)]
  ++ (passCalls K 0 pre ++ (midCalls K (raisedBy 0 pre) o ++ (passCalls K (raisedBy 0 pre) post
  ++ endCalls K (raisedBy (raisedBy 0 pre) post))))

/-! ## What the called functions promise -/

/-- Specification: the memory the generated function relies on. -/
structure Keeps (m : Memory) (st : W) : Prop where
  cell : ∀ c ∈ cells K.V K.g K.C K.H, rd m c.1 = c.2
  status : rd m K.V.status = st

/-- Specification: a function that leaves that as it is. -/
def Calm (a : Ans) (st : W) : Prop := ∀ m, Keeps K m st → Keeps K (Rule.after K.Wd m a) st

/-- Specification: … and the result code `r` of the hook as well. -/
structure Inert (a : Ans) (r st : W) : Prop where
  calm : Calm K a st
  cur : ∀ m, rd m K.V.cur = r → rd (Rule.after K.Wd m a) K.V.cur = r

/-- Specification: a hook: it leaves its result code in `cur_res`. -/
structure HookBack (a : Ans) (h : Hook) (st : W) : Prop where
  calm : Calm K a st
  cur : ∀ m, Keeps K m st → rd (Rule.after K.Wd m a) K.V.cur = h.res

/-- Specification: the answers during one pass over the hooks `hs`, from a status on: the object of
the hook from GetNext, the hook, the assignment, the destructor, GetOverrideRetPtr and the assignment
where the hook overrides; null from GetNext at the end. -/
inductive PassAns : W → List Hook → List Ans → Prop
  | done {st : W} {a : Ans} : Calm K a st → a.reg 0 = 0 → PassAns st [] [a]
  | hook {st : W} {h : Hook} {hs : List Hook} {a b c d : Ans} {as : List Ans} :
      h ∈ K.H → h.obj ≠ 0 → h.res.toNat ≤ 3 → Calm K a st → a.reg 0 = h.obj → HookBack K b h st →
      Inert K c h.res st → Inert K d h.res st → h.res.toNat < 2 →
      PassAns (raised st h.res) hs as → PassAns st (h :: hs) (a :: b :: c :: d :: as)
  | over {st : W} {h : Hook} {hs : List Hook} {a b c d e f : Ans} {as : List Ans} :
      h ∈ K.H → h.obj ≠ 0 → h.res.toNat ≤ 3 → Calm K a st → a.reg 0 = h.obj → HookBack K b h st →
      Inert K c h.res st → Inert K d h.res st → 2 ≤ h.res.toNat → Calm K e (raised st h.res) →
      e.reg 0 = K.V.override → Calm K f (raised st h.res) →
      PassAns (raised st h.res) hs as → PassAns st (h :: hs) (a :: b :: c :: d :: e :: f :: as)

/-- Specification: the answers between the two passes; `some v`: the original function was called,
`v` names the value it returned. -/
inductive MidAns (st : W) : List Ans → Option W → Prop
  | superceded {c : Ans} : st = 3 → Calm K c st → MidAns st [c] none
  | refused {a c : Ans} : st ≠ 3 → Calm K a st → a.reg 0 &&& 1 = 0 → Calm K c st →
      MidAns st [a, c] none
  | called {a b c d : Ans} {v : W} : st ≠ 3 → Calm K a st → a.reg 0 &&& 1 ≠ 0 → Calm K b st →
      Calm K c st → Calm K d st → MidAns st [a, b, c, d] (some v)

/-- Specification: the answers at the end: GetOverrideRetPtr or GetOrigRetPtr, EndContext, the copy
constructor, the destructors. -/
structure EndAns (st : W) (p a c d₁ d₂ d₃ : Ans) : Prop where
  ptr : Calm K p st
  which : p.reg 0 = if 2 ≤ st.toNat then K.V.override else K.V.orig
  done : Calm K a st
  copy : Calm K c st
  dtor₁ : Calm K d₁ st
  dtor₂ : Calm K d₂ st
  dtor₃ : Calm K d₃ st

/-- Specification: the memory before SetupHookLoop, as far as it matters. -/
structure Ready (m : Memory) : Prop where
  hi : rd m K.g.pHI = rd K.mem K.g.pHI
  vt : rd m (K.this + BitVec.ofInt 64 K.g.vtblOffs) = rd K.mem (K.this + BitVec.ofInt 64 K.g.vtblOffs)
  objects : ∀ c ∈ objects K.g K.C K.H, rd m c.1 = rd K.mem c.1

/-- Specification: the constructor. -/
def CtorAns (a : Ans) : Prop := ∀ m, Ready K m → Ready K (Rule.after K.Wd m a)

/-- Specification: the answer of SetupHookLoop: the context. -/
structure SetupAns (a : Ans) : Prop where
  ctx : a.reg 0 = K.C.ctx
  done : ∀ m, Ready K m → rd m K.V.status = 0 → Keeps K (Rule.after K.Wd m a) 0

/-- Specification: the answers during a whole call with the hooks `pre` and `post`. -/
def Plays (pre post : List Hook) (ans : List Ans) (o : Option W) : Prop :=
  ∃ c₁ c₂ c₃ a as₁ as₂ as₃ p e c d₁ d₂ d₃,
    ans = [c₁, c₂, c₃, a] ++ (as₁ ++ (as₂ ++ (as₃ ++ [p, e, c, d₁, d₂, d₃]))) ∧
    CtorAns K c₁ ∧ CtorAns K c₂ ∧ CtorAns K c₃ ∧ SetupAns K a ∧
    PassAns K 0 pre as₁ ∧ MidAns K (raisedBy 0 pre) as₂ o ∧ PassAns K (raisedBy 0 pre) post as₃ ∧
    EndAns K (raisedBy (raisedBy 0 pre) post) p e c d₁ d₂ d₃

/-! ## The rule -/

/-- Specification: the value the caller is to get: that of the last hook that overrides, else that of
the original function; none if nobody returned one. -/
def ruled (pre post : List Hook) (o : Option W) : Option W :=
  match lastOverride (pre ++ post) with
  | some h => some h.val
  | none => o

/-- Specification: the places the call uses for objects. -/
def places : List W := [K.V.orig, K.V.override, K.V.plugin, K.V.temp, K.memret]

end

end Verif.Jit.Class
