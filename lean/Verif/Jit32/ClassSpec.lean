import Verif.Jit32.RuleSpec
/-
Specification for C88: what becomes of objects with special functions in a call of a generated 32-bit
hook function.  The hooked function returns an object of a class with constructor, copy constructor,
assignment operator and destructor through a hidden pointer.  For the generated function that means
(core/sourcehook/sourcehook_hookmangen_x86.cpp:530-676 `SaveRetVal`, 678-683 `MemRetWithTempObj`,
685-779 `ProcessPluginRetVal`, 831-931 `DoReturn`, 1055-1234 `GenerateCallOrig`,
1542-1577 and 1625-1665 in `GenerateHookFunc`): three variables are constructed; each hook and the original
function return into a temporary place; the operator assigns that to a variable, the temporary object is
destroyed; the copy constructor makes the object the caller gets; the three variables are destroyed.

The rules of C++ about objects are put as a machine over the places where objects can be: a
constructor, and a function that returns an object, need a place without an object; assignment, copy
and destruction need objects.  The machine follows values as well; a value is named by a list of bytes
(what these stand for does not matter), an object that was only constructed has none.
-/
namespace Verif.Jit32.Class

open Spec Rule
open Verif.Jit (Byte)

variable {U : Fpu}

/-- Specification: an object of a class with all special functions, returned in memory. -/
structure IsClass (g : Gen) : Prop where
  byVal : g.ret.flags.getLsbD 0 = true
  notRef : g.ret.flags.getLsbD 1 = false
  mem : hid g = true
  temp : tmp g = true
  size : g.ret.size ≠ 0
  ctor : g.ret.ctor ≠ 0
  dtor : g.ret.dtor ≠ 0
  assign : g.ret.assign ≠ 0
  cctor : g.ret.cctor ≠ 0

/-! ## The life of objects -/

/-- Specification: where objects are, and with which values. -/
abbrev Store := W → Option (Option (List Byte))

/-- Specification: a store with one place changed. -/
def Store.set (L : Store) (a : W) (v : Option (Option (List Byte))) : Store :=
  fun x => if x = a then v else L x

/-- Specification: the calls of a hook function: the context and SourceHook (`next` GetNext, `over`
GetOverrideRetPtr, `origPtr` GetOrigRetPtr, `should` ShouldCallOrig), the special functions, a hook and
the original function, which return an object at the place `a`. -/
inductive Want
  | text
  | setup
  | next
  | over
  | origPtr
  | should
  | endContext
  | construct (a : W)
  | destroy (a : W)
  | assign (dst src : W)
  | copy (dst src : W)
  | hook (a : W) (h : Hook)
  | original (a : W) (v : List Byte)

/-- Specification: what a call does to the objects; `none`: a rule is broken. -/
def live (L : Store) : Want → Option Store
  | .construct a => if L a = none then some (L.set a (some none)) else none
  | .destroy a => if L a = none then none else some (L.set a none)
  | .assign d s =>
    match L d, L s with
    | some _, some v => some (L.set d (some v))
    | _, _ => none
  | .copy d s =>
    match L d, L s with
    | none, some v => some (L.set d (some v))
    | _, _ => none
  | .hook a h => if L a = none then some (L.set a (some (some h.val))) else none
  | .original a v => if L a = none then some (L.set a (some (some v))) else none
  | _ => some L

/-- Specification: what a sequence of calls does to the objects. -/
def lives (L : Store) : List Want → Option Store
  | [] => some L
  | w :: ws => (live L w).bind fun L => lives L ws

/-! ## The calls -/

section
variable (K : Case)

/-- Specification: the function called. -/
def Want.target : Want → W
  | .text => K.g.vsn
  | .setup => K.g.setupLoop
  | .next => K.C.next
  | .over => K.C.over
  | .origPtr => K.C.orig
  | .should => K.C.should
  | .endContext => K.g.endContext
  | .construct _ => K.g.ret.ctor
  | .destroy _ => K.g.ret.dtor
  | .assign _ _ => K.g.ret.assign
  | .copy _ _ => K.g.ret.cctor
  | .hook _ h => h.fn
  | .original _ _ => K.C.entry

/-- Specification: its arguments. -/
def Want.args : Want → Bytes
  | .text => (textCall K).args
  | .setup => (setupCall K).args
  | .next | .over | .origPtr | .should => word K.C.ctx
  | .endContext => word K.g.sh ++ word K.C.ctx
  | .construct a | .destroy a => word a
  | .assign d s | .copy d s => word d ++ word s
  | .hook a h =>
    word a ++ word h.obj ++ K.params ++ if K.g.vafmt then word K.V.vaBuf else []
  | .original a _ =>
    word a ++ word K.this ++ K.params ++ if K.g.vafmt then word K.g.fmtS ++ word K.V.vaBuf else []

/-- Specification: the call made is the call wanted, with the status `e.2`; the text is in place. -/
structure IsMade (c : SCall) (e : Want × W) : Prop where
  target : c.target = e.1.target K
  args : c.args = e.1.args K
  status : rd c.mem K.V.status = e.2
  buf : e.1 ≠ .text → ∀ b, K.buf = some b → bytes c.mem K.V.vaBuf 4096 = b

/-- Specification: call for call. -/
inductive AreMade : List SCall → List (Want × W) → Prop
  | nil : AreMade [] []
  | cons {c : SCall} {e : Want × W} {cs : List SCall} {es : List (Want × W)} :
      IsMade K c e → AreMade cs es → AreMade (c :: cs) (e :: es)

/-- Specification: the status after some hooks. -/
def after (st : W) (hs : List Hook) : W := hs.foldl (fun st h => raised st h.res) st

/-- Specification: the calls of one pass. -/
def passCalls : W → List Hook → List (Want × W)
  | st, [] => [(.next, st)]
  | st, h :: hs =>
    [(.next, st), (.hook K.V.temp h, st), (.assign K.V.plugin K.V.temp, st), (.destroy K.V.temp, st)]
    ++ (if 2 ≤ h.res.toNat then
        [(.over, raised st h.res), (.assign K.V.override K.V.plugin, raised st h.res)] else [])
    ++ passCalls (raised st h.res) hs

/-- Specification: the calls between the passes. -/
def midCalls (st : W) (o : Option (List Byte)) : List (Want × W) :=
  (if st = 3 then [] else [(.should, st)])
  ++ match o with
    | some v => [(.original K.V.temp v, st), (.assign K.V.orig K.V.temp, st), (.destroy K.V.temp, st)]
    | none => [(.assign K.V.orig K.V.override, st)]

/-- Specification: the calls at the end. -/
def endCalls (st : W) : List (Want × W) :=
  [(if 2 ≤ st.toNat then .over else .origPtr, st), (.endContext, st),
   (.copy K.memret (if 2 ≤ st.toNat then K.V.override else K.V.orig), st),
   (.destroy K.V.plugin, st), (.destroy K.V.override, st), (.destroy K.V.orig, st)]

/-- Specification: all calls. -/
def wanted (pre post : List Hook) (o : Option (List Byte)) : List (Want × W) :=
  (if K.g.vafmt then [(.text, 0)] else [])
  ++ ([(.construct K.V.orig, 0), (.construct K.V.override, 0), (.construct K.V.plugin, 0), (.setup, 0)]
  ++ (passCalls K 0 pre ++ (midCalls K (after 0 pre) o ++ (passCalls K (after 0 pre) post
  ++ endCalls K (after (after 0 pre) post)))))

/-! ## What the called functions promise -/

/-- Specification: the memory the generated function relies on. -/
structure Keeps (m : Memory) (st : W) : Prop where
  cell : ∀ c ∈ K.cells, rd m c.1 = c.2
  status : rd m K.V.status = st
  args : bytes m K.args K.argSize = bytes K.mem K.args K.argSize
  buf : ∀ b, K.buf = some b → bytes m K.V.vaBuf 4096 = b

/-- Specification: a function with `n` bytes of arguments that leaves that as it is. -/
structure Calm (a : Ans U) (st : W) (n : Nat) : Prop where
  quiet : ∀ m, Keeps K m st → Keeps K (later K.Wd m a) st
  polite : Polite plain n a

/-- Specification: … and the result code `r` of the hook as well. -/
structure Inert (a : Ans U) (r st : W) (n : Nat) : Prop where
  calm : Calm K a st n
  cur : ∀ m, rd m K.V.cur = r → rd (later K.Wd m a) K.V.cur = r

/-- Specification: a hook: it leaves its result code in `cur_res`. -/
structure HookBack (a : Ans U) (h : Hook) (st : W) : Prop where
  quiet : ∀ m, Keeps K m st → Keeps K (later K.Wd m a) st
  polite : Polite ⟨true, false⟩ ((Want.hook K.V.temp h).args K).length a
  cur : ∀ m, Keeps K m st → rd (later K.Wd m a) K.V.cur = h.res

/-- Specification: the original function. -/
structure OrigBack (a : Ans U) (st : W) : Prop where
  quiet : ∀ m, Keeps K m st → Keeps K (later K.Wd m a) st
  polite : Polite ⟨true, false⟩ ((Want.original K.V.temp []).args K).length a

/-- Specification: the answers during one pass over the hooks `hs`, from a status on: the object of
the hook from GetNext, the hook, the assignment, the destructor, GetOverrideRetPtr and the assignment
where the hook overrides; null from GetNext at the end. -/
inductive PassAns : W → List Hook → List (Ans U) → Prop
  | done {st : W} {a : Ans U} : Calm K a st 4 → a.reg 0 = 0 → PassAns st [] [a]
  | hook {st : W} {h : Hook} {hs : List Hook} {a b c d : Ans U} {as : List (Ans U)} :
      h ∈ K.H → h.obj ≠ 0 → h.res.toNat ≤ 3 → Calm K a st 4 → a.reg 0 = h.obj → HookBack K b h st →
      Inert K c h.res st 8 → Inert K d h.res st 4 → h.res.toNat < 2 →
      PassAns (raised st h.res) hs as → PassAns st (h :: hs) (a :: b :: c :: d :: as)
  | over {st : W} {h : Hook} {hs : List Hook} {a b c d e f : Ans U} {as : List (Ans U)} :
      h ∈ K.H → h.obj ≠ 0 → h.res.toNat ≤ 3 → Calm K a st 4 → a.reg 0 = h.obj → HookBack K b h st →
      Inert K c h.res st 8 → Inert K d h.res st 4 → 2 ≤ h.res.toNat → Calm K e (raised st h.res) 4 →
      e.reg 0 = K.V.override → Calm K f (raised st h.res) 8 →
      PassAns (raised st h.res) hs as → PassAns st (h :: hs) (a :: b :: c :: d :: e :: f :: as)

/-- Specification: the answers between the two passes; `some v`: the original function was called,
`v` names the value it returned. -/
inductive MidAns (st : W) : List (Ans U) → Option (List Byte) → Prop
  | superceded {c : Ans U} : st = 3 → Calm K c st 8 → MidAns st [c] none
  | refused {a c : Ans U} : st ≠ 3 → Calm K a st 4 → (a.reg 0).toNat % 256 = 0 → Calm K c st 8 →
      MidAns st [a, c] none
  | called {a b c d : Ans U} {v : List Byte} : st ≠ 3 → Calm K a st 4 → (a.reg 0).toNat % 256 ≠ 0 →
      OrigBack K b st → Calm K c st 8 → Calm K d st 4 → MidAns st [a, b, c, d] (some v)

/-- Specification: the answers at the end: GetOverrideRetPtr or GetOrigRetPtr, EndContext, the copy
constructor, the destructors. -/
structure EndAns (st : W) (p a c d₁ d₂ d₃ : Ans U) : Prop where
  ptr : Calm K p st 4
  which : p.reg 0 = if 2 ≤ st.toNat then K.V.override else K.V.orig
  done : Calm K a st 8
  copy : Calm K c st 8
  dtor₁ : Calm K d₁ st 4
  dtor₂ : Calm K d₂ st 4
  dtor₃ : Calm K d₃ st 4

/-- Specification: the memory before SetupHookLoop, as far as it matters. -/
structure Ready (m : Memory) : Prop where
  status : rd m K.V.status = 0
  hi : rd m K.g.pHI = rd K.mem K.g.pHI
  vt : rd m (K.this + BitVec.ofInt 32 K.g.vtblOffs) = rd K.mem (K.this + BitVec.ofInt 32 K.g.vtblOffs)
  objects : ∀ c ∈ K.objects, rd m c.1 = rd K.mem c.1
  args : bytes m K.args K.argSize = bytes K.mem K.args K.argSize
  buf : ∀ b, K.buf = some b → bytes m K.V.vaBuf 4096 = b

/-- Specification: the constructor. -/
structure CtorAns (a : Ans U) : Prop where
  quiet : ∀ m, Ready K m → Ready K (later K.Wd m a)
  polite : Polite plain 4 a

/-- Specification: the answer of SetupHookLoop: the context. -/
structure SetupAns (a : Ans U) : Prop where
  polite : Polite plain 40 a
  ctx : a.reg 0 = K.C.ctx
  done : ∀ m, Ready K m → Keeps K (later K.Wd m a) 0

/-- Specification: the answers during a whole call with the hooks `pre` and `post`. -/
def Plays (pre post : List Hook) (ans : List (Ans U)) (o : Option (List Byte)) : Prop :=
  ∃ as₀ c₁ c₂ c₃ a as₁ as₂ as₃ p e c d₁ d₂ d₃,
    ans = as₀ ++ ([c₁, c₂, c₃, a] ++ (as₁ ++ (as₂ ++ (as₃ ++ [p, e, c, d₁, d₂, d₃])))) ∧
    Opening K as₀ ∧ CtorAns K c₁ ∧ CtorAns K c₂ ∧ CtorAns K c₃ ∧ SetupAns K a ∧
    PassAns K 0 pre as₁ ∧ MidAns K (after 0 pre) as₂ o ∧ PassAns K (after 0 pre) post as₃ ∧
    EndAns K (after (after 0 pre) post) p e c d₁ d₂ d₃

/-! ## The rule -/

/-- Specification: the value the caller is to get: that of the last hook that overrides, else that of
the original function; none if nobody returned one. -/
def ruled (pre post : List Hook) (o : Option (List Byte)) : Option (List Byte) :=
  match lastOverride (pre ++ post) with
  | some h => some h.val
  | none => o

/-- Specification: the places the call uses for objects. -/
def places : List W := [K.V.orig, K.V.override, K.V.plugin, K.V.temp, K.memret]

end

end Verif.Jit32.Class
