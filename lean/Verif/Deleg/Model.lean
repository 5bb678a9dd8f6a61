/-
Delegates: core/sourcehook/FastDelegate.h, as the hook macros use them (core/sourcehook/sourcehook.h:707-708, 1055-1078).
A delegate is an object pointer and a pointer to a member function of a class that does not exist (`GenericClass`); a plain function is
kept in the object pointer.

* Addresses are words of `n` bytes (4 or 8).  What a compiler does with pointers to members is a parameter (`Gen`) with two instances:
  the Itanium C++ ABI (GCC, Clang) and the Microsoft compiler.  These two are the specification of the compilers, not code of /repo.
* `FASTDELEGATE_USESTATICFUNCTIONHACK` is defined (FastDelegate.h:75); the other branches are not modelled.
* The arguments of the call are handed on unchanged by the language and do not appear.
-/
namespace Verif.Deleg

/-- A word. No counterpart in /repo: the machine. -/
abbrev W (n : Nat) := BitVec (8 * n)

/-- Memory, read in words. No counterpart in /repo: the machine. -/
abbrev Mem (n : Nat) := W n → W n

/-- A call of a member function: the code and `this`. No counterpart in /repo: the machine. -/
structure Call (n : Nat) where
  code : W n
  this_ : W n
  deriving DecidableEq

/-- What a compiler makes of a pointer to a member function of `GenericClass`: the null pointer, `==`, the bytes `memcmp` sees and the
call (`none` if there is nothing to call). No counterpart in /repo: the compiler. -/
structure Gen (n : Nat) (F : Type) where
  zero : F
  eq : F → F → Bool
  bytes : F → List Nat
  call : Mem n → W n → F → Option (Call n)

/-- The bytes of a number, lowest first. No counterpart in /repo: the machine. -/
def bytes : Nat → Nat → List Nat
  | 0, _ => []
  | k + 1, x => x % 256 :: bytes k (x / 256)

/-- `memcmp(…) < 0`. No counterpart in /repo: the C library. -/
def memLt : List Nat → List Nat → Bool
  | a :: as, b :: bs => if a < b then true else if b < a then false else memLt as bs
  | _, _ => false

/-! ### Itanium -/

/-- A pointer to a member function: `ptr` is the address of the function, or one more than the offset of its entry in the table of
virtual functions; `adj` is added to the object pointer. No counterpart in /repo: Itanium C++ ABI, 2.3. -/
structure Mfp (n : Nat) where
  ptr : W n
  adj : W n
  deriving DecidableEq

/-- `(p->*f)(…)`. No counterpart in /repo: Itanium C++ ABI, 2.3. -/
def Mfp.call {n : Nat} (mem : Mem n) (p : W n) (f : Mfp n) : Call n :=
  if f.ptr &&& 1 = 1 then ⟨mem (mem (p + f.adj) + (f.ptr - 1)), p + f.adj⟩ else ⟨f.ptr, p + f.adj⟩

/-- The compiler with the Itanium ABI. No counterpart in /repo: Itanium C++ ABI, 2.3. -/
def itanium (n : Nat) : Gen n (Mfp n) where
  zero := ⟨0, 0⟩
  eq f g := decide (f.ptr = g.ptr) && (decide (f.ptr = 0) || decide (f.adj = g.adj))
  bytes f := bytes n f.ptr.toNat ++ bytes n f.adj.toNat
  call mem p f := if f.ptr = 0 then none else some (f.call mem p)

/-! ### Microsoft -/

/-- The representations of pointers to members, by the inheritance of the class. No counterpart in /repo: the compiler. -/
inductive Kind
  | single | multiple | virtual_ | unknown
  deriving DecidableEq

/-- How many `int`s follow the code pointer: FastDelegate.h:352-355, 376-380, 484-489. -/
def Kind.ints : Kind → Nat
  | .single => 0
  | .multiple => 1
  | .virtual_ => 2
  | .unknown => 3

/-- `sizeof` of such a pointer: rounded up to the size of a pointer. No counterpart in /repo: the compiler. -/
def Kind.size (n : Nat) (k : Kind) : Nat := (n + 4 * k.ints + (n - 1)) / n * n

/-- A class: its representation, and what is added to an object pointer when a member of a class with virtual or unknown inheritance
is called (the compiler knows where the table of virtual bases is). No counterpart in /repo: the compiler. -/
structure Cls (n : Nat) where
  kind : Kind
  base : Mem n → W n → List (BitVec 32) → W n

/-- A pointer to a member function: the code and the `int`s, `delta` first.  For 8-byte pointers and multiple inheritance the second
`int` is padding. No counterpart in /repo: the compiler. -/
structure MsPtr (n : Nat) where
  code : W n
  delta : BitVec 32
  more : List (BitVec 32)
  deriving DecidableEq

/-- The object pointer a call through `f` hands over. No counterpart in /repo: the compiler. -/
def msThis {n : Nat} (X : Cls n) (mem : Mem n) (p : W n) (f : MsPtr n) : W n :=
  match X.kind with
  | .single => p
  | .multiple => p + f.delta.signExtend (8 * n)
  | _ => X.base mem p (f.delta :: f.more)

/-- `(p->*f)(…)`. No counterpart in /repo: the compiler. -/
def msCall {n : Nat} (X : Cls n) (mem : Mem n) (p : W n) (f : MsPtr n) : Call n := ⟨f.code, msThis X mem p f⟩

/-- Members of `GenericClass`, which has single inheritance (FastDelegate.h:267-273). No counterpart in /repo: the compiler. -/
def msvc (n : Nat) : Gen n (W n) where
  zero := 0
  eq f g := decide (f = g)
  bytes f := bytes n f.toNat
  call _ p f := if f = 0 then none else some ⟨f, p⟩

/-- `GenericVirtualClass::GetThis`, FastDelegate.h:393: what it answers. -/
def getThis {n : Nat} (this_ : W n) : W n := this_

/-- `SimplifyMemFunc<sizeof(f)>::Convert` of the Microsoft compiler: the object pointer and `bound_func`, or `none` if it does not
compile.  The instances are chosen by size: FastDelegate.h:310-325, 345-366, 398-426, 476-511, 297-306.  The third puts the code of
`GetThis` in place of the function's and calls it; the fourth names a field that does not exist (484, 497). -/
def convert {n : Nat} (X : Cls n) (mem : Mem n) (p : W n) (f : MsPtr n) (probe : W n) : Option (W n × W n) :=
  let size := X.kind.size n
  if size = n then some (p, f.code)
  else if size = n + 4 then some (p + f.delta.signExtend (8 * n), f.code)
  else if size = n + 8 then some (getThis (msCall X mem p { f with code := probe }).this_, f.code)
  else none

/-! ### Delegates -/

/-- `DelegateMemento`, FastDelegate.h:567-576: `m_pthis`, `m_pFunction`. -/
structure Dg (n : Nat) (F : Type) where
  this_ : W n
  fn : F
  deriving DecidableEq

/-- `DelegateMemento()` and `clear`, FastDelegate.h:587-588, 874-876, 953-955. -/
def cleared {n : Nat} {F : Type} (G : Gen n F) : Dg n F := ⟨0, G.zero⟩

/-- `IsEqual`, `==`, FastDelegate.h:601-603, 883-885. -/
def isEqual {n : Nat} {F : Type} (G : Gen n F) (a b : Dg n F) : Bool := decide (a.this_ = b.this_) && G.eq a.fn b.fn

/-- `IsLess`, `<`, FastDelegate.h:606-621, 889-891. -/
def isLess {n : Nat} {F : Type} (G : Gen n F) (a b : Dg n F) : Bool :=
  if a.this_ ≠ b.this_ then decide (a.this_.toNat < b.this_.toNat) else memLt (G.bytes a.fn) (G.bytes b.fn)

/-- `empty`, `!`, FastDelegate.h:622-625, 947-952. -/
def empty {n : Nat} {F : Type} (G : Gen n F) (a : Dg n F) : Bool := decide (a.this_ = 0) && G.eq a.fn G.zero

/-- `SetMementoFrom`, `CopyFrom`, the copy constructor, `=`, `SetMemento`, FastDelegate.h:644-650, 767-769, 877-882, 960-962. -/
def copyFrom {n : Nat} {F : Type} (_self right : Dg n F) : Dg n F := ⟨right.this_, right.fn⟩

/-- `bindmemfunc` and `bindconstmemfunc` with the Itanium ABI, where every pointer to a member has the one size and
`SimplifyMemFunc<SINGLE_MEMFUNCPTR_SIZE>` casts: FastDelegate.h:310-325, 680-708. -/
def bindMem {n : Nat} (p : W n) (f : Mfp n) : Dg n (Mfp n) := ⟨p, f⟩

/-- The same with the Microsoft compiler, FastDelegate.h:680-698. -/
def bindMs {n : Nat} (X : Cls n) (mem : Mem n) (p : W n) (f : MsPtr n) (probe : W n) : Option (Dg n (W n)) :=
  (convert X mem p f probe).map fun r => ⟨r.1, r.2⟩

/-- `bindstaticfunc`, FastDelegate.h:775-794, 922-924: `inv` is the pointer to `InvokeStaticFunction` after `Convert` (its class has no
bases). -/
def bindStatic {n : Nat} {F : Type} (G : Gen n F) (inv : F) (self : W n) (f : W n) : Dg n F :=
  let d : Dg n F := if f = 0 then { cleared G with fn := G.zero } else ⟨self, inv⟩
  { d with this_ := f }

/-- `GetStaticFunction`, FastDelegate.h:800-806: the address of the closure it is called on. -/
def getStaticFunction {n : Nat} (self : W n) : W n := self

/-- `IsEqualToStaticFuncPtr`, `== function`, FastDelegate.h:810-815, 941-943; `self` is where the delegate is. -/
def isEqualStatic {n : Nat} {F : Type} (G : Gen n F) (self : W n) (a : Dg n F) (f : W n) : Bool :=
  if f = 0 then empty G a else decide (f = getStaticFunction self)

/-- What is called in the end: a member function with its object, or a plain function. No counterpart in /repo: the answer of `invoke`. -/
inductive Target (n : Nat)
  | method (code this_ : W n)
  | plain (code : W n)
  deriving DecidableEq

/-- `operator()`, FastDelegate.h:926-928, and `InvokeStaticFunction`, 966-968, whose code is at `invCode`; the closure is at the start of the
delegate (870).  `none` is undefined behaviour: a call through a null pointer. -/
def invoke {n : Nat} {F : Type} (G : Gen n F) (invCode : W n) (mem : Mem n) (a : Dg n F) : Option (Target n) :=
  match G.call mem a.this_ a.fn with
  | none => none
  | some c => if c.code = invCode then some (.plain (getStaticFunction c.this_)) else some (.method c.code c.this_)

/-- `CMyDelegateImpl`, core/sourcehook/sourcehook.h:1058-1066: its delegate.  The virtual functions `Call` and `IsEqual` follow. -/
structure Impl (n : Nat) (F : Type) where
  deleg : Dg n F

/-- `CMyDelegateImpl::Call`, core/sourcehook/sourcehook.h:1063, 1075. -/
def Impl.call {n : Nat} {F : Type} (G : Gen n F) (invCode : W n) (mem : Mem n) (i : Impl n F) : Option (Target n) := invoke G invCode mem i.deleg

/-- `CMyDelegateImpl::IsEqual`, core/sourcehook/sourcehook.h:1065, 1077. -/
def Impl.isEqual {n : Nat} {F : Type} (G : Gen n F) (i j : Impl n F) : Bool := Deleg.isEqual G i.deleg j.deleg

end Verif.Deleg
