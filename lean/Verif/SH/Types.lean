import Verif.SH.Proto
/-
Data of the SourceHook registry model.
Source: core/sourcehook/sourcehook_impl*.h/.cpp

Identity.  Objects that are referred to by pointer in the C++ code carry a natural number that is
handed out by one global counter and never reused (`oid`, `nid`).  A pointer is such a number
(or a path of numbers); it dangles when no live object carries it.  Addresses are unbounded
integers (no wrap-around), `0` is `NULL`.
-/
namespace Verif.SH

/-- No counterpart in /repo: an address. -/
abbrev Addr := Int
/-- `Plugin`, core/sourcehook/sourcehook.h:177. -/
abbrev Plugin := Nat
/-- `HookManagerPubFunc`, core/sourcehook/sourcehook.h:268. -/
abbrev PubFunc := Nat

/-- Outcomes that are undefined behaviour in C++ (or, for `desync`, a hook function working on a
context that is not its own). No counterpart in /repo. -/
inductive Fault where
  | useAfterFree
  | nullDeref
  | uninitialised
  | doubleFree
  | desync
deriving DecidableEq, Repr

/-- No counterpart in /repo: a result, or undefined behaviour. -/
abbrev R (α : Type) := Except Fault α

/-- An `ISHDelegate*` (sourcehook.h:268-275): `obj` is the identity of the delegate object, `key`
is what `IsEqual` compares (sourcehook.h:1065 compares the stored fast delegate). -/
structure Handler where
  obj : Nat
  key : Nat
deriving DecidableEq, Repr, Inhabited

/-- `CHook`, sourcehook_impl_chook.h:20-28, plus the node identity `nid` of its list node
(sh_list.h:44-52).  Nodes are only created by `push_back` (sourcehook.cpp:169-172). -/
structure Hook where
  nid : Nat
  plug : Plugin
  offs : Int
  handler : Handler
  id : Int
  paused : Bool
deriving DecidableEq, Repr, Inhabited

/-- `CIface`, sourcehook_impl_ciface.h:21-28.  `ptr = 0` is the vtable-wide (VP) entry. -/
structure Iface where
  oid : Nat
  ptr : Addr
  pre : List Hook
  post : List Hook
deriving DecidableEq, Repr, Inhabited

/-- `hentry->post ? GetPostHookList() : GetPreHookList()`, sourcehook.cpp:226. -/
def Iface.side (i : Iface) (post : Bool) : List Hook := if post then i.post else i.pre

/-- Replaces one of the two hook lists. No counterpart in /repo. -/
def Iface.setSide (i : Iface) (post : Bool) (l : List Hook) : Iface :=
  if post then { i with post := l } else { i with pre := l }

/-- `CVfnPtr`, sourcehook_impl_cvfnptr.h:22-34: slot address, original entry, "has a call thunk"
(the thunk is identified with the object), hook managers (pointers, best first), interfaces.
`offers` is a history variable: the attached managers in the order they were offered. -/
structure Vfn where
  oid : Nat
  ptr : Addr
  orig : Addr
  thunk : Bool
  hms : List Nat
  offers : List Nat := []
  ifaces : List Iface
deriving DecidableEq, Repr, Inhabited

/-- What a hook manager's public function reports through `SetInfo`,
sourcehook_impl_chookmaninfo.cpp:30-38; `hookfunc` is `*m_HookfuncVfnptr` (`GetHookFunc`). -/
structure Info where
  version : Int
  vtblOffs : Int
  vtblIdx : Int
  proto : Proto
  hookfunc : Addr
deriving DecidableEq, Repr, Inhabited

/-- `CHookManager`, sourcehook_impl_chookmaninfo.h:24-35; `vfns` is `m_VfnPtrs` (pointers). -/
structure HookMan where
  oid : Nat
  plug : Plugin
  pub : PubFunc
  info : Info
  vfns : List Nat
deriving DecidableEq, Repr, Inhabited

/-- `CHookIDManager::Entry`, sourcehook_impl_chookidman.h:27-46. -/
structure Entry where
  free : Bool
  proto : Proto
  vtblOffs : Int
  vtblIdx : Int
  vfnptr : Addr
  adj : Addr
  plug : Plugin
  offs : Int
  handler : Handler
  post : Bool
deriving DecidableEq, Repr, Inhabited

/-- The environment: which slots can be made writable (`MakePageWritable`, sh_memory.h),
which are still mapped (`ModuleInMemory`, sh_memory.h), and which hook function code lives at an
address (the `Func` member generated for a public function by `SH_DECL_HOOK*`). sh_memory.h:220 and 263 in core/sourcehook. -/
structure Env where
  writable : Addr → Bool
  inMemory : Addr → Bool
  pubAt : Addr → Option PubFunc

/-- Registry part of `CSourceHookImpl` (sourcehook_impl.h:321 ff.: `m_HookManList`, `m_VfnPtrs`,
`m_HookIDMan`) together with the process state it acts on: memory words (`mem`), the static
`ms_HI` of every public function (`stored`, sourcehook.h:806-807).  `deleted` is a history
variable: node ids of hooks whose handler got `DeleteThis()`, newest first. -/
structure Reg where
  hms : List HookMan := []
  vfns : List Vfn := []
  entries : List Entry := []
  mem : Addr → Addr
  stored : PubFunc → Option Nat := fun _ => none
  next : Nat := 0
  deleted : List Nat := []

/-- Point update of a function. No counterpart in /repo. -/
def upd {α β : Type} [DecidableEq α] (f : α → β) (a : α) (b : β) : α → β :=
  fun x => if x = a then b else f x

end Verif.SH
