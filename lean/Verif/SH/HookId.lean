import Verif.SH.Types
/-
Model of the hook-id manager.
Source: core/sourcehook/sourcehook_impl_chookidman.cpp (line numbers of that file)
Hook ids are `int`; the model uses unbounded integers, i.e. assumes fewer than 2^31 entries.
-/
namespace Verif.SH

/-- `CHookIDManager::New`, sourcehook_impl_chookidman.cpp:22-39: first free entry is overwritten, otherwise a new
entry is appended.  Returns the new table and the 0-based index; the hook id is index + 1. -/
def idNewIx : List Entry → Entry → List Entry × Nat
  | [], e => ([e], 0)
  | x :: xs, e =>
    if x.free then (e :: xs, 0)
    else ((x :: (idNewIx xs e).1), (idNewIx xs e).2 + 1)

/-- Return value of `New`: `static_cast<int>(i) + 1`, sourcehook_impl_chookidman.cpp:33 and 38. -/
def idNew (es : List Entry) (e : Entry) : List Entry × Int :=
  ((idNewIx es e).1, ((idNewIx es e).2 : Int) + 1)

/-- `CHookIDManager::QueryHook`, sourcehook_impl_chookidman.cpp:54-61. -/
def idQuery (es : List Entry) (id : Int) : Option Entry :=
  if id - 1 < 0 ∨ id - 1 ≥ es.length then none
  else match es[(id - 1).toNat]? with
    | some e => if e.free then none else some e
    | none => none

/-- `CHookIDManager::Remove`, sourcehook_impl_chookidman.cpp:41-52. -/
def idRemove (es : List Entry) (id : Int) : List Entry × Bool :=
  match idQuery es id with
  | none => (es, false)
  | some e => (es.set (id - 1).toNat { e with free := true }, true)

/-- The scanning loop of the three `FindAllHooks` overloads: ids of live entries satisfying `p`,
in increasing order (sourcehook_impl_chookidman.cpp:63-97); `k` is the current index. -/
def idFindAux (p : Entry → Bool) : Nat → List Entry → List Int
  | _, [] => []
  | k, e :: es =>
    if !e.free && p e then ((k : Int) + 1) :: idFindAux p (k + 1) es else idFindAux p (k + 1) es

/-- `CHookIDManager::FindAllHooks(output, proto, …)`, sourcehook_impl_chookidman.cpp:63-77. -/
def idFindMatch (es : List Entry) (proto : Proto) (vtblOffs vtblIdx : Int) (adj : Addr)
    (plug : Plugin) (offs : Int) (h : Handler) (post : Bool) : List Int :=
  idFindAux (fun e => e.proto.eqb proto && e.vtblOffs == vtblOffs && e.vtblIdx == vtblIdx &&
    e.adj == adj && e.plug == plug && e.offs == offs && e.handler.key == h.key && e.post == post) 0 es

/-- `CHookIDManager::FindAllHooks(output)`, sourcehook_impl_chookidman.cpp:79-87. -/
def idFindAll (es : List Entry) : List Int := idFindAux (fun _ => true) 0 es

/-- `CHookIDManager::FindAllHooks(output, plug)`, sourcehook_impl_chookidman.cpp:89-97. -/
def idFindPlug (es : List Entry) (plug : Plugin) : List Int := idFindAux (fun e => e.plug == plug) 0 es

/-- `CHookIDManager::RemoveAll`, sourcehook_impl_chookidman.cpp:100-108. -/
def idRemoveAll (es : List Entry) (vfnptr : Addr) : List Entry :=
  es.map fun e => if !e.free && e.vfnptr == vfnptr then { e with free := true } else e

end Verif.SH
