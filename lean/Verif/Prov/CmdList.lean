/-
The list of console commands of engines before Orange Box: core/provider/source/provider_source_console.cpp:36-180.
Commands are linked through `m_pNext`; Metamod unlinks them itself, because the engine has no function for it.

* An address is a natural number, 0 is NULL.  `next a` is `a->m_pNext`, `top` the engine's variable holding the first
  command, which `icvar->GetCommands()` (external) returns.
* `icvar->RegisterConCommandBase` (external): puts a command in front of the list, unless it is marked as registered.
-/
namespace Verif.Prov.Cmd

/-- The list and what the accessor holds: core/provider/source/provider_source.h:68-84. -/
structure St where
  /-- `m_pNext` of a command. -/
  next : Nat → Nat
  /-- the engine's variable -/
  top : Nat
  /-- the engine's mark of a command that it has linked before (external) -/
  marked : Nat → Bool
  /-- `m_TopConCommandBase != NULL` -/
  known : Bool
  /-- `m_RegisteredCommands` -/
  mine : List Nat

/-- `icvar->RegisterConCommandBase` (external), called at core/provider/source/provider_source_console.cpp:42, 52. -/
def engineAdd (c : Nat) (s : St) : St :=
  if s.marked c then s
  else { s with next := fun a => if a = c then s.top else s.next a, top := c, marked := fun a => a == c || s.marked a }

/-- `Register`, core/provider/source/provider_source_console.cpp:47-55. -/
def register (c : Nat) (s : St) : St :=
  engineAdd c { s with next := fun a => if a = c then 0 else s.next a }

/-- `RegisterConCommandBase`, core/provider/source/provider_source_console.cpp:36-45. -/
def registerMine (c : Nat) (s : St) : St := register c { s with mine := s.mine ++ [c] }

/-- The loop of `Unregister`, core/provider/source/provider_source_console.cpp:168-178; `none` if it does not end within `fuel`. -/
def unlinkLoop (c : Nat) : (fuel : Nat) → (next : Nat → Nat) → (prev cur : Nat) → Option (Nat → Nat)
  | 0, _, _, _ => none
  | fuel + 1, next, prev, cur =>
    if cur = 0 then some next
    else
      let next := if cur = c then
          let n := next c
          let next := fun a => if a = prev then n else next a
          fun a => if a = c then 0 else next a
        else next
      unlinkLoop c fuel next cur (next cur)

/-- `Unregister`, core/provider/source/provider_source_console.cpp:138-180. -/
def unregister (fuel c : Nat) (s : St) : Option St :=
  if c = 0 then some s
  else
    let cur := s.top
    if !s.known || cur = 0 then some s
    else if cur = c then
      some { s with top := s.next c, next := fun a => if a = c then 0 else s.next a }
    else match unlinkLoop c fuel s.next cur (s.next cur) with
      | none => none
      | some next => some { s with next }

/-- The loop of `RemoveMetamodCommands`, core/provider/source/provider_source_console.cpp:61-64. -/
def removeLoop (fuel : Nat) : List Nat → St → Option St
  | [], s => some s
  | c :: cs, s => match unregister fuel c s with
    | none => none
    | some s => removeLoop fuel cs s

/-- `RemoveMetamodCommands`, core/provider/source/provider_source_console.cpp:57-65. -/
def removeMine (fuel : Nat) (s : St) : Option St := removeLoop fuel s.mine s

/-- `InitConCommandBaseList` on Linux, core/provider/source/provider_source_console.cpp:85-135: the result and the
value of `m_TopConCommandBase`.  `file`, `handle`: whether `GetFileOfAddress` and `dlopen` succeed; `symbol`: the result
of `dlsym`; `matches`, `sigAddr`: whether the signature matches and the address behind it. -/
def initList (file handle : Bool) (symbol : Nat) (sigMatches : Bool) (sigAddr : Nat) : Bool × Nat :=
  if file && handle then (true, symbol)
  else if sigMatches then (true, sigAddr)
  else (false, 0)

end Verif.Prov.Cmd
