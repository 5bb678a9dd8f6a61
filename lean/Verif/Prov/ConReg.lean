import Verif.Mgr.ConProps
import Verif.Prov.CmdListProps
/-
What the engine holds of the plugins' console commands and variables: the provider's side of the registration.
core/provider/source2/provider_source2.cpp:291-354 (Source 2), core/provider/source/provider_source.cpp:389-434 (the engines
before), core/metamod.cpp:920-934 (which of the two a `ConCommandBase` is).

* The manager (Verif.Mgr.Model) logs each call of the provider; here the log is played to a provider.
* Commands and variables are named by their addresses, as in the manager's lists.
* External: the engine's flags and callbacks of a command (`AddFlags`, `RemoveFlags`, `IsFlagSet`,
  `UnregisterConCommandCallbacks`), the data of a variable (`Invalidate`, `UnregisterConVarCallbacks`).  They are modelled as
  the change of the bit, of the mark and of the entry that their names say.
-/
namespace Verif.Prov.Con

/-- A command of Source 2: its flags and whether callbacks are registered for it (external, the engine's record). -/
structure Cmd where
  flags : BitVec 64
  cbs : Bool
  deriving DecidableEq, Repr

/-- A variable of Source 2: whether its data are valid and whether callbacks are registered for it (external). -/
structure Var where
  valid : Bool
  cbs : Bool
  deriving DecidableEq, Repr

/-- What the engine holds. No counterpart in /repo: the engine's tables of commands and variables. -/
structure St where
  cmd : Nat → Cmd
  var : Nat → Var

/-- `FCVAR_DEVELOPMENTONLY` of the SDK (external): such a command is not found by the console.  Used at
core/provider/source2/provider_source2.cpp:304, 305, 321. -/
def devOnly : BitVec 64 := 2

/-- `Source2Provider::RegisterConCommand`, core/provider/source2/provider_source2.cpp:297-308. -/
def regCmd (c : Nat) (s : St) : St :=
  if (s.cmd c).flags &&& devOnly ≠ 0 then
    { s with cmd := fun a => if a = c then { s.cmd c with flags := (s.cmd c).flags &&& ~~~devOnly } else s.cmd a }
  else s

/-- `Source2Provider::RegisterConVar`, core/provider/source2/provider_source2.cpp:310-314. -/
def regVar (_ : Nat) (s : St) : St := s

/-- `Source2Provider::UnregisterConCommand`, core/provider/source2/provider_source2.cpp:316-322. -/
def unregCmd (c : Nat) (s : St) : St :=
  let s := { s with cmd := fun a => if a = c then { s.cmd c with cbs := false } else s.cmd a }
  { s with cmd := fun a => if a = c then { s.cmd c with flags := (s.cmd c).flags ||| devOnly } else s.cmd a }

/-- `Source2Provider::UnregisterConVar`, core/provider/source2/provider_source2.cpp:324-332. -/
def unregVar (v : Nat) (s : St) : St :=
  let s := { s with var := fun a => if a = v then { s.var v with cbs := false } else s.var a }
  { s with var := fun a => if a = v then { s.var v with valid := false } else s.var a }

/-- The provider hears one entry of the manager's log: the calls at core/metamod.cpp:939, 945, 1005, 1049. -/
def tell (s : St) : Mgr.Ev → St
  | .regVar _ v => regVar v s
  | .regCmd _ v => regCmd v s
  | .unregVar _ v => unregVar v s
  | .unregCmd _ v => unregCmd v s
  | _ => s

/-- The provider has heard the log. No counterpart in /repo: the calls one after the other. -/
def told (log : List Mgr.Ev) (s : St) : St := log.foldl tell s

/-- The same for the providers of the engines before, whose two kinds are one list: core/provider/source/provider_source.cpp:394-412
with core/provider/source/provider_source_console.cpp:47-55, 138-180. -/
def tellOld (fuel : Nat) (s : Cmd.St) : Mgr.Ev → Option Cmd.St
  | .regVar _ v => some (Cmd.register v s)
  | .regCmd _ v => some (Cmd.register v s)
  | .unregVar _ v => Cmd.unregister fuel v s
  | .unregCmd _ v => Cmd.unregister fuel v s
  | _ => some s

/-- The same for a log. No counterpart in /repo: the calls one after the other. -/
def toldOld (fuel : Nat) : List Mgr.Ev → Cmd.St → Option Cmd.St
  | [], s => some s
  | e :: es, s => match tellOld fuel s e with
    | none => none
    | some s => toldOld fuel es s

/-- The provider's answer to `IsConCommandBaseACommand`: core/provider/source2/provider_source2.cpp:291-295,
core/provider/source/provider_source.cpp:389-392.  `isCmd`: the engine's `IsCommand` (external). -/
def isCommand (source2 : Bool) (isCmd : Nat → Bool) (c : Nat) : Bool := if source2 then false else isCmd c

/-- `MetamodSource::RegisterConCommandBase`, core/metamod.cpp:920-926: the call it makes. -/
def regBase (source2 : Bool) (isCmd : Nat → Bool) (api c : Nat) : Mgr.Con :=
  if isCommand source2 isCmd c then .regCmd api c else .regVar api c

/-- `MetamodSource::UnregisterConCommandBase`, core/metamod.cpp:928-934: the call it makes. -/
def unregBase (source2 : Bool) (isCmd : Nat → Bool) (api c : Nat) : Mgr.Con :=
  if isCommand source2 isCmd c then .unregCmd api c else .unregVar api c

/-- The flags `CreateConVar` asks the engine for, core/provider/source2/provider_source2.cpp:339-347 and
core/provider/source/provider_source.cpp:419-427.  `flags`: 1 is `ConVarFlag_Notify`, 2 `ConVarFlag_SpOnly`
(core/metamod_provider.h:35-40); `notify`, `spOnly`: the engine's (external). -/
def newFlags (notify spOnly flags : BitVec 64) : BitVec 64 :=
  let n : BitVec 64 := 0
  let n := if flags &&& 1 ≠ 0 then n ||| notify else n
  if flags &&& 2 ≠ 0 then n ||| spOnly else n

/-- The variables Metamod made for itself on Source 2: `m_RegisteredConVars` (core/provider/source2/provider_source2.h:84) and the
heap blocks of them. -/
structure Own where
  list : List Nat
  live : List Nat
  deriving DecidableEq, Repr

/-- `CreateConVar`, core/provider/source2/provider_source2.cpp:349-351: `new` gives `a`. -/
def create (a : Nat) (o : Own) : Own := { list := o.list ++ [a], live := a :: o.live }

/-- The loop of `Notify_DLLShutdown_Pre`, core/provider/source2/provider_source2.cpp:154-155; `none`: a block that is not live
is deleted. -/
def deleteAll : List Nat → List Nat → Option (List Nat)
  | [], live => some live
  | a :: as, live => if a ∈ live then deleteAll as (live.erase a) else none

/-- The same loop on the provider's list, which it does not clear: core/provider/source2/provider_source2.cpp:152-155. -/
def shutdown (o : Own) : Option Own := (deleteAll o.list o.live).map fun l => { o with live := l }

end Verif.Prov.Con
