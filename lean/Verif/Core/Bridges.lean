import Verif.C.Buf
/-
The two objects through which the loader talks to the core: core/vsp_bridge.cpp and core/gamedll_bridge.cpp, with the
functions of core/metamod.cpp and core/provider/source/provider_source.cpp they call to set and remove hooks.

* An object is an address, 0 is NULL.  The factories, the list of commands and the command `plugin_unload` belong to the
  engine and the game (external): `World`, which may be another one at every call.
* SourceHook is taken with what is proved about it: `AddHook` adds one entry (C01), `RemoveHook` takes out every entry that
  matches (C19), `CompleteShutdown` takes out everything (C13), a call runs every entry once (C03).
* What the plugins do is not here (C26-C31, C48, C56); the calls that reach them are recorded in a log.
* `Error` (external) is recorded and returns, as the code after it expects; the engine's own ends the process.
* Simplified: error texts are not cut to the buffer of the caller (C38); the user messages are left out (C69), and of the
  commands only the first (C70).
-/
namespace Verif.Core.Br

/-- A character of a C string. No counterpart in /repo. -/
abbrev Byte := UInt8

/-- The functions that are hooked, core/vsp_bridge.cpp:37-41, core/provider/source/provider_source.cpp:54-62; `dispatch` is
`ConCommand::Dispatch`, before (`false`) and after (`true`) the original. -/
inductive Kind where
  | dispatch (post : Bool)
  | clientCommand | gameInit | levelInit | levelShutdown
deriving DecidableEq, Repr

/-- What is recorded: `Error`, `NotifyVSPListening`, `mm_StartupMetamod`, `g_PluginMngr.UnloadAll`,
`g_PluginMngr.SetAllLoaded`; core/vsp_bridge.cpp:77-172, core/gamedll_bridge.cpp:39-92. -/
inductive Ev where
  | error
  | listening (cbs : Nat) (version : Int)
  | startup (vsp : Bool)
  | unloadAll
  | allLoaded
deriving DecidableEq, Repr

/-- No counterpart in /repo: the ways to fault. -/
inductive Fault where
  | null
deriving DecidableEq, Repr

/-- The engine and the game (external). `find`: the command `plugin_unload`, 0 if there is none;
core/vsp_bridge.cpp:138-151. -/
structure World where
  gs : List Byte → Nat
  engine : Nat
  icvar : Nat
  find : Nat

/-- `gamedll_interface_name`, a pointer: NULL, to the array `gamedll_iface_name`, or to a text of the loader;
core/metamod.cpp:73, core/vsp_bridge.cpp:46. -/
inductive Name where
  | null | array | given (t : List Byte)
deriving DecidableEq, Repr

/-- The variables: `vsp_desc`, `gamedll_iface_name`, `gamedll_interface_name`, `gamedll_version`, `is_gamedll_loaded`,
`server`, `gameclients`, `engine`, `icvar`, `g_plugin_unload`, `g_bIsTryingToUnload` and whether the provider has callbacks;
core/vsp_bridge.cpp:43-46, core/metamod.cpp:66-98, core/provider/provider_base.cpp:51-55.  `hooks` are the hooks set from
here. -/
structure St where
  desc : List Byte
  array : List Byte
  name : Name
  version : Int
  gamedll : Bool
  server : Nat
  gameclients : Nat
  engine : Nat
  icvar : Nat
  cmd : Nat
  trying : Bool
  callbacks : Bool
  hooks : List (Nat × Kind)
  log : List Ev

/-- A text without its terminator. No counterpart in /repo. -/
def bytes (t : String) : List Byte := t.toUTF8.toList

/-- The initial values, core/vsp_bridge.cpp:43-46, core/metamod.cpp:66-98, core/provider/provider_base.cpp:51-55. -/
def init : St where
  desc := bytes "Metamod:Source"
  array := []
  name := .null
  version := 0
  gamedll := false
  server := 0
  gameclients := 0
  engine := 0
  icvar := 0
  cmd := 0
  trying := false
  callbacks := false
  hooks := []
  log := []

/-- Ghost. No counterpart in /repo. -/
def St.note (s : St) (e : Ev) : St := { s with log := s.log ++ [e] }

/-- `SH_ADD_HOOK`, see the head of this file; core/sourcehook/sourcehook.cpp:102-175. -/
def addHook (o : Nat) (k : Kind) (s : St) : Except Fault St :=
  if o = 0 then .error .null else .ok { s with hooks := s.hooks ++ [(o, k)] }

/-- `SH_REMOVE_HOOK`, see the head of this file; core/sourcehook/sourcehook.cpp:177-202. -/
def rmHook (o : Nat) (k : Kind) (s : St) : St := { s with hooks := s.hooks.filter (· ≠ (o, k)) }

/-- `"ServerGameDLL%03d"` for numbers below 1000, core/vsp_bridge.cpp:90. -/
def dllName (i : Nat) : List Byte :=
  bytes "ServerGameDLL" ++ [UInt8.ofNat (48 + i / 100), UInt8.ofNat (48 + i / 10 % 10), UInt8.ofNat (48 + i % 10)]

/-- `g_Metamod.SetGameDLLInfo`, core/metamod.cpp:1123-1129. -/
def setInfo (name : Name) (v : Int) (loaded : Bool) (s : St) : St := { s with name := name, version := v, gamedll := loaded }

/-- The loop over the versions of the game, core/vsp_bridge.cpp:88-96: `n` turns are left, the next one is for `i`. -/
def findServer (w : World) : Nat → Nat → St → St
  | 0, _, s => s
  | n + 1, i, s =>
    let s := { s with array := dllName i }
    let s := { s with server := w.gs s.array }
    if s.server ≠ 0 then setInfo .array i false s
    else findServer w n (i + 1) s

/-- The loop over the versions of `IServerGameClients`, core/vsp_bridge.cpp:104-110; `name` is `gameclients_iface`. -/
def findClients (w : World) : Nat → Nat → List Byte → St → St
  | 0, _, _, s => s
  | n + 1, i, name, s =>
    let name := name.set 19 (UInt8.ofNat (48 + i))
    let s := { s with gameclients := w.gs name }
    if s.gameclients = 0 then s else findClients w n (i + 1) name s

/-- `if (gameclients) SH_ADD_HOOK(…)`, core/provider/source/provider_source.cpp:131-134. -/
def hookClients (s : St) : Except Fault St := if s.gameclients ≠ 0 then addHook s.gameclients .clientCommand s else .ok s

/-- `SourceProvider::Notify_DLLInit_Pre` with the factory of the game in `gs`, core/provider/source/provider_source.cpp:64-139. -/
def notifyInit (w : World) (s : St) : Except Fault St :=
  let s := { s with engine := w.engine }
  if s.engine = 0 then .ok (s.note .error)
  else
    let s := { s with icvar := w.icvar }
    if s.icvar = 0 then .ok (s.note .error)
    else do
      let s := { s with gameclients := w.gs (bytes "ServerGameClients003") }
      let s := if s.gameclients = 0 then { s with gameclients := w.gs (bytes "ServerGameClients004") } else s
      let s ← hookClients s
      let s ← addHook s.server .gameInit s
      let s ← addHook s.server .levelInit s
      addHook s.server .levelShutdown s

/-- `mm_DetectGameInformation`, which reads `engine`, core/metamod.cpp:227-240, core/provider/source/provider_source.cpp:325-328.
It always answers true. -/
def detect (s : St) : Except Fault Bool := if s.engine = 0 then .error .null else .ok true

/-- `mm_InitializeForLoad`, core/metamod.cpp:211-225. -/
def initForLoad (s : St) : St := { s with callbacks := true }

/-- `mm_StartupMetamod`, which registers variables, core/metamod.cpp:488-540,
core/provider/source/provider_source_console.cpp:36-45. -/
def startup (vsp : Bool) (s : St) : Except Fault St := if s.icvar = 0 then .error .null else .ok (s.note (.startup vsp))

/-- The texts of the errors, core/vsp_bridge.cpp:82, 100, 119. -/
inductive Err where
  | gameinfo | version | paths
deriving DecidableEq, Repr

/-- How `Load` gets the first part done: an error, or on to the commands. No counterpart in /repo: the `return false` of
core/vsp_bridge.cpp:80-121. -/
abbrev Res := St × Option Err

/-- The part of `VspBridge::Load` for VSP mode, core/vsp_bridge.cpp:71-125; `ver` is `METAMOD_VERSION`. -/
def loadVsp (w : World) (ver : List Byte) (cbs : Nat) (v : Int) (s : St) : Except Fault Res :=
  let s := { s with desc := s.desc ++ bytes " " ++ ver }
  if w.gs (bytes "PlayerInfoManager002") = 0 then .ok (s, some .gameinfo)
  else
    let s := findServer w 48 3 s
    if s.server = 0 then .ok (s, some .version)
    else do
      let s := findClients w 2 3 (bytes "ServerGameClients000") s
      let s ← notifyInit w s
      let d ← detect s
      if !d then .ok (s, some .paths)
      else do
        let s := initForLoad s
        let s := s.note (.listening cbs v)
        let s ← startup true s
        .ok (s, none)

/-- The part for game DLL mode, core/vsp_bridge.cpp:127-133. -/
def loadGame (ver : List Byte) (cbs : Nat) (v : Int) (s : St) : St :=
  let s := { s with desc := s.desc ++ bytes " Interface " ++ ver }
  s.note (.listening cbs v)

/-- The search for the command, core/vsp_bridge.cpp:135-148: newer engines (`orange`) are asked, the list of older ones is
walked, and there the variable keeps its value if nothing is found. -/
def findCmd (orange : Bool) (w : World) (s : St) : Except Fault St :=
  if s.icvar = 0 then .error .null
  else .ok { s with cmd := if orange || w.find ≠ 0 then w.find else s.cmd }

/-- The two hooks on it, core/vsp_bridge.cpp:150-154. -/
def hookCmd (s : St) : Except Fault St :=
  if s.cmd ≠ 0 then do
    let s ← addHook s.cmd (.dispatch false) s
    addHook s.cmd (.dispatch true) s
  else .ok s

/-- The end of `VspBridge::Load`, core/vsp_bridge.cpp:135-156. -/
def loadEnd (orange : Bool) (w : World) (r : Res) : Except Fault Res :=
  match r.2 with
  | some e => .ok (r.1, some e)
  | none => do
    let s ← findCmd orange w r.1
    let s ← hookCmd s
    .ok (s, none)

/-- `VspBridge::Load`, core/vsp_bridge.cpp:69-156. -/
def load (orange : Bool) (w : World) (ver : List Byte) (cbs : Nat) (v : Int) (s : St) : Except Fault Res :=
  if !s.gamedll then do
    let r ← loadVsp w ver cbs v s
    loadEnd orange w r
  else loadEnd orange w (loadGame ver cbs v s, none)

/-- `SourceProvider::Notify_DLLShutdown_Pre`, core/provider/source/provider_source.cpp:141-155. -/
def notifyShutdown (s : St) : St := rmHook s.server .levelShutdown (rmHook s.server .levelInit (rmHook s.server .gameInit s))

/-- `mm_UnloadMetamod`, core/metamod.cpp:556-565. -/
def unloadMetamod (s : St) : St :=
  let s := s.note .unloadAll
  let s := notifyShutdown s
  { s with hooks := [] }

/-- The hooks on the command go, core/vsp_bridge.cpp:167-172. -/
def unhookCmd (s : St) : St :=
  if s.cmd ≠ 0 then { rmHook s.cmd (.dispatch true) (rmHook s.cmd (.dispatch false) s) with cmd := 0 } else s

/-- `VspBridge::Unload`, core/vsp_bridge.cpp:158-177. -/
def unload (s : St) : St :=
  if s.trying then s.note .error
  else
    let s := unhookCmd s
    if !s.gamedll then unloadMetamod s else s

/-- `GameDllBridge::DLLInit_Pre`, core/gamedll_bridge.cpp:39-63; `name`, `v` and `isgd` are of `info`. -/
def dllInitPre (w : World) (name : List Byte) (v : Int) (isgd : Nat) (s : St) : Except Fault Res := do
  let s := { s with server := isgd }
  let s := setInfo (.given name) v true s
  let s ← notifyInit w s
  let d ← detect s
  if !d then .ok (s, some .paths)
  else do
    let s := initForLoad s
    let s ← startup false s
    .ok (s, none)

/-- `GameDllBridge::DLLInit_Post`, core/gamedll_bridge.cpp:64-81. -/
def dllInitPost (s : St) : St := s.note .allLoaded

/-- `GameDllBridge::Unload`, core/gamedll_bridge.cpp:86-89. -/
def gameUnload (s : St) : St := unloadMetamod s

/-- `GetDescription`, core/vsp_bridge.cpp:179-182. -/
def description (s : St) : List Byte := s.desc

/-- `g_Metamod.GetGameDLLInterfaceName`, core/metamod.cpp:1192-1195; NULL is `none`. -/
def interfaceName (s : St) : Option (List Byte) :=
  match s.name with
  | .null => none
  | .array => some s.array
  | .given t => some t

/-- `InterceptPluginUnloads` and `InterceptPluginUnloads_Post`, core/vsp_bridge.cpp:48-64, run for a command. -/
def intercept (c : Nat) (post : Bool) (s : St) : St := if (c, Kind.dispatch post) ∈ s.hooks then { s with trying := !post } else s

/-- What the loader and the engine call.  No counterpart in /repo: the functions of this file. -/
inductive Op where
  | load (w : World) (cbs : Nat) (v : Int)
  | unload
  | init (w : World) (name : List Byte) (v : Int) (isgd : Nat)
  | post
  | gameUnload

/-- A call. No counterpart in /repo: the functions of this file under one name. -/
def step (orange : Bool) (ver : List Byte) : Op → St → Except Fault St
  | .load w cbs v, s => do
    let r ← load orange w ver cbs v s
    .ok r.1
  | .unload, s => .ok (unload s)
  | .init w name v isgd, s => do
    let r ← dllInitPre w name v isgd s
    .ok r.1
  | .post, s => .ok (dllInitPost s)
  | .gameUnload, s => .ok (gameUnload s)

/-- Calls one after the other. `dispatch c body`: a command is run, and `body` is all that happens in it.  No counterpart in
/repo. -/
inductive Scr where
  | done
  | op (o : Op) (next : Scr)
  | dispatch (c : Nat) (body next : Scr)

/-- A command is run, with the handlers if there are any when it begins.  No counterpart in /repo: the loop of a hook
function, core/sourcehook/sourcehook.h:1008-1050. -/
def dispatch (c : Nat) (body : St → Except Fault St) (s : St) : Except Fault St :=
  if (c, Kind.dispatch false) ∈ s.hooks ∨ (c, Kind.dispatch true) ∈ s.hooks then do
    let s ← body (intercept c false s)
    .ok (intercept c true s)
  else body s

/-- Runs a program. No counterpart in /repo. -/
def exec (orange : Bool) (ver : List Byte) : Scr → St → Except Fault St
  | .done, s => .ok s
  | .op o p, s => do
    let s ← step orange ver o s
    exec orange ver p s
  | .dispatch c b p, s => do
    let s ← dispatch c (exec orange ver b) s
    exec orange ver p s

end Verif.Core.Br
