import Verif.SH.RegProps
/-
What a plugin does with SourceHook in `Load` and `Unload`: a list of `SH_ADD_HOOK` and a list of
`SH_REMOVE_HOOK` (C100), and those lists of the three sample plugins.
-/
namespace Verif.SH.TakeBack

open Verif.SH

/-- Arguments of `RemoveHook`, core/sourcehook/sourcehook.cpp:177-178; `info` is the answer of the
public function queried by the temporary `CHookManager` of line 180. -/
structure RemArgs where
  plug : Plugin
  iface : Addr
  offs : Int
  info : Option Info
  handler : Handler
  post : Bool
deriving Repr

/-- The hooks added one after another, as `Load` does: samples/s1_sample_mm/sample_mm.cpp:86-96.
Simplification: the ids returned are not kept (the samples do not keep them). -/
def addAll (E : Env) (r : Reg) : List AddArgs → R Reg
  | [] => .ok r
  | a :: as => do
    let x ← addHook E r a
    addAll E x.1 as

/-- The hooks removed one after another, as `Unload` does: samples/s1_sample_mm/sample_mm.cpp:112-122.
Simplification: the results are not kept (the samples ignore them). -/
def removeAll (E : Env) (r : Reg) : List RemArgs → R Reg
  | [] => .ok r
  | b :: bs => do
    let x ← removeHook E r b.plug b.iface b.offs b.info b.handler b.post
    removeAll E x.1 bs

/-! ### what the claims are stated with -/

/-- Specification: the removal names what the addition named.  The handler is another delegate
object that compares equal. -/
structure TakesBack (a : AddArgs) (b : RemArgs) : Prop where
  plug : b.plug = a.plug
  iface : b.iface = a.iface
  offs : b.offs = a.offs
  info : b.info = a.info
  handler : b.handler.key = a.handler.key
  post : b.post = a.post

/-- Specification: an addition by `SH_ADD_HOOK` (mode `Hook_Normal`) through a hook manager whose
prototype SourceHook can read. -/
structure Ordinary (a : AddArgs) : Prop where
  mode : a.mode = 0
  proto : ∀ i, a.info = some i → i.proto.WF ∧ 0 ≤ i.proto.version

/-- Specification: hook `k` on object `a`, side `s` is what the removal `b` asks for. -/
def Named (r : Reg) (b : RemArgs) (a : Addr) (s : Bool) (k : Hook) : Prop :=
  MatchesRemove r b.plug b.iface b.offs b.info b.handler b.post a s k

/-! ### the sample plugins -/

/-- The interface pointers hooked: samples/s1_sample_mm/sample_mm.cpp:37-38, core/vsp_bridge.cpp:152,
core/provider/source2/provider_source2.cpp:148, 394, 418. -/
inductive Ptr where
  | server
  | gameclients
  | pluginUnload
  | enginesvcmgr
  | loopModeFactory
  | loopMode
deriving DecidableEq, Repr

/-- The arguments of one `SH_ADD_HOOK…`/`SH_REMOVE_HOOK…` line, core/sourcehook/sourcehook.h:710-758. -/
structure Line where
  iface : String
  func : String
  ptr : Ptr
  handler : String
  post : Bool
deriving DecidableEq, Repr

/-- What the program gives the names of a plugin's source. No counterpart in /repo: the results of
the compiler (`mfi.thisptroffs`, sourcehook.h:839-840), the factories and the delegates. -/
structure Names where
  plug : Plugin
  addr : Ptr → Addr
  offs : String → String → Int
  pub : String → String → PubFunc
  info : String → String → Option Info
  key : String → Nat

/-- `__SourceHook_FHAdd…`, core/sourcehook/sourcehook.h:835-847, with mode `Hook_Normal`; `obj` is
the new delegate.  The macro's early return for functions that are not virtual is not modelled. -/
def Line.add (g : Names) (obj : Nat) (l : Line) : AddArgs :=
  ⟨g.plug, 0, g.addr l.ptr, g.offs l.iface l.func, g.pub l.iface l.func, g.info l.iface l.func,
    ⟨obj, g.key l.handler⟩, l.post⟩

/-- `__SourceHook_FHRemove…`, core/sourcehook/sourcehook.h:848-857. -/
def Line.rem (g : Names) (obj : Nat) (l : Line) : RemArgs :=
  ⟨g.plug, g.addr l.ptr, g.offs l.iface l.func, g.info l.iface l.func, ⟨obj, g.key l.handler⟩, l.post⟩

/-- `SamplePlugin::Load`, samples/s1_sample_mm/sample_mm.cpp:86-96. -/
def s1Load : List Line :=
  [⟨"IServerGameDLL", "LevelInit", .server, "Hook_LevelInit", true⟩,
   ⟨"IServerGameDLL", "ServerActivate", .server, "Hook_ServerActivate", true⟩,
   ⟨"IServerGameDLL", "GameFrame", .server, "Hook_GameFrame", true⟩,
   ⟨"IServerGameDLL", "LevelShutdown", .server, "Hook_LevelShutdown", false⟩,
   ⟨"IServerGameClients", "ClientActive", .gameclients, "Hook_ClientActive", true⟩,
   ⟨"IServerGameClients", "ClientDisconnect", .gameclients, "Hook_ClientDisconnect", true⟩,
   ⟨"IServerGameClients", "ClientPutInServer", .gameclients, "Hook_ClientPutInServer", true⟩,
   ⟨"IServerGameClients", "SetCommandClient", .gameclients, "Hook_SetCommandClient", true⟩,
   ⟨"IServerGameClients", "ClientSettingsChanged", .gameclients, "Hook_ClientSettingsChanged", false⟩,
   ⟨"IServerGameClients", "ClientConnect", .gameclients, "Hook_ClientConnect", false⟩,
   ⟨"IServerGameClients", "ClientCommand", .gameclients, "Hook_ClientCommand", false⟩]

/-- `SamplePlugin::Unload`, samples/s1_sample_mm/sample_mm.cpp:112-122. -/
def s1Unload : List Line :=
  [⟨"IServerGameDLL", "LevelInit", .server, "Hook_LevelInit", true⟩,
   ⟨"IServerGameDLL", "ServerActivate", .server, "Hook_ServerActivate", true⟩,
   ⟨"IServerGameDLL", "GameFrame", .server, "Hook_GameFrame", true⟩,
   ⟨"IServerGameDLL", "LevelShutdown", .server, "Hook_LevelShutdown", false⟩,
   ⟨"IServerGameClients", "ClientActive", .gameclients, "Hook_ClientActive", true⟩,
   ⟨"IServerGameClients", "ClientDisconnect", .gameclients, "Hook_ClientDisconnect", true⟩,
   ⟨"IServerGameClients", "ClientPutInServer", .gameclients, "Hook_ClientPutInServer", true⟩,
   ⟨"IServerGameClients", "SetCommandClient", .gameclients, "Hook_SetCommandClient", true⟩,
   ⟨"IServerGameClients", "ClientSettingsChanged", .gameclients, "Hook_ClientSettingsChanged", false⟩,
   ⟨"IServerGameClients", "ClientConnect", .gameclients, "Hook_ClientConnect", false⟩,
   ⟨"IServerGameClients", "ClientCommand", .gameclients, "Hook_ClientCommand", false⟩]

/-- `MMSPlugin::Load`, samples/s2_sample_mm/src/plugin.cpp:85-92. -/
def s2Load : List Line :=
  [⟨"IServerGameDLL", "GameFrame", .server, "Hook_GameFrame", true⟩,
   ⟨"IServerGameClients", "ClientActive", .gameclients, "Hook_ClientActive", true⟩,
   ⟨"IServerGameClients", "ClientDisconnect", .gameclients, "Hook_ClientDisconnect", true⟩,
   ⟨"IServerGameClients", "ClientPutInServer", .gameclients, "Hook_ClientPutInServer", true⟩,
   ⟨"IServerGameClients", "ClientSettingsChanged", .gameclients, "Hook_ClientSettingsChanged", false⟩,
   ⟨"IServerGameClients", "OnClientConnected", .gameclients, "Hook_OnClientConnected", false⟩,
   ⟨"IServerGameClients", "ClientConnect", .gameclients, "Hook_ClientConnect", false⟩,
   ⟨"IServerGameClients", "ClientCommand", .gameclients, "Hook_ClientCommand", false⟩]

/-- `MMSPlugin::Unload`, samples/s2_sample_mm/src/plugin.cpp:178-185. -/
def s2Unload : List Line :=
  [⟨"IServerGameDLL", "GameFrame", .server, "Hook_GameFrame", true⟩,
   ⟨"IServerGameClients", "ClientActive", .gameclients, "Hook_ClientActive", true⟩,
   ⟨"IServerGameClients", "ClientDisconnect", .gameclients, "Hook_ClientDisconnect", true⟩,
   ⟨"IServerGameClients", "ClientPutInServer", .gameclients, "Hook_ClientPutInServer", true⟩,
   ⟨"IServerGameClients", "ClientSettingsChanged", .gameclients, "Hook_ClientSettingsChanged", false⟩,
   ⟨"IServerGameClients", "OnClientConnected", .gameclients, "Hook_OnClientConnected", false⟩,
   ⟨"IServerGameClients", "ClientConnect", .gameclients, "Hook_ClientConnect", false⟩,
   ⟨"IServerGameClients", "ClientCommand", .gameclients, "Hook_ClientCommand", false⟩]

/-- `StubPlugin::Load`, samples/s1_stub_mm/stub_mm.cpp:35. -/
def stubLoad : List Line := [⟨"IServerGameDLL", "ServerActivate", .server, "Hook_ServerActivate", true⟩]

/-- `StubPlugin::Unload`, samples/s1_stub_mm/stub_mm.cpp:42. -/
def stubUnload : List Line := [⟨"IServerGameDLL", "ServerActivate", .server, "Hook_ServerActivate", true⟩]

/-- The three samples: what `Load` adds and what `Unload` removes. No counterpart in /repo: a list. -/
def samples : List (List Line × List Line) := [(s1Load, s1Unload), (s2Load, s2Unload), (stubLoad, stubUnload)]

/-! ### Metamod itself -/

/-- `VspBridge::Load`, core/vsp_bridge.cpp:150-154, if the command was found. -/
def vspLoad : List Line :=
  [⟨"ConCommand", "Dispatch", .pluginUnload, "InterceptPluginUnloads", false⟩,
   ⟨"ConCommand", "Dispatch", .pluginUnload, "InterceptPluginUnloads_Post", true⟩]

/-- `VspBridge::Unload`, core/vsp_bridge.cpp:168-173. -/
def vspUnload : List Line :=
  [⟨"ConCommand", "Dispatch", .pluginUnload, "InterceptPluginUnloads", false⟩,
   ⟨"ConCommand", "Dispatch", .pluginUnload, "InterceptPluginUnloads_Post", true⟩]

/-- `Source2Provider::Notify_DLLInit_Pre`, core/provider/source2/provider_source2.cpp:139-149, without
`SHOULD_OVERRIDE_ALLOWDEDICATED_SERVER`; `clients`: there is an interface to the players. -/
def s2Init (clients : Bool) : List Line :=
  (if clients then [⟨"IServerGameClients", "ClientCommand", .gameclients, "Hook_ClientCommand", false⟩] else []) ++
  [⟨"IEngineServiceMgr", "RegisterLoopMode", .enginesvcmgr, "Hook_RegisterLoopMode", false⟩,
   ⟨"IEngineServiceMgr", "UnregisterLoopMode", .enginesvcmgr, "Hook_UnregisterLoopMode", false⟩]

/-- `Source2Provider::Notify_DLLShutdown_Pre`, core/provider/source2/provider_source2.cpp:159-165. -/
def s2Shutdown (clients : Bool) : List Line :=
  [⟨"IEngineServiceMgr", "RegisterLoopMode", .enginesvcmgr, "Hook_RegisterLoopMode", false⟩,
   ⟨"IEngineServiceMgr", "UnregisterLoopMode", .enginesvcmgr, "Hook_UnregisterLoopMode", false⟩] ++
  (if clients then [⟨"IServerGameClients", "ClientCommand", .gameclients, "Hook_ClientCommand", false⟩] else [])

/-- `Source2Provider::Hook_RegisterLoopMode`, core/provider/source2/provider_source2.cpp:394-395. -/
def factoryIn : List Line :=
  [⟨"ILoopModeFactory", "CreateLoopMode", .loopModeFactory, "Hook_CreateLoopModePost", true⟩,
   ⟨"ILoopModeFactory", "DestroyLoopMode", .loopModeFactory, "Hook_DestroyLoopMode", false⟩]

/-- `Source2Provider::Hook_UnregisterLoopMode`, core/provider/source2/provider_source2.cpp:408-409. -/
def factoryOut : List Line :=
  [⟨"ILoopModeFactory", "CreateLoopMode", .loopModeFactory, "Hook_CreateLoopModePost", true⟩,
   ⟨"ILoopModeFactory", "DestroyLoopMode", .loopModeFactory, "Hook_DestroyLoopMode", false⟩]

/-- `Source2Provider::Hook_CreateLoopModePost`, core/provider/source2/provider_source2.cpp:418-419. -/
def modeIn : List Line :=
  [⟨"ILoopMode", "LoopInit", .loopMode, "Hook_LoopInitPost", true⟩,
   ⟨"ILoopMode", "LoopShutdown", .loopMode, "Hook_LoopShutdownPost", true⟩]

/-- `Source2Provider::Hook_DestroyLoopMode`, core/provider/source2/provider_source2.cpp:427-428. -/
def modeOut : List Line :=
  [⟨"ILoopMode", "LoopInit", .loopMode, "Hook_LoopInitPost", true⟩,
   ⟨"ILoopMode", "LoopShutdown", .loopMode, "Hook_LoopShutdownPost", true⟩]

/-- What Metamod itself adds and takes back. No counterpart in /repo: a list. -/
def metamods : List (List Line × List Line) :=
  [(vspLoad, vspUnload), (s2Init true, s2Shutdown true), (s2Init false, s2Shutdown false), (factoryIn, factoryOut), (modeIn, modeOut)]

/-- `SourceProvider::Notify_DLLInit_Pre`, core/provider/source/provider_source.cpp:131-138; `clients`:
there is an interface to the players. -/
def s1Init (clients : Bool) : List Line :=
  (if clients then [⟨"IServerGameClients", "ClientCommand", .gameclients, "Hook_ClientCommand", false⟩] else []) ++
  [⟨"IServerGameDLL", "GameInit", .server, "Hook_GameInit", false⟩,
   ⟨"IServerGameDLL", "LevelInit", .server, "Hook_LevelInit", true⟩,
   ⟨"IServerGameDLL", "LevelShutdown", .server, "Hook_LevelShutdown", true⟩]

/-- `SourceProvider::Notify_DLLShutdown_Pre`, core/provider/source/provider_source.cpp:143-145. -/
def s1Shutdown : List Line :=
  [⟨"IServerGameDLL", "GameInit", .server, "Hook_GameInit", false⟩,
   ⟨"IServerGameDLL", "LevelInit", .server, "Hook_LevelInit", true⟩,
   ⟨"IServerGameDLL", "LevelShutdown", .server, "Hook_LevelShutdown", true⟩]

end Verif.SH.TakeBack
