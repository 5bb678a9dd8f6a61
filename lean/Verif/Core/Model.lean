import Verif.Mgr.Model
/-
The listeners of the plugins and the server plugin (VSP) state of the core:
core/metamod.cpp.

The plugin manager (`Verif.Mgr`) is seen here through its list of plugins and
their listeners only; what it does to them are the operations `addPlugin`,
`dropPlugin`, `clearEvents` and `addListener`, which external code may perform at any
time, also from inside every call.  Loading plugins, the engine, the factories
and the listeners are external code: `Scr` gives all their finite behaviours.

Simplified: the texts of messages, and the path in the `plugin_load` command
(`Verif.Util.RelatizeProps`), are not here; names of interfaces are byte strings
without terminator.
-/
namespace Verif.Core

open Verif.Mgr (Fault R Byte)

/-- The factories that `IFACE_MACRO` wraps (core/metamod.cpp:241-245, 391-413). -/
inductive Kind
  | engine | physics | fileSystem | gameDll
  deriving Repr, DecidableEq

/-- Calls to external code. Called by core/metamod.cpp:435-1336. -/
inductive Call
  /-- `On…Query` of a listener. -/
  | ask (k : Kind) (l : Nat) (name : List Byte)
  /-- `OnMetamodQuery` of a listener. -/
  | askMeta (l : Nat) (name : List Byte)
  /-- The real factory; `ret` is not NULL if true. -/
  | factory (k : Kind) (name : List Byte) (ret : Bool)
  | levelInit (l : Nat)
  | levelShutdown (l : Nat)
  /-- `OnVSPListening`. -/
  | listening (l : Nat) (cbs : Nat)
  /-- `provider->ServerCommand("plugin_load …")`. -/
  | command
  /-- `DoInitialPluginLoads` without or with `SetAllLoaded` after it. -/
  | initialLoad
  /-- `mm_LoadPlugins` at the end of a level. -/
  | reload
  deriving Repr, DecidableEq

/-- The answer of a call: a pointer (0 is NULL) and what was written to `*ret`. -/
abbrev Reply := Nat × Option Int

/-- What happened, oldest first (ghost). No counterpart in /repo. -/
inductive Ev
  | call (c : Call)
  | ret (c : Call) (r : Reply)
  deriving Repr, DecidableEq

/-- A plugin as the loops over listeners see it: list node, `m_Id`, `m_Events` as pairs
of node and listener (core/metamod_plugins.h:82-97). -/
structure Plug where
  oid : Nat
  id : Nat
  events : List (Nat × Nat)
  deriving Repr, DecidableEq

/-- The list of plugins and the variables of core/metamod.cpp:72-98: `is_game_init`,
`vsp_load_requested`, `g_bIsVspBridged`, `were_plugins_loaded`, `is_gamedll_loaded`,
`in_first_level`, `vsp_version`, `vsp_callbacks` (0 is NULL).  `vsp_loaded` is never written
and always false.  `next` is the next unused identity. -/
structure St where
  plugs : List Plug
  next : Nat
  isInit : Bool
  requested : Bool
  bridged : Bool
  loaded : Bool
  gamedll : Bool
  firstLevel : Bool
  version : Int
  cbs : Nat
  log : List Ev
  deriving Repr, DecidableEq

/-- The initial values (core/metamod.cpp:72-98). -/
def init : St where
  plugs := []
  next := 0
  isInit := false
  requested := false
  bridged := false
  loaded := false
  gamedll := false
  firstLevel := true
  version := 0
  cbs := 0
  log := []

/-- Ghost. No counterpart in /repo. -/
def St.note (s : St) (e : Ev) : St := { s with log := s.log ++ [e] }

/-- What external code does; the number is the length of the log at the call. No counterpart in /repo: external code as a parameter. -/
abbrev Beh := Call → Nat → St → R (St × Reply)

/-- A call of external code. No counterpart in /repo. -/
def doCall (h : Beh) (c : Call) (s : St) : R (St × Reply) := do
  let r ← h c s.log.length (s.note (.call c))
  .ok (r.1.note (.ret c r.2), r.2)

/-- `pl->…`. No counterpart in /repo: a C++ operator on core/metamod_plugins.h:82-97. -/
def St.get (s : St) (oid : Nat) : R Plug :=
  match s.plugs.find? (fun p => p.oid == oid) with
  | none => .error .dangling
  | some p => .ok p

/-- Ghost: who was asked, and the answer. No counterpart in /repo. -/
abbrev Trace := List (Call × Reply)

/-- `META_IFACE_FAILED` (core/ISmmPlugin.h:56), in the variable before the call. -/
def subret (r : Reply) : Int := r.2.getD 1

/-- The inner loop of `IFACE_MACRO` and of `MetaFactory` (core/metamod.cpp:111-118, 867-887).
The answer is the pointer, `mret` and `pl`. -/
def askLoop (h : Beh) (c : Nat → Call) (oid : Nat) : Nat → Option Nat → St → Trace → R (St × Trace × Option (Nat × Int × Nat))
  | _, none, s, t => .ok (s, t, none)
  | 0, some _, _, _ => .error .fuel
  | f + 1, some nd, s, t => do
    let p ← s.get oid
    let l ← Mgr.valueAt nd p.events
    let r ← doCall h (c l) s
    let t := t ++ [(c l, r.2)]
    if r.2.1 ≠ 0 then .ok (r.1, t, some (r.2.1, subret r.2, oid))
    else do
      let p ← r.1.get oid
      let nx ← Mgr.nextAfter nd (p.events.map Prod.fst)
      askLoop h c oid f nx r.1 t

/-- The outer loop (core/metamod.cpp:109-119, 861-888). -/
def askAll (h : Beh) (fuel : Nat) (c : Nat → Call) : Nat → Option Nat → St → Trace → R (St × Trace × Option (Nat × Int × Nat))
  | _, none, s, t => .ok (s, t, none)
  | 0, some _, _, _ => .error .fuel
  | f + 1, some oid, s, t => do
    let p ← s.get oid
    let r ← askLoop h c oid fuel (p.events.head?.map Prod.fst) s t
    match r.2.2 with
    | some a => .ok (r.1, r.2.1, some a)
    | none => do
      let nx ← Mgr.nextAfter oid (r.1.plugs.map Plug.oid)
      askAll h fuel c f nx r.1 r.2.1

/-- `IFACE_MACRO` (core/metamod.cpp:103-120). -/
def query (h : Beh) (fuel : Nat) (k : Kind) (name : List Byte) (ret : Bool) (s : St) : R (St × Trace × Reply) := do
  let r ← askAll h fuel (fun l => .ask k l name) fuel (s.plugs.head?.map Plug.oid) s []
  match r.2.2 with
  | some a => .ok (r.1, r.2.1, a.1, if ret then some a.2.1 else none)
  | none => do
    let f ← doCall h (.factory k name ret) r.1
    .ok (f.1, r.2.1 ++ [(.factory k name ret, f.2)], f.2)

/-- What `MetaFactory` answers itself (core/metamod.cpp:833-858; the names
core/ISmmAPI.h:60-62): 1 is SourceHook, 2 the plugin manager, 3 the hook manager generator,
which is there on 32-bit systems only. -/
def own (x86 : Bool) (name : List Byte) : Nat :=
  if name = "ISourceHook".toUTF8.toList then 1
  else if name = "IPluginManager".toUTF8.toList then 2
  else if x86 && name = "IHookManagerAutoGen".toUTF8.toList then 3
  else 0

/-- The answer of `MetaFactory`: pointer, `*ret` and `*id` as far as written. The results of core/metamod.cpp:821-896. -/
structure MetaReply where
  ptr : Nat
  own : Bool
  ret : Option Int
  id : Option Nat
  deriving Repr, DecidableEq

/-- `if (id) *id = pl->m_Id` (core/metamod.cpp:881-884). -/
def metaId (idp : Bool) (oid : Nat) (s : St) : R (Option Nat) :=
  if idp then do
    let p ← s.get oid
    .ok (some p.id)
  else .ok none

/-- `MetamodSource::MetaFactory` (core/metamod.cpp:821-896); `none` is a NULL name, `ret` and
`idp` tell whether these pointers are given. -/
def metaFactory (h : Beh) (fuel : Nat) (x86 : Bool) (name : Option (List Byte)) (ret idp : Bool) (s : St) : R (St × Trace × MetaReply) :=
  match name with
  | none => .ok (s, [], ⟨0, false, none, if idp then some 0 else none⟩)
  | some name =>
    if own x86 name ≠ 0 then .ok (s, [], ⟨own x86 name, true, if ret then some 0 else none, if idp then some 0 else none⟩)
    else do
      let r ← askAll h fuel (fun l => .askMeta l name) fuel (s.plugs.head?.map Plug.oid) s []
      match r.2.2 with
      | some a => do
        let id ← metaId idp a.2.2 r.1
        .ok (r.1, r.2.1, ⟨a.1, false, if ret then some a.2.1 else none, id⟩)
      | none => .ok (r.1, r.2.1, ⟨0, false, if ret then some 1 else none, if idp then some 0 else none⟩)

/-- The inner loop of `ITER_EVENT` (core/metamod.cpp:128-131). -/
def evLoop (h : Beh) (c : Nat → Call) (oid : Nat) : Nat → Option Nat → St → Trace → R (St × Trace)
  | _, none, s, t => .ok (s, t)
  | 0, some _, _, _ => .error .fuel
  | f + 1, some nd, s, t => do
    let p ← s.get oid
    let l ← Mgr.valueAt nd p.events
    let r ← doCall h (c l) s
    let p ← r.1.get oid
    let nx ← Mgr.nextAfter nd (p.events.map Prod.fst)
    evLoop h c oid f nx r.1 (t ++ [(c l, r.2)])

/-- The outer loop of `ITER_EVENT` (core/metamod.cpp:126-132). -/
def evAll (h : Beh) (fuel : Nat) (c : Nat → Call) : Nat → Option Nat → St → Trace → R (St × Trace)
  | _, none, s, t => .ok (s, t)
  | 0, some _, _, _ => .error .fuel
  | f + 1, some oid, s, t => do
    let p ← s.get oid
    let r ← evLoop h c oid fuel (p.events.head?.map Prod.fst) s t
    let nx ← Mgr.nextAfter oid (r.1.plugs.map Plug.oid)
    evAll h fuel c f nx r.1 r.2

/-- `ITER_EVENT` (core/metamod.cpp:122-132). -/
def iterEvent (h : Beh) (fuel : Nat) (c : Nat → Call) (s : St) : R (St × Trace) :=
  evAll h fuel c fuel (s.plugs.head?.map Plug.oid) s []

/-- `InitializeVSP` (core/metamod.cpp:348-386). -/
def initializeVsp (h : Beh) (s : St) : R St :=
  if s.bridged then .ok s
  else do
    let r ← doCall h .command s
    .ok r.1

/-- `if (b) InitializeVSP()` (core/metamod.cpp:143-144, 803-806). -/
def initializeIf (h : Beh) (b : Bool) (s : St) : R St := if b then initializeVsp h s else .ok s

/-- `MetamodSource::EnableVSPListener` (core/metamod.cpp:801-809). -/
def enable (h : Beh) (s : St) : R St := do
  let s ← initializeIf h (s.isInit && !s.requested) s
  .ok { s with requested := true }

/-- The deferred first load (core/metamod.cpp:146-151, 170-176). -/
def firstLoad (h : Beh) (s : St) : R St := do
  let r ← doCall h .initialLoad s
  .ok { r.1 with loaded := true }

/-- `if (b) …` (core/metamod.cpp:146-151). -/
def firstLoadIf (h : Beh) (b : Bool) (s : St) : R St := if b then firstLoad h s else .ok s

/-- `ProviderCallbacks::OnGameInit` (core/metamod.cpp:136-154). -/
def gameInit (h : Beh) (s : St) : R St :=
  if s.isInit then .ok s
  else do
    let s ← initializeIf h s.requested s
    let s ← firstLoadIf h (s.bridged && !s.loaded) s
    .ok { s with isInit := true }

/-- `ProviderCallbacks::OnLevelInit` (core/metamod.cpp:156-162). -/
def levelInit (h : Beh) (fuel : Nat) (s : St) : R (St × Trace) := iterEvent h fuel .levelInit s

/-- The middle of `OnLevelShutdown` (core/metamod.cpp:178-195). -/
def levelReload (h : Beh) (s : St) : R St :=
  if s.firstLevel then .ok { s with firstLevel := false }
  else do
    let r ← doCall h .reload s
    .ok r.1

/-- The beginning of `OnLevelShutdown` (core/metamod.cpp:168-176). -/
def levelFirst (h : Beh) (s : St) : R St :=
  if s.bridged && !s.loaded then do
    let s ← firstLoad h s
    .ok { s with firstLevel := true }
  else .ok s

/-- `ProviderCallbacks::OnLevelShutdown` (core/metamod.cpp:164-198). -/
def levelShutdown (h : Beh) (fuel : Nat) (s : St) : R (St × Trace) := do
  let s ← levelFirst h s
  let s ← levelReload h s
  iterEvent h fuel .levelShutdown s

/-- `MetamodSource::NotifyVSPListening` (core/metamod.cpp:1072-1089). -/
def notify (h : Beh) (fuel : Nat) (cbs : Nat) (v : Int) (s : St) : R (St × Trace) := do
  let s := { s with version := if v ≠ -1 then v else s.version, cbs := cbs }
  let r ← iterEvent h fuel (fun l => .listening l cbs) s
  .ok (if r.1.gamedll then { r.1 with bridged := true, loaded := true } else r.1, r.2)

/-- `MetamodSource::GetVSPInfo` (core/metamod.cpp:1091-1099). -/
def vspInfo (s : St) : Nat × Int := (s.cbs, s.version)

/-- `mm_StartupMetamod` (core/metamod.cpp:488-540), called once. -/
def startup (h : Beh) (vsp : Bool) (s : St) : R St :=
  if vsp then .ok { s with bridged := true }
  else do
    let r ← doCall h .initialLoad { s with bridged := false }
    .ok { r.1 with firstLevel := true }

/-- The two ways to start: `GameDllBridge::DLLInit_Pre` (core/gamedll_bridge.cpp:39-63) and `VspBridge::Load` in VSP
mode (core/vsp_bridge.cpp:70-125). -/
inductive Start
  | gamedll
  | vsp (cbs : Nat) (version : Int)
  deriving Repr, DecidableEq

/-- See `Start`; `SetGameDLLInfo` (core/metamod.cpp:1127-1133), `mm_InitializeForLoad` (core/metamod.cpp:211-225). -/
def start (h : Beh) (fuel : Nat) : Start → St → R St
  | .gamedll, s => startup h false { s with gamedll := true, firstLevel := true }
  | .vsp cbs v, s => do
    let r ← notify h fuel cbs v { s with gamedll := false, firstLevel := true }
    startup h true r.1

/-- What external code can do.  `startWith` is meant for the beginning of a program. No counterpart in /repo. -/
inductive Op
  /-- `m_Plugins.push_back` in `_Load` (core/metamod_plugins.cpp:432). -/
  | addPlugin (id : Nat)
  /-- `m_Plugins.erase` and `delete` in `_Unload` (core/metamod_plugins.cpp:628-655). -/
  | dropPlugin (oid : Nat)
  /-- `pl->m_Events.clear()` (core/metamod_plugins.cpp:620). -/
  | clearEvents (oid : Nat)
  /-- `MetamodSource::AddListener` (core/metamod.cpp:898-903). -/
  | addListener (oid l : Nat)
  | query (k : Kind) (name : List Byte) (ret : Bool)
  | metaFactory (x86 : Bool) (name : Option (List Byte)) (ret idp : Bool)
  | enable
  | gameInit
  | levelInit
  | levelShutdown
  /-- `NotifyVSPListening` from `VspBridge::Load` in game DLL mode (core/vsp_bridge.cpp:127-133). -/
  | notify (cbs : Nat) (version : Int)
  | start (how : Start)

/-- Changes the plugin `oid`. No counterpart in /repo. -/
def modify (oid : Nat) (f : Plug → Plug) (l : List Plug) : List Plug := l.map fun p => if p.oid = oid then f p else p

/-- One operation. No counterpart in /repo: the operations above under one name. -/
def run (fuel : Nat) (h : Beh) : Op → St → R (St × Reply)
  | .addPlugin id, s => .ok ({ s with plugs := s.plugs ++ [⟨s.next, id, []⟩], next := s.next + 1 }, s.next, none)
  | .dropPlugin oid, s => .ok ({ s with plugs := s.plugs.filter (fun p => p.oid != oid) }, 0, none)
  | .clearEvents oid, s => .ok ({ s with plugs := modify oid (fun p => { p with events := [] }) s.plugs }, 0, none)
  | .addListener oid l, s =>
    if oid ∈ s.plugs.map Plug.oid then
      .ok ({ s with plugs := modify oid (fun p => { p with events := p.events ++ [(s.next, l)] }) s.plugs, next := s.next + 1 }, 0, none)
    else .error .nullDeref
  | .query k name ret, s => do
    let r ← query h fuel k name ret s
    .ok (r.1, r.2.2)
  | .metaFactory x n r i, s => do
    let r ← metaFactory h fuel x n r i s
    .ok (r.1, r.2.2.ptr, r.2.2.ret)
  | .enable, s => do
    let s ← enable h s
    .ok (s, 0, none)
  | .gameInit, s => do
    let s ← gameInit h s
    .ok (s, 0, none)
  | .levelInit, s => do
    let r ← levelInit h fuel s
    .ok (r.1, 0, none)
  | .levelShutdown, s => do
    let r ← levelShutdown h fuel s
    .ok (r.1, 0, none)
  | .notify c v, s => do
    let r ← notify h fuel c v s
    .ok (r.1, 0, none)
  | .start k, s => do
    let s ← start h fuel k s
    .ok (s, 0, none)

/-- Programs of external code: operations one after the other, each with the behaviour of the
external code called from it, then an answer. No counterpart in /repo. -/
inductive Scr
  | ret (r : Reply)
  | op (o : Op) (cb : Call → Nat → Scr) (next : Reply → Scr)

/-- Execution of a program. No counterpart in /repo. -/
def exec (fuel : Nat) : Scr → St → R (St × Reply)
  | .ret r, s => .ok (s, r)
  | .op o cb nx, s => do
    let r ← run fuel (fun c n s => exec fuel (cb c n) s) o s
    exec fuel (nx r.2) r.1

end Verif.Core
