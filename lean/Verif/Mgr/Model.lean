import Verif.Util.PathCmpProps
/-
Plugin manager: core/metamod_plugins.cpp and the registration functions of
core/metamod.cpp that work on the plugin list.

Plugins, listeners and the engine are called from inside the manager and may
call the manager again.  A callback is a function of the state; `Scr` below
gives every finite behaviour of callbacks as a tree, so all nesting is covered.
Memory is explicit: plugin objects and list nodes have identities, an access
to one that is gone, or to a field never written, is a fault.

Simplified: error texts are not modelled; `PluginId` is a natural number that
does not overflow; `new` does not fail; `fnLoad`, `CreateInterface`,
`GetApiVersion`, `UnloadInterface_MMS`, `dlopen` and `dlclose` do not call
the manager; SourceHook is seen through the owner and paused flag of each hook
(properties C07, C13 and C14 are about the real thing).
-/
namespace Verif.Mgr

/-- No counterpart in /repo: one byte. -/
abbrev Byte := UInt8

/-- Undefined behaviour, or a loop that runs longer than the fuel given. No counterpart in /repo. -/
inductive Fault
  | dangling | uninit | nullDeref | unmapped | fuel
  deriving Repr, DecidableEq

/-- No counterpart in /repo: a result, or undefined behaviour. -/
abbrev R := Except Fault

/-- `Pl_Status` (core/IPluginManager.h:53-62); `uninit` is the value of
`m_Status` before the first write, the constructor (core/metamod_plugins.cpp:149-152)
does not write it. -/
inductive Status
  | uninit | notFound | error | refused | paused | running
  deriving Repr, DecidableEq

/-- `CPluginManager::CPlugin` (core/metamod_plugins.h:82-97).  List entries of
`m_Cvars`, `m_Cmds` and `m_Events` are pairs of node and value.  `ver` is what
`m_API->GetApiVersion()` answers.  `given` is a ghost: the id the plugin was
told in `m_API->Load` (its `g_PLID`). -/
structure Plug where
  id : Nat
  file : List Byte
  status : Status
  source : Int
  api : Option Nat
  lib : Option Nat
  unloadFn : Bool
  ver : Int
  cvars : List (Nat × Nat)
  cmds : List (Nat × Nat)
  events : List (Nat × Nat)
  given : Nat
  deriving Repr, DecidableEq

/-- A hook as the manager sees it; `late` is a ghost: added while its owner was
paused. `CHook`, core/sourcehook/sourcehook_impl_chook.h:20-27. -/
structure Hook where
  hid : Nat
  owner : Nat
  paused : Bool
  late : Bool
  deriving Repr, DecidableEq

/-- The events of `IMetamodListener` that `ITER_PLEVENT` sends
(core/ISmmPlugin.h:220-250). -/
inductive EvKind
  | load | unload | pause | unpause
  deriving Repr, DecidableEq

/-- Calls into plugins and listeners. Called by core/metamod_plugins.cpp:42-720. -/
inductive Call
  | load (oid id : Nat) (late : Bool)
  | allLoaded (oid : Nat)
  | unload (oid : Nat)
  | pause (oid : Nat)
  | unpause (oid : Nat)
  | event (e : EvKind) (l id : Nat)
  | unlinkVar (l id v : Nat)
  | unlinkCmd (l id v : Nat)
  deriving Repr, DecidableEq

/-- What happened, oldest first (ghost).  `regVar`, `regCmd`, `unregVar`,
`unregCmd` are the calls of the provider; they carry the plugin object whose
list was changed, if any. No counterpart in /repo. -/
inductive Ev
  | call (c : Call)
  | ret (c : Call) (b : Bool)
  | status (oid : Nat) (old new : Status)
  | regVar (oid : Option Nat) (v : Nat)
  | regCmd (oid : Option Nat) (v : Nat)
  | unregVar (oid : Option Nat) (v : Nat)
  | unregCmd (oid : Option Nat) (v : Nat)
  | shUnload (id : Nat)
  | ready (oid : Nat)
  | freed (oid : Nat)
  deriving Repr, DecidableEq

/-- `CPluginManager` (core/metamod_plugins.h:157-161), the heap of plugin
objects, the hooks and pending unloads of SourceHook (`busy` hook loops are
running).  `next` is the next unused object or node identity. -/
structure St where
  lastId : Nat
  plugins : List Nat
  aliases : List (List Byte × List Byte)
  allLoaded : Bool
  objs : Nat → Option Plug
  next : Nat
  hooks : List Hook
  busy : Nat
  pending : List (Nat × Nat × Bool)
  log : List Ev

/-- `CPluginManager::CPluginManager` (core/metamod_plugins.cpp:70-74), `Pl_MinId`
is 1. -/
def init : St where
  lastId := 1
  plugins := []
  aliases := []
  allLoaded := false
  objs := fun _ => none
  next := 0
  hooks := []
  busy := 0
  pending := []
  log := []

/-- Function update. No counterpart in /repo. -/
def upd {α : Type} (f : Nat → α) (k : Nat) (v : α) : Nat → α := fun i => if i = k then v else f i

/-- `pl->…` for a pointer to a plugin object. No counterpart in /repo: a C++ operator on core/metamod_plugins.h:82-97. -/
def St.get (s : St) (oid : Nat) : R Plug :=
  match s.objs oid with
  | none => .error .dangling
  | some p => .ok p

/-- Writes fields of a plugin object that is known to exist. No counterpart in /repo. -/
def St.put (s : St) (oid : Nat) (p : Plug) : St := { s with objs := upd s.objs oid (some p) }

/-- Ghost. No counterpart in /repo. -/
def St.note (s : St) (e : Ev) : St := { s with log := s.log ++ [e] }

/-- `iter++` on a linked list, then the comparison with `end()`: `none` at the end
(core/sourcehook/sh_list.h). Operators at core/sourcehook/sh_list.h:191-205, 225-232. -/
def nextAfter (n : Nat) : List Nat → R (Option Nat)
  | [] => .error .dangling
  | x :: xs => if x = n then .ok xs.head? else nextAfter n xs

/-- `*iter` on a list with values. Operator at core/sourcehook/sh_list.h:207-214. -/
def valueAt (n : Nat) : List (Nat × Nat) → R Nat
  | [] => .error .dangling
  | x :: xs => if x.1 = n then .ok x.2 else valueAt n xs

/-- What callbacks do: their effect and answer.  The number is the length of the log
at the call, so that one callback can behave differently every time. No counterpart in /repo: external code as a parameter. -/
abbrev Beh := Call → Nat → St → R (St × Bool)

/-- Call of a plugin or listener. No counterpart in /repo. -/
def doCall (h : Beh) (c : Call) (s : St) : R (St × Bool) := do
  let r ← h c s.log.length (s.note (.call c))
  .ok (r.1.note (.ret c r.2), r.2)

/-- `for (event = pl->m_Events.begin(); event != pl->m_Events.end(); event++)`
(core/metamod_plugins.cpp:50-53, core/metamod.cpp:983-1001). -/
def evLoop (h : Beh) (c : Nat → Call) (oid : Nat) : Nat → Option Nat → St → R St
  | _, none, s => .ok s
  | 0, some _, _ => .error .fuel
  | f + 1, some nd, s => do
    let p ← s.get oid
    let l ← valueAt nd p.events
    let r ← doCall h (c l) s
    let p ← r.1.get oid
    let nx ← nextAfter nd (p.events.map Prod.fst)
    evLoop h c oid f nx r.1

/-- `for (iter = begin(); iter != end(); iter++)` over the plugin list with a body
(core/metamod_plugins.cpp:46-54). -/
def plLoop (body : Nat → St → R St) : Nat → Option Nat → St → R St
  | _, none, s => .ok s
  | 0, some _, _ => .error .fuel
  | f + 1, some oid, s => do
    let s ← body oid s
    let nx ← nextAfter oid s.plugins
    plLoop body f nx s

/-- The body of `ITER_PLEVENT` (core/metamod_plugins.cpp:46-53); the macro argument
`plid` is evaluated each time. -/
def plEventBody (h : Beh) (fuel : Nat) (e : EvKind) (plid : St → R Nat) (oid : Nat) (s : St) : R St := do
  let p ← s.get oid
  let x ← plid s
  if p.id = x then .ok s
  else evLoop h (fun l => .event e l x) oid fuel (p.events.head?.map Prod.fst) s

/-- `ITER_PLEVENT` (core/metamod_plugins.cpp:42-54). -/
def plEvent (h : Beh) (fuel : Nat) (e : EvKind) (plid : St → R Nat) (s : St) : R St :=
  plLoop (plEventBody h fuel e plid) fuel s.plugins.head? s

/-- `pl->m_Status < Pl_Paused`. As at core/metamod_plugins.cpp:163, 601. -/
def belowPaused : Status → R Bool
  | .uninit => .error .uninit
  | .notFound => .ok true
  | .error => .ok true
  | .refused => .ok true
  | .paused => .ok false
  | .running => .ok false

/-- `pl->m_Status == st` for an initialised status. As at core/metamod_plugins.cpp:219, 667, 695. -/
def statusIs (st x : Status) : R Bool :=
  match x with
  | .uninit => .error .uninit
  | _ => .ok (x == st)

/-- The body of the loop in `UnregisterConVar(PluginId, ProviderConVar*)`
(core/metamod.cpp:1014-1047) and of the same loop in `UnregisterConCommand`
(core/metamod.cpp:970-1003); the two event functions for old and new plugins are one
event here. -/
def unlinkBody (h : Beh) (fuel : Nat) (c : Nat → Call) (oid : Nat) (s : St) : R St := do
  let p ← s.get oid
  let b ← belowPaused p.status
  if b then .ok s
  else match p.api with
    | none => .error .nullDeref
    | some _ =>
      if p.ver < 12 then .ok s
      else evLoop h c oid fuel (p.events.head?.map Prod.fst) s

/-- `MetamodSource::UnregisterConVar(PluginId, ProviderConVar*)` (core/metamod.cpp:1008-1050). -/
def unregVarId (h : Beh) (fuel : Nat) (who : Option Nat) (id v : Nat) (s : St) : R St := do
  let s ← plLoop (unlinkBody h fuel (fun l => .unlinkVar l id v)) fuel s.plugins.head? s
  .ok (s.note (.unregVar who v))

/-- `MetamodSource::UnregisterConCommand(PluginId, ProviderConCommand*)`
(core/metamod.cpp:964-1006). -/
def unregCmdId (h : Beh) (fuel : Nat) (who : Option Nat) (id v : Nat) (s : St) : R St := do
  let s ← plLoop (unlinkBody h fuel (fun l => .unlinkCmd l id v)) fuel s.plugins.head? s
  .ok (s.note (.unregCmd who v))

/-- First loop of `UnregAllConCmds` (core/metamod_plugins.cpp:855-858). -/
def varLoop (h : Beh) (fuel : Nat) (oid : Nat) : Nat → Option Nat → St → R St
  | _, none, s => .ok s
  | 0, some _, _ => .error .fuel
  | f + 1, some nd, s => do
    let p ← s.get oid
    let v ← valueAt nd p.cvars
    let s ← unregVarId h fuel (some oid) p.id v s
    let p ← s.get oid
    let nx ← nextAfter nd (p.cvars.map Prod.fst)
    varLoop h fuel oid f nx s

/-- Second loop of `UnregAllConCmds` (core/metamod_plugins.cpp:861-864). -/
def cmdLoop (h : Beh) (fuel : Nat) (oid : Nat) : Nat → Option Nat → St → R St
  | _, none, s => .ok s
  | 0, some _, _ => .error .fuel
  | f + 1, some nd, s => do
    let p ← s.get oid
    let v ← valueAt nd p.cmds
    let s ← unregCmdId h fuel (some oid) p.id v s
    let p ← s.get oid
    let nx ← nextAfter nd (p.cmds.map Prod.fst)
    cmdLoop h fuel oid f nx s

/-- `CPluginManager::UnregAllConCmds` (core/metamod_plugins.cpp:852-866). -/
def unregAll (h : Beh) (fuel : Nat) (oid : Nat) (s : St) : R St := do
  let p ← s.get oid
  let s ← varLoop h fuel oid fuel (p.cvars.head?.map Prod.fst) s
  let p ← s.get oid
  let s := s.put oid { p with cvars := [] }
  let s ← cmdLoop h fuel oid fuel (p.cmds.head?.map Prod.fst) s
  let p ← s.get oid
  .ok (s.put oid { p with cmds := [] })

/-- `Unloader::ReadyToUnload` (core/metamod_plugins.cpp:399-418).  `m_UnloadFn` points
into the library, which is gone once `m_Lib` was closed. -/
def ready (oid : Nat) (destroy : Bool) (s : St) : R St := do
  let p ← s.get oid
  if p.unloadFn = true ∧ p.lib = none then .error .unmapped
  else if destroy then
    .ok ({ s with objs := upd s.objs oid none, log := s.log ++ [.ready oid, .freed oid] })
  else .ok ((s.put oid { p with lib := none, api := none }).note (.ready oid))

/-- `CSourceHookImpl::UnloadPlugin` (core/sourcehook/sourcehook.cpp:365-397) with an
`Unloader`: the hooks of the id go, the rest waits while hook loops run. -/
def shUnload (id oid : Nat) (destroy : Bool) (s : St) : R St :=
  let s := { s with hooks := s.hooks.filter (fun k => k.owner != id), log := s.log ++ [.shUnload id] }
  if s.busy = 0 then ready oid destroy s
  else .ok { s with pending := s.pending ++ [(id, oid, destroy)] }

/-- The loops that look for `m_Id == pl->m_Id` and erase that entry
(core/metamod_plugins.cpp:628-636 and 645-652). -/
def eraseIdFrom (s : St) (id : Nat) : List Nat → R (List Nat)
  | [] => .ok []
  | o :: os => do
    let p ← s.get o
    if p.id = id then .ok os
    else do
      let t ← eraseIdFrom s id os
      .ok (o :: t)

/-- `CPluginManager::_Unload` (core/metamod_plugins.cpp:611-658). -/
def unload_ (h : Beh) (fuel : Nat) (oid : Nat) (force : Bool) (s : St) : R (St × Bool) := do
  let p ← s.get oid
  if p.api.isSome && p.lib.isSome then do
    let r ← doCall h (.unload oid) s
    if r.2 || force then do
      let p ← r.1.get oid
      let s ← unregAll h fuel oid (r.1.put oid { p with events := [] })
      let p ← s.get oid
      let l ← eraseIdFrom s p.id s.plugins
      let s ← shUnload p.id oid true { s with plugins := l }
      .ok (s, true)
    else .ok (r.1, false)
  else do
    let l ← eraseIdFrom s p.id s.plugins
    .ok ({ s with plugins := l, objs := upd s.objs oid none, log := s.log ++ [.freed oid] }, true)

/-- What the system and the plugin binary answer while `_Load` opens the file: does the
name end in `BINARY_EXT`, can it be opened, the library handle, the result of
`CreateInterface_MMS` if the library has it (object and whether it has
`UnloadInterface_MMS`), the result of the classic entry point if the library has it, the
API version. Asked at core/metamod_plugins.cpp:435-600. -/
structure Outcome where
  binExt : Bool
  present : Bool
  lib : Option Nat
  mms : Option (Option Nat × Bool)
  classic : Option (Option Nat)
  ver : Int
  deriving Repr, DecidableEq

/-- `CreateInterface_MMS` (core/metamod_plugins.cpp:469-521); the repeated attempts
for older engine numbers are one attempt here. -/
def probeMms (p : Plug) (o : Outcome) : Plug :=
  match o.mms with
  | none => p
  | some (a, u) => { p with api := a, unloadFn := u }

/-- The classic entry point (core/metamod_plugins.cpp:526-550). -/
def probeClassic (p : Plug) (o : Outcome) : Plug :=
  match p.api with
  | some _ => p
  | none =>
    match o.classic with
    | none => { p with status := .error }
    | some none => { p with status := .error }
    | some (some a) => { p with api := some a }

/-- The version check (core/metamod_plugins.cpp:552-583), true if `Load` is to be called.
`PLAPI_MIN_VERSION` is 14, `METAMOD_PLAPI_VERSION` is 17. -/
def probeVersion (p : Plug) (o : Outcome) : Plug × Bool :=
  match p.api with
  | none => (p, false)
  | some _ =>
    if o.ver < 14 then ({ p with status := .error }, false)
    else if o.ver > 17 then ({ p with status := .error }, false)
    else (p, true)

/-- `_Load` up to the call of `m_API->Load` (core/metamod_plugins.cpp:435-583). -/
def probe (p : Plug) (o : Outcome) : Plug × Bool :=
  if o.binExt = false ∨ o.present = false then ({ p with status := .notFound }, false)
  else match o.lib with
    | none => ({ p with status := .error }, false)
    | some l => probeVersion (probeClassic (probeMms { p with lib := some l, api := none, ver := o.ver } o) o) o

/-- The new object (core/metamod_plugins.cpp:149-152 and 426-431). -/
def newPlug (id : Nat) (file : List Byte) : Plug :=
  { id := id, file := file, status := .uninit, source := 0, api := none, lib := none, unloadFn := false,
    ver := 0, cvars := [], cmds := [], events := [], given := id }

/-- Ghost: the status write of `probe`. No counterpart in /repo. -/
def probeLog (oid : Nat) (p : Plug) : List Ev := if p.status = .uninit then [] else [.status oid .uninit p.status]

/-- The list and the new object when `_Load` comes to the call of `m_API->Load`
(core/metamod_plugins.cpp:426-583). -/
def pushNew (file : List Byte) (o : Outcome) (s : St) : St :=
  { s with
    objs := upd s.objs s.next (some (probe (newPlug s.lastId file) o).1)
    plugins := s.plugins ++ [s.next]
    lastId := s.lastId + 1
    next := s.next + 1
    log := s.log ++ probeLog s.next (probe (newPlug s.lastId file) o).1 }

/-- Write of `m_Status`. As at core/metamod_plugins.cpp:679, 707. -/
def setStatus (oid : Nat) (st : Status) (s : St) : R St := do
  let p ← s.get oid
  .ok ((s.put oid { p with status := st }).note (.status oid p.status st))

/-- The call of `m_API->Load` and what follows in that branch
(core/metamod_plugins.cpp:584-596). -/
def runLoad (h : Beh) (oid id : Nat) (s : St) : R St := do
  let r ← doCall h (.load oid id s.allLoaded) s
  if r.2 then do
    let s ← setStatus oid .running r.1
    if s.allLoaded then do
      let p ← s.get oid
      match p.api with
      | none => .error .nullDeref
      | some _ => do
        let r ← doCall h (.allLoaded oid) s
        .ok r.1
    else .ok s
  else setStatus oid .refused r.1

/-- The end of `_Load` (core/metamod_plugins.cpp:601-608). -/
def loadCleanup (h : Beh) (fuel : Nat) (oid : Nat) (s : St) : R St := do
  let p ← s.get oid
  match p.lib with
  | none => .ok s
  | some _ => do
    let b ← belowPaused p.status
    if b then do
      let s ← unregAll h fuel oid (s.put oid { p with events := [] })
      let p ← s.get oid
      shUnload p.id oid false s
    else .ok s

/-- The new object and its `Load`, if it comes to that (core/metamod_plugins.cpp:426-599). -/
def loadRun (h : Beh) (file : List Byte) (o : Outcome) (s : St) : R St :=
  if (probe (newPlug s.lastId file) o).2 then runLoad h s.next s.lastId (pushNew file o s)
  else .ok (pushNew file o s)

/-- `CPluginManager::_Load` (core/metamod_plugins.cpp:421-609); answers the new object. -/
def load_ (h : Beh) (fuel : Nat) (file : List Byte) (o : Outcome) (s : St) : R (St × Nat) := do
  let s1 ← loadRun h file o s
  let s2 ← loadCleanup h fuel s.next s1
  .ok (s2, s.next)

/-- `UTIL_PathCmp` for two C strings; `Verif.Util.pathCmp_spec` (C35) is about the code. -/
def samePath (a b : List Byte) : Bool := decide (Util.collapse a = Util.collapse b)

/-- The scan of `Load` over the plugin list (core/metamod_plugins.cpp:158-178): the
plugins kept so far, then the answer: the list, `already`, the id if loaded. -/
def scan (s : St) (file : List Byte) : List Nat → List Nat → Bool → R (List Nat × Bool × Option Nat)
  | kept, [], al => .ok (kept, al, none)
  | kept, o :: os, al => do
    let p ← s.get o
    if samePath file p.file then do
      let b ← belowPaused p.status
      if b then scan s file kept os true
      else .ok (kept ++ o :: os, true, some p.id)
    else scan s file (kept ++ [o]) os al

/-- `CPluginManager::Load` (core/metamod_plugins.cpp:154-190): the id and `already`. -/
def load (h : Beh) (fuel : Nat) (file : List Byte) (o : Outcome) (s : St) : R (St × Nat × Bool) := do
  let x ← scan s file [] s.plugins false
  match x.2.2 with
  | some id => .ok ({ s with plugins := x.1 }, id, x.2.1)
  | none => do
    let r ← load_ h fuel file o { s with plugins := x.1 }
    let s ← plEvent h fuel .load (fun s => do let p ← s.get r.2; .ok p.id) r.1
    let p ← s.get r.2
    .ok (s, p.id, x.2.1)

/-- `CPluginManager::FindById` (core/metamod_plugins.cpp:192-205). -/
def findById (s : St) (id : Nat) : List Nat → R (Option Nat)
  | [] => .ok none
  | o :: os => do
    let p ← s.get o
    if p.id = id then .ok (some o) else findById s id os

/-- `CPluginManager::FindByAPI` (core/metamod_plugins.cpp:338-357) for an object that is not
NULL. -/
def findByApi (s : St) (api : Nat) : List Nat → R (Option Nat)
  | [] => .ok none
  | o :: os => do
    let p ← s.get o
    if p.api = some api then .ok (some o) else findByApi s api os

/-- The body of the loop of `SetAllLoaded` (core/metamod_plugins.cpp:217-226). -/
def allLoadedBody (h : Beh) (oid : Nat) (s : St) : R St := do
  let p ← s.get oid
  let b ← statusIs .running p.status
  if b && p.api.isSome then do
    let r ← doCall h (.allLoaded oid) s
    .ok r.1
  else .ok s

/-- `CPluginManager::SetAllLoaded` (core/metamod_plugins.cpp:207-227). -/
def setAllLoaded (h : Beh) (fuel : Nat) (s : St) : R St :=
  if s.allLoaded then .ok s
  else plLoop (allLoadedBody h) fuel s.plugins.head? { s with allLoaded := true }

/-- `g_SourceHook.PausePlugin` / `UnpausePlugin` (core/sourcehook/sourcehook.cpp:660-676). -/
def pauseHooks (id : Nat) (b : Bool) (hs : List Hook) : List Hook :=
  hs.map fun k => if k.owner = id then { k with paused := b, late := false } else k

/-- `CPluginManager::_Pause` (core/metamod_plugins.cpp:660-686). -/
def pause_ (h : Beh) (oid : Nat) (s : St) : R (St × Bool) := do
  let p ← s.get oid
  let b ← statusIs .running p.status
  if b && p.api.isSome then do
    let r ← doCall h (.pause oid) s
    if r.2 then do
      let p ← r.1.get oid
      let s ← setStatus oid .paused { r.1 with hooks := pauseHooks p.id true r.1.hooks }
      .ok (s, true)
    else .ok (r.1, false)
  else .ok (s, false)

/-- `CPluginManager::_Unpause` (core/metamod_plugins.cpp:688-714). -/
def unpause_ (h : Beh) (oid : Nat) (s : St) : R (St × Bool) := do
  let p ← s.get oid
  let b ← statusIs .paused p.status
  if b && p.api.isSome then do
    let r ← doCall h (.unpause oid) s
    if r.2 then do
      let p ← r.1.get oid
      let s ← setStatus oid .running { r.1 with hooks := pauseHooks p.id false r.1.hooks }
      .ok (s, true)
    else .ok (r.1, false)
  else .ok (s, false)

/-- `CPluginManager::Pause` (core/metamod_plugins.cpp:229-247). -/
def pause (h : Beh) (fuel : Nat) (id : Nat) (s : St) : R (St × Bool) := do
  let o ← findById s id s.plugins
  match o with
  | none => .ok (s, false)
  | some oid => do
    let r ← pause_ h oid s
    if r.2 then do
      let s ← plEvent h fuel .pause (fun s => do let p ← s.get oid; .ok p.id) r.1
      .ok (s, true)
    else .ok r

/-- `CPluginManager::Unpause` (core/metamod_plugins.cpp:249-267). -/
def unpause (h : Beh) (fuel : Nat) (id : Nat) (s : St) : R (St × Bool) := do
  let o ← findById s id s.plugins
  match o with
  | none => .ok (s, false)
  | some oid => do
    let r ← unpause_ h oid s
    if r.2 then do
      let s ← plEvent h fuel .unpause (fun s => do let p ← s.get oid; .ok p.id) r.1
      .ok (s, true)
    else .ok r

/-- `CPluginManager::Unload` (core/metamod_plugins.cpp:269-287). -/
def unload (h : Beh) (fuel : Nat) (id : Nat) (force : Bool) (s : St) : R (St × Bool) := do
  let o ← findById s id s.plugins
  match o with
  | none => .ok (s, false)
  | some oid => do
    let p ← s.get oid
    let r ← unload_ h fuel oid force s
    if r.2 then do
      let s ← plEvent h fuel .unload (fun _ => .ok p.id) r.1
      .ok (s, true)
    else .ok r

/-- `*i` for an iterator of the plugin list. No counterpart in /repo: a C++ operator. -/
def derefIter (s : St) (oid : Nat) : R Nat := if oid ∈ s.plugins then .ok oid else .error .dangling

/-- `CPluginManager::Retry` once the plugin is found (core/metamod_plugins.cpp:297-331). -/
def retryAt (h : Beh) (fuel : Nat) (oid id : Nat) (o : Outcome) (s : St) : R (St × Bool) := do
  let p ← s.get oid
  let b ← belowPaused p.status
  if b then do
    let r ← load_ h fuel p.file o s
    let q ← r.1.get r.2
    let b ← belowPaused q.status
    if b then do
      let u ← unload_ h fuel r.2 true r.1
      .ok ({ u.1 with lastId := u.1.lastId - 1 }, false)
    else do
      let old ← derefIter r.1 oid
      let u ← unload_ h fuel old true r.1
      let q ← u.1.get r.2
      let s := u.1.put r.2 { q with id := id }
      .ok ({ s with lastId := s.lastId - 1 }, true)
  else .ok (s, false)

/-- `CPluginManager::Retry` (core/metamod_plugins.cpp:289-336). -/
def retry (h : Beh) (fuel : Nat) (id : Nat) (o : Outcome) (s : St) : R (St × Bool) := do
  let x ← findById s id s.plugins
  match x with
  | none => .ok (s, false)
  | some oid => retryAt h fuel oid id o s

/-- `CPluginManager::UnloadAll` (core/metamod_plugins.cpp:716-732). -/
def unloadAll (h : Beh) (fuel : Nat) : Nat → Bool → St → R (St × Bool)
  | 0, _, _ => .error .fuel
  | f + 1, ok, s =>
    match s.plugins with
    | [] => .ok (s, ok)
    | oid :: _ => do
      let r ← unload_ h fuel oid true s
      unloadAll h fuel f (ok && r.2) r.1

/-- `CPluginManager::LookupAlias` (core/metamod_plugins.cpp:88-103). -/
def lookupAlias (a : List Byte) : List (List Byte × List Byte) → Option (List Byte)
  | [] => none
  | x :: xs => if x.1 = a then some x.2 else lookupAlias a xs

/-- The loop of `SetAlias` (core/metamod_plugins.cpp:120-136): `none` if no entry has the
name. -/
def setAliasLoop (a v : List Byte) : List (List Byte × List Byte) → Option (List (List Byte × List Byte))
  | [] => none
  | x :: xs =>
    if x.1 = a then (if v = [] then some xs else some ((x.1, v) :: xs))
    else (setAliasLoop a v xs).map (x :: ·)

/-- `CPluginManager::SetAlias` (core/metamod_plugins.cpp:115-147). -/
def setAlias (a v : List Byte) (l : List (List Byte × List Byte)) : List (List Byte × List Byte) :=
  match setAliasLoop a v l with
  | some l => l
  | none => if v = [] then l else l ++ [(a, v)]

/-- `MetamodSource::AddListener` (core/metamod.cpp:898-903). -/
def addListener (api l : Nat) (s : St) : R St := do
  let x ← findByApi s api s.plugins
  match x with
  | none => .error .nullDeref
  | some oid => do
    let p ← s.get oid
    .ok { s.put oid { p with events := p.events ++ [(s.next, l)] } with next := s.next + 1 }

/-- `MetamodSource::RegisterConVar` with `AddPluginCvar` (core/metamod.cpp:942-946,
core/metamod_plugins.cpp:804-814). -/
def regVar (api v : Nat) (s : St) : R St := do
  let x ← findByApi s api s.plugins
  match x with
  | none => .ok (s.note (.regVar none v))
  | some oid => do
    let p ← s.get oid
    .ok ({ s.put oid { p with cvars := p.cvars ++ [(s.next, v)] } with next := s.next + 1 }.note (.regVar (some oid) v))

/-- `MetamodSource::RegisterConCommand` with `AddPluginCmd` (core/metamod.cpp:936-940,
core/metamod_plugins.cpp:816-826). -/
def regCmd (api v : Nat) (s : St) : R St := do
  let x ← findByApi s api s.plugins
  match x with
  | none => .ok (s.note (.regCmd none v))
  | some oid => do
    let p ← s.get oid
    .ok ({ s.put oid { p with cmds := p.cmds ++ [(s.next, v)] } with next := s.next + 1 }.note (.regCmd (some oid) v))

/-- `List::remove` (core/sourcehook/sh_list.h:285-296) on a list of nodes. -/
def removeVal (v : Nat) (l : List (Nat × Nat)) : List (Nat × Nat) := l.eraseP (fun x => x.2 == v)

/-- Ghost: whose entry goes. No counterpart in /repo. -/
def holder (oid v : Nat) (l : List (Nat × Nat)) : Option Nat := if v ∈ l.map Prod.snd then some oid else none

/-- `MetamodSource::UnregisterConVar(ISmmPlugin*, …)` with `RemovePluginCvar`
(core/metamod.cpp:956-962, core/metamod_plugins.cpp:828-838). -/
def unregVar (h : Beh) (fuel : Nat) (api v : Nat) (s : St) : R St := do
  let x ← findByApi s api s.plugins
  match x with
  | none => unregVarId h fuel none 0 v s
  | some oid => do
    let p ← s.get oid
    unregVarId h fuel (holder oid v p.cvars) p.id v (s.put oid { p with cvars := removeVal v p.cvars })

/-- `MetamodSource::UnregisterConCommand(ISmmPlugin*, …)` with `RemovePluginCmd`
(core/metamod.cpp:948-954, core/metamod_plugins.cpp:840-850). -/
def unregCmd (h : Beh) (fuel : Nat) (api v : Nat) (s : St) : R St := do
  let x ← findByApi s api s.plugins
  match x with
  | none => unregCmdId h fuel none 0 v s
  | some oid => do
    let p ← s.get oid
    unregCmdId h fuel (holder oid v p.cmds) p.id v (s.put oid { p with cmds := removeVal v p.cmds })

/-- A plugin adds a hook: `SH_ADD_HOOK` passes `g_PLID`, the id from `Load`
(core/ISmmPlugin.h, `PLUGIN_SAVEVARS`; core/sourcehook/sourcehook.cpp:102-175). -/
def addHook (oid : Nat) (s : St) : R St := do
  let p ← s.get oid
  .ok { s with hooks := s.hooks ++ [⟨s.next, p.given, false, p.status == .paused⟩], next := s.next + 1 }

/-- A hook is removed (core/sourcehook/sourcehook.cpp:204-271). -/
def delHook (hid : Nat) (s : St) : St := { s with hooks := s.hooks.filter (fun k => k.hid != hid) }

/-- `ReadyToUnload` for the first `n` pending unloads
(core/sourcehook/sourcehook.cpp:606-628): those that waited one round are the oldest. -/
def drain : Nat → St → R St
  | 0, s => .ok s
  | n + 1, s =>
    match s.pending with
    | [] => .ok s
    | x :: xs => do
      let s ← ready x.2.1 x.2.2 { s with pending := xs }
      drain n s

/-- Everything that can be called. No counterpart in /repo: the operations above under one name. -/
inductive Op
  | load (file : List Byte) (o : Outcome)
  | unload (id : Nat) (force : Bool)
  | pause (id : Nat)
  | unpause (id : Nat)
  | retry (id : Nat) (o : Outcome)
  | setAllLoaded
  | unloadAll
  | setAlias (a v : List Byte)
  | addListener (api l : Nat)
  | regVar (api v : Nat)
  | regCmd (api v : Nat)
  | unregVar (api v : Nat)
  | unregCmd (api v : Nat)
  | addHook (oid : Nat)
  | delHook (hid : Nat)
  | enter
  | leave (n : Nat)

/-- One call with the callbacks `h`.  `enter` and `leave` are a hook loop that begins and
ends; the last one to end resolves `n` pending unloads
(core/sourcehook/sourcehook.cpp:630-641). -/
def run (fuel : Nat) (h : Beh) : Op → St → R St
  | .load file o, s => do let r ← load h fuel file o s; .ok r.1
  | .unload id force, s => do let r ← unload h fuel id force s; .ok r.1
  | .pause id, s => do let r ← pause h fuel id s; .ok r.1
  | .unpause id, s => do let r ← unpause h fuel id s; .ok r.1
  | .retry id o, s => do let r ← retry h fuel id o s; .ok r.1
  | .setAllLoaded, s => setAllLoaded h fuel s
  | .unloadAll, s => do let r ← unloadAll h fuel fuel true s; .ok r.1
  | .setAlias a v, s => .ok { s with aliases := setAlias a v s.aliases }
  | .addListener api l, s => addListener api l s
  | .regVar api v, s => regVar api v s
  | .regCmd api v, s => regCmd api v s
  | .unregVar api v, s => unregVar h fuel api v s
  | .unregCmd api v, s => unregCmd h fuel api v s
  | .addHook oid, s => addHook oid s
  | .delHook hid, s => .ok (delHook hid s)
  | .enter, s => .ok { s with busy := s.busy + 1 }
  | .leave n, s => if s.busy = 1 then drain n { s with busy := 0 } else .ok { s with busy := s.busy - 1 }

/-- What a program (a plugin callback, the engine) does: calls one after the other, each
with the behaviour of the callbacks made during it, then an answer. No counterpart in /repo. -/
inductive Scr
  | ret (b : Bool)
  | op (o : Op) (cb : Call → Nat → Scr) (next : Scr)

/-- Execution of a program. No counterpart in /repo. -/
def exec (fuel : Nat) : Scr → St → R (St × Bool)
  | .ret b, s => .ok (s, b)
  | .op o cb nx, s => do
    let s ← run fuel (fun c n s => exec fuel (cb c n) s) o s
    exec fuel nx s

end Verif.Mgr
