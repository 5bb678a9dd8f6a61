import Verif.Loader.Backend
/-
The loader: entry point, game library search, patches of the game's function tables and the server
plugin (loader/loader.cpp, loader/gamedll.cpp, loader/serverplugin.cpp).  Linux branches.

The engine, the game, the core and the dynamic linker are external: every call of them is a `Call`
whose effect and answer is arbitrary and may call the loader again (`Scr` below).

Simplified: `new`, log messages and error texts are left out; `assert` is compiled out (release
builds define NDEBUG, AMBuildScript:211); functions are numbers, 0 is NULL; an object keeps its
function table; a closed library keeps its data and every opening is a library of its own (the
dynamic linker counts openings of the same file); reading gameinfo (loader/gamedll.cpp:86-217) is one
external call that tells how many game paths there are; the engine found is an external answer too
(`detect` and `detectS2` are about it).  `ret` is never NULL.  What `mm_GameDllRequest` stores in
`*ret` is left out since `CreateInterface` overwrites it (loader/loader.cpp:200-201).
-/
namespace Verif.Loader
open Verif.C (isspace isdigit)

/-- No counterpart in /repo: one byte. -/
abbrev Byte := UInt8

/-- Undefined behaviour, or calls nested deeper than the fuel. No counterpart in /repo. -/
inductive Fault
  | nullCall | nullDeref | unmapped | closed | fuel
  deriving DecidableEq, Repr

/-- No counterpart in /repo: a result, or undefined behaviour. -/
abbrev R := Except Fault

/-- Calls of external code.  `code f` is a function of the game; `ask lib name` is the
`CreateInterface` of a game library. Called by loader/loader.cpp, loader/gamedll.cpp:763-898 and loader/serverplugin.cpp:61-230. -/
inductive Call
  | readInfo
  | openLib (i : Nat)
  | sym (lib : Nat)
  | ask (lib : Nat) (name : List Byte)
  | code (f : Nat)
  | engine
  | openCore (backend : Nat)
  | coreSym (vsp : Bool)
  | pre | post | unload
  | query (name : List Byte)
  | vspLoad (version : Nat)
  | vspUnload
  deriving DecidableEq, Repr

/-- What happened, oldest first (ghost).  Calls carry `game_info_detected` at that time. No counterpart in /repo. -/
inductive Ev
  | call (c : Call) (detected : Int)
  | ret (c : Call) (v : Nat)
  | handOut
  | loading
  deriving DecidableEq, Repr

/-- The variables of the loader: loader/loader.cpp:43-45, loader/gamedll.cpp:45-63, 250-255,
loader/serverplugin.cpp:65-77.  Bridges are named by the core library they live in, `qvi` by the game
library.  `libs` is `gamedll_libs`, `opened` are the libraries not closed, `next` is the next unused
library.  `mem` is the memory of the game's function tables, `vtab` the server plugin's own table. -/
structure St where
  vspBridge : Option Nat
  gdBridge : Option Nat
  core : Option Nat
  backend : Nat
  allowed : Bool
  version : Nat
  detected : Int
  isS2 : Bool
  npaths : Nat
  libs : Nat → Option Nat
  lib : Option Nat
  qvi : Option Nat
  iface : Option Nat
  config : Option Nat
  origInit : Option Nat
  origShutdown : Option Nat
  origConnect : Option Nat
  vtab : List Nat
  mem : Nat → Nat
  opened : List Nat
  next : Nat
  log : List Ev

/-- The start, with the game's memory as the compiler made it; entry `k` of the server plugin's
table is function `k`. No counterpart in /repo: static initialisation. -/
def init (mem : Nat → Nat) : St where
  vspBridge := none
  gdBridge := none
  core := none
  backend := 28
  allowed := false
  version := 0
  detected := 0
  isS2 := false
  npaths := 0
  libs := fun _ => none
  lib := none
  qvi := none
  iface := none
  config := none
  origInit := none
  origShutdown := none
  origConnect := none
  vtab := List.range 19
  mem := mem
  opened := []
  next := 0
  log := []

/-- Fixed facts: where the function table of an interface lies, command line switches, the loader's
own functions and their slots (`DLLInit` is the first virtual function of `IServerGameDLL`, `Init` the
fourth of `ISource2Server`, `Connect` the first of `ISource2ServerConfig`). -/
structure World where
  vt : Nat → Nat
  dedicated : Bool
  insecure : Bool
  tInit1 : Nat
  tInit2 : Nat
  tConnect : Nat
  tShutdown : Nat

/-- The slot of `DLLInit` or `Init`, loader/gamedll.cpp:615-622. -/
def initSlot (s2 : Bool) : Nat := if s2 then 3 else 0

/-- The loader's replacement, loader/gamedll.cpp:628-635. -/
def World.tInit (w : World) (s2 : Bool) : Nat := if s2 then w.tInit2 else w.tInit1

/-- Ghost. No counterpart in /repo. -/
def St.note (s : St) (e : Ev) : St := { s with log := s.log ++ [e] }

/-- Function update. No counterpart in /repo. -/
def upd {α : Type} (f : Nat → α) (k : Nat) (v : α) : Nat → α := fun i => if i = k then v else f i

/-- What external calls do: effect, answer (0 is NULL or false) and the value stored through `ret`.
The number is the length of the log at the call. -/
abbrev Beh := Call → Nat → St → R (St × Nat × Int)

/-- An external call. No counterpart in /repo. -/
def ext (h : Beh) (c : Call) (s : St) : R (St × Nat × Int) := do
  let r ← h c s.log.length (s.note (.call c s.detected))
  .ok (r.1.note (.ret c r.2.1), r.2.1, r.2.2)

/-- A call of a function that lives in library `l`. No counterpart in /repo. -/
def extIn (h : Beh) (l : Nat) (c : Call) (s : St) : R (St × Nat × Int) :=
  if l ∈ s.opened then ext h c s else .error .unmapped

/-- `mm_UnloadLibrary` (loader/utility.cpp:306-313) of a library handle. -/
def closeLib (l : Option Nat) (s : St) : R St :=
  match l with
  | none => .error .closed
  | some l => if l ∈ s.opened then .ok { s with opened := s.opened.filter (· ≠ l) } else .error .closed

/-- `mm_UnloadMetamodLibrary`, loader/loader.cpp:159-164. -/
def unloadCore (s : St) : R St := do
  let s ← closeLib s.core s
  .ok { s with core := none }

/-- `mm_LoadMetamodLibrary`, loader/loader.cpp:121-157 (the path is `libraryPath`). -/
def loadCore (h : Beh) (s : St) : R (St × Bool) := do
  let r ← ext h (.openCore s.backend) s
  if r.2.1 = 0 then .ok ({ r.1 with core := none }, false)
  else .ok ({ r.1 with core := some r.1.next, opened := r.1.next :: r.1.opened, next := r.1.next + 1 }, true)

/-- `mm_GetProcAddress`, loader/loader.cpp:206-210: `dlsym` in the core. -/
def coreSym (h : Beh) (vsp : Bool) (s : St) : R (St × Bool) :=
  match s.core with
  | none => .error .closed
  | some c => do
    let r ← extIn h c (.coreSym vsp) s
    .ok (r.1, decide (r.2.1 ≠ 0))

/-- `mm_PatchDllInit`, loader/gamedll.cpp:608-654. -/
def patchInit (w : World) (patch : Bool) (s : St) : R St :=
  match s.iface with
  | none => .error .nullDeref
  | some p =>
    if patch then
      .ok { s with origInit := some (s.mem (w.vt p + initSlot s.isS2)),
                   mem := upd s.mem (w.vt p + initSlot s.isS2) (w.tInit s.isS2) }
    else .ok { s with mem := upd s.mem (w.vt p + initSlot s.isS2) (s.origInit.getD 0), origInit := none }

/-- `mm_PatchDllShutdown`, loader/gamedll.cpp:656-689; `k` is `isgd_shutdown_index`. -/
def patchShutdown (w : World) (k : Nat) (s : St) : R St :=
  match if s.isS2 then s.config else s.iface with
  | none => .error .nullDeref
  | some p => .ok { s with origShutdown := some (s.mem (w.vt p + k)), mem := upd s.mem (w.vt p + k) w.tShutdown }

/-- `mm_PatchConnect`, loader/gamedll.cpp:727-759. -/
def patchConnect (w : World) (patch : Bool) (s : St) : R St :=
  match s.config with
  | none => .error .nullDeref
  | some p =>
    if patch then .ok { s with origConnect := some (s.mem (w.vt p)), mem := upd s.mem (w.vt p) w.tConnect }
    else .ok { s with mem := upd s.mem (w.vt p) (s.origConnect.getD 0), origConnect := none }

/-- Calls a function, the game's or one of the loader's. No counterpart in /repo. -/
abbrev Caller := Nat → St → R (St × Nat)

/-- `ISource2ServerConfig::Connect`, loader/gamedll.cpp:282-316. -/
def connect (w : World) (call : Caller) (s : St) : R (St × Nat) :=
  match s.origConnect with
  | none => .error .nullCall
  | some f => do
    let r ← call f s
    let s ← patchConnect w false r.1
    .ok (s, r.2)

/-- Detection in `DLLInit` and `Init`, loader/gamedll.cpp:363-374, 469: `mm_backend` is an index of the
table of names or UNKNOWN, the latter only with the first engine (`detect_index`, `detectS2_spec`). -/
def findEngine (h : Beh) (s2 : Bool) (s : St) : R St := do
  let r ← ext h .engine s
  .ok { r.1 with backend := if s2 then (if r.2.1 = 26 ∨ r.2.1 = 27 then r.2.1 else 12) else min r.2.1 28 }

/-- Loading the core and getting its bridge, loader/gamedll.cpp:376-396, 472-497. -/
def getBridge (h : Beh) (s2 : Bool) (s : St) : R St :=
  if s2 = false ∧ s.backend = 28 then .ok s
  else do
    let r ← loadCore h s
    if r.2 = false then .ok r.1
    else do
      let q ← coreSym h false r.1
      if q.2 = false then unloadCore q.1 else .ok { q.1 with gdBridge := q.1.core }

/-- `DLLInit_Pre`, loader/gamedll.cpp:398-414, 499-518. -/
def callPre (h : Beh) (s : St) : R St :=
  match s.gdBridge with
  | none => .ok s
  | some b => do
    let r ← extIn h b .pre s
    if r.2.1 = 0 then unloadCore { r.1 with gdBridge := none } else .ok r.1

/-- What follows the original, loader/gamedll.cpp:441-453, 551-563. -/
def afterInit (w : World) (h : Beh) (result : Nat) (s : St) : R St :=
  if result = 0 then
    match s.gdBridge with
    | none => .error .nullDeref
    | some b => do
      let r ← extIn h b .unload s
      let s ← unloadCore r.1
      .ok { s with gdBridge := none }
  else
    match s.gdBridge with
    | none => .ok s
    | some b => do
      let r ← extIn h b .post s
      patchShutdown w r.2.1 r.1

/-- The call of the original, loader/gamedll.cpp:416-434, 520-544. -/
def callInit (call : Caller) (s : St) : R (St × Nat) :=
  match s.origInit with
  | none => .error .nullCall
  | some f => call f s

/-- `IServerGameDLL::DLLInit` and `ISource2Server::Init`, loader/gamedll.cpp:361-458, 464-569. -/
def dllInit (w : World) (h : Beh) (call : Caller) (s2 : Bool) (s : St) : R (St × Nat) := do
  let s ← findEngine h s2 s
  let s ← getBridge h s2 s
  let s ← callPre h s
  let r ← callInit call s
  let s ← afterInit w h r.2 r.1
  let s ← patchInit w false s
  .ok (s, r.2)

/-- `DLLShutdown` and `Disconnect`, loader/gamedll.cpp:318-343, 571-601. -/
def dllShutdown (h : Beh) (call : Caller) (s : St) : R (St × Nat) :=
  match s.gdBridge with
  | none => .error .nullDeref
  | some b => do
    let r ← extIn h b .unload s
    let s ← unloadCore { r.1 with gdBridge := none }
    match s.origShutdown with
    | none => .error .nullCall
    | some f => do
      let r ← call f s
      let s ← closeLib r.1.lib r.1
      .ok ({ s with lib := none }, r.2)

/-- A call of function `f`. No counterpart in /repo: a call through a function pointer. -/
def invoke (w : World) (h : Beh) : Nat → Caller
  | 0, _, _ => .error .fuel
  | n + 1, f, s =>
    if f = w.tInit1 then dllInit w h (invoke w h n) false s
    else if f = w.tInit2 then dllInit w h (invoke w h n) true s
    else if f = w.tConnect then connect w (invoke w h n) s
    else if f = w.tShutdown then dllShutdown h (invoke w h n) s
    else if f = 0 then .error .nullCall
    else do
      let r ← ext h (.code f) s
      .ok (r.1, r.2.1)

/-- `mm_DetectGameInformation`, loader/gamedll.cpp:86-219: answer 0 is a failure before the end,
`n + 1` are `n` paths (at most 10, line 199). -/
def detectInfo (h : Beh) (s : St) : R (St × Bool) :=
  if s.detected ≠ 0 then .ok (s, decide (s.detected = 1))
  else do
    let r ← ext h .readInfo { s with detected := -1 }
    if r.2.1 = 0 then .ok (r.1, false)
    else .ok ({ r.1 with detected := 1, npaths := min (r.2.1 - 1) 10 }, decide (r.2.1 ≠ 1))

/-- Opens game library `i` unless it is open, loader/gamedll.cpp:787-793, 843-849. -/
def cacheLib (h : Beh) (i : Nat) (s : St) : R (St × Option Nat) :=
  match s.libs i with
  | some l => .ok (s, some l)
  | none => do
    let r ← ext h (.openLib i) s
    if r.2.1 = 0 then .ok (r.1, none)
    else .ok ({ r.1 with libs := upd r.1.libs i (some r.1.next), opened := r.1.next :: r.1.opened,
                         next := r.1.next + 1 }, some r.1.next)

/-- Asks game library `i` for the interface, loader/gamedll.cpp:787-803, 843-859. -/
def tryLib (h : Beh) (name : List Byte) (i : Nat) (s : St) : R (St × Option (Nat × Nat)) := do
  let r ← cacheLib h i s
  match r.2 with
  | none => .ok (r.1, none)
  | some l => do
    let q ← extIn h l (.sym l) r.1
    if q.2.1 = 0 then .ok (q.1, none)
    else do
      let a ← extIn h l (.ask l name) q.1
      if a.2.1 = 0 then .ok (a.1, none)
      else .ok ({ a.1 with libs := upd a.1.libs i none }, some (l, a.2.1))

/-- `for (i = 0; i < gamedll_path_count; i++)`, loader/gamedll.cpp:785-804, 841-860. -/
def search (h : Beh) (name : List Byte) : Nat → Nat → St → R (St × Option (Nat × Nat))
  | 0, _, s => .ok (s, none)
  | n + 1, i, s =>
    if i < s.npaths then do
      let r ← tryLib h name i s
      match r.2 with
      | some x => .ok (r.1, some x)
      | none => search h name n (i + 1) r.1
    else .ok (s, none)

/-- `mm_FreeCachedLibraries`, loader/gamedll.cpp:222-230: closes them, the handles stay. -/
def freeCached : Nat → Nat → St → R St
  | 0, _, s => .ok s
  | n + 1, i, s =>
    if i < s.npaths then
      match s.libs i with
      | none => freeCached n (i + 1) s
      | some l => do
        let s ← closeLib (some l) s
        freeCached n (i + 1) s
    else .ok s

/-- `strncmp(name, p, strlen(p)) == 0`. -/
def starts (p name : List Byte) : Bool := p.isPrefixOf name

/-- The digits of `atoi`, which stops at the first other character.
No counterpart in /repo: the C library, called at loader/gamedll.cpp:826-830, 878 and loader/loader.cpp:187. -/
def natOf (acc : Nat) : List Byte → Nat
  | [] => acc
  | c :: s => if isdigit c then natOf (acc * 10 + (c.toNat - 48)) s else acc

/-- `atoi` of glibc, `(int) strtol(s, NULL, 10)`, as 32-bit pattern: white space, sign, digits, clamped to 64
bits, then truncated. -/
def atoi (s : List Byte) : Nat :=
  match s.dropWhile isspace with
  | 45 :: r => (2 ^ 64 - min (natOf 0 r) (2 ^ 63)) % 2 ^ 32
  | 43 :: r => min (natOf 0 r) (2 ^ 63 - 1) % 2 ^ 32
  | r => min (natOf 0 r) (2 ^ 63 - 1) % 2 ^ 32

/-- Success of a search for a game library: loader/gamedll.cpp:806-821. -/
def tookConfig (w : World) (l p : Nat) (s : St) : R St := do
  let s ← freeCached 10 0 s
  patchConnect w true { s with lib := some l, config := some p, qvi := some l }

/-- Success of a search for a game library: loader/gamedll.cpp:862-875. -/
def tookGame (w : World) (l p : Nat) (s : St) : R St := do
  let s ← freeCached 10 0 s
  patchInit w true { s with lib := some l, iface := some p, qvi := some l }

/-- The branch for `Source2ServerConfig`, loader/gamedll.cpp:774-822. -/
def requestConfig (w : World) (h : Beh) (name : List Byte) (s : St) : R (St × Nat) := do
  let d ← detectInfo h { s with isS2 := true }
  if d.2 = false then .ok (d.1, 0)
  else do
    let r ← search h name 10 0 d.1
    match r.2 with
    | none => .ok (r.1, 0)
    | some (l, p) => do
      let s ← tookConfig w l p r.1
      .ok (s, p)

/-- The branch for `ServerGameDLL`, loader/gamedll.cpp:835-876. -/
def requestGame (w : World) (h : Beh) (name : List Byte) (s : St) : R (St × Nat) := do
  let d ← detectInfo h s
  if d.2 = false then .ok (d.1, 0)
  else do
    let r ← search h name 10 0 d.1
    match r.2 with
    | none => .ok (r.1, 0)
    | some (l, p) => do
      let s ← tookGame w l p r.1
      .ok (s, p)

/-- `gamedll_qvi(name, ret)`. Called at loader/gamedll.cpp:763-898. -/
def askGame (h : Beh) (name : List Byte) (s : St) : R (St × Nat) :=
  match s.qvi with
  | none => .error .nullCall
  | some l => do
    let r ← extIn h l (.ask l name) s
    .ok (r.1, r.2.1)

/-- The branch for `Source2Server`, loader/gamedll.cpp:823-834. -/
def requestS2 (w : World) (h : Beh) (name : List Byte) (s : St) : R (St × Nat) := do
  let r ← askGame h name s
  let s ← patchInit w true { r.1 with iface := if r.2 = 0 then none else some r.2 }
  .ok (s, r.2)

/-- `mm_GameDllRequest`, loader/gamedll.cpp:762-898. -/
def gameDllRequest (w : World) (h : Beh) (name : List Byte) (s : St) : R (St × Nat) :=
  if starts (bytes "Source2Server") name && !w.dedicated && !w.insecure then .ok (s, 0)
  else if starts (bytes "Source2ServerConfig") name then requestConfig w h name s
  else if starts (bytes "Source2Server") name && decide (atoi (name.drop 13) ≠ 0) then requestS2 w h name s
  else if starts (bytes "ServerGameDLL") name then requestGame w h name s
  else if s.lib.isSome && s.gdBridge.isNone then askGame h name s
  else .ok (s, 0)

/-- What `CreateInterface` returns. The results of loader/loader.cpp:172-204. -/
inductive Ptr
  | null | vsp | ptr (p : Nat)
  deriving DecidableEq, Repr

/-- A pointer from outside. No counterpart in /repo. -/
def toPtr (p : Nat) : Ptr := if p = 0 then .null else .ptr p

/-- `mm_GetVspCallbacks` with `PrepForLoad`, loader/serverplugin.cpp:287-308. -/
def getVspCallbacks (v : Nat) (s : St) : St × Ptr :=
  if s.vspBridge.isSome then (s, .null)
  else if v > 2 then (s, .null)
  else ({ s with version := v, allowed := true }.note .handOut, .vsp)

/-- `*ret = (ptr != NULL) ? 0 : 1`, loader/loader.cpp:200-201. -/
def code (p : Ptr) : Int := if p = .null then 1 else 0

/-- `CreateInterface`, loader/loader.cpp:172-204: the pointer and `*ret`. -/
def createInterface (w : World) (h : Beh) (name : List Byte) (s : St) : R (St × Ptr × Int) :=
  if s.vspBridge.isSome then .ok (s, .null, 1)
  else if starts (bytes "ISERVERPLUGINCALLBACKS") name then
    let r := getVspCallbacks (atoi (name.drop 22)) s
    .ok (r.1, r.2, code r.2)
  else
    match s.gdBridge with
    | none => do
      let r ← gameDllRequest w h name s
      .ok (r.1, toPtr r.2, code (toPtr r.2))
    | some b => do
      let r ← extIn h b (.query name) s
      .ok (r.1, toPtr r.2.1, r.2.2)

/-- The engines whose server plugins have `ClientFullyConnect`, loader/serverplugin.cpp:132-138. -/
def hasFullyConnect (b : Nat) : Bool := b ∈ [9, 10, 18, 19, 22, 11, 25]

/-- Adapting the server plugin's own table to the engine, loader/serverplugin.cpp:103-159: function 100 is
`IRandomThings::ClientCommand`, 16 the slot of `ClientCommand`, 10 that of `ClientFullyConnect`. -/
def adapt (b : Nat) (t : List Nat) : List Nat :=
  let t := if b ≠ 0 ∧ b ≠ 1 then t.set 16 100 else t
  if hasFullyConnect b then t else t.take 10 ++ (t.drop 11).take 8 ++ t.drop 18

/-- The end of a failed `Load`, loader/serverplugin.cpp:174-178, 193-197. -/
def dropCore (s : St) : R (St × Bool) :=
  match s.gdBridge with
  | some _ => .ok (s, false)
  | none => do
    let s ← unloadCore s
    .ok (s, false)

/-- The second half of `ServerPlugin::Load`, loader/serverplugin.cpp:171-202. -/
def vspAttach (h : Beh) (s : St) : R (St × Bool) := do
  let q ← coreSym h true s
  if q.2 = false then dropCore q.1
  else
    match q.1.core with
    | none => .error .closed
    | some b => do
      let r ← extIn h b (.vspLoad q.1.version) { q.1 with vspBridge := some b }
      if r.2.1 = 0 then dropCore { r.1 with vspBridge := none } else .ok (r.1, true)

/-- `mm_DetermineBackendS1` in `Load`, loader/serverplugin.cpp:91-98. -/
def vspEngine (h : Beh) (s : St) : R St :=
  match s.gdBridge with
  | some _ => .ok s
  | none => findEngine h false s

/-- `mm_LoadMetamodLibrary` in `Load`, loader/serverplugin.cpp:161-169. -/
def vspCore (h : Beh) (s : St) : R (St × Bool) :=
  match s.gdBridge with
  | some _ => .ok (s, true)
  | none => loadCore h s

/-- `ServerPlugin::Load`, loader/serverplugin.cpp:82-203. -/
def vspLoad (h : Beh) (s : St) : R (St × Bool) :=
  if s.allowed = false then .ok (s, false)
  else do
    let s ← vspEngine h ({ s with allowed := false }.note .loading)
    if s.backend = 28 then .ok (s, false)
    else do
      let r ← vspCore h { s with vtab := adapt s.backend s.vtab }
      if r.2 = false then .ok (r.1, false) else vspAttach h r.1

/-- `ServerPlugin::Unload`, loader/serverplugin.cpp:204-214. -/
def vspUnload (h : Beh) (s : St) : R St :=
  match s.vspBridge with
  | none => .ok s
  | some b => do
    let r ← extIn h b .vspUnload s
    match r.1.gdBridge with
    | some _ => .ok r.1
    | none => unloadCore r.1

/-- Everything that can be called: the entry point, a slot of a game interface, the server plugin. No counterpart in /repo. -/
inductive Op
  | create (name : List Byte)
  | slot (obj k : Nat)
  | load
  | unload

/-- One call.  The answer is 0 for NULL or false. -/
def run (w : World) (fuel : Nat) (h : Beh) : Op → St → R (St × Nat)
  | .create name, s => do
    let r ← createInterface w h name s
    .ok (r.1, if r.2.1 = .null then 0 else 1)
  | .slot o k, s => invoke w h fuel (s.mem (w.vt o + k)) s
  | .load, s => do
    let r ← vspLoad h s
    .ok (r.1, if r.2 then 1 else 0)
  | .unload, s => do
    let s ← vspUnload h s
    .ok (s, 0)

/-- What external code does: calls one after the other, each with the behaviour of the external code
called from it, then an answer. No counterpart in /repo. -/
inductive Scr
  | ret (v : Nat) (code : Int)
  | op (o : Op) (cb : Call → Nat → Scr) (next : Nat → Scr)

/-- Execution of a program. No counterpart in /repo. -/
def exec (w : World) (fuel : Nat) : Scr → St → R (St × Nat × Int)
  | .ret v c, s => .ok (s, v, c)
  | .op o cb nx, s => do
    let r ← run w fuel (fun c n s => exec w fuel (cb c n) s) o s
    exec w fuel (nx r.2) r.1

end Verif.Loader
