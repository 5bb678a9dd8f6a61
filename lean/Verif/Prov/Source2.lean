import Verif.C.Buf
/-
The provider for Source 2: core/provider/source2/provider_source2.cpp:60-172, 390-473.

* An object is an address, 0 is NULL.  SourceHook is taken with what is proved about it: `AddHook` adds one entry for an
  object and a function (C01), `RemoveHook` takes out every entry that matches (C02), a call runs every entry once (C03).
  `AddHook` reads the object, so NULL is a fault there; `RemoveHook` does not.
* The provider's own callbacks (`m_pCallbacks`) are recorded in a log.
* The file system (external) is a function from path ids to lists of directories.
-/
namespace Verif.Prov.S2

/-- The functions that are hooked, core/provider/source2/provider_source2.cpp:48-54. -/
inductive Kind where
  | clientCommand | regLoop | unregLoop | create | destroy | loopInit | loopShutdown
deriving DecidableEq, Repr

/-- `m_pCallbacks->...`, core/provider/source2/provider_source2.cpp:397-400, 433-443, 451-454. -/
inductive Call where
  | gameInit
  | levelInit (level : List Char)
  | levelShutdown
deriving DecidableEq, Repr

/-- No counterpart in /repo: the ways to fault. -/
inductive Fault where
  | null
deriving DecidableEq, Repr

/-- The provider and the hooks it has set. `callbacks`: `m_pCallbacks != nullptr`,
core/provider/source2/provider_source2.cpp:397. -/
structure St where
  hooks : List (Nat × Kind)
  log : List Call
  callbacks : Bool

/-- `SH_ADD_HOOK`, see the head of this file; core/sourcehook/sourcehook.cpp:102-175. -/
def addHook (o : Nat) (k : Kind) (s : St) : Except Fault St :=
  if o = 0 then .error .null else .ok { s with hooks := s.hooks ++ [(o, k)] }

/-- `SH_REMOVE_HOOK`, see the head of this file; core/sourcehook/sourcehook.cpp:177-202. -/
def rmHook (o : Nat) (k : Kind) (s : St) : St := { s with hooks := s.hooks.filter (· ≠ (o, k)) }

/-- `if (nullptr != m_pCallbacks) m_pCallbacks->...`, core/provider/source2/provider_source2.cpp:397-400. -/
def tell (c : Call) (s : St) : St := if s.callbacks then { s with log := s.log ++ [c] } else s

/-- `Hook_RegisterLoopMode`, core/provider/source2/provider_source2.cpp:390-402. -/
def onReg (name : List Char) (f : Nat) (s : St) : Except Fault St :=
  if name = "game".toList then do
    let s ← addHook f .create s
    let s ← addHook f .destroy s
    .ok (tell .gameInit s)
  else .ok s

/-- `Hook_UnregisterLoopMode`, core/provider/source2/provider_source2.cpp:404-413. -/
def onUnreg (name : List Char) (f : Nat) (s : St) : Except Fault St :=
  if name = "game".toList then .ok (rmHook f .destroy (rmHook f .create s))
  else .ok s

/-- `Hook_CreateLoopModePost`, core/provider/source2/provider_source2.cpp:415-423; `orig` is what the original returned. -/
def onCreate (orig : Nat) (s : St) : Except Fault St := do
  let s ← addHook orig .loopInit s
  addHook orig .loopShutdown s

/-- `Hook_DestroyLoopMode`, core/provider/source2/provider_source2.cpp:425-429. -/
def onDestroy (m : Nat) (s : St) : Except Fault St := .ok (rmHook m .loopShutdown (rmHook m .loopInit s))

/-- No counterpart in /repo: SourceHook runs a handler once for every entry. -/
def times (f : St → Except Fault St) : Nat → St → Except Fault St
  | 0, s => .ok s
  | n + 1, s => do
    let s ← f s
    times f n s

/-- What the engine does (external). -/
inductive Ev where
  /-- `RegisterLoopMode` -/
  | reg (name : List Char) (f : Nat)
  /-- `UnregisterLoopMode` -/
  | unreg (name : List Char) (f : Nat)
  /-- `CreateLoopMode`: what the original returned and what the engine got -/
  | create (f orig ret : Nat)
  /-- `DestroyLoopMode` -/
  | destroy (f m : Nat)
  /-- `LoopInit` of a loop mode, for a level -/
  | init (m : Nat) (level : List Char)
  /-- `LoopShutdown` -/
  | shut (m : Nat)
deriving DecidableEq, Repr

/-- A call of the engine with the handlers it runs, core/provider/source2/provider_source2.cpp:390-455; `svc` is `enginesvcmgr`. -/
def step (svc : Nat) (s : St) : Ev → Except Fault St
  | .reg name f => times (onReg name f) (s.hooks.count (svc, .regLoop)) s
  | .unreg name f => times (onUnreg name f) (s.hooks.count (svc, .unregLoop)) s
  | .create f orig _ => times (onCreate orig) (s.hooks.count (f, .create)) s
  | .destroy f m => times (onDestroy m) (s.hooks.count (f, .destroy)) s
  | .init m level => times (fun s => .ok (tell (.levelInit level) s)) (s.hooks.count (m, .loopInit)) s
  | .shut m => times (fun s => .ok (tell .levelShutdown s)) (s.hooks.count (m, .loopShutdown)) s

/-- No counterpart in /repo: a sequence of calls of the engine. -/
def run (svc : Nat) : List Ev → St → Except Fault St
  | [], s => .ok s
  | e :: es, s => do
    let s ← step svc s e
    run svc es s

/-- `pathIds`, core/provider/source2/provider_source2.cpp:99-113. -/
def pathIds : List String := ["ADDONS", "CONTENT", "CONTENTADDONS", "CONTENTROOT", "EXECUTABLE_PATH", "GAME", "GAMEBIN", "GAMEROOT", "MOD",
  "PLATFORM", "SHADER_SOURCE", "SHADER_SOURCE_MOD", "SHADER_SOURCE_ROOT"]

/-- The file system (external): the directories searched for a path id. -/
abbrev Fs := String → List (List Char)

/-- `strstr(...) != 0` (C library). -/
def hasSub (needle : List Char) : List Char → Bool
  | [] => needle.isEmpty
  | c :: cs => needle.isPrefixOf (c :: cs) || hasSub needle cs

/-- `RemoveSearchPath` (external), called at core/provider/source2/provider_source2.cpp:124. -/
def removePath (p : List Char) (id : String) (fs : Fs) : Fs := fun i => if i = id then (fs i).filter (· ≠ p) else fs i

/-- The loop over the directories of one path id, core/provider/source2/provider_source2.cpp:120-126. -/
def cleanId (id : String) : List (List Char) → Fs → Fs
  | [], fs => fs
  | p :: ps, fs => cleanId id ps (if hasSub "metamod".toList p then removePath p id fs else fs)

/-- The loop over the path ids, core/provider/source2/provider_source2.cpp:115-127. -/
def clean : List String → Fs → Fs
  | [], fs => fs
  | id :: ids, fs => clean ids (cleanId id (fs id) fs)

/-- Lines 115-133: `GetSearchPath(…, 1)` gives the first directory, or nothing (external);
core/provider/source2/provider_source2.cpp:115-133. -/
def fixPaths (fs : Fs) : Fs :=
  let fs := clean pathIds fs
  let fs : Fs := fun i => if i = "DEFAULT_WRITE_PATH" then [] else fs i
  let first := (fs "GAME").headD []
  fun i => if i = "DEFAULT_WRITE_PATH" then fs i ++ [first] else fs i

/-- What the two factories answer (external): addresses, 0 for NULL.  core/provider/source2/provider_source2.cpp:63-83. -/
structure Ifaces where
  engine : Nat
  svc : Nat
  icvar : Nat
  clients : Nat
  baseFs : Nat

/-- `Notify_DLLInit_Pre`, core/provider/source2/provider_source2.cpp:60-150; `none`: given up with a message. -/
def init (i : Ifaces) (fs : Fs) (s : St) : Except Fault (Option (Fs × St)) :=
  if i.engine = 0 then .ok none
  else if i.icvar = 0 then .ok none
  else if i.baseFs = 0 then .error .null
  else do
    let fs := fixPaths fs
    let s ← if i.clients ≠ 0 then addHook i.clients .clientCommand s else .ok s
    let s ← addHook i.svc .regLoop s
    let s ← addHook i.svc .unregLoop s
    .ok (some (fs, s))

/-- `Notify_DLLShutdown_Pre`, the hooks: core/provider/source2/provider_source2.cpp:159-165. -/
def shutdown (i : Ifaces) (s : St) : St :=
  let s := rmHook i.svc .regLoop s
  let s := rmHook i.svc .unregLoop s
  if i.clients ≠ 0 then rmHook i.clients .clientCommand s else s

end Verif.Prov.S2
