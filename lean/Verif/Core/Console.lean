import Verif.Core.PluginFile
/-
The console command `meta`: Command_Meta (core/metamod_console.cpp).
* Arguments are strings without a NUL; the engine splits the line (parameter).
* Printing is left out but for what kind of answer is given.  Commands that only print answer `text`; the
  functions of the plugin they call (`GetName`, `QueryRunning`, …) are left out.
* Plugin ids do not reach 2^31, as in Verif/Mgr/Model.lean.
* `meta refresh` is `mm_LoadPlugins` (Verif/Core/Vdf.lean, `loadPlugins`), a parameter here.
-/
namespace Verif.PFile

open Verif.C Verif.Util

/-! ### `atoi` -/

/-- The digits at the start of a string, as `strtol` reads them.
No counterpart in /repo: the C library (`atoi`, called at core/metamod_console.cpp:228, 265, 302, 359, 384, 513, 566, 602). -/
def digits (acc : Nat) : List Byte → Nat
  | [] => acc
  | c :: cs => if 48 ≤ c ∧ c ≤ 57 then digits (acc * 10 + (c.toNat - 48)) cs else acc

/-- `strtol(s, NULL, 10)`: a number that does not fit is LONG_MIN or LONG_MAX. -/
def strtol (s : List Byte) : Int :=
  let x : Int := match s.dropWhile isspace with
    | [] => 0
    | c :: r => if c = 45 then -(digits 0 r : Int) else if c = 43 then digits 0 r else digits 0 (c :: r)
  max (-9223372036854775808) (min x 9223372036854775807)

/-- glibc's `atoi`: `(int) strtol(s, NULL, 10)`. -/
def atoi (s : List Byte) : Int := (strtol s + 2147483648) % 4294967296 - 2147483648

/-! ### the command -/

/-- What is around the command. No counterpart in /repo: the surroundings of core/metamod_console.cpp as parameters. -/
structure Con where
  modPath : List Byte
  stat : List Byte → Bool
  /-- What plugins and listeners do when called. -/
  h : Mgr.Beh
  fuel : Nat
  /-- What the system and the library answer for a file. -/
  oc : List Byte → Mgr.Outcome
  /-- The array `full_path`, with what happens to be in it. -/
  out : Buf
  refresh : Mgr.St → Except (Flt Mgr.Fault) Mgr.St

/-- The kinds of answers. One per `CONMSG` text of core/metamod_console.cpp:66-701, as far as they tell outcomes apart. -/
inductive Reply
  | locked | help | usage | text
  | notFound (path : List Byte)
  | failed | done (id : Int)
  | loadFailed | loaded (id : Nat) | already (id : Nat)
  deriving Repr, DecidableEq

/-- No counterpart in /repo: a result, or undefined behaviour. -/
abbrev CR (α : Type) := Except (Flt Mgr.Fault) α

/-- The alias and the full path, core/metamod_console.cpp:408-417 and 518-526. -/
def fullPath (C : Con) (file : List Byte) (s : Mgr.St) : CR (List Byte) := do
  let b ← getFullPath C.modPath C.stat ((Mgr.lookupAlias file s.aliases).getD file ++ [0]) C.out 255
  liftB (cstr b 0)

/-- `g_PluginMngr.Unload(id, force)` and the answer; no plugin has a negative id (`FindById`, core/metamod_plugins.cpp:192-205). -/
def unloadId (C : Con) (id : Int) (force : Bool) (s : Mgr.St) : CR (Mgr.St × Reply) :=
  if id < 0 then .ok (s, .failed)
  else do
    let r ← liftE (Mgr.unload C.h C.fuel id.toNat force s)
    .ok (r.1, if r.2 then .done id else .failed)

/-- The loop `strcmp(pl->m_File.c_str(), full_path) == 0`, core/metamod_console.cpp:528-540: the id, 0 if there is none. -/
def findFile (s : Mgr.St) (path : List Byte) : List Nat → Mgr.R Nat
  | [] => .ok 0
  | o :: os => do
    let p ← s.get o
    if p.file = path then .ok p.id else findFile s path os

/-- `meta unload <x>`, core/metamod_console.cpp:508-561. -/
def cmdUnload (C : Con) (file : List Byte) (s : Mgr.St) : CR (Mgr.St × Reply) := do
  let c ← liftB (rd (file ++ [0]) 0)
  if atoi file = 0 ∧ isalpha c = true then do
    let path ← fullPath C file s
    let id ← liftE (findFile s path s.plugins)
    if id = 0 then .ok (s, .notFound path)
    else unloadId C id false s
  else unloadId C (atoi file) false s

/-- `meta load` once `Load` has answered, core/metamod_console.cpp:429-443. -/
def loadReply (r : Mgr.St × Nat × Bool) : Mgr.R (Mgr.St × Reply) := do
  let o ← Mgr.findById r.1 r.2.1 r.1.plugins
  match o with
  | none => .ok (r.1, .loadFailed)
  | some o =>
    if r.2.1 < 1 then .ok (r.1, .loadFailed)
    else do
      let p ← r.1.get o
      let b ← Mgr.belowPaused p.status
      if b then .ok (r.1, .loadFailed)
      else match p.api with
        | none => .error .nullDeref
        | some _ => .ok (r.1, if r.2.2 then .already p.id else .loaded p.id)

/-- `meta load <x>`, core/metamod_console.cpp:404-451; `ResolvePendingUnloads(true)` is core/sourcehook/sourcehook.cpp:606-628. -/
def cmdLoad (C : Con) (file : List Byte) (s : Mgr.St) : CR (Mgr.St × Reply) := do
  let path ← fullPath C file s
  let s ← liftE (Mgr.drain s.pending.length s)
  let r ← liftE (Mgr.load C.h C.fuel path (C.oc path) s)
  liftE (loadReply r)

/-- What the library of the plugin to retry answers. No counterpart in /repo: external, for core/metamod_console.cpp:605. -/
def retryOutcome (C : Con) (id : Nat) (s : Mgr.St) : Mgr.Outcome :=
  match Mgr.findById s id s.plugins with
  | .ok (some o) => C.oc ((s.objs o).elim [] Mgr.Plug.file)
  | _ => C.oc []

/-- `Pause`, `Unpause`, `Retry` with an id (core/metamod_console.cpp:355-403, 598-621). -/
def idCmd (f : Nat → Mgr.St → Mgr.R (Mgr.St × Bool)) (file : List Byte) (s : Mgr.St) : CR (Mgr.St × Reply) :=
  if atoi file < 0 then .ok (s, .failed)
  else do
    let r ← liftE (f (atoi file).toNat s)
    .ok (r.1, if r.2 then .done (atoi file) else .failed)

/-- `meta clear`, core/metamod_console.cpp:586-597. -/
def cmdClear (C : Con) (s : Mgr.St) : CR (Mgr.St × Reply) := do
  let r ← liftE (Mgr.unloadAll C.h C.fuel C.fuel true s)
  .ok (r.1, .text)

/-- `meta refresh`, core/metamod_console.cpp:151-168. -/
def cmdRefresh (C : Con) (s : Mgr.St) : CR (Mgr.St × Reply) := do
  let s ← C.refresh s
  .ok (s, .text)

/-- A text as bytes. No counterpart in /repo. -/
def str (t : String) : List Byte := t.toList.map fun c => UInt8.ofNat c.toNat

/-- A command with one argument. The tests `argc >= 3` of core/metamod_console.cpp:223-661. -/
def withArg (args : List (List Byte)) (s : Mgr.St) (f : List Byte → CR (Mgr.St × Reply)) : CR (Mgr.St × Reply) :=
  match args with
  | [] => .ok (s, .usage)
  | x :: _ => f x

/-- `meta alias`, core/metamod_console.cpp:452-507. -/
def cmdAlias (args : List (List Byte)) (s : Mgr.St) : CR (Mgr.St × Reply) :=
  match args with
  | a :: v :: _ => .ok ({ s with aliases := Mgr.setAlias a v s.aliases }, .text)
  | _ => .ok (s, .text)

/-- The command without its name, core/metamod_console.cpp:102-644. -/
def subCmd (C : Con) (c : List Byte) (args : List (List Byte)) (s : Mgr.St) : CR (Mgr.St × Reply) :=
  if c = str "credits" then .ok (s, .text)
  else if c = str "version" then .ok (s, .text)
  else if c = str "game" then .ok (s, .text)
  else if c = str "refresh" then cmdRefresh C s
  else if c = str "list" then .ok (s, .text)
  else if c = str "cmds" then withArg args s fun _ => .ok (s, .text)
  else if c = str "cvars" then withArg args s fun _ => .ok (s, .text)
  else if c = str "info" then withArg args s fun _ => .ok (s, .text)
  else if c = str "pause" then withArg args s fun x => idCmd (Mgr.pause C.h C.fuel) x s
  else if c = str "unpause" then withArg args s fun x => idCmd (Mgr.unpause C.h C.fuel) x s
  else if c = str "load" then withArg args s fun x => cmdLoad C x s
  else if c = str "alias" ∨ c = str "aliases" then cmdAlias args s
  else if c = str "unload" then withArg args s fun x => cmdUnload C x s
  else if c = str "force_unload" then withArg args s fun x => unloadId C (atoi x) true s
  else if c = str "clear" then cmdClear C s
  else if c = str "retry" then withArg args s fun x => idCmd (fun id s => Mgr.retry C.h C.fuel id (retryOutcome C id s) s) x s
  else .ok (s, .help)

/-- `Command_Meta`, core/metamod_console.cpp:92-644; `locked` is `mm_IsVspBridged() && !mm_IsVspLoadComplete()`. -/
def cmdMeta (C : Con) (locked : Bool) (args : List (List Byte)) (s : Mgr.St) : CR (Mgr.St × Reply) :=
  if locked then .ok (s, .locked)
  else match args with
    | [] => .ok (s, .help)
    | c :: args => subCmd C c args s

end Verif.PFile
