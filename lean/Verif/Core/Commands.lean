import Verif.Core.Console
import Verif.Core.Report
/-
The command `meta` on its way: from the engine to the provider (core/provider/source/provider_source.cpp,
core/provider/source2/provider_source2.cpp), to Command_Meta and Command_ClientMeta (core/metamod_console.cpp), and the answers
on their way back (core/metamod.cpp).  What plugins are told about plugins (core/metamod_plugins.cpp).
* The engine splits the line; a command is the list of its words.  `CCommand::Arg` and `Cmd_Argv` answer "" for a word that is not
  there (Source SDK).
* The texts that printf makes of numbers are parameters.
* A player is a number; none is `MMSPlayer_INVALID` (core/ISmmAPI.h:66-70).
* A plugin's strings are as in Verif/Core/Report.lean.
-/
namespace Verif.Cmds

open Verif.C Verif.Util Verif.PFile Verif.Report

/-! ### the words -/

/-- The words of a command. No counterpart in /repo: `CCommand` of the engine, or its `Cmd_Argc` and `Cmd_Argv`. -/
abbrev Line := List (List Byte)

/-- `GetArgCount`: `ArgC() - 1` as `unsigned int`; core/provider/source/provider_source.cpp:444-447, 465-468 and
core/provider/source2/provider_source2.cpp:363-366. -/
def argCount (l : Line) : Nat := (l.length + 4294967295) % 4294967296

/-- `GetArg`, core/provider/source/provider_source.cpp:449-452, 470-473 and core/provider/source2/provider_source2.cpp:368-371. -/
def arg (l : Line) (n : Nat) : List Byte := l.getD n []

/-! ### printing -/

/-- Who reads what is printed. The provider's `ConsolePrint` and `ClientConsolePrint`, core/provider/source/provider_source.cpp:335-342,
364-367 and core/provider/source2/provider_source2.cpp:260-268. -/
inductive Who
  | console
  | player (p : Option Nat)
  deriving DecidableEq, Repr

/-- What was printed and who reads it. No counterpart in /repo: what the engine is given. -/
abbrev Msg := Who × List Byte

/-- `UTIL_FormatArgs(buffer, sizeof(buffer), fmt, ap)` into `char buffer[2048]`, which is then printed; core/metamod.cpp:630-636, 792-798,
570-574 and core/provider/provider_base.cpp:91-125 (`DisplayError`, `DisplayWarning`, `DisplayDevMsg`).  `b` is the array with what happens to be in
it, `t` the text. -/
def formatted (b : Buf) (t : List Byte) : Except Flt (List Byte) := do
  let x ← liftB (format b 2048 (some t) [])
  liftB (cstr x.1 0)

/-- `ConPrintf`, core/metamod.cpp:627-637. -/
def conPrintf (b : Buf) (t : List Byte) : Except Flt Msg := do
  let t ← formatted b t
  .ok (.console, t)

/-- `ClientConPrintf`, core/metamod.cpp:789-799. -/
def clientConPrintf (b : Buf) (client : Option Nat) (t : List Byte) : Except Flt Msg := do
  let t ← formatted b t
  .ok (.player client, t)

/-- `CMDMSG`, core/metamod_console.cpp:46-58. -/
def cmdMsg (b : Buf) (client : Option Nat) (t : List Byte) : Except Flt Msg :=
  if client ≠ none then clientConPrintf b client t else conPrintf b t

/-- One line after the other. No counterpart in /repo: several calls in a row. -/
def says (f : List Byte → Except Flt Msg) : List (List Byte) → Except Flt (List Msg)
  | [] => .ok []
  | t :: ts => do
    let m ← f t
    let ms ← says f ts
    .ok (m :: ms)

/-- The lines of `ReplyCredits`, core/metamod_console.cpp:62-67. -/
def creditLines : List (List Byte) :=
  [str "Metamod:Source was developed by:\n", str "  SourceHook: Pavol \"PM OnoTo\" Marko\n", str "  GameDLL/Plugins: David \"BAILOPAN\" Anderson\n",
   str "  GameDLL: Scott \"DS\" Ehlert\n", str "For more information, see the official website\n", str "http://www.metamodsource.net/\n"]

/-- `ReplyCredits`, core/metamod_console.cpp:60-68. -/
def replyCredits (b : Buf) (client : Option Nat) : Except Flt (List Msg) := says (cmdMsg b client) creditLines

/-- What `meta version` shows, as texts: `METAMOD_VERSION`, the versions of the plugin interface and of SourceHook, `IsLoadedAsGameDLL()`,
the time of the build, and `METAMOD_SHA`, `METAMOD_LOCAL_REV` if MMS_GENERATED_BUILD.  No counterpart in /repo: the constants of
core/metamod_console.cpp:72-89. -/
structure Ver where
  version : List Byte
  api : List Byte × List Byte
  hook : List Byte × List Byte
  gamedll : Bool
  stamp : List Byte
  build : Option (List Byte × List Byte)

/-- The lines under MMS_GENERATED_BUILD, core/metamod_console.cpp:85-88. -/
def buildLines (V : Ver) : List (List Byte) :=
  match V.build with
  | none => []
  | some (sha, rev) => [str "    Built from: https://github.com/alliedmodders/metamod-source/commit/" ++ sha ++ [10], str "    Build ID: " ++ rev ++ [58] ++ sha ++ [10]]

/-- The lines of `ReplyVersion`, core/metamod_console.cpp:72-89. -/
def versionLines (V : Ver) : List (List Byte) :=
  [str " Metamod:Source Version Information\n", str "    Metamod:Source version " ++ V.version ++ [10],
   str "    Plugin interface version: " ++ V.api.1 ++ [58] ++ V.api.2 ++ [10], str "    SourceHook version: " ++ V.hook.1 ++ [58] ++ V.hook.2 ++ [10],
   if V.gamedll then str "    Loaded As: GameDLL (gameinfo.txt)\n" else str "    Loaded As: Valve Server Plugin\n",
   str "    Compiled on: " ++ V.stamp ++ [10]] ++ buildLines V ++ [str "    http://www.metamodsource.net/\n"]

/-- `ReplyVersion`, core/metamod_console.cpp:70-90. -/
def replyVersion (b : Buf) (V : Ver) (client : Option Nat) : Except Flt (List Msg) := says (cmdMsg b client) (versionLines V)

/-! ### a player's `meta` -/

/-- The menu, core/metamod_console.cpp:718-722. -/
def menuLines : List (List Byte) :=
  [str "Metamod:Source Menu\n", str "usage: meta <command>\n", str "  credits - About Metamod:Source\n", str "  list    - List plugins\n",
   str "  version - Version information\n"]

/-- What is around: the array that is printed into, the surroundings of the list, the versions. No counterpart in /repo: surroundings as parameters. -/
structure Env where
  out : Buf
  rep : Report.Env
  ver : Ver

/-- A player's `meta list`, core/metamod_console.cpp:669-715. -/
def clientList (E : Env) (client : Option Nat) (s : Mgr.St) : Except Flt (List Msg) := do
  let ls ← clientLoop E.rep s 0 s.plugins
  if ls.length = 0 then says (clientConPrintf E.out client) [str "No active plugins loaded.\n"]
  else says (clientConPrintf E.out client) (ls.map (· ++ [10]))

/-- `Command_ClientMeta`, core/metamod_console.cpp:646-728: what is printed, and the answer. -/
def clientMeta (E : Env) (client : Option Nat) (l : Line) (s : Mgr.St) : Except Flt (List Msg × Bool) :=
  if arg l 0 = str "meta" then
    if argCount l = 1 then
      if arg l 1 = str "credits" then do
        let ms ← replyCredits E.out client
        .ok (ms, true)
      else if arg l 1 = str "version" then do
        let ms ← replyVersion E.out E.ver client
        .ok (ms, true)
      else if arg l 1 = str "list" then do
        let ms ← clientList E client s
        .ok (ms, true)
      else do
        let ms ← says (clientConPrintf E.out client) menuLines
        .ok (ms, true)
    else do
      let ms ← says (clientConPrintf E.out client) menuLines
      .ok (ms, true)
  else .ok ([], false)

/-- What a hook says. `META_RES`, core/sourcehook/sourcehook.h:114-121, as far as it is used here. -/
inductive Res
  | ignored | supercede
  deriving DecidableEq, Repr

/-- `Hook_ClientCommand`, core/provider/source/provider_source.cpp:675-695 and core/provider/source2/provider_source2.cpp:457-472;
`callbacks` is `nullptr != m_pCallbacks`. -/
def hookClientCommand (E : Env) (callbacks : Bool) (client : Option Nat) (l : Line) (s : Mgr.St) : Except Flt (List Msg × Res) :=
  if arg l 0 = str "meta" then
    if callbacks then do
      let x ← clientMeta E client l s
      .ok (x.1, .supercede)
    else .ok ([], .supercede)
  else .ok ([], .ignored)

/-! ### the console's `meta` -/

/-- A command with an argument; `args >= 2` in core/metamod_console.cpp:225-621. -/
def withWord (l : Line) (s : Mgr.St) (f : List Byte → CR (Mgr.St × Reply)) : CR (Mgr.St × Reply) :=
  if 2 ≤ argCount l then f (arg l 2) else .ok (s, .usage)

/-- `meta alias`, core/metamod_console.cpp:452-507. -/
def aliasWords (l : Line) (s : Mgr.St) : CR (Mgr.St × Reply) :=
  if 3 ≤ argCount l then .ok ({ s with aliases := Mgr.setAlias (arg l 2) (arg l 3) s.aliases }, .text) else .ok (s, .text)

/-- The commands, told apart by the first argument; core/metamod_console.cpp:104-621. -/
def dispatch (C : Con) (l : Line) (s : Mgr.St) : CR (Mgr.St × Reply) :=
  let c := arg l 1
  if c = str "credits" then .ok (s, .text)
  else if c = str "version" then .ok (s, .text)
  else if c = str "game" then .ok (s, .text)
  else if c = str "refresh" then cmdRefresh C s
  else if c = str "list" then .ok (s, .text)
  else if c = str "cmds" then withWord l s fun _ => .ok (s, .text)
  else if c = str "cvars" then withWord l s fun _ => .ok (s, .text)
  else if c = str "info" then withWord l s fun _ => .ok (s, .text)
  else if c = str "pause" then withWord l s fun x => idCmd (Mgr.pause C.h C.fuel) x s
  else if c = str "unpause" then withWord l s fun x => idCmd (Mgr.unpause C.h C.fuel) x s
  else if c = str "load" then withWord l s fun x => cmdLoad C x s
  else if c = str "alias" ∨ c = str "aliases" then aliasWords l s
  else if c = str "unload" then withWord l s fun x => cmdUnload C x s
  else if c = str "force_unload" then withWord l s fun x => unloadId C (atoi x) true s
  else if c = str "clear" then cmdClear C s
  else if c = str "retry" then withWord l s fun x => idCmd (fun id s => Mgr.retry C.h C.fuel id (retryOutcome C id s) s) x s
  else .ok (s, .help)

/-- `Command_Meta` with the words as it reads them, core/metamod_console.cpp:92-644. -/
def commandMeta (C : Con) (locked : Bool) (l : Line) (s : Mgr.St) : CR (Mgr.St × Reply) :=
  if locked then .ok (s, .locked)
  else if 1 ≤ argCount l then dispatch C l s
  else .ok (s, .help)

/-- `LocalCommand_Meta`, core/provider/source/provider_source.cpp:483-503 and core/provider/source2/provider_source2.cpp:381-388: nothing is
answered without callbacks. -/
def localCommandMeta (C : Con) (callbacks locked : Bool) (l : Line) (s : Mgr.St) : CR (Mgr.St × Option Reply) :=
  if callbacks then do
    let x ← commandMeta C locked l s
    .ok (x.1, some x.2)
  else .ok (s, none)

/-! ### `meta info` -/

/-- What a plugin says about itself for `meta info`: its strings, whether it runs and what it wrote to `run_msg`, the number of its interface.
Pure virtual functions of `ISmmPlugin`, core/ISmmPlugin.h. -/
structure Says where
  name : Option (List Byte)
  author : Option (List Byte)
  version : Option (List Byte)
  description : Option (List Byte)
  license : Option (List Byte)
  url : Option (List Byte)
  date : Option (List Byte)
  api : List Byte
  runs : Bool
  wrote : Option (List Byte)

/-- `%s`: a NULL pointer is undefined behaviour. No counterpart in /repo: printf. -/
def pct (s : Option (List Byte)) : Except Flt (List Byte) :=
  match s with
  | none => .error (.mgr .nullDeref)
  | some t => .ok t

/-- `%s` of `run_msg`, which nothing but the plugin writes; core/metamod_console.cpp:322-334. -/
def pctMsg (s : Option (List Byte)) : Except Flt (List Byte) :=
  match s with
  | none => .error (.mgr .uninit)
  | some t => .ok t

/-- The line about the status, core/metamod_console.cpp:316-336; none for a plugin that is neither paused nor running. -/
def stateLine (num : List Byte) (st : Mgr.Status) (y : Says) : Except Flt (List (List Byte)) :=
  match st with
  | .uninit => .error (.mgr .uninit)
  | .paused => .ok [str "Plugin " ++ num ++ str " is paused.\n"]
  | .running =>
    if y.runs then .ok [str "Plugin " ++ num ++ str " is running.\n"]
    else do
      let t ← pctMsg y.wrote
      .ok [str "Plugin " ++ num ++ str " is stopped: " ++ t ++ [10]]
  | _ => .ok []

/-- The lines about the plugin, core/metamod_console.cpp:337-342. -/
def aboutLines (y : Says) : Except Flt (List (List Byte)) := do
  let name ← pct y.name
  let author ← pct y.author
  let version ← pct y.version
  let description ← pct y.description
  let license ← pct y.license
  let url ← pct y.url
  let date ← pct y.date
  .ok [str "  Name: \"" ++ name ++ str "\" by " ++ author ++ [10], str "  Version: " ++ version ++ [10], str "  Description: " ++ description ++ [10],
    str "  License: " ++ license ++ [10], str "  URL: " ++ url ++ [10], str "  Details: API " ++ y.api ++ str ", Date: " ++ date ++ [10]]

/-- `FindById` with the number that was read, core/metamod_console.cpp:302-303; no plugin has a negative one (core/metamod_plugins.cpp:192-205). -/
def findInt (s : Mgr.St) (id : Int) : Except Flt (Option Nat) :=
  if id < 0 then .ok none else liftM (Mgr.findById s id.toNat s.plugins)

/-- The lines of `meta info <id>` before they are printed; core/metamod_console.cpp:302-344.  `num` is the text of a number. -/
def infoLines (num : Int → List Byte) (y : Nat → Says) (x : List Byte) (s : Mgr.St) : Except Flt (List (List Byte)) := do
  let id := atoi x
  let o ← findInt s id
  match o with
  | none => .ok [str "Plugin " ++ num id ++ str " not found.\n"]
  | some o => do
    let p ← liftM (s.get o)
    match p.api with
    | none => .ok [str "Plugin " ++ num id ++ str " is not loaded.\n", str "File: " ++ p.file ++ [10, 10]]
    | some a => do
      let l ← stateLine (num id) p.status (y a)
      let ls ← aboutLines (y a)
      .ok (l ++ ls ++ [str "File: " ++ p.file ++ [10, 10]])

/-- `meta info <id>`, core/metamod_console.cpp:300-346. -/
def cmdInfo (b : Buf) (num : Int → List Byte) (y : Nat → Says) (x : List Byte) (s : Mgr.St) : Except Flt (List Msg) := do
  let ls ← infoLines num y x s
  says (conPrintf b) ls

/-! ### log messages of plugins -/

/-- `LogMsg`, core/metamod.cpp:567-577: `"[%s] %s"` with the tag of the plugin. -/
def logMsg (b : Buf) (tag : Option (List Byte)) (t : List Byte) (P : Provider) (s : Log) : Except Flt Log := do
  let t ← formatted b t
  let tag ← pct tag
  liftB (logMessage P (some ([91] ++ tag ++ [93, 32] ++ t)) [] s)

/-! ### what plugins are told about plugins -/

/-- What `Query` gives: the file, the status, the source; each only if it was asked for. Arguments at core/metamod_plugins.cpp:734. -/
structure Told where
  file : Option (List Byte)
  status : Option Mgr.Status
  source : Option Int
  deriving DecidableEq

/-- Reading `m_Status`; core/metamod_plugins.cpp:750. -/
def readStatus (st : Mgr.Status) : Mgr.R Mgr.Status :=
  match st with
  | .uninit => .error .uninit
  | st => .ok st

/-- `if (status != NULL) *status = pl->m_Status;`, core/metamod_plugins.cpp:748-751. -/
def askStatus (want : Bool) (st : Mgr.Status) : Mgr.R (Option Mgr.Status) :=
  if want then do
    let x ← readStatus st
    .ok (some x)
  else .ok none

/-- `Query`, core/metamod_plugins.cpp:734-759: which of the three are asked for. -/
def query (s : Mgr.St) (id : Nat) (file status source : Bool) : Mgr.R (Option Told) := do
  let o ← Mgr.findById s id s.plugins
  match o with
  | none => .ok none
  | some o => do
    let p ← s.get o
    let st ← askStatus status p.status
    .ok (some ⟨if file then some p.file else none, st, if source then some p.source else none⟩)

/-- `QueryHandle`, core/metamod_plugins.cpp:777-792. -/
def queryHandle (s : Mgr.St) (id : Nat) : Mgr.R (Option (Option Nat)) := do
  let o ← Mgr.findById s id s.plugins
  match o with
  | none => .ok none
  | some o => do
    let p ← s.get o
    .ok (some p.lib)

/-- `UTIL_Format(error, maxlength, "Plugin not valid")` if there is an array, core/metamod_plugins.cpp:767-770. -/
def notValid (err : Option (Buf × Nat)) : Except Flt (Option Buf × Bool) :=
  match err with
  | none => .ok (none, false)
  | some (b, n) => do
    let x ← liftB (format b n (some (str "Plugin not valid")) [])
    .ok (some x.1, false)

/-- `CPluginManager::QueryRunning`, core/metamod_plugins.cpp:761-775; `ask` is the plugin's own `QueryRunning`. -/
def queryRunning (ask : Nat → Option (Buf × Nat) → Except Flt (Option Buf × Bool)) (s : Mgr.St) (id : Nat) (err : Option (Buf × Nat)) : Except Flt (Option Buf × Bool) := do
  let o ← liftM (Mgr.findById s id s.plugins)
  match o with
  | none => notValid err
  | some o => do
    let p ← liftM (s.get o)
    match p.api with
    | none => notValid err
    | some a => ask a err

end Verif.Cmds
