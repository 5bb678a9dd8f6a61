import Verif.Util.Misc
import Verif.Mgr.Model
/-
What is shown: the lines of `meta list` and of the players' `meta list` (core/metamod_console.cpp), log messages
(core/metamod.cpp).
* `%s` and `%02d` are what printf makes of them; the text of a number is a parameter.
* A plugin's strings do not change between calls, and asking for them has no other effect; `QueryRunning` too.
* `IS_STR_FILLED` is core/metamod_util.h:50; `none` is a NULL pointer.
-/
namespace Verif.Report

open Verif.C Verif.Util

/-- `UTIL_Format(&buffer[len], n, …)`; the text printed is `t`.
`UTIL_Format` is core/metamod_util.cpp:161-176, called at core/metamod_console.cpp:199-215. -/
def formatAt (b : Buf) (len n : Nat) (t : List Byte) : R (Buf × Nat) := do
  let (b', k) ← format (b.drop len) n (some t) []
  .ok (b.take len ++ b', len + k)

/-- What a plugin says about itself. Pure virtual functions of `ISmmPlugin`, core/ISmmPlugin.h. -/
structure Info where
  name : Option (List Byte)
  version : Option (List Byte)
  author : Option (List Byte)
  /-- `QueryRunning(NULL, 0)`. -/
  runs : Bool

/-- `IS_STR_FILLED`, core/metamod_util.h:50. -/
def filled : Option (List Byte) → Bool
  | none => false
  | some s => !s.isEmpty

/-- `UTIL_Format(&buffer[len], sizeof(buffer)-len, "…%s…", s)` if the string is filled. As at core/metamod_console.cpp:206-215. -/
def part (b : Buf) (len : Nat) (pre : List Byte) (s : Option (List Byte)) (post : List Byte) : R (Buf × Nat) :=
  if filled s then formatAt b len (256 - len) (pre ++ s.getD [] ++ post) else .ok (b, len)

/-- `plname`, `GetVersion`, `GetAuthor`: core/metamod_console.cpp:204-217 and 687-697. -/
def about (b : Buf) (len : Nat) (i : Info) (file : List Byte) : R Buf := do
  let (b, len) ← formatAt b len (256 - len) (32 :: (if filled i.name then i.name.getD [] else file))
  let (b, len) ← part b len [32, 40] i.version [41]
  let (b, _) ← part b len [32, 98, 121, 32] i.author []
  .ok b

/-- `GetStatusText`, core/metamod_plugins.cpp:364-388; a status that was never set is read. -/
def statusText (st : Mgr.Status) (i : Option Info) : Except Mgr.Fault (List Byte) :=
  match st with
  | .notFound => .ok [78, 79, 70, 73, 76, 69]
  | .error => .ok [69, 82, 82, 79, 82]
  | .refused => .ok [70, 65, 73, 76, 69, 68]
  | .paused => .ok [80, 65, 85, 83, 69, 68]
  | .running => .ok (if (i.map Info.runs).getD false then [83, 84, 79, 80, 80, 69, 68] else [82, 85, 78, 78, 73, 78, 71])
  | .uninit => .error .uninit

/-- `"  [%02d]"`, with `" <%s>"` for a status. -/
def headText (num : List Byte) (st : Option (List Byte)) : List Byte :=
  [32, 32, 91] ++ num ++ [93] ++ (match st with | none => [] | some t => [32, 60] ++ t ++ [62])

/-- `if ((plapi = pl->m_API)) …`, core/metamod_console.cpp:204. -/
def aboutOpt (b : Buf) (len : Nat) (i : Option Info) (file : List Byte) : R Buf :=
  match i with
  | none => .ok b
  | some i => about b len i file

/-- One line: `buffer` before it is printed; core/metamod_console.cpp:195-219, 685-699. -/
def listLine (b : Buf) (num : List Byte) (st : Option (List Byte)) (i : Option Info) (file : List Byte) : R (List Byte) := do
  let (b, len) ← formatAt b 0 256 (headText num st)
  let b ← aboutOpt b len i file
  cstr b 0

/-- No counterpart in /repo: undefined behaviour, made visible. -/
inductive Flt
  | mgr (e : Mgr.Fault)
  | buf (e : C.Fault)
  deriving DecidableEq

/-- What is around: the text of a number, what the plugin objects say, `buffer`.
No counterpart in /repo: the surroundings of core/metamod_console.cpp as parameters. -/
structure Env where
  num : Nat → List Byte
  info : Nat → Info
  buf : Buf

/-- No counterpart in /repo. -/
def liftB {α : Type} : R α → Except Flt α
  | .ok a => .ok a
  | .error e => .error (.buf e)

/-- No counterpart in /repo. -/
def liftM {α : Type} : Mgr.R α → Except Flt α
  | .ok a => .ok a
  | .error e => .error (.mgr e)

/-- The text for a status that is not Pl_Running, core/metamod_console.cpp:197-202. -/
def statusPart (p : Mgr.Plug) (i : Option Info) : Mgr.R (Option (List Byte)) :=
  match p.status with
  | .running => .ok none
  | .uninit => .error .uninit
  | st => do
    let t ← statusText st i
    .ok (some t)

/-- The loop of `meta list`, core/metamod_console.cpp:187-220. -/
def listLoop (E : Env) (s : Mgr.St) : List Nat → Except Flt (List (List Byte))
  | [] => .ok []
  | o :: os => do
    let p ← liftM (s.get o)
    let st ← liftM (statusPart p (p.api.map E.info))
    let l ← liftB (listLine E.buf (E.num p.id) st (p.api.map E.info) p.file)
    let ls ← listLoop E s os
    .ok (l :: ls)

/-- What `meta list` prints: how many plugins (none is "No plugins loaded."), the lines; core/metamod_console.cpp:169-223. -/
def list (E : Env) (s : Mgr.St) : Except Flt (Nat × List (List Byte)) :=
  if s.plugins.length = 0 then .ok (0, [])
  else do
    let ls ← listLoop E s s.plugins
    .ok (s.plugins.length, ls)

/-- The loop of a player's `meta list`, core/metamod_console.cpp:679-701. -/
def clientLoop (E : Env) (s : Mgr.St) (plnum : Nat) : List Nat → Except Flt (List (List Byte))
  | [] => .ok []
  | o :: os => do
    let p ← liftM (s.get o)
    let r ← liftM (Mgr.statusIs .running p.status)
    match p.api with
    | none => clientLoop E s plnum os
    | some a =>
      if r && (E.info a).runs then do
        let l ← liftB (listLine E.buf (E.num (plnum + 1)) none (some (E.info a)) p.file)
        let ls ← clientLoop E s (plnum + 1) os
        .ok (l :: ls)
      else clientLoop E s plnum os

/-! ### log messages -/

/-- Who is told. Who is told at core/metamod.cpp:435-474. -/
inductive Sink | engine | stdout | console
  deriving DecidableEq, Repr

/-- `g_logging`, the static `buffer`, what was told so far. core/metamod.cpp:435-474. -/
structure Log where
  logging : Bool
  buffer : Buf
  told : List (Sink × List Byte)

/-- `provider->LogMessage(buffer)`: the engine is told; what happens meanwhile, whether it takes the message.
Called at core/metamod.cpp:460. -/
abbrev Provider := Log → R (Log × Bool)

/-- `SaveAndSet<bool>(&g_logging, true);`, core/metamod.cpp:416-433, 443: the object has no name, so that it is destroyed at once and puts the
old value back. -/
def saveAndSet (s : Log) : Log :=
  let old := s.logging
  let s := { s with logging := true }
  { s with logging := old }

/-- A message to one who is told. No counterpart in /repo: the external functions called at core/metamod.cpp:460-470. -/
def tell (k : Sink) (s : Log) : R Log := do
  let t ← cstr s.buffer 0
  .ok { s with told := s.told ++ [(k, t)] }

/-- `if (!provider->LogMessage(buffer)) fprintf(stdout, "%s", buffer);`, core/metamod.cpp:460-463. -/
def orStdout (taken : Bool) (s : Log) : R Log := if taken then .ok s else tell .stdout s

/-- `mm_LogMessage`, core/metamod.cpp:435-467.  `out` is the text, `none` an error of vsnprintf, which may leave anything of at most 2045
bytes; -1 is SIZE_MAX as `len` has no sign. -/
def logMessage (P : Provider) (out : Option (List Byte)) (junk : List Byte) (s : Log) : R Log :=
  if s.logging then .ok s
  else do
    let s := saveAndSet s
    let (b, len) ← vsnprintf s.buffer 2046 out junk
    let len := min len 2046
    let b ← wr b len 10
    let b ← wr b (len + 1) 0
    let s ← tell .engine { s with buffer := b }
    let (s, taken) ← P s
    let s ← orStdout taken s
    tell .console s

end Verif.Report
