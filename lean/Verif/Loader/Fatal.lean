import Verif.Loader.Backend
/-
`mm_LogFatal` of the loader with the part of `printf` its messages use (C104), the calls of it, and the report of a library that
cannot be loaded.

Simplified: standard output and the files are lists of bytes that take whatever is written; `localtime` succeeds.
-/
namespace Verif.Fatal
open Verif.C (Byte)
open Verif.Loader (bytes Backend libraryPath upToSlash)

/-- No counterpart in /repo: undefined behaviour, made visible. -/
inductive Bad
  | directive
  | missing
  | mismatch
  | uninit
  | badIndex
  deriving DecidableEq, Repr

/-- An argument of `printf`: an `int`, a text, or an array nothing was written to. No counterpart in /repo: arguments as at
loader/gamedll.cpp:379. -/
inductive Arg
  | int (n : Int)
  | str (s : List Byte)
  | raw
  deriving DecidableEq, Repr

/-- A number in decimal, by repeated division. No counterpart in /repo: the C library. -/
def dec (n : Nat) : List Byte := if n < 10 then [(48 + n).toUInt8] else dec (n / 10) ++ [(48 + n % 10).toUInt8]
termination_by n

/-- `%d`. No counterpart in /repo: the C library. -/
def showInt (n : Int) : List Byte := if n < 0 then 45 :: dec n.natAbs else dec n.natAbs

/-- `vprintf` for `%s`, `%d` and plain text; 37 is `%`, 115 `s`, 100 `d`. No counterpart in /repo: the C library, called at
loader/loader.cpp:57, 70. -/
def render : List Byte → List Arg → Except Bad (List Byte)
  | [], _ => .ok []
  | c :: f, as =>
    if c = 37 then
      match f with
      | [] => .error .directive
      | d :: f =>
        if d = 115 then
          match as with
          | [] => .error .missing
          | .int _ :: _ => .error .mismatch
          | .raw :: _ => .error .uninit
          | .str s :: as => do .ok (s ++ (← render f as))
        else if d = 100 then
          match as with
          | [] => .error .missing
          | .int n :: as => do .ok (showInt n ++ (← render f as))
          | .raw :: _ => .error .mismatch
          | .str _ :: _ => .error .mismatch
        else .error .directive
    else do .ok (c :: (← render f as))

/-- The fields of `struct tm` used: month from 0, year from 1900. No counterpart in /repo: the C library, loader/loader.cpp:65-66. -/
structure Tm where
  mon : Nat
  day : Nat
  year : Nat
  hour : Nat
  min : Nat
  sec : Nat
  deriving DecidableEq, Repr

/-- Two digits. No counterpart in /repo: `%m`, `%d`, `%H`, `%M`, `%S` of `strftime`. -/
def two (n : Nat) : List Byte := [(48 + n / 10).toUInt8, (48 + n % 10).toUInt8]

/-- `strftime(header, sizeof(header), "%m/%d/%Y - %H:%M:%S", …)`: `none` if it does not fit. loader/loader.cpp:66. -/
def strftime (cap : Nat) (t : Tm) : Option (List Byte) :=
  let s := two (t.mon + 1) ++ [47] ++ two t.day ++ [47] ++ dec (t.year + 1900) ++ [32, 45, 32] ++ two t.hour ++ [58] ++ two t.min ++
    [58] ++ two t.sec
  if s.length < cap then some s else none

/-- What is outside: standard output, and for each name whether it can be opened for appending and what the file holds.
loader/loader.cpp:55-75. -/
structure World where
  out : List Byte
  can : List Byte → Bool
  disk : List Byte → List Byte

/-- `fprintf` to a file opened with "at". loader/loader.cpp:67-73. -/
def World.append (w : World) (name t : List Byte) : World := { w with disk := fun n => if n = name then w.disk n ++ t else w.disk n }

/-- `mm_LogFatal`; `logfile` is `mm_fatal_logfile`. loader/loader.cpp:47-76. -/
def logFatal (logfile : List Byte) (t : Tm) (fmt : List Byte) (args : List Arg) (w : World) : Except Bad World := do
  let text ← render fmt args
  let w := { w with out := w.out ++ bytes "MMS: Fatal error: " ++ text ++ [10] }
  let fp := if w.can logfile then some logfile
    else if w.can (bytes "metamod-fatal.log") then some (bytes "metamod-fatal.log") else none
  match fp with
  | none => .ok w
  | some name =>
    match strftime 256 t with
    | none => .error .uninit
    | some header => do
      let w := w.append name (bytes "L " ++ header ++ bytes ": ")
      let text ← render fmt args
      let w := w.append name text
      .ok (w.append name [10])

/-- The kinds of the arguments. No counterpart in /repo. -/
inductive Kind
  | int | str
  deriving DecidableEq, Repr

/-- The calls of `mm_LogFatal`: the format and what is passed. loader/gamedll.cpp:99, 105, 120, 214, 379, 388, 410, 474, 480, 489, 515,
767, 892, loader/serverplugin.cpp:101, 170, 183, 204. -/
def calls : List (String × List Kind) :=
  [("Could not locate Metamod loader library path", []),
   ("Could not resolve path: %s", [.str]),
   ("Could not read file: %s", [.str]),
   ("Could not detect any valid game paths in gameinfo file", []),
   ("Detected engine %d but could not load: %s", [.int, .str]),
   ("Detected engine %d but could not find GetGameDllBridge callback", [.int]),
   ("Unknown error loading Metamod for engine %d: %s", [.int, .str]),
   ("Could not detect engine version", []),
   ("Detected engine %d but could not load: %s", [.int, .str]),
   ("Detected engine %d but could not find GetGameDllBridge callback", [.int]),
   ("Unknown error loading Metamod for engine %d: %s", [.int, .str]),
   ("Metamod:Source requires -dedicated or -insecure on the command line to be able to load", []),
   ("Received interface request too early: %s", [.str]),
   ("Could not detect engine version", []),
   ("Detected engine %d but could not load: %s", [.int, .str]),
   ("Detected engine %d but could not find GetVspBridge callback", [.int]),
   ("Unknown error loading Metamod for engine %d: %s", [.int, .str])]

/-- The name of the log file: `mm_Format(mm_fatal_logfile, sizeof(mm_fatal_logfile), "%smetamod-fatal.log", mm_path)`, `mm_path` ending
behind its last slash; `cap` is `sizeof(mm_path)`, `lcap` that of `mm_fatal_logfile`. loader/loader.cpp:44, 128-144. -/
def logName (cap lcap : Nat) (own : Option (List Byte)) : Option (List Byte) := do
  let d ← upToSlash ((← own).take (cap - 1))
  some ((d ++ bytes "metamod-fatal.log").take (lcap - 1))

/-- `mm_LoadMetamodLibrary` as the callers see it: whether the library is open, what is in their array `error` of 255 bytes, which
is not initialised, and the name of the log file, `logfile` before; `dlopen` (external): `none` if it succeeds, else the text of
`dlerror`. loader/loader.cpp:121-157, loader/utility.cpp:312-335, loader/gamedll.cpp:376-377. -/
def loadLibrary (cap lcap : Nat) (own : Option (List Byte)) (dlopen : List Byte → Option (List Byte)) (b : Backend)
    (logfile : List Byte) : Except Bad (Bool × Arg × List Byte) :=
  let log := (logName cap lcap own).getD logfile
  match libraryPath cap own b with
  | .fail => .ok (false, .raw, log)
  | .badIndex => .error .badIndex
  | .path p =>
    match dlopen p with
    | none => .ok (true, .raw, log)
    | some t => .ok (false, .str (t.take 254), log)

/-- A library that cannot be loaded is reported; the result has whether it is open, the name of the log file and what was written.
loader/gamedll.cpp:377-380, 478-481, loader/serverplugin.cpp:168-171. -/
def loadOrReport (cap lcap : Nat) (own : Option (List Byte)) (dlopen : List Byte → Option (List Byte)) (b : Backend)
    (logfile : List Byte) (t : Tm) (w : World) : Except Bad (Bool × List Byte × World) := do
  let (ok, error, log) ← loadLibrary cap lcap own dlopen b logfile
  if ok then .ok (true, log, w)
  else do
    let w ← logFatal log t (bytes "Detected engine %d but could not load: %s") [.int b.idx, error] w
    .ok (false, log, w)

end Verif.Fatal
