import Verif.C.Buf
/-
Bounded formatting, pattern search and command line lookup (core/metamod_util.cpp, loader/utility.cpp).
-/
namespace Verif.Util
open Verif.C

/-- The largest `size_t`. No counterpart in /repo. -/
def sizeMax : Nat := 2 ^ 64 - 1

/-- `vsnprintf(b, n, …)` (external): `out` is the full text, or `none` when it fails and returns -1
(converted to `size_t`), in which case any bytes may have been written inside the first `n`. -/
def vsnprintf (b : Buf) (n : Nat) (out : Option (List Byte)) (junk : List Byte) : R (Buf × Nat) :=
  match out with
  | some t => if n = 0 then .ok (b, t.length) else do
      let b ← wrs b 0 (t.take (n - 1) ++ [0])
      .ok (b, t.length)
  | none => do
      let b ← wrs b 0 (junk.take n)
      .ok (b, sizeMax)

/-- `UTIL_Format` / `UTIL_FormatArgs`, metamod_util.cpp:161-189; `mm_Format` / `mm_FormatArgs`,
loader/utility.cpp:65-90.  `maxlength - 1` wraps for 0. -/
def format (b : Buf) (maxlength : Nat) (out : Option (List Byte)) (junk : List Byte) : R (Buf × Nat) := do
  let (b, len) ← vsnprintf b maxlength out junk
  if len ≥ maxlength then do
    let len := if maxlength = 0 then sizeMax else maxlength - 1
    let b ← wr b len 0
    .ok (b, len)
  else .ok (b, len)

/-- The loop of `mm_PathFormat`, loader/utility.cpp:102-106 (ALT_SEP_CHAR is `\`). -/
def fixSeps (b : Buf) (len i : Nat) : R Buf :=
  if i < len then do
    let c ← rd b i
    let b ← if c = 92 then wr b i 47 else .ok b
    fixSeps b len (i + 1)
  else .ok b
termination_by len - i

/-- `mm_PathFormat`, loader/utility.cpp:92-109. -/
def pathFormat (b : Buf) (maxlength : Nat) (out : Option (List Byte)) (junk : List Byte) : R (Buf × Nat) := do
  let (b, len) ← format b maxlength out junk
  let b ← fixSeps b len 0
  .ok (b, len)

/-- The comparison loop of `UTIL_VerifySignature`, metamod_util.cpp:345-359. -/
def verifySignature (addr sig : Buf) (len i : Nat) : R Bool :=
  if i < len then do
    let s ← rd sig i
    if s = 0x2A then verifySignature addr sig len (i + 1)
    else do
      let a ← rd addr i
      if a ≠ s then .ok false else verifySignature addr sig len (i + 1)
  else .ok true
termination_by len - i

/-- The inner loop of `mm_FindPattern`, loader/utility.cpp:655-662: the pattern at `ptr`. Reading an unmapped byte is a fault. -/
def matchAt (mem : Nat → Option Byte) : List Byte → Nat → R Bool
  | [], _ => .ok true
  | c :: pat, ptr =>
    if c = 0x2A then matchAt mem pat (ptr + 1)
    else match mem ptr with
      | none => .error .outOfBounds
      | some x => if c ≠ x then .ok false else matchAt mem pat (ptr + 1)

/-- `while (ptr < end)`, loader/utility.cpp:652-667. -/
def findIn (mem : Nat → Option Byte) (pat : List Byte) (ptr stop : Nat) : R (Option Nat) :=
  if ptr < stop then do
    let found ← matchAt mem pat ptr
    if found then .ok (some ptr) else findIn mem pat (ptr + 1) stop
  else .ok none
termination_by stop - ptr

/-- `mm_FindPattern`, loader/utility.cpp:636-671, for the searchable ranges that `mm_GetLibraryInfo` (external)
found.  `search.second - len` is computed modulo 2^64. -/
def findPattern (mem : Nat → Option Byte) (pat : List Byte) : List (Nat × Nat) → R (Option Nat)
  | [] => .ok none
  | (b, e) :: rest => do
    match ← findIn mem pat b ((e + 2 ^ 64 - pat.length) % 2 ^ 64) with
    | some p => .ok (some p)
    | none => findPattern mem pat rest

/-- `getdelim(…, 0, …)` repeated: the arguments in the bytes of /proc/self/cmdline. -/
def getArgs : List Byte → List Byte → List (List Byte)
  | cur, [] => if cur = [] then [] else [cur]
  | cur, c :: s => if c = 0 then cur :: getArgs [] s else getArgs (cur ++ [c]) s

/-- `strncpy(buffer, arg, maxlength); buffer[maxlength - 1] = 0`, loader/utility.cpp:737-738. -/
def copyArg (b : Buf) (maxlength : Nat) (arg : List Byte) : R Buf := do
  let b ← wrs b 0 (arg.take maxlength ++ List.replicate (maxlength - arg.length) 0)
  wr b (if maxlength = 0 then sizeMax else maxlength - 1) 0

/-- The argument loop of `mm_GetCommandArgument`, loader/utility.cpp:730-751; `buf` is `none` for a NULL buffer. -/
def argLoop (name : List Byte) (maxlength : Nat) : List (List Byte) → Bool → Option Buf → R (Bool × Option Buf)
  | [], next, buf => .ok (next, buf)
  | arg :: args, next, buf =>
    if next then
      match buf with
      | some b => if arg.head? ≠ some 45 then do
          let b ← copyArg b maxlength arg
          .ok (true, some b)
        else .ok (true, some b)
      | none => .ok (true, none)
    else argLoop name maxlength args (arg == name) buf

/-- `mm_GetCommandArgument` (Linux), loader/utility.cpp:673-763; `cmdline` is the file's content, `none` if it cannot be opened. -/
def getCommandArgument (cmdline : Option (List Byte)) (name : List Byte) (buf : Option Buf) (maxlength : Nat) : R (Bool × Option Buf) := do
  let buf ← match buf with
    | none => .ok none
    | some b => do
      let b ← wr b 0 0
      .ok (some b)
  match cmdline with
  | none => .ok (false, buf)
  | some c => argLoop name maxlength (getArgs [] c) false buf

end Verif.Util
