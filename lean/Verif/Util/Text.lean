import Verif.C.Buf
/-
Text helpers of core/metamod_util.cpp and loader/utility.cpp on C buffers: trimming, comment
stripping and key/value splitting.
-/
namespace Verif.Util
open Verif.C

/-- `ltrim`, metamod_util.cpp:75-79. -/
def ltrim (s : List Byte) : List Byte := s.dropWhile isspace

/-- `rtrim`, metamod_util.cpp:82-86: erases from behind the last character that is no white space. -/
def rtrim (s : List Byte) : List Byte := (s.reverse.dropWhile isspace).reverse

/-- `UTIL_TrimLeft`, metamod_util.cpp:88-93. -/
def utilTrimLeft (b : Buf) : R Buf := do
  let s ← cstr b 0
  strcpy b 0 (ltrim s)

/-- `UTIL_TrimRight`, metamod_util.cpp:95-100. -/
def utilTrimRight (b : Buf) : R Buf := do
  let s ← cstr b 0
  strcpy b 0 (rtrim s)

/-- `while (isspace(*i)) i++`, loader/utility.cpp:121-122. -/
def skipSpace (b : Buf) (i : Nat) : R Nat :=
  if h : i < b.length then
    if isspace b[i] then skipSpace b (i + 1) else .ok i
  else .error .outOfBounds
termination_by b.length - i

/-- `mm_TrimLeft`, loader/utility.cpp:111-128 (non-null buffer). -/
def mmTrimLeft (b : Buf) : R Buf := do
  let c ← rd b 0
  if c = 0 then .ok b
  else do
    let i ← skipSpace b 0
    if i = 0 then .ok b
    else do
      let n ← strlen b i
      wrs b 0 ((b.drop i).take (n + 1))

/-- The loop of `mm_TrimRight`, loader/utility.cpp:139-145.  The argument is `i + 1`; 0 stands for
`i = SIZE_MAX` after the decrement of 0, for which `i < len` is false. -/
def trimRightLoop (b : Buf) : Nat → R Buf
  | 0 => .ok b
  | i + 1 => do
    let c ← rd b i
    if isspace c then do
      let b ← wr b i 0
      trimRightLoop b i
    else .ok b

/-- `mm_TrimRight`, loader/utility.cpp:130-147 (non-null buffer). -/
def mmTrimRight (b : Buf) : R Buf := do
  let n ← strlen b 0
  trimRightLoop b n

/-- The loop of `mm_TrimComments`, loader/utility.cpp:157-171. -/
def commentLoop (b : Buf) (len i numSc : Nat) : R Buf :=
  if i < len then do
    let c ← rd b i
    if c = 47 then
      if numSc + 1 ≥ 2 then wr b (i - 1) 0
      else commentLoop b len (i + 1) (numSc + 1)
    else commentLoop b len (i + 1) 0
  else .ok b
termination_by len - i

/-- `mm_TrimComments`, loader/utility.cpp:150-173 (non-null buffer). -/
def mmTrimComments (b : Buf) : R Buf := do
  let n ← strlen b 0
  commentLoop b n 0 0

/-- `for (; start < len; start++) if (isspace(str[start]) == stop) break;`, loader/utility.cpp:181-192, 203-207. -/
def scan (b : Buf) (len : Nat) (stop : Bool) (i : Nat) : R Nat :=
  if i < len then do
    let c ← rd b i
    if isspace c = stop then .ok i else scan b len stop (i + 1)
  else .ok i
termination_by len - i

/-- `for (; i < end; i++, c++) { if (c >= n) break; out[c] = str[i]; }  out[c] = 0`,
loader/utility.cpp:194-201 and 209-215. -/
def copyOut (str : Buf) (stop n i c : Nat) (out : Buf) : R Buf :=
  if i < stop then
    if c ≥ n then wr out c 0
    else do
      let x ← rd str i
      let out ← wr out c x
      copyOut str stop n (i + 1) (c + 1) out
  else wr out c 0
termination_by stop - i

/-- `mm_KeySplit`, loader/utility.cpp:175-216.  The two buffers are the objects the pointers point to;
the sizes passed are separate arguments. -/
def mmKeySplit (str buf1 : Buf) (len1 : Nat) (buf2 : Buf) (len2 : Nat) : R (Buf × Buf) := do
  let len ← strlen str 0
  let start ← scan str len false 0
  let stop ← scan str len true start
  let buf1 ← copyOut str stop len1 start 0 buf1
  let start2 ← scan str len false stop
  let buf2 ← copyOut str len len2 start2 0 buf2
  .ok (buf1, buf2)

end Verif.Util
