import Verif.C.Buf
/-
Interface name handling: FormatIface, InterfaceSearch, VInterfaceMatch (core/metamod.cpp).
-/
namespace Verif.Util
open Verif.C

/-- The scan for the last non-digit, metamod.cpp:659-669.  Argument and result are `i + 1`; result 0 means the
loop ran off the start (`i = SIZE_MAX`). -/
def lastNonDigit (b : Buf) : Nat → R Nat
  | 0 => .ok 0
  | k + 1 => do
    let c ← rd b k
    if isdigit c then lastNonDigit b k else .ok (k + 1)

/-- `atoi` on leading digits.  Values beyond `int` are undefined. No counterpart in /repo: the C library. -/
def atoiLoop : Nat → List Byte → R Nat
  | acc, [] => .ok acc
  | acc, c :: s =>
    if isdigit c then
      let v := acc * 10 + (c.toNat - 48)
      if v < 2 ^ 31 then atoiLoop v s else .error .overflow
    else .ok acc

/-- The decimal digits of a number. No counterpart in /repo: the C library (`%d`). -/
def dec (n : Nat) : List Byte :=
  if n < 10 then [UInt8.ofNat (48 + n)] else dec (n / 10) ++ [UInt8.ofNat (48 + n % 10)]
decreasing_by omega

/-- `"%03d"`. -/
def pad3 (n : Nat) : List Byte := List.replicate (3 - (dec n).length) 48 ++ dec n

/-- `MetamodSource::FormatIface`, metamod.cpp:653-686.  Result: the buffer and the returned number (-1: too small). -/
def formatIface (b : Buf) (maxlength : Nat) : R (Buf × Int) := do
  let length ← strlen b 0
  let k ← lastNonDigit b length
  let num := k ≠ 0 ∧ k ≠ length
  if (num ∧ maxlength ≤ length) ∨ (¬ num ∧ maxlength ≤ length + 3) then .ok (b, -1)
  else do
    let n ← if k ≠ length then atoiLoop 0 (b.drop k) else .ok 0
    if n + 1 < 2 ^ 31 then do
      let i := if k ≠ length then k else if k = 0 then 2 ^ 64 - 1 else k - 1
      let b ← wrs b i ((pad3 (n + 1)).take 3 ++ [0])
      .ok (b, n + 1)
    else .error .overflow

/-- The state of the search loop: the name buffer, `num`, and the names tried (newest first). The locals of core/metamod.cpp:688-724. -/
structure Search where
  buf : Buf
  num : Int
  tried : List (List Byte)

/-- One round of the loop of `InterfaceSearch`, metamod.cpp:710-720; `fn i name` is the factory's answer to call `i`
(external).  `inl` = the result, `inr` = another round. -/
def searchRound (fn : Nat → List Byte → Option Nat) (len : Nat) (max : Int) (s : Search) : R ((Option Nat × List (List Byte)) ⊕ Search) := do
  let name ← cstr s.buf 0
  let tried := name :: s.tried
  match fn s.tried.length name with
  | some p => .ok (.inl (some p, tried))
  | none =>
    if s.num > max then .ok (.inl (none, tried))
    else do
      let (buf, num) ← formatIface s.buf (len + 1)
      if num ≠ 0 then .ok (.inr ⟨buf, num, tried⟩)
      else .ok (.inl (none, tried))

/-- The loop with a bound on the number of rounds; `none` = not finished within it. The loop of core/metamod.cpp:688-724. -/
def searchLoop (fn : Nat → List Byte → Option Nat) (len : Nat) (max : Int) : Nat → Search → R (Option (Option Nat × List (List Byte)))
  | 0, _ => .ok none
  | n + 1, s => do
    match ← searchRound fn len max s with
    | .inl r => .ok (some r)
    | .inr s => searchLoop fn len max n s

/-- `MetamodSource::InterfaceSearch`, metamod.cpp:688-724, for a name; `junk` is the uninitialised tail of `_if`. -/
def interfaceSearch (fn : Nat → List Byte → Option Nat) (iface : List Byte) (max : Int) (junk : List Byte) (rounds : Nat) :
    R (Option (Option Nat × List (List Byte))) :=
  let max := if max > 999 then 999 else max
  if iface.length + 4 > 256 then .ok (some (none, []))
  else searchLoop fn iface.length max rounds ⟨iface ++ 0 :: junk.take (255 - iface.length), 0, []⟩

/-- The digit stripping loop of `VInterfaceMatch`, metamod.cpp:739-746, on the reversed string; reading before
the first character is a fault.  Result: digits removed and what is left (reversed). -/
def stripDigits : Nat → List Byte → R (Nat × List Byte)
  | _, [] => .error .outOfBounds
  | digits, c :: s => if isdigit c ∧ digits ≤ 3 then stripDigits (digits + 1) s else .ok (digits, c :: s)

/-- `MetamodSource::VInterfaceMatch`, metamod.cpp:726-764: the name the search starts from (`none`: refused),
for `min` of at least -1.  `*ptr` is read before `digits` is tested, so stripping reads one character before a name of digits only. -/
def vInterfaceName (iface : List Byte) (min : Int) : R (Option (List Byte)) :=
  if iface.length > 256 - 4 then .ok none
  else if min = -1 then .ok (some iface)
  else do
    let (digits, rest) ← stripDigits 0 iface.reverse
    if digits ≠ 3 then .ok (some iface)
    else
      let min := if min = 0 then 1 else min
      .ok (some (rest.reverse ++ (pad3 min.toNat).take 3))

end Verif.Util
