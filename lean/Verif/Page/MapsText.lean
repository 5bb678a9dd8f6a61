import Verif.C.Buf
import Verif.Page.Mem
/-
The text of /proc/self/maps as `GetPageBits` and `ModuleInMemory` read it, core/sourcehook/sh_memory.h (Linux branches).

* The file is the list of its bytes; `getline` hands over one line after the other in a buffer that it enlarges as needed
  and never clears.  The buffer is taken to have the size that was needed so far: the C library may give more.
* `strtoul` is the C library's with base 16: white space, a sign, `0x`, digits; `W` is the width of `unsigned long`.
-/
namespace Verif.Maps
open Verif.C Verif.Page

/-- The lines `getline` returns one after the other, each with its newline; the last may have none.
As called at core/sourcehook/sh_memory.h:75, 286. -/
def linesOf : List Byte → List (List Byte)
  | [] => []
  | c :: cs => if c = 10 then [10] :: linesOf cs else
    match linesOf cs with
    | [] => [[c]]
    | l :: ls => (c :: l) :: ls

/-- What `getline` leaves in the buffer that held `old`: the line, its NUL, and what was behind it.
As called at core/sourcehook/sh_memory.h:75, 286. -/
def fill (old line : Buf) : Buf := line ++ 0 :: old.drop (line.length + 1)

/-- The value of a hexadecimal digit. No counterpart in /repo: part of the C library's `strtoul`. -/
def hexDigit (c : Byte) : Option Nat :=
  if 48 ≤ c && c ≤ 57 then some (c.toNat - 48)
  else if 97 ≤ c && c ≤ 102 then some (c.toNat - 87)
  else if 65 ≤ c && c ≤ 70 then some (c.toNat - 55)
  else none

/-- The white space `strtoul` skips. No counterpart in /repo: part of the C library's `strtoul`. -/
def skipSpace (b : Buf) (i : Nat) : R Nat :=
  if h : i < b.length then
    if isspace b[i] then skipSpace b (i + 1) else .ok i
  else .error .outOfBounds
termination_by b.length - i

/-- The digits from `i` on: the value so far and the place after the last. No counterpart in /repo: part of the C library's `strtoul`. -/
def digitsFrom (b : Buf) (i acc : Nat) : R (Nat × Nat) :=
  if h : i < b.length then
    match hexDigit b[i] with
    | some d => digitsFrom b (i + 1) (acc * 16 + d)
    | none => .ok (acc, i)
  else .error .outOfBounds
termination_by b.length - i

/-- A sign: whether it is a minus, and the place after it. No counterpart in /repo: part of the C library's `strtoul`. -/
def sign (b : Buf) (i : Nat) : R (Bool × Nat) := do
  let c ← rd b i
  .ok (if c = 45 then (true, i + 1) else if c = 43 then (false, i + 1) else (false, i))

/-- Whether `0x` or `0X` stands at `i`. No counterpart in /repo: part of the C library's `strtoul`. -/
def hexPrefix (b : Buf) (i : Nat) : R Bool := do
  let c ← rd b i
  if c = 48 then
    let d ← rd b (i + 1)
    .ok (d == 120 || d == 88)
  else .ok false

/-- The number and the end of it: too large values give the largest one, a minus negates modulo `2 ^ W`.
No counterpart in /repo: part of the C library's `strtoul`. -/
def clip (W : Nat) (neg : Bool) (n : Nat) : Nat :=
  if 2 ^ W ≤ n then 2 ^ W - 1 else if neg then (2 ^ W - n) % 2 ^ W else n

/-- `strtoul(&b[start], &end, 16)`: the value and `end`.  Without a digit the end is the start, or behind the `0` of `0x`.
As called at core/sourcehook/sh_memory.h:78-79, 288-289. -/
def strtoul16 (W : Nat) (b : Buf) (start : Nat) : R (Nat × Nat) := do
  let i ← skipSpace b start
  let (neg, i) ← sign b i
  let p ← hexPrefix b i
  let j := if p then i + 2 else i
  let (n, e) ← digitsFrom b j 0
  if e = j then .ok (0, if p then i + 1 else start) else .ok (clip W neg n, e)

/-- The three flags, core/sourcehook/sh_memory.h:82-91. -/
def flagsAt (b : Buf) (e : Nat) : R Bits := do
  let r ← rd b (e + 1)
  let w ← rd b (e + 2)
  let x ← rd b (e + 3)
  .ok { r := r == 114, w := w == 119, x := x == 120 }

/-- The two bounds of a line and the end of the second, core/sourcehook/sh_memory.h:78-79 and 288-289. -/
def bounds (W : Nat) (b : Buf) : R (Nat × Nat × Nat) := do
  let (lo, e) ← strtoul16 W b 0
  let (hi, e) ← strtoul16 W b (e + 1)
  .ok (lo, hi, e)

/-- The loop of `GetPageBits`, core/sourcehook/sh_memory.h:75-97; `old` is what the buffer holds. -/
def readBits (W addr : Nat) : Buf → List (List Byte) → R (Option Bits)
  | _, [] => .ok none
  | old, l :: ls => do
    let (lo, hi, e) ← bounds W (fill old l)
    if lo ≤ addr ∧ addr < hi then (flagsAt (fill old l) e).map some
    else readBits W addr (fill old l) ls

/-- `GetPageBits` with /proc/self/maps, core/sourcehook/sh_memory.h:60-101: the buffer begins as `NULL`, with size 0. -/
def pageBitsText (W addr : Nat) (file : List Byte) : R (Option Bits) := readBits W addr [] (linesOf file)

/-- The loop of `ModuleInMemory`, core/sourcehook/sh_memory.h:286-296. -/
def readModule (W lower upper : Nat) : Buf → List (List Byte) → R Bool
  | _, [] => .ok false
  | old, l :: ls => do
    let (lo, hi, _) ← bounds W (fill old l)
    if lo ≤ lower ∧ upper ≤ hi then .ok true else readModule W lower upper (fill old l) ls

/-- `ModuleInMemory` with /proc/self/maps, core/sourcehook/sh_memory.h:266-300; `lower + len` is an `unsigned long`. -/
def moduleText (W addr len : Nat) (file : List Byte) : R Bool :=
  readModule W addr ((addr + len) % 2 ^ W) [] (linesOf file)

/-- `MakePageWritable` with /proc/self/maps, core/sourcehook/sh_memory.h:220-231. -/
def makeWritableText (k : Nat) (file : List Byte) (prot : Nat → Option Bits) (addr : Nat) : R ((Nat → Option Bits) × Bool) := do
  match ← pageBitsText 64 addr file with
  | some b => if b.w then .ok (prot, true) else .ok (setMemAccess k prot addr 8 { b with w := true })
  | none => .ok (setMemAccess k prot addr 8 { r := true, w := true, x := true })

/-! Specification: what the kernel writes into the file. -/

/-- A mapping: its first byte, the byte after its last, what is allowed, and the rest of its line (the fourth flag, the
offset, device, inode and path).  No counterpart in /repo: the operating system. -/
structure Mapping where
  lo : Nat
  hi : Nat
  bits : Bits
  rest : List Byte
  deriving Repr

/-- Specification: a hexadecimal digit as the kernel writes it. No counterpart in /repo. -/
def digitChar (d : Nat) : Byte := if d < 10 then (48 + d).toUInt8 else (87 + d).toUInt8

/-- Specification: the hexadecimal digits of a number, the first not 0 unless it is the only one. No counterpart in /repo. -/
def hexText (n : Nat) : List Byte := if n < 16 then [digitChar n] else hexText (n / 16) ++ [digitChar (n % 16)]
termination_by n

/-- Specification: a number as the kernel writes it, with zeros in front up to eight digits. No counterpart in /repo. -/
def padded (n : Nat) : List Byte := List.replicate (8 - (hexText n).length) 48 ++ hexText n

/-- Specification: the three flags as the kernel writes them. No counterpart in /repo. -/
def flagText (b : Bits) : List Byte := [if b.r then 114 else 45, if b.w then 119 else 45, if b.x then 120 else 45]

/-- Specification: the line of a mapping, `lower-upper rwx…`. No counterpart in /repo. -/
def Mapping.line (m : Mapping) : List Byte := padded m.lo ++ 45 :: padded m.hi ++ 32 :: flagText m.bits ++ m.rest ++ [10]

/-- Specification: the file. No counterpart in /repo. -/
def fileOf (ms : List Mapping) : List Byte := ms.flatMap Mapping.line

/-- Specification: what the kernel keeps to: the bounds are addresses and no line has another newline in it.
No counterpart in /repo. -/
def Written (W : Nat) (ms : List Mapping) : Prop := ∀ m ∈ ms, m.lo < 2 ^ W ∧ m.hi < 2 ^ W ∧ 10 ∉ m.rest

/-- Specification: the address is in the mapping. No counterpart in /repo. -/
def Mapping.Has (m : Mapping) (a : Nat) : Prop := m.lo ≤ a ∧ a < m.hi

/-- Specification: no address is in two mappings of the list. No counterpart in /repo. -/
def Apart (ms : List Mapping) : Prop := ms.Pairwise fun a b => ∀ x, ¬(a.Has x ∧ b.Has x)

/-- Specification: the mapping as an entry of the line model. No counterpart in /repo. -/
def Mapping.entry (m : Mapping) : Line :=
  ⟨m.lo, m.hi, if m.bits.r then 'r' else '-', if m.bits.w then 'w' else '-', if m.bits.x then 'x' else '-'⟩

end Verif.Maps
