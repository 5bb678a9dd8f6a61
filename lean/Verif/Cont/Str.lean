import Verif.C.Buf

/-
`SourceHook::String`, core/sourcehook/sh_string.h.

* The array `v` points to is a buffer; `none` is NULL.  `new char[n]` gives `n` bytes with arbitrary values (`junk`).
* Arguments of type `const char *` are strings stored elsewhere; passing the string's own text is `appendOwn`.
* `size_t` arithmetic is modulo 2^64.  Strings themselves are shorter than 2^63 bytes.
-/
namespace Verif.CStr

open Verif.C

/-- `String`, sh_string.h:393-394. -/
structure Str where
  v : Option Buf
  cap : Nat
  deriving DecidableEq

/-- `String()`, sh_string.h:26-32. -/
def Str.init : Str := { v := none, cap := 0 }

/-- `npos`, sh_string.h:396. -/
def npos : Nat := 2 ^ 64 - 1

/-- The value of a `size_t` expression. No counterpart in /repo: C++ arithmetic. -/
def sz (n : Nat) : Nat := n % 2 ^ 64

/-- The difference of two `size_t`. No counterpart in /repo: C++ arithmetic. -/
def szSub (a b : Nat) : Nat := if b ≤ a then a - b else 2 ^ 64 - (b - a)

/-- The bytes of `new char[n]`. No counterpart in /repo: a C++ operator, used at core/sourcehook/sh_string.h:378-392. -/
def newArr (junk : Nat → Byte) (n : Nat) : Buf := (List.range n).map junk

/-- `c_str`, sh_string.h:64-66: the text, or a fault when it is not terminated. -/
def Str.cstr (s : Str) : R (List Byte) := match s.v with
  | none => .ok []
  | some b => C.cstr b 0

/-- `size`, sh_string.h:129-135. -/
def Str.size (s : Str) : R Nat := match s.v with
  | none => .ok 0
  | some b => strlen b 0

/-- `Grow`, sh_string.h:378-391. -/
def Str.grow (junk : Nat → Byte) (s : Str) (d : Nat) (copy : Bool) : R Str :=
  if d ≤ s.cap then .ok s
  else do
    let n := newArr junk (sz (d + 1))
    let n ← match s.v with
      | some b => if copy then do let t ← C.cstr b 0; strcpy n 0 t else .ok n
      | none => strcpy n 0 []
    .ok { v := some n, cap := sz (d + 1) }

/-- `v[i] = c`; through NULL it is a fault. No counterpart in /repo: a C++ operator. -/
def vwr (v : Option Buf) (i : Nat) (c : Byte) : R Buf := match v with
  | none => .error .outOfBounds
  | some b => wr b i c

/-- `append(const char *)`, sh_string.h:68-72. -/
def Str.append (junk : Nat → Byte) (s : Str) (t : List Byte) : R Str := do
  let n ← s.size
  let s ← s.grow junk (sz (n + t.length + 1)) true
  match s.v with
  | none => .error .outOfBounds
  | some b => do
    let m ← strlen b 0
    let b ← strcpy b m t
    .ok { s with v := some b }

/-- `append(char)`, sh_string.h:74-80. -/
def Str.appendC (junk : Nat → Byte) (s : Str) (c : Byte) : R Str := do
  let len ← s.size
  let s ← s.grow junk (sz (len + 2)) true
  let b ← vwr s.v len c
  let b ← wr b (len + 1) 0
  .ok { s with v := some b }

/-- `clear`, sh_string.h:103-107. -/
def Str.clear (s : Str) : R Str := match s.v with
  | none => .ok s
  | some b => do
    let b ← wr b 0 0
    .ok { s with v := some b }

/-- `assign(const char *)`, sh_string.h:92-101; `none` is NULL. -/
def Str.assign (junk : Nat → Byte) (s : Str) : Option (List Byte) → R Str
  | none => s.clear
  | some d => do
    let s ← s.grow junk (sz (d.length + 1)) false
    match s.v with
    | none => .error .outOfBounds
    | some b => do
      let b ← strcpy b 0 d
      .ok { s with v := some b }

/-- `s.append(s)`, sh_string.h:82-85, 68-72: when the array is replaced, `strcat` reads the one freed (`dangling`); when it is not,
source and target overlap (undefined, also `dangling` here). -/
inductive OwnFault | dangling | other (f : Fault)
  deriving DecidableEq

/-- `append` of the string's own text, sh_string.h:82-85. -/
def Str.appendOwn (junk : Nat → Byte) (s : Str) : Except OwnFault Str := match s.v with
  | none => match s.append junk [] with
    | .ok s' => .ok s'
    | .error f => .error (.other f)
  | some _ => .error .dangling

/-- `strcmp`: the sign of the first difference, bytes as `unsigned char`.
No counterpart in /repo: the C library, called at core/sourcehook/sh_string.h:112-114. -/
def strcmp : List Byte → List Byte → Int
  | [], [] => 0
  | [], _ :: _ => -1
  | _ :: _, [] => 1
  | a :: as, b :: bs => if a = b then strcmp as bs else if a < b then -1 else 1

/-- `compare`, sh_string.h:109-115. -/
def Str.compare (s : Str) (d : List Byte) : R Int := do
  let t ← s.cstr
  .ok (strcmp t d)

/-- `empty`, sh_string.h:118-127. -/
def Str.empty (s : Str) : R Bool := match s.v with
  | none => .ok true
  | some b => do
    let c ← rd b 0
    .ok (c == 0)

/-- `v[i]` as an rvalue. No counterpart in /repo: a C++ operator. -/
def vrd (v : Option Buf) (i : Nat) : R Byte := match v with
  | none => .error .outOfBounds
  | some b => rd b i

/-- The loop of `find`, sh_string.h:145-151; `n` is the number of rounds left. -/
def findLoop (v : Option Buf) (c : Byte) : Nat → Nat → R Nat
  | 0, _ => .ok npos
  | n + 1, i => do
    let x ← vrd v i
    if x = c then .ok i else findLoop v c n (i + 1)

/-- `find`, sh_string.h:137-154. -/
def Str.find (s : Str) (c : Byte) (index : Nat) : R Nat := do
  let len ← s.size
  if len < 1 then .ok npos
  else if index ≥ len then .ok npos
  else findLoop s.v c (len - index) index

/-- The loop of `find_last_of`, sh_string.h:169-175: `i + 1 > 0` fails when `i` has gone below 0. -/
def findLastLoop (v : Option Buf) (c : Byte) : Nat → R Nat
  | 0 => .ok npos
  | i + 1 => do
    let x ← vrd v i
    if x = c then .ok i else findLastLoop v c i

/-- `find_last_of`, sh_string.h:156-178. -/
def Str.findLastOf (s : Str) (c : Byte) (index : Nat) : R Nat := do
  let len ← s.size
  if len < 1 then .ok npos
  else if index ≥ len then .ok npos
  else findLastLoop s.v c ((if index = npos then len - 1 else index) + 1)

/-- `is_space`, sh_string.h:180-190. -/
def isSpc (c : Byte) : Bool := c == 12 || c == 10 || c == 9 || c == 13 || c == 11 || c == 32

/-- The loop of `erase`, sh_string.h:266-285; `n` is the number of rounds left. -/
def eraseLoop (start num len : Nat) : Nat → Nat → Bool → Buf → R Buf
  | 0, _, _, b => .ok b
  | n + 1, i, flag, b =>
    if (start ≤ i ∧ i < sz (start + num)) ∨ flag = true then
      if sz (i + num) < len then do
        let c ← rd b (sz (i + num))
        let b ← wr b i c
        eraseLoop start num len n (i + 1) true b
      else do
        let b ← wr b i 0
        eraseLoop start num len n (i + 1) true b
    else eraseLoop start num len n (i + 1) flag b

/-- The check for bounds, sh_string.h:261-263. -/
def eraseClamp (len start num : Nat) : Nat := if num = npos ∨ sz (start + num) > szSub len start then szSub len start else num

/-- The rest of `erase`, sh_string.h:265-287. -/
def Str.eraseN (s : Str) (b : Buf) (len start num : Nat) : R Str := do
  let b ← eraseLoop start num len len 0 false b
  let b ← wr b (szSub len num) 0
  .ok { s with v := some b }

/-- `erase`, sh_string.h:255-288. -/
def Str.erase (s : Str) (start num : Nat) : R Str := match s.v with
  | none => .ok s
  | some b => do
    let len ← strlen b 0
    s.eraseN b len start (eraseClamp len start num)

/-- The first loop of `trim`, sh_string.h:216-223: where it stops, `none` when it runs to the end. -/
def trimFwd (b : Buf) (len : Nat) : Nat → Nat → R (Option Nat)
  | 0, _ => .ok none
  | n + 1, i => do
    let c ← rd b i
    if !isSpc c || (isSpc c && i == len - 1) then .ok (some i) else trimFwd b len n (i + 1)

/-- The second loop of `trim`, sh_string.h:235-244: the arguments of its call of `erase`. -/
def trimBwd (b : Buf) : Nat → Nat → R (Option (Nat × Nat))
  | 0, _ => .ok none
  | n + 1, j => do
    let c ← rd b n
    if !isSpc c || (isSpc c && n == 0) then .ok (some (n + 1, j)) else trimBwd b n (j + 1)

/-- The second half of `trim`, sh_string.h:226-252. -/
def Str.trimEnd (s : Str) : R Str := match s.v with
  | none => .error .outOfBounds
  | some b => do
    let len ← strlen b 0
    if len < 1 then .ok s
    else do
      let c ← rd b (len - 1)
      let s ← if isSpc c then do
          let r ← trimBwd b len 0
          match r with
          | some (i, j) => s.erase i j
          | none => .ok s
        else .ok s
      if len = 1 then do
        let c ← vrd s.v 0
        if isSpc c then s.clear else .ok s
      else .ok s

/-- `trim`, sh_string.h:192-253. -/
def Str.trim (s : Str) : R Str := match s.v with
  | none => .ok s
  | some b => do
    let len ← strlen b 0
    let c0 ← rd b 0
    if len = 1 ∧ isSpc c0 = true then s.clear
    else do
      let s ← if isSpc c0 then do
          let r ← trimFwd b len len 0
          match r with
          | some i => s.erase 0 i
          | none => .ok s
        else .ok s
      s.trimEnd

/-- The loop of `substr`, sh_string.h:317-318; `n` is the number of rounds left. -/
def substrLoop (junk : Nat → Byte) (b : Buf) : Nat → Nat → Str → R Str
  | 0, _, ns => .ok ns
  | n + 1, i, ns => do
    let c ← rd b i
    let ns ← ns.appendC junk c
    substrLoop junk b n (i + 1) ns

/-- The number of characters, sh_string.h:305-310. -/
def substrClamp (len index num : Nat) : Nat := if num = npos then len - index else if sz (index + num) ≥ len then len - index else num

/-- The rest of `substr`, sh_string.h:312-320. -/
def substrN (junk : Nat → Byte) (b : Buf) (index num : Nat) : R Str := do
  let ns ← Str.init.grow junk (sz (num + 2)) true
  substrLoop junk b (sz (index + num) - index) index ns

/-- `substr`, sh_string.h:290-321. -/
def Str.substr (junk : Nat → Byte) (s : Str) (index num : Nat) : R Str := match s.v with
  | none => Str.init.assign junk (some [])
  | some b => do
    let len ← strlen b 0
    if index ≥ len then .ok Str.init
    else substrN junk b index (substrClamp len index num)

/-- The loop of `toLower`, sh_string.h:329-333; `~(1<<5)` is 0xDF in a byte. -/
def lowerLoop : Nat → Nat → Buf → R Buf
  | 0, _, b => .ok b
  | n + 1, i, b => do
    let c ← rd b i
    let b ← if 65 ≤ c ∧ c ≤ 90 then wr b i (c &&& 0xDF) else .ok b
    lowerLoop n (i + 1) b

/-- `toLower`, sh_string.h:323-334. -/
def Str.toLower (s : Str) : R Str := match s.v with
  | none => .ok s
  | some b => do
    let len ← strlen b 0
    let b ← lowerLoop len 0 b
    .ok { s with v := some b }

/-- The value of a `char` as an `int`. No counterpart in /repo: a C++ conversion. -/
def charInt (c : Byte) : Int := if c.toNat < 128 then c.toNat else (c.toNat : Int) - 256

/-- `at`, sh_string.h:359-365 (`operator []`, 349-357, is the same as a `char`). -/
def Str.at_ (s : Str) (a : Nat) : R Int := do
  let n ← s.size
  if a ≥ n then .ok (-1)
  else do
    let c ← vrd s.v a
    .ok (charInt c)

/-- `at(size_t, char)`, sh_string.h:367-375. -/
def Str.setAt (s : Str) (a : Nat) (c : Byte) : R (Str × Bool) := do
  let n ← s.size
  if a ≥ n then .ok (s, false)
  else do
    let b ← vwr s.v a c
    .ok ({ s with v := some b }, true)

end Verif.CStr
