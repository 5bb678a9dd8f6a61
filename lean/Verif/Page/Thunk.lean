/-
The thunk for an odd original address, core/sourcehook/sourcehook_impl_cvfnptr.cpp:31-85, and the three x86-64 instructions
it is made of.

* Memory maps addresses (below 2^64) to bytes (below 256).
* `Alloc(12)` and the changes of protection are taken from the page allocator (C25); only the bytes written are here.
* The machine has `rip` and `rax`; the instructions touch nothing else.
-/
namespace Verif.Page

/-- No counterpart in /repo: memory, one byte per address. -/
abbrev Mem := Nat → Nat

/-- The `n` low bytes of `x`, lowest first. No counterpart in /repo. -/
def le : Nat → Nat → List Nat
  | 0, _ => []
  | n + 1, x => x % 256 :: le n (x / 256)

/-- The number written with these bytes, lowest first. No counterpart in /repo. -/
def unle : List Nat → Nat
  | [] => 0
  | b :: bs => b + 256 * unle bs

/-- A store of consecutive bytes. No counterpart in /repo. -/
def store (m : Mem) (a : Nat) : List Nat → Mem
  | [] => m
  | b :: bs => store (fun x => if x = a then b else m x) (a + 1) bs

/-- A load of consecutive bytes. No counterpart in /repo. -/
def load (m : Mem) (a : Nat) : Nat → List Nat
  | 0 => []
  | n + 1 => m a :: load m (a + 1) n

/-- The value of a 64-bit word as a `ptrdiff_t`. -/
def s64 (x : Nat) : Int := if x < 2 ^ 63 then x else (x : Int) - 2 ^ 64

/-- The word holding a `ptrdiff_t`. No counterpart in /repo: a C++ conversion. -/
def u64 (x : Int) : Nat := (x % 2 ^ 64).toNat

/-- `offset`, sourcehook_impl_cvfnptr.cpp:56: computed in 64 bits. -/
def thunkOffset (orig thunk : Nat) : Int := s64 (u64 ((orig : Int) - thunk - 5))

/-- The stores of `CVfnPtr::Init`, sourcehook_impl_cvfnptr.cpp:58-79. -/
def writeThunk (m : Mem) (orig thunk : Nat) : Mem :=
  let offset := thunkOffset orig thunk
  if -(2 ^ 31) ≤ offset ∧ offset ≤ 2 ^ 31 - 1 then
    store (store m thunk [0xE9]) (thunk + 1) (le 8 (u64 offset))
  else
    let m := store (store m thunk [0x48]) (thunk + 1) [0xB8]
    let m := store m (thunk + 2) (le 8 orig)
    store (store m (thunk + 10) [0xFF]) (thunk + 11) [0xE0]

/-- `GetOrigCallAddr`, sourcehook_impl_cvfnptr.cpp:117-127, for a record made by `Init`, sourcehook_impl_cvfnptr.cpp:50-52: the thunk for an odd entry. -/
def origCallAddr (orig thunk : Nat) : Nat := if orig % 2 ≠ 0 then thunk else orig

/-- The registers the thunk uses. No counterpart in /repo: the processor. -/
structure Cpu where
  rip : Nat
  rax : Nat
  deriving DecidableEq, Repr

/-- A 32-bit displacement, sign extended. -/
def s32 (x : Nat) : Int := if x < 2 ^ 31 then x else (x : Int) - 2 ^ 32

/-- One instruction (Intel SDM: `JMP rel32`, `MOV r64, imm64`, `JMP r/m64`); `none` for any other. -/
def cpuStep (m : Mem) (c : Cpu) : Option Cpu :=
  if m c.rip = 0xE9 then some { c with rip := u64 (c.rip + 5 + s32 (unle (load m (c.rip + 1) 4))) }
  else if m c.rip = 0x48 ∧ m (c.rip + 1) = 0xB8 then some { rip := c.rip + 10, rax := unle (load m (c.rip + 2) 8) }
  else if m c.rip = 0xFF ∧ m (c.rip + 1) = 0xE0 then some { c with rip := c.rax }
  else none

end Verif.Page
