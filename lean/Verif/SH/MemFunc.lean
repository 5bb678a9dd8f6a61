/-
Pointers to member functions, core/sourcehook/sh_memfuncinfo.h: what `GetFuncInfo` reads from the
representation of a pointer to a member function, for the two families of compilers, and the address of
the function table entry that `AddHook` computes from it.
-/
namespace Verif.SH.Mfp

/-- `MemFuncInfo`, core/sourcehook/sh_memfuncinfo.h:36-43. -/
structure Info where
  isVirtual : Bool
  thisptroffs : Int
  vtblindex : Int
  vtbloffs : Int
deriving DecidableEq, Repr

/-- No counterpart in /repo: the conversion of a 64-bit integer to `int`. -/
def toInt (x : BitVec 64) : Int := (x.setWidth 32).toInt

/-- `GCC_MemFunPtr`, core/sourcehook/sh_memfuncinfo.h:60-68: the union of function address and
`vtable_index_plus1`, and `delta`. -/
structure Gcc where
  word : BitVec 64
  delta : BitVec 64
deriving DecidableEq, Repr

/-- `MFI_Impl<2*SH_PTRSIZE>::GetFuncInfo`, core/sourcehook/sh_memfuncinfo.h:69-81.  `SH_PTRSIZE` is
`sizeof(void*)` (sourcehook.h:115), an unsigned number, so the division is unsigned.  For a function that
is not virtual `vtblindex` and `vtbloffs` of `out` stay as they were. -/
def gccInfo (m : Gcc) (out : Info) : Info :=
  let out := { out with thisptroffs := toInt m.delta }
  if m.word &&& 1#64 ≠ 0#64 then
    { out with vtblindex := toInt ((m.word - 1#64) / 8#64), vtbloffs := 0, isVirtual := true }
  else { out with isVirtual := false }

/-- `cur_vfnptr` of `AddHook` in mode `Hook_Normal`, core/sourcehook/sourcehook.cpp:120-126, for an object
at `iface`, the this pointer offset given by the caller and the table offset and index of the hook manager.
`mem` reads a pointer. -/
def entryAddr (mem : BitVec 64 → BitVec 64) (iface : BitVec 64) (thisptroffs vtbloffs vtblindex : Int) : BitVec 64 :=
  mem (iface + BitVec.ofInt 64 thisptroffs + BitVec.ofInt 64 vtbloffs) + BitVec.ofInt 64 (8 * vtblindex)

/-- No counterpart in /repo: one byte of memory; `none` is not mapped. -/
abbrev Mem := Nat → Option UInt8

/-- No counterpart in /repo: a number of `n` bytes, lowest byte first. -/
def rdLE (m : Mem) (a : Nat) : Nat → Option Nat
  | 0 => some 0
  | n + 1 => do
    let b ← m a
    let r ← rdLE m (a + 1) n
    some (b.toNat + 256 * r)

/-- Start of `MFI_GetVtblOffset`, core/sourcehook/sh_memfuncinfo.h:90-96: a relative jump is followed.  The
displacement is read as `unsigned long`, 32 bits with this compiler; the sum with 5 is one too, and is
added to the pointer without sign. -/
def followJmp (m : Mem) (addr : Nat) : Option Nat := do
  let b ← m addr
  if b = 0xE9 then
    let d ← rdLE m (addr + 1) 4
    some (addr + (5 + d) % 2 ^ 32)
  else some addr

/-- The conditions of core/sourcehook/sh_memfuncinfo.h:117-133, with the left to right evaluation of `&&`:
the bytes are read until one differs. -/
def startsWith (m : Mem) : Nat → List UInt8 → Option Bool
  | _, [] => some true
  | a, c :: cs => do
    let b ← m a
    if b = c then startsWith m (a + 1) cs else some false

/-- The load of the function table, core/sourcehook/sh_memfuncinfo.h:115-135: the address behind it. -/
def skipLoad (m : Mem) (addr : Nat) : Option (Option Nat) := do
  if ← startsWith m addr [0x8B, 0x44, 0x24, 0x04, 0x8B, 0x00] then return some (addr + 6)
  if ← startsWith m addr [0x8B, 0x01] then return some (addr + 2)
  if ← startsWith m addr [0x48, 0x8B, 0x01] then return some (addr + 3)
  return none

/-- The jump through the table, core/sourcehook/sh_memfuncinfo.h:137-151.  Results are converted to `int`. -/
def readJump (m : Mem) (addr : Nat) : Option Int := do
  let b ← m addr
  if b = 0xFF then
    let c ← m (addr + 1)
    if c = 0x60 then
      let d ← m (addr + 2)
      some (d.toNat / 8 : Nat)
    else if c = 0xA0 then
      let d ← rdLE m (addr + 2) 4
      some (d / 8 : Nat)
    else if c = 0x20 then some 0
    else some (-1)
  else some (-1)

/-- `MFI_GetVtblOffset`, core/sourcehook/sh_memfuncinfo.h:88-152; `none` reads memory that is not mapped. -/
def vtblOffset (m : Mem) (mfp : Nat) : Option Int := do
  let a ← followJmp m mfp
  match ← skipLoad m a with
  | none => some (-1)
  | some a => readJump m a

/-- `MFI_Impl<1*SH_PTRSIZE>::GetFuncInfo`, core/sourcehook/sh_memfuncinfo.h:155-164. -/
def msvc1 (m : Mem) (mfp : Nat) : Option Info := do
  let i ← vtblOffset m mfp
  some { vtblindex := i, isVirtual := decide (i ≥ 0), thisptroffs := 0, vtbloffs := 0 }

/-- `MFI_Impl<2*SH_PTRSIZE>::GetFuncInfo`, core/sourcehook/sh_memfuncinfo.h:166-180. -/
def msvc2 (m : Mem) (mfp : Nat) (delta : Int) : Option Info := do
  let i ← vtblOffset m mfp
  some { vtblindex := i, isVirtual := decide (i ≥ 0), thisptroffs := delta, vtbloffs := 0 }

/-- `MFI_Impl<3*SH_PTRSIZE>::GetFuncInfo`, core/sourcehook/sh_memfuncinfo.h:183-229. -/
def msvc3 (m : Mem) (mfp : Nat) : Option Info := do
  let i ← vtblOffset m mfp
  some { vtblindex := i, isVirtual := decide (i ≥ 0), thisptroffs := -1, vtbloffs := 0 }

/-- `MFI_Impl<4*SH_PTRSIZE>::GetFuncInfo`, core/sourcehook/sh_memfuncinfo.h:235-284. -/
def msvc4 (m : Mem) (mfp : Nat) (delta vtordisp vtableIndex : Int) : Option Info := do
  let i ← vtblOffset m mfp
  if vtableIndex ≠ 0 then
    some { vtblindex := i, isVirtual := decide (i ≥ 0), vtbloffs := vtordisp, thisptroffs := -1 }
  else
    some { vtblindex := i, isVirtual := decide (i ≥ 0), vtbloffs := if i < 0 then 0 else delta, thisptroffs := delta }

end Verif.SH.Mfp
