import Verif.Util.Misc
/-
The searchable memory of a library, `mm_GetLibraryInfo`, loader/utility.cpp:386-633, for Linux on x86-64:
loader/utility.cpp:455-565.  Memory is a partial function of addresses; a byte that is not mapped gives a fault.
The layout of `Elf64_Ehdr` and `Elf64_Phdr` is that of <elf.h> (external).
-/
namespace Verif.Util
open Verif.C

/-- No counterpart in /repo: memory; `none` is not mapped. -/
abbrev Mem := Nat → Option Byte

/-- No counterpart in /repo: reading one byte. -/
def rd1 (mem : Mem) (a : Nat) : R Nat := match mem a with
  | none => .error .outOfBounds
  | some x => .ok x.toNat

/-- No counterpart in /repo: reading a number of `n` bytes, lowest first. -/
def rdN (mem : Mem) (a : Nat) : Nat → R Nat
  | 0 => .ok 0
  | n + 1 => do
    let x ← rd1 mem a
    let r ← rdN mem (a + 1) n
    .ok (x + 256 * r)

/-- No counterpart in /repo: a `size_t` sum. -/
def addW (a b : Nat) : Nat := (a + b) % 2 ^ 64
/-- No counterpart in /repo: a `size_t` difference. -/
def subW (a b : Nat) : Nat := (a + 2 ^ 64 - b) % 2 ^ 64
/-- `x & ~pageMask` with `pageMask = pageSize - 1`, loader/utility.cpp:519-520, 526. -/
def maskDown (pageSize x : Nat) : Nat := x &&& (2 ^ 64 - 1 - (pageSize - 1))

/-- What is used of a program header: `Elf64_Phdr` of <elf.h>, loader/utility.cpp:523-532, 556-560. -/
structure Seg where
  type : Nat
  flags : Nat
  vaddr : Nat
  filesz : Nat
deriving DecidableEq, Repr

/-- `phdr[i]`, loader/utility.cpp:523, 553. -/
def rdSeg (mem : Mem) (a : Nat) : R Seg := do
  let type ← rdN mem a 4
  let flags ← rdN mem (a + 4) 4
  let vaddr ← rdN mem (a + 16) 8
  let filesz ← rdN mem (a + 32) 8
  .ok { type, flags, vaddr, filesz }

/-- The header tests of loader/utility.cpp:489-511: `none` if one fails, else `e_phnum` and `e_phoff`
(loader/utility.cpp:513-514). -/
def header (mem : Mem) (file : Nat) : R (Option (Nat × Nat)) := do
  let magic ← rdN mem file 4
  if magic ≠ 0x464C457F then return none
  let version ← rd1 mem (file + 6)
  if version ≠ 1 then return none
  let cls ← rd1 mem (file + 4)
  if cls ≠ 2 then return none
  let machine ← rdN mem (file + 18) 2
  if machine ≠ 62 then return none
  let data ← rd1 mem (file + 5)
  if data ≠ 1 then return none
  let type ← rdN mem (file + 16) 2
  if type ≠ 3 then return none
  let phnum ← rdN mem (file + 56) 2
  let phoff ← rdN mem (file + 32) 8
  return some (phnum, phoff)

/-- First pass over the program headers, loader/utility.cpp:521-545: `minAddr` and `maxAddr`. -/
def pass1 (mem : Mem) (ps phdr : Nat) : (left i lo hi : Nat) → R (Nat × Nat)
  | 0, _, lo, hi => .ok (lo, hi)
  | left + 1, i, lo, hi => do
    let h ← rdSeg mem (phdr + 56 * i)
    if h.type = 1 then
      let start := maskDown ps h.vaddr
      let stop := maskDown ps (addW (addW h.vaddr h.filesz) (ps - 1))
      pass1 mem ps phdr left (i + 1) (if start < lo then start else lo) (if stop > hi then stop else hi)
    else pass1 mem ps phdr left (i + 1) lo hi

/-- Second pass, loader/utility.cpp:552-564: the ranges pushed, in order. -/
def pass2 (mem : Mem) (ps phdr base lo : Nat) : (left i : Nat) → R (List (Nat × Nat))
  | 0, _ => .ok []
  | left + 1, i => do
    let h ← rdSeg mem (phdr + 56 * i)
    if h.type = 1 then
      let start := maskDown ps (subW h.vaddr lo)
      let stop := maskDown ps (addW (addW (subW h.vaddr lo) h.filesz) (ps - 1))
      if h.flags &&& 4 = 4 then
        let r ← pass2 mem ps phdr base lo left (i + 1)
        .ok ((addW base start, addW base stop) :: r)
      else pass2 mem ps phdr base lo left (i + 1)
    else pass2 mem ps phdr base lo left (i + 1)

/-- `DynLibInfo`, loader/utility.cpp:379-384. -/
structure LibInfo where
  base : Nat
  size : Nat
  ranges : List (Nat × Nat)
deriving DecidableEq, Repr

/-- `mm_GetLibraryInfo` on Linux, loader/utility.cpp:386-393, 455-565, 629-632.  `dladdr` (external) gives the base
address of the library that holds `libPtr`; `none` if it fails or gives no base or no name.  `ps` is `getpagesize()`. -/
def libraryInfo (mem : Mem) (ps : Nat) (dladdr : Nat → Option Nat) (libPtr : Nat) : R (Option LibInfo) :=
  if libPtr = 0 then .ok none
  else match dladdr libPtr with
  | none => .ok none
  | some base => do
    match ← header mem base with
    | none => .ok none
    | some (phnum, phoff) => do
      let phdr := addW base phoff
      let (lo, hi) ← pass1 mem ps phdr phnum 0 (2 ^ 64 - 1) 0
      if lo > hi then .ok none
      else do
        let ranges ← pass2 mem ps phdr base lo phnum 0
        .ok (some { base, size := subW hi lo, ranges })

/-- `mm_FindPattern`, loader/utility.cpp:635-671, with the ranges of `mm_GetLibraryInfo`. -/
def findPatternIn (mem : Mem) (ps : Nat) (dladdr : Nat → Option Nat) (libPtr : Nat) (pat : List Byte) : R (Option Nat) := do
  match ← libraryInfo mem ps dladdr libPtr with
  | none => .ok none
  | some l => findPattern mem pat l.ranges

end Verif.Util
