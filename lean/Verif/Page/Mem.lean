/-
Memory protection, core/sourcehook/sh_memory.h (Linux branches).

* A page is given by its number; `prot p` is the protection of page `p`, `none` when nothing is mapped there.
* `mprotect` is the kernel's: the start must be a multiple of the page size; it sets the protection of every page with a
  byte in the range.  If it fails the model leaves all pages as they were (Linux may have changed those before the first
  page that is not mapped).
* The lines of /proc/self/maps and /proc/curproc/map are taken as parsed: two bounds and three characters.  The text of the
  former is read in `Page/MapsText.lean`.
-/
namespace Verif.Page

/-- `SH_MEM_READ`, `SH_MEM_WRITE`, `SH_MEM_EXEC`, sh_memory.h:37-39. -/
structure Bits where
  r : Bool
  w : Bool
  x : Bool
  deriving DecidableEq, Repr

/-- `SH_LALIGN` with a page of `2 ^ k` bytes, sh_memory.h:43: `~(PAGESIZE-1)` is an `int`, extended to 64 bits. -/
def lalign (k x : Nat) : Nat := x &&& (2 ^ 64 - 2 ^ k)

/-- `SH_LALDIF`, sh_memory.h:44. -/
def laldif (k x : Nat) : Nat := x % 2 ^ k

/-- The first page of an `mprotect` call and the page after the last. As computed at core/sourcehook/sh_memory.h:200. -/
def pages (k addr len : Nat) : Nat × Nat := (addr / 2 ^ k, (addr + len + (2 ^ k - 1)) / 2 ^ k)

/-- `mprotect`. No counterpart in /repo: the operating system, called at core/sourcehook/sh_memory.h:200. -/
def mprotect (k : Nat) (prot : Nat → Option Bits) (addr len : Nat) (b : Bits) : (Nat → Option Bits) × Bool :=
  if addr % 2 ^ k ≠ 0 ∨ 2 ^ 64 < addr + len then (prot, false)
  else if (List.range ((pages k addr len).2 - (pages k addr len).1)).all (fun i => (prot ((pages k addr len).1 + i)).isSome) then
    (fun p => if (pages k addr len).1 ≤ p ∧ p < (pages k addr len).2 then some b else prot p, true)
  else (prot, false)

/-- The arguments `SetMemAccess` passes on, sh_memory.h:200; the length is a `size_t`. -/
def accessArgs (k addr len : Nat) : Nat × Nat := (lalign k addr, (len + laldif k addr) % 2 ^ 64)

/-- `SetMemAccess`, sh_memory.h:197-201. -/
def setMemAccess (k : Nat) (prot : Nat → Option Bits) (addr len : Nat) (b : Bits) : (Nat → Option Bits) × Bool :=
  mprotect k prot (accessArgs k addr len).1 (accessArgs k addr len).2 b

/-- A line of the map: the bounds and the characters for reading, writing and executing.
No counterpart in /repo: the operating system's /proc/self/maps. -/
structure Line where
  lo : Nat
  hi : Nat
  r : Char
  w : Char
  x : Char
  deriving Repr

/-- The loop of `GetPageBits` over /proc/self/maps, sh_memory.h:75-95. -/
def pageBits (addr : Nat) : List Line → Option Bits
  | [] => none
  | l :: ls => if l.lo ≤ addr ∧ addr < l.hi then some { r := l.r == 'r', w := l.w == 'w', x := l.x == 'x' } else pageBits addr ls

/-- The loop of `GetPageBits` over /proc/curproc/map, sh_memory.h:107-129: it looks at the first character three times. -/
def curprocBits (addr : Nat) : List Line → Option Bits
  | [] => none
  | l :: ls => if l.lo ≤ addr ∧ addr < l.hi then some { r := l.r == 'r', w := l.r == 'w', x := l.r == 'x' } else curprocBits addr ls

/-- `GetPageBits`, sh_memory.h:58-133; `none` for a file that does not open. -/
def getPageBits (maps curproc : Option (List Line)) (addr : Nat) : Option Bits := match maps with
  | some ls => pageBits addr ls
  | none => match curproc with
    | some ls => curprocBits addr ls
    | none => none

/-- `MakePageWritable`, sh_memory.h:220-231. -/
def makePageWritable (k : Nat) (maps curproc : Option (List Line)) (prot : Nat → Option Bits) (addr : Nat) : (Nat → Option Bits) × Bool :=
  match getPageBits maps curproc addr with
  | some b => if b.w then (prot, true) else setMemAccess k prot addr 8 { b with w := true }
  | none => setMemAccess k prot addr 8 { r := true, w := true, x := true }

/-- `ModuleInMemory`, sh_memory.h:263-344; `readable` tells whether reading the range works without a fault, which is asked
when neither file opens.  `lower + len` is an `unsigned long`. -/
def moduleInMemory (maps curproc : Option (List Line)) (readable : Bool) (addr len : Nat) : Bool := match maps with
  | some ls => ls.any fun l => decide (l.lo ≤ addr ∧ (addr + len) % 2 ^ 64 ≤ l.hi)
  | none => match curproc with
    | some ls => ls.any fun l => decide (l.lo ≤ addr ∧ (addr + len) % 2 ^ 64 ≤ l.hi)
    | none => !readable

end Verif.Page
