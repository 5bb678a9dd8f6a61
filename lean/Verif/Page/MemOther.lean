import Verif.Page.Mem
/-
Memory protection, core/sourcehook/sh_memory.h: the branches for Windows and macOS.

* On Windows a page is given by its number; `prot p` is the `Protect` value of a committed page.  For other pages
  `VirtualQuery` answers something (`PAGE_NOACCESS` for free memory, 0 for reserved memory) or fails: `other`.
* `VirtualProtect` sets every page with a byte in the range if all are committed, else nothing.  `PAGE_WRITECOPY` and
  `PAGE_EXECUTE_WRITECOPY` pages are taken to stay what they are when written.
* On macOS `vm_region` finds the region of an address, or if the address is in none the next region above.
  `mprotect` is that of `Page/Mem.lean`.
* `PAGESIZE` is taken to be the page size of the system (`2 ^ k`).
-/
namespace Verif.Page

/-! ## Windows -/

/-- The `switch` of `GetPageBits`, core/sourcehook/sh_memory.h:169-193.  The numbers are those of winnt.h: 0x10
`PAGE_EXECUTE`, 0x20 `PAGE_EXECUTE_READ`, 0x40 `PAGE_EXECUTE_READWRITE`, 0x80 `PAGE_EXECUTE_WRITECOPY`, 1 `PAGE_NOACCESS`,
2 `PAGE_READONLY`, 4 `PAGE_READWRITE`, 8 `PAGE_WRITECOPY`. -/
def winBits (protect : Nat) : Option Bits :=
  if protect = 0x10 then some ⟨false, false, true⟩
  else if protect = 0x20 then some ⟨true, false, true⟩
  else if protect = 0x40 ∨ protect = 0x80 then some ⟨true, true, true⟩
  else if protect = 1 then some ⟨false, false, false⟩
  else if protect = 2 then some ⟨true, false, false⟩
  else if protect = 4 ∨ protect = 8 then some ⟨true, true, false⟩
  else none

/-- `VirtualQuery`. No counterpart in /repo: the operating system, called at core/sourcehook/sh_memory.h:167. -/
def virtualQuery (k : Nat) (prot other : Nat → Option Nat) (base : Nat) : Option Nat := match prot (base / 2 ^ k) with
  | some p => some p
  | none => other (base / 2 ^ k)

/-- `GetPageBits` on Windows, core/sourcehook/sh_memory.h:161-193; the start of the page as at 166. -/
def getPageBitsWin (k : Nat) (prot other : Nat → Option Nat) (addr : Nat) : Option Bits :=
  match virtualQuery k prot other (lalign k addr) with
  | some p => winBits p
  | none => none

/-- The `switch` of `SetMemAccess`, core/sourcehook/sh_memory.h:204-215. -/
def winAccess (b : Bits) : Nat :=
  if b = ⟨true, false, false⟩ then 2
  else if b = ⟨true, true, false⟩ then 4
  else if b = ⟨true, false, true⟩ then 0x20
  else 0x40

/-- `VirtualProtect`. No counterpart in /repo: the operating system, called at core/sourcehook/sh_memory.h:216. -/
def virtualProtect (k : Nat) (prot : Nat → Option Nat) (addr len p : Nat) : (Nat → Option Nat) × Bool :=
  if 2 ^ 64 < addr + len then (prot, false)
  else if (List.range ((pages k addr len).2 - (pages k addr len).1)).all (fun i => (prot ((pages k addr len).1 + i)).isSome) then
    (fun q => if (pages k addr len).1 ≤ q ∧ q < (pages k addr len).2 then some p else prot q, true)
  else (prot, false)

/-- `SetMemAccess` on Windows, core/sourcehook/sh_memory.h:197-217. -/
def setMemAccessWin (k : Nat) (prot : Nat → Option Nat) (addr len : Nat) (b : Bits) : (Nat → Option Nat) × Bool :=
  virtualProtect k prot addr len (winAccess b)

/-- `MakePageWritable` on Windows, core/sourcehook/sh_memory.h:220-231. -/
def makePageWritableWin (k : Nat) (prot other : Nat → Option Nat) (addr : Nat) : (Nat → Option Nat) × Bool :=
  match getPageBitsWin k prot other addr with
  | some b => if b.w then (prot, true) else setMemAccessWin k prot addr 8 { b with w := true }
  | none => setMemAccessWin k prot addr 8 { r := true, w := true, x := true }

/-! ## macOS -/

/-- A region of the address space. No counterpart in /repo: the operating system's. -/
structure VmRegion where
  lo : Nat
  hi : Nat
  bits : Bits
  deriving Repr, DecidableEq

/-- `vm_region`. No counterpart in /repo: the operating system, called at core/sourcehook/sh_memory.h:142-149: the first
region that ends above the address. -/
def vmRegion (regions : List VmRegion) (addr : Nat) : Option VmRegion := regions.find? fun r => decide (addr < r.hi)

/-- `GetPageBits` on macOS, core/sourcehook/sh_memory.h:134-160: where the region found begins is not looked at. -/
def getPageBitsMac (regions : List VmRegion) (addr : Nat) : Option Bits := (vmRegion regions addr).map (·.bits)

/-- `MakePageWritable` on macOS, core/sourcehook/sh_memory.h:220-231. -/
def makePageWritableMac (k : Nat) (regions : List VmRegion) (prot : Nat → Option Bits) (addr : Nat) :
    (Nat → Option Bits) × Bool :=
  match getPageBitsMac regions addr with
  | some b => if b.w then (prot, true) else setMemAccess k prot addr 8 { b with w := true }
  | none => setMemAccess k prot addr 8 { r := true, w := true, x := true }

end Verif.Page
