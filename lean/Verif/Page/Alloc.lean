/-
`SourceHook::CPageAlloc`, core/sourcehook/sh_pagealloc.h: memory for generated code.

* Addresses and sizes are natural numbers; addresses wrap at 2^64, requested sizes are below 2^63, so that no size wraps.
* `List` is taken as a sequence (Verif/Cont/ListProps.lean), with `push_sorted` as proved there.
* `mmap` is a parameter: the address it returns is given to each call; MAP_FAILED is 2^64 - 1.
* `mprotect` always succeeds, and only `isRE` is kept.  `munmap` calls are recorded in `unmapped`.
-/
namespace Verif.Page

/-- `AllocatedRegion`, sh_pagealloc.h:52-59; a unit is `(begin_offset, size)`, sh_pagealloc.h:36-43. -/
structure Region where
  start : Nat
  size : Nat
  isolated : Bool
  units : List (Nat × Nat)
  re : Bool
  deriving DecidableEq, Repr

/-- `CPageAlloc`, sh_pagealloc.h:191-193, and the memory. -/
structure PA where
  align : Nat
  page : Nat
  regions : List Region
  mem : Nat → Nat
  unmapped : List (Nat × Nat)

/-- The alignment bytes at an offset, sh_pagealloc.h:68-70, 125-127. -/
def alignBytes (m start b : Nat) : Nat := (m - (start + b) % 2 ^ 64 % m) % m

/-- `smallestgap_pos`, `smallestgap_size`, `alignmentbytes` in `TryAlloc`, sh_pagealloc.h:92-94. -/
structure Best where
  pos : Nat
  size : Nat
  al : Nat

/-- `CheckGap`, sh_pagealloc.h:61-82 (`gap_begin ≤ gap_end` whenever it is called). -/
def checkGap (m start gb ge req : Nat) (best : Best) : Best :=
  if ge - gb ≥ req + alignBytes m start gb then
    if ge - gb < best.size then { pos := gb, size := ge - gb, al := alignBytes m start gb } else best
  else best

/-- The loop of `TryAlloc` and the gap at the end, sh_pagealloc.h:96-102. -/
def gapLoop (m start size req : Nat) : Nat → List (Nat × Nat) → Best → Best
  | lastend, [], best => checkGap m start lastend size req best
  | lastend, u :: us, best => gapLoop m start size req (u.1 + u.2) us (checkGap m start lastend u.1 req best)

/-- `allocUnits.push_sorted`, sh_pagealloc.h:107, sh_list.h:105-117. -/
def insertUnit (u : Nat × Nat) : List (Nat × Nat) → List (Nat × Nat)
  | [] => [u]
  | v :: us => if u.1 < v.1 then u :: v :: us else v :: insertUnit u us

/-- `TryAlloc`, sh_pagealloc.h:84-114: the region after it and the address. -/
def tryAlloc (m : Nat) (r : Region) (req : Nat) : Option (Region × Nat) :=
  if r.isolated && !r.units.isEmpty then none
  else
    let best := gapLoop m r.start r.size req 0 r.units { pos := r.size + 1, size := r.size + 1, al := 0 }
    if best.pos < r.size then some ({ r with units := insertUnit (best.pos, req + best.al) r.units }, (r.start + best.pos + best.al) % 2 ^ 64) else none

/-- Where `Free` expects the block of a unit, sh_pagealloc.h:125-128. -/
def alignedBegin (m start : Nat) (u : Nat × Nat) : Nat := ((start + u.1) % 2 ^ 64 + alignBytes m start u.1) % 2 ^ 64

/-- `Contains`, sh_pagealloc.h:162-165, and the test at sh_pagealloc.h:118. -/
def Region.contains (r : Region) (addr : Nat) : Bool := decide (r.start ≤ addr) && decide (addr < (r.start + r.size) % 2 ^ 64)

/-- `DebugCleanMemory`, sh_pagealloc.h:142-160. -/
def fill (mem : Nat → Nat) (a n : Nat) : Nat → Nat := fun x => if a ≤ x ∧ x < a + n then 0xCC else mem x

/-- `TryFree`, sh_pagealloc.h:116-140: the region after it and the unit that was freed. -/
def tryFree (m : Nat) (r : Region) (addr : Nat) : Option (Region × (Nat × Nat)) :=
  if !r.contains addr then none
  else match r.units.find? (fun u => alignedBegin m r.start u == addr) with
    | none => none
    | some u => some ({ r with units := r.units.eraseP (fun u => alignedBegin m r.start u == addr) }, u)

/-- The size of a new region, sh_pagealloc.h:204-206. -/
def roundUp (page n : Nat) : Nat := if n - n % page < n then n - n % page + page else n - n % page

/-- `AddRegion`, sh_pagealloc.h:195-228; `map` is what `mmap` returns. -/
def addRegion (s : PA) (n : Nat) (iso : Bool) (map : Nat) : Option PA :=
  if map = 0 then none
  else some { s with regions := s.regions ++ [{ start := map, size := roundUp s.page n, isolated := iso, units := [], re := false }] }

/-- The loop of `AllocPriv`, sh_pagealloc.h:236-240. -/
def allocLoop (m req : Nat) : List Region → Option (List Region × Nat)
  | [] => none
  | r :: rs => match tryAlloc m r req with
    | some (r', a) => some (r' :: rs, a)
    | none => match allocLoop m req rs with
      | some (rs', a) => some (r :: rs', a)
      | none => none

/-- The end of `AllocPriv`, sh_pagealloc.h:243-248: a new region. -/
def allocNew (s : PA) (req : Nat) (iso : Bool) (map : Nat) : PA × Nat :=
  match addRegion s req iso map with
  | none => (s, 0)
  | some s' => match s'.regions.getLast? with
    | none => (s', 0)
    | some r => match tryAlloc s.align r req with
      | some (r', a) => ({ s' with regions := s'.regions.dropLast ++ [r'] }, a)
      | none => (s', 0)

/-- `AllocPriv`, sh_pagealloc.h:230-249; 0 is NULL. -/
def alloc (s : PA) (req : Nat) (iso : Bool) (map : Nat) : PA × Nat :=
  if iso then allocNew s req iso map
  else match allocLoop s.align req s.regions with
    | some (rs, a) => ({ s with regions := rs }, a)
    | none => allocNew s req iso map

/-- What `Free` does to the regions: the regions after it, the unit freed with the start of its region, and the region unmapped, sh_pagealloc.h:284-295. -/
def freeLoop (m addr : Nat) : List Region → Option (List Region × (Nat × Nat) × Option (Nat × Nat))
  | [] => none
  | r :: rs => match tryFree m r addr with
    | some (r', u) => if r'.units.isEmpty then some (rs, (r.start + u.1, u.2), some (r.start, r.size)) else some (r' :: rs, (r.start + u.1, u.2), none)
    | none => match freeLoop m addr rs with
      | some (rs', x) => some (r :: rs', x)
      | none => none

/-- `Free`, sh_pagealloc.h:282-296. -/
def free (s : PA) (addr : Nat) : PA := match freeLoop s.align addr s.regions with
  | none => s
  | some (rs, u, un) => { s with regions := rs, mem := fill s.mem u.1 u.2, unmapped := s.unmapped ++ un.toList }

/-- `SetRE`, `SetRW`, sh_pagealloc.h:298-320. -/
def setAccess (addr : Nat) (re : Bool) : List Region → List Region
  | [] => []
  | r :: rs => if r.contains addr then { r with re := re } :: rs else r :: setAccess addr re rs

/-- `~CPageAlloc`, sh_pagealloc.h:263-270. -/
def destroy (s : PA) : PA := { s with unmapped := s.unmapped ++ s.regions.map fun r => (r.start, r.size) }

/-- `CPageAlloc(minAlignment)`, sh_pagealloc.h:252-261. -/
def init (align page : Nat) (mem : Nat → Nat) : PA := { align := align, page := page, regions := [], mem := mem, unmapped := [] }

end Verif.Page
