import Verif.Cont.List
/-
`SourceHook::CVector`, core/sourcehook/sh_vector.h.  An array from `new T[n]` is a list of `n` cells;
`none` is a cell never assigned (for classes: default constructed).  Reading such a cell is `uninit`, any access outside
the array is `outOfBounds`, reading a deleted array is `dangling`.

Simplified: `size_t` arithmetic does not wrap (objects are smaller than 2^63 elements), pointers into the array are indices and a
pointer one before the array may be formed (sh_vector.h:476 does so), `new` does not fail, and elements are passed by value except in `pushBackOwn`.
-/
namespace Verif.Cont

variable {T : Type}

/-- The object behind `m_Data`, core/sourcehook/sh_vector.h:135; `none` is an element whose value is not known. -/
abbrev Arr (T : Type) := List (Option T)

/-- `a[i]`. No counterpart in /repo: a C++ operator. -/
def rdA (a : Arr T) (i : Nat) : R T := match a[i]? with
  | none => .error .outOfBounds
  | some none => .error .uninit
  | some (some x) => .ok x

/-- `a[i] = x`. No counterpart in /repo: a C++ operator. -/
def wrA (a : Arr T) (i : Nat) (x : T) : R (Arr T) := if i < a.length then .ok (a.set i (some x)) else .error .outOfBounds

/-- `m_Data`, `m_Size`, `m_CurrentUsedSize`, sh_vector.h:135-137. -/
structure Vec (T : Type) where
  data : Option (Arr T)
  cap : Nat
  used : Nat

/-- Indexing `m_Data`; NULL holds nothing. Field at core/sourcehook/sh_vector.h:135. -/
def Vec.arr (v : Vec T) : Arr T := v.data.getD []

/-- `new T[n]`. No counterpart in /repo: a C++ operator. -/
def newArr (n : Nat) : Arr T := List.replicate n none

/-- `for (i = …; n more times; i++) dst[i] = src[i]`, sh_vector.h:42-45, 90-94, 299-300. -/
def copyLoop (src dst : Arr T) (i : Nat) : Nat → R (Arr T)
  | 0 => .ok dst
  | n + 1 => do
    let x ← rdA src i
    let dst ← wrA dst i x
    copyLoop src dst (i + 1) n

/-- The doubling loop of `Grow`, sh_vector.h:33-36 (`sz` is at least 8 there). -/
def growTo (need sz : Nat) : Nat := if h : 0 < sz ∧ sz < need then growTo need (sz * 2) else sz
termination_by need - sz

/-- `Grow`, sh_vector.h:23-54. -/
def Vec.grow (v : Vec T) (amount : Nat) : R (Vec T) := do
  let newSize := if v.cap * 2 = 0 then 8 else v.cap * 2
  let newSize := growTo (v.used + amount) newSize
  let newData := newArr newSize
  let newData ← match v.data with
    | some a => copyLoop a newData 0 v.used
    | none => .ok newData
  .ok { v with data := some newData, cap := newSize }

/-- `GrowIfNeeded`, sh_vector.h:56-66. -/
def Vec.growIfNeeded (v : Vec T) (amount : Nat) : R (Vec T) := if v.used + amount ≥ v.cap then v.grow amount else .ok v

/-- `ChangeSize`, sh_vector.h:68-108. -/
def Vec.changeSize (v : Vec T) (size : Nat) : R (Vec T) :=
  if size = v.cap then .ok v
  else if size = 0 then .ok (if v.data.isSome then { v with data := none, cap := 0 } else v)
  else do
    let newData := newArr size
    let newData ← match v.data with
      | some a => copyLoop a newData 0 (if v.used < size then v.used else size)
      | none => .ok newData
    let v := { v with data := some newData, cap := size }
    .ok (if v.used > v.cap then { v with used := v.cap } else v)

/-- The halving loop of `FreeMemIfPossible`, sh_vector.h:123-127 (`used` is not 0 there). -/
def shrinkTo (used sz : Nat) : Nat := if h : 0 < used ∧ used ≤ sz / 2 then shrinkTo used (sz / 2) else sz
termination_by sz

/-- `FreeMemIfPossible`, sh_vector.h:110-133. -/
def Vec.freeMem (v : Vec T) : R (Vec T) :=
  if v.data.isNone then .ok v
  else if v.used = 0 then v.changeSize 0
  else
    let newSize := shrinkTo v.used v.cap
    if newSize ≠ v.cap then v.changeSize newSize else .ok v

/-- `CVector()`, sh_vector.h:286-291. -/
def Vec.init : Vec T := { data := none, cap := 0, used := 0 }

/-- `CVector(const CVector &)`, sh_vector.h:293-301. -/
def Vec.copy (other : Vec T) : R (Vec T) := do
  let a ← copyLoop other.arr (newArr other.used) 0 other.used
  .ok { data := some a, cap := other.used, used := other.used }

/-- `clear`, sh_vector.h:507-516; also the destructor, 303-306. -/
def Vec.clear (_v : Vec T) : Vec T := { data := none, cap := 0, used := 0 }

/-- `at`, sh_vector.h:394-410: the assertion lets `pos == size()` pass. -/
def Vec.at (v : Vec T) (pos : Nat) : R T := rdA v.arr pos

/-- The copying loop of `operator =`, sh_vector.h:313-314. -/
def assignLoop (other : Vec T) (v : Vec T) (i : Nat) : Nat → R (Vec T)
  | 0 => .ok v
  | n + 1 => do
    let x ← other.at i
    let a ← wrA v.arr i x
    assignLoop other { v with data := some a } (i + 1) n

/-- `operator =` from another vector, sh_vector.h:308-316. -/
def Vec.assign (v other : Vec T) : R (Vec T) := do
  let v ← v.clear.changeSize other.used
  let v := { v with used := other.used }
  assignLoop other v 0 other.used

/-- `v = v`: `other` is the vector just cleared, sh_vector.h:308-316. -/
def Vec.assignSelf (v : Vec T) : R (Vec T) := do
  let v := v.clear
  let v ← v.changeSize v.used
  assignLoop v v 0 v.used

/-- `push_back`, sh_vector.h:353-363. -/
def Vec.pushBack (v : Vec T) (x : T) : R (Vec T) := do
  let v ← v.growIfNeeded 1
  let a ← wrA v.arr v.used x
  .ok { v with data := some a, used := v.used + 1 }

/-- `push_back(v[i])`: the argument is a reference into the array, which `Grow` may delete first, sh_vector.h:353-363, 47. -/
def Vec.pushBackOwn (v : Vec T) (i : Nat) : R (Vec T) := do
  let v' ← v.growIfNeeded 1
  if v.used + 1 ≥ v.cap then .error .dangling
  else do
    let x ← rdA v.arr i
    let a ← wrA v'.arr v'.used x
    .ok { v' with data := some a, used := v'.used + 1 }

/-- `pop_back` on a vector that is not empty, sh_vector.h:365-372. -/
def Vec.popBack (v : Vec T) : R (Vec T) := ({ v with used := v.used - 1 } : Vec T).freeMem

/-- The filling loop of `resize`, sh_vector.h:383-384. -/
def fillLoop (x : T) (a : Arr T) (i : Nat) : Nat → R (Arr T)
  | 0 => .ok a
  | n + 1 => do
    let a ← wrA a i x
    fillLoop x a (i + 1) n

/-- `resize`, sh_vector.h:374-387. -/
def Vec.resize (v : Vec T) (newSize : Nat) (x : T) : R (Vec T) := do
  let v ← v.changeSize newSize
  let n := newSize - v.used
  let a ← fillLoop x v.arr v.used n
  .ok { v with data := if n = 0 then v.data else some a, used := newSize }

/-- `reserve`, sh_vector.h:346-351. -/
def Vec.reserve (v : Vec T) (newSize : Nat) : R (Vec T) := if newSize > v.cap then v.changeSize newSize else .ok v

/-- `for (ptr = …; ptr >= where; --ptr) *(ptr + 1) = *ptr` for `n` elements from `ofs`, sh_vector.h:476-477. -/
def shiftUp (a : Arr T) (ofs : Nat) : Nat → R (Arr T)
  | 0 => .ok a
  | n + 1 => do
    let x ← rdA a (ofs + n)
    let a ← wrA a (ofs + n + 1) x
    shiftUp a ofs n

/-- `insert` at index `ofs`; `none` = the iterator was refused, sh_vector.h:458-482. -/
def Vec.insert (v : Vec T) (ofs : Nat) (x : T) : R (Vec T × Option Nat) :=
  if ofs > v.used then .ok (v, none)
  else do
    let v ← v.growIfNeeded 1
    let v := { v with used := v.used + 1 }
    let a ← shiftUp v.arr ofs (v.used - 1 - ofs)
    let a ← wrA a ofs x
    .ok ({ v with data := some a }, some ofs)

/-- `for (ptr = where + 1; ptr < theend; ++ptr) *(ptr - 1) = *ptr`, `n` rounds, sh_vector.h:496-497. -/
def shiftDown (a : Arr T) (i : Nat) : Nat → R (Arr T)
  | 0 => .ok a
  | n + 1 => do
    let x ← rdA a (i + 1)
    let a ← wrA a i x
    shiftDown a (i + 1) n

/-- `erase` at index `ofs`; `none` = the iterator was refused, sh_vector.h:484-505. -/
def Vec.erase (v : Vec T) (ofs : Nat) : R (Vec T × Option Nat) :=
  if ofs ≥ v.used then .ok (v, none)
  else do
    let a ← if v.used > 1 then shiftDown v.arr ofs (v.used - 1 - ofs) else .ok v.arr
    let v := { v with data := v.data.map fun _ => a, used := v.used - 1 }
    let v ← v.freeMem
    .ok (v, some ofs)

end Verif.Cont
