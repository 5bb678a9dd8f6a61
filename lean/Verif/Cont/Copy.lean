import Verif.Cont.Hash
import Verif.Cont.Stack
import Verif.Cont.Str
/-
Copying containers: the copy constructors and assignment operators of `SourceHook::List`, `CStack`, `THash` and
`String` (those of `CVector` are in Verif/Cont/Vec.lean).

Each container keeps its own memory: all of it comes from `new` or `malloc`, so the objects of two containers are never the
same.  `na` gives the addresses of the allocations during a copy, in order.  Assigning a container to itself is modelled
apart: there the source is what the operator has just emptied.
-/
namespace Verif.Cont

variable {T : Type}

/-! ## List -/

/-- The loop of `List(const List &)` and `operator =`, sh_list.h:73-75, 311-313: from `it` on, the `i`-th allocation next. -/
def copyItems (na : Nat → Nat) (src : L T) : Nat → Nat → Nat → L T → R (L T)
  | 0, _, _, _ => .error .fuel
  | n + 1, it, i, l =>
    if it = src.head then .ok l
    else do
      let x ← src.get it
      let l ← pushBack l (na i) x
      let it ← src.getNext it
      copyItems na src n it (i + 1) l

/-- `List(const List &)`, sh_list.h:71-76; the sentinel at `h`, the functions are the memory before. -/
def listCopy (fuel : Nat) (na : Nat → Nat) (src : L T) (h : Nat) (nx pv : Nat → Nat) (ob : Nat → Option T) : R (L T) := do
  let it ← src.getNext src.head
  copyItems na src fuel it 0 (init h nx pv ob)

/-- `operator =` from another list, sh_list.h:308-315. -/
def listAssign (fuel : Nat) (na : Nat → Nat) (l src : L T) : R (L T) := do
  let l ← clear fuel l
  let it ← src.getNext src.head
  copyItems na src fuel it 0 l

/-- The loop when the list is assigned to itself: it reads the list it appends to, sh_list.h:311-313. -/
def selfItems (na : Nat → Nat) : Nat → Nat → Nat → L T → R (L T)
  | 0, _, _, _ => .error .fuel
  | n + 1, it, i, l =>
    if it = l.head then .ok l
    else do
      let x ← l.get it
      let l ← pushBack l (na i) x
      let it ← l.getNext it
      selfItems na n it (i + 1) l

/-- `l = l`, sh_list.h:308-315. -/
def listAssignSelf (fuel : Nat) (na : Nat → Nat) (l : L T) : R (L T) := do
  let l ← clear fuel l
  let it ← l.getNext l.head
  selfItems na fuel it 0 l

/-! ## CStack -/

/-- `dst[i] = src[i]` for an element of a sector.  `plain`: the element type has no default constructor, so that reading an
element never assigned is undefined; else such an element is copied like any other, sh_stack.h:122-123, 135-136. -/
def cellCopy (plain : Bool) (src : Arr T) (i : Nat) : R (Option T) :=
  match src[i]? with
  | none => .error .outOfBounds
  | some none => if plain then .error .uninit else .ok none
  | some (some x) => .ok (some x)

/-- The inner loop, `n` rounds from `i` on, sh_stack.h:122-123, 135-136. -/
def copyCells (plain : Bool) (src dst : Arr T) (i : Nat) : Nat → R (Arr T)
  | 0 => .ok dst
  | n + 1 => do
    let x ← cellCopy plain src i
    if i < dst.length then copyCells plain src (dst.set i x) (i + 1) n else .error .outOfBounds

/-- The outer loop over the sectors of the other stack, sh_stack.h:118-124, 131-137; the new sector is `m_Sectors.back()`,
just allocated at `na j`. -/
def copySectors (plain : Bool) (na : Nat → Nat) (mem : Nat → Option (Arr T)) : List (Option Nat) → Nat → CStack T → R (CStack T)
  | [], _, s => .ok s
  | none :: _, _, _ => .error .uninit
  | some a :: as, j, s => do
    let sec ← s.sec.pushBack (na j)
    let b ← sec.at (sec.used - 1)
    match mem a with
    | none => .error .dangling
    | some src => do
      let dst ← copyCells plain src (newArr 16) 0 16
      copySectors plain na mem as (j + 1) { s with sec := sec, mem := upd s.mem b (some dst) }

/-- `CStack(const CStack &)`, sh_stack.h:116-126. -/
def CStack.copy (plain : Bool) (na : Nat → Nat) (other : CStack T) : R (CStack T) := do
  let s ← copySectors plain na other.mem (other.sec.arr.take other.sec.used) 0
    { sec := Vec.init, used := 0, mem := fun _ => none }
  .ok { s with used := other.used }

/-- The loop of `clear` over the sectors, sh_stack.h:31-35. -/
def freeSectors (mem : Nat → Option (Arr T)) : List (Option Nat) → R (Nat → Option (Arr T))
  | [] => .ok mem
  | none :: _ => .error .uninit
  | some a :: as =>
    match mem a with
    | none => .error .dangling
    | some _ => freeSectors (upd mem a none) as

/-- `clear`, sh_stack.h:29-37: `m_UsedSize` stays. -/
def CStack.clear (s : CStack T) : R (CStack T) := do
  let mem ← freeSectors s.mem (s.sec.arr.take s.sec.used)
  .ok { s with sec := s.sec.clear, mem := mem }

/-- `operator =` from another stack, sh_stack.h:128-140. -/
def CStack.assign (plain : Bool) (na : Nat → Nat) (s other : CStack T) : R (CStack T) := do
  let s ← s.clear
  let s ← copySectors plain na other.mem (other.sec.arr.take other.sec.used) 0 s
  .ok { s with used := other.used }

/-- `s = s`: the sectors to copy are those left by `clear`, sh_stack.h:128-140. -/
def CStack.assignSelf (plain : Bool) (na : Nat → Nat) (s : CStack T) : R (CStack T) := do
  let s ← s.clear
  let s ← copySectors plain na s.mem (s.sec.arr.take s.sec.used) 0 s
  .ok { s with used := s.used }

/-! ## THash -/

section
variable {K V : Type} [DecidableEq K]

/-- The loop of the copy constructor and of `operator =`, sh_tinyhash.h:66-67, 72-73; `const_iterator` is the same code as
`iterator`, 353-449. -/
def copyEntries (full : Nat → Nat → Bool) (hash : K → Int) (d : V) (na : Nat → Nat) (other : TH K V) : Nat → It → Nat → TH K V → R (TH K V)
  | 0, _, _, _ => .error .fuel
  | n + 1, it, i, h =>
    if it.fin then .ok h
    else do
      let kv ← other.deref it
      let h ← h.put full hash d (na i) kv.1 kv.2
      let it ← other.inc it
      copyEntries full hash d na other n it (i + 1) h

/-- `THash(const THash &)`, sh_tinyhash.h:61-68. -/
def TH.copy (full : Nat → Nat → Bool) (hash : K → Int) (d : V) (na : Nat → Nat) (n : Nat) (other : TH K V) : R (TH K V) := do
  let it ← other.begin
  copyEntries full hash d na other n it 0 { b := List.replicate other.b.length none, pct := other.pct, mem := fun _ => none }

/-- `operator =` from another table, sh_tinyhash.h:69-74. -/
def TH.assign (full : Nat → Nat → Bool) (hash : K → Int) (d : V) (na : Nat → Nat) (n : Nat) (h other : TH K V) : R (TH K V) := do
  let h ← h.clear hash
  let it ← other.begin
  copyEntries full hash d na other n it 0 h

/-- The loop when the table is assigned to itself, sh_tinyhash.h:72-73. -/
def selfEntries (full : Nat → Nat → Bool) (hash : K → Int) (d : V) (na : Nat → Nat) : Nat → It → Nat → TH K V → R (TH K V)
  | 0, _, _, _ => .error .fuel
  | n + 1, it, i, h =>
    if it.fin then .ok h
    else do
      let kv ← h.deref it
      let h ← h.put full hash d (na i) kv.1 kv.2
      let it ← h.inc it
      selfEntries full hash d na n it (i + 1) h

/-- `h = h`, sh_tinyhash.h:69-74. -/
def TH.assignSelf (full : Nat → Nat → Bool) (hash : K → Int) (d : V) (na : Nat → Nat) (n : Nat) (h : TH K V) : R (TH K V) := do
  let h ← h.clear hash
  let it ← h.begin
  selfEntries full hash d na n it 0 h

end

end Verif.Cont

namespace Verif.CStr

open Verif.C (Byte strlen)

/-- `String(const String &)`, sh_string.h:47-52. -/
def Str.copy (junk : Nat → Byte) (src : Str) : C.R Str := do
  let t ← src.cstr
  Str.init.assign junk (some t)

/-- `operator =` from another string, sh_string.h:336-340, 87-90. -/
def Str.assignFrom (junk : Nat → Byte) (s src : Str) : C.R Str := do
  let t ← src.cstr
  s.assign junk (some t)

/-- What `s = s` does with the memory: `strcpy` between overlapping arrays, or from the array `Grow` has deleted, is undefined.
No counterpart in /repo: undefined behaviour, made visible. -/
inductive SelfFault
  | overlap
  | deleted
  | other (f : C.Fault)
  deriving DecidableEq

/-- `s = s`, sh_string.h:336-340, 87-101: the argument of `strcpy` is the string's own array unless there is none. -/
def Str.assignSelf (junk : Nat → Byte) (s : Str) : Except SelfFault Str :=
  match s.v with
  | none =>
    match s.assign junk (some []) with
    | .ok s' => .ok s'
    | .error f => .error (.other f)
  | some b =>
    match strlen b 0 with
    | .error f => .error (.other f)
    | .ok n => if sz (n + 1) ≤ s.cap then .error .overlap else .error .deleted

end Verif.CStr
