import Verif.Cont.Vec
/-
`SourceHook::CStack`, core/sourcehook/sh_stack.h: a stack in sectors of 16 elements; the sector table is a `CVector` of
pointers.  A sector from `new T[16]` is an array at an address the allocator picks.

Copying is in Verif/Cont/Copy.lean.  `pop` is modelled on a stack that is not empty.
-/
namespace Verif.Cont

variable {T : Type}

/-- `m_Sectors`, `m_UsedSize`, sh_stack.h:22-26, and the memory of the sectors. -/
structure CStack (T : Type) where
  sec : Vec Nat
  used : Nat
  mem : Nat → Option (Arr T)

/-- `CStack()`, sh_stack.h:109-111. -/
def CStack.init : CStack T := { sec := Vec.init, used := 0, mem := fun _ => none }

/-- The address of element `x`: its sector and place, sh_stack.h:147-150. -/
def CStack.loc (s : CStack T) (x : Nat) : R (Nat × Nat) := do
  let a ← s.sec.at (x / 16)
  .ok (a, x % 16)

/-- Reading through a pointer. No counterpart in /repo: a C++ operator. -/
def CStack.load (s : CStack T) (p : Nat × Nat) : R T := match s.mem p.1 with
  | none => .error .dangling
  | some a => rdA a p.2

/-- Writing through a pointer. No counterpart in /repo: a C++ operator. -/
def CStack.store (s : CStack T) (p : Nat × Nat) (x : T) : R (CStack T) := match s.mem p.1 with
  | none => .error .dangling
  | some a => do
    let a ← wrA a p.2 x
    .ok { s with mem := upd s.mem p.1 (some a) }

/-- `at`, sh_stack.h:147-155. -/
def CStack.at (s : CStack T) (x : Nat) : R T := do
  let p ← s.loc x
  s.load p

/-- The new sector of `push` and `make_next`, put at `n`, sh_stack.h:159-163, 173-177. -/
def CStack.room (s : CStack T) (n : Nat) : R (CStack T) :=
  if s.used / 16 ≥ s.sec.used then do
    let sec ← s.sec.pushBack n
    .ok { s with sec := sec, mem := upd s.mem n (some (newArr 16)) }
  else .ok s

/-- `push`, sh_stack.h:157-169. -/
def CStack.push (s : CStack T) (n : Nat) (x : T) : R (CStack T) := do
  let s ← s.room n
  let p ← s.loc s.used
  let s ← s.store p x
  .ok { s with used := s.used + 1 }

/-- `make_next`, sh_stack.h:171-180. -/
def CStack.makeNext (s : CStack T) (n : Nat) : R (CStack T × (Nat × Nat)) := do
  let s ← s.room n
  let p ← s.loc s.used
  .ok ({ s with used := s.used + 1 }, p)

/-- `pop`, sh_stack.h:182-185. -/
def CStack.pop (s : CStack T) : CStack T := { s with used := s.used - 1 }

/-- `popall`, sh_stack.h:187-190. -/
def CStack.popall (s : CStack T) : CStack T := { s with used := 0 }

/-- `front`, sh_stack.h:192-200. -/
def CStack.front (s : CStack T) : R T := s.at (s.used - 1)

/-- `second`, sh_stack.h:202-210. -/
def CStack.second (s : CStack T) : R T := s.at (s.used - 2)

end Verif.Cont
