/-
`SourceHook::List`, core/sourcehook/sh_list.h: a circular doubly linked list with a sentinel, as a
pointer machine.  `next`, `prev` and `obj` are the fields of the nodes by address; a field of a
node that is not `live` (never allocated, or deleted) cannot be accessed: that is the outcome
`dangling`.  Fields of a new node keep whatever the functions held before (uninitialised memory).
The sentinel comes from `malloc` without a constructor, so its `obj` is no object: `uninit`.
-/
namespace Verif.Cont

/-- No counterpart in /repo: undefined behaviour, made visible. -/
inductive Fault
  | dangling
  | uninit
  | fuel
  | outOfBounds
  deriving DecidableEq, Repr

/-- No counterpart in /repo: a result, or undefined behaviour. -/
abbrev R := Except Fault

/-- `f` with the value at `a` replaced. No counterpart in /repo. -/
def upd {β : Type} (f : Nat → β) (a : Nat) (v : β) : Nat → β := fun x => if x = a then v else f x

/-- `m_Head`, `m_Size` and the nodes, sh_list.h:47-55, 152-154. -/
structure L (T : Type) where
  head : Nat
  size : Nat
  next : Nat → Nat
  prev : Nat → Nat
  obj : Nat → Option T
  live : Nat → Bool

variable {T : Type}

/-- Any access to the node at `a`. No counterpart in /repo: the fields are those of `ListNode`, core/sourcehook/sh_list.h:48-56. -/
def L.chk (l : L T) (a : Nat) : R Unit := if l.live a then .ok () else .error .dangling

/-- `a->next`. Field at core/sourcehook/sh_list.h:54. -/
def L.getNext (l : L T) (a : Nat) : R Nat := do l.chk a; .ok (l.next a)
/-- `a->prev`. Field at core/sourcehook/sh_list.h:55. -/
def L.getPrev (l : L T) (a : Nat) : R Nat := do l.chk a; .ok (l.prev a)
/-- `a->next = v`. Field at core/sourcehook/sh_list.h:54. -/
def L.setNext (l : L T) (a v : Nat) : R (L T) := do l.chk a; .ok { l with next := upd l.next a v }
/-- `a->prev = v`. Field at core/sourcehook/sh_list.h:55. -/
def L.setPrev (l : L T) (a v : Nat) : R (L T) := do l.chk a; .ok { l with prev := upd l.prev a v }
/-- `a->obj` through an iterator, sh_list.h:209-226. -/
def L.get (l : L T) (a : Nat) : R T := do
  l.chk a
  match l.obj a with
  | some x => .ok x
  | none => .error .uninit
/-- `new ListNode(x)` returning the address `a`, sh_list.h:50. -/
def L.new (l : L T) (a : Nat) (x : T) : L T := { l with obj := upd l.obj a (some x), live := upd l.live a true }
/-- `delete a`. No counterpart in /repo: a C++ operator; used at core/sourcehook/sh_list.h:122-138. -/
def L.del (l : L T) (a : Nat) : R (L T) := do l.chk a; .ok { l with live := upd l.live a false }

/-- `List()` with the sentinel at `h`, sh_list.h:59-69; the functions are the memory before. -/
def init (h : Nat) (nx pv : Nat → Nat) (ob : Nat → Option T) : L T :=
  { head := h, size := 0, next := upd nx h h, prev := upd pv h h, obj := upd ob h none, live := fun x => x == h }

/-- `push_back`, sh_list.h:88-98; the new node gets the address `a`. -/
def pushBack (l : L T) (a : Nat) (x : T) : R (L T) := do
  let l := l.new a x
  let hp ← l.getPrev l.head
  let l ← l.setPrev a hp
  let l ← l.setNext a l.head
  let hp ← l.getPrev l.head
  let l ← l.setNext hp a
  let l ← l.setPrev l.head a
  .ok { l with size := l.size + 1 }

/-- `insert`, sh_list.h:267-282. -/
def insert (l : L T) (w a : Nat) (x : T) : R (L T × Nat) := do
  let l := l.new a x
  let wp ← l.getPrev w
  let l ← l.setNext wp a
  let wp ← l.getPrev w
  let l ← l.setPrev a wp
  let l ← l.setPrev w a
  let l ← l.setNext a w
  .ok ({ l with size := l.size + 1 }, a)

/-- `push_front`, sh_list.h:100-103. -/
def pushFront (l : L T) (a : Nat) (x : T) : R (L T) := do
  let b ← l.getNext l.head
  let (l, _) ← insert l b a x
  .ok l

/-- `erase`, sh_list.h:250-265. -/
def erase (l : L T) (w : Nat) : R (L T × Nat) := do
  let it ← l.getNext w
  let p ← l.getPrev w
  let n ← l.getNext w
  let l ← l.setNext p n
  let n ← l.getNext w
  let p ← l.getPrev w
  let l ← l.setPrev n p
  let l ← l.del w
  .ok ({ l with size := l.size - 1 }, it)

/-- The loop of `clear`, sh_list.h:132-137. -/
def clearLoop : Nat → L T → Nat → R (L T)
  | 0, _, _ => .error .fuel
  | n + 1, l, a => if a = l.head then .ok l else do
    let t ← l.getNext a
    let l ← l.del a
    clearLoop n l t

/-- `clear`, sh_list.h:124-139. -/
def clear (fuel : Nat) (l : L T) : R (L T) := do
  let a ← l.getNext l.head
  let l ← l.setNext l.head l.head
  let l ← l.setPrev l.head l.head
  let l ← clearLoop fuel l a
  .ok { l with size := 0 }

/-- `~List`, sh_list.h:77-87. -/
def destroy (fuel : Nat) (l : L T) : R (L T) := do
  let l ← clear fuel l
  l.del l.head

/-- The loop of `find`, sh_list.h:300-306, for the comparison `== equ`. -/
def findLoop (eq : T → Bool) : Nat → L T → Nat → R Nat
  | 0, _, _ => .error .fuel
  | n + 1, l, it => if it = l.head then .ok l.head else do
    let v ← l.get it
    if eq v then .ok it else do
      let it ← l.getNext it
      findLoop eq n l it

/-- `find`, sh_list.h:297-307. -/
def find (fuel : Nat) (eq : T → Bool) (l : L T) : R Nat := do
  let b ← l.getNext l.head
  findLoop eq fuel l b

/-- The loop of `remove`, sh_list.h:287-295. -/
def removeLoop (eq : T → Bool) : Nat → L T → Nat → R (L T)
  | 0, _, _ => .error .fuel
  | n + 1, l, it => if it = l.head then .ok l else do
    let v ← l.get it
    if eq v then do
      let (l, _) ← erase l it
      .ok l
    else do
      let it ← l.getNext it
      removeLoop eq n l it

/-- `remove`, sh_list.h:285-296. -/
def remove (fuel : Nat) (eq : T → Bool) (l : L T) : R (L T) := do
  let b ← l.getNext l.head
  removeLoop eq fuel l b

/-- The loop of `push_sorted`, sh_list.h:108-115. -/
def sortedLoop (lt : T → T → Bool) (a : Nat) (x : T) : Nat → L T → Nat → R (L T)
  | 0, _, _ => .error .fuel
  | n + 1, l, it => if it = l.head then pushBack l a x else do
    let v ← l.get it
    if lt x v then do
      let (l, _) ← insert l it a x
      .ok l
    else do
      let it ← l.getNext it
      sortedLoop lt a x n l it

/-- `push_sorted`, sh_list.h:105-117. -/
def pushSorted (fuel : Nat) (lt : T → T → Bool) (l : L T) (a : Nat) (x : T) : R (L T) := do
  let b ← l.getNext l.head
  sortedLoop lt a x fuel l b

/-- `front`, sh_list.h:144-147. -/
def front (l : L T) : R T := do
  let a ← l.getNext l.head
  l.get a

/-- `back`, sh_list.h:148-151. -/
def back (l : L T) : R T := do
  let a ← l.getPrev l.head
  l.get a

/-- The operations, with the iterators (node addresses) and new node addresses they use.  `rd` is `*it`, `inc` is `++it`,
`dec` is `--it`, sh_list.h:177-226; `begin` and `end` are 242-249, `size` 119-122, `empty` 140-143. -/
inductive Op (T : Type)
  | pushBack (a : Nat) (x : T)
  | pushFront (a : Nat) (x : T)
  | pushSorted (lt : T → T → Bool) (a : Nat) (x : T)
  | insert (w a : Nat) (x : T)
  | erase (w : Nat)
  | remove (eq : T → Bool)
  | clear
  | find (eq : T → Bool)
  | size
  | empty
  | front
  | back
  | begin
  | «end»
  | rd (w : Nat)
  | inc (w : Nat)
  | dec (w : Nat)

/-- What an operation returns. No counterpart in /repo. -/
inductive Out (T : Type)
  | unit
  | it (a : Nat)
  | val (x : T)
  | num (n : Nat)
  | bool (b : Bool)

/-- One operation. No counterpart in /repo: the operations above under one name. -/
def step (fuel : Nat) (l : L T) : Op T → R (L T × Out T)
  | .pushBack a x => do .ok (← pushBack l a x, .unit)
  | .pushFront a x => do .ok (← pushFront l a x, .unit)
  | .pushSorted lt a x => do .ok (← pushSorted fuel lt l a x, .unit)
  | .insert w a x => do let r ← insert l w a x; .ok (r.1, .it r.2)
  | .erase w => do let r ← erase l w; .ok (r.1, .it r.2)
  | .remove eq => do .ok (← remove fuel eq l, .unit)
  | .clear => do .ok (← clear fuel l, .unit)
  | .find eq => do .ok (l, .it (← find fuel eq l))
  | .size => .ok (l, .num l.size)
  | .empty => .ok (l, .bool (l.size == 0))
  | .front => do .ok (l, .val (← front l))
  | .back => do .ok (l, .val (← back l))
  | .begin => do .ok (l, .it (← l.getNext l.head))
  | .end => .ok (l, .it l.head)
  | .rd w => do .ok (l, .val (← l.get w))
  | .inc w => do .ok (l, .it (← l.getNext w))
  | .dec w => do .ok (l, .it (← l.getPrev w))

/-- A sequence of operations, with what they returned. No counterpart in /repo. -/
def run (fuel : Nat) (l : L T) : List (Op T) → R (L T × List (Out T))
  | [] => .ok (l, [])
  | o :: os => do
    let (l, out) ← step fuel l o
    let (l, outs) ← run fuel l os
    .ok (l, out :: outs)

end Verif.Cont
