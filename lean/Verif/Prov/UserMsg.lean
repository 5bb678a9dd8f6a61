import Verif.Page.Mem
/-
The list of user messages: core/provider/source/provider_source.cpp:500-611 and
core/provider/source/provider_source.h:96-117.  While the list is filled, the first five bytes of `Error` are replaced
by a jump to `Detour_Error`, which leaves through `longjmp`.

* Memory is a function from addresses to bytes together with the protection of pages (`Page/Mem`).
* The server is external: for each index it answers with a message, with `false`, or by calling `Error`.
* `setjmp`/`longjmp` (external) return control to line 548 with the locals `target` and `orig_bytes`, which do not change
  after line 540.
-/
namespace Verif.Prov
open Verif.Page

/-- No counterpart in /repo: the ways in which the process ends. -/
inductive Fault where
  /-- a read, write or execution without permission -/
  | access (a : Nat)
  /-- execution goes on at an address that nobody chose -/
  | wild (a : Nat)
  /-- an unknown instruction -/
  | illegal
  /-- the call does not end -/
  | hang
deriving DecidableEq, Repr

/-- No counterpart in /repo: the memory of the process. -/
structure Proc where
  code : Nat → BitVec 8
  prot : Nat → Option Bits

/-- `UsrMsgInfo`, core/provider/source/provider_source.h:96-106. -/
structure Msg where
  size : Int
  name : List UInt8
deriving DecidableEq, Repr

/-- Answers of `IServerGameDLL::GetUserMessageInfo` (external), called at
core/provider/source/provider_source.cpp:559. -/
inductive Ans where
  | msg (m : Msg)
  | done
  | error
deriving DecidableEq, Repr

/-- No counterpart in /repo: reading a byte; `2 ^ k` is the size of a page. -/
def rd (k : Nat) (p : Proc) (a : Nat) : Except Fault (BitVec 8) := match p.prot (a / 2 ^ k) with
  | some b => if b.r then .ok (p.code a) else .error (.access a)
  | none => .error (.access a)

/-- No counterpart in /repo: writing a byte. -/
def wr (k : Nat) (p : Proc) (a : Nat) (v : BitVec 8) : Except Fault Proc := match p.prot (a / 2 ^ k) with
  | some b => if b.w then .ok { p with code := fun x => if x = a then v else p.code x } else .error (.access a)
  | none => .error (.access a)

/-- No counterpart in /repo: fetching a byte of an instruction. -/
def fetch (k : Nat) (p : Proc) (a : Nat) : Except Fault (BitVec 8) := match p.prot (a / 2 ^ k) with
  | some b => if b.x then .ok (p.code a) else .error (.access a)
  | none => .error (.access a)

/-- The `memcpy` out of the function, core/provider/source/provider_source.cpp:540. -/
def rdAll (k : Nat) (p : Proc) (a : Nat) : Nat → Except Fault (List (BitVec 8))
  | 0 => .ok []
  | n + 1 => do
    let b ← rd k p a
    let r ← rdAll k p (a + 1) n
    .ok (b :: r)

/-- The `memcpy` into the function, core/provider/source/provider_source.cpp:551. -/
def wrAll (k : Nat) (p : Proc) (a : Nat) : List (BitVec 8) → Except Fault Proc
  | [] => .ok p
  | b :: bs => do
    let p ← wr k p a b
    wrAll k p (a + 1) bs

/-- `(int32_t)(detour - (target + 5))` and its four bytes, core/provider/source/provider_source.cpp:545. -/
def disp (target detour : Nat) : BitVec 32 := BitVec.ofInt 32 ((detour : Int) - (target + 5))

/-- The five bytes written, core/provider/source/provider_source.cpp:544-545. -/
def jmpBytes (target detour : Nat) : List (BitVec 8) :=
  let d := disp target detour
  [0xE9#8, d.extractLsb' 0 8, d.extractLsb' 8 8, d.extractLsb' 16 8, d.extractLsb' 24 8]

/-- No counterpart in /repo: the processor at `Error`, with addresses of `w` bits: a relative jump (opcode E9, a signed
displacement of 32 bits, from behind the instruction). -/
def jumpTo (k w : Nat) (p : Proc) (target : Nat) : Except Fault Nat := do
  let op ← fetch k p target
  let b0 ← fetch k p (target + 1)
  let b1 ← fetch k p (target + 2)
  let b2 ← fetch k p (target + 3)
  let b3 ← fetch k p (target + 4)
  if op = 0xE9#8 then
    let d : BitVec 32 := b3 ++ b2 ++ b1 ++ b0
    .ok (((target + 5 : Int) + d.toInt) % 2 ^ w).toNat
  else .error .illegal

/-- Lines 548-554, reached through `longjmp`, core/provider/source/provider_source.cpp:548-554. -/
def restore (k target : Nat) (orig : List (BitVec 8)) (p : Proc) : Except Fault Proc := do
  let p ← wrAll k p target orig
  .ok { p with prot := (setMemAccess k p.prot target 5 ⟨true, false, true⟩).1 }

/-- The loop and what follows it, core/provider/source/provider_source.cpp:556-566 and `Detour_Error`,
core/provider/source/provider_source.cpp:513-517. -/
def loop (k w target detour : Nat) (orig : List (BitVec 8)) (server : Nat → Ans) (p : Proc) :
    (fuel q : Nat) → List Msg → Except Fault (Proc × List Msg)
  | 0, _, _ => .error .hang
  | fuel + 1, q, list => match server q with
    | .msg m => loop k w target detour orig server p fuel (q + 1) (list ++ [m])
    | .done => do
      let p ← restore k target orig p
      .ok (p, list)
    | .error => do
      let a ← jumpTo k w p target
      if a = detour then do
        let p ← restore k target orig p
        .ok (p, list)
      else .error (.wild a)

/-- `CacheUserMessages`, core/provider/source/provider_source.cpp:529-567; `fuel` bounds the number of messages.  The
results of `SetMemAccess` are not looked at. -/
def cache (k w target detour : Nat) (server : Nat → Ans) (fuel : Nat) (p : Proc) (list : List Msg) : Except Fault (Proc × List Msg) := do
  let orig ← rdAll k p target 5
  let p : Proc := { p with prot := (setMemAccess k p.prot target 5 ⟨true, true, true⟩).1 }
  let p ← wrAll k p target (jmpBytes target detour)
  loop k w target detour orig server p fuel 0 list

/-- `GetUserMessageCount`, core/provider/source/provider_source.cpp:570-576. -/
def count (supported : Bool) (list : List Msg) : Int := if supported then list.length else -1

/-- The loop of `FindUserMessage`, core/provider/source/provider_source.cpp:582-592. -/
def findFrom (name : List UInt8) : Nat → List Msg → Int × Option Int
  | _, [] => (-1, none)
  | i, m :: ms => if m.name = name then (i, some m.size) else findFrom name (i + 1) ms

/-- `FindUserMessage`, core/provider/source/provider_source.cpp:578-596: the result, and what is stored through `size`. -/
def find (supported : Bool) (list : List Msg) (name : List UInt8) : Int × Option Int :=
  if supported then findFrom name 0 list else (-1, none)

/-- `GetUserMessage`, core/provider/source/provider_source.cpp:598-611: the name and what is stored through `size`; `none`
is NULL. -/
def get (supported : Bool) (list : List Msg) (index : Int) : Option (List UInt8 × Int) :=
  if !supported ∨ index < 0 ∨ index ≥ list.length then none
  else match list[index.toNat]? with
    | some m => some (m.name, m.size)
    | none => none

end Verif.Prov
