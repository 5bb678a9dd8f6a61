/-
`SourceHook::Asm::GenBuffer`, core/sourcehook/sh_asm.h:10-125.

* The block from the page allocator is a list of bytes of its own; that blocks do not overlap and are as long as asked for
  is C25 (Verif/Page/AllocProps.lean).  Whether `Alloc` succeeds is given to each call.
* Sizes are 32 bits wide.  Writing outside the block is the outcome `fault`.
* `SetRW`/`SetRE` change no byte and are left out.
-/
namespace Verif.Page

/-- `GenBuffer`, sh_asm.h:12-15; `data` is the block `m_pData` points to, `none` for NULL. -/
structure GenBuf where
  data : Option (List Nat)
  size : Nat
  allocated : Nat
  deriving DecidableEq, Repr

/-- The constructor, sh_asm.h:17-19. -/
def GenBuf.init : GenBuf := { data := none, size := 0, allocated := 0 }

/-- `memcpy` of `bs` into the block at offset `at_`; `none` when it leaves the block (or `m_pData` is NULL).
No counterpart in /repo: the C library, called at core/sourcehook/sh_asm.h:38-79. -/
def blkWrite (data : Option (List Nat)) (at_ : Nat) (bs : List Nat) : Option (Option (List Nat)) := match data with
  | none => if bs = [] then some none else none
  | some d => if at_ + bs.length ≤ d.length then some (some (d.take at_ ++ bs ++ d.drop (at_ + bs.length))) else none

/-- The new `m_AllocatedSize`, sh_asm.h:43-45. -/
def growSize (newSize allocated : Nat) : Nat :=
  let a := if newSize > allocated * 2 % 2 ^ 32 then newSize else allocated * 2 % 2 ^ 32
  if a < 64 then 64 else a

/-- The new block: filled with 0xCC, then the old bytes copied, sh_asm.h:55-56; `none` when the copy leaves one of the blocks. -/
def freshBlock (data : Option (List Nat)) (size allocated : Nat) : Option (List Nat) := match data with
  | none => if size = 0 then some (List.replicate allocated 0xCC) else none
  | some d => if size ≤ d.length ∧ size ≤ allocated then some (d.take size ++ List.replicate (allocated - size) 0xCC) else none

/-- `push`, sh_asm.h:38-67; `ok` tells whether `Alloc` succeeds.  `none` is undefined behaviour. -/
def GenBuf.push (b : GenBuf) (bs : List Nat) (ok : Bool) : Option GenBuf :=
  let newSize := (b.size + bs.length) % 2 ^ 32
  if newSize > b.allocated then
    let allocated := growSize newSize b.allocated
    if ok then
      match freshBlock b.data b.size allocated with
      | none => none
      | some d => match blkWrite (some d) b.size bs with
        | none => none
        | some data => some { data := data, size := newSize, allocated := allocated }
    else some { b with allocated := allocated }
  else match blkWrite b.data b.size bs with
    | none => none
    | some data => some { b with data := data, size := newSize }

/-- `rewrite`, sh_asm.h:74-79 (the assertion is compiled out). -/
def GenBuf.rewrite (b : GenBuf) (at_ : Nat) (bs : List Nat) : Option GenBuf := match blkWrite b.data at_ bs with
  | none => none
  | some data => some { b with data := data }

/-- `clear`, sh_asm.h:81-88. -/
def GenBuf.clear (_ : GenBuf) : GenBuf := GenBuf.init

/-- The operations. No counterpart in /repo. -/
inductive GOp where
  | push (bs : List Nat) (ok : Bool)
  | rewrite (at_ : Nat) (bs : List Nat)
  | clear

/-- One operation. No counterpart in /repo: the operations above under one name. -/
def gstep (b : GenBuf) : GOp → Option GenBuf
  | .push bs ok => b.push bs ok
  | .rewrite a bs => b.rewrite a bs
  | .clear => some b.clear

/-- A sequence of operations. No counterpart in /repo. -/
def grun (b : GenBuf) : List GOp → Option GenBuf
  | [] => some b
  | o :: os => match gstep b o with
    | none => none
    | some b' => grun b' os

/-- What a caller reads: the first `GetSize()` bytes of `GetData()`. core/sourcehook/sh_asm.h:24, 28. -/
def GenBuf.code (b : GenBuf) : List Nat := match b.data with
  | none => []
  | some d => d.take b.size

/-- `start_count`/`end_count`, sh_asm.h:117-124: the difference of two positions, 32 bits wide. -/
def countBetween (start stop : Nat) : Nat := (stop + 2 ^ 32 - start) % 2 ^ 32

end Verif.Page
