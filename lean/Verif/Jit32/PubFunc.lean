import Verif.Jit32.Asm
/-
Writing code with jumps, and the generated "public function" of a hook manager made at run time on
32-bit x86: core/sourcehook/sourcehook_hookmangen_x86.cpp:1706-1793 `GeneratePubFunc`, in the form
for GCC (the `SH_COMP_GCC` parts).

The writer appends to a buffer; where it writes a forward jump it remembers the place of the
distance (`tmppos`), counts the bytes written from there on (`start_count`, `end_count`) and
overwrites the distance (`rewrite`).
-/
namespace Verif.Jit32

open Verif.Jit (Byte bytes32 rewrite32)

/-- core/sourcehook/sh_asm.h:69-79 `rewrite(offset, what)` for a value of one byte; see
`Verif.Jit.rewrite32`. -/
def rewrite8 (buf : List Byte) (offset : Nat) (v : Byte) : Option (List Byte) :=
  if offset + 1 ≤ buf.length then
    some (buf.take offset ++ [v] ++ buf.drop (offset + 1))
  else none

/-- core/sourcehook/sh_asm.h:38-67: a piece of the generator, as a function from the contents of
the buffer before it to those after it. -/
abbrev Writer := List Byte → Option (List Byte)

/-- core/sourcehook/sh_asm.h:33-67: calls of the functions that write an instruction. -/
def out (ops : List Op) : Writer := fun b => some (b ++ ops.flatMap Op.bytes)

/-- core/sourcehook/sh_asm.h:33-67: one piece after the other. -/
def andThen (x y : Writer) : Writer := fun b => (x b).bind y

/-- core/sourcehook/sourcehook_hookmangen_x86.cpp:1732-1742 (the pattern, used in other places as
well): a conditional jump over a piece, with a distance of one byte. -/
def over8 (c : Fin 16) (body : Writer) : Writer := fun b =>
  let b₁ := b ++ (Op.jcc8 c (i8 0)).bytes
  (body b₁).bind fun b₂ => rewrite8 b₂ (b₁.length - 1) (i8 (b₂.length - b₁.length : Nat))

/-- core/sourcehook/sourcehook_hookmangen_x86.cpp:957-958, 1045-1047 (the pattern): a conditional
jump over a piece, with a distance of four bytes. -/
def over32 (c : Fin 16) (body : Writer) : Writer := fun b =>
  let b₁ := b ++ (Op.jcc32 c (i32 0)).bytes
  (body b₁).bind fun b₂ => rewrite32 b₂ (b₁.length - 4) (i32 (b₂.length - b₁.length : Nat))

/-- core/sourcehook/sourcehook_hookmangen_x86.h:1600-1640: the members of the generator that go
into the public function: the addresses of the cell for the hook manager info, of the prototype, of
the cell with the hook function; the place of the hooked function. -/
structure Pub where
  pHI : BitVec 32
  builtPI : BitVec 32
  hookFunc : BitVec 32
  vtblOffs : Int
  vtblIdx : Int

/-- core/sourcehook/sourcehook_hookmangen_x86.cpp:1722-1731: prologue, `store` to EAX and `hi` to
ECX, the test of `store`. -/
def pubStart : List Op :=
  [.push ebp, .movRegRm ebp esp 3, .movzx8D8 eax ebp (i8 8), .movRegAuto ecx ebp (i32 12),
   .test8RmReg eax eax 3]

/-- core/sourcehook/sourcehook_hookmangen_x86.cpp:1736-1737: `*m_pHI = hi`. -/
def pubStore (p : Pub) : List Op := [.movRmImm edx p.pHI 3, .movRmReg edx ecx 0]

/-- core/sourcehook/sourcehook_hookmangen_x86.cpp:1749-1775: the call of `SetInfo`, the first
virtual function; `SH_HOOKMAN_VERSION` is 1 (core/sourcehook/sourcehook.h:36), `SIZE_MWORD` is 4. -/
def pubCall (p : Pub) : List Op :=
  [.pushImm32 p.hookFunc, .pushImm32 p.builtPI, .pushImm32 (i32 p.vtblIdx),
   .pushImm32 (i32 p.vtblOffs), .pushImm32 (i32 1), .push ecx,
   .movRegRm edx ecx 0, .movRegRm eax edx 0, .call eax, .addImm8 esp (i8 24) 3]

/-- core/sourcehook/sourcehook_hookmangen_x86.cpp:1781-1787: return 0. -/
def pubEnd : List Op := [.xorRegRm eax eax 3, .movRegRm esp ebp 3, .pop ebp, .ret]

/-- core/sourcehook/sourcehook_hookmangen_x86.cpp:1706-1793 `GeneratePubFunc`: the contents of
`m_PubFunc`.  `CC_Z` is 4 (core/sourcehook/sourcehook_hookmangen_x86.h:62-63). -/
def generatePubFunc (p : Pub) : Option (List Byte) :=
  andThen (out pubStart) (andThen (over8 4 (out (pubStore p)))
    (andThen (out [.testRmReg ecx ecx 3]) (andThen (over8 4 (out (pubCall p))) (out pubEnd)))) []

end Verif.Jit32
