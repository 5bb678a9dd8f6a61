import Verif.Jit.Asm
/-
The generated "public function" of a hook manager made at run time:
core/sourcehook/sourcehook_hookmangen_x86_64.cpp:1293-1401 `GeneratePubFunc`, in the form for
64-bit Windows (the `MSVC_ONLY` parts; see Verif.Jit.Machine).

Simplified: `GetFuncInfo(&IHookManagerInfo::SetInfo)` (1344-1354) succeeds; the index it finds is a
parameter.
-/
namespace Verif.Jit

/-- The members of the generator that go into the code
(core/sourcehook/sourcehook_hookmangen_x86_64.h:70-83): addresses of the cell for the hook manager
info, of the prototype, of the cell with the hook function; the place of the hooked function; and
the index of `SetInfo` in the virtual table of `IHookManagerInfo`. -/
structure Pub where
  pHI : BitVec 64
  builtPI : BitVec 64
  hookFunc : BitVec 64
  vtblOffs : Int
  vtblIdx : Int
  setInfo : Nat

/-- core/sourcehook/sh_asm.h:38-67: push the bytes of some calls. -/
def emit (buf : List Byte) (ops : List Op) : List Byte := buf ++ ops.flatMap Op.bytes

/-- core/sourcehook/sourcehook_hookmangen_x86_64.cpp:1309-1330: prologue, the two parameters to
R8 and R9, the test of `store`. -/
def pubStart : List Op :=
  [.subImm rsp (i32 0x38), .mov r8 rcx, .mov r9 rdx, .testImm r8 (i32 0x1)]

/-- core/sourcehook/sourcehook_hookmangen_x86_64.cpp:1334-1335: `*m_pHI = hi`. -/
def pubStore (p : Pub) : List Op := [.movImm64 rax p.pHI, .store (at_ rax 0) r9]

/-- core/sourcehook/sourcehook_hookmangen_x86_64.cpp:1357-1381: the call of `SetInfo`;
`SH_HOOKMAN_VERSION` is 1 (core/sourcehook/sourcehook.h:36), `SIZE_PTR` is 8. -/
def pubCall (p : Pub) : List Op :=
  [.load rax (at_ r9 0), .load rax (at_ rax (8 * p.setInfo)),
   .mov rcx r9, .movImm rdx (i32 1), .movImm r8 (i32 p.vtblOffs), .movImm r9 (i32 p.vtblIdx),
   .movImm64 r10 p.builtPI, .store (at_ rsp 0x20) r10,
   .movImm64 r10 p.hookFunc, .store (at_ rsp 0x28) r10,
   .call rax]

/-- core/sourcehook/sourcehook_hookmangen_x86_64.cpp:1390-1397: epilogue, return 0. -/
def pubEnd : List Op := [.addImm rsp (i32 0x38), .xor rax rax, .retn]

/-- core/sourcehook/sourcehook_hookmangen_x86_64.cpp:1293-1401 `GeneratePubFunc`: the contents of
`m_PubFunc`.  Both conditional jumps are written with distance 0 and patched afterwards. -/
def generatePubFunc (p : Pub) : Option (List Byte) :=
  let b := emit [] (pubStart ++ [.jz (i32 0)])
  let storeOff := b.length
  let b := emit b (pubStore p)
  match rewrite32 b (storeOff - 4) (i32 (b.length - storeOff : Nat)) with
  | none => none
  | some b =>
    let b := emit b [.test r9 r9, .jz (i32 0)]
    let jumpOff := b.length
    let b := emit b (pubCall p)
    match rewrite32 b (jumpOff - 4) (i32 (b.length - jumpOff : Nat)) with
    | none => none
    | some b => some (emit b pubEnd)

end Verif.Jit
