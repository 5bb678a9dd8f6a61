import Verif.Jit32.HookFunc
import Verif.Jit.HookAccept
/-
Which prototypes the 32-bit generator takes: core/sourcehook/sourcehook_hookmangen_x86.cpp:1795-1951
(`PassInfoSupported`, `AutoDetectRetType`, `AutoDetectParamFlags`, `Generate`), for GCC on Linux, up
to the generation of the code.  `Clear` (70-84) and the copy of the prototype made by `BuildProtoInfo`
(86-124) are in `Gen/Context.lean`.
-/
namespace Verif.Jit32

open Verif.Jit (flagByVal flagByRef flagODtor flagOCtor flagAssignOp flagCCtor
  flagRetMem flagRetReg typeBasic typeFloat typeObject convThisCall)

/-- core/sourcehook/sourcehook_hookmangen_x86.cpp:1795-1834 `PassInfoSupported`. -/
def supported (p : Pass) : Bool :=
  if p.type ≠ typeBasic ∧ p.type ≠ typeFloat ∧ p.type ≠ typeObject then false
  else if p.type = typeObject ∧ p.has flagByVal = true ∧
      ((p.has flagCCtor = true ∧ p.cctor = 0) ∨ (p.has flagODtor = true ∧ p.dtor = 0) ∨
       (p.has flagAssignOp = true ∧ p.assign = 0) ∨ (p.has flagOCtor = true ∧ p.ctor = 0)) then false
  else p.flags &&& (flagByVal ||| flagByRef) != 0

/-- core/sourcehook/sourcehook_hookmangen_x86.cpp:1836-1893 `AutoDetectRetType`: the flags
afterwards. -/
def autoDetect (p : Pass) : BitVec 32 :=
  if p.has flagByVal then
    if p.type = typeBasic ∨ p.type = typeFloat then
      if p.size ≤ 8 then (p.flags &&& ~~~flagRetMem) ||| flagRetReg
      else (p.flags &&& ~~~flagRetReg) ||| flagRetMem
    else if p.type = typeObject then
      if p.flags &&& (flagRetMem ||| flagRetReg) = 0 then p.flags ||| flagRetMem else p.flags
    else p.flags
  else (p.flags &&& ~~~flagRetMem) ||| flagRetReg

/-- core/sourcehook/sourcehook_hookmangen_x86.cpp:1895-1909 `AutoDetectParamFlags`: the flags of one
parameter afterwards. -/
def forceRef (p : Pass) : BitVec 32 :=
  if p.type = typeObject ∧ p.has flagByVal = true ∧ p.has flagODtor = true then
    p.flags ||| flagForced
  else p.flags

/-- What `Generate` looks at (core/sourcehook/sourcehook_impl_cproto.h:97-130 `CProto`). -/
structure Proto where
  version : Int
  convention : BitVec 32
  ret : Pass
  params : List Pass

/-- core/sourcehook/sourcehook_hookmangen_x86.cpp:1927-1928: the flags completed. -/
def Proto.detected (p : Proto) : Proto :=
  { p with ret := { p.ret with flags := autoDetect p.ret }
           params := p.params.map fun q => { q with flags := forceRef q } }

/-- core/sourcehook/sourcehook_hookmangen_x86.cpp:1911-1951 `Generate`: are the functions
generated? -/
def accepts (p : Proto) : Bool :=
  if p.version < 1 then false
  else
    let p := p.detected
    if p.convention &&& ~~~convVafmt ≠ convThisCall then false
    else if p.ret.size ≠ 0 ∧ supported p.ret = false then false
    else p.params.all supported

end Verif.Jit32
