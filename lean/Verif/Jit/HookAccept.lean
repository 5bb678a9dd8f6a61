import Verif.Jit.HookFunc
/-
Which prototypes the generator takes: core/sourcehook/sourcehook_hookmangen_x86_64.cpp:214-293
(`Generate`, `PassInfoSupported`), up to the generation of the code.
-/
namespace Verif.Jit

/-- core/sourcehook/sourcehook.h:235 `CallConv_ThisCall`. -/
abbrev convThisCall : BitVec 32 := 1
/-- core/sourcehook/sourcehook.h:239 `CallConv_HasVarArgs`. -/
abbrev convVarArgs : BitVec 32 := 0x10000
/-- core/sourcehook/sourcehook.h:240 `CallConv_HasVafmt`. -/
abbrev convVafmt : BitVec 32 := 0x30000

/-- What `Generate` looks at (core/sourcehook/sourcehook_impl_cproto.h:97-130 `CProto`). -/
structure Proto where
  version : Int
  convention : BitVec 32
  ret : Pass
  params : List Pass

/-- core/sourcehook/sourcehook_hookmangen_x86_64.cpp:225-231: the flags of the returned value are
completed (those of the parameters stay, 1289-1291). -/
def Proto.detected (p : Proto) : Proto := { p with ret := { p.ret with flags := autoDetect p.ret } }

/-- core/sourcehook/sourcehook_hookmangen_x86_64.cpp:214-255 `Generate`: are the functions
generated? -/
def accepts (p : Proto) : Bool :=
  if p.version < 1 then false
  else
    let p := p.detected
    if p.convention &&& ~~~convVafmt ≠ convThisCall then false
    else if p.ret.size ≠ 0 ∧ supported p.ret = false then false
    else p.params.all supported

end Verif.Jit
