import Verif.SH.Proto
import Verif.Cont.Vec
/-
`CProtoInfoBuilder`, core/sourcehook/sourcehook_pibuilder.h:20-105, and the reading of what it hands out by `CProto::Fill`.

* The two vectors are the modelled `CVector`s.  `g1`, `g2` count how often their arrays have been replaced, so a pointer to the
  array is the count at the time it was taken and dangles once the count has moved on.
* `PassInfo` of the model has the fields of both `PassInfo` and `PassInfo::V2Info`; the first vector uses the former, the second
  the latter.  `int flags` is a natural number, `numOfParams` does not overflow.
-/
namespace Verif.SH.Pi

open Verif.Cont

/-- Arguments of `SetReturnType` and `AddParam`, core/sourcehook/sourcehook_pibuilder.h:43-44, 67-68. -/
structure Arg where
  size : Nat
  type : Int
  flags : Nat
  normalCtor : Nat := 0
  copyCtor : Nat := 0
  dtor : Nat := 0
  assignOp : Nat := 0
deriving DecidableEq, Repr

/-- `PassFlag_ODtor` … `PassFlag_CCtor`, core/sourcehook/sourcehook.h:202-205. -/
def flODtor : Nat := 4
/-- core/sourcehook/sourcehook.h:203. -/
def flOCtor : Nat := 8
/-- core/sourcehook/sourcehook.h:204. -/
def flAssignOp : Nat := 16
/-- core/sourcehook/sourcehook.h:205. -/
def flCCtor : Nat := 32

/-- The four `if`s, core/sourcehook/sourcehook_pibuilder.h:46-56 and again 73-83. -/
def allFlags (a : Arg) : Nat :=
  let f := a.flags
  let f := if a.normalCtor ≠ 0 then f ||| flOCtor else f
  let f := if a.copyCtor ≠ 0 then f ||| flCCtor else f
  let f := if a.dtor ≠ 0 then f ||| flODtor else f
  if a.assignOp ≠ 0 then f ||| flAssignOp else f

/-- `PassInfo::V2Info`, core/sourcehook/sourcehook.h:221-227. -/
structure V2 where
  normalCtor : Nat
  copyCtor : Nat
  dtor : Nat
  assignOp : Nat
deriving DecidableEq, Repr

/-- `m_PI`, core/sourcehook/sourcehook.h:230-259; `p1`, `p2` are `paramsPassInfo`, `paramsPassInfo2`, `none` is NULL. -/
structure PI where
  numOfParams : Nat
  ret : PassInfo
  convention : Int
  p1 : Option Nat
  p2 : Option Nat

/-- The builder, core/sourcehook/sourcehook_pibuilder.h:22-24. -/
structure B where
  pi : PI
  v1 : Vec PassInfo
  v2 : Vec V2
  g1 : Nat
  g2 : Nat

/-- Whether `push_back` replaces the array, core/sourcehook/sh_vector.h:56-62. -/
def moves {T : Type} (v : Vec T) : Bool := v.used + 1 ≥ v.cap

/-- `m_Params.push_back(pi); m_Params2.push_back(pi2);`, core/sourcehook/sourcehook_pibuilder.h:39-40, 94-95. -/
def push (b : B) (x : PassInfo) (y : V2) : R B := do
  let v1 ← b.v1.pushBack x
  let v2 ← b.v2.pushBack y
  .ok { b with v1 := v1, v2 := v2, g1 := if moves b.v1 then b.g1 + 1 else b.g1, g2 := if moves b.v2 then b.g2 + 1 else b.g2 }

/-- A zeroed `PassInfo`, core/sourcehook/sourcehook_pibuilder.h:34. -/
def zeroInfo : PassInfo := { size := 0, type := 0, flags := 0 }

/-- The constructor, core/sourcehook/sourcehook_pibuilder.h:26-41. -/
def init (cc : Int) : R B :=
  push { pi := { numOfParams := 0, ret := zeroInfo, convention := cc, p1 := none, p2 := none },
         v1 := Vec.init, v2 := Vec.init, g1 := 0, g2 := 0 }
    { zeroInfo with size := 1 } ⟨0, 0, 0, 0⟩

/-- `SetReturnType`, core/sourcehook/sourcehook_pibuilder.h:43-65. -/
def setRet (a : Arg) (b : B) : B :=
  { b with pi := { b.pi with ret :=
    { size := a.size, type := a.type, flags := allFlags a, normalCtor := a.normalCtor, copyCtor := a.copyCtor,
      dtor := a.dtor, assignOp := a.assignOp } } }

/-- `AddParam`, core/sourcehook/sourcehook_pibuilder.h:67-97. -/
def addParam (a : Arg) (b : B) : R B := do
  let b ← push b { size := a.size, type := a.type, flags := allFlags a } ⟨a.normalCtor, a.copyCtor, a.dtor, a.assignOp⟩
  .ok { b with pi := { b.pi with numOfParams := b.pi.numOfParams + 1 } }

/-- `operator ProtoInfo*()`, core/sourcehook/sourcehook_pibuilder.h:99-104. -/
def convert (b : B) : B := { b with pi := { b.pi with p1 := some b.g1, p2 := some b.g2 } }

/-- Reading through a pointer to an array of a vector; NULL holds nothing. No counterpart in /repo: a C++ operator. -/
def deref {T : Type} (p : Option Nat) (g : Nat) (v : Vec T) (i : Nat) : R T :=
  match p with
  | none => .error .outOfBounds
  | some q => if q = g then rdA v.arr i else .error .dangling

/-- The loop of `CProto::Fill` for version 2, core/sourcehook/sourcehook_impl_cproto.cpp:72-82. -/
def readParams (b : B) (i : Nat) : Nat → R (List PassInfo)
  | 0 => .ok []
  | n + 1 => do
    let a ← deref b.pi.p1 b.g1 b.v1 i
    let v ← deref b.pi.p2 b.g2 b.v2 i
    let rest ← readParams b (i + 1) n
    .ok ({ a with normalCtor := v.normalCtor, copyCtor := v.copyCtor, dtor := v.dtor, assignOp := v.assignOp } :: rest)

/-- `CProto::Fill` on the builder's `m_PI`, core/sourcehook/sourcehook_impl_cproto.cpp:17-90.  `none`: a version other than 2. -/
def fill (b : B) : R (Option Proto) := do
  let d ← deref b.pi.p1 b.g1 b.v1 0
  if d.size = 1 then
    let ps ← readParams b 1 b.pi.numOfParams
    .ok (Proto.fill { version := -1, numParams := 0, ret := zeroInfo, params := [], convention := 0 }
      { numOfParams := b.pi.numOfParams, retInfo := b.pi.ret, dummySize := d.size, params := ps, convention := b.pi.convention })
  else .ok none

/-- What a user of the builder can do. No counterpart in /repo: the public functions of the class. -/
inductive Op where
  | setRet (a : Arg)
  | addParam (a : Arg)
  | convert
deriving DecidableEq, Repr

/-- One operation. No counterpart in /repo: dispatch on `Op`. -/
def step (b : B) : Op → R B
  | .setRet a => .ok (setRet a b)
  | .addParam a => addParam a b
  | .convert => .ok (convert b)

/-- A sequence of operations. No counterpart in /repo: the code of the user. -/
def run (b : B) : List Op → R B
  | [] => .ok b
  | o :: os => do
    let b ← step b o
    run b os

end Verif.SH.Pi
