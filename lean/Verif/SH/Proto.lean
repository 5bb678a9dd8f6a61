/-
Model of SourceHook's internal prototype records.
Source: core/sourcehook/sourcehook_impl_cproto.cpp, core/sourcehook/sourcehook_impl_cproto.h
-/
namespace Verif.SH

/-- `IntPassInfo`, sourcehook_impl_cproto.h:24-33.  `size_t`/`unsigned`/pointers are naturals,
`int type` is an integer. -/
structure PassInfo where
  size : Nat
  type : Int
  flags : Nat
  normalCtor : Nat := 0
  copyCtor : Nat := 0
  dtor : Nat := 0
  assignOp : Nat := 0
deriving DecidableEq, Repr, Inhabited

/-- `IntPassInfo::operator==`, sourcehook_impl_cproto.h:35-43.  `pCopyCtor` is *not* compared. -/
def PassInfo.eqv (a b : PassInfo) : Bool :=
  a.size == b.size && a.type == b.type && a.flags == b.flags &&
  a.normalCtor == b.normalCtor && a.dtor == b.dtor && a.assignOp == b.assignOp

/-- `CProto` data members, sourcehook_impl_cproto.h:51-57.  `version = -1` is "invalid".
The vector of parameters and the separate counter `m_NumOfParams` are both kept, since the
comparison loops run to the counter and index the vector. -/
structure Proto where
  version : Int
  numParams : Int
  ret : PassInfo
  params : List PassInfo
  convention : Int
deriving DecidableEq, Repr, Inhabited

/-- `PassFlag_ByVal`, `PassFlag_ByRef`: sourcehook.h:200-201. -/
def flagByVal : Nat := 1
/-- `PassFlag_ByRef`: sourcehook.h:201. -/
def flagByRef : Nat := 2
/-- `sizeof(void*)` on x86-64, used by `GetRealSize`, sourcehook_impl_cproto.h:132-140. -/
def ptrSize : Nat := 8

/-- `CProto::GetRealSize`, sourcehook_impl_cproto.h:132-140. -/
def realSize (p : PassInfo) : Nat :=
  if p.flags &&& flagByRef ≠ 0 then ptrSize else p.size

/-- `CProto::GetRealFlags`, sourcehook_impl_cproto.h:62-65. -/
def realFlags (flags : Nat) : Nat := if flags = 0 then flagByVal else flags

/-- Body of the parameter loop of `CProto::operator==`, sourcehook_impl_cproto.cpp:111-119
(`PassType_Unknown` = 0, sourcehook.h). -/
def paramCompat (a b : PassInfo) : Bool :=
  (realSize a == realSize b) &&
  (if a.type ≠ 0 ∧ b.type ≠ 0 then a.type == b.type && a.flags == b.flags else true)

/-- The loop `for (i = 0; i < m_NumOfParams; ++i)` over both parameter vectors,
sourcehook_impl_cproto.cpp:109-120 and 135-139.  Index out of range of either vector is
undefined behaviour: outcome `none`. -/
def paramLoop (f : PassInfo → PassInfo → Bool) : Nat → List PassInfo → List PassInfo → Option Bool
  | 0, _, _ => some true
  | n + 1, a :: as, b :: bs => if f a b then paramLoop f n as bs else some false
  | _ + 1, _, _ => none

/-- `CProto::operator==`, sourcehook_impl_cproto.cpp:94-123 (`CallConv_Unknown` = 0).
Outcome `none` is an out-of-bounds read. -/
def Proto.eq? (a b : Proto) : Option Bool :=
  if a.version < 0 ∨ b.version < 0 then some false
  else if a.numParams ≠ b.numParams then some false
  else if a.convention ≠ 0 ∧ b.convention ≠ 0 ∧ a.convention ≠ b.convention then some false
  else if realSize a.ret ≠ realSize b.ret then some false
  else paramLoop paramCompat a.numParams.toNat a.params b.params

/-- `CProto::ExactlyEqual`, sourcehook_impl_cproto.cpp:125-142. -/
def Proto.exactlyEqual? (a b : Proto) : Option Bool :=
  if a.version ≠ b.version ∨ a.numParams ≠ b.numParams ∨ a.convention ≠ b.convention ∨
      PassInfo.eqv a.ret b.ret = false then some false
  else paramLoop PassInfo.eqv a.numParams.toNat a.params b.params

/-- The part of the public `ProtoInfo` structure read by `CProto::Fill` (sourcehook.h:229-256).
`params` are `paramsPassInfo[1..]`; `dummySize` is `paramsPassInfo[0].size`; for version-1
structures the V2 data does not exist and the `…Ctor` fields of the records are ignored. -/
structure ProtoInfo where
  numOfParams : Int
  retInfo : PassInfo
  dummySize : Nat
  params : List PassInfo
  convention : Int
deriving DecidableEq, Repr

/-- Version-1 copy of a pass info, sourcehook_impl_cproto.cpp:31-38 and 45-52. -/
def fillV1 (p : PassInfo) : PassInfo :=
  { size := p.size, type := p.type, flags := realFlags p.flags }

/-- `CProto::Fill` / `CProto(const ProtoInfo*)`, sourcehook_impl_cproto.cpp:17-90, for a non-NULL
argument.  Outcome `none`: `paramsPassInfo` has fewer than `numOfParams` records
(out-of-bounds read).  In the "unknown" branch only the version is set; the other members keep
their old (or indeterminate) values, modelled by the parameter `old`. -/
def Proto.fill (old : Proto) (p : ProtoInfo) : Option Proto :=
  if p.dummySize = 0 then
    if p.numOfParams.toNat ≤ p.params.length then
      some { version := 0, numParams := p.numOfParams, ret := fillV1 p.retInfo,
             params := (p.params.take p.numOfParams.toNat).map fillV1, convention := p.convention }
    else none
  else if p.dummySize = 1 then
    if p.numOfParams.toNat ≤ p.params.length then
      some { version := 1, numParams := p.numOfParams, ret := p.retInfo,
             params := p.params.take p.numOfParams.toNat, convention := p.convention }
    else none
  else some { old with version := -1, params := [] }

/-- The comparison as used by the hook-id manager (`m_Entries[i].proto == proto`,
sourcehook_impl_chookidman.cpp:70).  An out-of-bounds read is excluded by `Proto.WF`
(theorem `proto_eq_wf`), so the registry model uses the Boolean version. -/
def Proto.eqb (a b : Proto) : Bool := (Proto.eq? a b).getD false

/-- Well-formed prototype: what `Proto.fill` produces. `CProto::Fill`, core/sourcehook/sourcehook_impl_cproto.cpp:17-80. -/
def Proto.WF (a : Proto) : Prop := 0 ≤ a.version → a.numParams.toNat = a.params.length

end Verif.SH
