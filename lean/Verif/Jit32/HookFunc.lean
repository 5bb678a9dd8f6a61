import Verif.Jit32.PubFunc
import Verif.Jit.HookFunc
/-
The generated hook function on 32-bit x86: core/sourcehook/sourcehook_hookmangen_x86.cpp:126-1703
(`GenerateHookFunc` and what it uses) in the form for GCC on Linux (the `GCC_ONLY` parts and the
branches for `SH_COMP_GCC`).

Simplified:
* The entries of the virtual table of the `ISourceHook` object, read while generating (1298-1299, 1328-1329),
  and the addresses of `vsnprintf` (1529) and of the string "%s" (1122) are parameters.
* Numbers of type `int`, `jit_int8_t` and `jit_int32_t` are integers; they become 32-bit or 8-bit
  numbers where they enter an instruction (`i32`, `i8`).  Sizes are natural numbers; those of type
  `short` wrap (`i16`).
* `MRES_IGNORED`, `MRES_OVERRIDE`, `MRES_SUPERCEDE` are 0, 2, 3 (core/sourcehook/sourcehook.h:133-139);
  `SIZE_PTR` and `SIZE_MWORD` are 4.
* The checks of `SH_ASSERT` (504, 672) do nothing.
-/
namespace Verif.Jit32

open Verif.Jit (Byte bytes32 rewrite32 flagByVal flagByRef flagODtor flagOCtor flagAssignOp flagCCtor
  flagRetMem flagRetReg typeBasic typeFloat typeObject)

/-- core/sourcehook/sourcehook_hookmangen_x86.h:1615 `PassFlag_ForcedByRef`. -/
abbrev flagForced : BitVec 32 := 0x40000000

/-- core/sourcehook/sourcehook_impl_cproto.h:24-34 `IntPassInfo`; `type` as
core/sourcehook/sourcehook.h:190-196, `flags` as 198-212. -/
structure Pass where
  size : Nat
  type : Nat
  flags : BitVec 32
  ctor : BitVec 32
  cctor : BitVec 32
  dtor : BitVec 32
  assign : BitVec 32

/-- The condition `flags & c`, for example
core/sourcehook/sourcehook_hookmangen_x86.cpp:128. -/
def Pass.has (p : Pass) (c : BitVec 32) : Bool := p.flags &&& c != 0

/-- core/sourcehook/sourcehook.h:239 `CallConv_HasVarArgs`. -/
abbrev convVarArgs : BitVec 32 := 0x10000
/-- core/sourcehook/sourcehook.h:240 `CallConv_HasVafmt`. -/
abbrev convVafmt : BitVec 32 := 0x30000
/-- core/sourcehook/sourcehook.h:152 `STRBUF_LEN`. -/
abbrev strbufLen : Nat := 4096

/-- core/sourcehook/sourcehook_hookmangen_x86.h:1617-1640: the members of the generator that go
into the code, the prototype after `AutoDetectRetType` and `AutoDetectParamFlags`; `setupLoop` and
`endContext` are the entries of `ISourceHook::SetupHookLoop` and `EndContext`, `vsn` is the address
of `vsnprintf`, `fmtS` that of "%s". -/
structure Gen where
  sh : BitVec 32
  pHI : BitVec 32
  vtblOffs : Int
  vtblIdx : Int
  conv : BitVec 32
  ret : Pass
  params : List Pass
  setupLoop : BitVec 32
  endContext : BitVec 32
  vsn : BitVec 32
  fmtS : BitVec 32

/-- core/sourcehook/sourcehook_hookmangen_x86.cpp:1485, 1506: `convention & HasVarArgs`. -/
def Gen.varArgs (g : Gen) : Bool := g.conv &&& convVarArgs != 0

/-- core/sourcehook/sourcehook_hookmangen_x86.cpp:984, 989, 1118, 1491, 1515: `convention & HasVafmt`. -/
def Gen.vafmt (g : Gen) : Bool := g.conv &&& convVafmt != 0

/-- core/sourcehook/sourcehook_hookmangen_x86.cpp:135-140 `AlignSize`, with boundary 4. -/
def align4 (x : Nat) : Nat := if x % 4 ≠ 0 then x / 4 * 4 + 4 else x

/-- core/sourcehook/sourcehook_hookmangen_x86.cpp:126-133 `GetRealSize`. -/
def realSize (p : Pass) : Nat := if p.has (flagByRef ||| flagForced) then 4 else p.size

/-- core/sourcehook/sourcehook_hookmangen_x86.cpp:142-147 `GetParamStackSize`. -/
def stackSize (p : Pass) : Nat := align4 (realSize p)

/-- core/sourcehook/sourcehook_hookmangen_x86.cpp:254-263: the value of a `short`. -/
def i16 (k : Int) : Int := (BitVec.ofInt 16 k).toInt

/-- core/sourcehook/sourcehook_hookmangen_x86.cpp:254-263 `GetParamsTotalStackSize`. -/
def totalSize (ps : List Pass) : Int := ps.foldl (fun acc p => i16 (acc + stackSize p)) 0

/-- core/sourcehook/sourcehook_hookmangen_x86.cpp:265-274 `GetForcedByRefParamOffset`, one step. -/
def fbrrStep (o : Int) (p : Pass) : Int := if p.has flagForced then i16 (o + align4 p.size) else o

/-- core/sourcehook/sourcehook_hookmangen_x86.cpp:276-279 `GetForcedByRefParamsSize`. -/
def fbrrSize (ps : List Pass) : Int := ps.foldl fbrrStep 0

/-- core/sourcehook/sourcehook_hookmangen_x86.cpp:149-162 `NextRegEBX_ECX_EDX`: the register and the
counter afterwards. -/
def nextReg (c : Nat) : Reg × Nat :=
  if c % 3 = 0 then (ebx, c + 1) else if c % 3 = 1 then (ecx, c + 1) else (edx, 0)

/-- core/sourcehook/sourcehook_hookmangen_x86.cpp:164-203 `BitwiseCopy_Setup`, the instructions that
set EDI and ESI, `BitwiseCopy_Do`. -/
def bitwiseCopy (place : List Op) (size : Nat) : List Op :=
  [.cld, .push edi, .push esi] ++ place
    ++ (if size / 4 ≠ 0 then [.movImm ecx (i32 (size / 4 : Nat)), .repMovsd] else [])
    ++ (if size % 4 ≠ 0 then [.movImm ecx (i32 (size % 4 : Nat)), .repMovsb] else [])
    ++ [.pop esi, .pop edi]

/-- core/sourcehook/sourcehook_hookmangen_x86.cpp:205-237 `AlignStackBeforeCall`, the number of
bytes; `pushed` is `m_BytesPushedAfterInitialAlignment`, `n` is `paramsize` with the two pointers
added. -/
def alignBytes (pushed n : Int) : Int :=
  let sub := if 16 - n.tmod 16 = 16 then 0 else 16 - n.tmod 16
  if sub - pushed < 0 then 16 - (-(sub - pushed)).tmod 16 else sub - pushed

/-- core/sourcehook/sourcehook_hookmangen_x86.cpp:233-234: make room. -/
def lower (n : Int) : List Op := if n ≠ 0 then [.subImmAuto esp (i32 n) 3] else []

/-- core/sourcehook/sourcehook_hookmangen_x86.cpp:239-243 `AlignStackAfterCall`. -/
def raiseBack (n : Int) : List Op := if n ≠ 0 then [.addImmAuto esp (i32 n) 3] else []

/-! ## Parameters -/

/-- core/sourcehook/sourcehook_hookmangen_x86.cpp:281-287 `PushRef`. -/
def pushRef (o : Int) : List Op := [.pushAuto ebp (i32 o)]

/-- core/sourcehook/sourcehook_hookmangen_x86.cpp:289-339 `PushBasic`: code, counter, bytes. -/
def pushBasic (o : Int) (p : Pass) (c : Nat) : List Op × Nat × Int :=
  if p.size = 1 then
    ([.movzx8Auto (nextReg c).1 ebp (i32 o), .push (nextReg c).1], (nextReg c).2, 4)
  else if p.size = 2 then
    ([.movzx16Pre (nextReg c).1 ebp (i32 o), .push (nextReg c).1], (nextReg c).2, 4)
  else if p.size = 4 then
    ([.movRegAuto (nextReg c).1 ebp (i32 o), .push (nextReg c).1], (nextReg c).2, 4)
  else if p.size = 8 then
    ([.movRegAuto (nextReg c).1 ebp (i32 (o + 4)), .movRegAuto (nextReg (nextReg c).2).1 ebp (i32 o),
      .push (nextReg c).1, .push (nextReg (nextReg c).2).1], (nextReg (nextReg c).2).2, 8)
  else ([], c, 0)

/-- core/sourcehook/sourcehook_hookmangen_x86.cpp:341-365 `PushFloat`: code, counter, bytes. -/
def pushFloat (o : Int) (p : Pass) (c : Nat) : List Op × Nat × Int :=
  if p.size = 4 then
    ([.fld32Auto ebp (i32 o), .push (nextReg c).1, .fstp32Esp], (nextReg c).2, 4)
  else if p.size = 8 then
    ([.fld64Auto ebp (i32 o), .subImm8 esp (i8 8) 3, .fstp64Esp], c, 8)
  else ([], c, 0)

/-- core/sourcehook/sourcehook_hookmangen_x86.cpp:377-409: the copy constructor of an object passed
by value. -/
def pushCctor (o fb : Int) (p : Pass) : List Op :=
  [.push eax]
    ++ (if p.has flagForced then [.leaAuto ecx ebp (i32 fb)] else [.leaSib8 ecx 4 4 0 (i8 4)])
    ++ [.leaAuto eax ebp (i32 o), .push eax, .push ecx, .movImm edx p.cctor, .call edx,
        .addImmAuto esp (i32 8) 3, .pop eax]

/-- core/sourcehook/sourcehook_hookmangen_x86.cpp:410-429: the bitwise copy of an object passed by
value. -/
def pushCopy (o fb : Int) (p : Pass) : List Op :=
  bitwiseCopy ((if p.has flagForced then [.leaAuto edi ebp (i32 fb)]
    else [.leaSib8 edi 4 4 0 (i8 8)]) ++ [.leaAuto esi ebp (i32 o)]) p.size

/-- core/sourcehook/sourcehook_hookmangen_x86.cpp:367-440 `PushObject`. -/
def pushObject (o fb : Int) (p : Pass) : List Op :=
  (if p.has flagForced then [] else [.subImmAuto esp (i32 (stackSize p)) 3])
    ++ (if p.cctor ≠ 0 then pushCctor o fb p else pushCopy o fb p)
    ++ (if p.has flagForced then [.leaAuto ecx ebp (i32 fb), .push ecx] else [])

/-- core/sourcehook/sourcehook_hookmangen_x86.cpp:481-505: one parameter; `last` is the value of
`ret` left by the parameter before. -/
def pushOne (o fb : Int) (p : Pass) (c : Nat) (last : Int) : List Op × Nat × Int :=
  if p.has flagByVal then
    if p.type = typeBasic then pushBasic o p c
    else if p.type = typeFloat then pushFloat o p c
    else if p.type = typeObject then
      (pushObject o fb p, c, if p.has flagForced then 4 else stackSize p)
    else ([], c, last)
  else if p.has flagByRef then (pushRef o, c, 4)
  else ([], c, last)

/-- core/sourcehook/sourcehook_hookmangen_x86.cpp:465-510 `PushParams`: code, counter, value of
`ret`, bytes; the last parameter first.  `o` is the offset of the first parameter of the list, `fo`
its offset in the area for copies at `fb`. -/
def pushList (fb : Int) : Int → Int → List Pass → Nat → List Op × Nat × Int × Int
  | _, _, [], c => ([], c, 0, 0)
  | o, fo, p :: ps, c =>
    match pushList fb (o + stackSize p) (fbrrStep fo p) ps c with
    | (ops, c, last, n) =>
      match pushOne o (fb + fo) p c last with
      | (ops', c, k) => (ops ++ ops', c, k, n + k)

/-! ## The frame -/

/-- core/sourcehook/sourcehook_hookmangen_x86.cpp:1416 `v_vfnptr_origentry`. -/
abbrev vEntry : Int := -4
/-- core/sourcehook/sourcehook_hookmangen_x86.cpp:1417 `v_status`. -/
abbrev vStatus : Int := -8
/-- core/sourcehook/sourcehook_hookmangen_x86.cpp:1418 `v_prev_res`. -/
abbrev vPrev : Int := -12
/-- core/sourcehook/sourcehook_hookmangen_x86.cpp:1419 `v_cur_res`. -/
abbrev vCur : Int := -16
/-- core/sourcehook/sourcehook_hookmangen_x86.cpp:1421 `v_pContext`; 1420 `v_iter` lies between. -/
abbrev vCtx : Int := -24

/-- core/sourcehook/sourcehook_hookmangen_x86.cpp:1368, 1433: where `this` lies. -/
def Gen.vThis (g : Gen) : Int := if g.ret.has flagRetMem then 16 else 12
/-- core/sourcehook/sourcehook_hookmangen_x86.cpp:1369, 1434: where the parameters start. -/
def Gen.base (g : Gen) : Int := if g.ret.has flagRetMem then 20 else 16

/-- core/sourcehook/sourcehook_hookmangen_x86.cpp:678-683 `MemRetWithTempObj`. -/
def Gen.temp (g : Gen) : Bool := g.ret.has flagRetMem && g.ret.has (flagODtor ||| flagAssignOp)

/-- core/sourcehook/sourcehook_hookmangen_x86.cpp:1458-1494: the offsets of the variables. -/
structure Frame where
  retPtr : Int
  orig : Int
  override : Int
  plugin : Int
  temp : Int
  fbrr : Int
  vaArg : Int
  vaBuf : Int
  size : Int

/-- core/sourcehook/sourcehook_hookmangen_x86.cpp:1458-1496 with 1338-1354 `AddVarToFrame`,
`ComputeVarsSize`: each variable lies below the one before; the first six take 24 bytes. -/
def frame (g : Gen) : Frame :=
  let c : Int := stackSize g.ret
  let o₁ : Int := if g.ret.size ≠ 0 then -28 - 3 * c else -24
  let o₂ := if g.temp then o₁ - c else o₁
  let o₃ := if fbrrSize g.params ≠ 0 then o₂ - fbrrSize g.params else o₂
  let o₄ := if g.varArgs then o₃ - 4 else o₃
  let o₅ := if g.vafmt then o₄ - strbufLen else o₄
  { retPtr := if g.ret.size ≠ 0 then -28 else 0
    orig := if g.ret.size ≠ 0 then -28 - c else 0
    override := if g.ret.size ≠ 0 then -28 - 2 * c else 0
    plugin := if g.ret.size ≠ 0 then -28 - 3 * c else 0
    temp := if g.temp then o₂ else 0
    fbrr := if fbrrSize g.params ≠ 0 then o₃ else 0
    vaArg := if g.varArgs then o₄ else 0
    vaBuf := if g.vafmt then o₅ else 0
    size := -o₅ }

/-! ## Pieces of the function -/

/-- core/sourcehook/sourcehook_hookmangen_x86.cpp:600-609 (the pattern, used in several places): call
`f` with one pointer, aligned. -/
def call1 (f : BitVec 32) (v : Int) : List Op :=
  [.leaAuto ecx ebp (i32 v), .push ecx, .movImm eax f, .call eax, .pop ecx]

/-- core/sourcehook/sourcehook_hookmangen_x86.cpp:565-577 (the pattern, used in three places): call
the assignment operator; `src` and `dst` push the two pointers. -/
def assignOps (g : Gen) (ptrs : List Op) : List Op :=
  lower (alignBytes 0 8) ++ (ptrs ++ [.movImm eax g.ret.assign, .call eax,
    .addImmAuto esp (i32 8) 3] ++ raiseBack (alignBytes 0 8))

/-- core/sourcehook/sourcehook_hookmangen_x86.cpp:442-462 `DestroyParams`, the last parameter
first. -/
def destroyParams (fb : Int) : Int → List Pass → List Op
  | _, [] => []
  | fo, p :: ps =>
    destroyParams fb (fbrrStep fo p) ps
      ++ (if p.type = typeObject ∧ p.has flagODtor = true ∧ p.has flagByVal = true ∧
          p.has flagForced = true then
        lower (alignBytes 0 4) ++ call1 p.dtor (fb + fo) ++ raiseBack (alignBytes 0 4)
      else [])

/-- core/sourcehook/sourcehook_hookmangen_x86.cpp:513-528 `PushMemRetPtr`; it adds nothing to the
bytes to clean up. -/
def pushMemRet (g : Gen) (v : Int) : List Op :=
  if g.ret.has flagRetMem then
    [.leaAuto edx ebp (i32 (if g.temp then (frame g).temp else v)), .push edx]
  else []

/-- core/sourcehook/sourcehook_hookmangen_x86.cpp:551-611: `*v = *temp`, then the destructor of the
temporary object. -/
def saveTemp (g : Gen) (v : Int) : List Op :=
  (if g.ret.assign ≠ 0 then
      assignOps g [.leaAuto edx ebp (i32 (frame g).temp), .leaAuto ecx ebp (i32 v), .push edx, .push ecx]
    else bitwiseCopy [.leaAuto edi ebp (i32 v), .leaAuto esi ebp (i32 (frame g).temp)] g.ret.size)
  ++ (if g.ret.dtor ≠ 0 then
      lower (alignBytes 0 4) ++ call1 g.ret.dtor (frame g).temp ++ raiseBack (alignBytes 0 4)
    else [])

/-- core/sourcehook/sourcehook_hookmangen_x86.cpp:628-646: a value in EAX or EDX:EAX. -/
def saveRegs (size : Nat) (v : Int) : List Op :=
  if size ≤ 4 then [.movAutoReg ebp eax (i32 v)]
  else if size ≤ 8 then [.movAutoReg ebp eax (i32 v), .movAutoReg ebp edx (i32 (v + 4))]
  else []

/-- core/sourcehook/sourcehook_hookmangen_x86.cpp:619-675: the value itself, by type. -/
def saveValue (g : Gen) (v : Int) : List Op :=
  if g.ret.type = typeFloat then
    if realSize g.ret = 4 then [.fstp32Auto ebp (i32 v)]
    else if realSize g.ret = 8 then [.fstp64Auto ebp (i32 v)] else []
  else if g.ret.type = typeBasic then saveRegs (realSize g.ret) v
  else if g.ret.type = typeObject ∧ g.ret.has flagRetReg = true then saveRegs (realSize g.ret) v
  else []

/-- core/sourcehook/sourcehook_hookmangen_x86.cpp:530-676 `SaveRetVal`. -/
def saveRet (g : Gen) (v : Int) : List Op :=
  if realSize g.ret = 0 then []
  else if g.ret.has flagByRef then [.movAutoReg ebp eax (i32 v)]
  else if g.ret.has flagRetMem then
    if g.temp then saveTemp g v ++ saveValue g v else []
  else saveValue g v

/-- core/sourcehook/sourcehook_hookmangen_x86.cpp:728-775: `*eax = plugin_ret`. -/
def storeOverride (g : Gen) : List Op :=
  if g.ret.has flagByRef then
    [.movRegAuto ecx ebp (i32 (frame g).plugin), .movRmReg eax ecx 0]
  else if g.ret.assign ≠ 0 then
    assignOps g [.leaAuto edx ebp (i32 (frame g).plugin), .push edx, .push eax]
  else
    bitwiseCopy [.movRegRm edi eax 3, .leaAuto esi ebp (i32 (frame g).plugin)] g.ret.size

/-- core/sourcehook/sourcehook_hookmangen_x86.cpp:717-724: `pContext->GetOverrideRetPtr()`. -/
def getOverride : List Op :=
  [.movRegAuto ecx ebp (i32 vCtx), .push ecx, .movRegRm eax ecx 0, .movRegAuto eax eax (i32 4),
   .call eax, .pop ecx]

/-- core/sourcehook/sourcehook_hookmangen_x86.cpp:685-779 `ProcessPluginRetVal`; `CC_NGE` is 12
(core/sourcehook/sourcehook_hookmangen_x86.h:71). -/
def processRet (g : Gen) : Writer :=
  if g.ret.size = 0 then out []
  else andThen (out [.movRegAuto eax ebp (i32 vCur), .cmpImm32 3 eax (i32 2)])
    (over8 12 (out (getOverride ++ storeOverride g)))

/-- core/sourcehook/sourcehook_hookmangen_x86.cpp:781-829 `PrepareReturn`; `CC_L` is 12. -/
def prepareReturn (g : Gen) : List Op :=
  if g.ret.size = 0 then []
  else
    [.movRegAuto ecx ebp (i32 vCtx), .push ecx, .xorRegRm eax eax 3, .cmpD8Imm8 ebp (i8 vStatus) (i8 2),
     .setcc eax 12, .leaNoBase eax eax 2 (i32 4), .movRegRm edx ecx 0, .addRegRm edx eax 3,
     .movRegRm edx edx 0, .call edx, .pop ecx, .movAutoReg ebp eax (i32 (frame g).retPtr)]

/-- core/sourcehook/sourcehook_hookmangen_x86.cpp:849-882: the value into registers. -/
def loadValue (g : Gen) : List Op :=
  if g.ret.type = typeFloat then
    if g.ret.size = 4 then [.fld32 ecx] else if g.ret.size = 8 then [.fld64 ecx] else []
  else if g.ret.type = typeBasic ∨ (g.ret.type = typeObject ∧ g.ret.has flagRetReg = true) then
    if g.ret.size ≤ 4 then [.movRegRm eax ecx 0]
    else if g.ret.size ≤ 8 then [.movRegRm eax ecx 0, .movRegAuto edx ecx (i32 4)]
    else []
  else []

/-- core/sourcehook/sourcehook_hookmangen_x86.cpp:884-930: the value into the caller's memory. -/
def returnMem (g : Gen) : List Op :=
  if g.ret.has flagRetMem then
    (if g.ret.cctor ≠ 0 then
      lower (alignBytes 0 8) ++ ([.movRegRm edx ecx 3, .push edx, .pushAuto ebp (i32 12),
        .movImm eax g.ret.cctor, .call eax, .addImmAuto esp (i32 8) 3] ++ raiseBack (alignBytes 0 8))
    else bitwiseCopy [.movRegAuto edi ebp (i32 12), .movRegRm esi ecx 3] g.ret.size)
    ++ [.movRegAuto eax ebp (i32 12)]
  else []

/-- core/sourcehook/sourcehook_hookmangen_x86.cpp:831-931 `DoReturn`. -/
def doReturn (g : Gen) : List Op :=
  if g.ret.size = 0 then []
  else if g.ret.has flagByRef then
    [.movRegAuto ecx ebp (i32 (frame g).retPtr), .movRegRm eax ecx 0]
  else [.movRegAuto ecx ebp (i32 (frame g).retPtr)] ++ loadValue g ++ returnMem g

/-! ## The loops -/

/-- core/sourcehook/sourcehook_hookmangen_x86.cpp:953-965: `pContext->GetNext()` and the test. -/
def loopHead : List Op :=
  [.movRegAuto ecx ebp (i32 vCtx), .push ecx, .movRegRm eax ecx 0, .movRegRm eax eax 0, .call eax,
   .pop ecx, .testRmReg eax eax 3]

/-- core/sourcehook/sourcehook_hookmangen_x86.cpp:983-986: the alignment for the call of a hook. -/
def hookAlign (g : Gen) : Int :=
  alignBytes 0 (totalSize g.params + (if g.vafmt then 4 else 0)
    + (4 + if g.ret.has flagRetMem then 4 else 0))

/-- core/sourcehook/sourcehook_hookmangen_x86.cpp:970-1016: the call of a hook, the result kept;
`ps` is what `PushParams` gave. -/
def hookCall (g : Gen) (ps : List Op × Nat × Int × Int) : List Op :=
  [.movD8Imm ebp 0 (i8 vCur)] ++ lower (hookAlign g)
    ++ (if g.vafmt then [.leaAuto ecx ebp (i32 (frame g).vaBuf), .push ecx] else [])
    ++ ps.1 ++ [.movRegRm ecx eax 3, .push ecx] ++ pushMemRet g (frame g).plugin
    ++ [.movRegRm eax ecx 0, .movRegAuto eax eax (i32 8), .call eax]
    ++ raiseBack (hookAlign g)
    ++ [.addImmAuto esp (i32 ((if g.vafmt then 4 else 0) + ps.2.2.2 + 4)) 3]
    ++ destroyParams (frame g).fbrr 0 g.params ++ saveRet g (frame g).plugin

/-- core/sourcehook/sourcehook_hookmangen_x86.cpp:1030-1041: `prev_res = cur_res`, `status` raised;
`CC_NG` is 14 (core/sourcehook/sourcehook_hookmangen_x86.h:74). -/
def loopStatus : Writer :=
  andThen (out [.movRegAuto eax ebp (i32 vCur), .movRegAuto edx ebp (i32 vStatus),
    .movD8Reg ebp eax (i8 vPrev), .cmpRegRm eax edx 3])
    (over8 14 (out [.movD8Reg ebp eax (i8 vStatus)]))

/-- core/sourcehook/sourcehook_hookmangen_x86.cpp:1047-1049: the jump back to `start`. -/
def jumpBack (start : Nat) : Writer := fun b =>
  let b₁ := b ++ (Op.jmp32 (i32 0)).bytes
  rewrite32 b₁ (b₁.length - 4) (i32 (-((b₁.length - start : Nat) : Int)))

/-- core/sourcehook/sourcehook_hookmangen_x86.cpp:933-1053 `GenerateCallHooks`; `CC_Z` is 4. -/
def callHooks (g : Gen) (ps : List Op × Nat × Int × Int) : Writer := fun b =>
  let b := b ++ [Op.movD8Imm ebp 0 (i8 vPrev)].flatMap Op.bytes
  let start := b.length
  andThen (out loopHead)
    (over32 4 (andThen (out (hookCall g ps)) (andThen loopStatus (andThen (processRet g)
      (jumpBack start))))) b

/-- core/sourcehook/sourcehook_hookmangen_x86.cpp:1082-1083: the test of the status before the
original function is called. -/
def origTest : List Op := [.movRegAuto eax ebp (i32 vStatus), .cmpImm32 3 eax (i32 3)]
/-- core/sourcehook/sourcehook_hookmangen_x86.cpp:1095-1104: `pContext->ShouldCallOrig()`. -/
def origAsk : List Op :=
  [.movRegAuto ecx ebp (i32 vCtx), .push ecx, .movRegRm eax ecx 0, .movRegD8 eax eax (i8 12),
   .call eax, .pop ecx, .test8RmReg eax eax 3]

/-- core/sourcehook/sourcehook_hookmangen_x86.cpp:1110-1115: the alignment for the original. -/
def origAlign (g : Gen) : Int :=
  alignBytes 0 (totalSize g.params + (if g.vafmt then 8 else 0)
    + (4 + if g.ret.has flagRetMem then 4 else 0))

/-- core/sourcehook/sourcehook_hookmangen_x86.cpp:1108-1168: the call of the original function. -/
def origCall (g : Gen) (ps : List Op × Nat × Int × Int) : List Op :=
  lower (origAlign g)
    ++ (if g.vafmt then [.leaAuto ecx ebp (i32 (frame g).vaBuf), .push ecx, .pushImm32 g.fmtS] else [])
    ++ ps.1 ++ [.movRegAuto ecx ebp (i32 g.vThis), .push ecx] ++ pushMemRet g (frame g).orig
    ++ [.movRegAuto eax ebp (i32 vEntry), .call eax]
    ++ raiseBack (origAlign g)
    ++ [.addImmAuto esp (i32 ((if g.vafmt then 8 else 0) + ps.2.2.2 + 4)) 3]
    ++ destroyParams (frame g).fbrr 0 g.params ++ saveRet g (frame g).orig

/-- core/sourcehook/sourcehook_hookmangen_x86.cpp:1183-1228: `orig_ret = override_ret`. -/
def origElse (g : Gen) : List Op :=
  if g.ret.has flagByRef then
    [.movRegAuto ecx ebp (i32 (frame g).override), .movAutoReg ebp ecx (i32 (frame g).orig)]
  else if g.ret.assign ≠ 0 then
    assignOps g [.leaAuto edx ebp (i32 (frame g).override), .leaAuto ecx ebp (i32 (frame g).orig),
      .push edx, .push ecx]
  else bitwiseCopy [.leaAuto edi ebp (i32 (frame g).orig), .leaAuto esi ebp (i32 (frame g).override)]
    g.ret.size

/-- core/sourcehook/sourcehook_hookmangen_x86.cpp:1055-1233 `GenerateCallOrig`: two forward jumps
to the same place, and one over the part that starts there. -/
def callOrig (g : Gen) (ps : List Op × Nat × Int × Int) : Writer := fun b =>
  let b₁ := b ++ (origTest ++ [Op.jcc32 4 (i32 0)]).flatMap Op.bytes
  let b₂ := b₁ ++ (origAsk ++ [Op.jcc32 4 (i32 0)]).flatMap Op.bytes
  let b₃ := b₂ ++ (origCall g ps ++ [Op.jmp32 (i32 0)]).flatMap Op.bytes
  (rewrite32 b₃ (b₁.length - 4) (i32 (b₃.length - b₁.length : Nat))).bind fun b₄ =>
  (rewrite32 b₄ (b₂.length - 4) (i32 (b₃.length - b₂.length : Nat))).bind fun b₅ =>
    let b₆ := b₅ ++ (origElse g).flatMap Op.bytes
    rewrite32 b₆ (b₃.length - 4) (i32 (b₆.length - b₃.length : Nat))

/-! ## The whole function -/

/-- core/sourcehook/sourcehook_hookmangen_x86.cpp:1236-1309 `CallSetupHookLoop`. -/
def setupOps (g : Gen) : List Op :=
  (if g.ret.size = 0 then [.pushImm8 (i8 0), .pushImm8 (i8 0)]
    else [.leaAuto eax ebp (i32 (frame g).override), .leaAuto edx ebp (i32 (frame g).orig), .push eax,
      .push edx])
  ++ [.lea8 eax ebp (i8 vCur), .lea8 edx ebp (i8 vPrev), .push eax, .push edx,
      .lea8 eax ebp (i8 vStatus), .lea8 edx ebp (i8 vEntry), .push eax, .push edx,
      .movRegAuto eax ebp (i32 g.vThis), .push eax,
      .movRegAuto ecx ebp (i32 g.vThis), .movRegAuto eax ecx (i32 g.vtblOffs),
      .addImmAuto eax (i32 (g.vtblIdx * 4)) 3, .push eax,
      .movRmImm edx g.pHI 3, .movRegRm eax edx 0, .push eax,
      .pushImm32 g.sh, .movImm eax g.setupLoop, .call eax, .addImm8 esp (i8 40) 3,
      .movD8Reg ebp eax (i8 vCtx)]

/-- core/sourcehook/sourcehook_hookmangen_x86.cpp:1311-1336 `CallEndContext`. -/
def endContextOps (g : Gen) : List Op :=
  [.movRegAuto eax ebp (i32 vCtx), .push eax, .pushImm32 g.sh, .movImm eax g.endContext, .call eax,
   .addImm8 esp (i8 8) 3]

/-- core/sourcehook/sourcehook_hookmangen_x86.cpp:1359-1361, 1496-1503: the prologue. -/
def prologue (g : Gen) : List Op :=
  [.push ebp, .push ebx, .movRegRm ebp esp 3, .subImm32 esp (i32 (frame g).size) 3,
   .andImm32 esp 3 (i32 (-16)), .movD8Imm ebp 0 (i8 vStatus)]

/-- core/sourcehook/sourcehook_hookmangen_x86.cpp:1506-1514: `argptr`. -/
def vaStart (g : Gen) : List Op :=
  if g.varArgs then
    [.leaAuto eax ebp (i32 (g.base + totalSize g.params + 4)), .movAutoReg ebp eax (i32 (frame g).vaArg)]
  else []

/-- core/sourcehook/sourcehook_hookmangen_x86.cpp:1515-1541: `vsnprintf`. -/
def vaFormat (g : Gen) : List Op :=
  if g.vafmt then
    lower (alignBytes 0 16)
      ++ [.push eax, .pushAuto ebp (i32 (g.base + totalSize g.params)),
          .pushImm32 (i32 (strbufLen - 1 : Nat)), .leaAuto ecx ebp (i32 (frame g).vaBuf), .push ecx,
          .movImm eax g.vsn, .call eax, .addImm32 esp (i32 16) 3]
      ++ raiseBack (alignBytes 0 16)
      ++ [.xorRegRm edx edx 3, .mov8AutoReg ebp edx (i32 ((frame g).vaBuf + strbufLen - 1))]
  else []

/-- core/sourcehook/sourcehook_hookmangen_x86.cpp:1544-1576: the constructors of the variables for
the returned value. -/
def constructOps (g : Gen) : List Op :=
  if g.ret.has flagByVal = true ∧ g.ret.ctor ≠ 0 then
    lower (alignBytes 0 4) ++ (call1 g.ret.ctor (frame g).orig ++ (call1 g.ret.ctor (frame g).override
      ++ (call1 g.ret.ctor (frame g).plugin ++ raiseBack (alignBytes 0 4))))
  else []

/-- core/sourcehook/sourcehook_hookmangen_x86.cpp:1604-1620: the destructors of the parameters that
are not forced to be references. -/
def dropParams : Int → List Pass → List Op
  | _, [] => []
  | o, p :: ps =>
    (if p.type = typeObject ∧ p.has flagODtor = true ∧ p.has flagByVal = true ∧
        p.has flagForced = false then
      [.leaAuto ecx ebp (i32 o), .movImm eax p.dtor, .push ecx, .call eax, .pop ecx]
    else []) ++ dropParams (o + stackSize p) ps

/-- core/sourcehook/sourcehook_hookmangen_x86.cpp:1627-1665: the destructors of the variables for
the returned value. -/
def destroyRetOps (g : Gen) : List Op :=
  if g.ret.has flagByVal = true ∧ g.ret.dtor ≠ 0 then
    [.push eax, .push edx] ++ (lower (alignBytes 8 4) ++ (call1 g.ret.dtor (frame g).plugin
      ++ (call1 g.ret.dtor (frame g).override ++ (call1 g.ret.dtor (frame g).orig
      ++ (raiseBack (alignBytes 8 4) ++ [.pop edx, .pop eax])))))
  else []

/-- core/sourcehook/sourcehook_hookmangen_x86.cpp:1668-1692: the epilogue. -/
def epilogue (g : Gen) : List Op :=
  [.movRegRm esp ebp 3, .pop ebx, .pop ebp]
    ++ (if g.ret.has flagRetMem then [.retn 4] else [.ret])

/-- core/sourcehook/sourcehook_hookmangen_x86.cpp:1596-1692: the end of the function. -/
def finish (g : Gen) : List Op :=
  prepareReturn g ++ endContextOps g
    ++ (lower (alignBytes 0 4) ++ dropParams g.base g.params ++ raiseBack (alignBytes 0 4))
    ++ doReturn g ++ destroyRetOps g ++ epilogue g

/-- core/sourcehook/sourcehook_hookmangen_x86.cpp:465-510: `PushParams` for this function, with the
counter `c` of the registers. -/
def pushParams (g : Gen) (c : Nat) : List Op × Nat × Int × Int :=
  pushList (frame g).fbrr g.base 0 g.params c

/-- core/sourcehook/sourcehook_hookmangen_x86.cpp:1356-1703 `GenerateHookFunc`: the contents of
`m_HookFunc`.  The register counter (core/sourcehook/sourcehook_hookmangen_x86.h:1637) goes through
the three calls of `PushParams`. -/
def generateHookFunc (g : Gen) : Option (List Byte) :=
  let p₁ := pushParams g 0
  let p₂ := pushParams g p₁.2.1
  let p₃ := pushParams g p₂.2.1
  andThen (out (prologue g ++ vaStart g ++ vaFormat g ++ constructOps g ++ setupOps g))
    (andThen (callHooks g p₁) (andThen (callOrig g p₂) (andThen (callHooks g p₃)
      (out (finish g))))) []

end Verif.Jit32
