import Verif.Jit.PubFunc
/-
The generated hook function: core/sourcehook/sourcehook_hookmangen_x86_64.cpp:180-212 and 295-1287
(`GenerateHookFunc` and what it uses) in the form for 64-bit Windows (the `MSVC_ONLY` parts and
the branches for `SH_COMP_MSVC`; see Verif.Jit.Machine).

Simplified:
* `GetFuncInfo` (537-548, 622-659, 810-821, 1075-1093, 1191-1202) succeeds; the indices it finds
  are parameters.  The entries of the virtual table of the `ISourceHook` object, read while
  generating (606, 1216), are parameters too.
* Numbers of type `int`, `std::int8_t` and `std::int32_t` are integers; they become 32-bit
  numbers where they enter an instruction (`i32`).
* `MRES_IGNORED`, `MRES_OVERRIDE`, `MRES_SUPERCEDE` are 0, 2, 3 (core/sourcehook/sourcehook.h:133-139);
  `SIZE_PTR` is 8.
* For a constant `c` with one bit, `(flags & c) == c` and `flags & c` as a condition are the same.
-/
namespace Verif.Jit

/-- core/sourcehook/sourcehook_impl_cproto.h:24-33 `IntPassInfo`; `type` as
core/sourcehook/sourcehook.h:190-196, `flags` as 198-212. -/
structure Pass where
  size : Nat
  type : Nat
  flags : BitVec 32
  ctor : BitVec 64
  cctor : BitVec 64
  dtor : BitVec 64
  assign : BitVec 64

/-- core/sourcehook/sourcehook.h:200 `PassFlag_ByVal`. -/
abbrev flagByVal : BitVec 32 := 1
/-- core/sourcehook/sourcehook.h:201 `PassFlag_ByRef`. -/
abbrev flagByRef : BitVec 32 := 2
/-- core/sourcehook/sourcehook.h:202 `PassFlag_ODtor`. -/
abbrev flagODtor : BitVec 32 := 4
/-- core/sourcehook/sourcehook.h:203 `PassFlag_OCtor`. -/
abbrev flagOCtor : BitVec 32 := 8
/-- core/sourcehook/sourcehook.h:204 `PassFlag_AssignOp`. -/
abbrev flagAssignOp : BitVec 32 := 16
/-- core/sourcehook/sourcehook.h:205 `PassFlag_CCtor`. -/
abbrev flagCCtor : BitVec 32 := 32
/-- core/sourcehook/sourcehook.h:210 `PassFlag_RetMem`. -/
abbrev flagRetMem : BitVec 32 := 64
/-- core/sourcehook/sourcehook.h:211 `PassFlag_RetReg`. -/
abbrev flagRetReg : BitVec 32 := 128

/-- core/sourcehook/sourcehook.h:193 `PassType_Basic`. -/
abbrev typeBasic : Nat := 1
/-- core/sourcehook/sourcehook.h:194 `PassType_Float`. -/
abbrev typeFloat : Nat := 2
/-- core/sourcehook/sourcehook.h:195 `PassType_Object`. -/
abbrev typeObject : Nat := 3

/-- The condition `flags & c`, for example
core/sourcehook/sourcehook_hookmangen_x86_64.cpp:755. -/
def Pass.has (p : Pass) (c : BitVec 32) : Bool := p.flags &&& c != 0

/-- core/sourcehook/sourcehook_hookmangen_x86_64.cpp:1229-1287 `AutoDetectRetType`, the new flags.
In 1268 `&` binds tighter than `|`. -/
def autoDetect (p : Pass) : BitVec 32 :=
  if p.size = 0 then p.flags
  else if p.has flagByVal then
    if p.type = typeBasic ∨ p.type = typeFloat then
      if p.size ≤ 8 then (p.flags &&& ~~~flagRetMem) ||| flagRetReg
      else (p.flags &&& ~~~flagRetReg) ||| flagRetMem
    else if p.type = typeObject then
      if p.flags &&& (flagRetMem ||| flagRetReg) = 0 then
        let unconventional := p.size = 3 ∨ (p.size ≠ 8 ∧ p.size > 4)
        let special := (((p.flags &&& flagOCtor) ||| flagODtor) ||| flagCCtor) ≠ 0
        if unconventional ∨ special then p.flags ||| flagRetMem else p.flags ||| flagRetReg
      else p.flags
    else p.flags
  else (p.flags &&& ~~~flagRetMem) ||| flagRetReg

/-- core/sourcehook/sourcehook_hookmangen_x86_64.cpp:262-293 `PassInfoSupported`. -/
def supported (p : Pass) : Bool :=
  if p.type ≠ typeBasic ∧ p.type ≠ typeFloat ∧ p.type ≠ typeObject then false
  else if p.type = typeObject ∧ p.has flagByVal = true ∧
      ((p.has flagCCtor = true ∧ p.cctor = 0) ∨ (p.has flagODtor = true ∧ p.dtor = 0) ∨
       (p.has flagAssignOp = true ∧ p.assign = 0) ∨ (p.has flagOCtor = true ∧ p.ctor = 0)) then false
  else p.flags &&& (flagByVal ||| flagByRef) != 0

/-- The members of the generator that go into the code
(core/sourcehook/sourcehook_hookmangen_x86_64.h:66-85), the prototype after `AutoDetectRetType`;
`setupLoop` and `endContext` are the addresses of `ISourceHook::SetupHookLoop` and `EndContext`,
the rest are indices of virtual functions. -/
structure Gen where
  sh : BitVec 64
  pHI : BitVec 64
  vtblOffs : Int
  vtblIdx : Int
  ret : Pass
  params : List Pass
  setupLoop : BitVec 64
  endContext : BitVec 64
  getNext : Nat
  callIdx : Nat
  getOverride : Nat
  getOrig : Nat
  shouldCall : Nat

/-- core/sourcehook/sourcehook_hookmangen_x86_64.cpp:200-205 `AlignSize`. -/
def alignSize (x b : Nat) : Nat := if x % b ≠ 0 then x / b * b + b else x

/-- core/sourcehook/sourcehook_hookmangen_x86_64.cpp:192-198 `GetRealSize`. -/
def realSize (p : Pass) : Nat := if p.has flagByRef then 8 else p.size

/-- core/sourcehook/sourcehook_hookmangen_x86_64.cpp:208-212, 349: the size of a cell for a
returned value. -/
def cellSize (p : Pass) : Nat := alignSize (alignSize (realSize p) 8) 16

/-- The offsets of the variables (core/sourcehook/sourcehook_hookmangen_x86_64.cpp:338-355). -/
structure Frame where
  retPtr : Int
  memretPtr : Int
  orig : Int
  override : Int
  plugin : Int
  memRet : Int
  size : Int

/-- core/sourcehook/sourcehook_hookmangen_x86_64.cpp:329-355 with 180-190 `AddVarToFrame`: each
variable lies below the one before; the first eight of them take 64 bytes. -/
def frame (r : Pass) : Frame :=
  if r.size = 0 then ⟨0, 0, 0, 0, 0, 0, 64⟩
  else
    let c : Int := cellSize r
    ⟨-72, -80, -80 - c, -80 - 2 * c, -80 - 3 * c, -80 - 4 * c, 80 + 4 * c⟩

/-- core/sourcehook/sourcehook_hookmangen_x86_64.cpp:330 `v_vfnptr_origentry`. -/
abbrev vEntry : Int := -16
/-- core/sourcehook/sourcehook_hookmangen_x86_64.cpp:331 `v_status`. -/
abbrev vStatus : Int := -24
/-- core/sourcehook/sourcehook_hookmangen_x86_64.cpp:332 `v_prev_res`. -/
abbrev vPrev : Int := -32
/-- core/sourcehook/sourcehook_hookmangen_x86_64.cpp:333 `v_cur_res`. -/
abbrev vCur : Int := -40
/-- core/sourcehook/sourcehook_hookmangen_x86_64.cpp:334 `v_iter`. -/
abbrev vIter : Int := -48
/-- core/sourcehook/sourcehook_hookmangen_x86_64.cpp:335 `v_pContext`. -/
abbrev vContext : Int := -56
/-- core/sourcehook/sourcehook_hookmangen_x86_64.cpp:336 `v_this`. -/
abbrev vThis : Int := -64

/-- core/sourcehook/sourcehook_hookmangen_x86_64.cpp:364 (and 934) `params_reg`. -/
def paramReg (i : Nat) : Reg := if i = 0 then rcx else if i = 1 then rdx else if i = 2 then r8 else r9

/-- core/sourcehook/sourcehook_hookmangen_x86_64.cpp:365 (and 935) `params_floatreg`. -/
def paramXmm (i : Nat) : XReg := if i = 0 then 0 else if i = 1 then 1 else if i = 2 then 2 else 3

/-- The condition of core/sourcehook/sourcehook_hookmangen_x86_64.cpp:387 and 954. -/
def Pass.inXmm (p : Pass) : Bool := p.type == typeFloat && !p.has flagByRef

/-- core/sourcehook/sourcehook_hookmangen_x86_64.cpp:385-392: save the parameters that come in
registers, from register number `i`. -/
def saveRegs : Nat → List Pass → List Op
  | _, [] => []
  | i, p :: ps =>
    if i < 4 then
      (if p.inXmm then .movsdStore (at_ rbp (i * 8 + 8)) (paramXmm i)
       else .store (at_ rbp (i * 8 + 8)) (paramReg i)) :: saveRegs (i + 1) ps
    else []

/-- The number of the first register with a parameter
(core/sourcehook/sourcehook_hookmangen_x86_64.cpp:367-379). -/
def firstReg (r : Pass) : Nat := if r.has flagRetMem then 2 else 1

/-- core/sourcehook/sourcehook_hookmangen_x86_64.cpp:355-392: make the frame, save the parameters. -/
def prologue (g : Gen) : List Op :=
  [.subImm rsp (i32 (frame g.ret).size), .store (at_ rsp ((frame g.ret).size - 8)) rbp,
   .lea rbp (at_ rsp (frame g.ret).size), .store (at_ rbp vThis) rcx, .store (at_ rbp 8) rcx]
  ++ (if g.ret.has flagRetMem then
        [.store (at_ rbp 16) rdx, .store (at_ rbp (frame g.ret).memretPtr) rdx] else [])
  ++ [.movImm rax (i32 g.params.length), .movImm rax (i32 (firstReg g.ret)),
      .movImm64 rax (BitVec.ofNat 64 g.ret.size)]
  ++ saveRegs (firstReg g.ret) g.params

/-- core/sourcehook/sourcehook_hookmangen_x86_64.cpp:404-418: one call of the constructor. -/
def constructOne (g : Gen) (v : Int) : List Op :=
  [.subImm rsp (i32 40), .lea rcx (at_ rbp v), .movImm64 r8 g.ret.ctor, .call r8, .addImm rsp (i32 40)]

/-- core/sourcehook/sourcehook_hookmangen_x86_64.cpp:399-419: construct the return values. -/
def constructOps (g : Gen) : List Op :=
  if g.ret.has flagByVal = true ∧ g.ret.ctor ≠ 0 then
    constructOne g (frame g.ret).orig ++ constructOne g (frame g.ret).override
      ++ constructOne g (frame g.ret).plugin
  else []

/-- core/sourcehook/sourcehook_hookmangen_x86_64.cpp:421-423. -/
def initOps : List Op :=
  [.storeImm (at_ rbp vStatus) (i32 0), .storeImm (at_ rbp vCur) (i32 0),
   .storeImm (at_ rbp vPrev) (i32 0)]

/-- core/sourcehook/sourcehook_hookmangen_x86_64.cpp:550-585: the first eight arguments. -/
def setupArgs (g : Gen) : List Op :=
  [.subImm rsp (i32 88), .movImm64 rcx g.sh, .movImm64 rdx g.pHI, .load rdx (at_ rdx 0),
   .load r8 (at_ rbp vThis), .load r8 (at_ r8 g.vtblOffs), .addImm r8 (i32 (8 * g.vtblIdx)),
   .load r9 (at_ rbp vThis),
   .lea rax (at_ rbp vEntry), .store (at_ rsp 0x20) rax,
   .lea rax (at_ rbp vStatus), .store (at_ rsp 0x28) rax,
   .lea rax (at_ rbp vPrev), .store (at_ rsp 0x30) rax,
   .lea rax (at_ rbp vCur), .store (at_ rsp 0x38) rax]

/-- core/sourcehook/sourcehook_hookmangen_x86_64.cpp:586-603: the last two arguments. -/
def setupRet (g : Gen) : List Op :=
  if g.ret.size = 0 then [.xor rax rax, .store (at_ rsp 0x40) rax, .store (at_ rsp 0x48) rax]
  else
    [.lea rax (at_ rbp (frame g.ret).orig), .store (at_ rsp 0x40) rax,
     .lea rax (at_ rbp (frame g.ret).override), .store (at_ rsp 0x48) rax]

/-- core/sourcehook/sourcehook_hookmangen_x86_64.cpp:530-614 `CallSetupHookLoop`. -/
def setupOps (g : Gen) : List Op :=
  setupArgs g ++ setupRet g
    ++ [.movImm64 rax g.setupLoop, .call rax, .store (at_ rbp vContext) rax, .addImm rsp (i32 88)]

/-- core/sourcehook/sourcehook_hookmangen_x86_64.cpp:951-959: load the parameters that go into
registers, from register number `i`. -/
def loadRegs : Nat → List Pass → List Op
  | _, [] => []
  | i, p :: ps =>
    if i < 4 then
      (if p.inXmm then .movsdLoad (paramXmm i) (at_ rbp (i * 8 + 8))
       else .load (paramReg i) (at_ rbp (i * 8 + 8))) :: loadRegs (i + 1) ps
    else []

/-- core/sourcehook/sourcehook_hookmangen_x86_64.cpp:975-978: copy `n` parameters on the stack,
from number `i`. -/
def copyStack : Nat → Nat → List Op
  | _, 0 => []
  | i, n + 1 =>
    .load rax (at_ rbp (40 + 8 * i)) :: .store (at_ rsp (32 + 8 * i)) rax :: copyStack (i + 1) n

/-- The number of the first register with a parameter in
core/sourcehook/sourcehook_hookmangen_x86_64.cpp:937-947. -/
def pushFirst (r : Pass) : Nat := if r.size ≠ 0 ∧ r.has flagRetMem = true then 2 else 1

/-- `parameters_on_stack`, core/sourcehook/sourcehook_hookmangen_x86_64.cpp:965. -/
def onStack (g : Gen) : Nat := g.params.length - (4 - pushFirst g.ret)

/-- The result of `PushParameters`, core/sourcehook/sourcehook_hookmangen_x86_64.cpp:962-973. -/
def pushSpace (g : Gen) : Nat := 32 + onStack g * 8 + (if onStack g % 2 = 0 then 8 else 0)

/-- core/sourcehook/sourcehook_hookmangen_x86_64.cpp:928-984 `PushParameters`. -/
def pushOps (g : Gen) (this ret : Int) : List Op :=
  .load rcx (at_ rbp this)
  :: ((if g.ret.size ≠ 0 ∧ g.ret.has flagRetMem = true then [.lea rdx (at_ rbp ret)] else [])
    ++ loadRegs (pushFirst g.ret) g.params
    ++ [.subImm rsp (i32 32), .subImm rsp (i32 (onStack g * 8 : Nat))]
    ++ (if onStack g % 2 = 0 then [.subImm rsp (i32 8)] else [])
    ++ copyStack 0 (onStack g))

/-- core/sourcehook/sourcehook_hookmangen_x86_64.cpp:784-796 (also 908-920, 1025-1037, 1172-1184):
copy the bytes of a returned value; `ops` sets RDI and RSI. -/
def copyOps (g : Gen) (ops : List Op) : List Op :=
  [.push rdi, .push rsi, .push rcx, .movImm64 rcx (BitVec.ofNat 64 g.ret.size)] ++ ops
    ++ [.repMovsBytes, .pop rcx, .pop rsi, .pop rdi]

/-- core/sourcehook/sourcehook_hookmangen_x86_64.cpp:1222-1227 `MemRetWithTempObj`. -/
def withTemp (r : Pass) : Bool := r.has flagRetMem && r.has (flagODtor ||| flagAssignOp)

/-- core/sourcehook/sourcehook_hookmangen_x86_64.cpp:1006-1022 (the same in 887-905): call the
assignment operator for two variables. -/
def assignOps (g : Gen) (dst src : Int) : List Op :=
  [.subImm rsp (i32 40), .lea rcx (at_ rbp dst), .lea rdx (at_ rbp src), .movImm64 rax g.ret.assign,
   .call rax, .addImm rsp (i32 40)]

/-- core/sourcehook/sourcehook_hookmangen_x86_64.cpp:1006-1038 (the same in 887-921): assign one
variable to another. -/
def moveOps (g : Gen) (dst src : Int) : List Op :=
  if g.ret.assign ≠ 0 then assignOps g dst src
  else copyOps g [.lea rdi (at_ rbp dst), .lea rsi (at_ rbp src)]

/-- core/sourcehook/sourcehook_hookmangen_x86_64.cpp:1040-1053: destroy the temporary object. -/
def dropTemp (g : Gen) : List Op :=
  if g.ret.dtor ≠ 0 then
    [.subImm rsp (i32 40), .lea rcx (at_ rbp (frame g.ret).memRet), .movImm64 rax g.ret.dtor, .call rax,
     .addImm rsp (i32 40)]
  else []

/-- core/sourcehook/sourcehook_hookmangen_x86_64.cpp:986-1066 `SaveReturnValue`. -/
def saveOps (g : Gen) (v : Int) : List Op :=
  if g.ret.size = 0 then []
  else if g.ret.has flagByRef then [.store (at_ rbp v) rax]
  else if g.ret.type = typeFloat then [.movsdStore (at_ rbp v) 0]
  else if g.ret.type = typeBasic then [.store (at_ rbp v) rax]
  else if g.ret.has flagRetMem then
    if withTemp g.ret then moveOps g v (frame g.ret).memRet ++ dropTemp g else []
  else []

/-- core/sourcehook/sourcehook_hookmangen_x86_64.cpp:680-694: `iter = pContext->GetNext()`. -/
def nextOps (g : Gen) : List Op :=
  [.load rax (at_ rbp vContext), .load rax (at_ rax 0), .load rax (at_ rax (g.getNext * 8)),
   .subImm rsp (i32 40), .load rcx (at_ rbp vContext), .call rax, .store (at_ rbp vIter) rax,
   .addImm rsp (i32 40)]

/-- core/sourcehook/sourcehook_hookmangen_x86_64.cpp:701-715: the call of a hook. -/
def hookOps (g : Gen) : List Op :=
  [.storeImm (at_ rbp vCur) (i32 0), .load rax (at_ rbp vCur), .store (at_ rbp vPrev) rax]
  ++ pushOps g vIter (if withTemp g.ret then (frame g.ret).memRet else (frame g.ret).plugin)
  ++ [.load rax (at_ rbp vIter), .load rax (at_ rax 0), .load rax (at_ rax (g.callIdx * 8)),
      .call rax, .addImm rsp (i32 (pushSpace g))]

/-- core/sourcehook/sourcehook_hookmangen_x86_64.cpp:719-725: `status = max(status, cur_res)`. -/
def statusOps : List Op :=
  [.load rax (at_ rbp vCur), .cmpMem rax (at_ rbp vStatus), .load rax (at_ rbp vStatus),
   .cmovgMem rax (at_ rbp vCur), .store (at_ rbp vStatus) rax]

/-- core/sourcehook/sourcehook_hookmangen_x86_64.cpp:739-750: `pContext->GetOverrideRetPtr()`. -/
def overridePtr (g : Gen) : List Op :=
  [.subImm rsp (i32 40), .load rax (at_ rbp vContext), .load rax (at_ rax 0),
   .load rax (at_ rax (g.getOverride * 8)), .load rcx (at_ rbp vContext), .call rax,
   .addImm rsp (i32 40)]

/-- core/sourcehook/sourcehook_hookmangen_x86_64.cpp:754-798: `*RAX = plugin_ret`. -/
def overrideSet (g : Gen) : List Op :=
  if g.ret.has flagByRef then
    [.load r8 (at_ rbp (frame g.ret).plugin), .store (at_ rax 0) r8]
  else if g.ret.assign ≠ 0 then
    [.subImm rsp (i32 40), .mov rcx rax, .lea rdx (at_ rbp (frame g.ret).plugin),
     .movImm64 rax g.ret.assign, .call rax, .addImm rsp (i32 40)]
  else copyOps g [.mov rdi rax, .lea rsi (at_ rbp (frame g.ret).plugin)]

/-- core/sourcehook/sourcehook_hookmangen_x86_64.cpp:727-799: `if (cur_res >= MRES_OVERRIDE) …`;
`start` is the position of the loop's first instruction. -/
def overrideBytes (g : Gen) (start : Nat) (b : List Byte) : Option (List Byte) :=
  if g.ret.size = 0 then some b
  else
    let b := emit b ([.movImm rax (i32 2), .cmpStore (at_ rbp vCur) rax] ++ [.jl (i32 0)])
    (rewrite32 b (b.length - 4) (i32 (-((b.length - start : Nat) : Int)))).bind fun b =>
      some (emit b (overridePtr g ++ overrideSet g))

/-- core/sourcehook/sourcehook_hookmangen_x86_64.cpp:619-806 `GenerateCallHooks`. -/
def callHooksBytes (g : Gen) (b : List Byte) : Option (List Byte) :=
  let b := emit b [.storeImm (at_ rbp vPrev) (i32 0)]
  let start := b.length
  let b := emit b (nextOps g ++ [.test rax rax] ++ [.jz (i32 0)])
  let jumpOff := b.length
  let b := emit b (hookOps g ++ saveOps g (frame g.ret).plugin ++ statusOps)
  (overrideBytes g start b).bind fun b =>
    let b := emit b ([] ++ [.jump (i32 0)])
    (rewrite32 b (b.length - 4) (i32 (-((b.length - start : Nat) : Int)))).bind fun b =>
      rewrite32 b (jumpOff - 4) (i32 (b.length - jumpOff : Nat))

/-- core/sourcehook/sourcehook_hookmangen_x86_64.cpp:838-855: `pContext->ShouldCallOrig()`. -/
def shouldOps (g : Gen) : List Op :=
  [.subImm rsp (i32 40), .load rax (at_ rbp vContext), .mov rcx rax, .load rax (at_ rax 0),
   .load rax (at_ rax (8 * g.shouldCall)), .call rax, .addImm rsp (i32 40), .testImm rax (i32 1)]

/-- core/sourcehook/sourcehook_hookmangen_x86_64.cpp:859-866: the call of the original function. -/
def origOps (g : Gen) : List Op :=
  pushOps g vThis (if withTemp g.ret then (frame g.ret).memRet else (frame g.ret).orig)
  ++ [.load rax (at_ rbp vEntry), .call rax, .addImm rsp (i32 (pushSpace g))]
  ++ saveOps g (frame g.ret).orig

/-- core/sourcehook/sourcehook_hookmangen_x86_64.cpp:876-923: `orig_ret = override_ret`. -/
def elseOps (g : Gen) : List Op :=
  if g.ret.size = 0 then []
  else if g.ret.has flagByRef then
    [.load rax (at_ rbp (frame g.ret).override), .store (at_ rbp (frame g.ret).orig) rax]
  else moveOps g (frame g.ret).orig (frame g.ret).override

/-- core/sourcehook/sourcehook_hookmangen_x86_64.cpp:808-926 `GenerateCallOrig`. -/
def callOrigBytes (g : Gen) (b : List Byte) : Option (List Byte) :=
  let b := emit b ([.load rax (at_ rbp vStatus), .cmpImm rax (i32 3)] ++ [.je (i32 0)])
  let statusOff := b.length
  let b := emit b (shouldOps g ++ [.jz (i32 0)])
  let shouldOff := b.length
  let b := emit b (origOps g ++ [.jump (i32 0)])
  let callOff := b.length
  (rewrite32 b (statusOff - 4) (i32 (callOff - statusOff : Nat))).bind fun b =>
    (rewrite32 b (shouldOff - 4) (i32 (callOff - shouldOff : Nat))).bind fun b =>
      let b := emit b (elseOps g)
      rewrite32 b (callOff - 4) (i32 (b.length - callOff : Nat))

/-- core/sourcehook/sourcehook_hookmangen_x86_64.cpp:1068-1123 `PrepareReturn`. -/
def prepareOps (g : Gen) : List Op :=
  if g.ret.size = 0 then []
  else
    [.load rax (at_ rbp vContext), .load rax (at_ rax 0), .mov r8 rax,
     .load rax (at_ rax (g.getOrig * 8)), .load r8 (at_ r8 (g.getOverride * 8)),
     .xor r9 r9, .load r9 (at_ rbp vStatus), .cmpImm r9 (i32 2), .cmovge rax r8,
     .subImm rsp (i32 40), .load rcx (at_ rbp vContext), .call rax, .addImm rsp (i32 40),
     .store (at_ rbp (frame g.ret).retPtr) rax]

/-- core/sourcehook/sourcehook_hookmangen_x86_64.cpp:1190-1220 `CallEndContext`. -/
def endOps (g : Gen) : List Op :=
  [.subImm rsp (i32 40), .movImm64 rcx g.sh, .load rdx (at_ rbp vContext), .movImm64 rax g.endContext,
   .call rax, .addImm rsp (i32 40)]

/-- The condition of core/sourcehook/sourcehook_hookmangen_x86_64.cpp:473-474. -/
def Pass.destroyed (p : Pass) : Bool :=
  p.type == typeObject && p.has flagODtor && p.has flagByVal

/-- core/sourcehook/sourcehook_hookmangen_x86_64.cpp:468-485: destroy the parameters, from stack
place `i`. -/
def paramDtors : Nat → List Pass → List Op
  | _, [] => []
  | i, p :: ps =>
    .subImm rsp (i32 40)
    :: ((if p.destroyed then
          [.load rcx (at_ rbp (8 + i * 8)), .movImm64 rax p.dtor, .call rax] else [])
      ++ .addImm rsp (i32 40) :: paramDtors (i + 1) ps)

/-- core/sourcehook/sourcehook_hookmangen_x86_64.cpp:1148-1187: write the value returned in memory. -/
def memReturn (g : Gen) : List Op :=
  (if g.ret.cctor ≠ 0 then
    [.subImm rsp (i32 40), .load rcx (at_ rbp (frame g.ret).memretPtr), .mov rdx r8,
     .movImm64 rax g.ret.cctor, .call rax, .addImm rsp (i32 40)]
   else copyOps g [.load rdi (at_ rbp (frame g.ret).memretPtr), .mov rsi r8])
  ++ [.load rax (at_ rbp (frame g.ret).memretPtr)]

/-- core/sourcehook/sourcehook_hookmangen_x86_64.cpp:1125-1188 `DoReturn`. -/
def returnOps (g : Gen) : List Op :=
  if g.ret.size = 0 then []
  else
    .load r8 (at_ rbp (frame g.ret).retPtr)
    :: (if g.ret.has flagByRef then [.load rax (at_ r8 0)]
        else
          (if g.ret.type = typeFloat then [.movsdLoad 0 (at_ r8 0)]
           else if g.ret.type = typeBasic ∨ (g.ret.type = typeObject ∧ g.ret.has flagRetReg = true) then
             [.load rax (at_ r8 0)]
           else [])
          ++ (if g.ret.has flagRetMem then memReturn g else []))

/-- core/sourcehook/sourcehook_hookmangen_x86_64.cpp:501-508: one call of the destructor. -/
def dtorOne (g : Gen) (v : Int) : List Op :=
  [.lea rcx (at_ rbp v), .movImm64 r8 g.ret.dtor, .call r8]

/-- core/sourcehook/sourcehook_hookmangen_x86_64.cpp:494-511: destroy the return values. -/
def retDtors (g : Gen) : List Op :=
  if g.ret.has flagByVal = true ∧ g.ret.dtor ≠ 0 then
    [.subImm rsp (i32 40)] ++ dtorOne g (frame g.ret).orig ++ dtorOne g (frame g.ret).override
      ++ dtorOne g (frame g.ret).plugin ++ [.addImm rsp (i32 40)]
  else []

/-- core/sourcehook/sourcehook_hookmangen_x86_64.cpp:513-518; `v_original_rbp` is -8 (329). -/
def epilogue (g : Gen) : List Op :=
  [.load rbp (at_ rbp (-8)), .addImm rsp (i32 (frame g.ret).size), .retn]

/-- core/sourcehook/sourcehook_hookmangen_x86_64.cpp:295-528 `GenerateHookFunc`: the contents of
`m_HookFunc`. -/
def generateHookFunc (g : Gen) : Option (List Byte) :=
  let b := emit [] (prologue g ++ constructOps g ++ initOps ++ setupOps g)
  (callHooksBytes g b).bind fun b =>
    (callOrigBytes g b).bind fun b =>
      (callHooksBytes g b).bind fun b =>
        some (emit b (prepareOps g ++ endOps g ++ paramDtors (firstReg g.ret) g.params ++ returnOps g
          ++ retDtors g ++ epilogue g))

end Verif.Jit
