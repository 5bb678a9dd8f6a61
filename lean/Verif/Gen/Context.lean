import Verif.SH.Proto
import Verif.Jit.HookAccept
import Verif.Jit32.HookAccept
/-
The generators' contexts: what they keep in memory, the copy of the prototype they hand to SourceHook
(`BuildProtoInfo`) and the table of contexts around them.
Source: core/sourcehook/sourcehook_hookmangen.cpp:45-105, core/sourcehook/sourcehook_hookmangen_x86.cpp:51-124 and
1911-1969, core/sourcehook/sourcehook_hookmangen_x86_64.cpp:104-190, 214-260 and 1403-1421.

* The two generators differ in the flags they complete, in what they refuse, in the variables of the frame and in whether
  the destructor calls `Clear`; these are the fields of `Gen`.
* The code itself is modelled elsewhere (`Jit`, `Jit32`, `Page/GenBuf`); here it is the address given by the caller.
* Memory is modelled by blocks.  Deleting with the wrong form of `delete`, deleting twice, reading a record never written
  and reading past the parameters are errors (undefined behaviour).
-/
namespace Verif.Gen

open Verif.SH (PassInfo Proto ProtoInfo)

/-- `PassInfo` in memory, core/sourcehook/sourcehook.h:218-223. -/
structure Rec where
  size : Nat
  type : Int
  flags : Nat
deriving DecidableEq, Repr

/-- `PassInfo::V2Info`, core/sourcehook/sourcehook.h:225-231. -/
structure Ctors where
  normal : Nat
  copy : Nat
  dtor : Nat
  assign : Nat
deriving DecidableEq, Repr

/-- `ProtoInfo` in memory, core/sourcehook/sourcehook.h:247-260.  The pointers to the two arrays are addresses of blocks. -/
structure Info where
  num : Int
  ret : Rec
  params : Nat
  convention : Int
  ret2 : Ctors
  params2 : Nat
deriving DecidableEq, Repr

/-- What `new` makes in a context, core/sourcehook/sourcehook_hookmangen_x86_64.cpp:108-111, 155 and 158.  A record that was
never written is `none`.  Simplified: the members of `ProtoInfo` count as written together (they are, 142-178, and nothing
reads them in between but the count). -/
inductive Block
  | ptr
  | info (i : Option Info)
  | passes (l : List (Option Rec))
  | ctors (l : List (Option Ctors))
deriving DecidableEq, Repr

/-- No counterpart in /repo: was the block made by `new[]`? -/
def Block.isArray : Block → Bool
  | .passes _ => true
  | .ctors _ => true
  | _ => false

/-- No counterpart in /repo: the undefined behaviours. -/
inductive Err
  | form
  | dead
  | bounds
deriving DecidableEq, Repr

/-- No counterpart in /repo: the memory the contexts allocate; addresses are not used again. -/
structure Mem where
  blocks : Nat → Option Block
  next : Nat

/-- No counterpart in /repo: `new`. -/
def Mem.alloc (m : Mem) (b : Block) : Mem × Nat :=
  ({ blocks := fun a => if a = m.next then some b else m.blocks a, next := m.next + 1 }, m.next)

/-- No counterpart in /repo: `delete` (`arr = false`) and `delete[]` (`arr = true`). -/
def Mem.delete (m : Mem) (arr : Bool) (a : Nat) : Except Err Mem :=
  match m.blocks a with
  | none => .error .dead
  | some b => if b.isArray = arr then .ok { m with blocks := fun x => if x = a then none else m.blocks x } else .error .form

/-- No counterpart in /repo: a write to a block. -/
def Mem.put (m : Mem) (a : Nat) (b : Block) : Mem :=
  { m with blocks := fun x => if x = a then some b else m.blocks x }

/-- No counterpart in /repo: what distinguishes the generators.  `detect` completes the flags
(core/sourcehook/sourcehook_hookmangen_x86.cpp:1927-1928, core/sourcehook/sourcehook_hookmangen_x86_64.cpp:231-232), `takes`
is the conditions of `Generate` after that, `vars` the sizes given to `AddVarToFrame` in order (64 bits only), `clears`: does
the destructor call `Clear`? -/
structure Gen where
  detect : Proto → Proto
  takes : Proto → Bool
  vars : Proto → List Nat
  clears : Bool

/-- `GenContext` and `x64GenContext`, core/sourcehook/sourcehook_hookmangen_x86.h:1617-1640,
core/sourcehook/sourcehook_hookmangen_x86_64.h:66-88. -/
structure Ctx where
  orig : Proto
  proto : Proto
  offs : Int
  idx : Int
  pub : Nat
  built : Nat
  params : Option Nat
  params2 : Option Nat
  hi : Nat
  vfn : Nat
  frameOff : Int
  frameSize : Int
deriving DecidableEq, Repr

/-- The constructors, core/sourcehook/sourcehook_hookmangen_x86.cpp:51-60,
core/sourcehook/sourcehook_hookmangen_x86_64.cpp:104-114. -/
def construct (p : Proto) (offs idx : Int) (m : Mem) : Mem × Ctx :=
  let (m, hi) := m.alloc .ptr
  let (m, vfn) := m.alloc .ptr
  let (m, built) := m.alloc (.info none)
  (m, { orig := p, proto := p, offs := offs, idx := idx, pub := 0, built := built, params := none, params2 := none,
        hi := hi, vfn := vfn, frameOff := 0, frameSize := 0 })

/-- `if (p) { delete [] p; p = NULL; }`, core/sourcehook/sourcehook_hookmangen_x86.cpp:74-83 (`arr = true`), and
`if (p) delete p;`, 99-100 and 102-103 (`arr = false`). -/
def drop (arr : Bool) (a : Option Nat) (m : Mem) : Except Err Mem :=
  match a with
  | none => .ok m
  | some a => m.delete arr a

/-- `Clear`, core/sourcehook/sourcehook_hookmangen_x86.cpp:70-84, core/sourcehook/sourcehook_hookmangen_x86_64.cpp:124-138. -/
def clear (c : Ctx) (m : Mem) : Except Err (Mem × Ctx) :=
  match drop true c.params m with
  | .error e => .error e
  | .ok m => match drop true c.params2 m with
    | .error e => .error e
    | .ok m => .ok (m, { c with params := none, params2 := none })

/-- The destructors, core/sourcehook/sourcehook_hookmangen_x86.cpp:62-68 (which clears),
core/sourcehook/sourcehook_hookmangen_x86_64.cpp:116-122 (which does not). -/
def destroy (g : Gen) (c : Ctx) (m : Mem) : Except Err Mem :=
  match (if g.clears then clear c m else .ok (m, c)) with
  | .error e => .error e
  | .ok (m, _) => match m.delete false c.hi with
    | .error e => .error e
    | .ok m => match m.delete false c.vfn with
      | .error e => .error e
      | .ok m => m.delete false c.built

/-- The three members copied first, core/sourcehook/sourcehook_hookmangen_x86.cpp:91-93, 111-113. -/
def recOf (p : PassInfo) : Rec := ⟨p.size, p.type, p.flags⟩
/-- The four members copied last, core/sourcehook/sourcehook_hookmangen_x86.cpp:94-97, 115-118. -/
def ctorsOf (p : PassInfo) : Ctors := ⟨p.normalCtor, p.copyCtor, p.dtor, p.assignOp⟩

/-- The loop of `BuildProtoInfo`, core/sourcehook/sourcehook_hookmangen_x86.cpp:109-119: `n` rounds from `i` on; `none` is a
read past the parameters. -/
def copyLoop (ps : List PassInfo) :
    Nat → Nat → List (Option Rec) → List (Option Ctors) → Option (List (Option Rec) × List (Option Ctors))
  | 0, _, a, b => some (a, b)
  | n + 1, i, a, b => match ps[i]? with
    | none => none
    | some p => copyLoop ps n (i + 1) (a.set (i + 1) (some (recOf p))) (b.set (i + 1) (some (ctorsOf p)))

/-- `BuildProtoInfo`, core/sourcehook/sourcehook_hookmangen_x86.cpp:86-124,
core/sourcehook/sourcehook_hookmangen_x86_64.cpp:140-178.  `new T[n + 1]` with a negative count is an error. -/
def buildProtoInfo (c : Ctx) (m : Mem) : Except Err (Mem × Ctx) :=
  match drop false c.params m with
  | .error e => .error e
  | .ok m =>
    let (m, a) := m.alloc (.passes (List.replicate (c.proto.numParams.toNat + 1) none))
    match drop false c.params2 m with
    | .error e => .error e
    | .ok m =>
      let (m, b) := m.alloc (.ctors (List.replicate (c.proto.numParams.toNat + 1) none))
      if c.proto.numParams < 0 then .error .bounds
      else match copyLoop c.proto.params c.proto.numParams.toNat 0
          ((List.replicate (c.proto.numParams.toNat + 1) none).set 0 (some ⟨1, 0, 0⟩))
          (List.replicate (c.proto.numParams.toNat + 1) none) with
        | none => .error .bounds
        | some (la, lb) =>
          let m := m.put a (.passes la)
          let m := m.put b (.ctors lb)
          let m := m.put c.built (.info (some
            { num := c.proto.numParams, ret := recOf c.proto.ret, params := a, convention := c.proto.convention,
              ret2 := ctorsOf c.proto.ret, params2 := b }))
          .ok (m, { c with params := some a, params2 := some b })

/-- `AddVarToFrame`, core/sourcehook/sourcehook_hookmangen_x86_64.cpp:180-185: the context afterwards and the offset
returned. -/
def addVar (c : Ctx) (size : Nat) : Ctx × Int :=
  ({ c with frameOff := c.frameOff - size, frameSize := c.frameSize + size }, c.frameOff - size)

/-- The calls of `AddVarToFrame` at the head of `GenerateHookFunc`,
core/sourcehook/sourcehook_hookmangen_x86_64.cpp:329-355: the context afterwards and the offsets in order. -/
def addVars : Ctx → List Nat → Ctx × List Int
  | c, [] => (c, [])
  | c, n :: ns => ((addVars (addVar c n).1 ns).1, (addVar c n).2 :: (addVars (addVar c n).1 ns).2)

/-- `Generate`, core/sourcehook/sourcehook_hookmangen_x86.cpp:1911-1951,
core/sourcehook/sourcehook_hookmangen_x86_64.cpp:214-260; `code` is where the public function is placed.  The list is the
offsets of the frame's variables, if code was generated. -/
def generate (g : Gen) (c : Ctx) (code : Nat) (m : Mem) : Except Err (Mem × Ctx × Option (List Int) × Nat) :=
  match clear c m with
  | .error e => .error e
  | .ok (m, c) =>
    if c.proto.version < 1 then .ok (m, c, none, 0)
    else
      let c := { c with proto := g.detect c.proto }
      if g.takes c.proto then
        match buildProtoInfo c m with
        | .error e => .error e
        | .ok (m, c) =>
          let (c, offs) := addVars c (g.vars c.proto)
          .ok (m, c, some offs, code)
      else .ok (m, c, none, 0)

/-- `GetPubFunc`, core/sourcehook/sourcehook_hookmangen_x86.cpp:1953-1959,
core/sourcehook/sourcehook_hookmangen_x86_64.cpp:1403-1411. -/
def getPubFunc (g : Gen) (c : Ctx) (code : Nat) (m : Mem) : Except Err (Mem × Ctx × Option (List Int)) :=
  if c.pub = 0 then
    match generate g c code m with
    | .error e => .error e
    | .ok (m, c, f, pub) => .ok (m, { c with pub := pub }, f)
  else .ok (m, c, none)

/-- `Equal(proto, offs, idx)`, core/sourcehook/sourcehook_hookmangen_x86.cpp:1961-1964,
core/sourcehook/sourcehook_hookmangen_x86_64.cpp:1413-1416; `none` is a read past the parameters. -/
def Ctx.same (c : Ctx) (p : Proto) (offs idx : Int) : Option Bool :=
  match Proto.exactlyEqual? c.orig p with
  | none => none
  | some false => some false
  | some true => some (c.offs == offs && c.idx == idx)

/-- `CHookManagerAutoGen`, core/sourcehook/sourcehook_hookmangen.h:57-80: the contexts with their reference counts.
No counterpart in /repo: `frames` logs the offsets each generated hook function was made with, `lost` the arrays whose
owner was destroyed without them. -/
structure Sys where
  mem : Mem
  ctxs : List (Ctx × Nat)
  frames : List (Proto × List Int)
  lost : List Nat

/-- The constructor, core/sourcehook/sourcehook_hookmangen.cpp:46. -/
def Sys.init : Sys := ⟨⟨fun _ => none, 0⟩, [], [], []⟩

/-- The loop of `MakeHookMan`, core/sourcehook/sourcehook_hookmangen.cpp:67-74: where the request was found. -/
def findCtx (p : Proto) (offs idx : Int) : List (Ctx × Nat) → Nat → Except Err (Option Nat)
  | [], _ => .ok none
  | c :: cs, i => match c.1.same p offs idx with
    | none => .error .bounds
    | some true => .ok (some i)
    | some false => findCtx p offs idx cs (i + 1)

/-- No counterpart in /repo: the arrays a context owns that its destructor leaves. -/
def left (g : Gen) (c : Ctx) : List Nat := if g.clears then [] else c.params.toList ++ c.params2.toList

/-- `MakeHookMan`, core/sourcehook/sourcehook_hookmangen.cpp:61-88 (not on 64-bit Linux): the answer and the state.  The
new context is destroyed at the end of the function if nothing was generated for it. -/
def make (g : Gen) (pi : ProtoInfo) (offs idx : Int) (code : Nat) (s : Sys) : Except Err (Sys × Nat) :=
  match Proto.fill default pi with
  | none => .error .bounds
  | some p => match findCtx p offs idx s.ctxs 0 with
    | .error e => .error e
    | .ok (some i) => match s.ctxs[i]? with
      | none => .error .bounds
      | some (c, n) => match getPubFunc g c code s.mem with
        | .error e => .error e
        | .ok (m, c, f) =>
          .ok ({ s with mem := m, ctxs := s.ctxs.set i (c, n + 1)
                        frames := s.frames ++ (f.map fun l => (c.proto, l)).toList }, c.pub)
    | .ok none =>
      let (m, c) := construct p offs idx s.mem
      match getPubFunc g c code m with
      | .error e => .error e
      | .ok (m, c, f) =>
        let frames := s.frames ++ (f.map fun l => (c.proto, l)).toList
        if c.pub ≠ 0 then .ok ({ s with mem := m, ctxs := s.ctxs ++ [(c, 1)], frames := frames }, c.pub)
        else match destroy g c m with
          | .error e => .error e
          | .ok m => .ok ({ s with mem := m, frames := frames, lost := s.lost ++ left g c }, 0)

/-- `ReleaseHookMan`, core/sourcehook/sourcehook_hookmangen.cpp:90-104: the list before and behind the context, if found. -/
def findPub (pub : Nat) : List (Ctx × Nat) → Option (List (Ctx × Nat) × (Ctx × Nat) × List (Ctx × Nat))
  | [] => none
  | c :: cs => if c.1.pub = pub then some ([], c, cs)
    else match findPub pub cs with
      | none => none
      | some (a, d, b) => some (c :: a, d, b)

/-- `ReleaseHookMan`, core/sourcehook/sourcehook_hookmangen.cpp:90-104. -/
def release (g : Gen) (pub : Nat) (s : Sys) : Except Err Sys :=
  match findPub pub s.ctxs with
  | none => .ok s
  | some (a, (c, n), b) =>
    if n - 1 = 0 then match destroy g c s.mem with
      | .error e => .error e
      | .ok m => .ok { s with mem := m, ctxs := a ++ b, lost := s.lost ++ left g c }
    else .ok { s with ctxs := a ++ (c, n - 1) :: b }

/-- `m_Contexts.clear()`, core/sourcehook/sourcehook_hookmangen.cpp:48. -/
def destroyAll (g : Gen) : List (Ctx × Nat) → Mem → Except Err Mem
  | [], m => .ok m
  | c :: cs, m => match destroy g c.1 m with
    | .error e => .error e
    | .ok m => destroyAll g cs m

/-- No counterpart in /repo: a call from outside. -/
inductive Op
  | make (pi : ProtoInfo) (offs idx : Int) (code : Nat)
  | release (pub : Nat)

/-- No counterpart in /repo: one call. -/
def step (g : Gen) (s : Sys) : Op → Except Err Sys
  | .make pi o i code => (make g pi o i code s).map (·.1)
  | .release pub => release g pub s

/-- No counterpart in /repo: calls one after the other. -/
def run (g : Gen) : List Op → Sys → Except Err Sys
  | [], s => .ok s
  | o :: os, s => match step g s o with
    | .error e => .error e
    | .ok s => run g os s

/-- The reading of `paramsPassInfo[k]` and `paramsPassInfo2[k]` in `CProto::Fill`, `n` rounds from `k` on,
core/sourcehook/sourcehook_impl_cproto.cpp:71-82; `none` if a record was never written or does not exist. -/
def readParams (la : List (Option Rec)) (lb : List (Option Ctors)) : Nat → Nat → Option (List PassInfo)
  | 0, _ => some []
  | n + 1, k => match la[k]?, lb[k]? with
    | some (some r), some (some t) => match readParams la lb n (k + 1) with
      | some l => some (⟨r.size, r.type, r.flags, t.normal, t.copy, t.dtor, t.assign⟩ :: l)
      | none => none
    | _, _ => none

/-- What `CProto::Fill` reads at the address handed to `SetInfo`
(core/sourcehook/sourcehook_hookmangen_x86_64.cpp:1357-1381, core/sourcehook/sourcehook_impl_cproto.cpp:17-90);
`none`: it reads memory that is not there or was not written. -/
def view (m : Mem) (a : Nat) : Option ProtoInfo :=
  match m.blocks a with
  | some (.info (some i)) => match m.blocks i.params, m.blocks i.params2 with
    | some (.passes la), some (.ctors lb) => match la[0]? with
      | some (some d) => match readParams la lb i.num.toNat 1 with
        | some ps => some { numOfParams := i.num
                            retInfo := ⟨i.ret.size, i.ret.type, i.ret.flags, i.ret2.normal, i.ret2.copy, i.ret2.dtor, i.ret2.assign⟩
                            dummySize := d.size, params := ps, convention := i.convention }
        | none => none
      | _ => none
    | _, _ => none
  | _ => none

/-! ## The two generators -/

/-- No counterpart in /repo: `IntPassInfo` in the form of the model of the 64-bit generator. -/
def pass64 (p : PassInfo) : Jit.Pass :=
  ⟨p.size, p.type.toNat, BitVec.ofNat 32 p.flags, BitVec.ofNat 64 p.normalCtor, BitVec.ofNat 64 p.copyCtor,
    BitVec.ofNat 64 p.dtor, BitVec.ofNat 64 p.assignOp⟩

/-- No counterpart in /repo: `IntPassInfo` in the form of the model of the 32-bit generator. -/
def pass32 (p : PassInfo) : Jit32.Pass :=
  ⟨p.size, p.type.toNat, BitVec.ofNat 32 p.flags, BitVec.ofNat 32 p.normalCtor, BitVec.ofNat 32 p.copyCtor,
    BitVec.ofNat 32 p.dtor, BitVec.ofNat 32 p.assignOp⟩

/-- core/sourcehook/sourcehook_hookmangen_x86_64.cpp:231-232: `AutoDetectRetType` and `AutoDetectParamFlags` (1229-1291, the
latter does nothing). -/
def detect64 (p : Proto) : Proto := { p with ret := { p.ret with flags := (Jit.autoDetect (pass64 p.ret)).toNat } }

/-- core/sourcehook/sourcehook_hookmangen_x86.cpp:1927-1928: `AutoDetectRetType` and `AutoDetectParamFlags` (1836-1909). -/
def detect32 (p : Proto) : Proto :=
  { p with ret := { p.ret with flags := (Jit32.autoDetect (pass32 p.ret)).toNat }
           params := p.params.map fun q => { q with flags := (Jit32.forceRef (pass32 q)).toNat } }

/-- core/sourcehook/sourcehook_hookmangen_x86_64.cpp:237-255: the conditions of `Generate` on the completed prototype. -/
def takes64 (p : Proto) : Bool :=
  if BitVec.ofInt 32 p.convention &&& ~~~Jit.convVafmt ≠ Jit.convThisCall then false
  else if p.ret.size ≠ 0 ∧ Jit.supported (pass64 p.ret) = false then false
  else p.params.all fun q => Jit.supported (pass64 q)

/-- core/sourcehook/sourcehook_hookmangen_x86.cpp:1930-1946: the conditions of `Generate` on the completed prototype. -/
def takes32 (p : Proto) : Bool :=
  if BitVec.ofInt 32 p.convention &&& ~~~Jit32.convVafmt ≠ Jit.convThisCall then false
  else if p.ret.size ≠ 0 ∧ Jit32.supported (pass32 p.ret) = false then false
  else p.params.all fun q => Jit32.supported (pass32 q)

/-- core/sourcehook/sourcehook_hookmangen_x86_64.cpp:329-355: the sizes of the variables. -/
def vars64 (p : Proto) : List Nat :=
  List.replicate 8 8 ++ if p.ret.size = 0 then [] else [8, 8] ++ List.replicate 4 (Jit.cellSize (pass64 p.ret))

/-- core/sourcehook/sourcehook_hookmangen_x86_64.cpp: the 64-bit generator; its destructor has `//Clear();` (118). -/
def gen64 : Gen := ⟨detect64, takes64, vars64, false⟩

/-- core/sourcehook/sourcehook_hookmangen_x86.cpp: the 32-bit generator (GCC); its frame is laid out without
`AddVarToFrame`. -/
def gen32 : Gen := ⟨detect32, takes32, fun _ => [], true⟩

end Verif.Gen
