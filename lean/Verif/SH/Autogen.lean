import Verif.SH.Proto

/-
The table of generated hook managers, core/sourcehook/sourcehook_hookmangen.cpp:45-105 (the branch that generates code; on
64-bit Linux `MakeHookMan` returns NULL, sourcehook_hookmangen.cpp:63-64).

* The generated code is only its public function's address; whether it can be generated and where it is placed is given to each call.
* Reference counts do not overflow (`int`).
-/
namespace Verif.SH

/-- `StoredContext` with the members of `GenContext` that are compared, sourcehook_hookmangen.h:59-63, sourcehook_hookmangen_x86.cpp:1961-1969. -/
structure GenCtx where
  proto : Proto
  offs : Int
  idx : Int
  pub : Nat
  refs : Nat
  deriving Repr

/-- `CHookManagerAutoGen`, sourcehook_hookmangen.h:57-66; `freed` lists the code destroyed with its context. -/
structure Autogen where
  ctxs : List GenCtx
  freed : List Nat

/-- The constructor, sourcehook_hookmangen.cpp:46. -/
def Autogen.init : Autogen := { ctxs := [], freed := [] }

/-- `GenContext::Equal(proto, offs, idx)`, sourcehook_hookmangen_x86.cpp:1961-1964; `none` is a read past the parameters. -/
def GenCtx.same (c : GenCtx) (p : Proto) (offs idx : Int) : Option Bool :=
  match Proto.exactlyEqual? c.proto p with
  | none => none
  | some false => some false
  | some true => some (c.offs == offs && c.idx == idx)

/-- The loop of `MakeHookMan`, sourcehook_hookmangen.cpp:67-74: the contexts after it and the public function found. -/
def makeLoop (p : Proto) (offs idx : Int) : List GenCtx → Option (Option (List GenCtx × Nat))
  | [] => some none
  | c :: cs => match c.same p offs idx with
    | none => none
    | some true => some (some ({ c with refs := c.refs + 1 } :: cs, c.pub))
    | some false => match makeLoop p offs idx cs with
      | none => none
      | some none => some none
      | some (some (cs', pub)) => some (some (c :: cs', pub))

/-- `MakeHookMan`, sourcehook_hookmangen.cpp:61-88; `gen` is the code generated for a new context, 0 (NULL) if it cannot be. -/
def Autogen.make (s : Autogen) (p : Proto) (offs idx : Int) (gen : Nat) : Option (Autogen × Nat) :=
  match makeLoop p offs idx s.ctxs with
  | none => none
  | some (some (cs, pub)) => some ({ s with ctxs := cs }, pub)
  | some none =>
    if gen ≠ 0 then some ({ s with ctxs := s.ctxs ++ [{ proto := p, offs := offs, idx := idx, pub := gen, refs := 1 }] }, gen)
    else some (s, 0)

/-- The loop of `ReleaseHookMan`, sourcehook_hookmangen.cpp:92-103: the contexts after it and the code destroyed. -/
def releaseLoop (pub : Nat) : List GenCtx → List GenCtx × Option Nat
  | [] => ([], none)
  | c :: cs => if c.pub = pub then
      if c.refs - 1 = 0 then (cs, some c.pub) else ({ c with refs := c.refs - 1 } :: cs, none)
    else (c :: (releaseLoop pub cs).1, (releaseLoop pub cs).2)

/-- `ReleaseHookMan`, sourcehook_hookmangen.cpp:90-104. -/
def Autogen.release (s : Autogen) (pub : Nat) : Autogen :=
  { ctxs := (releaseLoop pub s.ctxs).1, freed := s.freed ++ (releaseLoop pub s.ctxs).2.toList }

end Verif.SH
