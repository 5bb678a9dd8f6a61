import Verif.Core.Vdf
/-
`SourceProvider::ProcessVDF` with the reader for the oldest engine, `KVLoadFromFile`
(core/provider/source/provider_source.cpp:157-206, 613-641).
* The file system and the scratch memory of the engine are parameters: what `Open`, `Size`, `Read` and
  `MemAllocScratch` answer.  `Size` is taken as the `int` it is stored in.
* A byte of the buffer that nobody wrote is `none`; reading it is an outcome of its own.
* The parser of the engine (`KeyValues::LoadFromBuffer`, then `GetString`) is a parameter that is
  given the text up to the first NUL.
-/
namespace Verif.KvFile

open Verif.C (Byte Buf)
open Verif.Util (format)

/-- No counterpart in /repo: undefined behaviour, made visible. -/
inductive Bad
  | overflow
  | null
  | outOfBounds
  | indeterminate
  deriving DecidableEq, Repr

/-- No counterpart in /repo: what the engine is asked for, and objects made and deleted. -/
inductive Ev
  | newKv
  | opened (name : List Byte)
  | alloc (n : Int)
  | read (n : Int)
  | closed
  | parsed (text : List Byte)
  | freed
  | engineRead (name : List Byte)
  | deleteKv
  deriving DecidableEq, Repr

/-- What "file" and "alias" are after parsing. No counterpart in /repo: the engine's `KeyValues`. -/
abbrev Found := Option (List Byte) × Option (List Byte)

/-- The engine: whether a file opens and what `Size` says of it, what `Read` delivers of it when asked for so many bytes, whether there is
scratch memory of a size, the parser, and its own reader of files.  No counterpart in /repo: called at
core/provider/source/provider_source.cpp:620-638, 177. -/
structure Engine where
  size : List Byte → Option Int
  read : List Byte → Nat → List Byte
  scratch : Nat → Bool
  parse : List Byte → Option Found
  load : List Byte → Option Found

/-- The text in a buffer up to the first NUL. No counterpart in /repo: what `LoadFromBuffer` reads,
core/provider/source/provider_source.cpp:636. -/
def textOf : List (Option Byte) → Except Bad (List Byte)
  | [] => .error .outOfBounds
  | none :: _ => .error .indeterminate
  | some c :: cs => if c = 0 then .ok [] else do .ok (c :: (← textOf cs))

/-- `KVLoadFromFile`, core/provider/source/provider_source.cpp:613-641: what was found, and what was done. -/
def kvLoad (G : Engine) (name : List Byte) : Except Bad (Option Found × List Ev) :=
  match G.size name with
  | none => .ok (none, [.opened name])
  | some n =>
    if n + 1 ≥ 2 ^ 31 then .error .overflow
    else if n < 0 then .error .outOfBounds
    else if G.scratch (n + 1).toNat = false then .error .null
    else do
      let got := G.read name n.toNat
      let buffer : List (Option Byte) := got.map some ++ List.replicate (n.toNat - got.length) none ++ [some 0]
      let text ← textOf buffer
      .ok (G.parse text, [.opened name, .alloc (n + 1), .read n, .closed, .parsed text, .freed])

/-- The reader in use, core/provider/source/provider_source.cpp:170-178. -/
def readKv (G : Engine) (original : Bool) (name : List Byte) : Except Bad (Option Found × List Ev) :=
  if original then kvLoad G name else .ok (G.load name, [.engineRead name])

/-- The end of ProcessVDF, core/provider/source/provider_source.cpp:180-205: `evs` is what the reader did. -/
def finish (path : Buf) (pathLen : Nat) (alias : Buf) (aliasLen : Nat) (evs : List Ev) : Option Found → Except Verif.C.Fault (Option (Buf × Buf) × List Ev)
  | none => .ok (none, [.newKv] ++ evs ++ [.deleteKv])
  | some (none, _) => .ok (none, [.newKv] ++ evs ++ [.deleteKv])
  | some (some f, al) => do
    let r ← format path pathLen (some f) []
    let q ← format alias aliasLen (some (al.getD [])) []
    .ok (some (r.1, q.1), [.newKv] ++ evs ++ [.deleteKv])

/-- `SourceProvider::ProcessVDF`, core/provider/source/provider_source.cpp:157-206: whether there is a file system, whether this is the oldest
engine; the buffers (unchanged where false is returned) and what was done. -/
def processVDF (G : Engine) (baseFs original : Bool) (name : List Byte) (path : Buf) (pathLen : Nat) (alias : Buf) (aliasLen : Nat) :
    Except (Bad ⊕ Verif.C.Fault) (Option (Buf × Buf) × List Ev) :=
  if baseFs = false then .ok (none, [])
  else do
    let x ← (readKv G original name).mapError .inl
    (finish path pathLen alias aliasLen x.2 x.1).mapError .inr

end Verif.KvFile
