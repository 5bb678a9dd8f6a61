/-
`mm_PatchAllowDedicated` and `ISource2ServerConfig::AllowDedicatedServers`, which the loader has on Windows only (C105).

Simplified: memory is a map from slots to addresses of code, and `SetMemAccess` succeeds; the game's own function answers and touches
nothing of the loader. A request stands for the part of `mm_GameDllRequest` after the game has handed out its object.
-/
namespace Verif.Dedi

/-- What is outside: the table of an object, the address of the loader's own function, and the answer of the game's code for an object
and a universe. No counterpart in /repo. -/
structure World where
  vt : Nat → Nat
  thunk : Nat
  game : Nat → Nat → Int → Bool

/-- The slot written to, 21 behind the start of the table (`is2sc_allowdedi_index`). loader/gamedll.cpp:58, 706-708. -/
def World.slot (w : World) (p : Nat) : Nat := w.vt p + 21

/-- The memory, `config_iface` and `is2sc_orig_allowdedi` (0 is NULL). loader/gamedll.cpp:248-250, 813. -/
structure St where
  mem : Nat → Nat
  config : Option Nat
  saved : Nat

/-- No counterpart in /repo: ways to fail. `assert` stops a build that has assertions. -/
inductive Bad
  | assertion
  | nullConfig
  | nullCall
  deriving DecidableEq, Repr

/-- No counterpart in /repo: writing one slot. -/
def upd (m : Nat → Nat) (a v : Nat) : Nat → Nat := fun b => if b = a then v else m b

/-- `mm_PatchAllowDedicated`; `asserts`: whether the build has assertions. loader/gamedll.cpp:691-725. -/
def patch (w : World) (asserts : Bool) (on : Bool) (s : St) : Except Bad St :=
  match s.config with
  | none => .error .nullConfig
  | some p =>
    if on then
      if asserts && s.saved != 0 then .error .assertion
      else .ok { s with saved := s.mem (w.slot p), mem := upd s.mem (w.slot p) w.thunk }
    else
      if asserts && s.saved == 0 then .error .assertion
      else .ok { s with mem := upd s.mem (w.slot p) s.saved, saved := 0 }

/-- The game has handed out the object `p` for a request of `Source2ServerConfig`. loader/gamedll.cpp:809-819. -/
def request (w : World) (asserts : Bool) (p : Nat) (s : St) : Except Bad St :=
  patch w asserts true { s with config := some p }

/-- The engine calls `AllowDedicatedServers` of the object `p`: through its table. loader/gamedll.cpp:345-351. -/
def ask (w : World) (asserts : Bool) (p : Nat) (univ : Int) (s : St) : Except Bad (St × Bool) :=
  let f := s.mem (w.slot p)
  if f = 0 then .error .nullCall
  else if f = w.thunk then do
    let s ← patch w asserts false s
    .ok (s, true)
  else .ok (s, w.game f p univ)

/-- No counterpart in /repo: what the engine does. -/
inductive Op
  | request (p : Nat)
  | ask (p : Nat) (univ : Int)
  deriving DecidableEq, Repr

/-- No counterpart in /repo: a sequence of it, with the answers. -/
def run (w : World) (asserts : Bool) : List Op → St → Except Bad (St × List Bool)
  | [], s => .ok (s, [])
  | .request p :: r, s => do run w asserts r (← request w asserts p s)
  | .ask p u :: r, s => do
    let (s, a) ← ask w asserts p u s
    let (s, as) ← run w asserts r s
    .ok (s, a :: as)

end Verif.Dedi
