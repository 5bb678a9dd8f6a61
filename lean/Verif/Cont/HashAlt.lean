import Verif.Cont.Hash
/-
The functions of `SourceHook::THash` that take a key of another type (C107): `AltFindOrInsert` and `FindAlt`.

Simplified: as in Verif/Cont/Hash.lean.
-/
namespace Verif.Cont

variable {U K V : Type}

/-- What a user of another key type supplies: `HashAlt`, `CompareAlt` and the constructor of `K` from `U`.
core/sourcehook/sh_tinyhash.h:23-27, 131. -/
structure Alt (U K : Type) where
  hash : U → Int
  cmp : U → K → Int
  conv : U → K

/-- The search loop of `AltFindOrInsert`, core/sourcehook/sh_tinyhash.h:136-142. -/
def scanAlt (A : Alt U K) (mem : Nat → Option (K × V)) (u : U) : List Nat → R (Option Nat)
  | [] => .ok none
  | a :: l => do
    let kv ← nodeAt mem a
    if A.cmp u kv.1 = 0 then .ok (some a) else scanAlt A mem u l

/-- `AltFindOrInsert`, core/sourcehook/sh_tinyhash.h:123-152; a new node gets the address `a`, `d` is `V()`. The result has the node
whose value is returned. -/
def TH.altFindOrInsert (full : Nat → Nat → Bool) (hash : K → Int) (A : Alt U K) (d : V) (h : TH K V) (a : Nat) (u : U) : R (TH K V × Nat) :=
  match h.b[place A.hash u h.b.length]? with
  | none => .error .outOfBounds
  | some none =>
    TH.grown full hash { b := h.b.set (place A.hash u h.b.length) (some [a]), pct := h.pct + 1, mem := upd h.mem a (some (A.conv u, d)) } a
  | some (some l) => do
    match ← scanAlt A h.mem u l with
    | some x => .ok (h, x)
    | none =>
      TH.grown full hash
        { h with b := h.b.set (place A.hash u h.b.length) (some (l ++ [a])), mem := upd h.mem a (some (A.conv u, d)) } a

/-- The loop of `FindAlt`, core/sourcehook/sh_tinyhash.h:501-509. -/
def TH.findAltLoop (A : Alt U K) (h : TH K V) (u : U) : Nat → It → R It
  | 0, _ => .error .fuel
  | n + 1, it =>
    if it.fin then .ok { cur := none, pos := none, fin := true }
    else do
      let kv ← h.deref it
      if A.cmp u kv.1 = 0 then .ok it
      else do
        let it ← h.inc it
        h.findAltLoop A u n it

/-- `FindAlt`, core/sourcehook/sh_tinyhash.h:498-511. -/
def TH.findAlt (A : Alt U K) (h : TH K V) (n : Nat) (u : U) : R It := do
  let it ← h.begin
  h.findAltLoop A u n it

/-- `AltFindOrInsert(u) = v`. core/sourcehook/sh_tinyhash.h:123-152. -/
def TH.altPut (full : Nat → Nat → Bool) (hash : K → Int) (A : Alt U K) (d : V) (h : TH K V) (a : Nat) (u : U) (v : V) : R (TH K V) := do
  let (h, p) ← h.altFindOrInsert full hash A d a u
  let kv ← nodeAt h.mem p
  .ok { h with mem := upd h.mem p (some (kv.1, v)) }

/-- `AltFindOrInsert(u)` read. core/sourcehook/sh_tinyhash.h:123-152. -/
def TH.altGet (full : Nat → Nat → Bool) (hash : K → Int) (A : Alt U K) (d : V) (h : TH K V) (a : Nat) (u : U) : R (TH K V × V) := do
  let (h, p) ← h.altFindOrInsert full hash A d a u
  let kv ← nodeAt h.mem p
  .ok (h, kv.2)

end Verif.Cont
