import Verif.Cont.List
/-
`SourceHook::THash`, core/sourcehook/sh_tinyhash.h: a chained hash table.

* `mem` is the memory of the `THashNode`s: the key and value of the node at an address, `none` when there is none.
  Reading or deleting a node that is not there is the outcome `dangling`.
* `b` is `m_Buckets`: `none` is a NULL pointer, `some l` a `List` with the node pointers `l`.  The lists themselves are
  taken as sequences; Verif/Cont/ListProps.lean proves that of `SourceHook::List`.  A list iterator is given by the node
  pointer stored at its place (each is stored once), `none` for `end()`.
* `m_percentUsed` is a float with the number of used buckets over the number of buckets; the model keeps the number of
  used buckets, and takes the test `> 0.75f` as a parameter `full`, so that nothing depends on rounding.
* The number of buckets does not reach 2^31 (it is converted to `int` by the iterators).
* `hash` is `HashFunction`; `Compare` and `==` are equality of keys.  The `Alt` functions are in
  Verif/Cont/HashAlt.lean.

The copy constructor and `operator=` are in Verif/Cont/Copy.lean.
-/
namespace Verif.Cont

variable {K V : Type} [DecidableEq K]

/-- The members, sh_tinyhash.h:528-530, and the nodes. -/
structure TH (K V : Type) where
  b : List (Option (List Nat))
  pct : Nat
  mem : Nat → Option (K × V)

/-- `HashFunction(key) % n`: an `int` converted to `size_t`, sh_tinyhash.h:156, 210. -/
def place (hash : K → Int) (k : K) (n : Nat) : Nat := (hash k % 2 ^ 64).toNat % n

/-- `*node`. No counterpart in /repo: a C++ operator. -/
def nodeAt (mem : Nat → Option (K × V)) (a : Nat) : R (K × V) := match mem a with
  | none => .error .dangling
  | some kv => .ok kv

/-- The inner loop of `_Refactor`, sh_tinyhash.h:206-218. -/
def rehashList (hash : K → Int) (mem : Nat → Option (K × V)) : List Nat → List (Option (List Nat)) × Nat → R (List (Option (List Nat)) × Nat)
  | [], t => .ok t
  | a :: l, (t, pct) => do
    let kv ← nodeAt mem a
    let p := place hash kv.1 t.length
    match t[p]? with
    | none => .error .outOfBounds
    | some none => rehashList hash mem l (t.set p (some [a]), pct + 1)
    | some (some q) => rehashList hash mem l (t.set p (some (q ++ [a])), pct)

/-- The outer loop of `_Refactor`, sh_tinyhash.h:200-223. -/
def rehash (hash : K → Int) (mem : Nat → Option (K × V)) : List (Option (List Nat)) → List (Option (List Nat)) × Nat → R (List (Option (List Nat)) × Nat)
  | [], t => .ok t
  | none :: b, t => rehash hash mem b t
  | some l :: b, t => do
    let t ← rehashList hash mem l t
    rehash hash mem b t

/-- `_Refactor`, sh_tinyhash.h:181-228. -/
def TH.refactor (hash : K → Int) (h : TH K V) : R (TH K V) :=
  if h.b.length = 0 then .ok { h with b := List.replicate 32 none, pct := 0 }
  else do
    let t ← rehash hash h.mem h.b (List.replicate (h.b.length * 2) none, 0)
    .ok { h with b := t.1, pct := t.2 }

/-- `THash()`, sh_tinyhash.h:57-60. -/
def TH.init (hash : K → Int) : R (TH K V) := TH.refactor hash { b := [], pct := 0, mem := fun _ => none }

/-- The search loop of `_FindOrInsert`, sh_tinyhash.h:166-170. -/
def scan (mem : Nat → Option (K × V)) (k : K) : List Nat → R (Option Nat)
  | [] => .ok none
  | a :: l => do
    let kv ← nodeAt mem a
    if kv.1 = k then .ok (some a) else scan mem k l

/-- The end of `_FindOrInsert`, sh_tinyhash.h:175-179. -/
def TH.grown (full : Nat → Nat → Bool) (hash : K → Int) (h : TH K V) (a : Nat) : R (TH K V × Nat) :=
  if full h.pct h.b.length then do
    let h ← h.refactor hash
    .ok (h, a)
  else .ok (h, a)

/-- `_FindOrInsert`, sh_tinyhash.h:154-180; a new node gets the address `a`, `d` is `V()`.  No buckets: division by zero. -/
def TH.findOrInsert (full : Nat → Nat → Bool) (hash : K → Int) (d : V) (h : TH K V) (a : Nat) (k : K) : R (TH K V × Nat) :=
  match h.b[place hash k h.b.length]? with
  | none => .error .outOfBounds
  | some none =>
    TH.grown full hash { b := h.b.set (place hash k h.b.length) (some [a]), pct := h.pct + 1, mem := upd h.mem a (some (k, d)) } a
  | some (some l) => do
    match ← scan h.mem k l with
    | some x => .ok (h, x)
    | none => TH.grown full hash { h with b := h.b.set (place hash k h.b.length) (some (l ++ [a])), mem := upd h.mem a (some (k, d)) } a

/-- `hash[k] = v`, sh_tinyhash.h:93-97. -/
def TH.put (full : Nat → Nat → Bool) (hash : K → Int) (d : V) (h : TH K V) (a : Nat) (k : K) (v : V) : R (TH K V) := do
  let (h, p) ← h.findOrInsert full hash d a k
  let kv ← nodeAt h.mem p
  .ok { h with mem := upd h.mem p (some (kv.1, v)) }

/-- `hash[k]` read, sh_tinyhash.h:93-97. -/
def TH.get (full : Nat → Nat → Bool) (hash : K → Int) (d : V) (h : TH K V) (a : Nat) (k : K) : R (TH K V × V) := do
  let (h, p) ← h.findOrInsert full hash d a k
  let kv ← nodeAt h.mem p
  .ok (h, kv.2)

/-- `iterator`, sh_tinyhash.h:347-350: `curbucket` (`none` = -1), `iter`, `end`. -/
structure It where
  cur : Option Nat
  pos : Option Nat
  fin : Bool

/-- The loops of `_Inc` over the buckets, sh_tinyhash.h:311-321, 330-340. -/
def firstFrom : List (Option (List Nat)) → Nat → Option (Nat × Nat)
  | [], _ => none
  | some (a :: _) :: _, i => some (i, a)
  | _ :: b, i => firstFrom b (i + 1)

/-- `iter++` of a list iterator, sh_list.h:189-201. -/
def nextIn : List Nat → Nat → R (Option Nat)
  | [], _ => .error .dangling
  | x :: l, a => if x = a then .ok l.head? else nextIn l a

/-- The move to the next bucket in `_Inc`, sh_tinyhash.h:329-342. -/
def TH.skip (h : TH K V) (c : Nat) : It := match firstFrom (h.b.drop (c + 1)) (c + 1) with
  | some (i, a) => { cur := some i, pos := some a, fin := false }
  | none => { cur := some c, pos := none, fin := true }

/-- `_Inc`, sh_tinyhash.h:305-345. -/
def TH.inc (h : TH K V) (it : It) : R It :=
  if it.fin then .ok it
  else match it.cur with
    | none => match firstFrom h.b 0 with
      | some (i, a) => .ok { cur := some i, pos := some a, fin := false }
      | none => .ok { it with fin := true }
    | some c =>
      if c ≥ h.b.length then .ok it
      else match h.b[c]? with
        | some (some l) => do
          let p ← match it.pos with
            | none => .ok none
            | some a => nextIn l a
          match p with
          | none => .ok (h.skip c)
          | some a => .ok { it with pos := some a }
        | _ => .error .dangling

/-- `begin`, sh_tinyhash.h:237-243, 452-455. -/
def TH.begin (h : TH K V) : R It := if h.b.length = 0 then .ok { cur := none, pos := none, fin := true } else h.inc { cur := none, pos := none, fin := false }

/-- `*iter`, sh_tinyhash.h:257-272. -/
def TH.deref (h : TH K V) (it : It) : R (K × V) := match it.pos with
  | none => .error .uninit
  | some a => nodeAt h.mem a

/-- `iterator::erase`, sh_tinyhash.h:290-303. -/
def TH.eraseIt (h : TH K V) (it : It) : R (TH K V × It) :=
  if it.fin then .ok (h, it)
  else match it.cur with
    | none => .ok (h, it)
    | some c =>
      if c ≥ h.b.length then .ok (h, it)
      else do
        let tmp ← h.inc it
        match it.pos, h.b[c]? with
        | some a, some (some l) => do
          let _ ← nodeAt h.mem a
          .ok ({ h with b := h.b.set c (some (l.erase a)), mem := upd h.mem a none }, tmp)
        | _, _ => .error .uninit

/-- The loop of `find`, sh_tinyhash.h:487-497. -/
def TH.findLoop (h : TH K V) (k : K) : Nat → It → R It
  | 0, _ => .error .fuel
  | n + 1, it =>
    if it.fin then .ok { cur := none, pos := none, fin := true }
    else do
      let kv ← h.deref it
      if kv.1 = k then .ok it
      else do
        let it ← h.inc it
        h.findLoop k n it

/-- `find`, sh_tinyhash.h:487-497. -/
def TH.find (h : TH K V) (n : Nat) (k : K) : R It := do
  let it ← h.begin
  h.findLoop k n it

/-- `erase(key)`, sh_tinyhash.h:517-524. -/
def TH.eraseKey (h : TH K V) (n : Nat) (k : K) : R (TH K V) := do
  let it ← h.find n k
  if it.fin then .ok h
  else do
    let r ← h.eraseIt it
    .ok r.1

/-- The deletions of `_Clear`, sh_tinyhash.h:102-116. -/
def freeNodes (mem : Nat → Option (K × V)) : List Nat → R (Nat → Option (K × V))
  | [] => .ok mem
  | a :: l => do
    let _ ← nodeAt mem a
    freeNodes (upd mem a none) l

/-- `_Clear`, sh_tinyhash.h:99-121. -/
def TH.clearAll (h : TH K V) : R (TH K V) := do
  let mem ← freeNodes h.mem (h.b.flatMap fun x => x.getD [])
  .ok { h with b := [], mem := mem }

/-- `clear`, sh_tinyhash.h:80-84. -/
def TH.clear (hash : K → Int) (h : TH K V) : R (TH K V) := do
  let h ← h.clearAll
  h.refactor hash

end Verif.Cont
