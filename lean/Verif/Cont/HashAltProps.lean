import Verif.Cont.HashAlt
import Verif.Cont.HashProps
/-! C107: keys of another type in the hash table. -/
namespace Verif.Cont

set_option linter.unusedSectionVars false

variable {U K V : Type} [DecidableEq K]

/-- Specification: the comparison finds exactly the key made of `u`. No counterpart in /repo: what a user has to supply. -/
def CmpOk (A : Alt U K) (u : U) : Prop := ∀ k, A.cmp u k = 0 ↔ k = A.conv u

/-- Specification: the hash is that of the key made of `u`. No counterpart in /repo: what a user has to supply. -/
def HashOk (hash : K → Int) (A : Alt U K) (u : U) : Prop := A.hash u = hash (A.conv u)

private theorem scanAlt_eq {A : Alt U K} {u : U} (hc : CmpOk A u) (mem : Nat → Option (K × V)) : ∀ l : List Nat,
    scanAlt A mem u l = scan mem (A.conv u) l
  | [] => rfl
  | a :: l => by
    simp only [scanAlt, scan, bind, Except.bind]
    cases nodeAt mem a with
    | error e => rfl
    | ok kv =>
      simp only [scanAlt_eq hc mem l]
      by_cases hk : kv.1 = A.conv u
      · rw [if_pos hk, if_pos ((hc _).2 hk)]
      · rw [if_neg hk, if_neg fun k => hk ((hc _).1 k)]

private theorem alt_eq {full : Nat → Nat → Bool} {hash : K → Int} {A : Alt U K} {u : U} (hc : CmpOk A u) (hh : HashOk hash A u) (d : V)
    (h : TH K V) (a : Nat) : h.altFindOrInsert full hash A d a u = h.findOrInsert full hash d a (A.conv u) := by
  have hp : place A.hash u h.b.length = place hash (A.conv u) h.b.length := by unfold place; rw [hh]
  unfold TH.altFindOrInsert TH.findOrInsert
  rw [hp]
  cases h.b[place hash (A.conv u) h.b.length]? with
  | none => rfl
  | some x =>
    cases x with
    | none => rfl
    | some l =>
      simp only [scanAlt_eq hc]
      cases scan h.mem (A.conv u) l with
      | error e => rfl
      | ok o => cases o <;> rfl

/-- The operations, on keys of either type; `a` is the address of a new node. No counterpart in /repo: one step of a run. -/
inductive AOp (U K V : Type)
  | own (op : HOp K V)
  | altPut (a : Nat) (u : U) (v : V)
  | altGet (a : Nat) (u : U)
  | findAlt (u : U)

/-- One operation; the result is the value read or found. No counterpart in /repo: one step of a run. -/
def astep (full : Nat → Nat → Bool) (hash : K → Int) (A : Alt U K) (d : V) (n : Nat) (h : TH K V) : AOp U K V → R (TH K V × Option V)
  | .own op => hstep full hash d n h op
  | .altPut a u v => do
    let h ← h.altPut full hash A d a u v
    .ok (h, none)
  | .altGet a u => do
    let (h, v) ← h.altGet full hash A d a u
    .ok (h, some v)
  | .findAlt u => do
    let it ← h.findAlt A n u
    if it.fin then .ok (h, none)
    else do
      let kv ← h.deref it
      .ok (h, some kv.2)

/-- Specification: what the operations do to a map: an operation on `u` is that on the key made of `u`. No counterpart in /repo. -/
def aspec (A : Alt U K) (d : V) (m : K → Option V) : AOp U K V → (K → Option V) × Option V
  | .own op => hspec d m op
  | .altPut _ u v => (mset m (A.conv u) (some v), none)
  | .altGet _ u => (mset m (A.conv u) (some ((m (A.conv u)).getD d)), some ((m (A.conv u)).getD d))
  | .findAlt u => (m, m (A.conv u))

/-- Specification: the address an operation may use for a new node is free. No counterpart in /repo: `new`. -/
def AOp.fresh (h : TH K V) : AOp U K V → Prop
  | .own op => op.fresh h
  | .altPut a _ _ | .altGet a _ => h.mem a = none
  | .findAlt _ => True

/-- Specification: what the functions supplied have to satisfy for an operation: finding needs no hash. No counterpart in /repo. -/
def AOp.Ok (hash : K → Int) (A : Alt U K) : AOp U K V → Prop
  | .own _ => True
  | .altPut _ u _ | .altGet _ u => CmpOk A u ∧ HashOk hash A u
  | .findAlt u => CmpOk A u

private theorem findAltLoop_spec {A : Alt U K} {h : TH K V} (hi : (order h.b).Nodup) {u : U} : ∀ {rest : List Nat} {it : It} {n : Nat},
    (∀ a ∈ rest, ∃ kv, h.mem a = some kv) → ItAt h it rest → rest.length < n →
      (∃ it' a q k v, h.findAltLoop A u n it = .ok it' ∧ ItAt h it' (a :: q) ∧ a ∈ rest ∧ h.mem a = some (k, v) ∧ A.cmp u k = 0) ∨
      (h.findAltLoop A u n it = .ok { cur := none, pos := none, fin := true } ∧ ∀ a ∈ rest, ∀ k v, h.mem a = some (k, v) → A.cmp u k ≠ 0) := by
  intro rest
  induction rest with
  | nil =>
    intro it n _ hat hn
    cases n with
    | zero => exact absurd hn (by simp)
    | succ n => exact .inr ⟨by simp [TH.findAltLoop, itAt_nil hat], by simp⟩
  | cons a rest ih =>
    intro it n hl hat hn
    cases n with
    | zero => exact absurd hn (by simp)
    | succ n =>
      obtain ⟨hf, hd⟩ := deref_spec hat
      obtain ⟨⟨k, v⟩, hm⟩ := hl a (by simp)
      have hd' : h.deref it = .ok (k, v) := by rw [hd, nodeAt, hm]
      by_cases hk : A.cmp u k = 0
      · exact .inl ⟨it, a, rest, k, v, by simp [TH.findAltLoop, hf, hd', hk, bind, Except.bind], hat, by simp, hm, hk⟩
      · obtain ⟨it', e, hat'⟩ := inc_spec hi hat
        have er : h.findAltLoop A u (n + 1) it = h.findAltLoop A u n it' := by
          simp [TH.findAltLoop, hf, hd', hk, e, bind, Except.bind]
        rw [er]
        rcases ih (fun b hb => hl b (by simp [hb])) hat' (by simpa using hn) with ⟨it2, b, q, k2, v2, e2, h2, hb, hm2, hk2⟩ | ⟨e2, hno⟩
        · exact .inl ⟨it2, b, q, k2, v2, e2, h2, by simp [hb], hm2, hk2⟩
        · refine .inr ⟨e2, ?_⟩
          intro b hb k2 v2 hm2
          rcases List.mem_cons.1 hb with rfl | hb
          · rw [hm] at hm2
            simp only [Option.some.injEq, Prod.mk.injEq] at hm2
            rw [← hm2.1]
            exact hk
          · exact hno b hb k2 v2 hm2

/-- C107: `FindAlt`, whatever comparison it is given: it ends without a fault, at an entry of the map whose key compares equal, or, exactly
if there is none, at `end()`. The hash supplied does not matter. -/
theorem findAlt_any {hash : K → Int} {h : TH K V} {m : K → Option V} (hr : HRep hash h m) (A : Alt U K) {n : Nat}
    (hn : (order h.b).length < n) (u : U) :
    ∃ it, h.findAlt A n u = .ok it ∧ (it.fin = true ↔ ∀ k v, m k = some v → A.cmp u k ≠ 0) ∧
      (it.fin = false → ∃ k v, h.deref it = .ok (k, v) ∧ m k = some v ∧ A.cmp u k = 0) := by
  obtain ⟨it, e, hat⟩ := begin_spec hr.inv
  unfold TH.findAlt
  simp only [bind, Except.bind, e]
  rcases findAltLoop_spec (A := A) hr.inv.nodup (u := u) (fun a ha => hr.inv.live ha) hat hn with
    ⟨it', a, q, k, v, e2, h2, ha, hm, hk⟩ | ⟨e2, hno⟩
  · obtain ⟨hf, hd⟩ := deref_spec h2
    have hmk := (hr.abs k v).2 ⟨a, ha, hm⟩
    refine ⟨it', e2, ⟨fun k0 => absurd (hf.symm.trans k0) (by decide), fun hall => absurd hk (hall k v hmk)⟩, fun _ => ⟨k, v, ?_, hmk, hk⟩⟩
    rw [hd, nodeAt, hm]
  · refine ⟨_, e2, ⟨fun _ k v hkv => ?_, fun _ => rfl⟩, fun k0 => absurd k0 (by simp)⟩
    obtain ⟨a, ha, hm⟩ := (hr.abs k v).1 hkv
    exact hno a ha k v hm

/-- C107: every operation, on keys of either type, succeeds and does to the table what it does to the map, if comparison and hash of the
other type are those of the key made of it. -/
theorem alt_step {full : Nat → Nat → Bool} {hash : K → Int} {A : Alt U K} {d : V} {n : Nat} {h : TH K V} {m : K → Option V}
    (hr : HRep hash h m) (op : AOp U K V) (hf : op.fresh h) (ho : op.Ok hash A) (hn : (order h.b).length < n) :
    ∃ h', astep full hash A d n h op = .ok (h', (aspec A d m op).2) ∧ HRep hash h' (aspec A d m op).1 := by
  cases op with
  | own op => exact hash_step hr op hf hn
  | altPut a u v =>
    have := hash_step (full := full) (d := d) hr (.put a (A.conv u) v) hf hn
    have e : ∀ h : TH K V, h.altPut full hash A d a u v = h.put full hash d a (A.conv u) v := by
      intro h
      unfold TH.altPut TH.put
      rw [alt_eq ho.1 ho.2]
    simp only [astep, e]
    exact this
  | altGet a u =>
    have := hash_step (full := full) (d := d) hr (.get a (A.conv u)) hf hn
    have e : ∀ h : TH K V, h.altGet full hash A d a u = h.get full hash d a (A.conv u) := by
      intro h
      unfold TH.altGet TH.get
      rw [alt_eq ho.1 ho.2]
    simp only [astep, e]
    exact this
  | findAlt u =>
    have hc : CmpOk A u := ho
    obtain ⟨it, e, h1, h2⟩ := findAlt_any hr A hn u
    refine ⟨h, ?_, hr⟩
    simp only [astep, bind, Except.bind, e, aspec]
    cases hfin : it.fin with
    | true =>
      cases hm : m (A.conv u) with
      | none => simp
      | some v => exact absurd ((hc _).2 rfl) (h1.1 hfin _ v hm)
    | false =>
      obtain ⟨k, v, e2, hm, hk⟩ := h2 hfin
      rw [(hc k).1 hk] at hm
      simp [e2, hm]

/-- No counterpart in /repo: a run of operations, each new node at a free address, each search with enough steps. -/
inductive ARun (full : Nat → Nat → Bool) (hash : K → Int) (A : Alt U K) (d : V) : TH K V → List (AOp U K V) → TH K V → List (Option V) → Prop
  | nil (h : TH K V) : ARun full hash A d h [] h []
  | cons {h h' h'' : TH K V} {op : AOp U K V} {ops : List (AOp U K V)} {o : Option V} {os : List (Option V)} {n : Nat} (hf : op.fresh h)
      (hn : (order h.b).length < n) (e : astep full hash A d n h op = .ok (h', o)) (r : ARun full hash A d h' ops h'' os) :
      ARun full hash A d h (op :: ops) h'' (o :: os)

/-- Specification: the run on maps. No counterpart in /repo. -/
def aspecRun (A : Alt U K) (d : V) (m : K → Option V) : List (AOp U K V) → (K → Option V) × List (Option V)
  | [] => (m, [])
  | op :: ops => ((aspecRun A d (aspec A d m op).1 ops).1, (aspec A d m op).2 :: (aspecRun A d (aspec A d m op).1 ops).2)

private theorem run_refines {full : Nat → Nat → Bool} {hash : K → Int} {A : Alt U K} {d : V} {h1 h : TH K V} {ops : List (AOp U K V)}
    {os : List (Option V)} (r : ARun full hash A d h1 ops h os) : ∀ {m : K → Option V}, HRep hash h1 m → (∀ op ∈ ops, op.Ok hash A) →
      os = (aspecRun A d m ops).2 ∧ HRep hash h (aspecRun A d m ops).1 := by
  induction r with
  | nil h => exact fun hr _ => ⟨rfl, hr⟩
  | @cons h h' h'' op ops o os n hf hn e r ih =>
    intro m hr ho
    obtain ⟨h2, e2, hr2⟩ := alt_step (full := full) (d := d) hr op hf (ho op (by simp)) hn
    rw [e] at e2
    simp only [Except.ok.injEq, Prod.mk.injEq] at e2
    obtain ⟨rfl, rfl⟩ := e2
    obtain ⟨i1, i2⟩ := ih hr2 fun op h => ho op (by simp [h])
    exact ⟨by rw [aspecRun, ← i1], i2⟩

/-- C107 over whole runs: from the empty table on, every run of operations on keys of both types gives the results of the map. -/
theorem alt_refines {full : Nat → Nat → Bool} {hash : K → Int} {A : Alt U K} {d : V} {h0 h : TH K V} {ops : List (AOp U K V)}
    {os : List (Option V)} (h00 : TH.init hash = .ok h0) (r : ARun full hash A d h0 ops h os) (ho : ∀ op ∈ ops, op.Ok hash A) :
    os = (aspecRun A d (fun _ => none) ops).2 ∧ HRep hash h (aspecRun A d (fun _ => none) ops).1 := by
  obtain ⟨h', e, hr⟩ := init_hrep (V := V) hash
  rw [e] at h00
  rw [Except.ok.inj h00] at hr
  exact run_refines r hr ho

/-- No counterpart in /repo: natural numbers as the other type for keys that are integers. -/
def exAlt : Alt Nat Int := ⟨fun u => u, fun u k => k - u, fun u => u⟩

example : ∀ op ∈ ([.own (.put 1 5 7), .altGet 2 5, .altPut 3 9 4, .findAlt 9] : List (AOp Nat Int Nat)), op.Ok id exAlt := by
  intro op h
  have hc : ∀ u, CmpOk exAlt u := fun u k => by simp only [exAlt]; omega
  simp only [List.mem_cons, List.not_mem_nil, or_false] at h
  rcases h with rfl | rfl | rfl | rfl
  · trivial
  · exact ⟨hc _, rfl⟩
  · exact ⟨hc _, rfl⟩
  · exact hc _

private theorem order_set {b : List (Option (List Nat))} {p : Nat} {x : Option (List Nat)} (h : b[p]? = some x) (a : Nat) :
    (order (b.set p (some (x.getD [] ++ [a])))).Perm (order b ++ [a]) := by
  obtain ⟨B, C, e, -, hs⟩ := split_at h
  rw [hs, e, order_append, order_cons, order_append, order_cons]
  simp only [Option.getD_some, List.append_assoc]
  refine List.Perm.append_left _ (List.Perm.append_left _ ?_)
  exact List.perm_append_comm

private theorem grown_order {full : Nat → Nat → Bool} {hash : K → Int} {h : TH K V} (hp : 0 < h.b.length)
    (hl : ∀ a ∈ order h.b, ∃ kv, h.mem a = some kv) (a : Nat) :
    ∃ h', h.grown full hash a = .ok (h', a) ∧ h'.mem = h.mem ∧ (order h'.b).Perm (order h.b) := by
  unfold TH.grown
  split
  · obtain ⟨t, pct, e, -, -, hperm⟩ := rehash_spec (pct := 0) (sorted_replicate hash h.mem (n := h.b.length * 2) (by omega)) (b := h.b) hl
    refine ⟨{ h with b := t, pct := pct }, ?_, rfl, ?_⟩
    · unfold TH.refactor
      rw [if_neg (by omega)]
      simp [bind, Except.bind, e]
    · rw [order_replicate] at hperm
      exact hperm
  · exact ⟨h, rfl, rfl, .refl _⟩

/-- C107: the hash of the other type must be that of the key (up to the number of buckets): if it leads to another bucket, a key that is
in the table is not found; a second node for the same key is made, with the default value, and the table stores no map any more. -/
theorem alt_hash_needed {full : Nat → Nat → Bool} {hash : K → Int} {A : Alt U K} {d v : V} {h : TH K V} {m : K → Option V}
    (hr : HRep hash h m) {a : Nat} (ha : h.mem a = none) {u : U} (hc : CmpOk A u) (hm : m (A.conv u) = some v)
    (hh : place A.hash u h.b.length ≠ place hash (A.conv u) h.b.length) :
    ∃ h' old, h.altFindOrInsert full hash A d a u = .ok (h', a) ∧ old ∈ order h'.b ∧ a ∈ order h'.b ∧ old ≠ a ∧
      h'.mem old = some (A.conv u, v) ∧ h'.mem a = some (A.conv u, d) ∧ ∀ m', ¬ HRep hash h' m' := by
  obtain ⟨old, ho, hmo⟩ := (hr.abs _ v).1 hm
  have hne : old ≠ a := by
    rintro rfl
    rw [ha] at hmo
    exact absurd hmo (by simp)
  have key : ∀ (x : Option (List Nat)) (pct : Nat), h.b[place A.hash u h.b.length]? = some x →
      ∃ h', TH.grown full hash (⟨h.b.set (place A.hash u h.b.length) (some (x.getD [] ++ [a])), pct,
          upd h.mem a (some (A.conv u, d))⟩ : TH K V) a = .ok (h', a) ∧ old ∈ order h'.b ∧ a ∈ order h'.b ∧
        h'.mem old = some (A.conv u, v) ∧ h'.mem a = some (A.conv u, d) ∧ ∀ m', ¬ HRep hash h' m' := by
    intro x pct hx
    have hperm := order_set hx a
    obtain ⟨h', e, hmem, hp'⟩ := grown_order (full := full) (hash := hash) (h := ⟨h.b.set (place A.hash u h.b.length)
        (some (x.getD [] ++ [a])), pct, upd h.mem a (some (A.conv u, d))⟩)
      (by simpa using hr.inv.sorted.pos) (fun c hcm => by
        by_cases hca : c = a
        · exact ⟨(A.conv u, d), by simp [upd, hca]⟩
        · have : c ∈ order h.b := by
            have := hperm.mem_iff.1 hcm
            simp only [List.mem_append, List.mem_singleton] at this
            exact this.resolve_right hca
          obtain ⟨kv, hk⟩ := hr.inv.live this
          exact ⟨kv, by simp [upd, hca, hk]⟩) a
    have hin : ∀ c, c ∈ order h.b ++ [a] → c ∈ order h'.b := fun c hc => hp'.mem_iff.2 (hperm.mem_iff.2 hc)
    have h1 : h'.mem old = some (A.conv u, v) := by rw [hmem]; simp [upd, hne, hmo]
    have h2 : h'.mem a = some (A.conv u, d) := by rw [hmem]; simp [upd]
    refine ⟨h', e, hin _ (by simp [ho]), hin _ (by simp), h1, h2, ?_⟩
    intro m' hr'
    exact hne (hr'.inv.keys old (hin _ (by simp [ho])) a (hin _ (by simp)) _ _ _ h1 h2)
  have hlt : place A.hash u h.b.length < h.b.length := Nat.mod_lt _ hr.inv.sorted.pos
  unfold TH.altFindOrInsert
  cases hx : h.b[place A.hash u h.b.length]? with
  | none => exact absurd (List.getElem?_eq_none_iff.1 hx) (by omega)
  | some x =>
    cases x with
    | none =>
      obtain ⟨h', e, r⟩ := key none (h.pct + 1) hx
      exact ⟨h', old, e, r.1, r.2.1, hne, r.2.2⟩
    | some l =>
      have hs : scan h.mem (A.conv u) l = .ok none := by
        rcases scan_spec (mem := h.mem) (k := A.conv u) (l := l) (fun c hcl => hr.inv.live (mem_order.2 ⟨_, l, hx, hcl⟩)) with
          ⟨c, hcl, w, hcm, -⟩ | ⟨e, -⟩
        · obtain ⟨kv, hk, hpl⟩ := hr.inv.sorted.live _ l hx c hcl
          rw [hcm] at hk
          rw [← Option.some.inj hk] at hpl
          exact absurd hpl.symm hh
        · exact e
      obtain ⟨h', e, r⟩ := key (some l) h.pct hx
      refine ⟨h', old, ?_, r.1, r.2.1, hne, r.2.2⟩
      simp only [scanAlt_eq hc, hs, bind, Except.bind]
      exact e

/-- No counterpart in /repo: a comparison that is right with a hash that is not. -/
def exBad : Alt Nat Int := ⟨fun u => u + 1, fun u k => k - u, fun u => u⟩

/-- A table with the key 5, asked for the 5 of the other type. -/
example : ∃ (h : TH Int Nat) (m : Int → Option Nat), HRep id h m ∧ h.mem 2 = none ∧ m (exBad.conv 5) = some 7 ∧
    CmpOk exBad 5 ∧ place exBad.hash 5 h.b.length ≠ place id (exBad.conv 5) h.b.length := by
  obtain ⟨h0, e0, hr0⟩ := init_hrep (K := Int) (V := Nat) id
  have hh0 : h0 = { b := List.replicate 32 none, pct := 0, mem := fun _ => none } := (Except.ok.inj e0).symm
  subst hh0
  obtain ⟨h1, e1, hr1⟩ := hash_step (full := fun _ _ => false) (d := 0) (n := 1) hr0 (.put 1 5 7) rfl (by decide)
  have hh1 : h1 = { b := (List.replicate 32 none).set 5 (some [1]), pct := 1, mem := upd (upd (fun _ => none) 1 (some (5, 0))) 1 (some (5, 7)) } := by
    have := e1.symm
    simp only [hstep, TH.put, bind, Except.bind] at this
    exact (Prod.mk.inj (Except.ok.inj this)).1
  subst hh1
  exact ⟨_, _, hr1, rfl, rfl, fun k => by simp only [exBad]; omega, by decide⟩

#print axioms findAlt_any
#print axioms alt_step
#print axioms alt_refines
#print axioms alt_hash_needed
end Verif.Cont
