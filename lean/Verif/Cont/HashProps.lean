import Verif.Cont.HashLemmas
/-
Property C24: the hash table is a finite map, for every hash function and every growth policy.
-/
namespace Verif.Cont

set_option linter.unusedSectionVars false

variable {K V : Type} [DecidableEq K]

/-- The table is well formed and stores the map `m`. -/
structure HRep (hash : K → Int) (h : TH K V) (m : K → Option V) : Prop where
  inv : THI hash h
  abs : ∀ k v, m k = some v ↔ ∃ a ∈ order h.b, h.mem a = some (k, v)

/-- Spec: `m` with `k` mapped to `o`. -/
def mset (m : K → Option V) (k : K) (o : Option V) : K → Option V := fun x => if x = k then o else m x

/-- The operations; `a` is the address of a new node. -/
inductive HOp (K V : Type)
  | put (a : Nat) (k : K) (v : V)
  | get (a : Nat) (k : K)
  | find (k : K)
  | erase (k : K)
  | clear

/-- One operation; the result is the value read or found. -/
def hstep (full : Nat → Nat → Bool) (hash : K → Int) (d : V) (n : Nat) (h : TH K V) : HOp K V → R (TH K V × Option V)
  | .put a k v => do
    let h ← h.put full hash d a k v
    .ok (h, none)
  | .get a k => do
    let (h, v) ← h.get full hash d a k
    .ok (h, some v)
  | .find k => do
    let it ← h.find n k
    if it.fin then .ok (h, none)
    else do
      let kv ← h.deref it
      .ok (h, some kv.2)
  | .erase k => do
    let h ← h.eraseKey n k
    .ok (h, none)
  | .clear => do
    let h ← h.clear hash
    .ok (h, none)

/-- Spec of one operation on maps: `operator[]` puts the default value where there is none. -/
def hspec (d : V) (m : K → Option V) : HOp K V → (K → Option V) × Option V
  | .put _ k v => (mset m k (some v), none)
  | .get _ k => (mset m k (some ((m k).getD d)), some ((m k).getD d))
  | .find k => (m, m k)
  | .erase k => (mset m k none, none)
  | .clear => (fun _ => none, none)

/-- The address an operation may use for a new node is free. -/
def HOp.fresh (h : TH K V) : HOp K V → Prop
  | .put a _ _ | .get a _ => h.mem a = none
  | _ => True

theorem init_hrep (hash : K → Int) : ∃ h : TH K V, TH.init hash = .ok h ∧ HRep hash h (fun _ => none) := by
  refine ⟨{ b := List.replicate 32 none, pct := 0, mem := fun _ => none }, rfl, ⟨sorted_replicate hash _ (by omega), ?_, ?_⟩, ?_⟩
  · simp only [order_replicate]; exact List.nodup_nil
  · simp only [order_replicate]; intro a ha; cases ha
  · simp only [order_replicate]; intro k v
    constructor
    · intro h; cases h
    · rintro ⟨a, ha, _⟩; cases ha

theorem HRep.none_of {hash : K → Int} {h : TH K V} {m : K → Option V} (hr : HRep hash h m) {k : K} (hn : ∀ a ∈ order h.b, ∀ v, h.mem a ≠ some (k, v)) : m k = none := by
  cases e : m k with
  | none => rfl
  | some v =>
    obtain ⟨a, ha, hm⟩ := (hr.abs k v).1 e
    exact absurd hm (hn a ha v)

/-- `_FindOrInsert` seen as an operation on maps. -/
theorem findOrInsert_map {full : Nat → Nat → Bool} {hash : K → Int} {h : TH K V} {m : K → Option V} (hr : HRep hash h m) {a : Nat} (ha : h.mem a = none) (k : K) (d : V) :
    ∃ h' p, h.findOrInsert full hash d a k = .ok (h', p) ∧ HRep hash h' (mset m k (some ((m k).getD d))) ∧ p ∈ order h'.b ∧
      h'.mem p = some (k, (m k).getD d) := by
  obtain ⟨h', p, e, hi, hcase⟩ := findOrInsert_spec (full := full) hr.inv ha k d
  refine ⟨h', p, e, ?_⟩
  rcases hcase with ⟨rfl, hp, v, hm⟩ | ⟨rfl, hnew, hmem, hperm⟩
  · have hv : m k = some v := (hr.abs k v).2 ⟨p, hp, hm⟩
    have hm' : mset m k (some ((m k).getD d)) = m := by
      funext x; unfold mset; split
      · next hx => rw [hx, hv]; rfl
      · rfl
    rw [hm', hv]
    exact ⟨hr, hp, hm⟩
  · have hv : m k = none := hr.none_of hnew
    have hpo : p ∉ order h.b := by
      intro hp
      obtain ⟨kv, hk⟩ := hr.inv.live hp
      rw [ha] at hk; cases hk
    have hp' : p ∈ order h'.b := hperm.mem_iff.2 (by simp)
    refine ⟨⟨hi, ?_⟩, hp', by rw [hmem, hv]; simp [upd]⟩
    intro x v
    unfold mset
    rw [hmem, hv]
    constructor
    · intro hx
      split at hx
      · next hxk => subst hxk; simp only [Option.getD_none] at hx; exact ⟨p, hp', by simp [upd]; simpa using hx⟩
      · obtain ⟨c, hc, hm⟩ := (hr.abs x v).1 hx
        have : c ≠ p := by rintro rfl; exact hpo hc
        exact ⟨c, hperm.mem_iff.2 (by simp [hc]), by simp [upd, this, hm]⟩
    · rintro ⟨c, hc, hm⟩
      by_cases hcp : c = p
      · subst hcp
        simp only [upd, if_pos, Option.some.injEq, Prod.mk.injEq] at hm
        rw [if_pos hm.1.symm]
        simp [hm.2]
      · simp only [upd, if_neg hcp] at hm
        have hco : c ∈ order h.b := by
          have := hperm.mem_iff.1 hc
          simp only [List.mem_append, List.mem_singleton] at this
          rcases this with h | h
          · exact h
          · exact absurd h hcp
        have hxk : x ≠ k := by rintro rfl; exact hnew c hco v hm
        rw [if_neg hxk]
        exact (hr.abs x v).2 ⟨c, hco, hm⟩

/-- Assigning to the value of a node. -/
theorem HRep.assign {hash : K → Int} {h : TH K V} {m : K → Option V} (hr : HRep hash h m) {p : Nat} (hp : p ∈ order h.b) {k : K} {v0 v : V} (hm : h.mem p = some (k, v0)) :
    HRep hash { h with mem := upd h.mem p (some (k, v)) } (mset m k (some v)) := by
  have hkey : ∀ c kv, upd h.mem p (some (k, v)) c = some kv → ∃ kv', h.mem c = some kv' ∧ kv'.1 = kv.1 := by
    intro c kv hc
    by_cases hcp : c = p
    · subst hcp
      simp only [upd, if_pos, Option.some.injEq] at hc
      exact ⟨_, hm, by rw [← hc]⟩
    · simp only [upd, if_neg hcp] at hc
      exact ⟨kv, hc, rfl⟩
  refine ⟨⟨⟨hr.inv.sorted.pos, ?_⟩, hr.inv.nodup, ?_⟩, ?_⟩
  · intro i l hl a ha
    obtain ⟨kv, hk, hpl⟩ := hr.inv.sorted.live i l hl a ha
    by_cases hap : a = p
    · subst hap
      rw [hm] at hk
      simp only [Option.some.injEq] at hk
      subst hk
      exact ⟨(k, v), by simp [upd], hpl⟩
    · exact ⟨kv, by simp [upd, hap, hk], hpl⟩
  · intro a ha a' ha' x w w' h1 h2
    obtain ⟨⟨x1, w1⟩, h3, h4⟩ := hkey _ _ h1
    obtain ⟨⟨x2, w2⟩, h5, h6⟩ := hkey _ _ h2
    simp only at h4 h6
    subst h4; subst h6
    exact hr.inv.keys a ha a' ha' _ _ _ h3 h5
  · intro x w
    unfold mset
    constructor
    · intro hx
      split at hx
      · next hxk => subst hxk; exact ⟨p, hp, by simp [upd]; simpa using hx⟩
      · next hxk =>
        obtain ⟨c, hc, hcm⟩ := (hr.abs x w).1 hx
        have : c ≠ p := by
          rintro rfl
          rw [hm] at hcm
          simp only [Option.some.injEq, Prod.mk.injEq] at hcm
          exact hxk hcm.1.symm
        exact ⟨c, hc, by simp [upd, this, hcm]⟩
    · rintro ⟨c, hc, hcm⟩
      by_cases hcp : c = p
      · subst hcp
        simp only [upd, if_pos, Option.some.injEq, Prod.mk.injEq] at hcm
        rw [if_pos hcm.1.symm, hcm.2]
      · simp only [upd, if_neg hcp] at hcm
        have hxk : x ≠ k := by
          rintro rfl
          exact hcp (hr.inv.keys c hc p hp _ _ _ hcm hm)
        rw [if_neg hxk]
        exact (hr.abs x w).2 ⟨c, hc, hcm⟩

/-- `find`: an iterator at the entry of the key, or `end()`. -/
theorem find_map {hash : K → Int} {h : TH K V} {m : K → Option V} (hr : HRep hash h m) {n : Nat} (hn : (order h.b).length < n) (k : K) :
    (∃ it a q v, h.find n k = .ok it ∧ ItAt h it (a :: q) ∧ h.mem a = some (k, v) ∧ m k = some v) ∨ (∃ it, h.find n k = .ok it ∧ it.fin = true ∧ m k = none) := by
  obtain ⟨it, e, hat⟩ := begin_spec hr.inv
  unfold TH.find
  simp only [bind, Except.bind, e]
  rcases findLoop_spec' hr.inv.nodup (k := k) (fun a ha => hr.inv.live ha) hat hn with ⟨it', a, q, v, e2, h2, ha, hm⟩ | ⟨e2, hno⟩
  · exact .inl ⟨it', a, q, v, e2, h2, hm, (hr.abs k v).2 ⟨a, ha, hm⟩⟩
  · exact .inr ⟨_, e2, rfl, hr.none_of hno⟩

/-- Erasing at an iterator removes the key of its entry, and only that. -/
theorem eraseIt_map {hash : K → Int} {h : TH K V} {m : K → Option V} (hr : HRep hash h m) {it : It} {a : Nat} {rest : List Nat} {k : K} {v : V}
    (hat : ItAt h it (a :: rest)) (hm : h.mem a = some (k, v)) :
    ∃ h' it', h.eraseIt it = .ok (h', it') ∧ HRep hash h' (mset m k none) ∧ h'.mem a = none ∧ ItAt h' it' rest := by
  obtain ⟨h', it', e, hi, hmem, hord, ha, hat'⟩ := eraseIt_spec hr.inv hat
  refine ⟨h', it', e, ⟨hi, ?_⟩, by rw [hmem]; simp [upd], hat'⟩
  intro x w
  unfold mset
  rw [hord, hmem]
  constructor
  · intro hx
    split at hx
    · cases hx
    · next hxk =>
      obtain ⟨c, hc, hcm⟩ := (hr.abs x w).1 hx
      have hca : c ≠ a := by
        rintro rfl
        rw [hm] at hcm
        simp only [Option.some.injEq, Prod.mk.injEq] at hcm
        exact hxk hcm.1.symm
      exact ⟨c, hr.inv.nodup.mem_erase_iff.2 ⟨hca, hc⟩, by simp [upd, hca, hcm]⟩
  · rintro ⟨c, hc, hcm⟩
    obtain ⟨hca, hc⟩ := hr.inv.nodup.mem_erase_iff.1 hc
    simp only [upd, if_neg hca] at hcm
    have hxk : x ≠ k := by
      rintro rfl
      exact hca (hr.inv.keys c hc a ha _ _ _ hcm hm)
    rw [if_neg hxk]
    exact (hr.abs x w).2 ⟨c, hc, hcm⟩

/-- C24: every operation succeeds and does to the table what the operation on maps does. `n` bounds the steps of the search. -/
theorem hash_step {full : Nat → Nat → Bool} {hash : K → Int} {d : V} {n : Nat} {h : TH K V} {m : K → Option V} (hr : HRep hash h m) (op : HOp K V) (hf : op.fresh h)
    (hn : (order h.b).length < n) : ∃ h', hstep full hash d n h op = .ok (h', (hspec d m op).2) ∧ HRep hash h' (hspec d m op).1 := by
  cases op with
  | put a k v =>
    obtain ⟨h1, p, e, hr1, hp, hm⟩ := findOrInsert_map (full := full) hr hf k d
    have hna : nodeAt h1.mem p = .ok (k, (m k).getD d) := by simp [nodeAt, hm]
    refine ⟨{ h1 with mem := upd h1.mem p (some (k, v)) }, by simp only [hstep, TH.put, bind, Except.bind, e, hna, hspec], ?_⟩
    have := hr1.assign hp hm (v := v)
    have he : mset (mset m k (some ((m k).getD d))) k (some v) = mset m k (some v) := by
      funext x; unfold mset; split <;> simp_all
    rw [he] at this
    exact this
  | get a k =>
    obtain ⟨h1, p, e, hr1, hp, hm⟩ := findOrInsert_map (full := full) hr hf k d
    have hna : nodeAt h1.mem p = .ok (k, (m k).getD d) := by simp [nodeAt, hm]
    exact ⟨h1, by simp only [hstep, TH.get, bind, Except.bind, e, hna, hspec], hr1⟩
  | find k =>
    rcases find_map hr hn k with ⟨it, a, q, v, e, hat, hm, hv⟩ | ⟨it, e, hfin, hv⟩
    · obtain ⟨hf, hd⟩ := deref_spec hat
      have hna : nodeAt h.mem a = .ok (k, v) := by simp [nodeAt, hm]
      exact ⟨h, by simp [hstep, bind, Except.bind, e, hf, hd, hna, hspec, hv], hr⟩
    · exact ⟨h, by simp [hstep, bind, Except.bind, e, hfin, hspec, hv], hr⟩
  | erase k =>
    rcases find_map hr hn k with ⟨it, a, q, v, e, hat, hm, hv⟩ | ⟨it, e, hfin, hv⟩
    · obtain ⟨hf, hd⟩ := deref_spec hat
      obtain ⟨h', it', e2, hr2, _, _⟩ := eraseIt_map hr hat hm
      exact ⟨h', by simp [hstep, TH.eraseKey, bind, Except.bind, e, hf, e2, hspec], hr2⟩
    · refine ⟨h, by simp [hstep, TH.eraseKey, bind, Except.bind, e, hfin, hspec], ?_⟩
      have he : mset m k none = m := by
        funext x; unfold mset; split
        · next hx => rw [hx, hv]
        · rfl
      show HRep hash h (mset m k none)
      rw [he]; exact hr
  | clear =>
    have hfr := freeNodes_spec hr.inv.nodup (mem := h.mem) (fun a ha => hr.inv.live ha)
    refine ⟨{ b := List.replicate 32 none, pct := 0, mem := fun x => if x ∈ order h.b then none else h.mem x }, ?_, ?_⟩
    · simp only [hstep, TH.clear, TH.clearAll, bind, Except.bind]
      rw [show (h.b.flatMap fun x => x.getD []) = order h.b from rfl, hfr]
      rfl
    · refine ⟨⟨sorted_replicate hash _ (by omega), ?_, ?_⟩, ?_⟩
      · simp only [order_replicate]; exact List.nodup_nil
      · simp only [order_replicate]; intro a ha; cases ha
      · simp only [order_replicate]; intro k v
        constructor
        · intro h; cases h
        · rintro ⟨a, ha, _⟩; cases ha

/-- The empty table and an operation with a free address. -/
example : ∃ h : TH Nat Nat, HRep (fun _ => -1) h (fun _ => none) ∧ (HOp.put 3 1 2 : HOp Nat Nat).fresh h ∧ (order h.b).length < 1 := by
  obtain ⟨h, e, hr⟩ := init_hrep (K := Nat) (V := Nat) (fun _ => -1)
  have e' : h = { b := List.replicate 32 none, pct := 0, mem := fun _ => none } := by
    have : (TH.init fun _ => -1 : R (TH Nat Nat)) = .ok { b := List.replicate 32 none, pct := 0, mem := fun _ => none } := rfl
    rw [this] at e
    simpa using e.symm
  subst e'
  exact ⟨_, hr, rfl, by decide⟩

/-- Spec of a run on maps. -/
def hspecRun (d : V) (m : K → Option V) : List (HOp K V) → (K → Option V) × List (Option V)
  | [] => (m, [])
  | op :: ops => ((hspecRun d (hspec d m op).1 ops).1, (hspec d m op).2 :: (hspecRun d (hspec d m op).1 ops).2)

/-- Runs of the table: each operation gets a free address and enough steps. -/
inductive HRuns (full : Nat → Nat → Bool) (hash : K → Int) (d : V) : TH K V → List (HOp K V) → TH K V → List (Option V) → Prop
  | nil (h : TH K V) : HRuns full hash d h [] h []
  | cons {h h1 h2 : TH K V} {op : HOp K V} {ops : List (HOp K V)} {n : Nat} {o : Option V} {os : List (Option V)} (hf : op.fresh h) (hn : (order h.b).length < n)
      (e : hstep full hash d n h op = .ok (h1, o)) (hr : HRuns full hash d h1 ops h2 os) : HRuns full hash d h (op :: ops) h2 (o :: os)

/-- C24 over whole runs: the results are those of the map, from the empty table on. -/
theorem hash_refines {full : Nat → Nat → Bool} {hash : K → Int} {d : V} {h h' : TH K V} {ops : List (HOp K V)} {os : List (Option V)}
    (hr : HRuns full hash d h ops h' os) : ∀ {m : K → Option V}, HRep hash h m → os = (hspecRun d m ops).2 ∧ HRep hash h' (hspecRun d m ops).1 := by
  induction hr with
  | nil h => intro m hm; exact ⟨rfl, hm⟩
  | @cons h h1 h2 op ops n o os hf hn e _ ih =>
    intro m hm
    obtain ⟨h3, e3, hr3⟩ := hash_step (full := full) (d := d) hm op hf hn
    rw [e] at e3
    simp only [Except.ok.injEq, Prod.mk.injEq] at e3
    obtain ⟨rfl, rfl⟩ := e3
    obtain ⟨h4, h5⟩ := ih hr3
    exact ⟨by simp only [hspecRun]; rw [h4], h5⟩

/-- A run of three operations on the empty table. -/
example : ∃ (h h' : TH Nat Nat), HRep (fun _ => -1) h (fun _ => none) ∧ HRuns (fun _ _ => true) (fun _ => -1) 0 h [.put 3 1 10, .find 1, .erase 1] h' [none, some 10, none] := by
  obtain ⟨h, e, hr⟩ := init_hrep (K := Nat) (V := Nat) (fun _ => -1)
  have e' : h = { b := List.replicate 32 none, pct := 0, mem := fun _ => none } := by
    have : (TH.init fun _ => -1 : R (TH Nat Nat)) = .ok { b := List.replicate 32 none, pct := 0, mem := fun _ => none } := rfl
    rw [this] at e
    simpa using e.symm
  obtain ⟨h1, e1, hr1⟩ := hash_step (full := fun _ _ => true) (d := 0) (n := 1) hr (.put 3 1 10) (by rw [e']; rfl) (by rw [e']; decide)
  obtain ⟨h2, e2, hr2⟩ := hash_step (full := fun _ _ => true) (d := 0) (n := (order h1.b).length + 1) hr1 (.find 1) trivial (by omega)
  obtain ⟨h3, e3, hr3⟩ := hash_step (full := fun _ _ => true) (d := 0) (n := (order h2.b).length + 1) hr2 (.erase 1) trivial (by omega)
  exact ⟨h, h3, hr, .cons (by rw [e']; rfl) (by rw [e']; decide) e1 (.cons trivial (Nat.lt_succ_self _) e2 (.cons trivial (Nat.lt_succ_self _) e3 (.nil _)))⟩

/-- C24: growing keeps the map. -/
theorem grow_keeps {hash : K → Int} {h : TH K V} {m : K → Option V} (hr : HRep hash h m) :
    ∃ h', h.refactor hash = .ok h' ∧ HRep hash h' m ∧ (order h'.b).Perm (order h.b) ∧ h'.b.length = 2 * h.b.length := by
  obtain ⟨h', e, hi, hm, hp, hl⟩ := refactor_spec hr.inv
  refine ⟨h', e, ⟨hi, ?_⟩, hp, hl⟩
  intro k v
  rw [hr.abs, hm]
  constructor
  · rintro ⟨a, ha, h⟩; exact ⟨a, hp.mem_iff.2 ha, h⟩
  · rintro ⟨a, ha, h⟩; exact ⟨a, hp.mem_iff.1 ha, h⟩

example : ∃ h : TH Nat Nat, HRep (fun _ => -1) h (fun _ => none) := let ⟨h, _, hr⟩ := init_hrep (K := Nat) (V := Nat) (fun _ => -1); ⟨h, hr⟩

/-- Spec: the entries met by `for (it = begin(); it != end(); ++it)`. -/
inductive Walk (h : TH K V) : It → List (K × V) → Prop
  | done {it : It} (e : it.fin = true) : Walk h it []
  | step {it it' : It} {kv : K × V} {l : List (K × V)} (e : it.fin = false) (hd : h.deref it = .ok kv) (hi : h.inc it = .ok it') (hw : Walk h it' l) : Walk h it (kv :: l)

/-- C24: iteration ends and meets every entry of the map exactly once. -/
theorem iteration {hash : K → Int} {h : TH K V} {m : K → Option V} (hr : HRep hash h m) :
    ∃ it l, h.begin = .ok it ∧ Walk h it l ∧ (l.map Prod.fst).Nodup ∧ ∀ k v, (k, v) ∈ l ↔ m k = some v := by
  obtain ⟨it, e, hat⟩ := begin_spec hr.inv
  have key : ∀ (rest : List Nat) (it : It), (∀ a ∈ rest, a ∈ order h.b) → rest.Nodup → ItAt h it rest →
      ∃ l, Walk h it l ∧ (l.map Prod.fst).Nodup ∧ ∀ k v, (k, v) ∈ l ↔ ∃ a ∈ rest, h.mem a = some (k, v) := by
    intro rest
    induction rest with
    | nil => intro it _ _ hat; exact ⟨[], .done (itAt_nil hat), by simp, by simp⟩
    | cons a rest ih =>
      intro it hsub hnd hat
      rw [List.nodup_cons] at hnd
      obtain ⟨⟨k, v⟩, hkv⟩ := hr.inv.live (hsub a (by simp))
      obtain ⟨hf, hd⟩ := deref_spec hat
      have hna : nodeAt h.mem a = .ok (k, v) := by simp [nodeAt, hkv]
      obtain ⟨it', ei, hat'⟩ := inc_spec hr.inv.nodup hat
      obtain ⟨l, hw, hn, hl⟩ := ih it' (fun b hb => hsub b (List.mem_cons_of_mem _ hb)) hnd.2 hat'
      refine ⟨(k, v) :: l, .step hf (hd.trans hna) ei hw, ?_, ?_⟩
      · rw [List.map_cons, List.nodup_cons]
        refine ⟨?_, hn⟩
        intro hmem
        obtain ⟨⟨k', v'⟩, hml, hk⟩ := List.mem_map.1 hmem
        simp only at hk
        subst hk
        obtain ⟨b, hb, hm⟩ := (hl k' v').1 hml
        have := hr.inv.keys a (hsub a (by simp)) b (hsub b (List.mem_cons_of_mem _ hb)) _ _ _ hkv hm
        subst this
        exact hnd.1 hb
      · intro k' v'
        constructor
        · intro hm
          rcases List.mem_cons.1 hm with hm | hm
          · simp only [Prod.mk.injEq] at hm
            exact ⟨a, by simp, by rw [hkv, hm.1, hm.2]⟩
          · obtain ⟨b, hb, hm⟩ := (hl k' v').1 hm
            exact ⟨b, List.mem_cons_of_mem _ hb, hm⟩
        · rintro ⟨b, hb, hm⟩
          rcases List.mem_cons.1 hb with rfl | hb
          · rw [hkv] at hm
            simp only [Option.some.injEq] at hm
            rw [hm]; simp
          · exact List.mem_cons_of_mem _ ((hl k' v').2 ⟨b, hb, hm⟩)
  obtain ⟨l, hw, hn, hl⟩ := key _ it (fun _ h => h) hr.inv.nodup hat
  exact ⟨it, l, e, hw, hn, fun k v => by rw [hl, hr.abs]⟩

/-- Erasing while iterating: the iterator that `erase` leaves goes on with what followed, on the smaller map. -/
theorem erase_while_iterating {hash : K → Int} {h : TH K V} {m : K → Option V} (hr : HRep hash h m) {it : It} {a : Nat} {rest : List Nat} {k : K} {v : V}
    (hat : ItAt h it (a :: rest)) (hm : h.mem a = some (k, v)) :
    ∃ h' it', h.eraseIt it = .ok (h', it') ∧ HRep hash h' (mset m k none) ∧ h'.mem a = none ∧ ItAt h' it' rest := eraseIt_map hr hat hm

/-- A table with one entry and the iterator at it. -/
example : ∃ (h : TH Nat Nat) (m : Nat → Option Nat) (it : It) (a : Nat) (rest : List Nat), HRep (fun _ => 0) h m ∧ ItAt h it (a :: rest) ∧ h.mem a = some (1, 2) := by
  obtain ⟨h0, e, hr0⟩ := init_hrep (K := Nat) (V := Nat) (fun _ => 0)
  have e' : h0 = { b := List.replicate 32 none, pct := 0, mem := fun _ => none } := by
    have : (TH.init fun _ => 0 : R (TH Nat Nat)) = .ok { b := List.replicate 32 none, pct := 0, mem := fun _ => none } := rfl
    rw [this] at e
    simpa using e.symm
  obtain ⟨h1, e1, hr1⟩ := hash_step (full := fun _ _ => false) (d := 0) (n := 1) hr0 (.put 3 1 2) (by rw [e']; rfl) (by rw [e']; decide)
  rcases find_map hr1 (n := (order h1.b).length + 1) (by omega) 1 with ⟨it, a, q, v, _, hat, hm, hv⟩ | ⟨it, _, _, hv⟩
  · simp [hspec, mset] at hv
    subst hv
    exact ⟨h1, _, it, a, q, hr1, hat, hm⟩
  · simp [hspec, mset] at hv

end Verif.Cont

#print axioms Verif.Cont.hash_step
#print axioms Verif.Cont.hash_refines
#print axioms Verif.Cont.grow_keeps
#print axioms Verif.Cont.iteration
#print axioms Verif.Cont.erase_while_iterating

#print axioms Verif.Cont.init_hrep
