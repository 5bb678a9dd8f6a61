import Verif.SH.Loop
import Verif.SH.RegOffers
/-
Positions of running hook loops: the invariant of one context and its preservation by registry
operations.
-/
namespace Verif.SH

/-! ### what the history says about a call -/

/-- Hooks of group `g` invoked for call `cid`, in order. -/
def invoked (log : List Ev) (cid : Nat) (g : Grp) : List Nat :=
  (log.filterMap fun e => match e with
    | .invoke c _ g' n _ => if c = cid ∧ g' = g then some n else none
    | _ => none).reverse

/-- Hooks of group `g` passed over for call `cid` because they were paused. -/
def skipped (log : List Ev) (cid : Nat) (g : Grp) : List Nat :=
  (log.filterMap fun e => match e with
    | .skip c g' n => if c = cid ∧ g' = g then some n else none
    | _ => none).reverse

/-- The events that `invoked`/`skipped` ignore. -/
def Ev.quiet : Ev → Bool
  | .invoke .. => false
  | .skip .. => false
  | _ => true

theorem invoked_quiet {e : Ev} (he : e.quiet = true) (log : List Ev) (c : Nat) (g : Grp) :
    invoked (e :: log) c g = invoked log c g := by
  cases e <;> simp [Ev.quiet] at he <;> rfl

theorem skipped_quiet {e : Ev} (he : e.quiet = true) (log : List Ev) (c : Nat) (g : Grp) :
    skipped (e :: log) c g = skipped log c g := by
  cases e <;> simp [Ev.quiet] at he <;> rfl

theorem invoked_skip (c' : Nat) (g' : Grp) (n : Nat) (log : List Ev) (c : Nat) (g : Grp) :
    invoked (.skip c' g' n :: log) c g = invoked log c g := rfl

theorem skipped_invoke (c' f : Nat) (g' : Grp) (n : Nat) (p : Addr) (log : List Ev) (c : Nat) (g : Grp) :
    skipped (.invoke c' f g' n p :: log) c g = skipped log c g := rfl

theorem invoked_invoke (c' f : Nat) (g' : Grp) (n : Nat) (p : Addr) (log : List Ev) (c : Nat) (g : Grp) :
    invoked (.invoke c' f g' n p :: log) c g = invoked log c g ++ if c' = c ∧ g' = g then [n] else [] := by
  unfold invoked
  rw [List.filterMap_cons]
  split
  · next h => simp only at h; split at h
              · cases h
              · next h' => simp [h']
  · next b h => simp only at h; split at h
                · next h' => cases h; simp [h']
                · cases h

theorem skipped_skip (c' : Nat) (g' : Grp) (n : Nat) (log : List Ev) (c : Nat) (g : Grp) :
    skipped (.skip c' g' n :: log) c g = skipped log c g ++ if c' = c ∧ g' = g then [n] else [] := by
  unfold skipped
  rw [List.filterMap_cons]
  split
  · next h => simp only at h; split at h
              · cases h
              · next h' => simp [h']
  · next b h => simp only at h; split at h
                · next h' => cases h; simp [h']
                · cases h

/-! ### the invariant of one context -/

/-- The last element of a list of hooks, as an iterator position. -/
def lastNid (A : List Hook) : Option Nat := A.getLast?.map Hook.nid

/-- The iterator stands in the list `L` after the part `A`: everything invoked in the group comes
before the rest, and everything in `A` was invoked or skipped. -/
def Pos (log : List Ev) (cid : Nat) (g : Grp) (L : List Hook) (pos : Option Nat) : Prop :=
  ∃ A B, L = A ++ B ∧ pos = lastNid A ∧ (∀ n ∈ invoked log cid g, ∀ b ∈ B, n < b.nid) ∧
    ∀ a ∈ A, a.nid ∈ invoked log cid g ∨ a.nid ∈ skipped log cid g

/-- Iterator `it` is a position of list `post` of interface `i` of `v`. -/
def PosAt (log : List Ev) (cid : Nat) (g : Grp) (v : Vfn) (i : Iface) (post : Bool) (it : Iter) : Prop :=
  ∃ pos, it = .at v.oid i.oid post pos ∧ Pos log cid g (i.side post) pos

/-- Group `g` has not begun. -/
def NotYet (log : List Ev) (cid : Nat) (g : Grp) : Prop := invoked log cid g = []

/-- The iterator conditions, state by state. -/
def ItOk (log : List Ev) (c : Ctx) (v : Vfn) : Prop :=
  match c.st with
  | .born => ∀ g, NotYet log c.cid g
  | .pre | .rPre =>
    (∀ i ∈ v.ifaces, c.iface = some i.oid → PosAt log c.cid .pre v i false c.iter) ∧
    NotYet log c.cid .preVP ∧ NotYet log c.cid .post ∧ NotYet log c.cid .postVP
  | .preVP | .rPreVP =>
    (∀ i ∈ v.ifaces, i.ptr = 0 → PosAt log c.cid .preVP v i false c.iter) ∧
    NotYet log c.cid .post ∧ NotYet log c.cid .postVP
  | .orig => NotYet log c.cid .post ∧ NotYet log c.cid .postVP
  | .post | .rPost =>
    (∀ i ∈ v.ifaces, c.iface = some i.oid → PosAt log c.cid .post v i true c.iter) ∧
    NotYet log c.cid .postVP
  | .postVP | .rPostVP => ∀ i ∈ v.ifaces, i.ptr = 0 → PosAt log c.cid .postVP v i true c.iter
  | .dead | .ignore | .bad => False

/-- A context that is not dead works on a live function record. -/
structure LiveCtx (r : Reg) (log : List Ev) (c : Ctx) (v : Vfn) : Prop where
  mem : v ∈ r.vfns
  vfn : c.vfn = some v.oid
  this : c.this ≠ 0
  iface : ∀ ifo, c.iface = some ifo → ∃ i ∈ v.ifaces, i.oid = ifo ∧ i.ptr = c.this
  it : ItOk log c v

/-- The invariant of one context. -/
def CtxOk (r : Reg) (log : List Ev) (c : Ctx) : Prop := c.st = .dead ∨ ∃ v, LiveCtx r log c v

/-- Invoked nodes are older than the counter. -/
def Old (r : Reg) (log : List Ev) : Prop := ∀ c g, ∀ n ∈ invoked log c g, n < r.next

theorem ItOk.congr {log log' : List Ev} {c : Ctx} {v : Vfn}
    (hi : ∀ g, invoked log' c.cid g = invoked log c.cid g) (hs : ∀ g, skipped log' c.cid g = skipped log c.cid g)
    (h : ItOk log c v) : ItOk log' c v := by
  have hP : ∀ g L pos, Pos log c.cid g L pos → Pos log' c.cid g L pos := by
    intro g L pos h; unfold Pos at *; rw [hi, hs]; exact h
  have hPA : ∀ g v i b it, PosAt log c.cid g v i b it → PosAt log' c.cid g v i b it :=
    fun g v i b it ⟨pos, e, h⟩ => ⟨pos, e, hP g _ pos h⟩
  have hN : ∀ g, NotYet log c.cid g → NotYet log' c.cid g := by intro g h; unfold NotYet at *; rw [hi]; exact h
  unfold ItOk at *
  split at h
  · exact fun g => hN g (h g)
  · exact ⟨fun i a b => hPA _ _ _ _ _ (h.1 i a b), hN _ h.2.1, hN _ h.2.2.1, hN _ h.2.2.2⟩
  · exact ⟨fun i a b => hPA _ _ _ _ _ (h.1 i a b), hN _ h.2.1, hN _ h.2.2.1, hN _ h.2.2.2⟩
  · exact ⟨fun i a b => hPA _ _ _ _ _ (h.1 i a b), hN _ h.2.1, hN _ h.2.2⟩
  · exact ⟨fun i a b => hPA _ _ _ _ _ (h.1 i a b), hN _ h.2.1, hN _ h.2.2⟩
  · exact ⟨hN _ h.1, hN _ h.2⟩
  · exact ⟨fun i a b => hPA _ _ _ _ _ (h.1 i a b), hN _ h.2⟩
  · exact ⟨fun i a b => hPA _ _ _ _ _ (h.1 i a b), hN _ h.2⟩
  · exact fun i a b => hPA _ _ _ _ _ (h i a b)
  · exact fun i a b => hPA _ _ _ _ _ (h i a b)
  · exact h
  · exact h
  · exact h

theorem CtxOk.congr {r : Reg} {log log' : List Ev} {c : Ctx}
    (hi : ∀ g, invoked log' c.cid g = invoked log c.cid g) (hs : ∀ g, skipped log' c.cid g = skipped log c.cid g)
    (h : CtxOk r log c) : CtxOk r log' c := by
  rcases h with h | ⟨v, h⟩
  · exact Or.inl h
  · exact Or.inr ⟨v, h.mem, h.vfn, h.this, h.iface, h.it.congr hi hs⟩

/-! ### registry changes that keep every function record -/

/-- Every function record survives with its interfaces; lists keep their nodes and may get new ones
at the end; new vtable-wide interfaces only appear on slots in `N`. -/
def Evo (N : Addr → Prop) (r r' : Reg) : Prop :=
  ∀ v ∈ r.vfns, ∃ v' ∈ r'.vfns, v'.oid = v.oid ∧ v'.ptr = v.ptr ∧ v'.orig = v.orig ∧
    (∀ i ∈ v.ifaces, ∃ i' ∈ v'.ifaces, i'.oid = i.oid ∧ i'.ptr = i.ptr ∧
      ∀ s, ∃ (f : Hook → Hook) (X : List Hook), (∀ h, (f h).nid = h.nid) ∧ (∀ x ∈ X, r.next ≤ x.nid) ∧
        i'.side s = (i.side s).map f ++ X) ∧
    (∀ i' ∈ v'.ifaces, (∃ i ∈ v.ifaces, i.oid = i'.oid ∧ i.ptr = i'.ptr) ∨
      (r.next ≤ i'.oid ∧ (i'.ptr = 0 → N v.ptr)))

theorem Evo.refl (N : Addr → Prop) (r : Reg) : Evo N r r :=
  fun v hv => ⟨v, hv, rfl, rfl, rfl,
    fun i hi => ⟨i, hi, rfl, rfl, fun s => ⟨fun h => h, [], fun _ => rfl, by simp, by simp⟩⟩,
    fun i hi => Or.inl ⟨i, hi, rfl, rfl⟩⟩

theorem Evo.trans {N : Addr → Prop} {a b c : Reg} (h1 : Evo N a b) (h2 : Evo N b c) (hn : a.next ≤ b.next) :
    Evo N a c := by
  intro v hv
  obtain ⟨w, hw, e1, e2, e3, e4, e5⟩ := h1 v hv
  obtain ⟨x, hx, f1, f2, f3, f4, f5⟩ := h2 w hw
  refine ⟨x, hx, f1.trans e1, f2.trans e2, f3.trans e3, ?_, ?_⟩
  · intro i hi
    obtain ⟨j, hj, j1, j2, j3⟩ := e4 i hi
    obtain ⟨k, hk, k1, k2, k3⟩ := f4 j hj
    refine ⟨k, hk, k1.trans j1, k2.trans j2, ?_⟩
    intro s
    obtain ⟨f, X, g1, g2, g3⟩ := j3 s
    obtain ⟨f', X', g1', g2', g3'⟩ := k3 s
    refine ⟨fun h => f' (f h), X.map f' ++ X', fun h => (g1' _).trans (g1 _), ?_, ?_⟩
    · intro y hy
      rcases List.mem_append.1 hy with hy | hy
      · obtain ⟨z, hz, rfl⟩ := List.mem_map.1 hy
        rw [g1']; exact g2 z hz
      · exact Nat.le_trans hn (g2' y hy)
    · rw [g3', g3]; simp [List.map_append, List.append_assoc, Function.comp_def]
  · intro k hk
    rcases f5 k hk with ⟨j, hj, j1, j2⟩ | ⟨h1, h2⟩
    · rcases e5 j hj with ⟨i, hi, i1, i2⟩ | ⟨h3, h4⟩
      · exact Or.inl ⟨i, hi, i1.trans j1, i2.trans j2⟩
      · exact Or.inr ⟨by rw [← j1]; exact h3, fun hc => h4 (j2.trans hc)⟩
    · exact Or.inr ⟨Nat.le_trans hn h1, fun hc => by rw [← e2]; exact h2 hc⟩

theorem Evo.right {N : Addr → Prop} {a b b' : Reg} (h : Evo N a b) (e : b'.vfns = b.vfns) : Evo N a b' := by
  unfold Evo at *; rw [e]; exact h

theorem Evo.of_eq {N : Addr → Prop} {a b : Reg} (e : b.vfns = a.vfns) : Evo N a b := (Evo.refl N a).right e

/-- Replacing a record by one with the same interfaces. -/
theorem Evo.set {N : Addr → Prop} {r : Reg} {v v' : Vfn} (hs : SInv r) (hv : v ∈ r.vfns) (ho : v'.oid = v.oid)
    (hp : v'.ptr = v.ptr) (hor : v'.orig = v.orig)
    (h1 : ∀ i ∈ v.ifaces, ∃ i' ∈ v'.ifaces, i'.oid = i.oid ∧ i'.ptr = i.ptr ∧
      ∀ s, ∃ (f : Hook → Hook) (X : List Hook), (∀ h, (f h).nid = h.nid) ∧ (∀ x ∈ X, r.next ≤ x.nid) ∧
        i'.side s = (i.side s).map f ++ X)
    (h2 : ∀ i' ∈ v'.ifaces, (∃ i ∈ v.ifaces, i.oid = i'.oid ∧ i.ptr = i'.ptr) ∨
      (r.next ≤ i'.oid ∧ (i'.ptr = 0 → N v.ptr))) : Evo N r (setVfn r v') := by
  intro x hx
  by_cases hxo : x.oid = v.oid
  · have : x = v := nodup_key_inj hs.void hx hv hxo
    subst this
    exact ⟨v', (mem_setVfn hv ho v').2 (Or.inl rfl), ho, hp, hor, h1, h2⟩
  · obtain ⟨y, hy, k⟩ := Evo.refl N r x hx
    exact ⟨x, (mem_setVfn hv ho x).2 (Or.inr ⟨hx, by rw [ho]; exact hxo⟩), rfl, rfl, rfl,
      fun i hi => ⟨i, hi, rfl, rfl, fun s => ⟨fun h => h, [], fun _ => rfl, by simp, by simp⟩⟩,
      fun i hi => Or.inl ⟨i, hi, rfl, rfl⟩⟩

theorem Evo.set_same {N : Addr → Prop} {r : Reg} {v v' : Vfn} (hs : SInv r) (hv : v ∈ r.vfns) (ho : v'.oid = v.oid)
    (hp : v'.ptr = v.ptr) (hor : v'.orig = v.orig) (hif : v'.ifaces = v.ifaces) : Evo N r (setVfn r v') := by
  refine Evo.set hs hv ho hp hor ?_ ?_
  · intro i hi; exact ⟨i, hif ▸ hi, rfl, rfl, fun s => ⟨fun h => h, [], fun _ => rfl, by simp, by simp⟩⟩
  · intro i hi; exact Or.inl ⟨i, hif ▸ hi, rfl, rfl⟩

theorem Pos.evo {log : List Ev} {cid : Nat} {g : Grp} {L L' : List Hook} {pos : Option Nat} {f : Hook → Hook}
    {X : List Hook} (hp : Pos log cid g L pos) (hf : ∀ h, (f h).nid = h.nid)
    (hX : ∀ x ∈ X, ∀ n ∈ invoked log cid g, n < x.nid) (hL : L' = L.map f ++ X) : Pos log cid g L' pos := by
  obtain ⟨A, B, e1, e2, e3, e4⟩ := hp
  refine ⟨A.map f, B.map f ++ X, ?_, ?_, ?_, ?_⟩
  · rw [hL, e1]; simp
  · rw [e2]; unfold lastNid; rw [List.getLast?_map, Option.map_map]
    congr 1; funext h; exact (hf h).symm
  · intro n hn b hb
    rcases List.mem_append.1 hb with hb | hb
    · obtain ⟨b', hb', rfl⟩ := List.mem_map.1 hb
      rw [hf]; exact e3 n hn b' hb'
    · exact hX b hb n hn
  · intro a ha
    obtain ⟨a', ha', rfl⟩ := List.mem_map.1 ha
    rw [hf]; exact e4 a' ha'

/-- Preservation of the context invariant: no new vtable-wide interface appears under a context that
walks vtable-wide hooks. -/
theorem CtxOk.evo {N : Addr → Prop} {r r' : Reg} {log : List Ev} {c : Ctx} (hs : SInv r) (hs' : SInv r')
    (hold : Old r log)
    (he : Evo N r r') (hN : (c.st = .preVP ∨ c.st = .rPreVP ∨ c.st = .postVP ∨ c.st = .rPostVP) →
      ∀ v ∈ r.vfns, c.vfn = some v.oid → ¬ N v.ptr)
    (h : CtxOk r log c) : CtxOk r' log c := by
  rcases h with h | ⟨v, h⟩
  · exact Or.inl h
  obtain ⟨v', hv', e1, e2, e3, e4, e5⟩ := he v h.mem
  have hV := hs.vi v h.mem
  have hV' := hs'.vi v' hv'
  have hif : ∀ ifo, c.iface = some ifo → ∃ i ∈ v'.ifaces, i.oid = ifo ∧ i.ptr = c.this := by
    intro ifo hc
    obtain ⟨i, hi, h1, h2⟩ := h.iface ifo hc
    obtain ⟨i', hi', k1, k2, _⟩ := e4 i hi
    exact ⟨i', hi', k1.trans h1, k2.trans h2⟩
  have hpa : ∀ g s i, i ∈ v.ifaces → ∀ i' ∈ v'.ifaces, i'.oid = i.oid → PosAt log c.cid g v i s c.iter →
      PosAt log c.cid g v' i' s c.iter := by
    intro g s i hi i' hi' ho hp
    obtain ⟨j, hj, k1, k2, k3⟩ := e4 i hi
    have : i' = j := nodup_key_inj hV'.ioid hi' hj (ho.trans k1.symm)
    subst this
    obtain ⟨f, X, g1, g2, g3⟩ := k3 s
    obtain ⟨pos, q1, q2⟩ := hp
    refine ⟨pos, by rw [q1, e1, k1], q2.evo g1 ?_ g3⟩
    intro x hx n hn
    exact Nat.lt_of_lt_of_le (hold _ _ n hn) (g2 x hx)
  -- an interface of the new record that the context refers to is old
  have hobj : ∀ i' ∈ v'.ifaces, c.iface = some i'.oid → ∃ i ∈ v.ifaces, c.iface = some i.oid ∧ i'.oid = i.oid := by
    intro i' hi' hc
    obtain ⟨i, hi, h1, _⟩ := h.iface _ hc
    exact ⟨i, hi, by rw [h1]; exact hc, h1.symm⟩
  have hvp : (c.st = .preVP ∨ c.st = .rPreVP ∨ c.st = .postVP ∨ c.st = .rPostVP) →
      ∀ i' ∈ v'.ifaces, i'.ptr = 0 → ∃ i ∈ v.ifaces, i.ptr = 0 ∧ i'.oid = i.oid := by
    intro hst i' hi' h0
    rcases e5 i' hi' with ⟨i, hi, k1, k2⟩ | ⟨_, k⟩
    · exact ⟨i, hi, k2.trans h0, k1.symm⟩
    · exact absurd (k h0) (hN hst v h.mem h.vfn)
  refine Or.inr ⟨v', hv', by rw [h.vfn, e1], h.this, hif, ?_⟩
  have hit := h.it
  unfold ItOk at *
  split at hit
  · exact hit
  · refine ⟨?_, hit.2⟩
    intro i' hi' hc; obtain ⟨i, hi, k1, k2⟩ := hobj i' hi' hc
    exact hpa _ _ i hi i' hi' k2 (hit.1 i hi k1)
  · refine ⟨?_, hit.2⟩
    intro i' hi' hc; obtain ⟨i, hi, k1, k2⟩ := hobj i' hi' hc
    exact hpa _ _ i hi i' hi' k2 (hit.1 i hi k1)
  · next hst =>
    refine ⟨?_, hit.2⟩
    intro i' hi' hc; obtain ⟨i, hi, k1, k2⟩ := hvp (by simp [hst]) i' hi' hc
    exact hpa _ _ i hi i' hi' k2 (hit.1 i hi k1)
  · next hst =>
    refine ⟨?_, hit.2⟩
    intro i' hi' hc; obtain ⟨i, hi, k1, k2⟩ := hvp (by simp [hst]) i' hi' hc
    exact hpa _ _ i hi i' hi' k2 (hit.1 i hi k1)
  · exact hit
  · refine ⟨?_, hit.2⟩
    intro i' hi' hc; obtain ⟨i, hi, k1, k2⟩ := hobj i' hi' hc
    exact hpa _ _ i hi i' hi' k2 (hit.1 i hi k1)
  · refine ⟨?_, hit.2⟩
    intro i' hi' hc; obtain ⟨i, hi, k1, k2⟩ := hobj i' hi' hc
    exact hpa _ _ i hi i' hi' k2 (hit.1 i hi k1)
  · next hst =>
    intro i' hi' hc; obtain ⟨i, hi, k1, k2⟩ := hvp (by simp [hst]) i' hi' hc
    exact hpa _ _ i hi i' hi' k2 (hit i hi k1)
  · next hst =>
    intro i' hi' hc; obtain ⟨i, hi, k1, k2⟩ := hvp (by simp [hst]) i' hi' hc
    exact hpa _ _ i hi i' hi' k2 (hit i hi k1)
  · exact hit
  · exact hit
  · exact hit

/-! ### AddHook and pausing keep every function record -/

theorem getVfn_evo (N : Addr → Prop) (r : Reg) (p : Addr) : Evo N r (getVfn r p).1 := by
  unfold getVfn
  split
  · exact Evo.refl N r
  · intro v hv
    obtain ⟨y, hy, k⟩ := Evo.refl N r v hv
    exact ⟨v, List.mem_append_left _ hv, rfl, rfl, rfl,
      fun i hi => ⟨i, hi, rfl, rfl, fun s => ⟨fun h => h, [], fun _ => rfl, by simp, by simp⟩⟩,
      fun i hi => Or.inl ⟨i, hi, rfl, rfl⟩⟩

theorem getHookMan_vfns (r : Reg) (plug : Plugin) (pub : PubFunc) (info : Info) :
    (getHookMan r plug pub info).1.vfns = r.vfns := by
  unfold getHookMan; split <;> rfl

theorem addHookMan_evo {N : Addr → Prop} {E : Env} {r r' : Reg} {void hmo : Nat} (hs : SInv r)
    (h : addHookMan E r void hmo = .ok r') : Evo N r r' := by
  unfold addHookMan at h
  cases hd : derefVfn r void with
  | error e => rw [hd] at h; cases h
  | ok v =>
    have hv := derefVfn_mem hd
    rw [hd] at h
    simp only [bind, Except.bind] at h
    split at h
    · cases h
    · next hm _ =>
      split at h
      · cases h; exact Evo.refl N r
      · split at h
        · cases h; exact Evo.refl N r
        · split at h
          · cases h
          · next hms' _ =>
            have hset : Evo N r (setVfn r { v with hms := hms', offers := v.offers ++ [hmo] }) :=
              Evo.set_same hs hv rfl rfl rfl rfl
            split at h
            · split at h
              · cases h
              · next r2 h2 =>
                have e2 := incrRef_vfns h2
                split at h
                · split at h
                  · cases h
                  · next r3 h3 =>
                    cases h
                    exact hset.right ((patch_vfns ..).trans ((decrRef_vfns h3).trans e2))
                · cases h
                  exact hset.right ((patch_vfns ..).trans e2)
            · cases h; exact hset

/-- `AddHook` would create a vtable-wide interface on the existing function slot `p`. -/
def NewVP (r : Reg) (a : AddArgs) (p : Addr) : Prop :=
  (∃ info, AddValid a info ∧ slotOf r.mem a.mode a.iface a.offs info = (p, 0)) ∧
    ∀ v ∈ r.vfns, v.ptr = p → ∀ i ∈ v.ifaces, i.ptr ≠ 0

theorem getIface_evo {N : Addr → Prop} {r r' : Reg} {v : Vfn} {p : Addr} {ifo : Nat} (hs : SInv r)
    (hv : v ∈ r.vfns) (hN : p = 0 → (∀ i ∈ v.ifaces, i.ptr ≠ 0) → N v.ptr)
    (h : getIface r v.oid p = .ok (r', ifo)) : Evo N r r' := by
  unfold getIface at h
  rw [derefVfn_ok hs hv] at h
  simp only [bind, Except.bind] at h
  cases hf : v.ifaces.find? (·.ptr == p) with
  | some i => rw [hf] at h; cases h; exact Evo.refl N r
  | none =>
    rw [hf] at h
    have hnp := find?_key_none hf
    dsimp only at h
    have fin : ∀ IF : List Iface, (∀ x, x ∈ IF ↔ x = ⟨r.next, p, [], []⟩ ∨ x ∈ v.ifaces) →
        Evo N r (setVfn r { v with ifaces := IF }) := by
      intro IF hm
      refine Evo.set hs hv rfl rfl rfl ?_ ?_
      · intro i hi
        exact ⟨i, (hm i).2 (Or.inr hi), rfl, rfl, fun s => ⟨fun h => h, [], fun _ => rfl, by simp, by simp⟩⟩
      · intro i hi
        rcases (hm i).1 hi with rfl | hi
        · exact Or.inr ⟨Nat.le_refl _, fun h0 => hN h0 (fun i hi => by have := hnp i hi; exact h0 ▸ this)⟩
        · exact Or.inl ⟨i, hi, rfl, rfl⟩
    split at h
    · cases h; exact (fin _ (by simp)).right rfl
    · cases h; exact (fin (v.ifaces ++ [⟨r.next, p, [], []⟩]) (by intro x; simp [or_comm])).right rfl

theorem setSide_evo {N : Addr → Prop} {r : Reg} {v : Vfn} {i : Iface} (hs : SInv r) (hv : v ∈ r.vfns)
    (hi : i ∈ v.ifaces) (s : Bool) (f : Hook → Hook) (X : List Hook) (hf : ∀ h, (f h).nid = h.nid)
    (hX : ∀ x ∈ X, r.next ≤ x.nid) :
    Evo N r (setVfn r (v.setIface (i.setSide s ((i.side s).map f ++ X)))) := by
  have hV := hs.vi v hv
  refine Evo.set hs hv rfl rfl rfl ?_ ?_
  · intro j hj
    by_cases hji : j.oid = i.oid
    · have : j = i := nodup_key_inj hV.ioid hj hi hji
      subst this
      refine ⟨_, (mem_setIface hi (Iface.setSide_oid ..) _).2 (Or.inl rfl), Iface.setSide_oid .., Iface.setSide_ptr .., ?_⟩
      intro t
      rw [Iface.side_setSide]
      by_cases ht : t = s
      · subst ht; rw [if_pos rfl]; exact ⟨f, X, hf, hX, rfl⟩
      · rw [if_neg ht]; exact ⟨fun h => h, [], fun _ => rfl, by simp, by simp⟩
    · exact ⟨j, (mem_setIface hi (Iface.setSide_oid ..) _).2 (Or.inr ⟨hj, by rw [Iface.setSide_oid]; exact hji⟩),
        rfl, rfl, fun s => ⟨fun h => h, [], fun _ => rfl, by simp, by simp⟩⟩
  · intro j hj
    rcases (mem_setIface hi (Iface.setSide_oid ..) _).1 hj with rfl | ⟨hj, _⟩
    · exact Or.inl ⟨i, hi, (Iface.setSide_oid ..).symm, (Iface.setSide_ptr ..).symm⟩
    · exact Or.inl ⟨j, hj, rfl, rfl⟩

theorem pushHook_evo {N : Addr → Prop} {r r' : Reg} {v : Vfn} {i : Iface} {info : Info} {slot adj : Addr}
    {a : AddArgs} {id : Int} (hs : SInv r) (hv : v ∈ r.vfns) (hi : i ∈ v.ifaces)
    (h : pushHook r v.oid i.oid info slot adj a = .ok (r', id)) : Evo N r r' := by
  unfold pushHook at h
  rw [derefVfn_ok hs hv] at h
  simp only [bind, Except.bind] at h
  rw [find?_key (hs.vi v hv).ioid hi] at h
  dsimp only at h
  cases h
  have := setSide_evo (N := N) hs hv hi a.post (fun h => h)
    [⟨r.next, a.plug, a.offs, a.handler, (idNew r.entries ⟨false, info.proto, info.vtblOffs, info.vtblIdx, slot, adj,
      a.plug, a.offs, a.handler, a.post⟩).2, false⟩] (fun _ => rfl) (by simp)
  rw [List.map_id'] at this
  exact this.right rfl

/-- `AddHook` keeps all function records, interfaces and hooks. -/
theorem addHook_evo {E : Env} {mem0 : Addr → Addr} {r r' : Reg} {a : AddArgs} {x : Int} (hw : RegInv E mem0 r)
    (hok : AddOk r a) (h : addHook E r a = .ok (r', x)) : Evo (NewVP r a) r r' ∧ r.next ≤ r'.next := by
  by_cases hvalid : ∃ info, AddValid a info
  · obtain ⟨info, hm, hinf, hver⟩ := hvalid
    unfold addHook at h
    rw [if_neg (by omega), hinf] at h
    rcases hsl : slotOf r.mem a.mode a.iface a.offs info with ⟨slot, adj⟩
    simp only [if_neg hver, hsl] at h
    rcases hg1 : getVfn r slot with ⟨r1, o1⟩
    obtain ⟨w1, f1, hhm1, ⟨v1, hv1, rfl, hp1⟩, old1⟩ := getVfn_spec hw.toWInv hg1
    have E1 : Evo (NewVP r a) r r1 := by have := getVfn_evo (NewVP r a) r slot; rw [hg1] at this; exact this
    rw [hg1] at h
    dsimp only at h
    rcases hg2 : getHookMan r1 a.plug a.pub info with ⟨r2, hmo⟩
    obtain ⟨w2, f2, hvf2, ⟨info', hhas2, _⟩, mono2, back2⟩ :=
      getHookMan_spec w1 hver (by rw [hhm1]; exact hok) hg2
    rw [hg2] at h
    dsimp only at h
    have E2 : Evo (NewVP r a) r r2 := E1.right hvf2
    obtain ⟨r3, hr3, w3, f3, hco3, ⟨v3, hv3, ho3, hp3, hif3, hin3, hkeep3⟩, old3⟩ :=
      addHookMan_spec w2 (v := v1) (hvf2 ▸ hv1) hhas2
    have E3 : Evo (NewVP r a) r r3 :=
      E2.trans (addHookMan_evo w2.s hr3) (Nat.le_trans f1.next f2.next)
    have n3 : r.next ≤ r3.next := Nat.le_trans f1.next (Nat.le_trans f2.next f3.next)
    rw [hr3] at h
    simp only [bind, Except.bind] at h
    rw [← ho3] at h
    obtain ⟨r4, ifo, hr4, w4, f4, hhm4, ⟨v4, hv4, ho4, hp4, hhms4, ⟨i4, hi4, rfl, hip4⟩, oldi4⟩, old4⟩ :=
      getIface_spec w3 hv3 adj
    have E4 : Evo (NewVP r a) r3 r4 := by
      refine getIface_evo w3.s hv3 ?_ hr4
      intro h0 hno
      refine ⟨⟨info, ⟨hm, hinf, hver⟩, by rw [hsl, hp3, hp1, h0]⟩, ?_⟩
      intro w hw' hwp i hi hi0
      obtain ⟨w3', hw3', _, e2, _, e4, _⟩ := E3 w hw'
      have : w3' = v3 := nodup_key_inj w3.s.vptr hw3' hv3 (by rw [e2, hwp])
      subst this
      obtain ⟨i', hi', _, k2, _⟩ := e4 i hi
      exact hno i' hi' (k2.trans hi0)
    rw [hr4] at h
    dsimp only at h
    rw [← ho4] at h
    have E5 : Evo (NewVP r a) r4 r' := pushHook_evo w4.s hv4 hi4 h
    refine ⟨(E3.trans E4 n3).trans E5 (Nat.le_trans n3 f4.next), ?_⟩
    unfold pushHook at h
    rw [derefVfn_ok w4.s hv4] at h
    simp only [bind, Except.bind] at h
    rw [find?_key (w4.s.vi v4 hv4).ioid hi4] at h
    cases h
    exact Nat.le_trans (Nat.le_trans n3 f4.next) (Nat.le_succ _)
  · rw [addHook_invalid E r a hvalid] at h
    cases h
    exact ⟨Evo.refl _ r, Nat.le_refl _⟩

theorem setHookPaused_evo {E : Env} {mem0 : Addr → Addr} {r : Reg} (N : Addr → Prop) (hw : RegInv E mem0 r)
    (id : Int) (b : Bool) : Evo N r (setHookPaused r id b).1 := by
  cases hq : idQuery r.entries id with
  | none => rw [setHookPaused_none b hq]; exact Evo.refl N r
  | some e =>
    obtain ⟨v, i, h, hl⟩ := idLoc_of_query hw.toWInv hq
    have hV := hw.s.vi v hl.hv
    have f1 : r.vfns.find? (·.ptr == e.vfnptr) = some v := find?_key' hw.s.vptr hl.hv hl.vptr
    have f2 : v.ifaces.find? (·.ptr == e.adj) = some i := find?_key' hV.iptr hl.hi hl.iptr
    have hnd : ((i.side e.post).map Hook.id).Nodup := by
      have := hw.ids.nodup v.ptr i.ptr e.post
      rwa [view_mem hw.s hl.hv, viewV_mem hV hl.hi] at this
    have f3 : (i.side e.post).find? (·.id == id) = some h := find?_key' hnd hl.hh hl.hid
    unfold setHookPaused
    rw [hq]
    simp only [f1, f2, f3]
    rw [setPausedL_eq hnd]
    have := setSide_evo (N := N) hw.s hl.hv hl.hi e.post (pauseIf (fun h => h.id == id) b) []
      (pauseIf_nid _ _) (by simp)
    rw [List.append_nil] at this
    exact this

theorem setPluginPaused_evo {E : Env} {mem0 : Addr → Addr} {r : Reg} (N : Addr → Prop) (hw : RegInv E mem0 r)
    (plug : Plugin) (b : Bool) : Evo N r (setPluginPaused r plug b) := by
  unfold setPluginPaused
  generalize idFindPlug r.entries plug = ids
  induction ids generalizing r with
  | nil => exact Evo.refl N r
  | cons id ids ih =>
    rw [List.foldl_cons]
    have h1 := setHookPaused_evo N hw id b
    cases hq : idQuery r.entries id with
    | none => rw [setHookPaused_none b hq]; exact ih hw
    | some e =>
      obtain ⟨r1, g1, g2, g3, _⟩ := setHookPaused_spec hw b hq
      rw [g1] at h1 ⊢
      exact h1.trans (ih g2) (Nat.le_of_eq g3.next.symm)

end Verif.SH
