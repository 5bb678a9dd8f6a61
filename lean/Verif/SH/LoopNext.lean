import Verif.SH.LoopRemove
/-
`GetNext` on a valid context.
-/
namespace Verif.SH

/-! ### groups -/

/-- The object a group's hooks are registered for (0 = vtable-wide). -/
def Grp.ptr (g : Grp) (this : Addr) : Addr :=
  match g with
  | .pre | .post => this
  | .preVP | .postVP => 0

/-- Pre or post. -/
def Grp.side : Grp → Bool
  | .pre | .preVP => false
  | .post | .postVP => true

/-- Order of the groups within a call. -/
def Grp.rank : Grp → Nat
  | .pre => 0
  | .preVP => 1
  | .post => 2
  | .postVP => 3

/-- The loop state in which a group's handlers run. -/
def Grp.st : Grp → CtxSt
  | .pre => .pre
  | .preVP => .preVP
  | .post => .post
  | .postVP => .postVP

/-- Group `g` is not finished in state `st`. -/
def Todo : CtxSt → Grp → Prop
  | .born, _ | .pre, _ | .rPre, _ => True
  | .preVP, g | .rPreVP, g => 1 ≤ g.rank
  | .orig, g | .post, g | .rPost, g => 2 ≤ g.rank
  | .postVP, g | .rPostVP, g => 3 ≤ g.rank
  | .dead, _ | .ignore, _ | .bad, _ => False

/-! ### history after one `GetNext` -/

theorem invoked_skips (cid : Nat) (sk : List (Grp × Nat)) (log : List Ev) (c : Nat) (g : Grp) :
    invoked ((sk.map fun x => Ev.skip cid x.1 x.2).reverse ++ log) c g = invoked log c g := by
  induction sk generalizing log with
  | nil => rfl
  | cons x xs ih =>
    rw [List.map_cons, List.reverse_cons, List.append_assoc, ih]
    exact invoked_skip ..

theorem skipped_skips (cid : Nat) (sk : List (Grp × Nat)) (log : List Ev) (c : Nat) (g : Grp) :
    skipped ((sk.map fun x => Ev.skip cid x.1 x.2).reverse ++ log) c g =
      skipped log c g ++ if cid = c then (sk.filter (·.1 = g)).map (·.2) else [] := by
  induction sk generalizing log with
  | nil => simp
  | cons x xs ih =>
    rw [List.map_cons, List.reverse_cons, List.append_assoc, ih]
    show skipped (Ev.skip cid x.1 x.2 :: log) c g ++ _ = _
    rw [skipped_skip, List.append_assoc]
    congr 1
    by_cases h1 : cid = c
    · by_cases h2 : x.1 = g
      · simp [h1, h2]
      · simp [h1, h2]
    · simp [h1]

theorem invoked_logGot (cid fid : Nat) (g : Got) (log : List Ev) (c : Nat) (grp : Grp) :
    invoked (logGot cid fid g log) c grp =
      invoked log c grp ++ (match g.hook with | some x => if cid = c ∧ x.1 = grp then [x.2.nid] else [] | none => []) := by
  unfold logGot
  dsimp only
  cases hg : g.hook with
  | none => simp only; rw [invoked_skips]; simp
  | some x =>
    obtain ⟨grp', h⟩ := x
    simp only
    rw [invoked_invoke, invoked_skips]

theorem skipped_logGot (cid fid : Nat) (g : Got) (log : List Ev) (c : Nat) (grp : Grp) :
    skipped (logGot cid fid g log) c grp =
      skipped log c grp ++ if cid = c then (g.skipped.filter (·.1 = grp)).map (·.2) else [] := by
  unfold logGot
  dsimp only
  cases hg : g.hook with
  | none => simp only; rw [skipped_skips]
  | some x =>
    obtain ⟨grp', h⟩ := x
    simp only
    rw [skipped_invoke, skipped_skips]

/-! ### iterators -/

theorem after_pos {A B : List Hook} (hs : (A ++ B).Pairwise (fun a b => a.nid < b.nid)) :
    after (A ++ B) (lastNid A) = B := by
  rcases List.eq_nil_or_concat A with rfl | ⟨A', a, rfl⟩
  · rfl
  · rw [List.concat_eq_append, lastNid_append_singleton]
    rw [List.concat_eq_append] at hs
    unfold after
    have hne : ∀ x ∈ A', (x.nid != a.nid) = true := by
      intro x hx
      rw [List.append_assoc, List.pairwise_append] at hs
      have := hs.2.2 x hx a (by simp)
      simp; omega
    show (List.dropWhile (fun x => x.nid != a.nid) (A' ++ [a] ++ B)).tail = B
    rw [List.append_assoc, List.dropWhile_append_of_pos hne]
    simp

/-- The iterator is null and the group has not begun, or it is a position in the list. -/
def PosN (log : List Ev) (cid : Nat) (g : Grp) (v : Vfn) (i : Iface) (post : Bool) (it : Iter) : Prop :=
  (it = .null ∧ NotYet log cid g) ∨ PosAt log cid g v i post it

theorem listOf_ok {r : Reg} (hs : SInv r) {v : Vfn} (hv : v ∈ r.vfns) {i : Iface} (hi : i ∈ v.ifaces) (s : Bool) :
    listOf r v.oid i.oid s = .ok (i.side s) := by
  unfold listOf
  rw [derefVfn_ok hs hv]
  simp only [bind, Except.bind]
  rw [find?_key (hs.vi v hv).ioid hi]

theorem rest_ok {r : Reg} (hs : SInv r) {v : Vfn} (hv : v ∈ r.vfns) {i : Iface} (hi : i ∈ v.ifaces) {s : Bool}
    {log : List Ev} {cid : Nat} {g : Grp} {it : Iter} (hp : PosN log cid g v i s it) :
    ∃ A B, rest r v.oid i.oid s it = .ok B ∧ i.side s = A ++ B ∧
      (∀ n ∈ invoked log cid g, ∀ b ∈ B, n < b.nid) ∧
      (∀ a ∈ A, a.nid ∈ invoked log cid g ∨ a.nid ∈ skipped log cid g) := by
  unfold rest
  rw [listOf_ok hs hv hi]
  simp only [bind, Except.bind]
  rcases hp with ⟨rfl, hn⟩ | ⟨pos, rfl, A, B, e1, e2, e3, e4⟩
  · refine ⟨[], i.side s, rfl, rfl, ?_, by simp⟩
    intro n hn'; unfold NotYet at hn; rw [hn] at hn'; cases hn'
  · refine ⟨A, B, ?_, e1, e3, e4⟩
    dsimp only
    rw [listOf_ok hs hv hi]
    dsimp only
    have hso := (hs.vi v hv).sorted i hi s
    rw [e1] at hso
    have haf : after (i.side s) pos = B := by rw [e1, e2]; exact after_pos hso
    cases hpos : pos with
    | none => simp; rw [← hpos]; exact haf
    | some n =>
      have hany : ((i.side s).any fun x => x.nid == n) = true := by
        obtain ⟨a, ha, hn⟩ := lastNid_mem (e2.symm.trans hpos)
        rw [List.any_eq_true]
        exact ⟨a, by rw [e1]; exact List.mem_append_left _ ha, by simpa using hn⟩
      simp only [hany, if_pos]
      simp
      rw [← hpos]; exact haf

theorem scan_spec (B : List Hook) :
    (∃ sk h B', B = sk ++ h :: B' ∧ (∀ x ∈ sk, x.paused = true) ∧ h.paused = false ∧ scan B = (sk, some h)) ∨
    ((∀ x ∈ B, x.paused = true) ∧ scan B = (B, none)) := by
  induction B with
  | nil => exact Or.inr ⟨by simp, rfl⟩
  | cons b B ih =>
    cases hb : b.paused with
    | false => exact Or.inl ⟨[], b, B, rfl, by simp, hb, by simp [scan, hb]⟩
    | true =>
      rcases ih with ⟨sk, h, B', e, h1, h2, h3⟩ | ⟨h1, h2⟩
      · refine Or.inl ⟨b :: sk, h, B', by rw [e]; rfl, ?_, h2, ?_⟩
        · intro x hx
          rcases List.mem_cons.1 hx with rfl | hx
          · exact hb
          · exact h1 x hx
        · unfold scan at h3 ⊢
          rw [Prod.mk.injEq] at h3
          rw [List.takeWhile_cons_of_pos (by simpa using hb), List.find?_cons_of_neg (by simp [hb]), h3.1, h3.2]
      · refine Or.inr ⟨?_, ?_⟩
        · intro x hx
          rcases List.mem_cons.1 hx with rfl | hx
          · exact hb
          · exact h1 x hx
        · unfold scan at h2 ⊢
          rw [Prod.mk.injEq] at h2
          rw [List.takeWhile_cons_of_pos (by simpa using hb), List.find?_cons_of_neg (by simp [hb]), h2.1, h2.2]

/-- One list of `GetNext`. -/
theorem tryList_ok {r : Reg} (hs : SInv r) {v : Vfn} (hv : v ∈ r.vfns) {i : Iface} (hi : i ∈ v.ifaces) {s : Bool}
    {log : List Ev} {c : Ctx} {g : Grp} (hp : PosN log c.cid g v i s c.iter) :
    ∃ A B, i.side s = A ++ B ∧
      (∀ n ∈ invoked log c.cid g, ∀ b ∈ B, n < b.nid) ∧
      (∀ a ∈ A, a.nid ∈ invoked log c.cid g ∨ a.nid ∈ skipped log c.cid g) ∧
      ((∃ sk h B', B = sk ++ h :: B' ∧ (∀ x ∈ sk, x.paused = true) ∧ h.paused = false ∧
        tryList r c g v.oid i.oid s = .ok ({ c with iter := .at v.oid i.oid s (some h.nid), ifacePtr := c.this - h.offs },
          some (g, h), sk.map fun h => (g, h.nid))) ∨
       ((∀ x ∈ B, x.paused = true) ∧
        tryList r c g v.oid i.oid s = .ok ({ c with iter := .at v.oid i.oid s none }, none, B.map fun h => (g, h.nid)))) := by
  obtain ⟨A, B, h1, h2, h3, h4⟩ := rest_ok hs hv hi hp
  refine ⟨A, B, h2, h3, h4, ?_⟩
  unfold tryList
  rw [h1]
  simp only [bind, Except.bind]
  rcases scan_spec B with ⟨sk, h, B', e, k1, k2, k3⟩ | ⟨k1, k2⟩
  · left; refine ⟨sk, h, B', e, k1, k2, ?_⟩
    rw [k3]
  · right; refine ⟨k1, ?_⟩
    rw [k2]

/-- Fields of a context that `GetNext` does not touch. -/
structure KeepC (c c' : Ctx) : Prop where
  cid : c'.cid = c.cid
  vfn : c'.vfn = c.vfn
  iface : c'.iface = c.iface
  locals : c'.locals = c.locals
  this : c'.this = c.this
  orig : c'.orig = c.orig
  over : c'.over = c.over
  callOrig : c'.callOrig = c.callOrig

/-- What `GetNext` does on a context working on record `v`.  `log'` is the history afterwards. -/
structure GotSpec (r : Reg) (log : List Ev) (c : Ctx) (v : Vfn) (g : Got) (log' : List Ev) : Prop where
  keep : KeepC c g.ctx
  ok : CtxOk r log' g.ctx
  /-- a handler found: it is registered for the group, unpaused, later than those invoked before -/
  inv : ∀ grp h, g.hook = some (grp, h) → h.paused = false ∧ h ∈ viewV v (grp.ptr c.this) grp.side ∧
    g.ctx.ifacePtr = c.this - h.offs ∧ g.ctx.st = grp.st ∧ Todo c.st grp ∧
    (∀ n ∈ invoked log c.cid grp, n < h.nid) ∧ (∀ grp', grp.rank < grp'.rank → NotYet log c.cid grp')
  skip : ∀ x ∈ g.skipped, Todo c.st x.1 ∧ ∃ h ∈ viewV v (x.1.ptr c.this) x.1.side, h.nid = x.2 ∧ h.paused = true
  /-- groups left behind are complete -/
  done : ∀ grp, Todo c.st grp → ¬ Todo g.ctx.st grp →
    (grp.ptr c.this ≠ 0 → c.iface ≠ none) → ∀ h ∈ viewV v (grp.ptr c.this) grp.side,
      h.nid ∈ invoked log' c.cid grp ∨ h.nid ∈ skipped log' c.cid grp
  mono : ∀ grp, Todo g.ctx.st grp → Todo c.st grp

theorem viewV_none {v : Vfn} {a : Addr} (h : v.ifaces.find? (·.ptr == a) = none) (s : Bool) : viewV v a s = [] := by
  unfold viewV; rw [h]


theorem viewV_zero {next : Nat} {v : Vfn} (hv : VInv next v) {i : Iface} (hi : i ∈ v.ifaces) {a : Addr} (ha : i.ptr = a)
    (s : Bool) : viewV v a s = i.side s := ha ▸ viewV_mem hv hi s

/-- The state in which the VP half looks for handlers, and the one in which it ends. -/
def vpSt (post : Bool) : CtxSt := if post then .postVP else .preVP
def vpStop (post : Bool) : CtxSt := if post then .dead else .orig
def vpGrp (post : Bool) : Grp := if post then .postVP else .preVP
def objSt (post : Bool) : CtxSt := if post then .post else .pre
def objGrp (post : Bool) : Grp := if post then .post else .pre

/-- Result of looking for the next handler of group `g` in the list `L`. -/
structure Found (log : List Ev) (cid : Nat) (g : Grp) (L A sk : List Hook) (h : Hook) (B : List Hook) : Prop where
  eq : L = A ++ (sk ++ h :: B)
  past : ∀ n ∈ invoked log cid g, ∀ b ∈ sk ++ h :: B, n < b.nid
  seen : ∀ a ∈ A, a.nid ∈ invoked log cid g ∨ a.nid ∈ skipped log cid g
  paused : ∀ x ∈ sk, x.paused = true
  live : h.paused = false

/-- The list `L` is exhausted. -/
structure Ended (log : List Ev) (cid : Nat) (g : Grp) (L A sk : List Hook) : Prop where
  eq : L = A ++ sk
  seen : ∀ a ∈ A, a.nid ∈ invoked log cid g ∨ a.nid ∈ skipped log cid g
  paused : ∀ x ∈ sk, x.paused = true

theorem tryList_cases {r : Reg} (hs : SInv r) {v : Vfn} (hv : v ∈ r.vfns) {i : Iface} (hi : i ∈ v.ifaces) {s : Bool}
    {log : List Ev} {c : Ctx} {g : Grp} (hp : PosN log c.cid g v i s c.iter) :
    (∃ A sk h B, Found log c.cid g (i.side s) A sk h B ∧
        tryList r c g v.oid i.oid s = .ok ({ c with iter := .at v.oid i.oid s (some h.nid), ifacePtr := c.this - h.offs },
          some (g, h), sk.map fun h => (g, h.nid))) ∨
    (∃ A sk, Ended log c.cid g (i.side s) A sk ∧
        tryList r c g v.oid i.oid s = .ok ({ c with iter := .at v.oid i.oid s none }, none, sk.map fun h => (g, h.nid))) := by
  obtain ⟨A, B, h1, h2, h3, h4⟩ := tryList_ok hs hv hi hp
  rcases h4 with ⟨sk, h, B', rfl, k1, k2, k3⟩ | ⟨k1, k2⟩
  · exact Or.inl ⟨A, sk, h, B', ⟨h1, h2, h3, k1, k2⟩, k3⟩
  · exact Or.inr ⟨A, B, ⟨h1, h3, k1⟩, k2⟩

theorem nextVP_cases {r : Reg} (hs : SInv r) {v : Vfn} (hv : v ∈ r.vfns) {log : List Ev} {c : Ctx} (post : Bool)
    (sk0 : List (Grp × Nat)) (hvf : c.vfn = some v.oid)
    (hp : ∀ i ∈ v.ifaces, i.ptr = 0 → PosN log c.cid (vpGrp post) v i post c.iter) :
    (∃ i ∈ v.ifaces, i.ptr = 0 ∧ ∃ A sk h B, Found log c.cid (vpGrp post) (i.side post) A sk h B ∧
      nextVP r c post sk0 = .ok { ctx := { c with st := vpSt post, iter := .at v.oid i.oid post (some h.nid), ifacePtr := c.this - h.offs },
                                  hook := some (vpGrp post, h), skipped := sk0 ++ sk.map fun h => (vpGrp post, h.nid) }) ∨
    (∃ A sk it, Ended log c.cid (vpGrp post) (viewV v 0 post) A sk ∧
      nextVP r c post sk0 = .ok { ctx := { c with st := vpStop post, iter := it },
                                  hook := none, skipped := sk0 ++ sk.map fun h => (vpGrp post, h.nid) }) := by
  obtain ⟨cid, st, iter, vfn, iface, locals, this, ifacePtr, orig, over, callOrig⟩ := c
  dsimp only at hvf
  subst hvf
  generalize hc : Ctx.mk cid st iter (some v.oid) iface locals this ifacePtr orig over callOrig = c at *
  have hvf : c.vfn = some v.oid := by rw [← hc]
  have hN : nextVP r c post sk0 = (do
      let w ← derefVfn r v.oid
      match w.ifaces.find? (·.ptr == 0) with
      | none => .ok { ctx := { c with st := vpStop post }, hook := none, skipped := sk0 }
      | some i => do
        let (c', nx, sk') ← tryList r { c with st := vpSt post } (vpGrp post) v.oid i.oid post
        match nx with
        | some x => .ok { ctx := c', hook := some x, skipped := sk0 ++ sk' }
        | none => .ok { ctx := { c' with st := vpStop post }, hook := none, skipped := sk0 ++ sk' }) := by
    rw [← hc]; rfl
  rw [hN]
  simp only [bind, Except.bind, derefVfn_ok hs hv]
  cases hf : v.ifaces.find? (·.ptr == 0) with
  | none =>
    right
    refine ⟨[], [], c.iter, ⟨?_, by simp, by simp⟩, ?_⟩
    · rw [viewV_none hf]; rfl
    · simp [vpStop]
  | some i =>
    obtain ⟨hi, h0⟩ := find?_key_some hf
    have hp' : PosN log c.cid (vpGrp post) v i post { c with st := vpSt post }.iter := hp i hi h0
    have hc' : ({ c with st := vpSt post } : Ctx).cid = c.cid := rfl
    dsimp only
    rcases tryList_cases (c := { c with st := vpSt post }) hs hv hi hp' with ⟨A, sk, h, B, h1, h2⟩ | ⟨A, sk, h1, h2⟩
    · left
      refine ⟨i, hi, h0, A, sk, h, B, h1, ?_⟩
      rw [h2]
    · right
      refine ⟨A, sk, .at v.oid i.oid post none, ⟨?_, h1.2, h1.3⟩, ?_⟩
      · rw [viewV_zero (hs.vi v hv) hi h0]; exact h1.1
      · rw [h2]

theorem nextObj_cases {r : Reg} (hs : SInv r) {v : Vfn} (hv : v ∈ r.vfns) {log : List Ev} {c : Ctx} (post : Bool)
    (hvf : c.vfn = some v.oid)
    (hif : ∀ ifo, c.iface = some ifo → ∃ i ∈ v.ifaces, i.oid = ifo ∧ i.ptr = c.this)
    (hp : ∀ i ∈ v.ifaces, c.iface = some i.oid → PosN log c.cid (objGrp post) v i post c.iter)
    (hn : NotYet log c.cid (vpGrp post)) :
    (∃ i ∈ v.ifaces, c.iface = some i.oid ∧ i.ptr = c.this ∧ ∃ A sk h B, Found log c.cid (objGrp post) (i.side post) A sk h B ∧
      nextObj r c post = .ok { ctx := { c with st := objSt post, iter := .at v.oid i.oid post (some h.nid), ifacePtr := c.this - h.offs },
                               hook := some (objGrp post, h), skipped := sk.map fun h => (objGrp post, h.nid) }) ∨
    (∃ A0 sk0, (c.iface ≠ none → Ended log c.cid (objGrp post) (viewV v c.this post) A0 sk0) ∧
      (c.iface = none → sk0 = []) ∧
      ((∃ i ∈ v.ifaces, i.ptr = 0 ∧ ∃ A sk h B, Found log c.cid (vpGrp post) (i.side post) A sk h B ∧
        nextObj r c post = .ok { ctx := { c with st := vpSt post, iter := .at v.oid i.oid post (some h.nid), ifacePtr := c.this - h.offs },
                                 hook := some (vpGrp post, h),
                                 skipped := (sk0.map fun h => (objGrp post, h.nid)) ++ sk.map fun h => (vpGrp post, h.nid) }) ∨
       (∃ A sk it, Ended log c.cid (vpGrp post) (viewV v 0 post) A sk ∧
        nextObj r c post = .ok { ctx := { c with st := vpStop post, iter := it },
                                 hook := none,
                                 skipped := (sk0.map fun h => (objGrp post, h.nid)) ++ sk.map fun h => (vpGrp post, h.nid) }))) := by
  obtain ⟨cid, st, iter, vfn, iface, locals, this, ifacePtr, orig, over, callOrig⟩ := c
  dsimp only at hvf
  subst hvf
  generalize hc : Ctx.mk cid st iter (some v.oid) iface locals this ifacePtr orig over callOrig = c at *
  have hvf : c.vfn = some v.oid := by rw [← hc]
  have hN0 : c.iface = none → nextObj r c post = nextVP r { c with st := objSt post, iter := .null } post [] := by
    intro h; rw [← hc] at h ⊢; dsimp only at h; subst h; rfl
  have hN1 : ∀ ifo, c.iface = some ifo → nextObj r c post = (do
        let (c', nx, sk) ← tryList r { c with st := objSt post } (objGrp post) v.oid ifo post
        match nx with
        | some x => .ok { ctx := c', hook := some x, skipped := sk }
        | none => nextVP r { c' with iter := .null } post sk) := by
    intro ifo h; rw [← hc] at h ⊢; dsimp only at h; subst h; rfl
  by_cases hci : c.iface = none
  · right
    refine ⟨[], [], fun h => absurd hci h, fun _ => rfl, ?_⟩
    rw [hN0 hci]
    simp only [List.map_nil, List.nil_append]
    exact nextVP_cases (c := { c with st := objSt post, iter := .null }) hs hv (log := log) post [] hvf
      (fun i _ _ => Or.inl ⟨rfl, hn⟩)
  · obtain ⟨ifo, hco⟩ := Option.ne_none_iff_exists'.1 hci
    obtain ⟨i, hi, rfl, hit⟩ := hif _ hco
    rw [hN1 _ hco]
    simp only [bind, Except.bind]
    have hp' : PosN log c.cid (objGrp post) v i post ({ c with st := objSt post } : Ctx).iter := hp i hi hco
    rcases tryList_cases (c := { c with st := objSt post }) hs hv hi hp' with ⟨A, sk, h, B, h1, h2⟩ | ⟨A, sk, h1, h2⟩
    · left
      refine ⟨i, hi, hco, hit, A, sk, h, B, h1, ?_⟩
      rw [h2]
    · right
      refine ⟨A, sk, fun _ => ⟨by rw [viewV_zero (hs.vi v hv) hi hit]; exact h1.1, h1.2, h1.3⟩, fun h => absurd h hci, ?_⟩
      rw [h2]
      exact nextVP_cases (c := { c with st := objSt post, iter := .null }) hs hv (log := log) post
        (sk.map fun h => (objGrp post, h.nid)) hvf (fun i _ _ => Or.inl ⟨rfl, hn⟩)

theorem Found.mem {log : List Ev} {cid : Nat} {g : Grp} {L A sk : List Hook} {h : Hook} {B : List Hook}
    (f : Found log cid g L A sk h B) : h ∈ L := by rw [f.eq]; simp

theorem Found.skmem {log : List Ev} {cid : Nat} {g : Grp} {L A sk : List Hook} {h : Hook} {B : List Hook}
    (f : Found log cid g L A sk h B) : ∀ x ∈ sk, x ∈ L := by intro x hx; rw [f.eq]; simp [hx]

theorem Found.pos {log log' : List Ev} {cid : Nat} {g : Grp} {L A sk : List Hook} {h : Hook} {B : List Hook}
    (f : Found log cid g L A sk h B) (hs : L.Pairwise (fun a b => a.nid < b.nid))
    (hi : invoked log' cid g = invoked log cid g ++ [h.nid])
    (hk : skipped log' cid g = skipped log cid g ++ sk.map Hook.nid) : Pos log' cid g L (some h.nid) := by
  refine ⟨A ++ sk ++ [h], B, by rw [f.eq]; simp, (lastNid_append_singleton _ _).symm, ?_, ?_⟩
  · intro n hn b hb
    rw [hi] at hn
    rcases List.mem_append.1 hn with hn | hn
    · exact f.past n hn b (by simp [hb])
    · rw [List.mem_singleton] at hn; subst hn
      rw [f.eq, ← List.append_assoc, List.pairwise_append] at hs
      exact (List.pairwise_cons.1 hs.2.1).1 b hb
  · intro a ha
    rw [hi, hk]
    rcases List.mem_append.1 ha with ha | ha
    · rcases List.mem_append.1 ha with ha | ha
      · rcases f.seen a ha with h | h
        · exact Or.inl (List.mem_append_left _ h)
        · exact Or.inr (List.mem_append_left _ h)
      · exact Or.inr (List.mem_append_right _ (List.mem_map_of_mem ha))
    · rw [List.mem_singleton] at ha; subst ha
      exact Or.inl (by simp)

theorem Ended.all {log log' : List Ev} {cid : Nat} {g : Grp} {L A sk : List Hook} (f : Ended log cid g L A sk)
    (hi : ∀ n ∈ invoked log cid g, n ∈ invoked log' cid g)
    (hk : skipped log' cid g = skipped log cid g ++ sk.map Hook.nid) :
    ∀ h ∈ L, h.nid ∈ invoked log' cid g ∨ h.nid ∈ skipped log' cid g := by
  intro h hh
  rw [f.eq] at hh
  rw [hk]
  rcases List.mem_append.1 hh with hh | hh
  · rcases f.seen h hh with h | h
    · exact Or.inl (hi _ h)
    · exact Or.inr (List.mem_append_left _ h)
  · exact Or.inr (List.mem_append_right _ (List.mem_map_of_mem hh))

theorem filter_map_same (g : Grp) (sk : List Hook) :
    ((sk.map fun h => (g, h.nid)).filter (·.1 = g)).map (·.2) = sk.map Hook.nid := by
  rw [List.filter_eq_self.2 (by intro x hx; obtain ⟨y, _, rfl⟩ := List.mem_map.1 hx; simp)]
  simp [Function.comp_def]

theorem filter_map_other {g g' : Grp} (h : g ≠ g') (sk : List Hook) :
    ((sk.map fun h => (g, h.nid)).filter (·.1 = g')).map (·.2) = [] := by
  rw [List.filter_eq_nil_iff.2 (by intro x hx; obtain ⟨y, _, rfl⟩ := List.mem_map.1 hx; simp [h])]
  rfl

theorem obj_ne_vp (post : Bool) : objGrp post ≠ vpGrp post := by cases post <;> decide
theorem side_obj (post : Bool) : (objGrp post).side = post := by cases post <;> rfl
theorem side_vp (post : Bool) : (vpGrp post).side = post := by cases post <;> rfl
theorem ptr_obj (post : Bool) (a : Addr) : (objGrp post).ptr a = a := by cases post <;> rfl
theorem ptr_vp (post : Bool) (a : Addr) : (vpGrp post).ptr a = 0 := by cases post <;> rfl
theorem st_obj (post : Bool) : (objGrp post).st = objSt post := by cases post <;> rfl
theorem st_vp (post : Bool) : (vpGrp post).st = vpSt post := by cases post <;> rfl

/-- Groups before which nothing of the later ones may have run. -/
def NoPost (log : List Ev) (cid : Nat) (post : Bool) : Prop :=
  post = false → NotYet log cid .post ∧ NotYet log cid .postVP

/-- The VP half on a valid context; `c0` is the context before the call, `sk0` the hooks already skipped
in the object's list. -/
theorem vp_spec {r : Reg} (hs : SInv r) {log : List Ev} {c0 : Ctx} {v : Vfn} (hv : v ∈ r.vfns)
    (hvf : c0.vfn = some v.oid) (hth : c0.this ≠ 0)
    (hif : ∀ ifo, c0.iface = some ifo → ∃ i ∈ v.ifaces, i.oid = ifo ∧ i.ptr = c0.this) (fid : Nat) {post : Bool} {g : Got}
    {it : Iter} {A0 sk0 : List Hook} (obj : Bool)
    (hobj : obj = false → sk0 = [])
    (hdone0 : obj = true → c0.iface ≠ none → Ended log c0.cid (objGrp post) (viewV v c0.this post) A0 sk0)
    (hdone1 : c0.iface = none → sk0 = [])
    (htodo : ∀ grp, Todo c0.st grp ↔ (if obj then objGrp post else vpGrp post).rank ≤ grp.rank)
    (hlater : NoPost log c0.cid post)
    (hg : (∃ i ∈ v.ifaces, i.ptr = 0 ∧ ∃ A sk h B, Found log c0.cid (vpGrp post) (i.side post) A sk h B ∧
        g = { ctx := { c0 with st := vpSt post, iter := .at v.oid i.oid post (some h.nid), ifacePtr := c0.this - h.offs },
              hook := some (vpGrp post, h),
              skipped := (sk0.map fun h => (objGrp post, h.nid)) ++ sk.map fun h => (vpGrp post, h.nid) }) ∨
       (∃ A sk, Ended log c0.cid (vpGrp post) (viewV v 0 post) A sk ∧
        g = { ctx := { c0 with st := vpStop post, iter := it },
              hook := none,
              skipped := (sk0.map fun h => (objGrp post, h.nid)) ++ sk.map fun h => (vpGrp post, h.nid) })) :
    GotSpec r log c0 v g (logGot c0.cid fid g log) := by
  have hV := hs.vi v hv
  have hsk0 : ∀ x ∈ sk0, x ∈ viewV v c0.this post ∧ x.paused = true := by
    intro x hx
    cases hob : obj with
    | false => rw [hobj hob] at hx; cases hx
    | true =>
      by_cases hi : c0.iface = none
      · rw [hdone1 hi] at hx; cases hx
      · have he := hdone0 hob hi
        exact ⟨by rw [he.eq]; exact List.mem_append_right _ hx, he.paused x hx⟩
  have hskT : sk0 ≠ [] → obj = true := by
    intro h; cases hob : obj with
    | false => exact absurd (hobj hob) h
    | true => rfl
  rcases hg with ⟨i, hi, h0, A, sk, h, B, hf, rfl⟩ | ⟨A, sk, he, rfl⟩
  · have hvw := viewV_zero hV hi h0 post
    generalize hlog : logGot c0.cid fid _ log = log'
    have hinv : ∀ grp, invoked log' c0.cid grp = invoked log c0.cid grp ++ if vpGrp post = grp then [h.nid] else [] := by
      intro grp; rw [← hlog, invoked_logGot]; simp
    have hskp : skipped log' c0.cid (vpGrp post) = skipped log c0.cid (vpGrp post) ++ sk.map Hook.nid := by
      rw [← hlog, skipped_logGot]
      simp only [if_pos, List.filter_append, List.map_append]
      rw [filter_map_other (obj_ne_vp post), filter_map_same]; rfl
    have hsko : skipped log' c0.cid (objGrp post) = skipped log c0.cid (objGrp post) ++ sk0.map Hook.nid := by
      rw [← hlog, skipped_logGot]
      simp only [if_pos, List.filter_append, List.map_append]
      rw [filter_map_other (obj_ne_vp post).symm, filter_map_same, List.append_nil]
    refine ⟨⟨rfl, rfl, rfl, rfl, rfl, rfl, rfl, rfl⟩, Or.inr ⟨v, hv, hvf, hth, hif, ?_⟩, ?_, ?_, ?_, ?_⟩
    · have hpos := hf.pos (log' := log') (hV.sorted i hi post) (by rw [hinv]; simp) hskp
      have huniq : ∀ j ∈ v.ifaces, j.ptr = 0 → j = i := fun j hj hj0 =>
        nodup_key_inj hV.iptr hj hi (hj0.trans h0.symm)
      cases post with
      | false =>
        obtain ⟨l1, l2⟩ := hlater rfl
        refine ⟨fun j hj hj0 => ?_, ?_, ?_⟩
        · cases huniq j hj hj0; exact ⟨_, rfl, hpos⟩
        · show invoked log' c0.cid .post = []
          rw [hinv]; unfold NotYet at l1; rw [l1]; rfl
        · show invoked log' c0.cid .postVP = []
          rw [hinv]; unfold NotYet at l2; rw [l2]; rfl
      | true =>
        intro j hj hj0
        cases huniq j hj hj0; exact ⟨_, rfl, hpos⟩
    · intro grp h' he
      simp only [Option.some.injEq, Prod.mk.injEq] at he
      obtain ⟨rfl, rfl⟩ := he
      refine ⟨hf.live, by rw [ptr_vp, side_vp, hvw]; exact hf.mem, rfl, (st_vp post).symm, ?_, ?_, ?_⟩
      · rw [htodo]; cases obj <;> cases post <;> simp [Grp.rank, vpGrp, objGrp]
      · intro n hn; exact hf.past n hn h (by simp)
      · intro grp' hr
        cases post with
        | false => cases grp' <;> first | exact (hlater rfl).1 | exact (hlater rfl).2 | (simp [Grp.rank, vpGrp, objGrp] at hr)
        | true => cases grp' <;> simp [Grp.rank, vpGrp] at hr
    · intro x hx
      rcases List.mem_append.1 hx with hx | hx
      · obtain ⟨y, hy, rfl⟩ := List.mem_map.1 hx
        refine ⟨?_, y, ?_, rfl, (hsk0 y hy).2⟩
        · rw [htodo, hskT (List.ne_nil_of_mem hy)]; exact Nat.le_refl _
        · dsimp only; rw [ptr_obj, side_obj]; exact (hsk0 y hy).1
      · obtain ⟨y, hy, rfl⟩ := List.mem_map.1 hx
        refine ⟨?_, y, ?_, rfl, hf.paused y hy⟩
        · rw [htodo]; cases obj <;> cases post <;> simp [Grp.rank, vpGrp, objGrp]
        · dsimp only; rw [ptr_vp, side_vp, hvw]; exact hf.skmem y hy
    · intro grp ht hnt hif' x hx
      have hgo : grp = objGrp post ∧ obj = true := by
        rw [htodo] at ht
        revert ht hnt
        show _ → ¬ Todo (vpSt post) grp → _
        cases post <;> cases obj <;> cases grp <;> simp [vpSt, Todo, Grp.rank, objGrp, vpGrp]
      obtain ⟨rfl, hob⟩ := hgo
      rw [ptr_obj, side_obj] at hx
      rw [ptr_obj] at hif'
      refine (hdone0 hob (hif' hth)).all ?_ hsko x hx
      intro n hn; rw [hinv]; exact List.mem_append_left _ hn
    · intro grp ht
      rw [htodo]
      revert ht
      show Todo (vpSt post) grp → _
      cases post <;> cases obj <;> cases grp <;> simp [vpSt, Todo, Grp.rank, objGrp, vpGrp]
  · generalize hlog : logGot c0.cid fid _ log = log'
    have hinv : ∀ grp, invoked log' c0.cid grp = invoked log c0.cid grp := by
      intro grp; rw [← hlog, invoked_logGot]; simp
    have hskp : skipped log' c0.cid (vpGrp post) = skipped log c0.cid (vpGrp post) ++ sk.map Hook.nid := by
      rw [← hlog, skipped_logGot]
      simp only [if_pos, List.filter_append, List.map_append]
      rw [filter_map_other (obj_ne_vp post), filter_map_same]; rfl
    have hsko : skipped log' c0.cid (objGrp post) = skipped log c0.cid (objGrp post) ++ sk0.map Hook.nid := by
      rw [← hlog, skipped_logGot]
      simp only [if_pos, List.filter_append, List.map_append]
      rw [filter_map_other (obj_ne_vp post).symm, filter_map_same, List.append_nil]
    refine ⟨⟨rfl, rfl, rfl, rfl, rfl, rfl, rfl, rfl⟩, ?_, ?_, ?_, ?_, ?_⟩
    · cases post with
      | true => exact Or.inl rfl
      | false =>
        obtain ⟨l1, l2⟩ := hlater rfl
        refine Or.inr ⟨v, hv, hvf, hth, hif, ?_, ?_⟩
        · show invoked log' c0.cid .post = []
          rw [hinv]; exact l1
        · show invoked log' c0.cid .postVP = []
          rw [hinv]; exact l2
    · intro grp h' he; cases he
    · intro x hx
      rcases List.mem_append.1 hx with hx | hx
      · obtain ⟨y, hy, rfl⟩ := List.mem_map.1 hx
        refine ⟨?_, y, ?_, rfl, (hsk0 y hy).2⟩
        · rw [htodo, hskT (List.ne_nil_of_mem hy)]; exact Nat.le_refl _
        · dsimp only; rw [ptr_obj, side_obj]; exact (hsk0 y hy).1
      · obtain ⟨y, hy, rfl⟩ := List.mem_map.1 hx
        refine ⟨?_, y, ?_, rfl, he.paused y hy⟩
        · rw [htodo]; cases obj <;> cases post <;> simp [Grp.rank, vpGrp, objGrp]
        · dsimp only; rw [ptr_vp, side_vp, he.eq]; exact List.mem_append_right _ hy
    · intro grp ht hnt hif' x hx
      have hgo : (grp = objGrp post ∧ obj = true) ∨ grp = vpGrp post := by
        rw [htodo] at ht
        revert ht hnt
        show _ → ¬ Todo (vpStop post) grp → _
        cases post <;> cases obj <;> cases grp <;> simp [vpStop, Todo, Grp.rank, objGrp, vpGrp]
      rcases hgo with ⟨rfl, hob⟩ | rfl
      · rw [ptr_obj, side_obj] at hx
        rw [ptr_obj] at hif'
        refine (hdone0 hob (hif' hth)).all ?_ hsko x hx
        intro n hn; rw [hinv]; exact hn
      · rw [ptr_vp, side_vp] at hx
        refine he.all ?_ hskp x hx
        intro n hn; rw [hinv]; exact hn
    · intro grp ht
      rw [htodo]
      revert ht
      show Todo (vpStop post) grp → _
      cases post <;> cases obj <;> cases grp <;> simp [vpStop, Todo, Grp.rank, objGrp, vpGrp]

/-- The object half. -/
theorem obj_spec {r : Reg} (hs : SInv r) {log : List Ev} {c0 : Ctx} {v : Vfn} (hv : v ∈ r.vfns)
    (hvf : c0.vfn = some v.oid) (hth : c0.this ≠ 0)
    (hif : ∀ ifo, c0.iface = some ifo → ∃ i ∈ v.ifaces, i.oid = ifo ∧ i.ptr = c0.this) (fid : Nat) (post : Bool) (it : Iter)
    (hp : ∀ i ∈ v.ifaces, c0.iface = some i.oid → PosN log c0.cid (objGrp post) v i post it)
    (hn : NotYet log c0.cid (vpGrp post))
    (htodo : ∀ grp, Todo c0.st grp ↔ (objGrp post).rank ≤ grp.rank)
    (hlater : NoPost log c0.cid post) :
    ∃ g, nextObj r { c0 with iter := it } post = .ok g ∧ GotSpec r log c0 v g (logGot c0.cid fid g log) := by
  have hV := hs.vi v hv
  rcases nextObj_cases (c := { c0 with iter := it }) (log := log) hs hv post hvf hif hp hn with
    ⟨i, hi, hco, hit, A, sk, h, B, hf, hg⟩ | ⟨A0, sk0, hd0, hd1, hg⟩
  · refine ⟨_, hg, ?_⟩
    dsimp only at hf hco hit
    have hvw := viewV_zero hV hi hit post
    generalize hlog : logGot c0.cid fid _ log = log'
    have hinv : ∀ grp, invoked log' c0.cid grp = invoked log c0.cid grp ++ if objGrp post = grp then [h.nid] else [] := by
      intro grp; rw [← hlog, invoked_logGot]; simp
    have hsko : skipped log' c0.cid (objGrp post) = skipped log c0.cid (objGrp post) ++ sk.map Hook.nid := by
      rw [← hlog, skipped_logGot]
      simp only [if_pos]
      rw [filter_map_same]
    refine ⟨⟨rfl, rfl, rfl, rfl, rfl, rfl, rfl, rfl⟩, Or.inr ⟨v, hv, hvf, hth, hif, ?_⟩, ?_, ?_, ?_, ?_⟩
    · have hpos := hf.pos (log' := log') (hV.sorted i hi post) (by rw [hinv]; simp) hsko
      have huniq : ∀ j ∈ v.ifaces, c0.iface = some j.oid → j = i := fun j hj hj0 =>
        nodup_key_inj hV.ioid hj hi (Option.some.inj (hj0.symm.trans hco))
      cases post with
      | false =>
        obtain ⟨l1, l2⟩ := hlater rfl
        refine ⟨fun j hj hj0 => ?_, ?_, ?_, ?_⟩
        · cases huniq j hj hj0; exact ⟨_, rfl, hpos⟩
        · show invoked log' c0.cid .preVP = []
          rw [hinv]; unfold NotYet at hn; rw [show vpGrp false = Grp.preVP from rfl] at hn; rw [hn]; rfl
        · show invoked log' c0.cid .post = []
          rw [hinv]; unfold NotYet at l1; rw [l1]; rfl
        · show invoked log' c0.cid .postVP = []
          rw [hinv]; unfold NotYet at l2; rw [l2]; rfl
      | true =>
        refine ⟨fun j hj hj0 => ?_, ?_⟩
        · cases huniq j hj hj0; exact ⟨_, rfl, hpos⟩
        · show invoked log' c0.cid .postVP = []
          rw [hinv]; unfold NotYet at hn; rw [show vpGrp true = Grp.postVP from rfl] at hn; rw [hn]; rfl
    · intro grp h' he
      simp only [Option.some.injEq, Prod.mk.injEq] at he
      obtain ⟨rfl, rfl⟩ := he
      refine ⟨hf.live, by rw [ptr_obj, side_obj, hvw]; exact hf.mem, rfl, (st_obj post).symm, ?_, ?_, ?_⟩
      · rw [htodo]; exact Nat.le_refl _
      · intro n hn; exact hf.past n hn h (by simp)
      · intro grp' hr
        cases post with
        | false => cases grp' <;> first | exact hn | exact (hlater rfl).1 | exact (hlater rfl).2 | (simp [Grp.rank, vpGrp, objGrp] at hr)
        | true => cases grp' <;> first | exact hn | (simp [Grp.rank, vpGrp, objGrp] at hr)
    · intro x hx
      obtain ⟨y, hy, rfl⟩ := List.mem_map.1 hx
      refine ⟨?_, y, ?_, rfl, hf.paused y hy⟩
      · rw [htodo]; exact Nat.le_refl _
      · dsimp only; rw [ptr_obj, side_obj, hvw]; exact hf.skmem y hy
    · intro grp ht hnt hif' x hx
      exfalso
      rw [htodo] at ht
      revert ht hnt
      show _ → ¬ Todo (objSt post) grp → _
      cases post <;> cases grp <;> simp [objSt, Todo, Grp.rank, objGrp]
    · intro grp ht
      rw [htodo]
      revert ht
      show Todo (objSt post) grp → _
      cases post <;> cases grp <;> simp [objSt, Todo, Grp.rank, objGrp]
  · rcases hg with ⟨i, hi, h0, A, sk, h, B, hf, hg⟩ | ⟨A, sk, it', he, hg⟩
    · exact ⟨_, hg, vp_spec hs hv hvf hth hif fid (it := .null) true (by simp) (fun _ => hd0) hd1 htodo hlater
        (Or.inl ⟨i, hi, h0, A, sk, h, B, hf, rfl⟩)⟩
    · exact ⟨_, hg, vp_spec hs hv hvf hth hif fid (it := it') true (by simp) (fun _ => hd0) hd1 htodo hlater
        (Or.inr ⟨A, sk, he, rfl⟩)⟩

/-- The VP half alone. -/
theorem vp_spec' {r : Reg} (hs : SInv r) {log : List Ev} {c0 : Ctx} {v : Vfn} (hv : v ∈ r.vfns)
    (hvf : c0.vfn = some v.oid) (hth : c0.this ≠ 0)
    (hif : ∀ ifo, c0.iface = some ifo → ∃ i ∈ v.ifaces, i.oid = ifo ∧ i.ptr = c0.this) (fid : Nat) (post : Bool)
    (hp : ∀ i ∈ v.ifaces, i.ptr = 0 → PosN log c0.cid (vpGrp post) v i post c0.iter)
    (htodo : ∀ grp, Todo c0.st grp ↔ (vpGrp post).rank ≤ grp.rank)
    (hlater : NoPost log c0.cid post) :
    ∃ g, nextVP r c0 post [] = .ok g ∧ GotSpec r log c0 v g (logGot c0.cid fid g log) := by
  rcases nextVP_cases (log := log) hs hv post [] hvf hp with ⟨i, hi, h0, A, sk, h, B, hf, hg⟩ | ⟨A, sk, it', he, hg⟩
  · exact ⟨_, hg, vp_spec hs hv hvf hth hif fid (it := .null) (A0 := []) (sk0 := []) false (fun _ => rfl) (fun h => by cases h) (fun _ => rfl)
      htodo hlater (Or.inl ⟨i, hi, h0, A, sk, h, B, hf, rfl⟩)⟩
  · exact ⟨_, hg, vp_spec hs hv hvf hth hif fid (it := it') (A0 := []) (sk0 := []) false (fun _ => rfl) (fun h => by cases h) (fun _ => rfl)
      htodo hlater (Or.inr ⟨A, sk, he, rfl⟩)⟩

/-- `GetNext` on a context that is not dead. -/
theorem getNext_live {r : Reg} (hs : SInv r) {log : List Ev} {c : Ctx} {v : Vfn} (h : LiveCtx r log c v) (fid : Nat) :
    ∃ g, getNext r c = .ok g ∧ GotSpec r log c v g (logGot c.cid fid g log) := by
  have hit := h.it
  unfold ItOk at hit
  unfold getNext
  split at hit
  · next hst =>
    rw [hst]
    exact obj_spec hs h.mem h.vfn h.this h.iface fid false .null (fun _ _ _ => Or.inl ⟨rfl, hit _⟩) (hit _)
      (by intro g; rw [hst]; cases g <;> simp [Todo, Grp.rank, vpGrp, objGrp]) (fun _ => ⟨hit _, hit _⟩)
  · next hst =>
    rw [hst]
    exact obj_spec hs h.mem h.vfn h.this h.iface fid false c.iter (fun i a b => Or.inr (hit.1 i a b)) hit.2.1
      (by intro g; rw [hst]; cases g <;> simp [Todo, Grp.rank, vpGrp, objGrp]) (fun _ => hit.2.2)
  · next hst =>
    rw [hst]
    exact obj_spec hs h.mem h.vfn h.this h.iface fid false c.iter (fun i a b => Or.inr (hit.1 i a b)) hit.2.1
      (by intro g; rw [hst]; cases g <;> simp [Todo, Grp.rank, vpGrp, objGrp]) (fun _ => hit.2.2)
  · next hst =>
    rw [hst]
    exact vp_spec' hs h.mem h.vfn h.this h.iface fid false (fun i a b => Or.inr (hit.1 i a b))
      (by intro g; rw [hst]; cases g <;> simp [Todo, Grp.rank, vpGrp, objGrp]) (fun _ => hit.2)
  · next hst =>
    rw [hst]
    exact vp_spec' hs h.mem h.vfn h.this h.iface fid false (fun i a b => Or.inr (hit.1 i a b))
      (by intro g; rw [hst]; cases g <;> simp [Todo, Grp.rank, vpGrp, objGrp]) (fun _ => hit.2)
  · next hst =>
    rw [hst]
    exact obj_spec hs h.mem h.vfn h.this h.iface fid true .null (fun _ _ _ => Or.inl ⟨rfl, hit.1⟩) hit.2
      (by intro g; rw [hst]; cases g <;> simp [Todo, Grp.rank, vpGrp, objGrp]) (fun h => by cases h)
  · next hst =>
    rw [hst]
    exact obj_spec hs h.mem h.vfn h.this h.iface fid true c.iter (fun i a b => Or.inr (hit.1 i a b)) hit.2
      (by intro g; rw [hst]; cases g <;> simp [Todo, Grp.rank, vpGrp, objGrp]) (fun h => by cases h)
  · next hst =>
    rw [hst]
    refine ⟨_, rfl, ⟨rfl, rfl, rfl, rfl, rfl, rfl, rfl, rfl⟩, Or.inr ⟨v, h.mem, h.vfn, h.this, h.iface, ?_⟩, ?_, ?_, ?_, ?_⟩
    · exact hit
    · intro grp h' he; cases he
    · intro x hx; cases hx
    · intro grp ht hnt; rw [hst] at ht; exact absurd ht hnt
    · intro grp ht; rw [hst]; exact ht
  · next hst =>
    rw [hst]
    exact vp_spec' hs h.mem h.vfn h.this h.iface fid true (fun i a b => Or.inr (hit i a b))
      (by intro g; rw [hst]; cases g <;> simp [Todo, Grp.rank, vpGrp, objGrp]) (fun h => by cases h)
  · next hst =>
    rw [hst]
    refine ⟨_, rfl, ⟨rfl, rfl, rfl, rfl, rfl, rfl, rfl, rfl⟩, Or.inr ⟨v, h.mem, h.vfn, h.this, h.iface, ?_⟩, ?_, ?_, ?_, ?_⟩
    · exact hit
    · intro grp h' he; cases he
    · intro x hx; cases hx
    · intro grp ht hnt; rw [hst] at ht; exact absurd ht hnt
    · intro grp ht; rw [hst]; exact ht
  · exact hit.elim
  · exact hit.elim
  · exact hit.elim

/-- `GetNext` on a dead context does nothing. -/
theorem getNext_dead {r : Reg} {c : Ctx} (h : c.st = .dead) : getNext r c = .ok { ctx := c, hook := none, skipped := [] } := by
  unfold getNext; rw [h]

end Verif.SH
