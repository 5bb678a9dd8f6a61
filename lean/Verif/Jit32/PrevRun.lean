import Verif.Jit32.RuleProps
/-
What the calls of a 32-bit hook function generated at run time find in `prev_res`
(core/sourcehook/sourcehook_hookmangen_x86.cpp:941-942, 1019-1032): the runs of Verif/Jit32/RuleRun.lean
again, with that variable.
-/
namespace Verif.Jit32.Rule

open Verif.Jit32.Spec
open Verif.Jit (Byte)

variable {U : Fpu} {K : Case}

/-- Specification: a called function leaves `prev_res` as it finds it. -/
def Leaves (K : Case) (a : Ans U) : Prop := ∀ m, rd (later K.Wd m a) K.V.prev = rd m K.V.prev

/-- Specification: the `prev_res` each call finds. -/
def prevs (K : Case) (t : List SCall) : List W := t.map fun c => rd c.mem K.V.prev

/-- Specification: the `prev_res` the calls of one pass have to find, if it is `p` at first: GetNext and
the hook find the answer of the hook before, GetOverrideRetPtr that of the hook just called. -/
def passPrevs (K : Case) : W → List Hook → List W
  | p, [] => [p]
  | p, h :: hs => [p, p] ++ (if K.g.ret.size ≠ 0 ∧ 2 ≤ h.res.toNat then [h.res] else []) ++ passPrevs K h.res hs

theorem ctx_prev {m : Memory} {σ : St} (L : Laid K) (h : Holds K m σ) {idx : Nat} {f : W}
    (hc : (K.C.vt + BitVec.ofNat 32 (4 * idx), f) ∈ K.cells) {a : Ans U} (q : Served K a σ)
    (lv : Leaves K a) (as : List (Ans U)) :
    ∃ m' t, virt K.Wd K.C.ctx idx m (a :: as) = some (a, m', as, t) ∧ m' = later K.Wd m a ∧
      Holds K m' σ ∧ AreSeen K t [K.ask f σ] ∧ prevs K t = [rd m K.V.prev] ∧
      rd m' K.V.prev = rd m K.V.prev := by
  have h1 : okN K.Wd.vis K.C.ctx 4 = true := L.at cell_ctx
  have e1 : rd m K.C.ctx = K.C.vt := h.at cell_ctx
  have h2 := L.at hc
  have e2 := h.at hc
  exact ⟨_, _, virt_run h1 e1 h2 e2 q.polite as, rfl, q.quiet m h, .cons (h.seen _ _ _) .nil, rfl, lv m⟩

theorem hookOne_prev (S : Simple K.g) (R : RetOk K.g.ret) (hp : ∀ p ∈ K.g.params, PassOk p)
    (L : Laid K) {m : Memory} {σ : St} (h : Holds K m σ) {k : Hook} (hk : k ∈ K.H) {b : Ans U}
    (d : HookDone K b k σ) (as : List (Ans U)) :
    ∃ m' t, hookOne K.Wd K.V K.g k.obj K.args m (b :: as) = some ((), m', as, t) ∧ Holds K m' σ ∧
      rd m' K.V.cur = k.res ∧ (K.g.ret.size ≠ 0 → bytes m' K.V.plugin (width K.g) = k.val) ∧
      AreSeen K t [⟨k.fn, K.hookArgs k, σ, K.buf⟩] ∧ prevs K t = [rd m K.V.prev] := by
  have P := L.pairs
  have h1 : Holds K (wr m K.V.cur 0) σ :=
    h.only L (only_wr _ _ _) mem_cur P.sc.symm P.cv P.co P.cb
  have q1 : rd (wr m K.V.cur 0) K.V.prev = rd m K.V.prev := (only_wr _ _ _).rd P.cp
  generalize hm1 : wr m K.V.cur 0 = m1 at h1 q1
  have o1 : okN K.Wd.vis k.obj 4 = true := L.at (cell_obj hk)
  have e1 : rd m1 k.obj = k.vt := h1.at (cell_obj hk)
  have o2 : okN K.Wd.vis (k.vt + 8) 4 = true := L.at (cell_fn hk)
  have e2 : rd m1 (k.vt + 8) = k.fn := h1.at (cell_fn hk)
  have h3 := d.quiet m1 h1
  have c3 := d.cur m1 h1
  have key : ∃ m4, keepResult K.Wd K.V K.g b K.V.plugin (later K.Wd m1 b) as = some ((), m4, as, []) ∧
      Holds K m4 σ ∧ rd m4 K.V.cur = k.res ∧
      (K.g.ret.size ≠ 0 → bytes m4 K.V.plugin (width K.g) = k.val) := by
    by_cases hz : K.g.ret.size = 0
    · exact ⟨_, keep_void hz _ _ _ _, h3, c3, fun h => absurd hz h⟩
    · obtain ⟨m4, r4, b4, o4⟩ := keep_run S R hz (L.var (mem_plugin hz)) d.polite (later K.Wd m1 b) as
      refine ⟨m4, r4, h3.only L o4 (mem_plugin hz) (P.sl hz).symm (fun _ => (P.vl hz).symm)
        (fun _ => (P.ol hz).symm) (P.lb hz), ?_, ?_⟩
      · rw [o4.rd (P.cl hz).symm, c3]
      · intro _
        rw [b4, d.val hz m1 h1]
  obtain ⟨m4, r4, h4, c4, v4⟩ := key
  refine ⟨m4, [] ++ ([] ++ ([] ++ ([] ++ ([⟨k.fn, K.hookArgs k, true, m1⟩] ++ [])))), ?_, h4, c4, v4, ?_, ?_⟩
  · unfold hookOne
    refine bind_run (t := []) (save_run (L.var mem_cur) _ _ _) ?_
    rw [hm1]
    refine bind_run (t := []) (hookParams_run L hp h1 _) (bind_run (t := []) (load_run o1 _ _) ?_)
    rw [e1]
    refine bind_run (t := []) (load_run o2 _ _) ?_
    rw [e2]
    exact bind_run (callF_run K.Wd true _ _ d.polite _) r4
  · exact .cons (h1.seen _ _ _) .nil
  · exact congrArg (fun x => [x]) q1

theorem raise_prev (L : Laid K) {m : Memory} {σ : St} (h : Holds K m σ) {r : W}
    (hc : rd m K.V.cur = r) (hs : σ.status.toNat ≤ 3) (hr : r.toNat ≤ 3) (as : List (Ans U)) :
    ∃ m', raise K.Wd K.V m as = some ((), m', as, []) ∧
      Holds K m' { σ with status := raised σ.status r } ∧ rd m' K.V.cur = r ∧
      (K.g.ret.size ≠ 0 → bytes m' K.V.plugin (width K.g) = bytes m K.V.plugin (width K.g)) ∧
      rd m' K.V.prev = r := by
  have P := L.pairs
  have h1 := h.prev L r
  have c1 : rd (wr m K.V.prev r) K.V.cur = r := by rw [(only_wr _ _ _).rd P.cp.symm, hc]
  have v1 : K.g.ret.size ≠ 0 →
      bytes (wr m K.V.prev r) K.V.plugin (width K.g) = bytes m K.V.plugin (width K.g) :=
    fun hz => (only_wr _ _ _).bytes ((P.pl hz).mono (Nat.le_refl _) (width_le _))
  have run : ∀ m', when' (decide ((rd m K.V.status).toInt < (rd m K.V.cur).toInt))
        (save K.Wd K.V.status (rd m K.V.cur)) (wr m K.V.prev (rd m K.V.cur)) as
          = some ((), m', as, []) → raise K.Wd K.V m as = some ((), m', as, []) := by
    intro m' hm
    unfold raise
    exact bind_run (t := []) (load_run (L.var mem_cur) _ _) (bind_run (t := [])
      (load_run (L.var mem_status) _ _) (bind_run (t := []) (save_run (L.var mem_prev) _ _ _) hm))
  rw [hc, h.status, small_toInt hs, small_toInt hr] at run
  simp only [Int.ofNat_lt] at run
  by_cases hlt : σ.status.toNat < r.toNat
  · refine ⟨wr (wr m K.V.prev r) K.V.status r, run _ ?_, ?_, ?_, ?_, ?_⟩
    · rw [decide_eq_true hlt]
      exact save_run (L.var mem_status) _ _ _
    · have : raised σ.status r = r := if_pos hlt
      rw [this]
      exact h1.setStatus L r
    · rw [(only_wr _ _ _).rd P.sc, c1]
    · intro hz
      rw [(only_wr _ _ _).bytes ((P.sl hz).mono (Nat.le_refl _) (width_le _)), v1 hz]
    · rw [(only_wr _ _ _).rd P.sp, rd_wr_same]
  · refine ⟨wr m K.V.prev r, run _ ?_, ?_, c1, v1, rd_wr_same _ _ _⟩
    · rw [decide_eq_false hlt]
      rfl
    · have : raised σ.status r = σ.status := if_neg hlt
      rw [this]
      exact h1

theorem setOverride_prev (S : Simple K.g) (R : RetOk K.g.ret) (L : Laid K) (hz : K.g.ret.size ≠ 0)
    {m : Memory} {σ : St} (h : Holds K m σ) (as : List (Ans U)) :
    ∃ m', setOverride K.Wd K.V K.g K.V.override m as = some ((), m', as, []) ∧
      Holds K m' { σ with ov := bytes m K.V.plugin (width K.g) } ∧ rd m' K.V.prev = rd m K.V.prev := by
  have P := L.pairs
  obtain ⟨m', r, e, f⟩ := store_run S R (L.var (mem_override hz)) (L.var (mem_plugin hz)) (P.vl hz) m as
  refine ⟨m', r, ⟨?_, ?_, fun _ => e, ?_, ?_, ?_⟩, f.rd (P.pv hz).symm⟩
  · intro c hc
    rw [f.rd (L.cellApart c hc _ (mem_override hz)), h.cell c hc]
  · rw [f.rd (P.sv hz).symm, h.status]
  · intro _
    rw [f.bytes ((P.ov hz).symm.mono (Nat.le_refl _) (width_le _)), h.or hz]
  · rw [f.bytes (L.argApart _ (mem_override hz)), h.args]
  · intro b hb
    rw [f.bytes (P.vb hz (buf_vafmt hb)), h.buf b hb]

theorem prevs_append (a b : List SCall) : prevs K (a ++ b) = prevs K a ++ prevs K b := List.map_append

theorem loop_prev (S : Simple K.g) (R : RetOk K.g.ret) (hp : ∀ p ∈ K.g.params, PassOk p) (L : Laid K)
    (rest : List (Ans U)) :
    ∀ {σ σ' : St} {hs : List Hook} {as : List (Ans U)}, LoopAns K σ hs as σ' → (∀ a ∈ as, Leaves K a) →
    σ.status.toNat ≤ 3 → ∀ {m : Memory} {n : Nat}, Holds K m σ → hs.length < n →
    σ'.status.toNat ≤ 3 ∧
    ∃ m' t, hooks K.Wd K.V K.g K.C.ctx K.args n m (as ++ rest) = some ((), m', rest, t) ∧
      Holds K m' σ' ∧ AreSeen K t (loopCalls K σ hs) ∧ prevs K t = passPrevs K (rd m K.V.prev) hs := by
  have cn : (K.C.vt + BitVec.ofNat 32 (4 * 0), K.C.next) ∈ K.cells := by
    rw [show K.C.vt + BitVec.ofNat 32 (4 * 0) = K.C.vt from BitVec.add_zero _]
    exact cell_next
  intro σ σ' hs as l
  induction l with
  | @done σ a q ha =>
    intro lv hst m n h hn
    refine ⟨hst, ?_⟩
    obtain ⟨n, rfl⟩ : ∃ k, n = k + 1 := ⟨n - 1, by simp at hn; omega⟩
    obtain ⟨m1, t1, r1, -, h1, s1, p1, -⟩ := ctx_prev L h cn q (lv _ (by simp)) rest
    refine ⟨m1, t1 ++ [], ?_, h1, ?_, ?_⟩
    · rw [hooks]
      refine bind_run r1 ?_
      rw [if_pos ha]
      rfl
    · rw [List.append_nil]
      exact s1
    · rw [List.append_nil, p1]
      rfl
  | @hook σ σ' k hs a b as hk ho hr q ha d hno l ih =>
    intro lv hst m n h hn
    obtain ⟨n, rfl⟩ : ∃ k, n = k + 1 := ⟨n - 1, by simp at hn; omega⟩
    obtain ⟨m1, t1, r1, -, h1, s1, p1, e1⟩ := ctx_prev L h cn q (lv _ (by simp)) (b :: as ++ rest)
    obtain ⟨m2, t2, r2, h2, c2, v2, s2, p2⟩ := hookOne_prev S R hp L h1 hk d (as ++ rest)
    obtain ⟨m3, r3, h3, c3, v3, p3⟩ := raise_prev L h2 c2 hst hr (as ++ rest)
    have h3' : Holds K m3 (σ.hook k) := by
      refine ⟨h3.cell, h3.status, fun hz => ?_, h3.or, h3.args, h3.buf⟩
      rw [h3.ov hz]
      have : ¬ 2 ≤ k.res.toNat := by rcases hno with h | h <;> omega
      simp only [St.hook, if_neg this]
    obtain ⟨hst', m4, t4, r4, h4, s4, p4⟩ := ih (fun x hx => lv x (by simp [hx])) (raised_le hst hr) h3' (by simp at hn; omega)
    refine ⟨hst', m4, t1 ++ (t2 ++ ([] ++ ([] ++ t4))), ?_, h4, ?_, ?_⟩
    · rw [hooks]
      refine bind_run r1 ?_
      rw [if_neg (by rw [ha]; exact ho), ha]
      refine bind_run r2 (bind_run r3 (bind_run (a := ()) (m₁ := m3) (as₁ := as ++ rest) ?_ r4))
      unfold Spec.override
      by_cases hz : K.g.ret.size = 0
      · rw [if_pos hz]
        rfl
      · rw [if_neg hz]
        refine bind_run (t := []) (load_run (L.var mem_cur) _ _) ?_
        rw [c3, if_pos (by rw [small_toInt hr]; rcases hno with h | h <;> omega)]
        rfl
    · have e : loopCalls K σ (k :: hs) = [K.ask K.C.next σ] ++
          ([⟨k.fn, K.hookArgs k, σ, K.buf⟩] ++ loopCalls K (σ.hook k) hs) := by
        rw [loopCalls, if_neg (by rcases hno with h | h <;> omega)]
        rfl
      rw [e]
      exact s1.append (s2.append s4)
    · rw [List.nil_append, List.nil_append, prevs_append, prevs_append, p1, p2, p4, p3, e1, passPrevs,
        if_neg (by rcases hno with h | h <;> omega)]
      rfl
  | @over σ σ' k hs a b c as hk ho hr q ha d hz hge qc sp hc l ih =>
    intro lv hst m n h hn
    obtain ⟨n, rfl⟩ : ∃ k, n = k + 1 := ⟨n - 1, by simp at hn; omega⟩
    obtain ⟨m1, t1, r1, -, h1, s1, p1, e1⟩ := ctx_prev L h cn q (lv _ (by simp)) (b :: c :: as ++ rest)
    obtain ⟨m2, t2, r2, h2, c2, v2, s2, p2⟩ := hookOne_prev S R hp L h1 hk d (c :: as ++ rest)
    obtain ⟨m3, r3, h3, c3, v3, p3⟩ := raise_prev L h2 c2 hst hr (c :: as ++ rest)
    have co : (K.C.vt + BitVec.ofNat 32 (4 * 1), K.C.over) ∈ K.cells := cell_over hz
    obtain ⟨m4, t4, r4, e4, h4, s4, p4, q4⟩ := ctx_prev L h3 co qc (lv _ (by simp)) (as ++ rest)
    have v4 : bytes m4 K.V.plugin (width K.g) = k.val := by
      rw [e4]
      exact sp m3 ((v3 hz).trans (v2 hz))
    obtain ⟨m5, r5, h5, p5⟩ := setOverride_prev S R L hz h4 (as ++ rest)
    have h5' : Holds K m5 (σ.hook k) := by
      refine ⟨h5.cell, h5.status, fun hz => ?_, h5.or, h5.args, h5.buf⟩
      rw [h5.ov hz, v4]
      simp only [St.hook, if_pos hge]
    obtain ⟨hst', m6, t6, r6, h6, s6, p6⟩ := ih (fun x hx => lv x (by simp [hx])) (raised_le hst hr) h5' (by simp at hn; omega)
    refine ⟨hst', m6, t1 ++ (t2 ++ ([] ++ (([] ++ (t4 ++ [])) ++ t6))), ?_, h6, ?_, ?_⟩
    · rw [hooks]
      refine bind_run r1 ?_
      rw [if_neg (by rw [ha]; exact ho), ha]
      refine bind_run r2 (bind_run r3 (bind_run (a := ()) (m₁ := m5) (as₁ := as ++ rest) ?_ r6))
      unfold Spec.override
      rw [if_neg hz]
      refine bind_run (load_run (L.var mem_cur) _ _) ?_
      rw [c3, if_neg (by rw [small_toInt hr]; omega)]
      refine bind_run r4 ?_
      rw [hc]
      exact r5
    · have e : loopCalls K σ (k :: hs) = [K.ask K.C.next σ] ++
          ([⟨k.fn, K.hookArgs k, σ, K.buf⟩] ++ ([K.ask K.C.over
            { σ with status := raised σ.status k.res }] ++ loopCalls K (σ.hook k) hs)) := by
        rw [loopCalls, if_pos ⟨hz, hge⟩]
        rfl
      rw [e, List.append_nil]
      exact s1.append (s2.append (s4.append s6))
    · rw [List.nil_append, List.nil_append, List.append_nil, prevs_append, prevs_append, prevs_append, p1, p2, p4, p6, p5,
        q4, p3, e1, passPrevs, if_pos ⟨hz, hge⟩]
      rfl

theorem callHooks_prev (S : Simple K.g) (R : RetOk K.g.ret) (hp : ∀ p ∈ K.g.params, PassOk p) (L : Laid K)
    (rest : List (Ans U)) {σ σ' : St} {hs : List Hook} {as : List (Ans U)} (l : LoopAns K σ hs as σ')
    (lv : ∀ a ∈ as, Leaves K a)
    (hst : σ.status.toNat ≤ 3) {m : Memory} {n : Nat} (h : Holds K m σ) (hn : hs.length < n) :
    σ'.status.toNat ≤ 3 ∧
    ∃ m' t, Spec.callHooks K.Wd K.V K.g n K.C.ctx K.args m (as ++ rest) = some ((), m', rest, t) ∧
      Holds K m' σ' ∧ AreSeen K t (loopCalls K σ hs) ∧ prevs K t = passPrevs K 0 hs := by
  obtain ⟨hst', m', t, r, h', s, p⟩ := loop_prev S R hp L rest l lv hst (h.prev L 0) hn
  rw [rd_wr_same] at p
  refine ⟨hst', m', [] ++ t, ?_, h', s, p⟩
  unfold Spec.callHooks
  exact bind_run (save_run (L.var mem_prev) _ _ _) r

/-- Specification: the calls in front of the first pass. -/
def openCalls (K : Case) : List Seen := (if K.g.vafmt then [textCall K] else []) ++ [setupCall K]

theorem whole_prev (S : Simple K.g) (R : RetOk K.g.ret) (hp : ∀ p ∈ K.g.params, PassOk p)
    (hva : K.g.varArgs = K.g.vafmt) (L : Laid K) (T : Told K) (D : hid K.g = true → Placed K)
    {pre post : List Hook} {mid ans : List (Ans U)} {o : Option (List Byte)}
    (P : Plays K pre post mid ans o) (lv : ∀ a ∈ ans, Leaves K a)
    {n : Nat} (hn : pre.length < n) (hn' : post.length < n)
    (rest : List (Ans U)) :
    ∃ r m' t₁ t₂ t₃ t₄ t₅, hookFunction K.Wd K.V K.g n K.this K.memret K.args K.fmt K.mem (ans ++ rest)
        = some (r, m', rest, t₁ ++ (t₂ ++ (t₃ ++ (t₄ ++ t₅)))) ∧
      AreSeen K t₁ (openCalls K) ∧
      (AreSeen K t₂ (loopCalls K (first K) pre) ∧ prevs K t₂ = passPrevs K 0 pre) ∧
      AreSeen K t₃ (origCalls K (passed (first K) pre) o) ∧
      (AreSeen K t₄ (loopCalls K ((passed (first K) pre).orig o) post) ∧ prevs K t₄ = passPrevs K 0 post) ∧
      AreSeen K t₅ (endCalls K (last K pre post o)) := by
  obtain ⟨as₀, a, as₁, as₃, as₄, rfl, op, pa, l1, lo, l2, le⟩ := P
  simp only [List.append_assoc, List.cons_append]
  obtain ⟨m₁, t₁, r1, B, hb, w1⟩ := start_run L T hva op (a :: (as₁ ++ (mid ++ (as₃ ++ (as₄ ++ rest)))))
  have r2 : ∀ as : List (Ans U), construct K.Wd K.V K.g m₁ as = some ((), m₁, as, []) := by
    intro as
    unfold construct
    rw [if_neg S.ctor]
    rfl
  have h0 := pa.done m₁ B hb
  have r3 : setup K.Wd K.V K.g K.this m₁ (a :: (as₁ ++ (mid ++ (as₃ ++ (as₄ ++ rest)))))
      = some (K.C.ctx, later K.Wd m₁ a, as₁ ++ (mid ++ (as₃ ++ (as₄ ++ rest))),
        [⟨(setupCall K).target, (setupCall K).args, false, m₁⟩]) := by
    unfold setup
    refine bind_run (t := []) (load_run T.vt m₁ _) (bind_run (t := []) (load_run T.hi m₁ _) ?_)
    rw [B.hi, B.vt, ← pa.ctx]
    exact bind_run (u := []) (callF_run K.Wd false _ _ pa.polite _) rfl
  have w3 : AreSeen K [⟨(setupCall K).target, (setupCall K).args, false, m₁⟩] [setupCall K] :=
    .cons (B.seen _ _ _ hb) .nil
  have st0 : (first K).status.toNat ≤ 3 := by simp [first]
  obtain ⟨st1, m₂, t₂, r4, h4, w4, p4⟩ := callHooks_prev S R hp L (mid ++ (as₃ ++ (as₄ ++ rest))) l1
    (fun x hx => lv x (by simp [hx])) st0 h0 hn
  obtain ⟨m₃, t₃, r5, h5, w5⟩ := orig_run S R hp L (as₃ ++ (as₄ ++ rest)) lo h4
  have st2 : ((passed (first K) pre).orig o).status.toNat ≤ 3 := by rw [orig_status]; exact st1
  obtain ⟨st3, m₄, t₄, r6, h6, w6, p6⟩ := callHooks_prev S R hp L (as₄ ++ rest) l2
    (fun x hx => lv x (by simp [hx])) st2 h5 hn'
  obtain ⟨r, m₅, t₅, r7, y, w7⟩ := end_run S R L D st3 le rest h6
  refine ⟨r, m₅, t₁ ++ [⟨(setupCall K).target, (setupCall K).args, false, m₁⟩], t₂, t₃, t₄, t₅, ?_,
    w1.append w3, ⟨w4, p4⟩, w5, ⟨w6, p6⟩, w7⟩
  rw [List.append_assoc]
  show _ = some (r, m₅, rest, t₁ ++ ([] ++ ([⟨(setupCall K).target, (setupCall K).args, false, m₁⟩] ++
    (t₂ ++ (t₃ ++ (t₄ ++ t₅))))))
  unfold hookFunction
  exact bind_run r1 (bind_run (r2 _) (bind_run r3 (bind_run r4 (bind_run r5 (bind_run r6 r7)))))

end Verif.Jit32.Rule
