import Verif.Jit.RuleLemmas
/-
Helper lemmas for C86: the parts of the hook function, run with answers that keep their promises.
-/
namespace Verif.Jit.Rule

variable {Wd : World} {V : Vars} {g : Gen} {C : Context} {H : List Hook}

theorem place_simple (S : Simple g) (p : W) (ps : List Arg) : withPlace g p ps = ps := by
  unfold withPlace hiddenPtr
  rw [S.mem]
  simp

theorem width_le (S : Simple g) : width g ≤ 8 := by
  unfold width
  split
  · omega
  · rcases S.kind with h | h | h
    · omega
    · contradiction
    · exact h.2

theorem keep_void (hz : g.ret.size = 0) (a : Ans) (v : W) (m : Memory) (as : List Ans) :
    keepResult Wd V g a v m as = some ((), m, as, []) := by
  unfold keepResult
  rw [if_pos hz]
  rfl

theorem keep_run (S : Simple g) (hz : g.ret.size ≠ 0) {v : W} (ok : okAt Wd.vis v = true) (a : Ans)
    (m : Memory) (as : List Ans) :
    keepResult Wd V g a v m as = some ((), wr m v (valueOf g a), as, []) := by
  unfold keepResult valueOf
  rw [if_neg hz]
  by_cases hr : g.ret.has flagByRef = true
  · rw [if_pos hr, if_neg (by rw [hr]; simp), save_run ok]
  · have hf : g.ret.has flagByRef = false := by simpa using hr
    rw [if_neg hr]
    by_cases ht : g.ret.type = typeFloat
    · rw [if_pos ht, if_pos ⟨hf, ht⟩, save_run ok]
    · have hb : g.ret.type = typeBasic := by
        rcases S.kind with h | h | ⟨h | h, -⟩
        · exact absurd h hz
        · exact absurd h hr
        · exact h
        · exact absurd h ht
      rw [if_neg ht, if_pos hb, if_neg (fun h => ht h.2), save_run ok]

/-- A value from one variable to another. -/
theorem store_run (S : Simple g) {dst src : W} (hd : okAt Wd.vis dst = true)
    (hs : okAt Wd.vis src = true) (ap : Apart dst src) (m : Memory) (as : List Ans) :
    ∃ m', (if g.ret.has flagByRef then (do let v ← load Wd src; save Wd dst v) else move Wd g dst src)
        m as = some ((), m', as, []) ∧
      rd m' dst = merge (width g) (rd m src) (rd m dst) ∧
      ∀ b, Apart dst b → rd m' b = rd m b := by
  by_cases hr : g.ret.has flagByRef = true
  · rw [if_pos hr]
    refine ⟨wr m dst (rd m src), bind_run (t := []) (load_run hs m as) (save_run hd _ _ _), ?_, ?_⟩
    · rw [rd_wr_same, show width g = 8 from if_pos hr, merge_eight]
    · intro b hb
      exact rd_wr_apart _ _ _ _ hb
  · rw [if_neg hr]
    have hw : width g = g.ret.size := if_neg hr
    have hle : g.ret.size ≤ 8 := hw ▸ width_le S
    refine ⟨copy m dst src g.ret.size, ?_, ?_, ?_⟩
    · unfold move
      rw [if_neg (by rw [S.assign]; simp)]
      unfold memcpy
      rw [okRange_of_okAt hd hle, okRange_of_okAt hs hle]
      rfl
    · rw [hw]
      exact rd_copy_same hle ap
    · intro b hb
      exact rd_copy_apart hle hb

theorem setPrev_run (L : Laid Wd V g C H) (m : Memory) (as : List Ans) :
    setPrev Wd V m as = some ((), wr m V.prev (rd m V.cur), as, []) := by
  unfold setPrev
  exact bind_run (t := []) (load_run (L.ok _ mem_cur) m as) (save_run (L.ok _ mem_prev) _ _ _)

theorem Holds.prev {m : Memory} {σ : St} (L : Laid Wd V g C H) (h : Holds V g C H m σ) (v : W) :
    Holds V g C H (Jit.wr m V.prev v) σ :=
  h.wr L mem_prev L.pairs.ps L.pairs.pv L.pairs.po

/-- `prev_res` is none of the variables looked at. -/
theorem whenPrev_run (L : Laid Wd V g C H) (c : Bool) {m : Memory} {σ : St} (h : Holds V g C H m σ)
    (as : List Ans) : ∃ m', when' c (setPrev Wd V) m as = some ((), m', as, []) ∧
      Holds V g C H m' σ ∧ rd m' V.cur = rd m V.cur ∧
      (g.ret.size ≠ 0 → rd m' V.plugin = rd m V.plugin) := by
  cases c with
  | false => exact ⟨m, rfl, h, rfl, fun _ => rfl⟩
  | true =>
    refine ⟨_, setPrev_run L m as, h.prev L _, ?_, ?_⟩
    · exact rd_wr_apart _ _ _ _ L.pairs.pc
    · intro hz
      exact rd_wr_apart _ _ _ _ (L.pairs.pp hz)

theorem hookOne_run (S : Simple g) (L : Laid Wd V g C H) (D : Intent) {m : Memory} {σ : St}
    (h : Holds V g C H m σ) {k : Hook} (hk : k ∈ H) {b : Ans} (d : HookDone Wd V g C H b k σ)
    (ps : List Arg) (as : List Ans) :
    ∃ m' t, hookOne Wd V g D k.obj ps m (b :: as) = some ((), m', as, t) ∧ Holds V g C H m' σ ∧
      rd m' V.cur = k.res ∧ (g.ret.size ≠ 0 → rd m' V.plugin = k.val) ∧
      AreSeen V g t [⟨k.fn, .int k.obj :: ps, σ⟩] := by
  have P := L.pairs
  have h1 : Holds V g C H (Jit.wr m V.cur 0) σ := h.wr L mem_cur P.cs P.cv P.co
  obtain ⟨m2, r2, h2, -, -⟩ := whenPrev_run L (!D.prevLate) h1 (b :: as)
  have o1 : okAt Wd.vis k.obj = true := L.at (cell_obj hk)
  have e1 : rd m2 k.obj = k.vt := h2.at (cell_obj hk)
  have o2 : okAt Wd.vis (k.vt + BitVec.ofNat 64 (8 * g.callIdx)) = true := L.at (cell_fn hk)
  have e2 : rd m2 (k.vt + BitVec.ofNat 64 (8 * g.callIdx)) = k.fn := h2.at (cell_fn hk)
  have r3 := virt_run o1 e1 o2 e2 ps b as
  have h3 := d.quiet m2 h2
  have c3 := d.cur m2 h2
  have key : ∃ m4, keepResult Wd V g b V.plugin (after Wd m2 b) as = some ((), m4, as, []) ∧
      Holds V g C H m4 σ ∧ rd m4 V.cur = k.res ∧ (g.ret.size ≠ 0 → rd m4 V.plugin = k.val) := by
    by_cases hz : g.ret.size = 0
    · exact ⟨_, keep_void hz _ _ _ _, h3, c3, fun h => absurd hz h⟩
    · refine ⟨_, keep_run S hz (L.ok _ (mem_plugin hz)) _ _ _, h3.wr L (mem_plugin hz) (P.ls hz) P.lv
        P.lo, ?_, ?_⟩
      · rw [rd_wr_apart _ _ _ _ (P.lc hz), c3]
      · intro _
        rw [rd_wr_same, d.val hz]
  obtain ⟨m4, r4, h4, c4, v4⟩ := key
  obtain ⟨m5, r5, h5, c5, v5⟩ := whenPrev_run L D.prevLate h4 as
  refine ⟨m5, [] ++ ([] ++ ([⟨k.fn, .int k.obj :: ps, m2⟩] ++ ([] ++ []))), ?_, h5, c5.trans c4, fun hz => (v5 hz).trans (v4 hz), ?_⟩
  · unfold hookOne
    refine bind_run (t := []) (save_run (L.ok _ mem_cur) _ _ _) (bind_run (t := []) r2
      (bind_run (a := b) (m₁ := after Wd m2 b) (as₁ := as) ?_ (bind_run (t := []) r4 r5)))
    rw [place_simple S]
    exact r3
  · exact .cons (h2.seen _ _) .nil

theorem small_toInt {r : W} (h : r.toNat ≤ 3) : r.toInt = r.toNat := by
  rw [BitVec.toInt_eq_toNat_cond, if_pos (by omega)]

theorem raised_le {st r : W} (h : st.toNat ≤ 3) (h' : r.toNat ≤ 3) : (raised st r).toNat ≤ 3 := by
  unfold raised
  split <;> assumption

theorem raise_run (L : Laid Wd V g C H) {m : Memory} {σ : St} (h : Holds V g C H m σ) {r : W}
    (hc : rd m V.cur = r) (hs : σ.status.toNat ≤ 3) (hr : r.toNat ≤ 3) (as : List Ans) :
    ∃ m', raise Wd V m as = some (r, m', as, []) ∧
      Holds V g C H m' { σ with status := raised σ.status r } ∧
      (g.ret.size ≠ 0 → rd m' V.plugin = rd m V.plugin) := by
  have P := L.pairs
  refine ⟨wr m V.status (raised σ.status r), ?_, ⟨?_, ?_, ?_, ?_⟩, ?_⟩
  · unfold raise
    have e : raised σ.status r = if (rd m V.status).toInt < (rd m V.cur).toInt then rd m V.cur
        else rd m V.status := by
      rw [h.status, hc, small_toInt hs, small_toInt hr]
      unfold raised
      simp only [Int.ofNat_lt]
    rw [e]
    have := bind_run (f := fun c => do
      let st ← load Wd V.status
      save Wd V.status (if st.toInt < c.toInt then c else st)
      pure c) (t := []) (load_run (L.ok _ mem_cur) m as)
      (bind_run (t := []) (load_run (L.ok _ mem_status) m as)
        (bind_run (t := []) (save_run (L.ok _ mem_status) _ m as) (pure_run _ _ _)))
    rw [this, hc]
    rfl
  · intro c hcc
    rw [rd_wr_apart _ _ _ _ (L.cellApart c hcc _ mem_status), h.cell c hcc]
  · exact rd_wr_same _ _ _
  · intro hz
    rw [rd_wr_apart _ _ _ _ (P.sv hz), h.ov hz]
  · intro hz
    rw [rd_wr_apart _ _ _ _ (P.so hz), h.or hz]
  · intro hz
    rw [rd_wr_apart _ _ _ _ (P.sp hz)]

/-- The value of a hook becomes the override value. -/
theorem setOverride_run (S : Simple g) (L : Laid Wd V g C H) (hz : g.ret.size ≠ 0) {m : Memory} {σ : St}
    (h : Holds V g C H m σ) (as : List Ans) :
    ∃ m', setOverride Wd V g V.override m as = some ((), m', as, []) ∧
      Holds V g C H m' { σ with ov := merge (width g) (rd m V.plugin) σ.ov } := by
  have P := L.pairs
  obtain ⟨m', r, e, f⟩ := store_run S (L.ok _ (mem_override hz)) (L.ok _ (mem_plugin hz)) (P.vl hz) m as
  refine ⟨m', r, ⟨?_, ?_, ?_, ?_⟩⟩
  · intro c hc
    rw [f _ (L.cellApart c hc _ (mem_override hz)), h.cell c hc]
  · rw [f _ (P.vs hz), h.status]
  · intro _
    rw [e, h.ov hz]
  · intro _
    rw [f _ (P.vo hz), h.or hz]

theorem origElse_run (S : Simple g) (L : Laid Wd V g C H) {m : Memory} {σ : St}
    (h : Holds V g C H m σ) (as : List Ans) :
    ∃ m', origElse Wd V g m as = some ((), m', as, []) ∧
      Holds V g C H m' { σ with or := merge (width g) σ.ov σ.or } := by
  have P := L.pairs
  by_cases hz : g.ret.size = 0
  · refine ⟨m, ?_, ⟨h.cell, h.status, fun h' => absurd hz h', fun h' => absurd hz h'⟩⟩
    unfold origElse
    rw [if_pos hz]
    rfl
  · obtain ⟨m', r, e, f⟩ := store_run S (L.ok _ (mem_orig hz)) (L.ok _ (mem_override hz)) (P.ov hz) m as
    refine ⟨m', ?_, ⟨?_, ?_, ?_, ?_⟩⟩
    · unfold origElse
      rw [if_neg hz]
      exact r
    · intro c hc
      rw [f _ (L.cellApart c hc _ (mem_orig hz)), h.cell c hc]
    · rw [f _ (P.os hz), h.status]
    · intro _
      rw [f _ (P.ov hz), h.ov hz]
    · intro _
      rw [e, h.or hz, h.ov hz]

/-! ## The passes -/

theorem loop_run (S : Simple g) (L : Laid Wd V g C H) (D : Intent) (ps : List Arg) (rest : List Ans) :
    ∀ {σ σ' : St} {hs : List Hook} {as : List Ans}, LoopAns Wd V g C H σ hs as σ' →
    σ.status.toNat ≤ 3 → ∀ {m : Memory} {n : Nat}, Holds V g C H m σ → hs.length < n →
    σ'.status.toNat ≤ 3 ∧
    ∃ m' t, hooks Wd V g D C.ctx ps n m (as ++ rest) = some ((), m', rest, t) ∧
      Holds V g C H m' σ' ∧ AreSeen V g t (loopCalls g C ps σ hs) := by
  intro σ σ' hs as l
  induction l with
  | @done σ a q ha =>
    intro hst m n h hn
    refine ⟨hst, ?_⟩
    obtain ⟨n, rfl⟩ : ∃ k, n = k + 1 := ⟨n - 1, by simp at hn; omega⟩
    obtain ⟨m1, t1, r1, h1, s1⟩ := ctx_run L h cell_next q rest
    refine ⟨m1, t1 ++ [], ?_, h1, ?_⟩
    · rw [hooks]
      refine bind_run r1 ?_
      rw [if_pos ha]
      rfl
    · rw [List.append_nil]
      exact s1
  | @hook σ σ' k hs a b as hk ho hr q ha d hno l ih =>
    intro hst m n h hn
    obtain ⟨n, rfl⟩ : ∃ k, n = k + 1 := ⟨n - 1, by simp at hn; omega⟩
    obtain ⟨m1, t1, r1, h1, s1⟩ := ctx_run L h cell_next q (b :: as ++ rest)
    obtain ⟨m2, t2, r2, h2, c2, v2, s2⟩ := hookOne_run S L D h1 hk d ps (as ++ rest)
    obtain ⟨m3, r3, h3, v3⟩ := raise_run L h2 c2 hst hr (as ++ rest)
    have h3' : Holds V g C H m3 (σ.hook g k) := by
      refine ⟨h3.cell, h3.status, fun hz => ?_, h3.or⟩
      rw [h3.ov hz]
      have : ¬ 2 ≤ k.res.toNat := by rcases hno with h | h <;> omega
      simp only [St.hook, if_neg this]
    obtain ⟨hst', m4, t4, r4, h4, s4⟩ := ih (raised_le hst hr) h3' (by simp at hn; omega)
    refine ⟨hst', m4, t1 ++ (t2 ++ ([] ++ ([] ++ t4))), ?_, h4, ?_⟩
    · rw [hooks]
      refine bind_run r1 ?_
      rw [if_neg (by rw [ha]; exact ho), ha]
      refine bind_run r2 (bind_run r3 (bind_run (a := ()) (m₁ := m3) (as₁ := as ++ rest) ?_ r4))
      unfold override
      rw [if_pos (by rw [small_toInt hr]; rcases hno with h | h <;> omega)]
      rfl
    · have e : loopCalls g C ps σ (k :: hs) = [⟨C.next, [.int C.ctx], σ⟩] ++
          ([⟨k.fn, .int k.obj :: ps, σ⟩] ++ loopCalls g C ps (σ.hook g k) hs) := by
        rw [loopCalls, if_neg (by rcases hno with h | h <;> omega)]
        rfl
      rw [e]
      exact s1.append (s2.append s4)
  | @over σ σ' k hs a b c as hk ho hr q ha d hz hge qc sp hc l ih =>
    intro hst m n h hn
    obtain ⟨n, rfl⟩ : ∃ k, n = k + 1 := ⟨n - 1, by simp at hn; omega⟩
    obtain ⟨m1, t1, r1, h1, s1⟩ := ctx_run L h cell_next q (b :: c :: as ++ rest)
    obtain ⟨m2, t2, r2, h2, c2, v2, s2⟩ := hookOne_run S L D h1 hk d ps (c :: as ++ rest)
    obtain ⟨m3, r3, h3, v3⟩ := raise_run L h2 c2 hst hr (c :: as ++ rest)
    have o1 : okAt Wd.vis C.ctx = true := L.at cell_ctx
    have e1 : rd m3 C.ctx = C.vt := h3.at cell_ctx
    have o2 : okAt Wd.vis (C.vt + BitVec.ofNat 64 (8 * g.getOverride)) = true := L.at (cell_over hz)
    have e2 : rd m3 (C.vt + BitVec.ofNat 64 (8 * g.getOverride)) = C.over := h3.at (cell_over hz)
    have r4 := virt_run o1 e1 o2 e2 [] c (as ++ rest)
    have h4 := qc m3 h3
    have v4 : rd (after Wd m3 c) V.plugin = k.val := sp m3 ((v3 hz).trans (v2 hz))
    obtain ⟨m5, r5, h5⟩ := setOverride_run S L hz h4 (as ++ rest)
    have h5' : Holds V g C H m5 (σ.hook g k) := by
      refine ⟨h5.cell, h5.status, fun hz => ?_, h5.or⟩
      rw [h5.ov hz, v4]
      simp only [St.hook, if_pos hge]
    obtain ⟨hst', m6, t6, r6, h6, s6⟩ := ih (raised_le hst hr) h5' (by simp at hn; omega)
    refine ⟨hst', m6, t1 ++ (t2 ++ ([] ++ (([⟨C.over, [.int C.ctx], m3⟩] ++ []) ++ t6))), ?_, h6, ?_⟩
    · rw [hooks]
      refine bind_run r1 ?_
      rw [if_neg (by rw [ha]; exact ho), ha]
      refine bind_run r2 (bind_run r3 (bind_run (a := ()) (m₁ := m5) (as₁ := as ++ rest) ?_ r6))
      unfold override
      rw [if_neg (by rw [small_toInt hr]; omega)]
      refine bind_run r4 ?_
      rw [hc]
      exact r5
    · have e : loopCalls g C ps σ (k :: hs) = [⟨C.next, [.int C.ctx], σ⟩] ++
          ([⟨k.fn, .int k.obj :: ps, σ⟩] ++ ([⟨C.over, [.int C.ctx],
            { σ with status := raised σ.status k.res }⟩] ++ loopCalls g C ps (σ.hook g k) hs)) := by
        rw [loopCalls, if_pos ⟨hz, hge⟩]
        rfl
      have s3 : AreSeen V g [⟨C.over, [.int C.ctx], m3⟩] [⟨C.over, [.int C.ctx],
          { σ with status := raised σ.status k.res }⟩] := .cons (h3.seen _ _) .nil
      rw [e, List.append_nil]
      exact s1.append (s2.append (s3.append s6))

theorem orig_run (S : Simple g) (L : Laid Wd V g C H) (this : W) (ps : List Arg) (rest : List Ans)
    {σ σ' : St} {as : List Ans} {o : Option W} (l : OrigAns Wd V g C H σ as o σ') {m : Memory}
    (h : Holds V g C H m σ) :
    ∃ m' t, callOrig Wd V g C.ctx this ps m (as ++ rest) = some ((), m', rest, t) ∧
      Holds V g C H m' σ' ∧ AreSeen V g t (origCalls C this ps σ o) := by
  have P := L.pairs
  have st := load_run (L.ok _ mem_status) m
  cases l with
  | superceded h3 =>
    obtain ⟨m', r, h'⟩ := origElse_run S L h rest
    refine ⟨m', [] ++ [], ?_, h', ?_⟩
    · unfold callOrig
      refine bind_run (st _) ?_
      rw [h.status, if_pos h3]
      exact r
    · simp only [origCalls, if_pos h3]
      exact .nil
  | @refused a h3 q ha =>
    obtain ⟨m1, t1, r1, h1, s1⟩ := ctx_run L h cell_should q rest
    obtain ⟨m', r, h'⟩ := origElse_run S L h1 rest
    refine ⟨m', [] ++ (t1 ++ []), ?_, h', ?_⟩
    · unfold callOrig
      refine bind_run (st _) ?_
      rw [h.status, if_neg h3]
      refine bind_run r1 ?_
      rw [if_pos ha]
      exact r
    · simp only [origCalls, if_neg h3, Option.isSome_none, Bool.false_eq_true, if_false,
        List.append_nil, List.nil_append]
      exact s1
  | @called a b h3 q ha q' =>
    obtain ⟨m1, t1, r1, h1, s1⟩ := ctx_run L h cell_should q (b :: rest)
    have o1 : okAt Wd.vis V.entry = true := L.at cell_entry
    have e1 : rd m1 V.entry = C.entry := h1.at cell_entry
    have h2 := q' m1 h1
    have key : ∃ m3, keepResult Wd V g b V.orig (after Wd m1 b) rest = some ((), m3, rest, []) ∧
        Holds V g C H m3 { σ with or := valueOf g b } := by
      by_cases hz : g.ret.size = 0
      · exact ⟨_, keep_void hz _ _ _ _, ⟨h2.cell, h2.status, h2.ov, fun h => absurd hz h⟩⟩
      · refine ⟨_, keep_run S hz (L.ok _ (mem_orig hz)) _ _ _, ⟨?_, ?_, ?_, ?_⟩⟩
        · intro c hc
          rw [rd_wr_apart _ _ _ _ (L.cellApart c hc _ (mem_orig hz)), h2.cell c hc]
        · rw [rd_wr_apart _ _ _ _ (P.os hz), h2.status]
        · intro _
          rw [rd_wr_apart _ _ _ _ (P.ov hz), h2.ov hz]
        · intro _
          rw [rd_wr_same]
    obtain ⟨m3, r3, h3'⟩ := key
    refine ⟨m3, [] ++ (t1 ++ ([] ++ ([⟨C.entry, .int this :: ps, m1⟩] ++ []))), ?_, h3', ?_⟩
    · unfold callOrig
      refine bind_run (st _) ?_
      rw [h.status, if_neg h3]
      refine bind_run r1 ?_
      rw [if_neg ha]
      unfold callOriginal
      refine bind_run (load_run o1 m1 _) ?_
      rw [e1, place_simple S]
      exact bind_run (callF_run Wd _ _ _ _ _) r3
    · simp only [origCalls, if_neg h3, Option.isSome_some, if_true]
      exact s1.append (.cons (h1.seen _ _) .nil)

/-! ## The end -/

theorem params_run {σ : St} : ∀ (l : List Pass) (ps : List Arg) (as rest : List Ans) (m : Memory),
    ps.length = l.length → (∀ a ∈ as, Quiet Wd V g C H a σ) →
    as.length = (l.filter Pass.destroyed).length → Holds V g C H m σ →
    ∃ m' t, destroyParams Wd l ps m (as ++ rest) = some ((), m', rest, t) ∧
      Holds V g C H m' σ ∧ AreSeen V g t (dtorCalls σ l ps) := by
  intro l
  induction l with
  | nil =>
    intro ps as rest m hl hq hc h
    cases as with
    | nil => exact ⟨m, [], rfl, h, .nil⟩
    | cons => simp at hc
  | cons p l ih =>
    intro ps as rest m hl hq hc h
    cases ps with
    | nil => simp at hl
    | cons x ps =>
      simp only [List.length_cons, Nat.add_right_cancel_iff] at hl
      by_cases hp : p.destroyed = true
      · rw [List.filter_cons_of_pos hp] at hc
        cases as with
        | nil => simp at hc
        | cons a as =>
          simp only [List.length_cons, Nat.add_right_cancel_iff] at hc
          have h1 := hq a List.mem_cons_self m h
          obtain ⟨m', t, r, h', s⟩ := ih ps as rest _ hl (fun b hb => hq b (List.mem_cons_of_mem _ hb)) hc h1
          refine ⟨m', [⟨p.dtor, [x], m⟩] ++ t, ?_, h', ?_⟩
          · rw [destroyParams, if_pos hp]
            exact bind_run (callF_run Wd _ _ _ _ _) r
          · rw [dtorCalls, if_pos hp]
            exact AreSeen.append (.cons (h.seen _ _) .nil) s
      · rw [List.filter_cons_of_neg hp] at hc
        obtain ⟨m', t, r, h', s⟩ := ih ps as rest m hl hq hc h
        refine ⟨m', t, ?_, h', ?_⟩
        · rw [destroyParams, if_neg hp]
          exact r
        · rw [dtorCalls, if_neg hp]
          exact s

theorem return_run (S : Simple g) (L : Laid Wd V g C H) (D : Intent) {m : Memory} {σ : St}
    (h : Holds V g C H m σ) (memret p : W)
    (hp : g.ret.size ≠ 0 → p = if 2 ≤ σ.status.toNat then V.override else V.orig)
    (rest : List Ans) :
    (doReturn Wd g memret p >>= destroyRet Wd V g D) m rest
      = some (result g (if 2 ≤ σ.status.toNat then σ.ov else σ.or), m, rest, []) := by
  have hd : ∀ r, destroyRet Wd V g D r m rest = some (r, m, rest, []) := by
    intro r
    unfold destroyRet
    rw [if_neg S.dtor]
    rfl
  refine bind_run (t := []) ?_ (hd _)
  unfold doReturn result
  by_cases hz : g.ret.size = 0
  · rw [if_pos hz, if_pos hz]
    rfl
  · have ok : okAt Wd.vis p = true := by
      rw [hp hz]
      split
      · exact L.ok _ (mem_override hz)
      · exact L.ok _ (mem_orig hz)
    have e : rd m p = if 2 ≤ σ.status.toNat then σ.ov else σ.or := by
      rw [hp hz]
      split
      · exact h.ov hz
      · exact h.or hz
    rw [if_neg hz, if_neg hz]
    by_cases hr : g.ret.has flagByRef = true
    · rw [if_pos hr, if_neg (by rw [hr]; simp), ← e]
      exact bind_run (t := []) (load_run ok m rest) rfl
    · have hf : g.ret.has flagByRef = false := by simpa using hr
      have hk : g.ret.type = typeBasic ∨ g.ret.type = typeFloat := by
        rcases S.kind with h | h | h
        · exact absurd h hz
        · exact absurd h hr
        · exact h.1
      rw [if_neg hr]
      refine bind_run (t := []) (a := rd m p) (m₁ := m) (as₁ := rest) ?_ ?_
      · unfold retValue
        rw [if_pos (by rcases hk with h | h <;> simp [h])]
        exact load_run ok m rest
      · rw [if_neg (by rw [S.mem]; simp), e]
        generalize (if 2 ≤ σ.status.toNat then σ.ov else σ.or) = v
        by_cases ht : g.ret.type = typeFloat
        · have hn : g.ret.has flagByRef = false ∧ g.ret.type = typeFloat := ⟨hf, ht⟩
          rw [if_pos ht, if_pos hn]
          rfl
        · have hb : g.ret.type = typeBasic ∨ (g.ret.type = typeObject ∧ g.ret.has flagRetReg = true) :=
            .inl (hk.resolve_right ht)
          have hn : ¬ (g.ret.has flagByRef = false ∧ g.ret.type = typeFloat) := fun h => ht h.2
          rw [if_neg ht, if_pos hb, if_neg hn]
          rfl

theorem end_run (S : Simple g) (L : Laid Wd V g C H) (D : Intent) (memret : W) (ps : List Arg)
    (hl : ps.length = g.params.length) {σ : St} (hst : σ.status.toNat ≤ 3) {as : List Ans}
    (l : EndAns Wd V g C H σ as) (rest : List Ans) {m : Memory} (h : Holds V g C H m σ) :
    ∃ m' t, (do
        let p ← prepare Wd V g C.ctx
        endContext Wd g C.ctx
        destroyParams Wd g.params ps
        let r ← doReturn Wd g memret p
        destroyRet Wd V g D r : M Ret) m (as ++ rest)
      = some (result g (if 2 ≤ σ.status.toNat then σ.ov else σ.or), m', rest, t) ∧
      AreSeen V g t (endCalls g C ps σ) := by
  have key : ∃ p m1 t1 as1, prepare Wd V g C.ctx m (as ++ rest) = some (p, m1, as1 ++ rest, t1) ∧
      Holds V g C H m1 σ ∧ (∀ a ∈ as1, Quiet Wd V g C H a σ) ∧
      as1.length = 1 + (g.params.filter Pass.destroyed).length ∧
      (g.ret.size ≠ 0 → p = if 2 ≤ σ.status.toNat then V.override else V.orig) ∧
      AreSeen V g t1 (if g.ret.size = 0 then []
        else [⟨if 2 ≤ σ.status.toNat then C.over else C.orig, [.int C.ctx], σ⟩]) := by
    have hc := l.count
    by_cases hz : g.ret.size = 0
    · rw [if_pos hz, Nat.zero_add] at hc
      refine ⟨0, m, [], as, ?_, h, l.quiet, hc, fun h => absurd hz h, ?_⟩
      · unfold prepare
        rw [if_pos hz]
        rfl
      · rw [if_pos hz]
        exact .nil
    · obtain ⟨p, as1, rfl, hp⟩ := l.ptr hz
      rw [if_neg hz, List.length_cons] at hc
      have o1 : okAt Wd.vis C.ctx = true := L.at cell_ctx
      have e1 : rd m C.ctx = C.vt := h.at cell_ctx
      have o2 : okAt Wd.vis (C.vt + BitVec.ofNat 64 (8 * g.getOrig)) = true := L.at (cell_orig hz)
      have e2 : rd m (C.vt + BitVec.ofNat 64 (8 * g.getOrig)) = C.orig := h.at (cell_orig hz)
      have o3 : okAt Wd.vis (C.vt + BitVec.ofNat 64 (8 * g.getOverride)) = true := L.at (cell_over hz)
      have e3 : rd m (C.vt + BitVec.ofNat 64 (8 * g.getOverride)) = C.over := h.at (cell_over hz)
      have q := l.quiet p List.mem_cons_self
      refine ⟨p.reg 0, after Wd m p, [] ++ ([] ++ ([] ++ ([] ++
        ([⟨if 2 ≤ σ.status.toNat then C.over else C.orig, [.int C.ctx], m⟩] ++ [])))), as1, ?_, q m h,
        fun a ha => l.quiet a (List.mem_cons_of_mem _ ha), by omega, fun _ => hp, ?_⟩
      · unfold prepare
        rw [if_neg hz]
        refine bind_run (load_run o1 m _) ?_
        rw [e1]
        refine bind_run (load_run o2 m _) (bind_run (load_run o3 m _)
          (bind_run (load_run (L.ok _ mem_status) m _) ?_))
        rw [e2, e3, h.status, small_toInt hst]
        have : ((2 : Int) ≤ (σ.status.toNat : Int)) = (2 ≤ σ.status.toNat) := by
          apply propext
          omega
        simp only [this]
        exact bind_run (callF_run Wd _ _ _ _ _) rfl
      · rw [if_neg hz]
        exact .cons (h.seen _ _) .nil
  obtain ⟨p, m1, t1, as1, r1, h1, q1, c1, hp, s1⟩ := key
  cases as1 with
  | nil => simp at c1; omega
  | cons a as1 =>
    have q := q1 a List.mem_cons_self
    have h2 := q m1 h1
    obtain ⟨m3, t3, r3, h3, s3⟩ := params_run g.params ps as1 rest _ hl
      (fun a ha => q1 a (List.mem_cons_of_mem _ ha)) (by simp at c1; omega) h2
    refine ⟨m3, t1 ++ (([⟨g.endContext, [.int g.sh, .int C.ctx], m1⟩] ++ []) ++ (t3 ++ [])), ?_, ?_⟩
    · refine bind_run r1 (bind_run (a := ()) (m₁ := after Wd m1 a) (as₁ := as1 ++ rest) ?_
        (bind_run r3 (return_run S L D h3 memret p hp rest)))
      unfold endContext
      exact bind_run (callF_run Wd _ _ _ _ _) rfl
    · unfold endCalls
      rw [List.append_nil, List.append_assoc]
      have s2 : AreSeen V g [⟨g.endContext, [.int g.sh, .int C.ctx], m1⟩]
          [⟨g.endContext, [.int g.sh, .int C.ctx], σ⟩] := .cons (h1.seen _ _) .nil
      rw [List.append_nil]
      exact s1.append (s2.append s3)

/-! ## The whole -/

theorem loop_state {σ σ' : St} {hs : List Hook} {as : List Ans} (l : LoopAns Wd V g C H σ hs as σ') :
    σ' = passed g σ hs := by
  induction l with
  | done => rfl
  | hook _ _ _ _ _ _ _ _ ih => exact ih
  | over _ _ _ _ _ _ _ _ _ _ _ _ ih => exact ih

theorem callHooks_run (S : Simple g) (L : Laid Wd V g C H) (D : Intent) (ps : List Arg) (rest : List Ans)
    {σ σ' : St} {hs : List Hook} {as : List Ans} (l : LoopAns Wd V g C H σ hs as σ')
    (hst : σ.status.toNat ≤ 3) {m : Memory} {n : Nat} (h : Holds V g C H m σ) (hn : hs.length < n) :
    σ'.status.toNat ≤ 3 ∧
    ∃ m' t, callHooks Wd V g D n C.ctx ps m (as ++ rest) = some ((), m', rest, t) ∧
      Holds V g C H m' σ' ∧ AreSeen V g t (loopCalls g C ps σ hs) := by
  obtain ⟨hst', m', t, r, h', s⟩ := loop_run S L D ps rest l hst (h.prev L 0) hn
  refine ⟨hst', m', [] ++ t, ?_, h', s⟩
  unfold callHooks
  exact bind_run (save_run (L.ok _ mem_prev) _ _ _) r

theorem orig_status (σ : St) (o : Option W) : (σ.orig g o).status = σ.status := by cases o <;> rfl

theorem whole_run (S : Simple g) (L : Laid Wd V g C H) (D : Intent) {m : Memory} {this : W} (memret : W)
    {ps : List Arg} (hl : ps.length = g.params.length) {pre post : List Hook} {as₂ ans : List Ans}
    {o : Option W} (T : Told Wd V g this) (P : Plays Wd V g C H m pre post as₂ ans o) {n : Nat}
    (hn : pre.length < n) (hn' : post.length < n) (rest : List Ans) :
    ∃ m' t, hookFunction Wd V g D n this memret ps m (ans ++ rest)
        = some (result g (if 2 ≤ (last V g m pre post o).status.toNat then (last V g m pre post o).ov
            else (last V g m pre post o).or), m', rest, t) ∧
      AreSeen V g t (wanted V g C m this ps pre post o) := by
  obtain ⟨a, as₁, as₃, as₄, rfl, pa, l1, lo, l2, le⟩ := P
  have Q := L.pairs
  have r1 : construct Wd V g m (a :: (as₁ ++ (as₂ ++ (as₃ ++ as₄))) ++ rest)
      = some ((), m, a :: (as₁ ++ (as₂ ++ (as₃ ++ as₄))) ++ rest, []) := by
    unfold construct
    rw [if_neg S.ctor]
    rfl
  have r2 : start Wd V m (a :: (as₁ ++ (as₂ ++ (as₃ ++ as₄))) ++ rest)
      = some ((), wr (wr (wr m V.status 0) V.cur 0) V.prev 0,
        a :: (as₁ ++ (as₂ ++ (as₃ ++ as₄))) ++ rest, []) := by
    unfold start
    exact bind_run (t := []) (save_run (L.ok _ mem_status) _ _ _)
      (bind_run (t := []) (save_run (L.ok _ mem_cur) _ _ _) (save_run (L.ok _ mem_prev) _ _ _))
  have far : ∀ x, Apart V.status x → Apart V.cur x → Apart V.prev x →
      rd (wr (wr (wr m V.status 0) V.cur 0) V.prev 0) x = rd m x := by
    intro x h1 h2 h3
    rw [rd_wr_apart _ _ _ _ h3, rd_wr_apart _ _ _ _ h2, rd_wr_apart _ _ _ _ h1]
  have s0 : rd (wr (wr (wr m V.status 0) V.cur 0) V.prev 0) V.status = 0 := by
    rw [rd_wr_apart _ _ _ _ Q.ps, rd_wr_apart _ _ _ _ Q.cs, rd_wr_same]
  have v0 : g.ret.size ≠ 0 →
      rd (wr (wr (wr m V.status 0) V.cur 0) V.prev 0) V.override = rd m V.override := by
    intro hz
    rw [rd_wr_apart _ _ _ _ (Q.pv hz), rd_wr_apart _ _ _ _ (Q.cv hz), rd_wr_apart _ _ _ _ (Q.sv hz)]
  have u0 : g.ret.size ≠ 0 →
      rd (wr (wr (wr m V.status 0) V.cur 0) V.prev 0) V.orig = rd m V.orig := by
    intro hz
    rw [rd_wr_apart _ _ _ _ (Q.po hz), rd_wr_apart _ _ _ _ (Q.co hz), rd_wr_apart _ _ _ _ (Q.so hz)]
  have hhi := far g.pHI (T.hiApart _ (by simp)) (T.hiApart _ (by simp)) (T.hiApart _ (by simp))
  have hvt := far (this + BitVec.ofInt 64 g.vtblOffs) (T.vtApart _ (by simp)) (T.vtApart _ (by simp))
    (T.vtApart _ (by simp))
  generalize wr (wr (wr m V.status 0) V.cur 0) V.prev 0 = m₁ at r2 far s0 v0 u0 hhi hvt
  have h0 := pa.holds m₁ s0 far
  have r3 : setup Wd V g this m₁ (a :: (as₁ ++ (as₂ ++ (as₃ ++ as₄))) ++ rest)
      = some (C.ctx, after Wd m₁ a, as₁ ++ (as₂ ++ (as₃ ++ as₄)) ++ rest,
        [⟨(setupCall V g m this).target, (setupCall V g m this).args, m₁⟩]) := by
    unfold setup
    refine bind_run (t := []) (load_run T.hi m₁ _) (bind_run (t := []) (load_run T.vt m₁ _) ?_)
    rw [hhi, hvt, ← pa.ctx]
    exact bind_run (u := []) (callF_run Wd _ _ _ _ _) rfl
  have w0 : AreSeen V g [⟨(setupCall V g m this).target, (setupCall V g m this).args, m₁⟩]
      [setupCall V g m this] := .cons ⟨rfl, rfl, s0, v0, u0⟩ .nil
  have st0 : (first V m).status.toNat ≤ 3 := by simp [first]
  simp only [List.append_assoc] at r3
  obtain ⟨st1, m₂, t₂, r4, h4, w4⟩ := callHooks_run S L D ps (as₂ ++ (as₃ ++ (as₄ ++ rest))) l1 st0 h0 hn
  obtain ⟨m₃, t₃, r5, h5, w5⟩ := orig_run S L this ps (as₃ ++ (as₄ ++ rest)) lo h4
  have st2 : ((passed g (first V m) pre).orig g o).status.toNat ≤ 3 := by rw [orig_status]; exact st1
  obtain ⟨st3, m₄, t₄, r6, h6, w6⟩ := callHooks_run S L D ps (as₄ ++ rest) l2 st2 h5 hn'
  obtain ⟨m₅, t₅, r7, w7⟩ := end_run S L D memret ps hl st3 le rest h6
  refine ⟨m₅, [] ++ ([] ++ ([⟨(setupCall V g m this).target, (setupCall V g m this).args, m₁⟩] ++
    (t₂ ++ (t₃ ++ (t₄ ++ t₅))))), ?_, ?_⟩
  · unfold hookFunction
    exact bind_run r1 (bind_run r2 (bind_run r3 (bind_run r4 (bind_run r5 (bind_run r6 r7)))))
  · exact w0.append (w4.append (w5.append (w6.append w7)))

end Verif.Jit.Rule
