import Verif.Jit.PlainSpec
import Verif.Jit.RuleRun
/-
Helper lemmas for C93: the parts of the hook function, run with answers that keep their promises, for an
object without special functions returned in memory.
-/
namespace Verif.Jit.Plain

open Rule

/-! ## Memory -/

theorem bytes_congr {m m' : Memory} {a b : W} {n : Nat}
    (h : ∀ i : Nat, i < n → m (a + BitVec.ofNat 64 i) = m' (b + BitVec.ofNat 64 i)) :
    bytesAt m a n = bytesAt m' b n := by
  unfold bytesAt
  refine List.map_congr_left fun i hi => h i (List.mem_range.1 hi)

theorem bytes_wr {m : Memory} {a x v : W} {n : Nat} (h : Away a n x 8) :
    bytesAt (wr m x v) a n = bytesAt m a n :=
  bytes_congr fun i hi => wr_other fun j hj => h i j hi hj

theorem bytes_copy_same {m : Memory} {dst src : W} {n : Nat} (hn : n < 2 ^ 64) (h : Away dst n src n) :
    bytesAt (copy m dst src n) dst n = bytesAt m src n :=
  bytes_congr fun i hi => copy_at n m dst src hn h i hi

theorem bytes_copy_else {m : Memory} {dst src b : W} {n : Nat} (h : Away dst n b n) :
    bytesAt (copy m dst src n) b n = bytesAt m b n :=
  bytes_congr fun i hi => copy_else _ _ _ _ _ fun j hj e => h j i hj hi e.symm

theorem rd_copy_else {m : Memory} {dst src b : W} {n : Nat} (h : Away dst n b 8) :
    rd (copy m dst src n) b = rd m b :=
  rd_congr fun i hi => copy_else _ _ _ _ _ fun j hj e => h j i hj hi e.symm

/-! ## The state -/

variable {Wd : World} {V : Vars} {g : Gen} {C : Context} {H : List Hook} {N : W → List Byte} {memret : W}

theorem AreSeen.append {c c' : List SCall} {e e' : List Seen} (h : AreSeen V g c e)
    (h' : AreSeen V g c' e') : AreSeen V g (c ++ c') (e ++ e') := by
  induction h with
  | nil => exact h'
  | cons a _ ih => exact .cons a ih

theorem Holds.seen {m : Memory} {σ : St} (h : Holds V g C H m σ) (f : W) (args : List Arg) :
    IsSeen V g ⟨f, args, m⟩ ⟨f, args, σ⟩ := ⟨rfl, rfl, h.status, h.ov, h.or⟩

theorem Holds.at {m : Memory} {σ : St} (h : Holds V g C H m σ) {x v : W}
    (hc : (x, v) ∈ cells V g C H) : rd m x = v := h.cell (x, v) hc

/-- A write to `cur_res` or `prev_res`. -/
theorem Holds.wr {m : Memory} {σ : St} (L : Laid Wd V g C H) (R : Room Wd V g C H memret)
    (h : Holds V g C H m σ) {x v : W} (hx : x = V.cur ∨ x = V.prev) : Holds V g C H (wr m x v) σ := by
  have P := L.pairs
  have hm : x ∈ written V g := by rcases hx with rfl | rfl <;> simp [written]
  have hs : x ∈ [V.status, V.cur, V.prev] := by rcases hx with rfl | rfl <;> simp
  refine ⟨?_, ?_, ?_, ?_⟩
  · intro c hc
    rw [rd_wr_apart _ _ _ _ (L.cellApart c hc x hm), h.cell c hc]
  · have hp : Apart x V.status := by
      rcases hx with rfl | rfl
      · exact P.cs
      · exact P.ps
    rw [rd_wr_apart _ _ _ _ hp, h.status]
  · exact (bytes_wr (R.small _ (by simp) x hs)).trans h.ov
  · exact (bytes_wr (R.small _ (by simp) x hs)).trans h.or

/-- A call of the context. -/
theorem ctx_run {m : Memory} {σ : St} (L : Laid Wd V g C H) (h : Holds V g C H m σ) {idx : Nat} {f : W}
    (hc : (C.vt + BitVec.ofNat 64 (8 * idx), f) ∈ cells V g C H) {a : Ans}
    (q : Quiet Wd V g C H a σ) (as : List Ans) :
    ∃ m' t, virt Wd C.ctx idx [] m (a :: as) = some (a, m', as, t) ∧ Holds V g C H m' σ ∧
      AreSeen V g t [⟨f, [.int C.ctx], σ⟩] :=
  ⟨_, _, virt_run (L.at cell_ctx) (h.at cell_ctx) (L.at hc) (h.at hc) [] a as, q m h,
    .cons (h.seen _ _) .nil⟩

theorem not_temp (S : IsPlain g) : withTemp g.ret = false := by
  have h := S.temp
  unfold withTemp
  have e : g.ret.has (flagODtor ||| flagAssignOp) = (g.ret.has flagODtor || g.ret.has flagAssignOp) := by
    unfold Pass.has
    rw [BitVec.and_or_distrib_left]
    generalize g.ret.flags &&& flagODtor = x
    generalize g.ret.flags &&& flagAssignOp = y
    by_cases hx : x = 0
    · subst hx
      simp
    · have : ¬ (x ||| y) = 0 := fun h => hx (by
        have h1 := congrArg (fun z => z &&& x) h
        have h2 : (x ||| y) &&& x = x := by
          ext i hi
          simp only [BitVec.getElem_and, BitVec.getElem_or]
          cases x[i] <;> simp
        simpa [h2] using h1)
      rw [show (x ||| y != 0) = true from bne_iff_ne.2 this, show (x != 0) = true from bne_iff_ne.2 hx]
      rfl
  rw [e, h.1, h.2]
  simp

theorem place_plain (S : IsPlain g) (v : W) (ps : List Arg) :
    withPlace g (place V g v) ps = .int v :: ps := by
  unfold withPlace hiddenPtr place
  rw [not_temp S, S.mem]
  have := S.size
  simp [this]

theorem keep_run (S : IsPlain g) (a : Ans) (v : W) (m : Memory) (as : List Ans) :
    keepResult Wd V g a v m as = some ((), m, as, []) := by
  unfold keepResult
  rw [if_neg S.size, S.notRef, if_neg (by simp), if_neg (by rw [S.kind]; decide),
    if_neg (by rw [S.kind]; decide), S.mem, not_temp S]
  rfl

theorem move_run (S : IsPlain g) {dst src : W} (hd : okRange Wd.vis dst g.ret.size = true)
    (hs : okRange Wd.vis src g.ret.size = true) (m : Memory) (as : List Ans) :
    move Wd g dst src m as = some ((), copy m dst src g.ret.size, as, []) := by
  unfold move
  rw [if_neg (by rw [S.assign]; simp)]
  unfold memcpy
  rw [hd, hs]
  rfl

theorem whenPrev_run (L : Laid Wd V g C H) (R : Room Wd V g C H memret) (c : Bool) {m : Memory} {σ : St}
    (h : Holds V g C H m σ) (as : List Ans) : ∃ m', when' c (setPrev Wd V) m as = some ((), m', as, []) ∧
      Holds V g C H m' σ ∧ rd m' V.cur = rd m V.cur ∧ obj g m' V.plugin = obj g m V.plugin := by
  cases c with
  | false => exact ⟨m, rfl, h, rfl, rfl⟩
  | true =>
    refine ⟨_, setPrev_run L m as, h.wr L R (.inr rfl), ?_, ?_⟩
    · exact rd_wr_apart _ _ _ _ L.pairs.pc
    · exact bytes_wr (R.small _ (by simp) _ (by simp))

theorem hookOne_run (S : IsPlain g) (L : Laid Wd V g C H) (R : Room Wd V g C H memret) (D : Intent)
    {m : Memory} {σ : St} (h : Holds V g C H m σ) {k : Hook} (hk : k ∈ H) {b : Ans}
    (d : HookDone Wd V g C H N b k σ) (ps : List Arg) (as : List Ans) :
    ∃ m' t, hookOne Wd V g D k.obj ps m (b :: as) = some ((), m', as, t) ∧ Holds V g C H m' σ ∧
      rd m' V.cur = k.res ∧ obj g m' V.plugin = N k.val ∧
      AreSeen V g t [⟨k.fn, .int k.obj :: .int V.plugin :: ps, σ⟩] := by
  have h1 : Holds V g C H (Jit.wr m V.cur 0) σ := h.wr L R (.inl rfl)
  obtain ⟨m2, r2, h2, -, -⟩ := whenPrev_run L R (!D.prevLate) h1 (b :: as)
  have r3 := virt_run (L.at (cell_obj hk)) (h2.at (cell_obj hk)) (L.at (cell_fn hk)) (h2.at (cell_fn hk))
    (.int V.plugin :: ps) b as
  obtain ⟨m5, r5, h5, c5, v5⟩ := whenPrev_run L R D.prevLate (d.quiet m2 h2) as
  refine ⟨m5, [] ++ ([] ++ ([⟨k.fn, .int k.obj :: .int V.plugin :: ps, m2⟩] ++ ([] ++ []))), ?_, h5,
    c5.trans (d.cur m2 h2), v5.trans (d.val m2 h2), ?_⟩
  · unfold hookOne
    refine bind_run (t := []) (save_run (L.ok _ mem_cur) _ _ _) (bind_run (t := []) r2
      (bind_run (a := b) (m₁ := Rule.after Wd m2 b) (as₁ := as) ?_
        (bind_run (t := []) (keep_run S _ _ _ _) r5)))
    rw [place_plain S]
    exact r3
  · exact .cons (h2.seen _ _) .nil

theorem raise_run (L : Laid Wd V g C H) (R : Room Wd V g C H memret) {m : Memory} {σ : St}
    (h : Holds V g C H m σ) {r : W} (hc : rd m V.cur = r) (hs : σ.status.toNat ≤ 3) (hr : r.toNat ≤ 3)
    (as : List Ans) :
    ∃ m', raise Wd V m as = some (r, m', as, []) ∧
      Holds V g C H m' { σ with status := raised σ.status r } ∧
      obj g m' V.plugin = obj g m V.plugin := by
  refine ⟨Jit.wr m V.status (raised σ.status r), ?_, ⟨?_, ?_, ?_, ?_⟩, ?_⟩
  · unfold raise
    have e : raised σ.status r = if (rd m V.status).toInt < (rd m V.cur).toInt then rd m V.cur
        else rd m V.status := by
      rw [h.status, hc, small_toInt hs, small_toInt hr]
      unfold raised
      simp only [Int.ofNat_lt]
    rw [e]
    have := bind_run (f := fun c => do
      let st ← load Wd V.status
      save Wd V.status (if st.toInt < c.toInt then c else st)
      pure c) (t := []) (load_run (L.ok _ mem_cur) m as)
      (bind_run (t := []) (load_run (L.ok _ mem_status) m as)
        (bind_run (t := []) (save_run (L.ok _ mem_status) _ m as) (pure_run _ _ _)))
    rw [this, hc]
    rfl
  · intro c hcc
    rw [rd_wr_apart _ _ _ _ (L.cellApart c hcc _ mem_status), h.cell c hcc]
  · exact rd_wr_same _ _ _
  · exact (bytes_wr (R.small _ (by simp) _ (by simp))).trans h.ov
  · exact (bytes_wr (R.small _ (by simp) _ (by simp))).trans h.or
  · exact bytes_wr (R.small _ (by simp) _ (by simp))

theorem small_size (ok : GenOk g) : g.ret.size < 2 ^ 64 := by
  have := ok.big
  omega

/-- The value of a hook becomes the override value. -/
theorem setOverride_run (G : GenOk g) (S : IsPlain g) (R : Room Wd V g C H memret) {m : Memory} {σ : St}
    (h : Holds V g C H m σ) (as : List Ans) :
    ∃ m', setOverride Wd V g V.override m as = some ((), m', as, []) ∧
      Holds V g C H m' { σ with ov := obj g m V.plugin } := by
  refine ⟨copy m V.override V.plugin g.ret.size, ?_, ⟨?_, ?_, ?_, ?_⟩⟩
  · unfold setOverride
    rw [S.notRef]
    exact move_run S (R.ok _ (by simp)) (R.ok _ (by simp)) m as
  · intro c hc
    rw [rd_copy_else (R.cell _ (by simp) c hc), h.cell c hc]
  · rw [rd_copy_else (R.small _ (by simp) _ (by simp)), h.status]
  · exact bytes_copy_same (small_size G) R.ovpl
  · exact (bytes_copy_else R.ovor).trans h.or

theorem origElse_run (G : GenOk g) (S : IsPlain g) (R : Room Wd V g C H memret) {m : Memory} {σ : St}
    (h : Holds V g C H m σ) (as : List Ans) :
    ∃ m', origElse Wd V g m as = some ((), m', as, []) ∧ Holds V g C H m' { σ with or := σ.ov } := by
  refine ⟨copy m V.orig V.override g.ret.size, ?_, ⟨?_, ?_, ?_, ?_⟩⟩
  · unfold origElse
    rw [if_neg S.size, S.notRef]
    exact move_run S (R.ok _ (by simp)) (R.ok _ (by simp)) m as
  · intro c hc
    rw [rd_copy_else (R.cell _ (by simp) c hc), h.cell c hc]
  · rw [rd_copy_else (R.small _ (by simp) _ (by simp)), h.status]
  · exact (bytes_copy_else R.orov).trans h.ov
  · exact (bytes_copy_same (small_size G) R.orov).trans h.ov

/-! ## The passes -/

theorem loop_run (G : GenOk g) (S : IsPlain g) (L : Laid Wd V g C H) (R : Room Wd V g C H memret)
    (D : Intent) (ps : List Arg) (rest : List Ans) :
    ∀ {σ σ' : St} {hs : List Hook} {as : List Ans}, LoopAns Wd V g C H N σ hs as σ' →
    σ.status.toNat ≤ 3 → ∀ {m : Memory} {n : Nat}, Holds V g C H m σ → hs.length < n →
    σ'.status.toNat ≤ 3 ∧
    ∃ m' t, hooks Wd V g D C.ctx ps n m (as ++ rest) = some ((), m', rest, t) ∧
      Holds V g C H m' σ' ∧ AreSeen V g t (loopCalls V C N ps σ hs) := by
  intro σ σ' hs as l
  have hz := S.size
  induction l with
  | @done σ a q ha =>
    intro hst m n h hn
    refine ⟨hst, ?_⟩
    obtain ⟨n, rfl⟩ : ∃ k, n = k + 1 := ⟨n - 1, by simp at hn; omega⟩
    obtain ⟨m1, t1, r1, h1, s1⟩ := ctx_run L h cell_next q rest
    refine ⟨m1, t1 ++ [], ?_, h1, ?_⟩
    · rw [hooks]
      refine bind_run r1 ?_
      rw [if_pos ha]
      rfl
    · rw [List.append_nil]
      exact s1
  | @hook σ σ' k hs a b as hk ho hr q ha d hno l ih =>
    intro hst m n h hn
    obtain ⟨n, rfl⟩ : ∃ k, n = k + 1 := ⟨n - 1, by simp at hn; omega⟩
    obtain ⟨m1, t1, r1, h1, s1⟩ := ctx_run L h cell_next q (b :: as ++ rest)
    obtain ⟨m2, t2, r2, h2, c2, v2, s2⟩ := hookOne_run S L R D h1 hk d ps (as ++ rest)
    obtain ⟨m3, r3, h3, v3⟩ := raise_run L R h2 c2 hst hr (as ++ rest)
    have h3' : Holds V g C H m3 (σ.hook N k) := by
      refine ⟨h3.cell, h3.status, ?_, h3.or⟩
      rw [h3.ov]
      simp only [St.hook, if_neg (show ¬ 2 ≤ k.res.toNat by omega)]
    obtain ⟨hst', m4, t4, r4, h4, s4⟩ := ih (raised_le hst hr) h3' (by simp at hn; omega)
    refine ⟨hst', m4, t1 ++ (t2 ++ ([] ++ ([] ++ t4))), ?_, h4, ?_⟩
    · rw [hooks]
      refine bind_run r1 ?_
      rw [if_neg (by rw [ha]; exact ho), ha]
      refine bind_run r2 (bind_run r3 (bind_run (a := ()) (m₁ := m3) (as₁ := as ++ rest) ?_ r4))
      unfold override
      rw [if_pos (by rw [small_toInt hr]; omega)]
      rfl
    · have e : loopCalls V C N ps σ (k :: hs) = [⟨C.next, [.int C.ctx], σ⟩] ++
          ([⟨k.fn, .int k.obj :: .int V.plugin :: ps, σ⟩] ++ loopCalls V C N ps (σ.hook N k) hs) := by
        rw [loopCalls, if_neg (by omega)]
        rfl
      rw [e]
      exact s1.append (s2.append s4)
  | @over σ σ' k hs a b c as hk ho hr q ha d hge qc sp hc l ih =>
    intro hst m n h hn
    obtain ⟨n, rfl⟩ : ∃ k, n = k + 1 := ⟨n - 1, by simp at hn; omega⟩
    obtain ⟨m1, t1, r1, h1, s1⟩ := ctx_run L h cell_next q (b :: c :: as ++ rest)
    obtain ⟨m2, t2, r2, h2, c2, v2, s2⟩ := hookOne_run S L R D h1 hk d ps (c :: as ++ rest)
    obtain ⟨m3, r3, h3, v3⟩ := raise_run L R h2 c2 hst hr (c :: as ++ rest)
    have r4 := virt_run (L.at cell_ctx) (h3.at cell_ctx) (L.at (cell_over hz)) (h3.at (cell_over hz)) [] c
      (as ++ rest)
    have h4 := qc m3 h3
    have v4 : obj g (Rule.after Wd m3 c) V.plugin = N k.val := sp m3 (v3.trans v2)
    obtain ⟨m5, r5, h5⟩ := setOverride_run G S R h4 (as ++ rest)
    have h5' : Holds V g C H m5 (σ.hook N k) := by
      refine ⟨h5.cell, h5.status, ?_, h5.or⟩
      rw [h5.ov, v4]
      simp only [St.hook, if_pos hge]
    obtain ⟨hst', m6, t6, r6, h6, s6⟩ := ih (raised_le hst hr) h5' (by simp at hn; omega)
    refine ⟨hst', m6, t1 ++ (t2 ++ ([] ++ (([⟨C.over, [.int C.ctx], m3⟩] ++ []) ++ t6))), ?_, h6, ?_⟩
    · rw [hooks]
      refine bind_run r1 ?_
      rw [if_neg (by rw [ha]; exact ho), ha]
      refine bind_run r2 (bind_run r3 (bind_run (a := ()) (m₁ := m5) (as₁ := as ++ rest) ?_ r6))
      unfold override
      rw [if_neg (by rw [small_toInt hr]; omega)]
      refine bind_run r4 ?_
      rw [hc]
      exact r5
    · have e : loopCalls V C N ps σ (k :: hs) = [⟨C.next, [.int C.ctx], σ⟩] ++
          ([⟨k.fn, .int k.obj :: .int V.plugin :: ps, σ⟩] ++ ([⟨C.over, [.int C.ctx],
            { σ with status := raised σ.status k.res }⟩] ++ loopCalls V C N ps (σ.hook N k) hs)) := by
        rw [loopCalls, if_pos hge]
        rfl
      have s3 : AreSeen V g [⟨C.over, [.int C.ctx], m3⟩] [⟨C.over, [.int C.ctx],
          { σ with status := raised σ.status k.res }⟩] := .cons (h3.seen _ _) .nil
      rw [e, List.append_nil]
      exact s1.append (s2.append (s3.append s6))

theorem orig_run (G : GenOk g) (S : IsPlain g) (L : Laid Wd V g C H) (R : Room Wd V g C H memret)
    (this : W) (ps : List Arg) (rest : List Ans) {σ σ' : St} {as : List Ans} {o : Option W}
    (l : OrigAns Wd V g C H N σ as o σ') {m : Memory} (h : Holds V g C H m σ) :
    ∃ m' t, callOrig Wd V g C.ctx this ps m (as ++ rest) = some ((), m', rest, t) ∧
      Holds V g C H m' σ' ∧ AreSeen V g t (origCalls V C this ps σ o) := by
  have st := load_run (L.ok _ mem_status) m
  cases l with
  | superceded h3 =>
    obtain ⟨m', r, h'⟩ := origElse_run G S R h rest
    refine ⟨m', [] ++ [], ?_, h', ?_⟩
    · unfold callOrig
      refine bind_run (st _) ?_
      rw [h.status, if_pos h3]
      exact r
    · simp only [origCalls, if_pos h3]
      exact .nil
  | @refused a h3 q ha =>
    obtain ⟨m1, t1, r1, h1, s1⟩ := ctx_run L h cell_should q rest
    obtain ⟨m', r, h'⟩ := origElse_run G S R h1 rest
    refine ⟨m', [] ++ (t1 ++ []), ?_, h', ?_⟩
    · unfold callOrig
      refine bind_run (st _) ?_
      rw [h.status, if_neg h3]
      refine bind_run r1 ?_
      rw [if_pos ha]
      exact r
    · simp only [origCalls, if_neg h3, Option.isSome_none, Bool.false_eq_true, if_false,
        List.append_nil, List.nil_append]
      exact s1
  | @called a b v h3 q ha q' =>
    obtain ⟨m1, t1, r1, h1, s1⟩ := ctx_run L h cell_should q (b :: rest)
    have e1 : rd m1 V.entry = C.entry := h1.at cell_entry
    refine ⟨_, [] ++ (t1 ++ ([] ++ ([⟨C.entry, .int this :: .int V.orig :: ps, m1⟩] ++ []))), ?_, q' m1 h1, ?_⟩
    · unfold callOrig
      refine bind_run (st _) ?_
      rw [h.status, if_neg h3]
      refine bind_run r1 ?_
      rw [if_neg ha]
      unfold callOriginal
      refine bind_run (load_run (L.at cell_entry) m1 _) ?_
      rw [e1, place_plain S]
      exact bind_run (callF_run Wd _ _ _ _ _) (keep_run S _ _ _ _)
    · simp only [origCalls, if_neg h3, Option.isSome_some, if_true]
      exact s1.append (.cons (h1.seen _ _) .nil)

/-! ## The end -/

theorem params_run {σ : St} : ∀ (l : List Pass) (ps : List Arg) (as rest : List Ans) (m : Memory),
    ps.length = l.length → (∀ a ∈ as, Quiet Wd V g C H a σ) →
    as.length = (l.filter Pass.destroyed).length → Holds V g C H m σ →
    ∃ m' t, destroyParams Wd l ps m (as ++ rest) = some ((), m', rest, t) ∧
      Holds V g C H m' σ ∧ AreSeen V g t (dtorCalls σ l ps) := by
  intro l
  induction l with
  | nil =>
    intro ps as rest m hl hq hc h
    cases as with
    | nil => exact ⟨m, [], rfl, h, .nil⟩
    | cons => simp at hc
  | cons p l ih =>
    intro ps as rest m hl hq hc h
    cases ps with
    | nil => simp at hl
    | cons x ps =>
      simp only [List.length_cons, Nat.add_right_cancel_iff] at hl
      by_cases hp : p.destroyed = true
      · rw [List.filter_cons_of_pos hp] at hc
        cases as with
        | nil => simp at hc
        | cons a as =>
          simp only [List.length_cons, Nat.add_right_cancel_iff] at hc
          have h1 := hq a List.mem_cons_self m h
          obtain ⟨m', t, r, h', s⟩ := ih ps as rest _ hl (fun b hb => hq b (List.mem_cons_of_mem _ hb)) hc h1
          refine ⟨m', [⟨p.dtor, [x], m⟩] ++ t, ?_, h', ?_⟩
          · rw [destroyParams, if_pos hp]
            exact bind_run (callF_run Wd _ _ _ _ _) r
          · rw [dtorCalls, if_pos hp]
            exact AreSeen.append (.cons (h.seen _ _) .nil) s
      · rw [List.filter_cons_of_neg hp] at hc
        obtain ⟨m', t, r, h', s⟩ := ih ps as rest m hl hq hc h
        refine ⟨m', t, ?_, h', ?_⟩
        · rw [destroyParams, if_neg hp]
          exact r
        · rw [dtorCalls, if_neg hp]
          exact s

theorem return_run (G : GenOk g) (S : IsPlain g) (R : Room Wd V g C H memret) (D : Intent) {m : Memory}
    {σ : St} (h : Holds V g C H m σ) {p : W}
    (hp : p = if 2 ≤ σ.status.toNat then V.override else V.orig) (rest : List Ans) :
    ∃ m', (doReturn Wd g memret p >>= destroyRet Wd V g D) m rest
        = some (⟨some memret, none⟩, m', rest, []) ∧
      obj g m' memret = if 2 ≤ σ.status.toNat then σ.ov else σ.or := by
  have okp : okRange Wd.vis p g.ret.size = true := by
    rw [hp]
    split <;> exact R.ok _ (by simp)
  have aw : Away memret g.ret.size p g.ret.size := by
    rw [hp]
    split
    · exact R.mrov
    · exact R.mror
  refine ⟨copy m memret p g.ret.size, ?_, ?_⟩
  · refine bind_run (t := []) (a := ⟨some memret, none⟩) (m₁ := copy m memret p g.ret.size) (as₁ := rest) ?_ ?_
    · unfold doReturn
      rw [if_neg S.size, S.notRef, if_neg (by simp)]
      refine bind_run (t := []) (a := 0) (m₁ := m) (as₁ := rest) ?_ ?_
      · unfold retValue
        rw [if_neg]
        · rfl
        · rw [S.kind, S.reg]
          decide
      · rw [S.mem, if_pos rfl]
        refine bind_run (t := []) (a := ()) (m₁ := copy m memret p g.ret.size) (as₁ := rest) ?_ rfl
        unfold returnMem
        rw [if_neg (by rw [S.cctor]; simp)]
        unfold memcpy
        rw [okp, R.ok _ (by simp)]
        rfl
    · unfold destroyRet
      rw [if_neg (by rw [S.dtor]; simp)]
      rfl
  · refine (bytes_copy_same (small_size G) aw).trans ?_
    rw [hp]
    split
    · exact h.ov
    · exact h.or

theorem end_run (G : GenOk g) (S : IsPlain g) (L : Laid Wd V g C H) (R : Room Wd V g C H memret)
    (D : Intent) (ps : List Arg) (hl : ps.length = g.params.length) {σ : St}
    (hst : σ.status.toNat ≤ 3) {as : List Ans} (l : EndAns Wd V g C H σ as) (rest : List Ans) {m : Memory}
    (h : Holds V g C H m σ) :
    ∃ m' t, (do
        let p ← prepare Wd V g C.ctx
        endContext Wd g C.ctx
        destroyParams Wd g.params ps
        let r ← doReturn Wd g memret p
        destroyRet Wd V g D r : M Ret) m (as ++ rest)
      = some (⟨some memret, none⟩, m', rest, t) ∧
      obj g m' memret = (if 2 ≤ σ.status.toNat then σ.ov else σ.or) ∧
      AreSeen V g t (endCalls g C ps σ) := by
  have hz := S.size
  obtain ⟨p, as1, rfl, hp⟩ := l.ptr
  have c1 := l.count
  simp only [List.length_cons] at c1
  have h1 := l.quiet p List.mem_cons_self m h
  have r1 : prepare Wd V g C.ctx m (p :: as1 ++ rest) = some (p.reg 0, Rule.after Wd m p, as1 ++ rest,
      [] ++ ([] ++ ([] ++ ([] ++
        ([⟨if 2 ≤ σ.status.toNat then C.over else C.orig, [.int C.ctx], m⟩] ++ []))))) := by
    unfold prepare
    rw [if_neg hz]
    refine bind_run (load_run (L.at cell_ctx) m _) ?_
    rw [h.at cell_ctx]
    refine bind_run (load_run (L.at (cell_orig hz)) m _) (bind_run (load_run (L.at (cell_over hz)) m _)
      (bind_run (load_run (L.ok _ mem_status) m _) ?_))
    rw [h.at (cell_orig hz), h.at (cell_over hz), h.status, small_toInt hst]
    have : ((2 : Int) ≤ (σ.status.toNat : Int)) = (2 ≤ σ.status.toNat) := by
      apply propext
      omega
    simp only [this]
    exact bind_run (callF_run Wd _ _ _ _ _) rfl
  cases as1 with
  | nil => simp at c1; omega
  | cons a as1 =>
    have h2 := l.quiet a (by simp) _ h1
    obtain ⟨m3, t3, r3, h3, s3⟩ := params_run g.params ps as1 rest _ hl
      (fun a ha => l.quiet a (by simp [ha])) (by simp at c1; omega) h2
    obtain ⟨m4, r4, v4⟩ := return_run G S R D h3 hp rest
    refine ⟨m4, ([] ++ ([] ++ ([] ++ ([] ++
        ([⟨if 2 ≤ σ.status.toNat then C.over else C.orig, [.int C.ctx], m⟩] ++ [])))))
        ++ (([⟨g.endContext, [.int g.sh, .int C.ctx], Rule.after Wd m p⟩] ++ []) ++ (t3 ++ [])), ?_, v4, ?_⟩
    · refine bind_run r1 (bind_run (a := ()) (m₁ := Rule.after Wd (Rule.after Wd m p) a)
        (as₁ := as1 ++ rest) ?_ (bind_run r3 r4))
      unfold endContext
      exact bind_run (callF_run Wd _ _ _ _ _) rfl
    · rw [List.append_nil t3]
      exact .cons (h.seen _ _) (.cons (h1.seen _ _) s3)

/-! ## The whole -/

theorem callHooks_run (G : GenOk g) (S : IsPlain g) (L : Laid Wd V g C H) (R : Room Wd V g C H memret)
    (D : Intent) (ps : List Arg) (rest : List Ans) {σ σ' : St} {hs : List Hook} {as : List Ans}
    (l : LoopAns Wd V g C H N σ hs as σ') (hst : σ.status.toNat ≤ 3) {m : Memory} {n : Nat}
    (h : Holds V g C H m σ) (hn : hs.length < n) :
    σ'.status.toNat ≤ 3 ∧
    ∃ m' t, callHooks Wd V g D n C.ctx ps m (as ++ rest) = some ((), m', rest, t) ∧
      Holds V g C H m' σ' ∧ AreSeen V g t (loopCalls V C N ps σ hs) := by
  obtain ⟨hst', m', t, r, h', s⟩ := loop_run G S L R D ps rest l hst (h.wr L R (v := 0) (.inr rfl)) hn
  refine ⟨hst', m', [] ++ t, ?_, h', s⟩
  unfold callHooks
  exact bind_run (save_run (L.ok _ mem_prev) _ _ _) r

theorem orig_status (σ : St) (o : Option W) : (σ.orig N o).status = σ.status := by cases o <;> rfl

theorem other_far {x v : W} (h : 8 ≤ (x - v).toNat) {i : Nat} (hi : i < 8) : x ≠ v + BitVec.ofNat 64 i := by
  rintro rfl
  rw [add_sub_self, BitVec.toNat_ofNat] at h
  omega

theorem whole_run (G : GenOk g) (S : IsPlain g) (L : Laid Wd V g C H) (R : Room Wd V g C H memret)
    (D : Intent) {m : Memory} {this : W} {ps : List Arg} (hl : ps.length = g.params.length)
    {pre post : List Hook} {as₂ ans : List Ans} {o : Option W} (T : Told Wd V g this)
    (P : Plays Wd V g C H N m pre post as₂ ans o) {n : Nat} (hn : pre.length < n) (hn' : post.length < n)
    (rest : List Ans) :
    ∃ m' t, hookFunction Wd V g D n this memret ps m (ans ++ rest)
        = some (⟨some memret, none⟩, m', rest, t) ∧
      obj g m' memret = (if 2 ≤ (last V g N m pre post o).status.toNat then (last V g N m pre post o).ov
        else (last V g N m pre post o).or) ∧
      AreSeen V g t (wanted V g C N m this ps pre post o) := by
  obtain ⟨a, as₁, as₃, as₄, rfl, pa, l1, lo, l2, le⟩ := P
  have hz := S.size
  have Q := L.pairs
  have r1 : construct Wd V g m (a :: (as₁ ++ (as₂ ++ (as₃ ++ as₄))) ++ rest)
      = some ((), m, a :: (as₁ ++ (as₂ ++ (as₃ ++ as₄))) ++ rest, []) := by
    unfold construct
    rw [if_neg (by rw [S.ctor]; simp)]
    rfl
  have r2 : start Wd V m (a :: (as₁ ++ (as₂ ++ (as₃ ++ as₄))) ++ rest)
      = some ((), wr (wr (wr m V.status 0) V.cur 0) V.prev 0,
        a :: (as₁ ++ (as₂ ++ (as₃ ++ as₄))) ++ rest, []) := by
    unfold start
    exact bind_run (t := []) (save_run (L.ok _ mem_status) _ _ _)
      (bind_run (t := []) (save_run (L.ok _ mem_cur) _ _ _) (save_run (L.ok _ mem_prev) _ _ _))
  have far : ∀ x, Apart V.status x → Apart V.cur x → Apart V.prev x →
      rd (wr (wr (wr m V.status 0) V.cur 0) V.prev 0) x = rd m x := by
    intro x h1 h2 h3
    rw [rd_wr_apart _ _ _ _ h3, rd_wr_apart _ _ _ _ h2, rd_wr_apart _ _ _ _ h1]
  have far' : ∀ x, Other V x → (wr (wr (wr m V.status 0) V.cur 0) V.prev 0) x = m x := by
    intro x h
    rw [wr_other fun i hi => other_far (h V.prev (by simp)) hi,
      wr_other fun i hi => other_far (h V.cur (by simp)) hi,
      wr_other fun i hi => other_far (h V.status (by simp)) hi]
  have s0 : rd (wr (wr (wr m V.status 0) V.cur 0) V.prev 0) V.status = 0 := by
    rw [rd_wr_apart _ _ _ _ Q.ps, rd_wr_apart _ _ _ _ Q.cs, rd_wr_same]
  have v0 : ∀ x ∈ [V.orig, V.override, V.plugin],
      obj g (wr (wr (wr m V.status 0) V.cur 0) V.prev 0) x = obj g m x := by
    intro x hx
    rw [obj, bytes_wr (R.small x hx _ (by simp)), bytes_wr (R.small x hx _ (by simp)),
      bytes_wr (R.small x hx _ (by simp))]
  have hhi := far g.pHI (T.hiApart _ (by simp)) (T.hiApart _ (by simp)) (T.hiApart _ (by simp))
  have hvt := far (this + BitVec.ofInt 64 g.vtblOffs) (T.vtApart _ (by simp)) (T.vtApart _ (by simp))
    (T.vtApart _ (by simp))
  generalize wr (wr (wr m V.status 0) V.cur 0) V.prev 0 = m₁ at r2 far far' s0 v0 hhi hvt
  have h0 := pa.holds m₁ s0 far'
  have r3 : setup Wd V g this m₁ (a :: (as₁ ++ (as₂ ++ (as₃ ++ as₄))) ++ rest)
      = some (C.ctx, Rule.after Wd m₁ a, as₁ ++ (as₂ ++ (as₃ ++ as₄)) ++ rest,
        [⟨(setupCall V g m this).target, (setupCall V g m this).args, m₁⟩]) := by
    unfold setup
    refine bind_run (t := []) (load_run T.hi m₁ _) (bind_run (t := []) (load_run T.vt m₁ _) ?_)
    rw [hhi, hvt, ← pa.ctx, if_neg hz, if_neg hz]
    exact bind_run (u := []) (callF_run Wd _ _ _ _ _) rfl
  have w0 : AreSeen V g [⟨(setupCall V g m this).target, (setupCall V g m this).args, m₁⟩]
      [setupCall V g m this] := .cons ⟨rfl, rfl, s0, v0 _ (by simp), v0 _ (by simp)⟩ .nil
  have st0 : (first V g m).status.toNat ≤ 3 := by simp [first]
  simp only [List.append_assoc] at r3
  obtain ⟨st1, m₂, t₂, r4, h4, w4⟩ :=
    callHooks_run G S L R D ps (as₂ ++ (as₃ ++ (as₄ ++ rest))) l1 st0 h0 hn
  obtain ⟨m₃, t₃, r5, h5, w5⟩ := orig_run G S L R this ps (as₃ ++ (as₄ ++ rest)) lo h4
  have st2 : ((passed N (first V g m) pre).orig N o).status.toNat ≤ 3 := by rw [orig_status]; exact st1
  obtain ⟨st3, m₄, t₄, r6, h6, w6⟩ := callHooks_run G S L R D ps (as₄ ++ rest) l2 st2 h5 hn'
  obtain ⟨m₅, t₅, r7, v7, w7⟩ := end_run G S L R D ps hl st3 le rest h6
  refine ⟨m₅, [] ++ ([] ++ ([⟨(setupCall V g m this).target, (setupCall V g m this).args, m₁⟩] ++
    (t₂ ++ (t₃ ++ (t₄ ++ t₅))))), ?_, v7, ?_⟩
  · unfold hookFunction
    exact bind_run r1 (bind_run r2 (bind_run r3 (bind_run r4 (bind_run r5 (bind_run r6 r7)))))
  · exact w0.append (w4.append (w5.append (w6.append w7)))

end Verif.Jit.Plain
