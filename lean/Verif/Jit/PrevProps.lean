import Verif.Jit32.PrevProps
/-
C97 for 64-bit code: META_RESULT_PREVIOUS in hook functions generated at run time
(core/sourcehook/sourcehook_hookmangen_x86_64.cpp:619-760) and in those of the macros
(core/sourcehook/sourcehook.h:937-983).
-/
namespace Verif.Jit.Rule

variable {Wd : World} {V : Vars} {g : Gen} {C : Context} {H : List Hook}

/-- Specification: the answer of the last of some hooks, `MRES_IGNORED` if there is none. -/
def answerBefore (hs : List Hook) : W := (hs.getLast?.map Hook.res).getD 0

/-- Specification: which calls of a pass are those of hooks. -/
def hookMarks (g : Gen) : List Hook → List Bool
  | [] => [false]
  | h :: hs => [false, true] ++ (if g.ret.size ≠ 0 ∧ 2 ≤ h.res.toNat then [false] else []) ++ hookMarks g hs

/-- Specification: the marked calls find `prev_res` to be `MRES_IGNORED`. -/
inductive Blank (V : Vars) : List SCall → List Bool → Prop
  | nil : Blank V [] []
  | cons {c : SCall} {b : Bool} {cs : List SCall} {bs : List Bool} : (b = true → rd c.mem V.prev = 0) →
      Blank V cs bs → Blank V (c :: cs) (b :: bs)

theorem Blank.append {a b : List SCall} {x y : List Bool} (h : Blank V a x) (k : Blank V b y) : Blank V (a ++ b) (x ++ y) := by
  induction h with
  | nil => exact k
  | cons h _ ih => exact .cons h ih

theorem AreSeen.unmarked {t : List SCall} {e : Seen} (h : AreSeen V g t [e]) : Blank V t [false] := by
  cases h with
  | cons h1 h2 => cases h2; exact .cons (fun h => absurd h (by simp)) .nil

theorem AreSeen.marked {t : List SCall} {e : Seen} (h : AreSeen V g t [e]) (z : ∃ c t', t = c :: t' ∧ rd c.mem V.prev = 0) :
    Blank V t [true] := by
  obtain ⟨c, t', rfl, z⟩ := z
  cases h with
  | cons h1 h2 => cases h2; exact .cons (fun _ => z) .nil

theorem loop_prev (S : Simple g) (L : Laid Wd V g C H) (k : Bool) (ps : List Arg) (rest : List Ans) :
    ∀ {σ σ' : St} {hs : List Hook} {as : List Ans}, LoopAns Wd V g C H σ hs as σ' →
    σ.status.toNat ≤ 3 → ∀ {m : Memory} {n : Nat}, Holds V g C H m σ → hs.length < n →
    σ'.status.toNat ≤ 3 ∧
    ∃ m' t, hooks Wd V g ⟨false, k⟩ C.ctx ps n m (as ++ rest) = some ((), m', rest, t) ∧
      Holds V g C H m' σ' ∧ AreSeen V g t (loopCalls g C ps σ hs) ∧ Blank V t (hookMarks g hs) := by
  intro σ σ' hs as l
  induction l with
  | @done σ a q ha =>
    intro hst m n h hn
    refine ⟨hst, ?_⟩
    obtain ⟨n, rfl⟩ : ∃ k, n = k + 1 := ⟨n - 1, by simp at hn; omega⟩
    obtain ⟨m1, t1, r1, h1, s1⟩ := ctx_run L h cell_next q rest
    refine ⟨m1, t1 ++ [], ?_, h1, ?_, ?_⟩
    · rw [hooks]
      refine bind_run r1 ?_
      rw [if_pos ha]
      rfl
    · rw [List.append_nil]
      exact s1
    · rw [List.append_nil]
      exact s1.unmarked
  | @hook σ σ' x hs a b as hk ho hr q ha d hno l ih =>
    intro hst m n h hn
    obtain ⟨n, rfl⟩ : ∃ k, n = k + 1 := ⟨n - 1, by simp at hn; omega⟩
    obtain ⟨m1, t1, r1, h1, s1⟩ := ctx_run L h cell_next q (b :: as ++ rest)
    obtain ⟨m2, t2, r2, h2, c2, v2, s2⟩ := hookOne_run S L ⟨false, k⟩ h1 hk d ps (as ++ rest)
    obtain ⟨m3, r3, h3, v3⟩ := raise_run L h2 c2 hst hr (as ++ rest)
    have h3' : Holds V g C H m3 (σ.hook g x) := by
      refine ⟨h3.cell, h3.status, fun hz => ?_, h3.or⟩
      rw [h3.ov hz]
      have : ¬ 2 ≤ x.res.toNat := by rcases hno with h | h <;> omega
      simp only [St.hook, if_neg this]
    obtain ⟨hst', m4, t4, r4, h4, s4, b4⟩ := ih (raised_le hst hr) h3' (by simp at hn; omega)
    refine ⟨hst', m4, t1 ++ (t2 ++ ([] ++ ([] ++ t4))), ?_, h4, ?_, ?_⟩
    · rw [hooks]
      refine bind_run r1 ?_
      rw [if_neg (by rw [ha]; exact ho), ha]
      refine bind_run r2 (bind_run r3 (bind_run (a := ()) (m₁ := m3) (as₁ := as ++ rest) ?_ r4))
      unfold override
      rw [if_pos (by rw [small_toInt hr]; rcases hno with h | h <;> omega)]
      rfl
    · have e : loopCalls g C ps σ (x :: hs) = [⟨C.next, [.int C.ctx], σ⟩] ++
          ([⟨x.fn, .int x.obj :: ps, σ⟩] ++ loopCalls g C ps (σ.hook g x) hs) := by
        rw [loopCalls, if_neg (by rcases hno with h | h <;> omega)]
        rfl
      rw [e]
      exact s1.append (s2.append s4)
    · have e : hookMarks g (x :: hs) = [false] ++ ([true] ++ hookMarks g hs) := by
        rw [hookMarks, if_neg (by rcases hno with h | h <;> omega)]
        rfl
      rw [e]
      exact s1.unmarked.append ((s2.marked (prev_never_seen _ _ _ _ _ _ r2)).append b4)
  | @over σ σ' x hs a b c as hk ho hr q ha d hz hge qc sp hc l ih =>
    intro hst m n h hn
    obtain ⟨n, rfl⟩ : ∃ k, n = k + 1 := ⟨n - 1, by simp at hn; omega⟩
    obtain ⟨m1, t1, r1, h1, s1⟩ := ctx_run L h cell_next q (b :: c :: as ++ rest)
    obtain ⟨m2, t2, r2, h2, c2, v2, s2⟩ := hookOne_run S L ⟨false, k⟩ h1 hk d ps (c :: as ++ rest)
    obtain ⟨m3, r3, h3, v3⟩ := raise_run L h2 c2 hst hr (c :: as ++ rest)
    have o1 : okAt Wd.vis C.ctx = true := L.at cell_ctx
    have e1 : rd m3 C.ctx = C.vt := h3.at cell_ctx
    have o2 : okAt Wd.vis (C.vt + BitVec.ofNat 64 (8 * g.getOverride)) = true := L.at (cell_over hz)
    have e2 : rd m3 (C.vt + BitVec.ofNat 64 (8 * g.getOverride)) = C.over := h3.at (cell_over hz)
    have r4 := virt_run o1 e1 o2 e2 [] c (as ++ rest)
    have h4 := qc m3 h3
    have v4 : rd (after Wd m3 c) V.plugin = x.val := sp m3 ((v3 hz).trans (v2 hz))
    obtain ⟨m5, r5, h5⟩ := setOverride_run S L hz h4 (as ++ rest)
    have h5' : Holds V g C H m5 (σ.hook g x) := by
      refine ⟨h5.cell, h5.status, fun hz => ?_, h5.or⟩
      rw [h5.ov hz, v4]
      simp only [St.hook, if_pos hge]
    obtain ⟨hst', m6, t6, r6, h6, s6, b6⟩ := ih (raised_le hst hr) h5' (by simp at hn; omega)
    have s3 : AreSeen V g [⟨C.over, [.int C.ctx], m3⟩] [⟨C.over, [.int C.ctx],
        { σ with status := raised σ.status x.res }⟩] := .cons (h3.seen _ _) .nil
    refine ⟨hst', m6, t1 ++ (t2 ++ ([] ++ (([⟨C.over, [.int C.ctx], m3⟩] ++ []) ++ t6))), ?_, h6, ?_, ?_⟩
    · rw [hooks]
      refine bind_run r1 ?_
      rw [if_neg (by rw [ha]; exact ho), ha]
      refine bind_run r2 (bind_run r3 (bind_run (a := ()) (m₁ := m5) (as₁ := as ++ rest) ?_ r6))
      unfold override
      rw [if_neg (by rw [small_toInt hr]; omega)]
      refine bind_run r4 ?_
      rw [hc]
      exact r5
    · have e : loopCalls g C ps σ (x :: hs) = [⟨C.next, [.int C.ctx], σ⟩] ++
          ([⟨x.fn, .int x.obj :: ps, σ⟩] ++ ([⟨C.over, [.int C.ctx],
            { σ with status := raised σ.status x.res }⟩] ++ loopCalls g C ps (σ.hook g x) hs)) := by
        rw [loopCalls, if_pos ⟨hz, hge⟩]
        rfl
      rw [e, List.append_nil]
      exact s1.append (s2.append (s3.append s6))
    · have e : hookMarks g (x :: hs) = [false] ++ ([true] ++ ([false] ++ hookMarks g hs)) := by
        rw [hookMarks, if_pos ⟨hz, hge⟩]
        rfl
      rw [e, List.append_nil]
      exact s1.unmarked.append ((s2.marked (prev_never_seen _ _ _ _ _ _ r2)).append (s3.unmarked.append b6))

theorem callHooks_prev (S : Simple g) (L : Laid Wd V g C H) (k : Bool) (ps : List Arg) (rest : List Ans)
    {σ σ' : St} {hs : List Hook} {as : List Ans} (l : LoopAns Wd V g C H σ hs as σ')
    (hst : σ.status.toNat ≤ 3) {m : Memory} {n : Nat} (h : Holds V g C H m σ) (hn : hs.length < n) :
    σ'.status.toNat ≤ 3 ∧
    ∃ m' t, callHooks Wd V g ⟨false, k⟩ n C.ctx ps m (as ++ rest) = some ((), m', rest, t) ∧
      Holds V g C H m' σ' ∧ AreSeen V g t (loopCalls g C ps σ hs) ∧ Blank V t (hookMarks g hs) := by
  obtain ⟨hst', m', t, r, h', s, b⟩ := loop_prev S L k ps rest l hst (h.prev L 0) hn
  refine ⟨hst', m', [] ++ t, ?_, h', s, b⟩
  unfold callHooks
  exact bind_run (save_run (L.ok _ mem_prev) _ _ _) r

theorem whole_prev (S : Simple g) (L : Laid Wd V g C H) (k : Bool) {m : Memory} {this : W} (memret : W)
    {ps : List Arg} (hl : ps.length = g.params.length) {pre post : List Hook} {as₂ ans : List Ans}
    {o : Option W} (T : Told Wd V g this) (P : Plays Wd V g C H m pre post as₂ ans o) {n : Nat}
    (hn : pre.length < n) (hn' : post.length < n) (rest : List Ans) :
    ∃ r m' t₁ t₂ t₃ t₄ t₅, hookFunction Wd V g ⟨false, k⟩ n this memret ps m (ans ++ rest)
        = some (r, m', rest, t₁ ++ (t₂ ++ (t₃ ++ (t₄ ++ t₅)))) ∧
      AreSeen V g t₁ [setupCall V g m this] ∧
      (AreSeen V g t₂ (loopCalls g C ps (first V m) pre) ∧ Blank V t₂ (hookMarks g pre)) ∧
      AreSeen V g t₃ (origCalls C this ps (passed g (first V m) pre) o) ∧
      (AreSeen V g t₄ (loopCalls g C ps ((passed g (first V m) pre).orig g o) post) ∧ Blank V t₄ (hookMarks g post)) ∧
      AreSeen V g t₅ (endCalls g C ps (last V g m pre post o)) := by
  obtain ⟨a, as₁, as₃, as₄, rfl, pa, l1, lo, l2, le⟩ := P
  have Q := L.pairs
  have r1 : construct Wd V g m (a :: (as₁ ++ (as₂ ++ (as₃ ++ as₄))) ++ rest)
      = some ((), m, a :: (as₁ ++ (as₂ ++ (as₃ ++ as₄))) ++ rest, []) := by
    unfold construct
    rw [if_neg S.ctor]
    rfl
  have r2 : start Wd V m (a :: (as₁ ++ (as₂ ++ (as₃ ++ as₄))) ++ rest)
      = some ((), wr (wr (wr m V.status 0) V.cur 0) V.prev 0,
        a :: (as₁ ++ (as₂ ++ (as₃ ++ as₄))) ++ rest, []) := by
    unfold start
    exact bind_run (t := []) (save_run (L.ok _ mem_status) _ _ _)
      (bind_run (t := []) (save_run (L.ok _ mem_cur) _ _ _) (save_run (L.ok _ mem_prev) _ _ _))
  have far : ∀ x, Apart V.status x → Apart V.cur x → Apart V.prev x →
      rd (wr (wr (wr m V.status 0) V.cur 0) V.prev 0) x = rd m x := by
    intro x h1 h2 h3
    rw [rd_wr_apart _ _ _ _ h3, rd_wr_apart _ _ _ _ h2, rd_wr_apart _ _ _ _ h1]
  have s0 : rd (wr (wr (wr m V.status 0) V.cur 0) V.prev 0) V.status = 0 := by
    rw [rd_wr_apart _ _ _ _ Q.ps, rd_wr_apart _ _ _ _ Q.cs, rd_wr_same]
  have v0 : g.ret.size ≠ 0 →
      rd (wr (wr (wr m V.status 0) V.cur 0) V.prev 0) V.override = rd m V.override := by
    intro hz
    rw [rd_wr_apart _ _ _ _ (Q.pv hz), rd_wr_apart _ _ _ _ (Q.cv hz), rd_wr_apart _ _ _ _ (Q.sv hz)]
  have u0 : g.ret.size ≠ 0 →
      rd (wr (wr (wr m V.status 0) V.cur 0) V.prev 0) V.orig = rd m V.orig := by
    intro hz
    rw [rd_wr_apart _ _ _ _ (Q.po hz), rd_wr_apart _ _ _ _ (Q.co hz), rd_wr_apart _ _ _ _ (Q.so hz)]
  have hhi := far g.pHI (T.hiApart _ (by simp)) (T.hiApart _ (by simp)) (T.hiApart _ (by simp))
  have hvt := far (this + BitVec.ofInt 64 g.vtblOffs) (T.vtApart _ (by simp)) (T.vtApart _ (by simp))
    (T.vtApart _ (by simp))
  generalize wr (wr (wr m V.status 0) V.cur 0) V.prev 0 = m₁ at r2 far s0 v0 u0 hhi hvt
  have h0 := pa.holds m₁ s0 far
  have r3 : setup Wd V g this m₁ (a :: (as₁ ++ (as₂ ++ (as₃ ++ as₄))) ++ rest)
      = some (C.ctx, after Wd m₁ a, as₁ ++ (as₂ ++ (as₃ ++ as₄)) ++ rest,
        [⟨(setupCall V g m this).target, (setupCall V g m this).args, m₁⟩]) := by
    unfold setup
    refine bind_run (t := []) (load_run T.hi m₁ _) (bind_run (t := []) (load_run T.vt m₁ _) ?_)
    rw [hhi, hvt, ← pa.ctx]
    exact bind_run (u := []) (callF_run Wd _ _ _ _ _) rfl
  have w0 : AreSeen V g [⟨(setupCall V g m this).target, (setupCall V g m this).args, m₁⟩]
      [setupCall V g m this] := .cons ⟨rfl, rfl, s0, v0, u0⟩ .nil
  have st0 : (first V m).status.toNat ≤ 3 := by simp [first]
  simp only [List.append_assoc] at r3
  obtain ⟨st1, m₂, t₂, r4, h4, w4, b4⟩ := callHooks_prev S L k ps (as₂ ++ (as₃ ++ (as₄ ++ rest))) l1 st0 h0 hn
  obtain ⟨m₃, t₃, r5, h5, w5⟩ := orig_run S L this ps (as₃ ++ (as₄ ++ rest)) lo h4
  have st2 : ((passed g (first V m) pre).orig g o).status.toNat ≤ 3 := by rw [orig_status]; exact st1
  obtain ⟨st3, m₄, t₄, r6, h6, w6, b6⟩ := callHooks_prev S L k ps (as₄ ++ rest) l2 st2 h5 hn'
  obtain ⟨m₅, t₅, r7, w7⟩ := end_run S L ⟨false, k⟩ memret ps hl st3 le rest h6
  refine ⟨result g (if 2 ≤ (last V g m pre post o).status.toNat then (last V g m pre post o).ov
    else (last V g m pre post o).or), m₅, [⟨(setupCall V g m this).target, (setupCall V g m this).args, m₁⟩], t₂, t₃, t₄, t₅, ?_,
    w0, ⟨w4, b4⟩, w5, ⟨w6, b6⟩, w7⟩
  unfold hookFunction
  exact bind_run (t := []) r1 (bind_run (t := []) r2 (bind_run r3 (bind_run r4 (bind_run r5 (bind_run r6 r7)))))

/-! ## A hook's call -/

theorem loopCalls_split (ps : List Arg) (h : Hook) (more : List Hook) : ∀ (before : List Hook) (σ : St), ∃ tail,
    loopCalls g C ps σ (before ++ h :: more)
      = loopCalls g C ps σ before ++ ⟨h.fn, .int h.obj :: ps, passed g σ before⟩ :: tail := by
  intro before
  induction before with
  | nil =>
    intro σ
    exact ⟨_, rfl⟩
  | cons x before ih =>
    intro σ
    obtain ⟨tail, e⟩ := ih (σ.hook g x)
    refine ⟨tail, ?_⟩
    rw [List.cons_append, loopCalls, e, loopCalls, List.append_assoc (_ ++ _)]
    rfl

theorem hookMarks_split (h : Hook) (more : List Hook) : ∀ before : List Hook, ∃ tail,
    hookMarks g (before ++ h :: more) = hookMarks g before ++ true :: tail := by
  intro before
  induction before with
  | nil => exact ⟨_, rfl⟩
  | cons x before ih =>
    obtain ⟨tail, e⟩ := ih
    refine ⟨tail, ?_⟩
    rw [List.cons_append, hookMarks, e, hookMarks, List.append_assoc (_ ++ _)]

theorem marks_length (ps : List Arg) : ∀ (hs : List Hook) (σ : St), (hookMarks g hs).length = (loopCalls g C ps σ hs).length := by
  intro hs
  induction hs with
  | nil => intro σ; rfl
  | cons x hs ih =>
    intro σ
    rw [hookMarks, loopCalls, List.length_append, List.length_append, List.length_append, List.length_append, ih (σ.hook g x)]
    split <;> rfl

theorem AreSeen.split {a : List Seen} {e : Seen} {b : List Seen} : ∀ {t : List SCall}, AreSeen V g t (a ++ e :: b) →
    ∃ u c v, t = u ++ c :: v ∧ u.length = a.length ∧ AreSeen V g u a ∧ IsSeen V g c e := by
  induction a with
  | nil =>
    intro t h
    cases h with
    | cons h1 h2 => exact ⟨[], _, _, rfl, rfl, .nil, h1⟩
  | cons x a ih =>
    intro t h
    cases h with
    | cons h1 h2 =>
      obtain ⟨u, c, v, rfl, hl, h3, h4⟩ := ih h2
      exact ⟨_ :: u, c, v, rfl, congrArg (· + 1) hl, .cons h1 h3, h4⟩

theorem Blank.at {u v : List SCall} {c : SCall} : ∀ {x y : List Bool} {b : Bool}, Blank V (u ++ c :: v) (x ++ b :: y) → u.length = x.length →
    b = true → rd c.mem V.prev = 0 := by
  induction u with
  | nil =>
    intro x y b h hl hb
    cases x with
    | cons _ _ => cases hl
    | nil =>
      cases h with
      | cons h1 h2 => exact h1 hb
  | cons a u ih =>
    intro x y b h hl hb
    cases x with
    | nil => cases hl
    | cons z x =>
      cases h with
      | cons h1 h2 => exact ih h2 (Nat.succ.inj hl) hb

/-- A hook's call in a pass. -/
theorem pass_finds {ps : List Arg} {σ : St} {before : List Hook} {h : Hook} {more : List Hook} {t : List SCall}
    (s : AreSeen V g t (loopCalls g C ps σ (before ++ h :: more))) (b : Blank V t (hookMarks g (before ++ h :: more))) :
    ∃ u c v, t = u ++ c :: v ∧ AreSeen V g u (loopCalls g C ps σ before) ∧
      IsSeen V g c ⟨h.fn, .int h.obj :: ps, passed g σ before⟩ ∧ rd c.mem V.prev = 0 := by
  obtain ⟨tail, e⟩ := loopCalls_split (g := g) (C := C) ps h more before σ
  obtain ⟨tail', e'⟩ := hookMarks_split (g := g) h more before
  rw [e] at s
  obtain ⟨u, c, v, rfl, hl, hu, hc⟩ := s.split
  rw [e'] at b
  exact ⟨u, c, v, rfl, hu, hc, b.at (hl.trans (marks_length ps before σ).symm) rfl⟩

/-- **C97**, 64-bit code: a call as in C86.  Whatever the hooks are and answer, whoever writes to the
variable `prev_res`, the call of each hook finds `MRES_IGNORED` there. -/
theorem prev_rule {acc keep : W → Bool} (h : GenOk g) (S : Simple g) (s : Mach)
    (p : Provided acc keep (hookStack g (s.reg 4)))
    (out : ∀ c ∈ objects g C H, Outside acc (hookStack g (s.reg 4)) c.1)
    (hi : Outside acc (hookStack g (s.reg 4)) g.pHI)
    (vt : Outside acc (hookStack g (s.reg 4)) (s.reg 1 + BitVec.ofInt 64 g.vtblOffs))
    {pre post : List Hook} {mid ans : List Ans} {o : Option W}
    (P : Plays (world acc keep (hookStack g (s.reg 4))) (varsAt g (hookStack g (s.reg 4))) g C H s.mem
      pre post mid ans o) (rest : List Ans) :
    ∃ code, generateHookFunc g = some code ∧
    ∃ t' s', Returns acc keep code s (ans ++ rest) t' (rd s.mem (s.reg 4)) s' rest ∧
      ∃ t, AreCalls (hookStack g (s.reg 4)) t t' ∧
        AreSeen (varsAt g (hookStack g (s.reg 4))) g t (wanted (varsAt g (hookStack g (s.reg 4))) g C
          s.mem (s.reg 1) (paramsIn s (firstReg g.ret) g.params) pre post o) ∧
        (∀ before k more, pre = before ++ k :: more → ∃ u c v, t = u ++ c :: v ∧
          AreSeen (varsAt g (hookStack g (s.reg 4))) g u (setupCall (varsAt g (hookStack g (s.reg 4))) g s.mem (s.reg 1) ::
            loopCalls g C (paramsIn s (firstReg g.ret) g.params) (first (varsAt g (hookStack g (s.reg 4))) s.mem) before) ∧
          IsSeen (varsAt g (hookStack g (s.reg 4))) g c ⟨k.fn, .int k.obj :: paramsIn s (firstReg g.ret) g.params,
            passed g (first (varsAt g (hookStack g (s.reg 4))) s.mem) before⟩ ∧
          rd c.mem (varsAt g (hookStack g (s.reg 4))).prev = 0) ∧
        (∀ before k more, post = before ++ k :: more → ∃ u c v, t = u ++ c :: v ∧
          AreSeen (varsAt g (hookStack g (s.reg 4))) g u (setupCall (varsAt g (hookStack g (s.reg 4))) g s.mem (s.reg 1) ::
            (loopCalls g C (paramsIn s (firstReg g.ret) g.params) (first (varsAt g (hookStack g (s.reg 4))) s.mem) pre
            ++ (origCalls C (s.reg 1) (paramsIn s (firstReg g.ret) g.params) (passed g (first (varsAt g (hookStack g (s.reg 4))) s.mem) pre) o
            ++ loopCalls g C (paramsIn s (firstReg g.ret) g.params) ((passed g (first (varsAt g (hookStack g (s.reg 4))) s.mem) pre).orig g o) before))) ∧
          IsSeen (varsAt g (hookStack g (s.reg 4))) g c ⟨k.fn, .int k.obj :: paramsIn s (firstReg g.ret) g.params,
            passed g ((passed g (first (varsAt g (hookStack g (s.reg 4))) s.mem) pre).orig g o) before⟩ ∧
          rd c.mem (varsAt g (hookStack g (s.reg 4))).prev = 0) := by
  have L := laid (keep := keep) (C := C) (H := H) h p out
  have T := told (keep := keep) (this := s.reg 1) h p hi vt
  obtain ⟨r, m, t₁, t₂, t₃, t₄, t₅, e, w1, ⟨w2, b2⟩, w3, ⟨w4, b4⟩, w5⟩ := whole_prev (n := pre.length + post.length + 1) S L false (s.reg 2)
    (paramsIn_length s g.params (firstReg g.ret)) T P (by omega) (by omega) rest
  obtain ⟨code, hc, t', s', hr, ha, -⟩ := hook_refines_partial h s p _ e
  refine ⟨code, hc, t', s', hr, _, ha, w1.append (w2.append (w3.append (w4.append w5))), ?_, ?_⟩
  · rintro before k more rfl
    obtain ⟨u, c, v, rfl, k1, k2, k3⟩ := pass_finds w2 b2
    exact ⟨t₁ ++ u, c, v ++ (t₃ ++ (t₄ ++ t₅)), by simp only [List.append_assoc, List.cons_append], w1.append k1, k2, k3⟩
  · rintro before k more rfl
    obtain ⟨u, c, v, rfl, k1, k2, k3⟩ := pass_finds w4 b4
    exact ⟨t₁ ++ (t₂ ++ (t₃ ++ u)), c, v ++ t₅, by simp only [List.append_assoc, List.cons_append],
      w1.append (w2.append (w3.append k1)), k2, k3⟩

/-! ## A call with two hooks -/

/-- No counterpart in /repo: the context; a hook that says `MRES_SUPERCEDE` twice, with the override
value; no further hook, twice; the override value; EndContext. -/
def twoAnswers : List Ans :=
  [exAns 0x5000, exAns 0x5100, rxHookAns, exAns rxVars.override, exAns 0x5100, rxHookAns, exAns rxVars.override,
    exAns 0, exAns 0, exAns rxVars.override, exAns 0]

theorem two_plays : Plays rxWorld rxVars exGen rxCtx [rxHook] rxMem [rxHook, rxHook] [] [] twoAnswers none := by
  have P := rx_laid.pairs
  refine ⟨exAns 0x5000, [exAns 0x5100, rxHookAns, exAns rxVars.override, exAns 0x5100, rxHookAns, exAns rxVars.override, exAns 0],
    [exAns 0], [exAns rxVars.override, exAns 0], rfl, ⟨rfl, ?_⟩, ?_, ?_, ?_, ?_⟩
  · intro m' h0 hf
    refine rx_quiet _ _ m' ⟨?_, h0, ?_, ?_⟩
    · intro c hc
      rw [hf _ (rx_laid.cellApart c hc _ mem_status) (rx_laid.cellApart c hc _ mem_cur)
        (rx_laid.cellApart c hc _ mem_prev)]
      revert c
      decide +kernel
    · intro hz
      exact hf _ (P.sv hz) (P.cv hz) (P.pv hz)
    · intro hz
      exact hf _ (P.so hz) (P.co hz) (P.po hz)
  · have d : ∀ σ, HookDone rxWorld rxVars exGen rxCtx [rxHook] rxHookAns rxHook σ := by
      intro σ
      refine ⟨rx_quiet _ _, ?_, ?_⟩
      · intro m _
        rw [rx_cur]
        decide +kernel
      · intro _
        decide
    have sp : Spares rxWorld rxVars (exAns rxVars.override) rxHook.val := by
      intro m h
      rw [rx_after _ _ ⟨by decide, by decide⟩, h]
    exact .over (by simp) (by decide) (by decide) (rx_quiet _ _) rfl (d _) (by decide) (by decide) (rx_quiet _ _) sp rfl
      (.over (by simp) (by decide) (by decide) (rx_quiet _ _) rfl (d _) (by decide) (by decide) (rx_quiet _ _) sp rfl
        (.done (rx_quiet _ _) rfl))
  · exact .superceded (by decide)
  · exact .done (rx_quiet _ _) rfl
  · refine ⟨fun _ => ⟨_, _, rfl, ?_⟩, fun a _ => rx_quiet a _, by decide⟩
    decide

/-- The second of two hooks in 64-bit code finds `MRES_IGNORED`, though the first said
`MRES_SUPERCEDE`. -/
example : answerBefore [rxHook] = 3 ∧ ∃ code, generateHookFunc exGen = some code ∧ ∃ t' s',
    Returns (fun _ => true) rxKeep code rxMach twoAnswers t' (rd rxMem 0x10008) s' [] ∧
    ∃ u c v, AreCalls (hookStack exGen 0x10008) (u ++ c :: v) t' ∧ u.length = 5 ∧ c.target = 0x888 ∧
      rd c.mem rxVars.prev = 0 := by
  obtain ⟨code, hc, t', s', hr, t, ha, -, h1, -⟩ := prev_rule (keep := rxKeep) (C := rxCtx)
    (H := [rxHook]) exGen_ok ⟨by decide, by decide, rfl, by decide, by decide⟩ rxMach rx_provided rx_out
    ⟨rfl, by decide⟩ ⟨rfl, by decide⟩ two_plays []
  obtain ⟨u, c, v, rfl, hu, h2, h3⟩ := h1 [rxHook] rxHook [] rfl
  refine ⟨rfl, code, hc, t', s', hr, u, c, v, ha, ?_, h2.target, h3⟩
  have e2 : ∀ {a : List SCall} {b : List Seen}, AreSeen rxVars exGen a b → a.length = b.length := by
    intro a b hab
    induction hab with
    | nil => rfl
    | cons h _ ih => simp [ih]
  exact (e2 hu).trans (by decide +kernel)

end Verif.Jit.Rule

namespace Verif.Alike

open Verif.SH (Val Ev LReach EnvOk results lastRes Recalled AtHandler getPrevRes Fr)
open Verif.Jit Verif.Jit.Rule

/-- **C97**: a handler of a call through a hook function of the macros reads with META_RESULT_PREVIOUS
the answer of the handler before it; so it reads what the hook of a generated 64-bit function finds
(`MRES_IGNORED`, says `prev_rule`) only where that answer was `MRES_IGNORED` or there was none. -/
theorem prev_agrees64_iff {E : Verif.SH.Env} (hE : EnvOk E) {st : Verif.SH.St} (hr : LReach E st) {f : Verif.SH.Frame} {fs : List Fr}
    (hf : st.frames = .hook f :: fs) {post : Bool} (hat : AtHandler post f.pt) (hn : ¬ Recalled st.log f.cid)
    {enc : Val → W} {before behind : List Hook} (same : Same enc (results st.log f.fid) (before.map hookGiven) (behind.map hookGiven)) :
    getPrevRes st = .ok (answerBefore (if post then behind else before)).toNat ∧
    (getPrevRes st = .ok (0 : W).toNat ↔ answerBefore (if post then behind else before) = 0) := by
  have e : getPrevRes st = .ok (answerBefore (if post then behind else before)).toNat := by
    obtain ⟨-, -, h3, -⟩ := Verif.SH.handler_sees hE hr hf hat hn
    rw [h3, lastRes_same same]
    unfold answerBefore
    cases post
    · simp only [Bool.false_eq_true, if_false, List.getLast?_map, Option.map_map]
      cases before.getLast? <;> rfl
    · simp only [if_true, List.getLast?_map, Option.map_map]
      cases behind.getLast? <;> rfl
  refine ⟨e, ?_⟩
  rw [e]
  constructor
  · intro h
    exact BitVec.eq_of_toNat_eq (Except.ok.inj h)
  · intro h
    rw [h]

/-- The second of two handlers in front of the original function, after one that said
`MRES_SUPERCEDE`: with the macros it reads that, with a generated 64-bit function `MRES_IGNORED`. -/
example : ∃ st, LReach Verif.SH.Ex.E st ∧ getPrevRes st = .ok 3 ∧ ¬ getPrevRes st = .ok (0 : W).toNat := by
  obtain ⟨st, f, fs, hr, hf, hat, hn, h4, h5⟩ := ex_running (ops := [.reg (.add Verif.SH.Ex.a1), .reg (.add Verif.SH.Ex.a2), .call 2008 1000, .tick, .setRes 3, .handlerRet 42, .tick])
    (post := false) (rs := [(false, 3, 42)]) (os := []) rfl
  obtain ⟨h6, h7⟩ := prev_agrees64_iff (enc := fun v => BitVec.ofInt 64 v) (before := [rxHook]) (behind := [])
    Verif.SH.Ex.envOk hr hf hat hn (by rw [h4]; rfl)
  exact ⟨st, hr, h6, fun h => absurd (h7.1 h) (by decide)⟩

end Verif.Alike
#print axioms Verif.Jit.Rule.prev_rule
#print axioms Verif.Alike.prev_agrees64_iff
