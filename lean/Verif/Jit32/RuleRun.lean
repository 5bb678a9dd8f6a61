import Verif.Jit32.RuleLemmas
/-
Helper lemmas for C87: the parts of the hook function, run with answers that keep their promises.
-/
namespace Verif.Jit32.Rule

open Spec
open Verif.Jit (Byte)

variable {U : Fpu} {K : Case}

/-! ## Values -/

theorem wordBytes_take (v w : W) {n : Nat} (h : n ≤ 4) :
    (wordBytes v ++ wordBytes w).take n = (wordBytes v).take n :=
  List.take_append_of_le_length (by simpa [wordBytes] using h)

theorem keep_void (hz : K.g.ret.size = 0) (a : Ans U) (v : W) (m : Memory) (as : List (Ans U)) :
    keepResult K.Wd K.V K.g a v m as = some ((), m, as, []) := by
  unfold keepResult
  rw [if_pos hz]
  rfl

theorem flt_iff {g : Gen} (hz : g.ret.size ≠ 0) (h1 : g.ret.flags.getLsbD 1 = false)
    (h6 : hid g = false) : flt g = true ↔ g.ret.type = 2 := by
  unfold flt
  unfold hid at h6
  rw [h1, h6]
  simp [hz]

/-- How a value is returned. -/
theorem ret_cases {g : Gen} (R : RetOk g.ret) (hz : g.ret.size ≠ 0) :
    g.ret.flags.getLsbD 1 = true ∨ (g.ret.flags.getLsbD 1 = false ∧ hid g = true) ∨
    (g.ret.flags.getLsbD 1 = false ∧ hid g = false ∧ flt g = true ∧ (g.ret.size = 4 ∨ g.ret.size = 8)) ∨
    (g.ret.flags.getLsbD 1 = false ∧ hid g = false ∧ flt g = false ∧ g.ret.size ≤ 8) := by
  cases h1 : g.ret.flags.getLsbD 1 with
  | true => exact .inl rfl
  | false =>
    refine .inr ?_
    cases h6 : hid g with
    | true => exact .inl ⟨rfl, rfl⟩
    | false =>
      refine .inr ?_
      have hf := flt_iff hz h1 h6
      rcases R.inReg h1 h6 hz with ⟨ht, hs, -⟩ | ⟨ht, hs⟩
      · exact .inl ⟨rfl, rfl, hf.2 ht, hs⟩
      · refine .inr ⟨rfl, rfl, ?_, hs⟩
        have : ¬ g.ret.type = 2 := by rcases ht with h | h <;> omega
        cases h : flt g with
        | true => exact (this (hf.1 h)).elim
        | false => rfl

theorem keep_run (S : Simple K.g) (R : RetOk K.g.ret) (hz : K.g.ret.size ≠ 0) {v : W}
    (ok : okN K.Wd.vis v (room K.g) = true) {n : Nat} {a : Ans U} (p : Polite K.kind n a) (m : Memory)
    (as : List (Ans U)) :
    ∃ m', keepResult K.Wd K.V K.g a v m as = some ((), m', as, []) ∧
      bytes m' v (width K.g) = value K.g a m v ∧ Only m m' v (room K.g) := by
  unfold keepResult value
  rw [if_neg hz]
  rcases ret_cases R hz with h1 | ⟨h1, h6⟩ | ⟨h1, h6, hf, hs⟩ | ⟨h1, h6, hf, hs⟩
  · have hw : width K.g = 4 := if_pos h1
    have hr : room K.g = 4 := by unfold room; rw [hw]
    rw [hr] at ok ⊢
    rw [if_pos h1, if_pos h1, hw]
    exact ⟨_, save_run ok _ _ _, bytes_wr _ _ _, only_wr _ _ _⟩
  · have h1' : ¬ K.g.ret.flags.getLsbD 1 = true := by rw [h1]; simp
    have hw : width K.g = K.g.ret.size := if_neg h1'
    rw [if_neg h1', if_pos h6, if_neg (by rw [S.temp]; simp), if_neg h1', if_pos h6, hw]
    exact ⟨m, rfl, rfl, .refl _ _ _⟩
  · have h1' : ¬ K.g.ret.flags.getLsbD 1 = true := by rw [h1]; simp
    have h6' : ¬ hid K.g = true := by rw [h6]; simp
    have hw : width K.g = K.g.ret.size := if_neg h1'
    rw [if_neg h1', if_neg h6', if_pos hf, if_neg h1', if_neg h6', if_pos hf, hw]
    have hl := p.fpu
    rw [show K.kind.flt = true from hf, if_pos rfl] at hl
    obtain ⟨x, hx⟩ : ∃ x, a.fpu = [x] := List.length_eq_one_iff.1 hl
    rw [hx]
    unfold keepFloat
    rcases hs with hs | hs
    · have hr : room K.g = 4 := by unfold room; rw [hw, hs]
      rw [hr] at ok ⊢
      simp only [hs, if_true]
      exact ⟨_, save_run ok _ _ _, bytes_wr _ _ _, only_wr _ _ _⟩
    · have hr : room K.g = 8 := by unfold room; rw [hw, hs]
      rw [hr] at ok ⊢
      simp only [hs, Nat.reduceEqDiff, if_false]
      refine ⟨wr64 m v (U.to64 x), ?_, ?_, ?_⟩
      · unfold save64
        rw [if_pos ok]
      · exact bytes_wr2 _ _ _ _
      · exact only_wr2 _ _ _ _
  · have h1' : ¬ K.g.ret.flags.getLsbD 1 = true := by rw [h1]; simp
    have h6' : ¬ hid K.g = true := by rw [h6]; simp
    have hf' : ¬ flt K.g = true := by rw [hf]; simp
    have hw : width K.g = K.g.ret.size := if_neg h1'
    rw [if_neg h1', if_neg h6', if_neg hf', if_neg h1', if_neg h6', if_neg hf', hw]
    by_cases h4 : K.g.ret.size ≤ 4
    · have hr : room K.g = 4 := by unfold room; rw [hw]; omega
      rw [hr] at ok ⊢
      rw [if_pos h4, wordBytes_take _ _ h4]
      refine ⟨_, save_run ok _ _ _, ?_, only_wr _ _ _⟩
      rw [← bytes_take _ _ h4, bytes_wr]
    · have hr : room K.g = 8 := by unfold room; rw [hw]; omega
      rw [hr] at ok ⊢
      rw [if_neg h4]
      refine ⟨wr (wr m v (a.reg 0)) (v + 4) (a.reg 2), ?_, ?_, only_wr2 _ _ _ _⟩
      · exact bind_run (t := []) (save_run (okN_lo ok) _ _ _) (save_run (okN_hi ok) _ _ _)
      · rw [← bytes_take _ _ hs, bytes_wr2]

/-- A value from one variable to another. -/
theorem store_run (S : Simple K.g) (R : RetOk K.g.ret) {dst src : W}
    (hd : okN K.Wd.vis dst (room K.g) = true) (hs : okN K.Wd.vis src (room K.g) = true)
    (ap : Apart dst (room K.g) src (room K.g)) (m : Memory) (as : List (Ans U)) :
    ∃ m', (if K.g.ret.flags.getLsbD 1 then (do let v ← load K.Wd src; save K.Wd dst v)
        else move K.Wd K.g dst src) m as = some ((), m', as, []) ∧
      bytes m' dst (width K.g) = bytes m src (width K.g) ∧ Only m m' dst (room K.g) := by
  have hle := width_le K.g
  by_cases hr : K.g.ret.flags.getLsbD 1 = true
  · have hw : width K.g = 4 := if_pos hr
    have hr' : room K.g = 4 := by unfold room; rw [hw]
    rw [hr'] at hd hs ⊢
    rw [if_pos hr, hw]
    refine ⟨wr m dst (rd m src), bind_run (t := []) (load_run hs m as) (save_run hd _ _ _), ?_,
      only_wr _ _ _⟩
    rw [bytes_wr, bytes_four]
  · rw [if_neg hr]
    have hw : width K.g = K.g.ret.size := if_neg hr
    rw [hw] at hle ⊢
    refine ⟨blk m dst src K.g.ret.size, ?_, ?_, (blk_only _ _ _ _).mono hle⟩
    · unfold move
      rw [if_neg (by rw [S.assign]; simp)]
      unfold memcpy
      rw [okN_pre hd _ hle, okN_pre hs _ hle, apart_of (ap.mono hle hle)]
      rfl
    · have := R.small
      exact blk_bytes _ _ _ (by omega)

theorem Holds.prev {m : Memory} {σ : St} (L : Laid K) (h : Holds K m σ) (v : W) :
    Holds K (wr m K.V.prev v) σ :=
  have P := L.pairs
  h.only L (only_wr _ _ _) mem_prev P.sp.symm P.pv P.po P.pb

theorem hookOne_run (S : Simple K.g) (R : RetOk K.g.ret) (hp : ∀ p ∈ K.g.params, PassOk p)
    (L : Laid K) {m : Memory} {σ : St} (h : Holds K m σ) {k : Hook} (hk : k ∈ K.H) {b : Ans U}
    (d : HookDone K b k σ) (as : List (Ans U)) :
    ∃ m' t, hookOne K.Wd K.V K.g k.obj K.args m (b :: as) = some ((), m', as, t) ∧ Holds K m' σ ∧
      rd m' K.V.cur = k.res ∧ (K.g.ret.size ≠ 0 → bytes m' K.V.plugin (width K.g) = k.val) ∧
      AreSeen K t [⟨k.fn, K.hookArgs k, σ, K.buf⟩] := by
  have P := L.pairs
  have h1 : Holds K (wr m K.V.cur 0) σ :=
    h.only L (only_wr _ _ _) mem_cur P.sc.symm P.cv P.co P.cb
  generalize hm1 : wr m K.V.cur 0 = m1 at h1
  have o1 : okN K.Wd.vis k.obj 4 = true := L.at (cell_obj hk)
  have e1 : rd m1 k.obj = k.vt := h1.at (cell_obj hk)
  have o2 : okN K.Wd.vis (k.vt + 8) 4 = true := L.at (cell_fn hk)
  have e2 : rd m1 (k.vt + 8) = k.fn := h1.at (cell_fn hk)
  have h3 := d.quiet m1 h1
  have c3 := d.cur m1 h1
  have key : ∃ m4, keepResult K.Wd K.V K.g b K.V.plugin (later K.Wd m1 b) as = some ((), m4, as, []) ∧
      Holds K m4 σ ∧ rd m4 K.V.cur = k.res ∧
      (K.g.ret.size ≠ 0 → bytes m4 K.V.plugin (width K.g) = k.val) := by
    by_cases hz : K.g.ret.size = 0
    · exact ⟨_, keep_void hz _ _ _ _, h3, c3, fun h => absurd hz h⟩
    · obtain ⟨m4, r4, b4, o4⟩ := keep_run S R hz (L.var (mem_plugin hz)) d.polite (later K.Wd m1 b) as
      refine ⟨m4, r4, h3.only L o4 (mem_plugin hz) (P.sl hz).symm (fun _ => (P.vl hz).symm)
        (fun _ => (P.ol hz).symm) (P.lb hz), ?_, ?_⟩
      · rw [o4.rd (P.cl hz).symm, c3]
      · intro _
        rw [b4, d.val hz m1 h1]
  obtain ⟨m4, r4, h4, c4, v4⟩ := key
  refine ⟨m4, [] ++ ([] ++ ([] ++ ([] ++ ([⟨k.fn, K.hookArgs k, true, m1⟩] ++ [])))), ?_, h4, c4, v4, ?_⟩
  · unfold hookOne
    refine bind_run (t := []) (save_run (L.var mem_cur) _ _ _) ?_
    rw [hm1]
    refine bind_run (t := []) (hookParams_run L hp h1 _) (bind_run (t := []) (load_run o1 _ _) ?_)
    rw [e1]
    refine bind_run (t := []) (load_run o2 _ _) ?_
    rw [e2]
    exact bind_run (callF_run K.Wd true _ _ d.polite _) r4
  · exact .cons (h1.seen _ _ _) .nil

theorem small_toInt {r : W} (h : r.toNat ≤ 3) : r.toInt = r.toNat := by
  rw [BitVec.toInt_eq_toNat_cond, if_pos (by omega)]

theorem raised_le {st r : W} (h : st.toNat ≤ 3) (h' : r.toNat ≤ 3) : (raised st r).toNat ≤ 3 := by
  unfold raised
  split <;> assumption

/-- A change of the status. -/
theorem Holds.setStatus {m : Memory} {σ : St} (L : Laid K) (h : Holds K m σ) (v : W) :
    Holds K (wr m K.V.status v) { σ with status := v } := by
  have P := L.pairs
  have o := only_wr m K.V.status v
  refine ⟨?_, rd_wr_same _ _ _, ?_, ?_, ?_, ?_⟩
  · intro c hc
    rw [o.rd (L.cellApart c hc _ mem_status), h.cell c hc]
  · intro hz
    rw [o.bytes ((P.sv hz).mono (Nat.le_refl _) (width_le _)), h.ov hz]
  · intro hz
    rw [o.bytes ((P.so hz).mono (Nat.le_refl _) (width_le _)), h.or hz]
  · rw [o.bytes (L.argApart _ mem_status), h.args]
  · intro b hb
    rw [o.bytes (P.sb (buf_vafmt hb)), h.buf b hb]

theorem raise_run (L : Laid K) {m : Memory} {σ : St} (h : Holds K m σ) {r : W}
    (hc : rd m K.V.cur = r) (hs : σ.status.toNat ≤ 3) (hr : r.toNat ≤ 3) (as : List (Ans U)) :
    ∃ m', raise K.Wd K.V m as = some ((), m', as, []) ∧
      Holds K m' { σ with status := raised σ.status r } ∧ rd m' K.V.cur = r ∧
      (K.g.ret.size ≠ 0 → bytes m' K.V.plugin (width K.g) = bytes m K.V.plugin (width K.g)) := by
  have P := L.pairs
  have h1 := h.prev L r
  have c1 : rd (wr m K.V.prev r) K.V.cur = r := by rw [(only_wr _ _ _).rd P.cp.symm, hc]
  have v1 : K.g.ret.size ≠ 0 →
      bytes (wr m K.V.prev r) K.V.plugin (width K.g) = bytes m K.V.plugin (width K.g) :=
    fun hz => (only_wr _ _ _).bytes ((P.pl hz).mono (Nat.le_refl _) (width_le _))
  have run : ∀ m', when' (decide ((rd m K.V.status).toInt < (rd m K.V.cur).toInt))
        (save K.Wd K.V.status (rd m K.V.cur)) (wr m K.V.prev (rd m K.V.cur)) as
          = some ((), m', as, []) → raise K.Wd K.V m as = some ((), m', as, []) := by
    intro m' hm
    unfold raise
    exact bind_run (t := []) (load_run (L.var mem_cur) _ _) (bind_run (t := [])
      (load_run (L.var mem_status) _ _) (bind_run (t := []) (save_run (L.var mem_prev) _ _ _) hm))
  rw [hc, h.status, small_toInt hs, small_toInt hr] at run
  simp only [Int.ofNat_lt] at run
  by_cases hlt : σ.status.toNat < r.toNat
  · refine ⟨wr (wr m K.V.prev r) K.V.status r, run _ ?_, ?_, ?_, ?_⟩
    · rw [decide_eq_true hlt]
      exact save_run (L.var mem_status) _ _ _
    · have : raised σ.status r = r := if_pos hlt
      rw [this]
      exact h1.setStatus L r
    · rw [(only_wr _ _ _).rd P.sc, c1]
    · intro hz
      rw [(only_wr _ _ _).bytes ((P.sl hz).mono (Nat.le_refl _) (width_le _)), v1 hz]
  · refine ⟨wr m K.V.prev r, run _ ?_, ?_, c1, v1⟩
    · rw [decide_eq_false hlt]
      rfl
    · have : raised σ.status r = σ.status := if_neg hlt
      rw [this]
      exact h1

/-- The value of a hook becomes the override value. -/
theorem setOverride_run (S : Simple K.g) (R : RetOk K.g.ret) (L : Laid K) (hz : K.g.ret.size ≠ 0)
    {m : Memory} {σ : St} (h : Holds K m σ) (as : List (Ans U)) :
    ∃ m', setOverride K.Wd K.V K.g K.V.override m as = some ((), m', as, []) ∧
      Holds K m' { σ with ov := bytes m K.V.plugin (width K.g) } := by
  have P := L.pairs
  obtain ⟨m', r, e, f⟩ := store_run S R (L.var (mem_override hz)) (L.var (mem_plugin hz)) (P.vl hz) m as
  refine ⟨m', r, ⟨?_, ?_, fun _ => e, ?_, ?_, ?_⟩⟩
  · intro c hc
    rw [f.rd (L.cellApart c hc _ (mem_override hz)), h.cell c hc]
  · rw [f.rd (P.sv hz).symm, h.status]
  · intro _
    rw [f.bytes ((P.ov hz).symm.mono (Nat.le_refl _) (width_le _)), h.or hz]
  · rw [f.bytes (L.argApart _ (mem_override hz)), h.args]
  · intro b hb
    rw [f.bytes (P.vb hz (buf_vafmt hb)), h.buf b hb]

/-- A change of the original value. -/
theorem Holds.setOrig {m m' : Memory} {σ : St} (L : Laid K) (hz : K.g.ret.size ≠ 0) (h : Holds K m σ)
    (f : Only m m' K.V.orig (room K.g)) {v : List Byte} (e : bytes m' K.V.orig (width K.g) = v) :
    Holds K m' { σ with or := v } := by
  have P := L.pairs
  refine ⟨?_, ?_, ?_, fun _ => e, ?_, ?_⟩
  · intro c hc
    rw [f.rd (L.cellApart c hc _ (mem_orig hz)), h.cell c hc]
  · rw [f.rd (P.so hz).symm, h.status]
  · intro _
    rw [f.bytes ((P.ov hz).mono (Nat.le_refl _) (width_le _)), h.ov hz]
  · rw [f.bytes (L.argApart _ (mem_orig hz)), h.args]
  · intro b hb
    rw [f.bytes (P.ob hz (buf_vafmt hb)), h.buf b hb]

theorem Holds.setVoid {m : Memory} {σ : St} (hz : K.g.ret.size = 0) (h : Holds K m σ)
    (v : List Byte) : Holds K m { σ with or := v } :=
  ⟨h.cell, h.status, h.ov, fun h' => absurd hz h', h.args, h.buf⟩

theorem origElse_run (S : Simple K.g) (R : RetOk K.g.ret) (L : Laid K) {m : Memory} {σ : St}
    (h : Holds K m σ) (as : List (Ans U)) :
    ∃ m', Spec.origElse K.Wd K.V K.g m as = some ((), m', as, []) ∧ Holds K m' (σ.orig none) := by
  have P := L.pairs
  by_cases hz : K.g.ret.size = 0
  · refine ⟨m, ?_, h.setVoid hz _⟩
    unfold Spec.origElse
    rw [if_pos hz]
    rfl
  · obtain ⟨m', r, e, f⟩ := store_run S R (L.var (mem_orig hz)) (L.var (mem_override hz)) (P.ov hz) m as
    refine ⟨m', ?_, h.setOrig L hz f (e.trans (h.ov hz))⟩
    unfold Spec.origElse
    rw [if_neg hz]
    exact r

/-! ## The passes -/

theorem loop_run (S : Simple K.g) (R : RetOk K.g.ret) (hp : ∀ p ∈ K.g.params, PassOk p) (L : Laid K)
    (rest : List (Ans U)) :
    ∀ {σ σ' : St} {hs : List Hook} {as : List (Ans U)}, LoopAns K σ hs as σ' →
    σ.status.toNat ≤ 3 → ∀ {m : Memory} {n : Nat}, Holds K m σ → hs.length < n →
    σ'.status.toNat ≤ 3 ∧
    ∃ m' t, hooks K.Wd K.V K.g K.C.ctx K.args n m (as ++ rest) = some ((), m', rest, t) ∧
      Holds K m' σ' ∧ AreSeen K t (loopCalls K σ hs) := by
  have cn : (K.C.vt + BitVec.ofNat 32 (4 * 0), K.C.next) ∈ K.cells := by
    rw [show K.C.vt + BitVec.ofNat 32 (4 * 0) = K.C.vt from BitVec.add_zero _]
    exact cell_next
  intro σ σ' hs as l
  induction l with
  | @done σ a q ha =>
    intro hst m n h hn
    refine ⟨hst, ?_⟩
    obtain ⟨n, rfl⟩ : ∃ k, n = k + 1 := ⟨n - 1, by simp at hn; omega⟩
    obtain ⟨m1, t1, r1, -, h1, s1⟩ := ctx_run L h cn q rest
    refine ⟨m1, t1 ++ [], ?_, h1, ?_⟩
    · rw [hooks]
      refine bind_run r1 ?_
      rw [if_pos ha]
      rfl
    · rw [List.append_nil]
      exact s1
  | @hook σ σ' k hs a b as hk ho hr q ha d hno l ih =>
    intro hst m n h hn
    obtain ⟨n, rfl⟩ : ∃ k, n = k + 1 := ⟨n - 1, by simp at hn; omega⟩
    obtain ⟨m1, t1, r1, -, h1, s1⟩ := ctx_run L h cn q (b :: as ++ rest)
    obtain ⟨m2, t2, r2, h2, c2, v2, s2⟩ := hookOne_run S R hp L h1 hk d (as ++ rest)
    obtain ⟨m3, r3, h3, c3, v3⟩ := raise_run L h2 c2 hst hr (as ++ rest)
    have h3' : Holds K m3 (σ.hook k) := by
      refine ⟨h3.cell, h3.status, fun hz => ?_, h3.or, h3.args, h3.buf⟩
      rw [h3.ov hz]
      have : ¬ 2 ≤ k.res.toNat := by rcases hno with h | h <;> omega
      simp only [St.hook, if_neg this]
    obtain ⟨hst', m4, t4, r4, h4, s4⟩ := ih (raised_le hst hr) h3' (by simp at hn; omega)
    refine ⟨hst', m4, t1 ++ (t2 ++ ([] ++ ([] ++ t4))), ?_, h4, ?_⟩
    · rw [hooks]
      refine bind_run r1 ?_
      rw [if_neg (by rw [ha]; exact ho), ha]
      refine bind_run r2 (bind_run r3 (bind_run (a := ()) (m₁ := m3) (as₁ := as ++ rest) ?_ r4))
      unfold Spec.override
      by_cases hz : K.g.ret.size = 0
      · rw [if_pos hz]
        rfl
      · rw [if_neg hz]
        refine bind_run (t := []) (load_run (L.var mem_cur) _ _) ?_
        rw [c3, if_pos (by rw [small_toInt hr]; rcases hno with h | h <;> omega)]
        rfl
    · have e : loopCalls K σ (k :: hs) = [K.ask K.C.next σ] ++
          ([⟨k.fn, K.hookArgs k, σ, K.buf⟩] ++ loopCalls K (σ.hook k) hs) := by
        rw [loopCalls, if_neg (by rcases hno with h | h <;> omega)]
        rfl
      rw [e]
      exact s1.append (s2.append s4)
  | @over σ σ' k hs a b c as hk ho hr q ha d hz hge qc sp hc l ih =>
    intro hst m n h hn
    obtain ⟨n, rfl⟩ : ∃ k, n = k + 1 := ⟨n - 1, by simp at hn; omega⟩
    obtain ⟨m1, t1, r1, -, h1, s1⟩ := ctx_run L h cn q (b :: c :: as ++ rest)
    obtain ⟨m2, t2, r2, h2, c2, v2, s2⟩ := hookOne_run S R hp L h1 hk d (c :: as ++ rest)
    obtain ⟨m3, r3, h3, c3, v3⟩ := raise_run L h2 c2 hst hr (c :: as ++ rest)
    have co : (K.C.vt + BitVec.ofNat 32 (4 * 1), K.C.over) ∈ K.cells := cell_over hz
    obtain ⟨m4, t4, r4, e4, h4, s4⟩ := ctx_run L h3 co qc (as ++ rest)
    have v4 : bytes m4 K.V.plugin (width K.g) = k.val := by
      rw [e4]
      exact sp m3 ((v3 hz).trans (v2 hz))
    obtain ⟨m5, r5, h5⟩ := setOverride_run S R L hz h4 (as ++ rest)
    have h5' : Holds K m5 (σ.hook k) := by
      refine ⟨h5.cell, h5.status, fun hz => ?_, h5.or, h5.args, h5.buf⟩
      rw [h5.ov hz, v4]
      simp only [St.hook, if_pos hge]
    obtain ⟨hst', m6, t6, r6, h6, s6⟩ := ih (raised_le hst hr) h5' (by simp at hn; omega)
    refine ⟨hst', m6, t1 ++ (t2 ++ ([] ++ (([] ++ (t4 ++ [])) ++ t6))), ?_, h6, ?_⟩
    · rw [hooks]
      refine bind_run r1 ?_
      rw [if_neg (by rw [ha]; exact ho), ha]
      refine bind_run r2 (bind_run r3 (bind_run (a := ()) (m₁ := m5) (as₁ := as ++ rest) ?_ r6))
      unfold Spec.override
      rw [if_neg hz]
      refine bind_run (load_run (L.var mem_cur) _ _) ?_
      rw [c3, if_neg (by rw [small_toInt hr]; omega)]
      refine bind_run r4 ?_
      rw [hc]
      exact r5
    · have e : loopCalls K σ (k :: hs) = [K.ask K.C.next σ] ++
          ([⟨k.fn, K.hookArgs k, σ, K.buf⟩] ++ ([K.ask K.C.over
            { σ with status := raised σ.status k.res }] ++ loopCalls K (σ.hook k) hs)) := by
        rw [loopCalls, if_pos ⟨hz, hge⟩]
        rfl
      rw [e, List.append_nil]
      exact s1.append (s2.append (s4.append s6))

theorem low_byte (v : W) : v.extractLsb' 0 8 = 0 ↔ v.toNat % 256 = 0 := by
  constructor
  · intro h
    have := congrArg BitVec.toNat h
    simpa [BitVec.extractLsb'_toNat] using this
  · intro h
    apply BitVec.eq_of_toNat_eq
    simpa [BitVec.extractLsb'_toNat] using h

theorem orig_run (S : Simple K.g) (R : RetOk K.g.ret) (hp : ∀ p ∈ K.g.params, PassOk p) (L : Laid K)
    (rest : List (Ans U)) {σ : St} {as : List (Ans U)} {o : Option (List Byte)}
    (l : OrigAns K σ as o) {m : Memory} (h : Holds K m σ) :
    ∃ m' t, Spec.callOrig K.Wd K.V K.g K.C.ctx K.this K.args m (as ++ rest) = some ((), m', rest, t) ∧
      Holds K m' (σ.orig o) ∧ AreSeen K t (origCalls K σ o) := by
  have P := L.pairs
  have st := load_run (U := U) (L.var mem_status) m
  have cs : (K.C.vt + BitVec.ofNat 32 (4 * 3), K.C.should) ∈ K.cells := cell_should
  cases l with
  | superceded h3 =>
    obtain ⟨m', r, h'⟩ := origElse_run S R L h rest
    refine ⟨m', [] ++ [], ?_, h', ?_⟩
    · unfold Spec.callOrig
      refine bind_run (st _) ?_
      rw [h.status, if_pos h3]
      exact r
    · simp only [origCalls, if_pos h3]
      exact .nil
  | @refused a h3 q ha =>
    obtain ⟨m1, t1, r1, -, h1, s1⟩ := ctx_run L h cs q rest
    obtain ⟨m', r, h'⟩ := origElse_run S R L h1 rest
    refine ⟨m', [] ++ (t1 ++ []), ?_, h', ?_⟩
    · unfold Spec.callOrig
      refine bind_run (st _) ?_
      rw [h.status, if_neg h3]
      refine bind_run r1 ?_
      rw [if_pos ((low_byte _).2 ha)]
      exact r
    · simp only [origCalls, if_neg h3, Option.isSome_none, Bool.false_eq_true, if_false,
        List.append_nil, List.nil_append]
      exact s1
  | @called a b v h3 q ha d =>
    obtain ⟨m1, t1, r1, -, h1, s1⟩ := ctx_run L h cs q (b :: rest)
    have o1 : okN K.Wd.vis K.V.entry 4 = true := L.at cell_entry
    have e1 : rd m1 K.V.entry = K.C.entry := h1.at cell_entry
    obtain ⟨x, h2⟩ := d.quiet m1 h1
    have key : ∃ m3, keepResult K.Wd K.V K.g b K.V.orig (later K.Wd m1 b) rest = some ((), m3, rest, []) ∧
        Holds K m3 { σ with or := v } := by
      by_cases hz : K.g.ret.size = 0
      · exact ⟨_, keep_void hz _ _ _ _, h2.setVoid hz v⟩
      · obtain ⟨m3, r3, b3, f3⟩ := keep_run S R hz (L.var (mem_orig hz)) d.polite (later K.Wd m1 b) rest
        exact ⟨m3, r3, h2.setOrig L hz f3 (b3.trans (d.val hz m1 h1))⟩
    obtain ⟨m3, r3, h3'⟩ := key
    refine ⟨m3, [] ++ (t1 ++ ([] ++ ([] ++ ([⟨K.C.entry, K.origArgs, true, m1⟩] ++ [])))), ?_, h3', ?_⟩
    · unfold Spec.callOrig
      refine bind_run (st _) ?_
      rw [h.status, if_neg h3]
      refine bind_run r1 ?_
      rw [if_neg (fun h => ha ((low_byte _).1 h))]
      unfold Spec.callOriginal
      refine bind_run (hookParams_run L hp h1 _) (bind_run (load_run o1 m1 _) ?_)
      rw [e1]
      exact bind_run (callF_run K.Wd true _ _ d.polite _) r3
    · simp only [origCalls, if_neg h3, Option.isSome_some, if_true]
      exact s1.append (.cons (h1.seen _ _ _) .nil)

/-! ## The end -/

/-- Specification: the value is in what the program returns. -/
def Yields (g : Gen) (memret : W) (v : List Byte) (r : Ret U) (m : Memory) : Prop :=
  if g.ret.flags.getLsbD 1 then ∃ x, r = ⟨some x, none, none⟩ ∧ wordBytes x = v
  else if hid g then r = ⟨some memret, none, none⟩ ∧ bytes m memret g.ret.size = v
  else if flt g then
    if g.ret.size = 4 then ∃ x, r = ⟨none, none, some (U.of32 x)⟩ ∧ wordBytes x = v
    else ∃ x : BitVec 64, r = ⟨none, none, some (U.of64 x)⟩ ∧
      wordBytes (x.extractLsb' 0 32) ++ wordBytes (x.extractLsb' 32 32) = v
  else if g.ret.size ≤ 4 then ∃ x, r = ⟨some x, none, none⟩ ∧ (wordBytes x).take g.ret.size = v
  else ∃ x y, r = ⟨some x, some y, none⟩ ∧ (wordBytes x ++ wordBytes y).take g.ret.size = v

theorem rd64_split (m : Memory) (a : W) :
    (rd64 m a).extractLsb' 0 32 = rd m a ∧ (rd64 m a).extractLsb' 32 32 = rd m (a + 4) := by
  unfold rd64
  constructor
  · apply BitVec.eq_of_toNat_eq
    rw [BitVec.extractLsb'_toNat, BitVec.toNat_append, Nat.shiftRight_zero, Nat.shiftLeft_eq]
    have := (rd m a).isLt
    rw [Nat.mul_comm, ← Nat.two_pow_add_eq_or_of_lt this]
    omega
  · apply BitVec.eq_of_toNat_eq
    rw [BitVec.extractLsb'_toNat, BitVec.toNat_append, Nat.shiftLeft_eq, Nat.shiftRight_eq_div_pow]
    have h1 := (rd m a).isLt
    have h2 := (rd m (a + 4)).isLt
    rw [Nat.mul_comm, ← Nat.two_pow_add_eq_or_of_lt h1]
    omega

theorem return_run (S : Simple K.g) (R : RetOk K.g.ret) (L : Laid K) (D : hid K.g = true → Placed K)
    {m : Memory} {p : W} (rest : List (Ans U))
    (hp : K.g.ret.size ≠ 0 → (p, room K.g) ∈ K.written) :
    ∃ r m', (Spec.doReturn K.Wd K.g K.memret p >>= fun r => destroyRet K.Wd K.V K.g >>= fun _ => pure r) m rest
      = some (r, m', rest, []) ∧
      (K.g.ret.size ≠ 0 → Yields K.g K.memret (bytes m p (width K.g)) r m') := by
  have hd : ∀ (r : Ret U) m', (destroyRet K.Wd K.V K.g >>= fun _ => pure r : M U (Ret U)) m' rest
      = some (r, m', rest, []) := by
    intro r m'
    have : (destroyRet K.Wd K.V K.g : M U Unit) = pure () := by
      unfold destroyRet
      rw [if_neg S.dtor]
    rw [this]
    rfl
  have fin : ∀ (r : Ret U) m', Spec.doReturn K.Wd K.g K.memret p m rest = some (r, m', rest, []) →
      (Spec.doReturn K.Wd K.g K.memret p >>= fun r => destroyRet K.Wd K.V K.g >>= fun _ => pure r) m rest
        = some (r, m', rest, []) := fun r m' h => bind_run (t := []) h (hd r m')
  by_cases hz : K.g.ret.size = 0
  · refine ⟨⟨none, none, none⟩, m, fin _ _ ?_, fun h => absurd hz h⟩
    unfold Spec.doReturn
    rw [if_pos hz]
    rfl
  · have hpm := hp hz
    have ok := L.var hpm
    have hle := width_le K.g
    rcases ret_cases R hz with h1 | ⟨h1, h6⟩ | ⟨h1, h6, hf, hs⟩ | ⟨h1, h6, hf, hs⟩
    · have hw : width K.g = 4 := if_pos h1
      have hr : room K.g = 4 := by unfold room; rw [hw]
      rw [hr] at ok
      rw [hw, bytes_four]
      refine ⟨⟨some (rd m p), none, none⟩, m, fin _ _ ?_, fun _ => ?_⟩
      · unfold Spec.doReturn
        rw [if_neg hz, if_pos h1]
        exact bind_run (t := []) (load_run ok m rest) rfl
      · unfold Yields
        rw [if_pos h1]
        exact ⟨_, rfl, rfl⟩
    · have h1' : ¬ K.g.ret.flags.getLsbD 1 = true := by rw [h1]; simp
      have hw : width K.g = K.g.ret.size := if_neg h1'
      rw [hw] at hle ⊢
      have D := D h6
      have hlt := R.small
      refine ⟨⟨some K.memret, none, none⟩, blk m K.memret p K.g.ret.size, fin _ _ ?_, fun _ => ?_⟩
      · unfold Spec.doReturn
        rw [if_neg hz, if_neg h1', if_pos h6]
        refine bind_run (t := []) (a := ()) (m₁ := blk m K.memret p K.g.ret.size) (as₁ := rest) ?_ rfl
        unfold Spec.returnMem
        rw [if_neg (by rw [S.cctor h6]; simp)]
        unfold memcpy
        rw [okN_pre ok _ hle, D.ok, apart_of ((D.apart _ hpm).symm.mono (Nat.le_refl _) hle)]
        rfl
      · unfold Yields
        rw [if_neg h1', if_pos h6]
        exact ⟨rfl, blk_bytes _ _ _ (by omega)⟩
    · have h1' : ¬ K.g.ret.flags.getLsbD 1 = true := by rw [h1]; simp
      have h6' : ¬ hid K.g = true := by rw [h6]; simp
      have hw : width K.g = K.g.ret.size := if_neg h1'
      rw [hw] at hle ⊢
      rcases hs with hs | hs
      · have hr : room K.g = 4 := by unfold room; rw [hw, hs]
        rw [hr] at ok
        refine ⟨⟨none, none, some (U.of32 (rd m p))⟩, m, fin _ _ ?_, fun _ => ?_⟩
        · unfold Spec.doReturn
          rw [if_neg hz, if_neg h1', if_neg h6', if_pos hf, if_pos hs]
          exact bind_run (t := []) (load_run ok m rest) rfl
        · unfold Yields
          rw [if_neg h1', if_neg h6', if_pos hf, if_pos hs, hs, bytes_four]
          exact ⟨_, rfl, rfl⟩
      · have hr : room K.g = 8 := by unfold room; rw [hw, hs]
        rw [hr] at ok
        have hn : ¬ K.g.ret.size = 4 := by omega
        have hl : load64 K.Wd p m rest = some (rd64 m p, m, rest, []) := by unfold load64; rw [if_pos ok]
        refine ⟨⟨none, none, some (U.of64 (rd64 m p))⟩, m, fin _ _ ?_, fun _ => ?_⟩
        · unfold Spec.doReturn
          rw [if_neg hz, if_neg h1', if_neg h6', if_pos hf, if_neg hn]
          exact bind_run (t := []) hl rfl
        · unfold Yields
          rw [if_neg h1', if_neg h6', if_pos hf, if_neg hn, hs, bytes_eight]
          refine ⟨_, rfl, ?_⟩
          rw [(rd64_split m p).1, (rd64_split m p).2]
    · have h1' : ¬ K.g.ret.flags.getLsbD 1 = true := by rw [h1]; simp
      have h6' : ¬ hid K.g = true := by rw [h6]; simp
      have hf' : ¬ flt K.g = true := by rw [hf]; simp
      have hw : width K.g = K.g.ret.size := if_neg h1'
      rw [hw] at hle ⊢
      by_cases h4 : K.g.ret.size ≤ 4
      · have hr : room K.g = 4 := by unfold room; rw [hw]; omega
        rw [hr] at ok
        refine ⟨⟨some (rd m p), none, none⟩, m, fin _ _ ?_, fun _ => ?_⟩
        · unfold Spec.doReturn
          rw [if_neg hz, if_neg h1', if_neg h6', if_neg hf', if_pos h4]
          exact bind_run (t := []) (load_run ok m rest) rfl
        · unfold Yields
          rw [if_neg h1', if_neg h6', if_neg hf', if_pos h4]
          refine ⟨_, rfl, ?_⟩
          rw [← bytes_four, bytes_take _ _ h4]
      · have hr : room K.g = 8 := by unfold room; rw [hw]; omega
        rw [hr] at ok
        refine ⟨⟨some (rd m p), some (rd m (p + 4)), none⟩, m, fin _ _ ?_, fun _ => ?_⟩
        · unfold Spec.doReturn
          rw [if_neg hz, if_neg h1', if_neg h6', if_neg hf', if_neg h4]
          exact bind_run (t := []) (load_run (okN_lo ok) m rest)
            (bind_run (t := []) (load_run (okN_hi ok) m rest) rfl)
        · unfold Yields
          rw [if_neg h1', if_neg h6', if_neg hf', if_neg h4]
          refine ⟨_, _, rfl, ?_⟩
          rw [← bytes_eight, bytes_take _ _ hs]

theorem end_run (S : Simple K.g) (R : RetOk K.g.ret) (L : Laid K) (D : hid K.g = true → Placed K)
    {σ : St} (hst : σ.status.toNat ≤ 3) {as : List (Ans U)} (l : EndAns K σ as) (rest : List (Ans U))
    {m : Memory} (h : Holds K m σ) :
    ∃ r m' t, (prepare K.Wd K.V K.g K.C.ctx >>= fun p => endContext K.Wd K.g K.C.ctx >>= fun _ =>
        Spec.doReturn K.Wd K.g K.memret p >>= fun r => destroyRet K.Wd K.V K.g >>= fun _ => pure r)
        m (as ++ rest) = some (r, m', rest, t) ∧
      (K.g.ret.size ≠ 0 → Yields K.g K.memret (if 2 ≤ σ.status.toNat then σ.ov else σ.or) r m') ∧
      AreSeen K t (endCalls K σ) := by
  have ends : ∀ {m1 : Memory} {a : Ans U}, Holds K m1 σ → Polite plain 8 a →
      endContext K.Wd K.g K.C.ctx m1 (a :: rest) = some ((), later K.Wd m1 a, rest,
        [⟨K.g.endContext, word K.g.sh ++ word K.C.ctx, false, m1⟩] ++ []) := by
    intro m1 a _ hp
    unfold Spec.endContext
    exact bind_run (callF_run K.Wd false _ _ hp _) rfl
  cases l with
  | @void a hz q hp =>
    obtain ⟨r, m', run, y⟩ := return_run S R L D (m := later K.Wd m a) (p := 0) rest
      (fun h => absurd hz h)
    refine ⟨r, m', [] ++ (([⟨K.g.endContext, word K.g.sh ++ word K.C.ctx, false, m⟩] ++ []) ++ []), ?_,
      fun h => absurd hz h, ?_⟩
    · refine bind_run (a := 0) (m₁ := m) (as₁ := a :: rest) ?_ (bind_run (ends h hp) run)
      unfold prepare
      rw [if_pos hz]
      rfl
    · unfold endCalls
      rw [if_pos hz]
      exact .cons (h.seen _ _ _) .nil
  | @value p a hz q hpt qa hpa =>
    have st := load_run (U := U) (L.var mem_status) m
    have hc : (K.C.vt + BitVec.ofNat 32 (4 * (if σ.status.toInt < 2 then 2 else 1)),
        if 2 ≤ σ.status.toNat then K.C.over else K.C.orig) ∈ K.cells := by
      rw [small_toInt hst]
      by_cases h2 : 2 ≤ σ.status.toNat
      · rw [if_pos h2, if_neg (by omega)]
        exact cell_over hz
      · rw [if_neg h2, if_pos (by omega)]
        exact cell_orig hz
    obtain ⟨m1, t1, r1, -, h1, s1⟩ := ctx_run L h hc q (a :: rest)
    have h2 := qa m1 h1
    have hm : (p.reg 0, room K.g) ∈ K.written := by
      rw [hpt]
      split
      · exact mem_override hz
      · exact mem_orig hz
    obtain ⟨r, m', run, y⟩ := return_run S R L D (m := later K.Wd m1 a) (p := p.reg 0) rest (fun _ => hm)
    refine ⟨r, m', ([] ++ (t1 ++ [])) ++ (([⟨K.g.endContext, word K.g.sh ++ word K.C.ctx, false, m1⟩] ++ [])
      ++ []), ?_, fun _ => ?_, ?_⟩
    · refine bind_run (a := p.reg 0) (m₁ := m1) (as₁ := a :: rest) ?_ (bind_run (ends h1 hpa) run)
      unfold prepare
      rw [if_neg hz]
      refine bind_run (st _) ?_
      rw [h.status]
      exact bind_run r1 rfl
    · have := y hz
      rw [hpt] at this
      by_cases h2' : 2 ≤ σ.status.toNat
      · rw [if_pos h2'] at this ⊢
        rwa [h2.ov hz] at this
      · rw [if_neg h2'] at this ⊢
        rwa [h2.or hz] at this
    · unfold endCalls
      rw [if_neg hz]
      simp only [List.append_nil, List.nil_append]
      exact s1.append (.cons (h1.seen _ _ _) .nil)

/-! ## The beginning -/

theorem Before.only {m m' : Memory} (L : Laid K) (T : Told K) (h : Before K m) {x : W} {n : Nat}
    (hm : Only m m' x n) (hx : (x, n) ∈ K.written) (h1 : Apart x n K.V.status 4)
    (h2 : K.g.ret.size ≠ 0 → Apart x n K.V.override (room K.g))
    (h3 : K.g.ret.size ≠ 0 → Apart x n K.V.orig (room K.g)) : Before K m' where
  status := by rw [hm.rd h1, h.status]
  hi := by rw [hm.rd (T.hiApart _ hx), h.hi]
  vt := by rw [hm.rd (T.vtApart _ hx), h.vt]
  objects c hc := by rw [hm.rd (L.cellApart c (List.mem_cons_of_mem _ hc) _ hx), h.objects c hc]
  ov hz := by rw [hm.bytes ((h2 hz).mono (Nat.le_refl _) (width_le _)), h.ov hz]
  or hz := by rw [hm.bytes ((h3 hz).mono (Nat.le_refl _) (width_le _)), h.or hz]
  args := by rw [hm.bytes (L.argApart _ hx), h.args]

theorem before_first (L : Laid K) (T : Told K) : Before K (wr K.mem K.V.status 0) := by
  have P := L.pairs
  have o := only_wr K.mem K.V.status 0
  refine ⟨rd_wr_same _ _ _, ?_, ?_, ?_, ?_, ?_, ?_⟩
  · rw [o.rd (T.hiApart _ mem_status)]
  · rw [o.rd (T.vtApart _ mem_status)]
  · intro c hc
    rw [o.rd (L.cellApart c (List.mem_cons_of_mem _ hc) _ mem_status)]
  · intro hz
    exact o.bytes ((P.sv hz).mono (Nat.le_refl _) (width_le _))
  · intro hz
    exact o.bytes ((P.so hz).mono (Nat.le_refl _) (width_le _))
  · exact o.bytes (L.argApart _ mem_status)

theorem Before.seen {m : Memory} (h : Before K m) (f : W) (args : Bytes) (al : Bool)
    {buf : Option (List Byte)} (hb : ∀ b, buf = some b → bytes m K.V.vaBuf 4096 = b) :
    IsSeen K ⟨f, args, al, m⟩ ⟨f, args, first K, buf⟩ := ⟨rfl, rfl, h.status, h.ov, h.or, hb⟩

theorem start_run (L : Laid K) (T : Told K) (hva : K.g.varArgs = K.g.vafmt) {as : List (Ans U)}
    (l : Opening K as) (rest : List (Ans U)) :
    ∃ m' t, start K.Wd K.V K.g K.fmt K.mem (as ++ rest) = some ((), m', rest, t) ∧ Before K m' ∧
      (∀ b, K.buf = some b → bytes m' K.V.vaBuf 4096 = b) ∧
      AreSeen K t (if K.g.vafmt then [textCall K] else []) := by
  have P := L.pairs
  have B := before_first L T
  unfold Opening at l
  cases hv : K.g.vafmt with
  | false =>
    rw [hv] at l
    simp only [Bool.false_eq_true, if_false] at l ⊢
    subst l
    refine ⟨_, [] ++ ([] ++ []), ?_, B, ?_, .nil⟩
    · unfold start
      rw [hva, hv]
      exact bind_run (save_run (L.var mem_status) _ _ _) (bind_run (a := ()) rfl rfl)
    · intro b hb
      rw [buf_vafmt hb] at hv
      cases hv
  | true =>
    rw [hv] at l
    simp only [if_true] at l ⊢
    obtain ⟨a, rfl, ta⟩ := l
    have B1 : Before K (wr (wr K.mem K.V.status 0) K.V.vaArg (K.fmt + 4)) :=
      B.only L T (only_wr _ _ _) (mem_vaArg hv) (P.sa hv).symm (fun hz => (P.va hz hv).symm)
        (fun hz => (P.oa hz hv).symm)
    generalize hm1 : wr (wr K.mem K.V.status 0) K.V.vaArg (K.fmt + 4) = m1 at B1
    have hsz : K.argSize = slots K.g.params + 4 := by unfold Case.argSize; rw [if_pos hv]
    have okf : okN K.Wd.vis K.fmt 4 = true := by
      have := L.argOk
      rw [hsz] at this
      exact okN_shift this
    have ef : rd m1 K.fmt = rd K.mem K.fmt := by
      have := B1.args
      rw [hsz] at this
      exact rd_of_bytes (bytes_shift this)
    obtain ⟨B2, b2⟩ := ta.done m1 B1
    have okb : okN K.Wd.vis K.V.vaBuf 4096 = true := L.var (mem_vaBuf hv)
    have o3 := only_wr8 (later K.Wd m1 a) K.V.vaBuf 0 4095 (n := 4096) (by omega)
    have B3 := B2.only L T o3 (mem_vaBuf hv) (P.sb hv).symm (fun hz => (P.vb hz hv).symm)
        (fun hz => (P.ob hz hv).symm)
    refine ⟨_, [] ++ ([] ++ ([] ++ ([⟨K.g.vsn, (textCall K).args, true, m1⟩] ++ []))), ?_, B3, ?_, ?_⟩
    · unfold start
      rw [hva, hv]
      refine bind_run (save_run (L.var mem_status) _ _ _)
        (bind_run (save_run (L.var (mem_vaArg hv)) _ _ _) ?_)
      rw [hm1]
      simp only [if_true]
      refine bind_run (load_run okf _ _) ?_
      rw [ef]
      refine bind_run (callF_run K.Wd true _ _ ta.polite _) ?_
      unfold save8
      rw [if_pos]
      · rfl
      · rw [okN_iff] at okb
        exact okb 4095 (by omega)
    · intro b hb
      have e : b = K.text ++ [0] := by
        unfold Case.buf at hb
        rw [if_pos hv] at hb
        exact (Option.some.inj hb).symm
      rw [e, bytes_split _ _ (n := 4095) (k := 1) (by omega)]
      refine congr (congrArg _ ?_) ?_
      · rw [← b2]
        refine bytes_congr fun i hi => if_neg fun he => ?_
        have := ofNat_inj (by omega) (by omega) _ he
        omega
      · show [wr8 _ _ _ (K.V.vaBuf + BitVec.ofNat 32 4095 + BitVec.ofNat 32 0)] = [0]
        rw [show K.V.vaBuf + BitVec.ofNat 32 4095 + BitVec.ofNat 32 0 = K.V.vaBuf + BitVec.ofNat 32 4095
          from BitVec.add_zero _]
        unfold wr8
        rw [if_pos rfl]
    · exact .cons (B1.seen _ _ _ fun b hb => by cases hb) .nil

/-! ## The whole -/

theorem callHooks_run (S : Simple K.g) (R : RetOk K.g.ret) (hp : ∀ p ∈ K.g.params, PassOk p) (L : Laid K)
    (rest : List (Ans U)) {σ σ' : St} {hs : List Hook} {as : List (Ans U)} (l : LoopAns K σ hs as σ')
    (hst : σ.status.toNat ≤ 3) {m : Memory} {n : Nat} (h : Holds K m σ) (hn : hs.length < n) :
    σ'.status.toNat ≤ 3 ∧
    ∃ m' t, Spec.callHooks K.Wd K.V K.g n K.C.ctx K.args m (as ++ rest) = some ((), m', rest, t) ∧
      Holds K m' σ' ∧ AreSeen K t (loopCalls K σ hs) := by
  obtain ⟨hst', m', t, r, h', s⟩ := loop_run S R hp L rest l hst (h.prev L 0) hn
  refine ⟨hst', m', [] ++ t, ?_, h', s⟩
  unfold Spec.callHooks
  exact bind_run (save_run (L.var mem_prev) _ _ _) r

theorem orig_status (σ : St) (o : Option (List Byte)) : (σ.orig o).status = σ.status := by cases o <;> rfl

theorem whole_run (S : Simple K.g) (R : RetOk K.g.ret) (hp : ∀ p ∈ K.g.params, PassOk p)
    (hva : K.g.varArgs = K.g.vafmt) (L : Laid K) (T : Told K) (D : hid K.g = true → Placed K)
    {pre post : List Hook} {mid ans : List (Ans U)} {o : Option (List Byte)}
    (P : Plays K pre post mid ans o) {n : Nat} (hn : pre.length < n) (hn' : post.length < n)
    (rest : List (Ans U)) :
    ∃ r m' t, hookFunction K.Wd K.V K.g n K.this K.memret K.args K.fmt K.mem (ans ++ rest)
        = some (r, m', rest, t) ∧
      (K.g.ret.size ≠ 0 → Yields K.g K.memret (if 2 ≤ (last K pre post o).status.toNat
        then (last K pre post o).ov else (last K pre post o).or) r m') ∧
      AreSeen K t (wanted K pre post o) := by
  obtain ⟨as₀, a, as₁, as₃, as₄, rfl, op, pa, l1, lo, l2, le⟩ := P
  simp only [List.append_assoc, List.cons_append]
  obtain ⟨m₁, t₁, r1, B, hb, w1⟩ := start_run L T hva op (a :: (as₁ ++ (mid ++ (as₃ ++ (as₄ ++ rest)))))
  have r2 : ∀ as : List (Ans U), construct K.Wd K.V K.g m₁ as = some ((), m₁, as, []) := by
    intro as
    unfold construct
    rw [if_neg S.ctor]
    rfl
  have h0 := pa.done m₁ B hb
  have r3 : setup K.Wd K.V K.g K.this m₁ (a :: (as₁ ++ (mid ++ (as₃ ++ (as₄ ++ rest)))))
      = some (K.C.ctx, later K.Wd m₁ a, as₁ ++ (mid ++ (as₃ ++ (as₄ ++ rest))),
        [⟨(setupCall K).target, (setupCall K).args, false, m₁⟩]) := by
    unfold setup
    refine bind_run (t := []) (load_run T.vt m₁ _) (bind_run (t := []) (load_run T.hi m₁ _) ?_)
    rw [B.hi, B.vt, ← pa.ctx]
    exact bind_run (u := []) (callF_run K.Wd false _ _ pa.polite _) rfl
  have w3 : AreSeen K [⟨(setupCall K).target, (setupCall K).args, false, m₁⟩] [setupCall K] :=
    .cons (B.seen _ _ _ hb) .nil
  have st0 : (first K).status.toNat ≤ 3 := by simp [first]
  obtain ⟨st1, m₂, t₂, r4, h4, w4⟩ := callHooks_run S R hp L (mid ++ (as₃ ++ (as₄ ++ rest))) l1 st0 h0 hn
  obtain ⟨m₃, t₃, r5, h5, w5⟩ := orig_run S R hp L (as₃ ++ (as₄ ++ rest)) lo h4
  have st2 : ((passed (first K) pre).orig o).status.toNat ≤ 3 := by rw [orig_status]; exact st1
  obtain ⟨st3, m₄, t₄, r6, h6, w6⟩ := callHooks_run S R hp L (as₄ ++ rest) l2 st2 h5 hn'
  obtain ⟨r, m₅, t₅, r7, y, w7⟩ := end_run S R L D st3 le rest h6
  refine ⟨r, m₅, t₁ ++ ([] ++ ([⟨(setupCall K).target, (setupCall K).args, false, m₁⟩] ++
    (t₂ ++ (t₃ ++ (t₄ ++ t₅))))), ?_, y, ?_⟩
  · unfold hookFunction
    exact bind_run r1 (bind_run (r2 _) (bind_run r3 (bind_run r4 (bind_run r5 (bind_run r6 r7)))))
  · exact w1.append (w3.append (w4.append (w5.append (w6.append w7))))

end Verif.Jit32.Rule
