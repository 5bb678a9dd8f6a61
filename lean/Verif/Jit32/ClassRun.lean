import Verif.Jit32.ClassSpec
import Verif.Jit32.RuleRun
/-
Helper lemmas for C88: the parts of the hook function, run with answers that keep their promises,
for a result with special functions.
-/
namespace Verif.Jit32.Class

open Spec Rule
open Verif.Jit (Byte)

variable {U : Fpu} {K : Case}

theorem AreMade.append {c c' : List SCall} {e e' : List (Want × W)} (h : AreMade K c e)
    (h' : AreMade K c' e') : AreMade K (c ++ c') (e ++ e') := by
  induction h with
  | nil => exact h'
  | cons a _ ih => exact .cons a ih

theorem Keeps.holds {m : Memory} {st : W} (h : Keeps K m st) :
    Holds K m ⟨st, bytes m K.V.override (width K.g), bytes m K.V.orig (width K.g)⟩ :=
  ⟨h.cell, h.status, fun _ => rfl, fun _ => rfl, h.args, h.buf⟩

theorem keeps_of {m : Memory} {σ : St} (h : Holds K m σ) : Keeps K m σ.status :=
  ⟨h.cell, h.status, h.args, h.buf⟩

theorem Keeps.made {m : Memory} {st : W} (h : Keeps K m st) (w : Want) (al : Bool) :
    IsMade K ⟨w.target K, w.args K, al, m⟩ (w, st) := ⟨rfl, rfl, h.status, fun _ => h.buf⟩

theorem Ready.made {m : Memory} (h : Ready K m) (w : Want) (al : Bool) :
    IsMade K ⟨w.target K, w.args K, al, m⟩ (w, 0) := ⟨rfl, rfl, h.status, fun _ => h.buf⟩

theorem Keeps.at {m : Memory} {st : W} (h : Keeps K m st) {x v : W} (hc : (x, v) ∈ K.cells) :
    rd m x = v := h.cell (x, v) hc

/-- A call of the context. -/
theorem ask_run {m : Memory} {st : W} (L : Laid K) (h : Keeps K m st) {idx : Nat} {w : Want}
    (hc : (K.C.vt + BitVec.ofNat 32 (4 * idx), w.target K) ∈ K.cells) (hw : w.args K = word K.C.ctx)
    {a : Ans U} (q : Calm K a st 4) (as : List (Ans U)) :
    ∃ m' t, virt K.Wd K.C.ctx idx m (a :: as) = some (a, m', as, t) ∧ Keeps K m' st ∧
      AreMade K t [(w, st)] := by
  refine ⟨_, _, virt_run (L.at cell_ctx) (h.at cell_ctx) (L.at hc) (h.at hc) q.polite as, q.quiet m h, ?_⟩
  rw [← hw]
  exact .cons (h.made w _) .nil

/-- A call of a special function. -/
theorem special_run {m : Memory} {st : W} (h : Keeps K m st) (w : Want) {a : Ans U}
    (q : Calm K a st (w.args K).length) (as : List (Ans U)) :
    ∃ t, (callF K.Wd plain true (w.target K) (w.args K) >>= fun _ => pure ()) m (a :: as)
        = some ((), later K.Wd m a, as, t) ∧ Keeps K (later K.Wd m a) st ∧ AreMade K t [(w, st)] :=
  ⟨_, bind_run (callF_run K.Wd true _ m q.polite as) rfl, q.quiet m h, .cons (h.made w _) .nil⟩

theorem move_run (S : IsClass K.g) {m : Memory} {st : W} (h : Keeps K m st) (d s : W) {a : Ans U}
    (q : Calm K a st 8) (as : List (Ans U)) :
    ∃ t, move K.Wd K.g d s m (a :: as) = some ((), later K.Wd m a, as, t) ∧
      Keeps K (later K.Wd m a) st ∧ AreMade K t [(.assign d s, st)] := by
  unfold move
  rw [if_pos S.assign]
  exact special_run h (.assign d s) q as

theorem drop_run (S : IsClass K.g) {m : Memory} {st : W} (h : Keeps K m st) {a : Ans U}
    (q : Calm K a st 4) (as : List (Ans U)) :
    ∃ t, dropT K.Wd K.V K.g m (a :: as) = some ((), later K.Wd m a, as, t) ∧
      Keeps K (later K.Wd m a) st ∧ AreMade K t [(.destroy K.V.temp, st)] := by
  unfold dropT
  rw [if_pos S.dtor]
  exact special_run h (.destroy K.V.temp) q as

/-- The temporary object becomes the value of a variable. -/
theorem keepT_run (S : IsClass K.g) {m : Memory} {st : W} (h : Keeps K m st) (b : Ans U) (v : W)
    {c d : Ans U} (qc : Calm K c st 8) (qd : Calm K d st 4) (as : List (Ans U)) :
    ∃ t, keepResult K.Wd K.V K.g b v m (c :: d :: as)
        = some ((), later K.Wd (later K.Wd m c) d, as, t) ∧
      Keeps K (later K.Wd (later K.Wd m c) d) st ∧
      AreMade K t [(.assign v K.V.temp, st), (.destroy K.V.temp, st)] := by
  obtain ⟨t1, r1, h1, s1⟩ := move_run S h v K.V.temp qc (d :: as)
  obtain ⟨t2, r2, h2, s2⟩ := drop_run S h1 qd as
  refine ⟨t1 ++ t2, ?_, h2, s1.append s2⟩
  unfold keepResult
  rw [if_neg S.size, if_neg (by rw [S.notRef]; simp), if_pos S.mem, if_pos S.temp]
  exact bind_run r1 r2

theorem place_temp (S : IsClass K.g) (v : W) : place K.V K.g v = word K.V.temp := by
  unfold place
  rw [if_pos S.mem, if_pos S.temp]

theorem kind_mem (S : IsClass K.g) : (⟨hid K.g, flt K.g⟩ : Kind) = ⟨true, false⟩ := by
  have h := S.mem
  have hf : flt K.g = false := by
    unfold hid at h
    unfold flt
    rw [h]
    simp
  rw [h, hf]

theorem oneHook_run (S : IsClass K.g) (hp : ∀ p ∈ K.g.params, PassOk p) (L : Laid K) {m : Memory}
    {st : W} (h : Keeps K m st) {k : Hook} (hk : k ∈ K.H) {b c d : Ans U} (hb : HookBack K b k st)
    (hc : Inert K c k.res st 8) (hd : Inert K d k.res st 4) (as : List (Ans U)) :
    ∃ m' t, hookOne K.Wd K.V K.g k.obj K.args m (b :: c :: d :: as) = some ((), m', as, t) ∧
      Keeps K m' st ∧ rd m' K.V.cur = k.res ∧
      AreMade K t [(.hook K.V.temp k, st), (.assign K.V.plugin K.V.temp, st),
        (.destroy K.V.temp, st)] := by
  have P := L.pairs
  have h0 := h.holds.only L (only_wr m K.V.cur 0) mem_cur P.sc.symm P.cv P.co P.cb
  have h1 : Keeps K (wr m K.V.cur 0) st := keeps_of h0
  generalize hm1 : wr m K.V.cur 0 = m1 at h0 h1
  have e1 : rd m1 k.obj = k.vt := h1.at (cell_obj hk)
  have e2 : rd m1 (k.vt + 8) = k.fn := h1.at (cell_fn hk)
  have h2 := hb.quiet m1 h1
  obtain ⟨t, r3, h3, s3⟩ := keepT_run S h2 b K.V.plugin hc.calm hd.calm as
  refine ⟨_, [] ++ ([] ++ ([] ++ ([] ++ ([⟨(Want.hook K.V.temp k).target K,
    (Want.hook K.V.temp k).args K, true, m1⟩] ++ t)))), ?_, h3, ?_, ?_⟩
  · unfold hookOne
    refine bind_run (save_run (L.var mem_cur) _ _ _) ?_
    rw [hm1]
    refine bind_run (hookParams_run L hp h0 _) (bind_run (load_run (L.at (cell_obj hk)) _ _) ?_)
    rw [e1]
    refine bind_run (load_run (L.at (cell_fn hk)) _ _) ?_
    rw [e2, place_temp S, kind_mem S]
    exact bind_run (callF_run K.Wd true _ _ hb.polite _) r3
  · exact hd.cur _ (hc.cur _ (hb.cur m1 h1))
  · exact AreMade.append (.cons (h1.made _ _) .nil) s3

theorem after_cons (st : W) (h : Hook) (hs : List Hook) :
    after st (h :: hs) = after (raised st h.res) hs := rfl

theorem pass_run (S : IsClass K.g) (hp : ∀ p ∈ K.g.params, PassOk p) (L : Laid K)
    (rest : List (Ans U)) :
    ∀ {st : W} {hs : List Hook} {as : List (Ans U)}, PassAns K st hs as →
    st.toNat ≤ 3 → ∀ {m : Memory} {n : Nat}, Keeps K m st → hs.length < n →
    (after st hs).toNat ≤ 3 ∧
    ∃ m' t, hooks K.Wd K.V K.g K.C.ctx K.args n m (as ++ rest) = some ((), m', rest, t) ∧
      Keeps K m' (after st hs) ∧ AreMade K t (passCalls K st hs) := by
  have cn : (K.C.vt + BitVec.ofNat 32 (4 * 0), Want.next.target K) ∈ K.cells := by
    rw [show K.C.vt + BitVec.ofNat 32 (4 * 0) = K.C.vt from BitVec.add_zero _]
    exact cell_next
  intro st hs as l
  induction l with
  | @done st a q ha =>
    intro hst m n h hn
    refine ⟨hst, ?_⟩
    obtain ⟨n, rfl⟩ : ∃ k, n = k + 1 := ⟨n - 1, by simp at hn; omega⟩
    obtain ⟨m1, t1, r1, h1, s1⟩ := ask_run (w := .next) L h cn rfl q rest
    refine ⟨m1, t1 ++ [], ?_, h1, ?_⟩
    · rw [hooks]
      refine bind_run r1 ?_
      rw [if_pos ha]
      rfl
    · rw [List.append_nil]
      exact s1
  | @hook st k hs a b c d as hk ho hr q ha hb hc hd hlt l ih =>
    intro hst m n h hn
    obtain ⟨n, rfl⟩ : ∃ k, n = k + 1 := ⟨n - 1, by simp at hn; omega⟩
    obtain ⟨m1, t1, r1, h1, s1⟩ := ask_run (w := .next) L h cn rfl q (b :: c :: d :: as ++ rest)
    obtain ⟨m2, t2, r2, h2, c2, s2⟩ := oneHook_run S hp L h1 hk hb hc hd (as ++ rest)
    obtain ⟨m3, r3, h3, c3, -⟩ := raise_run L h2.holds c2 hst hr (as ++ rest)
    obtain ⟨hst', m4, t4, r4, h4, s4⟩ := ih (raised_le hst hr) (keeps_of h3) (by simp at hn; omega)
    refine ⟨hst', m4, t1 ++ (t2 ++ ([] ++ ([] ++ t4))), ?_, h4, ?_⟩
    · rw [hooks]
      refine bind_run r1 ?_
      rw [if_neg (by rw [ha]; exact ho), ha]
      refine bind_run r2 (bind_run r3 (bind_run (a := ()) (m₁ := m3) (as₁ := as ++ rest) ?_ r4))
      unfold Spec.override
      rw [if_neg S.size]
      refine bind_run (t := []) (load_run (L.var mem_cur) _ _) ?_
      rw [c3, if_pos (by rw [small_toInt hr]; omega)]
      rfl
    · rw [passCalls, if_neg (by omega)]
      exact s1.append (s2.append s4)
  | @over st k hs a b c d e f as hk ho hr q ha hb hc hd hge qe he qf l ih =>
    intro hst m n h hn
    obtain ⟨n, rfl⟩ : ∃ k, n = k + 1 := ⟨n - 1, by simp at hn; omega⟩
    obtain ⟨m1, t1, r1, h1, s1⟩ := ask_run (w := .next) L h cn rfl q (b :: c :: d :: e :: f :: as ++ rest)
    obtain ⟨m2, t2, r2, h2, c2, s2⟩ := oneHook_run S hp L h1 hk hb hc hd (e :: f :: as ++ rest)
    obtain ⟨m3, r3, h3, c3, -⟩ := raise_run L h2.holds c2 hst hr (e :: f :: as ++ rest)
    have co : (K.C.vt + BitVec.ofNat 32 (4 * 1), Want.over.target K) ∈ K.cells := cell_over S.size
    obtain ⟨m4, t4, r4, h4, s4⟩ := ask_run (w := .over) L (keeps_of h3) co rfl qe (f :: as ++ rest)
    obtain ⟨t5, r5, h5, s5⟩ := move_run S h4 K.V.override K.V.plugin qf (as ++ rest)
    obtain ⟨hst', m6, t6, r6, h6, s6⟩ := ih (raised_le hst hr) h5 (by simp at hn; omega)
    refine ⟨hst', m6, t1 ++ (t2 ++ ([] ++ (([] ++ (t4 ++ t5)) ++ t6))), ?_, h6, ?_⟩
    · rw [hooks]
      refine bind_run r1 ?_
      rw [if_neg (by rw [ha]; exact ho), ha]
      refine bind_run r2 (bind_run r3 (bind_run (a := ()) (as₁ := as ++ rest) ?_ r6))
      unfold Spec.override
      rw [if_neg S.size]
      refine bind_run (load_run (L.var mem_cur) _ _) ?_
      rw [c3, if_neg (by rw [small_toInt hr]; omega)]
      refine bind_run r4 ?_
      rw [he]
      unfold setOverride
      rw [if_neg (by rw [S.notRef]; simp)]
      exact r5
    · rw [passCalls, if_pos hge]
      exact s1.append (s2.append ((s4.append s5).append s6))

theorem mid_run (S : IsClass K.g) (hp : ∀ p ∈ K.g.params, PassOk p) (L : Laid K) (rest : List (Ans U))
    {st : W} {as : List (Ans U)} {o : Option (List Byte)} (l : MidAns K st as o) {m : Memory}
    (h : Keeps K m st) :
    ∃ m' t, Spec.callOrig K.Wd K.V K.g K.C.ctx K.this K.args m (as ++ rest) = some ((), m', rest, t) ∧
      Keeps K m' st ∧ AreMade K t (midCalls K st o) := by
  have ld := load_run (U := U) (L.var mem_status) m
  have cs : (K.C.vt + BitVec.ofNat 32 (4 * 3), Want.should.target K) ∈ K.cells := cell_should
  have els : ∀ {m : Memory} {c : Ans U}, Keeps K m st → Calm K c st 8 → ∃ t,
      Spec.origElse K.Wd K.V K.g m (c :: rest) = some ((), later K.Wd m c, rest, t) ∧
      Keeps K (later K.Wd m c) st ∧ AreMade K t [(.assign K.V.orig K.V.override, st)] := by
    intro m c h q
    unfold Spec.origElse
    rw [if_neg S.size, if_neg (by rw [S.notRef]; simp)]
    exact move_run S h _ _ q rest
  cases l with
  | @superceded c h3 q =>
    obtain ⟨t, r, h', s⟩ := els h q
    refine ⟨_, [] ++ t, ?_, h', ?_⟩
    · unfold Spec.callOrig
      refine bind_run (ld _) ?_
      rw [h.status, if_pos h3]
      exact r
    · unfold midCalls
      rw [if_pos h3]
      exact s
  | @refused a c h3 q ha qc =>
    obtain ⟨m1, t1, r1, h1, s1⟩ := ask_run (w := .should) L h cs rfl q (c :: rest)
    obtain ⟨t, r, h', s⟩ := els h1 qc
    refine ⟨_, [] ++ (t1 ++ t), ?_, h', ?_⟩
    · unfold Spec.callOrig
      refine bind_run (ld _) ?_
      rw [h.status, if_neg h3]
      refine bind_run r1 ?_
      rw [if_pos ((low_byte _).2 ha)]
      exact r
    · unfold midCalls
      rw [if_neg h3]
      exact s1.append s
  | @called a b c d v h3 q ha hb qc qd =>
    obtain ⟨m1, t1, r1, h1, s1⟩ := ask_run (w := .should) L h cs rfl q (b :: c :: d :: rest)
    have e1 : rd m1 K.V.entry = K.C.entry := h1.at cell_entry
    obtain ⟨t, r3, h', s3⟩ := keepT_run S (hb.quiet m1 h1) b K.V.orig qc qd rest
    refine ⟨_, [] ++ (t1 ++ ([] ++ ([] ++ ([⟨(Want.original K.V.temp v).target K,
      (Want.original K.V.temp v).args K, true, m1⟩] ++ t)))), ?_, h', ?_⟩
    · unfold Spec.callOrig
      refine bind_run (ld _) ?_
      rw [h.status, if_neg h3]
      refine bind_run r1 ?_
      rw [if_neg (fun h => ha ((low_byte _).1 h))]
      unfold Spec.callOriginal
      refine bind_run (hookParams_run L hp h1.holds _) (bind_run (load_run (L.at cell_entry) m1 _) ?_)
      rw [e1, place_temp S, kind_mem S]
      exact bind_run (callF_run K.Wd true _ _ hb.polite _) r3
    · unfold midCalls
      rw [if_neg h3]
      exact s1.append (AreMade.append (.cons (h1.made _ _) .nil) s3)

theorem finish_run (S : IsClass K.g) (L : Laid K) {st : W} (hst : st.toNat ≤ 3)
    {p a c d₁ d₂ d₃ : Ans U} (l : EndAns K st p a c d₁ d₂ d₃) (rest : List (Ans U)) {m : Memory}
    (h : Keeps K m st) :
    ∃ m' t, (prepare K.Wd K.V K.g K.C.ctx >>= fun p => endContext K.Wd K.g K.C.ctx >>= fun _ =>
        Spec.doReturn K.Wd K.g K.memret p >>= fun r => destroyRet K.Wd K.V K.g >>= fun _ => pure r)
        m ([p, a, c, d₁, d₂, d₃] ++ rest) = some (⟨some K.memret, none, none⟩, m', rest, t) ∧
      AreMade K t (endCalls K st) := by
  have hc : (K.C.vt + BitVec.ofNat 32 (4 * (if st.toInt < 2 then 2 else 1)),
      (if 2 ≤ st.toNat then Want.over else Want.origPtr).target K) ∈ K.cells := by
    rw [small_toInt hst]
    by_cases h2 : 2 ≤ st.toNat
    · rw [if_pos h2, if_neg (by omega)]
      exact cell_over S.size
    · rw [if_neg h2, if_pos (by omega)]
      exact cell_orig S.size
  obtain ⟨m1, t1, r1, h1, s1⟩ := ask_run (w := if 2 ≤ st.toNat then Want.over else Want.origPtr) L h hc
    (by split <;> rfl) l.ptr ([a, c, d₁, d₂, d₃] ++ rest)
  have h2 := l.done.quiet m1 h1
  obtain ⟨t3, r3, h3, s3⟩ := special_run h2
    (.copy K.memret (if 2 ≤ st.toNat then K.V.override else K.V.orig)) l.copy ([d₁, d₂, d₃] ++ rest)
  have h4 := l.dtor₁.quiet _ h3
  have h5 := l.dtor₂.quiet _ h4
  refine ⟨later K.Wd (later K.Wd (later K.Wd (later K.Wd (later K.Wd m1 a) c) d₁) d₂) d₃,
    ([] ++ (t1 ++ [])) ++ (([⟨Want.endContext.target K, Want.endContext.args K, false, m1⟩] ++ [])
    ++ ((t3 ++ []) ++ ([⟨(Want.destroy K.V.plugin).target K, (Want.destroy K.V.plugin).args K, true,
      later K.Wd (later K.Wd m1 a) c⟩]
    ++ ([⟨(Want.destroy K.V.override).target K, (Want.destroy K.V.override).args K, true,
      later K.Wd (later K.Wd (later K.Wd m1 a) c) d₁⟩]
    ++ ([⟨(Want.destroy K.V.orig).target K, (Want.destroy K.V.orig).args K, true,
      later K.Wd (later K.Wd (later K.Wd (later K.Wd m1 a) c) d₁) d₂⟩] ++ [])) ++ []))), ?_, ?_⟩
  · refine bind_run (a := p.reg 0) (m₁ := m1) (as₁ := [a, c, d₁, d₂, d₃] ++ rest) ?_
      (bind_run (a := ()) (m₁ := later K.Wd m1 a) (as₁ := [c, d₁, d₂, d₃] ++ rest) ?_
      (bind_run (a := ⟨some K.memret, none, none⟩) (m₁ := later K.Wd (later K.Wd m1 a) c)
        (as₁ := [d₁, d₂, d₃] ++ rest) ?_ (bind_run (a := ()) ?_ rfl)))
    · unfold prepare
      rw [if_neg S.size]
      refine bind_run (load_run (L.var mem_status) _ _) ?_
      rw [h.status]
      exact bind_run r1 rfl
    · unfold Spec.endContext
      exact bind_run (callF_run K.Wd false _ _ l.done.polite _) rfl
    · unfold Spec.doReturn
      rw [if_neg S.size, if_neg (by rw [S.notRef]; simp), if_pos S.mem]
      refine bind_run (a := ()) ?_ rfl
      unfold Spec.returnMem
      rw [if_pos S.cctor, l.which]
      exact r3
    · unfold destroyRet
      rw [if_pos ⟨S.byVal, S.dtor⟩]
      exact bind_run (callF_run K.Wd true _ _ l.dtor₁.polite _)
        (bind_run (callF_run K.Wd true _ _ l.dtor₂.polite _)
          (bind_run (callF_run K.Wd true _ _ l.dtor₃.polite _) rfl))
  · simp only [List.append_nil, List.nil_append]
    exact s1.append (AreMade.append (.cons (h1.made _ _) .nil) (s3.append
      (.cons (h3.made _ _) (.cons (h4.made _ _) (.cons (h5.made _ _) .nil)))))

theorem ready_of {m : Memory} (B : Before K m) (hb : ∀ b, K.buf = some b → bytes m K.V.vaBuf 4096 = b) :
    Ready K m := ⟨B.status, B.hi, B.vt, B.objects, B.args, hb⟩

/-- The first calls, as C87 has them. -/
theorem opened {t : List SCall} (h : AreSeen K t (if K.g.vafmt then [textCall K] else [])) :
    AreMade K t (if K.g.vafmt then [(.text, 0)] else []) := by
  cases hv : K.g.vafmt with
  | false =>
    rw [hv] at h
    simp only [Bool.false_eq_true, if_false] at h ⊢
    cases h
    exact .nil
  | true =>
    rw [hv] at h
    simp only [if_true] at h ⊢
    cases h with
    | cons a b =>
      cases b
      exact .cons ⟨a.target, a.args, a.status, fun h => absurd rfl h⟩ .nil

theorem construct_run (S : IsClass K.g) {c₁ c₂ c₃ : Ans U} (h₁ : CtorAns K c₁) (h₂ : CtorAns K c₂)
    (h₃ : CtorAns K c₃) {m : Memory} (R : Ready K m) (as : List (Ans U)) :
    ∃ m' t, construct K.Wd K.V K.g m (c₁ :: c₂ :: c₃ :: as) = some ((), m', as, t) ∧ Ready K m' ∧
      AreMade K t [(.construct K.V.orig, 0), (.construct K.V.override, 0),
        (.construct K.V.plugin, 0)] := by
  have R1 := h₁.quiet m R
  have R2 := h₂.quiet _ R1
  refine ⟨later K.Wd (later K.Wd (later K.Wd m c₁) c₂) c₃,
    [⟨(Want.construct K.V.orig).target K, (Want.construct K.V.orig).args K, true, m⟩]
    ++ ([⟨(Want.construct K.V.override).target K, (Want.construct K.V.override).args K, true,
      later K.Wd m c₁⟩]
    ++ ([⟨(Want.construct K.V.plugin).target K, (Want.construct K.V.plugin).args K, true,
      later K.Wd (later K.Wd m c₁) c₂⟩] ++ [])), ?_,
    h₃.quiet _ R2, ?_⟩
  · unfold construct
    rw [if_pos ⟨S.byVal, S.ctor⟩]
    exact bind_run (callF_run K.Wd true _ _ h₁.polite _) (bind_run (callF_run K.Wd true _ _ h₂.polite _)
      (bind_run (callF_run K.Wd true _ _ h₃.polite _) rfl))
  · exact .cons (R.made _ _) (.cons (R1.made _ _) (.cons (R2.made _ _) .nil))

theorem passes_run (S : IsClass K.g) (hp : ∀ p ∈ K.g.params, PassOk p) (L : Laid K)
    (rest : List (Ans U)) {st : W} {hs : List Hook} {as : List (Ans U)} (l : PassAns K st hs as)
    (hst : st.toNat ≤ 3) {m : Memory} {n : Nat} (h : Keeps K m st) (hn : hs.length < n) :
    (after st hs).toNat ≤ 3 ∧
    ∃ m' t, Spec.callHooks K.Wd K.V K.g n K.C.ctx K.args m (as ++ rest) = some ((), m', rest, t) ∧
      Keeps K m' (after st hs) ∧ AreMade K t (passCalls K st hs) := by
  obtain ⟨hst', m', t, r, h', s⟩ := pass_run S hp L rest l hst (keeps_of (h.holds.prev L 0)) hn
  refine ⟨hst', m', [] ++ t, ?_, h', s⟩
  unfold Spec.callHooks
  exact bind_run (save_run (L.var mem_prev) _ _ _) r

theorem all_run (S : IsClass K.g) (hp : ∀ p ∈ K.g.params, PassOk p) (hva : K.g.varArgs = K.g.vafmt)
    (L : Laid K) (T : Told K) {pre post : List Hook} {ans : List (Ans U)} {o : Option (List Byte)}
    (P : Plays K pre post ans o) {n : Nat} (hn : pre.length < n) (hn' : post.length < n)
    (rest : List (Ans U)) :
    ∃ m' t, hookFunction K.Wd K.V K.g n K.this K.memret K.args K.fmt K.mem (ans ++ rest)
        = some (⟨some K.memret, none, none⟩, m', rest, t) ∧ AreMade K t (wanted K pre post o) := by
  obtain ⟨as₀, c₁, c₂, c₃, a, as₁, as₂, as₃, p, e, c, d₁, d₂, d₃, rfl, op, q1, q2, q3, pa, l1, lo, l2,
    le⟩ := P
  rw [List.append_assoc, List.append_assoc, List.append_assoc, List.append_assoc, List.append_assoc]
  generalize hr0 : [c₁, c₂, c₃, a] ++ (as₁ ++ (as₂ ++ (as₃ ++ ([p, e, c, d₁, d₂, d₃] ++ rest)))) = rest₀
  obtain ⟨m₁, t₁, r1, B, hb, w1⟩ := start_run L T hva op rest₀
  subst hr0
  have R := ready_of B hb
  obtain ⟨m₂, t₂, r2, R2, w2⟩ := construct_run S q1 q2 q3 R
    (a :: (as₁ ++ (as₂ ++ (as₃ ++ ([p, e, c, d₁, d₂, d₃] ++ rest)))))
  have h0 := pa.done m₂ R2
  have r3 : ∀ as : List (Ans U), setup K.Wd K.V K.g K.this m₂ (a :: as)
      = some (K.C.ctx, later K.Wd m₂ a, as, [⟨Want.setup.target K, Want.setup.args K, false, m₂⟩]) := by
    intro as
    unfold setup
    refine bind_run (t := []) (load_run T.vt m₂ _) (bind_run (t := []) (load_run T.hi m₂ _) ?_)
    rw [R2.hi, R2.vt, ← pa.ctx]
    exact bind_run (u := []) (callF_run K.Wd false _ _ pa.polite _) rfl
  obtain ⟨st1, m₃, t₃, r4, h4, w4⟩ := passes_run S hp L
    (as₂ ++ (as₃ ++ ([p, e, c, d₁, d₂, d₃] ++ rest))) l1 (by simp) h0 hn
  obtain ⟨m₄, t₄, r5, h5, w5⟩ := mid_run S hp L (as₃ ++ ([p, e, c, d₁, d₂, d₃] ++ rest)) lo h4
  obtain ⟨st3, m₅, t₅, r6, h6, w6⟩ := passes_run S hp L ([p, e, c, d₁, d₂, d₃] ++ rest) l2 st1 h5 hn'
  obtain ⟨m₆, t₆, r7, w7⟩ := finish_run S L st3 le rest h6
  refine ⟨m₆, t₁ ++ (t₂ ++ ([⟨Want.setup.target K, Want.setup.args K, false, m₂⟩] ++
    (t₃ ++ (t₄ ++ (t₅ ++ t₆))))), ?_, ?_⟩
  · unfold hookFunction
    exact bind_run r1 (bind_run r2 (bind_run (r3 _) (bind_run r4 (bind_run r5 (bind_run r6 r7)))))
  · refine (opened w1).append ?_
    exact w2.append (AreMade.append (.cons (R2.made .setup _) .nil) (w4.append (w5.append (w6.append w7))))

end Verif.Jit32.Class
