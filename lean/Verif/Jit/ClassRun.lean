import Verif.Jit.ClassSpec
import Verif.Jit.RuleRun
/-
Helper lemmas for C89: the parts of the hook function, run with answers that keep their promises,
for a result with special functions.
-/
namespace Verif.Jit.Class

open Rule

variable {K : Case}

/-- No counterpart in /repo: the layout of a call. -/
abbrev Laid' (K : Case) : Prop := Laid K.Wd K.V K.g K.C K.H
/-- No counterpart in /repo: the cells of a call. -/
abbrev cells' (K : Case) : List (W × W) := cells K.V K.g K.C K.H

theorem AreMade.append {c c' : List SCall} {e e' : List (Want × Option W)} (h : AreMade K c e)
    (h' : AreMade K c' e') : AreMade K (c ++ c') (e ++ e') := by
  induction h with
  | nil => exact h'
  | cons a _ ih => exact .cons a ih

theorem Keeps.holds {m : Memory} {st : W} (h : Keeps K m st) :
    Rule.Holds K.V K.g K.C K.H m ⟨st, rd m K.V.override, rd m K.V.orig⟩ :=
  ⟨h.cell, h.status, fun _ => rfl, fun _ => rfl⟩

theorem keeps_of {m : Memory} {σ : St} (h : Rule.Holds K.V K.g K.C K.H m σ) : Keeps K m σ.status :=
  ⟨h.cell, h.status⟩

theorem Keeps.made {m : Memory} {st : W} (h : Keeps K m st) (w : Want) :
    IsMade K ⟨w.target K, w.args K, m⟩ (w, some st) :=
  ⟨rfl, rfl, fun _ e => by cases e; exact h.status⟩

theorem Keeps.at {m : Memory} {st : W} (h : Keeps K m st) {x v : W} (hc : (x, v) ∈ cells' K) :
    rd m x = v := h.cell (x, v) hc

/-- A call of the context. -/
theorem ask_run {m : Memory} {st : W} (L : Laid' K) (h : Keeps K m st) {idx : Nat} {w : Want}
    (hc : (K.C.vt + BitVec.ofNat 64 (8 * idx), w.target K) ∈ cells' K) (hw : w.args K = [.int K.C.ctx])
    {a : Ans} (q : Calm K a st) (as : List Ans) :
    ∃ m' t, virt K.Wd K.C.ctx idx [] m (a :: as) = some (a, m', as, t) ∧ Keeps K m' st ∧
      AreMade K t [(w, some st)] := by
  refine ⟨_, _, virt_run (L.at cell_ctx) (h.at cell_ctx) (L.at hc) (h.at hc) [] a as, q m h, ?_⟩
  rw [← hw]
  exact .cons (h.made w) .nil

/-- A call of a special function. -/
theorem special_run {m : Memory} {st : W} (h : Keeps K m st) (w : Want) {a : Ans} (q : Calm K a st)
    (as : List Ans) :
    ∃ t, (callF K.Wd (w.target K) (w.args K) >>= fun _ => pure ()) m (a :: as)
        = some ((), Rule.after K.Wd m a, as, t) ∧ Keeps K (Rule.after K.Wd m a) st ∧
      AreMade K t [(w, some st)] :=
  ⟨_, bind_run (callF_run K.Wd _ _ m a as) rfl, q m h, .cons (h.made w) .nil⟩

theorem move_run (S : IsClass K.g) {m : Memory} {st : W} (h : Keeps K m st) (d s : W) {a : Ans}
    (q : Calm K a st) (as : List Ans) :
    ∃ t, move K.Wd K.g d s m (a :: as) = some ((), Rule.after K.Wd m a, as, t) ∧
      Keeps K (Rule.after K.Wd m a) st ∧ AreMade K t [(.assign d s, some st)] := by
  unfold move
  rw [if_pos S.assign]
  exact special_run h (.assign d s) q as

theorem drop_run (S : IsClass K.g) {m : Memory} {st : W} (h : Keeps K m st) {a : Ans}
    (q : Calm K a st) (as : List Ans) :
    ∃ t, dropT K.Wd K.V K.g m (a :: as) = some ((), Rule.after K.Wd m a, as, t) ∧
      Keeps K (Rule.after K.Wd m a) st ∧ AreMade K t [(.destroy K.V.temp, some st)] := by
  unfold dropT
  rw [if_pos S.dtor]
  exact special_run h (.destroy K.V.temp) q as

theorem not_float (S : IsClass K.g) : ¬ K.g.ret.type = typeFloat := by
  rw [S.kind]; decide

theorem not_basic (S : IsClass K.g) : ¬ K.g.ret.type = typeBasic := by
  rw [S.kind]; decide

/-- The temporary object becomes the value of a variable. -/
theorem keepT_run (S : IsClass K.g) {m : Memory} {st : W} (h : Keeps K m st) (b : Ans) (v : W)
    {c d : Ans} (qc : Calm K c st) (qd : Calm K d st) (as : List Ans) :
    ∃ t, keepResult K.Wd K.V K.g b v m (c :: d :: as)
        = some ((), Rule.after K.Wd (Rule.after K.Wd m c) d, as, t) ∧
      Keeps K (Rule.after K.Wd (Rule.after K.Wd m c) d) st ∧
      AreMade K t [(.assign v K.V.temp, some st), (.destroy K.V.temp, some st)] := by
  obtain ⟨t1, r1, h1, s1⟩ := move_run S h v K.V.temp qc (d :: as)
  obtain ⟨t2, r2, h2, s2⟩ := drop_run S h1 qd as
  refine ⟨t1 ++ t2, ?_, h2, s1.append s2⟩
  unfold keepResult
  rw [if_neg S.size, if_neg (by rw [S.notRef]; simp), if_neg (not_float S), if_neg (not_basic S),
    if_pos S.mem, if_pos S.temp]
  exact bind_run r1 r2

theorem place_temp (S : IsClass K.g) (v : W) (ps : List Arg) :
    withPlace K.g (place K.V K.g v) ps = .int K.V.temp :: ps := by
  unfold withPlace place hiddenPtr
  rw [S.mem, if_pos S.temp, if_pos (by simpa using S.size)]
  rfl

theorem oneHook_run (S : IsClass K.g) (L : Laid' K) {m : Memory} {st : W} (h : Keeps K m st) {k : Hook}
    (hk : k ∈ K.H) {b c d : Ans} (hb : HookBack K b k st) (hc : Inert K c k.res st)
    (hd : Inert K d k.res st) (as : List Ans) :
    ∃ m' t, hookOne K.Wd K.V K.g ⟨false, false⟩ k.obj K.ps m (b :: c :: d :: as) = some ((), m', as, t) ∧
      Keeps K m' st ∧ rd m' K.V.cur = k.res ∧
      AreMade K t [(.hook K.V.temp k, some st), (.assign K.V.plugin K.V.temp, some st),
        (.destroy K.V.temp, some st)] := by
  have P := L.pairs
  have h0 := h.holds.wr L (v := 0) mem_cur P.cs P.cv P.co
  obtain ⟨m1, r1, h1', -, -⟩ := whenPrev_run L true h0 (b :: c :: d :: as)
  have h1 : Keeps K m1 st := keeps_of h1'
  have e1 : rd m1 k.obj = k.vt := h1.at (cell_obj hk)
  have e2 : rd m1 (k.vt + BitVec.ofNat 64 (8 * K.g.callIdx)) = k.fn := h1.at (cell_fn hk)
  have r2 := virt_run (L.at (cell_obj hk)) e1 (L.at (cell_fn hk)) e2 (.int K.V.temp :: K.ps) b
    (c :: d :: as)
  have h2 := hb.calm m1 h1
  obtain ⟨t, r3, h3, s3⟩ := keepT_run S h2 b K.V.plugin hc.calm hd.calm as
  refine ⟨_, [] ++ ([] ++ ([⟨(Want.hook K.V.temp k).target K, (Want.hook K.V.temp k).args K, m1⟩]
    ++ (t ++ []))), ?_, h3, hd.cur _ (hc.cur _ (hb.cur m1 h1)), ?_⟩
  · unfold hookOne
    refine bind_run (save_run (L.ok _ mem_cur) _ _ _) (bind_run r1 ?_)
    rw [place_temp S]
    exact bind_run r2 (bind_run r3 rfl)
  · rw [List.append_nil]
    exact AreMade.append (.cons (h1.made _) .nil) s3

theorem pass_run (S : IsClass K.g) (L : Laid' K) (rest : List Ans) :
    ∀ {st : W} {hs : List Hook} {as : List Ans}, PassAns K st hs as →
    st.toNat ≤ 3 → ∀ {m : Memory} {n : Nat}, Keeps K m st → hs.length < n →
    (raisedBy st hs).toNat ≤ 3 ∧
    ∃ m' t, hooks K.Wd K.V K.g ⟨false, false⟩ K.C.ctx K.ps n m (as ++ rest) = some ((), m', rest, t) ∧
      Keeps K m' (raisedBy st hs) ∧ AreMade K t (passCalls K st hs) := by
  have cn : (K.C.vt + BitVec.ofNat 64 (8 * K.g.getNext), Want.next.target K) ∈ cells' K := cell_next
  intro st hs as l
  induction l with
  | @done st a q ha =>
    intro hst m n h hn
    refine ⟨hst, ?_⟩
    obtain ⟨n, rfl⟩ : ∃ k, n = k + 1 := ⟨n - 1, by simp at hn; omega⟩
    obtain ⟨m1, t1, r1, h1, s1⟩ := ask_run (w := .next) L h cn rfl q rest
    refine ⟨m1, t1 ++ [], ?_, h1, ?_⟩
    · rw [hooks]
      refine bind_run r1 ?_
      rw [if_pos ha]
      rfl
    · rw [List.append_nil]
      exact s1
  | @hook st k hs a b c d as hk ho hr q ha hb hc hd hlt l ih =>
    intro hst m n h hn
    obtain ⟨n, rfl⟩ : ∃ k, n = k + 1 := ⟨n - 1, by simp at hn; omega⟩
    obtain ⟨m1, t1, r1, h1, s1⟩ := ask_run (w := .next) L h cn rfl q (b :: c :: d :: as ++ rest)
    obtain ⟨m2, t2, r2, h2, c2, s2⟩ := oneHook_run S L h1 hk hb hc hd (as ++ rest)
    obtain ⟨m3, r3, h3, -⟩ := raise_run L h2.holds c2 hst hr (as ++ rest)
    obtain ⟨hst', m4, t4, r4, h4, s4⟩ := ih (raised_le hst hr) (keeps_of h3) (by simp at hn; omega)
    refine ⟨hst', m4, t1 ++ (t2 ++ ([] ++ ([] ++ t4))), ?_, h4, ?_⟩
    · rw [hooks]
      refine bind_run r1 ?_
      rw [if_neg (by rw [ha]; exact ho), ha]
      refine bind_run r2 (bind_run r3 (bind_run (a := ()) (m₁ := m3) (as₁ := as ++ rest) ?_ r4))
      unfold override
      rw [if_pos (Or.inr (by rw [small_toInt hr]; omega))]
      rfl
    · rw [passCalls, if_neg (by omega)]
      exact s1.append (s2.append s4)
  | @over st k hs a b c d e f as hk ho hr q ha hb hc hd hge qe he qf l ih =>
    intro hst m n h hn
    obtain ⟨n, rfl⟩ : ∃ k, n = k + 1 := ⟨n - 1, by simp at hn; omega⟩
    obtain ⟨m1, t1, r1, h1, s1⟩ := ask_run (w := .next) L h cn rfl q (b :: c :: d :: e :: f :: as ++ rest)
    obtain ⟨m2, t2, r2, h2, c2, s2⟩ := oneHook_run S L h1 hk hb hc hd (e :: f :: as ++ rest)
    obtain ⟨m3, r3, h3, -⟩ := raise_run L h2.holds c2 hst hr (e :: f :: as ++ rest)
    have co : (K.C.vt + BitVec.ofNat 64 (8 * K.g.getOverride), Want.over.target K) ∈ cells' K :=
      cell_over S.size
    obtain ⟨m4, t4, r4, h4, s4⟩ := ask_run (w := .over) L (keeps_of h3) co rfl qe (f :: as ++ rest)
    obtain ⟨t5, r5, h5, s5⟩ := move_run S h4 K.V.override K.V.plugin qf (as ++ rest)
    obtain ⟨hst', m6, t6, r6, h6, s6⟩ := ih (raised_le hst hr) h5 (by simp at hn; omega)
    refine ⟨hst', m6, t1 ++ (t2 ++ ([] ++ ((t4 ++ t5) ++ t6))), ?_, h6, ?_⟩
    · rw [hooks]
      refine bind_run r1 ?_
      rw [if_neg (by rw [ha]; exact ho), ha]
      refine bind_run r2 (bind_run r3 (bind_run (a := ()) (as₁ := as ++ rest) ?_ r6))
      unfold override
      rw [if_neg (by rw [small_toInt hr]; have := S.size; omega)]
      refine bind_run r4 ?_
      rw [he]
      unfold setOverride
      rw [if_neg (by rw [S.notRef]; simp)]
      exact r5
    · rw [passCalls, if_pos hge]
      exact s1.append (s2.append ((s4.append s5).append s6))

theorem mid_run (S : IsClass K.g) (L : Laid' K) (rest : List Ans) {st : W} {as : List Ans} {o : Option W}
    (l : MidAns K st as o) {m : Memory} (h : Keeps K m st) :
    ∃ m' t, callOrig K.Wd K.V K.g K.C.ctx K.this K.ps m (as ++ rest) = some ((), m', rest, t) ∧
      Keeps K m' st ∧ AreMade K t (midCalls K st o) := by
  have ld := load_run (L.ok _ mem_status) m
  have cs : (K.C.vt + BitVec.ofNat 64 (8 * K.g.shouldCall), Want.should.target K) ∈ cells' K := cell_should
  have els : ∀ {m : Memory} {c : Ans}, Keeps K m st → Calm K c st → ∃ t,
      origElse K.Wd K.V K.g m (c :: rest) = some ((), Rule.after K.Wd m c, rest, t) ∧
      Keeps K (Rule.after K.Wd m c) st ∧ AreMade K t [(.assign K.V.orig K.V.override, some st)] := by
    intro m c h q
    unfold origElse
    rw [if_neg S.size, if_neg (by rw [S.notRef]; simp)]
    exact move_run S h _ _ q rest
  cases l with
  | @superceded c h3 q =>
    obtain ⟨t, r, h', s⟩ := els h q
    refine ⟨_, [] ++ t, ?_, h', ?_⟩
    · unfold callOrig
      refine bind_run (ld _) ?_
      rw [h.status, if_pos h3]
      exact r
    · unfold midCalls
      rw [if_pos h3]
      exact s
  | @refused a c h3 q ha qc =>
    obtain ⟨m1, t1, r1, h1, s1⟩ := ask_run (w := .should) L h cs rfl q (c :: rest)
    obtain ⟨t, r, h', s⟩ := els h1 qc
    refine ⟨_, [] ++ (t1 ++ t), ?_, h', ?_⟩
    · unfold callOrig
      refine bind_run (ld _) ?_
      rw [h.status, if_neg h3]
      refine bind_run r1 ?_
      rw [if_pos ha]
      exact r
    · unfold midCalls
      rw [if_neg h3]
      exact s1.append s
  | @called a b c d v h3 q ha hb qc qd =>
    obtain ⟨m1, t1, r1, h1, s1⟩ := ask_run (w := .should) L h cs rfl q (b :: c :: d :: rest)
    have e1 : rd m1 K.V.entry = K.C.entry := h1.at cell_entry
    obtain ⟨t, r3, h', s3⟩ := keepT_run S (hb m1 h1) b K.V.orig qc qd rest
    refine ⟨_, [] ++ (t1 ++ ([] ++ ([⟨(Want.original K.V.temp v).target K,
      (Want.original K.V.temp v).args K, m1⟩] ++ t))), ?_, h', ?_⟩
    · unfold callOrig
      refine bind_run (ld _) ?_
      rw [h.status, if_neg h3]
      refine bind_run r1 ?_
      rw [if_neg ha]
      unfold callOriginal
      refine bind_run (load_run (L.at cell_entry) m1 _) ?_
      rw [e1, place_temp S]
      exact bind_run (callF_run K.Wd _ _ _ _ _) r3
    · unfold midCalls
      rw [if_neg h3]
      exact s1.append (AreMade.append (.cons (h1.made _) .nil) s3)

theorem no_params : ∀ (l : List Pass) (ps : List Arg), (∀ p ∈ l, p.destroyed = false) →
    ∀ (m : Memory) (as : List Ans), destroyParams K.Wd l ps m as = some ((), m, as, []) := by
  intro l
  induction l with
  | nil => intro ps _ m as; rfl
  | cons p l ih =>
    intro ps h m as
    cases ps with
    | nil => rfl
    | cons x ps =>
      rw [destroyParams, if_neg (by rw [h p (by simp)]; simp)]
      exact ih ps (fun q hq => h q (by simp [hq])) m as

theorem finish_run (S : IsClass K.g) (L : Laid' K) {st : W} (hst : st.toNat ≤ 3)
    {p a c d₁ d₂ d₃ : Ans} (l : EndAns K st p a c d₁ d₂ d₃) (rest : List Ans) {m : Memory}
    (h : Keeps K m st) :
    ∃ m' t, (prepare K.Wd K.V K.g K.C.ctx >>= fun p => endContext K.Wd K.g K.C.ctx >>= fun _ =>
        destroyParams K.Wd K.g.params K.ps >>= fun _ =>
        doReturn K.Wd K.g K.memret p >>= destroyRet K.Wd K.V K.g ⟨false, false⟩)
        m ([p, a, c, d₁, d₂, d₃] ++ rest) = some (⟨some (d₃.reg 0), some (d₃.xmm 0)⟩, m', rest, t) ∧
      AreMade K t (endCalls K st) := by
  have co : (K.C.vt + BitVec.ofNat 64 (8 * K.g.getOverride), K.C.over) ∈ cells' K := cell_over S.size
  have cr : (K.C.vt + BitVec.ofNat 64 (8 * K.g.getOrig), K.C.orig) ∈ cells' K := cell_orig S.size
  have h1 := l.ptr m h
  have h2 := l.done _ h1
  obtain ⟨t3, r3, h3, s3⟩ := special_run h2
    (.copy K.memret (if 2 ≤ st.toNat then K.V.override else K.V.orig)) l.copy ([d₁, d₂, d₃] ++ rest)
  have h4 := l.dtor₁ _ h3
  have h5 := l.dtor₂ _ h4
  obtain ⟨w0, hw0⟩ : ∃ w0, w0 = if 2 ≤ st.toNat then Want.over else Want.origPtr := ⟨_, rfl⟩
  have et : w0.target K = if 2 ≤ st.toInt then K.C.over else K.C.orig := by
    rw [small_toInt hst, hw0]
    by_cases h2 : 2 ≤ st.toNat
    · rw [if_pos h2, if_pos (by omega)]; rfl
    · rw [if_neg h2, if_neg (by omega)]; rfl
  have ea : w0.args K = [.int K.C.ctx] := by rw [hw0]; split <;> rfl
  refine ⟨Rule.after K.Wd (Rule.after K.Wd (Rule.after K.Wd (Rule.after K.Wd (Rule.after K.Wd
    (Rule.after K.Wd m p) a) c) d₁) d₂) d₃, ([] ++ ([] ++ ([] ++ ([] ++ ([⟨w0.target K, w0.args K, m⟩] ++ [])))))
    ++ (([⟨Want.endContext.target K, Want.endContext.args K, Rule.after K.Wd m p⟩] ++ [])
    ++ ([] ++ (([] ++ (t3 ++ [])) ++ ([⟨(Want.destroy K.V.orig).target K, (Want.destroy K.V.orig).args K,
      Rule.after K.Wd (Rule.after K.Wd (Rule.after K.Wd m p) a) c⟩]
    ++ ([⟨(Want.destroy K.V.override).target K, (Want.destroy K.V.override).args K,
      Rule.after K.Wd (Rule.after K.Wd (Rule.after K.Wd (Rule.after K.Wd m p) a) c) d₁⟩]
    ++ ([⟨(Want.destroy K.V.plugin).target K, (Want.destroy K.V.plugin).args K,
      Rule.after K.Wd (Rule.after K.Wd (Rule.after K.Wd (Rule.after K.Wd (Rule.after K.Wd m p) a) c) d₁)
        d₂⟩] ++ [])))))), ?_, ?_⟩
  · refine bind_run (a := p.reg 0) (m₁ := Rule.after K.Wd m p) (as₁ := [a, c, d₁, d₂, d₃] ++ rest) ?_
      (bind_run (a := ()) (m₁ := Rule.after K.Wd (Rule.after K.Wd m p) a)
        (as₁ := [c, d₁, d₂, d₃] ++ rest) ?_
      (bind_run (no_params _ _ S.params _ _)
      (bind_run (a := ⟨some K.memret, none⟩) (m₁ := Rule.after K.Wd (Rule.after K.Wd (Rule.after K.Wd m p) a) c)
        (as₁ := [d₁, d₂, d₃] ++ rest) ?_ ?_)))
    · unfold prepare
      rw [if_neg S.size]
      refine bind_run (load_run (L.at cell_ctx) _ _) ?_
      rw [h.at cell_ctx]
      refine bind_run (load_run (L.at cr) _ _) (bind_run (load_run (L.at co) _ _)
        (bind_run (load_run (L.ok _ mem_status) _ _) ?_))
      rw [h.at cr, h.at co, h.status, ← et, ← ea]
      exact bind_run (callF_run K.Wd _ _ _ _ _) rfl
    · unfold endContext
      exact bind_run (callF_run K.Wd _ _ _ _ _) rfl
    · unfold doReturn
      rw [if_neg S.size, if_neg (by rw [S.notRef]; simp)]
      refine bind_run (a := 0) (m₁ := Rule.after K.Wd (Rule.after K.Wd m p) a)
        (as₁ := [c, d₁, d₂, d₃] ++ rest) ?_ ?_
      · unfold retValue
        rw [if_neg]
        · rfl
        · rintro (h | h | ⟨-, h⟩)
          · exact not_float S h
          · exact not_basic S h
          · rw [S.reg] at h; cases h
      · rw [if_pos S.mem]
        refine bind_run (a := ()) ?_ rfl
        unfold returnMem
        rw [if_pos S.cctor, l.which]
        exact r3
    · unfold destroyRet
      rw [if_pos ⟨S.byVal, S.dtor⟩]
      exact bind_run (callF_run K.Wd _ _ _ _ _) (bind_run (callF_run K.Wd _ _ _ _ _)
        (bind_run (callF_run K.Wd _ _ _ _ _) rfl))
  · simp only [List.append_nil, List.nil_append]
    rw [endCalls, ← hw0]
    exact AreMade.append (.cons (h.made _) .nil) (AreMade.append (.cons (h1.made _) .nil) (s3.append
      (.cons (h3.made _) (.cons (h4.made _) (.cons (h5.made _) .nil)))))

theorem construct_run (S : IsClass K.g) {c₁ c₂ c₃ : Ans} (h₁ : CtorAns K c₁) (h₂ : CtorAns K c₂)
    (h₃ : CtorAns K c₃) {m : Memory} (R : Ready K m) (as : List Ans) :
    ∃ m' t, construct K.Wd K.V K.g m (c₁ :: c₂ :: c₃ :: as) = some ((), m', as, t) ∧ Ready K m' ∧
      AreMade K t [(.construct K.V.orig, none), (.construct K.V.override, none),
        (.construct K.V.plugin, none)] := by
  refine ⟨Rule.after K.Wd (Rule.after K.Wd (Rule.after K.Wd m c₁) c₂) c₃,
    [⟨(Want.construct K.V.orig).target K, (Want.construct K.V.orig).args K, m⟩]
    ++ ([⟨(Want.construct K.V.override).target K, (Want.construct K.V.override).args K,
      Rule.after K.Wd m c₁⟩]
    ++ ([⟨(Want.construct K.V.plugin).target K, (Want.construct K.V.plugin).args K,
      Rule.after K.Wd (Rule.after K.Wd m c₁) c₂⟩] ++ [])), ?_,
    h₃ _ (h₂ _ (h₁ m R)), ?_⟩
  · unfold construct
    rw [if_pos ⟨S.byVal, S.ctor⟩]
    exact bind_run (callF_run K.Wd _ _ _ _ _) (bind_run (callF_run K.Wd _ _ _ _ _)
      (bind_run (callF_run K.Wd _ _ _ _ _) rfl))
  · have n : ∀ (w : Want) (m : Memory), IsMade K ⟨w.target K, w.args K, m⟩ (w, none) :=
      fun _ _ => ⟨rfl, rfl, fun _ e => by cases e⟩
    exact .cons (n _ _) (.cons (n _ _) (.cons (n _ _) .nil))

theorem passes_run (S : IsClass K.g) (L : Laid' K) (rest : List Ans) {st : W} {hs : List Hook}
    {as : List Ans} (l : PassAns K st hs as) (hst : st.toNat ≤ 3) {m : Memory} {n : Nat}
    (h : Keeps K m st) (hn : hs.length < n) :
    (raisedBy st hs).toNat ≤ 3 ∧
    ∃ m' t, callHooks K.Wd K.V K.g ⟨false, false⟩ n K.C.ctx K.ps m (as ++ rest) = some ((), m', rest, t) ∧
      Keeps K m' (raisedBy st hs) ∧ AreMade K t (passCalls K st hs) := by
  obtain ⟨hst', m', t, r, h', s⟩ := pass_run S L rest l hst (keeps_of (h.holds.prev L 0)) hn
  refine ⟨hst', m', [] ++ t, ?_, h', s⟩
  unfold callHooks
  exact bind_run (save_run (L.ok _ mem_prev) _ _ _) r

/-- The variables for the result codes are set. -/
theorem start_run (L : Laid' K) (T : Told K.Wd K.V K.g K.this) {m : Memory} (R : Ready K m)
    (as : List Ans) :
    ∃ m', start K.Wd K.V m as = some ((), m', as, []) ∧ Ready K m' ∧ rd m' K.V.status = 0 := by
  have P := L.pairs
  refine ⟨wr (wr (wr m K.V.status 0) K.V.cur 0) K.V.prev 0, ?_, ⟨?_, ?_, ?_⟩, ?_⟩
  · unfold start
    exact bind_run (t := []) (save_run (L.ok _ mem_status) _ _ _)
      (bind_run (t := []) (save_run (L.ok _ mem_cur) _ _ _) (save_run (L.ok _ mem_prev) _ _ _))
  · rw [rd_wr_apart _ _ _ _ (T.hiApart _ (by simp)), rd_wr_apart _ _ _ _ (T.hiApart _ (by simp)),
      rd_wr_apart _ _ _ _ (T.hiApart _ (by simp)), R.hi]
  · rw [rd_wr_apart _ _ _ _ (T.vtApart _ (by simp)), rd_wr_apart _ _ _ _ (T.vtApart _ (by simp)),
      rd_wr_apart _ _ _ _ (T.vtApart _ (by simp)), R.vt]
  · intro c hc
    have hc' : c ∈ cells' K := List.mem_cons_of_mem _ hc
    rw [rd_wr_apart _ _ _ _ (L.cellApart c hc' _ mem_prev), rd_wr_apart _ _ _ _ (L.cellApart c hc' _ mem_cur),
      rd_wr_apart _ _ _ _ (L.cellApart c hc' _ mem_status), R.objects c hc]
  · rw [rd_wr_apart _ _ _ _ P.ps, rd_wr_apart _ _ _ _ P.cs, rd_wr_same]

theorem all_run (S : IsClass K.g) (L : Laid' K) (T : Told K.Wd K.V K.g K.this) {pre post : List Hook}
    {ans : List Ans} {o : Option W} (P : Plays K pre post ans o) {n : Nat} (hn : pre.length < n)
    (hn' : post.length < n) (rest : List Ans) :
    ∃ r m' t, hookFunction K.Wd K.V K.g ⟨false, false⟩ n K.this K.memret K.ps K.mem (ans ++ rest)
        = some (r, m', rest, t) ∧ AreMade K t (wanted K pre post o) := by
  obtain ⟨c₁, c₂, c₃, a, as₁, as₂, as₃, p, e, c, d₁, d₂, d₃, rfl, q1, q2, q3, pa, l1, lo, l2, le⟩ := P
  rw [List.append_assoc, List.append_assoc, List.append_assoc, List.append_assoc]
  obtain ⟨m₁, t₁, r1, R1, w1⟩ := construct_run S q1 q2 q3 (m := K.mem) ⟨rfl, rfl, fun _ _ => rfl⟩
    (a :: (as₁ ++ (as₂ ++ (as₃ ++ ([p, e, c, d₁, d₂, d₃] ++ rest)))))
  obtain ⟨m₂, r2, R2, hs2⟩ := start_run L T R1
    (a :: (as₁ ++ (as₂ ++ (as₃ ++ ([p, e, c, d₁, d₂, d₃] ++ rest)))))
  have h0 := pa.done m₂ R2 hs2
  have r3 : ∀ as : List Ans, setup K.Wd K.V K.g K.this m₂ (a :: as)
      = some (K.C.ctx, Rule.after K.Wd m₂ a, as, [⟨Want.setup.target K, Want.setup.args K, m₂⟩]) := by
    intro as
    unfold setup
    refine bind_run (t := []) (load_run T.hi m₂ _) (bind_run (t := []) (load_run T.vt m₂ _) ?_)
    rw [R2.hi, R2.vt, if_neg S.size, if_neg S.size, ← pa.ctx]
    exact bind_run (u := []) (callF_run K.Wd _ _ _ _ _) rfl
  obtain ⟨st1, m₃, t₃, r4, h4, w4⟩ := passes_run S L
    (as₂ ++ (as₃ ++ ([p, e, c, d₁, d₂, d₃] ++ rest))) l1 (by simp) h0 hn
  obtain ⟨m₄, t₄, r5, h5, w5⟩ := mid_run S L (as₃ ++ ([p, e, c, d₁, d₂, d₃] ++ rest)) lo h4
  obtain ⟨st3, m₅, t₅, r6, h6, w6⟩ := passes_run S L ([p, e, c, d₁, d₂, d₃] ++ rest) l2 st1 h5 hn'
  obtain ⟨m₆, t₆, r7, w7⟩ := finish_run S L st3 le rest h6
  refine ⟨⟨some (d₃.reg 0), some (d₃.xmm 0)⟩, m₆, t₁ ++ ([] ++ ([⟨Want.setup.target K, Want.setup.args K, m₂⟩] ++
    (t₃ ++ (t₄ ++ (t₅ ++ t₆))))), ?_, ?_⟩
  · unfold hookFunction
    exact bind_run r1 (bind_run r2 (bind_run (r3 _) (bind_run r4 (bind_run r5 (bind_run r6 r7)))))
  · have ws : IsMade K ⟨Want.setup.target K, Want.setup.args K, m₂⟩ (.setup, some 0) :=
      ⟨rfl, rfl, fun _ e => by cases e; exact hs2⟩
    exact w1.append (AreMade.append (.cons ws .nil) (w4.append (w5.append (w6.append w7))))

end Verif.Jit.Class
