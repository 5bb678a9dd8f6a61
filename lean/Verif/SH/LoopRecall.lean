import Verif.SH.LoopResult
import Verif.SH.LoopStat
import Verif.SH.LoopNest
/-
C12 (recalls), C51 (accessors at any recall depth) and C11 (SH_CALL).
-/
namespace Verif.SH

/-! ### recall -/

namespace Ex

/-- The first pre handler answers OVERRIDE with value 9 by a recall; the second pre handler is running. -/
def rec1 : List Op := setup ++ [.call 2008 1000, .tick, .recall 2 9 2008 1000, .tick]

/-- The second pre handler recalls as well, with HANDLED; then the call goes on to the post handler. -/
def rec2 : List Op := rec1 ++ [.recall 1 0 2008 1000, .tick, .handlerRet 0, .tick, .origRet 7, .tick]

/-- The whole call. -/
def rec3 : List Op := rec2 ++ [.handlerRet 0, .tick, .recallRet, .tick, .tick, .recallRet, .tick, .tick]

end Ex

/-- C06, C12: META_RESULT_STATUS in any handler, at any recall depth, is the highest of the results of the
handlers this activation ran before and of the status it was recalled with. -/
theorem handler_status {E : Env} (hE : EnvOk E) {s : St} (h : LReach E s) {f : Frame} {fs : List Fr} (hf : s.frames = .hook f :: fs)
    {post : Bool} (hat : AtHandler post f.pt) :
    getStatus s = .ok (max (carried s.log f.fid) (highest (results s.log f.fid))) := by
  obtain ⟨c, cs, hst, hloc, hcid, hg, _, _, _⟩ := handler_top hE h hf hat
  have hs := (h.stat hE f (by rw [hf]; exact List.mem_cons_self ..)).eq (by
    obtain ⟨n, hn⟩ := hat
    rw [hn]; cases post <;> exact id)
  unfold getStatus
  rw [hst]
  simp only [hloc, deref, hg, bind, Except.bind, hs]

example : ∃ s f fs, LReach Ex.E s ∧ s.frames = .hook f :: fs ∧ AtHandler false f.pt ∧ carried s.log f.fid = 2 ∧ getStatus s = .ok 2 := by
  obtain ⟨s, f, fs, h1, h2, h3, h4⟩ := Ex.top (ops := Ex.rec1) (fun f s => f.pt == .inPre 7 && carried s.log f.fid == 2 &&
    results s.log f.fid == []) rfl
  simp only [Bool.and_eq_true, beq_iff_eq] at h4
  obtain ⟨⟨h4, h5⟩, h6⟩ := h4
  have hat : AtHandler false f.pt := ⟨7, h4⟩
  exact ⟨s, f, fs, h2, h3, hat, h5, by rw [handler_status Ex.envOk h2 h3 hat, h5, h6]; rfl⟩

/-- C12: a recall starts a new activation for the same call, in which the highest result is that of the recalling
handler's call so far, its own answer included. -/
theorem recall_carries {E : Env} (hE : EnvOk E) {s s' : St} (h : LReach E s) {res : Nat} {val : Val} {p this : Addr}
    (hok : Ok E s (.recall res val p this)) (hst : step E s (.recall res val p this) = .ok s') :
    ∃ f f' fs fs' st, s.frames = .hook f :: fs ∧ getStatus s = .ok st ∧ s'.frames = .hook f' :: fs' ∧ f'.cid = f.cid ∧
      s'.log = .recall f.cid f.fid f'.fid (max st res) :: s.log ∧ carried s'.log f'.fid = max st res ∧ results s'.log f'.fid = [] ∧
      f'.status = max st res := by
  have hin : InHandler s := hok.1
  generalize hop : Op.recall res val p this = op at hok hst
  cases h.tr hE hok hst <;> cases hop
  next v f fs c cs hf hs hv hcv =>
    obtain ⟨f1, fs1, post, hf1, hat⟩ := hin.elim
    rw [hf] at hf1; cases hf1
    obtain ⟨d, ds, hd, hloc, hcid, hg, _, _, _⟩ := handler_top hE h hf hat
    rw [hs] at hd; cases hd
    have hgs : getStatus s = .ok f.status := by
      unfold getStatus
      rw [hs]
      simp only [hloc, deref, hg, bind, Except.bind]
    refine ⟨f, _, fs, _, f.status, hf, hgs, rfl, hcid.symm, ?_, ?_, ?_, rfl⟩
    · rw [hcid]; rfl
    · show carried (.recall c.cid f.fid s.next (max f.status res) :: s.log) s.next = _
      unfold carried
      rw [List.filterMap_cons]
      simp
    · show results (.recall c.cid f.fid s.next (max f.status res) :: s.log) s.next = []
      have h1 : results s.log s.next = [] := by
        unfold results
        rw [List.reverse_eq_nil_iff, List.filterMap_eq_nil_iff]
        intro e he
        have := (h.hist hE).log.lt e he
        cases e <;> try rfl
        next f' b r w =>
          have := this f' (by simp [Ev.nums])
          simp only
          rw [if_neg (by omega)]
      rw [← h1]
      rfl

example : ∃ s s', LReach Ex.E s ∧ Ok Ex.E s (.recall 1 0 2008 1000) ∧ step Ex.E s (.recall 1 0 2008 1000) = .ok s' := by
  obtain ⟨s2, h2⟩ := Ex.go_isSome (ops := Ex.rec2) rfl
  obtain ⟨s0, s1, _, k1, k2, k3, _⟩ := Ex.split (a := Ex.rec1) h2
  exact ⟨s0, s1, k3, k1, k2⟩

/-- C12: an activation that has recalled its function invokes no further handlers and does not call the original:
later events of that kind belong to other activations. -/
theorem recalling_loop_is_over {E : Env} (hE : EnvOk E) {s : St} (h : LReach E s) {A B : List Ev} {cid fid fid' st : Nat}
    (hl : s.log = A ++ .recall cid fid fid' st :: B) (c : Nat) (g : Grp) (n : Nat) (ifp : Addr) : Ev.invoke c fid g n ifp ∉ A := by
  intro hm
  have := (h.hist hE).log.noMore
  rw [hl, List.pairwise_append] at this
  exact this.2.2 _ hm _ (List.mem_cons_self ..) _ _ _ _ _ _ _ _ rfl rfl

example : ∃ s A B, LReach Ex.E s ∧ s.log = A ++ .recall 0 0 1 2 :: B ∧ A.length = 13 := by
  obtain ⟨s, h⟩ := Ex.go_isSome (ops := Ex.rec3) rfl
  refine ⟨s, s.log.take 13, s.log.drop 14, Ex.go_reach h, ?_, ?_⟩
  · have := Ex.chk h (fun s => decide (s.log = s.log.take 13 ++ .recall 0 0 1 2 :: s.log.drop 14)) rfl
    simpa using this
  · have := Ex.chk h (fun s => decide ((s.log.take 13).length = 13)) rfl
    exact of_decide_eq_true this

/-- C12: once a post handler of a call has run, the original is not called any more for this call (in
particular not by a recall from a post handler). -/
theorem no_original_after_post {E : Env} (hE : EnvOk E) {s : St} (h : LReach E s) {cid : Nat} {A B : List (Option (Grp × Nat))} {g : Grp} {n : Nat}
    (hg : g = .post ∨ g = .postVP) (hc : callees s.log cid = A ++ some (g, n) :: B) : none ∉ B := by
  intro hm
  have := callees_sorted (h.hist hE).log cid
  rw [hc, List.pairwise_append] at this
  have := (List.pairwise_cons.1 this.2.1).1 _ hm
  rcases hg with rfl | rfl <;> simp [place, Grp.stage] at this

example : ∃ s, LReach Ex.E s ∧ callees s.log 0 = [some (.pre, 3), some (.pre, 7), some (.preVP, 6), none] ++ some (.post, 8) :: [] := by
  obtain ⟨s, h⟩ := Ex.go_isSome (ops := Ex.rec3) rfl
  exact ⟨s, Ex.go_reach h, of_decide_eq_true
    (Ex.chk h (fun s => decide (callees s.log 0 = [some (.pre, 3), some (.pre, 7), some (.preVP, 6), none] ++ some (.post, 8) :: [])) rfl)⟩

/-- C12: over all its recalls, a call invokes every hook at most once and the original at most once. -/
theorem nothing_twice {E : Env} (hE : EnvOk E) {s : St} (h : LReach E s) (cid : Nat) : (callees s.log cid).Nodup := by
  have hl := (h.hist hE).log
  have hpart := sorted_parts place _ (callees_sorted hl cid) fun x _ => place_lt x
  have hg : ∀ g : Grp, ((callees s.log cid).filter (fun x => place x == g.stage)).Nodup := by
    intro g
    rw [callees_group]
    exact List.pairwise_map.2 ((hl.sorted cid g).imp fun h e => by cases e; exact absurd h (Nat.lt_irrefl _))
  have ho : ((callees s.log cid).filter (fun x => place x == 2)).Nodup := by
    rcases orig_at_most_once hl cid with e | e <;> rw [e] <;> simp
  have hd : ∀ i j, i ≠ j → ∀ a ∈ (callees s.log cid).filter (fun x => place x == i), ∀ b ∈ (callees s.log cid).filter (fun x => place x == j), a ≠ b := by
    intro i j hij a ha b hb e
    subst e
    have h1 := (List.mem_filter.1 ha).2
    have h2 := (List.mem_filter.1 hb).2
    simp only [beq_iff_eq] at h1 h2
    exact hij (h1.symm.trans h2)
  rw [hpart]
  simp only [List.nodup_append, List.mem_append]
  refine ⟨hg .pre, ⟨hg .preVP, ⟨ho, ⟨hg .post, hg .postVP, hd _ _ (by decide)⟩, ?_⟩, ?_⟩, ?_⟩
  · rintro a ha b (hb | hb)
    · exact hd 2 3 (by decide) a ha b hb
    · exact hd 2 4 (by decide) a ha b hb
  · rintro a ha b (hb | hb | hb)
    · exact hd 1 2 (by decide) a ha b hb
    · exact hd 1 3 (by decide) a ha b hb
    · exact hd 1 4 (by decide) a ha b hb
  · rintro a ha b (hb | hb | hb | hb)
    · exact hd 0 1 (by decide) a ha b hb
    · exact hd 0 2 (by decide) a ha b hb
    · exact hd 0 3 (by decide) a ha b hb
    · exact hd 0 4 (by decide) a ha b hb

/-- The same call as in `Ex.rec3`: two nested recalls, every hook and the original once, the status (2, from
the first handler) and its value 9 decide the return value. -/
example : ((Ex.go Ex.rec3).map fun s => (callees s.log 0, s.log.head?, s.stack.length)) =
    some ([some (.pre, 3), some (.pre, 7), some (.preVP, 6), none, some (.post, 8)], some (.ret 0 0 9), 0) := rfl

/-! ### accessors -/

theorem LReach.inv_mono {E : Env} (hE : EnvOk E) {s : St} (h : LReach E s) :
    ∀ cid fid g n ifp, Ev.invoke cid fid g n ifp ∈ s.log →
      ∃ s0, LReach E s0 ∧ ∃ fid0 p this, Ev.enter cid fid0 (some p) this ∈ s0.log ∧ Ev.enter cid fid0 (some p) this ∈ s.log ∧
        ∃ k ∈ view s0.reg p (g.ptr this) g.side, k.nid = n ∧ k.paused = false ∧ ifp = this - k.offs := by
  induction h with
  | init => intro cid fid g n ifp hm; cases hm
  | step h1 h2 h3 ih =>
    intro cid fid g n ifp hm
    obtain ⟨X, k1, k2⟩ := invoked_are_registered hE h1 h2 h3
    rw [k1] at hm
    rcases List.mem_append.1 hm with hm | hm
    · obtain ⟨fid0, p, this, j1, j2⟩ := k2 _ _ _ _ _ hm
      exact ⟨_, h1, fid0, p, this, j1, by rw [k1]; exact List.mem_append_right _ j1, j2⟩
    · obtain ⟨s0, j0, fid0, p, this, j1, j2, j3⟩ := ih _ _ _ _ _ hm
      exact ⟨s0, j0, fid0, p, this, j1, by rw [k1]; exact List.mem_append_right _ j2, j3⟩

/-- C51: META_IFACEPTR in a handler, at any recall depth, is the object the function was called on, minus the
this-pointer offset of the hook being run (as registered when it was invoked). -/
theorem handler_ifaceptr {E : Env} (hE : EnvOk E) {s : St} (h : LReach E s) {f : Frame} {fs : List Fr} (hf : s.frames = .hook f :: fs)
    {n : Nat} {post : Bool} (hat : f.pt = if post then Pt.inPost n else .inPre n) :
    ∃ (s0 : St) (fid0 : Nat) (p this : Addr) (g : Grp), LReach E s0 ∧ Ev.enter f.cid fid0 (some p) this ∈ s.log ∧ g.side = post ∧
      ∃ k ∈ view s0.reg p (g.ptr this) g.side, k.nid = n ∧ getIfacePtr s = .ok (this - k.offs) := by
  obtain ⟨c, cs, hst, hloc, hcid, hg, hrec, _, hi⟩ := handler_top hE h hf (post := post) ⟨n, hat⟩
  obtain ⟨g, hgs, hinv⟩ := hi n post hat
  obtain ⟨s0, k0, fid0, p, this, _, k1, k, k2, k3, _, k4⟩ := h.inv_mono hE _ _ _ _ _ hinv
  refine ⟨s0, fid0, p, this, g, k0, k1, hgs, k, k2, k3, ?_⟩
  unfold getIfacePtr
  rw [hst]
  simp only [hrec, k4]
  rfl

example : ∃ s f fs, LReach Ex.E s ∧ s.frames = .hook f :: fs ∧ f.pt = (if false then Pt.inPost 7 else .inPre 7) ∧ getIfacePtr s = .ok 1000 := by
  obtain ⟨s, f, fs, h1, h2, h3, h4⟩ := Ex.top (ops := Ex.rec1) (fun f s => f.pt == .inPre 7 && (match getIfacePtr s with
    | .ok a => a == 1000
    | _ => false)) rfl
  simp only [Bool.and_eq_true, beq_iff_eq] at h4
  refine ⟨s, f, fs, h2, h3, h4.1, ?_⟩
  have := h4.2
  split at this
  · next e => rw [e, beq_iff_eq.1 this]
  · cases this

/-- C51: META_IFACEPTR is unchanged while the parameters of a recall are evaluated (after `SetRes` and
`DoRecall`, hxx:625-645). -/
theorem recall_ifaceptr {E : Env} (hE : EnvOk E) {s s1 s2 : St} (h : LReach E s) {res : Nat} {val : Val} {p this : Addr}
    (hok : Ok E s (.recall res val p this)) (h1 : setRes s res = .ok s1) (h2 : doRecall s1 = .ok s2) : getIfacePtr s2 = getIfacePtr s := by
  obtain ⟨f1, fs1, post, hf1, hat⟩ := hok.1.elim
  obtain ⟨c, cs, hst, hloc, hcid, hg, hrec, _, _⟩ := handler_top hE h hf1 hat
  obtain ⟨c0, cs0, hstk, hnd, _⟩ := hok.2.2.2
  rw [hst] at hstk; cases hstk
  have m := h.inv hE
  have hptr : getIfacePtr s = .ok c.ifacePtr := by
    unfold getIfacePtr; rw [hst]; simp only [hrec]; rfl
  have hpt : c.st.toRecall.isRecall = true := by
    obtain ⟨c', cs', hst', hfo, _⟩ := m.top hf1
    rw [hst] at hst'; cases hst'
    have hp := hfo.pt
    obtain ⟨n, hn⟩ := hat
    rw [hn] at hp
    cases post <;> rcases hp with e | e | e <;> first | (rw [e]; rfl) | exact absurd e hnd
  have e1 : s1.stack = c :: cs := by
    unfold setRes at h1
    rw [hst] at h1
    simp only [bind, Except.bind] at h1
    split at h1
    · cases h1
    · cases h1; rfl
  unfold doRecall at h2
  rw [e1] at h2
  simp only [bind, Except.bind] at h2
  split at h2
  · cases h2
  · cases h2
    rw [hptr]
    unfold getIfacePtr pushCtx
    simp only [hpt, if_true]

/-- C51: at any recall depth, META_RESULT_OVERRIDE_RET is available (not NULL, and pointing to a live variable) exactly if some
handler of this activation answered OVERRIDE or more or the activation was recalled with such a status. -/
theorem override_available {E : Env} (hE : EnvOk E) {s : St} (h : LReach E s) {f : Frame} {fs : List Fr} (hf : s.frames = .hook f :: fs)
    {post : Bool} (hat : AtHandler post f.pt) :
    (getOverrideRet s = .ok none ∧ carried s.log f.fid < override ∧ highest (results s.log f.fid) < override) ∨
    ((∃ v, getOverrideRet s = .ok (some v)) ∧ (override ≤ carried s.log f.fid ∨ override ≤ highest (results s.log f.fid))) := by
  obtain ⟨c, cs, hst, hloc, hcid, hg, _, _, _⟩ := handler_top hE h hf hat
  have hs := (h.stat hE f (by rw [hf]; exact List.mem_cons_self ..)).eq (by
    obtain ⟨n, hn⟩ := hat
    rw [hn]; cases post <;> exact id)
  have hd : deref s.frames c.locals = .ok f := by rw [hloc]; simp only [deref, hg]
  by_cases hh : f.status < override
  · left
    refine ⟨?_, by omega, by omega⟩
    unfold getOverrideRet; rw [hst]; simp only [hd, bind, Except.bind]; rw [if_pos hh]
  · right
    refine ⟨?_, by omega⟩
    obtain ⟨c', cs', hst', hfo, _⟩ := (h.inv hE).top hf
    rw [hst] at hst'; cases hst'
    have hso : SlotOk c.over (hookFrames s.frames) := by
      rcases hfo.kind with e | e
      · rw [hloc] at e; cases e.2.1
      · rw [hf]; exact e.2.1
    obtain ⟨k, hk, hsl⟩ := hso
    have hgk := getFrame_mem (h.inv hE).fid hk
    unfold getOverrideRet; rw [hst]; simp only [hd, bind, Except.bind]; rw [if_neg hh]
    rcases hsl with e | e <;> rw [e] <;> simp [readSlot, deref, hgk, bind, Except.bind]

example : ∃ s f fs, LReach Ex.E s ∧ s.frames = .hook f :: fs ∧ AtHandler true f.pt ∧ override ≤ carried s.log f.fid := by
  obtain ⟨s, f, fs, h1, h2, h3, h4⟩ := Ex.top (ops := Ex.rec2) (fun f s => f.pt == .inPost 8 && decide (override ≤ carried s.log f.fid)) rfl
  simp only [Bool.and_eq_true, beq_iff_eq, decide_eq_true_eq] at h4
  exact ⟨s, f, fs, h2, h3, ⟨8, h4.1⟩, h4.2⟩

/-- C51, violated: META_RESULT_ORIG_RET in a post handler of a recalled function need not be the superceding value.  The
first pre handler recalls, the second supercedes with value 6 (the only result above HANDLED): the post handler sees 0, the initial
value of `override_ret` in the recalled activation, while the value 6 went to the outermost activation's variable. -/
theorem recalled_orig_ret_wrong : ∃ s, LReach Ex.E s ∧ InHandler s ∧ Ev.invoke 0 1 .post 8 1000 ∈ s.log ∧
    results s.log 1 = [(false, 3, 6), (false, 0, 0)] ∧ getOrigRet s = .ok 0 := by
  obtain ⟨s, f, fs, h1, h2, h3, h4⟩ := Ex.top (ops := Ex.setup ++ [.call 2008 1000, .tick, .recall 1 0 2008 1000, .tick, .setRes 3, .handlerRet 6,
    .tick, .handlerRet 0, .tick, .tick]) (fun f s => f.pt == .inPost 8 && decide (Ev.invoke 0 1 .post 8 1000 ∈ s.log) &&
      (results s.log 1 == [(false, 3, 6), (false, 0, 0)]) && (match getOrigRet s with
        | .ok a => a == 0
        | _ => false)) rfl
  simp only [Bool.and_eq_true, beq_iff_eq, decide_eq_true_eq] at h4
  obtain ⟨⟨⟨h4, h5⟩, h6⟩, h7⟩ := h4
  refine ⟨s, h2, ?_, h5, h6, ?_⟩
  · unfold InHandler; rw [h3]; simp only [h4]
  · split at h7
    · next e => rw [e, beq_iff_eq.1 h7]
    · cases h7

/-! ### SH_CALL -/

namespace Ex

/-- The first handler is running. -/
def sh0 : List Op := setup ++ [.call 2008 1000, .tick]

/-- SH_CALL of a hooked function from a handler of the same function; the original calls the function again,
which runs the hooks (the first of them is running). -/
def sh1 : List Op := sh0 ++ [.shCall 2008 1000, .tick, .call 2008 1000, .tick]

/-- The inner call is superceded, then SH_CALL ends. -/
def sh2 : List Op := sh1 ++ [.setRes 3, .handlerRet 4, .tick, .handlerRet 0, .tick, .handlerRet 0, .tick, .tick, .handlerRet 0, .tick,
  .origRet 5, .tick, .shEnd]

end Ex

/-- C11: what SH_CALL of a hooked function does: it starts a call marked as such. -/
theorem shcall_enters {E : Env} (hE : EnvOk E) {s s1 : St} (h : LReach E s) {p this : Addr} (hok : Ok E s (.shCall p this))
    (hst : step E s (.shCall p this) = .ok s1) : s1.log = .shEnter s.next (s.next + 1) (some p) this :: s.log := by
  generalize hop : Op.shCall p this = op at hok hst
  cases h.tr hE hok hst <;> cases hop
  rfl

example : ∃ s s1, LReach Ex.E s ∧ Ok Ex.E s (.shCall 2008 1000) ∧ step Ex.E s (.shCall 2008 1000) = .ok s1 := by
  obtain ⟨s2, h2⟩ := Ex.go_isSome (ops := Ex.sh1) rfl
  obtain ⟨s0, s1, _, k1, k2, k3, _⟩ := Ex.split (a := Ex.sh0) h2
  exact ⟨s0, s1, k3, k1, k2⟩

/-- C11: a call made by SH_CALL invokes no handler at all, and if it has returned, it has called the original exactly
once and returned the original's value. -/
theorem shcall_outcome {E : Env} (hE : EnvOk E) {s : St} (h : LReach E s) {cid fid : Nat} {p : Option Addr} {this : Addr}
    (hen : Ev.shEnter cid fid p this ∈ s.log) :
    (∀ f g n ifp, Ev.invoke cid f g n ifp ∉ s.log) ∧
    ∀ f v, Ev.ret cid f v ∈ s.log → f = fid ∧ callees s.log cid = [none] ∧ origVals s.log fid = [v] := by
  have d := h.done hE
  have hl := (h.hist hE).log
  have hni : ∀ f g n ifp, Ev.invoke cid f g n ifp ∉ s.log := by
    intro f g n ifp hm
    obtain ⟨_, _, fid0, p', this', _, k, _⟩ := h.inv_mono hE _ _ _ _ _ hm
    exact d.kinds _ _ _ _ _ _ _ k hen
  have hnr : ¬ Recalled s.log cid := by
    rintro ⟨a, b, st, hm⟩
    obtain ⟨f0, p', t', k⟩ := d.rcl _ _ _ _ hm
    exact d.kinds _ _ _ _ _ _ _ k hen
  have hfid : ∀ f, Entered s.log cid f → f = fid := by
    intro f he
    rcases he with he | ⟨p', t', he⟩ | ⟨p', t', he⟩
    · exact absurd he hnr
    · exact absurd hen (d.kinds _ _ _ _ _ _ _ he)
    · exact (d.shU _ _ _ _ _ _ _ he hen).1
  refine ⟨hni, ?_⟩
  intro f v hret
  have e := hfid f (d.own _ hret _ _ rfl)
  subst e
  have hres : results s.log f = [] := by
    have h1 := (h.pair hE).rt cid f v hret
    have h2 : runs s.log f = [] := by
      unfold runs
      rw [List.reverse_eq_nil_iff, List.filterMap_eq_nil_iff]
      intro e he
      cases e <;> try rfl
      next c f' g n p' =>
        simp only
        rw [if_neg]
        rintro rfl
        have := d.fidU _ he _ hret _ _ _ rfl rfl
        subst this
        exact hni _ _ _ _ he
    rw [h2] at h1
    exact List.map_eq_nil_iff.1 h1.symm
  have hout := d.out cid f v hret hnr
  unfold Outcome at hout
  rw [hres] at hout
  rcases hout with ⟨_, h2, o, h3, h4⟩ | ⟨⟨x, hx, _⟩, _⟩
  · have h4 : v = o := h4
    subst h4
    refine ⟨rfl, ?_, h3⟩
    have hall : ∀ x ∈ callees s.log cid, x = none := by
      intro x hx
      unfold callees at hx
      rw [List.mem_reverse, List.mem_filterMap] at hx
      obtain ⟨e, he, hx⟩ := hx
      cases e with
      | invoke c' f' g n p' =>
        simp only [callee] at hx
        split at hx
        · next hc => subst hc; exact absurd he (hni _ _ _ _)
        · cases hx
      | origCall c' f' a => simp only [callee] at hx; split at hx <;> cases hx; rfl
      | _ => cases hx
    have hne : none ∈ callees s.log cid := by
      obtain ⟨a, ha⟩ := List.length_eq_one_iff.1 h2
      have ha : a ∈ origCalls s.log f := by rw [ha]; exact List.mem_cons_self ..
      unfold origCalls at ha
      obtain ⟨e, he, hx⟩ := List.mem_filterMap.1 ha
      cases e <;> simp at hx
      next c f' a' =>
      obtain ⟨rfl, rfl⟩ := hx
      have : c = cid := d.fidU _ he _ hret _ _ _ rfl rfl
      subst this
      unfold callees
      rw [List.mem_reverse, List.mem_filterMap]
      exact ⟨_, he, by simp [callee]⟩
    have hnd := nothing_twice hE h cid
    match hc : callees s.log cid, hall, hne, hnd with
    | [], _, hne, _ => cases hne
    | [x], hall, _, _ => rw [hall x (List.mem_cons_self ..)]
    | x :: y :: l, hall, _, hnd =>
      rw [hall x (by simp), hall y (by simp)] at hnd
      simp at hnd
  · cases hx

example : ∃ s, LReach Ex.E s ∧ Ev.shEnter 1 2 (some 2008) 1000 ∈ s.log ∧ Ev.ret 1 2 5 ∈ s.log ∧
    callees s.log 3 = [some (.pre, 3), some (.pre, 7), some (.preVP, 6), some (.post, 8)] := by
  obtain ⟨s, h⟩ := Ex.go_isSome (ops := Ex.sh2) rfl
  exact ⟨s, Ex.go_reach h, of_decide_eq_true (Ex.chk h (fun s => decide (Ev.shEnter 1 2 (some 2008) 1000 ∈ s.log)) rfl),
    of_decide_eq_true (Ex.chk h (fun s => decide (Ev.ret 1 2 5 ∈ s.log)) rfl),
    of_decide_eq_true (Ex.chk h (fun s => decide (callees s.log 3 = [some (.pre, 3), some (.pre, 7), some (.preVP, 6), some (.post, 8)])) rfl)⟩

/-- C11, violated for functions that are not hooked (outside the contract `Ok`): SH_CALL of the function in slot 3000, which
is not hooked and whose body calls the hooked function in slot 2008.  That call finds the "ignore hooks"
context meant for the first function and so runs none of its hooks. -/
theorem shcall_unhooked_bypasses_others : ∃ s s1 s2 s3, LReach Ex.E s ∧ view s.reg 2008 1000 false ≠ [] ∧
    step Ex.E s (.shCall 3000 1000) = .ok s1 ∧ step Ex.E s1 (.call 2008 1000) = .ok s2 ∧ step Ex.E s2 .tick = .ok s3 ∧
    s3.log = [.origCall 0 1 41, .shEnter 0 1 (some 2008) 1000] := by
  obtain ⟨s, h⟩ := Ex.go_isSome (ops := Ex.setup) rfl
  refine ⟨s, ?_⟩
  have key : ∀ s, Ex.go Ex.setup = some s → ∃ s1 s2 s3, step Ex.E s (.shCall 3000 1000) = .ok s1 ∧ step Ex.E s1 (.call 2008 1000) = .ok s2 ∧
      step Ex.E s2 .tick = .ok s3 ∧ s3.log = [.origCall 0 1 41, .shEnter 0 1 (some 2008) 1000] := by
    intro s h
    have := Ex.chk h (fun s => match step Ex.E s (.shCall 3000 1000) with
      | .ok s1 => (match step Ex.E s1 (.call 2008 1000) with
        | .ok s2 => (match step Ex.E s2 .tick with
          | .ok s3 => s3.log == [.origCall 0 1 41, .shEnter 0 1 (some 2008) 1000]
          | _ => false)
        | _ => false)
      | _ => false) rfl
    split at this
    · next s1 e1 =>
      split at this
      · next s2 e2 =>
        split at this
        · next s3 e3 => exact ⟨s1, s2, s3, e1, e2, e3, beq_iff_eq.1 this⟩
        · cases this
      · cases this
    · cases this
  obtain ⟨s1, s2, s3, k⟩ := key s h
  exact ⟨s1, s2, s3, Ex.go_reach h, by simpa using Ex.chk h (fun s => !(view s.reg 2008 1000 false).isEmpty) rfl, k⟩

/-- C11, for a function that is not hooked and calls nothing hooked: SH_CALL pushes the "ignore hooks" context, changes nothing else,
and its end takes that context away again. -/
theorem shcall_unhooked_balanced {E : Env} (hE : EnvOk E) {s : St} (h : LReach E s) {p : Addr} (hp : ∀ v ∈ s.reg.vfns, v.ptr = p → E.writable p = false) (this : Addr) :
    ∃ s1 s2, step E s (.shCall p this) = .ok s1 ∧ s1.reg = s.reg ∧ s1.log = s.log ∧ s1.stack.tail = s.stack ∧ s1.stack.length = s.stack.length + 1 ∧
      step E s1 .shEnd = .ok s2 ∧ s2.reg = s.reg ∧ s2.stack = s.stack ∧ s2.frames = s.frames ∧ s2.tasks = s.tasks ∧ (s.stack ≠ [] → s2.pend = s.pend ∧ s2.log = s.log) := by
  have e1 : step E s (.shCall p this) = .ok { pushCtx s { cid := s.next, st := .ignore } with frames := .sh :: s.frames, next := s.next + 1 } :=
    callSlot_plain (s := { pushCtx s { cid := s.next, st := .ignore } with frames := .sh :: s.frames, next := s.next + 1 }) hE (h.inv hE).reg hp this
  have e2 : ∃ s2, endContext { pushCtx s { cid := s.next, st := .ignore } with frames := .sh :: s.frames, next := s.next + 1 } = .ok s2 ∧ s2.reg = s.reg ∧ s2.stack = s.stack ∧
      s2.tasks = s.tasks ∧ (s.stack ≠ [] → s2.pend = s.pend ∧ s2.log = s.log) := by
    by_cases hc : s.stack = [] ∧ s.pend ≠ []
    · exact ⟨_, if_pos hc, rfl, rfl, rfl, fun h => absurd hc.1 h⟩
    · exact ⟨_, if_neg hc, rfl, rfl, rfl, fun _ => ⟨rfl, rfl⟩⟩
  obtain ⟨s2, e2, h1, h2, h3, h4⟩ := e2
  refine ⟨_, { s2 with frames := s.frames }, e1, rfl, rfl, rfl, rfl, ?_, h1, h2, rfl, h3, h4⟩
  have : step E { pushCtx s { cid := s.next, st := .ignore } with frames := .sh :: s.frames, next := s.next + 1 } .shEnd =
      (endContext { pushCtx s { cid := s.next, st := .ignore } with frames := .sh :: s.frames, next := s.next + 1 } >>= fun z => .ok { z with frames := s.frames }) := rfl
  rw [this, e2]
  rfl

example : ∃ s, LReach Ex.E s ∧ s.reg.vfns ≠ [] ∧ ∀ v ∈ s.reg.vfns, v.ptr = 3000 → Ex.E.writable 3000 = false := by
  obtain ⟨s, h⟩ := Ex.go_isSome (ops := Ex.setup) rfl
  have h1 := Ex.chk h (fun s => !s.reg.vfns.isEmpty && s.reg.vfns.all fun v => decide (v.ptr ≠ 3000)) rfl
  simp only [Bool.and_eq_true, List.all_eq_true, decide_eq_true_eq] at h1
  exact ⟨s, Ex.go_reach h, by simpa using h1.1, fun v hv e => absurd e (h1.2 v hv)⟩

#print axioms shcall_unhooked_balanced
#print axioms handler_status
#print axioms recall_carries
#print axioms recalling_loop_is_over
#print axioms no_original_after_post
#print axioms nothing_twice
#print axioms handler_ifaceptr
#print axioms recall_ifaceptr
#print axioms override_available
#print axioms recalled_orig_ret_wrong
#print axioms shcall_enters
#print axioms shcall_outcome
#print axioms shcall_unhooked_bypasses_others

end Verif.SH
