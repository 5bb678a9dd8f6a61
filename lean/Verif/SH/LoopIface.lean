import Verif.SH.LoopPair
/-
The interface pointer of a running handler.
-/
namespace Verif.SH

/-- While a handler runs, its context holds the interface pointer it was invoked with. -/
def IOk (log : List Ev) (f : Frame) (c : Ctx) : Prop :=
  ∀ n post, f.pt = (if post then Pt.inPost n else .inPre n) → ∃ g : Grp, g.side = post ∧ Ev.invoke f.cid f.fid g n c.ifacePtr ∈ log

def IInv (s : St) : Prop := All2 (IOk s.log) (hookFrames s.frames) s.stack

theorem IOk.keep {X log : List Ev} {f f' : Frame} {c c' : Ctx} (h : IOk log f c) (e1 : f'.fid = f.fid) (e2 : f'.cid = f.cid) (e3 : f'.pt = f.pt)
    (e4 : c'.ifacePtr = c.ifacePtr) : IOk (X ++ log) f' c' := by
  intro n post hp
  rw [e3] at hp
  obtain ⟨g, h1, h2⟩ := h n post hp
  rw [e1, e2, e4]
  exact ⟨g, h1, List.mem_append_right _ h2⟩

theorem IOk.idle {log : List Ev} {f : Frame} {c : Ctx} (h : ∀ n, f.pt ≠ .inPre n ∧ f.pt ≠ .inPost n) : IOk log f c := by
  intro n post hp
  cases post
  · exact absurd hp (h n).1
  · exact absurd hp (h n).2

theorem All2.length {P : Frame → Ctx → Prop} {fs : List Frame} {cs : List Ctx} (h : All2 P fs cs) : fs.length = cs.length := by
  induction h with
  | nil => rfl
  | cons _ _ ih => simp [ih]

/-- Frames and contexts below the innermost. -/
theorem IInv.below {s : St} (h : IInv s) {f : Frame} {fs : List Fr} (hf : s.frames = .hook f :: fs) {c : Ctx} {cs : List Ctx} (hst : s.stack = c :: cs)
    (X : List Ev) {G : Frame → Frame} (hG : ∀ f, SameF f (G f)) : All2 (IOk (X ++ s.log)) ((hookFrames fs).map G) cs := by
  unfold IInv at h
  rw [hf, hst] at h
  have := h.top.2.map (G := G) (F := id) (Q := IOk (X ++ s.log)) (fun f _ c _ k => k.keep (hG f).fid (hG f).cid (hG f).pt rfl)
  rwa [List.map_id] at this

theorem IInv.below' {s : St} (h : IInv s) {f : Frame} {fs : List Fr} (hf : s.frames = .hook f :: fs) {c : Ctx} {cs : List Ctx} (hst : s.stack = c :: cs)
    (X : List Ev) : All2 (IOk (X ++ s.log)) (hookFrames fs) cs := by
  have := h.below hf hst X (G := id) SameF.refl
  rwa [List.map_id] at this

theorem IInv.step {E : Env} {s s' : St} {op : Op} (m : MInv E s) (h : IInv s) (hok : Ok E s op) (ht : Tr E s op s') : IInv s' := by
  obtain ⟨mem0, hw, h0⟩ := m.reg.inv
  have hh := h
  unfold IInv at h
  cases ht with
  | reg op r x ns hrr =>
    obtain ⟨ts, log', hfe, hts, he⟩ := applyNotes_spec ns { s with reg := r }
    rw [he]
    have hq : ∃ X, (afterReg { s with reg := r, stack := s.stack.map (noteAll ns), tasks := ts, log := log' } op).log = X ++ s.log := by
      obtain ⟨X, rfl, hX⟩ := hfe
      unfold afterReg
      split
      · next p =>
        split
        · exact ⟨.ready p :: .request p :: X, rfl⟩
        · exact ⟨.request p :: X, rfl⟩
      · exact ⟨X, rfl⟩
    have hfr : (afterReg { s with reg := r, stack := s.stack.map (noteAll ns), tasks := ts, log := log' } op).frames = s.frames ∧
        (afterReg { s with reg := r, stack := s.stack.map (noteAll ns), tasks := ts, log := log' } op).stack = s.stack.map (noteAll ns) := by
      unfold afterReg
      split
      · split <;> exact ⟨rfl, rfl⟩
      · exact ⟨rfl, rfl⟩
    show IInv (afterReg { s with reg := r, stack := s.stack.map (noteAll ns), tasks := ts, log := log' } op)
    generalize afterReg { s with reg := r, stack := s.stack.map (noteAll ns), tasks := ts, log := log' } op = s' at hq hfr
    obtain ⟨X, h1⟩ := hq
    unfold IInv
    rw [h1, hfr.1, hfr.2]
    have := h.map (G := id) (F := noteAll ns) (Q := IOk (X ++ s.log)) (fun f _ c _ k => k.keep rfl rfl rfl (noteAll_frame ns c).ifacePtr)
    rwa [List.map_id] at this
  | poke a val => exact h
  | plain p this hp => exact h
  | call v this hv hwr => exact .cons (.idle (by simp [freshFrame])) (h.imp fun f _ c _ k => k.keep (X := [_]) rfl rfl rfl rfl)
  | shCall v this hv hwr => exact .cons (.idle (by simp [freshFrame])) (h.imp fun f _ c _ k => k.keep (X := [_]) rfl rfl rfl rfl)
  | shEnd fs hf => rw [hf] at h; exact h
  | setRes res f fs hf =>
    obtain ⟨c, cs, hst, _⟩ := m.top hf
    have h2 := hh.below' hf hst []
    rw [hf, hst] at h
    unfold IInv
    show All2 _ _ s.stack
    rw [hst]
    exact .cons (h.top.1.keep (X := []) rfl rfl rfl rfl) h2
  | recall res val v f fs c cs hf hst hv hcv =>
    obtain ⟨f1, fs1, post, hf1, n, hat⟩ := InHandler.elim hok.1
    rw [hf] at hf1; cases hf1
    refine .cons (.idle (by simp [freshFrame])) ?_
    have hidle : ∀ n, recPt f.pt ≠ .inPre n ∧ recPt f.pt ≠ .inPost n := by
      intro m; rw [hat]; cases post <;> simp [recPt]
    show All2 (IOk ([_] ++ s.log)) (hookFrames (if res ≥ override then setSlot (.hook { f with cur := res, status := max f.status res, pt := recPt f.pt } :: fs) val c.over
            else .hook { f with cur := res, status := max f.status res, pt := recPt f.pt } :: fs)) _
    split
    · rw [setSlot_eq, hookFrames_map]
      exact .cons (.idle (by rw [(slotMap_same _ _ _).pt]; exact hidle)) (hh.below hf hst [_] (slotMap_same _ _))
    · exact .cons (.idle hidle) (hh.below' hf hst [_])
  | recallRet f fs c cs post v hf hst hat =>
    unfold IInv
    show All2 (IOk ([_] ++ s.log)) (hookFrames (setSlot _ _ _)) s.stack
    rw [hst, setSlot_eq, hookFrames_map]
    exact .cons (.idle (by rw [(slotMap_same _ _ _).pt]; cases post <;> simp [loopPt])) (hh.below hf hst [_] (slotMap_same _ _))
  | tickHook f fs c cs g grp hk post hf hst hpt hg hgh =>
    obtain ⟨c1, cs1, hst1, hfo, _⟩ := m.top hf
    rw [hst] at hst1; cases hst1
    obtain ⟨S, e1, e2⟩ := logGot_ext f.cid f.fid g s.log
    rw [hgh] at e2
    have hsd : grp.side = post := by
      rcases hfo.ctxOk with hdd | ⟨v, hl⟩
      · rw [getNext_dead hdd] at hg; cases hg; cases hgh
      · obtain ⟨g', k1, k2⟩ := getNext_live hw.s hl f.fid
        rw [hg] at k1; cases k1
        have hst2 := (k2.inv grp hk hgh).2.2.2.1
        have hp := hfo.pt
        rw [hpt] at hp
        cases post with
        | false =>
          have := getNext_pre hg hp
          rw [hgh, hst2] at this
          cases grp <;> simp [Grp.st] at this <;> rfl
        | true =>
          have := getNext_post hg hp
          rw [hgh, hst2] at this
          cases grp <;> simp [Grp.st] at this <;> rfl
    unfold IInv
    show All2 (IOk (logGot f.cid f.fid g s.log)) _ _
    rw [e2, ← List.append_assoc]
    refine .cons ?_ (hh.below' hf hst _)
    intro n post' hp
    cases post <;> cases post' <;> simp only [Bool.false_eq_true, if_false, if_true] at hp <;> cases hp
    · exact ⟨grp, hsd, by simp⟩
    · exact ⟨grp, hsd, by simp⟩
  | tickOrig f fs c cs g a hf hst hpt hg hgh hns hco hfa =>
    obtain ⟨X, e1, e2⟩ := logGot_ext' f.cid f.fid g s.log
    unfold IInv
    show All2 (IOk (_ :: logGot f.cid f.fid g s.log)) _ _
    rw [e1, ← List.cons_append]
    exact .cons (.idle (by simp)) (hh.below' hf hst _)
  | tickSkip f fs c cs g hf hst hpt hg hgh hns =>
    obtain ⟨X, e1, e2⟩ := logGot_ext' f.cid f.fid g s.log
    unfold IInv
    show All2 (IOk (logGot f.cid f.fid g s.log)) _ _
    rw [e1]
    exact .cons (.idle (by simp)) (hh.below' hf hst _)
  | tickRet f fs c cs g v s2 hf hst hpt hg hgh hv hs2 =>
    obtain ⟨Y, y1, y2⟩ := popCtx_quiet { s with log := logGot f.cid f.fid g s.log } cs
    obtain ⟨X, e1, e2⟩ := logGot_ext' f.cid f.fid g s.log
    have p2 := (popCtx_spec { s with log := logGot f.cid f.fid g s.log } cs).2.1
    rw [← hs2] at p2
    have hlog : s2.log = (Y ++ X) ++ s.log := by
      rw [hs2, y1]; show Y ++ logGot f.cid f.fid g s.log = _
      rw [e1, List.append_assoc]
    unfold IInv
    show All2 (IOk (_ :: s2.log)) (hookFrames (handBack v fs)) s2.stack
    have h4 := hh.below' hf hst (.ret f.cid f.fid v :: (Y ++ X))
    rw [List.cons_append, ← hlog] at h4
    rw [p2]
    rcases handBack_cases v fs with e | ⟨p, fs', rfl, ⟨n, hp, e⟩ | ⟨n, hp, e⟩⟩
    · rw [e]; exact h4
    all_goals
      rw [e]
      cases h4 with
      | cons k1 k2 => exact .cons (.idle (by simp)) k2
  | handlerRet v f fs c cs post hf hst hat =>
    unfold IInv
    show All2 (IOk ([_] ++ s.log)) (hookFrames (if f.cur ≥ override then setSlot (.hook { f with prev := f.cur, status := max f.status f.cur, pt := loopPt post } :: fs) v c.over
            else .hook { f with prev := f.cur, status := max f.status f.cur, pt := loopPt post } :: fs)) s.stack
    rw [hst]
    have hidle : ∀ n, loopPt post ≠ .inPre n ∧ loopPt post ≠ .inPost n := by cases post <;> simp [loopPt]
    split
    · rw [setSlot_eq, hookFrames_map]
      exact .cons (.idle (by rw [(slotMap_same _ _ _).pt]; exact hidle)) (hh.below hf hst [_] (slotMap_same _ _))
    · exact .cons (.idle hidle) (hh.below' hf hst [_])
  | origRet v f fs hf hpt =>
    obtain ⟨c, cs, hst, _⟩ := m.top hf
    unfold IInv
    show All2 (IOk ([_] ++ s.log)) _ s.stack
    rw [hst]
    exact .cons (.idle (by simp)) (hh.below' hf hst [_])
  | resolve force =>
    exact h.imp fun f _ c _ k => k.keep rfl rfl rfl rfl

theorem LReach.ifp {E : Env} (hE : EnvOk E) {s : St} (h : LReach E s) : IInv s := by
  induction h with
  | init mem0 h0 => exact .nil
  | step h1 h2 h3 ih => exact ih.step (h1.inv hE) h2 (h1.tr hE h2 h3)

end Verif.SH
