import Verif.SH.LoopDone
import Verif.SH.LoopFollow
/-
Every handler an activation invokes gives exactly one result, in the order of invocation.
-/
namespace Verif.SH

/-- The phases (pre: `false`, post: `true`) of the handlers activation `fid` invoked, in order. -/
def runs (log : List Ev) (fid : Nat) : List Bool :=
  (log.filterMap fun e => match e with
    | .invoke _ f g _ _ => if f = fid then some g.side else none
    | _ => none).reverse

/-- The handler that is running, by phase. -/
def Pt.busy : Pt → List Bool
  | .inPre _ | .recPre .. => [false]
  | .inPost _ | .recPost .. => [true]
  | _ => []

/-- The event says nothing about handlers of activation `fid`. -/
def Ev.still (fid : Nat) : Ev → Prop
  | .invoke _ f _ _ _ => f ≠ fid
  | .result f _ _ _ => f ≠ fid
  | _ => True

theorem runs_still {X log : List Ev} {fid : Nat} (h : ∀ e ∈ X, e.still fid) : runs (X ++ log) fid = runs log fid := by
  unfold runs
  rw [List.filterMap_append, List.reverse_append]
  have : X.filterMap (fun e => match e with
    | .invoke _ f g _ _ => if f = fid then some g.side else none
    | _ => none) = [] := by
    rw [List.filterMap_eq_nil_iff]
    intro e he
    have := h e he
    cases e <;> simp_all [Ev.still]
  rw [this]; simp

theorem results_still {X log : List Ev} {fid : Nat} (h : ∀ e ∈ X, e.still fid) : results (X ++ log) fid = results log fid := by
  induction X with
  | nil => rfl
  | cons e X ih =>
    rw [List.cons_append, ← ih fun e he => h e (List.mem_cons_of_mem _ he)]
    have := h e (List.mem_cons_self ..)
    cases e with
    | result f post res v => exact results_mute (X := [_]) (by intro e he; rw [List.mem_singleton.1 he]; exact this)
    | _ => rfl

theorem runs_one (log : List Ev) (c fid : Nat) (g : Grp) (n : Nat) (p : Addr) : runs (.invoke c fid g n p :: log) fid = runs log fid ++ [g.side] := by
  unfold runs; simp

structure PInv (s : St) : Prop where
  fr : ∀ g ∈ hookFrames s.frames, runs s.log g.fid = (results s.log g.fid).map (·.1) ++ g.pt.busy
  rt : ∀ c f v, Ev.ret c f v ∈ s.log → runs s.log f = (results s.log f).map (·.1)

/-- A step that neither calls a handler nor lets one return. -/
theorem PInv.quiet {s s' : St} (h : PInv s) (hl : LogOk s.log s.next) {X : List Ev} (hlog : s'.log = X ++ s.log) (hX : ∀ k, ∀ e ∈ X, e.still k)
    (hr : ∀ c f v, Ev.ret c f v ∉ X)
    (hfr : ∀ g ∈ hookFrames s'.frames, (∃ g0 ∈ hookFrames s.frames, g0.fid = g.fid ∧ g0.pt.busy = g.pt.busy) ∨ (s.next ≤ g.fid ∧ g.pt.busy = [])) : PInv s' := by
  refine ⟨?_, ?_⟩
  · intro g hg
    rw [hlog, runs_still (hX _), results_still (hX _)]
    rcases hfr g hg with ⟨g0, h1, h2, h3⟩ | ⟨h1, h2⟩
    · rw [← h2, ← h3]; exact h.fr g0 h1
    · have hst : ∀ e ∈ s.log, e.still g.fid := by
        intro e he
        have := hl.lt e he
        cases e <;> simp only [Ev.still] <;> intro e2 <;> have := this g.fid (by simp [Ev.nums, e2]) <;> omega
      have a := runs_still (log := []) hst
      have b := results_still (log := []) hst
      rw [List.append_nil] at a b
      rw [a, b, h2]; rfl
  · intro c f v hm
    rw [hlog] at hm
    rw [hlog, runs_still (hX _), results_still (hX _)]
    rcases List.mem_append.1 hm with hm | hm
    · exact absurd hm (hr c f v)
    · exact h.rt c f v hm

/-- A step of the innermost activation. -/
theorem PInv.topStep {E : Env} {s s' : St} (m : MInv E s) (h : PInv s) (hd : DInv s) {f : Frame} {fs : List Fr} (hf : s.frames = .hook f :: fs)
    {X : List Ev} (hlog : s'.log = X ++ s.log) (hX : ∀ k, k ≠ f.fid → ∀ e ∈ X, e.still k) (hr : ∀ c f v, Ev.ret c f v ∉ X)
    {f' : Frame} {G : Frame → Frame} (hG : ∀ f, SameF f (G f)) (hfr : hookFrames s'.frames = G f' :: (hookFrames fs).map G) (hid : f'.fid = f.fid)
    (hnew : runs s'.log f.fid = (results s'.log f.fid).map (·.1) ++ f'.pt.busy) : PInv s' := by
  have hfm : f ∈ hookFrames s.frames := by rw [hf]; exact List.mem_cons_self ..
  refine ⟨?_, ?_⟩
  · rw [hfr]
    intro g hg
    rcases List.mem_cons.1 hg with rfl | hg
    · rw [(hG f').fid, (hG f').pt, hid]; exact hnew
    · obtain ⟨g0, hg0, rfl⟩ := List.mem_map.1 hg
      rw [(hG g0).fid, (hG g0).pt]
      have h4 := m.fid
      rw [hf] at h4
      have hne : g0.fid ≠ f.fid := Nat.ne_of_lt ((List.pairwise_cons.1 h4).1 g0 hg0)
      rw [hlog, runs_still (hX _ hne), results_still (hX _ hne)]
      exact h.fr g0 (by rw [hf]; exact List.mem_cons_of_mem _ hg0)
  · intro c f0 v hm
    rw [hlog] at hm ⊢
    rcases List.mem_append.1 hm with hm | hm
    · exact absurd hm (hr _ _ _)
    · have hne : f0 ≠ f.fid := (hd.gone c f0 v hm f hfm).symm
      rw [runs_still (hX _ hne), results_still (hX _ hne)]
      exact h.rt c f0 v hm

theorem PInv.topStep' {E : Env} {s s' : St} (m : MInv E s) (h : PInv s) (hd : DInv s) {f : Frame} {fs : List Fr} (hf : s.frames = .hook f :: fs)
    {X : List Ev} (hlog : s'.log = X ++ s.log) (hX : ∀ k, k ≠ f.fid → ∀ e ∈ X, e.still k) (hr : ∀ c f v, Ev.ret c f v ∉ X)
    {f' : Frame} (hfr : hookFrames s'.frames = f' :: hookFrames fs) (hid : f'.fid = f.fid)
    (hnew : runs s'.log f.fid = (results s'.log f.fid).map (·.1) ++ f'.pt.busy) : PInv s' :=
  h.topStep m hd hf hlog hX hr (G := id) SameF.refl (by rw [List.map_id]; exact hfr) hid hnew

theorem handler_busy {post : Bool} {p : Pt} (h : AtHandler post p) : p.busy = [post] := by
  obtain ⟨n, rfl⟩ := h; cases post <;> rfl

theorem rec_busy {post : Bool} {v : Val} {p : Pt} (h : AtRec post v p) : p.busy = [post] := by
  obtain ⟨n, rfl⟩ := h; cases post <;> rfl

theorem loopPt_busy (post : Bool) : (loopPt post).busy = [] := by cases post <;> rfl

theorem PInv.step {E : Env} {s s' : St} {op : Op} (m : MInv E s) (hh : HInv s) (hd : DInv s) (h : PInv s) (hok : Ok E s op) (ht : Tr E s op s') : PInv s' := by
  obtain ⟨mem0, hw, h0⟩ := m.reg.inv
  cases ht with
  | reg op r x ns hrr =>
    obtain ⟨ts, log', hfe, hts, he⟩ := applyNotes_spec ns { s with reg := r }
    rw [he]
    have hq : ∃ X, (afterReg { s with reg := r, stack := s.stack.map (noteAll ns), tasks := ts, log := log' } op).log = X ++ s.log ∧
        (∀ e ∈ X, (∀ k, e.still k) ∧ e.owner = none) := by
      obtain ⟨X, rfl, hX⟩ := hfe
      have hX' : ∀ e ∈ X, (∀ k, e.still k) ∧ e.owner = none := by
        intro e he; obtain ⟨v, rfl⟩ := hX e he; exact ⟨fun _ => trivial, rfl⟩
      unfold afterReg
      split
      · next p =>
        split
        · refine ⟨.ready p :: .request p :: X, rfl, ?_⟩
          intro e he
          rcases List.mem_cons.1 he with rfl | he
          · exact ⟨fun _ => trivial, rfl⟩
          rcases List.mem_cons.1 he with rfl | he
          · exact ⟨fun _ => trivial, rfl⟩
          exact hX' e he
        · refine ⟨.request p :: X, rfl, ?_⟩
          intro e he
          rcases List.mem_cons.1 he with rfl | he
          · exact ⟨fun _ => trivial, rfl⟩
          exact hX' e he
      · exact ⟨X, rfl, hX'⟩
    have hfr : (afterReg { s with reg := r, stack := s.stack.map (noteAll ns), tasks := ts, log := log' } op).frames = s.frames := by
      unfold afterReg
      split
      · split <;> rfl
      · rfl
    show PInv (afterReg { s with reg := r, stack := s.stack.map (noteAll ns), tasks := ts, log := log' } op)
    generalize afterReg { s with reg := r, stack := s.stack.map (noteAll ns), tasks := ts, log := log' } op = s' at hq hfr
    obtain ⟨X, h1, h2⟩ := hq
    exact h.quiet hh.log h1 (fun k e he => (h2 e he).1 k) (fun c f v hm => by have := (h2 _ hm).2; cases this)
      (fun g hg => Or.inl ⟨g, by rw [← hfr]; exact hg, rfl, rfl⟩)
  | poke a val => exact ⟨h.fr, h.rt⟩
  | plain p this hp => exact h
  | call v this hv hwr =>
    refine h.quiet hh.log (X := [_]) rfl (by intro k e he; rw [List.mem_singleton.1 he]; trivial) (by simp) ?_
    intro g hg
    rcases List.mem_cons.1 hg with rfl | hg
    · exact Or.inr ⟨Nat.le_refl _, rfl⟩
    · exact Or.inl ⟨g, hg, rfl, rfl⟩
  | shCall v this hv hwr =>
    refine h.quiet hh.log (X := [_]) rfl (by intro k e he; rw [List.mem_singleton.1 he]; trivial) (by simp) ?_
    intro g hg
    rcases List.mem_cons.1 hg with rfl | hg
    · exact Or.inr ⟨Nat.le_succ _, rfl⟩
    · exact Or.inl ⟨g, hg, rfl, rfl⟩
  | shEnd fs hf =>
    exact h.quiet hh.log (X := []) rfl (by simp) (by simp) (fun g hg => Or.inl ⟨g, by rw [hf]; exact hg, rfl, rfl⟩)
  | setRes res f fs hf =>
    exact h.topStep' m hd hf (X := []) rfl (by simp) (by simp) (f' := { f with cur := res }) rfl rfl (h.fr f (by rw [hf]; exact List.mem_cons_self ..))
  | recall res val v f fs c cs hf hst hv hcv =>
    obtain ⟨f1, fs1, post, hf1, hat⟩ := InHandler.elim hok.1
    rw [hf] at hf1; cases hf1
    refine h.quiet hh.log (X := [_]) rfl (by intro k e he; rw [List.mem_singleton.1 he]; trivial) (by simp) ?_
    intro g hg
    rcases List.mem_cons.1 hg with rfl | hg
    · exact Or.inr ⟨Nat.le_refl _, rfl⟩
    · left
      have hb : (recPt f.pt).busy = f.pt.busy := by
        obtain ⟨n, hn⟩ := hat; rw [hn]; cases post <;> rfl
      have key : ∀ G : Frame → Frame, (∀ f, SameF f (G f)) → g ∈ hookFrames ((Fr.hook { f with cur := res, status := max f.status res, pt := recPt f.pt } :: fs).map (frMap G)) →
          ∃ g0 ∈ hookFrames s.frames, g0.fid = g.fid ∧ g0.pt.busy = g.pt.busy := by
        intro G hG hg
        rw [hookFrames_map] at hg
        obtain ⟨g0, hg0, rfl⟩ := List.mem_map.1 hg
        rw [hf, (hG g0).fid, (hG g0).pt]
        rcases List.mem_cons.1 hg0 with rfl | hg0
        · exact ⟨f, List.mem_cons_self .., rfl, hb.symm⟩
        · exact ⟨g0, List.mem_cons_of_mem _ hg0, rfl, rfl⟩
      have hg : g ∈ hookFrames (if res ≥ override then setSlot (.hook { f with cur := res, status := max f.status res, pt := recPt f.pt } :: fs) val c.over
            else .hook { f with cur := res, status := max f.status res, pt := recPt f.pt } :: fs) := hg
      by_cases ho : res ≥ override
      · rw [if_pos ho, setSlot_eq] at hg
        exact key _ (slotMap_same _ _) hg
      · rw [if_neg ho] at hg
        refine key id SameF.refl ?_
        rw [frMap_id]; exact hg
  | recallRet f fs c cs post v hf hst hat =>
    refine h.topStep m hd hf (X := [_]) rfl ?_ (by simp) (f' := { f with cur := supercede, prev := supercede, status := max f.status supercede, pt := loopPt post })
      (slotMap_same v c.over) ?_ rfl ?_
    · intro k hk e he; rw [List.mem_singleton.1 he]; exact fun e => hk e.symm
    · show hookFrames (setSlot _ _ _) = _
      rw [setSlot_eq, hookFrames_map]; rfl
    · show runs (.result f.fid post supercede v :: s.log) f.fid = (results (.result f.fid post supercede v :: s.log) f.fid).map _ ++ (loopPt post).busy
      have h1 := h.fr f (by rw [hf]; exact List.mem_cons_self ..)
      rw [rec_busy hat] at h1
      rw [results_one, loopPt_busy, List.map_append, List.append_nil]
      exact h1
  | tickHook f fs c cs g grp hk post hf hst hpt hg hgh =>
    obtain ⟨c1, cs1, hst1, hfo, _⟩ := m.top hf
    rw [hst] at hst1; cases hst1
    have hsd : grp.side = post := by
      rcases hfo.ctxOk with hdd | ⟨v, hl⟩
      · rw [getNext_dead hdd] at hg; cases hg; cases hgh
      · obtain ⟨g', k1, k2⟩ := getNext_live hw.s hl f.fid
        rw [hg] at k1; cases k1
        have hst2 := (k2.inv grp hk hgh).2.2.2.1
        have hp := hfo.pt
        rw [hpt] at hp
        cases post with
        | false =>
          have := getNext_pre hg hp
          rw [hgh, hst2] at this
          cases grp <;> simp [Grp.st] at this <;> rfl
        | true =>
          have := getNext_post hg hp
          rw [hgh, hst2] at this
          cases grp <;> simp [Grp.st] at this <;> rfl
    obtain ⟨S, e1, e2⟩ := logGot_ext f.cid f.fid g s.log
    rw [hgh] at e2
    refine h.topStep' m hd hf (X := .invoke f.cid f.fid grp hk.nid g.ctx.ifacePtr :: S) e2 ?_ ?_
      (f' := { f with pt := if post then .inPost hk.nid else .inPre hk.nid, cur := ignored }) rfl rfl ?_
    · intro k hk2 e he
      rcases List.mem_cons.1 he with rfl | he
      · exact fun e => hk2 e.symm
      · obtain ⟨_, _, rfl⟩ := e1 e he; trivial
    · intro a b d hm
      rcases List.mem_cons.1 hm with e | hm
      · cases e
      · obtain ⟨_, _, e⟩ := e1 _ hm; cases e
    · show runs (logGot f.cid f.fid g s.log) f.fid = (results (logGot f.cid f.fid g s.log) f.fid).map _ ++ _
      have h1 := h.fr f (by rw [hf]; exact List.mem_cons_self ..)
      rw [hpt, loopPt_busy, List.append_nil] at h1
      rw [e2]
      simp only [List.singleton_append]
      have hS : ∀ e ∈ S, e.still f.fid := by intro e he; obtain ⟨_, _, rfl⟩ := e1 e he; trivial
      rw [runs_one, runs_still hS, h1, hsd]
      have : results (.invoke f.cid f.fid grp hk.nid g.ctx.ifacePtr :: (S ++ s.log)) f.fid = results (S ++ s.log) f.fid := rfl
      rw [this, results_still hS]
      cases post <;> rfl
  | tickOrig f fs c cs g a hf hst hpt hg hgh hns hco hfa =>
    obtain ⟨X, e1, e2⟩ := logGot_ext' f.cid f.fid g s.log
    have hX : ∀ e ∈ Ev.origCall f.cid f.fid a :: X, (∀ k, e.still k) ∧ ∀ c f v, e ≠ Ev.ret c f v := by
      intro e he
      rcases List.mem_cons.1 he with rfl | he
      · exact ⟨fun _ => trivial, by simp⟩
      rcases e2 e he with ⟨_, _, rfl⟩ | ⟨_, _, hn, _⟩
      · exact ⟨fun _ => trivial, by simp⟩
      · rw [hgh] at hn; cases hn
    refine h.quiet hh.log (X := .origCall f.cid f.fid a :: X) (congrArg (List.cons _) e1) (fun k e he => (hX e he).1 k) (fun c f v hm => (hX _ hm).2 _ _ _ rfl) ?_
    intro q hq
    left
    rw [hf]
    rcases List.mem_cons.1 hq with rfl | hq
    · exact ⟨f, List.mem_cons_self .., rfl, by rw [hpt]; rfl⟩
    · exact ⟨q, List.mem_cons_of_mem _ hq, rfl, rfl⟩
  | tickSkip f fs c cs g hf hst hpt hg hgh hns =>
    obtain ⟨X, e1, e2⟩ := logGot_ext' f.cid f.fid g s.log
    have hX : ∀ e ∈ X, (∀ k, e.still k) ∧ ∀ c f v, e ≠ Ev.ret c f v := by
      intro e he
      rcases e2 e he with ⟨_, _, rfl⟩ | ⟨_, _, hn, _⟩
      · exact ⟨fun _ => trivial, by simp⟩
      · rw [hgh] at hn; cases hn
    refine h.quiet hh.log (X := X) e1 (fun k e he => (hX e he).1 k) (fun c f v hm => (hX _ hm).2 _ _ _ rfl) ?_
    intro q hq
    left
    rw [hf]
    rcases List.mem_cons.1 hq with rfl | hq
    · exact ⟨f, List.mem_cons_self .., rfl, by rw [hpt]; rfl⟩
    · exact ⟨q, List.mem_cons_of_mem _ hq, rfl, rfl⟩
  | tickRet f fs c cs g v s2 hf hst hpt hg hgh hv hs2 =>
    obtain ⟨Y, y1, y2⟩ := popCtx_quiet { s with log := logGot f.cid f.fid g s.log } cs
    obtain ⟨X, e1, e2⟩ := logGot_ext' f.cid f.fid g s.log
    have hlog : s2.log = (Y ++ X) ++ s.log := by
      rw [hs2, y1]; show Y ++ logGot f.cid f.fid g s.log = _
      rw [e1, List.append_assoc]
    have hX : ∀ e ∈ Y ++ X, (∀ k, e.still k) ∧ ∀ c f v, e ≠ Ev.ret c f v := by
      intro e he
      rcases List.mem_append.1 he with he | he
      · rcases y2 e he with ⟨_, rfl⟩ | ⟨_, rfl⟩ <;> exact ⟨fun _ => trivial, by simp⟩
      · rcases e2 e he with ⟨_, _, rfl⟩ | ⟨_, _, hn, _⟩
        · exact ⟨fun _ => trivial, by simp⟩
        · rw [hgh] at hn; cases hn
    have hk := h.quiet (s' := { s2 with frames := handBack v fs }) hh.log hlog (fun k e he => (hX e he).1 k) (fun c f v hm => (hX _ hm).2 _ _ _ rfl) (by
      intro q hq
      left
      rw [hf]
      rcases handBack_cases v fs with e | ⟨p, fs', rfl, ⟨n, hp, e⟩ | ⟨n, hp, e⟩⟩
      · rw [e] at hq; exact ⟨q, List.mem_cons_of_mem _ hq, rfl, rfl⟩
      all_goals
        have hq : q ∈ hookFrames (handBack v (.hook p :: fs')) := hq
        rw [e] at hq
        rcases List.mem_cons.1 hq with rfl | hq
        · exact ⟨p, List.mem_cons_of_mem _ (List.mem_cons_self ..), rfl, by rw [hp]; rfl⟩
        · exact ⟨q, List.mem_cons_of_mem _ (List.mem_cons_of_mem _ hq), rfl, rfl⟩)
    refine ⟨hk.fr, ?_⟩
    intro c' f' w hm
    rcases List.mem_cons.1 hm with e | hm
    · cases e
      show runs s2.log f.fid = (results s2.log f.fid).map _
      have h1 := h.fr f (by rw [hf]; exact List.mem_cons_self ..)
      rw [hpt] at h1
      rw [hlog, runs_still fun e he => (hX e he).1 _, results_still fun e he => (hX e he).1 _, h1]
      exact List.append_nil _
    · exact hk.rt c' f' w hm
  | handlerRet v f fs c cs post hf hst hat =>
    let f1 : Frame := { f with prev := f.cur, status := max f.status f.cur, pt := loopPt post }
    have hnew : runs (.result f.fid post f.cur v :: s.log) f.fid = (results (.result f.fid post f.cur v :: s.log) f.fid).map (·.1) ++ (loopPt post).busy := by
      have h1 := h.fr f (by rw [hf]; exact List.mem_cons_self ..)
      rw [handler_busy hat] at h1
      rw [results_one, loopPt_busy, List.map_append, List.append_nil]
      exact h1
    have hX : ∀ k, k ≠ f.fid → ∀ e ∈ [Ev.result f.fid post f.cur v], e.still k := by
      intro k hk e he; rw [List.mem_singleton.1 he]; exact fun e => hk e.symm
    by_cases ho : f.cur ≥ override
    · refine h.topStep m hd hf (X := [_]) rfl hX (by simp) (f' := f1) (slotMap_same v c.over) ?_ rfl hnew
      show hookFrames (if f.cur ≥ override then setSlot (.hook f1 :: fs) v c.over else .hook f1 :: fs) = _
      rw [if_pos ho, setSlot_eq, hookFrames_map]; rfl
    · refine h.topStep' m hd hf (X := [_]) rfl hX (by simp) (f' := f1) ?_ rfl hnew
      show hookFrames (if f.cur ≥ override then setSlot (.hook f1 :: fs) v c.over else .hook f1 :: fs) = _
      rw [if_neg ho]; rfl
  | origRet v f fs hf hpt =>
    refine h.quiet hh.log (X := [_]) rfl (by intro k e he; rw [List.mem_singleton.1 he]; trivial) (by simp) ?_
    intro q hq
    left
    rw [hf]
    rcases List.mem_cons.1 hq with rfl | hq
    · exact ⟨f, List.mem_cons_self .., rfl, by rw [hpt]; rfl⟩
    · exact ⟨q, List.mem_cons_of_mem _ hq, rfl, rfl⟩
  | resolve force =>
    refine h.quiet hh.log (X := ((s.pend.filter fun p => force || p.2).map fun p => Ev.ready p.1).reverse) rfl ?_ ?_ (fun g hg => Or.inl ⟨g, hg, rfl, rfl⟩)
    · intro k e he
      obtain ⟨p, _, rfl⟩ := List.mem_map.1 (List.mem_reverse.1 he)
      trivial
    · intro c f v hm
      obtain ⟨p, _, e⟩ := List.mem_map.1 (List.mem_reverse.1 hm)
      cases e

theorem LReach.pair {E : Env} (hE : EnvOk E) {s : St} (h : LReach E s) : PInv s := by
  induction h with
  | init mem0 h0 => constructor <;> simp [hookFrames]
  | step h1 h2 h3 ih => exact ih.step (h1.inv hE) (h1.hist hE) (h1.done hE) h2 (h1.tr hE h2 h3)

end Verif.SH
