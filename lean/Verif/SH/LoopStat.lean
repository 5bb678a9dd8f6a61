import Verif.SH.LoopPair
/-
META_RESULT_STATUS of every activation, including recalled ones.
-/
namespace Verif.SH

/-- The status activation `fid` was recalled with (IGNORED if it is no recalled one). -/
def carried (log : List Ev) (fid : Nat) : Nat :=
  (log.filterMap fun e => match e with
    | .recall _ _ f st => if f = fid then some st else none
    | _ => none).headD ignored

/-- A handler of this activation has recalled and its own return is pending. -/
def Pt.rec? : Pt → Prop
  | .recPre .. | .recPost .. => True
  | _ => False

/-- The event changes nothing about the status of activation `k`. -/
def Ev.calm (k : Nat) : Ev → Prop
  | .result f _ _ _ => f ≠ k
  | .recall _ _ f _ => f ≠ k
  | _ => True

theorem carried_calm {X log : List Ev} {k : Nat} (h : ∀ e ∈ X, e.calm k) : carried (X ++ log) k = carried log k := by
  unfold carried
  rw [List.filterMap_append]
  have : X.filterMap (fun e => match e with
    | .recall _ _ f st => if f = k then some st else none
    | _ => none) = [] := by
    rw [List.filterMap_eq_nil_iff]
    intro e he
    have := h e he
    cases e <;> simp_all [Ev.calm]
  rw [this]; rfl

theorem results_calm {X log : List Ev} {k : Nat} (h : ∀ e ∈ X, e.calm k) : results (X ++ log) k = results log k := by
  induction X with
  | nil => rfl
  | cons e X ih =>
    rw [List.cons_append, ← ih fun e he => h e (List.mem_cons_of_mem _ he)]
    have := h e (List.mem_cons_self ..)
    cases e with
    | result f post res v => exact results_mute (X := [_]) (by intro e he; rw [List.mem_singleton.1 he]; exact this)
    | _ => rfl

/-- The status of activation `g` is the highest of the one it was recalled with and its handlers' results. -/
structure StatOk (log : List Ev) (g : Frame) : Prop where
  le : max (carried log g.fid) (highest (results log g.fid)) ≤ g.status
  eq : ¬ g.pt.rec? → g.status = max (carried log g.fid) (highest (results log g.fid))

def StatInv (s : St) : Prop := ∀ g ∈ hookFrames s.frames, StatOk s.log g

theorem StatOk.keep {X log : List Ev} {g g' : Frame} (h : StatOk log g) (hX : ∀ e ∈ X, e.calm g.fid) (e1 : g'.fid = g.fid)
    (e2 : (g'.status = g.status ∧ (g.pt.rec? → g'.pt.rec?)) ∨ (g.status ≤ g'.status ∧ g'.pt.rec?)) : StatOk (X ++ log) g' := by
  refine ⟨?_, ?_⟩
  · rw [e1, carried_calm hX, results_calm hX]
    rcases e2 with e | e
    · rw [e.1]; exact h.le
    · exact Nat.le_trans h.le e.1
  · intro hn
    rw [e1, carried_calm hX, results_calm hX]
    rcases e2 with e | e
    · rw [e.1]; exact h.eq fun x => hn (e.2 x)
    · exact absurd e.2 hn

theorem StatInv.quiet {s s' : St} (h : StatInv s) {X : List Ev} (hlog : s'.log = X ++ s.log)
    (hfr : ∀ g' ∈ hookFrames s'.frames, (∃ g ∈ hookFrames s.frames, g'.fid = g.fid ∧ (∀ e ∈ X, e.calm g.fid) ∧
      ((g'.status = g.status ∧ (g.pt.rec? → g'.pt.rec?)) ∨ (g.status ≤ g'.status ∧ g'.pt.rec?))) ∨ StatOk s'.log g') : StatInv s' := by
  intro g' hg'
  rcases hfr g' hg' with ⟨g, h1, h2, h3, h4⟩ | h1
  · rw [hlog]; exact (h g h1).keep h3 h2 h4
  · exact h1

/-- A fresh activation has no history. -/
theorem fresh_calm {s : St} (hl : LogOk s.log s.next) {k : Nat} (hk : s.next ≤ k) : carried s.log k = ignored ∧ results s.log k = [] := by
  have hc : ∀ e ∈ s.log, e.calm k := by
    intro e he
    have := hl.lt e he
    cases e <;> simp only [Ev.calm] <;> intro e2 <;> have := this k (by simp [Ev.nums, e2]) <;> omega
  have a := carried_calm (log := []) hc
  have b := results_calm (log := []) hc
  rw [List.append_nil] at a b
  exact ⟨a, b⟩

theorem carried_one (log : List Ev) (c f fid st : Nat) : carried (.recall c f fid st :: log) fid = st := by
  unfold carried; simp

theorem StatInv.step {E : Env} {s s' : St} {op : Op} (m : MInv E s) (hh : HInv s) (h : StatInv s) (hok : Ok E s op) (ht : Tr E s op s') : StatInv s' := by
  have same : ∀ {X : List Ev} {g : Frame}, g ∈ hookFrames s.frames → (∀ e ∈ X, ∀ k, e.calm k) →
      ∃ g0 ∈ hookFrames s.frames, g.fid = g0.fid ∧ (∀ e ∈ X, e.calm g0.fid) ∧
      ((g.status = g0.status ∧ (g0.pt.rec? → g.pt.rec?)) ∨ (g0.status ≤ g.status ∧ g.pt.rec?)) :=
    fun hg hX => ⟨_, hg, rfl, fun e he => hX e he _, Or.inl ⟨rfl, id⟩⟩
  cases ht with
  | reg op r x ns hrr =>
    obtain ⟨ts, log', hfe, hts, he⟩ := applyNotes_spec ns { s with reg := r }
    rw [he]
    have hq : ∃ X, (afterReg { s with reg := r, stack := s.stack.map (noteAll ns), tasks := ts, log := log' } op).log = X ++ s.log ∧
        ∀ e ∈ X, ∀ k, e.calm k := by
      obtain ⟨X, rfl, hX⟩ := hfe
      have hX' : ∀ e ∈ X, ∀ k, e.calm k := by
        intro e he; obtain ⟨v, rfl⟩ := hX e he; exact fun _ => trivial
      unfold afterReg
      split
      · next p =>
        split
        · refine ⟨.ready p :: .request p :: X, rfl, ?_⟩
          intro e he
          rcases List.mem_cons.1 he with rfl | he
          · exact fun _ => trivial
          rcases List.mem_cons.1 he with rfl | he
          · exact fun _ => trivial
          exact hX' e he
        · refine ⟨.request p :: X, rfl, ?_⟩
          intro e he
          rcases List.mem_cons.1 he with rfl | he
          · exact fun _ => trivial
          exact hX' e he
      · exact ⟨X, rfl, hX'⟩
    have hfr : (afterReg { s with reg := r, stack := s.stack.map (noteAll ns), tasks := ts, log := log' } op).frames = s.frames := by
      unfold afterReg
      split
      · split <;> rfl
      · rfl
    show StatInv (afterReg { s with reg := r, stack := s.stack.map (noteAll ns), tasks := ts, log := log' } op)
    generalize afterReg { s with reg := r, stack := s.stack.map (noteAll ns), tasks := ts, log := log' } op = s' at hq hfr
    obtain ⟨X, h1, h2⟩ := hq
    exact h.quiet h1 fun g hg => Or.inl (same (by rw [← hfr]; exact hg) h2)
  | poke a val => exact h
  | plain p this hp => exact h
  | call v this hv hwr =>
    refine h.quiet (X := [_]) rfl ?_
    intro g hg
    rcases List.mem_cons.1 hg with rfl | hg
    · right
      obtain ⟨a, b⟩ := fresh_calm hh.log (Nat.le_refl s.next)
      have a' := (carried_calm (X := [Ev.enter s.next s.next (some v.ptr) this]) (log := s.log) (k := s.next) (by simp [Ev.calm])).trans a
      have b' := (results_calm (X := [Ev.enter s.next s.next (some v.ptr) this]) (log := s.log) (k := s.next) (by simp [Ev.calm])).trans b
      refine ⟨?_, fun _ => ?_⟩
      · show max (carried (_ :: s.log) s.next) (highest (results (_ :: s.log) s.next)) ≤ 0
        rw [show carried (_ :: s.log) s.next = _ from a', show results (_ :: s.log) s.next = _ from b']; decide
      · show 0 = max (carried (_ :: s.log) s.next) (highest (results (_ :: s.log) s.next))
        rw [show carried (_ :: s.log) s.next = _ from a', show results (_ :: s.log) s.next = _ from b']; decide
    · exact Or.inl (same hg (by simp [Ev.calm]))
  | shCall v this hv hwr =>
    refine h.quiet (X := [_]) rfl ?_
    intro g hg
    rcases List.mem_cons.1 hg with rfl | hg
    · right
      obtain ⟨a, b⟩ := fresh_calm hh.log (Nat.le_succ s.next)
      have a' := (carried_calm (X := [Ev.shEnter s.next (s.next + 1) (some v.ptr) this]) (log := s.log) (k := s.next + 1) (by simp [Ev.calm])).trans a
      have b' := (results_calm (X := [Ev.shEnter s.next (s.next + 1) (some v.ptr) this]) (log := s.log) (k := s.next + 1) (by simp [Ev.calm])).trans b
      refine ⟨?_, fun _ => ?_⟩
      · show max (carried (_ :: s.log) (s.next + 1)) (highest (results (_ :: s.log) (s.next + 1))) ≤ 0
        rw [show carried (_ :: s.log) (s.next + 1) = _ from a', show results (_ :: s.log) (s.next + 1) = _ from b']; decide
      · show 0 = max (carried (_ :: s.log) (s.next + 1)) (highest (results (_ :: s.log) (s.next + 1)))
        rw [show carried (_ :: s.log) (s.next + 1) = _ from a', show results (_ :: s.log) (s.next + 1) = _ from b']; decide
    · exact Or.inl (same hg (by simp [Ev.calm]))
  | shEnd fs hf =>
    exact h.quiet (X := []) rfl fun g hg => Or.inl (same (by rw [hf]; exact hg) (by simp))
  | setRes res f fs hf =>
    refine h.quiet (X := []) rfl fun g hg => Or.inl ?_
    rcases List.mem_cons.1 hg with rfl | hg
    · exact ⟨f, by rw [hf]; exact List.mem_cons_self .., rfl, by simp, Or.inl ⟨rfl, id⟩⟩
    · exact same (by rw [hf]; exact List.mem_cons_of_mem _ hg) (by simp)
  | recall res val v f fs c cs hf hst hv hcv =>
    obtain ⟨f1, fs1, post, hf1, hat⟩ := InHandler.elim hok.1
    rw [hf] at hf1; cases hf1
    refine h.quiet (X := [_]) rfl ?_
    intro g hg
    have hcalm : ∀ g ∈ hookFrames s.frames, ∀ e ∈ [Ev.recall c.cid f.fid s.next (max f.status res)], e.calm g.fid := by
      intro g hg e he
      rw [List.mem_singleton.1 he]
      exact fun e => absurd (m.flt g hg) (by omega)
    rcases List.mem_cons.1 hg with rfl | hg
    · right
      obtain ⟨a, b⟩ := fresh_calm hh.log (Nat.le_refl s.next)
      have key : max (carried (.recall c.cid f.fid s.next (max f.status res) :: s.log) s.next)
          (highest (results (.recall c.cid f.fid s.next (max f.status res) :: s.log) s.next)) = max f.status res := by
        rw [carried_one, show results (.recall c.cid f.fid s.next (max f.status res) :: s.log) s.next = results s.log s.next from rfl, b]
        exact Nat.max_zero _
      exact ⟨Nat.le_of_eq key, fun _ => key.symm⟩
    · left
      have hb : (recPt f.pt).rec? := by
        obtain ⟨n, hn⟩ := hat; rw [hn]; cases post <;> trivial
      have key : ∀ G : Frame → Frame, (∀ f, SameF f (G f)) → g ∈ hookFrames ((Fr.hook { f with cur := res, status := max f.status res, pt := recPt f.pt } :: fs).map (frMap G)) →
          ∃ g0 ∈ hookFrames s.frames, g.fid = g0.fid ∧ (∀ e ∈ [Ev.recall c.cid f.fid s.next (max f.status res)], e.calm g0.fid) ∧
            ((g.status = g0.status ∧ (g0.pt.rec? → g.pt.rec?)) ∨ (g0.status ≤ g.status ∧ g.pt.rec?)) := by
        intro G hG hg
        rw [hookFrames_map] at hg
        obtain ⟨g0, hg0, rfl⟩ := List.mem_map.1 hg
        rw [(hG g0).fid, (hG g0).pt, (hG g0).status]
        rcases List.mem_cons.1 hg0 with rfl | hg0
        · have hm : f ∈ hookFrames s.frames := by rw [hf]; exact List.mem_cons_self ..
          exact ⟨f, hm, rfl, hcalm f hm, Or.inr ⟨Nat.le_max_left .., hb⟩⟩
        · have hm : g0 ∈ hookFrames s.frames := by rw [hf]; exact List.mem_cons_of_mem _ hg0
          exact ⟨g0, hm, rfl, hcalm g0 hm, Or.inl ⟨rfl, id⟩⟩
      have hg : g ∈ hookFrames (if res ≥ override then setSlot (.hook { f with cur := res, status := max f.status res, pt := recPt f.pt } :: fs) val c.over
            else .hook { f with cur := res, status := max f.status res, pt := recPt f.pt } :: fs) := hg
      by_cases ho : res ≥ override
      · rw [if_pos ho, setSlot_eq] at hg
        exact key _ (slotMap_same _ _) hg
      · rw [if_neg ho] at hg
        refine key id SameF.refl ?_
        rw [frMap_id]; exact hg
  | recallRet f fs c cs post v hf hst hat =>
    have hm : f ∈ hookFrames s.frames := by rw [hf]; exact List.mem_cons_self ..
    have hle := (hh.le f hm).1
    have h1 := (h f hm).le
    refine h.quiet (X := [_]) rfl ?_
    intro g hg
    have hg : g ∈ hookFrames (setSlot (.hook { f with cur := supercede, prev := supercede, status := max f.status supercede, pt := loopPt post } :: fs) v c.over) := hg
    rw [setSlot_eq, hookFrames_map] at hg
    obtain ⟨g0, hg0, rfl⟩ := List.mem_map.1 hg
    rcases List.mem_cons.1 hg0 with rfl | hg0
    · right
      have hG := slotMap_same v c.over { f with cur := supercede, prev := supercede, status := max f.status supercede, pt := loopPt post }
      have key : max f.status supercede = max (carried (.result f.fid post supercede v :: s.log) f.fid)
          (highest (results (.result f.fid post supercede v :: s.log) f.fid)) := by
        rw [results_one, highest_snoc, show carried (.result f.fid post supercede v :: s.log) f.fid = carried s.log f.fid from rfl]
        show max f.status 3 = max (carried s.log f.fid) (max (highest (results s.log f.fid)) 3)
        omega
      refine ⟨?_, fun _ => ?_⟩
      · rw [hG.fid, hG.status]; exact Nat.le_of_eq key.symm
      · rw [hG.fid, hG.status]; exact key
    · left
      have hG := slotMap_same v c.over g0
      have hne : g0.fid ≠ f.fid := by
        have h4 := m.fid
        rw [hf] at h4
        exact Nat.ne_of_lt ((List.pairwise_cons.1 h4).1 g0 hg0)
      refine ⟨g0, by rw [hf]; exact List.mem_cons_of_mem _ hg0, hG.fid, ?_, Or.inl ⟨hG.status, by rw [hG.pt]; exact id⟩⟩
      intro e he; rw [List.mem_singleton.1 he]; exact fun e => hne e.symm
  | tickHook f fs c cs g grp hk post hf hst hpt hg hgh =>
    obtain ⟨X, e1, e2⟩ := logGot_ext' f.cid f.fid g s.log
    have hX : ∀ e ∈ X, ∀ k, e.calm k := by
      intro e he
      rcases e2 e he with ⟨_, _, rfl⟩ | ⟨_, _, _, rfl⟩ <;> exact fun _ => trivial
    refine h.quiet (X := X) e1 fun q hq => Or.inl ?_
    rcases List.mem_cons.1 hq with rfl | hq
    · refine ⟨f, by rw [hf]; exact List.mem_cons_self .., rfl, fun e he => hX e he _, Or.inl ⟨rfl, ?_⟩⟩
      rw [hpt]; intro hx; cases post <;> exact hx.elim
    · exact same (by rw [hf]; exact List.mem_cons_of_mem _ hq) hX
  | tickOrig f fs c cs g a hf hst hpt hg hgh hns hco hfa =>
    obtain ⟨X, e1, e2⟩ := logGot_ext' f.cid f.fid g s.log
    have hX : ∀ e ∈ Ev.origCall f.cid f.fid a :: X, ∀ k, e.calm k := by
      intro e he
      rcases List.mem_cons.1 he with rfl | he
      · exact fun _ => trivial
      rcases e2 e he with ⟨_, _, rfl⟩ | ⟨_, _, _, rfl⟩ <;> exact fun _ => trivial
    refine h.quiet (X := .origCall f.cid f.fid a :: X) (congrArg (List.cons _) e1) fun q hq => Or.inl ?_
    rcases List.mem_cons.1 hq with rfl | hq
    · refine ⟨f, by rw [hf]; exact List.mem_cons_self .., rfl, fun e he => hX e he _, Or.inl ⟨rfl, ?_⟩⟩
      rw [hpt]; exact fun hx => hx.elim
    · exact same (by rw [hf]; exact List.mem_cons_of_mem _ hq) hX
  | tickSkip f fs c cs g hf hst hpt hg hgh hns =>
    obtain ⟨X, e1, e2⟩ := logGot_ext' f.cid f.fid g s.log
    have hX : ∀ e ∈ X, ∀ k, e.calm k := by
      intro e he
      rcases e2 e he with ⟨_, _, rfl⟩ | ⟨_, _, _, rfl⟩ <;> exact fun _ => trivial
    refine h.quiet (X := X) e1 fun q hq => Or.inl ?_
    rcases List.mem_cons.1 hq with rfl | hq
    · refine ⟨f, by rw [hf]; exact List.mem_cons_self .., rfl, fun e he => hX e he _, Or.inl ⟨rfl, ?_⟩⟩
      rw [hpt]; exact fun hx => hx.elim
    · exact same (by rw [hf]; exact List.mem_cons_of_mem _ hq) hX
  | tickRet f fs c cs g v s2 hf hst hpt hg hgh hv hs2 =>
    obtain ⟨Y, y1, y2⟩ := popCtx_quiet { s with log := logGot f.cid f.fid g s.log } cs
    obtain ⟨X, e1, e2⟩ := logGot_ext' f.cid f.fid g s.log
    have hlog : Ev.ret f.cid f.fid v :: s2.log = (Ev.ret f.cid f.fid v :: (Y ++ X)) ++ s.log := by
      rw [hs2, y1]; show _ :: (Y ++ logGot f.cid f.fid g s.log) = _
      rw [e1, List.cons_append, List.append_assoc]
    have hX : ∀ e ∈ Ev.ret f.cid f.fid v :: (Y ++ X), ∀ k, e.calm k := by
      intro e he
      rcases List.mem_cons.1 he with rfl | he
      · exact fun _ => trivial
      rcases List.mem_append.1 he with he | he
      · rcases y2 e he with ⟨_, rfl⟩ | ⟨_, rfl⟩ <;> exact fun _ => trivial
      · rcases e2 e he with ⟨_, _, rfl⟩ | ⟨_, _, _, rfl⟩ <;> exact fun _ => trivial
    refine h.quiet hlog fun q hq => Or.inl ?_
    have hq : q ∈ hookFrames (handBack v fs) := hq
    rcases handBack_cases v fs with e | ⟨p, fs', rfl, ⟨n, hp, e⟩ | ⟨n, hp, e⟩⟩
    · rw [e] at hq; exact same (by rw [hf]; exact List.mem_cons_of_mem _ hq) hX
    all_goals
      rw [e] at hq
      rcases List.mem_cons.1 hq with rfl | hq
      · exact ⟨p, by rw [hf]; exact List.mem_cons_of_mem _ (List.mem_cons_self ..), rfl, fun e he => hX e he _, Or.inl ⟨rfl, fun _ => trivial⟩⟩
      · exact same (by rw [hf]; exact List.mem_cons_of_mem _ (List.mem_cons_of_mem _ hq)) hX
  | handlerRet v f fs c cs post hf hst hat =>
    have hm : f ∈ hookFrames s.frames := by rw [hf]; exact List.mem_cons_self ..
    have h1 := (h f hm).eq (by obtain ⟨n, hn⟩ := hat; rw [hn]; cases post <;> exact id)
    let f1 : Frame := { f with prev := f.cur, status := max f.status f.cur, pt := loopPt post }
    have key : ∀ G : Frame → Frame, (∀ f, SameF f (G f)) → ∀ g ∈ hookFrames ((Fr.hook f1 :: fs).map (frMap G)),
        (∃ g0 ∈ hookFrames s.frames, g.fid = g0.fid ∧ (∀ e ∈ [Ev.result f.fid post f.cur v], e.calm g0.fid) ∧
            ((g.status = g0.status ∧ (g0.pt.rec? → g.pt.rec?)) ∨ (g0.status ≤ g.status ∧ g.pt.rec?))) ∨ StatOk (.result f.fid post f.cur v :: s.log) g := by
      intro G hG g hg
      rw [hookFrames_map] at hg
      obtain ⟨g0, hg0, rfl⟩ := List.mem_map.1 hg
      have hG := hG g0
      rcases List.mem_cons.1 hg0 with rfl | hg0
      · right
        have key : max f.status f.cur = max (carried (.result f.fid post f.cur v :: s.log) f.fid)
            (highest (results (.result f.fid post f.cur v :: s.log) f.fid)) := by
          rw [results_one, highest_snoc, show carried (.result f.fid post f.cur v :: s.log) f.fid = carried s.log f.fid from rfl]
          show max f.status f.cur = max (carried s.log f.fid) (max (highest (results s.log f.fid)) f.cur)
          omega
        refine ⟨?_, fun _ => ?_⟩
        · rw [hG.fid, hG.status]; exact Nat.le_of_eq key.symm
        · rw [hG.fid, hG.status]; exact key
      · left
        have hne : g0.fid ≠ f.fid := by
          have h4 := m.fid
          rw [hf] at h4
          exact Nat.ne_of_lt ((List.pairwise_cons.1 h4).1 g0 hg0)
        refine ⟨g0, by rw [hf]; exact List.mem_cons_of_mem _ hg0, hG.fid, ?_, Or.inl ⟨hG.status, by rw [hG.pt]; exact id⟩⟩
        intro e he; rw [List.mem_singleton.1 he]; exact fun e => hne e.symm
    refine h.quiet (X := [_]) rfl fun g hg => ?_
    have hg : g ∈ hookFrames (if f.cur ≥ override then setSlot (.hook f1 :: fs) v c.over else .hook f1 :: fs) := hg
    by_cases ho : f.cur ≥ override
    · rw [if_pos ho, setSlot_eq] at hg
      exact key _ (slotMap_same _ _) g hg
    · rw [if_neg ho] at hg
      refine key id SameF.refl g ?_
      rw [frMap_id]; exact hg
  | origRet v f fs hf hpt =>
    refine h.quiet (X := [_]) rfl fun q hq => Or.inl ?_
    rcases List.mem_cons.1 hq with rfl | hq
    · refine ⟨f, by rw [hf]; exact List.mem_cons_self .., rfl, by simp [Ev.calm], Or.inl ⟨rfl, ?_⟩⟩
      rw [hpt]; exact fun hx => hx.elim
    · exact same (by rw [hf]; exact List.mem_cons_of_mem _ hq) (by simp [Ev.calm])
  | resolve force =>
    refine h.quiet (X := ((s.pend.filter fun p => force || p.2).map fun p => Ev.ready p.1).reverse) rfl fun g hg => Or.inl (same hg ?_)
    intro e he
    obtain ⟨p, _, rfl⟩ := List.mem_map.1 (List.mem_reverse.1 he)
    exact fun _ => trivial

theorem LReach.stat {E : Env} (hE : EnvOk E) {s : St} (h : LReach E s) : StatInv s := by
  induction h with
  | init mem0 h0 => intro g hg; cases hg
  | step h1 h2 h3 ih => exact ih.step (h1.inv hE) (h1.hist hE) h2 (h1.tr hE h2 h3)

end Verif.SH
