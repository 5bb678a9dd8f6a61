import Verif.SH.LoopTrack
/-
No hook is passed over: invariants along a run, and the events each step adds.
-/
namespace Verif.SH

/-! ### events of a step -/

/-- What a new event says about the state before the step. -/
def EvSpec (s : St) : Ev → Prop
  | .invoke cid _ g nid ifp => ∃ fid0 p this, Ev.enter cid fid0 (some p) this ∈ s.log ∧
      ∃ h ∈ view s.reg p (g.ptr this) g.side, h.nid = nid ∧ h.paused = false ∧ ifp = this - h.offs
  | .skip cid g nid => ∃ fid0 p this, Ev.enter cid fid0 (some p) this ∈ s.log ∧
      ∃ h ∈ view s.reg p (g.ptr this) g.side, h.nid = nid ∧ h.paused = true
  | _ => True

theorem EvSpec.of_quiet {s : St} {e : Ev} (h : e.quiet = true) : EvSpec s e := by
  cases e <;> first | trivial | cases h

theorem got_spec {E : Env} {s : St} (m : MInv E s) (h : HInv s) {f : Frame} {c : Ctx} (hi : In2 f c (hookFrames s.frames) s.stack)
    {g : Got} (hg : getNext s.reg c = .ok g) (hcid : f.cid = c.cid) :
    ∃ X, logGot f.cid f.fid g s.log = X ++ s.log ∧ ∀ e ∈ X, EvSpec s e := by
  obtain ⟨mem0, hw, h0⟩ := m.reg.inv
  obtain ⟨_, hcok, hho⟩ := m.in2 h hi
  rcases hcok with hd | ⟨v, hlc⟩
  · rw [getNext_dead hd] at hg; cases hg
    exact ⟨[], rfl, by simp⟩
  · obtain ⟨g', q1, q2⟩ := getNext_live hw.s hlc f.fid
    rw [hg] at q1; cases q1
    have hnd : c.st ≠ .dead := by
      intro hd
      have := hlc.it
      unfold ItOk at this; rw [hd] at this; exact this
    obtain ⟨fid0, p, k1, k2⟩ := hho.ent hnd
    have hp := k2 v hlc.mem hlc.vfn
    have hview : ∀ a sd, view s.reg p a sd = viewV v a sd := by intro a sd; rw [← hp]; exact view_mem hw.s hlc.mem a sd
    refine ⟨(match g.hook with
        | some (grp, h) => [Ev.invoke f.cid f.fid grp h.nid g.ctx.ifacePtr]
        | none => []) ++ (g.skipped.map fun x => Ev.skip f.cid x.1 x.2).reverse, ?_, ?_⟩
    · unfold logGot
      dsimp only
      cases g.hook with
      | none => rfl
      | some x => rfl
    intro e he
    rcases List.mem_append.1 he with he | he
    · cases hgh : g.hook with
      | none => rw [hgh] at he; cases he
      | some x =>
        obtain ⟨grp, hk⟩ := x
        rw [hgh] at he
        rw [List.mem_singleton.1 he]
        obtain ⟨r1, r2, r3, _⟩ := q2.inv grp hk hgh
        exact ⟨fid0, p, c.this, by rw [hcid]; exact k1, hk, by rw [hview]; exact r2, rfl, r1, r3⟩
    · obtain ⟨x, hx, rfl⟩ := List.mem_map.1 (List.mem_reverse.1 he)
      obtain ⟨_, hk, hk1, hk2, hk3⟩ := q2.skip x hx
      exact ⟨fid0, p, c.this, by rw [hcid]; exact k1, hk, by rw [hview]; exact hk1, hk2, hk3⟩

/-- Every step only adds events to the history, and each says what happened. -/
theorem new_events {E : Env} {s s' : St} {op : Op} (m : MInv E s) (h : HInv s) (ht : Tr E s op s') :
    ∃ X, s'.log = X ++ s.log ∧ ∀ e ∈ X, EvSpec s e := by
  have hq : QuietExt s.log s'.log → ∃ X, s'.log = X ++ s.log ∧ ∀ e ∈ X, EvSpec s e := by
    rintro ⟨X, h1, h2⟩
    exact ⟨X, h1, fun e he => EvSpec.of_quiet (h2 e he)⟩
  have htop : ∀ {f : Frame} {fs : List Fr} {c : Ctx} {cs : List Ctx} {g : Got}, s.frames = .hook f :: fs → s.stack = c :: cs →
      getNext s.reg c = .ok g → ∀ log', QuietExt (logGot f.cid f.fid g s.log) log' → ∃ X, log' = X ++ s.log ∧ ∀ e ∈ X, EvSpec s e := by
    intro f fs c cs g hf hst hg log' ⟨Y, h1, h2⟩
    obtain ⟨c2, cs2, hst2, hfo, _⟩ := m.top hf
    rw [hst] at hst2; cases hst2
    obtain ⟨X, k1, k2⟩ := got_spec m h (by rw [hf, hst]; exact .head _ _) hg hfo.cid
    refine ⟨Y ++ X, by rw [h1, k1, List.append_assoc], ?_⟩
    intro e he
    rcases List.mem_append.1 he with he | he
    · exact EvSpec.of_quiet (h2 e he)
    · exact k2 e he
  have hid : ∃ X, s.log = X ++ s.log ∧ ∀ e ∈ X, EvSpec s e := ⟨[], rfl, by simp⟩
  have hone : ∀ e : Ev, e.quiet = true → ∃ X, e :: s.log = X ++ s.log ∧ ∀ e ∈ X, EvSpec s e :=
    fun e he => ⟨[e], rfl, fun x hx => by rw [List.mem_singleton.1 hx]; exact EvSpec.of_quiet he⟩
  cases ht with
  | reg op r x ns hr =>
    apply hq
    obtain ⟨ts, log', hfe, hts, he⟩ := applyNotes_spec ns { s with reg := r }
    rw [he]
    have := hfe.quiet
    unfold afterReg
    split
    · split
      · exact (this.cons rfl).cons rfl
      · exact this.cons rfl
    · exact this
  | poke a val => exact hid
  | plain p this hp => exact hid
  | call v this hv hwr => exact hone _ rfl
  | shCall v this hv hwr => exact hone _ rfl
  | shEnd fs hf => exact hid
  | setRes res f fs hf => exact hid
  | recall res val v f fs c cs hf hst hv hcv => exact hone _ rfl
  | recallRet f fs c cs post v hf hst hat => exact hone _ rfl
  | tickHook f fs c cs g grp hh post hf hst hpt hg hgh => exact htop hf hst hg _ (QuietExt.refl _)
  | tickOrig f fs c cs g a hf hst hpt hg hgh hns hco hfa => exact htop hf hst hg _ ((QuietExt.refl _).cons rfl)
  | tickSkip f fs c cs g hf hst hpt hg hgh hns => exact htop hf hst hg _ (QuietExt.refl _)
  | tickRet f fs c cs g v s2 hf hst hpt hg hgh hv hs2 =>
    obtain ⟨_, _, _, _, _, p6⟩ := popCtx_spec { s with log := logGot f.cid f.fid g s.log } cs
    rw [← hs2] at p6
    exact htop hf hst hg _ (p6.cons rfl)
  | handlerRet v f fs c cs post hf hst hat => exact hone _ rfl
  | origRet v f fs hf hpt => exact hone _ rfl
  | resolve force => exact hq (resolve_log force s)

/-! ### groups that are over -/

/-- Group `g` of call `cid` is over: a later handler or the original function was called, or the call
returned. -/
def GroupOver (log : List Ev) (cid : Nat) (g : Grp) : Prop :=
  (∃ k ∈ stages log cid, g.stage < k) ∨ ∃ fid v, Ev.ret cid fid v ∈ log

theorem GroupOver.mono {X log : List Ev} {cid : Nat} {g : Grp} (h : GroupOver log cid g) : GroupOver (X ++ log) cid g := by
  rcases h with ⟨k, h1, h2⟩ | ⟨fid, v, h⟩
  · left
    refine ⟨k, ?_, h2⟩
    unfold stages at h1 ⊢
    rw [List.filterMap_append]
    exact List.mem_append_right _ h1
  · exact Or.inr ⟨fid, v, List.mem_append_right _ h⟩

theorem LiveCtx.later {r : Reg} {log : List Ev} {c : Ctx} {v : Vfn} (h : LiveCtx r log c v) {g g' : Grp} (ht : Todo c.st g)
    (hr : g.rank < g'.rank) : NotYet log c.cid g' := by
  have := h.it
  unfold ItOk at this
  split at this
  · exact this g'
  · cases g' <;> simp_all [Grp.rank]
  · cases g' <;> simp_all [Grp.rank]
  · next e => rw [e] at ht; cases g <;> cases g' <;> simp_all [Todo, Grp.rank]
  · next e => rw [e] at ht; cases g <;> cases g' <;> simp_all [Todo, Grp.rank]
  · next e => rw [e] at ht; cases g <;> cases g' <;> simp_all [Todo, Grp.rank]
  · next e => rw [e] at ht; cases g <;> cases g' <;> simp_all [Todo, Grp.rank]
  · next e => rw [e] at ht; cases g <;> cases g' <;> simp_all [Todo, Grp.rank]
  · next e => rw [e] at ht; cases g <;> cases g' <;> simp_all [Todo, Grp.rank]
  · next e => rw [e] at ht; cases g <;> cases g' <;> simp_all [Todo, Grp.rank]
  · exact this.elim
  · exact this.elim
  · exact this.elim

/-- An unfinished group of a live call is not over. -/
theorem notOver {E : Env} {s : St} (m : MInv E s) (h : HInv s) {f : Frame} {c : Ctx} (hi : In2 f c (hookFrames s.frames) s.stack)
    {g : Grp} (ht : Todo c.st g) : ¬ GroupOver s.log c.cid g := by
  obtain ⟨_, hcok, hho⟩ := m.in2 h hi
  have hnd := ht.notDead
  rcases hcok with hd | ⟨v, hlc⟩
  · exact absurd hd hnd
  rintro (⟨k, h1, h2⟩ | ⟨fid, v, h1⟩)
  · rcases mem_stages.1 h1 with ⟨rfl, fid, a, h3⟩ | ⟨g', rfl, h3⟩
    · have hs : g.side = false := by cases g <;> simp_all [Grp.stage, Grp.side]
      exact hho.orig hnd (ht.low hs) fid a h3
    · refine h3 (hlc.later ht ?_)
      cases g <;> cases g' <;> simp_all [Grp.stage, Grp.rank]
  · exact hho.ret hnd fid v h1

theorem todo_or (grp g : Grp) : Todo grp.st g ∨ g.stage < grp.stage := by
  cases grp <;> cases g <;> simp [Grp.st, Todo, Grp.rank, Grp.stage]

theorem todo_recall {st : CtxSt} {g : Grp} (ht : Todo st g) (h : st = .pre ∨ st = .preVP ∨ st = .post ∨ st = .postVP) :
    Todo st.toRecall g := by
  rcases h with rfl | rfl | rfl | rfl <;> exact ht

/-- The pre loop never ends a live context. -/
theorem getNext_pre_live {r : Reg} {c : Ctx} {g : Got} (h : getNext r c = .ok g) (hp : PtOk .preLoop c.st) (hnd : c.st ≠ .dead) :
    g.ctx.st ≠ .dead := by
  have h1 : ∀ {c'}, nextObj r c' false = .ok g → g.ctx.st ≠ .dead := by
    intro c' h
    have := nextObj_st h
    split at this
    · rcases this with e | e <;> rw [e] <;> simp [objSt, vpSt]
    · rw [this]; simp [vpStop]
  have h2 : ∀ {c'}, nextVP r c' false [] = .ok g → g.ctx.st ≠ .dead := by
    intro c' h
    have := nextVP_st h
    rw [this]
    split <;> simp [vpSt, vpStop]
  obtain ⟨p1, p2, p3, p4, p5⟩ := hp
  unfold getNext at h
  cases hs : c.st with
  | born => rw [hs] at h; exact h1 h
  | pre => rw [hs] at h; exact h1 h
  | rPre => rw [hs] at h; exact h1 h
  | preVP => rw [hs] at h; exact h2 h
  | rPreVP => rw [hs] at h; exact h2 h
  | rPost => rw [hs] at h; cases h; simp
  | rPostVP => rw [hs] at h; cases h; simp
  | dead => exact absurd hs hnd
  | orig => exact absurd hs p1
  | post => exact absurd hs p2
  | postVP => exact absurd hs p3
  | ignore => exact absurd hs p4
  | bad => exact absurd hs p5

/-! ### invariants along a run -/

/-- Groups whose hooks belong to the object. -/
def Grp.obj (g : Grp) : Prop := g = .pre ∨ g = .post

/-- Call `cid` is alive before the end of group `g`. -/
def Running (s : St) (cid : Nat) (g : Grp) : Prop :=
  ∃ f c, In2 f c (hookFrames s.frames) s.stack ∧ c.cid = cid ∧ Todo c.st g ∧ (g.obj → c.iface ≠ none)

/-- Group `g` of call `cid` is over, or the call is alive. -/
def Going (s : St) (cid : Nat) (g : Grp) : Prop :=
  GroupOver s.log cid g ∨ ∃ f c, In2 f c (hookFrames s.frames) s.stack ∧ c.cid = cid ∧ c.st ≠ .dead ∧ (g.obj → c.iface ≠ none) ∧
    (Todo c.st g ∨ f.pt = .postLoop)

theorem Going.step {E : Env} {s s' : St} {op : Op} (m : MInv E s) (h : HInv s) (hok : Ok E s op) (ht : Tr E s op s') (m' : MInv E s')
    {cid : Nat} {g : Grp} {fid0 : Nat} {p this : Addr} (hen : Ev.enter cid fid0 (some p) this ∈ s.log)
    (hkp : Kept s'.reg p this g.obj) (hg : Going s cid g) : Going s' cid g := by
  obtain ⟨X, hX, _⟩ := new_events m h ht
  obtain ⟨mem0, hw, h0⟩ := m.reg.inv
  rcases hg with hov | ⟨f, c, hi, rfl, hnd, hI, hcase⟩
  · left; rw [hX]; exact hov.mono
  have hfo : f.cid = c.cid ∧ CtxOk s.reg s.log c := (m.al.all).in2 hi
  have hpt : PtOk f.pt c.st := by
    have : ∀ {fs cs}, Al s.reg s.log fs cs → In2 f c fs cs → PtOk f.pt c.st := by
      intro fs cs ha hi
      induction hi with
      | head => cases ha with | cons h1 _ _ => exact h1.pt
      | tail _ _ _ ih => cases ha with | cons _ _ h3 => exact ih h3
    exact this m.al hi
  cases track m h hok ht m' hi hnd hen hI hkp with
  | keep f' c' k1 k2 k3 k4 k5 k6 =>
    right
    refine ⟨f', c', k1, k2, by rw [k3]; exact hnd, k4, ?_⟩
    rcases hcase with e | e
    · left; rw [k3]; exact e
    · exact Or.inr (k5 e)
  | got gt f' k1 k2 k3 k4 k5 k6 =>
    obtain ⟨hk, _, _⟩ := getNext_any' hw.s hfo.2 f.fid k1
    have hhook : ∀ grp hh, gt.hook = some (grp, hh) → Going s' c.cid g := by
      intro grp hh hgh
      obtain ⟨v, hlc⟩ : ∃ v, LiveCtx s.reg s.log c v := by
        rcases hfo.2 with hd | hlc
        · exact absurd hd hnd
        · exact hlc
      obtain ⟨g', q1, q2⟩ := getNext_live hw.s hlc f.fid
      rw [k1] at q1; cases q1
      obtain ⟨_, _, _, hgst, _⟩ := q2.inv grp hh hgh
      rcases todo_or grp g with e | e
      · right
        exact ⟨f', gt.ctx, k4, hk.cid, by rw [hgst]; cases grp <;> simp [Grp.st], by rw [hk.iface]; exact hI, by left; rw [hgst]; exact e⟩
      · left; left
        refine ⟨grp.stage, mem_stages.2 (Or.inr ⟨grp, rfl, ?_⟩), e⟩
        rw [k5.1, invoked_logGot, hgh]
        simp
    cases hgh : gt.hook with
    | some x => exact hhook x.1 x.2 hgh
    | none =>
      rcases k6 with e | ⟨e1, fid, a, e2⟩ | e
      · rw [hgh] at e; cases e
      · rw [e1] at hpt
        have hnd' := getNext_pre_live k1 hpt hnd
        have := getNext_pre k1 hpt
        rw [if_neg (by rw [hgh]; simp)] at this
        by_cases hs : g.side = false
        · left; left
          exact ⟨2, mem_stages.2 (Or.inl ⟨rfl, fid, a, e2⟩), by cases g <;> simp_all [Grp.stage, Grp.side]⟩
        · rcases hcase with hc | hc
          · -- a post group: still to do after the pre loop
            right
            refine ⟨f', gt.ctx, k4, hk.cid, hnd', by rw [hk.iface]; exact hI, Or.inl ?_⟩
            rcases this with e | e | ⟨e, e'⟩
            · rw [e]; cases g <;> simp_all [Todo, Grp.rank, Grp.side]
            · exact absurd e hnd'
            · cases hcs : c.st with
              | rPost => unfold getNext at k1; rw [hcs] at k1; cases k1; rw [hcs] at hc; exact hc
              | rPostVP => unfold getNext at k1; rw [hcs] at k1; cases k1; rw [hcs] at hc; exact hc
              | _ => simp [hcs, CtxSt.isPostRecall] at e
          · rw [e1] at hc; cases hc
      · obtain ⟨e1, e2⟩ := e
        rw [e1] at hpt
        exact Or.inr ⟨f', gt.ctx, k4, hk.cid, getNext_pre_live k1 hpt hnd, by rw [hk.iface]; exact hI, Or.inr e2⟩
  | ret gt v k1 k2 k3 k4 k5 k6 => exact Or.inl (Or.inr ⟨_, _, k5⟩)
  | recalled f' c' k1 k2 k3 k4 k5 k6 k7 =>
    right
    refine ⟨f', c', k1, k2, ?_, k5, ?_⟩
    · rw [k3]; rcases k4 with e | e | e | e <;> rw [e] <;> simp [CtxSt.toRecall]
    · rcases hcase with e | e
      · left; rw [k3]; exact todo_recall e k4
      · exact absurd e k6

/-- Hook `n` is registered in group `g` of slot `p` and object `this`, unpaused. -/
def Active (r : Reg) (p this : Addr) (g : Grp) (n : Nat) : Prop :=
  ∃ h ∈ view r p (g.ptr this) g.side, h.nid = n ∧ h.paused = false

theorem Active.kept {r : Reg} {p this : Addr} {g : Grp} {n : Nat} (h : Active r p this g n) : Kept r p this g.obj := by
  obtain ⟨x, hx, _⟩ := h
  have hne := List.ne_nil_of_mem hx
  refine ⟨⟨_, _, hne⟩, fun ho => ⟨g.side, ?_⟩⟩
  rcases ho with rfl | rfl <;> exact hne

/-- Hook `n` was invoked, or is neither skipped nor out of reach. -/
def Awaits (s : St) (cid : Nat) (g : Grp) (n : Nat) : Prop :=
  n ∈ invoked s.log cid g ∨ (n ∉ skipped s.log cid g ∧ Running s cid g)

theorem invoked_iff {log : List Ev} {cid : Nat} {g : Grp} {n : Nat} : n ∈ invoked log cid g ↔ ∃ fid ifp, Ev.invoke cid fid g n ifp ∈ log := by
  constructor
  · unfold invoked
    rw [List.mem_reverse, List.mem_filterMap]
    rintro ⟨e, h1, h2⟩
    cases e with
    | invoke c f g' m p =>
      simp only at h2
      split at h2
      · next hh => obtain ⟨rfl, rfl⟩ := hh; cases h2; exact ⟨_, _, h1⟩
      · cases h2
    | _ => simp at h2
  · rintro ⟨fid, ifp, h⟩
    exact mem_invoked h

theorem mem_skipped {log : List Ev} {cid : Nat} {g : Grp} {n : Nat} : n ∈ skipped log cid g ↔ Ev.skip cid g n ∈ log := by
  unfold skipped
  rw [List.mem_reverse, List.mem_filterMap]
  constructor
  · rintro ⟨e, h1, h2⟩
    cases e with
    | skip c g' m =>
      simp only at h2
      split at h2
      · next hh => obtain ⟨rfl, rfl⟩ := hh; cases h2; exact h1
      · cases h2
    | _ => simp at h2
  · intro h
    exact ⟨_, h, by simp⟩

theorem Awaits.step {E : Env} {s s' : St} {op : Op} (m : MInv E s) (h : HInv s) (hok : Ok E s op) (ht : Tr E s op s') (m' : MInv E s')
    {cid : Nat} {g : Grp} {n fid0 : Nat} {p this : Addr} (hen : Ev.enter cid fid0 (some p) this ∈ s.log)
    (ha : Active s.reg p this g n) (ha' : Active s'.reg p this g n) (hg : Awaits s cid g n) : Awaits s' cid g n := by
  obtain ⟨X, hX, hXe⟩ := new_events m h ht
  obtain ⟨mem0, hw, h0⟩ := m.reg.inv
  rcases hg with hin | ⟨hns, f, c, hi, rfl, htd, hI⟩
  · left
    rw [invoked_iff] at hin ⊢
    obtain ⟨fid, ifp, hin⟩ := hin
    exact ⟨fid, ifp, by rw [hX]; exact List.mem_append_right _ hin⟩
  have hns' : n ∉ skipped s'.log c.cid g := by
    rw [mem_skipped] at hns ⊢
    rw [hX]
    intro hh
    rcases List.mem_append.1 hh with hh | hh
    · obtain ⟨fid1, p1, this1, k1, hk, k2, k3, k4⟩ := hXe _ hh
      obtain ⟨hk', k5, k6, k7⟩ := ha
      obtain ⟨_, _, _, e⟩ := hw.nid.uniq _ _ _ _ _ _ _ _ k2 k5 (k3.trans k6.symm)
      rw [e, k7] at k4; cases k4
    · exact hns hh
  have hfo := (m.al.all).in2 hi
  obtain ⟨v, hlc⟩ : ∃ v, LiveCtx s.reg s.log c v := by
    rcases hfo.2 with hd | hlc
    · exact absurd hd htd.notDead
    · exact hlc
  have hvp : v.ptr = p ∧ c.this = this := by
    obtain ⟨_, _, hho⟩ := m.in2 h hi
    obtain ⟨fid1, p1, k1, k2⟩ := hho.ent htd.notDead
    obtain ⟨_, e2, e3⟩ := h.log.entU _ _ _ _ _ _ _ hen k1
    exact ⟨(k2 v hlc.mem hlc.vfn).trans (Option.some.inj e2).symm, e3.symm⟩
  obtain ⟨g', q1, q2⟩ := getNext_live hw.s hlc f.fid
  -- the group is left: the hook was invoked
  have hleave : ∀ {gt : Got}, getNext s.reg c = .ok gt → SameInv (logGot c.cid f.fid gt s.log) s'.log c.cid → ¬ Todo gt.ctx.st g →
      Awaits s' c.cid g n := by
    intro gt k1 k5 hnt
    rw [k1] at q1; cases q1
    obtain ⟨hk, k6, k7, k8⟩ := ha
    have hpz : g.ptr c.this ≠ 0 → g.obj := by
      intro hz
      cases g
      · exact Or.inl rfl
      · exact absurd rfl hz
      · exact Or.inr rfl
      · exact absurd rfl hz
    rcases q2.done g htd hnt (fun hz => hI (hpz hz)) hk (by
        rw [← view_mem hw.s hlc.mem, hvp.1, hvp.2]; exact k6) with e | e
    · left; rw [k5.1, ← k7]; exact e
    · exact absurd (by rw [k5.2, ← k7]; exact e) hns'
  cases track m h hok ht m' hi htd.notDead hen hI ha'.kept with
  | keep f' c' k1 k2 k3 k4 k5 k6 => exact Or.inr ⟨hns', f', c', k1, k2, by rw [k3]; exact htd, k4⟩
  | got gt f' k1 k2 k3 k4 k5 k6 =>
    by_cases hnt : Todo gt.ctx.st g
    · rw [k1] at q1; cases q1
      exact Or.inr ⟨hns', f', _, k4, q2.keep.cid, hnt, by rw [q2.keep.iface]; exact hI⟩
    · exact hleave k1 k5 hnt
  | ret gt v k1 k2 k3 k4 k5 k6 =>
    refine hleave k1 k6 ?_
    have hpt : PtOk f.pt c.st := by
      have : ∀ {fs cs}, Al s.reg s.log fs cs → In2 f c fs cs → PtOk f.pt c.st := by
        intro fs cs ha hi
        induction hi with
        | head => cases ha with | cons h1 _ _ => exact h1.pt
        | tail _ _ _ ih => cases ha with | cons _ _ h3 => exact ih h3
      exact this m.al hi
    rw [k4] at hpt
    have := getNext_post k1 hpt
    rw [k3] at this
    simp only [Option.isSome_none, Bool.false_eq_true, if_false] at this
    rw [this]
    exact fun hh => hh
  | recalled f' c' k1 k2 k3 k4 k5 k6 k7 =>
    exact Or.inr ⟨hns', f', c', k1, k2, by rw [k3]; exact todo_recall htd k4, k5⟩

end Verif.SH
