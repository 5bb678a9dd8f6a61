import Verif.SH.LoopRun
/-
Every step keeps the history invariant.
-/
namespace Verif.SH

/-! ### the history as a whole -/

theorem LogOk.mono {log : List Ev} {n n' : Nat} (h : LogOk log n) (hn : n ≤ n') : LogOk log n' :=
  ⟨fun e he m hm => Nat.lt_of_lt_of_le (h.lt e he m hm) hn, h.entU, h.sorted, h.stg, h.noMore⟩

/-- Events other than entering a call, invoking a handler and calling the original function. -/
def Ev.plain : Ev → Bool
  | .enter .. => false
  | .invoke .. => false
  | .origCall .. => false
  | _ => true

theorem invoked_plain {e : Ev} (he : e.plain = true) (log : List Ev) (c : Nat) (g : Grp) :
    invoked (e :: log) c g = invoked log c g := by
  cases e <;> simp [Ev.plain] at he <;> rfl

theorem LogOk.plain {log : List Ev} {n : Nat} (h : LogOk log n) {e : Ev} (he : e.plain = true) (hn : ∀ m ∈ e.nums, m < n) :
    LogOk (e :: log) n := by
  refine ⟨?_, ?_, ?_, ?_, ?_⟩
  · intro e' he'
    rcases List.mem_cons.1 he' with rfl | he'
    · exact hn
    · exact h.lt e' he'
  · intro cid f p a f' p' a' h1 h2
    rcases List.mem_cons.1 h1 with e1 | h1
    · subst e1; cases he
    rcases List.mem_cons.1 h2 with e1 | h2
    · subst e1; cases he
    exact h.entU cid f p a f' p' a' h1 h2
  · intro cid g; rw [invoked_plain he]; exact h.sorted cid g
  · intro cid
    have : stages (e :: log) cid = stages log cid := by
      cases e <;> simp [Ev.plain] at he <;> rfl
    rw [this]; exact h.stg cid
  · refine List.pairwise_cons.2 ⟨?_, h.noMore⟩
    intro e' _ c f g n p c' f' st hh
    subst hh; cases he

theorem LogOk.plains {log X : List Ev} {n : Nat} (h : LogOk log n) (hX : ∀ e ∈ X, e.plain = true ∧ ∀ m ∈ e.nums, m < n) :
    LogOk (X ++ log) n := by
  induction X with
  | nil => exact h
  | cons e X ih =>
    exact (ih fun e he => hX e (List.mem_cons_of_mem _ he)).plain (hX e (List.mem_cons_self ..)).1 (hX e (List.mem_cons_self ..)).2

theorem LogOk.enter {log : List Ev} {n : Nat} (h : LogOk log n) (p : Option Addr) (a : Addr) :
    LogOk (.enter n n p a :: log) (n + 1) := by
  refine ⟨?_, ?_, fun cid g => h.sorted cid g, fun cid => h.stg cid, ?_⟩
  · intro e he m hm
    rcases List.mem_cons.1 he with rfl | he
    · simp [Ev.nums] at hm; omega
    · exact Nat.lt_succ_of_lt (h.lt e he m hm)
  · intro cid f p a f' p' a' h1 h2
    rcases List.mem_cons.1 h1 with e1 | h1
    · rcases List.mem_cons.1 h2 with e2 | h2
      · cases e1; cases e2; exact ⟨rfl, rfl, rfl⟩
      · have := h.lt _ h2 cid (by simp [Ev.nums])
        cases e1; omega
    · rcases List.mem_cons.1 h2 with e2 | h2
      · have := h.lt _ h1 cid (by simp [Ev.nums])
        cases e2; omega
      · exact h.entU cid f p a f' p' a' h1 h2
  · refine List.pairwise_cons.2 ⟨?_, h.noMore⟩
    intro e' _ c f g n p c' f' st hh; cases hh

theorem mem_stages {log : List Ev} {cid k : Nat} : k ∈ stages log cid ↔ (k = 2 ∧ ∃ f a, Ev.origCall cid f a ∈ log) ∨
    ∃ g : Grp, k = g.stage ∧ invoked log cid g ≠ [] := by
  unfold stages
  rw [List.mem_filterMap]
  constructor
  · rintro ⟨e, he, hs⟩
    cases e with
    | invoke c f g n p =>
      unfold stage at hs
      simp only at hs
      split at hs
      · next hc =>
        subst hc
        right
        refine ⟨g, (Option.some.inj hs).symm, ?_⟩
        have : n ∈ invoked log c g := by
          unfold invoked
          rw [List.mem_reverse, List.mem_filterMap]
          exact ⟨_, he, by simp⟩
        exact List.ne_nil_of_mem this
      · cases hs
    | origCall c f a =>
      unfold stage at hs
      simp only at hs
      split at hs
      · next hc => subst hc; left; exact ⟨(Option.some.inj hs).symm, f, a, he⟩
      · cases hs
    | _ => cases hs
  · rintro (⟨rfl, f, a, h⟩ | ⟨g, rfl, h⟩)
    · exact ⟨_, h, by simp [stage]⟩
    · obtain ⟨n, hn⟩ := List.exists_mem_of_ne_nil _ h
      unfold invoked at hn
      rw [List.mem_reverse, List.mem_filterMap] at hn
      obtain ⟨e, he, hs⟩ := hn
      refine ⟨e, he, ?_⟩
      cases e with
      | invoke c f g' n p =>
        simp only at hs
        split at hs
        · next hc => obtain ⟨rfl, rfl⟩ := hc; simp only [stage, if_pos]
        · cases hs
      | _ => cases hs

theorem LogOk.invoke {log : List Ev} {n : Nat} (h : LogOk log n) {cid fid : Nat} {grp : Grp} {nid : Nat} (p : Addr) (h1 : cid < n)
    (h2 : fid < n) (hso : ∀ m ∈ invoked log cid grp, m < nid) (hno : ∀ g', grp.rank < g'.rank → NotYet log cid g')
    (hor : grp.side = false → ∀ f a, Ev.origCall cid f a ∉ log) (hrc : ∀ c f' st, Ev.recall c fid f' st ∉ log) :
    LogOk (.invoke cid fid grp nid p :: log) n := by
  refine ⟨?_, ?_, ?_, ?_, ?_⟩
  · intro e he m hm
    rcases List.mem_cons.1 he with rfl | he
    · simp [Ev.nums] at hm; omega
    · exact h.lt e he m hm
  · intro cid f p a f' p' a' h1 h2
    rcases List.mem_cons.1 h1 with e1 | h1
    · cases e1
    rcases List.mem_cons.1 h2 with e1 | h2
    · cases e1
    exact h.entU cid f p a f' p' a' h1 h2
  · intro c g
    rw [invoked_invoke]
    split
    · next hc =>
      obtain ⟨rfl, rfl⟩ := hc
      rw [List.pairwise_append]
      exact ⟨h.sorted _ _, List.pairwise_singleton .., fun a ha b hb => by rw [List.mem_singleton.1 hb]; exact hso a ha⟩
    · rw [List.append_nil]; exact h.sorted c g
  · intro c
    by_cases hc : cid = c
    · subst hc
      have e : stages (.invoke cid fid grp nid p :: log) cid =
          grp.stage :: stages log cid := by
        unfold stages; simp [stage]
      rw [e, List.pairwise_cons]
      refine ⟨?_, h.stg cid⟩
      intro k hk
      rcases mem_stages.1 hk with ⟨rfl, f, a, hm⟩ | ⟨g, rfl, hm⟩
      · have : grp.side ≠ false := fun hs => hor hs f a hm
        cases grp <;> simp_all [Grp.side, Grp.stage]
      · have : ¬ grp.rank < g.rank := fun hr => hm (hno g hr)
        cases grp <;> cases g <;> simp_all [Grp.rank, Grp.stage]
    · have e : stages (.invoke cid fid grp nid p :: log) c = stages log c := by
        unfold stages; simp [stage, hc]
      rw [e]; exact h.stg c
  · refine List.pairwise_cons.2 ⟨?_, h.noMore⟩
    intro e' he' c f g n p c' f' st hh hh'
    cases hh; subst hh'; exact hrc _ _ _ he'

theorem LogOk.origCall {log : List Ev} {n : Nat} (h : LogOk log n) {cid fid : Nat} (a : Addr) (h1 : cid < n) (h2 : fid < n)
    (hc : Clean log cid) : LogOk (.origCall cid fid a :: log) n := by
  refine ⟨?_, ?_, fun c g => h.sorted c g, ?_, ?_⟩
  · intro e he m hm
    rcases List.mem_cons.1 he with rfl | he
    · simp [Ev.nums] at hm; omega
    · exact h.lt e he m hm
  · intro cid f p a f' p' a' h1 h2
    rcases List.mem_cons.1 h1 with e1 | h1
    · cases e1
    rcases List.mem_cons.1 h2 with e1 | h2
    · cases e1
    exact h.entU cid f p a f' p' a' h1 h2
  · intro c
    by_cases hcc : cid = c
    · subst hcc
      have e : stages (.origCall cid fid a :: log) cid = 2 :: stages log cid := by
        unfold stages; simp [stage]
      rw [e, List.pairwise_cons]
      refine ⟨?_, h.stg cid⟩
      intro k hk
      rcases mem_stages.1 hk with ⟨rfl, f, a, hm⟩ | ⟨g, rfl, hm⟩
      · exact absurd hm (hc.orig f a)
      · cases g
        · simp [Grp.stage]
        · simp [Grp.stage]
        · exact absurd hc.post hm
        · exact absurd hc.postVP hm
    · have e : stages (.origCall cid fid a :: log) c = stages log c := by
        unfold stages; simp [stage, hcc]
      rw [e]; exact h.stg c
  · refine List.pairwise_cons.2 ⟨?_, h.noMore⟩
    intro e' he' c f g n p c' f' st hh; cases hh

/-! ### what `GetNext` adds to the history -/

theorem logGot_ext (cid fid : Nat) (g : Got) (log : List Ev) :
    ∃ S : List Ev, (∀ e ∈ S, ∃ grp n, e = Ev.skip cid grp n) ∧
      logGot cid fid g log = (match g.hook with
        | some (grp, h) => [Ev.invoke cid fid grp h.nid g.ctx.ifacePtr]
        | none => []) ++ (S ++ log) := by
  refine ⟨(g.skipped.map fun x => Ev.skip cid x.1 x.2).reverse, ?_, ?_⟩
  · intro e he
    obtain ⟨x, _, rfl⟩ := List.mem_map.1 (List.mem_reverse.1 he)
    exact ⟨_, _, rfl⟩
  · unfold logGot
    dsimp only
    cases g.hook with
    | none => rfl
    | some x => rfl

/-- The same, without details. -/
theorem logGot_ext' (cid fid : Nat) (g : Got) (log : List Ev) :
    ∃ X : List Ev, logGot cid fid g log = X ++ log ∧
      ∀ e ∈ X, (∃ grp n, e = Ev.skip cid grp n) ∨ ∃ grp h, g.hook = some (grp, h) ∧ e = Ev.invoke cid fid grp h.nid g.ctx.ifacePtr := by
  obtain ⟨S, h1, h2⟩ := logGot_ext cid fid g log
  refine ⟨(match g.hook with
        | some (grp, h) => [Ev.invoke cid fid grp h.nid g.ctx.ifacePtr]
        | none => []) ++ S, by rw [h2, List.append_assoc], ?_⟩
  intro e he
  rcases List.mem_append.1 he with he | he
  · cases hg : g.hook with
    | none => rw [hg] at he; cases he
    | some x =>
      obtain ⟨grp, h⟩ := x
      rw [hg] at he
      exact Or.inr ⟨grp, h, rfl, List.mem_singleton.1 he⟩
  · exact Or.inl (h1 e he)

theorem Todo.low {st : CtxSt} {g : Grp} (h : Todo st g) (hs : g.side = false) : Todo st .preVP := by
  cases st <;> cases g <;> simp_all [Todo, Grp.rank, Grp.side]

/-- History after `GetNext`. -/
theorem LogOk.got {r : Reg} (hs : SInv r) {log : List Ev} {n : Nat} (h : LogOk log n) {f : Frame} {c : Ctx} (hh : HOk r log f c)
    (hc : CtxOk r log c) (hid : f.cid = c.cid) (h1 : c.cid < n) (h2 : f.fid < n) {g : Got} (hg : getNext r c = .ok g) :
    LogOk (logGot f.cid f.fid g log) n := by
  obtain ⟨S, hS, he⟩ := logGot_ext f.cid f.fid g log
  rw [he]
  have hb : LogOk (S ++ log) n := by
    refine h.plains ?_
    intro e he
    obtain ⟨grp, m, rfl⟩ := hS e he
    exact ⟨rfl, by simp [Ev.nums]; omega⟩
  have hin : ∀ cid g, invoked (S ++ log) cid g = invoked log cid g := by
    intro cid g
    refine invoked_free (fid := 0) ?_ g
    intro e he
    obtain ⟨grp, m, rfl⟩ := hS e he
    trivial
  cases hgh : g.hook with
  | none => exact hb
  | some x =>
    obtain ⟨grp, hk⟩ := x
    rcases hc with hd | ⟨v, hc⟩
    · rw [getNext_dead hd] at hg; cases hg; cases hgh
    obtain ⟨g', q1, q2⟩ := getNext_live hs hc f.fid
    rw [hg] at q1; cases q1
    obtain ⟨_, _, _, _, ht, k1, k2⟩ := q2.inv grp hk hgh
    have hnd : c.st ≠ .dead := by intro hd; rw [hd] at ht; exact ht
    refine hb.invoke _ (by rw [hid]; exact h1) h2 (by rw [hid, hin]; exact k1) ?_ ?_ ?_
    · intro g' hr; unfold NotYet; rw [hid, hin]; exact k2 g' hr
    · intro hsd f' a hm
      rw [hid] at hm
      rcases List.mem_append.1 hm with hm | hm
      · obtain ⟨_, _, e⟩ := hS _ hm; cases e
      · exact hh.orig hnd (ht.low hsd) f' a hm
    · intro c' f' st hm
      rcases List.mem_append.1 hm with hm | hm
      · obtain ⟨_, _, e⟩ := hS _ hm; cases e
      · exact hnd (hh.rcl _ _ _ hm)

/-! ### activations further out -/

theorem All2.zip {P Q : Frame → Ctx → Prop} {fs : List Frame} {cs : List Ctx} (h : All2 P fs cs) (h' : All2 Q fs cs)
    {R : Frame → Ctx → Prop} {G : Frame → Frame} (hpq : ∀ f ∈ fs, ∀ c ∈ cs, P f c → Q f c → R (G f) c) : All2 R (fs.map G) cs := by
  have := (h.and h').map (G := G) (F := id) (Q := R) fun f hf c hc hh => hpq f hf c hc hh.1 hh.2
  rwa [List.map_id] at this

/-- Pairs below the innermost one. -/
theorem HInv.below {E : Env} {s : St} (m : MInv E s) (h : HInv s) {f : Frame} {fs : List Fr} {c : Ctx} {cs : List Ctx}
    (hf : s.frames = .hook f :: fs) (hst : s.stack = c :: cs) {X : List Ev}
    (hX : ∀ e ∈ X, ∀ cid fid, cid ≠ c.cid → fid ≠ f.fid → e.free cid fid) {G : Frame → Frame} (hG : ∀ f, SameF f (G f)) :
    All2 (HOk s.reg (X ++ s.log)) ((hookFrames fs).map G) cs := by
  obtain ⟨c0, cs0, hst0, hfo, hd, hal⟩ := m.top hf
  rw [hst] at hst0; cases hst0
  have hall := h.all; have hch := h.chain; have hcu := m.cuniq; have hfid := m.fid
  rw [hf] at hall hch hfid; rw [hst] at hall hcu
  have hch' := (List.pairwise_cons.1 hch).1
  have hcu' := (List.pairwise_cons.1 hcu).1
  have hfid' := (List.pairwise_cons.1 hfid).1
  refine hall.top.2.zip hal.all ?_
  intro a ha d hd hh ⟨hcid, _⟩
  by_cases hc : c.cid = d.cid
  · refine HOk.waiting _ _ (hcu' d hd hc) ?_
    rw [(hG a).pt]
    exact (hch' a ha (by rw [hfo.cid, hc, hcid])).1
  · refine (hh.free fun e he => hX e he _ _ (Ne.symm hc) ?_).frame (hG a).fid (hG a).pt (hG a).status
    have := hfid' a ha
    omega

/-- Like `below`, without changes to the activations. -/
theorem HInv.below' {E : Env} {s : St} (m : MInv E s) (h : HInv s) {f : Frame} {fs : List Fr} {c : Ctx} {cs : List Ctx}
    (hf : s.frames = .hook f :: fs) (hst : s.stack = c :: cs) {X : List Ev}
    (hX : ∀ e ∈ X, ∀ cid fid, cid ≠ c.cid → fid ≠ f.fid → e.free cid fid) :
    All2 (HOk s.reg (X ++ s.log)) (hookFrames fs) cs := by
  have := h.below m hf hst hX (G := id) SameF.refl
  rwa [List.map_id] at this

theorem Recalled.mono {X log : List Ev} {cid : Nat} (h : Recalled log cid) : Recalled (X ++ log) cid := by
  obtain ⟨a, b, c, h⟩ := h; exact ⟨a, b, c, List.mem_append_right _ h⟩

theorem chain_map {fs : List Frame} {log log' : List Ev} {G : Frame → Frame} (h : fs.Pairwise (fun a b => a.cid = b.cid → RecWait b.pt ∧ Recalled log a.cid))
    (hl : ∀ cid, Recalled log cid → Recalled log' cid)
    (h1 : ∀ f, (G f).cid = f.cid) (h2 : ∀ f, (G f).pt = f.pt) :
    (fs.map G).Pairwise (fun a b => a.cid = b.cid → RecWait b.pt ∧ Recalled log' a.cid) := by
  rw [List.pairwise_map]
  refine h.imp ?_
  intro a b hab hc
  rw [h1, h1] at hc
  rw [h2, h1]
  exact ⟨(hab hc).1, hl _ (hab hc).2⟩

/-- Changing only the innermost activation and context. -/
theorem HInv.retop {E : Env} {s : St} (m : MInv E s) (h : HInv s) {f f' : Frame} {fs : List Fr} {c c' : Ctx} {cs : List Ctx}
    (hf : s.frames = .hook f :: fs) (hst : s.stack = c :: cs) {X log' : List Ev} (hlog : log' = X ++ s.log)
    (hX : ∀ e ∈ X, ∀ cid fid, cid ≠ c.cid → fid ≠ f.fid → e.free cid fid) {G : Frame → Frame} (hG : ∀ f, SameF f (G f))
    (e2 : f'.cid = f.cid) (hh : HOk s.reg log' f' c') (hle : f'.status ≤ 3 ∧ f'.cur ≤ 3) (hlo : LogOk log' s.next) :
    HInv { s with stack := c' :: cs, log := log', frames := (Fr.hook f' :: fs).map (frMap G) } := by
  have hb := h.below m hf hst hX hG
  have hch := h.chain; have hle' := h.le
  rw [hf] at hch hle'
  subst hlog
  refine ⟨?_, ?_, ?_, hlo⟩
  · show All2 _ (hookFrames ((Fr.hook f' :: fs).map (frMap G))) _
    rw [hookFrames_map]
    exact .cons (hh.frame (hG f').fid (hG f').pt (hG f').status) hb
  · show (hookFrames ((Fr.hook f' :: fs).map (frMap G))).Pairwise _
    rw [hookFrames_map]
    have hch2 : (hookFrames (Fr.hook f' :: fs)).Pairwise (fun a b => a.cid = b.cid → RecWait b.pt ∧ Recalled s.log a.cid) := by
      have := List.pairwise_cons.1 hch
      refine List.pairwise_cons.2 ⟨?_, this.2⟩
      intro b hb; rw [e2]; exact this.1 b hb
    exact chain_map hch2 (fun _ h => h.mono) (fun f => (hG f).cid) (fun f => (hG f).pt)
  · intro x hx
    replace hx : x ∈ hookFrames ((Fr.hook f' :: fs).map (frMap G)) := hx
    rw [hookFrames_map] at hx
    obtain ⟨y, hy, rfl⟩ := List.mem_map.1 hx
    rw [(hG y).status, (hG y).cur]
    rcases List.mem_cons.1 hy with rfl | hy
    · exact hle
    · exact hle' y (List.mem_cons_of_mem _ hy)

theorem HInv.retop' {E : Env} {s : St} (m : MInv E s) (h : HInv s) {f f' : Frame} {fs : List Fr} {c c' : Ctx} {cs : List Ctx}
    (hf : s.frames = .hook f :: fs) (hst : s.stack = c :: cs) {X log' : List Ev} (hlog : log' = X ++ s.log)
    (hX : ∀ e ∈ X, ∀ cid fid, cid ≠ c.cid → fid ≠ f.fid → e.free cid fid)
    (e2 : f'.cid = f.cid) (hh : HOk s.reg log' f' c') (hle : f'.status ≤ 3 ∧ f'.cur ≤ 3) (hlo : LogOk log' s.next) :
    HInv { s with stack := c' :: cs, log := log', frames := Fr.hook f' :: fs } := by
  have := h.retop m hf hst hlog hX (G := id) SameF.refl e2 hh hle hlo
  rwa [frMap_id] at this

/-! ### steps -/

theorem Todo.notDead {st : CtxSt} {g : Grp} (h : Todo st g) : st ≠ .dead := by rintro rfl; exact h

/-- `GetNext` on any context: nothing new appears, dead stays dead. -/
theorem getNext_mono {r : Reg} (hs : SInv r) {log : List Ev} {c : Ctx} (hc : CtxOk r log c) {g : Got} (hg : getNext r c = .ok g) :
    (g.ctx.st ≠ .dead → c.st ≠ .dead) ∧ ∀ grp, Todo g.ctx.st grp → Todo c.st grp := by
  rcases hc with hd | ⟨v, hc⟩
  · rw [getNext_dead hd] at hg; cases hg
    exact ⟨id, fun _ h => h⟩
  · obtain ⟨g', q1, q2⟩ := getNext_live hs hc 0
    rw [hg] at q1; cases q1
    refine ⟨?_, q2.mono⟩
    intro _ hd
    have := hc.it
    unfold ItOk at this; rw [hd] at this; exact this

theorem HOk.got {r : Reg} (hs : SInv r) {log log' : List Ev} {f f' : Frame} {c : Ctx} (h : HOk r log f c) (hc : CtxOk r log c)
    {g : Got} (hg : getNext r c = .ok g) {X : List Ev} (hl : log' = X ++ log)
    (hX : ∀ e ∈ X, (∀ a b, e ≠ Ev.ret c.cid a b) ∧ (∀ a b d, e ≠ Ev.recall a f.fid b d))
    (hXo : g.ctx.st ≠ .dead → Todo g.ctx.st .preVP → ∀ e ∈ X, ∀ a b, e ≠ Ev.origCall c.cid a b)
    (e1 : f'.fid = f.fid)
    (once : (f'.pt = .preLoop ∨ ∃ n, f'.pt = .inPre n) → f'.status = supercede ∨ c.callOrig = false ∨ Clean log' c.cid)
    (pre : ∀ n, f'.pt = .inPre n → ∃ grp : Grp, grp.side = false ∧ n ∈ invoked log' c.cid grp ∧ (g.ctx.st = grp.st ∨ g.ctx.st = .dead))
    (post : ∀ n, f'.pt = .inPost n → ∃ grp : Grp, grp.side = true ∧ n ∈ invoked log' c.cid grp ∧ (g.ctx.st = grp.st ∨ g.ctx.st = .dead))
    (ino : f'.pt = .inOrig → ∃ fid a, Ev.origCall c.cid fid a ∈ log') : HOk r log' f' g.ctx := by
  obtain ⟨hm1, hm2⟩ := getNext_mono hs hc hg
  obtain ⟨hk, _, _⟩ := getNext_any' hs hc f.fid hg
  refine ⟨?_, ?_, ?_, ?_, ?_, ?_, ?_, ?_⟩
  · intro hd
    obtain ⟨fid, p, k1, k2⟩ := h.ent (hm1 hd)
    rw [hk.cid, hk.this, hk.vfn, hl]
    exact ⟨fid, p, List.mem_append_right _ k1, k2⟩
  · intro hd fid v hm
    rw [hk.cid, hl] at hm
    rcases List.mem_append.1 hm with hm | hm
    · exact (hX _ hm).1 _ _ rfl
    · exact h.ret (hm1 hd) _ _ hm
  · intro hd ht fid v hm
    rw [hk.cid, hl] at hm
    rcases List.mem_append.1 hm with hm | hm
    · exact hXo hd ht _ hm _ _ rfl
    · exact h.orig (hm1 hd) (hm2 _ ht) _ _ hm
  · rw [hk.callOrig, hk.cid]; exact once
  · rw [hk.cid]; exact pre
  · rw [hk.cid]; exact post
  · rw [hk.cid]; exact ino
  · intro cid fid st hm
    rw [e1, hl] at hm
    rcases List.mem_append.1 hm with hm | hm
    · exact absurd rfl ((hX _ hm).2 _ _ _)
    · have := h.rcl _ _ _ hm
      rw [getNext_dead this] at hg; cases hg; exact this

theorem Clean.of_ext {log X : List Ev} {cid : Nat} (h : Clean log cid)
    (hX : ∀ e ∈ X, (∃ grp n, e = Ev.skip cid grp n) ∨ ∃ fid grp n p, e = Ev.invoke cid fid grp n p ∧ grp.side = false) : Clean (X ++ log) cid := by
  have hi : ∀ g : Grp, g.side = true → invoked (X ++ log) cid g = invoked log cid g := by
    intro g hg
    induction X with
    | nil => rfl
    | cons e X ih =>
      rw [List.cons_append, ← ih fun e he => hX e (List.mem_cons_of_mem _ he)]
      rcases hX e (List.mem_cons_self ..) with ⟨_, _, rfl⟩ | ⟨fid, grp, n, p, rfl, hs⟩
      · rfl
      · rw [invoked_invoke, if_neg (by rintro ⟨_, rfl⟩; rw [hg] at hs; cases hs)]; simp
  refine ⟨?_, ?_, by rw [hi _ rfl]; exact h.post, by rw [hi _ rfl]; exact h.postVP⟩
  · intro fid a hm
    rcases List.mem_append.1 hm with hm | hm
    · rcases hX _ hm with ⟨_, _, e⟩ | ⟨_, _, _, _, e, _⟩ <;> cases e
    · exact h.orig _ _ hm
  · intro fid a hm
    rcases List.mem_append.1 hm with hm | hm
    · rcases hX _ hm with ⟨_, _, e⟩ | ⟨_, _, _, _, e, _⟩ <;> cases e
    · exact h.ret _ _ hm

theorem mem_invoked {log : List Ev} {cid fid : Nat} {g : Grp} {n : Nat} {p : Addr} (h : Ev.invoke cid fid g n p ∈ log) : n ∈ invoked log cid g := by
  unfold invoked
  rw [List.mem_reverse, List.mem_filterMap]
  exact ⟨_, h, by simp⟩

theorem resolve_ext (force : Bool) (s : St) : ∃ Y, (resolve force s).log = Y ++ s.log ∧
    ∀ e ∈ Y, e.plain = true ∧ e.nums = [] ∧ ∀ a b, e.free a b := by
  refine ⟨_, rfl, ?_⟩
  intro e he
  obtain ⟨p, _, rfl⟩ := List.mem_map.1 (List.mem_reverse.1 he)
  exact ⟨rfl, rfl, fun _ _ => trivial⟩

theorem popCtx_log (s : St) (cs : List Ctx) : ∃ Y, (popCtx s cs).log = Y ++ s.log ∧
    ∀ e ∈ Y, e.plain = true ∧ e.nums = [] ∧ ∀ a b, e.free a b := by
  unfold popCtx
  have hq : ∃ Y, (match s.tasks.headD none with
    | some v => Ev.freed v :: s.log
    | none => s.log) = Y ++ s.log ∧ ∀ e ∈ Y, e.plain = true ∧ e.nums = [] ∧ ∀ a b, e.free a b := by
    split
    · next v _ => exact ⟨[.freed v], rfl, by intro e he; rw [List.mem_singleton.1 he]; exact ⟨rfl, rfl, fun _ _ => trivial⟩⟩
    · exact ⟨[], rfl, by simp⟩
  obtain ⟨Y, h1, h2⟩ := hq
  dsimp only
  split
  · obtain ⟨Z, h3, h4⟩ := resolve_ext false { s with
      stack := cs
      tasks := s.tasks.tail
      spare := s.tasks.headD none :: s.spare
      log := match s.tasks.headD none with
        | some v => Ev.freed v :: s.log
        | none => s.log }
    refine ⟨Z ++ Y, ?_, ?_⟩
    · refine h3.trans ?_
      rw [List.append_assoc, ← h1]
    · intro e he
      rcases List.mem_append.1 he with he | he
      · exact h4 e he
      · exact h2 e he
  · exact ⟨Y, h1, h2⟩

theorem HInv.top {E : Env} {s : St} (m : MInv E s) (h : HInv s) {f : Frame} {fs : List Fr} (hf : s.frames = .hook f :: fs)
    {c : Ctx} {cs : List Ctx} (hst : s.stack = c :: cs) :
    FOk s.reg s.log f c (hookFrames fs) ∧ HOk s.reg s.log f c ∧ f.status ≤ 3 ∧ f.cur ≤ 3 ∧ c.cid < s.next ∧ f.fid < s.next := by
  obtain ⟨c0, cs0, hst0, hfo, hd, hal⟩ := m.top hf
  rw [hst] at hst0; cases hst0
  have hall := h.all
  rw [hf, hst] at hall
  refine ⟨hfo, hall.top.1, (h.le f (by rw [hf]; exact List.mem_cons_self ..)).1, (h.le f (by rw [hf]; exact List.mem_cons_self ..)).2,
    m.clt c (by rw [hst]; exact List.mem_cons_self ..), m.flt f (by rw [hf]; exact List.mem_cons_self ..)⟩

theorem HInv.step {E : Env} {s s' : St} {op : Op} (m : MInv E s) (h : HInv s) (hok : Ok E s op) (ht : Tr E s op s') : HInv s' := by
  obtain ⟨mem0, hw, h0⟩ := m.reg.inv
  cases ht with
  | reg op r x ns hr =>
    obtain ⟨hkeep, _⟩ := regN_keep m.reg hok.2 hr
    obtain ⟨ts, log', hfe, hts, he⟩ := applyNotes_spec ns { s with reg := r }
    rw [he]
    have hq : ∃ X, (afterReg { s with reg := r, stack := s.stack.map (noteAll ns), tasks := ts, log := log' } op).log = X ++ s.log ∧
        ∀ e ∈ X, e.plain = true ∧ e.nums = [] ∧ ∀ a b, e.free a b := by
      obtain ⟨X, rfl, hX⟩ := hfe
      have hX' : ∀ e ∈ X, e.plain = true ∧ e.nums = [] ∧ ∀ a b, e.free a b := by
        intro e he; obtain ⟨v, rfl⟩ := hX e he; exact ⟨rfl, rfl, fun _ _ => trivial⟩
      unfold afterReg
      split
      · next p =>
        split
        · refine ⟨.ready p :: .request p :: X, rfl, ?_⟩
          intro e he
          rcases List.mem_cons.1 he with rfl | he
          · exact ⟨rfl, rfl, fun _ _ => trivial⟩
          rcases List.mem_cons.1 he with rfl | he
          · exact ⟨rfl, rfl, fun _ _ => trivial⟩
          exact hX' e he
        · refine ⟨.request p :: X, rfl, ?_⟩
          intro e he
          rcases List.mem_cons.1 he with rfl | he
          · exact ⟨rfl, rfl, fun _ _ => trivial⟩
          exact hX' e he
      · exact ⟨X, rfl, hX'⟩
    have hsame : (afterReg { s with reg := r, stack := s.stack.map (noteAll ns), tasks := ts, log := log' } op).reg = r ∧
        (afterReg { s with reg := r, stack := s.stack.map (noteAll ns), tasks := ts, log := log' } op).stack = s.stack.map (noteAll ns) ∧
        (afterReg { s with reg := r, stack := s.stack.map (noteAll ns), tasks := ts, log := log' } op).frames = s.frames ∧
        (afterReg { s with reg := r, stack := s.stack.map (noteAll ns), tasks := ts, log := log' } op).next = s.next := by
      unfold afterReg
      split
      · split <;> exact ⟨rfl, rfl, rfl, rfl⟩
      · exact ⟨rfl, rfl, rfl, rfl⟩
    show HInv (afterReg { s with reg := r, stack := s.stack.map (noteAll ns), tasks := ts, log := log' } op)
    generalize afterReg { s with reg := r, stack := s.stack.map (noteAll ns), tasks := ts, log := log' } op = s' at hq hsame
    obtain ⟨e1, e2, e4, e5⟩ := hsame
    obtain ⟨X, hX, hX'⟩ := hq
    refine ⟨?_, ?_, by rw [e4]; exact h.le, ?_⟩
    · rw [e1, e2, e4, hX]
      have := (h.all.and m.al.all).map (G := id) (F := noteAll ns) (Q := HOk r (X ++ s.log)) ?_
      · rwa [List.map_id] at this
      intro f hf c hc ⟨h1, h2⟩
      refine (h1.free fun e he => (hX' e he).2.2 _ _).note (noteAll_frame ns c) ?_
      intro hnd
      rcases h2.2 with hd | ⟨v, hv⟩
      · exact absurd hd hnd
      · exact ⟨v, hv.mem, hv.vfn, fun v' hv' e => hkeep v hv.mem v' hv' e.symm⟩
    · rw [e4, hX]
      exact h.chain.imp fun hab hc => ⟨(hab hc).1, (hab hc).2.mono⟩
    · rw [hX, e5]
      exact h.log.plains fun e he => ⟨(hX' e he).1, by rw [(hX' e he).2.1]; simp⟩
  | poke a val =>
    refine ⟨?_, h.chain, h.le, h.log⟩
    exact h.all.imp fun f _ c _ h1 => ⟨h1.ent, h1.ret, h1.orig, h1.once, h1.pre, h1.post, h1.ino, h1.rcl⟩
  | plain p this hp => exact h
  | call v this hv hwr =>
    have hX : ∀ e ∈ [Ev.enter s.next s.next (some v.ptr) this], ∀ a b, e.free a b := by
      intro e he a b; rw [List.mem_singleton.1 he]; trivial
    have hcl : Clean (.enter s.next s.next (some v.ptr) this :: s.log) s.next := by
      refine ⟨?_, ?_, (m.llt s.next (Nat.le_refl _) .post).1, (m.llt s.next (Nat.le_refl _) .postVP).1⟩
      · intro fid a hm
        rcases List.mem_cons.1 hm with e | hm
        · cases e
        · exact Nat.lt_irrefl _ (h.log.lt _ hm s.next (by simp [Ev.nums]))
      · intro fid a hm
        rcases List.mem_cons.1 hm with e | hm
        · cases e
        · exact Nat.lt_irrefl _ (h.log.lt _ hm s.next (by simp [Ev.nums]))
    refine ⟨?_, ?_, ?_, h.log.enter _ _⟩
    · refine .cons ?_ (h.all.imp fun f _ c _ h1 => h1.free (X := [Ev.enter s.next s.next (some v.ptr) this]) fun e he => hX e he _ _)
      refine ⟨?_, fun _ fid v => hcl.ret fid v, fun _ _ fid a => hcl.orig fid a, fun _ => Or.inr (Or.inr hcl), (by intro n hh; cases hh),
        (by intro n hh; cases hh), (by intro hh; cases hh), ?_⟩
      · intro _
        refine ⟨s.next, v.ptr, List.mem_cons_self .., ?_⟩
        intro w hw1 hw2
        rw [nodup_key_inj hw.s.void hw1 hv (Option.some.inj hw2).symm]
      · intro cid fid st hm
        rcases List.mem_cons.1 hm with e | hm
        · cases e
        · exact absurd (h.log.lt _ hm s.next (by simp [Ev.nums, freshFrame])) (Nat.lt_irrefl _)
    · refine List.pairwise_cons.2 ⟨?_, h.chain.imp fun hab hc => ⟨(hab hc).1, (hab hc).2.mono (X := [_])⟩⟩
      intro b hb hc
      obtain ⟨d, hd, e, _⟩ := m.al.all.mem' hb
      have : d.cid < s.next := m.clt d hd
      have hc : s.next = b.cid := hc
      omega
    · intro x hx
      rcases List.mem_cons.1 hx with rfl | hx
      · simp [freshFrame, ignored]
      · exact h.le x hx
  | shCall v this hv hwr =>
    have hX : ∀ e ∈ [Ev.shEnter s.next (s.next + 1) (some v.ptr) this], ∀ a b, e.free a b := by
      intro e he a b; rw [List.mem_singleton.1 he]; trivial
    have hcl : Clean (.shEnter s.next (s.next + 1) (some v.ptr) this :: s.log) s.next := by
      refine ⟨?_, ?_, (m.llt s.next (Nat.le_refl _) .post).1, (m.llt s.next (Nat.le_refl _) .postVP).1⟩
      · intro fid a hm
        rcases List.mem_cons.1 hm with e | hm
        · cases e
        · exact Nat.lt_irrefl _ (h.log.lt _ hm s.next (by simp [Ev.nums]))
      · intro fid a hm
        rcases List.mem_cons.1 hm with e | hm
        · cases e
        · exact Nat.lt_irrefl _ (h.log.lt _ hm s.next (by simp [Ev.nums]))
    refine ⟨?_, ?_, ?_, (h.log.mono (Nat.le_add_right _ 2)).plain rfl (by simp [Ev.nums])⟩
    · refine .cons ?_ (h.all.imp fun f _ c _ h1 => h1.free (X := [Ev.shEnter s.next (s.next + 1) (some v.ptr) this]) fun e he => hX e he _ _)
      exact ⟨fun hh => absurd rfl hh, fun hh => absurd rfl hh, fun hh => absurd rfl hh, fun _ => Or.inr (Or.inr hcl), (by intro n hh; cases hh),
        (by intro n hh; cases hh), (by intro hh; cases hh), fun _ _ _ _ => rfl⟩
    · refine List.pairwise_cons.2 ⟨?_, h.chain.imp fun hab hc => ⟨(hab hc).1, (hab hc).2.mono (X := [_])⟩⟩
      intro b hb hc
      obtain ⟨d, hd, e, _⟩ := m.al.all.mem' hb
      have : d.cid < s.next := m.clt d hd
      have hc : s.next = b.cid := hc
      omega
    · intro x hx
      rcases List.mem_cons.1 hx with rfl | hx
      · simp [freshFrame, ignored]
      · exact h.le x hx
  | shEnd fs hf =>
    have h1 := h.all; have h2 := h.chain; have h3 := h.le
    rw [hf] at h1 h2 h3
    exact ⟨h1, h2, h3, h.log⟩
  | setRes res f fs hf =>
    obtain ⟨c, cs, hst, _⟩ := m.top hf
    obtain ⟨hfo, hho, hl1, hl2, _⟩ := h.top m hf hst
    have := h.retop' m hf hst (X := []) (log' := s.log) (f' := { f with cur := res }) (c' := c) rfl (by simp) rfl
      (hho.frame rfl rfl rfl) ⟨hl1, hok.2⟩ h.log
    rw [← hst] at this; exact this
  | recall res val v f fs c cs hf hst hv hcv =>
    obtain ⟨hfo, hho, hl1, hl2, hl3, hl4⟩ := h.top m hf hst
    obtain ⟨hin, hres, _, c1, cs1, hst1, hne, _⟩ := hok
    rw [hst] at hst1; cases hst1
    obtain ⟨f0, fs0, post, hf0, hat⟩ := hin.elim
    rw [hf] at hf0; cases hf0
    rcases hfo.ctxOk with hd | ⟨w, hlc⟩
    · exact absurd hd hne
    have hstc : c.st = .pre ∨ c.st = .preVP ∨ c.st = .post ∨ c.st = .postVP := by
      obtain ⟨n, hn⟩ := hat
      have := hfo.pt
      rw [hn] at this
      cases post
      · rcases this with e | e | e
        · exact Or.inl e
        · exact Or.inr (Or.inl e)
        · exact absurd e hne
      · rcases this with e | e | e
        · exact Or.inr (Or.inr (Or.inl e))
        · exact Or.inr (Or.inr (Or.inr e))
        · exact absurd e hne
    let f1 : Frame := { f with cur := res, status := max f.status res, pt := recPt f.pt }
    have hrw : RecWait f1.pt := by
      obtain ⟨n, hn⟩ := hat
      refine ⟨n, ?_⟩
      cases post
      · left; show recPt f.pt = _; rw [hn]; rfl
      · right; show recPt f.pt = _; rw [hn]; rfl
    have hsl : ∃ G : Frame → Frame, (∀ f, SameF f (G f)) ∧
        (if res ≥ override then setSlot (.hook f1 :: fs) val c.over else .hook f1 :: fs) = (Fr.hook f1 :: fs).map (frMap G) := by
      split
      · exact ⟨slotMap val c.over, slotMap_same _ _, setSlot_eq _ _ _⟩
      · exact ⟨id, SameF.refl, (frMap_id _).symm⟩
    obtain ⟨G, hG, heq⟩ := hsl
    show HInv { s with
      stack := recCtx s.next c v c.this (max f.status res) :: { c with st := .dead } :: cs
      tasks := none :: s.tasks, spare := s.spare.tail
      frames := .hook (freshFrame s.next c.cid (cs.length + 1) (max f.status res) v) ::
        (if res ≥ override then setSlot (.hook f1 :: fs) val c.over else .hook f1 :: fs)
      log := .recall c.cid f.fid s.next (max f.status res) :: s.log, next := s.next + 1 }
    rw [heq]
    have hX : ∀ e ∈ [Ev.recall c.cid f.fid s.next (max f.status res)], ∀ cid fid, cid ≠ c.cid → fid ≠ f.fid → e.free cid fid := by
      intro e he cid fid _ h2; rw [List.mem_singleton.1 he]; exact Ne.symm h2
    have hb := h.below m hf hst hX hG
    have hch := h.chain; have hle' := h.le
    rw [hf] at hch hle'
    have hfk : ∀ f ∈ hookFrames ((Fr.hook f1 :: fs).map (frMap G)), ∃ g ∈ f1 :: hookFrames fs, f = G g := by
      intro x hx
      rw [hookFrames_map] at hx
      obtain ⟨y, hy, rfl⟩ := List.mem_map.1 hx
      exact ⟨y, hy, rfl⟩
    refine ⟨?_, ?_, ?_, (h.log.mono (Nat.le_succ _)).plain rfl ?_⟩
    · show All2 _ (_ :: hookFrames ((Fr.hook f1 :: fs).map (frMap G))) _
      rw [hookFrames_map]
      refine .cons ?_ (.cons (HOk.waiting _ _ rfl (by rw [(hG f1).pt]; exact hrw)) hb)
      have hno : ∀ fid a, Ev.ret c.cid fid a ∉ Ev.recall c.cid f.fid s.next (max f.status res) :: s.log := by
        intro fid a hm
        rcases List.mem_cons.1 hm with e | hm
        · cases e
        · exact hho.ret hne _ _ hm
      have hor : Todo c.st .preVP → ∀ fid a, Ev.origCall c.cid fid a ∉ Ev.recall c.cid f.fid s.next (max f.status res) :: s.log := by
        intro ht fid a hm
        rcases List.mem_cons.1 hm with e | hm
        · cases e
        · exact hho.orig hne ht _ _ hm
      refine ⟨?_, fun _ => hno, ?_, ?_, (by intro n hh; cases hh),
        (by intro n hh; cases hh), (by intro hh; cases hh), ?_⟩
      · intro _
        obtain ⟨fid, p, k1, k2⟩ := hho.ent hne
        exact ⟨fid, p, List.mem_cons_of_mem _ k1, fun w' hw' e => k2 w' hw' (hcv.trans e)⟩
      · intro _ ht
        refine hor ?_
        have ht : Todo c.st.toRecall .preVP := ht
        rcases hstc with e | e | e | e <;> rw [e] at ht ⊢ <;> exact ht
      · intro _
        right
        have hit := hlc.it
        unfold ItOk at hit
        rcases hstc with e | e | e | e
        · right
          rw [e] at hit
          exact ⟨hor (by rw [e]; trivial), hno, hit.2.2.1, hit.2.2.2⟩
        · right
          rw [e] at hit
          exact ⟨hor (by rw [e]; simp [Todo, Grp.rank]), hno, hit.2.1, hit.2.2⟩
        · left; simp [recCtx, e, CtxSt.toRecall, CtxSt.isPostRecall]
        · left; simp [recCtx, e, CtxSt.toRecall, CtxSt.isPostRecall]
      · intro cid fid st hm
        rcases List.mem_cons.1 hm with e | hm
        · have e : Ev.recall cid s.next fid st = Ev.recall c.cid f.fid s.next (max f.status res) := e
          injection e with _ e2
          omega
        · exact absurd (h.log.lt _ hm s.next (by simp [Ev.nums, freshFrame])) (Nat.lt_irrefl _)
    · refine List.pairwise_cons.2 ⟨?_, ?_⟩
      · intro b hb hc
        have hrec : Recalled (Ev.recall c.cid f.fid s.next (max f.status res) :: s.log) c.cid :=
          ⟨_, _, _, List.mem_cons_self ..⟩
        refine ⟨?_, hrec⟩
        obtain ⟨y, hy, rfl⟩ := hfk b hb
        rw [(hG y).pt]
        rcases List.mem_cons.1 hy with rfl | hy
        · exact hrw
        · refine ((List.pairwise_cons.1 hch).1 y hy ?_).1
          have hc : c.cid = (G y).cid := hc
          rw [(hG y).cid] at hc
          rw [hfo.cid, hc]
      · show (hookFrames ((Fr.hook f1 :: fs).map (frMap G))).Pairwise _
        rw [hookFrames_map]
        have hch2 : (hookFrames (Fr.hook f1 :: fs)).Pairwise (fun a b => a.cid = b.cid → RecWait b.pt ∧ Recalled s.log a.cid) :=
          List.pairwise_cons.2 (List.pairwise_cons.1 hch)
        exact chain_map hch2 (fun _ h => h.mono (X := [_])) (fun f => (hG f).cid) (fun f => (hG f).pt)
    · have hmx : max f.status res ≤ 3 := Nat.max_le.2 ⟨hl1, hres⟩
      intro x hx
      rcases List.mem_cons.1 hx with rfl | hx
      · exact ⟨hmx, by simp [freshFrame, ignored]⟩
      · obtain ⟨y, hy, rfl⟩ := hfk x hx
        rw [(hG y).status, (hG y).cur]
        rcases List.mem_cons.1 hy with rfl | hy
        · exact ⟨hmx, hres⟩
        · exact hle' y (List.mem_cons_of_mem _ hy)
    · intro n hn
      simp [Ev.nums] at hn
      show n < s.next + 1
      omega
  | recallRet f fs c cs post v hf hst hat =>
    obtain ⟨hfo, hho, hl1, hl2, hl3, hl4⟩ := h.top m hf hst
    have hdead : c.st = .dead := by
      obtain ⟨n, hn⟩ := hat
      have := hfo.pt
      rw [hn] at this
      cases post <;> exact this
    rw [setSlot_eq]
    have hs3 : max f.status supercede = supercede := Nat.max_eq_right hl1
    have := h.retop m hf hst (X := [.result f.fid post supercede v]) (log' := .result f.fid post supercede v :: s.log)
      (f' := { f with cur := supercede, prev := supercede, status := max f.status supercede, pt := loopPt post })
      (c' := c) rfl (by intro e he _ _ _ _; rw [List.mem_singleton.1 he]; trivial) (slotMap_same v c.over) rfl
      ⟨fun hh => absurd hdead hh, fun hh => absurd hdead hh, fun hh => absurd hdead hh, fun _ => Or.inl hs3,
        (by intro n hh; cases post <;> cases hh), (by intro n hh; cases post <;> cases hh), (by intro hh; cases post <;> cases hh),
        fun _ _ _ _ => hdead⟩ ⟨Nat.le_of_eq hs3, Nat.le_refl 3⟩ (h.log.plain rfl (by simp [Ev.nums]; exact hl4))
    rw [← hst] at this; exact this
  | tickHook f fs c cs g grp hh post hf hst hpt hg hgh =>
    obtain ⟨hfo, hho, hl1, hl2, hl3, hl4⟩ := h.top m hf hst
    have hlo := h.log.got hw.s hho hfo.ctxOk hfo.cid hl3 hl4 hg
    obtain ⟨X, hX, hX'⟩ := logGot_ext' f.cid f.fid g s.log
    have hinv : Ev.invoke c.cid f.fid grp hh.nid g.ctx.ifacePtr ∈ logGot f.cid f.fid g s.log := by
      obtain ⟨S, _, e⟩ := logGot_ext f.cid f.fid g s.log
      rw [e, hgh, hfo.cid]; exact List.mem_cons_self ..
    rcases hfo.ctxOk with hd | ⟨w, hlc⟩
    · rw [getNext_dead hd] at hg; cases hg; cases hgh
    obtain ⟨g', q1, q2⟩ := getNext_live hw.s hlc f.fid
    rw [hg] at q1; cases q1
    obtain ⟨_, _, _, hgst, htodo, _, _⟩ := q2.inv grp hh hgh
    have hside : grp.side = post := by
      have hpt' := hfo.pt
      rw [hpt] at hpt'
      have hsome : g.hook.isSome = true := by rw [hgh]; rfl
      cases post
      · have := getNext_pre hg hpt'
        rw [if_pos hsome, hgst] at this
        cases grp <;> simp_all [Grp.st, Grp.side]
      · have := getNext_post hg hpt'
        rw [if_pos hsome, hgst] at this
        cases grp <;> simp_all [Grp.st, Grp.side]
    refine h.retop' m hf hst hX ?_ rfl ?_ ⟨hl1, by simp [ignored]⟩ hlo
    · intro e he cid fid h1 h2
      rcases hX' e he with ⟨_, _, rfl⟩ | ⟨_, _, _, rfl⟩
      · trivial
      · exact fun hc => h1 (by rw [← hc, hfo.cid])
    · refine hho.got hw.s (Or.inr ⟨w, hlc⟩) hg hX ?_ ?_ rfl ?_ ?_ ?_ ?_
      · intro e he
        rcases hX' e he with ⟨_, _, rfl⟩ | ⟨_, _, _, rfl⟩ <;> exact ⟨by simp, by simp⟩
      · intro _ _ e he
        rcases hX' e he with ⟨_, _, rfl⟩ | ⟨_, _, _, rfl⟩ <;> simp
      · intro hp
        cases post
        · rcases hho.once (Or.inl hpt) with e | e | e
          · exact Or.inl e
          · exact Or.inr (Or.inl e)
          · right; right; rw [hX]
            refine e.of_ext ?_
            intro e he
            rcases hX' e he with ⟨_, _, rfl⟩ | ⟨_, _, e1, rfl⟩
            · left; exact ⟨_, _, by rw [hfo.cid]⟩
            · rw [hgh] at e1; cases e1
              right; exact ⟨_, _, _, _, by rw [hfo.cid], hside⟩
        · rcases hp with hp | ⟨n, hp⟩ <;> cases hp
      · intro n hn
        cases post
        · cases hn; exact ⟨grp, hside, mem_invoked hinv, Or.inl hgst⟩
        · cases hn
      · intro n hn
        cases post
        · cases hn
        · cases hn; exact ⟨grp, hside, mem_invoked hinv, Or.inl hgst⟩
      · intro hn
        cases post <;> cases hn
  | tickOrig f fs c cs g a hf hst hpt hg hgh hns hco hfa =>
    obtain ⟨hfo, hho, hl1, hl2, hl3, hl4⟩ := h.top m hf hst
    have hlo := h.log.got hw.s hho hfo.ctxOk hfo.cid hl3 hl4 hg
    obtain ⟨X, hX, hX'⟩ := logGot_ext' f.cid f.fid g s.log
    obtain ⟨hk, _, _⟩ := getNext_any' hw.s hfo.ctxOk f.fid hg
    have hX2 : ∀ e ∈ X, ∃ grp n, e = Ev.skip c.cid grp n := by
      intro e he
      rcases hX' e he with ⟨_, _, rfl⟩ | ⟨_, _, e1, _⟩
      · exact ⟨_, _, by rw [hfo.cid]⟩
      · rw [hgh] at e1; cases e1
    have hcl : Clean (logGot f.cid f.fid g s.log) f.cid := by
      rcases hho.once (Or.inl hpt) with e | e | e
      · exact absurd e hns
      · rw [hk.callOrig, e] at hco; cases hco
      · rw [hX, hfo.cid]; exact e.of_ext fun e he => Or.inl (hX2 e he)
    have hpt' := hfo.pt
    rw [hpt] at hpt'
    have hst' : g.ctx.st = .orig ∨ g.ctx.st = .dead := by
      have := getNext_pre hg hpt'
      rw [if_neg (by rw [hgh]; simp)] at this
      rcases this with e | e | ⟨e, _⟩
      · exact Or.inl e
      · exact Or.inr e
      · have := hfo.pr e
        rw [hk.callOrig, this] at hco; cases hco
    refine h.retop' m hf hst (X := .origCall f.cid f.fid a :: X) (log' := .origCall f.cid f.fid a :: logGot f.cid f.fid g s.log)
      (f' := { f with pt := .inOrig }) (by rw [hX]; rfl) ?_ rfl ?_ ⟨hl1, hl2⟩
      (hlo.origCall _ (by rw [hfo.cid]; exact hl3) hl4 hcl)
    · intro e he cid fid h1 h2
      rcases List.mem_cons.1 he with rfl | he
      · exact fun hc => h1 (by rw [← hc, hfo.cid])
      · obtain ⟨_, _, rfl⟩ := hX2 e he; trivial
    · refine hho.got hw.s hfo.ctxOk hg (X := .origCall f.cid f.fid a :: X) (by rw [hX]; rfl) ?_ ?_ rfl ?_ ?_ ?_ ?_
      · intro e he
        rcases List.mem_cons.1 he with rfl | he
        · exact ⟨by simp, by simp⟩
        · obtain ⟨_, _, rfl⟩ := hX2 e he; exact ⟨by simp, by simp⟩
      · intro hnd ht
        rcases hst' with e | e
        · rw [e] at ht; simp [Todo, Grp.rank] at ht
        · exact absurd e hnd
      · rintro (hh | ⟨n, hh⟩) <;> cases hh
      · intro n hh; cases hh
      · intro n hh; cases hh
      · intro _; exact ⟨f.fid, a, by rw [hfo.cid]; exact List.mem_cons_self ..⟩
  | tickSkip f fs c cs g hf hst hpt hg hgh hns =>
    obtain ⟨hfo, hho, hl1, hl2, hl3, hl4⟩ := h.top m hf hst
    have hlo := h.log.got hw.s hho hfo.ctxOk hfo.cid hl3 hl4 hg
    obtain ⟨X, hX, hX'⟩ := logGot_ext' f.cid f.fid g s.log
    have hX2 : ∀ e ∈ X, ∃ grp n, e = Ev.skip c.cid grp n := by
      intro e he
      rcases hX' e he with ⟨_, _, rfl⟩ | ⟨_, _, e1, _⟩
      · exact ⟨_, _, by rw [hfo.cid]⟩
      · rw [hgh] at e1; cases e1
    refine h.retop' m hf hst (f' := { f with pt := .postLoop, orig := f.over, prev := ignored }) hX ?_ rfl ?_ ⟨hl1, hl2⟩ hlo
    · intro e he cid fid h1 h2
      obtain ⟨_, _, rfl⟩ := hX2 e he; trivial
    · refine hho.got hw.s hfo.ctxOk hg hX ?_ ?_ rfl ?_ ?_ ?_ ?_
      · intro e he
        obtain ⟨_, _, rfl⟩ := hX2 e he; exact ⟨by simp, by simp⟩
      · intro _ _ e he
        obtain ⟨_, _, rfl⟩ := hX2 e he; simp
      · rintro (hh | ⟨n, hh⟩) <;> cases hh
      · intro n hh; cases hh
      · intro n hh; cases hh
      · intro hh; cases hh
  | tickRet f fs c cs g v s2 hf hst hpt hg hgh hv hs2 =>
    obtain ⟨hfo, hho, hl1, hl2, hl3, hl4⟩ := h.top m hf hst
    have hlo := h.log.got hw.s hho hfo.ctxOk hfo.cid hl3 hl4 hg
    obtain ⟨X, hX, hX'⟩ := logGot_ext' f.cid f.fid g s.log
    have hX2 : ∀ e ∈ X, ∃ grp n, e = Ev.skip c.cid grp n := by
      intro e he
      rcases hX' e he with ⟨_, _, rfl⟩ | ⟨_, _, e1, _⟩
      · exact ⟨_, _, by rw [hfo.cid]⟩
      · rw [hgh] at e1; cases e1
    obtain ⟨p1, p2, p3, p4, p5, p6⟩ := popCtx_spec { s with log := logGot f.cid f.fid g s.log } cs
    obtain ⟨Y, hY, hY'⟩ := popCtx_log { s with log := logGot f.cid f.fid g s.log } cs
    rw [← hs2] at p1 p2 p3 p4 p5 p6 hY
    replace hY : s2.log = Y ++ logGot f.cid f.fid g s.log := hY
    have hall := h.below' m hf hst (X := .ret f.cid f.fid v :: (Y ++ X)) (by
      intro e he cid fid h1 h2
      rcases List.mem_cons.1 he with rfl | he
      · exact fun hc => h1 (by rw [← hc, hfo.cid])
      · rcases List.mem_append.1 he with he | he
        · exact (hY' e he).2.2 _ _
        · obtain ⟨_, _, rfl⟩ := hX2 e he; trivial)
    have hlog : Ev.ret f.cid f.fid v :: s2.log = (.ret f.cid f.fid v :: (Y ++ X)) ++ s.log := by
      rw [hY, hX]; simp
    have hch := h.chain; have hle := h.le
    rw [hf] at hch hle
    have hch := (List.pairwise_cons.1 hch).2
    have hle : ∀ f ∈ hookFrames fs, f.status ≤ 3 ∧ f.cur ≤ 3 := fun f hf => hle f (List.mem_cons_of_mem _ hf)
    have hlo2 : LogOk (Ev.ret f.cid f.fid v :: s2.log) s2.next := by
      rw [p4, hY]
      refine (hlo.plains fun e he => ⟨(hY' e he).1, by rw [(hY' e he).2.1]; simp⟩).plain rfl ?_
      simp [Ev.nums, hfo.cid]; exact ⟨hl3, hl4⟩
    have hch : (hookFrames fs).Pairwise (fun a b => a.cid = b.cid → RecWait b.pt ∧ Recalled (Ev.ret f.cid f.fid v :: s2.log) a.cid) := by
      refine hch.imp ?_
      intro a b hab hc
      refine ⟨(hab hc).1, ?_⟩
      rw [hlog]; exact (hab hc).2.mono
    rcases handBack_cases v fs with e | ⟨p, fs', rfl, hcase⟩
    · rw [e]
      refine ⟨?_, hch, hle, hlo2⟩
      show All2 (HOk s2.reg _) (hookFrames fs) s2.stack
      rw [p1, p2, hlog]; exact hall
    · have hb : ∃ p' : Frame, p'.fid = p.fid ∧ p'.cid = p.cid ∧ p'.status = p.status ∧ p'.cur = p.cur ∧ RecWait p.pt ∧
          (∀ n, p'.pt ≠ .inPre n) ∧ (∀ n, p'.pt ≠ .inPost n) ∧ p'.pt ≠ .inOrig ∧ p'.pt ≠ .preLoop ∧
          handBack v (.hook p :: fs') = .hook p' :: fs' := by
        rcases hcase with ⟨n, hp, e⟩ | ⟨n, hp, e⟩
        · exact ⟨{ p with pt := .recPre n (some v) }, rfl, rfl, rfl, rfl, ⟨n, Or.inl hp⟩, by simp, by simp, by simp, by simp, e⟩
        · exact ⟨{ p with pt := .recPost n (some v) }, rfl, rfl, rfl, rfl, ⟨n, Or.inr hp⟩, by simp, by simp, by simp, by simp, e⟩
      obtain ⟨p', b1, b2, b3, b4, b5, b6, b7, b8, b9, e⟩ := hb
      rw [e]
      refine ⟨?_, ?_, ?_, hlo2⟩
      · show All2 (HOk s2.reg _) (p' :: hookFrames fs') s2.stack
        rw [p1, p2, hlog]
        cases hall with
        | cons k1 k2 =>
          refine .cons ?_ k2
          exact ⟨k1.ent, k1.ret, k1.orig, (by
              rintro (hh | ⟨n, hh⟩)
              · exact absurd hh b9
              · exact absurd hh (b6 n)), fun n hh => absurd hh (b6 n), fun n hh => absurd hh (b7 n), fun hh => absurd hh b8,
            by rw [b1]; exact k1.rcl⟩
      · have hc2 := List.pairwise_cons.1 hch
        refine List.pairwise_cons.2 ⟨?_, hc2.2⟩
        intro b hb; rw [b2]; exact hc2.1 b hb
      · intro x hx
        rcases List.mem_cons.1 hx with rfl | hx
        · rw [b3, b4]; exact hle p (List.mem_cons_self ..)
        · exact hle x (List.mem_cons_of_mem _ hx)
  | handlerRet v f fs c cs post hf hst hat =>
    obtain ⟨hfo, hho, hl1, hl2, hl3, hl4⟩ := h.top m hf hst
    let f1 : Frame := { f with prev := f.cur, status := max f.status f.cur, pt := loopPt post }
    have hsl : ∃ G : Frame → Frame, (∀ f, SameF f (G f)) ∧
        (if f.cur ≥ override then setSlot (.hook f1 :: fs) v c.over else .hook f1 :: fs) = (Fr.hook f1 :: fs).map (frMap G) := by
      split
      · exact ⟨slotMap v c.over, slotMap_same _ _, setSlot_eq _ _ _⟩
      · exact ⟨id, SameF.refl, (frMap_id _).symm⟩
    obtain ⟨G, hG, heq⟩ := hsl
    show HInv { s with
      frames := (if f.cur ≥ override then setSlot (.hook f1 :: fs) v c.over else .hook f1 :: fs)
      log := .result f.fid post f.cur v :: s.log }
    rw [heq]
    have hmx : max f.status f.cur ≤ 3 := Nat.max_le.2 ⟨hl1, hl2⟩
    have hfr := hho.free (X := [.result f.fid post f.cur v]) (by intro e he; rw [List.mem_singleton.1 he]; trivial)
    have := h.retop m hf hst (X := [.result f.fid post f.cur v]) (log' := .result f.fid post f.cur v :: s.log)
      (f' := f1) (c' := c) rfl (by intro e he _ _ _ _; rw [List.mem_singleton.1 he]; trivial) hG rfl
      ⟨hfr.ent, hfr.ret, hfr.orig, ?_, (by intro n hh; cases post <;> cases hh), (by intro n hh; cases post <;> cases hh),
        (by intro hh; cases post <;> cases hh), hfr.rcl⟩ ⟨hmx, hl2⟩ (h.log.plain rfl (by simp [Ev.nums]; exact hl4))
    · rw [← hst] at this; exact this
    · intro hp
      cases post
      · obtain ⟨n, hn⟩ := hat
        rcases hfr.once (Or.inr ⟨n, hn⟩) with e | e | e
        · left
          show max f.status f.cur = supercede
          rw [e]; exact Nat.max_eq_left hl2
        · exact Or.inr (Or.inl e)
        · exact Or.inr (Or.inr e)
      · rcases hp with hp | ⟨n, hp⟩ <;> cases hp
  | origRet v f fs hf hpt =>
    obtain ⟨c, cs, hst, _⟩ := m.top hf
    obtain ⟨hfo, hho, hl1, hl2, hl3, hl4⟩ := h.top m hf hst
    have hfr := hho.free (X := [.origRet f.fid v]) (by intro e he; rw [List.mem_singleton.1 he]; trivial)
    have := h.retop' m hf hst (X := [.origRet f.fid v]) (log' := .origRet f.fid v :: s.log)
      (f' := { f with orig := v, prev := ignored, pt := .postLoop }) (c' := c) rfl (by intro e he _ _ _ _; rw [List.mem_singleton.1 he]; trivial) rfl
      ⟨hfr.ent, hfr.ret, hfr.orig, (by rintro (hh | ⟨n, hh⟩) <;> cases hh), (by intro n hh; cases hh), (by intro n hh; cases hh),
        (by intro hh; cases hh), hfr.rcl⟩ ⟨hl1, hl2⟩ (h.log.plain rfl (by simp [Ev.nums]; exact hl4))
    rw [← hst] at this; exact this
  | resolve force =>
    obtain ⟨Y, hY, hY'⟩ := resolve_ext force s
    have e1 : (resolve force s).reg = s.reg ∧ (resolve force s).stack = s.stack ∧ (resolve force s).frames = s.frames ∧
      (resolve force s).next = s.next := ⟨rfl, rfl, rfl, rfl⟩
    obtain ⟨k1, k2, k3, k4⟩ := e1
    refine ⟨?_, ?_, by rw [k3]; exact h.le, ?_⟩
    · rw [k1, k2, k3, hY]; exact h.all.imp fun f _ c _ h1 => h1.free fun e he => (hY' e he).2.2 _ _
    · rw [k3, hY]; exact h.chain.imp fun hab hc => ⟨(hab hc).1, (hab hc).2.mono⟩
    · rw [hY, k4]; exact h.log.plains fun e he => ⟨(hY' e he).1, by rw [(hY' e he).2.1]; simp⟩

theorem HInv.init (mem0 : Addr → Addr) : HInv { reg := { mem := mem0 } } :=
  ⟨.nil, List.Pairwise.nil, by simp [hookFrames], ⟨by simp, by simp, fun _ _ => List.Pairwise.nil, fun _ => List.Pairwise.nil, List.Pairwise.nil⟩⟩

theorem LReach.hist {E : Env} (hE : EnvOk E) {s : St} (h : LReach E s) : HInv s := by
  induction h with
  | init mem0 h0 => exact HInv.init mem0
  | step h1 h2 h3 ih =>
    obtain ⟨s2, e1, e2⟩ := step_tr hE (h1.inv hE) h2
    rw [h3] at e1; cases e1
    exact ih.step (h1.inv hE) h2 e2

/-- Steps of reachable states. -/
theorem LReach.tr {E : Env} (hE : EnvOk E) {s s' : St} {op : Op} (h : LReach E s) (hok : Ok E s op) (hs : Verif.SH.step E s op = .ok s') :
    Tr E s op s' := by
  obtain ⟨s2, e1, e2⟩ := step_tr hE (h.inv hE) hok
  rw [hs] at e1; cases e1
  exact e2

end Verif.SH
