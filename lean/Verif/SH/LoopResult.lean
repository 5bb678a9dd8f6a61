import Verif.SH.LoopIface
import Verif.SH.LoopOrder
/-
C06 (results of handlers, return value), C12 (recalls), C51 (what handlers can ask about the call), C11
(SH_CALL).  Spec functions of the history: `results`, `origVals`, `origCalls`, `runs`, `highest`,
`lastOver`, `lastRes`, `preRes` (LoopRes.lean, LoopPair.lean), `callees` (LoopOrder.lean).
-/
namespace Verif.SH

/-! ### what handlers can ask -/

/-- `GetStatus`, sh:329-333. -/
def getStatus (s : St) : R Nat :=
  match s.stack with
  | [] => .error .desync
  | c :: _ => do let f ← deref s.frames c.locals; .ok f.status

/-- `GetPrevRes`, sh:324-327. -/
def getPrevRes (s : St) : R Nat :=
  match s.stack with
  | [] => .error .desync
  | c :: _ => do let f ← deref s.frames c.locals; .ok f.prev

/-- `META_RESULT_ORIG_RET`: `*GetOrigRet()`, sh:335-338, hxx:592. -/
def getOrigRet (s : St) : R Val :=
  match s.stack with
  | [] => .error .desync
  | c :: _ => readSlot s.frames c.orig

/-- `GetOverrideRet`, sh:340-344: NULL (`none`) or a pointer to the value returned here. -/
def getOverrideRet (s : St) : R (Option Val) :=
  match s.stack with
  | [] => .error .desync
  | c :: _ => do
    let f ← deref s.frames c.locals
    if f.status < override then .ok none else do
      let v ← readSlot s.frames c.over
      .ok (some v)

/-- The innermost activation, its context, and what is known about them while a handler runs. -/
theorem handler_top {E : Env} (hE : EnvOk E) {s : St} (h : LReach E s) {f : Frame} {fs : List Fr} (hf : s.frames = .hook f :: fs)
    {post : Bool} (hat : AtHandler post f.pt) :
    ∃ c cs, s.stack = c :: cs ∧ c.locals = some f.fid ∧ f.cid = c.cid ∧ getFrame s.frames f.fid = some f ∧
      (c.st.isRecall = false) ∧ ROk s.log f c ∧ IOk s.log f c := by
  have m := h.inv hE
  obtain ⟨c, cs, hst, hro, hfo⟩ := (h.res hE).top m hf
  have hi := h.ifp hE
  unfold IInv at hi
  rw [hf, hst] at hi
  refine ⟨c, cs, hst, ?_, hfo.cid, getFrame_mem m.fid (by rw [hf]; exact List.mem_cons_self ..), ?_, hro, hi.top.1⟩
  · rcases hfo.kind with e | e
    · rcases e.2.2.2.2.2 with e | e | e
      · exact absurd e hat.ne.1
      · exact absurd e hat.ne.2.1
      · exact absurd e hat.ne.2.2
    · exact e.1
  · have hp := hfo.pt
    obtain ⟨n, hn⟩ := hat
    rw [hn] at hp
    cases post
    · rcases hp with e | e | e <;> rw [e] <;> rfl
    · rcases hp with e | e | e <;> rw [e] <;> rfl

/-- C06, C51: what a handler of a call that was not recalled sees, in terms of the results of the handlers
of this call that ran before it (`results`; one per handler invoked before, in order):
META_RESULT_STATUS is the highest result, META_RESULT_PREVIOUS the result of the previous handler of the
same phase, META_RESULT_OVERRIDE_RET is available exactly if some handler answered OVERRIDE or more and
then is the last such handler's value, and in a post handler META_RESULT_ORIG_RET is the value the
original returned, or if a pre handler superceded it, the last overriding pre handler's value. -/
theorem handler_sees {E : Env} (hE : EnvOk E) {s : St} (h : LReach E s) {f : Frame} {fs : List Fr} (hf : s.frames = .hook f :: fs)
    {post : Bool} (hat : AtHandler post f.pt) (hn : ¬ Recalled s.log f.cid) :
    runs s.log f.fid = (results s.log f.fid).map (·.1) ++ [post] ∧
    getStatus s = .ok (highest (results s.log f.fid)) ∧
    getPrevRes s = .ok (lastRes (results s.log f.fid) post) ∧
    getOverrideRet s = .ok (lastOver (results s.log f.fid)) ∧
    (post = true → ((∀ x ∈ preRes (results s.log f.fid), x.2.1 < supercede) ∧ ∃ o, origVals s.log f.fid = [o] ∧ getOrigRet s = .ok o) ∨
      ((∃ x ∈ preRes (results s.log f.fid), x.2.1 = supercede) ∧ origVals s.log f.fid = [] ∧
        ∃ o, lastOver (preRes (results s.log f.fid)) = some o ∧ getOrigRet s = .ok o)) := by
  obtain ⟨c, cs, hst, hloc, hcid, hg, _, hro, _⟩ := handler_top hE h hf hat
  have hb := hro.body (by rw [← hcid]; exact hn)
  have hd : deref s.frames c.locals = .ok f := by rw [hloc]; simp only [deref, hg]
  have hov : c.over = some (.over f.fid) := hb.over.resolve_left fun e => by rw [hloc] at e; cases e.1
  have hphase : f.pt.phase = if post then 2 else 0 := by obtain ⟨n, hn⟩ := hat; rw [hn]; cases post <;> rfl
  have hro' : readSlot s.frames c.orig = .ok f.orig := by rw [hb.orig]; simp [readSlot, deref, hg, bind, Except.bind]
  refine ⟨?_, ?_, ?_, ?_, ?_⟩
  · rw [(h.pair hE).fr f (by rw [hf]; exact List.mem_cons_self ..), handler_busy hat]
  · unfold getStatus; rw [hst]; simp only [hd, bind, Except.bind, hb.status]
  · unfold getPrevRes; rw [hst]; simp only [hd, bind, Except.bind]
    cases post
    · rw [hb.prev.1 hphase]
    · rw [hb.prev.2 hphase]
  · unfold getOverrideRet; rw [hst]; simp only [hd, bind, Except.bind]
    by_cases hh : f.status < override
    · rw [if_pos hh, lastOver_none (by rw [← hb.status]; exact hh)]
    · rw [if_neg hh]
      obtain ⟨v, hv⟩ := lastOver_some (results s.log f.fid) (by rw [← hb.status]; omega)
      rw [hov, hv, ← hb.val v hv]
      simp [readSlot, deref, hg, bind, Except.bind]
  · rintro rfl
    rcases hb.p2 hphase with ⟨h1, h2, h3⟩ | ⟨h1, h2, h3, h4⟩
    · left
      exact ⟨fun x hx => Nat.lt_of_le_of_lt (highest_le hx) h3, f.orig, h2, by unfold getOrigRet; rw [hst]; exact hro'⟩
    · right
      obtain ⟨x, hx, e⟩ := highest_mem (rs := preRes (results s.log f.fid)) (by rw [h3]; decide)
      exact ⟨⟨x, hx, e.trans h3⟩, h2, f.orig, h4, by unfold getOrigRet; rw [hst]; exact hro'⟩

namespace Ex

/-- The pre handlers answer HANDLED, OVERRIDE (value 5) and IGNORED, the original returns 7; the post handler is running. -/
def over1 : List Op := setup ++ [.call 2008 1000, .tick, .setRes 1, .handlerRet 0, .tick, .setRes 2, .handlerRet 5, .tick, .handlerRet 0, .tick,
  .origRet 7, .tick]

/-- The post handler answers HANDLED and the call returns. -/
def over2 : List Op := over1 ++ [.setRes 1, .handlerRet 8, .tick]

end Ex

example : ∃ s f fs, LReach Ex.E s ∧ s.frames = .hook f :: fs ∧ AtHandler true f.pt ∧ ¬ Recalled s.log f.cid ∧
    results s.log f.fid = [(false, 1, 0), (false, 2, 5), (false, 0, 0)] := by
  obtain ⟨s, f, fs, h1, h2, h3, h4⟩ := Ex.top (ops := Ex.over1) (fun f s => f.pt == .inPost 8 &&
    (results s.log f.fid == [(false, 1, 0), (false, 2, 5), (false, 0, 0)]) && s.log.all (fun e => match e with
      | .recall .. => false
      | _ => true)) rfl
  simp only [Bool.and_eq_true, beq_iff_eq, List.all_eq_true] at h4
  obtain ⟨⟨h4, h5⟩, h6⟩ := h4
  refine ⟨s, f, fs, h2, h3, ⟨8, h4⟩, ?_, h5⟩
  rintro ⟨a, b, st, hm⟩
  exact absurd (h6 _ hm) (by simp)

theorem pairwise_pick {α : Type} {R : α → α → Prop} {l : List α} (h : l.Pairwise R) {a b : α} (ha : a ∈ l) (hb : b ∈ l) (hne : a ≠ b) :
    R a b ∨ R b a := by
  induction l with
  | nil => cases ha
  | cons x xs ih =>
    obtain ⟨h1, h2⟩ := List.pairwise_cons.1 h
    rcases List.mem_cons.1 ha with e | ha' <;> rcases List.mem_cons.1 hb with e' | hb'
    · exact absurd (e.trans e'.symm) hne
    · rw [e]; exact Or.inl (h1 b hb')
    · rw [e']; exact Or.inr (h1 a ha')
    · exact ih h2 ha' hb'

/-- C06: a call that was not recalled and has returned `v`.  Every handler it invoked gave one result, in
order.  Either all pre handlers answered less than SUPERCEDE: then the original was called exactly once,
and `v` is the value of the last handler (pre or post) that answered OVERRIDE or more, or the original's
value if there is none.  Or some pre handler answered SUPERCEDE: then the original was not called and
`v` is the value of the last handler that answered OVERRIDE or more.  A call returns only once. -/
theorem call_outcome {E : Env} (hE : EnvOk E) {s : St} (h : LReach E s) {cid fid : Nat} {p : Option Addr} {this : Addr}
    (hen : Ev.enter cid fid p this ∈ s.log) {f : Nat} {v : Val} (hret : Ev.ret cid f v ∈ s.log) (hn : ¬ Recalled s.log cid) :
    f = fid ∧ (∀ f' v', Ev.ret cid f' v' ∈ s.log → v' = v) ∧ runs s.log fid = (results s.log fid).map (·.1) ∧
    (((∀ x ∈ preRes (results s.log fid), x.2.1 < supercede) ∧ (callees s.log cid).count none = 1 ∧
      ∃ o, origVals s.log fid = [o] ∧ v = (lastOver (results s.log fid)).getD o) ∨
     ((∃ x ∈ preRes (results s.log fid), x.2.1 = supercede) ∧ none ∉ callees s.log cid ∧ lastOver (results s.log fid) = some v)) := by
  have d := h.done hE
  have hl := (h.hist hE).log
  have hfid : ∀ f, Entered s.log cid f → f = fid := by
    intro f he
    rcases he with he | ⟨p', t', he⟩ | ⟨p', t', he⟩
    · exact absurd he hn
    · exact (hl.entU _ _ _ _ _ _ _ he hen).1
    · exact absurd he (d.kinds _ _ _ _ _ _ _ hen)
  have e := hfid f (d.own _ hret _ _ rfl)
  subst e
  refine ⟨rfl, ?_, (h.pair hE).rt cid f v hret, ?_⟩
  · intro f' v' hr'
    have e := hfid f' (d.own _ hr' _ _ rfl)
    subst e
    by_cases hv : v' = v
    · exact hv
    · exfalso
      rcases pairwise_pick d.once hr' hret (fun e => hv (by cases e; rfl)) with e | e
      · exact e _ _ _ _ _ rfl rfl
      · exact e _ _ _ _ _ rfl rfl
  · have hmem : ∀ a, Ev.origCall cid f a ∈ s.log → a ∈ origCalls s.log f := by
      intro a ha
      unfold origCalls
      exact List.mem_filterMap.2 ⟨_, ha, by simp⟩
    have hcm : none ∈ callees s.log cid ↔ ∃ f' a, Ev.origCall cid f' a ∈ s.log := by
      unfold callees
      rw [List.mem_reverse, List.mem_filterMap]
      constructor
      · rintro ⟨e, he, hc⟩
        cases e <;> simp [callee] at hc
        next c f' a => exact ⟨f', a, by rw [← hc]; exact he⟩
      · rintro ⟨f', a, ha⟩
        exact ⟨_, ha, by simp [callee]⟩
    rcases d.out cid f v hret hn with ⟨h1, h2, h3⟩ | ⟨h1, h2, _, h4⟩
    · left
      refine ⟨h1, ?_, h3⟩
      have hin : none ∈ callees s.log cid := by
        rw [hcm]
        match hoc : origCalls s.log f with
        | [] => rw [hoc] at h2; cases h2
        | a :: _ =>
          have : a ∈ origCalls s.log f := by rw [hoc]; exact List.mem_cons_self ..
          unfold origCalls at this
          obtain ⟨e, he, hx⟩ := List.mem_filterMap.1 this
          cases e <;> simp at hx
          next c f' a' =>
          obtain ⟨rfl, rfl⟩ := hx
          refine ⟨f', a', ?_⟩
          have : c = cid := d.fidU _ he _ hret _ _ _ rfl rfl
          rw [← this]; exact he
      have hone := orig_at_most_once hl cid
      have hcnt : (callees s.log cid).count none = ((callees s.log cid).filter (place · == 2)).count none := by
        rw [List.count_filter (by rfl)]
      rcases hone with e | e
      · have : none ∈ (callees s.log cid).filter (place · == 2) := List.mem_filter.2 ⟨hin, rfl⟩
        rw [e] at this; cases this
      · rw [hcnt, e]; rfl
    · right
      refine ⟨h1, ?_, h4⟩
      rw [hcm]
      rintro ⟨f', a, ha⟩
      have e := hfid f' (d.own _ ha _ _ rfl)
      subst e
      have := hmem a ha
      rw [h2] at this; cases this

example : ∃ s, LReach Ex.E s ∧ Ev.enter 0 0 (some 2008) 1000 ∈ s.log ∧ Ev.ret 0 0 5 ∈ s.log ∧ ¬ Recalled s.log 0 := by
  obtain ⟨s, h⟩ := Ex.go_isSome (ops := Ex.over2) rfl
  refine ⟨s, Ex.go_reach h, of_decide_eq_true (Ex.chk h (fun s => decide (Ev.enter 0 0 (some 2008) 1000 ∈ s.log)) rfl),
    of_decide_eq_true (Ex.chk h (fun s => decide (Ev.ret 0 0 5 ∈ s.log)) rfl), ?_⟩
  have h6 := Ex.chk h (fun s => s.log.all (fun e => match e with
      | .recall .. => false
      | _ => true)) rfl
  simp only [List.all_eq_true] at h6
  rintro ⟨a, b, st, hm⟩
  exact absurd (h6 _ hm) (by simp)

#print axioms handler_sees
#print axioms call_outcome

end Verif.SH
