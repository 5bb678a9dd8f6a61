import Verif.SH.LoopHist
/-
Results of handlers and return values of a hook call: what the history says about the local variables
of a running hook function whose call is not recalled.
-/
namespace Verif.SH

/-! ### spec functions of the history -/

/-- The results handlers gave to activation `fid`, in order: (post, result, value). -/
def results (log : List Ev) (fid : Nat) : List (Bool × Nat × Val) :=
  (log.filterMap fun e => match e with
    | .result f post res v => if f = fid then some (post, res, v) else none
    | _ => none).reverse

/-- The values the original function returned to activation `fid`. -/
def origVals (log : List Ev) (fid : Nat) : List Val :=
  log.filterMap fun e => match e with
    | .origRet f v => if f = fid then some v else none
    | _ => none

/-- The calls of the original function by activation `fid`. -/
def origCalls (log : List Ev) (fid : Nat) : List Addr :=
  log.filterMap fun e => match e with
    | .origCall _ f a => if f = fid then some a else none
    | _ => none

/-- The highest result. -/
def highest (rs : List (Bool × Nat × Val)) : Nat := rs.foldl (fun a x => max a x.2.1) ignored

/-- The value of the last handler with result OVERRIDE or SUPERCEDE. -/
def lastOver (rs : List (Bool × Nat × Val)) : Option Val :=
  ((rs.filter fun x => decide (override ≤ x.2.1)).getLast?).map fun x => x.2.2

/-- The result of the last handler of a phase; IGNORED if there is none. -/
def lastRes (rs : List (Bool × Nat × Val)) (post : Bool) : Nat :=
  ((rs.filter fun x => x.1 == post).getLast?.map fun x => x.2.1).getD ignored

/-- The results of the pre handlers. -/
def preRes (rs : List (Bool × Nat × Val)) : List (Bool × Nat × Val) := rs.filter fun x => !x.1

theorem highest_snoc (rs : List (Bool × Nat × Val)) (x : Bool × Nat × Val) : highest (rs ++ [x]) = max (highest rs) x.2.1 := by
  unfold highest; rw [List.foldl_append]; rfl

theorem lastOver_snoc (rs : List (Bool × Nat × Val)) (x : Bool × Nat × Val) :
    lastOver (rs ++ [x]) = if override ≤ x.2.1 then some x.2.2 else lastOver rs := by
  unfold lastOver
  rw [List.filter_append]
  split
  · next h => simp [h]
  · next h => simp [h]

theorem lastRes_snoc (rs : List (Bool × Nat × Val)) (x : Bool × Nat × Val) : lastRes (rs ++ [x]) x.1 = x.2.1 := by
  unfold lastRes
  rw [List.filter_append]
  simp

theorem lastOver_some (rs : List (Bool × Nat × Val)) (h : override ≤ highest rs) : ∃ v, lastOver rs = some v := by
  rw [← List.reverse_reverse rs] at h ⊢
  generalize rs.reverse = l at h ⊢
  induction l with
  | nil => simp [highest, ignored, override] at h
  | cons x xs ih =>
    rw [List.reverse_cons, highest_snoc] at h
    rw [List.reverse_cons, lastOver_snoc]
    split
    · exact ⟨_, rfl⟩
    · next hx => exact ih (by omega)

theorem lastOver_none {rs : List (Bool × Nat × Val)} (h : highest rs < override) : lastOver rs = none := by
  rw [← List.reverse_reverse rs] at h ⊢
  generalize rs.reverse = l at h ⊢
  induction l with
  | nil => rfl
  | cons x xs ih =>
    rw [List.reverse_cons, highest_snoc] at h
    rw [List.reverse_cons, lastOver_snoc, if_neg (by omega)]
    exact ih (by omega)

theorem highest_le {rs : List (Bool × Nat × Val)} {x : Bool × Nat × Val} (h : x ∈ rs) : x.2.1 ≤ highest rs := by
  rw [← List.reverse_reverse rs] at h ⊢
  rw [List.mem_reverse] at h
  generalize rs.reverse = l at h ⊢
  induction l with
  | nil => cases h
  | cons y ys ih =>
    rw [List.reverse_cons, highest_snoc]
    rcases List.mem_cons.1 h with rfl | h
    · exact Nat.le_max_right ..
    · exact Nat.le_trans (ih h) (Nat.le_max_left ..)

/-- The event says nothing about the results of activation `fid`. -/
def Ev.mute (fid : Nat) : Ev → Prop
  | .result f _ _ _ => f ≠ fid
  | .origRet f _ => f ≠ fid
  | .origCall _ f _ => f ≠ fid
  | _ => True

theorem results_mute {X log : List Ev} {fid : Nat} (h : ∀ e ∈ X, e.mute fid) : results (X ++ log) fid = results log fid := by
  unfold results
  rw [List.filterMap_append, List.reverse_append]
  have : X.filterMap (fun e => match e with
    | .result f post res v => if f = fid then some (post, res, v) else none
    | _ => none) = [] := by
    rw [List.filterMap_eq_nil_iff]
    intro e he
    have := h e he
    cases e <;> simp_all [Ev.mute]
  rw [this]; simp

theorem origVals_mute {X log : List Ev} {fid : Nat} (h : ∀ e ∈ X, e.mute fid) : origVals (X ++ log) fid = origVals log fid := by
  unfold origVals
  rw [List.filterMap_append]
  have : X.filterMap (fun e => match e with
    | .origRet f v => if f = fid then some v else none
    | _ => none) = [] := by
    rw [List.filterMap_eq_nil_iff]
    intro e he
    have := h e he
    cases e <;> simp_all [Ev.mute]
  rw [this]; simp

theorem origCalls_mute {X log : List Ev} {fid : Nat} (h : ∀ e ∈ X, e.mute fid) : origCalls (X ++ log) fid = origCalls log fid := by
  unfold origCalls
  rw [List.filterMap_append]
  have : X.filterMap (fun e => match e with
    | .origCall _ f a => if f = fid then some a else none
    | _ => none) = [] := by
    rw [List.filterMap_eq_nil_iff]
    intro e he
    have := h e he
    cases e <;> simp_all [Ev.mute]
  rw [this]; simp

theorem Recalled.of_ext {X log : List Ev} {cid : Nat} (h : ¬ Recalled (X ++ log) cid) : ¬ Recalled log cid :=
  fun ⟨f, f', st, hm⟩ => h ⟨f, f', st, List.mem_append_right _ hm⟩

/-! ### the invariant -/

/-- Phase of a hook function: pre handlers, original, post handlers, waiting for a recalled function. -/
def Pt.phase : Pt → Nat
  | .preLoop | .inPre _ => 0
  | .inOrig => 1
  | .postLoop | .inPost _ => 2
  | .recPre .. | .recPost .. => 3

/-- The local variables of an activation whose call was never recalled (`c.locals = none`: it was reached
by SH_CALL). -/
structure RBody (log : List Ev) (f : Frame) (c : Ctx) : Prop where
  over : (c.locals = none ∧ results log f.fid = []) ∨ c.over = some (.over f.fid)
  orig : c.orig = some (.orig f.fid)
  co : c.callOrig = true
  status : f.status = highest (results log f.fid)
  val : ∀ v, lastOver (results log f.fid) = some v → f.over = v
  pre : f.pt.phase ≤ 1 → ∀ x ∈ results log f.fid, x.1 = false
  prev : (f.pt.phase = 0 → f.prev = lastRes (results log f.fid) false) ∧ (f.pt.phase = 2 → f.prev = lastRes (results log f.fid) true)
  p0 : f.pt.phase = 0 → origCalls log f.fid = [] ∧ origVals log f.fid = []
  p1 : f.pt.phase = 1 → (origCalls log f.fid).length = 1 ∧ origVals log f.fid = [] ∧ f.status < supercede
  p2 : f.pt.phase = 2 →
    ((origCalls log f.fid).length = 1 ∧ origVals log f.fid = [f.orig] ∧ highest (preRes (results log f.fid)) < supercede) ∨
    (origCalls log f.fid = [] ∧ origVals log f.fid = [] ∧ highest (preRes (results log f.fid)) = supercede ∧
      lastOver (preRes (results log f.fid)) = some f.orig)

/-- What the history says about an activation and its context. -/
structure ROk (log : List Ev) (f : Frame) (c : Ctx) : Prop where
  wait : f.pt.phase = 3 → Recalled log c.cid
  body : ¬ Recalled log c.cid → RBody log f c

/-- One of the context's return value pointers points into activation `k`. -/
def Ctx.refers (c : Ctx) (k : Nat) : Prop :=
  c.over = some (.over k) ∨ c.over = some (.orig k) ∨ c.orig = some (.over k) ∨ c.orig = some (.orig k)

/-- Return value pointers stay within the call; the local variables are as the history says. -/
structure RInv (s : St) : Prop where
  slots : ∀ c ∈ s.stack, ∀ g ∈ hookFrames s.frames, c.refers g.fid → g.cid = c.cid
  lt : ∀ c ∈ s.stack, ∀ k, c.refers k → k < s.next
  all : All2 (ROk s.log) (hookFrames s.frames) s.stack

theorem RBody.mute {X log : List Ev} {f : Frame} {c : Ctx} (h : RBody log f c) (hX : ∀ e ∈ X, e.mute f.fid) : RBody (X ++ log) f c := by
  have e1 := results_mute (log := log) hX
  have e2 := origVals_mute (log := log) hX
  have e3 := origCalls_mute (log := log) hX
  constructor <;> (try rw [e1]) <;> (try rw [e2]) <;> (try rw [e3])
  · exact h.over
  · exact h.orig
  · exact h.co
  · exact h.status
  · exact h.val
  · exact h.pre
  · exact h.prev
  · exact h.p0
  · exact h.p1
  · exact h.p2

theorem ROk.mute {X log : List Ev} {f : Frame} {c : Ctx} (h : ROk log f c) (hX : ∀ e ∈ X, e.mute f.fid) : ROk (X ++ log) f c :=
  ⟨fun hp => (h.wait hp).mono, fun hr => (h.body (Recalled.of_ext hr)).mute hX⟩

theorem ROk.ctx {log : List Ev} {f : Frame} {c c' : Ctx} (h : ROk log f c) (e1 : c'.cid = c.cid) (e2 : c'.locals = c.locals) (e3 : c'.over = c.over)
    (e4 : c'.orig = c.orig) (e5 : c'.callOrig = c.callOrig) : ROk log f c' := by
  refine ⟨fun hp => by rw [e1]; exact h.wait hp, fun hr => ?_⟩
  obtain ⟨a1, a2, a3, a4, a5, a6, a7, a8, a9, a10⟩ := h.body (by rw [← e1]; exact hr)
  exact ⟨by rw [e2, e3]; exact a1, by rw [e4]; exact a2, by rw [e5]; exact a3, a4, a5, a6, a7, a8, a9, a10⟩

/-- Another activation of the same phase with the same locals. -/
theorem RBody.same {log : List Ev} {f f' : Frame} {c : Ctx} (h : RBody log f c) (e1 : f'.fid = f.fid) (e2 : f'.pt.phase = f.pt.phase)
    (e3 : f'.status = f.status) (e4 : f'.over = f.over) (e5 : f'.orig = f.orig) (e6 : f'.prev = f.prev) : RBody log f' c := by
  obtain ⟨a1, a2, a3, a4, a5, a6, a7, a8, a9, a10⟩ := h
  refine ⟨?_, ?_, ?_, ?_, ?_, ?_, ?_, ?_, ?_, ?_⟩ <;> (try rw [e1]) <;> (try rw [e2]) <;> (try rw [e3]) <;> (try rw [e4]) <;> (try rw [e5]) <;>
    (try rw [e6]) <;> assumption

theorem ROk.same {log : List Ev} {f f' : Frame} {c : Ctx} (h : ROk log f c) (e1 : f'.fid = f.fid) (e2 : f'.pt.phase = f.pt.phase)
    (e3 : f'.status = f.status) (e4 : f'.over = f.over) (e5 : f'.orig = f.orig) (e6 : f'.prev = f.prev) : ROk log f' c :=
  ⟨fun hp => h.wait (by rw [← e2]; exact hp), fun hr => (h.body hr).same e1 e2 e3 e4 e5 e6⟩

/-- Writing through a pointer that points elsewhere. -/
theorem slotMap_other {v : Val} {sl : Option Slot} {f : Frame} (h : sl ≠ some (.over f.fid) ∧ sl ≠ some (.orig f.fid)) : slotMap v sl f = f := by
  unfold slotMap
  split
  · rfl
  · next k => rw [if_neg]; intro e; exact h.1 (by rw [e])
  · next k => rw [if_neg]; intro e; exact h.2 (by rw [e])

theorem ROk.slot {log : List Ev} {f : Frame} {c : Ctx} (h : ROk log f c) (v : Val) (sl : Option Slot)
    (hs : ¬ Recalled log c.cid → sl ≠ some (.over f.fid) ∧ sl ≠ some (.orig f.fid)) : ROk log (slotMap v sl f) c := by
  by_cases hr : Recalled log c.cid
  · exact ⟨fun _ => hr, fun hn => absurd hr hn⟩
  · rw [slotMap_other (hs hr)]; exact h

/-- The activations below the innermost one are untouched by a write through its return value pointer
unless the call was recalled. -/
theorem RInv.below {E : Env} {s : St} (h : RInv s) (m : MInv E s) (hh : HInv s) {f : Frame} {fs : List Fr} (hf : s.frames = .hook f :: fs)
    {c : Ctx} {cs : List Ctx} (hst : s.stack = c :: cs) (v : Val) {X : List Ev} (hX : ∀ k, k ≠ f.fid → ∀ e ∈ X, e.mute k) :
    All2 (ROk (X ++ s.log)) ((hookFrames fs).map (slotMap v c.over)) cs := by
  have h1 := h.all
  have h2 := h.slots
  have h3 := hh.chain
  have h4 := m.fid
  have h5 := m.al.all
  rw [hf, hst] at h1 h2 h5
  rw [hf] at h3 h4
  have hcid : f.cid = c.cid := h5.top.1.1
  have := (h1.top.2.and h5.top.2).map (G := slotMap v c.over) (F := id) (Q := ROk (X ++ s.log)) ?_
  · rwa [List.map_id] at this
  intro g hg d hd ⟨k1, k2, _⟩
  have hne : g.fid ≠ f.fid := Nat.ne_of_lt ((List.pairwise_cons.1 h4).1 g hg)
  refine (k1.mute (hX _ hne)).slot v c.over ?_
  intro hr
  have hnr := Recalled.of_ext hr
  have hgc : ∀ (_ : c.refers g.fid), False := by
    intro hrf
    have e := h2 c (List.mem_cons_self ..) g (List.mem_cons_of_mem _ hg) hrf
    have := ((List.pairwise_cons.1 h3).1 g hg (by rw [hcid, e])).2
    rw [hcid, ← e, k2] at this
    exact hnr this
  exact ⟨fun e => hgc (Or.inl e), fun e => hgc (Or.inr (Or.inl e))⟩

/-- The same without a write. -/
theorem RInv.below' {E : Env} {s : St} (h : RInv s) (m : MInv E s) {f : Frame} {fs : List Fr} (hf : s.frames = .hook f :: fs)
    {c : Ctx} {cs : List Ctx} (hst : s.stack = c :: cs) {X : List Ev} (hX : ∀ k, k ≠ f.fid → ∀ e ∈ X, e.mute k) :
    All2 (ROk (X ++ s.log)) (hookFrames fs) cs := by
  have h1 := h.all
  have h4 := m.fid
  rw [hf, hst] at h1
  rw [hf] at h4
  exact h1.top.2.imp fun g hg d _ k1 => k1.mute (hX _ (Nat.ne_of_lt ((List.pairwise_cons.1 h4).1 g hg)))

/-- Slots after changing the innermost activation. -/
theorem RInv.reslot {s : St} (h : RInv s) {f : Frame} {fs : List Fr} (hf : s.frames = .hook f :: fs) {c : Ctx} {cs : List Ctx} (hst : s.stack = c :: cs)
    {f' : Frame} {c' : Ctx} {G : Frame → Frame} (hG : ∀ f, SameF f (G f)) (e1 : f'.fid = f.fid) (e2 : f'.cid = f.cid) (e3 : c'.cid = c.cid)
    (e4 : c'.over = c.over) (e5 : c'.orig = c.orig) :
    ∀ d ∈ c' :: cs, ∀ g ∈ hookFrames ((Fr.hook f' :: fs).map (frMap G)), d.refers g.fid → g.cid = d.cid := by
  have h2 := h.slots
  rw [hf, hst] at h2
  intro d hd g hg hr
  rw [hookFrames_map] at hg
  obtain ⟨g0, hg0, rfl⟩ := List.mem_map.1 hg
  rw [(hG g0).fid] at hr
  rw [(hG g0).cid]
  have key : ∀ g0 ∈ hookFrames (.hook f :: fs), d.refers g0.fid → g0.cid = d.cid := by
    rcases List.mem_cons.1 hd with rfl | hd
    · intro g0 hg0 hr
      rw [e3]
      exact h2 c (List.mem_cons_self ..) g0 hg0 (by unfold Ctx.refers at hr ⊢; rw [e4, e5] at hr; exact hr)
    · exact h2 d (List.mem_cons_of_mem _ hd)
  rcases List.mem_cons.1 hg0 with rfl | hg0
  · rw [e1] at hr; rw [e2]; exact key f (List.mem_cons_self ..) hr
  · exact key g0 (List.mem_cons_of_mem _ hg0) hr

theorem RInv.reslot' {s : St} (h : RInv s) {f : Frame} {fs : List Fr} (hf : s.frames = .hook f :: fs) {c : Ctx} {cs : List Ctx} (hst : s.stack = c :: cs)
    {f' : Frame} {c' : Ctx} (e1 : f'.fid = f.fid) (e2 : f'.cid = f.cid) (e3 : c'.cid = c.cid)
    (e4 : c'.over = c.over) (e5 : c'.orig = c.orig) :
    ∀ d ∈ c' :: cs, ∀ g ∈ hookFrames (Fr.hook f' :: fs), d.refers g.fid → g.cid = d.cid := by
  have := h.reslot hf hst (G := id) SameF.refl e1 e2 e3 e4 e5
  rwa [frMap_id (.hook f' :: fs)] at this

theorem RInv.top {E : Env} {s : St} (h : RInv s) (m : MInv E s) {f : Frame} {fs : List Fr} (hf : s.frames = .hook f :: fs) :
    ∃ c cs, s.stack = c :: cs ∧ ROk s.log f c ∧ FOk s.reg s.log f c (hookFrames fs) := by
  obtain ⟨c, cs, hst, hfo, _⟩ := m.top hf
  have h1 := h.all
  rw [hf, hst] at h1
  exact ⟨c, cs, hst, h1.top.1, hfo⟩

theorem logGot_mute (cid fid k : Nat) (g : Got) (log : List Ev) : ∃ X, logGot cid fid g log = X ++ log ∧ ∀ e ∈ X, e.mute k := by
  obtain ⟨X, h1, h2⟩ := logGot_ext' cid fid g log
  refine ⟨X, h1, fun e he => ?_⟩
  rcases h2 e he with ⟨_, _, rfl⟩ | ⟨_, _, _, rfl⟩ <;> trivial

theorem logGot_mute' (cid fid : Nat) (g : Got) (log : List Ev) : ∃ X, logGot cid fid g log = X ++ log ∧ ∀ k, ∀ e ∈ X, e.mute k := by
  obtain ⟨X, h1, h2⟩ := logGot_ext' cid fid g log
  refine ⟨X, h1, fun k e he => ?_⟩
  rcases h2 e he with ⟨_, _, rfl⟩ | ⟨_, _, _, rfl⟩ <;> trivial

theorem resolve_mute (force : Bool) (s : St) : ∃ Y, (resolve force s).log = Y ++ s.log ∧ ∀ k, ∀ e ∈ Y, e.mute k := by
  refine ⟨_, rfl, ?_⟩
  intro k e he
  obtain ⟨p, _, rfl⟩ := List.mem_map.1 (List.mem_reverse.1 he)
  trivial

/-- Ending a context adds only removal and unload events. -/
theorem popCtx_quiet (s : St) (cs : List Ctx) :
    ∃ Y, (popCtx s cs).log = Y ++ s.log ∧ ∀ e ∈ Y, (∃ v, e = Ev.freed v) ∨ ∃ p, e = Ev.ready p := by
  unfold popCtx
  have hq : ∃ Y, (match s.tasks.headD none with
    | some v => Ev.freed v :: s.log
    | none => s.log) = Y ++ s.log ∧ ∀ e ∈ Y, (∃ v, e = Ev.freed v) ∨ ∃ p, e = Ev.ready p := by
    split
    · next v _ => exact ⟨[.freed v], rfl, by intro e he; rw [List.mem_singleton.1 he]; exact Or.inl ⟨v, rfl⟩⟩
    · exact ⟨[], rfl, by simp⟩
  dsimp only
  split
  · obtain ⟨Y, h1, h2⟩ := hq
    refine ⟨((s.pend.filter fun p => false || p.2).map fun p => Ev.ready p.1).reverse ++ Y, ?_, ?_⟩
    · rw [List.append_assoc, ← h1]; rfl
    · intro e he
      rcases List.mem_append.1 he with he | he
      · obtain ⟨p, _, rfl⟩ := List.mem_map.1 (List.mem_reverse.1 he)
        exact Or.inr ⟨_, rfl⟩
      · exact h2 e he
  · exact hq

theorem popCtx_mute (s : St) (cs : List Ctx) : ∃ Y, (popCtx s cs).log = Y ++ s.log ∧ ∀ k, ∀ e ∈ Y, e.mute k := by
  obtain ⟨Y, h1, h2⟩ := popCtx_quiet s cs
  refine ⟨Y, h1, fun k e he => ?_⟩
  rcases h2 e he with ⟨_, rfl⟩ | ⟨_, rfl⟩ <;> trivial

theorem results_one (log : List Ev) (fid : Nat) (post : Bool) (res : Nat) (v : Val) :
    results (.result fid post res v :: log) fid = results log fid ++ [(post, res, v)] := by
  unfold results; simp

theorem origVals_one (log : List Ev) (fid : Nat) (v : Val) : origVals (.origRet fid v :: log) fid = v :: origVals log fid := by
  unfold origVals; simp

theorem origCalls_one (log : List Ev) (cid fid : Nat) (a : Addr) : origCalls (.origCall cid fid a :: log) fid = a :: origCalls log fid := by
  unfold origCalls; simp

theorem all_pre {rs : List (Bool × Nat × Val)} (h : ∀ x ∈ rs, x.1 = false) : preRes rs = rs := by
  unfold preRes; rw [List.filter_eq_self]; intro x hx; simp [h x hx]

theorem no_post {rs : List (Bool × Nat × Val)} (h : ∀ x ∈ rs, x.1 = false) : lastRes rs true = ignored := by
  unfold lastRes
  rw [show rs.filter (fun x => x.1 == true) = [] from by rw [List.filter_eq_nil_iff]; intro x hx; simp [h x hx]]
  rfl

/-- A handler's result is recorded. -/
theorem RBody.result {log : List Ev} {f : Frame} {c : Ctx} (h : RBody log f c) (hloc : c.locals ≠ none) {post : Bool} (hat : AtHandler post f.pt) (v : Val) (res : Nat) :
    RBody (.result f.fid post res v :: log)
      (if res ≥ override then slotMap v c.over { f with prev := res, status := max f.status res, pt := loopPt post }
       else { f with prev := res, status := max f.status res, pt := loopPt post }) c := by
  obtain ⟨a1, a2, a3, a4, a5, a6, a7, a8, a9, a10⟩ := h
  have a1 := a1.resolve_left fun h => hloc h.1
  obtain ⟨n, hn⟩ := hat
  let f1 : Frame := { f with prev := res, status := max f.status res, pt := loopPt post }
  have hgen : ∀ f2 : Frame, f2.fid = f.fid → f2.pt = loopPt post → f2.status = max f.status res → f2.prev = res → f2.orig = f.orig →
      f2.over = (if override ≤ res then v else f.over) → RBody (.result f.fid post res v :: log) f2 c := by
    intro f2 e1 e2 e3 e4 e5 e6
    have hv : origVals (.result f.fid post res v :: log) f.fid = origVals log f.fid := rfl
    have hc : origCalls (.result f.fid post res v :: log) f.fid = origCalls log f.fid := rfl
    have hl := lastRes_snoc (results log f.fid) (post, res, v)
    constructor <;> (try rw [e1]) <;> (try rw [results_one]) <;> (try rw [hv]) <;> (try rw [hc])
    · exact Or.inr a1
    · exact a2
    · exact a3
    · rw [e3, highest_snoc, a4]
    · intro w hw
      rw [lastOver_snoc] at hw
      rw [e6]
      dsimp only at hw
      split
      · next ho => rw [if_pos ho] at hw; exact Option.some.inj hw
      · next ho => rw [if_neg ho] at hw; exact a5 w hw
    · intro hp x hx
      cases post with
      | true => rw [e2] at hp; simp [loopPt, Pt.phase] at hp
      | false =>
        rcases List.mem_append.1 hx with hx | hx
        · exact a6 (by rw [hn]; simp [Pt.phase]) x hx
        · rw [List.mem_singleton.1 hx]
    · rw [e4, e2]
      cases post
      · exact ⟨fun _ => hl.symm, fun h => by simp [loopPt, Pt.phase] at h⟩
      · exact ⟨fun h => by simp [loopPt, Pt.phase] at h, fun _ => hl.symm⟩
    · intro hp
      cases post with
      | true => rw [e2] at hp; simp [loopPt, Pt.phase] at hp
      | false => exact a8 (by rw [hn]; simp [Pt.phase])
    · intro hp
      rw [e2] at hp
      cases post <;> simp [loopPt, Pt.phase] at hp
    · intro hp
      cases post with
      | false => rw [e2] at hp; simp [loopPt, Pt.phase] at hp
      | true =>
        rw [show preRes (results log f.fid ++ [(true, res, v)]) = preRes (results log f.fid) from by unfold preRes; simp [List.filter_append], e5]
        exact a10 (by rw [hn]; simp [Pt.phase])
  split
  · next ho =>
    refine hgen _ ?_ ?_ ?_ ?_ ?_ ?_
    all_goals rw [a1]; simp [slotMap, ho]
  · next ho => exact hgen _ rfl rfl rfl rfl rfl (by rw [if_neg ho])

theorem Ctx.refers_congr {c c' : Ctx} (e1 : c'.over = c.over) (e2 : c'.orig = c.orig) {k : Nat} (h : c'.refers k) : c.refers k := by
  unfold Ctx.refers at h ⊢; rw [e1, e2] at h; exact h

theorem RInv.relt {s : St} (h : RInv s) {c : Ctx} {cs : List Ctx} (hst : s.stack = c :: cs) {c' : Ctx} (e4 : c'.over = c.over) (e5 : c'.orig = c.orig) :
    ∀ d ∈ c' :: cs, ∀ k, d.refers k → k < s.next := by
  intro d hd k hr
  have := h.lt
  rw [hst] at this
  rcases List.mem_cons.1 hd with rfl | hd
  · exact this c (List.mem_cons_self ..) k (Ctx.refers_congr e4 e5 hr)
  · exact this d (List.mem_cons_of_mem _ hd) k hr

/-- A new activation and context on top. -/
theorem RInv.push {E : Env} {s : St} (m : MInv E s) (h : RInv s) {st : List Ctx} {fs : List Frame} {c : Ctx} {f : Frame}
    (hfs : ∀ g ∈ fs, ∃ g' ∈ hookFrames s.frames, g'.fid = g.fid ∧ g'.cid = g.cid) (hst : ∀ d ∈ st, ∃ d' ∈ s.stack, d'.over = d.over ∧ d'.orig = d.orig ∧ d'.cid = d.cid)
    (hf : s.next ≤ f.fid) (hcid : f.cid = c.cid)
    (hc : ∀ k, c.refers k → k = f.fid ∨ ∃ d ∈ s.stack, d.cid = c.cid ∧ d.refers k) :
    (∀ d ∈ c :: st, ∀ g ∈ f :: fs, d.refers g.fid → g.cid = d.cid) ∧ (∀ d ∈ c :: st, ∀ k, d.refers k → k < f.fid + 1) := by
  have hflt : ∀ g ∈ fs, g.fid < s.next := by
    intro g hg
    obtain ⟨g', h1, h2, _⟩ := hfs g hg
    rw [← h2]; exact m.flt g' h1
  refine ⟨?_, ?_⟩
  · intro d hd g hg hr
    rcases List.mem_cons.1 hd with rfl | hd
    · rcases List.mem_cons.1 hg with rfl | hg
      · exact hcid
      · rcases hc _ hr with e | ⟨d', h1, h2, h3⟩
        · have := hflt g hg; omega
        · obtain ⟨g', k1, k2, k3⟩ := hfs g hg
          rw [← k3, ← h2]
          exact h.slots d' h1 g' k1 (by rw [k2]; exact h3)
    · obtain ⟨d', h1, h2, h3, h4⟩ := hst d hd
      have hr' := Ctx.refers_congr h2.symm h3.symm hr
      rcases List.mem_cons.1 hg with rfl | hg
      · have := h.lt d' h1 _ hr'; omega
      · obtain ⟨g', k1, k2, k3⟩ := hfs g hg
        rw [← k3, ← h4]
        exact h.slots d' h1 g' k1 (by rw [k2]; exact hr')
  · intro d hd k hr
    rcases List.mem_cons.1 hd with rfl | hd
    · rcases hc _ hr with e | ⟨d', h1, h2, h3⟩
      · omega
      · have := h.lt d' h1 _ h3; omega
    · obtain ⟨d', h1, h2, h3, h4⟩ := hst d hd
      have := h.lt d' h1 _ (Ctx.refers_congr h2.symm h3.symm hr); omega

theorem results_new {s : St} (hh : HInv s) {k : Nat} (hk : s.next ≤ k) :
    results s.log k = [] ∧ origVals s.log k = [] ∧ origCalls s.log k = [] := by
  have hm : ∀ e ∈ s.log, e.mute k := by
    intro e he
    have := hh.log.lt e he
    cases e <;> simp only [Ev.mute] <;> intro e2 <;> have := this k (by simp [Ev.nums, e2]) <;> omega
  have h1 := results_mute (log := []) hm
  have h2 := origVals_mute (log := []) hm
  have h3 := origCalls_mute (log := []) hm
  rw [List.append_nil] at h1 h2 h3
  exact ⟨h1, h2, h3⟩

theorem RInv.step {E : Env} {s s' : St} {op : Op} (m : MInv E s) (hh : HInv s) (h : RInv s) (hok : Ok E s op) (ht : Tr E s op s') : RInv s' := by
  obtain ⟨mem0, hw, h0⟩ := m.reg.inv
  cases ht with
  | reg op r x ns hr =>
    obtain ⟨ts, log', hfe, hts, he⟩ := applyNotes_spec ns { s with reg := r }
    rw [he]
    have hq : ∃ X, (afterReg { s with reg := r, stack := s.stack.map (noteAll ns), tasks := ts, log := log' } op).log = X ++ s.log ∧
        ∀ k, ∀ e ∈ X, e.mute k := by
      obtain ⟨X, rfl, hX⟩ := hfe
      have hX' : ∀ k, ∀ e ∈ X, e.mute k := by
        intro k e he; obtain ⟨v, rfl⟩ := hX e he; trivial
      unfold afterReg
      split
      · next p =>
        split
        · refine ⟨.ready p :: .request p :: X, rfl, ?_⟩
          intro k e he
          rcases List.mem_cons.1 he with rfl | he
          · trivial
          rcases List.mem_cons.1 he with rfl | he
          · trivial
          exact hX' k e he
        · refine ⟨.request p :: X, rfl, ?_⟩
          intro k e he
          rcases List.mem_cons.1 he with rfl | he
          · trivial
          exact hX' k e he
      · exact ⟨X, rfl, hX'⟩
    have hsame : (afterReg { s with reg := r, stack := s.stack.map (noteAll ns), tasks := ts, log := log' } op).stack = s.stack.map (noteAll ns) ∧
        (afterReg { s with reg := r, stack := s.stack.map (noteAll ns), tasks := ts, log := log' } op).frames = s.frames ∧
        (afterReg { s with reg := r, stack := s.stack.map (noteAll ns), tasks := ts, log := log' } op).next = s.next := by
      unfold afterReg
      split
      · split <;> exact ⟨rfl, rfl, rfl⟩
      · exact ⟨rfl, rfl, rfl⟩
    show RInv (afterReg { s with reg := r, stack := s.stack.map (noteAll ns), tasks := ts, log := log' } op)
    generalize afterReg { s with reg := r, stack := s.stack.map (noteAll ns), tasks := ts, log := log' } op = s' at hq hsame
    obtain ⟨e2, e4, e5⟩ := hsame
    obtain ⟨X, hX, hX'⟩ := hq
    refine ⟨?_, ?_, ?_⟩
    · rw [e2, e4]
      intro c hc g hg hr
      obtain ⟨d, hd, rfl⟩ := List.mem_map.1 hc
      have hn := noteAll_frame ns d
      rw [hn.cid]
      exact h.slots d hd g hg (Ctx.refers_congr hn.over hn.orig hr)
    · rw [e2, e5]
      intro c hc k hr
      obtain ⟨d, hd, rfl⟩ := List.mem_map.1 hc
      have hn := noteAll_frame ns d
      exact h.lt d hd k (Ctx.refers_congr hn.over hn.orig hr)
    · rw [e2, e4, hX]
      have := h.all.map (G := id) (F := noteAll ns) (Q := ROk (X ++ s.log)) ?_
      · rwa [List.map_id] at this
      intro f hf c hc h1
      have hn := noteAll_frame ns c
      exact (h1.mute (hX' _)).ctx hn.cid hn.locals hn.over hn.orig hn.callOrig
  | poke a val => exact ⟨h.slots, h.lt, h.all⟩
  | plain p this hp => exact h
  | call v this hv hwr =>
    obtain ⟨k1, k2⟩ := h.push m (c := freshCtx s.next v this) (f := freshFrame s.next s.next s.stack.length ignored v)
      (fun g hg => ⟨g, hg, rfl, rfl⟩) (fun d hd => ⟨d, hd, rfl, rfl, rfl⟩) (Nat.le_refl _) rfl (by
        intro k hk; left
        rcases hk with e | e | e | e <;> cases e <;> rfl)
    refine ⟨k1, k2, .cons ⟨fun hp => (nomatch hp), fun _ => ?_⟩ (h.all.imp fun f _ c _ k => k.mute (X := [_]) (by simp [Ev.mute]))⟩
    obtain ⟨n1, n2, n3⟩ := results_new hh (Nat.le_refl _)
    have e1 := (results_mute (X := [Ev.enter s.next s.next (some v.ptr) this]) (log := s.log) (fid := s.next) (by simp [Ev.mute])).trans n1
    have e2 := (origVals_mute (X := [Ev.enter s.next s.next (some v.ptr) this]) (log := s.log) (fid := s.next) (by simp [Ev.mute])).trans n2
    have e3 := (origCalls_mute (X := [Ev.enter s.next s.next (some v.ptr) this]) (log := s.log) (fid := s.next) (by simp [Ev.mute])).trans n3
    simp only [List.singleton_append] at e1 e2 e3
    constructor <;> (try simp only [freshFrame]) <;> (try rw [e1]) <;> (try rw [e2]) <;> (try rw [e3])
    · exact Or.inr rfl
    · rfl
    · rfl
    · rfl
    · intro v hv; cases hv
    · intro _ x hx; cases hx
    · exact ⟨fun _ => rfl, fun _ => rfl⟩
    · exact fun _ => ⟨rfl, rfl⟩
    · intro hp; cases hp
    · intro hp; cases hp
  | shCall v this hv hwr =>
    obtain ⟨k1, k2⟩ := h.push m (c := shCtx s.next v) (f := freshFrame (s.next + 1) s.next s.stack.length ignored v)
      (fun g hg => ⟨g, hg, rfl, rfl⟩) (fun d hd => ⟨d, hd, rfl, rfl, rfl⟩) (Nat.le_succ _) rfl (by
        intro k hk; left
        rcases hk with e | e | e | e <;> cases e <;> rfl)
    refine ⟨k1, k2, .cons ⟨fun hp => (nomatch hp), fun _ => ?_⟩ (h.all.imp fun f _ c _ k => k.mute (X := [_]) (by simp [Ev.mute]))⟩
    obtain ⟨n1, n2, n3⟩ := results_new hh (Nat.le_succ _)
    have e1 := (results_mute (X := [Ev.shEnter s.next (s.next + 1) (some v.ptr) this]) (log := s.log) (fid := s.next + 1) (by simp [Ev.mute])).trans n1
    have e2 := (origVals_mute (X := [Ev.shEnter s.next (s.next + 1) (some v.ptr) this]) (log := s.log) (fid := s.next + 1) (by simp [Ev.mute])).trans n2
    have e3 := (origCalls_mute (X := [Ev.shEnter s.next (s.next + 1) (some v.ptr) this]) (log := s.log) (fid := s.next + 1) (by simp [Ev.mute])).trans n3
    simp only [List.singleton_append] at e1 e2 e3
    constructor <;> (try simp only [freshFrame]) <;> (try rw [e1]) <;> (try rw [e2]) <;> (try rw [e3])
    · exact Or.inl ⟨rfl, rfl⟩
    · rfl
    · rfl
    · rfl
    · intro v hv; cases hv
    · intro _ x hx; cases hx
    · exact ⟨fun _ => rfl, fun _ => rfl⟩
    · exact fun _ => ⟨rfl, rfl⟩
    · intro hp; cases hp
    · intro hp; cases hp
  | shEnd fs hf =>
    have h1 := h.slots; have h2 := h.all
    rw [hf] at h1 h2
    exact ⟨h1, h.lt, h2⟩
  | setRes res f fs hf =>
    obtain ⟨c, cs, hst, hro, hfo⟩ := h.top m hf
    refine ⟨?_, h.lt, ?_⟩
    · show ∀ d ∈ s.stack, _
      rw [hst]; exact h.reslot' hf hst rfl rfl rfl rfl rfl
    · show All2 _ _ s.stack
      rw [hst]
      exact .cons (hro.same rfl rfl rfl rfl rfl rfl) (h.below' m hf hst (X := []) (by simp))
  | recall res val v f fs c cs hf hst hv hcv =>
    obtain ⟨c1, cs1, hst1, hro, hfo⟩ := h.top m hf
    rw [hst] at hst1; cases hst1
    let f1 : Frame := { f with cur := res, status := max f.status res, pt := recPt f.pt }
    let X : List Ev := [.recall c.cid f.fid s.next (max f.status res)]
    have hrc : Recalled (X ++ s.log) c.cid := ⟨f.fid, s.next, max f.status res, List.mem_cons_self ..⟩
    obtain ⟨G, hG, heq, hbel⟩ : ∃ G : Frame → Frame, (∀ f, SameF f (G f)) ∧
        (if res ≥ override then setSlot (.hook f1 :: fs) val c.over else .hook f1 :: fs) = (Fr.hook f1 :: fs).map (frMap G) ∧
        All2 (ROk (X ++ s.log)) ((hookFrames fs).map G) cs := by
      split
      · exact ⟨slotMap val c.over, slotMap_same _ _, setSlot_eq _ _ _, h.below m hh hf hst val (by simp [X, Ev.mute])⟩
      · refine ⟨id, SameF.refl, (frMap_id _).symm, ?_⟩
        rw [List.map_id]; exact h.below' m hf hst (by simp [X, Ev.mute])
    have hfr : hookFrames (if res ≥ override then setSlot (.hook f1 :: fs) val c.over else .hook f1 :: fs) = G f1 :: (hookFrames fs).map G := by
      rw [heq, hookFrames_map]; rfl
    obtain ⟨k1, k2⟩ := h.push m (c := recCtx s.next c v c.this (max f.status res)) (st := { c with st := .dead } :: cs)
      (fs := hookFrames (if res ≥ override then setSlot (.hook f1 :: fs) val c.over else .hook f1 :: fs))
      (f := freshFrame s.next c.cid (cs.length + 1) (max f.status res) v) (by
        intro g hg
        rw [hfr] at hg
        rcases List.mem_cons.1 hg with rfl | hg
        · exact ⟨f, by rw [hf]; exact List.mem_cons_self .., (hG f1).fid.symm, (hG f1).cid.symm⟩
        · obtain ⟨g0, hg0, rfl⟩ := List.mem_map.1 hg
          exact ⟨g0, by rw [hf]; exact List.mem_cons_of_mem _ hg0, (hG g0).fid.symm, (hG g0).cid.symm⟩) (by
        intro d hd
        rcases List.mem_cons.1 hd with rfl | hd
        · exact ⟨c, by rw [hst]; exact List.mem_cons_self .., rfl, rfl, rfl⟩
        · exact ⟨d, by rw [hst]; exact List.mem_cons_of_mem _ hd, rfl, rfl, rfl⟩) (Nat.le_refl _) rfl (by
        intro k hk
        have hcm : c ∈ s.stack := by rw [hst]; exact List.mem_cons_self ..
        unfold Ctx.refers recCtx at hk
        dsimp only at hk
        have hco : ∀ sl, sl = some (Slot.over k) ∨ sl = some (Slot.orig k) → sl = c.orig ∨ sl = c.over → ∃ d ∈ s.stack, d.cid = c.cid ∧ d.refers k := by
          intro sl h1 h2
          refine ⟨c, hcm, rfl, ?_⟩
          unfold Ctx.refers
          rcases h2 with rfl | rfl <;> rcases h1 with e | e <;> simp [e]
        have key : (∀ k, ((if (c.st.toRecall.isPostRecall = true ∧ max f.status res < override) then c.orig else c.over) = some (Slot.over k) ∨
            (if (c.st.toRecall.isPostRecall = true ∧ max f.status res < override) then c.orig else c.over) = some (Slot.orig k)) →
            (if (c.st.toRecall.isPostRecall = true ∧ max f.status res < override) then c.orig else c.over) = c.orig ∨
            (if (c.st.toRecall.isPostRecall = true ∧ max f.status res < override) then c.orig else c.over) = c.over) := by
          intro _ _; split <;> simp
        by_cases hpr : c.st.toRecall.isPostRecall = true
        · right
          rw [if_pos hpr] at hk
          rcases hk with e | e | e | e
          · exact hco _ (Or.inl e) (key k (Or.inl e))
          · exact hco _ (Or.inr e) (key k (Or.inr e))
          · exact hco _ (Or.inl e) (Or.inl rfl)
          · exact hco _ (Or.inr e) (Or.inl rfl)
        · rw [if_neg hpr] at hk
          rcases hk with e | e | e | e
          · exact Or.inr (hco _ (Or.inl e) (key k (Or.inl e)))
          · exact Or.inr (hco _ (Or.inr e) (key k (Or.inr e)))
          · cases e
          · left; cases e; rfl)
    refine ⟨k1, k2, ?_⟩
    refine .cons ⟨fun _ => hrc, fun hn => absurd hrc hn⟩ ?_
    show All2 (ROk (X ++ s.log)) (hookFrames (if res ≥ override then setSlot (.hook f1 :: fs) val c.over else .hook f1 :: fs)) ({ c with st := .dead } :: cs)
    rw [hfr]
    exact .cons ⟨fun _ => hrc, fun hn => absurd hrc hn⟩ hbel
  | recallRet f fs c cs post v hf hst hat =>
    obtain ⟨c1, cs1, hst1, hro, hfo⟩ := h.top m hf
    rw [hst] at hst1; cases hst1
    have hrc : Recalled (Ev.result f.fid post supercede v :: s.log) c.cid := by
      refine (hro.wait ?_).mono (X := [_])
      obtain ⟨n, hn⟩ := hat
      rw [hn]; cases post <;> rfl
    refine ⟨?_, h.lt, ?_⟩
    · show ∀ d ∈ s.stack, ∀ g ∈ hookFrames (setSlot _ _ _), _
      rw [hst, setSlot_eq]; exact h.reslot hf hst (slotMap_same _ _) rfl rfl rfl rfl rfl
    · show All2 _ (hookFrames (setSlot _ _ _)) s.stack
      rw [hst, setSlot_eq, hookFrames_map]
      exact .cons ⟨fun _ => hrc, fun hn => absurd hrc hn⟩ (h.below m hh hf hst v (X := [_]) (by
        intro k hk e he; rw [List.mem_singleton.1 he]; exact fun e => hk e.symm))
  | tickHook f fs c cs g grp hk post hf hst hpt hg hgh =>
    obtain ⟨c1, cs1, hst1, hro, hfo⟩ := h.top m hf
    rw [hst] at hst1; cases hst1
    obtain ⟨kc, _, _⟩ := getNext_any' hw.s hfo.ctxOk f.fid hg
    obtain ⟨X, e1, e2⟩ := logGot_mute' f.cid f.fid g s.log
    refine ⟨h.reslot' hf hst rfl rfl kc.cid kc.over kc.orig, h.relt hst kc.over kc.orig, ?_⟩
    show All2 (ROk (logGot f.cid f.fid g s.log)) _ _
    rw [e1]
    refine .cons (((hro.mute (e2 _)).ctx kc.cid kc.locals kc.over kc.orig kc.callOrig).same rfl ?_ rfl rfl rfl rfl) (h.below' m hf hst fun k _ => e2 k)
    rw [hpt]; cases post <;> rfl
  | tickOrig f fs c cs g a hf hst hpt hg hgh hns hco hfa =>
    obtain ⟨c1, cs1, hst1, hro, hfo⟩ := h.top m hf
    rw [hst] at hst1; cases hst1
    obtain ⟨kc, _, _⟩ := getNext_any' hw.s hfo.ctxOk f.fid hg
    obtain ⟨X, e1, e2⟩ := logGot_mute' f.cid f.fid g s.log
    refine ⟨h.reslot' hf hst rfl rfl kc.cid kc.over kc.orig, h.relt hst kc.over kc.orig, ?_⟩
    show All2 (ROk (.origCall f.cid f.fid a :: logGot f.cid f.fid g s.log)) _ _
    rw [e1]
    refine .cons ?_ (h.below' m hf hst (X := .origCall f.cid f.fid a :: X) ?_)
    · have h1 := ((hro.mute (e2 _)).ctx kc.cid kc.locals kc.over kc.orig kc.callOrig)
      refine ⟨fun hp => (nomatch hp), fun hr => ?_⟩
      obtain ⟨a1, a2, a3, a4, a5, a6, a7, a8, a9, a10⟩ := h1.body (Recalled.of_ext (X := [_]) hr)
      have hle := (hh.le f (by rw [hf]; exact List.mem_cons_self ..)).1
      have hlt : f.status < supercede := by unfold supercede at hns ⊢; omega
      have hp0 : f.pt.phase = 0 := by rw [hpt]; rfl
      have hr' : results (.origCall f.cid f.fid a :: (X ++ s.log)) f.fid = results (X ++ s.log) f.fid := rfl
      have hv' : origVals (.origCall f.cid f.fid a :: (X ++ s.log)) f.fid = origVals (X ++ s.log) f.fid := rfl
      constructor
      · exact a1
      · exact a2
      · exact a3
      · exact a4
      · exact a5
      · intro _; exact a6 (by rw [hp0]; decide)
      · exact ⟨fun h => (nomatch h), fun h => (nomatch h)⟩
      · exact fun h => (nomatch h)
      · intro _
        refine ⟨?_, (a8 hp0).2, hlt⟩
        show (origCalls (.origCall f.cid f.fid a :: (X ++ s.log)) f.fid).length = 1
        rw [origCalls_one, (a8 hp0).1]; rfl
      · exact fun h => (nomatch h)
    · intro k hk e he
      rcases List.mem_cons.1 he with rfl | he
      · exact fun e => hk e.symm
      · exact e2 k e he
  | tickSkip f fs c cs g hf hst hpt hg hgh hns =>
    obtain ⟨c1, cs1, hst1, hro, hfo⟩ := h.top m hf
    rw [hst] at hst1; cases hst1
    obtain ⟨kc, _, _⟩ := getNext_any' hw.s hfo.ctxOk f.fid hg
    obtain ⟨X, e1, e2⟩ := logGot_mute' f.cid f.fid g s.log
    refine ⟨h.reslot' hf hst rfl rfl kc.cid kc.over kc.orig, h.relt hst kc.over kc.orig, ?_⟩
    show All2 (ROk (logGot f.cid f.fid g s.log)) _ _
    rw [e1]
    refine .cons ?_ (h.below' m hf hst fun k _ => e2 k)
    have h1 := ((hro.mute (e2 _)).ctx kc.cid kc.locals kc.over kc.orig kc.callOrig)
    refine ⟨fun hp => (nomatch hp), fun hr => ?_⟩
    obtain ⟨a1, a2, a3, a4, a5, a6, a7, a8, a9, a10⟩ := h1.body hr
    have hp0 : f.pt.phase = 0 := by rw [hpt]; rfl
    have hpre := a6 (by rw [hp0]; decide)
    have hst3 : f.status = supercede := by
      by_cases e : f.status = supercede
      · exact e
      · exact absurd ⟨e, a3⟩ hns
    constructor
    · exact a1
    · exact a2
    · exact a3
    · exact a4
    · exact a5
    · exact fun h => absurd h (by simp [Pt.phase])
    · exact ⟨fun h => (nomatch h), fun _ => (no_post hpre).symm⟩
    · exact fun h => (nomatch h)
    · exact fun h => (nomatch h)
    · intro _
      right
      refine ⟨(a8 hp0).1, (a8 hp0).2, ?_, ?_⟩
      · show highest (preRes (results (X ++ s.log) f.fid)) = _
        rw [all_pre hpre, ← a4, hst3]
      · show lastOver (preRes (results (X ++ s.log) f.fid)) = some f.over
        rw [all_pre hpre]
        obtain ⟨v, hv⟩ := lastOver_some (results (X ++ s.log) f.fid) (by rw [← a4, hst3]; decide)
        rw [hv, a5 v hv]
  | tickRet f fs c cs g v s2 hf hst hpt hg hgh hv hs2 =>
    obtain ⟨p1, p2, p3, p4, p5, p6⟩ := popCtx_spec { s with log := logGot f.cid f.fid g s.log } cs
    obtain ⟨Y, y1, y2⟩ := popCtx_mute { s with log := logGot f.cid f.fid g s.log } cs
    rw [← hs2] at p2 p4 y1
    obtain ⟨X, e1, e2⟩ := logGot_mute' f.cid f.fid g s.log
    have h2 := h.slots
    have h3 := h.lt
    have h4 := h.below' m hf hst (X := .ret f.cid f.fid v :: (Y ++ X)) (by
      intro k _ e he
      rcases List.mem_cons.1 he with rfl | he
      · trivial
      rcases List.mem_append.1 he with he | he
      · exact y2 k e he
      · exact e2 k e he)
    have hlog : Ev.ret f.cid f.fid v :: s2.log = .ret f.cid f.fid v :: (Y ++ X) ++ s.log := by
      rw [y1]; show _ :: (Y ++ logGot f.cid f.fid g s.log) = _
      rw [e1]; simp
    rw [← hlog] at h4
    rw [hf] at h2
    rw [hst] at h2 h3
    refine ⟨?_, ?_, ?_⟩
    · show ∀ d ∈ s2.stack, ∀ q ∈ hookFrames (handBack v fs), _
      rw [p2]
      intro d hd q hq hr
      have hb : ∀ q ∈ hookFrames (handBack v fs), ∃ q' ∈ hookFrames fs, q'.fid = q.fid ∧ q'.cid = q.cid := by
        rcases handBack_cases v fs with e | ⟨p, fs', rfl, ⟨n, _, e⟩ | ⟨n, _, e⟩⟩
        · rw [e]; exact fun q hq => ⟨q, hq, rfl, rfl⟩
        all_goals
          rw [e]
          intro q hq
          rcases List.mem_cons.1 hq with rfl | hq
          · exact ⟨p, List.mem_cons_self .., rfl, rfl⟩
          · exact ⟨q, List.mem_cons_of_mem _ hq, rfl, rfl⟩
      obtain ⟨q', hq', i1, i2⟩ := hb q hq
      rw [← i2]
      exact h2 d (List.mem_cons_of_mem _ hd) q' (List.mem_cons_of_mem _ hq') (by rw [i1]; exact hr)
    · show ∀ d ∈ s2.stack, ∀ k, _ → k < s2.next
      rw [p2, p4]
      exact fun d hd => h3 d (List.mem_cons_of_mem _ hd)
    · show All2 (ROk (.ret f.cid f.fid v :: s2.log)) (hookFrames (handBack v fs)) s2.stack
      rw [p2]
      rcases handBack_cases v fs with e | ⟨p, fs', rfl, ⟨n, hp, e⟩ | ⟨n, hp, e⟩⟩
      · rw [e]; exact h4
      all_goals
        rw [e]
        cases h4 with
        | cons k1 k2 => exact .cons (k1.same rfl (by rw [hp]; rfl) rfl rfl rfl rfl) k2
  | handlerRet v f fs c cs post hf hst hat =>
    obtain ⟨c1, cs1, hst1, hro, hfo⟩ := h.top m hf
    rw [hst] at hst1; cases hst1
    let f1 : Frame := { f with prev := f.cur, status := max f.status f.cur, pt := loopPt post }
    have hX : ∀ k, k ≠ f.fid → ∀ e ∈ [Ev.result f.fid post f.cur v], e.mute k := by
      intro k hk e he; rw [List.mem_singleton.1 he]; exact fun e => hk e.symm
    have htop : ROk (.result f.fid post f.cur v :: s.log) (if f.cur ≥ override then slotMap v c.over f1 else f1) c := by
      refine ⟨fun hp => ?_, fun hr => ?_⟩
      · exfalso
        have : (if f.cur ≥ override then slotMap v c.over f1 else f1).pt = loopPt post := by
          split
          · exact (slotMap_same v c.over f1).pt
          · rfl
        rw [this] at hp
        cases post <;> cases hp
      · refine (hro.body (Recalled.of_ext (X := [_]) hr)).result ?_ hat v f.cur
        rcases hfo.kind with e | e
        · rcases e.2.2.2.2.2 with e | e | e
          · exact absurd e hat.ne.1
          · exact absurd e hat.ne.2.1
          · exact absurd e hat.ne.2.2
        · rw [e.1]; simp
    by_cases ho : f.cur ≥ override
    · rw [if_pos ho] at htop
      have he : (if f.cur ≥ override then setSlot (.hook f1 :: fs) v c.over else .hook f1 :: fs) = (Fr.hook f1 :: fs).map (frMap (slotMap v c.over)) := by
        rw [if_pos ho, setSlot_eq]
      refine ⟨?_, h.lt, ?_⟩
      · show ∀ d ∈ s.stack, ∀ q ∈ hookFrames (if f.cur ≥ override then setSlot (.hook f1 :: fs) v c.over else .hook f1 :: fs), _
        rw [he, hst]
        exact h.reslot hf hst (slotMap_same _ _) rfl rfl rfl rfl rfl
      · show All2 _ (hookFrames (if f.cur ≥ override then setSlot (.hook f1 :: fs) v c.over else .hook f1 :: fs)) s.stack
        rw [he, hst, hookFrames_map]
        exact .cons htop (h.below m hh hf hst v hX)
    · rw [if_neg ho] at htop
      have he : (if f.cur ≥ override then setSlot (.hook f1 :: fs) v c.over else .hook f1 :: fs) = Fr.hook f1 :: fs := if_neg ho
      refine ⟨?_, h.lt, ?_⟩
      · show ∀ d ∈ s.stack, ∀ q ∈ hookFrames (if f.cur ≥ override then setSlot (.hook f1 :: fs) v c.over else .hook f1 :: fs), _
        rw [he, hst]
        exact h.reslot' hf hst rfl rfl rfl rfl rfl
      · show All2 _ (hookFrames (if f.cur ≥ override then setSlot (.hook f1 :: fs) v c.over else .hook f1 :: fs)) s.stack
        rw [he, hst]
        exact .cons htop (h.below' m hf hst hX)
  | origRet v f fs hf hpt =>
    obtain ⟨c, cs, hst, hro, hfo⟩ := h.top m hf
    refine ⟨?_, h.lt, ?_⟩
    · show ∀ d ∈ s.stack, _
      rw [hst]; exact h.reslot' hf hst rfl rfl rfl rfl rfl
    · show All2 _ _ s.stack
      rw [hst]
      refine .cons ⟨fun hp => (nomatch hp), fun hr => ?_⟩ (h.below' m hf hst (X := [.origRet f.fid v]) (by
        intro k hk e he; rw [List.mem_singleton.1 he]; exact fun e => hk e.symm))
      obtain ⟨a1, a2, a3, a4, a5, a6, a7, a8, a9, a10⟩ := hro.body (Recalled.of_ext (X := [_]) hr)
      have hp1 : f.pt.phase = 1 := by rw [hpt]; rfl
      have hpre := a6 (by rw [hp1]; decide)
      obtain ⟨b1, b2, b3⟩ := a9 hp1
      constructor
      · exact a1
      · exact a2
      · exact a3
      · exact a4
      · exact a5
      · exact fun h => absurd h (by simp [Pt.phase])
      · exact ⟨fun h => (nomatch h), fun _ => (no_post hpre).symm⟩
      · exact fun h => (nomatch h)
      · exact fun h => (nomatch h)
      · intro _
        left
        refine ⟨b1, ?_, ?_⟩
        · show origVals (.origRet f.fid v :: s.log) f.fid = [v]
          rw [origVals_one, b2]
        · show highest (preRes (results s.log f.fid)) < _
          rw [all_pre hpre, ← a4]; exact b3
  | resolve force =>
    obtain ⟨Y, h1, h2⟩ := resolve_mute force s
    refine ⟨h.slots, h.lt, ?_⟩
    rw [h1]
    exact h.all.imp fun f _ c _ k => k.mute (h2 _)

theorem RInv.init (mem0 : Addr → Addr) : RInv { reg := { mem := mem0 } } :=
  ⟨(by intro c hc; cases hc), (by intro c hc; cases hc), .nil⟩

theorem LReach.res {E : Env} (hE : EnvOk E) {s : St} (h : LReach E s) : RInv s := by
  induction h with
  | init mem0 h0 => exact RInv.init mem0
  | step h1 h2 h3 ih => exact ih.step (h1.inv hE) (h1.hist hE) h2 (h1.tr hE h2 h3)

end Verif.SH
