import Verif.SH.LoopNest
/-
C14: when a plugin whose unloading was requested is released (`ReadyToUnload`).
-/
namespace Verif.SH

/-- The notices about unloading in the history: `(false, p)` = UnloadPlugin(p) was called, `(true, p)` = its
listener was told that p is ready to unload. -/
def notices (log : List Ev) : List (Bool × Plugin) :=
  log.filterMap fun e => match e with
    | .request p => some (false, p)
    | .ready p => some (true, p)
    | _ => none

/-- How often UnloadPlugin(p) was called. -/
def requests (log : List Ev) (p : Plugin) : Nat := (notices log).count (false, p)

/-- How often p was released. -/
def releases (log : List Ev) (p : Plugin) : Nat := (notices log).count (true, p)

/-- Requests for p that wait. -/
def waiting (s : St) (p : Plugin) : Nat := (s.pend.map (·.1)).count p

/-- Effects of a step on unload requests. -/
inductive UEff (s : St) (op : Op) (s' : St) : Prop
  | none : (∀ p, op ≠ .reg (.unload p)) → (s'.stack = [] → s.stack = []) → s'.pend = s.pend → notices s'.log = notices s.log → UEff s op s'
  | drain : s.stack ≠ [] → s'.stack = [] → s'.pend = (s.pend.filter fun x => !x.2).map (fun x => (x.1, true)) →
      notices s'.log = ((s.pend.filter fun x => x.2).map fun x => (true, x.1)).reverse ++ notices s.log → UEff s op s'
  | force : op = .resolve true → (s'.stack = [] ↔ s.stack = []) → s'.pend = [] →
      notices s'.log = (s.pend.map fun x => (true, x.1)).reverse ++ notices s.log → UEff s op s'
  | now (p : Plugin) : op = .reg (.unload p) → s.stack = [] → s'.stack = [] → s'.pend = s.pend →
      notices s'.log = (true, p) :: (false, p) :: notices s.log → UEff s op s'
  | later (p : Plugin) : op = .reg (.unload p) → s.stack ≠ [] → s'.stack ≠ [] → s'.pend = s.pend ++ [(p, false)] →
      notices s'.log = (false, p) :: notices s.log → UEff s op s'

theorem notices_append (X log : List Ev) : notices (X ++ log) = notices X ++ notices log := List.filterMap_append ..

theorem notices_freed {X : List Ev} (h : ∀ e ∈ X, ∃ v, e = Ev.freed v) : notices X = [] := by
  unfold notices
  rw [List.filterMap_eq_nil_iff]
  intro e he
  obtain ⟨v, rfl⟩ := h e he; rfl

theorem notices_logGot (cid fid : Nat) (g : Got) (log : List Ev) : notices (logGot cid fid g log) = notices log := by
  have h1 : notices ((g.skipped.map fun x => Ev.skip cid x.1 x.2).reverse ++ log) = notices log := by
    rw [notices_append]
    have : notices (g.skipped.map fun x => Ev.skip cid x.1 x.2).reverse = [] := by
      unfold notices
      rw [List.filterMap_eq_nil_iff]
      intro e he
      obtain ⟨x, _, rfl⟩ := List.mem_map.1 (List.mem_reverse.1 he)
      rfl
    rw [this]; rfl
  unfold logGot
  split
  · exact h1
  · exact h1

theorem notices_ready (ps : List Plugin) : notices (ps.map Ev.ready) = ps.map fun p => (true, p) := by
  induction ps with
  | nil => rfl
  | cons p ps ih => exact congrArg ((true, p) :: ·) ih

theorem applyNotes_pend (ns : List Note) (s : St) : (applyNotes s ns).pend = s.pend := by
  obtain ⟨_, _, _, _, e⟩ := applyNotes_spec ns s
  rw [e]

theorem popCtx_effect (s : St) (cs : List Ctx) : (popCtx s cs).stack = cs ∧
    (cs = [] → (popCtx s cs).pend = (s.pend.filter fun x => !x.2).map (fun x => (x.1, true)) ∧
      notices (popCtx s cs).log = ((s.pend.filter fun x => x.2).map fun x => (true, x.1)).reverse ++ notices s.log) ∧
    (cs ≠ [] → (popCtx s cs).pend = s.pend ∧ notices (popCtx s cs).log = notices s.log) := by
  have hq : notices (match s.tasks.headD none with
      | some v => Ev.freed v :: s.log
      | none => s.log) = notices s.log := by split <;> rfl
  refine ⟨(popCtx_spec s cs).2.1, ?_, ?_⟩
  · intro hcs
    unfold popCtx
    dsimp only
    by_cases hp : s.pend = []
    · rw [if_neg (by rintro ⟨_, h⟩; exact h hp)]
      refine ⟨?_, ?_⟩
      · show s.pend = _
        rw [hp]; rfl
      · show notices (match s.tasks.headD none with
          | some v => Ev.freed v :: s.log
          | none => s.log) = _
        rw [hq, hp]; rfl
    · rw [if_pos ⟨hcs, hp⟩]
      refine ⟨?_, ?_⟩
      · show (s.pend.filter fun p => !false && !p.2).map _ = _
        rfl
      · show notices (((s.pend.filter fun p => false || p.2).map fun p => Ev.ready p.1).reverse ++ (match s.tasks.headD none with
          | some v => Ev.freed v :: s.log
          | none => s.log)) = _
        rw [notices_append, hq]
        congr 1
        have : ((s.pend.filter fun p => false || p.2).map fun p => Ev.ready p.1).reverse =
            ((s.pend.filter fun p => p.2).map (·.1)).reverse.map Ev.ready := by
          rw [← List.map_reverse, ← List.map_reverse, List.map_map]; rfl
        rw [this, notices_ready, ← List.map_reverse, ← List.map_reverse, List.map_map]
        rfl
  · intro hcs
    unfold popCtx
    dsimp only
    rw [if_neg (by rintro ⟨h, _⟩; exact hcs h)]
    exact ⟨rfl, hq⟩

theorem Tr.ueff {E : Env} {s s' : St} {op : Op} (ht : Tr E s op s') (hok : Ok E s op) : UEff s op s' := by
  cases ht with
  | reg op r x ns hrr =>
    obtain ⟨ts, log', ⟨X, hX, hXf⟩, hts, he⟩ := applyNotes_spec ns { s with reg := r }
    have hlog : notices log' = notices s.log := by rw [hX, notices_append, notices_freed hXf]; rfl
    rw [he]
    by_cases hu : ∃ p, op = .unload p
    · obtain ⟨p, rfl⟩ := hu
      by_cases hs : s.stack = []
      · have e : afterReg { s with reg := r, stack := s.stack.map (noteAll ns), tasks := ts, log := log' } (.unload p) =
            { s with reg := r, stack := s.stack.map (noteAll ns), tasks := ts, log := .ready p :: .request p :: log' } := by
          unfold afterReg; dsimp only; rw [if_pos (by rw [hs]; rfl)]
        rw [e]
        exact .now p rfl hs (by show s.stack.map _ = []; rw [hs]; rfl) rfl (congrArg (fun l => (true, p) :: (false, p) :: l) hlog)
      · have hs' : s.stack.map (noteAll ns) ≠ [] := fun e => hs (List.map_eq_nil_iff.1 e)
        have e : afterReg { s with reg := r, stack := s.stack.map (noteAll ns), tasks := ts, log := log' } (.unload p) =
            { s with reg := r, stack := s.stack.map (noteAll ns), tasks := ts, pend := s.pend ++ [(p, false)], log := .request p :: log' } := by
          unfold afterReg; dsimp only; rw [if_neg hs']
        rw [e]
        exact .later p rfl hs hs' rfl (congrArg (fun l => (false, p) :: l) hlog)
    · have e : afterReg { s with reg := r, stack := s.stack.map (noteAll ns), tasks := ts, log := log' } op =
          { s with reg := r, stack := s.stack.map (noteAll ns), tasks := ts, log := log' } := by
        unfold afterReg
        split
        · next p => exact absurd ⟨p, rfl⟩ hu
        · rfl
      rw [e]
      exact .none (fun p e => hu ⟨p, by cases e; rfl⟩) (fun h => List.map_eq_nil_iff.1 h) rfl hlog
  | tickHook f fs c cs g grp h post hf hs => exact .none nofun nofun rfl (notices_logGot ..)
  | tickOrig f fs c cs g a hf hs => exact .none nofun nofun rfl (notices_logGot ..)
  | tickSkip f fs c cs g hf hs => exact .none nofun nofun rfl (notices_logGot ..)
  | tickRet f fs c cs g v s2 hf hs hpt hg hh hv hs2 =>
    obtain ⟨h1, h2, h3⟩ := popCtx_effect { s with log := logGot f.cid f.fid g s.log } cs
    rw [← hs2] at h1 h2 h3
    have hl : notices (logGot f.cid f.fid g s.log) = notices s.log := notices_logGot ..
    by_cases hcs : cs = []
    · refine .drain (by rw [hs]; simp) (h1.trans hcs) (h2 hcs).1 ?_
      exact (show notices s2.log = _ from (h2 hcs).2.trans (congrArg _ hl))
    · refine .none nofun (fun h => absurd (h1.symm.trans h) hcs) (h3 hcs).1 ?_
      exact (show notices s2.log = _ from (h3 hcs).2.trans hl)
  | resolve force =>
    have hf : force = true := hok.2
    subst hf
    refine .force rfl Iff.rfl ?_ ?_
    · show (s.pend.filter fun p => !true && !p.2).map _ = []
      rw [List.filter_eq_nil_iff.2 (by simp)]; rfl
    · show notices (((s.pend.filter fun p => true || p.2).map fun p => Ev.ready p.1).reverse ++ s.log) = _
      rw [notices_append, List.filter_eq_self.2 (by simp)]
      congr 1
      have : (s.pend.map fun p => Ev.ready p.1).reverse = (s.pend.map (·.1)).reverse.map Ev.ready := by
        rw [← List.map_reverse, ← List.map_reverse, List.map_map]; rfl
      rw [this, notices_ready, ← List.map_reverse, ← List.map_reverse, List.map_map]
      rfl
  | recallRet f fs c cs post v hf hs => exact .none nofun (fun h => h) rfl rfl
  | handlerRet v f fs c cs post hf hs => exact .none nofun (fun h => h) rfl rfl
  | _ => first | exact .none nofun (fun h => h) rfl rfl | exact .none nofun nofun rfl rfl

theorem count_ready_map (l : List (Plugin × Bool)) (p : Plugin) :
    ((l.map fun x => (true, x.1)).reverse.count (true, p)) = (l.map (·.1)).count p := by
  rw [List.count_reverse]
  induction l with
  | nil => rfl
  | cons x xs ih =>
    simp only [List.map_cons, List.count_cons, ih, beq_iff_eq, Prod.mk.injEq, true_and]

theorem count_request_map (l : List (Plugin × Bool)) (p : Plugin) :
    ((l.map fun x => (true, x.1)).reverse.count (false, p)) = 0 := by
  rw [List.count_eq_zero]
  intro h
  obtain ⟨x, _, e⟩ := List.mem_map.1 (List.mem_reverse.1 h)
  cases e

theorem count_split (l : List (Plugin × Bool)) (p : Plugin) :
    (l.map (·.1)).count p = ((l.filter fun x => x.2).map (·.1)).count p + ((l.filter fun x => !x.2).map (·.1)).count p := by
  induction l with
  | nil => rfl
  | cons x xs ih =>
    obtain ⟨q, b⟩ := x
    cases b <;> simp [List.count_cons, ih] <;> omega

/-- C14: every request is released at most once and none is lost: the requests made so far are exactly
those released and those that wait. -/
theorem unload_accounting {E : Env} (hE : EnvOk E) {s : St} (h : LReach E s) (p : Plugin) :
    requests s.log p = releases s.log p + waiting s p := by
  induction h with
  | init => rfl
  | @step s s' op h1 h2 h3 ih =>
    unfold requests releases waiting at ih ⊢
    cases (h1.tr hE h2 h3).ueff h2 with
    | none _ _ e1 e2 => rw [e1, e2]; exact ih
    | drain _ _ e1 e2 =>
      rw [e1, e2, List.count_append, List.count_append, count_request_map, count_ready_map, ih, List.map_map]
      have := count_split s.pend p
      have hc : ((fun x : Plugin × Bool => x.1) ∘ fun x : Plugin × Bool => (x.1, true)) = (·.1) := rfl
      rw [hc]
      omega
    | force _ _ e1 e2 =>
      rw [e1, e2, List.count_append, List.count_append, count_request_map, count_ready_map, ih]
      simp; omega
    | now q _ _ _ e1 e2 => rw [e1, e2]; simp [List.count_cons, ih]; omega
    | later q _ _ _ e1 e2 => rw [e1, e2]; simp [List.count_cons, List.count_append, ih]; omega

/-- C14: if no hooked call and no SH_CALL is running, UnloadPlugin releases the plugin at once. -/
theorem released_at_once {E : Env} (hE : EnvOk E) {s s' : St} (h : LReach E s) {p : Plugin} (hok : Ok E s (.reg (.unload p)))
    (hst : step E s (.reg (.unload p)) = .ok s') (hs : s.stack = []) :
    releases s'.log p = releases s.log p + 1 ∧ s'.pend = s.pend := by
  generalize hop : Op.reg (.unload p) = op at hok hst
  cases (h.tr hE hok hst).ueff hok with
  | now q e0 _ _ e1 e2 =>
    rw [← hop] at e0; cases e0
    refine ⟨?_, e1⟩
    unfold releases; rw [e2]; simp
  | none e => exact absurd hop.symm (e p)
  | drain e => exact absurd hs e
  | force e => rw [← hop] at e; cases e
  | later _ _ e => exact absurd hs e

/-- C14: a plugin is released only by a step after which no hooked call and no SH_CALL is running, or by
force (`meta unload … force`, metamod_console.cpp:427). -/
theorem released_only_when_idle {E : Env} (hE : EnvOk E) {s s' : St} (h : LReach E s) {op : Op} (hok : Ok E s op)
    (hst : step E s op = .ok s') {p : Plugin} (hr : releases s.log p < releases s'.log p) : s'.stack = [] ∨ op = .resolve true := by
  unfold releases at hr
  cases (h.tr hE hok hst).ueff hok with
  | none _ _ e1 e2 => rw [e2] at hr; exact absurd hr (Nat.lt_irrefl _)
  | drain _ e => exact Or.inl e
  | force e => exact Or.inr e
  | now _ _ _ e => exact Or.inl e
  | later q _ _ _ e1 e2 =>
    rw [e2] at hr
    simp at hr

/-- Runs that keep the contract in which the context stack drains `n` times. -/
inductive Drains (E : Env) : Nat → St → St → Prop
  | refl (s : St) : Drains E 0 s s
  | other {n : Nat} {s s' s'' : St} {op : Op} : Drains E n s s' → Ok E s' op → step E s' op = .ok s'' →
      ¬ (s'.stack ≠ [] ∧ s''.stack = []) → Drains E n s s''
  | drain {n : Nat} {s s' s'' : St} {op : Op} : Drains E n s s' → Ok E s' op → step E s' op = .ok s'' →
      s'.stack ≠ [] → s''.stack = [] → Drains E (n + 1) s s''

theorem Drains.reach {E : Env} {n : Nat} {s s' : St} (h : Drains E n s s') (hr : LReach E s) : LReach E s' := by
  induction h with
  | refl => exact hr
  | other _ h1 h2 _ ih => exact .step (ih hr) h1 h2
  | drain _ h1 h2 _ _ ih => exact .step (ih hr) h1 h2

/-- Requests made before the run: `O` of the waiting requests; after a drain they are marked, after two
they are released. -/
theorem Drains.old {E : Env} (hE : EnvOk E) {n : Nat} {s s' : St} (h : Drains E n s s') (hr : LReach E s) (p : Plugin) :
    ∃ O N, s'.pend = O ++ N ∧ requests s.log p ≤ releases s'.log p + (O.map (·.1)).count p ∧ (1 ≤ n → ∀ x ∈ O, x.2 = true) ∧ (2 ≤ n → O = []) := by
  induction h with
  | refl s =>
    refine ⟨s.pend, [], by simp, ?_, by simp, by simp⟩
    rw [unload_accounting hE hr p]; exact Nat.le_refl _
  | @other n s s' s'' op h1 h2 h3 h4 ih =>
    obtain ⟨O, N, k1, k2, k3, k4⟩ := ih hr
    unfold releases at k2 ⊢
    cases ((h1.reach hr).tr hE h2 h3).ueff h2 with
    | none _ _ e1 e2 => exact ⟨O, N, by rw [e1, k1], by rw [e2]; exact k2, k3, k4⟩
    | drain e1 e2 => exact absurd ⟨e1, e2⟩ h4
    | force _ _ e1 e2 =>
      refine ⟨[], [], e1, ?_, by simp, by simp⟩
      rw [e2, k1, List.count_append, count_ready_map, List.map_append, List.count_append]
      simp; omega
    | now q _ _ _ e1 e2 =>
      refine ⟨O, N, by rw [e1, k1], ?_, k3, k4⟩
      rw [e2]; simp only [List.count_cons]; omega
    | later q _ _ _ e1 e2 =>
      refine ⟨O, N ++ [(q, false)], by rw [e1, k1, List.append_assoc], ?_, k3, k4⟩
      rw [e2]; simp only [List.count_cons]; simp; exact k2
  | @drain n s s' s'' op h1 h2 h3 h4 h5 ih =>
    obtain ⟨O, N, k1, k2, k3, k4⟩ := ih hr
    unfold releases at k2 ⊢
    have hdr : s''.pend = (s'.pend.filter fun x => !x.2).map (fun x => (x.1, true)) ∧
        notices s''.log = ((s'.pend.filter fun x => x.2).map fun x => (true, x.1)).reverse ++ notices s'.log := by
      cases ((h1.reach hr).tr hE h2 h3).ueff h2 with
      | none _ e => exact absurd (e h5) h4
      | drain _ _ e1 e2 => exact ⟨e1, e2⟩
      | force _ e => exact absurd (e.1 h5) h4
      | now _ _ e => exact absurd e h4
      | later _ _ _ e => exact absurd h5 e
    obtain ⟨e1, e2⟩ := hdr
    refine ⟨(O.filter fun x => !x.2).map (fun x => (x.1, true)), (N.filter fun x => !x.2).map (fun x => (x.1, true)), ?_, ?_, ?_, ?_⟩
    · rw [e1, k1, List.filter_append, List.map_append]
    · rw [e2, k1, List.filter_append, List.count_append, count_ready_map, List.map_append, List.count_append, List.map_map]
      have := count_split O p
      have hc : ((fun x : Plugin × Bool => x.1) ∘ fun x : Plugin × Bool => (x.1, true)) = (·.1) := rfl
      rw [hc]
      omega
    · intro _ x hx
      obtain ⟨y, _, rfl⟩ := List.mem_map.1 hx; rfl
    · intro hn
      have := k3 (by omega)
      rw [List.filter_eq_nil_iff.2 (fun x hx => by rw [this x hx]; simp)]
      rfl

/-- C14: when the context stack has drained twice, every plugin whose unloading was requested before has been released. -/
theorem released_by_second_drain {E : Env} (hE : EnvOk E) {s s' : St} (hr : LReach E s) (h : Drains E 2 s s') (p : Plugin) :
    requests s.log p ≤ releases s'.log p := by
  obtain ⟨O, N, _, h1, _, h2⟩ := h.old hE hr p
  rw [h2 (Nat.le_refl _)] at h1
  exact h1

/-- The number of drains of an executable run (for the examples). -/
def drainsB (E : Env) (s : St) : List Op → Nat
  | [] => 0
  | op :: ops =>
    match step E s op with
    | .ok t => drainsB E t ops + if !s.stack.isEmpty && t.stack.isEmpty then 1 else 0
    | .error _ => 0

theorem runB_drains {E : Env} {s0 s s' : St} {n : Nat} {ops : List Op} (h0 : Drains E n s0 s) (h : runB E (fun _ => true) s ops = some s') :
    Drains E (n + drainsB E s ops) s0 s' := by
  induction ops generalizing s n with
  | nil =>
    simp only [runB, if_true] at h
    cases h
    exact h0
  | cons op ops ih =>
    obtain ⟨t, k1, k2, k3⟩ := runB_one h
    unfold drainsB
    rw [k2]
    dsimp only
    by_cases hd : s.stack ≠ [] ∧ t.stack = []
    · have := ih (.drain h0 k1 k2 hd.1 hd.2) k3
      rw [if_pos (by simp [hd.1, hd.2])]
      rw [Nat.add_comm (drainsB E t ops), ← Nat.add_assoc]; exact this
    · have := ih (.other h0 k1 k2 hd) k3
      rw [if_neg (by
        simp only [Bool.and_eq_true, Bool.not_eq_true', List.isEmpty_iff, List.isEmpty_eq_false_iff]; exact hd)]
      exact this

namespace Ex

/-- Plugin 1's handler asks for its own plugin to be unloaded while its call runs. -/
def un1 : List Op := setup ++ [.call 2008 1000, .tick]
def un2 : List Op := un1 ++ [.reg (.unload 1)]
/-- The call goes on; plugin 2's hooks still run; the plugin waits after the call. -/
def un3 : List Op := un2 ++ [.handlerRet 0, .tick, .handlerRet 0, .tick, .origRet 7, .tick]
/-- One later call, which ends the wait. -/
def un4 : List Op := un3 ++ [.call 2008 1000, .tick, .handlerRet 0, .tick, .origRet 7, .tick]

end Ex

example : ((Ex.go Ex.un2).map fun s => (requests s.log 1, releases s.log 1, waiting s 1)) = some (1, 0, 1) := rfl
example : ((Ex.go Ex.un3).map fun s => (requests s.log 1, releases s.log 1, waiting s 1, s.stack.length)) = some (1, 0, 1, 0) := rfl
example : ((Ex.go Ex.un4).map fun s => (requests s.log 1, releases s.log 1, waiting s 1, s.stack.length)) = some (1, 1, 0, 0) := rfl

/-- The waiting plugin of `Ex.un2` is released by the second drain. -/
example : ∃ s s', LReach Ex.E s ∧ requests s.log 1 = 1 ∧ Drains Ex.E 2 s s' ∧ releases s'.log 1 = 1 := by
  obtain ⟨s4, h4⟩ := Ex.go_isSome (ops := Ex.un2 ++ ([.handlerRet 0, .tick, .handlerRet 0, .tick, .origRet 7, .tick,
    .call 2008 1000, .tick, .handlerRet 0, .tick, .origRet 7, .tick] : List Op)) rfl
  obtain ⟨s2, h2, h3⟩ := runB_append h4
  have hd := runB_drains (.refl s2) h3
  have : drainsB Ex.E s2 ([.handlerRet 0, .tick, .handlerRet 0, .tick, .origRet 7, .tick,
    .call 2008 1000, .tick, .handlerRet 0, .tick, .origRet 7, .tick] : List Op) = 2 := of_decide_eq_true
    (Ex.chk h2 (fun s => decide (drainsB Ex.E s ([.handlerRet 0, .tick, .handlerRet 0, .tick, .origRet 7, .tick,
      .call 2008 1000, .tick, .handlerRet 0, .tick, .origRet 7, .tick] : List Op) = 2)) rfl)
  rw [this] at hd
  exact ⟨s2, s4, Ex.go_reach h2, of_decide_eq_true (Ex.chk h2 (fun s => decide (requests s.log 1 = 1)) rfl), hd,
    of_decide_eq_true (Ex.chk h4 (fun s => decide (releases s.log 1 = 1)) rfl)⟩

example : ∃ s s', LReach Ex.E s ∧ Ok Ex.E s (.reg (.unload 1)) ∧ step Ex.E s (.reg (.unload 1)) = .ok s' ∧ s.stack = [] ∧ s.reg.vfns.length = 1 := by
  obtain ⟨s2, h2⟩ := Ex.go_isSome (ops := Ex.whole ++ [.reg (.unload 1)]) rfl
  obtain ⟨s0, s1, k0, k1, k2, k3, _⟩ := Ex.split (a := Ex.whole) h2
  exact ⟨s0, s1, k3, k1, k2, by simpa using Ex.chk k0 (fun s => s.stack.isEmpty) rfl,
    of_decide_eq_true (Ex.chk k0 (fun s => decide (s.reg.vfns.length = 1)) rfl)⟩

example : ∃ s s' op, LReach Ex.E s ∧ Ok Ex.E s op ∧ step Ex.E s op = .ok s' ∧ releases s.log 1 < releases s'.log 1 ∧ s.stack ≠ [] := by
  obtain ⟨s2, h2⟩ := Ex.go_isSome (ops := (Ex.un3 ++ [.call 2008 1000, .tick, .handlerRet 0, .tick, .origRet 7]) ++ [.tick]) rfl
  obtain ⟨s0, s1, k0, k1, k2, k3, _, k4⟩ := Ex.split (a := Ex.un3 ++ [.call 2008 1000, .tick, .handlerRet 0, .tick, .origRet 7]) h2
  have e : s1 = s2 := by simpa [runB] using k4
  refine ⟨s0, s1, .tick, k3, k1, k2, ?_, ?_⟩
  · rw [of_decide_eq_true (Ex.chk k0 (fun s => decide (releases s.log 1 = 0)) rfl), e,
      of_decide_eq_true (Ex.chk h2 (fun s => decide (releases s.log 1 = 1)) rfl)]
    exact Nat.one_pos
  · have := Ex.chk k0 (fun s => !s.stack.isEmpty) rfl
    simpa using this

end Verif.SH

#print axioms Verif.SH.unload_accounting
#print axioms Verif.SH.released_at_once
#print axioms Verif.SH.released_only_when_idle
#print axioms Verif.SH.released_by_second_drain
