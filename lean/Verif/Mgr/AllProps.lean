import Verif.Mgr.EventProps
/-
Property C30: `AllPluginsLoaded` is delivered exactly once.
-/
namespace Verif.Mgr

/-! ### Spec -/

/-- The plugins told so far, oldest first. -/
def told (log : List Ev) : List Nat :=
  log.filterMap fun x => match x with
    | .call (.allLoaded o) => some o
    | _ => none

/-- The running plugins of the list, in order. -/
def running (s : St) : List Nat :=
  s.plugins.filter fun o => match s.objs o with
    | some p => p.status == .running
    | none => false

/-! ### The log only grows -/

theorem QPrim.log {a : Bool} {n : Nat} {s s' : St} (h : QPrim a n s s') : s.log <+: s'.log := by
  cases h
  case note => exact List.prefix_append _ _
  case allCall => exact List.prefix_append _ _
  case loadDone => exact List.prefix_append _ _
  case paused => exact List.prefix_append _ _
  case unpaused => exact List.prefix_append _ _
  all_goals exact List.prefix_rfl

theorem FSteps.log {a : Bool} {n : Nat} {s s' : St} (h : FSteps a n s s') : s.log <+: s'.log := by
  induction h with
  | refl => exact List.prefix_rfl
  | tail _ q ih => exact ih.trans q.log

theorem GPrim.log {r : Bool} {n : Nat} {s s' : St} (h : GPrim r n s s') : s.log <+: s'.log := by
  cases h with
  | quiet h => exact h.log
  | push f o _ => exact List.prefix_append _ _
  | retry A p o hr hA hpA hst hfin =>
    have h1 : s.log <+: (pushNew p.file o s).log := List.prefix_append _ _
    have h2 := h1.trans hst.log
    cases hfin with
    | ok q hB _ => exact h2
    | fail => exact h2

theorem Steps.log {r : Bool} {n : Nat} {s s' : St} (h : Steps r n s s') : s.log <+: s'.log := by
  induction h with
  | refl => exact List.prefix_rfl
  | tail _ q ih => exact ih.trans q.log

/-! ### At most once -/

theorem told_count (log : List Ev) (o : Nat) : (told log).count o = log.count (.call (.allLoaded o)) := by
  induction log with
  | nil => rfl
  | cons x xs ih =>
    have hx : told (x :: xs) = told [x] ++ told xs := by
      unfold told; rw [← List.filterMap_append]; rfl
    rw [hx, List.count_append, ih, List.count_cons, Nat.add_comm]
    congr 1
    unfold told
    rw [List.filterMap_cons, List.filterMap_nil]
    split
    · rename_i h
      split at h
      · cases h
      · split
        · rename_i h1 h2
          rw [beq_iff_eq] at h2
          exact absurd h2 (h1 o)
        · rfl
    · rename_i y h
      split at h
      · cases h
        by_cases e : y = o
        · subst e; simp
        · have : ¬ (Ev.call (.allLoaded y) == Ev.call (.allLoaded o)) = true := by
            intro h; rw [beq_iff_eq] at h; injection h with h; injection h with h; exact e h
          rw [if_neg this]
          rw [List.count_cons, List.count_nil, if_neg (by simpa using e)]
      · cases h

/-- C30, partial: no plugin is told twice, in every history where the callbacks of the announcement and of
`Retry` load nothing; nobody is told before the announcement.  `told_twice` shows the exception is needed. -/
theorem told_once_partial {s : St} (h : Reach true s) : (told s.log).Nodup ∧ (s.allLoaded = false → told s.log = []) := by
  refine ⟨?_, fun hn => ?_⟩
  · rw [List.nodup_iff_count]
    intro o; rw [told_count]; exact h.id.once o
  · rw [List.eq_nil_iff_forall_not_mem]
    intro o ho
    have h1 : s.log.count (.call (.allLoaded o)) ≠ 0 := by
      rw [← told_count]; exact fun h0 => absurd ho (List.count_eq_zero.mp h0)
    rw [(h.id.early o h1).1] at hn; cases hn

/-! ### The announcement takes effect once -/

/-- C30: a second announcement does nothing. -/
theorem announce_again (h : Beh) (fuel : Nat) (s : St) (hs : s.allLoaded = true) : setAllLoaded h fuel s = .ok s := by
  unfold setAllLoaded; rw [if_pos hs]

/-- C30: once made, it stays made. -/
theorem announced_stays_partial {r : Bool} {s s' : St} {fuel : Nat} {p : Scr} {b : Bool} (h : Reach r s) (hp : p.Ok r) (e : exec fuel p s = .ok (s', b))
    (hs : s.allLoaded = true) : s'.allLoaded = true :=
  ((exec_emits fuel p hp s s' b h.id e).specFrom (Nat.le_refl _) h.id h.id (Rel.refl _)).2.all hs

/-! ### The announcement reaches the running plugins -/

/-- The same list and statuses; the plugins `os` were told. -/
structure AllStep (s s' : St) (os : List Nat) : Prop where
  plugins : s'.plugins = s.plugins
  objs : ∀ o, (s'.objs o).map (fun p => (p.status, p.api.isSome)) = (s.objs o).map (fun p => (p.status, p.api.isSome))
  calls : told s'.log = told s.log ++ os

theorem AllStep.refl (s : St) : AllStep s s [] := ⟨rfl, fun _ => rfl, by simp⟩

theorem AllStep.trans {s s' s'' : St} {a b : List Nat} (h : AllStep s s' a) (g : AllStep s' s'' b) : AllStep s s'' (a ++ b) :=
  ⟨g.plugins.trans h.plugins, fun o => (g.objs o).trans (h.objs o), by rw [g.calls, h.calls, List.append_assoc]⟩

theorem AllStep.obj {s s' : St} {cs : List Nat} (h : AllStep s s' cs) {o : Nat} {p' : Plug} (hp' : s'.objs o = some p') :
    ∃ p, s.objs o = some p ∧ p'.status = p.status ∧ p'.api.isSome = p.api.isSome := by
  have := h.objs o
  rw [hp'] at this
  cases e : s.objs o with
  | none => rw [e] at this; cases this
  | some p => rw [e] at this; injection this with this; injection this with h1 h2; exact ⟨p, rfl, h1, h2⟩

/-- What plugins do in `AllPluginsLoaded` leaves list and statuses alone and does not announce. -/
def AllQuiet (h : Beh) : Prop := ∀ o n s s' b, h (.allLoaded o) n s = .ok (s', b) → AllStep s s' []

theorem doCall_all {h : Beh} (hh : AllQuiet h) {o : Nat} {s s' : St} {b : Bool} (x : doCall h (.allLoaded o) s = .ok (s', b)) : AllStep s s' [o] := by
  unfold doCall at x
  obtain ⟨⟨s1, b1⟩, x1, x2⟩ := bind_ok x
  cases x2
  have h1 := hh _ _ _ _ _ x1
  refine ⟨h1.plugins, h1.objs, ?_⟩
  show told (s1.log ++ [_]) = _
  have e1 : told s1.log = told (s.log ++ [.call (.allLoaded o)]) ++ [] := h1.calls
  unfold told at e1 ⊢
  rw [List.filterMap_append, e1, List.filterMap_append]
  simp

/-- Is this plugin running? -/
def isRunning (s : St) (o : Nat) : Bool :=
  match s.objs o with
  | some p => p.status == .running
  | none => false

theorem isRunning_step {s s' : St} {cs : List Nat} (h : AllStep s s' cs) (o : Nat) : isRunning s' o = isRunning s o := by
  unfold isRunning
  have := h.objs o
  cases h1 : s.objs o with
  | none =>
    rw [h1] at this
    cases h2 : s'.objs o with
    | none => rfl
    | some p => rw [h2] at this; cases this
  | some p =>
    rw [h1] at this
    cases h2 : s'.objs o with
    | none => rw [h2] at this; cases this
    | some p' => rw [h2] at this; injection this with this; injection this with h3 _; dsimp only; rw [h3]

theorem allBody_exact {h : Beh} (hh : AllQuiet h) {oid : Nat} {s s' : St}
    (ha : ∀ o p, s.objs o = some p → p.status = .running → p.api.isSome = true) (e : allLoadedBody h oid s = .ok s') :
    AllStep s s' (if isRunning s oid = true then [oid] else []) := by
  unfold allLoadedBody at e
  obtain ⟨p, e1, e⟩ := bind_ok e
  obtain ⟨b, e2, e⟩ := bind_ok e
  obtain ⟨_, hb⟩ := statusIs_ok e2
  have hr : isRunning s oid = b := by unfold isRunning; rw [get_ok e1]; exact hb.symm
  rw [hr]
  split at e
  · rename_i h1
    rw [Bool.and_eq_true] at h1
    obtain ⟨⟨s1, b1⟩, e3, e⟩ := bind_ok e
    cases e
    rw [if_pos h1.1]
    exact doCall_all hh e3
  · rename_i h1
    cases e
    have : ¬ b = true := by
      intro hbt
      rw [hbt] at hb
      have := ha oid p (get_ok e1) (by simpa using hb.symm)
      rw [hbt, this] at h1; exact h1 rfl
    rw [if_neg this]
    exact .refl _

theorem allLoop_exact {h : Beh} (hh : AllQuiet h) : ∀ (f : Nat) (b a : List Nat) (s s' : St),
    s.plugins = a ++ b → s.plugins.Nodup → (∀ o p, s.objs o = some p → p.status = .running → p.api.isSome = true) →
    plLoop (allLoadedBody h) f b.head? s = .ok s' → AllStep s s' (b.filter (isRunning s)) := by
  intro f
  induction f with
  | zero =>
    intro b a s s' hl hn _ ev
    cases b with
    | nil => cases ev; exact .refl _
    | cons y ys => cases ev
  | succ f ih =>
    intro b a s s' hl hn ha ev
    cases b with
    | nil => cases ev; exact .refl _
    | cons y ys =>
      rw [show (y :: ys).head? = some y from rfl, plLoop] at ev
      obtain ⟨s1, e1, ev⟩ := bind_ok ev
      have st1 := allBody_exact hh ha e1
      obtain ⟨nx, e2, ev⟩ := bind_ok ev
      have hnot : y ∉ a := by
        rw [hl, List.nodup_append] at hn
        exact fun hm => hn.2.2 y hm y (.head _) rfl
      rw [st1.plugins, hl, nextAfter_mid hnot] at e2; cases e2
      have st2 := ih ys (a ++ [y]) s1 s' (by rw [st1.plugins, hl]; simp) (by rw [st1.plugins]; exact hn)
        (fun o p hp hr => by obtain ⟨q, hq, h1, h2⟩ := st1.obj hp; rw [h2]; exact ha o q hq (h1 ▸ hr)) ev
      have := st1.trans st2
      have hfun : isRunning s1 = isRunning s := funext fun o => isRunning_step st1 o
      rw [hfun] at this
      rw [List.filter_cons]
      split at this
      · rename_i hr; rw [if_pos hr]; exact this
      · rename_i hr; rw [if_neg hr]; exact this

/-- C30, partial: the first announcement tells exactly the running plugins of the list, in order, each once,
if what they do then leaves the list and the statuses alone. -/
theorem announce_exact_partial {r : Bool} {s s' : St} {h : Beh} {fuel : Nat} (hr : Reach r s) (hq : AllQuiet h) (hs : s.allLoaded = false)
    (e : setAllLoaded h fuel s = .ok s') : told s'.log = told s.log ++ running s ∧ s'.plugins = s.plugins := by
  unfold setAllLoaded at e
  rw [if_neg (by rw [hs]; exact fun h => (nomatch h))] at e
  have := allLoop_exact hq fuel s.plugins [] { s with allLoaded := true } s' rfl hr.id.nodup
    (fun o p hp hst => by
      rcases hr.api o p hp with h | h
      · exact absurd h (not_failed_of_loaded (.inl hst))
      · exact h.1) e
  exact ⟨this.calls, this.plugins⟩

/-! ### A plugin loaded later -/

/-- C30: a plugin that loads after the announcement is told right after its status became running, exactly once,
whatever the callbacks do (but loading in those of `Retry` and the announcement). -/
theorem late_told_partial {s s' : St} {fuel : Nat} {cb : Call → Nat → Scr} {file : List Byte} {oc : Outcome} {o : Nat} (h : Reach true s)
    (hcb : ∀ c n, (cb c n).Ok true) (hs : s.allLoaded = true) (e : load_ (cbs fuel cb) fuel file oc s = .ok (s', o))
    {p' : Plug} (hp' : s'.objs o = some p') (hl : Loaded p'.status) :
    [.status o .uninit .running, .call (.allLoaded o)] <:+: s'.log ∧ (told s'.log).count o = 1 := by
  have hT := goodA_g true
  have hh : HOk (Steps true) (cbs fuel cb) := fun c k s s' b hi e => exec_emits fuel (cb c k) (hcb c k) s s' b hi e
  have hi := h.id
  obtain ⟨i1, r1⟩ := pushNew_spec hi file oc
  obtain ⟨ho, tt⟩ := load_emits_ hT hh hi e
  have i' := hT.inv _ _ _ i1 tt
  suffices hin : [.status o .uninit .running, .call (.allLoaded o)] <:+: s'.log by
    refine ⟨hin, ?_⟩
    have h1 := i'.once o
    have h2 : Ev.call (.allLoaded o) ∈ s'.log := hin.subset (.tail _ (.head _))
    have h3 := List.count_pos_iff.mpr h2
    rw [told_count]; omega
  unfold load_ at e
  obtain ⟨s1, e1, e⟩ := bind_ok e
  obtain ⟨s2, e2, e⟩ := bind_ok e
  cases e
  -- a failed load stays failed
  have nofail : IdInv s1 → ∀ p1, s1.objs s.next = some p1 → Failed p1.status → False := by
    intro is1 p1 hp1 hf
    have t2 := loadCleanup_emits hT.toGood hh fuel s.next s1 s' is1 e2
    have r2 := hT.rel _ s1 s1 s' (Nat.le_refl _) is1 is1 (Rel.refl _) t2
    have := (r2.kept _ p1 p' hp1 hp').2.2.2.1 hf
    rw [this] at hl
    exact not_failed_of_loaded hl hf
  unfold loadRun at e1
  have hob := pushNew_obj file oc s
  split at e1
  · rename_i hpr
    have hu : (probe (newPlug s.lastId file) oc).1.status = .uninit := by
      rcases probe_status (newPlug s.lastId file) oc rfl with ⟨_, hu, _⟩ | ⟨hf, _⟩
      · exact hu
      · rw [hf] at hpr; cases hpr
    have hall1 : (pushNew file oc s).allLoaded = true := hs
    have trun := runLoad_emits (n := s.next) hT hh i1 hob hu (Nat.le_refl _) e1
    have is1 := hT.inv _ _ _ i1 trun
    have t2 := loadCleanup_emits hT.toGood hh fuel s.next s1 s' is1 e2
    unfold runLoad at e1
    obtain ⟨⟨s3, b3⟩, e3, e1⟩ := bind_ok e1
    have t3 := doCall_emits hT.toGood hh (c := .load s.next s.lastId (pushNew file oc s).allLoaded) trivial i1 e3
    have r3 := hT.rel _ _ _ _ (Nat.le_refl _) i1 i1 (Rel.refl _) t3
    dsimp only at e1
    split at e1
    · obtain ⟨s4, e4, e1⟩ := bind_ok e1
      obtain ⟨p3, hp3, rfl⟩ := setStatus_note e4
      have hu3 := (r3.kept _ _ p3 hob hp3).2.2.1 hu
      rw [hu3] at e1
      split at e1
      · obtain ⟨p4, e5, e1⟩ := bind_ok e1
        split at e1
        · cases e1
        · obtain ⟨⟨s5, b5⟩, e6, e1⟩ := bind_ok e1
          cases e1
          unfold doCall at e6
          obtain ⟨⟨s6, b6⟩, e7, e8⟩ := bind_ok e6
          cases e8
          have i3 := hT.inv _ _ _ i1 t3
          have hlast := doCall_last e3
          have hp4 := get_ok e5
          have i4 : IdInv ((s3.put s.next { p3 with status := .running }).note (.status s.next .uninit .running)) :=
            (objStep (a := true) (s' := (s3.put s.next { p3 with status := .running }).note (.status s.next .uninit .running))
              (p' := { p3 with status := .running }) i3 hp3 rfl rfl rfl rfl (fun h => absurd hu3 h) (fun h => by rw [hu3] at h; rcases h with h | h | h <;> cases h)
              rfl rfl (Nat.le_refl _) rfl rfl (fun i => count_status _ i _ _ _)).1
          have hp4' : upd s3.objs s.next (some { p3 with status := .running }) s.next = some p4 := hp4
          rw [upd_same] at hp4'; cases hp4'
          have i5 := (QPrim.spec (a := true) (n := 0) (.allCall _ s.next _ rfl hp4 rfl (r3.all hall1) (by
            refine (count_status s3.log _ _ _ _).trans ?_
            rw [r3.calls s.next (Nat.lt_succ_self _) (fun q hq => by rw [hob] at hq; cases hq; exact hu)]
            apply Classical.byContradiction
            intro hne
            exact (i1.early _ hne).2.2 _ hob hu)) i4).1
          have t7 := hh _ _ _ _ _ i5 e7
          have l7 := t7.log
          have l2 := t2.log
          have l8 : (s3.log ++ [Ev.status s.next .uninit .running] ++ [Ev.call (.allLoaded s.next)]) <+: s'.log :=
            l7.trans ((List.prefix_append _ _).trans l2)
          obtain ⟨z, hz⟩ := l8
          exact ⟨s3.log, z, by rw [← hz]; simp⟩
      · rename_i hn
        exact absurd (r3.all hall1) hn
    · obtain ⟨p3, hp3, rfl⟩ := setStatus_note e1
      exact (nofail is1 _ (upd_same _ _ _) (.inr (.inr rfl))).elim
  · rename_i hpr
    cases e1
    have hf : Failed (probe (newPlug s.lastId file) oc).1.status := by
      rcases probe_status (newPlug s.lastId file) oc rfl with ⟨hu, _, _⟩ | ⟨_, hf⟩
      · exact absurd hu hpr
      · exact hf.elim .inl (fun h => .inr (.inl h))
    exact (nofail i1 _ hob hf).elim

/-! ### Examples -/

def resTold : R (St × Bool) → Option (List Nat)
  | .ok (s, _) => some (told s.log)
  | .error _ => none

/-- Two plugins are told at the announcement, a third after its load. -/
example : resTold (exec 10 (.op (.load [97] (good 10)) yes (.op (.load [98] (good 11)) yes (.op .setAllLoaded yes (.op (.load [99] (good 12)) yes
    (.op .setAllLoaded yes (.ret true)))))) init) = some [0, 1, 2] := by rfl

/-- The hypotheses can be met. -/
example : (∀ c n, (yes c n).Ok true) ∧ AllQuiet (cbs 10 yes) ∧ Reach true init :=
  ⟨fun _ _ => trivial, fun _ _ _ _ _ h => by cases h; exact .refl _, 0, .ret true, true, trivial, rfl⟩

/-! ### What is false -/

/-- A plugin loaded by another one in its `AllPluginsLoaded` is told twice: after its load and by the running loop. -/
theorem told_twice : resTold (exec 10 (.op (.load [97] (good 10)) yes (.op .setAllLoaded
    (fun c _ => match c with | .allLoaded 0 => .op (.load [98] (good 11)) yes (.ret true) | _ => .ret true) (.ret true))) init) = some [0, 1, 1] := by rfl

/-- A plugin that is paused during the announcement is never told, not even when it is unpaused. -/
theorem paused_never_told : resTold (exec 10 (.op (.load [97] (good 10)) yes (.op (.pause 1) yes (.op .setAllLoaded yes (.op (.unpause 1) yes
    (.op .setAllLoaded yes (.ret true)))))) init) = some [] := by rfl

#print axioms told_once_partial
#print axioms announce_again
#print axioms announced_stays_partial
#print axioms announce_exact_partial
#print axioms late_told_partial
#print axioms told_twice
#print axioms paused_never_told

end Verif.Mgr
