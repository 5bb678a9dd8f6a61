import Verif.SH.LoopThunk
/-
C18: lifetime of the call thunks made for odd original entries.
-/
namespace Verif.SH

/-- C18: a thunk that has been given back belongs to a record that is no longer in the registry (its slot
was unhooked), and no running hook loop and no running SH_CALL uses it. -/
theorem thunk_not_freed_early {E : Env} (hE : EnvOk E) {s : St} (h : LReach E s) {v : Nat} (hv : Ev.freed v ∈ s.log) :
    (∀ x ∈ s.reg.vfns, x.oid ≠ v) ∧ ∀ c ∈ s.stack, c.vfn ≠ some v := by
  obtain ⟨k1, k2⟩ := (h.tinv hE).pair.fr v (mem_freedOf.2 hv)
  exact ⟨k1.2, fun c hc e => k2 (List.mem_map.2 ⟨c, hc, e⟩)⟩

/-- C18: the thunk of a record has been given back exactly when the record is gone and nothing running
uses it. -/
theorem thunk_freed_iff {E : Env} (hE : EnvOk E) {s s' : St} (h : LReach E s) {v : Vfn} (hv : v ∈ s.reg.vfns)
    (ht : v.thunk = true) (hr : Run E (fun _ => True) s s') :
    Ev.freed v.oid ∈ s'.log ↔ (∀ x ∈ s'.reg.vfns, x.oid ≠ v.oid) ∧ ∀ c ∈ s'.stack, c.vfn ≠ some v.oid := by
  have h' := hr.reach h
  refine ⟨thunk_not_freed_early hE h', fun ⟨k1, k2⟩ => ?_⟩
  rcases hr.heldT hE h (v := v.oid) (Or.inl (List.mem_map.2 ⟨v, hv, by rw [ht]⟩)) with hk | hk | hk
  · obtain ⟨x, hx, e⟩ := List.mem_map.1 hk
    simp only [Prod.mk.injEq] at e
    exact absurd e.1 (k1 x hx)
  · rcases (h'.tinv hE).pair.tok.used hk with hk | hk
    · obtain ⟨c, hc, e⟩ := List.mem_map.1 hk
      exact absurd e (k2 c hc)
    · exact mem_freedOf.1 hk
  · exact mem_freedOf.1 hk

/-- C18: records whose original entry is even have no thunk and nothing is ever given back for them. -/
theorem no_thunk_no_free {E : Env} (hE : EnvOk E) {s s' : St} (h : LReach E s) {v : Vfn} (hv : v ∈ s.reg.vfns)
    (ht : v.thunk = false) (hr : Run E (fun _ => True) s s') : Ev.freed v.oid ∉ s'.log := by
  obtain ⟨mem0, hw, _⟩ := (h.inv hE).reg.inv
  have hi := h.tinv hE
  have hnf : v.oid ∉ freedOf s.log := fun hm => (hi.pair.fr _ hm).1.2 v hv rfl
  have hnt : some v.oid ∉ s.tasks := by
    intro hm
    have key : ∀ (us ts : List (Option Nat)), TOk s.reg (freedOf s.log) us ts → some v.oid ∈ ts → Gone s.reg v.oid := by
      intro us
      induction us with
      | nil => intro ts hk hx; cases ts with
        | nil => cases hx
        | cons _ _ => exact hk.elim
      | cons u us ih =>
        intro ts hk hx
        cases ts with
        | nil => cases hx
        | cons t ts =>
          rcases List.mem_cons.1 hx with e | hx
          · exact (hk.1 _ e.symm).1
          · exact ih ts hk.2 hx
    exact (key _ _ hi.pair.tok hm).2 v hv rfl
  have h0 : NoThunk s v.oid := by
    refine ⟨hw.s.vlt v hv, fun hk => ?_, hnt, hnf⟩
    obtain ⟨x, hx, e⟩ := List.mem_map.1 hk
    simp only [Prod.mk.injEq] at e
    rw [nodup_key_inj hw.s.void hx hv e.1, ht] at e
    cases e.2
  exact fun hm => (hr.noThunk hE h h0).2.2.2 (mem_freedOf.2 hm)

/-- C18, partial: each thunk is given back at most once, as long as no hook loop is ever started in a
stack slot that still holds the task of an earlier loop.  Missing: `make_next` does not clear that task
(sh_stack.h:171-180) and `DoCleanupTaskAndDeleteIt` (sh:893-899) neither, so without this condition the
claim is false: `thunk_freed_twice`. -/
theorem thunk_freed_once_partial {E : Env} (hE : EnvOk E) {mem0 : Addr → Addr} (h0 : ∀ a, E.pubAt (mem0 a) = none) {s : St}
    (hr : Run E (fun s => ∀ v, some v ∈ s.tasks → Ev.freed v ∉ s.log) { reg := { mem := mem0 } } s) (v : Nat) :
    s.log.count (.freed v) ≤ 1 := by
  have hnd : (freedOf s.log).Nodup := by
    suffices H : ∀ {s0 s1 : St}, LReach E s0 → (freedOf s0.log).Nodup →
        Run E (fun s => ∀ v, some v ∈ s.tasks → Ev.freed v ∉ s.log) s0 s1 →
        (freedOf s1.log).Nodup ∧ ∀ v, some v ∈ s1.tasks → v ∉ freedOf s1.log from
      (H (.init mem0 h0) List.nodup_nil hr).1
    intro s0 s1 hs0 hn hrun
    induction hrun with
    | refl hp => exact ⟨hn, fun v hv hm => hp v hv (mem_freedOf.1 hm)⟩
    | step h1 h2 h3 hp ih =>
      have hr1 := h1.reach hs0
      exact ⟨((hr1.tr hE h2 h3).teff (hr1.inv hE) h2).once (hr1.inv hE) (hr1.tinv hE) ih.2 ih.1,
        fun v hv hm => hp v hv (mem_freedOf.1 hm)⟩
  have hc : ∀ l : List Ev, l.count (.freed v) = (freedOf l).count v := by
    intro l
    induction l with
    | nil => rfl
    | cons e l ih =>
      cases e with
      | freed w =>
        show List.count _ (Ev.freed w :: l) = List.count v (w :: freedOf l)
        rw [List.count_cons, List.count_cons, ih]
        simp only [beq_iff_eq, Ev.freed.injEq]
      | _ =>
        rw [List.count_cons_of_ne (by nofun)]; exact ih
  rw [hc]
  exact List.nodup_iff_count.1 hnd v

namespace Ex

/-- Plugin 1's handler, running for object 1000, removes the only hook of the function. -/
def th1 : List Op := [.reg (.add a1), .call 2008 1000, .tick]
def th2 : List Op := th1 ++ [.reg (.removeId 1)]
/-- The call goes on: the original function is called through the thunk. -/
def th3 : List Op := th2 ++ [.handlerRet 0, .tick]
/-- The call ends. -/
def th4 : List Op := th3 ++ [.origRet 7, .tick]
/-- The function is hooked and called once more. -/
def th5 : List Op := th4 ++ [.reg (.add a1), .call 2008 1000, .tick, .handlerRet 0, .tick, .origRet 7, .tick]

/-- A function with an even original entry. -/
def aEven : AddArgs := { a1 with iface := 1200 }

end Ex

/-- C18 fails: the task of a loop that has ended is run again by the next loop started in the same stack
slot, so a thunk is given back twice; the second time while the record hooked later may be using it. -/
theorem thunk_freed_twice : ∃ s, LReach Ex.E s ∧ ∃ v, s.log.count (.freed v) = 2 := by
  obtain ⟨s, h⟩ := Ex.go_isSome (ops := Ex.th5) rfl
  exact ⟨s, Ex.go_reach h, 0, of_decide_eq_true (Ex.chk h (fun s => decide (s.log.count (.freed 0) = 2)) rfl)⟩

/-! The states named above: in the handler, after the removal, during the original call, at the end. -/

example : [Ex.th1, Ex.th2, Ex.th3, Ex.th4, Ex.th5].map (fun l => (Ex.go l).map fun s =>
      (s.reg.vfns.map fun v => (v.oid, v.thunk), s.stack.map Ctx.vfn, s.tasks, freedOf s.log)) =
    [some ([(0, true)], [some 0], [none], []), some ([], [some 0], [some 0], []), some ([], [some 0], [some 0], []),
     some ([], [], [], [0]), some ([(4, true)], [], [], [0, 0])] := rfl

example : ∃ s, LReach Ex.E s ∧ Ev.freed 0 ∈ s.log ∧ s.reg.vfns.length = 1 := by
  obtain ⟨s, h⟩ := Ex.go_isSome (ops := Ex.th5) rfl
  exact ⟨s, Ex.go_reach h, of_decide_eq_true (Ex.chk h (fun s => decide (Ev.freed 0 ∈ s.log)) rfl),
    of_decide_eq_true (Ex.chk h (fun s => decide (s.reg.vfns.length = 1)) rfl)⟩

example : ∃ s s' s'', ∃ v ∈ s.reg.vfns, LReach Ex.E s ∧ v.thunk = true ∧ Run Ex.E (fun _ => True) s s' ∧
    Run Ex.E (fun _ => True) s' s'' ∧ Ev.freed v.oid ∉ s'.log ∧ Ev.freed v.oid ∈ s''.log ∧ s'.reg.vfns = [] := by
  obtain ⟨s4, h4⟩ := Ex.go_isSome (ops := (Ex.th1 ++ [.reg (.removeId 1), .handlerRet 0, .tick]) ++ [.origRet 7, .tick]) rfl
  obtain ⟨s3, h3, h34⟩ := runB_append h4
  obtain ⟨s1, h1, h13⟩ := runB_append h3
  have e := of_decide_eq_true (Ex.chk h1 (fun s => decide (s.reg.vfns.map (fun v => (v.oid, v.thunk)) = [(0, true)])) rfl)
  cases hv : s1.reg.vfns with
  | nil => rw [hv] at e; cases e
  | cons v vs =>
    rw [hv] at e
    simp only [List.map_cons, List.cons.injEq, Prod.mk.injEq] at e
    have run : ∀ {a b : St} {l : List Op}, runB Ex.E (fun _ => true) a l = some b → Run Ex.E (fun _ => True) a b :=
      fun h => (runB_run h).mono fun _ _ => trivial
    refine ⟨s1, s3, s4, v, by rw [hv]; exact List.mem_cons_self .., Ex.go_reach h1, e.1.2, run h13, run h34, ?_, ?_, ?_⟩
    · rw [e.1.1]; exact of_decide_eq_true (Ex.chk h3 (fun s => decide (Ev.freed 0 ∉ s.log)) rfl)
    · rw [e.1.1]; exact of_decide_eq_true (Ex.chk h4 (fun s => decide (Ev.freed 0 ∈ s.log)) rfl)
    · exact List.eq_nil_of_length_eq_zero (of_decide_eq_true (Ex.chk h3 (fun s => decide (s.reg.vfns.length = 0)) rfl))

example : ∃ s s', ∃ v ∈ s.reg.vfns, LReach Ex.E s ∧ v.thunk = false ∧ Run Ex.E (fun _ => True) s s' ∧ s'.reg.vfns = [] := by
  obtain ⟨s3, h3⟩ := Ex.go_isSome (ops := [.reg (.add Ex.aEven)] ++ [.reg (.removeId 1)]) rfl
  obtain ⟨s1, h1, h13⟩ := runB_append h3
  have e := of_decide_eq_true (Ex.chk h1 (fun s => decide (s.reg.vfns.map (fun v => v.thunk) = [false])) rfl)
  cases hv : s1.reg.vfns with
  | nil => rw [hv] at e; cases e
  | cons v vs =>
    rw [hv] at e
    simp only [List.map_cons, List.cons.injEq] at e
    exact ⟨s1, s3, v, by rw [hv]; exact List.mem_cons_self .., Ex.go_reach h1, e.1, (runB_run h13).mono fun _ _ => trivial,
      List.eq_nil_of_length_eq_zero (of_decide_eq_true (Ex.chk h3 (fun s => decide (s.reg.vfns.length = 0)) rfl))⟩

/-- The condition of `thunk_freed_once_partial` in a run in which a task waits and runs. -/
example : ∃ s, Run Ex.E (fun s => ∀ v, some v ∈ s.tasks → Ev.freed v ∉ s.log) Ex.s0 s ∧ s.log.count (.freed 0) = 1 := by
  have h : (runB Ex.E (fun s => s.tasks.all fun t => match t with | some v => decide (Ev.freed v ∉ s.log) | none => true) Ex.s0 Ex.th4).isSome = true := rfl
  obtain ⟨s, hs⟩ := Option.isSome_iff_exists.1 h
  refine ⟨s, (runB_run hs).mono fun s hp v hv => ?_, ?_⟩
  · rw [List.all_eq_true] at hp
    simpa using hp (some v) hv
  · have : ((runB Ex.E (fun s => s.tasks.all fun t => match t with | some v => decide (Ev.freed v ∉ s.log) | none => true) Ex.s0 Ex.th4).map
        fun s => s.log.count (.freed 0)) = some 1 := rfl
    rw [hs] at this
    exact Option.some.inj this

end Verif.SH

#print axioms Verif.SH.thunk_not_freed_early
#print axioms Verif.SH.thunk_freed_iff
#print axioms Verif.SH.no_thunk_no_free
#print axioms Verif.SH.thunk_freed_once_partial
#print axioms Verif.SH.thunk_freed_twice
