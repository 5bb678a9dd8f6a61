import Verif.SH.LoopFollow
import Verif.SH.LoopEx
/-
Properties of hook calls: no use of freed records (C16), order of the handlers (C03, C04), no hook
missed (C05), paused hooks (C07).

The statements use `view` (the hooks registered for a slot, an object and a side, RegInv.lean), the
history `log` and the spec functions below; they do not mention the loop's iterator or states.
-/
namespace Verif.SH

/-! ### C16 -/

/-- C16: no operation of any reachable state uses a freed hook, interface, function or manager
record, a local variable of a function that has returned, or an unset pointer.  Partial: within the
contract `Ok`; LoopFault.lean shows that what it excludes does use freed records. -/
theorem hook_calls_never_fault_partial {E : Env} (hE : EnvOk E) {s : St} (h : LReach E s) {op : Op} (hok : Ok E s op) :
    ∃ s', step E s op = .ok s' :=
  (step_tr hE (h.inv hE) hok).imp fun _ h => h.1

/-- The handler that is running removes all hooks; the loop then goes on. -/
def Ex.removeAll : List Op := setup ++ [.call 2008 1000, .tick, .reg (.removeId 1), .reg (.removeId 2), .reg (.removeId 3),
  .reg (.removeId 4), .handlerRet 0]

example : ∃ s, Ex.go Ex.removeAll = some s ∧ LReach Ex.E s ∧ Ok Ex.E s .tick ∧ s.reg.vfns = [] ∧ s.stack.length = 1 := by
  refine ⟨_, rfl, Ex.go_reach (ops := Ex.removeAll) rfl, okB_ok rfl, rfl, rfl⟩

/-! ### C04, C07 -/

/-- C04: whatever happens during a call, in each of the four groups the hooks are invoked in strictly
increasing order of registration; in particular none twice. -/
theorem hooks_in_order {E : Env} (hE : EnvOk E) {s : St} (h : LReach E s) (cid : Nat) (g : Grp) :
    (invoked s.log cid g).Pairwise (· < ·) := (h.hist hE).log.sorted cid g

example : ((Ex.go Ex.whole).map fun s => (invoked s.log 0 .pre, invoked s.log 0 .preVP, invoked s.log 0 .post)) = some ([3, 7], [6], [8]) := rfl

/-- C04: node numbers are the order of registration: within each list and, by `ltv`, every hook
added later gets a larger number. -/
theorem hooks_listed_in_order {E : Env} (hE : EnvOk E) {s : St} (h : LReach E s) (p a : Addr) (sd : Bool) :
    (view s.reg p a sd).Pairwise (fun x y => x.nid < y.nid) := by
  have hs := (h.inv hE).reg.s
  unfold view
  split
  · exact .nil
  · next v hv =>
    unfold viewV
    split
    · exact .nil
    · next i hi => exact (hs.vi v (List.mem_of_find?_eq_some hv)).sorted i (List.mem_of_find?_eq_some hi) sd

example : ((Ex.go Ex.setup).map fun s => (view s.reg 2008 1000 false).map Hook.nid) = some [3, 7] := rfl

/-- C03, C04, C07: every handler a step invokes belongs to a hook that at this moment is registered for
the slot and object of the call, in the group being run, and is not paused; the handler sees the
object's address less the hook's offset (C51).  So hooks already removed and hooks of other objects or
functions are not invoked. -/
theorem invoked_are_registered {E : Env} (hE : EnvOk E) {s s' : St} (h : LReach E s) {op : Op} (hok : Ok E s op)
    (hst : step E s op = .ok s') :
    ∃ X, s'.log = X ++ s.log ∧ ∀ cid fid g n ifp, Ev.invoke cid fid g n ifp ∈ X →
      ∃ fid0 p this, Ev.enter cid fid0 (some p) this ∈ s.log ∧
        ∃ k ∈ view s.reg p (g.ptr this) g.side, k.nid = n ∧ k.paused = false ∧ ifp = this - k.offs := by
  obtain ⟨X, h1, h2⟩ := new_events (h.inv hE) (h.hist hE) (h.tr hE hok hst)
  exact ⟨X, h1, fun cid fid g n ifp hx => h2 _ hx⟩

example : ∃ s s', Ex.go (Ex.setup ++ [.call 2008 1000]) = some s ∧ Ok Ex.E s .tick ∧ step Ex.E s .tick = .ok s' ∧
    s'.log = .invoke 0 0 .pre 3 1000 :: s.log :=
  ⟨_, _, rfl, okB_ok rfl, rfl, rfl⟩

/-- C04, C07: a handler that is invoked is not deleted, and no hook carrying its number is paused or
registered elsewhere. -/
theorem invoked_is_live {E : Env} (hE : EnvOk E) {s s' : St} (h : LReach E s) {op : Op} (hok : Ok E s op)
    (hst : step E s op = .ok s') {cid fid : Nat} {g : Grp} {n : Nat} {ifp : Addr} (hnew : Ev.invoke cid fid g n ifp ∈ s'.log)
    (hold : Ev.invoke cid fid g n ifp ∉ s.log) :
    n ∉ s.reg.deleted ∧ ∀ p a sd, ∀ k ∈ view s.reg p a sd, k.nid = n → k.paused = false ∧ (a = 0 ∨ ifp + k.offs = a) := by
  obtain ⟨X, h1, h2⟩ := invoked_are_registered hE h hok hst
  rw [h1] at hnew
  rcases List.mem_append.1 hnew with hx | hx
  · obtain ⟨fid0, p0, this, k1, k, k2, k3, k4, k5⟩ := h2 _ _ _ _ _ hx
    obtain ⟨mem0, hw, h0⟩ := (h.inv hE).reg.inv
    refine ⟨by rw [← k3]; exact hw.nid.live _ _ _ _ k2, ?_⟩
    intro p a sd k' hk' e
    obtain ⟨rfl, rfl, rfl, rfl⟩ := hw.nid.uniq _ _ _ _ _ _ _ _ hk' k2 (e.trans k3.symm)
    refine ⟨k4, ?_⟩
    by_cases hz : g.ptr this = 0
    · exact Or.inl hz
    · right
      have : g.ptr this = this := by cases g <;> first | rfl | exact absurd rfl hz
      rw [this, k5]; exact Int.sub_add_cancel ..
  · exact absurd hx hold

example : ∃ s s', Ex.go (Ex.setup ++ [.reg (.pauseId 1 true), .call 2008 1000]) = some s ∧ Ok Ex.E s .tick ∧ step Ex.E s .tick = .ok s' ∧
    Ev.invoke 0 0 .pre 7 1000 ∈ s'.log ∧ Ev.invoke 0 0 .pre 7 1000 ∉ s.log :=
  ⟨_, _, rfl, okB_ok rfl, rfl, List.mem_cons_self .., by decide⟩

/-! ### C05 -/

/-- A call through a slot that has hooks (and could be patched) is a hooked call. -/
theorem hooked_call_enters {E : Env} (hE : EnvOk E) {s s' : St} (h : LReach E s) {p this : Addr} (hok : Ok E s (.call p this))
    (hst : step E s (.call p this) = .ok s') (hwr : E.writable p = true) {a : Addr} {sd : Bool} (hv : view s.reg p a sd ≠ []) :
    Ev.enter s.next s.next (some p) this ∈ s'.log ∧ s'.reg = s.reg := by
  obtain ⟨v, hv1, hv2⟩ := vfn_of_hooked hv
  generalize hop : Op.call p this = op at hok hst
  cases h.tr hE hok hst <;> cases hop
  · next hp => have := hp v hv1 hv2; rw [hwr] at this; cases this
  · exact ⟨List.mem_cons_self .., rfl⟩

example : ∃ s s', Ex.go Ex.setup = some s ∧ Ok Ex.E s (.call 2008 1000) ∧ step Ex.E s (.call 2008 1000) = .ok s' ∧
    Ex.E.writable 2008 = true ∧ view s.reg 2008 1000 false ≠ [] :=
  ⟨_, _, rfl, okB_ok rfl, rfl, rfl, by decide⟩

/-- Start of a hooked call: the object's hooks are found. -/
theorem call_going {E : Env} (hE : EnvOk E) {s s' : St} (h : LReach E s) {p this : Addr} (hok : Ok E s (.call p this))
    (hst : step E s (.call p this) = .ok s') {fid0 : Nat} {q : Option Addr} {b : Addr} (hen : Ev.enter s.next fid0 q b ∈ s'.log) :
    q = some p ∧ b = this ∧ ∀ g : Grp, Kept s'.reg p this g.obj → Running s' s.next g := by
  have hi := h.inv hE
  have hh := h.hist hE
  have hnew : ∀ f q b, Ev.enter s.next f q b ∉ s.log := by
    intro f q b hx
    exact absurd (hh.log.lt _ hx s.next (by simp [Ev.nums])) (Nat.lt_irrefl _)
  generalize hop : Op.call p this = op at hok hst
  cases h.tr hE hok hst <;> cases hop
  · exact absurd hen (hnew _ _ _)
  · next v hv hwr =>
    rcases List.mem_cons.1 hen with e | e
    · cases e
      refine ⟨rfl, rfl, fun g hk => ⟨_, _, .head _ _, rfl, trivial, ?_⟩⟩
      intro ho
      obtain ⟨i, hi1, hi2⟩ := hk.iface hi.reg.s ho hv rfl
      show (v.ifaces.find? (·.ptr == this)).map Iface.oid ≠ none
      rw [← hi2, find?_key (key := Iface.ptr) (hi.reg.s.vi v hv).iptr hi1]
      simp
    · exact absurd e (hnew _ _ _)

theorem Run.enter {E : Env} (hE : EnvOk E) {P : St → Prop} {s s' : St} (h : Run E P s s') (hr : LReach E s) {e : Ev} (he : e ∈ s.log) :
    e ∈ s'.log := by
  induction h with
  | refl _ => exact he
  | step h1 h2 h3 _ ih =>
    obtain ⟨X, hX, _⟩ := new_events ((h1.reach hr).inv hE) ((h1.reach hr).hist hE) ((h1.reach hr).tr hE h2 h3)
    rw [hX]; exact List.mem_append_right _ ih

theorem Run.going {E : Env} (hE : EnvOk E) {s s' : St} {p this : Addr} {g : Grp} (h : Run E (fun s => Kept s.reg p this g.obj) s s')
    (hr : LReach E s) {cid fid0 : Nat} (hen : Ev.enter cid fid0 (some p) this ∈ s.log) (hg : Going s cid g) : Going s' cid g := by
  induction h with
  | refl _ => exact hg
  | step h1 h2 h3 h4 ih =>
    have hr' := h1.reach hr
    exact ih.step (hr'.inv hE) (hr'.hist hE) h2 (hr'.tr hE h2 h3) ((LReach.step hr' h2 h3).inv hE) (h1.enter hE hr hen) h4

theorem Run.awaits {E : Env} (hE : EnvOk E) {s s' : St} {p this : Addr} {g : Grp} {n : Nat} (h : Run E (fun s => Active s.reg p this g n) s s')
    (hr : LReach E s) {cid fid0 : Nat} (hen : Ev.enter cid fid0 (some p) this ∈ s.log) (hg : Awaits s cid g n) : Awaits s' cid g n := by
  induction h with
  | refl _ => exact hg
  | step h1 h2 h3 h4 ih =>
    have hr' := h1.reach hr
    exact ih.step (hr'.inv hE) (hr'.hist hE) h2 (hr'.tr hE h2 h3) ((LReach.step hr' h2 h3).inv hE) (h1.enter hE hr hen) h1.last h4

theorem Awaits.over {E : Env} {s : St} (m : MInv E s) (h : HInv s) {cid : Nat} {g : Grp} {n : Nat} (ha : Awaits s cid g n)
    (hov : GroupOver s.log cid g) : n ∈ invoked s.log cid g := by
  rcases ha with e | ⟨_, f, c, hi, rfl, ht, _⟩
  · exact e
  · exact absurd hov (notOver m h hi ht)

/-- C05: a call on object `this` through slot `p` starts (`s0` to `s1`).  Up to `sa` the function keeps
a hook, and if `g` is a group of the object's own hooks, the object keeps one.  In `sa` group `g` is not over and
hook `n` was not passed over in it; from then on until `sb` the hook is registered and unpaused.  If
group `g` is over in `sb`, then the hook was invoked. -/
theorem no_hook_missed {E : Env} (hE : EnvOk E) {s0 s1 sa sb : St} (h : LReach E s0) {p this : Addr} (hok : Ok E s0 (.call p this))
    (hst : step E s0 (.call p this) = .ok s1) {fid0 : Nat} (hen : Ev.enter s0.next fid0 (some p) this ∈ s1.log) {g : Grp} {n : Nat}
    (r1 : Run E (fun s => Kept s.reg p this g.obj) s1 sa) (hcl : Client sa)
    (hno : ¬ GroupOver sa.log s0.next g) (hns : n ∉ skipped sa.log s0.next g)
    (r2 : Run E (fun s => Active s.reg p this g n) sa sb) (hov : GroupOver sb.log s0.next g) : n ∈ invoked sb.log s0.next g := by
  have hr1 : LReach E s1 := .step h hok hst
  have hra := r1.reach hr1
  obtain ⟨_, _, hrun⟩ := call_going hE h hok hst hen
  obtain ⟨f, c, k1, k2, k3, k4⟩ := hrun g r1.first
  have hg := r1.going hE hr1 hen (Or.inr ⟨f, c, k1, k2, k3.notDead, k4, Or.inl k3⟩)
  rcases hg with e | ⟨f, c, hi, hcid, hnd, hI, ht⟩
  · exact absurd e hno
  have ht' : Todo c.st g := by
    rcases ht with e | e
    · exact e
    · -- no activation is at its post loop while foreign code runs
      exfalso
      have hin := hi.mem_l
      have hsh := (hra.inv hE).shape
      unfold Client at hcl
      split at hcl
      · next e2 => rw [e2] at hin; cases hin
      · next f1 fs e2 =>
        rw [e2] at hin hsh
        rcases List.mem_cons.1 hin with rfl | hin
        · rw [e] at hcl; exact hcl
        · exact hsh.notTop hin e
      · exact hcl
  exact (r2.awaits hE hra (r1.enter hE hr1 hen) (Or.inr ⟨hns, f, c, hi, hcid, ht', hI⟩)).over ((r2.reach hra).inv hE) ((r2.reach hra).hist hE) hov

/-- C05, for a hook that is registered when the call starts. -/
theorem no_hook_missed_from_start {E : Env} (hE : EnvOk E) {s0 s1 sb : St} (h : LReach E s0) {p this : Addr} (hok : Ok E s0 (.call p this))
    (hst : step E s0 (.call p this) = .ok s1) {fid0 : Nat} (hen : Ev.enter s0.next fid0 (some p) this ∈ s1.log) {g : Grp} {n : Nat}
    (r2 : Run E (fun s => Active s.reg p this g n) s1 sb) (hov : GroupOver sb.log s0.next g) : n ∈ invoked sb.log s0.next g := by
  have hr1 : LReach E s1 := .step h hok hst
  obtain ⟨_, _, hrun⟩ := call_going hE h hok hst hen
  refine (r2.awaits hE hr1 hen (Or.inr ⟨?_, hrun g r2.first.kept⟩)).over ((r2.reach hr1).inv hE) ((r2.reach hr1).hist hE) hov
  rw [mem_skipped]
  intro hx
  have hlt := (h.hist hE).log.lt
  have hlog : s1.log = s0.log ∨ ∃ f q b, s1.log = .enter s0.next f q b :: s0.log := by
    generalize hop : Op.call p this = op at hok hst
    cases h.tr hE hok hst <;> cases hop
    · exact Or.inl rfl
    · exact Or.inr ⟨_, _, _, rfl⟩
  have hold : Ev.skip s0.next g n ∉ s0.log := fun hx => absurd (hlt _ hx s0.next (by simp [Ev.nums])) (Nat.lt_irrefl _)
  rcases hlog with e | ⟨f, q, b, e⟩
  · rw [e] at hx; exact hold hx
  · rw [e] at hx
    rcases List.mem_cons.1 hx with e | e
    · cases e
    · exact hold e

/-- Executable forms, for the examples. -/
def activeB (r : Reg) (p this : Addr) (g : Grp) (n : Nat) : Bool := (view r p (g.ptr this) g.side).any fun h => h.nid == n && !h.paused

theorem activeB_ok {r : Reg} {p this : Addr} {g : Grp} {n : Nat} (h : activeB r p this g n = true) : Active r p this g n := by
  obtain ⟨k, h1, h2⟩ := List.any_eq_true.1 h
  rw [Bool.and_eq_true] at h2
  exact ⟨k, h1, by simpa using h2.1, by simpa using h2.2⟩

/-- The first handler removes its own hook and adds another one, calls the function again on the same
object, and goes on; then the call ends. -/
def Ex.busy : List Op := [.tick, .reg (.removeId 1), .reg (.add a1), .call 2008 1000, .tick, .handlerRet 0, .tick, .handlerRet 0, .tick,
  .handlerRet 0, .tick, .origRet 1, .tick, .handlerRet 0, .tick, .handlerRet 0, .tick, .handlerRet 0, .tick, .handlerRet 0, .tick]

example : ∃ s0 s1 sb, Ex.go Ex.setup = some s0 ∧ Ok Ex.E s0 (.call 2008 1000) ∧ step Ex.E s0 (.call 2008 1000) = .ok s1 ∧
    Ev.enter s0.next 0 (some 2008) 1000 ∈ s1.log ∧ Run Ex.E (fun s => Active s.reg 2008 1000 .pre 7) s1 sb ∧
    GroupOver sb.log s0.next .pre ∧ invoked sb.log s0.next .pre = [3, 7, 9] := by
  refine ⟨_, _, _, rfl, okB_ok rfl, rfl, List.mem_cons_self .., (runB_run (P := fun s => activeB s.reg 2008 1000 .pre 7) (ops := Ex.busy) rfl).mono
    (fun s h => activeB_ok h), Or.inl ⟨1, by decide, by decide⟩, rfl⟩

example : ∃ s0 s1 sa sb, Ex.go Ex.setup = some s0 ∧ step Ex.E s0 (.call 2008 1000) = .ok s1 ∧
    Run Ex.E (fun s => Kept s.reg 2008 1000 (Grp.pre).obj) s1 sa ∧ Client sa ∧ ¬ GroupOver sa.log s0.next .pre ∧ 9 ∉ skipped sa.log s0.next .pre ∧
    Run Ex.E (fun s => Active s.reg 2008 1000 .pre 9) sa sb ∧ GroupOver sb.log s0.next .pre := by
  refine ⟨_, _, _, _, rfl, rfl, (runB_run (P := fun s => activeB s.reg 2008 1000 .pre 7) (ops := Ex.busy.take 3) rfl).mono
    (fun s h => (activeB_ok h).kept), clientB_ok rfl, ?_, by decide, (runB_run (P := fun s => activeB s.reg 2008 1000 .pre 9) (ops := Ex.busy.drop 3) rfl).mono
    (fun s h => activeB_ok h), Or.inl ⟨1, by decide, by decide⟩⟩
  rintro (⟨k, h1, h2⟩ | ⟨fid, v, h⟩)
  · have h1 : k ∈ [0] := h1
    rw [List.mem_singleton] at h1; subst h1; cases h2
  · have h : Ev.ret 0 fid v ∈ [Ev.invoke 0 0 .pre 3 1000, Ev.enter 0 0 (some 2008) 1000] := h
    simp at h

end Verif.SH

#print axioms Verif.SH.hook_calls_never_fault_partial
#print axioms Verif.SH.hooked_call_enters
#print axioms Verif.SH.hooks_in_order
#print axioms Verif.SH.hooks_listed_in_order
#print axioms Verif.SH.invoked_are_registered
#print axioms Verif.SH.invoked_is_live
#print axioms Verif.SH.no_hook_missed
#print axioms Verif.SH.no_hook_missed_from_start
