import Verif.SH.LoopHist
import Verif.SH.RegProps
/-
Concrete runs for the examples beside the theorems about hook calls: an executable check of the
contract and the states it leads to.
-/
namespace Verif.SH

/-- Executable (sufficient) version of `Client`. -/
def clientB (s : St) : Bool :=
  match s.frames with
  | [] => true
  | .hook f :: _ => match f.pt with
    | .inPre _ | .inPost _ | .inOrig => true
    | _ => false
  | .sh :: _ => false

def handlerB (s : St) : Bool :=
  match s.frames with
  | .hook f :: _ => match f.pt with
    | .inPre _ | .inPost _ => true
    | _ => false
  | _ => false

def ownB (r : Reg) : Bool :=
  r.vfns.all fun v => v.ifaces.all fun i => (i.pre ++ i.post).all fun h =>
    v.hms.any fun o => r.hms.any fun m => m.oid == o && m.plug == h.plug

def regOkB (E : Env) (s : St) : RegOp → Bool
  | .add a => (s.reg.hms.all fun h => h.pub != a.pub || h.plug == a.plug) &&
      (match a.info with | none => true | some i => E.pubAt i.hookfunc == some a.pub) &&
      s.stack.all fun c => c.st != .preVP && c.st != .postVP
  | .unload _ => ownB s.reg
  | .removeHm .. => s.stack.isEmpty
  | _ => true

/-- Executable (sufficient) version of `Ok`. -/
def okB (E : Env) (s : St) : Op → Bool
  | .reg op => clientB s && regOkB E s op
  | .poke .. => false
  | .call _ this => clientB s && this != 0
  | .shCall p _ => clientB s && E.writable p && s.reg.vfns.any (fun v => v.ptr == p)
  | .shEnd => match s.frames with | .sh :: _ => true | _ => false
  | .setRes res => handlerB s && decide (res ≤ 3)
  | .recall res _ p this => handlerB s && decide (res ≤ 3) && E.writable p && match s.stack with
      | [] => false
      | c :: _ => c.st != .dead && this == c.this && s.reg.vfns.any (fun v => v.ptr == p && c.vfn == some v.oid &&
          (c.iface != none || (v.ifaces.find? (·.ptr == this)).isNone))
  | .recallRet => match s.frames with
      | .hook f :: _ => match f.pt with
        | .recPre _ (some _) | .recPost _ (some _) => true
        | _ => false
      | _ => false
  | .tick => match s.frames with
      | .hook f :: _ => f.pt == .preLoop || f.pt == .postLoop
      | _ => false
  | .handlerRet _ => handlerB s
  | .origRet _ => match s.frames with
      | .hook f :: _ => f.pt == .inOrig
      | _ => false
  | .resolve force => clientB s && force

theorem clientB_ok {s : St} (h : clientB s = true) : Client s := by
  unfold clientB at h; unfold Client
  split at h
  · next e => rw [e]; trivial
  · split at h
    · simp_all
    · simp_all
    · simp_all
    · cases h
  · cases h

theorem handlerB_ok {s : St} (h : handlerB s = true) : InHandler s := by
  unfold handlerB at h; unfold InHandler
  split at h
  · split at h
    · simp_all
    · simp_all
    · cases h
  · cases h

theorem okB_ok {E : Env} {s : St} {op : Op} (h : okB E s op = true) : Ok E s op := by
  cases op with
  | reg op =>
    simp only [okB, Bool.and_eq_true] at h
    refine ⟨clientB_ok h.1, ?_⟩
    cases op with
    | add a =>
      simp only [regOkB, Bool.and_eq_true, List.all_eq_true] at h
      obtain ⟨_, ⟨h1, h2⟩, h3⟩ := h
      refine ⟨?_, ?_, ?_⟩
      · intro m hm he
        have := h1 m hm
        simp [he] at this; exact this
      · intro info hi; rw [hi] at h2; simpa using h2
      · intro c hc hst
        have := h3 c hc
        rcases hst with e | e <;> simp [e] at this
    | unload p =>
      left
      intro v hv i hi sd hk hhk
      have := h.2
      simp only [regOkB, ownB, List.all_eq_true] at this
      have := this v hv i hi hk (by cases sd; exact List.mem_append_left _ hhk; exact List.mem_append_right _ hhk)
      simp only [List.any_eq_true, Bool.and_eq_true, beq_iff_eq] at this
      obtain ⟨o, ho, m, hm, e1, e2⟩ := this
      exact ⟨o, ho, m.pub, m.info, m, hm, e1, e2, rfl, rfl⟩
    | removeHm p q => show s.stack = []; simpa [regOkB] using h.2
    | _ => trivial
  | poke a b => cases h
  | call p this =>
    simp only [okB, Bool.and_eq_true, bne_iff_ne] at h
    exact ⟨clientB_ok h.1, h.2⟩
  | shCall p this =>
    simp only [okB, Bool.and_eq_true, List.any_eq_true, beq_iff_eq] at h
    exact ⟨clientB_ok h.1.1, h.1.2, h.2⟩
  | shEnd =>
    simp only [okB] at h
    split at h
    · next fs e => exact ⟨fs, e⟩
    · cases h
  | setRes res =>
    simp only [okB, Bool.and_eq_true, decide_eq_true_eq] at h
    exact ⟨handlerB_ok h.1, h.2⟩
  | recall res val p this =>
    simp only [okB, Bool.and_eq_true, decide_eq_true_eq] at h
    obtain ⟨⟨⟨h1, h2⟩, h3⟩, h4⟩ := h
    refine ⟨handlerB_ok h1, h2, h3, ?_⟩
    split at h4
    · cases h4
    · next c cs e =>
      simp only [Bool.and_eq_true, bne_iff_ne, List.any_eq_true, beq_iff_eq, Bool.or_eq_true, Option.isNone_iff_eq_none] at h4
      obtain ⟨⟨k1, k2⟩, v, hv, ⟨k3, k4⟩, k5⟩ := h4
      refine ⟨c, cs, e, k1, v, hv, k4, k3.symm, k2, ?_⟩
      intro _ hn
      rcases k5 with k5 | k5
      · exact absurd hn k5
      · exact k5
  | recallRet =>
    simp only [okB] at h
    split at h
    · next f fs e =>
      split at h
      · next n v e2 => exact ⟨f, fs, n, v, e, Or.inl e2⟩
      · next n v e2 => exact ⟨f, fs, n, v, e, Or.inr e2⟩
      · cases h
    · cases h
  | tick =>
    simp only [okB] at h
    split at h
    · next f fs e =>
      simp only [Bool.or_eq_true, beq_iff_eq] at h
      exact ⟨f, fs, e, h⟩
    · cases h
  | handlerRet v => exact handlerB_ok h
  | origRet v =>
    simp only [okB] at h
    split at h
    · next f fs e => simp only [beq_iff_eq] at h; exact ⟨f, fs, e, h⟩
    · cases h
  | resolve force =>
    simp only [okB, Bool.and_eq_true] at h
    exact ⟨clientB_ok h.1, h.2⟩

/-- Runs a list of operations, checking the contract and a property of every state. -/
def runB (E : Env) (P : St → Bool) (s : St) : List Op → Option St
  | [] => if P s then some s else none
  | op :: ops =>
    if P s && okB E s op then
      match step E s op with
      | .ok s' => runB E P s' ops
      | .error _ => none
    else none

theorem Run.cons {E : Env} {P : St → Prop} {s s' s'' : St} {op : Op} (h0 : P s) (h1 : Ok E s op) (h2 : Verif.SH.step E s op = .ok s')
    (h3 : Run E P s' s'') : Run E P s s'' := by
  induction h3 with
  | refl h => exact .step (.refl h0) h1 h2 h
  | step _ k1 k2 k3 ih => exact .step ih k1 k2 k3

theorem runB_run {E : Env} {P : St → Bool} {s s' : St} {ops : List Op} (h : runB E P s ops = some s') :
    Run E (fun s => P s = true) s s' := by
  induction ops generalizing s with
  | nil =>
    unfold runB at h
    split at h
    · next hp => cases h; exact .refl hp
    · cases h
  | cons op ops ih =>
    unfold runB at h
    split at h
    · next hp =>
      rw [Bool.and_eq_true] at hp
      split at h
      · next s1 e => exact Run.cons hp.1 (okB_ok hp.2) e (ih h)
      · cases h
    · cases h

theorem runB_reach {E : Env} {P : St → Bool} {s s' : St} {ops : List Op} (h : runB E P s ops = some s') (hr : LReach E s) :
    LReach E s' := (runB_run h).reach hr

theorem runB_cons (E : Env) (P : St → Bool) (s : St) (op : Op) (ops : List Op) : runB E P s (op :: ops) =
    if P s && okB E s op then (match step E s op with
      | .ok s' => runB E P s' ops
      | .error _ => none) else none := rfl

theorem runB_append {E : Env} {P : St → Bool} {s s' : St} {a b : List Op} (h : runB E P s (a ++ b) = some s') :
    ∃ t, runB E P s a = some t ∧ runB E P t b = some s' := by
  induction a generalizing s with
  | nil =>
    refine ⟨s, ?_, h⟩
    have hp : P s = true := (runB_run h).first
    simp [runB, hp]
  | cons op a ih =>
    rw [List.cons_append, runB_cons] at h
    rw [runB_cons]
    split at h
    · next hp =>
      rw [if_pos hp]
      split at h
      · next s1 e => exact ih h
      · cases h
    · cases h

theorem runB_one {E : Env} {P : St → Bool} {s s' : St} {op : Op} {ops : List Op} (h : runB E P s (op :: ops) = some s') :
    ∃ t, Ok E s op ∧ step E s op = .ok t ∧ runB E P t ops = some s' := by
  unfold runB at h
  split at h
  · next hp =>
    rw [Bool.and_eq_true] at hp
    split at h
    · next s1 e => exact ⟨s1, okB_ok hp.2, e, h⟩
    · cases h
  · cases h

namespace Ex

theorem envOk : EnvOk E := fun _ _ => rfl

def s0 : St := { reg := { mem := mem } }

theorem sreach0 : LReach E s0 := .init mem (by
  intro a
  unfold mem
  repeat (split; · rfl)
  rfl)

/-- Runs from the start. -/
def go (ops : List Op) : Option St := runB E (fun _ => true) s0 ops

theorem go_reach {ops : List Op} {s : St} (h : go ops = some s) : LReach E s := runB_reach h sreach0

theorem go_isSome {ops : List Op} (h : (go ops).isSome = true) : ∃ s, go ops = some s := Option.isSome_iff_exists.1 h

/-- Checks a property of the state a run ends in. -/
theorem chk {ops : List Op} {s : St} (h : go ops = some s) (P : St → Bool) (hp : (go ops).map P = some true) : P s = true := by
  rw [h] at hp; exact Option.some.inj hp

/-- The states around one operation of a run. -/
theorem split {a ops : List Op} {op : Op} {s2 : St} (h : go (a ++ op :: ops) = some s2) :
    ∃ s0 s1, go a = some s0 ∧ Ok E s0 op ∧ step E s0 op = .ok s1 ∧ LReach E s0 ∧ LReach E s1 ∧ runB E (fun _ => true) s1 ops = some s2 := by
  obtain ⟨s0, h1, h2⟩ := runB_append h
  obtain ⟨s1, h3, h4, h5⟩ := runB_one h2
  have hr := go_reach h1
  exact ⟨s0, s1, h1, h3, h4, hr, .step hr h3 h4, h5⟩

/-- The innermost activation of the state a run ends in. -/
theorem top {ops : List Op} (P : Frame → St → Bool)
    (h : (go ops).map (fun s => match s.frames with
      | .hook f :: _ => P f s
      | _ => false) = some true) : ∃ s f fs, go ops = some s ∧ LReach E s ∧ s.frames = .hook f :: fs ∧ P f s = true := by
  cases hg : go ops with
  | none => rw [hg] at h; cases h
  | some s =>
    rw [hg] at h
    have h := Option.some.inj h
    dsimp only at h
    split at h
    · next f fs e => exact ⟨s, f, fs, rfl, go_reach hg, e, h⟩
    · cases h

/-- Plugin 1 hooks object 1000 (post). -/
def a4 : AddArgs := ⟨1, 0, 1000, 0, 1, some info1, ⟨14, 14⟩, true⟩

/-- Three pre hooks (one vtable-wide) and a post hook. -/
def setup : List Op := [.reg (.add a1), .reg (.add a2), .reg (.add a3), .reg (.add a4)]

/-- A call with all handlers answering "ignored", up to the original function. -/
def half : List Op := setup ++ [.call 2008 1000, .tick, .handlerRet 0, .tick, .handlerRet 0, .tick, .handlerRet 0, .tick]

/-- The whole call. -/
def whole : List Op := half ++ [.origRet 7, .tick, .handlerRet 0, .tick]


example : ((go half).map fun s => (invoked s.log 0 .pre, invoked s.log 0 .preVP, s.stack.length)) = some ([3, 7], [6], 1) := rfl

end Ex

end Verif.SH
