import Verif.Jit.RuleProps
import Verif.Jit32.RuleProps
import Verif.SH.LoopResult
/-
C91: the hook functions generated at run time choose as the hook functions the macros make.

The hook functions of the macros (core/sourcehook/sourcehook.h:937-983) are part of the machine of
Verif/SH/Loop.lean, where `Verif.SH.call_outcome` and `Verif.SH.handler_sees` say what a call does.
The generated ones are machine code (`Verif.Jit.Rule.hook_rule`, `Verif.Jit32.Rule.hook_rule`).
The two were modelled and specified apart from each other; here the same handlers with the same
answers are given to both.
-/
namespace Verif.Alike

open Verif.SH (Val Ev LReach EnvOk results origVals highest lastOver preRes callees Recalled AtHandler runs getStatus getOverrideRet getOrigRet Fr)

/-! ## The handlers' answers, without regard to who called them -/

/-- Specification: the value of the last answer of `MRES_OVERRIDE` (2) or more. -/
def lastOf {α : Type} (l : List (Nat × α)) : Option α := ((l.filter fun x => decide (2 ≤ x.1)).getLast?).map (·.2)

/-- Specification: the highest answer. -/
def topOf {α : Type} (l : List (Nat × α)) : Nat := l.foldl (fun a x => max a x.1) 0

/-- Specification: answer and value of each handler that the machine of Verif/SH recorded, the value
as the generated function has it. -/
def given {α : Type} (enc : Val → α) (rs : List (Bool × Nat × Val)) : List (Nat × α) := rs.map fun x => (x.2.1, enc x.2.2)

/-- Specification: the same answers came from handlers in front of the original function and from
handlers behind it: `pre` and `post`. -/
def Same {α : Type} (enc : Val → α) (rs : List (Bool × Nat × Val)) (pre post : List (Nat × α)) : Prop :=
  rs.map (fun x => (x.1, x.2.1, enc x.2.2)) = pre.map (fun h => (false, h)) ++ post.map (fun h => (true, h))

theorem Same.given {α : Type} {enc : Val → α} {rs : List (Bool × Nat × Val)} {pre post : List (Nat × α)} (h : Same enc rs pre post) :
    given enc rs = pre ++ post := by
  have := congrArg (List.map fun x : Bool × Nat × α => x.2) h
  simpa [Alike.given, Function.comp_def] using this

theorem Same.pre {α : Type} {enc : Val → α} {rs : List (Bool × Nat × Val)} {pre post : List (Nat × α)} (h : Same enc rs pre post) :
    Alike.given enc (preRes rs) = pre := by
  have := congrArg (fun l : List (Bool × Nat × α) => (l.filter fun x => !x.1).map fun x => x.2) h
  simp only [List.filter_append, List.filter_map, Function.comp_def, List.map_append, List.map_map] at this
  have e1 : (pre.filter fun _ => true) = pre := List.filter_eq_self.2 fun _ _ => rfl
  have e2 : (post.filter fun _ => false) = [] := List.filter_eq_nil_iff.2 fun _ _ => Bool.false_ne_true
  simp only [Bool.not_false, Bool.not_true, e1, e2] at this
  simpa [Alike.given, preRes, Function.comp_def] using this

theorem highest_given {α : Type} (enc : Val → α) (rs : List (Bool × Nat × Val)) : highest rs = topOf (given enc rs) := by
  unfold highest topOf given
  rw [List.foldl_map]
  rfl

theorem lastOver_given {α : Type} (enc : Val → α) (rs : List (Bool × Nat × Val)) : (lastOver rs).map enc = lastOf (given enc rs) := by
  unfold lastOver lastOf given
  rw [List.filter_map, List.getLast?_map, Option.map_map, Option.map_map]
  rfl

theorem topOf_append {α : Type} (a b : List (Nat × α)) : topOf (a ++ b) = b.foldl (fun a x => max a x.1) (topOf a) := List.foldl_append

theorem pre_some {α : Type} {enc : Val → α} {rs : List (Bool × Nat × Val)} {pre post : List (Nat × α)} (h : Same enc rs pre post) :
    (∃ x ∈ preRes rs, x.2.1 = 3) ↔ ∃ x ∈ pre, x.1 = 3 := by
  rw [← h.pre]
  constructor
  · rintro ⟨x, hx, e⟩
    exact ⟨_, List.mem_map_of_mem hx, e⟩
  · rintro ⟨x, hx, e⟩
    obtain ⟨y, hy, rfl⟩ := List.mem_map.1 hx
    exact ⟨y, hy, e⟩

/-! ## 64 bits -/

section
open Verif.Jit (W World Vars Gen Memory Ans Mach GenOk Provided hookStack Returns AreCalls generateHookFunc world varsAt paramsIn firstReg rd flagByRef typeFloat)
open Verif.Jit.Rule

/-- Specification: answer and value of a hook of the generated function. -/
def hookGiven (h : Hook) : Nat × W := (h.res.toNat, h.val)

theorem status_top (g : Gen) : ∀ (hs : List Hook) (σ : Verif.Jit.Rule.St), (passed g σ hs).status.toNat = (hs.map hookGiven).foldl (fun a x => max a x.1) σ.status.toNat := by
  intro hs
  induction hs with
  | nil => intro σ; rfl
  | cons h hs ih =>
    intro σ
    refine (ih (σ.hook g h)).trans ?_
    have e : (σ.hook g h).status.toNat = max σ.status.toNat h.res.toNat := by
      simp only [St.hook, raised]
      split <;> omega
    rw [e]
    rfl

theorem lastOverride_given (hs : List Hook) : (lastOverride hs).map Hook.val = lastOf (hs.map hookGiven) := by
  unfold lastOverride lastOf
  rw [List.filter_map, List.getLast?_map, Option.map_map]
  rfl

variable {Wd : World} {V : Vars} {g : Gen} {C : Context} {H : List Hook}

/-- The context is asked, unless a hook superceded. -/
theorem asked {m : Memory} {pre post : List Hook} {mid ans : List Ans} {o : Option W} (P : Plays Wd V g C H m pre post mid ans o)
    (h : ∀ x ∈ pre, x.res ≠ 3) : ∃ a as, mid = a :: as := by
  obtain ⟨a, as₁, as₃, as₄, rfl, pa, l1, lo, l2, le⟩ := P
  have hh := status_highest g (first V m) rfl pre
  generalize (passed g (first V m) pre) = σ at lo hh
  generalize σ.orig g o = σ' at lo
  cases lo with
  | superceded e =>
    rcases hh.2 with h0 | ⟨k, hk, hr⟩
    · rw [h0] at e; cases e
    · exact absurd (hr.trans e) (h k hk)
  | refused _ _ _ => exact ⟨_, _, rfl⟩
  | called _ _ _ _ => exact ⟨_, _, rfl⟩

theorem pre_three {hs : List Hook} : (∃ x ∈ hs.map hookGiven, x.1 = 3) ↔ ∃ k ∈ hs, k.res = 3 := by
  constructor
  · rintro ⟨x, hx, e⟩
    obtain ⟨k, hk, rfl⟩ := List.mem_map.1 hx
    exact ⟨k, hk, BitVec.eq_of_toNat_eq e⟩
  · rintro ⟨k, hk, e⟩
    exact ⟨_, List.mem_map_of_mem hk, congrArg BitVec.toNat e⟩

/-- **C91**, 64 bits: a call of a hooked function through a hook function of the macros has returned
`v`.  If the handlers of a call of a generated hook function give the same answers and values, the
original function (if called in both) the same value, and the context does not refuse it
(`ShouldCallOrig`; only a recall behind the original function refuses), then the generated function
calls the original function exactly if the other did, and returns `v`. -/
theorem agree64 {E : Verif.SH.Env} (hE : EnvOk E) {st : Verif.SH.St} (hr : LReach E st) {cid fid : Nat} {p : Option Verif.SH.Addr} {this : Verif.SH.Addr}
    (hen : Ev.enter cid fid p this ∈ st.log) {f : Nat} {v : Val} (hret : Ev.ret cid f v ∈ st.log) (hn : ¬ Recalled st.log cid)
    {acc keep : W → Bool} (h : GenOk g) (S : Simple g) (s : Mach)
    (pr : Provided acc keep (hookStack g (s.reg 4)))
    (out : ∀ c ∈ objects g C H, Outside acc (hookStack g (s.reg 4)) c.1)
    (hi : Outside acc (hookStack g (s.reg 4)) g.pHI)
    (vt : Outside acc (hookStack g (s.reg 4)) (s.reg 1 + BitVec.ofInt 64 g.vtblOffs))
    {pre post : List Hook} {mid ans : List Ans} {o : Option W}
    (P : Plays (world acc keep (hookStack g (s.reg 4))) (varsAt g (hookStack g (s.reg 4))) g C H s.mem pre post mid ans o)
    {enc : Val → W} (same : Same enc (results st.log fid) (pre.map hookGiven) (post.map hookGiven))
    (yes : ∀ a as, mid = a :: as → a.reg 0 &&& 1 ≠ 0)
    (ov : ∀ x w, origVals st.log fid = [x] → o = some w → w = enc x) (rest : List Ans) :
    (o.isSome = true ↔ (callees st.log cid).count none = 1) ∧
    ∃ code, generateHookFunc g = some code ∧ ∃ t' s', Returns acc keep code s (ans ++ rest) t' (rd s.mem (s.reg 4)) s' rest ∧
      (∃ t, AreCalls (hookStack g (s.reg 4)) t t' ∧
        AreSeen (varsAt g (hookStack g (s.reg 4))) g t (wanted (varsAt g (hookStack g (s.reg 4))) g C
          s.mem (s.reg 1) (paramsIn s (firstReg g.ret) g.params) pre post o)) ∧
      (g.ret.size ≠ 0 → low (width g) (if g.ret.has flagByRef = false ∧ g.ret.type = typeFloat then s'.xmm 0 else s'.reg 0)
        = low (width g) (enc v)) := by
  obtain ⟨code, hc, t', s', hrun, hcalls, hval, -⟩ := hook_rule (C := C) (H := H) h S s pr out hi vt P rest
  have hO := orig_called_iff P
  have hlast : (lastOverride (pre ++ post)).map Hook.val = (lastOver (results st.log fid)).map enc := by
    rw [lastOverride_given, lastOver_given, same.given, List.map_append]
  have hsup : (∃ x ∈ preRes (results st.log fid), x.2.1 = 3) ↔ ∃ k ∈ pre, k.res = 3 := by
    rw [pre_some same]
    exact pre_three
  obtain ⟨-, -, -, hout⟩ := Verif.SH.call_outcome hE hr hen hret hn
  have key : (o.isSome = true ↔ (callees st.log cid).count none = 1) ∧
      ruled (varsAt g (hookStack g (s.reg 4))) s.mem pre post o = enc v := by
    rcases hout with ⟨h1, h2, x, hx, hv⟩ | ⟨h1, h2, h3⟩
    · have hno : ∀ k ∈ pre, k.res ≠ 3 := by
        intro k hk e
        obtain ⟨y, hy, e'⟩ := hsup.2 ⟨k, hk, e⟩
        have := h1 y hy
        rw [e'] at this
        exact absurd this (by decide)
      obtain ⟨a, as, hm⟩ := asked P hno
      have hso : o.isSome = true := hO.2 ⟨hno, a, as, hm, yes a as hm⟩
      refine ⟨⟨fun _ => h2, fun _ => hso⟩, ?_⟩
      obtain ⟨w, rfl⟩ := Option.isSome_iff_exists.1 hso
      have hw := ov x w hx rfl
      unfold ruled
      cases hl : lastOverride (pre ++ post) with
      | some k =>
        rw [hl] at hlast
        cases hl2 : lastOver (results st.log fid) with
        | none => rw [hl2] at hlast; cases hlast
        | some y =>
          rw [hl2] at hlast hv
          rw [hv]
          exact Option.some.inj hlast
      | none =>
        rw [hl] at hlast
        cases hl2 : lastOver (results st.log fid) with
        | some y => rw [hl2] at hlast; cases hlast
        | none =>
          rw [hl2] at hv
          rw [hv]
          exact hw
    · have hcnt : (callees st.log cid).count none = 0 := List.count_eq_zero.2 h2
      have hnone : ¬ o.isSome = true := by
        intro e
        obtain ⟨k, hk, e'⟩ := hsup.1 h1
        exact (hO.1 e).1 k hk e'
      refine ⟨⟨fun e => absurd e hnone, fun e => by rw [hcnt] at e; cases e⟩, ?_⟩
      rw [h3] at hlast
      unfold ruled
      cases hl : lastOverride (pre ++ post) with
      | none => rw [hl] at hlast; cases hlast
      | some k =>
        rw [hl] at hlast
        exact Option.some.inj hlast
  refine ⟨key.1, code, hc, t', s', hrun, hcalls, fun hz => ?_⟩
  rw [hval hz, key.2]

/-- **C91**, 64 bits: what a handler of a call through a hook function of the macros sees is what the
hook called at that place by the generated function sees: the status, the override value if there is
one, and, behind the original function, the original value.  (`hook_rule`: the state with which the
generated function calls a hook is `passed` of the state before.) -/
theorem handlers_agree64 {E : Verif.SH.Env} (hE : EnvOk E) {st : Verif.SH.St} (hr : LReach E st) {f : Verif.SH.Frame} {fs : List Fr} (hf : st.frames = .hook f :: fs)
    {post : Bool} (hat : AtHandler post f.pt) (hn : ¬ Recalled st.log f.cid) (S : Simple g) (m : Memory)
    {enc : Val → W} {before behind : List Hook} (same : Same enc (results st.log f.fid) (before.map hookGiven) (behind.map hookGiven))
    (hb : post = false → behind = []) {o : Option W} (ho : o.isSome = true ↔ ∀ k ∈ before, k.res ≠ 3)
    (ov : ∀ x w, origVals st.log f.fid = [x] → o = some w → w = enc x)
    {σ : Verif.Jit.Rule.St} (hσ : σ = if post then passed g ((passed g (first V m) before).orig g o) behind else passed g (first V m) before) :
    getStatus st = .ok σ.status.toNat ∧
    (∃ x, getOverrideRet st = .ok x ∧ (x.isSome = true ↔ 2 ≤ σ.status.toNat) ∧ ∀ y, x = some y → low (width g) σ.ov = low (width g) (enc y)) ∧
    (post = true → ∃ x, getOrigRet st = .ok x ∧ low (width g) σ.or = low (width g) (enc x)) := by
  obtain ⟨-, h2, -, h4, h5⟩ := Verif.SH.handler_sees hE hr hf hat hn
  have hlast : (lastOverride (before ++ behind)).map Hook.val = (lastOver (results st.log f.fid)).map enc := by
    rw [lastOverride_given, lastOver_given, same.given, List.map_append]
  have hstat : σ.status.toNat = highest (results st.log f.fid) := by
    rw [highest_given enc, same.given, topOf_append, hσ]
    cases post with
    | true =>
      rw [if_pos rfl, status_top]
      have e : ((passed g (first V m) before).orig g o).status = (passed g (first V m) before).status := by cases o <;> rfl
      rw [e, status_top]
      rfl
    | false =>
      rw [if_neg Bool.false_ne_true, hb rfl, status_top]
      rfl
  have hov : low (width g) σ.ov = low (width g) (match lastOverride (before ++ behind) with | some k => k.val | none => (first V m).ov) := by
    rw [hσ]
    cases post with
    | true =>
      rw [if_pos rfl, override_last S]
      have e : ((passed g (first V m) before).orig g o).ov = (passed g (first V m) before).ov := by cases o <;> rfl
      rw [e]
      have e2 : lastOverride (before ++ behind) = (lastOverride behind).or (lastOverride before) := by
        unfold lastOverride
        rw [List.filter_append, List.getLast?_append]
      rw [e2]
      cases lastOverride behind with
      | some k => rfl
      | none =>
        rw [override_last S]
        rfl
    | false =>
      rw [if_neg Bool.false_ne_true, hb rfl, List.append_nil, override_last S]
      cases lastOverride before <;> rfl
  have hsome : (lastOver (results st.log f.fid)).isSome = true ↔ 2 ≤ σ.status.toNat := by
    rw [hstat]
    constructor
    · intro e
      apply Decidable.byContradiction
      intro hlt
      rw [Verif.SH.lastOver_none (by unfold Verif.SH.override; omega)] at e
      cases e
    · intro e
      obtain ⟨v, hv⟩ := Verif.SH.lastOver_some (results st.log f.fid) (by unfold Verif.SH.override; omega)
      rw [hv]; rfl
  refine ⟨by rw [h2, hstat], ⟨_, h4, hsome, ?_⟩, ?_⟩
  · intro y hy
    rw [hov]
    rw [hy] at hlast
    cases hl : lastOverride (before ++ behind) with
    | none => rw [hl] at hlast; cases hlast
    | some k =>
      rw [hl] at hlast
      exact congrArg (low _) (Option.some.inj hlast)
  · intro hp
    have hor : σ.or = ((passed g (first V m) before).orig g o).or := by
      rw [hσ, if_pos hp]
      exact Verif.Jit.Rule.passed_or g behind _
    have hsup : (∃ x ∈ preRes (results st.log f.fid), x.2.1 = 3) ↔ ∃ k ∈ before, k.res = 3 := by
      rw [pre_some same]
      exact pre_three
    rcases h5 hp with ⟨h6, x, hx, hg⟩ | ⟨h6, h7, x, hx, hg⟩
    · refine ⟨x, hg, ?_⟩
      have hno : ∀ k ∈ before, k.res ≠ 3 := by
        intro k hk e
        obtain ⟨y, hy, e'⟩ := hsup.2 ⟨k, hk, e⟩
        have := h6 y hy
        rw [e'] at this
        exact absurd this (by decide)
      obtain ⟨w, rfl⟩ := Option.isSome_iff_exists.1 (ho.2 hno)
      rw [hor, ← ov x w hx rfl]
      rfl
    · refine ⟨x, hg, ?_⟩
      have hnone : o = none := by
        cases o with
        | none => rfl
        | some w =>
          obtain ⟨k, hk, e⟩ := hsup.1 h6
          exact absurd e (ho.1 rfl k hk)
      subst hnone
      rw [hor]
      show low (width g) (merge (width g) (passed g (first V m) before).ov (passed g (first V m) before).or) = _
      rw [low_merge (width_le S), override_last S]
      have hl2 : (lastOverride before).map Hook.val = some (enc x) := by
        rw [lastOverride_given, ← same.pre, ← lastOver_given, hx]
        rfl
      cases hl : lastOverride before with
      | none => rw [hl] at hl2; cases hl2
      | some k =>
        rw [hl] at hl2
        exact congrArg (low _) (Option.some.inj hl2)

end

/-! ## 32 bits -/

section
open Verif.Jit32 Verif.Jit32.Spec Verif.Jit32.Rule
open Verif.Jit (Byte)

/-- Specification: answer and value of a hook of the generated function. -/
def hookGiven32 (h : Hook) : Nat × List Byte := (h.res.toNat, h.val)

theorem status_top32 : ∀ (hs : List Hook) (σ : Verif.Jit32.Rule.St), (passed σ hs).status.toNat = (hs.map hookGiven32).foldl (fun a x => max a x.1) σ.status.toNat := by
  intro hs
  induction hs with
  | nil => intro σ; rfl
  | cons h hs ih =>
    intro σ
    refine (ih (σ.hook h)).trans ?_
    have e : (σ.hook h).status.toNat = max σ.status.toNat h.res.toNat := by
      simp only [St.hook, raised]
      split <;> omega
    rw [e]
    rfl

theorem lastOverride_given32 (hs : List Hook) : (lastOverride hs).map Hook.val = lastOf (hs.map hookGiven32) := by
  unfold lastOverride lastOf
  rw [List.filter_map, List.getLast?_map, Option.map_map]
  rfl

theorem pre_three32 {hs : List Hook} : (∃ x ∈ hs.map hookGiven32, x.1 = 3) ↔ ∃ k ∈ hs, k.res = 3 := by
  constructor
  · rintro ⟨x, hx, e⟩
    obtain ⟨k, hk, rfl⟩ := List.mem_map.1 hx
    exact ⟨k, hk, BitVec.eq_of_toNat_eq e⟩
  · rintro ⟨k, hk, e⟩
    exact ⟨_, List.mem_map_of_mem hk, congrArg BitVec.toNat e⟩

variable {U : Fpu}

/-- The context is asked, unless a hook superceded. -/
theorem asked32 {K : Case} {pre post : List Hook} {mid ans : List (Ans U)} {o : Option (List Byte)} (P : Plays K pre post mid ans o)
    (h : ∀ x ∈ pre, x.res ≠ 3) : ∃ a as, mid = a :: as := by
  obtain ⟨as₀, a, as₁, as₃, as₄, rfl, op, pa, l1, lo, l2, le⟩ := P
  have hh := status_highest (first K) rfl pre
  generalize (passed (first K) pre) = σ at lo hh
  cases lo with
  | superceded e =>
    rcases hh.2 with h0 | ⟨k, hk, hr⟩
    · rw [h0] at e; cases e
    · exact absurd (hr.trans e) (h k hk)
  | refused _ _ _ => exact ⟨_, _, rfl⟩
  | called _ _ _ _ => exact ⟨_, _, rfl⟩

/-- **C91**, 32 bits: a call of a hooked function through a hook function of the macros has returned
`v`.  If the handlers of a call of a generated hook function give the same answers and values, the
original function (if called in both) the same value, and the context does not refuse it
(`ShouldCallOrig`; only a recall behind the original function refuses), then the generated function
calls the original function exactly if the other did, and returns `v`. -/
theorem agree32 {A : Verif.SH.Env} (hA : EnvOk A) {st : Verif.SH.St} (hr : LReach A st) {cid fid : Nat} {p : Option Verif.SH.Addr} {this : Verif.SH.Addr}
    (hen : Ev.enter cid fid p this ∈ st.log) {f : Nat} {v : Val} (hret : Ev.ret cid f v ∈ st.log) (hn : ¬ Recalled st.log cid)
    {E : Env} {g : Gen} {s : Mach U} {depth : Int} {C : Context} {H : List Hook} {text : List Byte}
    (h : HookOk g) (S : Simple g) (hE : CallerOk E g (s.reg 4) depth) (hf : s.fpu = [])
    (out : ∀ c ∈ (caseOf E g s depth C H text).objects, Outside E.acc (stackOf g (s.reg 4) depth) c.1 4)
    (hi : Outside E.acc (stackOf g (s.reg 4) depth) g.pHI 4)
    (vt : Outside E.acc (stackOf g (s.reg 4) depth) (thisArg g s + BitVec.ofInt 32 g.vtblOffs) 4)
    (ha : okN E.acc (s.reg 4 + firstArg g) (caseOf E g s depth C H text).argSize = true)
    (hm : hid g = true → Outside E.acc (stackOf g (s.reg 4) depth) (arg s 1) g.ret.size)
    {pre post : List Hook} {mid ans : List (Ans U)} {o : Option (List Byte)}
    (P : Plays (caseOf E g s depth C H text) pre post mid ans o)
    {enc : Val → List Byte} (same : Same enc (results st.log fid) (pre.map hookGiven32) (post.map hookGiven32))
    (yes : ∀ a as, mid = a :: as → (a.reg 0).toNat % 256 ≠ 0)
    (ov : ∀ x w, origVals st.log fid = [x] → o = some w → w = enc x) (rest : List (Ans U)) :
    (o.isSome = true ↔ (callees st.log cid).count none = 1) ∧
    ∃ code tr s', generateHookFunc g = some code ∧ Returns E code s (ans ++ rest) tr (arg s 0) s' rest ∧
      (∃ t, AreCalls (stackOf g (s.reg 4) depth) t tr ∧
        AreSeen (caseOf E g s depth C H text) t (wanted (caseOf E g s depth C H text) pre post o)) ∧
      (g.ret.size ≠ 0 → Returned g (arg s 1) (enc v) (s'.reg 0) (s'.reg 2) s'.fpu s'.mem) := by
  obtain ⟨code, tr, s', hc, hrun, hcalls, hval, -⟩ := hook_rule (C := C) (H := H) (text := text) h S hE hf out hi vt ha hm P rest
  have hO := orig_called_iff P
  have hlast : (lastOverride (pre ++ post)).map Hook.val = (lastOver (results st.log fid)).map enc := by
    rw [lastOverride_given32, lastOver_given, same.given, List.map_append]
  have hsup : (∃ x ∈ preRes (results st.log fid), x.2.1 = 3) ↔ ∃ k ∈ pre, k.res = 3 := by
    rw [pre_some same]
    exact pre_three32
  obtain ⟨-, -, -, hout⟩ := Verif.SH.call_outcome hA hr hen hret hn
  have key : (o.isSome = true ↔ (callees st.log cid).count none = 1) ∧
      ruled (caseOf E g s depth C H text) pre post o = enc v := by
    rcases hout with ⟨h1, h2, x, hx, hv⟩ | ⟨h1, h2, h3⟩
    · have hno : ∀ k ∈ pre, k.res ≠ 3 := by
        intro k hk e
        obtain ⟨y, hy, e'⟩ := hsup.2 ⟨k, hk, e⟩
        have := h1 y hy
        rw [e'] at this
        exact absurd this (by decide)
      obtain ⟨a, as, hm⟩ := asked32 P hno
      have hso : o.isSome = true := hO.2 ⟨hno, a, as, hm, yes a as hm⟩
      refine ⟨⟨fun _ => h2, fun _ => hso⟩, ?_⟩
      obtain ⟨w, rfl⟩ := Option.isSome_iff_exists.1 hso
      have hw := ov x w hx rfl
      unfold ruled
      cases hl : lastOverride (pre ++ post) with
      | some k =>
        rw [hl] at hlast
        cases hl2 : lastOver (results st.log fid) with
        | none => rw [hl2] at hlast; cases hlast
        | some y =>
          rw [hl2] at hlast hv
          rw [hv]
          exact Option.some.inj hlast
      | none =>
        rw [hl] at hlast
        cases hl2 : lastOver (results st.log fid) with
        | some y => rw [hl2] at hlast; cases hlast
        | none =>
          rw [hl2] at hv
          rw [hv]
          exact hw
    · have hcnt : (callees st.log cid).count none = 0 := List.count_eq_zero.2 h2
      have hnone : ¬ o.isSome = true := by
        intro e
        obtain ⟨k, hk, e'⟩ := hsup.1 h1
        exact (hO.1 e).1 k hk e'
      refine ⟨⟨fun e => absurd e hnone, fun e => by rw [hcnt] at e; cases e⟩, ?_⟩
      rw [h3] at hlast
      unfold ruled
      cases hl : lastOverride (pre ++ post) with
      | none => rw [hl] at hlast; cases hlast
      | some k =>
        rw [hl] at hlast
        exact Option.some.inj hlast
  refine ⟨key.1, code, tr, s', hc, hrun, hcalls, fun hz => ?_⟩
  rw [← key.2]
  exact hval hz

/-- **C91**, 32 bits: what a handler of a call through a hook function of the macros sees is what the
hook called at that place by the generated function sees: the status, the override value if there is
one, and, behind the original function, the original value.  (`hook_rule`: the state with which the
generated function calls a hook is `passed` of the state before.) -/
theorem handlers_agree32 {E : Verif.SH.Env} (hE : EnvOk E) {st : Verif.SH.St} (hr : LReach E st) {f : Verif.SH.Frame} {fs : List Fr} (hf : st.frames = .hook f :: fs)
    {post : Bool} (hat : AtHandler post f.pt) (hn : ¬ Recalled st.log f.cid) (K : Case)
    {enc : Val → List Byte} {before behind : List Hook} (same : Same enc (results st.log f.fid) (before.map hookGiven32) (behind.map hookGiven32))
    (hb : post = false → behind = []) {o : Option (List Byte)} (ho : o.isSome = true ↔ ∀ k ∈ before, k.res ≠ 3)
    (ov : ∀ x w, origVals st.log f.fid = [x] → o = some w → w = enc x)
    {σ : Verif.Jit32.Rule.St} (hσ : σ = if post then passed ((passed (first K) before).orig o) behind else passed (first K) before) :
    getStatus st = .ok σ.status.toNat ∧
    (∃ x, getOverrideRet st = .ok x ∧ (x.isSome = true ↔ 2 ≤ σ.status.toNat) ∧ ∀ y, x = some y → σ.ov = enc y) ∧
    (post = true → ∃ x, getOrigRet st = .ok x ∧ σ.or = enc x) := by
  obtain ⟨-, h2, -, h4, h5⟩ := Verif.SH.handler_sees hE hr hf hat hn
  have hlast : (lastOverride (before ++ behind)).map Hook.val = (lastOver (results st.log f.fid)).map enc := by
    rw [lastOverride_given32, lastOver_given, same.given, List.map_append]
  have hstat : σ.status.toNat = highest (results st.log f.fid) := by
    rw [highest_given enc, same.given, topOf_append, hσ]
    cases post with
    | true =>
      rw [if_pos rfl, status_top32]
      have e : ((passed (first K) before).orig o).status = (passed (first K) before).status := by cases o <;> rfl
      rw [e, status_top32]
      rfl
    | false =>
      rw [if_neg Bool.false_ne_true, hb rfl, status_top32]
      rfl
  have hov : σ.ov = (match lastOverride (before ++ behind) with | some k => k.val | none => (first K).ov) := by
    rw [hσ]
    cases post with
    | true =>
      rw [if_pos rfl, override_last]
      have e : ((passed (first K) before).orig o).ov = (passed (first K) before).ov := by cases o <;> rfl
      rw [e]
      have e2 : lastOverride (before ++ behind) = (lastOverride behind).or (lastOverride before) := by
        unfold lastOverride
        rw [List.filter_append, List.getLast?_append]
      rw [e2]
      cases lastOverride behind with
      | some k => rfl
      | none =>
        rw [override_last]
        rfl
    | false =>
      rw [if_neg Bool.false_ne_true, hb rfl, List.append_nil, override_last]
      cases lastOverride before <;> rfl
  have hsome : (lastOver (results st.log f.fid)).isSome = true ↔ 2 ≤ σ.status.toNat := by
    rw [hstat]
    constructor
    · intro e
      apply Decidable.byContradiction
      intro hlt
      rw [Verif.SH.lastOver_none (by unfold Verif.SH.override; omega)] at e
      cases e
    · intro e
      obtain ⟨v, hv⟩ := Verif.SH.lastOver_some (results st.log f.fid) (by unfold Verif.SH.override; omega)
      rw [hv]; rfl
  refine ⟨by rw [h2, hstat], ⟨_, h4, hsome, ?_⟩, ?_⟩
  · intro y hy
    rw [hov]
    rw [hy] at hlast
    cases hl : lastOverride (before ++ behind) with
    | none => rw [hl] at hlast; cases hlast
    | some k =>
      rw [hl] at hlast
      exact Option.some.inj hlast
  · intro hp
    have hor : σ.or = ((passed (first K) before).orig o).or := by
      rw [hσ, if_pos hp]
      exact Verif.Jit32.Rule.passed_or behind _
    have hsup : (∃ x ∈ preRes (results st.log f.fid), x.2.1 = 3) ↔ ∃ k ∈ before, k.res = 3 := by
      rw [pre_some same]
      exact pre_three32
    rcases h5 hp with ⟨h6, x, hx, hg⟩ | ⟨h6, h7, x, hx, hg⟩
    · refine ⟨x, hg, ?_⟩
      have hno : ∀ k ∈ before, k.res ≠ 3 := by
        intro k hk e
        obtain ⟨y, hy, e'⟩ := hsup.2 ⟨k, hk, e⟩
        have := h6 y hy
        rw [e'] at this
        exact absurd this (by decide)
      obtain ⟨w, rfl⟩ := Option.isSome_iff_exists.1 (ho.2 hno)
      rw [hor, ← ov x w hx rfl]
      rfl
    · refine ⟨x, hg, ?_⟩
      have hnone : o = none := by
        cases o with
        | none => rfl
        | some w =>
          obtain ⟨k, hk, e⟩ := hsup.1 h6
          exact absurd e (ho.1 rfl k hk)
      subst hnone
      rw [hor]
      show (passed (first K) before).ov = _
      rw [override_last]
      have hl2 : (lastOverride before).map Hook.val = some (enc x) := by
        rw [lastOverride_given32, ← same.pre, ← lastOver_given, hx]
        rfl
      cases hl : lastOverride before with
      | none => rw [hl] at hl2; cases hl2
      | some k =>
        rw [hl] at hl2
        exact Option.some.inj hl2

end

/-! ## Examples: the same call through both -/

open Verif.SH.Ex (go go_isSome go_reach chk)

/-- No counterpart in /repo: the call of a function with one hook, up to the handler, and what happens then. -/
def exOps (post : List Verif.SH.Op) : List Verif.SH.Op := [.reg (.add Verif.SH.Ex.a1), .call 2008 1000, .tick] ++ post

/-- What has to be known of a finished call. -/
theorem ex_done {ops : List Verif.SH.Op} {rs : List (Bool × Nat × Val)} {v : Val} {os : List Val}
    (h : (go ops).map (fun s => decide (Ev.enter 0 0 (some 2008) 1000 ∈ s.log) && decide (Ev.ret 0 0 v ∈ s.log)
      && s.log.all (fun e => match e with
        | .recall .. => false
        | _ => true) && results s.log 0 == rs && origVals s.log 0 == os) = some true) :
    ∃ s, LReach Verif.SH.Ex.E s ∧ Ev.enter 0 0 (some 2008) 1000 ∈ s.log ∧ Ev.ret 0 0 v ∈ s.log ∧ ¬ Recalled s.log 0 ∧
      results s.log 0 = rs ∧ origVals s.log 0 = os := by
  obtain ⟨s, hs, hp⟩ := Option.map_eq_some_iff.1 h
  simp only [Bool.and_eq_true, decide_eq_true_eq, List.all_eq_true, beq_iff_eq] at hp
  obtain ⟨⟨⟨⟨h1, h2⟩, h3⟩, h4⟩, h5⟩ := hp
  refine ⟨s, go_reach hs, h1, h2, ?_, h4, h5⟩
  rintro ⟨a, b, st, hm⟩
  exact absurd (h3 _ hm) (by simp)

section
open Verif.Jit Verif.Jit.Rule

/-- No counterpart in /repo: the hook: it says `MRES_HANDLED` and returns 9. -/
def okHook : Verif.Jit.Rule.Hook := ⟨0x5100, 0x7000, 0x888, 1, 9⟩

/-- No counterpart in /repo: its answer. -/
def okHookAns : Verif.Jit.Ans := ⟨fun _ => 9, fun _ => 0, wr (fun _ => 0) 0xffe0 1, false, false, false⟩

theorem ok_quiet (a : Verif.Jit.Ans) (σ : Verif.Jit.Rule.St) : Quiet rxWorld rxVars exGen rxCtx [okHook] a σ := by
  intro m h
  have q := rx_quiet a σ m ⟨h.cell, h.status, h.ov, h.or⟩
  exact ⟨q.cell, q.status, q.ov, q.or⟩

theorem ok_plays : Plays rxWorld rxVars exGen rxCtx [okHook] rxMem [okHook] [] [exAns 1, exAns 7]
    [exAns 0x5000, exAns 0x5100, okHookAns, exAns 0, exAns 1, exAns 7, exAns 0, exAns rxVars.orig, exAns 0] (some 7) := by
  have P := rx_laid.pairs
  refine ⟨exAns 0x5000, [exAns 0x5100, okHookAns, exAns 0], [exAns 0], [exAns rxVars.orig, exAns 0], rfl, ⟨rfl, ?_⟩, ?_, ?_, ?_, ?_⟩
  · intro m' h0 hf
    refine ok_quiet _ _ m' ⟨?_, h0, ?_, ?_⟩
    · intro c hc
      rw [hf _ (rx_laid.cellApart c hc _ mem_status) (rx_laid.cellApart c hc _ mem_cur) (rx_laid.cellApart c hc _ mem_prev)]
      revert c
      decide +kernel
    · intro hz
      exact hf _ (P.sv hz) (P.cv hz) (P.pv hz)
    · intro hz
      exact hf _ (P.so hz) (P.co hz) (P.po hz)
  · refine .hook (by simp) (by decide) (by decide) (ok_quiet _ _) rfl ⟨ok_quiet _ _, ?_, ?_⟩ (.inr (by decide)) (.done (ok_quiet _ _) rfl)
    · intro m _
      rw [rx_cur]
      decide +kernel
    · intro _
      decide
  · exact .called (by decide) (ok_quiet _ _) (by decide) (ok_quiet _ _)
  · exact .done (ok_quiet _ _) rfl
  · refine ⟨fun _ => ⟨_, _, rfl, ?_⟩, fun a _ => ok_quiet a _, by decide⟩
    decide

/-- 64 bits: the handler says `MRES_HANDLED`, the original function returns 7: so do both calls. -/
example : ∃ code, generateHookFunc exGen = some code ∧ ∃ t' s', Returns (fun _ => true) rxKeep code rxMach
    [exAns 0x5000, exAns 0x5100, okHookAns, exAns 0, exAns 1, exAns 7, exAns 0, exAns rxVars.orig, exAns 0] t' (rd rxMem 0x10008) s' [] ∧
    low (width exGen) (s'.reg 0) = low (width exGen) 7 := by
  obtain ⟨st, hr, h1, h2, h3, h4, h5⟩ := ex_done (ops := exOps [.setRes 1, .handlerRet 9, .tick, .origRet 7, .tick]) (rs := [(false, 1, 9)]) (v := 7) (os := [7]) rfl
  obtain ⟨hc, code, hg, t', s', hrun, -, hv⟩ := agree64 (C := rxCtx) (H := [okHook]) (keep := rxKeep) (enc := BitVec.ofInt 64) (Verif.SH.Ex.envOk) hr h1 h2 h3 exGen_ok
    ⟨by decide, by decide, rfl, by decide, by decide⟩ rxMach rx_provided rx_out ⟨rfl, by decide⟩ ⟨rfl, by decide⟩ ok_plays
    (by rw [h4]; rfl) (fun a as e => by cases e; decide) (fun x w hx hw => by rw [h5] at hx; cases hx; cases hw; rfl) []
  exact ⟨code, hg, t', s', hrun, hv (by decide)⟩

/-- 64 bits: the handler says `MRES_SUPERCEDE` and 42: neither calls the original function, both return 42. -/
example : ∃ st, LReach Verif.SH.Ex.E st ∧ (callees st.log 0).count none ≠ 1 ∧
    ∃ code, generateHookFunc exGen = some code ∧ ∃ t' s', Returns (fun _ => true) rxKeep code rxMach
      [exAns 0x5000, exAns 0x5100, rxHookAns, exAns rxVars.override, exAns 0, exAns 0, exAns rxVars.override, exAns 0] t' (rd rxMem 0x10008) s' [] ∧
      low (width exGen) (s'.reg 0) = low (width exGen) 42 := by
  obtain ⟨st, hr, h1, h2, h3, h4, h5⟩ := ex_done (ops := exOps [.setRes 3, .handlerRet 42, .tick, .tick]) (rs := [(false, 3, 42)]) (v := 42) (os := []) rfl
  obtain ⟨hc, code, hg, t', s', hrun, -, hv⟩ := agree64 (C := rxCtx) (H := [rxHook]) (keep := rxKeep) (enc := BitVec.ofInt 64) (Verif.SH.Ex.envOk) hr h1 h2 h3 exGen_ok
    ⟨by decide, by decide, rfl, by decide, by decide⟩ rxMach rx_provided rx_out ⟨rfl, by decide⟩ ⟨rfl, by decide⟩ rx_plays
    (by rw [h4]; rfl) (fun a as e => by cases e) (fun x w hx hw => by cases hw) []
  exact ⟨st, hr, fun e => absurd (hc.2 e) (by decide), code, hg, t', s', hrun, hv (by decide)⟩

end

/-- What has to be known of a running handler. -/
theorem ex_running {ops : List Verif.SH.Op} {post : Bool} {rs : List (Bool × Nat × Val)} {os : List Val}
    (h : (go ops).map (fun s => match s.frames with
      | .hook f :: _ => (match f.pt with
          | .inPre _ => !post
          | .inPost _ => post
          | _ => false) && s.log.all (fun e => match e with
        | .recall .. => false
        | _ => true) && results s.log f.fid == rs && origVals s.log f.fid == os
      | _ => false) = some true) :
    ∃ s f fs, LReach Verif.SH.Ex.E s ∧ s.frames = .hook f :: fs ∧ AtHandler post f.pt ∧ ¬ Recalled s.log f.cid ∧
      results s.log f.fid = rs ∧ origVals s.log f.fid = os := by
  obtain ⟨s, f, fs, hs, hr, hf, hp⟩ := Verif.SH.Ex.top (ops := ops) _ h
  simp only [Bool.and_eq_true, List.all_eq_true, beq_iff_eq] at hp
  obtain ⟨⟨⟨h2, h3⟩, h4⟩, h5⟩ := hp
  refine ⟨s, f, fs, hr, hf, ?_, ?_, h4, h5⟩
  · split at h2
    · rename_i n e
      cases post with
      | true => cases h2
      | false => exact ⟨n, e⟩
    · rename_i n e
      cases post with
      | false => cases h2
      | true => exact ⟨n, e⟩
    · cases h2
  · rintro ⟨a, b, st, hm⟩
    exact absurd (h3 _ hm) (by simp)

/-- No counterpart in /repo: the state of the generated function there. -/
def exSt : Verif.Jit.Rule.St :=
  Verif.Jit.Rule.passed Verif.Jit.exGen ((Verif.Jit.Rule.passed Verif.Jit.exGen (Verif.Jit.Rule.first Verif.Jit.Rule.rxVars fun _ => 0)
    [⟨0, 0, 0, 1, 0⟩, ⟨0, 0, 0, 2, 5⟩, ⟨0, 0, 0, 0, 0⟩]).orig Verif.Jit.exGen (some 7)) []

/-- 64 bits: a handler behind the original function, after one that said `MRES_OVERRIDE` and 5 in front of it; the original function
returned 7. -/
example : ∃ st, ∃ σ : Verif.Jit.Rule.St, LReach Verif.SH.Ex.E st ∧ getStatus st = .ok 2 ∧ getOrigRet st = .ok 7 ∧ getOverrideRet st = .ok (some 5) ∧
    σ.status = 2 ∧ Verif.Jit.Rule.low 8 σ.ov = 5 ∧ Verif.Jit.Rule.low 8 σ.or = 7 := by
  obtain ⟨st, f, fs, hr, hf, hat, hn, h4, h5⟩ := ex_running (ops := Verif.SH.Ex.over1) (post := true)
    (rs := [(false, 1, 0), (false, 2, 5), (false, 0, 0)]) (os := [7]) rfl
  obtain ⟨k1, ⟨x, k2, k3, k4⟩, k5⟩ := handlers_agree64 (V := Verif.Jit.Rule.rxVars) (g := Verif.Jit.exGen) (enc := BitVec.ofInt 64)
    (before := [⟨0, 0, 0, 1, 0⟩, ⟨0, 0, 0, 2, 5⟩, ⟨0, 0, 0, 0, 0⟩]) (behind := []) (o := some 7) Verif.SH.Ex.envOk hr hf hat hn
    ⟨by decide, by decide, rfl, by decide, by decide⟩ (fun _ => 0) (by rw [h4]; rfl) (fun e => by cases e) (by decide)
    (fun x w hx hw => by rw [h5] at hx; cases hx; cases hw; rfl) rfl
  obtain ⟨-, -, -, e4, e5⟩ := Verif.SH.handler_sees Verif.SH.Ex.envOk hr hf hat hn
  rw [h4] at e4
  refine ⟨st, exSt, hr, k1, ?_, e4, by decide, by decide, by decide⟩
  rcases e5 rfl with ⟨-, y, hy, e⟩ | ⟨-, hy, -⟩
  · rw [h5] at hy; cases hy; exact e
  · rw [h5] at hy; cases hy

section
open Verif.Jit32 Verif.Jit32.Spec Verif.Jit32.Rule

/-- 32 bits: the handler says `MRES_SUPERCEDE` and 42: neither calls the original function, both return 42. -/
example : ∃ st, LReach Verif.SH.Ex.E st ∧ (callees st.log 0).count none ≠ 1 ∧
    ∃ code tr s', generateHookFunc rxGen = some code ∧ Returns rxEnv code rxMach rxAnswers tr 0 s' [] ∧ s'.reg 0 = 42 := by
  obtain ⟨st, hr, h1, h2, h3, h4, h5⟩ := ex_done (ops := exOps [.setRes 3, .handlerRet 42, .tick, .tick]) (rs := [(false, 3, 42)]) (v := 42) (os := []) rfl
  obtain ⟨hc, code, tr, s', hg, hrun, -, hv⟩ := agree32 (C := rxCtx) (H := [rxHook]) (text := rxText) (enc := fun v => wordBytes (BitVec.ofInt 32 v))
    Verif.SH.Ex.envOk hr h1 h2 h3 rxGen_ok rxGen_simple rx_caller rfl rx_out rx_hi rx_vt rfl (fun h => absurd h (by decide)) rx_plays
    (by rw [h4]; rfl) (fun a as e => by cases e) (fun x w hx hw => by cases hw) []
  refine ⟨st, hr, fun e => absurd (hc.2 e) (by decide), code, tr, s', hg, ?_, ?_⟩
  · rw [show arg rxMach 0 = 0 by decide +kernel, List.append_nil] at hrun
    exact hrun
  · have := hv (by decide)
    unfold Returned at this
    rw [if_neg (by decide), if_neg (by decide), if_neg (by decide)] at this
    exact wordBytes_inj (this : wordBytes (s'.reg 0) = wordBytes 42)

/-- 32 bits: the second of two handlers, after one that said `MRES_SUPERCEDE` and 42. -/
example : ∃ st, ∃ σ : Verif.Jit32.Rule.St, LReach Verif.SH.Ex.E st ∧ getStatus st = .ok 3 ∧ getOverrideRet st = .ok (some 42) ∧ σ.status = 3 ∧ σ.ov = wordBytes 42 := by
  obtain ⟨st, f, fs, hr, hf, hat, hn, h4, h5⟩ := ex_running (ops := [.reg (.add Verif.SH.Ex.a1), .reg (.add Verif.SH.Ex.a2), .call 2008 1000, .tick, .setRes 3, .handlerRet 42, .tick])
    (post := false) (rs := [(false, 3, 42)]) (os := []) rfl
  obtain ⟨k1, -⟩ := handlers_agree32 (enc := fun v => wordBytes (BitVec.ofInt 32 v)) (before := [rxHook]) (behind := []) (o := none) Verif.SH.Ex.envOk hr hf hat hn
    rxCase (by rw [h4]; rfl) (fun _ => rfl) (by decide) (fun x w hx hw => by cases hw) rfl
  obtain ⟨-, -, -, e4, -⟩ := Verif.SH.handler_sees Verif.SH.Ex.envOk hr hf hat hn
  rw [h4] at e4
  exact ⟨st, passed (first rxCase) [rxHook], hr, k1, e4, rfl, rfl⟩

end

end Verif.Alike
#print axioms Verif.Alike.agree64
#print axioms Verif.Alike.handlers_agree64
#print axioms Verif.Alike.agree32
#print axioms Verif.Alike.handlers_agree32
