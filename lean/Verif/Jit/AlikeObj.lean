import Verif.Jit.Alike
import Verif.Jit.PlainProps
import Verif.Jit32.ClassProps
/-
C96: hook functions generated at run time for functions that return objects (core/sourcehook/
sourcehook_hookmangen_x86_64.cpp:619-926, 986-1188 and sourcehook_hookmangen_x86.cpp:1014-1354,
1356-1703) choose as the hook functions the macros make (core/sourcehook/sourcehook.h:937-983).

As C91 (Verif/Jit/Alike.lean), for the results C91 leaves out: plain structures in 64-bit code
(Verif/Jit/PlainProps.lean) and objects of a class with special functions (Verif/Jit/ClassProps.lean,
Verif/Jit32/ClassProps.lean).
-/
namespace Verif.Alike

open Verif.SH (Val Ev LReach EnvOk results origVals highest lastOver preRes callees Recalled AtHandler runs getStatus getOverrideRet getOrigRet Fr)

/-! ## The hook functions of the macros, in terms of the handlers' answers -/

/-- A call that has returned: whether the original function was called, and what was returned. -/
theorem chosen {α : Type} {E : Verif.SH.Env} (hE : EnvOk E) {st : Verif.SH.St} (hr : LReach E st) {cid fid : Nat} {p : Option Verif.SH.Addr}
    {this : Verif.SH.Addr} (hen : Ev.enter cid fid p this ∈ st.log) {f : Nat} {v : Val} (hret : Ev.ret cid f v ∈ st.log)
    (hn : ¬ Recalled st.log cid) {enc : Val → α} {pre post : List (Nat × α)} (same : Same enc (results st.log fid) pre post)
    {o : Option α} (ho : o.isSome = true ↔ ∀ x ∈ pre, x.1 ≠ 3) (ov : ∀ x w, origVals st.log fid = [x] → o = some w → w = enc x) :
    (o.isSome = true ↔ (callees st.log cid).count none = 1) ∧ (lastOf (pre ++ post)).or o = some (enc v) := by
  have hlast : (lastOver (results st.log fid)).map enc = lastOf (pre ++ post) := by rw [lastOver_given, same.given]
  have hsup := pre_some same
  obtain ⟨-, -, -, hout⟩ := Verif.SH.call_outcome hE hr hen hret hn
  rcases hout with ⟨h1, h2, x, hx, hv⟩ | ⟨h1, h2, h3⟩
  · have hso : o.isSome = true := by
      refine ho.2 fun k hk e => ?_
      obtain ⟨y, hy, e'⟩ := hsup.2 ⟨k, hk, e⟩
      have := h1 y hy
      rw [e'] at this
      exact absurd this (by decide)
    refine ⟨⟨fun _ => h2, fun _ => hso⟩, ?_⟩
    obtain ⟨w, rfl⟩ := Option.isSome_iff_exists.1 hso
    rw [← hlast, ov x w hx rfl, hv]
    cases lastOver (results st.log fid) <;> rfl
  · have hcnt : (callees st.log cid).count none = 0 := List.count_eq_zero.2 h2
    have hnone : ¬ o.isSome = true := by
      intro e
      obtain ⟨k, hk, e'⟩ := hsup.1 h1
      exact ho.1 e k hk e'
    refine ⟨⟨fun e => absurd e hnone, fun e => by rw [hcnt] at e; cases e⟩, ?_⟩
    rw [← hlast, h3]
    rfl

/-- A handler that is running: what it sees. -/
theorem shown {α : Type} {E : Verif.SH.Env} (hE : EnvOk E) {st : Verif.SH.St} (hr : LReach E st) {f : Verif.SH.Frame} {fs : List Fr}
    (hf : st.frames = .hook f :: fs) {post : Bool} (hat : AtHandler post f.pt) (hn : ¬ Recalled st.log f.cid)
    {enc : Val → α} {before behind : List (Nat × α)} (same : Same enc (results st.log f.fid) before behind)
    {o : Option α} (ho : o.isSome = true ↔ ∀ x ∈ before, x.1 ≠ 3) (ov : ∀ x w, origVals st.log f.fid = [x] → o = some w → w = enc x) :
    getStatus st = .ok (topOf (before ++ behind)) ∧
    (∃ x, getOverrideRet st = .ok x ∧ x.map enc = lastOf (before ++ behind)) ∧
    (post = true → ∃ x, getOrigRet st = .ok x ∧ o.or (lastOf before) = some (enc x)) := by
  obtain ⟨-, h2, -, h4, h5⟩ := Verif.SH.handler_sees hE hr hf hat hn
  have hsup := pre_some same
  refine ⟨by rw [h2, highest_given enc, same.given], ⟨_, h4, by rw [lastOver_given, same.given]⟩, fun hp => ?_⟩
  rcases h5 hp with ⟨h6, x, hx, hg⟩ | ⟨h6, h7, x, hx, hg⟩
  · refine ⟨x, hg, ?_⟩
    have hso : o.isSome = true := by
      refine ho.2 fun k hk e => ?_
      obtain ⟨y, hy, e'⟩ := hsup.2 ⟨k, hk, e⟩
      have := h6 y hy
      rw [e'] at this
      exact absurd this (by decide)
    obtain ⟨w, rfl⟩ := Option.isSome_iff_exists.1 hso
    rw [ov x w hx rfl]
    rfl
  · refine ⟨x, hg, ?_⟩
    have hnone : o = none := by
      cases o with
      | none => rfl
      | some w =>
        obtain ⟨k, hk, e⟩ := hsup.1 h6
        exact absurd e (ho.1 rfl k hk)
    rw [hnone, ← same.pre, ← lastOver_given, hx]
    rfl


/-! ## 64 bits -/

section
open Verif.Jit (W World Vars Gen Memory Ans Mach GenOk Provided hookStack Returns AreCalls generateHookFunc world varsAt paramsIn firstReg rd Byte)
open Verif.Jit.Rule (Context Hook raised lastOverride objects Outside)

theorem raisedBy_top (hs : List Hook) : ∀ st : W, (Verif.Jit.Class.raisedBy st hs).toNat = (hs.map hookGiven).foldl (fun a x => max a x.1) st.toNat := by
  induction hs with
  | nil => intro st; rfl
  | cons h hs ih =>
    intro st
    refine (ih (raised st h.res)).trans ?_
    have e : (raised st h.res).toNat = max st.toNat h.res.toNat := by
      unfold raised
      split <;> omega
    rw [e]
    rfl

/-! ### Plain structures -/

section
open Verif.Jit.Plain

/-- Specification: answer and bytes of a hook of the generated function. -/
def hookBytes (N : W → List Byte) (h : Hook) : Nat × List Byte := (h.res.toNat, N h.val)

theorem bytes_three {N : W → List Byte} {hs : List Hook} : (∀ x ∈ hs.map (hookBytes N), x.1 ≠ 3) ↔ ∀ k ∈ hs, k.res ≠ 3 := by
  constructor
  · intro h k hk e
    exact h _ (List.mem_map_of_mem hk) (congrArg BitVec.toNat e)
  · intro h x hx e
    obtain ⟨k, hk, rfl⟩ := List.mem_map.1 hx
    exact h k hk (BitVec.eq_of_toNat_eq e)

theorem lastOverride_bytes (N : W → List Byte) (hs : List Hook) : (lastOverride hs).map (fun k => N k.val) = lastOf (hs.map (hookBytes N)) := by
  unfold lastOverride lastOf
  rw [List.filter_map, List.getLast?_map, Option.map_map]
  rfl

theorem top_bytes (N : W → List Byte) (hs : List Hook) (a : Nat) :
    (hs.map (hookBytes N)).foldl (fun a x => max a x.1) a = (hs.map hookGiven).foldl (fun a x => max a x.1) a := by
  rw [List.foldl_map, List.foldl_map]
  rfl

variable {Wd : World} {V : Vars} {g : Gen} {C : Context} {H : List Hook} {N : W → List Byte}

/-- The context is asked, unless a hook superceded. -/
theorem asked_plain {m : Memory} {pre post : List Hook} {mid ans : List Ans} {o : Option W} (P : Plays Wd V g C H N m pre post mid ans o)
    (h : ∀ x ∈ pre, x.res ≠ 3) : ∃ a as, mid = a :: as := by
  obtain ⟨a, as₁, as₃, as₄, rfl, pa, l1, lo, l2, le⟩ := P
  have hh := plain_status N (first V g m) rfl pre
  generalize (passed N (first V g m) pre) = σ at lo hh
  generalize σ.orig N o = σ' at lo
  cases lo with
  | superceded e =>
    rcases hh.2 with h0 | ⟨k, hk, hr⟩
    · rw [h0] at e; cases e
    · exact absurd (hr.trans e) (h k hk)
  | refused _ _ _ => exact ⟨_, _, rfl⟩
  | called _ _ _ _ => exact ⟨_, _, rfl⟩

/-- **C96**, plain structures in 64-bit code: a call of a hooked function through a hook function of the
macros has returned `v`.  If the handlers of a call of a generated hook function give the same answers
and structures of the same bytes, the original function (if called in both) the same bytes, and the
context does not refuse it (`ShouldCallOrig`), then the generated function calls the original function
exactly if the other did, and the place the caller named holds the bytes of `v`. -/
theorem agree64_plain {E : Verif.SH.Env} (hE : EnvOk E) {st : Verif.SH.St} (hr : LReach E st) {cid fid : Nat} {p : Option Verif.SH.Addr} {this : Verif.SH.Addr}
    (hen : Ev.enter cid fid p this ∈ st.log) {f : Nat} {v : Val} (hret : Ev.ret cid f v ∈ st.log) (hn : ¬ Recalled st.log cid)
    {acc keep : W → Bool} (h : GenOk g) (S : IsPlain g) (s : Mach)
    (pr : Provided acc keep (hookStack g (s.reg 4)))
    (out : ∀ c ∈ objects g C H, Outside acc (hookStack g (s.reg 4)) c.1)
    (hi : Outside acc (hookStack g (s.reg 4)) g.pHI)
    (vt : Outside acc (hookStack g (s.reg 4)) (s.reg 1 + BitVec.ofInt 64 g.vtblOffs))
    (hm : Beyond acc (hookStack g (s.reg 4)) (s.reg 2) g.ret.size)
    {pre post : List Hook} {mid ans : List Ans} {o : Option W}
    (P : Plays (world acc keep (hookStack g (s.reg 4))) (varsAt g (hookStack g (s.reg 4))) g C H N s.mem pre post mid ans o)
    {enc : Val → List Byte} (same : Same enc (results st.log fid) (pre.map (hookBytes N)) (post.map (hookBytes N)))
    (yes : ∀ a as, mid = a :: as → a.reg 0 &&& 1 ≠ 0)
    (ov : ∀ x w, origVals st.log fid = [x] → o = some w → N w = enc x) (rest : List Ans) :
    (o.isSome = true ↔ (callees st.log cid).count none = 1) ∧
    ∃ code, generateHookFunc g = some code ∧ ∃ t' s', Returns acc keep code s (ans ++ rest) t' (rd s.mem (s.reg 4)) s' rest ∧
      (∃ t, AreCalls (hookStack g (s.reg 4)) t t' ∧
        AreSeen (varsAt g (hookStack g (s.reg 4))) g t (wanted (varsAt g (hookStack g (s.reg 4))) g C N
          s.mem (s.reg 1) (paramsIn s (firstReg g.ret) g.params) pre post o)) ∧
      bytesAt s'.mem (s.reg 2) g.ret.size = enc v ∧ s'.reg 0 = s.reg 2 := by
  obtain ⟨code, hc, t', s', hrun, hcalls, hval, hreg, -⟩ := plain_results (C := C) (H := H) h S s pr out hi vt hm P rest
  have hO := plain_orig_iff P
  have ho : (o.map N).isSome = true ↔ ∀ x ∈ pre.map (hookBytes N), x.1 ≠ 3 := by
    rw [Option.isSome_map, bytes_three, hO]
    constructor
    · exact fun e => e.1
    · intro e
      obtain ⟨a, as, hmid⟩ := asked_plain P e
      exact ⟨e, a, as, hmid, yes a as hmid⟩
  obtain ⟨k1, k2⟩ := chosen hE hr hen hret hn same ho fun x w hx hw => by
    obtain ⟨u, hu, rfl⟩ := Option.map_eq_some_iff.1 hw
    exact ov x u hx hu
  rw [Option.isSome_map] at k1
  refine ⟨k1, code, hc, t', s', hrun, hcalls, ?_, hreg⟩
  rw [hval]
  rw [← List.map_append, ← lastOverride_bytes] at k2
  unfold ruled
  cases hl : lastOverride (pre ++ post) with
  | some k => rw [hl] at k2; exact Option.some.inj k2
  | none =>
    rw [hl] at k2
    cases o with
    | some w => exact Option.some.inj k2
    | none => cases k2

/-- **C96**, plain structures in 64-bit code: what a handler of a call through a hook function of the
macros sees is what the hook called at that place by the generated function sees: the status, the
override value if there is one, and, behind the original function, the original value. -/
theorem handlers_agree64_plain {E : Verif.SH.Env} (hE : EnvOk E) {st : Verif.SH.St} (hr : LReach E st) {f : Verif.SH.Frame} {fs : List Fr} (hf : st.frames = .hook f :: fs)
    {post : Bool} (hat : AtHandler post f.pt) (hn : ¬ Recalled st.log f.cid) (V : Vars) (g : Gen) (m : Memory)
    {enc : Val → List Byte} {before behind : List Hook} (same : Same enc (results st.log f.fid) (before.map (hookBytes N)) (behind.map (hookBytes N)))
    (hb : post = false → behind = []) {o : Option W} (ho : o.isSome = true ↔ ∀ k ∈ before, k.res ≠ 3)
    (ov : ∀ x w, origVals st.log f.fid = [x] → o = some w → N w = enc x)
    {σ : Verif.Jit.Plain.St} (hσ : σ = if post then passed N ((passed N (first V g m) before).orig N o) behind else passed N (first V g m) before) :
    getStatus st = .ok σ.status.toNat ∧
    (∃ x, getOverrideRet st = .ok x ∧ (x.isSome = true ↔ 2 ≤ σ.status.toNat) ∧ ∀ y, x = some y → σ.ov = enc y) ∧
    (post = true → ∃ x, getOrigRet st = .ok x ∧ σ.or = enc x) := by
  obtain ⟨k1, ⟨x, k2, k3⟩, k4⟩ := shown (o := o.map N) hE hr hf hat hn same (by rw [Option.isSome_map, bytes_three, ho]) fun x w hx hw => by
    obtain ⟨u, hu, rfl⟩ := Option.map_eq_some_iff.1 hw
    exact ov x u hx hu
  have horig : ∀ τ : Verif.Jit.Plain.St, (τ.orig N o).status = τ.status ∧ (τ.orig N o).ov = τ.ov := by
    intro τ
    cases o <;> exact ⟨rfl, rfl⟩
  have hst : σ.status = Verif.Jit.Class.raisedBy 0 (before ++ behind) := by
    rw [hσ]
    cases post with
    | true =>
      rw [if_pos rfl, passed_status, (horig _).1, passed_status]
      unfold Verif.Jit.Class.raisedBy
      rw [List.foldl_append]
      rfl
    | false =>
      rw [if_neg Bool.false_ne_true, hb rfl, List.append_nil, passed_status]
      rfl
  have hov : σ.ov = match lastOverride (before ++ behind) with | some k => N k.val | none => (first V g m).ov := by
    rw [hσ]
    cases post with
    | true =>
      rw [if_pos rfl, plain_override, (horig _).2, plain_override, Verif.Jit.Class.lastOverride_append]
      cases lastOverride behind <;> rfl
    | false =>
      rw [if_neg Bool.false_ne_true, hb rfl, List.append_nil, plain_override]
      cases lastOverride before <;> rfl
  rw [← List.map_append, ← lastOverride_bytes] at k3
  refine ⟨?_, ⟨x, k2, ?_, ?_⟩, fun hp => ?_⟩
  · rw [k1, hst, raisedBy_top, ← List.map_append]
    unfold topOf
    rw [top_bytes]
    rfl
  · rw [hst, Verif.Jit.Class.two_le_after]
    have e := congrArg Option.isSome k3
    rw [Option.isSome_map, Option.isSome_map] at e
    rw [e]
    simp
  · intro y hy
    rw [hy] at k3
    rw [hov]
    cases hl : lastOverride (before ++ behind) with
    | none => rw [hl] at k3; cases k3
    | some k => rw [hl] at k3; exact (Option.some.inj k3).symm
  · obtain ⟨y, hy, e⟩ := k4 hp
    refine ⟨y, hy, ?_⟩
    rw [hσ, if_pos hp, passed_or]
    cases o with
    | some w => exact Option.some.inj e
    | none =>
      show (passed N (first V g m) before).ov = _
      rw [plain_override]
      rw [← lastOverride_bytes] at e
      cases hl : lastOverride before with
      | none => rw [hl] at e; cases e
      | some k => rw [hl] at e; exact Option.some.inj e

end

/-! ### Objects of a class -/

section
open Verif.Jit.Class

theorem pass_small {K : Case} {st : W} {hs : List Hook} {as : List Ans} (P : PassAns K st hs as) : ∀ h ∈ hs, h.res.toNat ≤ 3 := by
  induction P with
  | done => intro h hh; cases hh
  | hook _ _ hr _ _ _ _ _ _ _ ih =>
    intro h hh
    rcases List.mem_cons.1 hh with rfl | hh
    · exact hr
    · exact ih h hh
  | over _ _ hr _ _ _ _ _ _ _ _ _ _ ih =>
    intro h hh
    rcases List.mem_cons.1 hh with rfl | hh
    · exact hr
    · exact ih h hh

theorem raisedBy_some {hs : List Hook} (hsm : ∀ h ∈ hs, h.res.toNat ≤ 3) (h : ∃ k ∈ hs, k.res = 3) : raisedBy 0 hs = 3 := by
  have key : ∀ (hs : List Hook) (st : W), st.toNat ≤ 3 → (∀ h ∈ hs, h.res.toNat ≤ 3) → (st = 3 ∨ ∃ k ∈ hs, k.res = 3) → raisedBy st hs = 3 := by
    intro hs
    induction hs with
    | nil =>
      rintro st - - (e | ⟨k, hk, -⟩)
      · exact e
      · cases hk
    | cons x hs ih =>
      intro st h1 h2 h3
      have hx := h2 x (List.mem_cons_self ..)
      have e : (raised st x.res).toNat = max st.toNat x.res.toNat := by
        unfold raised
        split <;> omega
      refine ih (raised st x.res) (by omega) (fun k hk => h2 k (List.mem_cons_of_mem _ hk)) ?_
      have h33 : (3 : W).toNat = 3 := rfl
      rcases h3 with rfl | ⟨k, hk, e'⟩
      · exact .inl (BitVec.eq_of_toNat_eq (by omega))
      · rcases List.mem_cons.1 hk with rfl | hk
        · refine .inl (BitVec.eq_of_toNat_eq ?_)
          have e3 : k.res.toNat = 3 := congrArg BitVec.toNat e'
          omega
        · exact .inr ⟨k, hk, e'⟩
  exact key hs 0 (by decide) hsm (.inr h)

/-- The original function is not called behind a hook that superceded. -/
theorem called_class {K : Case} {pre post : List Hook} {ans : List Ans} {o : Option W} (P : Plays K pre post ans o) (h : o.isSome = true) :
    ∀ k ∈ pre, k.res ≠ 3 := by
  obtain ⟨c₁, c₂, c₃, a, as₁, as₂, as₃, p, e, c, d₁, d₂, d₃, -, -, -, -, -, l1, lo, -⟩ := P
  intro k hk e'
  have h3 := raisedBy_some (pass_small l1) ⟨k, hk, e'⟩
  cases lo with
  | superceded _ _ => cases h
  | refused _ _ _ _ => cases h
  | called hn => exact hn h3

theorem given_three {hs : List Hook} : (∀ x ∈ hs.map hookGiven, x.1 ≠ 3) ↔ ∀ k ∈ hs, k.res ≠ 3 := by
  constructor
  · intro h k hk e
    exact h _ (List.mem_map_of_mem hk) (congrArg BitVec.toNat e)
  · intro h x hx e
    obtain ⟨k, hk, rfl⟩ := List.mem_map.1 hx
    exact h k hk (BitVec.eq_of_toNat_eq e)

variable {acc keep : W → Bool} {g : Gen} {s : Mach} {C : Context} {H : List Hook}

/-- **C96**, objects in 64-bit code: a call of a hooked function through a hook function of the macros
has returned `v`.  If the handlers of a call of a generated hook function give the same answers and
objects of the same values, the original function (if called in both) the same value, and the context
does not refuse it (`ShouldCallOrig`), then the generated function calls the original function exactly
if the other did, and the place the caller named holds an object with the value `v`. -/
theorem agree64_class {E : Verif.SH.Env} (hE : EnvOk E) {st : Verif.SH.St} (hr : LReach E st) {cid fid : Nat} {p : Option Verif.SH.Addr} {this : Verif.SH.Addr}
    (hen : Ev.enter cid fid p this ∈ st.log) {f : Nat} {v : Val} (hret : Ev.ret cid f v ∈ st.log) (hn : ¬ Recalled st.log cid)
    (h : GenOk g) (S : IsClass g) (pr : Provided acc keep (hookStack g (s.reg 4)))
    (out : ∀ c ∈ objects g C H, Outside acc (hookStack g (s.reg 4)) c.1)
    (hi : Outside acc (hookStack g (s.reg 4)) g.pHI)
    (vt : Outside acc (hookStack g (s.reg 4)) (s.reg 1 + BitVec.ofInt 64 g.vtblOffs))
    (hm : Outside acc (hookStack g (s.reg 4)) (s.reg 2))
    {pre post : List Hook} {ans : List Ans} {o : Option W} (P : Plays (caseOf acc keep g s C H) pre post ans o)
    {enc : Val → W} (same : Same enc (results st.log fid) (pre.map hookGiven) (post.map hookGiven))
    (yes : (∀ k ∈ pre, k.res ≠ 3) → o.isSome = true)
    (ov : ∀ x w, origVals st.log fid = [x] → o = some w → w = enc x) (rest : List Ans) {L : Store}
    (free : ∀ a ∈ places (caseOf acc keep g s C H), L a = none) :
    (o.isSome = true ↔ (callees st.log cid).count none = 1) ∧
    ∃ code, generateHookFunc g = some code ∧ ∃ t' s', Returns acc keep code s (ans ++ rest) t' (rd s.mem (s.reg 4)) s' rest ∧
      (∃ t, AreCalls (hookStack g (s.reg 4)) t t' ∧
        AreMade (caseOf acc keep g s C H) t (wanted (caseOf acc keep g s C H) pre post o)) ∧
      lives L ((wanted (caseOf acc keep g s C H) pre post o).map (·.1)) = some (L.set (s.reg 2) (some (some (enc v)))) := by
  obtain ⟨code, hc, t', s', hrun, hcalls, hval, -⟩ := class_results_partial (C := C) (H := H) h S pr out hi vt hm P rest free
  obtain ⟨k1, k2⟩ := chosen hE hr hen hret hn same (given_three.trans ⟨yes, called_class P⟩).symm ov
  refine ⟨k1, code, hc, t', s', hrun, hcalls, ?_⟩
  rw [hval, ← k2, ← List.map_append, ← lastOverride_given]
  unfold ruled
  cases lastOverride (pre ++ post) <;> rfl

theorem passCalls_split (K : Case) (h : Hook) (more : List Hook) : ∀ (before : List Hook) (st : W), ∃ tail,
    passCalls K st (before ++ h :: more) = passCalls K st before ++ (.hook K.V.temp h, some (raisedBy st before)) :: tail := by
  intro before
  induction before with
  | nil => intro st; exact ⟨_, rfl⟩
  | cons x before ih =>
    intro st
    obtain ⟨tail, e⟩ := ih (raised st x.res)
    refine ⟨tail, ?_⟩
    rw [List.cons_append, passCalls, e, passCalls, List.append_assoc (_ ++ _)]
    rfl

/-- Specification: the calls in front of the first pass. -/
def startCalls (K : Case) : List (Want × Option W) :=
  [(.construct K.V.orig, none), (.construct K.V.override, none), (.construct K.V.plugin, none), (.setup, some 0)]

theorem start_lives {K : Case} (hp : (places K).Nodup) {L : Store} (free : ∀ a ∈ places K, L a = none) :
    ∃ L1, lives L ((startCalls K).map (·.1)) = some L1 ∧
      L1 K.V.orig = some none ∧ L1 K.V.override = some none ∧ L1 K.V.plugin = some none ∧ L1 K.V.temp = none := by
  have D := distinct_of hp
  have f1 : L K.V.orig = none := free _ (by simp [places])
  have f2 : L K.V.override = none := free _ (by simp [places])
  have f3 : L K.V.plugin = none := free _ (by simp [places])
  have f4 : L K.V.temp = none := free _ (by simp [places])
  refine ⟨((L.set K.V.orig (some none)).set K.V.override (some none)).set K.V.plugin (some none), ?_, ?_, ?_, ?_, ?_⟩
  · simp only [startCalls, List.map_cons, List.map_nil, lives, live, f1, set_other _ _ D.ov.symm, f2,
      set_other _ _ D.vl.symm, set_other _ _ D.ol.symm, f3, if_true, Option.bind_some]
  · rw [set_other _ _ D.ol, set_other _ _ D.ov, set_same]
  · rw [set_other _ _ D.vl, set_same]
  · rw [set_same]
  · rw [set_other _ _ D.lt.symm, set_other _ _ D.vt.symm, set_other _ _ D.ot.symm, f4]

theorem overAfter_or (y : Option W) (hs : List Hook) : overAfter y hs = (lastOf (hs.map hookGiven)).or y := by
  unfold overAfter
  rw [← lastOverride_given]
  cases lastOverride hs <;> rfl

theorem lastOf_append {α : Type} (a b : List (Nat × α)) : lastOf (a ++ b) = (lastOf b).or (lastOf a) := by
  unfold lastOf
  rw [List.filter_append, List.getLast?_append]
  cases (List.filter (fun x => decide (2 ≤ x.1)) b).getLast? <;> rfl

/-- **C96**, objects in 64-bit code: where a handler of a call through a hook function of the macros
runs, in front of the original function, the generated function (`calls` are those it has made) calls
its hook with the same status; the variable for the override value then holds an object with the
override value the other handler sees, or one that is only constructed if that sees none. -/
theorem handlers_agree64_class {E : Verif.SH.Env} (hE : EnvOk E) {st : Verif.SH.St} (hr : LReach E st) {f : Verif.SH.Frame} {fs : List Fr}
    (hf : st.frames = .hook f :: fs) (hat : AtHandler false f.pt) (hn : ¬ Recalled st.log f.cid)
    {K : Case} (hp : (places K).Nodup) {L : Store} (free : ∀ a ∈ places K, L a = none)
    {enc : Val → W} {before : List Hook} (same : Same enc (results st.log f.fid) (before.map hookGiven) [])
    (h : Hook) (more post : List Hook) (o : Option W) :
    ∃ calls code tail L', wanted K (before ++ h :: more) post o = calls ++ (.hook K.V.temp h, some code) :: tail ∧
      lives L (calls.map (·.1)) = some L' ∧ getStatus st = .ok code.toNat ∧
      ∃ x, getOverrideRet st = .ok x ∧ L' K.V.override = some (x.map enc) := by
  have D := distinct_of hp
  obtain ⟨-, h2, -, h4, -⟩ := Verif.SH.handler_sees hE hr hf hat hn
  obtain ⟨L1, e1, g1, g2, g3, g4⟩ := start_lives hp free
  obtain ⟨L2, x2, r2, -, -, p3, -⟩ := pass_lives D before 0 L1 none none g4 g3 g2
  obtain ⟨tail, et⟩ := passCalls_split K h more before 0
  refine ⟨startCalls K ++ passCalls K 0 before, raisedBy 0 before, tail ++ (midCalls K (raisedBy 0 (before ++ h :: more)) o
    ++ (passCalls K (raisedBy 0 (before ++ h :: more)) post ++ endCalls K (raisedBy (raisedBy 0 (before ++ h :: more)) post))), L2, ?_, ?_, ?_, _, h4, ?_⟩
  · unfold wanted
    rw [et]
    simp only [startCalls, List.append_assoc, List.cons_append, List.nil_append]
  · rw [List.map_append, lives_append, e1, Option.bind_some, r2]
  · rw [h2, highest_given enc, same.given, List.append_nil, raisedBy_top]
    rfl
  · rw [p3, lastOver_given, same.given, List.append_nil, overAfter_or, Option.or_none]

/-- **C96**, objects in 64-bit code: the same behind the original function; the variable for the
original value then holds an object with the original value the other handler sees. -/
theorem handlers_agree64_class_post {E : Verif.SH.Env} (hE : EnvOk E) {st : Verif.SH.St} (hr : LReach E st) {f : Verif.SH.Frame} {fs : List Fr}
    (hf : st.frames = .hook f :: fs) (hat : AtHandler true f.pt) (hn : ¬ Recalled st.log f.cid)
    {K : Case} (hp : (places K).Nodup) {L : Store} (free : ∀ a ∈ places K, L a = none)
    {enc : Val → W} {before behind : List Hook} (same : Same enc (results st.log f.fid) (before.map hookGiven) (behind.map hookGiven))
    (h : Hook) (more : List Hook) {o : Option W} (ho : o.isSome = true ↔ ∀ k ∈ before, k.res ≠ 3)
    (ov : ∀ x w, origVals st.log f.fid = [x] → o = some w → w = enc x) :
    ∃ calls code tail L', wanted K before (behind ++ h :: more) o = calls ++ (.hook K.V.temp h, some code) :: tail ∧
      lives L (calls.map (·.1)) = some L' ∧ getStatus st = .ok code.toNat ∧
      (∃ x, getOverrideRet st = .ok x ∧ L' K.V.override = some (x.map enc)) ∧
      ∃ x, getOrigRet st = .ok x ∧ L' K.V.orig = some (some (enc x)) := by
  have D := distinct_of hp
  obtain ⟨k1, ⟨y, k2, k3⟩, k4⟩ := shown hE hr hf hat hn same (ho.trans given_three.symm) ov
  obtain ⟨x, k5, k6⟩ := k4 rfl
  obtain ⟨L1, e1, g1, g2, g3, g4⟩ := start_lives hp free
  obtain ⟨L2, x2, r2, p1, p2, p3, p4⟩ := pass_lives D before 0 L1 none none g4 g3 g2
  have r3 := mid_lives D (raisedBy 0 before) o p1 ((p4 _ D.ol D.ov).trans g1) p3
  obtain ⟨L4, x4, r4, -, -, q3, q4⟩ := pass_lives D behind (raisedBy 0 before)
    (L2.set K.V.orig (some (origAfter o (overAfter none before)))) x2
    (overAfter none before) (by rw [set_other _ _ D.ot.symm, p1]) (by rw [set_other _ _ D.ol.symm, p2])
    (by rw [set_other _ _ D.ov.symm, p3])
  obtain ⟨tail, et⟩ := passCalls_split K h more behind (raisedBy 0 before)
  refine ⟨startCalls K ++ (passCalls K 0 before ++ (midCalls K (raisedBy 0 before) o ++ passCalls K (raisedBy 0 before) behind)),
    raisedBy (raisedBy 0 before) behind, tail ++ endCalls K (raisedBy (raisedBy 0 before) (behind ++ h :: more)), L4, ?_, ?_, ?_, ⟨y, k2, ?_⟩, x, k5, ?_⟩
  · unfold wanted
    rw [et]
    simp only [startCalls, List.append_assoc, List.cons_append, List.nil_append]
  · rw [List.map_append, lives_append, e1, Option.bind_some, List.map_append, lives_append, r2, Option.bind_some,
      List.map_append, lives_append, r3, Option.bind_some, r4]
  · rw [k1, topOf_append, raisedBy_top, raisedBy_top]
    rfl
  · rw [q3, k3, overAfter_or, overAfter_or, Option.or_none, lastOf_append]
  · rw [q4 _ D.ol D.ov, set_same, ← k6, overAfter_or, Option.or_none]
    cases o <;> rfl

end

end

/-! ## Examples: the same call through both -/

section
open Verif.Jit Verif.Jit.Rule

/-- A plain structure in 64-bit code: the handler says `MRES_OVERRIDE` and returns 24 sevens, the original
function 24 nines: both calls return sevens, and both call the original function. -/
example : ∃ st, LReach Verif.SH.Ex.E st ∧ (callees st.log 0).count none = 1 ∧ ∃ code, generateHookFunc Plain.plGen = some code ∧
    ∃ t' s', Returns (fun _ => true) Plain.plKeep code Class.clMach Plain.plAnswers t' (rd rxMem 0x10008) s' [] ∧
      Plain.bytesAt s'.mem 0x9000 24 = List.replicate 24 7 := by
  obtain ⟨st, hr, h1, h2, h3, h4, h5⟩ := ex_done (ops := exOps [.setRes 2, .handlerRet 7, .tick, .origRet 9, .tick]) (rs := [(false, 2, 7)]) (v := 7) (os := [9]) rfl
  obtain ⟨hc, code, hg, t', s', hrun, -, hv, -⟩ := agree64_plain (C := Class.clCtx) (H := [Class.clHook]) (N := Plain.plName)
    (enc := fun v => Plain.plName (BitVec.ofInt 64 v)) Verif.SH.Ex.envOk hr h1 h2 h3 Plain.plGen_ok Plain.plGen_plain Class.clMach Plain.pl_provided Plain.pl_out
    ⟨rfl, by decide +kernel⟩ ⟨rfl, by decide +kernel⟩ ⟨by decide +kernel, by decide +kernel⟩ Plain.pl_plays
    (by rw [h4]; rfl) (fun a as e => by cases e; decide) (fun x w hx hw => by rw [h5] at hx; cases hx; cases hw; rfl) []
  exact ⟨st, hr, hc.1 rfl, code, hg, t', s', by rw [List.append_nil] at hrun; exact hrun, hv⟩

/-- A plain structure in 64-bit code: a handler behind the original function, after one that said `MRES_OVERRIDE` and 5. -/
example : ∃ st, ∃ σ : Plain.St, LReach Verif.SH.Ex.E st ∧ getStatus st = .ok 2 ∧ σ.status = 2 ∧ σ.ov = Plain.plName 5 ∧ σ.or = Plain.plName 7 := by
  obtain ⟨st, f, fs, hr, hf, hat, hn, h4, h5⟩ := ex_running (ops := Verif.SH.Ex.over1) (post := true)
    (rs := [(false, 1, 0), (false, 2, 5), (false, 0, 0)]) (os := [7]) rfl
  obtain ⟨k1, -⟩ := handlers_agree64_plain (N := Plain.plName) (enc := fun v => Plain.plName (BitVec.ofInt 64 v))
    (before := [⟨0, 0, 0, 1, 0⟩, ⟨0, 0, 0, 2, 5⟩, ⟨0, 0, 0, 0, 0⟩]) (behind := []) (o := some 7) Verif.SH.Ex.envOk hr hf hat hn
    Plain.plVars Plain.plGen (fun _ => 0) (by rw [h4]; rfl) (fun e => by cases e) (by decide)
    (fun x w hx hw => by rw [h5] at hx; cases hx; cases hw; rfl) rfl
  exact ⟨st, Plain.passed Plain.plName ((Plain.passed Plain.plName (Plain.first Plain.plVars Plain.plGen fun _ => 0)
    [⟨0, 0, 0, 1, 0⟩, ⟨0, 0, 0, 2, 5⟩, ⟨0, 0, 0, 0, 0⟩]).orig Plain.plName (some 7)) [], hr, k1, rfl, rfl, rfl⟩

/-- An object in 64-bit code: the handler says `MRES_OVERRIDE` and returns 7, the original function 9. -/
example : ∃ st, LReach Verif.SH.Ex.E st ∧ (callees st.log 0).count none = 1 ∧ ∃ code, generateHookFunc Class.clGen = some code ∧
    ∃ t' s', Returns (fun _ => true) Class.clKeep code Class.clMach Class.clAnswers t' (rd rxMem 0x10008) s' [] ∧
      Class.lives (fun _ => none) ((Class.wanted Class.clCase [Class.clHook] [] (some 9)).map (·.1))
        = some (Class.Store.set (fun _ => none) 0x9000 (some (some 7))) := by
  obtain ⟨st, hr, h1, h2, h3, h4, h5⟩ := ex_done (ops := exOps [.setRes 2, .handlerRet 7, .tick, .origRet 9, .tick]) (rs := [(false, 2, 7)]) (v := 7) (os := [9]) rfl
  obtain ⟨hc, code, hg, t', s', hrun, -, hv⟩ := agree64_class (C := Class.clCtx) (H := [Class.clHook])
    (enc := BitVec.ofInt 64) Verif.SH.Ex.envOk hr h1 h2 h3 Class.clGen_ok Class.clGen_class Class.cl_provided Class.cl_out
    Class.cl_hi Class.cl_vt Class.cl_memret Class.cl_plays (by rw [h4]; rfl) (fun _ => rfl)
    (fun x w hx hw => by rw [h5] at hx; cases hx; cases hw; rfl) [] (L := fun _ => none) (fun _ _ => rfl)
  exact ⟨st, hr, hc.1 rfl, code, hg, t', s', by rw [List.append_nil] at hrun; exact hrun, hv⟩

/-- An object in 64-bit code: the second of two handlers, after one that said `MRES_SUPERCEDE` and 42. -/
example : ∃ st, LReach Verif.SH.Ex.E st ∧ getStatus st = .ok 3 ∧ getOverrideRet st = .ok (some 42) ∧
    ∃ calls code tail L', Class.wanted Class.clCase [⟨0, 0, 0, 3, 42⟩, Class.clHook] [] none = calls ++ (.hook Class.clCase.V.temp Class.clHook, some code) :: tail ∧
      Class.lives (fun _ => none) (calls.map (·.1)) = some L' ∧ code.toNat = 3 ∧ L' Class.clCase.V.override = some (some 42) := by
  obtain ⟨st, f, fs, hr, hf, hat, hn, h4, h5⟩ := ex_running (ops := [.reg (.add Verif.SH.Ex.a1), .reg (.add Verif.SH.Ex.a2), .call 2008 1000, .tick, .setRes 3, .handlerRet 42, .tick])
    (post := false) (rs := [(false, 3, 42)]) (os := []) rfl
  obtain ⟨calls, code, tail, L', k1, k2, k3, x, k4, k5⟩ := handlers_agree64_class (K := Class.clCase) (L := fun _ => none) (enc := BitVec.ofInt 64)
    (before := [⟨0, 0, 0, 3, 42⟩]) Verif.SH.Ex.envOk hr hf hat hn (Class.places_nodup Class.clGen_ok Class.clGen_class Class.cl_provided Class.cl_memret)
    (fun _ _ => rfl) (by rw [h4]; rfl) Class.clHook [] [] none
  obtain ⟨-, e2, -, e4, -⟩ := Verif.SH.handler_sees Verif.SH.Ex.envOk hr hf hat hn
  rw [h4] at e2 e4
  refine ⟨st, hr, e2, e4, calls, code, tail, L', k1, k2, ?_, ?_⟩
  · rw [e2] at k3
    exact (Except.ok.inj k3).symm
  · rw [e4] at k4
    cases k4
    exact k5

/-- An object in 64-bit code: a handler behind the original function, after one that said `MRES_OVERRIDE` and 5 in front of it. -/
example : ∃ st, LReach Verif.SH.Ex.E st ∧ getStatus st = .ok 2 ∧
    ∃ calls code tail L', Class.wanted Class.clCase [⟨0, 0, 0, 1, 0⟩, ⟨0, 0, 0, 2, 5⟩, ⟨0, 0, 0, 0, 0⟩] [Class.clHook] (some 7)
        = calls ++ (.hook Class.clCase.V.temp Class.clHook, some code) :: tail ∧
      Class.lives (fun _ => none) (calls.map (·.1)) = some L' ∧ code.toNat = 2 ∧ ∃ x, getOrigRet st = .ok x ∧ L' Class.clCase.V.orig = some (some (BitVec.ofInt 64 x)) := by
  obtain ⟨st, f, fs, hr, hf, hat, hn, h4, h5⟩ := ex_running (ops := Verif.SH.Ex.over1) (post := true)
    (rs := [(false, 1, 0), (false, 2, 5), (false, 0, 0)]) (os := [7]) rfl
  obtain ⟨calls, code, tail, L', k1, k2, k3, -, k4⟩ := handlers_agree64_class_post (K := Class.clCase) (L := fun _ => none) (enc := BitVec.ofInt 64)
    (before := [⟨0, 0, 0, 1, 0⟩, ⟨0, 0, 0, 2, 5⟩, ⟨0, 0, 0, 0, 0⟩]) (behind := []) (o := some 7) Verif.SH.Ex.envOk hr hf hat hn
    (Class.places_nodup Class.clGen_ok Class.clGen_class Class.cl_provided Class.cl_memret)
    (fun _ _ => rfl) (by rw [h4]; rfl) Class.clHook [] (by decide) (fun x w hx hw => by rw [h5] at hx; cases hx; cases hw; rfl)
  obtain ⟨-, e2, -⟩ := Verif.SH.handler_sees Verif.SH.Ex.envOk hr hf hat hn
  rw [h4] at e2
  refine ⟨st, hr, e2, calls, code, tail, L', k1, k2, ?_, k4⟩
  rw [e2] at k3
  exact (Except.ok.inj k3).symm

end

end Verif.Alike
#print axioms Verif.Alike.agree64_plain
#print axioms Verif.Alike.handlers_agree64_plain
#print axioms Verif.Alike.agree64_class
#print axioms Verif.Alike.handlers_agree64_class
#print axioms Verif.Alike.handlers_agree64_class_post
