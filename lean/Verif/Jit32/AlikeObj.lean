import Verif.Jit.AlikeObj
/-
C96 for 32-bit code: hook functions generated at run time for functions that return objects of a class
with special functions (core/sourcehook/sourcehook_hookmangen_x86.cpp:530-779, 831-931, 1055-1234,
1356-1703) choose as the hook functions the macros make (core/sourcehook/sourcehook.h:937-983).
-/
namespace Verif.Alike

open Verif.SH (Val Ev LReach EnvOk results origVals highest lastOver preRes callees Recalled AtHandler runs getStatus getOverrideRet getOrigRet Fr)
open Verif.Jit32 Verif.Jit32.Spec
open Verif.Jit32.Rule hiding wanted Plays ruled endCalls EndAns
open Verif.Jit32.Class
open Verif.Jit (Byte)

variable {U : Fpu}

theorem after_top32 (hs : List Hook) : ∀ st : W, (after st hs).toNat = (hs.map hookGiven32).foldl (fun a x => max a x.1) st.toNat := by
  induction hs with
  | nil => intro st; rfl
  | cons h hs ih =>
    intro st
    refine (ih (raised st h.res)).trans ?_
    have e : (raised st h.res).toNat = max st.toNat h.res.toNat := by
      unfold raised
      split <;> omega
    rw [e]
    rfl

theorem pass_small32 {K : Case} {st : W} {hs : List Hook} {as : List (Ans U)} (P : PassAns K st hs as) : ∀ h ∈ hs, h.res.toNat ≤ 3 := by
  induction P with
  | done => intro h hh; cases hh
  | hook _ _ hr _ _ _ _ _ _ _ ih =>
    intro h hh
    rcases List.mem_cons.1 hh with rfl | hh
    · exact hr
    · exact ih h hh
  | over _ _ hr _ _ _ _ _ _ _ _ _ _ ih =>
    intro h hh
    rcases List.mem_cons.1 hh with rfl | hh
    · exact hr
    · exact ih h hh

theorem after_some32 {hs : List Hook} (hsm : ∀ h ∈ hs, h.res.toNat ≤ 3) (h : ∃ k ∈ hs, k.res = 3) : after 0 hs = 3 := by
  have key : ∀ (hs : List Hook) (st : W), st.toNat ≤ 3 → (∀ h ∈ hs, h.res.toNat ≤ 3) → (st = 3 ∨ ∃ k ∈ hs, k.res = 3) → after st hs = 3 := by
    intro hs
    induction hs with
    | nil =>
      rintro st - - (e | ⟨k, hk, -⟩)
      · exact e
      · cases hk
    | cons x hs ih =>
      intro st h1 h2 h3
      have hx := h2 x (List.mem_cons_self ..)
      have e : (raised st x.res).toNat = max st.toNat x.res.toNat := by
        unfold raised
        split <;> omega
      refine ih (raised st x.res) (by omega) (fun k hk => h2 k (List.mem_cons_of_mem _ hk)) ?_
      have h33 : (3 : W).toNat = 3 := rfl
      rcases h3 with rfl | ⟨k, hk, e'⟩
      · exact .inl (BitVec.eq_of_toNat_eq (by omega))
      · rcases List.mem_cons.1 hk with rfl | hk
        · refine .inl (BitVec.eq_of_toNat_eq ?_)
          have e3 : k.res.toNat = 3 := congrArg BitVec.toNat e'
          omega
        · exact .inr ⟨k, hk, e'⟩
  exact key hs 0 (by decide) hsm (.inr h)

/-- The original function is not called behind a hook that superceded. -/
theorem called_class32 {K : Case} {pre post : List Hook} {ans : List (Ans U)} {o : Option (List Byte)} (P : Plays K pre post ans o) (h : o.isSome = true) :
    ∀ k ∈ pre, k.res ≠ 3 := by
  obtain ⟨as₀, c₁, c₂, c₃, a, as₁, as₂, as₃, p, e, c, d₁, d₂, d₃, -, -, -, -, -, -, l1, lo, -⟩ := P
  intro k hk e'
  have h3 := after_some32 (pass_small32 l1) ⟨k, hk, e'⟩
  cases lo with
  | superceded _ _ => cases h
  | refused _ _ _ _ => cases h
  | called hn => exact hn h3

theorem given_three32 {hs : List Hook} : (∀ x ∈ hs.map hookGiven32, x.1 ≠ 3) ↔ ∀ k ∈ hs, k.res ≠ 3 := by
  constructor
  · intro h k hk e
    exact h _ (List.mem_map_of_mem hk) (congrArg BitVec.toNat e)
  · intro h x hx e
    obtain ⟨k, hk, rfl⟩ := List.mem_map.1 hx
    exact h k hk (BitVec.eq_of_toNat_eq e)

variable {E : Env} {g : Gen} {s : Mach U} {depth : Int} {C : Context} {H : List Hook} {text : List Byte}

/-- **C96**, objects in 32-bit code: a call of a hooked function through a hook function of the macros
has returned `v`.  If the handlers of a call of a generated hook function give the same answers and
objects of the same values, the original function (if called in both) the same value, and the context
does not refuse it (`ShouldCallOrig`), then the generated function calls the original function exactly
if the other did, and the place the caller named holds an object with the value `v`. -/
theorem agree32_class {A : Verif.SH.Env} (hA : EnvOk A) {st : Verif.SH.St} (hr : LReach A st) {cid fid : Nat} {p : Option Verif.SH.Addr} {this : Verif.SH.Addr}
    (hen : Ev.enter cid fid p this ∈ st.log) {f : Nat} {v : Val} (hret : Ev.ret cid f v ∈ st.log) (hn : ¬ Recalled st.log cid)
    (h : HookOk g) (S : IsClass g) (hE : CallerOk E g (s.reg 4) depth) (hf : s.fpu = [])
    (out : ∀ c ∈ (caseOf E g s depth C H text).objects, Outside E.acc (stackOf g (s.reg 4) depth) c.1 4)
    (hi : Outside E.acc (stackOf g (s.reg 4) depth) g.pHI 4)
    (vt : Outside E.acc (stackOf g (s.reg 4) depth) (thisArg g s + BitVec.ofInt 32 g.vtblOffs) 4)
    (ha : okN E.acc (s.reg 4 + firstArg g) (caseOf E g s depth C H text).argSize = true)
    (hm : Outside E.acc (stackOf g (s.reg 4) depth) (arg s 1) g.ret.size)
    {pre post : List Hook} {ans : List (Ans U)} {o : Option (List Byte)} (P : Plays (caseOf E g s depth C H text) pre post ans o)
    {enc : Val → List Byte} (same : Same enc (results st.log fid) (pre.map hookGiven32) (post.map hookGiven32))
    (yes : (∀ k ∈ pre, k.res ≠ 3) → o.isSome = true)
    (ov : ∀ x w, origVals st.log fid = [x] → o = some w → w = enc x) (rest : List (Ans U)) {L : Store}
    (free : ∀ a ∈ places (caseOf E g s depth C H text), L a = none) :
    (o.isSome = true ↔ (callees st.log cid).count none = 1) ∧
    ∃ code tr s', generateHookFunc g = some code ∧ Returns E code s (ans ++ rest) tr (arg s 0) s' rest ∧
      (∃ t, AreCalls (stackOf g (s.reg 4) depth) t tr ∧
        AreMade (caseOf E g s depth C H text) t (wanted (caseOf E g s depth C H text) pre post o)) ∧
      lives L ((wanted (caseOf E g s depth C H text) pre post o).map (·.1)) = some (L.set (arg s 1) (some (some (enc v)))) ∧
      s'.reg 0 = arg s 1 := by
  obtain ⟨code, tr, s', hc, hrun, hcalls, hval, hreg, -⟩ := class_results (C := C) (H := H) (text := text) h S hE hf out hi vt ha hm P rest free
  obtain ⟨k1, k2⟩ := chosen hA hr hen hret hn same (given_three32.trans ⟨yes, called_class32 P⟩).symm ov
  refine ⟨k1, code, tr, s', hc, hrun, hcalls, ?_, hreg⟩
  rw [hval, ← k2, ← List.map_append, ← lastOverride_given32]
  unfold ruled
  cases lastOverride (pre ++ post) <;> rfl

theorem passCalls_split32 (K : Case) (h : Hook) (more : List Hook) : ∀ (before : List Hook) (st : W), ∃ tail,
    passCalls K st (before ++ h :: more) = passCalls K st before ++ (.hook K.V.temp h, after st before) :: tail := by
  intro before
  induction before with
  | nil => intro st; exact ⟨_, rfl⟩
  | cons x before ih =>
    intro st
    obtain ⟨tail, e⟩ := ih (raised st x.res)
    refine ⟨tail, ?_⟩
    rw [List.cons_append, passCalls, e, passCalls, List.append_assoc (_ ++ _)]
    rfl

/-- Specification: the calls in front of the first pass. -/
def startCalls32 (K : Case) : List (Want × W) :=
  (if K.g.vafmt then [(.text, 0)] else []) ++
  [(.construct K.V.orig, 0), (.construct K.V.override, 0), (.construct K.V.plugin, 0), (.setup, 0)]

theorem start_lives32 {K : Case} (hp : (places K).Nodup) {L : Store} (free : ∀ a ∈ places K, L a = none) :
    ∃ L1, lives L ((startCalls32 K).map (·.1)) = some L1 ∧
      L1 K.V.orig = some none ∧ L1 K.V.override = some none ∧ L1 K.V.plugin = some none ∧ L1 K.V.temp = none := by
  have D := distinct_of hp
  have f1 : L K.V.orig = none := free _ (by simp [places])
  have f2 : L K.V.override = none := free _ (by simp [places])
  have f3 : L K.V.plugin = none := free _ (by simp [places])
  have f4 : L K.V.temp = none := free _ (by simp [places])
  refine ⟨((L.set K.V.orig (some none)).set K.V.override (some none)).set K.V.plugin (some none), ?_, ?_, ?_, ?_, ?_⟩
  · have e0 : ∀ ws : List Want, lives L ((if K.g.vafmt then [(Want.text, (0 : W))] else []).map (·.1) ++ ws) = lives L ws := by
      intro ws
      cases K.g.vafmt <;> rfl
    rw [startCalls32, List.map_append, e0]
    simp only [List.map_cons, List.map_nil, lives, live, f1, set_other _ _ D.ov.symm, f2,
      set_other _ _ D.vl.symm, set_other _ _ D.ol.symm, f3, if_true, Option.bind_some]
  · rw [set_other _ _ D.ol, set_other _ _ D.ov, set_same]
  · rw [set_other _ _ D.vl, set_same]
  · rw [set_same]
  · rw [set_other _ _ D.lt.symm, set_other _ _ D.vt.symm, set_other _ _ D.ot.symm, f4]

theorem overAfter_or32 (y : Option (List Byte)) (hs : List Hook) : overAfter y hs = (lastOf (hs.map hookGiven32)).or y := by
  unfold overAfter
  rw [← lastOverride_given32]
  cases lastOverride hs <;> rfl

/-- **C96**, objects in 32-bit code: where a handler of a call through a hook function of the macros
runs, in front of the original function, the generated function (`calls` are those it has made) calls
its hook with the same status; the variable for the override value then holds an object with the
override value the other handler sees, or one that is only constructed if that sees none. -/
theorem handlers_agree32_class {E : Verif.SH.Env} (hE : EnvOk E) {st : Verif.SH.St} (hr : LReach E st) {f : Verif.SH.Frame} {fs : List Fr}
    (hf : st.frames = .hook f :: fs) (hat : AtHandler false f.pt) (hn : ¬ Recalled st.log f.cid)
    {K : Case} (hp : (places K).Nodup) {L : Store} (free : ∀ a ∈ places K, L a = none)
    {enc : Val → List Byte} {before : List Hook} (same : Same enc (results st.log f.fid) (before.map hookGiven32) [])
    (h : Hook) (more post : List Hook) (o : Option (List Byte)) :
    ∃ calls code tail L', wanted K (before ++ h :: more) post o = calls ++ (.hook K.V.temp h, code) :: tail ∧
      lives L (calls.map (·.1)) = some L' ∧ getStatus st = .ok code.toNat ∧
      ∃ x, getOverrideRet st = .ok x ∧ L' K.V.override = some (x.map enc) := by
  have D := distinct_of hp
  obtain ⟨-, h2, -, h4, -⟩ := Verif.SH.handler_sees hE hr hf hat hn
  obtain ⟨L1, e1, g1, g2, g3, g4⟩ := start_lives32 hp free
  obtain ⟨L2, x2, r2, -, -, p3, -⟩ := pass_lives D before 0 L1 none none g4 g3 g2
  obtain ⟨tail, et⟩ := passCalls_split32 K h more before 0
  refine ⟨startCalls32 K ++ passCalls K 0 before, after 0 before, tail ++ (midCalls K (after 0 (before ++ h :: more)) o
    ++ (passCalls K (after 0 (before ++ h :: more)) post ++ endCalls K (after (after 0 (before ++ h :: more)) post))), L2, ?_, ?_, ?_, _, h4, ?_⟩
  · unfold wanted
    rw [et]
    simp only [startCalls32, List.append_assoc, List.cons_append, List.nil_append]
  · rw [List.map_append, lives_append, e1, Option.bind_some, r2]
  · rw [h2, highest_given enc, same.given, List.append_nil, after_top32]
    rfl
  · rw [p3, lastOver_given, same.given, List.append_nil, overAfter_or32, Option.or_none]

/-- **C96**, objects in 32-bit code: the same behind the original function; the variable for the
original value then holds an object with the original value the other handler sees. -/
theorem handlers_agree32_class_post {E : Verif.SH.Env} (hE : EnvOk E) {st : Verif.SH.St} (hr : LReach E st) {f : Verif.SH.Frame} {fs : List Fr}
    (hf : st.frames = .hook f :: fs) (hat : AtHandler true f.pt) (hn : ¬ Recalled st.log f.cid)
    {K : Case} (hp : (places K).Nodup) {L : Store} (free : ∀ a ∈ places K, L a = none)
    {enc : Val → List Byte} {before behind : List Hook} (same : Same enc (results st.log f.fid) (before.map hookGiven32) (behind.map hookGiven32))
    (h : Hook) (more : List Hook) {o : Option (List Byte)} (ho : o.isSome = true ↔ ∀ k ∈ before, k.res ≠ 3)
    (ov : ∀ x w, origVals st.log f.fid = [x] → o = some w → w = enc x) :
    ∃ calls code tail L', wanted K before (behind ++ h :: more) o = calls ++ (.hook K.V.temp h, code) :: tail ∧
      lives L (calls.map (·.1)) = some L' ∧ getStatus st = .ok code.toNat ∧
      (∃ x, getOverrideRet st = .ok x ∧ L' K.V.override = some (x.map enc)) ∧
      ∃ x, getOrigRet st = .ok x ∧ L' K.V.orig = some (some (enc x)) := by
  have D := distinct_of hp
  obtain ⟨k1, ⟨y, k2, k3⟩, k4⟩ := shown hE hr hf hat hn same (ho.trans given_three32.symm) ov
  obtain ⟨x, k5, k6⟩ := k4 rfl
  obtain ⟨L1, e1, g1, g2, g3, g4⟩ := start_lives32 hp free
  obtain ⟨L2, x2, r2, p1, p2, p3, p4⟩ := pass_lives D before 0 L1 none none g4 g3 g2
  have r3 := mid_lives D (after 0 before) o p1 ((p4 _ D.ol D.ov).trans g1) p3
  obtain ⟨L4, x4, r4, -, -, q3, q4⟩ := pass_lives D behind (after 0 before)
    (L2.set K.V.orig (some (origAfter o (overAfter none before)))) x2
    (overAfter none before) (by rw [set_other _ _ D.ot.symm, p1]) (by rw [set_other _ _ D.ol.symm, p2])
    (by rw [set_other _ _ D.ov.symm, p3])
  obtain ⟨tail, et⟩ := passCalls_split32 K h more behind (after 0 before)
  refine ⟨startCalls32 K ++ (passCalls K 0 before ++ (midCalls K (after 0 before) o ++ passCalls K (after 0 before) behind)),
    after (after 0 before) behind, tail ++ endCalls K (after (after 0 before) (behind ++ h :: more)), L4, ?_, ?_, ?_, ⟨y, k2, ?_⟩, x, k5, ?_⟩
  · unfold wanted
    rw [et]
    simp only [startCalls32, List.append_assoc, List.cons_append, List.nil_append]
  · rw [List.map_append, lives_append, e1, Option.bind_some, List.map_append, lives_append, r2, Option.bind_some,
      List.map_append, lives_append, r3, Option.bind_some, r4]
  · rw [k1, topOf_append, after_top32, after_top32]
    rfl
  · rw [q3, k3, overAfter_or32, overAfter_or32, Option.or_none, lastOf_append]
  · rw [q4 _ D.ol D.ov, set_same, ← k6, overAfter_or32, Option.or_none]
    cases o <;> rfl

/-! ## Examples: the same call through both -/

/-- An object in 32-bit code: the handler says `MRES_OVERRIDE` and returns 7, the original function 9. -/
example : ∃ st, LReach Verif.SH.Ex.E st ∧ (callees st.log 0).count none = 1 ∧ ∃ code tr s', generateHookFunc clGen = some code ∧
    Returns clEnv code clMach clAnswers tr (arg clMach 0) s' [] ∧
      lives (fun _ => none) ((wanted clCase [clHook] [] (some [9])).map (·.1))
        = some (Store.set (fun _ => none) (arg clMach 1) (some (some [7]))) := by
  obtain ⟨st, hr, h1, h2, h3, h4, h5⟩ := ex_done (ops := exOps [.setRes 2, .handlerRet 7, .tick, .origRet 9, .tick]) (rs := [(false, 2, 7)]) (v := 7) (os := [9]) rfl
  obtain ⟨hc, code, tr, s', hg, hrun, -, hv, -⟩ := agree32_class (C := rxCtx) (H := [clHook]) (text := []) (enc := fun v => [BitVec.ofInt 8 v])
    Verif.SH.Ex.envOk hr h1 h2 h3 clGen_ok clGen_class cl_caller rfl cl_out cl_hi cl_vt rfl cl_memret cl_plays (by rw [h4]; rfl) (fun _ => rfl)
    (fun x w hx hw => by rw [h5] at hx; cases hx; cases hw; rfl) [] (L := fun _ => none) (fun _ _ => rfl)
  exact ⟨st, hr, hc.1 rfl, code, tr, s', hg, by rw [List.append_nil] at hrun; exact hrun, hv⟩

/-- An object in 32-bit code: the second of two handlers, after one that said `MRES_SUPERCEDE` and 42. -/
example : ∃ st, LReach Verif.SH.Ex.E st ∧ getStatus st = .ok 3 ∧ getOverrideRet st = .ok (some 42) ∧
    ∃ calls code tail L', wanted clCase [⟨0, 0, 0, 3, [42]⟩, clHook] [] none = calls ++ (.hook clCase.V.temp clHook, code) :: tail ∧
      lives (fun _ => none) (calls.map (·.1)) = some L' ∧ code.toNat = 3 ∧ L' clCase.V.override = some (some [42]) := by
  obtain ⟨st, f, fs, hr, hf, hat, hn, h4, h5⟩ := ex_running (ops := [.reg (.add Verif.SH.Ex.a1), .reg (.add Verif.SH.Ex.a2), .call 2008 1000, .tick, .setRes 3, .handlerRet 42, .tick])
    (post := false) (rs := [(false, 3, 42)]) (os := []) rfl
  obtain ⟨calls, code, tail, L', k1, k2, k3, x, k4, k5⟩ := handlers_agree32_class (K := clCase) (L := fun _ => none) (enc := fun v => [BitVec.ofInt 8 v])
    (before := [⟨0, 0, 0, 3, [42]⟩]) Verif.SH.Ex.envOk hr hf hat hn (places_nodup clGen_ok clGen_class cl_caller cl_memret)
    (fun _ _ => rfl) (by rw [h4]; rfl) clHook [] [] none
  obtain ⟨-, e2, -, e4, -⟩ := Verif.SH.handler_sees Verif.SH.Ex.envOk hr hf hat hn
  rw [h4] at e2 e4
  refine ⟨st, hr, e2, e4, calls, code, tail, L', k1, k2, ?_, ?_⟩
  · rw [e2] at k3
    exact (Except.ok.inj k3).symm
  · rw [e4] at k4
    cases k4
    exact k5

/-- An object in 32-bit code: a handler behind the original function, after one that said `MRES_OVERRIDE` and 5 in front of it. -/
example : ∃ st, LReach Verif.SH.Ex.E st ∧ getStatus st = .ok 2 ∧
    ∃ calls code tail L', wanted clCase [⟨0, 0, 0, 1, [0]⟩, ⟨0, 0, 0, 2, [5]⟩, ⟨0, 0, 0, 0, [0]⟩] [clHook] (some [7])
        = calls ++ (.hook clCase.V.temp clHook, code) :: tail ∧
      lives (fun _ => none) (calls.map (·.1)) = some L' ∧ code.toNat = 2 ∧ ∃ x, getOrigRet st = .ok x ∧ L' clCase.V.orig = some (some [BitVec.ofInt 8 x]) := by
  obtain ⟨st, f, fs, hr, hf, hat, hn, h4, h5⟩ := ex_running (ops := Verif.SH.Ex.over1) (post := true)
    (rs := [(false, 1, 0), (false, 2, 5), (false, 0, 0)]) (os := [7]) rfl
  obtain ⟨calls, code, tail, L', k1, k2, k3, -, k4⟩ := handlers_agree32_class_post (K := clCase) (L := fun _ => none) (enc := fun v => [BitVec.ofInt 8 v])
    (before := [⟨0, 0, 0, 1, [0]⟩, ⟨0, 0, 0, 2, [5]⟩, ⟨0, 0, 0, 0, [0]⟩]) (behind := []) (o := some [7]) Verif.SH.Ex.envOk hr hf hat hn
    (places_nodup clGen_ok clGen_class cl_caller cl_memret)
    (fun _ _ => rfl) (by rw [h4]; rfl) clHook [] (by decide) (fun x w hx hw => by rw [h5] at hx; cases hx; cases hw; rfl)
  obtain ⟨-, e2, -⟩ := Verif.SH.handler_sees Verif.SH.Ex.envOk hr hf hat hn
  rw [h4] at e2
  refine ⟨st, hr, e2, calls, code, tail, L', k1, k2, ?_, k4⟩
  rw [e2] at k3
  exact (Except.ok.inj k3).symm

end Verif.Alike
#print axioms Verif.Alike.agree32_class
#print axioms Verif.Alike.handlers_agree32_class
#print axioms Verif.Alike.handlers_agree32_class_post
