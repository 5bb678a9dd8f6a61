import Verif.Jit32.PrevRun
import Verif.Jit.Alike
/-
C97 for 32-bit code: META_RESULT_PREVIOUS in hook functions generated at run time
(core/sourcehook/sourcehook_hookmangen_x86.cpp:941-942, 1019-1032) and in those of the macros
(core/sourcehook/sourcehook.h:937-983).
-/
namespace Verif.Jit32.Rule

open Verif.Jit32.Spec
open Verif.Jit (Byte)

variable {U : Fpu}

/-- Specification: the answer of the last of some hooks, `MRES_IGNORED` if there is none. -/
def answerBefore (hs : List Hook) : W := (hs.getLast?.map Hook.res).getD 0

theorem loopCalls_split (K : Case) (h : Hook) (more : List Hook) : ∀ (before : List Hook) (σ : St), ∃ tail,
    loopCalls K σ (before ++ h :: more) = loopCalls K σ before ++ ⟨h.fn, K.hookArgs h, passed σ before, K.buf⟩ :: tail := by
  intro before
  induction before with
  | nil =>
    intro σ
    exact ⟨_, rfl⟩
  | cons x before ih =>
    intro σ
    obtain ⟨tail, e⟩ := ih (σ.hook x)
    refine ⟨tail, ?_⟩
    rw [List.cons_append, loopCalls, e, loopCalls, List.append_assoc (_ ++ _)]
    rfl

theorem passPrevs_split (K : Case) (h : Hook) (more : List Hook) : ∀ (before : List Hook) (p : W), ∃ tail,
    passPrevs K p (before ++ h :: more) = passPrevs K p before ++ (before.getLast?.map Hook.res).getD p :: tail := by
  intro before
  induction before with
  | nil =>
    intro p
    exact ⟨_, rfl⟩
  | cons x before ih =>
    intro p
    obtain ⟨tail, e⟩ := ih x.res
    refine ⟨tail, ?_⟩
    have e2 : ((x :: before).getLast?.map Hook.res).getD p = (before.getLast?.map Hook.res).getD x.res := by
      rw [List.getLast?_cons]
      cases before.getLast? <;> rfl
    rw [List.cons_append, passPrevs, e, passPrevs, List.append_assoc (_ ++ _), e2]

theorem pass_length (K : Case) : ∀ (hs : List Hook) (σ : St) (p : W), (passPrevs K p hs).length = (loopCalls K σ hs).length := by
  intro hs
  induction hs with
  | nil => intro σ p; rfl
  | cons x hs ih =>
    intro σ p
    rw [passPrevs, loopCalls, List.length_append, List.length_append, List.length_append, List.length_append, ih (σ.hook x)]
    split <;> rfl

theorem AreSeen.length {K : Case} {t : List SCall} {w : List Seen} (h : AreSeen K t w) : t.length = w.length := by
  induction h with
  | nil => rfl
  | cons _ _ ih => simp [ih]

theorem AreSeen.split {K : Case} {a : List Seen} {e : Seen} {b : List Seen} : ∀ {t : List SCall}, AreSeen K t (a ++ e :: b) →
    ∃ u c v, t = u ++ c :: v ∧ AreSeen K u a ∧ IsSeen K c e := by
  induction a with
  | nil =>
    intro t h
    cases h with
    | cons h1 h2 => exact ⟨[], _, _, rfl, .nil, h1⟩
  | cons x a ih =>
    intro t h
    cases h with
    | cons h1 h2 =>
      obtain ⟨u, c, v, rfl, h3, h4⟩ := ih h2
      exact ⟨_ :: u, c, v, rfl, .cons h1 h3, h4⟩

/-- A call of a pass with what it finds in `prev_res`. -/
theorem pass_finds {K : Case} {σ : St} {before : List Hook} {h : Hook} {more : List Hook} {t : List SCall}
    (s : AreSeen K t (loopCalls K σ (before ++ h :: more))) (p : prevs K t = passPrevs K 0 (before ++ h :: more)) :
    ∃ u c v, t = u ++ c :: v ∧ AreSeen K u (loopCalls K σ before) ∧
      IsSeen K c ⟨h.fn, K.hookArgs h, passed σ before, K.buf⟩ ∧ rd c.mem K.V.prev = answerBefore before := by
  obtain ⟨tail, e⟩ := loopCalls_split K h more before σ
  obtain ⟨tail', e'⟩ := passPrevs_split K h more before 0
  rw [e] at s
  obtain ⟨u, c, v, rfl, hu, hc⟩ := s.split
  refine ⟨u, c, v, rfl, hu, hc, ?_⟩
  rw [e', prevs_append] at p
  have hl : (prevs K u).length = (passPrevs K 0 before).length := by
    rw [pass_length K before σ, ← hu.length]
    exact List.length_map ..
  have := (List.append_inj p hl).2
  exact (List.cons.inj this).1

variable {E : Env} {g : Gen} {s : Mach U} {depth : Int} {C : Context} {H : List Hook} {text : List Byte}

/-- **C97**, 32-bit code: a call as in C87, where the functions called leave the variable `prev_res`
alone.  Whatever the hooks are and answer, the call of each hook finds in `prev_res` the answer of the
hook called before it in the same pass, and `MRES_IGNORED` if it is the first of the pass. -/
theorem prev_rule (h : HookOk g) (S : Simple g) (hE : CallerOk E g (s.reg 4) depth) (hf : s.fpu = [])
    (out : ∀ c ∈ (caseOf E g s depth C H text).objects,
      Outside E.acc (stackOf g (s.reg 4) depth) c.1 4)
    (hi : Outside E.acc (stackOf g (s.reg 4) depth) g.pHI 4)
    (vt : Outside E.acc (stackOf g (s.reg 4) depth) (thisArg g s + BitVec.ofInt 32 g.vtblOffs) 4)
    (ha : okN E.acc (s.reg 4 + firstArg g) (caseOf E g s depth C H text).argSize = true)
    (hm : hid g = true → Outside E.acc (stackOf g (s.reg 4) depth) (arg s 1) g.ret.size)
    {pre post : List Hook} {mid ans : List (Ans U)} {o : Option (List Byte)}
    (P : Plays (caseOf E g s depth C H text) pre post mid ans o)
    (leave : ∀ a ∈ ans, Leaves (caseOf E g s depth C H text) a) (rest : List (Ans U)) :
    ∃ code tr s', generateHookFunc g = some code ∧
      Returns E code s (ans ++ rest) tr (arg s 0) s' rest ∧
      ∃ t, AreCalls (stackOf g (s.reg 4) depth) t tr ∧
        AreSeen (caseOf E g s depth C H text) t (wanted (caseOf E g s depth C H text) pre post o) ∧
        (∀ before k more, pre = before ++ k :: more → ∃ u c v, t = u ++ c :: v ∧
          AreSeen (caseOf E g s depth C H text) u (openCalls (caseOf E g s depth C H text)
            ++ loopCalls (caseOf E g s depth C H text) (first (caseOf E g s depth C H text)) before) ∧
          IsSeen (caseOf E g s depth C H text) c ⟨k.fn, (caseOf E g s depth C H text).hookArgs k,
            passed (first (caseOf E g s depth C H text)) before, (caseOf E g s depth C H text).buf⟩ ∧
          rd c.mem (caseOf E g s depth C H text).V.prev = answerBefore before) ∧
        (∀ before k more, post = before ++ k :: more → ∃ u c v, t = u ++ c :: v ∧
          AreSeen (caseOf E g s depth C H text) u (openCalls (caseOf E g s depth C H text)
            ++ (loopCalls (caseOf E g s depth C H text) (first (caseOf E g s depth C H text)) pre
            ++ (origCalls (caseOf E g s depth C H text) (passed (first (caseOf E g s depth C H text)) pre) o
            ++ loopCalls (caseOf E g s depth C H text) ((passed (first (caseOf E g s depth C H text)) pre).orig o) before))) ∧
          IsSeen (caseOf E g s depth C H text) c ⟨k.fn, (caseOf E g s depth C H text).hookArgs k,
            passed ((passed (first (caseOf E g s depth C H text)) pre).orig o) before, (caseOf E g s depth C H text).buf⟩ ∧
          rd c.mem (caseOf E g s depth C H text).V.prev = answerBefore before) := by
  have ok := stack_ok h hE
  have T : Told (caseOf E g s depth C H text) :=
    ⟨outside_vis ok hi, outside_vis ok vt, written_apart h hE hi, written_apart h hE vt⟩
  have D : hid g = true → Placed (caseOf E g s depth C H text) := fun hh =>
    ⟨outside_vis ok (hm hh), written_apart h hE (hm hh)⟩
  obtain ⟨r, m, t₁, t₂, t₃, t₄, t₅, e, w1, ⟨w2, p2⟩, w3, ⟨w4, p4⟩, w5⟩ := whole_prev (n := pre.length + post.length + 1) S h.ret h.params h.conv
    (laid h hE out ha) T D P leave (by omega) (by omega) rest
  obtain ⟨code, tr, s', hc, hr, hcl, -⟩ :=
    hook_function_partial h hE hf (n := pre.length + post.length + 1) e
  refine ⟨code, tr, s', hc, hr, _, hcl, ?_, ?_, ?_⟩
  · have := w1.append (w2.append (w3.append (w4.append w5)))
    unfold openCalls at this
    rw [List.append_assoc] at this
    exact this
  · rintro before k more rfl
    obtain ⟨u, c, v, rfl, k1, k2, k3⟩ := pass_finds w2 p2
    exact ⟨t₁ ++ u, c, v ++ (t₃ ++ (t₄ ++ t₅)), by simp only [List.append_assoc, List.cons_append], w1.append k1, k2, k3⟩
  · rintro before k more rfl
    obtain ⟨u, c, v, rfl, k1, k2, k3⟩ := pass_finds w4 p4
    exact ⟨t₁ ++ (t₂ ++ (t₃ ++ u)), c, v ++ t₅, by simp only [List.append_assoc, List.cons_append],
      w1.append (w2.append (w3.append k1)), k2, k3⟩

/-! ## A call with two hooks -/

/-- No counterpart in /repo: `vsnprintf`; the context; a hook that says `MRES_SUPERCEDE` twice, with
the override value; no further hook, twice; the override value; EndContext. -/
def twoAnswers : List (Ans exampleFpu) :=
  [rxAns 16 0, rxAns 40 0x5000, rxAns 4 0x5100, rxAns 12 42, rxAns 4 0xFFE0, rxAns 4 0x5100, rxAns 12 42, rxAns 4 0xFFE0,
    rxAns 4 0, rxAns 4 0, rxAns 4 0xFFE0, rxAns 8 0]

theorem two_plays : Plays rxCase [rxHook, rxHook] [] [] twoAnswers none := by
  have L := rx_laid
  have P := L.pairs
  have hv : rxCase.g.vafmt = true := by decide
  have hw := width_le rxCase.g
  obtain ⟨as₀, a, as₁, as₃, as₄, e, op, pa, l1, -, -, -⟩ := rx_plays
  have e0 : as₀ = [rxAns 16 0] := by
    unfold Opening at op
    rw [if_pos hv] at op
    obtain ⟨x, rfl, -⟩ := op
    rw [(List.cons.inj e).1]
  subst e0
  have ea : a = rxAns 40 0x5000 := (List.cons.inj (List.cons.inj e).2).1.symm
  subst ea
  have d : ∀ σ, HookDone rxCase (rxAns 12 42) rxHook σ := by
    intro σ
    refine ⟨rx_quiet rfl _, ⟨rfl, rfl, rfl⟩, ?_, ?_⟩
    · intro m _
      exact rx_cur m rfl
    · intro _ m _
      show (wordBytes 42 ++ wordBytes 0).take 4 = [42, 0, 0, 0]
      decide
  have sp : Spares rxCase (rxAns 4 0xFFE0) rxHook.val := by
    intro m h
    rw [rx_later m _ ((P.cl (by decide)).mono (Nat.le_refl _) hw)
      ((P.lb (by decide) hv).symm.mono (Nat.le_refl _) hw)
      ((L.cellApart _ cell_entry _ (mem_plugin (by decide))).symm.mono (Nat.le_refl _) hw), h]
  refine ⟨[rxAns 16 0], rxAns 40 0x5000, [rxAns 4 0x5100, rxAns 12 42, rxAns 4 0xFFE0, rxAns 4 0x5100, rxAns 12 42,
    rxAns 4 0xFFE0, rxAns 4 0], [rxAns 4 0], [rxAns 4 0xFFE0, rxAns 8 0], rfl, op, pa, ?_, ?_, ?_, ?_⟩
  · exact .over (by simp [caseOf]) (by decide) (by decide) (rx_served _ _) rfl (d _) (by decide) (by decide) (rx_served _ _) sp (by decide)
      (.over (by simp [caseOf]) (by decide) (by decide) (rx_served _ _) rfl (d _) (by decide) (by decide) (rx_served _ _) sp (by decide)
        (.done (rx_served _ _) rfl))
  · exact .superceded (by decide)
  · exact .done (rx_served _ _) rfl
  · exact .value (by decide) (rx_served _ _) (by decide) (rx_quiet rfl _) ⟨rfl, rfl, rfl⟩

theorem rx_leaves (a : Ans exampleFpu) : Leaves rxCase a := by
  intro m
  have P := rx_laid.pairs
  exact rd_of_bytes (rx_later m a P.cp (P.pb (by decide)).symm (rx_laid.cellApart _ cell_entry _ mem_prev).symm)

/-- The second of two hooks in 32-bit code finds that the first said `MRES_SUPERCEDE`. -/
example : ∃ code tr s', generateHookFunc rxGen = some code ∧ Returns rxEnv code rxMach twoAnswers tr (arg rxMach 0) s' [] ∧
    ∃ u c v, AreCalls (stackOf rxGen (rxMach.reg 4) 256) (u ++ c :: v) tr ∧ u.length = 6 ∧ c.target = 0x888 ∧
      rd c.mem rxCase.V.prev = 3 := by
  obtain ⟨code, tr, s', hc, hr, t, ha, -, h1, -⟩ := prev_rule (C := rxCtx) (H := [rxHook])
    (text := rxText) rxGen_ok rxGen_simple rx_caller rfl rx_out rx_hi rx_vt rfl (fun h => absurd h (by decide)) two_plays
    (fun a _ => rx_leaves a) []
  obtain ⟨u, c, v, rfl, hu, h2, h3⟩ := h1 [rxHook] rxHook [] rfl
  rw [List.append_nil] at hr
  exact ⟨code, tr, s', hc, hr, u, c, v, ha, hu.length.trans (by decide +kernel), h2.target, h3⟩

end Verif.Jit32.Rule

namespace Verif.Alike

open Verif.SH (Val Ev LReach EnvOk results lastRes Recalled AtHandler getPrevRes Fr)
open Verif.Jit32 Verif.Jit32.Rule
open Verif.Jit (Byte)

theorem lastRes_same {α : Type} {enc : Val → α} {rs : List (Bool × Nat × Val)} {pre post : List (Nat × α)} (h : Same enc rs pre post) (b : Bool) :
    lastRes rs b = ((if b then post else pre).getLast?.map (·.1)).getD 0 := by
  have key : ∀ rs : List (Bool × Nat × Val), lastRes rs b
      = ((((rs.map fun x => (x.1, x.2.1, enc x.2.2)).filter fun x => x.1 == b).getLast?).map fun x => x.2.1).getD 0 := by
    intro rs
    unfold lastRes
    rw [List.filter_map, List.getLast?_map, Option.map_map]
    rfl
  rw [key, h, List.filter_append]
  have f1 : ∀ (c : Bool) (l : List (Nat × α)), (l.map fun h => (c, h)).filter (fun x => x.1 == b) = if c = b then l.map fun h => (c, h) else [] := by
    intro c l
    rw [List.filter_map]
    by_cases e : c = b
    · rw [if_pos e]
      congr 1
      rw [List.filter_eq_self]
      intro a _
      simp [e]
    · rw [if_neg e, List.map_eq_nil_iff, List.filter_eq_nil_iff]
      intro a _
      simp [e]
  rw [f1, f1]
  cases b <;> simp [List.getLast?_map, Function.comp_def]

/-- **C97**: what a handler of a call through a hook function of the macros reads with
META_RESULT_PREVIOUS is what `prev_rule` says for the hook of a generated 32-bit function, where the
handlers called before in the same pass answered alike. -/
theorem prev_agrees32 {E : Verif.SH.Env} (hE : EnvOk E) {st : Verif.SH.St} (hr : LReach E st) {f : Verif.SH.Frame} {fs : List Fr}
    (hf : st.frames = .hook f :: fs) {post : Bool} (hat : AtHandler post f.pt) (hn : ¬ Recalled st.log f.cid)
    {enc : Val → List Byte} {before behind : List Hook} (same : Same enc (results st.log f.fid) (before.map hookGiven32) (behind.map hookGiven32)) :
    getPrevRes st = .ok (answerBefore (if post then behind else before)).toNat := by
  obtain ⟨-, -, h3, -⟩ := Verif.SH.handler_sees hE hr hf hat hn
  rw [h3, lastRes_same same]
  unfold answerBefore
  cases post
  · simp only [Bool.false_eq_true, if_false, List.getLast?_map, Option.map_map]
    cases before.getLast? <;> rfl
  · simp only [if_true, List.getLast?_map, Option.map_map]
    cases behind.getLast? <;> rfl

/-- The second of two handlers in front of the original function, after one that said
`MRES_SUPERCEDE`. -/
example : ∃ st, LReach Verif.SH.Ex.E st ∧ getPrevRes st = .ok 3 := by
  obtain ⟨st, f, fs, hr, hf, hat, hn, h4, h5⟩ := ex_running (ops := [.reg (.add Verif.SH.Ex.a1), .reg (.add Verif.SH.Ex.a2), .call 2008 1000, .tick, .setRes 3, .handlerRet 42, .tick])
    (post := false) (rs := [(false, 3, 42)]) (os := []) rfl
  exact ⟨st, hr, prev_agrees32 (enc := fun v => wordBytes (BitVec.ofInt 32 v)) (before := [rxHook]) (behind := [])
    Verif.SH.Ex.envOk hr hf hat hn (by rw [h4]; rfl)⟩

end Verif.Alike
#print axioms Verif.Jit32.Rule.prev_rule
#print axioms Verif.Alike.prev_agrees32
