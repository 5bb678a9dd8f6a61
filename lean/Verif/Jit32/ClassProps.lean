import Verif.Jit32.ClassRun
import Verif.Jit32.RuleProps
import Verif.Jit32.HookFindings
/-
C88: results with special functions in the generated 32-bit hook functions
(core/sourcehook/sourcehook_hookmangen_x86.cpp): every object is constructed before it is used and
destroyed once, and the caller gets the value SourceHook's rule demands.
-/
namespace Verif.Jit32.Class

open Spec Rule
open Verif.Jit (Byte)

variable {U : Fpu} {K : Case}

/-! ## Lives -/

theorem lives_append (L : Store) (a b : List Want) :
    lives L (a ++ b) = (lives L a).bind fun L => lives L b := by
  induction a generalizing L with
  | nil => rfl
  | cons w ws ih =>
    show (live L w).bind _ = ((live L w).bind _).bind _
    cases live L w with
    | none => rfl
    | some L => exact ih L

theorem set_same (L : Store) (a : W) (v : Option (Option (List Byte))) : L.set a v a = v := if_pos rfl

theorem set_other (L : Store) {a x : W} (v : Option (Option (List Byte))) (h : x ≠ a) :
    L.set a v x = L x := if_neg h

theorem destroy_live {L : Store} {a : W} {v : Option (List Byte)} (h : L a = some v) :
    live L (.destroy a) = some (L.set a none) := by
  simp only [live, h, reduceCtorEq, if_false]

/-- The places are different. -/
structure Distinct (K : Case) : Prop where
  ov : K.V.orig ≠ K.V.override
  ol : K.V.orig ≠ K.V.plugin
  ot : K.V.orig ≠ K.V.temp
  om : K.V.orig ≠ K.memret
  vl : K.V.override ≠ K.V.plugin
  vt : K.V.override ≠ K.V.temp
  vm : K.V.override ≠ K.memret
  lt : K.V.plugin ≠ K.V.temp
  lm : K.V.plugin ≠ K.memret
  tm : K.V.temp ≠ K.memret

theorem distinct_of (h : (places K).Nodup) : Distinct K := by
  simp only [places, List.nodup_cons, List.mem_cons, List.not_mem_nil, or_false, not_or,
    not_false_eq_true, List.nodup_nil, and_true] at h
  obtain ⟨⟨a, b, c, d⟩, ⟨e, f, g⟩, ⟨i, j⟩, k⟩ := h
  exact ⟨a, b, c, d, e, f, g, i, j, k⟩

/-- A value returned at the temporary place and assigned. -/
theorem take_lives {L : Store} {v x : Option (List Byte)} {t d : W} {w : Want}
    (hw : live L w = some (L.set t (some v))) (ht : L t = none) (hd : L d = some x) (hn : d ≠ t) :
    lives L [w, .assign d t, .destroy t] = some (L.set d (some v)) := by
  have e1 : live (L.set t (some v)) (.assign d t) = some ((L.set t (some v)).set d (some v)) := by
    simp only [live, set_same, set_other _ _ hn, hd]
  have e2 : live ((L.set t (some v)).set d (some v)) (.destroy t)
      = some (((L.set t (some v)).set d (some v)).set t none) := by
    simp only [live, set_other _ _ hn.symm, set_same]
    simp
  simp only [lives, hw, e1, e2, Option.bind_some]
  refine congrArg some (funext fun y => ?_)
  unfold Store.set
  by_cases h1 : y = t
  · subst h1
    rw [if_pos rfl, if_neg hn.symm, ht]
  · rw [if_neg h1]
    by_cases h2 : y = d
    · rw [if_pos h2, if_pos h2]
    · rw [if_neg h2, if_neg h1, if_neg h2]

/-- What a pass leaves: the value of the last hook that overrides, or what there was. -/
def overAfter (y : Option (List Byte)) (hs : List Hook) : Option (List Byte) :=
  match lastOverride hs with
  | some h => some h.val
  | none => y

theorem overAfter_cons (y : Option (List Byte)) (h : Hook) (hs : List Hook) :
    overAfter y (h :: hs) = overAfter (if 2 ≤ h.res.toNat then some h.val else y) hs := by
  unfold overAfter
  rw [lastOverride_cons]
  cases lastOverride hs with
  | some k => rfl
  | none => by_cases h2 : 2 ≤ h.res.toNat <;> simp [h2]

theorem pass_lives (D : Distinct K) : ∀ (hs : List Hook) (st : W) (L : Store) (x y : Option (List Byte)),
    L K.V.temp = none → L K.V.plugin = some x → L K.V.override = some y →
    ∃ L' x', lives L ((passCalls K st hs).map (·.1)) = some L' ∧ L' K.V.temp = none ∧
      L' K.V.plugin = some x' ∧ L' K.V.override = some (overAfter y hs) ∧
      ∀ a, a ≠ K.V.plugin → a ≠ K.V.override → L' a = L a := by
  intro hs
  induction hs with
  | nil =>
    intro st L x y ht hl hv
    exact ⟨L, x, rfl, ht, hl, hv, fun _ _ _ => rfl⟩
  | cons h hs ih =>
    intro st L x y ht hl hv
    have e1 : lives L [.hook K.V.temp h, .assign K.V.plugin K.V.temp, .destroy K.V.temp]
        = some (L.set K.V.plugin (some (some h.val))) :=
      take_lives (by simp only [live, ht]; simp) ht hl D.lt
    have a1 : (L.set K.V.plugin (some (some h.val))) K.V.temp = none := by
      rw [set_other _ _ D.lt.symm, ht]
    have a2 : (L.set K.V.plugin (some (some h.val))) K.V.plugin = some (some h.val) := set_same _ _ _
    have a3 : (L.set K.V.plugin (some (some h.val))) K.V.override = some y := by
      rw [set_other _ _ D.vl, hv]
    by_cases h2 : 2 ≤ h.res.toNat
    · have e2 : lives (L.set K.V.plugin (some (some h.val))) [.over, .assign K.V.override K.V.plugin]
          = some ((L.set K.V.plugin (some (some h.val))).set K.V.override (some (some h.val))) := by
        simp only [lives, live, a2, a3, Option.bind_some]
      obtain ⟨L', x', r, b1, b2, b3, b4⟩ := ih (raised st h.res)
        ((L.set K.V.plugin (some (some h.val))).set K.V.override (some (some h.val))) (some h.val)
        (some h.val) (by rw [set_other _ _ D.vt.symm, a1]) (by rw [set_other _ _ D.vl.symm, a2])
        (set_same _ _ _)
      refine ⟨L', x', ?_, b1, b2, ?_, fun a ha hb => ?_⟩
      · rw [passCalls, if_pos h2]
        show lives L ([.next] ++ ([.hook K.V.temp h, .assign K.V.plugin K.V.temp, .destroy K.V.temp]
          ++ ([.over, .assign K.V.override K.V.plugin]
          ++ (passCalls K (raised st h.res) hs).map (·.1)))) = _
        rw [lives_append, show lives L [.next] = some L from rfl, Option.bind_some, lives_append, e1,
          Option.bind_some, lives_append, e2, Option.bind_some, r]
      · rw [overAfter_cons, if_pos h2, b3]
      · rw [b4 a ha hb, set_other _ _ hb, set_other _ _ ha]
    · obtain ⟨L', x', r, b1, b2, b3, b4⟩ := ih (raised st h.res) _ _ _ a1 a2 a3
      refine ⟨L', x', ?_, b1, b2, ?_, fun a ha hb => ?_⟩
      · rw [passCalls, if_neg h2]
        show lives L ([.next] ++ ([.hook K.V.temp h, .assign K.V.plugin K.V.temp, .destroy K.V.temp]
          ++ (passCalls K (raised st h.res) hs).map (·.1))) = _
        rw [lives_append, show lives L [.next] = some L from rfl, Option.bind_some, lives_append, e1,
          Option.bind_some, r]
      · rw [overAfter_cons, if_neg h2, b3]
      · rw [b4 a ha hb, set_other _ _ ha]

/-- What the variable for the original value holds between the passes. -/
def origAfter (o y : Option (List Byte)) : Option (List Byte) :=
  match o with
  | some v => some v
  | none => y

theorem mid_lives (D : Distinct K) (st : W) (o : Option (List Byte)) {L : Store} {x y : Option (List Byte)}
    (ht : L K.V.temp = none) (ho : L K.V.orig = some x) (hv : L K.V.override = some y) :
    lives L ((midCalls K st o).map (·.1))
      = some (L.set K.V.orig (some (origAfter o y))) := by
  have e : ∀ ws : List Want, lives L ((if st = 3 then [] else [(Want.should, st)]).map (·.1) ++ ws)
      = lives L ws := by
    intro ws
    by_cases h3 : st = 3
    · rw [if_pos h3]; rfl
    · rw [if_neg h3]; rfl
  unfold midCalls
  rw [List.map_append, e]
  cases o with
  | some v =>
    exact take_lives (w := .original K.V.temp v) (v := some v) (by simp only [live, ht]; simp) ht ho D.ot
  | none =>
    show lives L [.assign K.V.orig K.V.override] = _
    simp only [lives, live, ho, hv, Option.bind_some]
    rfl

theorem two_le_raised (st r : W) : 2 ≤ (raised st r).toNat ↔ 2 ≤ st.toNat ∨ 2 ≤ r.toNat := by
  unfold raised
  split <;> omega

theorem two_le_after : ∀ (hs : List Hook) (st : W),
    2 ≤ (after st hs).toNat ↔ 2 ≤ st.toNat ∨ (lastOverride hs).isSome = true := by
  intro hs
  induction hs with
  | nil => intro st; simp [after, lastOverride]
  | cons h hs ih =>
    intro st
    rw [show after st (h :: hs) = after (raised st h.res) hs from rfl, ih, two_le_raised,
      lastOverride_cons]
    cases lastOverride hs with
    | some k => simp
    | none => by_cases h2 : 2 ≤ h.res.toNat <;> simp [h2]

theorem lastOverride_append (a b : List Hook) :
    lastOverride (a ++ b) = match lastOverride b with | some h => some h | none => lastOverride a := by
  induction a with
  | nil =>
    show lastOverride b = _
    cases h : lastOverride b <;> rfl
  | cons h a ih =>
    rw [List.cons_append, lastOverride_cons, ih, lastOverride_cons]
    cases lastOverride b <;> rfl

/-- **C88.** The machine of object lives refuses what it must: a place holding an object takes no second
one, a place holding none can be neither assigned, nor copied from, nor destroyed. -/
theorem live_refuses (L : Store) (a b : W) (h : Hook) (v : List Byte) :
    (L a ≠ none → live L (.construct a) = none ∧ live L (.copy a b) = none ∧ live L (.hook a h) = none ∧
      live L (.original a v) = none) ∧
    (L a = none → live L (.destroy a) = none ∧ live L (.assign a b) = none ∧ live L (.assign b a) = none ∧
      live L (.copy b a) = none) := by
  constructor
  · intro ha
    obtain ⟨x, hx⟩ := Option.ne_none_iff_exists'.1 ha
    simp [live, hx]
  · intro ha
    refine ⟨by simp [live, ha], by simp [live, ha], ?_, ?_⟩ <;> cases hb : L b <;> simp [live, ha, hb]

/-- An object at 8, none at 16. -/
example : live (fun a => if a = 8 then some none else none) (.construct 8) = none ∧
    live (fun a => if a = 8 then some none else none) (.copy 8 16) = none :=
  ⟨((live_refuses _ 8 16 ⟨0, 0, 0, 0, []⟩ []).1 (by simp)).1, ((live_refuses _ 8 16 ⟨0, 0, 0, 0, []⟩ []).1 (by simp)).2.1⟩

/-- **C88.** The calls of a hook function keep to the rules about objects: nothing is constructed
twice, nothing is assigned, copied or destroyed that is not an object.  In the end the places of the
caller hold what they held, and the place for the result an object with the value of the rule; the
variables and the temporary place hold nothing. -/
theorem objects_live (h : (places K).Nodup) {L : Store} (free : ∀ a ∈ places K, L a = none)
    (pre post : List Hook) (o : Option (List Byte)) :
    lives L ((wanted K pre post o).map (·.1)) = some (L.set K.memret (some (ruled pre post o))) := by
  have D := distinct_of h
  have f1 : L K.V.orig = none := free _ (by simp [places])
  have f2 : L K.V.override = none := free _ (by simp [places])
  have f3 : L K.V.plugin = none := free _ (by simp [places])
  have f4 : L K.V.temp = none := free _ (by simp [places])
  have f5 : L K.memret = none := free _ (by simp [places])
  have e0 : ∀ ws : List Want, lives L ((if K.g.vafmt then [(Want.text, (0 : W))] else []).map (·.1) ++ ws)
      = lives L ws := by
    intro ws
    cases K.g.vafmt <;> rfl
  unfold wanted
  rw [List.map_append, e0, List.map_append, lives_append]
  obtain ⟨L1, hL1⟩ : ∃ L1, L1 = ((L.set K.V.orig (some none)).set K.V.override (some none)).set K.V.plugin
    (some none) := ⟨_, rfl⟩
  have e1 : lives L ([(.construct K.V.orig, 0), (.construct K.V.override, 0), (.construct K.V.plugin, 0),
      ((.setup : Want), (0 : W))].map (·.1)) = some L1 := by
    rw [hL1]
    simp only [List.map_cons, List.map_nil, lives, live, f1, set_other _ _ D.ov.symm, f2,
      set_other _ _ D.vl.symm, set_other _ _ D.ol.symm, f3, if_true, Option.bind_some]
  have g1 : L1 K.V.orig = some none := by
    rw [hL1, set_other _ _ D.ol, set_other _ _ D.ov, set_same]
  have g2 : L1 K.V.override = some none := by rw [hL1, set_other _ _ D.vl, set_same]
  have g3 : L1 K.V.plugin = some none := by rw [hL1, set_same]
  have g4 : L1 K.V.temp = none := by
    rw [hL1, set_other _ _ D.lt.symm, set_other _ _ D.vt.symm, set_other _ _ D.ot.symm, f4]
  have g5 : ∀ a, a ≠ K.V.orig → a ≠ K.V.override → a ≠ K.V.plugin → L1 a = L a := fun a h1 h2 h3 => by
    rw [hL1, set_other _ _ h3, set_other _ _ h2, set_other _ _ h1]
  rw [e1, Option.bind_some, List.map_append, lives_append]
  obtain ⟨L2, x2, r2, p1, p2, p3, p4⟩ := pass_lives D pre 0 L1 none none g4 g3 g2
  rw [r2, Option.bind_some, List.map_append, lives_append,
    mid_lives D (after 0 pre) o p1 ((p4 _ D.ol D.ov).trans g1) p3, Option.bind_some, List.map_append,
    lives_append]
  obtain ⟨z, hz⟩ : ∃ z, z = origAfter o (overAfter none pre) := ⟨_, rfl⟩
  rw [← hz]
  obtain ⟨L4, x4, r4, q1, q2, q3, q4⟩ := pass_lives D post (after 0 pre) (L2.set K.V.orig (some z)) x2
    (overAfter none pre) (by rw [set_other _ _ D.ot.symm, p1]) (by rw [set_other _ _ D.ol.symm, p2])
    (by rw [set_other _ _ D.ov.symm, p3])
  rw [r4, Option.bind_some]
  have q5 : L4 K.V.orig = some z := by rw [q4 _ D.ol D.ov, set_same]
  have q6 : L4 K.memret = none := by
    rw [q4 _ D.lm.symm D.vm.symm, set_other _ _ D.om.symm, p4 _ D.lm.symm D.vm.symm,
      g5 _ D.om.symm D.vm.symm D.lm.symm, f5]
  obtain ⟨st, hst⟩ : ∃ st, st = after (after 0 pre) post := ⟨_, rfl⟩
  rw [← hst]
  obtain ⟨s, hs⟩ : ∃ s, s = if 2 ≤ st.toNat then K.V.override else K.V.orig := ⟨_, rfl⟩
  have val : L4 s = some (ruled pre post o) := by
    rw [hs]
    have h2 : 2 ≤ st.toNat ↔ (lastOverride (pre ++ post)).isSome = true := by
      rw [hst, two_le_after, two_le_after, lastOverride_append]
      cases lastOverride post <;> simp
    by_cases h3 : 2 ≤ st.toNat
    · rw [if_pos h3, q3]
      rw [h2] at h3
      unfold ruled
      unfold overAfter
      rw [lastOverride_append] at h3 ⊢
      cases hp : lastOverride post with
      | some k => rfl
      | none =>
        rw [hp] at h3
        cases hq : lastOverride pre with
        | some k => rfl
        | none => rw [hq] at h3; cases h3
    · rw [if_neg h3, q5, hz]
      rw [h2] at h3
      unfold ruled
      cases hl : lastOverride (pre ++ post) with
      | some k => rw [hl] at h3; exact absurd rfl h3
      | none =>
        have : lastOverride pre = none := by
          rw [lastOverride_append] at hl
          cases hp : lastOverride post with
          | some k => rw [hp] at hl; cases hl
          | none => rw [hp] at hl; exact hl
        cases o with
        | some v => rfl
        | none => simp only [origAfter, overAfter, this]
  have sm : s ≠ K.memret := by
    rw [hs]
    split
    · exact D.vm
    · exact D.om
  have e5 : (endCalls K st).map (·.1) = [if 2 ≤ st.toNat then .over else .origPtr, .endContext,
      .copy K.memret s, .destroy K.V.plugin, .destroy K.V.override, .destroy K.V.orig] := by
    rw [hs]
    rfl
  have ask : ∀ M : Store, live M (if 2 ≤ st.toNat then .over else .origPtr) = some M := by
    intro M
    split <;> rfl
  rw [e5]
  obtain ⟨R, hR⟩ : ∃ R, R = ruled pre post o := ⟨_, rfl⟩
  rw [← hR] at val ⊢
  have e6 : live L4 (.copy K.memret s) = some (L4.set K.memret (some R)) := by
    simp only [live, q6, val]
  have e7 := destroy_live (L := L4.set K.memret (some R)) (a := K.V.plugin) (v := x4)
    (by rw [set_other _ _ D.lm, q2])
  have e8 := destroy_live (L := (L4.set K.memret (some R)).set K.V.plugin none) (a := K.V.override)
    (v := overAfter (overAfter none pre) post) (by rw [set_other _ _ D.vl, set_other _ _ D.vm, q3])
  have e9 := destroy_live (L := ((L4.set K.memret (some R)).set K.V.plugin none).set K.V.override none)
    (a := K.V.orig) (v := z) (by rw [set_other _ _ D.ov, set_other _ _ D.ol, set_other _ _ D.om, q5])
  have e10 : ∀ M : Store, live M .endContext = some M := fun _ => rfl
  simp only [lives, ask, e10, e6, e7, e8, e9, Option.bind_some]
  refine congrArg some (funext fun a => ?_)
  by_cases h1 : a = K.V.orig
  · subst h1
    rw [set_same, set_other _ _ D.om, f1]
  · rw [set_other _ _ h1]
    by_cases h2 : a = K.V.override
    · subst h2
      rw [set_same, set_other _ _ D.vm, f2]
    · rw [set_other _ _ h2]
      by_cases h3 : a = K.V.plugin
      · subst h3
        rw [set_same, set_other _ _ D.lm, f3]
      · rw [set_other _ _ h3]
        by_cases h4 : a = K.memret
        · subst h4
          rw [set_same, set_same]
        · rw [set_other _ _ h4, set_other _ _ h4, q4 _ h3 h2, set_other _ _ h1, p4 _ h3 h2, g5 _ h1 h2 h3]

/-! ## The generated code -/

variable {E : Env} {g : Gen} {s : Mach U} {depth : Int} {C : Context} {H : List Hook} {text : List Byte}

theorem places_nodup (h : HookOk g) (S : IsClass g) (hE : CallerOk E g (s.reg 4) depth)
    (hm : Outside E.acc (stackOf g (s.reg 4) depth) (arg s 1) g.ret.size) :
    (places (caseOf E g s depth C H text)).Nodup := by
  have ok := stack_ok h hE
  have fb := frame_bounds h.params h.retSize
  have hr : (stackSize g.ret : Int) = room g := by rw [room_eq h.ret]
  have ht : g.temp = true := by rw [temp_eq]; exact S.temp
  have hz := S.size
  have hw : 4 ≤ room g := by
    unfold room width
    split <;> omega
  have f1 : (frame g).orig = -28 - room g := by simp [frame, hr, hz]
  have f2 : (frame g).override = -28 - 2 * room g := by simp [frame, hr, hz]
  have f3 : (frame g).plugin = -28 - 3 * room g := by simp [frame, hr, hz]
  have f4 : (frame g).temp = -28 - 4 * room g := by
    simp [frame, hr, hz, ht]
    omega
  have fs : -(frame g).size ≤ -28 - 4 * room g := by
    simp only [frame, fbrr_none h.params, hr, ht]
    simp [hz]
    split <;> split <;> (try simp only [strbufLen]) <;> omega
  have hlow : (stackOf g (s.reg 4) depth).low ≤ -(frame g).size := by
    show -(frame g).size - _ ≤ _
    omega
  have hargs := ok.args
  have hb := room_bound h
  have ne : ∀ {a b : Int}, a ≠ b → -2 ^ 28 ≤ a → a ≤ 0 → -2 ^ 28 ≤ b → b ≤ 0 →
      off (stackOf g (s.reg 4) depth).F a ≠ off (stackOf g (s.reg 4) depth).F b := by
    intro a b hab h1 h2 h3 h4 he
    exact hab (off_inj _ ⟨by omega, by omega⟩ he)
  have nm : ∀ {a : Int}, (stackOf g (s.reg 4) depth).low ≤ a → a + 1 ≤ 0 →
      off (stackOf g (s.reg 4) depth).F a ≠ arg s 1 := by
    intro a h1 h2 he
    have := outside_apart ok hm (a := a) (k := 1) h1 (by omega) 0 0 (by omega) (by omega)
    rw [he] at this
    exact this rfl
  simp only [places, List.nodup_cons, List.mem_cons, List.not_mem_nil, or_false, not_or,
    not_false_eq_true, List.nodup_nil, and_true, caseOf, varsAt, f1, f2, f3, f4]
  refine ⟨⟨ne ?_ ?_ ?_ ?_ ?_, ne ?_ ?_ ?_ ?_ ?_, ne ?_ ?_ ?_ ?_ ?_, nm ?_ ?_⟩,
    ⟨ne ?_ ?_ ?_ ?_ ?_, ne ?_ ?_ ?_ ?_ ?_, nm ?_ ?_⟩, ⟨ne ?_ ?_ ?_ ?_ ?_, nm ?_ ?_⟩, nm ?_ ?_⟩ <;> omega

/-- **C88.** The generated code, called with the hooks `pre` and `post` in place, for a function that
returns an object of a class with constructor, copy constructor, assignment operator and destructor:
it makes exactly the calls `wanted`, with the status and the text in place at each of them, and these
keep to the rules about objects; the object the caller gets has the value of the last hook that
overrides, else that of the original function.  It returns its address in EAX, with the stack pointer
and the registers to be preserved as they must be. -/
theorem class_results (h : HookOk g) (S : IsClass g) (hE : CallerOk E g (s.reg 4) depth)
    (hf : s.fpu = [])
    (out : ∀ c ∈ (caseOf E g s depth C H text).objects,
      Outside E.acc (stackOf g (s.reg 4) depth) c.1 4)
    (hi : Outside E.acc (stackOf g (s.reg 4) depth) g.pHI 4)
    (vt : Outside E.acc (stackOf g (s.reg 4) depth) (thisArg g s + BitVec.ofInt 32 g.vtblOffs) 4)
    (ha : okN E.acc (s.reg 4 + firstArg g) (caseOf E g s depth C H text).argSize = true)
    (hm : Outside E.acc (stackOf g (s.reg 4) depth) (arg s 1) g.ret.size)
    {pre post : List Hook} {ans : List (Ans U)} {o : Option (List Byte)}
    (P : Plays (caseOf E g s depth C H text) pre post ans o) (rest : List (Ans U)) {L : Store}
    (free : ∀ a ∈ places (caseOf E g s depth C H text), L a = none) :
    ∃ code tr s', generateHookFunc g = some code ∧
      Returns E code s (ans ++ rest) tr (arg s 0) s' rest ∧
      (∃ t, AreCalls (stackOf g (s.reg 4) depth) t tr ∧
        AreMade (caseOf E g s depth C H text) t (wanted (caseOf E g s depth C H text) pre post o)) ∧
      lives L ((wanted (caseOf E g s depth C H text) pre post o).map (·.1))
        = some (L.set (arg s 1) (some (ruled pre post o))) ∧
      s'.reg 0 = arg s 1 ∧ s'.reg 4 = s.reg 4 + 8 ∧ Same s s' := by
  have ok := stack_ok h hE
  have T : Told (caseOf E g s depth C H text) :=
    ⟨outside_vis ok hi, outside_vis ok vt, written_apart h hE hi, written_apart h hE vt⟩
  obtain ⟨m, t, e, w⟩ := all_run (n := pre.length + post.length + 1) (K := caseOf E g s depth C H text) S
    h.params h.conv (laid h hE out ha) T P (by omega) (by omega) rest
  obtain ⟨code, tr, s', hc, hr, hcl, k1, k2, k3, k4, k5, k6⟩ :=
    hook_function_partial h hE hf (n := pre.length + post.length + 1) e
  rw [if_pos S.mem] at k4
  exact ⟨code, tr, s', hc, hr, ⟨t, hcl, w⟩, objects_live (places_nodup h S hE hm) free pre post o,
    k1 _ rfl, k4, k5⟩

/-! ## A call with one hook that overrides -/

/-- No counterpart in /repo: the prototype `Object f(int)`, the object has twelve bytes and all special
functions. -/
def clGen : Gen := { exampleHook with ret := ⟨12, 3, 125, 0x7100, 0x7200, 0x7300, 0x7400⟩ }

/-- No counterpart in /repo: the functions called leave everything but `cur_res` and the address of the
original function alone (the objects are left out). -/
def clEnv : Env where
  acc _ := true
  keep x := decide (4 ≤ (x - 0xFFF4).toNat) && decide (4 ≤ (x - 0x10000).toNat)
  top := 0xFFB0

/-- No counterpart in /repo: the hook: it says `MRES_OVERRIDE`; its value is named 7. -/
def clHook : Hook := ⟨0x5100, 0x7000, 0x888, 2, [7]⟩
/-- No counterpart in /repo: the caller; the result is to go to 0x9000. -/
def clMach : Mach exampleFpu := { exampleCall with mem := wr rxMem 0x10010 0x9000 }
/-- No counterpart in /repo: what the called functions leave where they write. -/
def clLeft : Memory := wr (wr (fun _ => 0) 0xFFF4 2) 0x10000 0x41414141
/-- No counterpart in /repo: the call. -/
abbrev clCase : Case := caseOf clEnv clGen clMach 256 rxCtx [clHook] []

theorem clGen_ok : HookOk clGen where
  params := exampleHook_ok.params
  ret := ⟨by decide, by decide, fun _ _ _ => .inl (by decide), fun _ h => absurd h (by decide), by decide⟩
  slots := by decide
  count := by decide
  retSize := by decide
  vtbl := by decide
  conv := by decide

theorem clGen_class : IsClass clGen :=
  ⟨by decide, by decide, by decide, by decide, by decide, by decide, by decide, by decide, by decide⟩

theorem cl_caller : CallerOk clEnv clGen (clMach.reg 4) 256 where
  acc _ _ _ := rfl
  keep := by
    intro k hk
    rw [priv_iff] at hk
    have e : (stackOf clGen (clMach.reg 4) 256).args = 20 := by decide
    rw [e] at hk
    show (decide (4 ≤ ((0x10004 : W) + BitVec.ofInt 32 k - 0xFFF4).toNat)
      && decide (4 ≤ ((0x10004 : W) + BitVec.ofInt 32 k - 0x10000).toNat)) = true
    have e1 : (0x10004 : W) + BitVec.ofInt 32 k - 0xFFF4 = BitVec.ofInt 32 k + 16 := by
      rw [BitVec.add_comm, BitVec.sub_eq_add_neg, BitVec.add_assoc]; rfl
    have e3 : (0x10004 : W) + BitVec.ofInt 32 k - 0x10000 = BitVec.ofInt 32 k + 4 := by
      rw [BitVec.add_comm, BitVec.sub_eq_add_neg, BitVec.add_assoc]; rfl
    rw [e1, e3, Bool.and_eq_true, decide_eq_true_iff, decide_eq_true_iff,
      BitVec.toNat_add, BitVec.toNat_add, BitVec.toNat_ofInt]
    have : (4 : W).toNat = 4 := rfl
    have : (16 : W).toNat = 16 := rfl
    omega
  room := by
    have h : slots clGen.params = 4 := rfl
    rw [h]
    omega
  top := by decide

theorem cl_out : ∀ c ∈ clCase.objects, Outside clEnv.acc (stackOf clGen (clMach.reg 4) 256) c.1 4 := by
  intro c hc
  refine ⟨rfl, ?_⟩
  revert c
  decide +kernel

theorem cl_args : Outside clEnv.acc (stackOf clGen (clMach.reg 4) 256) clCase.args clCase.argSize :=
  args_outside clGen_ok cl_caller rfl

theorem cl_laid : Laid clCase := laid clGen_ok cl_caller cl_out rfl

theorem cl_hi : Outside clEnv.acc (stackOf clGen (clMach.reg 4) 256) clGen.pHI 4 :=
  ⟨rfl, by decide +kernel⟩

theorem cl_vt : Outside clEnv.acc (stackOf clGen (clMach.reg 4) 256)
    (thisArg clGen clMach + BitVec.ofInt 32 clGen.vtblOffs) 4 := ⟨rfl, by decide +kernel⟩

theorem cl_memret : Outside clEnv.acc (stackOf clGen (clMach.reg 4) 256) (arg clMach 1) clGen.ret.size :=
  ⟨rfl, by decide +kernel⟩

theorem cl_later (m : Memory) (a : Ans exampleFpu) {x : W} {n : Nat} (h : Apart clCase.V.cur 4 x n)
    (h' : Apart clCase.V.entry 4 x n) : bytes (later clCase.Wd m a) x n = bytes m x n := by
  have e : clCase.V.cur = 0xFFF4 := by decide
  have e' : clCase.V.entry = 0x10000 := by decide
  rw [e] at h
  rw [e'] at h'
  have key : ∀ y z : W, z + BitVec.ofNat 32 (y - z).toNat = y := by
    intro y z
    rw [BitVec.ofNat_toNat, BitVec.setWidth_eq, BitVec.add_comm, BitVec.sub_add_cancel]
  refine bytes_congr fun i hi => if_pos ?_
  show (decide _ && decide _) = true
  rw [Bool.and_eq_true, decide_eq_true_iff, decide_eq_true_iff]
  refine ⟨?_, ?_⟩
  · apply Decidable.byContradiction
    intro hlt
    exact h _ i (by omega) hi (key _ _)
  · apply Decidable.byContradiction
    intro hlt
    exact h' _ i (by omega) hi (key _ _)

theorem cl_entry (m : Memory) {a : Ans exampleFpu} (ha : a.mem = clLeft) :
    rd (later clCase.Wd m a) clCase.V.entry = 0x41414141 := by
  have e' : clCase.V.entry = 0x10000 := by decide
  have e : bytes (later clCase.Wd m a) clCase.V.entry 4 = bytes clLeft 0x10000 4 := by
    rw [e']
    refine bytes_congr fun i hi => ?_
    unfold later
    rw [if_neg, ha]
    show ¬ (decide _ && decide (4 ≤ ((0x10000 : W) + BitVec.ofNat 32 i - 0x10000).toNat)) = true
    rw [Bool.and_eq_true, decide_eq_true_iff (p := 4 ≤ _), decide_eq_true_iff (p := 4 ≤ _), add_sub_self,
      BitVec.toNat_ofNat]
    rintro ⟨-, h⟩
    omega
  rw [bytes_four, bytes_four] at e
  rw [wordBytes_inj e]
  decide

theorem cl_cur (m : Memory) {a : Ans exampleFpu} (ha : a.mem = clLeft) :
    rd (later clCase.Wd m a) clCase.V.cur = 2 := by
  have e' : clCase.V.cur = 0xFFF4 := by decide
  have e : bytes (later clCase.Wd m a) clCase.V.cur 4 = bytes clLeft 0xFFF4 4 := by
    rw [e']
    refine bytes_congr fun i hi => ?_
    unfold later
    rw [if_neg, ha]
    show ¬ (decide (4 ≤ ((0xFFF4 : W) + BitVec.ofNat 32 i - 0xFFF4).toNat) && decide _) = true
    rw [Bool.and_eq_true, decide_eq_true_iff (p := 4 ≤ _), decide_eq_true_iff (p := 4 ≤ _), add_sub_self,
      BitVec.toNat_ofNat]
    rintro ⟨h, -⟩
    omega
  rw [bytes_four, bytes_four] at e
  rw [wordBytes_inj e]
  decide

theorem cl_apart {x : W} {n : Nat} (o : Outside clEnv.acc (stackOf clGen (clMach.reg 4) 256) x n) :
    Apart clCase.V.entry 4 x n :=
  outside_apart (stack_ok clGen_ok cl_caller) o (a := -4) (by decide) (by decide)

theorem cl_cell (m : Memory) (a : Ans exampleFpu) {c : W × W} (hc : c ∈ clCase.objects) :
    rd (later clCase.Wd m a) c.1 = rd m c.1 :=
  have hc' := List.mem_cons_of_mem (clCase.V.entry, clCase.C.entry) hc
  rd_of_bytes (cl_later m a (cl_laid.cellApart c hc' _ mem_cur) (cl_apart (cl_out c hc)))

theorem cl_status (m : Memory) (a : Ans exampleFpu) :
    rd (later clCase.Wd m a) clCase.V.status = rd m clCase.V.status :=
  rd_of_bytes (cl_later m a cl_laid.pairs.sc.symm (cl_laid.cellApart _ cell_entry _ mem_status).symm)

theorem cl_params (m : Memory) (a : Ans exampleFpu) : bytes (later clCase.Wd m a) clCase.args clCase.argSize
    = bytes m clCase.args clCase.argSize :=
  cl_later m a (cl_laid.argApart _ mem_cur) (cl_apart cl_args)

theorem cl_keeps {a : Ans exampleFpu} (ha : a.mem = clLeft) (st : W) (m : Memory) (h : Keeps clCase m st) :
    Keeps clCase (later clCase.Wd m a) st where
  cell c hc := by
    rcases List.mem_cons.1 hc with rfl | hc'
    · exact cl_entry m ha
    · rw [cl_cell m a hc', h.cell c hc]
  status := by rw [cl_status, h.status]
  args := by rw [cl_params, h.args]
  buf b hb := by cases hb

theorem cl_ready {a : Ans exampleFpu} (m : Memory) (h : Ready clCase m) :
    Ready clCase (later clCase.Wd m a) where
  status := by rw [cl_status, h.status]
  hi := (rd_of_bytes (cl_later m a (written_apart (C := rxCtx) (H := [clHook]) (text := [])
    clGen_ok cl_caller cl_hi _ mem_cur)
    (cl_apart cl_hi))).trans h.hi
  vt := (rd_of_bytes (cl_later m a (written_apart (C := rxCtx) (H := [clHook]) (text := [])
    clGen_ok cl_caller cl_vt _ mem_cur)
    (cl_apart cl_vt))).trans h.vt
  objects c hc := by rw [cl_cell m a hc, h.objects c hc]
  args := by rw [cl_params, h.args]
  buf b hb := by cases hb

/-- No counterpart in /repo: what a function answers. -/
def clAns (own : Nat) (eax : W) : Ans exampleFpu := exampleAns own eax clLeft
/-- No counterpart in /repo: what a function answers that returns an object. -/
def clBack : Ans exampleFpu := { clAns 12 0 with pop := 4 }

theorem cl_calm (st : W) (n : Nat) (v : W) : Calm clCase (clAns n v) st n :=
  ⟨cl_keeps rfl st, ⟨rfl, rfl, rfl⟩⟩

theorem cl_inert (st : W) (n : Nat) (v : W) : Inert clCase (clAns n v) clHook.res st n :=
  ⟨cl_calm st n v, fun m _ => cl_cur m rfl⟩

/-- No counterpart in /repo: three constructors, the context, the hook, assignment, destructor, the
address of the override value, assignment, no further hook; yes, the original function, assignment,
destructor; no hook; the address of the override value, EndContext, the copy constructor, three
destructors. -/
def clAnswers : List (Ans exampleFpu) :=
  [clAns 4 0, clAns 4 0, clAns 4 0, clAns 40 0x5000, clAns 4 0x5100, clBack, clAns 8 0, clAns 4 0,
   clAns 4 0xFFD0, clAns 8 0, clAns 4 0, clAns 4 1, clBack, clAns 8 0, clAns 4 0, clAns 4 0,
   clAns 4 0xFFD0, clAns 8 0, clAns 8 0, clAns 4 0, clAns 4 0, clAns 4 0]

theorem cl_plays : Plays clCase [clHook] [] clAnswers (some [9]) := by
  have q : ∀ v, CtorAns clCase (clAns 4 v) := fun v => ⟨cl_ready, ⟨rfl, rfl, rfl⟩⟩
  refine ⟨[], _, _, _, _, [clAns 4 0x5100, clBack, clAns 8 0, clAns 4 0, clAns 4 0xFFD0, clAns 8 0,
    clAns 4 0], [clAns 4 1, clBack, clAns 8 0, clAns 4 0], [clAns 4 0], _, _, _, _, _, _, rfl, rfl, q _, q _,
    q _, ⟨⟨rfl, rfl, rfl⟩, rfl, ?_⟩, ?_, ?_, ?_, ?_⟩
  · intro m h
    have e : ∀ c ∈ clCase.objects, rd clMach.mem c.1 = c.2 := by decide +kernel
    refine ⟨fun c hc => ?_, ?_, ?_, fun b hb => by cases hb⟩
    · rcases List.mem_cons.1 hc with rfl | hc'
      · exact cl_entry m rfl
      · rw [cl_cell m _ hc', h.objects c hc', ← e c hc']
        rfl
    · rw [cl_status, h.status]
    · rw [cl_params, h.args]
  · exact .over (by simp [caseOf]) (by decide) (by decide) (cl_calm _ _ _) rfl
      ⟨cl_keeps rfl _, ⟨rfl, rfl, rfl⟩, fun m _ => cl_cur m rfl⟩ (cl_inert _ _ _) (cl_inert _ _ _)
      (by decide) (cl_calm _ _ _) (by decide) (cl_calm _ _ _) (.done (cl_calm _ _ _) rfl)
  · exact .called (by decide) (cl_calm _ _ _) (by decide) ⟨cl_keeps rfl _, ⟨rfl, rfl, rfl⟩⟩
      (cl_calm _ _ _) (cl_calm _ _ _)
  · exact .done (cl_calm _ _ _) rfl
  · exact ⟨cl_calm _ _ _, by decide, cl_calm _ _ _, cl_calm _ _ _, cl_calm _ _ _, cl_calm _ _ _,
      cl_calm _ _ _⟩

/-- The generated code on that caller: the calls, and the value of the hook at the place for the
result. -/
example : ∃ code tr s', generateHookFunc clGen = some code ∧
    Returns clEnv code clMach clAnswers tr 0 s' [] ∧
    tr.map (·.target) = [0x7100, 0x7100, 0x7100, 0x6000, 0x901, 0x888, 0x7400, 0x7300, 0x903, 0x7400,
      0x901, 0x905, 0x41414141, 0x7400, 0x7300, 0x901, 0x903, 0x6100, 0x7200, 0x7300, 0x7300, 0x7300] ∧
    lives (fun _ => none) ((wanted clCase [clHook] [] (some [9])).map (·.1))
      = some (Store.set (fun _ => none) 0x9000 (some (some [7]))) ∧
    s'.reg 0 = 0x9000 := by
  obtain ⟨code, tr, s', hc, hr, ⟨t, ha, hw⟩, hv, h0, -, -⟩ := class_results (C := rxCtx) (H := [clHook])
    (text := []) clGen_ok clGen_class cl_caller rfl cl_out cl_hi cl_vt rfl cl_memret cl_plays []
    (L := fun _ => none) (fun _ _ => rfl)
  have e9 : arg clMach 1 = 0x9000 := by decide +kernel
  rw [e9] at hv h0
  refine ⟨code, tr, s', hc, ?_, ?_, hv, h0⟩
  · rw [show arg clMach 0 = 0 by decide +kernel, List.append_nil] at hr
    exact hr
  · have e1 : ∀ {a : List SCall} {b : List (Event exampleFpu)}, AreCalls (stackOf clGen (clMach.reg 4) 256) a b →
        b.map (·.target) = a.map (·.target) := by
      intro a b hab
      induction hab with
      | nil => rfl
      | cons h _ ih => simp [ih, h.target]
    have e2 : ∀ {a : List SCall} {b : List (Want × W)}, AreMade clCase a b →
        a.map (·.target) = b.map (·.1.target clCase) := by
      intro a b hab
      induction hab with
      | nil => rfl
      | cons h _ ih => simp [ih, h.target]
    exact (e1 ha).trans ((e2 hw).trans (by decide +kernel))

example : (places clCase).Nodup := places_nodup clGen_ok clGen_class cl_caller cl_memret

/-! ## A class without a default constructor -/

/-- No counterpart in /repo: the prototype `Object f(int)`, the class has a destructor, a copy
constructor and an assignment operator, but no constructor without arguments. -/
def rawGen : Gen := { exampleHook with ret := ⟨12, 3, 117, 0, 0x7200, 0x7300, 0x7400⟩ }

/-- No counterpart in /repo: the prototype as it is handed to `Generate`. -/
def rawProto : Proto := ⟨1, 1, ⟨12, 3, 53, 0, 0x7200, 0x7300, 0x7400⟩, exampleHook.params⟩

/-- No counterpart in /repo: the answer of a function that returns an object. -/
def rawBack : Ans exampleFpu := { says 12 0 with pop := 4 }

/-- No counterpart in /repo: no hooks; `ShouldCallOrig` says yes; the original function, assignment,
destructor; no hooks; `GetOrigRetPtr` gives the variable; `EndContext`, the copy constructor, three
destructors. -/
def rawAnswers : List (Ans exampleFpu) :=
  [says 40 0x3000, says 4 0, says 4 1, rawBack, says 8 0, says 4 0, says 4 0, says 4 0xFFDC, says 8 0,
   says 8 0, says 4 0, says 4 0, says 4 0]

/-- No counterpart in /repo: the run. -/
def rawRun : Option (List (Event exampleFpu) × W × Mach exampleFpu × List (Ans exampleFpu)) :=
  (generateHookFunc rawGen).bind fun code => run quietEnv code 400 ⟨0, clMach, rawAnswers⟩

/-- **C88**, a departure: a class with a destructor and an assignment operator but without a default
constructor is accepted, and nothing constructs the three variables
(core/sourcehook/sourcehook_hookmangen_x86.cpp:1543-1545): the object the original function returned is
assigned to memory that is no object, and three objects are destroyed that never were.  Calls 4, 5
and 9 to 12: the assignment to 0xFFDC from the temporary place 0xFFB8, the destructor of that; the
copy constructor, the destructors of 0xFFC4, 0xFFD0 and 0xFFDC. -/
theorem unconstructed_assigned : accepts rawProto = true ∧ rawGen.ret = rawProto.detected.ret ∧
    (∃ code tr s', generateHookFunc rawGen = some code ∧
      Returns quietEnv code clMach rawAnswers tr 0 s' [] ∧
      tr.map (fun e => (e.target, arg e.state 0)) =
        [(0x6000, 0x2000), (0, 0x3000), (0, 0x3000), (0, 0xFFB8), (0x7400, 0xFFDC), (0x7300, 0xFFB8),
         (0, 0x3000), (0, 0x3000), (0x6100, 0x2000), (0x7200, 0x9000), (0x7300, 0xFFC4),
         (0x7300, 0xFFD0), (0x7300, 0xFFDC)]) ∧
    ∀ v, lives (fun _ => none) [.setup, .next, .should, .original 0xFFB8 v, .assign 0xFFDC 0xFFB8]
      = none := by
  refine ⟨by decide, rfl, ?_, fun _ => rfl⟩
  have h : rawRun.map (fun q => (q.1.map (fun e => (e.target, arg e.state 0)), q.2.1, q.2.2.2.length))
      = some ([(0x6000, 0x2000), (0, 0x3000), (0, 0x3000), (0, 0xFFB8), (0x7400, 0xFFDC), (0x7300, 0xFFB8),
         (0, 0x3000), (0, 0x3000), (0x6100, 0x2000), (0x7200, 0x9000), (0x7300, 0xFFC4),
         (0x7300, 0xFFD0), (0x7300, 0xFFDC)], 0, 0) := by decide +kernel
  unfold rawRun at h
  rw [Option.map_eq_some_iff] at h
  obtain ⟨⟨tr, t, s', rest⟩, h, e⟩ := h
  simp only [Prod.mk.injEq, List.length_eq_zero_iff] at e
  obtain ⟨e1, rfl, rfl⟩ := e
  rw [Option.bind_eq_some_iff] at h
  obtain ⟨code, hc, h⟩ := h
  exact ⟨code, tr, s', hc, run_sound h, e1⟩

end Verif.Jit32.Class

#print axioms Verif.Jit32.Class.objects_live
#print axioms Verif.Jit32.Class.class_results
#print axioms Verif.Jit32.Class.unconstructed_assigned
#print axioms Verif.Jit32.Class.live_refuses
