import Verif.Jit.ClassRun
import Verif.Jit.RuleProps
/-
C89: results with special functions in the generated 64-bit hook functions
(core/sourcehook/sourcehook_hookmangen_x86_64.cpp): every object is constructed before it is used and
destroyed once, and the caller gets the value SourceHook's rule demands.
-/
namespace Verif.Jit.Class

open Rule

variable {K : Case}

/-! ## Lives -/

theorem lives_append (L : Store) (a b : List Want) :
    lives L (a ++ b) = (lives L a).bind fun L => lives L b := by
  induction a generalizing L with
  | nil => rfl
  | cons w ws ih =>
    show (live L w).bind _ = ((live L w).bind _).bind _
    cases live L w with
    | none => rfl
    | some L => exact ih L

theorem set_same (L : Store) (a : W) (v : Option (Option W)) : L.set a v a = v := if_pos rfl

theorem set_other (L : Store) {a x : W} (v : Option (Option W)) (h : x ≠ a) :
    L.set a v x = L x := if_neg h

theorem destroy_live {L : Store} {a : W} {v : Option W} (h : L a = some v) :
    live L (.destroy a) = some (L.set a none) := by
  simp only [live, h, reduceCtorEq, if_false]

/-- The places are different. -/
structure Distinct (K : Case) : Prop where
  ov : K.V.orig ≠ K.V.override
  ol : K.V.orig ≠ K.V.plugin
  ot : K.V.orig ≠ K.V.temp
  om : K.V.orig ≠ K.memret
  vl : K.V.override ≠ K.V.plugin
  vt : K.V.override ≠ K.V.temp
  vm : K.V.override ≠ K.memret
  lt : K.V.plugin ≠ K.V.temp
  lm : K.V.plugin ≠ K.memret
  tm : K.V.temp ≠ K.memret

theorem distinct_of (h : (places K).Nodup) : Distinct K := by
  simp only [places, List.nodup_cons, List.mem_cons, List.not_mem_nil, or_false, not_or,
    not_false_eq_true, List.nodup_nil, and_true] at h
  obtain ⟨⟨a, b, c, d⟩, ⟨e, f, g⟩, ⟨i, j⟩, k⟩ := h
  exact ⟨a, b, c, d, e, f, g, i, j, k⟩

/-- A value returned at the temporary place and assigned. -/
theorem take_lives {L : Store} {v x : Option W} {t d : W} {w : Want}
    (hw : live L w = some (L.set t (some v))) (ht : L t = none) (hd : L d = some x) (hn : d ≠ t) :
    lives L [w, .assign d t, .destroy t] = some (L.set d (some v)) := by
  have e1 : live (L.set t (some v)) (.assign d t) = some ((L.set t (some v)).set d (some v)) := by
    simp only [live, set_same, set_other _ _ hn, hd]
  have e2 : live ((L.set t (some v)).set d (some v)) (.destroy t)
      = some (((L.set t (some v)).set d (some v)).set t none) := by
    simp only [live, set_other _ _ hn.symm, set_same]
    simp
  simp only [lives, hw, e1, e2, Option.bind_some]
  refine congrArg some (funext fun y => ?_)
  unfold Store.set
  by_cases h1 : y = t
  · subst h1
    rw [if_pos rfl, if_neg hn.symm, ht]
  · rw [if_neg h1]
    by_cases h2 : y = d
    · rw [if_pos h2, if_pos h2]
    · rw [if_neg h2, if_neg h1, if_neg h2]

/-- What a pass leaves: the value of the last hook that overrides, or what there was. -/
def overAfter (y : Option W) (hs : List Hook) : Option W :=
  match lastOverride hs with
  | some h => some h.val
  | none => y

theorem overAfter_cons (y : Option W) (h : Hook) (hs : List Hook) :
    overAfter y (h :: hs) = overAfter (if 2 ≤ h.res.toNat then some h.val else y) hs := by
  unfold overAfter
  rw [lastOverride_cons]
  cases lastOverride hs with
  | some k => rfl
  | none => by_cases h2 : 2 ≤ h.res.toNat <;> simp [h2]

theorem pass_lives (D : Distinct K) : ∀ (hs : List Hook) (st : W) (L : Store) (x y : Option W),
    L K.V.temp = none → L K.V.plugin = some x → L K.V.override = some y →
    ∃ L' x', lives L ((passCalls K st hs).map (·.1)) = some L' ∧ L' K.V.temp = none ∧
      L' K.V.plugin = some x' ∧ L' K.V.override = some (overAfter y hs) ∧
      ∀ a, a ≠ K.V.plugin → a ≠ K.V.override → L' a = L a := by
  intro hs
  induction hs with
  | nil =>
    intro st L x y ht hl hv
    exact ⟨L, x, rfl, ht, hl, hv, fun _ _ _ => rfl⟩
  | cons h hs ih =>
    intro st L x y ht hl hv
    have e1 : lives L [.hook K.V.temp h, .assign K.V.plugin K.V.temp, .destroy K.V.temp]
        = some (L.set K.V.plugin (some (some h.val))) :=
      take_lives (by simp only [live, ht]; simp) ht hl D.lt
    have a1 : (L.set K.V.plugin (some (some h.val))) K.V.temp = none := by
      rw [set_other _ _ D.lt.symm, ht]
    have a2 : (L.set K.V.plugin (some (some h.val))) K.V.plugin = some (some h.val) := set_same _ _ _
    have a3 : (L.set K.V.plugin (some (some h.val))) K.V.override = some y := by
      rw [set_other _ _ D.vl, hv]
    by_cases h2 : 2 ≤ h.res.toNat
    · have e2 : lives (L.set K.V.plugin (some (some h.val))) [.over, .assign K.V.override K.V.plugin]
          = some ((L.set K.V.plugin (some (some h.val))).set K.V.override (some (some h.val))) := by
        simp only [lives, live, a2, a3, Option.bind_some]
      obtain ⟨L', x', r, b1, b2, b3, b4⟩ := ih (raised st h.res)
        ((L.set K.V.plugin (some (some h.val))).set K.V.override (some (some h.val))) (some h.val)
        (some h.val) (by rw [set_other _ _ D.vt.symm, a1]) (by rw [set_other _ _ D.vl.symm, a2])
        (set_same _ _ _)
      refine ⟨L', x', ?_, b1, b2, ?_, fun a ha hb => ?_⟩
      · rw [passCalls, if_pos h2]
        show lives L ([.next] ++ ([.hook K.V.temp h, .assign K.V.plugin K.V.temp, .destroy K.V.temp]
          ++ ([.over, .assign K.V.override K.V.plugin]
          ++ (passCalls K (raised st h.res) hs).map (·.1)))) = _
        rw [lives_append, show lives L [.next] = some L from rfl, Option.bind_some, lives_append, e1,
          Option.bind_some, lives_append, e2, Option.bind_some, r]
      · rw [overAfter_cons, if_pos h2, b3]
      · rw [b4 a ha hb, set_other _ _ hb, set_other _ _ ha]
    · obtain ⟨L', x', r, b1, b2, b3, b4⟩ := ih (raised st h.res) _ _ _ a1 a2 a3
      refine ⟨L', x', ?_, b1, b2, ?_, fun a ha hb => ?_⟩
      · rw [passCalls, if_neg h2]
        show lives L ([.next] ++ ([.hook K.V.temp h, .assign K.V.plugin K.V.temp, .destroy K.V.temp]
          ++ (passCalls K (raised st h.res) hs).map (·.1))) = _
        rw [lives_append, show lives L [.next] = some L from rfl, Option.bind_some, lives_append, e1,
          Option.bind_some, r]
      · rw [overAfter_cons, if_neg h2, b3]
      · rw [b4 a ha hb, set_other _ _ ha]

/-- What the variable for the original value holds between the passes. -/
def origAfter (o y : Option W) : Option W :=
  match o with
  | some v => some v
  | none => y

theorem mid_lives (D : Distinct K) (st : W) (o : Option W) {L : Store} {x y : Option W}
    (ht : L K.V.temp = none) (ho : L K.V.orig = some x) (hv : L K.V.override = some y) :
    lives L ((midCalls K st o).map (·.1))
      = some (L.set K.V.orig (some (origAfter o y))) := by
  have e : ∀ ws : List Want, lives L ((if st = 3 then [] else [(Want.should, some st)]).map (·.1) ++ ws)
      = lives L ws := by
    intro ws
    by_cases h3 : st = 3
    · rw [if_pos h3]; rfl
    · rw [if_neg h3]; rfl
  unfold midCalls
  rw [List.map_append, e]
  cases o with
  | some v =>
    exact take_lives (w := .original K.V.temp v) (v := some v) (by simp only [live, ht]; simp) ht ho D.ot
  | none =>
    show lives L [.assign K.V.orig K.V.override] = _
    simp only [lives, live, ho, hv, Option.bind_some]
    rfl

theorem two_le_raised (st r : W) : 2 ≤ (raised st r).toNat ↔ 2 ≤ st.toNat ∨ 2 ≤ r.toNat := by
  unfold raised
  split <;> omega

theorem two_le_after : ∀ (hs : List Hook) (st : W),
    2 ≤ (raisedBy st hs).toNat ↔ 2 ≤ st.toNat ∨ (lastOverride hs).isSome = true := by
  intro hs
  induction hs with
  | nil => intro st; simp [raisedBy, lastOverride]
  | cons h hs ih =>
    intro st
    rw [show raisedBy st (h :: hs) = raisedBy (raised st h.res) hs from rfl, ih, two_le_raised,
      lastOverride_cons]
    cases lastOverride hs with
    | some k => simp
    | none => by_cases h2 : 2 ≤ h.res.toNat <;> simp [h2]

theorem lastOverride_append (a b : List Hook) :
    lastOverride (a ++ b) = match lastOverride b with | some h => some h | none => lastOverride a := by
  induction a with
  | nil =>
    show lastOverride b = _
    cases h : lastOverride b <;> rfl
  | cons h a ih =>
    rw [List.cons_append, lastOverride_cons, ih, lastOverride_cons]
    cases lastOverride b <;> rfl

/-- **C89.** The machine of object lives refuses what it must: a place holding an object takes no second
one, a place holding none can be neither assigned, nor copied from, nor destroyed. -/
theorem live_refuses (L : Store) (a b : W) (h : Hook) (v : W) :
    (L a ≠ none → live L (.construct a) = none ∧ live L (.copy a b) = none ∧ live L (.hook a h) = none ∧
      live L (.original a v) = none) ∧
    (L a = none → live L (.destroy a) = none ∧ live L (.assign a b) = none ∧ live L (.assign b a) = none ∧
      live L (.copy b a) = none) := by
  constructor
  · intro ha
    obtain ⟨x, hx⟩ := Option.ne_none_iff_exists'.1 ha
    simp [live, hx]
  · intro ha
    refine ⟨by simp [live, ha], by simp [live, ha], ?_, ?_⟩ <;> cases hb : L b <;> simp [live, ha, hb]

/-- An object at 8, none at 16. -/
example : live (fun a => if a = 8 then some none else none) (.construct 8) = none ∧
    live (fun a => if a = 8 then some none else none) (.copy 8 16) = none :=
  ⟨((live_refuses _ 8 16 ⟨0, 0, 0, 0, 0⟩ 0).1 (by simp)).1, ((live_refuses _ 8 16 ⟨0, 0, 0, 0, 0⟩ 0).1 (by simp)).2.1⟩

/-- **C89.** The calls of a hook function keep to the rules about objects: nothing is constructed
twice, nothing is assigned, copied or destroyed that is not an object.  In the end the places of the
caller hold what they held, and the place for the result an object with the value of the rule; the
variables and the temporary place hold nothing. -/
theorem objects_live (h : (places K).Nodup) {L : Store} (free : ∀ a ∈ places K, L a = none)
    (pre post : List Hook) (o : Option W) :
    lives L ((wanted K pre post o).map (·.1)) = some (L.set K.memret (some (ruled pre post o))) := by
  have D := distinct_of h
  have f1 : L K.V.orig = none := free _ (by simp [places])
  have f2 : L K.V.override = none := free _ (by simp [places])
  have f3 : L K.V.plugin = none := free _ (by simp [places])
  have f4 : L K.V.temp = none := free _ (by simp [places])
  have f5 : L K.memret = none := free _ (by simp [places])
  unfold wanted
  rw [List.map_append, lives_append]
  obtain ⟨L1, hL1⟩ : ∃ L1, L1 = ((L.set K.V.orig (some none)).set K.V.override (some none)).set K.V.plugin
    (some none) := ⟨_, rfl⟩
  have e1 : lives L ([(.construct K.V.orig, none), (.construct K.V.override, none),
      (.construct K.V.plugin, none), ((.setup : Want), some (0 : W))].map (·.1)) = some L1 := by
    rw [hL1]
    simp only [List.map_cons, List.map_nil, lives, live, f1, set_other _ _ D.ov.symm, f2,
      set_other _ _ D.vl.symm, set_other _ _ D.ol.symm, f3, if_true, Option.bind_some]
  have g1 : L1 K.V.orig = some none := by
    rw [hL1, set_other _ _ D.ol, set_other _ _ D.ov, set_same]
  have g2 : L1 K.V.override = some none := by rw [hL1, set_other _ _ D.vl, set_same]
  have g3 : L1 K.V.plugin = some none := by rw [hL1, set_same]
  have g4 : L1 K.V.temp = none := by
    rw [hL1, set_other _ _ D.lt.symm, set_other _ _ D.vt.symm, set_other _ _ D.ot.symm, f4]
  have g5 : ∀ a, a ≠ K.V.orig → a ≠ K.V.override → a ≠ K.V.plugin → L1 a = L a := fun a h1 h2 h3 => by
    rw [hL1, set_other _ _ h3, set_other _ _ h2, set_other _ _ h1]
  rw [e1, Option.bind_some, List.map_append, lives_append]
  obtain ⟨L2, x2, r2, p1, p2, p3, p4⟩ := pass_lives D pre 0 L1 none none g4 g3 g2
  rw [r2, Option.bind_some, List.map_append, lives_append,
    mid_lives D (raisedBy 0 pre) o p1 ((p4 _ D.ol D.ov).trans g1) p3, Option.bind_some, List.map_append,
    lives_append]
  obtain ⟨z, hz⟩ : ∃ z, z = origAfter o (overAfter none pre) := ⟨_, rfl⟩
  rw [← hz]
  obtain ⟨L4, x4, r4, q1, q2, q3, q4⟩ := pass_lives D post (raisedBy 0 pre) (L2.set K.V.orig (some z)) x2
    (overAfter none pre) (by rw [set_other _ _ D.ot.symm, p1]) (by rw [set_other _ _ D.ol.symm, p2])
    (by rw [set_other _ _ D.ov.symm, p3])
  rw [r4, Option.bind_some]
  have q5 : L4 K.V.orig = some z := by rw [q4 _ D.ol D.ov, set_same]
  have q6 : L4 K.memret = none := by
    rw [q4 _ D.lm.symm D.vm.symm, set_other _ _ D.om.symm, p4 _ D.lm.symm D.vm.symm,
      g5 _ D.om.symm D.vm.symm D.lm.symm, f5]
  obtain ⟨st, hst⟩ : ∃ st, st = raisedBy (raisedBy 0 pre) post := ⟨_, rfl⟩
  rw [← hst]
  obtain ⟨s, hs⟩ : ∃ s, s = if 2 ≤ st.toNat then K.V.override else K.V.orig := ⟨_, rfl⟩
  have val : L4 s = some (ruled pre post o) := by
    rw [hs]
    have h2 : 2 ≤ st.toNat ↔ (lastOverride (pre ++ post)).isSome = true := by
      rw [hst, two_le_after, two_le_after, lastOverride_append]
      cases lastOverride post <;> simp
    by_cases h3 : 2 ≤ st.toNat
    · rw [if_pos h3, q3]
      rw [h2] at h3
      unfold ruled
      unfold overAfter
      rw [lastOverride_append] at h3 ⊢
      cases hp : lastOverride post with
      | some k => rfl
      | none =>
        rw [hp] at h3
        cases hq : lastOverride pre with
        | some k => rfl
        | none => rw [hq] at h3; cases h3
    · rw [if_neg h3, q5, hz]
      rw [h2] at h3
      unfold ruled
      cases hl : lastOverride (pre ++ post) with
      | some k => rw [hl] at h3; exact absurd rfl h3
      | none =>
        have : lastOverride pre = none := by
          rw [lastOverride_append] at hl
          cases hp : lastOverride post with
          | some k => rw [hp] at hl; cases hl
          | none => rw [hp] at hl; exact hl
        cases o with
        | some v => rfl
        | none => simp only [origAfter, overAfter, this]
  have sm : s ≠ K.memret := by
    rw [hs]
    split
    · exact D.vm
    · exact D.om
  have e5 : (endCalls K st).map (·.1) = [if 2 ≤ st.toNat then .over else .origPtr, .endContext,
      .copy K.memret s, .destroy K.V.orig, .destroy K.V.override, .destroy K.V.plugin] := by
    rw [hs]
    rfl
  have ask : ∀ M : Store, live M (if 2 ≤ st.toNat then .over else .origPtr) = some M := by
    intro M
    split <;> rfl
  rw [e5]
  obtain ⟨R, hR⟩ : ∃ R, R = ruled pre post o := ⟨_, rfl⟩
  rw [← hR] at val ⊢
  have e6 : live L4 (.copy K.memret s) = some (L4.set K.memret (some R)) := by
    simp only [live, q6, val]
  have e7 := destroy_live (L := L4.set K.memret (some R)) (a := K.V.orig) (v := z)
    (by rw [set_other _ _ D.om, q5])
  have e8 := destroy_live (L := (L4.set K.memret (some R)).set K.V.orig none) (a := K.V.override)
    (v := overAfter (overAfter none pre) post)
    (by rw [set_other _ _ D.ov.symm, set_other _ _ D.vm, q3])
  have e9 := destroy_live (L := ((L4.set K.memret (some R)).set K.V.orig none).set K.V.override none)
    (a := K.V.plugin) (v := x4)
    (by rw [set_other _ _ D.vl.symm, set_other _ _ D.ol.symm, set_other _ _ D.lm, q2])
  have e10 : ∀ M : Store, live M .endContext = some M := fun _ => rfl
  simp only [lives, ask, e10, e6, e7, e8, e9, Option.bind_some]
  refine congrArg some (funext fun a => ?_)
  by_cases h3 : a = K.V.plugin
  · subst h3
    rw [set_same, set_other _ _ D.lm, f3]
  · rw [set_other _ _ h3]
    by_cases h2 : a = K.V.override
    · subst h2
      rw [set_same, set_other _ _ D.vm, f2]
    · rw [set_other _ _ h2]
      by_cases h1 : a = K.V.orig
      · subst h1
        rw [set_same, set_other _ _ D.om, f1]
      · rw [set_other _ _ h1]
        by_cases h4 : a = K.memret
        · subst h4
          rw [set_same, set_same]
        · rw [set_other _ _ h4, set_other _ _ h4, q4 _ h3 h2, set_other _ _ h1, p4 _ h3 h2, g5 _ h1 h2 h3]

/-! ## The generated code -/

/-- No counterpart in /repo: the call a caller in the state `s` makes. -/
abbrev caseOf (acc keep : W → Bool) (g : Gen) (s : Mach) (C : Context) (H : List Hook) : Case where
  Wd := world acc keep (hookStack g (s.reg 4))
  V := varsAt g (hookStack g (s.reg 4))
  g := g
  C := C
  H := H
  this := s.reg 1
  memret := s.reg 2
  ps := paramsIn s (firstReg g.ret) g.params
  mem := s.mem

variable {acc keep : W → Bool} {g : Gen} {s : Mach} {C : Context} {H : List Hook}

theorem apart_ne {a b : W} (h : Apart a b) : a ≠ b := by
  rintro rfl
  have h1 := h.1
  rw [BitVec.sub_self] at h1
  exact absurd h1 (by decide)

theorem places_nodup (h : GenOk g) (S : IsClass g) (p : Provided acc keep (hookStack g (s.reg 4)))
    (hm : Outside acc (hookStack g (s.reg 4)) (s.reg 2)) :
    (places (caseOf acc keep g s C H)).Nodup := by
  have ok := hookStack_ok h p
  have hz := S.size
  have f := hookStack_fit h (s.reg 4)
  have hcb := cell_bound f
  have e : frame g.ret = ⟨-72, -80, -80 - (cellSize g.ret : Int), -80 - 2 * cellSize g.ret,
      -80 - 3 * cellSize g.ret, -80 - 4 * cellSize g.ret, 80 + 4 * cellSize g.ret⟩ := if_neg hz
  have hs : (hookStack g (s.reg 4)).size = 80 + 4 * cellSize g.ret := by
    show (frame g.ret).size = _
    rw [e]
  have h8 : (8 : Int) ≤ cellSize g.ret := by
    have h1 := alignSize_spec (realSize g.ret) 8 (by omega)
    have h2 := alignSize_spec (alignSize (realSize g.ret) 8) 16 (by omega)
    have h3 : (cellSize g.ret : Int) = alignSize (alignSize (realSize g.ret) 8) 16 := rfl
    have h5 : realSize g.ret ≠ 0 := by unfold realSize; split <;> omega
    omega
  have ne : ∀ {a b : Int}, a + 8 ≤ b ∨ b + 8 ≤ a → b - a < 2 ^ 62 ∧ a - b < 2 ^ 62 →
      off (s.reg 4) a ≠ off (s.reg 4) b := fun hab hr => apart_ne (off_apart _ hab hr)
  have nm : ∀ {a : Int}, -(hookStack g (s.reg 4)).size ≤ a → a + 8 ≤ 0 → off (s.reg 4) a ≠ s.reg 2 :=
    fun h1 h2 => apart_ne (outside_apart ok hm h1 h2)
  simp only [places, List.nodup_cons, List.mem_cons, List.not_mem_nil, or_false, not_or,
    not_false_eq_true, List.nodup_nil, and_true, varsAt, e]
  refine ⟨⟨ne ?_ ?_, ne ?_ ?_, ne ?_ ?_, nm ?_ ?_⟩,
    ⟨ne ?_ ?_, ne ?_ ?_, nm ?_ ?_⟩, ⟨ne ?_ ?_, nm ?_ ?_⟩, nm ?_ ?_⟩ <;> omega

/-- **C89.** The generated code, called with the hooks `pre` and `post` in place, for a function that
returns an object of a class with constructor, copy constructor, assignment operator and destructor:
it makes exactly the calls `wanted`, with the status in place at each of them, and these keep to the
rules about objects; the object the caller gets has the value of the last hook that overrides, else
that of the original function.  It returns with the stack pointer and the registers to be preserved as
they must be.  Missing: the address of the object is not in RAX, as the convention has it, but what
the last destructor left there. -/
theorem class_results_partial (h : GenOk g) (S : IsClass g)
    (p : Provided acc keep (hookStack g (s.reg 4)))
    (out : ∀ c ∈ objects g C H, Outside acc (hookStack g (s.reg 4)) c.1)
    (hi : Outside acc (hookStack g (s.reg 4)) g.pHI)
    (vt : Outside acc (hookStack g (s.reg 4)) (s.reg 1 + BitVec.ofInt 64 g.vtblOffs))
    (hm : Outside acc (hookStack g (s.reg 4)) (s.reg 2))
    {pre post : List Hook} {ans : List Ans} {o : Option W}
    (P : Plays (caseOf acc keep g s C H) pre post ans o) (rest : List Ans) {L : Store}
    (free : ∀ a ∈ places (caseOf acc keep g s C H), L a = none) :
    ∃ code, generateHookFunc g = some code ∧
    ∃ t' s', Returns acc keep code s (ans ++ rest) t' (rd s.mem (s.reg 4)) s' rest ∧
      (∃ t, AreCalls (hookStack g (s.reg 4)) t t' ∧
        AreMade (caseOf acc keep g s C H) t (wanted (caseOf acc keep g s C H) pre post o)) ∧
      lives L ((wanted (caseOf acc keep g s C H) pre post o).map (·.1))
        = some (L.set (s.reg 2) (some (ruled pre post o))) ∧
      (∃ as d, ans = as ++ [d] ∧ s'.reg 0 = d.reg 0) ∧
      s'.reg 4 = s.reg 4 + 8 ∧ (∀ r, preserved r = true → r ≠ 4 → s'.reg r = s.reg r) ∧
      ∀ r, preservedX r = true → s'.xmm r = s.xmm r := by
  have T := told (keep := keep) (this := s.reg 1) h p hi vt
  obtain ⟨r, m, t, e, w⟩ := all_run (n := pre.length + post.length + 1) (K := caseOf acc keep g s C H) S
    (laid h p out) T P (by omega) (by omega) rest
  obtain ⟨code, hc, t', s', hr, ha, b⟩ := hook_refines_partial h s p _ e
  obtain ⟨as, d, e1, e2⟩ := result_lost _ _ _ _ _ _ _ _ S.byVal S.dtor e
  refine ⟨code, hc, t', s', hr, ⟨t, ha, w⟩, objects_live (places_nodup h S p hm) free pre post o,
    ⟨as, d, ?_, ?_⟩, b.rsp, b.same, b.xmm⟩
  · rw [show as ++ d :: rest = as ++ [d] ++ rest by simp] at e1
    exact List.append_cancel_right e1
  · have := b.rax
    rw [e2] at this
    exact this _ rfl

/-! ## A call with one hook that overrides -/

/-- No counterpart in /repo: the prototype `Object f(int)`, the object has 24 bytes and all special
functions. -/
def clGen : Gen := { exGen with ret := ⟨24, typeObject, 125, 0x7100, 0x7200, 0x7300, 0x7400⟩ }

/-- No counterpart in /repo: the functions called leave everything but `cur_res` and the address of the
original function alone (the objects are left out). -/
def clKeep (x : W) : Bool := decide (8 ≤ (x - 0xffe0).toNat) && decide (8 ≤ (x - 0xfff8).toNat)

/-- No counterpart in /repo: the hook: it says `MRES_OVERRIDE`; its value is named 7. -/
def clHook : Hook := ⟨0x5100, 0x7000, 0x888, 2, 7⟩
/-- No counterpart in /repo: the context. -/
def clCtx : Context := ⟨0x5000, 0x6000, 0x901, 0x903, 0x904, 0x905, 0x41414141⟩
/-- No counterpart in /repo: the caller; the result is to go to 0x9000. -/
def clMach : Mach := { exMach with
  mem := rxMem
  reg := fun r => if r = 4 then 0x10008 else if r = 1 then 0x1000 else if r = 2 then 0x9000 else 0 }
/-- No counterpart in /repo: what the called functions leave where they write. -/
def clLeft : Memory := wr (wr (fun _ => 0) 0xffe0 2) 0xfff8 0x41414141
/-- No counterpart in /repo: the call. -/
abbrev clCase : Case := caseOf (fun _ => true) clKeep clGen clMach clCtx [clHook]

theorem clGen_ok : GenOk clGen := by
  refine ⟨?_, ?_, ?_, ?_, ?_, ?_, ?_, ?_, ?_, ?_⟩ <;> decide

theorem clGen_class : IsClass clGen :=
  ⟨by decide, by decide, by decide, by decide, by decide, by decide, by decide, by decide, by decide,
    by decide, by decide, by decide⟩

theorem cl_provided : Provided (fun _ => true) clKeep (hookStack clGen 0x10008) := by
  refine ⟨fun _ _ _ => rfl, ?_⟩
  intro k hk
  have e : (hookStack clGen 0x10008).nargs = 3 := by decide
  have ew : (hookStack clGen 0x10008).wide = true := by decide
  unfold Stack.priv at hk
  rw [e, ew] at hk
  simp only [Bool.or_eq_true, Bool.true_and, decide_eq_true_eq] at hk
  unfold clKeep
  rw [Bool.and_eq_true, decide_eq_true_iff, decide_eq_true_iff]
  show 8 ≤ ((0x10008 : W) + BitVec.ofInt 64 k - 0xffe0).toNat
    ∧ 8 ≤ ((0x10008 : W) + BitVec.ofInt 64 k - 0xfff8).toNat
  have e1 : (0x10008 : W) + BitVec.ofInt 64 k - 0xffe0 = BitVec.ofInt 64 k + 40 := by
    rw [BitVec.add_comm, BitVec.sub_eq_add_neg, BitVec.add_assoc]; rfl
  have e2 : (0x10008 : W) + BitVec.ofInt 64 k - 0xfff8 = BitVec.ofInt 64 k + 16 := by
    rw [BitVec.add_comm, BitVec.sub_eq_add_neg, BitVec.add_assoc]; rfl
  rw [e1, e2, BitVec.toNat_add, BitVec.toNat_add, BitVec.toNat_ofInt]
  have : (40 : W).toNat = 40 := rfl
  have : (16 : W).toNat = 16 := rfl
  omega

theorem cl_out : ∀ c ∈ objects clGen clCtx [clHook],
    Outside (fun _ => true) (hookStack clGen 0x10008) c.1 := by
  intro c hc
  refine ⟨rfl, ?_⟩
  revert c
  decide +kernel

theorem cl_laid : Laid' clCase := laid clGen_ok cl_provided cl_out

theorem cl_hi : Outside (fun _ => true) (hookStack clGen 0x10008) clGen.pHI := ⟨rfl, by decide +kernel⟩

theorem cl_vt : Outside (fun _ => true) (hookStack clGen 0x10008) (0x1000 + BitVec.ofInt 64 clGen.vtblOffs) :=
  ⟨rfl, by decide +kernel⟩

theorem cl_memret : Outside (fun _ => true) (hookStack clGen 0x10008) 0x9000 := ⟨rfl, by decide +kernel⟩

theorem cl_after (m : Memory) (a : Ans) {x : W} (h : Apart clCase.V.cur x) (h' : Apart clCase.V.entry x) :
    rd (Rule.after clCase.Wd m a) x = rd m x := by
  apply rd_congr
  intro i hi
  have e : clCase.V.cur = 0xffe0 := by decide
  have e' : clCase.V.entry = 0xfff8 := by decide
  rw [e] at h
  rw [e'] at h'
  have sub : ∀ y : W, x + BitVec.ofNat 64 i - y = (x - y) + BitVec.ofNat 64 i := by
    intro y
    rw [BitVec.sub_eq_add_neg, BitVec.sub_eq_add_neg, BitVec.add_assoc, BitVec.add_assoc,
      BitVec.add_comm (BitVec.ofNat 64 i)]
  unfold Rule.after
  rw [if_pos]
  show (decide _ && decide _) = true
  rw [Bool.and_eq_true, decide_eq_true_iff, decide_eq_true_iff, sub, sub, BitVec.toNat_add,
    BitVec.toNat_add, BitVec.toNat_ofNat]
  obtain ⟨h1, h2⟩ := h
  obtain ⟨h3, h4⟩ := h'
  omega

theorem cl_entry (m : Memory) {a : Ans} (ha : a.mem = clLeft) :
    rd (Rule.after clCase.Wd m a) clCase.V.entry = 0x41414141 := by
  have e : rd (Rule.after clCase.Wd m a) clCase.V.entry = rd clLeft 0xfff8 := by
    apply rd_congr
    intro i hi
    have e' : clCase.V.entry = 0xfff8 := by decide
    unfold Rule.after
    rw [if_neg, ha, e']
    show ¬ (decide _ && decide _) = true
    rw [Bool.and_eq_true, decide_eq_true_iff (p := 8 ≤ _), decide_eq_true_iff (p := 8 ≤ _), e',
      add_sub_self, BitVec.toNat_ofNat]
    rintro ⟨-, h⟩
    omega
  rw [e]
  decide +kernel

theorem cl_cur (m : Memory) {a : Ans} (ha : a.mem = clLeft) :
    rd (Rule.after clCase.Wd m a) clCase.V.cur = 2 := by
  have e : rd (Rule.after clCase.Wd m a) clCase.V.cur = rd clLeft 0xffe0 := by
    apply rd_congr
    intro i hi
    have e' : clCase.V.cur = 0xffe0 := by decide
    unfold Rule.after
    rw [if_neg, ha, e']
    show ¬ (decide _ && decide _) = true
    rw [Bool.and_eq_true, decide_eq_true_iff (p := 8 ≤ _), decide_eq_true_iff (p := 8 ≤ _), e',
      add_sub_self, BitVec.toNat_ofNat]
    rintro ⟨h, -⟩
    omega
  rw [e]
  decide +kernel

theorem cl_apart {x : W} (o : Outside (fun _ => true) (hookStack clGen 0x10008) x) :
    Apart clCase.V.cur x ∧ Apart clCase.V.entry x :=
  ⟨outside_apart (hookStack_ok clGen_ok cl_provided) o (k := -40) (by decide) (by decide),
    outside_apart (hookStack_ok clGen_ok cl_provided) o (k := -16) (by decide) (by decide)⟩

theorem cl_outside (m : Memory) (a : Ans) {x : W}
    (o : Outside (fun _ => true) (hookStack clGen 0x10008) x) :
    rd (Rule.after clCase.Wd m a) x = rd m x := cl_after m a (cl_apart o).1 (cl_apart o).2

theorem cl_status (m : Memory) (a : Ans) :
    rd (Rule.after clCase.Wd m a) clCase.V.status = rd m clCase.V.status :=
  cl_after m a cl_laid.pairs.cs (off_apart _ (a := -16) (b := -24) (by decide) (by decide))

theorem cl_keeps {a : Ans} (ha : a.mem = clLeft) (st : W) : Calm clCase a st := by
  intro m h
  refine ⟨fun c hc => ?_, ?_⟩
  · rcases List.mem_cons.1 hc with rfl | hc'
    · exact cl_entry m ha
    · exact (cl_outside m a (cl_out c hc')).trans (h.cell c hc)
  · rw [cl_status, h.status]

theorem cl_ready (a : Ans) : CtorAns clCase a := fun m h =>
  ⟨(cl_outside m a cl_hi).trans h.hi, (cl_outside m a cl_vt).trans h.vt,
    fun c hc => (cl_outside m a (cl_out c hc)).trans (h.objects c hc)⟩

/-- No counterpart in /repo: what a function answers. -/
def clAns (v : W) : Ans := ⟨fun _ => v, fun _ => 0, clLeft, false, false, false⟩

theorem cl_inert (st v : W) : Inert clCase (clAns v) clHook.res st :=
  ⟨cl_keeps rfl st, fun m _ => cl_cur m rfl⟩

/-- No counterpart in /repo: three constructors, the context, the hook, assignment, destructor, the
address of the override value, assignment, no further hook; yes, the original function, assignment,
destructor; no hook; the address of the override value, EndContext, the copy constructor, three
destructors. -/
def clAnswers : List Ans :=
  [clAns 0, clAns 0, clAns 0, clAns 0x5000, clAns 0x5100, clAns 0, clAns 0, clAns 0, clAns 0xff78,
   clAns 0, clAns 0, clAns 1, clAns 0, clAns 0, clAns 0, clAns 0, clAns 0xff78, clAns 0, clAns 0, clAns 0,
   clAns 0, clAns 5]

theorem cl_plays : Plays clCase [clHook] [] clAnswers (some 9) := by
  refine ⟨_, _, _, _, [clAns 0x5100, clAns 0, clAns 0, clAns 0, clAns 0xff78, clAns 0, clAns 0],
    [clAns 1, clAns 0, clAns 0, clAns 0], [clAns 0], _, _, _, _, _, _, rfl, cl_ready _, cl_ready _, cl_ready _,
    ⟨rfl, ?_⟩, ?_, ?_, ?_, ?_⟩
  · intro m h h0
    have e : ∀ c ∈ objects clGen clCtx [clHook], rd clMach.mem c.1 = c.2 := by decide +kernel
    refine ⟨fun c hc => ?_, ?_⟩
    · rcases List.mem_cons.1 hc with rfl | hc'
      · exact cl_entry m rfl
      · exact (cl_outside m _ (cl_out c hc')).trans ((h.objects c hc').trans (e c hc'))
    · rw [cl_status, h0]
  · exact .over (by simp) (by decide) (by decide) (cl_keeps rfl _) rfl
      ⟨cl_keeps rfl _, fun m _ => cl_cur m rfl⟩ (cl_inert _ _) (cl_inert _ _) (by decide)
      (cl_keeps rfl _) (by decide) (cl_keeps rfl _) (.done (cl_keeps rfl _) rfl)
  · exact .called (by decide) (cl_keeps rfl _) (by decide) (cl_keeps rfl _) (cl_keeps rfl _) (cl_keeps rfl _)
  · exact .done (cl_keeps rfl _) rfl
  · exact ⟨cl_keeps rfl _, by decide, cl_keeps rfl _, cl_keeps rfl _, cl_keeps rfl _, cl_keeps rfl _,
      cl_keeps rfl _⟩

/-- The generated code on that caller: the calls, the value of the hook at the place for the result,
and in RAX what the last destructor left there. -/
example : ∃ code, generateHookFunc clGen = some code ∧ ∃ t' s',
    Returns (fun _ => true) clKeep code clMach clAnswers t' (rd rxMem 0x10008) s' [] ∧
    t'.map (·.target) = [0x7100, 0x7100, 0x7100, 0x300, 0x901, 0x888, 0x7400, 0x7300, 0x903, 0x7400,
      0x901, 0x905, 0x41414141, 0x7400, 0x7300, 0x901, 0x903, 0x400, 0x7200, 0x7300, 0x7300, 0x7300] ∧
    lives (fun _ => none) ((wanted clCase [clHook] [] (some 9)).map (·.1))
      = some (Store.set (fun _ => none) 0x9000 (some (some 7))) ∧
    s'.reg 0 = 5 := by
  obtain ⟨code, hc, t', s', hr, ⟨t, ha, hw⟩, hv, ⟨as, d, e, h0⟩, -⟩ := class_results_partial (C := clCtx)
    (H := [clHook]) clGen_ok clGen_class cl_provided cl_out cl_hi cl_vt cl_memret cl_plays []
    (L := fun _ => none) (fun _ _ => rfl)
  refine ⟨code, hc, t', s', ?_, ?_, hv, ?_⟩
  · rw [List.append_nil] at hr
    exact hr
  · have e1 : ∀ {a : List SCall} {b : List Event}, AreCalls (hookStack clGen 0x10008) a b →
        b.map (·.target) = a.map (·.target) := by
      intro a b hab
      induction hab with
      | nil => rfl
      | cons h _ ih => simp [ih, h.target]
    have e2 : ∀ {a : List SCall} {b : List (Want × Option W)}, AreMade clCase a b →
        a.map (·.target) = b.map (·.1.target clCase) := by
      intro a b hab
      induction hab with
      | nil => rfl
      | cons h _ ih => simp [ih, h.target]
    exact (e1 ha).trans ((e2 hw).trans (by decide +kernel))
  · have : clAnswers.getLast? = some d := by rw [e]; simp
    have h5 : clAnswers.getLast? = some (clAns 5) := rfl
    rw [h5] at this
    cases this
    exact h0

example : (places clCase).Nodup := places_nodup clGen_ok clGen_class cl_provided cl_memret

end Verif.Jit.Class

#print axioms Verif.Jit.Class.objects_live
#print axioms Verif.Jit.Class.class_results_partial
#print axioms Verif.Jit.Class.live_refuses
