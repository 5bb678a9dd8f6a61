import Verif.SH.Proto
/-
Property C42: prototype comparison.
-/
namespace Verif.SH

/-- Specification: two pass infos are compatible. -/
structure SpecParamCompat (a b : PassInfo) : Prop where
  size : (if a.flags &&& 2 ≠ 0 then 8 else a.size) = (if b.flags &&& 2 ≠ 0 then 8 else b.size)
  typed : a.type ≠ 0 → b.type ≠ 0 → a.type = b.type ∧ a.flags = b.flags

/-- Specification of compatible prototypes, independent of the loops of the model. -/
structure SpecCompat (a b : Proto) : Prop where
  va : 0 ≤ a.version
  vb : 0 ≤ b.version
  num : a.numParams = b.numParams
  conv : a.convention = 0 ∨ b.convention = 0 ∨ a.convention = b.convention
  ret : (if a.ret.flags &&& 2 ≠ 0 then 8 else a.ret.size) =
        (if b.ret.flags &&& 2 ≠ 0 then 8 else b.ret.size)
  params : ∀ (i : Nat) (p q : PassInfo), a.params[i]? = some p → b.params[i]? = some q →
    SpecParamCompat p q

theorem paramCompat_iff (a b : PassInfo) : paramCompat a b = true ↔ SpecParamCompat a b := by
  unfold paramCompat realSize flagByRef ptrSize
  constructor
  · intro h
    simp only [Bool.and_eq_true, beq_iff_eq] at h
    obtain ⟨h1, h2⟩ := h
    refine ⟨h1, fun ha hb => ?_⟩
    rw [if_pos ⟨ha, hb⟩] at h2
    simpa using h2
  · rintro ⟨h1, h2⟩
    simp only [Bool.and_eq_true, beq_iff_eq]
    refine ⟨h1, ?_⟩
    split
    · next h => have := h2 h.1 h.2; simp [this]
    · rfl

theorem paramLoop_spec (f : PassInfo → PassInfo → Bool) :
    ∀ (n : Nat) (as bs : List PassInfo), n = as.length → n = bs.length →
      ∃ r, paramLoop f n as bs = some r ∧ (r = true ↔
        ∀ (i : Nat) (p q : PassInfo), as[i]? = some p → bs[i]? = some q → f p q = true)
  | 0, [], [], _, _ => ⟨true, rfl, by simp⟩
  | n + 1, a :: as, b :: bs, ha, hb => by
      obtain ⟨r, ih1, ih2⟩ := paramLoop_spec f n as bs (by simpa using ha) (by simpa using hb)
      unfold paramLoop
      by_cases h : f a b = true
      · rw [if_pos h, ih1]
        refine ⟨r, rfl, ?_⟩
        rw [ih2]
        refine ⟨fun H i p q hp hq => ?_, fun H i p q hp hq => ?_⟩
        · cases i with
          | zero => simp at hp hq; subst hp; subst hq; exact h
          | succ i => exact H i p q (by simpa using hp) (by simpa using hq)
        · exact H (i + 1) p q (by simpa using hp) (by simpa using hq)
      · rw [if_neg h]
        refine ⟨false, rfl, ?_⟩
        simp only [Bool.false_eq_true, false_iff]
        intro H
        exact h (H 0 a b rfl rfl)
  | 0, _ :: _, _, h, _ => by simp at h
  | 0, [], _ :: _, _, h => by simp at h
  | _ + 1, [], _, h, _ => by simp at h
  | _ + 1, _ :: _, [], _, h => by simp at h

/-- C42 (decision): on well-formed prototypes the comparison never reads out of bounds and
decides exactly `SpecCompat`. -/
theorem proto_eq_decides (a b : Proto) (ha : a.WF) (hb : b.WF) :
    ∃ r, Proto.eq? a b = some r ∧ (r = true ↔ SpecCompat a b) := by
  unfold Proto.eq?
  by_cases h1 : a.version < 0 ∨ b.version < 0
  · refine ⟨false, by rw [if_pos h1], ?_⟩
    simp only [Bool.false_eq_true, false_iff]
    intro h
    have := h.va; have := h.vb; omega
  rw [if_neg h1]
  by_cases h2 : a.numParams ≠ b.numParams
  · exact ⟨false, by rw [if_pos h2], by simp; intro h; exact h2 h.num⟩
  rw [if_neg h2]
  by_cases h3 : a.convention ≠ 0 ∧ b.convention ≠ 0 ∧ a.convention ≠ b.convention
  · refine ⟨false, by rw [if_pos h3], ?_⟩
    simp only [Bool.false_eq_true, false_iff]
    intro h
    rcases h.conv with h | h | h
    · exact h3.1 h
    · exact h3.2.1 h
    · exact h3.2.2 h
  rw [if_neg h3]
  by_cases h4 : realSize a.ret ≠ realSize b.ret
  · exact ⟨false, by rw [if_pos h4], by simp; intro h; exact h4 h.ret⟩
  rw [if_neg h4]
  have ea : a.numParams.toNat = a.params.length := ha (by omega)
  have eb : a.numParams.toNat = b.params.length := by
    have := hb (by omega); have h2' : a.numParams = b.numParams := by simpa using h2
    rw [h2']; exact this
  obtain ⟨r, hr, hr'⟩ := paramLoop_spec paramCompat _ _ _ ea eb
  refine ⟨r, hr, ?_⟩
  rw [hr']
  constructor
  · intro H
    refine ⟨by omega, by omega, by simpa using h2, ?_, Classical.not_not.mp h4, ?_⟩
    · by_cases c1 : a.convention = 0
      · exact Or.inl c1
      by_cases c2 : b.convention = 0
      · exact Or.inr (Or.inl c2)
      · right; right; apply Classical.byContradiction; intro c3; exact h3 ⟨c1, c2, c3⟩
    · intro i p q hp hq; exact (paramCompat_iff p q).1 (H i p q hp hq)
  · intro H i p q hp hq; exact (paramCompat_iff p q).2 (H.params i p q hp hq)

/-- C42: prototypes built by `CProto::Fill` from a `ProtoInfo` with enough parameter records are
well-formed, and filling never reads out of bounds. -/
theorem proto_fill_wf (old : Proto) (p : ProtoInfo) (h : p.numOfParams.toNat ≤ p.params.length) :
    ∃ q, Proto.fill old p = some q ∧ q.WF := by
  unfold Proto.fill
  split
  · exact ⟨_, rfl, by intro _; simp; omega⟩
  · split
    · exact ⟨_, rfl, by intro _; simp; omega⟩
    · exact ⟨_, rfl, by intro hv; simp at hv⟩

/-- C42: reflexive on valid prototypes. -/
theorem proto_eq_refl (a : Proto) (ha : a.WF) (hv : 0 ≤ a.version) : Proto.eq? a a = some true := by
  obtain ⟨r, h1, h2⟩ := proto_eq_decides a a ha ha
  rw [h1]; congr 1; rw [h2]
  refine ⟨hv, hv, rfl, by simp, rfl, ?_⟩
  intro i p q hp hq
  rw [hp] at hq; cases hq
  exact ⟨rfl, fun _ _ => ⟨rfl, rfl⟩⟩

/-- C42: symmetric. -/
theorem proto_eq_symm (a b : Proto) (ha : a.WF) (hb : b.WF) : Proto.eq? a b = Proto.eq? b a := by
  obtain ⟨r, h1, h2⟩ := proto_eq_decides a b ha hb
  obtain ⟨r', h1', h2'⟩ := proto_eq_decides b a hb ha
  have sym : ∀ x y, SpecCompat x y → SpecCompat y x := by
    intro x y h
    refine ⟨h.vb, h.va, h.num.symm, ?_, h.ret.symm, ?_⟩
    · rcases h.conv with h | h | h
      · exact Or.inr (Or.inl h)
      · exact Or.inl h
      · exact Or.inr (Or.inr h.symm)
    · intro i p q hp hq
      have := h.params i q p hq hp
      exact ⟨this.size.symm, fun h1 h2 => ⟨(this.typed h2 h1).1.symm, (this.typed h2 h1).2.symm⟩⟩
  rw [h1, h1']; congr 1
  have : (r = true ↔ r' = true) := by rw [h2, h2']; exact ⟨sym _ _, sym _ _⟩
  cases r <;> cases r' <;> simp_all

/-- C42: an invalid prototype (version -1) equals nothing, not even itself. -/
theorem proto_invalid_never_equal (a b : Proto) (h : a.version < 0) : Proto.eq? a b = some false := by
  simp [Proto.eq?, h]

/-- C42: prototypes with different parameter counts, different effective sizes, or different known
types/flags are told apart. -/
theorem proto_eq_distinguishes (a b : Proto) (ha : a.WF) (hb : b.WF)
    (h : a.numParams ≠ b.numParams ∨
      ∃ (i : Nat) (p q : PassInfo), a.params[i]? = some p ∧ b.params[i]? = some q ∧ ¬ SpecParamCompat p q) :
    Proto.eq? a b = some false := by
  obtain ⟨r, h1, h2⟩ := proto_eq_decides a b ha hb
  rw [h1]; congr 1
  have : ¬ (r = true) := by
    rw [h2]; intro hc
    rcases h with h | ⟨i, p, q, hp, hq, hn⟩
    · exact h hc.num
    · exact hn (hc.params i p q hp hq)
  simpa using this

/-- The unknown convention is a wildcard, hence the comparison is *not* transitive:
a thiscall prototype equals an unknown one, which equals a cdecl one, but those two differ. -/
theorem proto_eq_not_transitive :
    ∃ a b c : Proto, a.WF ∧ b.WF ∧ c.WF ∧ Proto.eq? a b = some true ∧ Proto.eq? b c = some true ∧
      Proto.eq? a c = some false := by
  refine ⟨⟨1, 0, default, [], 1⟩, ⟨1, 0, default, [], 0⟩, ⟨1, 0, default, [], 2⟩, ?_⟩
  simp [Proto.WF]; decide

/-- C42: exact equality decides equality of all fields except the copy constructor. -/
theorem proto_exactlyEqual_decides (a b : Proto) (ha : a.numParams.toNat = a.params.length)
    (hb : b.numParams.toNat = b.params.length) :
    ∃ r, Proto.exactlyEqual? a b = some r ∧
      (r = true ↔ (a.version = b.version ∧ a.numParams = b.numParams ∧ a.convention = b.convention ∧
        { a.ret with copyCtor := 0 } = { b.ret with copyCtor := 0 } ∧
        a.params.map (fun p => { p with copyCtor := 0 }) =
          b.params.map (fun p => { p with copyCtor := 0 }))) := by
  have eqv_iff : ∀ p q : PassInfo, PassInfo.eqv p q = true ↔
      ({ p with copyCtor := 0 } : PassInfo) = { q with copyCtor := 0 } := by
    intro p q
    cases p; cases q
    simp [PassInfo.eqv, and_assoc]
  unfold Proto.exactlyEqual?
  by_cases h : a.version ≠ b.version ∨ a.numParams ≠ b.numParams ∨ a.convention ≠ b.convention ∨
      PassInfo.eqv a.ret b.ret = false
  · refine ⟨false, by rw [if_pos h], ?_⟩
    simp only [Bool.false_eq_true, false_iff]
    rintro ⟨e1, e2, e3, e4, _⟩
    rcases h with h | h | h | h
    · exact h e1
    · exact h e2
    · exact h e3
    · rw [(eqv_iff _ _).2 e4] at h; cases h
  rw [if_neg h]
  have e2 : a.numParams = b.numParams := by
    apply Classical.byContradiction; intro c; exact h (Or.inr (Or.inl c))
  obtain ⟨r, hr, hr'⟩ := paramLoop_spec PassInfo.eqv _ _ _ ha (by rw [e2]; exact hb)
  refine ⟨r, hr, ?_⟩
  rw [hr']
  have hl : a.params.length = b.params.length := by rw [← ha, ← hb, e2]
  have key : (∀ (i : Nat) (p q : PassInfo), a.params[i]? = some p → b.params[i]? = some q →
      PassInfo.eqv p q = true) ↔
      a.params.map (fun p => ({ p with copyCtor := 0 } : PassInfo)) =
          b.params.map (fun p => { p with copyCtor := 0 }) := by
    constructor
    · intro H
      apply List.ext_getElem?
      intro i
      simp only [List.getElem?_map]
      by_cases hi : i < a.params.length
      · rw [List.getElem?_eq_getElem hi, List.getElem?_eq_getElem (hl ▸ hi)]
        simp only [Option.map_some, Option.some.injEq]
        exact (eqv_iff _ _).1 (H i _ _ (List.getElem?_eq_getElem hi) (List.getElem?_eq_getElem (hl ▸ hi)))
      · rw [List.getElem?_eq_none (by omega), List.getElem?_eq_none (by omega)]
    · intro H i p q hp hq
      have := congrArg (fun l => l[i]?) H
      simp only [List.getElem?_map, hp, hq, Option.map_some, Option.some.injEq] at this
      exact (eqv_iff _ _).2 this
  rw [key]
  constructor
  · intro H
    refine ⟨?_, e2, ?_, ?_, H⟩
    · apply Classical.byContradiction; intro c; exact h (Or.inl c)
    · apply Classical.byContradiction; intro c; exact h (Or.inr (Or.inr (Or.inl c)))
    · apply (eqv_iff _ _).1
      cases hh : PassInfo.eqv a.ret b.ret
      · exact absurd (Or.inr (Or.inr (Or.inr hh))) h
      · rfl
  · rintro ⟨_, _, _, _, H⟩; exact H

/-- Non-vacuity: a two-parameter prototype filled from a version-2 `ProtoInfo`. -/
example : ∃ q, Proto.fill default ⟨2, ⟨4, 1, 1, 0, 0, 0, 0⟩, 1, [⟨4, 1, 1, 0, 0, 0, 0⟩, ⟨99, 3, 2, 0, 0, 0, 0⟩], 1⟩ = some q
    ∧ q.WF ∧ 0 ≤ q.version ∧ Proto.eq? q q = some true := by
  refine ⟨_, rfl, ?_, by decide, by decide⟩
  simp [Proto.WF]

#print axioms proto_eq_decides
#print axioms proto_fill_wf
#print axioms proto_eq_refl
#print axioms proto_eq_symm
#print axioms proto_invalid_never_equal
#print axioms proto_eq_distinguishes
#print axioms proto_eq_not_transitive
#print axioms proto_exactlyEqual_decides
end Verif.SH
