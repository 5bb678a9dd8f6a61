import Verif.Jit.HookAccept
import Verif.Jit.HookProps
/-
C66: which prototypes the 64-bit generator takes, and how a returned value is classified.
-/
namespace Verif.Jit

/-! ## Specification -/

/-- How a value is passed: a type the generator knows, by value or by reference, and for an object
by value every special function it is said to have is given. -/
structure Passable (p : Pass) : Prop where
  type : p.type = 1 ∨ p.type = 2 ∨ p.type = 3
  kind : p.flags.getLsbD 0 = true ∨ p.flags.getLsbD 1 = true
  dtor : p.type = 3 → p.flags.getLsbD 0 = true → p.flags.getLsbD 2 = true → p.dtor ≠ 0
  ctor : p.type = 3 → p.flags.getLsbD 0 = true → p.flags.getLsbD 3 = true → p.ctor ≠ 0
  assign : p.type = 3 → p.flags.getLsbD 0 = true → p.flags.getLsbD 4 = true → p.assign ≠ 0
  cctor : p.type = 3 → p.flags.getLsbD 0 = true → p.flags.getLsbD 5 = true → p.cctor ≠ 0

/-! ## Bits -/

theorem and_twoPow_ne (x : BitVec 32) (i : Nat) (hi : i < 32) :
    (x &&& BitVec.twoPow 32 i != 0) = x.getLsbD i := by
  rw [BitVec.and_twoPow]
  cases h : x.getLsbD i
  · rfl
  · simp
    intro h
    have := congrArg (·.getLsbD i) h
    simp [hi] at this

theorem has_byVal (p : Pass) : p.has flagByVal = p.flags.getLsbD 0 := and_twoPow_ne _ 0 (by omega)
theorem has_byRef (p : Pass) : p.has flagByRef = p.flags.getLsbD 1 := and_twoPow_ne _ 1 (by omega)
theorem has_dtor (p : Pass) : p.has flagODtor = p.flags.getLsbD 2 := and_twoPow_ne _ 2 (by omega)
theorem has_ctor (p : Pass) : p.has flagOCtor = p.flags.getLsbD 3 := and_twoPow_ne _ 3 (by omega)
theorem has_assign (p : Pass) : p.has flagAssignOp = p.flags.getLsbD 4 := and_twoPow_ne _ 4 (by omega)
theorem has_cctor (p : Pass) : p.has flagCCtor = p.flags.getLsbD 5 := and_twoPow_ne _ 5 (by omega)

theorem byVal_or_byRef (x : BitVec 32) :
    (x &&& (flagByVal ||| flagByRef) != 0) = (x.getLsbD 0 || x.getLsbD 1) := by
  have h0 := and_twoPow_ne x 0 (by omega)
  have h1 := and_twoPow_ne x 1 (by omega)
  rw [← h0, ← h1]
  have e : x &&& (flagByVal ||| flagByRef)
      = (x &&& BitVec.twoPow 32 0) ||| (x &&& BitVec.twoPow 32 1) := by
    rw [← BitVec.and_or_distrib_left]; rfl
  rw [e, Bool.eq_iff_iff]
  simp only [bne_iff_ne, ne_eq, Bool.or_eq_true]
  constructor
  · intro h
    by_cases h' : x &&& BitVec.twoPow 32 0 = 0
    · right
      intro h''
      exact h (by rw [h', h'']; rfl)
    · exact Or.inl h'
  · rintro (h | h) h'
    · exact h (by
        have := congrArg (· &&& BitVec.twoPow 32 0) h'
        simp only [BitVec.and_or_distrib_right, BitVec.and_assoc] at this
        simp at this
        exact this.1)
    · exact h (by
        have := congrArg (· &&& BitVec.twoPow 32 1) h'
        simp only [BitVec.and_or_distrib_right, BitVec.and_assoc] at this
        simp at this
        exact this.2)

/-! ## Theorems -/

theorem supported_iff (p : Pass) : supported p = true ↔ Passable p := by
  unfold supported
  rw [byVal_or_byRef, has_byVal, has_dtor, has_ctor, has_assign, has_cctor]
  constructor
  · intro h
    split at h
    · cases h
    · rename_i h1
      split at h
      · cases h
      · rename_i h2
        rw [Bool.or_eq_true] at h
        refine ⟨?_, h, ?_, ?_, ?_, ?_⟩
        · simp only [typeBasic, typeFloat, typeObject] at h1; omega
        · intro a b c d; exact h2 ⟨a, b, .inr (.inl ⟨c, d⟩)⟩
        · intro a b c d; exact h2 ⟨a, b, .inr (.inr (.inr ⟨c, d⟩))⟩
        · intro a b c d; exact h2 ⟨a, b, .inr (.inr (.inl ⟨c, d⟩))⟩
        · intro a b c d; exact h2 ⟨a, b, .inl ⟨c, d⟩⟩
  · intro h
    have ht := h.type
    rw [if_neg (by simp only [typeBasic, typeFloat, typeObject]; omega), if_neg, Bool.or_eq_true]
    · exact h.kind
    · rintro ⟨a, b, (⟨c, d⟩ | ⟨c, d⟩ | ⟨c, d⟩ | ⟨c, d⟩)⟩
      · exact h.cctor a b c d
      · exact h.dtor a b c d
      · exact h.assign a b c d
      · exact h.ctor a b c d

/-- `AutoDetectRetType` changes only the two flags for where a value is returned. -/
theorem autoDetect_only (p : Pass) (i : Nat) (h6 : i ≠ 6) (h7 : i ≠ 7) :
    (autoDetect p).getLsbD i = p.flags.getLsbD i := by
  have e6 : flagRetMem = BitVec.twoPow 32 6 := rfl
  have e7 : flagRetReg = BitVec.twoPow 32 7 := rfl
  have k : ∀ x : BitVec 32, ((x &&& ~~~flagRetMem) ||| flagRetReg).getLsbD i = x.getLsbD i := by
    intro x
    rw [e6, e7]
    simp only [BitVec.getLsbD_or, BitVec.getLsbD_and, BitVec.getLsbD_not, BitVec.getLsbD_twoPow]
    by_cases hi : i < 32
    · simp [hi, h6.symm, h7.symm]
    · simp [hi, h6.symm, h7.symm, BitVec.getLsbD_of_ge x i (by omega)]
  have k' : ∀ x : BitVec 32, ((x &&& ~~~flagRetReg) ||| flagRetMem).getLsbD i = x.getLsbD i := by
    intro x
    rw [e6, e7]
    simp only [BitVec.getLsbD_or, BitVec.getLsbD_and, BitVec.getLsbD_not, BitVec.getLsbD_twoPow]
    by_cases hi : i < 32
    · simp [hi, h6.symm, h7.symm]
    · simp [hi, h6.symm, h7.symm, BitVec.getLsbD_of_ge x i (by omega)]
  have k6 : ∀ x : BitVec 32, (x ||| flagRetMem).getLsbD i = x.getLsbD i := by
    intro x
    rw [e6, BitVec.getLsbD_or, BitVec.getLsbD_twoPow]
    simp [h6.symm]
  have k7 : ∀ x : BitVec 32, (x ||| flagRetReg).getLsbD i = x.getLsbD i := by
    intro x
    rw [e7, BitVec.getLsbD_or, BitVec.getLsbD_twoPow]
    simp [h7.symm]
  unfold autoDetect
  by_cases h1 : p.size = 0
  · rw [if_pos h1]
  rw [if_neg h1]
  by_cases h2 : p.has flagByVal = true
  · rw [if_pos h2]
    by_cases h3 : p.type = typeBasic ∨ p.type = typeFloat
    · rw [if_pos h3]
      by_cases h4 : p.size ≤ 8
      · rw [if_pos h4]; exact k _
      · rw [if_neg h4]; exact k' _
    · rw [if_neg h3]
      by_cases h4 : p.type = typeObject
      · rw [if_pos h4]
        by_cases h5 : p.flags &&& (flagRetMem ||| flagRetReg) = 0
        · rw [if_pos h5]
          simp only
          split
          · exact k6 _
          · exact k7 _
        · rw [if_neg h5]
      · rw [if_neg h4]
  · rw [if_neg h2]; exact k _

/-- **C66.** A prototype is taken exactly if its version is known, it is a member function, its
returned value (if any) and each parameter can be passed. -/
theorem accepts_iff (p : Proto) : accepts p = true ↔
    1 ≤ p.version ∧ p.convention &&& ~~~(0x30000 : BitVec 32) = 1 ∧
    (p.ret.size ≠ 0 → Passable p.ret) ∧ ∀ q ∈ p.params, Passable q := by
  have hret : Passable p.detected.ret ↔ Passable p.ret := by
    have f : ∀ i, i ≠ 6 → i ≠ 7 → p.detected.ret.flags.getLsbD i = p.ret.flags.getLsbD i :=
      autoDetect_only p.ret
    constructor
    · intro ⟨a, b, c, d, e, g⟩
      rw [f 0 (by omega) (by omega)] at b c d e g
      rw [f 1 (by omega) (by omega)] at b
      rw [f 2 (by omega) (by omega)] at c
      rw [f 3 (by omega) (by omega)] at d
      rw [f 4 (by omega) (by omega)] at e
      rw [f 5 (by omega) (by omega)] at g
      exact ⟨a, b, c, d, e, g⟩
    · intro ⟨a, b, c, d, e, g⟩
      rw [← f 0 (by omega) (by omega)] at b c d e g
      rw [← f 1 (by omega) (by omega)] at b
      rw [← f 2 (by omega) (by omega)] at c
      rw [← f 3 (by omega) (by omega)] at d
      rw [← f 4 (by omega) (by omega)] at e
      rw [← f 5 (by omega) (by omega)] at g
      exact ⟨a, b, c, d, e, g⟩
  unfold accepts
  constructor
  · intro h
    split at h
    · cases h
    · rename_i h1
      simp only at h
      split at h
      · cases h
      · rename_i h2
        split at h
        · cases h
        · rename_i h3
          rw [List.all_eq_true] at h
          refine ⟨by omega, Decidable.not_not.mp h2, fun hz => ?_, fun q hq => (supported_iff q).mp (h q hq)⟩
          rw [← hret, ← supported_iff]
          cases hs : supported p.detected.ret
          · exact absurd ⟨hz, hs⟩ h3
          · rfl
  · rintro ⟨h1, h2, h3, h4⟩
    rw [if_neg (by omega)]
    simp only
    rw [if_neg (fun h => h h2), if_neg, List.all_eq_true]
    · exact fun q hq => (supported_iff q).mpr (h4 q hq)
    · rintro ⟨hz, hs⟩
      rw [(supported_iff _).mpr (hret.mpr (h3 hz))] at hs
      cases hs

/-- **C66.** Numbers and references are returned in a register, whatever the plugin says, unless
they are larger than a register. -/
theorem autoDetect_register (p : Pass) (hz : p.size ≠ 0)
    (h : p.flags.getLsbD 0 = false ∨ ((p.type = 1 ∨ p.type = 2) ∧ p.size ≤ 8)) :
    (autoDetect p).getLsbD 6 = false ∧ (autoDetect p).getLsbD 7 = true := by
  have k : ∀ x : BitVec 32, ((x &&& ~~~flagRetMem) ||| flagRetReg).getLsbD 6 = false ∧
      ((x &&& ~~~flagRetMem) ||| flagRetReg).getLsbD 7 = true := by
    intro x
    simp
  unfold autoDetect
  rw [if_neg hz, has_byVal]
  split
  · rename_i hv
    rcases h with h | ⟨ht, hs⟩
    · rw [h] at hv; cases hv
    · rw [if_pos ht, if_pos hs]
      exact k _
  · exact k _

/-- **C66.** A number larger than a register is returned in memory. -/
theorem autoDetect_memory (p : Pass) (hv : p.flags.getLsbD 0 = true) (ht : p.type = 1 ∨ p.type = 2)
    (hs : 8 < p.size) : (autoDetect p).getLsbD 6 = true ∧ (autoDetect p).getLsbD 7 = false := by
  unfold autoDetect
  rw [if_neg (by omega), has_byVal, if_pos hv, if_pos ht, if_neg (by omega)]
  simp

/-- **C66.** For an object by value what the plugin says holds. -/
theorem autoDetect_said (p : Pass) (hv : p.flags.getLsbD 0 = true) (ht : p.type = 3)
    (h : p.flags.getLsbD 6 = true ∨ p.flags.getLsbD 7 = true) : autoDetect p = p.flags := by
  have hf : ¬ p.flags &&& (flagRetMem ||| flagRetReg) = 0 := by
    intro h0
    have h6 := congrArg (·.getLsbD 6) h0
    have h7 := congrArg (·.getLsbD 7) h0
    simp at h6 h7
    rcases h with h | h
    · rw [BitVec.getLsbD_eq_getElem (by omega), h6] at h; cases h
    · rw [BitVec.getLsbD_eq_getElem (by omega), h7] at h; cases h
  unfold autoDetect
  by_cases hz : p.size = 0
  · rw [if_pos hz]
  · rw [if_neg hz, has_byVal, if_pos hv, ht, if_neg (by decide), if_pos rfl, if_neg hf]

theorem paramsIn_length (s : Mach) (ps : List Pass) : ∀ i, (paramsIn s i ps).length = ps.length := by
  induction ps with
  | nil => intro i; rfl
  | cons p ps ih => intro i; simp [paramsIn, ih]

/-- **C66**, a departure: a function with a format and variable arguments is taken, but its hooks
are called with the fixed parameters only; the 32-bit generator adds the formatted text
(core/sourcehook/sourcehook_hookmangen_x86.cpp:984-992), which is a parameter of such a hook. -/
theorem vafmt_dropped (p : Proto) (h : accepts p = true) :
    accepts { p with convention := 1 ||| 0x30000 } = true ∧
    ∀ (Wd : World) (V : Vars) (g : Gen) (D : Intent) (it : W) (s : Mach) (m m' : Memory)
      (ans rest : List Ans) (t : List SCall), g.params = p.params →
      hookOne Wd V g D it (paramsIn s (firstReg g.ret) g.params) m ans = some ((), m', rest, t) →
      ∃ c t', t = c :: t' ∧
        c.args.length = 1 + (if hiddenPtr g then 1 else 0) + p.params.length := by
  refine ⟨?_, ?_⟩
  · rw [accepts_iff] at h ⊢
    exact ⟨h.1, show (1 ||| 0x30000 : BitVec 32) &&& ~~~(0x30000 : BitVec 32) = 1 by decide, h.2.2⟩
  · intro Wd V g D it s m m' ans rest t hg e
    unfold hookOne at e
    obtain ⟨_, m₁, as₁, t₁, t₂, e₁, h₁, rfl⟩ := bind_some e
    obtain ⟨_, m₂, as₂, t₃, t₄, e₂, h₂, rfl⟩ := bind_some h₁
    obtain ⟨a, m₃, as₃, t₅, t₆, e₃, h₃, rfl⟩ := bind_some h₂
    obtain ⟨rfl, rfl, rfl⟩ := save_some e₁
    have ht : t₃ = [] := by
      unfold when' at e₂
      split at e₂
      · exact (setPrev_some e₂).2.2
      · cases e₂; rfl
    subst ht
    obtain ⟨-, f, rfl⟩ := virt_some e₃
    refine ⟨_, _, rfl, ?_⟩
    simp only [withPlace, List.length_cons, List.length_append, paramsIn_length, hg]
    split <;> simp <;> omega

/-! ### The hypotheses are met -/

/-- `void f(const char *fmt, ...)`. -/
def exVafmt : Proto := ⟨1, 0x30001, ⟨0, 0, 0, 0, 0, 0, 0⟩, [⟨8, 1, 1, 0, 0, 0, 0⟩]⟩

example : accepts exVafmt = true := by decide
example : 1 ≤ exVafmt.version := ((accepts_iff exVafmt).mp (by decide)).1
example : accepts { exVafmt with params := [⟨4, 3, 1 ||| 4, 0, 0, 0, 0⟩] } = false := by decide
example : (autoDetect ⟨4, 2, 1 ||| 64, 0, 0, 0, 0⟩).getLsbD 6 = false :=
  (autoDetect_register _ (by decide) (.inr ⟨.inr rfl, by decide⟩)).1
example : (autoDetect ⟨16, 1, 1 ||| 128, 0, 0, 0, 0⟩).getLsbD 6 = true :=
  (autoDetect_memory _ (by decide) (.inl rfl) (by decide)).1
example : autoDetect ⟨4, 3, 1 ||| 128, 0, 0, 0, 0⟩ = 1 ||| 128 :=
  autoDetect_said _ (by decide) rfl (by decide)

end Verif.Jit

#print axioms Verif.Jit.accepts_iff
#print axioms Verif.Jit.autoDetect_only
#print axioms Verif.Jit.autoDetect_register
#print axioms Verif.Jit.autoDetect_memory
#print axioms Verif.Jit.autoDetect_said
#print axioms Verif.Jit.vafmt_dropped
