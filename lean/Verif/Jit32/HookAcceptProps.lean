import Verif.Jit32.HookAccept
import Verif.Jit.HookAcceptProps
/-
C75: which prototypes the 32-bit generator takes, how a returned value and a parameter are
classified, how the stack is aligned and how the variables of the hook function are laid out.
-/
namespace Verif.Jit32

open Verif.Jit (flagByVal flagByRef flagODtor flagOCtor flagAssignOp flagCCtor
  flagRetMem flagRetReg typeBasic typeFloat typeObject convThisCall and_twoPow_ne byVal_or_byRef)

/-! ## Specification -/

/-- Specification: how a value is passed: a type the generator knows, by value or by reference, and
for an object by value every special function it is said to have is given.  The bits are those of
core/sourcehook/sourcehook.h:198-212. -/
structure Passable (p : Pass) : Prop where
  type : p.type = 1 ∨ p.type = 2 ∨ p.type = 3
  kind : p.flags.getLsbD 0 = true ∨ p.flags.getLsbD 1 = true
  dtor : p.type = 3 → p.flags.getLsbD 0 = true → p.flags.getLsbD 2 = true → p.dtor ≠ 0
  ctor : p.type = 3 → p.flags.getLsbD 0 = true → p.flags.getLsbD 3 = true → p.ctor ≠ 0
  assign : p.type = 3 → p.flags.getLsbD 0 = true → p.flags.getLsbD 4 = true → p.assign ≠ 0
  cctor : p.type = 3 → p.flags.getLsbD 0 = true → p.flags.getLsbD 5 = true → p.cctor ≠ 0

/-- Specification: bytes of the stack taken by the parameters, each in whole words; an object the
convention passes by reference takes one word. -/
def slots (ps : List Pass) : Nat :=
  (ps.map fun p => if p.flags.getLsbD 1 = true ∨ p.flags.getLsbD 30 = true then 4
    else (p.size + 3) / 4 * 4).sum

/-! ## Bits -/

theorem has_byVal (p : Pass) : p.has flagByVal = p.flags.getLsbD 0 := and_twoPow_ne _ 0 (by omega)
theorem has_byRef (p : Pass) : p.has flagByRef = p.flags.getLsbD 1 := and_twoPow_ne _ 1 (by omega)
theorem has_dtor (p : Pass) : p.has flagODtor = p.flags.getLsbD 2 := and_twoPow_ne _ 2 (by omega)
theorem has_ctor (p : Pass) : p.has flagOCtor = p.flags.getLsbD 3 := and_twoPow_ne _ 3 (by omega)
theorem has_assign (p : Pass) : p.has flagAssignOp = p.flags.getLsbD 4 := and_twoPow_ne _ 4 (by omega)
theorem has_cctor (p : Pass) : p.has flagCCtor = p.flags.getLsbD 5 := and_twoPow_ne _ 5 (by omega)
theorem has_retMem (p : Pass) : p.has flagRetMem = p.flags.getLsbD 6 := and_twoPow_ne _ 6 (by omega)
theorem has_retReg (p : Pass) : p.has flagRetReg = p.flags.getLsbD 7 := and_twoPow_ne _ 7 (by omega)
theorem has_forced (p : Pass) : p.has flagForced = p.flags.getLsbD 30 := and_twoPow_ne _ 30 (by omega)

theorem or_bits (x a b : BitVec 32) :
    (x &&& (a ||| b) != 0) = ((x &&& a != 0) || (x &&& b != 0)) := by
  rw [BitVec.and_or_distrib_left, Bool.eq_iff_iff]
  simp only [bne_iff_ne, ne_eq, Bool.or_eq_true]
  constructor
  · intro h
    by_cases h' : x &&& a = 0
    · right
      intro h''
      exact h (by rw [h', h'']; rfl)
    · exact Or.inl h'
  · intro h h'
    have e : ∀ i, (x &&& a).getLsbD i = false ∧ (x &&& b).getLsbD i = false := by
      intro i
      have := congrArg (·.getLsbD i) h'
      rw [show (0 : BitVec 32).getLsbD i = false from BitVec.getLsbD_zero] at this
      simpa only [BitVec.getLsbD_or, Bool.or_eq_false_iff] using this
    rcases h with h | h
    · exact h (BitVec.eq_of_getLsbD_eq fun i _ => by rw [(e i).1]; exact BitVec.getLsbD_zero.symm)
    · exact h (BitVec.eq_of_getLsbD_eq fun i _ => by rw [(e i).2]; exact BitVec.getLsbD_zero.symm)

theorem has_ref (p : Pass) :
    p.has (flagByRef ||| flagForced) = (p.flags.getLsbD 1 || p.flags.getLsbD 30) := by
  rw [← has_byRef, ← has_forced]
  exact or_bits _ _ _

theorem has_special (p : Pass) :
    p.has (flagODtor ||| flagAssignOp) = (p.flags.getLsbD 2 || p.flags.getLsbD 4) := by
  rw [← has_dtor, ← has_assign]
  exact or_bits _ _ _

/-! ## Theorems -/

theorem supported_iff (p : Pass) : supported p = true ↔ Passable p := by
  unfold supported
  rw [byVal_or_byRef, has_byVal, has_dtor, has_ctor, has_assign, has_cctor]
  constructor
  · intro h
    split at h
    · cases h
    · rename_i h1
      split at h
      · cases h
      · rename_i h2
        rw [Bool.or_eq_true] at h
        refine ⟨?_, h, ?_, ?_, ?_, ?_⟩
        · simp only [typeBasic, typeFloat, typeObject] at h1; omega
        · intro a b c d; exact h2 ⟨a, b, .inr (.inl ⟨c, d⟩)⟩
        · intro a b c d; exact h2 ⟨a, b, .inr (.inr (.inr ⟨c, d⟩))⟩
        · intro a b c d; exact h2 ⟨a, b, .inr (.inr (.inl ⟨c, d⟩))⟩
        · intro a b c d; exact h2 ⟨a, b, .inl ⟨c, d⟩⟩
  · intro h
    have ht := h.type
    rw [if_neg (by simp only [typeBasic, typeFloat, typeObject]; omega), if_neg, Bool.or_eq_true]
    · exact h.kind
    · rintro ⟨a, b, (⟨c, d⟩ | ⟨c, d⟩ | ⟨c, d⟩ | ⟨c, d⟩)⟩
      · exact h.cctor a b c d
      · exact h.dtor a b c d
      · exact h.assign a b c d
      · exact h.ctor a b c d

/-- `AutoDetectRetType` changes only the two flags for where a value is returned. -/
theorem autoDetect_only (p : Pass) (i : Nat) (h6 : i ≠ 6) (h7 : i ≠ 7) :
    (autoDetect p).getLsbD i = p.flags.getLsbD i := by
  have e6 : flagRetMem = BitVec.twoPow 32 6 := rfl
  have e7 : flagRetReg = BitVec.twoPow 32 7 := rfl
  have k : ∀ x : BitVec 32, ((x &&& ~~~flagRetMem) ||| flagRetReg).getLsbD i = x.getLsbD i := by
    intro x
    rw [e6, e7]
    simp only [BitVec.getLsbD_or, BitVec.getLsbD_and, BitVec.getLsbD_not, BitVec.getLsbD_twoPow]
    by_cases hi : i < 32
    · simp [hi, h6.symm, h7.symm]
    · simp [hi, h6.symm, h7.symm, BitVec.getLsbD_of_ge x i (by omega)]
  have k' : ∀ x : BitVec 32, ((x &&& ~~~flagRetReg) ||| flagRetMem).getLsbD i = x.getLsbD i := by
    intro x
    rw [e6, e7]
    simp only [BitVec.getLsbD_or, BitVec.getLsbD_and, BitVec.getLsbD_not, BitVec.getLsbD_twoPow]
    by_cases hi : i < 32
    · simp [hi, h6.symm, h7.symm]
    · simp [hi, h6.symm, h7.symm, BitVec.getLsbD_of_ge x i (by omega)]
  have k6 : ∀ x : BitVec 32, (x ||| flagRetMem).getLsbD i = x.getLsbD i := by
    intro x
    rw [e6, BitVec.getLsbD_or, BitVec.getLsbD_twoPow]
    simp [h6.symm]
  unfold autoDetect
  by_cases h2 : p.has flagByVal = true
  · rw [if_pos h2]
    by_cases h3 : p.type = typeBasic ∨ p.type = typeFloat
    · rw [if_pos h3]
      by_cases h4 : p.size ≤ 8
      · rw [if_pos h4]; exact k _
      · rw [if_neg h4]; exact k' _
    · rw [if_neg h3]
      by_cases h4 : p.type = typeObject
      · rw [if_pos h4]
        by_cases h5 : p.flags &&& (flagRetMem ||| flagRetReg) = 0
        · rw [if_pos h5]; exact k6 _
        · rw [if_neg h5]
      · rw [if_neg h4]
  · rw [if_neg h2]; exact k _

/-- **C75.** `AutoDetectParamFlags` changes no flag but its own, and sets that one exactly for an
object by value that is said to have a destructor (or where it was set already). -/
theorem forceRef_bits (p : Pass) (i : Nat) : (forceRef p).getLsbD i =
    (p.flags.getLsbD i || (decide (i = 30) && (decide (p.type = 3) && p.flags.getLsbD 0 &&
      p.flags.getLsbD 2))) := by
  unfold forceRef
  rw [has_byVal, has_dtor]
  have e : flagForced = BitVec.twoPow 32 30 := rfl
  by_cases h : p.type = typeObject ∧ p.flags.getLsbD 0 = true ∧ p.flags.getLsbD 2 = true
  · rw [if_pos h, e, BitVec.getLsbD_or, BitVec.getLsbD_twoPow, h.2.1, h.2.2]
    have : p.type = 3 := h.1
    by_cases hi : i = 30
    · simp [hi, this]
    · simp [hi, Ne.symm hi]
  · rw [if_neg h]
    have : (decide (p.type = 3) && p.flags.getLsbD 0 && p.flags.getLsbD 2) = false := by
      cases h0 : p.flags.getLsbD 0 <;> cases h2 : p.flags.getLsbD 2 <;> simp
      intro h3
      exact h ⟨h3, h0, h2⟩
    rw [this, Bool.and_false, Bool.or_false]

theorem passable_flags (p : Pass) (f : BitVec 32) (h : ∀ i < 6, f.getLsbD i = p.flags.getLsbD i) :
    Passable { p with flags := f } ↔ Passable p := by
  have h0 := h 0 (by omega)
  have h1 := h 1 (by omega)
  have h2 := h 2 (by omega)
  have h3 := h 3 (by omega)
  have h4 := h 4 (by omega)
  have h5 := h 5 (by omega)
  constructor
  · intro ⟨a, b, c, d, e, g⟩
    simp only [h0, h1, h2, h3, h4, h5] at b c d e g
    exact ⟨a, b, c, d, e, g⟩
  · intro ⟨a, b, c, d, e, g⟩
    refine ⟨a, ?_, ?_, ?_, ?_, ?_⟩ <;> simp only [h0, h1, h2, h3, h4, h5] <;> assumption

/-- **C75.** A prototype is taken exactly if its version is known, it is a member function, its
returned value (if any) and each parameter can be passed. -/
theorem accepts_iff (p : Proto) : accepts p = true ↔
    1 ≤ p.version ∧ p.convention &&& ~~~(0x30000 : BitVec 32) = 1 ∧
    (p.ret.size ≠ 0 → Passable p.ret) ∧ ∀ q ∈ p.params, Passable q := by
  have hret : Passable p.detected.ret ↔ Passable p.ret :=
    passable_flags p.ret _ fun i hi => autoDetect_only p.ret i (by omega) (by omega)
  have hpar : (∀ q ∈ p.detected.params, Passable q) ↔ ∀ q ∈ p.params, Passable q := by
    have k : ∀ q : Pass, Passable { q with flags := forceRef q } ↔ Passable q := fun q =>
      passable_flags q _ fun i hi => by
        rw [forceRef_bits, decide_eq_false (show ¬ i = 30 by omega), Bool.false_and, Bool.or_false]
    simp only [Proto.detected, List.mem_map]
    constructor
    · intro h q hq
      exact (k q).mp (h _ ⟨q, hq, rfl⟩)
    · rintro h _ ⟨q, hq, rfl⟩
      exact (k q).mpr (h q hq)
  unfold accepts
  constructor
  · intro h
    split at h
    · cases h
    · rename_i h1
      simp only at h
      split at h
      · cases h
      · rename_i h2
        split at h
        · cases h
        · rename_i h3
          rw [List.all_eq_true] at h
          refine ⟨by omega, Decidable.not_not.mp h2, fun hz => ?_,
            hpar.mp fun q hq => (supported_iff q).mp (h q hq)⟩
          rw [← hret, ← supported_iff]
          cases hs : supported p.detected.ret
          · exact absurd ⟨hz, hs⟩ h3
          · rfl
  · rintro ⟨h1, h2, h3, h4⟩
    rw [if_neg (by omega)]
    simp only
    rw [if_neg (fun h => h h2), if_neg, List.all_eq_true]
    · exact fun q hq => (supported_iff q).mpr (hpar.mpr h4 q hq)
    · rintro ⟨hz, hs⟩
      rw [(supported_iff _).mpr (hret.mpr (h3 hz))] at hs
      cases hs

/-- **C75.** Numbers of at most 8 bytes and references are returned in registers, whatever the plugin
says. -/
theorem autoDetect_register (p : Pass)
    (h : p.flags.getLsbD 0 = false ∨ ((p.type = 1 ∨ p.type = 2) ∧ p.size ≤ 8)) :
    (autoDetect p).getLsbD 6 = false ∧ (autoDetect p).getLsbD 7 = true := by
  have k : ∀ x : BitVec 32, ((x &&& ~~~flagRetMem) ||| flagRetReg).getLsbD 6 = false ∧
      ((x &&& ~~~flagRetMem) ||| flagRetReg).getLsbD 7 = true := by
    intro x
    simp
  unfold autoDetect
  rw [has_byVal]
  split
  · rename_i hv
    rcases h with h | ⟨ht, hs⟩
    · rw [h] at hv; cases hv
    · rw [if_pos ht, if_pos hs]
      exact k _
  · exact k _

/-- **C75.** A larger number is returned in memory. -/
theorem autoDetect_memory (p : Pass) (hv : p.flags.getLsbD 0 = true) (ht : p.type = 1 ∨ p.type = 2)
    (hs : 8 < p.size) : (autoDetect p).getLsbD 6 = true ∧ (autoDetect p).getLsbD 7 = false := by
  unfold autoDetect
  rw [has_byVal, if_pos hv, if_pos ht, if_neg (by omega)]
  simp

/-- **C75.** For an object by value what the plugin says holds. -/
theorem autoDetect_said (p : Pass) (hv : p.flags.getLsbD 0 = true) (ht : p.type = 3)
    (h : p.flags.getLsbD 6 = true ∨ p.flags.getLsbD 7 = true) : autoDetect p = p.flags := by
  have hf : ¬ p.flags &&& (flagRetMem ||| flagRetReg) = 0 := by
    intro h0
    have h6 := congrArg (·.getLsbD 6) h0
    have h7 := congrArg (·.getLsbD 7) h0
    simp at h6 h7
    rcases h with h | h
    · rw [BitVec.getLsbD_eq_getElem (by omega), h6] at h; cases h
    · rw [BitVec.getLsbD_eq_getElem (by omega), h7] at h; cases h
  unfold autoDetect
  rw [has_byVal, if_pos hv, ht, if_neg (by decide), if_pos rfl, if_neg hf]

/-- **C75.** An object by value about which the plugin says nothing is returned in memory, as GCC
does on Linux. -/
theorem autoDetect_object (p : Pass) (hv : p.flags.getLsbD 0 = true) (ht : p.type = 3)
    (h6 : p.flags.getLsbD 6 = false) (h7 : p.flags.getLsbD 7 = false) :
    (autoDetect p).getLsbD 6 = true ∧ (autoDetect p).getLsbD 7 = false := by
  have hf : p.flags &&& (flagRetMem ||| flagRetReg) = 0 := by
    have := or_bits p.flags flagRetMem flagRetReg
    have a : (p.flags &&& flagRetMem != 0) = false := (has_retMem p).trans h6
    have b : (p.flags &&& flagRetReg != 0) = false := (has_retReg p).trans h7
    rw [a, b] at this
    simpa using this
  unfold autoDetect
  rw [has_byVal, if_pos hv, ht, if_neg (by decide), if_pos rfl, if_pos hf]
  have e6 : flagRetMem = BitVec.twoPow 32 6 := rfl
  rw [e6]
  simp only [BitVec.getLsbD_or, BitVec.getLsbD_twoPow, h7]
  simp

/-! ### Sizes -/

theorem align4_eq (n : Nat) : align4 n = (n + 3) / 4 * 4 := by
  unfold align4
  split <;> omega

theorem stackSize_eq (p : Pass) : stackSize p =
    if p.flags.getLsbD 1 = true ∨ p.flags.getLsbD 30 = true then 4 else (p.size + 3) / 4 * 4 := by
  unfold stackSize realSize
  rw [has_ref, align4_eq]
  by_cases h : p.flags.getLsbD 1 = true ∨ p.flags.getLsbD 30 = true
  · rw [if_pos h, if_pos (by simpa using h)]
  · rw [if_neg h, if_neg (by simpa using h)]

theorem stackSize_mod (p : Pass) : stackSize p % 4 = 0 := by
  rw [stackSize_eq]
  split <;> omega

theorem slots_cons (p : Pass) (ps : List Pass) : slots (p :: ps) = stackSize p + slots ps := by
  rw [stackSize_eq]; rfl

theorem i16_bmod (k : Int) : i16 k = k.bmod 65536 := by
  unfold i16
  rw [BitVec.toInt_ofInt]

theorem total_foldl (ps : List Pass) : ∀ a : Int,
    ps.foldl (fun acc p => i16 (acc + stackSize p)) (i16 a) = i16 (a + slots ps) := by
  induction ps with
  | nil => intro a; simp [slots]
  | cons p ps ih =>
    intro a
    rw [List.foldl_cons, slots_cons]
    have : i16 (i16 a + stackSize p) = i16 (a + stackSize p) := by
      rw [i16_bmod, i16_bmod a, i16_bmod, Int.bmod_add_bmod]
    rw [this, ih]
    congr 1
    omega

/-- **C75.** The size of the parameters is computed modulo 2¹⁶, as a signed number. -/
theorem totalSize_eq (ps : List Pass) : totalSize ps = (slots ps : Int).bmod 65536 := by
  have := total_foldl ps 0
  rw [i16_bmod 0] at this
  rw [i16_bmod] at this
  simpa [totalSize] using this

/-- **C75.** Below 32 KB of parameters it is exact. -/
theorem totalSize_small (ps : List Pass) (h : slots ps < 32768) : totalSize ps = slots ps := by
  rw [totalSize_eq]
  simp only [Int.bmod]
  split <;> omega

/-- **C75**, a departure: 32 KB of parameters give a negative size, and the generator accepts them.
With such a size the address of the variable arguments and the alignment are wrong. -/
theorem totalSize_wraps : ∃ p : Proto, accepts p = true ∧ totalSize p.params < 0 ∧
    slots p.params = 32768 :=
  ⟨⟨1, 1, ⟨0, 0, 0, 0, 0, 0, 0⟩, [⟨32768, 3, 1, 0, 0, 0, 0⟩]⟩, by decide, by decide, by decide⟩

/-! ### Alignment -/

/-- **C75.** With `pushed` bytes on the stack below an aligned place and `n` bytes to be pushed, the
gap makes the whole a multiple of 16, and is the smallest that does. -/
theorem alignBytes_spec (pushed n : Int) (hp : 0 ≤ pushed) (hp' : pushed < 16) (hn : 0 ≤ n) :
    (pushed + alignBytes pushed n + n) % 16 = 0 ∧ 0 ≤ alignBytes pushed n ∧
    alignBytes pushed n < 16 := by
  unfold alignBytes
  rw [Int.tmod_eq_emod_of_nonneg hn]
  simp only
  split
  · split
    · rename_i h
      rw [Int.tmod_eq_emod_of_nonneg (by omega)]
      omega
    · omega
  · split
    · rename_i h
      rw [Int.tmod_eq_emod_of_nonneg (by omega)]
      omega
    · omega

/-- **C75**, a departure: with 16 bytes pushed and nothing to come the gap is 16, not 0.  The
generator never asks this. -/
theorem alignBytes_sixteen : alignBytes 16 0 = 16 := by decide

/-! ### The frame -/

/-- Specification: the variables of the hook function that are used, with their sizes (comment at
core/sourcehook/sourcehook_hookmangen_x86.cpp:1381-1415); -20 is the unused `v_iter`. -/
def variables (g : Gen) : List (Int × Int) :=
  [(vEntry, 4), (vStatus, 4), (vPrev, 4), (vCur, 4), (-20, 4), (vCtx, 4)]
  ++ (if g.ret.size ≠ 0 then [((frame g).retPtr, 4), ((frame g).orig, (stackSize g.ret : Int)),
      ((frame g).override, (stackSize g.ret : Int)), ((frame g).plugin, (stackSize g.ret : Int))] else [])
  ++ (if g.temp then [((frame g).temp, (stackSize g.ret : Int))] else [])
  ++ (if fbrrSize g.params ≠ 0 then [((frame g).fbrr, fbrrSize g.params)] else [])
  ++ (if g.varArgs then [((frame g).vaArg, 4)] else [])
  ++ (if g.vafmt then [((frame g).vaBuf, 4096)] else [])

/-- Each variable lies right below the one before. -/
def Packed : Int → List (Int × Int) → Int → Prop
  | o, [], e => o = e
  | o, v :: vs, e => v.1 = o - v.2 ∧ Packed v.1 vs e

theorem Packed.append : ∀ {vs ws : List (Int × Int)} {o m e : Int}, Packed o vs m → Packed m ws e →
    Packed o (vs ++ ws) e
  | [], _, _, _, _, h, h' => by cases h; exact h'
  | _ :: _, _, _, _, _, h, h' => ⟨h.1, Packed.append h.2 h'⟩

theorem Packed.one (c : Bool) (o n : Int) :
    Packed o (if c then [(if c then (if c then o - n else o) else 0, n)] else [])
      (if c then o - n else o) := by
  cases c
  · exact rfl
  · exact ⟨rfl, rfl⟩

/-- **C75.** The variables are laid out without gap or overlap from the frame pointer down, and the
frame is exactly as large as they are. -/
theorem frame_packed (g : Gen) : Packed 0 (variables g) (-(frame g).size) := by
  have h1 : Packed 0 [(vEntry, 4), (vStatus, 4), (vPrev, 4), (vCur, 4), (-20, 4), (vCtx, 4)] (-24) :=
    ⟨rfl, rfl, rfl, rfl, rfl, rfl, rfl⟩
  have h2 : Packed (-24) (if g.ret.size ≠ 0 then [((frame g).retPtr, 4),
      ((frame g).orig, (stackSize g.ret : Int)), ((frame g).override, (stackSize g.ret : Int)),
      ((frame g).plugin, (stackSize g.ret : Int))] else [])
      (if g.ret.size ≠ 0 then -28 - 3 * (stackSize g.ret : Int) else -24) := by
    unfold frame
    by_cases h : g.ret.size ≠ 0
    · simp only [if_pos h]
      exact ⟨rfl, rfl, by show (-28 - 2 * (stackSize g.ret : Int)) = -28 - stackSize g.ret - stackSize g.ret; omega,
        by show (-28 - 3 * (stackSize g.ret : Int)) = -28 - 2 * stackSize g.ret - stackSize g.ret; omega, rfl⟩
    · simp only [if_neg h, Packed]
  have hf : ∀ (P : Prop) [Decidable P] (o n : Int),
      Packed o (if P then [(if P then (if P then o - n else o) else 0, n)] else [])
        (if P then o - n else o) := by
    intro P _ o n
    by_cases h : P <;> simp [h, Packed]
  have e : -(frame g).size = if g.vafmt then (if g.varArgs then
      (if fbrrSize g.params ≠ 0 then (if g.temp then
        (if g.ret.size ≠ 0 then -28 - 3 * (stackSize g.ret : Int) else -24) - stackSize g.ret
        else (if g.ret.size ≠ 0 then -28 - 3 * (stackSize g.ret : Int) else -24)) - fbrrSize g.params
      else (if g.temp then
        (if g.ret.size ≠ 0 then -28 - 3 * (stackSize g.ret : Int) else -24) - stackSize g.ret
        else (if g.ret.size ≠ 0 then -28 - 3 * (stackSize g.ret : Int) else -24))) - 4
      else (if fbrrSize g.params ≠ 0 then (if g.temp then
        (if g.ret.size ≠ 0 then -28 - 3 * (stackSize g.ret : Int) else -24) - stackSize g.ret
        else (if g.ret.size ≠ 0 then -28 - 3 * (stackSize g.ret : Int) else -24)) - fbrrSize g.params
      else (if g.temp then
        (if g.ret.size ≠ 0 then -28 - 3 * (stackSize g.ret : Int) else -24) - stackSize g.ret
        else (if g.ret.size ≠ 0 then -28 - 3 * (stackSize g.ret : Int) else -24)))) - 4096
      else (if g.varArgs then
      (if fbrrSize g.params ≠ 0 then (if g.temp then
        (if g.ret.size ≠ 0 then -28 - 3 * (stackSize g.ret : Int) else -24) - stackSize g.ret
        else (if g.ret.size ≠ 0 then -28 - 3 * (stackSize g.ret : Int) else -24)) - fbrrSize g.params
      else (if g.temp then
        (if g.ret.size ≠ 0 then -28 - 3 * (stackSize g.ret : Int) else -24) - stackSize g.ret
        else (if g.ret.size ≠ 0 then -28 - 3 * (stackSize g.ret : Int) else -24))) - 4
      else (if fbrrSize g.params ≠ 0 then (if g.temp then
        (if g.ret.size ≠ 0 then -28 - 3 * (stackSize g.ret : Int) else -24) - stackSize g.ret
        else (if g.ret.size ≠ 0 then -28 - 3 * (stackSize g.ret : Int) else -24)) - fbrrSize g.params
      else (if g.temp then
        (if g.ret.size ≠ 0 then -28 - 3 * (stackSize g.ret : Int) else -24) - stackSize g.ret
        else (if g.ret.size ≠ 0 then -28 - 3 * (stackSize g.ret : Int) else -24)))) := by
    exact Int.neg_neg _
  rw [e]
  exact Packed.append (Packed.append (Packed.append (Packed.append (Packed.append h1 h2)
    (hf _ _ _)) (hf _ _ _)) (hf _ _ _)) (hf _ _ _)

theorem Packed.bounds : ∀ {vs : List (Int × Int)} {o e : Int}, Packed o vs e →
    (∀ v ∈ vs, 0 ≤ v.2) → e ≤ o ∧ (∀ v ∈ vs, e ≤ v.1 ∧ v.1 + v.2 ≤ o) ∧
      vs.Pairwise fun v w => w.1 + w.2 ≤ v.1
  | [], _, _, h, _ => by
    cases h
    exact ⟨Int.le_refl _, fun v hv => absurd hv (by simp), List.Pairwise.nil⟩
  | v :: vs, o, e, h, hn => by
    have h0 := hn v (by simp)
    have h1 := h.1
    obtain ⟨a, b, c⟩ := Packed.bounds h.2 fun w hw => hn w (List.mem_cons_of_mem _ hw)
    refine ⟨by omega, ?_, List.Pairwise.cons (fun w hw => (b w hw).2) c⟩
    intro w hw
    rcases List.mem_cons.mp hw with rfl | hw
    · omega
    · have := b w hw; omega

/-- **C75.** So no two variables overlap and all lie inside the frame. -/
theorem frame_apart (g : Gen) (h : 0 ≤ fbrrSize g.params) :
    (∀ v ∈ variables g, -(frame g).size ≤ v.1 ∧ v.1 + v.2 ≤ 0) ∧
    (variables g).Pairwise fun v w => w.1 + w.2 ≤ v.1 := by
  refine (Packed.bounds (frame_packed g) ?_).2
  intro v hv
  simp only [variables, List.mem_append] at hv
  rcases hv with ((((hv | hv) | hv) | hv) | hv) | hv
  · simp at hv
    rcases hv with rfl | rfl | rfl | rfl | rfl | rfl <;> simp
  · split at hv
    · simp at hv
      rcases hv with rfl | rfl | rfl | rfl <;> simp
    · simp at hv
  all_goals split at hv
  all_goals simp at hv
  all_goals subst hv
  all_goals simp [h]

/-! ### Departures -/

/-- **C75**, a departure: a number by value whose size is not 1, 2, 4 or 8 (or a floating point number
whose size is not 4 or 8, such as `long double`) is accepted as a parameter and takes room on the
stack of the hook function, but is not pushed for the hooks and the original function: they find
other values in its place. -/
theorem odd_size_not_pushed (p : Pass) (hv : p.flags.getLsbD 0 = true)
    (h : (p.type = 1 ∧ p.size ≠ 1 ∧ p.size ≠ 2 ∧ p.size ≠ 4 ∧ p.size ≠ 8) ∨
      (p.type = 2 ∧ p.size ≠ 4 ∧ p.size ≠ 8)) :
    Passable p ∧ ∀ o fb c last, pushOne o fb p c last = ([], c, 0) := by
  have ht : p.type ≠ 3 := by rcases h with h | h <;> omega
  refine ⟨⟨by rcases h with h | h <;> omega, .inl hv, fun a => absurd a ht, fun a => absurd a ht,
    fun a => absurd a ht, fun a => absurd a ht⟩, fun o fb c last => ?_⟩
  unfold pushOne
  rw [has_byVal, if_pos hv]
  rcases h with ⟨h, h1, h2, h4, h8⟩ | ⟨h, h4, h8⟩
  · rw [if_pos h, pushBasic, if_neg h1, if_neg h2, if_neg h4, if_neg h8]
  · rw [if_neg (by rw [h]; decide), if_pos h, pushFloat, if_neg h4, if_neg h8]

/-- **C75**, a departure: an object of more than 8 bytes that the plugin says is returned in
registers is accepted, but no instruction keeps the value a hook or the original function returns,
and none sets the value returned to the caller (the only check is an assertion, 672). -/
theorem large_in_registers (g : Gen) (hz : 8 < g.ret.size) (ht : g.ret.type = 3)
    (hv : g.ret.flags.getLsbD 0 = true) (h1 : g.ret.flags.getLsbD 1 = false)
    (h30 : g.ret.flags.getLsbD 30 = false) (h6 : g.ret.flags.getLsbD 6 = false)
    (h7 : g.ret.flags.getLsbD 7 = true) :
    autoDetect g.ret = g.ret.flags ∧ (∀ v, saveRet g v = []) ∧
    doReturn g = [.movRegAuto ecx ebp (i32 (frame g).retPtr)] := by
  have hr : realSize g.ret = g.ret.size := by
    unfold realSize
    rw [has_ref, h1, h30]
    rfl
  have h3 : ¬ g.ret.type = typeBasic := by rw [ht]; decide
  have h2 : ¬ g.ret.type = typeFloat := by rw [ht]; decide
  refine ⟨autoDetect_said _ hv ht (.inr h7), fun v => ?_, ?_⟩
  · unfold saveRet saveValue saveRegs
    rw [hr, has_byRef, h1, has_retMem, h6, has_retReg, h7, if_neg (by omega), if_neg (by decide),
      if_neg (by decide), if_neg h2, if_neg h3, if_pos ⟨ht, rfl⟩, if_neg (by omega), if_neg (by omega)]
  · unfold doReturn loadValue returnMem
    rw [has_byRef, h1, has_retMem, h6, has_retReg, h7, if_neg (by omega), if_neg (by decide),
      if_neg h2, if_pos (.inr ⟨ht, rfl⟩), if_neg (by omega), if_neg (by omega), if_neg (by decide)]
    rfl

/-- **C75**, a departure: a function with plain variable arguments (`CallConv_HasVarArgs`) is treated
like one with a format string, because the test for the latter is whether any of its two bits is
set. -/
theorem varArgs_as_vafmt (g : Gen) (h : g.conv = 0x10001) : g.varArgs = true ∧ g.vafmt = true := by
  unfold Gen.varArgs Gen.vafmt
  rw [h]
  exact ⟨by decide, by decide⟩

/-- **C75**, a departure: with the second bit alone the prototype is accepted, and the list of
arguments given to `vsnprintf` is whatever EAX held when the hook function was called: nothing before
sets EAX. -/
theorem vafmt_without_list (g : Gen) (h : g.conv = 0x20001) :
    (g.conv &&& ~~~(0x30000 : BitVec 32) = 1) ∧ vaStart g = [] ∧
    ∃ rest, vaFormat g = .push eax :: rest := by
  have h1 : g.varArgs = false := by unfold Gen.varArgs; rw [h]; decide
  have h2 : g.vafmt = true := by unfold Gen.vafmt; rw [h]; decide
  refine ⟨by rw [h]; decide, by unfold vaStart; rw [h1]; rfl, ?_⟩
  unfold vaFormat
  rw [if_pos h2]
  exact ⟨_, rfl⟩

/-- **C75**, a departure: an object with a copy constructor but no destructor is not recognised as one
GCC passes by reference; it is pushed in place. -/
theorem copied_object_in_place (p : Pass) (ht : p.type = 3) (hv : p.flags.getLsbD 0 = true)
    (h1 : p.flags.getLsbD 1 = false) (h2 : p.flags.getLsbD 2 = false)
    (h30 : p.flags.getLsbD 30 = false) (_ : p.flags.getLsbD 5 = true) :
    forceRef p = p.flags ∧ stackSize { p with flags := forceRef p } = (p.size + 3) / 4 * 4 := by
  have e : forceRef p = p.flags := by
    unfold forceRef
    rw [has_dtor, h2]
    rw [if_neg (by simp)]
  refine ⟨e, ?_⟩
  rw [stackSize_eq]
  simp only [e]
  rw [if_neg (by rw [h1, h30]; decide)]

/-! ### The hypotheses are met -/

/-- `int f(const char *fmt, ...)`. -/
def exVafmt : Proto := ⟨1, 0x30001, ⟨4, 1, 1, 0, 0, 0, 0⟩, [⟨4, 1, 1, 0, 0, 0, 0⟩]⟩

example : accepts exVafmt = true := by decide
example : 1 ≤ exVafmt.version := ((accepts_iff exVafmt).mp (by decide)).1
example : accepts { exVafmt with params := [⟨4, 3, 1 ||| 4, 0, 0, 0, 0⟩] } = false := by decide
example : (autoDetect ⟨8, 2, 1 ||| 64, 0, 0, 0, 0⟩).getLsbD 6 = false :=
  (autoDetect_register _ (.inr ⟨.inr rfl, by decide⟩)).1
example : (autoDetect ⟨12, 2, 1, 0, 0, 0, 0⟩).getLsbD 6 = true :=
  (autoDetect_memory _ (by decide) (.inr rfl) (by decide)).1
example : autoDetect ⟨4, 3, 1 ||| 128, 0, 0, 0, 0⟩ = 1 ||| 128 :=
  autoDetect_said _ (by decide) rfl (by decide)
example : (autoDetect ⟨4, 3, 1, 0, 0, 0, 0⟩).getLsbD 6 = true :=
  (autoDetect_object _ (by decide) rfl (by decide) (by decide)).1
example : (forceRef ⟨4, 3, 1 ||| 4, 0, 0, 1, 0⟩).getLsbD 30 = true := by rw [forceRef_bits]; decide
example : totalSize [⟨4, 1, 1, 0, 0, 0, 0⟩, ⟨7, 3, 1, 0, 0, 0, 0⟩, ⟨100, 3, 2, 0, 0, 0, 0⟩] = 16 :=
  totalSize_small _ (by decide)
example : alignBytes 8 4 = 4 := by decide
example : (8 + alignBytes 8 4 + 4) % 16 = 0 := (alignBytes_spec 8 4 (by omega) (by omega) (by omega)).1

/-- `std::string f(float, T, const char *, ...)` with a destructor for each object. -/
def exGen : Gen :=
  ⟨0x1000, 0x2000, 0, 3, 0x30001, ⟨10, 3, 1 ||| 4 ||| 64, 0, 1, 1, 1⟩,
    [⟨4, 2, 1, 0, 0, 0, 0⟩, ⟨12, 3, 0x40000005, 0, 1, 1, 1⟩], 1, 2, 3, 4⟩

example : variables exGen = [(-4, 4), (-8, 4), (-12, 4), (-16, 4), (-20, 4), (-24, 4), (-28, 4), (-40, 12),
    (-52, 12), (-64, 12), (-76, 12), (-88, 12), (-92, 4), (-4188, 4096)] := by decide
example : ∀ v ∈ variables exGen, -(frame exGen).size ≤ v.1 ∧ v.1 + v.2 ≤ 0 :=
  (frame_apart exGen (by decide)).1
example : ∀ o fb c last, pushOne o fb ⟨12, 2, 1, 0, 0, 0, 0⟩ c last = ([], c, 0) :=
  (odd_size_not_pushed _ (by decide) (.inr (by decide))).2
example : ∀ v, saveRet { exGen with ret := ⟨12, 3, 1 ||| 128, 0, 0, 0, 0⟩ } v = [] :=
  (large_in_registers _ (by decide) rfl (by decide) (by decide) (by decide) (by decide) (by decide)).2.1
example : ({ exGen with conv := 0x10001 } : Gen).vafmt = true := (varArgs_as_vafmt _ rfl).2
example : vaStart { exGen with conv := 0x20001 } = [] := (vafmt_without_list _ rfl).2.1
example : forceRef ⟨12, 3, 1 ||| 32, 0, 1, 0, 0⟩ = 33 :=
  (copied_object_in_place _ rfl (by decide) (by decide) (by decide) (by decide) (by decide)).1

end Verif.Jit32

#print axioms Verif.Jit32.accepts_iff
#print axioms Verif.Jit32.autoDetect_only
#print axioms Verif.Jit32.forceRef_bits
#print axioms Verif.Jit32.autoDetect_register
#print axioms Verif.Jit32.autoDetect_memory
#print axioms Verif.Jit32.autoDetect_said
#print axioms Verif.Jit32.autoDetect_object
#print axioms Verif.Jit32.totalSize_eq
#print axioms Verif.Jit32.totalSize_small
#print axioms Verif.Jit32.totalSize_wraps
#print axioms Verif.Jit32.alignBytes_spec
#print axioms Verif.Jit32.alignBytes_sixteen
#print axioms Verif.Jit32.frame_packed
#print axioms Verif.Jit32.frame_apart
#print axioms Verif.Jit32.odd_size_not_pushed
#print axioms Verif.Jit32.large_in_registers
#print axioms Verif.Jit32.varArgs_as_vafmt
#print axioms Verif.Jit32.vafmt_without_list
#print axioms Verif.Jit32.copied_object_in_place
