import Verif.SH.PiBuilder
import Verif.Cont.VecProps
/-
C72: what `CProtoInfoBuilder` hands out is exactly what was put in, and when the pointer it hands out goes stale.
-/
namespace Verif.SH.Pi

open Verif.Cont

/-! ### Specification -/

/-- Specification: the parameters added, in order. -/
def added : List Op → List Arg
  | [] => []
  | .addParam a :: os => a :: added os
  | _ :: os => added os

/-- Specification: the return type set last. -/
def returned (r : Option Arg) : List Op → Option Arg
  | [] => r
  | .setRet a :: os => returned (some a) os
  | _ :: os => returned r os

/-- Specification: `p` describes `a`: the same size, type and functions, and a flag is set iff it was given or a function was given that
it announces (bits 2 to 5: destructor, constructor, assignment, copy constructor). -/
def Describes (a : Arg) (p : PassInfo) : Prop :=
  p.size = a.size ∧ p.type = a.type ∧ p.normalCtor = a.normalCtor ∧ p.copyCtor = a.copyCtor ∧ p.dtor = a.dtor ∧
  p.assignOp = a.assignOp ∧
  ∀ k, p.flags.testBit k = true ↔ a.flags.testBit k = true ∨ (k = 2 ∧ a.dtor ≠ 0) ∨ (k = 3 ∧ a.normalCtor ≠ 0) ∨
    (k = 4 ∧ a.assignOp ≠ 0) ∨ (k = 5 ∧ a.copyCtor ≠ 0)

/-- Specification: the prototype is version 2, with convention `cc`, return type `r` (none: nothing is returned) and parameters `ps`. -/
def Holds (cc : Int) (r : Option Arg) (ps : List Arg) (p : Proto) : Prop :=
  p.version = 1 ∧ p.convention = cc ∧ p.numParams = ps.length ∧ p.params.length = ps.length ∧
  (match r with
   | some a => Describes a p.ret
   | none => p.ret = { size := 0, type := 0, flags := 0 }) ∧
  ∀ (i : Nat) (a : Arg), ps[i]? = some a → ∃ q, p.params[i]? = some q ∧ Describes a q

/-! ### Helpers -/

theorem testBit_const {k : Nat} (n : Nat) : (2 ^ n).testBit k = true ↔ k = n := by
  rw [Nat.testBit_two_pow]; simp [eq_comm]

theorem allFlags_bits (a : Arg) (k : Nat) : (allFlags a).testBit k = true ↔
    a.flags.testBit k = true ∨ (k = 2 ∧ a.dtor ≠ 0) ∨ (k = 3 ∧ a.normalCtor ≠ 0) ∨
    (k = 4 ∧ a.assignOp ≠ 0) ∨ (k = 5 ∧ a.copyCtor ≠ 0) := by
  have h4 : Nat.testBit 4 k = true ↔ k = 2 := testBit_const 2
  have h8 : Nat.testBit 8 k = true ↔ k = 3 := testBit_const 3
  have h16 : Nat.testBit 16 k = true ↔ k = 4 := testBit_const 4
  have h32 : Nat.testBit 32 k = true ↔ k = 5 := testBit_const 5
  unfold allFlags flODtor flOCtor flAssignOp flCCtor
  by_cases h1 : a.normalCtor = 0 <;> by_cases h2 : a.copyCtor = 0 <;> by_cases h3 : a.dtor = 0 <;>
    by_cases h5 : a.assignOp = 0 <;>
    simp only [h1, h2, h3, h5, ne_eq, not_true_eq_false, not_false_eq_true, if_true, if_false, Nat.testBit_or, Bool.or_eq_true,
      h4, h8, h16, h32, and_false, and_true, or_false, false_or] <;> grind

/-- The first half of a record. No counterpart in /repo: a helper for the proofs. -/
def info1 (a : Arg) : PassInfo := { size := a.size, type := a.type, flags := allFlags a }
/-- The second half of a record. No counterpart in /repo: a helper for the proofs. -/
def info2 (a : Arg) : V2 := ⟨a.normalCtor, a.copyCtor, a.dtor, a.assignOp⟩
/-- The whole record. No counterpart in /repo: a helper for the proofs. -/
def info (a : Arg) : PassInfo :=
  { size := a.size, type := a.type, flags := allFlags a, normalCtor := a.normalCtor, copyCtor := a.copyCtor,
    dtor := a.dtor, assignOp := a.assignOp }

theorem describes_info (a : Arg) : Describes a (info a) := ⟨rfl, rfl, rfl, rfl, rfl, rfl, allFlags_bits a⟩

/-- The capacity follows from the number of elements. No counterpart in /repo: a helper for the proofs. -/
def CapOk (cap used : Nat) : Prop := used < cap ∧ (cap = 8 ∨ cap ≤ 2 * used) ∧ ∃ k, cap = 8 * 2 ^ k

theorem capOk_unique {c d u : Nat} (hc : CapOk c u) (hd : CapOk d u) : c = d := by
  obtain ⟨h1, h2, k, rfl⟩ := hc
  obtain ⟨g1, g2, j, rfl⟩ := hd
  have hk := Nat.two_pow_pos k
  have hj := Nat.two_pow_pos j
  rcases Nat.lt_trichotomy k j with h | h | h
  · have := Nat.pow_le_pow_right (n := 2) (by omega) (show k + 1 ≤ j by omega)
    rw [Nat.pow_succ] at this; omega
  · rw [h]
  · have := Nat.pow_le_pow_right (n := 2) (by omega) (show j + 1 ≤ k by omega)
    rw [Nat.pow_succ] at this; omega

theorem capOk_moves {c u : Nat} (hc : CapOk c u) : c ≤ u + 1 ↔ ∃ k, u + 1 = 8 * 2 ^ k := by
  constructor
  · intro h
    obtain ⟨h1, -, k, rfl⟩ := hc
    exact ⟨k, by omega⟩
  · rintro ⟨j, e⟩
    obtain ⟨h1, h2, k, rfl⟩ := hc
    have hk := Nat.two_pow_pos k
    have hj := Nat.two_pow_pos j
    rcases Nat.lt_trichotomy k j with h | h | h
    · have := Nat.pow_le_pow_right (n := 2) (by omega) (show k + 1 ≤ j by omega)
      rw [Nat.pow_succ] at this; omega
    · rw [h]; omega
    · have := Nat.pow_le_pow_right (n := 2) (by omega) (show j + 1 ≤ k by omega)
      rw [Nat.pow_succ] at this; omega

theorem pushBack_cap {T : Type} {v v' : Vec T} {x : T} (e : v.pushBack x = .ok v') :
    v'.cap = if v.cap ≤ v.used + 1 then growTo (v.used + 1) (if v.cap * 2 = 0 then 8 else v.cap * 2) else v.cap := by
  unfold Vec.pushBack Vec.growIfNeeded Vec.grow at e
  simp only [bind, Except.bind, ge_iff_le] at e
  by_cases hc : v.cap ≤ v.used + 1
  · rw [if_pos hc] at e ⊢
    split at e
    · cases e
    · rename_i w hw
      have hw' : w.cap = growTo (v.used + 1) (if v.cap * 2 = 0 then 8 else v.cap * 2) := by
        cases hd : v.data with
        | none => simp only [hd, Except.ok.injEq] at hw; rw [← hw]
        | some d =>
          simp only [hd] at hw
          split at hw
          · cases hw
          · simp only [Except.ok.injEq] at hw; rw [← hw]
      split at e
      · cases e
      · simp only [Except.ok.injEq] at e
        rw [← e, ← hw']
  · rw [if_neg hc] at e ⊢
    dsimp only at e
    split at e
    · cases e
    · simp only [Except.ok.injEq] at e
      rw [← e]

theorem growTo_small {n s : Nat} (h : n ≤ s) : growTo n s = s := by
  unfold growTo
  rw [dif_neg (by omega)]

theorem pushBack_ok {T : Type} {v : Vec T} {xs : List T} (x : T) (h : VRep v xs) (hc : CapOk v.cap v.used) :
    ∃ v', v.pushBack x = .ok v' ∧ VRep v' (xs ++ [x]) ∧ CapOk v'.cap v'.used := by
  obtain ⟨v', e, h'⟩ := vec_step h (VSpec.pushBack x)
  simp only [vstep] at e
  cases hp : v.pushBack x with
  | error f => simp [hp, bind, Except.bind] at e
  | ok w =>
    simp only [hp, bind, Except.bind, Except.ok.injEq, Prod.mk.injEq, and_true] at e
    subst e
    refine ⟨w, rfl, h', ?_⟩
    have h1 := pushBack_cap hp
    have hu := h.used
    have hu' := h'.used
    simp only [List.length_append, List.length_cons, List.length_nil] at hu'
    have hw : w.used = v.used + 1 := by omega
    obtain ⟨c1, c2, k, ck⟩ := hc
    have hk := Nat.two_pow_pos k
    rw [hw]
    split at h1
    · rw [if_neg (by omega), growTo_small (by omega)] at h1
      refine ⟨by omega, Or.inr (by omega), k + 1, ?_⟩
      rw [h1, ck, Nat.pow_succ]; omega
    · exact ⟨by omega, by omega, k, by omega⟩

/-- The builder holds what was put in. No counterpart in /repo: the invariant of the proof. -/
structure Built (cc : Int) (r : Option Arg) (ps : List Arg) (b : B) : Prop where
  rep1 : VRep b.v1 ({ zeroInfo with size := 1 } :: ps.map info1)
  rep2 : VRep b.v2 (⟨0, 0, 0, 0⟩ :: ps.map info2)
  cap1 : CapOk b.v1.cap b.v1.used
  cap2 : CapOk b.v2.cap b.v2.used
  num : b.pi.numOfParams = ps.length
  conv : b.pi.convention = cc
  ret : b.pi.ret = match r with
    | some a => info a
    | none => zeroInfo

theorem init_built (cc : Int) : ∃ b, init cc = .ok b ∧ Built cc none [] b := by
  refine ⟨_, by simp [init, push, Vec.init, Vec.pushBack, Vec.growIfNeeded, Vec.grow, growTo_small, newArr, wrA, Vec.arr, bind, Except.bind]; rfl, ?_⟩
  constructor
  · exact ⟨rfl, by simp, by simp, by intro a ha; simp at ha; subst ha; exact ⟨rfl, List.replicate 7 none, rfl⟩⟩
  · exact ⟨rfl, by simp, by simp, by intro a ha; simp at ha; subst ha; exact ⟨rfl, List.replicate 7 none, rfl⟩⟩
  · exact ⟨by simp, by simp, 0, rfl⟩
  · exact ⟨by simp, by simp, 0, rfl⟩
  · rfl
  · rfl
  · rfl

theorem addParam_built {cc : Int} {r : Option Arg} {ps : List Arg} {b : B} (h : Built cc r ps b) (a : Arg) :
    ∃ b', addParam a b = .ok b' ∧ Built cc r (ps ++ [a]) b' ∧ b'.pi.p1 = b.pi.p1 ∧ b'.pi.p2 = b.pi.p2 ∧
      b'.g1 = (if b.v1.cap ≤ b.v1.used + 1 then b.g1 + 1 else b.g1) ∧ b'.g2 = (if b.v2.cap ≤ b.v2.used + 1 then b.g2 + 1 else b.g2) := by
  obtain ⟨w1, e1, r1, c1⟩ := pushBack_ok (info1 a) h.rep1 h.cap1
  obtain ⟨w2, e2, r2, c2⟩ := pushBack_ok (info2 a) h.rep2 h.cap2
  refine ⟨⟨{ b.pi with numOfParams := b.pi.numOfParams + 1 }, w1, w2,
      if moves b.v1 then b.g1 + 1 else b.g1, if moves b.v2 then b.g2 + 1 else b.g2⟩, by
    unfold addParam push
    rw [show b.v1.pushBack { size := a.size, type := a.type, flags := allFlags a } = .ok w1 from e1,
      show b.v2.pushBack ⟨a.normalCtor, a.copyCtor, a.dtor, a.assignOp⟩ = .ok w2 from e2]
    rfl, ?_, rfl, rfl, ?_, ?_⟩
  · exact ⟨by simpa using r1, by simpa using r2, c1, c2, by simp [h.num], h.conv, h.ret⟩
  · simp [moves]
  · simp [moves]

theorem deref_ok {T : Type} {v : Vec T} {xs : List T} {g i : Nat} {x : T} (h : VRep v xs) (hi : xs[i]? = some x) :
    deref (some g) g v i = .ok x := by
  obtain ⟨-, r, hr⟩ := h.arr
  obtain ⟨hl, e⟩ := List.getElem?_eq_some_iff.1 hi
  simp [deref, rdA, hr, List.getElem?_append_left, hl, e]

theorem readParams_ok {b : B} {X : PassInfo} {Y : V2} (p1 : b.pi.p1 = some b.g1) (p2 : b.pi.p2 = some b.g2) : ∀ (qs ps : List Arg),
    VRep b.v1 (X :: (ps ++ qs).map info1) → VRep b.v2 (Y :: (ps ++ qs).map info2) →
    readParams b (ps.length + 1) qs.length = .ok (qs.map info)
  | [], ps, _, _ => rfl
  | q :: qs, ps, h1, h2 => by
    have d1 := deref_ok (g := b.g1) (i := ps.length + 1) (x := info1 q) h1 (by simp)
    have d2 := deref_ok (g := b.g2) (i := ps.length + 1) (x := info2 q) h2 (by simp)
    have ih := readParams_ok p1 p2 qs (ps ++ [q]) (by simpa using h1) (by simpa using h2)
    simp only [List.length_append, List.length_cons, List.length_nil, Nat.zero_add] at ih
    simp only [List.length_cons, readParams, bind, Except.bind, p1, p2, d1, d2, ih]
    rfl

theorem fill_built {cc : Int} {r : Option Arg} {ps : List Arg} {b : B} (h : Built cc r ps b) (p1 : b.pi.p1 = some b.g1)
    (p2 : b.pi.p2 = some b.g2) : ∃ p, fill b = .ok (some p) ∧ Holds cc r ps p := by
  have d0 := deref_ok (g := b.g1) (i := 0) (x := { zeroInfo with size := 1 }) h.rep1 rfl
  have hr := readParams_ok p1 p2 ps [] h.rep1 h.rep2
  simp only [List.length_nil, Nat.zero_add] at hr
  refine ⟨{ version := 1, numParams := ps.length, ret := b.pi.ret, params := ps.map info, convention := cc }, ?_, ?_⟩
  · simp [fill, p1, d0, bind, Except.bind, h.num, hr, Proto.fill, h.conv]
    exact List.take_of_length_le (by simp)
  · refine ⟨rfl, rfl, rfl, by simp, ?_, ?_⟩
    · rw [h.ret]
      cases r with
      | none => rfl
      | some a => exact describes_info a
    · intro i a hi
      exact ⟨info a, by simp [hi], describes_info a⟩

theorem run_built {cc : Int} : ∀ (os : List Op) {r : Option Arg} {ps : List Arg} {b : B}, Built cc r ps b →
    ∃ b', run b os = .ok b' ∧ Built cc (returned r os) (ps ++ added os) b'
  | [], r, ps, b, h => ⟨b, rfl, by simpa [added, returned] using h⟩
  | .setRet a :: os, r, ps, b, h => by
    have h' : Built cc (some a) ps (setRet a b) := ⟨h.rep1, h.rep2, h.cap1, h.cap2, h.num, h.conv, rfl⟩
    exact run_built os h'
  | .addParam a :: os, r, ps, b, h => by
    obtain ⟨b1, e, h1, -⟩ := addParam_built h a
    obtain ⟨b2, e2, h2⟩ := run_built os h1
    exact ⟨b2, by simp [run, step, e, bind, Except.bind, e2], by simpa [added, returned] using h2⟩
  | .convert :: os, r, ps, b, h => by
    have h' : Built cc r ps (convert b) := ⟨h.rep1, h.rep2, h.cap1, h.cap2, h.num, h.conv, h.ret⟩
    exact run_built os h'

/-! ### Properties -/

/-- C72: after any use of the builder, the prototype SourceHook reads from it is version 2, has the convention given, the return type
set last, and exactly the parameters added, in order, with the flags of the functions given. -/
theorem builder_exact (cc : Int) (os : List Op) :
    ∃ b p, (do let b ← init cc; run b os) = .ok b ∧ fill (convert b) = .ok (some p) ∧ Holds cc (returned none os) (added os) p := by
  obtain ⟨b0, e0, h0⟩ := init_built cc
  obtain ⟨b, e, h⟩ := run_built os h0
  have h' : Built cc (returned none os) (added os) (convert b) := by
    have := h
    simp only [List.nil_append] at this
    exact ⟨this.rep1, this.rep2, this.cap1, this.cap2, this.num, this.conv, this.ret⟩
  obtain ⟨p, e2, h2⟩ := fill_built h' rfl rfl
  exact ⟨b, p, by simp [e0, bind, Except.bind, e], e2, h2⟩

/-- A function returning an object with a destructor, with two parameters; the pointer is taken in between as well. -/
example : returned none [.addParam ⟨4, 1, 1, 0, 0, 0, 0⟩, .convert, .setRet ⟨12, 3, 1, 0, 0, 9, 0⟩, .addParam ⟨8, 1, 2, 0, 0, 0, 0⟩] =
      some ⟨12, 3, 1, 0, 0, 9, 0⟩ ∧
    added [.addParam ⟨4, 1, 1, 0, 0, 0, 0⟩, .convert, .setRet ⟨12, 3, 1, 0, 0, 9, 0⟩, .addParam ⟨8, 1, 2, 0, 0, 0, 0⟩] =
      [⟨4, 1, 1, 0, 0, 0, 0⟩, ⟨8, 1, 2, 0, 0, 0, 0⟩] ∧ allFlags ⟨12, 3, 1, 0, 0, 9, 0⟩ = 5 := ⟨rfl, rfl, rfl⟩

/-- C72: a pointer taken before a parameter is added (core/sourcehook/sourcehook_pibuilder.h:99-104) reads freed memory exactly when the number of
parameters and the dummy before them fill an array: with 6, 14, 30, … parameters.  Otherwise it shows the new parameter as well. -/
theorem stale_iff {cc : Int} {os : List Op} {b b' : B} {a : Arg} (h : (do let b ← init cc; run b os) = .ok b)
    (h' : addParam a (convert b) = .ok b') :
    ((∃ k, (added os).length + 2 = 8 * 2 ^ k) → fill b' = .error .dangling) ∧
    ((¬ ∃ k, (added os).length + 2 = 8 * 2 ^ k) → ∃ p, fill b' = .ok (some p) ∧ Holds cc (returned none os) (added os ++ [a]) p) := by
  obtain ⟨b0, e0, h0⟩ := init_built cc
  obtain ⟨b1, e1, h1⟩ := run_built os h0
  have eb : b1 = b := by
    simp only [e0, bind, Except.bind, e1, Except.ok.injEq] at h
    exact h
  subst eb
  simp only [List.nil_append] at h1
  have hc : Built cc (returned none os) (added os) (convert b1) := ⟨h1.rep1, h1.rep2, h1.cap1, h1.cap2, h1.num, h1.conv, h1.ret⟩
  obtain ⟨b2, e2, h2, q1, q2, g1, g2⟩ := addParam_built hc a
  have : b2 = b' := by rw [e2] at h'; exact Except.ok.inj h'
  subst this
  have u1 : (convert b1).v1.used + 1 = (added os).length + 2 := by have := hc.rep1.used; simp at this; omega
  have u2 : (convert b1).v2.used + 1 = (added os).length + 2 := by have := hc.rep2.used; simp at this; omega
  have m1 := capOk_moves hc.cap1
  have m2 := capOk_moves hc.cap2
  rw [u1] at m1 g1
  rw [u2] at m2 g2
  constructor
  · intro hk
    rw [if_pos (m1.2 hk)] at g1
    have : (convert b1).pi.p1 = some (convert b1).g1 := rfl
    rw [this] at q1
    unfold fill
    rw [q1, g1]
    simp [deref, bind, Except.bind]
  · intro hk
    rw [if_neg (fun x => hk (m1.1 x))] at g1
    rw [if_neg (fun x => hk (m2.1 x))] at g2
    exact fill_built h2 (by rw [q1, g1]; rfl) (by rw [q2, g2]; rfl)

/-- Finding, core/sourcehook/sourcehook_pibuilder.h:94-104: the pointer of a builder with six parameters dangles once a seventh is added. -/
theorem seventh_stale (cc : Int) (a : Arg) : ∃ b b', (do let b ← init cc; run b (List.replicate 6 (.addParam a))) = .ok b ∧
    addParam a (convert b) = .ok b' ∧ fill b' = .error .dangling := by
  obtain ⟨b0, e0, h0⟩ := init_built cc
  obtain ⟨b1, e1, h1⟩ := run_built (List.replicate 6 (.addParam a)) h0
  have e : (do let b ← init cc; run b (List.replicate 6 (.addParam a))) = .ok b1 := by simp only [e0, bind, Except.bind, e1]
  have hc : Built cc (returned none (List.replicate 6 (.addParam a))) ([] ++ added (List.replicate 6 (.addParam a))) (convert b1) := ⟨h1.rep1, h1.rep2, h1.cap1, h1.cap2, h1.num, h1.conv, h1.ret⟩
  obtain ⟨b2, e2, -⟩ := addParam_built hc a
  exact ⟨b1, b2, e, e2, (stale_iff e e2).1 ⟨0, rfl⟩⟩

/-- Five parameters and one more: the pointer stays good. -/
example : ¬ ∃ k, (added (List.replicate 5 (.addParam ⟨4, 1, 1, 0, 0, 0, 0⟩))).length + 2 = 8 * 2 ^ k := by
  rintro ⟨k, e⟩
  have := Nat.two_pow_pos k
  simp [added, List.replicate] at e
  omega

/-- C72: a prototype from the builder is equal to itself in SourceHook's sense and its comparison never reads out of bounds. -/
theorem builder_reflexive {cc : Int} {os : List Op} {b : B} {p : Proto} (h : (do let b ← init cc; run b os) = .ok b)
    (hp : fill (convert b) = .ok (some p)) : p.numParams.toNat = p.params.length ∧ Proto.eq? p p = some true := by
  obtain ⟨b', p', e, e2, h2⟩ := builder_exact cc os
  rw [h] at e; cases e
  rw [hp] at e2; cases e2
  obtain ⟨v, c, n, l, -⟩ := h2
  have hn : p.numParams.toNat = p.params.length := by rw [n, l]; rfl
  refine ⟨hn, ?_⟩
  unfold Proto.eq?
  rw [if_neg (by omega), if_neg (by simp), if_neg (by simp), if_neg (by simp), hn]
  generalize p.params = l
  induction l with
  | nil => rfl
  | cons x xs ih => simp [paramLoop, paramCompat, ih]

#print axioms builder_exact
#print axioms stale_iff
#print axioms seventh_stale
#print axioms builder_reflexive

end Verif.SH.Pi
