import Verif.Jit32.HookRun
import Verif.Jit32.HookAcceptProps
/-
Helper lemmas for C76: copying memory, the values on the stack of a call.
-/
namespace Verif.Jit32

open Verif.Jit (Byte flagByVal flagByRef typeBasic typeFloat typeObject)
open Spec

variable {U : Fpu}

/-! ## Copying -/

theorem blk_zero (m : Memory) (dst src : W) : blk m dst src 0 = m := by
  funext x
  simp [blk]

theorem blk_blk (m : Memory) (dst src : W) (a b : Nat) (h : a + b < 2 ^ 31)
    (hd : apart dst src (a + b) = true) :
    blk (blk m dst src a) (dst + BitVec.ofNat 32 a) (src + BitVec.ofNat 32 a) b
      = blk m dst src (a + b) := by
  funext x
  simp only [apart, Bool.and_eq_true, decide_eq_true_eq] at hd
  obtain ⟨T, rfl⟩ : ∃ T, x = dst + T :=
    ⟨x - dst, by rw [BitVec.add_comm, BitVec.sub_add_cancel]⟩
  obtain ⟨D, rfl⟩ : ∃ D, src = dst + D :=
    ⟨src - dst, by rw [BitVec.add_comm, BitVec.sub_add_cancel]⟩
  have e1 : dst + T - (dst + BitVec.ofNat 32 a) = T - BitVec.ofNat 32 a := by
    apply BitVec.eq_of_toNat_eq; simp only [BitVec.toNat_sub, BitVec.toNat_add]; omega
  have e2 : dst + D + BitVec.ofNat 32 a + (T - BitVec.ofNat 32 a) = dst + (D + T) := by
    apply BitVec.eq_of_toNat_eq; simp only [BitVec.toNat_sub, BitVec.toNat_add]; omega
  have e3 : dst + D + T = dst + (D + T) := by rw [BitVec.add_assoc]
  have e4 : dst - (dst + D) = 0 - D := by
    apply BitVec.eq_of_toNat_eq; simp only [BitVec.toNat_sub, BitVec.toNat_add]; simp; omega
  simp only [blk, e1, e2, e3, add_sub_self]
  rw [e4, add_sub_self] at hd
  simp only [BitVec.toNat_sub] at hd
  have hA : (BitVec.ofNat 32 a).toNat = a := by simp; omega
  have hz : BitVec.toNat (0 : W) = 0 := rfl
  rw [hz] at hd
  have hD := D.isLt
  have hT := T.isLt
  have f1 : (T - BitVec.ofNat 32 a).toNat = (2 ^ 32 - a + T.toNat) % 2 ^ 32 := by
    rw [BitVec.toNat_sub, hA]
  have f2 : (D + T).toNat = (D.toNat + T.toNat) % 2 ^ 32 := BitVec.toNat_add ..
  rw [f1, f2]
  by_cases hlt : T.toNat < a + b
  · rw [if_pos hlt]
    by_cases hta : T.toNat < a
    · rw [if_neg (by omega), if_pos hta]
    · rw [if_pos (by omega), if_neg (by omega)]
  · rw [if_neg hlt, if_neg (by omega), if_neg (by omega)]

theorem apart_mono {dst src : W} {n k : Nat} (h : apart dst src n = true) (hk : k ≤ n) :
    apart dst src k = true := by
  simp only [apart, Bool.and_eq_true, decide_eq_true_eq] at h ⊢
  omega

theorem apart_shift {dst src : W} {n a : Nat} (h : apart dst src n = true) (ha : a ≤ n) :
    apart (dst + BitVec.ofNat 32 a) (src + BitVec.ofNat 32 a) (n - a) = true := by
  simp only [apart, Bool.and_eq_true, decide_eq_true_eq] at h ⊢
  have e1 : dst + BitVec.ofNat 32 a - (src + BitVec.ofNat 32 a) = dst - src := by
    apply BitVec.eq_of_toNat_eq; simp only [BitVec.toNat_sub, BitVec.toNat_add]; omega
  have e2 : src + BitVec.ofNat 32 a - (dst + BitVec.ofNat 32 a) = src - dst := by
    apply BitVec.eq_of_toNat_eq; simp only [BitVec.toNat_sub, BitVec.toNat_add]; omega
  rw [e1, e2]
  omega

theorem copy_blk (w : Nat) (k : Nat) : ∀ (m : Memory) (dst src : W), w * k < 2 ^ 31 →
    apart dst src (w * k) = true → copy w m dst src k = blk m dst src (w * k) := by
  induction k with
  | zero => intro m dst src _ _; exact (blk_zero m dst src).symm
  | succ k ih =>
    intro m dst src h hd
    have hm : w * (k + 1) = w + w * k := by rw [Nat.mul_succ, Nat.add_comm]
    rw [hm] at h hd ⊢
    have hd' := apart_shift hd (a := w) (by omega)
    rw [Nat.add_sub_cancel_left] at hd'
    show copy w (blk m dst src w) _ _ k = _
    rw [ih _ _ _ (by omega) hd']
    exact blk_blk m dst src w (w * k) h hd

theorem okN_sub {acc : W → Bool} {a : W} {n : Nat} (h : okN acc a n = true) (i k : Nat)
    (hk : i + k ≤ n) : okN acc (a + BitVec.ofNat 32 i) k = true := by
  rw [okN_iff] at h ⊢
  intro j hj
  have := h (i + j) (by omega)
  rwa [BitVec.ofNat_add, ← BitVec.add_assoc] at this

theorem okN_pre {acc : W → Bool} {a : W} {n : Nat} (h : okN acc a n = true) (k : Nat)
    (hk : k ≤ n) : okN acc a k = true := by
  rw [okN_iff] at h ⊢
  exact fun j hj => h j (by omega)

/-- core/sourcehook/sourcehook_hookmangen_x86.cpp:175-200: the two copies of `BitwiseCopy_Do`. -/
def movs (n : Nat) : List Op :=
  (if n / 4 ≠ 0 then [.movImm ecx (i32 (n / 4 : Nat)), .repMovsd] else [])
    ++ (if n % 4 ≠ 0 then [.movImm ecx (i32 (n % 4 : Nat)), .repMovsb] else [])

theorem bitwiseCopy_eq (place : List Op) (n : Nat) :
    bitwiseCopy place n = ([.cld, .push edi, .push esi] ++ place) ++ (movs n ++ [.pop esi, .pop edi]) := by
  simp [bitwiseCopy, movs]

theorem execs_rep {acc : W → Bool} (w n : Nat) (o : Op)
    (ho : ∀ s : Mach U, exec acc s o.instr = repMovs acc s w) (s : Mach U) {dst src : W}
    (h7 : s.reg 7 = dst) (h6 : s.reg 6 = src) (hn : w * n < 2 ^ 31) (hw : n < 2 ^ 31)
    (hsrc : okN acc src (w * n) = true) (hdst : okN acc dst (w * n) = true)
    (hd : apart dst src (w * n) = true) :
    ∃ s', execs acc s (if n ≠ 0 then [.movImm ecx (i32 (n : Nat)), o] else []) = some s' ∧
      s'.mem = blk s.mem dst src (w * n) ∧ s'.fpu = s.fpu ∧
      s'.reg 7 = dst + BitVec.ofNat 32 (w * n) ∧ s'.reg 6 = src + BitVec.ofNat 32 (w * n) ∧
      ∀ r, r ≠ 1 → r ≠ 6 → r ≠ 7 → s'.reg r = s.reg r := by
  by_cases h0 : n = 0
  · subst h0
    refine ⟨s, by simp [execs], by simp [blk_zero], rfl, ?_, ?_, fun _ _ _ _ => rfl⟩
    · simp [h7]
    · simp [h6]
  · rw [if_pos h0]
    have hc : (i32 (n : Nat)).toNat = n := by
      have := i32_toNat (n : Int)
      omega
    have hsrc' : okN acc ((s.set ecx (i32 (n : Nat))).reg 6)
        (w * ((s.set ecx (i32 (n : Nat))).reg 1).toNat) = true := by
      rw [Jit32.set_reg, if_neg (by decide), Jit32.set_reg, if_pos rfl, hc, h6]
      exact hsrc
    have hdst' : okN acc ((s.set ecx (i32 (n : Nat))).reg 7)
        (w * ((s.set ecx (i32 (n : Nat))).reg 1).toNat) = true := by
      rw [Jit32.set_reg, if_neg (by decide), Jit32.set_reg, if_pos rfl, hc, h7]
      exact hdst
    have e : execs acc s [.movImm ecx (i32 (n : Nat)), o]
        = repMovs acc (s.set ecx (i32 (n : Nat))) w := by
      rw [execs, ex_movImm, Option.bind_some, execs, ho]
      cases repMovs acc (s.set ecx (i32 (n : Nat))) w <;> rfl
    rw [e, repMovs, hsrc', hdst']
    refine ⟨_, rfl, ?_, ?_, ?_, ?_, ?_⟩
    · show copy w s.mem (s.reg 7) (s.reg 6) (i32 (n : Nat)).toNat = _
      rw [hc, h7, h6]
      exact copy_blk w n _ _ _ hn hd
    · rfl
    · show s.reg 7 + BitVec.ofNat 32 (w * (i32 (n : Nat)).toNat) = _
      rw [hc, h7]
    · show s.reg 6 + BitVec.ofNat 32 (w * (i32 (n : Nat)).toNat) = _
      rw [hc, h6]
    · intro r h1 h6' h7'
      show (if r = 1 then _ else if r = 7 then _ else if r = 6 then _ else if r = 1 then _ else
        s.reg r) = s.reg r
      rw [if_neg h1, if_neg h7', if_neg h6', if_neg h1]

theorem execs_movs {acc : W → Bool} (n : Nat) (s : Mach U) {dst src : W}
    (h7 : s.reg 7 = dst) (h6 : s.reg 6 = src) (hn : n < 2 ^ 31)
    (hsrc : okN acc src n = true) (hdst : okN acc dst n = true)
    (hd : apart dst src n = true) :
    ∃ s', execs acc s (movs n) = some s' ∧ s'.mem = blk s.mem dst src n ∧ s'.fpu = s.fpu ∧
      ∀ r, r ≠ 1 → r ≠ 6 → r ≠ 7 → s'.reg r = s.reg r := by
  obtain ⟨s₁, e₁, hm₁, hf₁, h7₁, h6₁, hr₁⟩ := execs_rep 4 (n / 4) .repMovsd (fun s => ex_repMovsd acc s) s
    h7 h6 (by omega) (by omega) (okN_pre hsrc _ (by omega)) (okN_pre hdst _ (by omega))
    (apart_mono hd (by omega))
  have hd' := apart_mono (apart_shift hd (a := 4 * (n / 4)) (by omega)) (k := 1 * (n % 4)) (by omega)
  obtain ⟨s₂, e₂, hm₂, hf₂, _, _, hr₂⟩ := execs_rep 1 (n % 4) .repMovsb (fun s => ex_repMovsb acc s) s₁
    h7₁ h6₁ (by omega) (by omega) (okN_sub hsrc _ _ (by omega)) (okN_sub hdst _ _ (by omega)) hd'
  refine ⟨s₂, execs_seq e₁ e₂, ?_, by rw [hf₂, hf₁], fun r h1 h6 h7 => by
    rw [hr₂ r h1 h6 h7, hr₁ r h1 h6 h7]⟩
  rw [hm₂, hm₁, blk_blk _ _ _ _ _ (by omega) (apart_mono hd (by omega))]
  congr 1
  omega

/-! ## The invariant -/

/-- No counterpart in /repo: what is known of three registers is forgotten. -/
def Abs.forget (A : Abs U) : Abs U := ((A.set 1 none).set 6 none).set 7 none

section
variable {E : Env} {S : Stack} {A : Abs U} {m : Memory} {s : Mach U}

theorem Inv.forget (h : Inv S A m s) {s' : Mach U} (hm : s'.mem = s.mem) (hf : s'.fpu = s.fpu)
    (hr : ∀ r, r ≠ 1 → r ≠ 6 → r ≠ 7 → s'.reg r = s.reg r) : Inv S A.forget m s' := by
  refine ⟨?_, ?_, ?_, h.room, ?_, by rw [hf]; exact h.fpu, ?_, ?_, ?_⟩
  · exact h.noEsp
  · rw [hr 5 (by decide) (by decide) (by decide), h.ebp]
  · rw [hr 4 (by decide) (by decide) (by decide), h.esp]; rfl
  · intro r v hv
    have hv : (if r = 7 then none else if r = 6 then none else if r = 1 then none else A.reg r)
      = some v := hv
    by_cases h7 : r = 7
    · rw [if_pos h7] at hv; cases hv
    rw [if_neg h7] at hv
    by_cases h6 : r = 6
    · rw [if_pos h6] at hv; cases hv
    rw [if_neg h6] at hv
    by_cases h1 : r = 1
    · rw [if_pos h1] at hv; cases hv
    rw [if_neg h1] at hv
    rw [hr r h1 h6 h7, h.reg r v hv]
  · rw [hm]; exact h.stk
  · rw [hm]; exact h.mem
  · rw [hm]; exact h.priv

/-- Bytes inside the stack change. -/
theorem Inv.fill (hS : StackOk E S) (h : Inv S A m s) {M : Memory} {pre b b' post : Bytes}
    (he : A.stk = pre ++ (b ++ post)) (hl : b'.length = b.length)
    (hm : ∀ x, (∀ i : Nat, i < b.length → x ≠ off S.F (S.low - A.stk.length + pre.length + i)) →
      M x = s.mem x)
    (hb : ∀ (i : Nat) y, b'[i]? = some (some y) →
      M (off S.F (S.low - A.stk.length + pre.length + i)) = y) :
    Inv S (A.stack (pre ++ (b' ++ post))) m (s.setM M) := by
  have h1 := hS.low
  have h2 := hS.depth
  have hroom := h.room
  have hlen : A.stk.length = pre.length + (b.length + post.length) := by rw [he]; simp
  have hlen' : (pre ++ (b' ++ post)).length = A.stk.length := by rw [he]; simp [hl]
  refine ⟨h.noEsp, h.ebp, ?_, ?_, h.reg, h.fpu, ?_, ?_, ?_⟩
  · rw [Abs.stack_stk, hlen']; exact h.esp
  · rw [Abs.stack_stk, hlen']; exact h.room
  · intro i y hy
    rw [Abs.stack_stk] at hy
    rw [Abs.stack_stk, hlen', setM_mem]
    by_cases hi : i < pre.length
    · rw [List.getElem?_append_left hi] at hy
      rw [hm]
      · exact h.stk i y (by rw [he, List.getElem?_append_left hi]; exact hy)
      · intro j hj he'
        have := off_inj S.F (by omega) he'
        omega
    · rw [List.getElem?_append_right (by omega)] at hy
      by_cases hi2 : i - pre.length < b.length
      · rw [List.getElem?_append_left (by omega)] at hy
        have := hb _ y hy
        rw [← this]
        congr 2
        omega
      · rw [List.getElem?_append_right (by omega)] at hy
        have hj := (List.getElem?_eq_some_iff.1 hy).1
        rw [hm]
        · refine h.stk i y ?_
          rw [he, List.getElem?_append_right (by omega), List.getElem?_append_right (by omega)]
          rw [hl] at hy
          exact hy
        · intro j hj' he'
          have := off_inj S.F (by omega) he'
          omega
  · intro x hx
    rw [setM_mem, hm, h.mem x hx]
    intro i hi he'
    rw [he', hidden_low hS (by omega) (by omega)] at hx
    cases hx
  · intro k hk
    rw [setM_mem, Abs.stack_loc, ← h.priv k hk]
    apply rd_congr
    intro i hi
    rw [off_bytes, hm]
    intro j hj he'
    have := priv_range hS (slot_bytes hS hk (i := i) (by omega) (by omega))
    have := off_inj S.F (by omega) he'
    omega

end

/-! ## `memcpy` -/

section
variable {E : Env} {S : Stack} {code : List Byte} {A A₁ : Abs U} (hS : StackOk E S)
include hS

theorem ref_memcpy {place : List Op} {n : Nat} {dst src : W} (hn : n < 2 ^ 31)
    (hr : A.stk.length + 8 ≤ S.depth)
    (hplace : Run E S ((A.grow (optWord (A.reg 7))).grow (optWord (A.reg 6))) place A₁)
    (hstk : A₁.stk = optWord (A.reg 6) ++ (optWord (A.reg 7) ++ A.stk))
    (h7 : A₁.reg 7 = some dst) (h6 : A₁.reg 6 = some src) :
    Ref E S code (bitwiseCopy place n) A (memcpy (world E S) dst src n)
      (fun _ => (((A₁.forget.stack (optWord (A.reg 7) ++ A.stk)).set 6 (A.reg 6)).stack A.stk).set 7
        (A.reg 7)) := by
  rw [bitwiseCopy_eq]
  refine Ref.pre (A₁ := A₁) ?_ (Ref.post (B := fun _ => A₁.forget) ?_ ?_)
  · exact Run.append
      (Run.cons one_cld (Run.cons (one_push hS 7 (by omega)) (Run.cons
        (one_push hS 6 (by simp; omega)) Run.nil))) hplace
  · apply Ref.many
    intro m as u m' as' t hx s hs
    unfold memcpy at hx
    split at hx
    · rename_i hc
      simp only [Option.some.injEq, Prod.mk.injEq] at hx
      obtain ⟨_, rfl, rfl, rfl⟩ := hx
      simp only [Bool.and_eq_true] at hc
      obtain ⟨⟨hsrc, hdst⟩, hd⟩ := hc
      obtain ⟨s', e, hm, hf, hr'⟩ := execs_movs n s (hs.reg 7 _ h7) (hs.reg 6 _ h6) hn
        (okN_of_vis hsrc) (okN_of_vis hdst) hd
      refine ⟨rfl, rfl, s', e, ?_⟩
      have hv : Inv S A₁ (blk m dst src n) (s.setM (blk s.mem dst src n)) := by
        apply hs.setVis _ _ hS
        · intro x hx
          unfold blk
          split
          · rename_i hlt
            apply hs.mem
            have := okN_shown hsrc hlt
            rwa [BitVec.ofNat_toNat, BitVec.setWidth_eq] at this
          · exact hs.mem x hx
        · intro x hx
          unfold blk
          rw [if_neg]
          intro hlt
          have := okN_shown hdst hlt
          rw [BitVec.ofNat_toNat, BitVec.setWidth_eq, BitVec.add_comm, BitVec.sub_add_cancel, hx]
            at this
          cases this
      exact hv.forget hm hf hr'
    · cases hx
  · intro _
    exact Run.cons (one_pop hS _ hstk (by decide) (by decide))
      (Run.cons (one_pop hS (r := 7) (A.reg 7) (rest := A.stk) rfl (by decide) (by decide)) Run.nil)

end

end Verif.Jit32
