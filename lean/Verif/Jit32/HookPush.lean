import Verif.Jit32.HookCopy
/-
Helper lemmas for C76: pushing the parameters.
-/
namespace Verif.Jit32

open Verif.Jit (Byte flagByVal flagByRef typeBasic typeFloat typeObject)
open Spec

variable {U : Fpu}

/-- No counterpart in /repo: the registers the parameters go through are forgotten. -/
def Abs.scr (A : Abs U) : Abs U := ((A.set 1 none).set 2 none).set 3 none

theorem scr_reg (A : Abs U) (r : Reg) : A.scr.reg r
    = if r = 3 then none else if r = 2 then none else if r = 1 then none else A.reg r := rfl

theorem scr_le {A : Abs U} {r : Reg} {o : Option W} (hr : r = 1 ∨ r = 2 ∨ r = 3) (b b' : Bytes)
    (hl : b'.length = b.length) (hb : ∀ (i : Nat) y, b'[i]? = some (some y) → b[i]? = some (some y)) :
    Le ((A.set r o).grow b) (A.scr.grow b') := by
  refine ⟨?_, rfl, by simp [hl, Abs.scr], ?_, fun _ => rfl⟩
  · intro q v hv
    rw [Abs.grow_reg, scr_reg] at hv
    rw [Abs.grow_reg, Abs.set_reg, if_neg]
    · split at hv
      · cases hv
      · split at hv
        · cases hv
        · split at hv
          · cases hv
          · exact hv
    · rintro rfl
      rcases hr with rfl | rfl | rfl <;> cases hv
  · intro i y hy
    simp only [Abs.grow_stk] at hy ⊢
    rw [List.getElem?_append] at hy ⊢
    rw [hl] at hy
    split
    · rename_i hi
      rw [if_pos hi] at hy
      exact hb i y hy
    · rename_i hi
      rw [if_neg hi] at hy
      exact hy

theorem scr_grow_le {A : Abs U} (b : Bytes) : Le (A.grow b) (A.scr.grow b) := by
  refine Le.of ?_ rfl rfl rfl
  intro q v hv
  rw [Abs.grow_reg, scr_reg] at hv
  split at hv
  · cases hv
  · split at hv
    · cases hv
    · split at hv
      · cases hv
      · exact hv

theorem nextReg_cases (c : Nat) : (nextReg c).1 = 1 ∨ (nextReg c).1 = 2 ∨ (nextReg c).1 = 3 := by
  unfold nextReg
  split
  · exact Or.inr (Or.inr rfl)
  · split
    · exact Or.inl rfl
    · exact Or.inr (Or.inl rfl)

theorem nextReg_ne (c : Nat) : (nextReg c).1 ≠ (nextReg (nextReg c).2).1 := by
  unfold nextReg
  by_cases h0 : c % 3 = 0
  · have : (c + 1) % 3 = 1 := by omega
    simp [h0, this]
    decide
  · by_cases h1 : c % 3 = 1
    · have : (c + 1) % 3 = 2 := by omega
      simp [h1, this]
      decide
    · simp [h0, h1]
      decide

/-- Specification: the parameters for which the theorem is stated: passed by value or by reference,
not both, not
turned into a reference by the generator; by value a number of a size there is code for or an object
without a copy constructor and a destructor. -/
structure PassOk (p : Pass) : Prop where
  notForced : p.flags.getLsbD 30 = false
  one : p.flags.getLsbD 0 = !p.flags.getLsbD 1
  value : p.flags.getLsbD 0 = true → (p.type = 1 ∧ (p.size = 1 ∨ p.size = 2 ∨ p.size = 4 ∨ p.size = 8)) ∨
    (p.type = 2 ∧ (p.size = 4 ∨ p.size = 8)) ∨
    (p.type = 3 ∧ p.cctor = 0 ∧ p.flags.getLsbD 2 = false)

theorem slotSize_eq {p : Pass} (h : PassOk p) : slotSize p = stackSize p := by
  rw [stackSize_eq, slotSize, h.notForced]
  simp

theorem paramBytes_length {p : Pass} (h : PassOk p) (m : Memory) (a : W) :
    (paramBytes m a p).length = stackSize p := by
  rw [← slotSize_eq h]
  unfold paramBytes slotSize
  cases h1 : p.flags.getLsbD 1 with
  | true => rfl
  | false =>
    have h0 := h.one
    rw [h1] at h0
    simp only [Bool.false_eq_true, if_false]
    rcases h.value h0 with ⟨ht, hs⟩ | ⟨ht, hs⟩ | ⟨ht, _⟩
    · rw [if_pos ht]
      rcases hs with hs | hs | hs | hs <;> simp [hs]
    · rw [if_neg (by omega), if_pos ht]
      rcases hs with hs | hs <;> simp [hs]
    · rw [if_neg (by omega), if_neg (by omega)]
      simp
      omega

theorem param_some {Wd : World} {a : W} {p : Pass} {m m' : Memory} {as as' : List (Ans U)}
    {t : List SCall} {b : Bytes} (h : param Wd a p m as = some (b, m', as', t)) :
    okN Wd.vis a (readSize p) = true ∧ b = paramBytes m a p ∧ m' = m ∧ as' = as ∧ t = [] := by
  unfold param at h
  split at h
  · rename_i hv
    simp only [Option.some.injEq, Prod.mk.injEq] at h
    obtain ⟨rfl, rfl, rfl, rfl⟩ := h
    exact ⟨hv, rfl, rfl, rfl, rfl⟩
  · cases h

section
variable {E : Env} {S : Stack} {code : List Byte} {A : Abs U} (hS : StackOk E S)
include hS

omit hS in
/-- A parameter from its code: what a state that meets the invariant goes to. -/
theorem ref_param {p : Pass} {o : Int} {ops : List Op}
    (h : ∀ m s, Inv S A m s → okN (world E S).vis (off S.F o) (readSize p) = true →
      ∃ s', execs E.acc s ops = some s' ∧ Inv S (A.scr.grow (paramBytes m (off S.F o) p)) m s') :
    Ref E S code ops A (param (world E S) (off S.F o) p) (fun b => A.scr.grow b) := by
  apply Ref.many
  intro m as b m' as' t hx s hs
  obtain ⟨hv, rfl, rfl, rfl, rfl⟩ := param_some hx
  exact ⟨rfl, rfl, h _ s hs hv⟩

theorem push_reg {m : Memory} {s : Mach U} {r : Reg} {w : W} {b : Bytes} {a : Op}
    (hr : r = 1 ∨ r = 2 ∨ r = 3) (h : Inv S A m s) (hroom : A.stk.length + 4 ≤ S.depth)
    (hx : exec E.acc s a.instr = some (s.set r w)) (hl : b.length = 4)
    (hb : ∀ (i : Nat) y, b[i]? = some (some y) → (word w)[i]? = some (some y)) :
    ∃ s', execs E.acc s [a, .push r] = some s' ∧ Inv S (A.scr.grow b) m s' := by
  have h4 : r ≠ 4 := by rcases hr with rfl | rfl | rfl <;> decide
  have h5 : r ≠ 5 := by rcases hr with rfl | rfl | rfl <;> decide
  apply execs_cons_ex hx
  have h1 : Inv S (A.set r (some w)) m (s.set r w) := h.setReg h4 h5 fun v hv => Option.some.inj hv
  obtain ⟨s', e, h2⟩ := Run.single (one_push hS r (A := A.set r (some w)) hroom) m _ h1
  refine ⟨s', e, h2.weaken ?_⟩
  rw [Abs.set_reg, if_pos rfl]
  exact scr_le hr _ _ (by simp [optWord, hl]) hb

omit hS in
theorem byte_word (m : Memory) (a : W) (i : Nat) (hi : i < 4) :
    (word (rd m a))[i]? = some (some (m (a + BitVec.ofNat 32 i))) := by
  have h0 := (m a).isLt
  have h1 := (m (a + 1)).isLt
  have h2 := (m (a + 2)).isLt
  have h3 := (m (a + 3)).isLt
  have e : ∀ k, ((rd m a).extractLsb' k 8).toNat = ((m a).toNat + 2^8 * (m (a + 1)).toNat
      + 2^16 * (m (a + 2)).toNat + 2^24 * (m (a + 3)).toNat) / 2 ^ k % 2 ^ 8 := by
    intro k
    have hlt : (m a).toNat + 2^8 * (m (a + 1)).toNat
      + 2^16 * (m (a + 2)).toNat + 2^24 * (m (a + 3)).toNat < 2 ^ 32 := by omega
    rw [BitVec.extractLsb'_toNat, rd, BitVec.toNat_ofNat, Nat.mod_eq_of_lt hlt,
      Nat.shiftRight_eq_div_pow]
  rcases (by omega : i = 0 ∨ i = 1 ∨ i = 2 ∨ i = 3) with rfl | rfl | rfl | rfl
  · show some (some _) = some (some _)
    congr 2
    apply BitVec.eq_of_toNat_eq
    rw [e, BitVec.add_zero]
    omega
  · show some (some _) = some (some _)
    congr 2
    apply BitVec.eq_of_toNat_eq
    rw [e]
    show _ = (m (a + 1)).toNat
    omega
  · show some (some _) = some (some _)
    congr 2
    apply BitVec.eq_of_toNat_eq
    rw [e]
    show _ = (m (a + 2)).toNat
    omega
  · show some (some _) = some (some _)
    congr 2
    apply BitVec.eq_of_toNat_eq
    rw [e]
    show _ = (m (a + 3)).toNat
    omega

theorem ref_pushRef {p : Pass} (h1 : p.flags.getLsbD 1 = true) (o : Int)
    (hroom : A.stk.length + 4 ≤ S.depth) :
    Ref E S code (pushRef o) A (param (world E S) (off S.F o) p) (fun b => A.scr.grow b) := by
  apply ref_param
  intro m s hs hv
  have hv : okN (world E S).vis (off S.F o) 4 = true := by simpa [readSize, h1] using hv
  have hb : paramBytes m (off S.F o) p = word (rd m (off S.F o)) := by simp [paramBytes, h1]
  have h2 := hs.pushWord hS (o := some (rd m (off S.F o))) (w := rd s.mem (off S.F o))
    (fun v hv' => by rw [hs.rd_vis hv]; exact Option.some.inj hv') hroom
  refine execs_cons_ex (s₁ := _) ?_ ⟨_, rfl, (h2.weaken (scr_grow_le _)).weaken (hb ▸ Le.refl _)⟩
  rw [ex_pushMem, hs.ebp, if_pos (okN_of_vis hv), if_pos (hs.pushOk hS hroom)]

theorem ref_pushBasic {p : Pass} (h1 : p.flags.getLsbD 1 = false) (ht : p.type = 1)
    (hz : p.size = 1 ∨ p.size = 2 ∨ p.size = 4 ∨ p.size = 8) (o : Int) (c : Nat)
    (hroom : A.stk.length + 8 ≤ S.depth) :
    Ref E S code (pushBasic o p c).1 A (param (world E S) (off S.F o) p) (fun b => A.scr.grow b) := by
  apply ref_param
  intro m s hs hv
  have hv : okN (world E S).vis (off S.F o) p.size = true := by rwa [readSize, h1] at hv
  have hr := nextReg_cases c
  rcases hz with hz | hz | hz | hz
  · have hb : paramBytes m (off S.F o) p = word ((m (off S.F o)).setWidth 32) := by
      rw [paramBytes, h1]; simp [ht, hz]
    have hops : (pushBasic o p c).1 = [.movzx8Auto (nextReg c).1 ebp (i32 o), .push (nextReg c).1] := by
      simp [pushBasic, hz]
    rw [hops, hb]
    rw [hz] at hv
    have hv0 : (world E S).vis (off S.F o) = true := by
      rw [okN_iff] at hv
      simpa using hv 0 (by omega)
    refine push_reg hS hr hs (by omega) (w := (m (off S.F o)).setWidth 32) ?_ rfl fun i y hy => hy
    rw [ex_movzx8, hs.ebp, if_pos (acc_of_vis hv0), hs.mem _ (shown_of_vis hv0)]
  · have hb : paramBytes m (off S.F o) p
        = [some (m (off S.F o)), some (m (off S.F o + 1)), none, none] := by
      rw [paramBytes, h1]; simp [ht, hz]
    have hops : (pushBasic o p c).1 = [.movzx16Pre (nextReg c).1 ebp (i32 o), .push (nextReg c).1] := by
      simp [pushBasic, hz]
    rw [hops, hb]
    rw [hz] at hv
    have hv0 : (world E S).vis (off S.F o) = true := by
      rw [okN_iff] at hv
      simpa using hv 0 (by omega)
    have hv1 : (world E S).vis (off S.F o + 1) = true := by
      rw [okN_iff] at hv
      exact hv 1 (by omega)
    refine push_reg hS hr hs (by omega) (w := (s.reg (nextReg c).1).extractLsb' 16 16
      ++ (m (off S.F o + 1) ++ m (off S.F o))) ?_ rfl fun i y hy => ?_
    · rw [ex_mov16, hs.ebp, if_pos (okN_of_vis hv), hs.mem _ (shown_of_vis hv0),
        hs.mem _ (shown_of_vis hv1)]
    · have hi : i < 2 := by
        have := (List.getElem?_eq_some_iff.1 hy).1
        simp only [List.length_cons, List.length_nil] at this
        rcases (by omega : i < 2 ∨ i = 2 ∨ i = 3) with h | rfl | rfl
        · exact h
        · cases hy
        · cases hy
      have key : ∀ (x : BitVec 16) (u v : Byte),
          (x ++ (v ++ u)).extractLsb' 0 8 = u ∧ (x ++ (v ++ u)).extractLsb' 8 8 = v := by
        intro x u v
        constructor
        · apply BitVec.eq_of_getLsbD_eq
          intro j hj
          simp only [BitVec.getLsbD_extractLsb', BitVec.getLsbD_append]
          simp [hj]
          omega
        · apply BitVec.eq_of_getLsbD_eq
          intro j hj
          simp only [BitVec.getLsbD_extractLsb', BitVec.getLsbD_append]
          rw [if_pos (by omega), if_neg (by omega), Nat.add_sub_cancel_left]
          simp [hj]
      rcases (by omega : i = 0 ∨ i = 1) with rfl | rfl
      · rw [← hy]
        show some (some _) = some (some _)
        rw [(key _ _ _).1]
      · rw [← hy]
        show some (some _) = some (some _)
        rw [(key _ _ _).2]
  · have hb : paramBytes m (off S.F o) p = word (rd m (off S.F o)) := by
      rw [paramBytes, h1]; simp [ht, hz]
    have hops : (pushBasic o p c).1 = [.movRegAuto (nextReg c).1 ebp (i32 o), .push (nextReg c).1] := by
      simp [pushBasic, hz]
    rw [hops, hb]
    rw [hz] at hv
    refine push_reg hS hr hs (by omega) (w := rd m (off S.F o)) ?_ rfl fun i y hy => hy
    rw [ex_load, hs.ebp, if_pos (okN_of_vis hv), hs.rd_vis hv]
  · have hb : paramBytes m (off S.F o) p = word (rd m (off S.F o)) ++ word (rd m (off S.F (o + 4))) := by
      rw [paramBytes, h1]; simp [ht, hz]; rw [← off_add4]; rfl
    have hops : (pushBasic o p c).1 = [.movRegAuto (nextReg c).1 ebp (i32 (o + 4)),
        .movRegAuto (nextReg (nextReg c).2).1 ebp (i32 o),
      .push (nextReg c).1, .push (nextReg (nextReg c).2).1] := by
      simp [pushBasic, hz]
    rw [hops, hb]
    rw [hz] at hv
    have hr2 := nextReg_cases (nextReg c).2
    have hne := nextReg_ne c
    revert hr hr2 hne
    generalize (nextReg c).1 = r
    generalize (nextReg (nextReg c).2).1 = q
    intro hr hr2 hne
    have h4 : r ≠ 4 := by rcases hr with rfl | rfl | rfl <;> decide
    have h5 : r ≠ 5 := by rcases hr with rfl | rfl | rfl <;> decide
    have h4' : q ≠ 4 := by rcases hr2 with rfl | rfl | rfl <;> decide
    have h5' : q ≠ 5 := by rcases hr2 with rfl | rfl | rfl <;> decide
    have hlo := okN_pre hv 4 (by omega)
    have hhi := okN_sub hv 4 4 (by omega)
    rw [off_bytes] at hhi
    have hhi : okN (world E S).vis (off S.F (o + 4)) 4 = true := hhi
    have e1 : exec E.acc s (Op.movRegAuto r ebp (i32 (o + 4))).instr
        = some (s.set r (rd m (off S.F (o + 4)))) := by
      rw [ex_load, hs.ebp, if_pos (okN_of_vis hhi), hs.rd_vis hhi]
    have s1 : Inv S (A.set r (some (rd m (off S.F (o + 4))))) m (s.set r (rd m (off S.F (o + 4)))) :=
      hs.setReg h4 h5 fun v hv => Option.some.inj hv
    refine execs_cons_ex e1 ?_
    have e2 : exec E.acc (s.set r (rd m (off S.F (o + 4)))) (Op.movRegAuto q ebp (i32 o)).instr
        = some ((s.set r (rd m (off S.F (o + 4)))).set q (rd m (off S.F o))) := by
      rw [ex_load, s1.ebp, if_pos (okN_of_vis hlo), s1.rd_vis hlo]
    have s2 : Inv S ((A.set r (some (rd m (off S.F (o + 4))))).set q (some (rd m (off S.F o)))) m _ :=
      s1.setReg (w := rd m (off S.F o)) h4' h5' fun v hv => Option.some.inj hv
    refine execs_cons_ex e2 ?_
    obtain ⟨s', e, h'⟩ := (Run.cons (one_push hS r (by simp; omega))
      (Run.cons (one_push hS q (by simp; omega)) Run.nil)) m _ s2
    refine ⟨s', e, h'.weaken (Le.of ?_ rfl ?_ rfl)⟩
    · intro x v hv
      rw [Abs.grow_reg, scr_reg] at hv
      simp only [Abs.grow_reg, Abs.set_reg]
      have hx : x ≠ 1 ∧ x ≠ 2 ∧ x ≠ 3 := by
        refine ⟨?_, ?_, ?_⟩ <;> rintro rfl <;> cases hv
      obtain ⟨hx1, hx2, hx3⟩ := hx
      rw [if_neg hx3, if_neg hx2, if_neg hx1] at hv
      rw [if_neg (by rcases hr2 with rfl | rfl | rfl <;> assumption),
        if_neg (by rcases hr with rfl | rfl | rfl <;> assumption)]
      exact hv
    · simp [optWord, hne, Abs.scr]

theorem fill_top {m : Memory} {s : Mach U} {b b' post : Bytes} {M : Memory} (h : Inv S A m s)
    (he : A.stk = b ++ post) (hl : b'.length = b.length)
    (hm : ∀ x, (∀ i : Nat, i < b.length → x ≠ s.reg 4 + BitVec.ofNat 32 i) → M x = s.mem x)
    (hb : ∀ (i : Nat) y, b'[i]? = some (some y) → M (s.reg 4 + BitVec.ofNat 32 i) = y) :
    Inv S (A.stack (b' ++ post)) m (s.setM M) := by
  have := h.fill hS (pre := []) (b' := b') (M := M) he hl ?_ ?_
  · exact this
  · intro x hx
    apply hm
    intro i hi
    have := hx i hi
    rw [h.esp, off_bytes]
    simpa using this
  · intro i y hy
    rw [← hb i y hy, h.esp, off_bytes]
    simp

theorem ref_pushFloat {p : Pass} (h1 : p.flags.getLsbD 1 = false) (ht : p.type = 2)
    (hz : p.size = 4 ∨ p.size = 8) (o : Int) (c : Nat) (hf : A.fp = [])
    (hroom : A.stk.length + 8 ≤ S.depth) :
    Ref E S code (pushFloat o p c).1 A (param (world E S) (off S.F o) p) (fun b => A.scr.grow b) := by
  apply ref_param
  intro m s hs hv
  have hv : okN (world E S).vis (off S.F o) p.size = true := by rwa [readSize, h1] at hv
  have hfs : s.fpu = [] := by rw [hs.fpu, hf]
  rcases hz with hz | hz
  · have hb : paramBytes m (off S.F o) p = word (quiet32 (rd m (off S.F o))) := by
      rw [paramBytes, h1]; simp [ht, hz]
    have hops : (pushFloat o p c).1 = [.fld32Auto ebp (i32 o), .push (nextReg c).1, .fstp32Esp] := by
      simp [pushFloat, hz]
    rw [hops, hb]
    rw [hz] at hv
    have e1 : exec E.acc s (Op.fld32Auto ebp (i32 o)).instr
        = some (s.setF [U.of32 (rd m (off S.F o))]) := by
      rw [ex_fld32 _ _ _ _ hfs, hs.ebp, if_pos (okN_of_vis hv), hs.rd_vis hv]
    refine execs_cons_ex e1 ?_
    have s1 : Inv S (A.setF [U.of32 (rd m (off S.F o))]) m (s.setF [U.of32 (rd m (off S.F o))]) :=
      ⟨hs.noEsp, hs.ebp, hs.esp, hs.room, hs.reg, rfl, hs.stk, hs.mem, hs.priv⟩
    obtain ⟨s2, e2, i2⟩ := one_push hS (nextReg c).1
      (A := A.setF [U.of32 (rd m (off S.F o))]) (by simp; omega) m _ s1
    refine execs_cons_ex e2 ?_
    refine execs_cons_ex (s₁ := (s2.wrs (s2.reg 4) (quiet32 (rd m (off S.F o)))).setF []) ?_ ⟨_, rfl, ?_⟩
    · rw [ex_fstp32Esp _ _ i2.fpu, if_pos (i2.espOk hS (by simp)), U.back32]
    · have i3 := fill_top hS (b' := word (quiet32 (rd m (off S.F o)))) i2
        (M := wr s2.mem (s2.reg 4) (quiet32 (rd m (off S.F o)))) rfl (by simp)
        (fun x hx => wr_out fun i hi => hx i (by simpa using hi)) (by
          intro i y hy
          obtain ⟨hi, rfl⟩ := word_get hy
          exact wr_in _ _ _ hi)
      refine (Inv.weaken (A := A.grow (word (quiet32 (rd m (off S.F o)))))
        ⟨i3.noEsp, i3.ebp, i3.esp, i3.room, i3.reg, by rw [Abs.grow_fp, hf]; rfl, i3.stk, i3.mem, i3.priv⟩
        (scr_grow_le _))
  · have hb : paramBytes m (off S.F o) p = word ((quiet64 (rd64 m (off S.F o))).extractLsb' 0 32)
        ++ word ((quiet64 (rd64 m (off S.F o))).extractLsb' 32 32) := by
      rw [paramBytes, h1]; simp [ht, hz]
    have hops : (pushFloat o p c).1 = [.fld64Auto ebp (i32 o), .subImm8 esp (i8 8) 3, .fstp64Esp] := by
      simp [pushFloat, hz]
    rw [hops, hb]
    rw [hz] at hv
    have e1 : exec E.acc s (Op.fld64Auto ebp (i32 o)).instr
        = some (s.setF [U.of64 (rd64 m (off S.F o))]) := by
      rw [ex_fld64 _ _ _ _ hfs, hs.ebp, if_pos (okN_of_vis hv), hs.rd64_vis hv]
    refine execs_cons_ex e1 ?_
    have s1 : Inv S (A.setF [U.of64 (rd64 m (off S.F o))]) m (s.setF [U.of64 (rd64 m (off S.F o))]) :=
      ⟨hs.noEsp, hs.ebp, hs.esp, hs.room, hs.reg, rfl, hs.stk, hs.mem, hs.priv⟩
    obtain ⟨s2, e2, i2⟩ := one_sub8 hS 8 (by omega)
      (A := A.setF [U.of64 (rd64 m (off S.F o))]) (by simp; omega) m _ s1
    refine execs_cons_ex e2 ?_
    refine execs_cons_ex (s₁ := (s2.wrs64 (s2.reg 4) (quiet64 (rd64 m (off S.F o)))).setF []) ?_
      ⟨_, rfl, ?_⟩
    · rw [ex_fstp64Esp _ _ i2.fpu, if_pos (i2.espOk hS (by simp)), U.back64]
    · have i3 := fill_top hS (b' := word ((quiet64 (rd64 m (off S.F o))).extractLsb' 0 32)
        ++ word ((quiet64 (rd64 m (off S.F o))).extractLsb' 32 32)) i2
        (M := wr64 s2.mem (s2.reg 4) (quiet64 (rd64 m (off S.F o)))) rfl (by simp) (by
          intro x hx
          unfold wr64
          rw [wr_out, wr_out]
          · intro i hi
            exact hx i (by simp; omega)
          · intro i hi
            have := hx (4 + i) (by simp; omega)
            rw [BitVec.ofNat_add, ← BitVec.add_assoc] at this
            exact this) (by
          intro i y hy
          unfold wr64
          by_cases hi : i < 4
          · rw [List.getElem?_append_left (by simpa using hi)] at hy
            obtain ⟨_, rfl⟩ := word_get hy
            rw [wr_out, wr_in _ _ _ hi]
            intro j hj he
            rw [BitVec.add_assoc] at he
            have := congrArg (fun x => (x - s2.reg 4).toNat) he
            simp only [add_sub_self] at this
            simp at this
            omega
          · rw [List.getElem?_append_right (by simp; omega)] at hy
            obtain ⟨hj, rfl⟩ := word_get hy
            rw [word_length] at hj ⊢
            have : s2.reg 4 + BitVec.ofNat 32 i = s2.reg 4 + 4 + BitVec.ofNat 32 (i - 4) := by
              rw [BitVec.add_assoc]
              congr 1
              apply BitVec.eq_of_toNat_eq
              simp
              omega
            rw [this, wr_in _ _ _ hj])
      refine (Inv.weaken (A := A.grow (word ((quiet64 (rd64 m (off S.F o))).extractLsb' 0 32)
        ++ word ((quiet64 (rd64 m (off S.F o))).extractLsb' 32 32)))
        ⟨i3.noEsp, i3.ebp, i3.esp, i3.room, i3.reg, by rw [Abs.grow_fp, hf]; rfl, i3.stk, i3.mem, i3.priv⟩
        (scr_grow_le _))

omit hS in
theorem vis_apart {dst src : W} {n N : Nat} (hsrc : okN (world E S).vis src n = true)
    (hdst : ∀ i < N, S.hidden (dst + BitVec.ofNat 32 i) = true) (hn : n ≤ N) :
    apart dst src n = true := by
  simp only [apart, Bool.and_eq_true, decide_eq_true_eq]
  constructor
  · apply Nat.le_of_not_lt
    intro hlt
    have h1 := okN_shown hsrc hlt
    rw [BitVec.ofNat_toNat, BitVec.setWidth_eq, BitVec.add_comm, BitVec.sub_add_cancel] at h1
    have h2 := hdst 0 (by omega)
    simp at h2
    rw [h1] at h2
    cases h2
  · apply Nat.le_of_not_lt
    intro hlt
    have h1 := hdst _ (Nat.lt_of_lt_of_le hlt hn)
    rw [BitVec.ofNat_toNat, BitVec.setWidth_eq, BitVec.add_comm, BitVec.sub_add_cancel] at h1
    have h2 := okN_shown hsrc (i := 0) (by omega)
    simp at h2
    rw [h1] at h2
    cases h2

theorem ref_pushObject {p : Pass} (hp : PassOk p) (h1 : p.flags.getLsbD 1 = false) (ht : p.type = 3)
    (hc : p.cctor = 0) (o fb : Int) (hroom : A.stk.length + stackSize p + 8 ≤ S.depth) :
    Ref E S code (pushObject o fb p) A (param (world E S) (off S.F o) p) (fun b => A.scr.grow b) := by
  apply ref_param
  intro m s hs hv
  have hv : okN (world E S).vis (off S.F o) p.size = true := by rwa [readSize, h1] at hv
  have hlow := hS.low
  have hdep := hS.depth
  have harg := hS.args
  have hN : p.size ≤ stackSize p := by
    rw [stackSize_eq, h1, hp.notForced]; simp; omega
  have hops : pushObject o fb p = ([.subImmAuto esp (i32 (stackSize p)) 3, .cld, .push edi, .push esi,
      .leaSib8 edi 4 4 0 (i8 8), .leaAuto esi ebp (i32 o)]) ++ (movs p.size ++ [.pop esi, .pop edi]) := by
    unfold pushObject pushCopy
    rw [has_forced, hp.notForced, hc, bitwiseCopy_eq]
    simp
  have hb : paramBytes m (off S.F o) p
      = (List.range p.size).map (fun i => some (m (off S.F o + BitVec.ofNat 32 i)))
        ++ List.replicate ((p.size + 3) / 4 * 4 - p.size) none := by
    rw [paramBytes, h1]; simp [ht]
  have hlen := paramBytes_length hp m (off S.F o)
  rw [hops]
  have hd : S.low - ((A.stk.length + stackSize p + 8 : Nat) : Int) + 8
    = S.low - A.stk.length - stackSize p := by omega
  let A₂ : Abs U := ((((A.grow (List.replicate (stackSize p) none)).grow (optWord (A.reg 7))).grow
      (optWord (A.reg 6))).set 7 (some (off S.F (S.low - A.stk.length - stackSize p)))).set 6
      (some (off S.F o))
  have hrun : Run E S A [.subImmAuto esp (i32 (stackSize p)) 3, .cld, .push edi, .push esi,
      .leaSib8 edi 4 4 0 (i8 8), .leaAuto esi ebp (i32 o)] A₂ := by
    refine Run.cons (one_sub hS _ (by omega)) (Run.cons one_cld (Run.cons (one_push hS 7 (by simp; omega))
      (Run.cons (one_push hS 6 (by simp; omega)) (Run.cons (A₁ := (((A.grow
        (List.replicate (stackSize p) none)).grow (optWord (A.reg 7))).grow
      (optWord (A.reg 6))).set 7 (some (off S.F (S.low - A.stk.length - stackSize p)))) ?_
        (Run.cons (one_lea 6 o (by decide) (by decide)) Run.nil)))))
    have := one_leaEsp (E := E) (S := S) (A := ((A.grow (List.replicate (stackSize p) none)).grow
      (optWord (A.reg 7))).grow (optWord (A.reg 6))) 7 8 (by omega) (by decide) (by decide)
    have e : S.low - ((((A.grow (List.replicate (stackSize p) none)).grow
      (optWord (A.reg 7))).grow (optWord (A.reg 6))).stk.length : Int) + 8
        = S.low - A.stk.length - stackSize p := by
      simp
      omega
    rw [e] at this
    exact this
  obtain ⟨s₁, e₁, i₁⟩ := hrun m s hs
  have hlen2 : A₂.stk.length = A.stk.length + stackSize p + 8 := by simp [A₂]; omega
  have hd2 : S.low - (A₂.stk.length : Int) + ((optWord (A.reg 6) ++ optWord (A.reg 7)).length : Nat)
      = S.low - A.stk.length - stackSize p := by rw [hlen2]; simp; omega
  have hhid : ∀ i < stackSize p,
      S.hidden (off S.F (S.low - A.stk.length - stackSize p) + BitVec.ofNat 32 i) = true := by
    intro i hi
    rw [off_bytes]
    exact hidden_low hS (by omega) (by omega)
  obtain ⟨s₂, e₂, hm₂, hf₂, hr₂⟩ := execs_movs (acc := E.acc) p.size s₁
    (dst := off S.F (S.low - A.stk.length - stackSize p)) (src := off S.F o)
    (i₁.reg 7 _ rfl) (i₁.reg 6 _ rfl) (by omega) (okN_of_vis hv)
    (okN_stack hS (by omega) (by omega)) (vis_apart hv hhid hN)
  have i₂ : Inv S (A₂.stack ((optWord (A.reg 6) ++ optWord (A.reg 7)) ++ (paramBytes m (off S.F o) p ++ A.stk)))
      m (s₁.setM (blk s₁.mem (off S.F (S.low - A.stk.length - stackSize p)) (off S.F o) p.size)) := by
    refine i₁.fill hS (pre := optWord (A.reg 6) ++ optWord (A.reg 7))
      (b := List.replicate (stackSize p) none) (by simp [A₂]) (by simp [hlen]) ?_ ?_
    · intro x hx
      unfold blk
      rw [if_neg]
      intro hlt
      have := hx (x - off S.F (S.low - A.stk.length - stackSize p)).toNat
        (by rw [List.length_replicate]; omega)
      rw [hd2, ← off_bytes, BitVec.ofNat_toNat, BitVec.setWidth_eq, BitVec.add_comm,
        BitVec.sub_add_cancel] at this
      exact this rfl
    · intro i y hy
      rw [hd2, ← off_bytes]
      rw [hb, List.getElem?_append] at hy
      split at hy
      · rename_i hi
        simp only [List.length_map, List.length_range] at hi
        simp only [List.getElem?_map, List.getElem?_range hi, Option.map_some, Option.some.injEq] at hy
        unfold blk
        rw [add_sub_self]
        have : (BitVec.ofNat 32 i).toNat = i := by simp; omega
        rw [this, if_pos hi, i₁.mem _ (okN_shown hv hi)]
        exact hy
      · rw [List.getElem?_replicate] at hy
        split at hy <;> simp at hy
  have i₃ := i₂.forget (s' := s₂) hm₂ hf₂ hr₂
  obtain ⟨s₃, e₃, i₄⟩ := (Run.cons (one_pop hS (r := 6) (A.reg 6)
    (rest := optWord (A.reg 7) ++ (paramBytes m (off S.F o) p ++ A.stk))
    (by simp [Abs.forget]) (by decide) (by decide))
    (Run.cons (one_pop hS (r := 7) (A.reg 7) (rest := paramBytes m (off S.F o) p ++ A.stk) rfl
      (by decide) (by decide)) Run.nil)) m s₂ i₃
  refine ⟨s₃, execs_seq e₁ (execs_seq e₂ e₃), i₄.weaken (Le.of ?_ rfl rfl rfl)⟩
  intro q v hv
  rw [Abs.grow_reg, scr_reg] at hv
  have hx : q ≠ 1 ∧ q ≠ 2 ∧ q ≠ 3 := by
    refine ⟨?_, ?_, ?_⟩ <;> rintro rfl <;> cases hv
  obtain ⟨hx1, hx2, hx3⟩ := hx
  rw [if_neg hx3, if_neg hx2, if_neg hx1] at hv
  by_cases h7 : q = 7
  · subst h7; exact hv
  by_cases h6 : q = 6
  · subst h6; exact hv
  simp only [Abs.set_reg, Abs.stack_reg, Abs.forget, h7, h6, hx1, if_false, A₂, Abs.grow_reg]
  exact hv

end

/-! ## All parameters -/

theorem params_length {Wd : World} {ps : List Pass} (hp : ∀ p ∈ ps, PassOk p) : ∀ {a : W} {m m' : Memory}
    {as as' : List (Ans U)} {t : List SCall} {b : Bytes},
    params Wd a ps m as = some (b, m', as', t) → b.length = slots ps := by
  induction ps with
  | nil =>
    intro a m m' as as' t b h
    have h : some (([] : Bytes), m, as, ([] : List SCall)) = some (b, m', as', t) := h
    simp only [Option.some.injEq, Prod.mk.injEq] at h
    rw [← h.1]
    rfl
  | cons p ps ih =>
    intro a m m' as as' t b h
    obtain ⟨r, m₁, as₁, t₁, t₂, e₁, e₂, _⟩ := bind_some h
    obtain ⟨b₁, m₂, as₂, t₃, t₄, e₃, e₄, _⟩ := bind_some e₂
    have h4 : some (b₁ ++ r, m₂, as₂, ([] : List SCall)) = some (b, m', as', t₄) := e₄
    simp only [Option.some.injEq, Prod.mk.injEq] at h4
    obtain ⟨_, rfl, _⟩ := param_some e₃
    rw [← h4.1, List.length_append, paramBytes_length (hp p List.mem_cons_self),
      ih (fun q hq => hp q (List.mem_cons_of_mem _ hq)) e₁, slots_cons]

/-- The bytes counted for one parameter are those it takes. -/
theorem pushOne_bytes {p : Pass} (hp : PassOk p) (o fb : Int) (c : Nat) (last : Int) :
    (pushOne o fb p c last).2.2 = stackSize p := by
  unfold pushOne
  rw [has_byVal, has_byRef, stackSize_eq, hp.notForced]
  cases h1 : p.flags.getLsbD 1 with
  | true =>
    have h0 := hp.one
    rw [h1] at h0
    rw [h0]
    simp
  | false =>
    have h0 := hp.one
    rw [h1] at h0
    rw [h0]
    simp only [Bool.not_false, if_true, Bool.false_eq_true, or_self, if_false]
    rcases hp.value h0 with ⟨ht, hs⟩ | ⟨ht, hs⟩ | ⟨ht, _⟩
    · rw [if_pos ht]
      unfold pushBasic
      rcases hs with hs | hs | hs | hs <;> simp [hs]
    · rw [if_neg (by rw [ht]; decide), if_pos ht]
      unfold pushFloat
      rcases hs with hs | hs <;> simp [hs]
    · rw [if_neg (by rw [ht]; decide), if_neg (by rw [ht]; decide), if_pos ht, has_forced, hp.notForced]
      simp

section
variable {E : Env} {S : Stack} {code : List Byte} (hS : StackOk E S)
include hS

theorem ref_pushOne {A : Abs U} {p : Pass} (hp : PassOk p) (o fb : Int) (c : Nat) (last : Int)
    (hf : A.fp = []) (hroom : A.stk.length + stackSize p + 8 ≤ S.depth) :
    Ref E S code (pushOne o fb p c last).1 A (param (world E S) (off S.F o) p)
      (fun b => A.scr.grow b) := by
  unfold pushOne
  rw [has_byVal, has_byRef]
  cases h1 : p.flags.getLsbD 1 with
  | true =>
    have h0 := hp.one
    rw [h1] at h0
    rw [h0]
    simp only [Bool.not_true, Bool.false_eq_true, if_false, if_true]
    exact ref_pushRef hS h1 o (by omega)
  | false =>
    have h0 := hp.one
    rw [h1] at h0
    rw [h0]
    simp only [Bool.not_false, if_true]
    rcases hp.value h0 with ⟨ht, hs⟩ | ⟨ht, hs⟩ | ⟨ht, hcc, _⟩
    · rw [if_pos ht]
      exact ref_pushBasic hS h1 ht hs o c (by omega)
    · rw [if_neg (by rw [ht]; decide), if_pos ht]
      exact ref_pushFloat hS h1 ht hs o c hf (by omega)
    · rw [if_neg (by rw [ht]; decide), if_neg (by rw [ht]; decide), if_pos ht]
      exact ref_pushObject hS hp h1 ht hcc o fb hroom

/-- `PushParams`. -/
theorem ref_pushList {fb : Int} {ps : List Pass} (hp : ∀ p ∈ ps, PassOk p) :
    ∀ {A : Abs U} {o fo : Int} {c : Nat}, A.fp = [] → A.stk.length + slots ps + 8 ≤ S.depth →
    Ref E S code (pushList fb o fo ps c).1 A (params (world E S) (off S.F o) ps)
      (fun b => A.scr.grow b) ∧ (pushList fb o fo ps c).2.2.2 = slots ps := by
  induction ps with
  | nil =>
    intro A o fo c _ _
    exact ⟨Ref.done (scr_grow_le (A := A) []), rfl⟩
  | cons p ps ih =>
    intro A o fo c hf hroom
    rw [slots_cons] at hroom
    obtain ⟨h1, h2⟩ := ih (fun q hq => hp q (List.mem_cons_of_mem _ hq)) (A := A)
      (o := o + stackSize p) (fo := fbrrStep fo p) (c := c) hf (by omega)
    have hpk := hp p List.mem_cons_self
    unfold pushList
    generalize pushList fb (o + stackSize p) (fbrrStep fo p) ps c = q at *
    obtain ⟨ops, c', last, n⟩ := q
    simp only
    have hb := pushOne_bytes hpk o (fb + fo) c' last
    have hr : ∀ A' : Abs U, A'.fp = [] → A'.stk.length + stackSize p + 8 ≤ S.depth → _ :=
      fun A' hf' hr' => ref_pushOne (code := code) hS hpk o (fb + fo) c' last (A := A') hf' hr'
    generalize pushOne o (fb + fo) p c' last = q at *
    obtain ⟨ops', c'', k⟩ := q
    simp only at h2 hb hr ⊢
    refine ⟨?_, ?_⟩
    · unfold params
      rw [off_bytes, slotSize_eq hpk]
      refine Ref.seqP (fun r : Bytes => r.length = slots ps)
        (fun m as r m' as' t hx => params_length (fun q hq => hp q (List.mem_cons_of_mem _ hq)) hx)
        h1 fun r hr' => ?_
      refine Ref.map (f := fun b => b ++ r) (B := fun b => A.scr.grow b) ?_
      refine (hr (A.scr.grow r) hf (by simp [Abs.scr]; omega)).weaken fun b => ?_
      refine Le.of ?_ rfl (by simp [Abs.scr]) rfl
      intro q v hv
      rw [Abs.grow_reg, scr_reg] at hv ⊢
      rw [Abs.grow_reg, scr_reg]
      split
      · rename_i h; rw [if_pos h] at hv; exact hv
      · rename_i h
        rw [if_neg h] at hv
        split
        · rename_i h; rw [if_pos h] at hv; exact hv
        · rename_i h
          rw [if_neg h] at hv
          split
          · rename_i h; rw [if_pos h] at hv; exact hv
          · rename_i h'
            rw [if_neg h'] at hv
            exact hv
    · rw [h2, hb, slots_cons]
      omega

end

end Verif.Jit32
