import Verif.Jit32.HookInv
/-
Helper lemmas for C76: the effect of the instructions on the abstract state, and machine code that
follows a program.
-/
namespace Verif.Jit32

open Verif.Jit (Byte)
open Spec

variable {U : Fpu}

/-! ## Straight code -/

/-- No counterpart in /repo: one instruction takes the abstract state `A` to `A'`. -/
def One (E : Env) (S : Stack) (A : Abs U) (o : Op) (A' : Abs U) : Prop :=
  ∀ m s, Inv S A m s → ∃ s', exec E.acc s o.instr = some s' ∧ Inv S A' m s'

/-- No counterpart in /repo: straight code takes the abstract state `A` to `A'`. -/
def Run (E : Env) (S : Stack) (A : Abs U) (ops : List Op) (A' : Abs U) : Prop :=
  ∀ m s, Inv S A m s → ∃ s', execs E.acc s ops = some s' ∧ Inv S A' m s'

section
variable {E : Env} {S : Stack} {A A₁ A' : Abs U}

theorem Run.nil : Run E S A [] A := fun _ s h => ⟨s, rfl, h⟩

theorem Run.cons {o : Op} {ops : List Op} (h : One E S A o A₁) (h' : Run E S A₁ ops A') :
    Run E S A (o :: ops) A' := by
  intro m s hs
  obtain ⟨s₁, e₁, h₁⟩ := h m s hs
  obtain ⟨s₂, e₂, h₂⟩ := h' m s₁ h₁
  refine ⟨s₂, ?_, h₂⟩
  rw [execs, e₁]
  exact e₂

theorem Run.append {a b : List Op} (h : Run E S A a A₁) (h' : Run E S A₁ b A') :
    Run E S A (a ++ b) A' := by
  intro m s hs
  obtain ⟨s₁, e₁, h₁⟩ := h m s hs
  obtain ⟨s₂, e₂, h₂⟩ := h' m s₁ h₁
  exact ⟨s₂, execs_seq e₁ e₂, h₂⟩

theorem Run.single {o : Op} (h : One E S A o A') : Run E S A [o] A' :=
  Run.cons h Run.nil

/-- No counterpart in /repo: all that is known with `A'` is known with `A`. -/
structure Le (A A' : Abs U) : Prop where
  reg : ∀ r v, A'.reg r = some v → A.reg r = some v
  fp : A'.fp = A.fp
  len : A'.stk.length = A.stk.length
  stk : ∀ (i : Nat) b, A'.stk[i]? = some (some b) → A.stk[i]? = some (some b)
  loc : ∀ k, A'.loc k = A.loc k

theorem Le.refl (A : Abs U) : Le A A := ⟨fun _ _ h => h, rfl, rfl, fun _ _ h => h, fun _ => rfl⟩

theorem Le.of (hr : ∀ r v, A'.reg r = some v → A.reg r = some v) (hf : A'.fp = A.fp)
    (hs : A'.stk = A.stk) (hl : A'.loc = A.loc) : Le A A' :=
  ⟨hr, hf, by rw [hs], fun _ _ h => by rw [← hs]; exact h, fun _ => by rw [hl]⟩

theorem Le.trans {A₂ : Abs U} (h : Le A A₁) (h' : Le A₁ A₂) : Le A A₂ :=
  ⟨fun r v hv => h.reg r v (h'.reg r v hv), h'.fp.trans h.fp, h'.len.trans h.len,
   fun i b hb => h.stk i b (h'.stk i b hb), fun k => (h'.loc k).trans (h.loc k)⟩

theorem Inv.weaken {m : Memory} {s : Mach U} (h : Inv S A m s) (hl : Le A A') : Inv S A' m s := by
  refine ⟨?_, h.ebp, by rw [hl.len]; exact h.esp, by rw [hl.len]; exact h.room,
    fun r v hv => h.reg r v (hl.reg r v hv), by rw [hl.fp]; exact h.fpu,
    fun i b hb => by rw [hl.len]; exact h.stk i b (hl.stk i b hb), h.mem, fun k hk => by rw [hl.loc]; exact h.priv k hk⟩
  cases e : A'.reg 4 with
  | none => rfl
  | some v =>
    have := hl.reg 4 v e
    rw [h.noEsp] at this
    cases this

theorem Run.weaken {ops : List Op} (h : Run E S A ops A₁) (hl : Le A₁ A') : Run E S A ops A' := by
  intro m s hs
  obtain ⟨s', e, h'⟩ := h m s hs
  exact ⟨s', e, h'.weaken hl⟩

variable (hS : StackOk E S)
include hS

theorem one_push (r : Reg) (hr : A.stk.length + 4 ≤ S.depth) :
    One E S A (.push r) (A.grow (optWord (A.reg r))) := by
  intro m s h
  refine ⟨_, ?_, h.pushWord hS (w := s.reg r) (fun v hv => h.reg r v hv) hr⟩
  rw [ex_push, if_pos (h.pushOk hS hr)]

theorem one_pushImm (v : W) (hr : A.stk.length + 4 ≤ S.depth) :
    One E S A (.pushImm32 v) (A.grow (word v)) := by
  intro m s h
  refine ⟨_, ?_, h.pushWord hS (o := some v) (w := v) (fun v hv => Option.some.inj hv) hr⟩
  rw [ex_pushImm, if_pos (h.pushOk hS hr)]

theorem one_pushImm8 (k : Int) (hk : -128 ≤ k ∧ k < 128) (hr : A.stk.length + 4 ≤ S.depth) :
    One E S A (.pushImm8 (i8 k)) (A.grow (word (i32 k))) := by
  intro m s h
  refine ⟨_, ?_, h.pushWord hS (o := some (i32 k)) (w := i32 k)
    (fun v hv => Option.some.inj hv) hr⟩
  rw [ex_pushImm8 _ _ _ hk, if_pos (h.pushOk hS hr)]

theorem one_pushSlot (k : Int) (hk : S.slot k) (hr : A.stk.length + 4 ≤ S.depth) :
    One E S A (.pushAuto ebp (i32 k)) (A.grow (word (A.loc k))) := by
  intro m s h
  refine ⟨_, ?_, h.pushWord hS (o := some (A.loc k)) (w := A.loc k)
    (fun v hv => Option.some.inj hv) hr⟩
  rw [ex_pushMem, h.ebp, if_pos (okN_slot hS hk), if_pos (h.pushOk hS hr), h.priv k hk]

theorem one_pop {r : Reg} (o : Option W) {rest : Bytes} (he : A.stk = optWord o ++ rest)
    (h4 : r ≠ 4) (h5 : r ≠ 5) : One E S A (.pop r) ((A.stack rest).set r o) := by
  intro m s h
  have hl : A.stk.length = 4 + rest.length := by rw [he]; simp
  have hd := h.drop he (v := off (s.reg 4) 4)
    (by rw [h.esp, off_off]; congr 1; omega)
  have := hd.setReg (r := r) (w := rd s.mem (s.reg 4)) (o := o) h4 h5 (by
    intro v hv
    subst hv
    exact h.top he)
  refine ⟨_, ?_, this⟩
  rw [ex_pop, if_pos (h.espOk hS (by omega))]

omit hS in
theorem one_movReg (r q : Reg) (h4 : r ≠ 4) (h5 : r ≠ 5) :
    One E S A (.movRegRm r q 3) (A.set r (A.reg q)) := by
  intro m s h
  exact ⟨_, ex_movReg _ _ _ _, h.setReg h4 h5 fun v hv => h.reg q v hv⟩

omit hS in
theorem one_movImm (r : Reg) (v : W) (h4 : r ≠ 4) (h5 : r ≠ 5) :
    One E S A (.movImm r v) (A.set r (some v)) := by
  intro m s h
  exact ⟨_, ex_movImm _ _ _ _, h.setReg h4 h5 fun v hv => Option.some.inj hv⟩

omit hS in
theorem one_movRmImm (r : Reg) (v : W) (h4 : r ≠ 4) (h5 : r ≠ 5) :
    One E S A (.movRmImm r v 3) (A.set r (some v)) := by
  intro m s h
  exact ⟨_, ex_movRmImm _ _ _ _, h.setReg h4 h5 fun v hv => Option.some.inj hv⟩

omit hS in
theorem one_lea (r : Reg) (k : Int) (h4 : r ≠ 4) (h5 : r ≠ 5) :
    One E S A (.leaAuto r ebp (i32 k)) (A.set r (some (off S.F k))) := by
  intro m s h
  refine ⟨_, ex_lea _ _ _ _ _, h.setReg h4 h5 fun v hv => ?_⟩
  rw [h.ebp]
  exact Option.some.inj hv

omit hS in
theorem one_lea8 (r : Reg) (k : Int) (hk : -128 ≤ k ∧ k < 128) (h4 : r ≠ 4) (h5 : r ≠ 5) :
    One E S A (.lea8 r ebp (i8 k)) (A.set r (some (off S.F k))) := by
  intro m s h
  refine ⟨_, ex_lea8 _ _ _ _ _ hk, h.setReg h4 h5 fun v hv => ?_⟩
  rw [h.ebp]
  exact Option.some.inj hv

omit hS in
theorem one_leaEsp (r : Reg) (k : Int) (hk : -128 ≤ k ∧ k < 128) (h4 : r ≠ 4) (h5 : r ≠ 5) :
    One E S A (.leaSib8 r 4 4 0 (i8 k))
      (A.set r (some (off S.F (S.low - A.stk.length + k)))) := by
  intro m s h
  refine ⟨_, ex_leaEsp _ _ _ _ hk, h.setReg h4 h5 fun v hv => ?_⟩
  rw [h.esp, off_off]
  exact Option.some.inj hv

omit hS in
theorem one_xor (r : Reg) (h4 : r ≠ 4) (h5 : r ≠ 5) :
    One E S A (.xorRegRm r r 3) (A.set r (some 0)) := by
  intro m s h
  refine ⟨_, ex_xor _ _ _, (h.setReg h4 h5 (w := 0) fun v hv => Option.some.inj hv).congr rfl rfl rfl⟩

omit hS in
theorem one_add (r : Reg) (k : Int) {v : W} (hv : A.reg r = some v) (h4 : r ≠ 4) (h5 : r ≠ 5) :
    One E S A (.addImmAuto r (i32 k) 3) (A.set r (some (off v k))) := by
  intro m s h
  refine ⟨_, ex_addAuto _ _ _ _, (h.setReg h4 h5 (w := off (s.reg r) k) fun v' hv' => ?_).congr
    rfl rfl rfl⟩
  rw [h.reg r v hv]
  exact Option.some.inj hv'

omit hS in
theorem one_addReg (r q : Reg) {v w : W} (hv : A.reg r = some v) (hw : A.reg q = some w) (h4 : r ≠ 4)
    (h5 : r ≠ 5) : One E S A (.addRegRm r q 3) (A.set r (some (v + w))) := by
  intro m s h
  refine ⟨_, ex_addReg _ _ _ _, (h.setReg h4 h5 (w := s.reg r + s.reg q) fun v' hv' => ?_).congr
    rfl rfl rfl⟩
  rw [h.reg r v hv, h.reg q w hw]
  exact Option.some.inj hv'

omit hS in
theorem one_cld : One E S A .cld A := fun _ s h => ⟨s, ex_cld _ _, h⟩

theorem one_loadSlot (r : Reg) (k : Int) (hk : S.slot k) (h4 : r ≠ 4) (h5 : r ≠ 5) :
    One E S A (.movRegAuto r ebp (i32 k)) (A.set r (some (A.loc k))) := by
  intro m s h
  refine ⟨_, ?_, h.setReg h4 h5 (w := A.loc k) fun v hv => Option.some.inj hv⟩
  rw [ex_load, h.ebp, if_pos (okN_slot hS hk), h.priv k hk]

theorem one_saveSlot (r : Reg) (k : Int) {v : W} (hv : A.reg r = some v) (hk : S.slot k) :
    One E S A (.movAutoReg ebp r (i32 k)) (A.setL k v) := by
  intro m s h
  refine ⟨_, ?_, h.setLoc hS hk v⟩
  rw [ex_store, h.ebp, if_pos (okN_slot hS hk), h.reg r v hv]

theorem one_saveSlot8 (r : Reg) (k : Int) (hk' : -128 ≤ k ∧ k < 128) {v : W} (hv : A.reg r = some v)
    (hk : S.slot k) : One E S A (.movD8Reg ebp r (i8 k)) (A.setL k v) := by
  intro m s h
  refine ⟨_, ?_, h.setLoc hS hk v⟩
  rw [ex_store8 _ _ _ _ _ hk', h.ebp, if_pos (okN_slot hS hk), h.reg r v hv]

/-- Room on the stack. -/
theorem inv_lower {m : Memory} {s : Mach U} (h : Inv S A m s) (n : Nat)
    (hr : A.stk.length + n ≤ S.depth) :
    Inv S (A.grow (List.replicate n none)) m (s.set 4 (off (s.reg 4) (-n))) := by
  have := h.grow hS (M := s.mem) (List.replicate n none) (by simp; omega) (fun _ _ => rfl) (by
    intro i y hy
    rw [List.getElem?_replicate] at hy
    split at hy <;> simp at hy)
  rw [List.length_replicate] at this
  have e : off (s.reg 4) (-n) = off S.F (S.low - A.stk.length - n) := by
    rw [h.esp, off_off]; rfl
  rw [e]
  exact this

theorem one_sub (n : Nat) (hr : A.stk.length + n ≤ S.depth) :
    One E S A (.subImmAuto esp (i32 n) 3) (A.grow (List.replicate n none)) := by
  intro m s h
  refine ⟨_, ex_subAuto _ _ _ _, (inv_lower hS h n hr).congr rfl rfl rfl⟩

theorem one_sub8 (n : Nat) (hn : n < 128) (hr : A.stk.length + n ≤ S.depth) :
    One E S A (.subImm8 esp (i8 n) 3) (A.grow (List.replicate n none)) := by
  intro m s h
  refine ⟨_, ex_sub8 _ _ _ _ (by omega), (inv_lower hS h n hr).congr rfl rfl rfl⟩

omit hS in
theorem inv_raise {m : Memory} {s : Mach U} (h : Inv S A m s) {b rest : Bytes} {n : Int}
    (he : A.stk = b ++ rest) (hn : b.length = n) :
    Inv S (A.stack rest) m (s.set 4 (off (s.reg 4) n)) := by
  apply h.drop he
  have : A.stk.length = b.length + rest.length := by rw [he]; simp
  rw [h.esp, off_off]
  congr 1
  omega

omit hS in
theorem one_raise {b rest : Bytes} {n : Int} (he : A.stk = b ++ rest) (hn : b.length = n) :
    One E S A (.addImmAuto esp (i32 n) 3) (A.stack rest) := by
  intro m s h
  exact ⟨_, ex_addAuto _ _ _ _, (inv_raise h he hn).congr rfl rfl rfl⟩

omit hS in
theorem one_raise32 {b rest : Bytes} {n : Int} (he : A.stk = b ++ rest) (hn : b.length = n) :
    One E S A (.addImm32 esp (i32 n) 3) (A.stack rest) := by
  intro m s h
  exact ⟨_, ex_add32 _ _ _ _, (inv_raise h he hn).congr rfl rfl rfl⟩

omit hS in
theorem one_raise8 {b rest : Bytes} {n : Int} (he : A.stk = b ++ rest) (hn : b.length = n)
    (h8 : n < 128) : One E S A (.addImm8 esp (i8 n) 3) (A.stack rest) := by
  intro m s h
  exact ⟨_, ex_add8 _ _ _ _ (by omega), (inv_raise h he hn).congr rfl rfl rfl⟩

theorem run_lower (n : Nat) (hr : A.stk.length + n ≤ S.depth) :
    Run E S A (lower n) (A.grow (List.replicate n none)) := by
  unfold lower
  split
  · exact Run.single (one_sub hS n hr)
  · rename_i h
    have : n = 0 := by omega
    subst this
    exact Run.nil

omit hS in
theorem run_raiseBack {b rest : Bytes} {n : Int} (he : A.stk = b ++ rest) (hn : b.length = n) :
    Run E S A (raiseBack n) (A.stack rest) := by
  unfold raiseBack
  split
  · exact Run.single (one_raise he hn)
  · rename_i h
    have h0 : n = 0 := by omega
    have : b = [] := List.eq_nil_of_length_eq_zero (by omega)
    subst this
    have : A.stack rest = A := by
      rw [List.nil_append] at he
      rw [← he]; rfl
    rw [this]
    exact Run.nil

end

/-! ## Code that follows a program -/

/-- No counterpart in /repo: the code `ops` does what the program `x` does; what is known before is
`A`, afterwards `B`. -/
def Ref {α : Type} (E : Env) (S : Stack) (code : List Byte) (ops : List Op) (A : Abs U) (x : M U α)
    (B : α → Abs U) : Prop :=
  ∀ pc, At code pc ops → ∀ m as a m' as' t, x m as = some (a, m', as', t) → ∀ s, Inv S A m s →
    ∃ s' t', Steps E code ⟨pc, s, as⟩ t' ⟨pc + size ops, s', as'⟩ ∧ AreCalls S t t' ∧
      Inv S (B a) m' s'

theorem Spec.AreCalls.append {S : Stack} {t u : List SCall} {t' u' : List (Event U)}
    (h : AreCalls S t t') (h' : AreCalls S u u') : AreCalls S (t ++ u) (t' ++ u') := by
  induction h with
  | nil => exact h'
  | cons hc _ ih => exact .cons hc ih

theorem bind_some {α β : Type} {x : M U α} {f : α → M U β} {m : Memory} {as : List (Ans U)} {b : β}
    {m' : Memory} {as' : List (Ans U)} {t : List SCall}
    (h : (x >>= f) m as = some (b, m', as', t)) :
    ∃ a m₁ as₁ t₁ t₂, x m as = some (a, m₁, as₁, t₁) ∧ f a m₁ as₁ = some (b, m', as', t₂) ∧
      t = t₁ ++ t₂ := by
  have h : M.andThen x f m as = _ := h
  unfold M.andThen at h
  cases e : x m as with
  | none => rw [e] at h; cases h
  | some q =>
    obtain ⟨a, m₁, as₁, t₁⟩ := q
    rw [e] at h
    simp only at h
    cases e' : f a m₁ as₁ with
    | none => rw [e'] at h; cases h
    | some q' =>
      obtain ⟨b', m₂, as₂, t₂⟩ := q'
      rw [e'] at h
      simp only [Option.some.injEq, Prod.mk.injEq] at h
      obtain ⟨rfl, rfl, rfl, rfl⟩ := h
      exact ⟨a, m₁, as₁, t₁, t₂, rfl, e', rfl⟩

section
variable {α β : Type} {E : Env} {S : Stack} {code : List Byte} {A A₁ : Abs U} {x : M U α}
  {a b : List Op}

theorem Ref.pre {B : α → Abs U} (h : Run E S A a A₁) (h' : Ref E S code b A₁ x B) :
    Ref E S code (a ++ b) A x B := by
  intro pc hat m as r m' as' t hx s hs
  obtain ⟨s₁, e₁, h₁⟩ := h m s hs
  obtain ⟨s₂, t', st, hc, h₂⟩ := h' _ hat.right m as r m' as' t hx s₁ h₁
  refine ⟨s₂, t', ?_, hc, h₂⟩
  have := (steps_straight a hat.left e₁).trans st
  rwa [List.nil_append, Nat.add_assoc, ← size_append] at this

theorem Ref.post {B C : α → Abs U} (h : Ref E S code a A x B) (h' : ∀ r, Run E S (B r) b (C r)) :
    Ref E S code (a ++ b) A x C := by
  intro pc hat m as r m' as' t hx s hs
  obtain ⟨s₁, t', st, hc, h₁⟩ := h _ hat.left m as r m' as' t hx s hs
  obtain ⟨s₂, e₂, h₂⟩ := h' r m' s₁ h₁
  refine ⟨s₂, t', ?_, hc, h₂⟩
  have := st.trans (steps_straight b hat.right e₂)
  rwa [List.append_nil, Nat.add_assoc, ← size_append] at this

/-- One program after the other, with what is known of the result of the first. -/
theorem Ref.seqP {B : α → Abs U} {f : α → M U β} {C : β → Abs U} (P : α → Prop)
    (hP : ∀ m as r m' as' t, x m as = some (r, m', as', t) → P r) (h : Ref E S code a A x B)
    (h' : ∀ r, P r → Ref E S code b (B r) (f r) C) : Ref E S code (a ++ b) A (x >>= f) C := by
  intro pc hat m as r m' as' t hx s hs
  obtain ⟨r₁, m₁, as₁, t₁, t₂, e₁, e₂, rfl⟩ := bind_some hx
  obtain ⟨s₁, t₁', st₁, hc₁, h₁⟩ := h _ hat.left m as r₁ m₁ as₁ t₁ e₁ s hs
  obtain ⟨s₂, t₂', st₂, hc₂, h₂⟩ :=
    h' r₁ (hP _ _ _ _ _ _ e₁) _ hat.right m₁ as₁ r m' as' t₂ e₂ s₁ h₁
  refine ⟨s₂, t₁' ++ t₂', ?_, hc₁.append hc₂, h₂⟩
  have := st₁.trans st₂
  rwa [Nat.add_assoc, ← size_append] at this

theorem Ref.seq {B : α → Abs U} {f : α → M U β} {C : β → Abs U} (h : Ref E S code a A x B)
    (h' : ∀ r, Ref E S code b (B r) (f r) C) : Ref E S code (a ++ b) A (x >>= f) C :=
  Ref.seqP (fun _ => True) (fun _ _ _ _ _ _ _ => trivial) h fun r _ => h' r

theorem Ref.pure {r : α} {B : α → Abs U} (h : Run E S A a (B r)) :
    Ref E S code a A (Pure.pure r) B := by
  intro pc hat m as r' m' as' t hx s hs
  have hx : some (r, m, as, []) = some (r', m', as', t) := hx
  simp only [Option.some.injEq, Prod.mk.injEq] at hx
  obtain ⟨rfl, rfl, rfl, rfl⟩ := hx
  obtain ⟨s₁, e₁, h₁⟩ := h m s hs
  exact ⟨s₁, [], steps_straight a hat e₁, .nil, h₁⟩

theorem Ref.done {r : α} {B : α → Abs U} (h : Le A (B r)) :
    Ref E S code [] A (Pure.pure r) B := Ref.pure (Run.nil.weaken h)

theorem Ref.weaken {B C : α → Abs U} (h : Ref E S code a A x B) (hl : ∀ r, Le (B r) (C r)) :
    Ref E S code a A x C := by
  intro pc hat m as r m' as' t hx s hs
  obtain ⟨s₁, t', st, hc, h₁⟩ := h _ hat m as r m' as' t hx s hs
  exact ⟨s₁, t', st, hc, h₁.weaken (hl r)⟩

theorem Ref.le {B : α → Abs U} (h : Ref E S code a A₁ x B) (hl : Le A A₁) :
    Ref E S code a A x B := by
  intro pc hat m as r m' as' t hx s hs
  exact h _ hat m as r m' as' t hx s (hs.weaken hl)

/-- The result of the program is computed from another one. -/
theorem Ref.map {B : β → Abs U} {f : α → β} (h : Ref E S code a A x (fun r => B (f r))) :
    Ref E S code a A (x >>= fun r => Pure.pure (f r)) B := by
  have := Ref.seq (b := []) h (f := fun r => Pure.pure (f r)) (C := B)
    (fun r => Ref.done (Le.refl _))
  rwa [List.append_nil] at this

/-- One instruction that follows a program without calls. -/
theorem Ref.one {o : Op} {B : α → Abs U}
    (h : ∀ m as r m' as' t, x m as = some (r, m', as', t) → ∀ s, Inv S A m s →
      as' = as ∧ t = [] ∧ ∃ s', exec E.acc s o.instr = some s' ∧ Inv S (B r) m' s') :
    Ref E S code [o] A x B := by
  intro pc hat m as r m' as' t hx s hs
  obtain ⟨rfl, rfl, s', e, h'⟩ := h m as r m' as' t hx s hs
  refine ⟨s', [], steps_straight [o] hat ?_, .nil, h'⟩
  rw [execs, e]
  rfl

theorem execs_cons_ex {acc : W → Bool} {s s₁ : Mach U} {o : Op} {ops : List Op} {P : Mach U → Prop}
    (h : exec acc s o.instr = some s₁) (h' : ∃ s', execs acc s₁ ops = some s' ∧ P s') :
    ∃ s', execs acc s (o :: ops) = some s' ∧ P s' := by
  obtain ⟨s', e, hp⟩ := h'
  exact ⟨s', by rw [execs, h]; exact e, hp⟩

/-- The same with a sequence of instructions. -/
theorem Ref.many {B : α → Abs U}
    (h : ∀ m as r m' as' t, x m as = some (r, m', as', t) → ∀ s, Inv S A m s →
      as' = as ∧ t = [] ∧ ∃ s', execs E.acc s a = some s' ∧ Inv S (B r) m' s') :
    Ref E S code a A x B := by
  intro pc hat m as r m' as' t hx s hs
  obtain ⟨rfl, rfl, s', e, h'⟩ := h m as r m' as' t hx s hs
  exact ⟨s', [], steps_straight a hat e, .nil, h'⟩

end

theorem load_some {Wd : World} {a v : W} {m m' : Memory} {as as' : List (Ans U)} {t : List SCall}
    (h : load Wd a m as = some (v, m', as', t)) :
    okN Wd.vis a 4 = true ∧ v = rd m a ∧ m' = m ∧ as' = as ∧ t = [] := by
  unfold load at h
  split at h
  · rename_i hv
    simp only [Option.some.injEq, Prod.mk.injEq] at h
    obtain ⟨rfl, rfl, rfl, rfl⟩ := h
    exact ⟨hv, rfl, rfl, rfl, rfl⟩
  · cases h

theorem save_some {Wd : World} {a v : W} {m m' : Memory} {as as' : List (Ans U)} {t : List SCall}
    {u : Unit} (h : save Wd a v m as = some (u, m', as', t)) :
    okN Wd.vis a 4 = true ∧ m' = wr m a v ∧ as' = as ∧ t = [] := by
  unfold save at h
  split at h
  · rename_i hv
    simp only [Option.some.injEq, Prod.mk.injEq] at h
    obtain ⟨_, rfl, rfl, rfl⟩ := h
    exact ⟨hv, rfl, rfl, rfl⟩
  · cases h

section
variable {E : Env} {S : Stack} {code : List Byte} {A A₁ : Abs U}

/-! ### Reading and writing visible memory -/

theorem ref_loadBase (r b : Reg) {a : W} (hb : A.reg b = some a) (h4 : r ≠ 4) (h5 : r ≠ 5) :
    Ref E S code [.movRegRm r b 0] A (load (world E S) a) (fun v => A.set r (some v)) := by
  apply Ref.one
  intro m as v m' as' t hx s hs
  obtain ⟨hv, rfl, rfl, rfl, rfl⟩ := load_some hx
  refine ⟨rfl, rfl, s.set r (rd s.mem a), ?_, hs.setReg h4 h5 fun v hv' => ?_⟩
  · rw [ex_loadBase, hs.reg b a hb, if_pos (okN_of_vis hv)]
  · rw [hs.rd_vis hv]; exact Option.some.inj hv'

theorem ref_load (r b : Reg) {a : W} (k : Int) (hb : A.reg b = some a) (h4 : r ≠ 4) (h5 : r ≠ 5) :
    Ref E S code [.movRegAuto r b (i32 k)] A (load (world E S) (off a k))
      (fun v => A.set r (some v)) := by
  apply Ref.one
  intro m as v m' as' t hx s hs
  obtain ⟨hv, rfl, rfl, rfl, rfl⟩ := load_some hx
  refine ⟨rfl, rfl, s.set r (rd s.mem (off a k)), ?_, hs.setReg h4 h5 fun v hv' => ?_⟩
  · rw [ex_load, hs.reg b a hb, if_pos (okN_of_vis hv)]
  · rw [hs.rd_vis hv]; exact Option.some.inj hv'

theorem ref_load8 (r b : Reg) {a : W} (k : Int) (hk : -128 ≤ k ∧ k < 128) (hb : A.reg b = some a)
    (h4 : r ≠ 4) (h5 : r ≠ 5) :
    Ref E S code [.movRegD8 r b (i8 k)] A (load (world E S) (off a k))
      (fun v => A.set r (some v)) := by
  apply Ref.one
  intro m as v m' as' t hx s hs
  obtain ⟨hv, rfl, rfl, rfl, rfl⟩ := load_some hx
  refine ⟨rfl, rfl, s.set r (rd s.mem (off a k)), ?_, hs.setReg h4 h5 fun v hv' => ?_⟩
  · rw [ex_load8 _ _ _ _ _ hk, hs.reg b a hb, if_pos (okN_of_vis hv)]
  · rw [hs.rd_vis hv]; exact Option.some.inj hv'

theorem ref_loadVar (r : Reg) (k : Int) (h4 : r ≠ 4) (h5 : r ≠ 5) :
    Ref E S code [.movRegAuto r ebp (i32 k)] A (load (world E S) (off S.F k))
      (fun v => A.set r (some v)) := by
  apply Ref.one
  intro m as v m' as' t hx s hs
  obtain ⟨hv, rfl, rfl, rfl, rfl⟩ := load_some hx
  refine ⟨rfl, rfl, s.set r (rd s.mem (off S.F k)), ?_, hs.setReg h4 h5 fun v hv' => ?_⟩
  · rw [ex_load, hs.ebp, if_pos (okN_of_vis hv)]
  · rw [hs.rd_vis hv]; exact Option.some.inj hv'

variable (hS : StackOk E S)
include hS

theorem ref_pushVar (k : Int) (hr : A.stk.length + 4 ≤ S.depth) :
    Ref E S code [.pushAuto ebp (i32 k)] A (load (world E S) (off S.F k))
      (fun v => A.grow (word v)) := by
  apply Ref.one
  intro m as v m' as' t hx s hs
  obtain ⟨hv, rfl, rfl, rfl, rfl⟩ := load_some hx
  refine ⟨rfl, rfl, _, ?_, hs.pushWord hS (o := some (rd m' (off S.F k)))
    (w := rd s.mem (off S.F k)) (fun v hv' => ?_) hr⟩
  · rw [ex_pushMem, hs.ebp, if_pos (okN_of_vis hv), if_pos (hs.pushOk hS hr)]
  · rw [hs.rd_vis hv]; exact Option.some.inj hv'

theorem ref_saveBase (b r : Reg) {a v : W} (hb : A.reg b = some a) (hr : A.reg r = some v) :
    Ref E S code [.movRmReg b r 0] A (save (world E S) a v) (fun _ => A) := by
  apply Ref.one
  intro m as u m' as' t hx s hs
  obtain ⟨hv, rfl, rfl, rfl⟩ := save_some hx
  refine ⟨rfl, rfl, _, ?_, hs.saveVis hS hv⟩
  rw [ex_storeBase, hs.reg b a hb, hs.reg r v hr, if_pos (okN_of_vis hv)]

theorem ref_saveVar (r : Reg) (k : Int) {v : W} (hr : A.reg r = some v) :
    Ref E S code [.movAutoReg ebp r (i32 k)] A (save (world E S) (off S.F k) v) (fun _ => A) := by
  apply Ref.one
  intro m as u m' as' t hx s hs
  obtain ⟨hv, rfl, rfl, rfl⟩ := save_some hx
  refine ⟨rfl, rfl, _, ?_, hs.saveVis hS hv⟩
  rw [ex_store, hs.ebp, hs.reg r v hr, if_pos (okN_of_vis hv)]

theorem ref_saveVar8 (r : Reg) (k : Int) (hk : -128 ≤ k ∧ k < 128) {v : W} (hr : A.reg r = some v) :
    Ref E S code [.movD8Reg ebp r (i8 k)] A (save (world E S) (off S.F k) v) (fun _ => A) := by
  apply Ref.one
  intro m as u m' as' t hx s hs
  obtain ⟨hv, rfl, rfl, rfl⟩ := save_some hx
  refine ⟨rfl, rfl, _, ?_, hs.saveVis hS hv⟩
  rw [ex_store8 _ _ _ _ _ hk, hs.ebp, hs.reg r v hr, if_pos (okN_of_vis hv)]

theorem ref_saveImm (v : W) (k : Int) (hk : -128 ≤ k ∧ k < 128) :
    Ref E S code [.movD8Imm ebp v (i8 k)] A (save (world E S) (off S.F k) v) (fun _ => A) := by
  apply Ref.one
  intro m as u m' as' t hx s hs
  obtain ⟨hv, rfl, rfl, rfl⟩ := save_some hx
  refine ⟨rfl, rfl, _, ?_, hs.saveVis hS hv⟩
  rw [ex_storeImm _ _ _ _ _ hk, hs.ebp, if_pos (okN_of_vis hv)]

theorem ref_saveByte (k : Int) {v : W} (hr : A.reg 2 = some v) :
    Ref E S code [.mov8AutoReg ebp edx (i32 k)] A
      (save8 (world E S) (off S.F k) (v.extractLsb' 0 8)) (fun _ => A) := by
  apply Ref.one
  intro m as u m' as' t hx s hs
  unfold save8 at hx
  split at hx
  · rename_i hv
    simp only [Option.some.injEq, Prod.mk.injEq] at hx
    obtain ⟨_, rfl, rfl, rfl⟩ := hx
    refine ⟨rfl, rfl, s.wrs8 (off S.F k) (v.extractLsb' 0 8), ?_, ?_⟩
    · rw [ex_storeB, hs.ebp, if_pos (acc_of_vis hv)]
      have : byteReg edx = (2, 0) := by decide
      rw [this, hs.reg 2 v hr]
    · apply hs.setVis _ _ hS
      · intro x hx
        unfold wr8
        split
        · rfl
        · exact hs.mem x hx
      · intro x hx
        unfold wr8
        rw [if_neg]
        intro he
        rw [he, shown_of_vis hv] at hx
        cases hx
  · cases hx

/-! ### Calls -/

/-- No counterpart in /repo: what is known after a call that took `own` bytes of arguments, with
`rest` below them. -/
def Abs.called (A : Abs U) (r : Ans U) (flt : Bool) (n : Nat) (rest : Bytes) : Abs U where
  reg x := if preserved x then A.reg x else if x = 4 then none else some (r.reg x)
  fp := if flt then r.fpu else []
  stk := List.replicate n none ++ rest
  loc := A.loc

/-- Does the sum of an aligned address and a multiple of 16 stay aligned? -/
theorem off_align {k : Int} (hk : k % 16 = 0) : (off S.F (S.low - k)).toNat % 16 = 0 := by
  have h := hS.align
  have e : off S.F (S.low - k) = off S.F S.low - i32 k := by rw [off_sub]
  rw [e, BitVec.toNat_sub]
  have h2 := i32_toNat k
  omega

theorem ref_call (r : Reg) (kind : Kind) (al : Bool) {f : W} {args rest : Bytes}
    (hf : A.reg r = some f) (hfp : A.fp = []) (he : A.stk = args ++ rest)
    (hp : kind.hid = true → 4 ≤ args.length)
    (hr : A.stk.length + 4 ≤ S.depth) (hal : al = true → A.stk.length % 16 = 0) :
    Ref E S code [.call r] A (callF (world E S) kind al f args)
      (fun a => A.called a kind.flt (args.length - if kind.hid then 4 else 0) rest) := by
  intro pc hat m as a m' as' t hx s hs
  have h1 := hS.low
  have h2 := hS.depth
  have h3 := hS.args
  unfold callF at hx
  cases as with
  | nil => cases hx
  | cons a₀ as =>
    simp only at hx
    split at hx
    · rename_i ho
      simp only [Option.some.injEq, Prod.mk.injEq] at hx
      obtain ⟨rfl, rfl, rfl, rfl⟩ := hx
      simp only [obeys, Bool.and_eq_true, decide_eq_true_eq] at ho
      obtain ⟨⟨hown, hpop⟩, hfl⟩ := ho
      have hlen : A.stk.length = args.length + rest.length := by rw [he]; simp
      have hok : okN E.acc (s.reg 4 - 4) 4 = true := by
        have := hs.pushOk hS hr
        rwa [show s.reg 4 - 4 = off (s.reg 4) (-4) by rw [i32_four, sub_i32]]
      refine ⟨after E s a₀, [⟨s.reg r, s⟩], ?_, ?_, ?_⟩
      · have := steps_call (E := E) (ans := as) (a := a₀) hat hok (by rw [hs.fpu, hfp])
        simpa [size] using this
      · refine .cons ⟨hs.reg r f hf, ?_, hs.mem, ?_, ?_⟩ .nil
        · intro i b hb
          have hi := (List.getElem?_eq_some_iff.1 hb).1
          show s.mem (s.reg 4 + _) = b
          rw [hs.esp, off_bytes]
          exact hs.stk i b (by rw [he, List.getElem?_append_left hi]; exact hb)
        · exact ⟨A.stk.length, hs.esp, by show (args.length : Int) ≤ _; omega, by omega⟩
        · intro hal'
          show (s.reg 4).toNat % 16 = 0
          rw [hs.esp]
          have := hal hal'
          exact off_align hS (by omega)
      · have hin : ∀ i : Nat, i < rest.length →
            between (s.reg 4 + BitVec.ofNat 32 a₀.own) E.top
              (off S.F (S.low - rest.length + i)) = true := by
          intro i hi
          rw [hown, hs.esp, off_bytes, hS.top]
          unfold between
          rw [off_sub_off, off_sub_off]
          have := i32_toNat (S.low - rest.length + i - (S.low - A.stk.length + args.length))
          have := i32_toNat (S.low - (S.low - A.stk.length + args.length))
          simp only [decide_eq_true_eq]
          omega
        have hout : ∀ x, S.hidden x = false →
            between (s.reg 4 + BitVec.ofNat 32 a₀.own) E.top x = false := by
          intro x hx
          cases hb : between (s.reg 4 + BitVec.ofNat 32 a₀.own) E.top x with
          | false => rfl
          | true =>
            exfalso
            rw [hown, hs.esp, off_bytes, hS.top] at hb
            unfold between at hb
            rw [off_sub_off] at hb
            have h5 := i32_toNat (S.low - (S.low - A.stk.length + args.length))
            simp only [decide_eq_true_eq] at hb
            have h6 : x = off S.F (S.low - rest.length
                + (x - off S.F (S.low - A.stk.length + args.length)).toNat) := by
              have : S.low - (rest.length : Int) = S.low - A.stk.length + args.length := by omega
              rw [this, ← off_bytes, BitVec.ofNat_toNat, BitVec.setWidth_eq, BitVec.add_comm,
                BitVec.sub_add_cancel]
            rw [h6, hidden_low hS (by omega) (by omega)] at hx
            cases hx
        have hp2 : (args.length - (if kind.hid then 4 else 0) : Nat) + a₀.pop = args.length := by
          rw [hpop]
          cases hk : kind.hid with
          | false => simp
          | true => have := hp hk; simp; omega
        refine ⟨rfl, ?_, ?_, ?_, ?_, ?_, ?_, ?_, ?_⟩
        · rw [after_reg, if_neg (by decide), if_pos (by decide)]; exact hs.ebp
        · rw [after_reg, if_pos rfl, hs.esp, off_bytes]
          congr 1
          simp only [Abs.called, List.length_append, List.length_replicate]
          omega
        · simp only [Abs.called, List.length_append, List.length_replicate]
          omega
        · intro q v hv
          simp only [Abs.called] at hv
          rw [after_reg]
          split at hv
          · rename_i hq
            by_cases h4 : q = 4
            · subst h4; exact absurd hq (by decide)
            · rw [if_neg h4, if_pos hq]; exact hs.reg q v hv
          · rename_i hq
            split at hv
            · cases hv
            · rename_i h4
              rw [if_neg h4, if_neg hq]
              exact Option.some.inj hv
        · show a₀.fpu = if kind.flt then a₀.fpu else []
          split
          · rfl
          · rename_i hk
            rw [if_neg hk] at hfl
            exact List.eq_nil_of_length_eq_zero hfl
        · intro i b hb
          simp only [Abs.called] at hb ⊢
          generalize hn : args.length - (if kind.hid then 4 else 0) = n at *
          rw [List.getElem?_append] at hb
          split at hb
          · exfalso
            rw [List.getElem?_replicate] at hb
            split at hb <;> simp at hb
          · rename_i hi
            rw [List.length_replicate] at hi hb
            have hj := (List.getElem?_eq_some_iff.1 hb).1
            have e : S.low - ((List.replicate n (none : Option Byte) ++ rest).length : Int) + i
                = S.low - rest.length + (i - n : Nat) := by
              simp only [List.length_append, List.length_replicate]
              omega
            rw [e]
            show (if _ then _ else _) = b
            rw [hin _ hj, Bool.or_true, if_pos rfl]
            have := hs.stk (args.length + (i - n)) b (by
              rw [he, List.getElem?_append_right (by omega), Nat.add_sub_cancel_left]; exact hb)
            rw [← this]
            congr 2
            omega
        · intro x hx
          show (if _ then _ else _) = if E.keep x then m x else a₀.mem x
          rw [hout x hx, Bool.or_false]
          split
          · exact hs.mem x hx
          · rfl
        · intro k hk
          show rd _ _ = A.loc k
          rw [← hs.priv k hk]
          apply rd_congr
          intro i hi
          rw [off_bytes]
          show (if _ then _ else _) = _
          rw [hS.keep _ (slot_bytes hS hk (by omega) (by omega)), Bool.true_or, if_pos rfl]
    · cases hx

end

end Verif.Jit32
