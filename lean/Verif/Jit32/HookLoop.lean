import Verif.Jit32.HookRet
/-
Helper lemmas for C76: the calls of the hooks and of the original function, and the jumps.
-/
namespace Verif.Jit32

open Verif.Jit (Byte flagByVal flagByRef flagODtor flagOCtor flagAssignOp flagCCtor flagRetMem flagRetReg
  typeBasic typeFloat typeObject)
open Spec

variable {U : Fpu}

/-! ## Jumps -/

theorem bind_assoc {α β γ : Type} (x : M U α) (f : α → M U β) (h : β → M U γ) :
    ((x >>= f) >>= h) = (x >>= fun a => f a >>= h) := by
  funext m as
  show M.andThen (M.andThen x f) h m as = M.andThen x (fun a => M.andThen (f a) h) m as
  unfold M.andThen
  cases e : x m as with
  | none => rfl
  | some q =>
    obtain ⟨a, m₁, as₁, t₁⟩ := q
    simp only
    cases e' : f a m₁ as₁ with
    | none => rfl
    | some q' =>
      obtain ⟨b, m₂, as₂, t₂⟩ := q'
      simp only
      cases e'' : h b m₂ as₂ with
      | none => rfl
      | some q'' => simp

section
variable {α : Type} {E : Env} {S : Stack} {code : List Byte} {A A₁ : Abs U} {x : M U α}
  {B C : α → Abs U}

/-- A test and a jump over `skip`. -/
theorem Ref.jump {o t : Op} {c : Fin 16} {skip rest : List Op} {b : Bool}
    (ho : o.instr = .jcc c (i32 (size skip))) (hsz : size skip < 2 ^ 31)
    (ht : ∀ m s, Inv S A m s → ∃ s', exec E.acc s t.instr = some s' ∧ Inv S A₁ m s' ∧ holds s' c = some b)
    (h1 : b = true → Ref E S code rest A₁ x C) (h2 : b = false → Ref E S code (skip ++ rest) A₁ x C) :
    Ref E S code (t :: o :: (skip ++ rest)) A x C := by
  intro pc hat m as r m' as' tr hx s hs
  obtain ⟨s₁, e₁, hs₁, hb⟩ := ht m s hs
  have st₁ : Steps E code ⟨pc, s, as⟩ [] ⟨pc + size [t], s₁, as⟩ :=
    steps_straight [t] (At.left (a := [t]) hat) (by rw [execs, e₁]; rfl)
  have hat₁ : At code (pc + size [t]) (o :: (skip ++ rest)) := At.right (a := [t]) hat
  cases b with
  | true =>
    have st₂ := steps_skip (E := E) hat₁ ho hsz hb as
    have hat₂ : At code (pc + size [t] + o.bytes.length + size skip) rest := hat₁.tail.right
    obtain ⟨s₂, t', st₃, hc, hs₂⟩ := h1 rfl _ hat₂ m as r m' as' tr hx s₁ hs₁
    refine ⟨s₂, t', ?_, hc, hs₂⟩
    have := (st₁.trans st₂).trans st₃
    rw [show pc + size (t :: o :: (skip ++ rest))
      = pc + size [t] + o.bytes.length + size skip + size rest by
        rw [size_cons, size_cons, size_append, size_cons, size_nil]; omega]
    exact this
  | false =>
    have st₂ := steps_fall (E := E) hat₁ ho hb as
    obtain ⟨s₂, t', st₃, hc, hs₂⟩ := h2 rfl _ hat₁.tail m as r m' as' tr hx s₁ hs₁
    refine ⟨s₂, t', ?_, hc, hs₂⟩
    have := (st₁.trans st₂).trans st₃
    rw [show pc + size (t :: o :: (skip ++ rest))
      = pc + size [t] + o.bytes.length + size (skip ++ rest) by
        rw [size_cons, size_cons, size_cons, size_nil]; omega]
    exact this

/-- The same with nothing behind it. -/
theorem Ref.over {o t : Op} {c : Fin 16} {skip : List Op} {b : Bool}
    (ho : o.instr = .jcc c (i32 (size skip))) (hsz : size skip < 2 ^ 31)
    (ht : ∀ m s, Inv S A m s → ∃ s', exec E.acc s t.instr = some s' ∧ Inv S A₁ m s' ∧ holds s' c = some b)
    (h1 : b = true → Ref E S code [] A₁ x C) (h2 : b = false → Ref E S code skip A₁ x C) :
    Ref E S code (t :: o :: skip) A x C := by
  have := Ref.jump (rest := []) ho hsz ht h1 (fun h => by rw [List.append_nil]; exact h2 h)
  rwa [List.append_nil] at this

/-- A jump over `skip`. -/
theorem Ref.jmp {skip : List Op} (hsz : size skip < 2 ^ 31) (h : Ref E S code [] A x C) :
    Ref E S code (.jmp32 (i32 (size skip)) :: skip) A x C := by
  intro pc hat m as r m' as' tr hx s hs
  have e : step E.acc code pc s
      = .go (pc + size (.jmp32 (i32 (size skip)) :: skip)) s := by
    rw [step_jmp hat, jumpTo_i32 _ _ _ (by omega) (by omega), size_cons]
    congr 1
    omega
  have hat' : At code (pc + size (.jmp32 (i32 (size skip)) :: skip)) [] :=
    At.right (b := []) (by rw [List.append_nil]; exact hat)
  obtain ⟨s₂, t', st, hc, hs₂⟩ := h _ hat' m as r m' as' tr hx s hs
  refine ⟨s₂, t', ?_, hc, hs₂⟩
  have := (Steps.go (E := E) (ans := as) e (.refl _)).trans st
  exact this

/-- Code behind a program that does not change its result. -/
theorem Ref.after {a b : List Op} (h : Ref E S code a A x B) (h' : ∀ r, Ref E S code b (B r) (Pure.pure r) C) :
    Ref E S code (a ++ b) A x C := by
  intro pc hat m as r m' as' t hx s hs
  obtain ⟨s₁, t₁, st₁, hc₁, hs₁⟩ := h _ hat.left m as r m' as' t hx s hs
  obtain ⟨s₂, t₂, st₂, hc₂, hs₂⟩ := h' r _ hat.right m' as' r m' as' [] rfl s₁ hs₁
  refine ⟨s₂, t₁ ++ t₂, ?_, ?_, hs₂⟩
  · have := st₁.trans st₂
    rwa [Nat.add_assoc, ← size_append] at this
  · have := hc₁.append hc₂
    rwa [List.append_nil] at this

/-- No counterpart in /repo: a loop: `head`, a test, `body` and the jump back. -/
def whileOps (head : List Op) (t : Op) (body : List Op) : List Op :=
  head ++ (t :: .jcc32 4 (i32 (size body + 5 : Nat)) :: (body
    ++ [.jmp32 (i32 (-((size head + t.bytes.length + 6 + size body + 5 : Nat) : Int)))]))

theorem Ref.loop {head body : List Op} {t : Op} {x : M U α} {P : α → Prop} [DecidablePred P]
    {y : α → M U Unit} {l : Nat → M U Unit} (h0 : l 0 = fun _ _ => none)
    (hl : ∀ n, l (n + 1) = (x >>= fun a => if P a then Pure.pure () else y a >>= fun _ => l n))
    (hx : Ref E S code head A x B)
    (ht : ∀ a m s, Inv S (B a) m s →
      ∃ s', exec E.acc s t.instr = some s' ∧ Inv S (B a) m s' ∧ holds s' 4 = some (decide (P a)))
    (hB : ∀ a, Le (B a) A) (hy : ∀ a, Ref E S code body (B a) (y a) (fun _ => A))
    (hh : size head < 2 ^ 29) (hb : size body < 2 ^ 30) (n : Nat) :
    Ref E S code (whileOps head t body) A (l n) (fun _ => A) := by
  have h15 := bytes_length t
  have hj : ∀ d, (Op.jmp32 d).bytes.length = 5 := fun _ => rfl
  have hc6 : ∀ d, (Op.jcc32 4 d).bytes.length = 6 := fun _ => rfl
  induction n with
  | zero =>
    intro pc _ m as r m' as' t hx
    rw [h0] at hx
    cases hx
  | succ n ih =>
    intro pc hat m as r m' as' tr hrun s hs
    rw [hl] at hrun
    obtain ⟨a, m₁, as₁, t₁, t₂, e₁, e₂, rfl⟩ := bind_some hrun
    have hat₀ := hat
    unfold whileOps at hat₀
    generalize hd : (i32 (-((size head + t.bytes.length + 6 + size body + 5 : Nat) : Int))) = d at hat₀
    obtain ⟨s₁, t₁', st₁, hc₁, hs₁⟩ := hx _ hat₀.left _ _ _ _ _ _ e₁ s hs
    obtain ⟨s₂, et, hs₂, hh₂⟩ := ht a _ _ hs₁
    have hat₁ := hat₀.right
    have st₂ := steps_straight (E := E) (ans := as₁) [t] (At.left (a := [t]) hat₁) (s := s₁) (s' := s₂)
      (by rw [execs, et]; rfl)
    have e1 : size [t] = t.bytes.length := by rw [size_cons, size_nil]; omega
    rw [e1] at st₂
    have hat₂ := hat₁.tail
    have esz : size (body ++ [.jmp32 d]) = size body + 5 := by
      rw [size_append, size_cons, hj, size_nil]
    have ho : (Op.jcc32 4 (i32 (size body + 5 : Nat))).instr
        = .jcc 4 (i32 (size (body ++ [.jmp32 d]))) := by rw [esz]; rfl
    by_cases hP : P a
    · rw [if_pos hP] at e₂
      have e₂ : some ((), m₁, as₁, ([] : List SCall)) = some (r, m', as', t₂) := e₂
      simp only [Option.some.injEq, Prod.mk.injEq] at e₂
      obtain ⟨-, rfl, rfl, rfl⟩ := e₂
      have st₃ := steps_skip (E := E) (rest := []) (by rw [List.append_nil]; exact hat₂) ho
        (by omega) (s := s₂) (by rw [hh₂, decide_eq_true hP]) as₁
      refine ⟨s₂, t₁', ?_, by rw [List.append_nil]; exact hc₁, hs₂.weaken (hB a)⟩
      have := (st₁.trans st₂).trans st₃
      simp only [List.append_nil] at this
      have e : pc + size (whileOps head t body) = pc + size head + t.bytes.length
          + (Op.jcc32 4 (i32 (size body + 5 : Nat))).bytes.length + size (body ++ [.jmp32 d]) := by
        unfold whileOps
        rw [hd, size_append, size_cons, size_cons]
        omega
      rw [e]
      exact this
    · rw [if_neg hP] at e₂
      have st₃ := steps_fall (E := E) hat₂ ho (s := s₂) (by rw [hh₂, decide_eq_false hP]) as₁
      obtain ⟨_, m₂, as₂, u₁, u₂, f₁, f₂, rfl⟩ := bind_some e₂
      have hat₃ := hat₂.tail
      obtain ⟨s₃, u₁', st₄, hc₂, hs₃⟩ := hy a _ hat₃.left _ _ _ _ _ _ f₁ _ hs₂
      have hat₄ := hat₃.right
      have ej : step E.acc code (pc + size head + t.bytes.length
          + (Op.jcc32 4 (i32 (size body + 5 : Nat))).bytes.length + size body) s₃ = .go pc s₃ := by
        rw [step_jmp hat₄, hj, hc6, ← hd, jumpTo_i32 _ _ _ (by omega) (by omega)]
        congr 1
        omega
      obtain ⟨s₄, u₂', st₅, hc₃, hs₄⟩ := ih _ hat _ _ _ _ _ _ f₂ s₃ hs₃
      refine ⟨s₄, t₁' ++ (u₁' ++ u₂'), ?_, hc₁.append (hc₂.append hc₃), hs₄⟩
      have := ((st₁.trans st₂).trans st₃).trans (st₄.trans ((Steps.go (E := E) (ans := as₂) ej (.refl _)).trans st₅))
      simpa using this

/-- No counterpart in /repo: two tests, each of which leads to `els`; otherwise `call`. -/
def condOps (t₁ : Op) (ask : List Op) (t₂ : Op) (call els : List Op) : List Op :=
  t₁ :: .jcc32 4 (i32 (size ask + t₂.bytes.length + 6 + size call + 5 : Nat))
    :: (ask ++ (t₂ :: .jcc32 4 (i32 (size call + 5 : Nat))
      :: (call ++ (.jmp32 (i32 (size els)) :: els))))

theorem Ref.cond {ask call els : List Op} {t₁ t₂ : Op} {x : M U α} {P : Prop} [Decidable P]
    {Q : α → Prop} [DecidablePred Q] {y z : M U Unit} {A' A₂ : Abs U}
    (ht₁ : ∀ m s, Inv S A m s →
      ∃ s', exec E.acc s t₁.instr = some s' ∧ Inv S A m s' ∧ holds s' 4 = some (decide P))
    (hx : Ref E S code ask A x B)
    (ht₂ : ∀ a m s, Inv S (B a) m s →
      ∃ s', exec E.acc s t₂.instr = some s' ∧ Inv S (B a) m s' ∧ holds s' 4 = some (decide (Q a)))
    (hB : ∀ a, Le (B a) A') (hA : Le A A') (hy : Ref E S code call A' y (fun _ => A₂))
    (hz : Ref E S code els A' z (fun _ => A₂))
    (hh : size ask < 2 ^ 29) (hb : size call < 2 ^ 30) (he : size els < 2 ^ 30) :
    Ref E S code (condOps t₁ ask t₂ call els) A
      (if P then z else x >>= fun a => if Q a then z else y) (fun _ => A₂) := by
  have h15 := bytes_length t₂
  have hj : ∀ d, (Op.jmp32 d).bytes.length = 5 := fun _ => rfl
  have hc6 : ∀ d, (Op.jcc32 4 d).bytes.length = 6 := fun _ => rfl
  unfold condOps
  generalize hd : i32 (size els) = d
  have e1 : size (call ++ [.jmp32 d]) = size call + 5 := by rw [size_append, size_cons, hj, size_nil]
  have e2 : ∀ d', size (ask ++ (t₂ :: .jcc32 4 d' :: (call ++ [.jmp32 d])))
      = size ask + t₂.bytes.length + 6 + size call + 5 := by
    intro d'
    rw [size_append, size_cons, size_cons, hc6, e1]
    omega
  have h2 : ∀ a, Ref E S code (t₂ :: .jcc32 4 (i32 (size call + 5 : Nat))
      :: ((call ++ [.jmp32 d]) ++ els)) (B a) (if Q a then z else y) (fun _ => A₂) := by
    intro a
    refine Ref.jump (c := 4) (A₁ := B a) (b := decide (Q a)) (by rw [e1]; rfl) (by omega) (ht₂ a) ?_ ?_
    · intro h
      rw [if_pos (of_decide_eq_true h)]
      exact hz.le (hB a)
    · intro h
      rw [if_neg (of_decide_eq_false h), List.append_assoc]
      refine Ref.after (hy.le (hB a)) fun _ => ?_
      rw [← hd]
      exact Ref.jmp (by omega) (Ref.done (Le.refl _))
  have h3 : Ref E S code (t₁ :: .jcc32 4 (i32 (size ask + t₂.bytes.length + 6 + size call + 5 : Nat))
      :: ((ask ++ (t₂ :: .jcc32 4 (i32 (size call + 5 : Nat)) :: (call ++ [.jmp32 d]))) ++ els)) A
      (if P then z else x >>= fun a => if Q a then z else y) (fun _ => A₂) := by
    refine Ref.jump (c := 4) (A₁ := A) (b := decide P) (by rw [e2]; rfl) (by rw [e2]; omega) ht₁ ?_ ?_
    · intro h
      rw [if_pos (of_decide_eq_true h)]
      exact hz.le hA
    · intro h
      rw [if_neg (of_decide_eq_false h), List.append_assoc]
      exact Ref.seq hx h2
  simpa only [List.append_assoc, List.cons_append, List.nil_append] using h3

end

/-! ## Calls with the parameters -/

theorem destroyParams_nil {fb : Int} {ps : List Pass} (hp : ∀ p ∈ ps, PassOk p) :
    ∀ fo, destroyParams fb fo ps = [] := by
  induction ps with
  | nil => intro fo; rfl
  | cons p ps ih =>
    intro fo
    rw [destroyParams, ih (fun q hq => hp q (List.mem_cons_of_mem _ hq)), has_forced,
      (hp p List.mem_cons_self).notForced, if_neg (by simp)]
    rfl

section
variable {E : Env} {S : Stack} {code : List Byte} {K : Kept} (hS : StackOk E S)
include hS

theorem run_memRet {A : Abs U} (g : Gen) (v : Int) (hr : A.stk.length + 4 ≤ S.depth) :
    Run E S A (pushMemRet g v) ((A.set 2 none).grow (place (varsAt g S) g (off S.F v))) := by
  unfold pushMemRet place hid
  rw [has_retMem, temp_eq]
  split
  · refine (Run.cons (one_lea 2 _ (by decide) (by decide)) (Run.cons (one_push hS 2 (by simpa using hr))
      Run.nil)).weaken ?_
    refine Le.of ?_ rfl ?_ rfl
    · intro r v hv
      simp only [Abs.grow_reg, Abs.set_reg] at hv ⊢
      split at hv
      · cases hv
      · rename_i h; rw [if_neg h]; exact hv
    · simp only [Abs.grow_stk, Abs.set_stk, Abs.set_reg, if_true, optWord]
      congr 2
      split <;> rfl
  · refine Run.nil.weaken (Le.of ?_ rfl rfl rfl)
    intro r v hv
    simp only [Abs.grow_reg, Abs.set_reg] at hv ⊢
    split at hv
    · cases hv
    · exact hv

/-- A call with the parameters, the result kept in the variable `v`. -/
theorem ref_around {g : Gen} (hp : ∀ p ∈ g.params, PassOk p) (hg : RetOk g.ret)
    (hd : slots g.params + 128 ≤ S.depth) {a₀ : Option W} {n : Nat} {vb : Bytes}
    {vaOps callOps : List Op} {thisOp : Op} {v : Int} {this : W} {c : Nat} {target : M U W}
    (hn : n < 16) (hvb : vb.length ≤ 8)
    (hal : (n + slots g.params + vb.length + 4 + (if hid g then 4 else 0)) % 16 = 0)
    (hva : ∀ A : Abs U, A.reg 1 = none → A.stk.length + 8 ≤ S.depth → Run E S A vaOps (A.grow vb))
    (hthis : ∀ A : Abs U, A.reg 0 = a₀ → A.loc = K.loc → One E S A thisOp (A.set 1 (some this)))
    (hcall : ∀ A : Abs U, A.reg 1 = some this → A.loc = K.loc →
      Ref E S code callOps A target (fun f => A.set 0 (some f))) :
    Ref E S code (lower n ++ (vaOps ++ ((pushParams g c).1 ++ (thisOp :: .push ecx :: (pushMemRet g v
        ++ (callOps ++ (.call eax :: (raiseBack n
        ++ (.addImmAuto esp (i32 (vb.length + slots g.params + 4)) 3 :: saveRet g v)))))))))
      (K.at a₀ none [])
      (do
        let ps ← params (world E S) (off S.F g.base) g.params
        let f ← target
        let r ← callF (world E S) ⟨hid g, flt g⟩ true f
          (place (varsAt g S) g (off S.F v) ++ word this ++ ps ++ vb)
        keepResult (world E S) (varsAt g S) g r (off S.F v))
      (fun _ => K.idle) := by
  have hpl : (place (varsAt g S) g (off S.F v)).length = if hid g then 4 else 0 := by
    unfold place; split <;> rfl
  refine Ref.pre (run_lower hS n (by simp [Kept.at]; omega)) (Ref.pre (hva _ rfl (by simp [Kept.at]; omega)) ?_)
  refine Ref.seqP (fun b => b.length = slots g.params) (fun m as r m' as' t hx => params_length hp hx)
    (ref_pushList hS hp rfl (by simp [Kept.at]; omega)).1 fun ps hps => ?_
  refine Ref.cons (hthis _ rfl rfl) (Ref.cons (one_push hS 1 (by simp [Kept.at, Abs.scr, hps]; omega)) ?_)
  refine Ref.pre (run_memRet hS g v (by simp [Kept.at, Abs.scr, hps]; omega)) ?_
  refine Ref.seq (hcall _ rfl rfl) fun f => ?_
  refine Ref.bind (ref_call hS 0 ⟨hid g, flt g⟩ true
    (args := place (varsAt g S) g (off S.F v) ++ word this ++ ps ++ vb) (rest := List.replicate n none)
    rfl rfl (by simp [Kept.at, Abs.scr, optWord]) ?_ ?_ ?_) fun r => ?_
  · intro h
    have h : hid g = true := h
    simp only [List.length_append, hpl, h, if_true]
    omega
  · simp only [Abs.set_stk, Abs.grow_stk, List.length_append, hpl, optWord_length, hps, Abs.scr,
      List.length_replicate, Kept.at, List.length_nil]
    split <;> omega
  · intro _
    simp only [Abs.set_stk, Abs.grow_stk, List.length_append, hpl, optWord_length, hps, Abs.scr,
      List.length_replicate, Kept.at, List.length_nil]
    omega
  · have e : (place (varsAt g S) g (off S.F v) ++ word this ++ ps ++ vb).length - (if hid g then 4 else 0)
        = vb.length + slots g.params + 4 := by
      simp only [List.length_append, hpl, hps, word_length]
      omega
    refine Ref.pre (run_raiseBack (b := List.replicate n none)
      (rest := List.replicate (vb.length + slots g.params + 4) none) ?_ (by simp)) ?_
    · show List.replicate _ none ++ List.replicate n none = _
      rw [e, List.replicate_append_replicate, List.replicate_append_replicate, Nat.add_comm]
    refine Ref.cons (one_raise (b := List.replicate (vb.length + slots g.params + 4) none) (rest := [])
      (by simp) (by simp)) ?_
    exact (ref_saveRet hS hg (by omega) v r).le (at_le rfl rfl rfl rfl rfl (fun _ h => h) (fun _ h => h))

omit hS in
theorem hook_align {g : Gen} (hs : slots g.params < 32768) (e : Nat) :
    ∃ n : Nat, alignBytes 0 (totalSize g.params + e + (4 + if g.ret.has flagRetMem then 4 else 0)) = n ∧
      n < 16 ∧ (n + slots g.params + e + 4 + (if hid g then 4 else 0)) % 16 = 0 := by
  rw [totalSize_small _ hs, has_retMem]
  have e6 : hid g = g.ret.flags.getLsbD 6 := rfl
  rw [e6]
  obtain ⟨h1, h2, h3⟩ := alignBytes_spec 0
    ((slots g.params : Int) + e + (4 + if g.ret.flags.getLsbD 6 = true then 4 else 0))
    (by omega) (by omega) (by split <;> omega)
  refine ⟨_, (Int.toNat_of_nonneg h2).symm, by omega, ?_⟩
  cases h6 : g.ret.flags.getLsbD 6 <;> rw [h6] at h1 h2 <;>
    simp only [Bool.false_eq_true, if_false, if_true] at h1 h2 ⊢ <;> omega

/-- One hook. -/
theorem ref_hookCall {g : Gen} (hp : ∀ p ∈ g.params, PassOk p) (hg : RetOk g.ret)
    (hd : slots g.params + 128 ≤ S.depth) (hs : slots g.params < 32768) (c : Nat) (it : W) :
    Ref E S code (hookCall g (pushParams g c)) (K.at (some it) none [] : Abs U)
      (hookOne (world E S) (varsAt g S) g it (off S.F g.base)) (fun _ => K.idle) := by
  have hroom : slots g.params + 8 ≤ S.depth := by omega
  have e4 : (pushParams g c).2.2.2 = slots g.params :=
    (ref_pushList (U := U) (E := E) (code := code) (A := (K.idle : Abs U)) hS hp rfl
      (by simp [Kept.at]; omega)).2
  have el : (if g.vafmt then word (off S.F (frame g).vaBuf) else []).length = if g.vafmt then 4 else 0 := by
    split <;> rfl
  obtain ⟨n, h1, h2, h3⟩ := hook_align (g := g) hs (if g.vafmt then 4 else 0)
  have ha : hookAlign g = n := by
    rw [← h1, hookAlign]
    congr 3
    split <;> rfl
  have ep : hookOne (U := U) (world E S) (varsAt g S) g it (off S.F g.base)
      = (save (world E S) (varsAt g S).cur 0 >>= fun _ =>
        (do
        let ps ← params (world E S) (off S.F g.base) g.params
        let f ← (load (world E S) it >>= fun vt => load (world E S) (vt + 8))
        let r ← callF (world E S) ⟨hid g, flt g⟩ true f
          (place (varsAt g S) g (off S.F (frame g).plugin) ++ word it ++ ps ++
            (if g.vafmt then word (off S.F (frame g).vaBuf) else []))
        keepResult (world E S) (varsAt g S) g r (off S.F (frame g).plugin))) := by
    unfold hookOne
    simp only [bind_assoc]
    rfl
  have ek : ((if g.vafmt then 4 else 0) + (slots g.params : Int) + 4)
      = ((if g.vafmt then word (off S.F (frame g).vaBuf) else []).length + slots g.params + 4 : Int) := by
    rw [el]; split <;> rfl
  have eo : hookCall g (pushParams g c) = .movD8Imm ebp 0 (i8 vCur) :: (lower n
      ++ ((if g.vafmt then [.leaAuto ecx ebp (i32 (frame g).vaBuf), .push ecx] else [])
      ++ ((pushParams g c).1 ++ (.movRegRm ecx eax 3 :: .push ecx :: (pushMemRet g (frame g).plugin
        ++ ([.movRegRm eax ecx 0, .movRegAuto eax eax (i32 8)] ++ (.call eax :: (raiseBack n
        ++ (.addImmAuto esp (i32 ((if g.vafmt then word (off S.F (frame g).vaBuf) else []).length
          + slots g.params + 4)) 3 :: saveRet g (frame g).plugin))))))))) := by
    unfold hookCall
    rw [destroyParams_nil hp, ha, e4, ek]
    simp only [List.append_assoc, List.cons_append, List.nil_append]
  rw [ep, eo]
  refine Ref.bind (ref_saveImm hS _ _ (by decide)) fun _ => ?_
  refine ref_around hS hp hg hd (a₀ := some it) (this := it)
    (callOps := [.movRegRm eax ecx 0, .movRegAuto eax eax (i32 8)]) h2 ?_ (by rw [el]; exact h3) ?_ ?_ ?_
  · rw [el]; split <;> omega
  · intro A h1 hr
    split
    · refine (Run.cons (one_lea 1 _ (by decide) (by decide)) (Run.cons (one_push hS 1 (by simp; omega))
        Run.nil)).weaken (Le.of ?_ rfl rfl rfl)
      intro r v hv
      simp only [Abs.grow_reg, Abs.set_reg] at hv ⊢
      split
      · rename_i h; rw [h, h1] at hv; cases hv
      · exact hv
    · exact Run.nil.weaken (Le.of (fun _ _ h => h) rfl rfl rfl)
  · intro A h0 _
    have := one_movReg (E := E) (S := S) (A := A) 1 0 (by decide) (by decide)
    rwa [h0] at this
  · intro A h1 _
    refine Ref.bind (ref_loadBase 0 1 h1 (by decide) (by decide)) fun vt => ?_
    refine (ref_load 0 0 8 (by rfl) (by decide) (by decide)).weaken fun f => ?_
    refine Le.of ?_ rfl rfl rfl
    intro r v hv
    simp only [Abs.set_reg] at hv ⊢
    split
    · rename_i h; rw [if_pos h] at hv; exact hv
    · rename_i h; rw [if_neg h] at hv; exact hv

/-- The original function. -/
theorem ref_origCall {g : Gen} (hp : ∀ p ∈ g.params, PassOk p) (hg : RetOk g.ret)
    (hd : slots g.params + 128 ≤ S.depth) (hs : slots g.params < 32768) (hargs : S.slot g.vThis) (c : Nat)
    {a : Option W} :
    Ref E S code (origCall g (pushParams g c)) (K.at a none [] : Abs U)
      (callOriginal (world E S) (varsAt g S) g (K.loc g.vThis) (off S.F g.base)) (fun _ => K.idle) := by
  have e4 : (pushParams g c).2.2.2 = slots g.params :=
    (ref_pushList (U := U) (E := E) (code := code) (A := (K.idle : Abs U)) hS hp rfl
      (by simp [Kept.at]; omega)).2
  have el : (if g.vafmt then word g.fmtS ++ word (off S.F (frame g).vaBuf) else []).length
      = if g.vafmt then 8 else 0 := by
    split <;> rfl
  obtain ⟨n, h1, h2, h3⟩ := hook_align (g := g) hs (if g.vafmt then 8 else 0)
  have ha : origAlign g = n := by
    rw [← h1, origAlign]
    congr 3
    split <;> rfl
  have ek : ((if g.vafmt then 8 else 0) + (slots g.params : Int) + 4)
      = ((if g.vafmt then word g.fmtS ++ word (off S.F (frame g).vaBuf) else []).length
        + slots g.params + 4 : Int) := by
    rw [el]; split <;> rfl
  have eo : origCall g (pushParams g c) = lower n
      ++ ((if g.vafmt then [.leaAuto ecx ebp (i32 (frame g).vaBuf), .push ecx, .pushImm32 g.fmtS] else [])
      ++ ((pushParams g c).1 ++ (.movRegAuto ecx ebp (i32 g.vThis) :: .push ecx
        :: (pushMemRet g (frame g).orig
        ++ ([.movRegAuto eax ebp (i32 vEntry)] ++ (.call eax :: (raiseBack n
        ++ (.addImmAuto esp (i32 ((if g.vafmt then word g.fmtS ++ word (off S.F (frame g).vaBuf)
          else []).length + slots g.params + 4)) 3 :: saveRet g (frame g).orig)))))))) := by
    unfold origCall
    rw [destroyParams_nil hp, ha, e4, ek]
    simp only [List.append_assoc, List.cons_append, List.nil_append]
  unfold callOriginal
  rw [eo]
  refine ref_around hS hp hg hd (a₀ := a) (this := K.loc g.vThis)
    (callOps := [.movRegAuto eax ebp (i32 vEntry)]) h2 ?_ (by rw [el]; exact h3) ?_ ?_ ?_
  · rw [el]; split <;> omega
  · intro A h1 hr
    split
    · refine (Run.cons (one_lea 1 _ (by decide) (by decide)) (Run.cons (one_push hS 1 (by simp; omega))
        (Run.cons (one_pushImm hS g.fmtS (by simp; omega)) Run.nil))).weaken (Le.of ?_ rfl ?_ rfl)
      · intro r v hv
        simp only [Abs.grow_reg, Abs.set_reg] at hv ⊢
        split
        · rename_i h; rw [h, h1] at hv; cases hv
        · exact hv
      · simp [optWord]
    · exact Run.nil.weaken (Le.of (fun _ _ h => h) rfl rfl rfl)
  · intro A h0 hl
    have := one_loadSlot (A := A) hS 1 g.vThis hargs (by decide) (by decide)
    rwa [hl] at this
  · intro A h1 _
    exact ref_loadVar 0 _ (by decide) (by decide)

omit hS in
theorem beq_eq_decide' {a b : Byte} : (a == b) = decide (a = b) := by
  by_cases h : a = b <;> simp [h]

/-! ## After a hook -/

omit hS in
theorem jcc8_instr (c : Fin 16) (n : Nat) (hn : n < 128) : (Op.jcc8 c (i8 n)).instr = .jcc c (i32 n) := by
  have e : (Op.jcc8 c (i8 n)).instr = .jcc c (sx8 (i8 n)) := rfl
  rw [e, sx8_i8 _ (by omega)]

/-- No counterpart in /repo: the code behind the call of a hook: the status. -/
def statusOps : List Op :=
  [.movRegAuto eax ebp (i32 vCur), .movRegAuto edx ebp (i32 vStatus), .movD8Reg ebp eax (i8 vPrev),
   .cmpRegRm eax edx 3, .jcc8 14 (i8 (size [.movD8Reg ebp eax (i8 vStatus)])), .movD8Reg ebp eax (i8 vStatus)]

theorem ref_raise (g : Gen) :
    Ref E S code statusOps (K.idle : Abs U) (raise (world E S) (varsAt g S)) (fun _ => K.idle) := by
  unfold raise statusOps
  refine Ref.bind (ref_loadVar 0 _ (by decide) (by decide)) fun c => ?_
  refine Ref.bind (ref_loadVar 2 _ (by decide) (by decide)) fun st => ?_
  refine Ref.bind (ref_saveVar8 hS 0 _ (by decide) rfl) fun _ => ?_
  refine Ref.over (b := decide (c.toInt ≤ st.toInt)) (jcc8_instr 14 _ (by decide)) (by decide)
    (A₁ := ((K.idle.set 0 (some c)).set 2 (some st))) ?_ ?_ ?_
  · intro m s h
    refine ⟨_, ex_cmpReg _ _ _ _, h.congr rfl rfl rfl, ?_⟩
    rw [h.reg 0 c rfl, h.reg 2 st rfl]
    exact holds_le_sub _ _ _
  · intro h
    have h : c.toInt ≤ st.toInt := of_decide_eq_true h
    have e : decide (st.toInt < c.toInt) = false := decide_eq_false (by omega)
    rw [e]
    exact Ref.done (idle_le rfl rfl rfl rfl rfl)
  · intro h
    have h : ¬ c.toInt ≤ st.toInt := of_decide_eq_false h
    have e : decide (st.toInt < c.toInt) = true := decide_eq_true (by omega)
    rw [e]
    exact (ref_saveVar8 hS 0 _ (by decide) rfl).weaken fun _ => idle_le rfl rfl rfl rfl rfl

/-- No counterpart in /repo: the code behind the call of a hook: the result. -/
def overrideOps (g : Gen) : List Op :=
  if g.ret.size = 0 then []
  else [.movRegAuto eax ebp (i32 vCur), .cmpImm32 3 eax (i32 2),
    .jcc8 12 (i8 (size (getOverride ++ storeOverride g)))] ++ (getOverride ++ storeOverride g)

theorem ref_override {g : Gen} (hg : RetOk g.ret) (hd : 128 ≤ S.depth)
    (hsz : size (getOverride ++ storeOverride g) < 128) :
    Ref E S code (overrideOps g) (K.idle : Abs U)
      (override (world E S) (varsAt g S) g (K.loc vCtx)) (fun _ => K.idle) := by
  unfold override overrideOps
  split
  · exact Ref.done (Le.refl _)
  · refine Ref.bind (ref_loadVar 0 _ (by decide) (by decide)) fun c => ?_
    refine Ref.over (skip := getOverride ++ storeOverride g) (b := decide (c.toInt < 2))
      (jcc8_instr 12 _ hsz) (by omega)
      (A₁ := K.idle.set 0 (some c)) ?_ ?_ ?_
    · intro m s h
      refine ⟨_, ex_cmpImm _ _ _ _, h.congr rfl rfl rfl, ?_⟩
      rw [h.reg 0 c rfl]
      exact holds_l_sub _ _ _
    · intro h
      have h : c.toInt < 2 := of_decide_eq_true h
      rw [if_pos h]
      exact Ref.done (idle_le rfl rfl rfl rfl rfl)
    · intro h
      have h : ¬ c.toInt < 2 := of_decide_eq_false h
      rw [if_neg h]
      refine Ref.le (A₁ := K.idle) (Ref.seq (ref_getOverride hS hd) fun p =>
        ref_storeOverride hS g hd hg.small _) ?_
      exact idle_le rfl rfl rfl rfl rfl

/-! ## The loop -/

/-- No counterpart in /repo: the body of the loop. -/
def bodyOps (g : Gen) (c : Nat) : List Op :=
  hookCall g (pushParams g c) ++ (statusOps ++ overrideOps g)

/-- No counterpart in /repo: the loop. -/
def loopOps (g : Gen) (c : Nat) : List Op :=
  whileOps [.movRegAuto ecx ebp (i32 vCtx), .push ecx, .movRegRm eax ecx 0, .movRegRm eax eax 0,
    .call eax, .pop ecx] (.testRmReg eax eax 3) (bodyOps g c)

theorem ref_loop {g : Gen} (hp : ∀ p ∈ g.params, PassOk p) (hg : RetOk g.ret)
    (hd : slots g.params + 128 ≤ S.depth) (hs : slots g.params < 32768)
    (hsz : size (getOverride ++ storeOverride g) < 128) {c : Nat} (hb : size (bodyOps g c) < 2 ^ 30)
    (n : Nat) :
    Ref E S code (loopOps g c) (K.idle : Abs U)
      (hooks (world E S) (varsAt g S) g (K.loc vCtx) (off S.F g.base) n) (fun _ => K.idle) := by
  have hd' : 128 ≤ S.depth := by omega
  refine Ref.loop (x := virt (world E S) (K.loc vCtx) 0) (P := fun it => it.reg 0 = 0)
    (B := fun it => K.at (some (it.reg 0)) none [])
    (y := fun it => do
      hookOne (world E S) (varsAt g S) g (it.reg 0) (off S.F g.base)
      raise (world E S) (varsAt g S)
      override (world E S) (varsAt g S) g (K.loc vCtx))
    (l := hooks (world E S) (varsAt g S) g (K.loc vCtx) (off S.F g.base)) rfl ?_ (ref_loopHead hS hd')
    ?_ (fun a => idle_le rfl rfl rfl rfl rfl) ?_ (by decide) hb n
  · intro n
    simp only [bind_assoc]
    rfl
  · intro a m s h
    refine ⟨_, ex_test _ _ _, h.congr rfl rfl rfl, ?_⟩
    rw [h.reg 0 (a.reg 0) rfl]
    exact holds_e_log _ _
  · intro a
    exact Ref.seq (ref_hookCall hS hp hg hd hs c _) fun _ => Ref.seq (ref_raise hS g) fun _ =>
      ref_override hS hg hd' hsz

/-- `prev_res = MRES_IGNORED` and the loop. -/
theorem ref_callHooks {g : Gen} (hp : ∀ p ∈ g.params, PassOk p) (hg : RetOk g.ret)
    (hd : slots g.params + 128 ≤ S.depth) (hs : slots g.params < 32768)
    (hsz : size (getOverride ++ storeOverride g) < 128) {c : Nat} (hb : size (bodyOps g c) < 2 ^ 30)
    (n : Nat) :
    Ref E S code (.movD8Imm ebp 0 (i8 vPrev) :: loopOps g c) (K.idle : Abs U)
      (Spec.callHooks (world E S) (varsAt g S) g n (K.loc vCtx) (off S.F g.base)) (fun _ => K.idle) :=
  Ref.bind (ref_saveImm hS _ _ (by decide)) fun _ => ref_loop hS hp hg hd hs hsz hb n

/-! ## The original function -/

/-- No counterpart in /repo: the code that calls the original function or not. -/
def origOps (g : Gen) (c : Nat) : List Op :=
  .movRegAuto eax ebp (i32 vStatus) :: condOps (.cmpImm32 3 eax (i32 3))
    [.movRegAuto ecx ebp (i32 vCtx), .push ecx, .movRegRm eax ecx 0, .movRegD8 eax eax (i8 12),
     .call eax, .pop ecx] (.test8RmReg eax eax 3) (origCall g (pushParams g c)) (Jit32.origElse g)

theorem ref_orig {g : Gen} (hp : ∀ p ∈ g.params, PassOk p) (hg : RetOk g.ret)
    (hd : slots g.params + 128 ≤ S.depth) (hs : slots g.params < 32768) (hargs : S.slot g.vThis)
    {c : Nat} (hb : size (origCall g (pushParams g c)) < 2 ^ 30) (he : size (Jit32.origElse g) < 2 ^ 30) :
    Ref E S code (origOps g c) (K.idle : Abs U)
      (Spec.callOrig (world E S) (varsAt g S) g (K.loc vCtx) (K.loc g.vThis) (off S.F g.base))
      (fun _ => K.idle) := by
  have hd' : 128 ≤ S.depth := by omega
  refine Ref.bind (ref_loadVar 0 _ (by decide) (by decide)) fun st => ?_
  refine Ref.cond (A' := K.idle) (P := st = 3) (Q := fun r : Ans U => (r.reg 0).extractLsb' 0 8 = 0)
    (B := fun a : Ans U => K.at (some (a.reg 0)) none []) ?_
    ((ref_origAsk hS hd').le (idle_le rfl rfl rfl rfl rfl)) ?_ (fun _ => idle_le rfl rfl rfl rfl rfl)
    (idle_le rfl rfl rfl rfl rfl) (ref_origCall hS hp hg hd hs hargs c) (ref_origElse hS hg hd')
    (by decide) hb he
  · intro m s h
    refine ⟨_, ex_cmpImm _ _ _ _, h.congr rfl rfl rfl, ?_⟩
    rw [h.reg 0 st rfl]
    exact holds_e_sub _ _ _
  · intro r m s h
    refine ⟨_, ex_test8 _ _, h.congr rfl rfl rfl, ?_⟩
    rw [holds_e_flags, h.reg 0 (r.reg 0) rfl]
    exact congrArg some beq_eq_decide'

end

end Verif.Jit32
