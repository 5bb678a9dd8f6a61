import Verif.Jit32.RuleRun
/-
C87: a hook function generated at run time on 32-bit x86 calls the hooks and the original function and
returns by the rule of SourceHook.
-/
namespace Verif.Jit32.Rule

open Spec
open Verif.Jit (Byte)

/-! ## The rule and the state -/

theorem passed_append (σ : St) (hs hs' : List Hook) :
    passed σ (hs ++ hs') = passed (passed σ hs) hs' := List.foldl_append

theorem passed_or : ∀ (hs : List Hook) (σ : St), (passed σ hs).or = σ.or := by
  intro hs
  induction hs with
  | nil => intro σ; rfl
  | cons h hs ih => intro σ; exact ih _

/-- The state depends on what was there before only through the status and the override value. -/
theorem passed_status : ∀ (hs : List Hook) (σ τ : St), σ.status = τ.status →
    (passed σ hs).status = (passed τ hs).status := by
  intro hs
  induction hs with
  | nil => intro σ τ h; exact h
  | cons k hs ih =>
    intro σ τ h
    refine ih _ _ ?_
    simp only [St.hook, h]

/-- **C87.** The status after some hooks is the highest of the result codes. -/
theorem status_highest (σ : St) (h0 : σ.status = 0) (hs : List Hook) :
    IsHighest (passed σ hs).status hs := by
  have key : ∀ (hs : List Hook) (σ : St), σ.status.toNat ≤ (passed σ hs).status.toNat ∧
      (∀ h ∈ hs, h.res.toNat ≤ (passed σ hs).status.toNat) ∧
      ((passed σ hs).status = σ.status ∨ ∃ h ∈ hs, h.res = (passed σ hs).status) := by
    intro hs
    induction hs with
    | nil => intro σ; exact ⟨Nat.le_refl _, fun h hh => (List.not_mem_nil hh).elim, .inl rfl⟩
    | cons k hs ih =>
      intro σ
      obtain ⟨h1, h2, h3⟩ := ih (σ.hook k)
      have e : passed σ (k :: hs) = passed (σ.hook k) hs := rfl
      have hr : σ.status.toNat ≤ (σ.hook k).status.toNat ∧ k.res.toNat ≤ (σ.hook k).status.toNat ∧
          ((σ.hook k).status = σ.status ∨ (σ.hook k).status = k.res) := by
        simp only [St.hook, raised]
        split
        · exact ⟨by omega, by omega, .inr rfl⟩
        · exact ⟨by omega, by omega, .inl rfl⟩
      rw [e]
      refine ⟨by omega, ?_, ?_⟩
      · intro h hh
        rcases List.mem_cons.1 hh with rfl | hh
        · omega
        · exact h2 h hh
      · rcases h3 with h3 | ⟨h, hh, h3⟩
        · rcases hr.2.2 with h4 | h4
          · exact .inl (h3.trans h4)
          · exact .inr ⟨k, List.mem_cons_self, (h3.trans h4).symm⟩
        · exact .inr ⟨h, List.mem_cons_of_mem _ hh, h3⟩
  obtain ⟨-, h2, h3⟩ := key hs σ
  exact ⟨h2, h0 ▸ h3⟩

theorem lastOverride_cons (h : Hook) (hs : List Hook) : lastOverride (h :: hs)
    = match lastOverride hs with
      | some k => some k
      | none => if 2 ≤ h.res.toNat then some h else none := by
  unfold lastOverride
  by_cases hr : 2 ≤ h.res.toNat
  · rw [List.filter_cons_of_pos (by simpa using hr)]
    cases hf : hs.filter (fun h => decide (2 ≤ h.res.toNat)) with
    | nil => simp [hr]
    | cons a l =>
      rw [List.getLast?_cons_cons]
      cases hl : (a :: l).getLast? with
      | none => simp at hl
      | some b => rfl
  · rw [List.filter_cons_of_neg (by simpa using hr), if_neg hr]
    cases (hs.filter (fun h => decide (2 ≤ h.res.toNat))).getLast? <;> rfl

/-- **C87.** The override value is the value of the last hook that overrides. -/
theorem override_last : ∀ (hs : List Hook) (σ : St),
    (passed σ hs).ov = match lastOverride hs with | some h => h.val | none => σ.ov := by
  intro hs
  induction hs with
  | nil => intro σ; rfl
  | cons h hs ih =>
    intro σ
    refine (ih (σ.hook h)).trans ?_
    rw [lastOverride_cons]
    cases hl : lastOverride hs with
    | some k => rfl
    | none =>
      simp only [St.hook]
      split <;> rfl

theorem overridden_iff {hs : List Hook} {r : W} (h : IsHighest r hs) :
    2 ≤ r.toNat ↔ (lastOverride hs).isSome = true := by
  have e : (lastOverride hs).isSome = true ↔ ∃ k ∈ hs, 2 ≤ k.res.toNat := by
    unfold lastOverride
    rw [List.getLast?_isSome]
    constructor
    · intro hn
      obtain ⟨k, hk⟩ := List.exists_mem_of_ne_nil _ hn
      rw [List.mem_filter] at hk
      exact ⟨k, hk.1, by simpa using hk.2⟩
    · rintro ⟨k, hk, hr⟩ hn
      have : k ∈ hs.filter (fun h => decide (2 ≤ h.res.toNat)) := List.mem_filter.2 ⟨hk, by simpa using hr⟩
      rw [hn] at this
      exact List.not_mem_nil this
  rw [e]
  constructor
  · intro hr
    rcases h.2 with h0 | ⟨k, hk, rfl⟩
    · rw [h0] at hr; simp at hr
    · exact ⟨k, hk, hr⟩
  · rintro ⟨k, hk, hr⟩
    have := h.1 k hk
    omega

variable {U : Fpu} {K : Case}

theorem last_status (pre post : List Hook) (o : Option (List Byte)) :
    (last K pre post o).status = (passed (first K) (pre ++ post)).status := by
  unfold last
  rw [passed_append]
  exact passed_status _ _ _ (orig_status _ _)

/-- The value returned is the one of the rule. -/
theorem returned_ruled (pre post : List Hook) (o : Option (List Byte)) :
    (if 2 ≤ (last K pre post o).status.toNat then (last K pre post o).ov
      else (last K pre post o).or) = ruled K pre post o := by
  have hh := status_highest (first K) rfl (pre ++ post)
  rw [last_status]
  have hov : ∀ o, ((passed (first K) pre).orig o).ov = (passed (first K) pre).ov := by
    intro o
    cases o <;> rfl
  have key : (last K pre post o).ov = match lastOverride (pre ++ post) with
      | some h => h.val | none => bytes K.mem K.V.override (width K.g) := by
    have e1 := override_last (pre ++ post) (first K)
    refine Eq.trans ?_ e1
    rw [passed_append]
    unfold last
    rw [override_last, override_last, hov]
  unfold ruled
  by_cases h2 : 2 ≤ (passed (first K) (pre ++ post)).status.toNat
  · rw [if_pos h2, key]
    have := (overridden_iff hh).1 h2
    cases hl : lastOverride (pre ++ post) with
    | none => rw [hl] at this; cases this
    | some k => rfl
  · rw [if_neg h2]
    have hn : lastOverride (pre ++ post) = none := by
      cases hl : lastOverride (pre ++ post) with
      | none => rfl
      | some k => exact absurd ((overridden_iff hh).2 (by rw [hl]; rfl)) h2
    rw [hn]
    unfold last
    rw [passed_or]
    cases o with
    | some v => rfl
    | none =>
      show (passed (first K) pre).ov = _
      rw [override_last]
      have : lastOverride pre = none := by
        have e : ∀ a b : List Hook, lastOverride (a ++ b) = none → lastOverride a = none := by
          intro a b hab
          unfold lastOverride at hab ⊢
          rw [List.filter_append, List.getLast?_eq_none_iff, List.append_eq_nil_iff] at hab
          rw [hab.1]
          rfl
        exact e _ _ hn
      rw [this]
      rfl

theorem loop_small {σ σ' : St} {hs : List Hook} {as : List (Ans U)} (l : LoopAns K σ hs as σ') :
    ∀ h ∈ hs, h.res.toNat ≤ 3 := by
  induction l with
  | done => intro h hh; cases hh
  | hook _ _ hr _ _ _ _ _ ih =>
    intro h hh
    rcases List.mem_cons.1 hh with rfl | hh
    · exact hr
    · exact ih h hh
  | over _ _ hr _ _ _ _ _ _ _ _ _ ih =>
    intro h hh
    rcases List.mem_cons.1 hh with rfl | hh
    · exact hr
    · exact ih h hh

/-- **C87.** The original function is called exactly if no hook in front of it said
`MRES_SUPERCEDE` and the context, asked by ShouldCallOrig, said yes. -/
theorem orig_called_iff {pre post : List Hook} {mid ans : List (Ans U)} {o : Option (List Byte)}
    (P : Plays K pre post mid ans o) :
    o.isSome = true ↔ (∀ h ∈ pre, h.res ≠ 3) ∧ ∃ a as, mid = a :: as ∧ (a.reg 0).toNat % 256 ≠ 0 := by
  obtain ⟨as₀, a, as₁, as₃, as₄, rfl, op, pa, l1, lo, l2, le⟩ := P
  have hh := status_highest (first K) rfl pre
  have h3 : (passed (first K) pre).status = 3 ↔ ∃ h ∈ pre, h.res = 3 := by
    constructor
    · intro e
      rcases hh.2 with h0 | ⟨h, hm, hr⟩
      · rw [h0] at e; cases e
      · exact ⟨h, hm, hr.trans e⟩
    · rintro ⟨h, hm, hr⟩
      have h1 := hh.1 h hm
      rw [hr] at h1
      have h2 : (passed (first K) pre).status.toNat ≤ 3 := by
        rcases hh.2 with h0 | ⟨k, hk, e⟩
        · rw [h0]; simp
        · rw [← e]; exact loop_small l1 k hk
      apply BitVec.eq_of_toNat_eq
      have : (3 : W).toNat = 3 := rfl
      omega
  have hne : (∀ h ∈ pre, h.res ≠ 3) ↔ (passed (first K) pre).status ≠ 3 := by
    rw [ne_eq, h3]
    constructor
    · rintro h ⟨k, hk, e⟩
      exact h k hk e
    · intro h k hk e
      exact h ⟨k, hk, e⟩
  rw [hne]
  cases lo with
  | superceded h => simp [h]
  | refused h _ ha =>
    simp only [Option.isSome_none, Bool.false_eq_true, false_iff]
    rintro ⟨-, a, as, e, hn⟩
    cases e
    exact hn ha
  | called h _ ha _ =>
    simp only [Option.isSome_some, true_iff]
    exact ⟨h, _, _, rfl, ha⟩

/-- **C87.** What the original function returned, if it was called: what it left in the registers, or
at the place it was given. -/
theorem orig_value {pre post : List Hook} {mid ans : List (Ans U)} {v : List Byte}
    (P : Plays K pre post mid ans (some v)) (hz : K.g.ret.size ≠ 0) : ∃ a b, mid = [a, b] ∧
      ∀ m, Holds K m (passed (first K) pre) → value K.g b (later K.Wd m b) K.V.orig = v := by
  obtain ⟨as₀, a, as₁, as₃, as₄, rfl, op, pa, l1, lo, l2, le⟩ := P
  cases lo with
  | called h _ ha d => exact ⟨_, _, rfl, d.val hz⟩

/-! ## The stack -/

theorem outside_vis {E : Env} {S : Stack} (ok : StackOk E S) {x : W} {n : Nat}
    (h : Outside E.acc S x n) : okN (world E S).vis x n = true := by
  have h1 := h.ok
  rw [okN_iff] at h1 ⊢
  intro i hi
  have h2 := h.away i hi
  have h3 := ok.low
  have h4 := ok.wide
  have h5 := ok.depth
  have h6 := ok.args
  show (E.acc _ && !S.hidden _) = true
  rw [h1 i hi, Bool.true_and, Bool.not_eq_true']
  unfold Stack.hidden
  rw [Bool.or_eq_false_iff, decide_eq_false_iff_not, Bool.eq_false_iff, ne_eq, priv_iff]
  generalize (x + BitVec.ofNat 32 i - S.F).toInt = z at *
  refine ⟨?_, by omega⟩
  rintro (h7 | h7 | ⟨hw, h7⟩)
  · omega
  · omega
  · have := h4 hw
    omega

theorem outside_apart {E : Env} {S : Stack} (ok : StackOk E S) {x : W} {n : Nat}
    (h : Outside E.acc S x n) {a : Int} {k : Nat} (h1 : S.low ≤ a) (h2 : a + k ≤ S.args) :
    Apart (off S.F a) k x n := by
  intro i j hi hj e
  have h3 := h.away j hj
  have h4 := ok.low
  have h5 := ok.depth
  have h6 := ok.args
  rw [← e, off_bytes, off_toInt _ _ ⟨by omega, by omega⟩] at h3
  omega

theorem off_apart (F : W) {a b : Int} {n k : Nat} (h : a + n ≤ b ∨ b + k ≤ a)
    (h1 : -2 ^ 28 ≤ a ∧ a + n ≤ 2 ^ 28) (h2 : -2 ^ 28 ≤ b ∧ b + k ≤ 2 ^ 28) :
    Apart (off F a) n (off F b) k := by
  intro i j hi hj e
  rw [off_bytes, off_bytes] at e
  have := off_inj F ⟨by omega, by omega⟩ e
  omega

theorem var_vis {E : Env} {S : Stack} (ok : StackOk E S) {k : Int} {n : Nat} (h1 : S.low ≤ k)
    (h2 : k + n ≤ 0) (h3 : -20 ≤ k ∨ k + n ≤ -24) (h4 : S.wide = true → -24 ≤ k ∨ k + n ≤ -28) :
    okN (world E S).vis (off S.F k) n = true := by
  have a1 := ok.low
  have a2 := ok.depth
  have a3 := ok.args
  have h := okN_stack ok (k := k) (n := n) (by omega) (by omega)
  rw [okN_iff] at h ⊢
  intro i hi
  show (E.acc _ && !S.hidden _) = true
  rw [h i hi, Bool.true_and, Bool.not_eq_true', off_bytes, hidden_off _ _ ⟨by omega, by omega⟩]
  rw [Bool.or_eq_false_iff, decide_eq_false_iff_not, Bool.eq_false_iff, ne_eq, priv_iff]
  refine ⟨?_, by omega⟩
  rintro (h7 | h7 | ⟨hw, h7⟩)
  · omega
  · omega
  · have := h4 hw
    omega

/-- Specification: the call of the hook function generated for `g`, in the state `s` on entry. -/
def caseOf (E : Env) (g : Gen) (s : Mach U) (depth : Int) (C : Context) (H : List Hook)
    (text : List Byte) : Case where
  Wd := world E (stackOf g (s.reg 4) depth)
  V := varsAt g (stackOf g (s.reg 4) depth)
  g := g
  this := thisArg g s
  memret := arg s 1
  args := s.reg 4 + firstArg g
  mem := s.mem
  C := C
  H := H
  text := text

theorem room_eq {g : Gen} (h : RetOk g.ret) : room g = stackSize g.ret := by
  rw [stackSize_eq, h.notForced]
  unfold room width
  cases g.ret.flags.getLsbD 1 <;> simp

theorem room_bound {g : Gen} (h : HookOk g) : room g ≤ 2 ^ 24 := by
  have := h.retSize
  unfold room width
  split <;> omega

variable {E : Env} {g : Gen} {s : Mach U} {depth : Int} {C : Context} {H : List Hook} {text : List Byte}

theorem vars_at (h : HookOk g) :
    ∃ ks : List (Int × Nat), (caseOf E g s depth C H text).written
        = ks.map (fun k => (off (stackOf g (s.reg 4) depth).F k.1, k.2)) ∧
      ks.Pairwise (fun a b : Int × Nat => a.1 + (a.2 : Int) ≤ b.1 ∨ b.1 + (b.2 : Int) ≤ a.1) ∧
      ∀ k ∈ ks, -(frame g).size ≤ k.1 ∧ k.1 + k.2 ≤ -4 ∧ (-20 ≤ k.1 ∨ k.1 + k.2 ≤ -24) ∧
        (g.ret.size ≠ 0 → -20 ≤ k.1 ∨ k.1 + k.2 ≤ -28) := by
  have hf := fbrr_none h.params
  have hr : (stackSize g.ret : Int) = room g := by rw [room_eq h.ret]
  have hv := h.conv
  obtain ⟨q, hq⟩ : ∃ q : Nat, (if g.temp then (room g : Int) else 0) = q := by
    cases g.temp with
    | true => exact ⟨room g, rfl⟩
    | false => exact ⟨0, rfl⟩
  by_cases hz : g.ret.size = 0
  · cases hvf : g.vafmt with
    | false =>
      rw [hvf] at hv
      have fs : (frame g).size = 24 + q := by
        simp only [frame, hf, hv, hvf, hr, hz]
        cases ht : g.temp <;> rw [ht] at hq <;> simp at hq ⊢ <;> omega
      refine ⟨[(-8, 4), (-16, 4), (-12, 4)], ?_, ?_, ?_⟩
      · simp only [Case.written, caseOf, hz, hvf, if_true, if_false, Bool.false_eq_true, List.append_nil]
        rfl
      · simp
      · intro k hk
        simp only [List.mem_cons, List.not_mem_nil, or_false] at hk
        rw [fs]
        rcases hk with rfl | rfl | rfl <;> dsimp only <;> omega
    | true =>
      rw [hvf] at hv
      have fs : (frame g).size = 4124 + q := by
        simp only [frame, hf, hv, hvf, hr, hz]
        cases ht : g.temp <;> rw [ht] at hq <;> simp [strbufLen] at hq ⊢ <;> omega
      have fa : (frame g).vaArg = -28 - q := by
        simp only [frame, hf, hv, hvf, hr, hz]
        cases ht : g.temp <;> rw [ht] at hq <;> simp at hq ⊢ <;> omega
      have fb : (frame g).vaBuf = -4124 - q := by
        simp only [frame, hf, hv, hvf, hr, hz]
        cases ht : g.temp <;> rw [ht] at hq <;> simp [strbufLen] at hq ⊢ <;> omega
      refine ⟨[(-8, 4), (-16, 4), (-12, 4), (-28 - q, 4), (-4124 - q, 4096)], ?_, ?_, ?_⟩
      · simp only [Case.written, caseOf, hz, hvf, if_true, List.append_nil, varsAt, fa, fb]
        rfl
      · simp only [List.pairwise_cons, List.mem_cons, List.not_mem_nil, or_false, forall_eq_or_imp,
          forall_eq]
        refine ⟨by omega, by omega, by omega, by omega, fun _ h => h.elim, .nil⟩
      · intro k hk
        simp only [List.mem_cons, List.not_mem_nil, or_false] at hk
        rw [fs]
        rcases hk with rfl | rfl | rfl | rfl | rfl <;> dsimp only <;> omega
  · have hw : 4 ≤ room g := by
      unfold room width
      split <;> omega
    have f1 : (frame g).orig = -28 - room g := by simp [frame, hr, hz]
    have f2 : (frame g).override = -28 - 2 * room g := by simp [frame, hr, hz]
    have f3 : (frame g).plugin = -28 - 3 * room g := by simp [frame, hr, hz]
    cases hvf : g.vafmt with
    | false =>
      rw [hvf] at hv
      have fs : (frame g).size = 28 + 3 * room g + q := by
        simp only [frame, hf, hv, hvf, hr]
        cases ht : g.temp <;> rw [ht] at hq <;> simp [hz] at hq ⊢ <;> omega
      refine ⟨[(-8, 4), (-16, 4), (-12, 4), (-28 - room g, room g), (-28 - 2 * room g, room g),
        (-28 - 3 * room g, room g)], ?_, ?_, ?_⟩
      · simp only [Case.written, caseOf, hz, hvf, if_false, Bool.false_eq_true, List.append_nil, varsAt, f1,
          f2, f3]
        rfl
      · simp only [List.pairwise_cons, List.mem_cons, List.not_mem_nil, or_false, forall_eq_or_imp,
          forall_eq]
        refine ⟨by omega, by omega, by omega, by omega, by omega, fun _ h => h.elim, .nil⟩
      · intro k hk
        simp only [List.mem_cons, List.not_mem_nil, or_false] at hk
        rw [fs]
        rcases hk with rfl | rfl | rfl | rfl | rfl | rfl <;> dsimp only <;> omega
    | true =>
      rw [hvf] at hv
      have fs : (frame g).size = 4128 + 3 * room g + q := by
        simp only [frame, hf, hv, hvf, hr]
        cases ht : g.temp <;> rw [ht] at hq <;> simp [hz, strbufLen] at hq ⊢ <;> omega
      have fa : (frame g).vaArg = -32 - 3 * room g - q := by
        simp only [frame, hf, hv, hvf, hr]
        cases ht : g.temp <;> rw [ht] at hq <;> simp [hz] at hq ⊢ <;> omega
      have fb : (frame g).vaBuf = -4128 - 3 * room g - q := by
        simp only [frame, hf, hv, hvf, hr]
        cases ht : g.temp <;> rw [ht] at hq <;> simp [hz, strbufLen] at hq ⊢ <;> omega
      refine ⟨[(-8, 4), (-16, 4), (-12, 4), (-28 - room g, room g), (-28 - 2 * room g, room g),
        (-28 - 3 * room g, room g), (-32 - 3 * room g - q, 4), (-4128 - 3 * room g - q, 4096)], ?_, ?_, ?_⟩
      · simp only [Case.written, caseOf, hz, hvf, if_true, if_false, varsAt, f1, f2, f3, fa, fb]
        rfl
      · simp only [List.pairwise_cons, List.mem_cons, List.not_mem_nil, or_false, forall_eq_or_imp,
          forall_eq]
        refine ⟨by omega, by omega, by omega, by omega, by omega, by omega, by omega, fun _ h => h.elim, .nil⟩
      · intro k hk
        simp only [List.mem_cons, List.not_mem_nil, or_false] at hk
        rw [fs]
        rcases hk with rfl | rfl | rfl | rfl | rfl | rfl | rfl | rfl <;> dsimp only <;> omega

theorem stack_ok (h : HookOk g) (hE : CallerOk E g (s.reg 4) depth) :
    StackOk E (stackOf g (s.reg 4) depth) :=
  stackOf_ok h.params h.retSize ⟨by have := hE.room; omega, hE.room.2⟩ hE.acc hE.keep hE.top

/-- The variables are apart from everything outside. -/
theorem written_apart (h : HookOk g) (hE : CallerOk E g (s.reg 4) depth) {x : W} {n : Nat}
    (o : Outside E.acc (stackOf g (s.reg 4) depth) x n) :
    ∀ y ∈ (caseOf E g s depth C H text).written, Apart y.1 y.2 x n := by
  obtain ⟨ks, hw, -, hr⟩ := vars_at (E := E) (s := s) (depth := depth) (C := C) (H := H) (text := text) h
  have ok := stack_ok h hE
  intro y hy
  rw [hw, List.mem_map] at hy
  obtain ⟨k, hk, rfl⟩ := hy
  have h1 := hr k hk
  have h2 : (stackOf g (s.reg 4) depth).low ≤ -(frame g).size := by
    show -(frame g).size - _ ≤ _
    omega
  have h3 := ok.args
  exact outside_apart ok o (by omega) (by omega)

theorem args_outside (h : HookOk g) (hE : CallerOk E g (s.reg 4) depth)
    (ha : okN E.acc (s.reg 4 + firstArg g) (caseOf E g s depth C H text).argSize = true) :
    Outside E.acc (stackOf g (s.reg 4) depth) (s.reg 4 + firstArg g)
      (caseOf E g s depth C H text).argSize := by
  refine ⟨ha, fun i hi => .inl ?_⟩
  have e : s.reg 4 + firstArg g = off (stackOf g (s.reg 4) depth).F (stackOf g (s.reg 4) depth).args := by
    show _ = off (off _ _) (if hid g then 20 else 16)
    rw [off_off]
    unfold firstArg
    cases hid g <;> rfl
  have hs := h.slots
  have hl : (caseOf E g s depth C H text).argSize ≤ slots g.params + 4 := by
    unfold Case.argSize caseOf
    dsimp only
    split <;> omega
  have h6 := (stack_ok h hE).args
  rw [e, off_bytes, off_toInt _ _ ⟨by omega, by omega⟩]
  omega

theorem laid (h : HookOk g) (hE : CallerOk E g (s.reg 4) depth)
    (out : ∀ c ∈ (caseOf E g s depth C H text).objects,
      Outside E.acc (stackOf g (s.reg 4) depth) c.1 4)
    (ha : okN E.acc (s.reg 4 + firstArg g) (caseOf E g s depth C H text).argSize = true) :
    Laid (caseOf E g s depth C H text) := by
  obtain ⟨ks, hw, hp, hr⟩ := vars_at (E := E) (s := s) (depth := depth) (C := C) (H := H) (text := text) h
  have ok := stack_ok h hE
  have fb := frame_bounds h.params h.retSize
  have hlow : (stackOf g (s.reg 4) depth).low ≤ -(frame g).size := by
    show -(frame g).size - _ ≤ _
    omega
  have oa := args_outside h hE ha
  refine ⟨?_, ?_, ?_, ?_, ?_, ?_⟩
  · intro x hx
    rw [hw, List.mem_map] at hx
    obtain ⟨k, hk, rfl⟩ := hx
    obtain ⟨h1, h2, h3, h4⟩ := hr k hk
    refine var_vis ok (by omega) (by omega) h3 fun hwd => ?_
    have : g.ret.size ≠ 0 := of_decide_eq_true hwd
    rcases h4 this with h | h
    · left; omega
    · exact .inr h
  · rw [hw, List.pairwise_map]
    refine (List.Pairwise.and_mem.1 hp).imp ?_
    rintro a b ⟨ha, hb, hab⟩
    have := hr a ha
    have := hr b hb
    exact off_apart _ hab ⟨by omega, by omega⟩ ⟨by omega, by omega⟩
  · intro c hc
    rcases List.mem_cons.1 hc with rfl | hc
    · exact var_vis ok (k := -4) (by omega) (by omega) (.inl (by omega)) fun _ => .inl (by omega)
    · exact outside_vis ok (out c hc)
  · intro c hc x hx
    rcases List.mem_cons.1 hc with rfl | hc
    · rw [hw, List.mem_map] at hx
      obtain ⟨k, hk, rfl⟩ := hx
      have h1 := hr k hk
      exact off_apart _ (b := -4) (.inl (by omega)) ⟨by omega, by omega⟩ ⟨by omega, by omega⟩
    · exact written_apart h hE (out c hc) x hx
  · exact outside_vis ok oa
  · exact written_apart h hE oa

/-- **C87.** The generated code, called with the hooks `pre` and `post` in place: it makes exactly
the calls of the rule, in order: `vsnprintf` where the function takes a format; SetupHookLoop; GetNext
and each hook of `pre` with the parameters of the call; the original function if it is to be called;
GetNext and each hook of `post`; EndContext.  Each finds the status, the override value, the original
value and the text as they are at that point.  Then it returns to its caller with the value of the
rule, the stack pointer and the registers to be preserved as they must be.  This is for functions
whose returned value is copied as bytes (`Simple`). -/
theorem hook_rule (h : HookOk g) (S : Simple g) (hE : CallerOk E g (s.reg 4) depth) (hf : s.fpu = [])
    (out : ∀ c ∈ (caseOf E g s depth C H text).objects,
      Outside E.acc (stackOf g (s.reg 4) depth) c.1 4)
    (hi : Outside E.acc (stackOf g (s.reg 4) depth) g.pHI 4)
    (vt : Outside E.acc (stackOf g (s.reg 4) depth) (thisArg g s + BitVec.ofInt 32 g.vtblOffs) 4)
    (ha : okN E.acc (s.reg 4 + firstArg g) (caseOf E g s depth C H text).argSize = true)
    (hm : hid g = true → Outside E.acc (stackOf g (s.reg 4) depth) (arg s 1) g.ret.size)
    {pre post : List Hook} {mid ans : List (Ans U)} {o : Option (List Byte)}
    (P : Plays (caseOf E g s depth C H text) pre post mid ans o) (rest : List (Ans U)) :
    ∃ code tr s', generateHookFunc g = some code ∧
      Returns E code s (ans ++ rest) tr (arg s 0) s' rest ∧
      (∃ t, AreCalls (stackOf g (s.reg 4) depth) t tr ∧
        AreSeen (caseOf E g s depth C H text) t (wanted (caseOf E g s depth C H text) pre post o)) ∧
      (g.ret.size ≠ 0 → Returned g (arg s 1) (ruled (caseOf E g s depth C H text) pre post o)
        (s'.reg 0) (s'.reg 2) s'.fpu s'.mem) ∧
      s'.reg 4 = s.reg 4 + (if hid g then 8 else 4) ∧ Same s s' := by
  have ok := stack_ok h hE
  have T : Told (caseOf E g s depth C H text) :=
    ⟨outside_vis ok hi, outside_vis ok vt, written_apart h hE hi, written_apart h hE vt⟩
  have D : hid g = true → Placed (caseOf E g s depth C H text) := fun hh =>
    ⟨outside_vis ok (hm hh), written_apart h hE (hm hh)⟩
  obtain ⟨r, m, t, e, y, w⟩ := whole_run (n := pre.length + post.length + 1) S h.ret h.params h.conv
    (laid h hE out ha) T D P (by omega) (by omega) rest
  obtain ⟨code, tr, s', hc, hr, hcl, k1, k2, k3, k4, k5, k6⟩ :=
    hook_function_partial h hE hf (n := pre.length + post.length + 1) e
  refine ⟨code, tr, s', hc, hr, ⟨t, hcl, w⟩, ?_, k4, k5⟩
  intro hz
  have y := y hz
  rw [returned_ruled] at y
  generalize ruled (caseOf E g s depth C H text) pre post o = v at y ⊢
  have y : Yields g (arg s 1) v r m := y
  unfold Yields at y
  unfold Returned
  split at y
  · rename_i h1
    rw [if_pos h1]
    obtain ⟨x, rfl, rfl⟩ := y
    rw [k1 x rfl]
  · rename_i h1
    rw [if_neg h1]
    split at y
    · rename_i hh
      rw [if_pos hh]
      obtain ⟨rfl, rfl⟩ := y
      refine ⟨k1 _ rfl, ?_⟩
      have hv := outside_vis ok (hm hh)
      rw [okN_iff] at hv
      exact bytes_congr fun i hi => k6 _ (shown_of_vis (hv i hi))
    · rename_i hh
      rw [if_neg hh]
      split at y
      · rename_i h2
        rw [if_pos h2]
        split at y
        · rename_i h3
          rw [if_pos h3]
          obtain ⟨x, rfl, rfl⟩ := y
          exact ⟨x, rfl, k3⟩
        · rename_i h3
          rw [if_neg h3]
          obtain ⟨x, rfl, rfl⟩ := y
          exact ⟨x, rfl, k3⟩
      · rename_i h2
        rw [if_neg h2]
        split at y
        · rename_i h4
          obtain ⟨x, rfl, rfl⟩ := y
          rw [k1 x rfl]
          exact List.take_append_of_le_length (by exact h4)
        · obtain ⟨x, z, rfl, rfl⟩ := y
          rw [k1 x rfl, k2 z rfl]

/-! ## A call with one hook that supercedes -/

/-- No counterpart in /repo: the prototype `int f(int, const char *, ...)`. -/
def rxGen : Gen := { exampleHook with conv := 0x30001 }

/-- No counterpart in /repo: the functions called leave everything but `cur_res`, the buffer and
the address of the original function alone. -/
def rxEnv : Env where
  acc _ := true
  keep x := decide (4 ≤ (x - 0xFFF4).toNat) && decide (4096 ≤ (x - 0xEFD8).toNat)
    && decide (4 ≤ (x - 0x10000).toNat)
  top := 0xEFD0

/-- No counterpart in /repo: the hook: it says `MRES_SUPERCEDE` and returns 42. -/
def rxHook : Hook := ⟨0x5100, 0x7000, 0x888, 3, [42, 0, 0, 0]⟩
/-- No counterpart in /repo: the context. -/
def rxCtx : Context := ⟨0x5000, 0x6000, 0x901, 0x903, 0x904, 0x905, 0x41414141⟩
/-- No counterpart in /repo: the memory: context, hook and their tables. -/
def rxMem : Memory :=
  wr (wr (wr (wr (wr (wr (wr (fun _ => 0) 0x5000 0x6000) 0x6000 0x901) 0x6004 0x903) 0x6008 0x904)
    0x600C 0x905) 0x5100 0x7000) 0x7008 0x888
/-- No counterpart in /repo: the caller. -/
def rxMach : Mach exampleFpu := { exampleCall with mem := rxMem }
/-- No counterpart in /repo: what the called functions leave where they write: the text, its end, the
result code of the hook. -/
def rxLeft : Memory := wr (wr8 (fun _ => 65) 0xFFD7 0) 0xFFF4 3
/-- No counterpart in /repo: the text. -/
@[irreducible] def rxText : List Byte := bytes rxLeft 0xEFD8 4095
/-- No counterpart in /repo: the call. -/
abbrev rxCase : Case := caseOf rxEnv rxGen rxMach 256 rxCtx [rxHook] rxText

theorem rxGen_ok : HookOk rxGen where
  params := exampleHook_ok.params
  ret := exampleHook_ok.ret
  slots := exampleHook_ok.slots
  count := exampleHook_ok.count
  retSize := exampleHook_ok.retSize
  vtbl := exampleHook_ok.vtbl
  conv := by decide

theorem rxGen_simple : Simple rxGen := ⟨by decide, by decide, rfl, by decide, by decide⟩

theorem rx_caller : CallerOk rxEnv rxGen (rxMach.reg 4) 256 where
  acc := fun _ _ _ => rfl
  keep := by
    intro k hk
    rw [priv_iff] at hk
    have e : (stackOf rxGen (rxMach.reg 4) 256).args = 16 := by decide
    rw [e] at hk
    show (decide (4 ≤ ((0x10004 : W) + BitVec.ofInt 32 k - 0xFFF4).toNat)
      && decide (4096 ≤ ((0x10004 : W) + BitVec.ofInt 32 k - 0xEFD8).toNat)
      && decide (4 ≤ ((0x10004 : W) + BitVec.ofInt 32 k - 0x10000).toNat)) = true
    have e1 : (0x10004 : W) + BitVec.ofInt 32 k - 0xFFF4 = BitVec.ofInt 32 k + 16 := by
      rw [BitVec.add_comm, BitVec.sub_eq_add_neg, BitVec.add_assoc]; rfl
    have e2 : (0x10004 : W) + BitVec.ofInt 32 k - 0xEFD8 = BitVec.ofInt 32 k + 4140 := by
      rw [BitVec.add_comm, BitVec.sub_eq_add_neg, BitVec.add_assoc]; rfl
    have e3 : (0x10004 : W) + BitVec.ofInt 32 k - 0x10000 = BitVec.ofInt 32 k + 4 := by
      rw [BitVec.add_comm, BitVec.sub_eq_add_neg, BitVec.add_assoc]; rfl
    rw [e1, e2, e3, Bool.and_eq_true, Bool.and_eq_true, decide_eq_true_iff, decide_eq_true_iff,
      decide_eq_true_iff, BitVec.toNat_add, BitVec.toNat_add, BitVec.toNat_add, BitVec.toNat_ofInt]
    have : (4 : W).toNat = 4 := rfl
    have : (16 : W).toNat = 16 := rfl
    have : (4140 : W).toNat = 4140 := rfl
    omega
  room := by
    have h : slots rxGen.params = 4 := rfl
    rw [h]
    omega
  top := by decide

theorem rx_out : ∀ c ∈ rxCase.objects, Outside rxEnv.acc (stackOf rxGen (rxMach.reg 4) 256) c.1 4 := by
  intro c hc
  refine ⟨rfl, ?_⟩
  revert c
  decide +kernel

theorem rx_args : Outside rxEnv.acc (stackOf rxGen (rxMach.reg 4) 256) rxCase.args rxCase.argSize :=
  args_outside rxGen_ok rx_caller rfl

theorem rx_laid : Laid rxCase := laid rxGen_ok rx_caller rx_out rfl

theorem rx_hi : Outside rxEnv.acc (stackOf rxGen (rxMach.reg 4) 256) rxGen.pHI 4 :=
  ⟨rfl, by decide +kernel⟩

theorem rx_vt : Outside rxEnv.acc (stackOf rxGen (rxMach.reg 4) 256)
    (thisArg rxGen rxMach + BitVec.ofInt 32 rxGen.vtblOffs) 4 := ⟨rfl, by decide +kernel⟩

theorem rx_later (m : Memory) (a : Ans exampleFpu) {x : W} {n : Nat} (h : Apart rxCase.V.cur 4 x n)
    (h' : Apart rxCase.V.vaBuf 4096 x n) (h'' : Apart rxCase.V.entry 4 x n) :
    bytes (later rxCase.Wd m a) x n = bytes m x n := by
  have e : rxCase.V.cur = 0xFFF4 := by decide
  have e' : rxCase.V.vaBuf = 0xEFD8 := by decide
  rw [e] at h
  rw [e'] at h'
  have e'' : rxCase.V.entry = 0x10000 := by decide
  rw [e''] at h''
  have key : ∀ y z : W, z + BitVec.ofNat 32 (y - z).toNat = y := by
    intro y z
    rw [BitVec.ofNat_toNat, BitVec.setWidth_eq, BitVec.add_comm, BitVec.sub_add_cancel]
  refine bytes_congr fun i hi => if_pos ?_
  show (decide _ && decide _ && decide _) = true
  rw [Bool.and_eq_true, Bool.and_eq_true, decide_eq_true_iff, decide_eq_true_iff, decide_eq_true_iff]
  refine ⟨⟨?_, ?_⟩, ?_⟩
  · apply Decidable.byContradiction
    intro hlt
    exact h _ i (by omega) hi (key _ _)
  · apply Decidable.byContradiction
    intro hlt
    exact h' _ i (by omega) hi (key _ _)
  · apply Decidable.byContradiction
    intro hlt
    exact h'' _ i (by omega) hi (key _ _)

theorem rx_buf (m : Memory) {a : Ans exampleFpu} (ha : a.mem = rxLeft) {n : Nat} (hn : n ≤ 4096) :
    bytes (later rxCase.Wd m a) rxCase.V.vaBuf n = bytes rxLeft 0xEFD8 n := by
  have e' : rxCase.V.vaBuf = 0xEFD8 := by decide
  rw [e']
  refine bytes_congr fun i hi => ?_
  unfold later
  rw [if_neg, ha]
  show ¬ (decide _ && decide (4096 ≤ ((0xEFD8 : W) + BitVec.ofNat 32 i - 0xEFD8).toNat) && decide _) = true
  rw [Bool.and_eq_true, Bool.and_eq_true, decide_eq_true_iff (p := 4096 ≤ _), add_sub_self,
    BitVec.toNat_ofNat]
  rintro ⟨⟨-, h⟩, -⟩
  omega

theorem rx_entry (m : Memory) {a : Ans exampleFpu} (ha : a.mem = rxLeft) :
    rd (later rxCase.Wd m a) rxCase.V.entry = 0x41414141 := by
  have e' : rxCase.V.entry = 0x10000 := by decide
  have e : bytes (later rxCase.Wd m a) rxCase.V.entry 4 = bytes rxLeft 0x10000 4 := by
    rw [e']
    refine bytes_congr fun i hi => ?_
    unfold later
    rw [if_neg, ha]
    show ¬ (decide _ && decide _ && decide (4 ≤ ((0x10000 : W) + BitVec.ofNat 32 i - 0x10000).toNat)) = true
    rw [Bool.and_eq_true, decide_eq_true_iff (p := 4 ≤ _), add_sub_self, BitVec.toNat_ofNat]
    rintro ⟨-, h⟩
    omega
  rw [bytes_four, bytes_four] at e
  rw [wordBytes_inj e]
  decide

theorem rx_cur (m : Memory) {a : Ans exampleFpu} (ha : a.mem = rxLeft) :
    rd (later rxCase.Wd m a) rxCase.V.cur = 3 := by
  have e' : rxCase.V.cur = 0xFFF4 := by decide
  have e : bytes (later rxCase.Wd m a) rxCase.V.cur 4 = bytes rxLeft 0xFFF4 4 := by
    rw [e']
    refine bytes_congr fun i hi => ?_
    unfold later
    rw [if_neg, ha]
    show ¬ (decide (4 ≤ ((0xFFF4 : W) + BitVec.ofNat 32 i - 0xFFF4).toNat) && decide _ && decide _) = true
    rw [Bool.and_eq_true, Bool.and_eq_true, decide_eq_true_iff (p := 4 ≤ _), add_sub_self, BitVec.toNat_ofNat]
    rintro ⟨⟨h, -⟩, -⟩
    omega
  rw [bytes_four, bytes_four] at e
  rw [wordBytes_inj e]
  decide

/-- The address of the original function is apart from what lies outside. -/
theorem rx_apart {x : W} {n : Nat} (o : Outside rxEnv.acc (stackOf rxGen (rxMach.reg 4) 256) x n) :
    Apart rxCase.V.entry 4 x n :=
  outside_apart (stack_ok rxGen_ok rx_caller) o (a := -4) (by decide) (by decide)

theorem rx_cell (m : Memory) (a : Ans exampleFpu) {c : W × W} (hc : c ∈ rxCase.objects) :
    rd (later rxCase.Wd m a) c.1 = rd m c.1 :=
  have hc' := List.mem_cons_of_mem (rxCase.V.entry, rxCase.C.entry) hc
  rd_of_bytes (rx_later m a (rx_laid.cellApart c hc' _ mem_cur)
    (rx_laid.cellApart c hc' _ (mem_vaBuf (by decide))) (rx_apart (rx_out c hc)))

theorem rx_text : bytes rxLeft 0xEFD8 4096 = rxText ++ [0] := by
  rw [bytes_split _ _ (n := 4095) (k := 1) (by omega)]
  unfold rxText
  refine congrArg _ ?_
  decide

theorem rx_quiet {a : Ans exampleFpu} (ha : a.mem = rxLeft) (σ : St) : Quiet rxCase a σ := by
  intro m h
  have L := rx_laid
  have P := L.pairs
  have hv : rxCase.g.vafmt = true := by decide
  have hw := width_le rxCase.g
  refine ⟨?_, ?_, ?_, ?_, ?_, ?_⟩
  · intro c hc
    rcases List.mem_cons.1 hc with rfl | hc'
    · exact rx_entry m ha
    · rw [rx_cell m a hc', h.cell c hc]
  · rw [rd_of_bytes (rx_later m a P.sc.symm (P.sb hv).symm (L.cellApart _ cell_entry _ mem_status).symm),
      h.status]
  · intro hz
    rw [rx_later m a ((P.cv hz).mono (Nat.le_refl _) hw) ((P.vb hz hv).symm.mono (Nat.le_refl _) hw)
      ((L.cellApart _ cell_entry _ (mem_override hz)).symm.mono (Nat.le_refl _) hw), h.ov hz]
  · intro hz
    rw [rx_later m a ((P.co hz).mono (Nat.le_refl _) hw) ((P.ob hz hv).symm.mono (Nat.le_refl _) hw)
      ((L.cellApart _ cell_entry _ (mem_orig hz)).symm.mono (Nat.le_refl _) hw), h.or hz]
  · rw [rx_later m a (L.argApart _ mem_cur) (L.argApart _ (mem_vaBuf hv)) (rx_apart rx_args), h.args]
  · intro b hb
    have hb' : b = rxText ++ [0] := by
      unfold Case.buf at hb
      rw [if_pos hv] at hb
      exact (Option.some.inj hb).symm
    rw [rx_buf m ha (n := 4096) (by omega), rx_text, hb']

/-- No counterpart in /repo: what a function answers. -/
def rxAns (own : Nat) (eax : W) : Ans exampleFpu := exampleAns own eax rxLeft

/-- No counterpart in /repo: `vsnprintf`; the context; the hook and its value; the override value; no
further hook, twice; the override value; EndContext. -/
def rxAnswers : List (Ans exampleFpu) :=
  [rxAns 16 0, rxAns 40 0x5000, rxAns 4 0x5100, rxAns 12 42, rxAns 4 0xFFE0, rxAns 4 0, rxAns 4 0,
    rxAns 4 0xFFE0, rxAns 8 0]

theorem rx_served (v : W) (σ : St) : Served rxCase (rxAns 4 v) σ := ⟨rx_quiet rfl σ, ⟨rfl, rfl, rfl⟩⟩

theorem rx_plays : Plays rxCase [rxHook] [] [] rxAnswers none := by
  have L := rx_laid
  have P := L.pairs
  have hv : rxCase.g.vafmt = true := by decide
  have hw := width_le rxCase.g
  refine ⟨[rxAns 16 0], rxAns 40 0x5000, [rxAns 4 0x5100, rxAns 12 42, rxAns 4 0xFFE0, rxAns 4 0],
    [rxAns 4 0], [rxAns 4 0xFFE0, rxAns 8 0], rfl, ?_, ⟨⟨rfl, rfl, rfl⟩, rfl, ?_⟩, ?_, ?_, ?_, ?_⟩
  · unfold Opening
    rw [if_pos hv]
    refine ⟨_, rfl, ⟨rfl, rfl, rfl⟩, fun m h => ⟨?_, ?_⟩⟩
    · have T : Told rxCase := ⟨outside_vis (stack_ok rxGen_ok rx_caller) rx_hi,
        outside_vis (stack_ok rxGen_ok rx_caller) rx_vt, written_apart rxGen_ok rx_caller rx_hi,
        written_apart rxGen_ok rx_caller rx_vt⟩
      refine ⟨?_, ?_, ?_, ?_, ?_, ?_, ?_⟩
      · rw [rd_of_bytes (rx_later m _ P.sc.symm (P.sb hv).symm
          (L.cellApart _ cell_entry _ mem_status).symm), h.status]
      · rw [rd_of_bytes (rx_later m _ (T.hiApart _ mem_cur) (T.hiApart _ (mem_vaBuf hv)) (rx_apart rx_hi)), h.hi]
      · rw [rd_of_bytes (rx_later m _ (T.vtApart _ mem_cur) (T.vtApart _ (mem_vaBuf hv)) (rx_apart rx_vt)), h.vt]
      · intro c hc
        rw [rx_cell m _ hc, h.objects c hc]
      · intro hz
        rw [rx_later m _ ((P.cv hz).mono (Nat.le_refl _) hw) ((P.vb hz hv).symm.mono (Nat.le_refl _) hw)
          ((L.cellApart _ cell_entry _ (mem_override hz)).symm.mono (Nat.le_refl _) hw), h.ov hz]
      · intro hz
        rw [rx_later m _ ((P.co hz).mono (Nat.le_refl _) hw) ((P.ob hz hv).symm.mono (Nat.le_refl _) hw)
          ((L.cellApart _ cell_entry _ (mem_orig hz)).symm.mono (Nat.le_refl _) hw), h.or hz]
      · rw [rx_later m _ (L.argApart _ mem_cur) (L.argApart _ (mem_vaBuf hv)) (rx_apart rx_args), h.args]
    · rw [rx_buf m (a := rxAns 16 0) rfl (n := 4095) (by omega)]
      show _ = rxText
      unfold rxText
      rfl
  · intro m h hb
    have e : ∀ c ∈ rxCase.objects, rd rxMem c.1 = c.2 := by decide +kernel
    have q := rx_quiet (a := rxAns 40 0x5000) rfl (first rxCase) (wr m rxCase.V.entry 0x41414141)
    have ow := only_wr m rxCase.V.entry 0x41414141
    have hq : later rxCase.Wd (wr m rxCase.V.entry 0x41414141) (rxAns 40 0x5000)
        = later rxCase.Wd m (rxAns 40 0x5000) := by
      funext x
      unfold later
      split
      · rename_i hk
        refine ow x fun i hi hx => ?_
        rw [hx] at hk
        have hk : (decide _ && decide _ && decide (4 ≤ ((0x10000 : W) + BitVec.ofNat 32 i - 0x10000).toNat)) = true := hk
        rw [Bool.and_eq_true, decide_eq_true_iff (p := 4 ≤ _), add_sub_self, BitVec.toNat_ofNat] at hk
        obtain ⟨-, hk⟩ := hk
        omega
      · rfl
    rw [← hq]
    refine q ⟨?_, ?_, ?_, ?_, ?_, ?_⟩
    · intro c hc
      rcases List.mem_cons.1 hc with rfl | hc
      · exact rd_wr_same _ _ _
      · rw [ow.rd (rx_apart (rx_out c hc)), h.objects c hc]
        exact e c hc
    · rw [ow.rd (L.cellApart _ cell_entry _ mem_status).symm, h.status]; rfl
    · intro hz
      rw [ow.bytes ((L.cellApart _ cell_entry _ (mem_override hz)).symm.mono (Nat.le_refl _) hw), h.ov hz]
    · intro hz
      rw [ow.bytes ((L.cellApart _ cell_entry _ (mem_orig hz)).symm.mono (Nat.le_refl _) hw), h.or hz]
    · rw [ow.bytes (rx_apart rx_args), h.args]
    · intro b hb'
      rw [ow.bytes (L.cellApart _ cell_entry _ (mem_vaBuf hv)).symm, hb b hb']
  · refine .over (by simp [caseOf]) (by decide) (by decide) (rx_served _ _) rfl
      ⟨rx_quiet rfl _, ⟨rfl, rfl, rfl⟩, ?_, ?_⟩ (by decide) (by decide) (rx_served _ _) ?_ (by decide)
      (.done (rx_served _ _) rfl)
    · intro m _
      exact rx_cur m rfl
    · intro _ m _
      show (wordBytes 42 ++ wordBytes 0).take 4 = [42, 0, 0, 0]
      decide
    · intro m h
      rw [rx_later m _ ((P.cl (by decide)).mono (Nat.le_refl _) hw)
        ((P.lb (by decide) hv).symm.mono (Nat.le_refl _) hw)
        ((L.cellApart _ cell_entry _ (mem_plugin (by decide))).symm.mono (Nat.le_refl _) hw), h]
  · exact .superceded (by decide)
  · exact .done (rx_served _ _) rfl
  · exact .value (by decide) (rx_served _ _) (by decide) (rx_quiet rfl _) ⟨rfl, rfl, rfl⟩

/-- The generated code on that caller: the text is made, the hook is called, the original is not, 42 is
returned. -/
example : ∃ code tr s', generateHookFunc rxGen = some code ∧
    Returns rxEnv code rxMach rxAnswers tr 0 s' [] ∧
    tr.map (·.target) = [0x6200, 0x6000, 0x901, 0x888, 0x903, 0x901, 0x901, 0x903, 0x6100] ∧
    s'.reg 0 = 42 ∧ s'.reg 4 = 0x10010 := by
  obtain ⟨code, tr, s', hc, hr, ⟨t, ha, hw⟩, hv, h4, -⟩ := hook_rule (C := rxCtx) (H := [rxHook])
    (text := rxText) rxGen_ok rxGen_simple rx_caller rfl rx_out rx_hi rx_vt rfl (fun h => absurd h (by decide)) rx_plays []
  refine ⟨code, tr, s', hc, ?_, ?_, ?_, h4⟩
  · rw [show arg rxMach 0 = 0 by decide +kernel, List.append_nil] at hr
    exact hr
  · have e1 : ∀ {a : List SCall} {b : List (Event exampleFpu)}, AreCalls (stackOf rxGen (rxMach.reg 4) 256) a b →
        b.map (·.target) = a.map (·.target) := by
      intro a b hab
      induction hab with
      | nil => rfl
      | cons h _ ih => simp [ih, h.target]
    have e2 : ∀ {a : List SCall} {b : List Seen}, AreSeen rxCase a b →
        a.map (·.target) = b.map (·.target) := by
      intro a b hab
      induction hab with
      | nil => rfl
      | cons h _ ih => simp [ih, h.target]
    exact (e1 ha).trans ((e2 hw).trans (by decide +kernel))
  · have h : wordBytes (s'.reg 0) = wordBytes 42 := hv (by decide)
    exact wordBytes_inj h

/-- The original function is not called there: the hook said `MRES_SUPERCEDE`. -/
example : ¬ ∀ h ∈ [rxHook], h.res ≠ 3 := by decide

example : IsHighest 3 [rxHook] := ⟨by decide, .inr ⟨_, List.mem_cons_self, rfl⟩⟩

example : lastOverride [rxHook] = some rxHook := rfl

end Verif.Jit32.Rule

#print axioms Verif.Jit32.Rule.hook_rule
#print axioms Verif.Jit32.Rule.orig_called_iff
#print axioms Verif.Jit32.Rule.orig_value
#print axioms Verif.Jit32.Rule.status_highest
#print axioms Verif.Jit32.Rule.override_last
