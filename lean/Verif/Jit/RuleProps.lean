import Verif.Jit.RuleRun
/-
C86: a hook function generated at run time calls the hooks and the original function and returns by
the rule of SourceHook.
-/
namespace Verif.Jit.Rule

/-! ## The rule and the state -/

theorem passed_append (g : Gen) (σ : St) (hs hs' : List Hook) :
    passed g σ (hs ++ hs') = passed g (passed g σ hs) hs' := List.foldl_append

theorem passed_or (g : Gen) : ∀ (hs : List Hook) (σ : St), (passed g σ hs).or = σ.or := by
  intro hs
  induction hs with
  | nil => intro σ; rfl
  | cons h hs ih => intro σ; exact ih _

/-- The state depends on what was there before only through the status and the override value. -/
theorem passed_status (g : Gen) : ∀ (hs : List Hook) (σ τ : St), σ.status = τ.status →
    (passed g σ hs).status = (passed g τ hs).status := by
  intro hs
  induction hs with
  | nil => intro σ τ h; exact h
  | cons k hs ih =>
    intro σ τ h
    refine ih _ _ ?_
    simp only [St.hook, h]

/-- **C86.** The status after some hooks is the highest of the result codes. -/
theorem status_highest (g : Gen) (σ : St) (h0 : σ.status = 0) (hs : List Hook) :
    IsHighest (passed g σ hs).status hs := by
  have key : ∀ (hs : List Hook) (σ : St), σ.status.toNat ≤ (passed g σ hs).status.toNat ∧
      (∀ h ∈ hs, h.res.toNat ≤ (passed g σ hs).status.toNat) ∧
      ((passed g σ hs).status = σ.status ∨ ∃ h ∈ hs, h.res = (passed g σ hs).status) := by
    intro hs
    induction hs with
    | nil => intro σ; exact ⟨Nat.le_refl _, fun h hh => (List.not_mem_nil hh).elim, .inl rfl⟩
    | cons k hs ih =>
      intro σ
      obtain ⟨h1, h2, h3⟩ := ih (σ.hook g k)
      have e : passed g σ (k :: hs) = passed g (σ.hook g k) hs := rfl
      have hr : σ.status.toNat ≤ (σ.hook g k).status.toNat ∧ k.res.toNat ≤ (σ.hook g k).status.toNat ∧
          ((σ.hook g k).status = σ.status ∨ (σ.hook g k).status = k.res) := by
        simp only [St.hook, raised]
        split
        · exact ⟨by omega, by omega, .inr rfl⟩
        · exact ⟨by omega, by omega, .inl rfl⟩
      rw [e]
      refine ⟨by omega, ?_, ?_⟩
      · intro h hh
        rcases List.mem_cons.1 hh with rfl | hh
        · omega
        · exact h2 h hh
      · rcases h3 with h3 | ⟨h, hh, h3⟩
        · rcases hr.2.2 with h4 | h4
          · exact .inl (h3.trans h4)
          · exact .inr ⟨k, List.mem_cons_self, (h3.trans h4).symm⟩
        · exact .inr ⟨h, List.mem_cons_of_mem _ hh, h3⟩
  obtain ⟨-, h2, h3⟩ := key hs σ
  exact ⟨h2, h0 ▸ h3⟩

theorem lastOverride_cons (h : Hook) (hs : List Hook) : lastOverride (h :: hs)
    = match lastOverride hs with
      | some k => some k
      | none => if 2 ≤ h.res.toNat then some h else none := by
  unfold lastOverride
  by_cases hr : 2 ≤ h.res.toNat
  · rw [List.filter_cons_of_pos (by simpa using hr)]
    cases hf : hs.filter (fun h => decide (2 ≤ h.res.toNat)) with
    | nil => simp [hr]
    | cons a l =>
      rw [List.getLast?_cons_cons]
      cases hl : (a :: l).getLast? with
      | none => simp at hl
      | some b => rfl
  · rw [List.filter_cons_of_neg (by simpa using hr), if_neg hr]
    cases (hs.filter (fun h => decide (2 ≤ h.res.toNat))).getLast? <;> rfl

/-- **C86.** The override value is the value of the last hook that overrides. -/
theorem override_last {g : Gen} (S : Simple g) : ∀ (hs : List Hook) (σ : St),
    low (width g) (passed g σ hs).ov
      = low (width g) (match lastOverride hs with | some h => h.val | none => σ.ov) := by
  intro hs
  induction hs with
  | nil => intro σ; rfl
  | cons h hs ih =>
    intro σ
    refine (ih (σ.hook g h)).trans ?_
    rw [lastOverride_cons]
    cases hl : lastOverride hs with
    | some k => rfl
    | none =>
      simp only [St.hook]
      split
      · exact low_merge (width_le S) _ _
      · rfl

theorem overridden_iff {hs : List Hook} {r : W} (h : IsHighest r hs) :
    2 ≤ r.toNat ↔ (lastOverride hs).isSome = true := by
  have e : (lastOverride hs).isSome = true ↔ ∃ k ∈ hs, 2 ≤ k.res.toNat := by
    unfold lastOverride
    rw [List.getLast?_isSome]
    constructor
    · intro hn
      obtain ⟨k, hk⟩ := List.exists_mem_of_ne_nil _ hn
      rw [List.mem_filter] at hk
      exact ⟨k, hk.1, by simpa using hk.2⟩
    · rintro ⟨k, hk, hr⟩ hn
      have : k ∈ hs.filter (fun h => decide (2 ≤ h.res.toNat)) := List.mem_filter.2 ⟨hk, by simpa using hr⟩
      rw [hn] at this
      exact List.not_mem_nil this
  rw [e]
  constructor
  · intro hr
    rcases h.2 with h0 | ⟨k, hk, rfl⟩
    · rw [h0] at hr; simp at hr
    · exact ⟨k, hk, hr⟩
  · rintro ⟨k, hk, hr⟩
    have := h.1 k hk
    omega

variable {Wd : World} {V : Vars} {g : Gen} {C : Context} {H : List Hook}

theorem last_status (m : Memory) (pre post : List Hook) (o : Option W) :
    (last V g m pre post o).status = (passed g (first V m) (pre ++ post)).status := by
  unfold last
  rw [passed_append]
  exact passed_status g _ _ _ (orig_status _ _)

/-- The value returned is the one of the rule. -/
theorem returned_ruled (S : Simple g) (m : Memory) (pre post : List Hook) (o : Option W) :
    low (width g) (if 2 ≤ (last V g m pre post o).status.toNat then (last V g m pre post o).ov
      else (last V g m pre post o).or) = low (width g) (ruled V m pre post o) := by
  have hh := status_highest g (first V m) rfl (pre ++ post)
  rw [last_status]
  have hov : ∀ o, ((passed g (first V m) pre).orig g o).ov = (passed g (first V m) pre).ov := by
    intro o
    cases o <;> rfl
  have key : low (width g) (last V g m pre post o).ov
      = low (width g) (match lastOverride (pre ++ post) with | some h => h.val | none => rd m V.override) := by
    have e1 := override_last S (pre ++ post) (first V m)
    refine Eq.trans ?_ e1
    rw [passed_append]
    unfold last
    rw [override_last S, override_last S, hov]
  unfold ruled
  by_cases h2 : 2 ≤ (passed g (first V m) (pre ++ post)).status.toNat
  · rw [if_pos h2, key]
    have := (overridden_iff hh).1 h2
    cases hl : lastOverride (pre ++ post) with
    | none => rw [hl] at this; cases this
    | some k => rfl
  · rw [if_neg h2]
    have hn : lastOverride (pre ++ post) = none := by
      cases hl : lastOverride (pre ++ post) with
      | none => rfl
      | some k => exact absurd ((overridden_iff hh).2 (by rw [hl]; rfl)) h2
    rw [hn]
    unfold last
    rw [passed_or]
    cases o with
    | some v => rfl
    | none =>
      show low (width g) (merge (width g) (passed g (first V m) pre).ov _) = _
      rw [low_merge (width_le S), override_last S]
      have : lastOverride pre = none := by
        have e : ∀ a b : List Hook, lastOverride (a ++ b) = none → lastOverride a = none := by
          intro a b hab
          unfold lastOverride at hab ⊢
          rw [List.filter_append, List.getLast?_eq_none_iff, List.append_eq_nil_iff] at hab
          rw [hab.1]
          rfl
        exact e _ _ hn
      rw [this]
      rfl

theorem loop_small {σ σ' : St} {hs : List Hook} {as : List Ans} (l : LoopAns Wd V g C H σ hs as σ') :
    ∀ h ∈ hs, h.res.toNat ≤ 3 := by
  induction l with
  | done => intro h hh; cases hh
  | hook _ _ hr _ _ _ _ _ ih =>
    intro h hh
    rcases List.mem_cons.1 hh with rfl | hh
    · exact hr
    · exact ih h hh
  | over _ _ hr _ _ _ _ _ _ _ _ _ ih =>
    intro h hh
    rcases List.mem_cons.1 hh with rfl | hh
    · exact hr
    · exact ih h hh

/-- **C86.** The original function is called exactly if no hook in front of it said
`MRES_SUPERCEDE` and the context, asked by ShouldCallOrig, said yes. -/
theorem orig_called_iff {m : Memory} {pre post : List Hook} {mid ans : List Ans} {o : Option W}
    (P : Plays Wd V g C H m pre post mid ans o) :
    o.isSome = true ↔ (∀ h ∈ pre, h.res ≠ 3) ∧ ∃ a as, mid = a :: as ∧ a.reg 0 &&& 1 ≠ 0 := by
  obtain ⟨a, as₁, as₃, as₄, rfl, pa, l1, lo, l2, le⟩ := P
  have hh := status_highest g (first V m) rfl pre
  have h3 : (passed g (first V m) pre).status = 3 ↔ ∃ h ∈ pre, h.res = 3 := by
    constructor
    · intro e
      rcases hh.2 with h0 | ⟨h, hm, hr⟩
      · rw [h0] at e; cases e
      · exact ⟨h, hm, hr.trans e⟩
    · rintro ⟨h, hm, hr⟩
      have h1 := hh.1 h hm
      rw [hr] at h1
      have h2 : (passed g (first V m) pre).status.toNat ≤ 3 := by
        rcases hh.2 with h0 | ⟨k, hk, e⟩
        · rw [h0]; simp
        · rw [← e]; exact loop_small l1 k hk
      apply BitVec.eq_of_toNat_eq
      have : (3 : W).toNat = 3 := rfl
      omega
  have hne : (∀ h ∈ pre, h.res ≠ 3) ↔ (passed g (first V m) pre).status ≠ 3 := by
    rw [ne_eq, h3]
    constructor
    · rintro h ⟨k, hk, e⟩
      exact h k hk e
    · intro h k hk e
      exact h ⟨k, hk, e⟩
  rw [hne]
  generalize (passed g (first V m) pre) = σ at lo
  generalize σ.orig g o = σ' at lo
  cases lo with
  | superceded h => simp [h]
  | refused h _ ha =>
    simp only [Option.isSome_none, Bool.false_eq_true, false_iff]
    rintro ⟨-, a, as, e, hn⟩
    cases e
    exact hn ha
  | called h _ ha _ =>
    simp only [Option.isSome_some, true_iff]
    exact ⟨h, _, _, rfl, ha⟩

/-- **C86.** What the original function returned, if it was called. -/
theorem orig_value {m : Memory} {pre post : List Hook} {mid ans : List Ans} {v : W}
    (P : Plays Wd V g C H m pre post mid ans (some v)) : ∃ a b, mid = [a, b] ∧ v = valueOf g b := by
  obtain ⟨a, as₁, as₃, as₄, rfl, pa, l1, lo, l2, le⟩ := P
  generalize (passed g (first V m) pre) = σ at lo
  generalize ho : some v = o at lo
  generalize σ.orig g o = σ' at lo
  cases lo with
  | superceded h => cases ho
  | refused h _ ha => cases ho
  | called h _ ha _ => cases ho; exact ⟨_, _, rfl, rfl⟩

/-! ## The stack -/

theorem outside_hidden {acc keep : W → Bool} {S : Stack} (ok : StackOk acc keep S) {x : W}
    (h : Outside acc S x) {i : Nat} (hi : i < 8) : S.hidden (x + BitVec.ofNat 64 i) = false := by
  have e : (x + BitVec.ofNat 64 i - S.F).toInt = (x - S.F).toInt + i := by
    rw [show x + BitVec.ofNat 64 i - S.F = (x - S.F) + BitVec.ofNat 64 i from by
      rw [BitVec.sub_eq_add_neg, BitVec.sub_eq_add_neg, BitVec.add_assoc, BitVec.add_assoc,
        BitVec.add_comm (BitVec.ofNat 64 i)]]
    rw [BitVec.toInt_add, BitVec.toInt_ofNat', Int.bmod_def, Int.bmod_def]
    have h1 := BitVec.toInt_lt (x := x - S.F)
    have h2 := BitVec.le_toInt (x - S.F)
    have := ok.size
    have := ok.depth
    rcases h.away with h | h <;> omega
  have h1 := ok.size
  have h2 := ok.depth
  unfold Stack.hidden Stack.priv
  rw [e]
  have hw : S.wide = true → 80 ≤ S.size := ok.wide
  simp only [Bool.or_eq_false_iff, Bool.and_eq_false_iff, decide_eq_false_iff_not]
  refine ⟨⟨⟨?_, ?_⟩, ?_⟩, ?_⟩
  · rcases h.away with h | h <;> omega
  · rcases h.away with h | h <;> omega
  · by_cases w : S.wide = true
    · right
      have := hw w
      rcases h.away with h | h <;> omega
    · left; simpa using w
  · rcases h.away with h | h <;> omega

theorem okAt_and {p q : W → Bool} {x : W} (h : okAt p x = true)
    (h' : ∀ i : Nat, i < 8 → q (x + BitVec.ofNat 64 i) = true) : okAt (fun y => p y && q y) x = true := by
  have h0 := h' 0 (by omega)
  have h1 := h' 1 (by omega)
  have h2 := h' 2 (by omega)
  have h3 := h' 3 (by omega)
  have h4 := h' 4 (by omega)
  have h5 := h' 5 (by omega)
  have h6 := h' 6 (by omega)
  have h7 := h' 7 (by omega)
  rw [show x + BitVec.ofNat 64 0 = x from BitVec.add_zero x] at h0
  unfold okAt at h ⊢
  simp only [Bool.and_eq_true] at h ⊢
  obtain ⟨⟨⟨⟨⟨⟨⟨a0, a1⟩, a2⟩, a3⟩, a4⟩, a5⟩, a6⟩, a7⟩ := h
  exact ⟨⟨⟨⟨⟨⟨⟨⟨a0, h0⟩, a1, h1⟩, a2, h2⟩, a3, h3⟩, a4, h4⟩, a5, h5⟩, a6, h6⟩, a7, h7⟩

theorem outside_vis {acc keep : W → Bool} {S : Stack} (ok : StackOk acc keep S) {x : W}
    (h : Outside acc S x) : okAt (world acc keep S).vis x = true :=
  okAt_and h.ok fun i hi => by rw [outside_hidden ok h hi]; rfl

theorem outside_apart {acc keep : W → Bool} {S : Stack} (ok : StackOk acc keep S) {x : W}
    (h : Outside acc S x) {k : Int} (h1 : -S.size ≤ k) (h2 : k + 8 ≤ 0) : Apart (off S.F k) x := by
  unfold Apart
  have e : x - off S.F k = (x - S.F) + c64 (-k) := by
    unfold off c64
    rw [BitVec.ofInt_neg, BitVec.sub_eq_add_neg, BitVec.sub_eq_add_neg, BitVec.neg_add,
      BitVec.add_assoc, BitVec.sub_eq_add_neg]
  have hb := ok.small
  have hd := ok.depth
  rw [e, BitVec.toNat_add, c64, BitVec.toNat_ofInt]
  have h3 := BitVec.toInt_lt (x := x - S.F)
  have h4 := BitVec.le_toInt (x - S.F)
  have h5 := BitVec.toInt_eq_toNat_cond (x - S.F)
  have h6 := (x - S.F).isLt
  have h7 := h.away
  generalize (x - S.F).toNat = n at *
  generalize (x - S.F).toInt = z at *
  split at h5 <;> rcases h7 with h7 | h7 <;> omega

theorem var_vis {acc keep : W → Bool} {S : Stack} (ok : StackOk acc keep S) {k : Int}
    (h : (-40 ≤ k ∧ k + 8 ≤ -8) ∨ (-S.size ≤ k ∧ k + 8 ≤ -80)) :
    okAt (world acc keep S).vis (off S.F k) = true := by
  have h1 := ok.size
  have h2 := ok.depth
  have h3 := ok.small
  refine okAt_and (okAt_off (lo := -S.size - S.depth) (hi := 8 + 8 * (S.nargs : Int)) ok.stack
    (by omega) (by omega)) fun i hi => ?_
  rw [off_bytes, hidden_off S (by omega)]
  unfold Stack.priv
  have e1 : decide (-8 ≤ k + i ∧ k + i < 8 + 8 * (S.nargs : Int)) = false :=
    decide_eq_false (by omega)
  have e2 : decide (-64 ≤ k + (i : Int) ∧ k + (i : Int) < -40) = false := decide_eq_false (by omega)
  have e3 : decide (-80 ≤ k + (i : Int) ∧ k + (i : Int) < -64) = false := decide_eq_false (by omega)
  have e4 : decide (-S.size - S.depth ≤ k + (i : Int) ∧ k + (i : Int) < -S.size) = false :=
    decide_eq_false (by omega)
  rw [e1, e2, e3, e4]
  simp

theorem vars_vis (h : GenOk g) (F : W) :
    ∃ ks : List Int, written (varsAt g (hookStack g F)) g = ks.map (off F) ∧
      ks.Pairwise (fun a b => a + 8 ≤ b ∨ b + 8 ≤ a) ∧
      (∀ k ∈ ks, (-40 ≤ k ∧ k + 8 ≤ -16) ∨ (-(hookStack g F).size ≤ k ∧ k + 8 ≤ -80)) ∧
      (∀ k ∈ ks, -2 ^ 30 ≤ k ∧ k ≤ 0) := by
  have f := hookStack_fit h F
  have hcb := cell_bound f
  by_cases hz : g.ret.size = 0
  · refine ⟨[-24, -40, -32], ?_, ?_, ?_, ?_⟩
    · unfold written
      rw [if_pos hz]
      rfl
    · simp only [List.pairwise_cons, List.mem_cons, List.not_mem_nil, or_false, forall_eq_or_imp,
        forall_eq]
      refine ⟨by omega, by omega, fun _ h => h.elim, .nil⟩
    · intro k hk
      simp only [List.mem_cons, List.not_mem_nil, or_false] at hk
      omega
    · intro k hk
      simp only [List.mem_cons, List.not_mem_nil, or_false] at hk
      omega
  · have e : frame g.ret = ⟨-72, -80, -80 - (cellSize g.ret : Int), -80 - 2 * cellSize g.ret,
        -80 - 3 * cellSize g.ret, -80 - 4 * cellSize g.ret, 80 + 4 * cellSize g.ret⟩ := if_neg hz
    have hs : (hookStack g F).size = 80 + 4 * cellSize g.ret := by
      show (frame g.ret).size = _
      rw [e]
    have h8 : (8 : Int) ≤ cellSize g.ret := by
      have h1 := alignSize_spec (realSize g.ret) 8 (by omega)
      have h2 := alignSize_spec (alignSize (realSize g.ret) 8) 16 (by omega)
      have h3 : (cellSize g.ret : Int) = alignSize (alignSize (realSize g.ret) 8) 16 := rfl
      have h5 : realSize g.ret ≠ 0 := by unfold realSize; split <;> omega
      omega
    rw [hs]
    refine ⟨[-24, -40, -32, -80 - (cellSize g.ret : Int), -80 - 2 * cellSize g.ret,
      -80 - 3 * cellSize g.ret], ?_, ?_, ?_, ?_⟩
    · unfold written varsAt
      rw [if_neg hz, e]
      rfl
    · simp only [List.pairwise_cons, List.mem_cons, List.not_mem_nil, or_false, forall_eq_or_imp,
        forall_eq]
      refine ⟨by omega, by omega, by omega, by omega, by omega, fun _ h => h.elim, .nil⟩
    · intro k hk
      simp only [List.mem_cons, List.not_mem_nil, or_false] at hk
      omega
    · intro k hk
      simp only [List.mem_cons, List.not_mem_nil, or_false] at hk
      omega

theorem laid {acc keep : W → Bool} (h : GenOk g) {F : W} (p : Provided acc keep (hookStack g F))
    (out : ∀ c ∈ objects g C H, Outside acc (hookStack g F) c.1) :
    Laid (world acc keep (hookStack g F)) (varsAt g (hookStack g F)) g C H := by
  have ok := hookStack_ok h p
  have hsz := ok.size
  obtain ⟨ks, hw, hp, hr, hb⟩ := vars_vis h F
  refine ⟨?_, ?_, ?_, ?_⟩
  · intro x hx
    rw [hw, List.mem_map] at hx
    obtain ⟨k, hk, rfl⟩ := hx
    exact var_vis ok ((hr k hk).imp (fun h => ⟨h.1, by omega⟩) id)
  · rw [hw, List.pairwise_map]
    refine (List.Pairwise.and_mem.1 hp).imp ?_
    rintro a b ⟨ha, hb', hab⟩
    have := hb a ha
    have := hb b hb'
    exact ⟨off_apart F hab (by omega), off_apart F hab.symm (by omega)⟩
  · intro c hc
    rcases List.mem_cons.1 hc with rfl | hc
    · exact var_vis ok (k := -16) (.inl ⟨by omega, by omega⟩)
    · exact outside_vis ok (out c hc)
  · intro c hc x hx
    rw [hw, List.mem_map] at hx
    obtain ⟨k, hk, rfl⟩ := hx
    have h1 := hr k hk
    have h2 := hb k hk
    rcases List.mem_cons.1 hc with rfl | hc
    · exact off_apart F (b := -16) (by omega) (by omega)
    · exact outside_apart ok (out c hc) (by omega) (by omega)

theorem told {acc keep : W → Bool} (h : GenOk g) {F this : W} (p : Provided acc keep (hookStack g F))
    (hi : Outside acc (hookStack g F) g.pHI)
    (vt : Outside acc (hookStack g F) (this + BitVec.ofInt 64 g.vtblOffs)) :
    Told (world acc keep (hookStack g F)) (varsAt g (hookStack g F)) g this := by
  have ok := hookStack_ok h p
  have hsz := ok.size
  have key : ∀ y, Outside acc (hookStack g F) y → ∀ x ∈ [(varsAt g (hookStack g F)).status,
      (varsAt g (hookStack g F)).cur, (varsAt g (hookStack g F)).prev], Apart x y := by
    intro y hy x hx
    simp only [List.mem_cons, List.not_mem_nil, or_false] at hx
    rcases hx with rfl | rfl | rfl
    · exact outside_apart ok hy (k := -24) (by omega) (by omega)
    · exact outside_apart ok hy (k := -40) (by omega) (by omega)
    · exact outside_apart ok hy (k := -32) (by omega) (by omega)
  exact ⟨outside_vis ok hi, outside_vis ok vt, key _ hi, key _ vt⟩

theorem paramsIn_length (s : Mach) : ∀ (l : List Pass) (i : Nat), (paramsIn s i l).length = l.length := by
  intro l
  induction l with
  | nil => intro i; rfl
  | cons p l ih => intro i; simp [paramsIn, ih]

/-- **C86.** The generated code, called with the hooks `pre` and `post` in place: it makes exactly
the calls of the rule, in order: SetupHookLoop; GetNext and each hook of `pre` with the parameters of
the call; the original function if it is to be called; GetNext and each hook of `post`; EndContext;
the destructors of the parameters.  Each finds the status, the override value and the original value
as they are at that point.  Then it returns to its caller with the value of the rule, the stack
pointer and the registers to be preserved as they must be.  This is for functions that
return nothing, a number, a pointer or a reference (`Simple`); of the value the low bytes count. -/
theorem hook_rule {acc keep : W → Bool} (h : GenOk g) (S : Simple g) (s : Mach)
    (p : Provided acc keep (hookStack g (s.reg 4)))
    (out : ∀ c ∈ objects g C H, Outside acc (hookStack g (s.reg 4)) c.1)
    (hi : Outside acc (hookStack g (s.reg 4)) g.pHI)
    (vt : Outside acc (hookStack g (s.reg 4)) (s.reg 1 + BitVec.ofInt 64 g.vtblOffs))
    {pre post : List Hook} {mid ans : List Ans} {o : Option W}
    (P : Plays (world acc keep (hookStack g (s.reg 4))) (varsAt g (hookStack g (s.reg 4))) g C H s.mem
      pre post mid ans o) (rest : List Ans) :
    ∃ code, generateHookFunc g = some code ∧
    ∃ t' s', Returns acc keep code s (ans ++ rest) t' (rd s.mem (s.reg 4)) s' rest ∧
      (∃ t, AreCalls (hookStack g (s.reg 4)) t t' ∧
        AreSeen (varsAt g (hookStack g (s.reg 4))) g t (wanted (varsAt g (hookStack g (s.reg 4))) g C
          s.mem (s.reg 1) (paramsIn s (firstReg g.ret) g.params) pre post o)) ∧
      (g.ret.size ≠ 0 → low (width g)
          (if g.ret.has flagByRef = false ∧ g.ret.type = typeFloat then s'.xmm 0 else s'.reg 0)
        = low (width g) (ruled (varsAt g (hookStack g (s.reg 4))) s.mem pre post o)) ∧
      s'.reg 4 = s.reg 4 + 8 ∧ (∀ r, preserved r = true → r ≠ 4 → s'.reg r = s.reg r) ∧
      ∀ r, preservedX r = true → s'.xmm r = s.xmm r := by
  have L := laid (keep := keep) (C := C) (H := H) h p out
  have T := told (keep := keep) (this := s.reg 1) h p hi vt
  obtain ⟨m, t, e, w⟩ := whole_run (n := pre.length + post.length + 1) S L ⟨false, false⟩ (s.reg 2)
    (paramsIn_length s g.params (firstReg g.ret)) T P (by omega) (by omega) rest
  obtain ⟨code, hc, t', s', hr, ha, b⟩ := hook_refines_partial h s p _ e
  refine ⟨code, hc, t', s', hr, ⟨t, ha, w⟩, ?_, b.rsp, b.same, b.xmm⟩
  intro hz
  rw [← returned_ruled S]
  have h1 := b.rax
  have h2 := b.xmm0
  simp only [result, if_neg hz] at h1 h2
  by_cases hf : g.ret.has flagByRef = false ∧ g.ret.type = typeFloat
  · rw [if_pos hf] at h2 ⊢
    rw [h2 _ rfl]
  · rw [if_neg hf] at h1 ⊢
    rw [h1 _ rfl]

/-! ## A call with one hook that supercedes -/

/-- The functions called leave everything but `cur_res` alone. -/
def rxKeep (x : W) : Bool := decide (8 ≤ (x - 0xffe0).toNat)

/-- The world of the example. -/
abbrev rxWorld : World := world (fun _ => true) rxKeep (hookStack exGen 0x10008)
/-- The variables of the example. -/
abbrev rxVars : Vars := varsAt exGen (hookStack exGen 0x10008)
/-- The hook: it says `MRES_SUPERCEDE` and returns 42. -/
def rxHook : Hook := ⟨0x5100, 0x7000, 0x888, 3, 42⟩
/-- The context. -/
def rxCtx : Context := ⟨0x5000, 0x6000, 0x901, 0x903, 0x904, 0x905, 0⟩
/-- The memory: context, hook and their tables. -/
def rxMem : Memory :=
  wr (wr (wr (wr (wr (wr (wr (fun _ => 0) 0x5000 0x6000) 0x6008 0x901) 0x6018 0x903) 0x6020 0x904)
    0x6028 0x905) 0x5100 0x7000) 0x7010 0x888
/-- The caller. -/
def rxMach : Mach := { exMach with mem := rxMem }

theorem rx_after (m : Memory) (a : Ans) {x : W} (h : Apart rxVars.cur x) :
    rd (after rxWorld m a) x = rd m x := by
  apply rd_congr
  intro i hi
  have e : rxVars.cur = 0xffe0 := by decide
  rw [e] at h
  unfold after
  rw [if_pos]
  show decide _ = true
  rw [decide_eq_true_iff, show x + BitVec.ofNat 64 i - 0xffe0 = (x - 0xffe0)
    + BitVec.ofNat 64 i from by
      rw [BitVec.sub_eq_add_neg, BitVec.sub_eq_add_neg, BitVec.add_assoc, BitVec.add_assoc,
        BitVec.add_comm (BitVec.ofNat 64 i)], BitVec.toNat_add, BitVec.toNat_ofNat]
  obtain ⟨h1, h2⟩ := h
  omega

theorem rx_cur (m : Memory) (a : Ans) : rd (after rxWorld m a) rxVars.cur = rd a.mem rxVars.cur := by
  apply rd_congr
  intro i hi
  have e : rxVars.cur = 0xffe0 := by decide
  unfold after
  rw [if_neg]
  show ¬ decide _ = true
  rw [decide_eq_true_iff, e, add_sub_self, BitVec.toNat_ofNat]
  omega

theorem rx_out : ∀ c ∈ objects exGen rxCtx [rxHook], Outside (fun _ => true) (hookStack exGen 0x10008) c.1 := by
  intro c hc
  refine ⟨rfl, ?_⟩
  revert c
  decide

theorem rx_provided : Provided (fun _ => true) rxKeep (hookStack exGen 0x10008) := by
  refine ⟨fun _ _ _ => rfl, ?_⟩
  intro k hk
  have e : (hookStack exGen 0x10008).nargs = 2 := by decide
  have ew : (hookStack exGen 0x10008).wide = true := by decide
  unfold Stack.priv at hk
  rw [e, ew] at hk
  simp only [Bool.or_eq_true, Bool.true_and, decide_eq_true_eq] at hk
  unfold rxKeep
  rw [decide_eq_true_iff]
  show 8 ≤ ((0x10008 : W) + BitVec.ofInt 64 k - 0xffe0).toNat
  rw [show (0x10008 : W) + BitVec.ofInt 64 k - 0xffe0 = BitVec.ofInt 64 k + 40 from by
    rw [show (0xffe0 : W) = 0x10008 + (-40) from rfl, BitVec.sub_eq_add_neg, BitVec.neg_add,
      BitVec.add_comm 0x10008, BitVec.sub_eq_add_neg, BitVec.add_assoc, ← BitVec.add_assoc 0x10008,
      BitVec.add_right_neg, BitVec.zero_add, BitVec.neg_neg],
    BitVec.toNat_add, BitVec.toNat_ofInt]
  have : (40 : W).toNat = 40 := rfl
  omega

theorem rx_laid : Laid rxWorld rxVars exGen rxCtx [rxHook] := laid exGen_ok rx_provided rx_out

theorem rx_quiet (a : Ans) (σ : St) : Quiet rxWorld rxVars exGen rxCtx [rxHook] a σ := by
  intro m h
  have P := rx_laid.pairs
  refine ⟨?_, ?_, ?_, ?_⟩
  · intro c hc
    rw [rx_after _ _ (rx_laid.cellApart c hc _ mem_cur), h.cell c hc]
  · rw [rx_after _ _ P.cs, h.status]
  · intro hz
    rw [rx_after _ _ (P.cv hz), h.ov hz]
  · intro hz
    rw [rx_after _ _ (P.co hz), h.or hz]

/-- The hook's answer: 42, and 3 in `cur_res`. -/
def rxHookAns : Ans := ⟨fun _ => 42, fun _ => 0, wr (fun _ => 0) 0xffe0 3, false, false, false⟩

theorem rx_plays : Plays rxWorld rxVars exGen rxCtx [rxHook] rxMem [rxHook] [] []
    [exAns 0x5000, exAns 0x5100, rxHookAns, exAns rxVars.override, exAns 0, exAns 0,
      exAns rxVars.override, exAns 0] none := by
  have P := rx_laid.pairs
  refine ⟨exAns 0x5000, [exAns 0x5100, rxHookAns, exAns rxVars.override, exAns 0], [exAns 0],
    [exAns rxVars.override, exAns 0], rfl, ⟨rfl, ?_⟩, ?_, ?_, ?_, ?_⟩
  · intro m' h0 hf
    refine rx_quiet _ _ m' ⟨?_, h0, ?_, ?_⟩
    · intro c hc
      rw [hf _ (rx_laid.cellApart c hc _ mem_status) (rx_laid.cellApart c hc _ mem_cur)
        (rx_laid.cellApart c hc _ mem_prev)]
      revert c
      decide +kernel
    · intro hz
      exact hf _ (P.sv hz) (P.cv hz) (P.pv hz)
    · intro hz
      exact hf _ (P.so hz) (P.co hz) (P.po hz)
  · refine .over (by simp) (by decide) (by decide) (rx_quiet _ _) rfl ⟨rx_quiet _ _, ?_, ?_⟩ (by decide)
      (by decide) (rx_quiet _ _) ?_ rfl (.done (rx_quiet _ _) rfl)
    · intro m _
      rw [rx_cur]
      decide +kernel
    · intro _
      decide
    · intro m h
      rw [rx_after _ _ ⟨by decide, by decide⟩, h]
  · exact .superceded (by decide)
  · exact .done (rx_quiet _ _) rfl
  · refine ⟨fun _ => ⟨_, _, rfl, ?_⟩, fun a _ => rx_quiet a _, by decide⟩
    decide

/-- The generated code on that caller: the hook is called, the original is not, 42 is returned. -/
example : ∃ code, generateHookFunc exGen = some code ∧ ∃ t' s',
    Returns (fun _ => true) rxKeep code rxMach
      [exAns 0x5000, exAns 0x5100, rxHookAns, exAns rxVars.override, exAns 0, exAns 0,
        exAns rxVars.override, exAns 0] t' (rd rxMem 0x10008) s' [] ∧
    t'.map (·.target) = [0x300, 0x901, 0x888, 0x903, 0x901, 0x901, 0x903, 0x400] ∧
    s'.reg 0 = 42 ∧ s'.reg 4 = 0x10010 := by
  obtain ⟨code, hc, t', s', hr, ⟨t, ha, hw⟩, hv, h4, -⟩ := hook_rule (keep := rxKeep) (C := rxCtx)
    (H := [rxHook]) exGen_ok ⟨by decide, by decide, rfl, by decide, by decide⟩ rxMach rx_provided rx_out
    ⟨rfl, by decide⟩ ⟨rfl, by decide⟩ rx_plays []
  refine ⟨code, hc, t', s', hr, ?_, ?_, h4⟩
  · have e1 : ∀ {a : List SCall} {b : List Event}, AreCalls (hookStack exGen 0x10008) a b →
        b.map (·.target) = a.map (·.target) := by
      intro a b hab
      induction hab with
      | nil => rfl
      | cons h _ ih => simp [ih, h.target]
    have e2 : ∀ {a : List SCall} {b : List Seen}, AreSeen rxVars exGen a b →
        a.map (·.target) = b.map (·.target) := by
      intro a b hab
      induction hab with
      | nil => rfl
      | cons h _ ih => simp [ih, h.target]
    refine (e1 ha).trans ((e2 hw).trans ?_)
    decide +kernel
  · have := hv (by decide)
    have hw8 : width exGen = 8 := by decide
    rw [hw8] at this
    have hz : ¬ (exGen.ret.has flagByRef = false ∧ exGen.ret.type = typeFloat) := by decide
    rw [if_neg hz] at this
    have e : low 8 (ruled rxVars rxMem [rxHook] [] none) = 42 := by decide
    apply BitVec.eq_of_toNat_eq
    have h := this.trans e
    unfold low at h
    have := (s'.reg 0).isLt
    show (s'.reg 0).toNat = 42
    omega

/-- The original function is not called there: the hook said `MRES_SUPERCEDE`. -/
example : ¬ ∀ h ∈ [rxHook], h.res ≠ 3 := by decide

example : IsHighest 3 [rxHook] := ⟨by decide, .inr ⟨_, List.mem_cons_self, rfl⟩⟩

end Verif.Jit.Rule

#print axioms Verif.Jit.Rule.hook_rule
#print axioms Verif.Jit.Rule.orig_called_iff
#print axioms Verif.Jit.Rule.orig_value
#print axioms Verif.Jit.Rule.status_highest
#print axioms Verif.Jit.Rule.override_last
