import Verif.Jit.HookSpec
import Verif.Jit.PubProps
/-
Helper lemmas for C65: what holds between two instructions of the generated hook function.
-/
namespace Verif.Jit

/-- What the caller of the generated function provides. -/
structure StackOk (acc keep : W → Bool) (S : Stack) : Prop where
  stack : ∀ k, -S.size - S.depth ≤ k → k < 8 + 8 * (S.nargs : Int) → acc (off S.F k) = true
  kept : ∀ k, S.priv k = true → keep (off S.F k) = true
  size : 64 ≤ S.size
  wide : S.wide = true → 80 ≤ S.size
  small : S.size ≤ 2 ^ 30
  depth : 0 ≤ S.depth ∧ S.depth ≤ 2 ^ 30
  nargs : S.nargs ≤ 2 ^ 26

/-- The program's view of the machine. -/
def world (acc keep : W → Bool) (S : Stack) : World :=
  ⟨fun x => acc x && !S.hidden x, keep⟩

/-- A private variable of eight bytes. -/
def Stack.slot (S : Stack) (k : Int) : Prop := k % 8 = 0 ∧ S.priv k = true

/-- Between two instructions: `d` bytes are in use below the frame, the private variables have the
values `loc`, the visible memory is `m`. -/
structure Inv (S : Stack) (s₀ : Mach) (d : Int) (loc : Int → W) (m : Memory) (s : Mach) : Prop where
  rbp : s.reg 5 = S.F
  rsp : s.reg 4 = off S.F (-S.size - d)
  mem : ∀ x, S.hidden x = false → s.mem x = m x
  priv : ∀ k, S.slot k → rd s.mem (off S.F k) = loc k
  same : ∀ r, preserved r = true → r ≠ 4 → r ≠ 5 → s.reg r = s₀.reg r
  xmm : ∀ r, preservedX r = true → s.xmm r = s₀.xmm r

/-- Change one private variable. -/
def upd (loc : Int → W) (k : Int) (v : W) : Int → W := fun j => if j = k then v else loc j

theorem upd_same (loc : Int → W) (k : Int) (v : W) : upd loc k v k = v := by simp [upd]
theorem upd_ne (loc : Int → W) {k j : Int} (v : W) (h : j ≠ k) : upd loc k v j = loc j := by
  simp [upd, h]

/-! ## Addresses -/

theorem off_toInt (F : W) {k : Int} (h : -2 ^ 62 ≤ k ∧ k < 2 ^ 62) : (off F k - F).toInt = k := by
  have := off_sub_off F 0 k
  rw [off_zero] at this
  rw [this, c64, BitVec.toInt_ofInt, Int.bmod_def]
  omega

variable {acc keep : W → Bool} {S : Stack}

theorem hidden_off (S : Stack) {k : Int} (h : -2 ^ 62 ≤ k ∧ k < 2 ^ 62) :
    S.hidden (off S.F k) = (S.priv k || decide (-S.size - S.depth ≤ k ∧ k < -S.size)) := by
  unfold Stack.hidden
  rw [off_toInt _ h]

theorem priv_range (ok : StackOk acc keep S) {k : Int} (h : S.priv k = true) :
    -S.size ≤ k ∧ k < 8 + 8 * (S.nargs : Int) := by
  have := ok.size
  have := ok.wide
  unfold Stack.priv at h
  cases hw : S.wide <;> simp [hw] at h this <;> omega

theorem slot_bytes {k : Int} (h : S.slot k) {i : Int} (h0 : 0 ≤ i) (h8 : i < 8) :
    S.priv (k + i) = true := by
  obtain ⟨h1, h2⟩ := h
  unfold Stack.priv at *
  cases hw : S.wide <;> simp [hw] at h2 ⊢ <;> omega

theorem hidden_priv (ok : StackOk acc keep S) {k : Int} (h : S.priv k = true) :
    S.hidden (off S.F k) = true := by
  have := priv_range ok h
  have := ok.small
  have := ok.nargs
  rw [hidden_off S (by omega), h]
  rfl

theorem hidden_low (ok : StackOk acc keep S) {k : Int} (h1 : -S.size - S.depth ≤ k)
    (h2 : k < -S.size) : S.hidden (off S.F k) = true := by
  have := ok.small
  have := ok.depth
  have := ok.size
  rw [hidden_off S (by omega)]
  simp [h1, h2]

theorem acc_of_vis {a : W} (h : okAt (world acc keep S).vis a = true) : okAt acc a = true := by
  unfold okAt world at *
  simp only [Bool.and_eq_true] at *
  exact ⟨⟨⟨⟨⟨⟨⟨h.1.1.1.1.1.1.1.1, h.1.1.1.1.1.1.2.1⟩, h.1.1.1.1.1.2.1⟩, h.1.1.1.1.2.1⟩,
    h.1.1.1.2.1⟩, h.1.1.2.1⟩, h.1.2.1⟩, h.2.1⟩

theorem vis_bytes {a : W} (h : okAt (world acc keep S).vis a = true) (i : Nat) (hi : i < 8) :
    S.hidden (a + BitVec.ofNat 64 i) = false := by
  unfold okAt world at h
  simp only [Bool.and_eq_true, Bool.not_eq_true'] at h
  have : i = 0 ∨ i = 1 ∨ i = 2 ∨ i = 3 ∨ i = 4 ∨ i = 5 ∨ i = 6 ∨ i = 7 := by omega
  rcases this with rfl | rfl | rfl | rfl | rfl | rfl | rfl | rfl
  · simpa using h.1.1.1.1.1.1.1.2
  · exact h.1.1.1.1.1.1.2.2
  · exact h.1.1.1.1.1.2.2
  · exact h.1.1.1.1.2.2
  · exact h.1.1.1.2.2
  · exact h.1.1.2.2
  · exact h.1.2.2
  · exact h.2.2

theorem okAt_stack (ok : StackOk acc keep S) {k : Int} (h1 : -S.size - S.depth ≤ k)
    (h2 : k + 8 ≤ 8 + 8 * (S.nargs : Int)) : okAt acc (off S.F k) = true :=
  okAt_off ok.stack h1 h2

theorem okAt_slot (ok : StackOk acc keep S) {k : Int} (h : S.slot k) :
    okAt acc (off S.F k) = true := by
  have h1 := priv_range ok h.2
  have h2 := priv_range ok (slot_bytes h (i := 7) (by omega) (by omega))
  have := ok.depth
  exact okAt_stack ok (by omega) (by omega)

theorem wr_other {m : Memory} {a v x : W}
    (h : ∀ i : Nat, i < 8 → x ≠ a + BitVec.ofNat 64 i) : wr m a v x = m x := by
  unfold wr
  rw [if_neg]
  intro hlt
  refine h (x - a).toNat hlt ?_
  rw [BitVec.ofNat_toNat, BitVec.setWidth_eq]
  rw [BitVec.add_comm, BitVec.sub_add_cancel]

theorem rd_wr_other {m : Memory} {a v b : W}
    (h : ∀ i j : Nat, i < 8 → j < 8 → b + BitVec.ofNat 64 j ≠ a + BitVec.ofNat 64 i) :
    rd (wr m a v) b = rd m b :=
  rd_congr fun j hj => wr_other fun i hi => h i j hi hj

/-! ## Changes -/

variable {s₀ s s' : Mach} {d d' : Int} {loc : Int → W} {m : Memory}

/-- Reading visible memory. -/
theorem Inv.rd_vis (h : Inv S s₀ d loc m s) {a : W} (ha : okAt (world acc keep S).vis a = true) :
    rd s.mem a = rd m a :=
  rd_congr fun i hi => h.mem _ (vis_bytes ha i hi)

/-- Only registers change. -/
theorem Inv.regs (h : Inv S s₀ d loc m s) (h5 : s'.reg 5 = s.reg 5)
    (h4 : s'.reg 4 = off S.F (-S.size - d')) (hm : s'.mem = s.mem)
    (hs : ∀ r, preserved r = true → r ≠ 4 → r ≠ 5 → s'.reg r = s.reg r)
    (hx : ∀ r, preservedX r = true → s'.xmm r = s.xmm r) : Inv S s₀ d' loc m s' where
  rbp := h5.trans h.rbp
  rsp := h4
  mem := by rw [hm]; exact h.mem
  priv := by rw [hm]; exact h.priv
  same := fun r a b c => (hs r a b c).trans (h.same r a b c)
  xmm := fun r a => (hx r a).trans (h.xmm r a)

/-- Writing to a private variable. -/
theorem Inv.setSlot (ok : StackOk acc keep S) (h : Inv S s₀ d loc m s) {k : Int} (hk : S.slot k)
    (v : W) : Inv S s₀ d (upd loc k v) m { s with mem := wr s.mem (off S.F k) v } where
  rbp := h.rbp
  rsp := h.rsp
  same := h.same
  xmm := h.xmm
  mem := by
    intro x hx
    rw [← h.mem x hx]
    apply wr_other
    intro i hi e
    rw [off_bytes] at e
    have := hidden_priv ok (slot_bytes hk (i := i) (by omega) (by omega))
    rw [e, this] at hx
    cases hx
  priv := by
    intro j hj
    show rd (wr s.mem (off S.F k) v) _ = _
    by_cases e : j = k
    · subst e
      rw [rd_wr_same, upd_same]
    · rw [upd_ne _ _ e, ← h.priv j hj]
      have r1 := priv_range ok hj.2
      have r2 := priv_range ok hk.2
      have := ok.small
      have := ok.nargs
      have := hj.1
      have := hk.1
      exact rd_wr_off _ _ _ (by omega) (by omega)

/-- Writing below the frame. -/
theorem Inv.setLow (ok : StackOk acc keep S) (h : Inv S s₀ d loc m s) {k : Int}
    (h1 : -S.size - S.depth ≤ k) (h2 : k + 8 ≤ -S.size) (v : W) :
    Inv S s₀ d loc m { s with mem := wr s.mem (off S.F k) v } where
  rbp := h.rbp
  rsp := h.rsp
  same := h.same
  xmm := h.xmm
  mem := by
    intro x hx
    rw [← h.mem x hx]
    apply wr_other
    intro i hi e
    rw [off_bytes] at e
    have := hidden_low ok (k := k + i) (by omega) (by omega)
    rw [e, this] at hx
    cases hx
  priv := by
    intro j hj
    rw [← h.priv j hj]
    have r1 := priv_range ok hj.2
    have := ok.small
    have := ok.nargs
    have := ok.depth
    exact rd_wr_off _ _ _ (by omega) (by omega)

theorem ne_of_hidden {x y : W} (hx : S.hidden x = true) (hy : S.hidden y = false) : x ≠ y := by
  intro e
  rw [e, hy] at hx
  cases hx

/-- Writing to visible memory. -/
theorem Inv.setVis (ok : StackOk acc keep S) (h : Inv S s₀ d loc m s) {a : W}
    (ha : okAt (world acc keep S).vis a = true) (v : W) :
    Inv S s₀ d loc (wr m a v) { s with mem := wr s.mem a v } where
  rbp := h.rbp
  rsp := h.rsp
  same := h.same
  xmm := h.xmm
  mem := by
    intro x hx
    show wr s.mem a v x = _
    unfold wr
    rw [h.mem x hx]
  priv := by
    intro j hj
    rw [← h.priv j hj]
    apply rd_wr_other
    intro i k hi hk
    rw [off_bytes]
    exact ne_of_hidden (hidden_priv ok (slot_bytes hj (by omega) (by omega))) (vis_bytes ha i hi)

/-- A range of visible bytes. -/
theorem range_vis {a : W} {n : Nat} (h : okRange (world acc keep S).vis a n = true) {i : Nat}
    (hi : i < n) : S.hidden (a + BitVec.ofNat 64 i) = false := by
  unfold okRange world at h
  rw [List.all_eq_true] at h
  have := h i (List.mem_range.mpr hi)
  simp only [Bool.and_eq_true, Bool.not_eq_true'] at this
  exact this.2

theorem range_acc {a : W} {n : Nat} (h : okRange (world acc keep S).vis a n = true) :
    okRange acc a n = true := by
  unfold okRange world at *
  rw [List.all_eq_true] at *
  intro i hi
  have := h i hi
  simp only [Bool.and_eq_true] at this
  exact this.1

theorem range_succ {a : W} {n : Nat} (h : okRange (world acc keep S).vis a (n + 1) = true) :
    okRange (world acc keep S).vis (a + 1) n = true := by
  unfold okRange at *
  rw [List.all_eq_true] at *
  intro i hi
  have := h (i + 1) (List.mem_range.mpr (by have := List.mem_range.mp hi; omega))
  rw [show a + 1 + BitVec.ofNat 64 i = a + BitVec.ofNat 64 (i + 1) from by
    rw [BitVec.add_assoc]; congr 1; rw [BitVec.ofNat_add, BitVec.add_comm]; rfl]
  exact this

theorem copy_agree (n : Nat) : ∀ (m m' : Memory) (dst src : W),
    (∀ x, S.hidden x = false → m x = m' x) →
    okRange (world acc keep S).vis src n = true → okRange (world acc keep S).vis dst n = true →
    (∀ x, S.hidden x = false → copy m dst src n x = copy m' dst src n x) ∧
    (∀ x, S.hidden x = true → copy m dst src n x = m x) := by
  induction n with
  | zero => intro m m' dst src h _ _; exact ⟨h, fun _ _ => rfl⟩
  | succ n ih =>
    intro m m' dst src h hs hd
    have hs0 := range_vis hs (i := 0) (by omega)
    have hd0 := range_vis hd (i := 0) (by omega)
    simp only [BitVec.add_zero] at hs0 hd0
    obtain ⟨a, b⟩ := ih (fun x => if x = dst then m src else m x)
      (fun x => if x = dst then m' src else m' x) (dst + 1) (src + 1) (by
        intro x hx
        rw [h src hs0, h x hx]) (range_succ hs) (range_succ hd)
    refine ⟨a, fun x hx => ?_⟩
    have := b x hx
    rw [copy, this]
    exact if_neg (ne_of_hidden hx hd0)

/-- Copying visible memory. -/
theorem Inv.copyVis (ok : StackOk acc keep S) (h : Inv S s₀ d loc m s) {dst src : W} {n : Nat}
    (hs : okRange (world acc keep S).vis src n = true)
    (hd : okRange (world acc keep S).vis dst n = true) :
    Inv S s₀ d loc (copy m dst src n) { s with mem := copy s.mem dst src n } where
  rbp := h.rbp
  rsp := h.rsp
  same := h.same
  xmm := h.xmm
  mem := (copy_agree n s.mem m dst src h.mem hs hd).1
  priv := by
    intro j hj
    rw [← h.priv j hj]
    apply rd_congr
    intro i hi
    rw [off_bytes]
    exact (copy_agree n s.mem m dst src h.mem hs hd).2 _
      (hidden_priv ok (slot_bytes hj (by omega) (by omega)))

/-- A call. -/
theorem Inv.called (ok : StackOk acc keep S) (h : Inv S s₀ d loc m s) (a : Ans) :
    Inv S s₀ d loc (fun x => if keep x then m x else a.mem x) (after keep s a) where
  rbp := by rw [← h.rbp]; rfl
  rsp := by rw [← h.rsp]; rfl
  mem := by
    intro x hx
    simp only [after, h.mem x hx]
  priv := by
    intro j hj
    rw [← h.priv j hj]
    exact rd_after fun i h1 h2 => by
      have := slot_bytes hj (i := i - j) (by omega) (by omega)
      rw [show j + (i - j) = i by omega] at this
      exact ok.kept _ this
  same := by
    intro r hr h4 h5
    rw [← h.same r hr h4 h5]
    simp [after, hr]
  xmm := by
    intro r hr
    rw [← h.xmm r hr]
    simp [after, hr]

/-! ## Pieces of code and programs -/

/-- Running `ops` from a state with `P` does what the program `x` does and leads to `Q`. -/
def Ref (acc keep : W → Bool) (S : Stack) (code : List Byte) (ops : List Op)
    (P : Memory → Mach → Prop) {α : Type} (x : M α) (Q : α → Memory → Mach → Prop) : Prop :=
  ∀ pc, At code pc ops → ∀ m as a m' as' t, x m as = some (a, m', as', t) → ∀ s, P m s →
    ∃ s' t', Steps acc keep code ⟨pc, s, as⟩ t' ⟨pc + size ops, s', as'⟩ ∧ AreCalls S t t' ∧ Q a m' s'

theorem AreCalls.append {a b : List SCall} {a' b' : List Event} (h : AreCalls S a a')
    (h' : AreCalls S b b') : AreCalls S (a ++ b) (a' ++ b') := by
  induction h with
  | nil => exact h'
  | cons e _ ih => exact .cons e ih

theorem bind_eq {α β : Type} (x : M α) (f : α → M β) (m : Memory) (as : List Ans) :
    (x >>= f) m as = match x m as with
      | none => none
      | some (a, m, as, t) =>
        match f a m as with
        | none => none
        | some (b, m, as, u) => some (b, m, as, t ++ u) := rfl

theorem bind_some {α β : Type} {x : M α} {f : α → M β} {m m' : Memory} {as as' : List Ans} {b : β}
    {t : List SCall} (h : (x >>= f) m as = some (b, m', as', t)) :
    ∃ a m₁ as₁ t₁ t₂, x m as = some (a, m₁, as₁, t₁) ∧ f a m₁ as₁ = some (b, m', as', t₂) ∧
      t = t₁ ++ t₂ := by
  rw [bind_eq] at h
  split at h
  · cases h
  · rename_i a m₁ as₁ t₁ e
    split at h
    · cases h
    · rename_i b' m₂ as₂ t₂ e₂
      injection h with h
      injection h with h1 h
      injection h with h2 h
      injection h with h3 h
      subst h1 h2 h3 h
      exact ⟨a, m₁, as₁, t₁, t₂, e, e₂, rfl⟩

variable {code : List Byte} {α β : Type} {P : Memory → Mach → Prop}

/-- One piece after the other. -/
theorem Ref.seq {a b : List Op} {x : M α} {f : α → M β} {Q : α → Memory → Mach → Prop}
    {R : β → Memory → Mach → Prop} (h1 : Ref acc keep S code a P x Q)
    (h2 : ∀ v, Ref acc keep S code b (Q v) (f v) R) :
    Ref acc keep S code (a ++ b) P (x >>= f) R := by
  intro pc hat m as v m' as' t hx s hs
  obtain ⟨w, m₁, as₁, t₁, t₂, e1, e2, rfl⟩ := bind_some hx
  obtain ⟨s₁, u₁, st1, c1, q⟩ := h1 pc hat.left m as w m₁ as₁ t₁ e1 s hs
  obtain ⟨s₂, u₂, st2, c2, r⟩ := h2 w _ hat.right m₁ as₁ v m' as' t₂ e2 s₁ q
  rw [size_append, ← Nat.add_assoc]
  exact ⟨s₂, u₁ ++ u₂, st1.trans st2, c1.append c2, r⟩

/-- A step of the program the machine takes later. -/
theorem Ref.first {ops : List Op} {x : M α} {f : α → M β} {Q : α → Memory → Mach → Prop}
    {R : β → Memory → Mach → Prop} (h1 : Ref acc keep S code [] P x Q)
    (h2 : ∀ v, Ref acc keep S code ops (Q v) (f v) R) :
    Ref acc keep S code ops P (x >>= f) R := h1.seq h2

/-- Straight code while the program does nothing. -/
theorem Ref.skip {ops : List Op} {b : α} {Q : α → Memory → Mach → Prop}
    (h : ∀ m s, P m s → ∃ s', execs acc s ops = some s' ∧ Q b m s') :
    Ref acc keep S code ops P (pure b : M α) Q := by
  intro pc hat m as a m' as' t hx s hs
  cases hx
  obtain ⟨s', e, q⟩ := h m s hs
  exact ⟨s', [], steps_straight ops hat e, .nil, q⟩

/-- Straight code in front. -/
theorem Ref.pre {a b : List Op} {x : M α} {Q : Memory → Mach → Prop} {R : α → Memory → Mach → Prop}
    (h : ∀ m s, P m s → ∃ s', execs acc s a = some s' ∧ Q m s')
    (h2 : Ref acc keep S code b Q x R) : Ref acc keep S code (a ++ b) P x R := by
  intro pc hat m as v m' as' t hx s hs
  obtain ⟨s₁, e, q⟩ := h m s hs
  obtain ⟨s₂, u₂, st2, c2, r⟩ := h2 _ hat.right m as v m' as' t hx s₁ q
  rw [size_append, ← Nat.add_assoc]
  exact ⟨s₂, u₂, (steps_straight a hat.left e).trans st2, c2, r⟩

/-- Straight code behind. -/
theorem Ref.post {a b : List Op} {x : M α} {Q R : α → Memory → Mach → Prop}
    (h2 : Ref acc keep S code a P x Q)
    (h : ∀ v m s, Q v m s → ∃ s', execs acc s b = some s' ∧ R v m s') :
    Ref acc keep S code (a ++ b) P x R := by
  intro pc hat m as v m' as' t hx s hs
  obtain ⟨s₁, u, st, c, q⟩ := h2 _ hat.left m as v m' as' t hx s hs
  obtain ⟨s₂, e, r⟩ := h v m' s₁ q
  rw [size_append, ← Nat.add_assoc]
  have := st.trans (steps_straight (keep := keep) (ans := as') b hat.right e)
  rw [List.append_nil] at this
  exact ⟨s₂, u, this, c, r⟩

theorem Ref.weaken {ops : List Op} {x : M α} {P' : Memory → Mach → Prop}
    {Q Q' : α → Memory → Mach → Prop} (h : Ref acc keep S code ops P x Q)
    (hp : ∀ m s, P' m s → P m s) (hq : ∀ v m s, Q v m s → Q' v m s) :
    Ref acc keep S code ops P' x Q' := by
  intro pc hat m as v m' as' t hx s hs
  obtain ⟨s₁, u, st, c, q⟩ := h _ hat m as v m' as' t hx s (hp m s hs)
  exact ⟨s₁, u, st, c, hq _ _ _ q⟩

/-- Reading in the program. -/
theorem Ref.load (a : W) :
    Ref acc keep S code [] P (load (world acc keep S) a)
      (fun v m s => P m s ∧ okAt (world acc keep S).vis a = true ∧ v = rd m a) := by
  intro pc hat m as v m' as' t hx s hs
  unfold Jit.load at hx
  split at hx
  · cases hx
    rename_i h
    exact ⟨s, [], .refl _, .nil, hs, h, rfl⟩
  · cases hx

/-- Writing. -/
theorem Ref.save {ops : List Op} {a v : W} {Q : Memory → Mach → Prop}
    (h : ∀ m s, P m s → okAt (world acc keep S).vis a = true →
      ∃ s', execs acc s ops = some s' ∧ Q (wr m a v) s') :
    Ref acc keep S code ops P (save (world acc keep S) a v) (fun _ => Q) := by
  intro pc hat m as u m' as' t hx s hs
  unfold Jit.save at hx
  split at hx
  · cases hx
    rename_i ha
    obtain ⟨s', e, q⟩ := h m s hs ha
    exact ⟨s', [], steps_straight ops hat e, .nil, q⟩
  · cases hx

/-- Copying. -/
theorem Ref.memcpy {ops : List Op} {dst src : W} {n : Nat} {Q : Memory → Mach → Prop}
    (h : ∀ m s, P m s → okRange (world acc keep S).vis src n = true →
      okRange (world acc keep S).vis dst n = true →
      ∃ s', execs acc s ops = some s' ∧ Q (copy m dst src n) s') :
    Ref acc keep S code ops P (memcpy (world acc keep S) dst src n) (fun _ => Q) := by
  intro pc hat m as u m' as' t hx s hs
  unfold Jit.memcpy at hx
  split at hx
  · cases hx
    rename_i ha
    rw [Bool.and_eq_true] at ha
    obtain ⟨s', e, q⟩ := h m s hs ha.1 ha.2
    exact ⟨s', [], steps_straight ops hat e, .nil, q⟩
  · cases hx

/-- The state in which a call instruction is reached. -/
structure AtCall (S : Stack) (s₀ : Mach) (d : Int) (loc : Int → W) (r : Reg) (f : W) (args : List Arg)
    (m : Memory) (s : Mach) : Prop where
  inv : Inv S s₀ d loc m s
  target : s.reg r = f
  given : ∀ i a, args[i]? = some a → ArgOk s i a
  room : 32 ≤ d ∧ 8 * (args.length : Int) ≤ d ∧ d ≤ S.depth ∧ (S.size + d) % 16 = 8

/-- The state after a call. -/
structure Called (S : Stack) (s₀ : Mach) (d : Int) (loc : Int → W) (a : Ans) (m : Memory)
    (s : Mach) : Prop where
  inv : Inv S s₀ d loc m s
  rax : s.reg 0 = a.reg 0
  xmm0 : s.xmm 0 = a.xmm 0

/-- A call instruction. -/
theorem Ref.call (ok : StackOk acc keep S) {s₀ : Mach} {d : Int} {loc : Int → W} {r : Reg} {f : W}
    {args : List Arg} :
    Ref acc keep S code [.call r] (AtCall S s₀ d loc r f args)
      (callF (world acc keep S) f args) (Called S s₀ d loc) := by
  intro pc hat m as v m' as' t hx s hs
  cases as with
  | nil => cases hx
  | cons a as =>
    cases hx
    refine ⟨after keep s v, [⟨s.reg r, s⟩], ?_, .cons ⟨?_, ?_, ?_, ?_⟩ .nil, ⟨?_, ?_, ?_⟩⟩
    · have := steps_call (acc := acc) (keep := keep) (ans := as') (a := v) hat s
      rw [show size [Op.call r] = (Op.call r).bytes.length from by simp [size]]
      exact this
    · exact hs.target
    · exact hs.given
    · exact hs.inv.mem
    · exact ⟨d, hs.inv.rsp, hs.room.1, hs.room.2.1, hs.room.2.2.1, hs.room.2.2.2⟩
    · exact hs.inv.called ok v
    · rfl
    · rfl

end Verif.Jit
