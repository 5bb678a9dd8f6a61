import Verif.Jit.HookBody
/-
C65: the generated hook function does what the C function it stands for does.
-/
namespace Verif.Jit

/-- What the generator must be given: sizes, numbers of parameters and indices for which the
generated distances fit in 32 bits; a function that returns nothing returns nothing in memory. -/
structure GenOk (g : Gen) : Prop where
  big : g.ret.size ≤ 2 ^ 26
  params : g.params.length ≤ 2 ^ 20
  void : g.ret.size = 0 → g.ret.has flagRetMem = false
  next : 8 * g.getNext < 2 ^ 31
  call : 8 * g.callIdx < 2 ^ 31
  over : 8 * g.getOverride < 2 ^ 31
  orig : 8 * g.getOrig < 2 ^ 31
  should : 8 * g.shouldCall < 2 ^ 31
  vtOff : -2 ^ 31 ≤ g.vtblOffs ∧ g.vtblOffs < 2 ^ 31
  vtIdx : -2 ^ 31 ≤ 8 * g.vtblIdx ∧ 8 * g.vtblIdx < 2 ^ 31

/-- The stack of a call that finds the stack pointer `F`. -/
def hookStack (g : Gen) (F : W) : Stack where
  F := F
  size := (frame g.ret).size
  depth := 96 + 8 * (g.params.length : Int)
  nargs := firstReg g.ret + g.params.length
  wide := g.ret.size != 0

/-- What the caller provides: the stack below the return address is there, with the places of the
parameters above it, and the functions called leave the private part of it alone. -/
structure Provided (acc keep : W → Bool) (S : Stack) : Prop where
  stack : ∀ k, -S.size - S.depth ≤ k → k < 8 + 8 * (S.nargs : Int) →
    acc (S.F + BitVec.ofInt 64 k) = true
  kept : ∀ k, S.priv k = true → keep (S.F + BitVec.ofInt 64 k) = true

/-- The end: what the caller finds. -/
structure Back (S : Stack) (s : Mach) (r : Ret) (m : Memory) (s' : Mach) : Prop where
  rax : ∀ v, r.rax = some v → s'.reg 0 = v
  xmm0 : ∀ v, r.xmm0 = some v → s'.xmm 0 = v
  mem : ∀ x, S.hidden x = false → s'.mem x = m x
  rsp : s'.reg 4 = s.reg 4 + 8
  same : ∀ r, preserved r = true → r ≠ 4 → s'.reg r = s.reg r
  xmm : ∀ r, preservedX r = true → s'.xmm r = s.xmm r

theorem hookStack_fit {g : Gen} (h : GenOk g) (F : W) : Fit g (hookStack g F) where
  size := rfl
  wide := rfl
  nargs := rfl
  depth := rfl
  big := h.big
  params := h.params
  void := h.void
  next := h.next
  call := h.call
  over := h.over
  orig := h.orig
  should := h.should
  vtOff := h.vtOff
  vtIdx := h.vtIdx

theorem hookStack_ok {acc keep : W → Bool} {g : Gen} (h : GenOk g) {F : W}
    (p : Provided acc keep (hookStack g F)) : StackOk acc keep (hookStack g F) := by
  have f := hookStack_fit h F
  have hb := frame_bound f
  have hp := h.params
  refine ⟨p.stack, p.kept, hb.2.2.2.2.1.1, ?_, hb.2.2.2.2.1.2, ?_, ?_⟩
  · intro hw
    have hz : g.ret.size ≠ 0 := by simpa [hookStack] using hw
    show (80 : Int) ≤ (frame g.ret).size
    simp only [frame, if_neg hz]
    omega
  · show (0 : Int) ≤ 96 + 8 * (g.params.length : Int) ∧ 96 + 8 * (g.params.length : Int) ≤ 2 ^ 30
    omega
  · have := firstReg_cases g.ret
    show firstReg g.ret + g.params.length ≤ 2 ^ 26
    omega

/-- The epilogue. -/
theorem epilogue_ret {acc keep : W → Bool} {S : Stack} {g : Gen} {s₀ s : Mach} {loc : Int → W}
    {r : Ret} {m : Memory} {code : List Byte} {pc : Nat} (ok : StackOk acc keep S) (f : Fit g S)
    (hF : s₀.reg 4 = S.F) (h : Holds S s₀ loc r m s) (h8 : loc (-8) = s₀.reg 5)
    (hat : At code pc (epilogue g)) (ans : List Ans) :
    ∃ pc' s₁ s', Steps acc keep code ⟨pc, s, ans⟩ [] ⟨pc', s₁, ans⟩ ∧
      step acc code pc' s₁ = .ret (loc 0) s' ∧ Back S s₀ r m s' := by
  have hb := frame_bound f
  have hsz := f.size
  have hs0 : S.slot 0 := by simp [Stack.slot, Stack.priv]; omega
  have k : ∃ s₁, execs acc s [.load rbp (at_ rbp (-8)), .addImm rsp (i32 (frame g.ret).size)] = some s₁ ∧
      s₁.reg 4 = S.F ∧ s₁.reg 5 = loc (-8) ∧ s₁.mem = s.mem ∧ s₁.xmm = s.xmm ∧
      ∀ q, q ≠ 4 → q ≠ 5 → s₁.reg q = s.reg q := by
    have e0 : -(frame g.ret).size + (frame g.ret).size = 0 := by omega
    sym [h.inv.rbp, h.inv.rsp, hsz, rbp, rsp, okAt_slot ok slot_rbp, h.inv.priv _ slot_rbp, e0]
    intro q h4 h5
    simp [h4, h5]
  obtain ⟨s₁, x, a4, a5, am, ax, ar⟩ := k
  have hat' : At code pc ([.load rbp (at_ rbp (-8)), .addImm rsp (i32 (frame g.ret).size)] ++ [.retn]) := hat
  have t := steps_straight (keep := keep) (ans := ans) _ hat'.left x
  have o0 : okAt acc S.F = true := by
    have := okAt_slot ok hs0
    rwa [off_zero] at this
  have e := step_ret (acc := acc) hat'.right (s := s₁) (by rw [a4]; exact o0)
  have r0 : rd s.mem S.F = loc 0 := by
    have := h.inv.priv _ hs0
    rwa [off_zero] at this
  rw [a4, am, r0] at e
  refine ⟨_, s₁, _, t, e, ⟨?_, ?_, ?_, ?_, ?_, ?_⟩⟩
  · intro v hv
    rw [← h.rax v hv, ← ar 0 (by decide) (by decide)]
    simp
  · intro v hv
    rw [← h.xmm0 v hv, ← ax]
    simp
  · intro x hx
    rw [← h.inv.mem x hx, ← am]
    simp
  · rw [hF]; simp
  · intro q hq h4
    by_cases h5 : q = 5
    · rw [h5]
      simp [a5, h8]
    · rw [← h.inv.same q hq h4 h5, ← ar q h4 h5]
      simp [h4]
  · intro q hq
    rw [← h.inv.xmm q hq, ← ax]
    simp

/-- **C65.** The generated code does what the C function does: if the C function, called with the
parameters the calling convention has in the registers and on the stack, ends with result `r` and
memory `m` after the calls `t`, then the code is generated, makes the same calls in the same order
with the same arguments and the same visible memory, each with an aligned stack and room for the
arguments, returns to its caller's return address with the result where the convention has it, and
leaves the memory of the C function, the stack pointer and every register the convention preserves
as they must be.  (The C function is taken as the code has it: `prev_res = cur_res` before the
call of the hook, and the result register as the last destructor of the returned value left it;
see `prev_never_seen` and `result_lost`.) -/
theorem hook_refines_partial {acc keep : W → Bool} {g : Gen} (h : GenOk g) (s : Mach)
    (p : Provided acc keep (hookStack g (s.reg 4))) (n : Nat) {ans rest : List Ans} {r : Ret}
    {m : Memory} {t : List SCall}
    (e : hookFunction (world acc keep (hookStack g (s.reg 4))) (varsAt g (hookStack g (s.reg 4))) g
      ⟨false, false⟩ n (s.reg 1) (s.reg 2) (paramsIn s (firstReg g.ret) g.params) s.mem ans
      = some (r, m, rest, t)) :
    ∃ code, generateHookFunc g = some code ∧
    ∃ t' s', Returns acc keep code s ans t' (rd s.mem (s.reg 4)) s' rest ∧
      AreCalls (hookStack g (s.reg 4)) t t' ∧ Back (hookStack g (s.reg 4)) s r m s' := by
  refine ⟨_, generateHookFunc_eq g, ?_⟩
  have f := hookStack_fit h (s.reg 4)
  have ok := hookStack_ok h p
  have hat := at_zero (hookFuncOps g)
  have eq : hookFuncOps g = (prologue g ++ (constructOps g ++ (initOps ++ (setupOps g
      ++ (callHooksOps g ++ (callOrigOps g ++ (callHooksOps g ++ (prepareOps g ++ (endOps g
      ++ (paramDtors (firstReg g.ret) g.params ++ (returnOps g ++ retDtors g)))))))))))
      ++ epilogue g := by
    simp only [hookFuncOps, firstOps, lastOps, List.append_assoc]
  generalize hc : (hookFuncOps g).flatMap Op.bytes = code at hat ⊢
  rw [eq] at hat
  obtain ⟨s₁, t₁, st, ct, l, hl, h8, h0⟩ := entry_ref (s := s) (code := code) ok f n rfl _ hat.left
    _ _ _ _ _ _ e s ⟨rfl, rfl⟩
  obtain ⟨pc, s₂, s', st₂, er, b⟩ := epilogue_ret (keep := keep) ok f rfl hl h8 hat.right rest
  have st' := st.trans st₂
  rw [List.append_nil] at st'
  rw [h0] at er
  exact ⟨t₁, s', ⟨pc, s₂, st', er⟩, ct, b⟩

/-- **C65.** The variables of the C function lie apart from each other, in the frame, and no
private part of the stack overlaps them: nothing the program does to one changes another.  Each
has room for the value (at least eight bytes). -/
theorem vars_apart {g : Gen} (h : GenOk g) (hz : g.ret.size ≠ 0) (F : W) :
    let n : Int := max 8 (if g.ret.has flagByRef then 8 else g.ret.size)
    let fr := frame g.ret
    let cells : List (Int × Int) := [(vEntry, 8), (vStatus, 8), (vPrev, 8), (vCur, 8), (fr.orig, n),
      (fr.override, n), (fr.plugin, n), (fr.memRet, n)]
    cells.Pairwise (fun a b => b.1 + b.2 ≤ a.1) ∧
    ∀ c ∈ cells, -fr.size ≤ c.1 ∧ c.1 + c.2 ≤ 0 ∧ ∀ k, c.1 ≤ k → k < c.1 + c.2 →
      (hookStack g F).hidden (F + BitVec.ofInt 64 k) = false := by
  have f := hookStack_fit h F
  have hcb := cell_bound f
  have hc : (max 8 (if g.ret.has flagByRef then 8 else (g.ret.size : Int)) : Int) ≤ cellSize g.ret := by
    have h1 := alignSize_spec (realSize g.ret) 8 (by omega)
    have h2 := alignSize_spec (alignSize (realSize g.ret) 8) 16 (by omega)
    have h3 : (cellSize g.ret : Int) = alignSize (alignSize (realSize g.ret) 8) 16 := rfl
    have h4 : (realSize g.ret : Int) = if g.ret.has flagByRef then 8 else (g.ret.size : Int) := by
      unfold realSize; split <;> rfl
    rw [← h4]
    have h5 : realSize g.ret ≠ 0 := by unfold realSize; split <;> omega
    omega
  have e : frame g.ret = ⟨-72, -80, -80 - (cellSize g.ret : Int), -80 - 2 * cellSize g.ret,
      -80 - 3 * cellSize g.ret, -80 - 4 * cellSize g.ret, 80 + 4 * cellSize g.ret⟩ := if_neg hz
  have hid : ∀ k : Int, -(80 + 4 * (cellSize g.ret : Int)) ≤ k → k < -8 →
      ¬ (-80 ≤ k ∧ k < -40) → (hookStack g F).hidden (F + BitVec.ofInt 64 k) = false := by
    intro k h1 h2 h3
    have := hidden_off (hookStack g F) (k := k) (by omega)
    refine Eq.trans this ?_
    have hs : (hookStack g F).size = 80 + 4 * cellSize g.ret := by
      show (frame g.ret).size = _
      rw [e]
    rw [hs]
    simp only [Stack.priv, Bool.or_eq_false_iff, Bool.and_eq_false_iff, decide_eq_false_iff_not]
    omega
  intro n fr cells
  have hn : n ≤ cellSize g.ret := hc
  have hn8 : 8 ≤ n := Int.le_max_left _ _
  clear_value n
  have hcells : cells = [(-16, 8), (-24, 8), (-32, 8), (-40, 8), (-80 - (cellSize g.ret : Int), n),
      (-80 - 2 * (cellSize g.ret : Int), n), (-80 - 3 * (cellSize g.ret : Int), n),
      (-80 - 4 * (cellSize g.ret : Int), n)] := by
    simp only [cells, fr, e, vEntry, vStatus, vPrev, vCur]
  have hfr : fr.size = 80 + 4 * cellSize g.ret := by simp only [fr, e]
  rw [hcells, hfr]
  refine ⟨?_, ?_⟩
  · simp only [List.pairwise_cons, List.mem_cons, List.not_mem_nil, or_false]
    refine ⟨?_, ?_, ?_, ?_, ?_, ?_, ?_, ?_, ?_⟩ <;> first
      | exact .nil
      | (intro a ha
         rcases ha with rfl | rfl | rfl | rfl | rfl | rfl | rfl <;> (simp only []; omega))
      | (intro a ha
         rcases ha with rfl | rfl | rfl | rfl | rfl | rfl <;> (simp only []; omega))
      | (intro a ha
         rcases ha with rfl | rfl | rfl | rfl | rfl <;> (simp only []; omega))
      | (intro a ha
         rcases ha with rfl | rfl | rfl | rfl <;> (simp only []; omega))
      | (intro a ha
         rcases ha with rfl | rfl | rfl <;> (simp only []; omega))
      | (intro a ha
         rcases ha with rfl | rfl <;> (simp only []; omega))
      | (intro a ha
         subst ha; simp only []; omega)
      | (intro a ha; cases ha)
  · simp only [List.mem_cons, List.not_mem_nil, or_false]
    intro c hc'
    rcases hc' with rfl | rfl | rfl | rfl | rfl | rfl | rfl | rfl <;> simp only [] <;>
      refine ⟨by omega, by omega, fun k h1 h2 => hid k (by omega) (by omega) (by omega)⟩

/-- **C65.** At each call the stack pointer is a multiple of 16 if the caller followed the
convention. -/
theorem call_aligned {S : Stack} {c : SCall} {e : Event} (h : IsCall S c e)
    (hF : S.F.toNat % 16 = 8) : (e.state.reg 4).toNat % 16 = 0 := by
  obtain ⟨d, h4, h32, -, -, ha⟩ := h.stack
  rw [h4, BitVec.toNat_add, BitVec.toNat_ofInt]
  omega

/-! ## Where the code departs from the C function -/

theorem hooks_kept (Wd : World) (V : Vars) (g : Gen) (p k k' : Bool) (ctx : W) (ps : List Arg) :
    ∀ n, hooks Wd V g ⟨p, k⟩ ctx ps n = hooks Wd V g ⟨p, k'⟩ ctx ps n := by
  intro n
  induction n with
  | zero => rfl
  | succ n ih =>
    simp only [hooks, ih]
    rfl

/-- **C65.** For a returned value without a destructor the result is the one of the C function
which returns after the destructors. -/
theorem hook_refines_kept_partial {acc keep : W → Bool} {g : Gen} (h : GenOk g) (s : Mach)
    (p : Provided acc keep (hookStack g (s.reg 4))) (n : Nat)
    (hd : g.ret.has flagByVal = false ∨ g.ret.dtor = 0) {ans rest : List Ans} {r : Ret}
    {m : Memory} {t : List SCall}
    (e : hookFunction (world acc keep (hookStack g (s.reg 4))) (varsAt g (hookStack g (s.reg 4))) g
      ⟨false, true⟩ n (s.reg 1) (s.reg 2) (paramsIn s (firstReg g.ret) g.params) s.mem ans
      = some (r, m, rest, t)) :
    ∃ code, generateHookFunc g = some code ∧
    ∃ t' s', Returns acc keep code s ans t' (rd s.mem (s.reg 4)) s' rest ∧
      AreCalls (hookStack g (s.reg 4)) t t' ∧ Back (hookStack g (s.reg 4)) s r m s' := by
  refine hook_refines_partial h s p n (Eq.trans ?_ e)
  have hn : ¬ (g.ret.has flagByVal = true ∧ g.ret.dtor ≠ 0) := by
    rintro ⟨h1, h2⟩
    rcases hd with hd | hd
    · rw [h1] at hd; cases hd
    · exact h2 hd
  simp only [hookFunction, callHooks, destroyRet, if_neg hn, hooks_kept _ _ _ false false true]

theorem load_some {Wd : World} {a v : W} {m m' : Memory} {as as' : List Ans} {t : List SCall}
    (h : load Wd a m as = some (v, m', as', t)) : v = rd m a ∧ m' = m ∧ as' = as ∧ t = [] := by
  unfold load at h
  split at h
  · cases h; exact ⟨rfl, rfl, rfl, rfl⟩
  · cases h

theorem save_some {Wd : World} {a v : W} {u : Unit} {m m' : Memory} {as as' : List Ans}
    {t : List SCall} (h : save Wd a v m as = some (u, m', as', t)) :
    m' = wr m a v ∧ as' = as ∧ t = [] := by
  unfold save at h
  split at h
  · cases h; exact ⟨rfl, rfl, rfl⟩
  · cases h

theorem callF_some {Wd : World} {f : W} {args : List Arg} {a : Ans} {m m' : Memory}
    {as as' : List Ans} {t : List SCall} (h : callF Wd f args m as = some (a, m', as', t)) :
    as = a :: as' ∧ t = [⟨f, args, m⟩] := by
  unfold callF at h
  split at h
  · cases h
  · cases h; exact ⟨rfl, rfl⟩

theorem virt_some {Wd : World} {obj : W} {idx : Nat} {args : List Arg} {a : Ans} {m m' : Memory}
    {as as' : List Ans} {t : List SCall} (h : virt Wd obj idx args m as = some (a, m', as', t)) :
    as = a :: as' ∧ ∃ f, t = [⟨f, .int obj :: args, m⟩] := by
  unfold virt at h
  obtain ⟨vt, m₁, as₁, t₁, t₂, e₁, h₁, rfl⟩ := bind_some h
  obtain ⟨f, m₂, as₂, t₃, t₄, e₂, h₂, rfl⟩ := bind_some h₁
  obtain ⟨rfl, rfl, rfl, rfl⟩ := load_some e₁
  obtain ⟨rfl, rfl, rfl, rfl⟩ := load_some e₂
  obtain ⟨rfl, rfl⟩ := callF_some h₂
  exact ⟨rfl, _, rfl⟩

theorem setPrev_some {Wd : World} {V : Vars} {u : Unit} {m m' : Memory}
    {as as' : List Ans} {t : List SCall} (h : setPrev Wd V m as = some (u, m', as', t)) :
    m' = wr m V.prev (rd m V.cur) ∧ as' = as ∧ t = [] := by
  unfold setPrev at h
  obtain ⟨c, m₁, as₁, t₁, t₂, e₁, h₁, rfl⟩ := bind_some h
  obtain ⟨rfl, rfl, rfl, rfl⟩ := load_some e₁
  obtain ⟨rfl, rfl, rfl⟩ := save_some h₁
  exact ⟨rfl, rfl, rfl⟩

/-- **C65**, first departure: whatever the hook before did, a hook finds `prev_res` to be
`MRES_IGNORED`: the assignment comes before the call. -/
theorem prev_never_seen (Wd : World) (V : Vars) (g : Gen) (k : Bool) (it : W) (ps : List Arg)
    {m m' : Memory} {ans rest : List Ans} {t : List SCall}
    (e : hookOne Wd V g ⟨false, k⟩ it ps m ans = some ((), m', rest, t)) :
    ∃ c t', t = c :: t' ∧ rd c.mem V.prev = 0 := by
  unfold hookOne at e
  obtain ⟨_, m₁, as₁, t₁, t₂, e₁, h₁, rfl⟩ := bind_some e
  obtain ⟨_, m₂, as₂, t₃, t₄, e₂, h₂, rfl⟩ := bind_some h₁
  obtain ⟨a, m₃, as₃, t₅, t₆, e₃, h₃, rfl⟩ := bind_some h₂
  obtain ⟨rfl, rfl, rfl⟩ := save_some e₁
  obtain ⟨rfl, rfl, rfl⟩ := setPrev_some e₂
  obtain ⟨-, f, rfl⟩ := virt_some e₃
  refine ⟨_, _, rfl, ?_⟩
  simp only [rd_wr_same]

/-- What the C function does instead: the hook finds `prev_res` as the hook before left it, and
afterwards it is this hook's result. -/
theorem prev_intended (Wd : World) (V : Vars) (g : Gen) (k : Bool) (it : W) (ps : List Arg)
    {m m' : Memory} {ans rest : List Ans} {t : List SCall}
    (ap : Apart V.cur V.prev) (ap' : Apart V.prev V.cur)
    (e : hookOne Wd V g ⟨true, k⟩ it ps m ans = some ((), m', rest, t)) :
    (∃ c t', t = c :: t' ∧ rd c.mem V.prev = rd m V.prev) ∧ rd m' V.prev = rd m' V.cur := by
  unfold hookOne at e
  obtain ⟨_, m₁, as₁, t₁, t₂, e₁, h₁, rfl⟩ := bind_some e
  obtain ⟨_, m₂, as₂, t₃, t₄, e₂, h₂, rfl⟩ := bind_some h₁
  obtain ⟨a, m₃, as₃, t₅, t₆, e₃, h₃, rfl⟩ := bind_some h₂
  obtain ⟨_, m₄, as₄, t₇, t₈, e₄, h₄, rfl⟩ := bind_some h₃
  obtain ⟨rfl, rfl, rfl⟩ := save_some e₁
  cases e₂
  obtain ⟨-, f, rfl⟩ := virt_some e₃
  obtain ⟨rfl, rfl, rfl⟩ := setPrev_some h₄
  refine ⟨⟨_, _, rfl, ?_⟩, ?_⟩
  · simp only [rd_wr_apart _ _ _ _ ap]
  · rw [rd_wr_same, rd_wr_apart _ _ _ _ ap']

/-- The program uses the answers from the front, one for each call. -/
def Uses {α : Type} (x : M α) : Prop := ∀ m as a m' as' t, x m as = some (a, m', as', t) →
  ∃ u, as = u ++ as' ∧ u.length = t.length

theorem Uses.pure {α : Type} (a : α) : Uses (pure a : M α) := by
  intro m as b m' as' t h
  cases h
  exact ⟨[], rfl, rfl⟩

theorem Uses.bind {α β : Type} {x : M α} {f : α → M β} (h : Uses x) (h' : ∀ a, Uses (f a)) :
    Uses (x >>= f) := by
  intro m as b m' as' t e
  obtain ⟨a, m₁, as₁, t₁, t₂, e₁, e₂, rfl⟩ := bind_some e
  obtain ⟨u, rfl, hu⟩ := h _ _ _ _ _ _ e₁
  obtain ⟨v, rfl, hv⟩ := h' a _ _ _ _ _ _ e₂
  exact ⟨u ++ v, by simp, by simp [hu, hv]⟩

theorem Uses.load (Wd : World) (a : W) : Uses (load Wd a) := by
  intro m as b m' as' t h
  obtain ⟨rfl, rfl, rfl, rfl⟩ := load_some h
  exact ⟨[], rfl, rfl⟩

theorem Uses.save (Wd : World) (a v : W) : Uses (save Wd a v) := by
  intro m as b m' as' t h
  obtain ⟨rfl, rfl, rfl⟩ := save_some h
  exact ⟨[], rfl, rfl⟩

theorem Uses.memcpy (Wd : World) (a v : W) (n : Nat) : Uses (memcpy Wd a v n) := by
  intro m as b m' as' t h
  unfold Jit.memcpy at h
  split at h
  · cases h; exact ⟨[], rfl, rfl⟩
  · cases h

theorem Uses.callF (Wd : World) (f : W) (args : List Arg) : Uses (callF Wd f args) := by
  intro m as b m' as' t h
  obtain ⟨rfl, rfl⟩ := callF_some h
  exact ⟨[b], rfl, rfl⟩

theorem Uses.ite {α : Type} {c : Prop} [Decidable c] {x y : M α} (h : Uses x) (h' : Uses y) :
    Uses (if c then x else y) := by
  split
  · exact h
  · exact h'

/-- Show that a program uses answers. -/
macro "uses" : tactic => `(tactic| repeat' first
  | exact Uses.pure _
  | exact Uses.load _ _
  | exact Uses.save _ _ _
  | exact Uses.memcpy _ _ _ _
  | exact Uses.callF _ _ _
  | assumption
  | refine Uses.ite ?_ ?_
  | refine Uses.bind ?_ (fun _ => ?_))

theorem Uses.virt (Wd : World) (o : W) (i : Nat) (args : List Arg) : Uses (virt Wd o i args) := by
  unfold Jit.virt
  uses

theorem Uses.hooks (Wd : World) (V : Vars) (g : Gen) (D : Intent) (ctx : W) (ps : List Arg) :
    ∀ n, Uses (hooks Wd V g D ctx ps n) := by
  intro n
  induction n with
  | zero => intro m as b m' as' t h; cases h
  | succ n ih =>
    unfold Jit.hooks
    refine Uses.bind (Uses.virt _ _ _ _) (fun a => Uses.ite (Uses.pure _) (Uses.bind ?_ (fun _ =>
      Uses.bind ?_ (fun _ => Uses.bind ?_ (fun _ => ih)))))
    · unfold hookOne keepResult move dropT when' setPrev
      have := Uses.virt Wd (a.reg 0) g.callIdx (withPlace g (place V g V.plugin) ps)
      uses
    · unfold raise
      uses
    · unfold override setOverride move
      have := Uses.virt Wd ctx g.getOverride []
      uses

theorem Uses.params (Wd : World) : ∀ (ps : List Pass) (as : List Arg), Uses (destroyParams Wd ps as) := by
  intro ps
  induction ps with
  | nil => intro as; exact Uses.pure _
  | cons p ps ih =>
    intro as
    cases as with
    | nil => exact Uses.pure _
    | cons a as =>
      unfold destroyParams
      have := ih as
      uses

/-- Everything in front of the last destructors. -/
theorem Uses.front (Wd : World) (V : Vars) (g : Gen) (D : Intent) (n : Nat) (this memret : W)
    (ps : List Arg) (f : Ret → M Ret) (hf : ∀ r, Uses (f r)) :
    Uses (construct Wd V g >>= fun _ => start Wd V >>= fun _ => setup Wd V g this >>= fun ctx =>
      callHooks Wd V g D n ctx ps >>= fun _ => callOrig Wd V g ctx this ps >>= fun _ =>
      callHooks Wd V g D n ctx ps >>= fun _ => prepare Wd V g ctx >>= fun p =>
      endContext Wd g ctx >>= fun _ => destroyParams Wd g.params ps >>= fun _ =>
      doReturn Wd g memret p >>= f) := by
  refine Uses.bind ?_ fun _ => Uses.bind ?_ fun _ => Uses.bind ?_ fun ctx => Uses.bind ?_ fun _ =>
    Uses.bind ?_ fun _ => Uses.bind ?_ fun _ => Uses.bind ?_ fun _ => Uses.bind ?_ fun _ =>
    Uses.bind (Uses.params _ _ _) fun _ => Uses.bind ?_ hf
  · unfold construct; uses
  · unfold start; uses
  · unfold setup; uses
  · exact Uses.bind (Uses.save _ _ _) fun _ => Uses.hooks _ _ _ _ _ _ _
  · unfold callOrig callOriginal origElse keepResult move dropT
    have := Uses.virt Wd ctx g.shouldCall []
    uses
  · exact Uses.bind (Uses.save _ _ _) fun _ => Uses.hooks _ _ _ _ _ _ _
  · unfold prepare; uses
  · unfold endContext; uses
  · unfold doReturn retValue returnMem; uses

/-- Every call has its answer. -/
theorem hook_answers (Wd : World) (V : Vars) (g : Gen) (D : Intent) (n : Nat) (this memret : W)
    (ps : List Arg) : Uses (hookFunction Wd V g D n this memret ps) :=
  Uses.front Wd V g D n this memret ps _ (by
    intro r
    unfold destroyRet
    uses)

/-- The last answer and the result. -/
def Ends {α : Type} (x : M α) (P : Ans → α → Prop) : Prop := ∀ m as r m' as' t,
  x m as = some (r, m', as', t) → ∃ u a, as = u ++ a :: as' ∧ P a r

theorem Ends.bind {α β : Type} {x : M α} {f : α → M β} {P : Ans → β → Prop} (h : Uses x)
    (h' : ∀ a, Ends (f a) P) : Ends (x >>= f) P := by
  intro m as b m' as' t e
  obtain ⟨a, m₁, as₁, t₁, t₂, e₁, e₂, rfl⟩ := bind_some e
  obtain ⟨u, rfl, -⟩ := h _ _ _ _ _ _ e₁
  obtain ⟨v, c, rfl, hp⟩ := h' a _ _ _ _ _ _ e₂
  exact ⟨u ++ v, c, by simp, hp⟩

/-- The result, whatever happened. -/
def Gives {α : Type} (x : M α) (P : α → Prop) : Prop := ∀ m as r m' as' t,
  x m as = some (r, m', as', t) → P r

theorem Gives.bind {α β : Type} {x : M α} {f : α → M β} {Q : α → Prop} {P : β → Prop}
    (h : Gives x Q) (h' : ∀ a, Q a → Gives (f a) P) : Gives (x >>= f) P := by
  intro m as b m' as' t e
  obtain ⟨a, m₁, as₁, t₁, t₂, e₁, e₂, rfl⟩ := bind_some e
  exact h' a (h _ _ _ _ _ _ e₁) _ _ _ _ _ _ e₂

theorem Gives.any {α : Type} (x : M α) : Gives x (fun _ => True) := fun _ _ _ _ _ _ _ => trivial

theorem Gives.pure {α : Type} {a : α} {P : α → Prop} (h : P a) : Gives (pure a : M α) P := by
  intro m as b m' as' t e
  cases e
  exact h

/-- **C65**, second departure: with a returned object that has a destructor, RAX and XMM0 end as
the last destructor left them, whatever was to be returned. -/
theorem result_lost (Wd : World) (V : Vars) (g : Gen) (p : Bool) (n : Nat) (this memret : W)
    (ps : List Arg) (hv : g.ret.has flagByVal = true) (hd : g.ret.dtor ≠ 0) {m m' : Memory}
    {ans rest : List Ans} {r : Ret} {t : List SCall}
    (e : hookFunction Wd V g ⟨p, false⟩ n this memret ps m ans = some (r, m', rest, t)) :
    ∃ u a, ans = u ++ a :: rest ∧ r = ⟨some (a.reg 0), some (a.xmm 0)⟩ := by
  have key : ∀ r, Ends (destroyRet Wd V g ⟨p, false⟩ r)
      (fun a r => r = ⟨some (a.reg 0), some (a.xmm 0)⟩) := by
    intro r
    unfold destroyRet
    rw [if_pos ⟨hv, hd⟩]
    refine Ends.bind (Uses.callF _ _ _) fun _ => Ends.bind (Uses.callF _ _ _) fun _ => ?_
    intro m as r m' as' t e
    obtain ⟨a, m₁, as₁, t₁, t₂, e₁, e₂, rfl⟩ := bind_some e
    obtain ⟨rfl, rfl⟩ := callF_some e₁
    cases e₂
    exact ⟨[], a, rfl, rfl⟩
  have hc : Uses (construct Wd V g) := by unfold construct; uses
  have hs : Uses (start Wd V) := by unfold start; uses
  have hu : Uses (setup Wd V g this) := by unfold setup; uses
  have hh : ∀ ctx, Uses (callHooks Wd V g ⟨p, false⟩ n ctx ps) := fun ctx =>
    Uses.bind (Uses.save _ _ _) fun _ => Uses.hooks _ _ _ _ _ _ _
  have ho : ∀ ctx, Uses (callOrig Wd V g ctx this ps) := by
    intro ctx
    unfold callOrig callOriginal origElse keepResult move dropT
    have := Uses.virt Wd ctx g.shouldCall []
    uses
  have hp : ∀ ctx, Uses (prepare Wd V g ctx) := by intro ctx; unfold prepare; uses
  have he : ∀ ctx, Uses (endContext Wd g ctx) := by intro ctx; unfold endContext; uses
  have hr : ∀ q, Uses (doReturn Wd g memret q) := by
    intro q; unfold doReturn retValue returnMem; uses
  exact (Ends.bind hc fun _ => Ends.bind hs fun _ => Ends.bind hu fun ctx => Ends.bind (hh ctx) fun _ =>
    Ends.bind (ho ctx) fun _ => Ends.bind (hh ctx) fun _ => Ends.bind (hp ctx) fun q =>
    Ends.bind (he ctx) fun _ => Ends.bind (Uses.params _ _ _) fun _ => Ends.bind (hr q) fun r =>
    key r : Ends (hookFunction Wd V g ⟨p, false⟩ n this memret ps) _) _ _ _ _ _ _ e

/-- What the C function does instead: for an object returned in memory it returns the address of
that memory in RAX, as the convention demands. -/
theorem result_intended (Wd : World) (V : Vars) (g : Gen) (p : Bool) (n : Nat) (this memret : W)
    (ps : List Arg) (hz : g.ret.size ≠ 0) (hr : g.ret.has flagByRef = false)
    (hm : g.ret.has flagRetMem = true) {m m' : Memory} {ans rest : List Ans} {r : Ret}
    {t : List SCall}
    (e : hookFunction Wd V g ⟨p, true⟩ n this memret ps m ans = some (r, m', rest, t)) :
    r.rax = some memret := by
  have hret : ∀ q, Gives (doReturn Wd g memret q) (fun r => r.rax = some memret) := by
    intro q
    unfold doReturn
    rw [if_neg hz, hr, if_neg (by simp)]
    refine Gives.bind (Gives.any _) fun _ _ => ?_
    rw [if_pos hm]
    exact Gives.bind (Gives.any _) fun _ _ => Gives.pure rfl
  have hdes : ∀ r : Ret, r.rax = some memret →
      Gives (destroyRet Wd V g ⟨p, true⟩ r) (fun r => r.rax = some memret) := by
    intro r h
    unfold destroyRet
    split
    · exact Gives.bind (Gives.any _) fun _ _ => Gives.bind (Gives.any _) fun _ _ =>
        Gives.bind (Gives.any _) fun _ _ => Gives.pure h
    · exact Gives.pure h
  exact (Gives.bind (Gives.any _) fun _ _ => Gives.bind (Gives.any _) fun _ _ =>
    Gives.bind (Gives.any _) fun ctx _ => Gives.bind (Gives.any _) fun _ _ =>
    Gives.bind (Gives.any _) fun _ _ => Gives.bind (Gives.any _) fun _ _ =>
    Gives.bind (Gives.any _) fun q _ => Gives.bind (Gives.any _) fun _ _ =>
    Gives.bind (Gives.any _) fun _ _ => Gives.bind (hret q) fun r h => hdes r h :
    Gives (hookFunction Wd V g ⟨p, true⟩ n this memret ps) _) _ _ _ _ _ _ e

/-- **C65**, third departure: an object the hook or the original returns in a register is not
stored in its variable; the function returns what the variable held before. -/
theorem object_in_register_lost (Wd : World) (V : Vars) (g : Gen) (a : Ans) (v : W)
    (ht : g.ret.type = typeObject) (hr : g.ret.has flagByRef = false)
    (hm : g.ret.has flagRetMem = false) : keepResult Wd V g a v = pure () := by
  unfold keepResult
  rw [hr, hm, ht]
  simp [typeObject, typeFloat, typeBasic]

/-- **C65.** Objects returned by value are always taken to be returned in memory, unless the
plugin says otherwise: in line 1268 `&` binds tighter than `|`, so the test is always true. -/
theorem object_always_memory (p : Pass) (hz : p.size ≠ 0) (hv : p.has flagByVal = true)
    (ht : p.type = typeObject) (hf : p.flags &&& (flagRetMem ||| flagRetReg) = 0) :
    autoDetect p = p.flags ||| flagRetMem := by
  have hs : (((p.flags &&& flagOCtor) ||| flagODtor) ||| flagCCtor) ≠ 0 := by
    intro h
    have := congrArg (·.getLsbD 2) h
    simp [flagODtor, flagOCtor, flagCCtor] at this
  unfold autoDetect
  rw [if_neg hz, hv, if_pos rfl, ht, if_neg (by decide), if_pos rfl, if_pos hf]
  exact if_pos (Or.inr hs)

/-! ### The hypotheses are met -/

/-- A function with one parameter that returns a number. -/
def exGen : Gen where
  sh := 0x100
  pHI := 0x200
  vtblOffs := 0
  vtblIdx := 3
  ret := ⟨8, typeBasic, flagByVal ||| flagRetReg, 0, 0, 0, 0⟩
  params := [⟨8, typeBasic, flagByVal, 0, 0, 0, 0⟩]
  setupLoop := 0x300
  endContext := 0x400
  getNext := 1
  callIdx := 2
  getOverride := 3
  getOrig := 4
  shouldCall := 5

theorem exGen_ok : GenOk exGen := by
  refine ⟨?_, ?_, ?_, ?_, ?_, ?_, ?_, ?_, ?_, ?_⟩ <;> decide

/-- A caller: stack pointer `0x10008`, `this` `0x1000`. -/
def exMach : Mach :=
  { reg := fun r => if r = 4 then 0x10008 else if r = 1 then 0x1000 else if r = 2 then 7 else 0
    xmm := fun _ => 0, mem := fun _ => 0, zf := false, sf := false, of := false }

/-- A function that returns `v` and changes nothing. -/
def exAns (v : W) : Ans := ⟨fun _ => v, fun _ => 0, fun _ => 0, false, false, false⟩

theorem exProvided (S : Stack) : Provided (fun _ => true) (fun _ => true) S :=
  ⟨fun _ _ _ => rfl, fun _ _ => rfl⟩

/-- What happens without hooks: the context is set up, there is no hook, the original is called
with `this` and the parameter, there is no hook, its result is returned. -/
theorem exRun : (hookFunction (world (fun _ => true) (fun _ => true) (hookStack exGen 0x10008))
      (varsAt exGen (hookStack exGen 0x10008)) exGen ⟨false, false⟩ 5 0x1000 7
      (paramsIn exMach 1 exGen.params) exMach.mem
      [exAns 0x5000, exAns 0, exAns 1, exAns 42, exAns 0, exAns (0x10008 - 96), exAns 9]).map
      (fun x => (x.1.rax, x.2.2.1.length, x.2.2.2.map (·.target)))
    = some (some 42, 0, [0x300, 0, 0, 0, 0, 0, 0x400]) := by
  decide +kernel

/-- The generated code on that caller: seven calls, the original's 42 is returned. -/
example : ∃ code, generateHookFunc exGen = some code ∧ ∃ t' s',
    Returns (fun _ => true) (fun _ => true) code exMach
      [exAns 0x5000, exAns 0, exAns 1, exAns 42, exAns 0, exAns (0x10008 - 96), exAns 9] t' 0 s' [] ∧
    t'.map (·.target) = [0x300, 0, 0, 0, 0, 0, 0x400] ∧ s'.reg 0 = 42 ∧ s'.reg 4 = 0x10010 := by
  have run := exRun
  cases e : hookFunction (world (fun _ => true) (fun _ => true) (hookStack exGen 0x10008))
      (varsAt exGen (hookStack exGen 0x10008)) exGen ⟨false, false⟩ 5 0x1000 7
      (paramsIn exMach 1 exGen.params) exMach.mem
      [exAns 0x5000, exAns 0, exAns 1, exAns 42, exAns 0, exAns (0x10008 - 96), exAns 9] with
  | none => rw [e] at run; cases run
  | some x =>
    obtain ⟨r, m, rest, t⟩ := x
    rw [e] at run
    simp only [Option.map_some, Option.some.injEq, Prod.mk.injEq] at run
    obtain ⟨hr, hl, ht⟩ := run
    obtain ⟨code, hc, t', s', h, hcalls, b⟩ := hook_refines_partial exGen_ok exMach (exProvided _) 5 e
    have hrest : rest = [] := List.eq_nil_of_length_eq_zero hl
    have htg : ∀ {a : List SCall} {b : List Event}, AreCalls (hookStack exGen 0x10008) a b →
        b.map (·.target) = a.map (·.target) := by
      intro a b hab
      induction hab with
      | nil => rfl
      | cons h _ ih => simp [ih, h.target]
    rw [hrest] at h
    exact ⟨code, hc, t', s', h, (htg hcalls).trans ht, b.rax 42 hr, b.rsp⟩

/-- A function that returns an object of 16 bytes with a destructor, in memory. -/
def exObj : Gen := { exGen with
  ret := ⟨16, typeObject, flagByVal ||| flagRetMem ||| flagODtor, 0, 0, 0x900, 0⟩, params := [] }

theorem exObj_ok : GenOk exObj := by
  refine ⟨?_, ?_, ?_, ?_, ?_, ?_, ?_, ?_, ?_, ?_⟩ <;> decide

/-- A caller with room for the object at `0x7000`. -/
def exMachObj : Mach := { exMach with
  reg := fun r => if r = 4 then 0x10008 else if r = 1 then 0x1000 else if r = 2 then 0x7000 else 0 }

theorem exRunObj : (hookFunction (world (fun _ => true) (fun _ => true) (hookStack exObj 0x10008))
      (varsAt exObj (hookStack exObj 0x10008)) exObj ⟨false, false⟩ 5 0x1000 0x7000
      [] exMach.mem
      [exAns 0x5000, exAns 0, exAns 1, exAns 42, exAns 0, exAns 0, exAns (0x10008 - 96), exAns 9,
       exAns 1, exAns 2, exAns 3]).map
      (fun x => (x.1.rax, x.2.2.1.length, x.2.2.2.map (·.target)))
    = some (some 3, 0, [0x300, 0, 0, 0, 0x900, 0, 0, 0x400, 0x900, 0x900, 0x900]) := by
  decide +kernel

/-- **C65**, the second departure on the machine: the convention wants the address `0x7000` of the
returned object in RAX; the caller finds what the destructor left there. -/
theorem result_lost_run : ∃ code, generateHookFunc exObj = some code ∧ ∃ ans t' s',
    Returns (fun _ => true) (fun _ => true) code exMachObj ans t' 0 s' [] ∧
    exMachObj.reg 2 = 0x7000 ∧ s'.reg 0 = 3 := by
  have run := exRunObj
  cases e : hookFunction (world (fun _ => true) (fun _ => true) (hookStack exObj 0x10008))
      (varsAt exObj (hookStack exObj 0x10008)) exObj ⟨false, false⟩ 5 0x1000 0x7000
      [] exMach.mem
      [exAns 0x5000, exAns 0, exAns 1, exAns 42, exAns 0, exAns 0, exAns (0x10008 - 96), exAns 9,
       exAns 1, exAns 2, exAns 3] with
  | none => rw [e] at run; cases run
  | some x =>
    obtain ⟨r, m, rest, t⟩ := x
    rw [e] at run
    simp only [Option.map_some, Option.some.injEq, Prod.mk.injEq] at run
    obtain ⟨hr, hl, ht⟩ := run
    obtain ⟨code, hc, t', s', h, hcalls, b⟩ := hook_refines_partial exObj_ok exMachObj (exProvided _) 5 e
    have hrest : rest = [] := List.eq_nil_of_length_eq_zero hl
    rw [hrest] at h
    exact ⟨code, hc, _, t', s', h, rfl, b.rax 3 hr⟩

example : ∃ u a, [exAns 0x5000, exAns 0, exAns 1, exAns 42, exAns 0, exAns 0, exAns (0x10008 - 96),
    exAns 9, exAns 1, exAns 2, exAns 3] = u ++ [a] ∧ a.reg 0 = 3 :=
  ⟨_, exAns 3, (List.dropLast_concat_getLast (by simp)).symm, rfl⟩

example : (vEntry : Int) + 8 ≤ 0 ∧ (frame exGen.ret).plugin + 8 ≤ (frame exGen.ret).override := by
  have := vars_apart exGen_ok (by decide) 0x10008
  decide

/-- The last answer decides: the hypotheses of `result_lost` are met. -/
example : exObj.ret.has flagByVal = true ∧ exObj.ret.dtor ≠ 0 ∧ exObj.ret.size ≠ 0 ∧
    exObj.ret.has flagByRef = false ∧ exObj.ret.has flagRetMem = true := by decide

/-- `hook_refines_kept_partial` covers the first example. -/
example : exGen.ret.has flagByVal = false ∨ exGen.ret.dtor = 0 := by decide

/-- A caller following the convention. -/
example : (hookStack exGen 0x10008).F.toNat % 16 = 8 := by decide

/-- An object of four bytes without constructors. -/
example : autoDetect ⟨4, typeObject, flagByVal, 0, 0, 0, 0⟩ = flagByVal ||| flagRetMem :=
  object_always_memory _ (by decide) (by decide) rfl (by decide)

/-- An object said to be returned in a register. -/
example (Wd : World) (V : Vars) (a : Ans) (v : W) :
    keepResult Wd V { exGen with ret := ⟨8, typeObject, flagByVal ||| flagRetReg, 0, 0, 0, 0⟩ } a v
      = pure () :=
  object_in_register_lost Wd V _ a v rfl (by decide) (by decide)

/-- Two hooks; the first answers `MRES_HANDLED`: in memory the answer leaves, `cur_res` is 1. -/
def exHandled : Ans := ⟨fun _ => 0, fun _ => 0, fun x => if x = 0x10008 - 40 then 1 else 0, false, false, false⟩

/-- The functions called leave everything but `cur_res` alone. -/
def exKeep (x : W) : Bool := x != 0x10008 - 40

/-- The `prev_res` the calls of the two hooks find, as the code has it and as the C function. -/
theorem prev_run (late : Bool) :
    (hookFunction (world (fun _ => true) exKeep (hookStack exGen 0x10008))
      (varsAt exGen (hookStack exGen 0x10008)) exGen ⟨late, false⟩ 5 0x1000 7
      (paramsIn exMach 1 exGen.params) exMach.mem
      [exAns 0x5000, exAns 0x5100, exHandled, exAns 0x5200, exHandled, exAns 0, exAns 0, exAns 0,
       exAns (0x10008 - 96), exAns 9]).map
      (fun x => (x.2.2.2.filter (fun c => decide (c.args.length = 2))).map
        (fun c => rd c.mem (0x10008 - 32)))
    = some (if late then [0, 1, 0] else [0, 0, 0]) := by
  cases late <;> decide +kernel

/-- `prev_res` and `cur_res` lie apart. -/
example (F : W) : Apart (off F vCur) (off F vPrev) ∧ Apart (off F vPrev) (off F vCur) :=
  ⟨off_apart F (by decide) (by decide), off_apart F (by decide) (by decide)⟩

end Verif.Jit

#print axioms Verif.Jit.hook_refines_partial
#print axioms Verif.Jit.hook_refines_kept_partial
#print axioms Verif.Jit.vars_apart
#print axioms Verif.Jit.call_aligned
#print axioms Verif.Jit.hook_answers
#print axioms Verif.Jit.prev_never_seen
#print axioms Verif.Jit.prev_intended
#print axioms Verif.Jit.prev_run
#print axioms Verif.Jit.result_lost
#print axioms Verif.Jit.result_intended
#print axioms Verif.Jit.result_lost_run
#print axioms Verif.Jit.object_in_register_lost
#print axioms Verif.Jit.object_always_memory
