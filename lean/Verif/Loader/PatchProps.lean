import Verif.Loader.EntryProps
/-
C45: the loader's patches of the game's function tables.
-/
namespace Verif.Loader

/-- The functions of the game that were called. -/
def codes (l : List Ev) : List Nat := l.filterMap fun e => match e with | .call (.code f) _ => some f | _ => none

/-- The patches and the game's memory are the same, and `fs` were called. -/
structure Keep (s s' : St) (fs : List Nat) : Prop where
  iface : s'.iface = s.iface
  config : s'.config = s.config
  isS2 : s'.isS2 = s.isS2
  origInit : s'.origInit = s.origInit
  origConnect : s'.origConnect = s.origConnect
  mem : s'.mem = s.mem
  codes : codes s'.log = codes s.log ++ fs
  grow : s.log <+: s'.log

/-- External code that leaves the game's function tables and the patches alone (it may do anything else) and
does not call the game's functions through the loader. -/
def Quiet (h : Beh) : Prop := ∀ c n s s' a, h c n s = .ok (s', a) → Keep s s' []

theorem Keep.refl (s : St) : Keep s s [] := ⟨rfl, rfl, rfl, rfl, rfl, rfl, by simp, List.prefix_refl _⟩

theorem Keep.trans {a b c : St} {x y : List Nat} (h : Keep a b x) (g : Keep b c y) : Keep a c (x ++ y) :=
  ⟨g.iface.trans h.iface, g.config.trans h.config, g.isS2.trans h.isS2, g.origInit.trans h.origInit, g.origConnect.trans h.origConnect,
    g.mem.trans h.mem, by rw [g.codes, h.codes, List.append_assoc], h.grow.trans g.grow⟩

theorem Keep.same {s s' : St} (h1 : s'.iface = s.iface) (h2 : s'.config = s.config) (h3 : s'.isS2 = s.isS2) (h4 : s'.origInit = s.origInit)
    (h5 : s'.origConnect = s.origConnect) (h6 : s'.mem = s.mem) (h7 : s'.log = s.log) : Keep s s' [] :=
  ⟨h1, h2, h3, h4, h5, h6, by rw [h7]; simp, by rw [h7]; exact List.prefix_refl _⟩

theorem Keep.via {a b c : St} (g : Keep b c []) (h : Keep a b []) : Keep a c [] := h.trans g

theorem note_keep {s : St} {e : Ev} (he : codes [e] = []) : Keep s (s.note e) [] :=
  ⟨rfl, rfl, rfl, rfl, rfl, rfl, by
    show codes (s.log ++ [e]) = _
    have : codes (s.log ++ [e]) = codes s.log ++ codes [e] := by simp only [Verif.Loader.codes, List.filterMap_append]
    rw [this, he], List.prefix_append _ _⟩

theorem ext_keep {h : Beh} (hq : Quiet h) {c : Call} {s : St} {r : St × Nat × Int} (e : ext h c s = .ok r) (hc : ∀ f, c ≠ .code f) : Keep s r.1 [] := by
  obtain ⟨x, e1, e⟩ := bind_ok e
  cases e
  have h0 : codes [.call c s.detected] = [] := by
    cases c <;> first | rfl | exact absurd rfl (hc _)
  exact ((note_keep h0).trans (hq _ _ _ _ _ e1)).trans (note_keep rfl)

theorem ext_code {h : Beh} (hq : Quiet h) {f : Nat} {s : St} {r : St × Nat × Int} (e : ext h (.code f) s = .ok r) :
    Keep s r.1 [f] ∧ .ret (.code f) r.2.1 ∈ r.1.log := by
  obtain ⟨x, e1, e⟩ := bind_ok e
  cases e
  have h1 : Keep s (s.note (.call (.code f) s.detected)) [f] := by
    refine ⟨rfl, rfl, rfl, rfl, rfl, rfl, ?_, List.prefix_append _ _⟩
    show codes (s.log ++ [_]) = _
    simp [codes, List.filterMap_append]
  exact ⟨(h1.trans (hq _ _ _ _ _ e1)).trans (note_keep rfl), by simp [St.note]⟩

theorem extIn_keep {h : Beh} (hq : Quiet h) {l : Nat} {c : Call} {s : St} {r : St × Nat × Int} (e : extIn h l c s = .ok r) (hc : ∀ f, c ≠ .code f) : Keep s r.1 [] := by
  unfold extIn at e
  split at e
  · exact ext_keep hq e hc
  · cases e

theorem closeLib_keep {l : Option Nat} {s s' : St} (e : closeLib l s = .ok s') : Keep s s' [] := by
  unfold closeLib at e
  split at e
  · cases e
  · split at e
    · cases e; exact .same rfl rfl rfl rfl rfl rfl rfl
    · cases e

theorem unloadCore_keep {s s' : St} (e : unloadCore s = .ok s') : Keep s s' [] := by
  obtain ⟨x, e1, e⟩ := bind_ok e
  cases e
  exact (closeLib_keep e1).trans (.same rfl rfl rfl rfl rfl rfl rfl)

theorem loadCore_keep {h : Beh} (hq : Quiet h) {s : St} {r : St × Bool} (e : loadCore h s = .ok r) : Keep s r.1 [] := by
  obtain ⟨x, e1, e⟩ := bind_ok e
  have := ext_keep hq e1 (by simp)
  split at e <;> cases e <;> exact this.trans (.same rfl rfl rfl rfl rfl rfl rfl)

theorem coreSym_keep {h : Beh} (hq : Quiet h) {v : Bool} {s : St} {r : St × Bool} (e : coreSym h v s = .ok r) : Keep s r.1 [] := by
  unfold coreSym at e
  split at e
  · cases e
  · obtain ⟨x, e1, e⟩ := bind_ok e
    cases e
    exact extIn_keep hq e1 (by simp)

theorem findEngine_keep {h : Beh} (hq : Quiet h) {s2 : Bool} {s s' : St} (e : findEngine h s2 s = .ok s') : Keep s s' [] := by
  obtain ⟨x, e1, e⟩ := bind_ok e
  cases e
  exact (ext_keep hq e1 (by simp)).trans (.same rfl rfl rfl rfl rfl rfl rfl)

theorem getBridge_keep {h : Beh} (hq : Quiet h) {s2 : Bool} {s s' : St} (e : getBridge h s2 s = .ok s') : Keep s s' [] := by
  unfold getBridge at e
  split at e
  · cases e; exact .refl _
  · obtain ⟨x, e1, e⟩ := bind_ok e
    have h1 := loadCore_keep hq e1
    split at e
    · cases e; exact h1
    · obtain ⟨y, e2, e⟩ := bind_ok e
      have h2 := h1.trans (coreSym_keep hq e2)
      split at e
      · exact .via (unloadCore_keep e) h2
      · cases e; exact h2.trans (.same rfl rfl rfl rfl rfl rfl rfl)

theorem callPre_keep {h : Beh} (hq : Quiet h) {s s' : St} (e : callPre h s = .ok s') : Keep s s' [] := by
  unfold callPre at e
  split at e
  · cases e; exact .refl _
  · obtain ⟨x, e1, e⟩ := bind_ok e
    have h1 := extIn_keep hq e1 (by simp)
    split at e
    · exact .via (unloadCore_keep e) (h1.trans (.same rfl rfl rfl rfl rfl rfl rfl))
    · cases e; exact h1

/-- The game's own function: not NULL, not one of the loader's. -/
def Own (w : World) (f : Nat) : Prop := f ≠ 0 ∧ f ≠ w.tInit1 ∧ f ≠ w.tInit2 ∧ f ≠ w.tConnect ∧ f ≠ w.tShutdown

theorem invoke_own {w : World} {h : Beh} (hq : Quiet h) {n f : Nat} (hf : Own w f) {s : St} {r : St × Nat} (e : invoke w h n f s = .ok r) :
    Keep s r.1 [f] ∧ .ret (.code f) r.2 ∈ r.1.log := by
  cases n with
  | zero => cases e
  | succ n =>
    unfold invoke at e
    rw [if_neg hf.2.1, if_neg hf.2.2.1, if_neg hf.2.2.2.1, if_neg hf.2.2.2.2, if_neg hf.1] at e
    obtain ⟨x, e1, e⟩ := bind_ok e
    cases e
    exact ext_code hq e1

/-- The memory is as before except that the game's shutdown function may have been replaced (and remembered). -/
def ButShutdown (w : World) (s s' : St) : Prop :=
  ∀ a, s'.mem a = s.mem a ∨ (s'.mem a = w.tShutdown ∧ s'.origShutdown = some (s.mem a))

theorem patchShutdown_keep {w : World} {k : Nat} {s s' : St} (e : patchShutdown w k s = .ok s') :
    s'.iface = s.iface ∧ s'.isS2 = s.isS2 ∧ s'.origInit = s.origInit ∧ s'.log = s.log ∧ ButShutdown w s s' := by
  unfold patchShutdown at e
  split at e
  · cases e
  · cases e
    refine ⟨rfl, rfl, rfl, rfl, fun a => ?_⟩
    dsimp only [upd]
    split
    · rename_i ha; subst ha; exact .inr ⟨rfl, rfl⟩
    · exact .inl rfl

theorem afterInit_keep {w : World} {h : Beh} (hq : Quiet h) {v : Nat} {s s' : St} (e : afterInit w h v s = .ok s') :
    s'.iface = s.iface ∧ s'.isS2 = s.isS2 ∧ s'.origInit = s.origInit ∧ codes s'.log = codes s.log ∧ s.log <+: s'.log ∧ ButShutdown w s s' ∧
      (v = 0 → s'.mem = s.mem) := by
  have of : ∀ {t : St}, Keep s t [] → t.iface = s.iface ∧ t.isS2 = s.isS2 ∧ t.origInit = s.origInit ∧ codes t.log = codes s.log ∧ s.log <+: t.log ∧
      ButShutdown w s t ∧ (v = 0 → t.mem = s.mem) := fun k =>
    ⟨k.iface, k.isS2, k.origInit, by simpa using k.codes, k.grow, fun a => .inl (by rw [k.mem]), fun _ => k.mem⟩
  unfold afterInit at e
  split at e
  · split at e
    · cases e
    · obtain ⟨x, e1, e⟩ := bind_ok e
      obtain ⟨y, e2, e⟩ := bind_ok e
      cases e
      exact of (((extIn_keep hq e1 (by simp)).trans (unloadCore_keep e2)).trans (.same rfl rfl rfl rfl rfl rfl rfl))
  · rename_i hv
    split at e
    · cases e; exact of (.refl _)
    · obtain ⟨x, e1, e⟩ := bind_ok e
      have k := extIn_keep hq e1 (by simp)
      obtain ⟨h1, h2, h3, h4, h5⟩ := patchShutdown_keep e
      refine ⟨h1.trans k.iface, h2.trans k.isS2, h3.trans k.origInit, by rw [h4]; simpa using k.codes, by rw [h4]; exact k.grow, fun a => ?_, fun h => absurd h hv⟩
      rw [← k.mem]; exact h5 a

/-- C45, partial: a call of the game's `DLLInit` (first engine) or `Init` (second engine) through the patch, whatever the
detection, the core and the original answer.  If it returns, the slot holds the original again, the original was called
exactly once and its answer is returned, and no other word of memory changed except the game's shutdown
slot, which is replaced if the core is active (never if the original failed).  Missing: external code
that requests the game's interface again or calls through the patched slot meanwhile, and the failing
original without a core (`failed_init_null`). -/
theorem init_undone_partial {w : World} {h : Beh} (hq : Quiet h) {n : Nat} {s2 : Bool} {s s' : St} {v p f : Nat}
    (hp : s.iface = some p) (ho : s.origInit = some f) (hf : Own w f) (e : dllInit w h (invoke w h n) s2 s = .ok (s', v)) :
    s'.mem (w.vt p + initSlot s.isS2) = f ∧ s'.origInit = none ∧ codes s'.log = codes s.log ++ [f] ∧ .ret (.code f) v ∈ s'.log ∧
      (∀ a, a ≠ w.vt p + initSlot s.isS2 → s'.mem a = s.mem a ∨ (v ≠ 0 ∧ s'.mem a = w.tShutdown ∧ s'.origShutdown = some (s.mem a))) := by
  obtain ⟨a, e1, e⟩ := bind_ok e
  obtain ⟨b, e2, e⟩ := bind_ok e
  obtain ⟨c, e3, e⟩ := bind_ok e
  obtain ⟨d, e4, e⟩ := bind_ok e
  obtain ⟨g, e5, e⟩ := bind_ok e
  obtain ⟨k, e6, e⟩ := bind_ok e
  cases e
  have k1 := ((findEngine_keep hq e1).trans (getBridge_keep hq e2)).trans (callPre_keep hq e3)
  have k2 : Keep c d.1 [f] ∧ .ret (.code f) d.2 ∈ d.1.log := by
    unfold callInit at e4
    rw [k1.origInit, ho] at e4
    exact invoke_own hq hf e4
  have k3 := k1.trans k2.1
  obtain ⟨h1, h2, h3, h4, h5, h6, h7⟩ := afterInit_keep hq e5
  unfold patchInit at e6
  rw [h1, k3.iface, hp] at e6
  dsimp only at e6
  rw [if_neg (by simp)] at e6
  cases e6
  rw [h2, h3, k3.isS2, k3.origInit, ho]
  refine ⟨by simp [upd], rfl, ?_, ?_, fun x hx => ?_⟩
  · show codes g.log = _
    rw [h4, k3.codes]; simp
  · exact h5.subset k2.2
  · dsimp only [upd]
    rw [if_neg hx, ← k3.mem]
    by_cases hv : d.2 = 0
    · exact .inl (by rw [h7 hv])
    · exact (h6 x).imp id fun y => ⟨hv, y⟩

/-- The object with the shutdown function: the second engine's config interface, the first engine's game interface. -/
def ShutdownObj (s : St) (q : Nat) : Prop := (s.isS2 = true → s.config = some q) ∧ (s.isS2 = false → s.iface = some q)

theorem extIn_ret {h : Beh} {l : Nat} {c : Call} {s : St} {r : St × Nat × Int} (e : extIn h l c s = .ok r) : .ret c r.2.1 ∈ r.1.log := by
  unfold extIn at e
  split at e
  · obtain ⟨x, e1, e⟩ := bind_ok e
    cases e
    simp [St.note]
  · cases e

theorem afterInit_slot {w : World} {h : Beh} (hq : Quiet h) {v b : Nat} {s s' : St} (hb : s.gdBridge = some b) (hv : v ≠ 0) (e : afterInit w h v s = .ok s') :
    ∃ q k, ShutdownObj s q ∧ .ret .post k ∈ s'.log ∧ s'.mem = upd s.mem (w.vt q + k) w.tShutdown ∧ s'.origShutdown = some (s.mem (w.vt q + k)) := by
  unfold afterInit at e
  rw [if_neg hv, hb] at e
  dsimp only at e
  obtain ⟨x, e1, e⟩ := bind_ok e
  have k := extIn_keep hq e1 (by simp)
  have hr := extIn_ret e1
  unfold patchShutdown at e
  split at e
  · cases e
  · next q hq' =>
    cases e
    refine ⟨q, x.2.1, ⟨fun h => ?_, fun h => ?_⟩, hr, by rw [k.mem], by rw [k.mem]⟩
    · rw [k.isS2, h, if_pos rfl, k.config] at hq'; exact hq'
    · rw [k.isS2, h, if_neg (by simp), k.iface] at hq'; exact hq'

/-- C45, partial: when the original has succeeded and the core is active, the one slot patched for the shutdown is the one whose index the core
answers, in the right object, and what was there is remembered; nothing else but the slot of `Init` changes. -/
theorem shutdown_slot_partial {w : World} {h : Beh} (hq : Quiet h) {n : Nat} {s2 : Bool} {s s' : St} {v p f : Nat}
    (hp : s.iface = some p) (ho : s.origInit = some f) (hf : Own w f) (hv : v ≠ 0) (e : dllInit w h (invoke w h n) s2 s = .ok (s', v)) :
    (∀ a, a ≠ w.vt p + initSlot s.isS2 → s'.mem a = s.mem a) ∨
    ∃ q k, ShutdownObj s q ∧ .ret .post k ∈ s'.log ∧ (w.vt q + k ≠ w.vt p + initSlot s.isS2 → s'.mem (w.vt q + k) = w.tShutdown) ∧
      s'.origShutdown = some (s.mem (w.vt q + k)) ∧ (∀ a, a ≠ w.vt p + initSlot s.isS2 → a ≠ w.vt q + k → s'.mem a = s.mem a) := by
  obtain ⟨a, e1, e⟩ := bind_ok e
  obtain ⟨b, e2, e⟩ := bind_ok e
  obtain ⟨c, e3, e⟩ := bind_ok e
  obtain ⟨d, e4, e⟩ := bind_ok e
  obtain ⟨g, e5, e⟩ := bind_ok e
  obtain ⟨k, e6, e⟩ := bind_ok e
  cases e
  have k1 := ((findEngine_keep hq e1).trans (getBridge_keep hq e2)).trans (callPre_keep hq e3)
  have k2 : Keep c d.1 [f] ∧ .ret (.code f) d.2 ∈ d.1.log := by
    unfold callInit at e4
    rw [k1.origInit, ho] at e4
    exact invoke_own hq hf e4
  have k3 := k1.trans k2.1
  obtain ⟨h1, h2, h3, h4, h5, h6, h7⟩ := afterInit_keep hq e5
  have hm : s'.mem = upd g.mem (w.vt p + initSlot s.isS2) (g.origInit.getD 0) ∧ s'.log = g.log ∧ s'.origShutdown = g.origShutdown := by
    unfold patchInit at e6
    rw [h1, k3.iface, hp] at e6
    dsimp only at e6
    rw [if_neg (by simp)] at e6
    cases e6
    exact ⟨by rw [h2, k3.isS2], rfl, rfl⟩
  cases hb : d.1.gdBridge with
  | none =>
    left
    intro x hx
    unfold afterInit at e5
    rw [if_neg hv, hb] at e5
    cases e5
    rw [hm.1, upd, if_neg hx, k3.mem]
  | some bb =>
    right
    obtain ⟨q, j, g1, g2, g3, g4⟩ := afterInit_slot hq hb hv e5
    refine ⟨q, j, ⟨fun h => ?_, fun h => ?_⟩, by rw [hm.2.1]; exact g2, fun hx => ?_, ?_, fun x hx hy => ?_⟩
    · rw [← k3.config]; exact g1.1 (by rw [k3.isS2]; exact h)
    · rw [← k3.iface]; exact g1.2 (by rw [k3.isS2]; exact h)
    · rw [hm.1, upd, if_neg hx, g3, upd, if_pos rfl]
    · rw [hm.2.2, g4, k3.mem]
    · rw [hm.1, upd, if_neg hx, g3, upd, if_neg hy, k3.mem]

/-- A game whose functions are all 9 and a loader that patched it. -/
def patched : St := { init (fun a => if a = 500 then 1 else 9) with iface := some 5, origInit := some 9 }

def resMem (a : Nat) : R (St × Nat) → Option (Nat × Nat × List Nat)
  | .ok r => some (r.1.mem a, r.2, codes r.1.log)
  | .error _ => none

example : Quiet (calm game) ∧ Own w0 9 ∧ resMem 500 (dllInit w0 (calm game) (invoke w0 (calm game) 3) false patched) = some (9, 1, [9]) := by
  refine ⟨?_, by unfold Own; decide, by decide +kernel⟩
  intro c n s s' a e
  cases e
  exact .refl _

/-- `shutdown_slot_partial`: the second engine, with the config interface 7, and the first engine; the core answers index 2. -/
example : resMem 702 (dllInit w0 (calm game) (invoke w0 (calm game) 3) true { patched with isS2 := true, config := some 7 }) = some (w0.tShutdown, 1, [9]) ∧
    resMem 502 (dllInit w0 (calm game) (invoke w0 (calm game) 3) false patched) = some (w0.tShutdown, 1, [9]) := by decide +kernel

/-- C45, partial: the same for the second engine's `Connect`. -/
theorem connect_undone_partial {w : World} {h : Beh} (hq : Quiet h) {n : Nat} {s s' : St} {v p f : Nat}
    (hp : s.config = some p) (ho : s.origConnect = some f) (hf : Own w f) (e : connect w (invoke w h n) s = .ok (s', v)) :
    s'.mem (w.vt p) = f ∧ s'.origConnect = none ∧ codes s'.log = codes s.log ++ [f] ∧ .ret (.code f) v ∈ s'.log ∧ (∀ a, a ≠ w.vt p → s'.mem a = s.mem a) := by
  unfold connect at e
  rw [ho] at e
  obtain ⟨x, e1, e⟩ := bind_ok e
  obtain ⟨y, e2, e⟩ := bind_ok e
  cases e
  obtain ⟨k, hk⟩ := invoke_own hq hf e1
  unfold patchConnect at e2
  rw [k.config, hp] at e2
  dsimp only at e2
  rw [if_neg (by simp)] at e2
  cases e2
  rw [k.origConnect, ho]
  refine ⟨by simp [upd], rfl, ?_, hk, fun a ha => ?_⟩
  · exact k.codes
  · dsimp only [upd]
    rw [if_neg ha, k.mem]

example : resMem 500 (connect w0 (invoke w0 (calm game) 3) { init (fun a => if a = 500 then 3 else 9) with config := some 5, origConnect := some 9 }) =
    some (9, 1, [9]) := by decide +kernel

/-! ### From the request to the call -/

theorem detectInfo_keep {h : Beh} (hq : Quiet h) {s : St} {r : St × Bool} (e : detectInfo h s = .ok r) : Keep s r.1 [] := by
  unfold detectInfo at e
  split at e
  · cases e; exact .refl _
  · obtain ⟨x, e1, e⟩ := bind_ok e
    have h1 : Keep s x.1 [] := .via (ext_keep hq e1 (by simp)) (.same rfl rfl rfl rfl rfl rfl rfl)
    split at e
    · cases e; exact h1
    · cases e; exact h1.trans (.same rfl rfl rfl rfl rfl rfl rfl)

theorem cacheLib_keep {h : Beh} (hq : Quiet h) {i : Nat} {s : St} {r : St × Option Nat} (e : cacheLib h i s = .ok r) : Keep s r.1 [] := by
  unfold cacheLib at e
  split at e
  · cases e; exact .refl _
  · obtain ⟨x, e1, e⟩ := bind_ok e
    have h1 := ext_keep hq e1 (by simp)
    split at e <;> cases e
    · exact h1
    · exact h1.trans (.same rfl rfl rfl rfl rfl rfl rfl)

theorem tryLib_keep {h : Beh} (hq : Quiet h) {name : List Byte} {i : Nat} {s : St} {r : St × Option (Nat × Nat)} (e : tryLib h name i s = .ok r) : Keep s r.1 [] := by
  obtain ⟨x, e1, e⟩ := bind_ok e
  have h1 := cacheLib_keep hq e1
  split at e
  · cases e; exact h1
  · obtain ⟨y, e2, e⟩ := bind_ok e
    have h2 := h1.trans (extIn_keep hq e2 (by simp))
    split at e
    · cases e; exact h2
    · obtain ⟨z, e3, e⟩ := bind_ok e
      have h3 := h2.trans (extIn_keep hq e3 (by simp))
      split at e <;> cases e
      · exact h3
      · exact h3.trans (.same rfl rfl rfl rfl rfl rfl rfl)

theorem search_keep {h : Beh} (hq : Quiet h) {name : List Byte} (n : Nat) : ∀ {i : Nat} {s : St} {r : St × Option (Nat × Nat)},
    search h name n i s = .ok r → Keep s r.1 [] := by
  induction n with
  | zero => intro i s r e; cases e; exact .refl _
  | succ n ih =>
    intro i s r e
    unfold search at e
    split at e
    · obtain ⟨x, e1, e⟩ := bind_ok e
      have h1 := tryLib_keep hq e1
      split at e
      · cases e; exact h1
      · exact h1.trans (ih e)
    · cases e; exact .refl _

theorem freeCached_keep (n : Nat) : ∀ {i : Nat} {s s' : St}, freeCached n i s = .ok s' → Keep s s' [] := by
  induction n with
  | zero => intro i s s' e; cases e; exact .refl _
  | succ n ih =>
    intro i s s' e
    unfold freeCached at e
    split at e
    · split at e
      · exact ih e
      · obtain ⟨x, e1, e⟩ := bind_ok e
        exact (closeLib_keep e1).trans (ih e)
    · cases e; exact .refl _

theorem tookGame_patch {w : World} {l p : Nat} {s s' : St} (e : tookGame w l p s = .ok s') :
    s'.iface = some p ∧ s'.isS2 = s.isS2 ∧ s'.origInit = some (s.mem (w.vt p + initSlot s.isS2)) ∧ s'.mem = upd s.mem (w.vt p + initSlot s.isS2) (w.tInit s.isS2) ∧
      codes s'.log = codes s.log := by
  obtain ⟨x, e1, e⟩ := bind_ok e
  have k := freeCached_keep _ e1
  unfold patchInit at e
  dsimp only at e
  rw [if_pos rfl] at e
  cases e
  refine ⟨rfl, k.isS2, by rw [k.mem, k.isS2], by rw [k.mem, k.isS2], by simpa using k.codes⟩

theorem tookConfig_patch {w : World} {l p : Nat} {s s' : St} (e : tookConfig w l p s = .ok s') :
    s'.config = some p ∧ s'.origConnect = some (s.mem (w.vt p)) ∧ s'.mem = upd s.mem (w.vt p) w.tConnect ∧ codes s'.log = codes s.log ∧ s'.isS2 = s.isS2 := by
  obtain ⟨x, e1, e⟩ := bind_ok e
  have k := freeCached_keep _ e1
  unfold patchConnect at e
  dsimp only at e
  rw [if_pos rfl] at e
  cases e
  refine ⟨rfl, by rw [k.mem], by rw [k.mem], by simpa using k.codes, k.isS2⟩

/-- C45: a successful request for the game of the first engine replaces exactly the slot of `DLLInit` and remembers what
was there. -/
theorem requestGame_patches {w : World} {h : Beh} (hq : Quiet h) {name : List Byte} {s s' : St} {p : Nat} (hp : p ≠ 0) (e : requestGame w h name s = .ok (s', p)) :
    s'.iface = some p ∧ s'.isS2 = s.isS2 ∧ s'.origInit = some (s.mem (w.vt p + initSlot s.isS2)) ∧ s'.mem = upd s.mem (w.vt p + initSlot s.isS2) (w.tInit s.isS2) ∧
      codes s'.log = codes s.log := by
  obtain ⟨x, e1, e⟩ := bind_ok e
  have k1 := detectInfo_keep hq e1
  split at e
  · cases e; exact absurd rfl hp
  · obtain ⟨y, e2, e⟩ := bind_ok e
    have k2 := k1.trans (search_keep hq _ e2)
    split at e
    · cases e; exact absurd rfl hp
    · obtain ⟨z, e3, e⟩ := bind_ok e
      cases e
      obtain ⟨h1, h2, h3, h4, h5⟩ := tookGame_patch e3
      rw [k2.mem, k2.isS2] at h3 h4
      exact ⟨h1, h2.trans k2.isS2, h3, h4, by rw [h5]; simpa using k2.codes⟩

theorem requestConfig_patches {w : World} {h : Beh} (hq : Quiet h) {name : List Byte} {s s' : St} {p : Nat} (hp : p ≠ 0) (e : requestConfig w h name s = .ok (s', p)) :
    s'.config = some p ∧ s'.origConnect = some (s.mem (w.vt p)) ∧ s'.mem = upd s.mem (w.vt p) w.tConnect ∧ codes s'.log = codes s.log ∧ s'.isS2 = true := by
  obtain ⟨x, e1, e⟩ := bind_ok e
  have k1 : (x.1.mem = s.mem) ∧ codes x.1.log = codes s.log := ⟨(detectInfo_keep hq e1).mem, by simpa using (detectInfo_keep hq e1).codes⟩
  split at e
  · cases e; exact absurd rfl hp
  · obtain ⟨y, e2, e⟩ := bind_ok e
    have k2 := search_keep hq _ e2
    split at e
    · cases e; exact absurd rfl hp
    · obtain ⟨z, e3, e⟩ := bind_ok e
      cases e
      obtain ⟨h1, h2, h3, h4, h5⟩ := tookConfig_patch e3
      rw [k2.mem, k1.1] at h2 h3
      exact ⟨h1, h2, h3, by rw [h4, ← k1.2]; simpa using k2.codes, by rw [h5, k2.isS2, (detectInfo_keep hq e1).isS2]⟩

/-- C45, partial: request and first call of the first engine's game together leave its memory as it was, but for the shutdown
slot, with one call of the original. -/
theorem game_roundtrip_partial {w : World} {h g : Beh} (hq : Quiet h) (hq' : Quiet g) {name : List Byte} {n : Nat} {s s1 s2 : St} {p v : Nat} (hp : p ≠ 0) (hs : s.isS2 = false)
    (hf : Own w (s.mem (w.vt p))) (e : requestGame w h name s = .ok (s1, p)) (e' : invoke w g n (s1.mem (w.vt p)) s1 = .ok (s2, v)) :
    s2.mem (w.vt p) = s.mem (w.vt p) ∧ codes s2.log = codes s.log ++ [s.mem (w.vt p)] ∧ .ret (.code (s.mem (w.vt p))) v ∈ s2.log ∧
      (∀ a, s2.mem a = s.mem a ∨ (v ≠ 0 ∧ s2.mem a = w.tShutdown ∧ s2.origShutdown = some (s.mem a))) := by
  obtain ⟨h1, h2, h3, h4, h5⟩ := requestGame_patches hq hp e
  rw [hs] at h2 h3 h4
  rw [show w.vt p + initSlot false = w.vt p from rfl] at h3 h4
  rw [h4] at e'
  cases n with
  | zero => cases e'
  | succ n =>
    unfold invoke at e'
    rw [if_pos (by simp [upd, World.tInit])] at e'
    obtain ⟨g1, g2, g3, g4, g5⟩ := init_undone_partial hq' h1 h3 hf e'
    rw [h2, show w.vt p + initSlot false = w.vt p from rfl] at g1 g5
    refine ⟨g1, by rw [g3, h5], g4, fun a => ?_⟩
    by_cases ha : a = w.vt p
    · subst ha; exact .inl g1
    · have := g5 a ha
      rw [h4] at this
      simpa [upd, ha] using this

/-- C45, partial: the same for `Connect` of the second engine's configuration; here nothing at all is left changed. -/
theorem config_roundtrip_partial {w : World} {h g : Beh} (hq : Quiet h) (hq' : Quiet g) {name : List Byte} {n : Nat} {s s1 s2 : St} {p v : Nat} (hp : p ≠ 0)
    (hw : w.tConnect ≠ w.tInit1 ∧ w.tConnect ≠ w.tInit2) (hf : Own w (s.mem (w.vt p))) (e : requestConfig w h name s = .ok (s1, p))
    (e' : invoke w g n (s1.mem (w.vt p)) s1 = .ok (s2, v)) :
    s2.mem = s.mem ∧ codes s2.log = codes s.log ++ [s.mem (w.vt p)] ∧ .ret (.code (s.mem (w.vt p))) v ∈ s2.log := by
  obtain ⟨h1, h3, h4, h5, _⟩ := requestConfig_patches hq hp e
  rw [h4] at e'
  cases n with
  | zero => cases e'
  | succ n =>
    unfold invoke at e'
    have hx : upd s.mem (w.vt p) w.tConnect (w.vt p) = w.tConnect := by simp [upd]
    rw [hx, if_neg hw.1, if_neg hw.2, if_pos rfl] at e'
    obtain ⟨g1, g2, g3, g4, g5⟩ := connect_undone_partial hq' h1 h3 hf e'
    refine ⟨funext fun a => ?_, by rw [g3, h5], g4⟩
    by_cases ha : a = w.vt p
    · subst ha; exact g1
    · rw [g5 a ha, h4]; simp [upd, ha]

theorem askGame_keep {h : Beh} (hq : Quiet h) {name : List Byte} {s : St} {r : St × Nat} (e : askGame h name s = .ok r) : Keep s r.1 [] := by
  unfold askGame at e
  split at e
  · cases e
  · obtain ⟨x, e1, e⟩ := bind_ok e
    cases e
    exact extIn_keep hq e1 (by simp)

/-- C45: a request for the second engine's server replaces exactly the slot of `Init`. -/
theorem requestS2_patches {w : World} {h : Beh} (hq : Quiet h) {name : List Byte} {s s' : St} {p : Nat} (hs : s.isS2 = true) (e : requestS2 w h name s = .ok (s', p)) :
    s'.iface = some p ∧ s'.isS2 = true ∧ s'.origInit = some (s.mem (w.vt p + 3)) ∧ s'.mem = upd s.mem (w.vt p + 3) w.tInit2 ∧ codes s'.log = codes s.log := by
  obtain ⟨x, e1, e⟩ := bind_ok e
  obtain ⟨y, e2, e⟩ := bind_ok e
  cases e
  have k := askGame_keep hq e1
  unfold patchInit at e2
  split at e2
  · cases e2
  · rename_i q hq
    dsimp only at hq e2
    split at hq
    · cases hq
    · cases hq
      rw [if_pos rfl] at e2
      cases e2
      rw [k.isS2, hs, k.mem]
      exact ⟨if_neg ‹_›, rfl, rfl, rfl, by simpa using k.codes⟩

/-- The hypotheses of the three `_patches` theorems are met: the requests return with the slots of the right kind replaced. -/
example : resMem 500 (requestGame w0 (calm game) (bytes "ServerGameDLL005") (init id)) = some (1, 5, []) ∧
    resMem 500 (requestConfig w0 (calm game) (bytes "Source2ServerConfig001") (init id)) = some (3, 5, []) ∧
    resMem 503 (requestS2 w0 (calm game) (bytes "Source2Server001") { init id with isS2 := true, qvi := some 1, opened := [1] }) = some (2, 5, []) := by
  decide +kernel

/-- C45, partial: the round trip for the second engine's `Init`. -/
theorem s2_roundtrip_partial {w : World} {h g : Beh} (hq : Quiet h) (hq' : Quiet g) {name : List Byte} {n : Nat} {s s1 s2 : St} {p v : Nat} (hs : s.isS2 = true)
    (hw : w.tInit2 ≠ w.tInit1) (hf : Own w (s.mem (w.vt p + 3))) (e : requestS2 w h name s = .ok (s1, p)) (e' : invoke w g n (s1.mem (w.vt p + 3)) s1 = .ok (s2, v)) :
    s2.mem (w.vt p + 3) = s.mem (w.vt p + 3) ∧ codes s2.log = codes s.log ++ [s.mem (w.vt p + 3)] ∧ .ret (.code (s.mem (w.vt p + 3))) v ∈ s2.log ∧
      (∀ a, s2.mem a = s.mem a ∨ (v ≠ 0 ∧ s2.mem a = w.tShutdown ∧ s2.origShutdown = some (s.mem a))) := by
  obtain ⟨h1, h2, h3, h4, h5⟩ := requestS2_patches hq hs e
  rw [h4] at e'
  cases n with
  | zero => cases e'
  | succ n =>
    unfold invoke at e'
    have hx : upd s.mem (w.vt p + 3) w.tInit2 (w.vt p + 3) = w.tInit2 := by simp [upd]
    rw [hx, if_neg hw, if_pos rfl] at e'
    obtain ⟨g1, g2, g3, g4, g5⟩ := init_undone_partial hq' h1 h3 hf e'
    rw [h2, show w.vt p + initSlot true = w.vt p + 3 from rfl] at g1 g5
    refine ⟨g1, by rw [g3, h5], g4, fun a => ?_⟩
    by_cases ha : a = w.vt p + 3
    · subst ha; exact .inl g1
    · have := g5 a ha
      rw [h4] at this
      simpa [upd, ha] using this

def resSlots (as : List Nat) : R (St × Nat × Int) → Option (List Nat × List Nat)
  | .ok r => some (as.map r.1.mem, codes r.1.log)
  | .error _ => none

/-- The game's memory has function `a` at `a`. -/
example : resSlots [500, 501, 502, 503] (exec w0 5 (prog game [.create (bytes "ServerGameDLL005"), .slot 5 0]) (init id)) = some ([500, 501, 4, 503], [500]) ∧
    resSlots [500, 501, 502, 503] (exec w0 5 (prog game [.create (bytes "Source2ServerConfig001"), .slot 5 0]) (init id)) = some ([500, 501, 502, 503], [500]) ∧
    resSlots [500, 501, 502, 503] (exec w0 5 (prog game [.create (bytes "Source2ServerConfig001"), .slot 5 0, .create (bytes "Source2Server001"), .slot 5 3]) (init id)) =
      some ([500, 501, 4, 503], [500, 503]) := by decide +kernel

/-! ### Findings -/

/-- No core can be loaded and the game's `DLLInit` fails. -/
def failing (c : Call) : Nat :=
  match c with
  | .openCore _ => 0
  | .code _ => 0
  | c => game c

/-- C45 fails if the original fails while no core is active: `gamedll_bridge->Unload()` on NULL
(loader/gamedll.cpp:551-555). -/
theorem failed_init_null : resFault (exec w0 5 (prog failing [.create (bytes "ServerGameDLL005"), .slot 5 0]) (init id)) = some .nullDeref := by
  decide +kernel

/-- The same for any game and any failure: the fault is certain. -/
theorem failed_init_always {w : World} {h : Beh} {s : St} (hb : s.gdBridge = none) : afterInit w h 0 s = .error .nullDeref := by
  unfold afterInit
  rw [if_pos rfl, hb]

example : (init id).gdBridge = none := rfl

theorem recurses {w : World} {s : St} (ho : s.origInit = some w.tInit1) : ∀ n, invoke w (calm game) n w.tInit1 s = .error .fuel := by
  intro n
  induction n generalizing s with
  | zero => rfl
  | succ n ih =>
    unfold invoke
    rw [if_pos rfl]
    unfold dllInit
    have e1 : findEngine (calm game) false s = .ok { (s.note (.call .engine s.detected)).note (.ret .engine 15) with backend := 15 } := rfl
    rw [e1]
    simp only [bind, Except.bind]
    unfold getBridge
    rw [if_neg (by simp)]
    simp only [loadCore, coreSym, ext, extIn, calm, game, bind, Except.bind, St.note]
    simp only [Nat.one_ne_zero, if_false, Bool.true_eq_false, List.mem_cons, true_or, if_true, ne_eq, not_false_eq_true, decide_true]
    unfold callPre
    simp only [ext, extIn, calm, game, bind, Except.bind, St.note]
    simp only [Nat.one_ne_zero, if_false, List.mem_cons, true_or, if_true]
    unfold callInit
    dsimp only
    rw [ho]
    dsimp only
    rw [ih (by simp)]

/-- The state after a call, if it returned. -/
def after (s : St) : R (St × Nat) → St
  | .ok r => r.1
  | .error _ => s

def answer : R (St × Nat) → Option Nat
  | .ok r => some r.2
  | .error _ => none

theorem after_eq {s : St} {v : Nat} {r : R (St × Nat)} (h : answer r = some v) : r = .ok (after s r, v) := by
  cases r with
  | error f => cases h
  | ok r => obtain ⟨a, b⟩ := r; cases h; rfl

/-- C45 fails if the game's interface is requested twice before it is initialised: both requests succeed, the remembered
original is then the loader's own function, and the engine's call never ends, whatever the depth of the stack (release
builds; the `assert` in loader/gamedll.cpp:643 is compiled out). -/
theorem requested_twice_recurses : ∃ s1 s2,
    run w0 0 (calm game) (.create (bytes "ServerGameDLL005")) (init id) = .ok (s1, 1) ∧ run w0 0 (calm game) (.create (bytes "ServerGameDLL005")) s1 = .ok (s2, 1) ∧
      ∀ n, run w0 n (calm game) (.slot 5 0) s2 = .error .fuel := by
  refine ⟨after (init id) (run w0 0 (calm game) (.create (bytes "ServerGameDLL005")) (init id)),
    after (init id) (run w0 0 (calm game) (.create (bytes "ServerGameDLL005")) (after (init id) (run w0 0 (calm game) (.create (bytes "ServerGameDLL005")) (init id)))),
    after_eq (by decide +kernel), after_eq (by decide +kernel), fun n => ?_⟩
  have h1 : ∀ {s : St}, s.mem (w0.vt 5 + 0) = w0.tInit1 → s.origInit = some w0.tInit1 → run w0 n (calm game) (.slot 5 0) s = .error .fuel := by
    intro s h1 h2
    show invoke w0 (calm game) n (s.mem (w0.vt 5 + 0)) s = _
    rw [h1]
    exact recurses h2 n
  exact h1 (by decide +kernel) (by decide +kernel)

/-- A game that has no server interface. -/
def noServer (c : Call) : Nat :=
  match c with
  | .ask _ n => if n = bytes "Source2Server001" then 0 else 5
  | c => game c

/-- The second engine's server object is patched even if the game answered NULL for it: its table is read through NULL
(loader/gamedll.cpp:823-834, 623-625). -/
theorem s2_null_answer :
    resFault (exec w0 5 (prog noServer [.create (bytes "Source2ServerConfig001"), .slot 5 0, .create (bytes "Source2Server001")]) (init id)) = some .nullDeref := by
  decide +kernel

/-- The same for any game: a request that is answered NULL never returns. -/
theorem s2_null_always {w : World} {h : Beh} {name : List Byte} {s : St} {r : St × Nat} (e : askGame h name s = .ok r) (hr : r.2 = 0) :
    requestS2 w h name s = .error .nullDeref := by
  unfold requestS2
  simp only [e, bind, Except.bind]
  rw [if_pos hr]
  rfl

example : ∃ r, askGame (calm noServer) (bytes "Source2Server001") { init id with qvi := some 1, opened := [1] } = .ok r ∧ r.2 = 0 := ⟨_, rfl, rfl⟩

#print axioms init_undone_partial
#print axioms shutdown_slot_partial
#print axioms connect_undone_partial
#print axioms requestGame_patches
#print axioms requestConfig_patches
#print axioms requestS2_patches
#print axioms game_roundtrip_partial
#print axioms config_roundtrip_partial
#print axioms s2_roundtrip_partial
#print axioms failed_init_null
#print axioms failed_init_always
#print axioms requested_twice_recurses
#print axioms s2_null_answer
#print axioms s2_null_always

end Verif.Loader
