import Verif.Loader.PatchProps
/-
Invariant of libraries and bridges, for external code that does not call the loader again.
-/
namespace Verif.Loader

/-- External code that does not call the loader: it changes at most the game's memory. -/
def Alone (h : Beh) : Prop := ∀ c n s s' a, h c n s = .ok (s', a) → s' = { s with mem := s'.mem }

/-- Everything about libraries and bridges is the same. -/
structure Same (s s' : St) : Prop where
  gd : s'.gdBridge = s.gdBridge
  core : s'.core = s.core
  opened : s'.opened = s.opened
  lib : s'.lib = s.lib
  libs : s'.libs = s.libs
  next : s'.next = s.next
  vsp : s'.vspBridge = s.vspBridge
  version : s'.version = s.version
  npaths : s'.npaths = s.npaths
  detected : s'.detected = s.detected

theorem Same.refl (s : St) : Same s s := ⟨rfl, rfl, rfl, rfl, rfl, rfl, rfl, rfl, rfl, rfl⟩

theorem Same.trans {a b c : St} (h : Same a b) (g : Same b c) : Same a c :=
  ⟨g.gd.trans h.gd, g.core.trans h.core, g.opened.trans h.opened, g.lib.trans h.lib, g.libs.trans h.libs, g.next.trans h.next,
    g.vsp.trans h.vsp, g.version.trans h.version, g.npaths.trans h.npaths, g.detected.trans h.detected⟩

theorem ext_same {h : Beh} (ha : Alone h) {c : Call} {s : St} {r : St × Nat × Int} (e : ext h c s = .ok r) :
    Same s r.1 ∧ r.1.log = s.log ++ [.call c s.detected, .ret c r.2.1] := by
  obtain ⟨x, e1, e⟩ := bind_ok e
  cases e
  have := ha _ _ _ _ _ e1
  generalize x.1 = y at *
  rw [this]
  exact ⟨⟨rfl, rfl, rfl, rfl, rfl, rfl, rfl, rfl, rfl, rfl⟩, by simp [St.note]⟩

theorem extIn_same {h : Beh} (ha : Alone h) {l : Nat} {c : Call} {s : St} {r : St × Nat × Int} (e : extIn h l c s = .ok r) :
    Same s r.1 ∧ r.1.log = s.log ++ [.call c s.detected, .ret c r.2.1] := by
  unfold extIn at e
  split at e
  · exact ext_same ha e
  · cases e

/-- A library of the game, not the core. -/
def Game (s : St) (l : Nat) : Prop := l < s.next ∧ s.core ≠ some l ∧ s.gdBridge ≠ some l

/-- The bridge and the core are open libraries, and no library of the game is one of them. -/
structure BInv (s : St) : Prop where
  br : ∀ b, s.gdBridge = some b → b ∈ s.opened ∧ b < s.next ∧ (s.core = none ∨ s.core = some b)
  core : ∀ c, s.core = some c → c ∈ s.opened ∧ c < s.next
  lib : ∀ l, s.lib = some l → Game s l
  libs : ∀ i l, s.libs i = some l → Game s l

theorem Same.game {s s' : St} (h : Same s s') {l : Nat} (g : Game s l) : Game s' l := by
  unfold Game at *
  rw [h.next, h.core, h.gd]
  exact g

theorem Same.inv {s s' : St} (h : Same s s') (i : BInv s) : BInv s' := by
  refine ⟨?_, ?_, ?_, ?_⟩
  · rw [h.gd, h.opened, h.next, h.core]; exact i.br
  · rw [h.opened, h.next, h.core]; exact i.core
  · rw [h.lib]; exact fun l hl => h.game (i.lib l hl)
  · rw [h.libs]; exact fun k l hl => h.game (i.libs k l hl)

theorem closeLib_game {l : Nat} {s s' : St} (i : BInv s) (g : Game s l) (e : closeLib (some l) s = .ok s') :
    BInv s' ∧ (∀ k, Game s k → Game s' k) ∧ s'.lib = s.lib ∧ s'.libs = s.libs ∧ s'.npaths = s.npaths ∧ s'.vspBridge = s.vspBridge := by
  unfold closeLib at e
  dsimp only at e
  split at e
  · cases e
    refine ⟨⟨fun b hb => ?_, fun c hc => ?_, i.lib, i.libs⟩, fun _ h => h, rfl, rfl, rfl, rfl⟩
    · obtain ⟨h1, h2⟩ := i.br b hb
      exact ⟨List.mem_filter.2 ⟨h1, by simp only [ne_eq, decide_eq_true_eq]; rintro rfl; exact g.2.2 hb⟩, h2⟩
    · obtain ⟨h1, h2⟩ := i.core c hc
      exact ⟨List.mem_filter.2 ⟨h1, by simp only [ne_eq, decide_eq_true_eq]; rintro rfl; exact g.2.1 hc⟩, h2⟩
  · cases e

/-- Closing the core is safe once nothing points to it. -/
theorem unloadCore_inv {s s' : St} (i : BInv s) (hb : ∀ b, s.gdBridge = some b → s.core ≠ some b) (e : unloadCore s = .ok s') :
    BInv s' ∧ s'.gdBridge = s.gdBridge ∧ s'.core = none ∧ s'.vspBridge = s.vspBridge := by
  obtain ⟨x, e1, e⟩ := bind_ok e
  cases e
  unfold closeLib at e1
  split at e1
  · cases e1
  · rename_i c hc
    split at e1
    · cases e1
      refine ⟨⟨fun b hb' => ?_, (fun _ h => nomatch h), fun l hl => ?_, fun k l hl => ?_⟩, rfl, rfl, rfl⟩
      · obtain ⟨h1, h2, h3⟩ := i.br b hb'
        exact ⟨List.mem_filter.2 ⟨h1, by simp only [ne_eq, decide_eq_true_eq]; rintro rfl; exact hb _ hb' hc⟩, h2, .inl rfl⟩
      · have := i.lib l hl; exact ⟨this.1, nofun, this.2.2⟩
      · have := i.libs k l hl; exact ⟨this.1, nofun, this.2.2⟩
    · cases e1

theorem clearBridge_inv {s : St} (i : BInv s) : BInv { s with gdBridge := none } :=
  ⟨(fun _ h => nomatch h), i.core, fun l hl => ⟨(i.lib l hl).1, (i.lib l hl).2.1, nofun⟩, fun k l hl => ⟨(i.libs k l hl).1, (i.libs k l hl).2.1, nofun⟩⟩

theorem loadCore_inv {h : Beh} (ha : Alone h) {s : St} (i : BInv s) {r : St × Bool} (e : loadCore h s = .ok r) :
    r.1.gdBridge = s.gdBridge ∧ r.1.vspBridge = s.vspBridge ∧ r.1.version = s.version ∧
      (r.2 = false → BInv r.1) ∧ (s.gdBridge = none → BInv r.1) ∧
      (r.2 = true → r.1.core = some s.next ∧ s.next ∈ r.1.opened ∧ s.next < r.1.next ∧ (∀ b, b ∈ s.opened → b ∈ r.1.opened) ∧ s.next ≤ r.1.next ∧
        (∀ l, r.1.lib = some l → l < s.next ∧ s.gdBridge ≠ some l) ∧ (∀ k l, r.1.libs k = some l → l < s.next ∧ s.gdBridge ≠ some l)) := by
  obtain ⟨x, e1, e⟩ := bind_ok e
  obtain ⟨k, _⟩ := ext_same ha e1
  have ix := k.inv i
  split at e
  · cases e
    have iy : BInv { x.1 with core := none } :=
      ⟨fun b hb => ⟨(ix.br b hb).1, (ix.br b hb).2.1, .inl rfl⟩, (fun _ h => nomatch h), fun l hl => ⟨(ix.lib l hl).1, nofun, (ix.lib l hl).2.2⟩,
        fun n l hl => ⟨(ix.libs n l hl).1, nofun, (ix.libs n l hl).2.2⟩⟩
    exact ⟨k.gd, k.vsp, k.version, fun _ => iy, fun _ => iy, nofun⟩
  · cases e
    refine ⟨k.gd, k.vsp, k.version, nofun, fun hn => ?_, fun _ => ?_⟩
    · refine ⟨fun b hb => ?_, fun c hc => ?_, fun l hl => ?_, fun n l hl => ?_⟩
      · have : x.1.gdBridge = some b := hb
        rw [k.gd, hn] at this; cases this
      · cases hc
        exact ⟨.head _, Nat.lt_succ_self _⟩
      · obtain ⟨h1, h2, h3⟩ := ix.lib l hl
        exact ⟨Nat.lt_succ_of_lt h1, fun h => by cases h; exact absurd h1 (Nat.lt_irrefl _), h3⟩
      · obtain ⟨h1, h2, h3⟩ := ix.libs n l hl
        exact ⟨Nat.lt_succ_of_lt h1, fun h => by cases h; exact absurd h1 (Nat.lt_irrefl _), h3⟩
    · dsimp only
      rw [k.next, k.opened, k.lib, k.libs]
      exact ⟨rfl, .head _, Nat.lt_succ_self _, fun b hb => .tail _ hb, Nat.le_succ _, fun l hl => ⟨(i.lib l hl).1, (i.lib l hl).2.2⟩,
        fun n l hl => ⟨(i.libs n l hl).1, (i.libs n l hl).2.2⟩⟩

theorem getBridge_inv {h : Beh} (ha : Alone h) {s2 : Bool} {s s' : St} (i : BInv s) (e : getBridge h s2 s = .ok s') : BInv s' := by
  unfold getBridge at e
  split at e
  · cases e; exact i
  · obtain ⟨x, e1, e⟩ := bind_ok e
    obtain ⟨h1, _, _, h2, _, h3⟩ := loadCore_inv ha i e1
    split at e
    · rename_i hx
      cases e; exact h2 hx
    · rename_i hx
      obtain ⟨g1, g2, g3, g4, g5, g6, g7⟩ := h3 (by simpa using hx)
      obtain ⟨y, e2, e⟩ := bind_ok e
      have k : Same x.1 y.1 := by
        unfold coreSym at e2
        split at e2
        · cases e2
        · obtain ⟨z, e3, e2⟩ := bind_ok e2
          cases e2
          exact (extIn_same ha e3).1
      have hc : y.1.core = some s.next := k.core.trans g1
      -- the new library is open, older ones are not it
      have key : ∀ t : St, t.core = none ∨ t.core = some s.next → t.opened = y.1.opened.filter (· ≠ s.next) ∧ t.core = none ∧ t.gdBridge = s.gdBridge ∨
          t.opened = y.1.opened ∧ t.gdBridge = some s.next ∧ t.core = some s.next → t.next = y.1.next → t.lib = y.1.lib → t.libs = y.1.libs → BInv t := by
        intro t _ ht hn hl hls
        have hlt : s.next < t.next := by rw [hn, k.next]; exact g3
        have old : ∀ l, l < s.next ∧ s.gdBridge ≠ some l → Game t l := fun l hl => by
          rcases ht with ⟨_, h1, h2⟩ | ⟨_, h1, h2⟩
          · exact ⟨by omega, by rw [h1]; nofun, by rw [h2]; exact hl.2⟩
          · exact ⟨by omega, by rw [h2]; intro h; cases h; omega, by rw [h1]; intro h; cases h; omega⟩
        refine ⟨fun b hb => ?_, fun c hc' => ?_, fun l hl' => ?_, fun n l hl' => ?_⟩
        · rcases ht with ⟨ho, h1, h2⟩ | ⟨ho, h1, h2⟩
          · rw [h2] at hb
            obtain ⟨a1, a2, a3⟩ := i.br b hb
            refine ⟨?_, by omega, .inl h1⟩
            rw [ho, k.opened]
            exact List.mem_filter.2 ⟨g4 _ a1, by simp; omega⟩
          · rw [h1] at hb
            cases hb
            exact ⟨by rw [ho, k.opened]; exact g2, hlt, .inr h2⟩
        · rcases ht with ⟨ho, h1, h2⟩ | ⟨ho, h1, h2⟩
          · rw [h1] at hc'; cases hc'
          · rw [h2] at hc'; cases hc'
            exact ⟨by rw [ho, k.opened]; exact g2, hlt⟩
        · rw [hl, k.lib] at hl'
          exact old l (g6 l hl')
        · rw [hls, k.libs] at hl'
          exact old l (g7 n l hl')
      split at e
      · obtain ⟨z, e3, e⟩ := bind_ok e
        cases e
        unfold closeLib at e3
        rw [hc] at e3
        dsimp only at e3
        split at e3
        · cases e3
          exact key _ (.inl rfl) (.inl ⟨rfl, rfl, k.gd.trans h1⟩) rfl rfl rfl
        · cases e3
      · cases e
        exact key _ (.inr hc) (.inr ⟨rfl, hc, hc⟩) rfl rfl rfl

theorem findEngine_same {h : Beh} (ha : Alone h) {s2 : Bool} {s s' : St} (e : findEngine h s2 s = .ok s') : Same s s' := by
  obtain ⟨x, e1, e⟩ := bind_ok e
  cases e
  exact (ext_same ha e1).1.trans ⟨rfl, rfl, rfl, rfl, rfl, rfl, rfl, rfl, rfl, rfl⟩

theorem callPre_inv {h : Beh} (ha : Alone h) {s s' : St} (i : BInv s) (e : callPre h s = .ok s') : BInv s' := by
  unfold callPre at e
  split at e
  · cases e; exact i
  · obtain ⟨x, e1, e⟩ := bind_ok e
    have ix := (extIn_same ha e1).1.inv i
    split at e
    · exact (unloadCore_inv (clearBridge_inv ix) (fun _ h => nomatch h) e).1
    · cases e; exact ix

theorem patchInit_same {w : World} {p : Bool} {s s' : St} (e : patchInit w p s = .ok s') : Same s s' := by
  unfold patchInit at e
  split at e
  · cases e
  · split at e <;> cases e <;> exact ⟨rfl, rfl, rfl, rfl, rfl, rfl, rfl, rfl, rfl, rfl⟩

theorem patchShutdown_same {w : World} {k : Nat} {s s' : St} (e : patchShutdown w k s = .ok s') : Same s s' := by
  unfold patchShutdown at e
  split at e
  · cases e
  · cases e; exact ⟨rfl, rfl, rfl, rfl, rfl, rfl, rfl, rfl, rfl, rfl⟩

theorem patchConnect_same {w : World} {p : Bool} {s s' : St} (e : patchConnect w p s = .ok s') : Same s s' := by
  unfold patchConnect at e
  split at e
  · cases e
  · split at e <;> cases e <;> exact ⟨rfl, rfl, rfl, rfl, rfl, rfl, rfl, rfl, rfl, rfl⟩

theorem afterInit_inv {w : World} {h : Beh} (ha : Alone h) {v : Nat} {s s' : St} (i : BInv s) (e : afterInit w h v s = .ok s') : BInv s' := by
  unfold afterInit at e
  split at e
  · split at e
    · cases e
    · rename_i b hb
      obtain ⟨x, e1, e⟩ := bind_ok e
      obtain ⟨y, e2, e⟩ := bind_ok e
      cases e
      have ix := (extIn_same ha e1).1.inv i
      obtain ⟨z, e3, e2⟩ := bind_ok e2
      cases e2
      have : unloadCore { x.1 with gdBridge := none } = .ok { z with gdBridge := none, core := none } := by
        unfold unloadCore
        unfold closeLib at e3 ⊢
        dsimp only
        split at e3
        · cases e3
        · rename_i hc
          rw [hc]
          split at e3
          · rename_i hm
            cases e3
            rw [if_pos hm]; rfl
          · cases e3
      exact (unloadCore_inv (clearBridge_inv ix) (fun _ h => nomatch h) this).1
  · split at e
    · cases e; exact i
    · obtain ⟨x, e1, e⟩ := bind_ok e
      exact (patchShutdown_same e).inv ((extIn_same ha e1).1.inv i)

/-- Calls of functions keep the invariant. -/
def BGood (c : Caller) : Prop := ∀ f s r, BInv s → c f s = .ok r → BInv r.1

theorem dllInit_inv {w : World} {h : Beh} (ha : Alone h) {c : Caller} (hc : BGood c) {s2 : Bool} {s : St} {r : St × Nat} (i : BInv s)
    (e : dllInit w h c s2 s = .ok r) : BInv r.1 := by
  obtain ⟨a, e1, e⟩ := bind_ok e
  obtain ⟨b, e2, e⟩ := bind_ok e
  obtain ⟨d, e3, e⟩ := bind_ok e
  obtain ⟨f, e4, e⟩ := bind_ok e
  obtain ⟨g, e5, e⟩ := bind_ok e
  obtain ⟨k, e6, e⟩ := bind_ok e
  cases e
  have i3 := callPre_inv ha (getBridge_inv ha ((findEngine_same ha e1).inv i) e2) e3
  have i4 : BInv f.1 := by
    unfold callInit at e4
    split at e4
    · cases e4
    · exact hc _ _ _ i3 e4
  exact (patchInit_same e6).inv (afterInit_inv ha i4 e5)

theorem dllShutdown_inv {h : Beh} (ha : Alone h) {c : Caller} (hc : BGood c) {s : St} {r : St × Nat} (i : BInv s) (e : dllShutdown h c s = .ok r) : BInv r.1 := by
  unfold dllShutdown at e
  split at e
  · cases e
  · obtain ⟨x, e1, e⟩ := bind_ok e
    have ix := (extIn_same ha e1).1.inv i
    obtain ⟨y, e2, e⟩ := bind_ok e
    have iy := (unloadCore_inv (clearBridge_inv ix) (fun _ h => nomatch h) e2).1
    split at e
    · cases e
    · obtain ⟨z, e3, e⟩ := bind_ok e
      obtain ⟨u, e4, e⟩ := bind_ok e
      cases e
      have iz := hc _ _ _ iy e3
      have iu : BInv u := by
        cases hl : z.1.lib with
        | none => rw [hl] at e4; cases e4
        | some l => rw [hl] at e4; exact (closeLib_game iz (iz.lib l hl) e4).1
      exact ⟨iu.br, iu.core, fun _ h => (nomatch h), iu.libs⟩

theorem invoke_inv {w : World} {h : Beh} (ha : Alone h) (n : Nat) : BGood (invoke w h n) := by
  induction n with
  | zero => intro f s r _ e; cases e
  | succ n ih =>
    intro f s r i e
    unfold invoke at e
    split at e
    · exact dllInit_inv ha ih i e
    split at e
    · exact dllInit_inv ha ih i e
    split at e
    · unfold connect at e
      split at e
      · cases e
      · obtain ⟨x, e1, e⟩ := bind_ok e
        obtain ⟨y, e2, e⟩ := bind_ok e
        cases e
        exact (patchConnect_same e2).inv (ih _ _ _ i e1)
    split at e
    · exact dllShutdown_inv ha ih i e
    split at e
    · cases e
    · obtain ⟨x, e1, e⟩ := bind_ok e
      cases e
      exact (ext_same ha e1).1.inv i

theorem detectInfo_inv {h : Beh} (ha : Alone h) {s : St} {r : St × Bool} (i : BInv s) (e : detectInfo h s = .ok r) : BInv r.1 := by
  unfold detectInfo at e
  split at e
  · cases e; exact i
  · obtain ⟨x, e1, e⟩ := bind_ok e
    have h1 := (ext_same ha e1).1
    have ix : BInv x.1 := h1.inv ⟨i.br, i.core, i.lib, i.libs⟩
    split at e <;> cases e
    · exact ix
    · exact ⟨ix.br, ix.core, ix.lib, ix.libs⟩

theorem cacheLib_inv {h : Beh} (ha : Alone h) {k : Nat} {s : St} {r : St × Option Nat} (i : BInv s) (e : cacheLib h k s = .ok r) :
    BInv r.1 ∧ ∀ l, r.2 = some l → Game r.1 l := by
  unfold cacheLib at e
  split at e
  · rename_i l hl
    cases e
    exact ⟨i, fun _ h => by cases h; exact i.libs k l hl⟩
  · obtain ⟨x, e1, e⟩ := bind_ok e
    have ix := (ext_same ha e1).1.inv i
    split at e <;> cases e
    · exact ⟨ix, nofun⟩
    · have up : ∀ l, Game x.1 l → Game { x.1 with libs := upd x.1.libs k (some x.1.next), opened := x.1.next :: x.1.opened, next := x.1.next + 1 } l :=
        fun l hl => ⟨Nat.lt_succ_of_lt hl.1, hl.2⟩
      have new : Game { x.1 with libs := upd x.1.libs k (some x.1.next), opened := x.1.next :: x.1.opened, next := x.1.next + 1 } x.1.next :=
        ⟨Nat.lt_succ_self _, fun h => Nat.lt_irrefl _ (ix.core _ h).2, fun h => Nat.lt_irrefl _ (ix.br _ h).2.1⟩
      refine ⟨⟨fun b hb => ?_, fun c hc => ?_, fun l hl => up l (ix.lib l hl), fun n l hl => ?_⟩, fun l hl => by cases hl; exact new⟩
      · obtain ⟨h1, h2, h3⟩ := ix.br b hb
        exact ⟨.tail _ h1, Nat.lt_succ_of_lt h2, h3⟩
      · obtain ⟨h1, h2⟩ := ix.core c hc
        exact ⟨.tail _ h1, Nat.lt_succ_of_lt h2⟩
      · dsimp only [upd] at hl
        split at hl
        · cases hl; exact new
        · exact up l (ix.libs n l hl)

theorem tryLib_inv {h : Beh} (ha : Alone h) {name : List Byte} {k : Nat} {s : St} {r : St × Option (Nat × Nat)} (i : BInv s) (e : tryLib h name k s = .ok r) :
    BInv r.1 ∧ ∀ l p, r.2 = some (l, p) → Game r.1 l := by
  obtain ⟨x, e1, e⟩ := bind_ok e
  obtain ⟨ix, gx⟩ := cacheLib_inv ha i e1
  dsimp only at e
  split at e
  · cases e; exact ⟨ix, nofun⟩
  · rename_i l hl
    obtain ⟨y, e2, e⟩ := bind_ok e
    have ky := (extIn_same ha e2).1
    split at e
    · cases e; exact ⟨ky.inv ix, nofun⟩
    · obtain ⟨z, e3, e⟩ := bind_ok e
      have kz := ky.trans (extIn_same ha e3).1
      have iz := kz.inv ix
      split at e <;> cases e
      · exact ⟨iz, nofun⟩
      · refine ⟨⟨iz.br, iz.core, iz.lib, fun n m hm => ?_⟩, fun _ _ hh => by cases hh; exact kz.game (gx l hl)⟩
        dsimp only [upd] at hm
        split at hm
        · cases hm
        · exact iz.libs n m hm

theorem search_inv {h : Beh} (ha : Alone h) {name : List Byte} (n : Nat) : ∀ {k : Nat} {s : St} {r : St × Option (Nat × Nat)}, BInv s →
    search h name n k s = .ok r → BInv r.1 ∧ ∀ l p, r.2 = some (l, p) → Game r.1 l := by
  induction n with
  | zero => intro k s r i e; cases e; exact ⟨i, nofun⟩
  | succ n ih =>
    intro k s r i e
    unfold search at e
    split at e
    · obtain ⟨x, e1, e⟩ := bind_ok e
      obtain ⟨ix, gx⟩ := tryLib_inv ha i e1
      split at e
      · rename_i hx
        cases e; exact ⟨ix, fun l p hh => by cases hh; exact gx l p hx⟩
      · exact ih ix e
    · cases e; exact ⟨i, nofun⟩

theorem freeCached_inv (n : Nat) : ∀ {k : Nat} {s s' : St}, BInv s → freeCached n k s = .ok s' → BInv s' ∧ ∀ l, Game s l → Game s' l := by
  induction n with
  | zero => intro k s s' i e; cases e; exact ⟨i, fun _ h => h⟩
  | succ n ih =>
    intro k s s' i e
    unfold freeCached at e
    split at e
    · split at e
      · exact ih i e
      · rename_i l hl
        obtain ⟨x, e1, e⟩ := bind_ok e
        obtain ⟨ix, gx, _⟩ := closeLib_game i (i.libs k l hl) e1
        obtain ⟨h1, h2⟩ := ih ix e
        exact ⟨h1, fun m hm => h2 m (gx m hm)⟩
    · cases e; exact ⟨i, fun _ h => h⟩

theorem tookConfig_inv {w : World} {l p : Nat} {s s' : St} (i : BInv s) (g : Game s l) (e : tookConfig w l p s = .ok s') : BInv s' := by
  obtain ⟨x, e1, e⟩ := bind_ok e
  obtain ⟨ix, gx⟩ := freeCached_inv _ i e1
  refine (patchConnect_same e).inv ⟨ix.br, ix.core, fun m hm => ?_, ix.libs⟩
  cases hm; exact gx l g

theorem tookGame_inv {w : World} {l p : Nat} {s s' : St} (i : BInv s) (g : Game s l) (e : tookGame w l p s = .ok s') : BInv s' := by
  obtain ⟨x, e1, e⟩ := bind_ok e
  obtain ⟨ix, gx⟩ := freeCached_inv _ i e1
  refine (patchInit_same e).inv ⟨ix.br, ix.core, fun m hm => ?_, ix.libs⟩
  cases hm; exact gx l g

theorem askGame_inv {h : Beh} (ha : Alone h) {name : List Byte} {s : St} {r : St × Nat} (i : BInv s) (e : askGame h name s = .ok r) : BInv r.1 := by
  unfold askGame at e
  split at e
  · cases e
  · obtain ⟨x, e1, e⟩ := bind_ok e
    cases e
    exact (extIn_same ha e1).1.inv i

theorem gameDllRequest_inv {w : World} {h : Beh} (ha : Alone h) {name : List Byte} {s : St} {r : St × Nat} (i : BInv s)
    (e : gameDllRequest w h name s = .ok r) : BInv r.1 := by
  unfold gameDllRequest at e
  split at e
  · cases e; exact i
  split at e
  · obtain ⟨x, e1, e⟩ := bind_ok e
    have ix : BInv x.1 := detectInfo_inv (s := { s with isS2 := true }) ha ⟨i.br, i.core, i.lib, i.libs⟩ e1
    split at e
    · cases e; exact ix
    · obtain ⟨y, e2, e⟩ := bind_ok e
      obtain ⟨iy, gy⟩ := search_inv ha 10 ix e2
      split at e
      · cases e; exact iy
      · rename_i hy
        obtain ⟨z, e3, e⟩ := bind_ok e
        cases e
        exact tookConfig_inv iy (gy _ _ hy) e3
  split at e
  · obtain ⟨x, e1, e⟩ := bind_ok e
    have ix := askGame_inv ha i e1
    obtain ⟨y, e2, e⟩ := bind_ok e
    cases e
    exact (patchInit_same e2).inv ⟨ix.br, ix.core, ix.lib, ix.libs⟩
  split at e
  · obtain ⟨x, e1, e⟩ := bind_ok e
    have ix := detectInfo_inv ha i e1
    split at e
    · cases e; exact ix
    · obtain ⟨y, e2, e⟩ := bind_ok e
      obtain ⟨iy, gy⟩ := search_inv ha 10 ix e2
      split at e
      · cases e; exact iy
      · rename_i hy
        obtain ⟨z, e3, e⟩ := bind_ok e
        cases e
        exact tookGame_inv iy (gy _ _ hy) e3
  split at e
  · exact askGame_inv ha i e
  · cases e; exact i

theorem createInterface_inv {w : World} {h : Beh} (ha : Alone h) {name : List Byte} {s : St} {r : St × Ptr × Int} (i : BInv s)
    (e : createInterface w h name s = .ok r) : BInv r.1 := by
  unfold createInterface at e
  split at e
  · cases e; exact i
  split at e
  · cases e
    unfold getVspCallbacks
    dsimp only
    split
    · exact i
    split
    · exact i
    · exact ⟨i.br, i.core, i.lib, i.libs⟩
  split at e
  · obtain ⟨x, e1, e⟩ := bind_ok e
    cases e
    exact gameDllRequest_inv ha i e1
  · obtain ⟨x, e1, e⟩ := bind_ok e
    cases e
    exact (extIn_same ha e1).1.inv i

theorem dropCore_inv {s : St} {r : St × Bool} (i : BInv s) (e : dropCore s = .ok r) : BInv r.1 ∧ r.2 = false ∧ r.1.vspBridge = s.vspBridge := by
  unfold dropCore at e
  split at e
  · cases e; exact ⟨i, rfl, rfl⟩
  · rename_i hb
    obtain ⟨x, e1, e⟩ := bind_ok e
    cases e
    have := unloadCore_inv i (fun b h => by rw [hb] at h; cases h) e1
    exact ⟨this.1, rfl, this.2.2.2⟩

theorem coreSym_same {h : Beh} (ha : Alone h) {v : Bool} {s : St} {r : St × Bool} (e : coreSym h v s = .ok r) :
    Same s r.1 ∧ ∀ k d, .call (.vspLoad k) d ∈ r.1.log → .call (.vspLoad k) d ∈ s.log := by
  unfold coreSym at e
  split at e
  · cases e
  · obtain ⟨x, e1, e⟩ := bind_ok e
    cases e
    refine ⟨(extIn_same ha e1).1, fun k d hk => ?_⟩
    rw [(extIn_same ha e1).2] at hk
    simpa using hk

/-- What `vspAttach` does: the answer, the bridge and what the core is told. -/
theorem vspAttach_inv {h : Beh} (ha : Alone h) {s : St} {r : St × Bool} (i : BInv s) (e : vspAttach h s = .ok r) :
    BInv r.1 ∧ (s.vspBridge = none → r.2 = false → r.1.vspBridge = none) ∧ (r.2 = true → ∃ b, r.1.vspBridge = some b ∧ b ∈ r.1.opened ∧ r.1.core = some b) ∧
      ∀ k d, .call (.vspLoad k) d ∈ r.1.log → .call (.vspLoad k) d ∈ s.log ∨ k = s.version := by
  obtain ⟨x, e1, e⟩ := bind_ok e
  obtain ⟨kx, lx⟩ := coreSym_same ha e1
  have ix := kx.inv i
  have logs : ∀ {t : St} {u : St × Bool}, dropCore t = .ok u → u.1.log = t.log := by
    intro t u e
    unfold dropCore at e
    split at e
    · cases e; rfl
    · obtain ⟨x, e1, e⟩ := bind_ok e
      cases e
      obtain ⟨y, e2, e1⟩ := bind_ok e1
      cases e1
      unfold closeLib at e2
      split at e2
      · cases e2
      · split at e2
        · cases e2; rfl
        · cases e2
  split at e
  · obtain ⟨h1, h2, h3⟩ := dropCore_inv ix e
    refine ⟨h1, fun hv _ => h3.trans (kx.vsp.trans hv), by rw [h2]; nofun, fun k d hk => ?_⟩
    rw [logs e] at hk
    exact .inl (lx k d hk)
  · dsimp only at e
    split at e
    · cases e
    · rename_i b hb
      obtain ⟨y, e2, e⟩ := bind_ok e
      obtain ⟨ky, ly⟩ := extIn_same ha e2
      have iy : BInv y.1 := ky.inv ⟨ix.br, ix.core, ix.lib, ix.libs⟩
      have lg : ∀ k d, .call (.vspLoad k) d ∈ y.1.log → .call (.vspLoad k) d ∈ s.log ∨ k = s.version := by
        intro k d hk
        rw [ly] at hk
        simp only [List.mem_append, List.mem_cons, List.not_mem_nil, or_false, reduceCtorEq, Ev.call.injEq, Call.vspLoad.injEq] at hk
        rcases hk with hk | ⟨hk, _⟩
        · exact .inl (lx k d hk)
        · exact .inr (hk.trans kx.version)
      split at e
      · obtain ⟨h1, h2, h3⟩ := dropCore_inv (s := { y.1 with vspBridge := none }) ⟨iy.br, iy.core, iy.lib, iy.libs⟩ e
        refine ⟨h1, fun _ _ => h3, by rw [h2]; nofun, fun k d hk => ?_⟩
        rw [logs e] at hk
        exact lg k d hk
      · cases e
        have hc : y.1.core = some b := ky.core.trans hb
        exact ⟨iy, fun _ => nofun, fun _ => ⟨b, ky.vsp, (iy.core b hc).1, hc⟩, lg⟩

theorem vspLoad_inv {h : Beh} (ha : Alone h) {s : St} {r : St × Bool} (i : BInv s) (e : vspLoad h s = .ok r) :
    BInv r.1 ∧ (s.vspBridge = none → r.2 = false → r.1.vspBridge = none) ∧ (r.2 = true → ∃ b, r.1.vspBridge = some b ∧ b ∈ r.1.opened ∧ r.1.core = some b) ∧
      ∀ k d, .call (.vspLoad k) d ∈ r.1.log → .call (.vspLoad k) d ∈ s.log ∨ k = s.version := by
  unfold vspLoad at e
  split at e
  · rename_i hA
    cases e; exact ⟨i, fun hv _ => hv, nofun, fun _ _ h => .inl h⟩
  · obtain ⟨x, e1, e⟩ := bind_ok e
    have h1 : Same s x ∧ ∀ k d, .call (.vspLoad k) d ∈ x.log → .call (.vspLoad k) d ∈ s.log := by
      unfold vspEngine at e1
      split at e1
      · cases e1
        exact ⟨⟨rfl, rfl, rfl, rfl, rfl, rfl, rfl, rfl, rfl, rfl⟩, fun k d hk => by simpa [St.note] using hk⟩
      · obtain ⟨y, e2, e1⟩ := bind_ok e1
        cases e1
        obtain ⟨ky, ly⟩ := ext_same ha e2
        refine ⟨⟨ky.gd, ky.core, ky.opened, ky.lib, ky.libs, ky.next, ky.vsp, ky.version, ky.npaths, ky.detected⟩, fun k d hk => ?_⟩
        have hk : Ev.call (.vspLoad k) d ∈ y.1.log := hk
        rw [ly] at hk
        simpa [St.note] using hk
    obtain ⟨kx, lx⟩ := h1
    have ix := kx.inv i
    split at e
    · cases e; exact ⟨ix, fun hv _ => kx.vsp.trans hv, nofun, fun k d hk => .inl (lx k d hk)⟩
    · obtain ⟨y, e2, e⟩ := bind_ok e
      have h2 : BInv y.1 ∧ y.1.vspBridge = x.vspBridge ∧ y.1.version = x.version ∧
          ∀ k d, .call (.vspLoad k) d ∈ y.1.log → .call (.vspLoad k) d ∈ x.log := by
        unfold vspCore at e2
        split at e2
        · cases e2; exact ⟨⟨ix.br, ix.core, ix.lib, ix.libs⟩, rfl, rfl, fun _ _ h => h⟩
        · rename_i hb
          obtain ⟨_, h2, h3, _, h4, _⟩ := loadCore_inv (s := { x with vtab := adapt x.backend x.vtab }) ha ⟨ix.br, ix.core, ix.lib, ix.libs⟩ e2
          refine ⟨h4 hb, h2, h3, fun k d hk => ?_⟩
          obtain ⟨z, e3, e2⟩ := bind_ok e2
          have := (ext_same ha e3).2
          split at e2 <;> cases e2 <;> (dsimp only at hk; rw [this] at hk; simpa using hk)
      obtain ⟨iy, vy, ry, ly⟩ := h2
      split at e
      · cases e; exact ⟨iy, fun hv _ => vy.trans (kx.vsp.trans hv), nofun, fun k d hk => .inl (lx k d (ly k d hk))⟩
      · obtain ⟨g1, g2, g3, g4⟩ := vspAttach_inv ha iy e
        refine ⟨g1, fun hv => g2 (vy.trans (kx.vsp.trans hv)), g3, fun k d hk => ?_⟩
        rcases g4 k d hk with hk | hk
        · exact .inl (lx k d (ly k d hk))
        · exact .inr (hk.trans (ry.trans kx.version))

theorem vspUnload_inv {h : Beh} (ha : Alone h) {s s' : St} (i : BInv s) (e : vspUnload h s = .ok s') : BInv s' := by
  unfold vspUnload at e
  split at e
  · cases e; exact i
  · obtain ⟨x, e1, e⟩ := bind_ok e
    have ix := (extIn_same ha e1).1.inv i
    split at e
    · cases e; exact ix
    · rename_i hb
      exact (unloadCore_inv ix (fun b h => by rw [hb] at h; cases h) e).1

theorem run_inv {w : World} {fuel : Nat} {h : Beh} (ha : Alone h) {o : Op} {s : St} {r : St × Nat} (i : BInv s) (e : run w fuel h o s = .ok r) : BInv r.1 := by
  cases o with
  | create name =>
    obtain ⟨x, e1, e⟩ := bind_ok e
    cases e
    exact createInterface_inv ha i e1
  | slot o k => exact invoke_inv ha _ _ _ _ i e
  | load =>
    obtain ⟨x, e1, e⟩ := bind_ok e
    cases e
    exact (vspLoad_inv ha i e1).1
  | unload =>
    obtain ⟨x, e1, e⟩ := bind_ok e
    cases e
    exact vspUnload_inv ha i e1

/-- Programs in which external code, once called by the loader, only answers. -/
inductive Flat : Scr → Prop
  | ret (v : Nat) (c : Int) : Flat (.ret v c)
  | op (o : Op) (cb : Call → Nat → Scr) (nx : Nat → Scr) : (∀ c n, ∃ v k, cb c n = .ret v k) → (∀ v, Flat (nx v)) → Flat (.op o cb nx)

/-- States reached by such a program from any contents of the game's memory. -/
def FReach (w : World) (s : St) : Prop := ∃ mem fuel p a, Flat p ∧ exec w fuel p (init mem) = .ok (s, a)

theorem init_binv (mem : Nat → Nat) : BInv (init mem) := ⟨nofun, nofun, nofun, nofun⟩

theorem alone_of {w : World} {fuel : Nat} {cb : Call → Nat → Scr} (h : ∀ c n, ∃ v k, cb c n = .ret v k) : Alone (fun c n s => exec w fuel (cb c n) s) := by
  intro c n s s' a e
  obtain ⟨v, k, hc⟩ := h c n
  dsimp only at e
  rw [hc] at e
  cases e
  rfl

theorem exec_inv {w : World} {fuel : Nat} {p : Scr} (hp : Flat p) : ∀ {s : St} {r : St × Nat × Int}, BInv s → exec w fuel p s = .ok r → BInv r.1 := by
  induction hp with
  | ret v c => intro s r i e; cases e; exact i
  | op o cb nx h1 _ ih =>
    intro s r i e
    obtain ⟨x, e1, e⟩ := bind_ok e
    exact ih _ (run_inv (alone_of h1) i e1) e

theorem FReach.inv {w : World} {s : St} (h : FReach w s) : BInv s := by
  obtain ⟨mem, fuel, p, a, hp, e⟩ := h
  exact exec_inv hp (init_binv mem) e

theorem FReach.reach {w : World} {s : St} (h : FReach w s) : Reach w s := by
  obtain ⟨mem, fuel, p, a, _, e⟩ := h
  exact ⟨mem, fuel, p, a, e⟩

end Verif.Loader
