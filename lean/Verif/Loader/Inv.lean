import Verif.Loader.Model
/-
Invariant of the loader over all programs, with external code that calls it again.
-/
namespace Verif.Loader

theorem bind_ok {α β : Type} {x : R α} {f : α → R β} {b : β} (h : (x >>= f) = .ok b) : ∃ a, x = .ok a ∧ f a = .ok b := by
  cases x with
  | error e => cases h
  | ok a => exact ⟨a, rfl, h⟩

/-- What may be in the log: game libraries are asked after detection, the core opened has a name. -/
def EvOk : Ev → Prop
  | .call (.ask _ _) d => d = 1
  | .call (.openCore b) _ => b < 28
  | _ => True

/-- The number of times the callbacks were handed out, and used. -/
def handed (l : List Ev) : Nat := l.countP (· == .handOut)
def used (l : List Ev) : Nat := l.countP (· == .loading)

structure Inv (s : St) : Prop where
  qvi : s.qvi.isSome = true → s.detected = 1
  lib : s.lib.isSome = true → s.qvi.isSome = true
  backend : s.backend ≤ 28
  log : ∀ e ∈ s.log, EvOk e
  once : used s.log + (if s.allowed then 1 else 0) ≤ handed s.log
  paths : s.npaths ≤ 10

/-- The invariant is kept, detection is not forgotten. -/
def Step (s s' : St) : Prop := Inv s → Inv s' ∧ (s.detected = 1 → s'.detected = 1) ∧ (s.qvi.isSome = true → s'.qvi.isSome = true)

theorem Step.refl (s : St) : Step s s := fun h => ⟨h, id, id⟩

theorem Step.trans {a b c : St} (h : Step a b) (g : Step b c) : Step a c := fun i =>
  ⟨(g (h i).1).1, fun d => (g (h i).1).2.1 ((h i).2.1 d), fun d => (g (h i).1).2.2 ((h i).2.2 d)⟩

theorem Step.via {a b c : St} (g : Step b c) (h : Step a b) : Step a c := h.trans g

theorem Step.after {a b c : St} (h : Step a b) (g : (Inv a ∧ Inv b ∧ (a.detected = 1 → b.detected = 1) ∧ (a.qvi.isSome = true → b.qvi.isSome = true)) → Step b c) : Step a c :=
  fun i => (h.trans (g ⟨i, (h i).1, (h i).2.1, (h i).2.2⟩)) i

/-- External code keeps the invariant. -/
def Good (h : Beh) : Prop := ∀ c n s s' a, h c n s = .ok (s', a) → Step s s'

/-- Changes of fields the invariant does not mention. -/
theorem Step.same {s s' : St} (h1 : s'.qvi = s.qvi) (h2 : s'.lib = s.lib) (h3 : s'.backend = s.backend) (h4 : s'.log = s.log)
    (h5 : s'.allowed = s.allowed) (h6 : s'.detected = s.detected) (h7 : s'.npaths = s.npaths) : Step s s' := fun i =>
  ⟨⟨by rw [h1, h6]; exact i.qvi, by rw [h1, h2]; exact i.lib, by rw [h3]; exact i.backend, by rw [h4]; exact i.log, by rw [h4, h5]; exact i.once, by rw [h7]; exact i.paths⟩,
    by rw [h6]; exact id, by rw [h1]; exact id⟩

theorem note_step {s : St} {e : Ev} (he : EvOk e) (h1 : e ≠ .handOut) (h2 : e ≠ .loading) : Step s (s.note e) := fun i =>
  ⟨⟨i.qvi, i.lib, i.backend, fun x hx => by
      simp only [St.note, List.mem_append, List.mem_singleton] at hx
      exact hx.elim (i.log x) fun e => e ▸ he,
    by
      have a1 : handed (s.note e).log = handed s.log := by simp [St.note, handed, h1]
      have a2 : used (s.note e).log = used s.log := by simp [St.note, used, h2]
      rw [a1, a2]; exact i.once, i.paths⟩, id, id⟩

theorem ext_step {h : Beh} (hg : Good h) {c : Call} {s : St} {r : St × Nat × Int} (e : ext h c s = .ok r) (hc : EvOk (.call c s.detected)) : Step s r.1 := by
  obtain ⟨x, e1, e⟩ := bind_ok e
  cases e
  exact ((note_step hc (by simp) (by simp)).trans (hg _ _ _ _ _ e1)).trans (note_step trivial (by simp) (by simp))

theorem extIn_step {h : Beh} (hg : Good h) {l : Nat} {c : Call} {s : St} {r : St × Nat × Int} (e : extIn h l c s = .ok r) (hc : EvOk (.call c s.detected)) : Step s r.1 := by
  unfold extIn at e
  split at e
  · exact ext_step hg e hc
  · cases e

theorem closeLib_step {l : Option Nat} {s s' : St} (e : closeLib l s = .ok s') : Step s s' := by
  unfold closeLib at e
  split at e
  · cases e
  · split at e
    · cases e; exact .same rfl rfl rfl rfl rfl rfl rfl
    · cases e

theorem unloadCore_step {s s' : St} (e : unloadCore s = .ok s') : Step s s' := by
  obtain ⟨x, e1, e⟩ := bind_ok e
  cases e
  exact (closeLib_step e1).trans (.same rfl rfl rfl rfl rfl rfl rfl)

theorem loadCore_step {h : Beh} (hg : Good h) {s : St} {r : St × Bool} (hb : s.backend < 28) (e : loadCore h s = .ok r) : Step s r.1 := by
  obtain ⟨x, e1, e⟩ := bind_ok e
  have := ext_step hg e1 hb
  split at e <;> cases e <;> exact this.trans (.same rfl rfl rfl rfl rfl rfl rfl)

theorem coreSym_step {h : Beh} (hg : Good h) {v : Bool} {s : St} {r : St × Bool} (e : coreSym h v s = .ok r) : Step s r.1 := by
  unfold coreSym at e
  split at e
  · cases e
  · obtain ⟨x, e1, e⟩ := bind_ok e
    cases e
    exact extIn_step hg e1 trivial

theorem patchInit_step {w : World} {p : Bool} {s s' : St} (e : patchInit w p s = .ok s') : Step s s' := by
  unfold patchInit at e
  split at e
  · cases e
  · split at e <;> cases e <;> exact .same rfl rfl rfl rfl rfl rfl rfl

theorem patchShutdown_step {w : World} {k : Nat} {s s' : St} (e : patchShutdown w k s = .ok s') : Step s s' := by
  unfold patchShutdown at e
  split at e
  · cases e
  · cases e; exact .same rfl rfl rfl rfl rfl rfl rfl

theorem patchConnect_step {w : World} {p : Bool} {s s' : St} (e : patchConnect w p s = .ok s') : Step s s' := by
  unfold patchConnect at e
  split at e
  · cases e
  · split at e <;> cases e <;> exact .same rfl rfl rfl rfl rfl rfl rfl

/-- Calls of functions keep the invariant. -/
def GoodC (c : Caller) : Prop := ∀ f s r, c f s = .ok r → Step s r.1

theorem connect_step {w : World} {c : Caller} (hc : GoodC c) {s : St} {r : St × Nat} (e : connect w c s = .ok r) : Step s r.1 := by
  unfold connect at e
  split at e
  · cases e
  · obtain ⟨x, e1, e⟩ := bind_ok e
    obtain ⟨y, e2, e⟩ := bind_ok e
    cases e
    exact (hc _ _ _ e1).trans (patchConnect_step e2)

theorem findEngine_step {h : Beh} (hg : Good h) {s2 : Bool} {s s' : St} (e : findEngine h s2 s = .ok s') :
    Step s s' ∧ (s2 = true → s'.backend < 28) := by
  obtain ⟨x, e1, e⟩ := bind_ok e
  cases e
  refine ⟨(ext_step hg e1 trivial).trans fun i => ⟨⟨i.qvi, i.lib, ?_, i.log, i.once, i.paths⟩, id, id⟩, ?_⟩
  · dsimp only
    split
    · split <;> omega
    · omega
  · rintro rfl
    dsimp only
    rw [if_pos rfl]
    split <;> omega

theorem getBridge_step {h : Beh} (hg : Good h) {s2 : Bool} {s s' : St} (hb : s2 = true → s.backend < 28) (hb' : s.backend ≤ 28) (e : getBridge h s2 s = .ok s') : Step s s' := by
  unfold getBridge at e
  split at e
  · cases e; exact .refl _
  · rename_i hn
    have hlt : s.backend < 28 := by
      cases s2 with
      | true => exact hb rfl
      | false =>
        have : s.backend ≠ 28 := fun x => hn ⟨rfl, x⟩
        omega
    obtain ⟨x, e1, e⟩ := bind_ok e
    have h1 := loadCore_step hg hlt e1
    split at e
    · cases e; exact h1
    · obtain ⟨y, e2, e⟩ := bind_ok e
      have h2 := coreSym_step hg e2
      split at e
      · exact (h1.trans h2).trans (unloadCore_step e)
      · cases e; exact (h1.trans h2).trans (.same rfl rfl rfl rfl rfl rfl rfl)

theorem callPre_step {h : Beh} (hg : Good h) {s s' : St} (e : callPre h s = .ok s') : Step s s' := by
  unfold callPre at e
  split at e
  · cases e; exact .refl _
  · obtain ⟨x, e1, e⟩ := bind_ok e
    have h1 := extIn_step hg e1 trivial
    split at e
    · exact .via (unloadCore_step e) (h1.trans (.same rfl rfl rfl rfl rfl rfl rfl))
    · cases e; exact h1

theorem afterInit_step {w : World} {h : Beh} (hg : Good h) {v : Nat} {s s' : St} (e : afterInit w h v s = .ok s') : Step s s' := by
  unfold afterInit at e
  split at e
  · split at e
    · cases e
    · obtain ⟨x, e1, e⟩ := bind_ok e
      obtain ⟨y, e2, e⟩ := bind_ok e
      cases e
      exact ((extIn_step hg e1 trivial).trans (unloadCore_step e2)).trans (.same rfl rfl rfl rfl rfl rfl rfl)
  · split at e
    · cases e; exact .refl _
    · obtain ⟨x, e1, e⟩ := bind_ok e
      exact (extIn_step hg e1 trivial).trans (patchShutdown_step e)

theorem callInit_step {c : Caller} (hc : GoodC c) {s : St} {r : St × Nat} (e : callInit c s = .ok r) : Step s r.1 := by
  unfold callInit at e
  split at e
  · cases e
  · exact hc _ _ _ e

theorem dllInit_step {w : World} {h : Beh} (hg : Good h) {c : Caller} (hc : GoodC c) {s2 : Bool} {s : St} {r : St × Nat} (e : dllInit w h c s2 s = .ok r) : Step s r.1 := by
  obtain ⟨a, e1, e⟩ := bind_ok e
  obtain ⟨b, e2, e⟩ := bind_ok e
  obtain ⟨d, e3, e⟩ := bind_ok e
  obtain ⟨f, e4, e⟩ := bind_ok e
  obtain ⟨g, e5, e⟩ := bind_ok e
  obtain ⟨k, e6, e⟩ := bind_ok e
  cases e
  obtain ⟨h1, h1'⟩ := findEngine_step hg e1
  refine h1.after fun i => ?_
  exact ((((getBridge_step hg h1' i.2.1.backend e2).trans (callPre_step hg e3)).trans (callInit_step hc e4)).trans (afterInit_step hg e5)).trans (patchInit_step e6)

theorem clearLib_step (s : St) : Step s { s with lib := none } := fun i => ⟨⟨i.qvi, fun h => (nomatch h), i.backend, i.log, i.once, i.paths⟩, id, id⟩

theorem dllShutdown_step {h : Beh} (hg : Good h) {c : Caller} (hc : GoodC c) {s : St} {r : St × Nat} (e : dllShutdown h c s = .ok r) : Step s r.1 := by
  unfold dllShutdown at e
  split at e
  · cases e
  · obtain ⟨x, e1, e⟩ := bind_ok e
    obtain ⟨y, e2, e⟩ := bind_ok e
    split at e
    · cases e
    · obtain ⟨z, e3, e⟩ := bind_ok e
      obtain ⟨u, e4, e⟩ := bind_ok e
      cases e
      exact ((((Step.via (unloadCore_step e2) ((extIn_step hg e1 trivial).trans (.same rfl rfl rfl rfl rfl rfl rfl)))).trans (hc _ _ _ e3)).trans (closeLib_step e4)).trans (clearLib_step _)

theorem invoke_step {w : World} {h : Beh} (hg : Good h) (n : Nat) : GoodC (invoke w h n) := by
  induction n with
  | zero => intro f s r e; cases e
  | succ n ih =>
    intro f s r e
    unfold invoke at e
    split at e
    · exact dllInit_step hg ih e
    split at e
    · exact dllInit_step hg ih e
    split at e
    · exact connect_step ih e
    split at e
    · exact dllShutdown_step hg ih e
    split at e
    · cases e
    · obtain ⟨x, e1, e⟩ := bind_ok e
      cases e
      exact ext_step hg e1 trivial

theorem detectInfo_step {h : Beh} (hg : Good h) {s : St} {r : St × Bool} (e : detectInfo h s = .ok r) :
    Step s r.1 ∧ (r.2 = true → r.1.detected = 1) := by
  unfold detectInfo at e
  split at e
  · cases e; exact ⟨.refl _, by simp⟩
  · rename_i hd
    have hd : s.detected = 0 := by omega
    obtain ⟨x, e1, e⟩ := bind_ok e
    have h0 : Step s { s with detected := -1 } := fun i =>
      ⟨⟨fun q => absurd (i.qvi q) (by omega), i.lib, i.backend, i.log, i.once, i.paths⟩, fun d => absurd d (by omega), id⟩
    have h1 := ext_step hg e1 trivial
    split at e
    · cases e; exact ⟨h0.trans h1, by simp⟩
    · cases e
      exact ⟨(h0.trans h1).trans fun i => ⟨⟨fun _ => rfl, i.lib, i.backend, i.log, i.once, Nat.min_le_right _ _⟩, fun _ => rfl, id⟩, fun _ => rfl⟩

theorem cacheLib_step {h : Beh} (hg : Good h) {i : Nat} {s : St} {r : St × Option Nat} (e : cacheLib h i s = .ok r) : Step s r.1 := by
  unfold cacheLib at e
  split at e
  · cases e; exact .refl _
  · obtain ⟨x, e1, e⟩ := bind_ok e
    have h1 := ext_step hg e1 trivial
    split at e <;> cases e
    · exact h1
    · exact h1.trans (.same rfl rfl rfl rfl rfl rfl rfl)

theorem tryLib_step {h : Beh} (hg : Good h) {name : List Byte} {i : Nat} {s : St} {r : St × Option (Nat × Nat)} (hi : Inv s) (hd : s.detected = 1)
    (e : tryLib h name i s = .ok r) : Inv r.1 ∧ r.1.detected = 1 ∧ (s.qvi.isSome = true → r.1.qvi.isSome = true) := by
  obtain ⟨x, e1, e⟩ := bind_ok e
  have h1 := cacheLib_step hg e1 hi
  dsimp only at e
  split at e
  · cases e; exact ⟨h1.1, h1.2.1 hd, h1.2.2⟩
  · obtain ⟨y, e2, e⟩ := bind_ok e
    rename_i l _
    have h2 := extIn_step hg e2 trivial h1.1
    have hd2 := h2.2.1 (h1.2.1 hd)
    split at e
    · cases e; exact ⟨h2.1, hd2, fun q => h2.2.2 (h1.2.2 q)⟩
    · obtain ⟨z, e3, e⟩ := bind_ok e
      have h3 := extIn_step hg e3 hd2 h2.1
      split at e <;> cases e
      · exact ⟨h3.1, h3.2.1 hd2, fun q => h3.2.2 (h2.2.2 (h1.2.2 q))⟩
      · have h4 := Step.same (s := z.1) (s' := { z.1 with libs := upd z.1.libs i none }) rfl rfl rfl rfl rfl rfl rfl h3.1
        exact ⟨h4.1, h4.2.1 (h3.2.1 hd2), fun q => h4.2.2 (h3.2.2 (h2.2.2 (h1.2.2 q)))⟩

theorem search_step {h : Beh} (hg : Good h) {name : List Byte} (n : Nat) : ∀ {i : Nat} {s : St} {r : St × Option (Nat × Nat)}, Inv s → s.detected = 1 →
    search h name n i s = .ok r → Inv r.1 ∧ r.1.detected = 1 ∧ (s.qvi.isSome = true → r.1.qvi.isSome = true) := by
  induction n with
  | zero => intro i s r hi hd e; cases e; exact ⟨hi, hd, id⟩
  | succ n ih =>
    intro i s r hi hd e
    unfold search at e
    split at e
    · obtain ⟨x, e1, e⟩ := bind_ok e
      have h1 := tryLib_step hg hi hd e1
      split at e
      · cases e; exact h1
      · have h2 := ih h1.1 h1.2.1 e
        exact ⟨h2.1, h2.2.1, fun q => h2.2.2 (h1.2.2 q)⟩
    · cases e; exact ⟨hi, hd, id⟩

theorem freeCached_step (n : Nat) : ∀ {i : Nat} {s s' : St}, freeCached n i s = .ok s' → Step s s' := by
  induction n with
  | zero => intro i s s' e; cases e; exact .refl _
  | succ n ih =>
    intro i s s' e
    unfold freeCached at e
    split at e
    · split at e
      · exact ih e
      · obtain ⟨x, e1, e⟩ := bind_ok e
        exact (closeLib_step e1).trans (ih e)
    · cases e; exact .refl _

theorem tookConfig_step {w : World} {l p : Nat} {s s' : St} (hi : Inv s) (hd : s.detected = 1) (e : tookConfig w l p s = .ok s') :
    Inv s' ∧ s'.detected = 1 ∧ s'.qvi.isSome = true := by
  obtain ⟨x, e1, e⟩ := bind_ok e
  have h1 := freeCached_step _ e1 hi
  have h2 : Inv { x with lib := some l, config := some p, qvi := some l } := ⟨fun _ => h1.2.1 hd, fun _ => rfl, h1.1.backend, h1.1.log, h1.1.once, h1.1.paths⟩
  have h3 := patchConnect_step e h2
  exact ⟨h3.1, h3.2.1 (h1.2.1 hd), h3.2.2 rfl⟩

theorem tookGame_step {w : World} {l p : Nat} {s s' : St} (hi : Inv s) (hd : s.detected = 1) (e : tookGame w l p s = .ok s') :
    Inv s' ∧ s'.detected = 1 ∧ s'.qvi.isSome = true := by
  obtain ⟨x, e1, e⟩ := bind_ok e
  have h1 := freeCached_step _ e1 hi
  have h2 : Inv { x with lib := some l, iface := some p, qvi := some l } := ⟨fun _ => h1.2.1 hd, fun _ => rfl, h1.1.backend, h1.1.log, h1.1.once, h1.1.paths⟩
  have h3 := patchInit_step e h2
  exact ⟨h3.1, h3.2.1 (h1.2.1 hd), h3.2.2 rfl⟩

theorem requestConfig_step {w : World} {h : Beh} (hg : Good h) {name : List Byte} {s : St} {r : St × Nat} (e : requestConfig w h name s = .ok r) : Step s r.1 := by
  obtain ⟨x, e1, e⟩ := bind_ok e
  obtain ⟨h1, h1'⟩ := detectInfo_step hg e1
  have h1 : Step s x.1 := Step.via h1 (Step.same rfl rfl rfl rfl rfl rfl rfl)
  split at e
  · cases e; exact h1
  · rename_i hx
    have hd := h1' (by simpa using hx)
    obtain ⟨y, e2, e⟩ := bind_ok e
    intro i
    have h2 := search_step hg 10 (h1 i).1 hd e2
    split at e
    · cases e; exact ⟨h2.1, fun _ => h2.2.1, fun q => h2.2.2 ((h1 i).2.2 q)⟩
    · obtain ⟨z, e3, e⟩ := bind_ok e
      cases e
      have h3 := tookConfig_step h2.1 h2.2.1 e3
      exact ⟨h3.1, fun _ => h3.2.1, fun _ => h3.2.2⟩

theorem requestGame_step {w : World} {h : Beh} (hg : Good h) {name : List Byte} {s : St} {r : St × Nat} (e : requestGame w h name s = .ok r) : Step s r.1 := by
  obtain ⟨x, e1, e⟩ := bind_ok e
  obtain ⟨h1, h1'⟩ := detectInfo_step hg e1
  split at e
  · cases e; exact h1
  · rename_i hx
    have hd := h1' (by simpa using hx)
    obtain ⟨y, e2, e⟩ := bind_ok e
    intro i
    have h2 := search_step hg 10 (h1 i).1 hd e2
    split at e
    · cases e; exact ⟨h2.1, fun _ => h2.2.1, fun q => h2.2.2 ((h1 i).2.2 q)⟩
    · obtain ⟨z, e3, e⟩ := bind_ok e
      cases e
      have h3 := tookGame_step h2.1 h2.2.1 e3
      exact ⟨h3.1, fun _ => h3.2.1, fun _ => h3.2.2⟩

theorem askGame_step {h : Beh} (hg : Good h) {name : List Byte} {s : St} {r : St × Nat} (e : askGame h name s = .ok r) : Step s r.1 := by
  unfold askGame at e
  split at e
  · cases e
  · rename_i l hl
    obtain ⟨x, e1, e⟩ := bind_ok e
    cases e
    exact fun i => extIn_step hg e1 (i.qvi (by rw [hl]; rfl)) i

theorem requestS2_step {w : World} {h : Beh} (hg : Good h) {name : List Byte} {s : St} {r : St × Nat} (e : requestS2 w h name s = .ok r) : Step s r.1 := by
  obtain ⟨x, e1, e⟩ := bind_ok e
  obtain ⟨y, e2, e⟩ := bind_ok e
  cases e
  exact .via (patchInit_step e2) ((askGame_step hg e1).trans (.same rfl rfl rfl rfl rfl rfl rfl))

theorem gameDllRequest_step {w : World} {h : Beh} (hg : Good h) {name : List Byte} {s : St} {r : St × Nat} (e : gameDllRequest w h name s = .ok r) : Step s r.1 := by
  unfold gameDllRequest at e
  split at e
  · cases e; exact .refl _
  split at e
  · exact requestConfig_step hg e
  split at e
  · exact requestS2_step hg e
  split at e
  · exact requestGame_step hg e
  split at e
  · exact askGame_step hg e
  · cases e; exact .refl _

theorem handOut_step (s : St) (v : Nat) : Step s ({ s with version := v, allowed := true }.note .handOut) := fun i =>
  ⟨⟨i.qvi, i.lib, i.backend, fun x hx => by
      simp only [St.note, List.mem_append, List.mem_singleton] at hx
      exact hx.elim (i.log x) fun e => e ▸ trivial, by
      have := i.once
      simp only [St.note, handed, used, List.countP_append] at this ⊢
      simp only [List.countP_cons, List.countP_nil]
      simp
      omega, i.paths⟩, id, id⟩

theorem createInterface_step {w : World} {h : Beh} (hg : Good h) {name : List Byte} {s : St} {r : St × Ptr × Int} (e : createInterface w h name s = .ok r) : Step s r.1 := by
  unfold createInterface at e
  split at e
  · cases e; exact .refl _
  split at e
  · cases e
    unfold getVspCallbacks
    dsimp only
    split
    · exact .refl _
    split
    · exact .refl _
    · exact handOut_step _ _
  split at e
  · obtain ⟨x, e1, e⟩ := bind_ok e
    cases e
    exact gameDllRequest_step hg e1
  · obtain ⟨x, e1, e⟩ := bind_ok e
    cases e
    exact extIn_step hg e1 trivial

theorem dropCore_step {s : St} {r : St × Bool} (e : dropCore s = .ok r) : Step s r.1 := by
  unfold dropCore at e
  split at e
  · cases e; exact .refl _
  · obtain ⟨x, e1, e⟩ := bind_ok e
    cases e
    exact unloadCore_step e1

theorem vspAttach_step {h : Beh} (hg : Good h) {s : St} {r : St × Bool} (e : vspAttach h s = .ok r) : Step s r.1 := by
  obtain ⟨x, e1, e⟩ := bind_ok e
  have h1 := coreSym_step hg e1
  split at e
  · exact h1.trans (dropCore_step e)
  · dsimp only at e
    split at e
    · cases e
    · obtain ⟨y, e2, e⟩ := bind_ok e
      have h2 : Step s y.1 := .via (extIn_step hg e2 trivial) (h1.trans (.same rfl rfl rfl rfl rfl rfl rfl))
      split at e
      · exact .via (dropCore_step e) (h2.trans (.same rfl rfl rfl rfl rfl rfl rfl))
      · cases e; exact h2

theorem loading_step {s : St} (ha : s.allowed = true) : Step s ({ s with allowed := false }.note .loading) := fun i =>
  ⟨⟨i.qvi, i.lib, i.backend, fun x hx => by
      simp only [St.note, List.mem_append, List.mem_singleton] at hx
      exact hx.elim (i.log x) fun e => e ▸ trivial, by
      have := i.once
      rw [ha] at this
      simp only [St.note, handed, used, List.countP_append] at this ⊢
      simp only [List.countP_cons, List.countP_nil]
      simp at this ⊢
      omega, i.paths⟩, id, id⟩

theorem vspLoad_step {h : Beh} (hg : Good h) {s : St} {r : St × Bool} (e : vspLoad h s = .ok r) : Step s r.1 := by
  unfold vspLoad at e
  split at e
  · cases e; exact .refl _
  · rename_i ha
    obtain ⟨x, e1, e⟩ := bind_ok e
    have h1 : Step s x := by
      refine (loading_step (by simpa using ha)).trans ?_
      unfold vspEngine at e1
      split at e1
      · cases e1; exact .refl _
      · exact (findEngine_step hg e1).1
    refine h1.after fun i => ?_
    split at e
    · cases e; exact .refl _
    · rename_i hb
      obtain ⟨y, e2, e⟩ := bind_ok e
      have h2 : Step x y.1 := by
        refine Step.trans (b := { x with vtab := adapt x.backend x.vtab }) (.same rfl rfl rfl rfl rfl rfl rfl) ?_
        unfold vspCore at e2
        split at e2
        · cases e2; exact .refl _
        · have := i.2.1.backend
          exact loadCore_step hg (by show x.backend < 28; omega) e2
      split at e
      · cases e; exact h2
      · exact h2.trans (vspAttach_step hg e)

theorem vspUnload_step {h : Beh} (hg : Good h) {s s' : St} (e : vspUnload h s = .ok s') : Step s s' := by
  unfold vspUnload at e
  split at e
  · cases e; exact .refl _
  · obtain ⟨x, e1, e⟩ := bind_ok e
    have h1 := extIn_step hg e1 trivial
    split at e
    · cases e; exact h1
    · exact h1.trans (unloadCore_step e)

theorem run_step {w : World} {fuel : Nat} {h : Beh} (hg : Good h) {o : Op} {s : St} {r : St × Nat} (e : run w fuel h o s = .ok r) : Step s r.1 := by
  cases o with
  | create name =>
    obtain ⟨x, e1, e⟩ := bind_ok e
    cases e
    exact createInterface_step hg e1
  | slot o k => exact invoke_step hg _ _ _ _ e
  | load =>
    obtain ⟨x, e1, e⟩ := bind_ok e
    cases e
    exact vspLoad_step hg e1
  | unload =>
    obtain ⟨x, e1, e⟩ := bind_ok e
    cases e
    exact vspUnload_step hg e1

theorem exec_step {w : World} {fuel : Nat} (p : Scr) : ∀ {s : St} {r : St × Nat × Int}, exec w fuel p s = .ok r → Step s r.1 := by
  induction p with
  | ret v c => intro s r e; cases e; exact .refl _
  | op o cb nx ihc ihn =>
    intro s r e
    obtain ⟨x, e1, e⟩ := bind_ok e
    refine (run_step (fun c n s s' a e => ?_) e1).trans (ihn _ e)
    exact ihc c n (r := (s', a)) e

theorem init_inv (mem : Nat → Nat) : Inv (init mem) := ⟨by simp [init], by simp [init], by simp [init], by simp [init], by simp [init, used, handed], by simp [init]⟩

/-- States reached by any program from any contents of the game's memory. -/
def Reach (w : World) (s : St) : Prop := ∃ mem fuel p a, exec w fuel p (init mem) = .ok (s, a)

theorem Reach.inv {w : World} {s : St} (h : Reach w s) : Inv s := by
  obtain ⟨mem, fuel, p, a, e⟩ := h
  exact (exec_step p e (init_inv mem)).1

end Verif.Loader
