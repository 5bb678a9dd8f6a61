import Verif.Core.Bridges
/-
Lemmas about the bridges (`Verif.Core.Bridges`): what each part changes.
-/
namespace Verif.Core.Br

theorem bind_ok {ε α β : Type} {x : Except ε α} {f : α → Except ε β} {b : β} (h : x >>= f = .ok b) : ∃ a, x = .ok a ∧ f a = .ok b := by
  cases x with
  | error e => cases h
  | ok a => exact ⟨a, rfl, h⟩

theorem addHook_ok {o : Nat} {k : Kind} {s s' : St} (h : addHook o k s = .ok s') : o ≠ 0 ∧ s' = { s with hooks := s.hooks ++ [(o, k)] } := by
  unfold addHook at h
  split at h
  · cases h
  · rename_i h0
    cases h
    exact ⟨h0, rfl⟩

/-- Specification: the name of the interface of version `i`. -/
def text (i : Nat) : List Byte := bytes ("ServerGameDLL0" ++ (if i < 10 then "0" else "") ++ toString i)

theorem dllName_all : ∀ i : Fin 51, dllName i = text i := by decide +kernel

theorem dllName_text {i : Nat} (h : i ≤ 50) : dllName i = text i := dllName_all ⟨i, by omega⟩

theorem findServer_cases (w : World) : ∀ (n i : Nat) (s : St),
    (∃ j, i ≤ j ∧ j < i + n ∧ w.gs (dllName j) ≠ 0 ∧ (∀ k, i ≤ k → k < j → w.gs (dllName k) = 0) ∧
      findServer w n i s = { s with array := dllName j, server := w.gs (dllName j), name := .array, version := j, gamedll := false }) ∨
    ((∀ k, i ≤ k → k < i + n → w.gs (dllName k) = 0) ∧
      findServer w n i s = if n = 0 then s else { s with array := dllName (i + n - 1), server := 0 })
  | 0, i, s => .inr ⟨fun k h1 h2 => by omega, rfl⟩
  | n + 1, i, s => by
    by_cases h : w.gs (dllName i) = 0
    · have e : findServer w (n + 1) i s = findServer w n (i + 1) { s with array := dllName i, server := 0 } := by
        simp [findServer, h]
      rw [e]
      rcases findServer_cases w n (i + 1) { s with array := dllName i, server := 0 } with ⟨j, h1, h2, h3, h4, h5⟩ | ⟨h1, h2⟩
      · refine .inl ⟨j, by omega, by omega, h3, fun k k1 k2 => ?_, h5⟩
        by_cases hk : k = i
        · rw [hk, h]
        · exact h4 k (by omega) k2
      · refine .inr ⟨fun k k1 k2 => ?_, ?_⟩
        · by_cases hk : k = i
          · rw [hk, h]
          · exact h1 k (by omega) (by omega)
        · rw [h2]
          by_cases hn : n = 0
          · subst hn
            rfl
          · simp only [if_neg hn, if_neg (Nat.succ_ne_zero n)]
            rw [show i + 1 + n - 1 = i + (n + 1) - 1 by omega]
    · exact .inl ⟨i, Nat.le_refl i, by omega, h, fun k k1 k2 => by omega, by simp [findServer, setInfo, h]⟩

/-- Specification: the object of the first of the two interfaces of clients the game has. -/
def clients (w : World) : Nat :=
  if w.gs (bytes "ServerGameClients003") ≠ 0 then w.gs (bytes "ServerGameClients003") else w.gs (bytes "ServerGameClients004")

/-- Specification: the hooks on the game. -/
def gameHooks (w : World) (server : Nat) : List (Nat × Kind) :=
  (if clients w ≠ 0 then [(clients w, .clientCommand)] else []) ++ [(server, .gameInit), (server, .levelInit), (server, .levelShutdown)]

theorem notifyInit_cases {w : World} {s s' : St} (h : notifyInit w s = .ok s') :
    (w.engine = 0 ∧ s' = { s with engine := 0, log := s.log ++ [.error] }) ∨
    (w.engine ≠ 0 ∧ w.icvar = 0 ∧ s' = { s with engine := w.engine, icvar := 0, log := s.log ++ [.error] }) ∨
    (w.engine ≠ 0 ∧ w.icvar ≠ 0 ∧ s.server ≠ 0 ∧
      s' = { s with engine := w.engine, icvar := w.icvar, gameclients := clients w, hooks := s.hooks ++ gameHooks w s.server }) := by
  unfold notifyInit at h
  by_cases h1 : w.engine = 0
  · simp [h1, St.note] at h
    exact .inl ⟨h1, h.symm⟩
  · by_cases h2 : w.icvar = 0
    · simp [h1, h2, St.note] at h
      exact .inr (.inl ⟨h1, h2, h.symm⟩)
    · refine .inr (.inr ⟨h1, h2, ?_⟩)
      simp only [if_neg h1, if_neg h2] at h
      obtain ⟨a, e1, h⟩ := bind_ok h
      obtain ⟨b, e2, h⟩ := bind_ok h
      obtain ⟨c, e3, h⟩ := bind_ok h
      obtain ⟨n2, rfl⟩ := addHook_ok e2
      obtain ⟨n3, rfl⟩ := addHook_ok e3
      obtain ⟨n4, rfl⟩ := addHook_ok h
      unfold hookClients at e1
      by_cases h3 : w.gs (bytes "ServerGameClients003") = 0
      · by_cases h4 : w.gs (bytes "ServerGameClients004") = 0
        · simp [h3, h4] at e1
          subst e1
          exact ⟨n2, by simp [clients, gameHooks, h3, h4]⟩
        · simp [h3, h4] at e1
          obtain ⟨_, rfl⟩ := addHook_ok e1
          exact ⟨n2, by simp [clients, gameHooks, h3, h4]⟩
      · simp [h3] at e1
        obtain ⟨_, rfl⟩ := addHook_ok e1
        exact ⟨n2, by simp [clients, gameHooks, h3]⟩

theorem findClients_frame (w : World) : ∀ (n i : Nat) (t : List Byte) (s : St), ∃ g, findClients w n i t s = { s with gameclients := g }
  | 0, _, _, s => ⟨s.gameclients, rfl⟩
  | n + 1, i, t, s => by
    unfold findClients
    simp only
    split
    · exact ⟨_, rfl⟩
    · obtain ⟨g, e⟩ := findClients_frame w n (i + 1) (t.set 19 (UInt8.ofNat (48 + i))) { s with gameclients := w.gs (t.set 19 (UInt8.ofNat (48 + i))) }
      exact ⟨g, e⟩

/-- Specification: the hooks on the command. -/
def cmdHooks (c : Nat) : List (Nat × Kind) := if c ≠ 0 then [(c, .dispatch false), (c, .dispatch true)] else []

/-- Specification: the command that is hooked. -/
def newCmd (orange : Bool) (w : World) (s : St) : Nat := if orange || w.find ≠ 0 then w.find else s.cmd

theorem loadEnd_ok {orange : Bool} {w : World} {s : St} {r : Res} (h : loadEnd orange w (s, none) = .ok r) :
    s.icvar ≠ 0 ∧ r = ({ s with cmd := newCmd orange w s, hooks := s.hooks ++ cmdHooks (newCmd orange w s) }, none) := by
  unfold loadEnd at h
  simp only at h
  obtain ⟨a, e1, h⟩ := bind_ok h
  obtain ⟨b, e2, h⟩ := bind_ok h
  cases h
  unfold findCmd at e1
  split at e1
  · cases e1
  · rename_i h0
    cases e1
    refine ⟨h0, ?_⟩
    unfold hookCmd at e2
    change (if newCmd orange w s ≠ 0 then _ else _) = _ at e2
    by_cases hc : newCmd orange w s = 0
    · rw [if_neg (fun h => h hc)] at e2
      cases e2
      change (({ s with cmd := newCmd orange w s } : St), (none : Option Err)) = _
      rw [hc]
      simp [cmdHooks]
    · simp only [ne_eq, hc, not_false_eq_true, if_true] at e2
      obtain ⟨c, e3, e2⟩ := bind_ok e2
      obtain ⟨_, rfl⟩ := addHook_ok e3
      obtain ⟨_, rfl⟩ := addHook_ok e2
      simp only [cmdHooks, ne_eq, hc, not_false_eq_true, if_true]
      rw [List.append_assoc]
      rfl

/-- All that `Load` can do. -/
theorem load_cases {orange : Bool} {w : World} {ver : List Byte} {cbs : Nat} {v : Int} {s s' : St} {e : Option Err}
    (h : load orange w ver cbs v s = .ok (s', e)) :
    (s.gamedll = true ∧ e = none ∧ s.icvar ≠ 0 ∧
      s' = { s with desc := s.desc ++ bytes " Interface " ++ ver, log := s.log ++ [.listening cbs v], cmd := newCmd orange w s,
                    hooks := s.hooks ++ cmdHooks (newCmd orange w s) }) ∨
    (s.gamedll = false ∧ w.gs (bytes "PlayerInfoManager002") = 0 ∧ e = some .gameinfo ∧ s' = { s with desc := s.desc ++ bytes " " ++ ver }) ∨
    (s.gamedll = false ∧ w.gs (bytes "PlayerInfoManager002") ≠ 0 ∧ (∀ k, 3 ≤ k → k ≤ 50 → w.gs (text k) = 0) ∧ e = some .version ∧
      s' = { s with desc := s.desc ++ bytes " " ++ ver, array := text 50, server := 0 }) ∨
    (s.gamedll = false ∧ w.gs (bytes "PlayerInfoManager002") ≠ 0 ∧ e = none ∧ w.engine ≠ 0 ∧ w.icvar ≠ 0 ∧
      ∃ i, 3 ≤ i ∧ i ≤ 50 ∧ w.gs (text i) ≠ 0 ∧ (∀ k, 3 ≤ k → k < i → w.gs (text k) = 0) ∧
      s' = { s with desc := s.desc ++ bytes " " ++ ver, array := text i, name := .array, version := i, gamedll := false, server := w.gs (text i),
                    gameclients := clients w, engine := w.engine, icvar := w.icvar, callbacks := true, cmd := newCmd orange w s,
                    hooks := s.hooks ++ gameHooks w (w.gs (text i)) ++ cmdHooks (newCmd orange w s),
                    log := s.log ++ [.listening cbs v, .startup true] }) := by
  unfold load at h
  by_cases hg : s.gamedll = true
  · simp only [hg, Bool.not_true, Bool.false_eq_true, if_false] at h
    obtain ⟨h0, h⟩ := loadEnd_ok h
    cases h
    exact .inl ⟨hg, rfl, h0, by simp [loadGame, St.note, newCmd]⟩
  · simp only [Bool.not_eq_true] at hg
    refine .inr ?_
    simp only [hg, Bool.not_false, if_true] at h
    obtain ⟨r, h1, h⟩ := bind_ok h
    unfold loadVsp at h1
    simp only at h1
    by_cases hp : w.gs (bytes "PlayerInfoManager002") = 0
    · simp only [hp, if_true] at h1
      cases h1
      cases h
      exact .inl ⟨hg, hp, rfl, rfl⟩
    · refine .inr ?_
      simp only [hp, if_false] at h1
      rcases findServer_cases w 48 3 { s with desc := s.desc ++ bytes " " ++ ver } with ⟨i, i1, i2, i3, i4, i5⟩ | ⟨j1, j2⟩
      · refine .inr ?_
        have ti : dllName i = text i := dllName_text (by omega)
        rw [ti] at i3 i5
        rw [i5] at h1
        simp only [i3, if_false] at h1
        obtain ⟨g, hgc⟩ := findClients_frame w 2 3 (bytes "ServerGameClients000")
          { s with desc := s.desc ++ bytes " " ++ ver, array := text i, server := w.gs (text i), name := .array, version := i, gamedll := false }
        rw [hgc] at h1
        obtain ⟨a, e1, h1⟩ := bind_ok h1
        obtain ⟨d, e2, h1⟩ := bind_ok h1
        have hd : d = true := by
          unfold detect at e2
          split at e2 <;> cases e2
          rfl
        subst hd
        simp only [Bool.not_true, Bool.false_eq_true, if_false] at h1
        obtain ⟨b, e3, h1⟩ := bind_ok h1
        cases h1
        obtain ⟨h0, h⟩ := loadEnd_ok h
        unfold startup at e3
        unfold detect at e2
        rcases notifyInit_cases e1 with ⟨_, rfl⟩ | ⟨_, _, rfl⟩ | ⟨n1, n2, n3, rfl⟩
        · simp at e2
        · simp [initForLoad, St.note] at e3
        · simp only [initForLoad, St.note, n2, if_false] at e3
          cases e3
          cases h
          refine ⟨hg, hp, rfl, n1, n2, i, i1, by omega, i3, fun k k1 k2 => ?_, ?_⟩
          · rw [← dllName_text (by omega)]
            exact i4 k k1 k2
          · simp [newCmd]
      · refine .inl ?_
        rw [j2] at h1
        simp only [Nat.reduceEqDiff, if_false, if_true] at h1
        cases h1
        cases h
        refine ⟨hg, hp, fun k k1 k2 => ?_, rfl, ?_⟩
        · rw [← dllName_text k2]
          exact j1 k k1 (by omega)
        · rw [show 3 + 48 - 1 = 50 from rfl, dllName_text (Nat.le_refl 50)]

/-- All that `DLLInit_Pre` can do. -/
theorem dllInitPre_cases {w : World} {name : List Byte} {v : Int} {isgd : Nat} {s s' : St} {e : Option Err}
    (h : dllInitPre w name v isgd s = .ok (s', e)) :
    e = none ∧ w.engine ≠ 0 ∧ isgd ≠ 0 ∧ w.icvar ≠ 0 ∧
      s' = { s with name := .given name, version := v, gamedll := true, server := isgd, gameclients := clients w, engine := w.engine, icvar := w.icvar,
                    callbacks := true, hooks := s.hooks ++ gameHooks w isgd, log := s.log ++ [.startup false] } := by
  unfold dllInitPre at h
  simp only [setInfo] at h
  obtain ⟨a, e1, h⟩ := bind_ok h
  obtain ⟨d, e2, h⟩ := bind_ok h
  have hd : d = true := by
    unfold detect at e2
    split at e2 <;> cases e2
    rfl
  subst hd
  simp only [Bool.not_true, Bool.false_eq_true, if_false] at h
  obtain ⟨b, e3, h⟩ := bind_ok h
  cases h
  unfold startup at e3
  unfold detect at e2
  rcases notifyInit_cases e1 with ⟨_, rfl⟩ | ⟨_, _, rfl⟩ | ⟨n1, n2, n3, rfl⟩
  · simp at e2
  · simp [initForLoad] at e3
  · simp only [initForLoad, St.note, n2, if_false] at e3
    cases e3
    exact ⟨rfl, n1, n3, n2, rfl⟩

/-- Specification: the hooks that are not on a command. -/
def without (c : Nat) (l : List (Nat × Kind)) : List (Nat × Kind) :=
  if c = 0 then l else l.filter fun h => h ≠ (c, .dispatch false) ∧ h ≠ (c, .dispatch true)

theorem unhookCmd_eq (s : St) : unhookCmd s = { s with cmd := 0, hooks := without s.cmd s.hooks } := by
  unfold unhookCmd without
  by_cases h : s.cmd = 0
  · rw [if_neg (fun k => k h), if_pos h]
    cases s
    simp only at h
    rw [h]
  · rw [if_pos h, if_neg h]
    unfold rmHook
    simp only [List.filter_filter]
    congr 1
    apply List.filter_congr
    intro x _
    by_cases h1 : x = (s.cmd, .dispatch false) <;> by_cases h2 : x = (s.cmd, .dispatch true) <;> simp [h1, h2]

theorem unloadMetamod_eq (s : St) : unloadMetamod s = { s with log := s.log ++ [.unloadAll], hooks := [] } := rfl

/-- All that `Unload` can do. -/
theorem unload_cases (s : St) :
    (s.trying = true ∧ unload s = { s with log := s.log ++ [.error] }) ∨
    (s.trying = false ∧ s.gamedll = true ∧ unload s = { s with cmd := 0, hooks := without s.cmd s.hooks }) ∨
    (s.trying = false ∧ s.gamedll = false ∧ unload s = { s with cmd := 0, hooks := [], log := s.log ++ [.unloadAll] }) := by
  unfold unload
  simp only [unhookCmd_eq, unloadMetamod_eq]
  cases h : s.trying
  · cases g : s.gamedll
    · exact .inr (.inr ⟨rfl, rfl, by simp⟩)
    · exact .inr (.inl ⟨rfl, rfl, by simp⟩)
  · exact .inl ⟨rfl, by simp [St.note, h]⟩

/-- The result of a call: `Load` by mode, `Unload` by what is going on, the rest. -/
theorem step_desc {orange : Bool} {ver : List Byte} {o : Op} {s s' : St} (h : step orange ver o s = .ok s') :
    (∃ w cbs v, o = .load w cbs v ∧ s'.desc = s.desc ++ ((if s.gamedll then bytes " Interface " else bytes " ") ++ ver) ∧ s'.gamedll = s.gamedll) ∨
    ((∃ w n v i, o = .init w n v i) ∧ s'.desc = s.desc ∧ s'.gamedll = true) ∨
    ((o = .unload ∨ o = .post ∨ o = .gameUnload) ∧ s'.desc = s.desc ∧ s'.gamedll = s.gamedll) := by
  cases o with
  | load w cbs v =>
    refine .inl ⟨w, cbs, v, rfl, ?_⟩
    obtain ⟨⟨x, e⟩, e2, e1⟩ := bind_ok h
    cases e1
    rcases load_cases e2 with ⟨h1, _, _, rfl⟩ | ⟨h1, _, _, rfl⟩ | ⟨h1, _, _, _, rfl⟩ | ⟨h1, _, _, _, _, i, _, _, _, _, rfl⟩
    all_goals
      rw [h1]
      exact ⟨by simp only [List.append_assoc, if_true, Bool.false_eq_true, if_false], by first | rfl | exact h1⟩
  | unload =>
    cases h
    refine .inr (.inr ⟨.inl rfl, ?_⟩)
    rcases unload_cases s with ⟨_, e⟩ | ⟨_, _, e⟩ | ⟨_, _, e⟩ <;> rw [e] <;> exact ⟨rfl, rfl⟩
  | init w n v i =>
    obtain ⟨⟨x, e⟩, e2, e1⟩ := bind_ok h
    cases e1
    obtain ⟨_, _, _, _, rfl⟩ := dllInitPre_cases e2
    exact .inr (.inl ⟨⟨w, n, v, i, rfl⟩, rfl, rfl⟩)
  | post =>
    cases h
    exact .inr (.inr ⟨.inr (.inl rfl), rfl, rfl⟩)
  | gameUnload =>
    have e : s' = unloadMetamod s := (Except.ok.inj h).symm
    rw [e, unloadMetamod_eq]
    exact .inr (.inr ⟨.inr (.inr rfl), rfl, rfl⟩)

end Verif.Core.Br
