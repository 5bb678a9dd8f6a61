import Verif.Core.BridgesInv
/-
The bridges between the loader and the core (C77).
-/
namespace Verif.Core.Br

/-! ### Which game -/

/-- Specification: the lowest version of the game's interface from 3 to 50 that the game has. -/
def Lowest (w : World) (i : Nat) : Prop := 3 ≤ i ∧ i ≤ 50 ∧ w.gs (text i) ≠ 0 ∧ ∀ k, 3 ≤ k → k < i → w.gs (text k) = 0

/-- In VSP mode `Load` takes the game's interface with the lowest version from 3 to 50, remembers this version and its name,
and fails if and only if there is none or the game has no player information. -/
theorem load_takes_lowest {orange : Bool} {w : World} {ver : List Byte} {cbs : Nat} {v : Int} {s s' : St} {e : Option Err} (hg : s.gamedll = false)
    (h : load orange w ver cbs v s = .ok (s', e)) :
    (e = none ↔ w.gs (bytes "PlayerInfoManager002") ≠ 0 ∧ ∃ i, Lowest w i) ∧
    (e = none → ∃ i, Lowest w i ∧ s'.server = w.gs (text i) ∧ s'.version = i ∧ interfaceName s' = some (text i) ∧ s'.gamedll = false ∧
      s'.gameclients = clients w) := by
  rcases load_cases h with ⟨h1, _⟩ | ⟨_, h1, rfl, rfl⟩ | ⟨_, _, h1, rfl, rfl⟩ | ⟨_, h1, rfl, _, _, i, i1, i2, i3, i4, rfl⟩
  · rw [hg] at h1
    cases h1
  · exact ⟨⟨fun h => (by cases h), fun h => (h.1 h1).elim⟩, fun h => (by cases h)⟩
  · exact ⟨⟨fun h => (by cases h), fun ⟨_, i, a, b, c, _⟩ => (c (h1 i a b)).elim⟩, fun h => (by cases h)⟩
  · exact ⟨⟨fun _ => ⟨h1, i, i1, i2, i3, i4⟩, fun _ => rfl⟩, fun _ => ⟨i, ⟨i1, i2, i3, i4⟩, rfl, rfl, rfl, rfl, rfl⟩⟩

/-- A `Load` that fails has set no hook, told nobody and started nothing; if there was no name of the game, there is none. -/
theorem failed_load_does_nothing {orange : Bool} {w : World} {ver : List Byte} {cbs : Nat} {v : Int} {s s' : St} {e : Option Err} (he : e ≠ none)
    (h : load orange w ver cbs v s = .ok (s', e)) :
    s.gamedll = false ∧ s'.hooks = s.hooks ∧ s'.log = s.log ∧ s'.cmd = s.cmd ∧ s'.trying = s.trying ∧ s'.callbacks = s.callbacks ∧
      s'.gamedll = false ∧ s'.version = s.version ∧ (s.name = .null → interfaceName s' = none) := by
  rcases load_cases h with ⟨_, rfl, _⟩ | ⟨h1, _, rfl, rfl⟩ | ⟨h1, _, _, rfl, rfl⟩ | ⟨_, _, rfl, _⟩
  · exact (he rfl).elim
  · exact ⟨h1, rfl, rfl, rfl, rfl, rfl, h1, rfl, fun hn => by unfold interfaceName; simp only; rw [hn]⟩
  · exact ⟨h1, rfl, rfl, rfl, rfl, rfl, h1, rfl, fun hn => by unfold interfaceName; simp only; rw [hn]⟩
  · exact (he rfl).elim

/-- A `Load` that succeeds in VSP mode sets the hooks of the game once, on the interface it has taken, and the two on the
command; the listeners hear of it before Metamod starts. -/
theorem load_hooks {orange : Bool} {w : World} {ver : List Byte} {cbs : Nat} {v : Int} {s s' : St} (hg : s.gamedll = false)
    (h : load orange w ver cbs v s = .ok (s', none)) :
    s'.hooks = s.hooks ++ gameHooks w s'.server ++ cmdHooks s'.cmd ∧ s'.log = s.log ++ [.listening cbs v, .startup true] ∧ s'.callbacks = true ∧
      (orange = true → s'.cmd = w.find) ∧ (w.find ≠ 0 → s'.cmd = w.find) := by
  rcases load_cases h with ⟨h1, _⟩ | ⟨_, _, h1, _⟩ | ⟨_, _, _, h1, _⟩ | ⟨_, _, _, _, _, i, _, _, _, _, rfl⟩
  · rw [hg] at h1
    cases h1
  · cases h1
  · cases h1
  · exact ⟨rfl, rfl, rfl, fun ho => by simp [newCmd, ho], fun hf => by simp [newCmd, hf]⟩

/-- In game DLL mode `Load` always succeeds; it tells the listeners and sets the two hooks on the command, and nothing else. -/
theorem load_gamedll {orange : Bool} {w : World} {ver : List Byte} {cbs : Nat} {v : Int} {s s' : St} {e : Option Err} (hg : s.gamedll = true)
    (h : load orange w ver cbs v s = .ok (s', e)) :
    e = none ∧ s'.hooks = s.hooks ++ cmdHooks s'.cmd ∧ s'.log = s.log ++ [.listening cbs v] ∧ s'.server = s.server ∧ s'.version = s.version ∧
      interfaceName s' = interfaceName s ∧ s'.gamedll = true := by
  rcases load_cases h with ⟨_, rfl, _, rfl⟩ | ⟨h1, _⟩ | ⟨h1, _⟩ | ⟨h1, _⟩
  · exact ⟨rfl, rfl, rfl, rfl, rfl, rfl, hg⟩
  all_goals
    rw [hg] at h1
    cases h1

/-- `DLLInit_Pre` takes the interface of the loader and sets the hooks of the game once on it. -/
theorem dllInit_hooks {w : World} {name : List Byte} {v : Int} {isgd : Nat} {s s' : St} {e : Option Err} (h : dllInitPre w name v isgd s = .ok (s', e)) :
    e = none ∧ s'.server = isgd ∧ s'.version = v ∧ interfaceName s' = some name ∧ s'.gamedll = true ∧ s'.gameclients = clients w ∧
      s'.hooks = s.hooks ++ gameHooks w isgd ∧ s'.log = s.log ++ [.startup false] ∧ s'.callbacks = true := by
  obtain ⟨rfl, _, _, _, rfl⟩ := dllInitPre_cases h
  exact ⟨rfl, rfl, rfl, rfl, rfl, rfl, rfl, rfl, rfl⟩

/-- A world for the examples: a game with version 5 and later. No counterpart in /repo: example. -/
def world (c : Nat) : World where
  gs := fun t => if t = text 5 ∨ t = text 9 then 500 else if t = bytes "PlayerInfoManager002" then 501 else if t = bytes "ServerGameClients003" then 503 else 0
  engine := 600
  icvar := 601
  find := c

/-- Looks at a result. No counterpart in /repo: example. -/
def see {α : Type} (f : St → α) : Except Fault St → Option α
  | .ok s => some (f s)
  | .error _ => none

example : see (fun s => (s.server, s.version, interfaceName s == some (bytes "ServerGameDLL005"), s.hooks.length, s.gameclients)) (step true (bytes "2.0") (.load (world 700) 77 2) init) =
    some (500, 5, true, 6, 503) := by decide +kernel

example : (match load true (world 700) (bytes "2.0") 77 2 init with | .ok (s, none) => s.cmd | _ => 0) = 700 := by decide +kernel

example : (match load true { world 700 with gs := fun t => if t = bytes "PlayerInfoManager002" then 501 else 0 } (bytes "2.0") 77 2 init with
    | .ok (_, e) => e | _ => none) = some .version := by decide +kernel

example : (match dllInitPre (world 700) (bytes "ServerGameDLL005") 5 500 init with | .ok (s, none) => s.hooks.length | _ => 0) = 4 := by decide +kernel

/-! ### Programs -/

/-- Every call of a program satisfies `A`. No counterpart in /repo. -/
def Only (A : Op → Prop) : Scr → Prop
  | .done => True
  | .op o p => A o ∧ Only A p
  | .dispatch _ b p => Only A b ∧ Only A p

/-- Induction over programs. -/
theorem exec_rel {orange : Bool} {ver : List Byte} {A : Op → Prop} {Rel : St → St → Prop} (hr : ∀ s, Rel s s) (ht : ∀ {a b c}, Rel a b → Rel b c → Rel a c)
    (hs : ∀ {o s s'}, A o → step orange ver o s = .ok s' → Rel s s') (hi : ∀ c p s, Rel s (intercept c p s)) :
    ∀ {p : Scr}, Only A p → ∀ {s s' : St}, exec orange ver p s = .ok s' → Rel s s'
  | .done, _, s, s', h => by
    cases h
    exact hr s
  | .op o p, ha, s, s', h => by
    obtain ⟨a, e1, h⟩ := bind_ok h
    exact ht (hs ha.1 e1) (exec_rel hr ht hs hi ha.2 h)
  | .dispatch c b p, ha, s, s', h => by
    obtain ⟨a, e1, h⟩ := bind_ok h
    refine ht ?_ (exec_rel hr ht hs hi ha.2 h)
    unfold dispatch at e1
    split at e1
    · obtain ⟨d, e2, e1⟩ := bind_ok e1
      cases e1
      exact ht (hi c false s) (ht (exec_rel hr ht hs hi ha.1 e2) (hi c true d))
    · exact exec_rel hr ht hs hi ha.1 e1

/-- Specification: the number of `Load`s in a program. -/
def loads : Scr → Nat
  | .done => 0
  | .op (.load _ _ _) p => loads p + 1
  | .op _ p => loads p
  | .dispatch _ b p => loads b + loads p

theorem intercept_frame (c : Nat) (p : Bool) (s : St) : ∃ t, intercept c p s = { s with trying := t } := by
  unfold intercept
  split
  · exact ⟨_, rfl⟩
  · exact ⟨s.trying, rfl⟩

/-- Specification: the description after `n` calls of `Load`. -/
def described (d suffix : List Byte) : Nat → List Byte
  | 0 => d
  | n + 1 => described (d ++ suffix) suffix n

theorem described_add (suffix : List Byte) : ∀ (n m : Nat) (d : List Byte), described d suffix (n + m) = described (described d suffix n) suffix m
  | 0, m, d => by rw [Nat.zero_add]; rfl
  | n + 1, m, d => by
    rw [show n + 1 + m = (n + m) + 1 by omega]
    exact described_add suffix n m (d ++ suffix)

/-- The description and the mode: in game DLL mode every `Load` appends `" Interface "` and the version, in VSP mode a blank
and the version, whether it succeeds or not; nothing else changes the description, and no `Load` or `Unload` changes the
mode. -/
theorem description_of {orange : Bool} {ver : List Byte} (g : Bool) : ∀ {p : Scr}, (g = false → Only (fun o => ∀ w n v i, o ≠ .init w n v i) p) →
    ∀ {s s' : St}, s.gamedll = g → exec orange ver p s = .ok s' →
      s'.gamedll = g ∧ description s' = described (description s) ((if g then bytes " Interface " else bytes " ") ++ ver) (loads p)
  | .done, _, s, s', hg, h => by
    cases h
    exact ⟨hg, rfl⟩
  | .op o p, ha, s, s', hg, h => by
    obtain ⟨a, e1, h⟩ := bind_ok h
    have key : a.gamedll = g ∧ description a = described (description s) ((if g then bytes " Interface " else bytes " ") ++ ver) (loads (.op o .done)) := by
      rcases step_desc e1 with ⟨w, cbs, v, rfl, h1, h2⟩ | ⟨⟨w, n, v, i, rfl⟩, h1, h2⟩ | ⟨ho, h1, h2⟩
      · rw [hg] at h1 h2
        exact ⟨h2, h1⟩
      · cases g with
        | true => exact ⟨h2, h1⟩
        | false => exact ((ha rfl).1 w n v i rfl).elim
      · rw [hg] at h2
        rcases ho with rfl | rfl | rfl <;> exact ⟨h2, h1⟩
    obtain ⟨k1, k2⟩ := description_of g (fun hf => (ha hf).2) key.1 h
    refine ⟨k1, ?_⟩
    rw [k2, key.2, ← described_add]
    congr 1
    cases o <;> simp only [loads] <;> omega
  | .dispatch c b p, ha, s, s', hg, h => by
    obtain ⟨a, e1, h⟩ := bind_ok h
    have key : a.gamedll = g ∧ description a = described (description s) ((if g then bytes " Interface " else bytes " ") ++ ver) (loads b) := by
      unfold dispatch at e1
      split at e1
      · obtain ⟨d, e2, e1⟩ := bind_ok e1
        cases e1
        obtain ⟨t, e3⟩ := intercept_frame c false s
        obtain ⟨u, e4⟩ := intercept_frame c true d
        rw [e3] at e2
        have := description_of g (s := { s with trying := t }) (fun hf => (ha hf).1) hg e2
        rw [e4]
        exact this
      · exact description_of g (fun hf => (ha hf).1) hg e1
    obtain ⟨k1, k2⟩ := description_of g (fun hf => (ha hf).2) key.1 h
    refine ⟨k1, ?_⟩
    rw [k2, key.2, ← described_add]
    rfl

example : see (fun s => description s == bytes "Metamod:Source 2.0 2.0") (exec true (bytes "2.0") (.op (.load (world 700) 1 2) (.op .unload (.op (.load (world 700) 1 2) .done))) init) = some true := by
  decide +kernel

/-! ### Unloading -/

/-- Specification: how often the plugins were all unloaded. -/
def unloadings (s : St) : Nat := s.log.count .unloadAll

/-- Specification: how often the engine was told of an error. -/
def errors (s : St) : Nat := s.log.count .error

theorem mem_gameHooks {w : World} {o : Nat} {h : Nat × Kind} (hm : h ∈ gameHooks w o) (p : Bool) : h.2 ≠ .dispatch p := by
  unfold gameHooks at hm
  rcases List.mem_append.1 hm with hm | hm
  · split at hm
    · rw [List.mem_singleton] at hm
      subst hm
      intro k
      cases k
    · cases hm
  · simp only [List.mem_cons, List.not_mem_nil, or_false] at hm
    rcases hm with rfl | rfl | rfl <;> intro k <;> cases k

theorem mem_cmdHooks {c : Nat} {h : Nat × Kind} : h ∈ cmdHooks c ↔ c ≠ 0 ∧ ∃ p, h = (c, .dispatch p) := by
  unfold cmdHooks
  split
  · rename_i h0
    simp only [List.mem_cons, List.not_mem_nil, or_false]
    constructor
    · rintro (rfl | rfl)
      · exact ⟨h0, false, rfl⟩
      · exact ⟨h0, true, rfl⟩
    · rintro ⟨_, p, rfl⟩
      cases p
      · exact .inl rfl
      · exact .inr rfl
  · rename_i h0
    constructor
    · intro k
      cases k
    · rintro ⟨k, _⟩
      exact (h0 k).elim

theorem mem_without {c : Nat} {h : Nat × Kind} {l : List (Nat × Kind)} : h ∈ without c l ↔ h ∈ l ∧ (c ≠ 0 → ∀ p, h ≠ (c, .dispatch p)) := by
  unfold without
  split
  · rename_i h0
    exact ⟨fun k => ⟨k, fun n => (n h0).elim⟩, fun k => k.1⟩
  · rename_i h0
    rw [List.mem_filter]
    constructor
    · intro ⟨k1, k2⟩
      refine ⟨k1, fun _ p => ?_⟩
      have k2 := of_decide_eq_true k2
      cases p
      · exact k2.1
      · exact k2.2
    · intro ⟨k1, k2⟩
      exact ⟨k1, decide_eq_true ⟨k2 h0 false, k2 h0 true⟩⟩

/-- What a call does to the hooks. -/
theorem step_hooks {orange : Bool} {ver : List Byte} {o : Op} {s s' : St} (h : step orange ver o s = .ok s') :
    (∃ w cbs v, o = .load w cbs v ∧ s'.trying = s.trying ∧ unloadings s' = unloadings s ∧ errors s' = errors s ∧
      ((s'.hooks = s.hooks ∧ s'.cmd = s.cmd) ∨
       ∃ g, (∀ x ∈ g, ∀ p, x.2 ≠ Kind.dispatch p) ∧ s'.hooks = s.hooks ++ g ++ cmdHooks s'.cmd ∧ s'.cmd = newCmd orange w s)) ∨
    (o = .unload ∧ s' = unload s) ∨
    ((∃ w n v i, o = .init w n v i) ∧ s'.trying = s.trying ∧ unloadings s' = unloadings s ∧ errors s' = errors s ∧ s'.cmd = s.cmd ∧
      ∃ g, (∀ x ∈ g, ∀ p, x.2 ≠ Kind.dispatch p) ∧ s'.hooks = s.hooks ++ g) ∨
    (o = .post ∧ s' = s.note .allLoaded) ∨
    (o = .gameUnload ∧ s' = { s with log := s.log ++ [.unloadAll], hooks := [] }) := by
  cases o with
  | load w cbs v =>
    refine .inl ⟨w, cbs, v, rfl, ?_⟩
    obtain ⟨⟨x, e⟩, e2, e1⟩ := bind_ok h
    cases e1
    rcases load_cases e2 with ⟨_, _, _, rfl⟩ | ⟨_, _, _, rfl⟩ | ⟨_, _, _, _, rfl⟩ | ⟨_, _, _, _, _, i, _, _, _, _, rfl⟩
    · exact ⟨rfl, by simp [unloadings], by simp [errors], .inr ⟨[], fun _ k => (by cases k), by rw [List.append_nil], rfl⟩⟩
    · exact ⟨rfl, rfl, rfl, .inl ⟨rfl, rfl⟩⟩
    · exact ⟨rfl, rfl, rfl, .inl ⟨rfl, rfl⟩⟩
    · exact ⟨rfl, by simp [unloadings], by simp [errors], .inr ⟨gameHooks w (w.gs (text i)), fun x k p => mem_gameHooks k p, rfl, rfl⟩⟩
  | unload => exact .inr (.inl ⟨rfl, (Except.ok.inj h).symm⟩)
  | init w n v i =>
    obtain ⟨⟨x, e⟩, e2, e1⟩ := bind_ok h
    cases e1
    obtain ⟨_, _, _, _, rfl⟩ := dllInitPre_cases e2
    exact .inr (.inr (.inl ⟨⟨w, n, v, i, rfl⟩, rfl, by simp [unloadings], by simp [errors], rfl, gameHooks w i, fun x k p => mem_gameHooks k p, rfl⟩))
  | post => exact .inr (.inr (.inr (.inl ⟨rfl, (Except.ok.inj h).symm⟩)))
  | gameUnload =>
    have e : s' = unloadMetamod s := (Except.ok.inj h).symm
    rw [unloadMetamod_eq] at e
    exact .inr (.inr (.inr (.inr ⟨rfl, e⟩)))

/-- Both hooks are on a command, or none. -/
def Paired (s : St) : Prop := ∀ c, (c, Kind.dispatch false) ∈ s.hooks ↔ (c, Kind.dispatch true) ∈ s.hooks

theorem intercept_hooks (c : Nat) (p : Bool) (s : St) : (intercept c p s).hooks = s.hooks ∧ (intercept c p s).cmd = s.cmd ∧ (intercept c p s).log = s.log ∧ (intercept c p s).gamedll = s.gamedll := by
  obtain ⟨t, e⟩ := intercept_frame c p s
  rw [e]
  exact ⟨rfl, rfl, rfl, rfl⟩

theorem paired_append {s : St} (hp : Paired s) {g : List (Nat × Kind)} (hg : ∀ x ∈ g, ∀ p, x.2 ≠ Kind.dispatch p) (c d : Nat) :
    (c, Kind.dispatch false) ∈ s.hooks ++ g ++ cmdHooks d ↔ (c, Kind.dispatch true) ∈ s.hooks ++ g ++ cmdHooks d := by
  simp only [List.mem_append]
  have n : ∀ p, (c, Kind.dispatch p) ∉ g := fun p k => hg _ k p rfl
  have m : (c, Kind.dispatch false) ∈ cmdHooks d ↔ (c, Kind.dispatch true) ∈ cmdHooks d := by
    rw [mem_cmdHooks, mem_cmdHooks]
    simp [Prod.ext_iff]
  rw [hp c, m]
  simp [n]

theorem step_paired {orange : Bool} {ver : List Byte} {o : Op} {s s' : St} (h : step orange ver o s = .ok s') (hp : Paired s) : Paired s' := by
  rcases step_hooks h with ⟨w, cbs, v, _, _, _, _, ⟨e, _⟩ | ⟨g, g1, g2, _⟩⟩ | ⟨_, rfl⟩ | ⟨_, _, _, _, _, g, g1, g2⟩ | ⟨_, rfl⟩ | ⟨_, rfl⟩
  · intro c
    rw [e]
    exact hp c
  · intro c
    rw [g2]
    exact paired_append hp g1 c s'.cmd
  · rcases unload_cases s with ⟨_, e⟩ | ⟨_, _, e⟩ | ⟨_, _, e⟩
    · intro c
      rw [e]
      exact hp c
    · intro c
      rw [e]
      simp only [mem_without]
      rw [hp c]
      simp [Prod.ext_iff]
    · intro c
      rw [e]
      simp
  · intro c
    have := paired_append hp g1 c 0
    rw [g2]
    simpa [cmdHooks] using this
  · exact hp
  · intro c
    simp

theorem only_true : ∀ p : Scr, Only (fun _ => True) p
  | .done => trivial
  | .op _ p => ⟨trivial, only_true p⟩
  | .dispatch _ b p => ⟨only_true b, only_true p⟩

/-- Every program keeps the two hooks together. -/
theorem exec_paired {orange : Bool} {ver : List Byte} {p : Scr} {s s' : St} (h : exec orange ver p s = .ok s') (hp : Paired s) : Paired s' := by
  exact exec_rel (orange := orange) (ver := ver) (A := fun _ => True) (Rel := fun s s' => Paired s → Paired s') (fun _ h => h) (fun {a b c} x y h => y (x h))
    (fun {o s s'} _ e hp => step_paired e hp)
    (fun c p s hp d => by rw [(intercept_hooks c p s).1]; exact hp d) (p := p)
    (only_true p) h hp

/-- Specification: the game is not shut down (`DLLShutdown`). -/
def Open (o : Op) : Prop := o ≠ .gameUnload

theorem unload_trying (s : St) : (unload s).trying = s.trying := by
  rcases unload_cases s with ⟨_, e⟩ | ⟨_, _, e⟩ | ⟨_, _, e⟩ <;> rw [e]

theorem step_trying {orange : Bool} {ver : List Byte} {o : Op} {s s' : St} (h : step orange ver o s = .ok s') : s'.trying = s.trying := by
  rcases step_hooks h with ⟨_, _, _, _, e, _⟩ | ⟨_, rfl⟩ | ⟨_, e, _⟩ | ⟨_, rfl⟩ | ⟨_, rfl⟩
  · exact e
  · exact unload_trying s
  · exact e
  · rfl
  · rfl

/-- While `plugin_unload` runs no call takes a hook away. -/
theorem step_keeps {orange : Bool} {ver : List Byte} {o : Op} {s s' : St} (h : step orange ver o s = .ok s') (ho : Open o) (ht : s.trying = true) :
    ∀ x ∈ s.hooks, x ∈ s'.hooks := by
  rcases step_hooks h with ⟨w, cbs, v, _, _, _, _, ⟨e, _⟩ | ⟨g, g1, g2, _⟩⟩ | ⟨_, rfl⟩ | ⟨_, _, _, _, _, g, g1, g2⟩ | ⟨_, rfl⟩ | ⟨rfl, _⟩
  · intro x hx
    rw [e]
    exact hx
  · intro x hx
    rw [g2]
    exact List.mem_append_left _ (List.mem_append_left _ hx)
  · rcases unload_cases s with ⟨_, e⟩ | ⟨k, _⟩ | ⟨k, _⟩
    · rw [e]
      exact fun x hx => hx
    · rw [ht] at k
      cases k
    · rw [ht] at k
      cases k
  · intro x hx
    rw [g2]
    exact List.mem_append_left _ hx
  · exact fun x hx => hx
  · exact (ho rfl).elim

theorem dispatch_trying {c : Nat} {body : St → Except Fault St} {s s' : St} (hp : Paired s) (hb : ∀ {a b}, Paired a → body a = .ok b → b.trying = true → a.trying = true ∧ ∀ x ∈ a.hooks, x ∈ b.hooks)
    (h : dispatch c body s = .ok s') : s'.trying = true → s.trying = true ∧ ∀ x ∈ s.hooks, x ∈ s'.hooks := by
  unfold dispatch at h
  split at h
  · rename_i hk
    obtain ⟨d, e, h⟩ := bind_ok h
    cases h
    have hpre : (c, Kind.dispatch true) ∈ s.hooks := hk.elim (hp c).1 id
    have hpi : Paired (intercept c false s) := fun d => by rw [(intercept_hooks c false s).1]; exact hp d
    intro ht
    unfold intercept at ht
    split at ht
    · cases ht
    · rename_i hn
      have := (hb hpi e ht).2 (c, .dispatch true) (by rw [(intercept_hooks c false s).1]; exact hpre)
      exact (hn this).elim
  · exact hb hp h

theorem exec_trying {orange : Bool} {ver : List Byte} : ∀ {p : Scr}, Only Open p → ∀ {s s' : St}, Paired s → exec orange ver p s = .ok s' →
    s'.trying = true → s.trying = true ∧ ∀ x ∈ s.hooks, x ∈ s'.hooks
  | .done, _, s, s', _, h => by
    cases h
    exact fun ht => ⟨ht, fun _ hx => hx⟩
  | .op o p, ho, s, s', hp, h => by
    obtain ⟨a, e, h⟩ := bind_ok h
    intro ht
    obtain ⟨k1, k2⟩ := exec_trying ho.2 (step_paired e hp) h ht
    rw [step_trying e] at k1
    exact ⟨k1, fun x hx => k2 x (step_keeps e ho.1 k1 x hx)⟩
  | .dispatch c b p, ho, s, s', hp, h => by
    obtain ⟨a, e, h⟩ := bind_ok h
    intro ht
    have hpa : Paired a := by
      have e' : exec orange ver (.dispatch c b .done) s = .ok a := by
        show (dispatch c (exec orange ver b) s >>= fun s => exec orange ver .done s) = _
        rw [e]
        rfl
      exact exec_paired e' hp
    obtain ⟨k1, k2⟩ := exec_trying ho.2 hpa h ht
    obtain ⟨j1, j2⟩ := dispatch_trying hp (fun hq e => exec_trying ho.1 hq e) e k1
    exact ⟨j1, fun x hx => k2 x (j2 x hx)⟩

/-- Specification: the game is not shut down while a command runs. -/
def Tidy : Scr → Prop
  | .done => True
  | .op _ p => Tidy p
  | .dispatch _ b p => Only Open b ∧ Tidy p

/-- Metamod refuses to be unloaded during `plugin_unload` only: after every program, whatever happened in it, the
refusal is over, as long as the game is not shut down while a command runs. -/
theorem refusal_ends_partial {orange : Bool} {ver : List Byte} : ∀ {p : Scr}, Tidy p → ∀ {s s' : St}, Paired s → s.trying = false → exec orange ver p s = .ok s' →
    s'.trying = false
  | .done, _, s, s', _, ht, h => by
    cases h
    exact ht
  | .op o p, ho, s, s', hp, ht, h => by
    obtain ⟨a, e, h⟩ := bind_ok h
    exact refusal_ends_partial (p := p) ho (step_paired e hp) ((step_trying e).trans ht) h
  | .dispatch c b p, ho, s, s', hp, ht, h => by
    have h' := h
    obtain ⟨a, e, h⟩ := bind_ok h
    have e' : exec orange ver (.dispatch c b .done) s = .ok a := by
      show (dispatch c (exec orange ver b) s >>= fun s => exec orange ver .done s) = _
      rw [e]
      rfl
    refine refusal_ends_partial ho.2 (exec_paired e' hp) ?_ h
    cases ha : a.trying with
    | false => rfl
    | true =>
      have := (exec_trying (p := .dispatch c b .done) ⟨ho.1, trivial⟩ hp e' ha).1
      rw [ht] at this
      cases this

/-- From the start on. -/
theorem refusal_ends_init_partial {orange : Bool} {ver : List Byte} {p : Scr} (hp : Tidy p) {s : St} (h : exec orange ver p init = .ok s) : s.trying = false :=
  refusal_ends_partial hp (fun _ => by simp [init]) rfl h

/-- A program for the examples: Metamod as server plugin, and a `plugin_unload` that reaches it. No counterpart in /repo: example. -/
def sample : Scr := .op (.load (world 700) 1 2) (.dispatch 700 (.op .unload .done) .done)

example : Tidy sample ∧ see (fun s => (s.trying, s.hooks.length, errors s, unloadings s)) (exec true (bytes "2.0") sample init) = some (false, 6, 1, 0) :=
  ⟨⟨⟨(by intro h; cases h), trivial⟩, trivial⟩, by decide +kernel⟩

/-- Specification: `plugin_unload` is always the same command, or there is none. -/
def Fixed (c : Nat) (o : Op) : Prop := ∀ w cbs v, o = .load w cbs v → w.find = c

/-- All hooks on commands are on this one, which is then in `g_plugin_unload`. -/
def On (c : Nat) (s : St) : Prop := (∀ d p, (d, Kind.dispatch p) ∈ s.hooks → d ≠ 0 ∧ d = c ∧ s.cmd = c) ∧ (s.cmd = 0 ∨ s.cmd = c)

theorem newCmd_on {orange : Bool} {w : World} {s : St} {c : Nat} (hw : w.find = c) (h : On c s) : newCmd orange w s = c := by
  unfold newCmd
  split
  · exact hw
  · rename_i hn
    simp only [Bool.or_eq_true, decide_eq_true_eq, ne_eq] at hn
    have h0 : w.find = 0 := by
      by_cases h0 : w.find = 0
      · exact h0
      · exact (hn (.inr h0)).elim
    rcases h.2 with h | h
    · rw [h, ← hw, h0]
    · exact h

theorem step_on {orange : Bool} {ver : List Byte} {c : Nat} {o : Op} {s s' : St} (ho : Fixed c o) (h : step orange ver o s = .ok s') (hs : On c s) : On c s' := by
  rcases step_hooks h with ⟨w, cbs, v, rfl, _, _, _, ⟨e1, e2⟩ | ⟨g, g1, g2, g3⟩⟩ | ⟨_, rfl⟩ | ⟨_, _, _, _, e, g, g1, g2⟩ | ⟨_, rfl⟩ | ⟨_, rfl⟩
  · unfold On
    rw [e1, e2]
    exact hs
  · rw [newCmd_on (ho w cbs v rfl) hs] at g3
    refine ⟨fun d p hd => ?_, .inr g3⟩
    rw [g2, List.mem_append, List.mem_append] at hd
    rcases hd with (hd | hd) | hd
    · exact ⟨(hs.1 d p hd).1, (hs.1 d p hd).2.1, g3⟩
    · exact (g1 _ hd p rfl).elim
    · obtain ⟨k1, q, k2⟩ := mem_cmdHooks.1 hd
      have : d = s'.cmd := (Prod.ext_iff.1 k2).1
      exact ⟨by rw [this]; exact k1, by rw [this, g3], g3⟩
  · rcases unload_cases s with ⟨_, e⟩ | ⟨_, _, e⟩ | ⟨_, _, e⟩
    · rw [e]
      exact hs
    · rw [e]
      refine ⟨fun d p hd => ?_, .inl rfl⟩
      obtain ⟨k1, k2⟩ := mem_without.1 hd
      obtain ⟨j1, j2, j3⟩ := hs.1 d p k1
      exact (k2 (by rw [j3, ← j2]; exact j1) p (by rw [j2, j3])).elim
    · rw [e]
      exact ⟨fun d p hd => (by cases hd), .inl rfl⟩
  · refine ⟨fun d p hd => ?_, by rw [e]; exact hs.2⟩
    rw [g2, List.mem_append] at hd
    rcases hd with hd | hd
    · rw [e]
      exact hs.1 d p hd
    · exact (g1 _ hd p rfl).elim
  · exact hs
  · exact ⟨fun d p hd => (by cases hd), hs.2⟩

theorem exec_on {orange : Bool} {ver : List Byte} {c : Nat} {p : Scr} (ho : Only (Fixed c) p) {s s' : St} (h : exec orange ver p s = .ok s') (hs : On c s) : On c s' :=
  exec_rel (orange := orange) (ver := ver) (A := Fixed c) (Rel := fun s s' => On c s → On c s') (fun _ h => h) (fun {_ _ _} x y h => y (x h))
    (fun {_ _ _} ha e hs => step_on ha e hs)
    (fun d p s hs => by
      obtain ⟨e1, e2, _⟩ := intercept_hooks d p s
      unfold On
      rw [e1, e2]
      exact hs) ho h hs

theorem init_on (c : Nat) : On c init := ⟨fun _ _ h => (by cases h), .inl rfl⟩

/-- `VspBridge::Unload` leaves no hook on the command, however often `Load` was called, as long as `plugin_unload` is always
the same command: in game DLL mode no other hook goes and Metamod stays, in VSP mode no hook at all is left and the plugins
are unloaded once. -/
theorem unload_removes_partial {orange : Bool} {ver : List Byte} {c : Nat} {p : Scr} (ho : Only (Fixed c) p) {s : St} (h : exec orange ver p init = .ok s) (ht : s.trying = false) :
    (∀ d q, (d, Kind.dispatch q) ∉ (unload s).hooks) ∧ (unload s).cmd = 0 ∧
    (s.gamedll = true → (∀ x, (∀ q, x.2 ≠ Kind.dispatch q) → (x ∈ (unload s).hooks ↔ x ∈ s.hooks)) ∧ unloadings (unload s) = unloadings s) ∧
    (s.gamedll = false → (unload s).hooks = [] ∧ unloadings (unload s) = unloadings s + 1) := by
  have hs := exec_on ho h (init_on c)
  rcases unload_cases s with ⟨k, _⟩ | ⟨_, k, e⟩ | ⟨_, k, e⟩
  · rw [ht] at k
    cases k
  · refine ⟨fun d q hd => ?_, by rw [e], fun _ => ⟨fun x hx => ?_, by rw [e]; rfl⟩, fun hf => by rw [k] at hf; cases hf⟩
    · rw [e] at hd
      obtain ⟨k1, k2⟩ := mem_without.1 hd
      obtain ⟨j1, j2, j3⟩ := hs.1 d q k1
      exact k2 (by rw [j3, ← j2]; exact j1) q (by rw [j2, j3])
    · rw [e]
      simp only [mem_without]
      exact ⟨fun h => h.1, fun h => ⟨h, fun _ q hq => hx q (by rw [hq])⟩⟩
  · refine ⟨fun d q hd => ?_, by rw [e], fun hf => (by rw [k] at hf; cases hf), fun _ => ⟨by rw [e], by rw [e]; simp [unloadings]⟩⟩
    rw [e] at hd
    cases hd

example : see (fun s => (s.trying, s.gamedll, s.hooks.length, (unload s).hooks.length)) (exec false (bytes "2.0") (.op (.init (world 700) (bytes "ServerGameDLL005") 5 500)
    (.op (.load (world 700) 1 2) (.op (.load (world 700) 1 2) .done))) init) = some (false, true, 8, 4) := by decide +kernel

/-- Specification: the calls of `VspBridge::Unload` in a program. -/
def unloads : Scr → Nat
  | .done => 0
  | .op .unload p => unloads p + 1
  | .op _ p => unloads p
  | .dispatch _ b p => unloads b + unloads p

/-- Specification: the command `c` is not run in a program. -/
def Avoids (c : Nat) : Scr → Prop
  | .done => True
  | .op _ p => Avoids c p
  | .dispatch d b p => d ≠ c ∧ Avoids c b ∧ Avoids c p

/-- While the refusal lasts everything stays as it is. -/
theorem body_refused {orange : Bool} {ver : List Byte} {c : Nat} : ∀ {p : Scr}, Avoids c p → Only (fun o => Fixed c o ∧ Open o) p → ∀ {s s' : St}, On c s → s.trying = true →
    exec orange ver p s = .ok s' →
    On c s' ∧ s'.trying = true ∧ unloadings s' = unloadings s ∧ errors s' = errors s + unloads p ∧ ∀ x ∈ s.hooks, x ∈ s'.hooks
  | .done, _, _, s, s', hs, ht, h => by
    cases h
    exact ⟨hs, ht, rfl, rfl, fun _ hx => hx⟩
  | .op o p, ha, ho, s, s', hs, ht, h => by
    obtain ⟨a, e, h⟩ := bind_ok h
    have hk := step_keeps e ho.1.2 ht
    obtain ⟨k0, k1, k2, k3, k4⟩ := body_refused (p := p) ha ho.2 (step_on ho.1.1 e hs) ((step_trying e).trans ht) h
    have key : unloadings a = unloadings s ∧ errors a = errors s + unloads (.op o .done) := by
      rcases step_hooks e with ⟨_, _, _, rfl, _, e1, e2, _⟩ | ⟨rfl, rfl⟩ | ⟨⟨_, _, _, _, rfl⟩, _, e1, e2, _⟩ | ⟨rfl, rfl⟩ | ⟨rfl, _⟩
      · exact ⟨e1, e2⟩
      · rcases unload_cases s with ⟨_, e⟩ | ⟨k, _⟩ | ⟨k, _⟩
        · rw [e]
          exact ⟨by simp [unloadings], by simp [errors, unloads]⟩
        · rw [ht] at k
          cases k
        · rw [ht] at k
          cases k
      · exact ⟨e1, e2⟩
      · exact ⟨by simp [unloadings, St.note], by simp [errors, St.note, unloads]⟩
      · exact (ho.1.2 rfl).elim
    refine ⟨k0, k1, k2.trans key.1, ?_, fun x hx => k4 x (hk x hx)⟩
    rw [k3, key.2]
    cases o <;> simp only [unloads] <;> omega
  | .dispatch d b p, ha, ho, s, s', hs, ht, h => by
    obtain ⟨a, e, h⟩ := bind_ok h
    have hn : ¬ ((d, Kind.dispatch false) ∈ s.hooks ∨ (d, Kind.dispatch true) ∈ s.hooks) := by
      rintro (k | k)
      · exact ha.1 (hs.1 d _ k).2.1
      · exact ha.1 (hs.1 d _ k).2.1
    unfold dispatch at e
    rw [if_neg hn] at e
    obtain ⟨j0, j1, j2, j3, j4⟩ := body_refused (p := b) ha.2.1 ho.1 hs ht e
    obtain ⟨k0, k1, k2, k3, k4⟩ := body_refused (p := p) ha.2.2 ho.2 j0 j1 h
    refine ⟨k0, k1, k2.trans j2, ?_, fun x hx => k4 x (j4 x hx)⟩
    rw [k3, j3]
    simp only [unloads]
    omega

/-- `plugin_unload` cannot unload Metamod: whatever happens while the hooked command runs, every `Unload` that reaches the bridge ends in
an error, no hook goes and the plugins stay, and afterwards the refusal is over.  Asked for: the command is not run again in
itself (see `nested_unload_allowed`), it is always the same one, and the game is not shut down meanwhile. -/
theorem plugin_unload_refused_partial {orange : Bool} {ver : List Byte} {c : Nat} {p body : Scr} (hp : Only (Fixed c) p) {s s' : St} (h0 : exec orange ver p init = .ok s)
    (hc : (c, Kind.dispatch false) ∈ s.hooks) (ha : Avoids c body) (ho : Only (fun o => Fixed c o ∧ Open o) body)
    (h : exec orange ver (.dispatch c body .done) s = .ok s') :
    s'.trying = false ∧ unloadings s' = unloadings s ∧ errors s' = errors s + unloads body ∧ ∀ x ∈ s.hooks, x ∈ s'.hooks := by
  have hs := exec_on hp h0 (init_on c)
  have hpair : Paired s := exec_paired h0 fun _ => by simp [init]
  obtain ⟨a, e, h⟩ := bind_ok h
  cases h
  unfold dispatch at e
  rw [if_pos (.inl hc)] at e
  obtain ⟨d, e1, e⟩ := bind_ok e
  cases e
  obtain ⟨i1, i2, i3, _⟩ := intercept_hooks c false s
  have hs' : On c (intercept c false s) := by
    unfold On
    rw [i1, i2]
    exact hs
  have ht : (intercept c false s).trying = true := by
    unfold intercept
    rw [if_pos hc]
    rfl
  obtain ⟨_, _, k2, k3, k4⟩ := body_refused ha ho hs' ht e1
  have hpost : (c, Kind.dispatch true) ∈ d.hooks := k4 _ (by rw [i1]; exact (hpair c).1 hc)
  obtain ⟨j1, j2, j3, _⟩ := intercept_hooks c true d
  refine ⟨?_, ?_, ?_, fun x hx => ?_⟩
  · unfold intercept
    rw [if_pos hpost]
    rfl
  · unfold unloadings at *
    rw [j3, k2, i3]
  · unfold errors at *
    rw [j3, k3, i3]
  · rw [j1]
    exact k4 x (by rw [i1]; exact hx)

example : Only (Fixed 700) (.op (.load (world 700) 1 2) .done) ∧ see (fun s => decide ((700, Kind.dispatch false) ∈ s.hooks)) (exec true (bytes "2.0") (.op (.load (world 700) 1 2) .done) init) = some true ∧
    Avoids 700 (.op .unload .done) ∧ Only (fun o => Fixed 700 o ∧ Open o) (.op .unload .done) :=
  ⟨⟨fun w cbs v h => (by cases h; rfl), trivial⟩, by decide +kernel, trivial, ⟨⟨fun w cbs v h => (by cases h), fun h => (by cases h)⟩, trivial⟩⟩

/-- In game DLL mode only the game's own shutdown unloads Metamod: no `Load` or `Unload` of the server plugin, during
`plugin_unload` or not, unloads the plugins or takes away a hook on the game. -/
theorem gamedll_stays {orange : Bool} {ver : List Byte} {p : Scr} (ho : Only Open p) {s s' : St} (hg : s.gamedll = true) (h : exec orange ver p s = .ok s') :
    s'.gamedll = true ∧ unloadings s' = unloadings s ∧ ∀ x ∈ s.hooks, (∀ q, x.2 ≠ Kind.dispatch q) → x ∈ s'.hooks := by
  refine exec_rel (orange := orange) (ver := ver) (A := Open)
    (Rel := fun s s' => s.gamedll = true → s'.gamedll = true ∧ unloadings s' = unloadings s ∧ ∀ x ∈ s.hooks, (∀ q, x.2 ≠ Kind.dispatch q) → x ∈ s'.hooks)
    (fun _ h => ⟨h, rfl, fun _ hx _ => hx⟩)
    (fun {_ _ _} x y h => ⟨(y (x h).1).1, (y (x h).1).2.1.trans (x h).2.1, fun z hz hq => (y (x h).1).2.2 z ((x h).2.2 z hz hq) hq⟩) ?_ ?_ ho h hg
  · intro o s s' ho e hg
    refine ⟨?_, ?_⟩
    · rcases step_desc e with ⟨_, _, _, _, _, k⟩ | ⟨_, _, k⟩ | ⟨_, _, k⟩
      · exact k.trans hg
      · exact k
      · exact k.trans hg
    · rcases step_hooks e with ⟨w, cbs, v, _, _, e1, _, ⟨e2, _⟩ | ⟨g, g1, g2, _⟩⟩ | ⟨_, rfl⟩ | ⟨_, _, e1, _, _, g, g1, g2⟩ | ⟨_, rfl⟩ | ⟨rfl, _⟩
      · exact ⟨e1, fun x hx _ => by rw [e2]; exact hx⟩
      · exact ⟨e1, fun x hx _ => by rw [g2]; exact List.mem_append_left _ (List.mem_append_left _ hx)⟩
      · rcases unload_cases s with ⟨_, e⟩ | ⟨_, _, e⟩ | ⟨_, k, _⟩
        · rw [e]
          exact ⟨by simp [unloadings], fun x hx _ => hx⟩
        · rw [e]
          exact ⟨rfl, fun x hx hq => mem_without.2 ⟨hx, fun _ q k => hq q (by rw [k])⟩⟩
        · rw [hg] at k
          cases k
      · exact ⟨e1, fun x hx _ => by rw [g2]; exact List.mem_append_left _ hx⟩
      · exact ⟨by simp [unloadings, St.note], fun x hx _ => hx⟩
      · exact (ho rfl).elim
  · intro c q s hg
    obtain ⟨i1, _, i3, i4⟩ := intercept_hooks c q s
    refine ⟨i4.trans hg, ?_, fun x hx _ => by rw [i1]; exact hx⟩
    unfold unloadings
    rw [i3]

example : see (fun s => (s.gamedll, unloadings s, s.hooks.length)) (exec true (bytes "2.0") (.op (.init (world 700) (bytes "ServerGameDLL005") 5 500)
    (.op (.load (world 700) 1 2) (.dispatch 700 (.op .unload .done) (.op .unload .done)))) init) = some (true, 0, 4) := by decide +kernel

/-- When the game shuts down no hook is left. -/
theorem shutdown_removes_all (s : St) : (gameUnload s).hooks = [] ∧ unloadings (gameUnload s) = unloadings s + 1 := by
  have e : gameUnload s = { s with log := s.log ++ [.unloadAll], hooks := [] } := unloadMetamod_eq s
  rw [e]
  exact ⟨rfl, by simp [unloadings]⟩

/-! ### Findings -/

/-- If `plugin_unload` is run again while it runs, the end of the inner run ends the refusal: an `Unload` after it, still
inside the outer one, unloads Metamod. -/
theorem nested_unload_allowed : see (fun s => (errors s, unloadings s, s.hooks)) (exec true (bytes "2.0") (.op (.load (world 700) 1 2)
    (.dispatch 700 (.dispatch 700 .done (.op .unload .done)) .done)) init) = some (0, 1, []) := by decide +kernel

/-- If the engine has another command, or none, at the second `Load`, the hooks on the first one stay after `Unload`, also
when the library goes. -/
theorem changed_command_keeps_hooks : see (fun s => (s.cmd, s.hooks)) (exec true (bytes "2.0") (.op (.init (world 700) (bytes "ServerGameDLL005") 5 500)
    (.op (.load (world 700) 1 2) (.op (.load (world 0) 1 2) (.op .unload .done)))) init) =
      some (0, [(503, .clientCommand), (500, .gameInit), (500, .levelInit), (500, .levelShutdown), (700, .dispatch false), (700, .dispatch true)]) := by decide +kernel

/-- If the game shuts down while `plugin_unload` runs, the hook that ends the refusal is gone: it never ends. -/
theorem shutdown_in_unload_keeps_refusal : see (fun s => s.trying) (exec true (bytes "2.0") (.op (.init (world 700) (bytes "ServerGameDLL005") 5 500)
    (.op (.load (world 700) 1 2) (.dispatch 700 (.op .gameUnload .done) .done))) init) = some true := by decide +kernel

/-- A `Load` that fails has changed the description: it grows with every attempt. -/
theorem failed_load_describes : see (fun s => description s == bytes "Metamod:Source 2.0 2.0") (exec true (bytes "2.0")
    (.op (.load { world 700 with gs := fun _ => 0 } 1 2) (.op (.load { world 700 with gs := fun _ => 0 } 1 2) .done)) init) = some true := by decide +kernel

/-- The search for `IServerGameClients` in `VspBridge::Load` stops at the first version the game does not have, not at the first it has:
with version 3 alone it ends with NULL.  (The provider searches again.) -/
theorem clients_search_loses (s : St) : (findClients (world 700) 2 3 (bytes "ServerGameClients000") s).gameclients = 0 ∧ clients (world 700) = 503 := by
  refine ⟨?_, by decide +kernel⟩
  have e3 : (bytes "ServerGameClients000").set 19 (UInt8.ofNat (48 + 3)) = bytes "ServerGameClients003" := by decide +kernel
  have e4 : (bytes "ServerGameClients003").set 19 (UInt8.ofNat (48 + 4)) = bytes "ServerGameClients004" := by decide +kernel
  have g3 : (world 700).gs (bytes "ServerGameClients003") = 503 := by decide +kernel
  have g4 : (world 700).gs (bytes "ServerGameClients004") = 0 := by decide +kernel
  simp only [findClients, e3, e4, g3, g4]
  rfl

/-- A second `Load` that fails changes the name of the game's interface, though not its version. -/
theorem failed_load_renames : see (fun s => (interfaceName s == some (bytes "ServerGameDLL050"), s.version)) (exec true (bytes "2.0") (.op (.load (world 700) 1 2)
    (.op (.load { world 700 with gs := fun t => if t = bytes "PlayerInfoManager002" then 501 else 0 } 1 2) .done)) init) = some (true, 5) := by decide +kernel

/-- Without the engine's interface `Load` reports an error and then uses the pointer all the same. -/
theorem missing_engine_faults : see (fun _ => ()) (step true (bytes "2.0") (.load { world 700 with engine := 0 } 1 2) init) = none ∧
    see (fun _ => ()) (step true (bytes "2.0") (.init { world 700 with icvar := 0 } (bytes "ServerGameDLL005") 5 500) init) = none := by
  constructor <;> decide +kernel

end Verif.Core.Br
