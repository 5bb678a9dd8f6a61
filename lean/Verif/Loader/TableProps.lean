import Verif.Loader.Table
import Verif.Loader.EntryProps
/-
C81: the server plugin's table fits the engine, if it was adapted once.
-/
namespace Verif.Loader

/-- Specification: the functions of a server plugin, with both forms of `ClientCommand`. No counterpart in /repo:
the engines' `IServerPluginCallbacks`. -/
inductive Cb
  | Load | Unload | Pause | UnPause | GetPluginDescription | LevelInit | ServerActivate | GameFrame | LevelShutdown
  | ClientActive | ClientFullyConnect | ClientDisconnect | ClientPutInServer | SetCommandClient | ClientSettingsChanged
  | ClientConnect | ClientCommand | ClientCommandArgs | NetworkIDValidated | OnQueryCvarValueFinished
  deriving DecidableEq, Repr

/-- Specification: the functions as `ServerPlugin` declares them, and that of `IRandomThings`. The order of declarations,
loader/serverplugin.cpp:56-63, 82-281. -/
def Cb.fn : Cb → Nat
  | .Load => 0
  | .Unload => 1
  | .Pause => 2
  | .UnPause => 3
  | .GetPluginDescription => 4
  | .LevelInit => 5
  | .ServerActivate => 6
  | .GameFrame => 7
  | .LevelShutdown => 8
  | .ClientActive => 9
  | .ClientFullyConnect => 10
  | .ClientDisconnect => 11
  | .ClientPutInServer => 12
  | .SetCommandClient => 13
  | .ClientSettingsChanged => 14
  | .ClientConnect => 15
  | .ClientCommand => 16
  | .NetworkIDValidated => 17
  | .OnQueryCvarValueFinished => 18
  | .ClientCommandArgs => 100

/-- Specification: the engines that tell a plugin of a client that is fully connected. No counterpart in /repo: the engines. -/
def Backend.fullyConnect : Backend → Bool
  | .alienSwarm | .portal2 | .blade | .insurgency | .doi | .csgo | .mcv => true
  | _ => false

/-- Specification: the engines whose `ClientCommand` has no arguments. No counterpart in /repo: the engines. -/
def Backend.plainCommand : Backend → Bool
  | .episode1 | .darkMessiah => true
  | _ => false

/-- Specification: the order in which an engine has the functions. No counterpart in /repo: the engines' `IServerPluginCallbacks`. -/
def Backend.callbacks (b : Backend) : List Cb :=
  [.Load, .Unload, .Pause, .UnPause, .GetPluginDescription, .LevelInit, .ServerActivate, .GameFrame, .LevelShutdown, .ClientActive] ++
  (if b.fullyConnect then [.ClientFullyConnect] else []) ++
  [.ClientDisconnect, .ClientPutInServer, .SetCommandClient, .ClientSettingsChanged, .ClientConnect,
   if b.plainCommand then .ClientCommand else .ClientCommandArgs, .NetworkIDValidated, .OnQueryCvarValueFinished]

/-- Specification: what the engine calls through the table is what it means. No counterpart in /repo. -/
def Fits (b : Backend) (t : List Nat) : Prop := ∀ (i : Nat) (c : Cb), b.callbacks[i]? = some c → t[i]? = some c.fn

/-- Specification: the table fits, for every slot the engine has. No counterpart in /repo. -/
def fitsB (b : Backend) (t : List Nat) : Bool := (List.range b.callbacks.length).all fun i => t[i]? == (b.callbacks[i]?).map Cb.fn

theorem fitsB_iff {b : Backend} {t : List Nat} : fitsB b t = true ↔ Fits b t := by
  unfold fitsB Fits
  rw [List.all_eq_true]
  constructor
  · intro h i c hc
    have hi : i < b.callbacks.length := by
      rcases Nat.lt_or_ge i b.callbacks.length with h' | h'
      · exact h'
      · rw [List.getElem?_eq_none h'] at hc; cases hc
    have := h i (List.mem_range.2 hi)
    rw [hc] at this
    simpa using this
  · intro h i hi
    have hi := List.mem_range.1 hi
    have := h i _ (List.getElem?_eq_getElem hi)
    rw [this, List.getElem?_eq_getElem hi]
    simp

/-- C81: adapted once to an engine, the table the compiler made has for every function of that engine the one it means. -/
theorem adapted_fits (b : Backend) (hb : b ≠ .unknown) : Fits b (adapt b.idx (List.range 19)) := by
  rw [← fitsB_iff]
  cases b <;> first | decide +kernel | exact absurd rfl hb

/-- An engine with and one without `ClientFullyConnect`; the first has one function more. -/
example : Backend.csgo ≠ .unknown ∧ Backend.episode1 ≠ .unknown ∧ Backend.csgo.callbacks.length = 19 ∧ Backend.episode1.callbacks.length = 18 := by decide

/-- The engines are numbered without a gap. -/
theorem backend_of {n : Nat} (h : n < 28) : ∃ b : Backend, b ≠ .unknown ∧ b.idx = n := by
  have key : ∀ n < 28, ∃ b ∈ [Backend.episode1, .darkMessiah, .episode2, .bloodyGoodTime, .eye, .css, .episode2ValveObsolete, .left4Dead,
      .left4Dead2, .alienSwarm, .portal2, .csgo, .dota, .hl2dm, .dods, .tf2, .nuclearDawn, .sdk2013, .blade, .insurgency, .contagion, .bms, .doi,
      .mock, .pvkii, .mcv, .cs2, .deadlock], b ≠ .unknown ∧ b.idx = n := by decide +kernel
  obtain ⟨b, _, h⟩ := key n h
  exact ⟨b, h⟩

theorem reach_tab {w : World} {s : St} (h : Reach w s) :
    ∃ bs : List Nat, s.vtab = bs.foldl (fun t b => adapt b t) (List.range 19) ∧ bs.length ≤ used s.log ∧ ∀ b ∈ bs, b < 28 := by
  obtain ⟨mem, fuel, p, a, e⟩ := h
  obtain ⟨_, bs, h1, h2, h3⟩ := exec_tab p e (by simp [init])
  refine ⟨bs, h1, ?_, h3⟩
  have : used (init mem).log = 0 := rfl
  have h2' : used (init mem).log + bs.length ≤ used s.log := h2
  omega

/-- C81, over all programs: before the callbacks are used the table is as the compiler made it, and as long as they were used once, it is
that or fits an engine. -/
theorem table_once_partial {w : World} {s : St} (h : Reach w s) :
    (used s.log = 0 → s.vtab = List.range 19) ∧
    (used s.log ≤ 1 → s.vtab = List.range 19 ∨ ∃ b : Backend, b ≠ .unknown ∧ Fits b s.vtab) := by
  obtain ⟨bs, h1, h2, h3⟩ := reach_tab h
  constructor
  · intro h0
    have : bs = [] := List.length_eq_zero_iff.1 (by omega)
    rw [h1, this]; rfl
  · intro h0
    cases bs with
    | nil => exact .inl h1
    | cons b bs =>
      have hl : bs = [] := List.length_eq_zero_iff.1 (by simp only [List.length_cons] at h2; omega)
      subst hl
      obtain ⟨k, hk, hi⟩ := backend_of (h3 b (by simp))
      refine .inr ⟨k, hk, ?_⟩
      have e : s.vtab = adapt b (List.range 19) := h1
      rw [e, ← hi]
      exact adapted_fits k hk

/-- C81: the first Load that finds an engine leaves a table that fits this engine, whether it succeeds or fails, if no other Load happens
inside it.  `cb` is what the engine, the game and the core do, which may call the loader again. -/
theorem first_load_fits {w : World} {fuel : Nat} {cb : Call → Nat → Scr} {s : St} (h : Reach w s) (h0 : used s.log = 0) (ha : s.allowed = true)
    {r : St × Bool} (e : vspLoad (fun c n s => exec w fuel (cb c n) s) s = .ok r) (h1 : used r.1.log ≤ 1) :
    ∃ x, vspEngine (fun c n s => exec w fuel (cb c n) s) ({ s with allowed := false }.note .loading) = .ok x ∧
      (x.backend = 28 → r.1.vtab = List.range 19) ∧ ∀ b : Backend, b ≠ .unknown → b.idx = x.backend → Fits b r.1.vtab := by
  have hb := h.inv.backend
  have hv := (table_once_partial h).1 h0
  have hg := scripts_good w fuel cb
  rcases vspLoad_cases hg e with ⟨hn, _⟩ | ⟨x, e1, hx⟩
  · rw [ha] at hn; cases hn
  · obtain ⟨g1, bs, g2, g3, g4⟩ := vspEngine_tab hg e1 hb
    rw [used_loading] at g3
    have g2' : x.vtab = bs.foldl (fun t b => adapt b t) s.vtab := g2
    refine ⟨x, e1, ?_⟩
    rcases hx with ⟨h28, rfl⟩ | ⟨hb', ht⟩
    · have h1' : used x.log ≤ 1 := h1
      have : bs = [] := List.length_eq_zero_iff.1 (by omega)
      subst this
      refine ⟨fun _ => g2'.trans hv, fun b hu hi => ?_⟩
      rw [h28] at hi
      cases b <;> first | exact absurd rfl hu | (simp [Backend.idx] at hi)
    · obtain ⟨k1, cs, k2, k3, k4⟩ := ht g1
      have k3' : used x.log + cs.length ≤ used r.1.log := k3
      have hbs : bs = [] := List.length_eq_zero_iff.1 (by omega)
      have hcs : cs = [] := List.length_eq_zero_iff.1 (by omega)
      subst hbs
      subst hcs
      refine ⟨fun h28 => absurd h28 hb', fun b hu hi => ?_⟩
      have e2 : r.1.vtab = adapt x.backend x.vtab := k2
      rw [e2, g2', ← hi]
      show Fits b (adapt b.idx s.vtab)
      rw [hv]
      exact adapted_fits b hu

/-- No counterpart in /repo: the table of the examples. -/
def resTab : R (St × Nat × Int) → Option (List Nat × Nat)
  | .ok r => some (r.1.vtab, used r.1.log)
  | .error _ => none

/-- A first Load into Team Fortress 2 (15). -/
example : resTab (exec w0 5 (prog game [.create (bytes "ISERVERPLUGINCALLBACKS002"), .load]) (init fun _ => 9)) =
    some ([0, 1, 2, 3, 4, 5, 6, 7, 8, 9, 11, 12, 13, 14, 15, 100, 17, 18, 18], 1) := by decide +kernel

/-- No counterpart in /repo: a game whose Metamod library cannot be opened. -/
def noCore (c : Call) : Nat :=
  match c with
  | .openCore _ => 0
  | c => game c

/-- A Load that fails after the engine was found is tried again when the engine asks again, and adapts the table a second time
(loader/serverplugin.cpp:103-159): then the engine calls `ClientPutInServer` for a client that leaves, `ClientCommand` for one that
connects, and a function without a result for `NetworkIDValidated`. -/
theorem second_load_shifts : ∃ s, Reach w0 s ∧ used s.log = 2 ∧ s.backend = Backend.tf2.idx ∧ ¬ Fits .tf2 s.vtab ∧
    Backend.tf2.callbacks[10]? = some .ClientDisconnect ∧ s.vtab[10]? = some Cb.ClientPutInServer.fn ∧
    Backend.tf2.callbacks[14]? = some .ClientConnect ∧ s.vtab[14]? = some Cb.ClientCommandArgs.fn ∧
    Backend.tf2.callbacks[16]? = some .NetworkIDValidated ∧ s.vtab[16]? = some Cb.OnQueryCvarValueFinished.fn := by
  have key : (match exec w0 5 (prog noCore [.create (bytes "ISERVERPLUGINCALLBACKS002"), .load, .create (bytes "ISERVERPLUGINCALLBACKS002"), .load])
      (init fun _ => 9) with
    | .ok r => decide (used r.1.log = 2 ∧ r.1.backend = 15 ∧ fitsB .tf2 r.1.vtab = false ∧ r.1.vtab[10]? = some 12 ∧ r.1.vtab[14]? = some 100 ∧ r.1.vtab[16]? = some 18)
    | .error _ => false) = true := by decide +kernel
  split at key
  · next r e =>
    obtain ⟨k1, k2, k3, k4, k5, k6⟩ := of_decide_eq_true key
    refine ⟨r.1, ⟨_, _, _, _, e⟩, k1, k2, ?_, rfl, k4, rfl, k5, rfl, k6⟩
    intro hf
    rw [fitsB_iff.2 hf] at k3
    cases k3
  · cases key

end Verif.Loader

#print axioms Verif.Loader.adapted_fits
#print axioms Verif.Loader.table_once_partial
#print axioms Verif.Loader.first_load_fits
#print axioms Verif.Loader.second_load_shifts
