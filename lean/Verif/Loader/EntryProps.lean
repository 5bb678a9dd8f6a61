import Verif.Loader.Inv
import Verif.Loader.BackendProps
import Verif.Util.IfaceProps
/-
C43: the protocol of the loader's entry point.
-/
namespace Verif.Loader
open Verif.Util (digits3)

/-- The name of the server plugin interface, without version. -/
def vspName : List Byte := bytes "ISERVERPLUGINCALLBACKS"

theorem starts_iff {p name : List Byte} : starts p name = true ↔ ∃ r, name = p ++ r := by
  unfold starts
  rw [List.isPrefixOf_iff_prefix]
  exact ⟨fun ⟨r, h⟩ => ⟨r, h.symm⟩, fun ⟨r, h⟩ => ⟨r, h.symm⟩⟩

theorem vspName_length : vspName.length = 22 := by decide

theorem toPtr_ne_vsp (n : Nat) : toPtr n ≠ .vsp := by unfold toPtr; split <;> simp

/-- C43: the server plugin's callbacks are handed out exactly for interface versions up to 2 and while no
server plugin bridge is active, in every state and whatever external code does. -/
theorem vsp_handed_iff {w : World} {h : Beh} {name : List Byte} {s : St} :
    (∃ s' c, createInterface w h name s = .ok (s', .vsp, c)) ↔ s.vspBridge = none ∧ ∃ r, name = vspName ++ r ∧ atoi r ≤ 2 := by
  have hs : starts (bytes "ISERVERPLUGINCALLBACKS") name = true ↔ ∃ r, name = vspName ++ r := starts_iff
  constructor
  · rintro ⟨s', c, e⟩
    unfold createInterface at e
    split at e
    · cases e
    · rename_i hb
      have hb : s.vspBridge = none := by simpa using hb
      split at e
      · rename_i hn
        obtain ⟨r, hr⟩ := hs.1 hn
        have hd : name.drop 22 = r := by rw [hr, ← vspName_length]; simp
        refine ⟨hb, r, hr, ?_⟩
        rw [hd] at e
        unfold getVspCallbacks at e
        rw [hb] at e
        simp only [Option.isSome_none, Bool.false_eq_true, if_false] at e
        split at e
        · injection e with e; injection e with _ e; injection e with e _; cases e
        · omega
      · split at e
        · obtain ⟨x, _, e⟩ := bind_ok e
          injection e with e; injection e with _ e; injection e with e _
          exact absurd e (toPtr_ne_vsp _)
        · obtain ⟨x, _, e⟩ := bind_ok e
          injection e with e; injection e with _ e; injection e with e _
          exact absurd e (toPtr_ne_vsp _)
  · rintro ⟨hb, r, hr, hv⟩
    have hd : name.drop 22 = r := by rw [hr, ← vspName_length]; simp
    unfold createInterface
    rw [if_neg (by simp [hb]), if_pos (hs.2 ⟨r, hr⟩)]
    dsimp only
    rw [hd]
    unfold getVspCallbacks
    rw [if_neg (by simp [hb]), if_neg (by omega)]
    exact ⟨_, _, rfl⟩

theorem atoi_digits3 (v : Nat) (h : v < 1000) : atoi (digits3 v) = v := by
  have : ∀ v : Fin 1000, atoi (digits3 v.val) = v.val := by decide +kernel
  exact this ⟨v, h⟩

/-- C43: in terms of the usual names, `ISERVERPLUGINCALLBACKS` and three digits. -/
theorem vsp_handed_version {w : World} {h : Beh} {v : Nat} (hv : v < 1000) {s : St} :
    (∃ s' c, createInterface w h (vspName ++ digits3 v) s = .ok (s', .vsp, c)) ↔ s.vspBridge = none ∧ v ≤ 2 := by
  rw [vsp_handed_iff]
  constructor
  · rintro ⟨h1, r, hr, h2⟩
    have : digits3 v = r := List.append_cancel_left hr
    rw [← this, atoi_digits3 v hv] at h2
    exact ⟨h1, h2⟩
  · rintro ⟨h1, h2⟩
    exact ⟨h1, _, rfl, by rw [atoi_digits3 v hv]; exact h2⟩

/-- External code that answers and does nothing else. -/
def calm (f : Call → Nat) : Beh := fun c _ s => .ok (s, f c, 0)

/-- Facts for examples: the table of interface `p` is at `100 * p`. -/
def w0 : World := ⟨fun p => 100 * p, true, false, 1, 2, 3, 4⟩

def resPtr : R (St × Ptr × Int) → Option (Ptr × Int)
  | .ok r => some r.2
  | .error _ => none

example : resPtr (createInterface w0 (calm fun _ => 0) (bytes "ISERVERPLUGINCALLBACKS002") (init fun _ => 9)) = some (.vsp, 0) ∧
    resPtr (createInterface w0 (calm fun _ => 0) (bytes "ISERVERPLUGINCALLBACKS003") (init fun _ => 9)) = some (.null, 1) := by decide +kernel

/-- C43: while a server plugin bridge is active nothing is given out and nothing is done. -/
theorem bridged_refuses {w : World} {h : Beh} {name : List Byte} {s : St} (hb : s.vspBridge.isSome = true) :
    createInterface w h name s = .ok (s, .null, 1) := by
  unfold createInterface
  rw [if_pos hb]

example : ({ init (fun _ => 0) with vspBridge := some 3 }).vspBridge.isSome = true := rfl

/-- C43: while a core is active as the game, other requests go to it, once, and its answer and return code
are given back. -/
theorem core_forwards {w : World} {h : Beh} {name : List Byte} {s : St} {b : Nat} (hv : s.vspBridge = none) (hn : ∀ r, name ≠ vspName ++ r)
    (hb : s.gdBridge = some b) (ho : b ∈ s.opened) {s1 : St} {v : Nat} {c : Int}
    (e : h (.query name) s.log.length (s.note (.call (.query name) s.detected)) = .ok (s1, v, c)) :
    createInterface w h name s = .ok (s1.note (.ret (.query name) v), toPtr v, c) := by
  have hs : starts (bytes "ISERVERPLUGINCALLBACKS") name = false := by
    cases hx : starts (bytes "ISERVERPLUGINCALLBACKS") name with
    | false => rfl
    | true => obtain ⟨r, hr⟩ := starts_iff.1 hx; exact absurd hr (hn r)
  unfold createInterface
  rw [if_neg (by simp [hv]), if_neg (by simp [hs]), hb]
  dsimp only
  unfold extIn ext
  rw [if_pos ho, e]
  rfl

example : resPtr (createInterface w0 (calm fun _ => 7) (bytes "ServerGameClients004") { init (fun _ => 9) with gdBridge := some 3, opened := [3] }) =
    some (.ptr 7, 0) := by decide +kernel

/-- C43: otherwise the return code is 0 exactly if the pointer is not NULL. -/
theorem code_iff {w : World} {h : Beh} {name : List Byte} {s s' : St} {p : Ptr} {c : Int} (hb : s.gdBridge = none ∨ ∃ r, name = vspName ++ r)
    (e : createInterface w h name s = .ok (s', p, c)) : (c = 0 ↔ p ≠ .null) ∧ (c = 0 ∨ c = 1) := by
  have key : ∀ p : Ptr, (code p = 0 ↔ p ≠ .null) ∧ (code p = 0 ∨ code p = 1) := by
    intro p; unfold code; split <;> simp_all
  unfold createInterface at e
  split at e
  · cases e; simp
  split at e
  · cases e; exact key _
  · rename_i hn
    split at e
    · obtain ⟨x, _, e⟩ := bind_ok e
      cases e; exact key _
    · rename_i b hb'
      rcases hb with hb | hb
      · rw [hb] at hb'; cases hb'
      · exact absurd (starts_iff.2 hb) hn

example : ∃ s', createInterface w0 (calm fun _ => 0) (bytes "ServerGameDLL005") (init fun _ => 9) = .ok (s', .null, 1) := ⟨_, rfl⟩

/-- C43: in every history, with external code calling the loader again at any point, no game library is
asked for an interface before the game information was detected. -/
theorem asked_after_detection {w : World} {s : St} (h : Reach w s) {lib : Nat} {name : List Byte} {d : Int}
    (he : .call (.ask lib name) d ∈ s.log) : d = 1 := h.inv.log _ he

/-- A game library that answers everything. -/
def game (c : Call) : Nat :=
  match c with
  | .readInfo => 2
  | .openLib _ => 1
  | .sym _ => 1
  | .ask _ _ => 5
  | .engine => 15
  | .openCore _ => 1
  | .coreSym _ => 1
  | .post => 2
  | _ => 1

/-- A program of requests and calls, with `f` as answers. -/
def prog (f : Call → Nat) : List Op → Scr
  | [] => .ret 0 0
  | o :: os => .op o (fun c _ => .ret (f c) 0) fun _ => prog f os

def resLog (p : Ev → Bool) : R (St × Nat × Int) → Option (List Ev)
  | .ok r => some (r.1.log.filter p)
  | .error _ => none

def isAsk : Ev → Bool
  | .call (.ask _ _) _ => true
  | _ => false

example : resLog isAsk (exec w0 5 (prog game [.create (bytes "Foo001"), .create (bytes "ServerGameDLL005"), .create (bytes "Foo001")]) (init fun _ => 9)) =
    some [.call (.ask 0 (bytes "ServerGameDLL005")) 1, .call (.ask 0 (bytes "Foo001")) 1] := by decide +kernel

/-- C43: a request for any other interface before that is refused without asking anybody. -/
theorem too_early_refused {w : World} {h : Beh} {name : List Byte} {s : St} (hr : Reach w s) (hd : s.detected = 0) (hb : s.gdBridge = none)
    (h1 : ∀ r, name ≠ vspName ++ r) (h2 : ∀ r, name ≠ bytes "Source2Server" ++ r) (h3 : ∀ r, name ≠ bytes "ServerGameDLL" ++ r) :
    createInterface w h name s = .ok (s, .null, 1) := by
  have ns : ∀ p : List Byte, (∀ r, name ≠ p ++ r) → starts p name = false := by
    intro p hp
    cases hx : starts p name with
    | false => rfl
    | true => obtain ⟨r, hr⟩ := starts_iff.1 hx; exact absurd hr (hp r)
  have hl : s.lib = none := by
    cases hx : s.lib with
    | none => rfl
    | some l =>
      have := hr.inv.qvi (hr.inv.lib (by rw [hx]; rfl))
      omega
  have hcfg : starts (bytes "Source2ServerConfig") name = false := by
    refine ns _ fun r hr => h2 (bytes "Config" ++ r) ?_
    rw [hr, ← List.append_assoc]
    exact congrArg (· ++ r) (by decide)
  unfold createInterface
  split
  · rfl
  · rw [if_neg (by rw [ns (bytes "ISERVERPLUGINCALLBACKS") h1]; simp), hb]
    dsimp only
    unfold gameDllRequest
    rw [ns _ h2, ns _ h3, hcfg, hl]
    rfl

example : Reach w0 (init fun _ => 9) ∧ (init fun _ => 9).detected = 0 := ⟨⟨_, 0, .ret 0 0, _, rfl⟩, rfl⟩

/-- C43 fails for the second engine: its server interface requested before the configuration is a call of a
NULL factory (loader/gamedll.cpp:825). -/
theorem s2_server_first {w : World} (hw : w.dedicated = true) (h : Beh) (mem : Nat → Nat) :
    createInterface w h (bytes "Source2Server001") (init mem) = .error .nullCall := by
  have : gameDllRequest w h (bytes "Source2Server001") (init mem) = .error .nullCall := by
    unfold gameDllRequest
    rw [hw, if_neg (by simp), if_neg (by decide +kernel), if_pos (by decide +kernel)]
    rfl
  unfold createInterface
  rw [if_neg (by simp [init]), if_neg (by decide +kernel)]
  simp only [init] at this ⊢
  rw [this]
  rfl

example : w0.dedicated = true := rfl

/-- C43: every attempt to load as a server plugin uses up one handing out of the callbacks. -/
theorem loads_need_request {w : World} {s : St} (h : Reach w s) : used s.log ≤ handed s.log := by
  have := h.inv.once
  split at this <;> omega

/-- C43: without one, loading does nothing. -/
theorem load_refused {h : Beh} {s : St} (ha : s.allowed = false) : vspLoad h s = .ok (s, false) := by
  unfold vspLoad
  rw [if_pos ha]

example : (init fun _ => 9).allowed = false := rfl

example : resLog (fun e => e == .handOut || e == .loading) (exec w0 5 (prog game [.load, .create (bytes "ISERVERPLUGINCALLBACKS001"), .load, .load]) (init fun _ => 9)) =
    some [.handOut, .loading] := by decide +kernel

/-- C44: the core that is opened always has a name in the table. -/
theorem core_has_name {w : World} {s : St} (h : Reach w s) {b : Nat} {d : Int} (he : .call (.openCore b) d ∈ s.log) : ∃ n, backendNames[b]? = some n := by
  have : b < 28 := h.inv.log _ he
  have hl : backendNames.length = 28 := by decide
  exact ⟨_, List.getElem?_eq_getElem (by omega)⟩

def isCore : Ev → Bool
  | .call (.openCore _) _ => true
  | _ => false

example : resLog isCore (exec w0 5 (prog game [.create (bytes "ServerGameDLL005"), .slot 5 0]) (init fun _ => 9)) = some [.call (.openCore 15) 1] := by
  decide +kernel

/-! ### Findings -/

def resFault : R (St × Nat × Int) → Option Fault
  | .ok _ => none
  | .error f => some f

/-- `Unload` keeps the pointer to a bridge whose library it closes (loader/serverplugin.cpp:204-214); a second
one calls into it. -/
theorem unload_twice_unmapped : resFault (exec w0 5 (prog game [.create (bytes "ISERVERPLUGINCALLBACKS002"), .load, .unload, .unload]) (init fun _ => 9)) =
    some .unmapped := by decide +kernel

def resPtrOf (name : List Byte) : R (St × Nat × Int) → Option (Ptr × Int)
  | .ok r => resPtr (createInterface w0 (calm game) name r.1)
  | .error _ => none

/-- So after an unload the callbacks are never handed out again. -/
theorem unload_blocks_reload : resPtrOf (bytes "ISERVERPLUGINCALLBACKS002")
    (exec w0 5 (prog game [.create (bytes "ISERVERPLUGINCALLBACKS002"), .load, .unload]) (init fun _ => 9)) = some (.null, 1) := by decide +kernel

/-- The same when the game shuts down first: the server plugin's bridge lives in the core that is closed with the
game (loader/gamedll.cpp:571-601). -/
theorem shutdown_then_unload_unmapped : resFault (exec w0 5 (prog game [.create (bytes "ServerGameDLL005"), .slot 5 0,
    .create (bytes "ISERVERPLUGINCALLBACKS002"), .load, .slot 5 2, .unload]) (init fun _ => 9)) = some .unmapped := by decide +kernel

/-- Two game paths, the first library does not know the interface. -/
def second (c : Call) : Nat :=
  match c with
  | .readInfo => 3
  | .ask 0 _ => 0
  | c => game c

/-- `mm_FreeCachedLibraries` closes libraries and keeps their handles (loader/gamedll.cpp:222-230): a second request
for the game looks into a closed library. -/
theorem second_request_closed : resFault (exec w0 5 (prog second [.create (bytes "ServerGameDLL005"), .create (bytes "ServerGameDLL006")]) (init fun _ => 9)) =
    some .unmapped := by decide +kernel

#print axioms vsp_handed_iff
#print axioms vsp_handed_version
#print axioms bridged_refuses
#print axioms core_forwards
#print axioms code_iff
#print axioms asked_after_detection
#print axioms too_early_refused
#print axioms s2_server_first
#print axioms loads_need_request
#print axioms load_refused
#print axioms core_has_name
#print axioms unload_twice_unmapped
#print axioms unload_blocks_reload
#print axioms shutdown_then_unload_unmapped
#print axioms second_request_closed

end Verif.Loader
