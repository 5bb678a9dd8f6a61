import Verif.Loader.Backend
import Verif.Util.MiscProps
/-
C44: engine detection.
-/
namespace Verif.Loader
open Verif.C

/-! Specification: what kind of engine it is, then what game. -/

/-- Engines with interface 23 and the newer trace interface. -/
def New (f : Facts) : Prop := f.eng "VEngineServer023" = true ∧ f.eng "EngineTraceServer004" = true

/-- Engines with interface 22 and the matching console interface. -/
def Mid (f : Facts) : Prop :=
  f.eng "VEngineServer023" = false ∧ f.eng "VEngineServer022" = true ∧ f.eng "VEngineCvar007" = true

/-- Engines with interface 21 that are none of the above. -/
def Old (f : Facts) : Prop :=
  f.eng "VEngineServer023" = false ∧ ¬ (f.eng "VEngineServer022" = true ∧ f.eng "VEngineCvar007" = true) ∧
    f.eng "VEngineServer021" = true

/-- Old engines of the Orange Box kind with model interface 3. -/
def Box3 (f : Facts) : Prop :=
  Old f ∧ f.eng "VEngineCvar004" = true ∧ f.eng "VModelInfoServer002" = false ∧ f.eng "VModelInfoServer003" = true

/-- The engine shared by the newest old games. -/
def Shared (f : Facts) : Prop :=
  (f.eng "VEngineServer023" = true ∧ f.eng "EngineTraceServer004" = false) ∨
    (Box3 f ∧ f.eng "VFileSystem017" = false)

/-- Engines before the Orange Box. -/
def Ep1 (f : Facts) : Prop :=
  Old f ∧ f.eng "VEngineCvar004" = false ∧ f.eng "VModelInfoServer001" = true ∧
    (f.eng "VEngineCvar003" = true ∨ f.eng "VEngineCvar002" = true)

/-- The game is recognised by its directory or by a text in its image. -/
def Is (f : Facts) (dir text : String) : Prop := f.game = dir ∨ f.has text = true

def IsCss (f : Facts) : Prop := Is f "cstrike" "DT_CSPlayerResource"
def IsTf (f : Facts) : Prop := Is f "tf" "DT_TFPlayerResource"
def IsDod (f : Facts) : Prop := Is f "dod" "DT_DODPlayerResource"
def IsMock (f : Facts) : Prop := f.game = "." ∧ f.eng "MOCK_ENGINE" = true

/-- When each backend is the right one. -/
def Right (f : Facts) : Backend → Prop
  | .episode1 => Ep1 f ∧ f.game ≠ "."
  | .darkMessiah => Ep1 f ∧ f.game = "."
  | .episode2 => Old f ∧ f.eng "VEngineCvar004" = true ∧ f.eng "VModelInfoServer002" = true ∧ ¬ Is f "pm" "DT_PMPlayerResource"
  | .bloodyGoodTime => Old f ∧ f.eng "VEngineCvar004" = true ∧ f.eng "VModelInfoServer002" = true ∧ Is f "pm" "DT_PMPlayerResource"
  | .eye => Box3 f ∧ f.eng "VFileSystem017" = true
  | .css => Shared f ∧ IsCss f
  | .tf2 => Shared f ∧ ¬ IsCss f ∧ IsTf f
  | .dods => Shared f ∧ ¬ IsCss f ∧ ¬ IsTf f ∧ IsDod f
  | .pvkii => Shared f ∧ ¬ IsCss f ∧ ¬ IsTf f ∧ ¬ IsDod f ∧ f.game = "pvkii"
  | .mock => Shared f ∧ ¬ IsCss f ∧ ¬ IsTf f ∧ ¬ IsDod f ∧ IsMock f
  | .hl2dm => Shared f ∧ ¬ IsCss f ∧ ¬ IsTf f ∧ ¬ IsDod f ∧
      (f.game = "hl2mp" ∨ (f.game ≠ "pvkii" ∧ ¬ IsMock f ∧ f.srv "ServerGameClients005" = true))
  | .sdk2013 => Shared f ∧ ¬ IsCss f ∧ ¬ IsTf f ∧ ¬ IsDod f ∧ f.game ≠ "hl2mp" ∧ f.game ≠ "pvkii" ∧ ¬ IsMock f ∧
      f.srv "ServerGameClients005" = false
  | .left4Dead => Mid f ∧ f.eng "EngineTraceServer004" = false ∧ f.eng "VPrecacheSystem001" = false
  | .nuclearDawn => Mid f ∧ f.eng "EngineTraceServer004" = false ∧ f.eng "VPrecacheSystem001" = true ∧ f.srv "ServerGameTags002" = true
  | .contagion => Mid f ∧ f.eng "EngineTraceServer004" = false ∧ f.eng "VPrecacheSystem001" = true ∧
      f.srv "ServerGameTags002" = false ∧ Is f "contagion" "Contagion_Chat_All"
  | .left4Dead2 => Mid f ∧ f.eng "EngineTraceServer004" = false ∧ f.eng "VPrecacheSystem001" = true ∧
      f.srv "ServerGameTags002" = false ∧ ¬ Is f "contagion" "Contagion_Chat_All"
  | .alienSwarm => Mid f ∧ f.eng "EngineTraceServer004" = true ∧ f.eng "XboxSystemInterface001" = true
  | .portal2 => Mid f ∧ f.eng "EngineTraceServer004" = true ∧ f.eng "XboxSystemInterface001" = false ∧ Is f "portal2" "baseportalcombatweapon"
  | .blade => (Mid f ∧ f.eng "EngineTraceServer004" = true ∧ f.eng "XboxSystemInterface001" = false ∧ ¬ Is f "portal2" "baseportalcombatweapon") ∨
      (New f ∧ f.eng "IEngineSoundServer004" = false ∧ f.srv "ServerGameDLL010" = false ∧ f.srv "VSERVERTOOLS003" = true)
  | .doi => New f ∧ f.eng "IEngineSoundServer004" = true ∧ Is f "doi" "doi_gamerules_data"
  | .insurgency => New f ∧ f.eng "IEngineSoundServer004" = true ∧ ¬ Is f "doi" "doi_gamerules_data"
  | .bms => New f ∧ f.eng "IEngineSoundServer004" = false ∧ f.srv "ServerGameDLL010" = true
  | .mcv => New f ∧ f.eng "IEngineSoundServer004" = false ∧ f.srv "ServerGameDLL010" = false ∧ f.srv "VSERVERTOOLS003" = false ∧ f.game = "vietnam"
  | .csgo => New f ∧ f.eng "IEngineSoundServer004" = false ∧ f.srv "ServerGameDLL010" = false ∧ f.srv "VSERVERTOOLS003" = false ∧ f.game ≠ "vietnam"
  | .unknown => ¬ New f ∧ ¬ Mid f ∧ ¬ Shared f ∧ ¬ Ep1 f ∧ ¬ (Box3 f) ∧
      ¬ (Old f ∧ f.eng "VEngineCvar004" = true ∧ f.eng "VModelInfoServer002" = true)
  | .episode2ValveObsolete => False
  | .dota => False
  | .cs2 => False
  | .deadlock => False

theorem tf2Branch_right (f : Facts) (h : Shared f) : Right f (tf2Branch f) := by
  unfold tf2Branch
  simp only [Bool.or_eq_true, Bool.and_eq_true, decide_eq_true_eq]
  split
  · exact ⟨h, by assumption⟩
  split
  · exact ⟨h, by assumption, by assumption⟩
  split
  · exact ⟨h, by assumption, by assumption, by assumption⟩
  split
  · exact ⟨h, by assumption, by assumption, by assumption, .inl (by assumption)⟩
  split
  · exact ⟨h, by assumption, by assumption, by assumption, by assumption⟩
  split
  · exact ⟨h, by assumption, by assumption, by assumption, by assumption⟩
  split
  · exact ⟨h, by assumption, by assumption, by assumption, .inr ⟨by assumption, by assumption, by assumption⟩⟩
  · exact ⟨h, by assumption, by assumption, by assumption, by assumption, by assumption, by assumption, by simpa using ‹¬ f.srv _ = true›⟩

theorem detect_right (f : Facts) : Right f (detect f) := by
  unfold detect
  by_cases a : f.eng "VEngineServer023" = true
  · rw [if_pos a]
    by_cases b : f.eng "EngineTraceServer004" = true
    · have hn : New f := ⟨a, b⟩
      rw [if_neg (by simp [b])]
      repeat' split
      all_goals simp_all [Right, Is]
    · rw [if_pos (by simp [b])]
      exact tf2Branch_right f (.inl ⟨a, by simpa using b⟩)
  · rw [if_neg a]
    have a' : f.eng "VEngineServer023" = false := by simpa using a
    by_cases b : (f.eng "VEngineServer022" && f.eng "VEngineCvar007") = true
    · rw [if_pos b]
      have hm : Mid f := ⟨a', by simpa using b⟩
      repeat' split
      all_goals simp_all [Right, Is]
    · rw [if_neg b]
      by_cases c : f.eng "VEngineServer021" = true
      · rw [if_pos c]
        have ho : Old f := ⟨a', by simpa using b, c⟩
        by_cases d : f.eng "VEngineCvar004" = true
        · rw [if_pos d]
          by_cases e : f.eng "VModelInfoServer002" = true
          · rw [if_pos e]
            split <;> simp_all [Right, Is]
          · rw [if_neg e]
            by_cases g : f.eng "VModelInfoServer003" = true
            · rw [if_pos g]
              have hb : Box3 f := ⟨ho, d, by simpa using e, g⟩
              by_cases k : f.eng "VFileSystem017" = true
              · rw [if_pos k]; exact ⟨hb, k⟩
              · rw [if_neg k]; exact tf2Branch_right f (.inr ⟨hb, by simpa using k⟩)
            · rw [if_neg g]
              simp_all [Right, New, Mid, Shared, Ep1, Box3, Old]
        · rw [if_neg d]
          by_cases e : (f.eng "VModelInfoServer001" && (f.eng "VEngineCvar003" || f.eng "VEngineCvar002")) = true
          · rw [if_pos e]
            have he : Ep1 f := ⟨ho, by simpa using d, by simpa using e⟩
            split
            · exact ⟨he, by assumption⟩
            · exact ⟨he, by assumption⟩
          · rw [if_neg e]
            simp_all [Right, New, Mid, Shared, Ep1, Box3, Old]
      · rw [if_neg c]
        simp_all [Right, New, Mid, Shared, Ep1, Box3, Old]

theorem detect_shared {f : Facts} (h : Shared f) : detect f = tf2Branch f := by
  rcases h with h | h <;> simp_all [detect, Box3, Old]

/-- C44: detection picks exactly the backend that is right; in particular it always ends with one. -/
theorem detect_iff (f : Facts) (b : Backend) : detect f = b ↔ Right f b := by
  constructor
  · rintro rfl; exact detect_right f
  · intro h
    cases b <;> simp only [Right] at h
    case css => rw [detect_shared h.1]; simp_all [tf2Branch, IsCss, Is]
    case tf2 => rw [detect_shared h.1]; simp_all [tf2Branch, IsCss, IsTf, Is]
    case dods => rw [detect_shared h.1]; simp_all [tf2Branch, IsCss, IsTf, IsDod, Is]
    case pvkii => rw [detect_shared h.1]; simp_all [tf2Branch, IsCss, IsTf, IsDod, Is]
    case mock => rw [detect_shared h.1]; simp_all [tf2Branch, IsCss, IsTf, IsDod, Is, IsMock]
    case hl2dm =>
      rw [detect_shared h.1]
      obtain ⟨_, h1, h2, h3, h4 | ⟨h4, h5, h6⟩⟩ := h <;> simp_all [tf2Branch, IsCss, IsTf, IsDod, Is, IsMock]
    case sdk2013 => rw [detect_shared h.1]; simp_all [tf2Branch, IsCss, IsTf, IsDod, Is, IsMock]
    case blade => rcases h with h | h <;> simp_all [detect, Mid, New, Is]
    case unknown =>
      have hr := detect_right f
      generalize detect f = b at hr
      cases b <;> simp_all [Right]
    all_goals simp_all [detect, New, Mid, Ep1, Box3, Old, Is]

/-- A game for each kind of engine. -/
def box (game : String) (e : List String) : Facts := ⟨fun s => decide (s ∈ e), fun _ => false, game, fun _ => false⟩

example : Right (box "tf" ["VEngineServer023"]) .tf2 ∧ Right (box "." ["VEngineServer021", "VModelInfoServer001", "VEngineCvar003"]) .darkMessiah ∧
    Right (box "left4dead" ["VEngineServer022", "VEngineCvar007"]) .left4Dead := by
  refine ⟨(detect_iff _ _).1 ?_, (detect_iff _ _).1 ?_, (detect_iff _ _).1 ?_⟩ <;> simp [detect, tf2Branch, box]

/-- C44: the chosen index is an index of the table of names, or the engine is unknown and the table
is not used. -/
theorem detect_index (f : Facts) : detect f = .unknown ∨ ∃ n, backendNames[(detect f).idx]? = some n := by
  generalize detect f = b
  cases b <;> simp [Backend.idx, backendNames]

example : detect (box "csgo" ["VEngineServer023", "EngineTraceServer004"]) = .csgo := by simp [detect, box]

/-- C44: an obsolete backend is never chosen, nor one of the second engine's. -/
theorem detect_not_obsolete (f : Facts) : detect f ≠ .episode2ValveObsolete ∧ detect f ≠ .dota ∧ detect f ≠ .cs2 ∧ detect f ≠ .deadlock :=
  ⟨fun h => (detect_iff f _).1 h, fun h => (detect_iff f _).1 h, fun h => (detect_iff f _).1 h, fun h => (detect_iff f _).1 h⟩

example : detect (box "ep2" ["VEngineServer021", "VEngineCvar004", "VModelInfoServer002"]) = .episode2 := by simp [detect, box]

/-- An engine and a game for each backend. -/
def wit : Backend → Facts
  | .episode1 => box "ep1" ["VEngineServer021", "VModelInfoServer001", "VEngineCvar002"]
  | .darkMessiah => box "." ["VEngineServer021", "VModelInfoServer001", "VEngineCvar003"]
  | .episode2 => box "ep2" ["VEngineServer021", "VEngineCvar004", "VModelInfoServer002"]
  | .bloodyGoodTime => box "pm" ["VEngineServer021", "VEngineCvar004", "VModelInfoServer002"]
  | .eye => box "eye" ["VEngineServer021", "VEngineCvar004", "VModelInfoServer003", "VFileSystem017"]
  | .css => box "cstrike" ["VEngineServer023"]
  | .tf2 => box "tf" ["VEngineServer023"]
  | .dods => box "dod" ["VEngineServer021", "VEngineCvar004", "VModelInfoServer003"]
  | .hl2dm => box "hl2mp" ["VEngineServer023"]
  | .pvkii => box "pvkii" ["VEngineServer023"]
  | .mock => box "." ["VEngineServer023", "MOCK_ENGINE"]
  | .sdk2013 => box "mod" ["VEngineServer023"]
  | .left4Dead => box "l4d" ["VEngineServer022", "VEngineCvar007"]
  | .nuclearDawn => ⟨fun s => decide (s ∈ ["VEngineServer022", "VEngineCvar007", "VPrecacheSystem001"]), fun s => s == "ServerGameTags002", "nd", fun _ => false⟩
  | .contagion => box "contagion" ["VEngineServer022", "VEngineCvar007", "VPrecacheSystem001"]
  | .left4Dead2 => box "l4d2" ["VEngineServer022", "VEngineCvar007", "VPrecacheSystem001"]
  | .alienSwarm => box "swarm" ["VEngineServer022", "VEngineCvar007", "EngineTraceServer004", "XboxSystemInterface001"]
  | .portal2 => box "portal2" ["VEngineServer022", "VEngineCvar007", "EngineTraceServer004"]
  | .blade => box "blade" ["VEngineServer022", "VEngineCvar007", "EngineTraceServer004"]
  | .doi => box "doi" ["VEngineServer023", "EngineTraceServer004", "IEngineSoundServer004"]
  | .insurgency => box "ins" ["VEngineServer023", "EngineTraceServer004", "IEngineSoundServer004"]
  | .bms => ⟨fun s => decide (s ∈ ["VEngineServer023", "EngineTraceServer004"]), fun s => s == "ServerGameDLL010", "bms", fun _ => false⟩
  | .mcv => box "vietnam" ["VEngineServer023", "EngineTraceServer004"]
  | .csgo => box "csgo" ["VEngineServer023", "EngineTraceServer004"]
  | _ => box "" []

/-- C44: every other backend of the first engine is chosen for some engine and game. -/
theorem detect_onto (b : Backend) (h1 : b ≠ .episode2ValveObsolete) (h2 : b ≠ .dota) (h3 : b ≠ .cs2) (h4 : b ≠ .deadlock) : ∃ f, detect f = b := by
  refine ⟨wit b, ?_⟩
  cases b <;> simp_all [wit, detect, tf2Branch, box]

example : Backend.blade ≠ .episode2ValveObsolete ∧ Backend.blade ≠ .dota ∧ Backend.blade ≠ .cs2 ∧ Backend.blade ≠ .deadlock := by decide

/-- C44: the second engine's choice is one of its three backends, and always has a name. -/
theorem detectS2_spec (g : String) : (detectS2 g = .deadlock ↔ sameNoCase "citadel" g = true) ∧ (detectS2 g = .cs2 ↔ sameNoCase "csgo" g = true) ∧
    (detectS2 g = .dota ↔ sameNoCase "citadel" g = false ∧ sameNoCase "csgo" g = false) ∧ ∃ n, backendNames[(detectS2 g).idx]? = some n := by
  have hx : ¬ (sameNoCase "citadel" g = true ∧ sameNoCase "csgo" g = true) := by
    rintro ⟨h1, h2⟩
    simp only [sameNoCase, beq_iff_eq] at h1 h2
    exact absurd (h1.trans h2.symm) (by decide)
  unfold detectS2
  cases h1 : sameNoCase "citadel" g <;> cases h2 : sameNoCase "csgo" g <;> simp_all [Backend.idx, backendNames]

example : detectS2 "CSGO" = .cs2 ∧ detectS2 "citadel" = .deadlock ∧ detectS2 "dota" = .dota := by decide

/-- C44: no two backends share a library. -/
theorem names_distinct (a b : Backend) (h : backendNames[a.idx]? = backendNames[b.idx]?) : a = b := by
  cases a <;> cases b <;> first | rfl | (exfalso; revert h; decide)

example : backendNames[Backend.blade.idx]? = some "2.blade" := rfl

theorem upToSlash_spec {d f : List Byte} (h : 47 ∉ f) : upToSlash (d ++ 47 :: f) = some (d ++ [47]) := by
  have hf : ∀ (l : List Byte) (r : List Byte), 47 ∉ l → (l ++ r).dropWhile (· ≠ 47) = r.dropWhile (· ≠ 47) := by
    intro l r hl
    induction l with
    | nil => rfl
    | cons c l ih =>
      have hc : c ≠ 47 := fun e => hl (by simp [e])
      rw [List.cons_append, List.dropWhile_cons_of_pos (by simpa using hc)]
      exact ih fun hm => hl (List.mem_cons_of_mem _ hm)
  unfold upToSlash
  rw [List.reverse_append, List.reverse_cons, List.append_assoc, hf _ _ (by simpa using h)]
  simp

theorem upToSlash_none {p : List Byte} (h : 47 ∉ p) : upToSlash p = none := by
  unfold upToSlash
  have : ∀ l : List Byte, 47 ∉ l → l.dropWhile (· ≠ 47) = [] := by
    intro l hl
    induction l with
    | nil => rfl
    | cons c l ih =>
      have hc : c ≠ 47 := fun e => hl (by simp [e])
      rw [List.dropWhile_cons_of_pos (by simpa using hc)]
      exact ih fun hm => hl (List.mem_cons_of_mem _ hm)
  rw [this _ (by simpa using h)]

/-- C44: the library opened lies in the directory of the loader and has the name of the backend, if the
path fits the buffer of `cap` bytes; without a directory nothing is opened. -/
theorem libraryPath_spec {cap : Nat} {d f : List Byte} {b : Backend} {n : String} (hf : 47 ∉ f) (hn : backendNames[b.idx]? = some n)
    (hc : (d ++ 47 :: f).length < cap) (hc' : d.length + 1 + (bytes "metamod." ++ bytes n ++ bytes ".so").length < cap) :
    libraryPath cap (some (d ++ 47 :: f)) b = .path (d ++ [47] ++ bytes "metamod." ++ bytes n ++ bytes ".so") := by
  unfold libraryPath
  dsimp only
  rw [List.take_of_length_le (by omega), upToSlash_spec hf, hn]
  dsimp only
  rw [List.take_of_length_le (by simp only [List.length_append, List.length_cons, List.length_nil] at *; omega)]
  simp [List.append_assoc]

example : libraryPath 8192 (some (bytes "/srv/addons/metamod/bin/server.so")) .tf2 = .path (bytes "/srv/addons/metamod/bin/metamod.2.tf2.so") := by
  decide +kernel

/-- C44: the table is never read outside, whatever engine and game. -/
theorem library_index (cap : Nat) (own : Option (List Byte)) (b : Backend) : libraryPath cap own b = .badIndex → b = .unknown := by
  intro h
  unfold libraryPath at h
  cases b <;> first | rfl | (exfalso; revert h; cases own <;> simp [Backend.idx, backendNames] <;> split <;> simp)

example : libraryPath 8192 (some (bytes "/a/server.so")) .unknown = .badIndex := by decide +kernel

theorem strncpy_spec {b : Buf} {n : Nat} {s : List Byte} (hb : n ≤ b.length) (hs : s.length < n) (h0 : 0 ∉ s) :
    ∃ b', strncpy b n s = .ok b' ∧ b'.length = b.length ∧ IsStr b' s := by
  refine ⟨s ++ List.replicate (n - s.length) 0 ++ b.drop n, ?_, ?_, ?_⟩
  · unfold strncpy wrs
    have : s.take n = s := List.take_of_length_le (by omega)
    rw [this, if_pos (by simp; omega)]
    have : s.length + (n - s.length) = n := by omega
    simp [this]
  · simp; omega
  · refine ⟨List.replicate (n - s.length - 1) 0 ++ b.drop n, ?_, h0⟩
    obtain ⟨k, hk⟩ : ∃ k, n - s.length = k + 1 := ⟨n - s.length - 1, by omega⟩
    rw [hk]
    simp [List.replicate_succ]

theorem getGameName_of {cmdline app : Option (List Byte)} {b b1 : Buf} {n : Nat} {s : List Byte} (h : nameOrId cmdline app b n = .ok b1)
    (hl : n ≤ b1.length) (hn : 2 ≤ n) (hs : IsStr b1 s) :
    ∃ b', getGameName cmdline app b n = .ok b' ∧ b'.length = b1.length ∧ IsStr b' (if s = [] then bytes "." else s) := by
  obtain ⟨rest, hr, h0⟩ := hs
  unfold getGameName
  rw [h]
  simp only [bind, Except.bind]
  cases s with
  | nil =>
    have e : rd b1 0 = .ok 0 := by rw [hr]; rfl
    rw [e]
    dsimp only
    rw [if_pos rfl, if_pos rfl]
    exact strncpy_spec hl (Nat.lt_of_lt_of_le (by decide) hn) (by decide)
  | cons c s =>
    have e : rd b1 0 = .ok c := by rw [hr]; rfl
    have hc : c ≠ 0 := fun e => h0 (by simp [e])
    rw [e]
    dsimp only
    rw [if_neg hc, if_neg (by simp)]
    exact ⟨b1, rfl, rfl, rest, hr, h0⟩

/-- The name for an app id. -/
def appName (a : Option (List Byte)) : List Byte :=
  match a.map strtoul with
  | some 570 => bytes "dota"
  | some 730 => bytes "csgo"
  | some 1422450 => bytes "citadel"
  | _ => bytes "."

/-- C44: the game name is the argument of the first `-game` (cut to the buffer), unless that looks like an
option or is empty. -/
theorem gameName_argument {A B : List (List Byte)} {v : List Byte} {app : Option (List Byte)} {b : Buf} {n : Nat}
    (hargs : ∀ a ∈ A ++ bytes "-game" :: v :: B, 0 ∉ a) (hA : bytes "-game" ∉ A) (hv : v.head? ≠ some 45) (hn : 2 ≤ n) (hb : n ≤ b.length) :
    ∃ b', getGameName (some (Verif.Util.cmdBytes (A ++ bytes "-game" :: v :: B))) app b n = .ok b' ∧ b'.length = b.length ∧
      IsStr b' (if v = [] then bytes "." else v.take (n - 1)) := by
  obtain ⟨b1, e1, h1, h2⟩ := Verif.Util.argument_value (b := b) (n := n) hargs hA hv (by omega) hb
  have hx : nameOrId (some (Verif.Util.cmdBytes (A ++ bytes "-game" :: v :: B))) app b n = .ok b1 := by
    unfold nameOrId
    rw [e1]
    simp [bind, Except.bind]
  obtain ⟨b', e, hl, hs⟩ := getGameName_of hx (by omega) hn h2
  refine ⟨b', e, by omega, ?_⟩
  cases v with
  | nil => simpa using hs
  | cons c v =>
    rw [if_neg (by cases n with | zero => omega | succ n => cases n with | zero => omega | succ n => simp)] at hs
    rw [if_neg (by simp)]
    exact hs

example : (getGameName (some (bytes "srcds\x00-game\x00tf\x00")) none (List.replicate 16 1) 8).toOption.map (·.take 4) = some [116, 102, 0, 0] := by decide +kernel

/-- C44: `-game` without a usable argument gives the current directory, whatever the app id. -/
theorem gameName_no_value {A B : List (List Byte)} {app : Option (List Byte)} {b : Buf} {n : Nat}
    (hargs : ∀ a ∈ A ++ bytes "-game" :: B, 0 ∉ a) (hA : bytes "-game" ∉ A) (hB : ∀ v ∈ B.head?, v.head? = some 45) (hn : 2 ≤ n) (hb : n ≤ b.length) :
    ∃ b', getGameName (some (Verif.Util.cmdBytes (A ++ bytes "-game" :: B))) app b n = .ok b' ∧ b'.length = b.length ∧ IsStr b' (bytes ".") := by
  obtain ⟨b1, e1, h1, h2⟩ := Verif.Util.argument_without_value (b := b) (n := n) hargs hA hB (by omega)
  have hx : nameOrId (some (Verif.Util.cmdBytes (A ++ bytes "-game" :: B))) app b n = .ok b1 := by
    unfold nameOrId
    rw [e1]
    simp [bind, Except.bind]
  obtain ⟨b', e, hl, hs⟩ := getGameName_of hx (by omega) hn h2
  exact ⟨b', e, by omega, by simpa using hs⟩

example : (getGameName (some (bytes "srcds\x00-game\x00-dedicated\x00")) (some (bytes "730")) (List.replicate 16 1) 8).toOption.map (·.take 2) = some [46, 0] := by
  decide +kernel

/-- C44: without `-game` the app id decides. -/
theorem gameName_app {args : List (List Byte)} {app : Option (List Byte)} {b : Buf} {n : Nat}
    (hargs : ∀ a ∈ args, 0 ∉ a) (hA : bytes "-game" ∉ args) (hn : 8 ≤ n) (hb : n ≤ b.length) :
    ∃ b', getGameName (some (Verif.Util.cmdBytes args)) app b n = .ok b' ∧ getGameName none app b n = .ok b' ∧ b'.length = b.length ∧ IsStr b' (appName app) := by
  obtain ⟨b1, e1, e2, h1, h2⟩ := Verif.Util.argument_absent (b := b) (n := n) hargs hA (by omega)
  have hx : ∃ b2 s, byAppId b1 n app = .ok b2 ∧ b2.length = b1.length ∧ IsStr b2 s ∧ (if s = [] then bytes "." else s) = appName app := by
    unfold byAppId
    cases app with
    | none => exact ⟨b1, [], rfl, rfl, h2, rfl⟩
    | some a =>
      dsimp only
      have hap : ∀ k, strtoul a = k → appName (some a) = (match some k with | some 570 => bytes "dota" | some 730 => bytes "csgo" | some 1422450 => bytes "citadel" | _ => bytes ".") := by
        intro k hk; simp only [appName, Option.map_some, hk]
      split
      · obtain ⟨b2, e, hl, hs⟩ := strncpy_spec (b := b1) (n := n) (s := bytes "dota") (by omega) (Nat.lt_of_lt_of_le (by decide) hn) (by decide)
        exact ⟨b2, _, e, hl, hs, by rw [hap _ ‹_›]; rfl⟩
      split
      · obtain ⟨b2, e, hl, hs⟩ := strncpy_spec (b := b1) (n := n) (s := bytes "csgo") (by omega) (Nat.lt_of_lt_of_le (by decide) hn) (by decide)
        exact ⟨b2, _, e, hl, hs, by rw [hap _ ‹_›]; rfl⟩
      split
      · obtain ⟨b2, e, hl, hs⟩ := strncpy_spec (b := b1) (n := n) (s := bytes "citadel") (by omega) (Nat.lt_of_lt_of_le (by decide) hn) (by decide)
        exact ⟨b2, _, e, hl, hs, by rw [hap _ ‹_›]; rfl⟩
      · refine ⟨b1, [], rfl, rfl, h2, ?_⟩
        rw [hap _ rfl]
        split <;> simp_all
  obtain ⟨b2, s, e3, hl2, hs2, hs⟩ := hx
  have hy : ∀ c, Verif.Util.getCommandArgument c (bytes "-game") (some b) n = .ok (false, some b1) → nameOrId c app b n = .ok b2 := by
    intro c hc
    unfold nameOrId
    rw [hc]
    simpa [bind, Except.bind] using e3
  obtain ⟨b', e, hl, hs'⟩ := getGameName_of (hy _ e1) (by omega) (by omega) hs2
  refine ⟨b', e, ?_, by omega, by rw [← hs]; exact hs'⟩
  unfold getGameName at e ⊢
  rw [hy _ e2, ← hy _ e1]; exact e

example : (getGameName (some (bytes "cs2\x00-dedicated\x00")) (some (bytes "730")) (List.replicate 16 1) 8).toOption.map (·.take 5) = some [99, 115, 103, 111, 0] := by
  decide +kernel

#print axioms detect_iff
#print axioms detect_index
#print axioms detect_not_obsolete
#print axioms detect_onto
#print axioms detectS2_spec
#print axioms names_distinct
#print axioms libraryPath_spec
#print axioms library_index
#print axioms gameName_argument
#print axioms gameName_no_value
#print axioms gameName_app

end Verif.Loader
