import Verif.Prov.Engines
import Verif.Loader.BackendProps
import Verif.Core.BridgesProps
import Verif.Prov.KvFile
/-! C102: a build reports to plugins the engine it was made for. -/
namespace Verif.Prov.Eng

theorem pick_map {α : Type} {val : Engine → Nat} (hv : ∀ a b, val a = val b → a = b) (e : Engine) :
    ∀ l : List (Engine × α), pick val (val e) l = (l.find? (fun p => p.1 = e)).map (·.2)
  | [] => rfl
  | (x, a) :: l => by
    by_cases h : x = e
    · subst h; simp [pick]
    · have : val e ≠ val x := fun k => h (hv _ _ k).symm
      simp [pick, this, h, pick_map hv e l]

theorem pick_none {α : Type} {val : Engine → Nat} {build : Nat} : ∀ {l : List (Engine × α)},
    pick val build l = none ↔ ∀ p ∈ l, build ≠ val p.1
  | [] => by simp [pick]
  | (x, a) :: l => by
    by_cases h : build = val x
    · simp [pick, h]
    · simp [pick, h, pick_none (l := l)]

/-- C102. A build for an engine reports the number documented for that engine, whatever numbers the SDKs use, as long as they
differ; only the build for Episode One reports the oldest engine instead, and exactly for the game `ship`. -/
theorem number_right {val : Engine → Nat} (hv : ∀ a b, val a = val b → a = b) (e : Engine) (game : String) :
    (second e = false → engineBuild val (val e) game =
      some (if e = .episodeone ∧ game = "ship" then 1 else documented e)) ∧
    (second e = true → engineBuild2 val (val e) = some (documented e)) := by
  constructor
  · intro h
    unfold engineBuild number1 original
    rw [pick_map hv]
    by_cases he : e = .episodeone
    · subst he
      rw [if_pos rfl]
      by_cases hg : game = "ship"
      · simp only [hg, decide_true]; decide
      · simp only [hg, decide_false]; decide
    · have : val e ≠ val .episodeone := fun k => he (hv _ _ k)
      rw [if_neg this, if_neg (fun k => he k.1)]
      cases e <;> first | exact absurd rfl he | exact absurd h (by decide) | decide
  · intro h
    unfold engineBuild2
    rw [pick_map hv]
    cases e <;> first | exact absurd h (by decide) | decide

/-- The numbers in the examples. No counterpart in /repo: example. -/
def exVal (e : Engine) : Nat := 100 + documented e

theorem documented_inj (a b : Engine) (h : documented a = documented b) : a = b := by
  cases a <;> cases b <;> first | rfl | cases h

example : ∀ a b, exVal a = exVal b → a = b := fun a b h => documented_inj a b (by unfold exVal at h; omega)
example : engineBuild exVal (exVal .episodeone) "ship" = some 1 ∧ engineBuild exVal (exVal .episodeone) "hl2mp" = some 2 ∧
    engineBuild exVal (exVal .tf2) "ship" = some 17 := by decide

/-- C102. Nothing else compiles: a build whose number is that of no engine of the provider stops with `#error`. -/
theorem unknown_refused {val : Engine → Nat} {build : Nat} {game : String} :
    (engineBuild val build game = none ↔ ∀ e, second e = false → build ≠ val e) ∧
    (engineBuild2 val build = none ↔ ∀ e, second e = true → build ≠ val e) := by
  constructor
  · unfold engineBuild number1
    rw [pick_none]
    constructor
    · intro h e he
      have : ∃ p ∈ numbers1, p.1 = e := by cases e <;> first | exact absurd he (by decide) | decide
      obtain ⟨p, hp, rfl⟩ := this
      exact h (p.1, if p.1 = .episodeone ∧ original val build game then 1 else p.2) (List.mem_map.2 ⟨p, hp, rfl⟩)
    · intro h p hp
      obtain ⟨q, hq, rfl⟩ := List.mem_map.1 hp
      exact h q.1 ((by decide : ∀ q ∈ numbers1, second q.1 = false) q hq)
  · unfold engineBuild2
    rw [pick_none]
    constructor
    · intro h e he
      have : ∃ p ∈ numbers2, p.1 = e := by cases e <;> first | exact absurd he (by decide) | decide
      obtain ⟨p, hp, rfl⟩ := this
      exact h p hp
    · intro h p hp
      exact h p.1 ((by decide : ∀ q ∈ numbers2, second q.1 = true) p hp)

example : engineBuild exVal 5 "hl2" = none := by decide

/-- C102. The numbers tell the engines apart: two builds report the same only for the same engine, and none reports 0 (unknown),
6 (deprecated) or a number that is not documented. -/
theorem numbers_distinct {val : Engine → Nat} (hv : ∀ a b, val a = val b → a = b) {a b : Engine} {g g' : String}
    (ha : second a = false) (hb : second b = false) (h : engineBuild val (val a) g = engineBuild val (val b) g') :
    a = b ∧ (a = .episodeone → (g = "ship" ↔ g' = "ship")) ∧ ∃ n, engineBuild val (val a) g = some n ∧ 1 ≤ n ∧ n ≤ 27 ∧ n ≠ 6 := by
  have ea := (number_right hv a g).1 ha
  have eb := (number_right hv b g').1 hb
  have h1 : ∀ e : Engine, documented e ≠ 1 ∧ documented e ≠ 6 ∧ 1 ≤ documented e := by intro e; cases e <;> decide
  have h27 : documented a ≤ 27 := by cases a <;> first | exact absurd ha (by decide) | decide
  rw [ea, eb] at h
  injection h with h
  refine ⟨?_, ?_, ?_⟩
  · by_cases c1 : a = .episodeone ∧ g = "ship"
    · rw [if_pos c1] at h
      by_cases c2 : b = .episodeone ∧ g' = "ship"
      · rw [c1.1, c2.1]
      · rw [if_neg c2] at h; exact absurd h.symm (h1 b).1
    · rw [if_neg c1] at h
      by_cases c2 : b = .episodeone ∧ g' = "ship"
      · rw [if_pos c2] at h; exact absurd h (h1 a).1
      · rw [if_neg c2] at h; exact documented_inj _ _ h
  · rintro rfl
    by_cases c1 : g = "ship"
    · by_cases c2 : g' = "ship"
      · exact ⟨fun _ => c2, fun _ => c1⟩
      · rw [if_pos ⟨rfl, c1⟩, if_neg (fun k => c2 k.2)] at h; exact absurd h.symm (h1 b).1
    · by_cases c2 : g' = "ship"
      · by_cases hb' : b = .episodeone
        · rw [if_neg (fun k => c1 k.2), if_pos ⟨hb', c2⟩] at h; exact absurd h (h1 _).1
        · rw [if_neg (fun k => c1 k.2), if_neg (fun k => hb' k.1)] at h
          exact absurd (documented_inj _ _ h).symm hb'
      · exact ⟨fun k => absurd k c1, fun k => absurd k c2⟩
  · rw [ea]
    by_cases c1 : a = .episodeone ∧ g = "ship"
    · exact ⟨1, by rw [if_pos c1], by decide, by decide, by decide⟩
    · exact ⟨documented a, by rw [if_neg c1], (h1 a).2.2, h27, (h1 a).2.1⟩

/-- The engines of the first provider. No counterpart in /repo: a list. -/
def firsts : List Engine := numbers1.map (·.1)

theorem firsts_all (e : Engine) (h : second e = false) : e ∈ firsts := by
  cases e <;> first | exact absurd h (by decide) | decide

/-- The line of an engine in the two chains. No counterpart in /repo: for the proof. -/
def lineOf (e : Engine) (o : Bool) : Option String × Option Nat :=
  (((texts1.map fun p => (p.1, if p.1 = .episodeone ∧ o then "Original (pre-Episode 1)" else p.2)).find? (fun p => p.1 = e)).map (·.2),
   ((numbers1.map fun p => (p.1, if p.1 = .episodeone ∧ o then 1 else p.2)).find? (fun p => p.1 = e)).map (·.2))

theorem texts_table : ∀ a ∈ firsts, ∀ o : Bool, (lineOf a o).1.isSome = true ∧
    ∀ b ∈ firsts, ∀ o' : Bool, (lineOf a o).1 = (lineOf b o').1 ↔ (lineOf a o).2 = (lineOf b o').2 := by decide +kernel

/-- C102. The description goes with the number: every engine has one, and no two share one. -/
theorem text_right {val : Engine → Nat} (hv : ∀ a b, val a = val b → a = b) {a b : Engine} {o o' : Bool}
    (ha : second a = false) (hb : second b = false) :
    (∃ s, text1 val (val a) o = some s) ∧
    (text1 val (val a) o = text1 val (val b) o' ↔ number1 val (val a) o = number1 val (val b) o') := by
  unfold text1 number1
  rw [pick_map hv, pick_map hv, pick_map hv, pick_map hv]
  have ia := firsts_all a ha
  have ib := firsts_all b hb
  have all := texts_table a ia o
  exact ⟨Option.isSome_iff_exists.1 all.1, all.2 b ib o'⟩

theorem text2_right {val : Engine → Nat} (hv : ∀ a b, val a = val b → a = b) {a b : Engine} (ha : second a = true) (hb : second b = true) :
    (∃ s, pick val (val a) texts2 = some s) ∧ (pick val (val a) texts2 = pick val (val b) texts2 ↔ a = b) := by
  rw [pick_map hv, pick_map hv]
  cases a <;> (try cases ha) <;> refine ⟨⟨_, rfl⟩, ?_⟩ <;> cases b <;> (try cases hb) <;> decide +kernel

example : text1 exVal (exVal .css) false = some "Counter-Strike: Source (Valve Orange Box)" := by decide

/-- C102. From detection to the report: whatever the loader detects in a game of the first engine, the library it opens is built for
an engine of the first provider, which reports a documented number; different backends report different numbers. -/
theorem detected_reported {val : Engine → Nat} (hv : ∀ a b, val a = val b → a = b) (f : Loader.Facts) (game : String)
    (h : Loader.detect f ≠ .unknown) :
    ∃ e n, engineOf (Loader.detect f) = some e ∧ second e = false ∧ engineBuild val (val e) game = some n ∧
      (n = documented e ∨ (e = .episodeone ∧ game = "ship" ∧ n = 1)) ∧
      ∀ f', engineOf (Loader.detect f') = some e → Loader.detect f' = Loader.detect f := by
  obtain ⟨h1, h2, h3, h4⟩ := Loader.detect_not_obsolete f
  have : ∀ b : Loader.Backend, b ≠ .unknown → b ≠ .episode2ValveObsolete → b ≠ .dota → b ≠ .cs2 → b ≠ .deadlock →
      ∃ e, engineOf b = some e ∧ second e = false ∧ ∀ b', engineOf b' = some e → b' = b := by
    intro b n1 n2 n3 n4 n5
    cases b <;> first
      | contradiction
      | exact ⟨_, rfl, rfl, fun b' h => by cases b' <;> first | rfl | cases h⟩
  obtain ⟨e, he, hs, hu⟩ := this _ h h1 h2 h3 h4
  refine ⟨e, _, he, hs, (number_right hv e game).1 hs, ?_, fun f' h' => hu _ h'⟩
  by_cases c : e = .episodeone ∧ game = "ship"
  · rw [if_pos c]; exact Or.inr ⟨c.1, c.2, rfl⟩
  · rw [if_neg c]; exact Or.inl rfl

example : ∃ f, Loader.detect f ≠ .unknown :=
  ⟨⟨fun s => s = "VEngineServer023", fun _ => false, "tf", fun _ => false⟩, by decide⟩

/-- C102, finding: if two SDKs used the same number, the build for one of them would report the other: the first in the chain. -/
theorem shared_number_misreported : ∃ val : Engine → Nat, val .tf2 = val .css ∧ (∀ e, e ≠ .css → e ≠ .tf2 → val e ≠ val .tf2) ∧
    engineBuild val (val .tf2) "tf" = some (documented .css) := by
  refine ⟨fun e => if e = .tf2 then 13 else documented e, by decide, ?_, by decide⟩
  intro e h1 h2; cases e <;> first | exact absurd rfl h1 | exact absurd rfl h2 | decide

/-- C102, finding: the loader chooses the build for Half-Life 2 Deathmatch for games it knows only by `ServerGameClients005`, but the
provider asks for `ServerGameClients003` and `004` alone: for a game that offers only 005, whatever it answers there, no hook on the
commands of players is set, so `meta` typed by a player is not seen. -/
theorem newer_clients_not_hooked :
    (∃ f : Loader.Facts, f.srv "ServerGameClients005" = true ∧ f.srv "ServerGameClients003" = false ∧
      f.srv "ServerGameClients004" = false ∧ Loader.detect f = .hl2dm ∧
      Loader.detect { f with srv := fun s => f.srv s && s ≠ "ServerGameClients005" } = .sdk2013) ∧
    ∀ {w : Core.Br.World} {name : List Verif.C.Byte} {v : Int} {isgd : Nat} {s s' : Core.Br.St} {e : Option Core.Br.Err},
      Core.Br.dllInitPre w name v isgd s = .ok (s', e) →
      w.gs (Core.Br.bytes "ServerGameClients003") = 0 → w.gs (Core.Br.bytes "ServerGameClients004") = 0 →
      (∀ o, (o, Core.Br.Kind.clientCommand) ∉ s.hooks) → ∀ o, (o, Core.Br.Kind.clientCommand) ∉ s'.hooks := by
  refine ⟨⟨⟨fun s => s = "VEngineServer023", fun s => s = "ServerGameClients005", "mymod", fun _ => false⟩, by decide, by decide, by decide,
    by decide, by decide⟩, ?_⟩
  intro w name v isgd s s' e h h3 h4 hs o ho
  obtain ⟨_, _, _, _, _, _, hh, _⟩ := Core.Br.dllInit_hooks h
  rw [hh] at ho
  rcases List.mem_append.1 ho with ho | ho
  · exact hs o ho
  · simp [Core.Br.gameHooks, Core.Br.clients, h3, h4] at ho

example : (match Core.Br.dllInitPre { Core.Br.world 700 with gs := fun t => if t = Core.Br.bytes "ServerGameClients005" then 503 else 0 }
    (Core.Br.bytes "ServerGameDLL005") 5 500 Core.Br.init with | .ok (s, none) => s.hooks.length | _ => 0) = 3 := by decide +kernel

/-- C102. The oldest engine is taken for granted exactly in the build for Episode One with the game `ship`; only then .vdf files are
read by the special reader (C92), else by that of the engine. -/
theorem original_iff {val : Engine → Nat} (hv : ∀ a b, val a = val b → a = b) (e : Engine) (game : String) :
    (original val (val e) game = true ↔ e = .episodeone ∧ game = "ship") ∧
    ∀ (G : KvFile.Engine) (name : List Verif.C.Byte), KvFile.readKv G (original val (val e) game) name =
      if e = .episodeone ∧ game = "ship" then KvFile.kvLoad G name else .ok (G.load name, [.engineRead name]) := by
  have h : original val (val e) game = true ↔ e = .episodeone ∧ game = "ship" := by
    unfold original
    by_cases he : e = .episodeone
    · subst he; simp
    · rw [if_neg (fun k => he (hv _ _ k))]; simp [he]
  refine ⟨h, fun G name => ?_⟩
  unfold KvFile.readKv
  by_cases k : e = .episodeone ∧ game = "ship"
  · rw [if_pos k, if_pos (h.2 k)]
  · rw [if_neg k, if_neg (fun x => k (h.1 x))]

example : original exVal (exVal .episodeone) "ship" = true ∧ original exVal (exVal .tf2) "ship" = false ∧
    original exVal (exVal .episodeone) "hl2" = false := by decide

#print axioms original_iff
#print axioms number_right
#print axioms unknown_refused
#print axioms numbers_distinct
#print axioms text_right
#print axioms text2_right
#print axioms detected_reported
#print axioms shared_number_misreported
#print axioms newer_clients_not_hooked
end Verif.Prov.Eng
