import Verif.Core.Commands
import Verif.Core.ConsoleProps
import Verif.Core.ReportProps
import Verif.Core.PluginFileProps
import Verif.Mgr.LoadProps
/-
C79: who is answered by `meta`, and what the game still sees of it.
-/
namespace Verif.Cmds

open Verif.C Verif.Util Verif.PFile Verif.Report

/-! ### Spec -/

/-- The text of the credits. -/
def creditText : List Byte := str
  "Metamod:Source was developed by:\n  SourceHook: Pavol \"PM OnoTo\" Marko\n  GameDLL/Plugins: David \"BAILOPAN\" Anderson\n  GameDLL: Scott \"DS\" Ehlert\nFor more information, see the official website\nhttp://www.metamodsource.net/\n"

/-- The text with the versions. -/
def versionText (V : Ver) : List Byte :=
  str " Metamod:Source Version Information\n    Metamod:Source version " ++ V.version ++ str "\n    Plugin interface version: " ++ V.api.1 ++ str ":" ++ V.api.2 ++
  str "\n    SourceHook version: " ++ V.hook.1 ++ str ":" ++ V.hook.2 ++ str "\n    Loaded As: " ++
  (if V.gamedll then str "GameDLL (gameinfo.txt)" else str "Valve Server Plugin") ++ str "\n    Compiled on: " ++ V.stamp ++ str "\n" ++
  ((V.build.map fun x => str "    Built from: https://github.com/alliedmodders/metamod-source/commit/" ++ x.1 ++ str "\n    Build ID: " ++ x.2 ++ str ":" ++ x.1 ++ str "\n").getD []) ++
  str "    http://www.metamodsource.net/\n"

/-- The text of the menu. -/
def menuText : List Byte := str
  "Metamod:Source Menu\nusage: meta <command>\n  credits - About Metamod:Source\n  list    - List plugins\n  version - Version information\n"

/-- What a player is to read after `meta` and the words `rest`. -/
inductive Shows (E : Env) (s : Mgr.St) : Line → List Byte → Prop
  | credits : Shows E s [str "credits"] creditText
  | version : Shows E s [str "version"] (versionText E.ver)
  | listNone : Visible E.rep s s.plugins [] → Shows E s [str "list"] (str "No active plugins loaded.\n")
  | list {ps : List (Mgr.Plug × Nat)} : Visible E.rep s s.plugins ps → ps ≠ [] →
      Shows E s [str "list"] (ps.mapIdx fun k x => (wholeLine (E.rep.num (k + 1)) none (some (E.rep.info x.2)) x.1.file).take 255 ++ [10]).flatten
  | menu {rest : Line} : (∀ c, rest = [c] → c ≠ str "credits" ∧ c ≠ str "version" ∧ c ≠ str "list") → Shows E s rest menuText

/-- A text without a NUL that is not too long. -/
def Short (t : List Byte) : Prop := 0 ∉ t ∧ t.length ≤ 900

/-- The array is one, and the texts are texts. -/
structure Env.Ok (E : Env) (s : Mgr.St) : Prop where
  out : E.out.length = 2048
  rep : E.rep.Ok s
  ver : Short E.ver.version ∧ Short E.ver.api.1 ∧ Short E.ver.api.2 ∧ Short E.ver.hook.1 ∧ Short E.ver.hook.2 ∧ Short E.ver.stamp
  build : ∀ x, E.ver.build = some x → Short x.1 ∧ Short x.2

/-- Every plugin in the list is there and its status was written. -/
def Settled (s : Mgr.St) : Prop := ∀ o ∈ s.plugins, ∃ p, s.objs o = some p ∧ p.status ≠ .uninit

/-- The player, or the console if there is none. -/
def addressee : Option Nat → Who
  | some p => .player (some p)
  | none => .console

/-- All that is printed is for one reader, who reads `t`. -/
def Reads (who : Who) (ms : List Msg) (t : List Byte) : Prop := (∀ m ∈ ms, m.1 = who) ∧ ms.flatMap (·.2) = t

/-! ### Printing -/

/-- C79: what is printed is the text, cut after 2047 bytes; the array is not left. -/
theorem printed {b : Buf} (hb : b.length = 2048) {t : List Byte} (h0 : 0 ∉ t) : formatted b t = .ok (t.take 2047) := by
  obtain ⟨b', e, h⟩ := format_spec (b := b) (n := 2048) (by omega) (by omega) t []
  unfold formatted
  simp only [e, Report.liftB, bind, Except.bind]
  rw [h, cstr_of ⟨_, rfl, fun h => h0 (List.mem_of_mem_take h)⟩]

theorem client_prints {b : Buf} (hb : b.length = 2048) {t : List Byte} (h0 : 0 ∉ t) (c : Option Nat) : clientConPrintf b c t = .ok (.player c, t.take 2047) := by
  unfold clientConPrintf
  rw [printed hb h0]
  rfl

theorem con_prints {b : Buf} (hb : b.length = 2048) {t : List Byte} (h0 : 0 ∉ t) : conPrintf b t = .ok (.console, t.take 2047) := by
  unfold conPrintf
  rw [printed hb h0]
  rfl

theorem cmdMsg_prints {b : Buf} (hb : b.length = 2048) {t : List Byte} (h0 : 0 ∉ t) (c : Option Nat) : cmdMsg b c t = .ok (addressee c, t.take 2047) := by
  unfold cmdMsg
  cases c with
  | none => rw [if_neg (by simp), con_prints hb h0]; rfl
  | some p => rw [if_pos (by simp), client_prints hb h0]; rfl

theorem says_map {f : List Byte → Except Flt Msg} {g : List Byte → Msg} : ∀ ts : List (List Byte), (∀ t ∈ ts, f t = .ok (g t)) → says f ts = .ok (ts.map g)
  | [], _ => rfl
  | t :: ts, h => by
    rw [says, h t (.head _), says_map ts (fun u hu => h u (.tail _ hu))]
    rfl

/-- Texts that are printed whole. -/
def Whole (ts : List (List Byte)) : Prop := ∀ t ∈ ts, 0 ∉ t ∧ t.length ≤ 2047

theorem says_whole {f : List Byte → Except Flt Msg} {who : Who} (hf : ∀ t, 0 ∉ t → f t = .ok (who, t.take 2047)) {ts : List (List Byte)} (h : Whole ts) :
    ∃ ms, says f ts = .ok ms ∧ Reads who ms ts.flatten ∧ ms.length = ts.length := by
  refine ⟨ts.map fun t => (who, t), says_map _ fun t ht => ?_, ⟨?_, ?_⟩, by simp⟩
  · rw [hf t (h t ht).1, List.take_of_length_le (h t ht).2]
  · intro m hm
    obtain ⟨t, _, rfl⟩ := List.mem_map.1 hm
    rfl
  · rw [List.flatMap_map, List.flatMap_id']

theorem credit_whole : Whole creditLines := by
  unfold Whole creditLines
  decide +kernel

theorem menu_whole : Whole menuLines := by
  unfold Whole menuLines
  decide +kernel

theorem whole_line {pre u post : List Byte} (h1 : 0 ∉ pre ∧ pre.length ≤ 120) (h2 : Short u) (h3 : 0 ∉ post ∧ post.length ≤ 1020) : 0 ∉ pre ++ u ++ post ∧ (pre ++ u ++ post).length ≤ 2047 := by
  obtain ⟨h2, h2'⟩ := h2
  constructor
  · simp only [List.mem_append, not_or]
    exact ⟨⟨h1.1, h2⟩, h3.1⟩
  · rw [List.length_append, List.length_append]
    omega

theorem whole_tail {u : List Byte} (h : Short u) : 0 ∉ ([58] ++ u ++ [10] : List Byte) ∧ ([58] ++ u ++ [10] : List Byte).length ≤ 1020 := by
  obtain ⟨h1, h2⟩ := h
  constructor
  · simp only [List.mem_append, not_or]
    exact ⟨⟨by decide, h1⟩, by decide⟩
  · simp only [List.length_append, List.length_singleton]
    omega

theorem version_whole {E : Env} {s : Mgr.St} (h : E.Ok s) : Whole (versionLines E.ver) := by
  obtain ⟨h1, h2, h3, h4, h5, h6⟩ := h.ver
  have nl : (0 : Byte) ∉ ([10] : List Byte) ∧ ([10] : List Byte).length ≤ 1020 := by decide
  intro t ht
  unfold versionLines at ht
  simp only [List.mem_append, List.mem_cons, List.not_mem_nil, or_false] at ht
  rcases ht with ((ht | ht | ht | ht | ht | ht) | ht) | ht
  · rw [ht]; decide +kernel
  · rw [ht]; exact whole_line (by decide +kernel) h1 nl
  · rw [ht]
    have := whole_line (pre := str "    Plugin interface version: ") (by decide +kernel) h2 (whole_tail h3)
    simpa only [List.append_assoc] using this
  · rw [ht]
    have := whole_line (pre := str "    SourceHook version: ") (by decide +kernel) h4 (whole_tail h5)
    simpa only [List.append_assoc] using this
  · rw [ht]; split <;> decide +kernel
  · rw [ht]; exact whole_line (by decide +kernel) h6 nl
  · unfold buildLines at ht
    cases hb : E.ver.build with
    | none => rw [hb] at ht; cases ht
    | some x =>
      obtain ⟨sha, rev⟩ := x
      obtain ⟨g1, g2⟩ := h.build _ hb
      rw [hb] at ht
      simp only [List.mem_cons, List.not_mem_nil, or_false] at ht
      rcases ht with ht | ht
      · rw [ht]; exact whole_line (by decide +kernel) g1 nl
      · rw [ht]
        have := whole_line (pre := str "    Build ID: ") (by decide +kernel) g2 (whole_tail g1)
        simpa only [List.append_assoc] using this
  · rw [ht]; decide +kernel

theorem version_text (V : Ver) : (versionLines V).flatten = versionText V := by
  have e1 : str " Metamod:Source Version Information\n    Metamod:Source version " = str " Metamod:Source Version Information\n" ++ str "    Metamod:Source version " := by decide +kernel
  have e2 : str "\n    Plugin interface version: " = [10] ++ str "    Plugin interface version: " := by decide +kernel
  have e3 : str "\n    SourceHook version: " = [10] ++ str "    SourceHook version: " := by decide +kernel
  have e4 : ∀ (b : Bool) (x : List Byte), str "\n    Loaded As: " ++ ((if b then str "GameDLL (gameinfo.txt)" else str "Valve Server Plugin") ++ (str "\n    Compiled on: " ++ x)) =
      [10] ++ ((if b then str "    Loaded As: GameDLL (gameinfo.txt)\n" else str "    Loaded As: Valve Server Plugin\n") ++ (str "    Compiled on: " ++ x)) := by
    intro b x
    rw [← List.append_assoc, ← List.append_assoc, ← List.append_assoc, ← List.append_assoc]
    congr 1
    cases b <;> decide +kernel
  have e5 : str ":" = [58] := by decide +kernel
  have e6 : str "\n" = [10] := by decide +kernel
  have e7 : str "\n    Build ID: " = [10] ++ str "    Build ID: " := by decide +kernel
  unfold versionLines versionText buildLines
  cases hb : V.build with
  | none =>
    simp only [List.append_assoc, Option.map_none, Option.getD_none, List.nil_append]
    rw [e4]
    simp only [e1, e2, e3, e5, e6, List.flatten_append, List.flatten_cons, List.flatten_nil, List.append_assoc, List.append_nil]
  | some x =>
    obtain ⟨sha, rev⟩ := x
    simp only [List.append_assoc, Option.map_some, Option.getD_some]
    rw [e4]
    simp only [e1, e2, e3, e5, e6, e7, List.flatten_append, List.flatten_cons, List.flatten_nil, List.append_assoc, List.append_nil]

/-- C79: the credits and the versions read the same on the console and for a player, and nobody else reads them. -/
theorem same_for_all {E : Env} {s : Mgr.St} (h : E.Ok s) (client : Option Nat) :
    (∃ ms, replyCredits E.out client = .ok ms ∧ Reads (addressee client) ms creditText) ∧
    (∃ ms, replyVersion E.out E.ver client = .ok ms ∧ Reads (addressee client) ms (versionText E.ver)) := by
  constructor
  · obtain ⟨ms, e, g, _⟩ := says_whole (f := cmdMsg E.out client) (fun t ht => cmdMsg_prints h.out ht client) credit_whole
    refine ⟨ms, e, g.1, ?_⟩
    rw [g.2]
    unfold creditLines creditText
    decide +kernel
  · obtain ⟨ms, e, g, _⟩ := says_whole (f := cmdMsg E.out client) (fun t ht => cmdMsg_prints h.out ht client) (version_whole h)
    refine ⟨ms, e, g.1, ?_⟩
    rw [g.2, version_text]

/-! ### A player's command -/

theorem argCount_cons {c : List Byte} {l : Line} (h : l.length < 4294967295) : argCount (c :: l) = l.length := by
  unfold argCount
  rw [List.length_cons]
  omega

theorem client_menu {E : Env} {s : Mgr.St} (h : E.Ok s) (p : Nat) : ∃ ms, says (clientConPrintf E.out (some p)) menuLines = .ok ms ∧ Reads (.player (some p)) ms menuText := by
  obtain ⟨ms, e, g, _⟩ := says_whole (f := clientConPrintf E.out (some p)) (fun t ht => client_prints h.out ht (some p)) menu_whole
  refine ⟨ms, e, g.1, ?_⟩
  rw [g.2]
  unfold menuLines menuText
  decide +kernel

theorem visible_file {E : Report.Env} {s : Mgr.St} {l : List Nat} {ps : List (Mgr.Plug × Nat)} (h : Visible E s l ps) : ∀ x ∈ ps, ∃ o, s.objs o = some x.1 := by
  induction h with
  | nil => intro x hx; cases hx
  | yes hp _ _ _ _ ih =>
    intro x hx
    rcases List.mem_cons.1 hx with rfl | hx
    · exact ⟨_, hp⟩
    · exact ih x hx
  | no _ _ _ ih => exact ih

theorem map_mapIdx {α β γ : Type} (l : List α) (f : Nat → α → β) (g : β → γ) : (l.mapIdx f).map g = l.mapIdx fun k x => g (f k x) := by
  refine List.ext_getElem (by simp) fun i h1 h2 => ?_
  simp

theorem client_shown {E : Env} {s : Mgr.St} (h : E.Ok s) (hs : Settled s) (p : Nat) :
    ∃ ms t, clientList E (some p) s = .ok ms ∧ Reads (.player (some p)) ms t ∧ Shows E s [str "list"] t := by
  obtain ⟨ps, hv, e⟩ := client_list h.rep s.plugins 0 hs
  unfold clientList
  rw [e]
  simp only [bind, Except.bind]
  cases hps : ps with
  | nil =>
    subst hps
    rw [if_pos (by simp)]
    obtain ⟨ms, e1, g, _⟩ := says_whole (f := clientConPrintf E.out (some p)) (ts := [str "No active plugins loaded.\n"]) (fun t ht => client_prints h.out ht (some p)) (by unfold Whole; decide +kernel)
    refine ⟨ms, _, e1, g, ?_⟩
    rw [List.flatten_cons, List.flatten_nil, List.append_nil]
    exact .listNone hv
  | cons x xs =>
    rw [← hps]
    rw [if_neg (by simp [hps])]
    have hw : Whole ((ps.mapIdx fun k x => (wholeLine (E.rep.num (0 + k + 1)) none (some (E.rep.info x.2)) x.1.file).take 255).map (· ++ [10])) := by
      intro t ht
      obtain ⟨u, hu, rfl⟩ := List.mem_map.1 ht
      obtain ⟨k, hk, rfl⟩ := List.mem_mapIdx.1 hu
      constructor
      · rw [List.mem_append, not_or]
        refine ⟨fun hm => ?_, by decide⟩
        obtain ⟨o, ho⟩ := visible_file hv _ (List.getElem_mem hk)
        exact wholeLine_nz (st := none) ⟨h.rep.num _, (fun t e => by cases e), h.rep.file o _ ho, (fun j e => by cases e; exact h.rep.info _)⟩ (List.mem_of_mem_take hm)
      · rw [List.length_append, List.length_take, List.length_singleton]
        omega
    obtain ⟨ms, e1, g, _⟩ := says_whole (f := clientConPrintf E.out (some p)) (fun t ht => client_prints h.out ht (some p)) hw
    refine ⟨ms, _, e1, g, ?_⟩
    have := Shows.list (E := E) hv (by rw [hps]; simp)
    rw [map_mapIdx]
    simpa using this

/-- C79: a player who says `meta` is answered, nobody else reads the answer, the answer is the one for these words, and the game does not see the
command. -/
theorem player_answered {E : Env} {s : Mgr.St} (h : E.Ok s) (hs : Settled s) (p : Nat) {rest : Line} (hl : rest.length < 4294967295) :
    ∃ ms t, hookClientCommand E true (some p) (str "meta" :: rest) s = .ok (ms, .supercede) ∧ Reads (.player (some p)) ms t ∧ Shows E s rest t := by
  have hh : ∀ (x : List Msg), clientMeta E (some p) (str "meta" :: rest) s = .ok (x, true) → hookClientCommand E true (some p) (str "meta" :: rest) s = .ok (x, .supercede) := by
    intro x e
    unfold hookClientCommand
    rw [if_pos (show arg (str "meta" :: rest) 0 = str "meta" from rfl), if_pos rfl, e]
    rfl
  have h0 : arg (str "meta" :: rest) 0 = str "meta" := rfl
  have menu : Shows E s rest menuText → (clientMeta E (some p) (str "meta" :: rest) s = (do
        let ms ← says (clientConPrintf E.out (some p)) menuLines
        .ok (ms, true))) → ∃ ms t, hookClientCommand E true (some p) (str "meta" :: rest) s = .ok (ms, .supercede) ∧ Reads (.player (some p)) ms t ∧ Shows E s rest t := by
    intro hm e
    obtain ⟨ms, e1, g⟩ := client_menu h p
    refine ⟨ms, _, hh ms ?_, g, hm⟩
    rw [e, e1]
    rfl
  by_cases h1 : rest.length = 1
  · obtain ⟨c, rfl⟩ := List.length_eq_one_iff.1 h1
    have hn : argCount (str "meta" :: [c]) = 1 := argCount_cons (l := [c]) hl
    have ha : arg (str "meta" :: [c]) 1 = c := rfl
    by_cases k1 : c = str "credits"
    · obtain ⟨ms, e, g⟩ := (same_for_all h (some p)).1
      refine ⟨ms, _, hh ms ?_, g, by rw [k1]; exact .credits⟩
      unfold clientMeta
      rw [if_pos h0, if_pos hn, ha, if_pos k1, e]
      rfl
    · by_cases k2 : c = str "version"
      · obtain ⟨ms, e, g⟩ := (same_for_all h (some p)).2
        refine ⟨ms, _, hh ms ?_, g, by rw [k2]; exact .version⟩
        unfold clientMeta
        rw [if_pos h0, if_pos hn, ha, if_neg k1, if_pos k2, e]
        rfl
      · by_cases k3 : c = str "list"
        · obtain ⟨ms, t, e, g, hsh⟩ := client_shown h hs p
          refine ⟨ms, t, hh ms ?_, g, by rw [k3]; exact hsh⟩
          unfold clientMeta
          rw [if_pos h0, if_pos hn, ha, if_neg k1, if_neg k2, if_pos k3, e]
          rfl
        · refine menu (.menu fun c' e => ?_) ?_
          · cases e; exact ⟨k1, k2, k3⟩
          · unfold clientMeta
            rw [if_pos h0, if_pos hn, ha, if_neg k1, if_neg k2, if_neg k3]
  · refine menu (.menu fun c' e => ?_) ?_
    · rw [e] at h1; exact absurd rfl h1
    · unfold clientMeta
      rw [if_pos h0, if_neg (by rw [argCount_cons hl]; exact h1)]

/-- C79: any other command of a player reaches the game and is not answered. -/
theorem player_other (E : Env) (cb : Bool) (p : Option Nat) {l : Line} (h : ∀ rest, l ≠ str "meta" :: rest) (s : Mgr.St) :
    hookClientCommand E cb p l s = .ok ([], .ignored) := by
  unfold hookClientCommand
  rw [if_neg]
  intro e
  cases l with
  | nil => exact absurd e (by decide +kernel)
  | cons c cs => exact h cs (by rw [show c = str "meta" from e])

/-- C79: without anyone to answer, a player's `meta` is kept from the game all the same. -/
theorem player_unanswered (E : Env) (p : Option Nat) (rest : Line) (s : Mgr.St) : hookClientCommand E false p (str "meta" :: rest) s = .ok ([], .supercede) := by
  unfold hookClientCommand
  rw [if_pos (show arg (str "meta" :: rest) 0 = str "meta" from rfl)]
  rfl

/-! ### The console's command -/

theorem withWord_eq {c d : List Byte} {args : Line} (h : args.length < 4294967294) (s : Mgr.St) (f : List Byte → CR (Mgr.St × Reply)) :
    withWord (c :: d :: args) s f = withArg args s f := by
  unfold withWord withArg
  rw [argCount_cons (by rw [List.length_cons]; omega), List.length_cons]
  cases args with
  | nil => rfl
  | cons x xs => rw [if_pos (by rw [List.length_cons]; omega)]; rfl

theorem aliasWords_eq {c d : List Byte} {args : Line} (h : args.length < 4294967294) (s : Mgr.St) : aliasWords (c :: d :: args) s = cmdAlias args s := by
  unfold aliasWords
  rw [argCount_cons (by rw [List.length_cons]; omega), List.length_cons]
  match args with
  | [] => rfl
  | [x] => rfl
  | x :: y :: zs => rw [if_pos (by simp only [List.length_cons]; omega)]; rfl

/-- C79: read word by word, with the counter that the engine's one minus one is, the console's `meta` does what it does for the list of its arguments
(`cmdMeta`, C59), whatever the command was called. -/
theorem console_words (C : Con) (locked : Bool) (name : List Byte) {args : Line} (h : args.length < 4294967295) (s : Mgr.St) :
    commandMeta C locked (name :: args) s = cmdMeta C locked args s := by
  unfold commandMeta cmdMeta
  cases locked with
  | true => rw [if_pos rfl, if_pos rfl]
  | false =>
    simp only [Bool.false_eq_true, if_false]
    rw [argCount_cons h]
    cases args with
    | nil => rfl
    | cons c args =>
      rw [if_pos (by rw [List.length_cons]; omega)]
      have h' : args.length < 4294967294 := by rw [List.length_cons] at h; omega
      show dispatch C (name :: c :: args) s = subCmd C c args s
      unfold dispatch subCmd
      simp only [show arg (name :: c :: args) 1 = c from rfl, withWord_eq h', aliasWords_eq h']

/-- C79: a command without any word, for which the counter wraps to 4294967295, is still only told the help. -/
theorem console_no_words (C : Con) (s : Mgr.St) : commandMeta C false [] s = .ok (s, .help) := by
  have h1 : 1 ≤ argCount [] := by unfold argCount; simp
  have h2 : ∀ c ∈ tells ++ needs ++ others, ([] : List Byte) ≠ c := by decide +kernel
  unfold commandMeta
  simp only [Bool.false_eq_true, if_false]
  rw [if_pos h1]
  unfold dispatch
  have h3 : ∀ t : String, str t ∈ tells ++ needs ++ others → ¬ arg [] 1 = str t := fun t ht => h2 _ ht
  dsimp only
  rw [if_neg (h3 _ (by decide +kernel)), if_neg (h3 _ (by decide +kernel)), if_neg (h3 _ (by decide +kernel)), if_neg (h3 _ (by decide +kernel)),
    if_neg (h3 _ (by decide +kernel)), if_neg (h3 _ (by decide +kernel)), if_neg (h3 _ (by decide +kernel)), if_neg (h3 _ (by decide +kernel)),
    if_neg (h3 _ (by decide +kernel)), if_neg (h3 _ (by decide +kernel)), if_neg (h3 _ (by decide +kernel)),
    if_neg (not_or.2 ⟨h3 _ (by decide +kernel), h3 _ (by decide +kernel)⟩), if_neg (h3 _ (by decide +kernel)), if_neg (h3 _ (by decide +kernel)),
    if_neg (h3 _ (by decide +kernel)), if_neg (h3 _ (by decide +kernel))]

/-- C79: nothing happens before there is anyone to answer. -/
theorem console_unanswered (C : Con) (locked : Bool) (l : Line) (s : Mgr.St) : localCommandMeta C false locked l s = .ok (s, none) := rfl

/-- C79: otherwise it is Command_Meta that answers. -/
theorem console_answered (C : Con) (locked : Bool) (name : List Byte) {args : Line} (h : args.length < 4294967295) (s : Mgr.St) :
    localCommandMeta C true locked (name :: args) s = (cmdMeta C locked args s).map fun x => (x.1, some x.2) := by
  unfold localCommandMeta
  rw [if_pos rfl, console_words C locked name h]
  cases cmdMeta C locked args s <;> rfl

/-! ### `meta info` -/

/-- The plugin says all of its strings. -/
structure Tells (y : Says) (name author version description license url date : List Byte) : Prop where
  name : y.name = some name
  author : y.author = some author
  version : y.version = some version
  description : y.description = some description
  license : y.license = some license
  url : y.url = some url
  date : y.date = some date

/-- What is said about the status. -/
inductive StateText (num : List Byte) : Mgr.Status → Says → List (List Byte) → Prop
  | paused {y : Says} : StateText num .paused y [str "Plugin " ++ num ++ str " is paused.\n"]
  | running {y : Says} : y.runs = true → StateText num .running y [str "Plugin " ++ num ++ str " is running.\n"]
  | stopped {y : Says} {t : List Byte} : y.runs = false → y.wrote = some t → StateText num .running y [str "Plugin " ++ num ++ str " is stopped: " ++ t ++ str "\n"]
  | other {st : Mgr.Status} {y : Says} : st = .notFound ∨ st = .error ∨ st = .refused → StateText num st y []

theorem numeral_atoi {x : List Byte} {n : Nat} (h : Numeral x n) (hn : n < 2147483648) : atoi x = n := by
  have := atoi_numeral (rest := []) h hn (fun c h => nomatch h)
  rwa [List.append_nil] at this

theorem findById_none {s : Mgr.St} {id : Nat} (hi : Mgr.IdInv s) (hno : ∀ o ∈ s.plugins, ∀ p, s.objs o = some p → p.id ≠ id) : ∀ l : List Nat, (∀ a ∈ l, a ∈ s.plugins) →
    Mgr.findById s id l = .ok none
  | [], _ => rfl
  | o :: os, h => by
    cases hp : s.objs o with
    | none => exact absurd hp (hi.live o (h o (.head _)))
    | some p =>
      have hget : s.get o = .ok p := by unfold Mgr.St.get; rw [hp]
      rw [Mgr.findById, hget]
      simp only [bind, Except.bind]
      rw [if_neg (hno o (h o (.head _)) p hp)]
      exact findById_none hi hno os (fun a ha => h a (.tail _ ha))

theorem findById_in {s : Mgr.St} {o : Nat} {p : Mgr.Plug} (hi : Mgr.IdInv s) (ho : o ∈ s.plugins) (hp : s.objs o = some p) : Mgr.findById s p.id s.plugins = .ok (some o) :=
  findById_of hi hp s.plugins (fun _ h => h) ho ho

theorem findById_int {s : Mgr.St} {o : Nat} {p : Mgr.Plug} {x : List Byte} (hi : Mgr.IdInv s) (ho : o ∈ s.plugins) (hp : s.objs o = some p) (hx : Numeral x p.id) (hn : p.id < 2147483648) :
    findInt s (atoi x) = .ok (some o) := by
  unfold findInt
  rw [numeral_atoi hx hn, if_neg (by omega), Int.toNat_natCast, findById_in hi ho hp]
  rfl

theorem state_told {num : List Byte} {st : Mgr.Status} {y : Says} {ls : List (List Byte)} (h : StateText num st y ls) : stateLine num st y = .ok ls := by
  cases h with
  | paused => rfl
  | running h => simp only [stateLine, h, if_true]
  | stopped h1 h2 =>
    simp only [stateLine, h1, Bool.false_eq_true, if_false, h2, pctMsg, bind, Except.bind]
    rw [show str "\n" = [10] by decide +kernel]
  | other h => rcases h with rfl | rfl | rfl <;> rfl

/-- C79: `meta info` with the number of a plugin with an object tells its status, its strings, and its file. -/
theorem info_told {s : Mgr.St} {o a : Nat} {p : Mgr.Plug} {x : List Byte} {num : Int → List Byte} {y : Nat → Says} {name author version description license url date : List Byte}
    {st : List (List Byte)} (hi : Mgr.IdInv s) (ho : o ∈ s.plugins) (hp : s.objs o = some p) (hx : Numeral x p.id) (hn : p.id < 2147483648) (ha : p.api = some a)
    (ht : Tells (y a) name author version description license url date) (hst : StateText (num p.id) p.status (y a) st) :
    infoLines num y x s = .ok (st ++
      [str "  Name: \"" ++ name ++ str "\" by " ++ author ++ str "\n", str "  Version: " ++ version ++ str "\n", str "  Description: " ++ description ++ str "\n",
       str "  License: " ++ license ++ str "\n", str "  URL: " ++ url ++ str "\n", str "  Details: API " ++ (y a).api ++ str ", Date: " ++ date ++ str "\n",
       str "File: " ++ p.file ++ str "\n\n"]) := by
  have hget : s.get o = .ok p := by unfold Mgr.St.get; rw [hp]
  have hl : stateLine (num (atoi x)) p.status (y a) = .ok st := by
    rw [numeral_atoi hx hn]
    exact state_told hst
  unfold infoLines
  dsimp only
  rw [findById_int hi ho hp hx hn]
  simp only [bind, Except.bind, hget, Report.liftM, ha, hl]
  unfold aboutLines
  simp only [ht.name, ht.author, ht.version, ht.description, ht.license, ht.url, ht.date, pct, bind, Except.bind]
  rw [show str "\n" = [10] by decide +kernel, show str "\n\n" = [10, 10] by decide +kernel]
  simp only [List.append_assoc, List.cons_append, List.nil_append]

/-- C79: with the number of a plugin without an object, its file; with a number that no plugin has, that. -/
theorem info_rest {s : Mgr.St} {x : List Byte} {n : Nat} {num : Int → List Byte} {y : Nat → Says} (hi : Mgr.IdInv s) (hx : Numeral x n) (hn : n < 2147483648) :
    (∀ o p, o ∈ s.plugins → s.objs o = some p → p.id = n → p.api = none →
      infoLines num y x s = .ok [str "Plugin " ++ num n ++ str " is not loaded.\n", str "File: " ++ p.file ++ str "\n\n"]) ∧
    ((∀ o ∈ s.plugins, ∀ p, s.objs o = some p → p.id ≠ n) → infoLines num y x s = .ok [str "Plugin " ++ num n ++ str " not found.\n"]) := by
  constructor
  · rintro o p ho hp rfl ha
    have hget : s.get o = .ok p := by unfold Mgr.St.get; rw [hp]
    unfold infoLines
    dsimp only
    rw [findById_int hi ho hp hx hn]
    simp only [bind, Except.bind, hget, Report.liftM, ha, numeral_atoi hx hn]
    rw [show str "\n\n" = [10, 10] by decide +kernel]
  · intro hno
    unfold infoLines
    dsimp only
    have hf : findInt s n = .ok none := by
      unfold findInt
      rw [if_neg (by omega), Int.toNat_natCast, findById_none hi hno s.plugins (fun _ h => h)]
      rfl
    rw [numeral_atoi hx hn, hf]
    rfl

/-- C79: it is the console that reads it, each line cut after 2047 bytes. -/
theorem info_read {b : Buf} (hb : b.length = 2048) {num : Int → List Byte} {y : Nat → Says} {x : List Byte} {s : Mgr.St} {ls : List (List Byte)} (h : infoLines num y x s = .ok ls)
    (h0 : ∀ t ∈ ls, 0 ∉ t) : cmdInfo b num y x s = .ok (ls.map fun t => (.console, t.take 2047)) := by
  unfold cmdInfo
  rw [h]
  exact says_map ls fun t ht => con_prints hb (h0 t ht)

/-- Finding: a plugin that answers that it does not run, and writes nothing, makes `meta info` print an array that nobody wrote. -/
theorem info_reads_unwritten {s : Mgr.St} {o a : Nat} {p : Mgr.Plug} {x : List Byte} {num : Int → List Byte} {y : Nat → Says}
    (hi : Mgr.IdInv s) (ho : o ∈ s.plugins) (hp : s.objs o = some p) (hx : Numeral x p.id) (hn : p.id < 2147483648) (ha : p.api = some a) (hst : p.status = .running)
    (h1 : (y a).runs = false) (h2 : (y a).wrote = none) : infoLines num y x s = .error (.mgr .uninit) := by
  have hget : s.get o = .ok p := by unfold Mgr.St.get; rw [hp]
  unfold infoLines
  dsimp only
  rw [findById_int hi ho hp hx hn]
  simp only [bind, Except.bind, hget, Report.liftM, ha, hst, stateLine, h1, Bool.false_eq_true, if_false, h2, pctMsg]

/-- Finding: a plugin that gives no description (NULL) faults `meta info`, though `meta list` allows for strings that are NULL. -/
theorem info_null_faults {s : Mgr.St} {o a : Nat} {p : Mgr.Plug} {x : List Byte} {num : Int → List Byte} {y : Nat → Says} {name author version : List Byte}
    (hi : Mgr.IdInv s) (ho : o ∈ s.plugins) (hp : s.objs o = some p) (hx : Numeral x p.id) (hn : p.id < 2147483648) (ha : p.api = some a) (hst : p.status = .paused)
    (h1 : (y a).name = some name) (h2 : (y a).author = some author) (h3 : (y a).version = some version) (h4 : (y a).description = none) :
    infoLines num y x s = .error (.mgr .nullDeref) := by
  have hget : s.get o = .ok p := by unfold Mgr.St.get; rw [hp]
  unfold infoLines
  dsimp only
  rw [findById_int hi ho hp hx hn]
  simp only [bind, Except.bind, hget, Report.liftM, ha, hst, stateLine, aboutLines, h1, h2, h3, h4, pct]

/-! ### Log messages of plugins -/

/-- C79: the message of a plugin is logged behind its tag.  Missing, as for C61: what is longer than 2045 bytes is cut and loses its newline. -/
theorem plugin_log_partial {b : Buf} (hb : b.length = 2048) {tag t : List Byte} {s : Log} {taken : Bool} (hl : s.logging = false) (hs : s.buffer.length = 2048) (h0 : 0 ∉ t) (h1 : 0 ∉ tag)
    (hn : tag.length + t.length ≤ 2042) :
    ∃ b2, logMsg b (some tag) t (quiet taken) s = .ok ⟨false, b2, s.told ++
      (let m := str "[" ++ tag ++ str "] " ++ t ++ str "\n"
       [(.engine, m)] ++ (if taken then [] else [(.stdout, m)]) ++ [(.console, m)])⟩ := by
  have h2 : (0 : Byte) ∉ ([91] ++ tag ++ [93, 32] ++ t : List Byte) := by
    simp only [List.mem_append, not_or]
    exact ⟨⟨⟨by decide, h1⟩, by decide⟩, h0⟩
  obtain ⟨b2, _, e⟩ := log_partial (taken := taken) hl hs h2
  refine ⟨b2, ?_⟩
  unfold logMsg
  rw [printed hb h0, List.take_of_length_le (by omega)]
  simp only [bind, Except.bind, pct, e, Report.liftB]
  rw [if_pos (by simp only [List.length_append, List.length_cons, List.length_nil]; omega)]
  rw [show str "[" = [91] by decide +kernel, show str "] " = [93, 32] by decide +kernel, show str "\n" = [10] by decide +kernel]

/-! ### What plugins are told about plugins -/

/-- C79: a plugin's number gives its file, its status, its source and its library, each if it was asked for. -/
theorem query_found {s : Mgr.St} {o : Nat} {p : Mgr.Plug} (hi : Mgr.IdInv s) (ho : o ∈ s.plugins) (hp : s.objs o = some p) (hs : p.status ≠ .uninit) (file status source : Bool) :
    query s p.id file status source = .ok (some ⟨if file then some p.file else none, if status then some p.status else none, if source then some p.source else none⟩) ∧
    queryHandle s p.id = .ok (some p.lib) := by
  have hget : s.get o = .ok p := by unfold Mgr.St.get; rw [hp]
  have hst : askStatus status p.status = .ok (if status then some p.status else none) := by
    unfold askStatus
    cases status with
    | false => rfl
    | true =>
      simp only [if_true]
      unfold readStatus
      split
      · next e => exact absurd e hs
      · rfl
  unfold query queryHandle
  rw [findById_in hi ho hp]
  simp only [bind, Except.bind, hget, hst]
  exact ⟨trivial, trivial⟩

/-- C79: a number that no plugin has gives nothing. -/
theorem query_unknown {s : Mgr.St} {id : Nat} (hi : Mgr.IdInv s) (hno : ∀ o ∈ s.plugins, ∀ p, s.objs o = some p → p.id ≠ id) (file status source : Bool) :
    query s id file status source = .ok none ∧ queryHandle s id = .ok none := by
  unfold query queryHandle
  rw [findById_none hi hno s.plugins (fun _ h => h)]
  exact ⟨rfl, rfl⟩

/-- C79: whether a plugin runs is for it to say; one without an object does not, and neither does one that is not there, and if there is room for an
answer it is that it is not valid, as far as it fits. -/
theorem query_running {s : Mgr.St} (hi : Mgr.IdInv s) (ask : Nat → Option (Buf × Nat) → Except Flt (Option Buf × Bool)) (err : Option (Buf × Nat)) (id : Nat) :
    (∀ o p a, o ∈ s.plugins → s.objs o = some p → p.id = id → p.api = some a → queryRunning ask s id err = ask a err) ∧
    ((∀ o p, o ∈ s.plugins → s.objs o = some p → p.id = id → p.api = none) → err = none → queryRunning ask s id err = .ok (none, false)) ∧
    ((∀ o p, o ∈ s.plugins → s.objs o = some p → p.id = id → p.api = none) → ∀ b n, err = some (b, n) → 1 ≤ n → n ≤ b.length →
      ∃ b', queryRunning ask s id err = .ok (some b', false) ∧ b'.length = b.length ∧ IsStr b' ((str "Plugin not valid").take (n - 1))) := by
  have key : (∀ o p, o ∈ s.plugins → s.objs o = some p → p.id = id → p.api = none) → queryRunning ask s id err = notValid err := by
    intro hno
    unfold queryRunning
    by_cases h : ∃ o p, o ∈ s.plugins ∧ s.objs o = some p ∧ p.id = id
    · obtain ⟨o, p, ho, hp, rfl⟩ := h
      have hget : s.get o = .ok p := by unfold Mgr.St.get; rw [hp]
      rw [findById_in hi ho hp]
      simp only [bind, Except.bind, Report.liftM, hget, hno o p ho hp rfl]
    · rw [findById_none hi (fun o ho p hp e => h ⟨o, p, ho, hp, e⟩) s.plugins (fun _ h => h)]
      rfl
  refine ⟨?_, ?_, ?_⟩
  · rintro o p a ho hp rfl ha
    have hget : s.get o = .ok p := by unfold Mgr.St.get; rw [hp]
    unfold queryRunning
    rw [findById_in hi ho hp]
    simp only [bind, Except.bind, Report.liftM, hget, ha]
  · rintro hno rfl
    rw [key hno]
    rfl
  · rintro hno b n rfl h1 h2
    obtain ⟨b', e, h⟩ := format_spec h1 h2 (str "Plugin not valid") []
    refine ⟨b', ?_, ?_, _, h, fun hm => ?_⟩
    · rw [key hno]
      unfold notValid
      simp only [e, Report.liftB, bind, Except.bind]
    · rw [h]
      simp only [List.length_append, List.length_take, List.length_cons, List.length_drop]
      omega
    · exact absurd (List.mem_of_mem_take hm) (by decide +kernel)

/-- Finding: a plugin that asks for its own status while it is being loaded, with the number that it was just given, is given a status that was never
written. -/
theorem query_self_unwritten {s : Mgr.St} (hi : Mgr.IdInv s) {file : List Byte} {o : Mgr.Outcome} (h : (Mgr.probe (Mgr.newPlug s.lastId file) o).2 = true) (f src : Bool) :
    query (Mgr.pushNew file o s) s.lastId f true src = .error .uninit := by
  have hst : (Mgr.probe (Mgr.newPlug s.lastId file) o).1.status = .uninit := by
    rcases Mgr.probe_status (Mgr.newPlug s.lastId file) o rfl with ⟨_, hu, _⟩ | ⟨hf, _⟩
    · exact hu
    · rw [hf] at h; cases h
  have hnew : (Mgr.pushNew file o s).get s.next = .ok (Mgr.probe (Mgr.newPlug s.lastId file) o).1 := by
    unfold Mgr.St.get Mgr.pushNew Mgr.upd
    simp
  have hf : ∀ l : List Nat, (∀ a ∈ l, a ∈ s.plugins) → Mgr.findById (Mgr.pushNew file o s) s.lastId (l ++ [s.next]) = .ok (some s.next) := by
    intro l
    induction l with
    | nil =>
      intro _
      rw [List.nil_append, Mgr.findById, hnew]
      simp only [bind, Except.bind]
      rw [if_pos (show (Mgr.probe (Mgr.newPlug s.lastId file) o).1.id = s.lastId from (Mgr.probe_id (Mgr.newPlug s.lastId file) o).1)]
    | cons a as ih =>
      intro ha
      cases hp : s.objs a with
      | none => exact absurd hp (hi.live a (ha a (.head _)))
      | some q =>
        have hg : (Mgr.pushNew file o s).get a = .ok q := by
          unfold Mgr.St.get Mgr.pushNew Mgr.upd
          dsimp only
          rw [if_neg (Nat.ne_of_lt (hi.old a (ha a (.head _)))), hp]
        rw [List.cons_append, Mgr.findById, hg]
        simp only [bind, Except.bind]
        rw [if_neg (Nat.ne_of_lt (hi.range a (ha a (.head _)) q hp).2)]
        exact ih fun b hb => ha b (.tail _ hb)
  have hfs : Mgr.findById (Mgr.pushNew file o s) s.lastId (Mgr.pushNew file o s).plugins = .ok (some s.next) := hf s.plugins fun _ h => h
  unfold query
  rw [hfs]
  simp only [bind, Except.bind, hnew, askStatus, readStatus, hst, if_true]

/-- Finding: with an array of no bytes for the answer, the byte before it is written. -/
theorem query_no_room {s : Mgr.St} {id : Nat} (hi : Mgr.IdInv s) (hno : ∀ o ∈ s.plugins, ∀ p, s.objs o = some p → p.id ≠ id)
    (ask : Nat → Option (Buf × Nat) → Except Flt (Option Buf × Bool)) {b : Buf} (hb : b.length < 2 ^ 64) : queryRunning ask s id (some (b, 0)) = .error (.buf .outOfBounds) := by
  unfold queryRunning
  rw [findById_none hi hno s.plugins (fun _ h => h)]
  simp only [bind, Except.bind, Report.liftM, notValid]
  rw [format_zero_faults (by unfold sizeMax; omega)]
  rfl

/-! ### Examples -/

/-- A plugin that runs and says so. -/
def exPlug : Mgr.Plug := { Mgr.newPlug 1 [97] with status := .running, api := some 5, lib := some 6 }

/-- Only one plugin. -/
def exOf (p : Mgr.Plug) : Mgr.St := { Mgr.init with plugins := [0], objs := fun o => if o = 0 then some p else none, next := 1, lastId := 2 }

/-- This one. -/
def exSt : Mgr.St := exOf exPlug

/-- An array of `n` bytes. -/
def exArr (n : Nat) : Buf := List.replicate n 7

theorem exArr_len (n : Nat) : (exArr n).length = n := List.length_replicate

/-- What is around it. -/
def exEnv : Env :=
  { out := exArr 2048
    rep := ⟨fun _ => [48, 49], fun _ => ⟨some [65], some [49], none, true⟩, exArr 256⟩
    ver := ⟨str "2.0", (str "17", str "14"), (str "5", str "5"), true, str "today", some (str "abc", str "12")⟩ }

theorem exOf_objs {o : Nat} {p q : Mgr.Plug} (h : (exOf p).objs o = some q) : o = 0 ∧ q = p := by
  have h : (if o = 0 then some p else none) = some q := h
  split at h
  · next e => cases h; exact ⟨e, rfl⟩
  · cases h

theorem exObjs {o : Nat} {q : Mgr.Plug} (h : exSt.objs o = some q) : o = 0 ∧ q = exPlug := exOf_objs h

theorem exEnv_ok : exEnv.Ok exSt where
  out := exArr_len 2048
  rep := by
    refine ⟨exArr_len 256, fun _ => (by decide : (0 : Byte) ∉ [48, 49]), ?_, ?_⟩
    · intro a; refine ⟨?_, ?_, ?_⟩ <;> intro t e <;> cases e <;> decide
    · intro o q hq; rw [(exObjs hq).2]; decide
  ver := by
    unfold Short exEnv
    decide +kernel
  build := by
    intro x hx
    cases hx
    unfold Short
    decide +kernel

theorem exSettled : Settled exSt := by
  intro o ho
  rw [List.mem_singleton.1 ho]
  exact ⟨exPlug, rfl, by decide⟩

theorem exOf_inv {x : Mgr.Plug} (hx : x.id = 1) : Mgr.IdInv (exOf x) where
  fresh := by
    intro o ho
    show (if o = 0 then some x else none) = none
    have : 1 ≤ o := ho
    rw [if_neg (by omega)]
  old := by intro o ho; rw [List.mem_singleton.1 ho]; exact Nat.zero_lt_one
  nodup := by show ([0] : List Nat).Nodup; decide
  last := by show 1 ≤ 2; decide
  range := by intro o _ p hp; rw [(exOf_objs hp).2, hx]; exact ⟨Nat.le_refl 1, Nat.lt_succ_self 1⟩
  inj := by intro o _ o' _ p p' hp hp' _; rw [(exOf_objs hp).1, (exOf_objs hp').1]
  once := by intro o; simp [exOf, Mgr.init]
  early := by intro o h; simp [exOf, Mgr.init] at h
  live := by intro o ho; rw [List.mem_singleton.1 ho]; intro h; cases h
  pend := by intro x hx; cases hx

theorem exInv : Mgr.IdInv exSt := exOf_inv rfl

/-- `printed`, `same_for_all`, `player_answered`: the player 3 lists the plugins. -/
example : ∃ ms t, hookClientCommand exEnv true (some 3) [str "meta", str "list"] exSt = .ok (ms, .supercede) ∧ Reads (.player (some 3)) ms t ∧ Shows exEnv exSt [str "list"] t :=
  player_answered exEnv_ok exSettled 3 (rest := [str "list"]) (by simp)

/-- `printed`. -/
example : formatted (exArr 2048) (str "hello") = .ok (str "hello") := printed (exArr_len 2048) (by decide +kernel)

/-- `same_for_all`: on the console and for a player. -/
example : exEnv.Ok exSt ∧ addressee none = .console ∧ addressee (some 3) = .player (some 3) := ⟨exEnv_ok, rfl, rfl⟩

/-- `player_other`. -/
example : hookClientCommand exEnv true (some 3) [str "say", str "meta"] exSt = .ok ([], .ignored) :=
  player_other exEnv true (some 3) (fun rest e => absurd (List.cons.inj e).1 (by decide +kernel)) exSt

/-- `console_words`, `console_answered`. -/
example : [str "unload", str "3"].length < 4294967295 := by decide

/-- A plugin's answers for `meta info`. -/
def exSays : Says := ⟨some [65], some [66], some [49], some [], some [], some [], some [], str "017", false, some (str "tired")⟩

theorem exNumeral : Numeral [49] exPlug.id := Numeral.digit (c := 49) (by decide) (by decide)

/-- `info_told`, `info_read`. -/
example : Tells exSays [65] [66] [49] [] [] [] [] ∧ StateText [49] .running exSays [str "Plugin " ++ [49] ++ str " is stopped: " ++ str "tired" ++ str "\n"] :=
  ⟨⟨rfl, rfl, rfl, rfl, rfl, rfl, rfl⟩, .stopped rfl rfl⟩

/-- `info_rest`: there is no plugin 2. -/
example : infoLines (fun _ => [50]) (fun _ => exSays) [50] exSt = .ok [str "Plugin " ++ [50] ++ str " not found.\n"] :=
  (info_rest (n := 2) exInv (Numeral.digit (c := 50) (by decide) (by decide)) (by decide)).2 fun o _ p hp => by rw [(exObjs hp).2]; decide

/-- `info_reads_unwritten`: such a plugin. -/
example : infoLines (fun _ => [49]) (fun _ => { exSays with wrote := none }) [49] exSt = .error (.mgr .uninit) :=
  info_reads_unwritten (o := 0) (a := 5) exInv (by decide) rfl exNumeral (by decide) rfl rfl rfl rfl

/-- `info_null_faults`: a paused plugin without a description. -/
example : infoLines (fun _ => [49]) (fun _ => { exSays with description := none }) [49] (exOf { exPlug with status := .paused }) = .error (.mgr .nullDeref) :=
  info_null_faults (o := 0) (a := 5) (p := { exPlug with status := .paused }) (exOf_inv rfl) (by decide) rfl exNumeral (by decide) rfl rfl rfl rfl rfl rfl

/-- `plugin_log_partial`. -/
example : ∃ b2, logMsg (exArr 2048) (some (str "SM")) (str "hello") (quiet true) ⟨false, exArr 2048, []⟩ = .ok ⟨false, b2, [(.engine, str "[SM] hello\n"), (.console, str "[SM] hello\n")]⟩ := by
  obtain ⟨b2, e⟩ := plugin_log_partial (exArr_len 2048) (tag := str "SM") (t := str "hello") (s := ⟨false, exArr 2048, []⟩) (taken := true) rfl (exArr_len 2048) (by decide +kernel) (by decide +kernel) (by decide +kernel)
  refine ⟨b2, e.trans ?_⟩
  rw [show str "[" ++ str "SM" ++ str "] " ++ str "hello" ++ str "\n" = str "[SM] hello\n" by decide +kernel]
  rfl

/-- `query_found`, `query_running`. -/
example : query exSt 1 true true true = .ok (some ⟨some [97], some .running, some 0⟩) ∧ queryHandle exSt 1 = .ok (some (some 6)) :=
  query_found (o := 0) (p := exPlug) exInv (by decide) rfl (by decide) true true true

/-- `query_unknown`, `query_no_room`. -/
example : query exSt 2 true true true = .ok none ∧ queryHandle exSt 2 = .ok none :=
  query_unknown exInv (fun o _ p hp => by rw [(exObjs hp).2]; decide) true true true

/-- `query_self_unwritten`: a library that can be loaded. -/
example : query (Mgr.pushNew [98] ⟨true, true, some 1, some (some 2, true), none, 17⟩ exSt) 2 false true false = .error .uninit :=
  query_self_unwritten exInv (by decide) false false

#print axioms printed
#print axioms same_for_all
#print axioms player_answered
#print axioms player_other
#print axioms player_unanswered
#print axioms console_words
#print axioms console_no_words
#print axioms console_answered
#print axioms info_told
#print axioms info_rest
#print axioms info_read
#print axioms info_reads_unwritten
#print axioms info_null_faults
#print axioms plugin_log_partial
#print axioms query_found
#print axioms query_unknown
#print axioms query_running
#print axioms query_self_unwritten
#print axioms query_no_room

end Verif.Cmds
