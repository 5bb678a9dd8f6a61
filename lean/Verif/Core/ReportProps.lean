import Verif.Core.Report
import Verif.Util.MiscProps
/-
C60: the lines of `meta list`.  C61: log messages.
-/
namespace Verif.Report

open Verif.C Verif.Util

/-! ### Spec -/

/-- A string if it is there and not empty. -/
def given (s : Option (List Byte)) : Option (List Byte) :=
  match s with
  | some (c :: cs) => some (c :: cs)
  | _ => none

/-- The whole text of a line: "  [number] <status> name (version) by author", without the parts that are not there; without a name the file. -/
def wholeLine (num : List Byte) (st : Option (List Byte)) (i : Option Info) (file : List Byte) : List Byte :=
  [32, 32, 91] ++ num ++ [93] ++ ((st.map fun t => [32, 60] ++ t ++ [62]).getD []) ++
    ((i.map fun i => [32] ++ (given i.name).getD file ++ (((given i.version).map fun v => [32, 40] ++ v ++ [41]).getD []) ++
      (((given i.author).map fun a => [32, 98, 121, 32] ++ a).getD [])).getD [])

/-- No text has a NUL. -/
structure Clean (num : List Byte) (st : Option (List Byte)) (i : Option Info) (file : List Byte) : Prop where
  num : 0 ∉ num
  st : ∀ t, st = some t → 0 ∉ t
  file : 0 ∉ file
  info : ∀ j, i = some j → (∀ t, j.name = some t → 0 ∉ t) ∧ (∀ t, j.version = some t → 0 ∉ t) ∧ (∀ t, j.author = some t → 0 ∉ t)

/-! ### The line -/

/-- The buffer holds the first 255 bytes of the text `t`. -/
def Holds (b : Buf) (t : List Byte) : Prop := b.length = 256 ∧ ∃ rest, b = t.take 255 ++ 0 :: rest

theorem formatAt_zero {b : Buf} (hb : b.length = 256) (t : List Byte) : ∃ b', formatAt b 0 256 t = .ok (b', min t.length 255) ∧ Holds b' t := by
  obtain ⟨b', h1, h2⟩ := format_spec (b := b) (n := 256) (by omega) (by omega) t []
  refine ⟨b', ?_, ?_, ?_⟩
  · unfold formatAt
    simp only [List.drop_zero, h1, bind, Except.bind, List.take_zero, List.nil_append, Nat.zero_add]
  · rw [h2]; simp; omega
  · exact ⟨_, h2⟩

theorem formatAt_more {b : Buf} {t : List Byte} (h : Holds b t) (u : List Byte) :
    ∃ b', formatAt b (min t.length 255) (256 - min t.length 255) u = .ok (b', min (t ++ u).length 255) ∧ Holds b' (t ++ u) := by
  obtain ⟨hl, rest, hr⟩ := h
  have hlen : (t.take 255).length = min t.length 255 := by rw [List.length_take]; omega
  have hlr : rest.length = 255 - min t.length 255 := by
    have := congrArg List.length hr
    rw [hl, List.length_append, List.length_cons, hlen] at this
    omega
  obtain ⟨b', h1, h2⟩ := format_spec (b := b.drop (min t.length 255)) (n := 256 - min t.length 255) (by omega) (by rw [List.length_drop]; omega) u []
  refine ⟨b.take (min t.length 255) ++ b', ?_, ?_, ?_⟩
  · unfold formatAt
    simp only [h1, bind, Except.bind, List.length_append]
    congr 2
    omega
  · rw [List.length_append, h2]; simp; omega
  · refine ⟨(b.drop (min t.length 255)).drop (min u.length (256 - min t.length 255 - 1) + 1), ?_⟩
    have ht : b.take (min t.length 255) = t.take 255 := by
      rw [hr, ← hlen]; simp
    rw [ht, h2, ← List.append_assoc]
    congr 1
    rw [List.take_append]
    congr 2
    omega

theorem part_more {b : Buf} {t : List Byte} (h : Holds b t) (pre : List Byte) (s : Option (List Byte)) (post : List Byte) :
    ∃ b', part b (min t.length 255) pre s post = .ok (b', min (t ++ ((given s).map fun v => pre ++ v ++ post).getD []).length 255) ∧
      Holds b' (t ++ ((given s).map fun v => pre ++ v ++ post).getD []) := by
  unfold part
  match s with
  | none => exact ⟨b, by simp [filled, given], by simpa [given] using h⟩
  | some [] => exact ⟨b, by simp [filled, given], by simpa [given] using h⟩
  | some (c :: cs) =>
    rw [if_pos (by simp [filled])]
    exact formatAt_more h _

theorem cstr_holds {b : Buf} {t : List Byte} (h : Holds b t) (h0 : 0 ∉ t) : cstr b 0 = .ok (t.take 255) := by
  obtain ⟨_, rest, rfl⟩ := h
  exact cstr_of ⟨rest, rfl, fun h => h0 (List.mem_of_mem_take h)⟩

theorem given_nz {s : Option (List Byte)} {v : List Byte} (h : ∀ t, s = some t → 0 ∉ t) (hv : given s = some v) : 0 ∉ v := by
  match s with
  | none => cases hv
  | some [] => cases hv
  | some (c :: cs) => cases hv; exact h _ rfl

theorem wholeLine_nz {num : List Byte} {st : Option (List Byte)} {i : Option Info} {file : List Byte} (h : Clean num st i file) : 0 ∉ wholeLine num st i file := by
  obtain ⟨h1, h2, h3, h4⟩ := h
  unfold wholeLine
  simp only [List.mem_append, not_or]
  refine ⟨⟨⟨⟨by decide, h1⟩, by decide⟩, ?_⟩, ?_⟩
  · cases st with
    | none => simp
    | some t => simpa using h2 t rfl
  · cases i with
    | none => simp
    | some j =>
      obtain ⟨g1, g2, g3⟩ := h4 j rfl
      simp only [Option.map_some, Option.getD_some, List.mem_append, not_or]
      refine ⟨⟨⟨by decide, ?_⟩, ?_⟩, ?_⟩
      · cases e : given j.name with
        | none => exact h3
        | some v => exact given_nz g1 e
      · cases e : given j.version with
        | none => simp
        | some v => simpa using given_nz g2 e
      · cases e : given j.author with
        | none => simp
        | some v => simpa using given_nz g3 e

/-- C60: a line of the list is the first 255 bytes of the whole text; nothing is written outside the 256 bytes for it, however long the
strings are. -/
theorem list_line {b : Buf} {num : List Byte} {st : Option (List Byte)} {i : Option Info} {file : List Byte} (hb : b.length = 256) (h : Clean num st i file) :
    listLine b num st i file = .ok ((wholeLine num st i file).take 255) := by
  have hh : headText num st = [32, 32, 91] ++ num ++ [93] ++ ((st.map fun t => [32, 60] ++ t ++ [62]).getD []) := by
    unfold headText; cases st <;> rfl
  obtain ⟨b1, e1, g1⟩ := formatAt_zero hb (headText num st)
  unfold listLine
  simp only [e1, bind, Except.bind]
  cases i with
  | none =>
    unfold aboutOpt
    dsimp only
    have : wholeLine num st none file = headText num st := by rw [hh]; unfold wholeLine; simp
    have hz := wholeLine_nz h
    rw [this] at hz ⊢
    exact cstr_holds g1 hz
  | some j =>
    unfold aboutOpt about
    dsimp only
    have hn : (if filled j.name = true then j.name.getD [] else file) = (given j.name).getD file := by
      match j.name with
      | none => rfl
      | some [] => rfl
      | some (c :: cs) => rfl
    rw [hn]
    obtain ⟨b2, e2, g2⟩ := formatAt_more g1 (32 :: (given j.name).getD file)
    simp only [e2, bind, Except.bind]
    obtain ⟨b3, e3, g3⟩ := part_more g2 [32, 40] j.version [41]
    simp only [e3]
    obtain ⟨b4, e4, g4⟩ := part_more g3 [32, 98, 121, 32] j.author []
    simp only [e4]
    have hw : headText num st ++ 32 :: (given j.name).getD file ++ ((given j.version).map fun v => [32, 40] ++ v ++ [41]).getD [] ++
        ((given j.author).map fun v => [32, 98, 121, 32] ++ v ++ []).getD [] = wholeLine num st (some j) file := by
      rw [hh]; unfold wholeLine; simp [List.append_assoc]
    rw [hw] at g4
    exact cstr_holds g4 (wholeLine_nz h)

/-! ### The list -/

/-- What stands for a status that is not "running". -/
inductive StatusWord : Mgr.Status → Option (List Byte) → Prop
  | running : StatusWord .running none
  | paused : StatusWord .paused (some [80, 65, 85, 83, 69, 68])
  | noFile : StatusWord .notFound (some [78, 79, 70, 73, 76, 69])
  | error : StatusWord .error (some [69, 82, 82, 79, 82])
  | failed : StatusWord .refused (some [70, 65, 73, 76, 69, 68])

/-- All strings around have no NUL. -/
structure Env.Ok (E : Env) (s : Mgr.St) : Prop where
  buf : E.buf.length = 256
  num : ∀ n, 0 ∉ E.num n
  info : ∀ a, (∀ t, (E.info a).name = some t → 0 ∉ t) ∧ (∀ t, (E.info a).version = some t → 0 ∉ t) ∧ (∀ t, (E.info a).author = some t → 0 ∉ t)
  file : ∀ o p, s.objs o = some p → 0 ∉ p.file

/-- The line for one plugin. -/
def LineFor (E : Env) (s : Mgr.St) (o : Nat) (l : List Byte) : Prop :=
  ∃ p st, s.objs o = some p ∧ StatusWord p.status st ∧ l = (wholeLine (E.num p.id) st (p.api.map E.info) p.file).take 255

/-- One line for each plugin, in the same order. -/
inductive Lines (E : Env) (s : Mgr.St) : List Nat → List (List Byte) → Prop
  | nil : Lines E s [] []
  | cons {o : Nat} {os : List Nat} {l : List Byte} {ls : List (List Byte)} : LineFor E s o l → Lines E s os ls → Lines E s (o :: os) (l :: ls)

theorem statusPart_word {p : Mgr.Plug} {i : Option Info} (h : p.status ≠ .uninit) : ∃ st, statusPart p i = .ok st ∧ StatusWord p.status st := by
  unfold statusPart statusText
  cases e : p.status with
  | uninit => exact absurd e h
  | notFound => exact ⟨_, rfl, .noFile⟩
  | error => exact ⟨_, rfl, .error⟩
  | refused => exact ⟨_, rfl, .failed⟩
  | paused => exact ⟨_, rfl, .paused⟩
  | running => exact ⟨_, rfl, .running⟩

theorem word_nz {x : Mgr.Status} {st : Option (List Byte)} (h : StatusWord x st) : ∀ t, st = some t → 0 ∉ t := by
  cases h <;> intro t e <;> cases e <;> decide

theorem listLoop_lines {E : Env} {s : Mgr.St} (hE : E.Ok s) : ∀ l : List Nat, (∀ o ∈ l, ∃ p, s.objs o = some p ∧ p.status ≠ .uninit) →
    ∃ ls, listLoop E s l = .ok ls ∧ Lines E s l ls := by
  intro l
  induction l with
  | nil => intro _; exact ⟨[], rfl, .nil⟩
  | cons o os ih =>
    intro h
    obtain ⟨p, hp, hst⟩ := h o (.head _)
    obtain ⟨ls, e, g⟩ := ih (fun o' ho' => h o' (.tail _ ho'))
    obtain ⟨st, e1, hw⟩ := statusPart_word (i := p.api.map E.info) hst
    have hl := list_line (b := E.buf) (num := E.num p.id) (st := st) (i := p.api.map E.info) (file := p.file) hE.buf
      ⟨hE.num _, word_nz hw, hE.file o p hp, fun j hj => by
        obtain ⟨a, _, rfl⟩ := Option.map_eq_some_iff.1 hj
        exact hE.info a⟩
    refine ⟨_ :: ls, ?_, .cons ⟨p, st, hp, hw, rfl⟩ g⟩
    rw [listLoop, show s.get o = .ok p from (by unfold Mgr.St.get; rw [hp])]
    simp only [liftM, liftB, bind, Except.bind, e1, hl, e]

/-- C60: `meta list` says how many plugins there are and prints one line for each, in their order, whatever their state. -/
theorem list_spec {E : Env} {s : Mgr.St} (hE : E.Ok s) (h : ∀ o ∈ s.plugins, ∃ p, s.objs o = some p ∧ p.status ≠ .uninit) :
    ∃ ls, list E s = .ok (s.plugins.length, ls) ∧ Lines E s s.plugins ls := by
  obtain ⟨ls, e, g⟩ := listLoop_lines hE s.plugins h
  unfold list
  split
  · next h0 =>
    have : s.plugins = [] := List.length_eq_zero_iff.1 h0
    rw [this] at g ⊢
    cases g
    exact ⟨[], rfl, .nil⟩
  · exact ⟨ls, by rw [e]; rfl, g⟩

/-- The plugins a player sees: those that run and say so, in their order. -/
inductive Visible (E : Env) (s : Mgr.St) : List Nat → List (Mgr.Plug × Nat) → Prop
  | nil : Visible E s [] []
  | yes {o : Nat} {os : List Nat} {ps : List (Mgr.Plug × Nat)} {p : Mgr.Plug} {a : Nat} : s.objs o = some p → p.status = .running → p.api = some a → (E.info a).runs = true → Visible E s os ps →
      Visible E s (o :: os) ((p, a) :: ps)
  | no {o : Nat} {os : List Nat} {ps : List (Mgr.Plug × Nat)} {p : Mgr.Plug} : s.objs o = some p → (p.status ≠ .running ∨ ∀ a, p.api = some a → (E.info a).runs = false) → Visible E s os ps → Visible E s (o :: os) ps

/-- C60: a player is shown exactly the plugins that run and say so, numbered from 1 on. -/
theorem client_list {E : Env} {s : Mgr.St} (hE : E.Ok s) : ∀ (l : List Nat) (n : Nat), (∀ o ∈ l, ∃ p, s.objs o = some p ∧ p.status ≠ .uninit) →
    ∃ ps, Visible E s l ps ∧ clientLoop E s n l = .ok (ps.mapIdx fun k x => (wholeLine (E.num (n + k + 1)) none (some (E.info x.2)) x.1.file).take 255) := by
  intro l
  induction l with
  | nil => intro n _; exact ⟨[], .nil, rfl⟩
  | cons o os ih =>
    intro n h
    obtain ⟨p, hp, hst⟩ := h o (.head _)
    have hs : Mgr.statusIs .running p.status = .ok (p.status == .running) := by
      unfold Mgr.statusIs; split
      · next e => exact absurd e hst
      · rfl
    have hget : s.get o = .ok p := by unfold Mgr.St.get; rw [hp]
    have skip : (p.status ≠ .running ∨ ∀ a, p.api = some a → (E.info a).runs = false) → ∃ ps, Visible E s (o :: os) ps ∧ clientLoop E s n os = .ok (ps.mapIdx fun k x => (wholeLine (E.num (n + k + 1)) none (some (E.info x.2)) x.1.file).take 255) := by
      intro hno
      obtain ⟨ps, g, e⟩ := ih n (fun o' ho' => h o' (.tail _ ho'))
      exact ⟨ps, .no hp hno g, e⟩
    rw [clientLoop, hget]
    simp only [liftM, bind, Except.bind, hs]
    cases ha : p.api with
    | none => exact skip (.inr fun a h => by rw [ha] at h; cases h)
    | some a =>
      dsimp only
      by_cases hr : p.status = .running
      · cases hq : (E.info a).runs with
        | false =>
          rw [if_neg (by simp [hr])]
          exact skip (.inr fun a' h => by rw [ha] at h; cases h; exact hq)
        | true =>
          rw [if_pos (by simp [hr])]
          obtain ⟨ps, g, e⟩ := ih (n + 1) (fun o' ho' => h o' (.tail _ ho'))
          refine ⟨(p, a) :: ps, .yes hp hr ha hq g, ?_⟩
          rw [list_line (b := E.buf) (num := E.num (n + 1)) (st := none) (i := some (E.info a)) (file := p.file) hE.buf
            ⟨hE.num _, nofun, hE.file o p hp, fun j hj => by cases hj; exact hE.info a⟩, e]
          simp only [liftB, List.mapIdx_cons]
          congr 2
          apply List.ext_getElem?
          intro k
          simp only [List.getElem?_mapIdx]
          congr 1
          funext x
          congr 4
          omega
      · rw [if_neg (by simp [hr])]
        exact skip (.inl hr)

/-- Finding: `GetStatusText` says "STOPPED" of a plugin that runs, "RUNNING" of one that does not. -/
theorem status_text_inverted (i : Info) :
    statusText .running (some i) = .ok (if i.runs then [83, 84, 79, 80, 80, 69, 68] else [82, 85, 78, 78, 73, 78, 71]) := rfl

/-! ### log messages -/

theorem tell_of {k : Sink} {s : Log} {t : List Byte} (h : IsStr s.buffer t) : tell k s = .ok { s with told := s.told ++ [(k, t)] } := by
  unfold tell
  rw [cstr_of h]
  rfl

/-- The buffer of a message is ready. -/
theorem vsnprintf_log {b : Buf} (hb : b.length = 2048) {t : List Byte} (h0 : 0 ∉ t) : ∃ b2, (do
      let (b, len) ← vsnprintf b 2046 (some t) []
      let len := min len 2046
      let b ← wr b len 10
      wr b (len + 1) 0 : R Buf) = .ok b2 ∧ b2.length = 2048 ∧ IsStr b2 (if t.length ≤ 2045 then t ++ [10] else t.take 2045) := by
  have hw : wrs b 0 (t.take 2045 ++ [0]) = .ok (t.take 2045 ++ 0 :: b.drop (min 2045 t.length + 1)) := by
    unfold wrs
    rw [if_pos (by simp; omega)]
    simp
  unfold vsnprintf
  simp only [show ¬ (2046 : Nat) = 0 from by omega, if_false, show 2046 - 1 = 2045 from rfl, hw, bind, Except.bind]
  have hl : (t.take 2045 ++ 0 :: b.drop (min 2045 t.length + 1)).length = 2048 := by simp; omega
  unfold wr
  rw [if_pos (by rw [hl]; omega)]
  dsimp only
  rw [if_pos (by rw [List.length_set, hl]; omega)]
  refine ⟨_, rfl, by rw [List.length_set, List.length_set, hl], ?_⟩
  split
  · next h =>
    rw [Nat.min_eq_left (by omega : t.length ≤ 2046), List.take_of_length_le h, Nat.min_eq_right h]
    have h3 : ∃ c cs, b.drop (t.length + 1) = c :: cs := by
      cases e : b.drop (t.length + 1) with
      | nil => have := congrArg List.length e; simp at this; omega
      | cons c cs => exact ⟨c, cs, rfl⟩
    obtain ⟨c, cs, e⟩ := h3
    refine ⟨cs, ?_, ?_⟩
    · rw [e]; simp
    · simp [h0]
  · next h =>
    rw [Nat.min_eq_right (by omega : 2046 ≤ t.length), Nat.min_eq_left (by omega : 2045 ≤ t.length)]
    refine ⟨((b.drop (2045 + 1)).set 0 10).set 1 0, ?_, fun h => h0 (List.mem_of_mem_take h)⟩
    have hlt : (t.take 2045).length = 2045 := by simp; omega
    rw [List.set_append_right _ _ (by omega), List.set_append_right _ _ (by omega), hlt]
    rfl

theorem logMessage_run {P : Provider} {t : List Byte} {s : Log} (hl : s.logging = false) (hb : s.buffer.length = 2048) (h0 : 0 ∉ t) :
    ∃ b2, b2.length = 2048 ∧ IsStr b2 (if t.length ≤ 2045 then t ++ [10] else t.take 2045) ∧
      logMessage P (some t) [] s = (do
        let (s, taken) ← P ⟨false, b2, s.told ++ [(.engine, if t.length ≤ 2045 then t ++ [10] else t.take 2045)]⟩
        let s ← orStdout taken s
        tell .console s) := by
  obtain ⟨b2, e, h1, h2⟩ := vsnprintf_log hb h0
  refine ⟨b2, h1, h2, ?_⟩
  unfold logMessage
  rw [hl]
  simp only [Bool.false_eq_true, if_false, saveAndSet]
  simp only [bind, Except.bind] at e ⊢
  split at e
  · cases e
  · next x ex =>
    split at e
    · cases e
    · next y ey =>
      rw [e]
      dsimp only
      rw [tell_of (s := ⟨s.logging, b2, s.told⟩) h2, hl]

/-- An engine that takes a message or not, and does nothing else. -/
def quiet (taken : Bool) : Provider := fun s => .ok (s, taken)

/-- C61: a message of at most 2045 bytes is told to the engine and the console with a newline, and printed if the engine does not take it;
the buffer is not left.  Of a longer one it is the first 2045 bytes.  Missing: the newline is lost for longer ones (`log_long`), and messages
while the engine is told (`log_nested`). -/
theorem log_partial {t : List Byte} {s : Log} {taken : Bool} (hl : s.logging = false) (hb : s.buffer.length = 2048) (h0 : 0 ∉ t) :
    ∃ b2, b2.length = 2048 ∧ logMessage (quiet taken) (some t) [] s = .ok ⟨false, b2, s.told ++
      (let m := if t.length ≤ 2045 then t ++ [10] else t.take 2045
       [(.engine, m)] ++ (if taken then [] else [(.stdout, m)]) ++ [(.console, m)])⟩ := by
  obtain ⟨b2, h1, h2, e⟩ := logMessage_run (P := quiet taken) hl hb h0
  refine ⟨b2, h1, ?_⟩
  rw [e]
  cases taken with
  | true =>
    simp only [quiet, bind, Except.bind, orStdout, if_true]
    rw [tell_of (s := ⟨false, b2, _⟩) h2]
    simp
  | false =>
    simp only [quiet, bind, Except.bind, orStdout, Bool.false_eq_true, if_false]
    rw [tell_of (s := ⟨false, b2, _⟩) h2]
    dsimp only
    rw [tell_of (s := ⟨false, b2, _⟩) h2]
    simp

/-- Finding: a message of 2046 bytes or more loses its newline. -/
theorem log_long {t : List Byte} {s : Log} (hl : s.logging = false) (hb : s.buffer.length = 2048) (h0 : 0 ∉ t) (ht : 2046 ≤ t.length) (h10 : 10 ∉ t) :
    ∃ b2 m, logMessage (quiet true) (some t) [] s = .ok ⟨false, b2, s.told ++ [(.engine, m), (.console, m)]⟩ ∧ 10 ∉ m := by
  obtain ⟨b2, _, e⟩ := log_partial (taken := true) hl hb h0
  refine ⟨b2, t.take 2045, ?_, fun h => h10 (List.mem_of_mem_take h)⟩
  rw [e, if_neg (by omega)]
  rfl

/-- Finding: the guard against messages while one is told does not work.  Of the outer message the console hears nothing: it is told the inner
one twice. -/
theorem log_nested {t u : List Byte} {s : Log} (hl : s.logging = false) (hb : s.buffer.length = 2048) (ht : 0 ∉ t) (hu : 0 ∉ u) (h1 : t.length ≤ 2045) (h2 : u.length ≤ 2045) :
    ∃ b2, logMessage (fun s => do let s ← logMessage (quiet true) (some u) [] s; .ok (s, true)) (some t) [] s =
      .ok ⟨false, b2, s.told ++ [(.engine, t ++ [10]), (.engine, u ++ [10]), (.console, u ++ [10]), (.console, u ++ [10])]⟩ := by
  obtain ⟨b2, g1, g2, e⟩ := logMessage_run (P := fun s => do let s ← logMessage (quiet true) (some u) [] s; .ok (s, true)) hl hb ht
  rw [if_pos h1] at e
  obtain ⟨b3, k1, k2, e'⟩ := logMessage_run (P := quiet true) (t := u) (s := ⟨false, b2, s.told ++ [(.engine, t ++ [10])]⟩) rfl g1 hu
  rw [if_pos h2] at e' k2
  refine ⟨b3, ?_⟩
  rw [e]
  simp only [bind, Except.bind] at e' ⊢
  rw [e']
  simp only [quiet, orStdout, if_true]
  rw [tell_of (s := ⟨false, b3, _⟩) k2]
  dsimp only
  rw [tell_of (s := ⟨false, b3, _⟩) k2]
  simp
  rw [tell_of (s := ⟨false, b3, _⟩) k2]
  simp

/-- Finding: when vsnprintf fails, what the buffer held before is told. -/
theorem log_error_stale {s : Log} {t : List Byte} (hl : s.logging = false) (hb : s.buffer.length = 2048) (h : IsStr s.buffer t) (ht : t.length < 2046) :
    ∃ b2, logMessage (quiet true) none [] s = .ok ⟨false, b2, s.told ++ [(.engine, t), (.console, t)]⟩ := by
  obtain ⟨rest, hr, h0⟩ := h
  have hw : wrs s.buffer 0 (([] : List Byte).take 2046) = .ok s.buffer := by
    unfold wrs; simp
  have hs : IsStr ((s.buffer.set 2046 10).set 2047 0) t := by
    refine ⟨(rest.set (2045 - t.length) 10).set (2046 - t.length) 0, ?_, h0⟩
    rw [hr, List.set_append_right _ _ (by omega), List.set_append_right _ _ (by omega)]
    rw [show 2046 - t.length = (2045 - t.length) + 1 from by omega, show 2047 - t.length = (2045 - t.length + 1) + 1 from by omega, List.set_cons_succ, List.set_cons_succ]
  refine ⟨(s.buffer.set 2046 10).set 2047 0, ?_⟩
  unfold logMessage
  rw [hl]
  simp only [Bool.false_eq_true, if_false, saveAndSet, vsnprintf, hw, bind, Except.bind, show min sizeMax 2046 = 2046 from by decide]
  unfold wr
  rw [if_pos (by omega)]
  dsimp only
  rw [if_pos (by rw [List.length_set]; omega)]
  dsimp only
  rw [tell_of (s := ⟨s.logging, _, s.told⟩) hs]
  simp only [quiet, orStdout, if_true]
  rw [tell_of (s := ⟨s.logging, _, _⟩) hs, hl]
  simp

/-! ### Examples -/

def sample : Info := ⟨some [65], some [49], none, true⟩

/-- `list_line`: "  [01] <PAUSED> A (1)". -/
example : Clean [48, 49] (some [80]) (some sample) [47, 97] ∧
    wholeLine [48, 49] (some [80]) (some sample) [47, 97] = [32, 32, 91, 48, 49, 93, 32, 60, 80, 62, 32, 65, 32, 40, 49, 41] := by
  refine ⟨⟨by decide, ?_, by decide, ?_⟩, by decide⟩
  · intro t e; cases e; decide
  · intro j e; cases e
    refine ⟨?_, ?_, ?_⟩ <;> intro t e <;> cases e <;> decide

/-- `list_spec`, `client_list`: an environment, and a state with a running plugin. -/
example : ∃ E : Env, ∃ s : Mgr.St, E.Ok s ∧ s.plugins ≠ [] ∧ (∀ o ∈ s.plugins, ∃ p, s.objs o = some p ∧ p.status ≠ .uninit) ∧ ∃ ps, ps ≠ [] ∧ Visible E s s.plugins ps := by
  let p : Mgr.Plug := { Mgr.newPlug 1 [97] with status := .running, api := some 5 }
  let s : Mgr.St := { Mgr.init with plugins := [0], objs := fun o => if o = 0 then some p else none }
  refine ⟨⟨fun _ => [49], fun _ => sample, List.replicate 256 7⟩, s, ⟨List.length_replicate, fun _ => (by decide : (0 : Byte) ∉ [49]), ?_, ?_⟩, by decide, ?_, [(p, 5)], by decide, .yes (o := 0) rfl rfl rfl rfl .nil⟩
  · intro a; refine ⟨?_, ?_, ?_⟩ <;> intro t e <;> cases e <;> decide
  · intro o q hq
    have hq : (if o = 0 then some p else none) = some q := hq
    split at hq
    · cases hq; decide
    · cases hq
  · intro o ho
    rw [List.mem_singleton.1 ho]
    exact ⟨p, rfl, by decide⟩

/-- `log_partial`, `log_long`, `log_nested`, `log_error_stale`: a buffer, short and long messages. -/
example : (List.replicate 2048 (0 : Byte)).length = 2048 ∧ IsStr (List.replicate 2048 (0 : Byte)) [] ∧ 2046 ≤ (List.replicate 3000 (65 : Byte)).length ∧ 0 ∉ List.replicate 3000 (65 : Byte) ∧ 10 ∉ List.replicate 3000 (65 : Byte) := by
  refine ⟨List.length_replicate, ⟨List.replicate 2047 0, ?_, by simp⟩, ?_, ?_, ?_⟩
  · rw [List.nil_append, ← List.replicate_succ]
  · rw [List.length_replicate]; omega
  · rw [List.mem_replicate]; rintro ⟨_, h⟩; cases h
  · rw [List.mem_replicate]; rintro ⟨_, h⟩; cases h

#print axioms list_line
#print axioms list_spec
#print axioms client_list
#print axioms status_text_inverted
#print axioms log_partial
#print axioms log_long
#print axioms log_nested
#print axioms log_error_stale

end Verif.Report
