import Verif.Core.Sources
import Verif.Util.MiscProps
import Verif.Util.RelatizeProps
/-
Property C78: where plugins are looked for, and the command that loads Metamod as a plugin of the engine.
-/
namespace Verif.Core.Src

open Verif.C Verif.Util

/-! ### specification -/

/-- Specification: the first text that is there. -/
def firstOf : List (Option Text) → Text → Text
  | [], d => d
  | some t :: _, _ => t
  | none :: l, d => firstOf l d

/-- Specification: what the engine says of the command line for a name without sign. -/
def given (e : Env) (key : Text) : Option Text := if e.s2 then e.parm key else if e.icvar then e.cvarArg key else none

/-- Specification: what a variable says; in Source 2 an empty text is nothing. -/
def usable (e : Env) (v : Option Text) : Option Text := v.filter fun t => !(e.s2 && t == [])

/-- Specification: every backslash is a slash. -/
def slashed (t : Text) : Text := t.map fun c => if c = 92 then 47 else c

/-- Specification: a path below the game's directory, as far as 4095 bytes go. -/
def below (modPath t : Text) : Text := slashed ((modPath ++ [47] ++ t).take 4095)

/-- Specification: the texts have no NUL inside. -/
structure Texts (e : Env) (v : Vars) (modPath : Text) : Prop where
  mod : 0 ∉ modPath
  arg : ∀ k t, given e k = some t → 0 ∉ t
  file : ∀ t, v.pluginsfile = some t → 0 ∉ t
  dir : ∀ t, v.basedir = some t → 0 ∉ t

/-! ### lemmas -/

theorem slashed_nul {t : Text} (h : 0 ∉ t) : 0 ∉ slashed t := by
  intro hc
  obtain ⟨c, hc, he⟩ := List.mem_map.1 hc
  split at he
  · exact absurd he (by decide)
  · exact h (he ▸ hc)

theorem pathOf_some {buf : Buf} {modPath t : Text} (hb : 4096 ≤ buf.length) (hm : 0 ∉ modPath) (ht : 0 ∉ t) :
    pathOf buf modPath (some t) = .ok (below modPath t) := by
  obtain ⟨b', h1, h2⟩ := pathFormat_spec (n := 4096) (by decide) hb (modPath ++ 47 :: t) []
  have h0 : 0 ∉ (modPath ++ [47] ++ t).take 4095 := by
    intro h
    have := List.mem_of_mem_take h
    simp only [List.mem_append, List.mem_cons, List.not_mem_nil, or_false] at this
    rcases this with (h | h) | h
    · exact hm h
    · exact absurd h (by decide)
    · exact ht h
  have hc : cstr b' 0 = .ok (below modPath t) := by
    apply cstr_of
    refine ⟨buf.drop (min (modPath ++ 47 :: t).length (4096 - 1) + 1), ?_, slashed_nul h0⟩
    rw [h2]
    simp only [below, slashed, List.append_assoc, List.cons_append, List.nil_append]
  simp only [pathOf, h1, bind, Except.bind, hc, lift]

theorem varText_usable (e : Env) (v : Option Text) : varText e v = usable e v := by
  cases v with
  | none => rfl
  | some t => cases t <;> cases h : e.s2 <;> simp [varText, usable, h, Option.filter]

theorem cmdValue_given (e : Env) {key : Text} (h : key.head? ≠ some 45 ∧ key.head? ≠ some 43) : cmdValue e key none = given e key := by
  have h' : ¬ (key.head? = some 45 ∨ key.head? = some 43) := fun hc => hc.elim h.1 h.2
  unfold cmdValue given
  cases e.s2 with
  | true =>
    simp only [if_true, parmValue]
    cases e.parm key <;> rfl
  | false =>
    simp only [cmdValue1, if_neg h']
    cases e.icvar with
    | true => simp only [if_true]; cases e.cvarArg key <;> rfl
    | false => rfl

theorem pick_first (e : Env) {key : Text} (h : key.head? ≠ some 45 ∧ key.head? ≠ some 43) (v : Option Text) (d : Text) :
    pick e key v d = some (firstOf [given e key, usable e v] d) := by
  unfold pick
  rw [cmdValue_given e h, varText_usable]
  cases given e key with
  | some t => rfl
  | none => cases usable e v <;> rfl

theorem usable_mem {e : Env} {v : Option Text} {t : Text} (h : usable e v = some t) : v = some t := (Option.filter_eq_some_iff.1 h).1

theorem firstOf_nul {e : Env} {k : Text} {v : Option Text} {d : Text} (hg : ∀ t, given e k = some t → 0 ∉ t) (hv : ∀ t, v = some t → 0 ∉ t)
    (hd : 0 ∉ d) : 0 ∉ firstOf [given e k, usable e v] d := by
  cases h1 : given e k with
  | some t => exact hg t h1
  | none =>
    cases h2 : usable e v with
    | some t => exact hv t (usable_mem h2)
    | none => exact hd

/-! ### C78: the lists -/

/-- No counterpart in /repo: an array with some content. -/
def exBuf (n : Nat) : Buf := List.replicate n 7

theorem exBuf_len (n : Nat) : n ≤ (exBuf n).length := by rw [exBuf, List.length_replicate]; exact Nat.le_refl n

/-- No counterpart in /repo: an engine of the first kind, started with a list of its own. -/
def exEnv : Env where
  s2 := false
  icvar := true
  cvarArg := fun k => if k = bytes "mm_pluginsfile" then some (bytes "my.ini") else none
  parm := fun _ => none

theorem exTexts : Texts exEnv created (bytes "/srv/hl2mp") where
  mod := by decide +kernel
  arg := by
    intro k t h
    simp only [given, exEnv, Bool.false_eq_true, if_false, if_true] at h
    split at h
    · cases h; decide +kernel
    · cases h
  file := by intro t h; cases h; decide +kernel
  dir := by intro t h; cases h; decide +kernel

/-- No counterpart in /repo: Source 2, nothing on the command line. -/
def exEnv2 : Env := ⟨true, true, fun _ => none, fun _ => none⟩

theorem exTexts2 (v : Vars) (h1 : ∀ t, v.pluginsfile = some t → 0 ∉ t) (h2 : ∀ t, v.basedir = some t → 0 ∉ t) :
    Texts exEnv2 v (bytes "/srv/game") where
  mod := by decide +kernel
  arg := by intro k t h; cases h
  file := h1
  dir := h2

/-- C78: the first time, the list of plugins and the directory of .vdf files are each the one the command line names, else the one of the
variable, else `addons/metamod/metaplugins.ini` and `addons/metamod`, below the game's directory with slashes only. -/
theorem initial_sources {e : Env} {v : Vars} {modPath : Text} (h : Texts e v modPath) {fb vb : Buf} (hf : 4096 ≤ fb.length) (hv : 4096 ≤ vb.length) :
    initialPaths e v modPath fb vb = .ok
      ⟨below modPath (firstOf [given e (bytes "mm_pluginsfile"), usable e v.pluginsfile] (bytes "addons/metamod/metaplugins.ini")),
       below modPath (firstOf [given e (bytes "mm_basedir"), usable e v.basedir] (bytes "addons/metamod"))⟩ := by
  unfold initialPaths
  rw [pick_first e (by decide +kernel), pick_first e (by decide +kernel),
    pathOf_some hf h.mod (firstOf_nul (h.arg _) h.file (by decide +kernel)),
    pathOf_some hv h.mod (firstOf_nul (h.arg _) h.dir (by decide +kernel))]
  rfl

example : initialPaths exEnv created (bytes "/srv/hl2mp") (exBuf 4096) (exBuf 4096) =
    .ok ⟨bytes "/srv/hl2mp/my.ini", bytes "/srv/hl2mp/addons/metamod"⟩ :=
  (initial_sources exTexts (exBuf_len _) (exBuf_len _)).trans (congrArg Except.ok (by decide +kernel))

/-- C78: at the end of a level they are the ones of the two variables. -/
theorem reload_sources {e : Env} {v : Vars} {modPath : Text} (h : Texts e v modPath) {fb vb : Buf} (hf : 4096 ≤ fb.length) (hv : 4096 ≤ vb.length)
    {a b : Text} (ha : usable e v.pluginsfile = some a) (hb : usable e v.basedir = some b) :
    reloadPaths e v modPath fb vb = .ok ⟨below modPath a, below modPath b⟩ := by
  unfold reloadPaths
  rw [varText_usable, varText_usable, ha, hb, pathOf_some hf h.mod (h.file a (usable_mem ha)),
    pathOf_some hv h.mod (h.dir b (usable_mem hb))]
  rfl

example : reloadPaths exEnv created (bytes "/srv/hl2mp") (exBuf 4096) (exBuf 4096) =
    .ok ⟨bytes "/srv/hl2mp/addons/metamod/metaplugins.ini", bytes "/srv/hl2mp/addons/metamod"⟩ :=
  (reload_sources exTexts (exBuf_len _) (exBuf_len _) (a := bytes "addons/metamod/metaplugins.ini") (b := bytes "addons/metamod")
    (by decide +kernel) (by decide +kernel)).trans (congrArg Except.ok (by decide +kernel))

/-- C78: without anything on the command line the places are the same every time. -/
theorem same_every_level {e : Env} {v : Vars} {modPath : Text} (h : Texts e v modPath) {fb vb fb' vb' : Buf} (hf : 4096 ≤ fb.length)
    (hv : 4096 ≤ vb.length) (hf' : 4096 ≤ fb'.length) (hv' : 4096 ≤ vb'.length)
    (g1 : given e (bytes "mm_pluginsfile") = none) (g2 : given e (bytes "mm_basedir") = none)
    (u1 : (usable e v.pluginsfile).isSome) (u2 : (usable e v.basedir).isSome) :
    reloadPaths e v modPath fb vb = initialPaths e v modPath fb' vb' := by
  obtain ⟨a, ha⟩ := Option.isSome_iff_exists.1 u1
  obtain ⟨b, hb⟩ := Option.isSome_iff_exists.1 u2
  rw [reload_sources h hf hv ha hb, initial_sources h hf' hv', g1, g2, ha, hb]
  rfl

example : reloadPaths exEnv2 created (bytes "/srv/game") (exBuf 4096) (exBuf 4096) =
    initialPaths exEnv2 created (bytes "/srv/game") (exBuf 4096) (exBuf 4096) :=
  same_every_level (exTexts2 created (by intro t h; cases h; decide +kernel) (by intro t h; cases h; decide +kernel))
    (exBuf_len _) (exBuf_len _) (exBuf_len _) (exBuf_len _) rfl rfl (by decide +kernel) (by decide +kernel)

/-- C78: neither path has a backslash. -/
theorem no_backslash (modPath t : Text) : 92 ∉ below modPath t := by
  intro hc
  obtain ⟨c, hc, he⟩ := List.mem_map.1 hc
  split at he
  · exact absurd he (by decide)
  · next hn => exact hn he

example : below (bytes "C:\\srv") (bytes "addons\\x.ini") = bytes "C:/srv/addons/x.ini" := by decide +kernel

/-- C78: a path that fits is the directory, a slash, the text. -/
theorem below_fits {modPath t : Text} (hl : modPath.length + t.length < 4095) (hm : 92 ∉ modPath) (ht : 92 ∉ t) :
    below modPath t = modPath ++ [47] ++ t := by
  unfold below slashed
  rw [List.take_of_length_le (by simp; omega)]
  have : ∀ l : Text, 92 ∉ l → (l.map fun c => if c = 92 then 47 else c) = l := by
    intro l hl
    induction l with
    | nil => rfl
    | cons c l ih =>
      simp only [List.mem_cons, not_or] at hl
      rw [List.map_cons, ih hl.2, if_neg (fun h => hl.1 h.symm)]
  apply this
  simp only [List.mem_append, List.mem_cons, List.not_mem_nil, or_false, not_or]
  exact ⟨⟨hm, by decide⟩, ht⟩

example : below (bytes "/srv/game") (bytes "a/b.ini") = bytes "/srv/game/a/b.ini" := by
  rw [below_fits (by decide +kernel) (by decide +kernel) (by decide +kernel)]; decide +kernel

/-- Finding, core/metamod.cpp:180-189, 472-490: a list named on the command line is read the first time only; at the end of each level the one
of the variable is read, so that plugins of another list are loaded. -/
theorem command_line_once {e : Env} {v : Vars} {modPath : Text} (h : Texts e v modPath) {fb vb : Buf} (hf : 4096 ≤ fb.length) (hv : 4096 ≤ vb.length)
    {t a b : Text} (ht : given e (bytes "mm_pluginsfile") = some t) (ha : usable e v.pluginsfile = some a) (hb : usable e v.basedir = some b)
    (hl : modPath.length + t.length < 4095) (hl' : modPath.length + a.length < 4095) (s1 : 92 ∉ modPath) (s2 : 92 ∉ t) (s3 : 92 ∉ a) (hne : t ≠ a) :
    ∃ p q, initialPaths e v modPath fb vb = .ok p ∧ reloadPaths e v modPath fb vb = .ok q ∧ p.file = modPath ++ [47] ++ t ∧
      q.file = modPath ++ [47] ++ a ∧ p.file ≠ q.file := by
  refine ⟨_, _, initial_sources h hf hv, reload_sources h hf hv ha hb, ?_, ?_, ?_⟩
  · show below modPath (firstOf [given e (bytes "mm_pluginsfile"), _] _) = _
    rw [ht]; exact below_fits hl s1 s2
  · exact below_fits hl' s1 s3
  · show below modPath (firstOf [given e (bytes "mm_pluginsfile"), _] _) ≠ below modPath a
    rw [ht, below_fits hl' s1 s3]
    show below modPath t ≠ _
    rw [below_fits hl s1 s2]
    exact fun h => hne (List.append_cancel_left h)

example : ∃ p q, initialPaths exEnv created (bytes "/srv/hl2mp") (exBuf 4096) (exBuf 4096) = .ok p ∧
    reloadPaths exEnv created (bytes "/srv/hl2mp") (exBuf 4096) (exBuf 4096) = .ok q ∧ p.file ≠ q.file := by
  obtain ⟨p, q, h1, h2, -, -, h3⟩ := command_line_once exTexts (fb := exBuf 4096) (vb := exBuf 4096) (exBuf_len _) (exBuf_len _)
    (t := bytes "my.ini") (a := bytes "addons/metamod/metaplugins.ini") (b := bytes "addons/metamod") (by decide +kernel) (by decide +kernel)
    (by decide +kernel) (by decide +kernel) (by decide +kernel) (by decide +kernel) (by decide +kernel) (by decide +kernel) (by decide +kernel)
  exact ⟨p, q, h1, h2, h3⟩

/-- Finding, core/metamod.cpp:180-189, core/provider/source2/provider_source2.cpp:283: in Source 2 an empty variable is NULL, and at the end of a
level it is printed with `%s`; the first time the default is taken instead. -/
theorem empty_variable_faults {e : Env} (h : e.s2 = true) (dir : Option Text) (modPath : Text) (fb vb : Buf) :
    reloadPaths e ⟨some [], dir⟩ modPath fb vb = .error .null := by
  unfold reloadPaths
  rw [varText_usable]
  simp [usable, h, pathOf, bind, Except.bind, Option.filter]

example : reloadPaths exEnv2 ⟨some [], some (bytes "addons/metamod")⟩ (bytes "/srv/game") (exBuf 4096) (exBuf 4096) = .error .null ∧
    pick exEnv2 (bytes "mm_pluginsfile") (some []) (bytes "x") = some (bytes "x") :=
  ⟨empty_variable_faults rfl _ _ _ _, by decide +kernel⟩

/-- C78: that is the only way to NULL once the variables are created. -/
theorem reload_null_iff {e : Env} {v : Vars} {modPath : Text} (h : Texts e v modPath) {fb vb : Buf} (hf : 4096 ≤ fb.length) (hv : 4096 ≤ vb.length)
    {a b : Text} (ha : v.pluginsfile = some a) (hb : v.basedir = some b) :
    reloadPaths e v modPath fb vb = .error .null ↔ e.s2 = true ∧ (a = [] ∨ b = []) := by
  have key : ∀ (t : Text) (w : Option Text), w = some t → (usable e w = none ↔ e.s2 = true ∧ t = []) := by
    intro t w hw
    subst hw
    cases t <;> cases h : e.s2 <;> simp [usable, h, Option.filter]
  have k1 := key a _ ha
  have k2 := key b _ hb
  cases h1 : usable e v.pluginsfile with
  | none =>
    refine ⟨fun _ => ⟨(k1.1 h1).1, .inl (k1.1 h1).2⟩, fun _ => ?_⟩
    unfold reloadPaths
    rw [varText_usable, h1]
    rfl
  | some x =>
    cases h2 : usable e v.basedir with
    | none =>
      refine ⟨fun _ => ⟨(k2.1 h2).1, .inr (k2.1 h2).2⟩, fun _ => ?_⟩
      unfold reloadPaths
      rw [varText_usable, varText_usable, h1, h2, pathOf_some hf h.mod (h.file x (usable_mem h1))]
      rfl
    | some y =>
      rw [reload_sources h hf hv h1 h2]
      refine ⟨fun hc => (by cases hc), fun hc => ?_⟩
      exfalso
      rcases hc.2 with hc' | hc'
      · rw [k1.2 ⟨hc.1, hc'⟩] at h1; cases h1
      · rw [k2.2 ⟨hc.1, hc'⟩] at h2; cases h2

example : reloadPaths exEnv2 created (bytes "/srv/game") (exBuf 4096) (exBuf 4096) ≠ .error .null := by
  rw [ne_eq, reload_null_iff (exTexts2 created (by intro t h; cases h; decide +kernel) (by intro t h; cases h; decide +kernel))
    (exBuf_len _) (exBuf_len _) rfl rfl]
  decide +kernel

/-- C78: after the start the variables name the default places, whichever provider. -/
theorem created_usable (e : Env) : usable e created.pluginsfile = some (bytes "addons/metamod/metaplugins.ini") ∧
    usable e created.basedir = some (bytes "addons/metamod") := by
  have h1 : (bytes "addons/metamod/metaplugins.ini" == []) = false := by decide +kernel
  have h2 : (bytes "addons/metamod" == []) = false := by decide +kernel
  constructor
  · simp only [usable, created, Option.filter, h1, Bool.and_false, Bool.not_false, if_true]
  · simp only [usable, created, Option.filter, h2, Bool.and_false, Bool.not_false, if_true]

/-- Finding, core/provider/source/provider_source.cpp:351-361: without `icvar` a value asked for with a default is NULL, not the default. -/
theorem default_lost {e : Env} (h1 : e.s2 = false) (h2 : e.icvar = false) {key : Text} (h : key.head? ≠ some 45 ∧ key.head? ≠ some 43) (d : Option Text) :
    cmdValue e key d = none := by
  have h' : ¬ (key.head? = some 45 ∨ key.head? = some 43) := fun hc => hc.elim h.1 h.2
  simp [cmdValue, h1, cmdValue1, h2, h']

example : cmdValue ⟨false, false, fun _ => none, fun _ => none⟩ (bytes "mm_basedir") (some (bytes "addons/metamod")) = none :=
  default_lost rfl rfl (by decide +kernel) _

/-- C78: with `icvar`, or in Source 2, or for a name with a sign, the default stands in for a missing value and only then. -/
theorem default_stands_in {e : Env} {key : Text} (h : e.s2 = true ∨ e.icvar = true ∨ key.head? = some 45 ∨ key.head? = some 43) (d : Text) :
    ∃ t, cmdValue e key (some d) = some t ∧ (cmdValue e key none = some t ∨ cmdValue e key none = none ∧ t = d) := by
  unfold cmdValue
  cases h1 : e.s2 with
  | true =>
    simp only [if_true, parmValue]
    cases e.parm key with
    | some t => exact ⟨t, rfl, .inl rfl⟩
    | none => exact ⟨d, rfl, .inr ⟨rfl, rfl⟩⟩
  | false =>
    simp only [cmdValue1]
    by_cases hk : key.head? = some 45 ∨ key.head? = some 43
    · simp only [if_pos hk, parmValue]
      cases e.parm key with
      | some t => exact ⟨t, rfl, .inl rfl⟩
      | none => exact ⟨d, rfl, .inr ⟨rfl, rfl⟩⟩
    · have h2 : e.icvar = true := by
        rcases h with h | h | h
        · rw [h1] at h; cases h
        · exact h
        · exact absurd h hk
      simp only [if_neg hk, h2, if_true]
      cases e.cvarArg key with
      | some t => exact ⟨t, rfl, .inl rfl⟩
      | none => exact ⟨d, rfl, .inr ⟨rfl, rfl⟩⟩

example : cmdValue exEnv (bytes "mm_basedir") (some (bytes "x")) = some (bytes "x") ∧
    cmdValue exEnv (bytes "mm_pluginsfile") (some (bytes "x")) = some (bytes "my.ini") := by decide +kernel

/-- C78: `metamod_version` shows the version, and a `V` behind it if Metamod is a plugin of the engine. -/
theorem version_shown {ver : Text} (h0 : 0 ∉ ver) (hl : ver.length < 253) (vsp : Bool) {buf : Buf} (hb : 255 ≤ buf.length) :
    versionText ver vsp buf = .ok (if vsp then ver ++ bytes "V" else ver) := by
  have hV : bytes "V" = [86] := by decide +kernel
  obtain ⟨b', h1, h2⟩ := format_spec (n := 255) (by decide) hb (ver ++ if vsp then [86] else []) []
  have hc : cstr b' 0 = .ok (ver ++ if vsp then [86] else []) := by
    apply cstr_of
    refine ⟨buf.drop (min (ver ++ if vsp then [86] else []).length (255 - 1) + 1), ?_, ?_⟩
    · rw [h2, List.take_of_length_le (by cases vsp <;> simp <;> omega)]
    · intro h
      rcases List.mem_append.1 h with h | h
      · exact h0 h
      · cases vsp <;> simp at h
  simp only [versionText, h1, bind, Except.bind, hc]
  cases vsp <;> simp [hV]

example : versionText (bytes "2.0.0") true (exBuf 255) = .ok (bytes "2.0.0V") :=
  (version_shown (by decide +kernel) (by decide +kernel) true (exBuf_len _)).trans (congrArg Except.ok (by decide +kernel))

/-- C78: each flag of a new variable is the provider's flag of that name, for each combination. -/
theorem flags_mapped (notify sponly flags i : Nat) :
    (varFlags notify sponly flags).testBit i = (flags.testBit 0 && notify.testBit i || flags.testBit 1 && sponly.testBit i) := by
  have b0 : (flags &&& 1 ≠ 0) ↔ flags.testBit 0 = true := by
    rw [Nat.and_one_is_mod, Nat.testBit_zero]; simp
  have b1 : (flags &&& 2 ≠ 0) ↔ flags.testBit 1 = true := by
    have hi : ∀ j, (flags &&& 2).testBit j = (flags.testBit j && decide (1 = j)) := fun j => by
      rw [Nat.testBit_and, show (2 : Nat) = 2 ^ 1 from rfl, Nat.testBit_two_pow]
    constructor
    · intro hne
      cases h : flags.testBit 1 with
      | true => rfl
      | false =>
        refine absurd (Nat.eq_of_testBit_eq fun j => ?_) hne
        rw [hi, Nat.zero_testBit]
        by_cases hj : 1 = j
        · subst hj; simp [h]
        · simp [hj]
    · intro h hz
      have := hi 1
      rw [hz, Nat.zero_testBit, h] at this
      simp at this
  unfold varFlags
  by_cases c0 : flags &&& 1 ≠ 0
  · have e0 := b0.1 c0
    by_cases c1 : flags &&& 2 ≠ 0
    · have e1 := b1.1 c1
      simp only [if_pos c0, if_pos c1, e0, e1]
      simp
    · have e1 : flags.testBit 1 = false := by cases h : flags.testBit 1 with | false => rfl | true => exact absurd (b1.2 h) c1
      simp only [ne_eq, c0, not_false_eq_true, if_true, c1, if_false, e0, e1]
      simp
  · have e0 : flags.testBit 0 = false := by cases h : flags.testBit 0 with | false => rfl | true => exact absurd (b0.2 h) c0
    by_cases c1 : flags &&& 2 ≠ 0
    · have e1 := b1.1 c1
      simp only [if_neg c0, if_pos c1, e0, e1]
      simp
    · have e1 : flags.testBit 1 = false := by cases h : flags.testBit 1 with | false => rfl | true => exact absurd (b1.2 h) c1
      simp only [if_neg c0, if_neg c1, e0, e1]
      simp

/-- C78: `metamod_version` is made with both flags, the other two variables without the one that shows changes to players. -/
theorem version_flags (notify sponly i : Nat) :
    (varFlags notify sponly versionFlags).testBit i = (notify.testBit i || sponly.testBit i) ∧
    (varFlags notify sponly pathVarFlags).testBit i = sponly.testBit i := by
  have h : versionFlags.testBit 0 = true ∧ versionFlags.testBit 1 = true ∧ pathVarFlags.testBit 0 = false ∧
      pathVarFlags.testBit 1 = true := by decide
  rw [flags_mapped, flags_mapped, h.1, h.2.1, h.2.2.1, h.2.2.2]
  simp

example : varFlags 256 64 versionFlags = 320 ∧ varFlags 256 64 2 = 64 := by decide

/-! ### C78: the command -/

/-- Specification: no separator in it. -/
def NoSep (t : Text) : Prop := 47 ∉ t ∧ 92 ∉ t

theorem chopLoop_nosep {a n r : Text} (h : NoSep n) {i : Nat} (hi : i ≤ n.length) :
    chopLoop (a ++ n ++ r) (a.length + i) = chopLoop (a ++ n ++ r) a.length := by
  induction i with
  | zero => rfl
  | succ i ih =>
    rw [show a.length + (i + 1) = a.length + i + 1 by omega, chopLoop]
    have hg : (a ++ n ++ r)[a.length + i]? = some n[i] := by
      rw [List.append_assoc, List.getElem?_append_right (by omega), show a.length + i - a.length = i by omega,
        List.getElem?_append_left (by omega), List.getElem?_eq_getElem (by omega)]
    rw [rd_get hg]
    have hm : n[i] ∈ n := List.getElem_mem _
    have : ¬ (n[i] = 47 ∨ n[i] = 92) := fun hc => hc.elim (fun h' => h.1 (h' ▸ hm)) (fun h' => h.2 (h' ▸ hm))
    simp only [bind, Except.bind, if_neg this]
    exact ih (by omega)

/-- The loop cuts at the last separator. -/
theorem chop_at {d n r : Text} {c : Byte} (hc : c = 47 ∨ c = 92) (h : NoSep n) :
    chopLoop (d ++ [c] ++ n ++ r) (d ++ [c] ++ n).length = .ok (d ++ [0] ++ n ++ r) := by
  have := chopLoop_nosep (a := d ++ [c]) (r := r) h (Nat.le_refl _)
  rw [List.length_append, this, show (d ++ [c]).length = d.length + 1 by simp, chopLoop]
  have hg : (d ++ [c] ++ n ++ r)[d.length]? = some c := by simp
  rw [rd_get hg]
  simp only [bind, Except.bind, if_pos hc]
  have := wr_left (a := d) (c := c) (d := 0) (r := n ++ r)
  simpa using this

theorem chop_none {n r : Text} (h : NoSep n) : chopLoop (n ++ r) n.length = .ok (n ++ r) := by
  have := chopLoop_nosep (a := []) (r := r) h (Nat.le_refl _)
  simpa [chopLoop] using this

theorem fileOf_some {t : Text} (ht : t.length < 4096) {buf : Buf} (hb : 4096 ≤ buf.length) :
    fileOf (some t) buf = .ok (some (t ++ 0 :: buf.drop (t.length + 1))) := by
  have hw : wrs buf 0 (t.take (4096 - 1) ++ [0]) = .ok (t ++ [0] ++ buf.drop (t.length + 1)) := by
    rw [List.take_of_length_le (by omega)]
    unfold wrs
    rw [if_pos (by simp; omega)]
    simp
  unfold fileOf vsnprintf
  simp only [bind, Except.bind]
  rw [if_neg (by omega), hw]
  simp

/-- C78: the engine's directory is the real path of what is before the last separator in the name of its file. -/
theorem engine_directory {d n : Text} {c : Byte} (hc : c = 47 ∨ c = 92) (hn : NoSep n) (h0 : 0 ∉ d ++ [c] ++ n)
    (hl : (d ++ [c] ++ n).length < 4096) (realpath : Text → Option Text) {buf : Buf} (hb : 4096 ≤ buf.length) :
    enginePath (some (d ++ [c] ++ n)) realpath buf = .ok ((realpath d).getD []) := by
  unfold enginePath
  rw [fileOf_some hl hb]
  simp only [lift, bind, Except.bind]
  rw [strlen_of ⟨_, rfl, h0⟩]
  simp only
  rw [chop_at hc hn]
  simp only
  have : cstr (d ++ [0] ++ n ++ 0 :: buf.drop ((d ++ [c] ++ n).length + 1)) 0 = .ok d := by
    apply cstr_of
    refine ⟨n ++ 0 :: buf.drop ((d ++ [c] ++ n).length + 1), by simp, ?_⟩
    intro h
    exact h0 (by simp [h])
  rw [this]

example : enginePath (some (bytes "/srv/bin" ++ [47] ++ bytes "engine.so")) some (exBuf 4096) = .ok (bytes "/srv/bin") :=
  engine_directory (.inl rfl) ⟨by decide +kernel, by decide +kernel⟩ (by decide +kernel) (by decide +kernel) some (exBuf_len _)

/-- C78: a name without separator is looked up as it is. -/
theorem engine_bare {n : Text} (hn : NoSep n) (h0 : 0 ∉ n) (hl : n.length < 4096) (realpath : Text → Option Text) {buf : Buf}
    (hb : 4096 ≤ buf.length) : enginePath (some n) realpath buf = .ok ((realpath n).getD []) := by
  unfold enginePath
  rw [fileOf_some hl hb]
  simp only [lift, bind, Except.bind]
  rw [strlen_of ⟨_, rfl, h0⟩]
  simp only
  rw [chop_none hn]
  simp only
  rw [cstr_of ⟨_, rfl, h0⟩]

example : enginePath (some (bytes "engine.so")) (fun t => some (47 :: t)) (exBuf 4096) = .ok (bytes "/engine.so") :=
  (engine_bare ⟨by decide +kernel, by decide +kernel⟩ (by decide +kernel) (by decide +kernel) _ (exBuf_len _)).trans
    (congrArg Except.ok (by decide +kernel))

/-! #### what a relative path is made of -/

theorem countLevels_le (s : Text) : countLevels s ≤ s.length := by
  induction s with
  | nil => simp [countLevels]
  | cons c s ih =>
    rw [countLevels]
    split
    · split <;> simp <;> omega
    · simp; omega

theorem ups_chars {n : Nat} {c : Byte} (h : c ∈ (List.replicate n ([46, 46, 47] : Text)).flatten) : c = 46 ∨ c = 47 := by
  obtain ⟨l, h1, h2⟩ := List.mem_flatten.1 h
  rw [(List.mem_replicate.1 h1).2] at h2
  simp only [List.mem_cons, List.not_mem_nil, or_false] at h2
  rcases h2 with h | h | h
  · exact .inl h
  · exact .inl h
  · exact .inr h

theorem join_chars {ps : List Text} {c : Byte} (h : c ∈ joinParts ps) : c = 47 ∨ ∃ p ∈ ps, c ∈ p := by
  induction ps with
  | nil => simp [joinParts] at h
  | cons p ps ih =>
    cases ps with
    | nil => exact .inr ⟨p, by simp, by simpa [joinParts] using h⟩
    | cons q ps =>
      rw [joinParts] at h
      rcases List.mem_append.1 h with h | h
      · exact .inr ⟨p, by simp, h⟩
      · rcases List.mem_cons.1 h with h | h
        · exact .inl h
        · rcases ih h with h | ⟨x, h1, h2⟩
          · exact .inl h
          · exact .inr ⟨x, List.mem_cons_of_mem _ h1, h2⟩

theorem pieces_chars {s p : Text} (hp : p ∈ pieces s) {c : Byte} (hc : c ∈ p) : c ∈ s := by
  induction s generalizing p with
  | nil => simp [pieces] at hp; rw [hp] at hc; exact absurd hc (by simp)
  | cons a s ih =>
    by_cases ha : a = 47
    · rw [ha, pieces_slash] at hp
      rcases List.mem_cons.1 hp with h | h
      · rw [h] at hc; exact absurd hc (by simp)
      · exact List.mem_cons_of_mem _ (ih h hc)
    · cases e : pieces s with
      | nil => exact absurd e (pieces_ne s)
      | cons q qs =>
        rw [pieces_cons ha e] at hp
        rcases List.mem_cons.1 hp with h | h
        · rw [h] at hc
          rcases List.mem_cons.1 hc with h | h
          · exact h ▸ List.mem_cons_self
          · exact List.mem_cons_of_mem _ (ih (e ▸ List.mem_cons_self) h)
        · exact List.mem_cons_of_mem _ (ih (e ▸ List.mem_cons_of_mem _ h) hc)

theorem comps_chars {s p : Text} (hp : p ∈ comps s) {c : Byte} (hc : c ∈ p) : c ∈ s := pieces_chars (List.mem_filter.1 hp).1 hc

theorem bad_facts {m : Nat} {p1 p2 t : Text} (h : badRelatize m p1 p2 = some t) :
    t.length ≤ 3 * p1.length + p2.length ∧ ∀ c ∈ t, c = 46 ∨ c = 47 ∨ c ∈ p2 := by
  unfold badRelatize at h
  split at h
  · cases h
  · split at h
    · cases h
    · next x y e =>
      obtain ⟨Q, x', y', rfl, rfl, e1, e2⟩ := commonRoot_spec [] e (by intro u v e; cases e)
      simp only [List.nil_append] at e1 e2
      dsimp only at h
      split at h
      · cases h
      · next acc ea =>
        have hacc := appendUps_some ea
        have ht := appendText_some h
        subst hacc
        simp only [List.nil_append, List.drop_succ_cons, List.drop_zero] at ht
        subst ht
        constructor
        · rw [List.length_append, ups_length]
          have l1 : (if x' ≠ [] then countLevels (47 :: x') else 0) ≤ p1.length := by
            have := countLevels_le (47 :: x')
            have hq : p1.length = Q.length + (47 :: x').length := by rw [e1, List.length_append]
            split <;> omega
          have l2 : y'.length ≤ p2.length := by rw [e2]; simp; omega
          omega
        · intro c hc
          rcases List.mem_append.1 hc with hc | hc
          · exact (ups_chars hc).elim .inl fun h => .inr (.inl h)
          · exact .inr (.inr (by rw [e2]; simp [hc]))

theorem rel2_facts {p1 p2 t : Text} (h1 : p1.head? = some 47) (h2 : p2.head? = some 47) (h : relatize2 p1 p2 = .ok (some t)) :
    ∀ c ∈ t, c = 46 ∨ c = 47 ∨ c ∈ p2 := by
  unfold relatize2 splitPath at h
  rw [if_pos h1, if_pos h2, splitLoop_comps, splitLoop_comps] at h
  simp only [ne_eq, not_true_eq_false, if_false] at h
  obtain ⟨C, e1, e2⟩ := skipCommon_spec (comps p1) (comps p2)
  have ht := Option.some.inj (Except.ok.inj h)
  intro c hc
  rw [← ht] at hc
  rcases List.mem_append.1 hc with hc | hc
  · rcases List.mem_append.1 hc with hc | hc
    · exact (ups_chars hc).elim .inl fun h => .inr (.inl h)
    · rcases join_chars hc with h | ⟨p, hp, hcp⟩
      · exact .inr (.inl h)
      · exact .inr (.inr (comps_chars (e2 ▸ List.mem_append_right _ hp) hcp))
  · split at hc
    · simp at hc; exact .inr (.inl hc)
    · simp at hc

theorem relatize_facts {ex : Text → Bool} {m : Nat} {p1 p2 t : Text} (h1 : p1.head? = some 47) (h2 : p2.head? = some 47)
    (h : relatize ex m p1 p2 = .ok (some t)) :
    t.length ≤ 3 * (p1.length + 1) + p2.length + 2 ∧ ∀ c ∈ t, c = 46 ∨ c = 47 ∨ c ∈ p2 := by
  have key : (relatize2 p1 p2).map (·.map (·.take (m - 1))) = .ok (some t) →
      t.length ≤ 3 * (p1.length + 1) + p2.length + 2 ∧ ∀ c ∈ t, c = 46 ∨ c = 47 ∨ c ∈ p2 := by
    intro h
    cases e : relatize2 p1 p2 with
    | error _ => rw [e] at h; cases h
    | ok o =>
      rw [e] at h
      cases o with
      | none => cases h
      | some u =>
        have ht : u.take (m - 1) = t := Option.some.inj (Except.ok.inj h)
        have hl := relatize2_length h1 h2 e
        have hf := rel2_facts h1 h2 e
        subst ht
        exact ⟨by rw [List.length_take]; omega, fun c hc => hf c (List.mem_of_mem_take hc)⟩
  unfold relatize at h
  split at h
  · next u e =>
    split at h
    · have ht : u = t := Option.some.inj (Except.ok.inj h)
      subst ht
      obtain ⟨a, b⟩ := bad_facts e
      exact ⟨by omega, b⟩
    · exact key h
  · exact key h

theorem command_text {t : Text} (h0 : 0 ∉ t) {cb : Buf} (hb : 8192 ≤ cb.length) :
    ∃ b k, format cb 8192 (some (bytes "plugin_load \"" ++ t ++ bytes "\"\n")) [] = .ok (b, k) ∧
      cstr b 0 = .ok ((bytes "plugin_load \"" ++ t ++ bytes "\"\n").take 8191) := by
  obtain ⟨b', h1, h2⟩ := format_spec (n := 8192) (by decide) hb (bytes "plugin_load \"" ++ t ++ bytes "\"\n") []
  refine ⟨b', _, h1, cstr_of ⟨_, h2, ?_⟩⟩
  intro h
  have := List.mem_of_mem_take h
  rcases List.mem_append.1 this with h | h
  · rcases List.mem_append.1 h with h | h
    · exact absurd h (by decide +kernel)
    · exact h0 h
  · exact absurd h (by decide +kernel)

/-- What the command is, once the directory is known. -/
theorem command_of {name : Option Text} {realpath : Text → Option Text} {ex : Text → Bool} {mm dir : Text} {eb cb : Buf} {rel : Option Text}
    (hd : enginePath name realpath eb = .ok dir) (hr : relatize ex 8192 dir mm = .ok rel) (h0 : 0 ∉ rel.getD mm) (hb : 8192 ≤ cb.length) :
    vspCommand name realpath ex mm eb cb = .ok ((bytes "plugin_load \"" ++ rel.getD mm ++ bytes "\"\n").take 8191) := by
  obtain ⟨b, k, h1, h2⟩ := command_text h0 hb
  unfold vspCommand
  rw [hd]
  simp only [bind, Except.bind]
  rw [hr]
  cases rel with
  | none =>
    simp only [Option.getD_none] at h1 h2 ⊢
    simp only [lift, h1, h2]
  | some t =>
    simp only [Option.getD_some] at h1 h2 ⊢
    simp only [lift, h1, h2]

/-- C78 (missing: paths too long for the array, see `command_cut`; doubled separators, see C36): the engine is told to load one file, named in
quotes by a path that leads from the engine's directory to Metamod. -/
theorem command_leads_partial {d n r mm : Text} {c : Byte} (hc : c = 47 ∨ c = 92) (hn : NoSep n) (h0 : 0 ∉ d ++ [c] ++ n)
    (hl : (d ++ [c] ++ n).length < 4096) {realpath : Text → Option Text} (hr : realpath d = some r) (ex : Text → Bool)
    (c1 : Clean r) (c2 : Clean mm) (d1 : ¬ [47, 47] <:+: r) (d2 : ¬ [47, 47] <:+: mm)
    (hx : comps r ≠ comps mm ∨ comps r = [] ∨ mm.getLast? ≠ some 47) (hlen : 3 * (r.length + 1) + mm.length + 18 ≤ 8192)
    (z : 0 ∉ mm) (q : 34 ∉ mm) {eb cb : Buf} (he : 4096 ≤ eb.length) (hb : 8192 ≤ cb.length) :
    ∃ t, vspCommand (some (d ++ [c] ++ n)) realpath ex mm eb cb = .ok (bytes "plugin_load \"" ++ t ++ bytes "\"\n") ∧
      resolve (comps r) t = comps mm ∧ 34 ∉ t := by
  obtain ⟨t, h1, h2⟩ := relatize_resolves_partial ex (m := 8192) c1 c2 d1 d2 hx (by omega)
  obtain ⟨f1, f2⟩ := relatize_facts c1.abs c2.abs h1
  have hno : ∀ x : Byte, x ≠ 46 → x ≠ 47 → x ∉ mm → x ∉ t := by
    intro x a b e h
    rcases f2 x h with h | h | h
    · exact a h
    · exact b h
    · exact e h
  have hd := engine_directory hc hn h0 hl realpath he
  rw [hr] at hd
  have := command_of hd h1 (cb := cb) (hno 0 (by decide) (by decide) z) hb
  refine ⟨t, ?_, h2, hno 34 (by decide) (by decide) q⟩
  rw [this]
  simp only [Option.getD_some]
  have e1 : (bytes "plugin_load \"").length = 13 := by decide +kernel
  have e2 : (bytes "\"\n").length = 2 := by decide +kernel
  rw [List.take_of_length_le (by simp only [List.length_append, e1, e2]; omega)]

/-- `/srv/bin/engine.so` and `/srv/hl2mp/addons/metamod/bin/server.so`. -/
example : ∃ t, vspCommand (some (bytes "/srv/bin" ++ [47] ++ bytes "engine.so")) some (fun _ => false)
    (bytes "/srv/hl2mp/addons/metamod/bin/server.so") (exBuf 4096) (exBuf 8192) = .ok (bytes "plugin_load \"" ++ t ++ bytes "\"\n") ∧
      resolve (comps (bytes "/srv/bin")) t = comps (bytes "/srv/hl2mp/addons/metamod/bin/server.so") ∧ 34 ∉ t :=
  command_leads_partial (.inl rfl) ⟨by decide +kernel, by decide +kernel⟩ (by decide +kernel) (by decide +kernel) rfl (fun _ => false)
    ⟨by decide +kernel, by decide +kernel⟩ ⟨by decide +kernel, by decide +kernel⟩ (by decide +kernel) (by decide +kernel)
    (.inl (by decide +kernel)) (by decide +kernel) (by decide +kernel) (by decide +kernel) (exBuf_len _) (exBuf_len _)

/-- C78: a path to Metamod that is not absolute is used as it is. -/
theorem command_relative {name : Option Text} {realpath : Text → Option Text} {ex : Text → Bool} {mm r : Text} {eb cb : Buf}
    (hd : enginePath name realpath eb = .ok r) (hr : r.head? = some 47) (hm : mm.head? ≠ some 47) (hne : mm ≠ []) (z : 0 ∉ mm)
    (hl : mm.length + 16 ≤ 8192) (hb : 8192 ≤ cb.length) :
    vspCommand name realpath ex mm eb cb = .ok (bytes "plugin_load \"" ++ mm ++ bytes "\"\n") := by
  have e1 : (bytes "plugin_load \"").length = 13 := by decide +kernel
  have e2 : (bytes "\"\n").length = 2 := by decide +kernel
  have hrel : relatize ex 8192 r mm = .ok none := by
    have hb : badRelatize 8192 r mm = none := by unfold badRelatize; rw [if_pos (.inr hm)]
    have h2 : relatize2 r mm = .ok none := by
      unfold relatize2 splitPath
      rw [if_pos hr, if_neg hm, splitLoop_comps, splitLoop_comps]
      cases hc : comps mm with
      | nil =>
        exfalso
        cases mm with
        | nil => exact hne rfl
        | cons a l =>
          have ha : a ≠ 47 := fun h => hm (by simp [h])
          cases e : pieces l with
          | nil => exact pieces_ne l e
          | cons p ps =>
            unfold comps at hc
            rw [pieces_cons ha e] at hc
            simp at hc
      | cons p ps =>
        have hp : p ∈ comps mm := by rw [hc]; exact List.mem_cons_self
        have : ([47] : Text) ≠ p := by
          rintro rfl
          exact (mem_comps hp).1 (by simp)
        simp [this]
    unfold relatize
    rw [hb]
    simp only [h2]
    rfl
  have := command_of hd hrel (cb := cb) z hb
  rw [this]
  simp only [Option.getD_none]
  rw [List.take_of_length_le (by simp only [List.length_append, e1, e2]; omega)]

example : vspCommand (some (bytes "/srv/bin" ++ [47] ++ bytes "engine.so")) some (fun _ => false) (bytes "addons/m.so") (exBuf 4096) (exBuf 8192) =
    .ok (bytes "plugin_load \"" ++ bytes "addons/m.so" ++ bytes "\"\n") :=
  command_relative (r := bytes "/srv/bin")
    (engine_directory (.inl rfl) ⟨by decide +kernel, by decide +kernel⟩ (by decide +kernel) (by decide +kernel) some (exBuf_len _))
    (by decide +kernel) (by decide +kernel) (by decide +kernel) (by decide +kernel) (by decide +kernel) (exBuf_len _)

/-- C78 (what long paths come to): the command is cut at 8191 bytes, without quote and end of line. -/
theorem command_cut {name : Option Text} {realpath : Text → Option Text} {ex : Text → Bool} {mm dir t : Text} {eb cb : Buf}
    (hd : enginePath name realpath eb = .ok dir) (hr : relatize ex 8192 dir mm = .ok (some t)) (h0 : 0 ∉ t) (hl : 8178 ≤ t.length)
    (hb : 8192 ≤ cb.length) :
    vspCommand name realpath ex mm eb cb = .ok (bytes "plugin_load \"" ++ t.take 8178) := by
  have e1 : (bytes "plugin_load \"").length = 13 := by decide +kernel
  rw [command_of hd hr h0 hb]
  simp only [Option.getD_some, List.append_assoc]
  rw [List.take_append, e1, List.take_of_length_le (by omega), List.take_append_of_le_length (by omega)]

/-- No counterpart in /repo: a directory `n` levels deep. -/
def deep (n : Nat) : Text := (List.replicate n ([47, 97] : Text)).flatten

theorem deep_comps (n : Nat) : comps (deep n) = List.replicate n [97] := by
  induction n with
  | zero => rfl
  | succ n ih =>
    have : deep (n + 1) = [] ++ 47 :: ([97] ++ deep n) := by simp [deep, List.replicate_succ]
    rw [this, comps_append]
    cases n with
    | zero => rfl
    | succ n =>
      have h2 : [97] ++ deep (n + 1) = [97] ++ 47 :: ([97] ++ deep n) := by simp [deep, List.replicate_succ]
      have h3 : deep (n + 1) = [] ++ 47 :: ([97] ++ deep n) := by simp [deep, List.replicate_succ]
      rw [h2, comps_append]
      rw [h3, comps_append] at ih
      have : comps ([] : Text) = [] := rfl
      rw [this, List.nil_append] at ih ⊢
      rw [ih]
      rfl

/-- An engine 2047 directories deep (4094 bytes) and Metamod in a file whose name has 2100 bytes. -/
example : ∃ t : Text, relatize (fun _ => false) 8192 (deep 2047) (47 :: List.replicate 2100 98) = .ok (some t) ∧ 0 ∉ t ∧ 8178 ≤ t.length := by
  have c2 : comps (47 :: List.replicate 2100 98) = [List.replicate 2100 98] := by
    unfold comps
    rw [pieces_slash, pieces_noslash (by intro h; exact absurd (List.mem_replicate.1 h).2 (by decide))]
    rw [List.filter_cons_of_neg (by simp), List.filter_cons_of_pos (by
      have hne : List.replicate 2100 (98 : Byte) ≠ [] := by
        intro h
        have := congrArg List.length h
        rw [List.length_replicate] at this
        exact absurd this (by decide)
      exact decide_eq_true hne)]
    rfl
  have hd : (deep 2047).head? = some 47 := by rw [deep, List.replicate_succ]; rfl
  have hs : skipCommon (List.replicate 2047 [97]) [List.replicate 2100 98] = (List.replicate 2047 [97], [List.replicate 2100 98]) := by
    rw [List.replicate_succ (n := 2046), skipCommon, if_neg]
    intro h
    have := congrArg List.length h
    rw [List.length_replicate] at this
    exact absurd this (by decide)
  have h2 : relatize2 (deep 2047) (47 :: List.replicate 2100 98) =
      .ok (some ((List.replicate 2047 [46, 46, 47]).flatten ++ List.replicate 2100 98 ++
        (if (47 :: List.replicate 2100 98 : Text).getLast? = some 47 then [47] else []))) := by
    unfold relatize2 splitPath
    rw [if_pos hd, if_pos (c := (47 :: List.replicate 2100 98 : Text).head? = some 47) rfl, splitLoop_comps, splitLoop_comps, deep_comps, c2]
    simp only [ne_eq, not_true_eq_false, if_false, hs, List.length_replicate, joinParts]
  obtain ⟨t, ht⟩ : ∃ t, t = (List.replicate 2047 ([46, 46, 47] : Text)).flatten ++ List.replicate 2100 98 ++
        (if (47 :: List.replicate 2100 98 : Text).getLast? = some 47 then [47] else []) := ⟨_, rfl⟩
  rw [← ht] at h2
  have hlen : 8241 ≤ t.length := by
    rw [ht, List.length_append, List.length_append, ups_length, List.length_replicate]
    omega
  have hz : 0 ∉ t := by
    intro h
    rcases rel2_facts hd rfl h2 0 h with h | h | h
    · exact absurd h (by decide)
    · exact absurd h (by decide)
    · rcases List.mem_cons.1 h with h | h
      · exact absurd h (by decide)
      · exact absurd (List.mem_replicate.1 h).2 (by decide)
  refine ⟨t.take 8191, ?_, fun h => hz (List.mem_of_mem_take h), by rw [List.length_take]; omega⟩
  unfold relatize
  split
  · simp only [Bool.false_eq_true, if_false, h2]; rfl
  · rw [h2]; rfl

/-- Finding, core/metamod.cpp:371-381: if the engine's directory cannot be resolved, the text is made empty so that the full path to Metamod is
used; but `UTIL_Relatize` then reads the first part of a path that has none (core/metamod_util.cpp:413). -/
theorem no_realpath_faults {d n mm : Text} {c : Byte} (hc : c = 47 ∨ c = 92) (hn : NoSep n) (h0 : 0 ∉ d ++ [c] ++ n)
    (hl : (d ++ [c] ++ n).length < 4096) {realpath : Text → Option Text} (hr : realpath d = none) (ex : Text → Bool)
    {eb cb : Buf} (he : 4096 ≤ eb.length) :
    vspCommand (some (d ++ [c] ++ n)) realpath ex mm eb cb = .error (.buf .outOfBounds) := by
  have hd := engine_directory hc hn h0 hl realpath he
  rw [hr] at hd
  unfold vspCommand
  rw [hd]
  rfl

example : vspCommand (some (bytes "/gone" ++ [47] ++ bytes "engine.so")) (fun _ => none) (fun _ => true) (bytes "/m.so") (exBuf 4096) (exBuf 8192) =
    .error (.buf .outOfBounds) :=
  no_realpath_faults (.inl rfl) ⟨by decide +kernel, by decide +kernel⟩ (by decide +kernel) (by decide +kernel) rfl _ (exBuf_len _)

/-- Finding, core/metamod.cpp:357-360: if the engine's file is not found, its name is read from an array that was never written. -/
theorem no_engine_file_faults (realpath : Text → Option Text) (ex : Text → Bool) (mm : Text) (eb cb : Buf) :
    vspCommand none realpath ex mm eb cb = .error .uninit := rfl

/-- Specification: what the engine takes for the argument, the text between the first two quotes. -/
def argument (cmd : Text) : Text := ((cmd.dropWhile (· ≠ 34)).drop 1).takeWhile (· ≠ 34)

/-- C78: without a quote in it the path in the command is the argument. -/
theorem argument_is {t : Text} (h : 34 ∉ t) : argument (bytes "plugin_load \"" ++ t ++ bytes "\"\n") = t := by
  have e1 : bytes "plugin_load \"" = bytes "plugin_load " ++ [34] := by decide +kernel
  have e2 : bytes "\"\n" = 34 :: [10] := by decide +kernel
  have e3 : ∀ x ∈ bytes "plugin_load ", x ≠ 34 := by decide +kernel
  have : ∀ (l : Text) (m : Text), (∀ x ∈ l, x ≠ 34) → (l ++ 34 :: m).dropWhile (· ≠ 34) = 34 :: m := by
    intro l m hl
    induction l with
    | nil => simp
    | cons a l ih =>
      simp only [List.mem_cons, forall_eq_or_imp] at hl
      simp only [List.cons_append, List.dropWhile_cons]
      rw [if_pos (by simp [hl.1]), ih hl.2]
  unfold argument
  rw [e1, e2, List.append_assoc, List.append_assoc, List.singleton_append, this _ _ e3, List.drop_succ_cons, List.drop_zero]
  induction t with
  | nil => simp
  | cons a t ih =>
    simp only [List.mem_cons, not_or] at h
    rw [List.cons_append, List.takeWhile_cons, if_pos (by simp; exact fun hh => h.1 hh.symm), ih h.2]

example : argument (bytes "plugin_load \"../x.so\"\n") = bytes "../x.so" := by decide +kernel

/-- Finding, core/metamod.cpp:384: a quote in the path is not escaped; the argument ends there. -/
theorem quote_ends_argument : argument (bytes "plugin_load \"" ++ bytes "a\"b.so" ++ bytes "\"\n") ≠ bytes "a\"b.so" := by decide +kernel

end Verif.Core.Src

#print axioms Verif.Core.Src.initial_sources
#print axioms Verif.Core.Src.reload_sources
#print axioms Verif.Core.Src.same_every_level
#print axioms Verif.Core.Src.command_leads_partial
#print axioms Verif.Core.Src.no_realpath_faults
