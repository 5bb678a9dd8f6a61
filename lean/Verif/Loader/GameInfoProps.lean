import Verif.Loader.GameInfo
import Verif.Loader.BackendProps
import Verif.Core.PluginFileProps
import Verif.Util.TextProps
import Verif.Util.MiscProps
import Verif.Util.PathCmpProps
/-
C62: the game's libraries, as the gameinfo file names them.
-/
namespace Verif.GInfo
open Verif.C Verif.Util
open Verif.Loader (bytes)
open Verif.PFile (fgetsLen fgetsBuf fgetsLen_pos caseEq lower Lines)

/-! ### Spec -/

/-- Equal but for the case of the letters A to Z. -/
inductive SameWord : List Byte → List Byte → Prop
  | nil : SameWord [] []
  | same (c : Byte) {s t : List Byte} : SameWord s t → SameWord (c :: s) (c :: t)
  | down (c d : Byte) {s t : List Byte} : 65 ≤ c.toNat → c.toNat ≤ 90 → d.toNat = c.toNat + 32 → SameWord s t → SameWord (c :: s) (d :: t)
  | up (c d : Byte) {s t : List Byte} : 65 ≤ d.toNat → d.toNat ≤ 90 → c.toNat = d.toNat + 32 → SameWord s t → SameWord (c :: s) (d :: t)

/-- The text of a line: up to a NUL, without comment, without white space at the ends. -/
inductive LineText (l t : List Byte) : Prop
  | plain (v : List Byte) : ¬ slashes <:+: l.takeWhile (· != 0) → LTrim (l.takeWhile (· != 0)) v → RTrim v t → LineText l t
  | comment (a c v : List Byte) : l.takeWhile (· != 0) = a ++ 47 :: 47 :: c → ¬ slashes <:+: a ++ [47] → LTrim a v → RTrim v t → LineText l t

/-- The directory and the rest that a value stands for. -/
inductive Where (gamePath cwd : List Byte) : List Byte → List Byte → List Byte → Prop
  | info (r : List Byte) : r.head? ≠ some 46 → Where gamePath cwd (bytes "|gameinfo_path|" ++ r) gamePath r
  | infoDot (r : List Byte) : Where gamePath cwd (bytes "|gameinfo_path|" ++ 46 :: r) gamePath r
  | other (v : List Byte) : ¬ bytes "|gameinfo_path|" <+: v → Where gamePath cwd v cwd v

/-- The library of a line with this key, directory and rest. -/
inductive Library : Bool → List Byte → List Byte → List Byte → List Byte → Prop
  | bin1 (k d r : List Byte) : SameWord k (bytes "gamebin") → Library false k d r (d ++ bytes "/" ++ r ++ bytes "/linux64/server.so")
  | bin2 (k d r : List Byte) : SameWord k (bytes "gamebin") → Library true k d r (d ++ bytes "/../../" ++ r ++ bytes "/linuxsteamrt64//libserver.so")
  | root1 (k d : List Byte) : SameWord k (bytes "game") → Library false k d [] (d ++ bytes "/bin/linux64/server.so")
  | root2 (k d : List Byte) : SameWord k (bytes "game") → Library true k d [] (d ++ bytes "/../../bin/linuxsteamrt64//libserver.so")
  | dir1 (k d r : List Byte) : SameWord k (bytes "game") → r ≠ [] → Library false k d r (d ++ bytes "/" ++ r ++ bytes "/bin/linux64/server.so")
  | dir2 (k d r : List Byte) : SameWord k (bytes "game") → r ≠ [] → Library true k d r (d ++ bytes "/../../" ++ r ++ bytes "/bin/linuxsteamrt64//libserver.so")

/-- The line names this file: its value is read up to 127 bytes, the path up to 4095, with slashes only. -/
inductive Names (gamePath cwd : List Byte) (s2 : Bool) (t p : List Byte) : Prop
  | mk (k v d r f : List Byte) : KeyLine t k v → Where gamePath cwd (v.take 127) d r → Library s2 k d r f →
      p = (f.take 4095).map (fun c => if c = 92 then 47 else c) → Names gamePath cwd s2 t p

/-- The files named by the lines, from the line "SearchPaths" on (`true`: it has been seen). -/
inductive Named (gamePath cwd : List Byte) (s2 : Bool) : Bool → List (List Byte) → List (List Byte) → Prop
  | nil (b : Bool) : Named gamePath cwd s2 b [] []
  | before {l t : List Byte} {ls ps : List (List Byte)} : LineText l t → ¬ SameWord t (bytes "searchpaths") → Named gamePath cwd s2 false ls ps → Named gamePath cwd s2 false (l :: ls) ps
  | start {l t : List Byte} {ls ps : List (List Byte)} : LineText l t → SameWord t (bytes "searchpaths") → Named gamePath cwd s2 true ls ps → Named gamePath cwd s2 false (l :: ls) ps
  | names {l t p : List Byte} {ls ps : List (List Byte)} : LineText l t → Names gamePath cwd s2 t p → Named gamePath cwd s2 true ls ps → Named gamePath cwd s2 true (l :: ls) (p :: ps)
  | else {l t : List Byte} {ls ps : List (List Byte)} : LineText l t → (¬ ∃ p, Names gamePath cwd s2 t p) → Named gamePath cwd s2 true ls ps → Named gamePath cwd s2 true (l :: ls) ps

/-- Two paths are the same file: the full paths, where there are any, agree but for repeated separators. -/
def SameFile (sys : Sys) (p q : List Byte) : Prop := collapse ((sys.realpath p).getD p) = collapse ((sys.realpath q).getD q)

/-- The candidates kept, one after the other, until there are ten. -/
inductive Keep (sys : Sys) (own : List Byte) : List (List Byte) → List (List Byte) → List (List Byte) → Prop
  | done (ps : List (List Byte)) : Keep sys own ps [] ps
  | full (ps cs : List (List Byte)) : ps.length = 10 → Keep sys own ps cs ps
  | drop {ps cs qs : List (List Byte)} {c : List Byte} : ps.length < 10 → (SameFile sys own c ∨ sys.file c = none ∨ ∃ p ∈ ps, SameFile sys p c) → Keep sys own ps cs qs → Keep sys own ps (c :: cs) qs
  | keep {ps cs qs : List (List Byte)} {c : List Byte} : ps.length < 10 → ¬ SameFile sys own c → sys.file c ≠ none → (∀ p ∈ ps, ¬ SameFile sys p c) →
      Keep sys own (ps ++ [c]) cs qs → Keep sys own ps (c :: cs) qs

/-- What the system gives are strings. -/
structure SysOk (sys : Sys) : Prop where
  real : ∀ p q, sys.realpath p = some q → 0 ∉ q
  cwd : ∀ q, sys.cwd = some q → 0 ∉ q

structure BufsOk (b : Bufs) : Prop where
  line : b.line.length = 255
  key : b.key.length = 128
  val : b.val.length = 128
  temp : b.temp.length = 4096

/-! ### Lemmas -/

theorem lower_toNat (c : Byte) : (lower c).toNat = if 65 ≤ c.toNat ∧ c.toNat ≤ 90 then c.toNat + 32 else c.toNat := by
  have key : ∀ i : Fin 256, (lower (UInt8.ofNat i.val)).toNat = if 65 ≤ i.val ∧ i.val ≤ 90 then i.val + 32 else i.val := by decide +kernel
  have := key ⟨c.toNat, c.toNat_lt⟩
  simpa only [UInt8.ofNat_toNat] using this

theorem lower_pair (c d : Byte) : lower c = lower d ↔ c = d ∨ (65 ≤ c.toNat ∧ c.toNat ≤ 90 ∧ d.toNat = c.toNat + 32) ∨ (65 ≤ d.toNat ∧ d.toNat ≤ 90 ∧ c.toNat = d.toNat + 32) := by
  rw [← UInt8.toNat_inj, lower_toNat, lower_toNat, ← UInt8.toNat_inj]
  split <;> split <;> omega

theorem caseEq_iff (s t : List Byte) : caseEq s t = true ↔ SameWord s t := by
  unfold caseEq
  rw [beq_iff_eq]
  induction s generalizing t with
  | nil =>
    cases t with
    | nil => exact ⟨fun _ => .nil, fun _ => rfl⟩
    | cons d t => exact ⟨(fun h => by simp at h), (fun h => nomatch h)⟩
  | cons c s ih =>
    cases t with
    | nil => exact ⟨(fun h => by simp at h), (fun h => nomatch h)⟩
    | cons d t =>
      simp only [List.map_cons, List.cons.injEq]
      rw [ih, lower_pair]
      constructor
      · rintro ⟨rfl | ⟨h1, h2, h3⟩ | ⟨h1, h2, h3⟩, h⟩
        · exact .same _ h
        · exact .down _ _ h1 h2 h3 h
        · exact .up _ _ h1 h2 h3 h
      · intro h
        cases h with
        | same _ h => exact ⟨.inl rfl, h⟩
        | down _ _ h1 h2 h3 h => exact ⟨.inr (.inl ⟨h1, h2, h3⟩), h⟩
        | up _ _ h1 h2 h3 h => exact ⟨.inr (.inr ⟨h1, h2, h3⟩), h⟩

theorem caseEq_false (s t : List Byte) : caseEq s t = false ↔ ¬ SameWord s t := by
  rw [← caseEq_iff]; simp

theorem sameWord_len {s t : List Byte} (h : SameWord s t) : s.length = t.length := by
  induction h <;> simp_all

theorem caseEq_lower (s t u : List Byte) (h : t.map lower = u.map lower) : caseEq s t = caseEq s u := by
  unfold caseEq; rw [h]

theorem lineText_unique {l t t' : List Byte} (h : LineText l t) (h' : LineText l t') : t = t' := by
  have cut : ∀ {a c a' c' : List Byte}, a ++ 47 :: 47 :: c = a' ++ 47 :: 47 :: c' → ¬ slashes <:+: a ++ [47] → ¬ slashes <:+: a' ++ [47] → a = a' := by
    intro a c a' c' e n n'
    rcases List.append_eq_append_iff.1 e with ⟨x, rfl, e2⟩ | ⟨x, rfl, e2⟩
    · cases x with
      | nil => simp
      | cons y x =>
        exfalso
        apply n'
        cases x with
        | nil => simp at e2; obtain ⟨rfl, -⟩ := e2; exact ⟨a, [], by simp [slashes]⟩
        | cons z x => simp at e2; obtain ⟨rfl, rfl, -⟩ := e2; exact ⟨a, x ++ [47], by simp [slashes]⟩
    · cases x with
      | nil => simp
      | cons y x =>
        exfalso
        apply n
        cases x with
        | nil => simp at e2; obtain ⟨rfl, -⟩ := e2; exact ⟨a', [], by simp [slashes]⟩
        | cons z x => simp at e2; obtain ⟨rfl, rfl, -⟩ := e2; exact ⟨a', x ++ [47], by simp [slashes]⟩
  cases h with
  | plain v hn hl hr =>
    cases h' with
    | plain v' hn' hl' hr' => cases hl.unique hl'; exact hr.unique hr'
    | comment a c v' e hn' hl' hr' => exact absurd ⟨a, c, by rw [e]; simp [slashes]⟩ hn
  | comment a c v e hn hl hr =>
    cases h' with
    | plain v' hn' hl' hr' => exact absurd ⟨a, c, by rw [e]; simp [slashes]⟩ hn'
    | comment a' c' v' e' hn' hl' hr' =>
      cases cut (e.symm.trans e') hn hn'
      cases hl.unique hl'; exact hr.unique hr'

/-- Cleaning a line buffer gives the text. -/
theorem clean_spec {b : Buf} {l : List Byte} (h : IsStr b (l.takeWhile (· != 0))) : ∃ b' t, clean b = .ok b' ∧ b'.length = b.length ∧ IsStr b' t ∧ LineText l t := by
  unfold clean
  rcases slashes_cases (l.takeWhile (· != 0)) with hn | ⟨a, c, e, hf⟩
  · obtain ⟨b2, v, e2, l2, h2, hv⟩ := mmTrimLeft_spec h
    obtain ⟨b3, t, e3, l3, h3, ht⟩ := mmTrimRight_spec h2
    refine ⟨b3, t, ?_, by omega, h3, .plain v hn hv ht⟩
    rw [trimComments_keeps h hn]
    simp only [bind, Except.bind, e2, e3]
  · obtain ⟨b1, e1, l1, h1⟩ := trimComments_cuts (by rw [← e]; exact h) hf
    obtain ⟨b2, v, e2, l2, h2, hv⟩ := mmTrimLeft_spec h1
    obtain ⟨b3, t, e3, l3, h3, ht⟩ := mmTrimRight_spec h2
    refine ⟨b3, t, ?_, by omega, h3, .comment a c v e hf hv ht⟩
    simp only [bind, Except.bind, e1, e2, e3]

theorem lineText_newline {l t : List Byte} (h : LineText l t) : LineText (l ++ [10]) t := by
  have nl : ∀ {v t : List Byte}, RTrim v t → RTrim (v ++ [10]) t := by
    rintro v t ⟨p, rfl, h2, h3⟩
    refine ⟨p ++ [10], by simp, ?_, h3⟩
    intro c hc
    rcases List.mem_append.1 hc with hc | hc
    · exact h2 c hc
    · rw [List.mem_singleton.1 hc]; decide
  rcases PFile.takeWhile_newline (l := l) with e | e
  · cases h with
    | plain v hn hl hr => exact .plain v (by rw [e]; exact hn) (by rw [e]; exact hl) hr
    | comment a c v e' hn hl hr => exact .comment a c v (by rw [e, e']) hn hl hr
  · cases h with
    | comment a c v e' hn hl hr => exact .comment a (c ++ [10]) v (by rw [e, e']; simp) hn hl hr
    | plain v hn hl hr =>
      obtain ⟨p, e1, hp, hv⟩ := hl
      have hn' : ¬ slashes <:+: l.takeWhile (· != 0) ++ [10] := by
        rintro ⟨u, w, hw⟩
        rcases List.eq_nil_or_concat w with rfl | ⟨w, x, rfl⟩
        · have := congrArg List.getLast? hw
          simp [slashes] at this
        · apply hn
          rw [List.concat_eq_append, ← List.append_assoc] at hw
          exact ⟨u, w, (List.append_inj' hw rfl).1⟩
      cases v with
      | nil =>
        have ht : t = [] := by
          obtain ⟨q, e3, -, -⟩ := hr
          exact (List.append_eq_nil_iff.1 e3.symm).1
        subst ht
        refine .plain [] (by rw [e]; exact hn') ?_ ⟨[], rfl, by simp, by simp⟩
        rw [e, e1]
        refine ⟨p ++ [10], by simp, ?_, by simp⟩
        intro c hc
        rcases List.mem_append.1 hc with hc | hc
        · exact hp c hc
        · rw [List.mem_singleton.1 hc]; decide
      | cons x v =>
        refine .plain (x :: v ++ [10]) (by rw [e]; exact hn') ?_ (nl hr)
        rw [e, e1]
        exact ⟨p, by simp, hp, by simpa using hv⟩

theorem lineText_exists (l : List Byte) : ∃ t, LineText l t := by
  rcases slashes_cases (l.takeWhile (· != 0)) with hn | ⟨a, c, e, hf⟩
  · exact ⟨_, .plain _ hn (ltrim_ltrim _) (rtrim_rtrim _)⟩
  · exact ⟨_, .comment a c _ e hf (ltrim_ltrim _) (rtrim_rtrim _)⟩

theorem lineText_nz {l t : List Byte} (h : LineText l t) : 0 ∉ t := by
  have h0 := PFile.takeWhile_nz l
  cases h with
  | plain v hn hl hr =>
    obtain ⟨p, e1, -, -⟩ := hl
    obtain ⟨q, e2, -, -⟩ := hr
    rw [e1, e2] at h0
    exact fun h => h0 (by simp [h])
  | comment a c v e hn hl hr =>
    obtain ⟨p, e1, -, -⟩ := hl
    obtain ⟨q, e2, -, -⟩ := hr
    rw [e, e1, e2] at h0
    exact fun h => h0 (by simp [h])

theorem keyLine_unique {s k v k' v' : List Byte} (h0 : 0 ∉ s) (h : KeyLine s k v) (h' : KeyLine s k' v') : k = k' ∧ v = v' := by
  have hs : IsStr (s ++ [0]) s := ⟨[], rfl, h0⟩
  have hl : ∀ {k v : List Byte}, KeyLine s k v → k.length ≤ s.length ∧ v.length ≤ s.length := by
    rintro k v ⟨⟨w1, w2, rfl, -⟩, -, -, -⟩
    simp; omega
  obtain ⟨b1, b2, e, i1, i2, -, -⟩ := keySplit_partial hs h (List.replicate (s.length + 1) 0) (List.replicate (s.length + 1) 0)
    (by rw [List.length_replicate]; have := hl h; omega) (by rw [List.length_replicate]; have := hl h; omega)
  obtain ⟨b1', b2', e', i1', i2', -, -⟩ := keySplit_partial hs h' (List.replicate (s.length + 1) 0) (List.replicate (s.length + 1) 0)
    (by rw [List.length_replicate]; have := hl h'; omega) (by rw [List.length_replicate]; have := hl h'; omega)
  rw [e] at e'; cases e'
  exact ⟨i1.inj i1', i2.inj i2'⟩

theorem where_unique {g c v d r d' r' : List Byte} (h : Where g c v d r) (h' : Where g c v d' r') : d = d' ∧ r = r' := by
  generalize hv : v = v' at h'
  cases h with
  | info r hn =>
    cases h' with
    | info r' hn' => exact ⟨rfl, List.append_cancel_left hv⟩
    | infoDot r' => have := List.append_cancel_left hv; subst this; simp at hn
    | other v hp => subst hv; exact absurd (List.prefix_append _ _) hp
  | infoDot r =>
    cases h' with
    | info r' hn' => have := List.append_cancel_left hv; subst this; simp at hn'
    | infoDot r' => exact ⟨rfl, by simpa using List.append_cancel_left hv⟩
    | other v hp => subst hv; exact absurd (List.prefix_append _ _) hp
  | other v hp =>
    subst hv
    cases h' with
    | info r' hn' => exact absurd (List.prefix_append _ _) hp
    | infoDot r' => exact absurd (List.prefix_append _ _) hp
    | other _ _ => exact ⟨rfl, rfl⟩

theorem not_both {k : List Byte} (h : SameWord k (bytes "game")) (h' : SameWord k (bytes "gamebin")) : False := by
  have := (sameWord_len h).symm.trans (sameWord_len h')
  exact absurd this (by decide)

theorem library_unique {s2 : Bool} {k d r f f' : List Byte} (h : Library s2 k d r f) (h' : Library s2 k d r f') : f = f' := by
  cases h <;> cases h' <;> first
    | rfl
    | (exfalso; apply not_both <;> assumption)
    | contradiction

theorem names_unique {g c : List Byte} {s2 : Bool} {t p q : List Byte} (h0 : 0 ∉ t) (h : Names g c s2 t p) (h' : Names g c s2 t q) : p = q := by
  obtain ⟨k, v, d, r, f, h1, h2, h3, rfl⟩ := h
  obtain ⟨k', v', d', r', f', h1', h2', h3', rfl⟩ := h'
  obtain ⟨rfl, rfl⟩ := keyLine_unique h0 h1 h1'
  obtain ⟨rfl, rfl⟩ := where_unique h2 h2'
  rw [library_unique h3 h3']

theorem caseEq_take {k w : List Byte} (hw : w.length ≤ 126) : caseEq (k.take 127) w = true ↔ SameWord k w := by
  rw [caseEq_iff]
  by_cases hk : k.length ≤ 127
  · rw [List.take_of_length_le hk]
  · constructor
    · intro h
      have := sameWord_len h
      rw [List.length_take] at this; omega
    · intro h
      have := sameWord_len h; omega

theorem caseEq_game (k : List Byte) : caseEq (k.take 127) (bytes "Game") = true ↔ SameWord k (bytes "game") := by
  rw [caseEq_lower _ _ (bytes "game") (by decide)]; exact caseEq_take (by decide)

theorem caseEq_gamebin (k : List Byte) : caseEq (k.take 127) (bytes "GameBin") = true ↔ SameWord k (bytes "gamebin") := by
  rw [caseEq_lower _ _ (bytes "gamebin") (by decide)]; exact caseEq_take (by decide)

theorem caseEq_search (k : List Byte) : caseEq k (bytes "SearchPaths") = true ↔ SameWord k (bytes "searchpaths") := by
  rw [caseEq_lower _ _ (bytes "searchpaths") (by decide)]; exact caseEq_iff _ _

/-- The text put together is the library's path. -/
theorem pathText_library {s2 : Bool} {k d r : List Byte} (h : SameWord k (bytes "game") ∨ SameWord k (bytes "gamebin")) : Library s2 k d r (pathText s2 (k.take 127) d r) := by
  unfold pathText
  rcases h with h | h
  · have hn : caseEq (k.take 127) (bytes "GameBin") = false := by
      rw [← Bool.not_eq_true, caseEq_gamebin]; exact fun h' => not_both h h'
    rw [if_neg (by rw [hn]; simp)]
    by_cases hr : r = []
    · subst hr
      rw [if_pos rfl]
      cases s2 with
      | false => simpa [relPath, osDir, serverBin, bytes] using Library.root1 k d h
      | true => simpa [relPath, osDir, serverBin, bytes] using Library.root2 k d h
    · rw [if_neg hr]
      cases s2 with
      | false => simpa [relPath, osDir, serverBin, bytes] using Library.dir1 k d r h hr
      | true => simpa [relPath, osDir, serverBin, bytes] using Library.dir2 k d r h hr
  · rw [if_pos ((caseEq_gamebin k).2 h)]
    cases s2 with
    | false => simpa [relPath, osDir, serverBin, bytes] using Library.bin1 k d r h
    | true => simpa [relPath, osDir, serverBin, bytes] using Library.bin2 k d r h

theorem library_word {s2 : Bool} {k d r f : List Byte} (h : Library s2 k d r f) : SameWord k (bytes "game") ∨ SameWord k (bytes "gamebin") := by
  cases h <;> first | (left; assumption) | (right; assumption)

theorem cstr_drop {a s r : List Byte} (h : 0 ∉ a ++ s) : cstr (a ++ s ++ 0 :: r) a.length = .ok s :=
  PFile.cstr_at (fun h' => h (List.mem_append_right _ h'))

/-- The directory and the rest. -/
theorem whereFrom_spec {sys : Sys} {g : List Byte} {val : Buf} {v : List Byte} (h : IsStr val v) :
    ∃ d i r, whereFrom sys g val = .ok (d, i) ∧ cstr val i = .ok r ∧ Where g (sys.cwd.getD []) v d r := by
  unfold whereFrom
  rw [cstr_of h]
  simp only [bind, Except.bind]
  by_cases hp : bytes "|gameinfo_path|" <+: v
  · rw [if_pos (List.isPrefixOf_iff_prefix.2 hp)]
    obtain ⟨r, rfl⟩ := hp
    obtain ⟨rest, rfl, h0⟩ := h
    have hl : (bytes "|gameinfo_path|").length = 15 := by decide
    cases r with
    | nil =>
      rw [List.append_nil] at *
      have : rd (bytes "|gameinfo_path|" ++ 0 :: rest) 15 = .ok 0 := by rw [← hl]; exact rd_left
      rw [this]
      refine ⟨g, 15, [], rfl, ?_, ?_⟩
      · have := cstr_drop (a := bytes "|gameinfo_path|") (s := []) (r := rest) (by rw [List.append_nil]; exact h0)
        rw [List.append_nil] at this
        rw [← hl]; exact this
      · have := Where.info (gamePath := g) (cwd := sys.cwd.getD []) [] (by simp)
        rwa [List.append_nil] at this
    | cons c r =>
      have : rd (bytes "|gameinfo_path|" ++ c :: r ++ 0 :: rest) 15 = .ok c := by
        rw [← hl, List.append_assoc, List.cons_append]; exact rd_left
      rw [this]
      dsimp only
      by_cases hc : c = 46
      · subst hc
        refine ⟨g, 16, r, rfl, ?_, .infoDot r⟩
        have := cstr_drop (a := bytes "|gameinfo_path|" ++ [46]) (s := r) (r := rest) (by simpa using h0)
        rw [List.length_append, hl] at this
        simpa using this
      · rw [if_neg hc]
        refine ⟨g, 15, c :: r, rfl, ?_, .info _ (by simpa using hc)⟩
        have := cstr_drop (a := bytes "|gameinfo_path|") (s := c :: r) (r := rest) h0
        rw [hl] at this; exact this
  · rw [if_neg (by rw [List.isPrefixOf_iff_prefix]; exact hp)]
    exact ⟨_, 0, v, rfl, cstr_of h, .other v hp⟩

theorem isStr_take {b : Buf} {s : List Byte} (n : Nat) (h0 : 0 ∉ s) (hn : n < b.length) : ∃ x, wrs b 0 (s.take n ++ [0]) = .ok x ∧ IsStr x (s.take n) := by
  unfold wrs
  rw [if_pos (by simp; omega)]
  exact ⟨_, rfl, b.drop ((s.take n).length + 1), by simp, fun h => h0 (List.mem_of_mem_take h)⟩

theorem same_spec {sys : Sys} (hs : SysOk sys) {b1 b2 : Buf} {s1 s2 : List Byte} (h1 : IsStr b1 s1) (h2 : IsStr b2 s2) :
    ∃ r, same sys b1 b2 = .ok r ∧ (r = true ↔ SameFile sys s1 s2) := by
  have full : ∀ {b : Buf} {s : List Byte}, IsStr b s → IsStr (((sys.realpath s).map (· ++ [0])).getD b) ((sys.realpath s).getD s) := by
    intro b s h
    cases hr : sys.realpath s with
    | none => exact h
    | some q => exact ⟨[], rfl, hs.real _ _ hr⟩
  unfold same
  rw [mmPathCmp_spec h1 h2 (full h1) (full h2)]
  exact ⟨_, rfl, decide_eq_true_iff⟩

theorem among_spec {sys : Sys} (hs : SysOk sys) {temp : Buf} {c : List Byte} (h : IsStr temp c) (ps : List (List Byte)) (h0 : ∀ p ∈ ps, 0 ∉ p) :
    ∃ r, among sys temp ps = .ok r ∧ (r = true ↔ ∃ p ∈ ps, SameFile sys p c) := by
  induction ps with
  | nil => exact ⟨false, rfl, by simp⟩
  | cons p ps ih =>
    obtain ⟨r, hr, hi⟩ := same_spec hs (b1 := p ++ [0]) ⟨[], rfl, h0 p (by simp)⟩ h
    unfold among
    rw [hr]
    simp only [bind, Except.bind]
    by_cases hrt : r = true
    · rw [if_pos hrt]
      exact ⟨true, rfl, by simp [hi.1 hrt]⟩
    · rw [if_neg hrt]
      obtain ⟨r', hr', hi'⟩ := ih (fun p hp => h0 p (.tail _ hp))
      refine ⟨r', hr', hi'.trans ⟨fun ⟨q, hq, e⟩ => ⟨q, .tail _ hq, e⟩, ?_⟩⟩
      rintro ⟨q, hq, e⟩
      rcases List.mem_cons.1 hq with rfl | hq
      · exact absurd (hi.2 e) hrt
      · exact ⟨q, hq, e⟩

/-- What becomes of a candidate. -/
theorem consider_spec {sys : Sys} (hs : SysOk sys) {own : List Byte} (ho : 0 ∉ own) {temp : Buf} {c : List Byte} (h : IsStr temp c) (ps : List (List Byte)) (h0 : ∀ p ∈ ps, 0 ∉ p) (hl : ps.length < 10) :
    (consider sys own temp ps = .ok ps ∧ (SameFile sys own c ∨ sys.file c = none ∨ ∃ p ∈ ps, SameFile sys p c)) ∨
    (consider sys own temp ps = .ok (ps ++ [c]) ∧ ¬ SameFile sys own c ∧ sys.file c ≠ none ∧ ∀ p ∈ ps, ¬ SameFile sys p c) := by
  obtain ⟨r, hr, hi⟩ := same_spec hs (b1 := own ++ [0]) ⟨[], rfl, ho⟩ h
  obtain ⟨m, hm, hj⟩ := among_spec hs h ps h0
  unfold consider
  rw [cstr_of h, hr]
  simp only [bind, Except.bind]
  by_cases hrt : r = true
  · rw [if_pos hrt]; exact .inl ⟨rfl, .inl (hi.1 hrt)⟩
  · rw [if_neg hrt]
    cases hf : sys.file c with
    | none => exact .inl ⟨rfl, .inr (.inl rfl)⟩
    | some x =>
      dsimp only
      rw [hm]
      dsimp only
      by_cases hmt : m = true
      · rw [if_pos hmt]; exact .inl ⟨rfl, .inr (.inr (hj.1 hmt))⟩
      · rw [if_neg hmt, if_pos hl]
        exact .inr ⟨rfl, fun h => hrt (hi.2 h), by simp, fun p hp hs => hmt (hj.2 ⟨p, hp, hs⟩)⟩

section
variable {sys : Sys} {own g : List Byte} {s2 : Bool} {bufs : Bufs}

theorem where_nz {g c v d r : List Byte} (hg : 0 ∉ g) (hc : 0 ∉ c) (hv : 0 ∉ v) (h : Where g c v d r) : 0 ∉ d ∧ 0 ∉ r := by
  cases h with
  | info r _ => exact ⟨hg, fun h => hv (by simp [h])⟩
  | infoDot r => exact ⟨hg, fun h => hv (by simp [h])⟩
  | other v _ => exact ⟨hc, hv⟩

theorem nz_append {a b : List Byte} (h : 0 ∉ a) (h' : 0 ∉ b) : 0 ∉ a ++ b := fun hm => (List.mem_append.1 hm).elim h h'

theorem library_nz {s2 : Bool} {k d r f : List Byte} (hd : 0 ∉ d) (hr : 0 ∉ r) (h : Library s2 k d r f) : 0 ∉ f := by
  have e1 : 0 ∉ bytes "/" := by decide
  have e2 : 0 ∉ bytes "/linux64/server.so" := by decide
  have e3 : 0 ∉ bytes "/../../" := by decide
  have e4 : 0 ∉ bytes "/linuxsteamrt64//libserver.so" := by decide
  have e5 : 0 ∉ bytes "/bin/linux64/server.so" := by decide
  have e6 : 0 ∉ bytes "/../../bin/linuxsteamrt64//libserver.so" := by decide
  have e7 : 0 ∉ bytes "/bin/linuxsteamrt64//libserver.so" := by decide
  cases h with
  | bin1 => exact nz_append (nz_append (nz_append hd e1) hr) e2
  | bin2 => exact nz_append (nz_append (nz_append hd e3) hr) e4
  | root1 => exact nz_append hd e5
  | root2 => exact nz_append hd e6
  | dir1 => exact nz_append (nz_append (nz_append hd e1) hr) e5
  | dir2 => exact nz_append (nz_append (nz_append hd e3) hr) e7

theorem names_nz {g c t p : List Byte} (hg : 0 ∉ g) (hc : 0 ∉ c) (ht : 0 ∉ t) (h : Names g c s2 t p) : 0 ∉ p := by
  obtain ⟨k, v, d, r, f, h1, h2, h3, rfl⟩ := h
  have hv : 0 ∉ v := by
    obtain ⟨⟨w1, w2, rfl, -⟩, -, -, -⟩ := h1
    exact fun h => ht (by simp [h])
  obtain ⟨hd, hr⟩ := where_nz hg hc (fun h => hv (List.mem_of_mem_take h)) h2
  have hf := library_nz hd hr h3
  intro h
  obtain ⟨x, hx, e⟩ := List.mem_map.1 h
  split at e
  · cases e
  · subst e; exact hf (List.mem_of_mem_take hx)

/-- One line below "SearchPaths". -/
theorem entry_spec (hs : SysOk sys) (hb : BufsOk bufs) (hg : 0 ∉ g) {buffer : Buf} {t : List Byte} (h : IsStr buffer t) (ps : List (List Byte)) :
    (entry sys own g s2 bufs buffer ps = .ok ps ∧ ¬ ∃ p, Names g (sys.cwd.getD []) s2 t p) ∨
    (∃ p, Names g (sys.cwd.getD []) s2 t p ∧ ∃ temp, IsStr temp p ∧ entry sys own g s2 bufs buffer ps = consider sys own temp ps) := by
  obtain ⟨k, v, hk⟩ := keyLine_exists t
  have ht : 0 ∉ t := h.choose_spec.2
  have hc : 0 ∉ sys.cwd.getD [] := by
    cases hcw : sys.cwd with
    | none => simp
    | some q => exact hs.cwd q hcw
  have hkv : 0 ∉ k ∧ 0 ∉ v := by
    obtain ⟨⟨w1, w2, rfl, -⟩, -, -, -⟩ := hk
    exact ⟨fun h => ht (by simp [h]), fun h => ht (by simp [h])⟩
  obtain ⟨b1, e1, i1⟩ := isStr_take (b := bufs.key) 127 hkv.1 (by rw [hb.key]; omega)
  obtain ⟨b2, e2, i2⟩ := isStr_take (b := bufs.val) 127 hkv.2 (by rw [hb.val]; omega)
  unfold entry
  rw [keySplit_writes h hk, e1]
  simp only [bind, Except.bind, e2]
  rw [cstr_of i1]
  dsimp only
  by_cases hw : SameWord k (bytes "game") ∨ SameWord k (bytes "gamebin")
  · right
    rw [if_neg (by
      rintro ⟨ha, hb⟩
      rcases hw with hw | hw
      · rw [(caseEq_game k).2 hw] at ha; cases ha
      · rw [(caseEq_gamebin k).2 hw] at hb; cases hb)]
    obtain ⟨d, i, r, e3, e4, hwh⟩ := whereFrom_spec (sys := sys) (g := g) i2
    rw [e3]
    dsimp only
    rw [e4]
    dsimp only
    obtain ⟨x, e5, ex⟩ := pathFormat_spec (b := bufs.temp) (n := 4096) (by decide) (by rw [hb.temp]; exact Nat.le_refl _) (pathText s2 (k.take 127) d r) bufs.junk
    rw [e5]
    dsimp only
    have hn : Names g (sys.cwd.getD []) s2 t (((pathText s2 (k.take 127) d r).take 4095).map (fun c => if c = 92 then 47 else c)) :=
      .mk k v d r _ hk hwh (pathText_library hw) rfl
    exact ⟨_, hn, x, ⟨_, ex, names_nz hg hc ht hn⟩, rfl⟩
  · left
    rw [if_pos ⟨by rw [← Bool.not_eq_true, caseEq_game]; exact fun h => hw (.inl h), by rw [← Bool.not_eq_true, caseEq_gamebin]; exact fun h => hw (.inr h)⟩]
    refine ⟨rfl, ?_⟩
    rintro ⟨p, k', v', d, r, f, h1, h2, h3, rfl⟩
    obtain ⟨rfl, rfl⟩ := keyLine_unique ht hk h1
    exact hw (library_word h3)

theorem search_no_entry {g c t : List Byte} (h : SameWord t (bytes "searchpaths")) : ¬ ∃ p, Names g c s2 t p := by
  rintro ⟨p, k, v, d, r, f, ⟨⟨w1, w2, rfl, hw1, -, -⟩, -, -, -⟩, h2, h3, rfl⟩
  have hh := (caseEq_iff _ _).2 h
  unfold caseEq at hh
  rw [beq_iff_eq] at hh
  cases w1 with
  | cons x w1 =>
    have h1 := congrArg List.head? hh
    have h2 := hw1 x (by simp)
    rw [isspace_iff] at h2
    simp only [List.cons_append, List.map_cons, List.head?_cons] at h1
    have h3 : ((bytes "searchpaths").map lower).head? = some 115 := by decide
    rw [h3] at h1
    have h1 := Option.some.inj h1
    simp only [List.mem_cons, List.not_mem_nil, or_false] at h2
    rcases h2 with rfl | rfl | rfl | rfl | rfl | rfl <;> exact absurd h1 (by decide)
  | nil =>
    have hk : ∀ w, SameWord k w → w.map lower = w → ∃ n, k.map lower = w := fun w hw e => ⟨0, by
      have := (caseEq_iff _ _).2 hw
      unfold caseEq at this
      rw [beq_iff_eq] at this
      rw [this, e]⟩
    have h1 := congrArg List.head? hh
    simp only [List.nil_append, List.map_append] at h1
    rcases library_word h3 with hw | hw
    · obtain ⟨-, e⟩ := hk _ hw (by decide)
      rw [e] at h1
      exact absurd h1 (by simp [bytes]; decide)
    · obtain ⟨-, e⟩ := hk _ hw (by decide)
      rw [e] at h1
      exact absurd h1 (by simp [bytes]; decide)

/-- One round. -/
inductive Rnd (sys : Sys) (own g : List Byte) (s2 : Bool) (t : List Byte) (ps : List (List Byte)) : Bool → Bool → List (List Byte) → Prop
  | before : ¬ SameWord t (bytes "searchpaths") → Rnd sys own g s2 t ps false false ps
  | start : SameWord t (bytes "searchpaths") → Rnd sys own g s2 t ps false true ps
  | other : (¬ ∃ p, Names g (sys.cwd.getD []) s2 t p) → Rnd sys own g s2 t ps true true ps
  | drop (c : List Byte) : Names g (sys.cwd.getD []) s2 t c → (SameFile sys own c ∨ sys.file c = none ∨ ∃ p ∈ ps, SameFile sys p c) → Rnd sys own g s2 t ps true true ps
  | keep (c : List Byte) : Names g (sys.cwd.getD []) s2 t c → ¬ SameFile sys own c → sys.file c ≠ none → (∀ p ∈ ps, ¬ SameFile sys p c) → Rnd sys own g s2 t ps true true (ps ++ [c])

theorem round_spec (hs : SysOk sys) (hb : BufsOk bufs) (ho : 0 ∉ own) (hg : 0 ∉ g) {x : Buf} {l t : List Byte} (h : IsStr x (l.takeWhile (· != 0))) (ht : LineText l t) (search : Bool) (ps : List (List Byte))
    (h0 : ∀ p ∈ ps, 0 ∉ p) (hl : ps.length < 10) :
    ∃ se qs, round sys own g s2 bufs x search ps = .ok (se, qs) ∧ Rnd sys own g s2 t ps search se qs := by
  obtain ⟨b, t', e1, -, i1, ht'⟩ := clean_spec h
  cases lineText_unique ht ht'
  unfold round
  rw [e1]
  simp only [bind, Except.bind]
  rw [cstr_of i1]
  dsimp only
  by_cases hsw : SameWord t (bytes "searchpaths")
  · have hne := search_no_entry (s2 := s2) (g := g) (c := sys.cwd.getD []) hsw
    rw [if_neg (by rw [(caseEq_search t).2 hsw]; simp)]
    rcases entry_spec (own := own) (s2 := s2) hs hb hg i1 ps with ⟨e, -⟩ | ⟨p, hp, -⟩
    · rw [e]
      cases search with
      | false => exact ⟨true, ps, rfl, .start hsw⟩
      | true => exact ⟨true, ps, rfl, .other hne⟩
    · exact absurd ⟨p, hp⟩ hne
  · have hf : caseEq t (bytes "SearchPaths") = false := by rw [← Bool.not_eq_true, caseEq_search]; exact hsw
    rw [hf]
    cases search with
    | false => exact ⟨false, ps, rfl, .before hsw⟩
    | true =>
      rw [if_neg (by simp)]
      rcases entry_spec (own := own) (s2 := s2) hs hb hg i1 ps with ⟨e, hn⟩ | ⟨p, hp, temp, it, e⟩
      · rw [e]; exact ⟨true, ps, rfl, .other hn⟩
      · rw [e]
        rcases consider_spec hs ho it ps h0 hl with ⟨e', hc⟩ | ⟨e', hc1, hc2, hc3⟩
        · rw [e']; exact ⟨true, ps, rfl, .drop p hp hc⟩
        · rw [e']; exact ⟨true, _, rfl, .keep p hp hc1 hc2 hc3⟩

theorem rnd_ok (hs : SysOk sys) (hg : 0 ∉ g) {l t : List Byte} (ht : LineText l t) {ps qs : List (List Byte)} {se se' : Bool} (h : Rnd sys own g s2 t ps se se' qs) (h0 : ∀ p ∈ ps, 0 ∉ p) :
    (∀ p ∈ qs, 0 ∉ p) ∧ qs.length ≤ ps.length + 1 := by
  have hc : 0 ∉ sys.cwd.getD [] := by
    cases hcw : sys.cwd with
    | none => simp
    | some q => exact hs.cwd q hcw
  cases h with
  | keep c hn _ _ _ =>
    refine ⟨?_, by simp⟩
    intro p hp
    rcases List.mem_append.1 hp with hp | hp
    · exact h0 p hp
    · rw [List.mem_singleton.1 hp]; exact names_nz hg hc (lineText_nz ht) hn
  | _ => exact ⟨h0, by omega⟩

theorem loop_round (hs : SysOk sys) (hb : BufsOk bufs) (ho : 0 ∉ own) (hg : 0 ∉ g) {content t : List Byte} (hc : content ≠ []) (ht : LineText (content.take (fgetsLen 254 content)) t) (search : Bool) (ps : List (List Byte))
    (h0 : ∀ p ∈ ps, 0 ∉ p) (hl : ps.length < 10) :
    ∃ se qs, Rnd sys own g s2 t ps search se qs ∧ loop sys own g s2 bufs content search ps =
      if qs.length = 10 then .ok qs else loop sys own g s2 bufs (content.drop (fgetsLen 254 content)) se qs := by
  cases content with
  | nil => exact absurd rfl hc
  | cons c s =>
    obtain ⟨x, h1, h2⟩ := PFile.fgetsBuf_spec (content := c :: s) (b := bufs.line) (by rw [hb.line]; exact Nat.le_refl _)
    obtain ⟨se, qs, e, hr⟩ := round_spec (s2 := s2) hs hb ho hg h2 ht search ps h0 hl
    refine ⟨se, qs, hr, ?_⟩
    rw [loop]
    simp only [h1, e, bind, Except.bind]
    by_cases hq : qs.length = 10
    · rw [if_pos ⟨hq, by omega⟩, if_pos hq]
    · rw [if_neg (fun h => hq h.1), if_neg hq]

theorem named_step {b : Bool} {l t : List Byte} {ls cs : List (List Byte)} (ht : LineText l t) (hN : Named g (sys.cwd.getD []) s2 b (l :: ls) cs) {ps qs : List (List Byte)} {se : Bool}
    (hR : Rnd sys own g s2 t ps b se qs) (hl : ps.length < 10) : ∃ cs', Named g (sys.cwd.getD []) s2 se ls cs' ∧ ∀ r, Keep sys own qs cs' r → Keep sys own ps cs r := by
  cases hN with
  | before ht' hn hN =>
    cases lineText_unique ht ht'
    cases hR with
    | before _ => exact ⟨_, hN, fun _ h => h⟩
    | start h => exact absurd h hn
  | start ht' hn hN =>
    cases lineText_unique ht ht'
    cases hR with
    | before h => exact absurd hn h
    | start h => exact ⟨_, hN, fun _ h => h⟩
  | names ht' hn hN =>
    cases lineText_unique ht ht'
    cases hR with
    | other h => exact absurd ⟨_, hn⟩ h
    | drop c hc hd => cases names_unique (lineText_nz ht) hn hc; exact ⟨_, hN, fun _ h => .drop hl hd h⟩
    | keep c hc h1 h2 h3 => cases names_unique (lineText_nz ht) hn hc; exact ⟨_, hN, fun _ h => .keep hl h1 h2 h3 h⟩
  | «else» ht' hn hN =>
    cases lineText_unique ht ht'
    cases hR with
    | other h => exact ⟨_, hN, fun _ h => h⟩
    | drop c hc hd => exact absurd ⟨c, hc⟩ hn
    | keep c hc h1 h2 h3 => exact absurd ⟨c, hc⟩ hn

theorem loop_step (hs : SysOk sys) (hb : BufsOk bufs) (ho : 0 ∉ own) (hg : 0 ∉ g) {content t l : List Byte} {ls : List (List Byte)} (hc : content ≠ []) (ht : LineText (content.take (fgetsLen 254 content)) t) (hlt : LineText l t)
    (ih : ∀ (b : Bool) (ps cs : List (List Byte)), ps.length < 10 → (∀ p ∈ ps, 0 ∉ p) → Named g (sys.cwd.getD []) s2 b ls cs →
      ∃ qs, loop sys own g s2 bufs (content.drop (fgetsLen 254 content)) b ps = .ok qs ∧ Keep sys own ps cs qs)
    (b : Bool) (ps cs : List (List Byte)) (hl : ps.length < 10) (h0 : ∀ p ∈ ps, 0 ∉ p) (hN : Named g (sys.cwd.getD []) s2 b (l :: ls) cs) :
    ∃ qs, loop sys own g s2 bufs content b ps = .ok qs ∧ Keep sys own ps cs qs := by
  obtain ⟨se, qs, hR, e⟩ := loop_round (s2 := s2) hs hb ho hg hc ht b ps h0 hl
  obtain ⟨cs', hN', hK⟩ := named_step hlt hN hR hl
  obtain ⟨h0', hl'⟩ := rnd_ok hs hg ht hR h0
  rw [e]
  by_cases hq : qs.length = 10
  · rw [if_pos hq]
    exact ⟨qs, rfl, hK _ (.full _ _ hq)⟩
  · rw [if_neg hq]
    obtain ⟨r, e', k⟩ := ih se qs cs' (by omega) h0' hN'
    exact ⟨r, e', hK _ k⟩

theorem lineText_nil : LineText [] [] := .plain [] (by simp [slashes]) ⟨[], rfl, by simp, by simp⟩ ⟨[], rfl, by simp, by simp⟩

/-- C62, the part that holds: for a file whose lines are not longer than 254 bytes, the loop ends inside its buffers and stores exactly the candidates the lines name that are files, not the loader's and not there
already, in order and not more than ten.  Missing: longer lines (`long_line_taken`), the end of the section (`section_never_ends`) and quotes (`quoted_ignored`). -/
theorem paths_spec_partial (hs : SysOk sys) (hb : BufsOk bufs) (ho : 0 ∉ own) (hg : 0 ∉ g) {content : List Byte} {ls : List (List Byte)} (hL : Lines content ls) {b : Bool} {ps cs : List (List Byte)}
    (hl : ps.length < 10) (h0 : ∀ p ∈ ps, 0 ∉ p) (hN : Named g (sys.cwd.getD []) s2 b ls cs) :
    ∃ qs, loop sys own g s2 bufs content b ps = .ok qs ∧ Keep sys own ps cs qs := by
  induction hL generalizing b ps cs with
  | nil =>
    cases hN
    exact ⟨ps, by rw [loop], .done ps⟩
  | last l hne h10 hlen =>
    have e := PFile.fgetsLen_last h10 hlen
    obtain ⟨t, ht⟩ := lineText_exists l
    refine loop_step (ls := []) hs hb ho hg hne (by rw [e, List.take_length]; exact ht) ht ?_ b ps cs hl h0 hN
    rw [e, List.drop_length]
    intro b ps cs _ _ hN
    cases hN
    exact ⟨ps, by rw [loop], .done ps⟩
  | line l rest ls h10 hlen _ ih =>
    obtain ⟨t, ht⟩ := lineText_exists l
    by_cases hlt : l.length < 254
    · have e := PFile.fgetsLen_line (rest := rest) h10 hlt
      have e1 : (l ++ 10 :: rest).take (l.length + 1) = l ++ [10] := by
        rw [show l ++ 10 :: rest = (l ++ [10]) ++ rest by simp]
        exact List.take_left' (by simp)
      have e2 : (l ++ 10 :: rest).drop (l.length + 1) = rest := by
        rw [show l ++ 10 :: rest = (l ++ [10]) ++ rest by simp]
        exact List.drop_left' (by simp)
      refine loop_step (ls := ls) hs hb ho hg (by simp) (by rw [e, e1]; exact lineText_newline ht) ht ?_ b ps cs hl h0 hN
      rw [e, e2]
      exact fun b ps cs hl h0 hN => ih hl h0 hN
    · have hl4 : l.length = 254 := by omega
      have e : fgetsLen 254 (l ++ 10 :: rest) = l.length := by
        have := PFile.fgetsLen_full (rest := 10 :: rest) h10
        rwa [hl4] at this ⊢
      refine loop_step (ls := ls) hs hb ho hg (by simp) (by rw [e, List.take_left' rfl]; exact ht) ht ?_ b ps cs hl h0 hN
      rw [e, List.drop_left' rfl]
      intro b ps cs hl h0 hN
      have e3 : fgetsLen 254 (10 :: rest) = 1 := by simp [fgetsLen]
      have hnil : ¬ SameWord [] (bytes "searchpaths") := fun h => absurd (sameWord_len h) (by decide)
      refine loop_step (l := []) (ls := ls) hs hb ho hg (by simp) (by rw [e3]; exact lineText_newline lineText_nil) lineText_nil ?_ b ps cs hl h0 ?_
      · rw [e3]
        exact fun b ps cs hl h0 hN => ih hl h0 hN
      · cases b with
        | false => exact .before lineText_nil hnil hN
        | true =>
          refine .else lineText_nil ?_ hN
          rintro ⟨p, k, v, d, r, f, ⟨⟨w1, w2, e, -⟩, -, -, -⟩, -, h3, -⟩
          have : k = [] := by
            have := e.symm
            simp only [List.append_eq_nil_iff] at this
            exact this.1.1.2
          subst this
          rcases library_word h3 with h | h <;> exact absurd (sameWord_len h) (by decide)

theorem SameFile.symm {p q : List Byte} (h : SameFile sys p q) : SameFile sys q p := Eq.symm h

theorem SameFile.trans {p q r : List Byte} (h : SameFile sys p q) (h' : SameFile sys q r) : SameFile sys p r := Eq.trans h h'

/-- What every list of kept paths satisfies. -/
structure Fine (sys : Sys) (own : List Byte) (ps : List (List Byte)) : Prop where
  ten : ps.length ≤ 10
  files : ∀ p ∈ ps, sys.file p ≠ none
  other : ∀ p ∈ ps, ¬ SameFile sys own p
  once : ps.Pairwise fun p q => ¬ SameFile sys p q

theorem fine_snoc {ps : List (List Byte)} {c : List Byte} (h : Fine sys own ps) (hl : ps.length < 10) (h1 : ¬ SameFile sys own c) (h2 : sys.file c ≠ none) (h3 : ∀ p ∈ ps, ¬ SameFile sys p c) :
    Fine sys own (ps ++ [c]) := by
  refine ⟨by simp; omega, ?_, ?_, ?_⟩
  · intro p hp
    rcases List.mem_append.1 hp with hp | hp
    · exact h.files p hp
    · rw [List.mem_singleton.1 hp]; exact h2
  · intro p hp
    rcases List.mem_append.1 hp with hp | hp
    · exact h.other p hp
    · rw [List.mem_singleton.1 hp]; exact h1
  · rw [List.pairwise_append]
    exact ⟨h.once, by simp, fun a ha b hb => by rw [List.mem_singleton.1 hb]; exact h3 a ha⟩

/-- The rules of `Keep` determine the result. -/
theorem keep_unique {ps cs qs qs' : List (List Byte)} (h : Keep sys own ps cs qs) (h' : Keep sys own ps cs qs') : qs = qs' := by
  induction h generalizing qs' with
  | done ps =>
    cases h' with
    | done => rfl
    | full => rfl
  | full ps cs hl =>
    cases h' with
    | done => rfl
    | full => rfl
    | drop h => omega
    | keep h => omega
  | drop hl hd _ ih =>
    cases h' with
    | full _ _ h => omega
    | drop _ _ h => exact ih h
    | keep _ h1 h2 h3 _ => rcases hd with h | h | ⟨p, hp, h⟩
                           · exact absurd h h1
                           · exact absurd h h2
                           · exact absurd h (h3 p hp)
  | keep hl h1 h2 h3 _ ih =>
    cases h' with
    | full _ _ h => omega
    | drop _ hd h => rcases hd with h | h | ⟨p, hp, h⟩
                     · exact absurd h h1
                     · exact absurd h h2
                     · exact absurd h (h3 p hp)
    | keep _ _ _ _ h => exact ih h

/-- C62: what the rules of `Keep` keep: some of the candidates, in their order, all files, none the loader's, no two the same, not more than ten; and with less than ten every candidate that is a file and not the
loader's is one of them. -/
theorem kept {ps cs qs : List (List Byte)} (h : Keep sys own ps cs qs) (hf : Fine sys own ps) :
    Fine sys own qs ∧ (∃ add, qs = ps ++ add ∧ List.Sublist add cs) ∧ (qs.length < 10 → ∀ c ∈ cs, sys.file c ≠ none → ¬ SameFile sys own c → ∃ q ∈ qs, SameFile sys q c) := by
  induction h with
  | done ps => exact ⟨hf, ⟨[], by simp, .slnil⟩, by simp⟩
  | full ps cs hl => exact ⟨hf, ⟨[], by simp, List.nil_sublist _⟩, fun h => by omega⟩
  | @drop ps cs qs c hl hd _ ih =>
    obtain ⟨h1, ⟨add, e, hs⟩, h3⟩ := ih hf
    refine ⟨h1, ⟨add, e, .cons _ hs⟩, ?_⟩
    intro hq c' hc' hx ho
    rcases List.mem_cons.1 hc' with rfl | hc'
    · rcases hd with h | h | ⟨p, hp, h⟩
      · exact absurd h ho
      · exact absurd h hx
      · exact ⟨p, by rw [e]; exact List.mem_append_left _ hp, h⟩
    · exact h3 hq c' hc' hx ho
  | @keep ps cs qs c hl k1 k2 k3 _ ih =>
    obtain ⟨h1, ⟨add, e, hs⟩, h3⟩ := ih (fine_snoc hf hl k1 k2 k3)
    refine ⟨h1, ⟨c :: add, by rw [e]; simp, .cons_cons _ hs⟩, ?_⟩
    intro hq c' hc' hx ho
    rcases List.mem_cons.1 hc' with rfl | hc'
    · exact ⟨c', by rw [e]; simp, rfl⟩
    · exact h3 hq c' hc' hx ho

theorem fine_nil : Fine sys own [] := ⟨by simp, by simp, by simp, .nil⟩

/-- C62: whatever the file contains, the loop ends inside its buffers, and the paths are files, none the loader's, no two the same, not more than ten. -/
theorem paths_sound (hs : SysOk sys) (hb : BufsOk bufs) (ho : 0 ∉ own) (hg : 0 ∉ g) (content : List Byte) : ∃ qs, loop sys own g s2 bufs content false [] = .ok qs ∧ Fine sys own qs := by
  suffices h : ∀ (n : Nat) (content : List Byte) (b : Bool) (ps : List (List Byte)), content.length ≤ n → ps.length < 10 → (∀ p ∈ ps, 0 ∉ p) → Fine sys own ps →
      ∃ qs, loop sys own g s2 bufs content b ps = .ok qs ∧ Fine sys own qs from
    h content.length content false [] (Nat.le_refl _) (by simp) (by simp) fine_nil
  intro n
  induction n with
  | zero =>
    intro content b ps hn hl h0 hf
    rw [List.length_eq_zero_iff.1 (Nat.le_zero.1 hn), loop]
    exact ⟨ps, rfl, hf⟩
  | succ n ih =>
    intro content b ps hn hl h0 hf
    cases content with
    | nil => rw [loop]; exact ⟨ps, rfl, hf⟩
    | cons c s =>
      obtain ⟨t, ht⟩ := lineText_exists ((c :: s).take (fgetsLen 254 (c :: s)))
      obtain ⟨se, qs, hR, e⟩ := loop_round (s2 := s2) hs hb ho hg (by simp) ht b ps h0 hl
      obtain ⟨h0', hl'⟩ := rnd_ok hs hg ht hR h0
      have hf' : Fine sys own qs := by
        cases hR with
        | keep c _ h1 h2 h3 => exact fine_snoc hf hl h1 h2 h3
        | _ => exact hf
      rw [e]
      by_cases hq : qs.length = 10
      · rw [if_pos hq]; exact ⟨qs, rfl, hf'⟩
      · rw [if_neg hq]
        refine ih _ _ _ ?_ (by omega) h0' hf'
        have : 0 < fgetsLen 254 (c :: s) := fgetsLen_pos 253 c s
        simp only [List.length_drop, List.length_cons] at hn ⊢
        omega

/-- Every list of lines names some files: the rules cover all lines. -/
theorem named_total (g c : List Byte) (s2 : Bool) (ls : List (List Byte)) (b : Bool) : ∃ cs, Named g c s2 b ls cs := by
  induction ls generalizing b with
  | nil => exact ⟨[], .nil b⟩
  | cons l ls ih =>
    obtain ⟨t, ht⟩ := lineText_exists l
    cases b with
    | false =>
      by_cases h : SameWord t (bytes "searchpaths")
      · obtain ⟨cs, hc⟩ := ih true
        exact ⟨cs, .start ht h hc⟩
      · obtain ⟨cs, hc⟩ := ih false
        exact ⟨cs, .before ht h hc⟩
    | true =>
      obtain ⟨cs, hc⟩ := ih true
      by_cases h : ∃ p, Names g c s2 t p
      · obtain ⟨p, h⟩ := h
        exact ⟨p :: cs, .names ht h hc⟩
      · exact ⟨cs, .else ht h hc⟩

/-- C62, negation: a line that starts with a quote names nothing and does not open the section, although the engine's reader takes `"Game" "x"` and `"SearchPaths"` like the words without quotes. -/
theorem quoted_ignored {c t : List Byte} (h : t.head? = some 34) : ¬ SameWord t (bytes "searchpaths") ∧ ¬ ∃ p, Names g c s2 t p := by
  constructor
  · intro hw
    have hh := (caseEq_iff _ _).2 hw
    unfold caseEq at hh
    rw [beq_iff_eq] at hh
    have h1 := congrArg List.head? hh
    rw [List.head?_map, h] at h1
    exact absurd h1 (by decide)
  · rintro ⟨p, k, v, d, r, f, ⟨⟨w1, w2, rfl, hw1, -, -⟩, hk, -, -⟩, h2, h3, rfl⟩
    cases w1 with
    | cons x w1 =>
      simp only [List.cons_append, List.head?_cons] at h
      cases h
      exact absurd (hw1 34 (by simp)) (by decide)
    | nil =>
      cases k with
      | nil => rcases library_word h3 with hw | hw <;> exact absurd (sameWord_len hw) (by decide)
      | cons x k =>
        simp only [List.nil_append, List.cons_append, List.head?_cons] at h
        cases h
        rcases library_word h3 with hw | hw
        · have hh := (caseEq_iff _ _).2 hw
          unfold caseEq at hh
          rw [beq_iff_eq] at hh
          exact absurd (congrArg List.head? hh) (by simp [bytes]; decide)
        · have hh := (caseEq_iff _ _).2 hw
          unfold caseEq at hh
          rw [beq_iff_eq] at hh
          exact absurd (congrArg List.head? hh) (by simp [bytes]; decide)

/-- `"Game" "x"`. -/
example : (bytes "\"Game\" \"x\"").head? = some 34 := by decide

/-- C62, negation: no line ends the section; whatever follows the line "SearchPaths", a later "Game" line counts. -/
theorem section_never_ends {c l t : List Byte} {between ls cs : List (List Byte)} {p : List Byte} (ht : LineText l t) (hp : Names g c s2 t p) (h : Named g c s2 true (between ++ l :: ls) cs) : p ∈ cs := by
  induction between generalizing cs with
  | nil =>
    cases h with
    | names ht' hp' _ =>
      cases lineText_unique ht ht'
      cases names_unique (lineText_nz ht) hp hp'
      simp
    | «else» ht' hn _ =>
      cases lineText_unique ht ht'
      exact absurd ⟨p, hp⟩ hn
  | cons x between ih =>
    cases h with
    | names _ _ h => exact .tail _ (ih h)
    | «else» _ _ h => exact ih h

/-- C62, negation: a line longer than 254 bytes is read as several lines: the loop goes on with what follows the first 254 bytes as if it were a line of its own. -/
theorem long_line_taken (hs : SysOk sys) (hb : BufsOk bufs) (ho : 0 ∉ own) (hg : 0 ∉ g) {l rest t : List Byte} (hlen : l.length = 254) (h10 : 10 ∉ l) (ht : LineText l t) (hn : ¬ ∃ p, Names g (sys.cwd.getD []) s2 t p) :
    loop sys own g s2 bufs (l ++ rest) true [] = loop sys own g s2 bufs rest true [] := by
  have e : fgetsLen 254 (l ++ rest) = l.length := by
    have := PFile.fgetsLen_full (rest := rest) h10
    rwa [hlen] at this ⊢
  obtain ⟨se, qs, hR, e'⟩ := loop_round (s2 := s2) (content := l ++ rest) (t := t) hs hb ho hg (by intro h; rw [List.append_eq_nil_iff] at h; rw [h.1] at hlen; cases hlen)
    (by rw [e, List.take_left' rfl]; exact ht) true [] (by simp) (by simp)
  rw [e', e, List.drop_left' rfl]
  cases hR with
  | other _ => rfl
  | drop c hc _ => exact absurd ⟨c, hc⟩ hn
  | keep c hc _ _ _ => exact absurd ⟨c, hc⟩ hn

/-- Which gameinfo file is read. -/
inductive Info (sys : Sys) (gamePath : List Byte) : List Byte → Bool → Prop
  | first (c : List Byte) : sys.file (((gamePath ++ bytes "/gameinfo.txt").take 4095).map (fun c => if c = 92 then 47 else c)) = some c → Info sys gamePath c false
  | second (c : List Byte) : sys.file (((gamePath ++ bytes "/gameinfo.txt").take 4095).map (fun c => if c = 92 then 47 else c)) = none →
      sys.file (((gamePath ++ bytes "/gameinfo.gi").take 4095).map (fun c => if c = 92 then 47 else c)) = some c → Info sys gamePath c true

theorem slashed_nz {t : List Byte} (h : 0 ∉ t) : 0 ∉ (t.take 4095).map (fun c => if c = 92 then (47 : Byte) else c) := by
  intro hm
  obtain ⟨x, hx, e⟩ := List.mem_map.1 hm
  split at e
  · cases e
  · subst e; exact h (List.mem_of_mem_take hx)

theorem format_cstr {b : Buf} (hb : b.length = 4096) {t junk : List Byte} (h0 : 0 ∉ t) : ∃ r, format b 4096 (some t) junk = .ok r ∧ cstr r.1 0 = .ok (t.take 4095) := by
  obtain ⟨x, e, ex⟩ := format_spec (b := b) (n := 4096) (by decide) (by rw [hb]; exact Nat.le_refl _) t junk
  exact ⟨_, e, cstr_of ⟨_, ex, fun h => h0 (List.mem_of_mem_take h)⟩⟩

theorem pathFormat_cstr {b : Buf} (hb : b.length = 4096) {t junk : List Byte} (h0 : 0 ∉ t) :
    ∃ r, pathFormat b 4096 (some t) junk = .ok r ∧ cstr r.1 0 = .ok ((t.take 4095).map (fun c => if c = 92 then 47 else c)) := by
  obtain ⟨x, e, ex⟩ := pathFormat_spec (b := b) (n := 4096) (by decide) (by rw [hb]; exact Nat.le_refl _) t junk
  exact ⟨_, e, cstr_of ⟨_, ex, slashed_nz h0⟩⟩

theorem openInfo_spec {path : Buf} {junk : List Byte} (hp : path.length = 4096) (hg : 0 ∉ g) :
    (∃ c s2, openInfo sys path junk g = .ok (some (c, s2)) ∧ Info sys g c s2) ∨ (openInfo sys path junk g = .ok none ∧ ¬ ∃ c s2, Info sys g c s2) := by
  obtain ⟨r1, e1, c1⟩ := pathFormat_cstr (junk := junk) hp (nz_append hg (b := bytes "/gameinfo.txt") (by decide))
  obtain ⟨r2, e2, c2⟩ := pathFormat_cstr (junk := junk) hp (nz_append hg (b := bytes "/gameinfo.gi") (by decide))
  unfold openInfo
  rw [e1]
  simp only [bind, Except.bind]
  rw [c1]
  dsimp only
  cases f1 : sys.file (((g ++ bytes "/gameinfo.txt").take 4095).map (fun c => if c = 92 then 47 else c)) with
  | some c => exact .inl ⟨c, false, rfl, .first c f1⟩
  | none =>
    dsimp only
    rw [e2]
    dsimp only
    rw [c2]
    dsimp only
    cases f2 : sys.file (((g ++ bytes "/gameinfo.gi").take 4095).map (fun c => if c = 92 then 47 else c)) with
    | some c => exact .inl ⟨c, true, rfl, .second c f1 f2⟩
    | none =>
      refine .inr ⟨rfl, ?_⟩
      rintro ⟨c, s2, h⟩
      cases h with
      | first h => rw [f1] at h; cases h
      | second _ h => rw [f2] at h; cases h

/-- C62: the first call of `mm_DetectGameInformation`, whatever the system answers: it stays inside its buffers, reads the game's gameinfo file (the first engine's if there is one) if the loader's path and the game's
directory are known, and then finds files, none the loader's, no two the same, not more than ten. -/
theorem detect_sound {isS2 : Bool} {tmp path : Buf} (hs : SysOk sys) (hb : BufsOk bufs) (ht : tmp.length = 4096) (hp : path.length = 4096) {nb : Buf} {name : List Byte}
    (hname : Loader.getGameName sys.cmdline sys.app (List.replicate 128 0) 128 = .ok nb) (hn : IsStr nb name) (hown : ∀ o, sys.own = some o → 0 ∉ o) :
    ∃ r, detect sys isS2 bufs tmp path = .ok r ∧
      (∀ qs, r = some qs → ∃ o gp content s2, sys.own = some o ∧ sys.realpath (if isS2 then (bytes "../../" ++ name).take 4095 else name) = some gp ∧ Info sys gp content s2 ∧
        loop sys (o.take 4095) gp s2 bufs content false [] = .ok qs ∧ Fine sys (o.take 4095) qs) ∧
      (r = none → sys.own = none ∨ sys.realpath (if isS2 then (bytes "../../" ++ name).take 4095 else name) = none ∨
        ∃ gp, sys.realpath (if isS2 then (bytes "../../" ++ name).take 4095 else name) = some gp ∧ ¬ ∃ c s2, Info sys gp c s2) := by
  have hn0 : 0 ∉ name := hn.choose_spec.2
  have hres : resolve sys isS2 tmp bufs.junk name = .ok (sys.realpath (if isS2 then (bytes "../../" ++ name).take 4095 else name)) := by
    unfold resolve
    cases isS2 with
    | false => rfl
    | true =>
      obtain ⟨r, e, c⟩ := format_cstr (junk := bufs.junk) ht (nz_append (a := bytes "../../") (by decide) hn0)
      rw [if_pos rfl, e]
      simp only [bind, Except.bind]
      rw [c]
      rfl
  unfold detect
  rw [hname]
  simp only [bind, Except.bind]
  rw [cstr_of hn]
  dsimp only
  unfold ownPath
  cases ho : sys.own with
  | none => exact ⟨none, rfl, (by intro qs h; cases h), fun _ => .inl rfl⟩
  | some o =>
    simp only [Option.map_some]
    rw [hres]
    dsimp only
    cases hr : sys.realpath (if isS2 then (bytes "../../" ++ name).take 4095 else name) with
    | none => exact ⟨none, rfl, (by intro qs h; cases h), fun _ => .inr (.inl rfl)⟩
    | some gp =>
      dsimp only
      have hg : 0 ∉ gp := hs.real _ _ hr
      rcases openInfo_spec (sys := sys) (junk := bufs.junk) hp hg with ⟨c, s2, e, hi⟩ | ⟨e, hi⟩
      · rw [e]
        dsimp only
        obtain ⟨qs, e', hf⟩ := paths_sound (s2 := s2) hs hb (fun h => hown o ho (List.mem_of_mem_take (i := 4095) h)) hg c
        rw [e']
        refine ⟨some qs, rfl, ?_, nofun⟩
        intro qs' h
        cases h
        exact ⟨o, gp, c, s2, rfl, rfl, hi, e', hf⟩
      · rw [e]
        exact ⟨none, rfl, nofun, fun _ => .inr (.inr ⟨gp, rfl, hi⟩)⟩

end

/-! ### Example: `SearchPaths`, then three lines -/

/-- A system in which every path is a file and already a full one. -/
def exSys : Sys := { own := some (bytes "/a/mm.so"), cmdline := some (cmdBytes [bytes "srcds"]), app := none, realpath := fun p => if 0 ∈ p then none else some p, cwd := some (bytes "/s"), file := fun _ => some [] }

theorem exSys_ok : SysOk exSys := by
  refine ⟨?_, by intro q h; cases h; decide⟩
  intro p q h
  unfold exSys at h
  dsimp only at h
  split at h
  · cases h
  · cases h; assumption

theorem exSys_own : ∀ o, exSys.own = some o → 0 ∉ o := by intro o h; cases h; decide

example : ∃ nb, Loader.getGameName exSys.cmdline exSys.app (List.replicate 128 0) 128 = .ok nb ∧ IsStr nb (bytes ".") := by
  obtain ⟨b, e, -, -, h⟩ := Loader.gameName_app (args := [bytes "srcds"]) (app := none) (b := List.replicate 128 0) (n := 128) (by decide) (by decide) (by decide) (by rw [List.length_replicate]; exact Nat.le_refl _)
  exact ⟨b, e, h⟩

def exBufs : Bufs := ⟨List.replicate 255 1, List.replicate 128 1, List.replicate 128 1, List.replicate 4096 1, []⟩

theorem exBufs_ok : BufsOk exBufs := ⟨by simp only [exBufs, List.length_replicate], by simp only [exBufs, List.length_replicate], by simp only [exBufs, List.length_replicate], by simp only [exBufs, List.length_replicate]⟩

theorem exLines : Lines (bytes "SearchPaths\n}\nGame x") [bytes "SearchPaths", bytes "}", bytes "Game x"] :=
  .line (bytes "SearchPaths") (bytes "}\nGame x") _ (by decide) (by decide) (.line (bytes "}") (bytes "Game x") _ (by decide) (by decide) (.last _ (by decide) (by decide) (by decide)))

theorem exGame : Names (bytes "/g") (bytes "/s") false (bytes "Game x") (bytes "/s/x/bin/linux64/server.so") :=
  .mk (bytes "Game") (bytes "x") (bytes "/s") (bytes "x") _
    ⟨⟨[], bytes " ", by decide, by decide, by decide, by decide⟩, by decide, by decide, by decide⟩ (.other _ (by decide))
    (.dir1 _ _ _ ((caseEq_iff _ _).1 (by decide)) (by decide)) (by rw [List.take_of_length_le (by decide)]; decide)

theorem takeWhile_all {l : List Byte} (h : 0 ∉ l) : l.takeWhile (· != 0) = l := by
  induction l with
  | nil => rfl
  | cons c l ih =>
    have hc : c ≠ 0 := fun e => h (by simp [e])
    rw [List.takeWhile_cons, if_pos (by simpa using hc), ih (fun h' => h (.tail _ h'))]

theorem lineText_self {l : List Byte} (h0 : 0 ∉ l) (h1 : ¬ slashes <:+: l) (h2 : ∀ c ∈ l.head?, isspace c = false) (h3 : ∀ c ∈ l.getLast?, isspace c = false) : LineText l l :=
  .plain l (by rw [takeWhile_all h0]; exact h1) (by rw [takeWhile_all h0]; exact ⟨[], rfl, by simp, h2⟩) ⟨[], by simp, by simp, h3⟩

/-- The brace does not end the section: the line after it names a file, which is kept. -/
theorem exNamed : Named (bytes "/g") (bytes "/s") false false [bytes "SearchPaths", bytes "}", bytes "Game x"] [bytes "/s/x/bin/linux64/server.so"] := by
  have h1 := lineText_self (l := bytes "SearchPaths") (by decide) (by decide +kernel) (by decide) (by decide)
  have h2 := lineText_self (l := bytes "}") (by decide) (by decide +kernel) (by decide) (by decide)
  have h3 := lineText_self (l := bytes "Game x") (by decide) (by decide +kernel) (by decide) (by decide)
  have hn : ¬ ∃ p, Names (bytes "/g") (bytes "/s") false (bytes "}") p := by
    rintro ⟨p, k, v, d, r, f, h1, h2, h3, -⟩
    obtain ⟨e, -⟩ := keyLine_unique (by decide) h1 (k' := bytes "}") (v' := []) ⟨⟨[], [], by decide, by decide, by decide, by decide⟩, by decide, by decide, by decide⟩
    rw [e] at h3
    rcases library_word h3 with hw | hw <;> exact absurd (sameWord_len hw) (by decide)
  exact .start h1 ((caseEq_iff _ _).1 (by decide)) (.else h2 hn (.names h3 exGame (.nil _)))

theorem exKeep : Keep exSys (bytes "/a/mm.so") [] [bytes "/s/x/bin/linux64/server.so"] [bytes "/s/x/bin/linux64/server.so"] :=
  .keep (by decide) (by unfold SameFile exSys; decide) (by decide) (by simp) (.done _)

/-- A comment of 254 bytes, after which a line goes on. -/
example : ∃ l : List Byte, l.length = 254 ∧ 10 ∉ l ∧ LineText l [] ∧ ¬ ∃ p, Names (bytes "/g") (bytes "/s") false [] p := by
  refine ⟨47 :: 47 :: List.replicate 252 97, by rw [List.length_cons, List.length_cons, List.length_replicate], ?_, ?_, ?_⟩
  · intro h
    simp only [List.mem_cons, List.mem_replicate] at h
    rcases h with h | h | ⟨-, h⟩ <;> cases h
  · refine .comment [] (List.replicate 252 97) [] ?_ (by decide) ⟨[], rfl, by simp, by simp⟩ ⟨[], rfl, by simp, by simp⟩
    refine takeWhile_all ?_
    intro h
    simp only [List.mem_cons, List.mem_replicate] at h
    rcases h with h | h | ⟨-, h⟩ <;> cases h
  · rintro ⟨p, k, v, d, r, f, h1, h2, h3, -⟩
    obtain ⟨e, -⟩ := keyLine_unique (by decide) h1 (k' := []) (v' := []) ⟨⟨[], [], by decide, by decide, by decide, by decide⟩, by decide, by decide, by decide⟩
    rw [e] at h3
    rcases library_word h3 with hw | hw <;> exact absurd (sameWord_len hw) (by decide)

/-- The loop on that file. -/
example : loop exSys (bytes "/a/mm.so") (bytes "/g") false exBufs (bytes "SearchPaths\n}\nGame x") false [] = .ok [bytes "/s/x/bin/linux64/server.so"] := by
  obtain ⟨qs, e, h⟩ := paths_spec_partial (sys := exSys) (own := bytes "/a/mm.so") (g := bytes "/g") exSys_ok exBufs_ok (by decide) (by decide) exLines (ps := []) (by decide) (by simp) exNamed
  rw [e, keep_unique h exKeep]

end Verif.GInfo

#print axioms Verif.GInfo.paths_spec_partial
#print axioms Verif.GInfo.kept
#print axioms Verif.GInfo.keep_unique
#print axioms Verif.GInfo.paths_sound
#print axioms Verif.GInfo.named_total
#print axioms Verif.GInfo.detect_sound
#print axioms Verif.GInfo.quoted_ignored
#print axioms Verif.GInfo.section_never_ends
#print axioms Verif.GInfo.long_line_taken
