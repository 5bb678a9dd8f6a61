import Verif.Core.PluginLine
import Verif.Core.PluginPathProps
import Verif.Mgr.IdProps
/-
C46: the plugin list file.
-/
namespace Verif.PFile
open Verif.C Verif.Util

/-! ### Spec -/

/-- The content consists of these lines, none longer than 254 bytes. -/
inductive Lines : List Byte → List (List Byte) → Prop
  | nil : Lines [] []
  | last (l : List Byte) : l ≠ [] → 10 ∉ l → l.length ≤ 254 → Lines l [l]
  | line (l rest : List Byte) (ls : List (List Byte)) : 10 ∉ l → l.length ≤ 254 → Lines rest ls → Lines (l ++ 10 :: rest) (l :: ls)

/-- Line by line, what the text of the line means. -/
inductive Read : List (List Byte) → List Line → Prop
  | nil : Read [] []
  | cons {l t : List Byte} {L : Line} {ls : List (List Byte)} {Ls : List Line} : Text l t → Means t L → Read ls Ls → Read (l :: ls) (L :: Ls)

/-- The lines carried out in order: set the alias, load the path, count. -/
inductive Exec {σ ε : Type} (W : World σ ε) (modPath : List Byte) (stat : List Byte → Bool) : List Line → Prog σ → Prog σ → Prop
  | nil (p : Prog σ) : Exec W modPath stat [] p p
  | skip {ls : List Line} {p q : Prog σ} : Exec W modPath stat ls p q → Exec W modPath stat (.skip :: ls) p q
  | load {f path : List Byte} {ls : List Line} {w w' : σ} {t k : Nat} {ok already : Bool} {q : Prog σ} : PathOf modPath stat 4096 f path → W.load path w = .ok (w', ok, already) →
      Exec W modPath stat ls ⟨w', t + (if ok = true ∧ already = false then 1 else 0), k + (if ok = true ∧ already = true then 1 else 0)⟩ q →
      Exec W modPath stat (.load none f :: ls) ⟨w, t, k⟩ q
  | alias {a f path : List Byte} {ls : List Line} {w w' : σ} {t k : Nat} {ok already : Bool} {q : Prog σ} : PathOf modPath stat 4096 f path → W.load path (W.setAlias a f w) = .ok (w', ok, already) →
      Exec W modPath stat ls ⟨w', t + (if ok = true ∧ already = false then 1 else 0), k + (if ok = true ∧ already = true then 1 else 0)⟩ q →
      Exec W modPath stat (.load (some a) f :: ls) ⟨w, t, k⟩ q

/-! ### Lemmas -/

theorem means_file {t f : List Byte} {al : Option (List Byte)} (h : Means t (.load al f)) (h0 : 0 ∉ t) : f ≠ [] ∧ 0 ∉ f := by
  cases h with
  | quoted f t hf _ _ => exact ⟨hf, fun h => h0 (by simp [h])⟩
  | single f hf _ _ _ _ => exact ⟨hf, h0⟩
  | aliased a p sp _ _ _ _ _ _ _ hp =>
    obtain ⟨c, hc, -⟩ := hp
    exact ⟨(by rintro rfl; cases hc), fun h => h0 (by simp [h])⟩
  | other a p sp ha _ _ _ _ _ _ _ => exact ⟨ha, fun h => h0 (by simp [h])⟩

theorem count_eq {σ : Type} (w w' : σ) (t k : Nat) (ok al : Bool) :
    (Prog.mk w t k).count (w', ok, al) = ⟨w', t + (if ok = true ∧ al = false then 1 else 0), k + (if ok = true ∧ al = true then 1 else 0)⟩ := by
  cases ok <;> cases al <;> rfl

/-- A line that can be carried out: the name is a string that is not empty. -/
def Good : Line → Prop
  | .skip => True
  | .load _ f => f ≠ [] ∧ 0 ∉ f

theorem means_good {t : List Byte} {L : Line} (h : Means t L) (h0 : 0 ∉ t) : Good L := by
  cases L with
  | skip => trivial
  | load al f => exact means_file h h0

section
variable {σ ε : Type} {W : World σ ε} {modPath : List Byte} {stat : List Byte → Bool} {b full : Buf}

/-- What `act` does for a name. -/
theorem act_load {al : Option (List Byte)} {f : List Byte} {p : Prog σ} (hg : Good (.load al f)) (hm : 0 ∉ modPath) (hf : 4096 ≤ full.length) :
    (∃ path, PathOf modPath stat 4096 f path ∧ act W modPath stat full (.load al f) p = (do
      let r ← liftE (W.load path (match al with
        | some a => W.setAlias a f p.w
        | none => p.w))
      .ok (p.count r))) ∨
    ((¬ ∃ path, PathOf modPath stat 4096 f path) ∧ Absolute f ∧ 37 ∈ f ∧ act W modPath stat full (.load al f) p = .error .format) := by
  have hst : IsStr (f ++ [0]) f := ⟨[], rfl, hg.2⟩
  by_cases hfmt : Absolute f → 37 ∉ f
  · refine .inl ?_
    obtain ⟨out, path, h1, -, h3, h4⟩ := getFullPath_spec (ε := ε) (stat := stat) hst hg.1 hm (by decide) hf hfmt
    refine ⟨path, h4, ?_⟩
    unfold act
    dsimp only
    rw [h1]
    simp only [bind, Except.bind, cstr_of h3, liftB]
    cases al <;> rfl
  · refine .inr ?_
    have ha : Absolute f := Classical.byContradiction fun h => hfmt fun h' => absurd h' h
    have hp : 37 ∈ f := Classical.byContradiction fun h => hfmt fun _ => h
    refine ⟨?_, ha, hp, ?_⟩
    · rintro ⟨path, h⟩
      cases h <;> contradiction
    · unfold act
      dsimp only
      rw [absolute_is_format hst ha hp]
      rfl

theorem act_exec {L : Line} {p q : Prog σ} {ls : List Line} (hg : Good L) (hm : 0 ∉ modPath) (hf : 4096 ≤ full.length) :
    (∃ p', act W modPath stat full L p = .ok p' ∧ Exec W modPath stat ls p' q) ↔ Exec W modPath stat (L :: ls) p q := by
  cases L with
  | skip =>
    constructor
    · rintro ⟨p', h, h'⟩; cases h; exact .skip h'
    · intro h; cases h with
      | skip h => exact ⟨p, rfl, h⟩
  | load al f =>
    obtain ⟨w, t, k⟩ := p
    rcases act_load (W := W) (stat := stat) (p := ⟨w, t, k⟩) hg hm hf with ⟨path, hp, e⟩ | ⟨hn, -, -, e⟩
    · constructor
      · rintro ⟨p', h, h'⟩
        rw [e] at h
        cases al with
        | none =>
          dsimp only at h
          cases hl : W.load path w with
          | error x => rw [hl] at h; cases h
          | ok r =>
            obtain ⟨w', ok, al⟩ := r
            rw [hl] at h; cases h
            rw [count_eq] at h'
            exact .load hp hl h'
        | some a =>
          dsimp only at h
          cases hl : W.load path (W.setAlias a f w) with
          | error x => rw [hl] at h; cases h
          | ok r =>
            obtain ⟨w', ok, al⟩ := r
            rw [hl] at h; cases h
            rw [count_eq] at h'
            exact .alias hp hl h'
      · intro h
        cases h with
        | load hp' hl h' =>
          cases hp.unique hp'
          refine ⟨_, ?_, h'⟩
          rw [e]; dsimp only; rw [hl, ← count_eq]; rfl
        | alias hp' hl h' =>
          cases hp.unique hp'
          refine ⟨_, ?_, h'⟩
          rw [e]; dsimp only; rw [hl, ← count_eq]; rfl
    · constructor
      · rintro ⟨p', h, h'⟩; rw [e] at h; cases h
      · intro h
        cases h with
        | load hp' _ _ => exact absurd ⟨_, hp'⟩ hn
        | alias hp' _ _ => exact absurd ⟨_, hp'⟩ hn

theorem fgetsLen_le (n : Nat) (s : List Byte) : fgetsLen n s ≤ n := by
  induction n generalizing s with
  | zero => exact Nat.le_refl _
  | succ n ih =>
    cases s with
    | nil => exact Nat.zero_le _
    | cons c s =>
      unfold fgetsLen
      split
      · omega
      · have := ih s; omega

theorem fgetsLen_line {n : Nat} {l rest : List Byte} (h : 10 ∉ l) (hl : l.length < n) : fgetsLen n (l ++ 10 :: rest) = l.length + 1 := by
  induction l generalizing n with
  | nil =>
    cases n with
    | zero => exact absurd hl (by simp)
    | succ n => simp [fgetsLen]
  | cons c l ih =>
    cases n with
    | zero => exact absurd hl (by simp)
    | succ n =>
      have hc : c ≠ 10 := fun e => h (by simp [e])
      rw [List.cons_append, fgetsLen, if_neg hc, ih (fun h' => h (.tail _ h')) (by simpa using hl)]
      rfl

theorem fgetsLen_full {l rest : List Byte} (h : 10 ∉ l) : fgetsLen l.length (l ++ rest) = l.length := by
  induction l with
  | nil => rfl
  | cons c l ih =>
    have hc : c ≠ 10 := fun e => h (by simp [e])
    rw [List.cons_append, List.length_cons, fgetsLen, if_neg hc, ih (fun h' => h (.tail _ h'))]

theorem fgetsLen_last {n : Nat} {l : List Byte} (h : 10 ∉ l) (hl : l.length ≤ n) : fgetsLen n l = l.length := by
  induction l generalizing n with
  | nil => cases n <;> rfl
  | cons c l ih =>
    cases n with
    | zero => exact absurd hl (by simp)
    | succ n =>
      have hc : c ≠ 10 := fun e => h (by simp [e])
      rw [fgetsLen, if_neg hc, ih (fun h' => h (.tail _ h')) (by simpa using hl)]
      rfl

theorem takeWhile_isStr (l r : List Byte) : IsStr (l ++ 0 :: r) (l.takeWhile (· != 0)) := by
  induction l with
  | nil => exact ⟨r, rfl, by simp⟩
  | cons c l ih =>
    by_cases hc : c = 0
    · subst hc
      exact ⟨l ++ 0 :: r, by simp, by simp⟩
    · obtain ⟨r', e, h0⟩ := ih
      refine ⟨r', ?_, takeWhile_nz _⟩
      rw [List.takeWhile_cons, if_pos (by simpa using hc), List.cons_append, e]
      rfl

/-- The buffer after `fgets`: the bytes taken, then a NUL. -/
theorem fgetsBuf_spec {content : List Byte} (hb : 255 ≤ b.length) :
    ∃ x, fgetsBuf b (fgetsLen 254 content) content = .ok x ∧ IsStr x ((content.take (fgetsLen 254 content)).takeWhile (· != 0)) := by
  have hle := fgetsLen_le 254 content
  refine ⟨content.take (fgetsLen 254 content) ++ 0 :: b.drop ((content.take (fgetsLen 254 content)).length + 1), ?_, takeWhile_isStr _ _⟩
  unfold fgetsBuf strcpy wrs
  rw [if_pos (by simp; omega)]
  simp

theorem takeWhile_newline {l : List Byte} : (l ++ [10]).takeWhile (· != (0 : Byte)) = l.takeWhile (· != 0) ∨ (l ++ [10]).takeWhile (· != (0 : Byte)) = l.takeWhile (· != 0) ++ [10] := by
  induction l with
  | nil => right; rfl
  | cons c l ih =>
    by_cases hc : c = 0
    · subst hc; left; rfl
    · have : (c != 0) = true := by simpa using hc
      rw [List.cons_append, List.takeWhile_cons, if_pos this, List.takeWhile_cons, if_pos this]
      rcases ih with h | h
      · left; rw [h]
      · right; rw [h]; rfl

theorem text_newline {l t : List Byte} (h : Text l t) : Text (l ++ [10]) t := by
  obtain ⟨r, ⟨p, h1, h2, h3⟩, h'⟩ := h
  refine ⟨r, ?_, h'⟩
  rcases takeWhile_newline (l := l) with e | e
  · rw [e]; exact ⟨p, h1, h2, h3⟩
  · rw [e]
    refine ⟨p ++ [10], by rw [h1, List.append_assoc], ?_, h3⟩
    intro c hc
    rcases List.mem_append.1 hc with hc | hc
    · exact h2 c hc
    · rw [List.mem_singleton.1 hc]; decide

theorem text_nz {l t : List Byte} (h : Text l t) : 0 ∉ t := by
  obtain ⟨r, ⟨p, h1, -, -⟩, ⟨p', h1', -, -⟩⟩ := h
  have h0 := takeWhile_nz l
  rw [h1, h1'] at h0
  exact fun h => h0 (by simp [h])

/-- One round of the loop. -/
theorem fileLoop_round {content t : List Byte} {L : Line} {p : Prog σ} (hb : 255 ≤ b.length) (hc : content ≠ []) (ht : Text (content.take (fgetsLen 254 content)) t) (hM : Means t L) :
    fileLoop W modPath stat b full content p = (do
      let p ← act W modPath stat full L p
      fileLoop W modPath stat b full (content.drop (fgetsLen 254 content)) p) := by
  cases content with
  | nil => exact absurd rfl hc
  | cons c s =>
    obtain ⟨x, h1, h2⟩ := fgetsBuf_spec (content := c :: s) hb
    obtain ⟨r, hr, hl⟩ := ht
    rw [fileLoop]
    simp only [h1, liftB, bind, Except.bind, parseLine_spec h2 hr hl hM]

theorem text_exists (l : List Byte) : ∃ t L, Text l t ∧ Means t L := by
  have h1 := rtrim_rtrim (l.takeWhile (· != 0))
  have h2 := ltrim_ltrim (rtrim (l.takeWhile (· != 0)))
  obtain ⟨p, e1, e2, e3⟩ := h1
  obtain ⟨p', e1', e2', e3'⟩ := h2
  have hlast : ∀ c ∈ (ltrim (rtrim (l.takeWhile (· != 0)))).getLast?, isspace c = false := by
    intro c hc
    refine e3 c ?_
    rw [e1', List.getLast?_append, Option.mem_def.1 hc]
    rfl
  obtain ⟨L, hL⟩ := means_total e3' hlast
  exact ⟨_, L, ⟨_, ⟨p, e1, e2, e3⟩, ⟨p', e1', e2', e3'⟩⟩, hL⟩

/-- C46, the part that holds: for a file whose lines are not longer than 254 bytes, the loop carries out exactly its lines, in order: it ends normally exactly if that does, with the same
plugins and the same two counts.  Missing: longer lines (`long_line_split`); the rule `other` of `Means` (`alias_absolute_ignored`). -/
theorem file_spec_partial {content : List Byte} {ls : List (List Byte)} {Ls : List Line} {p q : Prog σ} (hb : 255 ≤ b.length) (hf : 4096 ≤ full.length) (hm : 0 ∉ modPath)
    (hl : Lines content ls) (hr : Read ls Ls) : fileLoop W modPath stat b full content p = .ok q ↔ Exec W modPath stat Ls p q := by
  induction hl generalizing Ls p with
  | nil =>
    cases hr
    rw [fileLoop]
    constructor
    · intro h; cases h; exact .nil _
    · intro h; cases h; rfl
  | last l hne h10 hlen =>
    cases hr with
    | cons ht hM hr =>
      cases hr
      have e := fgetsLen_last h10 hlen
      rw [fileLoop_round hb hne (by rw [e, List.take_length]; exact ht) hM, e, List.drop_length, ← act_exec (means_good hM (text_nz ht)) hm hf]
      cases ha : act W modPath stat full _ p with
      | error x => exact ⟨(fun h => nomatch h), (fun ⟨_, h, _⟩ => nomatch h)⟩
      | ok p' =>
        show fileLoop W modPath stat b full [] p' = _ ↔ _
        rw [fileLoop]
        constructor
        · intro h; cases h; exact ⟨_, rfl, .nil _⟩
        · rintro ⟨_, h, h'⟩; cases h; cases h'; rfl
  | line l rest ls h10 hlen _ ih =>
    cases hr with
    | cons ht hM hr =>
      rw [← act_exec (means_good hM (text_nz ht)) hm hf]
      by_cases hlt : l.length < 254
      · have e := fgetsLen_line (rest := rest) h10 hlt
        have e1 : (l ++ 10 :: rest).take (l.length + 1) = l ++ [10] := by
          rw [show l ++ 10 :: rest = (l ++ [10]) ++ rest by simp]
          exact List.take_left' (by simp)
        have e2 : (l ++ 10 :: rest).drop (l.length + 1) = rest := by
          rw [show l ++ 10 :: rest = (l ++ [10]) ++ rest by simp]
          exact List.drop_left' (by simp)
        rw [fileLoop_round hb (by simp) (by rw [e, e1]; exact text_newline ht) hM, e, e2]
        cases ha : act W modPath stat full _ p with
        | error x => exact ⟨(fun h => nomatch h), (fun ⟨_, h, _⟩ => nomatch h)⟩
        | ok p' =>
          show fileLoop W modPath stat b full rest p' = _ ↔ _
          rw [ih hr]
          constructor
          · intro h; exact ⟨_, rfl, h⟩
          · rintro ⟨_, h, h'⟩; cases h; exact h'
      · have hl : l.length = 254 := by omega
        have e : fgetsLen 254 (l ++ 10 :: rest) = l.length := by
          have := fgetsLen_full (rest := 10 :: rest) h10
          rwa [hl] at this ⊢
        have e1 : (l ++ 10 :: rest).take l.length = l := by simp
        have e2 : (l ++ 10 :: rest).drop l.length = 10 :: rest := by simp
        rw [fileLoop_round hb (by simp) (by rw [e, e1]; exact ht) hM, e, e2]
        cases ha : act W modPath stat full _ p with
        | error x => exact ⟨(fun h => nomatch h), (fun ⟨_, h, _⟩ => nomatch h)⟩
        | ok p' =>
          show fileLoop W modPath stat b full (10 :: rest) p' = _ ↔ _
          have e3 : fgetsLen 254 (10 :: rest) = 1 := by simp [fgetsLen]
          have ht' : Text [10] [] := ⟨[], ⟨[10], rfl, by decide, by simp⟩, ⟨[], rfl, by simp, by simp⟩⟩
          rw [fileLoop_round hb (by simp) (by rw [e3]; exact ht') .blank, e3]
          show fileLoop W modPath stat b full rest p' = _ ↔ _
          rw [ih hr]
          constructor
          · intro h; exact ⟨_, rfl, h⟩
          · rintro ⟨_, h, h'⟩; cases h; exact h'

/-- Every file whose lines are short enough is read: the rules cover all lines. -/
theorem read_total (ls : List (List Byte)) : ∃ Ls, Read ls Ls := by
  induction ls with
  | nil => exact ⟨[], .nil⟩
  | cons l ls ih =>
    obtain ⟨Ls, h⟩ := ih
    obtain ⟨t, L, h1, h2⟩ := text_exists l
    exact ⟨L :: Ls, .cons h1 h2 h⟩

/-- C46: no file, however long its lines, makes the loop leave a buffer. -/
theorem file_no_overrun {content : List Byte} {p : Prog σ} {x : C.Fault} (hb : 255 ≤ b.length) (hf : 4096 ≤ full.length) (hm : 0 ∉ modPath) :
    fileLoop W modPath stat b full content p ≠ .error (.buf x) := by
  induction hn : content.length using Nat.strongRecOn generalizing content p with
  | _ n ih =>
    cases content with
    | nil => rw [fileLoop]; intro h; cases h
    | cons c s =>
      obtain ⟨t, L, h1, h2⟩ := text_exists ((c :: s).take (fgetsLen 254 (c :: s)))
      rw [fileLoop_round hb (by simp) h1 h2]
      have hpos : 0 < fgetsLen 254 (c :: s) := fgetsLen_pos 253 c s
      intro h
      cases ha : act W modPath stat full L p with
      | ok p' =>
        rw [ha] at h
        exact ih _ (by rw [← hn]; simp only [List.length_drop, List.length_cons]; omega) rfl h
      | error e =>
        rw [ha] at h
        cases h
        have hg := means_good h2 (text_nz h1)
        cases L with
        | skip => cases ha
        | load al f =>
          rcases act_load (W := W) (stat := stat) (p := p) hg hm hf with ⟨path, -, e⟩ | ⟨-, -, -, e⟩
          · rw [e] at ha
            simp only [bind, Except.bind, liftE] at ha
            split at ha
            · next hl => split at hl <;> cases hl; cases ha
            · cases ha
          · rw [e] at ha; cases ha

/-- Finding: of a line longer than 254 bytes the first 254 are a line of their own, and the rest is another (core/metamod.cpp:264-267). -/
theorem long_line_split {l rest t : List Byte} {L : Line} {p : Prog σ} (hb : 255 ≤ b.length) (hlen : l.length = 254) (h10 : 10 ∉ l) (ht : Text l t) (hM : Means t L) :
    fileLoop W modPath stat b full (l ++ rest) p = (do
      let p ← act W modPath stat full L p
      fileLoop W modPath stat b full rest p) := by
  have e : fgetsLen 254 (l ++ rest) = l.length := by
    have := fgetsLen_full (rest := rest) h10
    rwa [hlen] at this ⊢
  rw [fileLoop_round hb (by intro h; rw [List.append_eq_nil_iff] at h; rw [h.1] at hlen; cases hlen) (by rw [e]; simpa using ht) hM, e]
  simp

/-- 254 bytes "a" and then "b" without a newline between them: two files. -/
example : Text (List.replicate 254 97) (List.replicate 254 97) ∧ Means (List.replicate 254 97) (.load none (List.replicate 254 97)) ∧ (10 : Byte) ∉ List.replicate 254 (97 : Byte) := by
  refine ⟨⟨List.replicate 254 97, ⟨[], ?_, by simp, by decide⟩, ⟨[], (List.nil_append _).symm, by simp, by decide⟩⟩, .single _ (by decide) (by decide) (by decide) (by decide) ?_, by decide⟩
  · rw [List.takeWhile_replicate, List.append_nil]; simp
  · intro c hc; rw [List.eq_of_mem_replicate hc]; decide

end

/-- Three lines: `; x`, `a  b` and `"c d" e`: the alias `a` for `b` and the file `c d`. -/
example : ∃ ls, Lines ([59, 32, 120, 10] ++ [97, 32, 32, 98, 13, 10] ++ [32, 34, 99, 32, 100, 34, 101]) ls ∧ Read ls [.skip, .load (some [97]) [98], .load none [99, 32, 100]] := by
  refine ⟨[[59, 32, 120], [97, 32, 32, 98, 13], [32, 34, 99, 32, 100, 34, 101]],
    .line [59, 32, 120] _ _ (by decide) (by decide) (.line [97, 32, 32, 98, 13] _ _ (by decide) (by decide) (.last _ (by simp) (by decide) (by decide))), ?_⟩
  refine .cons (t := [59, 32, 120]) ⟨[59, 32, 120], ⟨[], by simp, by simp, by decide⟩, ⟨[], by simp, by simp, by decide⟩⟩ (.semicolon _) ?_
  refine .cons (t := [97, 32, 32, 98]) ⟨[97, 32, 32, 98], ⟨[13], by simp, by decide, by decide⟩, ⟨[], by simp, by simp, by decide⟩⟩
    (.aliased [97] [98] [32, 32] (by simp) (by simp) (by simp) (by decide) (by decide) (by simp) (by decide) ⟨98, rfl, rfl⟩) ?_
  refine .cons (t := [34, 99, 32, 100, 34, 101]) ⟨[32, 34, 99, 32, 100, 34, 101], ⟨[], by simp, by simp, by decide⟩, ⟨[32], by simp, by decide, by decide⟩⟩
    (.quoted [99, 32, 100] [34, 101] (by simp) (by decide) (.inr rfl)) .nil

/-- Finding, against C46: on a line `alias path` whose path does not start with a letter, e.g. an absolute one, no alias is set and the alias is loaded as the
path (core/metamod.cpp:313-317). -/
theorem alias_absolute_ignored {b : Buf} {a sp p : List Byte} {c : Byte} (h : IsStr b (a ++ sp ++ c :: p)) (ha : a ≠ []) (h1 : a.head? ≠ some 59) (h2 : a.head? ≠ some 34)
    (h3 : ¬ [47, 47] <+: a) (has : ∀ x ∈ a, isspace x = false) (hsp : sp ≠ []) (hall : ∀ x ∈ sp, isspace x = true) (hs : isspace c = false) (hc : isalpha c = false)
    (hl : ∀ x ∈ (c :: p).getLast?, isspace x = false) : parseLine b = .ok (.load none a) := by
  refine parseLine_spec h (u := a ++ sp ++ c :: p) ⟨[], by simp, by simp, ?_⟩ ⟨[], by simp, by simp, ?_⟩ (.other a (c :: p) sp ha h1 h2 h3 has hsp hall ⟨c, rfl, hs, hc⟩)
  · intro x hx
    refine hl x ?_
    rw [List.getLast?_append] at hx
    cases e : (c :: p).getLast? with
    | none => rw [List.getLast?_eq_none_iff] at e; cases e
    | some y => rw [e] at hx; exact hx
  · intro x hx
    cases a with
    | nil => exact absurd rfl ha
    | cons y a => cases hx; exact has _ (by simp)

/-- `a /b`: the file `a`. -/
example : parseLine [97, 32, 47, 98, 0] = .ok (.load none [97]) :=
  alias_absolute_ignored (a := [97]) (sp := [32]) (c := 47) (p := [98]) ⟨[], rfl, by decide⟩ (by simp) (by simp) (by simp) (by decide) (by decide) (by simp) (by decide) rfl rfl (by decide)

/-! ### with the plugin manager -/

open Mgr in
theorem findById_of {s : Mgr.St} {o : Nat} {p : Mgr.Plug} (hi : Mgr.IdInv s) (hp : s.objs o = some p) : ∀ l : List Nat, (∀ x ∈ l, x ∈ s.plugins) → o ∈ l → o ∈ s.plugins → Mgr.findById s p.id l = .ok (some o) := by
  intro l
  induction l with
  | nil => intro _ h; cases h
  | cons a as ih =>
    intro hsub hmem ho
    rw [Mgr.findById]
    cases ea : s.objs a with
    | none => exact absurd ea (hi.live a (hsub a (.head _)))
    | some q =>
      rw [Mgr.get_of ea]
      simp only [bind, Except.bind]
      split
      · next e => rw [hi.inj a (hsub a (.head _)) o ho q p ea hp e]
      · next e =>
        refine ih (fun x hx => hsub x (.tail _ hx)) ?_ ho
        rcases List.mem_cons.1 hmem with h | h
        · subst h; rw [hp] at ea; cases ea; exact absurd rfl e
        · exact h

/-- C46: a line whose file is loaded already, under any spelling, changes nothing and counts as skipped, whatever the system and the callbacks would do. -/
theorem loaded_skipped {s : Mgr.St} (h : Mgr.Reach true s) {o : Nat} {pl : Mgr.Plug} (ho : o ∈ s.plugins) (hp : s.objs o = some pl) (hl : Mgr.Loaded pl.status)
    {modPath f path full : List Byte} {stat : List Byte → Bool} (hpath : PathOf modPath stat 4096 f path) (hsame : Util.collapse path = Util.collapse pl.file)
    (hf0 : f ≠ []) (hf1 : 0 ∉ f) (hm : 0 ∉ modPath) (hfull : 4096 ≤ full.length) (b : Mgr.Beh) (fuel : Nat) (oc : List Byte → Mgr.Outcome) (t k : Nat) :
    act (mgrWorld b fuel oc) modPath stat full (.load none f) ⟨s, t, k⟩ = .ok ⟨s, t, k + 1⟩ := by
  have e : (mgrWorld b fuel oc).load path s = .ok (s, true, true) := by
    show mgrLoad b fuel oc path s = _
    unfold mgrLoad
    rw [Mgr.load_loaded h ho hp hl hsame]
    have hid := (h.id.range o ho pl hp).1
    simp only [bind, Except.bind]
    rw [if_neg (by omega), findById_of h.id hp _ (fun x hx => hx) ho ho]
    dsimp only
    rw [Mgr.get_of hp]
    rcases hl with hl | hl <;> simp only [hl, Mgr.belowPaused] <;> rfl
  rcases act_load (W := mgrWorld b fuel oc) (stat := stat) (full := full) (p := ⟨s, t, k⟩) (al := none) (f := f) ⟨hf0, hf1⟩ hm hfull with ⟨path', hp', ha⟩ | ⟨hn, _⟩
  · cases hpath.unique hp'
    rw [ha]
    dsimp only
    rw [e]
    rfl
  · exact absurd ⟨_, hpath⟩ hn

/-- A plugin loaded from "/b" and a line "//b" in another spelling, here with quotes around it. -/
example : ∃ s o pl, Mgr.Reach true s ∧ o ∈ s.plugins ∧ s.objs o = some pl ∧ Mgr.Loaded pl.status ∧
    PathOf [109] (fun _ => true) 4096 [47, 47, 98] [47, 47, 98] ∧ Util.collapse [47, 47, 98] = Util.collapse pl.file ∧ [47, 47, 98] ≠ pl.file := by
  let prog : Mgr.Scr := .op (.load [47, 98] (Mgr.good 10)) Mgr.yes (.ret true)
  have h : (match Mgr.exec 10 prog Mgr.init with
    | .ok (s, _) => some (s.plugins, (s.objs 0).map (fun p => (p.status, p.file)))
    | .error _ => none) = some ([0], some (.running, [47, 98])) := by rfl
  cases e : Mgr.exec 10 prog Mgr.init with
  | error _ => rw [e] at h; cases h
  | ok x =>
    rw [e] at h
    obtain ⟨s, b⟩ := x
    injection h with h
    injection h with h1 h
    cases e1 : s.objs 0 with
    | none => rw [e1] at h; cases h
    | some p =>
      rw [e1] at h
      injection h with h
      injection h with h2 h3
      refine ⟨s, 0, p, ⟨10, prog, b, ⟨fun c n => trivial, trivial⟩, e⟩, ?_, e1, .inl h2, .absolute [47, 47, 98] (.inl rfl) (by decide), ?_, ?_⟩
      · rw [h1]; simp
      · rw [h3]; decide
      · rw [h3]; decide

theorem scan_new {s : Mgr.St} {file : List Byte} : ∀ (l kept : List Nat) (al : Bool) (r : List Nat × Bool × Option Nat), Mgr.scan s file kept l al = .ok r →
    (∀ a ∈ l, ∀ q, s.objs a = some q → Util.collapse file ≠ Util.collapse q.file) → r.2.1 = al := by
  intro l
  induction l with
  | nil => intro kept al r h _; rw [Mgr.scan] at h; cases h; rfl
  | cons a as ih =>
    intro kept al r h hn
    rw [Mgr.scan] at h
    cases ea : s.objs a with
    | none => unfold Mgr.St.get at h; rw [ea] at h; cases h
    | some q =>
      rw [Mgr.get_of ea] at h
      simp only [bind, Except.bind] at h
      rw [if_neg (by unfold Mgr.samePath; simpa using hn a (.head _) q ea)] at h
      exact ih _ _ _ h (fun a ha => hn a (.tail _ ha))

/-- C46: a file that no plugin in the list has is not counted as skipped. -/
theorem new_not_skipped {s : Mgr.St} {path : List Byte} (hn : ∀ o ∈ s.plugins, ∀ q, s.objs o = some q → Util.collapse path ≠ Util.collapse q.file)
    {b : Mgr.Beh} {fuel : Nat} {oc : List Byte → Mgr.Outcome} {s' : Mgr.St} {ok already : Bool} (h : (mgrWorld b fuel oc).load path s = .ok (s', ok, already)) : already = false := by
  have h : mgrLoad b fuel oc path s = _ := h
  unfold mgrLoad at h
  cases hl : Mgr.load b fuel path (oc path) s with
  | error x => rw [hl] at h; cases h
  | ok r =>
    have hal : r.2.2 = false := by
      unfold Mgr.load at hl
      cases hs : Mgr.scan s path [] s.plugins false with
      | error x => rw [hs] at hl; cases hl
      | ok x =>
        have := scan_new _ _ _ _ hs hn
        rw [hs] at hl
        simp only [bind, Except.bind] at hl
        split at hl
        · cases hl; exact this
        · split at hl
          · cases hl
          · split at hl
            · cases hl
            · split at hl
              · cases hl
              · cases hl; exact this
    rw [hl] at h
    simp only [bind, Except.bind] at h
    split at h
    · cases h; exact hal
    · split at h
      · cases h
      · split at h
        · cases h
        · split at h
          · cases h
          · split at h
            · cases h
            · cases h; exact hal

/-- An empty manager, a plugin that loads. -/
example : (∀ o ∈ Mgr.init.plugins, ∀ q, Mgr.init.objs o = some q → Util.collapse [97] ≠ Util.collapse q.file) ∧
    ∃ s', (mgrWorld (fun c n s => Mgr.exec 10 (Mgr.yes c n) s) 10 (fun _ => Mgr.good 11)).load [97] Mgr.init = .ok (s', true, false) :=
  ⟨fun _ ho => (nomatch ho), _, rfl⟩

/-- Finding, against C46: a file whose plugin failed before and is loaded now counts as skipped (`already` of core/metamod_plugins.cpp:161-166). -/
theorem failed_counted_skipped : (do
    let r ← Mgr.exec 10 (.op (.load [97] (Mgr.good 10)) Mgr.no (.ret true)) Mgr.init
    let x ← mgrLoad (fun c n s => Mgr.exec 10 (Mgr.yes c n) s) 10 (fun _ => Mgr.good 11) [97] r.1
    Except.ok (r.1.plugins.map (fun o => (r.1.objs o).map (·.status)), x.2, x.1.plugins.map (fun o => (x.1.objs o).map (·.status))) :
      Mgr.R (List (Option Mgr.Status) × (Bool × Bool) × List (Option Mgr.Status))) = .ok ([some .refused], (true, true), [some .running]) := by rfl

#print axioms parseLine_spec
#print axioms means_total
#print axioms file_spec_partial
#print axioms read_total
#print axioms file_no_overrun
#print axioms long_line_split
#print axioms alias_absolute_ignored
#print axioms loaded_skipped
#print axioms new_not_skipped
#print axioms failed_counted_skipped

end Verif.PFile
