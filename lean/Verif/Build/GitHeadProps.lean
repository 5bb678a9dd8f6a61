import Verif.Build.GitHead
/-
C113: the files whose change makes the build find out the commit anew.
-/
namespace Verif.GitHead
open Verif.Search (Path join)

/-! ### specification -/

/-- Specification: a name of a branch as git allows: not empty, without colons and white space, not beginning with a slash. No counterpart in
/repo. -/
def Ref (r : Path) : Prop := r ≠ [] ∧ ':' ∉ r ∧ (∀ c ∈ r, ws c = false) ∧ r.head? ≠ some '/'

/-- Specification: a file in a directory. No counterpart in /repo. -/
def within (d f : Path) : Path := d ++ '/' :: f

/-- Specification: a directory without a slash at its end. No counterpart in /repo. -/
def Dir (d : Path) : Prop := d ≠ [] ∧ d.getLast? ≠ some '/'

/-- Specification: the line of `.git/HEAD` on a branch. No counterpart in /repo: git. -/
def line (r : Path) : Path := "ref: ".toList ++ r ++ ['\n']

/-- Specification: a hash of a commit. No counterpart in /repo: git. -/
def Hash (h : Path) : Prop := h.length = 40 ∧ ∀ c ∈ h, hexDigit c = true

/-- Specification: the line with the commit: that of the branch `.git/HEAD` names, from its file or else from the packed branches, or that
in `.git/HEAD` itself. No counterpart in /repo: git. -/
def commit (git : Path) (S : Repo) : Option Path :=
  match S.files (within git "HEAD".toList) with
  | none => none
  | some c =>
    if c.take 5 = "ref: ".toList then (S.files (within git (c.drop 5).dropLast)).or (S.packed (c.drop 5).dropLast) else some c

/-- Specification: a repository whose `.git/HEAD` names a branch with a file of its own, or is a hash. No counterpart in /repo: git. -/
def Plain (git : Path) (S : Repo) : Prop :=
  (∃ r, Ref r ∧ S.files (within git "HEAD".toList) = some (line r) ∧ (S.files (within git r)).isSome = true) ∨
  ∃ h, Hash h ∧ S.files (within git "HEAD".toList) = some (h ++ ['\n'])

/-! ### helpers -/

private theorem dropWhile_all {f : Char → Bool} : ∀ {l r : Path}, (∀ c ∈ l, f c = true) → (l ++ r).dropWhile f = r.dropWhile f
  | [], _, _ => rfl
  | c :: l, r, h => by
    rw [List.cons_append, List.dropWhile_cons_of_pos (h c List.mem_cons_self)]
    exact dropWhile_all fun x hx => h x (List.mem_cons_of_mem _ hx)

private theorem dropWhile_head {f : Char → Bool} : ∀ {l : Path}, (∀ c ∈ l.head?, f c = false) → l.dropWhile f = l
  | [], _ => rfl
  | c :: l, h => List.dropWhile_cons_of_neg (by rw [h c rfl]; decide)

/-- White space around a text that has none at its ends is taken off. -/
private theorem strip_around {a s b : Path} (ha : ∀ c ∈ a, ws c = true) (hb : ∀ c ∈ b, ws c = true) (hs : s ≠ [])
    (h1 : ∀ c ∈ s.head?, ws c = false) (h2 : ∀ c ∈ s.getLast?, ws c = false) : strip (a ++ s ++ b) = s := by
  unfold strip
  rw [List.append_assoc, dropWhile_all ha, dropWhile_head (l := s ++ b), List.reverse_append,
    dropWhile_all (fun c hc => hb c (List.mem_reverse.mp hc)), dropWhile_head, List.reverse_reverse]
  · intro c hc
    rw [List.head?_reverse] at hc
    exact h2 c hc
  · intro c hc
    cases s with
    | nil => exact absurd rfl hs
    | cons x s => exact h1 c hc

private theorem split_colon : ∀ {a b : Path}, ':' ∉ a → (a ++ ':' :: b).dropWhile (· ≠ ':') = ':' :: b
  | [], _, _ => by simp
  | c :: a, b, h => by
    have hc : c ≠ ':' := fun e => h (e ▸ List.mem_cons_self)
    rw [List.cons_append, List.dropWhile_cons_of_pos (by simpa using hc)]
    exact split_colon fun hm => h (List.mem_cons_of_mem _ hm)

private theorem takeWhile_none : ∀ {a : Path}, ':' ∉ a → a.takeWhile (· ≠ ':') = a
  | [], _ => rfl
  | c :: a, h => by
    have hc : c ≠ ':' := fun e => h (e ▸ List.mem_cons_self)
    rw [List.takeWhile_cons_of_pos (by simpa using hc), takeWhile_none fun hm => h (List.mem_cons_of_mem _ hm)]

private theorem dropWhile_none : ∀ {a : Path}, ':' ∉ a → a.dropWhile (· ≠ ':') = []
  | [], _ => rfl
  | c :: a, h => by
    have hc : c ≠ ':' := fun e => h (e ▸ List.mem_cons_self)
    rw [List.dropWhile_cons_of_pos (by simpa using hc)]
    exact dropWhile_none fun hm => h (List.mem_cons_of_mem _ hm)

private theorem join_within {d f : Path} (hd : Dir d) (hf : f.head? ≠ some '/') : join d f = within d f := by
  unfold join within
  rw [if_neg hf, if_neg]
  rintro (h | h)
  · exact hd.1 h
  · exact hd.2 h

private theorem hex_ws {c : Char} (h : hexDigit c = true) : ws c = false ∧ c ≠ ':' := by
  constructor
  · rw [Bool.eq_false_iff]
    intro hw
    unfold ws at hw
    simp only [Bool.or_eq_true, decide_eq_true_eq] at hw
    rcases hw with ((((rfl | rfl) | rfl) | rfl) | rfl) | rfl <;> exact absurd h (by decide)
  · rintro rfl
    exact absurd h (by decide)

private theorem strip_line {s : Path} (hs : s ≠ []) (h : ∀ c ∈ s, ws c = false) : strip (s ++ ['\n']) = s := by
  have := strip_around (a := []) (s := s) (b := ['\n']) (by simp) (by decide) hs
    (fun c hc => h c (List.mem_of_mem_head? hc)) (fun c hc => h c (List.mem_of_getLast? hc))
  simpa using this

/-! ### theorems -/

/-- C113: on a branch the file of the branch is watched if there is one, else `.git/HEAD`, as if the branches are packed. -/
theorem branch_watched (there : Path → Bool) {git r : Path} (hg : Dir git) (hr : Ref r) :
    headPath there git ("ref: ".toList ++ r ++ ['\n']) =
      some (if there (within git r) then within git r else within git "HEAD".toList) := by
  obtain ⟨hne, hcol, hws, hsl⟩ := hr
  have hlast : ∀ c ∈ ("ref: ".toList ++ r).getLast?, ws c = false := by
    intro c hc
    rw [List.getLast?_append, List.getLast?_eq_some_getLast hne] at hc
    have e : r.getLast hne = c := Option.some.inj hc
    exact hws c (e ▸ List.getLast_mem hne)
  have h1 : strip ("ref: ".toList ++ r ++ ['\n']) = "ref: ".toList ++ r := by
    have := strip_around (a := []) (s := "ref: ".toList ++ r) (b := ['\n']) (by simp) (by decide) (by simp)
      (fun c hc => by
        have : c = 'r' := (Option.some.inj hc).symm
        rw [this]; decide) hlast
    simpa using this
  have h2 : isHash ("ref: ".toList ++ r) = false := by
    have : ("ref: ".toList ++ r).all hexDigit = false := by
      rw [show "ref: ".toList = 'r' :: "ef: ".toList from by decide, List.cons_append, List.all_cons,
        show hexDigit 'r' = false from by decide, Bool.false_and]
    unfold isHash
    rw [this, Bool.and_false]
  have h3 : second ("ref: ".toList ++ r) = some (' ' :: r) := by
    have e : "ref: ".toList ++ r = "ref".toList ++ ':' :: (' ' :: r) := by
      rw [show "ref: ".toList = "ref".toList ++ [':', ' '] from by decide, List.append_assoc]
      rfl
    unfold second
    rw [e, split_colon (by decide)]
    dsimp only
    rw [takeWhile_none]
    rw [List.mem_cons]
    rintro (h | h)
    · exact absurd h (by decide)
    · exact hcol h
  have h4 : strip (' ' :: r) = r := by
    have := strip_around (a := [' ']) (s := r) (b := []) (by decide) (by simp) hne
      (fun c hc => hws c (List.mem_of_mem_head? hc)) (fun c hc => hws c (List.mem_of_getLast? hc))
    simpa using this
  unfold headPath
  rw [h1, h2, h3, Option.map_some, h4, join_within hg hsl, join_within hg (by decide)]
  rfl

/-- C113: on a commit of its own `.git/HEAD` is watched. -/
theorem detached_watched (there : Path → Bool) {git h : Path} (hg : Dir git) (hl : h.length = 40) (hh : ∀ c ∈ h, hexDigit c = true) :
    headPath there git (h ++ ['\n']) = some (within git "HEAD".toList) := by
  have hne : h ≠ [] := by
    rintro rfl
    exact absurd hl (by decide)
  unfold headPath
  rw [strip_line hne fun c hc => (hex_ws (hh c hc)).1, if_pos, join_within hg (by decide)]
  unfold isHash
  rw [List.all_eq_true.mpr hh, hl]
  rfl

/-- C113, finding: in a repository with hashes of another length, as those of SHA-256 with 64 digits, the build script fails on a commit of
its own: there is no colon to split at. -/
theorem long_hash_fails (there : Path → Bool) (git : Path) {h : Path} (hn : h ≠ []) (hl : h.length ≠ 40) (hh : ∀ c ∈ h, hexDigit c = true) :
    headPath there git (h ++ ['\n']) = none := by
  have h2 : isHash h = false := by
    unfold isHash
    simp [hl]
  have h3 : second h = none := by
    unfold second
    rw [dropWhile_none fun hc => (hex_ws (hh _ hc)).2 rfl]
  unfold headPath
  rw [strip_line hn fun c hc => (hex_ws (hh c hc)).1, h2, h3]
  rfl

private theorem head_within {git : Path} (hg : Dir git) : join git "HEAD".toList = within git "HEAD".toList := join_within hg (by decide)

private theorem line_parts (r : Path) : (line r).take 5 = "ref: ".toList ∧ ((line r).drop 5).dropLast = r := by
  have e : line r = "ref: ".toList ++ (r ++ ['\n']) := List.append_assoc ..
  rw [e]
  refine ⟨List.take_left' (by decide), ?_⟩
  rw [List.drop_left' (by decide), List.dropLast_concat]

private theorem commit_line {git r : Path} {S : Repo} (h : S.files (within git "HEAD".toList) = some (line r)) :
    commit git S = (S.files (within git r)).or (S.packed r) := by
  unfold commit
  rw [h]
  dsimp only
  rw [if_pos (line_parts r).1, (line_parts r).2]

private theorem within_inj {d a b : Path} (h : within d a = within d b) : a = b :=
  (List.cons.inj (List.append_cancel_left h)).2

/-- C113: in a plain repository the scripts of the sample depend on files that cannot all stay as they are when the commit changes. -/
theorem sample_notices {git : Path} {S S' : Repo} (hg : Dir git) (hp : Plain git S) :
    ∃ ws, watchedSample git S = some ws ∧ ((∀ w ∈ ws, S'.files w = S.files w) → commit git S' = commit git S) := by
  rcases hp with ⟨r, hr, hc, hl⟩ | ⟨h, hh, hc⟩
  · refine ⟨[within git "HEAD".toList, within git r], ?_, fun hw => ?_⟩
    · unfold watchedSample
      rw [head_within hg, hc]
      dsimp only
      unfold line
      rw [branch_watched _ hg hr, if_pos hl]
      rfl
    · have h1 := hw _ List.mem_cons_self
      have h2 := hw _ (List.mem_cons_of_mem _ List.mem_cons_self)
      rw [commit_line hc, commit_line (h1.trans hc), h2]
      obtain ⟨x, hx⟩ := Option.isSome_iff_exists.mp hl
      rw [hx]
      rfl
  · refine ⟨[within git "HEAD".toList, within git "HEAD".toList], ?_, fun hw => ?_⟩
    · unfold watchedSample
      rw [head_within hg, hc]
      dsimp only
      rw [detached_watched _ hg hh.1 hh.2]
      rfl
    · have h1 := hw _ List.mem_cons_self
      have hn : ¬ (h ++ ['\n']).take 5 = "ref: ".toList := by
        intro e
        have hm : 'r' ∈ h ++ ['\n'] := List.mem_of_mem_take (e ▸ (by decide : 'r' ∈ "ref: ".toList))
        rcases List.mem_append.mp hm with hm | hm
        · exact absurd (hh.2 _ hm) (by decide)
        · exact absurd hm (by decide)
      unfold commit
      rw [h1, hc]
      dsimp only
      rw [if_neg hn, if_neg hn]

/-- C113: the header of Metamod depends on a file that cannot stay as it is when the commit of a plain repository changes and `.git/HEAD`
does not. Missing: a change of the branch (`switch_missed`) and packed branches (`packed_missed`). -/
theorem main_notices_partial {git : Path} {S S' : Repo} (hg : Dir git) (hp : Plain git S)
    (hs : S'.files (within git "HEAD".toList) = S.files (within git "HEAD".toList)) :
    ∃ ws, watchedMain git S = some ws ∧ ((∀ w ∈ ws, S'.files w = S.files w) → commit git S' = commit git S) := by
  obtain ⟨ws, h1, h2⟩ := sample_notices (S' := S') hg hp
  unfold watchedSample at h1
  unfold watchedMain
  rw [head_within hg] at h1 ⊢
  cases hc : S.files (within git "HEAD".toList) with
  | none => rcases hp with ⟨r, _, h, _⟩ | ⟨r, _, h⟩ <;> rw [hc] at h <;> cases h
  | some c =>
    rw [hc] at h1
    dsimp only at h1
    cases hw : headPath (fun p => (S.files p).isSome) git c with
    | none => rw [hw] at h1; cases h1
    | some w =>
      rw [hw] at h1
      cases h1
      refine ⟨[w], by simp [hw], fun h => h2 ?_⟩
      intro x hx
      rcases List.mem_cons.mp hx with rfl | hx
      · exact hs
      · exact h x hx

/-- Specification: a repository with `.git/HEAD` and the files of two branches. No counterpart in /repo. -/
def twoBranches (git c r h r' h' : Path) : Repo where
  files p := if p = within git "HEAD".toList then some c else if p = within git r then some h else if p = within git r' then some h' else none
  packed _ := none

/-- C113, finding: the header of Metamod is not made anew when one switches to another branch with another commit: the only file of git it
depends on is that of the branch on which the build was configured. -/
theorem switch_missed {git r r' h h' : Path} (hg : Dir git) (hr : Ref r) (hH : r ≠ "HEAD".toList) (hH' : r' ≠ "HEAD".toList) (hne : r' ≠ r)
    (hh : h' ≠ h) :
    ∃ S S' ws, Plain git S ∧ watchedMain git S = some ws ∧ (∀ w ∈ ws, S'.files w = S.files w) ∧ commit git S = some h ∧
      commit git S' = some h' ∧ commit git S' ≠ commit git S := by
  have n1 : within git r ≠ within git "HEAD".toList := fun e => hH (within_inj e)
  have n2 : within git r' ≠ within git "HEAD".toList := fun e => hH' (within_inj e)
  have n3 : within git r' ≠ within git r := fun e => hne (within_inj e)
  have f1 : ∀ c, (twoBranches git c r h r' h').files (within git "HEAD".toList) = some c := fun c => if_pos rfl
  have f2 : ∀ c, (twoBranches git c r h r' h').files (within git r) = some h := fun c => (if_neg n1).trans (if_pos rfl)
  have f3 : ∀ c, (twoBranches git c r h r' h').files (within git r') = some h' := fun c => (if_neg n2).trans ((if_neg n3).trans (if_pos rfl))
  have c1 : commit git (twoBranches git (line r) r h r' h') = some h := by rw [commit_line (f1 _), f2]; rfl
  have c2 : commit git (twoBranches git (line r') r h r' h') = some h' := by rw [commit_line (f1 _), f3]; rfl
  refine ⟨twoBranches git (line r) r h r' h', twoBranches git (line r') r h r' h', [within git r], Or.inl ⟨r, hr, f1 _, ?_⟩, ?_, ?_, c1, c2, ?_⟩
  · rw [f2]; rfl
  · have hb := branch_watched (fun p => ((twoBranches git (line r) r h r' h').files p).isSome) hg hr
    rw [if_pos (by rw [f2]; rfl)] at hb
    unfold watchedMain
    rw [head_within hg, f1]
    show (headPath _ git ("ref: ".toList ++ r ++ ['\n'])).bind _ = _
    rw [hb]
    rfl
  · intro w hw
    rw [List.mem_singleton.mp hw, f2, f2]
  · rw [c1, c2]
    exact fun e => hh (Option.some.inj e)

/-- C113, finding: if the branch is packed when the build is configured, as after `git gc`, neither the header of Metamod nor the sample is made anew at the
next commit: what they depend on is `.git/HEAD`, which still names the branch. -/
theorem packed_missed {git r h h' : Path} (hg : Dir git) (hr : Ref r) (hH : r ≠ "HEAD".toList) (hh : h' ≠ h) :
    ∃ S S' : Repo, watchedMain git S = some [within git "HEAD".toList] ∧
      watchedSample git S = some [within git "HEAD".toList, within git "HEAD".toList] ∧
      S'.files (within git "HEAD".toList) = S.files (within git "HEAD".toList) ∧ commit git S = some h ∧ commit git S' = some h' ∧
      commit git S' ≠ commit git S := by
  have n1 : within git r ≠ within git "HEAD".toList := fun e => hH (within_inj e)
  let S : Repo := ⟨fun p => if p = within git "HEAD".toList then some (line r) else none, fun _ => some h⟩
  let S' : Repo := ⟨fun p => if p = within git "HEAD".toList then some (line r) else if p = within git r then some h' else none, fun _ => some h⟩
  have f1 : S.files (within git "HEAD".toList) = some (line r) := if_pos rfl
  have f1' : S'.files (within git "HEAD".toList) = some (line r) := if_pos rfl
  have f2 : S.files (within git r) = none := if_neg n1
  have f2' : S'.files (within git r) = some h' := (if_neg n1).trans (if_pos rfl)
  have c1 : commit git S = some h := by rw [commit_line f1, f2]; rfl
  have c2 : commit git S' = some h' := by rw [commit_line f1', f2']; rfl
  have hb := branch_watched (fun p => (S.files p).isSome) hg hr
  rw [if_neg (by rw [f2]; decide)] at hb
  refine ⟨S, S', ?_, ?_, f1'.trans f1.symm, c1, c2, ?_⟩
  · unfold watchedMain
    rw [head_within hg, f1]
    show (headPath _ git ("ref: ".toList ++ r ++ ['\n'])).bind _ = _
    rw [hb]
    rfl
  · unfold watchedSample
    rw [head_within hg, f1]
    show (headPath _ git ("ref: ".toList ++ r ++ ['\n'])).map _ = _
    rw [hb]
    rfl
  · rw [c1, c2]
    exact fun e => hh (Option.some.inj e)

/-! ### examples -/

private theorem exDir : Dir "/s/.git".toList := ⟨by decide, by decide⟩

example : headPath (fun _ => true) "/s/.git".toList "ref: refs/heads/master\n".toList = some "/s/.git/refs/heads/master".toList :=
  branch_watched (fun _ => true) (r := "refs/heads/master".toList) exDir ⟨by decide, by decide, by decide, by decide⟩

example : headPath (fun _ => true) "/s/.git".toList (List.replicate 40 'a' ++ ['\n']) = some "/s/.git/HEAD".toList :=
  detached_watched _ exDir (by decide) (by decide)

example : headPath (fun _ => true) "/s/.git".toList (List.replicate 64 'a' ++ ['\n']) = none :=
  long_hash_fails _ _ (by decide) (by decide) (by decide)

private theorem exRef : Ref "refs/heads/a".toList := ⟨by decide, by decide, by decide, by decide⟩

private def exS : Repo := twoBranches "/s/.git".toList (line "refs/heads/a".toList) "refs/heads/a".toList "1".toList "refs/heads/b".toList "2".toList

private theorem exPlain : Plain "/s/.git".toList exS := Or.inl ⟨_, exRef, by decide, by decide⟩

example := sample_notices (S' := exS) exDir exPlain

example := main_notices_partial (S' := exS) exDir exPlain rfl

example := switch_missed (r' := "refs/heads/b".toList) (h := "1".toList) (h' := "2".toList) exDir exRef (by decide) (by decide) (by decide)
  (by decide)

example := packed_missed (h := "1".toList) (h' := "2".toList) exDir exRef (by decide) (by decide)

#print axioms sample_notices
#print axioms main_notices_partial
#print axioms switch_missed
#print axioms packed_missed
#print axioms branch_watched
#print axioms detached_watched
#print axioms long_hash_fails

end Verif.GitHead
