import Verif.Build.Bootstrap
/-
C114: the directory and the environment of configure.py on the build bots.
-/
namespace Verif.Bootstrap

/-! ### specification -/

/-- Specification: what is there is in a directory. No counterpart in /repo: the operating system. -/
def Tree (fs : FS) : Prop := ∀ p x, p ≠ [] → fs (p ++ [x]) ≠ none → fs p = some .dir ∨ fs p = some .link

/-- Specification: both files of a configured build are there. No counterpart in /repo: ambuild. -/
def Configured (fs : FS) : Prop := fs ["OUTPUT", ".ambuild2", "graph"] ≠ none ∧ fs ["OUTPUT", ".ambuild2", "vars"] ≠ none

/-- Specification: nothing is in the directory. No counterpart in /repo. -/
def Empty (fs : FS) : Prop := ∀ x q, fs ("OUTPUT" :: x :: q) = none

/-! ### helpers -/

private theorem tree_none {fs : FS} (ht : Tree fs) {p : List String} (hp : p ≠ []) (hd : isdir fs p = false) :
    ∀ n q, q.length = n → q ≠ [] → fs (p ++ q) = none := by
  have hk : ∀ x, fs (p ++ [x]) = none := by
    intro x
    refine Classical.byContradiction fun h => ?_
    unfold isdir at hd
    rcases ht p x hp h with h | h <;> rw [h] at hd <;> exact absurd hd (by decide)
  intro n
  induction n with
  | zero =>
    intro q hq hn
    exact absurd (List.eq_nil_of_length_eq_zero hq) hn
  | succ n ih =>
    intro q hq hn
    have e : q = q.dropLast ++ [q.getLast hn] := (List.dropLast_concat_getLast hn).symm
    by_cases h0 : q.dropLast = []
    · rw [e, h0]
      exact hk _
    · have hl : q.dropLast.length = n := by rw [List.length_dropLast, hq]; rfl
      have h1 := ih _ hl h0
      refine Classical.byContradiction fun h => ?_
      rw [e, ← List.append_assoc] at h
      rcases ht (p ++ q.dropLast) _ (by simp [hp]) h with h | h <;> rw [h1] at h <;> cases h

private theorem empty_of_not_dir {fs : FS} (ht : Tree fs) (hd : isdir fs ["OUTPUT"] = false) : Empty fs := fun x q =>
  tree_none ht (p := ["OUTPUT"]) (by decide) hd _ (x :: q) rfl (by simp)

private theorem needs_iff {fs : FS} : needsCleaning fs = true ↔ isdir fs ["OUTPUT"] = true ∧ ¬ Configured fs := by
  unfold needsCleaning Configured
  cases isdir fs ["OUTPUT"] <;> cases fs ["OUTPUT", ".ambuild2", "graph"] <;> cases fs ["OUTPUT", ".ambuild2", "vars"] <;> simp

/-- What `prepare` does, by cases. -/
private theorem prepare_cases (fs : FS) :
    (isdir fs ["OUTPUT"] = true ∧ Configured fs ∧ prepare fs = .ok fs) ∨
    (fs ["OUTPUT"] = some .link ∧ ¬ Configured fs ∧ prepare fs = .error .isLink) ∨
    (fs ["OUTPUT"] = some .dir ∧ ¬ Configured fs ∧
      prepare fs = .ok fun q => if q = ["OUTPUT"] then some .dir else if ["OUTPUT"].isPrefixOf q then none else fs q) ∨
    (fs ["OUTPUT"] = some .file ∧ prepare fs = .error .exists_) ∨
    (fs ["OUTPUT"] = none ∧ prepare fs = .ok fun q => if q = ["OUTPUT"] then some .dir else fs q) := by
  have hn := needs_iff (fs := fs)
  unfold prepare
  by_cases hc : Configured fs
  · have h0 : needsCleaning fs = false := by
      rw [Bool.eq_false_iff]
      exact fun h => (hn.mp h).2 hc
    rw [h0]
    cases ho : fs ["OUTPUT"] with
    | none => simp [isdir, ho, makedirs, bind, Except.bind]
    | some k => cases k <;> simp [isdir, ho, makedirs, bind, Except.bind, hc]
  · cases ho : fs ["OUTPUT"] with
    | none =>
      have h0 : needsCleaning fs = false := by
        rw [Bool.eq_false_iff]
        intro h
        have := (hn.mp h).1
        simp [isdir, ho] at this
      rw [h0]
      simp [isdir, ho, makedirs, bind, Except.bind]
    | some k =>
      cases k with
      | file =>
        have h0 : needsCleaning fs = false := by
          rw [Bool.eq_false_iff]
          intro h
          have := (hn.mp h).1
          simp [isdir, ho] at this
        rw [h0]
        simp [isdir, ho, makedirs, bind, Except.bind]
      | dir =>
        have h0 : needsCleaning fs = true := hn.mpr ⟨by simp [isdir, ho], hc⟩
        rw [h0]
        simp [isdir, ho, makedirs, rmtree, bind, Except.bind, hc]
      | link =>
        have h0 : needsCleaning fs = true := hn.mpr ⟨by simp [isdir, ho], hc⟩
        rw [h0]
        simp [ho, rmtree, bind, Except.bind, hc]

/-! ### theorems -/

/-- C114: configure.py is run with a directory OUTPUT that is empty, or that was there with both files of a configured build and is as it
was. -/
theorem prepared {fs fs' : FS} (ht : Tree fs) (h : prepare fs = .ok fs') :
    isdir fs' ["OUTPUT"] = true ∧ (Empty fs' ∨ (Configured fs ∧ fs' = fs)) := by
  rcases prepare_cases fs with ⟨hd, hc, e⟩ | ⟨_, _, e⟩ | ⟨_, _, e⟩ | ⟨_, e⟩ | ⟨ho, e⟩ <;> rw [e] at h <;> cases h
  · exact ⟨hd, Or.inr ⟨hc, rfl⟩⟩
  · refine ⟨by simp [isdir], Or.inl fun x q => ?_⟩
    simp
  · refine ⟨by simp [isdir], Or.inl fun x q => ?_⟩
    have := empty_of_not_dir ht (by simp [isdir, ho]) x q
    simp [this]

/-- C114: a configured build is kept. -/
theorem configured_kept {fs : FS} (hd : isdir fs ["OUTPUT"] = true) (hc : Configured fs) : prepare fs = .ok fs := by
  rcases prepare_cases fs with ⟨_, _, e⟩ | ⟨_, hn, _⟩ | ⟨_, hn, _⟩ | ⟨ho, _⟩ | ⟨ho, _⟩
  · exact e
  · exact absurd hc hn
  · exact absurd hc hn
  · simp [isdir, ho] at hd
  · simp [isdir, ho] at hd

/-- C114: nothing outside OUTPUT is touched. -/
theorem outside_kept {fs fs' : FS} (h : prepare fs = .ok fs') {q : List String} (hq : q.head? ≠ some "OUTPUT") : fs' q = fs q := by
  have h1 : q ≠ ["OUTPUT"] := by
    rintro rfl
    exact hq rfl
  have h2 : ["OUTPUT"].isPrefixOf q = false := by
    cases q with
    | nil => rfl
    | cons x q =>
      have : "OUTPUT" ≠ x := fun e => hq (by rw [e]; rfl)
      simp [List.isPrefixOf, this]
  rcases prepare_cases fs with ⟨_, _, e⟩ | ⟨_, _, e⟩ | ⟨_, _, e⟩ | ⟨_, e⟩ | ⟨_, e⟩ <;> rw [e] at h <;> cases h
  · rfl
  · dsimp only
    rw [if_neg h1, h2]
    rfl
  · exact if_neg h1

/-- C114: the script fails before configure.py exactly if OUTPUT is a file or a link to a directory without a configured build. -/
theorem fails_iff (fs : FS) :
    (∃ e, prepare fs = .error e) ↔ fs ["OUTPUT"] = some .file ∨ (fs ["OUTPUT"] = some .link ∧ ¬ Configured fs) := by
  constructor
  · rintro ⟨x, h⟩
    rcases prepare_cases fs with ⟨_, _, e⟩ | ⟨ho, hc, _⟩ | ⟨_, _, e⟩ | ⟨ho, _⟩ | ⟨_, e⟩
    · rw [e] at h; cases h
    · exact Or.inr ⟨ho, hc⟩
    · rw [e] at h; cases h
    · exact Or.inl ho
    · rw [e] at h; cases h
  · intro hk
    rcases prepare_cases fs with ⟨hd, hc, _⟩ | ⟨_, _, e⟩ | ⟨ho, _, _⟩ | ⟨_, e⟩ | ⟨ho, _⟩
    · rcases hk with hk | hk
      · simp [isdir, hk] at hd
      · exact absurd hc hk.2
    · exact ⟨_, e⟩
    · rw [ho] at hk
      rcases hk with hk | hk
      · cases hk
      · cases hk.1
    · exact ⟨_, e⟩
    · rw [ho] at hk
      rcases hk with hk | hk
      · cases hk
      · cases hk.1

/-- C114: the compilers are those of the bot's configuration where it names them; all else of the environment is passed on. -/
theorem environment (config env : String → Option String) (k : String) :
    buildEnv config env k = if k = "CC" ∨ k = "CXX" then (config k).or (env k) else env k := by
  unfold buildEnv
  simp only [List.foldl_cons, List.foldl_nil]
  by_cases h1 : k = "CC"
  · subst h1
    cases h2 : config "CC" <;> cases h3 : config "CXX" <;> simp
  · by_cases h2 : k = "CXX"
    · subst h2
      cases h3 : config "CC" <;> cases h4 : config "CXX" <;> simp
    · cases h3 : config "CC" <;> cases h4 : config "CXX" <;> simp [h1, h2]

/-! ### examples -/

/-- Specification: a directory with one of the two files. No counterpart in /repo. -/
private def exFs : FS := fun p =>
  if p = ["OUTPUT"] ∨ p = ["OUTPUT", ".ambuild2"] then some .dir else if p = ["OUTPUT", ".ambuild2", "vars"] then some .file else none

private theorem exTree : Tree exFs := by
  intro p x hp h
  unfold exFs at h
  split at h
  · rename_i hx
    rcases hx with hx | hx
    · exact absurd (List.append_eq_singleton_iff.mp hx) (by simp [hp])
    · have : p = ["OUTPUT"] := (List.append_inj' (hx.trans (by rfl : _ = ["OUTPUT"] ++ [".ambuild2"])) rfl).1
      rw [this]
      exact Or.inl rfl
  · split at h
    · rename_i hx
      have : p = ["OUTPUT", ".ambuild2"] := (List.append_inj' (hx.trans (by rfl : _ = ["OUTPUT", ".ambuild2"] ++ ["vars"])) rfl).1
      rw [this]
      exact Or.inl rfl
    · exact absurd rfl h

example : ∃ fs', prepare exFs = .ok fs' ∧ Tree exFs ∧ ¬ Configured exFs := ⟨_, rfl, exTree, fun h => h.1 rfl⟩

example : ∃ fs', prepare exFs = .ok fs' ∧ Empty fs' := by
  refine ⟨_, rfl, ?_⟩
  rcases (prepared exTree rfl).2 with h | h
  · exact h
  · exact absurd rfl h.1.1

example : prepare (fun _ => some .dir) = .ok (fun _ => some .dir) := configured_kept rfl ⟨by simp, by simp⟩

example : ∃ fs', prepare exFs = .ok fs' ∧ fs' ["build"] = exFs ["build"] := ⟨_, rfl, outside_kept (fs := exFs) rfl (by decide)⟩

example : ∃ e, prepare (fun p => if p = ["OUTPUT"] then some .file else none) = .error e := (fails_iff _).mpr (Or.inl rfl)

example : buildEnv (fun k => if k = "CC" then some "clang" else none) (fun _ => some "x") "CC" = some "clang" := by
  rw [environment]; rfl

#print axioms prepared
#print axioms configured_kept
#print axioms outside_kept
#print axioms fails_iff
#print axioms environment

end Verif.Bootstrap
