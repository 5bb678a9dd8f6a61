import Verif.Build.Search
/-! C108: what is built, and where SDKs are looked for. -/
namespace Verif.Search

/-! ### the architectures -/

/-- Specification: the architectures built by default. No counterpart in /repo. -/
def defaults (amb2 : Bool) : List String := "x86" :: if amb2 then ["x86_64"] else []

/-- C108: without `--targets` the targets are those of the default architectures a compiler is found for, in order, and the script stops
exactly if there is none. -/
theorem targets_default (detect : String → Option String) (amb2 : Bool) :
    targets detect none amb2 = (if ∀ a ∈ defaults amb2, detect a = none then .error .noCompiler
      else .ok ((defaults amb2).filterMap detect)) := by
  have hw : wanted none amb2 = defaults amb2 := by cases amb2 <;> rfl
  have hl : ∀ l, detectLoop detect false l = .ok (l.filterMap detect) := by
    intro l
    induction l with
    | nil => rfl
    | cons a l ih =>
      unfold detectLoop
      cases h : detect a with
      | none => simp [h, ih]
      | some c => simp [h, ih, bind, Except.bind]
  unfold targets
  rw [show (none : Option (List String)).isSome = false from rfl, hw, hl]
  simp only [bind, Except.bind, List.filterMap_eq_nil_iff]

/-- C108: with `--targets` all of them must be found; the script stops at the first that is not. -/
theorem targets_given (detect : String → Option String) (l : List String) (amb2 : Bool) :
    (∀ cs, l ≠ [] → (targets detect (some l) amb2 = .ok cs ↔ l.map detect = cs.map some)) ∧
    (∀ a, targets detect (some l) amb2 = .error (.detect a) ↔
      ∃ p q, l = p ++ a :: q ∧ detect a = none ∧ ∀ b ∈ p, detect b ≠ none) := by
  have hl : ∀ l : List String, (∀ cs, detectLoop detect true l = .ok cs ↔ l.map detect = cs.map some) ∧
      (∀ e, detectLoop detect true l = .error e ↔ ∃ a p q, e = .detect a ∧ l = p ++ a :: q ∧ detect a = none ∧ ∀ b ∈ p, detect b ≠ none) := by
    intro l
    induction l with
    | nil =>
      refine ⟨fun cs => ?_, fun e => ?_⟩
      · cases cs <;> simp [detectLoop]
      · simp [detectLoop]
    | cons a l ih =>
      refine ⟨fun cs => ?_, fun e => ?_⟩
      · unfold detectLoop
        cases h : detect a with
        | none => cases cs <;> simp [h]
        | some c =>
          cases hd : detectLoop detect true l with
          | error e =>
            simp only [bind, Except.bind, List.map_cons, h]
            constructor
            · intro k; exact absurd k (by simp)
            · intro k
              cases cs with
              | nil => exact absurd k (by simp)
              | cons c' cs =>
                simp only [List.map_cons, List.cons.injEq] at k
                rw [(ih.1 cs).2 k.2] at hd
                exact absurd hd (by simp)
          | ok cs' =>
            have := (ih.1 cs').1 hd
            simp only [bind, Except.bind, List.map_cons, h, this, Except.ok.injEq]
            constructor
            · rintro rfl; rfl
            · intro k
              have inj : ∀ {x y : List String}, x.map some = y.map some → x = y := by
                intro x y hxy
                have := congrArg (List.filterMap id) hxy
                simpa [List.filterMap_map] using this
              exact inj (by simpa using k)
      · unfold detectLoop
        cases h : detect a with
        | none =>
          simp only [if_true, Except.error.injEq]
          constructor
          · rintro rfl
            exact ⟨a, [], l, rfl, rfl, h, by simp⟩
          · rintro ⟨b, p, q, rfl, k, hb, hp⟩
            cases p with
            | nil => simp only [List.nil_append, List.cons.injEq] at k; rw [k.1]
            | cons c p =>
              simp only [List.cons_append, List.cons.injEq] at k
              exact absurd h (by rw [k.1]; exact hp c (by simp))
        | some c =>
          have key : (∃ b p q, e = .detect b ∧ a :: l = p ++ b :: q ∧ detect b = none ∧ ∀ x ∈ p, detect x ≠ none) ↔
              (∃ b p q, e = .detect b ∧ l = p ++ b :: q ∧ detect b = none ∧ ∀ x ∈ p, detect x ≠ none) := by
            constructor
            · rintro ⟨b, p, q, rfl, k, hb, hp⟩
              cases p with
              | nil =>
                simp only [List.nil_append, List.cons.injEq] at k
                rw [k.1, hb] at h
                exact absurd h (by simp)
              | cons x p =>
                simp only [List.cons_append, List.cons.injEq] at k
                exact ⟨b, p, q, rfl, k.2, hb, fun y hy => hp y (by simp [hy])⟩
            · rintro ⟨b, p, q, rfl, k, hb, hp⟩
              refine ⟨b, a :: p, q, rfl, by rw [k]; rfl, hb, fun x hx => ?_⟩
              rcases List.mem_cons.1 hx with rfl | hx
              · rw [h]; simp
              · exact hp x hx
          rw [key, ← ih.2 e]
          cases detectLoop detect true l <;> simp [bind, Except.bind]
  unfold targets
  rw [show (some l).isSome = true from rfl, show wanted (some l) amb2 = l from rfl]
  refine ⟨fun cs hne => ?_, fun a => ?_⟩
  · rw [← (hl l).1 cs]
    cases hd : detectLoop detect true l with
    | error e => simp [bind, Except.bind]
    | ok cs' =>
      have hc : cs' ≠ [] := by
        rintro rfl
        have := ((hl l).1 []).1 hd
        simp at this
        exact hne this
      simp [bind, Except.bind, hc]
  · have := (hl l).2 (.detect a)
    constructor
    · intro k
      cases hd : detectLoop detect true l with
      | error e =>
        rw [hd] at k
        simp only [bind, Except.bind, Except.error.injEq] at k
        rw [k] at hd
        obtain ⟨b, p, q, e1, r⟩ := this.1 hd
        rw [Stop.detect.injEq] at e1
        subst e1
        exact ⟨p, q, r⟩
      | ok cs =>
        rw [hd] at k
        simp only [bind, Except.bind] at k
        split at k <;> simp at k
    · rintro ⟨p, q, r⟩
      rw [this.2 ⟨a, p, q, rfl, r⟩]
      rfl

example : (targets (fun a => if a = "x86" then none else some a) none true).toOption = some ["x86_64"] ∧
    (targets (fun a => if a = "x86" then none else some a) (some ["x86_64", "x86"]) true).toOption = none := by decide

/-- C108, finding: the exception for a target of another architecture is never raised: its message names the variable `arch`, which
`configure` does not have, so that the script stops with a `NameError` instead (AMBuildScript:104; the loop variable is `cxx`). -/
theorem unknown_arch_name_error (l : List String) :
    (configure l = .error .nameError ↔ ∃ a ∈ l, a ≠ "x86" ∧ a ≠ "x86_64") ∧ ∀ a, configure l ≠ .error (.unknownArch a) := by
  induction l with
  | nil => simp [configure]
  | cons a l ih =>
    unfold configure
    by_cases h : a ∈ ["x86", "x86_64"]
    · rw [if_pos h]
      refine ⟨?_, ih.2⟩
      rw [ih.1]
      simp only [List.mem_cons, List.not_mem_nil, or_false] at h
      constructor
      · rintro ⟨b, hb, r⟩; exact ⟨b, by simp [hb], r⟩
      · rintro ⟨b, hb, r⟩
        rcases List.mem_cons.1 hb with rfl | hb
        · rcases h with h | h
          · exact absurd h r.1
          · exact absurd h r.2
        · exact ⟨b, hb, r⟩
    · rw [if_neg h]
      simp only [List.mem_cons, List.not_mem_nil, or_false, not_or] at h
      exact ⟨⟨fun _ => ⟨a, by simp, h⟩, fun _ => rfl⟩, fun b k => by simp at k⟩

example : ∃ a ∈ ["x86", "arm64"], a ≠ "x86" ∧ a ≠ "x86_64" := ⟨"arm64", by decide, by decide, by decide⟩

/-! ### the SDKs -/

/-- Specification: the absolute path with these components. No counterpart in /repo. -/
def abs (cs : List Path) : Path := if cs = [] then ['/'] else cs.flatMap fun c => '/' :: c

/-- Specification: a component: not empty, without slash. No counterpart in /repo. -/
def Comp (c : Path) : Prop := c ≠ [] ∧ '/' ∉ c

/-- Specification: the directory `folder` in the directory with these components. No counterpart in /repo. -/
def inside (cs : List Path) (folder : Path) : Path := (cs ++ [folder]).flatMap fun c => '/' :: c

private theorem dropWhile_all {f : Char → Bool} : ∀ {l r : List Char}, (∀ c ∈ l, f c = true) → (l ++ r).dropWhile f = r.dropWhile f
  | [], _, _ => rfl
  | c :: l, r, h => by
    rw [List.cons_append, List.dropWhile_cons, h c (by simp), if_pos rfl]
    exact dropWhile_all fun x hx => h x (by simp [hx])

private theorem upTo_last (s c : Path) (hc : '/' ∉ c) : upTo (s ++ '/' :: c) = s ++ ['/'] := by
  unfold upTo
  have e : (s ++ '/' :: c).reverse = c.reverse ++ '/' :: s.reverse := by simp
  rw [e, dropWhile_all (fun x hx => by
    simp only [decide_eq_true_eq]
    rintro rfl
    exact hc (List.mem_reverse.1 hx))]
  rw [List.dropWhile_cons]
  simp

private theorem rstrip_slash (s : Path) (h : s.getLast? ≠ some '/') : rstrip (s ++ ['/']) = s := by
  unfold rstrip
  rw [List.reverse_append]
  simp only [List.reverse_cons, List.reverse_nil, List.nil_append, List.singleton_append, List.dropWhile_cons, decide_true, if_true]
  cases hs : s.reverse with
  | nil => have := congrArg List.reverse hs; simpa using this.symm
  | cons c r =>
    have hg : s.getLast? = some c := by
      rw [← List.head?_reverse, hs]; rfl
    have hc : c ≠ '/' := by rintro rfl; exact h hg
    rw [List.dropWhile_cons]
    simp only [hc, decide_false, Bool.false_eq_true, if_false]
    rw [← hs, List.reverse_reverse]

private theorem flat_last {cs : List Path} (h : ∀ c ∈ cs, Comp c) : (cs.flatMap fun c => '/' :: c).getLast? ≠ some '/' := by
  rcases List.eq_nil_or_concat cs with rfl | ⟨ds, c, rfl⟩
  · simp
  · have hc := h c (by simp)
    rw [List.concat_eq_append, List.flatMap_append]
    simp only [List.flatMap_cons, List.flatMap_nil, List.append_nil]
    rw [List.getLast?_append]
    cases hr : ('/' :: c).getLast? with
    | none => simp at hr
    | some x =>
      simp only [Option.some_or]
      intro k
      rw [List.getLast?_cons] at hr
      have hx : x = '/' := Option.some.inj k
      subst hx
      cases hl : c.getLast? with
      | none => exact hc.1 (List.getLast?_eq_none_iff.1 hl)
      | some y =>
        rw [hl] at hr
        simp only [Option.getD_some, Option.some.injEq] at hr
        subst hr
        exact hc.2 (List.mem_of_getLast? hl)

private theorem split_abs {cs : List Path} {c : Path} (h : ∀ x ∈ cs, Comp x) (hc : Comp c) : splitHead (abs (cs ++ [c])) = abs cs := by
  have e : abs (cs ++ [c]) = (cs.flatMap fun c => '/' :: c) ++ '/' :: c := by
    unfold abs
    rw [if_neg (by simp), List.flatMap_append]
    simp
  unfold splitHead
  rw [e, upTo_last _ _ hc.2, rstrip_slash _ (flat_last h)]
  unfold abs
  by_cases hn : cs = []
  · simp [hn]
  · rw [if_neg hn, if_neg]
    cases cs with
    | nil => exact absurd rfl hn
    | cons x xs => simp

private theorem split_root : splitHead (abs []) = abs [] := by decide

private theorem split_ne {cs : List Path} {c : Path} (h : ∀ x ∈ cs, Comp x) (hc : Comp c) : splitHead (abs (cs ++ [c])) ≠ abs (cs ++ [c]) := by
  rw [split_abs h hc]
  intro k
  have := congrArg List.length k
  unfold abs at this
  rw [if_neg (by simp : cs ++ [c] ≠ []), List.flatMap_append] at this
  have hl : 0 < c.length := List.length_pos_iff.2 hc.1
  by_cases hn : cs = []
  · simp [hn] at this
    exact hc.1 this
  · rw [if_neg hn] at this
    simp at this

private theorem join_abs {cs : List Path} (h : ∀ x ∈ cs, Comp x) {folder : Path} (hf : Comp folder) : join (abs cs) folder = inside cs folder := by
  have hh : folder.head? ≠ some '/' := by
    intro k
    exact hf.2 (List.mem_of_head? k)
  unfold join inside
  rw [if_neg hh, List.flatMap_append]
  unfold abs
  by_cases hn : cs = []
  · simp [hn]
  · rw [if_neg hn, if_neg]
    · simp
    · rintro (k | k)
      · cases cs with
        | nil => exact hn rfl
        | cons x xs => simp at k
      · exact flat_last h k

/-- C108: the search ends, and gives the folder in the nearest directory that has it, from the current one up to the root. -/
theorem climb_nearest (isdir : Path → Bool) {folder : Path} (hf : Comp folder) (cs : List Path) (h : ∀ c ∈ cs, Comp c) :
    (∀ p, climb isdir folder (abs cs) = some p ↔ ∃ k ≤ cs.length, p = inside (cs.take k) folder ∧ isdir p = true ∧
      ∀ j, k < j → j ≤ cs.length → isdir (inside (cs.take j) folder) = false) ∧
    (climb isdir folder (abs cs) = none ↔ ∀ k ≤ cs.length, isdir (inside (cs.take k) folder) = false) := by
  have gen : ∀ n, ∀ cs : List Path, cs.length = n → (∀ c ∈ cs, Comp c) →
      climb isdir folder (abs cs) = ((List.range (n + 1)).reverse.find? fun k => isdir (inside (cs.take k) folder)).map
        fun k => inside (cs.take k) folder := by
    intro n
    induction n with
    | zero =>
      intro cs hl hc
      have : cs = [] := List.length_eq_zero_iff.1 hl
      subst this
      rw [climb, join_abs hc hf, if_pos (split_root)]
      cases hd : isdir (inside [] folder) <;> simp [hd, List.range_succ]
    | succ n ih =>
      intro cs hl hc
      rcases List.eq_nil_or_concat cs with rfl | ⟨ds, c, rfl⟩
      · simp at hl
      · rw [List.concat_eq_append] at hl hc ⊢
        have hds : ∀ x ∈ ds, Comp x := fun x hx => hc x (by simp [hx])
        have hcc : Comp c := hc c (by simp)
        have hdl : ds.length = n := by simpa using hl
        rw [climb, join_abs hc hf, if_neg (split_ne hds hcc), split_abs hds hcc, ih ds hdl hds]
        rw [List.range_succ (n := n + 1), List.reverse_append, List.reverse_singleton, List.singleton_append, List.find?_cons]
        have ht : (ds ++ [c]).take (n + 1) = ds ++ [c] := List.take_of_length_le (by rw [hl]; exact Nat.le_refl _)
        simp only [ht]
        cases hd : isdir (inside (ds ++ [c]) folder) with
        | true => simp [ht]
        | false =>
          have hk : ∀ k ∈ (List.range (n + 1)).reverse, (ds ++ [c]).take k = ds.take k := by
            intro k hk
            have : k < n + 1 := by simpa using hk
            rw [List.take_append_of_le_length (by omega)]
          generalize (List.range (n + 1)).reverse = R at hk
          induction R with
          | nil => rfl
          | cons k R ihR =>
            have hk0 := hk k (by simp)
            rw [List.find?_cons, List.find?_cons, hk0]
            cases isdir (inside (ds.take k) folder) with
            | true => simp [hk0]
            | false => exact ihR fun x hx => hk x (by simp [hx])
  have e := gen cs.length cs rfl h
  have hfind : ∀ n k, ((List.range (n + 1)).reverse.find? fun k => isdir (inside (cs.take k) folder)) = some k ↔
      k ≤ n ∧ isdir (inside (cs.take k) folder) = true ∧ ∀ j, k < j → j ≤ n → isdir (inside (cs.take j) folder) = false := by
    intro n
    induction n with
    | zero =>
      intro k
      cases hd : isdir (inside (cs.take 0) folder) with
      | true =>
        simp only [List.range_succ, List.range_zero, List.nil_append, List.reverse_singleton, List.find?_cons, hd, Option.some.injEq]
        constructor
        · rintro rfl; exact ⟨Nat.le_refl _, hd, fun j h1 h2 => by omega⟩
        · rintro ⟨h1, -, -⟩; omega
      | false =>
        simp only [List.range_succ, List.range_zero, List.nil_append, List.reverse_singleton, List.find?_cons, hd, List.find?_nil]
        constructor
        · intro k; exact absurd k (by simp)
        · rintro ⟨h1, h2, -⟩
          have : k = 0 := by omega
          rw [this, hd] at h2
          exact absurd h2 (by simp)
    | succ n ih =>
      intro k
      rw [List.range_succ, List.reverse_append, List.reverse_singleton, List.singleton_append, List.find?_cons]
      cases hd : isdir (inside (cs.take (n + 1)) folder) with
      | true =>
        simp only [Option.some.injEq]
        constructor
        · rintro rfl; exact ⟨Nat.le_refl _, hd, fun j h1 h2 => by omega⟩
        · rintro ⟨h1, -, h3⟩
          by_cases hk : k = n + 1
          · exact hk.symm
          · have := h3 (n + 1) (by omega) (Nat.le_refl _)
            rw [hd] at this
            exact absurd this (by simp)
      | false =>
        simp only
        rw [ih k]
        constructor
        · rintro ⟨h1, h2, h3⟩
          refine ⟨by omega, h2, fun j hj1 hj2 => ?_⟩
          by_cases hj : j = n + 1
          · rw [hj]; exact hd
          · exact h3 j hj1 (by omega)
        · rintro ⟨h1, h2, h3⟩
          have hk : k ≠ n + 1 := by
            rintro rfl
            rw [hd] at h2
            exact absurd h2 (by simp)
          exact ⟨by omega, h2, fun j hj1 hj2 => h3 j hj1 (by omega)⟩
  constructor
  · intro p
    rw [e, Option.map_eq_some_iff]
    constructor
    · rintro ⟨k, hk, rfl⟩
      obtain ⟨h1, h2, h3⟩ := (hfind _ k).1 hk
      exact ⟨k, h1, rfl, h2, h3⟩
    · rintro ⟨k, h1, rfl, h2, h3⟩
      exact ⟨k, (hfind _ k).2 ⟨h1, h2, h3⟩, rfl⟩
  · rw [e, Option.map_eq_none_iff, List.find?_eq_none]
    constructor
    · intro k j hj
      simpa using k j (by simp; omega)
    · intro k j hj
      have : j < cs.length + 1 := by simpa using hj
      simp [k j (by omega)]

example : (∀ c ∈ ["srv".toList, "build".toList], Comp c) ∧ Comp "hl2sdk-csgo".toList ∧
    climb (fun p => p = "/srv/hl2sdk-csgo".toList) "hl2sdk-csgo".toList "/srv/build".toList = some "/srv/hl2sdk-csgo".toList := by
  refine ⟨?_, ⟨by decide, by decide⟩, ?_⟩
  · intro c hc
    simp only [List.mem_cons, List.not_mem_nil, or_false] at hc
    rcases hc with rfl | rfl <;> exact ⟨by decide, by decide⟩
  · rw [climb, if_neg (by decide), if_neg (by decide), climb, if_pos (by decide)]
    decide

/-- C108: where an SDK is found: the root given if it has the SDK; else the directory the variable names; else, if there is no such
variable, the nearest directory above. -/
theorem findSdk_order (env : Path → Option Path) (isdir there : Path → Bool) (norm upper : Path → Path) (cwd name : Path) :
    (∀ r, r ≠ [] → there (norm (join r ("hl2sdk-".toList ++ name))) = true →
      findSdk env isdir there norm upper cwd (some r) name = some (norm (join r ("hl2sdk-".toList ++ name)))) ∧
    ∀ root, (∀ r, root = some r → r ≠ [] → there (norm (join r ("hl2sdk-".toList ++ name))) = false) →
      (∀ p, env ("HL2SDK".toList ++ upper name) = some p →
        findSdk env isdir there norm upper cwd root name = if isdir p then some p else none) ∧
      (env ("HL2SDK".toList ++ upper name) = none →
        findSdk env isdir there norm upper cwd root name = climb isdir ("hl2sdk-".toList ++ name) cwd) := by
  refine ⟨fun r hr ht => ?_, fun root hroot => ?_⟩
  · unfold findSdk
    simp only
    rw [if_pos ⟨hr, ht⟩]
  · have e : findSdk env isdir there norm upper cwd root name =
        resolveEnv env isdir cwd ("HL2SDK".toList ++ upper name) ("hl2sdk-".toList ++ name) := by
      unfold findSdk
      cases root with
      | none => rfl
      | some r =>
        simp only
        rw [if_neg]
        rintro ⟨h1, h2⟩
        rw [hroot r rfl h1] at h2
        exact absurd h2 (by simp)
    rw [e]
    unfold resolveEnv
    exact ⟨fun p hp => by rw [hp], fun hn => by rw [hn]⟩

example : ∀ r, (some "/x".toList : Option Path) = some r → r ≠ [] → (fun _ : Path => false) (join r "hl2sdk-csgo".toList) = false :=
  fun _ _ _ => rfl

/-- C108, finding: a variable that names no directory hides an SDK that is beside the sources: nothing is searched any more, and the SDK
counts as missing (AMBuildScript:5-8 has no way on to the search). -/
theorem variable_hides (env : Path → Option Path) (isdir there : Path → Bool) (norm upper : Path → Path) (cwd name : Path) {p : Path}
    (he : env ("HL2SDK".toList ++ upper name) = some p) (hp : isdir p = false) :
    findSdk env isdir there norm upper cwd none name = none := by
  rw [((findSdk_order env isdir there norm upper cwd name).2 none (fun r h => absurd h (by simp))).1 p he, hp]
  rfl

/-- The SDK is in the current directory. -/
example : findSdk (fun _ => some "/old".toList) (fun p => p = "/srv/hl2sdk-csgo".toList) (fun _ => false) id id "/srv".toList none "csgo".toList
      = none ∧
    findSdk (fun _ => none) (fun p => p = "/srv/hl2sdk-csgo".toList) (fun _ => false) id id "/srv".toList none "csgo".toList =
      some "/srv/hl2sdk-csgo".toList := by
  refine ⟨variable_hides _ _ _ _ _ _ _ rfl (by decide), ?_⟩
  rw [((findSdk_order _ _ _ _ _ _ _).2 none (fun r h => absurd h (by simp))).2 rfl, climb, if_pos (by decide)]
  decide

/-! ### the generator of hook managers -/

/-- C108: for every architecture and platform the generator `MakeHookMan` uses is linked in, and no other; there is none exactly on 64-bit
Linux, where `MakeHookMan` returns NULL. -/
theorem generator_linked (a : Arch) (p : Plat) :
    (∀ g, g ∈ linked a p ↔ g = used a p ∧ g ≠ .null) ∧ (linked a p = [] ↔ a = .x64 ∧ p = .linux) ∧
    (used a p = .null ↔ a = .x64 ∧ p = .linux) ∧ (used a p = .x86 ↔ a = .x86) := by
  refine ⟨fun g => ?_, ?_, ?_, ?_⟩
  · cases a <;> cases p <;> cases g <;> decide
  · cases a <;> cases p <;> decide
  · cases a <;> cases p <;> decide
  · cases a <;> cases p <;> decide

example : used .x64 .windows = .x64 ∧ linked .x64 .linux = [] := by decide

#print axioms targets_default
#print axioms targets_given
#print axioms unknown_arch_name_error
#print axioms climb_nearest
#print axioms findSdk_order
#print axioms variable_hides
#print axioms generator_linked
end Verif.Search
