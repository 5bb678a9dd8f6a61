import Verif.Build.Version
/-! Lemmas for C101. -/
namespace Verif.Build

theorem plus_run {β : Type} {d : Char → Bool} {k : List Char → List Char → Option β} :
    ∀ (n acc s : List Char), (∀ c ∈ n, d c = true) → (∀ c, s.head? = some c → d c = false) → acc ++ n ≠ [] →
      ∀ x, k (acc ++ n) s = some x → plus d k acc (n ++ s) = some x
  | [], acc, [], _, _, hne, x, hk => by
    rw [List.append_nil] at hne hk
    simp only [List.nil_append, plus, if_neg hne, hk]
  | [], acc, c :: s, _, hs, hne, x, hk => by
    rw [List.append_nil] at hne hk
    simp [plus, hs c rfl, hne, hk]
  | c :: n, acc, s, hn, hs, hne, x, hk => by
    have h1 : acc ++ c :: n = (acc ++ [c]) ++ n := by simp
    rw [h1] at hk hne
    have ih := plus_run n (acc ++ [c]) s (fun e he => hn e (List.mem_cons_of_mem _ he)) hs hne x hk
    simp only [List.cons_append, plus, hn c (List.mem_cons_self ..), if_true, ih]

theorem plus_some {β : Type} {d : Char → Bool} {k : List Char → List Char → Option β} :
    ∀ (s acc : List Char) (x : β), plus d k acc s = some x →
      ∃ n r, s = n ++ r ∧ (∀ c ∈ n, d c = true) ∧ acc ++ n ≠ [] ∧ k (acc ++ n) r = some x
  | [], acc, x, h => by
    simp only [plus] at h
    by_cases ha : acc = []
    · rw [if_pos ha] at h; cases h
    · rw [if_neg ha] at h
      exact ⟨[], [], rfl, (by simp), (by simpa using ha), (by simpa using h)⟩
  | c :: s, acc, x, h => by
    have stop : (if acc = [] then none else k acc (c :: s)) = some x →
        ∃ n r, c :: s = n ++ r ∧ (∀ e ∈ n, d e = true) ∧ acc ++ n ≠ [] ∧ k (acc ++ n) r = some x := by
      intro h
      by_cases ha : acc = []
      · rw [if_pos ha] at h; cases h
      · rw [if_neg ha] at h
        exact ⟨[], c :: s, rfl, (by simp), (by simpa using ha), (by simpa using h)⟩
    simp only [plus] at h
    by_cases hd : d c = true
    · rw [if_pos hd] at h
      cases hp : plus d k (acc ++ [c]) s with
      | none => rw [hp] at h; exact stop h
      | some y =>
        rw [hp] at h
        obtain ⟨n, r, hs, hn, hne, hk⟩ := plus_some s (acc ++ [c]) y hp
        cases h
        refine ⟨c :: n, r, by simp [hs], ?_, by simp, by simpa using hk⟩
        intro e he
        rcases List.mem_cons.1 he with rfl | he
        · exact hd
        · exact hn e he
    · rw [if_neg hd] at h; exact stop h

theorem dot_some {β : Type} {k : List Char → Option β} {s : List Char} {x : β} (h : dot k s = some x) :
    ∃ r, s = '.' :: r ∧ k r = some x := by
  cases s with
  | nil => cases h
  | cons c s =>
    simp only [dot] at h
    by_cases hc : c = '.'
    · rw [if_pos hc] at h; exact ⟨s, by rw [hc], h⟩
    · rw [if_neg hc] at h; cases h

/-- The pattern finds three numbers, the third as long as can be. -/
theorem three_run {β : Type} {d : Char → Bool} (hd : Digits d) {k : List Char → List Char → List Char → List Char → Option β}
    {a b c r : List Char} (ha : Number d a) (hb : Number d b) (hc : Number d c)
    (hr : ∀ e, r.head? = some e → d e = false) {x : β} (hk : k a b c r = some x) :
    three d k (product a b c ++ r) = some x := by
  have e : product a b c ++ r = a ++ ('.' :: (b ++ ('.' :: (c ++ r)))) := by simp [product, t]
  rw [e]
  have hdot : ∀ s : List Char, ∀ e, ('.' :: s).head? = some e → d e = false := by
    intro s e he; cases he; exact hd.dot
  refine plus_run a [] _ ha.2 (hdot _) (by simpa using ha.1) x ?_
  simp only [dot, if_true, List.nil_append]
  refine plus_run b [] _ hb.2 (hdot _) (by simpa using hb.1) x ?_
  simp only [if_true, List.nil_append]
  exact plus_run c [] _ hc.2 hr (by simpa using hc.1) x (by simpa using hk)

theorem three_some {β : Type} {d : Char → Bool} {k : List Char → List Char → List Char → List Char → Option β}
    {s : List Char} {x : β} (h : three d k s = some x) :
    ∃ a b c r, s = product a b c ++ r ∧ Number d a ∧ Number d b ∧ Number d c ∧ k a b c r = some x := by
  obtain ⟨a, s1, e1, ha, na, h1⟩ := plus_some _ _ _ h
  obtain ⟨s2, e2, h2⟩ := dot_some h1
  obtain ⟨b, s3, e3, hb, nb, h3⟩ := plus_some _ _ _ h2
  obtain ⟨s4, e4, h4⟩ := dot_some h3
  obtain ⟨c, s5, e5, hc, nc, h5⟩ := plus_some _ _ _ h4
  simp only [List.nil_append] at na nb nc h5
  exact ⟨a, b, c, s5, by rw [e1, e2, e3, e4, e5]; simp [product, t], ⟨na, ha⟩, ⟨nb, hb⟩, ⟨nc, hc⟩, h5⟩

/-- A number and what follows it: the rest can be cut so that it does not begin with a digit. -/
theorem number_cut {d : Char → Bool} : ∀ (r c : List Char), Number d c →
    ∃ n r', r = n ++ r' ∧ Number d (c ++ n) ∧ ∀ e, r'.head? = some e → d e = false
  | [], c, hc => ⟨[], [], rfl, by simpa using hc, by simp⟩
  | e :: r, c, hc => by
    by_cases he : d e = true
    · obtain ⟨n, r', e1, hn, hr⟩ := number_cut r (c ++ [e])
        ⟨by simp, fun x hx => by
          rcases List.mem_append.1 hx with h | h
          · exact hc.2 x h
          · rw [List.mem_singleton.1 h]; exact he⟩
      exact ⟨e :: n, r', by simp [e1], by simpa using hn, hr⟩
    · exact ⟨[], e :: r, rfl, by simpa using hc, fun x hx => by cases hx; simpa using he⟩

theorem takeWhile_all {p : Char → Bool} : ∀ {w : List Char} (r : List Char), (∀ c ∈ w, p c = true) →
    (w ++ r).takeWhile p = w ++ r.takeWhile p
  | [], _, _ => rfl
  | c :: w, r, h => by
    rw [List.cons_append, List.takeWhile_cons, if_pos (h c (List.mem_cons_self ..)),
      takeWhile_all r (fun e he => h e (List.mem_cons_of_mem _ he)), List.cons_append]

theorem takeWhile_mem {p : Char → Bool} : ∀ {w : List Char} {c : Char}, c ∈ w.takeWhile p → p c = true
  | e :: w, c, h => by
    rw [List.takeWhile_cons] at h
    by_cases he : p e = true
    · rw [if_pos he] at h
      rcases List.mem_cons.1 h with rfl | h
      · exact he
      · exact takeWhile_mem h
    · rw [if_neg he] at h; cases h

theorem dropDev_self : ∀ {s : List Char}, '-' ∉ s → dropDev s = s
  | [], _ => by unfold dropDev; rfl
  | c :: s, h => by
    have hc : '-' ≠ c := fun e => h (e ▸ List.mem_cons_self ..)
    have hs : '-' ∉ s := fun e => h (List.mem_cons_of_mem _ e)
    unfold dropDev
    rw [if_neg (by simp [t, List.isPrefixOf, hc]), dropDev_self hs]

theorem dropDev_append : ∀ {s : List Char} (r : List Char), '-' ∉ s → dropDev (s ++ r) = s ++ dropDev r
  | [], _, _ => rfl
  | c :: s, r, h => by
    have hc : '-' ≠ c := fun e => h (e ▸ List.mem_cons_self ..)
    have hs : '-' ∉ s := fun e => h (List.mem_cons_of_mem _ e)
    rw [List.cons_append, dropDev, if_neg (by simp [t, List.isPrefixOf, hc]), dropDev_append r hs, List.cons_append]

end Verif.Build
