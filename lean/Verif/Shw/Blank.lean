import Verif.Shw.Props
/-
C84: blanks around the variable of an iteration do not matter.
-/
namespace Verif.Shw

theorem find_pre {c : Char} (U : List Char) : ∀ {A : List Char}, (∀ d ∈ A, d ≠ c) → find [c] (A ++ U) = (find [c] U).map (· + A.length) := by
  intro A
  induction A with
  | nil => intro _; simp
  | cons d A ih =>
    intro h
    rw [List.cons_append, find, if_neg, ih fun x hx => h x (by simp [hx])]
    · cases find [c] U <;> simp [Nat.add_assoc]
    · simp only [startsWith, Bool.and_true, beq_iff_eq]
      exact fun e => h d (by simp) e.symm

theorem findFrom_shift (w A U : List Char) (k : Nat) : findFrom w (A ++ U) (A.length + k) = (findFrom w U k).map (· + A.length) := by
  unfold findFrom
  rw [List.drop_append, List.drop_eq_nil_of_le (by omega), List.nil_append, show A.length + k - A.length = k by omega]
  by_cases h : U.length < k
  · rw [if_pos h, if_pos (by simpa using h)]; rfl
  · rw [if_neg h, if_neg (by simpa using h)]
    cases find w (U.drop k) with
    | none => rfl
    | some x => simp; omega

theorem slice_shift (A U : List Char) (i j : Nat) : ((A ++ U).take (A.length + j)).drop (A.length + i) = (U.take j).drop i := by
  rw [List.take_append, List.take_of_length_le (by omega), show A.length + j - A.length = j by omega, List.drop_append,
    List.drop_eq_nil_of_le (by omega), List.nil_append, show A.length + i - A.length = i by omega]

theorem parseRange_shift (f : Nat) (A U : List Char) (i j : Nat) : parseRange f (A ++ U) (A.length + i) (A.length + j) = parseRange f U i j := by
  unfold parseRange
  rw [slice_shift]
  by_cases h : i ≤ j ∧ j ≤ U.length
  · rw [if_pos h, if_pos (by simp; omega)]
  · rw [if_neg h, if_neg (by simp; omega)]

/-- No counterpart in /repo: what `iterParts` makes of the text from the first comma on. -/
def restParts (f : Nat) (vars : Vars) (d : Char) (U : List Char) : R (Option Iter) :=
  match findFrom [','] U 1 with
  | none => .ok none
  | some c2 => do
    let lo ← parseRange f U 1 c2
    match findFrom [':'] U (c2 + 1) with
    | none => .ok none
    | some colon => do
      let hi ← parseRange f U (c2 + 1) colon
      let sep := match find ['|'] U with
        | some b => if b < colon then some ((U.take colon).drop (b + 1)) else none
        | none => none
      if (vars (d.toNat - 48)).isSome then .ok none
      else .ok (some ⟨d.toNat - 48, lo, hi, sep, (U.take (U.length - 2)).drop (colon + 1)⟩)

theorem iterParts_rest (f : Nat) (vars : Vars) {A R : List Char} {d : Char} (h1 : ∀ c ∈ A, c ≠ ',') (h2 : ∀ c ∈ A, c ≠ '|')
    (ht : trim (A.drop 2) = ['$', d]) (hd : isDigit d = true) (hR : 1 ≤ R.length) :
    iterParts f vars (A ++ ',' :: R) = restParts f vars d (',' :: R) := by
  have hn : ¬ 128 ≤ d.toNat := by have := digit_ascii hd; omega
  have f1 : find [','] (A ++ ',' :: R) = some A.length := find_char h1 R
  have ht' : trim (((A ++ ',' :: R).take A.length).drop 2) = ['$', d] := by rw [List.take_left' rfl]; exact ht
  unfold iterParts restParts
  rw [f1]
  simp only [ht']
  rw [if_neg hn, if_neg (by rw [hd]; decide), findFrom_shift, find_pre _ h2]
  cases findFrom [','] (',' :: R) 1 with
  | none => rfl
  | some c2 =>
    simp only [Option.map_some]
    rw [show c2 + A.length = A.length + c2 by omega, parseRange_shift, show A.length + c2 + 1 = A.length + (c2 + 1) by omega, findFrom_shift]
    cases parseRange f (',' :: R) 1 c2 with
    | error e => rfl
    | ok lo =>
      simp only [bind, Except.bind]
      cases findFrom [':'] (',' :: R) (c2 + 1) with
      | none => rfl
      | some colon =>
        simp only [Option.map_some]
        rw [show colon + A.length = A.length + colon by omega, parseRange_shift]
        have hcode : ((A ++ ',' :: R).take ((A ++ ',' :: R).length - 2)).drop (A.length + colon + 1) =
            ((',' :: R).take ((',' :: R).length - 2)).drop (colon + 1) := by
          have : (A ++ ',' :: R).length - 2 = A.length + ((',' :: R).length - 2) := by simp; omega
          rw [this, show A.length + colon + 1 = A.length + (colon + 1) by omega, slice_shift]
        rw [hcode]
        cases parseRange f (',' :: R) (c2 + 1) colon with
        | error e => rfl
        | ok hi =>
          simp only
          cases find ['|'] (',' :: R) with
          | none => rfl
          | some b =>
            simp only [Option.map_some]
            rw [show b + A.length + 1 = A.length + (b + 1) by omega, slice_shift]
            by_cases h : b < colon
            · have h' : b + A.length < A.length + colon := by omega
              rw [if_pos h, if_pos h']
            · have h' : ¬ b + A.length < A.length + colon := by omega
              rw [if_neg h, if_neg h']

/-- Specification: blanks. -/
def Blanks (w : List Char) : Prop := ∀ c ∈ w, c = ' ' ∨ c = '\t'

theorem blank_digit {v : Char} (h : isDigit v = true) : blank v = false := by
  unfold blank
  have : ∀ d, isDigit d = false → v ≠ d := by rintro d hd rfl; rw [h] at hd; cases hd
  simp [this ' ' (by decide), this '\t' (by decide), this (Char.ofNat 11) (by decide), this '\n' (by decide), this '\r' (by decide)]

theorem dropWhile_blanks {w : List Char} (h : Blanks w) (s : List Char) : (w ++ s).dropWhile blank = s.dropWhile blank := by
  induction w with
  | nil => rfl
  | cons c w ih =>
    have hc : blank c = true := by rcases h c (by simp) with rfl | rfl <;> decide
    rw [List.cons_append, List.dropWhile_cons, hc, if_pos rfl]
    exact ih fun d hd => h d (by simp [hd])

theorem trim_blanks {w1 w2 : List Char} (h1 : Blanks w1) (h2 : Blanks w2) {v : Char} (hv : isDigit v = true) :
    trim (w1 ++ '$' :: v :: w2) = ['$', v] := by
  have hb := blank_digit hv
  have hs : blank '$' = false := by decide
  have h2' : Blanks w2.reverse := fun c hc => h2 c (List.mem_reverse.1 hc)
  unfold trim
  rw [dropWhile_blanks h1, List.dropWhile_cons, hs, if_neg (by simp)]
  rw [show ('$' :: v :: w2).reverse = w2.reverse ++ [v, '$'] by simp, dropWhile_blanks h2', List.dropWhile_cons, hb, if_neg (by simp)]
  rfl

theorem isIter_blanks {w : List Char} (h : Blanks w) (s : List Char) (last : Char) (n : Nat) (hl : last ≠ '$') :
    ∃ last', last' ≠ '$' ∧ isIter (w ++ s) last n = isIter s last' n := by
  induction w generalizing last with
  | nil => exact ⟨last, hl, rfl⟩
  | cons c w ih =>
    obtain ⟨l, k1, k2⟩ := ih (fun d hd => h d (by simp [hd])) c (by rcases h c (by simp) with rfl | rfl <;> decide)
    refine ⟨l, k1, ?_⟩
    rw [List.cons_append, isIter, if_pos (h c (by simp)), k2]

theorem isIter_var {w1 w2 : List Char} (h1 : Blanks w1) (h2 : Blanks w2) {v : Char} (hv : isDigit v = true) (R : List Char) :
    isIter (w1 ++ '$' :: v :: (w2 ++ ',' :: R)) (Char.ofNat 0) 0 = .ok 2 := by
  obtain ⟨l, k1, k2⟩ := isIter_blanks h1 ('$' :: v :: (w2 ++ ',' :: R)) (Char.ofNat 0) 0 (by decide)
  have vne : ∀ d, isDigit d = false → v ≠ d := by rintro d hd rfl; rw [hv] at hd; cases hd
  obtain ⟨l', k3, k4⟩ := isIter_blanks h2 (',' :: R) v 1 (vne '$' (by decide))
  have ha := digit_ascii hv
  have v1 : ¬ (v = ' ' ∨ v = '\t') := fun e => e.elim (vne ' ' (by decide)) (vne '\t' (by decide))
  have s1 : isIter ('$' :: v :: (w2 ++ ',' :: R)) l 0 = isIter (v :: (w2 ++ ',' :: R)) '$' 0 := by
    rw [isIter, if_neg (by decide), if_neg fun e => k1 e.2.1, if_neg fun e => k1 e.2.1, if_neg fun e => absurd e.1 (by decide), if_pos rfl]
  have s2 : isIter (v :: (w2 ++ ',' :: R)) '$' 0 = isIter (w2 ++ ',' :: R) v 1 := by
    rw [isIter, if_neg v1, if_neg (by omega), if_pos ⟨rfl, rfl, hv⟩]
  have s3 : isIter (',' :: R) l' 1 = .ok 2 := by
    rw [isIter, if_neg (by decide), if_neg fun e => absurd e.1 (by decide), if_neg fun e => absurd e.1 (by decide), if_pos ⟨rfl, rfl⟩]
  rw [k2, s1, s2, k4, s3]

/-- C84: blanks before and after the variable of an iteration do not matter: the directive is still recognised as an iteration, and its
parts are the same as without them, whatever follows. -/
theorem iter_blanks (f : Nat) (vars : Vars) {w1 w2 R : List Char} (h1 : Blanks w1) (h2 : Blanks w2) {v : Char} (hv : isDigit v = true)
    (hR : 1 ≤ R.length) : isIter (w1 ++ '$' :: v :: (w2 ++ ',' :: R)) (Char.ofNat 0) 0 = .ok 2 ∧
    iterParts f vars ('@' :: '[' :: (w1 ++ '$' :: v :: (w2 ++ ',' :: R))) = iterParts f vars ('@' :: '[' :: '$' :: v :: ',' :: R) := by
  refine ⟨isIter_var h1 h2 hv R, ?_⟩
  have vne : ∀ d, isDigit d = false → v ≠ d := by rintro d hd rfl; rw [hv] at hd; cases hd
  have hne : ∀ w1 w2, Blanks w1 → Blanks w2 → ∀ d, d ∉ ['@', '[', '$', ' ', '\t'] → isDigit d = false →
      ∀ c ∈ '@' :: '[' :: (w1 ++ '$' :: v :: w2), c ≠ d := by
    intro w1 w2 h1 h2 d hd hdd c hc
    simp only [List.mem_cons, List.mem_append] at hc
    simp only [List.mem_cons, List.not_mem_nil, or_false, not_or] at hd
    rcases hc with rfl | rfl | hc | rfl | rfl | hc
    · exact fun e => hd.1 e.symm
    · exact fun e => hd.2.1 e.symm
    · rcases h1 c hc with rfl | rfl
      · exact fun e => hd.2.2.2.1 e.symm
      · exact fun e => hd.2.2.2.2 e.symm
    · exact fun e => hd.2.2.1 e.symm
    · exact vne d hdd
    · rcases h2 c hc with rfl | rfl
      · exact fun e => hd.2.2.2.1 e.symm
      · exact fun e => hd.2.2.2.2 e.symm
  have hnil : Blanks [] := fun c hc => by cases hc
  have e1 := iterParts_rest f vars (A := '@' :: '[' :: (w1 ++ '$' :: v :: w2)) (R := R) (hne _ _ h1 h2 ',' (by decide) (by decide))
    (hne _ _ h1 h2 '|' (by decide) (by decide)) (trim_blanks h1 h2 hv) hv hR
  have e2 := iterParts_rest f vars (A := '@' :: '[' :: ([] ++ '$' :: v :: [])) (R := R) (hne _ _ hnil hnil ',' (by decide) (by decide))
    (hne _ _ hnil hnil '|' (by decide) (by decide)) (trim_blanks hnil hnil hv) hv hR
  rw [← e2] at e1
  simpa using e1

example : Blanks [' ', '\t'] ∧ Blanks [' '] ∧ isDigit '1' = true ∧
    iterParts 30 (fun _ => none) "@[ \t$1 ,1,3|,:x@]".toList = .ok (some ⟨1, 1, 3, some [','], ['x']⟩) :=
  ⟨by simp [Blanks], by simp [Blanks], by decide, by decide +kernel⟩

/-! ### Directives that are not closed -/

theorem endBracket_none : ∀ (s : List Char) (last : Char) (n : Int) (i : Nat), ¬ ['@', ']'] <:+: last :: s →
    endBracket s last n i = none := by
  intro s
  induction s with
  | nil => intro _ _ _ _; rfl
  | cons c s ih =>
    intro last n i h
    have n2 : ¬ (last = '@' ∧ c = ']') := by
      rintro ⟨rfl, rfl⟩
      exact h ⟨[], s, rfl⟩
    rw [endBracket]
    simp only [n2, if_false]
    refine ih _ _ _ fun ⟨a, b, e⟩ => h ⟨last :: a, b, by rw [List.cons_append, List.cons_append, e]⟩

theorem endParen_none : ∀ (s : List Char) (n : Int) (i : Nat), ')' ∉ s → endParen s n i = none := by
  intro s
  induction s with
  | nil => intro _ _ _; rfl
  | cons c s ih =>
    intro n i h
    rw [endParen]
    simp only [show ¬ c = ')' from fun e => h (by simp [e]), if_false]
    exact ih _ _ fun e => h (by simp [e])

theorem findDir_found : ∀ (p : List Char) {d : Char} (s : List Char) (i : Nat), '@' ∉ p → d = '[' ∨ d = '(' →
    findDir (p ++ '@' :: d :: s) i = some (i + p.length) := by
  intro p
  induction p with
  | nil =>
    intro d s i _ hd
    rw [List.nil_append, findDir_cons, if_pos rfl]
    simp [hd]
  | cons c p ih =>
    intro d s i h hd
    rw [List.cons_append, findDir_cons, if_neg fun e => h (by simp [e]), ih s (i + 1) (fun e => h (by simp [e])) hd]
    simp; omega

/-- **C84**, directives that are not closed: the text in front is written, nothing after it, and the program fails. -/
theorem unclosed_fails (f : Nat) (args : List Int) {p s : List Char} {d : Char} (hp : '@' ∉ p)
    (h : d = '[' ∧ ¬ ['@', ']'] <:+: s ∨ d = '(' ∧ ')' ∉ s) :
    actionIter (f + 1) args (p ++ '@' :: d :: s) = .ok (p, 1) := by
  have hd : d = '[' ∨ d = '(' := h.imp And.left And.left
  have he : sectionEnd ('@' :: d :: s) = none := by
    rcases h with ⟨rfl, h⟩ | ⟨rfl, h⟩
    · refine endBracket_none _ _ _ _ ?_
      rintro ⟨a, b, e⟩
      match a with
      | [] => exact absurd (List.head_eq_of_cons_eq e) (by decide)
      | [_] => exact absurd (List.head_eq_of_cons_eq (List.tail_eq_of_cons_eq (List.tail_eq_of_cons_eq e))) (by decide)
      | [_, _] => exact absurd (List.head_eq_of_cons_eq (List.tail_eq_of_cons_eq (List.tail_eq_of_cons_eq e))) (by decide)
      | _ :: _ :: _ :: a => exact h ⟨a, b, List.tail_eq_of_cons_eq (List.tail_eq_of_cons_eq (List.tail_eq_of_cons_eq e))⟩
    · exact endParen_none _ _ _ (by simp [h])
  unfold actionIter
  rw [doInput, findDir_found p s 0 hp hd]
  simp only [Nat.zero_add, List.take_left, List.drop_left, he]
  rfl

example : actionIter 5 [] ['a', ';', '@', '[', '$', '1', ',', '1', ',', '3', ':', 'x'] = .ok (['a', ';'], 1) :=
  unclosed_fails 4 [] (p := ['a', ';']) (d := '[') (s := ['$', '1', ',', '1', ',', '3', ':', 'x']) (by decide)
    (.inl ⟨rfl, by decide⟩)

end Verif.Shw

#print axioms Verif.Shw.iter_blanks
#print axioms Verif.Shw.unclosed_fails
