import Verif.Shw.Repl
/-
Finding directives and their parts in the text of a template (for C84).
-/
namespace Verif.Shw

/-! ### `find` -/

theorem find_char {c : Char} : ∀ {w : List Char}, (∀ d ∈ w, d ≠ c) → ∀ s, find [c] (w ++ c :: s) = some w.length := by
  intro w
  induction w with
  | nil => intro _ s; simp [find, startsWith]
  | cons d w ih =>
    intro h s
    rw [List.cons_append, find, if_neg, ih fun x hx => h x (by simp [hx])]
    · rfl
    · simp only [startsWith, Bool.and_true, beq_iff_eq]
      exact fun e => h d (by simp) e.symm

theorem find_char_ge {c : Char} : ∀ {w : List Char}, (∀ d ∈ w, d ≠ c) → ∀ s p, find [c] (w ++ s) = some p → w.length ≤ p := by
  intro w
  induction w with
  | nil => intro _ s p _; simp
  | cons d w ih =>
    intro h s p hp
    rw [List.cons_append, find, if_neg] at hp
    · cases e : find [c] (w ++ s) with
      | none => rw [e] at hp; cases hp
      | some q =>
        rw [e] at hp; cases hp
        have := ih (fun x hx => h x (by simp [hx])) s q e
        simp; omega
    · simp only [startsWith, Bool.and_true, beq_iff_eq]
      exact fun e => h d (by simp) e.symm

theorem findFrom_char {c : Char} {pre w : List Char} (h : ∀ d ∈ w, d ≠ c) (s : List Char) :
    findFrom [c] (pre ++ (w ++ c :: s)) pre.length = some (pre.length + w.length) := by
  rw [findFrom_pre, find_char h]; simp [Nat.add_comm]

/-- No counterpart in /repo: `w` with characters `≠ c` first. -/
theorem find_two {c d : Char} : ∀ {w : List Char}, (∀ x ∈ w, x ≠ c) → ∀ s, find [c, d] (w ++ c :: d :: s) = some w.length := by
  intro w
  induction w with
  | nil => intro _ s; simp [find, startsWith]
  | cons x w ih =>
    intro h s
    rw [List.cons_append, find, if_neg, ih fun y hy => h y (by simp [hy])]
    · rfl
    · simp only [startsWith, Bool.and_eq_true, beq_iff_eq]
      exact fun e => h x (by simp) e.1.symm

/-- No counterpart in /repo: no two `=` in a row. -/
def noEE : List Char → Prop
  | [] => True
  | [_] => True
  | c :: d :: s => ¬ (c = '=' ∧ d = '=') ∧ noEE (d :: s)

theorem find_noEE : ∀ {s : List Char}, noEE s → find ['=', '='] s = none := by
  intro s
  induction s with
  | nil => intro _; rfl
  | cons c s ih =>
    intro h
    cases s with
    | nil => simp [find, startsWith]
    | cons d s =>
      rw [find, ih h.2, if_neg]; · rfl
      simp only [startsWith, Bool.and_true, Bool.and_eq_true, beq_iff_eq]
      exact fun e => h.1 ⟨e.1.symm, e.2.symm⟩

theorem noEE_cons {c : Char} {s : List Char} (h : noEE s) (g : c = '=' → s.head? ≠ some '=') : noEE (c :: s) := by
  cases s with
  | nil => trivial
  | cons d s =>
    refine ⟨?_, h⟩
    rintro ⟨e, rfl⟩
    exact g e rfl

theorem noEE_append {w s : List Char} (hw : ∀ c ∈ w, c ≠ '=') (h : noEE s) : noEE (w ++ s) := by
  induction w with
  | nil => exact h
  | cons c w ih =>
    refine noEE_cons (ih fun d hd => hw d (by simp [hd])) ?_
    intro e; exact absurd e (hw c (by simp))

theorem noEE_render : ∀ {t : Tm}, t.WF → t.NoEE → ∀ {s : List Char}, noEE s → s.head? ≠ some '=' → noEE (t.render ++ s) := by
  intro t
  induction t with
  | nil => intro _ _ s h _; exact h
  | text c k ih =>
    intro hw hn s h g
    refine noEE_cons (ih hw.2.2 hn.2 h g) ?_
    intro e
    have := hn.1 e
    cases hk : k.render with
    | nil => exact g
    | cons d r => rw [hk] at this; exact this
  | var c k ih =>
    intro hw hn s h g
    refine noEE_cons (noEE_cons (ih hw.2 hn h g) ?_) ?_
    · intro e; exact absurd e (var_ne hw.1 (by decide))
    · intro e; exact absurd e (by decide)
  | expr e k ih =>
    intro hw hn s h g
    show noEE ('@' :: '(' :: ((e.show ++ ')' :: k.render) ++ s))
    rw [List.append_assoc]
    refine noEE_cons (noEE_cons (noEE_append (show_ne hw.1 (by decide)) (noEE_cons (ih hw.2 hn h g) ?_)) ?_) ?_ <;>
      · intro e; exact absurd e (by decide)
  | iter v lo hi sep body k ihb ihk =>
    intro hw hn s h g
    have hd : ∀ (c : Char) (s : List Char), c ≠ '=' → noEE s → noEE (c :: s) := fun c s hc hs => noEE_cons hs fun e => absurd e hc
    simp only [Tm.render, List.cons_append, List.append_assoc]
    refine hd _ _ (by decide) (hd _ _ (by decide) (hd _ _ (by decide) (hd _ _ (var_ne (digit_varChar hw.1) (by decide)) (hd _ _ (by decide)
      (noEE_append (show_ne hw.2.1 (by decide)) (hd _ _ (by decide) (noEE_append (show_ne hw.2.2.1 (by decide)) (noEE_append ?_
      (hd _ _ (by decide) (ihb hw.2.2.2.2.1 hn.2.1 (hd _ _ (by decide) (hd _ _ (by decide) (ihk hw.2.2.2.2.2 hn.2.2 h g))) ?_))))))))))
    · cases sep with
      | none => intro c hc; cases hc
      | some w =>
        intro c hc
        rcases List.mem_cons.1 hc with rfl | hc
        · decide
        · exact hn.1 c hc
    · simp
  | cond eq a b body k ihb ihk =>
    intro hw hn s h g
    have hd : ∀ (c : Char) (s : List Char), c ≠ '=' → noEE s → noEE (c :: s) := fun c s hc hs => noEE_cons hs fun e => absurd e hc
    obtain ⟨rfl, hn1, hn2⟩ := hn
    have hin : noEE (b.show ++ ':' :: (body.render ++ '@' :: ']' :: (k.render ++ s))) :=
      noEE_append (show_ne hw.2.1 (by decide))
        (hd _ _ (by decide) (ihb hw.2.2.2.1 hn1 (hd _ _ (by decide) (hd _ _ (by decide) (ihk hw.2.2.2.2 hn2 h g))) (by simp)))
    simp only [Tm.render, List.cons_append, List.append_assoc]
    refine hd _ _ (by decide) (hd _ _ (by decide) (noEE_append (show_ne hw.1 (by decide)) (hd _ _ (by decide) (noEE_cons hin ?_))))
    intro _
    cases hb : b.show with
    | nil => simp
    | cons d r =>
      have := show_ne hw.2.1 (d := '=') (by decide) d (by rw [hb]; simp)
      simpa using this

/-! ### The next directive -/

theorem findDir_cons (c : Char) (cs : List Char) (i : Nat) : findDir (c :: cs) i =
    if c = '@' then
      match cs with
      | d :: _ => if d = '[' ∨ d = '(' then some i else findDir cs (i + 1)
      | [] => none
    else findDir cs (i + 1) := by
  rw [findDir.eq_def]
  cases cs <;> rfl

theorem findDir_shift : ∀ (s : List Char) (i j : Nat), findDir s (i + j) = (findDir s i).map (· + j) := by
  intro s
  induction s with
  | nil => intro i j; rfl
  | cons c s ih =>
    intro i j
    have e := ih (i + 1) j
    rw [show i + 1 + j = i + j + 1 by omega] at e
    rw [findDir_cons, findDir_cons]
    split
    · split
      · split
        · rfl
        · exact e
      · rfl
    · exact e

theorem findDir_text {c : Char} {s : List Char} (h : c = '@' → ∀ d, s.head? = some d → d ∉ ['[', '(', ']']) :
    findDir (c :: s) 0 = (findDir s 0).map (· + 1) := by
  rw [← findDir_shift, findDir_cons]
  split
  · rename_i hc
    split
    · rename_i d r
      have := h hc d rfl
      simp only [List.mem_cons, List.not_mem_nil, or_false, not_or] at this
      rw [if_neg]
      exact fun e => e.elim this.1 this.2.1
    · rfl
  · rfl

/-- No counterpart in /repo: a character before the rest of the output. -/
def pre1 (c : Char) (r : R (List Char × Nat × Vars)) : R (List Char × Nat × Vars) := r.bind fun x => .ok (c :: x.1, x.2)

theorem doInput_text {c : Char} {s : List Char} (h : c = '@' → ∀ d, s.head? = some d → d ∉ ['[', '(', ']']) (f : Nat)
    (argv : List (Option Int)) (vars : Vars) : doInput f argv vars (c :: s) = pre1 c (doInput f argv vars s) := by
  cases f with
  | zero => rw [doInput, doInput]; rfl
  | succ f =>
    rw [doInput, doInput, findDir_text h]
    cases hd : findDir s 0 with
    | none => rfl
    | some p =>
      simp only [Option.map_some, List.take_succ_cons, List.drop_succ_cons]
      cases hs : sectionEnd (s.drop p) with
      | none => rfl
      | some e =>
        simp only
        cases hr : doSect f argv vars ((s.drop p).take e) with
        | error x => rfl
        | ok r =>
          obtain ⟨o, code, vars'⟩ := r
          cases code with
          | some k => rfl
          | none =>
            simp only [bind, Except.bind]
            cases doInput f argv vars' ((s.drop p).drop e) <;> rfl

/-! ### The end of a section -/

theorem endParen_skip {w : List Char} (h : ∀ c ∈ w, c ≠ '(' ∧ c ≠ ')') (s : List Char) (n : Int) (i : Nat) :
    endParen (w ++ s) n i = endParen s n (i + w.length) := by
  induction w generalizing i with
  | nil => rfl
  | cons c w ih =>
    have hc := h c (by simp)
    rw [List.cons_append, endParen]
    simp only [hc.1, hc.2, if_false]
    rw [ih fun d hd => h d (by simp [hd])]
    congr 1; simp; omega

theorem endParen_show : ∀ (e : E) (l : Nat), e.Ok l → ∀ (s : List Char) (n : Int) (i : Nat), 1 ≤ n →
    endParen (e.show ++ s) n i = endParen s n (i + e.show.length) := by
  intro e
  induction e with
  | num ds =>
    intro l h s n i _
    refine endParen_skip ?_ s n i
    intro c hc
    constructor <;> · rintro rfl; exact absurd (h.2 _ hc) (by decide)
  | var c =>
    intro l h s n i _
    have h : varChar c = true := h
    refine endParen_skip ?_ s n i
    intro d hd
    simp only [E.show, List.mem_cons, List.not_mem_nil, or_false] at hd
    rcases hd with rfl | rfl
    · decide
    · exact ⟨var_ne h (by decide), var_ne h (by decide)⟩
  | paren e ih =>
    intro l h s n i hn
    simp only [E.show, List.cons_append, List.append_assoc]
    rw [endParen]
    have h1 : ¬ ('(' = ')') := by decide
    simp only [if_true, h1, if_false]
    rw [ih 0 h _ _ _ (by omega), List.nil_append, endParen]
    have h2 : ¬ (')' = '(') := by decide
    have h3 : ¬ (n + 1 - 1 = 0) := by omega
    simp only [h2, if_false, if_true, h3]
    congr 1
    · omega
    · simp; omega
  | bin o a b iha ihb =>
    intro l h s n i hn
    simp only [E.show, List.cons_append, List.append_assoc]
    rw [iha _ h.2.1 _ _ _ hn]
    have := endParen_skip (w := [o.sign]) (by intro c hc; rw [List.mem_singleton.1 hc]; cases o <;> decide) (b.show ++ s) n (i + a.show.length)
    rw [List.singleton_append] at this
    rw [this, ihb _ h.2.2 _ _ _ hn]
    congr 1; simp; omega
  | sp t e ih =>
    intro l h s n i hn
    have := endParen_skip (w := [blankOf t]) (by intro c hc; rw [List.mem_singleton.1 hc]; cases t <;> decide) (e.show ++ s) n i
    rw [List.singleton_append] at this
    simp only [E.show, List.cons_append]
    rw [this, ih l h _ _ _ hn]
    congr 1; simp; omega
  | ps t e ih =>
    intro l h s n i hn
    have := endParen_skip (w := [blankOf t]) (by intro c hc; rw [List.mem_singleton.1 hc]; cases t <;> decide) s n (i + e.show.length)
    simp only [E.show, List.append_assoc]
    rw [ih l h _ _ _ hn, this]
    congr 1; simp; omega

theorem sectionEnd_expr {e : E} (h : e.Ok 0) (s : List Char) :
    sectionEnd ('@' :: '(' :: (e.show ++ ')' :: s)) = some (e.show.length + 3) := by
  show endParen ('@' :: '(' :: (e.show ++ ')' :: s)) 0 0 = _
  have h1 : ¬ ('@' = '(') := by decide
  have h2 : ¬ ('@' = ')') := by decide
  have h3 : ¬ ('(' = ')') := by decide
  have h4 : ¬ (')' = '(') := by decide
  rw [endParen]
  simp only [h1, h2, if_false]
  rw [endParen]
  simp only [h3, if_false, if_true]
  rw [endParen_show e 0 h _ _ _ (by omega), endParen]
  simp only [h4, if_false, if_true]
  simp
  omega

theorem endBracket_skip {w : List Char} (h : ∀ c ∈ w, c ≠ '@') : ∀ (s : List Char) (last : Char) (n : Int) (i : Nat), last ≠ '@' →
    ∃ last', last' ≠ '@' ∧ endBracket (w ++ s) last n i = endBracket s last' n (i + w.length) := by
  induction w with
  | nil => intro s last n i hl; exact ⟨last, hl, rfl⟩
  | cons c w ih =>
    intro s last n i hl
    obtain ⟨l', h1, h2⟩ := ih (fun d hd => h d (by simp [hd])) s c n (i + 1) (h c (by simp))
    refine ⟨l', h1, ?_⟩
    have n1 : ¬ (last = '@' ∧ c = '[') := fun e => hl e.1
    have n2 : ¬ (last = '@' ∧ c = ']') := fun e => hl e.1
    rw [List.cons_append, endBracket]
    simp only [n1, n2, if_false]
    rw [h2]
    congr 1; simp; omega

theorem endBracket_step {c last : Char} (h : last = '@' → c ≠ '[' ∧ c ≠ ']') (s : List Char) (n : Int) (i : Nat) :
    endBracket (c :: s) last n i = endBracket s c n (i + 1) := by
  have n1 : ¬ (last = '@' ∧ c = '[') := fun e => (h e.1).1 e.2
  have n2 : ¬ (last = '@' ∧ c = ']') := fun e => (h e.1).2 e.2
  rw [endBracket]
  simp only [n1, n2, if_false]

theorem endBracket_open (s : List Char) (n : Int) (i : Nat) : endBracket ('[' :: s) '@' n i = endBracket s '[' (n + 1) (i + 1) := by
  rw [endBracket]
  simp

theorem endBracket_close (s : List Char) (n : Int) (i : Nat) :
    endBracket (']' :: s) '@' n i = if n - 1 = 0 then some (i + 1) else endBracket s ']' (n - 1) (i + 1) := by
  rw [endBracket]
  simp

theorem endBracket_render : ∀ (t : Tm), t.WF → ∀ (s : List Char) (last : Char) (n : Int) (i : Nat), 1 ≤ n →
    (last = '@' → ∀ c, t.render.head? = some c → c ≠ '[' ∧ c ≠ ']') →
    ∃ last', endBracket (t.render ++ s) last n i = endBracket s last' n (i + t.render.length) := by
  intro t
  induction t with
  | nil => intro _ s last n i _ _; exact ⟨last, rfl⟩
  | text c k ih =>
    intro hw s last n i hn hl
    obtain ⟨l', e⟩ := ih hw.2.2 s c n (i + 1) hn (by
      intro hc d hd
      have := hw.2.1 hc d hd
      simp only [List.mem_cons, List.not_mem_nil, or_false, not_or] at this
      exact ⟨this.1, this.2.2⟩)
    refine ⟨l', ?_⟩
    simp only [Tm.render, List.cons_append]
    rw [endBracket_step (fun h => hl h c rfl), e]
    congr 1; simp; omega
  | var c k ih =>
    intro hw s last n i hn hl
    obtain ⟨l', e⟩ := ih hw.2 s c n (i + 1 + 1) hn (fun h => absurd h (var_ne hw.1 (by decide)))
    refine ⟨l', ?_⟩
    simp only [Tm.render, List.cons_append]
    rw [endBracket_step (fun _ => by decide), endBracket_step (fun h => absurd h (by decide)), e]
    congr 1; simp; omega
  | expr e k ih =>
    intro hw s last n i hn hl
    obtain ⟨l1, g1, e1⟩ := endBracket_skip (show_ne hw.1 (d := '@') (by decide)) (')' :: (k.render ++ s)) '(' n (i + 1 + 1) (by decide)
    obtain ⟨l', e2⟩ := ih hw.2 s ')' n (i + 1 + 1 + e.show.length + 1) hn (fun h => absurd h (by decide))
    refine ⟨l', ?_⟩
    simp only [Tm.render, List.cons_append, List.append_assoc]
    rw [endBracket_step (fun _ => by decide), endBracket_step (fun _ => by decide), e1, endBracket_step (fun _ => by decide), e2]
    congr 1; simp; omega
  | iter v lo hi sep body k ihb ihk =>
    intro hw s last n i hn hl
    have hno : ∀ c ∈ '$' :: v :: ',' :: (lo.show ++ ',' :: (hi.show ++ (sepText sep ++ [':']))), c ≠ '@' := by
      intro c hc
      simp only [List.mem_cons, List.mem_append, List.not_mem_nil, or_false] at hc
      rcases hc with rfl | rfl | rfl | hc | rfl | hc | hc | rfl
      · decide
      · exact var_ne (digit_varChar hw.1) (by decide)
      · decide
      · exact show_ne hw.2.1 (by decide) c hc
      · decide
      · exact show_ne hw.2.2.1 (by decide) c hc
      · exact sepText_no hw.2.2.2.1 (by simp) (by decide) c hc
      · decide
    obtain ⟨l1, g1, e1⟩ := endBracket_skip hno (body.render ++ '@' :: ']' :: (k.render ++ s)) '[' (n + 1) (i + 1 + 1) (by decide)
    obtain ⟨l2, e2⟩ := ihb hw.2.2.2.2.1 ('@' :: ']' :: (k.render ++ s)) l1 (n + 1)
      (i + 1 + 1 + ('$' :: v :: ',' :: (lo.show ++ ',' :: (hi.show ++ (sepText sep ++ [':'])))).length) (by omega) (fun h => absurd h g1)
    obtain ⟨l3, e3⟩ := ihk hw.2.2.2.2.2 s ']' n
      (i + 1 + 1 + ('$' :: v :: ',' :: (lo.show ++ ',' :: (hi.show ++ (sepText sep ++ [':'])))).length + body.render.length + 1 + 1) hn
      (fun h => absurd h (by decide))
    refine ⟨l3, ?_⟩
    have er : (Tm.iter v lo hi sep body k).render ++ s = '@' :: '[' :: (('$' :: v :: ',' :: (lo.show ++ ',' :: (hi.show ++ (sepText sep ++ [':'])))) ++
        (body.render ++ '@' :: ']' :: (k.render ++ s))) := by simp [Tm.render]
    rw [er, endBracket_step (fun _ => by decide), endBracket_open, e1, e2, endBracket_step (fun _ => by decide), endBracket_close,
      if_neg (by omega), show n + 1 - 1 = n by omega, e3]
    congr 1
    simp [Tm.render]; omega
  | cond eq a b body k ihb ihk =>
    intro hw s last n i hn hl
    have hno : ∀ c ∈ a.show ++ (cmpText eq ++ (b.show ++ [':'])), c ≠ '@' := by
      intro c hc
      simp only [List.mem_cons, List.mem_append, List.not_mem_nil, or_false] at hc
      rcases hc with hc | hc | hc | rfl
      · exact show_ne hw.1 (by decide) c hc
      · have : ∀ c ∈ cmpText eq, c ≠ '@' := by cases eq <;> decide
        exact this c hc
      · exact show_ne hw.2.1 (by decide) c hc
      · decide
    obtain ⟨l1, g1, e1⟩ := endBracket_skip hno (body.render ++ '@' :: ']' :: (k.render ++ s)) '[' (n + 1) (i + 1 + 1) (by decide)
    obtain ⟨l2, e2⟩ := ihb hw.2.2.2.1 ('@' :: ']' :: (k.render ++ s)) l1 (n + 1)
      (i + 1 + 1 + (a.show ++ (cmpText eq ++ (b.show ++ [':']))).length) (by omega) (fun h => absurd h g1)
    obtain ⟨l3, e3⟩ := ihk hw.2.2.2.2 s ']' n
      (i + 1 + 1 + (a.show ++ (cmpText eq ++ (b.show ++ [':']))).length + body.render.length + 1 + 1) hn
      (fun h => absurd h (by decide))
    refine ⟨l3, ?_⟩
    have er : (Tm.cond eq a b body k).render ++ s = '@' :: '[' :: ((a.show ++ (cmpText eq ++ (b.show ++ [':']))) ++
        (body.render ++ '@' :: ']' :: (k.render ++ s))) := by simp [Tm.render]
    rw [er, endBracket_step (fun _ => by decide), endBracket_open, e1, e2, endBracket_step (fun _ => by decide), endBracket_close,
      if_neg (by omega), show n + 1 - 1 = n by omega, e3]
    congr 1
    simp [Tm.render]; omega

/-- No counterpart in /repo: a section with a head without `@`. -/
theorem sectionEnd_bracket {h : List Char} (hh : ∀ c ∈ h, c ≠ '@') {body : Tm} (hw : body.WF) (s : List Char) :
    sectionEnd ('@' :: '[' :: (h ++ (body.render ++ '@' :: ']' :: s))) = some (h.length + body.render.length + 4) := by
  show endBracket ('@' :: '[' :: (h ++ (body.render ++ '@' :: ']' :: s))) (Char.ofNat 0) 0 0 = _
  obtain ⟨l1, g1, e1⟩ := endBracket_skip hh (body.render ++ '@' :: ']' :: s) '[' (0 + 1) (0 + 1 + 1) (by decide)
  obtain ⟨l2, e2⟩ := endBracket_render body hw ('@' :: ']' :: s) l1 (0 + 1) (0 + 1 + 1 + h.length) (by omega) (fun h => absurd h g1)
  rw [endBracket_step (fun h => absurd h (by decide)), endBracket_open, e1, e2, endBracket_step (fun _ => by decide), endBracket_close,
    if_pos (by omega)]
  simp; omega

/-! ### Which kind of section -/

theorem isIter_iter {v : Char} (h : isDigit v = true) (s : List Char) : isIter ('$' :: v :: ',' :: s) (Char.ofNat 0) 0 = .ok 2 := by
  obtain ⟨h1, h2⟩ := digit_ascii h
  have n1 : ¬ (v = ' ' ∨ v = '\t') := by
    rintro (rfl | rfl) <;> exact absurd h (by decide)
  have n2 : ¬ (0 = 0 ∧ '$' = '$' ∧ 128 ≤ v.toNat) := by rintro ⟨_, _, g⟩; omega
  have e1 : isIter ('$' :: v :: ',' :: s) (Char.ofNat 0) 0 = isIter (v :: ',' :: s) '$' 0 := by
    rw [isIter]; simp
  have e2 : isIter (v :: ',' :: s) '$' 0 = isIter (',' :: s) v 1 := by
    rw [isIter, if_neg n1, if_neg n2, if_pos ⟨rfl, rfl, h⟩]
  rw [e1, e2, isIter]
  simp

theorem isIter_stop {c : Char} (hc : c = '=' ∨ c = '!') (s : List Char) (last : Char) (n : Nat) (hn : n ≠ 2) :
    ∃ k, k ≠ 2 ∧ isIter (c :: s) last n = .ok k := by
  refine ⟨n, hn, ?_⟩
  rcases hc with rfl | rfl <;> · rw [isIter]; simp [isDigit]

theorem isIter_cond {c : Char} (hc : c = '=' ∨ c = '!') {w : List Char} (hw : ∀ d ∈ w, d ≠ ',' ∧ d.toNat < 128) (s : List Char) :
    ∀ (last : Char) (n : Nat), n ≠ 2 → ∃ k, k ≠ 2 ∧ isIter (w ++ c :: s) last n = .ok k := by
  induction w with
  | nil => intro last n hn; exact isIter_stop hc s last n hn
  | cons d w ih =>
    intro last n hn
    have ih := ih fun x hx => hw x (by simp [hx])
    obtain ⟨h1, h2⟩ := hw d (by simp)
    rw [List.cons_append, isIter]
    split
    · exact ih d n hn
    · split
      · rename_i g; exact absurd g.2.2 (by omega)
      · split
        · exact ih d 1 (by decide)
        · split
          · rename_i g; exact absurd g.2 h1
          · split
            · exact ih d n hn
            · exact ⟨n, hn, rfl⟩

end Verif.Shw
