import Verif.Shw.Tmpl
/-
`replace_vars` on the text of a template (for C84).
-/
namespace Verif.Shw

/-- No counterpart in /repo: all occurrences of `$x` replaced at once. -/
def rep (x : Char) (w : List Char) : List Char → List Char
  | [] => []
  | [c] => [c]
  | c :: d :: s => if c = '$' ∧ d = x then w ++ rep x w s else c :: rep x w (d :: s)

theorem rep_cons {x : Char} {w : List Char} {c : Char} (h : c ≠ '$') (s : List Char) : rep x w (c :: s) = c :: rep x w s := by
  cases s with
  | nil => rfl
  | cons d s => rw [rep, if_neg (fun e => h e.1)]

theorem rep_append {x : Char} {w v : List Char} (h : ∀ c ∈ v, c ≠ '$') (s : List Char) : rep x w (v ++ s) = v ++ rep x w s := by
  induction v with
  | nil => rfl
  | cons c v ih =>
    rw [List.cons_append, rep_cons (h c (by simp)), ih fun d hd => h d (by simp [hd])]; rfl

theorem rep_var {x : Char} {w : List Char} {d : Char} (h : d ≠ '$') (s : List Char) :
    rep x w ('$' :: d :: s) = if d = x then w ++ rep x w s else '$' :: d :: rep x w s := by
  rw [rep]
  by_cases e : d = x
  · rw [if_pos ⟨rfl, e⟩, if_pos e]
  · rw [if_neg (fun g => e g.2), if_neg e, rep_cons h]

theorem find_none {x : Char} (w : List Char) : ∀ {s : List Char}, find ['$', x] s = none → rep x w s = s := by
  intro s
  induction s with
  | nil => intro _; rfl
  | cons c s ih =>
    intro h
    rw [find] at h
    split at h
    · cases h
    · rename_i hs
      cases e : find ['$', x] s with
      | some p => rw [e] at h; cases h
      | none =>
        cases s with
        | nil => rfl
        | cons d s =>
          rw [rep, if_neg, ih e]
          rintro ⟨rfl, rfl⟩
          exact hs (by simp [startsWith])

theorem find_some {x : Char} (w : List Char) : ∀ {s : List Char} {p : Nat}, find ['$', x] s = some p →
    ∃ a b, s = a ++ '$' :: x :: b ∧ a.length = p ∧ rep x w s = a ++ (w ++ rep x w b) := by
  intro s
  induction s with
  | nil => intro p h; simp [find, startsWith] at h
  | cons c s ih =>
    intro p h
    rw [find] at h
    split at h
    · rename_i hs
      cases h
      cases s with
      | nil => simp [startsWith] at hs
      | cons d s =>
        simp only [startsWith, Bool.and_true, Bool.and_eq_true, beq_iff_eq] at hs
        obtain ⟨rfl, rfl⟩ := hs
        exact ⟨[], s, rfl, rfl, by rw [rep, if_pos ⟨rfl, rfl⟩]; rfl⟩
    · rename_i hs
      cases e : find ['$', x] s with
      | none => rw [e] at h; cases h
      | some q =>
        rw [e] at h; cases h
        obtain ⟨a, b, e1, e2, e3⟩ := ih e
        refine ⟨c :: a, b, by rw [e1]; rfl, by simp [e2], ?_⟩
        cases s with
        | nil => cases a <;> cases e1
        | cons d s =>
          rw [rep, if_neg, e3]; · rfl
          rintro ⟨rfl, rfl⟩
          exact hs (by simp [startsWith])

theorem findFrom_pre (what pre s : List Char) : findFrom what (pre ++ s) pre.length = (find what s).map (· + pre.length) := by
  unfold findFrom
  rw [if_neg (by simp), List.drop_left]

theorem replaceLoop_ok {x : Char} {w : List Char} (hw : ∀ c ∈ w, c ≠ '$') : ∀ (f : Nat) (pre s : List Char), s.count '$' ≤ f →
    replaceLoop ['$', x] w f (pre ++ s) (findFrom ['$', x] (pre ++ s) pre.length) = .ok (pre ++ rep x w s) := by
  intro f
  induction f with
  | zero =>
    intro pre s hc
    rw [findFrom_pre]
    cases e : find ['$', x] s with
    | none => rw [find_none w e]; rfl
    | some p =>
      obtain ⟨a, b, e1, _, _⟩ := find_some w e
      rw [e1] at hc
      simp at hc
  | succ f ih =>
    intro pre s hc
    rw [findFrom_pre]
    cases e : find ['$', x] s with
    | none => rw [find_none w e]; rfl
    | some p =>
      obtain ⟨a, b, e1, e2, e3⟩ := find_some w e
      simp only [Option.map_some]
      rw [replaceLoop]
      have h1 : (pre ++ s).take (p + pre.length) = pre ++ a := by
        rw [e1, ← List.append_assoc, List.take_left' (by simp [e2]; omega)]
      have h2 : (pre ++ s).drop (p + pre.length + ['$', x].length) = b := by
        have : pre ++ s = (pre ++ a ++ ['$', x]) ++ b := by rw [e1]; simp
        rw [this, List.drop_left' (by simp [e2]; omega)]
      simp only [h1, h2]
      have hl : p + pre.length = (pre ++ a).length := by simp [e2]; omega
      rw [hl, List.append_assoc (pre ++ a) w b, ih (pre ++ a) (w ++ b), e3]
      · rw [rep_append hw]; simp
      · have hwc : w.count '$' = 0 := List.count_eq_zero.2 fun hm => hw _ hm rfl
        rw [List.count_append, hwc]
        rw [e1, List.count_append, List.count_cons] at hc
        have : b.count '$' ≤ (x :: b).count '$' := by rw [List.count_cons]; omega
        simp at hc
        omega

theorem doReplace_ok {x : Char} {w : List Char} (hw : ∀ c ∈ w, c ≠ '$') (s : List Char) {f : Nat} (h : s.count '$' ≤ f) :
    doReplace f ['$', x] w s = .ok (rep x w s) := replaceLoop_ok hw f [] s h

/-! ### On templates -/

/-- No counterpart in /repo: one variable. -/
def single (x : Char) (n : Nat) : Char → Option Nat := fun c => if c = x then some n else none

theorem natText_no (n : Nat) : ∀ c ∈ natText n, c ≠ '$' := by
  rintro c hc rfl; exact absurd (natText_digits n _ hc) (by decide)

theorem rep_show {x : Char} (n : Nat) : ∀ (e : E) (l : Nat), e.Ok l → ∀ s,
    rep x (natText n) (e.show ++ s) = (e.subst (single x n)).show ++ rep x (natText n) s := by
  intro e
  induction e with
  | num ds => intro l h s; exact rep_append (fun c hc => by rintro rfl; exact absurd (h.2 _ hc) (by decide)) s
  | var c =>
    intro l h s
    show rep x (natText n) ('$' :: c :: s) = _
    rw [rep_var (var_ne h (by decide))]
    by_cases e : c = x
    · simp [E.subst, single, e, E.show]
    · simp [E.subst, single, e, E.show]
  | paren e ih =>
    intro l h s
    simp only [E.show, E.subst, List.cons_append, List.append_assoc]
    rw [rep_cons (by decide), ih 0 h, List.nil_append, rep_cons (by decide)]
    rfl
  | bin o a b iha ihb =>
    intro l h s
    simp only [E.show, E.subst, List.cons_append, List.append_assoc]
    rw [iha _ h.2.1, rep_cons (by cases o <;> decide), ihb _ h.2.2]
  | sp t e ih =>
    intro l h s
    simp only [E.show, E.subst, List.cons_append]
    rw [rep_cons (by cases t <;> decide), ih l h]
  | ps t e ih =>
    intro l h s
    simp only [E.show, E.subst, List.cons_append, List.append_assoc]
    rw [ih l h, rep_cons (by cases t <;> decide)]
    rfl

theorem sepText_no {sep : Option (List Char)} {S : List Char} {d : Char} (h : ∀ c ∈ sep.getD [], c ∉ S) (hd : d ∈ S) (hb : d ≠ '|') :
    ∀ c ∈ sepText sep, c ≠ d := by
  cases sep with
  | none => intro c hc; cases hc
  | some s =>
    rintro c hc rfl
    rcases List.mem_cons.1 hc with rfl | hc
    · exact hb rfl
    · exact h c hc hd

theorem rep_render {x : Char} (n : Nat) : ∀ (t : Tm) (S : List Char), t.WF → t.Fresh S → (isDigit x = true → x ∈ S) → ∀ s,
    rep x (natText n) (t.render ++ s) = (t.subst (single x n)).render ++ rep x (natText n) s := by
  intro t
  induction t with
  | nil => intros; rfl
  | text c k ih =>
    intro S hw hf hx s
    simp only [Tm.render, Tm.subst, List.cons_append]
    rw [rep_cons hw.1, ih S hw.2.2 hf hx]
  | var c k ih =>
    intro S hw hf hx s
    simp only [Tm.render, List.cons_append]
    rw [rep_var (var_ne hw.1 (by decide)), ih S hw.2 hf hx]
    by_cases e : c = x
    · simp [Tm.subst, single, e, texts_render]
    · simp [Tm.subst, single, e, Tm.render]
  | expr e k ih =>
    intro S hw hf hx s
    simp only [Tm.render, Tm.subst, List.cons_append, List.append_assoc]
    rw [rep_cons (by decide), rep_cons (by decide), rep_show n e 0 hw.1, rep_cons (by decide), ih S hw.2 hf hx]
  | iter v lo hi sep body k ihb ihk =>
    intro S hw hf hx s
    have hv : v ≠ x := by rintro rfl; exact hf.1 (hx hw.1)
    simp only [Tm.render, Tm.subst, List.cons_append, List.append_assoc]
    rw [rep_cons (by decide), rep_cons (by decide), rep_var (var_ne (digit_varChar hw.1) (by decide)), if_neg hv, rep_cons (by decide),
      rep_show n lo 0 hw.2.1, rep_cons (by decide), rep_show n hi 0 hw.2.2.1,
      rep_append (sepText_no hw.2.2.2.1 (by simp) (by decide)), rep_cons (by decide),
      ihb (v :: S) hw.2.2.2.2.1 hf.2.1 (fun h => by simp [hx h]), rep_cons (by decide), rep_cons (by decide),
      ihk S hw.2.2.2.2.2 hf.2.2 hx]
  | cond eq a b body k ihb ihk =>
    intro S hw hf hx s
    simp only [Tm.render, Tm.subst, List.cons_append, List.append_assoc]
    rw [rep_cons (by decide), rep_cons (by decide), rep_show n a 0 hw.1, rep_append (by cases eq <;> decide), rep_show n b 0 hw.2.1,
      rep_cons (by decide), ihb S hw.2.2.2.1 hf.1 hx, rep_cons (by decide), rep_cons (by decide), ihk S hw.2.2.2.2 hf.2 hx]

theorem E.subst_nothing (e : E) : e.subst (fun _ => none) = e := by
  induction e with
  | num ds => rfl
  | var c => rfl
  | paren e ih => simp only [E.subst, ih]
  | bin o a b iha ihb => simp only [E.subst, iha, ihb]
  | sp t e ih => simp only [E.subst, ih]
  | ps t e ih => simp only [E.subst, ih]

theorem subst_nothing (t : Tm) : t.subst (fun _ => none) = t := by
  induction t with
  | nil => rfl
  | text c k ih => simp only [Tm.subst, ih]
  | var c k ih => simp only [Tm.subst, ih]
  | expr e k ih => simp only [Tm.subst, ih, E.subst_nothing]
  | iter v lo hi sep body k ihb ihk => simp only [Tm.subst, ihb, ihk, E.subst_nothing]
  | cond eq a b body k ihb ihk => simp only [Tm.subst, ihb, ihk, E.subst_nothing]

/-! ### The two loops -/

/-- No counterpart in /repo: the arguments from the `i`th on. -/
def argEnv : List Nat → Nat → Char → Option Nat
  | [], _ => fun _ => none
  | a :: as, i => orElse (single (Char.ofNat (97 + i)) a) (argEnv as (i + 1))

/-- No counterpart in /repo: `n` variables from `k` on. -/
def keyEnv (vars : Vars) : Nat → Nat → Char → Option Nat
  | 0, _ => fun _ => none
  | n + 1, k => match vars k with
    | none => keyEnv vars n (k + 1)
    | some v => orElse (single (Char.ofNat (48 + k)) v.toNat) (keyEnv vars n (k + 1))

/-- No counterpart in /repo: what is put in. -/
def env (args : List Nat) (vars : Vars) : Char → Option Nat := orElse (argEnv args 0) (keyEnv vars 10 0)

/-- No counterpart in /repo: the variables are digits and have values that are not negative; `S` are the taken ones. -/
def VarsOk (vars : Vars) (S : List Char) : Prop := ∀ k v, vars k = some v → k < 10 ∧ 0 ≤ v ∧ Char.ofNat (48 + k) ∈ S

/-- No counterpart in /repo: the arguments as given to `do_input`. -/
def argvOf (args : List Nat) : List (Option Int) := args.map fun a : Nat => some (a : Int)

theorem ofNat_toNat {n : Nat} (h : n < 128) : (Char.ofNat n).toNat = n := by
  have : ∀ n < 128, (Char.ofNat n).toNat = n := by decide
  exact this n h

theorem letter_not_digit {i : Nat} (h : i < 26) : isDigit (Char.ofNat (97 + i)) = false := by
  have : ∀ i < 26, isDigit (Char.ofNat (97 + i)) = false := by decide
  exact this i h

theorem replaceArgs_ok : ∀ (args : List Nat) (i : Nat) (t : Tm) (S : List Char), t.WF → t.Fresh S → i + args.length ≤ 26 →
    ∃ F, ∀ f, F ≤ f → replaceArgs f (argvOf args) i t.render = .ok (t.subst (argEnv args i)).render := by
  intro args
  induction args with
  | nil => intro i t S _ _ _; exact ⟨0, fun f _ => by rw [argEnv, subst_nothing]; rfl⟩
  | cons a as ih =>
    intro i t S hw hf hl
    simp only [List.length_cons] at hl
    obtain ⟨F, h⟩ := ih (i + 1) (t.subst (single (Char.ofNat (97 + i)) a)) S (subst_wf _ hw) (subst_fresh _ hf) (by omega)
    refine ⟨max F (t.render.count '$'), ?_⟩
    intro f hf'
    have e1 := doReplace_ok (x := Char.ofNat (97 + i)) (natText_no a) t.render (f := f) (by omega)
    have e2 := rep_render (x := Char.ofNat (97 + i)) a t S hw hf (fun h => by rw [letter_not_digit (by omega)] at h; cases h) []
    rw [List.append_nil] at e2
    show (doReplace f ['$', Char.ofNat (97 + i)] (intText (a : Int)) t.render >>= fun s => replaceArgs f (argvOf as) (i + 1) s) = _
    rw [intText_nat, e1, e2]
    show replaceArgs f (argvOf as) (i + 1) ((t.subst (single (Char.ofNat (97 + i)) a)).render ++ []) = _
    rw [List.append_nil, h f (by omega), subst_subst]
    rfl

theorem replaceKeys_ok {vars : Vars} {S : List Char} (hv : VarsOk vars S) : ∀ (n k : Nat) (t : Tm), t.WF → t.Fresh S →
    ∃ F, ∀ f, F ≤ f → replaceKeys f vars n k t.render = .ok (t.subst (keyEnv vars n k)).render := by
  intro n
  induction n with
  | zero => intro k t _ _; exact ⟨0, fun f _ => by rw [keyEnv, subst_nothing]; rfl⟩
  | succ n ih =>
    intro k t hw hf
    cases hk : vars k with
    | none =>
      obtain ⟨F, h⟩ := ih (k + 1) t hw hf
      refine ⟨F, ?_⟩
      intro f hf'
      rw [replaceKeys, keyEnv]
      simp only [hk]
      exact h f hf'
    | some v =>
      obtain ⟨h10, h0, hS⟩ := hv k v hk
      obtain ⟨F, h⟩ := ih (k + 1) (t.subst (single (Char.ofNat (48 + k)) v.toNat)) (subst_wf _ hw) (subst_fresh _ hf)
      refine ⟨max F (t.render.count '$'), ?_⟩
      intro f hf'
      have e1 := doReplace_ok (x := Char.ofNat (48 + k)) (natText_no v.toNat) t.render (f := f) (by omega)
      have e2 := rep_render (x := Char.ofNat (48 + k)) v.toNat t S hw hf (fun _ => hS) []
      rw [List.append_nil] at e2
      have ev : intText v = natText v.toNat := by
        have : v = (v.toNat : Int) := by omega
        rw [this, intText_nat]; rfl
      rw [replaceKeys, keyEnv]
      simp only [hk]
      rw [ev, e1, e2]
      show replaceKeys f vars n (k + 1) ((t.subst (single (Char.ofNat (48 + k)) v.toNat)).render ++ []) = _
      rw [List.append_nil, h f (by omega), subst_subst]

theorem replaceVars_ok {args : List Nat} {vars : Vars} {S : List Char} (ha : args.length ≤ 10) (hv : VarsOk vars S) {t : Tm} (hw : t.WF)
    (hf : t.Fresh S) : ∃ F, ∀ f, F ≤ f → replaceVars f (argvOf args) vars t.render = .ok (t.subst (env args vars)).render := by
  obtain ⟨F, h⟩ := replaceArgs_ok args 0 t S hw hf (by omega)
  obtain ⟨G, g⟩ := replaceKeys_ok hv 10 0 (t.subst (argEnv args 0)) (subst_wf _ hw) (subst_fresh _ hf)
  refine ⟨max F G, ?_⟩
  intro f hf'
  unfold replaceVars
  rw [h f (by omega)]
  show replaceKeys f vars 10 0 (t.subst (argEnv args 0)).render = _
  rw [g f (by omega), subst_subst]
  rfl

/-! ### What is put in for which character -/

theorem char_eq {c : Char} {n : Nat} (h : n < 128) : c = Char.ofNat n ↔ c.toNat = n := by
  constructor
  · rintro rfl; exact ofNat_toNat h
  · intro e; rw [← e]; exact (Char.ofNat_toNat c).symm

theorem argEnv_eq : ∀ (args : List Nat) (i : Nat), i + args.length ≤ 26 → ∀ c, argEnv args i c = if 97 + i ≤ c.toNat then args[c.toNat - (97 + i)]? else none := by
  intro args
  induction args with
  | nil => intro i _ c; simp [argEnv]
  | cons a as ih =>
    intro i hl c
    simp only [List.length_cons] at hl
    simp only [argEnv, orElse, single, ih (i + 1) (by omega) c]
    by_cases e : c = Char.ofNat (97 + i)
    · have := (char_eq (by omega)).1 e
      simp [e, ofNat_toNat (show 97 + i < 128 by omega)]
    · have hne : c.toNat ≠ 97 + i := fun h => e ((char_eq (by omega)).2 h)
      simp only [if_neg e]
      by_cases hc : 97 + i ≤ c.toNat
      · rw [if_pos hc, if_pos (by omega)]
        obtain ⟨d, hd⟩ : ∃ d, c.toNat - (97 + i) = d + 1 := ⟨c.toNat - (97 + i) - 1, by omega⟩
        rw [hd, show c.toNat - (97 + (i + 1)) = d by omega]; rfl
      · rw [if_neg hc, if_neg (by omega)]

theorem keyEnv_eq {vars : Vars} : ∀ (n k : Nat), k + n ≤ 10 → ∀ c, keyEnv vars n k c =
    if 48 + k ≤ c.toNat ∧ c.toNat < 48 + k + n then (vars (c.toNat - 48)).map Int.toNat else none := by
  intro n
  induction n with
  | zero => intro k _ c; rw [if_neg (by omega)]; rfl
  | succ n ih =>
    intro k hk c
    rw [keyEnv]
    by_cases e : c = Char.ofNat (48 + k)
    · have hc := (char_eq (by omega)).1 e
      rw [if_pos (by omega), show c.toNat - 48 = k by omega]
      cases hv : vars k with
      | none => simp only; rw [ih (k + 1) (by omega), if_neg (by omega)]; rfl
      | some v => simp [orElse, single, e]
    · have hne : c.toNat ≠ 48 + k := fun h => e ((char_eq (by omega)).2 h)
      have e1 : (match vars k with | none => keyEnv vars n (k + 1) | some v => orElse (single (Char.ofNat (48 + k)) v.toNat) (keyEnv vars n (k + 1))) c =
          keyEnv vars n (k + 1) c := by
        cases vars k with
        | none => rfl
        | some v => simp [orElse, single, e]
      rw [e1, ih (k + 1) (by omega)]
      by_cases hc : 48 + k ≤ c.toNat ∧ c.toNat < 48 + k + (n + 1)
      · rw [if_pos hc, if_pos (by omega)]
      · rw [if_neg hc, if_neg (by omega)]

theorem env_digit {args : List Nat} (ha : args.length ≤ 10) (vars : Vars) {c : Char} (h : isDigit c = true) :
    env args vars c = (vars (c.toNat - 48)).map Int.toNat := by
  obtain ⟨h1, h2⟩ := digit_ascii h
  unfold env orElse
  rw [argEnv_eq args 0 (by omega), if_neg (by omega)]
  simp only
  rw [keyEnv_eq 10 0 (by omega), if_pos (by omega)]

theorem env_letter {args : List Nat} (ha : args.length ≤ 10) (vars : Vars) {c : Char} (h : isDigit c = false) :
    env args vars c = if 97 ≤ c.toNat then args[c.toNat - 97]? else none := by
  have hn : ¬ (48 ≤ c.toNat ∧ c.toNat ≤ 57) := by
    intro g; simp [isDigit, g.1, g.2] at h
  unfold env orElse
  have hn2 : ¬ (48 + 0 ≤ c.toNat ∧ c.toNat < 48 + 0 + 10) := by omega
  rw [argEnv_eq args 0 (by omega), keyEnv_eq 10 0 (by omega), if_neg hn2]
  simp only [Nat.add_zero]
  cases (if 97 ≤ c.toNat then args[c.toNat - 97]? else none) <;> rfl

theorem env_set {args : List Nat} (ha : args.length ≤ 10) (vars : Vars) {v : Char} (h : isDigit v = true) (n : Nat) :
    env args (vars.set (v.toNat - 48) (some (n : Int))) = upd (env args vars) v n := by
  funext c
  unfold upd
  obtain ⟨h1, h2⟩ := digit_ascii h
  by_cases e : c = v
  · subst e
    rw [env_digit ha _ h, if_pos rfl]; simp [Vars.set]
  · rw [if_neg e]
    cases hc : isDigit c with
    | true =>
      obtain ⟨h3, h4⟩ := digit_ascii hc
      rw [env_digit ha _ hc, env_digit ha _ hc]
      have : c.toNat - 48 ≠ v.toNat - 48 := by
        intro g
        apply e
        rw [← Char.ofNat_toNat c, ← Char.ofNat_toNat v, show c.toNat = v.toNat by omega]
      simp [Vars.set, this]
    | false => rw [env_letter ha _ hc, env_letter ha _ hc]

theorem env_fresh {args : List Nat} (ha : args.length ≤ 10) {vars : Vars} {S : List Char} (hv : VarsOk vars S) :
    ∀ c, isDigit c = true → c ∉ S → env args vars c = none := by
  intro c hc hS
  rw [env_digit ha _ hc]
  obtain ⟨h1, h2⟩ := digit_ascii hc
  cases e : vars (c.toNat - 48) with
  | none => rfl
  | some v =>
    refine absurd (hv _ v e).2.2 ?_
    rw [show 48 + (c.toNat - 48) = c.toNat by omega, Char.ofNat_toNat]
    exact hS

end Verif.Shw
