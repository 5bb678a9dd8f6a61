import Verif.Shw.ExprSound
/-
Templates: their text, what they mean, and how variables are put in (for C84).
-/
namespace Verif.Shw

/-! ### Spec -/

/-- Specification: a template: text, a variable, an expression `@(…)`, an iteration `@[$v,lo,hi|sep:body@]`, a condition
`@[a==b:body@]` or `@[a!=b:body@]`. -/
inductive Tm
  | nil
  | text (c : Char) (k : Tm)
  | var (c : Char) (k : Tm)
  | expr (e : E) (k : Tm)
  | iter (v : Char) (lo hi : E) (sep : Option (List Char)) (body k : Tm)
  | cond (eq : Bool) (a b : E) (body k : Tm)
  deriving DecidableEq, Repr

/-- Specification: the text of a separator. -/
def sepText : Option (List Char) → List Char
  | none => []
  | some s => '|' :: s

/-- Specification: the text of a comparison. -/
def cmpText (eq : Bool) : List Char := if eq then ['=', '='] else ['!', '=']

/-- Specification: the text of a template. -/
def Tm.render : Tm → List Char
  | .nil => []
  | .text c k => c :: k.render
  | .var c k => '$' :: c :: k.render
  | .expr e k => '@' :: '(' :: (e.show ++ ')' :: k.render)
  | .iter v lo hi sep body k =>
    '@' :: '[' :: '$' :: v :: ',' :: (lo.show ++ ',' :: (hi.show ++ (sepText sep ++ ':' :: (body.render ++ '@' :: ']' :: k.render))))
  | .cond eq a b body k => '@' :: '[' :: (a.show ++ (cmpText eq ++ (b.show ++ ':' :: (body.render ++ '@' :: ']' :: k.render))))

/-- Specification: one more variable. -/
def upd (ρ : Char → Option Nat) (v : Char) (n : Nat) : Char → Option Nat := fun c => if c = v then some n else ρ c

/-- Specification: all of them, if all are defined. -/
def allSome {α : Type} : List (Option α) → Option (List α)
  | [] => some []
  | x :: xs => x.bind fun a => (allSome xs).map (a :: ·)

/-- Specification: the texts one after another, `sep` between each two. -/
def joined (sep : List Char) : List (List Char) → List Char
  | [] => []
  | [x] => x
  | x :: y :: xs => x ++ sep ++ joined sep (y :: xs)

/-- Specification: the numbers from `lo` to `hi`. -/
def fromTo (lo hi : Nat) : List Nat := List.range' lo (hi + 1 - lo)

/-- Specification: the number in decimal digits. -/
def decimal (n : Nat) : List Char := if n < 10 then [Char.ofNat (48 + n)] else decimal (n / 10) ++ [Char.ofNat (48 + n % 10)]

/-- Specification: the same with a sign. -/
def decimalInt (x : Int) : List Char := if x < 0 then '-' :: decimal x.natAbs else decimal x.natAbs

/-- Specification: what a template stands for where the variables are given by `ρ`; `none`: nothing is promised.  Outside of all
iterations (`inside = false`) variables are put in for in expressions and in the bounds of iterations only. -/
def Tm.sem (ρ : Char → Option Nat) (inside : Bool) : Tm → Option (List Char)
  | .nil => some []
  | .text c k => (k.sem ρ inside).map (c :: ·)
  | .var c k => (k.sem ρ inside).map ((match (if inside then ρ c else none) with | some n => decimal n | none => ['$', c]) ++ ·)
  | .expr e k => (e.val ρ).bind fun v => (k.sem ρ inside).map (decimalInt v ++ ·)
  | .iter v lo hi sep body k =>
    (lo.val ρ).bind fun l => (hi.val ρ).bind fun h =>
      (if h < l then some [] else if l < 0 ∨ 2147483647 ≤ h then none else
        (allSome ((fromTo l.toNat h.toNat).map fun i => body.sem (upd ρ v i) true)).map (joined (sep.getD []))).bind fun o =>
      (k.sem ρ inside).map (o ++ ·)
  | .cond eq a b body k =>
    (a.val (if inside then ρ else fun _ => none)).bind fun x => (b.val (if inside then ρ else fun _ => none)).bind fun y =>
      (if (x == y) = eq then body.sem ρ inside else some []).bind fun o => (k.sem ρ inside).map (o ++ ·)

/-- Specification: nowhere two `=` in a row. -/
def Tm.NoEE : Tm → Prop
  | .nil => True
  | .text c k => (c = '=' → k.render.head? ≠ some '=') ∧ k.NoEE
  | .var _ k => k.NoEE
  | .expr _ k => k.NoEE
  | .iter _ _ _ sep body k => (∀ c ∈ sep.getD [], c ≠ '=') ∧ body.NoEE ∧ k.NoEE
  | .cond eq _ _ body k => eq = false ∧ body.NoEE ∧ k.NoEE

/-- Specification: templates that can be told apart from their text: a `$` is that of a variable, an `@` of the text is not followed by a
bracket, a separator contains no `:`, `@`, `$`, and what a `!=` governs contains no `==`. -/
def Tm.WF : Tm → Prop
  | .nil => True
  | .text c k => c ≠ '$' ∧ (c = '@' → ∀ d, k.render.head? = some d → d ∉ ['[', '(', ']']) ∧ k.WF
  | .var c k => varChar c = true ∧ k.WF
  | .expr e k => e.Ok 0 ∧ k.WF
  | .iter v lo hi sep body k => isDigit v = true ∧ lo.Ok 0 ∧ hi.Ok 0 ∧ (∀ c ∈ sep.getD [], c ∉ [':', '@', '$']) ∧ body.WF ∧ k.WF
  | .cond eq a b body k => a.Ok 0 ∧ b.Ok 0 ∧ (eq = false → body.NoEE) ∧ body.WF ∧ k.WF

/-- Specification: no iteration uses a variable that is taken. -/
def Tm.Fresh (S : List Char) : Tm → Prop
  | .nil => True
  | .text _ k => k.Fresh S
  | .var _ k => k.Fresh S
  | .expr _ k => k.Fresh S
  | .iter v _ _ _ body k => v ∉ S ∧ body.Fresh (v :: S) ∧ k.Fresh S
  | .cond _ _ _ body k => body.Fresh S ∧ k.Fresh S

/-! ### Substitution -/

/-- No counterpart in /repo: a text as a template. -/
def texts : List Char → Tm → Tm
  | [], k => k
  | c :: cs, k => .text c (texts cs k)

/-- No counterpart in /repo: substitution in an expression. -/
def E.subst (ρ : Char → Option Nat) : E → E
  | .num ds => .num ds
  | .var c => match ρ c with | some n => .num (natText n) | none => .var c
  | .paren e => .paren (e.subst ρ)
  | .bin o a b => .bin o (a.subst ρ) (b.subst ρ)
  | .sp t e => .sp t (e.subst ρ)
  | .ps t e => .ps t (e.subst ρ)

/-- No counterpart in /repo: substitution. -/
def Tm.subst (ρ : Char → Option Nat) : Tm → Tm
  | .nil => .nil
  | .text c k => .text c (k.subst ρ)
  | .var c k => match ρ c with | some n => texts (natText n) (k.subst ρ) | none => .var c (k.subst ρ)
  | .expr e k => .expr (e.subst ρ) (k.subst ρ)
  | .iter v lo hi sep body k => .iter v (lo.subst ρ) (hi.subst ρ) sep (body.subst ρ) (k.subst ρ)
  | .cond eq a b body k => .cond eq (a.subst ρ) (b.subst ρ) (body.subst ρ) (k.subst ρ)

/-- No counterpart in /repo: the number of directives. -/
def Tm.dirs : Tm → Nat
  | .nil => 0
  | .text _ k => k.dirs
  | .var _ k => k.dirs
  | .expr _ k => k.dirs + 1
  | .iter _ _ _ _ body k => body.dirs + k.dirs + 1
  | .cond _ _ _ body k => body.dirs + k.dirs + 1

/-! #### Digits -/

theorem decimal_eq (n : Nat) : decimal n = natText n := by
  induction n using Nat.strongRecOn with
  | _ n ih =>
    rw [decimal, natText]
    split
    · rfl
    · rw [ih (n / 10) (by omega)]

theorem decimalInt_eq (x : Int) : decimalInt x = intText x := by simp only [decimalInt, intText, decimal_eq]

theorem intText_nat (n : Nat) : intText (n : Int) = natText n := by
  unfold intText; rw [if_neg (by omega)]; rfl

theorem digit_toNat {k : Nat} (h : k < 10) : (Char.ofNat (48 + k)).toNat = 48 + k := by
  have : ∀ k < 10, (Char.ofNat (48 + k)).toNat = 48 + k := by decide
  exact this k h

theorem natText_digits (n : Nat) : ∀ c ∈ natText n, isDigit c = true := by
  induction n using Nat.strongRecOn with
  | _ n ih =>
    rw [natText]
    have hd : ∀ k < 10, isDigit (Char.ofNat (48 + k)) = true := by decide
    split
    · intro c hc; rw [List.mem_singleton.1 hc]; exact hd n (by assumption)
    · intro c hc
      rcases List.mem_append.1 hc with hc | hc
      · exact ih (n / 10) (by omega) c hc
      · rw [List.mem_singleton.1 hc]; exact hd _ (Nat.mod_lt _ (by decide))

theorem natText_ne (n : Nat) : natText n ≠ [] := by
  rw [natText]; split <;> simp

theorem digitsVal_natText (n : Nat) : digitsVal (natText n) = n := by
  induction n using Nat.strongRecOn with
  | _ n ih =>
    rw [natText]
    split
    · rename_i h
      simp only [digitsVal, List.foldl_cons, List.foldl_nil, digit_toNat h]; omega
    · have e := ih (n / 10) (by omega)
      unfold digitsVal at e ⊢
      rw [List.foldl_append, e]
      simp only [List.foldl_cons, List.foldl_nil, digit_toNat (Nat.mod_lt n (by decide : 0 < 10))]
      omega

theorem digit_varChar {c : Char} (h : isDigit c = true) : varChar c = true := by simp [varChar, h]

theorem var_range {c : Char} (h : varChar c = true) : (48 ≤ c.toNat ∧ c.toNat ≤ 57) ∨ (97 ≤ c.toNat ∧ c.toNat ≤ 122) := by
  unfold varChar at h
  rcases Bool.or_eq_true _ _ ▸ h with h | h
  · exact .inl (digit_ascii h)
  · exact .inr (by simpa using h)

theorem var_ne {c d : Char} (h : varChar c = true) (hd : varChar d = false) : c ≠ d := by
  rintro rfl; rw [h] at hd; cases hd

/-! #### Expressions -/

/-- No counterpart in /repo: the characters of expressions. -/
def eChar (c : Char) : Bool := varChar c || c == '$' || c == '(' || c == ')' || c == '+' || c == '-' || c == '*' || c == '/' || c == '%' ||
  c == ' ' || c == '\t'

theorem show_chars : ∀ (e : E) (l : Nat), e.Ok l → ∀ c ∈ e.show, eChar c = true := by
  intro e
  induction e with
  | num ds => intro l h c hc; simp [eChar, digit_varChar (h.2 c hc)]
  | var d =>
    intro l h c hc
    have h : varChar d = true := h
    simp only [E.show, List.mem_cons, List.not_mem_nil, or_false] at hc
    rcases hc with rfl | rfl
    · decide
    · simp [eChar, h]
  | paren e ih =>
    intro l h c hc
    simp only [E.show, List.mem_cons, List.mem_append, List.not_mem_nil, or_false] at hc
    rcases hc with rfl | hc | rfl
    · decide
    · exact ih 0 h c hc
    · decide
  | bin o a b iha ihb =>
    intro l h c hc
    simp only [E.show, List.mem_cons, List.mem_append] at hc
    rcases hc with hc | rfl | hc
    · exact iha _ h.2.1 c hc
    · cases o <;> decide
    · exact ihb _ h.2.2 c hc
  | sp t e ih =>
    intro l h c hc
    simp only [E.show, List.mem_cons] at hc
    rcases hc with rfl | hc
    · cases t <;> decide
    · exact ih l h c hc
  | ps t e ih =>
    intro l h c hc
    simp only [E.show, List.mem_cons, List.mem_append, List.not_mem_nil, or_false] at hc
    rcases hc with hc | rfl
    · exact ih l h c hc
    · cases t <;> decide

theorem show_ne {e : E} {l : Nat} (h : e.Ok l) {d : Char} (hd : eChar d = false) : ∀ c ∈ e.show, c ≠ d := by
  rintro c hc rfl
  rw [show_chars e l h c hc] at hd; cases hd

theorem show_ascii {e : E} {l : Nat} (h : e.Ok l) : ∀ c ∈ e.show, c.toNat < 128 := by
  intro c hc
  have := show_chars e l h c hc
  simp only [eChar, Bool.or_eq_true, beq_iff_eq] at this
  rcases this with (((((((((h | rfl) | rfl) | rfl) | rfl) | rfl) | rfl) | rfl) | rfl) | rfl) | rfl
  · have := var_range h; omega
  all_goals decide

theorem E.subst_ok (ρ : Char → Option Nat) : ∀ (e : E) (l : Nat), e.Ok l → (e.subst ρ).Ok l := by
  intro e
  induction e with
  | num ds => intro l h; exact h
  | var c =>
    intro l h
    unfold E.subst
    split
    · exact ⟨natText_ne _, natText_digits _⟩
    · exact h
  | paren e ih => intro l h; exact ih 0 h
  | bin o a b iha ihb => intro l h; exact ⟨h.1, iha _ h.2.1, ihb _ h.2.2⟩
  | sp t e ih => intro l h; exact ih l h
  | ps t e ih => intro l h; exact ih l h

/-- No counterpart in /repo: less is given. -/
def Sub (ρ ρ' : Char → Option Nat) : Prop := ∀ c n, ρ c = some n → ρ' c = some n

theorem Sub.refl (ρ : Char → Option Nat) : Sub ρ ρ := fun _ _ h => h

theorem E.subst_val {ρ ρ' : Char → Option Nat} (h : Sub ρ ρ') (e : E) : (e.subst ρ).val ρ' = e.val ρ' := by
  induction e with
  | num ds => rfl
  | var c =>
    unfold E.subst
    cases hc : ρ c with
    | none => rfl
    | some n => simp only [E.val, h c n hc, digitsVal_natText]; rfl
  | paren e ih => exact ih
  | bin o a b iha ihb => simp only [E.subst, E.val, iha, ihb]
  | sp t e ih => exact ih
  | ps t e ih => exact ih

theorem E.closed_val {e : E} (h : e.Closed) (ρ ρ' : Char → Option Nat) : e.val ρ = e.val ρ' := by
  induction e with
  | num ds => rfl
  | var c => exact h.elim
  | paren e ih => exact ih h
  | bin o a b iha ihb => simp only [E.val, iha h.1, ihb h.2]
  | sp t e ih => exact ih h
  | ps t e ih => exact ih h

theorem E.subst_closed {ρ : Char → Option Nat} {e : E} {v : Int} (h : e.val ρ = some v) : (e.subst ρ).Closed := by
  induction e generalizing v with
  | num ds => trivial
  | var c =>
    unfold E.subst
    cases hc : ρ c with
    | none => simp [E.val, hc] at h
    | some n => trivial
  | paren e ih => exact ih h
  | bin o a b iha ihb =>
    simp only [E.val] at h
    cases ha : a.val ρ with
    | none => rw [ha] at h; cases h
    | some x =>
      rw [ha] at h
      cases hb : b.val ρ with
      | none => rw [hb] at h; cases h
      | some y => exact ⟨iha ha, ihb hb⟩
  | sp t e ih => exact ih h
  | ps t e ih => exact ih h

theorem E.subst_val_none (ρ : Char → Option Nat) (e : E) : (e.subst ρ).val (fun _ => none) = e.val ρ := by
  induction e with
  | num ds => rfl
  | var c => cases hc : ρ c <;> simp [E.subst, E.val, hc, digitsVal_natText]
  | paren e ih => exact ih
  | bin o a b iha ihb => simp only [E.subst, E.val, iha, ihb]
  | sp t e ih => exact ih
  | ps t e ih => exact ih

theorem E.val_closed {e : E} {v : Int} (h : e.val noVars = some v) : e.Closed := by
  induction e generalizing v with
  | num ds => trivial
  | var c => simp [E.val, noVars] at h
  | paren e ih => exact ih h
  | bin o a b iha ihb =>
    simp only [E.val] at h
    cases ha : a.val noVars with
    | none => rw [ha] at h; cases h
    | some x =>
      rw [ha] at h
      cases hb : b.val noVars with
      | none => rw [hb] at h; cases h
      | some y => exact ⟨iha ha, ihb hb⟩
  | sp t e ih => exact ih h
  | ps t e ih => exact ih h

/-- No counterpart in /repo: the first that knows. -/
def orElse (ρ ρ' : Char → Option Nat) : Char → Option Nat := fun c => match ρ c with | some n => some n | none => ρ' c

theorem E.subst_subst (ρ ρ' : Char → Option Nat) (e : E) : (e.subst ρ).subst ρ' = e.subst (orElse ρ ρ') := by
  induction e with
  | num ds => rfl
  | var c => cases hc : ρ c <;> simp [E.subst, orElse, hc]
  | paren e ih => simp only [E.subst, ih]
  | bin o a b iha ihb => simp only [E.subst, iha, ihb]
  | sp t e ih => simp only [E.subst, ih]
  | ps t e ih => simp only [E.subst, ih]

/-! #### Templates -/

theorem texts_render (w : List Char) (k : Tm) : (texts w k).render = w ++ k.render := by
  induction w with
  | nil => rfl
  | cons c w ih => show c :: (texts w k).render = _; rw [ih]; rfl

theorem texts_subst (w : List Char) (k : Tm) (ρ : Char → Option Nat) : (texts w k).subst ρ = texts w (k.subst ρ) := by
  induction w with
  | nil => rfl
  | cons c w ih => show Tm.text c ((texts w k).subst ρ) = _; rw [ih]; rfl

theorem texts_dirs (w : List Char) (k : Tm) : (texts w k).dirs = k.dirs := by
  induction w with
  | nil => rfl
  | cons c w ih => exact ih

theorem texts_sem (w : List Char) (k : Tm) (ρ : Char → Option Nat) (i : Bool) : (texts w k).sem ρ i = (k.sem ρ i).map (w ++ ·) := by
  induction w with
  | nil => cases h : k.sem ρ i <;> simp [texts, h]
  | cons c w ih =>
    show ((texts w k).sem ρ i).map (c :: ·) = _
    rw [ih]; cases k.sem ρ i <;> rfl

theorem texts_fresh (w : List Char) (k : Tm) (S : List Char) : (texts w k).Fresh S ↔ k.Fresh S := by
  induction w with
  | nil => exact Iff.rfl
  | cons c w ih => exact ih

theorem texts_wf {w : List Char} {k : Tm} (hw : ∀ c ∈ w, isDigit c = true) (h : k.WF) : (texts w k).WF := by
  induction w with
  | nil => exact h
  | cons c w ih =>
    have hc := hw c (by simp)
    refine ⟨?_, ?_, ih fun d hd => hw d (by simp [hd])⟩
    · rintro rfl; exact absurd hc (by decide)
    · rintro rfl; exact absurd hc (by decide)

theorem texts_noEE {w : List Char} {k : Tm} (hw : ∀ c ∈ w, isDigit c = true) (h : k.NoEE) : (texts w k).NoEE := by
  induction w with
  | nil => exact h
  | cons c w ih =>
    have hc := hw c (by simp)
    refine ⟨?_, ih fun d hd => hw d (by simp [hd])⟩
    rintro rfl; exact absurd hc (by decide)

theorem subst_dirs (ρ : Char → Option Nat) (t : Tm) : (t.subst ρ).dirs = t.dirs := by
  induction t with
  | nil => rfl
  | text c k ih => exact ih
  | var c k ih =>
    unfold Tm.subst
    split
    · rw [texts_dirs]; exact ih
    · exact ih
  | expr e k ih => simp only [Tm.subst, Tm.dirs, ih]
  | iter v lo hi sep body k ihb ihk => simp only [Tm.subst, Tm.dirs, ihb, ihk]
  | cond eq a b body k ihb ihk => simp only [Tm.subst, Tm.dirs, ihb, ihk]

/-- No counterpart in /repo: the first character is the same, or a digit for a `$`. -/
theorem subst_head (ρ : Char → Option Nat) (t : Tm) {d : Char} (h : (t.subst ρ).render.head? = some d) :
    t.render.head? = some d ∨ isDigit d = true := by
  cases t with
  | nil => exact .inl h
  | text c k => exact .inl h
  | var c k =>
    unfold Tm.subst at h
    split at h
    · rename_i n hn
      rw [texts_render] at h
      right
      have hne := natText_ne n
      cases e : natText n with
      | nil => exact absurd e hne
      | cons x xs =>
        rw [e] at h
        cases h
        exact natText_digits n _ (by rw [e]; simp)
    · exact .inl h
  | expr e k => exact .inl h
  | iter v lo hi sep body k => exact .inl h
  | cond eq a b body k => exact .inl h

theorem subst_noEE (ρ : Char → Option Nat) {t : Tm} (h : t.NoEE) : (t.subst ρ).NoEE := by
  induction t with
  | nil => trivial
  | text c k ih =>
    refine ⟨?_, ih h.2⟩
    intro hc he
    rcases subst_head ρ k he with he | he
    · exact h.1 hc he
    · exact absurd he (by decide)
  | var c k ih =>
    unfold Tm.subst
    split
    · exact texts_noEE (natText_digits _) (ih h)
    · exact ih h
  | expr e k ih => exact ih h
  | iter v lo hi sep body k ihb ihk => exact ⟨h.1, ihb h.2.1, ihk h.2.2⟩
  | cond eq a b body k ihb ihk => exact ⟨h.1, ihb h.2.1, ihk h.2.2⟩

theorem subst_wf (ρ : Char → Option Nat) {t : Tm} (h : t.WF) : (t.subst ρ).WF := by
  induction t with
  | nil => trivial
  | text c k ih =>
    refine ⟨h.1, ?_, ih h.2.2⟩
    intro hc d he
    rcases subst_head ρ k he with he | he
    · exact h.2.1 hc d he
    · intro hm
      simp only [List.mem_cons, List.not_mem_nil, or_false] at hm
      rcases hm with rfl | rfl | rfl <;> exact absurd he (by decide)
  | var c k ih =>
    unfold Tm.subst
    split
    · exact texts_wf (natText_digits _) (ih h.2)
    · exact ⟨h.1, ih h.2⟩
  | expr e k ih => exact ⟨E.subst_ok ρ e 0 h.1, ih h.2⟩
  | iter v lo hi sep body k ihb ihk =>
    exact ⟨h.1, E.subst_ok ρ _ 0 h.2.1, E.subst_ok ρ _ 0 h.2.2.1, h.2.2.2.1, ihb h.2.2.2.2.1, ihk h.2.2.2.2.2⟩
  | cond eq a b body k ihb ihk =>
    exact ⟨E.subst_ok ρ _ 0 h.1, E.subst_ok ρ _ 0 h.2.1, fun e => subst_noEE ρ (h.2.2.1 e), ihb h.2.2.2.1, ihk h.2.2.2.2⟩

theorem subst_fresh (ρ : Char → Option Nat) {t : Tm} {S : List Char} (h : t.Fresh S) : (t.subst ρ).Fresh S := by
  induction t generalizing S with
  | nil => trivial
  | text c k ih => exact ih h
  | var c k ih =>
    unfold Tm.subst
    split
    · exact (texts_fresh _ _ _).2 (ih h)
    · exact ih h
  | expr e k ih => exact ih h
  | iter v lo hi sep body k ihb ihk => exact ⟨h.1, ihb h.2.1, ihk h.2.2⟩
  | cond eq a b body k ihb ihk => exact ⟨ihb h.1, ihk h.2⟩

theorem subst_subst (ρ ρ' : Char → Option Nat) (t : Tm) : (t.subst ρ).subst ρ' = t.subst (orElse ρ ρ') := by
  induction t with
  | nil => rfl
  | text c k ih => simp only [Tm.subst, ih]
  | var c k ih =>
    cases hc : ρ c with
    | none => simp [Tm.subst, orElse, hc, ih]
    | some n => simp [Tm.subst, orElse, hc, texts_subst, ih]
  | expr e k ih => simp only [Tm.subst, ih, E.subst_subst]
  | iter v lo hi sep body k ihb ihk => simp only [Tm.subst, ihb, ihk, E.subst_subst]
  | cond eq a b body k ihb ihk => simp only [Tm.subst, ihb, ihk, E.subst_subst]

theorem sub_upd {ρ ρ' : Char → Option Nat} (h : Sub ρ ρ') {v : Char} (hv : ρ v = none) (n : Nat) : Sub ρ (upd ρ' v n) := by
  intro c m hc
  unfold upd
  by_cases e : c = v
  · subst e; rw [hv] at hc; cases hc
  · rw [if_neg e]; exact h c m hc

theorem sem_sub {t : Tm} : ∀ {S : List Char} {ρ ρ' : Char → Option Nat}, t.Fresh S → t.WF → (∀ c, isDigit c = true → c ∉ S → ρ c = none) →
    Sub ρ ρ' → (t.subst ρ).sem ρ' true = t.sem ρ' true := by
  induction t with
  | nil => intros; rfl
  | text c k ih => intro S ρ ρ' hf hw hS h; simp only [Tm.subst, Tm.sem, ih hf hw.2.2 hS h]
  | var c k ih =>
    intro S ρ ρ' hf hw hS h
    cases hc : ρ c with
    | none => simp only [Tm.subst, hc, Tm.sem, ih hf hw.2 hS h]
    | some n => simp only [Tm.subst, hc, Tm.sem, texts_sem, ih hf hw.2 hS h, h c n hc, if_true, decimal_eq]
  | expr e k ih => intro S ρ ρ' hf hw hS h; simp only [Tm.subst, Tm.sem, ih hf hw.2 hS h, E.subst_val h]
  | iter v lo hi sep body k ihb ihk =>
    intro S ρ ρ' hf hw hS h
    have hv : ρ v = none := hS v hw.1 hf.1
    have hb : ∀ i, (body.subst ρ).sem (upd ρ' v i) true = body.sem (upd ρ' v i) true := by
      intro i
      exact ihb hf.2.1 hw.2.2.2.2.1 (fun c hc hn => hS c hc fun hm => hn (by simp [hm])) (sub_upd h hv i)
    simp only [Tm.subst, Tm.sem, ihk hf.2.2 hw.2.2.2.2.2 hS h, E.subst_val h, hb]
  | cond eq a b body k ihb ihk =>
    intro S ρ ρ' hf hw hS h
    simp only [Tm.subst, Tm.sem, ihb hf.1 hw.2.2.2.1 hS h, ihk hf.2 hw.2.2.2.2 hS h, E.subst_val h, if_true]

theorem sem_subst {t : Tm} : ∀ {S : List Char} {ρ : Char → Option Nat}, t.Fresh S → t.WF →
    (∀ c, isDigit c = true → c ∉ S → ρ c = none) → (t.subst ρ).sem ρ false = t.sem ρ true := by
  induction t with
  | nil => intros; rfl
  | text c k ih => intro S ρ hf hw hS; simp only [Tm.subst, Tm.sem, ih hf hw.2.2 hS]
  | var c k ih =>
    intro S ρ hf hw hS
    cases hc : ρ c with
    | none => simp [Tm.subst, hc, Tm.sem, ih hf hw.2 hS]
    | some n => simp only [Tm.subst, hc, Tm.sem, texts_sem, ih hf hw.2 hS, if_true, decimal_eq]
  | expr e k ih => intro S ρ hf hw hS; simp only [Tm.subst, Tm.sem, ih hf hw.2 hS, E.subst_val (Sub.refl ρ)]
  | iter v lo hi sep body k ihb ihk =>
    intro S ρ hf hw hS
    have hv : ρ v = none := hS v hw.1 hf.1
    have hb : ∀ i, (body.subst ρ).sem (upd ρ v i) true = body.sem (upd ρ v i) true := by
      intro i
      exact sem_sub hf.2.1 hw.2.2.2.2.1 (fun c hc hn => hS c hc fun hm => hn (by simp [hm])) (sub_upd (Sub.refl ρ) hv i)
    simp only [Tm.subst, Tm.sem, ihk hf.2.2 hw.2.2.2.2.2 hS, E.subst_val (Sub.refl ρ), hb]
  | cond eq a b body k ihb ihk =>
    intro S ρ hf hw hS
    simp only [Tm.subst, Tm.sem, ihb hf.1 hw.2.2.2.1 hS, ihk hf.2 hw.2.2.2.2 hS, E.subst_val_none, if_true, Bool.false_eq_true, if_false]

end Verif.Shw
