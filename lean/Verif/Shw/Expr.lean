import Verif.Shw.Worker
/-
The language of expressions and what the parser makes of it (for C84).
-/
namespace Verif.Shw

/-! ### Spec -/

/-- Specification: an expression as written: digits, a variable, parentheses, an operation, a blank before or after. -/
inductive E
  | num (ds : List Char)
  | var (c : Char)
  | paren (e : E)
  | bin (o : Op) (a b : E)
  | sp (tab : Bool) (e : E)
  | ps (tab : Bool) (e : E)
  deriving DecidableEq, Repr

/-- Specification: the sign of an operation. -/
def Op.sign : Op → Char
  | .add => '+'
  | .sub => '-'
  | .mul => '*'
  | .div => '/'
  | .mod => '%'

/-- Specification: how tightly an operation binds. -/
def Op.level : Op → Nat
  | .add => 0
  | .sub => 0
  | .mul => 1
  | .div => 1
  | .mod => 1

/-- Specification: a blank. -/
def blankOf (tab : Bool) : Char := if tab then '\t' else ' '

/-- Specification: the text of an expression. -/
def E.show : E → List Char
  | .num ds => ds
  | .var c => ['$', c]
  | .paren e => '(' :: (e.show ++ [')'])
  | .bin o a b => a.show ++ o.sign :: b.show
  | .sp t e => blankOf t :: e.show
  | .ps t e => e.show ++ [blankOf t]

/-- Specification: the name of a variable or an argument. -/
def varChar (c : Char) : Bool := isDigit c || (decide (97 ≤ c.toNat) && decide (c.toNat ≤ 122))

/-- Specification: operations associate to the left and bind as usual; level 0 is a sum, 1 a product, 2 a number or parentheses. -/
def E.Ok : E → Nat → Prop
  | .num ds, _ => ds ≠ [] ∧ ∀ c ∈ ds, isDigit c = true
  | .var c, _ => varChar c = true
  | .paren e, _ => e.Ok 0
  | .bin o a b, l => l ≤ o.level ∧ a.Ok o.level ∧ b.Ok (o.level + 1)
  | .sp _ e, l => e.Ok l
  | .ps _ e, l => e.Ok l

/-- Specification: without variables. -/
def E.Closed : E → Prop
  | .num _ => True
  | .var _ => False
  | .paren e => e.Closed
  | .bin _ a b => a.Closed ∧ b.Closed
  | .sp _ e => e.Closed
  | .ps _ e => e.Closed

/-- Specification: the number that digits stand for. -/
def digitsVal (ds : List Char) : Nat := ds.foldl (fun a c => 10 * a + (c.toNat - 48)) 0

/-- Specification: a number that fits an `int`. -/
def fit (x : Int) : Option Int := if -2147483648 ≤ x ∧ x ≤ 2147483647 then some x else none

/-- Specification: the value of an operation; division drops the fraction; `none` where C does not define it. -/
def Op.val : Op → Int → Int → Option Int
  | .add, a, b => fit (a + b)
  | .sub, a, b => fit (a - b)
  | .mul, a, b => fit (a * b)
  | .div, a, b => if b = 0 then none else fit (a.tdiv b)
  | .mod, a, b => if b = 0 ∨ (fit (a.tdiv b)).isNone then none else fit (a.tmod b)

/-- Specification: the value of an expression whose variables are given by `ρ`; `none`: undefined, or a variable without value. -/
def E.val (ρ : Char → Option Nat) : E → Option Int
  | .num ds => fit (digitsVal ds)
  | .var c => (ρ c).bind fun n => fit n
  | .paren e => e.val ρ
  | .bin o a b => (a.val ρ).bind fun x => (b.val ρ).bind fun y => o.val x y
  | .sp _ e => e.val ρ
  | .ps _ e => e.val ρ

/-! ### The lexer -/

/-- No counterpart in /repo: `none` is undefined behaviour. -/
def toR (x : Option Int) : R Int := match x with | some v => .ok v | none => .error .ub

/-- No counterpart in /repo: the parser before `str`. -/
def start (str : List Char) (tv : Int) (stk : List Int) : R P := (lexan str tv).bind fun r => .ok ⟨r.1, r.2.1, r.2.2, stk⟩

/-- No counterpart in /repo: what may follow a number. -/
def Ends (rest : List Char) : Prop := ∀ c r, rest = c :: r → c.toNat < 128 ∧ isDigit c = false

theorem Ends.nil : Ends [] := by intro c r h; cases h
theorem Ends.cons {c : Char} {r : List Char} (h : c.toNat < 128) (g : isDigit c = false) : Ends (c :: r) := by
  intro d s e; cases e; exact ⟨h, g⟩

theorem ends_blank (t : Bool) (r : List Char) : Ends (blankOf t :: r) := by cases t <;> exact .cons (by decide) (by decide)
theorem ends_sign (o : Op) (r : List Char) : Ends (o.sign :: r) := by cases o <;> exact .cons (by decide) (by decide)

theorem start_blank (t : Bool) (s : List Char) (tv : Int) (stk : List Int) : start (blankOf t :: s) tv stk = start s tv stk := by
  unfold start
  cases t <;> simp [lexan, blankOf]

theorem start_ch {c : Char} (hb : c ≠ ' ' ∧ c ≠ '\t') (ha : c.toNat < 128) (hd : isDigit c = false) (s : List Char) (tv : Int) (stk : List Int) :
    start (c :: s) tv stk = .ok ⟨.ch c, tv, s, stk⟩ := by
  unfold start lexan
  rw [if_neg (fun h => h.elim hb.1 hb.2), if_neg (by omega), if_neg (by simp [hd])]
  rfl

theorem start_sign (o : Op) (s : List Char) (tv : Int) (stk : List Int) : start (o.sign :: s) tv stk = .ok ⟨.ch o.sign, tv, s, stk⟩ := by
  cases o <;> exact start_ch (by decide) (by decide) (by decide) _ _ _

theorem chk_fit (x : Int) : chk x = toR (fit x) := by
  unfold chk fit toR
  split <;> rfl

theorem digit_ascii {c : Char} (h : isDigit c = true) : 48 ≤ c.toNat ∧ c.toNat ≤ 57 := by
  simpa [isDigit] using h

theorem lexNum_ends {rest : List Char} (h : Ends rest) (v : Int) : lexNum rest v = .ok (v, rest) := by
  cases rest with
  | nil => rfl
  | cons c r =>
    obtain ⟨h1, h2⟩ := h c r rfl
    rw [lexNum, if_neg (by omega), if_neg (by simp [h2])]

/-- No counterpart in /repo: the value with what was read before. -/
theorem lexNum_digits {rest : List Char} (h : Ends rest) : ∀ (ds : List Char), (∀ c ∈ ds, isDigit c = true) → ∀ (a : Nat), a ≤ 2147483647 →
    lexNum (ds ++ rest) a = (toR (fit (ds.foldl (fun a c => 10 * a + (c.toNat - 48)) a : Nat))).bind fun v => .ok (v, rest) := by
  intro ds
  induction ds with
  | nil =>
    intro _ a ha
    rw [List.nil_append, lexNum_ends h]
    have : fit (([] : List Char).foldl (fun a c => 10 * a + (c.toNat - 48)) a : Nat) = some (a : Int) := by
      unfold fit; rw [if_pos]; · rfl
      · simp; omega
    rw [this]; rfl
  | cons c ds ih =>
    intro hd a ha
    obtain ⟨h1, h2⟩ := digit_ascii (hd c (by simp))
    rw [List.cons_append, lexNum, if_neg (by omega), if_pos (hd c (by simp)), List.foldl_cons]
    have hmono : ∀ (l : List Char) (x : Nat), x ≤ l.foldl (fun a c => 10 * a + (c.toNat - 48)) x := by
      intro l
      induction l with
      | nil => intro x; exact Nat.le_refl _
      | cons d l ihl => intro x; rw [List.foldl_cons]; exact Nat.le_trans (by omega) (ihl _)
    by_cases hs : 10 * a + (c.toNat - 48) ≤ 2147483647
    · have e1 : chk ((a : Int) * 10) = .ok ((a : Int) * 10) := by unfold chk; rw [if_pos (by omega)]
      have e2 : chk ((a : Int) * 10 + ((c.toNat : Int) - 48)) = .ok (((10 * a + (c.toNat - 48) : Nat)) : Int) := by
        unfold chk; rw [if_pos (by omega)]; congr 1; omega
      rw [e1]
      show (chk ((a : Int) * 10 + ((c.toNat : Int) - 48)) >>= fun v => lexNum (ds ++ rest) v) = _
      rw [e2]
      exact ih (fun d hd' => hd d (by simp [hd'])) _ hs
    · have hn : fit ((ds.foldl (fun a c => 10 * a + (c.toNat - 48)) (10 * a + (c.toNat - 48)) : Nat) : Int) = none := by
        have := hmono ds (10 * a + (c.toNat - 48))
        unfold fit; rw [if_neg (by omega)]
      rw [hn]
      by_cases h10 : (a : Int) * 10 ≤ 2147483647
      · have e1 : chk ((a : Int) * 10) = .ok ((a : Int) * 10) := by unfold chk; rw [if_pos (by omega)]
        have e2 : chk ((a : Int) * 10 + ((c.toNat : Int) - 48)) = .error .ub := by unfold chk; rw [if_neg (by omega)]
        rw [e1]
        show (chk ((a : Int) * 10 + ((c.toNat : Int) - 48)) >>= fun v => lexNum (ds ++ rest) v) = _
        rw [e2]; rfl
      · have e1 : chk ((a : Int) * 10) = .error .ub := by unfold chk; rw [if_neg (by omega)]
        rw [e1]; rfl

theorem start_num {ds rest : List Char} (hn : ds ≠ []) (hd : ∀ c ∈ ds, isDigit c = true) (h : Ends rest) (tv : Int) (stk : List Int) :
    start (ds ++ rest) tv stk = (toR (fit (digitsVal ds))).bind fun v => .ok ⟨.num, v, rest, stk⟩ := by
  cases ds with
  | nil => exact absurd rfl hn
  | cons c ds =>
    obtain ⟨h1, h2⟩ := digit_ascii (hd c (by simp))
    have hb : ¬ (c = ' ' ∨ c = '\t') := by
      rintro (e | e) <;> · rw [e] at h1; exact absurd h1 (by decide)
    have e := lexNum_digits h (c :: ds) hd 0 (by omega)
    unfold start
    rw [List.cons_append, lexan, if_neg hb, if_neg (by omega), if_pos (hd c (by simp))]
    rw [List.cons_append] at e
    have e : lexNum (c :: (ds ++ rest)) 0 = (toR (fit (digitsVal (c :: ds)))).bind fun v => .ok (v, rest) := e
    rw [e]
    cases toR (fit (digitsVal (c :: ds))) <;> rfl

/-! ### The parser -/

/-- No counterpart in /repo: the next token is no `*`, `/`, `%`. -/
def NotMul (rest : List Char) : Prop := ∀ tv r, lexan rest tv = .ok r → mulOp r.1 = none

/-- No counterpart in /repo: the next token is no `+`, `-`. -/
def NotAdd (rest : List Char) : Prop := ∀ tv r, lexan rest tv = .ok r → addOp r.1 = none

/-- No counterpart in /repo: no value, no variable. -/
def noVars : Char → Option Nat := fun _ => none

/-- No counterpart in /repo: what `factor` does with the text of `e`. -/
def FactorOf (e : E) : Prop := ∃ C, ∀ f, C ≤ f → ∀ rest tv stk, Ends rest → ∃ tv',
  (start (e.show ++ rest) tv stk).bind (factor f) = (toR (e.val noVars)).bind fun v => start rest tv' (v :: stk)

/-- No counterpart in /repo: what `term` does with the text of `e`. -/
def TermOf (e : E) : Prop := ∃ C, ∀ f, C ≤ f → ∀ rest tv stk, Ends rest → ∃ tv' f', f ≤ f' + C ∧
  (start (e.show ++ rest) tv stk).bind (term f) = (toR (e.val noVars)).bind fun v => (start rest tv' (v :: stk)).bind (termLoop f')

/-- No counterpart in /repo: what `expr` does with the text of `e`. -/
def ExprOf (e : E) : Prop := ∃ C, ∀ f, C ≤ f → ∀ rest tv stk, Ends rest → NotMul rest → ∃ tv' f', f ≤ f' + C ∧
  (start (e.show ++ rest) tv stk).bind (expr f) = (toR (e.val noVars)).bind fun v => (start rest tv' (v :: stk)).bind (exprLoop f')

theorem bind_assoc' {α β γ : Type} (x : R α) (f : α → R β) (g : β → R γ) : (x.bind f).bind g = x.bind fun a => (f a).bind g := by
  cases x <;> rfl

theorem term_of_factor {e : E} (h : FactorOf e) : TermOf e := by
  obtain ⟨C, h⟩ := h
  refine ⟨C + 1, ?_⟩
  intro f hf rest tv stk hr
  obtain ⟨f, rfl⟩ : ∃ k, f = k + 1 := ⟨f - 1, by omega⟩
  obtain ⟨tv', e1⟩ := h f (by omega) rest tv stk hr
  refine ⟨tv', f, by omega, ?_⟩
  have : term (f + 1) = fun s => (factor f s).bind (termLoop f) := rfl
  rw [this, ← bind_assoc', e1, bind_assoc']

theorem termLoop_stop {rest : List Char} (h : NotMul rest) (tv : Int) (stk : List Int) (f : Nat) :
    (start rest tv stk).bind (termLoop (f + 1)) = start rest tv stk := by
  unfold start
  cases e : lexan rest tv with
  | error x => rfl
  | ok r =>
    have := h tv r e
    show termLoop (f + 1) ⟨r.1, r.2.1, r.2.2, stk⟩ = _
    rw [termLoop, this]
    rfl

theorem exprLoop_stop {rest : List Char} (h : NotAdd rest) (tv : Int) (stk : List Int) (f : Nat) :
    (start rest tv stk).bind (exprLoop (f + 1)) = start rest tv stk := by
  unfold start
  cases e : lexan rest tv with
  | error x => rfl
  | ok r =>
    have := h tv r e
    show exprLoop (f + 1) ⟨r.1, r.2.1, r.2.2, stk⟩ = _
    rw [exprLoop, this]
    rfl

theorem expr_of_term {e : E} (h : TermOf e) : ExprOf e := by
  obtain ⟨C, h⟩ := h
  refine ⟨C + 2, ?_⟩
  intro f hf rest tv stk hr hm
  obtain ⟨f, rfl⟩ : ∃ k, f = k + 1 := ⟨f - 1, by omega⟩
  obtain ⟨tv', f', hf', e1⟩ := h f (by omega) rest tv stk hr
  refine ⟨tv', f, by omega, ?_⟩
  obtain ⟨f', rfl⟩ : ∃ k, f' = k + 1 := ⟨f' - 1, by omega⟩
  have : expr (f + 1) = fun s => (term f s).bind (exprLoop f) := rfl
  rw [this, ← bind_assoc', e1, bind_assoc']
  simp only [termLoop_stop hm]

theorem lexan_sign (o : Op) (s : List Char) (tv : Int) : lexan (o.sign :: s) tv = .ok (.ch o.sign, tv, s) := by
  cases o <;> simp [lexan, Op.sign, isDigit]

theorem notMul_sign {o : Op} (h : o.level = 0) (s : List Char) : NotMul (o.sign :: s) := by
  intro tv r e
  rw [lexan_sign] at e
  cases e
  cases o <;> first | rfl | (simp [Op.level] at h)

theorem notMul_close (s : List Char) : NotMul (')' :: s) := by
  intro tv r e
  simp [lexan, isDigit] at e
  subst e; rfl

theorem notAdd_close (s : List Char) : NotAdd (')' :: s) := by
  intro tv r e
  simp [lexan, isDigit] at e
  subst e; rfl

theorem notMul_blank (t : Bool) {s : List Char} (h : NotMul s) : NotMul (blankOf t :: s) := by
  intro tv r e
  refine h tv r ?_
  rw [← e]
  cases t <;> simp [lexan, blankOf]

theorem apply_val (o : Op) (a b : Int) : o.apply a b = toR (o.val a b) := by
  cases o <;> simp only [Op.apply, Op.val, chk_fit]
  · split <;> rfl
  · by_cases hb : b = 0
    · simp [hb]; rfl
    · rw [if_neg hb]
      cases e : fit (a.tdiv b) with
      | none => simp [hb]; rfl
      | some v =>
        simp [hb]; rfl

theorem term_step {o : Op} (h : o.level = 1) (f : Nat) (str : List Char) (tv : Int) (stk : List Int) :
    (start (o.sign :: str) tv stk).bind (termLoop (f + 1)) =
      (((start str tv stk).bind (factor f)).bind (doOp o)).bind (termLoop f) := by
  rw [start_sign]
  have hm : mulOp (.ch o.sign) = some (o.sign, o) := by cases o <;> first | rfl | (simp [Op.level] at h)
  show termLoop (f + 1) ⟨.ch o.sign, tv, str, stk⟩ = _
  rw [termLoop]
  simp only [hm, pmatch, if_true]
  unfold start
  cases lexan str tv with
  | error e => rfl
  | ok r => rw [bind_assoc', bind_assoc']; rfl

theorem expr_step {o : Op} (h : o.level = 0) (f : Nat) (str : List Char) (tv : Int) (stk : List Int) :
    (start (o.sign :: str) tv stk).bind (exprLoop (f + 1)) =
      (((start str tv stk).bind (term f)).bind (doOp o)).bind (exprLoop f) := by
  rw [start_sign]
  have hm : addOp (.ch o.sign) = some (o.sign, o) := by cases o <;> first | rfl | (simp [Op.level] at h)
  show exprLoop (f + 1) ⟨.ch o.sign, tv, str, stk⟩ = _
  rw [exprLoop]
  simp only [hm, pmatch, if_true]
  unfold start
  cases lexan str tv with
  | error e => rfl
  | ok r => rw [bind_assoc', bind_assoc']; rfl

theorem lexNum_err : ∀ (s : List Char) (v : Int) (x : Err), lexNum s v = .error x → x = .ub := by
  intro s
  induction s with
  | nil => intro v x h; cases h
  | cons c s ih =>
    intro v x h
    rw [lexNum] at h
    split at h
    · cases h; rfl
    · split at h
      · rw [chk_fit] at h
        cases e1 : fit (v * 10) with
        | none => rw [e1] at h; cases h; rfl
        | some a =>
          rw [e1] at h
          have h : (chk (a + ((c.toNat : Int) - 48)) >>= fun v => lexNum s v) = .error x := h
          rw [chk_fit] at h
          cases e2 : fit (a + ((c.toNat : Int) - 48)) with
          | none => rw [e2] at h; cases h; rfl
          | some b => rw [e2] at h; exact ih b x h
      · cases h

theorem lexan_err : ∀ (s : List Char) (v : Int) (x : Err), lexan s v = .error x → x = .ub := by
  intro s
  induction s with
  | nil => intro v x h; cases h
  | cons c s ih =>
    intro v x h
    rw [lexan] at h
    split at h
    · exact ih v x h
    · split at h
      · cases h; rfl
      · split at h
        · cases e : lexNum (c :: s) 0 with
          | error y => rw [e] at h; cases h; exact lexNum_err _ _ _ e
          | ok r => rw [e] at h; cases h
        · cases h

theorem doOp_start (o : Op) (a b : Int) (stk : List Int) (rest : List Char) (tv : Int) :
    (start rest tv (b :: a :: stk)).bind (doOp o) = (toR (o.val a b)).bind fun v => start rest tv (v :: stk) := by
  unfold start
  cases hr : lexan rest tv with
  | error x =>
    have := lexan_err _ _ _ hr
    subst this
    cases hv : o.val a b <;> rfl
  | ok r =>
    show doOp o ⟨r.1, r.2.1, r.2.2, b :: a :: stk⟩ = _
    simp only [doOp, apply_val]
    cases toR (o.val a b) <;> rfl

theorem toR_bind (x : Option Int) (g : Int → Option Int) : toR (x.bind g) = (toR x).bind fun v => toR (g v) := by cases x <;> rfl

/-- No counterpart in /repo: all three. -/
def AllOf (e : E) : Prop := (e.Ok 2 → FactorOf e) ∧ (e.Ok 1 → TermOf e) ∧ (e.Ok 0 → ExprOf e)

theorem all_of : ∀ e : E, e.Closed → AllOf e := by
  intro e
  induction e with
  | num ds =>
    intro _
    have hf : ∀ l, (E.num ds).Ok l → FactorOf (.num ds) := by
      intro l hd
      refine ⟨1, ?_⟩
      intro f hf rest tv stk hr
      obtain ⟨f, rfl⟩ : ∃ k, f = k + 1 := ⟨f - 1, by omega⟩
      show ∃ tv', (start (ds ++ rest) tv stk).bind (factor (f + 1)) = (toR (fit (digitsVal ds))).bind fun v => start rest tv' (v :: stk)
      rw [start_num hd.1 hd.2 hr]
      cases hx : fit (digitsVal ds) with
      | none => exact ⟨0, rfl⟩
      | some v =>
        refine ⟨v, ?_⟩
        show pmatch .num ⟨.num, v, rest, v :: stk⟩ = start rest v (v :: stk)
        simp only [pmatch, if_true]
        unfold start
        cases lexan rest v <;> rfl
    exact ⟨hf 2, fun h => term_of_factor (hf 1 h), fun h => expr_of_term (term_of_factor (hf 0 h))⟩
  | var c => intro h; exact h.elim
  | paren e ih =>
    intro hc
    have hf : ∀ l, (E.paren e).Ok l → FactorOf (.paren e) := by
      intro l h
      obtain ⟨C, h⟩ := (ih hc).2.2 h
      refine ⟨C + 2, ?_⟩
      intro f hf rest tv stk hr
      obtain ⟨f, rfl⟩ : ∃ k, f = k + 1 := ⟨f - 1, by omega⟩
      obtain ⟨tv', f', hf', e1⟩ := h f (by omega) (')' :: rest) tv stk (.cons (by decide) (by decide)) (notMul_close _)
      obtain ⟨f', rfl⟩ : ∃ k, f' = k + 1 := ⟨f' - 1, by omega⟩
      refine ⟨tv', ?_⟩
      show (start ('(' :: (e.show ++ [')']) ++ rest) tv stk).bind (factor (f + 1)) = (toR (e.val noVars)).bind fun v => start rest tv' (v :: stk)
      rw [List.cons_append, List.append_assoc]
      rw [start_ch (by decide) (by decide) (by decide)]
      have : (Except.ok ⟨.ch '(', tv, e.show ++ ([')'] ++ rest), stk⟩ : R P).bind (factor (f + 1)) =
          ((start (e.show ++ (')' :: rest)) tv stk).bind (expr f)).bind (pmatch (.ch ')')) := by
        show factor (f + 1) ⟨.ch '(', tv, e.show ++ (')' :: rest), stk⟩ = _
        rw [factor]
        simp only [pmatch, if_true]
        unfold start
        cases lexan (e.show ++ (')' :: rest)) tv <;> rfl
      rw [this, e1, bind_assoc']
      simp only [exprLoop_stop (notAdd_close rest)]
      cases toR (e.val noVars) with
      | error _ => rfl
      | ok v =>
        show (start (')' :: rest) tv' (v :: stk)).bind (pmatch (.ch ')')) = start rest tv' (v :: stk)
        rw [start_ch (by decide) (by decide) (by decide)]
        show pmatch (.ch ')') ⟨.ch ')', tv', rest, v :: stk⟩ = _
        simp only [pmatch, if_true]
        unfold start
        cases lexan rest tv' <;> rfl
    exact ⟨hf 2, fun h => term_of_factor (hf 1 h), fun h => expr_of_term (term_of_factor (hf 0 h))⟩
  | bin o a b iha ihb =>
    intro hc
    obtain ⟨ha1, ha2, ha3⟩ := iha hc.1
    obtain ⟨hb1, hb2, hb3⟩ := ihb hc.2
    have e0 : ∀ rest, (E.bin o a b).show ++ rest = a.show ++ (o.sign :: (b.show ++ rest)) := by
      intro rest; simp [E.show]
    have ev : toR ((E.bin o a b).val noVars) = (toR (a.val noVars)).bind fun x => (toR (b.val noVars)).bind fun y => toR (o.val x y) := by
      show toR ((a.val noVars).bind fun x => (b.val noVars).bind fun y => o.val x y) = _
      rw [toR_bind]
      simp only [toR_bind]
    by_cases hl : o.level = 1
    · have ht : ∀ l, (E.bin o a b).Ok l → TermOf (.bin o a b) := by
        intro l h
        obtain ⟨_, oka, okb⟩ := h
        rw [hl] at oka okb
        obtain ⟨C, ha⟩ := ha2 oka
        obtain ⟨D, hb⟩ := hb1 okb
        refine ⟨C + D + 1, ?_⟩
        intro f hf rest tv stk hr
        obtain ⟨tv', f', hf', e1⟩ := ha f (by omega) (o.sign :: (b.show ++ rest)) tv stk (ends_sign o _)
        obtain ⟨f', rfl⟩ : ∃ k, f' = k + 1 := ⟨f' - 1, by omega⟩
        cases hv : a.val noVars with
        | none => exact ⟨0, f, by omega, by rw [e0, e1, ev, hv]; rfl⟩
        | some x =>
          obtain ⟨tv2, e2⟩ := hb f' (by omega) rest tv' (x :: stk) hr
          refine ⟨tv2, f', by omega, ?_⟩
          rw [e0, e1, ev, hv]
          show (start (o.sign :: (b.show ++ rest)) tv' (x :: stk)).bind (termLoop (f' + 1)) =
            ((toR (b.val noVars)).bind fun y => toR (o.val x y)).bind _
          rw [term_step hl, e2, bind_assoc', bind_assoc', bind_assoc']
          cases toR (b.val noVars) with
          | error _ => rfl
          | ok y =>
            show (start rest tv2 (y :: x :: stk)).bind (fun a => (doOp o a).bind (termLoop f')) = (toR (o.val x y)).bind _
            rw [← bind_assoc', doOp_start, bind_assoc']
      refine ⟨fun h => absurd h.1 (by omega), ht 1, fun h => expr_of_term (ht 0 h)⟩
    · have hl : o.level = 0 := by cases o <;> first | rfl | exact absurd rfl hl
      refine ⟨fun h => absurd h.1 (by omega), fun h => absurd h.1 (by omega), fun h => ?_⟩
      obtain ⟨_, oka, okb⟩ := h
      rw [hl] at oka okb
      obtain ⟨C, ha⟩ := ha3 oka
      obtain ⟨D, hb⟩ := hb2 okb
      refine ⟨C + D + 2, ?_⟩
      intro f hf rest tv stk hr hm
      obtain ⟨tv', f', hf', e1⟩ := ha f (by omega) (o.sign :: (b.show ++ rest)) tv stk (ends_sign o _) (notMul_sign hl _)
      obtain ⟨f', rfl⟩ : ∃ k, f' = k + 1 := ⟨f' - 1, by omega⟩
      cases hv : a.val noVars with
      | none => exact ⟨0, f, by omega, by rw [e0, e1, ev, hv]; rfl⟩
      | some x =>
        obtain ⟨tv2, f2, hf2, e2⟩ := hb f' (by omega) rest tv' (x :: stk) hr
        obtain ⟨f2, rfl⟩ : ∃ k, f2 = k + 1 := ⟨f2 - 1, by omega⟩
        refine ⟨tv2, f', by omega, ?_⟩
        rw [e0, e1, ev, hv]
        show (start (o.sign :: (b.show ++ rest)) tv' (x :: stk)).bind (exprLoop (f' + 1)) =
          ((toR (b.val noVars)).bind fun y => toR (o.val x y)).bind _
        rw [expr_step hl, e2, bind_assoc', bind_assoc', bind_assoc']
        cases toR (b.val noVars) with
        | error _ => rfl
        | ok y =>
          show ((start rest tv2 (y :: x :: stk)).bind (termLoop (f2 + 1))).bind (fun a => (doOp o a).bind (exprLoop f')) = (toR (o.val x y)).bind _
          rw [termLoop_stop hm, ← bind_assoc', doOp_start, bind_assoc']
  | sp t e ih =>
    intro hc
    have e0 : ∀ rest tv stk, start ((E.sp t e).show ++ rest) tv stk = start (e.show ++ rest) tv stk := by
      intro rest tv stk
      exact start_blank t _ tv stk
    obtain ⟨h1, h2, h3⟩ := ih hc
    refine ⟨fun h => ?_, fun h => ?_, fun h => ?_⟩
    · obtain ⟨C, h⟩ := h1 h; exact ⟨C, by simp only [e0]; exact h⟩
    · obtain ⟨C, h⟩ := h2 h; exact ⟨C, by simp only [e0]; exact h⟩
    · obtain ⟨C, h⟩ := h3 h; exact ⟨C, by simp only [e0]; exact h⟩
  | ps t e ih =>
    intro hc
    have e0 : ∀ rest, (E.ps t e).show ++ rest = e.show ++ (blankOf t :: rest) := by
      intro rest; simp [E.show]
    obtain ⟨h1, h2, h3⟩ := ih hc
    refine ⟨fun h => ?_, fun h => ?_, fun h => ?_⟩
    · obtain ⟨C, h⟩ := h1 h
      refine ⟨C, ?_⟩
      intro f hf rest tv stk hr
      have := h f hf (blankOf t :: rest) tv stk (ends_blank t rest)
      simp only [start_blank] at this
      rw [e0]; exact this
    · obtain ⟨C, h⟩ := h2 h
      refine ⟨C, ?_⟩
      intro f hf rest tv stk hr
      have := h f hf (blankOf t :: rest) tv stk (ends_blank t rest)
      simp only [start_blank] at this
      rw [e0]; exact this
    · obtain ⟨C, h⟩ := h3 h
      refine ⟨C, ?_⟩
      intro f hf rest tv stk hr hm
      have := h f hf (blankOf t :: rest) tv stk (ends_blank t rest) (notMul_blank t hm)
      simp only [start_blank] at this
      rw [e0]; exact this

/-- Specification: what may follow an expression: nothing, or a character that is none of those of expressions other than `(` and `)`. -/
def Stops (rest : List Char) : Prop := ∀ c r, rest = c :: r → c.toNat < 128 ∧ isDigit c = false ∧ c ∉ [' ', '\t', '+', '-', '*', '/', '%']

theorem Stops.nil : Stops [] := by intro c r h; cases h

theorem Stops.lex {rest : List Char} (h : Stops rest) (tv : Int) : ∃ r, lexan rest tv = .ok r ∧ mulOp r.1 = none ∧ addOp r.1 = none := by
  cases rest with
  | nil => exact ⟨_, rfl, rfl, rfl⟩
  | cons c r =>
    obtain ⟨h1, h2, h3⟩ := h c r rfl
    simp only [List.mem_cons, List.not_mem_nil, not_or] at h3
    refine ⟨(.ch c, tv, r), ?_, ?_, ?_⟩
    · rw [lexan, if_neg (fun x => x.elim h3.1 h3.2.1), if_neg (by omega), if_neg (by simp [h2])]
    · show mulOp (.ch c) = none
      unfold mulOp
      split
      · rename_i e; cases e; exact absurd rfl h3.2.2.2.2.1
      · rename_i e; cases e; exact absurd rfl h3.2.2.2.2.2.1
      · rename_i e; cases e; exact absurd rfl h3.2.2.2.2.2.2.1
      · rfl
    · show addOp (.ch c) = none
      unfold addOp
      split
      · rename_i e; cases e; exact absurd rfl h3.2.2.1
      · rename_i e; cases e; exact absurd rfl h3.2.2.2.1
      · rfl

theorem Stops.ends {rest : List Char} (h : Stops rest) : Ends rest := fun c r e => ⟨(h c r e).1, (h c r e).2.1⟩
theorem Stops.notMul {rest : List Char} (h : Stops rest) : NotMul rest := by
  intro tv r e
  obtain ⟨r', e', h1, _⟩ := h.lex tv
  rw [e] at e'; cases e'; exact h1
theorem Stops.notAdd {rest : List Char} (h : Stops rest) : NotAdd rest := by
  intro tv r e
  obtain ⟨r', e', _, h1⟩ := h.lex tv
  rw [e] at e'; cases e'; exact h1

theorem parse_of {e : E} (hc : e.Closed) (ho : e.Ok 0) : ∃ C, ∀ f, C ≤ f → ∀ rest, Stops rest →
    parseExpr f (e.show ++ rest) = toR (e.val noVars) := by
  obtain ⟨C, h⟩ := (all_of e hc).2.2 ho
  refine ⟨C + 1, ?_⟩
  intro f hf rest hs
  obtain ⟨tv', f', hf', e1⟩ := h f (by omega) rest 0 [] hs.ends hs.notMul
  obtain ⟨f', rfl⟩ : ∃ k, f' = k + 1 := ⟨f' - 1, by omega⟩
  have e2 : parseExpr f (e.show ++ rest) = ((start (e.show ++ rest) 0 []).bind (expr f)).bind
      fun s => match s.stack with | [v] => .ok v | _ => .error .other := by
    unfold parseExpr start
    cases lexan (e.show ++ rest) 0 <;> rfl
  rw [e2, e1, bind_assoc']
  simp only [exprLoop_stop hs.notAdd]
  cases e.val noVars with
  | none => rfl
  | some v =>
    obtain ⟨r, hr, _⟩ := hs.lex tv'
    show (start rest tv' [v]).bind _ = _
    unfold start
    rw [hr]; rfl

end Verif.Shw
