import Verif.Shw.Run
/-
C84: the program that generates SourceHook's macros computes the expressions of a template and expands it as its directives say.
-/
namespace Verif.Shw

/-- No counterpart in /repo: to compare results in examples. -/
instance {α : Type} [DecidableEq α] : DecidableEq (R α)
  | .ok a, .ok b => decidable_of_iff (a = b) (by simp)
  | .error a, .error b => decidable_of_iff (a = b) (by simp)
  | .ok _, .error _ => isFalse (by simp)
  | .error _, .ok _ => isFalse (by simp)

/-! ### Expressions -/

/-- C84: an expression is computed as written: sums of products of numbers and parentheses, to the left, blanks anywhere between; a
division by zero or a number that does not fit is undefined behaviour.  What follows it is not looked at. -/
theorem expr_value {e : E} (hc : e.Closed) (ho : e.Ok 0) {rest : List Char} (hr : Stops rest) :
    ∃ F, ∀ f, F ≤ f → parseExpr f (e.show ++ rest) = match e.val (fun _ => none) with | some v => .ok v | none => .error .ub := by
  obtain ⟨F, h⟩ := parse_of hc ho
  exact ⟨F, fun f hf => h f hf rest hr⟩

/-- No counterpart in /repo: ` 7 - 2 - (1+2*3) % 4|` as an example. -/
def exE : E :=
  .bin .sub (.bin .sub (.sp false (.ps false (.num ['7']))) (.sp false (.ps false (.num ['2'])))) (.bin .mod
    (.sp false (.ps false (.paren (.bin .add (.num ['1']) (.bin .mul (.num ['2']) (.num ['3'])))))) (.sp false (.num ['4'])))

theorem exE_ok : exE.Closed ∧ exE.Ok 0 ∧ exE.show = " 7 - 2 - (1+2*3) % 4".toList ∧ exE.val (fun _ => none) = some 2 := by
  refine ⟨by simp [exE, E.Closed], ?_, by decide, by decide⟩
  simp [exE, E.Ok, Op.level, isDigit]

example : ∃ F, ∀ f, F ≤ f → parseExpr f (" 7 - 2 - (1+2*3) % 4".toList ++ "|x".toList) = .ok 2 := by
  have := expr_value exE_ok.1 exE_ok.2.1 (rest := "|x".toList) (by intro c r h; cases h; decide)
  rw [exE_ok.2.2.1, exE_ok.2.2.2] at this
  exact this

/-- C84: and only expressions are accepted: whatever is accepted begins with one, and the result is its value. -/
theorem expr_only {f : Nat} {s : List Char} {v : Int} (h : parseExpr f s = .ok v) :
    ∃ (e : E) (rest : List Char), s = e.show ++ rest ∧ e.Closed ∧ e.Ok 0 ∧ e.val (fun _ => none) = some v := parse_sound h

example : ∃ (e : E) (rest : List Char), "8/2/2 !".toList = e.show ++ rest ∧ e.Closed ∧ e.Ok 0 ∧ e.val (fun _ => none) = some 2 :=
  expr_only (f := 20) (by decide +kernel)

/-! ### Templates -/

/-- Specification: the additional arguments by name. -/
def argsEnv (args : List Nat) : Char → Option Nat := fun c => if 97 ≤ c.toNat then args[c.toNat - 97]? else none

theorem env_args {args : List Nat} (ha : args.length ≤ 10) : env args (fun _ => none) = argsEnv args := by
  funext c
  unfold argsEnv
  cases hc : isDigit c with
  | true =>
    obtain ⟨h1, h2⟩ := digit_ascii hc
    rw [env_digit ha _ hc, if_neg (by omega)]; rfl
  | false => rw [env_letter ha _ hc]

/-- C84 (partial): a template whose parts can be told apart, given at most ten additional arguments that are not negative, is expanded to
what it stands for, and the program reports success.  Missing: more than ten arguments (`eleven_arguments`), negative numbers
(`negative_rejected`), separators with directives or variables, and the texts of which `Tm.WF` says that they cannot be told apart. -/
theorem expand_partial {args : List Nat} (ha : args.length ≤ 10) {t : Tm} (hw : t.WF) (hf : t.Fresh []) {out : List Char}
    (hs : t.sem (argsEnv args) false = some out) :
    ∃ F, ∀ f, F ≤ f → actionIter f (args.map fun (n : Nat) => (n : Int)) t.render = .ok (out, 0) := by
  have hv : VarsOk (fun _ => none) [] := by intro k v h; cases h
  rw [← env_args ha] at hs
  obtain ⟨F, h⟩ := expand_vars ha t.dirs t (Nat.le_refl _) (fun _ => none) [] out hv hw hf hs
  refine ⟨F, fun f hf => ?_⟩
  have e1 : ((args.map fun (n : Nat) => (n : Int)).take 10).map some ++ List.replicate ((args.map fun (n : Nat) => (n : Int)).length - 10) none =
      argvOf args := by
    rw [List.take_of_length_le (by simpa using ha), List.length_map, show args.length - 10 = 0 by omega]
    simp [argvOf]
  unfold actionIter
  rw [e1, h f hf]; rfl

/-- No counterpart in /repo: a text. -/
def tx (s : String) (k : Tm) : Tm := texts s.toList k

example : ∃ F, ∀ f, F ≤ f → actionIter f [21] "@x $a=@($a*2)!".toList = .ok ("@x $a=42!".toList, 0) :=
  expand_partial (args := [21]) (by simp) (t := tx "@x " (.var 'a' (tx "=" (.expr (.bin .mul (.var 'a') (.num ['2'])) (tx "!" .nil)))))
    (by simp [tx, texts, Tm.WF, E.Ok, Op.level, varChar, isDigit, Tm.render]) (by simp [tx, texts, Tm.Fresh]) (by decide +kernel)

/-- No counterpart in /repo: one argument. -/
theorem argsEnv_a (n : Nat) : argsEnv [n] 'a' = some n := by simp [argsEnv]

theorem fromTo_mem {a b i : Nat} (h : i ∈ fromTo a b) : a ≤ i ∧ i ≤ b := by
  have := List.mem_range'_1.1 h; omega

theorem allSome_map {α β : Type} {l : List α} {g : α → Option β} {k : α → β} (h : ∀ i ∈ l, g i = some (k i)) :
    allSome (l.map g) = some (l.map k) := by
  induction l with
  | nil => rfl
  | cons a l ih =>
    rw [List.map_cons, allSome, h a (by simp), ih fun i hi => h i (by simp [hi])]; rfl

/-- No counterpart in /repo: `param$2` in `@[$2,1,$1|, :param$2@]`. -/
def exParams (k : Tm) : Tm := .iter '2' (.num ['1']) (.var '1') (some ", ".toList) (tx "param" (.var '2' .nil)) k

/-- No counterpart in /repo: `@[$1,0,$a:void@[$1!=0:, @]@[$2,1,$1|, :param$2@];@]`, as in core/sourcehook/generate/sourcehook.hxx:1205, 1228. -/
def exMacro : Tm := .iter '1' (.num ['0']) (.var 'a') none
  (tx "void" (.cond false (.var '1') (.num ['0']) (tx ", " .nil) (exParams (tx ";" .nil)))) .nil

theorem exMacro_ok : exMacro.WF ∧ exMacro.Fresh [] ∧ exMacro.render = "@[$1,0,$a:void@[$1!=0:, @]@[$2,1,$1|, :param$2@];@]".toList := by
  refine ⟨?_, ?_, by decide⟩
  · simp [exMacro, exParams, tx, texts, Tm.WF, Tm.NoEE, E.Ok, varChar, isDigit, Tm.render, cmpText]
  · simp [exMacro, exParams, tx, texts, Tm.Fresh]

/-- Specification: the parameters 1 to `i`. -/
def params (i : Nat) : List Char := joined ", ".toList ((fromTo 1 i).map fun j => "param".toList ++ decimal j)

/-- C84: the list of parameters in the macro for `i` parameters, for each `i` up to the given number: all of them in order, a comma between
each two and one before the first. -/
theorem params_listed {n : Nat} (hn : n < 2147483647) :
    ∃ F, ∀ f, F ≤ f → actionIter f [(n : Int)] "@[$1,0,$a:void@[$1!=0:, @]@[$2,1,$1|, :param$2@];@]".toList =
      .ok ((fromTo 0 n).flatMap (fun i => "void".toList ++ (if i = 0 then [] else ", ".toList) ++ params i ++ ";".toList), 0) := by
  have hfit : ∀ i : Nat, i ≤ n → fit (i : Int) = some (i : Int) := fun i hi => if_pos (by omega)
  have hin : ∀ i ∈ fromTo 0 n, (tx "void" (.cond false (.var '1') (.num ['0']) (tx ", " .nil) (exParams (tx ";" .nil)))).sem
      (upd (argsEnv [n]) '1' i) true = some ("void".toList ++ (if i = 0 then [] else ", ".toList) ++ params i ++ ";".toList) := by
    intro i hi
    have hi := (fromTo_mem hi).2
    have h1 : (upd (argsEnv [n]) '1' i) '1' = some i := by simp [upd]
    have hp : (exParams (tx ";" .nil)).sem (upd (argsEnv [n]) '1' i) true = some (params i ++ ";".toList) := by
      have hb : ∀ j, (tx "param" (.var '2' .nil)).sem (upd (upd (argsEnv [n]) '1' i) '2' j) true = some ("param".toList ++ decimal j) := by
        intro j
        simp [tx, texts_sem, Tm.sem, upd]
      have hall : allSome ((fromTo (Int.toNat 1) (Int.toNat (i : Int))).map fun j =>
          (tx "param" (.var '2' .nil)).sem (upd (upd (argsEnv [n]) '1' i) '2' j) true) =
          some ((fromTo 1 i).map fun j => "param".toList ++ decimal j) := allSome_map fun j _ => hb j
      have e1 : (E.num ['1']).val (upd (argsEnv [n]) '1' i) = some 1 := (show fit (digitsVal ['1']) = some 1 by decide)
      have e2 : (E.var '1').val (upd (argsEnv [n]) '1' i) = some (i : Int) := by simp only [E.val, h1, Option.bind_some, hfit i hi]
      simp only [exParams, Tm.sem, e1, e2, Option.bind_some]
      rw [hall]
      by_cases h0 : (i : Int) < 1
      · have : i = 0 := by omega
        subst this
        simp [tx, texts, Tm.sem, params, fromTo, joined]
      · rw [if_neg h0, if_neg (by omega)]
        simp [tx, texts, Tm.sem, params]
    have e1 : (E.var '1').val (upd (argsEnv [n]) '1' i) = some (i : Int) := by simp only [E.val, h1, Option.bind_some, hfit i hi]
    have e2 : (E.num ['0']).val (upd (argsEnv [n]) '1' i) = some 0 := (show fit (digitsVal ['0']) = some 0 by decide)
    have hc : (Tm.cond false (.var '1') (.num ['0']) (tx ", " .nil) (exParams (tx ";" .nil))).sem (upd (argsEnv [n]) '1' i) true =
        some ((if i = 0 then [] else ", ".toList) ++ (params i ++ ";".toList)) := by
      rw [Tm.sem]
      simp only [if_true]
      rw [e1, e2, hp]
      simp only [Option.bind_some, Option.map_some]
      by_cases h0 : i = 0
      · subst h0; simp
      · have : ((i : Int) == 0) = false := by simpa using h0
        simp [this, h0, tx, texts, Tm.sem]
    show (texts "void".toList _).sem _ true = _
    rw [texts_sem, hc]
    simp
  have hs : exMacro.sem (argsEnv [n]) false =
      some ((fromTo 0 n).flatMap (fun i => "void".toList ++ (if i = 0 then [] else ", ".toList) ++ params i ++ ";".toList)) := by
    have e1 : (E.num ['0']).val (argsEnv [n]) = some 0 := (show fit (digitsVal ['0']) = some 0 by decide)
    have e2 : (E.var 'a').val (argsEnv [n]) = some (n : Int) := by simp only [E.val, argsEnv_a, Option.bind_some, hfit n (Nat.le_refl n)]
    have hj : ∀ l : List (List Char), joined [] l = l.flatten := by
      intro l
      induction l with
      | nil => rfl
      | cons a l ih =>
        cases l with
        | nil => simp [joined]
        | cons b l => rw [joined, ih]; simp
    have hall : allSome ((fromTo (Int.toNat 0) (Int.toNat (n : Int))).map fun i =>
        (tx "void" (.cond false (.var '1') (.num ['0']) (tx ", " .nil) (exParams (tx ";" .nil)))).sem (upd (argsEnv [n]) '1' i) true) = _ :=
      allSome_map hin
    simp only [exMacro, Tm.sem, e1, e2, Option.bind_some]
    rw [hall, if_neg (by omega), if_neg (by omega)]
    simp only [Option.map_some, Option.bind_some, Option.getD_none, hj, List.append_nil, List.flatMap]
    rfl
  have := expand_partial (args := [n]) (by simp) exMacro_ok.1 exMacro_ok.2.1 hs
  rw [exMacro_ok.2.2] at this
  exact this

example : (fromTo 0 2).flatMap (fun i => "void".toList ++ (if i = 0 then [] else ", ".toList) ++ params i ++ ";".toList) =
    "void;void, param1;void, param1, param2;".toList := by decide +kernel

/-! ### Where it goes wrong -/

/-- Documented (shworker.cpp:15): `@[variable,min,max:code|separator@]`.  The separator is looked for before the colon only: written as
documented, it is part of the code. -/
theorem documented_separator : actionIter 60 [] "@[$1,1,3:x|,@]".toList = .ok ("x|,x|,x|,".toList, 0) ∧
    actionIter 60 [] "@[$1,1,3|,:x@]".toList = .ok ("x,x,x".toList, 0) := by decide +kernel

/-- A condition on an additional argument outside of all iterations is a syntax error: the variables are not put in there. -/
theorem top_condition : actionIter 60 [1] "@[$a==1:x@]".toList = .error .syntax ∧
    actionIter 60 [1] "@[$1,1,1:@[$a==1:x@]@]".toList = .ok ("x".toList, 0) := by decide +kernel

/-- `==` is looked for in the whole section before `!=` is: a `!=` whose text contains `==` reads outside the section, one way or the
other. -/
theorem neq_with_eq : actionIter 60 [] "@[1!=0:a==b@]".toList = .error .ub ∧
    actionIter 60 [] "@[1!=0:@[1==1:x@]@]".toList = .error .ub := by decide +kernel

/-- Errors inside of an iteration or a condition are not reported: the output lacks text and the program returns 0. -/
theorem inner_error_lost : actionIter 60 [] "@[1==1:a@[b@]c@]d".toList = .ok ("ad".toList, 0) ∧
    actionIter 60 [] "a@[b@]c".toList = .ok ("a".toList, 1) := by decide +kernel

/-- An iteration over a variable that is taken is never recognised as such: the number is put in first, and what is left is no
directive.  Inside an iteration this shows as missing text only. -/
theorem taken_variable : actionIter 60 [] "a@[$1,1,2:b@[$1,1,2:x@]c@]d".toList = .ok ("abbd".toList, 0) := by decide +kernel

/-- With more than ten additional arguments, `replace_vars` reads outside `converted_argv`, in spite of the warning. -/
theorem eleven_arguments : actionIter 60 [0, 0, 0, 0, 0, 0, 0, 0, 0, 0, 0] "@(1)".toList = .error .ub := by decide +kernel

/-- A negative number can come about but cannot be read: the text it is put in as is no expression. -/
theorem negative_rejected : actionIter 60 [] "@(1-2)".toList = .ok ("-1".toList, 0) ∧ actionIter 60 [-1] "@($a+1)".toList = .error .syntax := by
  decide +kernel

/-- An iteration up to the greatest number counts beyond it. -/
theorem max_overflows : actionIter 60 [] "@[$1,2147483647,2147483647:x@]".toList = .error .ub := by decide +kernel

/-- What follows an expression is not looked at: here the condition compares 1 with 1. -/
theorem trailing_ignored : actionIter 60 [] "@[1 2 3==1 4:x@]".toList = .ok ("x".toList, 0) := by decide +kernel

/-- Outside of all iterations, `$a` in the text is left alone; inside it is replaced. -/
theorem top_text : actionIter 60 [5] "$a@[$1,1,1:$a@]".toList = .ok ("$a5".toList, 0) := by decide +kernel

end Verif.Shw

#print axioms Verif.Shw.expr_value
#print axioms Verif.Shw.expr_only
#print axioms Verif.Shw.expand_partial
#print axioms Verif.Shw.params_listed
#print axioms Verif.Shw.neq_with_eq
