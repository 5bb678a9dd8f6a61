/-
The program that writes sourcehook.h from sourcehook.hxx: core/sourcehook/generate/shworker/shworker.cpp.
Its input is text with three kinds of directives: `@(expression)`, `@[$n,min,max|separator:code@]` and
`@[expression==expression:code@]` (or `!=`).  Variables `$0`..`$9` belong to iterations, `$a`.. to the command line.

* Text is a list of characters; a position is a number of characters.  The output file is the list written so far; what was
  written before an exception is not kept here.
* `int` is bounded: a computation that leaves the range, a division by zero and `isdigit` of a character outside ASCII are `ub`.
* Loops and recursion have fuel; `diverge` means that it was not enough.
-/
namespace Verif.Shw

/-- How a run can end without an answer: undefined behaviour, `SyntaxError`, `OtherError`
(core/sourcehook/generate/shworker/shworker.cpp:71-96); or not at all. -/
inductive Err
  | ub | syntax | other | diverge
  deriving DecidableEq, Repr

/-- No counterpart in /repo: a result or the way it failed. -/
abbrev R := Except Err

/-- The range of `int`. No counterpart in /repo: the language. -/
def chk (x : Int) : R Int := if -2147483648 ≤ x ∧ x ≤ 2147483647 then .ok x else .error .ub

/-! ### Expressions -/

/-- A token: `DONE`, `NUM` or a character, core/sourcehook/generate/shworker/shworker.cpp:221-226. -/
inductive Tok
  | done | num | ch (c : Char)
  deriving DecidableEq, Repr

/-- `isdigit`. No counterpart in /repo: the C library. -/
def isDigit (c : Char) : Bool := decide (48 ≤ c.toNat) && decide (c.toNat ≤ 57)

/-- The inner loop of `lexan`, core/sourcehook/generate/shworker/shworker.cpp:243-249: the value and the rest. -/
def lexNum : List Char → Int → R (Int × List Char)
  | [], v => .ok (v, [])
  | c :: cs, v =>
    if 128 ≤ c.toNat then .error .ub
    else if isDigit c then do
      let v ← chk (v * 10)
      let v ← chk (v + ((c.toNat : Int) - 48))
      lexNum cs v
    else .ok (v, c :: cs)

/-- `ExprParser::lexan`, core/sourcehook/generate/shworker/shworker.cpp:228-255: the token, `m_tokenval` and the rest. -/
def lexan : List Char → Int → R (Tok × Int × List Char)
  | [], tv => .ok (.done, tv, [])
  | c :: cs, tv =>
    if c = ' ' ∨ c = '\t' then lexan cs tv
    else if 128 ≤ c.toNat then .error .ub
    else if isDigit c then do
      let r ← lexNum (c :: cs) 0
      .ok (.num, r.1, r.2)
    else .ok (.ch c, tv, cs)

/-- `ExprParser`, core/sourcehook/generate/shworker/shworker.cpp:217-226: `m_lookahead`, `m_tokenval`, the text from `m_iter` to
`m_end`, `m_stack`. -/
structure P where
  look : Tok
  tv : Int
  rest : List Char
  stack : List Int
  deriving DecidableEq, Repr

/-- `ExprParser::match`, core/sourcehook/generate/shworker/shworker.cpp:257-263. -/
def pmatch (t : Tok) (s : P) : R P :=
  if s.look = t then do
    let r ← lexan s.rest s.tv
    .ok { s with look := r.1, tv := r.2.1, rest := r.2.2 }
  else .error .syntax

/-- The operations. No counterpart in /repo: the five functions at core/sourcehook/generate/shworker/shworker.cpp:320-353 by name. -/
inductive Op
  | add | sub | mul | div | mod
  deriving DecidableEq, Repr

/-- What the operation computes: core/sourcehook/generate/shworker/shworker.cpp:324, 331, 338, 345, 352. -/
def Op.apply : Op → Int → Int → R Int
  | .add, a, b => chk (a + b)
  | .sub, a, b => chk (a - b)
  | .mul, a, b => chk (a * b)
  | .div, a, b => if b = 0 then .error .ub else chk (a.tdiv b)
  | .mod, a, b => if b = 0 then .error .ub else do
    let _ ← chk (a.tdiv b)
    chk (a.tmod b)

/-- `do_add`, `do_sub`, `do_mul`, `do_div`, `do_mod`, core/sourcehook/generate/shworker/shworker.cpp:320-353; an empty stack is
undefined behaviour. -/
def doOp (o : Op) (s : P) : R P :=
  match s.stack with
  | b :: a :: st => do
    let v ← o.apply a b
    .ok { s with stack := v :: st }
  | _ => .error .ub

/-- The characters of `term`, core/sourcehook/generate/shworker/shworker.cpp:283-295. -/
def mulOp : Tok → Option (Char × Op)
  | .ch '*' => some ('*', .mul)
  | .ch '/' => some ('/', .div)
  | .ch '%' => some ('%', .mod)
  | _ => none

/-- The characters of `expr`, core/sourcehook/generate/shworker/shworker.cpp:306-316. -/
def addOp : Tok → Option (Char × Op)
  | .ch '+' => some ('+', .add)
  | .ch '-' => some ('-', .sub)
  | _ => none

mutual
/-- `ExprParser::factor`, core/sourcehook/generate/shworker/shworker.cpp:264-277. -/
def factor : Nat → P → R P
  | 0, _ => .error .diverge
  | f + 1, s =>
    match s.look with
    | .ch '(' => do
      let s ← pmatch (.ch '(') s
      let s ← expr f s
      pmatch (.ch ')') s
    | .num => pmatch .num { s with stack := s.tv :: s.stack }
    | _ => .error .syntax

/-- The loop of `term`, core/sourcehook/generate/shworker/shworker.cpp:281-298. -/
def termLoop : Nat → P → R P
  | 0, _ => .error .diverge
  | f + 1, s =>
    match mulOp s.look with
    | some (c, o) => do
      let s ← pmatch (.ch c) s
      let s ← factor f s
      let s ← doOp o s
      termLoop f s
    | none => .ok s

/-- `ExprParser::term`, core/sourcehook/generate/shworker/shworker.cpp:278-299. -/
def term : Nat → P → R P
  | 0, _ => .error .diverge
  | f + 1, s => do
    let s ← factor f s
    termLoop f s

/-- The loop of `expr`, core/sourcehook/generate/shworker/shworker.cpp:304-317. -/
def exprLoop : Nat → P → R P
  | 0, _ => .error .diverge
  | f + 1, s =>
    match addOp s.look with
    | some (c, o) => do
      let s ← pmatch (.ch c) s
      let s ← term f s
      let s ← doOp o s
      exprLoop f s
    | none => .ok s

/-- `ExprParser::expr`, core/sourcehook/generate/shworker/shworker.cpp:301-318. -/
def expr : Nat → P → R P
  | 0, _ => .error .diverge
  | f + 1, s => do
    let s ← term f s
    exprLoop f s
end

/-- `parse_expr` with the constructor and `operator int`, core/sourcehook/generate/shworker/shworker.cpp:355-375.  `m_tokenval` is not
initialised there; it is read only after a number was (0 here). -/
def parseExpr (fuel : Nat) (s : List Char) : R Int := do
  let r ← lexan s 0
  let s ← expr fuel { look := r.1, tv := r.2.1, rest := r.2.2, stack := [] }
  match s.stack with
  | [v] => .ok v
  | _ => .error .other

/-! ### Text -/

/-- Whether `s` begins with `w`. No counterpart in /repo: part of `std::string::find`. -/
def startsWith : List Char → List Char → Bool
  | [], _ => true
  | _ :: _, [] => false
  | c :: w, d :: s => c == d && startsWith w s

/-- `std::string::find` from the front: the first position at which `w` begins. No counterpart in /repo: the C++ library. -/
def find (w : List Char) : List Char → Option Nat
  | [] => if startsWith w [] then some 0 else none
  | c :: s => if startsWith w (c :: s) then some 0 else (find w s).map (· + 1)

/-- `std::string::find` with a position. No counterpart in /repo: the C++ library. -/
def findFrom (w s : List Char) (pos : Nat) : Option Nat := if s.length < pos then none else (find w (s.drop pos)).map (· + pos)

/-- The loop of `DoReplace`, core/sourcehook/generate/shworker/shworker.cpp:159-164, 173-178: it looks again from where it has just written. -/
def replaceLoop (what with_ : List Char) : Nat → List Char → Option Nat → R (List Char)
  | _, s, none => .ok s
  | 0, _, some _ => .error .diverge
  | f + 1, s, some w =>
    let s := s.take w ++ with_ ++ s.drop (w + what.length)
    replaceLoop what with_ f s (findFrom what s w)

/-- `DoReplace`, core/sourcehook/generate/shworker/shworker.cpp:154-180. -/
def doReplace (fuel : Nat) (what with_ s : List Char) : R (List Char) := replaceLoop what with_ fuel s (findFrom what s 0)

/-- `"%d"` and `ostream << int`. No counterpart in /repo: the C and C++ libraries. -/
def natText (n : Nat) : List Char := if n < 10 then [Char.ofNat (48 + n)] else natText (n / 10) ++ [Char.ofNat (48 + n % 10)]

/-- The same for `int`. No counterpart in /repo: the C and C++ libraries. -/
def intText (x : Int) : List Char := if x < 0 then '-' :: natText x.natAbs else natText x.natAbs

/-- `map<int,int>`, core/sourcehook/generate/shworker/shworker.cpp:69; the keys are digits. -/
abbrev Vars := Nat → Option Int

/-- The first loop of `replace_vars`, core/sourcehook/generate/shworker/shworker.cpp:445-450; `none` is an element outside the array. -/
def replaceArgs (fuel : Nat) : List (Option Int) → Nat → List Char → R (List Char)
  | [], _, s => .ok s
  | none :: _, _, _ => .error .ub
  | some a :: as, i, s => do
    let s ← doReplace fuel ['$', Char.ofNat (97 + i)] (intText a) s
    replaceArgs fuel as (i + 1) s

/-- The second loop of `replace_vars`, core/sourcehook/generate/shworker/shworker.cpp:452-457, from the key `k`, `n` keys. -/
def replaceKeys (fuel : Nat) (vars : Vars) : Nat → Nat → List Char → R (List Char)
  | 0, _, s => .ok s
  | n + 1, k, s => match vars k with
    | none => replaceKeys fuel vars n (k + 1) s
    | some v => do
      let s ← doReplace fuel ['$', Char.ofNat (48 + k)] (intText v) s
      replaceKeys fuel vars n (k + 1) s

/-- `replace_vars`, core/sourcehook/generate/shworker/shworker.cpp:440-458. -/
def replaceVars (fuel : Nat) (argv : List (Option Int)) (vars : Vars) (s : List Char) : R (List Char) := do
  let s ← replaceArgs fuel argv 0 s
  replaceKeys fuel vars 10 0 s

/-- `find_first_directive`, core/sourcehook/generate/shworker/shworker.cpp:377-395, which looks for each `@` with `find`. -/
def findDir : List Char → Nat → Option Nat
  | [], _ => none
  | c :: cs, i =>
    if c = '@' then
      match cs with
      | d :: _ => if d = '[' ∨ d = '(' then some i else findDir cs (i + 1)
      | [] => none
    else findDir cs (i + 1)

/-- The first loop of `find_section_end`, core/sourcehook/generate/shworker/shworker.cpp:407-416. -/
def endParen : List Char → Int → Nat → Option Nat
  | [], _, _ => none
  | c :: cs, nest, i =>
    let nest := if c = '(' then nest + 1 else nest
    if c = ')' then
      if nest - 1 = 0 then some (i + 1) else endParen cs (nest - 1) (i + 1)
    else endParen cs nest (i + 1)

/-- The second loop of `find_section_end`, core/sourcehook/generate/shworker/shworker.cpp:421-433. -/
def endBracket : List Char → Char → Int → Nat → Option Nat
  | [], _, _, _ => none
  | c :: cs, last, nest, i =>
    let nest := if last = '@' ∧ c = '[' then nest + 1 else nest
    if last = '@' ∧ c = ']' then
      if nest - 1 = 0 then some (i + 1) else endBracket cs c (nest - 1) (i + 1)
    else endBracket cs c nest (i + 1)

/-- `find_section_end`, core/sourcehook/generate/shworker/shworker.cpp:398-437. -/
def sectionEnd (buf : List Char) : Option Nat :=
  match buf with
  | _ :: '(' :: _ => endParen buf 0 0
  | _ :: '[' :: _ => endBracket buf (Char.ofNat 0) 0 0
  | _ => none

/-- The check for an iteration, core/sourcehook/generate/shworker/shworker.cpp:503-523: `is_iter` from the value `n` on. -/
def isIter : List Char → Char → Nat → R Nat
  | [], _, n => .ok n
  | c :: cs, last, n =>
    if c = ' ' ∨ c = '\t' then isIter cs c n
    else if n = 0 ∧ last = '$' ∧ 128 ≤ c.toNat then .error .ub
    else if n = 0 ∧ last = '$' ∧ isDigit c = true then isIter cs c 1
    else if n = 1 ∧ c = ',' then .ok 2
    else if c = '$' then isIter cs c n
    else .ok n

/-- The characters `trim_string` drops, core/sourcehook/generate/shworker/shworker.cpp:100, 111-115. -/
def blank (c : Char) : Bool := c == ' ' || c == '\t' || c == Char.ofNat 11 || c == '\n' || c == '\r'

/-- `trim_string`, core/sourcehook/generate/shworker/shworker.cpp:98-120. -/
def trim (s : List Char) : List Char := ((s.dropWhile blank).reverse.dropWhile blank).reverse

/-- `parse_expr` of the text between two positions; if they are in the wrong order the loop of `lexan` runs out of the text.
core/sourcehook/generate/shworker/shworker.cpp:372-375. -/
def parseRange (fuel : Nat) (s : List Char) (i j : Nat) : R Int :=
  if i ≤ j ∧ j ≤ s.length then parseExpr fuel ((s.take j).drop i) else .error .ub

/-- The parts of an iteration after `replace_vars`, core/sourcehook/generate/shworker/shworker.cpp:526-589: the variable, the bounds, the
separator and the code, or the complaint (`none`). -/
structure Iter where
  num : Nat
  min : Int
  max : Int
  sep : Option (List Char)
  code : List Char
  deriving DecidableEq, Repr

/-- The same, core/sourcehook/generate/shworker/shworker.cpp:526-596. -/
def iterParts (fuel : Nat) (vars : Vars) (sect : List Char) : R (Option Iter) :=
  match find [','] sect with
  | none => .ok none
  | some comma =>
    let name := trim ((sect.take comma).drop 2)
    match name with
    | ['$', d] =>
      if 128 ≤ d.toNat then .error .ub
      else if isDigit d = false then .ok none
      else
        let varnum := d.toNat - 48
        match findFrom [','] sect (comma + 1) with
        | none => .ok none
        | some c2 => do
          let lo ← parseRange fuel sect (comma + 1) c2
          match findFrom [':'] sect (c2 + 1) with
          | none => .ok none
          | some colon => do
            let hi ← parseRange fuel sect (c2 + 1) colon
            let sep := match find ['|'] sect with
              | some b => if b < colon then some ((sect.take colon).drop (b + 1)) else none
              | none => none
            let code := (sect.take (sect.length - 2)).drop (colon + 1)
            if (vars varnum).isSome then .ok none
            else .ok (some ⟨varnum, lo, hi, sep, code⟩)
    | _ => .ok none

/-- The parts of a condition, core/sourcehook/generate/shworker/shworker.cpp:621-662: the code if it is to be processed.  The outer
`none` is the complaint. -/
def condParts (fuel : Nat) (sect : List Char) : R (Option (Option (List Char))) :=
  let go (oppos : Nat) (eq : Bool) : R (Option (Option (List Char))) :=
    match find [':'] sect with
    | none => .error .ub
    | some colon => do
      let a ← parseRange fuel sect 2 oppos
      let b ← parseRange fuel sect (oppos + 2) colon
      if (a == b) = eq then .ok (some (some ((sect.drop (colon + 1)).take (sect.length - colon - 3))))
      else .ok (some none)
  match find ['=', '='] sect with
  | some oppos => go oppos true
  | none => match find ['!', '='] sect with
    | some oppos => go oppos false
    | none => .ok none

/-- Update. No counterpart in /repo: `curvars[varnum] = i`. -/
def Vars.set (vars : Vars) (k : Nat) (v : Option Int) : Vars := fun a => if a = k then v else vars a

mutual
/-- `do_input`, core/sourcehook/generate/shworker/shworker.cpp:470-671: what is written, the return value and `curvars`. -/
def doInput : Nat → List (Option Int) → Vars → List Char → R (List Char × Nat × Vars)
  | 0, _, _, _ => .error .diverge
  | f + 1, argv, vars, buf =>
    match findDir buf 0 with
    | none => .ok (buf, 0, vars)
    | some pos =>
      let pre := buf.take pos
      let buf := buf.drop pos
      match sectionEnd buf with
      | none => .ok (pre, 1, vars)
      | some e => do
        let r ← doSect f argv vars (buf.take e)
        match r with
        | (out, none, vars) => do
          let k ← doInput f argv vars (buf.drop e)
          .ok (pre ++ out ++ k.1, k.2.1, k.2.2)
        | (out, some code, vars) => .ok (pre ++ out, code, vars)

/-- One directive, core/sourcehook/generate/shworker/shworker.cpp:495-667: what is written, the return value if `do_input` returns. -/
def doSect : Nat → List (Option Int) → Vars → List Char → R (List Char × Option Nat × Vars)
  | 0, _, _, _ => .error .diverge
  | f + 1, argv, vars, sect =>
    match sect with
    | _ :: '(' :: _ => do
      let sect ← replaceVars f argv vars sect
      let v ← parseRange f sect 1 sect.length
      .ok (intText v, none, vars)
    | _ :: '[' :: _ => do
      let k ← isIter (sect.drop 2) (Char.ofNat 0) 0
      if k = 2 then do
        let sect ← replaceVars f argv vars sect
        let it ← iterParts f vars sect
        match it with
        | none => .ok ([], some 1, vars)
        | some it => do
          let r ← doIter f argv vars it it.min
          .ok (r.1, none, r.2.set it.num none)
      else do
        let c ← condParts f sect
        match c with
        | none => .ok ([], some 1, vars)
        | some none => .ok ([], none, vars)
        | some (some code) => do
          let r ← doInput f argv vars code
          .ok (r.1, none, r.2.2)
    | _ => .ok ([], some 1, vars)

/-- The iterations from `i` on, core/sourcehook/generate/shworker/shworker.cpp:598-615.  The return values of the inner `do_input` are
dropped there. -/
def doIter : Nat → List (Option Int) → Vars → Iter → Int → R (List Char × Vars)
  | 0, _, _, _, _ => .error .diverge
  | f + 1, argv, vars, it, i =>
    if i ≤ it.max then do
      let vars := vars.set it.num (some i)
      let code ← replaceVars f argv vars it.code
      let r ← doInput f argv vars code
      let s ← (match it.sep with
        | some sep => if i ≠ it.max then doInput f argv r.2.2 sep else .ok ([], 0, r.2.2)
        | none => .ok ([], 0, r.2.2))
      let j ← chk (i + 1)
      let k ← doIter f argv s.2.2 it j
      .ok (r.1 ++ s.1 ++ k.1, k.2)
    else .ok ([], vars)
end

/-- `action_iter`, core/sourcehook/generate/shworker/shworker.cpp:686-730, on files that open: the output and the return value.
`args` are the arguments as `atoi` reads them; only ten are converted, but `argc` is handed on. -/
def actionIter (fuel : Nat) (args : List Int) (input : List Char) : R (List Char × Nat) := do
  let r ← doInput fuel ((args.take 10).map some ++ List.replicate (args.length - 10) none) (fun _ => none) input
  .ok (r.1, r.2.1)

end Verif.Shw
