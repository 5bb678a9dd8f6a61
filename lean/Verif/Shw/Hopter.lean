import Verif.Shw.Tmpl
/-
The second generator of shworker, `hopter` (core/sourcehook/generate/shworker/fd_hopter.cpp), which writes the code for every number of
parameters up to a given one.

* Texts are lists of characters, none of them NUL.
* `MaxNumArgs` is `numargs`, and below the greatest `int`, so that counting up to it ends.
* Both files open, and writing does not fail.
-/
namespace Verif.Hopter
open Verif.Shw

theorem find_nil {w : List Char} (h : w ≠ []) : find w [] = none := by
  cases w with
  | nil => exact absurd rfl h
  | cons c w => rfl

/-- `CString::Replace`, core/sourcehook/generate/shworker/fd_hopter.cpp:168-185, from `pos` on: what is behind `pos` is `s`.  The texts
looked for are never empty. -/
def replace (lhs rhs s : List Char) : List Char :=
  if _h : lhs = [] then s
  else match _e : find lhs s with
    | none => s
    | some p => s.take p ++ (rhs ++ replace lhs rhs (s.drop (p + lhs.length)))
termination_by s.length
decreasing_by
  cases s with
  | nil => rw [find_nil _h] at _e; cases _e
  | cons c s =>
    have := List.length_pos_iff.2 _h
    rw [List.length_drop]
    simp only [List.length_cons]
    omega

/-- The directives. core/sourcehook/generate/shworker/fd_hopter.cpp:289-329. -/
inductive Dir
  | num | cls | sel | func | inv
  deriving DecidableEq, Repr

/-- What stands behind the `@`. core/sourcehook/generate/shworker/fd_hopter.cpp:289-329. -/
def Dir.name : Dir → List Char
  | .num => ['N', 'U', 'M']
  | .cls => ['C', 'L', 'A', 'S', 'S', 'A', 'R', 'G', 'S']
  | .sel => ['S', 'E', 'L', 'A', 'R', 'G', 'S']
  | .func => ['F', 'U', 'N', 'C', 'A', 'R', 'G', 'S']
  | .inv => ['I', 'N', 'V', 'O', 'K', 'E', 'A', 'R', 'G', 'S']

/-- A directive. core/sourcehook/generate/shworker/fd_hopter.cpp:289-329. -/
def Dir.tag (d : Dir) : List Char := '@' :: d.name

/-- One entry of a list: `class Param3`, `Param3`, `Param3 p3`, `p3`; `%d` writes the number in decimal digits.
core/sourcehook/generate/shworker/fd_hopter.cpp:270-284. -/
def entry : Dir → Nat → List Char
  | .cls, k => ['c', 'l', 'a', 's', 's', ' ', 'P', 'a', 'r', 'a', 'm'] ++ decimal k
  | .sel, k => ['P', 'a', 'r', 'a', 'm'] ++ decimal k
  | .func, k => ['P', 'a', 'r', 'a', 'm'] ++ decimal k ++ [' ', 'p'] ++ decimal k
  | .inv, k => ['p'] ++ decimal k
  | .num, k => decimal k

/-- `classlist`, `selectlist`, `funclist`, `invokelist`: empty, or the first entry and then each further one behind a comma.
core/sourcehook/generate/shworker/fd_hopter.cpp:263-286. -/
def entries (d : Dir) : Nat → List Char
  | 0 => []
  | 1 => entry d 1
  | k + 2 => entries d (k + 1) ++ ([',', ' '] ++ entry d (k + 2))

/-- `commastr`, core/sourcehook/generate/shworker/fd_hopter.cpp:267, 274. -/
def comma (n : Nat) : List Char := if n = 0 then [] else [',', ' ']

/-- The five replacements made for each list. core/sourcehook/generate/shworker/fd_hopter.cpp:298-302, 311-315, 318-322, 325-329. -/
def listSteps (d : Dir) (n : Nat) : List (List Char × List Char) :=
  [([','] ++ d.tag, comma n ++ entries d n),
   ([',', ' '] ++ d.tag, comma n ++ entries d n),
   (d.tag ++ [',', ' '], entries d n ++ comma n),
   (d.tag ++ [','], entries d n ++ comma n),
   (d.tag, entries d n)]

/-- The word in front of a list of template parameters. No counterpart in /repo: part of the texts at
core/sourcehook/generate/shworker/fd_hopter.cpp:292-297. -/
def templ : List Char := ['t', 'e', 'm', 'p', 'l', 'a', 't', 'e']

/-- What becomes of `template<@CLASSARGS>`. core/sourcehook/generate/shworker/fd_hopter.cpp:292-297. -/
def templText (n : Nat) : List Char := if n = 0 then [] else templ ++ ['<'] ++ entries .cls n ++ ['>']

/-- `selargstr`, core/sourcehook/generate/shworker/fd_hopter.cpp:305-307. -/
def selText (n : Nat) : List Char := if n = 0 then [] else ['<'] ++ entries .sel n ++ ['>']

/-- All replacements in their order. core/sourcehook/generate/shworker/fd_hopter.cpp:288-329. -/
def steps (n : Nat) : List (List Char × List Char) :=
  [(Dir.num.tag, decimal n),
   (templ ++ ['<'] ++ Dir.cls.tag ++ ['>'], templText n),
   (templ ++ [' ', '<'] ++ Dir.cls.tag ++ ['>'], templText n)] ++ listSteps .cls n ++
  [(['<'] ++ Dir.sel.tag ++ ['>'], selText n),
   (['<', ' '] ++ Dir.sel.tag ++ [' ', '>'], selText n)] ++ listSteps .sel n ++ listSteps .func n ++ listSteps .inv n

/-- `PrintVarArgs`, core/sourcehook/generate/shworker/fd_hopter.cpp:255-332: what is written. -/
def printVarArgs (block : List Char) (n : Nat) : List Char := (steps n).foldl (fun s x => replace x.1 x.2 s) block

/-! ### The file -/

/-- `fgets` with room for `k` characters: what is read, what is left, and whether the end of the file was met.
No counterpart in /repo: the C library, called at core/sourcehook/generate/shworker/fd_hopter.cpp:348, 354. -/
def fgets : Nat → List Char → List Char × List Char × Bool
  | 0, s => ([], s, false)
  | _ + 1, [] => ([], [], true)
  | k + 1, c :: s => if c = '\n' then ([c], s, false) else
    let (a, b, e) := fgets k s
    (c :: a, b, e)

/-- The markers, core/sourcehook/generate/shworker/fd_hopter.cpp:349. -/
def varargs : List Char := ['@', 'V', 'A', 'R', 'A', 'R', 'G', 'S']

/-- The markers, core/sourcehook/generate/shworker/fd_hopter.cpp:355. -/
def endvar : List Char := ['@', 'E', 'N', 'D', 'V', 'A', 'R']

theorem fgets_le : ∀ (k : Nat) (s : List Char), (fgets k s).2.1.length ≤ s.length := by
  intro k
  induction k with
  | zero => intro s; exact Nat.le_refl _
  | succ k ih =>
    intro s
    cases s with
    | nil => exact Nat.le_refl _
    | cons c s =>
      unfold fgets
      split
      · simp
      · exact Nat.le_succ_of_le (ih s)

theorem fgets_lt (k : Nat) (c : Char) (s : List Char) : (fgets (k + 1) (c :: s)).2.1.length < (c :: s).length := by
  unfold fgets
  split
  · simp
  · exact Nat.lt_succ_of_le (fgets_le k s)

/-- The loop that collects a block, core/sourcehook/generate/shworker/fd_hopter.cpp:352-357: `eof` is the end-of-file mark of the file, `buf`
what the buffer holds, which `fgets` leaves alone if there is nothing to read.  The block and what is left of the file, `none` without
an end of the block. -/
def collect (s : List Char) (eof : Bool) (buf acc : List Char) : Option (List Char × List Char) :=
  if eof then none
  else
    let r := fgets 4999 s
    let b := if r.1 = [] then buf else r.1
    if startsWith endvar b then some (acc, r.2.1) else collect r.2.1 r.2.2 b (acc ++ b)
termination_by 2 * s.length + (if eof then 0 else 1)
decreasing_by
  cases s with
  | nil => simp_all [fgets]
  | cons c s =>
    have := fgets_lt 4998 c s
    split <;> simp_all <;> omega

theorem collect_false (s buf acc : List Char) : collect s false buf acc =
    if startsWith endvar (if (fgets 4999 s).1 = [] then buf else (fgets 4999 s).1) then some (acc, (fgets 4999 s).2.1)
    else collect (fgets 4999 s).2.1 (fgets 4999 s).2.2 (if (fgets 4999 s).1 = [] then buf else (fgets 4999 s).1)
      (acc ++ (if (fgets 4999 s).1 = [] then buf else (fgets 4999 s).1)) := by
  rw [collect, if_neg (by decide)]

theorem collect_true (s buf acc : List Char) : collect s true buf acc = none := by rw [collect, if_pos rfl]

theorem collect_le : ∀ (n : Nat) (s : List Char) (eof : Bool) (buf acc x y : List Char), s.length ≤ n → collect s eof buf acc = some (x, y) →
    y.length ≤ s.length := by
  intro n
  induction n with
  | zero =>
    intro s eof buf acc x y hs h
    have : s = [] := List.length_eq_zero_iff.1 (Nat.le_zero.1 hs)
    subst this
    cases eof with
    | true => rw [collect_true] at h; cases h
    | false =>
      rw [collect_false] at h
      by_cases hb : startsWith endvar (if (fgets 4999 []).1 = [] then buf else (fgets 4999 []).1) = true
      · rw [if_pos hb] at h; cases h; exact fgets_le _ _
      · rw [if_neg hb, show (fgets 4999 []).2.2 = true from rfl, collect_true] at h
        cases h
  | succ n ih =>
    intro s eof buf acc x y hs h
    cases eof with
    | true => rw [collect_true] at h; cases h
    | false =>
      rw [collect_false] at h
      by_cases hb : startsWith endvar (if (fgets 4999 s).1 = [] then buf else (fgets 4999 s).1) = true
      · rw [if_pos hb] at h; cases h; exact fgets_le _ _
      · rw [if_neg hb] at h
        refine Nat.le_trans (ih _ _ _ _ _ _ ?_ h) (fgets_le 4999 s)
        cases s with
        | nil => exact Nat.zero_le _
        | cons c s => exact Nat.le_of_lt_succ (Nat.lt_of_lt_of_le (fgets_lt 4998 c s) hs)

/-- The texts for all numbers of parameters, core/sourcehook/generate/shworker/fd_hopter.cpp:359-362. -/
def expansions (max : Int) (block : List Char) : List Char :=
  (List.range (max + 1).toNat).flatMap fun k => ['/', '/', 'N', '='] ++ decimal k ++ ['\n'] ++ printVarArgs block k

/-- The loop of `action_hopter`, core/sourcehook/generate/shworker/fd_hopter.cpp:347-370: what is written and what is returned. -/
def action (max : Int) (s : List Char) : List Char × Nat :=
  let r := fgets 4999 s
  if _h : r.1 = [] then ([], 0)
  else if startsWith varargs r.1 then
    match _e : collect r.2.1 r.2.2 r.1 [] with
    | none => ([], 1)
    | some q => ((expansions max q.1) ++ (action max q.2).1, (action max q.2).2)
  else (r.1 ++ (action max r.2.1).1, (action max r.2.1).2)
termination_by s.length
decreasing_by
  all_goals
    cases s with
    | nil => exact absurd rfl _h
    | cons c s =>
      first
      | exact Nat.lt_of_le_of_lt (collect_le _ _ _ _ _ q.1 _ (Nat.le_refl _) _e) (fgets_lt 4998 c s)
      | exact fgets_lt 4998 c s

/-- Small letters, for `stricmp`. No counterpart in /repo: the C library, called at core/sourcehook/generate/shworker/shworker.cpp:747, 755. -/
def lower (c : Char) : Char := if 'A' ≤ c ∧ c ≤ 'Z' then Char.ofNat (c.toNat + 32) else c

/-- What `main` goes on with: the remark on how to call it, one of the two generators, or the complaint about the first argument.
core/sourcehook/generate/shworker/shworker.cpp:737-767. -/
inductive Call
  | usage
  | hopter (n : Int) (fin fout : List Char)
  | iter (fin fout : List Char) (more : List (List Char))
  | unknown

/-- `main`, core/sourcehook/generate/shworker/shworker.cpp:735-768: `argv` with the name of the program, behind which there is a null pointer;
`atoi` reads a number and must not be given a null pointer. -/
def main (atoi : List Char → Int) (argv : List (List Char)) : R Call :=
  match argv with
  | _ :: act :: fin :: fout :: more =>
    if act.map lower = ['h', 'o', 'p', 't', 'e', 'r'] then
      match more with
      | [] => .error .ub
      | a :: _ => .ok (.hopter (atoi a) fin fout)
    else if act.map lower = ['i', 't', 'e', 'r'] then .ok (.iter fin fout more)
    else .ok .unknown
  | _ => .ok .usage

/-! ### Specification -/

/-- Specification: an entry of a list in brackets: a text, or a directive that stands for any number of entries. No counterpart in /repo. -/
inductive Item
  | text (w : List Char)
  | dir (d : Dir)
  deriving DecidableEq, Repr

/-- Specification: a piece of a template: a text, the number of parameters, a list in round or pointed brackets, the head of a template
with all parameters, a choice of all parameters; the two with or without their blanks.  core/sourcehook/generate/shworker/fd_hopter.cpp:40-62. -/
inductive Piece
  | text (w : List Char)
  | num
  | list (round : Bool) (items : List Item)
  | tmpl (blank : Bool)
  | sels (blank : Bool)
  deriving DecidableEq, Repr

/-- Specification: how an entry is written. No counterpart in /repo. -/
def Item.show : Item → List Char
  | .text w => w
  | .dir d => d.tag

/-- Specification: the brackets. No counterpart in /repo. -/
def opening (round : Bool) : Char := if round then '(' else '<'

/-- Specification: the brackets. No counterpart in /repo. -/
def closing (round : Bool) : Char := if round then ')' else '>'

/-- Specification: how a piece is written. No counterpart in /repo. -/
def Piece.show : Piece → List Char
  | .text w => w
  | .num => Dir.num.tag
  | .list b items => opening b :: (joined [',', ' '] (items.map Item.show) ++ [closing b])
  | .tmpl false => templ ++ ['<'] ++ Dir.cls.tag ++ ['>']
  | .tmpl true => templ ++ [' ', '<'] ++ Dir.cls.tag ++ ['>']
  | .sels false => ['<'] ++ Dir.sel.tag ++ ['>']
  | .sels true => ['<', ' '] ++ Dir.sel.tag ++ [' ', '>']

/-- Specification: how a template is written. No counterpart in /repo. -/
def written (t : List Piece) : List Char := t.flatMap Piece.show

/-- Specification: the entries of a list that an entry of the template stands for, if there are `n` parameters. No counterpart in /repo. -/
def Item.means (n : Nat) : Item → List (List Char)
  | .text w => [w]
  | .dir d => (fromTo 1 n).map (entry d)

/-- Specification: what a piece stands for, if there are `n` parameters; heads and choices without parameters vanish.
No counterpart in /repo. -/
def Piece.means (n : Nat) : Piece → List Char
  | .text w => w
  | .num => decimal n
  | .list b items => opening b :: (joined [',', ' '] (items.flatMap (Item.means n)) ++ [closing b])
  | .tmpl _ => if n = 0 then [] else templ ++ ['<'] ++ joined [',', ' '] ((fromTo 1 n).map (entry .cls)) ++ ['>']
  | .sels _ => if n = 0 then [] else ['<'] ++ joined [',', ' '] ((fromTo 1 n).map (entry .sel)) ++ ['>']

/-- Specification: what a template stands for. No counterpart in /repo. -/
def means (n : Nat) (t : List Piece) : List Char := t.flatMap (Piece.means n)

/-- Specification: the entry is a text without `@`, or the directive of a list. No counterpart in /repo. -/
def Item.Ok : Item → Prop
  | .text w => '@' ∉ w
  | .dir d => d ≠ .num

/-- Specification: texts have no `@`, and a list in pointed brackets has an entry that is a text. No counterpart in /repo. -/
def Piece.Ok : Piece → Prop
  | .text w => '@' ∉ w
  | .list b items => (∀ i ∈ items, i.Ok) ∧ (b = false → ∃ w, .text w ∈ items)
  | _ => True

end Verif.Hopter
