/-
The scripts that turn `product.version` and the number of commits into the version a build reports and
into the name of its package (C101): support/buildbot/generate_headers.py, AMBuildScript,
support/buildbot/package.pl with helpers.pm, and the fixed header public/metamod_version.h.

Texts are lists of characters.  What git prints is a parameter, and so is which characters `\d` matches.
-/
namespace Verif.Build

/-- The characters of a literal. No counterpart in /repo: notation. -/
abbrev t (s : String) : List Char := s.toList

/-- The pattern `(\d+)` followed by what `k` says: the longest run of digits first, shorter ones if `k` fails (Python's `re`, external).
`d`: the characters `\d` matches; `acc`: the digits taken.  As used at support/buildbot/generate_headers.py:54, AMBuildScript:69. -/
def plus {β : Type} (d : Char → Bool) (k : List Char → List Char → Option β) (acc : List Char) : List Char → Option β
  | [] => if acc = [] then none else k acc []
  | c :: s =>
    if d c then
      match plus d k (acc ++ [c]) s with
      | some x => some x
      | none => if acc = [] then none else k acc (c :: s)
    else if acc = [] then none else k acc (c :: s)

/-- The pattern `\.` followed by what `k` says. support/buildbot/generate_headers.py:54. -/
def dot {β : Type} (k : List Char → Option β) : List Char → Option β
  | [] => none
  | c :: s => if c = '.' then k s else none

/-- The pattern `(\d+)\.(\d+)\.(\d+)` followed by what `k` says of the three groups and the rest. support/buildbot/generate_headers.py:54. -/
def three {β : Type} (d : Char → Bool) (k : List Char → List Char → List Char → List Char → Option β) (s : List Char) : Option β :=
  plus d (fun a s => dot (fun s => plus d (fun b s => dot (fun s => plus d (fun c s => k a b c s) [] s) s) [] s) s) [] s

/-- The pattern `-?(.*)`: the group.  It always matches at the first try. support/buildbot/generate_headers.py:54. -/
def tagOf (s : List Char) : List Char := (if s.head? = some '-' then s.tail else s).takeWhile (· ≠ '\n')

/-- The groups of the pattern. support/buildbot/generate_headers.py:54-57. -/
structure Groups where
  major : List Char
  minor : List Char
  release : List Char
  tag : List Char
deriving DecidableEq, Repr

/-- `re.match(r'(\d+)\.(\d+)\.(\d+)-?(.*)', contents)`; `none`: the exception of line 56. support/buildbot/generate_headers.py:52-57. -/
def groups (d : Char → Bool) (contents : List Char) : Option Groups :=
  three d (fun a b c s => some ⟨a, b, c, tagOf s⟩) contents

/-- `"{0}.{1}.{2}".format(major, minor, release)`. support/buildbot/generate_headers.py:58, AMBuildScript:74. -/
def product (a b c : List Char) : List Char := a ++ t "." ++ b ++ t "." ++ c

/-- `fullstring`. support/buildbot/generate_headers.py:59-63. -/
def fullString (g : Groups) (count : List Char) : List Char :=
  if g.tag ≠ [] then
    if g.tag = t "dev" then product g.major g.minor g.release ++ (t "-" ++ g.tag) ++ (t "+" ++ count)
    else product g.major g.minor g.release ++ (t "-" ++ g.tag)
  else product g.major g.minor g.release

/-- What is written to metamod_version_auto.h, line by line, without the indented empty last line.
support/buildbot/generate_headers.py:65-84. -/
def headerLines (g : Groups) (short count : List Char) : List (List Char) :=
  [t "",
   t "#ifndef _METAMOD_AUTO_VERSION_INFORMATION_H_",
   t "#define _METAMOD_AUTO_VERSION_INFORMATION_H_",
   t "",
   t "#define MMS_BUILD_TAG\t\t\"" ++ g.tag ++ t "\"",
   t "#define MMS_BUILD_CSET\t\t\"" ++ short ++ t "\"",
   t "#define MMS_BUILD_MAJOR\t\t\"" ++ g.major ++ t "\"",
   t "#define MMS_BUILD_MINOR\t\t\"" ++ g.minor ++ t "\"",
   t "#define MMS_BUILD_RELEASE\t\"" ++ g.release ++ t "\"",
   t "#define MMS_BUILD_LOCAL_REV      \"" ++ count ++ t "\"",
   t "",
   t "#define MMS_BUILD_UNIQUEID       \"" ++ count ++ t ":\" MMS_BUILD_CSET",
   t "",
   t "#define MMS_VERSION_STRING\t\"" ++ fullString g count ++ t "\"",
   t "#define MMS_VERSION_FILE\t" ++ g.major ++ t "," ++ g.minor ++ t "," ++ g.release ++ t ",0",
   t "",
   t "#endif /* _METAMOD_AUTO_VERSION_INFORMATION_H_ */"]

/-- `output_version_header`: `none` is the exception. support/buildbot/generate_headers.py:48-84. -/
def header (d : Char → Bool) (contents short count : List Char) : Option (List (List Char)) :=
  (groups d contents).map fun g => headerLines g short count

/-- `detectProductVersion`: the pattern `(\d+)\.(\d+)\.(\d+).*`, or `1.0.0`. AMBuildScript:62-74. -/
def productVersion (d : Char → Bool) (contents : List Char) : List Char :=
  match three d (fun a b c _ => some (product a b c)) contents with
  | some v => v
  | none => t "1.0.0"

/-- `shouldIncludeSdk`. AMBuildScript:84-87. -/
def shouldIncludeSdk (version : List Char) (source2 : Bool) : Bool := !(source2 && (t "1.").isPrefixOf version)

/-- `ProductVersion`: the first line without its end. support/buildbot/helpers.pm:64-73. -/
def firstLine (contents : List Char) : List Char := contents.takeWhile (· ≠ '\n')

/-- The substitution that removes every `-dev`, from the left. support/buildbot/package.pl:39. -/
def dropDev : List Char → List Char
  | [] => []
  | c :: s => if (t "-dev").isPrefixOf (c :: s) then dropDev (s.drop 3) else c :: dropDev s
termination_by s => s.length
decreasing_by all_goals (simp only [List.length_cons, List.length_drop]; omega)

/-- The name of the package on Linux; `count` as `GitRevNum` gives it. support/buildbot/package.pl:38-66. -/
def packageName (contents count : List Char) (tag : Option (List Char)) : List Char :=
  t "mmsource-" ++ (dropDev (firstLine contents) ++ (t "-git" ++ count) ++ t "-linux" ++
    (match tag with | some g => t "-" ++ g | none => [])) ++ t ".tar.gz"

/-- `$(cat ../../product.version)`: without the newlines at the end. .github/workflows/build-release.yml:132. -/
def shellText (contents : List Char) : List Char := (contents.reverse.dropWhile (· = '\n')).reverse

/-- `${version_base%-dev}`: without `-dev` at the end. .github/workflows/build-release.yml:133. -/
def cutDev (s : List Char) : List Char := if (t "-dev").isSuffixOf s then s.take (s.length - 4) else s

/-- The name of the package the workflow makes on Linux. .github/workflows/build-release.yml:132-143. -/
def workflowName (contents count : List Char) : List Char :=
  t "mmsource-" ++ (cutDev (shellText contents) ++ t "-git" ++ count) ++ t "-" ++ t "linux" ++ t ".tar.gz"

/-- The fixed header: `MMS_BUILD_MAJOR`, `MINOR`, `RELEASE` and `TAG`. public/metamod_version.h:45-50. -/
def manual : Groups := ⟨t "2", t "0", t "0", t "manual"⟩

/-- product.version:1. -/
def shipped : List Char := t "2.0.0-dev\n"

/-! ### what the claims are stated with -/

/-- Specification: a number, a text of digits. -/
def Number (d : Char → Bool) (s : List Char) : Prop := s ≠ [] ∧ ∀ c ∈ s, d c = true

/-- Specification: which characters `\d` may match: not those that separate or quote. -/
structure Digits (d : Char → Bool) : Prop where
  dot : d '.' = false
  dash : d '-' = false
  newline : d '\n' = false
  quote : d '"' = false
  backslash : d '\\' = false
  blank : d ' ' = false
  tab : d '\t' = false

/-- Specification: the value of a macro in a header: what follows its name and blanks in the first line that defines it. -/
def valueOf (name : List Char) : List (List Char) → Option (List Char)
  | [] => none
  | l :: ls =>
    let head := t "#define " ++ name
    if head.isPrefixOf l ∧ ((l.drop head.length).head? = some ' ' ∨ (l.drop head.length).head? = some '\t') then
      some ((l.drop head.length).dropWhile (fun c => c = ' ' ∨ c = '\t'))
    else valueOf name ls

/-- Specification: the string between two quotes, up to the first quote; `none` without quotes or with an escape sequence in it. -/
def cString : List Char → Option (List Char)
  | '"' :: s =>
    let w := s.takeWhile (· ≠ '"')
    if '\\' ∈ w ∨ s.length = w.length then none else some w
  | _ => none

/-- Specification: a text that can stand in a string of C as it is. -/
def Quotable (s : List Char) : Prop := '"' ∉ s ∧ '\\' ∉ s

end Verif.Build
