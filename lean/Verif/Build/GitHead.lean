import Verif.Build.Search
/-
The files whose change makes the build find out the commit anew (C113): support/buildbot/Versioning and `getGitHeadPath` of the samples.

Simplified: white space is space, tab, line feed, vertical tab, form feed and carriage return; paths are those of POSIX.
-/
namespace Verif.GitHead
open Verif.Search (Path join)

/-- White space. No counterpart in /repo: Python. -/
def ws (c : Char) : Bool := c = ' ' || c = '\t' || c = '\n' || c = Char.ofNat 11 || c = Char.ofNat 12 || c = '\r'

/-- `str.strip()`. No counterpart in /repo: Python, called at support/buildbot/Versioning:20, 24. -/
def strip (s : Path) : Path := ((s.dropWhile ws).reverse.dropWhile ws).reverse

/-- `[a-fA-F0-9]`. support/buildbot/Versioning:21. -/
def hexDigit (c : Char) : Bool := ('a' ≤ c && c ≤ 'f') || ('A' ≤ c && c ≤ 'F') || ('0' ≤ c && c ≤ '9')

/-- `re.search('^[a-fA-F0-9]{40}$', s)` for a text without a line feed at its end. support/buildbot/Versioning:21. -/
def isHash (s : Path) : Bool := s.length = 40 && s.all hexDigit

/-- `s.split(':')[1]`; `none`: IndexError. support/buildbot/Versioning:24. -/
def second (s : Path) : Option Path :=
  match s.dropWhile (· ≠ ':') with
  | [] => none
  | _ :: r => some (r.takeWhile (· ≠ ':'))

/-- `git_head_path`, with `git` the directory `.git`, `there` being `os.path.exists` (external) and `contents` those of `.git/HEAD`.
support/buildbot/Versioning:19-27, samples/s2_sample_mm/AMBuildScript:39-48. -/
def headPath (there : Path → Bool) (git contents : Path) : Option Path :=
  if isHash (strip contents) then some (join git "HEAD".toList)
  else (second (strip contents)).map fun st =>
    if there (join git (strip st)) then join git (strip st) else join git "HEAD".toList

/-- What a repository holds: its files, and the branches in `packed-refs`. No counterpart in /repo: git. -/
structure Repo where
  files : Path → Option Path
  packed : Path → Option Path

/-- The files below `.git` on which the header with the version depends; `none`: the script fails. support/buildbot/Versioning:19-37. -/
def watchedMain (git : Path) (S : Repo) : Option (List Path) := do
  let c ← S.files (join git "HEAD".toList)
  let w ← headPath (fun p => (S.files p).isSome) git c
  some [w]

/-- The files below `.git` on which the scripts of the sample depend; without `.git/HEAD` there are none. Simplified: their order.
samples/s2_sample_mm/AMBuildScript:33-50, 230-235. -/
def watchedSample (git : Path) (S : Repo) : Option (List Path) :=
  match S.files (join git "HEAD".toList) with
  | none => some []
  | some c => (headPath (fun p => (S.files p).isSome) git c).map fun w => [join git "HEAD".toList, w]

end Verif.GitHead
