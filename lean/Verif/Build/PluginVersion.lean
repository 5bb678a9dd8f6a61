import Verif.Build.Plugin
/-
The version of the sample plugin for Source 2 (C111): `generateVersionLib` of samples/s2_sample_mm/AMBuildScript.

Simplified: `\d` of the pattern matches the digits of ASCII; tags have no line breaks.
-/
namespace Verif.PluginVersion
open Verif.Package (Text occurs)

/-- `[a-f\d]`. samples/s2_sample_mm/AMBuildScript:240. -/
def isHex (c : Char) : Bool := ('a' ≤ c && c ≤ 'f') || ('0' ≤ c && c ≤ '9')

/-- `\d`. samples/s2_sample_mm/AMBuildScript:240. -/
def isDig (c : Char) : Bool := '0' ≤ c && c ≤ '9'

/-- The match of `(.+?)\-(\d+)\-g[a-f\d]+$`, from the end: neither class has the character that stands before it, so there is one way to
match; the tag and the commits after it. samples/s2_sample_mm/AMBuildScript:237-243. -/
def parseTag (s : Text) : Text × Text :=
  match s.reverse.takeWhile isHex, s.reverse.dropWhile isHex with
  | _ :: _, 'g' :: '-' :: r =>
    match r.takeWhile isDig, r.dropWhile isDig with
    | d :: ds, '-' :: c :: t => ((c :: t).reverse, (d :: ds).reverse)
    | _, _ => (s, "0".toList)
  | _, _ => (s, "0".toList)

/-- What git says: `describe`, `count`, `log`; empty if it fails. samples/s2_sample_mm/AMBuildScript:237, 245-246. -/
structure Git where
  describe : Text
  count : Text
  log : Text

/-- What can be put into the version. samples/s2_sample_mm/AMBuildScript:249-262. -/
inductive Holder
  | short | long | count | tag | after
  deriving DecidableEq, Repr

/-- The name of a place. samples/s2_sample_mm/AMBuildScript:249-262. -/
def Holder.name : Holder → Text
  | .short => "git-shorthash".toList
  | .long => "git-longhash".toList
  | .count => "git-count".toList
  | .tag => "git-tag".toList
  | .after => "git-commits-after-tag".toList

/-- `x or d`. samples/s2_sample_mm/AMBuildScript:237, 245-246. -/
def orElse (x d : Text) : Text := if x = [] then d else x

/-- `shorthash, longhash = revision_hash.split(':')`; `none`: ValueError. samples/s2_sample_mm/AMBuildScript:247. -/
def splitHash (s : Text) : Option (Text × Text) :=
  match s.dropWhile (· ≠ ':') with
  | [] => none
  | _ :: r => if ':' ∈ r then none else some (s.takeWhile (· ≠ ':'), r)

/-- The variables; `none` in the result: not set. Without a repository only three are set.
samples/s2_sample_mm/AMBuildScript:230-247. -/
def gather : Option Git → Option (Holder → Option Text)
  | none => some fun
    | .short | .long | .count => some "0".toList
    | .tag | .after => none
  | some g => do
    let t := parseTag (orElse g.describe "MISSING_TAG".toList)
    let (short, long) ← splitHash (orElse g.log "MISSING_SHORTHASH:MISSING_LONGHASH".toList)
    some fun
      | .short => some short
      | .long => some long
      | .count => some (orElse g.count "MISSING_COUNT".toList)
      | .tag => some t.1
      | .after => some t.2

/-- `'{{…}}'`. samples/s2_sample_mm/AMBuildScript:249-262. -/
def mark (n : Text) : Text := '{' :: '{' :: (n ++ ['}', '}'])

/-- `str.replace` for a text that is not empty. No counterpart in /repo: Python, called at samples/s2_sample_mm/AMBuildScript:250-262. -/
def replaceAll (p v : Text) : Text → Text
  | [] => []
  | c :: s => if p.isPrefixOf (c :: s) then v ++ replaceAll p v (s.drop (p.length - 1)) else c :: replaceAll p v s
termination_by s => s.length
decreasing_by
  · simp only [List.length_drop, List.length_cons]; omega
  · simp

/-- One of the five statements; `none`: NameError. samples/s2_sample_mm/AMBuildScript:249-262. -/
def subst (h : Holder) (v : Option Text) (s : Text) : Option Text :=
  if occurs (mark h.name) s then v.map fun x => replaceAll (mark h.name) x s else some s

/-- The version. samples/s2_sample_mm/AMBuildScript:228, 249-262. -/
def version (val : Holder → Option Text) (s : Text) : Option Text := do
  let s ← subst .short (val .short) s
  let s ← subst .long (val .long) s
  let s ← subst .count (val .count) s
  let s ← subst .tag (val .tag) s
  subst .after (val .after) s

end Verif.PluginVersion
