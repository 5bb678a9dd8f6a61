import Verif.C.Buf
/-
Path helpers: UTIL_PathCmp, UTIL_BadRelatize, UTIL_Relatize2, UTIL_Relatize (core/metamod_util.cpp)
and mm_PathCmp (loader/utility.cpp).  Linux branches (PATH_SEP_CHAR is '/').
-/
namespace Verif.Util
open Verif.C

/-- `while (path[++pos]) if (path[pos] != PATH_SEP_CHAR) break;` entered with the incremented position,
metamod_util.cpp:120-126. -/
def skipSep (b : Buf) (i : Nat) : R Nat :=
  if h : i < b.length then
    if b[i] = 47 then skipSep b (i + 1) else .ok i
  else .error .outOfBounds
termination_by b.length - i

theorem skipSep_ge {b : Buf} {i j : Nat} (h : skipSep b i = .ok j) : i ≤ j := by
  have : ∀ n i, b.length - i = n → skipSep b i = .ok j → i ≤ j := by
    intro n
    induction n with
    | zero => intro i hn h; unfold skipSep at h; rw [dif_neg (by omega)] at h; cases h
    | succ n ih =>
      intro i hn h
      unfold skipSep at h
      rw [dif_pos (by omega)] at h
      split at h
      · have := ih (i + 1) (by omega) h; omega
      · cases h; omega
  exact this _ i rfl h

/-- `UTIL_PathCmp`, metamod_util.cpp:102-159, from the positions on. -/
def pathCmp (b1 b2 : Buf) (p1 p2 : Nat) : R Bool :=
  if h : p1 < b1.length then
    match rd b2 p2 with
    | .error e => .error e
    | .ok c2 =>
      let c1 := b1[p1]
      if c1 = 0 ∨ c2 = 0 then .ok (c1 == c2)
      else if c1 = 47 then
        if c2 ≠ 47 then .ok false
        else
          match h1 : skipSep b1 (p1 + 1) with
          | .error e => .error e
          | .ok q1 =>
            match skipSep b2 (p2 + 1) with
            | .error e => .error e
            | .ok q2 => pathCmp b1 b2 q1 q2
      else if (c1 &&& 0x80 ≠ 0 ∧ c1 ≠ c2) ∨ (isalpha c1 = false ∧ c1 ≠ c2) then .ok false
      else if c1 ≠ c2 then .ok false
      else pathCmp b1 b2 (p1 + 1) (p2 + 1)
  else .error .outOfBounds
termination_by b1.length - p1
decreasing_by
  · have := skipSep_ge h1; omega
  · omega

/-- `mm_PathCmp`, loader/utility.cpp:218-292: `realpath` (external) gives the full path or fails. -/
def mmPathCmp (realpath : List Byte → Option Buf) (b1 b2 : Buf) : R Bool := do
  let s1 ← cstr b1 0
  let s2 ← cstr b2 0
  pathCmp ((realpath s1).getD b1) ((realpath s2).getD b2) 0 0

/-- `snprintf(&buffer[total], maxlength - total, "%s", text)`; `none` = the caller's "does not fit" test
(`len >= maxlength - total`), metamod_util.cpp:325-340.  The buffer is at least `maxlength` long. -/
def appendText (maxlength : Nat) (acc text : List Byte) : Option (List Byte) :=
  if text.length ≥ maxlength - acc.length then none else some (acc ++ text)

/-- The common-root loop, metamod_util.cpp:269-284, on the remaining characters of the two strings;
`root` holds the two strings from the last common separator on. -/
def commonRoot : List Byte → List Byte → Option (List Byte × List Byte) → Option (List Byte × List Byte)
  | a :: s, b :: t, root =>
    if a = 47 ∧ b = 47 then commonRoot s t (some (a :: s, b :: t))
    else if a ≠ b then root
    else commonRoot s t root
  | _, _, root => root

/-- The level counting loop, metamod_util.cpp:303-317. -/
def countLevels : List Byte → Nat
  | [] => 0
  | c :: s =>
    if c = 47 then
      if s = [] then 0 else countLevels s + 1
    else countLevels s

/-- The loop that writes `../`, metamod_util.cpp:322-332. -/
def appendUps (maxlength : Nat) : Nat → List Byte → Option (List Byte)
  | 0, acc => some acc
  | n + 1, acc =>
    match appendText maxlength acc [46, 46, 47] with
    | none => none
    | some acc => appendUps maxlength n acc

/-- `UTIL_BadRelatize`, metamod_util.cpp:242-343: the text left in the buffer on success, `none` for `false`.
`to`/`from` are the strings (no NUL inside); buffer of at least `maxlength` bytes. -/
def badRelatize (maxlength : Nat) (to_ from_ : List Byte) : Option (List Byte) :=
  if to_.head? ≠ some 47 ∨ from_.head? ≠ some 47 then none
  else
    match commonRoot to_ from_ none with
    | none => none
    | some (rootTo, rootFrom) =>
      let levels := if rootTo.drop 1 ≠ [] then countLevels rootTo else 0
      match appendUps maxlength levels [] with
      | none => none
      | some acc => appendText maxlength acc (rootFrom.drop 1)

/-- The component loop of `SplitPath`, metamod_util.cpp:397-404; `cur` is the component read so far. -/
def splitLoop : List Byte → List Byte → List (List Byte)
  | cur, [] => if cur = [] then [] else [cur]
  | cur, c :: s =>
    if c = 47 then
      if cur = [] then splitLoop [] s else cur :: splitLoop [] s
    else splitLoop (cur ++ [c]) s

/-- `SplitPath`, metamod_util.cpp:375-406. -/
def splitPath (s : List Byte) : List (List Byte) :=
  if s.head? = some 47 then [47] :: splitLoop [] s else splitLoop [] s

/-- The index from which the parts differ, metamod_util.cpp:418-425 (both lists without their first part). -/
def skipCommon : List (List Byte) → List (List Byte) → List (List Byte) × List (List Byte)
  | a :: as, b :: bs => if a = b then skipCommon as bs else (a :: as, b :: bs)
  | as, bs => (as, bs)

/-- The parts joined with separators, metamod_util.cpp:430-434. -/
def joinParts : List (List Byte) → List Byte
  | [] => []
  | [p] => p
  | p :: q :: ps => p ++ 47 :: joinParts (q :: ps)

/-- `UTIL_Relatize2`, metamod_util.cpp:408-440: `error` = the paths' first parts do not exist
(`parts[0]` of an empty vector), `none` = false, else the text `new_path` (the buffer gets its first
`maxlen - 1` characters). -/
def relatize2 (path1 path2 : List Byte) : R (Option (List Byte)) :=
  match splitPath path1, splitPath path2 with
  | a :: as, b :: bs =>
    if a ≠ b then .ok none
    else
      let (as', bs') := skipCommon as bs
      .ok (some ((List.replicate as'.length [46, 46, 47]).flatten ++ joinParts bs' ++
        (if path2.getLast? = some 47 then [47] else [])))
  | _, _ => .error .outOfBounds

/-- `UTIL_Relatize`, metamod_util.cpp:450-457: `pathExists` is the external `access` test on the text. -/
def relatize (pathExists : List Byte → Bool) (maxlength : Nat) (to_ from_ : List Byte) : R (Option (List Byte)) :=
  match badRelatize maxlength to_ from_ with
  | some t => if pathExists t then .ok (some t) else (relatize2 to_ from_).map (·.map (·.take (maxlength - 1)))
  | none => (relatize2 to_ from_).map (·.map (·.take (maxlength - 1)))

end Verif.Util
