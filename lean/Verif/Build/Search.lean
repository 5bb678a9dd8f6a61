/-
The parts of AMBuildScript and core/AMBuilder that choose what is built (C108): the architectures, where an SDK is looked for, and which
generator of hook managers is compiled in.

Simplified: paths are those of POSIX; `os.path` is that of CPython's posixpath. `PLATFORM_64BITS` is defined by the scripts of the SDKs,
which are not in /repo; it is taken to be defined exactly for x86_64.
-/
namespace Verif.Search

/-- A path. No counterpart in /repo: a Python string. -/
abbrev Path := List Char

/-! ### the architectures -/

/-- How the script ends early: by the exception of `DetectCxx`, by its own exceptions, or by a `NameError`. No counterpart in /repo: Python
exceptions, as at AMBuildScript:49, 55, 104. -/
inductive Stop
  | detect (arch : String)
  | noCompiler
  | unknownArch (arch : String)
  | nameError
  deriving DecidableEq, Repr

/-- The architectures asked for; `opt` is `--targets` split at commas, `none` if it is not given or empty. AMBuildScript:35-40. -/
def wanted (opt : Option (List String)) (amb2 : Bool) : List String :=
  match opt with
  | some l => l
  | none => if amb2 then ["x86", "x86_64"] else ["x86"]

/-- The loop over the architectures; `detect` is `DetectCxx` (external): the architecture of the compiler found, `none` for an exception.
AMBuildScript:42-52. -/
def detectLoop (detect : String → Option String) (given : Bool) : List String → Except Stop (List String)
  | [] => .ok []
  | a :: l =>
    match detect a with
    | none => if given then .error (.detect a) else detectLoop detect given l
    | some c => do .ok (c :: (← detectLoop detect given l))

/-- The targets of `MMSConfig`. AMBuildScript:35-55. -/
def targets (detect : String → Option String) (opt : Option (List String)) (amb2 : Bool) : Except Stop (List String) := do
  let l ← detectLoop detect opt.isSome (wanted opt amb2)
  if l = [] then .error .noCompiler else .ok l

/-- `configure`: the name `arch` in the message is bound nowhere in the function. AMBuildScript:99-106. -/
def configure : List String → Except Stop Unit
  | [] => .ok ()
  | a :: l => if a ∈ ["x86", "x86_64"] then configure l else .error .nameError

/-! ### the SDKs -/

/-- `p[:p.rfind('/') + 1]`. No counterpart in /repo: posixpath, used at AMBuildScript:17. -/
def upTo (p : Path) : Path := (p.reverse.dropWhile (· ≠ '/')).reverse

/-- `head.rstrip('/')`. No counterpart in /repo: Python, used at AMBuildScript:17. -/
def rstrip (p : Path) : Path := (p.reverse.dropWhile (· = '/')).reverse

/-- The head of `os.path.split`. No counterpart in /repo: posixpath, used at AMBuildScript:17. -/
def splitHead (p : Path) : Path :=
  if rstrip (upTo p) = [] then upTo p else rstrip (upTo p)

/-- `os.path.join`. No counterpart in /repo: posixpath, used at AMBuildScript:13, 79. -/
def join (a b : Path) : Path :=
  if b.head? = some '/' then b else if a = [] ∨ a.getLast? = some '/' then a ++ b else a ++ '/' :: b

theorem dropWhile_rev_len (f : Char → Bool) (p : Path) :
    (p.reverse.dropWhile f).reverse.length < p.length ∨ (p.reverse.dropWhile f).reverse = p := by
  have h := List.takeWhile_append_dropWhile (p := f) (l := p.reverse)
  cases ht : p.reverse.takeWhile f with
  | nil =>
    rw [ht, List.nil_append] at h
    right
    rw [h, List.reverse_reverse]
  | cons c t =>
    left
    rw [ht] at h
    have := congrArg List.length h
    simp only [List.length_append, List.length_cons, List.length_reverse] at this ⊢
    omega

theorem splitHead_len (p : Path) : (splitHead p).length < p.length ∨ splitHead p = p := by
  unfold splitHead
  have h1 := dropWhile_rev_len (fun c => decide (c ≠ '/')) p
  have h2 := dropWhile_rev_len (fun c => decide (c = '/')) (upTo p)
  split
  · exact h1
  · rcases h2 with h2 | h2
    · rcases h1 with h1 | h1
      · exact .inl (Nat.lt_trans h2 h1)
      · left
        have h1' : upTo p = p := h1
        rw [h1'] at h2
        unfold rstrip
        rw [h1']
        exact h2
    · have : rstrip (upTo p) = upTo p := h2
      rw [this]
      exact h1

/-- The loop of `ResolveEnvPath`, from `head` on; `isdir` is `os.path.isdir` (external). AMBuildScript:12-18. -/
def climb (isdir : Path → Bool) (folder : Path) (head : Path) : Option Path :=
  if isdir (join head folder) then some (join head folder)
  else if splitHead head = head then none
  else climb isdir folder (splitHead head)
termination_by head.length
decreasing_by
  rename_i h
  exact (splitHead_len head).resolve_right h

/-- `ResolveEnvPath`; `env` is `os.environ`, `cwd` is `os.getcwd()` (external). AMBuildScript:4-18. -/
def resolveEnv (env : Path → Option Path) (isdir : Path → Bool) (cwd : Path) (var folder : Path) : Option Path :=
  match env var with
  | some p => if isdir p then some p else none
  | none => climb isdir folder cwd

/-- `findSdkPath`; `root` is `--hl2sdk-root`, `norm` is `os.path.abspath(os.path.normpath(…))`, `upper` is `str.upper` (external).
AMBuildScript:76-82. -/
def findSdk (env : Path → Option Path) (isdir there : Path → Bool) (norm upper : Path → Path) (cwd : Path) (root : Option Path)
    (name : Path) : Option Path :=
  let dir := "hl2sdk-".toList ++ name
  let search := resolveEnv env isdir cwd ("HL2SDK".toList ++ upper name) dir
  match root with
  | some r => if r ≠ [] ∧ there (norm (join r dir)) then some (norm (join r dir)) else search
  | none => search

/-! ### the generator of hook managers -/

/-- The architectures AMBuildScript admits. AMBuildScript:103. -/
inductive Arch
  | x86 | x64
  deriving DecidableEq, Repr

/-- The platforms AMBuildScript knows. AMBuildScript:234, 241, 260. -/
inductive Plat
  | linux | mac | windows
  deriving DecidableEq, Repr

/-- The generator the preprocessor chooses: the code of `MakeHookMan` that is compiled. No counterpart in /repo: two classes and `nullptr`. -/
inductive Gen
  | x86 | x64 | null
  deriving DecidableEq, Repr

/-- The file core/AMBuilder adds: the class it implements. core/AMBuilder:42-45. -/
def linked (a : Arch) (p : Plat) : List Gen :=
  if a = .x86 then [.x86] else if a = .x64 ∧ p ≠ .linux then [.x64] else []

/-- `_LINUX`. AMBuildScript:234-235. -/
def defLinux (p : Plat) : Bool := p = .linux

/-- `PLATFORM_64BITS`. No counterpart in /repo: SdkHelpers.ambuild. -/
def def64 (a : Arch) : Bool := a = .x64

/-- The class `SHGenContext`. core/sourcehook/sourcehook_hookmangen.cpp:23-29. -/
def context (a : Arch) (p : Plat) : Gen := if def64 a && !defLinux p then .x64 else .x86

/-- What `MakeHookMan` uses. core/sourcehook/sourcehook_hookmangen.cpp:61-88. -/
def used (a : Arch) (p : Plat) : Gen := if def64 a && defLinux p then .null else context a p

end Verif.Search
