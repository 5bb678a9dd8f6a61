/-
The script of the build bots, support/buildbot/bootstrap.py (C114): the directory and the environment in which it runs configure.py.

Simplified: a file system is a map from paths below the directory above the source, as lists of names, to kinds; a link leads to a
directory, and what is in it is seen below the link. Nobody else changes the files meanwhile, and permissions suffice.
-/
namespace Verif.Bootstrap

/-- No counterpart in /repo: the operating system. -/
inductive Kind
  | file | dir | link
  deriving DecidableEq, Repr

/-- No counterpart in /repo: the operating system. -/
abbrev FS := List String → Option Kind

/-- `os.path.isdir`, which follows links. No counterpart in /repo: Python, called at support/buildbot/bootstrap.py:36, 100. -/
def isdir (fs : FS) (p : List String) : Bool := fs p = some .dir || fs p = some .link

/-- No counterpart in /repo: exceptions of Python. -/
inductive Err
  | exists_ | isLink
  deriving DecidableEq, Repr

/-- `output_needs_cleaning`. support/buildbot/bootstrap.py:35-43. -/
def needsCleaning (fs : FS) : Bool :=
  if !isdir fs ["OUTPUT"] then false
  else if (fs ["OUTPUT", ".ambuild2", "graph"]).isNone then true
  else if (fs ["OUTPUT", ".ambuild2", "vars"]).isNone then true
  else false

/-- `shutil.rmtree` of what is a directory; it refuses links. No counterpart in /repo: Python, called at
support/buildbot/bootstrap.py:99. -/
def rmtree (fs : FS) (p : List String) : Except Err FS :=
  if fs p = some .link then .error .isLink else .ok fun q => if p.isPrefixOf q then none else fs q

/-- `os.makedirs` of a name in a directory that is there. No counterpart in /repo: Python, called at support/buildbot/bootstrap.py:101. -/
def makedirs (fs : FS) (p : List String) : Except Err FS :=
  if (fs p).isSome then .error .exists_ else .ok fun q => if q = p then some .dir else fs q

/-- What is done before configure.py is run. support/buildbot/bootstrap.py:98-101. -/
def prepare (fs : FS) : Except Err FS := do
  let fs ← if needsCleaning fs then rmtree fs ["OUTPUT"] else .ok fs
  if !isdir fs ["OUTPUT"] then makedirs fs ["OUTPUT"] else .ok fs

/-- `build_env`: `config` is the entry of buildconfig.json for the bot, empty if it has none. support/buildbot/bootstrap.py:63-70. -/
def buildEnv (config env : String → Option String) : String → Option String :=
  ["CC", "CXX"].foldl (fun e v => match config v with
    | none => e
    | some x => fun k => if k = v then some x else e k) env

end Verif.Bootstrap
