import Verif.Build.Search
import Verif.Loader.Backend
/-
What is put into the package and where (C109): loader/AMBuilder, the names in core/AMBuilder, support/buildbot/PackageScript, the
files `metamod*.vdf`, and the names the loader is compiled with.

Simplified: texts are lists of characters. The path AMBuild (external) gives a library is a directory followed by the name and the
extension of the platform.
-/
namespace Verif.Package
open Verif.Search (Arch Plat)

/-- Text. No counterpart in /repo. -/
abbrev Text := List Char

/-- A target. No counterpart in /repo: `cxx.target` of AMBuild, loader/AMBuilder:22-25. -/
structure Target where
  arch : Arch
  plat : Plat
  deriving DecidableEq, Repr

/-- The builds of the loader for a target: the name and, on Linux, `LIB_SUFFIX`. loader/AMBuilder:4-29. -/
def loaders (t : Target) : List (Text × Option Text) :=
  if t.plat = .linux then
    (if t.arch = .x64 then [("libserver".toList, some ".so".toList)]
     else if t.arch = .x86 then [("server_i486".toList, some "_i486.so".toList)] else []) ++
    [("server".toList, some ".so".toList)]
  else [("server".toList, none)]

/-- The extension AMBuild (external) gives a library; also `LIBRARY_MINEXT`. loader/loader.cpp:110-119. -/
def ext : Plat → Text
  | .linux => ".so".toList
  | .mac => ".dylib".toList
  | .windows => ".dll".toList

/-- `SERVER_NAME_S1` and `SERVER_NAME_S2`; `none` if they are not defined. loader/gamedll.cpp:63-83. -/
def serverName (t : Target) (suffix : Option Text) (s2 : Bool) : Option Text :=
  match t.plat with
  | .windows => some "server.dll".toList
  | .linux => suffix.map fun s => (if s2 then "libserver".toList else "server".toList) ++ s
  | .mac => none

/-- An SDK as its manifest describes it. No counterpart in /repo: hl2sdk-manifests; used at core/AMBuilder:8, 26. -/
structure Sdk where
  extension : Text
  source2 : Bool
  deriving DecidableEq, Repr

/-- The name of the core library. core/AMBuilder:8. -/
def coreName (extension : Text) : Text := "metamod.".toList ++ extension

/-- `a in b` of Python. No counterpart in /repo: the language, support/buildbot/PackageScript:9, 46. -/
def occurs (a : Text) : Text → Bool
  | [] => a.isPrefixOf []
  | c :: b => a.isPrefixOf (c :: b) || occurs a b

/-- `deduce_target_sdk`. support/buildbot/PackageScript:6-11. -/
def deduce (sdks : List Sdk) (path : Text) : Option Sdk := sdks.find? fun s => occurs ("metamod.".toList ++ s.extension) path

/-- `bin_folder`. support/buildbot/PackageScript:15. -/
def bin : Text := "addons/metamod/bin".toList

/-- What the loop sets `bin64_folder` and `bin64_s2_folder` to for a platform. support/buildbot/PackageScript:19-33. -/
def bin64 : Plat → Text × Text
  | .windows => (bin ++ "/win64".toList, bin ++ "/win64".toList)
  | .linux => (bin ++ "/linux64".toList, bin ++ "/linuxsteamrt64".toList)
  | .mac => (bin ++ "/osx64".toList, bin ++ "/osx64".toList)

/-- The loop over the targets; `none`: not set. support/buildbot/PackageScript:17-33. -/
def folders : List Target → Option (Text × Text) → Option (Text × Text)
  | [], f => f
  | t :: ts, f => folders ts (if t.arch = .x64 then some (bin64 t.plat) else f)

/-- The folder a library is copied to; `none`: NameError. support/buildbot/PackageScript:40-51. -/
def place (sdks : List Sdk) (f : Option (Text × Text)) (arch : Arch) (path : Text) : Option Text :=
  if arch = .x64 then
    if occurs "libserver".toList path || (deduce sdks path).any Sdk.source2 then f.map Prod.snd else f.map Prod.fst
  else some bin

/-- The path AMBuild (external) builds a library at; `dir` is the directory. No counterpart in /repo: `task.binary.path`,
support/buildbot/PackageScript:41. -/
def built (dir : Target → Text → Text) (t : Target) (name : Text) : Text := dir t name ++ name ++ ext t.plat

/-- Where a library of a build for the targets `ts` ends up: the folder and the name of the file.
support/buildbot/PackageScript:39-51. -/
def packed (dir : Target → Text → Text) (sdks : List Sdk) (ts : List Target) (t : Target) (name : Text) : Option (Text × Text) :=
  (place sdks (folders ts none) t.arch (built dir t name)).map fun p => (p, name ++ ext t.plat)

/-- The files `metamod*.vdf` in the package: the library each names. support/buildbot/PackageScript:18-35, support/metamod.vdf:3,
support/metamod_linux64.vdf:3, support/metamod_win64.vdf:3, support/metamod_osx64.vdf:3. -/
def vdfs (ts : List Target) : List Text :=
  "addons/metamod/bin/server".toList ::
    (ts.filter fun t => t.arch = .x64).map fun t =>
      match t.plat with
      | .windows => "addons/metamod/bin/win64/server".toList
      | .linux => "addons/metamod/bin/linux64/server".toList
      | .mac => "addons/metamod/bin/osx64/server".toList

end Verif.Package
