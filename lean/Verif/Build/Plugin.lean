import Verif.Build.Package
/-
The package of the sample plugin for Source 2 (C110): samples/s2_sample_mm/AMBuilder and samples/s2_sample_mm/PackageScript.

Simplified: paths are lists of components, names have no slashes; the functions for more files of a plugin, which nothing calls, are left out.
-/
namespace Verif.Plugin
open Verif.Search (Arch Plat)
open Verif.Package (Target Text ext)

/-- The name of the library of a plugin for an SDK. samples/s2_sample_mm/AMBuilder:8. -/
def libName (plugin sdk : Text) : Text := plugin ++ '.' :: sdk

/-- `os.path.splitext` for a name without slashes. No counterpart in /repo: Python, called at samples/s2_sample_mm/PackageScript:56, 99. -/
def splitext (p : Text) : Text × Text :=
  match p.reverse.dropWhile (· ≠ '.') with
  | [] => (p, [])
  | _ :: r => if r.any (· ≠ '.') then (r.reverse, '.' :: (p.reverse.takeWhile (· ≠ '.')).reverse) else (p, [])

/-- `s.split('.')[-1]`. samples/s2_sample_mm/PackageScript:100. -/
def lastPart (s : Text) : Text := (s.reverse.takeWhile (· ≠ '.')).reverse

/-- The SDK a file belongs to. samples/s2_sample_mm/PackageScript:99-100. -/
def sdkOf (file : Text) : Text := lastPart (splitext file).1

/-- `platform64_path_map`. samples/s2_sample_mm/PackageScript:32-36. -/
def sub : Plat → Text
  | .windows => "win64".toList
  | .linux => "linuxsteamrt64".toList
  | .mac => "osx64".toList

/-- `bin_path`. samples/s2_sample_mm/PackageScript:22, 38-41. -/
def binPath (plugin sdk : Text) (t : Target) : List Text :=
  [sdk, "addons".toList, plugin, "bin".toList] ++ if t.arch = .x64 then [sub t.plat] else []

/-- `os.path.relpath`. No counterpart in /repo: Python, called at samples/s2_sample_mm/PackageScript:49. -/
def relpath : List Text → List Text → List Text
  | p, [] => p
  | [], start => start.map fun _ => "..".toList
  | a :: p, b :: start => if a = b then relpath p start else (b :: start).map (fun _ => "..".toList) ++ (a :: p)

/-- What the file `.vdf` names. samples/s2_sample_mm/PackageScript:49. -/
def vdfFile (plugin sdk : Text) (t : Target) : List Text := relpath (binPath plugin sdk t) [sdk] ++ [plugin]

/-- The path of the file `.vdf`. samples/s2_sample_mm/PackageScript:25, 52. -/
def vdfPath (plugin sdk : Text) : List Text := [sdk, "addons".toList, "metamod".toList, plugin ++ ".vdf".toList]

/-- The content of the file `.vdf`. samples/s2_sample_mm/PackageScript:46-50. -/
def vdfContent (al file : Text) : Text :=
  "\"Metamod Plugin\"\n".toList ++ "{\n".toList ++ ("\t\"alias\"\t\"".toList ++ al ++ "\"\n".toList) ++
    ("\t\"file\"\t\"".toList ++ file ++ "\"\n".toList) ++ "}".toList

/-- The loop that makes the packages: a dictionary, in which the last package made for a name stays; `bin_path` of the package of `sdk`.
samples/s2_sample_mm/PackageScript:88-94. -/
def packages (plugin : Text) : List (Text × Target) → (Text → Option (List Text)) → Text → Option (List Text)
  | [], d => d
  | (s, t) :: l, d => packages plugin l fun x => if x = s then some (binPath plugin s t) else d x

/-- The file AMBuild (external) makes for a plugin. No counterpart in /repo: the base name of `task.binary.path`. -/
def fileOf (plugin : Text) (b : Text × Target) : Text := libName plugin b.1 ++ ext b.2.plat

/-- `addBinary`: where a library is copied to; `none`: KeyError. samples/s2_sample_mm/PackageScript:54-58, 99-102. -/
def copied (plugin : Text) (l : List (Text × Target)) (b : Text × Target) : Option (List Text) :=
  (packages plugin l (fun _ => none) (sdkOf (fileOf plugin b))).map fun bin => bin ++ [plugin ++ (splitext (fileOf plugin b)).2]

/-- Everything that is put into the package. samples/s2_sample_mm/PackageScript:88-102. -/
def outputs (plugin : Text) (l : List (Text × Target)) : List (Option (List Text)) :=
  l.map (fun b => some (vdfPath plugin b.1)) ++ l.map (copied plugin l)

end Verif.Plugin
