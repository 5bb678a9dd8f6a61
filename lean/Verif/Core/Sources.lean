import Verif.Util.Misc
import Verif.Util.Path
/-
Where plugins are looked for (DoInitialPluginLoads, OnLevelShutdown and mm_StartupMetamod in core/metamod.cpp, with the functions of the two
providers they use), and the command by which Metamod as game DLL asks the engine to load it as a plugin too (InitializeVSP, GetFileOfAddress).
* Texts are byte strings without terminator; `none` is a NULL pointer.
* Console variables: their text, `none` if they were never created.  `ICvar::GetCommandLineValue` and `ICommandLine::ParmValue` are parameters.
* `dladdr`, `realpath` and `access` are parameters.  Buffers are the caller's arrays with any content.
* The Linux branches: PATH_SIZE is 4096, a separator is `/`, and PathFormat turns `\` into it.
* `%s` with NULL is undefined, and so is reading an array that was never written.
-/
namespace Verif.Core.Src

open Verif.C Verif.Util

/-- No counterpart in /repo: a C string. -/
abbrev Text := List Byte

/-- No counterpart in /repo: undefined behaviour, made visible. -/
inductive Fault
  | null
  | uninit
  | buf (e : C.Fault)
  deriving DecidableEq, Repr

/-- No counterpart in /repo. -/
def lift {α : Type} : R α → Except Fault α
  | .ok a => .ok a
  | .error e => .error (.buf e)

/-- A text without its terminator. No counterpart in /repo. -/
def bytes (t : String) : Text := t.toUTF8.toList

/-- What is outside. `s2`: the provider for Source 2; `icvar`: whether the pointer of core/provider/provider_base.cpp:51 is set; `cvarArg`:
`ICvar::GetCommandLineValue`; `parm`: `ICommandLine::ParmValue` with NULL for the default. No counterpart in /repo: the engine. -/
structure Env where
  s2 : Bool
  icvar : Bool
  cvarArg : Text → Option Text
  parm : Text → Option Text

/-- `CommandLine()->ParmValue(key, defval)`. No counterpart in /repo: called at core/provider/source/provider_source.cpp:348. -/
def parmValue (e : Env) (key : Text) (defval : Option Text) : Option Text :=
  match e.parm key with
  | some v => some v
  | none => defval

/-- `SourceProvider::GetCommandLineValue`, core/provider/source/provider_source.cpp:344-362. -/
def cmdValue1 (e : Env) (key : Text) (defval : Option Text) : Option Text :=
  if key.head? = some 45 ∨ key.head? = some 43 then parmValue e key defval
  else if e.icvar then
    match e.cvarArg key with
    | none => defval
    | some v => some v
  else none

/-- `GetCommandLineValue` of the provider; for Source 2 core/provider/source2/provider_source2.cpp:255-258. -/
def cmdValue (e : Env) (key : Text) (defval : Option Text) : Option Text :=
  if e.s2 then parmValue e key defval else cmdValue1 e key defval

/-- `GetConVarString`, core/provider/source/provider_source.cpp:374-382, core/provider/source2/provider_source2.cpp:275-284. -/
def varText (e : Env) (v : Option Text) : Option Text :=
  match v with
  | none => none
  | some t => if e.s2 && t.isEmpty then none else some t

/-- `mm_pluginsfile` and `mm_basedir`, core/metamod.cpp:83-84. -/
structure Vars where
  pluginsfile : Option Text
  basedir : Option Text
  deriving DecidableEq, Repr

/-- The variables as created, core/metamod.cpp:516-532. -/
def created : Vars := ⟨some (bytes "addons/metamod/metaplugins.ini"), some (bytes "addons/metamod")⟩

/-- The text given to `metamod_version`, core/metamod.cpp:493-514: `ver` is `METAMOD_VERSION`, the buffer has 255 bytes. -/
def versionText (ver : Text) (vsp : Bool) (buf : Buf) : R Text := do
  let (b, _) ← format buf 255 (some (ver ++ if vsp then [86] else [])) []
  cstr b 0

/-- The flags of a new variable, core/provider/source/provider_source.cpp:419-427, core/provider/source2/provider_source2.cpp:339-347;
`notify` and `sponly` are FCVAR_NOTIFY and FCVAR_SPONLY. -/
def varFlags (notify sponly flags : Nat) : Nat :=
  let n := 0
  let n := if flags &&& 1 ≠ 0 then n ||| notify else n
  if flags &&& 2 ≠ 0 then n ||| sponly else n

/-- The flags of `metamod_version`, core/metamod.cpp:512: `ConVarFlag_Notify` is 1, `ConVarFlag_SpOnly` 2 (core/metamod_provider.h:37-39). -/
def versionFlags : Nat := 1 ||| 2

/-- The flags of `mm_pluginsfile` and `mm_basedir`, core/metamod.cpp:523, 532. -/
def pathVarFlags : Nat := 2

/-- `PathFormat(buffer, sizeof(buffer), "%s/%s", mod_path.c_str(), x)`, core/metamod.cpp:180-189, 493-494, 771-787. -/
def pathOf (buf : Buf) (modPath : Text) (x : Option Text) : Except Fault Text :=
  match x with
  | none => .error .null
  | some t => lift do
    let (b, _) ← pathFormat buf 4096 (some (modPath ++ 47 :: t)) []
    cstr b 0

/-- The two arguments of `mm_LoadPlugins`, core/metamod.cpp:191, 495. -/
structure Paths where
  file : Text
  vdf : Text
  deriving DecidableEq, Repr

/-- Where `DoInitialPluginLoads` looks for a text: command line, variable, default; core/metamod.cpp:472-490. -/
def pick (e : Env) (key : Text) (v : Option Text) (dflt : Text) : Option Text :=
  match cmdValue e key none with
  | some t => some t
  | none =>
    match varText e v with
    | none => some dflt
    | some t => some t

/-- `DoInitialPluginLoads`, core/metamod.cpp:469-496: what is handed to `mm_LoadPlugins`; `fb` and `vb` are `filepath` and `vdfpath`. -/
def initialPaths (e : Env) (v : Vars) (modPath : Text) (fb vb : Buf) : Except Fault Paths := do
  let f ← pathOf fb modPath (pick e (bytes "mm_pluginsfile") v.pluginsfile (bytes "addons/metamod/metaplugins.ini"))
  let d ← pathOf vb modPath (pick e (bytes "mm_basedir") v.basedir (bytes "addons/metamod"))
  .ok ⟨f, d⟩

/-- At the end of a level, core/metamod.cpp:178-191. -/
def reloadPaths (e : Env) (v : Vars) (modPath : Text) (fb vb : Buf) : Except Fault Paths := do
  let f ← pathOf fb modPath (varText e v.pluginsfile)
  let d ← pathOf vb modPath (varText e v.basedir)
  .ok ⟨f, d⟩

/-! ### the command -/

/-- `GetFileOfAddress`, core/metamod_oslink.cpp:75-97, into an array of 4096 bytes; `none` for false, and the array is as before. `name` is what
`dladdr` says, `none` if it fails or has no name. -/
def fileOf (name : Option Text) (buf : Buf) : R (Option Buf) :=
  match name with
  | none => .ok none
  | some t => do
    let (b, _) ← vsnprintf buf 4096 (some t) []
    .ok (some b)

/-- The loop that cuts the name of the file off, core/metamod.cpp:361-369: the argument is `i + 1`; after index 0 the unsigned index is above
`len`, and the loop ends. -/
def chopLoop (b : Buf) : Nat → R Buf
  | 0 => .ok b
  | i + 1 => do
    let c ← rd b i
    if c = 47 ∨ c = 92 then wr b i 0 else chopLoop b i

/-- The engine's directory, core/metamod.cpp:357-376. The answer of `GetFileOfAddress` is not looked at; if it was false, the array is read
without having been written. -/
def enginePath (name : Option Text) (realpath : Text → Option Text) (buf : Buf) : Except Fault Text := do
  let b ← lift (fileOf name buf)
  match b with
  | none => .error .uninit
  | some b => do
    let n ← lift (strlen b 0)
    let b ← lift (chopLoop b n)
    let t ← lift (cstr b 0)
    .ok ((realpath t).getD [])

/-- `InitializeVSP` when Metamod is not loaded as plugin yet, core/metamod.cpp:348-386: the command for the engine.  `mm` is `metamod_path`;
`exists_` is the test of `UTIL_Relatize`; `cb` is `command`. -/
def vspCommand (name : Option Text) (realpath : Text → Option Text) (exists_ : Text → Bool) (mm : Text) (eb cb : Buf) : Except Fault Text := do
  let dir ← enginePath name realpath eb
  let rel ← lift (relatize exists_ 8192 dir mm)
  let use := match rel with
    | some t => t
    | none => mm
  let (b, _) ← lift (format cb 8192 (some (bytes "plugin_load \"" ++ use ++ bytes "\"\n")) [])
  lift (cstr b 0)

end Verif.Core.Src
