import Verif.Core.PluginFile
import Verif.Util.Path
/-
Plugins named by .vdf files: ProcessVDF, LoadVDFPluginsFromDir, mm_LoadPlugins (core/metamod.cpp), SourceProvider::ProcessVDF
(core/provider/source/provider_source.cpp; the one of source2 is the same).
* The directory is the list of names that `readdir` answers; `opendir` may fail.
* The key/value reader of the engine is a parameter: what it finds under "file" and "alias" in a file.
* `mp` is MAX_PATH (defined by the SDK).  Log messages are left out.
-/
namespace Verif.PFile

open Verif.C Verif.Util

/-- `tolower` in the "C" locale. No counterpart in /repo: the C library. -/
def lower (c : Byte) : Byte := if 65 ≤ c ∧ c ≤ 90 then c + 32 else c

/-- `strcasecmp(a, b) == 0`; `stricmp` is `strcasecmp`, core/metamod_oslink.h:72-74. -/
def caseEq (a b : List Byte) : Bool := a.map lower == b.map lower

/-- Whether an entry is taken, core/metamod.cpp:1284-1293. -/
def takes (name : Buf) : R Bool := do
  let s ← cstr name 0
  if s = [46] ∨ s = [46, 46] then .ok false
  else do
    let n ← strlen name 0
    if n < 4 then .ok false
    else do
      let e ← cstr name (n - 4)
      .ok (caseEq e [46, 118, 100, 102])

/-- What the engine's reader answers for a file: `none` if it cannot be read, else "file" and "alias" as far as there.
No counterpart in /repo: the engine's `KeyValues`, called through core/metamod.cpp:1204. -/
abbrev Kv := List Byte → Option (Option (List Byte) × Option (List Byte))

/-- `SourceProvider::ProcessVDF`, core/provider/source/provider_source.cpp:157-204: the buffers `path` and `alias`. -/
def providerVdf (kv : Kv) (rel : List Byte) (file alias : Buf) : R (Option (Buf × Buf)) :=
  match kv rel with
  | none => .ok none
  | some (none, _) => .ok none
  | some (some f, al) => do
    let r ← format file 255 (some f) []
    let q ← format alias 32 (some (al.getD [])) []
    .ok (some (r.1, q.1))

/-- `if (alias[0] != '\0') SetAlias(alias, file)`, core/metamod.cpp:1210-1211. -/
def vdfAlias {σ ε : Type} (W : World σ ε) (file alias : Buf) (w : σ) : Except (Flt ε) σ := do
  let c ← liftB (rd alias 0)
  if c ≠ 0 then do
    let a ← liftB (cstr alias 0)
    let f ← liftB (cstr file 0)
    .ok (W.setAlias a f w)
  else .ok w

/-- `ProcessVDF`, core/metamod.cpp:1197-1224: the plugin manager, the result and `skipped`; `file`, `alias` and `full` are the local arrays. -/
def processVdf {σ ε : Type} (W : World σ ε) (kv : Kv) (modPath : List Byte) (stat : List Byte → Bool) (file alias full : Buf) (rel : List Byte) (w : σ) : Except (Flt ε) (σ × Bool × Bool) := do
  let r ← liftB (providerVdf kv rel file alias)
  match r with
  | none => .ok (w, false, false)
  | some (f, a) => do
    let w ← vdfAlias W f a w
    let b ← getFullPath modPath stat f full 255
    let path ← liftB (cstr b 0)
    liftE (W.load path w)

/-- The counters, core/metamod.cpp:1297-1300. -/
def Prog.countVdf {σ : Type} (p : Prog σ) (r : σ × Bool × Bool) : Prog σ :=
  if r.2.2 then { p with w := r.1, skipped := p.skipped + 1 } else if r.2.1 then { p with w := r.1, total := p.total + 1 } else { p with w := r.1 }

/-- The local arrays of `ProcessVDF` and `LoadVDFPluginsFromDir`, with what happens to be in them. core/metamod.cpp:1198-1310. -/
structure Arrays where
  file : Buf
  alias : Buf
  full : Buf
  path : Buf

/-- What is outside: the reader, `stat` on paths, `access` in `UTIL_Relatize`. No counterpart in /repo: the file system. -/
structure Disk where
  kv : Kv
  stat : List Byte → Bool
  pathExists : List Byte → Bool

/-- The name given to the reader, core/metamod.cpp:1294-1295: where `UTIL_Relatize` fails, `relpath` was never written. -/
def vdfName {ε : Type} (D : Disk) (A : Arrays) (mp : Nat) (modPath dir name : List Byte) : Except (Flt ε) (List Byte) := do
  let b ← fmtPath A.path mp (dir ++ 47 :: name)
  let t ← liftB (cstr b 0)
  let r ← liftB (relatize D.pathExists (2 * mp) modPath t)
  match r with
  | none => .error .uninit
  | some rel => .ok rel

/-- The loop of `LoadVDFPluginsFromDir`, core/metamod.cpp:1282-1301. -/
def dirLoop {σ ε : Type} (W : World σ ε) (D : Disk) (A : Arrays) (mp : Nat) (modPath dir : List Byte) : List (List Byte) → Prog σ → Except (Flt ε) (Prog σ)
  | [], p => .ok p
  | n :: ns, p => do
    let t ← liftB (takes (n ++ [0]))
    if t then do
      let rel ← vdfName D A mp modPath dir n
      let r ← processVdf W D.kv modPath D.stat A.file A.alias A.full rel p.w
      dirLoop W D A mp modPath dir ns (p.countVdf r)
    else dirLoop W D A mp modPath dir ns p

/-- `LoadVDFPluginsFromDir`, core/metamod.cpp:1226-1307; `none`: the directory cannot be opened. -/
def loadDir {σ ε : Type} (W : World σ ε) (D : Disk) (A : Arrays) (mp : Nat) (modPath dir : List Byte) (names : Option (List (List Byte))) (w : σ) : Except (Flt ε) (Prog σ) :=
  match names with
  | none => .ok ⟨w, 0, 0⟩
  | some ns => dirLoop W D A mp modPath dir ns ⟨w, 0, 0⟩

/-- `mm_LoadPlugins`, core/metamod.cpp:1309-1328: the total and the number of plugins already loaded in the message. -/
def loadPlugins {σ ε : Type} (W : World σ ε) (D : Disk) (A : Arrays) (line path : Buf) (mp : Nat) (modPath dir : List Byte) (content : Option (List Byte)) (names : Option (List (List Byte))) (w : σ) :
    Except (Flt ε) (Prog σ) := do
  let p ← loadFile W modPath D.stat line path content w
  let q ← loadDir W D A mp modPath dir names p.w
  .ok ⟨q.w, p.total + q.total, p.skipped + q.skipped⟩

end Verif.PFile
