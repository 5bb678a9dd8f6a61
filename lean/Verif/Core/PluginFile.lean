import Verif.Util.Text
import Verif.Util.Misc
import Verif.Mgr.Model
/-
The plugin list file: LoadPluginsFromFile and GetFullPluginPath (core/metamod.cpp), UTIL_GetExtension
(core/metamod_util.cpp), on byte buffers.
* The file is its content; read errors are left out.  `rt` changes nothing on Linux.
* The plugin manager is a parameter (`World`); `mgrWorld` is the one of Verif/Mgr/Model.lean.
* `stat` is a parameter: whether the file exists.  Log messages are left out.
* The 64-bit Linux branches: BINARY_EXT is ".so", X64_SUFFIX ".x64", PATH_SEP_CHAR '/', ALT_SEP_CHAR '\'.
-/
namespace Verif.PFile

open Verif.C Verif.Util

/-- What becomes of a line: nothing, or an alias and a file to load. The outcomes of one round of the loop at core/metamod.cpp:267-342. -/
inductive Line
  | skip
  | load (alias : Option (List Byte)) (file : List Byte)
  deriving Repr, DecidableEq

/-- `while (…) cptr++`: the first place from `i` on where `f` holds; the loops at core/metamod.cpp:289-297 (a quote or the end),
302-321 (white space or the end), 307-310 (anything but white space). -/
def seek (f : Byte → Bool) (b : Buf) (i : Nat) : R Nat :=
  if h : i < b.length then
    if f b[i] then .ok i else seek f b (i + 1)
  else .error .outOfBounds
termination_by b.length - i

/-- `UTIL_TrimRight(&b[i])`, core/metamod_util.cpp:95-100. -/
def trimRightAt (b : Buf) (i : Nat) : R Buf := do
  let s ← cstr b i
  strcpy b i (rtrim s)

/-- `if (!file[0]) continue;`, else the file, core/metamod.cpp:323-326. -/
def finish (alias : Option (List Byte)) (b : Buf) (i : Nat) : R Line := do
  let s ← cstr b i
  if s = [] then .ok .skip else .ok (.load alias s)

/-- A line that starts with a quote, core/metamod.cpp:284-298. -/
def quoted (b : Buf) : R Line := do
  let q ← seek (fun c => c == 34 || c == 0) b 1
  let c ← rd b q
  if c = 0 then finish none b 1
  else do
    let b ← wr b q 0
    finish none b 1

/-- The text after the white space, core/metamod.cpp:312-317. -/
def second (b : Buf) (j : Nat) : R Line := do
  let b ← trimRightAt b j
  let d ← rd b j
  if d ≠ 0 ∧ isalpha d = true then do
    let a ← cstr b 0
    finish (some a) b j
  else finish none b 0

/-- Any other line, core/metamod.cpp:299-322. -/
def bare (b : Buf) : R Line := do
  let i ← seek (fun c => c == 0 || isspace c) b 0
  let c ← rd b i
  if c = 0 then finish none b 0
  else do
    let j ← seek (fun c => c == 0 || !isspace c) b i
    let b ← wr b i 0
    second b j

/-- `strncmp(buffer, "//", 2) == 0`, core/metamod.cpp:278. -/
def slashes (b : Buf) : R Bool := do
  let c ← rd b 0
  if c = 47 then do
    let d ← rd b 1
    .ok (d == 47)
  else .ok false

/-- The rest of the body after trimming, core/metamod.cpp:272-326. -/
def trimmed (b : Buf) : R Line := do
  let n ← strlen b 0
  if n = 0 then .ok .skip
  else do
    let c ← rd b 0
    let sl ← slashes b
    if c = 0 ∨ c = 59 ∨ sl = true then .ok .skip
    else if c = 34 then quoted b
    else bare b

/-- The body of the loop up to the load, core/metamod.cpp:269-326, for the buffer after `fgets`. -/
def parseLine (b : Buf) : R Line := do
  let b ← utilTrimLeft b
  let b ← utilTrimRight b
  trimmed b

/-- How much `fgets(…, n + 1, …)` takes from the content, core/metamod.cpp:267. -/
def fgetsLen : Nat → List Byte → Nat
  | 0, _ => 0
  | _ + 1, [] => 0
  | n + 1, c :: s => if c = 10 then 1 else fgetsLen n s + 1

/-- The buffer after `fgets(buffer, 255, fp)` took `n` bytes, core/metamod.cpp:267. -/
def fgetsBuf (b : Buf) (n : Nat) (content : List Byte) : R Buf := strcpy b 0 (content.take n)

theorem fgetsLen_pos (n : Nat) (c : Byte) (s : List Byte) : 0 < fgetsLen (n + 1) (c :: s) := by
  unfold fgetsLen
  split <;> omega

/-! ### the full path -/

/-- What can go wrong: a buffer access, a conversion in a format string without argument, an array that was never written, the plugin
manager. No counterpart in /repo: undefined behaviour, made visible. -/
inductive Flt (ε : Type)
  | buf (f : C.Fault)
  | format
  | uninit
  | ext (e : ε)
  deriving Repr, DecidableEq

/-- No counterpart in /repo. -/
def liftB {ε α : Type} : R α → Except (Flt ε) α
  | .ok a => .ok a
  | .error f => .error (.buf f)

/-- `for (i = len - 1; i + 1 > 0; i--)` in `UTIL_GetExtension`, core/metamod_util.cpp:57-68; the argument is `i + 1`. -/
def extLoop (b : Buf) (len : Nat) : Nat → R (Option Nat)
  | 0 => .ok none
  | i + 1 => do
    let c ← rd b i
    if c = 47 ∨ c = 92 then .ok none
    else if c = 46 ∧ i ≠ len - 1 then .ok (some (i + 1))
    else extLoop b len i

/-- `UTIL_GetExtension`, core/metamod_util.cpp:52-71: the index of the extension. -/
def getExtension (b : Buf) : R (Option Nat) := do
  let n ← strlen b 0
  extLoop b n n

/-- `strncmp(&(plugin[1]), ":\\", 2) == 0`, core/metamod.cpp:1142. -/
def isDrive (b : Buf) : R Bool := do
  let c ← rd b 1
  if c = 58 then do
    let d ← rd b 2
    .ok (d == 92)
  else .ok false

/-- The test for an absolute path, core/metamod.cpp:1142. -/
def isAbs (b : Buf) : R Bool := do
  let c ← rd b 0
  if c = 47 then .ok true else isDrive b

/-- `BINARY_EXT`, ".so", core/metamod_util.h:37. -/
def soExt : List Byte := [46, 115, 111]
/-- `X64_SUFFIX BINARY_EXT`, ".x64.so", core/metamod.cpp:40. -/
def x64Ext : List Byte := [46, 120, 54, 52] ++ soExt

/-- The text of `"%s/%s%s"`, core/metamod.cpp:1178, and of `"%s/%s.so"`, core/metamod.cpp:1185. -/
def joined (modPath plugin ext : List Byte) : List Byte := modPath ++ 47 :: (plugin ++ ext)

/-- `PathFormat`, core/metamod.cpp:771-787 (the same code as `mm_PathFormat`), with text. -/
def fmtPath {ε : Type} (out : Buf) (len : Nat) (t : List Byte) : Except (Flt ε) Buf := do
  let r ← liftB (pathFormat out len (some t) [])
  .ok r.1

/-- The end of `GetFullPluginPath`, core/metamod.cpp:1177-1187. -/
def relPath {ε : Type} (modPath : List Byte) (stat : List Byte → Bool) (s : List Byte) (ext : Bool) (out : Buf) (len : Nat) : Except (Flt ε) Buf := do
  let b ← fmtPath out len (joined modPath s (if ext then [] else x64Ext))
  let t ← liftB (cstr b 0)
  if !ext && !stat t then fmtPath b len (joined modPath s soExt) else .ok b

/-- `GetFullPluginPath`, core/metamod.cpp:1136-1190: the buffer.  `UTIL_Format(buffer, len, plugin)` takes the name as the format; a `%` in it
is the outcome `format`. -/
def getFullPath {ε : Type} (modPath : List Byte) (stat : List Byte → Bool) (plugin out : Buf) (len : Nat) : Except (Flt ε) Buf := do
  let d ← liftB (isAbs plugin)
  let s ← liftB (cstr plugin 0)
  if d then
    if 37 ∈ s then .error .format
    else do
      let r ← liftB (format out len (some s) [])
      .ok r.1
  else do
    let e ← liftB (getExtension plugin)
    relPath modPath stat s e.isSome out len

/-! ### the loop over the file -/

/-- The plugin manager as far as it is used: `SetAlias`, and `Load` with the test of id and status (core/metamod.cpp:330-331), which answers
whether the plugin counts as loaded and `already`. -/
structure World (σ ε : Type) where
  setAlias : List Byte → List Byte → σ → σ
  load : List Byte → σ → Except ε (σ × Bool × Bool)

/-- `total`, `skipped`, and the plugin manager, core/metamod.cpp:252-256. -/
structure Prog (σ : Type) where
  w : σ
  total : Nat
  skipped : Nat
  deriving Repr, DecidableEq

/-- The counters, core/metamod.cpp:331-341. -/
def Prog.count {σ : Type} (p : Prog σ) (r : σ × Bool × Bool) : Prog σ :=
  if r.2.1 then (if r.2.2 then { p with w := r.1, skipped := p.skipped + 1 } else { p with w := r.1, total := p.total + 1 }) else { p with w := r.1 }

/-- No counterpart in /repo. -/
def liftE {ε α : Type} : Except ε α → Except (Flt ε) α
  | .ok a => .ok a
  | .error f => .error (.ext f)

/-- `SetAlias`, `GetFullPluginPath` (into `full_path[PATH_MAX]`) and `Load`, core/metamod.cpp:315, 328-341.  The name is passed in a buffer of its
own: nothing behind its end is read. -/
def act {σ ε : Type} (W : World σ ε) (modPath : List Byte) (stat : List Byte → Bool) (full : Buf) (l : Line) (p : Prog σ) : Except (Flt ε) (Prog σ) :=
  match l with
  | .skip => .ok p
  | .load alias file => do
    let w := match alias with
      | some a => W.setAlias a file p.w
      | none => p.w
    let b ← getFullPath modPath stat (file ++ [0]) full 4096
    let path ← liftB (cstr b 0)
    let r ← liftE (W.load path w)
    .ok (p.count r)

/-- The loop of `LoadPluginsFromFile`, core/metamod.cpp:267-342; `b` is the uninitialised line buffer (what a round leaves behind the
string is not read by the next). -/
def fileLoop {σ ε : Type} (W : World σ ε) (modPath : List Byte) (stat : List Byte → Bool) (b full : Buf) (content : List Byte) (p : Prog σ) : Except (Flt ε) (Prog σ) :=
  match content with
  | [] => .ok p
  | c :: s => do
    let n := fgetsLen 254 (c :: s)
    let x ← liftB (fgetsBuf b n (c :: s))
    let l ← liftB (parseLine x)
    let p ← act W modPath stat full l p
    fileLoop W modPath stat b full ((c :: s).drop n) p
termination_by content.length
decreasing_by
  have : 0 < fgetsLen 254 (c :: s) := fgetsLen_pos 253 c s
  simp only [List.length_drop, List.length_cons]
  omega

/-- `LoadPluginsFromFile`, core/metamod.cpp:248-346; `none`: the file cannot be opened. -/
def loadFile {σ ε : Type} (W : World σ ε) (modPath : List Byte) (stat : List Byte → Bool) (b full : Buf) (content : Option (List Byte)) (w : σ) : Except (Flt ε) (Prog σ) :=
  match content with
  | none => .ok ⟨w, 0, 0⟩
  | some c => fileLoop W modPath stat b full c ⟨w, 0, 0⟩

/-! ### the plugin manager -/

/-- `Load` and the test `id < Pl_MinId || FindById(id)->m_Status < Pl_Paused`, core/metamod.cpp:330-331; `oc` is what the system and the
plugin's library answer for a file. -/
def mgrLoad (h : Mgr.Beh) (fuel : Nat) (oc : List Byte → Mgr.Outcome) (path : List Byte) (s : Mgr.St) : Mgr.R (Mgr.St × Bool × Bool) := do
  let r ← Mgr.load h fuel path (oc path) s
  if r.2.1 < 1 then .ok (r.1, false, r.2.2)
  else do
    let o ← Mgr.findById r.1 r.2.1 r.1.plugins
    match o with
    | none => .error .nullDeref
    | some o => do
      let p ← r.1.get o
      let b ← Mgr.belowPaused p.status
      .ok (r.1, !b, r.2.2)

/-- `g_PluginMngr` (core/metamod_plugins.cpp): `SetAlias` 115-147, `Load` 154-190. -/
def mgrWorld (h : Mgr.Beh) (fuel : Nat) (oc : List Byte → Mgr.Outcome) : World Mgr.St Mgr.Fault :=
  { setAlias := fun a v s => { s with aliases := Mgr.setAlias a v s.aliases }, load := mgrLoad h fuel oc }

end Verif.PFile
