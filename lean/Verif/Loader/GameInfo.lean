import Verif.Util.Text
import Verif.Util.Path
import Verif.Util.Misc
import Verif.Core.PluginFile
import Verif.Core.Vdf
import Verif.Loader.Backend
/-
`mm_DetectGameInformation` (loader/gamedll.cpp:84-219): where the game's server library may be, as the gameinfo file says.
Linux, 64 bits.  Simplified: `gamedll_paths` is the list of the strings stored; `mm_path`, `game_path` and `cur_path` are the strings
`dladdr`, `realpath` and `getcwd` (external) leave in their buffers.  Local buffers have any content before they are written;
what a round of the loop leaves in them is not read by the next, so every round gets the same.  `PLATFORM_MAX_PATH` is 4096.
-/
namespace Verif.GInfo
open Verif.C Verif.Util
open Verif.Loader (bytes)
open Verif.PFile (fgetsLen fgetsBuf fgetsLen_pos)
open Verif.PFile (caseEq)

/-- What the system answers. No counterpart in /repo: the operating system. -/
structure Sys where
  /-- `dladdr`: the path of the loader. -/
  own : Option (List Byte)
  /-- /proc/self/cmdline and the variable SteamAppId. -/
  cmdline : Option (List Byte)
  app : Option (List Byte)
  realpath : List Byte → Option (List Byte)
  cwd : Option (List Byte)
  /-- What `fopen` finds. -/
  file : List Byte → Option (List Byte)

/-- The buffers of the function. loader/gamedll.cpp:86-219. -/
structure Bufs where
  line : Buf
  key : Buf
  val : Buf
  temp : Buf
  junk : List Byte

/-- loader/gamedll.cpp:166-168 with lines 73-82: the words of the two engines. -/
def relPath (s2 : Bool) : List Byte := if s2 then bytes "../../" else []
/-- `PLATFORM_SUBDIR_S1`, `PLATFORM_SUBDIR_S2`, loader/gamedll.cpp:77-78, as used at 169-176. -/
def osDir (s2 : Bool) : List Byte := if s2 then bytes "/linuxsteamrt64/" else bytes "/linux64"
/-- `SERVER_NAME_S1`, `SERVER_NAME_S2`, loader/gamedll.cpp:74-75. -/
def serverBin (s2 : Bool) : List Byte := if s2 then bytes "libserver.so" else bytes "server.so"

/-- loader/gamedll.cpp:152-164: the directory and where in `val` the rest starts. -/
def whereFrom (sys : Sys) (gamePath : List Byte) (val : Buf) : R (List Byte × Nat) := do
  let v ← cstr val 0
  if (bytes "|gameinfo_path|").isPrefixOf v then do
    let c ← rd val 15
    .ok (gamePath, if c = 46 then 16 else 15)
  else .ok (sys.cwd.getD [], 0)

/-- loader/gamedll.cpp:169-174: the text put into `temp_path`. -/
def pathText (s2 : Bool) (key dir rest : List Byte) : List Byte :=
  if caseEq key (bytes "GameBin") then dir ++ bytes "/" ++ relPath s2 ++ rest ++ osDir s2 ++ bytes "/" ++ serverBin s2
  else if rest = [] then dir ++ bytes "/" ++ relPath s2 ++ bytes "bin" ++ osDir s2 ++ bytes "/" ++ serverBin s2
  else dir ++ bytes "/" ++ relPath s2 ++ rest ++ bytes "/bin" ++ osDir s2 ++ bytes "/" ++ serverBin s2

/-- `mm_PathCmp` on two strings (Util/Path.lean). loader/utility.cpp:219-293. -/
def same (sys : Sys) (b1 b2 : Buf) : R Bool := mmPathCmp (fun p => (sys.realpath p).map (· ++ [0])) b1 b2

/-- loader/gamedll.cpp:185-192: whether the path is there already. -/
def among (sys : Sys) (temp : Buf) : List (List Byte) → R Bool
  | [] => .ok false
  | p :: ps => do
    let r ← same sys (p ++ [0]) temp
    if r then .ok true else among sys temp ps

/-- loader/gamedll.cpp:176-201: whether the path is stored, and the paths after it.  `gamedll_paths` has ten places. -/
def consider (sys : Sys) (own : List Byte) (temp : Buf) (paths : List (List Byte)) : R (List (List Byte)) := do
  let t ← cstr temp 0
  let r ← same sys (own ++ [0]) temp
  if r then .ok paths
  else match sys.file t with
    | none => .ok paths
    | some _ => do
      let m ← among sys temp paths
      if m then .ok paths
      else if paths.length < 10 then .ok (paths ++ [t])
      else .error .outOfBounds

/-- loader/gamedll.cpp:138-140. -/
def clean (b : Buf) : R Buf := do
  let b ← mmTrimComments b
  let b ← mmTrimLeft b
  mmTrimRight b

/-- loader/gamedll.cpp:148-201, with `search` set. -/
def entry (sys : Sys) (own gamePath : List Byte) (s2 : Bool) (bufs : Bufs) (buffer : Buf) (paths : List (List Byte)) : R (List (List Byte)) := do
  let kv ← mmKeySplit buffer bufs.key 127 bufs.val 127
  let k ← cstr kv.1 0
  if caseEq k (bytes "Game") = false ∧ caseEq k (bytes "GameBin") = false then .ok paths
  else do
    let w ← whereFrom sys gamePath kv.2
    let rest ← cstr kv.2 w.2
    let temp ← pathFormat bufs.temp 4096 (some (pathText s2 k w.1 rest)) bufs.junk
    consider sys own temp.1 paths

/-- One round of the loop, loader/gamedll.cpp:138-201; the answer is `search` and the paths. -/
def round (sys : Sys) (own gamePath : List Byte) (s2 : Bool) (bufs : Bufs) (buffer : Buf) (search : Bool) (paths : List (List Byte)) : R (Bool × List (List Byte)) := do
  let b ← clean buffer
  let t ← cstr b 0
  if (search || caseEq t (bytes "SearchPaths")) = false then .ok (false, paths)
  else do
    let paths ← entry sys own gamePath s2 bufs b paths
    .ok (true, paths)

/-- The loop, loader/gamedll.cpp:136-205; it ends early with the tenth path (lines 203-204). -/
def loop (sys : Sys) (own gamePath : List Byte) (s2 : Bool) (bufs : Bufs) (content : List Byte) (search : Bool) (paths : List (List Byte)) : R (List (List Byte)) :=
  match content with
  | [] => .ok paths
  | c :: s => do
    let n := fgetsLen 254 (c :: s)
    let x ← fgetsBuf bufs.line n (c :: s)
    let r ← round sys own gamePath s2 bufs x search paths
    if r.2.length = 10 ∧ paths.length ≠ 10 then .ok r.2
    else loop sys own gamePath s2 bufs ((c :: s).drop n) r.1 r.2
termination_by content.length
decreasing_by
  have : 0 < fgetsLen 254 (c :: s) := fgetsLen_pos 253 c s
  simp only [List.length_drop, List.length_cons]
  omega

/-- `mm_GetFileOfAddress` into `mm_path`, loader/utility.cpp:357-378, loader/gamedll.cpp:97. -/
def ownPath (sys : Sys) : Option (List Byte) := sys.own.map (·.take 4095)

/-- `mm_ResolvePath`, loader/utility.cpp:294-309, with `g_is_source2` for the last argument. -/
def resolve (sys : Sys) (isS2 : Bool) (tmp : Buf) (junk : List Byte) (name : List Byte) : R (Option (List Byte)) :=
  if isS2 then do
    let b ← format tmp 4096 (some (bytes "../../" ++ name)) junk
    let p ← cstr b.1 0
    .ok (sys.realpath p)
  else .ok (sys.realpath name)

/-- loader/gamedll.cpp:109-128: the gameinfo file's content and whether it is the second engine's. -/
def openInfo (sys : Sys) (path : Buf) (junk : List Byte) (gamePath : List Byte) : R (Option (List Byte × Bool)) := do
  let b ← pathFormat path 4096 (some (gamePath ++ bytes "/gameinfo.txt")) junk
  let p ← cstr b.1 0
  match sys.file p with
  | some c => .ok (some (c, false))
  | none => do
    let b ← pathFormat path 4096 (some (gamePath ++ bytes "/gameinfo.gi")) junk
    let p ← cstr b.1 0
    match sys.file p with
    | some c => .ok (some (c, true))
    | none => .ok none

/-- loader/gamedll.cpp:94-219, the first call: `none` if it fails before reading, else `gamedll_paths`.  `name` is the (zeroed)
`game_name`, `tmp` and `path` are the buffers of `mm_ResolvePath` and `gameinfo_path`. -/
def detect (sys : Sys) (isS2 : Bool) (bufs : Bufs) (tmp path : Buf) : R (Option (List (List Byte))) := do
  let nb ← Loader.getGameName sys.cmdline sys.app (List.replicate 128 0) 128
  let name ← cstr nb 0
  match ownPath sys with
  | none => .ok none
  | some own => do
    let g ← resolve sys isS2 tmp bufs.junk name
    match g with
    | none => .ok none
    | some gamePath => do
      let i ← openInfo sys path bufs.junk gamePath
      match i with
      | none => .ok none
      | some (content, s2) => do
        let ps ← loop sys own gamePath s2 bufs content false []
        .ok (some ps)

end Verif.GInfo
