import Verif.Util.Misc
/-
Engine detection and choice of the core library (loader/loader.cpp).
-/
namespace Verif.Loader
open Verif.C

/-- `MetamodBackend`, loader/loader.h:81-112. -/
inductive Backend
  | episode1 | darkMessiah | episode2 | bloodyGoodTime | eye | css | episode2ValveObsolete
  | left4Dead | left4Dead2 | alienSwarm | portal2 | csgo | dota | hl2dm | dods | tf2
  | nuclearDawn | sdk2013 | blade | insurgency | contagion | bms | doi | mock | pvkii | mcv
  | cs2 | deadlock | unknown
  deriving DecidableEq, Repr

/-- The values of the enumerators, loader/loader.h:83-111. -/
def Backend.idx : Backend → Nat
  | .episode1 => 0
  | .darkMessiah => 1
  | .episode2 => 2
  | .bloodyGoodTime => 3
  | .eye => 4
  | .css => 5
  | .episode2ValveObsolete => 6
  | .left4Dead => 7
  | .left4Dead2 => 8
  | .alienSwarm => 9
  | .portal2 => 10
  | .csgo => 11
  | .dota => 12
  | .hl2dm => 13
  | .dods => 14
  | .tf2 => 15
  | .nuclearDawn => 16
  | .sdk2013 => 17
  | .blade => 18
  | .insurgency => 19
  | .contagion => 20
  | .bms => 21
  | .doi => 22
  | .mock => 23
  | .pvkii => 24
  | .mcv => 25
  | .cs2 => 26
  | .deadlock => 27
  | .unknown => 28

/-- `backend_names`, loader/loader.cpp:78-108. -/
def backendNames : List String :=
  ["2.ep1", "2.darkm", "2.ep2", "2.bgt", "2.eye", "2.css", "2.ep2v", "2.l4d", "2.l4d2", "2.swarm",
   "2.portal2", "2.csgo", "2.dota", "2.hl2dm", "2.dods", "2.tf2", "2.nd", "2.sdk2013", "2.blade",
   "2.insurgency", "2.contagion", "2.bms", "2.doi", "2.mock", "2.pvkii", "2.mcv", "2.cs2",
   "2.deadlock"]

/-- What detection looks at: interfaces of the engine and of the game (external factories), the
name of the game directory, and the texts `mm_FindPattern` finds in the image of the game. Asked at loader/loader.cpp:251-421. -/
structure Facts where
  eng : String → Bool
  srv : String → Bool
  game : String
  has : String → Bool

/-- From the label `TF2branch`, loader/loader.cpp:355-397. -/
def tf2Branch (f : Facts) : Backend :=
  if f.game = "cstrike" || f.has "DT_CSPlayerResource" then .css
  else if f.game = "tf" || f.has "DT_TFPlayerResource" then .tf2
  else if f.game = "dod" || f.has "DT_DODPlayerResource" then .dods
  else if f.game = "hl2mp" then .hl2dm
  else if f.game = "pvkii" then .pvkii
  else if f.game = "." && f.eng "MOCK_ENGINE" then .mock
  else if f.srv "ServerGameClients005" then .hl2dm
  else .sdk2013

/-- `mm_DetermineBackendS1`, loader/loader.cpp:251-421.  Each query of a factory gives the same
answer every time. -/
def detect (f : Facts) : Backend :=
  if f.eng "VEngineServer023" then
    if !f.eng "EngineTraceServer004" then tf2Branch f
    else if f.eng "IEngineSoundServer004" then
      if f.game = "doi" || f.has "doi_gamerules_data" then .doi else .insurgency
    else if f.srv "ServerGameDLL010" then .bms
    else if f.srv "VSERVERTOOLS003" then .blade
    else if f.game = "vietnam" then .mcv
    else .csgo
  else if f.eng "VEngineServer022" && f.eng "VEngineCvar007" then
    if f.eng "EngineTraceServer004" then
      if f.eng "XboxSystemInterface001" then .alienSwarm
      else if f.game = "portal2" || f.has "baseportalcombatweapon" then .portal2
      else .blade
    else if f.eng "VPrecacheSystem001" then
      if f.srv "ServerGameTags002" then .nuclearDawn
      else if f.game = "contagion" || f.has "Contagion_Chat_All" then .contagion
      else .left4Dead2
    else .left4Dead
  else if f.eng "VEngineServer021" then
    if f.eng "VEngineCvar004" then
      if f.eng "VModelInfoServer002" then
        if f.game = "pm" || f.has "DT_PMPlayerResource" then .bloodyGoodTime else .episode2
      else if f.eng "VModelInfoServer003" then
        if f.eng "VFileSystem017" then .eye else tf2Branch f
      else .unknown
    else if f.eng "VModelInfoServer001" && (f.eng "VEngineCvar003" || f.eng "VEngineCvar002") then
      if f.game = "." then .darkMessiah else .episode1
    else .unknown
  else .unknown

/-- ASCII `stricmp(a, b) == 0` for texts. -/
def sameNoCase (a b : String) : Bool := a.toList.map Char.toLower == b.toList.map Char.toLower

/-- The choice in `ISource2Server::Init`, loader/gamedll.cpp:363-374. -/
def detectS2 (game : String) : Backend :=
  if sameNoCase "citadel" game then .deadlock
  else if sameNoCase "csgo" game then .cs2
  else .dota

/-- The result of `mm_LoadMetamodLibrary` before the library is opened: a reason to fail, an index
outside `backend_names`, or the path to open. loader/loader.cpp:121-157. -/
inductive LibPath
  | fail | badIndex | path (p : List Byte)
  deriving DecidableEq, Repr

/-- The bytes of a text. No counterpart in /repo. -/
def bytes (s : String) : List Byte := s.toList.map fun c => c.toNat.toUInt8

/-- The text before and including the last `/`, as `strrchr` and `mm_path[len - temp_len] = 0` leave
it, loader/loader.cpp:131-141; `none` without a slash. -/
def upToSlash (p : List Byte) : Option (List Byte) :=
  match p.reverse.dropWhile (· ≠ 47) with
  | [] => none
  | r => some r.reverse

/-- `mm_LoadMetamodLibrary` up to the call of `mm_LoadLibrary`, loader/loader.cpp:121-152.  `own` is
the path that `dladdr` (external) knows for the loader, `snprintf` cuts it to the buffer of
`2 * PLATFORM_MAX_PATH` bytes (`cap`).  The name of the log file is `logName` in
`Fatal.lean`. -/
def libraryPath (cap : Nat) (own : Option (List Byte)) (b : Backend) : LibPath :=
  match own with
  | none => .fail
  | some p =>
    match upToSlash (p.take (cap - 1)) with
    | none => .fail
    | some d =>
      match backendNames[b.idx]? with
      | none => .badIndex
      | some n => .path (d ++ (bytes "metamod." ++ bytes n ++ bytes ".so").take (cap - d.length - 1))

/-- `strtoul(s, nullptr, 10)`: white space, sign, digits; too large values give `ULONG_MAX`. -/
def digitsVal (acc : Nat) : List Byte → Nat
  | [] => acc
  | c :: s => if isdigit c then digitsVal (acc * 10 + (c.toNat - 48)) s else acc

/-- The sign of `strtoul`; a minus negates modulo 2^64 unless the value was too large. -/
def strtoul (s : List Byte) : Nat :=
  match s.dropWhile isspace with
  | 45 :: r => if digitsVal 0 r ≥ 2 ^ 64 then 2 ^ 64 - 1 else (2 ^ 64 - digitsVal 0 r) % 2 ^ 64
  | 43 :: r => min (digitsVal 0 r) (2 ^ 64 - 1)
  | r => min (digitsVal 0 r) (2 ^ 64 - 1)

/-- `strncpy(buffer, s, size)` for a string `s` stored elsewhere.
No counterpart in /repo: the C library, called at loader/loader.cpp:233-247 and loader/utility.cpp:716, 739. -/
def strncpy (b : Buf) (size : Nat) (s : List Byte) : R Buf :=
  wrs b 0 (s.take size ++ List.replicate (size - s.length) 0)

/-- The switch over the app id, loader/loader.cpp:231-242. -/
def byAppId (b : Buf) (size : Nat) (app : Option (List Byte)) : R Buf :=
  match app with
  | none => .ok b
  | some a =>
    if strtoul a = 570 then strncpy b size (bytes "dota")
    else if strtoul a = 730 then strncpy b size (bytes "csgo")
    else if strtoul a = 1422450 then strncpy b size (bytes "citadel")
    else .ok b

/-- The first part of `mm_GetGameName`, loader/loader.cpp:216-243. -/
def nameOrId (cmdline app : Option (List Byte)) (b : Buf) (size : Nat) : R Buf := do
  let r ← Verif.Util.getCommandArgument cmdline (bytes "-game") (some b) size
  let b := r.2.getD b
  if r.1 then .ok b else byAppId b size app

/-- `mm_GetGameName`, loader/loader.cpp:214-249; `cmdline` is the content of /proc/self/cmdline and
`app` the variable SteamAppId (both external). -/
def getGameName (cmdline app : Option (List Byte)) (b : Buf) (size : Nat) : R Buf := do
  let b ← nameOrId cmdline app b size
  let c ← rd b 0
  if c = 0 then strncpy b size (bytes ".") else .ok b

end Verif.Loader
