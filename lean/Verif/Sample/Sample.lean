import Verif.SH.TakeBack
import Verif.Util.Misc
/-
The sample plugins (C103): how `Load` gets its interfaces (the macros of core/ISmmPlugin.h) before it adds its hooks, and what
the handlers of the sample for the first Source engine answer.
-/
namespace Verif.Sample
open Verif.C Verif.SH.TakeBack

/-- The two factories asked, samples/s1_sample_mm/sample_mm.cpp:67-73. -/
inductive Fac where
  | engine | server
deriving DecidableEq, Repr

/-- One `GET_V_IFACE_CURRENT` (`any` false) or `GET_V_IFACE_ANY`: core/ISmmPlugin.h:565-593. -/
structure Get where
  fac : Fac
  var : String
  name : String
  any : Bool
deriving DecidableEq, Repr

/-- What `Load` does apart from assigning variables. samples/s1_sample_mm/sample_mm.cpp:79-96, samples/s2_sample_mm/src/plugin.cpp:81-92. -/
inductive Ev where
  | addListener
  | enableVsp
  | hook (ptr : String) (addr : Nat) (l : Line)
deriving DecidableEq, Repr

/-- What is outside: `VInterfaceMatch` (C33; 0 is NULL), `GetVSPInfo`, and the texts the SDK's macros stand for.
core/ISmmPlugin.h:565-593, samples/s1_sample_mm/sample_mm.cpp:67-80. -/
structure World where
  find : Fac → String → Bool → Nat
  text : String → List Byte
  vsp : Nat

/-- The bytes of a text. No counterpart in /repo. -/
def bytes (s : String) : List Byte := s.toList.map fun c => c.toNat.toUInt8

/-- The variables of a plugin, by name; NULL before they are assigned. samples/s1_sample_mm/sample_mm.cpp:37-45. -/
abbrev Vars := String → Nat

/-- The error text: written if there is a buffer and it has a size. core/ISmmPlugin.h:569-572. -/
def tell (error : Option Buf) (maxlen : Nat) (name : List Byte) : R (Option Buf) :=
  match error with
  | none => .ok none
  | some b =>
    if maxlen = 0 then .ok (some b)
    else do
      let (b, _) ← Util.format b maxlen (some (bytes "Could not find interface: " ++ name)) []
      .ok (some b)

/-- The macros one after the other: the variables, whether all were found, and the error buffer. core/ISmmPlugin.h:565-593. -/
def getAll (w : World) (error : Option Buf) (maxlen : Nat) : List Get → Vars → R (Vars × Bool × Option Buf)
  | [], v => .ok (v, true, error)
  | g :: gs, v =>
    let p := w.find g.fac g.name g.any
    let v := fun x => if x = g.var then p else v x
    if p = 0 then do
      let b ← tell error maxlen (w.text g.name)
      .ok (v, false, b)
    else getAll w error maxlen gs v

/-- The name of the variable a hook line names. samples/s1_sample_mm/sample_mm.cpp:86-96. -/
def Ptr.var : Ptr → String
  | .server => "server"
  | .gameclients => "gameclients"
  | .pluginUnload => "g_plugin_unload"
  | .enginesvcmgr => "enginesvcmgr"
  | .loopModeFactory => "factory"
  | .loopMode => "mode"

/-- The hook lines with the objects they are added to. samples/s1_sample_mm/sample_mm.cpp:86-96. -/
def hooks (v : Vars) (ls : List Line) : List Ev := ls.map fun l => .hook (Ptr.var l.ptr) (v (Ptr.var l.ptr)) l

/-- samples/s1_sample_mm/sample_mm.cpp:67-73; the names are those of the SDK's macros. -/
def s1Gets : List Get :=
  [⟨.engine, "engine", "INTERFACEVERSION_VENGINESERVER", false⟩,
   ⟨.engine, "gameevents", "INTERFACEVERSION_GAMEEVENTSMANAGER2", false⟩,
   ⟨.engine, "helpers", "INTERFACEVERSION_ISERVERPLUGINHELPERS", false⟩,
   ⟨.engine, "icvar", "CVAR_INTERFACE_VERSION", false⟩,
   ⟨.server, "server", "INTERFACEVERSION_SERVERGAMEDLL", true⟩,
   ⟨.server, "gameclients", "INTERFACEVERSION_SERVERGAMECLIENTS", true⟩,
   ⟨.server, "playerinfomanager", "INTERFACEVERSION_PLAYERINFOMANAGER", true⟩]

/-- samples/s2_sample_mm/src/plugin.cpp:71-75. -/
def s2Gets : List Get :=
  [⟨.engine, "engine", "INTERFACEVERSION_VENGINESERVER", false⟩,
   ⟨.engine, "icvar", "CVAR_INTERFACE_VERSION", false⟩,
   ⟨.server, "server", "INTERFACEVERSION_SERVERGAMEDLL", true⟩,
   ⟨.server, "gameclients", "INTERFACEVERSION_SERVERGAMECLIENTS", true⟩,
   ⟨.engine, "g_pNetworkServerService", "NETWORKSERVERSERVICE_INTERFACE_VERSION", true⟩]

/-- samples/s1_stub_mm/stub_mm.cpp:30. -/
def stubGets : List Get := [⟨.server, "server", "INTERFACEVERSION_SERVERGAMEDLL", true⟩]

/-- What the first sample does between interfaces and hooks. samples/s1_sample_mm/sample_mm.cpp:79-84. -/
def s1Listen (w : World) : List Ev := if w.vsp = 0 then [.addListener, .enableVsp] else []

/-- A `Load`: interfaces, then what comes before the hooks, then the hooks; console variables and messages are left out.
samples/s1_sample_mm/sample_mm.cpp:63-108, samples/s2_sample_mm/src/plugin.cpp:67-174, samples/s1_stub_mm/stub_mm.cpp:24-38. -/
def load (gets : List Get) (pre : World → List Ev) (ls : List Line) (w : World) (error : Option Buf) (maxlen : Nat) (v : Vars) :
    R (Vars × Bool × Option Buf × List Ev) := do
  let (v, ok, b) ← getAll w error maxlen gets v
  .ok (v, ok, b, if ok then pre w ++ hooks v ls else [])

/-- The three samples. No counterpart in /repo: a list. -/
def samples : List (List Get × (World → List Ev) × List Line) :=
  [(s1Gets, s1Listen, s1Load), (s2Gets, fun _ => [.addListener], s2Load), (stubGets, fun _ => [], stubLoad)]

/-! ### handlers of the first sample -/

/-- The kinds of dialog. samples/s1_sample_mm/sample_mm.cpp:186, 198, 209, 222. -/
inductive Dialog where
  | menu | text | msg | entry
deriving DecidableEq, Repr

/-- What a handler does with the engine: a `KeyValues` is made, shown, deleted; a text is printed to the player.
samples/s1_sample_mm/sample_mm.cpp:167-224, 244. -/
inductive Act where
  | make (id : Nat)
  | item (id : Nat) (num msg cmd : List Byte)
  | send (id : Nat) (d : Dialog)
  | delete (id : Nat)
  | print (t : List Byte)
deriving DecidableEq, Repr

/-- The result set with `RETURN_META`, `MRES_IGNORED` if none is. samples/s1_sample_mm/sample_mm.cpp:159-226. -/
inductive Meta where
  | ignored | supercede
deriving DecidableEq, Repr

/-- The items of the menu, `n` of them from `i` on; the texts fit their buffers of ten bytes.
samples/s1_sample_mm/sample_mm.cpp:174-184. -/
def items (id : Nat) : Nat → Nat → List Act
  | 0, _ => []
  | n + 1, i =>
    .item id ((bytes (toString i)).take 9) ((bytes "Option " ++ bytes (toString i)).take 9) ((bytes "option " ++ bytes (toString i)).take 9)
      :: items id n (i + 1)

/-- One branch: the dialog is made, filled, shown and deleted; of what it is filled with only the items of the menu are kept. samples/s1_sample_mm/sample_mm.cpp:167-188. -/
def dialog (id : Nat) (fill : List Act) (d : Dialog) : List Act := .make id :: fill ++ [.send id d, .delete id]

/-- `Hook_ClientCommand`; `entity`: NULL, or whether it is free; `id`: the new `KeyValues`. samples/s1_sample_mm/sample_mm.cpp:150-226. -/
def clientCommand (entity : Option Bool) (cmd : List Byte) (id : Nat) : Meta × List Act :=
  match entity with
  | none => (.ignored, [])
  | some true => (.ignored, [])
  | some false =>
    if cmd = bytes "menu" then (.supercede, dialog id (items id 8 1) .menu)
    else if cmd = bytes "rich" then (.supercede, dialog id [] .text)
    else if cmd = bytes "msg" then (.supercede, dialog id [] .msg)
    else if cmd = bytes "entry" then (.supercede, dialog id [] .entry)
    else (.ignored, [])

/-- `Hook_ClientPutInServer`. samples/s1_sample_mm/sample_mm.cpp:260-270. -/
def clientPutInServer (id : Nat) : Meta × List Act := (.ignored, dialog id [] .msg)

/-- `Hook_ClientSettingsChanged`: `info`: the name the game knows, if there is an info and it has a name; `name`: the value of the
player's variable; `netid`: the network id. The buffer has 128 bytes. samples/s1_sample_mm/sample_mm.cpp:228-247. -/
def settingsChanged (manager : Bool) (info : Option (Option (List Byte))) (name : Option (List Byte)) (netid : List Byte) : List Act :=
  if manager then
    match info, name with
    | some (some old), some new =>
      if netid ≠ bytes "BOT" ∧ new = old then
        [.print ((bytes "Your name changed to \"" ++ new ++ bytes "\" (from \"" ++ old ++ bytes "\")\n").take 127)]
      else []
    | _, _ => []
  else []

end Verif.Sample
