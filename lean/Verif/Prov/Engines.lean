import Verif.Loader.Backend
/-
Which engine a build reports to plugins (C102): DetermineSourceEngine and GetEngineDescription of both providers, and
`engine_build` of core/metamod.cpp.  The numbers `SE_…` and `SOURCE_ENGINE` are set by the manifests of the SDKs, which are not
in /repo: they are a parameter.
-/
namespace Verif.Prov.Eng

/-- The engines a provider is compiled for: the names `SE_…` at core/provider/source/provider_source.cpp:210-257 and
core/provider/source2/provider_source2.cpp:212-217. -/
inductive Engine
  | bloodygoodtime | alienswarm | left4dead2 | nucleardawn | contagion | left4dead | orangebox | css | hl2dm | dods | sdk2013 | tf2
  | darkmessiah | eye | portal2 | blade | insurgency | doi | csgo | bms | episodeone | mock | pvkii | mcv | dota | cs2 | deadlock
deriving DecidableEq, Repr

/-- A chain of `#if SOURCE_ENGINE == SE_… return …; #elif`: the first that fits; `none` is the `#error`.  `val`: the numbers `SE_…`.
core/provider/source/provider_source.cpp:210-260. -/
def pick {α : Type} (val : Engine → Nat) (build : Nat) : List (Engine × α) → Option α
  | [] => none
  | (e, a) :: rest => if build = val e then some a else pick val build rest

/-- `SourceProvider::DetermineSourceEngine` with the numbers of core/ISmmPluginExt.h:38-66; the line of `SE_EPISODEONE` is that of an
engine that is not the oldest. core/provider/source/provider_source.cpp:208-261. -/
def numbers1 : List (Engine × Nat) :=
  [(.bloodygoodtime, 9), (.alienswarm, 8), (.left4dead2, 7), (.nucleardawn, 18), (.contagion, 22), (.left4dead, 4),
   (.orangebox, 3), (.css, 13), (.hl2dm, 15), (.dods, 16), (.sdk2013, 19), (.tf2, 17), (.darkmessiah, 5), (.eye, 10),
   (.portal2, 11), (.blade, 20), (.insurgency, 21), (.doi, 24), (.csgo, 12), (.bms, 23), (.episodeone, 2), (.mock, 25),
   (.pvkii, 26), (.mcv, 27)]

/-- `Source2Provider::DetermineSourceEngine`. core/provider/source2/provider_source2.cpp:210-221. -/
def numbers2 : List (Engine × Nat) :=
  [(.dota, 14), (.cs2, 28), (.deadlock, 29)]

/-- `SourceProvider::GetEngineDescription`, the same way. core/provider/source/provider_source.cpp:263-323. -/
def texts1 : List (Engine × String) :=
  [(.bloodygoodtime, "Bloody Good Time (2010)"), (.alienswarm, "Alien Swarm (2010)"), (.left4dead2, "Left 4 Dead 2 (2009)"),
   (.nucleardawn, "Nuclear Dawn (2011)"), (.contagion, "Contagion (2013)"), (.left4dead, "Left 4 Dead (2008)"),
   (.orangebox, "Episode 2 (Orange Box, 2007)"), (.css, "Counter-Strike: Source (Valve Orange Box)"),
   (.hl2dm, "Half-Life 2 Deathmatch (Valve Orange Box)"), (.dods, "Day of Defeat: Source (Valve Orange Box)"),
   (.sdk2013, "Source SDK 2013 (2013)"), (.bms, "Black Mesa (2015)"), (.tf2, "Team Fortress 2 (Valve Orange Box)"),
   (.darkmessiah, "Dark Messiah (2006)"), (.eye, "E.Y.E. Divine Cybermancy (2011)"), (.portal2, "Portal 2 (2011)"),
   (.blade, "Blade Symphony (2013)"), (.insurgency, "Insurgency (2013)"), (.doi, "Day of Infamy (2016)"),
   (.csgo, "Counter-Strike: Global Offensive (2012)"), (.episodeone, "Episode 1 (2004)"), (.mock, "Mock"),
   (.pvkii, "Pirates, Vikings, and Knights II"), (.mcv, "Military Combat: Vietnam")]

/-- `Source2Provider::GetEngineDescription`. core/provider/source2/provider_source2.cpp:223-234. -/
def texts2 : List (Engine × String) :=
  [(.dota, "Dota 2 (2013)"), (.cs2, "Counter-Strike 2 (2023)"), (.deadlock, "Deadlock (2024)")]

/-- `bOriginalEngine` after `Notify_DLLInit_Pre`; `game`: `CommandLine()->ParmValue("-game", "hl2")` (external).
core/provider/source/provider_source.cpp:115-118, core/provider/source/provider_source.h:121. -/
def original (val : Engine → Nat) (build : Nat) (game : String) : Bool :=
  if build = val .episodeone then decide (game = "ship") else false

/-- `SourceProvider::DetermineSourceEngine`: the line of `SE_EPISODEONE` looks at `bOriginalEngine`, the others do not.
core/provider/source/provider_source.cpp:208-261. -/
def number1 (val : Engine → Nat) (build : Nat) (orig : Bool) : Option Nat :=
  pick val build (numbers1.map fun p => (p.1, if p.1 = .episodeone ∧ orig then 1 else p.2))

/-- `SourceProvider::GetEngineDescription`. core/provider/source/provider_source.cpp:263-323. -/
def text1 (val : Engine → Nat) (build : Nat) (orig : Bool) : Option String :=
  pick val build (texts1.map fun p => (p.1, if p.1 = .episodeone ∧ orig then "Original (pre-Episode 1)" else p.2))

/-- `engine_build` of a build with the provider for the first engine, as `GetSourceEngineBuild` answers, after `Notify_DLLInit_Pre` and `mm_DetectGameInformation`.
core/metamod.cpp:228-240, core/metamod.cpp:1067-1070, core/gamedll_bridge.cpp:52. -/
def engineBuild (val : Engine → Nat) (build : Nat) (game : String) : Option Nat := number1 val build (original val build game)

/-- The same of a build with the provider for Source 2. core/provider/source2/provider_source2.cpp:210-221. -/
def engineBuild2 (val : Engine → Nat) (build : Nat) : Option Nat := pick val build numbers2

/-- The engine whose SDK the library of a backend is built with. No counterpart in /repo: the manifests of the SDKs, matched by name;
core/AMBuilder:8, loader/loader.cpp:78-108. -/
def engineOf : Loader.Backend → Option Engine
  | .episode1 => some .episodeone
  | .darkMessiah => some .darkmessiah
  | .episode2 => some .orangebox
  | .bloodyGoodTime => some .bloodygoodtime
  | .eye => some .eye
  | .css => some .css
  | .left4Dead => some .left4dead
  | .left4Dead2 => some .left4dead2
  | .alienSwarm => some .alienswarm
  | .portal2 => some .portal2
  | .csgo => some .csgo
  | .dota => some .dota
  | .hl2dm => some .hl2dm
  | .dods => some .dods
  | .tf2 => some .tf2
  | .nuclearDawn => some .nucleardawn
  | .sdk2013 => some .sdk2013
  | .blade => some .blade
  | .insurgency => some .insurgency
  | .contagion => some .contagion
  | .bms => some .bms
  | .doi => some .doi
  | .mock => some .mock
  | .pvkii => some .pvkii
  | .mcv => some .mcv
  | .cs2 => some .cs2
  | .deadlock => some .deadlock
  | .episode2ValveObsolete => none
  | .unknown => none

/-- Specification: the number of an engine as core/ISmmPluginExt.h:38-66 documents it, by name. -/
def documented : Engine → Nat
  | .bloodygoodtime => 9
  | .alienswarm => 8
  | .left4dead2 => 7
  | .nucleardawn => 18
  | .contagion => 22
  | .left4dead => 4
  | .orangebox => 3
  | .css => 13
  | .hl2dm => 15
  | .dods => 16
  | .sdk2013 => 19
  | .tf2 => 17
  | .darkmessiah => 5
  | .eye => 10
  | .portal2 => 11
  | .blade => 20
  | .insurgency => 21
  | .doi => 24
  | .csgo => 12
  | .bms => 23
  | .episodeone => 2
  | .mock => 25
  | .pvkii => 26
  | .mcv => 27
  | .dota => 14
  | .cs2 => 28
  | .deadlock => 29

/-- Specification: the provider that is compiled in: core/AMBuilder:26-38. -/
def second : Engine → Bool
  | .dota | .cs2 | .deadlock => true
  | _ => false

end Verif.Prov.Eng
