import Verif.Build.Package
import Verif.Loader.BackendProps
import Verif.Prov.Engines
/-
C109: what is put into the package and where.
-/
namespace Verif.Package
open Verif.Search (Arch Plat)
open Verif.Loader (Backend backendNames bytes libraryPath)
open Verif.C (Byte)

/-! ### specification -/

/-- Specification: the directory games load 64-bit libraries from. No counterpart in /repo: the games. -/
def home (p : Plat) (s2 : Bool) : Text :=
  match p, s2 with
  | .windows, _ => "addons/metamod/bin/win64".toList
  | .mac, _ => "addons/metamod/bin/osx64".toList
  | .linux, false => "addons/metamod/bin/linux64".toList
  | .linux, true => "addons/metamod/bin/linuxsteamrt64".toList

/-- Specification: the directory of a library for the engine `s2`. No counterpart in /repo. -/
def dirOf (t : Target) (s2 : Bool) : Text := if t.arch = .x64 then home t.plat s2 else "addons/metamod/bin".toList

/-- Specification: the name a game loads its library by. No counterpart in /repo: the games. -/
def stem (t : Target) (s2 : Bool) : Text :=
  if t.arch = .x64 ∧ t.plat = .linux ∧ s2 then "libserver".toList else "server".toList

/-- Specification: the directories AMBuild uses add none of the words PackageScript looks for. No counterpart in /repo. -/
def Clean (dir : Target → Text → Text) (sdks : List Sdk) : Prop :=
  ∀ t name w, (name ∈ (loaders t).map Prod.fst ∨ ∃ s ∈ sdks, name = coreName s.extension) →
    (w = "libserver".toList ∨ ∃ s ∈ sdks, w = coreName s.extension) → occurs w (built dir t name) = occurs w name

/-- Specification: no name of a library of one engine is part of the name of one for the other. No counterpart in /repo. -/
def Apart (sdks : List Sdk) : Prop :=
  ∀ s ∈ sdks, occurs "libserver".toList (coreName s.extension) = false ∧
    ∀ s' ∈ sdks, occurs (coreName s'.extension) (coreName s.extension) = true → s'.source2 = s.source2

/-- Specification: no SDK is named so that a loader looks like its library. No counterpart in /repo. -/
def NotLoader (sdks : List Sdk) : Prop :=
  ∀ s ∈ sdks, ∀ t : Target, ∀ l ∈ loaders t, occurs (coreName s.extension) l.1 = false

/-! ### helpers -/

private theorem folders_last (p : Plat) : ∀ (ts : List Target) (f : Option (Text × Text)), (∀ t ∈ ts, t.plat = p) →
    folders ts f = if ∃ t ∈ ts, t.arch = .x64 then some (bin64 p) else f
  | [], f, _ => by simp [folders]
  | t :: ts, f, h => by
    rw [folders, folders_last p ts _ fun t ht => h t (List.mem_cons_of_mem _ ht), h t List.mem_cons_self]
    by_cases ht : t.arch = .x64
    · simp [ht]
    · simp [ht]

private theorem folders_of {ts : List Target} {t : Target} (h : ∀ u ∈ ts, u.plat = t.plat) (ht : t ∈ ts) (ha : t.arch = .x64) :
    folders ts none = some (bin64 t.plat) := by
  rw [folders_last t.plat ts none h, if_pos ⟨t, ht, ha⟩]

private theorem prefix_append (a b : Text) : a.isPrefixOf (a ++ b) = true := by
  rw [List.isPrefixOf_iff_prefix]
  exact List.prefix_append a b

private theorem occurs_pre (a b : Text) : occurs a (a ++ b) = true := by
  have h := prefix_append a b
  cases hb : a ++ b with
  | nil => rw [hb] at h; rw [occurs]; exact h
  | cons c r => rw [hb] at h; rw [occurs, h, Bool.true_or]

private theorem occurs_append (a b : Text) : ∀ p : Text, occurs a (p ++ (a ++ b)) = true
  | [] => occurs_pre a b
  | c :: p => by
    rw [List.cons_append, occurs, occurs_append a b p, Bool.or_true]

private theorem occurs_self (a : Text) : occurs a a = true := by
  have := occurs_pre a []
  rwa [List.append_nil] at this

private theorem place_eq {dir : Target → Text → Text} {sdks : List Sdk} {ts : List Target} {t : Target} {name : Text} {s2 : Bool}
    (h : ∀ u ∈ ts, u.plat = t.plat) (ht : t ∈ ts)
    (hs : (occurs "libserver".toList (built dir t name) || (deduce sdks (built dir t name)).any Sdk.source2) = s2) :
    packed dir sdks ts t name = some (dirOf t s2, name ++ ext t.plat) := by
  unfold packed place dirOf
  by_cases ha : t.arch = .x64
  · rw [if_pos ha, if_pos ha, hs, folders_of h ht ha]
    cases s2 <;> cases t.plat <;> rfl
  · rw [if_neg ha, if_neg ha]
    rfl

/-- Specification: all backends. No counterpart in /repo. -/
private def backends : List Backend :=
  [.episode1, .darkMessiah, .episode2, .bloodyGoodTime, .eye, .css, .episode2ValveObsolete, .left4Dead, .left4Dead2, .alienSwarm, .portal2,
   .csgo, .dota, .hl2dm, .dods, .tf2, .nuclearDawn, .sdk2013, .blade, .insurgency, .contagion, .bms, .doi, .mock, .pvkii, .mcv, .cs2, .deadlock,
   .unknown]

private theorem mem_backends (b : Backend) : b ∈ backends := by cases b <;> decide

/-- Specification: if the name for `c` is part of that for `b`, they have the same engine. No counterpart in /repo. -/
private def agree (b c : Backend) : Bool :=
  match backendNames[b.idx]?, backendNames[c.idx]?, Prov.Eng.engineOf b, Prov.Eng.engineOf c with
  | some n, some m, some e, some e' => !occurs (coreName m.toList) (coreName n.toList) || Prov.Eng.second e' == Prov.Eng.second e
  | _, _, _, _ => true

private theorem table_apart : (backends.all fun b => backends.all fun c => agree b c) = true := by decide +kernel

/-! ### theorems -/

/-- C109: the core library for an SDK is put where games with its engine look, whatever other SDKs there are, if their names are apart and
the targets have one platform. -/
theorem core_packed {dir : Target → Text → Text} {sdks : List Sdk} {ts : List Target} {t : Target} {s : Sdk} (hc : Clean dir sdks)
    (hd : Apart sdks) (h : ∀ u ∈ ts, u.plat = t.plat) (ht : t ∈ ts) (hs : s ∈ sdks) :
    packed dir sdks ts t (coreName s.extension) = some (dirOf t s.source2, coreName s.extension ++ ext t.plat) := by
  apply place_eq h ht
  rw [hc t _ _ (.inr ⟨s, hs, rfl⟩) (.inl rfl), (hd s hs).1, Bool.false_or]
  cases hf : deduce sdks (built dir t (coreName s.extension)) with
  | none =>
    exfalso
    unfold deduce at hf
    rw [List.find?_eq_none] at hf
    apply hf s hs
    show occurs (coreName s.extension) _ = true
    rw [hc t _ _ (.inr ⟨s, hs, rfl⟩) (.inr ⟨s, hs, rfl⟩)]
    exact occurs_self _
  | some s' =>
    have hm := List.mem_of_find?_eq_some hf
    have hp := List.find?_some hf
    change occurs (coreName s'.extension) _ = true at hp
    rw [hc t _ _ (.inr ⟨s, hs, rfl⟩) (.inr ⟨s', hm, rfl⟩)] at hp
    exact (hd s hs).2 s' hm hp

/-- C109: for each target and engine there is a loader under the name games load, in the directory games with that engine look at. -/
theorem loader_packed {dir : Target → Text → Text} {sdks : List Sdk} {ts : List Target} {t : Target} (s2 : Bool) (hc : Clean dir sdks)
    (hn : NotLoader sdks) (h : ∀ u ∈ ts, u.plat = t.plat) (ht : t ∈ ts) :
    stem t s2 ∈ (loaders t).map Prod.fst ∧ packed dir sdks ts t (stem t s2) = some (dirOf t s2, stem t s2 ++ ext t.plat) := by
  have hin : stem t s2 ∈ (loaders t).map Prod.fst := by
    obtain ⟨a, p⟩ := t
    cases a <;> cases p <;> cases s2 <;> decide
  refine ⟨hin, ?_⟩
  have hnone : deduce sdks (built dir t (stem t s2)) = none := by
    unfold deduce
    rw [List.find?_eq_none]
    intro s hs hp
    change occurs (coreName s.extension) _ = true at hp
    rw [hc t _ _ (.inl hin) (.inr ⟨s, hs, rfl⟩)] at hp
    obtain ⟨l, hl, hle⟩ := List.mem_map.mp hin
    have := hn s hs t l hl
    rw [hle] at this
    rw [this] at hp
    exact absurd hp (by decide)
  by_cases hx : t.arch = .x64 ∧ t.plat = .linux
  · apply place_eq h ht
    rw [hnone, hc t _ _ (.inl hin) (.inl rfl)]
    unfold stem
    cases s2
    · simp only [Bool.false_eq_true, and_false, if_false]
      decide
    · simp only [hx, and_self, if_true]
      decide
  · have he : stem t s2 = "server".toList := by
      unfold stem
      rw [if_neg (fun ⟨a, b, _⟩ => hx ⟨a, b⟩)]
    rw [place_eq (s2 := false) h ht (by rw [hnone, hc t _ _ (.inl hin) (.inl rfl), he]; decide)]
    congr 2
    unfold dirOf home
    by_cases ha : t.arch = .x64
    · rw [if_pos ha, if_pos ha]
      have hp : t.plat ≠ .linux := fun hp => hx ⟨ha, hp⟩
      revert hp
      cases t.plat <;> simp
    · rw [if_neg ha, if_neg ha]

/-- A text as bytes. No counterpart in /repo. -/
def toBytes (s : Text) : List Byte := s.map fun c => c.toNat.toUInt8

/-- C109: installed anywhere on Linux, the loader finds the core library of the backend it detected: the path it opens is that of
the file in the package, if the backend's SDK was built and has the name in `backend_names`. -/
theorem loader_finds_core {dir : Target → Text → Text} {sdks : List Sdk} {ts : List Target} {t : Target} {s : Sdk} {b : Backend} {n : String}
    {cap : Nat} {root : List Byte} (hc : Clean dir sdks) (hd : Apart sdks) (hl : NotLoader sdks) (h : ∀ u ∈ ts, u.plat = t.plat) (ht : t ∈ ts)
    (hp : t.plat = .linux) (hs : s ∈ sdks) (hb : backendNames[b.idx]? = some n) (hn : s.extension = n.toList)
    (hcap : root.length + 80 < cap) :
    ∃ lp cp, packed dir sdks ts t (stem t s.source2) = some lp ∧ packed dir sdks ts t (coreName s.extension) = some cp ∧
      libraryPath cap (some (root ++ 47 :: toBytes lp.1 ++ 47 :: toBytes lp.2)) b =
        .path (root ++ 47 :: toBytes cp.1 ++ 47 :: toBytes cp.2) := by
  refine ⟨_, _, (loader_packed s.source2 hc hl h ht).2, core_packed hc hd h ht hs, ?_⟩
  have h47 : 47 ∉ toBytes (stem t s.source2 ++ ext t.plat) := by
    rw [hp]
    unfold stem
    split <;> decide
  have hlen : (toBytes (stem t s.source2 ++ ext t.plat)).length ≤ 12 := by
    rw [hp]
    unfold stem
    split <;> decide
  have hdl : (toBytes (dirOf t s.source2)).length ≤ 33 := by
    unfold dirOf home
    rw [hp]
    cases s.source2 <;> split <;> decide
  have hnl : (bytes "metamod." ++ bytes n ++ bytes ".so").length ≤ 30 := by
    have : ∀ m ∈ backendNames, (bytes "metamod." ++ bytes m ++ bytes ".so").length ≤ 30 := by decide +kernel
    exact this n (List.mem_of_getElem? hb)
  rw [Verif.Loader.libraryPath_spec h47 hb
    (by simp only [List.length_append, List.length_cons] at *; omega)
    (by simp only [List.length_append, List.length_cons] at *; omega)]
  congr 1
  rw [hn, hp]
  unfold coreName toBytes bytes ext
  simp

/-- C109: the names in `backend_names`, with the engine each is for, are apart, and no loader looks like one of them. -/
theorem backends_apart (sdks : List Sdk)
    (h : ∀ s ∈ sdks, ∃ b e n, backendNames[b.idx]? = some n ∧ s.extension = n.toList ∧ Prov.Eng.engineOf b = some e ∧
      s.source2 = Prov.Eng.second e) : Apart sdks ∧ NotLoader sdks := by
  have hall : ∀ n ∈ backendNames, occurs "libserver".toList (coreName n.toList) = false ∧ ∀ a p, ∀ l ∈ loaders ⟨a, p⟩,
      occurs (coreName n.toList) l.1 = false := by
    have h1 : ∀ n ∈ backendNames, occurs "libserver".toList (coreName n.toList) = false := by decide +kernel
    have h2 : ∀ n ∈ backendNames, occurs (coreName n.toList) "libserver".toList = false ∧ occurs (coreName n.toList) "server".toList = false ∧
      occurs (coreName n.toList) "server_i486".toList = false := by decide +kernel
    intro n hn
    refine ⟨h1 n hn, ?_⟩
    obtain ⟨x, y, z⟩ := h2 n hn
    intro a p l hl
    cases a <;> cases p <;> simp [loaders] at hl <;> rcases hl with rfl | rfl <;> assumption
  have hpair : ∀ b c : Backend, ∀ n ∈ backendNames[b.idx]?, ∀ m ∈ backendNames[c.idx]?, ∀ e ∈ Prov.Eng.engineOf b,
      ∀ e' ∈ Prov.Eng.engineOf c, occurs (coreName m.toList) (coreName n.toList) = true → Prov.Eng.second e' = Prov.Eng.second e := by
    intro b c n hb m hc e he e' he' ho
    have := List.all_eq_true.mp (List.all_eq_true.mp table_apart b (mem_backends b)) c (mem_backends c)
    unfold agree at this
    rw [hb, hc, he, he'] at this
    dsimp only at this
    rw [ho] at this
    simpa using this
  constructor
  · intro s hs
    obtain ⟨b, e, n, hb, hn, he, h2⟩ := h s hs
    rw [hn]
    refine ⟨(hall n (List.mem_of_getElem? hb)).1, ?_⟩
    intro s' hs' ho
    obtain ⟨c, e', m, hb', hn', he', h2'⟩ := h s' hs'
    rw [h2, h2']
    rw [hn'] at ho
    exact hpair b c n hb m hb' e he e' he' ho
  · intro s hs t l hl
    obtain ⟨b, e, n, hb, hn, he, h2⟩ := h s hs
    rw [hn]
    exact (hall n (List.mem_of_getElem? hb)).2 t.arch t.plat l hl

/-- C109: no library overwrites another: two that end up as the same file have the same target and name. -/
theorem no_overwriting {dir : Target → Text → Text} {sdks : List Sdk} {ts : List Target} {t u : Target} {a b : Text} {x : Text × Text}
    (h : ∀ w ∈ ts, w.plat = t.plat) (ht : t ∈ ts) (hu : u ∈ ts) (ha : packed dir sdks ts t a = some x) (hb : packed dir sdks ts u b = some x) :
    t = u ∧ a = b := by
  have hp : u.plat = t.plat := h u hu
  rw [place_eq h ht rfl] at ha
  rw [place_eq (by rw [hp]; exact h) hu rfl] at hb
  rw [← Option.some.inj ha, hp] at hb
  have hb := Option.some.inj hb
  have hab : b = a := List.append_cancel_right (Prod.mk.inj hb).2
  refine ⟨?_, hab.symm⟩
  have hd := (Prod.mk.inj hb).1
  obtain ⟨ta, tp⟩ := t
  obtain ⟨ua, up⟩ := u
  simp only at hp
  subst hp
  generalize (occurs "libserver".toList (built dir ⟨ua, up⟩ b) || (deduce sdks (built dir ⟨ua, up⟩ b)).any Sdk.source2) = s1 at hd
  generalize (occurs "libserver".toList (built dir ⟨ta, up⟩ a) || (deduce sdks (built dir ⟨ta, up⟩ a)).any Sdk.source2) = s2 at hd
  revert hd
  cases ta <;> cases ua <;> cases up <;> cases s1 <;> cases s2 <;> decide

/-- C109: on Linux and Windows each build of the loader looks for a library of the game with the name of its own file: that of the
first engine, for `libserver` that of Source 2. -/
theorem own_name (t : Target) (hp : t.plat ≠ .mac) :
    ∀ l ∈ loaders t, serverName t l.2 (l.1 == "libserver".toList) = some (l.1 ++ ext t.plat) := by
  obtain ⟨a, p⟩ := t
  cases a <;> cases p <;> first | exact absurd rfl hp | decide

/-- C109, finding: on macOS the loader cannot be compiled: `SERVER_NAME_S1` and `SERVER_NAME_S2`, used at loader/gamedll.cpp:170, are not
defined, though loader/AMBuilder builds it. -/
theorem mac_undefined (a : Arch) : loaders ⟨a, .mac⟩ ≠ [] ∧ ∀ l ∈ loaders ⟨a, .mac⟩, ∀ s2, serverName ⟨a, .mac⟩ l.2 s2 = none := by
  cases a <;> decide

/-- C109: for each target the package has a file `metamod*.vdf` that names the loader for the first engine built for it. -/
theorem vdf_names_loader {dir : Target → Text → Text} {sdks : List Sdk} {ts : List Target} {t : Target} (hc : Clean dir sdks)
    (hn : NotLoader sdks) (h : ∀ u ∈ ts, u.plat = t.plat) (ht : t ∈ ts) :
    ∃ v ∈ vdfs ts, ∃ f, packed dir sdks ts t "server".toList = some (f, "server".toList ++ ext t.plat) ∧ v = f ++ "/server".toList := by
  have hp := (loader_packed false hc hn h ht).2
  have he : stem t false = "server".toList := by simp [stem]
  rw [he] at hp
  refine ⟨dirOf t false ++ "/server".toList, ?_, _, hp, rfl⟩
  unfold vdfs dirOf
  by_cases ha : t.arch = .x64
  · rw [if_pos ha]
    refine List.mem_cons_of_mem _ (List.mem_map.mpr ⟨t, List.mem_filter.mpr ⟨ht, by simp [ha]⟩, ?_⟩)
    cases t.plat <;> rfl
  · rw [if_neg ha]
    exact List.mem_cons_self

/-- C109, finding: `metamod.vdf` is packed even if no 32-bit target is built; then it names a library that is not in the package. -/
theorem vdf_dangling {dir : Target → Text → Text} {sdks : List Sdk} {ts : List Target} {p : Plat} (h : ∀ u ∈ ts, u.plat = p)
    (h64 : ∀ u ∈ ts, u.arch = .x64) :
    "addons/metamod/bin/server".toList ∈ vdfs ts ∧
      ∀ t ∈ ts, ∀ name f e, packed dir sdks ts t name = some (f, e) → f ++ "/server".toList ≠ "addons/metamod/bin/server".toList := by
  refine ⟨List.mem_cons_self, ?_⟩
  intro t ht name f e hk
  rw [place_eq (by rw [h t ht]; exact h) ht rfl] at hk
  have hf := (Prod.mk.inj (Option.some.inj hk)).1
  rw [← hf]
  unfold dirOf
  rw [if_pos (h64 t ht)]
  generalize (occurs "libserver".toList (built dir t name) || (deduce sdks (built dir t name)).any Sdk.source2) = s
  cases t.plat <;> cases s <;> decide

/-- C109, finding: an SDK can be taken for another whose name is a part of its own: the library for Left 4 Dead 2 counts as that for
Left 4 Dead, if that comes first, wherever it is built. -/
theorem deduced_wrong (a b : Text) (rest : List Sdk) :
    deduce (⟨"2.l4d".toList, false⟩ :: ⟨"2.l4d2".toList, false⟩ :: rest) (a ++ coreName "2.l4d2".toList ++ b) = some ⟨"2.l4d".toList, false⟩ := by
  unfold deduce
  rw [List.find?_cons_of_pos]
  have := occurs_append (coreName "2.l4d".toList) ("2".toList ++ b) a
  have he : a ++ (coreName "2.l4d".toList ++ ("2".toList ++ b)) = a ++ coreName "2.l4d2".toList ++ b := by
    rw [show coreName "2.l4d2".toList = coreName "2.l4d".toList ++ "2".toList from by decide]
    simp only [List.append_assoc]
  rwa [he] at this

/-! ### a package -/

/-- Specification: a directory as AMBuild names it. No counterpart in /repo. -/
private def exDir (t : Target) (name : Text) : Text :=
  name ++ (match t.plat with | .linux => "/linux-".toList | .mac => "/mac-".toList | .windows => "/windows-".toList) ++
    (if t.arch = .x64 then "x86_64/".toList else "x86/".toList)

/-- Specification: three SDKs. No counterpart in /repo. -/
private def exSdks : List Sdk := [⟨"2.l4d".toList, false⟩, ⟨"2.l4d2".toList, false⟩, ⟨"2.cs2".toList, true⟩]

/-- Specification: the default targets on Linux. No counterpart in /repo. -/
private def exTargets : List Target := [⟨.x86, .linux⟩, ⟨.x64, .linux⟩]

private theorem exClean : Clean exDir exSdks := by
  have h1 : ∀ t ∈ [Target.mk .x86 .linux, ⟨.x64, .linux⟩, ⟨.x86, .mac⟩, ⟨.x64, .mac⟩, ⟨.x86, .windows⟩, ⟨.x64, .windows⟩],
      ∀ name ∈ (loaders t).map Prod.fst ++ exSdks.map fun s => coreName s.extension,
      ∀ w ∈ "libserver".toList :: exSdks.map fun s => coreName s.extension, occurs w (built exDir t name) = occurs w name := by decide +kernel
  intro t name w hn hw
  refine h1 t ?_ name ?_ w ?_
  · obtain ⟨a, p⟩ := t
    cases a <;> cases p <;> decide
  · rw [List.mem_append]
    rcases hn with hn | ⟨s, hs, rfl⟩
    · exact .inl hn
    · exact .inr (List.mem_map.mpr ⟨s, hs, rfl⟩)
  · rcases hw with rfl | ⟨s, hs, rfl⟩
    · exact List.mem_cons_self
    · exact List.mem_cons_of_mem _ (List.mem_map.mpr ⟨s, hs, rfl⟩)

private theorem exApart : Apart exSdks ∧ NotLoader exSdks := by
  apply backends_apart
  intro s hs
  simp only [exSdks, List.mem_cons, List.not_mem_nil, or_false] at hs
  rcases hs with rfl | rfl | rfl
  · exact ⟨.left4Dead, .left4dead, "2.l4d", rfl, rfl, rfl, rfl⟩
  · exact ⟨.left4Dead2, .left4dead2, "2.l4d2", rfl, rfl, rfl, rfl⟩
  · exact ⟨.cs2, .cs2, "2.cs2", rfl, rfl, rfl, rfl⟩

example : Apart exSdks ∧ NotLoader exSdks := exApart

example : packed exDir exSdks exTargets ⟨.x64, .linux⟩ (coreName "2.l4d2".toList) =
    some ("addons/metamod/bin/linux64".toList, "metamod.2.l4d2.so".toList) :=
  core_packed (s := ⟨"2.l4d2".toList, false⟩) exClean exApart.1 (by decide) (by decide) (by decide +kernel)

example : packed exDir exSdks exTargets ⟨.x64, .linux⟩ "libserver".toList =
    some ("addons/metamod/bin/linuxsteamrt64".toList, "libserver.so".toList) :=
  (loader_packed true exClean exApart.2 (by decide) (by decide)).2

example : ∃ lp cp, packed exDir exSdks exTargets ⟨.x64, .linux⟩ (stem ⟨.x64, .linux⟩ true) = some lp ∧
    packed exDir exSdks exTargets ⟨.x64, .linux⟩ (coreName "2.cs2".toList) = some cp ∧
    libraryPath 8192 (some (bytes "/srv" ++ 47 :: toBytes lp.1 ++ 47 :: toBytes lp.2)) .cs2 =
      .path (bytes "/srv" ++ 47 :: toBytes cp.1 ++ 47 :: toBytes cp.2) :=
  loader_finds_core (s := ⟨"2.cs2".toList, true⟩) (n := "2.cs2") exClean exApart.1 exApart.2 (by decide) (by decide) rfl (by decide +kernel) rfl rfl
    (by decide +kernel)

example : packed exDir exSdks exTargets ⟨.x86, .linux⟩ "server".toList ≠ packed exDir exSdks exTargets ⟨.x64, .linux⟩ "server".toList := by
  intro h
  have hp := (loader_packed (t := ⟨.x86, .linux⟩) (ts := exTargets) false exClean exApart.2 (by decide) (by decide)).2
  have := no_overwriting (by decide) (by decide) (by decide) hp (h ▸ hp)
  exact absurd this.1 (by decide)

example : serverName ⟨.x86, .linux⟩ (some "_i486.so".toList) false = some "server_i486.so".toList :=
  own_name ⟨.x86, .linux⟩ (by decide) ("server_i486".toList, some "_i486.so".toList) (by decide)

example : loaders ⟨.x64, .mac⟩ ≠ [] := (mac_undefined .x64).1

example : ∃ v ∈ vdfs exTargets, ∃ f, packed exDir exSdks exTargets ⟨.x64, .linux⟩ "server".toList = some (f, "server.so".toList) ∧
    v = f ++ "/server".toList :=
  vdf_names_loader exClean exApart.2 (by decide) (by decide)

example : "addons/metamod/bin/server".toList ∈ vdfs [⟨.x64, .linux⟩] :=
  (vdf_dangling (dir := exDir) (sdks := exSdks) (p := .linux) (by decide) (by decide)).1

example : deduce exSdks (built exDir ⟨.x64, .linux⟩ (coreName "2.l4d2".toList)) = some ⟨"2.l4d".toList, false⟩ :=
  deduced_wrong (exDir ⟨.x64, .linux⟩ (coreName "2.l4d2".toList)) (ext .linux) [⟨"2.cs2".toList, true⟩]

#print axioms core_packed
#print axioms loader_packed
#print axioms loader_finds_core
#print axioms backends_apart
#print axioms no_overwriting
#print axioms own_name
#print axioms mac_undefined
#print axioms vdf_names_loader
#print axioms vdf_dangling
#print axioms deduced_wrong

end Verif.Package
