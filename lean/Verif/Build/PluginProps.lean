import Verif.Build.Plugin
import Mathlib.Data.List.Nodup
/-
C110: the package of the sample plugin.
-/
namespace Verif.Plugin
open Verif.Search (Arch Plat)
open Verif.Package (Target Text ext)

/-! ### specification -/

/-- Specification: the words of a file of keys and values. No counterpart in /repo: the engines' `KeyValues`. -/
inductive Tok
  | str (s : Text)
  | op
  | cl
  deriving DecidableEq, Repr

/-- Specification: reading the words; `some a`: within quotes, `a` read so far. No counterpart in /repo: the engines' `KeyValues`. -/
def tok : Option Text → Text → List Tok
  | none, [] => []
  | some a, [] => [.str a]
  | none, c :: r =>
    if c = '"' then tok (some []) r else if c = '{' then .op :: tok none r else if c = '}' then .cl :: tok none r else tok none r
  | some a, c :: r => if c = '"' then .str a :: tok none r else tok (some (a ++ [c])) r

/-- Specification: a name of an SDK. No counterpart in /repo. -/
def Name (s : Text) : Prop := s ≠ [] ∧ '.' ∉ s

/-- Specification: the directory Source 2 games look for libraries in. No counterpart in /repo: the games; as `PLATFORM_SUBDIR_S2` at
loader/gamedll.cpp:63-83. -/
def homeOf (t : Target) : List Text :=
  match t.arch, t.plat with
  | .x64, .windows => ["bin".toList, "win64".toList]
  | .x64, .linux => ["bin".toList, "linuxsteamrt64".toList]
  | .x64, .mac => ["bin".toList, "osx64".toList]
  | .x86, _ => ["bin".toList]

/-! ### helpers -/

private theorem takeWhile_nodot : ∀ (s r : Text), '.' ∉ s → (s ++ '.' :: r).takeWhile (· ≠ '.') = s
  | [], r, _ => by simp
  | c :: s, r, h => by
    have hc : c ≠ '.' := fun e => h (e ▸ List.mem_cons_self)
    rw [List.cons_append, List.takeWhile_cons_of_pos (by simpa using hc),
      takeWhile_nodot s r fun hm => h (List.mem_cons_of_mem _ hm)]

private theorem dropWhile_nodot : ∀ (s r : Text), '.' ∉ s → (s ++ '.' :: r).dropWhile (· ≠ '.') = '.' :: r
  | [], r, _ => by simp
  | c :: s, r, h => by
    have hc : c ≠ '.' := fun e => h (e ▸ List.mem_cons_self)
    rw [List.cons_append, List.dropWhile_cons_of_pos (by simpa using hc)]
    exact dropWhile_nodot s r fun hm => h (List.mem_cons_of_mem _ hm)

private theorem rev_dot (a b : Text) : (a ++ '.' :: b).reverse = b.reverse ++ '.' :: a.reverse := by simp

private theorem splitext_lib (a e : Text) (he : '.' ∉ e) (ha : ∃ c ∈ a, c ≠ '.') : splitext (a ++ '.' :: e) = (a, '.' :: e) := by
  have he' : '.' ∉ e.reverse := fun h => he (List.mem_reverse.mp h)
  unfold splitext
  rw [rev_dot, dropWhile_nodot _ _ he', takeWhile_nodot _ _ he']
  dsimp only
  rw [if_pos, List.reverse_reverse, List.reverse_reverse]
  obtain ⟨c, hc, hne⟩ := ha
  exact List.any_eq_true.mpr ⟨c, List.mem_reverse.mpr hc, by simpa using hne⟩

private theorem ext_dot (p : Plat) : ∃ e, ext p = '.' :: e ∧ '.' ∉ e := by
  cases p
  · exact ⟨"so".toList, by decide, by decide⟩
  · exact ⟨"dylib".toList, by decide, by decide⟩
  · exact ⟨"dll".toList, by decide, by decide⟩

private theorem lib_nondot (plugin : Text) {sdk : Text} (h : Name sdk) : ∃ c ∈ libName plugin sdk, c ≠ '.' := by
  obtain ⟨hne, hd⟩ := h
  cases sdk with
  | nil => exact absurd rfl hne
  | cons c s =>
    exact ⟨c, by simp [libName], fun e => hd (e ▸ List.mem_cons_self)⟩

private theorem splitext_file (plugin : Text) (b : Text × Target) (h : Name b.1) :
    splitext (fileOf plugin b) = (libName plugin b.1, ext b.2.plat) := by
  obtain ⟨e, he, hd⟩ := ext_dot b.2.plat
  unfold fileOf
  rw [he]
  exact splitext_lib _ _ hd (lib_nondot plugin h)

private theorem rel_own (x : Text) (p : List Text) : relpath (x :: p) [x] = p := by
  rw [relpath, if_pos rfl]
  cases p <;> rw [relpath]

/-! ### theorems -/

/-- C110: the SDK is recovered from the name of the library, whatever the name of the plugin. -/
theorem sdk_recovered (plugin : Text) (b : Text × Target) (h : Name b.1) : sdkOf (fileOf plugin b) = b.1 := by
  unfold sdkOf
  rw [splitext_file plugin b h]
  unfold lastPart libName
  dsimp only
  rw [rev_dot, takeWhile_nodot _ _ (fun hm => h.2 (List.mem_reverse.mp hm)), List.reverse_reverse]

private theorem packages_absent (plugin : Text) (x : Text) : ∀ (l : List (Text × Target)) (d : Text → Option (List Text)),
    (∀ b ∈ l, b.1 ≠ x) → packages plugin l d x = d x
  | [], d, _ => rfl
  | (s, t) :: l, d, h => by
    rw [packages, packages_absent plugin x l _ fun b hb => h b (List.mem_cons_of_mem _ hb)]
    exact if_neg fun e => h (s, t) List.mem_cons_self e.symm

private theorem packages_last (plugin : Text) (x : Text) (t : Target) (r : List (Text × Target)) (hr : ∀ b ∈ r, b.1 ≠ x) :
    ∀ (l : List (Text × Target)) (d : Text → Option (List Text)), packages plugin (l ++ (x, t) :: r) d x = some (binPath plugin x t)
  | [], d => by
    rw [List.nil_append, packages, packages_absent plugin x r _ hr]
    exact if_pos rfl
  | (s, u) :: l, d => by
    rw [List.cons_append, packages]
    exact packages_last plugin x t r hr l _

private theorem copied_last (plugin : Text) {x : Text} {t : Target} {l r : List (Text × Target)} (hr : ∀ b ∈ r, b.1 ≠ x) (hx : Name x) (u : Target) :
    copied plugin (l ++ (x, t) :: r) (x, u) = some (binPath plugin x t ++ [plugin ++ ext u.plat]) := by
  unfold copied
  rw [sdk_recovered plugin (x, u) hx, splitext_file plugin (x, u) hx, packages_last plugin x t r hr]
  rfl

private theorem copied_own (plugin : Text) {l : List (Text × Target)} (hn : (l.map Prod.fst).Nodup) {b : Text × Target} (hb : b ∈ l)
    (hx : Name b.1) : copied plugin l b = some (binPath plugin b.1 b.2 ++ [plugin ++ ext b.2.plat]) := by
  obtain ⟨a, r, rfl⟩ := List.append_of_mem hb
  obtain ⟨x, t⟩ := b
  refine copied_last plugin (fun c hc e => ?_) hx t
  rw [List.map_append, List.map_cons, List.nodup_append] at hn
  exact (List.nodup_cons.mp hn.2.1).1 (List.mem_map.mpr ⟨c, hc, e⟩)

/-- C110: if each SDK is built for one target, the library of the plugin is put where the file `.vdf` in the same package says, which is the
directory Source 2 games use; the extension is that of the platform. -/
theorem plugin_where_named (plugin : Text) {l : List (Text × Target)} (hn : (l.map Prod.fst).Nodup) {b : Text × Target} (hb : b ∈ l)
    (hx : Name b.1) :
    ∃ d, vdfFile plugin b.1 b.2 = d ++ [plugin] ∧ d = "addons".toList :: plugin :: homeOf b.2 ∧
      copied plugin l b = some (b.1 :: d ++ [plugin ++ ext b.2.plat]) := by
  refine ⟨"addons".toList :: plugin :: homeOf b.2, ?_, rfl, ?_⟩
  · unfold vdfFile binPath
    rw [List.cons_append, rel_own]
    obtain ⟨x, ⟨a, p⟩⟩ := b
    cases a <;> cases p <;> rfl
  · rw [copied_own plugin hn hb hx]
    obtain ⟨x, ⟨a, p⟩⟩ := b
    cases a <;> cases p <;> rfl

/-- C110: if each SDK is built for one target, no two of the files in the package have the same path, and none is missing. -/
theorem outputs_distinct (plugin : Text) {l : List (Text × Target)} (hn : (l.map Prod.fst).Nodup) (hx : ∀ b ∈ l, Name b.1) :
    (outputs plugin l).Nodup ∧ none ∉ outputs plugin l := by
  have hcopy : l.map (copied plugin l) = l.map fun b => some (binPath plugin b.1 b.2 ++ [plugin ++ ext b.2.plat]) :=
    List.map_congr_left fun b hb => copied_own plugin hn hb (hx b hb)
  have hinj : ∀ a ∈ l, ∀ b ∈ l, a.1 = b.1 → a = b := fun a ha b hb e => List.inj_on_of_nodup_map hn ha hb e
  have hl : l.Nodup := List.Nodup.of_map _ hn
  unfold outputs
  rw [hcopy]
  constructor
  · rw [List.nodup_append]
    refine ⟨?_, ?_, ?_⟩
    · refine List.Nodup.map_on (fun a ha b hb e => hinj a ha b hb ?_) hl
      exact (List.cons.inj (Option.some.inj e)).1
    · refine List.Nodup.map_on (fun a ha b hb e => hinj a ha b hb ?_) hl
      have := Option.some.inj e
      unfold binPath at this
      simp only [List.cons_append] at this
      exact (List.cons.inj this).1
    · intro x hx' y hy e
      obtain ⟨a, _, rfl⟩ := List.mem_map.mp hx'
      obtain ⟨b, _, rfl⟩ := List.mem_map.mp hy
      have := congrArg List.length (Option.some.inj e)
      simp only [vdfPath, binPath, List.length_append, List.length_cons, List.length_nil] at this
      omega
  · intro h
    rw [List.mem_append, List.mem_map, List.mem_map] at h
    rcases h with ⟨_, _, h⟩ | ⟨_, _, h⟩ <;> exact absurd h (by simp)

/-- C110, finding: if an SDK is built for two targets of one platform, both libraries of the plugin are copied to the same path: that of the
target that comes last. -/
theorem two_targets_collide (plugin : Text) {x : Text} {t u : Target} {l m r : List (Text × Target)} (hr : ∀ b ∈ r, b.1 ≠ x) (hx : Name x)
    (hp : t.plat = u.plat) :
    copied plugin (l ++ (x, t) :: m ++ (x, u) :: r) (x, t) = copied plugin (l ++ (x, t) :: m ++ (x, u) :: r) (x, u) ∧
      copied plugin (l ++ (x, t) :: m ++ (x, u) :: r) (x, t) = some (binPath plugin x u ++ [plugin ++ ext u.plat]) ∧
      ¬ (outputs plugin (l ++ (x, t) :: m ++ (x, u) :: r)).Nodup := by
  have h1 := copied_last plugin (l := l ++ (x, t) :: m) (t := u) hr hx t
  have h2 := copied_last plugin (l := l ++ (x, t) :: m) (t := u) hr hx u
  rw [hp] at h1
  refine ⟨h1.trans h2.symm, h1, fun hn => ?_⟩
  unfold outputs at hn
  have hm := (List.nodup_append.mp hn).1
  rw [List.map_append, List.nodup_append] at hm
  refine hm.2.2 (some (vdfPath plugin x)) ?_ (some (vdfPath plugin x)) ?_ rfl
  · exact List.mem_map.mpr ⟨(x, t), by simp, rfl⟩
  · exact List.mem_map.mpr ⟨(x, u), by simp, rfl⟩

private theorem tok_quoted : ∀ (s r a : Text), '"' ∉ s → tok (some a) (s ++ '"' :: r) = .str (a ++ s) :: tok none r
  | [], r, a, _ => by simp [tok]
  | c :: s, r, a, h => by
    have hc : c ≠ '"' := fun e => h (e ▸ List.mem_cons_self)
    rw [List.cons_append, tok, if_neg hc, tok_quoted s r _ fun hm => h (List.mem_cons_of_mem _ hm), List.append_assoc]
    rfl

/-- C110: reading the file `.vdf` gives back the alias and the file it was written with, if they contain no quotes. -/
theorem vdf_read_back {al file : Text} (ha : '"' ∉ al) (hf : '"' ∉ file) :
    tok none (vdfContent al file) =
      [.str "Metamod Plugin".toList, .op, .str "alias".toList, .str al, .str "file".toList, .str file, .cl] := by
  have h0 : vdfContent al file = '"' :: ("Metamod Plugin".toList ++ '"' :: '\n' :: '{' :: '\n' :: '\t' :: '"' :: ("alias".toList ++ '"' :: '\t' ::
      '"' :: (al ++ '"' :: '\n' :: '\t' :: '"' :: ("file".toList ++ '"' :: '\t' :: '"' :: (file ++ '"' :: '\n' :: ['}']))))) := by
    unfold vdfContent
    rw [show "\"Metamod Plugin\"\n".toList = '"' :: ("Metamod Plugin".toList ++ ['"', '\n']) from by decide,
      show "{\n".toList = ['{', '\n'] from by decide, show "\t\"alias\"\t\"".toList = '\t' :: '"' :: ("alias".toList ++ ['"', '\t', '"']) from by decide,
      show "\t\"file\"\t\"".toList = '\t' :: '"' :: ("file".toList ++ ['"', '\t', '"']) from by decide,
      show "\"\n".toList = ['"', '\n'] from by decide, show "}".toList = ['}'] from by decide]
    simp only [List.append_assoc, List.cons_append, List.nil_append]
  have q : ∀ r, tok none ('"' :: r) = tok (some []) r := fun r => by rw [tok, if_pos rfl]
  have w : ∀ c r, c ≠ '"' → c ≠ '{' → c ≠ '}' → tok none (c :: r) = tok none r := fun c r h1 h2 h3 => by
    rw [tok, if_neg h1, if_neg h2, if_neg h3]
  have o : ∀ r, tok none ('{' :: r) = .op :: tok none r := fun r => by rw [tok, if_neg (by decide), if_pos rfl]
  have n : ∀ r, tok none ('\n' :: r) = tok none r := fun r => w _ r (by decide) (by decide) (by decide)
  have t : ∀ r, tok none ('\t' :: r) = tok none r := fun r => w _ r (by decide) (by decide) (by decide)
  rw [h0, q, tok_quoted _ _ _ (by decide), n, o, n, t, q, tok_quoted _ _ _ (by decide), t, q, tok_quoted _ _ _ ha, n, t, q,
    tok_quoted _ _ _ (by decide), t, q, tok_quoted _ _ _ hf, n]
  rfl

/-! ### examples -/

private theorem cs2_name : Name "cs2".toList := ⟨by decide, by decide⟩
private theorem dota_name : Name "dota".toList := ⟨by decide, by decide⟩

example : sdkOf "sample_mm.cs2.so".toList = "cs2".toList := sdk_recovered "sample_mm".toList ("cs2".toList, ⟨.x64, .linux⟩) cs2_name

/-- Specification: two SDKs. No counterpart in /repo. -/
private def exList : List (Text × Target) := [("cs2".toList, ⟨.x64, .linux⟩), ("dota".toList, ⟨.x64, .linux⟩)]

example : copied "sample_mm".toList exList ("cs2".toList, ⟨.x64, .linux⟩) =
    some ["cs2".toList, "addons".toList, "sample_mm".toList, "bin".toList, "linuxsteamrt64".toList, "sample_mm.so".toList] := by
  obtain ⟨d, _, rfl, h⟩ := plugin_where_named "sample_mm".toList (l := exList) (by decide) (b := ("cs2".toList, ⟨.x64, .linux⟩)) (by decide) cs2_name
  exact h

example : (outputs "sample_mm".toList exList).Nodup :=
  (outputs_distinct "sample_mm".toList (l := exList) (by decide) (by
    intro b hb
    simp only [exList, List.mem_cons, List.not_mem_nil, or_false] at hb
    rcases hb with rfl | rfl
    · exact cs2_name
    · exact dota_name)).1

example : copied "sample_mm".toList [("cs2".toList, ⟨.x86, .linux⟩), ("cs2".toList, ⟨.x64, .linux⟩)] ("cs2".toList, ⟨.x86, .linux⟩) =
    some (binPath "sample_mm".toList "cs2".toList ⟨.x64, .linux⟩ ++ ["sample_mm.so".toList]) :=
  (two_targets_collide "sample_mm".toList (l := []) (m := []) (r := []) (t := ⟨.x86, .linux⟩) (u := ⟨.x64, .linux⟩) (by simp) cs2_name rfl).2.1

example : tok none (vdfContent "sample".toList "addons/sample_mm/bin/linuxsteamrt64/sample_mm".toList) =
    [.str "Metamod Plugin".toList, .op, .str "alias".toList, .str "sample".toList, .str "file".toList,
      .str "addons/sample_mm/bin/linuxsteamrt64/sample_mm".toList, .cl] :=
  vdf_read_back (by decide) (by decide)

#print axioms sdk_recovered
#print axioms plugin_where_named
#print axioms outputs_distinct
#print axioms two_targets_collide
#print axioms vdf_read_back

end Verif.Plugin
