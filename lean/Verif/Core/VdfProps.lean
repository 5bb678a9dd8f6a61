import Verif.Core.Vdf
import Verif.Core.PluginFileProps
import Verif.Util.RelatizeProps
/-
C58: plugins named by .vdf files.
-/
namespace Verif.PFile
open Verif.C Verif.Util

/-! ### Spec -/

/-- The name ends in ".vdf", in small or capital letters. -/
def VdfName (n : List Byte) : Prop := ∃ a v d f, n = a ++ [46, v, d, f] ∧ (v = 86 ∨ v = 118) ∧ (d = 68 ∨ d = 100) ∧ (f = 70 ∨ f = 102)

/-- The entry of the directory as a path relative to the game directory (`relatize` is C36). -/
def NameOf (D : Disk) (mp : Nat) (modPath dir n rel : List Byte) : Prop :=
  relatize D.pathExists (2 * mp) modPath (slashed ((dir ++ [47] ++ n).take (mp - 1))) = .ok (some rel)

/-- The alias of a file, if it has one. -/
def withAlias {σ ε : Type} (W : World σ ε) (a f : List Byte) (w : σ) : σ := if a = [] then w else W.setAlias a f w

/-- The entries carried out in order: those that end in ".vdf" and name a file set the alias and load that file.  Names are cut to the arrays. -/
inductive VExec {σ ε : Type} (W : World σ ε) (D : Disk) (mp : Nat) (modPath dir : List Byte) : List (List Byte) → Prog σ → Prog σ → Prop
  | nil (p : Prog σ) : VExec W D mp modPath dir [] p p
  | other {n : List Byte} {ns : List (List Byte)} {p q : Prog σ} : ¬ VdfName n → VExec W D mp modPath dir ns p q → VExec W D mp modPath dir (n :: ns) p q
  | unread {n rel : List Byte} {ns : List (List Byte)} {p q : Prog σ} : VdfName n → NameOf D mp modPath dir n rel → (∀ f al, D.kv rel ≠ some (some f, al)) →
      VExec W D mp modPath dir ns p q → VExec W D mp modPath dir (n :: ns) p q
  | load {n rel f path : List Byte} {al : Option (List Byte)} {ns : List (List Byte)} {w w' : σ} {t k : Nat} {ok already : Bool} {q : Prog σ} : VdfName n → NameOf D mp modPath dir n rel →
      D.kv rel = some (some f, al) → PathOf modPath D.stat 255 (f.take 254) path → W.load path (withAlias W ((al.getD []).take 31) (f.take 254) w) = .ok (w', ok, already) →
      VExec W D mp modPath dir ns ⟨w', t + (if ok = true ∧ already = false then 1 else 0), k + (if already = true then 1 else 0)⟩ q → VExec W D mp modPath dir (n :: ns) ⟨w, t, k⟩ q

/-- The arrays as declared (core/metamod.cpp:1202, 1231). -/
structure Arrays.Ok (A : Arrays) (mp : Nat) : Prop where
  file : A.file.length = 255
  alias : A.alias.length = 32
  full : A.full.length = 255
  path : A.path.length = mp
  pos : 1 ≤ mp

/-- The reader answers strings. -/
def Strings (kv : Kv) : Prop := ∀ rel f al, kv rel = some (some f, al) → 0 ∉ f ∧ 0 ∉ al.getD []

/-! ### Lemmas -/

theorem forall_byte {P : Byte → Prop} (h : ∀ n : Fin 256, P (UInt8.ofFin n)) (c : Byte) : P c := by
  have := h c.toFin
  simpa using this

theorem lower_dot (c : Byte) : lower c = 46 ↔ c = 46 := forall_byte (P := fun c => lower c = 46 ↔ c = 46) (by decide +kernel) c
theorem lower_v (c : Byte) : lower c = 118 ↔ c = 86 ∨ c = 118 := forall_byte (P := fun c => lower c = 118 ↔ c = 86 ∨ c = 118) (by decide +kernel) c
theorem lower_d (c : Byte) : lower c = 100 ↔ c = 68 ∨ c = 100 := forall_byte (P := fun c => lower c = 100 ↔ c = 68 ∨ c = 100) (by decide +kernel) c
theorem lower_f (c : Byte) : lower c = 102 ↔ c = 70 ∨ c = 102 := forall_byte (P := fun c => lower c = 102 ↔ c = 70 ∨ c = 102) (by decide +kernel) c

theorem caseEq_vdf (e : List Byte) : caseEq e [46, 118, 100, 102] = true ↔ ∃ v d f, e = [46, v, d, f] ∧ (v = 86 ∨ v = 118) ∧ (d = 68 ∨ d = 100) ∧ (f = 70 ∨ f = 102) := by
  have e0 : ([46, 118, 100, 102] : List Byte).map lower = [46, 118, 100, 102] := by decide
  unfold caseEq
  rw [e0, beq_iff_eq]
  constructor
  · intro h
    have hl : e.length = 4 := by simpa using congrArg List.length h
    match e, hl, h with
    | [a, b, c, d], _, h =>
      simp only [List.map_cons, List.map_nil, List.cons.injEq, and_true] at h
      obtain ⟨h1, h2, h3, h4⟩ := h
      rw [lower_dot] at h1
      subst h1
      exact ⟨b, c, d, rfl, (lower_v b).1 h2, (lower_d c).1 h3, (lower_f d).1 h4⟩
  · rintro ⟨v, d, f, rfl, hv, hd, hf⟩
    simp only [List.map_cons, List.map_nil, (lower_v v).2 hv, (lower_d d).2 hd, (lower_f f).2 hf]
    rfl

/-- C58: exactly the names that end in ".vdf" are taken. -/
theorem takes_spec {n : List Byte} (h0 : 0 ∉ n) : ∃ b, takes (n ++ [0]) = .ok b ∧ (b = true ↔ VdfName n) := by
  have hs : IsStr (n ++ [0]) n := ⟨[], rfl, h0⟩
  unfold takes
  rw [cstr_of hs]
  simp only [bind, Except.bind]
  split
  · next h =>
    refine ⟨false, rfl, (fun h => nomatch h), ?_⟩
    rintro ⟨a, v, d, f, rfl, -⟩
    rcases h with h | h <;> exact absurd (congrArg List.length h) (by simp)
  · rw [strlen_of hs]
    dsimp only
    split
    · next h =>
      refine ⟨false, rfl, (fun h => nomatch h), ?_⟩
      rintro ⟨a, v, d, f, rfl, -⟩
      simp at h; omega
    · next h =>
      have hc : cstr (n ++ [0]) (n.length - 4) = .ok (n.drop (n.length - 4)) := by
        have := cstr_at (a := n.take (n.length - 4)) (s := n.drop (n.length - 4)) (r := []) (fun h => h0 (List.mem_of_mem_drop h))
        simp only [List.length_take] at this
        rw [List.take_append_drop, Nat.min_eq_left (by omega)] at this
        exact this
      rw [hc]
      refine ⟨_, rfl, ?_⟩
      rw [caseEq_vdf]
      constructor
      · rintro ⟨v, d, f, e, hv, hd, hf⟩
        exact ⟨n.take (n.length - 4), v, d, f, by rw [← e, List.take_append_drop], hv, hd, hf⟩
      · rintro ⟨a, v, d, f, rfl, hv, hd, hf⟩
        refine ⟨v, d, f, ?_, hv, hd, hf⟩
        rw [List.length_append]
        simp

theorem format_str {b : Buf} {n : Nat} {t : List Byte} (hn : 1 ≤ n) (hb : n ≤ b.length) (h0 : 0 ∉ t) : ∃ b', (∃ k, format b n (some t) [] = .ok (b', k)) ∧ IsStr b' (t.take (n - 1)) := by
  obtain ⟨b', h1, h2⟩ := format_spec hn hb t []
  exact ⟨b', ⟨_, h1⟩, _, h2, take_nz h0⟩

section
variable {σ ε : Type} {W : World σ ε} {D : Disk} {A : Arrays} {mp : Nat} {modPath dir : List Byte}

theorem vdfName_spec (hA : A.Ok mp) (hd : 0 ∉ dir) {n : List Byte} (hn : 0 ∉ n) :
    vdfName (ε := ε) D A mp modPath dir n = (do
      let r ← liftB (relatize D.pathExists (2 * mp) modPath (slashed ((dir ++ [47] ++ n).take (mp - 1))))
      match r with
      | none => .error .uninit
      | some rel => .ok rel) := by
  obtain ⟨out', h1, -, r, h2⟩ := fmtPath_spec (ε := ε) (out := A.path) hA.pos (by rw [hA.path]; exact Nat.le_refl _) (dir ++ 47 :: n)
  have e : dir ++ 47 :: n = dir ++ [47] ++ n := by simp
  have hz : 0 ∉ slashed ((dir ++ [47] ++ n).take (mp - 1)) := slashed_nz (take_nz (by simp [hd, hn]))
  unfold vdfName
  rw [h1]
  rw [e] at h2
  simp only [bind, Except.bind, cstr_of ⟨r, h2, hz⟩, liftB]
  cases relatize D.pathExists (2 * mp) modPath (slashed ((dir ++ [47] ++ n).take (mp - 1))) with
  | error x => rfl
  | ok o => cases o <;> rfl

theorem vdfName_ok (hA : A.Ok mp) (hd : 0 ∉ dir) {n rel : List Byte} (hn : 0 ∉ n) : vdfName (ε := ε) D A mp modPath dir n = .ok rel ↔ NameOf D mp modPath dir n rel := by
  rw [vdfName_spec hA hd hn]
  unfold NameOf
  cases relatize D.pathExists (2 * mp) modPath (slashed ((dir ++ [47] ++ n).take (mp - 1))) with
  | error x => simp [liftB, bind, Except.bind]
  | ok o => cases o <;> simp [liftB, bind, Except.bind]

/-- What `ProcessVDF` does for a file that names a plugin. -/
theorem processVdf_load (hA : A.Ok mp) (hm : 0 ∉ modPath) (hk : Strings D.kv) {rel f : List Byte} {al : Option (List Byte)} (e : D.kv rel = some (some f, al)) (hf : f ≠ []) (w : σ) :
    (∃ path, PathOf modPath D.stat 255 (f.take 254) path ∧
      processVdf W D.kv modPath D.stat A.file A.alias A.full rel w = liftE (W.load path (withAlias W ((al.getD []).take 31) (f.take 254) w))) ∨
    ((¬ ∃ path, PathOf modPath D.stat 255 (f.take 254) path) ∧ processVdf W D.kv modPath D.stat A.file A.alias A.full rel w = .error .format) := by
  obtain ⟨z1, z2⟩ := hk rel f al e
  obtain ⟨fb, ⟨k1, h1⟩, s1⟩ := format_str (b := A.file) (n := 255) (by decide) (by rw [hA.file]; decide) z1
  obtain ⟨ab, ⟨k2, h2⟩, s2⟩ := format_str (b := A.alias) (n := 32) (by decide) (by rw [hA.alias]; decide) z2
  have hp : providerVdf D.kv rel A.file A.alias = .ok (some (fb, ab)) := by
    unfold providerVdf
    rw [e]
    simp only [bind, Except.bind, h1, h2]
  have ha : vdfAlias W fb ab w = .ok (withAlias W ((al.getD []).take 31) (f.take 254) w) := by
    have c1 := cstr_of s1
    have c2 := cstr_of s2
    unfold vdfAlias withAlias
    obtain ⟨r, rfl, hz⟩ := s2
    cases hx : (al.getD []).take (32 - 1) with
    | nil =>
      have : rd ([] ++ 0 :: r) 0 = .ok (0 : Byte) := rfl
      simp only [bind, Except.bind, this, liftB]
      simp
    | cons c x =>
      have : rd (c :: x ++ 0 :: r) 0 = .ok c := rfl
      have hc : c ≠ 0 := fun h => hz (by simp [hx, h])
      simp only [hx] at c2
      simp only [bind, Except.bind, this, liftB, c1, c2]
      simp [hc]
  have hne : f.take 254 ≠ [] := by
    cases f with
    | nil => exact absurd rfl hf
    | cons c f => simp
  by_cases hfmt : Absolute (f.take 254) → 37 ∉ f.take 254
  · refine .inl ?_
    obtain ⟨out, path, g1, -, g3, g4⟩ := getFullPath_spec (ε := ε) (stat := D.stat) s1 hne hm (n := 255) (out := A.full) (by decide) (by rw [hA.full]; decide) hfmt
    refine ⟨path, g4, ?_⟩
    unfold processVdf
    simp only [hp, bind, Except.bind, liftB, ha, g1, cstr_of g3]
  · refine .inr ?_
    have ha' : Absolute (f.take 254) := Classical.byContradiction fun h => hfmt fun h' => absurd h' h
    have hp' : 37 ∈ f.take 254 := Classical.byContradiction fun h => hfmt fun _ => h
    refine ⟨?_, ?_⟩
    · rintro ⟨path, h⟩
      cases h <;> contradiction
    · unfold processVdf
      simp only [hp, bind, Except.bind, liftB, ha, absolute_is_format s1 ha' hp']

theorem processVdf_unread {rel : List Byte} (h : ∀ f al, D.kv rel ≠ some (some f, al)) (w : σ) :
    processVdf W D.kv modPath D.stat A.file A.alias A.full rel w = .ok (w, false, false) := by
  have : providerVdf D.kv rel A.file A.alias = .ok none := by
    unfold providerVdf
    split
    · rfl
    · rfl
    · next f al e => exact absurd e (h f al)
  unfold processVdf
  rw [this]
  rfl

theorem countVdf_eq (w w' : σ) (t k : Nat) (ok al : Bool) :
    (Prog.mk w t k).countVdf (w', ok, al) = ⟨w', t + (if ok = true ∧ al = false then 1 else 0), k + (if al = true then 1 else 0)⟩ := by
  cases ok <;> cases al <;> rfl

/-- C58, the part that holds: if no file names the empty string, the loop over the directory carries out exactly the entries that end in ".vdf", in order, with the same plugins and the
same two counts.  Missing: an empty name (`vdf_empty_depends`); names are cut to the arrays (`vdf_long_cut`); a plugin that failed before and fails again counts as loaded before
(`vdf_failed_skipped`). -/
theorem dir_spec_partial (hA : A.Ok mp) (hm : 0 ∉ modPath) (hd : 0 ∉ dir) (hk : Strings D.kv) (hne : ∀ rel al, D.kv rel ≠ some (some [], al)) {ns : List (List Byte)} (hns : ∀ n ∈ ns, 0 ∉ n)
    {p q : Prog σ} : dirLoop W D A mp modPath dir ns p = .ok q ↔ VExec W D mp modPath dir ns p q := by
  induction ns generalizing p with
  | nil =>
    rw [dirLoop]
    constructor
    · intro h; cases h; exact .nil _
    · intro h; cases h; rfl
  | cons n ns ih =>
    have hn := hns n (by simp)
    have ih := fun p => ih (fun x hx => hns x (.tail _ hx)) (p := p)
    obtain ⟨b, e1, e2⟩ := takes_spec hn
    rw [dirLoop, e1]
    simp only [liftB, bind, Except.bind]
    cases b with
    | false =>
      have hv : ¬ VdfName n := fun h => nomatch e2.2 h
      rw [if_neg (by simp), ih p]
      constructor
      · intro h; exact .other hv h
      · intro h
        cases h with
        | other _ h => exact h
        | unread h' => exact absurd h' hv
        | load h' => exact absurd h' hv
    | true =>
      have hv : VdfName n := e2.1 rfl
      rw [if_pos rfl]
      cases er : vdfName (ε := ε) D A mp modPath dir n with
      | error x =>
        have hno : ∀ rel, ¬ NameOf D mp modPath dir n rel := fun rel h => by
          have := (vdfName_ok (ε := ε) hA hd hn).2 h
          rw [er] at this; cases this
        constructor
        · intro h; cases h
        · intro h
          cases h with
          | other h' _ => exact absurd hv h'
          | unread _ h' => exact absurd h' (hno _)
          | load _ h' => exact absurd h' (hno _)
      | ok rel =>
        have hrel : NameOf D mp modPath dir n rel := (vdfName_ok hA hd hn).1 er
        have huniq : ∀ rel', NameOf D mp modPath dir n rel' → rel' = rel := fun rel' h => by
          unfold NameOf at h hrel
          rw [h] at hrel; cases hrel; rfl
        dsimp only
        by_cases hu : ∀ f al, D.kv rel ≠ some (some f, al)
        · rw [processVdf_unread hu]
          dsimp only
          have : p.countVdf (p.w, false, false) = p := rfl
          rw [this, ih p]
          constructor
          · intro h; exact .unread hv hrel hu h
          · intro h
            cases h with
            | other h' _ => exact absurd hv h'
            | unread _ _ _ h => exact h
            | load _ h' h'' _ _ _ => cases huniq _ h'; exact absurd h'' (hu _ _)
        · obtain ⟨f, al, e⟩ : ∃ f al, D.kv rel = some (some f, al) := Classical.byContradiction fun h => hu fun f al e => h ⟨f, al, e⟩
          have hf : f ≠ [] := by rintro rfl; exact hne _ _ e
          obtain ⟨w, t, k⟩ := p
          rcases processVdf_load (W := W) hA hm hk e hf w with ⟨path, hp, ep⟩ | ⟨hnp, ep⟩
          · rw [ep]
            constructor
            · intro h
              cases hl : W.load path (withAlias W ((al.getD []).take 31) (f.take 254) w) with
              | error x => rw [hl] at h; cases h
              | ok r =>
                obtain ⟨w', ok, already⟩ := r
                rw [hl] at h
                simp only [liftE] at h
                rw [countVdf_eq, ih] at h
                exact .load hv hrel e hp hl h
            · intro h
              cases h with
              | other h' _ => exact absurd hv h'
              | unread _ h' h'' _ => cases huniq _ h'; exact absurd e (h'' _ _)
              | load _ h' h'' hp' hl h =>
                cases huniq _ h'
                rw [e] at h''
                cases h''
                cases hp.unique hp'
                rw [hl]
                simp only [liftE]
                rw [countVdf_eq, ih]
                exact h
          · rw [ep]
            constructor
            · intro h; cases h
            · intro h
              cases h with
              | other h' _ => exact absurd hv h'
              | unread _ h' h'' _ => cases huniq _ h'; exact absurd e (h'' _ _)
              | load _ h' h'' hp' hl h =>
                cases huniq _ h'
                rw [e] at h''
                cases h''
                exact absurd ⟨_, hp'⟩ hnp

/-! ### the name of an entry -/

theorem relatize_some (ex : List Byte → Bool) {m : Nat} {p1 p2 : List Byte} (h1 : p1.head? = some 47) (h2 : p2.head? = some 47) : ∃ t, relatize ex m p1 p2 = .ok (some t) := by
  have h : ∃ t, relatize2 p1 p2 = .ok (some t) := by
    unfold relatize2 splitPath
    rw [if_pos h1, if_pos h2]
    simp
  obtain ⟨t, h⟩ := h
  unfold relatize
  rw [h]
  split
  · split <;> exact ⟨_, rfl⟩
  · exact ⟨_, rfl⟩

theorem entry_head {dir n : List Byte} (hd : dir.head? = some 47) (hmp : 2 ≤ mp) : (slashed ((dir ++ [47] ++ n).take (mp - 1))).head? = some 47 := by
  cases dir with
  | nil => cases hd
  | cons c d =>
    cases hd
    obtain ⟨k, hk⟩ : ∃ k, mp - 1 = k + 1 := ⟨mp - 2, by omega⟩
    rw [hk]
    simp [slashed]

theorem slashed_id {s : List Byte} (h : 92 ∉ s) : slashed s = s := by
  unfold slashed
  induction s with
  | nil => rfl
  | cons c s ih =>
    have hc : c ≠ 92 := fun e => h (by simp [e])
    rw [List.map_cons, if_neg hc, ih fun hm => h (.tail _ hm)]

/-- C58: an entry of the directory is read under a name that, from the game directory, leads to that entry. -/
theorem vdf_name_resolves (ex : List Byte → Bool) (kv : Kv) (st : List Byte → Bool) {n : List Byte} (h1 : Clean modPath) (h2 : Clean dir) (d1 : ¬ [47, 47] <:+: modPath) (d2 : ¬ [47, 47] <:+: dir ++ [47])
    (hv : VdfName n) (hn : 47 ∉ n) (hb : 92 ∉ dir ++ n) (hs : dir.length + 1 + n.length < mp) (hm : 3 * (modPath.length + 1) + (dir.length + 1 + n.length) + 3 ≤ 2 * mp) :
    ∃ rel, NameOf ⟨kv, st, ex⟩ mp modPath dir n rel ∧ resolve (comps modPath) rel = comps dir ++ [n] := by
  have hne : n ≠ [] := by rintro rfl; obtain ⟨a, v, d, f, e, -⟩ := hv; simp at e
  have hlen : 4 ≤ n.length := by obtain ⟨a, v, d, f, rfl, -⟩ := hv; simp
  have hcn : comps n = [n] := by unfold comps; rw [pieces_noslash hn]; simp [hne]
  have ec : comps (dir ++ [47] ++ n) = comps dir ++ [n] := by
    rw [show dir ++ [47] ++ n = dir ++ 47 :: n by simp, comps_append, hcn]
  have hdots : n ≠ [46] ∧ n ≠ [46, 46] := ⟨(by rintro rfl; simp at hlen), (by rintro rfl; simp at hlen)⟩
  have hc2 : Clean (dir ++ [47] ++ n) := by
    refine ⟨?_, ?_⟩
    · cases dir with
      | nil => cases h2.abs
      | cons c d => exact h2.abs
    · rw [ec]
      intro p hp
      rcases List.mem_append.1 hp with hp | hp
      · exact h2.nodot p hp
      · rw [List.mem_singleton.1 hp]; exact hdots
  have hd2 : ¬ [47, 47] <:+: dir ++ [47] ++ n := by
    rintro ⟨x, y, e⟩
    have e' : x ++ (47 :: 47 :: y) = (dir ++ [47]) ++ n := by rw [← e]; simp
    rcases List.append_eq_append_iff.1 e' with ⟨u, hu1, hu2⟩ | ⟨u, hu1, hu2⟩
    · match u, hu1, hu2 with
      | [], hu1, hu2 => exact hn (by rw [← List.nil_append n, ← hu2]; simp)
      | [a], hu1, hu2 =>
        simp only [List.cons_append, List.nil_append, List.cons.injEq] at hu2
        exact hn (by rw [← hu2.2]; simp)
      | a :: b :: u, hu1, hu2 =>
        simp only [List.cons_append, List.cons.injEq] at hu2
        obtain ⟨rfl, rfl, hu2⟩ := hu2
        exact d2 ⟨x, u, by rw [hu1]; simp⟩
    · exact hn (by rw [hu2]; simp)
  have hlast : (dir ++ [47] ++ n).getLast? ≠ some 47 := by
    rw [List.getLast?_append]
    cases hg : n.getLast? with
    | none => rw [List.getLast?_eq_none_iff] at hg; exact absurd hg hne
    | some c =>
      intro h
      simp at h
      subst h
      exact hn (List.mem_of_getLast? hg)
  obtain ⟨t, k1, k2⟩ := relatize_resolves_partial ex h1 hc2 d1 hd2 (.inr (.inr hlast)) (m := 2 * mp) (by simp; omega)
  refine ⟨t, ?_, by rw [k2, ec]⟩
  unfold NameOf
  rw [List.take_of_length_le (by simp; omega), slashed_id (by simpa using hb)]
  exact k1

/-- C58: with absolute paths the name of every entry is written before it is read. -/
theorem vdf_name_written (hmp : 2 ≤ mp) (hm : modPath.head? = some 47) (hd : dir.head? = some 47) (n : List Byte) : ∃ rel, NameOf D mp modPath dir n rel := by
  obtain ⟨t, h⟩ := relatize_some D.pathExists (m := 2 * mp) hm (entry_head (n := n) hd hmp)
  exact ⟨t, h⟩

/-! ### no overrun -/

theorem relPath_ok {s out : List Byte} {stat : List Byte → Bool} {n : Nat} (ext : Bool) (hm : 0 ∉ modPath) (h0 : 0 ∉ s) (hn : 1 ≤ n) (hb : n ≤ out.length) :
    ∃ out' path, relPath (ε := ε) modPath stat s ext out n = .ok out' ∧ IsStr out' path := by
  have hj : ∀ e : List Byte, 0 ∉ e → 0 ∉ joined modPath s e := by
    intro e he
    simp [joined, hm, h0, he]
  unfold relPath
  obtain ⟨o1, f1, f2, r1, e1⟩ := fmtPath_spec (ε := ε) hn hb (joined modPath s (if ext then [] else x64Ext))
  have st : IsStr o1 _ := ⟨r1, e1, slashed_nz (take_nz (hj _ (by cases ext <;> decide)))⟩
  rw [f1]
  simp only [bind, Except.bind, cstr_of st, liftB]
  obtain ⟨o2, g1, g2, r2, e2⟩ := fmtPath_spec (ε := ε) (out := o1) hn (by omega) (joined modPath s soExt)
  rw [g1]
  generalize (!ext && _) = b
  cases b with
  | true => exact ⟨o2, _, rfl, r2, e2, slashed_nz (take_nz (hj _ (by decide)))⟩
  | false => exact ⟨o1, _, rfl, st⟩

/-- Finding: for a file that names the empty string, whether the path is empty or below the game directory depends on bytes that were never written (core/metamod.cpp:1142, 1202). -/
theorem empty_by_junk {stat : List Byte → Bool} {out r : List Byte} {n : Nat} (hn : 1 ≤ n) (hb : n ≤ out.length) :
    (∃ out', getFullPath (ε := ε) modPath stat (0 :: 58 :: 92 :: r) out n = .ok out' ∧ IsStr out' []) ∧
    (∀ c d, c ≠ 58 ∨ d ≠ 92 → getFullPath (ε := ε) modPath stat (0 :: c :: d :: r) out n = relPath modPath stat [] false out n) := by
  constructor
  · obtain ⟨b', h1, h2⟩ := format_spec hn hb [] []
    refine ⟨b', ?_, ⟨_, by simpa using h2, by simp⟩⟩
    have e1 : isAbs (0 :: 58 :: 92 :: r) = .ok true := rfl
    have e2 : cstr (0 :: 58 :: 92 :: r) 0 = .ok [] := cstr_of ⟨_, rfl, by simp⟩
    unfold getFullPath
    simp only [e1, e2, liftB, bind, Except.bind, h1]
    simp
  · intro c d h
    have e1 : isAbs (0 :: c :: d :: r) = .ok false := by
      have r0 : rd (0 :: c :: d :: r) 0 = .ok 0 := rfl
      have r1 : rd (0 :: c :: d :: r) 1 = .ok c := rfl
      have r2 : rd (0 :: c :: d :: r) 2 = .ok d := rfl
      unfold isAbs isDrive
      simp only [r0, r1, r2, bind, Except.bind]
      rw [if_neg (by decide)]
      split
      · next e =>
        rcases h with h | h
        · exact absurd e h
        · simp [h]
      · rfl
    have st : IsStr (0 :: c :: d :: r) [] := ⟨_, rfl, by simp⟩
    have e3 : getExtension (0 :: c :: d :: r) = .ok none := by
      unfold getExtension
      rw [strlen_of st]
      rfl
    unfold getFullPath
    simp only [e1, cstr_of st, e3, liftB, bind, Except.bind]
    simp

/-- C58: no directory and no content of its files makes the loop leave an array, or read a name never written. -/
theorem dir_no_overrun (hA : A.Ok mp) (hmp : 2 ≤ mp) (hm : 0 ∉ modPath) (hma : modPath.head? = some 47) (hda : dir.head? = some 47) (hd : 0 ∉ dir) (hk : Strings D.kv) {ns : List (List Byte)}
    (hns : ∀ n ∈ ns, 0 ∉ n) {p : Prog σ} {x : Flt ε} (h : dirLoop W D A mp modPath dir ns p = .error x) : (∃ e, x = .ext e) ∨ x = .format := by
  induction ns generalizing p with
  | nil => rw [dirLoop] at h; cases h
  | cons n ns ih =>
    have hn := hns n (by simp)
    have ih := fun p => ih (fun x hx => hns x (.tail _ hx)) (p := p)
    obtain ⟨b, e1, e2⟩ := takes_spec hn
    rw [dirLoop, e1] at h
    simp only [liftB, bind, Except.bind] at h
    cases b with
    | false => rw [if_neg (by simp)] at h; exact ih _ h
    | true =>
      rw [if_pos rfl] at h
      obtain ⟨rel, hrel⟩ := vdf_name_written (D := D) hmp hma hda n
      rw [(vdfName_ok hA hd hn).2 hrel] at h
      dsimp only at h
      cases hp : processVdf W D.kv modPath D.stat A.file A.alias A.full rel p.w with
      | ok r => rw [hp] at h; exact ih _ h
      | error y =>
        rw [hp] at h
        cases h
        by_cases hu : ∀ f al, D.kv rel ≠ some (some f, al)
        · rw [processVdf_unread hu] at hp; cases hp
        · obtain ⟨f, al, e⟩ : ∃ f al, D.kv rel = some (some f, al) := Classical.byContradiction fun h => hu fun f al e => h ⟨f, al, e⟩
          by_cases hf : f = []
          · subst hf
            obtain ⟨z1, z2⟩ := hk rel [] al e
            obtain ⟨fb, h1, h2⟩ := format_spec (b := A.file) (n := 255) (by decide) (by rw [hA.file]; decide) ([] : List Byte) []
            obtain ⟨ab, ⟨k2, h3⟩, s2⟩ := format_str (b := A.alias) (n := 32) (by decide) (by rw [hA.alias]; decide) z2
            obtain ⟨c, d, r, hr⟩ : ∃ c d r, A.file.drop 1 = c :: d :: r := by
              have hl := hA.file
              match hf : A.file, hl with
              | _ :: c :: d :: r, _ => exact ⟨c, d, r, rfl⟩
            have hfb : fb = 0 :: c :: d :: r := by
              rw [h2, ← hr]; simp
            have hpv : providerVdf D.kv rel A.file A.alias = .ok (some (fb, ab)) := by
              unfold providerVdf
              rw [e]
              simp only [bind, Except.bind, h1, h3]
            have hs1 : IsStr fb [] := ⟨_, hfb, by simp⟩
            obtain ⟨w', hva⟩ : ∃ w', vdfAlias W fb ab p.w = .ok w' := by
              have c2 := cstr_of s2
              unfold vdfAlias
              obtain ⟨r, rfl, hz⟩ := s2
              have hr0 : ∃ c, rd ((al.getD []).take (32 - 1) ++ 0 :: r) 0 = .ok c := by
                cases (al.getD []).take (32 - 1) with
                | nil => exact ⟨_, rfl⟩
                | cons c x => exact ⟨_, rfl⟩
              obtain ⟨c, hr0⟩ := hr0
              simp only [hr0, liftB, bind, Except.bind, c2, cstr_of hs1]
              split <;> exact ⟨_, rfl⟩
            have hg : ∃ out path, getFullPath (ε := ε) modPath D.stat fb A.full 255 = .ok out ∧ IsStr out path := by
              have hb : 255 ≤ A.full.length := by rw [hA.full]; exact Nat.le_refl _
              rw [hfb]
              by_cases hcd : c = 58 ∧ d = 92
              · obtain ⟨rfl, rfl⟩ := hcd
                obtain ⟨o, h1, h2⟩ := (empty_by_junk (ε := ε) (modPath := modPath) (stat := D.stat) (r := r) (by decide) hb).1
                exact ⟨o, _, h1, h2⟩
              · rw [(empty_by_junk (by decide) hb).2 c d (by by_cases c = 58 <;> simp_all)]
                exact relPath_ok false hm (by simp) (by decide) hb
            obtain ⟨out, path, hg, hs⟩ := hg
            unfold processVdf at hp
            simp only [hpv, bind, Except.bind, liftB, hva, hg, cstr_of hs] at hp
            cases hl : W.load path w' with
            | ok r => rw [hl] at hp; cases hp
            | error z => rw [hl] at hp; cases hp; exact .inl ⟨z, rfl⟩
          · rcases processVdf_load (W := W) hA hm hk e hf p.w with ⟨path, -, ep⟩ | ⟨-, ep⟩
            · rw [ep] at hp
              cases hl : W.load path (withAlias W ((al.getD []).take 31) (f.take 254) p.w) with
              | ok r => rw [hl] at hp; cases hp
              | error z => rw [hl] at hp; cases hp; exact .inl ⟨z, rfl⟩
            · rw [ep] at hp; cases hp; exact .inr rfl

/-! ### both together -/

/-- C58: `mm_LoadPlugins` carries out the lines of the list and then the entries of the directory; it answers and reports the sums. -/
theorem loadPlugins_partial (hA : A.Ok mp) (hm : 0 ∉ modPath) (hd : 0 ∉ dir) (hk : Strings D.kv) (hne : ∀ rel al, D.kv rel ≠ some (some [], al)) {ns : List (List Byte)} (hns : ∀ n ∈ ns, 0 ∉ n)
    {line full : Buf} (hb : 255 ≤ line.length) (hf : 4096 ≤ full.length) {content : List Byte} {ls : List (List Byte)} {Ls : List Line} (hl : Lines content ls) (hr : Read ls Ls) {w : σ} {q : Prog σ} :
    loadPlugins W D A line full mp modPath dir (some content) (some ns) w = .ok q ↔
      ∃ w1 t1 k1 w2 t2 k2, Exec W modPath D.stat Ls ⟨w, 0, 0⟩ ⟨w1, t1, k1⟩ ∧ VExec W D mp modPath dir ns ⟨w1, 0, 0⟩ ⟨w2, t2, k2⟩ ∧ q = ⟨w2, t1 + t2, k1 + k2⟩ := by
  unfold loadPlugins loadFile loadDir
  dsimp only
  constructor
  · intro h
    cases h1 : fileLoop W modPath D.stat line full content ⟨w, 0, 0⟩ with
    | error x => rw [h1] at h; cases h
    | ok p =>
      rw [h1] at h
      simp only [bind, Except.bind] at h
      cases h2 : dirLoop W D A mp modPath dir ns ⟨p.w, 0, 0⟩ with
      | error x => rw [h2] at h; cases h
      | ok r =>
        rw [h2] at h
        cases h
        exact ⟨p.w, p.total, p.skipped, r.w, r.total, r.skipped, (file_spec_partial hb hf hm hl hr).1 h1, (dir_spec_partial hA hm hd hk hne hns).1 h2, rfl⟩
  · rintro ⟨w1, t1, k1, w2, t2, k2, h1, h2, rfl⟩
    rw [(file_spec_partial hb hf hm hl hr).2 h1]
    simp only [bind, Except.bind]
    rw [(dir_spec_partial hA hm hd hk hne hns).2 h2]

end

/-! ### Findings -/

/-- Finding: the empty name leads to two different plugins, by what happens to be in the array `file`. -/
theorem vdf_empty_depends : ∃ (A A' : Arrays) (kv : Kv) (p p' : List Byte), A.Ok 260 ∧ A'.Ok 260 ∧ p ≠ p' ∧
    processVdf (ε := Unit) ⟨fun _ _ w => w, fun f _ => .ok (f, true, false)⟩ kv [47, 103] (fun _ => true) A.file A.alias A.full [120] [] = .ok (p, true, false) ∧
    processVdf (ε := Unit) ⟨fun _ _ w => w, fun f _ => .ok (f, true, false)⟩ kv [47, 103] (fun _ => true) A'.file A'.alias A'.full [120] [] = .ok (p', true, false) := by
  have key : ∀ fb : Buf, (∃ f, format fb 255 (some []) [] = .ok (f, 0) ∧ f = 0 :: fb.drop 1) → ∀ out path, getFullPath (ε := Unit) [47, 103] (fun _ => true) (0 :: fb.drop 1) (List.replicate 255 0) 255 = .ok out →
      IsStr out path → processVdf (ε := Unit) ⟨fun _ _ w => w, fun f _ => .ok (f, true, false)⟩ (fun _ => some (some [], none)) [47, 103] (fun _ => true) fb (List.replicate 32 0)
        (List.replicate 255 0) [120] [] = .ok (path, true, false) := by
    rintro fb ⟨f, hf, rfl⟩ out path hg hs
    have h3 : ∃ k, format (List.replicate 32 0) 32 (some []) [] = .ok (List.replicate 32 0, k) := ⟨_, rfl⟩
    obtain ⟨k, h3⟩ := h3
    have hpv : providerVdf (fun _ => some (some [], none)) [120] fb (List.replicate 32 0) = .ok (some (0 :: fb.drop 1, List.replicate 32 0)) := by
      unfold providerVdf
      simp only [hf, bind, Except.bind, Option.getD_none, h3]
    have hva : ∀ b : Buf, vdfAlias (ε := Unit) ⟨fun _ _ w => w, fun f _ => .ok (f, true, false)⟩ b (List.replicate 32 0) ([] : List Byte) = .ok [] := fun _ => rfl
    unfold processVdf
    simp only [hpv, bind, Except.bind, liftB, hva, hg, cstr_of hs]
    rfl
  have fmt : ∀ fb : Buf, fb.length = 255 → ∃ f, format fb 255 (some []) [] = .ok (f, 0) ∧ f = 0 :: fb.drop 1 := by
    intro fb h
    obtain ⟨b', h1, h2⟩ := format_spec (b := fb) (n := 255) (by decide) (by omega) ([] : List Byte) []
    exact ⟨b', by simpa using h1, by simpa using h2⟩
  have mk : ∀ fb : Buf, fb.length = 255 → Arrays.Ok ⟨fb, List.replicate 32 0, List.replicate 255 0, List.replicate 260 0⟩ 260 := fun fb h =>
    ⟨h, List.length_replicate, List.length_replicate, List.length_replicate, by decide⟩
  have l1 : (0 :: 58 :: 92 :: List.replicate 252 0 : Buf).length = 255 := by simp only [List.length_cons, List.length_replicate]
  have l2 : (0 :: 0 :: 0 :: List.replicate 252 0 : Buf).length = 255 := by simp only [List.length_cons, List.length_replicate]
  have hb : 255 ≤ (List.replicate 255 0 : Buf).length := by rw [List.length_replicate]; exact Nat.le_refl _
  obtain ⟨⟨o1, g1, s1⟩, -⟩ := empty_by_junk (ε := Unit) (modPath := [47, 103]) (stat := fun _ => true) (r := List.replicate 252 0) (n := 255) (by decide) hb
  have g2 := (empty_by_junk (ε := Unit) (modPath := [47, 103]) (stat := fun _ => true) (r := List.replicate 252 0) (n := 255) (by decide) hb).2 0 0 (.inl (by decide))
  obtain ⟨o2, k1, k2, r2, k3⟩ := fmtPath_spec (ε := Unit) (n := 255) (out := List.replicate 255 0) (by decide) hb (joined [47, 103] [] x64Ext)
  have s2 : IsStr o2 (slashed ((joined [47, 103] [] x64Ext).take (255 - 1))) := ⟨r2, k3, by decide⟩
  have g3 : getFullPath (ε := Unit) [47, 103] (fun _ => true) (0 :: 0 :: 0 :: List.replicate 252 0) (List.replicate 255 0) 255 = .ok o2 := by
    rw [g2]
    unfold relPath
    simp only [Bool.false_eq_true, if_false, k1, bind, Except.bind, cstr_of s2, liftB]
    rfl
  exact ⟨⟨_, _, _, List.replicate 260 0⟩, ⟨_, _, _, List.replicate 260 0⟩, fun _ => some (some [], none), _, _, mk _ l1, mk _ l2, by decide, key _ (fmt _ l1) _ _ g1 s1, key _ (fmt _ l2) _ _ g3 s2⟩

/-- Finding: a plugin that failed before and fails again counts as already loaded, for it is in neither state (core/metamod.cpp:1297-1298). -/
theorem vdf_failed_skipped : (do
    let r ← Mgr.exec 10 (.op (.load [97] (Mgr.good 10)) Mgr.no (.ret true)) Mgr.init
    let x ← mgrLoad (fun c n s => Mgr.exec 10 (Mgr.no c n) s) 10 (fun _ => Mgr.good 11) [97] r.1
    let p := Prog.countVdf ⟨r.1, 0, 0⟩ x
    Except.ok (r.1.plugins.map (fun o => (r.1.objs o).map (·.status)), p.w.plugins.map (fun o => (p.w.objs o).map (·.status)), p.total, p.skipped) :
      Mgr.R (List (Option Mgr.Status) × List (Option Mgr.Status) × Nat × Nat)) = .ok ([some .refused], [some .refused], 0, 1) := by rfl

/-- Finding: a file of the game directory that the list of plugins can name cannot be named by a .vdf file, for the name is cut to 254 bytes (core/metamod.cpp:1202). -/
theorem vdf_long_cut {σ ε : Type} {W : World σ ε} {D : Disk} {A : Arrays} {mp : Nat} {modPath : List Byte} (hA : A.Ok mp) (hm : 0 ∉ modPath) (hk : Strings D.kv) {rel f : List Byte} {al : Option (List Byte)}
    (e : D.kv rel = some (some f, al)) (hlong : 254 < f.length) (hslash : f.head? = some 47) (hpc : 37 ∉ f) (w : σ) :
    processVdf W D.kv modPath D.stat A.file A.alias A.full rel w = liftE (W.load (f.take 254) (withAlias W ((al.getD []).take 31) (f.take 254) w)) := by
  have hf : f ≠ [] := by rintro rfl; simp at hlong
  have ha : Absolute (f.take 254) := by
    cases f with
    | nil => exact absurd rfl hf
    | cons c f => exact .inl hslash
  have hp : PathOf modPath D.stat 255 (f.take 254) (f.take 254) := by
    have := PathOf.absolute (modPath := modPath) (stat := D.stat) (n := 255) (f.take 254) ha fun h => hpc (List.mem_of_mem_take h)
    rwa [List.take_take] at this
  rcases processVdf_load (W := W) hA hm hk e hf w with ⟨path, h1, h2⟩ | ⟨h1, -⟩
  · rw [h2]
    have : path = f.take 254 := by
      generalize hg : f.take 254 = g at h1 ha
      cases h1 with
      | absolute _ _ => rw [← hg, List.take_take]; rfl
      | withExt h _ => exact absurd ha h
      | x64 h _ _ => exact absurd ha h
      | plain h _ _ => exact absurd ha h
    rw [this]
  · exact absurd ⟨_, hp⟩ h1

/-! ### Examples -/

/-- A directory with a file to read, a name that is not taken and a file that names nothing; the game directory is /g. -/
def exDisk : Disk :=
  ⟨fun rel => if rel = [46, 46, 47, 103, 47, 97, 47, 120, 46, 86, 100, 102] then some (some [98, 46, 115, 111], some [99]) else none, fun _ => true, fun _ => true⟩

/-- Loading adds the path to a list; an alias adds its name. -/
def exWorld : World (List (List Byte)) Unit := ⟨fun a _ w => w ++ [a], fun f w => .ok (w ++ [f], true, false)⟩

/-- `dir_spec_partial`, `dir_no_overrun`, `loadPlugins_partial`: "x.Vdf" is taken, "x.txt" is not, "y.vdf" cannot be read. -/
example : Strings exDisk.kv ∧ (∀ rel al, exDisk.kv rel ≠ some (some [], al)) ∧
    VExec exWorld exDisk 260 [47, 103] [47, 103, 47, 97] [[120, 46, 86, 100, 102], [120, 46, 116, 120, 116], [121, 46, 118, 100, 102]] ⟨[], 0, 0⟩ ⟨[[99], [47, 103, 47, 98, 46, 115, 111]], 1, 0⟩ := by
  refine ⟨?_, ?_, ?_⟩
  · intro rel f al h
    simp only [exDisk] at h
    split at h
    · cases h; decide
    · cases h
  · intro rel al h
    simp only [exDisk] at h
    split at h <;> cases h
  · refine .load (rel := [46, 46, 47, 103, 47, 97, 47, 120, 46, 86, 100, 102]) (f := [98, 46, 115, 111]) (al := some [99]) (path := [47, 103, 47, 98, 46, 115, 111]) (w' := [[99], [47, 103, 47, 98, 46, 115, 111]]) (ok := true)
      (already := false) ⟨[120], 86, 100, 102, rfl, by decide, by decide, by decide⟩ rfl rfl ?_ rfl ?_
    · exact .withExt (modPath := [47, 103]) (stat := exDisk.stat) (n := 255) [98, 46, 115, 111] (by unfold Absolute; simp) ⟨[98], [115, 111], rfl, by simp, by decide, by decide⟩
    · refine .other ?_ (.unread (rel := [46, 46, 47, 103, 47, 97, 47, 121, 46, 118, 100, 102]) ⟨[121], 118, 100, 102, rfl, by decide, by decide, by decide⟩ rfl ?_ (.nil _))
      · rintro ⟨a, v, d, f, e, h⟩
        have := congrArg (fun l => l.drop (l.length - 3)) e
        simp at this
        grind
      · intro f al h
        cases h

/-- `vdf_name_resolves`, `vdf_name_written`: "x.vdf" in /g/a, seen from /g/b. -/
example : Clean [47, 103, 47, 98] ∧ Clean [47, 103, 47, 97] ∧ ¬ [47, 47] <:+: ([47, 103, 47, 98] : List Byte) ∧ ¬ [47, 47] <:+: ([47, 103, 47, 97] ++ [47] : List Byte) ∧ VdfName [120, 46, 118, 100, 102] ∧
    NameOf exDisk 260 [47, 103, 47, 98] [47, 103, 47, 97] [120, 46, 118, 100, 102] [46, 46, 47, 97, 47, 120, 46, 118, 100, 102] :=
  ⟨⟨rfl, by decide⟩, ⟨rfl, by decide⟩, by decide, by decide, ⟨[120], 118, 100, 102, rfl, by decide, by decide, by decide⟩, rfl⟩

/-- `vdf_long_cut`: a file of 255 bytes. -/
example : ∃ f : List Byte, 254 < f.length ∧ f.head? = some 47 ∧ 37 ∉ f ∧ 0 ∉ f :=
  ⟨47 :: List.replicate 254 97, by simp only [List.length_cons, List.length_replicate]; decide, rfl, by decide, by decide⟩

#print axioms takes_spec
#print axioms dir_spec_partial
#print axioms vdf_name_resolves
#print axioms vdf_name_written
#print axioms dir_no_overrun
#print axioms loadPlugins_partial
#print axioms empty_by_junk
#print axioms vdf_empty_depends
#print axioms vdf_failed_skipped
#print axioms vdf_long_cut

end Verif.PFile
