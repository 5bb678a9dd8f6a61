import Verif.Build.Metadata
import Mathlib.Data.List.Perm.Subperm
/-
C112: the description of the sample plugin.
-/
namespace Verif.Metadata

/-! ### helpers -/

private theorem get_put (k v x : String) : ∀ d : Dict, get (put k v d) x = if x = k then some v else get d x
  | [] => by
    by_cases h : x = k <;> simp [put, get, List.lookup, h]
  | (a, b) :: d => by
    have ih := get_put k v x d
    unfold get at ih ⊢
    rw [put]
    by_cases ha : a = k
    · subst ha
      rw [if_pos rfl]
      by_cases h : x = a
      · subst h; simp
      · have hb : (x == a) = false := by simpa using h
        simp [List.lookup, hb, h]
    · rw [if_neg ha]
      by_cases h : x = a
      · subst h
        simp [ha]
      · have hb : (x == a) = false := by simpa using h
        simp only [List.lookup, hb]
        exact ih

private theorem keys_put (k v : String) : ∀ d : Dict, keys (put k v d) = if k ∈ keys d then keys d else keys d ++ [k]
  | [] => by simp [put, keys]
  | (a, b) :: d => by
    have ih := keys_put k v d
    unfold keys at ih ⊢
    rw [put]
    by_cases ha : a = k
    · subst ha
      simp
    · rw [if_neg ha, List.map_cons, ih, List.map_cons]
      by_cases hk : k ∈ d.map Prod.fst
      · rw [if_pos hk, if_pos (List.mem_cons_of_mem _ hk)]
      · have hn : k ∉ a :: d.map Prod.fst := by
          rw [List.mem_cons]
          rintro (e | e)
          · exact ha e.symm
          · exact hk e
        rw [if_neg hk, if_neg hn]
        rfl

private theorem nodup_put (k v : String) {d : Dict} (h : (keys d).Nodup) : (keys (put k v d)).Nodup := by
  rw [keys_put]
  by_cases hk : k ∈ keys d
  · rwa [if_pos hk]
  · rw [if_neg hk, List.nodup_append]
    refine ⟨h, by simp, ?_⟩
    intro a ha b hb e
    rw [List.mem_singleton.mp hb] at e
    exact hk (e ▸ ha)

private theorem mem_keys_put (k v x : String) (d : Dict) : x ∈ keys (put k v d) ↔ x = k ∨ x ∈ keys d := by
  rw [keys_put]
  by_cases hk : k ∈ keys d
  · rw [if_pos hk]
    constructor
    · exact .inr
    · rintro (rfl | h)
      · exact hk
      · exact h
  · rw [if_neg hk, List.mem_append, List.mem_singleton]
    exact Or.comm

private theorem nodup_update : ∀ (obj d : Dict), (keys d).Nodup → (keys (update d obj)).Nodup
  | [], _, h => h
  | (k, v) :: obj, d, h => nodup_update obj (put k v d) (nodup_put k v h)

private theorem mem_keys_update (x : String) : ∀ (obj d : Dict), x ∈ keys (update d obj) ↔ x ∈ keys d ∨ x ∈ keys obj
  | [], d => by simp [update, keys]
  | (k, v) :: obj, d => by
    rw [update, mem_keys_update x obj, mem_keys_put]
    unfold keys
    rw [List.map_cons, List.mem_cons]
    constructor
    · rintro ((h | h) | h)
      · exact .inr (.inl h)
      · exact .inl h
      · exact .inr (.inr h)
    · rintro (h | h | h)
      · exact .inl (.inr h)
      · exact .inl (.inl h)
      · exact .inr h

private theorem get_none {x : String} : ∀ {d : Dict}, x ∉ keys d → get d x = none
  | [], _ => rfl
  | (a, b) :: d, h => by
    have hx : (x == a) = false := by
      have : x ≠ a := fun e => h (e ▸ List.mem_cons_self)
      simpa using this
    unfold get
    simp only [List.lookup, hx]
    exact get_none fun hm => h (List.mem_cons_of_mem _ hm)

private theorem get_some {x : String} : ∀ {d : Dict}, x ∈ keys d → ∃ v, get d x = some v
  | [], h => by simp [keys] at h
  | (a, b) :: d, h => by
    unfold get
    by_cases hx : x = a
    · subst hx
      exact ⟨b, by simp⟩
    · have hb : (x == a) = false := by simpa using hx
      simp only [List.lookup, hb]
      refine get_some (d := d) ?_
      unfold keys at h
      rw [List.map_cons, List.mem_cons] at h
      exact h.resolve_left hx

private theorem get_update (x : String) : ∀ (obj d : Dict), (keys obj).Nodup → get (update d obj) x = (get obj x).or (get d x)
  | [], d, _ => by simp [update, get]
  | (k, v) :: obj, d, h => by
    have hn : k ∉ keys obj ∧ (keys obj).Nodup := List.nodup_cons.mp h
    rw [update, get_update x obj _ hn.2, get_put]
    by_cases hx : x = k
    · subst hx
      rw [get_none hn.1]
      simp [get]
    · have hb : (x == k) = false := by simpa using hx
      rw [if_neg hx]
      unfold get
      simp only [List.lookup, hb]

/-! ### theorems -/

/-- C112: each entry of the metadata is that of the file, if it has one, else that of the sample. -/
theorem user_first {metadata obj : Dict} (ho : (keys obj).Nodup) (k : String) :
    get (configure metadata (some obj)).1 k = (match get obj k with | some v => some v | none => get metadata k) := by
  have h : (configure metadata (some obj)).1 = update metadata obj := by
    unfold configure
    dsimp only
    split <;> rfl
  rw [h, get_update k obj metadata ho]
  cases get obj k <;> rfl

/-- C112: the file is written exactly if it lacks one of the entries of the sample. -/
theorem written_iff {metadata obj : Dict} (hm : (keys metadata).Nodup) (ho : (keys obj).Nodup) :
    (configure metadata (some obj)).2.2 = true ↔ ∃ k ∈ keys metadata, k ∉ keys obj := by
  have hl : ∀ d : Dict, d.length = (keys d).length := fun d => by simp [keys]
  have hsub : keys obj ⊆ keys (update metadata obj) := fun x hx => (mem_keys_update x obj metadata).mpr (.inr hx)
  have hw : (configure metadata (some obj)).2.2 = true ↔ (keys obj).length < (keys (update metadata obj)).length := by
    unfold configure
    dsimp only
    rw [hl obj, hl (update metadata obj)]
    split
    · rename_i h
      exact ⟨fun _ => h, fun _ => rfl⟩
    · rename_i h
      exact ⟨fun e => absurd e Bool.false_ne_true, fun e => absurd e h⟩
  rw [hw]
  constructor
  · intro h
    refine Classical.byContradiction fun hx => ?_
    have hs : keys (update metadata obj) ⊆ keys obj := by
      intro x hxm
      rcases (mem_keys_update x obj metadata).mp hxm with h1 | h1
      · exact Classical.byContradiction fun h2 => hx ⟨x, h1, h2⟩
      · exact h1
    have := (List.subperm_of_subset (nodup_update obj metadata hm) hs).length_le
    omega
  · rintro ⟨k, hk, hn⟩
    have hs := List.subperm_of_subset ho hsub
    refine Nat.lt_of_le_of_ne hs.length_le fun e => hn ?_
    have hp := hs.perm_of_length_le (Nat.le_of_eq e.symm)
    exact hp.mem_iff.mpr ((mem_keys_update k obj metadata).mpr (.inl hk))

private theorem configure_file {metadata obj : Dict} (hm : (keys metadata).Nodup) (ho : (keys obj).Nodup) (k : String) :
    get (configure metadata (some obj)).2.1 k = get (configure metadata (some obj)).1 k := by
  by_cases h : (configure metadata (some obj)).2.2 = true
  · unfold configure at h ⊢
    dsimp only at h ⊢
    split
    · rfl
    · rename_i hl
      rw [if_neg hl] at h
      exact absurd h Bool.false_ne_true
  · have hall : ∀ k ∈ keys metadata, k ∈ keys obj := fun k hk =>
      Classical.byContradiction fun hn => h ((written_iff hm ho).mpr ⟨k, hk, hn⟩)
    rw [user_first ho]
    have hf : (configure metadata (some obj)).2.1 = obj := by
      unfold configure at h ⊢
      dsimp only at h ⊢
      split
      · rename_i hl
        rw [if_pos hl] at h
        exact absurd rfl h
      · rfl
    rw [hf]
    cases hg : get obj k with
    | some v => rfl
    | none =>
      have hk : k ∉ keys metadata := fun hk => by
        obtain ⟨v, hv⟩ := get_some (hall k hk)
        rw [hg] at hv
        exact absurd hv (by simp)
      exact (get_none hk).symm

/-- C112: afterwards the file has the metadata used, with or without a file before. -/
theorem file_current {metadata : Dict} (hm : (keys metadata).Nodup) {file : Option Dict} (hf : ∀ obj ∈ file, (keys obj).Nodup) (k : String) :
    get (configure metadata file).2.1 k = get (configure metadata file).1 k := by
  cases file with
  | none => rfl
  | some obj => exact configure_file hm (hf obj rfl) k

/-- C112: a second run uses the same metadata and does not write the file. -/
theorem second_run {metadata : Dict} (hm : (keys metadata).Nodup) {file : Option Dict} (hf : ∀ obj ∈ file, (keys obj).Nodup) :
    (configure metadata (some (configure metadata file).2.1)).2.2 = false ∧
      ∀ k, get (configure metadata (some (configure metadata file).2.1)).1 k = get (configure metadata file).1 k := by
  have hk : (keys (configure metadata file).2.1).Nodup ∧ ∀ k ∈ keys metadata, k ∈ keys (configure metadata file).2.1 := by
    cases file with
    | none => exact ⟨hm, fun _ h => h⟩
    | some obj =>
      have ho := hf obj rfl
      by_cases h : (configure metadata (some obj)).2.2 = true
      · have e : (configure metadata (some obj)).2.1 = update metadata obj := by
          unfold configure at h ⊢
          dsimp only at h ⊢
          split
          · rfl
          · rename_i hl
            rw [if_neg hl] at h
            exact absurd h Bool.false_ne_true
        rw [e]
        exact ⟨nodup_update obj metadata hm, fun k hk => (mem_keys_update k obj metadata).mpr (.inl hk)⟩
      · have e : (configure metadata (some obj)).2.1 = obj := by
          unfold configure at h ⊢
          dsimp only at h ⊢
          split
          · rename_i hl
            rw [if_pos hl] at h
            exact absurd rfl h
          · rfl
        rw [e]
        exact ⟨ho, fun k hk => Classical.byContradiction fun hn => h ((written_iff hm ho).mpr ⟨k, hk, hn⟩)⟩
  constructor
  · rw [Bool.eq_false_iff]
    intro h
    obtain ⟨k, h1, h2⟩ := (written_iff hm hk.1).mp h
    exact h2 (hk.2 k h1)
  · intro k
    rw [user_first hk.1, file_current hm hf]
    cases hg : get (configure metadata file).1 k with
    | some v => rfl
    | none =>
      refine get_none fun hkm => ?_
      obtain ⟨v, hv⟩ := get_some (hk.2 k hkm)
      rw [file_current hm hf, hg] at hv
      exact absurd hv (by simp)

/-! ### examples -/

/-- Specification: two entries of the sample. No counterpart in /repo. -/
private def exMeta : Dict := [("name", "sample_mm"), ("alias", "sample")]

example : get (configure exMeta (some [("alias", "mine"), ("extra", "x")])).1 "alias" = some "mine" :=
  user_first (metadata := exMeta) (by decide) "alias"

example : (configure exMeta (some [("alias", "mine"), ("extra", "x")])).2.2 = true :=
  (written_iff (by decide) (by decide)).mpr ⟨"name", by decide, by decide⟩

example : get (configure exMeta (some [("alias", "mine"), ("extra", "x")])).2.1 "name" = get (configure exMeta (some [("alias", "mine"), ("extra", "x")])).1 "name" :=
  file_current (by decide) (by intro o h; rw [← Option.some.inj h]; decide) "name"

example : (configure exMeta (some (configure exMeta none).2.1)).2.2 = false := (second_run (by decide) (by intro o h; cases h)).1

#print axioms user_first
#print axioms written_iff
#print axioms file_current
#print axioms second_run

end Verif.Metadata
