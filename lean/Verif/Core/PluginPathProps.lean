import Verif.Core.PluginFile
import Verif.Util.MiscProps
/-
C57: the full path of a plugin.
-/
namespace Verif.PFile
open Verif.C Verif.Util

/-! ### Spec -/

/-- The name ends in a dot and at least one byte, none of them a separator. -/
def HasExt (s : List Byte) : Prop := ∃ a e, s = a ++ 46 :: e ∧ e ≠ [] ∧ 47 ∉ e ∧ 92 ∉ e

/-- An absolute path: it starts with a slash, or with a drive letter, a colon and a backslash. -/
def Absolute (s : List Byte) : Prop := s.head? = some 47 ∨ ∃ c r, s = c :: 58 :: 92 :: r

/-- Backslashes become slashes. -/
def slashed (s : List Byte) : List Byte := s.map fun c => if c = 92 then 47 else c

/-- The path for a name, for a buffer of `n` bytes. -/
inductive PathOf (modPath : List Byte) (stat : List Byte → Bool) (n : Nat) : List Byte → List Byte → Prop
  | absolute (s : List Byte) : Absolute s → 37 ∉ s → PathOf modPath stat n s (s.take (n - 1))
  | withExt (s : List Byte) : ¬ Absolute s → HasExt s → PathOf modPath stat n s (slashed ((modPath ++ [47] ++ s).take (n - 1)))
  | x64 (s : List Byte) : ¬ Absolute s → ¬ HasExt s → stat (slashed ((modPath ++ [47] ++ s ++ [46, 120, 54, 52, 46, 115, 111]).take (n - 1))) = true →
      PathOf modPath stat n s (slashed ((modPath ++ [47] ++ s ++ [46, 120, 54, 52, 46, 115, 111]).take (n - 1)))
  | plain (s : List Byte) : ¬ Absolute s → ¬ HasExt s → stat (slashed ((modPath ++ [47] ++ s ++ [46, 120, 54, 52, 46, 115, 111]).take (n - 1))) = false →
      PathOf modPath stat n s (slashed ((modPath ++ [47] ++ s ++ [46, 115, 111]).take (n - 1)))

/-! ### `UTIL_GetExtension` -/

theorem extLoop_run (b : Buf) (len : Nat) (i : Nat) (hi : i ≤ b.length) (hl : i ≤ len) :
    ∃ o, extLoop b len i = .ok o ∧
      (∀ j, o = some j → 0 < j ∧ j ≤ i ∧ b[j - 1]? = some 46 ∧ j ≠ len ∧ ∀ k, j ≤ k → k < i → b[k]? ≠ some 47 ∧ b[k]? ≠ some 92 ∧ (b[k]? = some 46 → k + 1 = len)) ∧
      (o = none → ∀ j, j < i → b[j]? = some 46 → j + 1 ≠ len → ∃ k, j < k ∧ k < i ∧ (b[k]? = some 47 ∨ b[k]? = some 92)) := by
  induction i with
  | zero => exact ⟨none, rfl, (fun j h => nomatch h), (fun _ j hj => absurd hj (by omega))⟩
  | succ i ih =>
    obtain ⟨o, h1, h2, h3⟩ := ih (by omega) (by omega)
    have hb : b[i]? = some b[i] := List.getElem?_eq_getElem (by omega)
    unfold extLoop
    rw [rd_of_lt (by omega)]
    simp only [bind, Except.bind]
    split
    · next hs =>
      refine ⟨none, rfl, (fun j h => nomatch h), ?_⟩
      intro _ j hj hd _
      by_cases e : j = i
      · subst e
        rw [hb] at hd
        cases hd' : b[j]
        simp_all
      · exact ⟨i, by omega, by omega, by rw [hb]; rcases hs with hs | hs <;> simp [hs]⟩
    · next hs =>
      split
      · next hd =>
        refine ⟨some (i + 1), rfl, ?_, (fun h => nomatch h)⟩
        intro j e
        cases e
        exact ⟨by omega, by omega, by simp [hb, hd.1], by omega, fun k h h' => absurd h (by omega)⟩
      · next hd =>
        have hn : b[i]? ≠ some 47 ∧ b[i]? ≠ some 92 ∧ (b[i]? = some 46 → i + 1 = len) := by
          rw [hb]
          refine ⟨fun h => hs (.inl (Option.some.inj h)), fun h => hs (.inr (Option.some.inj h)), fun h => ?_⟩
          have : ¬ i ≠ len - 1 := fun h' => hd ⟨Option.some.inj h, h'⟩
          omega
        refine ⟨o, h1, ?_, ?_⟩
        · intro j e
          obtain ⟨a1, a2, a3, a4, a5⟩ := h2 j e
          refine ⟨a1, by omega, a3, a4, fun k hk hk' => ?_⟩
          by_cases e : k = i
          · subst e; exact hn
          · exact a5 k hk (by omega)
        · intro e j hj hd' hne
          by_cases ej : j = i
          · subst ej; exact absurd (hn.2.2 hd') hne
          · obtain ⟨k, b1, b2, b3⟩ := h3 e j (by omega) hd' hne
            exact ⟨k, b1, by omega, b3⟩

/-- C57: `UTIL_GetExtension` finds an extension exactly if there is one; it is what is behind the last dot that does not end the name. -/
theorem getExtension_spec {b : Buf} {s : List Byte} (h : IsStr b s) :
    ∃ o, getExtension b = .ok o ∧ (o.isSome = true ↔ HasExt s) ∧
      ∀ i, o = some i → ∃ a e, s = a ++ 46 :: e ∧ i = a.length + 1 ∧ e ≠ [] ∧ 47 ∉ e ∧ 92 ∉ e ∧ 46 ∉ e.dropLast := by
  have hstr := strlen_of h
  obtain ⟨r, rfl, h0⟩ := h
  obtain ⟨o, h1, h2, h3⟩ := extLoop_run (s ++ 0 :: r) s.length s.length (by simp) (Nat.le_refl _)
  have get : ∀ k, k < s.length → (s ++ 0 :: r)[k]? = s[k]? := fun k hk => List.getElem?_append_left hk
  have key : ∀ i, o = some i → ∃ a e, s = a ++ 46 :: e ∧ i = a.length + 1 ∧ e ≠ [] ∧ 47 ∉ e ∧ 92 ∉ e ∧ 46 ∉ e.dropLast := by
    intro i e
    obtain ⟨a1, a2, a3, a4, a5⟩ := h2 i e
    rw [get _ (by omega)] at a3
    obtain ⟨hlt, hv⟩ := List.getElem?_eq_some_iff.1 a3
    have hs : s = s.take (i - 1) ++ 46 :: s.drop i := by
      have := (List.take_append_drop (i - 1) s).symm
      rw [List.drop_eq_getElem_cons hlt, hv, show i - 1 + 1 = i by omega] at this
      exact this
    have at_ : ∀ x, x ∈ s.drop i → ∃ k, i ≤ k ∧ k < s.length ∧ s[k]? = some x := by
      intro x hx
      obtain ⟨k, hk, e⟩ := List.mem_iff_getElem.1 hx
      simp only [List.length_drop] at hk
      refine ⟨i + k, by omega, by omega, ?_⟩
      rw [List.getElem_drop] at e
      rw [List.getElem?_eq_getElem (by omega), e]
    refine ⟨s.take (i - 1), s.drop i, hs, ?_, ?_, ?_, ?_, ?_⟩
    · simp; omega
    · intro h
      have := congrArg List.length h
      simp at this; omega
    · intro hx
      obtain ⟨k, k1, k2, k3⟩ := at_ _ hx
      exact (a5 k k1 k2).1 (by rw [get k k2, k3])
    · intro hx
      obtain ⟨k, k1, k2, k3⟩ := at_ _ hx
      exact (a5 k k1 k2).2.1 (by rw [get k k2, k3])
    · intro hx
      rw [List.dropLast_eq_take] at hx
      obtain ⟨k, hk, e⟩ := List.mem_iff_getElem.1 hx
      simp only [List.length_take, List.length_drop] at hk
      rw [List.getElem_take, List.getElem_drop] at e
      have := (a5 (i + k) (by omega) (by omega)).2.2 (by rw [get _ (by omega), List.getElem?_eq_getElem (by omega), e])
      omega
  refine ⟨o, ?_, ⟨fun hs => ?_, fun hs => ?_⟩, key⟩
  · unfold getExtension
    rw [hstr]
    exact h1
  · obtain ⟨i, hi⟩ := Option.isSome_iff_exists.1 hs
    obtain ⟨a, e, b1, _, b2, b3, b4, _⟩ := key i hi
    exact ⟨a, e, b1, b2, b3, b4⟩
  · obtain ⟨a, e, rfl, b2, b3, b4⟩ := hs
    cases o with
    | some _ => rfl
    | none =>
      exfalso
      have hel : 0 < e.length := List.length_pos_iff.2 b2
      obtain ⟨k, k1, k2, k3⟩ := h3 rfl a.length (by simp) (by simp) (by simp; omega)
      simp only [List.length_append, List.length_cons] at k2
      have : ∃ j, k = a.length + (j + 1) ∧ j < e.length := ⟨k - a.length - 1, by omega, by omega⟩
      obtain ⟨j, rfl, hj⟩ := this
      rw [get _ (by simp; omega), List.getElem?_append_right (by omega), Nat.add_sub_cancel_left, List.getElem?_cons_succ] at k3
      rcases k3 with k3 | k3
      · exact b3 (List.mem_of_getElem? k3)
      · exact b4 (List.mem_of_getElem? k3)

/-- "a.b/c", "a." have no extension; "a.b." has. -/
example : (∃ b, IsStr b [97, 46, 98, 47, 99] ∧ getExtension b = .ok none) ∧ (∃ b, IsStr b [97, 46] ∧ getExtension b = .ok none) ∧
    ∃ b, IsStr b [97, 46, 98, 46] ∧ getExtension b = .ok (some 2) :=
  ⟨⟨[97, 46, 98, 47, 99, 0], ⟨[], rfl, by decide⟩, by simp [getExtension, strlen, extLoop, rd, bind, Except.bind, Except.map]⟩,
    ⟨[97, 46, 0], ⟨[], rfl, by decide⟩, by simp [getExtension, strlen, extLoop, rd, bind, Except.bind, Except.map]⟩,
    ⟨[97, 46, 98, 46, 0], ⟨[], rfl, by decide⟩, by simp [getExtension, strlen, extLoop, rd, bind, Except.bind, Except.map]⟩⟩

/-! ### the path -/

theorem fmtPath_spec {ε : Type} {out : Buf} {n : Nat} (hn : 1 ≤ n) (hb : n ≤ out.length) (t : List Byte) :
    ∃ out', fmtPath (ε := ε) out n t = .ok out' ∧ out'.length = out.length ∧ ∃ r, out' = slashed (t.take (n - 1)) ++ 0 :: r := by
  obtain ⟨b', h1, rfl⟩ := pathFormat_spec hn hb t []
  refine ⟨slashed (t.take (n - 1)) ++ 0 :: out.drop (min t.length (n - 1) + 1), ?_, ?_, _, rfl⟩
  · unfold fmtPath
    rw [h1]
    rfl
  · simp [slashed]; omega

theorem slashed_nz {s : List Byte} (h : 0 ∉ s) : 0 ∉ slashed s := by
  intro h'
  obtain ⟨c, hc, e⟩ := List.mem_map.1 h'
  split at e
  · cases e
  · exact h (e ▸ hc)

theorem take_nz {s : List Byte} {n : Nat} (h : 0 ∉ s) : 0 ∉ s.take n := fun h' => h (List.mem_of_mem_take h')

theorem isDrive_at {s r : List Byte} (h0 : 0 ∉ s) (hs : s ≠ []) (hh : s.head? ≠ some 47) : ∃ d, isDrive (s ++ 0 :: r) = .ok d ∧ (d = true ↔ Absolute s) := by
  unfold isDrive
  match s, hs, hh with
  | [x], _, hh => exact ⟨false, by simp [rd, bind, Except.bind], by simp [Absolute] at hh ⊢; exact hh⟩
  | [x, y], _, hh =>
    by_cases hy : y = 58
    · subst hy; exact ⟨false, by simp [rd, bind, Except.bind], by simp [Absolute] at hh ⊢; exact hh⟩
    · exact ⟨false, by simp [rd, bind, Except.bind, hy], by simp [Absolute] at hh ⊢; exact hh⟩
  | x :: y :: z :: s, _, hh =>
    by_cases hy : y = 58
    · subst hy
      refine ⟨z == 92, by simp [rd, bind, Except.bind], ?_⟩
      simp [Absolute] at hh ⊢
      simp [hh]
    · exact ⟨false, by simp [rd, bind, Except.bind, hy], by simp [Absolute] at hh ⊢; exact ⟨hh, fun h => absurd h hy⟩⟩

theorem isAbs_at {s r : List Byte} (h0 : 0 ∉ s) (hs : s ≠ []) : ∃ d, isAbs (s ++ 0 :: r) = .ok d ∧ (d = true ↔ Absolute s) := by
  cases s with
  | nil => exact absurd rfl hs
  | cons c s' =>
    have e1 : rd (c :: s' ++ 0 :: r) 0 = .ok c := rfl
    unfold isAbs
    rw [e1]
    simp only [bind, Except.bind]
    by_cases hc : c = 47
    · exact ⟨true, by rw [if_pos hc], by simp [Absolute, hc]⟩
    · obtain ⟨d, h1, h2⟩ := isDrive_at (r := r) h0 hs (by simpa using hc)
      exact ⟨d, by rw [if_neg hc, h1], h2⟩

/-- C57: `GetFullPluginPath` leaves the path of `PathOf` in the buffer, inside its `n` bytes, for every name that is not empty and whose format is harmless. -/
theorem getFullPath_spec {ε : Type} {modPath s out : List Byte} {stat : List Byte → Bool} {plugin : Buf} {n : Nat} (h : IsStr plugin s) (hs : s ≠ []) (hm : 0 ∉ modPath) (hn : 1 ≤ n) (hb : n ≤ out.length)
    (hf : Absolute s → 37 ∉ s) :
    ∃ out' path, getFullPath (ε := ε) modPath stat plugin out n = .ok out' ∧ out'.length = out.length ∧ IsStr out' path ∧ PathOf modPath stat n s path := by
  obtain ⟨c, s', rfl⟩ : ∃ c s', s = c :: s' := by
    cases s with
    | nil => exact absurd rfl hs
    | cons c s' => exact ⟨c, s', rfl⟩
  have e2 := cstr_of h
  obtain ⟨o, e3, he, _⟩ := getExtension_spec h
  obtain ⟨r, rfl, h0⟩ := h
  have hd := isAbs_at (r := r) h0 hs
  obtain ⟨d, e4, hda⟩ := hd
  unfold getFullPath
  rw [e4, e2]
  simp only [liftB, bind, Except.bind]
  cases d with
  | true =>
    have ha := hda.1 rfl
    rw [if_pos rfl, if_neg (hf ha)]
    obtain ⟨b', h1, rfl⟩ := format_spec hn hb (c :: s') []
    rw [h1]
    refine ⟨_, _, rfl, ?_, ⟨_, rfl, take_nz h0⟩, .absolute _ ha (hf ha)⟩
    simp; omega
  | false =>
    have ha : ¬ Absolute (c :: s') := fun h => nomatch hda.2 h
    rw [if_neg (by decide), e3]
    dsimp only
    have hj : 0 ∉ modPath ++ [47] ++ (c :: s') := by
      simp only [List.mem_append, List.mem_singleton]
      rintro ((h | h) | h)
      · exact hm h
      · cases h
      · exact h0 h
    have hj1 : 0 ∉ modPath ++ [47] ++ (c :: s') ++ [46, 120, 54, 52, 46, 115, 111] := by
      intro h; rcases List.mem_append.1 h with h | h
      · exact hj h
      · exact absurd h (by decide)
    have hj2 : 0 ∉ modPath ++ [47] ++ (c :: s') ++ [46, 115, 111] := by
      intro h; rcases List.mem_append.1 h with h | h
      · exact hj h
      · exact absurd h (by decide)
    unfold relPath
    cases ho : o.isSome with
    | true =>
      obtain ⟨o1, f1, f2, r1, rfl⟩ := fmtPath_spec (ε := ε) hn hb (joined modPath (c :: s') [])
      have st : IsStr (slashed ((joined modPath (c :: s') []).take (n - 1)) ++ 0 :: r1) _ := ⟨r1, rfl, slashed_nz (take_nz (by simpa [joined] using hj))⟩
      simp only [↓reduceIte, bind, Except.bind, f1, cstr_of st, liftB, Bool.not_true, Bool.false_and, Bool.false_eq_true]
      refine ⟨_, _, rfl, f2, st, ?_⟩
      have := PathOf.withExt (modPath := modPath) (stat := stat) (n := n) (c :: s') ha (he.1 ho)
      simpa [joined] using this
    | false =>
      have hne : ¬ HasExt (c :: s') := fun h => by rw [he.2 h] at ho; cases ho
      obtain ⟨o1, f1, f2, r1, rfl⟩ := fmtPath_spec (ε := ε) hn hb (joined modPath (c :: s') x64Ext)
      have ej : joined modPath (c :: s') x64Ext = modPath ++ [47] ++ (c :: s') ++ [46, 120, 54, 52, 46, 115, 111] := by simp [joined, x64Ext, soExt]
      have ej2 : joined modPath (c :: s') soExt = modPath ++ [47] ++ (c :: s') ++ [46, 115, 111] := by simp [joined, soExt]
      have st : IsStr (slashed ((joined modPath (c :: s') x64Ext).take (n - 1)) ++ 0 :: r1) _ := ⟨r1, rfl, slashed_nz (take_nz (by rw [ej]; exact hj1))⟩
      simp only [Bool.false_eq_true, ↓reduceIte, bind, Except.bind, f1, cstr_of st, liftB, Bool.not_false, Bool.true_and]
      cases hst : stat (slashed ((joined modPath (c :: s') x64Ext).take (n - 1))) with
      | true =>
        refine ⟨_, _, rfl, f2, st, ?_⟩
        rw [ej] at hst ⊢
        exact .x64 _ ha hne hst
      | false =>
        obtain ⟨o2, g1, g2, r2, rfl⟩ := fmtPath_spec (ε := ε) (out := slashed ((joined modPath (c :: s') x64Ext).take (n - 1)) ++ 0 :: r1) hn (by omega) (joined modPath (c :: s') soExt)
        refine ⟨_, _, g1, by omega, ⟨r2, rfl, slashed_nz (take_nz (by rw [ej2]; exact hj2))⟩, ?_⟩
        rw [ej2]
        rw [ej] at hst
        exact .plain _ ha hne hst

/-- The path is determined. -/
theorem PathOf.unique {modPath : List Byte} {stat : List Byte → Bool} {n : Nat} {s p q : List Byte} (h : PathOf modPath stat n s p) (h' : PathOf modPath stat n s q) : p = q := by
  cases h <;> cases h' <;> first | rfl | contradiction | (simp_all)

/-- "a/b" in "/m": the 64-bit library exists, or does not; in a buffer of 7 bytes it is cut. -/
example : (∃ out', getFullPath (ε := Unit) [47, 109] (fun _ => true) [97, 92, 98, 0] (List.replicate 20 0) 20 = .ok out' ∧ IsStr out' [47, 109, 47, 97, 47, 98, 46, 120, 54, 52, 46, 115, 111]) ∧
    (∃ out', getFullPath (ε := Unit) [47, 109] (fun _ => false) [97, 92, 98, 0] (List.replicate 20 0) 20 = .ok out' ∧ IsStr out' [47, 109, 47, 97, 47, 98, 46, 115, 111]) ∧
    ∃ out', getFullPath (ε := Unit) [47, 109] (fun _ => false) [97, 92, 98, 0] (List.replicate 20 0) 7 = .ok out' ∧ IsStr out' [47, 109, 47, 97, 47, 98] := by
  have hna : ¬ Absolute [97, 92, 98] := by simp [Absolute]
  have hne : ¬ HasExt [97, 92, 98] := by
    rintro ⟨a, e, h, -⟩
    have : (46 : Byte) ∈ [97, 92, 98] := by rw [h]; simp
    exact absurd this (by decide)
  refine ⟨?_, ?_, ?_⟩
  · obtain ⟨o, p, h1, -, h2, h3⟩ := getFullPath_spec (ε := Unit) (modPath := [47, 109]) (s := [97, 92, 98]) (out := List.replicate 20 0) (stat := fun _ => true) (plugin := [97, 92, 98, 0]) (n := 20)
      ⟨[], rfl, by decide⟩ (by simp) (by decide) (by decide) (by simp) (fun h => absurd h hna)
    rw [h3.unique (.x64 _ hna hne rfl)] at h2
    exact ⟨o, h1, h2⟩
  · obtain ⟨o, p, h1, -, h2, h3⟩ := getFullPath_spec (ε := Unit) (modPath := [47, 109]) (s := [97, 92, 98]) (out := List.replicate 20 0) (stat := fun _ => false) (plugin := [97, 92, 98, 0]) (n := 20)
      ⟨[], rfl, by decide⟩ (by simp) (by decide) (by decide) (by simp) (fun h => absurd h hna)
    rw [h3.unique (.plain _ hna hne rfl)] at h2
    exact ⟨o, h1, h2⟩
  · obtain ⟨o, p, h1, -, h2, h3⟩ := getFullPath_spec (ε := Unit) (modPath := [47, 109]) (s := [97, 92, 98]) (out := List.replicate 20 0) (stat := fun _ => false) (plugin := [97, 92, 98, 0]) (n := 7)
      ⟨[], rfl, by decide⟩ (by simp) (by decide) (by decide) (by simp) (fun h => absurd h hna)
    rw [h3.unique (.plain _ hna hne rfl)] at h2
    exact ⟨o, h1, h2⟩

/-- Finding: an absolute path is used as the format: with a `%` in it the outcome is not defined (core/metamod.cpp:1144). -/
theorem absolute_is_format {ε : Type} {modPath s out : List Byte} {stat : List Byte → Bool} {plugin : Buf} {n : Nat} (h : IsStr plugin s) (ha : Absolute s) (hp : 37 ∈ s) :
    getFullPath (ε := ε) modPath stat plugin out n = .error .format := by
  have e2 := cstr_of h
  obtain ⟨r, rfl, h0⟩ := h
  have hs : s ≠ [] := by rintro rfl; cases hp
  obtain ⟨d, e1, hd⟩ := isAbs_at (r := r) h0 hs
  rw [hd.2 ha] at e1
  unfold getFullPath
  rw [e1, e2]
  simp only [liftB, bind, Except.bind, ↓reduceIte]
  rw [if_pos hp]

/-- "/%s" -/
example : getFullPath (ε := Unit) [47, 109] (fun _ => true) [47, 37, 115, 0] (List.replicate 20 0) 20 = .error .format :=
  absolute_is_format (s := [47, 37, 115]) ⟨[], rfl, by decide⟩ (.inl rfl) (by decide)

/-- Finding: for the empty name the byte behind the terminator is read (core/metamod.cpp:1142). -/
theorem empty_name_overreads {ε : Type} {modPath out : List Byte} {stat : List Byte → Bool} {n : Nat} : getFullPath (ε := ε) modPath stat [0] out n = .error (.buf .outOfBounds) := by
  have e1 : isAbs [0] = .error .outOfBounds := rfl
  unfold getFullPath
  rw [e1]
  rfl

#print axioms getExtension_spec
#print axioms getFullPath_spec
#print axioms absolute_is_format
#print axioms empty_name_overreads

end Verif.PFile
