import Verif.Util.Path
/-
Property C35: path comparison.
-/
namespace Verif.Util
open Verif.C

/-- Spec: every run of separators becomes one separator. -/
def collapse : List Byte → List Byte
  | [] => []
  | c :: s => if c = 47 ∧ s.head? = some 47 then collapse s else c :: collapse s

theorem collapse_slash (s : List Byte) : collapse (47 :: s) = 47 :: collapse (s.dropWhile (· == 47)) := by
  induction s with
  | nil => rfl
  | cons c s ih =>
    by_cases h : c = 47
    · subst h
      rw [collapse, if_pos ⟨rfl, rfl⟩, ih]; simp
    · rw [collapse, if_neg (by rintro ⟨_, h2⟩; exact h (by simpa using h2))]
      simp [h]

theorem collapse_other {c : Byte} (h : c ≠ 47) (s : List Byte) : collapse (c :: s) = c :: collapse s := by
  rw [collapse, if_neg (fun h2 => h h2.1)]

theorem collapse_cons (c : Byte) (s : List Byte) : ∃ t, collapse (c :: s) = c :: t := by
  by_cases h : c = 47
  · subst h; exact ⟨_, collapse_slash s⟩
  · exact ⟨_, collapse_other h s⟩

theorem skipSep_str {a s r : List Byte} (h0 : 0 ∉ s) :
    skipSep (a ++ s ++ 0 :: r) a.length = .ok (a.length + (s.takeWhile (· == 47)).length) := by
  induction s generalizing a with
  | nil => unfold skipSep; simp
  | cons c s ih =>
    have := ih (a := a ++ [c]) (fun hm => h0 (List.mem_cons_of_mem _ hm))
    unfold skipSep
    simp only [List.append_assoc, List.cons_append, List.nil_append, List.length_append, List.length_cons, List.length_nil] at this ⊢
    rw [dif_pos (by omega)]
    simp only [List.getElem_append_right (Nat.le_refl _), Nat.sub_self, List.getElem_cons_zero]
    by_cases hc : c = 47
    · subst hc
      rw [if_pos rfl, this]
      simp; omega
    · rw [if_neg hc]
      simp [hc]

/-- A position behind a prefix of the string. -/
theorem split_run (s : List Byte) : s = s.takeWhile (· == 47) ++ s.dropWhile (· == 47) := List.takeWhile_append_dropWhile.symm

theorem pathCmp_end {a1 r1 a2 s2 r2 : List Byte} (h2 : 0 ∉ s2) :
    pathCmp (a1 ++ 0 :: r1) (a2 ++ s2 ++ 0 :: r2) a1.length a2.length = .ok (decide (collapse [] = collapse s2)) := by
  have hget : ∀ h, (a1 ++ 0 :: r1)[a1.length]'h = 0 := by simp
  unfold pathCmp
  rw [dif_pos (by simp)]
  simp only [hget]
  cases s2 with
  | nil =>
    rw [show rd (a2 ++ [] ++ 0 :: r2) a2.length = .ok 0 from by rw [List.append_nil]; exact rd_left]
    simp
  | cons c s2 =>
    have hc : c ≠ 0 := fun e => h2 (by simp [e])
    rw [show rd (a2 ++ c :: s2 ++ 0 :: r2) a2.length = .ok c from by rw [List.append_assoc, List.cons_append]; exact rd_left]
    obtain ⟨t, ht⟩ := collapse_cons c s2
    rw [ht, collapse]; simp [Ne.symm hc]

theorem pathCmp_from (n : Nat) : ∀ {a1 s1 r1 a2 s2 r2 : List Byte}, s1.length ≤ n → 0 ∉ s1 → 0 ∉ s2 →
    pathCmp (a1 ++ s1 ++ 0 :: r1) (a2 ++ s2 ++ 0 :: r2) a1.length a2.length = .ok (decide (collapse s1 = collapse s2)) := by
  induction n with
  | zero =>
    intro a1 s1 r1 a2 s2 r2 hn h1 h2
    obtain rfl := List.length_eq_zero_iff.1 (Nat.le_zero.1 hn)
    rw [List.append_nil]; exact pathCmp_end h2
  | succ n ih =>
    intro a1 s1 r1 a2 s2 r2 hn h1 h2
    cases s1 with
    | nil => rw [List.append_nil]; exact pathCmp_end h2
    | cons c1 s1 =>
      have hc1 : c1 ≠ 0 := fun e => h1 (by simp [e])
      have h1' : 0 ∉ s1 := fun hm => h1 (List.mem_cons_of_mem _ hm)
      have hget : ∀ h, (a1 ++ c1 :: s1 ++ 0 :: r1)[a1.length]'h = c1 := by simp
      unfold pathCmp
      rw [dif_pos (by simp)]
      simp only [hget]
      cases s2 with
      | nil =>
        rw [show rd (a2 ++ [] ++ 0 :: r2) a2.length = .ok 0 from by rw [List.append_nil]; exact rd_left]
        obtain ⟨t, ht⟩ := collapse_cons c1 s1
        rw [ht, collapse]; simp [hc1]
      | cons c2 s2 =>
        have hc2 : c2 ≠ 0 := fun e => h2 (by simp [e])
        have h2' : 0 ∉ s2 := fun hm => h2 (List.mem_cons_of_mem _ hm)
        rw [show rd (a2 ++ c2 :: s2 ++ 0 :: r2) a2.length = .ok c2 from by
          rw [List.append_assoc, List.cons_append]; exact rd_left]
        dsimp only
        rw [if_neg (by rintro (h | h); exact hc1 h; exact hc2 h)]
        by_cases hs : c1 = 47
        · rw [if_pos hs]
          subst hs
          by_cases hs2 : c2 = 47
          · subst hs2
            rw [if_neg (by simp)]
            have e1 := skipSep_str (a := a1 ++ [47]) (s := s1) (r := r1) h1'
            have e2 := skipSep_str (a := a2 ++ [47]) (s := s2) (r := r2) h2'
            have hd1 : 0 ∉ s1.dropWhile (· == 47) := fun hm => h1' ((List.dropWhile_sublist _).subset hm)
            have hd2 : 0 ∉ s2.dropWhile (· == 47) := fun hm => h2' ((List.dropWhile_sublist _).subset hm)
            have := ih (a1 := a1 ++ 47 :: s1.takeWhile (· == 47)) (s1 := s1.dropWhile (· == 47)) (r1 := r1)
              (a2 := a2 ++ 47 :: s2.takeWhile (· == 47)) (s2 := s2.dropWhile (· == 47)) (r2 := r2)
              (by have := (List.dropWhile_sublist (· == (47 : Byte)) (l := s1)).length_le
                  simp at hn; omega) hd1 hd2
            have l1 : a1 ++ 47 :: s1.takeWhile (· == 47) ++ s1.dropWhile (· == 47) = a1 ++ 47 :: s1 := by
              rw [List.append_assoc, List.cons_append, List.takeWhile_append_dropWhile]
            have l2 : a2 ++ 47 :: s2.takeWhile (· == 47) ++ s2.dropWhile (· == 47) = a2 ++ 47 :: s2 := by
              rw [List.append_assoc, List.cons_append, List.takeWhile_append_dropWhile]
            rw [l1, l2] at this
            simp only [List.append_assoc, List.cons_append, List.nil_append, List.length_append, List.length_cons, List.length_nil, Nat.zero_add] at e1 e2 this
            have n1 : a1 ++ 47 :: s1 ++ 0 :: r1 = a1 ++ 47 :: (s1 ++ 0 :: r1) := by simp
            have n2 : a2 ++ 47 :: s2 ++ 0 :: r2 = a2 ++ 47 :: (s2 ++ 0 :: r2) := by simp
            rw [← n1] at e1 this
            rw [← n2] at e2 this
            split
            · next e he => rw [e1] at he; cases he
            · next q1 he =>
              rw [e1] at he; cases he
              rw [e2]
              dsimp only
              rw [show a1.length + 1 + (List.takeWhile (fun x => x == 47) s1).length = a1.length + ((List.takeWhile (fun x => x == 47) s1).length + 1) by omega,
                show a2.length + 1 + (List.takeWhile (fun x => x == 47) s2).length = a2.length + ((List.takeWhile (fun x => x == 47) s2).length + 1) by omega,
                this, collapse_slash, collapse_slash]
              simp
          · rw [if_pos hs2, collapse_slash, collapse_other hs2]
            simp [Ne.symm hs2]
        · rw [if_neg hs]
          by_cases he : c1 = c2
          · subst he
            rw [if_neg (by simp), if_neg (by simp)]
            have := ih (a1 := a1 ++ [c1]) (s1 := s1) (r1 := r1) (a2 := a2 ++ [c1]) (s2 := s2) (r2 := r2) (by simpa using hn) h1' h2'
            simp only [List.append_assoc, List.cons_append, List.nil_append, List.length_append, List.length_cons, List.length_nil, Nat.zero_add] at this ⊢
            rw [this, collapse_other hs, collapse_other hs]
            simp
          · obtain ⟨t, ht⟩ := collapse_cons c2 s2
            rw [collapse_other hs, ht]
            have : decide (c1 :: collapse s1 = c2 :: t) = false := by simp [he]
            rw [this]
            split
            · rfl
            · first | rfl | rw [if_pos he]

/-- C35: `UTIL_PathCmp` answers whether the two paths are equal up to repeated separators, reading inside the
two strings (their terminators included) only. -/
theorem pathCmp_spec {b1 b2 : Buf} {s1 s2 : List Byte} (h1 : IsStr b1 s1) (h2 : IsStr b2 s2) :
    pathCmp b1 b2 0 0 = .ok (decide (collapse s1 = collapse s2)) := by
  obtain ⟨r1, rfl, k1⟩ := h1
  obtain ⟨r2, rfl, k2⟩ := h2
  have := pathCmp_from s1.length (a1 := []) (a2 := []) (s1 := s1) (r1 := r1) (s2 := s2) (r2 := r2) (Nat.le_refl _) k1 k2
  simpa using this

/-- `/a//b` and `/a/b`; `/a` and `/a/` differ. -/
example : IsStr [47, 97, 47, 47, 98, 0] [47, 97, 47, 47, 98] ∧ IsStr [47, 97, 47, 98, 0, 1] [47, 97, 47, 98] ∧
    collapse [47, 97, 47, 47, 98] = collapse [47, 97, 47, 98] ∧ collapse [47, 97] ≠ collapse [47, 97, 47] :=
  ⟨⟨[], rfl, by decide⟩, ⟨[1], rfl, by decide⟩, by decide, by decide⟩

/-- C35: it is an equivalence relation. -/
theorem pathCmp_equiv {b1 b2 b3 : Buf} {s1 s2 s3 : List Byte} (h1 : IsStr b1 s1) (h2 : IsStr b2 s2) (h3 : IsStr b3 s3) :
    pathCmp b1 b1 0 0 = .ok true ∧ pathCmp b1 b2 0 0 = pathCmp b2 b1 0 0 ∧
    (pathCmp b1 b2 0 0 = .ok true → pathCmp b2 b3 0 0 = .ok true → pathCmp b1 b3 0 0 = .ok true) := by
  simp only [pathCmp_spec h1 h1, pathCmp_spec h1 h2, pathCmp_spec h2 h1, pathCmp_spec h2 h3, pathCmp_spec h1 h3]
  refine ⟨by simp, ?_, ?_⟩
  · congr 1; exact decide_eq_decide.2 ⟨Eq.symm, Eq.symm⟩
  · intro a b
    simp only [Except.ok.injEq, decide_eq_true_eq] at a b ⊢
    exact a.trans b

example : pathCmp [47, 97, 47, 0] [47, 47, 97, 47, 0] 0 0 = .ok true := by
  exact (pathCmp_spec (s1 := [47, 97, 47]) (s2 := [47, 47, 97, 47]) ⟨[], rfl, by decide⟩ ⟨[], rfl, by decide⟩).trans rfl

/-- C35 for the loader: `mm_PathCmp` compares the full paths, or the given paths where there is none. -/
theorem mmPathCmp_spec {rp : List Byte → Option Buf} {b1 b2 : Buf} {s1 s2 f1 f2 : List Byte} (h1 : IsStr b1 s1) (h2 : IsStr b2 s2)
    (k1 : IsStr ((rp s1).getD b1) f1) (k2 : IsStr ((rp s2).getD b2) f2) :
    mmPathCmp rp b1 b2 = .ok (decide (collapse f1 = collapse f2)) := by
  unfold mmPathCmp
  rw [cstr_of h1, cstr_of h2]
  exact pathCmp_spec k1 k2

example : mmPathCmp (fun s => if s = [97] then some [47, 97, 0, 5] else none) [97, 0] [47, 47, 97, 0] = .ok true := by
  exact (mmPathCmp_spec (s1 := [97]) (s2 := [47, 47, 97]) (f1 := [47, 97]) (f2 := [47, 47, 97]) ⟨[], rfl, by decide⟩ ⟨[], rfl, by decide⟩
    ⟨[5], rfl, by decide⟩ ⟨[], rfl, by decide⟩).trans rfl

end Verif.Util

#print axioms Verif.Util.pathCmp_spec
#print axioms Verif.Util.pathCmp_equiv
#print axioms Verif.Util.mmPathCmp_spec
