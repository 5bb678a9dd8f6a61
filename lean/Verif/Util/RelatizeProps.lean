import Verif.Util.Path
/-
Property C36: relative paths resolve to the target.
-/
namespace Verif.Util
open Verif.C

/-! ## Spec: walking a path -/

/-- The pieces between separators (some may be empty). -/
def pieces : List Byte → List (List Byte)
  | [] => [[]]
  | c :: s =>
    if c = 47 then [] :: pieces s
    else match pieces s with
      | [] => [[c]]
      | p :: ps => (c :: p) :: ps

/-- The components of a path: its non-empty pieces. -/
def comps (s : List Byte) : List (List Byte) := (pieces s).filter (· ≠ [])

/-- One step of a walk: `.` stays, `..` goes up (the root is its own parent), anything else goes down. -/
def walkStep (dir : List (List Byte)) (p : List Byte) : List (List Byte) :=
  if p = [46] then dir else if p = [46, 46] then dir.dropLast else dir ++ [p]

/-- Where a path leads, starting in directory `dir` (as the list of its components below the root). -/
def resolve (dir : List (List Byte)) (s : List Byte) : List (List Byte) :=
  (comps s).foldl walkStep (if s.head? = some 47 then [] else dir)

/-- Absolute, without `.` and `..` components. -/
structure Clean (s : List Byte) : Prop where
  abs : s.head? = some 47
  nodot : ∀ p ∈ comps s, p ≠ [46] ∧ p ≠ [46, 46]

/-! ## Lemmas -/

theorem pieces_ne (s : List Byte) : pieces s ≠ [] := by
  cases s with
  | nil => simp [pieces]
  | cons c s =>
    unfold pieces
    split
    · simp
    · split <;> simp

theorem pieces_cons {c : Byte} (h : c ≠ 47) {s p : List Byte} {ps : List (List Byte)} (e : pieces s = p :: ps) :
    pieces (c :: s) = (c :: p) :: ps := by
  rw [pieces, if_neg h, e]

theorem pieces_slash (s : List Byte) : pieces (47 :: s) = [] :: pieces s := by rw [pieces, if_pos rfl]

theorem pieces_append (a b : List Byte) : pieces (a ++ 47 :: b) = pieces a ++ pieces b := by
  induction a with
  | nil => rw [List.nil_append, pieces_slash]; rfl
  | cons c a ih =>
    by_cases h : c = 47
    · subst h; rw [List.cons_append, pieces_slash, pieces_slash, ih]; rfl
    · cases hp : pieces a with
      | nil => exact absurd hp (pieces_ne a)
      | cons p ps =>
        rw [hp] at ih
        rw [List.cons_append, pieces_cons h hp, pieces_cons h ih]; rfl

theorem comps_append (a b : List Byte) : comps (a ++ 47 :: b) = comps a ++ comps b := by
  unfold comps; rw [pieces_append, List.filter_append]

theorem comps_nil : comps [] = [] := rfl

theorem comps_sep (a : List Byte) : comps (a ++ [47]) = comps a := by rw [comps_append, comps_nil, List.append_nil]

theorem pieces_noslash {p : List Byte} (h : 47 ∉ p) : pieces p = [p] := by
  induction p with
  | nil => rfl
  | cons c p ih =>
    have hc : c ≠ 47 := fun e => h (by simp [e])
    exact pieces_cons hc (ih fun hm => h (List.mem_cons_of_mem _ hm))

theorem mem_pieces {s p : List Byte} (h : p ∈ pieces s) : 47 ∉ p := by
  induction s generalizing p with
  | nil => simp [pieces] at h; subst h; simp
  | cons c s ih =>
    by_cases hc : c = 47
    · subst hc
      rw [pieces_slash] at h
      rcases List.mem_cons.1 h with rfl | h
      · simp
      · exact ih h
    · cases hp : pieces s with
      | nil => exact absurd hp (pieces_ne s)
      | cons q qs =>
        rw [pieces_cons hc hp] at h
        rcases List.mem_cons.1 h with rfl | h
        · have := ih (p := q) (by rw [hp]; simp)
          simp [Ne.symm hc, this]
        · exact ih (by rw [hp]; exact List.mem_cons_of_mem _ h)

theorem mem_comps {s p : List Byte} (h : p ∈ comps s) : 47 ∉ p ∧ p ≠ [] := by
  unfold comps at h
  obtain ⟨h1, h2⟩ := List.mem_filter.1 h
  exact ⟨mem_pieces h1, by simpa using h2⟩

theorem comps_join {ps : List (List Byte)} (h : ∀ p ∈ ps, 47 ∉ p ∧ p ≠ []) : comps (joinParts ps) = ps := by
  induction ps with
  | nil => rfl
  | cons p ps ih =>
    have hp := h p (by simp)
    have hcp : comps p = [p] := by unfold comps; rw [pieces_noslash hp.1]; simp [hp.2]
    cases ps with
    | nil => exact hcp
    | cons q ps =>
      rw [joinParts, comps_append, hcp, ih (fun x hx => h x (List.mem_cons_of_mem _ hx))]; rfl

theorem comps_ups (n : Nat) (t : List Byte) : comps ((List.replicate n [46, 46, 47]).flatten ++ t) = List.replicate n [46, 46] ++ comps t := by
  induction n with
  | zero => rfl
  | succ n ih =>
    rw [List.replicate_succ, List.flatten_cons, List.append_assoc]
    show comps ([46, 46] ++ 47 :: ((List.replicate n [46, 46, 47]).flatten ++ t)) = _
    rw [comps_append, ih]; rfl

theorem walk_up (n : Nat) : ∀ (a b : List (List Byte)), b.length = n → (List.replicate n [46, 46]).foldl walkStep (a ++ b) = a := by
  induction n with
  | zero =>
    intro a b hb
    obtain rfl := List.length_eq_zero_iff.1 hb
    simp
  | succ n ih =>
    intro a b hb
    rcases List.eq_nil_or_concat b with rfl | ⟨b', x, rfl⟩
    · cases hb
    · rw [List.replicate_succ, List.foldl_cons]
      have : walkStep (a ++ b'.concat x) [46, 46] = a ++ b' := by
        unfold walkStep
        rw [if_neg (by decide), if_pos rfl, List.concat_eq_append, ← List.append_assoc, List.dropLast_concat]
      rw [this]
      exact ih a b' (by simpa using hb)

theorem walk_down {b : List (List Byte)} (h : ∀ p ∈ b, p ≠ [46] ∧ p ≠ [46, 46]) (a : List (List Byte)) : b.foldl walkStep a = a ++ b := by
  induction b generalizing a with
  | nil => simp
  | cons p b ih =>
    have hp := h p (by simp)
    rw [List.foldl_cons, ih (fun x hx => h x (List.mem_cons_of_mem _ hx))]
    unfold walkStep
    rw [if_neg hp.1, if_neg hp.2]; simp

/-- `..` once per component of `b`, then down `y`. -/
theorem resolve_rel {a b : List (List Byte)} {t : List Byte} {n : Nat} (hn : b.length = n)
    (ht : ((List.replicate n [46, 46, 47]).flatten ++ t).head? ≠ some 47) (hd : ∀ p ∈ comps t, p ≠ [46] ∧ p ≠ [46, 46]) :
    resolve (a ++ b) ((List.replicate n [46, 46, 47]).flatten ++ t) = a ++ comps t := by
  unfold resolve
  rw [if_neg ht, comps_ups, List.foldl_append, walk_up n a b hn, walk_down hd]

theorem head_ups {n : Nat} {t : List Byte} (h : n = 0 → t.head? ≠ some 47) : ((List.replicate n [46, 46, 47]).flatten ++ t).head? ≠ some 47 := by
  cases n with
  | zero => simpa using h rfl
  | succ n => rw [List.replicate_succ]; simp

theorem splitLoop_eq (cur s : List Byte) : splitLoop cur s = match pieces s with
    | [] => []
    | p :: ps => ((cur ++ p) :: ps).filter (· ≠ []) := by
  induction s generalizing cur with
  | nil =>
    rw [splitLoop]
    simp only [pieces, List.append_nil]
    by_cases h : cur = [] <;> simp [h]
  | cons c s ih =>
    rw [splitLoop]
    cases hp : pieces s with
    | nil => exact absurd hp (pieces_ne s)
    | cons p ps =>
      by_cases hc : c = 47
      · subst hc
        have h0 := ih []
        rw [hp] at h0
        simp only [List.nil_append] at h0
        rw [if_pos rfl, pieces_slash, hp]
        simp only [List.append_nil]
        by_cases h : cur = []
        · rw [if_pos h, h0, h]; simp
        · rw [if_neg h, h0]
          rw [List.filter_cons (x := cur), if_pos (by simpa using h)]
      · rw [if_neg hc, ih, pieces_cons hc hp, hp]
        simp

theorem splitLoop_comps (s : List Byte) : splitLoop [] s = comps s := by
  rw [splitLoop_eq]
  unfold comps
  cases pieces s <;> rfl

theorem skipCommon_spec (A B : List (List Byte)) : ∃ C, A = C ++ (skipCommon A B).1 ∧ B = C ++ (skipCommon A B).2 := by
  induction A generalizing B with
  | nil => exact ⟨[], by cases B <;> simp [skipCommon], by cases B <;> simp [skipCommon]⟩
  | cons a A ih =>
    cases B with
    | nil => exact ⟨[], by simp [skipCommon], by simp [skipCommon]⟩
    | cons b B =>
      rw [skipCommon]
      split
      · next h =>
        subst h
        obtain ⟨C, h1, h2⟩ := ih B
        exact ⟨a :: C, by rw [List.cons_append, ← h1], by rw [List.cons_append, ← h2]⟩
      · exact ⟨[], rfl, rfl⟩

/-! ## UTIL_Relatize2 -/

/-- C36 for `UTIL_Relatize2` (excluded: both paths lead to the same directory other than the root, and the second one
has a trailing separator; see `relatize_same_dir_wrong`). -/
theorem relatize2_resolves {p1 p2 : List Byte} (h1 : Clean p1) (h2 : Clean p2)
    (hx : comps p1 ≠ comps p2 ∨ comps p1 = [] ∨ p2.getLast? ≠ some 47) :
    ∃ t, relatize2 p1 p2 = .ok (some t) ∧ resolve (comps p1) t = comps p2 := by
  unfold relatize2 splitPath
  rw [if_pos h1.abs, if_pos h2.abs, splitLoop_comps, splitLoop_comps]
  simp only [ne_eq, not_true_eq_false, if_false]
  obtain ⟨C, e1, e2⟩ := skipCommon_spec (comps p1) (comps p2)
  generalize hA : (skipCommon (comps p1) (comps p2)).1 = A at e1
  generalize hB : (skipCommon (comps p1) (comps p2)).2 = B at e2
  refine ⟨_, rfl, ?_⟩
  have hBc : ∀ p ∈ B, 47 ∉ p ∧ p ≠ [] := fun p hp => mem_comps (s := p2) (by rw [e2]; exact List.mem_append_right _ hp)
  have hBd : ∀ p ∈ B, p ≠ [46] ∧ p ≠ [46, 46] := fun p hp => h2.nodot p (by rw [e2]; exact List.mem_append_right _ hp)
  have hj : ∀ z, z = [] ∨ z = [47] → comps (joinParts B ++ z) = B := by
    rintro z (rfl | rfl)
    · rw [List.append_nil, comps_join hBc]
    · rw [comps_sep, comps_join hBc]
  have hz : (if p2.getLast? = some 47 then [47] else ([] : List Byte)) = [] ∨ (if p2.getLast? = some 47 then [47] else ([] : List Byte)) = [47] := by
    split <;> simp
  rw [List.append_assoc]
  by_cases hhead : A = [] ∧ B = []
  · obtain ⟨rfl, rfl⟩ := hhead
    rw [List.append_nil] at e1 e2
    rcases hx with hx | hx | hx
    · exact absurd (e1.trans e2.symm) hx
    · rw [hx] at e1
      subst e1
      rw [e2, hx]
      simp only [List.length_nil, List.replicate_zero, List.flatten_nil, List.nil_append, joinParts]
      split <;> rfl
    · rw [if_neg hx, e1, e2]
      rfl
  · rw [e1, resolve_rel rfl (head_ups ?_) (by rw [hj _ hz]; exact hBd), hj _ hz, ← e2]
    intro h0
    have hA0 : A = [] := List.length_eq_zero_iff.1 h0
    cases B with
    | nil => exact absurd ⟨hA0, rfl⟩ hhead
    | cons b B =>
      obtain ⟨hb1, hb2⟩ := hBc b (by simp)
      cases b with
      | nil => exact absurd rfl hb2
      | cons c b =>
        have hc : c ≠ 47 := fun e => hb1 (by simp [e])
        cases B with
        | nil => simp [joinParts, hc]
        | cons q B => simp [joinParts, hc]

/-- `/a/b` to `/a/c/d`. -/
example : Clean [47, 97, 47, 98] ∧ Clean [47, 97, 47, 99, 47, 100] ∧ comps [47, 97, 47, 98] ≠ comps [47, 97, 47, 99, 47, 100] ∧
    relatize2 [47, 97, 47, 98] [47, 97, 47, 99, 47, 100] = .ok (some [46, 46, 47, 99, 47, 100]) :=
  ⟨⟨rfl, by decide⟩, ⟨rfl, by decide⟩, by decide, rfl⟩

/-! ## UTIL_BadRelatize -/

theorem commonRoot_spec {s t : List Byte} {root : Option (List Byte × List Byte)} {x y : List Byte} (P : List Byte)
    (h : commonRoot s t root = some (x, y)) (hroot : ∀ u v, root = some (u, v) → ∃ Q u' v', u = 47 :: u' ∧ v = 47 :: v' ∧ P ++ s = Q ++ u ∧ P ++ t = Q ++ v) :
    ∃ Q x' y', x = 47 :: x' ∧ y = 47 :: y' ∧ P ++ s = Q ++ x ∧ P ++ t = Q ++ y := by
  induction s generalizing t root P with
  | nil =>
    cases t <;> exact hroot x y (by simpa [commonRoot] using h)
  | cons a s ih =>
    cases t with
    | nil => exact hroot x y (by simpa [commonRoot] using h)
    | cons b t =>
      rw [commonRoot] at h
      split at h
      · next hab =>
        obtain ⟨rfl, rfl⟩ := hab
        have := ih (P ++ [47]) h (by
          intro u v e; cases e
          exact ⟨P, s, t, rfl, rfl, by simp, by simp⟩)
        simpa using this
      · split at h
        · exact hroot x y h
        · next hab =>
          have hab : a = b := by simpa using hab
          subst hab
          have := ih (P ++ [a]) h (by
            intro u v e
            obtain ⟨Q, u', v', k1, k2, k3, k4⟩ := hroot u v e
            exact ⟨Q, u', v', k1, k2, by simpa using k3, by simpa using k4⟩)
          simpa using this

theorem appendText_some {m : Nat} {acc t r : List Byte} (h : appendText m acc t = some r) : r = acc ++ t := by
  unfold appendText at h
  split at h
  · cases h
  · cases h; rfl

theorem appendUps_some {m n : Nat} {acc r : List Byte} (h : appendUps m n acc = some r) : r = acc ++ (List.replicate n [46, 46, 47]).flatten := by
  induction n generalizing acc with
  | zero => rw [appendUps] at h; cases h; simp
  | succ n ih =>
    rw [appendUps] at h
    split at h
    · cases h
    · next acc' e =>
      rw [ih h, appendText_some e, List.replicate_succ]; simp

/-- Without doubled separators the levels counted are the components behind the common root. -/
theorem countLevels_eq {s : List Byte} (h : ¬ [47, 47] <:+: s) : countLevels s = ((pieces s).tail.filter (· ≠ [])).length := by
  induction s with
  | nil => rfl
  | cons c s ih =>
    have h' : ¬ [47, 47] <:+: s := fun hi => h (List.infix_cons hi)
    rw [countLevels]
    by_cases hc : c = 47
    · subst hc
      rw [if_pos rfl, pieces_slash, List.tail_cons]
      cases s with
      | nil => simp [pieces]
      | cons d s =>
        rw [if_neg (by simp), ih h']
        have hd : d ≠ 47 := by rintro rfl; exact h ⟨[], s, rfl⟩
        cases hp : pieces s with
        | nil => exact absurd hp (pieces_ne s)
        | cons p ps => rw [pieces_cons hd hp]; simp
    · rw [if_neg hc, ih h']
      cases hp : pieces s with
      | nil => exact absurd hp (pieces_ne s)
      | cons p ps => rw [pieces_cons hc hp]; simp

/-- C36 for `UTIL_BadRelatize`: without doubled separators, a text it produces resolves to the target. -/
theorem badRelatize_resolves {m : Nat} {p1 p2 t : List Byte} (h2 : Clean p2) (d1 : ¬ [47, 47] <:+: p1)
    (d2 : ¬ [47, 47] <:+: p2) (h : badRelatize m p1 p2 = some t) : resolve (comps p1) t = comps p2 := by
  unfold badRelatize at h
  split at h
  · cases h
  · split at h
    · cases h
    · next x y e =>
      obtain ⟨Q, x', y', rfl, rfl, e1, e2⟩ := commonRoot_spec [] e (by intro u v e; cases e)
      simp only [List.nil_append] at e1 e2
      dsimp only at h
      split at h
      · cases h
      · next acc ea =>
        have hacc := appendUps_some ea
        have ht := appendText_some h
        subst hacc
        simp only [List.nil_append, List.drop_succ_cons, List.drop_zero] at ht
        have hlev : (if x' ≠ [] then countLevels (47 :: x') else 0) = (comps x').length := by
          have hx : ¬ [47, 47] <:+: 47 :: x' := by
            rintro ⟨u, v, huv⟩
            exact d1 ⟨Q ++ u, v, by rw [e1, ← huv]; simp⟩
          split
          · rw [countLevels_eq hx, pieces_slash, List.tail_cons]; rfl
          · next hxe =>
            have : x' = [] := by simpa using hxe
            subst this; rfl
        rw [hlev] at ht
        have c1 : comps p1 = comps Q ++ comps x' := by rw [e1, comps_append]
        have c2 : comps p2 = comps Q ++ comps y' := by rw [e2, comps_append]
        rw [ht, c1, c2]
        refine resolve_rel rfl (head_ups ?_) ?_
        · intro _ hy
          cases y' with
          | nil => cases hy
          | cons c y' =>
            cases hy
            exact d2 ⟨Q, y', by rw [e2]; simp⟩
        · intro p hp
          exact h2.nodot p (by rw [c2]; exact List.mem_append_right _ hp)

/-- `/a/b` to `/a/c/d`, and the trailing separator case `/a/b/`. -/
example : badRelatize 50 [47, 97, 47, 98] [47, 97, 47, 99, 47, 100] = some [46, 46, 47, 99, 47, 100] ∧
    badRelatize 50 [47, 97, 47, 98, 47] [47, 97, 47, 99] = some [46, 46, 47, 99] ∧ ¬ [47, 47] <:+: ([47, 97, 47, 98] : List Byte) :=
  ⟨rfl, rfl, by decide⟩

/-! ## UTIL_Relatize -/

/-- Total length of components with one separator each. -/
def total (ps : List (List Byte)) : Nat := (ps.map fun p => p.length + 1).sum

theorem total_pieces (s : List Byte) : total (pieces s) = s.length + 1 := by
  induction s with
  | nil => rfl
  | cons c s ih =>
    cases hp : pieces s with
    | nil => exact absurd hp (pieces_ne s)
    | cons p ps =>
      rw [hp] at ih
      by_cases hc : c = 47
      · subst hc; rw [pieces_slash, hp]; simp only [total, List.map_cons, List.sum_cons, List.length_nil, List.length_cons] at ih ⊢; omega
      · rw [pieces_cons hc hp]; simp only [total, List.map_cons, List.sum_cons, List.length_cons] at ih ⊢; omega

theorem total_filter (ps : List (List Byte)) : total (ps.filter (· ≠ [])) ≤ total ps := by
  induction ps with
  | nil => simp [total]
  | cons p ps ih =>
    rw [List.filter_cons]
    split <;> simp only [total, List.map_cons, List.sum_cons] at ih ⊢ <;> omega

theorem total_append (a b : List (List Byte)) : total (a ++ b) = total a + total b := by simp [total]

theorem join_length (ps : List (List Byte)) : (joinParts ps).length ≤ total ps := by
  induction ps with
  | nil => simp [joinParts, total]
  | cons p ps ih =>
    cases ps with
    | nil => simp [joinParts, total]
    | cons q ps =>
      rw [joinParts]
      simp only [List.length_append, List.length_cons, total, List.map_cons, List.sum_cons] at ih ⊢; omega

theorem length_total (ps : List (List Byte)) : ps.length ≤ total ps := by
  induction ps with
  | nil => simp
  | cons p ps ih => simp only [total, List.map_cons, List.sum_cons, List.length_cons] at ih ⊢; omega

theorem ups_length (n : Nat) : (List.replicate n ([46, 46, 47] : List Byte)).flatten.length = 3 * n := by
  induction n with
  | zero => rfl
  | succ n ih => rw [List.replicate_succ, List.flatten_cons, List.length_append, ih]; simp; omega

theorem relatize2_length {p1 p2 t : List Byte} (h1 : p1.head? = some 47) (h2 : p2.head? = some 47) (h : relatize2 p1 p2 = .ok (some t)) :
    t.length ≤ 3 * (p1.length + 1) + p2.length + 2 := by
  unfold relatize2 splitPath at h
  rw [if_pos h1, if_pos h2, splitLoop_comps, splitLoop_comps] at h
  simp only [ne_eq, not_true_eq_false, if_false] at h
  obtain ⟨C, e1, e2⟩ := skipCommon_spec (comps p1) (comps p2)
  generalize hA : (skipCommon (comps p1) (comps p2)).1 = A at e1
  generalize hB : (skipCommon (comps p1) (comps p2)).2 = B at e2
  have hc : ∀ s, total (comps s) ≤ s.length + 1 := fun s => by
    rw [← total_pieces s]; exact total_filter _
  have a1 := hc p1
  have a2 := hc p2
  rw [e1, total_append] at a1
  rw [e2, total_append] at a2
  have a3 := length_total A
  have a4 := join_length B
  rw [hA, hB] at h
  cases h
  rw [List.length_append, List.length_append, ups_length]
  split <;> simp <;> omega

/-- C36 (missing: doubled separators, see `relatize_double_sep_wrong`, and a target equal to the start with a trailing
separator, see `relatize_same_dir_wrong`): with a large enough buffer the result, walked from the first path, leads to the second.
`pathExists` is arbitrary. -/
theorem relatize_resolves_partial (pathExists : List Byte → Bool) {m : Nat} {p1 p2 : List Byte} (h1 : Clean p1) (h2 : Clean p2)
    (d1 : ¬ [47, 47] <:+: p1) (d2 : ¬ [47, 47] <:+: p2)
    (hx : comps p1 ≠ comps p2 ∨ comps p1 = [] ∨ p2.getLast? ≠ some 47) (hm : 3 * (p1.length + 1) + p2.length + 3 ≤ m) :
    ∃ t, relatize pathExists m p1 p2 = .ok (some t) ∧ resolve (comps p1) t = comps p2 := by
  obtain ⟨t2, k1, k2⟩ := relatize2_resolves h1 h2 hx
  have hl := relatize2_length h1.abs h2.abs k1
  have key : (relatize2 p1 p2).map (·.map (·.take (m - 1))) = .ok (some t2) := by
    rw [k1]
    show Except.ok (some (t2.take (m - 1))) = _
    rw [List.take_of_length_le (by omega)]
  unfold relatize
  split
  · next t e =>
    split
    · exact ⟨t, rfl, badRelatize_resolves h2 d1 d2 e⟩
    · exact ⟨t2, key, k2⟩
  · exact ⟨t2, key, k2⟩

example : Clean [47, 97, 47, 98] ∧ Clean [47, 97, 47, 99] ∧ ¬ [47, 47] <:+: ([47, 97, 47, 98] : List Byte) ∧
    ¬ [47, 47] <:+: ([47, 97, 47, 99] : List Byte) ∧ comps [47, 97, 47, 98] ≠ comps [47, 97, 47, 99] :=
  ⟨⟨rfl, by decide⟩, ⟨rfl, by decide⟩, by decide, by decide, by decide⟩

/-- C36, negation: with a doubled separator in the first path (`/r/a//b` to `/r/c`) and the produced text naming some
existing file, the result leads to `/c`. -/
theorem relatize_double_sep_wrong : ∃ p1 p2 t, Clean p1 ∧ Clean p2 ∧ relatize (fun _ => true) 256 p1 p2 = .ok (some t) ∧
    resolve (comps p1) t ≠ comps p2 :=
  ⟨[47, 114, 47, 97, 47, 47, 98], [47, 114, 47, 99], [46, 46, 47, 46, 46, 47, 46, 46, 47, 99],
    ⟨rfl, by decide⟩, ⟨rfl, by decide⟩, rfl, by decide⟩

/-- C36, negation: from `/a/` to `/a/` the result is `/` (the empty text is no existing path), which leads to the root. -/
theorem relatize_same_dir_wrong (pathExists : List Byte → Bool) (h : pathExists [] = false) : ∃ p1 p2 t, Clean p1 ∧ Clean p2 ∧
    relatize pathExists 256 p1 p2 = .ok (some t) ∧ resolve (comps p1) t ≠ comps p2 := by
  refine ⟨[47, 97, 47], [47, 97, 47], [47], ⟨rfl, by decide⟩, ⟨rfl, by decide⟩, ?_, by decide⟩
  have e : badRelatize 256 [47, 97, 47] [47, 97, 47] = some [] := rfl
  unfold relatize
  rw [e]
  dsimp only
  rw [h]
  rfl

example : (fun s : List Byte => decide (s = [46])) [] = false := rfl

/-- C36: whatever the paths, the text with its NUL fits into the buffer. -/
theorem relatize_fits (pathExists : List Byte → Bool) {m : Nat} {p1 p2 t : List Byte} (hm : 1 ≤ m) (h : relatize pathExists m p1 p2 = .ok (some t)) : t.length < m := by
  have h2 : ∀ t, (relatize2 p1 p2).map (·.map (·.take (m - 1))) = .ok (some t) → t.length < m := by
    intro t h
    cases e : relatize2 p1 p2 with
    | error _ => rw [e] at h; cases h
    | ok o =>
      rw [e] at h
      cases o with
      | none => cases h
      | some u => cases h; simp; omega
  unfold relatize at h
  split at h
  · next u e =>
    split at h
    · cases h
      unfold badRelatize at e
      split at e
      · cases e
      · split at e
        · cases e
        · dsimp only at e
          split at e
          · cases e
          · unfold appendText at e
            split at e
            · cases e
            · cases e
              simp only [List.length_append]
              omega
    · exact h2 t h
  · exact h2 t h

/-- `/b` seen from `/a`: `../b` needs 5 bytes. -/
example : relatize (fun _ => true) 5 [47, 97] [47, 98] = .ok (some [46, 46, 47, 98]) ∧ relatize (fun _ => true) 4 [47, 97] [47, 98] = .ok (some [46, 46, 47]) := ⟨rfl, rfl⟩

end Verif.Util

#print axioms Verif.Util.relatize_fits
#print axioms Verif.Util.relatize2_resolves
#print axioms Verif.Util.badRelatize_resolves
#print axioms Verif.Util.relatize_resolves_partial
#print axioms Verif.Util.relatize_double_sep_wrong
#print axioms Verif.Util.relatize_same_dir_wrong
