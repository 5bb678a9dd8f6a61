import Verif.Util.TextLemmas
/-
Properties C37 (trimming), C39 (key/value splitting) and C40 (comments).
-/
namespace Verif.Util
open Verif.C

/-! ## C37 -/

/-- Spec: `t` is `s` without its maximal white-space prefix. -/
def LTrim (s t : List Byte) : Prop := ∃ p, s = p ++ t ∧ (∀ c ∈ p, isspace c = true) ∧ ∀ c ∈ t.head?, isspace c = false

/-- Spec: `t` is `s` without its maximal white-space suffix. -/
def RTrim (s t : List Byte) : Prop := ∃ p, s = t ++ p ∧ (∀ c ∈ p, isspace c = true) ∧ ∀ c ∈ t.getLast?, isspace c = false

/-- White space is blank, tab, newline, vertical tab, form feed and carriage return. -/
theorem isspace_iff (c : Byte) : isspace c = true ↔ c ∈ [32, 9, 10, 11, 12, 13] := by
  have : ∀ n : Fin 256, isspace (UInt8.ofNat n.1) = true ↔ UInt8.ofNat n.1 ∈ [32, 9, 10, 11, 12, 13] := by decide +kernel
  have h := this ⟨c.toNat, c.toNat_lt⟩
  simpa using h

theorem ltrim_ltrim (s : List Byte) : LTrim s (ltrim s) := by
  unfold ltrim
  induction s with
  | nil => exact ⟨[], rfl, by simp, by simp⟩
  | cons c s ih =>
    rw [List.dropWhile_cons]
    split
    · next h =>
      obtain ⟨p, h1, h2, h3⟩ := ih
      refine ⟨c :: p, by rw [List.cons_append, ← h1], ?_, h3⟩
      intro x hx
      rcases List.mem_cons.1 hx with rfl | hx
      · exact h
      · exact h2 x hx
    · next h => exact ⟨[], rfl, by simp, by simpa using h⟩

theorem rtrim_rtrim (s : List Byte) : RTrim s (rtrim s) := by
  obtain ⟨p, h1, h2, h3⟩ := ltrim_ltrim s.reverse
  refine ⟨p.reverse, ?_, ?_, ?_⟩
  · have := congrArg List.reverse h1
    rw [List.reverse_reverse, List.reverse_append] at this
    exact this
  · intro c hc; exact h2 c (List.mem_reverse.1 hc)
  · intro c hc
    refine h3 c ?_
    unfold rtrim at hc
    rw [List.getLast?_reverse] at hc
    exact hc

theorem LTrim.unique {s t t' : List Byte} (h : LTrim s t) (h' : LTrim s t') : t = t' := by
  obtain ⟨p, rfl, h2, h3⟩ := h
  obtain ⟨q, h1, k2, k3⟩ := h'
  induction p generalizing q with
  | nil =>
    cases q with
    | nil => exact h1
    | cons d q =>
      rw [List.nil_append] at h1
      subst h1
      have := h3 d (by simp)
      rw [k2 d (by simp)] at this; cases this
  | cons c p ih =>
    cases q with
    | nil =>
      rw [List.nil_append] at h1
      subst h1
      have := k3 c (by simp)
      rw [h2 c (by simp)] at this; cases this
    | cons d q =>
      simp only [List.cons_append, List.cons.injEq] at h1
      exact ih (fun x hx => h2 x (List.mem_cons_of_mem _ hx)) q h1.2 (fun x hx => k2 x (List.mem_cons_of_mem _ hx))

theorem RTrim.reverse {s t : List Byte} (h : RTrim s t) : LTrim s.reverse t.reverse := by
  obtain ⟨p, rfl, h2, h3⟩ := h
  exact ⟨p.reverse, by simp, fun c hc => h2 c (List.mem_reverse.1 hc), fun c hc => h3 c (by rwa [List.head?_reverse] at hc)⟩

theorem RTrim.unique {s t t' : List Byte} (h : RTrim s t) (h' : RTrim s t') : t = t' :=
  List.reverse_inj.1 (h.reverse.unique h'.reverse)

/-- Trimming the left then the right end gives the same as the other way round. -/
theorem trims_commute {s l lr r rl : List Byte} (h1 : LTrim s l) (h2 : RTrim l lr) (h3 : RTrim s r) (h4 : LTrim r rl) : lr = rl := by
  obtain ⟨p, rfl, hp, hl⟩ := h1
  obtain ⟨q, rfl, hq, hlr⟩ := h2
  by_cases he : lr = []
  · subst he
    have hr : r = [] := h3.unique ⟨p ++ q, by simp, by
      intro c hc
      rcases List.mem_append.1 hc with h | h
      · exact hp c h
      · exact hq c h, by simp⟩
    subst hr
    obtain ⟨p', e, _⟩ := h4
    have := congrArg List.length e
    simp only [List.length_nil, List.length_append] at this
    exact (List.length_eq_zero_iff.1 (by omega)).symm
  · have hr : r = p ++ lr := h3.unique ⟨q, by simp, hq, by
      intro c hc
      cases hg : lr.getLast? with
      | none => exact absurd (List.getLast?_eq_none_iff.1 hg) he
      | some d => rw [List.getLast?_append, hg] at hc; exact hlr c (by rw [hg]; exact hc)⟩
    subst hr
    refine LTrim.unique ⟨p, rfl, hp, ?_⟩ h4
    intro c hc
    refine hl c ?_
    cases lr with
    | nil => exact absurd rfl he
    | cons d lr => exact hc

/-- C37: `UTIL_TrimLeft` removes the maximal white-space prefix, inside the buffer. -/
theorem utilTrimLeft_spec {b : Buf} {s : List Byte} (h : IsStr b s) :
    ∃ b' t, utilTrimLeft b = .ok b' ∧ b'.length = b.length ∧ IsStr b' t ∧ LTrim s t := by
  have h0 : 0 ∉ ltrim s := fun hm => h.choose_spec.2 (mem_dropWhile hm)
  obtain ⟨b', h1, h2, h3⟩ := strcpy_of h (length_ltrim s) h0
  refine ⟨b', _, ?_, h2, h3, ltrim_ltrim s⟩
  unfold utilTrimLeft
  rw [cstr_of h]
  exact h1

example : ∃ b, IsStr b [32, 9, 97, 32, 98, 32] ∧ utilTrimLeft b = .ok [97, 32, 98, 32, 0, 32, 0, 7] :=
  ⟨[32, 9, 97, 32, 98, 32, 0, 7], ⟨[7], rfl, by decide⟩, by simp [utilTrimLeft, ltrim, cstr, strcpy, isspace, strlen, wrs, bind, Except.bind, Except.map]⟩

/-- C37: `UTIL_TrimRight` removes the maximal white-space suffix, inside the buffer. -/
theorem utilTrimRight_spec {b : Buf} {s : List Byte} (h : IsStr b s) :
    ∃ b' t, utilTrimRight b = .ok b' ∧ b'.length = b.length ∧ IsStr b' t ∧ RTrim s t := by
  have h0 : 0 ∉ rtrim s := fun hm => h.choose_spec.2 (mem_rtrim hm)
  obtain ⟨b', h1, h2, h3⟩ := strcpy_of h (length_rtrim s) h0
  refine ⟨b', _, ?_, h2, h3, rtrim_rtrim s⟩
  unfold utilTrimRight
  rw [cstr_of h]
  exact h1

example : ∃ b, IsStr b [32, 97, 32, 10] ∧ utilTrimRight b = .ok [32, 97, 0, 10, 0] :=
  ⟨[32, 97, 32, 10, 0], ⟨[], rfl, by decide⟩, by simp [utilTrimRight, rtrim, cstr, strcpy, isspace, strlen, wrs, bind, Except.bind, Except.map]⟩

/-- C37: `mm_TrimLeft` removes the maximal white-space prefix, inside the buffer. -/
theorem mmTrimLeft_spec {b : Buf} {s : List Byte} (h : IsStr b s) :
    ∃ b' t, mmTrimLeft b = .ok b' ∧ b'.length = b.length ∧ IsStr b' t ∧ LTrim s t := by
  obtain ⟨r, rfl, h0⟩ := h
  obtain ⟨p, e, hp, ht⟩ := ltrim_ltrim s
  generalize ltrim s = t at e ht
  subst e
  have ht0 : 0 ∉ t := fun hm => h0 (List.mem_append_right _ hm)
  unfold mmTrimLeft
  cases hpt : p ++ t with
  | nil =>
    obtain ⟨rfl, rfl⟩ := List.append_eq_nil_iff.1 hpt
    exact ⟨0 :: r, [], by simp [rd, bind, Except.bind], rfl, ⟨r, rfl, by simp⟩, [], rfl, by simp, by simp⟩
  | cons c w =>
    have hc : c ≠ 0 := by rintro rfl; exact h0 (by rw [hpt]; simp)
    rw [show rd (c :: w ++ 0 :: r) 0 = .ok c from by simp [rd]]
    simp only [bind, Except.bind, if_neg hc]
    rw [← hpt]
    have hsk : skipSpace (p ++ t ++ 0 :: r) 0 = .ok p.length := by
      cases t with
      | nil =>
        have := skipSpace_run (a := []) (p := p) (c := 0) (r := r) hp (by decide)
        simpa using this
      | cons d t =>
        have := skipSpace_run (a := []) (p := p) (c := d) (r := t ++ 0 :: r) hp (ht d (by simp))
        simpa using this
    rw [hsk]
    dsimp only
    by_cases hpl : p.length = 0
    · obtain rfl := List.length_eq_zero_iff.1 hpl
      refine ⟨_, t, if_pos rfl, rfl, ⟨r, rfl, ht0⟩, [], rfl, by simp, ht⟩
    · rw [if_neg hpl, strlen_str ht0]
      dsimp only
      have hs : List.take (t.length + 1) (List.drop p.length (p ++ t ++ 0 :: r)) = t ++ [0] := by
        rw [List.append_assoc, List.drop_left, List.take_append, List.take_of_length_le (by omega)]
        simp
      rw [hs]
      unfold wrs
      rw [if_pos (by simp; omega)]
      refine ⟨_, t, rfl, ?_, ⟨List.drop (0 + (t ++ [0]).length) (p ++ t ++ 0 :: r), by simp, ht0⟩, p, rfl, hp, ht⟩
      simp
      omega

example : ∃ b, IsStr b [32, 9, 97, 32] ∧ mmTrimLeft b = .ok [97, 32, 0, 32, 0] :=
  ⟨[32, 9, 97, 32, 0], ⟨[], rfl, by decide⟩, by simp [mmTrimLeft, rd, skipSpace, isspace, strlen, wrs, bind, Except.bind, Except.map]⟩

/-- C37: `mm_TrimRight` removes the maximal white-space suffix, inside the buffer. -/
theorem mmTrimRight_spec {b : Buf} {s : List Byte} (h : IsStr b s) :
    ∃ b' t, mmTrimRight b = .ok b' ∧ b'.length = b.length ∧ IsStr b' t ∧ RTrim s t := by
  have hl := strlen_of h
  obtain ⟨r, rfl, h0⟩ := h
  obtain ⟨p, e, hp, ht⟩ := rtrim_rtrim s
  generalize rtrim s = t at e ht
  subst e
  have ht0 : 0 ∉ t := fun hm => h0 (List.mem_append_left _ hm)
  unfold mmTrimRight
  rw [hl]
  simp only [bind, Except.bind]
  rw [List.length_append, trimRightLoop_run hp ht]
  refine ⟨_, t, rfl, by simp, ?_, p, rfl, hp, ht⟩
  cases p with
  | nil => exact ⟨r, by simp, ht0⟩
  | cons c p => exact ⟨List.replicate p.length 0 ++ 0 :: r, by simp [List.replicate_succ], ht0⟩

example : ∃ b, IsStr b [32, 97, 32, 10] ∧ mmTrimRight b = .ok [32, 97, 0, 0, 0] :=
  ⟨[32, 97, 32, 10, 0], ⟨[], rfl, by decide⟩, by simp [mmTrimRight, trimRightLoop, rd, wr, isspace, strlen, bind, Except.bind, Except.map]⟩

/-- C37: trimming is idempotent, the two sides commute, and a blank string becomes empty (the four functions
compute `LTrim`/`RTrim` by the theorems above). -/
theorem trim_laws {s l r : List Byte} (hl : LTrim s l) (hr : RTrim s r) :
    LTrim l l ∧ RTrim r r ∧ (∀ u v, RTrim l u → LTrim r v → u = v) ∧ ((∀ c ∈ s, isspace c = true) → l = [] ∧ r = []) := by
  refine ⟨?_, ?_, fun u v h1 h2 => trims_commute hl h1 hr h2, fun ha => ⟨?_, ?_⟩⟩
  · obtain ⟨p, _, _, h3⟩ := hl; exact ⟨[], rfl, by simp, h3⟩
  · obtain ⟨p, _, _, h3⟩ := hr; exact ⟨[], by simp, by simp, h3⟩
  · exact hl.unique ⟨s, by simp, ha, by simp⟩
  · exact hr.unique ⟨s, by simp, ha, by simp⟩

example : LTrim [32, 97, 32] [97, 32] ∧ RTrim [32, 97, 32] [32, 97] :=
  ⟨⟨[32], rfl, by decide, by decide⟩, ⟨[32], rfl, by decide, by decide⟩⟩

/-! ## C40 -/

/-- Two slashes in a row. -/
def slashes : List Byte := [47, 47]

theorem commentLoop_none {a p r : List Byte} {sc : Nat} (hsc : sc ≤ 1) (h : ¬ slashes <:+: List.replicate sc 47 ++ p) :
    commentLoop (a ++ p ++ r) (a.length + p.length) a.length sc = .ok (a ++ p ++ r) := by
  induction p generalizing a sc with
  | nil => unfold commentLoop; rw [if_neg (by simp)]
  | cons c p ih =>
    unfold commentLoop
    rw [if_pos (by simp)]
    have ih := fun sc hsc h => ih (a := a ++ [c]) (sc := sc) hsc h
    simp only [List.append_assoc, List.cons_append, List.nil_append, List.length_append, List.length_cons, List.length_nil] at ih ⊢
    rw [rd_left]
    simp only [bind, Except.bind]
    have e : a.length + (p.length + 1) = a.length + (0 + 1) + p.length := by omega
    rw [e]
    by_cases hc : c = 47
    · subst hc
      rw [if_pos rfl]
      have hs0 : sc = 0 := by
        rcases Nat.lt_or_ge sc 1 with h1 | h1
        · omega
        · exfalso
          apply h
          have : sc = 1 := by omega
          subst this
          exact ⟨[], p, rfl⟩
      subst hs0
      rw [if_neg (by omega)]
      exact ih 1 (by omega) (by simpa using h)
    · rw [if_neg hc]
      refine ih 0 (by omega) ?_
      intro hi
      apply h
      obtain ⟨u, v, huv⟩ := hi
      exact ⟨List.replicate sc 47 ++ c :: u, v, by simp at huv ⊢; exact huv⟩

theorem commentLoop_cut {a p t r : List Byte} {sc : Nat} (hsc : sc ≤ 1) (h : ¬ slashes <:+: List.replicate sc 47 ++ p ++ [47]) :
    commentLoop (a ++ p ++ 47 :: 47 :: t ++ r) (a.length + p.length + 2 + t.length) a.length sc = .ok (a ++ p ++ 0 :: 47 :: t ++ r) := by
  induction p generalizing a sc with
  | nil =>
    have hs0 : sc = 0 := by
      rcases Nat.lt_or_ge sc 1 with h1 | h1
      · omega
      · exfalso
        apply h
        have : sc = 1 := by omega
        subst this
        exact ⟨[], [], rfl⟩
    subst hs0
    unfold commentLoop
    rw [if_pos (by simp; omega)]
    simp only [List.append_nil, List.append_assoc, List.cons_append]
    rw [rd_left]
    simp only [bind, Except.bind, if_true]
    rw [if_neg (by omega)]
    unfold commentLoop
    rw [if_pos (by simp; omega)]
    have e := rd_left (a := a ++ [47]) (c := 47) (r := t ++ r)
    simp only [List.append_assoc, List.cons_append, List.nil_append, List.length_append, List.length_cons, List.length_nil, Nat.zero_add] at e
    rw [e]
    simp only [bind, Except.bind, if_true]
    rw [if_pos (by omega), Nat.add_sub_cancel, wr_left]
  | cons c p ih =>
    unfold commentLoop
    rw [if_pos (by simp; omega)]
    have ih := fun sc hsc h => ih (a := a ++ [c]) (sc := sc) hsc h
    simp only [List.append_assoc, List.cons_append, List.nil_append, List.length_append, List.length_cons, List.length_nil] at ih ⊢
    rw [rd_left]
    simp only [bind, Except.bind]
    have e : a.length + (p.length + 1) + 2 + t.length = a.length + (0 + 1) + p.length + 2 + t.length := by omega
    rw [e]
    by_cases hc : c = 47
    · subst hc
      rw [if_pos rfl]
      have hs0 : sc = 0 := by
        rcases Nat.lt_or_ge sc 1 with h1 | h1
        · omega
        · exfalso
          apply h
          have : sc = 1 := by omega
          subst this
          exact ⟨[], p ++ [47], rfl⟩
      subst hs0
      rw [if_neg (by omega)]
      exact ih 1 (by omega) (by simpa using h)
    · rw [if_neg hc]
      refine ih 0 (by omega) ?_
      intro hi
      apply h
      obtain ⟨u, v, huv⟩ := hi
      exact ⟨List.replicate sc 47 ++ c :: u, v, by simp at huv ⊢; exact huv⟩

/-- C40: the line is cut at its first `//`; nothing before it changes. -/
theorem trimComments_cuts {b : Buf} {a t : List Byte} (h : IsStr b (a ++ 47 :: 47 :: t)) (hfirst : ¬ slashes <:+: a ++ [47]) :
    ∃ b', mmTrimComments b = .ok b' ∧ b'.length = b.length ∧ IsStr b' a := by
  have hl := strlen_of h
  obtain ⟨r, rfl, h0⟩ := h
  unfold mmTrimComments
  rw [hl]
  simp only [bind, Except.bind]
  have := commentLoop_cut (a := []) (p := a) (t := t) (r := 0 :: r) (sc := 0) (by omega) (by simpa using hfirst)
  simp only [List.nil_append, List.length_nil, Nat.zero_add] at this
  rw [show (a ++ 47 :: 47 :: t).length = a.length + 2 + t.length by simp; omega, this]
  refine ⟨_, rfl, by simp, 47 :: t ++ 0 :: r, by simp, fun hm => h0 (List.mem_append_left _ hm)⟩

/-- A line `a/b//c`. -/
example : IsStr [97, 47, 98, 47, 47, 99, 0] ([97, 47, 98] ++ 47 :: 47 :: [99]) ∧ ¬ slashes <:+: [97, 47, 98] ++ [47] :=
  ⟨⟨[], rfl, by decide⟩, by decide⟩

/-- C40: a line without `//` is left unchanged. -/
theorem trimComments_keeps {b : Buf} {s : List Byte} (h : IsStr b s) (hno : ¬ slashes <:+: s) : mmTrimComments b = .ok b := by
  have hl := strlen_of h
  obtain ⟨r, rfl, h0⟩ := h
  unfold mmTrimComments
  rw [hl]
  simp only [bind, Except.bind]
  have := commentLoop_none (a := []) (p := s) (r := 0 :: r) (sc := 0) (by omega) (by simpa using hno)
  simpa using this

example : IsStr [47, 97, 47, 0] [47, 97, 47] ∧ ¬ slashes <:+: [47, 97, 47] := ⟨⟨[], rfl, by decide⟩, by decide⟩

/-- Every string has no `//` or a first one: the two theorems above cover all lines. -/
theorem slashes_cases (s : List Byte) : (¬ slashes <:+: s) ∨ ∃ a t, s = a ++ 47 :: 47 :: t ∧ ¬ slashes <:+: a ++ [47] := by
  by_cases h : slashes <:+: s
  · right
    revert h
    induction s with
    | nil => rintro ⟨u, v, h⟩; simp [slashes] at h
    | cons c s ih =>
      intro h
      by_cases hp : slashes <+: c :: s
      · obtain ⟨t, ht⟩ := hp
        refine ⟨[], t, ht.symm, ?_⟩
        rintro ⟨u, v, hu⟩
        have := congrArg List.length hu
        simp [slashes] at this
        omega
      · have hs : slashes <:+: s := by
          rcases List.infix_cons_iff.1 h with h | h
          · exact absurd h hp
          · exact h
        obtain ⟨a, t, rfl, ha⟩ := ih hs
        refine ⟨c :: a, t, rfl, ?_⟩
        intro hi
        rw [List.cons_append] at hi
        rcases List.infix_cons_iff.1 hi with hi | hi
        · apply hp
          obtain ⟨w, hw⟩ := hi
          refine ⟨w ++ 47 :: t, ?_⟩
          rw [← List.append_assoc, hw]; simp
        · exact ha hi
  · exact Or.inl h

/-- C40: stripping twice is stripping once. -/
theorem trimComments_idempotent {b b' : Buf} {s : List Byte} (h : IsStr b s) (h1 : mmTrimComments b = .ok b') : mmTrimComments b' = .ok b' := by
  rcases slashes_cases s with hno | ⟨a, t, rfl, ha⟩
  · rw [trimComments_keeps h hno] at h1; cases h1
    exact trimComments_keeps h hno
  · obtain ⟨c, k1, _, k3⟩ := trimComments_cuts h ha
    rw [k1] at h1; cases h1
    refine trimComments_keeps k3 ?_
    rintro ⟨u, v, hu⟩
    exact ha ⟨u, v ++ [47], by rw [← hu]; simp⟩

example : ∃ b b', IsStr b [97, 47, 47, 98] ∧ mmTrimComments b = .ok b' ∧ b' = [97, 0, 47, 98, 0] :=
  ⟨[97, 47, 47, 98, 0], _, ⟨[], rfl, by decide⟩, by simp [mmTrimComments, commentLoop, strlen, rd, wr, bind, Except.bind, Except.map], rfl⟩

/-! ## C39 -/

/-- Spec: the line is blanks, a key without blanks, and, unless it ends there, blanks and a value that starts
with a non-blank and extends to the end of the line. -/
structure KeyLine (s k v : List Byte) : Prop where
  shape : ∃ w1 w2, s = w1 ++ k ++ w2 ++ v ∧ (∀ c ∈ w1, isspace c = true) ∧ (∀ c ∈ w2, isspace c = true) ∧ (w2 = [] → v = [])
  key : ∀ c ∈ k, isspace c = false
  val : ∀ c ∈ v.head?, isspace c = false
  ne : k = [] → v = []

/-- What `mm_KeySplit` writes, for every line and all sizes: the key and the value, each cut to the given size, plus a NUL. -/
theorem keySplit_writes {str : Buf} {s k v : List Byte} (h : IsStr str s) (hk : KeyLine s k v) (buf1 buf2 : Buf) (len1 len2 : Nat) :
    mmKeySplit str buf1 len1 buf2 len2 =
      (do let b1 ← wrs buf1 0 (k.take len1 ++ [0]); let b2 ← wrs buf2 0 (v.take len2 ++ [0]); .ok (b1, b2)) := by
  have hl := strlen_of h
  obtain ⟨r, rfl, h0⟩ := h
  obtain ⟨⟨w1, w2, rfl, hw1, hw2, hw2v⟩, hkk, hv, hne⟩ := hk
  unfold mmKeySplit
  rw [hl]
  have s1 : scan (w1 ++ k ++ w2 ++ v ++ 0 :: r) (w1 ++ k ++ w2 ++ v).length false 0 = .ok w1.length ∨
      (k = [] ∧ v = [] ∧ scan (w1 ++ k ++ w2 ++ v ++ 0 :: r) (w1 ++ k ++ w2 ++ v).length false 0 = .ok (w1 ++ w2).length) := by
    cases k with
    | nil =>
      right
      have := hne rfl
      subst this
      refine ⟨rfl, rfl, ?_⟩
      have := scan_run (a := []) (p := w1 ++ w2) (r := 0 :: r) (stop := false) (len := (w1 ++ w2).length) (by
        intro x hx
        rcases List.mem_append.1 hx with h | h
        · rw [hw1 x h]; simp
        · rw [hw2 x h]; simp) (by left; simp)
      simpa using this
    | cons c k =>
      left
      have := scan_run (a := []) (p := w1) (r := c :: k ++ w2 ++ v ++ 0 :: r) (stop := false) (len := (w1 ++ c :: k ++ w2 ++ v).length) (by
        intro x hx; rw [hw1 x hx]; simp) (by right; exact ⟨by simp only [List.length_append, List.length_cons, List.length_nil]; omega, c, by simp, hkk c (by simp)⟩)
      simpa using this
  rcases s1 with s1 | ⟨rfl, rfl, s1⟩
  · have s2 : scan (w1 ++ k ++ w2 ++ v ++ 0 :: r) (w1 ++ k ++ w2 ++ v).length true w1.length = .ok (w1.length + k.length) := by
      have := scan_run (a := w1) (p := k) (r := w2 ++ v ++ 0 :: r) (stop := true) (len := (w1 ++ k ++ w2 ++ v).length) (by
        intro x hx; rw [hkk x hx]; simp) (by
        cases w2 with
        | nil => left; rw [hw2v rfl]; simp
        | cons c w2 => right; exact ⟨by simp only [List.length_append, List.length_cons]; omega, c, by simp, hw2 c (by simp)⟩)
      simpa using this
    have s3 : scan (w1 ++ k ++ w2 ++ v ++ 0 :: r) (w1 ++ k ++ w2 ++ v).length false (w1.length + k.length) = .ok (w1.length + k.length + w2.length) := by
      have := scan_run (a := w1 ++ k) (p := w2) (r := v ++ 0 :: r) (stop := false) (len := (w1 ++ k ++ w2 ++ v).length) (by
        intro x hx; rw [hw2 x hx]; simp) (by
        cases v with
        | nil => left; simp; omega
        | cons c v => right; exact ⟨by simp only [List.length_append, List.length_cons]; omega, c, by simp, hv c (by simp)⟩)
      simpa using this
    have c1 : ∀ out, copyOut (w1 ++ k ++ w2 ++ v ++ 0 :: r) (w1.length + k.length) len1 w1.length 0 out = wrs out 0 (k.take len1 ++ [0]) := by
      intro out
      have := copyOut_eq (a := w1) (p := k) (r := w2 ++ v ++ 0 :: r) (n := len1) (c := 0) (out := out)
      simpa using this
    have c2 : ∀ out, copyOut (w1 ++ k ++ w2 ++ v ++ 0 :: r) (w1 ++ k ++ w2 ++ v).length len2 (w1.length + k.length + w2.length) 0 out = wrs out 0 (v.take len2 ++ [0]) := by
      intro out
      have := copyOut_eq (a := w1 ++ k ++ w2) (p := v) (r := 0 :: r) (n := len2) (c := 0) (out := out)
      simp only [List.length_append, Nat.sub_zero] at this ⊢
      exact this
    simp only [bind, Except.bind, s1, s2, s3, c1, c2]
  · have c1 : ∀ n out, copyOut (w1 ++ [] ++ w2 ++ [] ++ 0 :: r) (w1 ++ w2).length n (w1 ++ w2).length 0 out = wrs out 0 [0] := by
      intro n out
      have := copyOut_eq (a := w1 ++ w2) (p := []) (r := 0 :: r) (n := n) (c := 0) (out := out)
      simpa using this
    have e : (w1 ++ [] ++ w2 ++ []).length = (w1 ++ w2).length := by simp
    rw [e] at s1 ⊢
    have s2 : ∀ st, scan (w1 ++ [] ++ w2 ++ [] ++ 0 :: r) (w1 ++ w2).length st (w1 ++ w2).length = .ok (w1 ++ w2).length := fun st => scan_stop (Nat.le_refl _)
    simp only [bind, Except.bind, s1, s2, c1]
    simp

/-- Every line is a `KeyLine`. -/
theorem keyLine_exists (s : List Byte) : ∃ k v, KeyLine s k v := by
  have hspan : ∀ (p : Byte → Bool) (s : List Byte), ∃ a b, s = a ++ b ∧ (∀ c ∈ a, p c = true) ∧ ∀ c ∈ b.head?, p c = false := by
    intro p s
    induction s with
    | nil => exact ⟨[], [], rfl, by simp, by simp⟩
    | cons c s ih =>
      by_cases h : p c = true
      · obtain ⟨a, b, e, h1, h2⟩ := ih
        refine ⟨c :: a, b, by rw [e]; rfl, ?_, h2⟩
        intro x hx
        rcases List.mem_cons.1 hx with rfl | hx
        · exact h
        · exact h1 x hx
      · exact ⟨[], c :: s, rfl, by simp, by simpa using h⟩
  obtain ⟨w1, s1, rfl, h1, h2⟩ := hspan isspace s
  obtain ⟨k, s2, rfl, h3, h4⟩ := hspan (fun c => !isspace c) s1
  obtain ⟨w2, v, rfl, h5, h6⟩ := hspan isspace s2
  refine ⟨k, v, ⟨w1, w2, by simp, h1, h5, ?_⟩, fun c hc => by simpa using h3 c hc, h6, ?_⟩
  · rintro rfl
    cases v with
    | nil => rfl
    | cons c v =>
      have a1 := h4 c (by simp)
      have a2 := h6 c (by simp)
      rw [a2] at a1; cases a1
  · rintro rfl
    cases w2 with
    | nil =>
      cases v with
      | nil => rfl
      | cons c v =>
        have a1 := h4 c (by simp)
        have a2 := h6 c (by simp)
        rw [a2] at a1; cases a1
    | cons c w2 =>
      have a1 := h2 c (by simp)
      rw [h5 c (by simp)] at a1; cases a1

/-- C39 (missing: keys or values as long as the size passed, see `keySplit_overruns`, and quotes, see
`keySplit_keeps_quotes`): key and value shorter than the sizes passed are recovered, and only the two buffers are written. -/
theorem keySplit_partial {str : Buf} {s k v : List Byte} (h : IsStr str s) (hk : KeyLine s k v) (buf1 buf2 : Buf)
    (h1 : k.length < buf1.length) (h2 : v.length < buf2.length) :
    ∃ b1 b2, mmKeySplit str buf1 buf1.length buf2 buf2.length = .ok (b1, b2) ∧ IsStr b1 k ∧ IsStr b2 v ∧
      b1.length = buf1.length ∧ b2.length = buf2.length := by
  rw [keySplit_writes h hk]
  have h0 : 0 ∉ s := h.choose_spec.2
  obtain ⟨⟨w1, w2, rfl, _⟩, _⟩ := hk
  rw [List.take_of_length_le (by omega), List.take_of_length_le (by omega)]
  unfold wrs
  rw [if_pos (by simp; omega)]
  simp only [bind, Except.bind]
  rw [if_pos (by simp; omega)]
  refine ⟨_, _, rfl, ⟨buf1.drop (k.length + 1), by simp, fun hm => h0 (by simp [hm])⟩, ⟨buf2.drop (v.length + 1), by simp, fun hm => h0 (by simp [hm])⟩, ?_, ?_⟩
  · simp; omega
  · simp; omega

/-- A line `" ab  c d "` with buffers of 3 and 5 bytes. -/
example : KeyLine [32, 97, 98, 32, 32, 99, 32, 100, 32] [97, 98] [99, 32, 100, 32] :=
  ⟨⟨[32], [32, 32], rfl, by decide, by decide, by decide⟩, by decide, by decide, by decide⟩

/-- C39, negation: whenever the key (or the value) has at least as many characters as the size passed, the NUL is
written one past the end of the buffer. -/
theorem keySplit_overruns {str : Buf} {s k v : List Byte} (h : IsStr str s) (hk : KeyLine s k v) (buf1 buf2 : Buf)
    (hlong : buf1.length ≤ k.length ∨ buf2.length ≤ v.length) :
    mmKeySplit str buf1 buf1.length buf2 buf2.length = .error .outOfBounds := by
  rw [keySplit_writes h hk]
  have hw : ∀ (b : Buf) (t : List Byte), b.length ≤ t.length → wrs b 0 (t.take b.length ++ [0]) = .error .outOfBounds := by
    intro b t hbt
    unfold wrs
    rw [if_neg (by simp; omega)]
  rcases hlong with h1 | h1
  · rw [hw _ _ h1]; rfl
  · rw [hw _ _ h1]
    unfold wrs
    split <;> rfl

example : ∃ (str : Buf) (s k v : List Byte), IsStr str s ∧ KeyLine s k v ∧ ([7, 7] : Buf).length ≤ k.length :=
  ⟨[97, 98, 32, 99, 0], [97, 98, 32, 99], [97, 98], [99], ⟨[], rfl, by decide⟩,
    ⟨⟨[], [32], rfl, by decide, by decide, by decide⟩, by decide, by decide, by decide⟩, by decide⟩

/-- C39: with one byte more in each object than the sizes passed, no line makes `mm_KeySplit` leave the buffers. -/
theorem keySplit_safe_with_spare {str : Buf} {s : List Byte} (h : IsStr str s) (buf1 buf2 : Buf) (len1 len2 : Nat)
    (h1 : len1 < buf1.length) (h2 : len2 < buf2.length) : ∃ b1 b2, mmKeySplit str buf1 len1 buf2 len2 = .ok (b1, b2) := by
  obtain ⟨k, v, hk⟩ := keyLine_exists s
  rw [keySplit_writes h hk]
  unfold wrs
  rw [if_pos (by simp; omega)]
  simp only [bind, Except.bind]
  rw [if_pos (by simp; omega)]
  exact ⟨_, _, rfl⟩

example : IsStr [97, 98, 32, 99, 0] [97, 98, 32, 99] ∧ (1 : Nat) < ([7, 7] : Buf).length := ⟨⟨[], rfl, by decide⟩, by decide⟩

/-- C39, negation of the quoted form: the quotes of `"k" "v"` are kept. -/
theorem keySplit_keeps_quotes : ∃ str : Buf, IsStr str [34, 107, 34, 32, 34, 118, 34] ∧ ∃ b1 b2,
    mmKeySplit str [1, 1, 1, 1, 1, 1] 6 [1, 1, 1, 1, 1, 1] 6 = .ok (b1, b2) ∧ IsStr b1 [34, 107, 34] ∧ IsStr b2 [34, 118, 34] := by
  have h : IsStr [34, 107, 34, 32, 34, 118, 34, 0] [34, 107, 34, 32, 34, 118, 34] := ⟨[], rfl, by decide⟩
  obtain ⟨b1, b2, k1, k2, k3, _⟩ := keySplit_partial h (k := [34, 107, 34]) (v := [34, 118, 34])
    ⟨⟨[], [32], rfl, by decide, by decide, by decide⟩, by decide, by decide, by decide⟩ [1, 1, 1, 1, 1, 1] [1, 1, 1, 1, 1, 1] (by decide) (by decide)
  exact ⟨_, h, b1, b2, k1, k2, k3⟩

end Verif.Util

#print axioms Verif.Util.utilTrimLeft_spec
#print axioms Verif.Util.utilTrimRight_spec
#print axioms Verif.Util.mmTrimLeft_spec
#print axioms Verif.Util.mmTrimRight_spec
#print axioms Verif.Util.trim_laws
#print axioms Verif.Util.trimComments_cuts
#print axioms Verif.Util.trimComments_keeps
#print axioms Verif.Util.trimComments_idempotent
#print axioms Verif.Util.keySplit_partial
#print axioms Verif.Util.keySplit_overruns
#print axioms Verif.Util.keySplit_safe_with_spare
#print axioms Verif.Util.keySplit_keeps_quotes

#print axioms Verif.Util.slashes_cases
