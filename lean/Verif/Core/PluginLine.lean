import Verif.Core.PluginFile
import Verif.Util.TextProps
/-
C46: the lines of the plugin list file.
-/
namespace Verif.PFile
open Verif.C Verif.Util

/-! ### Spec of a line -/

/-- What the text of a line without the white space around it means.  The last rule is what the code does, not what C46 says. -/
inductive Means : List Byte → Line → Prop
  | blank : Means [] .skip
  | semicolon (t : List Byte) : Means (59 :: t) .skip
  | slashes (t : List Byte) : Means (47 :: 47 :: t) .skip
  | quotedEmpty (t : List Byte) : (t = [] ∨ t.head? = some 34) → Means (34 :: t) .skip
  | quoted (f t : List Byte) : f ≠ [] → 34 ∉ f → (t = [] ∨ t.head? = some 34) → Means (34 :: (f ++ t)) (.load none f)
  | single (f : List Byte) : f ≠ [] → f.head? ≠ some 59 → f.head? ≠ some 34 → ¬ [47, 47] <+: f → (∀ c ∈ f, isspace c = false) → Means f (.load none f)
  | aliased (a p : List Byte) (sp : List Byte) : a ≠ [] → a.head? ≠ some 59 → a.head? ≠ some 34 → ¬ [47, 47] <+: a → (∀ c ∈ a, isspace c = false) →
      sp ≠ [] → (∀ c ∈ sp, isspace c = true) → (∃ c, p.head? = some c ∧ isalpha c = true) → Means (a ++ sp ++ p) (.load (some a) p)
  | other (a p : List Byte) (sp : List Byte) : a ≠ [] → a.head? ≠ some 59 → a.head? ≠ some 34 → ¬ [47, 47] <+: a → (∀ c ∈ a, isspace c = false) →
      sp ≠ [] → (∀ c ∈ sp, isspace c = true) → (∃ c, p.head? = some c ∧ isspace c = false ∧ isalpha c = false) → Means (a ++ sp ++ p) (.load none a)

theorem seek_run {f : Byte → Bool} {a p : List Byte} {c : Byte} {r : List Byte} (hp : ∀ x ∈ p, f x = false) (hc : f c = true) :
    seek f (a ++ p ++ c :: r) a.length = .ok (a.length + p.length) := by
  induction p generalizing a with
  | nil => unfold seek; simp [hc]
  | cons x p ih =>
    have := ih (a := a ++ [x]) (fun y hy => hp y (List.mem_cons_of_mem _ hy))
    unfold seek
    simp only [List.append_assoc, List.cons_append, List.nil_append, List.length_append, List.length_cons, List.length_nil] at this ⊢
    rw [dif_pos (by omega), this]
    simp [hp x (by simp)]
    omega

theorem cstr_at {a s r : List Byte} (h : 0 ∉ s) : cstr (a ++ s ++ 0 :: r) a.length = .ok s := by
  unfold cstr
  rw [strlen_str h]
  simp [bind, Except.bind]

theorem finish_at {al : Option (List Byte)} {a s r : List Byte} (h : 0 ∉ s) : finish al (a ++ s ++ 0 :: r) a.length = .ok (if s = [] then .skip else .load al s) := by
  unfold finish
  rw [cstr_at h]
  show (if s = [] then _ else _) = _
  split <;> rfl

theorem rtrim_self {p : List Byte} (h : ∀ c ∈ p.getLast?, isspace c = false) : rtrim p = p :=
  RTrim.unique (rtrim_rtrim p) ⟨[], by simp, by simp, h⟩

theorem quoted_at {f t r : List Byte} (h0 : 0 ∉ f) (hq : 34 ∉ f) (ht : t = [] ∨ t.head? = some 34) : quoted (34 :: (f ++ t) ++ 0 :: r) = .ok (if f = [] then .skip else .load none f) := by
  have hp : ∀ x ∈ f, (fun c : Byte => c == 34 || c == 0) x = false := by
    intro x hx
    have h1 : x ≠ 34 := fun e => hq (e ▸ hx)
    have h2 : x ≠ 0 := fun e => h0 (e ▸ hx)
    simp [h1, h2]
  unfold quoted
  rcases ht with rfl | ht
  · have h := seek_run (a := [34]) (p := f) (c := 0) (r := r) hp (by decide)
    have h' := finish_at (al := none) (a := [34]) (s := f) (r := r) h0
    have hr := rd_left (a := 34 :: f) (c := 0) (r := r)
    simp only [List.append_nil, List.cons_append, List.nil_append, List.length_cons, List.length_nil, Nat.zero_add, Nat.add_comm] at h h' hr ⊢
    simp only [bind, Except.bind, h, hr, ↓reduceIte, h']
  · cases t with
    | nil => cases ht
    | cons x t =>
      cases ht
      have h := seek_run (a := [34]) (p := f) (c := 34) (r := t ++ 0 :: r) hp (by decide)
      have h' := finish_at (al := none) (a := [34]) (s := f) (r := t ++ 0 :: r) h0
      have hr := rd_left (a := 34 :: f) (c := 34) (r := t ++ 0 :: r)
      have hw := wr_left (a := 34 :: f) (c := 34) (d := 0) (r := t ++ 0 :: r)
      simp only [List.append_assoc, List.cons_append, List.nil_append, List.length_cons, List.length_nil, Nat.zero_add, Nat.add_comm] at h h' hr hw ⊢
      simp only [bind, Except.bind, h, hr, hw, h', show ((34 : Byte) = 0) = False by simp, ↓reduceIte]

theorem bare_single {f r : List Byte} (h0 : 0 ∉ f) (hf : f ≠ []) (hs : ∀ c ∈ f, isspace c = false) : bare (f ++ 0 :: r) = .ok (.load none f) := by
  have hp : ∀ x ∈ f, (fun c : Byte => c == 0 || isspace c) x = false := by
    intro x hx
    have h2 : x ≠ 0 := fun e => h0 (e ▸ hx)
    simp [hs x hx, h2]
  have h := seek_run (a := []) (p := f) (c := 0) (r := r) hp (by decide)
  have h' := finish_at (al := none) (a := []) (s := f) (r := r) h0
  have hr := rd_left (a := f) (c := 0) (r := r)
  simp only [List.nil_append, List.length_nil, Nat.zero_add] at h h'
  unfold bare
  simp only [bind, Except.bind, h, hr, ↓reduceIte, h', if_neg hf]

theorem trimRightAt_self {a p r : List Byte} (h0 : 0 ∉ p) (h : ∀ c ∈ p.getLast?, isspace c = false) : trimRightAt (a ++ p ++ 0 :: r) a.length = .ok (a ++ p ++ 0 :: r) := by
  unfold trimRightAt
  rw [cstr_at h0]
  show strcpy _ _ (rtrim p) = _
  rw [rtrim_self h]
  unfold strcpy wrs
  rw [if_pos (by simp)]
  simp

theorem bare_two {a sp p r : List Byte} {c : Byte} (h0 : 0 ∉ a ++ sp ++ p) (ha : a ≠ []) (hs : ∀ x ∈ a, isspace x = false) (hsp : sp ≠ []) (hall : ∀ x ∈ sp, isspace x = true)
    (hc : p.head? = some c) (hns : isspace c = false) (hl : ∀ x ∈ p.getLast?, isspace x = false) :
    bare (a ++ sp ++ p ++ 0 :: r) = .ok (if isalpha c then .load (some a) p else .load none a) := by
  cases sp with
  | nil => exact absurd rfl hsp
  | cons x sp =>
    cases p with
    | nil => cases hc
    | cons y p =>
      cases hc
      have a0 : 0 ∉ a := fun h => h0 (by simp [h])
      have p0 : 0 ∉ c :: p := fun h => h0 (List.mem_append.2 (.inr h))
      have hx := hall x (by simp)
      have hx0 : x ≠ 0 := isspace_ne_zero hx
      have hc0 : c ≠ 0 := fun e => p0 (by simp [e])
      have hp : ∀ x ∈ a, (fun c : Byte => c == 0 || isspace c) x = false := by
        intro z hz
        have h2 : z ≠ 0 := fun e => a0 (e ▸ hz)
        simp [hs z hz, h2]
      have hp2 : ∀ z ∈ x :: sp, (fun c : Byte => c == 0 || !isspace c) z = false := by
        intro z hz
        have h1 := hall z hz
        have h2 := isspace_ne_zero h1
        simp [h1, h2]
      have e1 := seek_run (a := []) (p := a) (c := x) (r := sp ++ c :: p ++ 0 :: r) hp (by simp [hx])
      have e2 := rd_left (a := a) (c := x) (r := sp ++ c :: p ++ 0 :: r)
      have e3 := seek_run (a := a) (p := x :: sp) (c := c) (r := p ++ 0 :: r) hp2 (by simp [hns])
      have e4 := wr_left (a := a) (c := x) (d := 0) (r := sp ++ c :: p ++ 0 :: r)
      have e5 := trimRightAt_self (a := a ++ 0 :: sp) (p := c :: p) (r := r) p0 hl
      have e6 := rd_left (a := a ++ 0 :: sp) (c := c) (r := p ++ 0 :: r)
      have e7 := finish_at (al := none) (a := []) (s := a) (r := sp ++ c :: p ++ 0 :: r) a0
      have e8 := finish_at (al := some a) (a := a ++ 0 :: sp) (s := c :: p) (r := r) p0
      have e9 := cstr_at (a := []) (s := a) (r := sp ++ c :: p ++ 0 :: r) a0
      simp only [List.nil_append, List.append_assoc, List.cons_append, List.length_nil, Nat.zero_add, List.length_append, List.length_cons] at e1 e2 e3 e4 e5 e6 e7 e8 e9 ⊢
      unfold bare second
      simp only [bind, Except.bind, e1, e2, if_neg hx0, e3, e4, e5, e6]
      by_cases hal : isalpha c = true
      · rw [if_pos ⟨hc0, hal⟩, if_pos hal]
        simp only [e9, e8, reduceCtorEq, ↓reduceIte]
      · rw [if_neg (fun h => hal h.2), if_neg hal]
        simp only [e7, if_neg ha]

theorem space_not_alpha (c : Byte) (h : isspace c = true) : isalpha c = false := by
  have h' := (isspace_iff c).1 h
  simp only [List.mem_cons, List.not_mem_nil, or_false] at h'
  rcases h' with rfl | rfl | rfl | rfl | rfl | rfl <;> decide

theorem slashes_at {s r : List Byte} (h0 : 0 ∉ s) (hs : s ≠ []) : slashes (s ++ 0 :: r) = .ok (decide ([47, 47] <+: s)) := by
  cases s with
  | nil => exact absurd rfl hs
  | cons x s =>
    unfold slashes
    have e1 := rd_left (a := []) (c := x) (r := s ++ 0 :: r)
    simp only [List.nil_append, List.length_nil] at e1
    simp only [List.cons_append, bind, Except.bind, e1]
    by_cases hx : x = 47
    · subst hx
      rw [if_pos rfl]
      cases s with
      | nil => simp [rd, List.cons_prefix_cons]
      | cons y s =>
        by_cases hy : y = 47
        · simp [rd, List.cons_prefix_cons, hy]
        · simp [rd, List.cons_prefix_cons, hy, Ne.symm hy]
    · rw [if_neg hx]
      simp [List.cons_prefix_cons, Ne.symm hx]

theorem trimmed_at {t r : List Byte} {l : Line} (h0 : 0 ∉ t) (hl : ∀ x ∈ t.getLast?, isspace x = false) (h : Means t l) : trimmed (t ++ 0 :: r) = .ok l := by
  have key : ∀ c t', t = c :: t' → trimmed (t ++ 0 :: r) = if c = 59 ∨ [47, 47] <+: t then .ok .skip else if c = 34 then quoted (t ++ 0 :: r) else bare (t ++ 0 :: r) := by
    intro c t' e
    have hc : c ≠ 0 := fun e' => h0 (by simp [e, e'])
    unfold trimmed
    have e1 := strlen_str (a := []) (s := t) (r := r) h0
    have e2 := rd_left (a := []) (c := c) (r := t' ++ 0 :: r)
    have e3 := slashes_at (r := r) h0 (by rw [e]; simp)
    simp only [List.nil_append, List.length_nil] at e1 e2
    simp only [bind, Except.bind, e1, e3]
    rw [if_neg (by rw [e]; simp)]
    rw [show t ++ 0 :: r = c :: (t' ++ 0 :: r) by rw [e]; rfl, e2]
    simp [hc]
  have head : ∀ a : List Byte, ∀ u, a ≠ [] → a.head? ≠ some 59 → a.head? ≠ some 34 → ¬ [47, 47] <+: a → (∀ c ∈ u.head?, isspace c = true) → t = a ++ u → trimmed (t ++ 0 :: r) = bare (t ++ 0 :: r) := by
    intro a u ha h1 h2 h3 hu e
    cases a with
    | nil => exact absurd rfl ha
    | cons c a =>
      rw [key c (a ++ u) e, if_neg, if_neg]
      · exact fun e' => h2 (by simp [e'])
      · rintro (e' | e')
        · exact h1 (by simp [e'])
        · rw [e] at e'
          refine h3 ?_
          rw [List.cons_append, List.cons_prefix_cons] at e'
          rw [List.cons_prefix_cons]
          refine ⟨e'.1, ?_⟩
          cases a with
          | nil =>
            cases u with
            | nil => exact e'.2
            | cons y u =>
              have := (List.cons_prefix_cons.1 e'.2).1
              subst this
              exact absurd (hu 47 (by simp)) (by decide)
          | cons y a =>
            rw [List.cons_append, List.cons_prefix_cons] at e'
            rw [List.cons_prefix_cons]
            exact ⟨e'.2.1, List.nil_prefix⟩
  have tail : ∀ (a sp p : List Byte) (c : Byte), t = a ++ sp ++ p → p.head? = some c → ∀ x ∈ p.getLast?, isspace x = false := by
    intro a sp p c e hc x hx
    refine hl x ?_
    cases p with
    | nil => cases hc
    | cons y p => rw [e]; rw [List.getLast?_append]; rw [Option.mem_def.1 hx]; rfl
  have spHead : ∀ sp p : List Byte, sp ≠ [] → (∀ c ∈ sp, isspace c = true) → ∀ c ∈ (sp ++ p).head?, isspace c = true := by
    intro sp p hsp hall c hc
    cases sp with
    | nil => exact absurd rfl hsp
    | cons y sp => cases hc; exact hall _ (by simp)
  cases h with
  | blank =>
    have e1 := strlen_str (a := []) (s := []) (r := r) (by simp)
    simp only [List.nil_append, List.length_nil] at e1
    unfold trimmed
    simp [bind, Except.bind, e1]
  | semicolon t => rw [key 59 t rfl]; simp
  | slashes t => rw [key 47 (47 :: t) rfl]; simp [List.cons_prefix_cons]
  | quotedEmpty t ht =>
    rw [key 34 t rfl]
    have := quoted_at (f := []) (t := t) (r := r) (by simp) (by simp) ht
    simp only [List.nil_append, ↓reduceIte] at this
    simpa [List.cons_prefix_cons] using this
  | quoted f t hf hq ht =>
    rw [key 34 (f ++ t) rfl]
    have := quoted_at (f := f) (t := t) (r := r) (fun h => h0 (by simp [h])) hq ht
    rw [if_neg hf] at this
    simpa [List.cons_prefix_cons] using this
  | single f hf h1 h2 h3 hs =>
    rw [head t [] hf h1 h2 h3 (by simp) (by simp), bare_single h0 hf hs]
  | aliased a p sp ha h1 h2 h3 hs hsp hall hp =>
    obtain ⟨c, hc, hal⟩ := hp
    rw [head a (sp ++ p) ha h1 h2 h3 (spHead sp p hsp hall) (by simp)]
    have hns : isspace c = false := by
      cases hi : isspace c with
      | false => rfl
      | true =>
        rw [space_not_alpha c hi] at hal; cases hal
    rw [bare_two h0 ha hs hsp hall hc hns (tail a sp p c rfl hc), if_pos hal]
  | other a p sp ha h1 h2 h3 hs hsp hall hp =>
    obtain ⟨c, hc, hns, hal⟩ := hp
    rw [head a (sp ++ p) ha h1 h2 h3 (spHead sp p hsp hall) (by simp)]
    rw [bare_two h0 ha hs hsp hall hc hns (tail a sp p c rfl hc), if_neg (by rw [hal]; decide)]

/-- Spec: the text of a line: what is before a NUL byte, without the white space around it. -/
def Text (l t : List Byte) : Prop := ∃ r, RTrim (l.takeWhile (· != 0)) r ∧ LTrim r t

theorem takeWhile_nz (l : List Byte) : 0 ∉ l.takeWhile (· != 0) := by
  intro h
  have := List.all_takeWhile (l := l) (p := fun c => c != 0)
  rw [List.all_eq_true] at this
  exact absurd (this 0 h) (by decide)

/-- Every text means something: the rules of `Means` cover all lines. -/
theorem means_total {t : List Byte} (hh : ∀ c ∈ t.head?, isspace c = false) (hl : ∀ c ∈ t.getLast?, isspace c = false) : ∃ l, Means t l := by
  cases t with
  | nil => exact ⟨_, .blank⟩
  | cons c t =>
    by_cases h1 : c = 59
    · subst h1; exact ⟨_, .semicolon t⟩
    by_cases h2 : c = 34
    · subst h2
      have e := List.takeWhile_append_dropWhile (p := fun c : Byte => c != 34) (l := t)
      have hd : t.dropWhile (fun c : Byte => c != 34) = [] ∨ (t.dropWhile (fun c : Byte => c != 34)).head? = some 34 := by
        cases hd : t.dropWhile (fun c : Byte => c != 34) with
        | nil => exact .inl rfl
        | cons x r =>
          have := List.head_dropWhile_not (fun c : Byte => c != 34) (l := t) (by rw [hd]; simp)
          simp only [hd, List.head_cons] at this
          refine .inr ?_
          simpa using this
      have hq : 34 ∉ t.takeWhile (fun c : Byte => c != 34) := by
        intro h
        have := List.all_takeWhile (l := t) (p := fun c : Byte => c != 34)
        rw [List.all_eq_true] at this
        exact absurd (this 34 h) (by decide)
      by_cases hf : t.takeWhile (fun c : Byte => c != 34) = []
      · rw [hf, List.nil_append] at e
        rw [e] at hd
        exact ⟨_, .quotedEmpty t hd⟩
      · rw [← e]
        exact ⟨_, .quoted _ _ hf hq hd⟩
    by_cases h3 : [47, 47] <+: c :: t
    · obtain ⟨u, hu⟩ := h3
      rw [← hu]; exact ⟨_, .slashes u⟩
    have e := List.takeWhile_append_dropWhile (p := fun c : Byte => !isspace c) (l := c :: t)
    have hc : isspace c = false := hh c (by simp)
    have ha : ∀ x ∈ (c :: t).takeWhile (fun c : Byte => !isspace c), isspace x = false := by
      intro x hx
      have := List.all_takeWhile (l := c :: t) (p := fun c : Byte => !isspace c)
      rw [List.all_eq_true] at this
      simpa using this x hx
    obtain ⟨a, had⟩ : ∃ a, (c :: t).takeWhile (fun c : Byte => !isspace c) = c :: a := by
      rw [List.takeWhile_cons, if_pos (by simp [hc])]; exact ⟨_, rfl⟩
    rw [had] at e ha
    have h3' : ¬ [47, 47] <+: c :: a := fun h => h3 (h.trans ⟨_, e⟩)
    cases hd : (c :: t).dropWhile (fun c : Byte => !isspace c) with
    | nil =>
      rw [hd, List.append_nil] at e
      rw [← e]
      exact ⟨_, .single _ (by simp) (by simpa using h1) (by simpa using h2) h3' ha⟩
    | cons x r =>
      have hx : isspace x = true := by
        have := List.head_dropWhile_not (fun c : Byte => !isspace c) (l := c :: t) (by rw [hd]; simp)
        simp only [hd, List.head_cons] at this
        simpa using this
      rw [hd] at e
      have e2 := List.takeWhile_append_dropWhile (p := fun c : Byte => isspace c) (l := x :: r)
      have hsp : (x :: r).takeWhile (fun c : Byte => isspace c) ≠ [] := by rw [List.takeWhile_cons, if_pos hx]; simp
      have hall : ∀ z ∈ (x :: r).takeWhile (fun c : Byte => isspace c), isspace z = true := by
        have := List.all_takeWhile (l := x :: r) (p := fun c : Byte => isspace c)
        rw [List.all_eq_true] at this
        exact this
      cases hp : (x :: r).dropWhile (fun c : Byte => isspace c) with
      | nil =>
        exfalso
        rw [hp, List.append_nil] at e2
        rw [← e, ← e2] at hl
        have hne := hsp
        obtain ⟨y, hy⟩ : ∃ y, ((x :: r).takeWhile (fun c : Byte => isspace c)).getLast? = some y := by
          cases h : ((x :: r).takeWhile (fun c : Byte => isspace c)).getLast? with
          | none => exact absurd (List.getLast?_eq_none_iff.1 h) hne
          | some y => exact ⟨y, rfl⟩
        have h4 := hl y (by rw [List.getLast?_append, hy]; rfl)
        rw [hall y (List.mem_of_getLast? hy)] at h4
        cases h4
      | cons y p =>
        have hy : isspace y = false := by
          have := List.head_dropWhile_not (fun c : Byte => isspace c) (l := x :: r) (by rw [hp]; simp)
          simp only [hp, List.head_cons] at this
          exact this
        rw [hp] at e2
        rw [← e, ← e2, ← List.append_assoc]
        cases hal : isalpha y with
        | true => exact ⟨_, .aliased _ _ _ (by simp) (by simpa using h1) (by simpa using h2) h3' ha hsp hall ⟨y, rfl, hal⟩⟩
        | false => exact ⟨_, .other _ _ _ (by simp) (by simpa using h1) (by simpa using h2) h3' ha hsp hall ⟨y, rfl, hy, hal⟩⟩

/-- C46: the body of the loop reads the line as `Means` says, without leaving its buffer. -/
theorem parseLine_spec {b : Buf} {s u t : List Byte} {l : Line} (h : IsStr b s) (h1 : RTrim s u) (h2 : LTrim u t) (hm : Means t l) : parseLine b = .ok l := by
  obtain ⟨b1, t1, e1, _, i1, l1⟩ := utilTrimLeft_spec h
  obtain ⟨b2, t2, e2, _, i2, l2⟩ := utilTrimRight_spec i1
  have := trims_commute l1 l2 h1 h2
  subst this
  obtain ⟨r, rfl, h0⟩ := i2
  unfold parseLine
  simp only [bind, Except.bind, e1, e2]
  exact trimmed_at h0 l2.choose_spec.2.2 hm

end Verif.PFile
