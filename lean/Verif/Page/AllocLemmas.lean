import Verif.Page.Alloc
/-
Helper lemmas for Verif/Page/AllocProps.lean.
-/
namespace Verif.Page

/-- The units of a region are in order, do not overlap, lie between `lo` and `hi`, and are larger than their alignment bytes. -/
def Chain (m start : Nat) : Nat → Nat → List (Nat × Nat) → Prop
  | lo, hi, [] => lo ≤ hi
  | lo, hi, u :: us => lo ≤ u.1 ∧ alignBytes m start u.1 < u.2 ∧ Chain m start (u.1 + u.2) hi us

/-- Where the units end. -/
def endOf : Nat → List (Nat × Nat) → Nat
  | lo, [] => lo
  | _, u :: us => endOf (u.1 + u.2) us

theorem chain_append {m start : Nat} {B : List (Nat × Nat)} : ∀ {A : List (Nat × Nat)} {lo hi : Nat},
    Chain m start lo hi (A ++ B) ↔ Chain m start lo (endOf lo A) A ∧ Chain m start (endOf lo A) hi B := by
  intro A
  induction A with
  | nil => intro lo hi; simp [Chain, endOf]
  | cons u A ih =>
    intro lo hi
    simp only [List.cons_append, Chain, endOf, ih]
    constructor
    · rintro ⟨h1, h2, h3, h4⟩; exact ⟨⟨h1, h2, h3⟩, h4⟩
    · rintro ⟨⟨h1, h2, h3⟩, h4⟩; exact ⟨h1, h2, h3, h4⟩

theorem chain_le {m start : Nat} : ∀ {us : List (Nat × Nat)} {lo hi : Nat}, Chain m start lo hi us → lo ≤ hi := by
  intro us
  induction us with
  | nil => intro lo hi h; exact h
  | cons u us ih =>
    intro lo hi h
    obtain ⟨h1, h2, h3⟩ := h
    have := ih h3
    omega

theorem chain_mem {m start : Nat} : ∀ {us : List (Nat × Nat)} {lo hi : Nat}, Chain m start lo hi us → ∀ u ∈ us, lo ≤ u.1 ∧ u.1 + u.2 ≤ hi ∧ alignBytes m start u.1 < u.2 := by
  intro us
  induction us with
  | nil => intro lo hi _ u hu; cases hu
  | cons v us ih =>
    intro lo hi h u hu
    obtain ⟨h1, h2, h3⟩ := h
    rcases List.mem_cons.1 hu with rfl | hu
    · exact ⟨h1, chain_le h3, h2⟩
    · obtain ⟨h4, h5, h6⟩ := ih h3 u hu
      exact ⟨by omega, h5, h6⟩

theorem chain_pairwise {m start : Nat} : ∀ {us : List (Nat × Nat)} {lo hi : Nat}, Chain m start lo hi us → us.Pairwise (fun u v => u.1 + u.2 ≤ v.1) := by
  intro us
  induction us with
  | nil => intro lo hi _; exact List.Pairwise.nil
  | cons u us ih =>
    intro lo hi h
    obtain ⟨h1, h2, h3⟩ := h
    exact List.pairwise_cons.2 ⟨fun v hv => (chain_mem h3 v hv).1, ih h3⟩

/-- A gap with room: `us = A ++ B`, the gap follows `A`. -/
def Gap (m start size req : Nat) (lo : Nat) (us : List (Nat × Nat)) (b : Best) : Prop :=
  ∃ A B, us = A ++ B ∧ b.pos = endOf lo A ∧ b.al = alignBytes m start b.pos ∧ b.pos + (req + b.al) ≤ (match B with | [] => size | v :: _ => v.1)

theorem checkGap_cases (m start gb ge req : Nat) (best : Best) (h : gb ≤ ge) :
    checkGap m start gb ge req best = best ∨ ((checkGap m start gb ge req best).pos = gb ∧ (checkGap m start gb ge req best).al = alignBytes m start gb ∧
      gb + (req + alignBytes m start gb) ≤ ge) := by
  unfold checkGap
  split
  · next h1 =>
    split
    · exact .inr ⟨rfl, rfl, by omega⟩
    · exact .inl rfl
  · exact .inl rfl

theorem gapLoop_spec {m start size req : Nat} : ∀ {us : List (Nat × Nat)} {lo : Nat} {best : Best}, Chain m start lo size us →
    gapLoop m start size req lo us best = best ∨ Gap m start size req lo us (gapLoop m start size req lo us best) := by
  intro us
  induction us with
  | nil =>
    intro lo best h
    rcases checkGap_cases m start lo size req best h with h1 | ⟨h1, h2, h3⟩
    · exact .inl h1
    · refine .inr ⟨[], [], rfl, h1, ?_, ?_⟩
      · show (checkGap m start lo size req best).al = alignBytes m start (checkGap m start lo size req best).pos
        rw [h2, h1]
      · show (checkGap m start lo size req best).pos + (req + (checkGap m start lo size req best).al) ≤ size
        rw [h1, h2]; exact h3
  | cons u us ih =>
    intro lo best h
    obtain ⟨h1, h2, h3⟩ := h
    simp only [gapLoop]
    rcases ih (best := checkGap m start lo u.1 req best) h3 with hr | ⟨A, B, e1, e2, e3, e4⟩
    · rcases checkGap_cases m start lo u.1 req best h1 with hc | ⟨hc1, hc2, hc3⟩
      · left; rw [hr, hc]
      · right
        rw [hr]
        exact ⟨[], u :: us, rfl, hc1, by rw [hc2, hc1], by rw [hc1, hc2]; exact hc3⟩
    · right
      exact ⟨u :: A, B, by rw [e1]; rfl, e2, e3, e4⟩

theorem insertUnit_mid {u : Nat × Nat} : ∀ {A B : List (Nat × Nat)}, (∀ v ∈ A, v.1 ≤ u.1) → (∀ v ∈ B.head?, u.1 < v.1) → insertUnit u (A ++ B) = A ++ u :: B := by
  intro A
  induction A with
  | nil =>
    intro B _ hB
    cases B with
    | nil => rfl
    | cons v B => simp [insertUnit, hB v (by simp)]
  | cons v A ih =>
    intro B hA hB
    have := hA v (by simp)
    simp only [List.cons_append, insertUnit]
    rw [if_neg (by omega), ih (fun w hw => hA w (List.mem_cons_of_mem _ hw)) hB]

/-- The address after the alignment bytes is aligned. -/
theorem aligned {x m : Nat} (hm : 0 < m) : (x + (m - x % m) % m) % m = 0 := by
  by_cases h : x % m = 0
  · rw [h, Nat.sub_zero, Nat.mod_self, Nat.add_zero, h]
  · have hlt := Nat.mod_lt x hm
    rw [Nat.mod_eq_of_lt (a := m - x % m) (by omega)]
    have hd := Nat.div_add_mod x m
    have : x + (m - x % m) = m * (x / m + 1) := by
      rw [Nat.mul_add, Nat.mul_one]; omega
    rw [this, Nat.mul_mod_right]

/-- A region as it is between calls. -/
structure RInv (m page : Nat) (r : Region) : Prop where
  pos : 0 < r.start
  fits : r.start + r.size < 2 ^ 64
  paged : r.start % page = 0
  chain : Chain m r.start 0 r.size r.units
  iso : r.isolated = true → r.units.length ≤ 1

/-- The block of a unit: address and size as the caller knows them. -/
def blk (m : Nat) (r : Region) (u : Nat × Nat) : Nat × Nat := (r.start + u.1 + alignBytes m r.start u.1, u.2 - alignBytes m r.start u.1)

theorem RInv.unit {m page : Nat} {r : Region} (h : RInv m page r) {u : Nat × Nat} (hu : u ∈ r.units) :
    u.1 + u.2 ≤ r.size ∧ alignBytes m r.start u.1 < u.2 ∧ alignedBegin m r.start u = (blk m r u).1 ∧ (m > 0 → (blk m r u).1 % m = 0) := by
  obtain ⟨_, h2, h3⟩ := chain_mem h.chain u hu
  have hf := h.fits
  have hlt : r.start + u.1 < 2 ^ 64 := by omega
  have hlt2 : r.start + u.1 + alignBytes m r.start u.1 < 2 ^ 64 := by omega
  refine ⟨h2, h3, ?_, ?_⟩
  · unfold alignedBegin blk
    rw [Nat.mod_eq_of_lt hlt, Nat.mod_eq_of_lt hlt2]
  · intro hm
    unfold blk alignBytes
    rw [Nat.mod_eq_of_lt hlt]
    exact aligned hm

/-- `TryAlloc` puts one new unit into a gap. -/
theorem tryAlloc_spec {m page : Nat} {r r' : Region} {req a : Nat} (h : RInv m page r) (hreq : 0 < req) (e : tryAlloc m r req = some (r', a)) :
    ∃ A B u, r.units = A ++ B ∧ r' = { r with units := A ++ u :: B } ∧ RInv m page r' ∧ blk m r u = (a, req) ∧ (r.isolated = true → r.units = []) := by
  unfold tryAlloc at e
  split at e
  · cases e
  · next hiso =>
    dsimp only at e
    split at e
    · next hp =>
      simp only [Option.some.injEq, Prod.mk.injEq] at e
      obtain ⟨e1, e2⟩ := e
      rcases gapLoop_spec (req := req) (best := { pos := r.size + 1, size := r.size + 1, al := 0 }) h.chain with hb | ⟨A, B, hu, h1, h2, h3⟩
      · rw [hb] at hp; simp at hp; omega
      · generalize gapLoop m r.start r.size req 0 r.units { pos := r.size + 1, size := r.size + 1, al := 0 } = b at *
        have hc := h.chain
        rw [hu] at hc
        obtain ⟨hcA, hcB⟩ := chain_append.1 hc
        rw [← h1] at hcA hcB
        have hA : ∀ v ∈ A, v.1 ≤ b.pos := by
          intro v hv
          have := chain_mem hcA v hv
          omega
        have hend : b.pos + (req + b.al) ≤ r.size := by
          cases B with
          | nil => exact h3
          | cons v B =>
            have := (chain_mem hcB v (by simp)).2
            dsimp only at h3
            omega
        have hB : ∀ v ∈ B.head?, b.pos < v.1 := by
          intro v hv
          cases B with
          | nil => cases hv
          | cons w B =>
            simp only [List.head?_cons, Option.mem_def, Option.some.injEq] at hv
            subst hv
            dsimp only at h3
            omega
        have hins := insertUnit_mid (u := (b.pos, req + b.al)) hA hB
        rw [hu, hins] at e1
        have hi0 : r.isolated = true → r.units = [] := by
          intro hi
          simp only [hi, Bool.true_and, Bool.not_eq_true', Bool.not_eq_false, List.isEmpty_iff] at hiso
          simpa using hiso
        refine ⟨A, B, (b.pos, req + b.al), hu, e1.symm, ?_, ?_, hi0⟩
        · subst e1
          refine ⟨h.pos, h.fits, h.paged, ?_, ?_⟩
          · refine chain_append.2 ⟨by rw [← h1]; exact hcA, ?_⟩
            rw [← h1]
            refine ⟨Nat.le_refl _, by simp only; rw [← h2]; omega, ?_⟩
            cases B with
            | nil => exact h3
            | cons v B =>
              obtain ⟨_, h5, h6⟩ := hcB
              exact ⟨h3, h5, h6⟩
          · intro hi
            have := hi0 hi
            rw [hu] at this
            have hA0 := List.append_eq_nil_iff.1 this
            rw [hA0.1, hA0.2]; simp
        · unfold blk
          simp only [← h2]
          have hf := h.fits
          rw [Nat.mod_eq_of_lt (by omega)] at e2
          rw [← e2]
          simp
    · cases e

/-- The new region of `AllocPriv` has room. -/
theorem roundUp_ge {page n : Nat} (hp : 0 < page) : n ≤ roundUp page n := by
  unfold roundUp
  have := Nat.mod_lt n hp
  split <;> omega

theorem tryAlloc_new {m page : Nat} {start n req : Nat} {iso : Bool} (hdiv : page % m = 0) (hs : start % page = 0) (hf : start + n < 2 ^ 64) (hreq : 0 < req) (hn : req ≤ n) :
    ∃ r', tryAlloc m { start := start, size := n, isolated := iso, units := [], re := false } req = some (r', start) := by
  have hal : alignBytes m start 0 = 0 := by
    unfold alignBytes
    rw [Nat.add_zero, Nat.mod_eq_of_lt (a := start) (by omega)]
    have h1 : start % m = 0 := by
      have hd := Nat.div_add_mod start page
      rw [hs, Nat.add_zero] at hd
      rw [← hd, Nat.mul_mod, hdiv, Nat.zero_mul, Nat.zero_mod]
    rw [h1, Nat.sub_zero, Nat.mod_self]
  unfold tryAlloc
  simp only [List.isEmpty_nil, Bool.not_true, Bool.and_false, Bool.false_eq_true, ↓reduceIte, gapLoop, checkGap, hal, Nat.sub_zero]
  rw [if_pos (show n ≥ req + 0 by omega), if_pos (show n < n + 1 by omega)]
  dsimp only
  rw [if_pos (by omega), Nat.add_zero, Nat.add_zero, Nat.mod_eq_of_lt (by omega)]
  exact ⟨_, rfl⟩

theorem contains_of {m page : Nat} {r : Region} (h : RInv m page r) {a : Nat} : r.contains a = true ↔ r.start ≤ a ∧ a < r.start + r.size := by
  have hf := h.fits
  unfold Region.contains
  rw [Nat.mod_eq_of_lt hf]
  simp

end Verif.Page
