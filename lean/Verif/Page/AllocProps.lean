import Verif.Page.AllocLemmas
/-
Property C25: the page allocator hands out disjoint blocks.
-/
namespace Verif.Page

/-- Two ranges `(address, size)` do not meet. -/
def Apart (x y : Nat × Nat) : Prop := x.1 + x.2 ≤ y.1 ∨ y.1 + y.2 ≤ x.1

/-- The allocator between calls; `minAlignment` divides the page size. -/
structure Inv (s : PA) : Prop where
  align : 0 < s.align
  page : 0 < s.page
  div : s.page % s.align = 0
  region : ∀ r ∈ s.regions, RInv s.align s.page r ∧ r.units ≠ []
  apart : s.regions.Pairwise fun r q => Apart (r.start, r.size) (q.start, q.size)

/-- The blocks in use. -/
def blocks (s : PA) : List (Nat × Nat) := s.regions.flatMap fun r => r.units.map (blk s.align r)

/-- What `mmap` promises for a request: a page address, not NULL, no overlap with what is mapped. -/
structure MapOk (s : PA) (n map : Nat) : Prop where
  pos : 0 < map
  paged : map % s.page = 0
  fits : map + roundUp s.page n < 2 ^ 64
  apart : ∀ r ∈ s.regions, Apart (r.start, r.size) (map, roundUp s.page n)

theorem init_inv {align page : Nat} (h1 : 0 < align) (h2 : 0 < page) (h3 : page % align = 0) (mem : Nat → Nat) : Inv (init align page mem) ∧ blocks (init align page mem) = [] :=
  ⟨⟨h1, h2, h3, by simp [init], by simp [init]⟩, rfl⟩

example : 0 < 4 ∧ 0 < 4096 ∧ 4096 % 4 = 0 := by decide

theorem mem_blocks {s : PA} {b : Nat × Nat} : b ∈ blocks s ↔ ∃ r ∈ s.regions, ∃ u ∈ r.units, blk s.align r u = b := by simp [blocks]

/-- C25: blocks in use are not empty, aligned, not NULL, inside one region. -/
theorem blocks_good {s : PA} (h : Inv s) {b : Nat × Nat} (hb : b ∈ blocks s) :
    0 < b.2 ∧ b.1 % s.align = 0 ∧ b.1 ≠ 0 ∧ ∃ r ∈ s.regions, r.start ≤ b.1 ∧ b.1 + b.2 ≤ r.start + r.size := by
  obtain ⟨r, hr, u, hu, rfl⟩ := mem_blocks.1 hb
  obtain ⟨h1, h2, h3, h4⟩ := (h.region r hr).1.unit hu
  have hp := (h.region r hr).1.pos
  refine ⟨?_, h4 h.align, ?_, r, hr, ?_, ?_⟩
  · simp only [blk]; omega
  · simp only [blk]; omega
  · simp only [blk]; omega
  · simp only [blk]; omega

theorem region_blocks_apart {m page : Nat} {r : Region} (h : RInv m page r) : (r.units.map (blk m r)).Pairwise Apart := by
  rw [List.pairwise_map]
  refine (chain_pairwise h.chain).imp_of_mem ?_
  intro u v hu hv huv
  have h1 := (h.unit hu).2.1
  left
  simp only [blk]
  omega

/-- C25: blocks in use are pairwise disjoint. -/
theorem blocks_apart {s : PA} (h : Inv s) : (blocks s).Pairwise Apart := by
  unfold blocks
  rw [List.pairwise_flatMap]
  refine ⟨fun r hr => region_blocks_apart (h.region r hr).1, h.apart.imp_of_mem ?_⟩
  intro r q hr hq ha x hx y hy
  obtain ⟨u, hu, rfl⟩ := List.mem_map.1 hx
  obtain ⟨v, hv, rfl⟩ := List.mem_map.1 hy
  obtain ⟨h1, h2, _, _⟩ := (h.region r hr).1.unit hu
  obtain ⟨h3, h4, _, _⟩ := (h.region q hq).1.unit hv
  unfold Apart at ha ⊢
  simp only [blk] at *
  rcases ha with ha | ha
  · left; omega
  · right; omega

/-- C25: an isolated region holds one block. -/
theorem isolated_alone {s : PA} (h : Inv s) {r : Region} (hr : r ∈ s.regions) (hi : r.isolated = true) : ∃ u, r.units = [u] := by
  have h1 := (h.region r hr).1.iso hi
  have h2 := (h.region r hr).2
  match hu : r.units, h2, h1 with
  | [u], _, _ => exact ⟨u, rfl⟩

theorem apart_symm {x y : Nat × Nat} (h : Apart x y) : Apart y x := h.symm

theorem allocLoop_split {m req : Nat} : ∀ {rs rs' : List Region} {a : Nat}, allocLoop m req rs = some (rs', a) →
    ∃ A r r' B, rs = A ++ r :: B ∧ rs' = A ++ r' :: B ∧ tryAlloc m r req = some (r', a) := by
  intro rs
  induction rs with
  | nil => intro rs' a h; cases h
  | cons r rs ih =>
    intro rs' a h
    simp only [allocLoop] at h
    split at h
    · next r' a' e =>
      simp only [Option.some.injEq, Prod.mk.injEq] at h
      obtain ⟨rfl, rfl⟩ := h
      exact ⟨[], r, r', rs, rfl, rfl, e⟩
    · split at h
      · next rs2 a2 e2 =>
        simp only [Option.some.injEq, Prod.mk.injEq] at h
        obtain ⟨rfl, rfl⟩ := h
        obtain ⟨A, q, q', B, e3, e4, e5⟩ := ih e2
        exact ⟨r :: A, q, q', B, by rw [e3]; rfl, by rw [e4]; rfl, e5⟩
      · cases h

theorem blocks_split {s : PA} {A B : List Region} {r : Region} (e : s.regions = A ++ r :: B) :
    blocks s = (A.flatMap fun r => r.units.map (blk s.align r)) ++ (r.units.map (blk s.align r) ++ B.flatMap fun r => r.units.map (blk s.align r)) := by
  unfold blocks; rw [e]; simp

theorem blk_congr {m : Nat} {r r' : Region} (h : r'.start = r.start) : blk m r' = blk m r := by
  funext u; simp only [blk, h]

/-- Replacing one region by one of the same place. -/
theorem inv_replace {s : PA} (h : Inv s) {A B : List Region} {r r' : Region} (e : s.regions = A ++ r :: B) (hr : RInv s.align s.page r') (hne : r'.units ≠ [])
    (hs : r'.start = r.start) (hz : r'.size = r.size) {mem : Nat → Nat} {un : List (Nat × Nat)} : Inv { s with regions := A ++ r' :: B, mem := mem, unmapped := un } := by
  refine ⟨h.align, h.page, h.div, ?_, ?_⟩
  · intro q hq
    simp only [List.mem_append, List.mem_cons] at hq
    rcases hq with hq | rfl | hq
    · exact h.region q (by rw [e]; simp [hq])
    · exact ⟨hr, hne⟩
    · exact h.region q (by rw [e]; simp [hq])
  · have hp := h.apart
    rw [e] at hp
    rw [List.pairwise_append, List.pairwise_cons] at hp ⊢
    refine ⟨hp.1, ⟨?_, hp.2.1.2⟩, ?_⟩
    · intro q hq; rw [hs, hz]; exact hp.2.1.1 q hq
    · intro q hq x hx
      rcases List.mem_cons.1 hx with rfl | hx
      · rw [hs, hz]; exact hp.2.2 q hq r (by simp)
      · exact hp.2.2 q hq x (List.mem_cons_of_mem _ hx)

theorem allocNew_step {s : PA} (h : Inv s) {req map : Nat} {iso : Bool} (hreq : 0 < req) (hm : MapOk s req map) :
    ∃ u re, allocNew s req iso map = ({ s with regions := s.regions ++ [{ start := map, size := roundUp s.page req, isolated := iso, units := [u], re := re }] }, map) ∧
      Inv (allocNew s req iso map).1 ∧ (blocks (allocNew s req iso map).1).Perm ((map, req) :: blocks s) := by
  obtain ⟨r', e⟩ := tryAlloc_new (m := s.align) (iso := iso) h.div hm.paged hm.fits hreq (roundUp_ge h.page)
  have hr0 : RInv s.align s.page { start := map, size := roundUp s.page req, isolated := iso, units := [], re := false } :=
    ⟨hm.pos, hm.fits, hm.paged, Nat.zero_le _, fun _ => by simp⟩
  obtain ⟨A, B, u, eu, rfl, hr', hblk, _⟩ := tryAlloc_spec hr0 hreq e
  have hAB := List.append_eq_nil_iff.1 eu.symm
  obtain ⟨rfl, rfl⟩ := hAB
  simp only [List.nil_append] at hr' e
  have ea : allocNew s req iso map = ({ s with regions := s.regions ++ [{ start := map, size := roundUp s.page req, isolated := iso, units := [u], re := false }] }, map) := by
    unfold allocNew addRegion
    rw [if_neg (by have := hm.pos; omega)]
    simp only [List.getLast?_concat, e, List.dropLast_concat]
  refine ⟨u, false, ea, ?_, ?_⟩
  · rw [ea]
    refine ⟨h.align, h.page, h.div, ?_, ?_⟩
    · intro q hq
      simp only [List.mem_append, List.mem_singleton] at hq
      rcases hq with hq | rfl
      · exact h.region q hq
      · exact ⟨hr', by simp⟩
    · rw [List.pairwise_append]
      refine ⟨h.apart, List.pairwise_singleton _ _, ?_⟩
      intro r hr q hq
      simp only [List.mem_singleton] at hq
      subst hq
      exact hm.apart r hr
  · rw [ea]
    rw [blocks_split (A := s.regions) (B := []) (r := { start := map, size := roundUp s.page req, isolated := iso, units := [u], re := false }) rfl]
    simp only [List.map_cons, List.map_nil, List.flatMap_nil, List.append_nil]
    rw [show blk s.align { start := map, size := roundUp s.page req, isolated := iso, units := [u], re := false } u = (map, req) from hblk]
    exact List.perm_append_comm

theorem allocNew_good {s : PA} (h : Inv s) {req map : Nat} (iso : Bool) (hreq : 0 < req) (hm : MapOk s req map) :
    Inv (allocNew s req iso map).1 ∧ (blocks (allocNew s req iso map).1).Perm (((allocNew s req iso map).2, req) :: blocks s) ∧
      (allocNew s req iso map).1.unmapped = s.unmapped ∧ (allocNew s req iso map).1.mem = s.mem ∧ (allocNew s req iso map).1.align = s.align ∧ (allocNew s req iso map).1.page = s.page ∧
      (iso = true → ∃ r ∈ (allocNew s req iso map).1.regions, r.isolated = true ∧ r.units.map (blk s.align r) = [((allocNew s req iso map).2, req)]) := by
  obtain ⟨u, re, en, hin, hpn⟩ := allocNew_step (iso := iso) h hreq hm
  refine ⟨hin, by rw [en] at hpn ⊢; exact hpn, by rw [en], by rw [en], by rw [en], by rw [en], ?_⟩
  intro hi
  subst hi
  have hgood := hpn
  rw [en] at hgood ⊢
  refine ⟨{ start := map, size := roundUp s.page req, isolated := true, units := [u], re := re }, by simp, rfl, ?_⟩
  rw [blocks_split (A := s.regions) (B := []) (r := { start := map, size := roundUp s.page req, isolated := true, units := [u], re := re }) rfl] at hgood
  simp only [List.map_cons, List.map_nil, List.flatMap_nil, List.append_nil] at hgood ⊢
  have h2 : ([blk s.align { start := map, size := roundUp s.page req, isolated := true, units := [u], re := re } u] ++ blocks s).Perm ([(map, req)] ++ blocks s) :=
    List.perm_append_comm.trans hgood
  rw [List.perm_append_right_iff] at h2
  simpa using List.perm_singleton.1 h2

/-- C25, `Alloc` and `AllocIsolated`: a new block of the size asked for (which with `blocks_good` and `blocks_apart` is aligned, inside a region, and apart from
all others); nothing else changes and nothing is unmapped.  An isolated block is alone in its region. -/
theorem alloc_step {s : PA} (h : Inv s) {req map : Nat} (iso : Bool) (hreq : 0 < req) (hm : MapOk s req map) :
    Inv (alloc s req iso map).1 ∧ (blocks (alloc s req iso map).1).Perm (((alloc s req iso map).2, req) :: blocks s) ∧
      (alloc s req iso map).1.unmapped = s.unmapped ∧ (alloc s req iso map).1.mem = s.mem ∧ (alloc s req iso map).1.align = s.align ∧ (alloc s req iso map).1.page = s.page ∧
      (iso = true → ∃ r ∈ (alloc s req iso map).1.regions, r.isolated = true ∧ r.units.map (blk s.align r) = [((alloc s req iso map).2, req)]) := by
  have hnew := allocNew_good h iso hreq hm
  unfold alloc
  cases iso with
  | true => exact hnew
  | false =>
    simp only [Bool.false_eq_true, if_false]
    cases hl : allocLoop s.align req s.regions with
    | none => simpa using hnew
    | some x =>
      obtain ⟨rs, a⟩ := x
      obtain ⟨A, r, r', B, e1, e2, e3⟩ := allocLoop_split hl
      have hr := h.region r (by rw [e1]; simp)
      obtain ⟨C, D, v, ev, er, hr', hblk, _⟩ := tryAlloc_spec hr.1 hreq e3
      have hs : r'.start = r.start := by rw [er]
      have hz : r'.size = r.size := by rw [er]
      refine ⟨?_, ?_, rfl, rfl, rfl, rfl, fun h => by cases h⟩
      · simp only [e2]
        exact inv_replace h e1 hr' (by rw [er]; simp) hs hz
      · rw [blocks_split e1, blocks_split (s := { s with regions := rs }) (by simpa using e2)]
        simp only [blk_congr hs]
        rw [er, ev]
        simp only [List.map_append, List.map_cons, hblk, List.append_assoc, List.cons_append]
        refine List.Perm.trans ?_ List.perm_middle
        refine List.Perm.append_left _ ?_
        exact List.perm_middle

/-- The first `Alloc` of an allocator. -/
example : Inv (init 4 4096 fun _ => 0) ∧ 0 < 12 ∧ MapOk (init 4 4096 fun _ => 0) 12 8192 :=
  ⟨(init_inv (by decide) (by decide) (by decide) _).1, by decide, ⟨by decide, by decide, by decide, by simp [init]⟩⟩

theorem tryFree_some {m page : Nat} {r r' : Region} {u : Nat × Nat} {addr : Nat} (h : RInv m page r) (e : tryFree m r addr = some (r', u)) :
    ∃ A B, r.units = A ++ u :: B ∧ r' = { r with units := A ++ B } ∧ (blk m r u).1 = addr ∧ RInv m page r' := by
  unfold tryFree at e
  split at e
  · cases e
  · split at e
    · cases e
    · next v hv =>
      simp only [Option.some.injEq, Prod.mk.injEq] at e
      obtain ⟨e1, rfl⟩ := e
      obtain ⟨hp, A, B, eu, hA⟩ := List.find?_eq_some_iff_append.1 hv
      have her : r.units.eraseP (fun u => alignedBegin m r.start u == addr) = A ++ B := by
        rw [eu, List.eraseP_append_right _ (fun b hb => by simpa using hA b hb)]
        rw [List.eraseP_cons_of_pos (p := fun u => alignedBegin m r.start u == addr) hp]
      rw [her] at e1
      have hmem : v ∈ r.units := by rw [eu]; simp
      refine ⟨A, B, eu, e1.symm, ?_, ?_⟩
      · rw [← (h.unit hmem).2.2.1]; simpa using hp
      · subst e1
        have hc := h.chain
        rw [eu] at hc
        obtain ⟨h1, h2, h3, h4⟩ := chain_append.1 hc
        refine ⟨h.pos, h.fits, h.paged, chain_append.2 ⟨h1, ?_⟩, ?_⟩
        · cases B with
          | nil =>
            have := chain_le h4
            show endOf 0 A ≤ r.size
            omega
          | cons w B =>
            obtain ⟨h5, h6, h7⟩ := h4
            exact ⟨by omega, h6, h7⟩
        · intro hi
          have := h.iso hi
          rw [eu] at this
          simp only [List.length_append, List.length_cons] at this ⊢
          omega

theorem tryFree_none {m page : Nat} {r : Region} {addr : Nat} (h : RInv m page r) (e : tryFree m r addr = none) : ∀ u ∈ r.units, (blk m r u).1 ≠ addr := by
  intro u hu ha
  obtain ⟨h1, h2, h3, _⟩ := h.unit hu
  unfold tryFree at e
  have hc : r.contains addr = true := by
    rw [contains_of h, ← ha]
    simp only [blk]
    omega
  rw [hc] at e
  simp only [Bool.not_true, Bool.false_eq_true, ↓reduceIte] at e
  split at e
  · next hn =>
    rw [List.find?_eq_none] at hn
    exact hn u hu (by rw [h3, ha]; simp)
  · cases e

theorem freeLoop_split {m addr : Nat} : ∀ {rs : List Region},
    (freeLoop m addr rs = none ∧ ∀ r ∈ rs, tryFree m r addr = none) ∨ ∃ A r r' u B, rs = A ++ r :: B ∧ tryFree m r addr = some (r', u) ∧
      freeLoop m addr rs = if r'.units.isEmpty then some (A ++ B, (r.start + u.1, u.2), some (r.start, r.size)) else some (A ++ r' :: B, (r.start + u.1, u.2), none) := by
  intro rs
  induction rs with
  | nil => exact .inl ⟨rfl, by simp⟩
  | cons r rs ih =>
    cases e : tryFree m r addr with
    | some x =>
      obtain ⟨r', u⟩ := x
      exact .inr ⟨[], r, r', u, rs, rfl, e, by simp only [freeLoop, e, List.nil_append]⟩
    | none =>
      rcases ih with ⟨h1, h2⟩ | ⟨A, q, q', u, B, e1, e2, e3⟩
      · refine .inl ⟨by simp only [freeLoop, e, h1], ?_⟩
        intro q hq
        rcases List.mem_cons.1 hq with rfl | hq
        · exact e
        · exact h2 q hq
      · refine .inr ⟨r :: A, q, q', u, B, by rw [e1]; rfl, e2, ?_⟩
        simp only [freeLoop, e, e3]
        by_cases hc : q'.units.isEmpty = true
        · rw [if_pos hc]; simp [hc]
        · rw [if_neg hc]; simp [hc]

/-- C25, `Free` of an address that is no block: nothing changes. -/
theorem free_other {s : PA} (h : Inv s) {addr : Nat} (hn : ∀ b ∈ blocks s, b.1 ≠ addr) : free s addr = s := by
  unfold free
  rcases freeLoop_split (m := s.align) (addr := addr) (rs := s.regions) with ⟨e, _⟩ | ⟨A, r, r', u, B, e1, e2, _⟩
  · rw [e]
  · exfalso
    have hr := h.region r (by rw [e1]; simp)
    obtain ⟨C, D, eu, _, ha, _⟩ := tryFree_some hr.1 e2
    exact hn _ (mem_blocks.2 ⟨r, by rw [e1]; simp, u, by rw [eu]; simp, rfl⟩) ha

example : Inv (init 4 4096 fun _ => 0) ∧ ∀ b ∈ blocks (init 4 4096 fun _ => 0), b.1 ≠ 7 :=
  ⟨(init_inv (by decide) (by decide) (by decide) _).1, by simp [blocks, init]⟩

theorem inv_remove {s : PA} (h : Inv s) {A B : List Region} {r : Region} (e : s.regions = A ++ r :: B) {mem : Nat → Nat} {un : List (Nat × Nat)} :
    Inv { s with regions := A ++ B, mem := mem, unmapped := un } := by
  refine ⟨h.align, h.page, h.div, ?_, ?_⟩
  · intro q hq
    simp only [List.mem_append] at hq
    rcases hq with hq | hq
    · exact h.region q (by rw [e]; simp [hq])
    · exact h.region q (by rw [e]; simp [hq])
  · have hp := h.apart
    rw [e, List.pairwise_append, List.pairwise_cons] at hp
    rw [List.pairwise_append]
    exact ⟨hp.1, hp.2.1.2, fun q hq x hx => hp.2.2 q hq x (List.mem_cons_of_mem _ hx)⟩

/-- C25, `Free` of a block: exactly that block goes; its region is unmapped exactly when it held no other block. -/
theorem free_step {s : PA} (h : Inv s) {b : Nat × Nat} (hb : b ∈ blocks s) :
    Inv (free s b.1) ∧ (blocks s).Perm (b :: blocks (free s b.1)) ∧ (free s b.1).align = s.align ∧ (free s b.1).page = s.page ∧
      ∃ A r B, s.regions = A ++ r :: B ∧ b ∈ r.units.map (blk s.align r) ∧
        ((r.units.length = 1 ∧ (free s b.1).regions = A ++ B ∧ (free s b.1).unmapped = s.unmapped ++ [(r.start, r.size)]) ∨
          (r.units.length ≠ 1 ∧ (∃ us, (free s b.1).regions = A ++ { r with units := us } :: B) ∧ (free s b.1).unmapped = s.unmapped)) := by
  unfold free
  rcases freeLoop_split (m := s.align) (addr := b.1) (rs := s.regions) with ⟨_, hnone⟩ | ⟨A, r, r', u, B, e1, e2, e3⟩
  · exfalso
    obtain ⟨r, hr, u, hu, rfl⟩ := mem_blocks.1 hb
    exact tryFree_none (h.region r hr).1 (hnone r hr) u hu rfl
  · have hr := h.region r (by rw [e1]; simp)
    obtain ⟨C, D, eu, er, ha, hr'⟩ := tryFree_some hr.1 e2
    have hub : blk s.align r u = b := by
      have hm : blk s.align r u ∈ blocks s := mem_blocks.2 ⟨r, by rw [e1]; simp, u, by rw [eu]; simp, rfl⟩
      have h1 := (blocks_good h hm).1
      have h2 := (blocks_good h hb).1
      refine Classical.byContradiction fun hne => ?_
      obtain ⟨i, hi, ei⟩ := List.getElem_of_mem hm
      obtain ⟨j, hj, ej⟩ := List.getElem_of_mem hb
      have hij : i ≠ j := by rintro rfl; exact hne (ei.symm.trans ej)
      have hpw := List.pairwise_iff_getElem.1 (blocks_apart h)
      rcases Nat.lt_or_gt_of_ne hij with hlt | hlt
      · have := hpw i j hi hj hlt
        rw [ei, ej] at this
        rcases this with h3 | h3 <;> omega
      · have := hpw j i hj hi hlt
        rw [ei, ej] at this
        rcases this with h3 | h3 <;> omega
    have hs : r'.start = r.start := by rw [er]
    have hz : r'.size = r.size := by rw [er]
    have hbm : b ∈ r.units.map (blk s.align r) := by rw [eu, ← hub]; simp
    have hlen : r'.units.isEmpty = true ↔ r.units.length = 1 := by
      rw [er, eu]
      simp only [List.isEmpty_iff, List.append_eq_nil_iff, List.length_append, List.length_cons]
      constructor
      · rintro ⟨rfl, rfl⟩; rfl
      · intro hl
        exact ⟨List.length_eq_zero_iff.1 (by omega), List.length_eq_zero_iff.1 (by omega)⟩
    by_cases hc : r'.units.isEmpty = true
    · rw [if_pos hc] at e3
      rw [e3]
      have hl := hlen.1 hc
      have hCD : C = [] ∧ D = [] := by
        rw [eu] at hl
        simp only [List.length_append, List.length_cons] at hl
        exact ⟨List.length_eq_zero_iff.1 (by omega), List.length_eq_zero_iff.1 (by omega)⟩
      refine ⟨inv_remove h e1, ?_, rfl, rfl, A, r, B, e1, hbm, .inl ⟨hl, rfl, rfl⟩⟩
      rw [blocks_split e1, eu, hCD.1, hCD.2]
      simp only [List.nil_append, List.map_cons, List.map_nil, hub, List.cons_append]
      simp only [blocks, List.flatMap_append]
      exact List.perm_middle
    · rw [if_neg hc] at e3
      rw [e3]
      refine ⟨inv_replace h e1 hr' (by simpa using hc) hs hz, ?_, rfl, rfl, A, r, B, e1, hbm, .inr ⟨fun hl => hc (hlen.2 hl), ⟨C ++ D, by rw [er]⟩, by simp⟩⟩
      rw [blocks_split e1]
      rw [blocks_split (s := { s with regions := A ++ r' :: B, mem := fill s.mem (r.start + u.1) u.2, unmapped := s.unmapped ++ (none : Option (Nat × Nat)).toList }) (A := A) (r := r') (B := B) rfl]
      simp only [blk_congr hs]
      rw [er, eu]
      simp only [List.map_append, List.map_cons, hub, List.append_assoc, List.cons_append]
      refine List.Perm.trans ?_ List.perm_middle
      refine List.Perm.append_left _ ?_
      exact List.perm_middle

/-- C25: `Free` writes only inside the freed unit: the content of every other block stays. -/
theorem free_keeps_content {s : PA} (h : Inv s) {addr : Nat} {b : Nat × Nat} (hb : b ∈ blocks (free s addr)) : ∀ i, i < b.2 → (free s addr).mem (b.1 + i) = s.mem (b.1 + i) := by
  intro i hi
  unfold free at hb ⊢
  rcases freeLoop_split (m := s.align) (addr := addr) (rs := s.regions) with ⟨e, _⟩ | ⟨A, r, r', u, B, e1, e2, e3⟩
  · rw [e]
  · have hr := h.region r (by rw [e1]; simp)
    obtain ⟨C, D, eu, er, ha, hr'⟩ := tryFree_some hr.1 e2
    have hu : u ∈ r.units := by rw [eu]; simp
    obtain ⟨hu1, hu2, _, _⟩ := hr.1.unit hu
    have hmem : ∀ x ∈ A ++ r' :: B, ∀ v ∈ x.units, blk s.align x v = b → ¬ (r.start + u.1 ≤ b.1 + i ∧ b.1 + i < r.start + u.1 + u.2) := by
      intro x hx v hv hb'
      have hother : ∀ q, (q ∈ A ∨ q ∈ B) → v ∈ q.units → blk s.align q v = b → ¬ (r.start + u.1 ≤ b.1 + i ∧ b.1 + i < r.start + u.1 + u.2) := by
        intro q hq hvq hbq
        have hqr : q ∈ s.regions := by rw [e1]; rcases hq with hq | hq <;> simp [hq]
        obtain ⟨h3, h4, _, _⟩ := (h.region q hqr).1.unit hvq
        have hp := h.apart
        rw [e1, List.pairwise_append, List.pairwise_cons] at hp
        have hap : Apart (q.start, q.size) (r.start, r.size) := by
          rcases hq with hq | hq
          · exact hp.2.2 q hq r (by simp)
          · exact apart_symm (hp.2.1.1 q hq)
        rw [← hbq] at hi ⊢
        unfold Apart at hap
        simp only [blk] at *
        omega
      simp only [List.mem_append, List.mem_cons] at hx
      rcases hx with hx | rfl | hx
      · exact hother x (.inl hx) hv hb'
      · rw [er] at hv hb'
        replace hb' : blk s.align r v = b := hb'
        have hpw := chain_pairwise hr.1.chain
        rw [eu, List.pairwise_append, List.pairwise_cons] at hpw
        have hv2 : v ∈ r.units := by
          rw [eu]; simp only [List.mem_append, List.mem_cons] at hv ⊢
          rcases hv with hv | hv
          · exact .inl hv
          · exact .inr (.inr hv)
        obtain ⟨_, h4, _, _⟩ := hr.1.unit hv2
        rw [← hb'] at hi ⊢
        simp only [List.mem_append] at hv
        simp only [blk] at *
        rcases hv with hv | hv
        · have := hpw.2.2 v hv u (by simp)
          omega
        · have := hpw.2.1.1 v hv
          omega
      · exact hother x (.inr hx) hv hb'
    have hfin : ∀ x ∈ A ++ r' :: B, ∀ v ∈ x.units, blk s.align x v = b → fill s.mem (r.start + u.1) u.2 (b.1 + i) = s.mem (b.1 + i) := by
      intro x hx v hv hb'
      unfold fill
      rw [if_neg (hmem x hx v hv hb')]
    by_cases hc : r'.units.isEmpty = true
    · rw [if_pos hc] at e3
      rw [e3] at hb ⊢
      obtain ⟨x, hx, v, hv, hb'⟩ := mem_blocks.1 hb
      refine hfin x ?_ v hv hb'
      simp only [List.mem_append, List.mem_cons] at hx ⊢
      rcases hx with hx | hx
      · exact .inl hx
      · exact .inr (.inr hx)
    · rw [if_neg hc] at e3
      rw [e3] at hb ⊢
      obtain ⟨x, hx, v, hv, hb'⟩ := mem_blocks.1 hb
      exact hfin x hx v hv hb'

/-- C25: `SetRE`/`SetRW` change the access of the region that contains the address, and of no other. -/
theorem setAccess_step {s : PA} (h : Inv s) (addr : Nat) (re : Bool) :
    (setAccess addr re s.regions) = s.regions.map (fun r => if r.start ≤ addr ∧ addr < r.start + r.size then { r with re := re } else r) := by
  have key : ∀ rs : List Region, (∀ r ∈ rs, r.contains addr = true ↔ r.start ≤ addr ∧ addr < r.start + r.size) → rs.Pairwise (fun r q => Apart (r.start, r.size) (q.start, q.size)) →
      setAccess addr re rs = rs.map (fun r => if r.start ≤ addr ∧ addr < r.start + r.size then { r with re := re } else r) := by
    intro rs
    induction rs with
    | nil => intro _ _; rfl
    | cons r rs ih =>
      intro hc hp
      rw [List.pairwise_cons] at hp
      simp only [setAccess, List.map_cons]
      have h1 := hc r (by simp)
      by_cases hin : r.start ≤ addr ∧ addr < r.start + r.size
      · rw [if_pos (h1.2 hin), if_pos hin]
        congr 1
        symm
        refine (List.map_congr_left (g := id) ?_).trans (List.map_id _)
        intro q hq
        have := hp.1 q hq
        unfold Apart at this
        simp only at this
        rw [if_neg (by omega)]
        rfl
      · rw [if_neg (fun hh => hin (h1.1 hh)), if_neg hin, ih (fun q hq => hc q (List.mem_cons_of_mem _ hq)) hp.2]
  exact key _ (fun r hr => contains_of (h.region r hr).1) h.apart

/-! ## Whole runs -/

/-- The calls; `map` is what `mmap` returns if it is asked. -/
inductive Op
  | alloc (req : Nat) (iso : Bool) (map : Nat)
  | free (addr : Nat)

/-- One call and the address returned. -/
def step (s : PA) : Op → PA × Nat
  | .alloc req iso map => alloc s req iso map
  | .free addr => (free s addr, 0)

/-- Runs, with the list of the blocks the callers hold: what `Alloc` returned and was not freed since. -/
inductive Run (s0 : PA) : PA → List (Nat × Nat) → Prop
  | nil : Run s0 s0 []
  | alloc {s : PA} {held : List (Nat × Nat)} {req map : Nat} {iso : Bool} (h : Run s0 s held) (hreq : 0 < req) (hm : MapOk s req map) :
      Run s0 (alloc s req iso map).1 (((alloc s req iso map).2, req) :: held)
  | free {s : PA} {held held' : List (Nat × Nat)} {b : Nat × Nat} (h : Run s0 s held) (hb : held.Perm (b :: held')) : Run s0 (free s b.1) held'

/-- C25 over whole runs: the blocks the callers hold are the blocks in use. -/
theorem run_blocks {align page : Nat} {mem : Nat → Nat} (h1 : 0 < align) (h2 : 0 < page) (h3 : page % align = 0) {s : PA} {held : List (Nat × Nat)}
    (h : Run (init align page mem) s held) : Inv s ∧ (blocks s).Perm held ∧ s.align = align ∧ s.page = page := by
  induction h with
  | nil => exact ⟨(init_inv h1 h2 h3 mem).1, by rw [(init_inv h1 h2 h3 mem).2], rfl, rfl⟩
  | @alloc s held req map iso _ hreq hm ih =>
    obtain ⟨hi, hp, _, _, ha, hpg, _⟩ := alloc_step ih.1 iso hreq hm
    exact ⟨hi, hp.trans (ih.2.1.cons _), ha.trans ih.2.2.1, hpg.trans ih.2.2.2⟩
  | @free s held held' b _ hb ih =>
    obtain ⟨hi, hp, ha, hpg, _⟩ := free_step ih.1 (b := b) (ih.2.1.mem_iff.2 (hb.mem_iff.2 (by simp)))
    exact ⟨hi, (hp.symm.trans (ih.2.1.trans hb)).cons_inv, ha.trans ih.2.2.1, hpg.trans ih.2.2.2⟩

/-- C25: in every run the blocks held are pairwise disjoint, aligned, not NULL, each inside one mapped region.
Missing: requests of size 0 (`zero_size_shares`) and failing `mmap` (`map_failed_used`), where it is false. -/
theorem page_alloc_partial {align page : Nat} {mem : Nat → Nat} (h1 : 0 < align) (h2 : 0 < page) (h3 : page % align = 0) {s : PA} {held : List (Nat × Nat)}
    (h : Run (init align page mem) s held) : held.Pairwise Apart ∧ ∀ b ∈ held, 0 < b.2 ∧ b.1 % align = 0 ∧ b.1 ≠ 0 ∧ ∃ r ∈ s.regions, r.start ≤ b.1 ∧ b.1 + b.2 ≤ r.start + r.size := by
  obtain ⟨hi, hp, ha, _⟩ := run_blocks h1 h2 h3 h
  refine ⟨(hp.pairwise_iff (fun h => apart_symm h)).1 (blocks_apart hi), ?_⟩
  intro b hb
  have := blocks_good hi (hp.mem_iff.2 hb)
  rw [ha] at this
  exact this

/-- Two blocks, the first of them freed. -/
example : ∃ s, Run (init 4 4096 fun _ => 0) s [(8204, 12)] := by
  have h1 : Run (init 4 4096 fun _ => 0) _ _ := .alloc (req := 12) (map := 8192) (iso := false) .nil (by decide) ⟨by decide, by decide, by decide, by simp [init]⟩
  have h2 : Run (init 4 4096 fun _ => 0) _ _ := .alloc (req := 12) (map := 20480) (iso := false) h1 (by decide) ⟨by decide, by decide, by decide, by unfold Apart; decide⟩
  exact ⟨_, .free (b := (8192, 12)) h2 (List.Perm.swap _ _ _)⟩

/-- A state with an isolated block and a shared one: the hypotheses of `blocks_good`, `isolated_alone`, `free_step` and `free_keeps_content`. -/
example : ∃ s, Inv s ∧ (8192, 12) ∈ blocks s ∧ (8192, 12) ∈ blocks (free s 20480) ∧ ∃ r ∈ s.regions, r.isolated = true := by
  have h1 : Run (init 4 4096 fun _ => 0) _ _ := .alloc (req := 12) (map := 8192) (iso := true) .nil (by decide) ⟨by decide, by decide, by decide, by simp [init]⟩
  have h2 : Run (init 4 4096 fun _ => 0) _ _ := .alloc (req := 7) (map := 20480) (iso := false) h1 (by decide) ⟨by decide, by decide, by decide, by unfold Apart; decide⟩
  exact ⟨_, (run_blocks (by decide) (by decide) (by decide) h2).1, by decide, by decide, by decide⟩

/-! ## What the code does not do -/

/-- A request of size 0 gets the address of a block in use: the two cannot be told apart by `Free`. -/
theorem zero_size_shares : ∃ s map, Inv s ∧ MapOk s 0 map ∧ ∃ b ∈ blocks s, (alloc s 0 false map).2 = b.1 := by
  have h1 : Run (init 4 4096 fun _ => 0) _ _ := .alloc (req := 12) (map := 8192) (iso := false) .nil (by decide) ⟨by decide, by decide, by decide, by simp [init]⟩
  exact ⟨_, 20480, (run_blocks (by decide) (by decide) (by decide) h1).1, ⟨by decide, by decide, by decide, by unfold Apart; decide⟩, (8192, 12), by decide, by decide⟩

/-- MAP_FAILED is not recognised: the region is kept, and the next `Alloc` returns an address near NULL that was never mapped. -/
theorem map_failed_used : (alloc (init 4 4096 fun _ => 0) 4096 false (2 ^ 64 - 1)).2 = 0 ∧
    (alloc (alloc (init 4 4096 fun _ => 0) 2000 false (2 ^ 64 - 1)).1 12 false (2 ^ 64 - 1)).2 = 2000 := by decide

end Verif.Page

#print axioms Verif.Page.blocks_good
#print axioms Verif.Page.blocks_apart
#print axioms Verif.Page.isolated_alone
#print axioms Verif.Page.alloc_step
#print axioms Verif.Page.free_step
#print axioms Verif.Page.free_other
#print axioms Verif.Page.free_keeps_content
#print axioms Verif.Page.setAccess_step
#print axioms Verif.Page.page_alloc_partial
#print axioms Verif.Page.zero_size_shares
#print axioms Verif.Page.map_failed_used

#print axioms Verif.Page.init_inv
#print axioms Verif.Page.run_blocks
