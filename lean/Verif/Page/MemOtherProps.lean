import Verif.Page.MemOther
import Verif.Page.MemProps
/-
C94: making the slot of a virtual function writable on Windows and on macOS.
-/
namespace Verif.Page

/-! ## Specification -/

/-- Specification: the `Protect` values without modifiers (winnt.h). -/
def winPlain : List Nat := [0x01, 0x02, 0x04, 0x08, 0x10, 0x20, 0x40, 0x80]

/-- Specification: what a page with such a value allows, from the documentation of the memory protection constants. -/
def winAllows (p : Nat) : Bits where
  r := decide (p ∈ [0x02, 0x04, 0x08, 0x20, 0x40, 0x80])
  w := decide (p ∈ [0x04, 0x08, 0x40, 0x80])
  x := decide (p ∈ [0x10, 0x20, 0x40, 0x80])

/-- Specification: everything the one allows is allowed by the other. -/
def Bits.le (a b : Bits) : Prop := (a.r = true → b.r = true) ∧ (a.w = true → b.w = true) ∧ (a.x = true → b.x = true)

/-- Specification: regions in order, none empty, apart from each other, as the kernel keeps them. -/
def Ordered (regions : List VmRegion) : Prop :=
  (∀ r ∈ regions, r.lo < r.hi) ∧ regions.Pairwise fun r q => r.hi ≤ q.lo

/-! ## Windows -/

/-- **C94.** On Windows `GetPageBits` tells exactly what a page without modifiers allows, and nothing of any other. -/
theorem win_bits (p : Nat) : winBits p = if p ∈ winPlain then some (winAllows p) else none := by
  by_cases h : p ∈ winPlain
  · rw [if_pos h]
    revert h p
    decide
  · rw [if_neg h]
    simp only [winPlain, List.mem_cons, List.not_mem_nil, or_false, not_or] at h
    obtain ⟨h1, h2, h3, h4, h5, h6, h7, h8⟩ := h
    simp only [winBits]
    rw [if_neg h5, if_neg h6, if_neg (by simp [h7, h8]), if_neg h1, if_neg h2, if_neg (by simp [h3, h4])]

/-- **C94.** The protection chosen for an access allows all of it; for what includes reading it allows no more. -/
theorem win_access (b : Bits) : Bits.le b (winAllows (winAccess b)) ∧ (b.r = true → winAllows (winAccess b) = b) := by
  obtain ⟨r, w, x⟩ := b
  revert r w x
  unfold Bits.le
  decide

theorem slot_page {k addr : Nat} (hk3 : 3 ≤ k) (ha : addr % 8 = 0) :
    ∀ x, addr ≤ x → x < addr + 8 → x / 2 ^ k = addr / 2 ^ k := by
  intro x h1 h2
  have hp : (2 : Nat) ^ k = 8 * 2 ^ (k - 3) := by
    rw [show (8 : Nat) = 2 ^ 3 from rfl, ← Nat.pow_add, show 3 + (k - 3) = k by omega]
  rw [hp, ← Nat.div_div_eq_div_mul, ← Nat.div_div_eq_div_mul]
  congr 1
  omega

theorem slot_pages {k addr : Nat} (hk3 : 3 ≤ k) (ha : addr % 8 = 0) :
    pages k addr 8 = (addr / 2 ^ k, addr / 2 ^ k + 1) := by
  have hp : 0 < 2 ^ k := Nat.pow_pos (by decide)
  have h7 := slot_page hk3 ha (addr + 7) (by omega) (by omega)
  have h2 : (addr + 8 + (2 ^ k - 1)) / 2 ^ k = addr / 2 ^ k + 1 := by
    rw [show addr + 8 + (2 ^ k - 1) = addr + 7 + 2 ^ k by omega, Nat.add_div_right _ hp, h7]
  simp only [pages, h2]

theorem lalign_div {k addr : Nat} (hk : k ≤ 63) (h : addr < 2 ^ 64) : lalign k addr / 2 ^ k = addr / 2 ^ k := by
  have hp : 0 < 2 ^ k := Nat.pow_pos (by decide)
  rw [lalign_eq (by omega) h]
  have h1 : addr - addr % 2 ^ k = 2 ^ k * (addr / 2 ^ k) := by
    have := Nat.div_add_mod addr (2 ^ k)
    omega
  rw [h1, Nat.mul_div_cancel_left _ hp]

theorem getPageBitsWin_page {k addr : Nat} {prot other : Nat → Option Nat} {p : Nat} (hk : k ≤ 63) (h : addr < 2 ^ 64)
    (hp : prot (addr / 2 ^ k) = some p) : getPageBitsWin k prot other addr = winBits p := by
  unfold getPageBitsWin virtualQuery
  rw [lalign_div hk h, hp]

theorem virtualProtect_slot {k addr : Nat} (prot : Nat → Option Nat) {p : Nat} (hk3 : 3 ≤ k) (ha : addr % 8 = 0)
    (hfit : addr + 8 < 2 ^ 64) (hp : prot (addr / 2 ^ k) = some p) (q : Nat) :
    virtualProtect k prot addr 8 q = (fun i => if i = addr / 2 ^ k then some q else prot i, true) := by
  unfold virtualProtect
  rw [if_neg (by omega), slot_pages hk3 ha]
  have e : addr / 2 ^ k + 1 - addr / 2 ^ k = 1 := by omega
  simp only [e]
  rw [if_pos (by simp [hp])]
  refine congrArg (·, true) (funext fun i => ?_)
  by_cases h : i = addr / 2 ^ k
  · rw [if_pos h, if_pos (by omega)]
  · rw [if_neg h, if_neg (by omega)]

/-- **C94.** `MakePageWritable` of a slot in a committed page without modifiers on Windows: it succeeds; afterwards the 8
bytes can be written, everything allowed before is still allowed, and no other page has changed.  If the page could be
read, writing is all that was added. -/
theorem win_slot {k addr : Nat} {prot other : Nat → Option Nat} {p : Nat} (hk : k ≤ 63) (hk3 : 3 ≤ k) (ha : addr % 8 = 0)
    (hfit : addr + 8 < 2 ^ 64) (hp : prot (addr / 2 ^ k) = some p) (hplain : p ∈ winPlain) :
    ∃ prot' q, makePageWritableWin k prot other addr = (prot', true) ∧
      (∀ x, addr ≤ x → x < addr + 8 → prot' (x / 2 ^ k) = some q) ∧ (winAllows q).w = true ∧
      Bits.le (winAllows p) (winAllows q) ∧
      ((winAllows p).r = true → winAllows q = { winAllows p with w := true }) ∧
      ∀ i, i ≠ addr / 2 ^ k → prot' i = prot i := by
  unfold makePageWritableWin
  rw [getPageBitsWin_page hk (by omega) hp, win_bits, if_pos hplain]
  dsimp only
  by_cases hw : (winAllows p).w = true
  · rw [if_pos hw]
    refine ⟨prot, p, rfl, fun x h1 h2 => by rw [slot_page hk3 ha x h1 h2, hp], hw, ⟨id, id, id⟩, fun _ => ?_, fun _ _ => rfl⟩
    generalize winAllows p = b at hw
    cases b
    cases hw
    rfl
  · rw [if_neg hw, setMemAccessWin, virtualProtect_slot prot hk3 ha hfit hp]
    obtain ⟨h1, h2⟩ := win_access { winAllows p with w := true }
    refine ⟨_, winAccess { winAllows p with w := true }, rfl,
      fun x hx1 hx2 => if_pos (slot_page hk3 ha x hx1 hx2), h1.2.1 rfl, ⟨h1.1, fun h => absurd h hw, h1.2.2⟩, fun h => h2 h,
      fun i hi => if_neg hi⟩

/-- A slot in a read-only page of 4096 bytes: it becomes `PAGE_READWRITE`. -/
example : ∃ prot', makePageWritableWin 12 (fun i => if i = 1 then some 2 else none) (fun _ => some 1) 4104 = (prot', true) ∧
    prot' 1 = some 4 ∧ 2 ∈ winPlain := ⟨_, rfl, rfl, by decide⟩

/-- Finding: a page that allows nothing, or executing only, is made readable, writable and executable. -/
theorem win_widened {k addr : Nat} {prot other : Nat → Option Nat} {p : Nat} (hk : k ≤ 63) (hk3 : 3 ≤ k) (ha : addr % 8 = 0)
    (hfit : addr + 8 < 2 ^ 64) (hp : prot (addr / 2 ^ k) = some p) (h : p = 1 ∨ p = 0x10) :
    (makePageWritableWin k prot other addr).1 (addr / 2 ^ k) = some 0x40 := by
  unfold makePageWritableWin
  rw [getPageBitsWin_page hk (by omega) hp]
  rcases h with rfl | rfl <;>
  · dsimp only [winBits]
    show (setMemAccessWin k prot addr 8 _).1 _ = _
    rw [setMemAccessWin, virtualProtect_slot prot hk3 ha hfit hp]
    exact if_pos rfl

example : (makePageWritableWin 12 (fun i => if i = 1 then some 0x10 else none) (fun _ => some 1) 4104).1 (4104 / 2 ^ 12) = some 0x40 :=
  win_widened (p := 0x10) (by decide) (by decide) (by decide) (by decide) rfl (Or.inr rfl)

/-- Finding: a page with a modifier (`PAGE_GUARD`, `PAGE_NOCACHE`, `PAGE_WRITECOMBINE`) loses it and is made readable,
writable and executable, whatever it allowed. -/
theorem win_modifier_lost {k addr : Nat} {prot other : Nat → Option Nat} {p : Nat} (hk : k ≤ 63) (hk3 : 3 ≤ k)
    (ha : addr % 8 = 0) (hfit : addr + 8 < 2 ^ 64) (hp : prot (addr / 2 ^ k) = some p) (h : 0x100 ≤ p) :
    (makePageWritableWin k prot other addr).1 (addr / 2 ^ k) = some 0x40 := by
  unfold makePageWritableWin
  rw [getPageBitsWin_page hk (by omega) hp, win_bits, if_neg]
  · dsimp only
    rw [setMemAccessWin, virtualProtect_slot prot hk3 ha hfit hp]
    exact if_pos rfl
  · simp only [winPlain, List.mem_cons, List.not_mem_nil, or_false, not_or]
    omega

/-- A read-only guard page. -/
example : (makePageWritableWin 12 (fun i => if i = 1 then some 0x102 else none) (fun _ => some 1) 4104).1 (4104 / 2 ^ 12) = some 0x40 :=
  win_modifier_lost (p := 0x102) (by decide) (by decide) (by decide) (by decide) rfl (by decide)

/-! ## macOS -/

/-- **C94.** On macOS `GetPageBits` of an address in a region tells what that region allows. -/
theorem mac_bits {regions : List VmRegion} (ho : Ordered regions) {r : VmRegion} (hr : r ∈ regions) {addr : Nat}
    (h1 : r.lo ≤ addr) (h2 : addr < r.hi) : getPageBitsMac regions addr = some r.bits := by
  unfold getPageBitsMac vmRegion
  obtain ⟨hne, hp⟩ := ho
  induction regions with
  | nil => cases hr
  | cons q qs ih =>
    rw [List.pairwise_cons] at hp
    rcases List.mem_cons.1 hr with rfl | hr'
    · rw [List.find?_cons_of_pos (by simpa using h2)]
      rfl
    · have := hp.1 r hr'
      rw [List.find?_cons_of_neg (by simp; omega)]
      exact ih hr' (fun x hx => hne x (List.mem_cons_of_mem _ hx)) hp.2

/-- Two regions. -/
example : getPageBitsMac [⟨0x1000, 0x3000, ⟨true, false, true⟩⟩, ⟨0x5000, 0x6000, ⟨true, true, false⟩⟩] 0x5008 = some ⟨true, true, false⟩ :=
  mac_bits (r := ⟨0x5000, 0x6000, ⟨true, true, false⟩⟩) ⟨by decide, by decide⟩ (by decide) (by decide) (by decide)

/-- **C94.** `MakePageWritable` of a slot on macOS, for an address in a region: it succeeds; afterwards the 8 bytes allow
what they allowed, and writing; no other page has changed. -/
theorem mac_slot {k addr : Nat} {regions : List VmRegion} {prot : Nat → Option Bits} (hk : k ≤ 63) (hk3 : 3 ≤ k)
    (ha : addr % 8 = 0) (hfit : addr + 8 < 2 ^ 64) (ho : Ordered regions) {r : VmRegion} (hr : r ∈ regions)
    (h1 : r.lo ≤ addr) (h2 : addr < r.hi) (hp : prot (addr / 2 ^ k) = some r.bits) :
    ∃ prot', makePageWritableMac k regions prot addr = (prot', true) ∧
      (∀ x, addr ≤ x → x < addr + 8 → prot' (x / 2 ^ k) = some { r.bits with w := true }) ∧
      ∀ p, p ≠ addr / 2 ^ k → prot' p = prot p := by
  have hone := slot_page hk3 ha
  unfold makePageWritableMac
  rw [mac_bits ho hr h1 h2]
  dsimp only
  by_cases hw : r.bits.w = true
  · rw [if_pos hw]
    refine ⟨prot, rfl, fun x hx1 hx2 => ?_, fun _ _ => rfl⟩
    rw [hone x hx1 hx2, hp]
    generalize r.bits = b at hw
    cases b
    cases hw
    rfl
  · rw [if_neg hw]
    have hs := setMemAccess_succeeds (prot := prot) { r.bits with w := true } hk (by omega : 0 < 8) hfit
      (fun x hx1 hx2 => by rw [hone x hx1 hx2, hp]; rfl)
    obtain ⟨prot', e⟩ : ∃ prot', setMemAccess k prot addr 8 { r.bits with w := true } = (prot', true) :=
      ⟨_, Prod.ext rfl hs⟩
    obtain ⟨g1, g2⟩ := setMemAccess_exact hk (by omega) hfit e
    exact ⟨prot', e, g1, fun p hp' => g2 p fun x hx1 hx2 he => hp' (by rw [← he]; exact hone x hx1 hx2)⟩

/-- A slot in a read-only page. -/
example : ∃ prot', makePageWritableMac 12 [⟨0x1000, 0x3000, ⟨true, false, false⟩⟩]
      (fun p => if p = 1 ∨ p = 2 then some ⟨true, false, false⟩ else none) 0x1008 = (prot', true) ∧
    prot' 1 = some ⟨true, true, false⟩ := ⟨_, rfl, rfl⟩

/-- Finding: for an address in no region, `GetPageBits` on macOS tells what the next region above allows. -/
theorem mac_unmapped {regions : List VmRegion} (ho : Ordered regions) {r : VmRegion} (hr : r ∈ regions) {addr : Nat}
    (h0 : ∀ q ∈ regions, ¬ (q.lo ≤ addr ∧ addr < q.hi)) (h1 : addr < r.lo) (h2 : ∀ q ∈ regions, addr < q.lo → r.lo ≤ q.lo) :
    getPageBitsMac regions addr = some r.bits := by
  unfold getPageBitsMac vmRegion
  obtain ⟨hne, hp⟩ := ho
  induction regions with
  | nil => cases hr
  | cons q qs ih =>
    rw [List.pairwise_cons] at hp
    rcases List.mem_cons.1 hr with rfl | hr'
    · have := hne _ hr
      rw [List.find?_cons_of_pos (by simp; omega)]
      rfl
    · have g1 := hp.1 r hr'
      have g2 := h0 q (by simp)
      have g3 := h2 q (by simp)
      have g4 := hne q (by simp)
      rw [List.find?_cons_of_neg (by simp; omega)]
      exact ih hr' (fun x hx => h0 x (List.mem_cons_of_mem _ hx)) (fun x hx => h2 x (List.mem_cons_of_mem _ hx))
        (fun x hx => hne x (List.mem_cons_of_mem _ hx)) hp.2

example : getPageBitsMac [⟨0x1000, 0x3000, ⟨true, false, true⟩⟩, ⟨0x5000, 0x6000, ⟨true, true, false⟩⟩] 0x4000 = some ⟨true, true, false⟩ :=
  mac_unmapped (r := ⟨0x5000, 0x6000, ⟨true, true, false⟩⟩) ⟨by decide, by decide⟩ (by decide) (by decide) (by decide) (by decide)

/-- Finding: so `MakePageWritable` on macOS says yes to an address where nothing is mapped, below a writable region; the
write that follows (`CVfnPtr::Patch`) faults. -/
theorem mac_writable_nothing : ∃ (regions : List VmRegion) (prot : Nat → Option Bits), Ordered regions ∧
    (makePageWritableMac 12 regions prot 0x4000).2 = true ∧ (makePageWritableMac 12 regions prot 0x4000).1 (0x4000 / 2 ^ 12) = none :=
  ⟨[⟨0x5000, 0x6000, ⟨true, true, false⟩⟩], fun p => if p = 5 then some ⟨true, true, false⟩ else none,
    ⟨by decide, by decide⟩, rfl, rfl⟩

end Verif.Page

#print axioms Verif.Page.win_bits
#print axioms Verif.Page.win_access
#print axioms Verif.Page.win_slot
#print axioms Verif.Page.mac_bits
#print axioms Verif.Page.mac_slot
#print axioms Verif.Page.mac_writable_nothing
