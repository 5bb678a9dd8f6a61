import Verif.Page.CurLemmas
import Verif.Page.MemProps
/-
C98: what `GetPageBits`, `ModuleInMemory` and `MakePageWritable` make of FreeBSD's /proc/curproc/map.
-/
namespace Verif.CurMap
open Verif.C Verif.Page Verif.Maps

/-- Specification: what is told of the flags, if the last line so far that had an object had this flag for reading.
No counterpart in /repo. -/
def toldOf : Option Bool → Told
  | none => .ub
  | some b => .bits ⟨b, false, false⟩

/-- Specification: the flag for reading of the last of the mappings that has an object. No counterpart in /repo. -/
def lastRead (ms : List Mapping) : Option Bool := (ms.filter fun m => m.obj != 0).getLast?.map fun m => m.bits.r

/-- No counterpart in /repo: `lastRead`, from a value on. -/
def readsFrom (b : Option Bool) (ms : List Mapping) : Option Bool := match lastRead ms with
  | some r => some r
  | none => b

theorem readsFrom_cons (b : Option Bool) (m : Mapping) (ms : List Mapping) :
    readsFrom b (m :: ms) = readsFrom (if m.obj = 0 then b else some m.bits.r) ms := by
  unfold readsFrom lastRead
  by_cases h : m.obj = 0
  · simp [h]
  · rw [List.filter_cons_of_pos (by simpa using h), if_neg h]
    cases hf : ms.filter fun m => m.obj != 0 with
    | nil => simp
    | cons a l =>
      rw [List.getLast?_cons_cons, List.getLast?_eq_some_getLast (List.cons_ne_nil a l)]
      rfl

theorem flagsOf_read (b : Option Bool) : flagsOf (b.map readChar) = toldOf b := by
  cases b with
  | none => rfl
  | some b => cases b <;> rfl

/-- One step of the loop at a line of the kernel. -/
theorem readBits_line {W addr : Nat} {m : Mapping} (h : m.lo < 2 ^ W ∧ m.hi < 2 ^ W ∧ m.obj < 2 ^ W ∧ 10 ∉ m.rest) (v : Vars) (b : Option Bool)
    (hv : v.r = b.map readChar) (t : List Byte) :
    ∃ v' : Vars, v'.r = (if m.obj = 0 then b else some m.bits.r).map readChar ∧
      readBits W addr v (m.line ++ t) =
        if m.Has addr then toldOf (if m.obj = 0 then b else some m.bits.r) else readBits W addr v' t := by
  obtain ⟨h1, h2, h3, h4⟩ := h
  have key : ∀ (r : Scanned) (b' : Option Bool), scan W bitsFormat 0 v (m.line ++ t) = r → r.eof = false → r.vars.lo = some m.lo →
      r.vars.hi = some m.hi → nextLine r.rest = some t → r.vars.r = b'.map readChar →
      readBits W addr v (m.line ++ t) = if m.Has addr then toldOf b' else readBits W addr r.vars t := by
    intro r b' e e1 e2 e3 e4 e5
    rw [readBits, e, e1, if_neg (by simp)]
    have hw : within addr r.vars = some (decide (m.Has addr)) := by
      unfold within Mapping.Has
      rw [e2, e3]
      by_cases hl : m.lo ≤ addr <;> simp [hl]
    rw [hw]
    by_cases hh : m.Has addr
    · simp only [hh, decide_true, if_true, e5, flagsOf_read]
    · simp only [hh, decide_false, if_false]
      split
      · next hn => rw [e4] at hn; cases hn
      · next u hn => rw [e4] at hn; cases hn; rfl
  by_cases ho : m.obj = 0
  · rw [if_pos ho]
    refine ⟨_, ?_, key _ b (scan_null h1 h2 ho v t) rfl rfl rfl ?_ hv⟩
    · exact hv
    · have e : 32 :: (flagText m.bits ++ (m.rest ++ 10 :: t)) = (32 :: (flagText m.bits ++ m.rest)) ++ 10 :: t := by simp
      show nextLine (32 :: (flagText m.bits ++ (m.rest ++ 10 :: t))) = some t
      rw [e]
      apply nextLine_at
      have c := flags_no_newline m.bits
      simp [c, h4]
  · rw [if_neg ho]
    exact ⟨_, rfl, key _ (some m.bits.r) (scan_obj h1 h2 h3 ho v t) rfl rfl rfl (nextLine_at h4 t) rfl⟩

theorem readBits_nil (W addr : Nat) (v : Vars) : readBits W addr v [] = .nothing := by
  rw [readBits, show scan W bitsFormat 0 v [] = ⟨v, 0, .input, []⟩ from rfl]
  rfl

theorem readBits_file {W addr : Nat} : ∀ (ms : List Mapping) (v : Vars) (b : Option Bool), Written W ms → v.r = b.map readChar →
    (∀ before m after, ms = before ++ m :: after → (∀ k ∈ before, ¬ k.Has addr) → m.Has addr →
      readBits W addr v (fileOf ms) = toldOf (readsFrom b (before ++ [m]))) ∧
    ((∀ m ∈ ms, ¬ m.Has addr) → readBits W addr v (fileOf ms) = .nothing) := by
  intro ms
  induction ms with
  | nil =>
    intro v b _ _
    refine ⟨?_, fun _ => readBits_nil W addr v⟩
    intro before m after e
    simp at e
  | cons n ms ih =>
    intro v b hw hv
    have hf : fileOf (n :: ms) = n.line ++ fileOf ms := rfl
    obtain ⟨v', hv', hl⟩ := readBits_line (addr := addr) (hw n (by simp)) v b hv (fileOf ms)
    obtain ⟨ih1, ih2⟩ := ih v' _ (fun x hx => hw x (List.mem_cons_of_mem _ hx)) hv'
    rw [hf, hl]
    constructor
    · intro before m after e hb hm
      cases before with
      | nil =>
        simp only [List.nil_append, List.cons.injEq] at e
        obtain ⟨rfl, -⟩ := e
        rw [if_pos hm, List.nil_append, readsFrom_cons]
        rfl
      | cons k before =>
        simp only [List.cons_append, List.cons.injEq] at e
        obtain ⟨rfl, e⟩ := e
        rw [if_neg (hb n (by simp)), List.cons_append, readsFrom_cons]
        exact ih1 before m after e (fun k hk => hb k (List.mem_cons_of_mem _ hk)) hm
    · intro hn
      rw [if_neg (hn n (by simp))]
      exact ih2 (fun m hm => hn m (List.mem_cons_of_mem _ hm))

/-- C98: of an address in a mapping with an object `GetPageBits` tells the flag for reading and neither of the others. -/
theorem bits_told_partial {W addr : Nat} {ms : List Mapping} (h : Written W ms) (ha : Apart ms) {m : Mapping} (hm : m ∈ ms) (hx : m.Has addr)
    (ho : m.obj ≠ 0) : curBits W addr (fileOf ms) = .bits ⟨m.bits.r, false, false⟩ := by
  obtain ⟨before, after, e⟩ := List.append_of_mem hm
  have hb : ∀ k ∈ before, ¬ k.Has addr := by
    intro k hk hh
    rw [e] at ha
    exact (List.pairwise_append.1 ha).2.2 k hk m (by simp) addr ⟨hh, hx⟩
  have := (readBits_file (addr := addr) ms {} none h rfl).1 before m after e hb hx
  unfold curBits
  rw [this]
  have hr : readsFrom none (before ++ [m]) = some m.bits.r := by
    unfold readsFrom lastRead
    simp [List.filter_append, ho]
  rw [hr]
  rfl

/-- C98: of an address in no mapping it tells that it found nothing. -/
theorem bits_unmapped {W addr : Nat} {ms : List Mapping} (h : Written W ms) (hx : ∀ m ∈ ms, ¬ m.Has addr) :
    curBits W addr (fileOf ms) = .nothing :=
  (readBits_file (addr := addr) ms {} none h rfl).2 hx

/-- C98, a departure: on FreeBSD `GetPageBits` tells what the mapping allows only where it allows neither writing nor executing. -/
theorem bits_exact_iff {W addr : Nat} {ms : List Mapping} (h : Written W ms) (ha : Apart ms) {m : Mapping} (hm : m ∈ ms) (hx : m.Has addr)
    (ho : m.obj ≠ 0) : curBits W addr (fileOf ms) = .bits m.bits ↔ m.bits.w = false ∧ m.bits.x = false := by
  rw [bits_told_partial h ha hm hx ho]
  rcases m with ⟨lo, hi, re, pr, obj, ⟨r, w, x⟩, rest⟩
  cases w <;> cases x <;> simp

/-- C98, a departure: of an address in a mapping without an object, in whose line the third `0x` is missing, `GetPageBits` tells
the flag for reading of the last line before it that has an object, whatever the mapping allows; if there is none, it looks at a variable
that nobody has assigned. -/
theorem bits_stale {W addr : Nat} {before after : List Mapping} {m : Mapping} (h : Written W (before ++ m :: after))
    (hb : ∀ k ∈ before, ¬ k.Has addr) (hx : m.Has addr) (ho : m.obj = 0) :
    curBits W addr (fileOf (before ++ m :: after)) = match lastRead before with
      | some r => .bits ⟨r, false, false⟩
      | none => .ub := by
  have := (readBits_file (addr := addr) _ {} none h rfl).1 before m after rfl hb hx
  unfold curBits
  rw [this]
  have hr : readsFrom none (before ++ [m]) = lastRead before := by
    unfold readsFrom lastRead
    rw [List.filter_append, List.filter_cons_of_neg (by simp [ho]), List.filter_nil, List.append_nil]
    split
    · next r e => exact e.symm
    · next e => exact e.symm
  rw [hr]
  cases lastRead before <;> rfl

theorem readModule_line {W lower upper : Nat} {m : Mapping} (h : m.lo < 2 ^ W ∧ m.hi < 2 ^ W ∧ m.obj < 2 ^ W ∧ 10 ∉ m.rest) (v : Vars)
    (t : List Byte) : ∃ v' : Vars, readModule W lower upper v (m.line ++ t) =
      if m.lo ≤ lower ∧ upper ≤ m.hi then some true else readModule W lower upper v' t := by
  obtain ⟨h1, h2, _, h4⟩ := h
  refine ⟨{ v with lo := some m.lo, hi := some m.hi }, ?_⟩
  rw [readModule, scan_module h1 h2]
  have e1 : (⟨{ v with lo := some m.lo, hi := some m.hi }, 2, .done, behind m ++ t⟩ : Scanned).eof = false := rfl
  rw [e1, if_neg (by simp)]
  have hw : encloses lower upper { v with lo := some m.lo, hi := some m.hi } = some (decide (m.lo ≤ lower ∧ upper ≤ m.hi)) := by
    unfold encloses
    by_cases hl : m.lo ≤ lower <;> simp [hl]
  simp only [hw]
  by_cases hh : m.lo ≤ lower ∧ upper ≤ m.hi
  · simp [hh]
  · simp only [hh, decide_false, if_false]
    split
    · next hn => rw [behind_next h4] at hn; cases hn
    · next u hn => rw [behind_next h4] at hn; cases hn; rfl

/-- C98: `ModuleInMemory` tells whether the whole range is in one mapping, if the range does not reach around the end of memory. -/
theorem module_told {W addr len : Nat} {ms : List Mapping} (h : Written W ms) (hf : addr + len < 2 ^ W) :
    ∃ b, curModule W addr len (fileOf ms) = some b ∧ (b = true ↔ ∃ m ∈ ms, m.lo ≤ addr ∧ addr + len ≤ m.hi) := by
  unfold curModule
  rw [Nat.mod_eq_of_lt hf]
  generalize ({} : Vars) = v
  induction ms generalizing v with
  | nil =>
    refine ⟨false, ?_, by simp⟩
    rw [show fileOf [] = [] from rfl, readModule, show scan W moduleFormat 0 v [] = ⟨v, 0, .input, []⟩ from rfl]
    rfl
  | cons m ms ih =>
    obtain ⟨v', hl⟩ := readModule_line (lower := addr) (upper := addr + len) (h m (by simp)) v (fileOf ms)
    obtain ⟨b, h1, h2⟩ := ih (fun x hx => h x (List.mem_cons_of_mem _ hx)) v'
    rw [show fileOf (m :: ms) = m.line ++ fileOf ms from rfl, hl]
    by_cases hc : m.lo ≤ addr ∧ addr + len ≤ m.hi
    · rw [if_pos hc]
      exact ⟨true, rfl, by simp [hc]⟩
    · rw [if_neg hc]
      refine ⟨b, h1, h2.trans ?_⟩
      simp [hc]

/-- C98, a departure: `MakePageWritable` of a slot in a mapping with an object succeeds and the slot is writable, but nothing on its page
may be executed any more.  It takes every mapping for one that allows at most reading. -/
theorem slot_page_partial {k addr : Nat} {ms : List Mapping} {prot : Nat → Option Bits} (hk : k ≤ 63) (hk3 : 3 ≤ k) (ha : addr % 8 = 0)
    (hfit : addr + 8 < 2 ^ 64) (h : Written 64 ms) (hap : Apart ms) {m : Mapping} (hm : m ∈ ms) (hx : m.Has addr) (ho : m.obj ≠ 0)
    (hp : prot (addr / 2 ^ k) = some m.bits) :
    ∃ prot', curWritable k (fileOf ms) prot addr = some (prot', true) ∧
      (∀ x, addr ≤ x → x < addr + 8 → prot' (x / 2 ^ k) = some ⟨m.bits.r, true, false⟩) ∧ ∀ p, p ≠ addr / 2 ^ k → prot' p = prot p := by
  have hone : ∀ x, addr ≤ x → x < addr + 8 → x / 2 ^ k = addr / 2 ^ k := by
    intro x h1 h2
    have hp : (2 : Nat) ^ k = 8 * 2 ^ (k - 3) := by
      rw [show (8 : Nat) = 2 ^ 3 from rfl, ← Nat.pow_add, show 3 + (k - 3) = k by omega]
    rw [hp, ← Nat.div_div_eq_div_mul, ← Nat.div_div_eq_div_mul]
    congr 1
    omega
  have hs := setMemAccess_succeeds (prot := prot) ⟨m.bits.r, true, false⟩ hk (len := 8) (by omega) hfit
    (fun x h1 h2 => by rw [hone x h1 h2, hp]; rfl)
  obtain ⟨h1, h2⟩ := setMemAccess_exact hk (by omega) hfit (Prod.ext rfl hs)
  refine ⟨(setMemAccess k prot addr 8 ⟨m.bits.r, true, false⟩).1, ?_, h1, ?_⟩
  · unfold curWritable
    rw [bits_told_partial h hap hm hx ho]
    exact congrArg some (Prod.ext rfl hs)
  · intro p hq
    refine h2 p ?_
    intro x hx1 hx2 he
    exact hq (by rw [← he]; exact hone x hx1 hx2)

/-- C98, a departure: if the file does not begin with a line of the form expected, `GetPageBits` and `ModuleInMemory` go on with bounds
nobody has assigned: that `fscanf` has assigned nothing is not the same as its having found the end of the file. -/
theorem other_text_ub {W addr len : Nat} {c : Byte} {rest : List Byte} (h : c ≠ 48) :
    curBits W addr (c :: rest) = .ub ∧ curModule W addr len (c :: rest) = none := by
  constructor
  · unfold curBits
    rw [readBits, show scan W bitsFormat 0 {} (c :: rest) = ⟨{}, 0, .mismatch, c :: rest⟩ by simp [bitsFormat, scan, h]]
    rfl
  · unfold curModule
    rw [readModule, show scan W moduleFormat 0 {} (c :: rest) = ⟨{}, 0, .mismatch, c :: rest⟩ by simp [moduleFormat, scan, h]]
    rfl

/-- An empty line at the beginning is enough. -/
example : curBits 64 0x804010 (10 :: []) = .ub ∧ curModule 64 0x804010 8 (10 :: []) = none := other_text_ub (by decide)

/-- No counterpart in /repo: the file of the examples: the line of the comment in the code, a piece without an object behind it, and data. -/
def exMap : List Mapping :=
  [⟨0x800000, 0x804000, 1, 0, 0, ⟨false, false, false⟩, [32, 49, 32, 48]⟩,
   ⟨0x804000, 0x805000, 13, 15, 0xc6e18960, ⟨true, false, true⟩, [32, 50, 49]⟩,
   ⟨0x805000, 0x807000, 0, 0, 0, ⟨false, false, false⟩, [32, 49]⟩,
   ⟨0x900000, 0x901000, 120, 7, 0xc6e18a00, ⟨true, true, false⟩, [32, 49]⟩]

theorem exMap_written : Written 64 exMap := by
  unfold Written exMap
  simp only [List.mem_cons, List.not_mem_nil, or_false]
  rintro m (rfl | rfl | rfl | rfl) <;> exact ⟨by simp, by simp, by simp, by decide +kernel⟩

theorem exMap_apart : Apart exMap := by
  unfold Apart exMap
  simp only [List.pairwise_cons, List.mem_cons, List.not_mem_nil, or_false, Mapping.Has]
  refine ⟨?_, ?_, ?_, ?_, List.Pairwise.nil⟩
  · rintro m (rfl | rfl | rfl) x ⟨h1, h2⟩ <;> simp only at h1 h2 <;> omega
  · rintro m (rfl | rfl) x ⟨h1, h2⟩ <;> simp only at h1 h2 <;> omega
  · rintro m rfl x ⟨h1, h2⟩
    simp only at h1 h2
    omega
  · intro m h; exact h.elim

/-- The line of the comment: code. -/
theorem exMap_code : (⟨0x804000, 0x805000, 13, 15, 0xc6e18960, ⟨true, false, true⟩, [32, 50, 49]⟩ : Mapping) ∈ exMap := by
  unfold exMap; simp

/-- Of the code it is told that it may be read. -/
example : curBits 64 0x804010 (fileOf exMap) = .bits ⟨true, false, false⟩ :=
  bits_told_partial exMap_written exMap_apart exMap_code (by simp [Mapping.Has]) (by simp)

/-- Between the pieces nothing is found. -/
example : curBits 64 0x808000 (fileOf exMap) = .nothing :=
  bits_unmapped exMap_written (by
    unfold exMap
    simp only [List.mem_cons, List.not_mem_nil, or_false, Mapping.Has]
    rintro m (rfl | rfl | rfl | rfl) <;> simp)

/-- The code may be executed, which is not told. -/
example : curBits 64 0x804010 (fileOf exMap) ≠ .bits ⟨true, false, true⟩ := fun e =>
  absurd ((bits_exact_iff exMap_written exMap_apart exMap_code (by simp [Mapping.Has]) (by simp)).1 e).2 (by simp)

/-- Of the piece behind the code it is told that it may be read, which is not so; of the first piece nobody knows what is told. -/
example : curBits 64 0x805010 (fileOf exMap) = .bits ⟨true, false, false⟩ ∧ curBits 64 0x800010 (fileOf exMap) = .ub := by
  constructor
  · exact bits_stale (before := exMap.take 2) (m := ⟨0x805000, 0x807000, 0, 0, 0, ⟨false, false, false⟩, [32, 49]⟩) (after := exMap.drop 3)
      exMap_written (by
        unfold exMap
        simp only [List.take_succ_cons, List.take_zero, List.mem_cons, List.not_mem_nil, or_false, Mapping.Has]
        rintro m (rfl | rfl) <;> simp) (by simp [Mapping.Has]) rfl
  · exact bits_stale (before := []) (m := ⟨0x800000, 0x804000, 1, 0, 0, ⟨false, false, false⟩, [32, 49, 32, 48]⟩) (after := exMap.drop 1)
      exMap_written (by simp) (by simp [Mapping.Has]) rfl

/-- Part of the data is in memory. -/
example : ∃ b, curModule 64 0x900010 8 (fileOf exMap) = some b ∧ (b = true ↔ ∃ m ∈ exMap, m.lo ≤ 0x900010 ∧ 0x900010 + 8 ≤ m.hi) :=
  module_told exMap_written (by simp)

/-- A slot among the code: the code on its page may not be executed afterwards. -/
example : ∃ prot', curWritable 12 (fileOf exMap) (fun _ => some ⟨true, false, true⟩) 0x804010 = some (prot', true) ∧
    prot' 0x804 = some ⟨true, true, false⟩ := by
  obtain ⟨p, h1, h2, _⟩ := slot_page_partial (k := 12) (addr := 0x804010) (prot := fun _ => some ⟨true, false, true⟩) (by omega) (by omega) (by simp)
    (by simp) exMap_written exMap_apart exMap_code (by simp [Mapping.Has]) (by simp) rfl
  exact ⟨p, h1, h2 0x804010 (by omega) (by omega)⟩

end Verif.CurMap

#print axioms Verif.CurMap.bits_told_partial
#print axioms Verif.CurMap.bits_unmapped
#print axioms Verif.CurMap.bits_exact_iff
#print axioms Verif.CurMap.bits_stale
#print axioms Verif.CurMap.module_told
#print axioms Verif.CurMap.slot_page_partial
#print axioms Verif.CurMap.other_text_ub
