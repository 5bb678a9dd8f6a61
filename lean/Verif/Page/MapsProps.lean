import Verif.Page.MapsLemmas
import Verif.Page.MemProps
/-
C80: what `GetPageBits` and `ModuleInMemory` read from /proc/self/maps is what the kernel wrote.
-/
namespace Verif.Maps
open Verif.C Verif.Page

/-- No counterpart in /repo: the file of the examples: a piece of code, data behind it, and a reserved piece far above. -/
def exMaps : List Mapping :=
  [⟨0x08048000, 0x0804c000, ⟨true, false, true⟩, bytes1 "p 00000000 03:03 1010107    /bin/cat"⟩,
   ⟨0x0804c000, 0x0804d000, ⟨true, true, false⟩, bytes1 "p 00003000 03:03 1010107    /bin/cat"⟩,
   ⟨0x7ffff7ff0000, 0x7ffff7ff1000, ⟨false, false, false⟩, bytes1 "p 00000000 00:00 0 "⟩]
where
  /-- No counterpart in /repo: the bytes of a text. -/
  bytes1 (s : String) : List Byte := s.toList.map fun c => c.toNat.toUInt8

theorem exMaps_written : Written 64 exMaps := by
  unfold Written exMaps
  simp only [List.mem_cons, List.not_mem_nil, or_false]
  rintro m (rfl | rfl | rfl) <;> exact ⟨by simp, by simp, by decide +kernel⟩

theorem exMaps_apart : Apart exMaps := by
  unfold Apart exMaps
  simp only [List.pairwise_cons, List.mem_cons, List.not_mem_nil, or_false, Mapping.Has]
  refine ⟨?_, ?_, ?_, List.Pairwise.nil⟩
  · rintro m (rfl | rfl) x ⟨h1, h2⟩ <;> simp only at h1 h2 <;> omega
  · rintro m rfl x ⟨h1, h2⟩
    simp only at h1 h2
    omega
  · intro m h; exact h.elim

/-- C80: the reading of the text is the search through the entries it stands for, for every content of the line buffer. -/
theorem text_refines {W addr : Nat} {ms : List Mapping} (h : Written W ms) :
    pageBitsText W addr (fileOf ms) = .ok (pageBits addr (ms.map Mapping.entry)) := by
  unfold pageBitsText
  rw [linesOf_file h]
  generalize ([] : Buf) = old
  induction ms generalizing old with
  | nil => rfl
  | cons m ms ih =>
    have hm := h m (by simp)
    have := ih (fun x hx => h x (List.mem_cons_of_mem _ hx)) (fill old m.line)
    simp only [List.map_cons, readBits, pageBits]
    rw [bounds_read hm.1 hm.2.1]
    simp only [bind, Except.bind]
    by_cases hc : m.lo ≤ addr ∧ addr < m.hi
    · rw [if_pos hc, if_pos (by exact hc), flags_read]
      rcases m with ⟨lo, hi, ⟨r, w, x⟩, rest⟩
      cases r <;> cases w <;> cases x <;> rfl
    · rw [if_neg hc, if_neg (by exact hc)]
      exact this

example : Written 64 exMaps := exMaps_written

/-- C80: of an address in a mapping `GetPageBits` tells what is allowed there. -/
theorem bits_told {W addr : Nat} {ms : List Mapping} (h : Written W ms) (ha : Apart ms) {m : Mapping} (hm : m ∈ ms) (hx : m.Has addr) :
    pageBitsText W addr (fileOf ms) = .ok (some m.bits) := by
  rw [text_refines h]
  congr 1
  clear h
  induction ms with
  | nil => cases hm
  | cons n ms ih =>
    rw [List.map_cons, pageBits]
    rcases List.mem_cons.1 hm with e | e
    · subst e
      rw [if_pos (by exact hx)]
      rcases m with ⟨lo, hi, ⟨r, w, x⟩, rest⟩
      cases r <;> cases w <;> cases x <;> rfl
    · have hn : ¬ n.Has addr := fun hn => (List.pairwise_cons.1 ha).1 m e addr ⟨hn, hx⟩
      rw [if_neg (by exact hn)]
      exact ih (List.pairwise_cons.1 ha).2 e

/-- The data of the example, whose mapping begins where the code ends. -/
example : ∃ m ∈ exMaps, m.Has 0x0804c000 ∧ pageBitsText 64 0x0804c000 (fileOf exMaps) = .ok (some ⟨true, true, false⟩) := by
  have h : (⟨0x0804c000, 0x0804d000, ⟨true, true, false⟩, exMaps.bytes1 "p 00003000 03:03 1010107    /bin/cat"⟩ : Mapping) ∈ exMaps := by
    unfold exMaps; simp
  exact ⟨_, h, by simp [Mapping.Has], bits_told exMaps_written exMaps_apart h (by simp [Mapping.Has])⟩

/-- C80: of an address in no mapping it tells that it found nothing. -/
theorem bits_unmapped {W addr : Nat} {ms : List Mapping} (h : Written W ms) (hx : ∀ m ∈ ms, ¬ m.Has addr) :
    pageBitsText W addr (fileOf ms) = .ok none := by
  rw [text_refines h]
  congr 1
  clear h
  induction ms with
  | nil => rfl
  | cons n ms ih =>
    rw [List.map_cons, pageBits, if_neg (by exact hx n (by simp))]
    exact ih (fun m hm => hx m (List.mem_cons_of_mem _ hm))

example : ∀ m ∈ exMaps, ¬ m.Has 0x0804d000 := by
  unfold exMaps
  simp only [List.mem_cons, List.not_mem_nil, or_false, Mapping.Has]
  rintro m (rfl | rfl | rfl) <;> simp

/-- C80: `ModuleInMemory` tells whether the whole range is in one mapping, if the range does not reach around the end of memory. -/
theorem module_told {W addr len : Nat} {ms : List Mapping} (h : Written W ms) (hf : addr + len < 2 ^ W) :
    ∃ b, moduleText W addr len (fileOf ms) = .ok b ∧ (b = true ↔ ∃ m ∈ ms, m.lo ≤ addr ∧ addr + len ≤ m.hi) := by
  unfold moduleText
  rw [linesOf_file h, Nat.mod_eq_of_lt hf]
  generalize ([] : Buf) = old
  induction ms generalizing old with
  | nil => exact ⟨false, rfl, by simp⟩
  | cons m ms ih =>
    have hm := h m (by simp)
    obtain ⟨b, h1, h2⟩ := ih (fun x hx => h x (List.mem_cons_of_mem _ hx)) (fill old m.line)
    simp only [List.map_cons, readModule]
    rw [bounds_read hm.1 hm.2.1]
    simp only [bind, Except.bind]
    by_cases hc : m.lo ≤ addr ∧ addr + len ≤ m.hi
    · rw [if_pos hc]
      exact ⟨true, rfl, by simp [hc]⟩
    · rw [if_neg hc]
      refine ⟨b, h1, h2.trans ?_⟩
      simp [hc]

example : Written 64 exMaps ∧ 0x0804c010 + 8 < 2 ^ 64 ∧ ∃ m ∈ exMaps, m.lo ≤ 0x0804c010 ∧ 0x0804c010 + 8 ≤ m.hi :=
  ⟨exMaps_written, by simp, ⟨0x0804c000, 0x0804d000, ⟨true, true, false⟩, _⟩, by unfold exMaps; simp; rfl, by simp, by simp⟩

/-- C80: with the file the kernel wrote, `MakePageWritable` does what it does with the entries (C50). -/
theorem writable_refines {k addr : Nat} {ms : List Mapping} {curproc : Option (List Line)} {prot : Nat → Option Bits} (h : Written 64 ms) :
    makeWritableText k (fileOf ms) prot addr = .ok (makePageWritable k (some (ms.map Mapping.entry)) curproc prot addr) := by
  unfold makeWritableText makePageWritable getPageBits
  rw [text_refines h]
  simp only [bind, Except.bind]
  cases pageBits addr (ms.map Mapping.entry) with
  | none => rfl
  | some b =>
    simp only
    split <;> rfl

example : Written 64 exMaps := exMaps_written

/-- C80: so the slot of a virtual function is writable after a successful `MakePageWritable`, what was allowed stays allowed, and no other
page has changed, if the mapping of the slot tells what its page allows. -/
theorem slot_writable {k addr : Nat} {ms : List Mapping} {prot prot' : Nat → Option Bits} (hk : k ≤ 63) (hk3 : 3 ≤ k) (ha : addr % 8 = 0)
    (hfit : addr + 8 < 2 ^ 64) (h : Written 64 ms) (hap : Apart ms) {m : Mapping} (hm : m ∈ ms) (hx : m.Has addr)
    (hp : prot (addr / 2 ^ k) = some m.bits) (hr : makeWritableText k (fileOf ms) prot addr = .ok (prot', true)) :
    (∀ x, addr ≤ x → x < addr + 8 → prot' (x / 2 ^ k) = some { m.bits with w := true }) ∧ ∀ p, p ≠ addr / 2 ^ k → prot' p = prot p := by
  have e := text_refines (addr := addr) h
  rw [bits_told h hap hm hx] at e
  have e' := (Except.ok.inj e).symm
  rw [writable_refines (curproc := none) h] at hr
  exact makePageWritable_slot hk hk3 ha hfit (lines := ms.map Mapping.entry) (e'.trans hp.symm) hp (Except.ok.inj hr)

/-- A slot in the code of the example: its page becomes writable. -/
example : ∃ prot', makeWritableText 12 (fileOf exMaps) (fun p => if p = 0x08048 then some ⟨true, false, true⟩ else none) 0x08048010 = .ok (prot', true) := by
  have h : (⟨0x08048000, 0x0804c000, ⟨true, false, true⟩, exMaps.bytes1 "p 00000000 03:03 1010107    /bin/cat"⟩ : Mapping) ∈ exMaps := by
    unfold exMaps; simp
  refine ⟨(setMemAccess 12 (fun p => if p = 0x08048 then some ⟨true, false, true⟩ else none) 0x08048010 8 ⟨true, true, true⟩).1, ?_⟩
  unfold makeWritableText
  rw [bits_told exMaps_written exMaps_apart h (by simp [Mapping.Has])]
  have e : (setMemAccess 12 (fun p => if p = 0x08048 then some ⟨true, false, true⟩ else none) 0x08048010 8 ⟨true, true, true⟩).2 = true := by decide +kernel
  exact congrArg Except.ok (Prod.ext rfl e)

/-- Two mappings side by side, both readable, are not taken as one: of a range over both the answer is that it is gone. -/
theorem module_two_mappings : moduleText 64 0x0804bffc 8 (fileOf exMaps) = .ok false := by
  obtain ⟨b, h1, h2⟩ := module_told (addr := 0x0804bffc) (len := 8) exMaps_written (by simp)
  rw [h1]
  cases b with
  | false => rfl
  | true =>
    obtain ⟨m, hm, ha, hb⟩ := h2.1 rfl
    unfold exMaps at hm
    simp only [List.mem_cons, List.not_mem_nil, or_false] at hm
    rcases hm with rfl | rfl | rfl <;> simp at ha hb

/-- A mapping nobody may read counts as memory: `ModuleInMemory` does not look at the flags. -/
theorem module_unreadable : moduleText 64 0x7ffff7ff0010 8 (fileOf exMaps) = .ok true ∧
    pageBitsText 64 0x7ffff7ff0010 (fileOf exMaps) = .ok (some ⟨false, false, false⟩) := by
  have hm : (⟨0x7ffff7ff0000, 0x7ffff7ff1000, ⟨false, false, false⟩, exMaps.bytes1 "p 00000000 00:00 0 "⟩ : Mapping) ∈ exMaps := by
    unfold exMaps; simp
  constructor
  · obtain ⟨b, h1, h2⟩ := module_told (addr := 0x7ffff7ff0010) (len := 8) exMaps_written (by simp)
    rw [h1, h2.2 ⟨_, hm, by simp, by simp⟩]
  · exact bits_told exMaps_written exMaps_apart hm (by simp [Mapping.Has])

/-- A range around the end of memory is reported as present as soon as the first mapping of the file begins below its start and ends above its end, which it need not touch. -/
theorem module_around {W addr len : Nat} {m : Mapping} {ms : List Mapping} (h : Written W (m :: ms)) (hw : 2 ^ W ≤ addr + len)
    (hm : m.lo ≤ addr) (hh : addr + len - 2 ^ W ≤ m.hi) :
    moduleText W addr len (fileOf (m :: ms)) = .ok true := by
  have h0 := h m (by simp)
  unfold moduleText
  have hu : (addr + len) % 2 ^ W = addr + len - 2 ^ W := by
    rw [Nat.mod_eq_sub_mod hw, Nat.mod_eq_of_lt (by omega)]
  rw [linesOf_file h, hu, List.map_cons, readModule, bounds_read h0.1 h0.2.1]
  simp only [bind, Except.bind]
  rw [if_pos ⟨hm, hh⟩]

example : Written 64 exMaps ∧ 2 ^ 64 ≤ (2 ^ 64 - 4) + 8 ∧ (2 ^ 64 - 4) + 8 - 2 ^ 64 ≤ 0x0804c000 :=
  ⟨exMaps_written, by simp, by simp⟩

/-- The parser takes every line for one of the kernel's: behind a last line that is only a number it reads past the end of the text. -/
theorem cut_line_reads_past : pageBitsText 64 4096 [49, 50] = .error .outOfBounds := by
  have e : linesOf [49, 50] = [[49, 50]] := by decide
  unfold pageBitsText
  rw [e]
  simp [readBits, fill, bounds, strtoul16, skipSpace, sign, hexPrefix, digitsFrom, rd, hexDigit, isspace, bind, Except.bind]

end Verif.Maps

#print axioms Verif.Maps.text_refines
#print axioms Verif.Maps.bits_told
#print axioms Verif.Maps.bits_unmapped
#print axioms Verif.Maps.module_told
#print axioms Verif.Maps.writable_refines
#print axioms Verif.Maps.slot_writable
