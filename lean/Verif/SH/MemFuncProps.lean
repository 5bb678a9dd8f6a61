/-
C67: what `GetFuncInfo` finds out about a pointer to a member function.  The specification is the rule of
the compiler: with GCC (Itanium C++ ABI) a pointer to the virtual function number `n` is the pair of
`8 n + 1` and the adjustment of the object pointer, and a call through it reads the entry at that byte of
the table found at the adjusted object; with MSVC it is the address of a short piece of code that jumps
through the table, possibly behind a relative jump.
-/
import Verif.SH.MemFunc

namespace Verif.SH.Mfp

/-- Specification: the pointer to virtual function `n` of a base class at offset `d` (Itanium C++ ABI, 2.3). -/
def abiVirtual (n : Nat) (d : Int) : Gcc := ⟨BitVec.ofNat 64 (8 * n + 1), BitVec.ofInt 64 d⟩

/-- Specification: the table entry that a call through the pointer reads, for a pointer to a virtual function:
the object pointer is adjusted, the table read there, the byte offset added. -/
def abiEntry (mem : BitVec 64 → BitVec 64) (obj : BitVec 64) (m : Gcc) : BitVec 64 :=
  mem (obj + m.delta) + (m.word - 1#64)

theorem toInt_ofInt {d : Int} (h1 : -2 ^ 31 ≤ d) (h2 : d < 2 ^ 31) : toInt (BitVec.ofInt 64 d) = d := by
  simp only [toInt]
  rw [BitVec.toInt_setWidth, BitVec.toNat_ofInt]
  simp only [Int.bmod]
  omega

theorem gccInfo_odd {m : Gcc} {out : Info} (h : m.word &&& 1#64 ≠ 0#64) :
    gccInfo m out = { isVirtual := true, thisptroffs := toInt m.delta, vtblindex := toInt ((m.word - 1#64) / 8#64), vtbloffs := 0 } := by
  unfold gccInfo
  rw [if_pos h]

theorem word_odd (n : Nat) : BitVec.ofNat 64 (8 * n + 1) &&& 1#64 ≠ 0#64 := by
  intro e
  have := congrArg BitVec.toNat e
  simp only [BitVec.toNat_and, BitVec.toNat_ofNat] at this
  rw [show 1 % 2 ^ 64 = 2 ^ 1 - 1 from rfl, Nat.and_two_pow_sub_one_eq_mod] at this
  omega

theorem word_pred (n : Nat) : BitVec.ofNat 64 (8 * n + 1) - 1#64 = BitVec.ofNat 64 (8 * n) := by
  apply BitVec.eq_of_toNat_eq
  simp [BitVec.toNat_sub]
  omega

theorem word_index (n : Nat) (h : n < 2 ^ 31) : toInt ((BitVec.ofNat 64 (8 * n + 1) - 1#64) / 8#64) = n := by
  have : (BitVec.ofNat 64 (8 * n)) / 8#64 = BitVec.ofNat 64 n := by
    apply BitVec.eq_of_toNat_eq
    rw [BitVec.toNat_udiv]
    simp
    omega
  rw [word_pred n, this]
  simp only [toInt]
  rw [BitVec.toInt_setWidth]
  simp only [Int.bmod, BitVec.toNat_ofNat]
  omega

/-- C67: for a pointer to virtual function `n` of a base class at offset `d`, both within `int`, `GetFuncInfo`
finds exactly `n` and `d`, and says that the function is virtual, whatever was in the result before. -/
theorem gcc_virtual {n : Nat} {d : Int} (hn : n < 2 ^ 31) (h1 : -2 ^ 31 ≤ d) (h2 : d < 2 ^ 31) (out : Info) :
    gccInfo (abiVirtual n d) out = { isVirtual := true, thisptroffs := d, vtblindex := n, vtbloffs := 0 } := by
  rw [gccInfo_odd (word_odd n), abiVirtual]
  simp only [toInt_ofInt h1 h2, word_index n hn]

example : gccInfo (abiVirtual 37 (-16)) ⟨false, 5, 6, 7⟩ = ⟨true, -16, 37, 0⟩ := gcc_virtual (by decide) (by decide) (by decide) _
example : (abiVirtual 37 (-16)).word = 297 := by decide

/-- C67: two virtual functions, or two base class offsets, are never confused. -/
theorem gcc_injective {n n' : Nat} {d d' : Int} (hn : n < 2 ^ 31) (hn' : n' < 2 ^ 31) (h1 : -2 ^ 31 ≤ d) (h2 : d < 2 ^ 31)
    (h1' : -2 ^ 31 ≤ d') (h2' : d' < 2 ^ 31) (out out' : Info)
    (e : gccInfo (abiVirtual n d) out = gccInfo (abiVirtual n' d') out') : n = n' ∧ d = d' := by
  rw [gcc_virtual hn h1 h2, gcc_virtual hn' h1' h2'] at e
  injection e with _ e1 e2 _
  exact ⟨by exact_mod_cast e2, e1⟩

/-- C67: a function address, which is even, is recognised as not virtual; index and table offset of the result
keep what they held. -/
theorem gcc_plain {w : BitVec 64} (hw : w.toNat % 2 = 0) (d : BitVec 64) (out : Info) :
    (gccInfo ⟨w, d⟩ out).isVirtual = false ∧ (gccInfo ⟨w, d⟩ out).vtblindex = out.vtblindex ∧
      (gccInfo ⟨w, d⟩ out).vtbloffs = out.vtbloffs := by
  have : ¬ (w &&& 1#64 ≠ 0#64) := by
    intro h; apply h
    apply BitVec.eq_of_toNat_eq
    rw [BitVec.toNat_and, show (1#64).toNat = 2 ^ 1 - 1 from rfl, Nat.and_two_pow_sub_one_eq_mod]
    simpa using hw
  simp only [gccInfo]
  rw [if_neg this]
  exact ⟨rfl, rfl, rfl⟩

example : (gccInfo ⟨0x401000, 0⟩ ⟨true, 1, 2, 3⟩).isVirtual = false := (gcc_plain (by decide) _ _).1

/-- C67: the entry that `AddHook` patches for an object is the entry that a call through the pointer to the
member function reads on that object, for every memory, object, function and base class offset. -/
theorem gcc_entry {n : Nat} {d : Int} (hn : n < 2 ^ 31) (h1 : -2 ^ 31 ≤ d) (h2 : d < 2 ^ 31) (out : Info)
    (mem : BitVec 64 → BitVec 64) (obj : BitVec 64) :
    let i := gccInfo (abiVirtual n d) out
    entryAddr mem obj i.thisptroffs i.vtbloffs i.vtblindex = abiEntry mem obj (abiVirtual n d) := by
  rw [gcc_virtual hn h1 h2]
  simp only [entryAddr, abiEntry, abiVirtual, word_pred n]
  have : BitVec.ofInt 64 (8 * (n : Int)) = BitVec.ofNat 64 (8 * n) := by
    rw [show (8 * (n : Int)) = ((8 * n : Nat) : Int) by push_cast; rfl, BitVec.ofInt_natCast]
  rw [this]
  simp

example (mem : BitVec 64 → BitVec 64) : entryAddr mem 0x1000 8 0 3 = mem 0x1008 + 24 := by
  simp [entryAddr]

/-! ### MSVC -/

/-- Specification: the bytes `bs` are at `a`. -/
def Holds (m : Mem) : Nat → List UInt8 → Prop
  | _, [] => True
  | a, b :: bs => m a = some b ∧ Holds m (a + 1) bs

/-- Specification: four bytes, lowest first. -/
def le4 (d : Nat) : List UInt8 :=
  [UInt8.ofNat d, UInt8.ofNat (d / 256), UInt8.ofNat (d / 65536), UInt8.ofNat (d / 16777216)]

/-- Specification: the code behind a pointer to virtual function `n` on 64-bit Windows: `mov rax, [rcx]`, then
`jmp [rax + 8 n]` in the shortest encoding. -/
def thunkCode (n : Nat) : List UInt8 :=
  [0x48, 0x8B, 0x01, 0xFF] ++
    (if n = 0 then [0x20] else if 8 * n < 128 then [0x60, UInt8.ofNat (8 * n)] else 0xA0 :: le4 (8 * n))

instance instDecidableHolds (m : Mem) : (bs : List UInt8) → (a : Nat) → Decidable (Holds m a bs)
  | [], _ => .isTrue trivial
  | b :: bs, a =>
    have : Decidable (Holds m (a + 1) bs) := instDecidableHolds m bs (a + 1)
    inferInstanceAs (Decidable (m a = some b ∧ Holds m (a + 1) bs))

theorem rdLE_le4 {m : Mem} {a d : Nat} (h : Holds m a (le4 d)) (hd : d < 2 ^ 32) : rdLE m a 4 = some d := by
  simp only [le4, Holds] at h
  obtain ⟨h0, h1, h2, h3, -⟩ := h
  simp only [rdLE, h0, h1, h2, h3, Option.bind_eq_bind, Option.bind_some, Option.some.injEq, UInt8.toNat_ofNat']
  omega

theorem startsWith_ne {m : Mem} {a : Nat} {b c : UInt8} {cs : List UInt8} (h : m a = some b) (hne : b ≠ c) :
    startsWith m a (c :: cs) = some false := by
  simp [startsWith, h, hne]

theorem startsWith_holds {m : Mem} {bs : List UInt8} : ∀ {a : Nat}, Holds m a bs → startsWith m a bs = some true := by
  induction bs with
  | nil => intro a _; rfl
  | cons b bs ih => intro a h; simp [startsWith, h.1, ih h.2]

theorem Holds.append {m : Mem} {l1 l2 : List UInt8} : ∀ {a : Nat}, Holds m a (l1 ++ l2) → Holds m a l1 ∧ Holds m (a + l1.length) l2 := by
  induction l1 with
  | nil => intro a h; exact ⟨trivial, by simpa using h⟩
  | cons b l1 ih =>
    intro a h
    obtain ⟨h1, h2⟩ := ih (a := a + 1) h.2
    refine ⟨⟨h.1, h1⟩, ?_⟩
    rw [show a + (b :: l1).length = a + 1 + l1.length by simp; omega]
    exact h2

theorem skipLoad_thunk {m : Mem} {a : Nat} (h : Holds m a [0x48, 0x8B, 0x01]) : skipLoad m a = some (some (a + 3)) := by
  simp only [skipLoad, startsWith_holds h, startsWith_ne (cs := [0x44, 0x24, 0x04, 0x8B, 0x00]) h.1 (by decide : (0x48 : UInt8) ≠ 0x8B),
    startsWith_ne (cs := [0x01]) h.1 (by decide : (0x48 : UInt8) ≠ 0x8B)]
  rfl

theorem readJump_thunk {m : Mem} {a n : Nat} (hn : n < 2 ^ 29)
    (h : Holds m a (0xFF :: (if n = 0 then [0x20] else if 8 * n < 128 then [0x60, UInt8.ofNat (8 * n)] else 0xA0 :: le4 (8 * n)))) :
    readJump m a = some (n : Int) := by
  obtain ⟨h0, h⟩ := h
  by_cases h1 : n = 0
  · rw [if_pos h1] at h
    simp [readJump, h0, h.1, h1]
  · rw [if_neg h1] at h
    by_cases h2 : 8 * n < 128
    · rw [if_pos h2] at h
      simp [readJump, h0, h.1, h.2.1]
      omega
    · rw [if_neg h2] at h
      have := rdLE_le4 h.2 (by omega)
      simp [readJump, h0, h.1, this]

/-- C67 (MSVC, 64 bits): from the code behind a pointer to virtual function `n` the number `n` is found. -/
theorem msvc_virtual {m : Mem} {a n : Nat} (hn : n < 2 ^ 29) (h : Holds m a (thunkCode n)) : vtblOffset m a = some (n : Int) := by
  have hj : followJmp m a = some a := by
    have : m a = some 0x48 := h.1
    simp [followJmp, this]
  have h' : Holds m a ([0x48, 0x8B, 0x01] ++ (0xFF :: (if n = 0 then [0x20] else if 8 * n < 128 then [0x60, UInt8.ofNat (8 * n)] else 0xA0 :: le4 (8 * n)))) := h
  obtain ⟨hl, hr⟩ := h'.append
  simp only [vtblOffset, hj, Option.bind_eq_bind, Option.bind_some, skipLoad_thunk hl]
  exact readJump_thunk hn hr

/-- Specification: the ways to load the function table that the comments in core/sourcehook/sh_memfuncinfo.h:99-113 name (`mov eax, [esp+4]`
and `mov eax, [eax]` for variable arguments, `mov eax, [ecx]`), and the one of 64-bit code, `mov rax, [rcx]`. -/
def tableLoads : List (List UInt8) := [[0x8B, 0x44, 0x24, 0x04, 0x8B, 0x00], [0x8B, 0x01], [0x48, 0x8B, 0x01]]

theorem skipLoad_loads {m : Mem} {a : Nat} {l : List UInt8} (hl : l ∈ tableLoads) (h : Holds m a l) :
    skipLoad m a = some (some (a + l.length)) := by
  simp only [tableLoads, List.mem_cons, List.not_mem_nil, or_false] at hl
  rcases hl with rfl | rfl | rfl
  · simp only [skipLoad, startsWith_holds h]; rfl
  · have h1 : startsWith m a [0x8B, 0x44, 0x24, 0x04, 0x8B, 0x00] = some false := by
      obtain ⟨h1, h2, -⟩ := h
      simp [startsWith, h1, h2]
    simp only [skipLoad, startsWith_holds h, h1]; rfl
  · exact skipLoad_thunk h

/-- C67 (MSVC): whichever way the table is loaded, and whether or not a base class is at an offset, the jump that follows says which entry is
meant: a virtual function of that number. -/
theorem msvc_loads {m : Mem} {a n : Nat} {l : List UInt8} (hl : l ∈ tableLoads) (hn : n < 2 ^ 29)
    (h : Holds m a (l ++ (thunkCode n).drop 3)) (d : Int) :
    vtblOffset m a = some (n : Int) ∧ msvc1 m a = some ⟨true, 0, n, 0⟩ ∧ msvc2 m a d = some ⟨true, d, n, 0⟩ ∧
      msvc3 m a = some ⟨true, -1, n, 0⟩ := by
  obtain ⟨h1, h2⟩ := h.append
  have hj : followJmp m a = some a := by
    have hb : ∃ b, m a = some b ∧ b ≠ 0xE9 := by
      simp only [tableLoads, List.mem_cons, List.not_mem_nil, or_false] at hl
      rcases hl with rfl | rfl | rfl <;> exact ⟨_, h1.1, by decide⟩
    obtain ⟨b, hb, hne⟩ := hb
    simp [followJmp, hb, hne]
  have hv : vtblOffset m a = some (n : Int) := by
    simp only [vtblOffset, hj, Option.bind_eq_bind, Option.bind_some, skipLoad_loads hl h1]
    exact readJump_thunk hn h2
  refine ⟨hv, ?_, ?_, ?_⟩
  · simp [msvc1, hv]
  · simp [msvc2, hv]
  · simp [msvc3, hv]

/-- C67 (MSVC, 64 bits): the same behind a relative jump forwards. -/
theorem msvc_jump_partial {m : Mem} {a n d : Nat} (hn : n < 2 ^ 29) (hd : d + 5 < 2 ^ 31) (hj : Holds m a (0xE9 :: le4 d))
    (h : Holds m (a + 5 + d) (thunkCode n)) : vtblOffset m a = some (n : Int) := by
  have hf : followJmp m a = some (a + 5 + d) := by
    simp only [followJmp, hj.1, Option.bind_eq_bind, Option.bind_some, rdLE_le4 hj.2 (by omega), if_true, Option.some.injEq]
    omega
  have h' : Holds m (a + 5 + d) ([0x48, 0x8B, 0x01] ++ (0xFF :: (if n = 0 then [0x20] else if 8 * n < 128 then [0x60, UInt8.ofNat (8 * n)] else 0xA0 :: le4 (8 * n)))) := h
  obtain ⟨hl, hr⟩ := h'.append
  simp only [vtblOffset, hf, Option.bind_eq_bind, Option.bind_some, skipLoad_thunk hl]
  exact readJump_thunk hn hr

/-- A relative jump backwards by `k` bytes (from behind the instruction) is followed to an address 4 GiB too high,
since the displacement is added without sign. -/
theorem msvc_jump_back {m : Mem} {a k : Nat} (hk : 5 < k) (hk' : k < 2 ^ 31) (hj : Holds m a (0xE9 :: le4 (2 ^ 32 - k))) :
    followJmp m a = some (a + 5 + 2 ^ 32 - k) := by
  simp only [followJmp, hj.1, Option.bind_eq_bind, Option.bind_some, rdLE_le4 hj.2 (by omega), if_true, Option.some.injEq]
  omega

/-- No counterpart in /repo: memory that holds one piece of bytes at each of two places. -/
def twoPlaces (a : Nat) (p : List UInt8) (b : Nat) (q : List UInt8) : Mem := fun x =>
  if a ≤ x ∧ x < a + p.length then p[x - a]? else if b ≤ x ∧ x < b + q.length then q[x - b]? else none

/-- Finding, core/sourcehook/sh_memfuncinfo.h:95: a pointer to a virtual function whose jump goes backwards makes
`GetFuncInfo` read memory 4 GiB above the code, which need not be mapped.  Here virtual function 3 at address 4096 is
reached by a jump at address 8192. -/
theorem msvc_jump_back_unmapped :
    ∃ m : Mem, Holds m 8192 (0xE9 :: le4 (2 ^ 32 - 4101)) ∧ Holds m (8192 + 5 - 4101) (thunkCode 3) ∧ vtblOffset m 8192 = none := by
  refine ⟨twoPlaces 4096 (thunkCode 3) 8192 (0xE9 :: le4 (2 ^ 32 - 4101)), ?_, ?_, ?_⟩
  · decide
  · decide
  · decide

/-- C67 (MSVC): code that starts with none of the three ways to load the table is not taken for a virtual function. -/
theorem msvc_plain {m : Mem} {a : Nat} {b : UInt8} (h : m a = some b) (h1 : b ≠ 0xE9) (h2 : b ≠ 0x8B) (h3 : b ≠ 0x48) :
    msvc1 m a = some { isVirtual := false, thisptroffs := 0, vtblindex := -1, vtbloffs := 0 } := by
  have hj : followJmp m a = some a := by simp [followJmp, h, h1]
  have hs : skipLoad m a = some none := by
    simp only [skipLoad, startsWith_ne (cs := [0x44, 0x24, 0x04, 0x8B, 0x00]) h h2, startsWith_ne (cs := [0x01]) h h2,
      startsWith_ne (cs := [0x8B, 0x01]) h h3]
    rfl
  simp [msvc1, vtblOffset, hj, hs]

example : msvc1 (twoPlaces 4096 [0x55, 0x48] 0 []) 4096 = some ⟨false, 0, -1, 0⟩ :=
  msvc_plain (b := 0x55) (by decide) (by decide) (by decide) (by decide)

/-- Finding, core/sourcehook/sh_memfuncinfo.h:280-281: for a class of unknown inheritance without virtual bases the
offset of the base class is reported both as this pointer offset and as table offset, so `AddHook` reads the table at
twice the offset. -/
theorem msvc4_counts_twice {m : Mem} {a n : Nat} (hn : n < 2 ^ 29) (h : Holds m a (thunkCode n)) (d : Int) (vtordisp : Int)
    (mem : BitVec 64 → BitVec 64) (obj : BitVec 64) :
    ∃ i, msvc4 m a d vtordisp 0 = some i ∧
      entryAddr mem obj i.thisptroffs i.vtbloffs i.vtblindex =
        mem (obj + BitVec.ofInt 64 d + BitVec.ofInt 64 d) + BitVec.ofInt 64 (8 * (n : Int)) := by
  refine ⟨⟨true, d, n, d⟩, by simp [msvc4, msvc_virtual hn h]; omega, ?_⟩
  simp [entryAddr]

example : Holds (twoPlaces 4096 (thunkCode 40) 0 []) 4096 (thunkCode 40) := by
  decide
example : msvc2 (twoPlaces 4096 [0x8B, 0x44, 0x24, 0x04, 0x8B, 0x00, 0xFF, 0x60, 0x10] 0 []) 4096 12 = some ⟨true, 12, 2, 0⟩ :=
  (msvc_loads (n := 2) (l := [0x8B, 0x44, 0x24, 0x04, 0x8B, 0x00]) (by decide) (by decide) (by decide) 12).2.2.1
example : msvc1 (twoPlaces 4096 [0x8B, 0x01, 0xFF, 0x20] 0 []) 4096 = some ⟨true, 0, 0, 0⟩ :=
  (msvc_loads (n := 0) (l := [0x8B, 0x01]) (by decide) (by decide) (by decide) 12).2.1
example : vtblOffset (twoPlaces 4096 (thunkCode 40) 0 []) 4096 = some 40 := by decide
example : vtblOffset (twoPlaces 8192 (thunkCode 40) 4096 (0xE9 :: le4 4091)) 4096 = some 40 :=
  msvc_jump_partial (d := 4091) (by decide) (by decide) (by decide) (by decide)

/-- C67 (MSVC): with single or multiple inheritance the entry `AddHook` patches is entry `n` of the table at the base class. -/
theorem msvc2_entry {m : Mem} {a n : Nat} (hn : n < 2 ^ 29) (h : Holds m a (thunkCode n)) (d : Int)
    (mem : BitVec 64 → BitVec 64) (obj : BitVec 64) :
    ∃ i, msvc2 m a d = some i ∧ i.isVirtual = true ∧
      entryAddr mem obj i.thisptroffs i.vtbloffs i.vtblindex = mem (obj + BitVec.ofInt 64 d) + BitVec.ofInt 64 (8 * (n : Int)) := by
  refine ⟨⟨true, d, n, 0⟩, by simp [msvc2, msvc_virtual hn h], ?_, ?_⟩
  · simp
  · simp [entryAddr]

end Verif.SH.Mfp

#print axioms Verif.SH.Mfp.gcc_virtual
#print axioms Verif.SH.Mfp.gcc_injective
#print axioms Verif.SH.Mfp.gcc_plain
#print axioms Verif.SH.Mfp.gcc_entry
#print axioms Verif.SH.Mfp.msvc_virtual
#print axioms Verif.SH.Mfp.msvc_jump_partial
#print axioms Verif.SH.Mfp.msvc_jump_back
#print axioms Verif.SH.Mfp.msvc_jump_back_unmapped
#print axioms Verif.SH.Mfp.msvc_plain
#print axioms Verif.SH.Mfp.msvc4_counts_twice
#print axioms Verif.SH.Mfp.msvc2_entry
#print axioms Verif.SH.Mfp.msvc_loads
