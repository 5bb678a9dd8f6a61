import Verif.Page.MapsText
/-
The text of /proc/curproc/map as `GetPageBits` and `ModuleInMemory` read it when /proc/self/maps does not open,
core/sourcehook/sh_memory.h:100-132 and 296-322: FreeBSD's list of mappings.

* The file is the list of the bytes still to be read.
* `fscanf` is the C library's, for the directives the two formats have.  Where a number is cut off by the end of the file
  it is taken as not matching.  `W` is the width of `unsigned long`; the numbers of `%d` are looked at by nobody, so their
  values are left out.
* A variable that has not been assigned is `none`; to look at it is undefined behaviour, the outcome `ub`.
-/
namespace Verif.CurMap
open Verif.C Verif.Page Verif.Maps

/-- What a number or a character is assigned to, core/sourcehook/sh_memory.h:104-106 and 301. -/
inductive Slot
  | lo
  | hi
  | r
  | w
  | x
  | ignored
  deriving DecidableEq, Repr

/-- The variables, core/sourcehook/sh_memory.h:104-106 and 301. -/
structure Vars where
  lo : Option Nat := none
  hi : Option Nat := none
  r : Option Byte := none
  w : Option Byte := none
  x : Option Byte := none
  deriving DecidableEq, Repr

/-- Assign a number. No counterpart in /repo: part of the C library's `fscanf`. -/
def Vars.num (v : Vars) (k : Slot) (n : Nat) : Vars := match k with
  | .lo => { v with lo := some n }
  | .hi => { v with hi := some n }
  | _ => v

/-- Assign a character. No counterpart in /repo: part of the C library's `fscanf`. -/
def Vars.chr (v : Vars) (k : Slot) (c : Byte) : Vars := match k with
  | .r => { v with r := some c }
  | .w => { v with w := some c }
  | .x => { v with x := some c }
  | _ => v

/-- A directive of a format: a character that must come, white space, `%lx`, `%d`, `%c`.
No counterpart in /repo: part of the C library's `fscanf`. -/
inductive Dir
  | lit (c : Byte)
  | space
  | hex (k : Slot)
  | dec
  | chr (k : Slot)
  deriving DecidableEq, Repr

/-- Why `fscanf` came to its end: the format was through, the input did not match, or there was no more input.
No counterpart in /repo: part of the C library's `fscanf`. -/
inductive Stop
  | done
  | mismatch
  | input
  deriving DecidableEq, Repr

/-- What `fscanf` leaves: the variables, the number of assignments, why it came to its end, and the input not read.
No counterpart in /repo: part of the C library's `fscanf`. -/
structure Scanned where
  vars : Vars
  count : Nat
  stop : Stop
  rest : List Byte
  deriving DecidableEq, Repr

/-- White space in front. No counterpart in /repo: part of the C library's `fscanf`. -/
def skip (s : List Byte) : List Byte := s.dropWhile isspace

/-- A sign in front: whether it is a minus, and what is behind it. No counterpart in /repo: part of the C library's `fscanf`. -/
def signed : List Byte → Bool × List Byte
  | [] => (false, [])
  | c :: s => if c = 45 then (true, s) else if c = 43 then (false, s) else (false, c :: s)

/-- Behind `0x` or `0X`, if it stands in front. No counterpart in /repo: part of the C library's `fscanf`. -/
def unprefixed : List Byte → List Byte
  | 48 :: c :: s => if c = 120 ∨ c = 88 then s else 48 :: c :: s
  | s => s

/-- The hexadecimal digits in front: the value and what is behind them. No counterpart in /repo: part of the C library's `fscanf`. -/
def hexRun (acc : Nat) : List Byte → Nat × List Byte
  | [] => (acc, [])
  | c :: s => match hexDigit c with
    | some d => hexRun (acc * 16 + d) s
    | none => (acc, c :: s)

/-- The decimal digits in front are passed over. No counterpart in /repo: part of the C library's `fscanf`. -/
def decRun (s : List Byte) : List Byte := s.dropWhile isdigit

/-- The digits of `%lx`, the white space being gone: the number, if there is one, and what is behind it.
No counterpart in /repo: part of the C library's `fscanf`. -/
def hexItem (W : Nat) (s : List Byte) : Option Nat × List Byte :=
  let t := unprefixed (signed s).2
  let (n, u) := hexRun 0 t
  (if u.length = t.length then none else some (clip W (signed s).1 n), u)

/-- The digits of `%d`, the white space being gone: whether there is a number, and what is behind it.
No counterpart in /repo: part of the C library's `fscanf`. -/
def decItem (s : List Byte) : Bool × List Byte :=
  let t := (signed s).2
  ((decRun t).length != t.length, decRun t)

/-- `fscanf`, from a directive on, with so many assignments made.  As called at core/sourcehook/sh_memory.h:107-108, 302. -/
def scan (W : Nat) : List Dir → Nat → Vars → List Byte → Scanned
  | [], k, v, s => ⟨v, k, .done, s⟩
  | .lit c :: ds, k, v, s => match s with
    | [] => ⟨v, k, .input, []⟩
    | b :: t => if b = c then scan W ds k v t else ⟨v, k, .mismatch, b :: t⟩
  | .space :: ds, k, v, s => scan W ds k v (skip s)
  | .hex a :: ds, k, v, s => match skip s with
    | [] => ⟨v, k, .input, []⟩
    | b :: t => match hexItem W (b :: t) with
      | (some n, u) => scan W ds (k + 1) (v.num a n) u
      | (none, u) => ⟨v, k, .mismatch, u⟩
  | .dec :: ds, k, v, s => match skip s with
    | [] => ⟨v, k, .input, []⟩
    | b :: t => match decItem (b :: t) with
      | (true, u) => scan W ds (k + 1) v u
      | (false, u) => ⟨v, k, .mismatch, u⟩
  | .chr a :: ds, k, v, s => match s with
    | [] => ⟨v, k, .input, []⟩
    | b :: t => scan W ds (k + 1) (v.chr a b) t

/-- `fscanf` returned `EOF`: no more input before the first assignment. As asked at core/sourcehook/sh_memory.h:108, 302. -/
def Scanned.eof (r : Scanned) : Bool := r.stop == .input && r.count == 0

/-- The format `0x%lx 0x%lx %d %d 0x%lx %c%c%c`, core/sourcehook/sh_memory.h:107. -/
def bitsFormat : List Dir :=
  [.lit 48, .lit 120, .hex .lo, .space, .lit 48, .lit 120, .hex .hi, .space, .dec, .space, .dec, .space,
   .lit 48, .lit 120, .hex .ignored, .space, .chr .r, .chr .w, .chr .x]

/-- The format `0x%lx 0x%lx`, core/sourcehook/sh_memory.h:302. -/
def moduleFormat : List Dir := [.lit 48, .lit 120, .hex .lo, .space, .lit 48, .lit 120, .hex .hi]

/-- The rest of the line is read, core/sourcehook/sh_memory.h:121-128, 310-318: what is behind the newline, `none` at the
end of the file. -/
def nextLine : List Byte → Option (List Byte)
  | [] => none
  | c :: s => if c = 10 then some s else nextLine s

/-- What `GetPageBits` comes to: undefined behaviour, `false`, or `true` and the flags. No counterpart in /repo. -/
inductive Told
  | ub
  | nothing
  | bits (b : Bits)
  deriving DecidableEq, Repr

/-- The flags, core/sourcehook/sh_memory.h:112-118: the first character is looked at three times. -/
def flagsOf : Option Byte → Told
  | none => .ub
  | some c => .bits { r := c == 114, w := c == 119, x := c == 120 }

/-- Whether the address is in the range read, core/sourcehook/sh_memory.h:110; `none` for undefined behaviour.  The second
bound is looked at only if the first is not above the address. -/
def within (addr : Nat) (v : Vars) : Option Bool := match v.lo with
  | none => none
  | some lo => if lo ≤ addr then v.hi.map fun hi => decide (addr < hi) else some false

/-- Whether the whole range is in the one read, core/sourcehook/sh_memory.h:305; `none` for undefined behaviour.  The bounds
are `long` and become `unsigned long` in the comparisons. -/
def encloses (lower upper : Nat) (v : Vars) : Option Bool := match v.lo with
  | none => none
  | some lo => if lo ≤ lower then v.hi.map fun hi => decide (upper ≤ hi) else some false

theorem skip_le (s : List Byte) : (skip s).length ≤ s.length := (List.dropWhile_sublist _).length_le

theorem signed_le (s : List Byte) : (signed s).2.length ≤ s.length := by
  cases s with
  | nil => simp [signed]
  | cons c s =>
    unfold signed
    by_cases h : c = 45
    · simp [h]
    · by_cases h2 : c = 43 <;> simp [h, h2]

theorem unprefixed_le (s : List Byte) : (unprefixed s).length ≤ s.length := by
  unfold unprefixed
  split
  · split
    · simp; omega
    · exact Nat.le_refl _
  · exact Nat.le_refl _

theorem hexRun_le (s : List Byte) (acc : Nat) : (hexRun acc s).2.length ≤ s.length := by
  induction s generalizing acc with
  | nil => simp [hexRun]
  | cons c s ih =>
    unfold hexRun
    split
    · exact Nat.le_succ_of_le (ih _)
    · simp

theorem hexItem_le (W : Nat) (s : List Byte) : (hexItem W s).2.length ≤ s.length :=
  Nat.le_trans (hexRun_le _ _) (Nat.le_trans (unprefixed_le _) (signed_le s))

theorem decItem_le (s : List Byte) : (decItem s).2.length ≤ s.length :=
  Nat.le_trans (List.dropWhile_sublist _).length_le (signed_le s)

theorem scan_le (W : Nat) : ∀ (ds : List Dir) (k : Nat) (v : Vars) (s : List Byte), (scan W ds k v s).rest.length ≤ s.length := by
  intro ds
  induction ds with
  | nil => intro k v s; exact Nat.le_refl _
  | cons d ds ih =>
    intro k v s
    cases d with
    | lit c =>
      unfold scan
      split
      · simp
      · split
        · exact Nat.le_trans (ih _ _ _) (by simp)
        · exact Nat.le_refl _
    | space => exact Nat.le_trans (ih _ _ _) (skip_le s)
    | hex a =>
      unfold scan
      split
      · simp
      · next b t e =>
        have h := skip_le s
        rw [e] at h
        have h2 := hexItem_le W (b :: t)
        split
        · next n u e2 => rw [e2] at h2; exact Nat.le_trans (ih _ _ _) (Nat.le_trans h2 h)
        · next u e2 => rw [e2] at h2; exact Nat.le_trans h2 h
    | dec =>
      unfold scan
      split
      · simp
      · next b t e =>
        have h := skip_le s
        rw [e] at h
        have h2 := decItem_le (b :: t)
        split
        · next u e2 => rw [e2] at h2; exact Nat.le_trans (ih _ _ _) (Nat.le_trans h2 h)
        · next u e2 => rw [e2] at h2; exact Nat.le_trans h2 h
    | chr a =>
      unfold scan
      split
      · simp
      · exact Nat.le_trans (ih _ _ _) (by simp)

theorem nextLine_lt {s t : List Byte} (h : nextLine s = some t) : t.length < s.length := by
  induction s with
  | nil => cases h
  | cons c s ih =>
    unfold nextLine at h
    split at h
    · cases h; simp
    · have := ih h; simp; omega

/-- The loop of `GetPageBits`, core/sourcehook/sh_memory.h:107-131. -/
def readBits (W addr : Nat) (v : Vars) (s : List Byte) : Told :=
  if (scan W bitsFormat 0 v s).eof then .nothing
  else match within addr (scan W bitsFormat 0 v s).vars with
    | none => .ub
    | some true => flagsOf (scan W bitsFormat 0 v s).vars.r
    | some false => match _h : nextLine (scan W bitsFormat 0 v s).rest with
      | none => .nothing
      | some t => readBits W addr (scan W bitsFormat 0 v s).vars t
termination_by s.length
decreasing_by exact Nat.lt_of_lt_of_le (nextLine_lt _h) (scan_le W _ _ _ _)

/-- `GetPageBits` with /proc/curproc/map, core/sourcehook/sh_memory.h:62, 100-132: the variables begin unassigned. -/
def curBits (W addr : Nat) (file : List Byte) : Told := readBits W addr {} file

/-- The loop of `ModuleInMemory`, core/sourcehook/sh_memory.h:302-321; `none` for undefined behaviour. -/
def readModule (W lower upper : Nat) (v : Vars) (s : List Byte) : Option Bool :=
  if (scan W moduleFormat 0 v s).eof then some false
  else match encloses lower upper (scan W moduleFormat 0 v s).vars with
    | none => none
    | some true => some true
    | some false => match _h : nextLine (scan W moduleFormat 0 v s).rest with
      | none => some false
      | some t => readModule W lower upper (scan W moduleFormat 0 v s).vars t
termination_by s.length
decreasing_by exact Nat.lt_of_lt_of_le (nextLine_lt _h) (scan_le W _ _ _ _)

/-- `ModuleInMemory` with /proc/curproc/map, core/sourcehook/sh_memory.h:267-268, 296-322; `lower + len` is an `unsigned long`. -/
def curModule (W addr len : Nat) (file : List Byte) : Option Bool := readModule W addr ((addr + len) % 2 ^ W) {} file

/-- `MakePageWritable` with /proc/curproc/map, core/sourcehook/sh_memory.h:220-231; `none` for undefined behaviour. -/
def curWritable (k : Nat) (file : List Byte) (prot : Nat → Option Bits) (addr : Nat) : Option ((Nat → Option Bits) × Bool) :=
  match curBits 64 addr file with
  | .ub => none
  | .nothing => some (setMemAccess k prot addr 8 { r := true, w := true, x := true })
  | .bits b => some (if b.w then (prot, true) else setMemAccess k prot addr 8 { b with w := true })

/-! Specification: what the kernel of FreeBSD writes into the file. -/

/-- A mapping: its first byte, the byte after its last, the numbers of its resident pages, the address of its object (0 if it
has none), what is allowed, and the rest of its line.  No counterpart in /repo: the operating system. -/
structure Mapping where
  lo : Nat
  hi : Nat
  resident : Nat
  priv : Nat
  obj : Nat
  bits : Bits
  rest : List Byte
  deriving Repr

/-- Specification: the decimal digits of a number. No counterpart in /repo. -/
def decText (n : Nat) : List Byte := if n < 10 then [digitChar n] else decText (n / 10) ++ [digitChar (n % 10)]
termination_by n

/-- Specification: the address of an object as the kernel writes it, which leaves out the `0x` of a null pointer (`%p` of its
`printf`). No counterpart in /repo. -/
def objText (n : Nat) : List Byte := if n = 0 then [48] else 48 :: 120 :: hexText n

/-- Specification: the line of a mapping, for example `0x804800 0x805500 13 15 0xc6e18960 r-x 21 0x0 COW NC vnode`
(core/sourcehook/sh_memory.h:103). -/
def Mapping.line (m : Mapping) : List Byte :=
  48 :: 120 :: (hexText m.lo ++ 32 :: 48 :: 120 :: (hexText m.hi ++ 32 :: (decText m.resident ++ 32 :: (decText m.priv ++ 32 ::
    (objText m.obj ++ 32 :: (flagText m.bits ++ (m.rest ++ [10])))))))

/-- Specification: the file. No counterpart in /repo. -/
def fileOf (ms : List Mapping) : List Byte := ms.flatMap Mapping.line

/-- Specification: what the kernel keeps to: bounds and object are addresses, and no line has another newline in it.
No counterpart in /repo. -/
def Written (W : Nat) (ms : List Mapping) : Prop := ∀ m ∈ ms, m.lo < 2 ^ W ∧ m.hi < 2 ^ W ∧ m.obj < 2 ^ W ∧ 10 ∉ m.rest

/-- Specification: the address is in the mapping. No counterpart in /repo. -/
def Mapping.Has (m : Mapping) (a : Nat) : Prop := m.lo ≤ a ∧ a < m.hi

instance (m : Mapping) (a : Nat) : Decidable (m.Has a) := inferInstanceAs (Decidable (_ ∧ _))

/-- Specification: no address is in two mappings of the list. No counterpart in /repo. -/
def Apart (ms : List Mapping) : Prop := ms.Pairwise fun a b => ∀ x, ¬(a.Has x ∧ b.Has x)

end Verif.CurMap
