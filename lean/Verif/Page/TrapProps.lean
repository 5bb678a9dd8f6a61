import Verif.Page.Trap
/-
C95: what asking `ModuleInMemory` does to the signal handling of the process, where it reads the memory to find out.
-/
namespace Verif.Page

/-- Specification: the process as it is before `ModuleInMemory` was ever called: its own handlers, nothing blocked. -/
structure Fresh (s : Sig) (m n : Nat) : Prop where
  segv : s.segv = .other m
  bus : s.bus = .other n
  blocked : s.blocked = false

/-- Specification: the signal handling the process sees is the same. -/
structure SameSig (s t : Sig) : Prop where
  segv : t.segv = s.segv
  bus : t.bus = s.bus
  blocked : t.blocked = s.blocked

theorem deliver_blocked {s : Sig} (h : s.blocked = true) (d : Disp) : deliver s d = .killed := by simp [deliver, h]

theorem deliver_own {s : Sig} (h : s.blocked = false) : deliver s .own = badReadHandler s := by simp [deliver, h]

theorem deliver_other {s : Sig} (h : s.blocked = false) (n : Nat) : deliver s (.other n) = .handled n := by simp [deliver, h]

/-! ## Linux -/

theorem linux_readable (s : Sig) : trapLinux s true = .ret false { s with flag := false, frame := false } := rfl

theorem linux_bad {s : Sig} (h : s.blocked = false) :
    trapLinux s false = .ret true { s with flag := true, frame := false, segv := .own, blocked := true } := by
  simp [trapLinux, deliver, badReadHandler, Sig.installed, Sig.armed, h]

theorem linux_killed {s : Sig} (h : s.blocked = true) : trapLinux s false = .fault .killed := by
  simp [trapLinux, deliver, Sig.installed, Sig.armed, h]

theorem linux_blocked (l : List Bool) : ∀ s : Sig, s.blocked = true →
    (false ∈ l → trapRun trapLinux s l = .fault .killed) ∧
    (false ∉ l → ∃ t, trapRun trapLinux s l = .ret (l.map not) t ∧ SameSig s t) := by
  induction l with
  | nil => exact fun s _ => ⟨fun h => absurd h (by simp), fun _ => ⟨s, rfl, rfl, rfl, rfl⟩⟩
  | cons r rs ih =>
    intro s hs
    cases r with
    | false =>
      refine ⟨fun _ => ?_, fun h => absurd (List.mem_cons_self ..) h⟩
      unfold trapRun
      rw [linux_killed hs]
    | true =>
      obtain ⟨h1, h2⟩ := ih { s with flag := false, frame := false } hs
      constructor
      · intro h
        have h' : false ∈ rs := by simpa using h
        unfold trapRun
        rw [linux_readable]
        dsimp only
        rw [h1 h']
      · intro h
        have h' : false ∉ rs := by simpa using h
        obtain ⟨t, e, g⟩ := h2 h'
        refine ⟨t, ?_, g.segv, g.bus, g.blocked⟩
        unfold trapRun
        rw [linux_readable]
        dsimp only
        rw [e]
        rfl

/-- **C95**, as far as it holds on Linux: as long as all memory asked about can be read, the signal handling of the process
is afterwards as it was.  Missing: the answers are wrong (`linux_trap_exact`), and memory that cannot be read. -/
theorem linux_trap_partial (l : List Bool) (h : false ∉ l) : ∀ s : Sig,
    ∃ t, trapRun trapLinux s l = .ret (l.map not) t ∧ SameSig s t := by
  induction l with
  | nil => exact fun s => ⟨s, rfl, rfl, rfl, rfl⟩
  | cons r rs ih =>
    intro s
    cases r with
    | false => exact absurd (List.mem_cons_self ..) h
    | true =>
      obtain ⟨t, e, g⟩ := ih (by simpa using h) { s with flag := false, frame := false }
      refine ⟨t, ?_, g.segv, g.bus, g.blocked⟩
      unfold trapRun
      rw [linux_readable]
      dsimp only
      rw [e]
      rfl

example : ∃ t, trapRun trapLinux ⟨.other 3, .other 4, false, false, false⟩ [true, true] = .ret [false, false] t ∧
    SameSig ⟨.other 3, .other 4, false, false, false⟩ t := linux_trap_partial [true, true] (by simp) _

/-- **C95**, exactly what happens on Linux for any calls: the second call about memory that cannot be read ends the process.
Until then every answer is the opposite of the right one; after the first such call `BadReadHandler` stays in place of the
handler of the process, and the signal stays blocked. -/
theorem linux_trap_exact (l : List Bool) : ∀ {s : Sig} {m n : Nat}, Fresh s m n →
    (2 ≤ l.count false → trapRun trapLinux s l = .fault .killed) ∧
    (l.count false < 2 → ∃ t, trapRun trapLinux s l = .ret (l.map not) t ∧
      (l.count false = 0 → SameSig s t) ∧
      (l.count false = 1 → t.segv = .own ∧ t.blocked = true)) := by
  induction l with
  | nil => exact fun _ => ⟨fun h => absurd h (by simp), fun _ => ⟨_, rfl, fun _ => ⟨rfl, rfl, rfl⟩, fun h => absurd h (by simp)⟩⟩
  | cons r rs ih =>
    intro s m n F
    cases r with
    | true =>
      have F' : Fresh { s with flag := false, frame := false } m n := ⟨F.segv, F.bus, F.blocked⟩
      obtain ⟨h1, h2⟩ := ih F'
      rw [List.count_cons_of_ne (by simp)]
      refine ⟨fun h => ?_, fun h => ?_⟩
      · unfold trapRun
        rw [linux_readable]
        dsimp only
        rw [h1 h]
      · obtain ⟨t, e, g0, g1⟩ := h2 h
        refine ⟨t, ?_, fun h => ⟨(g0 h).segv, (g0 h).bus, (g0 h).blocked⟩, g1⟩
        unfold trapRun
        rw [linux_readable]
        dsimp only
        rw [e]
        rfl
    | false =>
      rw [List.count_cons_self]
      obtain ⟨b1, b2⟩ := linux_blocked rs { s with flag := true, frame := false, segv := .own, blocked := true } rfl
      refine ⟨fun h => ?_, fun h => ?_⟩
      · unfold trapRun
        rw [linux_bad F.blocked]
        dsimp only
        rw [b1 (List.count_pos_iff.1 (by omega))]
      · obtain ⟨t, e, g⟩ := b2 (fun hm => by have := List.count_pos_iff.2 hm; omega)
        refine ⟨t, ?_, fun h => absurd h (by omega), fun _ => ⟨g.segv, g.blocked⟩⟩
        unfold trapRun
        rw [linux_bad F.blocked]
        dsimp only
        rw [e]
        rfl

/-- Readable, not readable, readable: the answers are all wrong; one more that is not readable, and the process ends. -/
example : (∃ t, trapRun trapLinux ⟨.other 3, .other 4, false, false, false⟩ [true, false, true] = .ret [false, true, false] t ∧
      t.segv = .own) ∧
    trapRun trapLinux ⟨.other 3, .other 4, false, false, false⟩ [true, false, true, false] = .fault .killed := by
  constructor
  · obtain ⟨t, e, -, g⟩ := (linux_trap_exact [true, false, true] (m := 3) (n := 4) (s := ⟨.other 3, .other 4, false, false, false⟩)
      ⟨rfl, rfl, rfl⟩).2 (by decide)
    exact ⟨t, e, (g (by decide)).1⟩
  · exact (linux_trap_exact [true, false, true, false] (m := 3) (n := 4) ⟨rfl, rfl, rfl⟩).1 (by decide)

/-- Finding: on Linux, after `ModuleInMemory` was asked once about memory that cannot be read, a fault anywhere else in the
process no longer reaches the handler of the process: it ends the process at once. -/
theorem linux_later_fault (l : List Bool) {s t : Sig} {m n : Nat} (F : Fresh s m n) {as : List Bool}
    (h : trapRun trapLinux s l = .ret as t) : deliver t t.segv = if false ∈ l then .killed else .handled m := by
  obtain ⟨h1, h2⟩ := linux_trap_exact l F
  by_cases hc : 2 ≤ l.count false
  · rw [h1 hc] at h; cases h
  · obtain ⟨t', e, g0, g1⟩ := h2 (by omega)
    rw [e] at h
    cases h
    by_cases hm : false ∈ l
    · have := List.count_pos_iff.2 hm
      rw [if_pos hm, deliver_blocked (g1 (by omega)).2]
    · have g := g0 (List.count_eq_zero.2 hm)
      rw [if_neg hm, g.segv, F.segv, deliver_other (g.blocked.trans F.blocked)]

example : ∃ as t, trapRun trapLinux ⟨.other 3, .other 4, false, false, false⟩ [false] = .ret as t ∧ deliver t t.segv = .killed :=
  ⟨_, _, rfl, linux_later_fault [false] (s := ⟨.other 3, .other 4, false, false, false⟩) (m := 3) (n := 4) ⟨rfl, rfl, rfl⟩ rfl⟩

/-! ## macOS -/

theorem mac_readable (s : Sig) (bus : Bool) : trapMac s true bus = .ret true { s with flag := false, frame := false } := rfl

theorem mac_bad {s : Sig} (h : s.blocked = false) (bus : Bool) :
    trapMac s false bus = .ret false { s with flag := true, frame := false, segv := .own, bus := .own } := by
  cases bus <;> simp [trapMac, deliver, badReadHandler, Sig.installedMac, Sig.armed, h]

/-- **C95**, exactly what happens on macOS for any calls: every answer is right; the handlers of the process are in place
afterwards if and only if all memory asked about could be read; else `BadReadHandler` has taken their place for good. -/
theorem mac_trap_exact (bus : Bool) (l : List Bool) : ∀ {s : Sig}, s.blocked = false →
    ∃ t, trapRun (trapMac · · bus) s l = .ret l t ∧ t.blocked = false ∧
      (false ∉ l → SameSig s t) ∧ (false ∈ l → t.segv = .own ∧ t.bus = .own) := by
  induction l with
  | nil => exact fun {s} h => ⟨s, rfl, h, fun _ => ⟨rfl, rfl, rfl⟩, fun h => absurd h (by simp)⟩
  | cons r rs ih =>
    intro s hs
    cases r with
    | true =>
      obtain ⟨t, e, hb, g0, g1⟩ := ih (s := { s with flag := false, frame := false }) hs
      refine ⟨t, ?_, hb, fun h => ?_, fun h => g1 (by simpa using h)⟩
      · unfold trapRun
        rw [mac_readable]
        dsimp only
        rw [e]
      · have := g0 (by simpa using h)
        exact ⟨this.segv, this.bus, this.blocked⟩
    | false =>
      obtain ⟨t, e, hb, g0, g1⟩ := ih (s := { s with flag := true, frame := false, segv := .own, bus := .own }) hs
      refine ⟨t, ?_, hb, fun h => absurd (List.mem_cons_self ..) h, fun _ => ?_⟩
      · unfold trapRun
        rw [mac_bad hs]
        dsimp only
        rw [e]
      · by_cases hm : false ∈ rs
        · exact g1 hm
        · exact ⟨(g0 hm).segv, (g0 hm).bus⟩

/-- **C95** for macOS: the answers are right for any calls. -/
theorem mac_trap_answers (bus : Bool) (l : List Bool) {s : Sig} (h : s.blocked = false) : ∃ t, trapRun (trapMac · · bus) s l = .ret l t := by
  obtain ⟨t, e, -⟩ := mac_trap_exact bus l h
  exact ⟨t, e⟩

example : ∃ t, trapRun (trapMac · · false) ⟨.other 3, .other 4, false, false, false⟩ [true, false, true] = .ret [true, false, true] t :=
  mac_trap_answers false _ rfl

example : ∃ t, trapRun (trapMac · · false) ⟨.other 3, .other 4, false, false, false⟩ [true, false, true] = .ret [true, false, true] t ∧
    t.segv = .own := by
  obtain ⟨t, e, -, -, g⟩ := mac_trap_exact false [true, false, true] (s := ⟨.other 3, .other 4, false, false, false⟩) rfl
  exact ⟨t, e, (g (by simp)).1⟩

theorem mac_flags (bus : Bool) (l : List Bool) : ∀ {s t : Sig} {as : List Bool}, s.blocked = false →
    trapRun (trapMac · · bus) s l = .ret as t → (l = [] → t = s) ∧ (l ≠ [] → t.frame = false) ∧ (l.getLast? = some true → t.flag = false) ∧
      (l.getLast? = some false → t.flag = true) := by
  induction l with
  | nil =>
    intro s t as _ h
    cases h
    exact ⟨fun _ => rfl, fun h => absurd rfl h, fun h => absurd h (by simp), fun h => absurd h (by simp)⟩
  | cons r rs ih =>
    intro s t as hs h
    refine ⟨fun h => absurd h (by simp), ?_⟩
    obtain ⟨a, s1, e1, hs1, hf, hg⟩ : ∃ a s1, trapMac s r bus = .ret a s1 ∧ s1.blocked = false ∧ s1.frame = false ∧ s1.flag = !r := by
      cases r
      · exact ⟨_, _, mac_bad hs bus, hs, rfl, rfl⟩
      · exact ⟨_, _, mac_readable s bus, hs, rfl, rfl⟩
    unfold trapRun at h
    rw [e1] at h
    dsimp only at h
    obtain ⟨t', e, -⟩ := mac_trap_exact bus rs hs1
    rw [e] at h
    cases h
    obtain ⟨i0, i1, i2, i3⟩ := ih hs1 e
    cases rs with
    | nil =>
      cases i0 rfl
      refine ⟨fun _ => hf, ?_, ?_⟩ <;> intro h <;> simp at h <;> simp [hg, h]
    | cons q qs =>
      refine ⟨fun _ => i1 (by simp), ?_, ?_⟩ <;> intro h <;> rw [List.getLast?_cons_cons] at h
      · exact i2 h
      · exact i3 h

/-- Finding: on macOS, after `ModuleInMemory` was asked about memory that cannot be read, a later fault anywhere else in the
process does not reach the handler of the process: if that was the last call, `longjmp` goes to a function that has
returned (undefined behaviour); else the handler returns to the faulting instruction forever. -/
theorem mac_later_fault (bus : Bool) (l : List Bool) {s t : Sig} {m n : Nat} (F : Fresh s m n) {as : List Bool}
    (h : trapRun (trapMac · · bus) s l = .ret as t) :
    deliver t t.segv = if false ∉ l then .handled m else if l.getLast? = some false then .deadFrame else .spins := by
  obtain ⟨t', e, hb, g0, g1⟩ := mac_trap_exact bus l F.blocked
  obtain ⟨-, i1, i2, i3⟩ := mac_flags bus l F.blocked h
  rw [e] at h
  cases h
  by_cases hm : false ∈ l
  · rw [if_neg (by simpa using hm), (g1 hm).1, deliver_own hb, badReadHandler]
    have hne : l ≠ [] := by rintro rfl; cases hm
    by_cases hl : l.getLast? = some false
    · rw [if_pos hl, if_pos (i3 hl), if_neg (by simp [i1 hne])]
    · rw [if_neg hl]
      have : l.getLast? = some true := by
        cases hh : l.getLast? with
        | none => exact absurd (List.getLast?_eq_none_iff.1 hh) hne
        | some b => cases b
                    · exact absurd hh hl
                    · rfl
      rw [if_neg (by simp [i2 this])]
  · have g := g0 hm
    rw [if_pos hm, g.segv, F.segv, deliver_other hb]

example : (∃ as t, trapRun (trapMac · · false) ⟨.other 3, .other 4, false, false, false⟩ [true, false] = .ret as t ∧
      deliver t t.segv = .deadFrame) ∧
    ∃ as t, trapRun (trapMac · · false) ⟨.other 3, .other 4, false, false, false⟩ [false, true] = .ret as t ∧ deliver t t.segv = .spins :=
  ⟨⟨_, _, rfl, mac_later_fault false [true, false] (s := ⟨.other 3, .other 4, false, false, false⟩) (m := 3) (n := 4) ⟨rfl, rfl, rfl⟩ rfl⟩,
    ⟨_, _, rfl, mac_later_fault false [false, true] (s := ⟨.other 3, .other 4, false, false, false⟩) (m := 3) (n := 4) ⟨rfl, rfl, rfl⟩ rfl⟩⟩

end Verif.Page

#print axioms Verif.Page.linux_trap_partial
#print axioms Verif.Page.linux_trap_exact
#print axioms Verif.Page.linux_later_fault
#print axioms Verif.Page.mac_trap_exact
#print axioms Verif.Page.mac_trap_answers
#print axioms Verif.Page.mac_later_fault
