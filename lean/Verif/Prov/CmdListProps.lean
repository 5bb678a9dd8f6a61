/-
C70: the list of console commands is the list of registered commands.  The specification is a list of addresses.
-/
import Verif.Prov.CmdList

namespace Verif.Prov.Cmd

/-- Specification: following the links from `a` visits exactly the commands `l`, then ends. -/
def Chain (next : Nat → Nat) : Nat → List Nat → Prop
  | a, [] => a = 0
  | a, c :: cs => a = c ∧ c ≠ 0 ∧ Chain next (next c) cs

theorem Chain.unique {next : Nat → Nat} : ∀ {l l' : List Nat} {a : Nat}, Chain next a l → Chain next a l' → l = l' := by
  intro l
  induction l with
  | nil =>
    intro l' a h h'
    cases l' with
    | nil => rfl
    | cons c cs => exact absurd (h'.1.symm.trans h) h'.2.1
  | cons c cs ih =>
    intro l' a h h'
    cases l' with
    | nil => exact absurd (h.1.symm.trans h') h.2.1
    | cons d ds =>
      obtain ⟨rfl, -, h3⟩ := h
      obtain ⟨rfl, -, h3'⟩ := h'
      rw [ih h3 h3']

theorem Chain.drop {next : Nat → Nat} {c : Nat} : ∀ {l : List Nat} {a : Nat}, Chain next a l → c ∈ l →
    ∃ l1 l2, l = l1 ++ c :: l2 ∧ Chain next c (c :: l2) := by
  intro l
  induction l with
  | nil => intro a _ h; simp at h
  | cons d ds ih =>
    intro a h hc
    by_cases hd : d = c
    · subst hd
      exact ⟨[], ds, rfl, rfl, h.2.1, h.2.2⟩
    · obtain ⟨l1, l2, e, h'⟩ := ih h.2.2 (by simpa [Ne.symm hd] using hc)
      exact ⟨d :: l1, l2, by simp [e], h'⟩

theorem Chain.nodup {next : Nat → Nat} : ∀ {l : List Nat} {a : Nat}, Chain next a l → l.Nodup := by
  intro l
  induction l with
  | nil => intro a _; simp
  | cons c cs ih =>
    intro a h
    refine List.nodup_cons.2 ⟨?_, ih h.2.2⟩
    intro hc
    obtain ⟨l1, l2, e, h'⟩ := Chain.drop h.2.2 hc
    have h1 := congrArg List.length (Chain.unique h'.2.2 h.2.2)
    have h2 := congrArg List.length e
    simp only [List.length_append, List.length_cons] at h2
    omega

theorem Chain.congr {next next' : Nat → Nat} : ∀ {l : List Nat} {a : Nat}, Chain next a l → (∀ c ∈ l, next' c = next c) → Chain next' a l := by
  intro l
  induction l with
  | nil => intro a h _; exact h
  | cons c cs ih =>
    intro a h hc
    refine ⟨h.1, h.2.1, ?_⟩
    rw [hc c (by simp)]
    exact ih h.2.2 (fun x hx => hc x (by simp [hx]))

theorem Chain.ne_zero {next : Nat → Nat} : ∀ {l : List Nat} {a : Nat}, Chain next a l → ∀ c ∈ l, c ≠ 0 := by
  intro l
  induction l with
  | nil => intro a _ c hc; simp at hc
  | cons d ds ih =>
    intro a h c hc
    rcases List.mem_cons.1 hc with rfl | hc
    · exact h.2.1
    · exact ih h.2.2 c hc

theorem unlinkLoop_absent {c : Nat} : ∀ {l : List Nat} {fuel prev cur : Nat} {next : Nat → Nat}, Chain next cur l → c ∉ l → l.length < fuel →
    unlinkLoop c fuel next prev cur = some next := by
  intro l
  induction l with
  | nil =>
    intro fuel prev cur next h _ hf
    obtain ⟨f, rfl⟩ : ∃ f, fuel = f + 1 := ⟨fuel - 1, by simp at hf; omega⟩
    have : cur = 0 := h
    simp [unlinkLoop, this]
  | cons d ds ih =>
    intro fuel prev cur next h hc hf
    obtain ⟨f, rfl⟩ : ∃ f, fuel = f + 1 := ⟨fuel - 1, by simp at hf; omega⟩
    obtain ⟨rfl, h2, h3⟩ := h
    have hne : cur ≠ c := fun e => hc (by simp [e])
    simp only [unlinkLoop, if_neg h2, if_neg hne]
    exact ih h3 (fun e => hc (by simp [e])) (by simp at hf; omega)

theorem unlinkLoop_present {c : Nat} : ∀ {l : List Nat} {fuel prev cur : Nat} {next : Nat → Nat}, Chain next cur l → c ∈ l → prev ≠ 0 →
    prev ∉ l → next prev = cur → l.length < fuel →
    ∃ next', unlinkLoop c fuel next prev cur = some next' ∧ Chain next' prev (prev :: l.erase c) ∧ next' c = 0 ∧
      ∀ a, a ∉ prev :: l → next' a = next a := by
  intro l
  induction l with
  | nil => intro fuel prev cur next _ hc; simp at hc
  | cons d ds ih =>
    intro fuel prev cur next h hc hp hpl hnp hf
    obtain ⟨f, rfl⟩ : ∃ f, fuel = f + 1 := ⟨fuel - 1, by simp at hf; omega⟩
    have hnd := Chain.nodup h
    obtain ⟨rfl, h2, h3⟩ := h
    by_cases hcur : cur = c
    · subst hcur
      have hpc : prev ≠ cur := fun e => hpl (by simp [e])
      obtain ⟨g, rfl⟩ : ∃ g, f = g + 1 := ⟨f - 1, by simp at hf; omega⟩
      refine ⟨fun a => if a = cur then 0 else if a = prev then next cur else next a, ?_, ?_, by simp, ?_⟩
      · simp [unlinkLoop, h2]
      · rw [List.erase_cons_head]
        refine ⟨rfl, hp, ?_⟩
        simp only [if_neg hpc, if_true]
        refine Chain.congr h3 (fun x hx => ?_)
        have hx1 : x ≠ cur := fun e => (List.nodup_cons.1 hnd).1 (by rwa [← e])
        have hx2 : x ≠ prev := fun e => hpl (by simp [← e, hx])
        simp [hx1, hx2]
      · intro a ha
        simp at ha
        simp [ha]
    · have hcd : c ∈ ds := by simpa [Ne.symm hcur] using hc
      obtain ⟨next', e1, e2, e3, e4⟩ := ih (fuel := f) (prev := cur) (cur := next cur) (next := next) h3 hcd h2 (List.nodup_cons.1 hnd).1 rfl (by simp at hf; omega)
      refine ⟨next', ?_, ?_, e3, ?_⟩
      · simp only [unlinkLoop, if_neg h2, if_neg hcur]; exact e1
      · rw [List.erase_cons_tail (by simpa using hcur)]
        refine ⟨rfl, hp, ?_⟩
        rw [e4 prev hpl, hnp]
        exact e2
      · intro a ha
        exact e4 a (by simp at ha ⊢; exact ha.2)

/-- C70: unregistering takes exactly that command out of the engine's list, keeps the order of the others and clears its link;
a command that is not in the list changes nothing. -/
theorem unregister_exact {fuel c : Nat} {s : St} {l : List Nat} (h : Chain s.next s.top l) (hk : s.known = true) (hf : l.length < fuel) :
    ∃ s', unregister fuel c s = some s' ∧ Chain s'.next s'.top (l.erase c) ∧ (c ∈ l → s'.next c = 0) ∧ (c ∉ l → s'.next = s.next) ∧
      s'.mine = s.mine ∧ s'.known = s.known ∧ s'.marked = s.marked := by
  by_cases hc : c = 0
  · have hn : c ∉ l := fun e => Chain.ne_zero h c e hc
    exact ⟨s, by simp [unregister, hc], by rw [List.erase_of_not_mem hn]; exact h, fun e => absurd e hn, fun _ => rfl, rfl, rfl, rfl⟩
  cases l with
  | nil =>
    have : s.top = 0 := h
    exact ⟨s, by simp [unregister, hc, this], h, by simp, fun _ => rfl, rfl, rfl, rfl⟩
  | cons d ds =>
    have hnd := Chain.nodup h
    obtain ⟨h1, h2, h3⟩ := h
    have ht : s.top ≠ 0 := by rw [h1]; exact h2
    by_cases hcur : s.top = c
    · have hdc : d = c := h1 ▸ hcur
      refine ⟨{ s with top := s.next c, next := fun a => if a = c then 0 else s.next a }, ?_, ?_, by simp, ?_, rfl, rfl, rfl⟩
      · simp [unregister, hc, hk, hcur]
      · rw [hdc, List.erase_cons_head]
        simp only
        rw [← hdc]
        refine Chain.congr h3 (fun x hx => ?_)
        have : x ≠ d := fun e => (List.nodup_cons.1 hnd).1 (by rwa [← e])
        simp [this]
      · intro e
        exact absurd (by simp [hdc]) e
    · have hdc : d ≠ c := fun e => hcur (h1.trans e)
      have hun : unregister fuel c s = match unlinkLoop c fuel s.next s.top (s.next s.top) with
          | none => none
          | some next => some { s with next } := by
        unfold unregister
        rw [if_neg hc]
        simp only [hk, Bool.not_true, Bool.false_or, decide_eq_true_eq, if_neg ht, if_neg hcur]
        rfl
      by_cases hm : c ∈ ds
      · obtain ⟨next', e1, e2, e3, -⟩ := unlinkLoop_present (fuel := fuel) (prev := s.top) (cur := s.next s.top) (next := s.next)
          (by rw [h1]; exact h3) hm ht (by rw [h1]; exact (List.nodup_cons.1 hnd).1) rfl (by simp at hf; omega)
        refine ⟨{ s with next := next' }, by rw [hun, e1], ?_, fun _ => e3, ?_, rfl, rfl, rfl⟩
        · rw [List.erase_cons_tail (by simpa using hdc), ← h1]; exact e2
        · intro e; exact absurd (by simp [hm]) e
      · have e1 := unlinkLoop_absent (fuel := fuel) (prev := s.top) (cur := s.next s.top) (next := s.next) (by rw [h1]; exact h3) hm (by simp at hf; omega)
        refine ⟨s, by rw [hun, e1], ?_, ?_, fun _ => rfl, rfl, rfl, rfl⟩
        · rw [List.erase_of_not_mem (by simp [hm, Ne.symm hdc])]; exact ⟨h1, h2, h3⟩
        · intro e; simp [hm, Ne.symm hdc] at e

/-- C70: registering a new command puts it in front; all others stay, in their order. -/
theorem register_front {c : Nat} {s : St} {l : List Nat} (h : Chain s.next s.top l) (hc : c ≠ 0) (hl : c ∉ l) (hm : s.marked c = false) :
    Chain (register c s).next (register c s).top (c :: l) ∧ (register c s).marked c = true ∧ (register c s).known = s.known := by
  simp only [register, engineAdd, hm]
  refine ⟨⟨rfl, hc, ?_⟩, by simp, rfl⟩
  simp
  exact Chain.congr h (fun x hx => by
    have : x ≠ c := fun e => hl (by rwa [← e])
    simp [this])

/-- C70: registering and unregistering a new command leaves the list as it was. -/
theorem register_unregister {fuel c : Nat} {s : St} {l : List Nat} (h : Chain s.next s.top l) (hc : c ≠ 0) (hl : c ∉ l)
    (hm : s.marked c = false) (hk : s.known = true) (hf : l.length + 1 < fuel) :
    ∃ s', unregister fuel c (register c s) = some s' ∧ Chain s'.next s'.top l ∧ s'.next c = 0 := by
  obtain ⟨h1, h2, h3⟩ := register_front h hc hl hm
  obtain ⟨s', e1, e2, e3, -⟩ := unregister_exact (fuel := fuel) (c := c) h1 (h3.trans hk) (by simpa using hf)
  exact ⟨s', e1, by simpa using e2, e3 (by simp)⟩

theorem removeLoop_exact {fuel : Nat} : ∀ {cs : List Nat} {s : St} {l : List Nat}, Chain s.next s.top l → s.known = true → l.length < fuel →
    ∃ s', removeLoop fuel cs s = some s' ∧ Chain s'.next s'.top (l.filter (fun a => a ∉ cs)) ∧ s'.mine = s.mine := by
  intro cs
  induction cs with
  | nil => intro s l h _ _; exact ⟨s, rfl, by rw [List.filter_eq_self.2 (by simp)]; exact h, rfl⟩
  | cons c cs ih =>
    intro s l h hk hf
    obtain ⟨s1, e1, e2, -, -, e5, e6, -⟩ := unregister_exact (fuel := fuel) (c := c) h hk hf
    obtain ⟨s2, f1, f2, f3⟩ := ih e2 (e6.trans hk) (Nat.lt_of_le_of_lt List.length_erase_le hf)
    refine ⟨s2, by simp [removeLoop, e1, f1], ?_, f3.trans e5⟩
    rw [(Chain.nodup h).erase_eq_filter, List.filter_filter] at f2
    have : (fun a => decide (a ∉ c :: cs)) = fun a => (decide (a ∉ cs) && (a != c)) := by
      funext a
      by_cases h1 : a = c <;> by_cases h2 : a ∈ cs <;> simp [h1, h2, bne]
    rw [this]
    exact f2

/-- C70: at shutdown every command Metamod registered itself leaves the list; the commands of others stay, in their order. -/
theorem removeMine_exact {fuel : Nat} {s : St} {l : List Nat} (h : Chain s.next s.top l) (hk : s.known = true) (hf : l.length < fuel) :
    ∃ s', removeMine fuel s = some s' ∧ Chain s'.next s'.top (l.filter (fun a => a ∉ s.mine)) ∧ s'.mine = s.mine :=
  removeLoop_exact h hk hf

/-! Sequences of operations. -/

/-- Specification: what plugins and Metamod do with commands. -/
inductive Op where
  | add (c : Nat)
  | addMine (c : Nat)
  | drop (c : Nat)

/-- The operation, executed. -/
def exec (fuel : Nat) (s : St) : Op → Option St
  | .add c => some (register c s)
  | .addMine c => some (registerMine c s)
  | .drop c => unregister fuel c s

/-- A sequence of operations, executed. -/
def run (fuel : Nat) : List Op → St → Option St
  | [], s => some s
  | o :: os, s => match exec fuel s o with
    | none => none
    | some s => run fuel os s

/-- Specification: the list after the operations. -/
def want : List Op → List Nat → List Nat
  | [], l => l
  | .add c :: os, l => want os (c :: l)
  | .addMine c :: os, l => want os (c :: l)
  | .drop c :: os, l => want os (l.erase c)

/-- Specification: only new commands are registered; `old` are those seen before. -/
def Fresh : List Op → List Nat → Prop
  | [], _ => True
  | .add c :: os, old => c ≠ 0 ∧ c ∉ old ∧ Fresh os (c :: old)
  | .addMine c :: os, old => c ≠ 0 ∧ c ∉ old ∧ Fresh os (c :: old)
  | .drop _ :: os, old => Fresh os old

theorem run_aux {fuel : Nat} : ∀ (os : List Op) (s : St) (l old : List Nat), Chain s.next s.top l → s.known = true →
    (∀ c, s.marked c = true → c ∈ old) → (∀ c ∈ l, c ∈ old) → Fresh os old → l.length + os.length < fuel →
    ∃ s', run fuel os s = some s' ∧ Chain s'.next s'.top (want os l) := by
  intro os
  induction os with
  | nil => intro s l old h _ _ _ _ _; exact ⟨s, rfl, h⟩
  | cons o os ih =>
    intro s l old h hk hm hl hfr hf
    simp only [List.length_cons] at hf
    have hadd : ∀ c, c ≠ 0 → c ∉ old → Fresh os (c :: old) → ∀ s0 : St, s0.next = s.next → s0.top = s.top → s0.marked = s.marked → s0.known = s.known →
        ∃ s', run fuel os (register c s0) = some s' ∧ Chain s'.next s'.top (want os (c :: l)) := by
      intro c h1 h2 h3 s0 e1 e2 e3 e4
      have hmk : s0.marked c = false := by
        cases hx : s0.marked c with
        | false => rfl
        | true => exact absurd (hm c (by rw [← e3]; exact hx)) h2
      obtain ⟨a1, a2, a3⟩ := register_front (s := s0) (by rw [e1, e2]; exact h) h1 (fun e => h2 (hl c e)) hmk
      refine ih _ _ (c :: old) a1 (a3.trans (e4.trans hk)) ?_ ?_ h3 (by simp only [List.length_cons]; omega)
      · intro d hd
        simp only [register, engineAdd, hmk] at hd
        simp at hd
        rcases hd with rfl | hd
        · simp
        · exact List.mem_cons_of_mem _ (hm d (by rw [← e3]; exact hd))
      · intro d hd
        rcases List.mem_cons.1 hd with rfl | hd
        · simp
        · exact List.mem_cons_of_mem _ (hl d hd)
    cases o with
    | add c =>
      obtain ⟨h1, h2, h3⟩ := hfr
      exact hadd c h1 h2 h3 s rfl rfl rfl rfl
    | addMine c =>
      obtain ⟨h1, h2, h3⟩ := hfr
      exact hadd c h1 h2 h3 { s with mine := s.mine ++ [c] } rfl rfl rfl rfl
    | drop c =>
      obtain ⟨s1, e1, e2, -, -, -, e6, e7⟩ := unregister_exact (fuel := fuel) (c := c) h hk (by omega)
      have hlen : (l.erase c).length ≤ l.length := List.length_erase_le
      obtain ⟨s', f1, f2⟩ := ih s1 (l.erase c) old e2 (e6.trans hk) (by rw [e7]; exact hm) (fun x hx => hl x (List.mem_of_mem_erase hx)) hfr (by omega)
      exact ⟨s', by simp only [run, exec, e1]; exact f1, f2⟩

/-- C70: after any sequence of registering new commands and unregistering commands (in the list or not), the engine's list is
exactly the commands still registered, latest first, before those that were there at the start. -/
theorem run_exact {fuel : Nat} {os : List Op} {s : St} {l old : List Nat} (h : Chain s.next s.top l) (hk : s.known = true)
    (hm : ∀ c, s.marked c = true → c ∈ old) (hl : ∀ c ∈ l, c ∈ old) (hfr : Fresh os old) (hf : l.length + os.length < fuel) :
    ∃ s', run fuel os s = some s' ∧ Chain s'.next s'.top (want os l) := run_aux os s l old h hk hm hl hfr hf

/-- Finding, core/provider/source/provider_source_console.cpp:40, 50: registering a command that is in the list clears its link
before the engine, which has it marked, refuses it: all commands behind it are lost. -/
theorem register_again_cuts {c : Nat} {s : St} {l1 l2 : List Nat} (h : Chain s.next s.top (l1 ++ c :: l2)) (hm : s.marked c = true) :
    Chain (register c s).next (register c s).top (l1 ++ [c]) := by
  have hr : register c s = { s with next := fun a => if a = c then 0 else s.next a } := by
    simp [register, engineAdd, hm]
  rw [hr]
  simp only
  have hnd := Chain.nodup h
  generalize s.top = a at h
  induction l1 generalizing a with
  | nil =>
    obtain ⟨h1, h2, h3⟩ := h
    exact ⟨h1, h2, by simp [Chain]⟩
  | cons d ds ih =>
    obtain ⟨h1, h2, h3⟩ := h
    have hdc : d ≠ c := by
      intro e
      subst e
      simp at hnd
    refine ⟨h1, h2, ?_⟩
    simp only [if_neg hdc]
    exact ih (List.nodup_cons.1 hnd).2 _ h3

/-- Finding, core/provider/source/provider_source_console.cpp:117-122: if the library opens but has no such symbol, the function
reports success without an address, and the signature is not tried even if it would match. -/
theorem init_without_symbol (sigAddr : Nat) : initList true true 0 true sigAddr = (true, 0) := rfl

/-- C70: in all other cases success means that one of the two ways gave the address. -/
theorem init_address {file handle : Bool} {symbol : Nat} {sigMatches : Bool} {sigAddr a : Nat}
    (h : initList file handle symbol sigMatches sigAddr = (true, a)) :
    (file = true ∧ handle = true ∧ a = symbol) ∨ (¬ (file = true ∧ handle = true) ∧ sigMatches = true ∧ a = sigAddr) := by
  unfold initList at h
  cases file <;> cases handle <;> cases sigMatches <;> simp_all

/-- Without the address nothing is ever taken out of the list: the commands of a plugin stay in it when the plugin goes. -/
theorem unknown_keeps {fuel c : Nat} {s : St} (hk : s.known = false) : unregister fuel c s = some s := by
  unfold unregister
  by_cases hc : c = 0 <;> simp [hc, hk]

/-! Concrete cases: three commands at 8, 16, 24. -/

/-- No counterpart in /repo: a list of three commands. -/
def exSt : St := { next := fun a => if a = 8 then 16 else if a = 16 then 24 else 0, top := 8, marked := fun a => a ∈ [8, 16, 24], known := true, mine := [16] }

example : Chain exSt.next exSt.top [8, 16, 24] := by simp [Chain, exSt]
example : Fresh [.add 32, .drop 16, .drop 99, .addMine 40] [8, 16, 24] := by simp [Fresh]
example : want [.add 32, .drop 16, .drop 99, .addMine 40] [8, 16, 24] = [40, 32, 8, 24] := by decide
example : ∀ c, exSt.marked c = true → c ∈ [8, 16, 24] := by simp [exSt]
example : exSt.marked 16 = true ∧ [8, 16, 24] = [8] ++ 16 :: [24] := by decide

#print axioms unregister_exact
#print axioms register_front
#print axioms register_unregister
#print axioms removeMine_exact
#print axioms run_exact
#print axioms register_again_cuts
#print axioms init_without_symbol
#print axioms init_address
#print axioms unknown_keeps

end Verif.Prov.Cmd
