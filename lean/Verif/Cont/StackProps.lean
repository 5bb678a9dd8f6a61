import Verif.Cont.Stack
import Verif.Cont.VecProps
/-
Property C22: the stack is a LIFO sequence whose elements never move.
-/
namespace Verif.Cont

variable {T : Type}

/-- The content of cell `i` of the sectors `addrs`; `some none` = never assigned. -/
def cell (addrs : List Nat) (mem : Nat → Option (Arr T)) (i : Nat) : Option (Option T) := ((addrs[i / 16]?).bind mem).bind fun a => a[i % 16]?

/-- The stack holds `xs` (bottom first; `none` = an element never assigned) in the sectors at `addrs`. -/
structure SRep (s : CStack T) (addrs : List Nat) (xs : List (Option T)) : Prop where
  sec : VRep s.sec addrs
  nodup : addrs.Nodup
  arr : ∀ a ∈ addrs, ∃ r, s.mem a = some r ∧ r.length = 16
  used : s.used = xs.length
  fits : xs.length ≤ 16 * addrs.length
  cells : ∀ i (h : i < xs.length), cell addrs s.mem i = some xs[i]

/-- The operations; `n` is the address a new sector would get. -/
inductive SOp (T : Type)
  | push (n : Nat) (x : T)
  | makeNext (n : Nat)
  | write (i : Nat) (x : T)
  | pop
  | popall

/-- One operation (`write i x` is an assignment through a reference or pointer to element `i`). -/
def sstep (s : CStack T) : SOp T → R (CStack T)
  | .push n x => s.push n x
  | .makeNext n => do .ok (← s.makeNext n).1
  | .write i x => do s.store (← s.loc i) x
  | .pop => .ok s.pop
  | .popall => .ok s.popall

/-- Spec: the sequence after an operation; `make_next` shows an element with some old content. -/
inductive SSpec (addrs : List Nat) (xs : List (Option T)) : SOp T → List (Option T) → Prop
  | push (n : Nat) (x : T) (h : n ∉ addrs) : SSpec addrs xs (.push n x) (xs ++ [some x])
  | makeNext (n : Nat) (o : Option T) (h : n ∉ addrs) : SSpec addrs xs (.makeNext n) (xs ++ [o])
  | write (i : Nat) (x : T) (h : i < xs.length) : SSpec addrs xs (.write i x) (xs.set i (some x))
  | pop (h : xs ≠ []) : SSpec addrs xs .pop xs.dropLast
  | popall : SSpec addrs xs .popall []

/-! ## Lemmas -/

theorem SRep.loc {s : CStack T} {addrs : List Nat} {xs : List (Option T)} (h : SRep s addrs xs) {i : Nat} (hi : i / 16 < addrs.length) :
    s.loc i = .ok (addrs[i / 16], i % 16) := by
  unfold CStack.loc
  simp only [bind, Except.bind]
  rw [vec_at_partial h.sec hi]

theorem cell_get {addrs : List Nat} {mem : Nat → Option (Arr T)} {i : Nat} (hi : i / 16 < addrs.length) {r : Arr T} (hr : mem addrs[i / 16] = some r) :
    cell addrs mem i = r[i % 16]? := by
  unfold cell
  rw [List.getElem?_eq_getElem hi]
  simp [hr]

theorem cell_append {addrs ext : List Nat} {mem : Nat → Option (Arr T)} {i : Nat} (hi : i / 16 < addrs.length) : cell (addrs ++ ext) mem i = cell addrs mem i := by
  unfold cell
  rw [List.getElem?_append_left hi]

theorem cell_frame {addrs : List Nat} {mem : Nat → Option (Arr T)} {n i : Nat} {r : Option (Arr T)} (hn : n ∉ addrs) : cell addrs (upd mem n r) i = cell addrs mem i := by
  unfold cell
  cases h : addrs[i / 16]? with
  | none => rfl
  | some a =>
    have : a ≠ n := by rintro rfl; exact hn (List.mem_of_getElem? h)
    simp [upd, this]

/-- After `room` there is a sector for the next element; nothing else changed. -/
theorem room_spec {s : CStack T} {addrs : List Nat} {xs : List (Option T)} (h : SRep s addrs xs) {n : Nat} (hn : n ∉ addrs) :
    ∃ s' ext, s.room n = .ok s' ∧ SRep s' (addrs ++ ext) xs ∧ xs.length < 16 * (addrs ++ ext).length ∧ (ext = [] ∨ ext = [n]) := by
  unfold CStack.room
  have hu := h.used; have hv := h.sec.used; have hf := h.fits
  split
  · next hc =>
    obtain ⟨v, e, hr⟩ := vec_step h.sec (.pushBack n)
    simp only [vstep, bind, Except.bind] at e
    cases hp : s.sec.pushBack n with
    | error f => rw [hp] at e; cases e
    | ok v2 =>
      rw [hp] at e
      simp only [Except.ok.injEq, Prod.mk.injEq, and_true] at e
      subst e
      simp only [bind, Except.bind]
      refine ⟨_, [n], rfl, ⟨hr, ?_, ?_, hu, by simp; omega, ?_⟩, by simp; omega, .inr rfl⟩
      · exact List.nodup_append.2 ⟨h.nodup, by simp, by rintro a ha b hb rfl; simp at hb; subst hb; exact hn ha⟩
      · intro a ha
        simp only [upd]
        split
        · exact ⟨_, rfl, by simp [newArr]⟩
        · next hne =>
          rcases List.mem_append.1 ha with ha | ha
          · exact h.arr a ha
          · simp at ha; exact absurd ha hne
      · intro i hi
        simp only
        rw [cell_append (by omega), cell_frame hn]
        exact h.cells i hi
  · next hc => exact ⟨s, [], rfl, by simpa using h, by simp; omega, .inl rfl⟩

theorem store_spec {s : CStack T} {addrs : List Nat} {xs : List (Option T)} (h : SRep s addrs xs) {i : Nat} (hi : i / 16 < addrs.length) (x : T) :
    ∃ s', s.store (addrs[i / 16], i % 16) x = .ok s' ∧ s'.sec = s.sec ∧ s'.used = s.used ∧ (∀ a ∈ addrs, ∃ r, s'.mem a = some r ∧ r.length = 16) ∧
      cell addrs s'.mem i = some (some x) ∧ ∀ j, j ≠ i → cell addrs s'.mem j = cell addrs s.mem j := by
  obtain ⟨r, hr, hl⟩ := h.arr addrs[i / 16] (List.getElem_mem hi)
  unfold CStack.store
  have hm : i % 16 < r.length := by omega
  have hw : wrA r (i % 16) x = .ok (r.set (i % 16) (some x)) := by unfold wrA; rw [if_pos hm]
  simp only [hr, bind, Except.bind, hw]
  refine ⟨_, rfl, rfl, rfl, ?_, ?_, ?_⟩
  · intro a ha
    simp only [upd]
    split
    · exact ⟨_, rfl, by simp [hl]⟩
    · exact h.arr a ha
  · rw [cell_get hi (r := r.set (i % 16) (some x)) (by simp [upd])]
    simp [hm]
  · intro j hj
    by_cases hs : j / 16 < addrs.length
    · by_cases he : addrs[j / 16] = addrs[i / 16]
      · have hij : j / 16 = i / 16 := (List.getElem_inj h.nodup).1 he
        have hne : i % 16 ≠ j % 16 := by omega
        rw [cell_get hs (r := r.set (i % 16) (some x)) (by simp [upd, he]), cell_get hs (r := r) (by rw [he]; exact hr)]
        rw [List.getElem?_set_ne hne]
      · unfold cell
        rw [List.getElem?_eq_getElem hs]
        simp [upd, he]
    · unfold cell
      rw [List.getElem?_eq_none (by omega)]
      rfl

/-! ## The properties -/

theorem init_srep : SRep (CStack.init : CStack T) [] [] := ⟨init_vrep, by simp, by simp, rfl, by simp, by simp⟩

/-- C22: every operation succeeds and gives the next LIFO sequence; the sectors stay where they are (new ones are added at the end). -/
theorem stack_step {s : CStack T} {addrs : List Nat} {xs : List (Option T)} {op : SOp T} (h : SRep s addrs xs)
    (hop : ∃ ys, SSpec addrs xs op ys) : ∃ s' ext ys, sstep s op = .ok s' ∧ SSpec addrs xs op ys ∧ SRep s' (addrs ++ ext) ys := by
  obtain ⟨ys, hs⟩ := hop
  cases hs with
  | push n x hn =>
    obtain ⟨s1, ext, e, h1, hlt, _⟩ := room_spec h hn
    have hu := h1.used
    have hi : s1.used / 16 < (addrs ++ ext).length := by omega
    obtain ⟨s2, e2, hsec, hus, harr, hnew, hold⟩ := store_spec h1 hi x
    refine ⟨{ s2 with used := s2.used + 1 }, ext, _, ?_, .push n x hn, ⟨by rw [hsec]; exact h1.sec, h1.nodup, harr, by simp [hus, hu], by simp at hlt ⊢; omega, ?_⟩⟩
    · simp only [sstep, CStack.push, bind, Except.bind, e]
      rw [h1.loc hi]
      simp only [e2]
    · intro i hi'
      simp only
      by_cases hx : i = s1.used
      · subst hx
        rw [hnew]; simp [hu]
      · rw [hold i hx]
        have hl : i < xs.length := by simp at hi'; omega
        rw [h1.cells i hl, List.getElem_append_left hl]
  | makeNext n o hn =>
    obtain ⟨s1, ext, e, h1, hlt, _⟩ := room_spec h hn
    have hu := h1.used
    have hi : s1.used / 16 < (addrs ++ ext).length := by omega
    obtain ⟨r, hr, hl⟩ := h1.arr (addrs ++ ext)[s1.used / 16] (List.getElem_mem hi)
    have hm : s1.used % 16 < r.length := by omega
    refine ⟨{ s1 with used := s1.used + 1 }, ext, xs ++ [r[s1.used % 16]], ?_, .makeNext n _ hn, ⟨h1.sec, h1.nodup, h1.arr, by simp [hu], by simp at hlt ⊢; omega, ?_⟩⟩
    · simp only [sstep, CStack.makeNext, bind, Except.bind, e]
      rw [h1.loc hi]
    · intro i hi'
      simp only
      by_cases hx : i = s1.used
      · subst hx
        rw [cell_get hi hr, List.getElem?_eq_getElem hm]
        simp [hu]
      · have hl : i < xs.length := by simp at hi'; omega
        rw [h1.cells i hl, List.getElem_append_left hl]
  | write i x hi =>
    have hf := h.fits
    have hi16 : i / 16 < addrs.length := by omega
    obtain ⟨s2, e2, hsec, hus, harr, hnew, hold⟩ := store_spec h hi16 x
    refine ⟨s2, [], _, ?_, .write i x hi, ⟨by rw [hsec]; simpa using h.sec, by simpa using h.nodup, by simpa using harr, by simp [hus, h.used], by simpa using hf, ?_⟩⟩
    · simp only [sstep, bind, Except.bind]
      rw [h.loc hi16]
      exact e2
    · intro j hj
      rw [List.append_nil]
      by_cases hx : j = i
      · subst hx; rw [hnew]; simp
      · have hl : j < xs.length := by simpa using hj
        rw [hold j hx, h.cells j hl, List.getElem_set_ne (Ne.symm hx)]
  | pop hne =>
    refine ⟨s.pop, [], _, rfl, .pop hne, ⟨by simpa [CStack.pop] using h.sec, by simpa using h.nodup, by simpa [CStack.pop] using h.arr, by simp [CStack.pop, h.used], ?_, ?_⟩⟩
    · have := h.fits; simp; omega
    · intro i hi
      have hl : i < xs.length := by simp at hi; omega
      rw [List.append_nil, List.getElem_dropLast]
      exact h.cells i hl
  | popall =>
    exact ⟨s.popall, [], _, rfl, .popall, ⟨by simpa [CStack.popall] using h.sec, by simpa using h.nodup, by simpa [CStack.popall] using h.arr, rfl, by simp, by simp⟩⟩

/-- Pushing on the empty stack is allowed. -/
example : SRep (CStack.init : CStack Nat) [] [] ∧ ∃ ys, SSpec [] ([] : List (Option Nat)) (.push 5 7) ys := ⟨init_srep, _, .push 5 7 (by simp)⟩

/-- Runs of operations. -/
inductive SRuns : CStack T → List Nat → List (Option T) → CStack T → List Nat → List (Option T) → Prop
  | nil (s : CStack T) (addrs : List Nat) (xs : List (Option T)) : SRuns s addrs xs s addrs xs
  | cons {s s1 s2 : CStack T} {addrs ext addrs2 : List Nat} {xs xs1 xs2 : List (Option T)} {op : SOp T} (hs : SSpec addrs xs op xs1)
      (e : sstep s op = .ok s1) (h : SRep s1 (addrs ++ ext) xs1) (hr : SRuns s1 (addrs ++ ext) xs1 s2 addrs2 xs2) : SRuns s addrs xs s2 addrs2 xs2

/-- C22: reading element `i` (0 = bottom) gives the value that was put there. -/
theorem stack_at {s : CStack T} {addrs : List Nat} {xs : List (Option T)} (h : SRep s addrs xs) {i : Nat} {x : T} (hi : xs[i]? = some (some x)) : s.at i = .ok x := by
  have hl : i < xs.length := by
    rcases Nat.lt_or_ge i xs.length with h | h
    · exact h
    · rw [List.getElem?_eq_none h] at hi; cases hi
  have hf := h.fits
  have hi16 : i / 16 < addrs.length := by omega
  obtain ⟨r, hr, _⟩ := h.arr addrs[i / 16] (List.getElem_mem hi16)
  have hc := h.cells i hl
  rw [cell_get hi16 hr] at hc
  rw [List.getElem?_eq_getElem hl] at hi
  simp only [Option.some.injEq] at hi
  unfold CStack.at CStack.load
  simp only [bind, Except.bind]
  rw [h.loc hi16]
  simp only [hr, rdA, hc, hi]

/-- C22: `front` is the last element pushed, `second` the one before, `size` their number. -/
theorem stack_front {s : CStack T} {addrs : List Nat} {xs : List (Option T)} {x y : T} (h : SRep s addrs (xs ++ [some y, some x])) :
    s.front = .ok x ∧ s.second = .ok y ∧ s.used = xs.length + 2 := by
  have hu := h.used
  simp only [List.length_append, List.length_cons, List.length_nil] at hu
  refine ⟨stack_at h ?_, stack_at h ?_, by omega⟩
  · rw [hu, show xs.length + (0 + 1 + 1) - 1 = xs.length + 1 by omega, List.getElem?_append_right (by omega)]
    simp
  · rw [hu, show xs.length + (0 + 1 + 1) - 2 = xs.length by omega, List.getElem?_append_right (by omega)]
    simp

/-- A stack with two elements. -/
theorem two_elements : ∃ (s : CStack Nat) (addrs : List Nat), SRep s addrs [some 7, some 8] := by
  obtain ⟨s1, ext, ys, e, hs, h⟩ := stack_step (init_srep (T := Nat)) (op := .push 5 7) ⟨_, .push 5 7 (by simp)⟩
  cases hs
  have h1 : SRep s1 (([] ++ ext) ++ []) ([] ++ [some 7]) := by simpa using h
  rw [List.append_nil] at h1
  have hfresh : ∃ n, n ∉ ([] ++ ext : List Nat) := ⟨([] ++ ext).foldr Nat.max 0 + 1, by
    intro hm
    have : ∀ (l : List Nat) a, a ∈ l → a ≤ l.foldr Nat.max 0 := by
      intro l a ha
      induction l with
      | nil => cases ha
      | cons b l ih =>
        simp only [List.foldr_cons]
        rcases List.mem_cons.1 ha with rfl | ha
        · exact Nat.le_max_left _ _
        · exact Nat.le_trans (ih ha) (Nat.le_max_right _ _)
    have := this _ _ hm
    omega⟩
  obtain ⟨n, hn⟩ := hfresh
  obtain ⟨s2, ext2, ys, e2, hs, h2⟩ := stack_step h1 (op := .push n 8) ⟨_, .push n 8 hn⟩
  cases hs
  exact ⟨s2, _, h2⟩

example : ∃ (s : CStack Nat) (addrs : List Nat), SRep s addrs ([] ++ [some 7, some 8]) := two_elements

/-- C22: the storage of an element never moves while it is on the stack: its address is the same after any operation. -/
theorem stack_never_moves {s s' : CStack T} {addrs : List Nat} {xs : List (Option T)} {op : SOp T} (h : SRep s addrs xs)
    (hop : ∃ ys, SSpec addrs xs op ys) (e : sstep s op = .ok s') {i : Nat} (hi : i < xs.length) : s'.loc i = s.loc i := by
  obtain ⟨s2, ext, ys, e2, _, h2⟩ := stack_step h hop
  rw [e] at e2
  simp only [Except.ok.injEq] at e2
  subst e2
  have hf := h.fits
  have hi16 : i / 16 < addrs.length := by omega
  rw [h.loc hi16, h2.loc (by simp; omega), List.getElem_append_left hi16]

/-- Addresses over a whole run. -/
theorem stack_never_moves_run {s s' : CStack T} {addrs addrs' : List Nat} {xs xs' : List (Option T)} (h : SRep s addrs xs) (hr : SRuns s addrs xs s' addrs' xs')
    {i : Nat} (hi : i < 16 * addrs.length) : s'.loc i = s.loc i ∧ SRep s' addrs' xs' := by
  induction hr with
  | nil => exact ⟨rfl, h⟩
  | @cons s s1 s2 addrs ext addrs2 xs xs1 xs2 op hs e h1 _ ih =>
    have hi16 : i / 16 < addrs.length := by omega
    obtain ⟨h3, h4⟩ := ih h1 (by simp; omega)
    refine ⟨?_, h4⟩
    rw [h3, h.loc hi16, h1.loc (by simp; omega), List.getElem_append_left hi16]

example : ∃ (s : CStack Nat) (addrs : List Nat), SRep s addrs [some 7, some 8] ∧ 1 < 16 * addrs.length := by
  obtain ⟨s, addrs, h⟩ := two_elements
  have := h.fits
  exact ⟨s, addrs, h, by simp at this; omega⟩

/-- C22: what `make_next` returns is the address of the new top element. -/
theorem makeNext_top {s s' : CStack T} {addrs : List Nat} {xs : List (Option T)} {n : Nat} {p : Nat × Nat} (h : SRep s addrs xs) (hn : n ∉ addrs)
    (e : s.makeNext n = .ok (s', p)) : s'.used = xs.length + 1 ∧ s'.loc (s'.used - 1) = .ok p := by
  obtain ⟨s1, ext, e1, h1, hlt, _⟩ := room_spec h hn
  have hi : s1.used / 16 < (addrs ++ ext).length := by have := h1.used; omega
  simp only [CStack.makeNext, bind, Except.bind, e1] at e
  rw [h1.loc hi] at e
  simp only [Except.ok.injEq, Prod.mk.injEq] at e
  obtain ⟨rfl, rfl⟩ := e
  refine ⟨by simp [h1.used], ?_⟩
  have := h1.loc hi
  simpa [CStack.loc] using this

example : SRep (CStack.init : CStack Nat) [] [] ∧ 5 ∉ ([] : List Nat) := ⟨init_srep, by simp⟩

end Verif.Cont

#print axioms Verif.Cont.stack_step
#print axioms Verif.Cont.stack_at
#print axioms Verif.Cont.stack_front
#print axioms Verif.Cont.stack_never_moves
#print axioms Verif.Cont.stack_never_moves_run
#print axioms Verif.Cont.makeNext_top

#print axioms Verif.Cont.init_srep
