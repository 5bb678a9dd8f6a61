import Verif.Cont.ListLemmas
/-
Property C21: the linked list behaves as a sequence.
-/
namespace Verif.Cont

variable {T : Type}

/-! ## Specification: a sequence of values, each with the address its iterator holds -/

/-- The address after the first `w` of a list. -/
def after (w : Nat) : List Nat → Option Nat
  | a :: b :: t => if a = w then some b else after w (b :: t)
  | _ => none

/-- The addresses a walk forward from `end()` meets, until it is back. -/
def ring (h : Nat) (s : List (Nat × T)) : List Nat := h :: s.map Prod.fst ++ [h]

/-- Insertion before `w`, at the end if there is no `w`. -/
def insBefore (w : Nat) (n : Nat × T) : List (Nat × T) → List (Nat × T)
  | [] => [n]
  | b :: B => if b.1 = w then n :: b :: B else b :: insBefore w n B

/-- The sequence and the result after an operation; `none` when the call is not allowed (an address that is in use for a new
node, an iterator that belongs to no element, `front`/`back`/dereferencing without an element). -/
def spec (h : Nat) (s : List (Nat × T)) : Op T → Option (List (Nat × T) × Out T)
  | .pushBack a x => if a ∈ ring h s then none else some (s ++ [(a, x)], .unit)
  | .pushFront a x => if a ∈ ring h s then none else some ((a, x) :: s, .unit)
  | .pushSorted lt a x => if a ∈ ring h s then none else some (insSorted lt (a, x) s, .unit)
  | .insert w a x => if a ∈ ring h s ∨ w ∉ ring h s then none else some (insBefore w (a, x) s, .it a)
  | .erase w => if w ∈ s.map Prod.fst then (after w (ring h s)).map fun n => (s.filter (fun p => p.1 != w), .it n) else none
  | .remove eq => some (s.eraseP (fun p => eq p.2), .unit)
  | .clear => some ([], .unit)
  | .find eq => some (s, .it (((s.find? (fun p => eq p.2)).map Prod.fst).getD h))
  | .size => some (s, .num s.length)
  | .empty => some (s, .bool s.isEmpty)
  | .front => s.head?.map fun p => (s, .val p.2)
  | .back => s.getLast?.map fun p => (s, .val p.2)
  | .begin => (after h (ring h s)).map fun n => (s, .it n)
  | .end => some (s, .it h)
  | .rd w => (s.find? (fun p => p.1 == w)).map fun p => (s, .val p.2)
  | .inc w => (after w (ring h s)).map fun n => (s, .it n)
  | .dec w => (after w (ring h s).reverse).map fun n => (s, .it n)

/-- A sequence of operations on the specification. -/
def specRun (h : Nat) (s : List (Nat × T)) : List (Op T) → Option (List (Nat × T) × List (Out T))
  | [] => some (s, [])
  | o :: os => match spec h s o with
    | none => none
    | some (s, out) => (specRun h s os).map fun r => (r.1, out :: r.2)

/-! ## Lemmas -/

theorem after_mid {w b : Nat} {A B : List Nat} (h : w ∉ A) : after w (A ++ w :: b :: B) = some b := by
  induction A with
  | nil => simp [after]
  | cons a A ih =>
    have h1 : a ≠ w := by rintro rfl; simp at h
    have h2 := ih (fun hm => h (List.mem_cons_of_mem _ hm))
    cases A with
    | nil => simp only [List.cons_append, List.nil_append, after] at h2 ⊢; rw [if_neg h1]; exact h2
    | cons a' A => simp only [List.cons_append, after] at h2 ⊢; rw [if_neg h1]; exact h2

theorem after_some {w n : Nat} {l : List Nat} (h : after w l = some n) : ∃ A B, l = A ++ w :: n :: B ∧ w ∉ A := by
  induction l with
  | nil => simp [after] at h
  | cons a l ih =>
    cases l with
    | nil => simp [after] at h
    | cons b t =>
      simp only [after] at h
      split at h
      · next e => simp at h; subst e; subst h; exact ⟨[], t, rfl, by simp⟩
      · next e =>
        obtain ⟨A, B, e1, e2⟩ := ih h
        exact ⟨a :: A, B, by rw [e1]; rfl, by simp [e2, Ne.symm e]⟩

/-- On the ring, `after` is `next`. -/
theorem Rep.after {l : L T} {s : List (Nat × T)} (h : Rep l s) {w n : Nat} (e : after w (ring l.head s) = some n) : l.live w = true ∧ l.next w = n := by
  obtain ⟨A, B, e1, _⟩ := after_some e
  have hl := h.linked
  unfold ring at e1
  rw [e1] at hl
  refine ⟨?_, (linked_split.1 hl).2.1.1⟩
  rw [h.live]
  have : w ∈ (l.head :: s.map Prod.fst ++ [l.head]).dropLast := by
    rw [e1, List.dropLast_append_of_ne_nil (by simp)]
    simp [List.dropLast]
  rw [List.dropLast_concat] at this
  exact this

theorem Rep.after_rev {l : L T} {s : List (Nat × T)} (h : Rep l s) {w n : Nat} (e : Cont.after w (ring l.head s).reverse = some n) : l.live w = true ∧ l.prev w = n := by
  obtain ⟨A, B, e1, _⟩ := after_some e
  have e2 : ring l.head s = B.reverse ++ n :: w :: A.reverse := by
    have := congrArg List.reverse e1
    simpa using this
  have hl := h.linked
  unfold ring at e2
  rw [e2] at hl
  refine ⟨?_, (linked_split.1 hl).2.1.2⟩
  rw [h.live]
  have : w ∈ (l.head :: s.map Prod.fst ++ [l.head]) := by rw [e2]; simp
  simp at this ⊢
  rcases this with h | h | h
  · exact .inl h
  · exact .inr h
  · exact .inl h

theorem Rep.mem_split {l : L T} {s : List (Nat × T)} (_h : Rep l s) {w : Nat} (hw : w ∈ s.map Prod.fst) : ∃ A x B, s = A ++ (w, x) :: B := by
  obtain ⟨⟨w', x⟩, hp, rfl⟩ := List.mem_map.1 hw
  obtain ⟨A, B, e⟩ := List.append_of_mem hp
  exact ⟨A, x, B, e⟩

theorem filter_mid {A B : List (Nat × T)} {w : Nat} {x : T} (h : ((A ++ (w, x) :: B).map Prod.fst).Nodup) :
    (A ++ (w, x) :: B).filter (fun p => p.1 != w) = A ++ B := by
  rw [List.map_append, List.map_cons, List.nodup_append, List.nodup_cons] at h
  rw [List.filter_append, List.filter_cons]
  simp only [bne_self_eq_false, Bool.false_eq_true, if_false]
  congr 1
  · rw [List.filter_eq_self]
    intro p hp
    simp only [bne_iff_ne, ne_eq]
    intro e
    exact h.2.2 p.1 (List.mem_map.2 ⟨p, hp, rfl⟩) w (by simp) e
  · rw [List.filter_eq_self]
    intro p hp
    simp only [bne_iff_ne, ne_eq]
    intro e
    exact h.2.1.1 (List.mem_map.2 ⟨p, hp, e⟩)

theorem insBefore_mid {A B : List (Nat × T)} {w : Nat} {n : Nat × T} (hA : w ∉ A.map Prod.fst) (hB : B = [] ∨ B.head?.map Prod.fst = some w) :
    insBefore w n (A ++ B) = A ++ n :: B := by
  induction A with
  | nil =>
    cases B with
    | nil => rfl
    | cons b B => rcases hB with h | h; simp at h; simp at h; simp [insBefore, h]
  | cons a A ih =>
    have h1 : a.1 ≠ w := by rintro e; simp [e] at hA
    simp only [List.cons_append, insBefore, if_neg h1]
    rw [ih (fun h => hA (by simp at h ⊢; exact .inr h))]

theorem Rep.fresh {l : L T} {s : List (Nat × T)} (h : Rep l s) {a : Nat} (ha : a ∉ ring l.head s) : l.live a = false := by
  cases hl : l.live a with
  | false => rfl
  | true => exact absurd (List.mem_append_left _ ((h.live a).1 hl)) ha

/-! ## The properties -/

/-- The constructor gives the empty list. -/
theorem init_rep (h : Nat) (nx pv : Nat → Nat) (ob : Nat → Option T) : Rep (init h nx pv ob) [] :=
  ⟨by simp [init], ⟨⟨upd_self _ _ _, upd_self _ _ _⟩, trivial⟩, by intro a; simp [init], by simp, upd_self _ _ _, rfl⟩

example : Rep (init 7 (fun _ => 3) (fun _ => 4) (fun _ => some 1) : L Nat) [] := init_rep ..

/-- C21, one operation: an allowed call ends without touching memory that is not a node of the list, returns what the sequence says,
and leaves a well linked ring that holds the new sequence. -/
theorem list_step {l : L T} {s s' : List (Nat × T)} {op : Op T} {out : Out T} {fuel : Nat} (h : Rep l s) (hf : s.length < fuel)
    (hs : spec l.head s op = some (s', out)) : ∃ l', step fuel l op = .ok (l', out) ∧ l'.head = l.head ∧ Rep l' s' := by
  cases op with
  | pushBack a x =>
    simp only [spec] at hs
    split at hs <;> simp only [Option.some.injEq, Prod.mk.injEq, reduceCtorEq] at hs
    next ha =>
      obtain ⟨rfl, rfl⟩ := hs
      obtain ⟨l', e, hh, hr⟩ := pushBack_spec h (h.fresh ha) (x := x)
      exact ⟨l', by simp only [step, bind, Except.bind, e], hh, hr⟩
  | pushFront a x =>
    simp only [spec] at hs
    split at hs <;> simp only [Option.some.injEq, Prod.mk.injEq, reduceCtorEq] at hs
    next ha =>
      obtain ⟨rfl, rfl⟩ := hs
      obtain ⟨l', e, hh, hr⟩ := insert_spec (A := []) (B := s) h (nxt_head? l s) (h.fresh ha) (x := x)
      refine ⟨l', ?_, hh, hr⟩
      simp only [step, bind, Except.bind, pushFront]
      rw [getNext_ok h.head_live]
      simp only [h.next_head, e]
  | pushSorted lt a x =>
    simp only [spec] at hs
    split at hs <;> simp only [Option.some.injEq, Prod.mk.injEq, reduceCtorEq] at hs
    next ha =>
      obtain ⟨rfl, rfl⟩ := hs
      obtain ⟨l', e, hh, hr⟩ := sortedLoop_spec (h.fresh ha) s [] fuel h hf (x := x) (lt := lt)
      refine ⟨l', ?_, hh, hr⟩
      simp only [step, bind, Except.bind, pushSorted]
      rw [getNext_ok h.head_live]
      simp only [h.next_head, e]
  | insert w a x =>
    simp only [spec] at hs
    split at hs <;> simp only [Option.some.injEq, Prod.mk.injEq, reduceCtorEq] at hs
    next ha =>
      obtain ⟨rfl, rfl⟩ := hs
      have ha1 : a ∉ ring l.head s := fun hm => ha (.inl hm)
      have hw : w ∈ ring l.head s := Classical.byContradiction fun hm => ha (.inr hm)
      by_cases hws : w ∈ s.map Prod.fst
      · obtain ⟨A, y, B, rfl⟩ := h.mem_split hws
        obtain ⟨l', e, hh, hr⟩ := insert_spec h (w := w) rfl (h.fresh ha1) (x := x)
        refine ⟨l', by simp only [step, bind, Except.bind, e], hh, ?_⟩
        rw [insBefore_mid ?_ (.inr rfl)]
        · exact hr
        · have := (List.nodup_cons.1 h.nodup).2
          rw [List.map_append, List.nodup_append] at this
          exact fun hm => this.2.2 w hm w (by simp) rfl
      · have : w = l.head := by
          simp only [ring, List.cons_append, List.mem_cons, List.mem_append, List.not_mem_nil, or_false] at hw
          rcases hw with h | h | h
          · exact h
          · exact absurd h hws
          · exact h
        subst this
        obtain ⟨l', e, hh, hr⟩ := insert_spec (A := s) (B := []) (by simpa using h) (w := l.head) rfl (h.fresh ha1) (x := x)
        refine ⟨l', by simp only [step, bind, Except.bind, e], hh, ?_⟩
        have := insBefore_mid (A := s) (B := []) (n := (a, x)) hws (.inl rfl)
        rw [List.append_nil] at this
        rw [this]; exact hr
  | erase w =>
    simp only [spec] at hs
    split at hs
    · next hw =>
      obtain ⟨n, hn, e⟩ := Option.map_eq_some_iff.1 hs
      simp only [Prod.mk.injEq] at e
      obtain ⟨rfl, rfl⟩ := e
      obtain ⟨A, y, B, rfl⟩ := h.mem_split hw
      obtain ⟨l', n', e, hn', hh, hr⟩ := erase_spec h
      have hnn : n = n' := by
        have h1 := (h.after hn).2
        have h2 := h.next_mem
        rw [nxt_head?] at hn'
        simp only [Option.some.injEq] at hn'
        rw [← h1, h2, hn']
      subst hnn
      refine ⟨l', by simp only [step, bind, Except.bind, e], hh, ?_⟩
      rw [filter_mid (List.nodup_cons.1 h.nodup).2]
      exact hr
    · cases hs
  | remove eq =>
    simp only [spec, Option.some.injEq, Prod.mk.injEq] at hs
    obtain ⟨rfl, rfl⟩ := hs
    obtain ⟨l', e, hh, hr⟩ := removeLoop_spec (eq := eq) s [] fuel h hf
    refine ⟨l', ?_, hh, hr⟩
    simp only [step, bind, Except.bind, remove]
    rw [getNext_ok h.head_live]
    simp only [h.next_head, e]
  | clear =>
    simp only [spec, Option.some.injEq, Prod.mk.injEq] at hs
    obtain ⟨rfl, rfl⟩ := hs
    obtain ⟨l', e, hh, hr⟩ := clear_spec h hf
    exact ⟨l', by simp only [step, bind, Except.bind, e], hh, hr⟩
  | find eq =>
    simp only [spec, Option.some.injEq, Prod.mk.injEq] at hs
    obtain ⟨rfl, rfl⟩ := hs
    have e := findLoop_spec (eq := eq) s [] fuel h hf
    refine ⟨l, ?_, rfl, h⟩
    simp only [step, bind, Except.bind, find]
    rw [getNext_ok h.head_live]
    simp only [h.next_head, e]
  | size =>
    simp only [spec, Option.some.injEq, Prod.mk.injEq] at hs
    obtain ⟨rfl, rfl⟩ := hs
    exact ⟨l, by simp only [step, h.size], rfl, h⟩
  | empty =>
    simp only [spec, Option.some.injEq, Prod.mk.injEq] at hs
    obtain ⟨rfl, rfl⟩ := hs
    refine ⟨l, ?_, rfl, h⟩
    simp only [step, h.size]
    cases s <;> rfl
  | front =>
    obtain ⟨p, hp, e⟩ := Option.map_eq_some_iff.1 hs
    simp only [Prod.mk.injEq] at e
    obtain ⟨rfl, rfl⟩ := e
    cases s with
    | nil => simp at hp
    | cons b s =>
      simp only [List.head?_cons, Option.some.injEq] at hp; subst hp
      refine ⟨l, ?_, rfl, h⟩
      simp only [step, bind, Except.bind, front]
      rw [getNext_ok h.head_live]
      simp only [h.next_head, nxt]
      rw [h.get_ok (by simp)]
  | back =>
    obtain ⟨p, hp, e⟩ := Option.map_eq_some_iff.1 hs
    simp only [Prod.mk.injEq] at e
    obtain ⟨rfl, rfl⟩ := e
    obtain ⟨A, rfl⟩ : ∃ A, s = A ++ [p] := by
      have hne : s ≠ [] := by rintro rfl; simp at hp
      refine ⟨s.dropLast, ?_⟩
      rw [List.getLast?_eq_some_getLast hne] at hp
      simp only [Option.some.injEq] at hp
      rw [← hp]; exact (List.dropLast_concat_getLast hne).symm
    obtain ⟨q, w, h1, h2, h3, h4, _⟩ := Rep.links (A := A ++ [p]) (B := []) (by simpa using h)
    rw [List.map_append, List.map_cons, List.map_nil, ← List.cons_append, List.getLast?_concat] at h1
    simp only [Option.some.injEq, List.map_nil, List.nil_append, List.head?_cons] at h1 h2
    refine ⟨l, ?_, rfl, h⟩
    simp only [step, bind, Except.bind, back]
    rw [getPrev_ok h.head_live, h2, h4, ← h1]
    simp only [h.get_ok (p := p) (by simp)]
  | begin =>
    obtain ⟨n, hn, e⟩ := Option.map_eq_some_iff.1 hs
    simp only [Prod.mk.injEq] at e
    obtain ⟨rfl, rfl⟩ := e
    refine ⟨l, ?_, rfl, h⟩
    simp only [step, bind, Except.bind]
    rw [getNext_ok (h.after hn).1]
    simp only [(h.after hn).2]
  | «end» =>
    simp only [spec, Option.some.injEq, Prod.mk.injEq] at hs
    obtain ⟨rfl, rfl⟩ := hs
    exact ⟨l, rfl, rfl, h⟩
  | rd w =>
    obtain ⟨p, hp, e⟩ := Option.map_eq_some_iff.1 hs
    simp only [Prod.mk.injEq] at e
    obtain ⟨rfl, rfl⟩ := e
    have hw := List.find?_some hp
    simp only [beq_iff_eq] at hw; subst hw
    refine ⟨l, ?_, rfl, h⟩
    simp only [step, bind, Except.bind]
    rw [h.get_ok (List.mem_of_find?_eq_some hp)]
  | inc w =>
    obtain ⟨n, hn, e⟩ := Option.map_eq_some_iff.1 hs
    simp only [Prod.mk.injEq] at e
    obtain ⟨rfl, rfl⟩ := e
    refine ⟨l, ?_, rfl, h⟩
    simp only [step, bind, Except.bind]
    rw [getNext_ok (h.after hn).1]
    simp only [(h.after hn).2]
  | dec w =>
    obtain ⟨n, hn, e⟩ := Option.map_eq_some_iff.1 hs
    simp only [Prod.mk.injEq] at e
    obtain ⟨rfl, rfl⟩ := e
    refine ⟨l, ?_, rfl, h⟩
    simp only [step, bind, Except.bind]
    rw [getPrev_ok (h.after_rev hn).1]
    simp only [(h.after_rev hn).2]

theorem insSorted_length {lt : T → T → Bool} {n : Nat × T} {s : List (Nat × T)} : (insSorted lt n s).length = s.length + 1 := by
  induction s with
  | nil => rfl
  | cons b s ih => unfold insSorted; split <;> simp [ih]

theorem insBefore_length {w : Nat} {n : Nat × T} {s : List (Nat × T)} : (insBefore w n s).length = s.length + 1 := by
  induction s with
  | nil => rfl
  | cons b s ih => unfold insBefore; split <;> simp [ih]

theorem spec_length {h : Nat} {s s' : List (Nat × T)} {op : Op T} {out : Out T} (hs : spec h s op = some (s', out)) : s'.length ≤ s.length + 1 := by
  cases op <;> simp only [spec] at hs
  case pushBack => split at hs <;> simp only [Option.some.injEq, Prod.mk.injEq, reduceCtorEq] at hs; obtain ⟨rfl, rfl⟩ := hs; simp
  case pushFront => split at hs <;> simp only [Option.some.injEq, Prod.mk.injEq, reduceCtorEq] at hs; obtain ⟨rfl, rfl⟩ := hs; simp
  case pushSorted => split at hs <;> simp only [Option.some.injEq, Prod.mk.injEq, reduceCtorEq] at hs; obtain ⟨rfl, rfl⟩ := hs; simp [insSorted_length]
  case insert => split at hs <;> simp only [Option.some.injEq, Prod.mk.injEq, reduceCtorEq] at hs; obtain ⟨rfl, rfl⟩ := hs; simp [insBefore_length]
  case erase =>
    split at hs
    · obtain ⟨n, _, e⟩ := Option.map_eq_some_iff.1 hs
      simp only [Prod.mk.injEq] at e; obtain ⟨rfl, rfl⟩ := e
      exact Nat.le_succ_of_le (List.length_filter_le _ _)
    · cases hs
  case remove => simp only [Option.some.injEq, Prod.mk.injEq] at hs; obtain ⟨rfl, rfl⟩ := hs; exact Nat.le_succ_of_le (List.length_eraseP_le)
  all_goals first
    | (simp only [Option.some.injEq, Prod.mk.injEq] at hs; obtain ⟨rfl, rfl⟩ := hs; simp)
    | (obtain ⟨n, _, e⟩ := Option.map_eq_some_iff.1 hs
       simp only [Prod.mk.injEq] at e; obtain ⟨rfl, rfl⟩ := e; simp)

/-- C21: every sequence of allowed calls on a list returns what the same operations on a sequence return (so all loops end,
within as many rounds as there can be elements), touches only nodes of the list, and the list represents the final sequence.  Addresses
of deleted nodes may be handed out again. -/
theorem list_refines {l : L T} {s s' : List (Nat × T)} {ops : List (Op T)} {outs : List (Out T)} {fuel : Nat} (h : Rep l s)
    (hf : s.length + ops.length < fuel) (hs : specRun l.head s ops = some (s', outs)) : ∃ l', run fuel l ops = .ok (l', outs) ∧ Rep l' s' := by
  induction ops generalizing l s outs with
  | nil =>
    simp only [specRun, Option.some.injEq, Prod.mk.injEq] at hs
    obtain ⟨rfl, rfl⟩ := hs
    exact ⟨l, rfl, h⟩
  | cons o os ih =>
    simp only [specRun] at hs
    split at hs
    · cases hs
    · next s1 out e =>
      obtain ⟨⟨s2, outs2⟩, e2, e3⟩ := Option.map_eq_some_iff.1 hs
      simp only [Prod.mk.injEq] at e3
      obtain ⟨rfl, rfl⟩ := e3
      simp only [List.length_cons] at hf
      have hlen := spec_length e
      obtain ⟨l1, e4, hh, hr⟩ := list_step (fuel := fuel) h (by omega) e
      obtain ⟨l2, e5, hr2⟩ := ih hr (by omega) (by rw [hh]; exact e2)
      exact ⟨l2, by simp only [run, bind, Except.bind, e4, e5], hr2⟩

/-- Two elements, the first erased through its iterator, its memory used again at the front. -/
example : specRun 1 ([] : List (Nat × Nat)) [.pushBack 10 5, .pushBack 20 6, .erase 10, .pushFront 10 7, .dec 20, .back] =
    some ([(10, 7), (20, 6)], [.unit, .unit, .it 20, .unit, .it 10, .val 6]) := by rfl

/-- C21: an element keeps its node (so iterators to it stay valid), and its value, until it is erased itself. -/
theorem list_iterators_stay {h : Nat} {s s' : List (Nat × T)} {op : Op T} {out : Out T} (hs : spec h s op = some (s', out)) {p : Nat × T} (hp : p ∈ s) :
    p ∈ s' ∨ op = .erase p.1 ∨ (∃ eq, op = .remove eq ∧ eq p.2 = true) ∨ op = .clear := by
  cases op <;> simp only [spec] at hs
  case pushBack => split at hs <;> simp only [Option.some.injEq, Prod.mk.injEq, reduceCtorEq] at hs; obtain ⟨rfl, rfl⟩ := hs; simp [hp]
  case pushFront => split at hs <;> simp only [Option.some.injEq, Prod.mk.injEq, reduceCtorEq] at hs; obtain ⟨rfl, rfl⟩ := hs; simp [hp]
  case pushSorted lt a x =>
    split at hs <;> simp only [Option.some.injEq, Prod.mk.injEq, reduceCtorEq] at hs
    obtain ⟨rfl, rfl⟩ := hs
    left
    have : ∀ s : List (Nat × T), p ∈ s → p ∈ insSorted lt (a, x) s := by
      intro s hp
      induction s with
      | nil => cases hp
      | cons b s ih =>
        unfold insSorted; split
        · exact List.mem_cons_of_mem _ hp
        · rcases List.mem_cons.1 hp with rfl | h
          · simp
          · exact List.mem_cons_of_mem _ (ih h)
    exact this s hp
  case insert w a x =>
    split at hs <;> simp only [Option.some.injEq, Prod.mk.injEq, reduceCtorEq] at hs
    obtain ⟨rfl, rfl⟩ := hs
    left
    have : ∀ s : List (Nat × T), p ∈ s → p ∈ insBefore w (a, x) s := by
      intro s hp
      induction s with
      | nil => cases hp
      | cons b s ih =>
        unfold insBefore; split
        · exact List.mem_cons_of_mem _ hp
        · rcases List.mem_cons.1 hp with rfl | h
          · simp
          · exact List.mem_cons_of_mem _ (ih h)
    exact this s hp
  case erase w =>
    split at hs
    · obtain ⟨n, _, e⟩ := Option.map_eq_some_iff.1 hs
      simp only [Prod.mk.injEq] at e; obtain ⟨rfl, rfl⟩ := e
      by_cases e : p.1 = w
      · subst e; exact .inr (.inl rfl)
      · exact .inl (List.mem_filter.2 ⟨hp, by simp [e]⟩)
    · cases hs
  case remove eq =>
    simp only [Option.some.injEq, Prod.mk.injEq] at hs; obtain ⟨rfl, rfl⟩ := hs
    cases he : eq p.2 with
    | true => exact .inr (.inr (.inl ⟨eq, rfl, he⟩))
    | false => exact .inl ((List.mem_eraseP_of_neg (by simp [he])).2 hp)
  case clear => exact .inr (.inr (.inr rfl))
  all_goals first
    | (simp only [Option.some.injEq, Prod.mk.injEq] at hs; obtain ⟨rfl, rfl⟩ := hs; exact .inl hp)
    | (obtain ⟨n, _, e⟩ := Option.map_eq_some_iff.1 hs
       simp only [Prod.mk.injEq] at e; obtain ⟨rfl, rfl⟩ := e; exact .inl hp)

example : spec 1 [(10, 5), (20, 6)] (.erase 10) = some ([(20, 6)], .it 20) := by rfl

/-- `f` applied `n` times. -/
def iter (f : Nat → Nat) : Nat → Nat → Nat
  | 0, a => a
  | n + 1, a => iter f n (f a)

theorem iter_linked {nx pv : Nat → Nat} {l : List Nat} (h : Linked nx pv l) (i : Nat) (hi : i < l.length) : iter nx i (l.headD 0) = l[i] := by
  induction l generalizing i with
  | nil => simp at hi
  | cons a l ih =>
    cases i with
    | zero => rfl
    | succ i =>
      cases l with
      | nil => simp at hi
      | cons b t =>
        have := ih h.2 i (by simpa using hi)
        simp only [List.headD_cons] at this ⊢
        rw [iter, h.1.1, this]; rfl

theorem linked_reverse {nx pv : Nat → Nat} {l : List Nat} (h : Linked nx pv l) : Linked pv nx l.reverse := by
  induction l with
  | nil => trivial
  | cons a l ih =>
    cases l with
    | nil => trivial
    | cons b t =>
      have h2 := ih h.2
      simp only [List.reverse_cons, List.append_assoc, List.cons_append, List.nil_append] at h2 ⊢
      rw [linked_split]
      exact ⟨h2, ⟨h.1.2, h.1.1⟩, trivial⟩

/-- C21: walking forward from `end()` meets the elements in order, and walking backward in the opposite order; both arrive at
`end()` after exactly `size()` elements. -/
theorem list_walks {l : L T} {s : List (Nat × T)} (h : Rep l s) (i : Nat) (hi : i < s.length) :
    iter l.next (i + 1) l.head = (s[i]).1 ∧ iter l.prev (i + 1) l.head = (s.reverse[i]'(by simpa using hi)).1 ∧
    iter l.next (s.length + 1) l.head = l.head ∧ iter l.prev (s.length + 1) l.head = l.head := by
  have f := fun k hk => iter_linked h.linked k hk
  have b := fun k hk => iter_linked (linked_reverse h.linked) k hk
  have e : (l.head :: s.map Prod.fst ++ [l.head]).reverse = l.head :: s.reverse.map Prod.fst ++ [l.head] := by simp
  simp only [e] at b
  refine ⟨?_, ?_, ?_, ?_⟩
  · have := f (i + 1) (by simp; omega)
    simp only [List.cons_append, List.headD_cons] at this
    rw [this]; simp [List.getElem_append_left, hi]
  · have := b (i + 1) (by simp; omega)
    simp only [List.cons_append, List.headD_cons] at this
    rw [this]; simp [List.getElem_append_left, hi]
  · have := f (s.length + 1) (by simp)
    simp only [List.cons_append, List.headD_cons] at this
    rw [this]; simp [List.getElem_append_right]
  · have := b (s.length + 1) (by simp)
    simp only [List.cons_append, List.headD_cons] at this
    rw [this]; simp [List.getElem_append_right]

/-- A list with two elements exists. -/
example : ∃ l : L Nat, Rep l [(10, 5), (20, 6)] := by
  obtain ⟨l, _, h⟩ := list_refines (fuel := 5) (init_rep 1 (fun _ => 3) (fun _ => 4) (fun _ => some 1)) (by decide)
    (ops := [.pushBack 10 5, .pushBack 20 6]) (s' := [(10, 5), (20, 6)]) (outs := [.unit, .unit]) rfl
  exact ⟨l, h⟩

/-- The destructor frees every node once, and the sentinel. -/
theorem list_destroy {l : L T} {s : List (Nat × T)} (h : Rep l s) {fuel : Nat} (hf : s.length < fuel) :
    ∃ l', destroy fuel l = .ok l' ∧ ∀ a, l'.live a = false := by
  obtain ⟨l', e, hh, hr⟩ := clear_spec h hf
  unfold destroy
  simp only [bind, Except.bind, e]
  rw [del_ok hr.head_live]
  refine ⟨_, rfl, ?_⟩
  intro a
  simp only [upd]
  split
  · rfl
  · next ha =>
    cases hl : l'.live a with
    | false => rfl
    | true => have := (hr.live a).1 hl; simp at this; exact absurd this ha

example : Rep (init 7 (fun _ => 3) (fun _ => 4) (fun _ => some 1) : L Nat) [] ∧ ([] : List (Nat × Nat)).length < 1 := ⟨init_rep .., by decide⟩

end Verif.Cont

#print axioms Verif.Cont.init_rep
#print axioms Verif.Cont.list_step
#print axioms Verif.Cont.list_refines
#print axioms Verif.Cont.list_iterators_stay
#print axioms Verif.Cont.list_walks
#print axioms Verif.Cont.list_destroy
