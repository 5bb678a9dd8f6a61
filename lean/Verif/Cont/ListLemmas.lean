import Verif.Cont.List
/-
Lemmas for the linked list: rings, and what the operations do to them.
-/
namespace Verif.Cont

variable {T : Type}

/-- Consecutive addresses are linked both ways. -/
def Linked (nx pv : Nat → Nat) : List Nat → Prop
  | [] => True
  | [_] => True
  | a :: b :: t => (nx a = b ∧ pv b = a) ∧ Linked nx pv (b :: t)

theorem linked_split {nx pv : Nat → Nat} {A B : List Nat} {p w : Nat} :
    Linked nx pv (A ++ p :: w :: B) ↔ Linked nx pv (A ++ [p]) ∧ (nx p = w ∧ pv w = p) ∧ Linked nx pv (w :: B) := by
  induction A with
  | nil => simp [Linked]
  | cons a A ih =>
    cases A with
    | nil => simp [Linked, and_assoc]
    | cons a' A =>
      simp only [List.cons_append, Linked] at ih ⊢
      rw [ih]; exact ⟨fun ⟨h1, h2, h3⟩ => ⟨⟨h1, h2⟩, h3⟩, fun ⟨⟨h1, h2⟩, h3⟩ => ⟨h1, h2, h3⟩⟩

theorem linked_frame {nx pv nx' pv' : Nat → Nat} {l : List Nat} (h1 : ∀ a ∈ l.dropLast, nx' a = nx a) (h2 : ∀ b ∈ l.tail, pv' b = pv b)
    (h : Linked nx pv l) : Linked nx' pv' l := by
  induction l with
  | nil => trivial
  | cons a l ih =>
    cases l with
    | nil => trivial
    | cons b t =>
      refine ⟨⟨?_, ?_⟩, ih ?_ ?_ h.2⟩
      · rw [h1 a (by simp)]; exact h.1.1
      · rw [h2 b (by simp)]; exact h.1.2
      · intro x hx; exact h1 x (by simp [List.dropLast, hx])
      · intro x hx; exact h2 x (by simp at hx ⊢; exact .inr hx)

theorem upd_self {β : Type} (f : Nat → β) (a : Nat) (v : β) : upd f a v a = v := by simp [upd]
theorem upd_ne {β : Type} {f : Nat → β} {a x : Nat} {v : β} (h : x ≠ a) : upd f a v x = f x := by simp [upd, h]

/-- Inserting `a` between `p` and `w`. -/
theorem linked_insert {nx pv : Nat → Nat} {A B : List Nat} {p w a : Nat} (h : Linked nx pv (A ++ p :: w :: B)) (hd : (A ++ p :: w :: B).dropLast.Nodup)
    (ht : (A ++ p :: w :: B).tail.Nodup) (ha : a ∉ A ++ p :: w :: B) :
    Linked (upd (upd nx p a) a w) (upd (upd pv a p) w a) (A ++ p :: a :: w :: B) := by
  rw [linked_split] at h
  have hp : p ≠ a := by rintro rfl; simp at ha
  have hw : w ≠ a := by rintro rfl; simp at ha
  have hA : ∀ x ∈ A, x ≠ p := by
    intro x hx e; subst e
    rw [List.dropLast_append_of_ne_nil (by simp), List.nodup_append] at hd
    exact hd.2.2 x hx x (by simp [List.dropLast]) rfl
  have hB : ∀ x ∈ B, x ≠ w := by
    intro x hx e; subst e
    cases A with
    | nil => simp at ht; exact ht.1 hx
    | cons _ A => simp [List.nodup_append] at ht; exact ht.2.1.2.1 hx
  have hAa : ∀ x ∈ A, x ≠ a := by rintro x hx rfl; simp [hx] at ha
  have hBa : ∀ x ∈ B, x ≠ a := by rintro x hx rfl; simp [hx] at ha
  rw [linked_split]
  refine ⟨linked_frame ?_ ?_ h.1, ⟨?_, ?_⟩, ?_⟩
  · intro x hx
    rw [List.dropLast_concat] at hx
    rw [upd_ne (hAa x hx), upd_ne (hA x hx)]
  · intro x hx
    have hxw : x ≠ w := by
      rintro rfl
      cases A with
      | nil => simp at hx
      | cons _ A =>
        simp only [List.cons_append, List.tail_cons] at hx ht
        rw [show A ++ p :: x :: B = (A ++ [p]) ++ x :: B by simp, List.nodup_append] at ht
        exact ht.2.2 x hx x (by simp) rfl
    have hxa : x ≠ a := by
      rintro rfl
      have := List.mem_of_mem_tail hx
      apply ha; simp at this ⊢; rcases this with h | h <;> simp [h]
    rw [upd_ne hxw, upd_ne hxa]
  · rw [upd_ne hp, upd_self]
  · rw [upd_ne (Ne.symm hw), upd_self]
  · refine ⟨⟨upd_self _ _ _, upd_self _ _ _⟩, linked_frame ?_ ?_ h.2.2⟩
    · intro x hx
      have hxp : x ≠ p := by
        rintro rfl
        rw [List.dropLast_append_of_ne_nil (by simp), List.nodup_append] at hd
        have := hd.2.1
        simp only [List.dropLast_cons_of_ne_nil (List.cons_ne_nil _ _), List.nodup_cons] at this
        exact this.1 hx
      have hxa : x ≠ a := by
        rintro rfl
        have := List.dropLast_subset _ hx
        apply ha; simp at this ⊢; rcases this with h | h <;> simp [h]
      rw [upd_ne hxa, upd_ne hxp]
    · intro x hx
      rw [List.tail_cons] at hx
      rw [upd_ne (hB x hx), upd_ne (hBa x hx)]

/-- Unlinking `w` from between `p` and `q`. -/
theorem linked_erase {nx pv : Nat → Nat} {A B : List Nat} {p w q : Nat} (h : Linked nx pv (A ++ p :: w :: q :: B))
    (hd : (A ++ p :: w :: q :: B).dropLast.Nodup) (ht : (A ++ p :: w :: q :: B).tail.Nodup) :
    Linked (upd nx p q) (upd pv q p) (A ++ p :: q :: B) := by
  rw [linked_split] at h
  rw [linked_split]
  have hd' : (A ++ [p, w] ++ (q :: B).dropLast).Nodup := by
    rw [show A ++ p :: w :: q :: B = A ++ [p, w] ++ q :: B by simp, List.dropLast_append_of_ne_nil (by simp)] at hd
    exact hd
  refine ⟨linked_frame ?_ ?_ h.1, ⟨upd_self _ _ _, upd_self _ _ _⟩, linked_frame ?_ ?_ h.2.2.2⟩
  · intro x hx
    rw [List.dropLast_concat] at hx
    refine upd_ne ?_
    rintro rfl
    rw [List.append_assoc, List.nodup_append] at hd'
    exact hd'.2.2 x hx x (by simp) rfl
  · intro x hx
    refine upd_ne ?_
    rintro rfl
    cases A with
    | nil => simp at hx
    | cons _ A =>
      simp only [List.cons_append, List.tail_cons] at hx ht
      rw [show A ++ p :: w :: x :: B = (A ++ [p]) ++ w :: x :: B by simp, List.nodup_append] at ht
      exact ht.2.2 x hx x (by simp) rfl
  · intro x hx
    refine upd_ne ?_
    rintro rfl
    rw [List.nodup_append] at hd'
    exact hd'.2.2 x (by simp) x hx rfl
  · intro x hx
    rw [List.tail_cons] at hx
    refine upd_ne ?_
    rintro rfl
    have : (x :: B).Nodup := by
      cases A with
      | nil => simp only [List.nil_append, List.tail_cons] at ht; exact (List.nodup_cons.1 ht).2
      | cons _ A =>
        simp only [List.cons_append, List.tail_cons] at ht
        exact (List.nodup_cons.1 (List.nodup_cons.1 (List.nodup_append.1 ht).2.1).2).2
    exact (List.nodup_cons.1 this).1 hx

/-- The list `l` holds the values of `s`, in the nodes at the addresses of `s`: the ring
`head, addresses, head` is linked both ways and the allocated nodes are exactly these. -/
structure Rep (l : L T) (s : List (Nat × T)) : Prop where
  nodup : (l.head :: s.map Prod.fst).Nodup
  linked : Linked l.next l.prev (l.head :: s.map Prod.fst ++ [l.head])
  live : ∀ a, l.live a = true ↔ a ∈ l.head :: s.map Prod.fst
  obj : ∀ p ∈ s, l.obj p.1 = some p.2
  hobj : l.obj l.head = none
  size : l.size = s.length

theorem Rep.tail_nodup {l : L T} {s : List (Nat × T)} (h : Rep l s) : (s.map Prod.fst ++ [l.head]).Nodup := by
  have := h.nodup
  rw [List.nodup_append]
  rw [List.nodup_cons] at this
  refine ⟨this.2, by simp, ?_⟩
  rintro a ha b hb rfl
  simp at hb; subst hb; exact this.1 ha

/-- The neighbours of a gap `A | B` of the ring. -/
theorem ring_gap (l : L T) (A B : List (Nat × T)) :
    ∃ C p w D, l.head :: (A ++ B).map Prod.fst ++ [l.head] = C ++ p :: w :: D ∧ C ++ [p] = l.head :: A.map Prod.fst ∧ w :: D = B.map Prod.fst ++ [l.head] := by
  have hc : l.head :: A.map Prod.fst ≠ [] := by simp
  have hd : B.map Prod.fst ++ [l.head] ≠ [] := by simp
  obtain ⟨w, D, hwD⟩ := List.exists_cons_of_ne_nil hd
  refine ⟨(l.head :: A.map Prod.fst).dropLast, (l.head :: A.map Prod.fst).getLast hc, w, D, ?_, ?_, hwD.symm⟩
  · have := List.dropLast_concat_getLast hc
    generalize (l.head :: A.map Prod.fst).getLast hc = y at this ⊢
    generalize (l.head :: A.map Prod.fst).dropLast = X at this ⊢
    rw [show X ++ y :: w :: D = (X ++ [y]) ++ w :: D by simp, this, ← hwD]
    simp
  · exact List.dropLast_concat_getLast hc

theorem chk_ok {l : L T} {a : Nat} (h : l.live a = true) : l.chk a = .ok () := by simp [L.chk, h]
theorem getNext_ok {l : L T} {a : Nat} (h : l.live a = true) : l.getNext a = .ok (l.next a) := by simp [L.getNext, chk_ok h, bind, Except.bind]
theorem getPrev_ok {l : L T} {a : Nat} (h : l.live a = true) : l.getPrev a = .ok (l.prev a) := by simp [L.getPrev, chk_ok h, bind, Except.bind]
theorem setNext_ok {l : L T} {a v : Nat} (h : l.live a = true) : l.setNext a v = .ok { l with next := upd l.next a v } := by simp [L.setNext, chk_ok h, bind, Except.bind]
theorem setPrev_ok {l : L T} {a v : Nat} (h : l.live a = true) : l.setPrev a v = .ok { l with prev := upd l.prev a v } := by simp [L.setPrev, chk_ok h, bind, Except.bind]
theorem del_ok {l : L T} {a : Nat} (h : l.live a = true) : l.del a = .ok { l with live := upd l.live a false } := by simp [L.del, chk_ok h, bind, Except.bind]

theorem upd_comm {β : Type} {f : Nat → β} {a b : Nat} {v w : β} (h : a ≠ b) : upd (upd f a v) b w = upd (upd f b w) a v := by
  funext x; unfold upd; split <;> split <;> simp_all

/-- Inserting before the node (or sentinel) that follows `A`. -/
theorem insert_spec {l : L T} {A B : List (Nat × T)} (h : Rep l (A ++ B)) {w a : Nat} {x : T} (hw : (B.map Prod.fst ++ [l.head]).head? = some w) (ha : l.live a = false) :
    ∃ l', insert l w a x = .ok (l', a) ∧ l'.head = l.head ∧ Rep l' (A ++ (a, x) :: B) := by
  obtain ⟨C, p, w', D, e1, e2, e3⟩ := ring_gap l A B
  rw [← e3] at hw; simp at hw; subst hw
  have hl := h.linked
  rw [e1] at hl
  have hpw := (linked_split.1 hl).2.1
  have hna : a ∉ l.head :: (A ++ B).map Prod.fst := fun hm => by rw [← h.live a] at hm; simp [ha] at hm
  have hna' : a ∉ C ++ p :: w' :: D := by
    rw [← e1]; intro hm
    rcases List.mem_append.1 hm with h | h
    · exact hna h
    · simp at h; subst h; simp at hna
  have hwl : l.live w' = true := by
    rw [h.live]
    have : w' ∈ B.map Prod.fst ++ [l.head] := by rw [← e3]; simp
    simp at this ⊢
    rcases this with ⟨q, hq⟩ | h
    · exact .inr (.inr ⟨q, hq⟩)
    · exact .inl h
  have hpl : l.live p = true := by
    rw [h.live]
    have : p ∈ l.head :: A.map Prod.fst := by rw [← e2]; simp
    simp at this ⊢
    rcases this with h | ⟨q, hq⟩
    · exact .inl h
    · exact .inr (.inl ⟨q, hq⟩)
  have hwa : w' ≠ a := by rintro rfl; rw [ha] at hwl; cases hwl
  have hpa : p ≠ a := by rintro rfl; rw [ha] at hpl; cases hpl
  have hha : l.head ≠ a := by rintro e; subst e; simp at hna
  have hL : ∀ b, l.live b = true → (upd l.live a true) b = true := by intro b hb; unfold upd; split <;> simp [hb]
  have hpv : l.prev w' = p := hpw.2
  refine ⟨{ l with next := upd (upd l.next p a) a w', prev := upd (upd l.prev a p) w' a, obj := upd l.obj a (some x), live := upd l.live a true, size := l.size + 1 },
    ?_, rfl, ?_⟩
  · unfold insert L.new
    simp only [bind, Except.bind]
    rw [getPrev_ok (hL _ hwl)]
    dsimp only
    rw [hpv, setNext_ok (hL _ hpl)]
    dsimp only
    rw [getPrev_ok (hL _ hwl)]
    dsimp only
    rw [hpv, setPrev_ok (upd_self _ _ _)]
    dsimp only
    rw [setPrev_ok (hL _ hwl)]
    dsimp only
    rw [setNext_ok (upd_self _ _ _)]
  have hdl : (C ++ p :: w' :: D).dropLast.Nodup := by
    rw [← e1, List.dropLast_concat]; exact h.nodup
  have htl : (C ++ p :: w' :: D).tail.Nodup := by
    rw [← e1]; exact h.tail_nodup
  have hring : l.head :: (A ++ (a, x) :: B).map Prod.fst ++ [l.head] = C ++ p :: a :: w' :: D := by
    rw [show C ++ p :: a :: w' :: D = (C ++ [p]) ++ a :: w' :: D by simp, e2, e3]; simp
  constructor
  · have := h.nodup
    have hperm : (l.head :: (A ++ (a, x) :: B).map Prod.fst).Perm (a :: l.head :: (A ++ B).map Prod.fst) := by
      simp only [List.map_append, List.map_cons]
      refine (List.Perm.cons _ List.perm_middle).trans ?_
      exact List.Perm.swap _ _ _
    exact hperm.nodup_iff.2 (List.nodup_cons.2 ⟨hna, this⟩)
  · have := linked_insert hl hdl htl hna'
    simp only
    rw [hring]
    exact this
  · intro b
    simp only [upd]
    split
    · next e => subst e; simp
    · next e =>
      rw [h.live b]
      simp [e]
  · intro q hq
    simp only [upd]
    split
    · next e =>
      rcases List.mem_append.1 hq with hq | hq
      · exact absurd (by rw [← e]; exact List.mem_cons_of_mem _ (List.mem_map.2 ⟨q, List.mem_append_left _ hq, rfl⟩)) hna
      · rcases List.mem_cons.1 hq with rfl | hq
        · rfl
        · exact absurd (by rw [← e]; exact List.mem_cons_of_mem _ (List.mem_map.2 ⟨q, List.mem_append_right _ hq, rfl⟩)) hna
    · next e =>
      apply h.obj
      rcases List.mem_append.1 hq with hq | hq
      · exact List.mem_append_left _ hq
      · rcases List.mem_cons.1 hq with rfl | hq
        · simp at e
        · exact List.mem_append_right _ hq
  · simp only
    rw [upd_ne hha]; exact h.hobj
  · simp [h.size]; omega

/-- `push_back` does what inserting before the sentinel does. -/
theorem pushBack_eq {l : L T} {a : Nat} {x : T} (hh : l.live l.head = true) (hp : l.live (l.prev l.head) = true) (hha : l.head ≠ a) (hpa : l.prev l.head ≠ a) :
    pushBack l a x = (insert l l.head a x).map Prod.fst := by
  have hL : ∀ b, l.live b = true → (upd l.live a true) b = true := by intro b hb; unfold upd; split <;> simp [hb]
  unfold pushBack insert L.new
  simp only [bind, Except.bind]
  rw [getPrev_ok (hL _ hh)]
  dsimp only
  rw [setPrev_ok (upd_self _ _ _), setNext_ok (hL _ hp)]
  dsimp only
  rw [setNext_ok (upd_self _ _ _), getPrev_ok (hL _ hh)]
  dsimp only
  rw [getPrev_ok (hL _ hh)]
  dsimp only
  rw [upd_ne hha, setNext_ok (hL _ hp), setPrev_ok (upd_self _ _ _)]
  dsimp only
  rw [setPrev_ok (hL _ hh), setPrev_ok (hL _ hh)]
  dsimp only
  rw [setNext_ok (upd_self _ _ _)]
  simp only [Except.map]
  rw [upd_comm (f := l.next) (Ne.symm hpa)]

theorem Rep.head_live {l : L T} {s : List (Nat × T)} (h : Rep l s) : l.live l.head = true := (h.live _).2 (by simp)

/-- `prev` of what follows `A` is the last of `head :: A`; `next` of that is what follows. -/
theorem Rep.links {l : L T} {A B : List (Nat × T)} (h : Rep l (A ++ B)) :
    ∃ p w, (l.head :: A.map Prod.fst).getLast? = some p ∧ (B.map Prod.fst ++ [l.head]).head? = some w ∧ l.next p = w ∧ l.prev w = p ∧ l.live p = true ∧ l.live w = true := by
  obtain ⟨C, p, w, D, e1, e2, e3⟩ := ring_gap l A B
  have hl := h.linked
  rw [e1] at hl
  have hpw := (linked_split.1 hl).2.1
  refine ⟨p, w, by rw [← e2]; simp, by rw [← e3]; simp, hpw.1, hpw.2, ?_, ?_⟩
  · rw [h.live]
    have : p ∈ l.head :: A.map Prod.fst := by rw [← e2]; simp
    simp at this ⊢
    rcases this with h | ⟨q, hq⟩
    · exact .inl h
    · exact .inr (.inl ⟨q, hq⟩)
  · rw [h.live]
    have : w ∈ B.map Prod.fst ++ [l.head] := by rw [← e3]; simp
    simp at this ⊢
    rcases this with ⟨q, hq⟩ | h
    · exact .inr (.inr ⟨q, hq⟩)
    · exact .inl h

theorem pushBack_spec {l : L T} {s : List (Nat × T)} (h : Rep l s) {a : Nat} {x : T} (ha : l.live a = false) :
    ∃ l', pushBack l a x = .ok l' ∧ l'.head = l.head ∧ Rep l' (s ++ [(a, x)]) := by
  have h' : Rep l (s ++ []) := by simpa using h
  obtain ⟨p, w, h1, h2, h3, h4, h5, h6⟩ := h'.links
  simp at h2; subst h2
  obtain ⟨l', e, hh, hr⟩ := insert_spec h' (w := l.head) (a := a) (x := x) rfl ha
  refine ⟨l', ?_, hh, hr⟩
  have n1 : l.head ≠ a := by intro e; rw [← e, h6] at ha; cases ha
  have n2 : p ≠ a := by intro e; rw [← e, h5] at ha; cases ha
  rw [pushBack_eq h6 (by rw [h4]; exact h5) n1 (by rw [h4]; exact n2), e]
  rfl

theorem erase_spec {l : L T} {A B : List (Nat × T)} {w : Nat} {x : T} (h : Rep l (A ++ (w, x) :: B)) :
    ∃ l' n, erase l w = .ok (l', n) ∧ (B.map Prod.fst ++ [l.head]).head? = some n ∧ l'.head = l.head ∧ Rep l' (A ++ B) := by
  obtain ⟨C, p, w', D, e1, e2, e3⟩ := ring_gap l A ((w, x) :: B)
  simp at e3
  obtain ⟨rfl, hD⟩ := e3
  have hd : B.map Prod.fst ++ [l.head] ≠ [] := by simp
  obtain ⟨q, E, hqE⟩ := List.exists_cons_of_ne_nil hd
  rw [hD, hqE] at e1
  have hl := h.linked
  rw [e1] at hl
  have hpw := (linked_split.1 hl).2.1
  have hwq := (linked_split.1 hl).2.2.1
  have hdl : (C ++ p :: w' :: q :: E).dropLast.Nodup := by
    rw [← e1, List.dropLast_concat]; exact h.nodup
  have htl : (C ++ p :: w' :: q :: E).tail.Nodup := by
    rw [← e1]; exact h.tail_nodup
  have hwl : l.live w' = true := (h.live _).2 (by simp)
  have hpl : l.live p = true := by
    rw [h.live]
    have : p ∈ l.head :: A.map Prod.fst := by rw [← e2]; simp
    simp at this ⊢
    rcases this with h | ⟨q, hq⟩
    · exact .inl h
    · exact .inr (.inl ⟨q, hq⟩)
  have hql : l.live q = true := by
    rw [h.live]
    have : q ∈ B.map Prod.fst ++ [l.head] := by rw [hqE]; simp
    simp at this ⊢
    rcases this with ⟨q, hq⟩ | h
    · exact .inr (.inr (.inr ⟨q, hq⟩))
    · exact .inl h
  have hnd := h.nodup
  have hperm : (l.head :: (A ++ (w', x) :: B).map Prod.fst).Perm (w' :: l.head :: (A ++ B).map Prod.fst) := by
    simp only [List.map_append, List.map_cons]
    exact (List.Perm.cons _ List.perm_middle).trans (List.Perm.swap _ _ _)
  have hnd2 := List.nodup_cons.1 (hperm.nodup_iff.1 hnd)
  have hpw' : p ≠ w' := by
    rintro rfl
    apply hnd2.1
    have : p ∈ l.head :: A.map Prod.fst := by rw [← e2]; simp
    rw [List.map_append, ← List.cons_append]
    exact List.mem_append_left _ this
  have hqw' : q ≠ w' := by
    rintro rfl
    apply hnd2.1
    have : q ∈ B.map Prod.fst ++ [l.head] := by rw [hqE]; simp
    rw [List.map_append]
    rcases List.mem_append.1 this with h | h
    · exact List.mem_cons_of_mem _ (List.mem_append_right _ h)
    · simp at h; simp [h]
  refine ⟨{ l with next := upd l.next p q, prev := upd l.prev q p, live := upd l.live w' false, size := l.size - 1 }, q, ?_, by rw [hqE]; rfl, rfl, ?_⟩
  · unfold erase
    simp only [bind, Except.bind]
    rw [getNext_ok hwl]
    dsimp only
    rw [getPrev_ok hwl]
    dsimp only
    rw [hpw.2, hwq.1, setNext_ok hpl]
    dsimp only
    rw [getNext_ok (l := { l with next := upd l.next p q }) hwl]
    dsimp only
    rw [upd_ne (Ne.symm hpw'), hwq.1, getPrev_ok (l := { l with next := upd l.next p q }) hwl]
    dsimp only
    rw [hpw.2, setPrev_ok (l := { l with next := upd l.next p q }) hql]
    dsimp only
    rw [del_ok (l := { l with next := upd l.next p q, prev := upd l.prev q p }) hwl]
  constructor
  · exact hnd2.2
  · have := linked_erase hl hdl htl
    simp only
    rw [show l.head :: (A ++ B).map Prod.fst ++ [l.head] = C ++ p :: q :: E by
      rw [show C ++ p :: q :: E = (C ++ [p]) ++ q :: E by simp, e2, ← hqE]; simp]
    exact this
  · intro b
    simp only [upd]
    split
    · next e => subst e; exact ⟨fun h => (nomatch h), fun h => absurd h hnd2.1⟩
    · next e => rw [h.live b]; simp [e]
  · intro r hr
    apply h.obj
    rcases List.mem_append.1 hr with h | h
    · exact List.mem_append_left _ h
    · exact List.mem_append_right _ (List.mem_cons_of_mem _ h)
  · exact h.hobj
  · simp [h.size]

/-- What follows `A` in the ring. -/
def nxt (l : L T) (B : List (Nat × T)) : Nat := match B with
  | [] => l.head
  | b :: _ => b.1

theorem nxt_head? (l : L T) (B : List (Nat × T)) : (B.map Prod.fst ++ [l.head]).head? = some (nxt l B) := by cases B <;> rfl

theorem Rep.next_head {l : L T} {s : List (Nat × T)} (h : Rep l s) : l.next l.head = nxt l s := by
  obtain ⟨p, w, h1, h2, h3, _⟩ := Rep.links (A := []) (by simpa using h)
  rw [nxt_head?] at h2
  simp at h1 h2; subst h1; rw [h3, h2]

theorem Rep.next_mem {l : L T} {A B : List (Nat × T)} {b : Nat × T} (h : Rep l (A ++ b :: B)) : l.next b.1 = nxt l B := by
  have h' : Rep l ((A ++ [b]) ++ B) := by simpa using h
  obtain ⟨p, w, h1, h2, h3, _⟩ := h'.links
  rw [nxt_head?] at h2
  rw [List.map_append, List.map_cons, List.map_nil, ← List.cons_append, List.getLast?_concat] at h1
  simp only [Option.some.injEq] at h1 h2; subst h1; rw [h3, h2]

theorem Rep.ne_head {l : L T} {s : List (Nat × T)} (h : Rep l s) {p : Nat × T} (hp : p ∈ s) : p.1 ≠ l.head := by
  intro e
  have := (List.nodup_cons.1 h.nodup).1
  exact this (e ▸ List.mem_map.2 ⟨p, hp, rfl⟩)

theorem Rep.mem_live {l : L T} {s : List (Nat × T)} (h : Rep l s) {p : Nat × T} (hp : p ∈ s) : l.live p.1 = true :=
  (h.live _).2 (List.mem_cons_of_mem _ (List.mem_map.2 ⟨p, hp, rfl⟩))

theorem Rep.get_ok {l : L T} {s : List (Nat × T)} (h : Rep l s) {p : Nat × T} (hp : p ∈ s) : l.get p.1 = .ok p.2 := by
  unfold L.get
  simp only [bind, Except.bind]
  rw [chk_ok (h.mem_live hp)]
  simp only [h.obj p hp]

theorem findLoop_spec {l : L T} {eq : T → Bool} (B : List (Nat × T)) : ∀ (A : List (Nat × T)) (fuel : Nat), Rep l (A ++ B) → B.length < fuel →
    findLoop eq fuel l (nxt l B) = .ok (((B.find? (fun p => eq p.2)).map Prod.fst).getD l.head) := by
  induction B with
  | nil =>
    intro A fuel h hf
    obtain ⟨n, rfl⟩ : ∃ n, fuel = n + 1 := ⟨fuel - 1, by simp at hf; omega⟩
    simp [findLoop, nxt]
  | cons b B ih =>
    intro A fuel h hf
    obtain ⟨n, rfl⟩ : ∃ n, fuel = n + 1 := ⟨fuel - 1, by simp at hf; omega⟩
    have hb : b ∈ A ++ b :: B := by simp
    rw [show nxt l (b :: B) = b.1 from rfl, findLoop]
    rw [if_neg (h.ne_head hb), h.get_ok hb]
    simp only [bind, Except.bind, List.find?_cons]
    cases he : eq b.2 with
    | true => simp
    | false =>
      rw [getNext_ok (h.mem_live hb)]
      simp only [Bool.false_eq_true, if_false, h.next_mem]
      exact ih (A ++ [b]) n (by simpa using h) (by simp at hf; omega)

theorem removeLoop_spec {l : L T} {eq : T → Bool} (B : List (Nat × T)) : ∀ (A : List (Nat × T)) (fuel : Nat), Rep l (A ++ B) → B.length < fuel →
    ∃ l', removeLoop eq fuel l (nxt l B) = .ok l' ∧ l'.head = l.head ∧ Rep l' (A ++ B.eraseP (fun p => eq p.2)) := by
  induction B with
  | nil =>
    intro A fuel h hf
    obtain ⟨n, rfl⟩ : ∃ n, fuel = n + 1 := ⟨fuel - 1, by simp at hf; omega⟩
    exact ⟨l, by simp [removeLoop, nxt], rfl, by simpa using h⟩
  | cons b B ih =>
    intro A fuel h hf
    obtain ⟨n, rfl⟩ : ∃ n, fuel = n + 1 := ⟨fuel - 1, by simp at hf; omega⟩
    have hb : b ∈ A ++ b :: B := by simp
    rw [show nxt l (b :: B) = b.1 from rfl, removeLoop]
    rw [if_neg (h.ne_head hb), h.get_ok hb]
    simp only [bind, Except.bind, List.eraseP_cons]
    cases he : eq b.2 with
    | true =>
      obtain ⟨l', n', e, _, hh, hr⟩ := erase_spec (w := b.1) (x := b.2) h
      simp only [if_true]
      rw [e]
      exact ⟨l', rfl, hh, hr⟩
    | false =>
      rw [getNext_ok (h.mem_live hb)]
      simp only [Bool.false_eq_true, if_false, h.next_mem]
      obtain ⟨l', e, hh, hr⟩ := ih (A ++ [b]) n (by simpa using h) (by simp at hf; omega)
      exact ⟨l', e, hh, by simpa using hr⟩

/-- Spec: before the first element greater than the new one. -/
def insSorted (lt : T → T → Bool) (n : Nat × T) : List (Nat × T) → List (Nat × T)
  | [] => [n]
  | b :: B => if lt n.2 b.2 then n :: b :: B else b :: insSorted lt n B

theorem sortedLoop_spec {l : L T} {lt : T → T → Bool} {a : Nat} {x : T} (ha : l.live a = false) (B : List (Nat × T)) :
    ∀ (A : List (Nat × T)) (fuel : Nat), Rep l (A ++ B) → B.length < fuel →
    ∃ l', sortedLoop lt a x fuel l (nxt l B) = .ok l' ∧ l'.head = l.head ∧ Rep l' (A ++ insSorted lt (a, x) B) := by
  induction B with
  | nil =>
    intro A fuel h hf
    obtain ⟨n, rfl⟩ : ∃ n, fuel = n + 1 := ⟨fuel - 1, by simp at hf; omega⟩
    obtain ⟨l', e, hh, hr⟩ := pushBack_spec (by simpa using h) ha (x := x)
    exact ⟨l', by simp [sortedLoop, nxt, e], hh, hr⟩
  | cons b B ih =>
    intro A fuel h hf
    obtain ⟨n, rfl⟩ : ∃ n, fuel = n + 1 := ⟨fuel - 1, by simp at hf; omega⟩
    have hb : b ∈ A ++ b :: B := by simp
    rw [show nxt l (b :: B) = b.1 from rfl, sortedLoop]
    rw [if_neg (h.ne_head hb), h.get_ok hb]
    simp only [bind, Except.bind, insSorted]
    cases he : lt x b.2 with
    | true =>
      obtain ⟨l', e, hh, hr⟩ := insert_spec h (w := b.1) (a := a) (x := x) rfl ha
      simp only [if_true]
      rw [e]
      exact ⟨l', rfl, hh, hr⟩
    | false =>
      rw [getNext_ok (h.mem_live hb)]
      simp only [Bool.false_eq_true, if_false, h.next_mem]
      obtain ⟨l', e, hh, hr⟩ := ih (A ++ [b]) n (by simpa using h) (by simp at hf; omega)
      exact ⟨l', e, hh, by simpa using hr⟩

theorem clearLoop_spec (B : List Nat) : ∀ (l : L T) (pv : Nat → Nat) (fuel : Nat), (l.head :: B).Nodup → (∀ a, l.live a = true ↔ a ∈ l.head :: B) →
    Linked l.next pv (B ++ [l.head]) → B.length < fuel →
    ∃ lv, clearLoop fuel l ((B ++ [l.head]).headD l.head) = .ok { l with live := lv } ∧ ∀ a, lv a = true ↔ a = l.head := by
  induction B with
  | nil =>
    intro l pv fuel hn hl hk hf
    obtain ⟨n, rfl⟩ : ∃ n, fuel = n + 1 := ⟨fuel - 1, by simp at hf; omega⟩
    exact ⟨l.live, by simp [clearLoop], fun a => by simpa using hl a⟩
  | cons b B ih =>
    intro l pv fuel hn hl hk hf
    obtain ⟨n, rfl⟩ : ∃ n, fuel = n + 1 := ⟨fuel - 1, by simp at hf; omega⟩
    rw [show (b :: B ++ [l.head]).headD l.head = b from rfl, clearLoop]
    have hn2 := List.nodup_cons.1 hn
    have hn3 := List.nodup_cons.1 hn2.2
    have hbl : l.live b = true := (hl b).2 (by simp)
    have hbh : b ≠ l.head := by rintro e; exact hn2.1 (by simp [e])
    rw [if_neg hbh, getNext_ok hbl, del_ok hbl]
    simp only [bind, Except.bind]
    have hnx : l.next b = (B ++ [l.head]).headD l.head := by
      cases B with
      | nil => exact hk.1.1
      | cons c B => exact hk.1.1
    have hk2 : Linked l.next pv (B ++ [l.head]) := by
      cases B with
      | nil => trivial
      | cons c B => exact hk.2
    rw [hnx]
    obtain ⟨lv, e, hlv⟩ := ih { l with live := upd l.live b false } pv n (List.nodup_cons.2 ⟨fun h => hn2.1 (List.mem_cons_of_mem _ h), hn3.2⟩)
      (by
        intro a
        simp only [upd]
        split
        · next e => subst e; exact ⟨fun h => (nomatch h), fun h => by
            rcases List.mem_cons.1 h with h | h
            · exact absurd h hbh
            · exact absurd h hn3.1⟩
        · next e => rw [hl a]; simp [e])
      hk2 (by simp at hf; omega)
    exact ⟨lv, e, hlv⟩

theorem clear_spec {l : L T} {s : List (Nat × T)} (h : Rep l s) {fuel : Nat} (hf : s.length < fuel) :
    ∃ l', clear fuel l = .ok l' ∧ l'.head = l.head ∧ Rep l' [] := by
  unfold clear
  simp only [bind, Except.bind]
  rw [getNext_ok h.head_live]
  dsimp only
  rw [setNext_ok h.head_live]
  dsimp only
  rw [setPrev_ok (l := { l with next := upd l.next l.head l.head }) h.head_live]
  dsimp only
  have hnd := h.nodup
  have hlk := h.linked
  have hlk2 : Linked (upd l.next l.head l.head) l.prev (s.map Prod.fst ++ [l.head]) := by
    have h2 : Linked l.next l.prev (s.map Prod.fst ++ [l.head]) := by
      cases s with
      | nil => trivial
      | cons b s => exact hlk.2
    refine linked_frame ?_ (fun _ _ => rfl) h2
    intro a ha
    rw [List.dropLast_concat] at ha
    refine upd_ne ?_
    rintro rfl
    exact (List.nodup_cons.1 hnd).1 ha
  have hnx : l.next l.head = (s.map Prod.fst ++ [l.head]).headD l.head := by
    rw [h.next_head]; cases s <;> rfl
  obtain ⟨lv, e, hlv⟩ := clearLoop_spec (s.map Prod.fst) { l with next := upd l.next l.head l.head, prev := upd l.prev l.head l.head } l.prev fuel
    hnd h.live hlk2 (by simpa using hf)
  rw [hnx]
  simp only at e
  rw [e]
  refine ⟨_, rfl, rfl, ?_⟩
  exact ⟨by simp, ⟨⟨upd_self _ _ _, upd_self _ _ _⟩, trivial⟩, by intro a; rw [hlv]; simp, by simp, h.hobj, rfl⟩

end Verif.Cont
