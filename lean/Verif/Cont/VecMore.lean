import Verif.Cont.VecProps
/-
C23, further: inserting an element of the vector itself, and `pop_back` on an empty vector.
-/
namespace Verif.Cont
variable {T : Type}

/-- `insert(begin() + ofs, v[i])`: the argument is a reference into the array, which is read after `Grow` may have deleted the array
and after the entries have been moved, sh_vector.h:458-482, 47. -/
def Vec.insertOwn (v : Vec T) (ofs i : Nat) : R (Vec T × Option Nat) :=
  if ofs > v.used then .ok (v, none)
  else do
    let v' ← v.growIfNeeded 1
    if v.used + 1 ≥ v.cap then .error .dangling
    else do
      let v' := { v' with used := v'.used + 1 }
      let a ← shiftUp v'.arr ofs (v'.used - 1 - ofs)
      let x ← rdA a i
      let a ← wrA a ofs x
      .ok ({ v' with data := some a }, some ofs)

/-- `pop_back` with `m_CurrentUsedSize` the unsigned number of `w` bits it is: after the subtraction it is never below 0, so the
condition of line 368 is never met, sh_vector.h:365-372. -/
def Vec.popBackW (w : Nat) (v : Vec T) : R (Vec T) := ({ v with used := (v.used + (2 ^ w - 1)) % 2 ^ w } : Vec T).freeMem

/-! ### lemmas -/

private theorem shiftUp_below (ofs : Nat) : ∀ (n : Nat) (a a' : Arr T), shiftUp a ofs n = .ok a' → ∀ j, j ≤ ofs → a'[j]? = a[j]?
  | 0, a, a', h, j, _ => by rw [← Except.ok.inj h]
  | n + 1, a, a', h, j, hj => by
    unfold shiftUp at h
    cases hr : rdA a (ofs + n) with
    | error e => rw [hr] at h; simp [bind, Except.bind] at h
    | ok x =>
      rw [hr] at h
      simp only [bind, Except.bind] at h
      cases hw : wrA a (ofs + n + 1) x with
      | error e => rw [hw] at h; simp at h
      | ok b =>
        rw [hw] at h
        have := shiftUp_below ofs n b a' h j hj
        rw [this]
        unfold wrA at hw
        split at hw
        · rw [← Except.ok.inj hw, List.getElem?_set_ne (by omega)]
        · cases hw

private theorem insertOwn_any {v : Vec T} {xs : List T} {ofs i : Nat} (h : VRep v xs) (ho : ofs ≤ xs.length) (hi : i < xs.length)
    (hroom : v.used + 1 < v.cap) :
    ∃ v', v.insertOwn ofs i = .ok (v', some ofs) ∧
      VRep v' (xs.take ofs ++ (if i ≤ ofs then xs[i] else xs[i - 1]) :: xs.drop ofs) := by
  obtain ⟨hlen, r, hr⟩ := h.arr
  have hu := h.used
  have hg : v.growIfNeeded 1 = .ok v := by unfold Vec.growIfNeeded; rw [if_neg (by omega)]
  have hti : (xs.take ofs).length = ofs := by rw [List.length_take]; omega
  have hrl : v.cap = xs.length + r.length := by rw [← hlen, hr]; simp
  obtain ⟨o, r', rfl⟩ : ∃ o r', r = o :: r' := by
    cases r with
    | nil => simp at hrl; omega
    | cons o r' => exact ⟨o, r', rfl⟩
  have hdl : (xs.drop ofs).length = xs.length - ofs := by simp
  obtain ⟨o', hsh⟩ := shiftUp_spec (xs.length - ofs) (xs.take ofs) (xs.drop ofs) o r' hdl
  have e1 : (xs.take ofs).map some ++ (xs.drop ofs).map some ++ o :: r' = v.arr := by
    rw [hr, ← List.map_append, List.take_append_drop]
  rw [hti, e1] at hsh
  have hread : ((xs.take ofs).map some ++ o' :: (xs.drop ofs).map some ++ r')[i]? =
      some (some (if i ≤ ofs then xs[i] else xs[i - 1])) := by
    by_cases hc : i ≤ ofs
    · rw [shiftUp_below ofs _ _ _ hsh i hc, hr, List.getElem?_append_left (by simpa using hi)]
      simp [hc, hi]
    · rw [if_neg hc, List.append_assoc, List.cons_append, List.getElem?_append_right (by simp; omega)]
      rw [List.length_map, hti]
      obtain ⟨k, hk⟩ : ∃ k, i - ofs = k + 1 := ⟨i - ofs - 1, by omega⟩
      rw [hk, List.getElem?_cons_succ, List.getElem?_append_left (by simp; omega)]
      rw [List.getElem?_map, List.getElem?_drop, show ofs + k = i - 1 by omega]
      rw [List.getElem?_eq_getElem (by omega)]
      rfl
  have hw := wrA_mid (A := (xs.take ofs).map some) (B := (xs.drop ofs).map some ++ r') (o := o')
    (x := if i ≤ ofs then xs[i] else xs[i - 1])
  rw [List.length_map, hti] at hw
  refine ⟨{ v with used := v.used + 1, data := some ((xs.take ofs).map some ++
    some (if i ≤ ofs then xs[i] else xs[i - 1]) :: ((xs.drop ofs).map some ++ r')) }, ?_, ?_⟩
  · unfold Vec.insertOwn
    rw [if_neg (by omega)]
    simp only [bind, Except.bind, hg]
    rw [if_neg (by omega)]
    have ha : ({ v with used := v.used + 1 } : Vec T).arr = v.arr := rfl
    simp only [ha, show v.used + 1 - 1 - ofs = xs.length - ofs by omega, hsh]
    have hrd : rdA ((xs.take ofs).map some ++ o' :: (xs.drop ofs).map some ++ r') i =
        .ok (if i ≤ ofs then xs[i] else xs[i - 1]) := by unfold rdA; rw [hread]
    rw [hrd]
    simp only
    rw [List.append_assoc, List.cons_append, hw]
  · refine ⟨?_, ?_, by simp, ?_⟩
    · simp only [List.length_append, List.length_cons, hti, hdl]; omega
    · simp only; omega
    · intro a ha
      simp only [Option.some.injEq] at ha
      subst ha
      refine ⟨?_, r', by simp⟩
      rw [List.length_cons] at hrl
      simp only [List.length_append, List.length_map, List.length_cons, hti, hdl]
      omega

/-- C23: inserting an element that lies at or before the place, with room in the array, inserts that element. -/
theorem insert_own_before {v : Vec T} {xs : List T} {ofs i : Nat} (h : VRep v xs) (ho : ofs ≤ xs.length) (hi : i < xs.length)
    (hroom : v.used + 1 < v.cap) (hc : i ≤ ofs) :
    ∃ v', v.insertOwn ofs i = .ok (v', some ofs) ∧ VRep v' (xs.take ofs ++ xs[i] :: xs.drop ofs) := by
  obtain ⟨v', e, r⟩ := insertOwn_any h ho hi hroom
  rw [if_pos hc] at r
  exact ⟨v', e, r⟩

/-- C23, finding: inserting an element that lies behind the place inserts the one before it, as the entries are moved before the
reference is read. -/
theorem insert_own_behind {v : Vec T} {xs : List T} {ofs i : Nat} (h : VRep v xs) (hi : i < xs.length)
    (hroom : v.used + 1 < v.cap) (hc : ofs < i) :
    ∃ v', v.insertOwn ofs i = .ok (v', some ofs) ∧ VRep v' (xs.take ofs ++ xs[i - 1] :: xs.drop ofs) := by
  obtain ⟨v', e, r⟩ := insertOwn_any (ofs := ofs) h (by omega) hi hroom
  rw [if_neg (Nat.not_le.2 hc)] at r
  exact ⟨v', e, r⟩

/-- C23, finding: inserting an element of the vector itself, when the array is full, reads the deleted array. -/
theorem insert_own_full {v : Vec T} {xs : List T} {ofs i : Nat} (h : VRep v xs) (ho : ofs ≤ xs.length) (hfull : v.cap ≤ v.used + 1) :
    v.insertOwn ofs i = .error .dangling := by
  obtain ⟨v1, e, _⟩ := growIfNeeded_spec h 1 (by omega)
  have := h.used
  unfold Vec.insertOwn
  rw [if_neg (by omega)]
  simp only [bind, Except.bind, e]
  rw [if_pos hfull]

/-- No counterpart in /repo: a vector of three with room, for the examples. -/
def threeVec : Vec Nat := ⟨some [some 5, some 6, some 7, none, none, none, none, none], 8, 3⟩

theorem threeVec_rep : VRep threeVec [5, 6, 7] := ⟨rfl, by decide, by simp [threeVec], by
  intro a ha
  simp only [threeVec, Option.some.injEq] at ha
  subst ha
  exact ⟨rfl, [none, none, none, none, none], rfl⟩⟩

example : VRep threeVec [5, 6, 7] ∧ threeVec.used + 1 < threeVec.cap ∧
    threeVec.insertOwn 0 2 = .ok (⟨some [some 6, some 5, some 6, some 7, none, none, none, none], 8, 4⟩, some 0) :=
  ⟨threeVec_rep, by decide, rfl⟩

/-- C23: on a vector that is not empty `pop_back` of `w` bits does what it does on unbounded numbers. -/
theorem popBackW_agrees {v : Vec T} {w : Nat} (h0 : 0 < v.used) (hw : v.used ≤ 2 ^ w) : v.popBackW w = v.popBack := by
  unfold Vec.popBackW Vec.popBack
  have hp : 0 < 2 ^ w := Nat.pow_pos (by decide)
  have : (v.used + (2 ^ w - 1)) % 2 ^ w = v.used - 1 := by
    rw [show v.used + (2 ^ w - 1) = (v.used - 1) + 2 ^ w by omega, Nat.add_mod_right, Nat.mod_eq_of_lt (by omega)]
  rw [this]

example : 0 < threeVec.used ∧ threeVec.used ≤ 2 ^ 32 := by decide

private theorem shrinkTo_big {used sz : Nat} (h : sz / 2 < used) : shrinkTo used sz = sz := by
  unfold shrinkTo
  rw [dif_neg (by omega)]

/-- C23, finding: `pop_back` on an empty vector makes its size the largest number there is: the guard `m_CurrentUsedSize < 0` cannot
be met, the type being unsigned. The array stays as it was, so the size exceeds it, and `at` lets every index pass. -/
theorem pop_empty_wraps {v : Vec T} {w : Nat} (hw : 0 < w) (h : VRep v []) (hc : v.cap < 2 ^ w) :
    v.popBackW w = .ok { v with used := 2 ^ w - 1 } := by
  have hu : v.used = 0 := h.used
  have hp : 2 ≤ 2 ^ w := by
    calc 2 = 2 ^ 1 := rfl
      _ ≤ 2 ^ w := Nat.pow_le_pow_right (by decide) hw
  unfold Vec.popBackW
  rw [hu, Nat.zero_add, Nat.mod_eq_of_lt (by omega)]
  unfold Vec.freeMem
  split
  · rfl
  · rw [if_neg (by simp only; omega)]
    simp only
    rw [shrinkTo_big (by omega)]
    simp

example : VRep (Vec.init : Vec Nat) [] ∧ (Vec.init : Vec Nat).cap < 2 ^ 32 := ⟨init_vrep, by decide⟩

#print axioms insert_own_before
#print axioms insert_own_behind
#print axioms insert_own_full
#print axioms popBackW_agrees
#print axioms pop_empty_wraps

end Verif.Cont
