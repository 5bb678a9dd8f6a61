import Verif.Cont.Vec
/-
Property C23: the vector behaves as a sequence.
-/
namespace Verif.Cont

variable {T : Type}

/-! ## Lemmas -/

/-- The vector holds `xs`: they fill the first cells of an array of `cap` cells. -/
structure VRep (v : Vec T) (xs : List T) : Prop where
  used : v.used = xs.length
  fits : v.used ≤ v.cap
  null : v.data = none → v.cap = 0
  full : ∀ a, v.data = some a → a.length = v.cap ∧ ∃ r, a = xs.map some ++ r

theorem VRep.arr {v : Vec T} {xs : List T} (h : VRep v xs) : v.arr.length = v.cap ∧ ∃ r, v.arr = xs.map some ++ r := by
  unfold Vec.arr
  cases hd : v.data with
  | some a => exact h.full a hd
  | none =>
    have h1 := h.null hd
    have h2 := h.fits
    have h3 := h.used
    have : xs = [] := List.length_eq_zero_iff.1 (by omega)
    subst this
    exact ⟨by simp [h1], [], rfl⟩

theorem rdA_mid {A B : Arr T} {x : T} : rdA (A ++ some x :: B) A.length = .ok x := by simp [rdA]

theorem wrA_mid {A B : Arr T} {o : Option T} {x : T} : wrA (A ++ o :: B) A.length x = .ok (A ++ some x :: B) := by
  unfold wrA
  rw [if_pos (by simp)]
  simp

theorem copyLoop_spec (ys : List T) : ∀ (xs : List T) (r d : Arr T), ys.length ≤ d.length →
    copyLoop (xs.map some ++ (ys.map some ++ r)) (xs.map some ++ d) xs.length ys.length = .ok (xs.map some ++ ys.map some ++ d.drop ys.length) := by
  induction ys with
  | nil => intro xs r d _; simp [copyLoop]
  | cons y ys ih =>
    intro xs r d hd
    cases d with
    | nil => simp at hd
    | cons o d =>
      have h1 := rdA_mid (A := xs.map some) (B := ys.map some ++ r) (x := y)
      have h2 := wrA_mid (A := xs.map some) (B := d) (o := o) (x := y)
      have h3 := ih (xs ++ [y]) r d (by simpa using hd)
      rw [List.length_map] at h1 h2
      simp only [List.map_append, List.map_cons, List.map_nil, List.append_assoc, List.cons_append, List.nil_append, List.length_append, List.length_cons, List.length_nil, Nat.zero_add] at h3
      simp only [List.length_cons, copyLoop, List.map_cons, List.cons_append, h1, h2, bind, Except.bind, h3, List.append_assoc, List.drop_succ_cons]

theorem copy_spec {xs : List T} {r : Arr T} {n : Nat} (h : xs.length ≤ n) :
    copyLoop (xs.map some ++ r) (newArr n) 0 xs.length = .ok (xs.map some ++ newArr (n - xs.length)) := by
  have := copyLoop_spec xs [] r (newArr n) (by simpa [newArr] using h)
  simpa [newArr] using this

theorem growTo_ge {need : Nat} (d : Nat) : ∀ sz, 0 < sz → need - sz ≤ d → need ≤ growTo need sz ∧ sz ≤ growTo need sz := by
  induction d with
  | zero => intro sz h hd; unfold growTo; rw [dif_neg (by omega)]; omega
  | succ d ih =>
    intro sz h hd
    unfold growTo
    split
    · have := ih (sz * 2) (by omega) (by omega); omega
    · omega

theorem shrinkTo_ge {used sz : Nat} (h : used ≤ sz) : used ≤ shrinkTo used sz ∧ shrinkTo used sz ≤ sz := by
  induction sz using Nat.strongRecOn with
  | _ sz ih =>
    unfold shrinkTo
    split
    · next hc => have := ih (sz / 2) (by omega) (by omega); omega
    · omega

theorem grow_spec {v : Vec T} {xs : List T} (h : VRep v xs) (n : Nat) :
    ∃ v', v.grow n = .ok v' ∧ VRep v' xs ∧ v.used + n ≤ v'.cap ∧ v'.data.isSome := by
  unfold Vec.grow
  have hsz : 0 < (if v.cap * 2 = 0 then 8 else v.cap * 2) := by split <;> omega
  generalize (if v.cap * 2 = 0 then 8 else v.cap * 2) = sz at hsz
  have hg := growTo_ge (need := v.used + n) _ sz hsz (Nat.le_refl _)
  dsimp only
  generalize growTo (v.used + n) sz = m at hg
  simp only [bind, Except.bind]
  cases hd : v.data with
  | none =>
    have := (h.null hd); have h2 := h.fits; have h3 := h.used
    have : xs = [] := List.length_eq_zero_iff.1 (by omega)
    subst this
    exact ⟨_, rfl, ⟨h.used, by simp only; omega, by simp, by intro a ha; simp at ha; subst ha; simp [newArr]⟩, hg.1, rfl⟩
  | some a =>
    obtain ⟨h1, r, rfl⟩ := h.full a hd
    have := copy_spec (xs := xs) (r := r) (n := m) (by have := h.used; omega)
    dsimp only
    rw [h.used, this]
    refine ⟨_, rfl, ⟨rfl, by simp only; have := h.used; omega, by simp, ?_⟩, by have := h.used; simp only; omega, rfl⟩
    intro a ha; simp at ha; subst ha
    refine ⟨?_, _, rfl⟩
    have := h.used
    simp [newArr]; omega

theorem growIfNeeded_spec {v : Vec T} {xs : List T} (h : VRep v xs) (n : Nat) (hn : 0 < n) :
    ∃ v', v.growIfNeeded n = .ok v' ∧ VRep v' xs ∧ v.used + n ≤ v'.cap ∧ v'.data.isSome := by
  unfold Vec.growIfNeeded
  split
  · exact grow_spec h n
  · next hc =>
    refine ⟨v, rfl, h, by omega, ?_⟩
    cases hd : v.data with
    | none => have := h.null hd; omega
    | some _ => rfl

theorem changeSize_spec {v : Vec T} {xs : List T} (h : VRep v xs) (n : Nat) :
    ∃ v', v.changeSize n = .ok v' ∧ v'.cap = n ∧ (n ≠ 0 → VRep v' (xs.take n)) ∧ (n = 0 → v' = v ∨ (v'.data = none ∧ v'.used = v.used)) := by
  unfold Vec.changeSize
  split
  · next e =>
    subst e
    refine ⟨v, rfl, rfl, fun _ => ?_, fun _ => .inl rfl⟩
    rw [List.take_of_length_le (by rw [← h.used]; exact h.fits)]; exact h
  · next hne =>
    split
    · next h0 =>
      subst h0
      refine ⟨_, rfl, ?_, fun h => absurd rfl h, fun _ => ?_⟩
      · cases hd : v.data with
        | none => simpa [hd] using h.null hd
        | some a => simp
      · cases hd : v.data with
        | none => exact .inl (by simp)
        | some a => exact .inr ⟨by simp, by simp⟩
    · next h0 =>
      simp only [bind, Except.bind]
      cases hd : v.data with
      | none =>
        have := (h.null hd); have h2 := h.fits; have h3 := h.used
        have : xs = [] := List.length_eq_zero_iff.1 (by omega)
        subst this
        simp only [List.length_nil] at h3
        refine ⟨_, rfl, ?_, fun _ => ?_, fun h => absurd h h0⟩
        · rw [if_neg (by omega)]
        · rw [if_neg (by omega)]
          exact ⟨by simp [h3], by simp only; omega, by simp, by intro a ha; simp at ha; subst ha; simp [newArr]⟩
      | some a =>
        obtain ⟨h1, r, rfl⟩ := h.full a hd
        have hu := h.used
        have hc : copyLoop (xs.map some ++ r) (newArr n) 0 (if v.used < n then v.used else n) = .ok ((xs.take n).map some ++ newArr (n - (xs.take n).length)) := by
          have e1 : xs.map some ++ r = (xs.take n).map some ++ ((xs.drop n).map some ++ r) := by
            rw [← List.append_assoc, ← List.map_append, List.take_append_drop]
          have e2 : (if v.used < n then v.used else n) = (xs.take n).length := by rw [List.length_take]; split <;> omega
          rw [e1, e2]
          exact copy_spec (by simp; omega)
        dsimp only
        rw [hc]
        refine ⟨_, rfl, ?_, fun _ => ?_, fun h => absurd h h0⟩
        · split <;> rfl
        · have hl : (xs.take n).length = min n xs.length := List.length_take
          have hlen : ((xs.take n).map some ++ newArr (n - (xs.take n).length)).length = n := by simp [newArr]; omega
          split
          · exact ⟨by simp only; omega, Nat.le_refl _, by simp, by
              intro a ha
              simp only [Option.some.injEq] at ha; subst ha
              exact ⟨hlen, _, rfl⟩⟩
          · exact ⟨by simp only; omega, by simp only; omega, by simp, by
              intro a ha
              simp only [Option.some.injEq] at ha; subst ha
              exact ⟨hlen, _, rfl⟩⟩

theorem freeMem_spec {v : Vec T} {xs : List T} (h : VRep v xs) : ∃ v', v.freeMem = .ok v' ∧ VRep v' xs := by
  unfold Vec.freeMem
  split
  · exact ⟨v, rfl, h⟩
  · next hs =>
    split
    · next h0 =>
      have : xs = [] := List.length_eq_zero_iff.1 (by rw [← h.used]; exact h0)
      subst this
      obtain ⟨v', e, hc, _, h2⟩ := changeSize_spec h 0
      refine ⟨v', e, ?_⟩
      rcases h2 rfl with rfl | ⟨h3, h4⟩
      · exact h
      · exact ⟨by rw [h4, h0]; rfl, by omega, fun _ => hc, by rw [h3]; simp⟩
    · next h0 =>
      dsimp only
      split
      · have hg := shrinkTo_ge h.fits
        obtain ⟨v', e, hc, h1, _⟩ := changeSize_spec h (shrinkTo v.used v.cap)
        refine ⟨v', e, ?_⟩
        have := h1 (by omega)
        rw [List.take_of_length_le (by rw [← h.used]; exact hg.1)] at this
        exact this
      · exact ⟨v, rfl, h⟩

theorem fillLoop_spec {x : T} (n : Nat) : ∀ (ys : List T) (r : Arr T), n ≤ r.length →
    fillLoop x (ys.map some ++ r) ys.length n = .ok ((ys ++ List.replicate n x).map some ++ r.drop n) := by
  induction n with
  | zero => intro ys r _; simp [fillLoop]
  | succ n ih =>
    intro ys r hr
    cases r with
    | nil => simp at hr
    | cons o r =>
      have h2 := wrA_mid (A := ys.map some) (B := r) (o := o) (x := x)
      have h3 := ih (ys ++ [x]) r (by simpa using hr)
      rw [List.length_map] at h2
      simp only [List.map_append, List.map_cons, List.map_nil, List.append_assoc, List.cons_append, List.nil_append, List.length_append, List.length_cons, List.length_nil, Nat.zero_add] at h3
      simp only [fillLoop, h2, bind, Except.bind, h3, List.replicate_succ, List.map_append, List.map_cons, List.append_assoc, List.cons_append, List.drop_succ_cons]

theorem shiftUp_spec (n : Nat) : ∀ (A B : List T) (o : Option T) (r : Arr T), B.length = n →
    ∃ o', shiftUp (A.map some ++ B.map some ++ o :: r) A.length n = .ok (A.map some ++ o' :: B.map some ++ r) := by
  induction n with
  | zero =>
    intro A B o r hB
    have : B = [] := List.length_eq_zero_iff.1 hB
    subst this
    exact ⟨o, by simp [shiftUp]⟩
  | succ n ih =>
    intro A B o r hB
    have hne : B ≠ [] := by rintro rfl; simp at hB
    obtain ⟨C, b, rfl⟩ : ∃ C b, B = C ++ [b] := ⟨B.dropLast, B.getLast hne, (List.dropLast_concat_getLast hne).symm⟩
    simp at hB
    have h1 := rdA_mid (A := A.map some ++ C.map some) (B := o :: r) (x := b)
    have h2 := wrA_mid (A := A.map some ++ C.map some ++ [some b]) (B := r) (o := o) (x := b)
    simp only [List.length_append, List.length_map, hB, List.length_cons, List.length_nil, List.append_assoc, List.cons_append, List.nil_append, Nat.zero_add, ← Nat.add_assoc] at h1 h2
    obtain ⟨o', h3⟩ := ih A C (some b) (some b :: r) hB
    refine ⟨o', ?_⟩
    simp only [List.append_assoc, List.cons_append, List.nil_append, List.map_append, List.map_cons, List.map_nil] at h3 ⊢
    rw [shiftUp]
    simp only [bind, Except.bind]
    rw [h1]
    dsimp only
    rw [h2]
    dsimp only
    exact h3

theorem shiftDown_spec (B : List T) : ∀ (A : List T) (o : Option T) (r : Arr T),
    ∃ o', shiftDown (A.map some ++ o :: B.map some ++ r) A.length B.length = .ok ((A ++ B).map some ++ o' :: r) := by
  induction B with
  | nil => intro A o r; exact ⟨o, by simp [shiftDown]⟩
  | cons b B ih =>
    intro A o r
    have h1 := rdA_mid (A := A.map some ++ [o]) (B := B.map some ++ r) (x := b)
    have h2 := wrA_mid (A := A.map some) (B := some b :: (B.map some ++ r)) (o := o) (x := b)
    obtain ⟨o', h3⟩ := ih (A ++ [b]) (some b) r
    refine ⟨o', ?_⟩
    simp only [List.length_append, List.length_map, List.length_cons, List.length_nil, List.append_assoc, List.cons_append, List.nil_append, List.map_append, List.map_cons, List.map_nil, Nat.zero_add] at h1 h2 h3 ⊢
    rw [shiftDown]
    simp only [bind, Except.bind]
    rw [h1]
    dsimp only
    rw [h2]
    dsimp only
    exact h3

/-! ## The properties -/

/-- The operations that change a vector. -/
inductive VOp (T : Type)
  | pushBack (x : T)
  | popBack
  | resize (n : Nat) (x : T)
  | reserve (n : Nat)
  | insert (i : Nat) (x : T)
  | erase (i : Nat)
  | clear
  | assign (other : Vec T)
  | copy

/-- One operation; `insert` and `erase` return the index of the iterator they return. -/
def vstep (v : Vec T) : VOp T → R (Vec T × Option Nat)
  | .pushBack x => do .ok (← v.pushBack x, none)
  | .popBack => do .ok (← v.popBack, none)
  | .resize n x => do .ok (← v.resize n x, none)
  | .reserve n => do .ok (← v.reserve n, none)
  | .insert i x => v.insert i x
  | .erase i => v.erase i
  | .clear => .ok (v.clear, none)
  | .assign o => do .ok (← v.assign o, none)
  | .copy => do .ok (← v.copy, none)

/-- Spec: what the operations do to a sequence (relation, because `assign` names a vector). -/
inductive VSpec (xs : List T) : VOp T → List T → Option Nat → Prop
  | pushBack (x : T) : VSpec xs (.pushBack x) (xs ++ [x]) none
  | popBack (h : xs ≠ []) : VSpec xs .popBack xs.dropLast none
  | resize (n : Nat) (x : T) : VSpec xs (.resize n x) (xs.take n ++ List.replicate (n - xs.length) x) none
  | reserve (n : Nat) : VSpec xs (.reserve n) xs none
  | insert (i : Nat) (x : T) (h : i ≤ xs.length) : VSpec xs (.insert i x) (xs.take i ++ x :: xs.drop i) (some i)
  | insertBad (i : Nat) (x : T) (h : xs.length < i) : VSpec xs (.insert i x) xs none
  | erase (i : Nat) (h : i < xs.length) : VSpec xs (.erase i) (xs.take i ++ xs.drop (i + 1)) (some i)
  | eraseBad (i : Nat) (h : xs.length ≤ i) : VSpec xs (.erase i) xs none
  | clear : VSpec xs .clear [] none
  | assign (o : Vec T) (ys : List T) (h : VRep o ys) : VSpec xs (.assign o) ys none
  | copy : VSpec xs .copy xs none

theorem init_vrep : VRep (Vec.init : Vec T) [] := ⟨rfl, Nat.le_refl _, fun _ => rfl, by simp [Vec.init]⟩

theorem assignLoop_spec {o : Vec T} (zs : List T) : ∀ (ys : List T) (v : Vec T) (r : Arr T), VRep o (ys ++ zs) → v.data = some (ys.map some ++ r) → zs.length ≤ r.length →
    ∃ v', assignLoop o v ys.length zs.length = .ok v' ∧ v'.cap = v.cap ∧ v'.used = v.used ∧ v'.data = some ((ys ++ zs).map some ++ r.drop zs.length) := by
  induction zs with
  | nil => intro ys v r _ hd _; exact ⟨v, rfl, rfl, rfl, by simpa using hd⟩
  | cons z zs ih =>
    intro ys v r ho hd hr
    cases r with
    | nil => simp at hr
    | cons q r =>
      obtain ⟨_, t, ht⟩ := ho.arr
      have h1 : o.at ys.length = .ok z := by
        unfold Vec.at; rw [ht]
        have := rdA_mid (A := ys.map some) (B := zs.map some ++ t) (x := z)
        simpa using this
      have h2 : wrA v.arr ys.length z = .ok (ys.map some ++ some z :: r) := by
        unfold Vec.arr; rw [hd]
        have := wrA_mid (A := ys.map some) (B := r) (o := q) (x := z)
        simpa using this
      obtain ⟨v', e, h3, h4, h5⟩ := ih (ys ++ [z]) { v with data := some (ys.map some ++ some z :: r) } r (by simpa using ho) (by simp) (by simpa using hr)
      refine ⟨v', ?_, h3, h4, by simpa using h5⟩
      rw [List.length_append, List.length_cons, List.length_nil, Nat.zero_add] at e
      rw [List.length_cons, assignLoop]
      simp only [bind, Except.bind, h1, h2]
      exact e

/-- C23: every operation on a vector that holds `xs` stays inside its arrays, gives the sequence (and iterator) that the operation on sequences
gives, and keeps the size at most the capacity and the capacity equal to the allocated cells. -/
theorem vec_step {v : Vec T} {xs xs' : List T} {op : VOp T} {out : Option Nat} (h : VRep v xs) (hs : VSpec xs op xs' out) :
    ∃ v', vstep v op = .ok (v', out) ∧ VRep v' xs' := by
  cases hs with
  | pushBack x =>
    obtain ⟨v1, e, h1, hc, hsome⟩ := growIfNeeded_spec h 1 (by omega)
    obtain ⟨hlen, r, hr⟩ := h1.arr
    have hu := h.used; have hu1 := h1.used
    cases r with
    | nil => rw [hr] at hlen; simp at hlen; omega
    | cons o r =>
      have hw := wrA_mid (A := xs.map some) (B := r) (o := o) (x := x)
      simp only [vstep, Vec.pushBack, bind, Except.bind, e]
      rw [hr, hu1, show xs.length = (xs.map some).length by simp, hw]
      refine ⟨_, rfl, ⟨by simp, by simp only [List.length_map]; omega, by simp, ?_⟩⟩
      intro a ha
      simp only [Option.some.injEq] at ha; subst ha
      rw [hr] at hlen
      exact ⟨by simpa using hlen, r, by simp⟩
  | popBack hne =>
    have hp : VRep { v with used := v.used - 1 } xs.dropLast := by
      refine ⟨by simp [h.used], by have := h.fits; simp only; omega, h.null, ?_⟩
      intro a ha
      obtain ⟨h1, r, h2⟩ := h.full a ha
      refine ⟨h1, some (xs.getLast hne) :: r, ?_⟩
      have h3 := congrArg (List.map some) (List.dropLast_concat_getLast hne)
      rw [List.map_append, List.map_cons, List.map_nil] at h3
      rw [h2, ← h3]; simp
    obtain ⟨v', e, hv⟩ := freeMem_spec hp
    exact ⟨v', by simp only [vstep, Vec.popBack, bind, Except.bind, e], hv⟩
  | resize n x =>
    obtain ⟨v1, e, hc, h1, h0⟩ := changeSize_spec h n
    have hu := h.used
    by_cases hn : n = 0
    · subst hn
      have hz : 0 - v1.used = 0 := by omega
      refine ⟨{ v1 with used := 0 }, ?_, ?_⟩
      · simp only [vstep, Vec.resize, bind, Except.bind, e, hz, fillLoop, if_true]
      · simp only [List.take_zero, Nat.zero_sub, List.replicate_zero, List.append_nil]
        refine ⟨rfl, Nat.zero_le _, fun _ => hc, ?_⟩
        intro a ha
        rcases h0 rfl with rfl | ⟨h2, _⟩
        · exact ⟨(h.full a ha).1, a, by simp⟩
        · simp only at ha; rw [h2] at ha; cases ha
    · have hv := h1 hn
      obtain ⟨hlen, r, hr⟩ := hv.arr
      have hu1 := hv.used
      have hrl : n - (xs.take n).length ≤ r.length := by
        rw [hr] at hlen; simp at hlen ⊢; omega
      have hf := fillLoop_spec (x := x) (n - (xs.take n).length) (xs.take n) r hrl
      simp only [vstep, Vec.resize, bind, Except.bind, e]
      rw [hr, hu1, hf]
      refine ⟨_, rfl, ?_⟩
      have hl : (xs.take n).length = min n xs.length := List.length_take
      have hrep : n - (xs.take n).length = n - xs.length := by omega
      rw [hrep] at *
      refine ⟨?_, by simp only; omega, ?_, ?_⟩
      · simp only [List.length_append, List.length_replicate, hl]; omega
      · dsimp only
        split
        · exact hv.null
        · simp
      · intro a ha
        dsimp only at ha ⊢
        split at ha
        · next hz =>
          obtain ⟨h3, r', h4⟩ := hv.full a ha
          exact ⟨h3, r', by rw [h4, hz]; simp⟩
        · simp only [Option.some.injEq] at ha; subst ha
          refine ⟨?_, _, rfl⟩
          rw [hr] at hlen
          simp at hlen ⊢; omega
  | reserve n =>
    by_cases hgt : n > v.cap
    · obtain ⟨v1, e, hc, h1, _⟩ := changeSize_spec h n
      simp only [vstep, Vec.reserve, bind, Except.bind, if_pos hgt, e]
      have := h1 (by omega)
      rw [List.take_of_length_le (by rw [← h.used]; have := h.fits; omega)] at this
      exact ⟨v1, rfl, this⟩
    · exact ⟨v, by simp only [vstep, Vec.reserve, bind, Except.bind, if_neg hgt], h⟩
  | insert i x hi =>
    obtain ⟨v1, e, h1, hc, hsome⟩ := growIfNeeded_spec h 1 (by omega)
    obtain ⟨hlen, r, hr⟩ := h1.arr
    have hu := h.used; have hu1 := h1.used
    cases r with
    | nil => rw [hr] at hlen; simp at hlen; omega
    | cons o r =>
      have e1 : v1.arr = (xs.take i).map some ++ (xs.drop i).map some ++ o :: r := by
        rw [← List.map_append, List.take_append_drop, hr]
      obtain ⟨o', hsh⟩ := shiftUp_spec (xs.drop i).length (xs.take i) (xs.drop i) o r rfl
      have hti : (xs.take i).length = i := by rw [List.length_take]; omega
      have hdi : (xs.drop i).length = v1.used + 1 - 1 - i := by rw [List.length_drop]; omega
      have hw := wrA_mid (A := (xs.take i).map some) (B := (xs.drop i).map some ++ r) (o := o') (x := x)
      rw [List.length_map, hti] at hw
      rw [hti, hdi, ← e1] at hsh
      simp only [List.append_assoc, List.cons_append] at hsh hw
      simp only [vstep, Vec.insert]
      rw [if_neg (by omega)]
      have harr : ({ v1 with used := v1.used + 1 } : Vec T).arr = v1.arr := rfl
      simp only [bind, Except.bind, e]
      rw [harr, hsh]
      dsimp only
      rw [hw]
      refine ⟨_, rfl, ⟨?_, by simp only; omega, by simp, ?_⟩⟩
      · simp only [List.length_append, List.length_cons, hti, List.length_drop]; omega
      · intro a ha
        simp only [Option.some.injEq] at ha; subst ha
        rw [hr] at hlen
        refine ⟨?_, r, by simp⟩
        simp at hlen ⊢; omega
  | insertBad i x hi =>
    refine ⟨v, ?_, h⟩
    simp only [vstep, Vec.insert]
    rw [if_pos (by rw [h.used]; exact hi)]
  | erase i hi =>
    obtain ⟨hlen, r, hr⟩ := h.arr
    have hu := h.used
    have hti : (xs.take i).length = i := by rw [List.length_take]; omega
    have hsplit : xs = xs.take i ++ xs[i] :: xs.drop (i + 1) := by
      rw [← List.drop_eq_getElem_cons hi, List.take_append_drop]
    have e1 : v.arr = (xs.take i).map some ++ some xs[i] :: (xs.drop (i + 1)).map some ++ r := by
      rw [hr]
      have := congrArg (List.map some) hsplit
      rw [List.map_append, List.map_cons] at this
      rw [List.append_assoc, List.cons_append]
      conv => lhs; rw [this]
      simp
    have hdi : (xs.drop (i + 1)).length = v.used - 1 - i := by rw [List.length_drop]; omega
    have hsh : ∃ o', (if v.used > 1 then shiftDown v.arr i (v.used - 1 - i) else .ok v.arr) = .ok ((xs.take i ++ xs.drop (i + 1)).map some ++ o' :: r) := by
      split
      · obtain ⟨o', hsh⟩ := shiftDown_spec (xs.drop (i + 1)) (xs.take i) (some xs[i]) r
        rw [hti, hdi, ← e1] at hsh
        exact ⟨o', hsh⟩
      · have h0 : i = 0 := by omega
        subst h0
        have : xs.drop (0 + 1) = [] := by rw [List.drop_eq_nil_iff]; omega
        rw [this] at e1 ⊢
        exact ⟨some xs[0], by rw [e1]; simp⟩
    obtain ⟨o', hsh⟩ := hsh
    have hdata : ∃ a, v.data = some a := by
      cases hd : v.data with
      | none => have := h.null hd; have := h.fits; omega
      | some a => exact ⟨a, rfl⟩
    obtain ⟨a0, hd⟩ := hdata
    have hv : VRep { v with data := v.data.map fun _ => ((xs.take i ++ xs.drop (i + 1)).map some ++ o' :: r), used := v.used - 1 } (xs.take i ++ xs.drop (i + 1)) := by
      refine ⟨?_, by have := h.fits; simp only; omega, by simp [hd], ?_⟩
      · simp only [List.length_append, hti, List.length_drop]; omega
      · intro a ha
        simp only [hd, Option.map_some, Option.some.injEq] at ha; subst ha
        refine ⟨?_, _, rfl⟩
        rw [hr] at hlen
        simp at hlen ⊢; omega
    obtain ⟨v', e, hv'⟩ := freeMem_spec hv
    refine ⟨v', ?_, hv'⟩
    simp only [vstep, Vec.erase]
    rw [if_neg (by omega)]
    simp only [bind, Except.bind]
    split at hsh
    · next hc =>
      rw [if_pos hc, hsh]
      simp only [e]
    · next hc =>
      simp only [Except.ok.injEq] at hsh
      rw [if_neg hc, hsh, e]
  | eraseBad i hi =>
    refine ⟨v, ?_, h⟩
    simp only [vstep, Vec.erase]
    rw [if_pos (by rw [h.used]; exact hi)]
  | clear => exact ⟨v.clear, rfl, ⟨rfl, Nat.le_refl _, fun _ => rfl, by simp [Vec.clear]⟩⟩
  | assign o ys ho =>
    have hc0 : VRep v.clear [] := ⟨rfl, Nat.le_refl _, fun _ => rfl, by simp [Vec.clear]⟩
    have hu := ho.used
    by_cases hn : o.used = 0
    · have : xs' = [] := List.length_eq_zero_iff.1 (by omega)
      subst this
      refine ⟨v.clear, ?_, hc0⟩
      simp [vstep, Vec.assign, Vec.changeSize, Vec.clear, hn, assignLoop, bind, Except.bind]
    · have e : v.clear.changeSize o.used = .ok { data := some (newArr o.used), cap := o.used, used := 0 } := by
        unfold Vec.changeSize
        rw [if_neg (by simp [Vec.clear]; omega), if_neg hn]
        simp [Vec.clear, bind, Except.bind]
      obtain ⟨v', e2, h1, h2, h3⟩ := assignLoop_spec (o := o) xs' [] { data := some (newArr o.used), cap := o.used, used := o.used } (newArr o.used)
        (by simpa using ho) (by simp) (by simp [newArr]; omega)
      rw [List.length_nil, ← hu] at e2
      refine ⟨v', by simp only [vstep, Vec.assign, bind, Except.bind, e, e2], ⟨by rw [h2]; exact hu, by rw [h1, h2]; exact Nat.le_refl _, by rw [h3]; simp, ?_⟩⟩
      intro a ha
      rw [h3] at ha
      simp only [Option.some.injEq] at ha; subst ha
      refine ⟨?_, _, rfl⟩
      rw [h1]; simp [newArr]; omega
  | copy =>
    obtain ⟨hlen, r, hr⟩ := h.arr
    have hu := h.used
    have := copy_spec (xs := xs) (r := r) (n := xs.length) (Nat.le_refl _)
    refine ⟨{ data := some (xs.map some ++ newArr (xs.length - xs.length)), cap := xs.length, used := xs.length }, ?_, ⟨rfl, Nat.le_refl _, by simp, ?_⟩⟩
    · simp only [vstep, Vec.copy, bind, Except.bind]
      rw [hr, hu, this]
    · intro a ha
      simp only [Option.some.injEq] at ha; subst ha
      exact ⟨by simp [newArr], _, rfl⟩

/-- Inserting in the middle. -/
example : VRep (Vec.init : Vec Nat) [] ∧ VSpec [5, 6] (.insert 1 9) [5, 9, 6] (some 1) := ⟨init_vrep, VSpec.insert (xs := [5, 6]) 1 9 (by decide)⟩

/-- Runs of operations. -/
inductive VRuns : Vec T → List T → Vec T → List T → Prop
  | nil (v : Vec T) (xs : List T) : VRuns v xs v xs
  | cons {v v1 v2 : Vec T} {xs xs1 xs2 : List T} {op : VOp T} {out out' : Option Nat} (hs : VSpec xs op xs1 out) (e : vstep v op = .ok (v1, out'))
      (hr : VRuns v1 xs1 v2 xs2) : VRuns v xs v2 xs2

/-- C23, over any run: the vector holds the sequence. -/
theorem vec_refines {v v' : Vec T} {xs xs' : List T} (h : VRep v xs) (hr : VRuns v xs v' xs') : VRep v' xs' := by
  induction hr with
  | nil => exact h
  | cons hs e _ ih =>
    obtain ⟨v2, e2, h2⟩ := vec_step h hs
    rw [e] at e2
    simp only [Except.ok.injEq, Prod.mk.injEq] at e2
    exact ih (e2.1 ▸ h2)

example : ∃ v : Vec Nat, VRuns Vec.init [] v [7] := by
  obtain ⟨v, e, _⟩ := vec_step (init_vrep (T := Nat)) (.pushBack 7)
  exact ⟨v, .cons (.pushBack 7) e (.nil _ _)⟩

/-- C23 (missing: `at(size())`, see `at_end_unchecked`): reading an element. -/
theorem vec_at_partial {v : Vec T} {xs : List T} (h : VRep v xs) {i : Nat} (hi : i < xs.length) : v.at i = .ok xs[i] := by
  obtain ⟨_, r, hr⟩ := h.arr
  unfold Vec.at rdA
  rw [hr, List.getElem?_append_left (by simpa using hi)]
  simp [hi]

example : ∃ v : Vec Nat, VRep v [7] ∧ 0 < [7].length := by
  obtain ⟨v, _, h⟩ := vec_step (init_vrep (T := Nat)) (.pushBack 7)
  exact ⟨v, h, by decide⟩

/-- C23: `size` is the length, and there is room for it. -/
theorem vec_size {v : Vec T} {xs : List T} (h : VRep v xs) : v.used = xs.length ∧ v.used ≤ v.cap ∧ v.arr.length = v.cap := ⟨h.used, h.fits, h.arr.1⟩

example : VRep (Vec.init : Vec Nat) [] := init_vrep

/-- C23, finding: the check in `at` accepts the index `size()`; after `resize` this is one past the array. -/
theorem at_end_unchecked {v v' : Vec T} {xs : List T} {n : Nat} {x : T} (h : VRep v xs) (e : v.resize n x = .ok v') : v'.used = n ∧ v'.at n = .error .outOfBounds := by
  obtain ⟨v1, e1, hc, h1, _⟩ := changeSize_spec h n
  have hv : VRep v' (xs.take n ++ List.replicate (n - xs.length) x) := by
    obtain ⟨v2, e2, h2⟩ := vec_step h (.resize n x)
    simp only [vstep, bind, Except.bind, e, Except.ok.injEq, Prod.mk.injEq] at e2
    exact e2.1 ▸ h2
  have hcap : v'.cap = n := by
    simp only [Vec.resize, bind, Except.bind, e1] at e
    split at e
    · cases e
    · simp only [Except.ok.injEq] at e; subst e; exact hc
  refine ⟨?_, ?_⟩
  · rw [hv.used, List.length_append, List.length_take, List.length_replicate]; omega
  · have := hv.arr.1
    unfold Vec.at rdA
    rw [List.getElem?_eq_none (by omega)]

example : VRep (Vec.init : Vec Nat) [] ∧ ∃ v' : Vec Nat, Vec.init.resize 3 1 = .ok v' := ⟨init_vrep, by
  obtain ⟨v, e, _⟩ := vec_step (init_vrep (T := Nat)) (.resize 3 1)
  simp only [vstep, bind, Except.bind] at e
  split at e
  · cases e
  · next h => exact ⟨_, h⟩⟩

/-- C23, finding: appending an element of the vector itself, when the array is full, reads the deleted array. -/
theorem push_own_element {v : Vec T} {xs : List T} {i : Nat} (h : VRep v xs) (hfull : v.cap ≤ v.used + 1) : v.pushBackOwn i = .error .dangling := by
  obtain ⟨v1, e, _⟩ := growIfNeeded_spec h 1 (by omega)
  unfold Vec.pushBackOwn
  simp only [bind, Except.bind, e]
  rw [if_pos hfull]

/-- Seven elements in the first allocation. -/
example : VRep (⟨some (List.replicate 7 (some 1) ++ [none]), 8, 7⟩ : Vec Nat) (List.replicate 7 1) ∧ 8 ≤ 7 + 1 :=
  ⟨⟨rfl, by decide, by simp, by intro a ha; simp only [Option.some.injEq] at ha; subst ha; exact ⟨rfl, [none], rfl⟩⟩, by decide⟩

/-- C23, finding: assigning a vector to itself empties it. -/
theorem assign_self_empties {v : Vec T} {xs : List T} (_h : VRep v xs) : ∃ v', v.assignSelf = .ok v' ∧ VRep v' [] :=
  ⟨v.clear, by simp [Vec.assignSelf, Vec.clear, Vec.changeSize, assignLoop, bind, Except.bind], ⟨rfl, Nat.le_refl _, fun _ => rfl, by simp [Vec.clear]⟩⟩

example : VRep (⟨some [some 1], 1, 1⟩ : Vec Nat) [1] := ⟨rfl, by decide, by simp, by intro a ha; simp only [Option.some.injEq] at ha; subst ha; exact ⟨rfl, [], rfl⟩⟩

end Verif.Cont

#print axioms Verif.Cont.vec_step
#print axioms Verif.Cont.vec_refines
#print axioms Verif.Cont.vec_at_partial
#print axioms Verif.Cont.vec_size
#print axioms Verif.Cont.at_end_unchecked
#print axioms Verif.Cont.push_own_element
#print axioms Verif.Cont.assign_self_empties
