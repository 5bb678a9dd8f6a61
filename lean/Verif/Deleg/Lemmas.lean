/-
Helper lemmas on delegates: the laws of pointers to members that both compilers meet, and the order of byte strings.
-/
import Verif.Deleg.Model

namespace Verif.Deleg

theorem bytes_length : ∀ (k x : Nat), (bytes k x).length = k
  | 0, _ => rfl
  | k + 1, x => by rw [bytes, List.length_cons, bytes_length k]

theorem bytes_inj : ∀ (k : Nat) {x y : Nat}, x < 256 ^ k → y < 256 ^ k → bytes k x = bytes k y → x = y
  | 0, x, y, hx, hy, _ => by
    rw [Nat.pow_zero] at hx hy; omega
  | k + 1, x, y, hx, hy, h => by
    rw [bytes, bytes] at h
    have h1 := (List.cons.inj h).1
    have h2 := (List.cons.inj h).2
    rw [Nat.pow_succ] at hx hy
    have hx' : x / 256 < 256 ^ k := Nat.div_lt_of_lt_mul (by rw [Nat.mul_comm]; exact hx)
    have hy' : y / 256 < 256 ^ k := Nat.div_lt_of_lt_mul (by rw [Nat.mul_comm]; exact hy)
    have h3 := bytes_inj k hx' hy' h2
    omega

theorem toNat_lt {n : Nat} (x : W n) : x.toNat < 256 ^ n := by
  have h := x.isLt
  rw [Nat.pow_mul] at h
  exact h

theorem word_inj {n : Nat} {x y : W n} (h : bytes n x.toNat = bytes n y.toNat) : x = y :=
  BitVec.eq_of_toNat_eq (bytes_inj n (toNat_lt x) (toNat_lt y) h)

theorem memLt_irrefl : ∀ l : List Nat, memLt l l = false
  | [] => rfl
  | a :: as => by
    have h : ¬ a < a := Nat.lt_irrefl a
    rw [memLt, if_neg h, if_neg h, memLt_irrefl as]

theorem memLt_trans : ∀ {a b c : List Nat}, memLt a b = true → memLt b c = true → memLt a c = true
  | [], _, _, h, _ => by simp [memLt] at h
  | _ :: _, [], _, h, _ => by simp [memLt] at h
  | _ :: _, _ :: _, [], _, h => by simp [memLt] at h
  | x :: a, y :: b, z :: c, h1, h2 => by
    rw [memLt] at h1 h2 ⊢
    by_cases hxy : x < y
    · by_cases hyz : y < z
      · rw [if_pos (by omega)]
      · by_cases hzy : z < y
        · rw [if_neg hyz, if_pos hzy] at h2; exact absurd h2 (by simp)
        · rw [if_pos (by omega)]
    · by_cases hyx : y < x
      · rw [if_neg hxy, if_pos hyx] at h1; exact absurd h1 (by simp)
      · have e : x = y := by omega
        subst e
        rw [if_neg hxy, if_neg hyx] at h1
        by_cases hyz : x < z
        · rw [if_pos hyz]
        · by_cases hzy : z < x
          · rw [if_neg hyz, if_pos hzy] at h2; exact absurd h2 (by simp)
          · rw [if_neg hyz, if_neg hzy] at h2 ⊢
            exact memLt_trans h1 h2

theorem memLt_total : ∀ {a b : List Nat}, a.length = b.length → a ≠ b → memLt a b = true ∨ memLt b a = true
  | [], [], _, h => absurd rfl h
  | [], _ :: _, h, _ => by simp at h
  | _ :: _, [], h, _ => by simp at h
  | x :: a, y :: b, hl, hne => by
    rw [memLt, memLt]
    by_cases hxy : x < y
    · exact Or.inl (by rw [if_pos hxy])
    · by_cases hyx : y < x
      · exact Or.inr (by rw [if_pos hyx])
      · have e : x = y := by omega
        subst e
        simp only [hxy, if_false]
        exact memLt_total (by simpa using hl) (fun h => hne (by rw [h]))

theorem pair_inj {B x y a b : Nat} (hx : x < B) (hy : y < B) : x + B * a = y + B * b ↔ x = y ∧ a = b := by
  refine ⟨fun h => ?_, fun h => by rw [h.1, h.2]⟩
  have h1 : (x + B * a) % B = (y + B * b) % B := by rw [h]
  rw [Nat.add_mul_mod_self_left, Nat.add_mul_mod_self_left, Nat.mod_eq_of_lt hx, Nat.mod_eq_of_lt hy] at h1
  subst h1
  have h2 : B * a = B * b := by omega
  exact ⟨rfl, Nat.eq_of_mul_eq_mul_left (by omega) h2⟩

/-- What is needed of a compiler. No counterpart in /repo: a helper for the proofs; both instances are proved to meet it. -/
structure Law {n : Nat} {F : Type} (G : Gen n F) : Prop where
  refl : ∀ f, G.eq f f = true
  symm : ∀ f g, G.eq f g = true → G.eq g f = true
  trans : ∀ f g h, G.eq f g = true → G.eq g h = true → G.eq f h = true
  exact_ : ∀ f g, G.eq f G.zero = false → G.eq f g = true → f = g
  null : ∀ mem p f, G.eq f G.zero = true → G.call mem p f = none
  inj : ∀ f g, G.bytes f = G.bytes g → f = g
  len : ∀ f g, (G.bytes f).length = (G.bytes g).length
  key : ∃ k : F → Nat, ∀ f g, G.eq f g = true ↔ k f = k g

theorem law_itanium (n : Nat) : Law (itanium n) where
  refl f := by simp [itanium]
  symm f g h := by
    simp only [itanium, Bool.and_eq_true, Bool.or_eq_true, decide_eq_true_eq] at h ⊢
    refine ⟨h.1.symm, ?_⟩
    rcases h.2 with h' | h'
    · exact Or.inl (h.1 ▸ h')
    · exact Or.inr h'.symm
  trans f g k h h' := by
    simp only [itanium, Bool.and_eq_true, Bool.or_eq_true, decide_eq_true_eq] at h h' ⊢
    refine ⟨h.1.trans h'.1, ?_⟩
    rcases h.2 with a | a
    · exact Or.inl a
    · rcases h'.2 with b | b
      · exact Or.inl (h.1.trans b)
      · exact Or.inr (a.trans b)
  exact_ f g h h' := by
    simp only [itanium, Bool.and_eq_true, Bool.or_eq_true, decide_eq_true_eq, Bool.and_eq_false_iff, Bool.or_eq_false_iff,
      decide_eq_false_iff_not] at h h'
    have hp : f.ptr ≠ 0 := by
      intro e
      rcases h with h | h
      · exact h e
      · exact h.1 e
    rcases h'.2 with a | a
    · exact absurd a hp
    · obtain ⟨_, _⟩ := f
      obtain ⟨_, _⟩ := g
      simp only [Mfp.mk.injEq]
      exact ⟨h'.1, a⟩
  null mem p f h := by
    simp only [itanium, Bool.and_eq_true, Bool.or_eq_true, decide_eq_true_eq] at h ⊢
    rw [if_pos h.1]
  inj f g h := by
    have h' := List.append_inj h (by rw [bytes_length, bytes_length])
    have h1 := word_inj h'.1
    have h2 := word_inj h'.2
    obtain ⟨_, _⟩ := f
    obtain ⟨_, _⟩ := g
    simp only [Mfp.mk.injEq]
    exact ⟨h1, h2⟩
  len f g := by simp [itanium, bytes_length]
  key := by
    refine ⟨fun f => if f.ptr = 0 then 0 else f.ptr.toNat + 256 ^ n * f.adj.toNat, fun f g => ?_⟩
    simp only [itanium, Bool.and_eq_true, Bool.or_eq_true, decide_eq_true_eq]
    have pos : ∀ x : W n, x ≠ 0 → x.toNat ≠ 0 := fun x hx h => hx (BitVec.eq_of_toNat_eq (by rw [h]; simp))
    by_cases hf : f.ptr = 0
    · rw [if_pos hf]
      by_cases hg : g.ptr = 0
      · rw [if_pos hg]; exact ⟨fun _ => rfl, fun _ => ⟨hf.trans hg.symm, Or.inl hf⟩⟩
      · rw [if_neg hg]
        refine ⟨fun h => absurd (h.1.symm.trans hf) hg, fun h => ?_⟩
        have := pos _ hg
        omega
    · rw [if_neg hf]
      by_cases hg : g.ptr = 0
      · rw [if_pos hg]
        refine ⟨fun h => absurd (h.1.trans hg) hf, fun h => ?_⟩
        have := pos _ hf
        omega
      · rw [if_neg hg, pair_inj (toNat_lt _) (toNat_lt _)]
        refine ⟨fun h => ⟨congrArg _ h.1, ?_⟩, fun h => ⟨BitVec.eq_of_toNat_eq h.1, Or.inr (BitVec.eq_of_toNat_eq h.2)⟩⟩
        rcases h.2 with h' | h'
        · exact absurd h' hf
        · rw [h']

theorem law_msvc (n : Nat) : Law (msvc n) where
  refl f := by simp [msvc]
  symm f g h := by
    simp only [msvc, decide_eq_true_eq] at h ⊢
    exact h.symm
  trans f g k h h' := by
    simp only [msvc, decide_eq_true_eq] at h h' ⊢
    exact h.trans h'
  exact_ f g _ h := by simpa [msvc] using h
  null mem p f h := by
    simp only [msvc, decide_eq_true_eq] at h ⊢
    rw [if_pos h]
  inj f g h := word_inj h
  len f g := by simp [msvc, bytes_length]
  key := ⟨fun f => f.toNat, fun f g => by
    simp only [msvc, decide_eq_true_eq]
    exact ⟨fun h => by rw [h], BitVec.eq_of_toNat_eq⟩⟩

theorem zero_left {n : Nat} {F : Type} {G : Gen n F} (L : Law G) {f : F} (h : G.eq f G.zero = false) : G.eq G.zero f = false := by
  cases e : G.eq G.zero f with
  | false => rfl
  | true => rw [L.symm _ _ e] at h; exact absurd h (by simp)

/-- The four-byte and eight-byte sizes of the representations. -/
theorem size_of {n : Nat} (hn : n = 4 ∨ n = 8) (k : Kind) :
    k.size n = match k with
      | .single => n
      | .multiple => if n = 4 then 8 else 16
      | .virtual_ => n + 8
      | .unknown => if n = 4 then 16 else 24 := by
  rcases hn with rfl | rfl <;> cases k <;> rfl

end Verif.Deleg
