/-
General list lemmas used by the registry proofs.
-/
namespace Verif.SH

variable {α β : Type}

theorem nodup_key_inj {key : α → β} {l : List α} (hn : (l.map key).Nodup) {x y : α}
    (hx : x ∈ l) (hy : y ∈ l) (h : key x = key y) : x = y := by
  induction l with
  | nil => cases hx
  | cons a t ih =>
    simp only [List.map_cons, List.nodup_cons, List.mem_map, not_exists, not_and] at hn
    rcases List.mem_cons.1 hx with rfl | hx'
    · rcases List.mem_cons.1 hy with rfl | hy'
      · rfl
      · exact absurd h.symm (hn.1 y hy')
    · rcases List.mem_cons.1 hy with rfl | hy'
      · exact absurd h (hn.1 x hx')
      · exact ih hn.2 hx' hy'

theorem find?_key [DecidableEq β] {key : α → β} {l : List α} (hn : (l.map key).Nodup) {x : α}
    (hx : x ∈ l) : l.find? (fun y => key y == key x) = some x := by
  cases hf : l.find? (fun y => key y == key x) with
  | none => simp at hf; exact absurd rfl (hf x hx)
  | some y =>
    have h1 := List.mem_of_find?_eq_some hf
    have h2 := List.find?_some hf
    simp at h2
    rw [nodup_key_inj hn h1 hx h2]

theorem find?_key' [DecidableEq β] {key : α → β} {l : List α} (hn : (l.map key).Nodup) {x : α} {k : β}
    (hx : x ∈ l) (hk : key x = k) : l.find? (fun y => key y == k) = some x := by
  subst hk; exact find?_key hn hx

theorem find?_key_some [DecidableEq β] {key : α → β} {l : List α} {k : β} {x : α}
    (h : l.find? (fun y => key y == k) = some x) : x ∈ l ∧ key x = k := by
  have h1 := List.mem_of_find?_eq_some h
  have h2 := List.find?_some h
  simp at h2
  exact ⟨h1, h2⟩

theorem find?_key_none [DecidableEq β] {key : α → β} {l : List α} {k : β}
    (h : l.find? (fun y => key y == k) = none) : ∀ x ∈ l, key x ≠ k := by
  intro x hx; simp at h; exact h x hx

/-- Replacing the element with a given key. -/
theorem mem_mapUpd [DecidableEq β] {key : α → β} {l : List α} {x x' z : α}
    (hx : x ∈ l) (hk : key x' = key x) :
    z ∈ l.map (fun y => if key y = key x' then x' else y) ↔ z = x' ∨ (z ∈ l ∧ key z ≠ key x') := by
  simp only [List.mem_map]
  constructor
  · rintro ⟨y, hy, rfl⟩
    by_cases h : key y = key x'
    · simp [h]
    · right; simp [h, hy]
  · rintro (rfl | ⟨h1, h2⟩)
    · exact ⟨x, hx, by simp [hk]⟩
    · exact ⟨z, h1, by simp [h2]⟩

theorem map_mapUpd [DecidableEq β] {γ : Type} {key : α → β} {f : α → γ} {l : List α} {x x' : α}
    (hn : (l.map key).Nodup) (hx : x ∈ l) (hk : key x' = key x) (hf : f x' = f x) :
    (l.map (fun y => if key y = key x' then x' else y)).map f = l.map f := by
  rw [List.map_map]
  apply List.map_congr_left
  intro y hy
  simp only [Function.comp]
  by_cases h : key y = key x'
  · rw [if_pos h, hf]
    rw [nodup_key_inj hn hx hy (by rw [← hk, h])]
  · rw [if_neg h]

theorem nodup_map_filter {key : α → β} {l : List α} (p : α → Bool) (hn : (l.map key).Nodup) :
    ((l.filter p).map key).Nodup :=
  hn.sublist ((List.filter_sublist).map key)

theorem eraseP_split {p : α → Bool} {l : List α} {x : α} (h : l.find? p = some x) :
    ∃ A B, l = A ++ x :: B ∧ (∀ a ∈ A, p a = false) ∧ p x = true ∧ l.eraseP p = A ++ B := by
  induction l with
  | nil => simp at h
  | cons a t ih =>
    by_cases hp : p a = true
    · simp [List.find?, hp] at h
      subst h
      exact ⟨[], t, rfl, by simp, hp, by simp [hp]⟩
    · simp only [Bool.not_eq_true] at hp
      simp [List.find?, hp] at h
      obtain ⟨A, B, h1, h2, h3, h4⟩ := ih h
      refine ⟨a :: A, B, by simp [h1], ?_, h3, by simp [hp, h4]⟩
      intro b hb
      rcases List.mem_cons.1 hb with rfl | hb
      · exact hp
      · exact h2 b hb

end Verif.SH
