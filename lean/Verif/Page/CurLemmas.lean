import Verif.Page.CurText
import Verif.Page.MapsLemmas
/-
Lemmas about the reading of /proc/curproc/map: what the formats make of a line of the kernel.
-/
namespace Verif.CurMap
open Verif.C Verif.Page Verif.Maps

theorem hexRun_read {ds : List Nat} (hd : ∀ d ∈ ds, d < 16) (acc : Nat) (r : List Byte) :
    hexRun acc (ds.map digitChar ++ 32 :: r) = (ds.foldl (fun a d => a * 16 + d) acc, 32 :: r) := by
  induction ds generalizing acc with
  | nil =>
    have h : hexDigit 32 = none := by decide
    simp [hexRun, h]
  | cons d ds ih =>
    rw [List.map_cons, List.cons_append, hexRun, digit_read d (hd d (by simp))]
    exact ih (fun x hx => hd x (List.mem_cons_of_mem _ hx)) _

theorem hexText_head (n : Nat) : ∃ d ds, hexText n = digitChar d :: ds ∧ d < 16 := by
  obtain ⟨ds, h1, h2, _, h4⟩ := hexText_digits n
  cases ds with
  | nil => exact absurd rfl h4
  | cons d ds => exact ⟨d, ds.map digitChar, h1, h2 d (by simp)⟩

theorem signed_digit {d : Nat} (hd : d < 16) (s : List Byte) : signed (digitChar d :: s) = (false, digitChar d :: s) := by
  have h := digit_kind d hd
  simp [signed, h.2.1, h.2.2.1]

theorem skip_digit {d : Nat} (hd : d < 16) (s : List Byte) : skip (digitChar d :: s) = digitChar d :: s := by
  have h := digit_kind d hd
  simp [skip, h.1]

theorem unprefixed_other {a c : Byte} (s : List Byte) (h1 : c ≠ 120) (h2 : c ≠ 88) : unprefixed (a :: c :: s) = a :: c :: s := by
  unfold unprefixed
  split
  · next e =>
    cases e
    rw [if_neg (by simp [h1, h2])]
  · rfl

theorem hexItem_read {W n : Nat} (hn : n < 2 ^ W) (r : List Byte) : hexItem W (hexText n ++ 32 :: r) = (some n, 32 :: r) := by
  obtain ⟨ds, h1, h2, h3, h4⟩ := hexText_digits n
  cases ds with
  | nil => exact absurd rfl h4
  | cons d ds =>
    have hu : unprefixed (digitChar d :: (ds.map digitChar ++ 32 :: r)) = digitChar d :: (ds.map digitChar ++ 32 :: r) := by
      cases ds with
      | nil => exact unprefixed_other _ (by decide) (by decide)
      | cons e ds =>
        have he := digit_kind e (h2 e (by simp))
        exact unprefixed_other _ he.2.2.2.2.1 he.2.2.2.2.2
    have hr := hexRun_read h2 0 r
    rw [List.map_cons, List.cons_append] at hr
    rw [h1, List.map_cons, List.cons_append]
    unfold hexItem
    rw [signed_digit (h2 d (by simp))]
    simp only [hu, hr]
    have hv : (d :: ds).foldl (fun a d => a * 16 + d) 0 = n := h3
    rw [hv, if_neg (by simp; omega)]
    simp [clip, Nat.not_le.2 hn]

theorem scan_hex {W n : Nat} (hn : n < 2 ^ W) (a : Slot) (ds : List Dir) (k : Nat) (v : Vars) (r : List Byte) :
    scan W (.hex a :: ds) k v (hexText n ++ 32 :: r) = scan W ds (k + 1) (v.num a n) (32 :: r) := by
  obtain ⟨d, t, h1, h2⟩ := hexText_head n
  have hi := hexItem_read hn r
  rw [h1, List.cons_append] at hi ⊢
  rw [scan, skip_digit h2]
  simp only [hi]

theorem decDigit : ∀ d < 10, isdigit (digitChar d) = true := by decide +kernel

theorem decText_digits (n : Nat) : ∃ (d : Nat) (ds : List Nat), decText n = digitChar d :: ds.map digitChar ∧ d < 10 ∧ ∀ x ∈ ds, x < 10 := by
  induction n using Nat.strongRecOn with
  | _ n ih =>
    unfold decText
    split
    · next h => exact ⟨n, [], rfl, h, by simp⟩
    · next h =>
      obtain ⟨d, ds, h1, h2, h3⟩ := ih (n / 10) (by omega)
      refine ⟨d, ds ++ [n % 10], by simp [h1], h2, ?_⟩
      intro x hx
      rcases List.mem_append.1 hx with hx | hx
      · exact h3 x hx
      · simp at hx; omega

theorem decRun_read {ds : List Nat} (hd : ∀ d ∈ ds, d < 10) (r : List Byte) : decRun (ds.map digitChar ++ 32 :: r) = 32 :: r := by
  induction ds with
  | nil =>
    have h : isdigit 32 = false := by decide
    simp [decRun, h]
  | cons d ds ih =>
    have h := decDigit d (hd d (by simp))
    have := ih (fun x hx => hd x (List.mem_cons_of_mem _ hx))
    unfold decRun at this ⊢
    simpa [h] using this

theorem scan_dec (W : Nat) (n : Nat) (ds : List Dir) (k : Nat) (v : Vars) (r : List Byte) :
    scan W (.dec :: ds) k v (decText n ++ 32 :: r) = scan W ds (k + 1) v (32 :: r) := by
  obtain ⟨d, t, h1, h2, h3⟩ := decText_digits n
  have hr := decRun_read (ds := d :: t) (by simpa using ⟨h2, h3⟩) r
  have hi : decItem (digitChar d :: (t.map digitChar ++ 32 :: r)) = (true, 32 :: r) := by
    unfold decItem
    rw [signed_digit (by omega)]
    rw [List.map_cons, List.cons_append] at hr
    simp [hr]
    omega
  rw [h1, List.cons_append, scan, skip_digit (by omega)]
  simp only [hi]

theorem scan_lit (W : Nat) (c : Byte) (ds : List Dir) (k : Nat) (v : Vars) (s : List Byte) :
    scan W (.lit c :: ds) k v (c :: s) = scan W ds k v s := by simp [scan]

theorem skip_space {d : Byte} (hd : isspace d = false) (s : List Byte) : skip (32 :: d :: s) = d :: s := by
  have h : isspace 32 = true := by decide
  simp [skip, h, hd]

theorem scan_space {W : Nat} {d : Byte} (hd : isspace d = false) (ds : List Dir) (k : Nat) (v : Vars) (s : List Byte) :
    scan W (.space :: ds) k v (32 :: d :: s) = scan W ds k v (d :: s) := by rw [scan, skip_space hd]

theorem scan_space_dec (W n : Nat) (ds : List Dir) (k : Nat) (v : Vars) (r : List Byte) :
    scan W (.space :: ds) k v (32 :: (decText n ++ 32 :: r)) = scan W ds k v (decText n ++ 32 :: r) := by
  obtain ⟨d, t, h1, h2, _⟩ := decText_digits n
  rw [h1, List.cons_append]
  exact scan_space (digit_kind d (by omega)).1 _ _ _ _

/-- The character for reading, as the kernel writes it. No counterpart in /repo: used in the proofs. -/
def readChar (b : Bool) : Byte := if b then 114 else 45

theorem readChar_kind (b : Bool) : isspace (readChar b) = false := by cases b <;> decide

/-- What is left of a line behind the second bound. No counterpart in /repo: used in the proofs. -/
def behind (m : Mapping) : List Byte :=
  32 :: (decText m.resident ++ 32 :: (decText m.priv ++ 32 :: (objText m.obj ++ 32 :: (flagText m.bits ++ (m.rest ++ [10])))))

theorem scan_bounds {W : Nat} {m : Mapping} (h1 : m.lo < 2 ^ W) (h2 : m.hi < 2 ^ W) (ds : List Dir) (v : Vars) (t : List Byte) :
    scan W ([.lit 48, .lit 120, .hex .lo, .space, .lit 48, .lit 120, .hex .hi] ++ ds) 0 v (m.line ++ t) =
      scan W ds 2 { v with lo := some m.lo, hi := some m.hi } (behind m ++ t) := by
  unfold Mapping.line behind
  simp only [List.cons_append, List.append_assoc, List.nil_append]
  rw [scan_lit, scan_lit, scan_hex h1, scan_space (by decide), scan_lit, scan_lit, scan_hex h2]
  rfl

theorem scan_obj {W : Nat} {m : Mapping} (h1 : m.lo < 2 ^ W) (h2 : m.hi < 2 ^ W) (h3 : m.obj < 2 ^ W) (ho : m.obj ≠ 0) (v : Vars)
    (t : List Byte) : scan W bitsFormat 0 v (m.line ++ t) =
      ⟨⟨some m.lo, some m.hi, some (readChar m.bits.r), some (if m.bits.w then 119 else 45), some (if m.bits.x then 120 else 45)⟩, 8, .done,
        m.rest ++ 10 :: t⟩ := by
  have e : bitsFormat = [.lit 48, .lit 120, .hex .lo, .space, .lit 48, .lit 120, .hex .hi] ++ [.space, .dec, .space, .dec, .space,
   .lit 48, .lit 120, .hex .ignored, .space, .chr .r, .chr .w, .chr .x] := rfl
  rw [e, scan_bounds h1 h2]
  unfold behind objText flagText
  rw [if_neg ho]
  simp only [List.cons_append, List.append_assoc, List.nil_append]
  rw [scan_space_dec, scan_dec, scan_space_dec, scan_dec, scan_space (by decide), scan_lit, scan_lit, scan_hex h3]
  have hs : (if m.bits.r = true then (114 : Byte) else 45) = readChar m.bits.r := rfl
  rw [hs, scan_space (readChar_kind _)]
  rfl

theorem scan_null {W : Nat} {m : Mapping} (h1 : m.lo < 2 ^ W) (h2 : m.hi < 2 ^ W) (ho : m.obj = 0) (v : Vars)
    (t : List Byte) : scan W bitsFormat 0 v (m.line ++ t) =
      ⟨{ v with lo := some m.lo, hi := some m.hi }, 4, .mismatch, 32 :: (flagText m.bits ++ (m.rest ++ 10 :: t))⟩ := by
  have e : bitsFormat = [.lit 48, .lit 120, .hex .lo, .space, .lit 48, .lit 120, .hex .hi] ++ [.space, .dec, .space, .dec, .space,
   .lit 48, .lit 120, .hex .ignored, .space, .chr .r, .chr .w, .chr .x] := rfl
  rw [e, scan_bounds h1 h2]
  unfold behind objText
  rw [if_pos ho]
  simp only [List.cons_append, List.append_assoc, List.nil_append]
  rw [scan_space_dec, scan_dec, scan_space_dec, scan_dec, scan_space (by decide), scan_lit]
  simp [scan]

theorem scan_module {W : Nat} {m : Mapping} (h1 : m.lo < 2 ^ W) (h2 : m.hi < 2 ^ W) (v : Vars) (t : List Byte) :
    scan W moduleFormat 0 v (m.line ++ t) = ⟨{ v with lo := some m.lo, hi := some m.hi }, 2, .done, behind m ++ t⟩ := by
  have e : moduleFormat = [.lit 48, .lit 120, .hex .lo, .space, .lit 48, .lit 120, .hex .hi] ++ [] := rfl
  rw [e, scan_bounds h1 h2]
  rfl

theorem nextLine_at {a : List Byte} (h : 10 ∉ a) (t : List Byte) : nextLine (a ++ 10 :: t) = some t := by
  induction a with
  | nil => simp [nextLine]
  | cons c a ih =>
    have hc : c ≠ 10 := fun e => h (by simp [e])
    rw [List.cons_append, nextLine, if_neg hc]
    exact ih (fun hm => h (List.mem_cons_of_mem _ hm))

theorem hexText_no_newline (n : Nat) : 10 ∉ hexText n := by
  obtain ⟨ds, h1, h2, _, _⟩ := hexText_digits n
  rw [h1]
  intro h
  obtain ⟨d, hd, he⟩ := List.mem_map.1 h
  exact (digit_kind d (h2 d hd)).2.2.2.1 he

theorem decText_no_newline (n : Nat) : 10 ∉ decText n := by
  obtain ⟨d, ds, h1, h2, h3⟩ := decText_digits n
  rw [h1]
  intro h
  rcases List.mem_cons.1 h with h | h
  · exact (digit_kind d (by omega)).2.2.2.1 h.symm
  · obtain ⟨e, he, hq⟩ := List.mem_map.1 h
    exact (digit_kind e (by have := h3 e he; omega)).2.2.2.1 hq

theorem behind_next {m : Mapping} (h : 10 ∉ m.rest) (t : List Byte) : nextLine (behind m ++ t) = some t := by
  have e : behind m ++ t = (32 :: (decText m.resident ++ 32 :: (decText m.priv ++ 32 :: (objText m.obj ++ 32 :: (flagText m.bits ++ m.rest))))) ++ 10 :: t := by
    simp [behind]
  rw [e]
  apply nextLine_at
  have a := decText_no_newline m.resident
  have b := decText_no_newline m.priv
  have c := flags_no_newline m.bits
  have d : 10 ∉ objText m.obj := by
    unfold objText
    split
    · decide
    · simp [hexText_no_newline]
  simp [a, b, c, d, h]

theorem scan_end (W : Nat) (ds : List Dir) (v : Vars) (c : Byte) : scan W (.lit c :: ds) 0 v [] = ⟨v, 0, .input, []⟩ := rfl

end Verif.CurMap
