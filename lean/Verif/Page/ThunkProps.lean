import Verif.Page.Thunk
import Verif.Page.AllocProps

/-!
C20: the thunk jumps to the original function.
-/
namespace Verif.Page

/-! ## Bytes -/

theorem le_length (n x : Nat) : (le n x).length = n := by
  induction n generalizing x with
  | zero => rfl
  | succ n ih => simp [le, ih]

theorem unle_le (n x : Nat) : unle (le n x) = x % 256 ^ n := by
  induction n generalizing x with
  | zero => simp [le, unle, Nat.mod_one]
  | succ n ih =>
    simp only [le, unle, ih]
    rw [Nat.pow_succ, Nat.mul_comm (256 ^ n) 256, Nat.mod_mul]

theorem le_take (n k x : Nat) : (le (n + k) x).take n = le n x := by
  induction n generalizing x with
  | zero => simp [le]
  | succ n ih => rw [show n + 1 + k = (n + k) + 1 by omega]; simp [le, ih]

theorem store_other (m : Mem) (a : Nat) (bs : List Nat) (x : Nat) (h : x < a ∨ a + bs.length ≤ x) : store m a bs x = m x := by
  induction bs generalizing m a with
  | nil => rfl
  | cons b bs ih =>
    simp only [List.length_cons] at h
    rw [store, ih _ _ (by omega)]
    exact if_neg (by omega)

theorem store_at (m : Mem) (a : Nat) (bs : List Nat) (i : Nat) (h : i < bs.length) : store m a bs (a + i) = bs[i] := by
  induction bs generalizing m a i with
  | nil => simp at h
  | cons b bs ih =>
    rw [store]
    cases i with
    | zero => rw [store_other _ _ _ _ (Or.inl (by omega))]; simp
    | succ i => rw [show a + (i + 1) = a + 1 + i by omega, ih _ _ _ (by simpa using h)]; simp

theorem load_eq (m : Mem) (a : Nat) (bs : List Nat) (h : ∀ i (hi : i < bs.length), m (a + i) = bs[i]) : load m a bs.length = bs := by
  induction bs generalizing a with
  | nil => rfl
  | cons b bs ih =>
    simp only [List.length_cons, load]
    rw [ih (a + 1) (fun i hi => by rw [show a + 1 + i = a + (i + 1) by omega, h (i + 1) (by simpa using hi)]; simp)]
    congr 1
    exact h 0 (by simp)

theorem load_store (m : Mem) (a : Nat) (bs : List Nat) : load (store m a bs) a bs.length = bs :=
  load_eq _ _ _ fun i hi => store_at m a bs i hi

theorem load_congr {m m' : Mem} {a n : Nat} (h : ∀ x, a ≤ x → x < a + n → m x = m' x) : load m a n = load m' a n := by
  induction n generalizing a with
  | zero => rfl
  | succ n ih => rw [load, load, h a (by omega) (by omega), ih (fun x h1 h2 => h x (by omega) (by omega))]

theorem load_take (m : Mem) (a n k : Nat) : (load m a (n + k)).take n = load m a n := by
  induction n generalizing a with
  | zero => simp [load]
  | succ n ih => rw [show n + 1 + k = (n + k) + 1 by omega]; simp [load, ih]

theorem load_store_take (m : Mem) (a n k x : Nat) : load (store m a (le (n + k) x)) a n = le n x := by
  have h := load_store m a (le (n + k) x)
  rw [le_length] at h
  rw [← load_take _ _ _ k, h, le_take]

/-! ## The claim -/

/-- The machine reaches `target` from `c` by executing instructions that begin in `[lo, hi)` only. -/
inductive Reaches (m : Mem) (lo hi : Nat) : Cpu → Nat → Prop where
  | last {c c' : Cpu} : lo ≤ c.rip → c.rip < hi → cpuStep m c = some c' → Reaches m lo hi c c'.rip
  | more {c c' : Cpu} {t : Nat} : lo ≤ c.rip → c.rip < hi → cpuStep m c = some c' → Reaches m lo hi c' t → Reaches m lo hi c t

/-- C20: for every original address, every thunk address, whatever was in memory and in `rax`, executing at the thunk leads to
exactly the original address, by instructions of the thunk. -/
theorem thunk_jumps (m : Mem) {orig thunk : Nat} (rax : Nat) (ho : orig < 2 ^ 64) (ht : thunk + 12 ≤ 2 ^ 64) :
    Reaches (writeThunk m orig thunk) thunk (thunk + 12) ⟨thunk, rax⟩ orig := by
  unfold writeThunk
  dsimp only
  by_cases h : -(2 ^ 31) ≤ thunkOffset orig thunk ∧ thunkOffset orig thunk ≤ 2 ^ 31 - 1
  · rw [if_pos h]
    have h0 : store (store m thunk [0xE9]) (thunk + 1) (le 8 (u64 (thunkOffset orig thunk))) thunk = 0xE9 := by
      rw [store_other _ _ _ _ (Or.inl (by omega))]
      simp [store]
    have hstep : cpuStep (store (store m thunk [0xE9]) (thunk + 1) (le 8 (u64 (thunkOffset orig thunk)))) ⟨thunk, rax⟩ =
        some ⟨orig, rax⟩ := by
      unfold cpuStep
      rw [if_pos h0]
      dsimp only
      rw [show (8 : Nat) = 4 + 4 from rfl, load_store_take, unle_le]
      congr 2
      obtain ⟨h1, h2⟩ := h
      unfold thunkOffset s64 u64 at *
      unfold s32
      split at h1 <;> split <;> omega
    exact .last (c := ⟨thunk, rax⟩) (c' := ⟨orig, rax⟩) (Nat.le_refl _) (by show thunk < thunk + 12; omega) hstep
  · rw [if_neg h]
    generalize hm : store (store (store (store (store m thunk [0x48]) (thunk + 1) [0xB8]) (thunk + 2) (le 8 orig)) (thunk + 10) [0xFF]) (thunk + 11) [0xE0] = m'
    have g0 : m' thunk = 0x48 := by
      rw [← hm]
      rw [store_other _ _ _ _ (Or.inl (by omega)), store_other _ _ _ _ (Or.inl (by omega)), store_other _ _ _ _ (Or.inl (by omega)),
        store_other _ _ _ _ (Or.inl (by omega))]
      simp [store]
    have g1 : m' (thunk + 1) = 0xB8 := by
      rw [← hm]
      rw [store_other _ _ _ _ (Or.inl (by omega)), store_other _ _ _ _ (Or.inl (by omega)), store_other _ _ _ _ (Or.inl (by omega))]
      simp [store]
    have g2 : load m' (thunk + 2) 8 = le 8 orig := by
      rw [← hm]
      refine Eq.trans (load_congr (m' := store (store (store m thunk [0x48]) (thunk + 1) [0xB8]) (thunk + 2) (le 8 orig)) ?_) ?_
      · intro x h1 h2
        rw [store_other _ _ _ _ (Or.inl (by omega)), store_other _ _ _ _ (Or.inl (by omega))]
      · exact load_store_take _ _ 8 0 _
    have g10 : m' (thunk + 10) = 0xFF := by
      rw [← hm]
      rw [store_other _ _ _ _ (Or.inl (by omega))]
      simp [store]
    have g11 : m' (thunk + 11) = 0xE0 := by
      rw [← hm]
      simp [store]
    have s1 : cpuStep m' ⟨thunk, rax⟩ = some ⟨thunk + 10, orig⟩ := by
      unfold cpuStep
      dsimp only
      rw [if_neg (by rw [g0]; decide), if_pos ⟨g0, g1⟩, g2, unle_le]
      congr 2
      exact Nat.mod_eq_of_lt ho
    have s2 : cpuStep m' ⟨thunk + 10, orig⟩ = some ⟨orig, orig⟩ := by
      unfold cpuStep
      dsimp only
      rw [if_neg (by rw [g10]; decide), if_neg (by rw [g10]; exact fun h => absurd h.1 (by decide)), if_pos ⟨g10, g11⟩]
    exact .more (c := ⟨thunk, rax⟩) (Nat.le_refl _) (by show thunk < thunk + 12; omega) s1
      (.last (c := ⟨thunk + 10, orig⟩) (c' := ⟨orig, orig⟩) (by show thunk ≤ thunk + 10; omega) (by show thunk + 10 < thunk + 12; omega) s2)

/-- Both forms: an original near the thunk, and one 1 TiB away. -/
example : (writeThunk (fun _ => 0) 41 0x1000) 0x1000 = 0xE9 ∧ (writeThunk (fun _ => 0) 41 0x10000000000) 0x10000000000 = 0x48 := by decide

/-- C20: nothing outside the 12 bytes is written. -/
theorem thunk_fits (m : Mem) (orig thunk : Nat) {x : Nat} (hx : x < thunk ∨ thunk + 12 ≤ x) : writeThunk m orig thunk x = m x := by
  unfold writeThunk
  dsimp only
  split
  · rw [store_other _ _ _ _ (by rw [le_length]; omega), store_other _ _ _ _ (by simp only [List.length_cons, List.length_nil]; omega)]
  · rw [store_other _ _ _ _ (by simp only [List.length_cons, List.length_nil]; omega),
      store_other _ _ _ _ (by simp only [List.length_cons, List.length_nil]; omega), store_other _ _ _ _ (by rw [le_length]; omega),
      store_other _ _ _ _ (by simp only [List.length_cons, List.length_nil]; omega),
      store_other _ _ _ _ (by simp only [List.length_cons, List.length_nil]; omega)]

example : 0x100c < 0x1000 ∨ 0x1000 + 12 ≤ 0x100c := by decide

/-- C20: the bytes written are bytes. -/
theorem thunk_bytes (m : Mem) (hm : ∀ x, m x < 256) (orig thunk x : Nat) : writeThunk m orig thunk x < 256 := by
  have hle : ∀ n y, ∀ b ∈ le n y, b < 256 := by
    intro n
    induction n with
    | zero => intro y b hb; cases hb
    | succ n ih =>
      intro y b hb
      rcases List.mem_cons.1 hb with e | hb
      · rw [e]; exact Nat.mod_lt _ (by decide)
      · exact ih _ b hb
  have hst : ∀ (bs : List Nat) (m : Mem) (a : Nat), (∀ x, m x < 256) → (∀ b ∈ bs, b < 256) → ∀ x, store m a bs x < 256 := by
    intro bs
    induction bs with
    | nil => intro m a h _ x; exact h x
    | cons b bs ih =>
      intro m a h h2 x
      refine ih _ _ ?_ (fun b' hb' => h2 b' (List.mem_cons_of_mem _ hb')) x
      intro y
      split
      · exact h2 b (by simp)
      · exact h y
  unfold writeThunk
  dsimp only
  split
  · exact hst _ _ _ (hst _ _ _ hm (by decide)) (hle _ _) x
  · exact hst _ _ _ (hst _ _ _ (hst _ _ _ (hst _ _ _ (hst _ _ _ hm (by decide)) (by decide)) (hle _ _)) (by decide)) (by decide) x

example : ∀ x, (fun _ => 0xCC : Mem) x < 256 := by simp

/-- C20: the address handed out for calling the original is even, if the allocator's blocks are. -/
theorem origCallAddr_even (orig : Nat) {thunk : Nat} (h : thunk % 2 = 0) : origCallAddr orig thunk % 2 = 0 := by
  unfold origCallAddr
  split <;> omega

example : origCallAddr 41 0x1000 = 0x1000 ∧ origCallAddr 40 0x1000 = 40 := by decide

/-- C20: with the allocator of `CVfnPtr` (alignment 8, sourcehook_impl_cvfnptr.cpp:17): a new thunk is even, jumps to the original, and writing it
leaves every other block as it was. -/
theorem thunk_alloc {s : PA} (h : Inv s) (h8 : s.align = 8) {map : Nat} (hm : MapOk s 12 map) {orig : Nat} (ho : orig < 2 ^ 64) (rax : Nat) :
    origCallAddr orig (alloc s 12 false map).2 % 2 = 0 ∧
      Reaches (writeThunk (alloc s 12 false map).1.mem orig (alloc s 12 false map).2) (alloc s 12 false map).2 ((alloc s 12 false map).2 + 12) ⟨(alloc s 12 false map).2, rax⟩ orig ∧
      ∀ b ∈ blocks s, ∀ x, b.1 ≤ x → x < b.1 + b.2 → writeThunk (alloc s 12 false map).1.mem orig (alloc s 12 false map).2 x = s.mem x := by
  obtain ⟨hi, hp, _, hmem, hal, _⟩ := alloc_step h false (by decide) hm
  have hin : ((alloc s 12 false map).2, 12) ∈ blocks (alloc s 12 false map).1 := hp.mem_iff.2 (by simp)
  obtain ⟨_, h2, _, r, hr, h4, h5⟩ := blocks_good hi hin
  rw [hal, h8] at h2
  have hfit := (hi.region r hr).1.fits
  refine ⟨origCallAddr_even _ (by dsimp only at h2; omega), thunk_jumps _ _ ho (by dsimp only at h5; omega), ?_⟩
  intro b hb x hx1 hx2
  have hap := (List.pairwise_cons.1 ((hp.pairwise_iff (fun {x y} h => apart_symm h)).1 (blocks_apart hi))).1 b hb
  rw [thunk_fits, hmem]
  rcases hap with ha | ha <;> dsimp only at ha <;> omega

/-- The first thunk of the allocator. -/
example : Inv (init 8 4096 fun _ => 0) ∧ (init 8 4096 fun _ => 0).align = 8 ∧ MapOk (init 8 4096 fun _ => 0) 12 8192 :=
  ⟨(init_inv (by decide) (by decide) (by decide) _).1, rfl, ⟨by decide, by decide, by decide, by simp [init]⟩⟩

/-- For addresses of user space the subtraction of sourcehook_impl_cvfnptr.cpp:56 does not overflow, and is exact. -/
theorem thunkOffset_exact {orig thunk : Nat} (ho : orig < 2 ^ 62) (ht : thunk < 2 ^ 62) : thunkOffset orig thunk = (orig : Int) - thunk - 5 := by
  unfold thunkOffset s64 u64
  split <;> omega

example : 0x7f0000000001 < 2 ^ 62 ∧ 0x1000 < 2 ^ 62 := by decide

end Verif.Page

#print axioms Verif.Page.thunk_jumps
#print axioms Verif.Page.thunk_fits
#print axioms Verif.Page.thunk_bytes
#print axioms Verif.Page.thunk_alloc
#print axioms Verif.Page.origCallAddr_even
#print axioms Verif.Page.thunkOffset_exact
