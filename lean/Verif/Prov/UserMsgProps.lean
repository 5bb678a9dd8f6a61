/-
C69: the list of user messages and the temporary jump over `Error`.
-/
import Verif.Prov.UserMsg
import Verif.Page.MemProps

namespace Verif.Prov
open Verif.Page

/-- Specification: the server has exactly the messages `ms`: it answers with them in order, then in another way. -/
def Has (server : Nat → Ans) (ms : List Msg) : Prop :=
  (∀ i m, ms[i]? = some m → server i = .msg m) ∧ ∀ m, server ms.length ≠ .msg m

/-- Specification: a jump of 32 bits at `target` can lead to `detour`. -/
def InReach (w target detour : Nat) : Prop :=
  w = 32 ∨ (-2 ^ 31 ≤ (detour : Int) - (target + 5) ∧ (detour : Int) - (target + 5) < 2 ^ 31)

/-- Specification: addresses of programs: 32 bits, or the lower half of 64 bits. -/
def Addresses (w target detour : Nat) : Prop :=
  (w = 32 ∧ target + 5 < 2 ^ 32 ∧ detour < 2 ^ 32) ∨ (w = 64 ∧ target + 5 < 2 ^ 63 ∧ detour < 2 ^ 63)

theorem rdAll_ok {k : Nat} {p : Proc} : ∀ {n a : Nat}, (∀ x, a ≤ x → x < a + n → ∃ b, p.prot (x / 2 ^ k) = some b ∧ b.r = true) →
    ∃ bs, rdAll k p a n = .ok bs ∧ bs.length = n ∧ ∀ i, i < n → bs[i]? = some (p.code (a + i)) := by
  intro n
  induction n with
  | zero => intro a _; exact ⟨[], rfl, rfl, fun i hi => by omega⟩
  | succ n ih =>
    intro a h
    obtain ⟨b, hb, hr⟩ := h a (by omega) (by omega)
    obtain ⟨bs, e, hl, hi⟩ := ih (a := a + 1) (fun x h1 h2 => h x (by omega) (by omega))
    refine ⟨p.code a :: bs, ?_, by simp [hl], ?_⟩
    · simp [rdAll, rd, hb, hr, e, bind, Except.bind]
    · intro i hlt
      cases i with
      | zero => simp
      | succ i => simp only [List.getElem?_cons_succ]; rw [hi i (by omega)]; congr 2; omega

theorem wrAll_ok {k : Nat} : ∀ {bs : List (BitVec 8)} {a : Nat} {p : Proc},
    (∀ x, a ≤ x → x < a + bs.length → ∃ b, p.prot (x / 2 ^ k) = some b ∧ b.w = true) →
    ∃ p', wrAll k p a bs = .ok p' ∧ p'.prot = p.prot ∧ (∀ i b, bs[i]? = some b → p'.code (a + i) = b) ∧
      ∀ x, (x < a ∨ a + bs.length ≤ x) → p'.code x = p.code x := by
  intro bs
  induction bs with
  | nil => intro a p _; exact ⟨p, rfl, rfl, fun i b h => by simp at h, fun _ _ => rfl⟩
  | cons c bs ih =>
    intro a p h
    obtain ⟨b, hb, hw⟩ := h a (by omega) (by simp)
    obtain ⟨p', e, h1, h2, h3⟩ := ih (a := a + 1) (p := { p with code := fun x => if x = a then c else p.code x })
      (fun x hx hy => h x (by omega) (by simp only [List.length_cons]; omega))
    refine ⟨p', ?_, h1, ?_, ?_⟩
    · simp only [wrAll, wr, hb, hw, if_true, bind, Except.bind]; exact e
    · intro i b' hi
      cases i with
      | zero =>
        simp at hi
        rw [Nat.add_zero, h3 a (by omega)]
        simp [hi]
      | succ i => rw [show a + (i + 1) = a + 1 + i by omega]; exact h2 i b' (by simpa using hi)
    · intro x hx
      simp only [List.length_cons] at hx
      rw [h3 x (by omega)]
      simp only
      rw [if_neg (by omega)]

theorem bytes_join (d : BitVec 32) : d.extractLsb' 24 8 ++ d.extractLsb' 16 8 ++ d.extractLsb' 8 8 ++ d.extractLsb' 0 8 = d := by
  ext i hi
  simp only [BitVec.getElem_append, BitVec.getElem_extractLsb']
  split
  · simp [BitVec.getLsbD_eq_getElem, hi]
  · split
    · rw [BitVec.getLsbD_eq_getElem (by omega)]; congr 1; omega
    · split
      · rw [BitVec.getLsbD_eq_getElem (by omega)]; congr 1; omega
      · rw [BitVec.getLsbD_eq_getElem (by omega)]; congr 1; omega

/-- Where the processor goes when it executes the five bytes. -/
def landing (w target detour : Nat) : Nat := (((target + 5 : Int) + (disp target detour).toInt) % 2 ^ w).toNat

theorem jumpTo_jmp {k w target detour : Nat} {p : Proc}
    (hx : ∀ x, target ≤ x → x < target + 5 → ∃ b, p.prot (x / 2 ^ k) = some b ∧ b.x = true)
    (hb : ∀ i b, (jmpBytes target detour)[i]? = some b → p.code (target + i) = b) :
    jumpTo k w p target = .ok (landing w target detour) := by
  obtain ⟨b0, p0, x0⟩ := hx target (by omega) (by omega)
  obtain ⟨b1, p1, x1⟩ := hx (target + 1) (by omega) (by omega)
  obtain ⟨b2, p2, x2⟩ := hx (target + 2) (by omega) (by omega)
  obtain ⟨b3, p3, x3⟩ := hx (target + 3) (by omega) (by omega)
  obtain ⟨b4, p4, x4⟩ := hx (target + 4) (by omega) (by omega)
  have c0 := hb 0 _ rfl
  have c1 := hb 1 _ rfl
  have c2 := hb 2 _ rfl
  have c3 := hb 3 _ rfl
  have c4 := hb 4 _ rfl
  simp only [Nat.add_zero] at c0
  simp only [jumpTo, fetch, p0, p1, p2, p3, p4, x0, x1, x2, x3, x4, c0, c1, c2, c3, c4, if_true, bind, Except.bind, bytes_join, landing]

/-- C69: the jump written over `Error` leads to the detour exactly when the distance fits 32 bits; on a 32-bit machine always. -/
theorem jump_reaches {w target detour : Nat} (hw : Addresses w target detour) :
    landing w target detour = detour ↔ InReach w target detour := by
  unfold landing InReach disp
  rw [BitVec.toInt_ofInt]
  rcases hw with ⟨rfl, ht, hd⟩ | ⟨rfl, ht, hd⟩
  · simp only [true_or, iff_true, Int.bmod]
    split <;> omega
  · have h2 : ((64 : Nat) = 32) = False := by simp
    simp only [h2, false_or]
    simp only [Int.bmod]
    split <;> omega

/-- The protection of every page with one of the five bytes of `Error` is `b`, the others are as before. -/
def OnlyPages (k target : Nat) (before after : Nat → Option Bits) (b : Bits) : Prop :=
  (∀ x, target ≤ x → x < target + 5 → after (x / 2 ^ k) = some b) ∧
  ∀ n, (∀ x, target ≤ x → x < target + 5 → x / 2 ^ k ≠ n) → after n = before n

theorem access_only {k target : Nat} {prot : Nat → Option Bits} (b : Bits) (hk : k ≤ 63) (hfit : target + 5 < 2 ^ 64)
    (hm : ∀ x, target ≤ x → x < target + 5 → (prot (x / 2 ^ k)).isSome) : OnlyPages k target prot (setMemAccess k prot target 5 b).1 b := by
  have h := setMemAccess_succeeds b hk (by decide) hfit hm
  exact setMemAccess_exact (prot' := (setMemAccess k prot target 5 b).1) hk (by decide) hfit (by rw [← h])

theorem OnlyPages.trans {k target : Nat} {p0 p1 p2 : Nat → Option Bits} {b c : Bits} (h1 : OnlyPages k target p0 p1 b)
    (h2 : OnlyPages k target p1 p2 c) : OnlyPages k target p0 p2 c :=
  ⟨h2.1, fun n hn => by rw [h2.2 n hn, h1.2 n hn]⟩

theorem restore_ok {k target : Nat} {orig : List (BitVec 8)} {p : Proc} (hk : k ≤ 63) (hfit : target + 5 < 2 ^ 64) (hl : orig.length = 5)
    (hm : ∀ x, target ≤ x → x < target + 5 → ∃ b, p.prot (x / 2 ^ k) = some b ∧ b.w = true) :
    ∃ p', restore k target orig p = .ok p' ∧ OnlyPages k target p.prot p'.prot ⟨true, false, true⟩ ∧
      (∀ i b, orig[i]? = some b → p'.code (target + i) = b) ∧ ∀ x, (x < target ∨ target + 5 ≤ x) → p'.code x = p.code x := by
  obtain ⟨p1, e, h1, h2, h3⟩ := wrAll_ok (bs := orig) (a := target) (p := p) (by rw [hl]; exact hm)
  refine ⟨{ p1 with prot := (setMemAccess k p1.prot target 5 ⟨true, false, true⟩).1 }, ?_, ?_, h2, ?_⟩
  · simp [restore, e, bind, Except.bind]
  · simp only [h1]
    exact access_only _ hk hfit (fun x a b => by obtain ⟨c, hc, _⟩ := hm x a b; simp [hc])
  · rw [hl] at h3; exact h3

theorem loop_step {k w target detour : Nat} {orig : List (BitVec 8)} {server : Nat → Ans} {p : Proc} : ∀ (ms : List Msg) (fuel q : Nat) (list : List Msg),
    (∀ i m, ms[i]? = some m → server (q + i) = .msg m) →
    loop k w target detour orig server p (ms.length + fuel) q list = loop k w target detour orig server p fuel (q + ms.length) (list ++ ms) := by
  intro ms
  induction ms with
  | nil => intro fuel q list _; simp
  | cons m ms ih =>
    intro fuel q list h
    have h0 := h 0 m rfl
    simp only [Nat.add_zero] at h0
    rw [show (m :: ms).length + fuel = (ms.length + fuel) + 1 by simp only [List.length_cons]; omega]
    simp only [loop, h0]
    rw [ih fuel (q + 1) (list ++ [m]) (fun i x hx => by rw [show q + 1 + i = q + (i + 1) by omega]; exact h (i + 1) x (by simpa using hx))]
    congr 1
    · simp only [List.length_cons]; omega
    · simp

/-- What is true when the loop ends with `server` not answering with a message, with the jump in place. -/
theorem cache_run {k w target detour : Nat} {server : Nat → Ans} {ms list : List Msg} {p : Proc} (fuel : Nat) (hk : k ≤ 63)
    (hfit : target + 5 < 2 ^ 64) (hm : ∀ x, target ≤ x → x < target + 5 → ∃ b, p.prot (x / 2 ^ k) = some b ∧ b.r = true)
    (h : Has server ms) :
    ∃ p1 p2, OnlyPages k target p.prot p2.prot ⟨true, false, true⟩ ∧ p2.code = p.code ∧
      jumpTo k w p1 target = .ok (landing w target detour) ∧
      cache k w target detour server (ms.length + (fuel + 1)) p list =
        if server ms.length = .error ∧ landing w target detour ≠ detour then .error (.wild (landing w target detour)) else .ok (p2, list ++ ms) := by
  obtain ⟨orig, e, hl, ho⟩ := rdAll_ok (n := 5) hm
  have hsome : ∀ x, target ≤ x → x < target + 5 → (p.prot (x / 2 ^ k)).isSome := fun x a b => by
    obtain ⟨c, hc, _⟩ := hm x a b; simp [hc]
  have hpg := access_only ⟨true, true, true⟩ hk hfit hsome
  generalize hp0 : ({ p with prot := (setMemAccess k p.prot target 5 ⟨true, true, true⟩).1 } : Proc) = p0
  have hpg0 : OnlyPages k target p.prot p0.prot ⟨true, true, true⟩ := by rw [← hp0]; exact hpg
  have hc0 : p0.code = p.code := by rw [← hp0]
  obtain ⟨p1, e1, q1, q2, q3⟩ := wrAll_ok (k := k) (bs := jmpBytes target detour) (a := target) (p := p0)
    (fun x a b => ⟨_, hpg0.1 x a b, rfl⟩)
  have q3 : ∀ x, (x < target ∨ target + 5 ≤ x) → p1.code x = p0.code x := q3
  obtain ⟨p2, e2, r1, r2, r3⟩ := restore_ok (orig := orig) (p := p1) hk hfit hl (fun x a b => ⟨_, by rw [q1]; exact hpg0.1 x a b, rfl⟩)
  have hj : jumpTo k w p1 target = .ok (landing w target detour) :=
    jumpTo_jmp (fun x a b => ⟨_, by rw [q1]; exact hpg0.1 x a b, rfl⟩) q2
  refine ⟨p1, p2, (hpg0.trans (by rw [← q1]; exact r1)), ?_, hj, ?_⟩
  · funext x
    by_cases hx : x < target ∨ target + 5 ≤ x
    · rw [r3 x hx, q3 x hx, hc0]
    · have := r2 (x - target) _ (ho (x - target) (by omega))
      rwa [show target + (x - target) = x by omega] at this
  · simp only [cache, e, bind, Except.bind, hp0, e1]
    rw [loop_step ms (fuel + 1) 0 list (fun i m hi => by rw [Nat.zero_add]; exact h.1 i m hi)]
    simp only [loop, Nat.zero_add]
    cases hs : server ms.length with
    | msg m => exact absurd hs (h.2 m)
    | done => simp [e2, bind, Except.bind]
    | error =>
      simp only [hj, bind, Except.bind, true_and, ne_eq, ite_not, e2]

/-- C69: if the server ends its list by answering `false`, or by calling `Error` with the detour within reach, the list read is
exactly the server's list, every byte of `Error` and of all other memory is as it was, and only the protection of the pages of
those five bytes is changed, to readable and executable. -/
theorem cache_exact {k w target detour : Nat} {server : Nat → Ans} {ms list : List Msg} {p : Proc} (fuel : Nat) (hk : k ≤ 63)
    (hw : Addresses w target detour)
    (hm : ∀ x, target ≤ x → x < target + 5 → ∃ b, p.prot (x / 2 ^ k) = some b ∧ b.r = true) (h : Has server ms)
    (hend : server ms.length = .done ∨ InReach w target detour) :
    ∃ p', cache k w target detour server (ms.length + (fuel + 1)) p list = .ok (p', list ++ ms) ∧ p'.code = p.code ∧
      OnlyPages k target p.prot p'.prot ⟨true, false, true⟩ := by
  have hfit : target + 5 < 2 ^ 64 := by unfold Addresses at hw; omega
  obtain ⟨p1, p2, h1, h2, -, h4⟩ := cache_run (detour := detour) (list := list) (w := w) fuel hk hfit hm h
  refine ⟨p2, ?_, h2, h1⟩
  rw [h4, if_neg]
  rintro ⟨a, b⟩
  rcases hend with hend | hend
  · rw [hend] at a; cases a
  · exact b ((jump_reaches hw).2 hend)

/-- Finding, core/provider/source/provider_source.cpp:545: on a 64-bit machine the distance is cut to 32 bits; if the detour is further
away, a server that ends its list by calling `Error` makes the process go on at an address nobody chose. -/
theorem cache_far {k target detour : Nat} {server : Nat → Ans} {ms list : List Msg} {p : Proc} (fuel : Nat) (hk : k ≤ 63)
    (hw : Addresses 64 target detour)
    (hm : ∀ x, target ≤ x → x < target + 5 → ∃ b, p.prot (x / 2 ^ k) = some b ∧ b.r = true) (h : Has server ms)
    (hend : server ms.length = .error) (hfar : ¬ InReach 64 target detour) :
    ∃ a, a ≠ detour ∧ cache k 64 target detour server (ms.length + (fuel + 1)) p list = .error (.wild a) := by
  have hfit : target + 5 < 2 ^ 64 := by unfold Addresses at hw; omega
  obtain ⟨p1, p2, -, -, -, h4⟩ := cache_run (detour := detour) (list := list) (w := 64) fuel hk hfit hm h
  have hne : landing 64 target detour ≠ detour := fun e => hfar ((jump_reaches hw).1 e)
  exact ⟨_, hne, by rw [h4, if_pos ⟨hend, hne⟩]⟩

/-- C69: a message is found at the first place with its name, with the size stored there; a name that is not in the list gives -1. -/
theorem find_first (list : List Msg) (name : List UInt8) :
    (∃ (i : Nat) (m : Msg), list[i]? = some m ∧ m.name = name ∧ (∀ j n, j < i → list[j]? = some n → n.name ≠ name) ∧
      find true list name = ((i : Int), some m.size)) ∨
    ((∀ m ∈ list, m.name ≠ name) ∧ find true list name = (-1, none)) := by
  have key : ∀ (l : List Msg) (k : Nat), (∃ (i : Nat) (m : Msg), l[i]? = some m ∧ m.name = name ∧ (∀ j n, j < i → l[j]? = some n → n.name ≠ name) ∧
      findFrom name k l = (((k + i : Nat) : Int), some m.size)) ∨ ((∀ m ∈ l, m.name ≠ name) ∧ findFrom name k l = (-1, none)) := by
    intro l
    induction l with
    | nil => intro k; exact Or.inr ⟨by simp, rfl⟩
    | cons x l ih =>
      intro k
      by_cases hx : x.name = name
      · exact Or.inl ⟨0, x, rfl, hx, fun j n hj => by omega, by simp [findFrom, hx]⟩
      · rcases ih (k + 1) with ⟨i, m, h1, h2, h3, h4⟩ | ⟨h1, h2⟩
        · refine Or.inl ⟨i + 1, m, by simpa using h1, h2, ?_, ?_⟩
          · intro j n hj hn
            cases j with
            | zero => simp at hn; rw [← hn]; exact hx
            | succ j => exact h3 j n (by omega) (by simpa using hn)
          · simp only [findFrom, if_neg hx, h4]
            congr 2; omega
        · refine Or.inr ⟨?_, by simp only [findFrom, if_neg hx, h2]⟩
          intro m hm
          rcases List.mem_cons.1 hm with rfl | hm
          · exact hx
          · exact h1 m hm
  have := key list 0
  simpa [find] using this

/-- C69: `GetUserMessage` gives exactly the messages of the list, for the numbers 0 up to the count, and NULL otherwise. -/
theorem get_iff (list : List Msg) (index : Int) (name : List UInt8) (size : Int) :
    get true list index = some (name, size) ↔ ∃ i : Nat, (i : Int) = index ∧ index < count true list ∧ list[i]? = some ⟨size, name⟩ := by
  unfold get count
  by_cases h : index < 0 ∨ index ≥ list.length
  · rw [if_pos (by simpa using h)]
    simp only [reduceCtorEq, false_iff, not_exists]
    rintro i ⟨h1, h2, -⟩
    simp at h2
    omega
  · rw [if_neg (by simpa using h)]
    have hlt : index.toNat < list.length := by omega
    rw [List.getElem?_eq_getElem hlt]
    constructor
    · intro e
      simp at e
      exact ⟨index.toNat, by omega, by simp; omega, by rw [List.getElem?_eq_getElem hlt, ← e.1, ← e.2]⟩
    · rintro ⟨i, h1, -, h3⟩
      have : i = index.toNat := by omega
      subst this
      rw [List.getElem?_eq_getElem hlt] at h3
      cases h : list[index.toNat]
      simp [h] at h3 ⊢
      exact ⟨h3.2, h3.1⟩

/-- C69: finding the name of a message gives back its number, when no earlier message has the same name. -/
theorem find_get {list : List Msg} {i : Nat} {name : List UInt8} {size : Int} (h : get true list i = some (name, size))
    (hd : ∀ j n, j < i → list[j]? = some n → n.name ≠ name) : find true list name = ((i : Int), some size) := by
  obtain ⟨i', h1, -, h3⟩ := (get_iff list i name size).1 h
  have : i' = i := by omega
  subst this
  rcases find_first list name with ⟨j, m, k1, k2, k3, k4⟩ | ⟨k1, -⟩
  · have hij : j = i' := by
      rcases Nat.lt_trichotomy j i' with hlt | heq | hgt
      · exact absurd k2 (hd j m hlt k1)
      · exact heq
      · exact absurd rfl (k3 i' _ hgt h3)
    subst hij
    rw [k1] at h3
    cases h3
    exact k4
  · exact absurd rfl (k1 _ (List.mem_of_getElem? h3))

/-- C69: where the list is not supported every question is answered with -1 or NULL, whatever is in the list. -/
theorem unsupported (list : List Msg) (name : List UInt8) (i : Int) : count false list = -1 ∧ find false list name = (-1, none) ∧ get false list i = none := by
  simp [count, find, get]

/-! Concrete cases. -/

/-- No counterpart in /repo: a server with two messages that then calls `Error`. -/
def exServer : Nat → Ans
  | 0 => .msg ⟨-1, [71]⟩
  | 1 => .msg ⟨2, [72, 105]⟩
  | _ => .error

example : Has exServer [⟨-1, [71]⟩, ⟨2, [72, 105]⟩] := by
  refine ⟨?_, by intro m; simp [exServer]⟩
  intro i m h
  match i with
  | 0 => cases h; rfl
  | 1 => cases h; rfl
  | n + 2 => simp at h

/-- No counterpart in /repo: a process in which everything may be read and executed. -/
def exProc : Proc := { code := fun a => BitVec.ofNat 8 a, prot := fun _ => some ⟨true, false, true⟩ }

example : ∀ x, 4094 ≤ x → x < 4094 + 5 → ∃ b, exProc.prot (x / 2 ^ 12) = some b ∧ b.r = true := fun _ _ _ => ⟨_, rfl, rfl⟩
example : Addresses 64 4094 0x10000 ∧ Addresses 64 4094 0x7F0000001000 := by unfold Addresses; omega
example : InReach 64 4094 0x10000 ∧ InReach 32 4094 0xF0000000 := by unfold InReach; omega
example : ¬ InReach 64 4094 0x7F0000001000 := by unfold InReach; omega
example : landing 64 4094 0x7F0000001000 = 0x1000 := by decide

#print axioms jump_reaches
#print axioms cache_exact
#print axioms cache_far
#print axioms find_first
#print axioms get_iff
#print axioms find_get
#print axioms unsupported

end Verif.Prov
