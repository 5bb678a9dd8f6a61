import Verif.Core.Console
import Verif.Core.VdfProps
import Verif.Core.PluginFileProps
import Verif.Mgr.LoadProps
/-
C59: the console command `meta`.
-/
namespace Verif.PFile

open Verif.C Verif.Util

/-! ### Spec -/

/-- Decimal numerals and their values. -/
inductive Numeral : List Byte → Nat → Prop
  | digit {c : Byte} : 48 ≤ c → c ≤ 57 → Numeral [c] (c.toNat - 48)
  | more {ds : List Byte} {n : Nat} {c : Byte} : Numeral ds n → 48 ≤ c → c ≤ 57 → Numeral (ds ++ [c]) (10 * n + (c.toNat - 48))

/-- What an operation on the plugin with the number `n` means for the user of the command. -/
def answered (n : Nat) : Mgr.R (Mgr.St × Bool) → CR (Mgr.St × Reply)
  | .error e => .error (.ext e)
  | .ok (s, true) => .ok (s, .done n)
  | .ok (s, false) => .ok (s, .failed)

/-- Commands that only tell something. -/
def tells : List (List Byte) := [str "credits", str "version", str "game", str "list", str "cmds", str "cvars", str "info"]
/-- Commands that need to be told something. -/
def needs : List (List Byte) := [str "cmds", str "cvars", str "info", str "pause", str "unpause", str "load", str "unload", str "force_unload", str "retry"]
/-- Other commands. -/
def others : List (List Byte) := [str "refresh", str "alias", str "aliases", str "clear"]

/-! ### `atoi` -/

theorem digits_numeral {ds : List Byte} {n : Nat} (h : Numeral ds n) : ∀ (acc : Nat) (rest : List Byte), digits acc (ds ++ rest) = digits (acc * 10 ^ ds.length + n) rest := by
  induction h with
  | digit h1 h2 =>
    intro acc rest
    show digits acc (_ :: rest) = _
    rw [digits, if_pos ⟨h1, h2⟩]
    simp
  | more h h1 h2 ih =>
    intro acc rest
    rw [List.append_assoc, ih]
    show digits _ (_ :: rest) = _
    rw [digits, if_pos ⟨h1, h2⟩]
    congr 1
    rw [List.length_append, List.length_singleton, Nat.pow_succ, Nat.add_mul, Nat.mul_assoc]
    omega

theorem digits_stop {rest : List Byte} (h : ∀ c, rest.head? = some c → ¬ (48 ≤ c ∧ c ≤ 57)) (acc : Nat) : digits acc rest = acc := by
  cases rest with
  | nil => rfl
  | cons c cs => rw [digits, if_neg (h c rfl)]

theorem numeral_head {ds : List Byte} {n : Nat} (h : Numeral ds n) : ∃ c cs, ds = c :: cs ∧ 48 ≤ c ∧ c ≤ 57 := by
  induction h with
  | digit h1 h2 => exact ⟨_, _, rfl, h1, h2⟩
  | more _ _ _ ih => obtain ⟨c, cs, rfl, h1, h2⟩ := ih; exact ⟨c, cs ++ _, rfl, h1, h2⟩

theorem digit_plain : ∀ c : Byte, 48 ≤ c → c ≤ 57 → isspace c = false ∧ c ≠ 45 ∧ c ≠ 43 ∧ isalpha c = false := fun c =>
  forall_byte (P := fun c => 48 ≤ c → c ≤ 57 → isspace c = false ∧ c ≠ 45 ∧ c ≠ 43 ∧ isalpha c = false) (by decide +kernel) c

theorem alpha_plain : ∀ c : Byte, isalpha c = true → isspace c = false ∧ c ≠ 45 ∧ c ≠ 43 ∧ ¬ (48 ≤ c ∧ c ≤ 57) := fun c =>
  forall_byte (P := fun c => isalpha c = true → isspace c = false ∧ c ≠ 45 ∧ c ≠ 43 ∧ ¬ (48 ≤ c ∧ c ≤ 57)) (by decide +kernel) c

/-- C59: a number is read up to the first byte that is no digit. -/
theorem atoi_numeral {ds rest : List Byte} {n : Nat} (h : Numeral ds n) (hn : n < 2147483648) (hr : ∀ c, rest.head? = some c → ¬ (48 ≤ c ∧ c ≤ 57)) :
    atoi (ds ++ rest) = n := by
  have hd := digits_numeral h 0 rest
  rw [digits_stop hr] at hd
  obtain ⟨c, cs, rfl, h1, h2⟩ := numeral_head h
  obtain ⟨g1, g2, g3, _⟩ := digit_plain c h1 h2
  unfold atoi strtol
  rw [List.cons_append] at hd ⊢
  rw [List.dropWhile_cons, g1]
  simp only [Bool.false_eq_true, if_false, if_neg g2, if_neg g3]
  rw [hd]
  omega

/-- Spec: the value of a 64-bit number in 32 bits. -/
def Cut32 (v i : Int) : Prop := -2147483648 ≤ i ∧ i < 2147483648 ∧ ∃ k : Int, v = i + 4294967296 * k

/-- C59: the number that is read from white space, a sign and digits: what `strtol` gives, cut to 32 bits. -/
theorem atoi_number {sp ds rest : List Byte} {n : Nat} (hs : ∀ c ∈ sp, isspace c = true) (h : Numeral ds n) (hr : ∀ c, rest.head? = some c → ¬ (48 ≤ c ∧ c ≤ 57)) :
    Cut32 (min (n : Int) (2 ^ 63 - 1)) (atoi (sp ++ ds ++ rest)) ∧ Cut32 (min (n : Int) (2 ^ 63 - 1)) (atoi (sp ++ [43] ++ ds ++ rest)) ∧
      Cut32 (max (-(n : Int)) (-2 ^ 63)) (atoi (sp ++ [45] ++ ds ++ rest)) := by
  have drop : ∀ t : List Byte, (∀ c, t.head? = some c → isspace c = false) → (sp ++ t).dropWhile isspace = t := by
    intro t ht
    rw [List.dropWhile_append_of_pos hs]
    cases t with
    | nil => rfl
    | cons c cs => rw [List.dropWhile_cons, ht c rfl]; rfl
  have cut : ∀ v : Int, Cut32 v ((v + 2147483648) % 4294967296 - 2147483648) := fun v =>
    ⟨by omega, by omega, (v + 2147483648) / 4294967296, by omega⟩
  have hd := digits_numeral h 0 rest
  rw [digits_stop hr] at hd
  simp only [Nat.zero_mul, Nat.zero_add] at hd
  obtain ⟨c, cs, rfl, h1, h2⟩ := numeral_head h
  obtain ⟨g1, g2, g3, _⟩ := digit_plain c h1 h2
  refine ⟨?_, ?_, ?_⟩
  · have e : strtol (sp ++ (c :: cs) ++ rest) = min (n : Int) (2 ^ 63 - 1) := by
      unfold strtol
      rw [List.append_assoc, drop _ (by intro x hx; cases hx; exact g1)]
      rw [List.cons_append] at hd ⊢
      simp only [if_neg g2, if_neg g3]
      rw [hd]; omega
    unfold atoi
    rw [e]
    exact cut _
  · have e : strtol (sp ++ [43] ++ (c :: cs) ++ rest) = min (n : Int) (2 ^ 63 - 1) := by
      unfold strtol
      rw [List.append_assoc, List.append_assoc, drop _ (by intro x hx; cases hx; decide), List.singleton_append]
      simp only [show ¬ ((43 : Byte) = 45) by decide, if_false, if_true]
      rw [hd]; omega
    unfold atoi
    rw [e]
    exact cut _
  · have e : strtol (sp ++ [45] ++ (c :: cs) ++ rest) = max (-(n : Int)) (-2 ^ 63) := by
      unfold strtol
      rw [List.append_assoc, List.append_assoc, drop _ (by intro x hx; cases hx; decide), List.singleton_append]
      simp only [if_true]
      rw [hd]; omega
    unfold atoi
    rw [e]
    exact cut _

/-- ` -5`. -/
example : Numeral [53] 5 ∧ Cut32 (-5) (-5) ∧ Cut32 4294967298 2 :=
  ⟨.digit (c := 53) (by decide) (by decide), ⟨by decide, by decide, 0, by decide⟩, by decide, by decide, 1, by decide⟩

theorem atoi_none {c : Byte} {cs : List Byte} (h1 : isspace c = false) (h2 : c ≠ 45) (h3 : c ≠ 43) (h4 : ¬ (48 ≤ c ∧ c ≤ 57)) : atoi (c :: cs) = 0 := by
  unfold atoi strtol
  rw [List.dropWhile_cons, h1]
  simp only [Bool.false_eq_true, if_false, if_neg h2, if_neg h3]
  rw [digits, if_neg h4]
  rfl

/-! ### dispatch -/

/-- C59: before the map is changed the command does nothing. -/
theorem locked_nothing (C : Con) (args : List (List Byte)) (s : Mgr.St) : cmdMeta C true args s = .ok (s, .locked) := rfl

/-- C59: commands that only tell something change nothing. -/
theorem tells_only (C : Con) {c : List Byte} (hc : c ∈ tells) (args : List (List Byte)) (s : Mgr.St) :
    cmdMeta C false (c :: args) s = .ok (s, .text) ∨ (args = [] ∧ cmdMeta C false (c :: args) s = .ok (s, .usage)) := by
  simp only [tells, List.mem_cons, List.not_mem_nil, or_false] at hc
  rcases hc with rfl | rfl | rfl | rfl | rfl | rfl | rfl
  · exact .inl rfl
  · exact .inl rfl
  · exact .inl rfl
  · exact .inl rfl
  · cases args with
    | nil => exact .inr ⟨rfl, rfl⟩
    | cons _ _ => exact .inl rfl
  · cases args with
    | nil => exact .inr ⟨rfl, rfl⟩
    | cons _ _ => exact .inl rfl
  · cases args with
    | nil => exact .inr ⟨rfl, rfl⟩
    | cons _ _ => exact .inl rfl

/-- C59: a command without its argument changes nothing and says how it is used. -/
theorem missing_argument (C : Con) {c : List Byte} (hc : c ∈ needs) (s : Mgr.St) : cmdMeta C false [c] s = .ok (s, .usage) := by
  simp only [needs, List.mem_cons, List.not_mem_nil, or_false] at hc
  rcases hc with rfl | rfl | rfl | rfl | rfl | rfl | rfl | rfl | rfl <;> rfl

/-- C59: a word that is no command changes nothing and shows the menu. -/
theorem unknown_command (C : Con) {c : List Byte} (h1 : c ∉ tells) (h2 : c ∉ needs) (h3 : c ∉ others) (args : List (List Byte)) (s : Mgr.St) :
    cmdMeta C false (c :: args) s = .ok (s, .help) := by
  simp only [tells, needs, others, List.mem_cons, List.not_mem_nil, or_false, not_or] at h1 h2 h3
  obtain ⟨a1, a2, a3, a4, a5, a6, a7⟩ := h1
  obtain ⟨_, _, _, b1, b2, b3, b4, b5, b6⟩ := h2
  obtain ⟨c1, c2, c3, c4⟩ := h3
  show subCmd C c args s = _
  unfold subCmd
  rw [if_neg a1, if_neg a2, if_neg a3, if_neg c1, if_neg a4, if_neg a5, if_neg a6, if_neg a7, if_neg b1, if_neg b2, if_neg b3,
    if_neg (not_or.2 ⟨c2, c3⟩), if_neg b4, if_neg b5, if_neg c4, if_neg b6]

theorem idCmd_numeral {f : Nat → Mgr.St → Mgr.R (Mgr.St × Bool)} {x : List Byte} {n : Nat} {s : Mgr.St} (h : Numeral x n) (hn : n < 2147483648) :
    idCmd f x s = answered n (f n s) := by
  have hx : atoi x = n := by
    have := atoi_numeral (rest := []) h hn (fun c h => nomatch h)
    rwa [List.append_nil] at this
  unfold idCmd
  rw [hx, if_neg (by omega), Int.toNat_natCast]
  cases f n s with
  | error e => rfl
  | ok r => obtain ⟨s', b⟩ := r; cases b <;> rfl

theorem unloadId_answered {C : Con} {n : Nat} {force : Bool} {s : Mgr.St} : unloadId C n force s = answered n (Mgr.unload C.h C.fuel n force s) := by
  unfold unloadId
  rw [if_neg (by omega), Int.toNat_natCast]
  cases Mgr.unload C.h C.fuel n force s with
  | error e => rfl
  | ok r => obtain ⟨s', b⟩ := r; cases b <;> rfl

/-- C59: the commands on the plugin with a number do what they are named after, to that plugin. -/
theorem by_number (C : Con) {x : List Byte} {n : Nat} (h : Numeral x n) (hn : n < 2147483648) (more : List (List Byte)) (s : Mgr.St) :
    cmdMeta C false (str "pause" :: x :: more) s = answered n (Mgr.pause C.h C.fuel n s) ∧
    cmdMeta C false (str "unpause" :: x :: more) s = answered n (Mgr.unpause C.h C.fuel n s) ∧
    cmdMeta C false (str "force_unload" :: x :: more) s = answered n (Mgr.unload C.h C.fuel n true s) ∧
    cmdMeta C false (str "unload" :: x :: more) s = answered n (Mgr.unload C.h C.fuel n false s) ∧
    cmdMeta C false (str "retry" :: x :: more) s = answered n (Mgr.retry C.h C.fuel n (retryOutcome C n s) s) := by
  have hx : atoi x = n := by
    have := atoi_numeral (rest := []) h hn (fun c h => nomatch h)
    rwa [List.append_nil] at this
  refine ⟨?_, ?_, ?_, ?_, ?_⟩
  · show idCmd (Mgr.pause C.h C.fuel) x s = _
    rw [idCmd_numeral h hn]
  · show idCmd (Mgr.unpause C.h C.fuel) x s = _
    rw [idCmd_numeral h hn]
  · show unloadId C (atoi x) true s = _
    rw [hx, unloadId_answered]
  · show cmdUnload C x s = _
    obtain ⟨c, cs, rfl, h1, h2⟩ := numeral_head h
    unfold cmdUnload
    rw [rd_of_lt (by simp)]
    simp only [liftB, bind, Except.bind, List.cons_append, List.getElem_cons_zero, (digit_plain c h1 h2).2.2.2, Bool.false_eq_true, and_false, if_false]
    rw [hx, unloadId_answered]
  · show idCmd (fun id s => Mgr.retry C.h C.fuel id (retryOutcome C id s) s) x s = _
    rw [idCmd_numeral h hn]

/-- C59: `meta clear` unloads all, `meta alias` with two arguments sets the alias and nothing else. -/
theorem clear_alias (C : Con) (a v : List Byte) (more : List (List Byte)) (s : Mgr.St) :
    (∀ s' b, Mgr.unloadAll C.h C.fuel C.fuel true s = .ok (s', b) → cmdMeta C false (str "clear" :: more) s = .ok (s', .text)) ∧
    cmdMeta C false (str "alias" :: a :: v :: more) s = .ok ({ s with aliases := Mgr.setAlias a v s.aliases }, .text) := by
  refine ⟨fun s' b e => ?_, rfl⟩
  show cmdClear C s = _
  unfold cmdClear
  rw [e]
  rfl

/-! ### load and unload -/

theorem liftE_ok {ε α : Type} {x : Except ε α} {a : α} (h : liftE x = .ok a) : x = .ok a := by
  cases x with
  | error e => cases h
  | ok b => cases h; rfl

theorem cbind_ok {ε α β : Type} {x : Except ε α} {f : α → Except ε β} {b : β} (h : (x >>= f) = .ok b) : ∃ a, x = .ok a ∧ f a = .ok b := by
  cases x with
  | error e => cases h
  | ok a => exact ⟨a, rfl, h⟩

/-- C59: `meta load` says a number only of a plugin that is in the list, runs or is paused, and has the path asked for; of a plugin said to
be new the file is exactly the path asked for. -/
theorem load_reply {s s' : Mgr.St} {fuel : Nat} {cb : Mgr.Call → Nat → Mgr.Scr} {C : Con} {x : List Byte} {i : Nat} {rep : Reply}
    (h : Mgr.Reach false s) (hcb : ∀ c n, (cb c n).Ok false) (hC : C.h = fun c n s => Mgr.exec fuel (cb c n) s)
    (e : cmdLoad C x s = .ok (s', rep)) (hrep : rep = .loaded i ∨ rep = .already i) :
    (Mgr.IdInv s' ∧ Mgr.PathInv s') ∧ ∃ path o p, fullPath C x s = .ok path ∧ o ∈ s'.plugins ∧ s'.objs o = some p ∧ p.id = i ∧ Mgr.Loaded p.status ∧
      Util.collapse p.file = Util.collapse path ∧ (rep = .loaded i → p.file = path) := by
  have hT := Mgr.goodA_g false
  have hh : Mgr.HOk (Mgr.Steps false) C.h := by
    rw [hC]
    exact fun c k s s' b hi e => Mgr.exec_emits fuel (cb c k) (hcb c k) s s' b hi e
  unfold cmdLoad at e
  obtain ⟨path, e1, e⟩ := cbind_ok e
  obtain ⟨s1, e2, e⟩ := cbind_ok e
  obtain ⟨⟨s2, id, al⟩, e3, e⟩ := cbind_ok e
  have e2 := liftE_ok e2
  have e3 := liftE_ok e3
  have e := liftE_ok e
  have t1 := Mgr.drain_emits hT.toGood _ _ _ h.id e2
  have i1 := hT.inv _ _ _ h.id t1
  have t2 := Mgr.load_emits hh i1 e3
  have i2 := hT.inv _ _ _ i1 t2
  have own2 : Mgr.OwnInv s2 :=
    Mgr.Steps.induct (fun _ _ hi hs hp => hp.own hi hs) i1 (Mgr.Steps.induct (fun _ _ hi hs hp => hp.own hi hs) h.id h.own t1) t2
  have path2 : Mgr.PathInv s2 :=
    Mgr.Steps.induct (fun _ _ hi hs hp => hp.path hi hs) i1 (Mgr.Steps.induct (fun _ _ hi hs hp => hp.path hi hs) h.id h.path t1) t2
  obtain ⟨k, p, hk, hid, hpath, hnew⟩ := Mgr.load_answer_of i1 hh e3
  unfold loadReply at e
  dsimp only at e
  obtain ⟨o, e4, e⟩ := Mgr.bind_ok e
  cases o with
  | none => cases e; rcases hrep with h | h <;> cases h
  | some o =>
    dsimp only at e
    split at e
    · cases e; rcases hrep with h | h <;> cases h
    · obtain ⟨q, e5, e⟩ := Mgr.bind_ok e
      obtain ⟨b, e6, e⟩ := Mgr.bind_ok e
      split at e
      · cases e; rcases hrep with h | h <;> cases h
      · next hb =>
        obtain ⟨hmem, q', hq', hqid⟩ := Mgr.findById_mem e4
        have hq := Mgr.get_ok e5
        rw [hq'] at hq; cases hq
        have := own2.inj k o p q hk hq' (by rw [hid, hqid])
        subst this
        rw [hk] at hq'; cases hq'
        have hl : Mgr.Loaded p.status := by
          rcases Mgr.belowPaused_ok e6 with ⟨rfl, _⟩ | ⟨_, h⟩
          · exact absurd rfl hb
          · exact h
        split at e
        · cases e
        · have e := Except.ok.inj e
          have es : s2 = s' := congrArg Prod.fst e
          have er := congrArg Prod.snd e
          dsimp only at er
          subst es
          have hi : p.id = i := by
            rcases hrep with rfl | rfl <;> cases al <;> simp at er <;> exact er
          refine ⟨⟨i2, path2⟩, path, k, p, e1, hmem, hk, hi, hl, hpath, fun hr => ?_⟩
          subst hr
          cases al with
          | true => simp at er
          | false =>
            rcases hnew with ⟨_, h⟩ | ⟨_, _, h⟩
            · exact h
            · cases h

theorem findFile_of {s : Mgr.St} {path : List Byte} {o : Nat} {p : Mgr.Plug} (hi : Mgr.IdInv s) (hp : s.objs o = some p) (hf : p.file = path)
    (huniq : ∀ a ∈ s.plugins, ∀ q, s.objs a = some q → q.file = path → a = o) : ∀ l : List Nat, (∀ a ∈ l, a ∈ s.plugins) → o ∈ l → findFile s path l = .ok p.id := by
  intro l
  induction l with
  | nil => intro _ h; cases h
  | cons a as ih =>
    intro hs hm
    cases ea : s.objs a with
    | none => exact absurd ea (hi.live a (hs a (.head _)))
    | some q =>
      rw [findFile, Mgr.get_of ea]
      simp only [bind, Except.bind]
      split
      · next hq =>
        have := huniq a (hs a (.head _)) q ea hq
        subst this
        rw [hp] at ea; cases ea; rfl
      · next hq =>
        refine ih (fun b hb => hs b (.tail _ hb)) ?_
        rcases List.mem_cons.1 hm with rfl | h
        · rw [hp] at ea; cases ea; exact absurd hf hq
        · exact h

theorem findFile_none {s : Mgr.St} {path : List Byte} (hi : Mgr.IdInv s) : ∀ l : List Nat, (∀ a ∈ l, a ∈ s.plugins) → (∀ a ∈ l, ∀ q, s.objs a = some q → q.file ≠ path) →
    findFile s path l = .ok 0 := by
  intro l
  induction l with
  | nil => intro _ _; rfl
  | cons a as ih =>
    intro hs hm
    cases ea : s.objs a with
    | none => exact absurd ea (hi.live a (hs a (.head _)))
    | some q =>
      rw [findFile, Mgr.get_of ea]
      simp only [bind, Except.bind]
      rw [if_neg (hm a (.head _) q ea)]
      exact ih (fun b hb => hs b (.tail _ hb)) (fun b hb => hm b (.tail _ hb))

/-- C59: what is unloaded by a name that starts with a letter is the listed plugin with exactly that path. -/
theorem unload_by_name {s : Mgr.St} {C : Con} {c : Byte} {cs path : List Byte} (h : Mgr.IdInv s ∧ Mgr.PathInv s) (hc : isalpha c = true) (hpath : fullPath C (c :: cs) s = .ok path) :
    (∀ o ∈ s.plugins, ∀ p, s.objs o = some p → p.file = path → cmdUnload C (c :: cs) s = answered p.id (Mgr.unload C.h C.fuel p.id false s)) ∧
    ((∀ o ∈ s.plugins, ∀ p, s.objs o = some p → p.file ≠ path) → cmdUnload C (c :: cs) s = .ok (s, .notFound path)) := by
  obtain ⟨hi, hpi⟩ := h
  have hz : atoi (c :: cs) = 0 := by
    obtain ⟨h1, h2, h3, h4⟩ := alpha_plain c hc
    exact atoi_none h1 h2 h3 h4
  have run : cmdUnload C (c :: cs) s = (do
      let id ← liftE (findFile s path s.plugins)
      if id = 0 then .ok (s, .notFound path) else unloadId C id false s) := by
    unfold cmdUnload
    rw [rd_of_lt (by simp)]
    simp only [liftB, bind, Except.bind, List.cons_append, List.getElem_cons_zero, hc, hz, and_self, if_true, hpath]
  constructor
  · intro o ho p hp hf
    rw [run, findFile_of hi hp hf (fun a ha q hq hqf => hpi a ha o ho q p hq hp (by rw [hqf, hf])) _ (fun _ h => h) ho]
    show (if p.id = 0 then _ else _) = _
    rw [if_neg (by have := (hi.range o ho p hp).1; omega), unloadId_answered]
  · intro hn
    rw [run, findFile_none hi _ (fun _ h => h) hn]
    rfl

/-- C59: what `meta load` has just loaded under a name that starts with a letter `meta unload` unloads under the same name, if no plugin has
changed the meaning of the name.  Missing: names that do not start with a letter (`unload_not_letter`, `unload_digits`) and plugins that were
loaded before under another spelling (`unload_other_spelling`); programs with `Retry`. -/
theorem load_then_unload_partial {s s' : Mgr.St} {fuel : Nat} {cb : Mgr.Call → Nat → Mgr.Scr} {C : Con} {c : Byte} {cs : List Byte} {i : Nat}
    (h : Mgr.Reach false s) (hcb : ∀ c n, (cb c n).Ok false) (hC : C.h = fun c n s => Mgr.exec fuel (cb c n) s) (hc : isalpha c = true)
    (e : cmdLoad C (c :: cs) s = .ok (s', .loaded i)) (hal : Mgr.lookupAlias (c :: cs) s'.aliases = Mgr.lookupAlias (c :: cs) s.aliases) :
    cmdUnload C (c :: cs) s' = answered i (Mgr.unload C.h C.fuel i false s') := by
  obtain ⟨hinv, path, o, p, h1, h2, h3, rfl, h5, h6, h7⟩ := load_reply h hcb hC e (.inl rfl)
  have hp : fullPath C (c :: cs) s' = .ok path := by
    rw [← h1]; unfold fullPath; rw [hal]
  exact (unload_by_name hinv hc hp).1 o h2 p h3 (h7 rfl)

/-! ### findings -/

/-- Finding: a name that starts with digits is taken for a number: `meta unload 2nd` unloads the plugin with the number 2. -/
theorem unload_digits (C : Con) {x rest : List Byte} {n : Nat} (h : Numeral x n) (hn : n < 2147483648) (hr : ∀ c, rest.head? = some c → ¬ (48 ≤ c ∧ c ≤ 57)) (s : Mgr.St) :
    cmdUnload C (x ++ rest) s = answered n (Mgr.unload C.h C.fuel n false s) := by
  have hx := atoi_numeral h hn hr
  obtain ⟨c, cs, rfl, h1, h2⟩ := numeral_head h
  unfold cmdUnload
  rw [rd_of_lt (by simp)]
  simp only [liftB, bind, Except.bind, List.cons_append, List.getElem_cons_zero, (digit_plain c h1 h2).2.2.2, Bool.false_eq_true, and_false, if_false]
  rw [List.cons_append] at hx
  rw [hx, unloadId_answered]

theorem findById_zero {s : Mgr.St} (hi : Mgr.IdInv s) : ∀ l : List Nat, (∀ a ∈ l, a ∈ s.plugins) → Mgr.findById s 0 l = .ok none := by
  intro l
  induction l with
  | nil => intro _; rfl
  | cons a as ih =>
    intro hs
    cases ea : s.objs a with
    | none => exact absurd ea (hi.live a (hs a (.head _)))
    | some q =>
      rw [Mgr.findById, Mgr.get_of ea]
      simp only [bind, Except.bind]
      rw [if_neg (by have := (hi.range a (hs a (.head _)) q ea).1; omega)]
      exact ih (fun b hb => hs b (.tail _ hb))

/-- Finding: nothing can be unloaded under a name that starts with anything but a letter or a digit, such as an absolute path. -/
theorem unload_not_letter {s : Mgr.St} {r : Bool} {C : Con} {c : Byte} {cs : List Byte} (h : Mgr.Reach r s) (hc : isalpha c = false) (h1 : isspace c = false) (h2 : c ≠ 45) (h3 : c ≠ 43)
    (h4 : ¬ (48 ≤ c ∧ c ≤ 57)) : cmdUnload C (c :: cs) s = .ok (s, .failed) := by
  have hz : atoi (c :: cs) = 0 := atoi_none h1 h2 h3 h4
  unfold cmdUnload
  rw [rd_of_lt (by simp)]
  simp only [liftB, bind, Except.bind, List.cons_append, List.getElem_cons_zero, hc, Bool.false_eq_true, and_false, if_false]
  rw [hz]
  show unloadId C ((0 : Nat) : Int) false s = _
  rw [unloadId_answered]
  unfold Mgr.unload
  rw [findById_zero h.id _ (fun _ h => h)]
  rfl

/-- A console for examples: the game is in "m", every file is there, plugins agree to everything. -/
def con : Con := ⟨[109], fun _ => true, fun c n s => Mgr.exec 10 (Mgr.yes c n) s, 10, fun _ => Mgr.good 10, List.replicate 255 7, .ok⟩

/-- What the examples show of a run: the answers, the files in the list. -/
def shown : CR (Mgr.St × List Reply) → Option (List Reply × List (Option (List Byte)))
  | .ok (s, rs) => some (rs, s.plugins.map fun o => (s.objs o).map Mgr.Plug.file)
  | .error _ => none

/-- Lines on the console. -/
def lines (C : Con) : List (List (List Byte)) → Mgr.St → CR (Mgr.St × List Reply)
  | [], s => .ok (s, [])
  | l :: ls, s => do
    let r ← cmdMeta C false l s
    let q ← lines C ls r.1
    .ok (q.1, r.2 :: q.2)

/-- Finding: a plugin loaded as "a/b.so" is "already loaded" as "a//b.so", but is not found to be unloaded under that name; loaded by an
absolute path it cannot be unloaded by it; "1.so" unloads the first plugin. -/
theorem unload_other_spelling :
    shown (lines con [[str "load", str "a/b.so"], [str "load", str "a//b.so"], [str "unload", str "a//b.so"]] Mgr.init) =
      some ([.loaded 1, .already 1, .notFound (str "m/a//b.so")], [some (str "m/a/b.so")]) ∧
    shown (lines con [[str "load", str "/a.so"], [str "unload", str "/a.so"]] Mgr.init) = some ([.loaded 1, .failed], [some (str "/a.so")]) ∧
    shown (lines con [[str "load", str "a.so"], [str "load", str "1.so"], [str "unload", str "1.so"]] Mgr.init) = some ([.loaded 1, .loaded 2, .done 1], [some (str "m/1.so")]) := by
  decide +kernel

/-- Finding: `meta load` while a hook loop runs frees the plugins that wait for its end. -/
theorem load_frees_while_busy :
    (match (do
        let r ← liftE (Mgr.exec 10 (.op (.load [97] (Mgr.good 10)) Mgr.yes (.op .enter Mgr.yes (.op (.unload 1 false) Mgr.yes (.ret true)))) Mgr.init)
        let q ← cmdLoad con (str "b.so") r.1
        .ok (r.1, q.1) : CR (Mgr.St × Mgr.St)) with
      | .ok (s, s') => some (s.busy, s.pending.length, (s.objs 0).isSome, s'.busy, s'.pending.length, (s'.objs 0).isSome)
      | .error _ => none) = some (1, 1, true, 1, 0, false) := by decide +kernel

/-! ### Examples -/

/-- Numerals; a number that does not fit becomes another one. -/
example : Numeral (str "12") 12 ∧ atoi (str " -5x") = -5 ∧ atoi (str "4294967298") = 2 :=
  ⟨.more (ds := [49]) (n := 1) (c := 50) (.digit (c := 49) (by decide) (by decide)) (by decide) (by decide), by decide +kernel, by decide +kernel⟩

/-- Commands of each kind. -/
example : str "list" ∈ tells ∧ str "retry" ∈ needs ∧ str "foo" ∉ tells ∧ str "foo" ∉ needs ∧ str "foo" ∉ others := by decide

/-- `load_reply`, `load_then_unload_partial`, `unload_by_name`, `by_number`, `clear_alias`: lines with answers of each kind. -/
example : shown (lines con [[str "load", str "a"], [str "load", str "b.so"], [str "alias", str "x", str "b.so"], [str "unload", str "x"], [str "unload", str "x"], [str "pause", str "1"], [str "pause", str "7"], [str "load", str "a"]] Mgr.init) =
    some ([.loaded 1, .loaded 2, .text, .done 2, .notFound (str "m/b.so"), .done 1, .failed, .already 1], [some (str "m/a.x64.so")]) ∧
    shown (lines con [[str "load", str "a"], [str "clear"]] Mgr.init) = some ([.loaded 1, .text], []) := by decide +kernel

/-- `unload_not_letter`: a slash is none of the bytes a number or a name can start with. -/
example : isalpha 47 = false ∧ isspace 47 = false ∧ (47 : Byte) ≠ 45 ∧ (47 : Byte) ≠ 43 ∧ ¬ ((48 : Byte) ≤ 47 ∧ (47 : Byte) ≤ 57) ∧ Mgr.Reach false Mgr.init := by
  refine ⟨by decide, by decide, by decide, by decide, by decide, 0, .ret true, true, trivial, rfl⟩

#print axioms atoi_numeral
#print axioms atoi_number
#print axioms locked_nothing
#print axioms tells_only
#print axioms missing_argument
#print axioms unknown_command
#print axioms by_number
#print axioms clear_alias
#print axioms load_reply
#print axioms unload_by_name
#print axioms load_then_unload_partial
#print axioms unload_digits
#print axioms unload_not_letter
#print axioms unload_other_spelling
#print axioms load_frees_while_busy

end Verif.PFile
