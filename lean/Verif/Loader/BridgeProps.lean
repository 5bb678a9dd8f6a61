import Verif.Loader.Bridge
/-
C43: the bridges into the core, the search for the game's library, the names of interfaces.
-/
namespace Verif.Loader
open Verif.C (isspace isdigit)

/-! ### Bridges -/

/-- C43: for external code that does not call the loader meanwhile, the core that requests are forwarded to is
always an open library, and not one of the game's. -/
theorem bridge_open_partial {w : World} {s : St} (h : FReach w s) {b : Nat} (hb : s.gdBridge = some b) :
    b ∈ s.opened ∧ s.lib ≠ some b ∧ ∀ i, s.libs i ≠ some b := by
  have i := h.inv
  exact ⟨(i.br b hb).1, fun hl => (i.lib b hl).2.2 hb, fun k hl => (i.libs k b hl).2.2 hb⟩

theorem prog_flat (f : Call → Nat) (os : List Op) : Flat (prog f os) := by
  induction os with
  | nil => exact .ret _ _
  | cons o os ih => exact .op _ _ _ (fun c _ => ⟨_, _, rfl⟩) fun _ => ih

def resBridge : R (St × Nat × Int) → Option (Option Nat × List Nat)
  | .ok r => some (r.1.gdBridge, r.1.opened)
  | .error _ => none

example : resBridge (exec w0 5 (prog game [.create (bytes "ServerGameDLL005"), .slot 5 0]) (init fun _ => 9)) = some (some 1, [1, 0]) ∧
    resBridge (exec w0 5 (prog game [.create (bytes "ServerGameDLL005"), .slot 5 0, .slot 5 2]) (init fun _ => 9)) = some (none, []) := by decide +kernel

/-- C43: so every other request to an active core is answered by it. -/
theorem forward_defined_partial {w : World} {s : St} (h : FReach w s) {b : Nat} (hb : s.gdBridge = some b) (hv : s.vspBridge = none)
    {name : List Byte} (hn : ∀ r, name ≠ vspName ++ r) (v : Nat) (c : Int) :
    ∃ s', createInterface w (fun _ _ s => .ok (s, v, c)) name s = .ok (s', toPtr v, c) :=
  ⟨_, core_forwards hv hn hb (bridge_open_partial h hb).1 rfl⟩

/-- The factory of the core is asked for: the game's `DLLInit` is called at that moment, once, and then the answer is
that there is none. -/
def nest (k : Nat) (c : Call) (n : Nat) : Scr :=
  match c with
  | .coreSym _ => if n < k then .op (.slot 5 0) (fun c _ => .ret (game c) 0) fun _ => .ret 0 0 else .ret 1 0
  | c => .ret (game c) 0

/-- With external code that calls the loader meanwhile this fails: a core without a bridge is closed, but by then
`mm_library` may be the core of another initialization (loader/gamedll.cpp:389-394). -/
theorem nested_init_dangling : resFault (exec w0 5 (.op (.create (bytes "ServerGameDLL005")) (fun c _ => .ret (game c) 0) fun _ =>
    .op (.slot 5 0) (nest 100) fun _ => .ret 0 0) (init fun _ => 9)) = some .unmapped := by decide +kernel

/-- C43: a server plugin that could not load leaves no bridge behind; one that did has a bridge into an open core. -/
theorem load_bridge_partial {w : World} {h : Beh} (ha : Alone h) {s s' : St} {ok : Bool} (hr : FReach w s) (hv : s.vspBridge = none)
    (e : vspLoad h s = .ok (s', ok)) :
    (ok = false → s'.vspBridge = none) ∧ (ok = true → ∃ b, s'.vspBridge = some b ∧ b ∈ s'.opened ∧ s'.core = some b) := by
  obtain ⟨_, h1, h2, _⟩ := vspLoad_inv ha hr.inv e
  exact ⟨h1 hv, h2⟩

theorem calm_alone (f : Call → Nat) : Alone (calm f) := by
  intro c n s s' a e
  cases e
  rfl

/-- A core that refuses to load as a server plugin. -/
def refusing (c : Call) : Nat :=
  match c with
  | .vspLoad _ => 0
  | c => game c

def resVsp : R (St × Bool) → Option (Option Nat × Bool)
  | .ok r => some (r.1.vspBridge, r.2)
  | .error _ => none

example : FReach w0 (init fun _ => 9) ∧ resVsp (vspLoad (calm refusing) { init (fun _ => 9) with allowed := true }) = some (none, false) ∧
    resVsp (vspLoad (calm game) { init (fun _ => 9) with allowed := true }) = some (some 0, true) :=
  ⟨⟨_, 0, .ret 0 0, _, .ret _ _, rfl⟩, by decide +kernel⟩

/-- C43: the core is told the version that the callbacks were requested with. -/
theorem version_told_partial {w : World} {h g : Beh} (ha : Alone h) {s s1 s2 : St} {r : List Byte} {c : Int} {ok : Bool} (hr : FReach w s)
    (e1 : createInterface w g (vspName ++ r) s = .ok (s1, .vsp, c)) (e2 : vspLoad h s1 = .ok (s2, ok)) {k : Nat} {d : Int}
    (hk : .call (.vspLoad k) d ∈ s2.log) : .call (.vspLoad k) d ∈ s1.log ∨ k = atoi r := by
  have hs : starts (bytes "ISERVERPLUGINCALLBACKS") (vspName ++ r) = true := starts_iff.2 ⟨r, rfl⟩
  have hd : (vspName ++ r).drop 22 = r := by rw [← vspName_length]; simp
  unfold createInterface at e1
  split at e1
  · cases e1
  · rw [hd] at e1
    dsimp only at e1
    unfold getVspCallbacks at e1
    split at e1
    · cases e1
    split at e1
    · cases e1
    · cases e1
      have i : BInv ({ s with version := atoi r, allowed := true }.note .handOut) := ⟨hr.inv.br, hr.inv.core, hr.inv.lib, hr.inv.libs⟩
      exact (vspLoad_inv ha i e2).2.2.2 k d hk

def isLoad : Ev → Bool
  | .call (.vspLoad _) _ => true
  | _ => false

example : resLog isLoad (exec w0 5 (prog game [.create (bytes "ISERVERPLUGINCALLBACKS001"), .load]) (init fun _ => 9)) = some [.call (.vspLoad 1) 0] := by
  decide +kernel

/-! ### The game's library -/

/-- C43: never are there more paths of the game than the array `gamedll_paths` has. -/
theorem paths_at_most_ten {w : World} {s : St} (h : Reach w s) : s.npaths ≤ 10 := h.inv.paths

def resPaths : R (St × Nat × Int) → Option Nat
  | .ok r => some r.1.npaths
  | .error _ => none

example : resPaths (exec w0 5 (prog (fun c => if c = .readInfo then 15 else 0) [.create (bytes "ServerGameDLL005")]) (init fun _ => 9)) = some 10 := by
  decide +kernel

/-- The calls to open a library of the game. -/
def opens (l : List Ev) : List Nat := l.filterMap fun e => match e with | .call (.openLib i) _ => some i | _ => none

theorem opens_append (a b : List Ev) : opens (a ++ b) = opens a ++ opens b := List.filterMap_append ..

theorem tryLib_opens {h : Beh} (ha : Alone h) {name : List Byte} {k : Nat} {s : St} {r : St × Option (Nat × Nat)} (e : tryLib h name k s = .ok r) :
    opens r.1.log = opens s.log ++ (if s.libs k = none then [k] else []) ∧ r.1.npaths = s.npaths ∧ ∀ i, i ≠ k → r.1.libs i = s.libs i := by
  obtain ⟨x, e1, e⟩ := bind_ok e
  have h1 : opens x.1.log = opens s.log ++ (if s.libs k = none then [k] else []) ∧ x.1.npaths = s.npaths ∧ ∀ i, i ≠ k → x.1.libs i = s.libs i := by
    unfold cacheLib at e1
    split at e1
    · rename_i l hl
      cases e1; rw [hl]; simp
    · rename_i hl
      obtain ⟨y, e2, e1⟩ := bind_ok e1
      obtain ⟨ky, ly⟩ := ext_same ha e2
      have : opens y.1.log = opens s.log ++ [k] := by rw [ly, opens_append]; rfl
      rw [if_pos hl]
      split at e1 <;> cases e1
      · exact ⟨this, ky.npaths, fun i _ => congrFun ky.libs i⟩
      · exact ⟨this, ky.npaths, fun i hi => by dsimp only [upd]; rw [if_neg hi, ky.libs]⟩
  dsimp only at e
  split at e
  · cases e; exact h1
  · obtain ⟨y, e2, e⟩ := bind_ok e
    obtain ⟨ky, ly⟩ := extIn_same ha e2
    have hy : opens y.1.log = opens x.1.log := by rw [ly, opens_append]; exact List.append_nil _
    split at e
    · cases e
      exact ⟨hy.trans h1.1, ky.npaths.trans h1.2.1, fun i hi => (congrFun ky.libs i).trans (h1.2.2 i hi)⟩
    · obtain ⟨z, e3, e⟩ := bind_ok e
      obtain ⟨kz, lz⟩ := extIn_same ha e3
      have hz : opens z.1.log = opens x.1.log := by rw [lz, opens_append, ← hy]; exact List.append_nil _
      have kz := ky.trans kz
      split at e <;> cases e
      · exact ⟨hz.trans h1.1, kz.npaths.trans h1.2.1, fun i hi => (congrFun kz.libs i).trans (h1.2.2 i hi)⟩
      · exact ⟨hz.trans h1.1, kz.npaths.trans h1.2.1, fun i hi => by dsimp only [upd]; rw [if_neg hi, kz.libs]; exact h1.2.2 i hi⟩

/-- The paths tried, in order: those from `k` on that are not open already. -/
theorem search_opens {h : Beh} (ha : Alone h) {name : List Byte} (n : Nat) : ∀ {k : Nat} {s : St} {r : St × Option (Nat × Nat)},
    search h name n k s = .ok r → r.1.npaths = s.npaths ∧ ∃ m, m ≤ n ∧ (k + m ≤ s.npaths ∨ m = 0) ∧ opens r.1.log = opens s.log ++ (List.range' k m).filter (fun i => (s.libs i).isNone) ∧
      (r.2 = none → k + m = s.npaths ∨ m = n ∨ s.npaths ≤ k) := by
  induction n with
  | zero => intro k s r e; cases e; exact ⟨rfl, 0, Nat.le_refl _, .inr rfl, by simp, fun _ => .inr (.inl rfl)⟩
  | succ n ih =>
    intro k s r e
    unfold search at e
    split at e
    · rename_i hk
      obtain ⟨x, e1, e⟩ := bind_ok e
      obtain ⟨h1, h2, h3⟩ := tryLib_opens ha e1
      have one : (if s.libs k = none then [k] else []) = [k].filter (fun i => (s.libs i).isNone) := by
        cases hl : s.libs k <;> simp [hl]
      rw [one] at h1
      split at e
      · cases e
        exact ⟨h2, 1, by omega, .inl (by omega), by simpa using h1, nofun⟩
      · obtain ⟨a0, m, a1, a2, a3, a4⟩ := ih e
        refine ⟨a0.trans h2, m + 1, by omega, .inl (by omega), ?_, fun hn => ?_⟩
        · rw [a3, h1, List.range'_succ, List.append_assoc, show k :: List.range' (k + 1) m = [k] ++ List.range' (k + 1) m from rfl, List.filter_append]
          congr 2
          apply List.filter_congr
          intro i hi
          rw [List.mem_range'_1] at hi
          rw [h3 i (by omega)]
        · have := a4 hn
          omega
    · cases e
      exact ⟨rfl, 0, Nat.zero_le _, .inr rfl, by simp, fun _ => .inr (.inr (by omega))⟩

theorem detectInfo_opens {h : Beh} (ha : Alone h) {s : St} {r : St × Bool} (hn : s.npaths ≤ 10) (e : detectInfo h s = .ok r) :
    opens r.1.log = opens s.log ∧ r.1.libs = s.libs ∧ r.1.npaths ≤ 10 ∧ (r.2 = false → r.1.detected = 1 → r.1.npaths = 0) := by
  unfold detectInfo at e
  split at e
  · cases e; exact ⟨rfl, rfl, hn, fun h1 h2 => absurd h2 (by simpa using h1)⟩
  · obtain ⟨x, e1, e⟩ := bind_ok e
    obtain ⟨kx, lx⟩ := ext_same ha e1
    have : opens x.1.log = opens s.log := by rw [lx, opens_append]; exact List.append_nil _
    split at e <;> cases e
    · exact ⟨this, kx.libs, by rw [kx.npaths]; exact hn, fun _ h2 => by rw [kx.detected] at h2; exact absurd h2 (by simp)⟩
    · exact ⟨this, kx.libs, Nat.min_le_right _ _, fun h1 _ => by
        have : x.2.1 = 1 := by simpa using h1
        dsimp only
        omega⟩

theorem closeLib_quiet {l : Option Nat} {s s' : St} (e : closeLib l s = .ok s') : s'.log = s.log ∧ s'.npaths = s.npaths := by
  unfold closeLib at e
  split at e
  · cases e
  · split at e
    · cases e; exact ⟨rfl, rfl⟩
    · cases e

theorem freeCached_quiet (n : Nat) : ∀ {k : Nat} {s s' : St}, freeCached n k s = .ok s' → s'.log = s.log ∧ s'.npaths = s.npaths := by
  induction n with
  | zero => intro k s s' e; cases e; exact ⟨rfl, rfl⟩
  | succ n ih =>
    intro k s s' e
    unfold freeCached at e
    split at e
    · split at e
      · exact ih e
      · obtain ⟨x, e1, e⟩ := bind_ok e
        have := closeLib_quiet e1
        exact ⟨(ih e).1.trans this.1, (ih e).2.trans this.2⟩
    · cases e; exact ⟨rfl, rfl⟩

/-- C43: the libraries opened for the game are those of the paths gameinfo lists, in their order, each at most once,
the ones already open are left out; if none of them has the interface all were tried. -/
theorem game_paths_tried {w : World} {h : Beh} (ha : Alone h) {name : List Byte} {s s' : St} {p : Nat} (hr : Reach w s)
    (e : requestGame w h name s = .ok (s', p)) :
    ∃ m, m ≤ s'.npaths ∧ opens s'.log = opens s.log ++ (List.range m).filter (fun i => (s.libs i).isNone) ∧ (p = 0 → s'.detected = 1 → m = s'.npaths) := by
  obtain ⟨x, e1, e⟩ := bind_ok e
  obtain ⟨o1, l1, n1, d1⟩ := detectInfo_opens ha hr.inv.paths e1
  split at e
  · rename_i hx
    cases e
    exact ⟨0, Nat.zero_le _, by simpa using o1, fun _ hd => (d1 hx hd).symm⟩
  obtain ⟨y, e2, e⟩ := bind_ok e
  obtain ⟨n2, m, a1, a2, a3, a4⟩ := search_opens ha 10 e2
  rw [Nat.zero_add, ← List.range_eq_range', o1, l1] at *
  have hm : m ≤ x.1.npaths := by omega
  have hs : s'.log = y.1.log ∧ s'.npaths = y.1.npaths := by
    split at e
    · cases e; exact ⟨rfl, rfl⟩
    · obtain ⟨z, e3, e⟩ := bind_ok e
      cases e
      obtain ⟨u, e4, e3⟩ := bind_ok e3
      have hl : s'.log = u.log ∧ s'.npaths = u.npaths := by
        unfold patchInit at e3
        dsimp only at e3
        cases e3; exact ⟨rfl, rfl⟩
      have := freeCached_quiet _ e4
      exact ⟨hl.1.trans this.1, hl.2.trans this.2⟩
  refine ⟨m, by rw [hs.2, n2]; exact hm, by rw [hs.1]; exact a3, ?_⟩
  · intro h0 _
    split at e
    · rename_i hy
      have := a4 hy
      rw [hs.2, n2]
      omega
    · rename_i hy
      obtain ⟨z, e3, e⟩ := bind_ok e
      cases e
      -- the answer of a library that has the interface is not NULL
      exfalso
      subst h0
      have : ∀ (n k : Nat) (s : St) (r : St × Option (Nat × Nat)), search h name n k s = .ok r → ∀ l q, r.2 = some (l, q) → q ≠ 0 := by
        intro n
        induction n with
        | zero => intro k s r e l q hq; cases e; cases hq
        | succ n ih =>
          intro k s r e l q hq
          unfold search at e
          split at e
          · obtain ⟨x, e1, e⟩ := bind_ok e
            split at e
            · rename_i hx
              cases e
              obtain ⟨y, e2, e1⟩ := bind_ok e1
              dsimp only at e1
              split at e1
              · cases e1; cases hx
              · obtain ⟨z, e3, e1⟩ := bind_ok e1
                split at e1
                · cases e1; cases hx
                · obtain ⟨u, e4, e1⟩ := bind_ok e1
                  split at e1
                  · cases e1; cases hx
                  · rename_i hu
                    cases e1; cases hx; cases hq; exact hu
            · exact ih _ _ _ e l q hq
          · cases e; cases hq
      exact this _ _ _ _ e2 _ _ hy rfl

def resOpens : R (St × Nat × Int) → Option (List Nat)
  | .ok r => some (opens r.1.log)
  | .error _ => none

example : resOpens (exec w0 5 (prog (fun c => if c = .readInfo then 4 else 0) [.create (bytes "ServerGameDLL005")]) (init fun _ => 9)) = some [0, 1, 2] ∧
    resOpens (exec w0 5 (prog second [.create (bytes "ServerGameDLL005")]) (init fun _ => 9)) = some [0, 1] := by decide +kernel

/-! ### Names -/

/-- Decimal numerals and their values. -/
inductive Decimal : List Byte → Nat → Prop
  | digit {c : Byte} : 48 ≤ c → c ≤ 57 → Decimal [c] (c.toNat - 48)
  | more {ds : List Byte} {n : Nat} {c : Byte} : Decimal ds n → 48 ≤ c → c ≤ 57 → Decimal (ds ++ [c]) (10 * n + (c.toNat - 48))

theorem isdigit_spec (c : Byte) : isdigit c = true ↔ 48 ≤ c ∧ c ≤ 57 := by
  have : ∀ k : Fin 256, isdigit (UInt8.ofNat k.val) = true ↔ 48 ≤ UInt8.ofNat k.val ∧ UInt8.ofNat k.val ≤ 57 := by decide +kernel
  have h := this ⟨c.toNat, c.toNat_lt⟩
  rwa [UInt8.ofNat_toNat] at h

theorem natOf_decimal {ds : List Byte} {n : Nat} (h : Decimal ds n) : ∀ (acc : Nat) (rest : List Byte), natOf acc (ds ++ rest) = natOf (acc * 10 ^ ds.length + n) rest := by
  induction h with
  | digit h1 h2 =>
    intro acc rest
    show natOf acc (_ :: rest) = _
    rw [natOf, if_pos ((isdigit_spec _).2 ⟨h1, h2⟩)]
    simp
  | more h h1 h2 ih =>
    intro acc rest
    rw [List.append_assoc, ih]
    show natOf _ (_ :: rest) = _
    rw [natOf, if_pos ((isdigit_spec _).2 ⟨h1, h2⟩)]
    congr 1
    rw [List.length_append, List.length_singleton, Nat.pow_succ]
    rw [← Nat.mul_assoc]
    generalize acc * 10 ^ _ = x
    omega

theorem natOf_stop {rest : List Byte} (h : ∀ c, rest.head? = some c → ¬ (48 ≤ c ∧ c ≤ 57)) (acc : Nat) : natOf acc rest = acc := by
  cases rest with
  | nil => rfl
  | cons c cs => rw [natOf, if_neg fun x => h c rfl ((isdigit_spec c).1 x)]

theorem decimal_head {ds : List Byte} {n : Nat} (h : Decimal ds n) : ∃ c cs, ds = c :: cs ∧ 48 ≤ c ∧ c ≤ 57 := by
  induction h with
  | digit h1 h2 => exact ⟨_, _, rfl, h1, h2⟩
  | more _ _ _ ih => obtain ⟨c, cs, rfl, h1, h2⟩ := ih; exact ⟨c, cs ++ _, rfl, h1, h2⟩

theorem digit_not_space (c : Byte) : 48 ≤ c → c ≤ 57 → isspace c = false ∧ c ≠ 45 ∧ c ≠ 43 := by
  have : ∀ k : Fin 256, 48 ≤ UInt8.ofNat k.val → UInt8.ofNat k.val ≤ 57 → isspace (UInt8.ofNat k.val) = false ∧ UInt8.ofNat k.val ≠ 45 ∧ UInt8.ofNat k.val ≠ 43 := by decide +kernel
  have h := this ⟨c.toNat, c.toNat_lt⟩
  rwa [UInt8.ofNat_toNat] at h

/-- C43: the version at the end of an interface name: leading white space, a sign and a decimal numeral, cut to 64 bits
and then to 32. -/
theorem version_number {sp ds rest : List Byte} {n : Nat} (hs : ∀ c ∈ sp, isspace c = true) (h : Decimal ds n) (hr : ∀ c, rest.head? = some c → ¬ (48 ≤ c ∧ c ≤ 57)) :
    atoi (sp ++ ds ++ rest) = min n (2 ^ 63 - 1) % 2 ^ 32 ∧ atoi (sp ++ [43] ++ ds ++ rest) = min n (2 ^ 63 - 1) % 2 ^ 32 ∧
      atoi (sp ++ [45] ++ ds ++ rest) = (2 ^ 64 - min n (2 ^ 63)) % 2 ^ 32 := by
  have drop : ∀ t : List Byte, (∀ c, t.head? = some c → isspace c = false) → (sp ++ t).dropWhile isspace = t := by
    intro t ht
    rw [List.dropWhile_append_of_pos hs]
    cases t with
    | nil => rfl
    | cons c cs => rw [List.dropWhile_cons, ht c rfl]; rfl
  have hn : natOf 0 (ds ++ rest) = n := by
    have := natOf_decimal h 0 rest
    rw [natOf_stop hr] at this
    simpa using this
  obtain ⟨c, cs, hc, h1, h2⟩ := decimal_head h
  obtain ⟨g1, g2, g3⟩ := digit_not_space c h1 h2
  refine ⟨?_, ?_, ?_⟩
  · unfold atoi
    rw [List.append_assoc, drop _ (by rw [hc]; rintro _ ⟨⟩; exact g1)]
    rw [hc] at hn ⊢
    rw [List.cons_append] at hn ⊢
    split
    · rename_i e; injection e with e; exact absurd e g2
    · rename_i e; injection e with e; exact absurd e g3
    · rw [hn]
  · unfold atoi
    rw [List.append_assoc, List.append_assoc, drop _ (by rintro _ ⟨⟩; decide)]
    show min (natOf 0 (ds ++ rest)) _ % _ = _
    rw [hn]
  · unfold atoi
    rw [List.append_assoc, List.append_assoc, drop _ (by rintro _ ⟨⟩; decide)]
    show (_ - min (natOf 0 (ds ++ rest)) _) % _ = _
    rw [hn]

example : Decimal [48, 49, 50] 12 ∧ atoi (bytes " +012abc") = 12 ∧ atoi (bytes "99999999999999999999") = 4294967295 ∧ atoi (bytes "+99999999999999999999") = 4294967295 :=
  ⟨.more (.more (.digit (c := 48) (by decide) (by decide)) (c := 49) (by decide) (by decide)) (c := 50) (by decide) (by decide), by decide +kernel⟩

theorem digitsVal_natOf (s : List Byte) : ∀ acc, digitsVal acc s = natOf acc s := by
  induction s with
  | nil => intro acc; rfl
  | cons c s ih => intro acc; unfold digitsVal natOf; split <;> simp [ih]

/-- C44: the number in SteamAppId that decides about the game's name: a decimal numeral, too large ones are `ULONG_MAX`, a
minus negates modulo 2^64. -/
theorem app_number {sp ds rest : List Byte} {n : Nat} (hs : ∀ c ∈ sp, isspace c = true) (h : Decimal ds n) (hr : ∀ c, rest.head? = some c → ¬ (48 ≤ c ∧ c ≤ 57)) :
    strtoul (sp ++ ds ++ rest) = min n (2 ^ 64 - 1) ∧ strtoul (sp ++ [43] ++ ds ++ rest) = min n (2 ^ 64 - 1) ∧
      strtoul (sp ++ [45] ++ ds ++ rest) = (if n < 2 ^ 64 then (2 ^ 64 - n) % 2 ^ 64 else 2 ^ 64 - 1) := by
  have drop : ∀ t : List Byte, (∀ c, t.head? = some c → isspace c = false) → (sp ++ t).dropWhile isspace = t := by
    intro t ht
    rw [List.dropWhile_append_of_pos hs]
    cases t with
    | nil => rfl
    | cons c cs => rw [List.dropWhile_cons, ht c rfl]; rfl
  have hn : digitsVal 0 (ds ++ rest) = n := by
    have := natOf_decimal h 0 rest
    rw [natOf_stop hr] at this
    rw [digitsVal_natOf]
    simpa using this
  obtain ⟨c, cs, hc, h1, h2⟩ := decimal_head h
  obtain ⟨g1, g2, g3⟩ := digit_not_space c h1 h2
  refine ⟨?_, ?_, ?_⟩
  · unfold strtoul
    rw [List.append_assoc, drop _ (by rw [hc]; rintro _ ⟨⟩; exact g1)]
    rw [hc] at hn ⊢
    rw [List.cons_append] at hn ⊢
    split
    · rename_i e; injection e with e; exact absurd e g2
    · rename_i e; injection e with e; exact absurd e g3
    · rw [hn]
  · unfold strtoul
    rw [List.append_assoc, List.append_assoc, drop _ (by rintro _ ⟨⟩; decide)]
    show min (digitsVal 0 (ds ++ rest)) _ = _
    rw [hn]
  · unfold strtoul
    rw [List.append_assoc, List.append_assoc, drop _ (by rintro _ ⟨⟩; decide)]
    show (if digitsVal 0 (ds ++ rest) ≥ 2 ^ 64 then 2 ^ 64 - 1 else (2 ^ 64 - digitsVal 0 (ds ++ rest)) % 2 ^ 64) = _
    rw [hn]
    split <;> split <;> first | rfl | omega

example : strtoul (bytes " 730") = 730 ∧ strtoul (bytes "-18446744073709550886") = 730 := by decide +kernel

/-- C43: which name is treated how; `Source2Server` needs a number behind it. -/
theorem dispatch {w : World} {h : Beh} {name : List Byte} {s : St} :
    (∀ r, name = bytes "Source2Server" ++ r → w.dedicated = false → w.insecure = false → gameDllRequest w h name s = .ok (s, 0)) ∧
    (∀ r, name = bytes "Source2ServerConfig" ++ r → w.dedicated = true ∨ w.insecure = true → gameDllRequest w h name s = requestConfig w h name s) ∧
    (∀ r, name = bytes "Source2Server" ++ r → (∀ t, r ≠ bytes "Config" ++ t) → w.dedicated = true ∨ w.insecure = true →
      (atoi r ≠ 0 → gameDllRequest w h name s = requestS2 w h name s) ∧
      (atoi r = 0 → gameDllRequest w h name s = if s.lib ≠ none ∧ s.gdBridge = none then askGame h name s else .ok (s, 0))) ∧
    (∀ r, name = bytes "ServerGameDLL" ++ r → gameDllRequest w h name s = requestGame w h name s) ∧
    ((∀ r, name ≠ bytes "Source2Server" ++ r) → (∀ r, name ≠ bytes "ServerGameDLL" ++ r) →
      gameDllRequest w h name s = if s.lib ≠ none ∧ s.gdBridge = none then askGame h name s else .ok (s, 0)) := by
  have yes : ∀ p r : List Byte, name = p ++ r → starts p name = true := fun p r e => starts_iff.2 ⟨r, e⟩
  have no : ∀ p : List Byte, (∀ r, name ≠ p ++ r) → starts p name = false := by
    intro p hp
    cases hx : starts p name with
    | false => rfl
    | true => obtain ⟨r, hr⟩ := starts_iff.1 hx; exact absurd hr (hp r)
  have cfg : bytes "Source2ServerConfig" = bytes "Source2Server" ++ bytes "Config" := by decide +kernel
  have sg : ∀ r t : List Byte, bytes "Source2Server" ++ r ≠ bytes "ServerGameDLL" ++ t := by
    intro r t e
    have := congrArg (fun l => l[1]?) e
    simp [bytes] at this
  have last : ∀ b1 b2 b3 b4 : Bool, b1 = false → b2 = false → b3 = false → b4 = false → (if b1 = true then Except.ok (s, 0) else
      if b2 = true then requestConfig w h name s else if b3 = true then requestS2 w h name s else if b4 = true then requestGame w h name s else
      if (s.lib.isSome && s.gdBridge.isNone) = true then askGame h name s else .ok (s, 0)) =
      if s.lib ≠ none ∧ s.gdBridge = none then askGame h name s else .ok (s, 0) := by
    rintro _ _ _ _ rfl rfl rfl rfl
    simp only [Bool.false_eq_true, if_false]
    cases s.lib <;> cases s.gdBridge <;> simp
  refine ⟨fun r hr h1 h2 => ?_, fun r hr hw => ?_, fun r hr hc hw => ⟨fun ha => ?_, fun ha => ?_⟩, fun r hr => ?_, fun h1 h2 => ?_⟩
  · unfold gameDllRequest
    rw [yes _ _ hr, h1, h2]; rfl
  · unfold gameDllRequest
    rw [if_neg (by rcases hw with hw | hw <;> simp [hw]), yes _ _ hr, if_pos rfl]
  · have hd : name.drop 13 = r := by rw [hr]; exact List.drop_left' (by decide +kernel)
    unfold gameDllRequest
    rw [if_neg (by rcases hw with hw | hw <;> simp [hw]), no (bytes "Source2ServerConfig") (fun t ht => hc t ?_), yes (bytes "Source2Server") r hr, hd, if_neg (by simp), if_pos (by simpa using ha)]
    rw [hr, cfg, List.append_assoc] at ht
    exact List.append_cancel_left ht
  · have hd : name.drop 13 = r := by rw [hr]; exact List.drop_left' (by decide +kernel)
    unfold gameDllRequest
    refine last _ _ _ _ ?_ ?_ ?_ ?_
    · rcases hw with hw | hw <;> simp [hw]
    · refine no _ fun t ht => hc t ?_
      rw [hr, cfg, List.append_assoc] at ht
      exact List.append_cancel_left ht
    · rw [hd, ha]; simp
    · exact no _ fun t ht => sg r t (hr.symm.trans ht)
  · have ns : starts (bytes "Source2Server") name = false := no _ fun t ht => sg t r (ht.symm.trans hr)
    have nc : starts (bytes "Source2ServerConfig") name = false := no _ fun t ht => sg _ r (by rw [cfg, List.append_assoc] at ht; exact ht.symm.trans hr)
    unfold gameDllRequest
    rw [ns, nc, yes _ _ hr]
    rfl
  · have ns : starts (bytes "Source2Server") name = false := no _ h1
    have nc : starts (bytes "Source2ServerConfig") name = false := no _ fun t ht => h1 (bytes "Config" ++ t) (by rw [ht, cfg, List.append_assoc])
    unfold gameDllRequest
    refine last _ _ _ _ ?_ nc ?_ (no _ h2)
    · rw [ns]; rfl
    · rw [ns]; rfl

example : w0.dedicated = true ∧ bytes "Source2Server001" = bytes "Source2Server" ++ bytes "001" ∧ atoi (bytes "001") ≠ 0 ∧ atoi (bytes "Foo") = 0 := by decide +kernel

#print axioms bridge_open_partial
#print axioms forward_defined_partial
#print axioms nested_init_dangling
#print axioms load_bridge_partial
#print axioms version_told_partial
#print axioms paths_at_most_ten
#print axioms game_paths_tried
#print axioms version_number
#print axioms app_number
#print axioms dispatch

/-- C62, negation: the first call that finds no path answers false, every later one true, still without a path. -/
theorem second_detect_true {h : Beh} {s : St} {r : St × Nat × Int} (hd : s.detected = 0) (e : ext h .readInfo { s with detected := -1 } = .ok r) (hr : r.2.1 = 1) :
    ∃ s', detectInfo h s = .ok (s', false) ∧ s'.npaths = 0 ∧ detectInfo h s' = .ok (s', true) := by
  refine ⟨{ r.1 with detected := 1, npaths := 0 }, ?_, rfl, ?_⟩
  · unfold detectInfo
    rw [if_neg (by rw [hd]; simp), e]
    simp [bind, Except.bind, hr]
  · unfold detectInfo
    rw [if_pos (by simp)]
    simp

/-- The reading ends without a path. -/
example (s : St) : ∃ r, ext (fun _ _ s => .ok (s, 1, 0)) .readInfo { s with detected := -1 } = .ok r ∧ r.2.1 = 1 := ⟨_, rfl, rfl⟩

#print axioms second_detect_true

end Verif.Loader
