import Verif.Loader.Fatal
/-! C104: fatal errors of the loader are printed and logged. -/
namespace Verif.Fatal
open Verif.C (Byte)
open Verif.Loader (bytes Backend libraryPath upToSlash)

/-! ### the messages -/

/-- Specification: the kinds of arguments a format asks for; `none` if it has something else than `%s` and `%d`. No counterpart in
/repo. -/
def wants : List Byte → Option (List Kind)
  | [] => some []
  | c :: f =>
    if c = 37 then
      match f with
      | [] => none
      | d :: f =>
        if d = 115 then (wants f).map (Kind.str :: ·)
        else if d = 100 then (wants f).map (Kind.int :: ·)
        else none
    else wants f

/-- Specification: the arguments begin with arguments of these kinds. No counterpart in /repo. -/
def Fits : List Kind → List Arg → Prop
  | [], _ => True
  | .str :: ks, .str _ :: as => Fits ks as
  | .int :: ks, .int _ :: as => Fits ks as
  | _ :: _, _ => False

private theorem bind_ok {α β : Type} {x : Except Bad α} {f : α → β} :
    (∃ t, (do let y ← x; Except.ok (f y)) = (.ok t : Except Bad β)) ↔ ∃ t, x = .ok t := by
  cases x with
  | error e => simp [bind, Except.bind]
  | ok a => simp [bind, Except.bind]

private theorem wants_map {f : List Byte} {k : Kind} {as : List Arg} :
    (∃ ks, (wants f).map (k :: ·) = some ks ∧ Fits ks as) ↔ ∃ ks, wants f = some ks ∧ Fits (k :: ks) as := by
  cases wants f with
  | none => simp
  | some ks => simp

private theorem render_other {c : Byte} (hc : ¬ c = 37) (f : List Byte) (as : List Arg) :
    render (c :: f) as = (do let y ← render f as; Except.ok (c :: y)) := by
  rw [render.eq_def]
  simp only [if_neg hc]
  try rfl

/-- C104: a message can be printed exactly if its format has only `%s` and `%d` and the arguments are of these kinds in this order; in
every other case the behaviour is undefined. -/
theorem render_ok_iff : ∀ (f : List Byte) (as : List Arg),
    (∃ t, render f as = .ok t) ↔ ∃ ks, wants f = some ks ∧ Fits ks as
  | [], as => by simp [render, wants, Fits]
  | [c], as => by
    by_cases hc : c = 37
    · simp [render, wants, hc]
    · have := render_ok_iff [] as
      unfold render wants
      rw [if_neg hc, if_neg hc, bind_ok, this]
  | c :: d :: f, as => by
    by_cases hc : c = 37
    · subst hc
      by_cases hs : d = 115
      · subst hs
        simp only [render, wants, if_true]
        rw [wants_map]
        cases as with
        | nil => simp [Fits]
        | cons a as =>
          cases a with
          | int n => simp [Fits]
          | raw => simp [Fits]
          | str s =>
            simp only [Fits]
            rw [bind_ok, render_ok_iff f as]
      · by_cases hd : d = 100
        · subst hd
          have h1 : ¬ ((100 : Byte) = 115) := by decide
          simp only [render, wants, if_true, if_neg h1]
          rw [wants_map]
          cases as with
          | nil => simp [Fits]
          | cons a as =>
            cases a with
            | str n => simp [Fits]
            | raw => simp [Fits]
            | int s =>
              simp only [Fits]
              rw [bind_ok, render_ok_iff f as]
        · simp [render, wants, hs, hd]
    · have := render_ok_iff (d :: f) as
      rw [render_other hc, wants.eq_def]
      simp only [if_neg hc]
      rw [bind_ok, this]

example : (∃ ks, wants (bytes "a %d b %s") = some ks ∧ Fits ks [.int 3, .str [65]]) :=
  ⟨[.int, .str], by decide +kernel, trivial⟩

private theorem calls_table : calls.all (fun c => wants (bytes c.1) == some c.2) = true := by decide +kernel

/-- C104: every call of `mm_LogFatal` passes what its format asks for: whatever the numbers and texts are, the message can be
printed. -/
theorem calls_defined {c : String × List Kind} (hc : c ∈ calls) {as : List Arg} (h : Fits c.2 as) : ∃ t, render (bytes c.1) as = .ok t := by
  have := List.all_eq_true.1 calls_table c hc
  exact (render_ok_iff _ _).2 ⟨c.2, by simpa using this, h⟩

example : ("Detected engine %d but could not load: %s", [Kind.int, Kind.str]) ∈ calls ∧ Fits [.int, .str] [.int 7, .str (bytes "x")] :=
  ⟨by decide, trivial⟩

private theorem render_plain : ∀ (p f : List Byte) (as : List Arg), 37 ∉ p → render (p ++ f) as = (render f as).map (p ++ ·)
  | [], f, as, _ => by cases h : render f as <;> simp [h, Except.map]
  | c :: p, f, as, h => by
    simp only [List.mem_cons, not_or] at h
    have hc : ¬ c = 37 := fun k => h.1 k.symm
    rw [List.cons_append, render_other hc, render_plain p f as h.2]
    cases render f as <;> rfl

/-- C104: texts and numbers come out as they are, at their places, and the rest of the format between them. -/
theorem render_places (p g : List Byte) (hp : 37 ∉ p) (as : List Arg) :
    (∀ s, render (p ++ 37 :: 115 :: g) (.str s :: as) = (render g as).map fun t => p ++ s ++ t) ∧
    (∀ n, render (p ++ 37 :: 100 :: g) (.int n :: as) = (render g as).map fun t => p ++ showInt n ++ t) ∧
    render p as = .ok p := by
  refine ⟨fun s => ?_, fun n => ?_, ?_⟩
  · rw [render_plain p _ _ hp]
    simp only [render, if_true]
    cases render g as <;> simp [bind, Except.bind, Except.map]
  · rw [render_plain p _ _ hp]
    have h1 : ¬ ((100 : Byte) = 115) := by decide
    simp only [render, if_true, if_neg h1]
    cases render g as <;> simp [bind, Except.bind, Except.map]
  · have := render_plain p [] as hp
    rw [List.append_nil] at this
    rw [this]
    simp [render, Except.map]

example : (render (bytes "Could not read file: %s") [.str (bytes "a%sb")]).toOption = some (bytes "Could not read file: a%sb") ∧
    (render (bytes "engine %d!") [.int (-12)]).toOption = some (bytes "engine -12!") := by decide +kernel

/-! ### the time -/

private theorem dec_len : ∀ (k n : Nat), n < 10 ^ (k + 1) → (dec n).length ≤ k + 1
  | 0, n, h => by unfold dec; rw [if_pos (by simpa using h)]; simp
  | k + 1, n, h => by
    unfold dec
    by_cases h10 : n < 10
    · rw [if_pos h10]; simp
    · rw [if_neg h10]
      have : n / 10 < 10 ^ (k + 1) := by
        rw [Nat.div_lt_iff_lt_mul (by decide), ← Nat.pow_succ]; exact h
      have := dec_len k (n / 10) this
      simp only [List.length_append, List.length_cons, List.length_nil]
      omega

private theorem digit_inj {a b : Nat} (ha : a < 10) (hb : b < 10) (h : (48 + a).toUInt8 = (48 + b).toUInt8) : a = b := by
  have := congrArg UInt8.toNat h
  simp only [Nat.toUInt8_eq, UInt8.toNat_ofNat'] at this
  omega

private theorem dec_ne_nil (n : Nat) : dec n ≠ [] := by
  unfold dec
  split <;> simp

private theorem dec_inj : ∀ (n m : Nat), dec n = dec m → n = m := by
  intro n
  induction n using Nat.strongRecOn with
  | ind n ih =>
    intro m h
    rw [dec, dec.eq_def m] at h
    by_cases hn : n < 10
    · by_cases hm : m < 10
      · rw [if_pos hn, if_pos hm] at h
        exact digit_inj hn hm (List.cons.inj h).1
      · rw [if_pos hn, if_neg hm] at h
        have := congrArg List.length h
        have h0 : 0 < (dec (m / 10)).length := List.length_pos_iff.2 (dec_ne_nil _)
        simp only [List.length_append, List.length_cons, List.length_nil] at this
        omega
    · by_cases hm : m < 10
      · rw [if_neg hn, if_pos hm] at h
        have := congrArg List.length h
        have h0 : 0 < (dec (n / 10)).length := List.length_pos_iff.2 (dec_ne_nil _)
        simp only [List.length_append, List.length_cons, List.length_nil] at this
        omega
      · rw [if_neg hn, if_neg hm] at h
        have hl := List.append_inj' h rfl
        have h1 := ih (n / 10) (by omega) (m / 10) hl.1
        have h2 := digit_inj (Nat.mod_lt n (by decide)) (Nat.mod_lt m (by decide)) (List.cons.inj hl.2).1
        omega

/-- Specification: the value of decimal digits. No counterpart in /repo. -/
def digitsVal (ds : List Byte) : Nat := ds.foldl (fun v d => 10 * v + (d.toNat - 48)) 0

/-- Specification: the number a text denotes, 45 being the minus sign. No counterpart in /repo. -/
def intVal : List Byte → Int
  | 45 :: ds => - (digitsVal ds : Int)
  | ds => digitsVal ds

private theorem digit_val {n : Nat} (h : n < 10) : (48 + n).toUInt8.toNat = 48 + n := by
  simp only [Nat.toUInt8_eq, UInt8.toNat_ofNat']
  omega

private theorem dec_val (n : Nat) : digitsVal (dec n) = n ∧ (∀ d ∈ dec n, 48 ≤ d.toNat ∧ d.toNat ≤ 57) ∧
    (0 < n → ∃ d r, dec n = d :: r ∧ d.toNat ≠ 48) := by
  induction n using Nat.strongRecOn with
  | ind n ih =>
    unfold dec
    by_cases hn : n < 10
    · rw [if_pos hn]
      have := digit_val hn
      refine ⟨by simp only [digitsVal, List.foldl_cons, List.foldl_nil, this]; omega, ?_, fun h0 => ⟨_, [], rfl, by rw [this]; omega⟩⟩
      intro d hd
      rw [List.mem_singleton.1 hd, this]
      omega
    · rw [if_neg hn]
      obtain ⟨h1, h2, h3⟩ := ih (n / 10) (by omega)
      have hm := digit_val (Nat.mod_lt n (by decide : 0 < 10))
      have hml := Nat.mod_lt n (by decide : 0 < 10)
      refine ⟨?_, ?_, fun _ => ?_⟩
      · unfold digitsVal at h1 ⊢
        rw [List.foldl_append, h1]
        simp only [List.foldl_cons, List.foldl_nil, hm]
        omega
      · intro d hd
        rcases List.mem_append.1 hd with hd | hd
        · exact h2 d hd
        · rw [List.mem_singleton.1 hd, hm]
          omega
      · obtain ⟨d, r, e, k⟩ := h3 (by omega)
        exact ⟨d, r ++ [(48 + n % 10).toUInt8], by rw [e]; rfl, k⟩

/-- C104: a number is printed so that it can be read back: in decimal digits without leading zeros, behind a minus sign exactly if it is
negative. -/
theorem number_round_trip (n : Int) : intVal (showInt n) = n ∧ (∀ d ∈ showInt n, d = 45 ∨ 48 ≤ d.toNat ∧ d.toNat ≤ 57) ∧
    ((showInt n).head? = some 45 ↔ n < 0) ∧ (∀ d ∈ (showInt n).tail, 48 ≤ d.toNat ∧ d.toNat ≤ 57) ∧
    ((showInt n).head? = some 48 → n = 0) := by
  obtain ⟨h1, h2, h3⟩ := dec_val n.natAbs
  have hne := dec_ne_nil n.natAbs
  by_cases hn : n < 0
  · have e : showInt n = 45 :: dec n.natAbs := by unfold showInt; rw [if_pos hn]
    rw [e]
    refine ⟨?_, fun d hd => (List.mem_cons.1 hd).imp id (h2 d), by simp [hn], fun d hd => h2 d hd, fun h => absurd h (by simp)⟩
    simp only [intVal, h1]
    clear h1 h2 h3 hne e
    omega
  · have e : showInt n = dec n.natAbs := by unfold showInt; rw [if_neg hn]
    rw [e]
    cases hd : dec n.natAbs with
    | nil => exact absurd hd hne
    | cons d r =>
      rw [hd] at h1 h2 h3
      have hd48 := h2 d (List.mem_cons_self ..)
      have h45 : d ≠ 45 := by rintro rfl; exact absurd hd48.1 (by decide)
      refine ⟨?_, fun x hx => .inr (h2 x hx), by simp [hn, h45], fun x hx => h2 x (List.mem_cons_of_mem _ hx), fun h => ?_⟩
      · have : intVal (d :: r) = digitsVal (d :: r) := by
          unfold intVal
          split
          · next k => exact absurd (List.cons.inj k).1 h45
          · rfl
        rw [this, h1]
        clear this h1 h2 h3 hne e hd hd48
        omega
      · simp only [List.head?_cons, Option.some.injEq] at h
        by_cases h0 : 0 < n.natAbs
        · obtain ⟨d', r', k, kk⟩ := h3 h0
          rw [← (List.cons.inj k).1, h] at kk
          exact absurd rfl kk
        · omega

example : showInt (-120) = bytes "-120" ∧ intVal (bytes "-120") = -120 := by decide +kernel

/-- Specification: what the C library promises of `struct tm`, the year being an `int`. No counterpart in /repo. -/
structure Valid (t : Tm) : Prop where
  mon : t.mon < 12
  day : t.day < 32
  year : t.year < 2 ^ 31
  hour : t.hour < 24
  min : t.min < 60
  sec : t.sec < 61

private theorem two_inj {a b : Nat} (ha : a < 100) (hb : b < 100) (h : two a = two b) : a = b := by
  unfold two at h
  have h1 := digit_inj (a := a / 10) (b := b / 10) (by omega) (by omega) (List.cons.inj h).1
  have h2 := digit_inj (Nat.mod_lt a (by decide)) (Nat.mod_lt b (by decide)) (List.cons.inj (List.cons.inj h).2).1
  omega

/-- C104: the time always fits the 256 bytes, in at most 27 characters, and two lines bear the same time only if they were written in the
same second. -/
theorem header_determines {t : Tm} (h : Valid t) :
    (∃ s, strftime 256 t = some s ∧ s.length ≤ 27 ∧ 10 ∉ s) ∧ ∀ {t'}, Valid t' → strftime 256 t = strftime 256 t' → t = t' := by
  have fit : ∀ {t : Tm}, Valid t → strftime 256 t = some (two (t.mon + 1) ++ [47] ++ two t.day ++ [47] ++ dec (t.year + 1900) ++
      [32, 45, 32] ++ two t.hour ++ [58] ++ two t.min ++ [58] ++ two t.sec) ∧ (dec (t.year + 1900)).length ≤ 10 := by
    intro t h
    have hl := dec_len 9 (t.year + 1900) (by have := h.year; omega)
    refine ⟨?_, hl⟩
    unfold strftime
    rw [if_pos]
    simp only [List.length_append, List.length_cons, List.length_nil, two]
    omega
  have no10d : ∀ n, n < 10 → (10 : Byte) ≠ (48 + n).toUInt8 := by
    intro n hn k
    have := congrArg UInt8.toNat k
    simp only [Nat.toUInt8_eq, UInt8.toNat_ofNat', UInt8.reduceToNat] at this
    omega
  have no10 : ∀ n, (10 : Byte) ∉ dec n := by
    intro n
    induction n using Nat.strongRecOn with
    | ind n ih =>
      unfold dec
      by_cases hn : n < 10
      · rw [if_pos hn]
        simpa using no10d n hn
      · rw [if_neg hn]
        simp only [List.mem_append, List.mem_cons, List.not_mem_nil, or_false, not_or]
        exact ⟨ih (n / 10) (by omega), no10d _ (Nat.mod_lt _ (by decide))⟩
  have no10t : ∀ n, n < 100 → (10 : Byte) ∉ two n := by
    intro n hn
    simp only [two, List.mem_cons, List.not_mem_nil, or_false, not_or]
    exact ⟨no10d _ (by omega), no10d _ (by omega)⟩
  refine ⟨⟨_, (fit h).1, ?_, ?_⟩, ?_⟩
  · have := (fit h).2
    simp only [List.length_append, List.length_cons, List.length_nil, two]
    omega
  · have h1 := no10t (t.mon + 1) (by have := h.mon; omega)
    have h2 := no10t t.day (by have := h.day; omega)
    have h3 := no10t t.hour (by have := h.hour; omega)
    have h4 := no10t t.min (by have := h.min; omega)
    have h5 := no10t t.sec (by have := h.sec; omega)
    have h6 := no10 (t.year + 1900)
    simp only [List.mem_append, h1, h2, h3, h4, h5, h6, false_or, or_false]
    decide
  · intro t' h' e
    rw [(fit h).1, (fit h').1, Option.some.injEq] at e
    have l2 : ∀ n, (two n).length = 2 := fun _ => rfl
    obtain ⟨e, es⟩ := List.append_inj' e (by rw [l2, l2])
    obtain ⟨e, -⟩ := List.append_inj' e rfl
    obtain ⟨e, em⟩ := List.append_inj' e (by rw [l2, l2])
    obtain ⟨e, -⟩ := List.append_inj' e rfl
    obtain ⟨e, eh⟩ := List.append_inj' e (by rw [l2, l2])
    obtain ⟨e, -⟩ := List.append_inj' e rfl
    obtain ⟨e, ey⟩ := List.append_inj e (by simp only [List.length_append, l2, List.length_cons, List.length_nil])
    obtain ⟨e, -⟩ := List.append_inj' e rfl
    obtain ⟨e, ed⟩ := List.append_inj' e (by rw [l2, l2])
    obtain ⟨eo, -⟩ := List.append_inj' e rfl
    have := two_inj (by have := h.mon; omega) (by have := h'.mon; omega) eo
    have hd := two_inj (by have := h.day; omega) (by have := h'.day; omega) ed
    have hh := two_inj (by have := h.hour; omega) (by have := h'.hour; omega) eh
    have hm := two_inj (by have := h.min; omega) (by have := h'.min; omega) em
    have hs := two_inj (by have := h.sec; omega) (by have := h'.sec; omega) es
    have hy := dec_inj _ _ ey
    obtain ⟨a, b, c, d, f, g⟩ := t
    obtain ⟨a', b', c', d', f', g'⟩ := t'
    simp only [Tm.mk.injEq] at *
    omega

/-- No counterpart in /repo: a time for the examples. -/
def exTime : Tm := ⟨10, 17, 126, 2, 23, 5⟩

theorem exTime_valid : Valid exTime := ⟨by decide, by decide, by decide, by decide, by decide, by decide⟩

example : strftime 256 exTime = some (bytes "11/17/2026 - 02:23:05") := by decide +kernel

/-! ### the log -/

/-- Specification: one line of the log. No counterpart in /repo. -/
def line (header text : List Byte) : List Byte := bytes "L " ++ header ++ bytes ": " ++ text ++ [10]

/-- Specification: the file a message goes to. No counterpart in /repo. -/
def target (w : World) (logfile : List Byte) : Option (List Byte) :=
  if w.can logfile then some logfile else if w.can (bytes "metamod-fatal.log") then some (bytes "metamod-fatal.log") else none

/-- C104: a message that can be printed is printed once behind "MMS: Fatal error: ", and appended as one entry with the time to the
log file; to `metamod-fatal.log` only if that cannot be opened, and nowhere if neither can. No other file changes, and nothing
that was in the file. -/
theorem logFatal_spec {logfile fmt text header : List Byte} {t : Tm} {args : List Arg} (w : World) (ht : render fmt args = .ok text)
    (hh : strftime 256 t = some header) :
    ∃ w', logFatal logfile t fmt args w = .ok w' ∧ w'.out = w.out ++ bytes "MMS: Fatal error: " ++ text ++ [10] ∧ w'.can = w.can ∧
      ∀ name, w'.disk name = w.disk name ++ (if target w logfile = some name then line header text else []) := by
  unfold logFatal
  rw [ht]
  simp only [bind, Except.bind]
  by_cases h1 : w.can logfile = true
  · simp only [h1, if_true, hh]
    refine ⟨_, rfl, rfl, rfl, ?_⟩
    intro name
    by_cases hn : name = logfile
    · simp [World.append, target, h1, hn, line]
    · simp [World.append, target, h1, hn, Ne.symm hn]
  · by_cases h2 : w.can (bytes "metamod-fatal.log") = true
    · simp only [h1, h2, if_true, hh, Bool.false_eq_true, if_false]
      refine ⟨_, rfl, rfl, rfl, ?_⟩
      intro name
      by_cases hn : name = bytes "metamod-fatal.log"
      · simp [World.append, target, h1, h2, hn, line]
      · simp [World.append, target, h1, h2, hn, Ne.symm hn]
    · simp only [h1, h2, Bool.false_eq_true, if_false]
      exact ⟨_, rfl, rfl, rfl, fun name => by simp [target, h1, h2]⟩

/-- C104: an entry is one line, and ends it, exactly if the message has no line break of its own. -/
theorem entry_one_line {t : Tm} (hv : Valid t) {header text : List Byte} (hh : strftime 256 t = some header) :
    ((line header text).filter (· = 10)).length = 1 + (text.filter (· = 10)).length ∧ (line header text).getLast? = some 10 := by
  obtain ⟨⟨s, hs, -, h10⟩, -⟩ := header_determines hv
  rw [hh, Option.some.injEq] at hs
  subst hs
  have z : header.filter (fun b => decide (b = 10)) = [] := by
    rw [List.filter_eq_nil_iff]
    intro a ha
    simp only [decide_eq_true_eq]
    rintro rfl
    exact h10 ha
  have z1 : (bytes "L ").filter (fun b => decide (b = 10)) = [] := by decide
  have z2 : (bytes ": ").filter (fun b => decide (b = 10)) = [] := by decide
  refine ⟨?_, by simp [line]⟩
  unfold line
  rw [List.filter_append, List.filter_append, List.filter_append, List.filter_append, z, z1, z2]
  simp [Nat.add_comm]

/-- No counterpart in /repo: several messages one after the other. -/
def logAll (logfile : List Byte) : List (Tm × List Byte × List Arg) → World → Except Bad World
  | [], w => .ok w
  | (t, f, as) :: r, w => do logAll logfile r (← logFatal logfile t f as w)

/-- C104: after any sequence of messages the log has exactly one entry for each, in order, behind what it had. -/
theorem log_in_order (logfile : List Byte) : ∀ (ms : List (Tm × List Byte × List Arg)) (es : List (List Byte × List Byte)) (w : World),
    ms.map (fun m => (strftime 256 m.1, render m.2.1 m.2.2)) = es.map (fun e => (some e.1, Except.ok e.2)) →
    ∃ w', logAll logfile ms w = .ok w' ∧
      w'.out = w.out ++ (es.map fun e => bytes "MMS: Fatal error: " ++ e.2 ++ [10]).flatten ∧
      ∀ name, w'.disk name = w.disk name ++
        (if target w logfile = some name then (es.map fun e => line e.1 e.2).flatten else [])
  | [], es, w, h => by
    cases es with
    | nil => exact ⟨w, rfl, by simp, by simp⟩
    | cons e es => simp at h
  | (t, f, as) :: ms, es, w, h => by
    cases es with
    | nil => simp at h
    | cons e es =>
      simp only [List.map_cons, List.cons.injEq, Prod.mk.injEq] at h
      obtain ⟨⟨h1, h2⟩, h3⟩ := h
      obtain ⟨w1, e1, o1, c1, d1⟩ := logFatal_spec (logfile := logfile) w h2 h1
      obtain ⟨w2, e2, o2, d2⟩ := log_in_order logfile ms es w1 h3
      have ht : target w1 logfile = target w logfile := by unfold target; rw [c1]
      refine ⟨w2, by simp [logAll, bind, Except.bind, e1, e2], by rw [o2, o1]; simp, ?_⟩
      intro name
      rw [d2 name, d1 name, ht]
      by_cases hn : target w logfile = some name
      · simp [hn]
      · simp [hn]

/-- No counterpart in /repo: a place to write to, for the examples. -/
def exWorld (a b : Bool) : World := ⟨[], fun n => if n = bytes "metamod-fatal.log" then b else a, fun _ => [7]⟩

example : (match logAll (bytes "addons/x.log") [(exTime, bytes "A %s", [.str (bytes "b")]), (exTime, bytes "C", [])] (exWorld false true) with
    | .ok w => w.disk (bytes "metamod-fatal.log") == 7 :: bytes "L 11/17/2026 - 02:23:05: A b\nL 11/17/2026 - 02:23:05: C\n" &&
        w.disk (bytes "addons/x.log") == [7] && w.out == bytes "MMS: Fatal error: A b\nMMS: Fatal error: C\n"
    | .error _ => false) = true := by decide +kernel

/-! ### a library that cannot be loaded -/

private theorem error_text {b : Backend} {r : List Byte} :
    render (bytes "Detected engine %d but could not load: %s") [.int b.idx, .str r] =
      .ok (bytes "Detected engine " ++ showInt b.idx ++ bytes " but could not load: " ++ r) := by
  have s1 : bytes "Detected engine %d but could not load: %s" =
      bytes "Detected engine " ++ 37 :: 100 :: (bytes " but could not load: " ++ 37 :: 115 :: []) := by decide
  rw [s1, (render_places _ _ (by decide) _).2.1, (render_places _ _ (by decide) _).1]
  simp [render, Except.map]

/-- C104 (missing: the loader's own path unknown or without a slash, see `error_unwritten`): let `d` be the directory of the loader,
`lcap` having room for the name of the log in it. Then an opened library is not reported, and for one that cannot be opened the
reason the system gives, cut to 254 bytes, is printed and appended to `metamod-fatal.log` in `d`, or in the working directory if
that cannot be opened; later messages go there too. -/
theorem load_reported_partial {cap lcap : Nat} {own d p : List Byte} {b : Backend} (hd : upToSlash (own.take (cap - 1)) = some d)
    (hl : d.length + 17 < lcap) (hp : libraryPath cap (some own) b = .path p)
    {dlopen : List Byte → Option (List Byte)} {t : Tm} (hv : Valid t) (logfile : List Byte) (w : World) :
    (dlopen p = none → loadOrReport cap lcap (some own) dlopen b logfile t w = .ok (true, d ++ bytes "metamod-fatal.log", w)) ∧
    ∀ r, dlopen p = some r → ∃ w' header, strftime 256 t = some header ∧
      loadOrReport cap lcap (some own) dlopen b logfile t w = .ok (false, d ++ bytes "metamod-fatal.log", w') ∧
      let text := bytes "Detected engine " ++ showInt b.idx ++ bytes " but could not load: " ++ r.take 254
      w'.out = w.out ++ bytes "MMS: Fatal error: " ++ text ++ [10] ∧
      ∀ name, w'.disk name = w.disk name ++ (if target w (d ++ bytes "metamod-fatal.log") = some name then line header text else []) := by
  have hlog : logName cap lcap (some own) = some (d ++ bytes "metamod-fatal.log") := by
    have h17 : (bytes "metamod-fatal.log").length = 17 := by decide
    simp only [logName, bind, Option.bind, hd]
    rw [List.take_of_length_le]
    rw [List.length_append, h17]
    omega
  refine ⟨fun h => ?_, fun r h => ?_⟩
  · simp [loadOrReport, loadLibrary, hlog, hp, h, bind, Except.bind]
  · obtain ⟨⟨s, hs, -, -⟩, -⟩ := header_determines hv
    obtain ⟨w', e, o, -, k⟩ := logFatal_spec (logfile := d ++ bytes "metamod-fatal.log") w (error_text (b := b) (r := r.take 254)) hs
    exact ⟨w', s, hs, by simp [loadOrReport, loadLibrary, hlog, hp, h, bind, Except.bind, e], o, k⟩

example : libraryPath 512 (some (bytes "/srv/bin/server.so")) .css = .path (bytes "/srv/bin/metamod.2.css.so") ∧
    upToSlash ((bytes "/srv/bin/server.so").take 511) = some (bytes "/srv/bin/") ∧ (bytes "/srv/bin/").length + 17 < 256 := by
  decide +kernel

/-- C104, finding: if the loader cannot find its own path, or that has no slash, `mm_LoadMetamodLibrary` returns false without writing to
`buffer`, and its callers print their array `error`, which nobody has written to (loader/gamedll.cpp:376-379, 471-480,
loader/serverplugin.cpp:165-170). -/
theorem error_unwritten {cap lcap : Nat} {own : Option (List Byte)} {b : Backend} (h : libraryPath cap own b = .fail)
    (dlopen : List Byte → Option (List Byte)) (t : Tm) (logfile : List Byte) (w : World) :
    loadOrReport cap lcap own dlopen b logfile t w = .error .uninit := by
  have hr : render (bytes "Detected engine %d but could not load: %s") [.int b.idx, .raw] = .error .uninit := by
    have s1 : bytes "Detected engine %d but could not load: %s" =
        bytes "Detected engine " ++ 37 :: 100 :: (bytes " but could not load: " ++ 37 :: 115 :: []) := by decide
    rw [s1, (render_places _ _ (by decide) _).2.1, render_plain _ _ _ (by decide)]
    simp [render, Except.map]
  simp [loadOrReport, loadLibrary, h, logFatal, hr, bind, Except.bind]

example : libraryPath 512 none .css = .fail ∧ libraryPath 512 (some (bytes "server.so")) .css = .fail := by decide +kernel

/-- C104: `error_unwritten` applies exactly if the loader does not know its own path or that has no slash. -/
theorem fail_iff (cap : Nat) (own : Option (List Byte)) (b : Backend) :
    libraryPath cap own b = .fail ↔ ∀ o, own = some o → 47 ∉ o.take (cap - 1) := by
  have hs : ∀ q : List Byte, upToSlash q = none ↔ 47 ∉ q := by
    intro q
    have hdw : ∀ l : List Byte, l.dropWhile (· ≠ 47) = [] ↔ 47 ∉ l := by
      intro l
      induction l with
      | nil => simp
      | cons c l ih =>
        by_cases hc : c = 47
        · simp [List.dropWhile, hc]
        · have : decide (c ≠ 47) = true := by simpa using hc
          rw [List.dropWhile_cons, this, if_pos rfl, ih]
          simp [Ne.symm hc]
    have hd : q.reverse.dropWhile (· ≠ 47) = [] ↔ 47 ∉ q := by rw [hdw, List.mem_reverse]
    rw [← hd]
    unfold upToSlash
    split
    · next h => exact ⟨fun _ => h, fun _ => rfl⟩
    · next r h => exact ⟨fun k => absurd k (by simp), fun k => absurd k h⟩
  cases own with
  | none => simp [libraryPath]
  | some o =>
    simp only [libraryPath, Option.some.injEq, forall_eq']
    rw [← hs]
    cases hu : upToSlash (o.take (cap - 1)) with
    | none => simp
    | some d =>
      simp only [reduceCtorEq, iff_false]
      cases Verif.Loader.backendNames[b.idx]? <;> simp

example : (47 : Byte) ∉ (bytes "server.so").take 511 ∧ (47 : Byte) ∈ (bytes "/srv/server.so").take 511 := by decide +kernel

/-- C104: in that case the name of the log file stays as it was, and no library is opened. -/
theorem log_kept {cap lcap : Nat} {own : Option (List Byte)} {b : Backend} (h : libraryPath cap own b = .fail)
    (dlopen : List Byte → Option (List Byte)) (logfile : List Byte) :
    loadLibrary cap lcap own dlopen b logfile = .ok (false, .raw, logfile) := by
  have hn : logName cap lcap own = none := by
    cases own with
    | none => rfl
    | some o =>
      cases hu : upToSlash (o.take (cap - 1)) with
      | none => simp [logName, hu]
      | some d =>
        simp only [libraryPath, hu] at h
        cases hb : Verif.Loader.backendNames[b.idx]? <;> simp [hb] at h
  simp [loadLibrary, h, hn]

example : libraryPath 512 (some (bytes "server.so")) .css = .fail := by decide +kernel

#print axioms render_ok_iff
#print axioms calls_defined
#print axioms render_places
#print axioms number_round_trip
#print axioms header_determines
#print axioms logFatal_spec
#print axioms entry_one_line
#print axioms log_in_order
#print axioms load_reported_partial
#print axioms error_unwritten
#print axioms fail_iff
#print axioms log_kept
end Verif.Fatal
