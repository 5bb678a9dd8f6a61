import Verif.Shw.Sect
/-
`do_input` on the text of a template (for C84).
-/
namespace Verif.Shw

theorem parseRange_mid (f : Nat) (p w q : List Char) : parseRange f (p ++ (w ++ q)) p.length (p.length + w.length) = parseExpr f w := by
  unfold parseRange
  rw [if_pos (by simp)]
  congr 1
  rw [← List.append_assoc, List.take_left' (by simp), List.drop_left]

theorem parse_closed {e : E} {v : Int} (h : e.val noVars = some v) (ho : e.Ok 0) {rest : List Char} (hr : Stops rest) :
    ∃ F, ∀ f, F ≤ f → parseExpr f (e.show ++ rest) = .ok v := by
  obtain ⟨F, hF⟩ := parse_of (E.val_closed h) ho
  exact ⟨F, fun f hf => by rw [hF f hf rest hr, h]; rfl⟩

theorem stops_sep (sep : Option (List Char)) : Stops (sepText sep) := by
  cases sep with
  | none => exact .nil
  | some w => intro c r h; cases h; decide

theorem trim_var {v : Char} (h : isDigit v = true) : trim ['$', v] = ['$', v] := by
  have hv : blank v = false := by
    unfold blank
    have : ∀ d, isDigit d = false → v ≠ d := by rintro d hd rfl; rw [h] at hd; cases hd
    simp [this ' ' (by decide), this '\t' (by decide), this (Char.ofNat 11) (by decide), this '\n' (by decide), this '\r' (by decide)]
  have hs : blank '$' = false := by decide
  simp [trim, List.dropWhile, hv, hs]

theorem iterParts_ok {v : Char} {lo hi : E} {sep : Option (List Char)} {body : Tm} {vars : Vars} {l h : Int} (hw : (Tm.iter v lo hi sep body .nil).WF)
    (hl : lo.val noVars = some l) (hh : hi.val noVars = some h) (hv : vars (v.toNat - 48) = none) :
    ∃ F, ∀ f, F ≤ f → iterParts f vars (Tm.iter v lo hi sep body .nil).render = .ok (some ⟨v.toNat - 48, l, h, sep, body.render⟩) := by
  obtain ⟨F1, p1⟩ := parse_closed hl hw.2.1 .nil
  obtain ⟨F2, p2⟩ := parse_closed hh hw.2.2.1 (stops_sep sep)
  refine ⟨max F1 F2, ?_⟩
  intro f hf
  have p1 := p1 f (by omega)
  have p2 := p2 f (by omega)
  rw [List.append_nil] at p1
  generalize hA : (['@', '[', '$', v] : List Char) = A
  have lA : A.length = 4 := by rw [← hA]; rfl
  generalize hZ : body.render ++ ['@', ']'] = Z
  have e1 : (Tm.iter v lo hi sep body .nil).render = A ++ ',' :: (lo.show ++ ',' :: (hi.show ++ (sepText sep ++ ':' :: Z))) := by
    rw [← hA, ← hZ]; simp [Tm.render]
  have e2 : (Tm.iter v lo hi sep body .nil).render = (A ++ [',']) ++ (lo.show ++ ',' :: (hi.show ++ (sepText sep ++ ':' :: Z))) := by
    rw [e1]; simp
  have e3 : (Tm.iter v lo hi sep body .nil).render = (A ++ ',' :: (lo.show ++ [','])) ++ ((hi.show ++ sepText sep) ++ ':' :: Z) := by
    rw [e1]; simp
  have e4 : (Tm.iter v lo hi sep body .nil).render = (A ++ ',' :: (lo.show ++ ',' :: (hi.show ++ (sepText sep ++ [':'])))) ++ Z := by
    rw [e1]; simp
  have vne : ∀ d, isDigit d = false → v ≠ d := by
    rintro d hd rfl
    have := hw.1
    rw [this] at hd; cases hd
  have hA' : ∀ d, d ∉ ['@', '[', '$'] → isDigit d = false → ∀ c ∈ A, c ≠ d := by
    intro d hd hdd c hc
    rw [← hA] at hc
    simp only [List.mem_cons, List.not_mem_nil, or_false, not_or] at hc hd
    rcases hc with rfl | rfl | rfl | rfl
    · exact fun e => hd.1 e.symm
    · exact fun e => hd.2.1 e.symm
    · exact fun e => hd.2.2 e.symm
    · exact vne d hdd
  have f1 : find [','] (Tm.iter v lo hi sep body .nil).render = some 4 := by
    rw [e1, find_char (hA' ',' (by decide) (by decide)), lA]
  have f2 : findFrom [','] (Tm.iter v lo hi sep body .nil).render (4 + 1) = some (4 + 1 + lo.show.length) := by
    have := findFrom_char (c := ',') (pre := A ++ [',']) (show_ne hw.2.1 (by decide)) (hi.show ++ (sepText sep ++ ':' :: Z))
    rw [← e2] at this
    simpa [lA] using this
  have hsc : ∀ c ∈ hi.show ++ sepText sep, c ≠ ':' := by
    intro c hc
    rcases List.mem_append.1 hc with hc | hc
    · exact show_ne hw.2.2.1 (by decide) c hc
    · exact sepText_no hw.2.2.2.1 (by simp) (by decide) c hc
  have l3 : (A ++ ',' :: (lo.show ++ [','])).length = 4 + 1 + lo.show.length + 1 := by simp [lA]; omega
  have f3 : findFrom [':'] (Tm.iter v lo hi sep body .nil).render (4 + 1 + lo.show.length + 1) =
      some (4 + 1 + lo.show.length + 1 + (hi.show ++ sepText sep).length) := by
    have := findFrom_char (c := ':') (pre := A ++ ',' :: (lo.show ++ [','])) hsc Z
    rw [← e3, l3] at this
    exact this
  have g1 : parseRange f (Tm.iter v lo hi sep body .nil).render (4 + 1) (4 + 1 + lo.show.length) = .ok l := by
    have := parseRange_mid f (A ++ [',']) lo.show (',' :: (hi.show ++ (sepText sep ++ ':' :: Z)))
    rw [← e2, p1] at this
    simpa [lA] using this
  have g2 : parseRange f (Tm.iter v lo hi sep body .nil).render (4 + 1 + lo.show.length + 1)
      (4 + 1 + lo.show.length + 1 + (hi.show ++ sepText sep).length) = .ok h := by
    have := parseRange_mid f (A ++ ',' :: (lo.show ++ [','])) (hi.show ++ sepText sep) (':' :: Z)
    rw [← e3, p2, l3] at this
    exact this
  have hname : trim (((Tm.iter v lo hi sep body .nil).render.take 4).drop 2) = ['$', v] := by
    rw [e1, List.take_left' lA, ← hA]
    exact trim_var hw.1
  have hcode : ((Tm.iter v lo hi sep body .nil).render.take ((Tm.iter v lo hi sep body .nil).render.length - 2)).drop
      (4 + 1 + lo.show.length + 1 + (hi.show ++ sepText sep).length + 1) = body.render := by
    have l4 : (A ++ ',' :: (lo.show ++ ',' :: (hi.show ++ (sepText sep ++ [':'])))).length =
        4 + 1 + lo.show.length + 1 + (hi.show ++ sepText sep).length + 1 := by simp [lA]; omega
    have e5 : (Tm.iter v lo hi sep body .nil).render =
        ((A ++ ',' :: (lo.show ++ ',' :: (hi.show ++ (sepText sep ++ [':'])))) ++ body.render) ++ ['@', ']'] := by
      rw [e4, ← hZ]; simp
    rw [e5, List.take_left' (by simp; omega), ← l4, List.drop_left]
  have hsep : (match find ['|'] (Tm.iter v lo hi sep body .nil).render with
      | some b => if b < 4 + 1 + lo.show.length + 1 + (hi.show ++ sepText sep).length then
          some (((Tm.iter v lo hi sep body .nil).render.take (4 + 1 + lo.show.length + 1 + (hi.show ++ sepText sep).length)).drop (b + 1)) else none
      | none => none) = sep := by
    have hno : ∀ c ∈ A ++ ',' :: (lo.show ++ ',' :: hi.show), c ≠ '|' := by
      intro c hc
      simp only [List.mem_append, List.mem_cons] at hc
      rcases hc with hc | rfl | hc | rfl | hc
      · exact hA' '|' (by decide) (by decide) c hc
      · decide
      · exact show_ne hw.2.1 (by decide) c hc
      · decide
      · exact show_ne hw.2.2.1 (by decide) c hc
    have lno : (A ++ ',' :: (lo.show ++ ',' :: hi.show)).length = 4 + 1 + lo.show.length + 1 + hi.show.length := by simp [lA]; omega
    cases sep with
    | some w =>
      have e6 : (Tm.iter v lo hi (some w) body .nil).render = (A ++ ',' :: (lo.show ++ ',' :: hi.show)) ++ '|' :: (w ++ ':' :: Z) := by
        rw [e1]; simp [sepText]
      have e7 : (Tm.iter v lo hi (some w) body .nil).render = (((A ++ ',' :: (lo.show ++ ',' :: hi.show)) ++ ['|']) ++ w) ++ ':' :: Z := by
        rw [e6]; simp
      have : find ['|'] (Tm.iter v lo hi (some w) body .nil).render = some (4 + 1 + lo.show.length + 1 + hi.show.length) := by
        rw [e6, find_char hno, lno]
      rw [this]
      simp only
      rw [if_pos (by simp [sepText]), e7, List.take_left' (by simp [sepText, lA]; omega), List.drop_left' (by simp [lA]; omega)]
    | none =>
      have e6 : (Tm.iter v lo hi none body .nil).render = (A ++ ',' :: (lo.show ++ ',' :: hi.show)) ++ ':' :: Z := by
        rw [e1]; simp [sepText]
      cases hf : find ['|'] (Tm.iter v lo hi none body .nil).render with
      | none => rfl
      | some b =>
        rw [e6] at hf
        have := find_char_ge hno _ _ hf
        simp only
        rw [if_neg]
        simp [sepText]
        omega
  have hlt : ¬ (128 ≤ v.toNat) := by have := digit_ascii hw.1; omega
  have hd : ¬ (isDigit v = false) := by have := hw.1; rw [this]; decide
  unfold iterParts
  rw [f1]
  simp only [hname, f2, if_neg hlt, if_neg hd]
  rw [g1]
  simp only [bind, Except.bind, f3, g2, hv, Option.isSome_none, Bool.false_eq_true, if_false, hcode]
  exact congrArg (fun q => Except.ok (some (⟨v.toNat - 48, l, h, q, body.render⟩ : Iter))) hsep

theorem condParts_ok {eq : Bool} {a b : E} {body : Tm} {x y : Int} (hw : (Tm.cond eq a b body .nil).WF)
    (ha : a.val noVars = some x) (hb : b.val noVars = some y) :
    ∃ F, ∀ f, F ≤ f → condParts f (Tm.cond eq a b body .nil).render = .ok (some (if (x == y) = eq then some body.render else none)) := by
  obtain ⟨F1, p1⟩ := parse_closed ha hw.1 .nil
  obtain ⟨F2, p2⟩ := parse_closed hb hw.2.1 .nil
  refine ⟨max F1 F2, ?_⟩
  intro f hf
  have p1 := p1 f (by omega)
  have p2 := p2 f (by omega)
  rw [List.append_nil] at p1 p2
  generalize hZ : body.render ++ ['@', ']'] = Z
  have lc : (cmpText eq).length = 2 := by cases eq <;> rfl
  have e1 : (Tm.cond eq a b body .nil).render = ['@', '['] ++ (a.show ++ (cmpText eq ++ (b.show ++ ':' :: Z))) := by
    rw [← hZ]; simp [Tm.render]
  have e2 : (Tm.cond eq a b body .nil).render = ('@' :: '[' :: (a.show ++ cmpText eq)) ++ (b.show ++ ':' :: Z) := by
    rw [e1]; simp
  have e3 : (Tm.cond eq a b body .nil).render = ('@' :: '[' :: (a.show ++ (cmpText eq ++ b.show))) ++ ':' :: Z := by
    rw [e1]; simp
  have e4 : (Tm.cond eq a b body .nil).render = ('@' :: '[' :: (a.show ++ (cmpText eq ++ (b.show ++ [':'])))) ++ (body.render ++ ['@', ']']) := by
    rw [e1, ← hZ]; simp
  have hpre : ∀ d, d ∉ ['@', '['] → eChar d = false → ∀ c ∈ '@' :: '[' :: a.show, c ≠ d := by
    intro d hd he c hc
    simp only [List.mem_cons, List.not_mem_nil, or_false, not_or] at hc hd
    rcases hc with rfl | rfl | hc
    · exact fun e => hd.1 e.symm
    · exact fun e => hd.2 e.symm
    · exact show_ne hw.1 he c hc
  have l2 : ('@' :: '[' :: (a.show ++ cmpText eq)).length = 2 + a.show.length + 2 := by simp [lc]; omega
  have l3 : ('@' :: '[' :: (a.show ++ (cmpText eq ++ b.show))).length = 2 + a.show.length + 2 + b.show.length := by simp [lc]; omega
  have fc : find [':'] (Tm.cond eq a b body .nil).render = some (2 + a.show.length + 2 + b.show.length) := by
    rw [e3, find_char, l3]
    intro c hc
    simp only [List.mem_cons, List.mem_append] at hc
    rcases hc with rfl | rfl | hc | hc | hc
    · decide
    · decide
    · exact show_ne hw.1 (by decide) c hc
    · have : ∀ c ∈ cmpText eq, c ≠ ':' := by cases eq <;> decide
      exact this c hc
    · exact show_ne hw.2.1 (by decide) c hc
  have g1 : parseRange f (Tm.cond eq a b body .nil).render 2 (2 + a.show.length) = .ok x := by
    have := parseRange_mid f ['@', '['] a.show (cmpText eq ++ (b.show ++ ':' :: Z))
    rw [← e1, p1] at this
    exact this
  have g2 : parseRange f (Tm.cond eq a b body .nil).render (2 + a.show.length + 2) (2 + a.show.length + 2 + b.show.length) = .ok y := by
    have := parseRange_mid f ('@' :: '[' :: (a.show ++ cmpText eq)) b.show (':' :: Z)
    rw [← e2, p2, l2] at this
    exact this
  have hcode : ((Tm.cond eq a b body .nil).render.drop (2 + a.show.length + 2 + b.show.length + 1)).take
      ((Tm.cond eq a b body .nil).render.length - (2 + a.show.length + 2 + b.show.length) - 3) = body.render := by
    rw [e4, List.drop_left' (by simp [lc]; omega), List.take_left' (by simp [lc]; omega)]
  unfold condParts
  cases eq with
  | true =>
    have fo : find ['=', '='] (Tm.cond true a b body .nil).render = some (2 + a.show.length) := by
      have := find_two (c := '=') (d := '=') (hpre '=' (by decide) (by decide)) (b.show ++ ':' :: Z)
      have e5 : (Tm.cond true a b body .nil).render = ('@' :: '[' :: a.show) ++ '=' :: '=' :: (b.show ++ ':' :: Z) := by rw [e1]; simp [cmpText]
      rw [← e5] at this
      rw [this]; simp; omega
    rw [fo]
    simp only [fc, g1, g2, bind, Except.bind, hcode]
    split <;> rfl
  | false =>
    have fn : find ['=', '='] (Tm.cond false a b body .nil).render = none := by
      have := noEE_render (t := .cond false a b body .nil) hw ⟨rfl, hw.2.2.1 rfl, trivial⟩ (s := []) trivial (by simp)
      rw [List.append_nil] at this
      exact find_noEE this
    have fo : find ['!', '='] (Tm.cond false a b body .nil).render = some (2 + a.show.length) := by
      have := find_two (c := '!') (d := '=') (hpre '!' (by decide) (by decide)) (b.show ++ ':' :: Z)
      have e5 : (Tm.cond false a b body .nil).render = ('@' :: '[' :: a.show) ++ '!' :: '=' :: (b.show ++ ':' :: Z) := by rw [e1]; simp [cmpText]
      rw [← e5] at this
      rw [this]; simp; omega
    rw [fn, fo]
    simp only [fc, g1, g2, bind, Except.bind, hcode]
    split <;> rfl

/-! ### Directives -/

/-- No counterpart in /repo: `do_input` writes `out` and succeeds. -/
def Out (args : List Nat) (vars : Vars) (s out : List Char) : Prop := ∃ F, ∀ f, F ≤ f → doInput f (argvOf args) vars s = .ok (out, 0, vars)

theorem findDir_here {d : Char} (h : d = '[' ∨ d = '(') (s : List Char) : findDir ('@' :: d :: s) 0 = some 0 := by
  rw [findDir_cons, if_pos rfl]
  simp only
  rw [if_pos h]

theorem out_dir {args : List Nat} {vars : Vars} {d : Char} (hd : d = '[' ∨ d = '(') {s rest out out' : List Char}
    (he : sectionEnd ('@' :: d :: s ++ rest) = some (s.length + 2))
    (hs : ∃ F, ∀ f, F ≤ f → doSect f (argvOf args) vars ('@' :: d :: s) = .ok (out, none, vars)) (hk : Out args vars rest out') :
    Out args vars ('@' :: d :: s ++ rest) (out ++ out') := by
  obtain ⟨F, hF⟩ := hs
  obtain ⟨G, hG⟩ := hk
  refine ⟨max F G + 1, ?_⟩
  intro f hf
  obtain ⟨f, rfl⟩ : ∃ k, f = k + 1 := ⟨f - 1, by omega⟩
  rw [doInput, show '@' :: d :: s ++ rest = '@' :: d :: (s ++ rest) from rfl, findDir_here hd]
  simp only [List.take_zero, List.drop_zero]
  rw [show '@' :: d :: (s ++ rest) = '@' :: d :: s ++ rest from rfl, he]
  simp only
  rw [List.take_left' (by simp), List.drop_left' (by simp), hF f (by omega)]
  simp only [bind, Except.bind, hG f (by omega), List.nil_append]

theorem out_noDir {args : List Nat} {vars : Vars} {s : List Char} (h : ∀ c ∈ s, c ≠ '@') : Out args vars s s := by
  have : ∀ (s : List Char) (i : Nat), (∀ c ∈ s, c ≠ '@') → findDir s i = none := by
    intro s
    induction s with
    | nil => intros; rfl
    | cons c s ih =>
      intro i h
      rw [findDir_cons, if_neg (h c (by simp)), ih (i + 1) fun d hd => h d (by simp [hd])]
  refine ⟨1, ?_⟩
  intro f hf
  obtain ⟨f, rfl⟩ : ∃ k, f = k + 1 := ⟨f - 1, by omega⟩
  rw [doInput, this s 0 h]

theorem out_text {args : List Nat} {vars : Vars} {c : Char} {s out : List Char} (h : c = '@' → ∀ d, s.head? = some d → d ∉ ['[', '(', ']'])
    (ho : Out args vars s out) : Out args vars (c :: s) (c :: out) := by
  obtain ⟨F, hF⟩ := ho
  refine ⟨F, fun f hf => ?_⟩
  rw [doInput_text h, hF f hf]; rfl

/-! ### Iterations -/

theorem chk_succ {i : Nat} (h : i < 2147483647) : chk ((i : Int) + 1) = .ok ((i + 1 : Nat) : Int) := by
  unfold chk; rw [if_pos (by omega)]; exact congrArg Except.ok (by omega)

theorem set_set (vars : Vars) (k : Nat) (a b : Option Int) : (vars.set k a).set k b = vars.set k b := by
  funext x; unfold Vars.set; split <;> rfl

theorem set_none {vars : Vars} {k : Nat} (h : vars k = none) : vars.set k none = vars := by
  funext x; unfold Vars.set; split
  · rename_i e; rw [e, h]
  · rfl

theorem doIter_step {f : Nat} {argv : List (Option Int)} {vars V : Vars} {it : Iter} {i j : Int} {code o r : List Char} (hle : i ≤ it.max)
    (h1 : replaceVars f argv (vars.set it.num (some i)) it.code = .ok code)
    (h2 : doInput f argv (vars.set it.num (some i)) code = .ok (o, 0, vars.set it.num (some i)))
    (h3 : ∀ s, it.sep = some s → doInput f argv (vars.set it.num (some i)) s = .ok (s, 0, vars.set it.num (some i)))
    (hc : chk (i + 1) = .ok j) (h : doIter f argv (vars.set it.num (some i)) it j = .ok (r, V)) :
    doIter (f + 1) argv vars it i = .ok (o ++ (if i = it.max then [] else it.sep.getD []) ++ r, V) := by
  rw [doIter]
  obtain ⟨num, mn, mx, sep, cd⟩ := it
  simp only at hle h1 h2 h3 h ⊢
  rw [if_pos hle, h1]
  simp only [bind, Except.bind]
  rw [h2]
  cases sep with
  | none => simp only [hc, h, Option.getD_none]; split <;> rfl
  | some s =>
    by_cases e : i = mx
    · simp only [e, ne_eq, not_true_eq_false, if_false, if_true] at *
      simp only [hc, h]
    · simp only [ne_eq, e, not_false_eq_true, if_true, if_false, h3 s rfl, hc, h, Option.getD_some]

/-- No counterpart in /repo: the rounds from `i` on. -/
theorem doIter_ok {args : List Nat} {vars : Vars} {it : Iter} {hi : Nat} (hm : it.max = hi) (hlt : hi < 2147483647)
    (hsep : ∀ c ∈ it.sep.getD [], c ≠ '@') (g : Nat → Option (List Char))
    (hbody : ∀ i o, g i = some o → ∃ code, (∃ F, ∀ f, F ≤ f → replaceVars f (argvOf args) (vars.set it.num (some (i : Int))) it.code = .ok code) ∧
      Out args (vars.set it.num (some (i : Int))) code o) :
    ∀ (n i : Nat) (w : Option Int) (os : List (List Char)), i + n = hi + 1 → allSome ((List.range' i n).map g) = some os →
      ∃ F w', ∀ f, F ≤ f → doIter f (argvOf args) (vars.set it.num w) it i = .ok (joined (it.sep.getD []) os, vars.set it.num w') := by
  intro n
  induction n with
  | zero =>
    intro i w os hn ho
    cases ho
    refine ⟨1, w, ?_⟩
    intro f hf
    obtain ⟨f, rfl⟩ : ∃ k, f = k + 1 := ⟨f - 1, by omega⟩
    rw [doIter, if_neg (by omega)]; rfl
  | succ n ih =>
    intro i w os hn ho
    rw [List.range'_succ, List.map_cons, allSome] at ho
    cases hg : g i with
    | none => rw [hg] at ho; cases ho
    | some o =>
      rw [hg] at ho
      cases hr : allSome ((List.range' (i + 1) n).map g) with
      | none => simp [hr] at ho
      | some os' =>
        simp only [Option.bind_some, hr, Option.map_some, Option.some.injEq] at ho
        subst ho
        obtain ⟨F, w', h⟩ := ih (i + 1) (some (i : Int)) os' (by omega) hr
        obtain ⟨code, ⟨F1, h1⟩, ⟨F2, h2⟩⟩ := hbody i o hg
        have hs : ∃ F3, ∀ f, F3 ≤ f → ∀ s, it.sep = some s →
            doInput f (argvOf args) (vars.set it.num (some (i : Int))) s = .ok (s, 0, vars.set it.num (some (i : Int))) := by
          cases hsp : it.sep with
          | none => exact ⟨0, fun f _ s hs => by cases hs⟩
          | some s =>
            rw [hsp] at hsep
            obtain ⟨F3, h3⟩ := out_noDir (args := args) (vars := vars.set it.num (some (i : Int))) (s := s) hsep
            exact ⟨F3, fun f hf s' hs => by cases hs; exact h3 f hf⟩
        obtain ⟨F3, h3⟩ := hs
        refine ⟨max (max F F1) (max F2 F3) + 1, w', ?_⟩
        intro f hf
        obtain ⟨f, rfl⟩ : ∃ k, f = k + 1 := ⟨f - 1, by omega⟩
        have hst := doIter_step (it := it) (vars := vars.set it.num w) (i := (i : Int)) (by omega) (by rw [set_set]; exact h1 f (by omega))
          (by rw [set_set]; exact h2 f (by omega)) (fun s hs => by rw [set_set]; exact h3 f (by omega) s hs) (chk_succ (by omega))
          (by rw [set_set]; exact h f (by omega))
        rw [hst]
        have hif : (if (i : Int) = it.max then [] else it.sep.getD []) = if i = hi then [] else it.sep.getD [] := by
          by_cases e : i = hi
          · rw [if_pos e, if_pos (by rw [hm, e])]
          · rw [if_neg e, if_neg (by rw [hm]; omega)]
        rw [hif]
        have key : o ++ (if i = hi then [] else it.sep.getD []) ++ joined (it.sep.getD []) os' = joined (it.sep.getD []) (o :: os') := ?_
        · rw [key]
        cases n with
        | zero =>
          have : i = hi := by omega
          cases hr
          simp [this, joined]
        | succ n =>
          have hne : i ≠ hi := by omega
          rw [if_neg hne]
          cases os' with
          | nil =>
            rw [List.range'_succ, List.map_cons, allSome] at hr
            cases hgi : g (i + 1) with
            | none => rw [hgi] at hr; cases hr
            | some z =>
              rw [hgi] at hr
              cases hz : allSome ((List.range' (i + 1 + 1) n).map g) with
              | none => simp [hz] at hr
              | some zs => simp [hz] at hr
          | cons y ys => rfl

/-! ### All together -/

theorem sect_expr {args : List Nat} {vars : Vars} {S : List Char} (ha : args.length ≤ 10) (hv : VarsOk vars S) {e : E} (ho : e.Ok 0) {v : Int}
    (he : e.val (env args vars) = some v) :
    ∃ F, ∀ f, F ≤ f → doSect f (argvOf args) vars ('@' :: '(' :: (e.show ++ [')'])) = .ok (decimalInt v, none, vars) := by
  obtain ⟨F, hF⟩ := replaceVars_ok ha hv (t := .expr e .nil) ⟨ho, trivial⟩ (S := S) trivial
  have hval : (E.paren (e.subst (env args vars))).val noVars = some v := by
    show (e.subst (env args vars)).val (fun _ => none) = _
    rw [E.subst_val_none, he]
  obtain ⟨G, hG⟩ := parse_closed hval (E.subst_ok _ e 0 ho) .nil
  refine ⟨max F G + 1, ?_⟩
  intro f hf
  obtain ⟨f, rfl⟩ : ∃ k, f = k + 1 := ⟨f - 1, by omega⟩
  have hF := hF f (by omega)
  have hG := hG f (by omega)
  simp only [Tm.render, Tm.subst] at hF
  rw [doSect]
  rw [hF]
  have hp : parseRange f ('@' :: '(' :: ((e.subst (env args vars)).show ++ [')'])) 1
      ('@' :: '(' :: ((e.subst (env args vars)).show ++ [')'])).length = .ok v := by
    have := parseRange_mid f ['@'] (E.paren (e.subst (env args vars))).show []
    rw [List.append_nil] at this hG
    rw [hG] at this
    simp only [E.show, List.singleton_append, List.length_cons, List.length_append] at this
    simp only [List.length_cons, List.length_append]
    rw [← this]
    congr 1
    simp; omega
  simp only [bind, Except.bind, hp, decimalInt_eq]

theorem sect_iter {args : List Nat} {vars : Vars} {S : List Char} (ha : args.length ≤ 10) (hv : VarsOk vars S) {v : Char} {lo hi : E}
    {sep : Option (List Char)} {body : Tm} (hw : (Tm.iter v lo hi sep body .nil).WF) (hf : (Tm.iter v lo hi sep body .nil).Fresh S) {l h : Int}
    (hl : lo.val (env args vars) = some l) (hh : hi.val (env args vars) = some h)
    (ih : ∀ (vars' : Vars) (t : Tm) (out : List Char), t.dirs = body.dirs → VarsOk vars' (v :: S) → t.WF → t.Fresh (v :: S) →
      t.sem (env args vars') false = some out → Out args vars' t.render out) {o : List Char}
    (ho : (if h < l then some [] else if l < 0 ∨ 2147483647 ≤ h then none else
        (allSome ((fromTo l.toNat h.toNat).map fun i => body.sem (upd (env args vars) v i) true)).map (joined (sep.getD []))) = some o) :
    ∃ F, ∀ f, F ≤ f → doSect f (argvOf args) vars (Tm.iter v lo hi sep body .nil).render = .ok (o, none, vars) := by
  have hvn : vars (v.toNat - 48) = none := by
    obtain ⟨h1, h2⟩ := digit_ascii hw.1
    cases e : vars (v.toNat - 48) with
    | none => rfl
    | some x =>
      have := (hv _ x e).2.2
      rw [show 48 + (v.toNat - 48) = v.toNat by omega, Char.ofNat_toNat] at this
      exact absurd this hf.1
  have hρv : env args vars v = none := env_fresh ha hv v hw.1 hf.1
  obtain ⟨F, hF⟩ := replaceVars_ok ha hv hw hf
  have hw' : (Tm.iter v (lo.subst (env args vars)) (hi.subst (env args vars)) sep (body.subst (env args vars)) .nil).WF :=
    subst_wf (env args vars) (t := .iter v lo hi sep body .nil) hw
  obtain ⟨G, hG⟩ := iterParts_ok (vars := vars) hw' (l := l) (h := h) ((E.subst_val_none _ _).trans hl) ((E.subst_val_none _ _).trans hh) hvn
  have hround : ∃ H w', ∀ f, H ≤ f → doIter f (argvOf args) (vars.set (v.toNat - 48) none)
      ⟨v.toNat - 48, l, h, sep, (body.subst (env args vars)).render⟩ l = .ok (o, vars.set (v.toNat - 48) w') := by
    by_cases hlh : h < l
    · rw [if_pos hlh] at ho
      cases ho
      refine ⟨1, none, ?_⟩
      intro f hf
      obtain ⟨f, rfl⟩ : ∃ k, f = k + 1 := ⟨f - 1, by omega⟩
      rw [doIter, if_neg (by simp only; omega)]
    · rw [if_neg hlh] at ho
      by_cases hb : l < 0 ∨ 2147483647 ≤ h
      · rw [if_pos hb] at ho; cases ho
      · rw [if_neg hb] at ho
        cases hos : allSome ((fromTo l.toNat h.toNat).map fun i => body.sem (upd (env args vars) v i) true) with
        | none => rw [hos] at ho; cases ho
        | some os =>
          rw [hos] at ho
          simp only [Option.map_some, Option.some.injEq] at ho
          subst ho
          have := doIter_ok (args := args) (vars := vars) (it := ⟨v.toNat - 48, l, h, sep, (body.subst (env args vars)).render⟩) (hi := h.toNat)
            (by show h = _; omega) (by omega) (fun c hc he => (hw.2.2.2.1 c hc) (by rw [he]; simp))
            (fun i => body.sem (upd (env args vars) v i) true) ?_ (h.toNat + 1 - l.toNat) l.toNat none os (by omega) hos
          · obtain ⟨H, w', hH⟩ := this
            rw [show ((l.toNat : Nat) : Int) = l by omega] at hH
            exact ⟨H, w', hH⟩
          · intro i o' hi
            have hv' : VarsOk (vars.set (v.toNat - 48) (some (i : Int))) (v :: S) := by
              intro k x hk
              obtain ⟨h1, h2⟩ := digit_ascii hw.1
              unfold Vars.set at hk
              split at hk
              · rename_i hkk
                cases hk
                refine ⟨by omega, by omega, ?_⟩
                rw [hkk, show 48 + (v.toNat - 48) = v.toNat by omega, Char.ofNat_toNat]; simp
              · have := hv k x hk
                exact ⟨this.1, this.2.1, by simp [this.2.2]⟩
            have hwb : (body.subst (env args vars)).WF := subst_wf _ hw.2.2.2.2.1
            have hfb : (body.subst (env args vars)).Fresh (v :: S) := subst_fresh _ hf.2.1
            refine ⟨((body.subst (env args vars)).subst (env args (vars.set (v.toNat - 48) (some (i : Int))))).render,
              replaceVars_ok ha hv' hwb hfb, ?_⟩
            refine ih _ _ o' ?_ hv' (subst_wf _ hwb) (subst_fresh _ hfb) ?_
            · rw [subst_dirs, subst_dirs]
            · rw [sem_subst hfb hwb (env_fresh ha hv'), env_set ha vars hw.1 i]
              rw [sem_sub hf.2.1 hw.2.2.2.2.1 (fun c hc hn => env_fresh ha hv c hc fun hm => hn (by simp [hm]))
                (sub_upd (Sub.refl _) hρv i)]
              exact hi
  obtain ⟨H, w', hH⟩ := hround
  rw [set_none hvn] at hH
  refine ⟨max F (max G H) + 1, ?_⟩
  intro f hf
  obtain ⟨f, rfl⟩ : ∃ k, f = k + 1 := ⟨f - 1, by omega⟩
  have hF := hF f (by omega)
  have e1 : (Tm.iter v lo hi sep body .nil).render =
      '@' :: '[' :: ('$' :: v :: ',' :: (lo.show ++ ',' :: (hi.show ++ (sepText sep ++ ':' :: (body.render ++ ['@', ']']))))) := by simp [Tm.render]
  rw [e1] at hF ⊢
  rw [doSect]
  simp only [List.drop_succ_cons, List.drop_zero]
  rw [isIter_iter hw.1]
  simp only [bind, Except.bind, if_true]
  rw [hF]
  simp only [Tm.subst]
  rw [hG f (by omega)]
  simp only
  rw [hH f (by omega)]
  simp only [set_set, set_none hvn]

theorem sect_cond {args : List Nat} {vars : Vars} {eq : Bool} {a b : E} {body : Tm} (hw : (Tm.cond eq a b body .nil).WF) {x y : Int}
    (hx : a.val noVars = some x) (hy : b.val noVars = some y) {o : List Char}
    (ho : (x == y) = eq → Out args vars body.render o) (hn : ¬ (x == y) = eq → o = []) :
    ∃ F, ∀ f, F ≤ f → doSect f (argvOf args) vars (Tm.cond eq a b body .nil).render = .ok (o, none, vars) := by
  obtain ⟨G, hG⟩ := condParts_ok hw hx hy
  have e1 : (Tm.cond eq a b body .nil).render = '@' :: '[' :: (a.show ++ (cmpText eq ++ (b.show ++ ':' :: (body.render ++ ['@', ']'])))) := by
    simp [Tm.render]
  have hit : ∃ k, k ≠ 2 ∧ isIter (a.show ++ (cmpText eq ++ (b.show ++ ':' :: (body.render ++ ['@', ']'])))) (Char.ofNat 0) 0 = .ok k := by
    have hs : ∀ d ∈ a.show, d ≠ ',' ∧ d.toNat < 128 := fun d hd => ⟨show_ne hw.1 (by decide) d hd, show_ascii hw.1 d hd⟩
    cases eq with
    | true => exact isIter_cond (.inl rfl) hs _ _ 0 (by decide)
    | false => exact isIter_cond (.inr rfl) hs _ _ 0 (by decide)
  obtain ⟨k, hk, hit⟩ := hit
  by_cases hc : (x == y) = eq
  · obtain ⟨H, hH⟩ := ho hc
    refine ⟨max G H + 1, ?_⟩
    intro f hf
    obtain ⟨f, rfl⟩ : ∃ k, f = k + 1 := ⟨f - 1, by omega⟩
    have hG := hG f (by omega)
    rw [e1] at hG ⊢
    rw [doSect]
    simp only [List.drop_succ_cons, List.drop_zero]
    rw [hit]
    simp only [bind, Except.bind, if_neg hk]
    rw [hG]
    simp only [if_pos hc]
    rw [hH f (by omega)]
  · refine ⟨G + 1, ?_⟩
    intro f hf
    obtain ⟨f, rfl⟩ : ∃ k, f = k + 1 := ⟨f - 1, by omega⟩
    have hG := hG f (by omega)
    rw [e1] at hG ⊢
    rw [doSect]
    simp only [List.drop_succ_cons, List.drop_zero]
    rw [hit]
    simp only [bind, Except.bind, if_neg hk]
    rw [hG]
    simp only [if_neg hc, hn hc]

theorem expand_vars {args : List Nat} (ha : args.length ≤ 10) : ∀ (n : Nat) (t : Tm), t.dirs ≤ n → ∀ (vars : Vars) (S out : List Char),
    VarsOk vars S → t.WF → t.Fresh S → t.sem (env args vars) false = some out → Out args vars t.render out := by
  intro n
  induction n with
  | zero =>
    intro t
    induction t with
    | nil => intro _ vars S out _ _ _ h; cases h; exact out_noDir (by simp [Tm.render])
    | text c k ih =>
      intro hd vars S out hv hw hf h
      simp only [Tm.sem] at h
      cases hk : k.sem (env args vars) false with
      | none => rw [hk] at h; cases h
      | some o => rw [hk] at h; cases h; exact out_text hw.2.1 (ih hd vars S o hv hw.2.2 hf hk)
    | var c k ih =>
      intro hd vars S out hv hw hf h
      simp only [Tm.sem] at h
      cases hk : k.sem (env args vars) false with
      | none => rw [hk] at h; cases h
      | some o =>
        rw [hk] at h; cases h
        exact out_text (by intro e; exact absurd e (by decide))
          (out_text (by intro e; exact absurd e (var_ne hw.1 (by decide))) (ih hd vars S o hv hw.2 hf hk))
    | expr e k _ => intro hd; exact absurd hd (by simp [Tm.dirs])
    | iter v lo hi sep body k _ _ => intro hd; exact absurd hd (by simp [Tm.dirs])
    | cond eq a b body k _ _ => intro hd; exact absurd hd (by simp [Tm.dirs])
  | succ n ihn =>
    intro t
    induction t with
    | nil => intro _ vars S out _ _ _ h; cases h; exact out_noDir (by simp [Tm.render])
    | text c k ih =>
      intro hd vars S out hv hw hf h
      simp only [Tm.sem] at h
      cases hk : k.sem (env args vars) false with
      | none => rw [hk] at h; cases h
      | some o => rw [hk] at h; cases h; exact out_text hw.2.1 (ih hd vars S o hv hw.2.2 hf hk)
    | var c k ih =>
      intro hd vars S out hv hw hf h
      simp only [Tm.sem] at h
      cases hk : k.sem (env args vars) false with
      | none => rw [hk] at h; cases h
      | some o =>
        rw [hk] at h; cases h
        exact out_text (by intro e; exact absurd e (by decide))
          (out_text (by intro e; exact absurd e (var_ne hw.1 (by decide))) (ih hd vars S o hv hw.2 hf hk))
    | expr e k _ =>
      intro hd vars S out hv hw hf h
      simp only [Tm.dirs] at hd
      simp only [Tm.sem] at h
      cases he : e.val (env args vars) with
      | none => rw [he] at h; cases h
      | some v =>
        rw [he] at h
        cases hk : k.sem (env args vars) false with
        | none => simp [hk] at h
        | some o =>
          simp only [hk, Option.bind_some, Option.map_some, Option.some.injEq] at h
          subst h
          have ho := ihn k (by omega) vars S o hv hw.2 hf hk
          have er : (Tm.expr e k).render = '@' :: '(' :: (e.show ++ [')']) ++ k.render := by simp [Tm.render]
          rw [er]
          refine out_dir (.inr rfl) ?_ (sect_expr ha hv hw.1 he) ho
          have := sectionEnd_expr hw.1 k.render
          rw [← er, show (Tm.expr e k).render = '@' :: '(' :: (e.show ++ ')' :: k.render) from rfl, this]
          simp
    | iter v lo hi sep body k _ _ =>
      intro hd vars S out hv hw hf h
      simp only [Tm.dirs] at hd
      simp only [Tm.sem] at h
      cases hl : lo.val (env args vars) with
      | none => rw [hl] at h; cases h
      | some l =>
        rw [hl] at h
        cases hh : hi.val (env args vars) with
        | none => rw [hh] at h; cases h
        | some hx =>
          rw [hh] at h
          simp only [Option.bind_some] at h
          cases hr : (if hx < l then some [] else if l < 0 ∨ 2147483647 ≤ hx then none else
              (allSome ((fromTo l.toNat hx.toNat).map fun i => body.sem (upd (env args vars) v i) true)).map (joined (sep.getD []))) with
          | none => rw [hr] at h; cases h
          | some o =>
            rw [hr] at h
            cases hk : k.sem (env args vars) false with
            | none => simp [hk] at h
            | some o' =>
              simp only [hk, Option.bind_some, Option.map_some, Option.some.injEq] at h
              subst h
              have ho := ihn k (by omega) vars S o' hv hw.2.2.2.2.2 hf.2.2 hk
              have hw' : (Tm.iter v lo hi sep body .nil).WF := ⟨hw.1, hw.2.1, hw.2.2.1, hw.2.2.2.1, hw.2.2.2.2.1, trivial⟩
              have hf' : (Tm.iter v lo hi sep body .nil).Fresh S := ⟨hf.1, hf.2.1, trivial⟩
              have hs := sect_iter ha hv hw' hf' hl hh
                (fun vars' t out hdt hv' hw' hf' hs => ihn t (by omega) vars' (v :: S) out hv' hw' hf' hs) hr
              generalize hH : '$' :: v :: ',' :: (lo.show ++ ',' :: (hi.show ++ (sepText sep ++ [':']))) = H at hs ⊢
              have er : (Tm.iter v lo hi sep body k).render = '@' :: '[' :: (H ++ (body.render ++ ['@', ']'])) ++ k.render := by
                rw [← hH]; simp [Tm.render]
              have es : (Tm.iter v lo hi sep body .nil).render = '@' :: '[' :: (H ++ (body.render ++ ['@', ']'])) := by
                rw [← hH]; simp [Tm.render]
              rw [es] at hs
              rw [er]
              refine out_dir (.inl rfl) ?_ hs ho
              have hno : ∀ c ∈ H, c ≠ '@' := by
                intro c hc
                rw [← hH] at hc
                simp only [List.mem_cons, List.mem_append, List.not_mem_nil, or_false] at hc
                rcases hc with rfl | rfl | rfl | hc | rfl | hc | hc | rfl
                · decide
                · exact var_ne (digit_varChar hw.1) (by decide)
                · decide
                · exact show_ne hw.2.1 (by decide) c hc
                · decide
                · exact show_ne hw.2.2.1 (by decide) c hc
                · exact sepText_no hw.2.2.2.1 (by simp) (by decide) c hc
                · decide
              have := sectionEnd_bracket hno hw.2.2.2.2.1 k.render
              have e2 : '@' :: '[' :: (H ++ (body.render ++ ['@', ']'])) ++ k.render = '@' :: '[' :: (H ++ (body.render ++ '@' :: ']' :: k.render)) := by simp
              rw [e2, this]
              simp; omega
    | cond eq a b body k _ _ =>
      intro hd vars S out hv hw hf h
      simp only [Tm.dirs] at hd
      simp only [Tm.sem, Bool.false_eq_true, if_false] at h
      cases hx : a.val (fun _ => none) with
      | none => rw [hx] at h; cases h
      | some x =>
        rw [hx] at h
        cases hy : b.val (fun _ => none) with
        | none => rw [hy] at h; cases h
        | some y =>
          rw [hy] at h
          simp only [Option.bind_some] at h
          cases hr : (if (x == y) = eq then body.sem (env args vars) false else some []) with
          | none => rw [hr] at h; cases h
          | some o =>
            rw [hr] at h
            cases hk : k.sem (env args vars) false with
            | none => simp [hk] at h
            | some o' =>
              simp only [hk, Option.bind_some, Option.map_some, Option.some.injEq] at h
              subst h
              have ho := ihn k (by omega) vars S o' hv hw.2.2.2.2 hf.2 hk
              have hw' : (Tm.cond eq a b body .nil).WF := ⟨hw.1, hw.2.1, hw.2.2.1, hw.2.2.2.1, trivial⟩
              have hs := sect_cond (args := args) (vars := vars) (o := o) hw' hx hy
                (fun hc => by rw [if_pos hc] at hr; exact ihn body (by omega) vars S o hv hw.2.2.2.1 hf.1 hr)
                (fun hc => by rw [if_neg hc] at hr; cases hr; rfl)
              generalize hH : a.show ++ (cmpText eq ++ (b.show ++ [':'])) = H at hs ⊢
              have er : (Tm.cond eq a b body k).render = '@' :: '[' :: (H ++ (body.render ++ ['@', ']'])) ++ k.render := by
                rw [← hH]; simp [Tm.render]
              have es : (Tm.cond eq a b body .nil).render = '@' :: '[' :: (H ++ (body.render ++ ['@', ']'])) := by
                rw [← hH]; simp [Tm.render]
              rw [es] at hs
              rw [er]
              refine out_dir (.inl rfl) ?_ hs ho
              have hno : ∀ c ∈ H, c ≠ '@' := by
                intro c hc
                rw [← hH] at hc
                simp only [List.mem_cons, List.mem_append, List.not_mem_nil, or_false] at hc
                rcases hc with hc | hc | hc | rfl
                · exact show_ne hw.1 (by decide) c hc
                · have : ∀ c ∈ cmpText eq, c ≠ '@' := by cases eq <;> decide
                  exact this c hc
                · exact show_ne hw.2.1 (by decide) c hc
                · decide
              have := sectionEnd_bracket hno hw.2.2.2.1 k.render
              have e2 : '@' :: '[' :: (H ++ (body.render ++ ['@', ']'])) ++ k.render = '@' :: '[' :: (H ++ (body.render ++ '@' :: ']' :: k.render)) := by simp
              rw [e2, this]
              simp; omega

end Verif.Shw
