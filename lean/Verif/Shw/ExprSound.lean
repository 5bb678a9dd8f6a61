import Verif.Shw.Expr
/-
Only expressions are accepted (for C84).
-/
namespace Verif.Shw

theorem bind_ok' {α β : Type} {x : R α} {f : α → R β} {b : β} (h : x.bind f = .ok b) : ∃ a, x = .ok a ∧ f a = .ok b := by
  cases x with
  | error e => cases h
  | ok a => exact ⟨a, rfl, h⟩

theorem chk_ok {x v : Int} (h : chk x = .ok v) : v = x ∧ fit x = some x := by
  unfold chk at h; unfold fit
  split at h
  · cases h; rename_i g; exact ⟨rfl, if_pos g⟩
  · cases h

/-- No counterpart in /repo: the digits that were read. -/
theorem lexNum_sound : ∀ (s : List Char) (a : Nat) (v : Int) (rest : List Char), fit a = some (a : Int) → lexNum s a = .ok (v, rest) →
    ∃ ds, s = ds ++ rest ∧ (∀ c ∈ ds, isDigit c = true) ∧ fit (ds.foldl (fun a c => 10 * a + (c.toNat - 48)) a : Nat) = some v ∧
      (∀ c r, s = c :: r → isDigit c = true → ds ≠ []) := by
  intro s
  induction s with
  | nil => intro a v rest hf h; cases h; exact ⟨[], rfl, by simp, hf, by intro c r e; cases e⟩
  | cons c s ih =>
    intro a v rest hf h
    rw [lexNum] at h
    split at h
    · cases h
    · split at h
      · rename_i hn hd
        obtain ⟨x, h1, h⟩ := bind_ok' h
        obtain ⟨y, h2, h⟩ := bind_ok' h
        obtain ⟨rfl, _⟩ := chk_ok h1
        obtain ⟨rfl, h2f⟩ := chk_ok h2
        obtain ⟨d1, d2⟩ := digit_ascii hd
        have e : (a : Int) * 10 + ((c.toNat : Int) - 48) = ((10 * a + (c.toNat - 48) : Nat) : Int) := by omega
        rw [e] at h h2f
        obtain ⟨ds, e1, e2, e3, _⟩ := ih _ v rest h2f h
        refine ⟨c :: ds, by rw [e1]; rfl, ?_, e3, by simp⟩
        intro d hd'
        rcases List.mem_cons.1 hd' with rfl | hd'
        · exact hd
        · exact e2 d hd'
      · rename_i hn hd
        cases h
        exact ⟨[], rfl, by simp, hf, by intro d r e g; cases e; exact absurd g hd⟩

theorem fit_zero : fit ((0 : Nat) : Int) = some ((0 : Nat) : Int) := by decide

/-- No counterpart in /repo: blanks before a text. -/
def blanks : List Bool → List Char → List Char
  | [], s => s
  | t :: ts, s => blankOf t :: blanks ts s

theorem blanks_append (bs : List Bool) (s t : List Char) : blanks bs s ++ t = blanks bs (s ++ t) := by
  induction bs with
  | nil => rfl
  | cons b bs ih => show blankOf b :: (blanks bs s ++ t) = _; rw [ih]; rfl

/-- No counterpart in /repo: blanks before an expression. -/
def E.sps : List Bool → E → E
  | [], e => e
  | t :: ts, e => .sp t (E.sps ts e)

/-- No counterpart in /repo: blanks after an expression, the first innermost. -/
def E.pss : List Bool → E → E
  | [], e => e
  | t :: ts, e => E.pss ts (.ps t e)

theorem sps_show (bs : List Bool) (e : E) : (E.sps bs e).show = blanks bs e.show := by
  induction bs with
  | nil => rfl
  | cons b bs ih => show blankOf b :: (E.sps bs e).show = _; rw [ih]; rfl

theorem pss_show (bs : List Bool) (e : E) (s : List Char) : (E.pss bs e).show ++ s = e.show ++ blanks bs s := by
  induction bs generalizing e with
  | nil => rfl
  | cons b bs ih => show (E.pss bs (.ps b e)).show ++ s = _; rw [ih]; show (e.show ++ [blankOf b]) ++ _ = _; rw [List.append_assoc]; rfl

theorem sps_ok (bs : List Bool) (e : E) (l : Nat) : (E.sps bs e).Ok l ↔ e.Ok l := by
  induction bs with
  | nil => exact Iff.rfl
  | cons b bs ih => exact ih
theorem sps_closed (bs : List Bool) (e : E) : (E.sps bs e).Closed ↔ e.Closed := by
  induction bs with
  | nil => exact Iff.rfl
  | cons b bs ih => exact ih
theorem sps_val (bs : List Bool) (e : E) (ρ : Char → Option Nat) : (E.sps bs e).val ρ = e.val ρ := by
  induction bs with
  | nil => rfl
  | cons b bs ih => exact ih
theorem pss_ok (bs : List Bool) (e : E) (l : Nat) : (E.pss bs e).Ok l ↔ e.Ok l := by
  induction bs generalizing e with
  | nil => exact Iff.rfl
  | cons b bs ih => exact ih _
theorem pss_closed (bs : List Bool) (e : E) : (E.pss bs e).Closed ↔ e.Closed := by
  induction bs generalizing e with
  | nil => exact Iff.rfl
  | cons b bs ih => exact ih _
theorem pss_val (bs : List Bool) (e : E) (ρ : Char → Option Nat) : (E.pss bs e).val ρ = e.val ρ := by
  induction bs generalizing e with
  | nil => rfl
  | cons b bs ih => exact ih _

/-- No counterpart in /repo: a token as it stands in the text. -/
theorem lexan_sound : ∀ (s : List Char) (tv : Int) (t : Tok) (tv' : Int) (rest : List Char), lexan s tv = .ok (t, tv', rest) →
    ∃ bs u, s = blanks bs u ∧ (match t with
      | .done => u = [] ∧ rest = []
      | .num => ∃ ds, u = ds ++ rest ∧ ds ≠ [] ∧ (∀ c ∈ ds, isDigit c = true) ∧ fit (digitsVal ds) = some tv'
      | .ch c => u = c :: rest) := by
  intro s
  induction s with
  | nil => intro tv t tv' rest h; cases h; exact ⟨[], [], rfl, rfl, rfl⟩
  | cons c s ih =>
    intro tv t tv' rest h
    rw [lexan] at h
    split at h
    · rename_i hb
      obtain ⟨bs, u, e, h⟩ := ih tv t tv' rest h
      rcases hb with rfl | rfl
      · exact ⟨false :: bs, u, by rw [e]; rfl, h⟩
      · exact ⟨true :: bs, u, by rw [e]; rfl, h⟩
    · split at h
      · cases h
      · split at h
        · rename_i hd
          obtain ⟨r, h1, h⟩ := bind_ok' h
          cases h
          obtain ⟨ds, e1, e2, e3, e4⟩ := lexNum_sound (c :: s) 0 r.1 r.2 fit_zero h1
          exact ⟨[], c :: s, rfl, ds, e1, e4 c s rfl hd, e2, e3⟩
        · cases h; exact ⟨[], c :: s, rfl, rfl⟩

theorem start_ok {s : List Char} {tv : Int} {stk : List Int} {p : P} (h : start s tv stk = .ok p) :
    lexan s tv = .ok (p.look, p.tv, p.rest) ∧ p.stack = stk := by
  obtain ⟨r, h1, h2⟩ := bind_ok' h
  cases h2
  exact ⟨h1, rfl⟩

theorem pmatch_ok {t : Tok} {p q : P} (h : pmatch t p = .ok q) : p.look = t ∧ start p.rest p.tv p.stack = .ok q := by
  unfold pmatch at h
  split at h
  · rename_i hl
    obtain ⟨r, h1, h2⟩ := bind_ok' h
    cases h2
    refine ⟨hl, ?_⟩
    unfold start; rw [h1]; rfl
  · cases h

theorem doOp_ok {o : Op} {p q : P} {a b : Int} {st : List Int} (hs : p.stack = b :: a :: st) (h : doOp o p = .ok q) :
    ∃ v, o.val a b = some v ∧ q = { p with stack := v :: st } := by
  unfold doOp at h
  rw [hs] at h
  obtain ⟨v, h1, h2⟩ := bind_ok' h
  cases h2
  rw [apply_val] at h1
  cases hv : o.val a b with
  | none => rw [hv] at h1; cases h1
  | some w => rw [hv] at h1; cases h1; exact ⟨_, rfl, rfl⟩

theorem start_stack {s : List Char} {tv : Int} {stk stk' : List Int} {p : P} (h : start s tv stk = .ok p) :
    start s tv stk' = .ok { p with stack := stk' } := by
  obtain ⟨h1, _⟩ := start_ok h
  unfold start; rw [h1]; rfl

theorem mulOp_some {t : Tok} {c : Char} {o : Op} (h : mulOp t = some (c, o)) : t = .ch c ∧ c = o.sign ∧ o.level = 1 := by
  unfold mulOp at h
  split at h <;> cases h <;> exact ⟨rfl, rfl, rfl⟩

theorem addOp_some {t : Tok} {c : Char} {o : Op} (h : addOp t = some (c, o)) : t = .ch c ∧ c = o.sign ∧ o.level = 0 := by
  unfold addOp at h
  split at h <;> cases h <;> exact ⟨rfl, rfl, rfl⟩

theorem E.Ok.mono {e : E} {l m : Nat} (h : e.Ok l) (g : m ≤ l) : e.Ok m := by
  induction e with
  | num ds => exact h
  | var c => exact h
  | paren e _ => exact h
  | bin o a b _ _ => exact ⟨Nat.le_trans g h.1, h.2⟩
  | sp t e ih => exact ih h
  | ps t e ih => exact ih h

/-- No counterpart in /repo: an expression of level `l` was read, `v` pushed. -/
def Read (l : Nat) (s : List Char) (stk : List Int) (q : P) : Prop :=
  ∃ (e : E) (rest : List Char) (tv v : Int), s = e.show ++ rest ∧ e.Closed ∧ e.Ok l ∧ e.val noVars = some v ∧ start rest tv (v :: stk) = .ok q

/-- No counterpart in /repo: all five functions at fuel `f`. -/
def SoundAt (f : Nat) : Prop :=
  (∀ s tv stk p q, start s tv stk = .ok p → factor f p = .ok q → Read 2 s stk q) ∧
  (∀ (e : E) s tv v stk p q, e.Closed → e.Ok 1 → e.val noVars = some v → start s tv (v :: stk) = .ok p → termLoop f p = .ok q →
    Read 1 (e.show ++ s) stk q) ∧
  (∀ s tv stk p q, start s tv stk = .ok p → term f p = .ok q → Read 1 s stk q) ∧
  (∀ (e : E) s tv v stk p q, e.Closed → e.Ok 0 → e.val noVars = some v → start s tv (v :: stk) = .ok p → exprLoop f p = .ok q →
    Read 0 (e.show ++ s) stk q) ∧
  (∀ s tv stk p q, start s tv stk = .ok p → expr f p = .ok q → Read 0 s stk q)

theorem sound_at : ∀ f, SoundAt f := by
  intro f
  induction f with
  | zero =>
    refine ⟨?_, ?_, ?_, ?_, ?_⟩
    · intro s tv stk p q _ h; rw [factor] at h; cases h
    · intro e s tv v stk p q _ _ _ _ h; rw [termLoop] at h; cases h
    · intro s tv stk p q _ h; rw [term] at h; cases h
    · intro e s tv v stk p q _ _ _ _ h; rw [exprLoop] at h; cases h
    · intro s tv stk p q _ h; rw [expr] at h; cases h
  | succ f ih =>
    obtain ⟨i1, i2, i3, i4, i5⟩ := ih
    refine ⟨?_, ?_, ?_, ?_, ?_⟩
    · intro s tv stk p q hp h
      obtain ⟨hl, hst⟩ := start_ok hp
      obtain ⟨bs, u, hs, hu⟩ := lexan_sound _ _ _ _ _ hl
      rw [factor] at h
      split at h
      · rename_i hk
        rw [hk] at hu
        obtain ⟨p1, h1, h⟩ := bind_ok' h
        obtain ⟨p2, h2, h⟩ := bind_ok' h
        obtain ⟨_, h1⟩ := pmatch_ok h1
        obtain ⟨e, rest, tv', v, e1, e2, e3, e4, e5⟩ := i5 _ _ _ _ _ h1 h2
        obtain ⟨hc, h3⟩ := pmatch_ok h
        obtain ⟨g1, g2⟩ := start_ok e5
        rw [hc] at g1
        obtain ⟨cs, w, f1, f2⟩ := lexan_sound _ _ _ _ _ g1
        refine ⟨E.sps bs (.paren (E.pss cs e)), p2.rest, p2.tv, v, ?_, ?_, ?_, ?_, ?_⟩
        · rw [hs, hu, sps_show, blanks_append]
          congr 1
          show '(' :: p.rest = '(' :: (((E.pss cs e).show ++ [')']) ++ p2.rest)
          rw [List.append_assoc, pss_show, e1, f1, f2]; rfl
        · exact (sps_closed _ _).2 ((pss_closed _ _).2 e2)
        · exact (sps_ok _ _ _).2 ((pss_ok _ _ _).2 e3)
        · rw [sps_val]; show (E.pss cs e).val _ = _; rw [pss_val, e4]
        · rw [← hst, ← g2]; exact h3
      · rename_i hk
        rw [hk] at hu
        obtain ⟨ds, u1, u2, u3, u4⟩ := hu
        obtain ⟨_, h1⟩ := pmatch_ok h
        refine ⟨E.sps bs (.num ds), p.rest, p.tv, p.tv, ?_, (sps_closed _ _).2 trivial, (sps_ok _ _ _).2 ⟨u2, u3⟩, ?_, ?_⟩
        · rw [hs, u1, sps_show, blanks_append]; rfl
        · rw [sps_val]; exact u4
        · rw [← hst]; exact h1
      · cases h
    · intro e s tv v stk p q hc ho hv hp h
      obtain ⟨hl, hst⟩ := start_ok hp
      obtain ⟨bs, u, hs, hu⟩ := lexan_sound _ _ _ _ _ hl
      rw [termLoop] at h
      split at h
      · rename_i c o hm
        obtain ⟨m1, rfl, m3⟩ := mulOp_some hm
        rw [m1] at hu
        obtain ⟨p1, h1, h⟩ := bind_ok' h
        obtain ⟨p2, h2, h⟩ := bind_ok' h
        obtain ⟨p3, h3, h⟩ := bind_ok' h
        obtain ⟨_, h1⟩ := pmatch_ok h1
        obtain ⟨b, rest, tv', w, b1, b2, b3, b4, b5⟩ := i1 _ _ _ _ _ h1 h2
        obtain ⟨_, g2⟩ := start_ok b5
        rw [hst] at g2
        obtain ⟨x, x1, rfl⟩ := doOp_ok g2 h3
        have := i2 (.bin o (E.pss bs e) b) rest tv' x stk _ q ⟨(pss_closed _ _).2 hc, b2⟩
          ⟨by omega, by rw [m3]; exact (pss_ok _ _ _).2 ho, by rw [m3]; exact b3⟩
          (by show ((E.pss bs e).val _).bind _ = _; rw [pss_val, hv, b4]; exact x1) (start_stack b5) h
        have e1 : e.show ++ s = (E.bin o (E.pss bs e) b).show ++ rest := by
          show _ = ((E.pss bs e).show ++ o.sign :: b.show) ++ rest
          rw [List.append_assoc, pss_show, hs, hu, b1]; rfl
        rw [e1]; exact this
      · cases h
        exact ⟨e, s, tv, v, rfl, hc, ho, hv, hp⟩
    · intro s tv stk p q hp h
      rw [term] at h
      obtain ⟨p1, h1, h⟩ := bind_ok' h
      obtain ⟨e, rest, tv', v, e1, e2, e3, e4, e5⟩ := i1 _ _ _ _ _ hp h1
      rw [e1]
      exact i2 e rest tv' v stk p1 q e2 (e3.mono (by omega)) e4 e5 h
    · intro e s tv v stk p q hc ho hv hp h
      obtain ⟨hl, hst⟩ := start_ok hp
      obtain ⟨bs, u, hs, hu⟩ := lexan_sound _ _ _ _ _ hl
      rw [exprLoop] at h
      split at h
      · rename_i c o hm
        obtain ⟨m1, rfl, m3⟩ := addOp_some hm
        rw [m1] at hu
        obtain ⟨p1, h1, h⟩ := bind_ok' h
        obtain ⟨p2, h2, h⟩ := bind_ok' h
        obtain ⟨p3, h3, h⟩ := bind_ok' h
        obtain ⟨_, h1⟩ := pmatch_ok h1
        obtain ⟨b, rest, tv', w, b1, b2, b3, b4, b5⟩ := i3 _ _ _ _ _ h1 h2
        obtain ⟨_, g2⟩ := start_ok b5
        rw [hst] at g2
        obtain ⟨x, x1, rfl⟩ := doOp_ok g2 h3
        have := i4 (.bin o (E.pss bs e) b) rest tv' x stk _ q ⟨(pss_closed _ _).2 hc, b2⟩
          ⟨by omega, by rw [m3]; exact (pss_ok _ _ _).2 ho, by rw [m3]; exact b3⟩
          (by show ((E.pss bs e).val _).bind _ = _; rw [pss_val, hv, b4]; exact x1) (start_stack b5) h
        have e1 : e.show ++ s = (E.bin o (E.pss bs e) b).show ++ rest := by
          show _ = ((E.pss bs e).show ++ o.sign :: b.show) ++ rest
          rw [List.append_assoc, pss_show, hs, hu, b1]; rfl
        rw [e1]; exact this
      · cases h
        exact ⟨e, s, tv, v, rfl, hc, ho, hv, hp⟩
    · intro s tv stk p q hp h
      rw [expr] at h
      obtain ⟨p1, h1, h⟩ := bind_ok' h
      obtain ⟨e, rest, tv', v, e1, e2, e3, e4, e5⟩ := i3 _ _ _ _ _ hp h1
      rw [e1]
      exact i4 e rest tv' v stk p1 q e2 (e3.mono (by omega)) e4 e5 h

theorem parse_sound {f : Nat} {s : List Char} {v : Int} (h : parseExpr f s = .ok v) :
    ∃ (e : E) (rest : List Char), s = e.show ++ rest ∧ e.Closed ∧ e.Ok 0 ∧ e.val noVars = some v := by
  unfold parseExpr at h
  obtain ⟨r, h1, h⟩ := bind_ok' h
  obtain ⟨q, h2, h⟩ := bind_ok' h
  have hp : start s 0 [] = .ok ⟨r.1, r.2.1, r.2.2, []⟩ := by unfold start; rw [h1]; rfl
  obtain ⟨e, rest, tv, w, e1, e2, e3, e4, e5⟩ := (sound_at f).2.2.2.2 _ _ _ _ _ hp h2
  obtain ⟨_, g2⟩ := start_ok e5
  rw [g2] at h
  cases h
  exact ⟨e, rest, e1, e2, e3, e4⟩

end Verif.Shw
