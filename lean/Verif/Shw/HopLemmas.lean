import Verif.Shw.Hopter
/- Replacing a text, step by step. -/
namespace Verif.Hopter
open Verif.Shw

/-! ### `replace` from the front -/

theorem startsWith_iff : ∀ (p s : List Char), startsWith p s = true ↔ p <+: s := by
  intro p
  induction p with
  | nil => intro s; simp [startsWith]
  | cons c p ih =>
    intro s
    cases s with
    | nil => simp [startsWith]
    | cons d s => simp [startsWith, ih, List.cons_prefix_cons]

theorem replace_none {p r s : List Char} (hp : p ≠ []) (h : find p s = none) : replace p r s = s := by
  rw [replace, dif_neg hp]
  split
  · rfl
  · rename_i e; rw [h] at e; cases e

theorem replace_some {p r s : List Char} {k : Nat} (hp : p ≠ []) (h : find p s = some k) :
    replace p r s = s.take k ++ (r ++ replace p r (s.drop (k + p.length))) := by
  rw [replace, dif_neg hp]
  split
  · rename_i e; rw [h] at e; cases e
  · rename_i e; rw [h] at e; cases e; rfl

theorem replace_nil {p r : List Char} (hp : p ≠ []) : replace p r [] = [] := replace_none hp (find_nil hp)

theorem replace_hit {p r : List Char} (hp : p ≠ []) (s : List Char) : replace p r (p ++ s) = r ++ replace p r s := by
  have : find p (p ++ s) = some 0 := by
    have h := (startsWith_iff p (p ++ s)).2 ⟨s, rfl⟩
    cases p with
    | nil => exact absurd rfl hp
    | cons c p => simp only [List.cons_append] at h ⊢; rw [find, if_pos h]
  rw [replace_some hp this]
  simp

theorem replace_skip {p r s : List Char} {c : Char} (hp : p ≠ []) (h : ¬ p <+: c :: s) : replace p r (c :: s) = c :: replace p r s := by
  have hf : find p (c :: s) = (find p s).map (· + 1) := by
    rw [find, if_neg (fun e => h ((startsWith_iff _ _).1 e))]
  cases hs : find p s with
  | none =>
    rw [replace_none hp hs, replace_none hp (by rw [hf, hs]; rfl)]
  | some k =>
    rw [replace_some hp hs, replace_some (k := k + 1) hp (by rw [hf, hs]; rfl)]
    rw [show k + 1 + p.length = (k + p.length) + 1 by omega]
    simp

/-! ### Patterns with one `@` -/

/-- No counterpart in /repo: the text looked for. -/
def pat (u : List Char) (d : Dir) (v : List Char) : List Char := u ++ '@' :: (d.name ++ v)

theorem pat_ne (u : List Char) (d : Dir) (v : List Char) : pat u d v ≠ [] := by simp [pat]

/-- No counterpart in /repo: nothing that ends in front of `s` makes the text looked for begin there and end in `s`. -/
def Apart (u q s : List Char) : Prop :=
  ∀ (w x a : List Char), s = w ++ '@' :: x → '@' ∉ w → q <+: x → a ≠ [] → a ++ w ≠ u

theorem split_at : ∀ (a u q s : List Char), '@' ∉ u → '@' ∉ a → (u ++ '@' :: q) <+: (a ++ s) →
    ∃ w x, s = w ++ '@' :: x ∧ '@' ∉ w ∧ a ++ w = u ∧ q <+: x := by
  intro a
  induction a with
  | nil =>
    intro u q s hu _ h
    obtain ⟨t, ht⟩ := h
    exact ⟨u, q ++ t, by rw [← show u ++ '@' :: q ++ t = s from ht]; simp, hu, rfl, ⟨t, rfl⟩⟩
  | cons c a ih =>
    intro u q s hu ha h
    cases u with
    | nil =>
      have := (List.cons_prefix_cons.1 h).1
      subst this
      exact absurd List.mem_cons_self ha
    | cons e u =>
      have h' := List.cons_prefix_cons.1 (show e :: (u ++ '@' :: q) <+: c :: (a ++ s) from h)
      obtain ⟨w, x, h1, h2, h3, h4⟩ := ih u q s (fun m => hu (List.mem_cons_of_mem _ m)) (fun m => ha (List.mem_cons_of_mem _ m)) h'.2
      exact ⟨w, x, h1, h2, by rw [h'.1, ← h3]; rfl, h4⟩

theorem replace_pass {u v r : List Char} {d : Dir} (hu : '@' ∉ u) : ∀ (t s : List Char), '@' ∉ t →
    (∀ a, a ≠ [] → a <:+ t → ∀ w x, s = w ++ '@' :: x → '@' ∉ w → (d.name ++ v) <+: x → a ++ w ≠ u) →
    replace (pat u d v) r (t ++ s) = t ++ replace (pat u d v) r s := by
  intro t
  induction t with
  | nil => intro s _ _; rfl
  | cons c t ih =>
    intro s ht h
    rw [List.cons_append, replace_skip (pat_ne _ _ _), ih s (fun m => ht (List.mem_cons_of_mem _ m))
      (fun a ha hs => h a ha (hs.trans (List.suffix_cons c t)))]
    · rfl
    · intro hp
      obtain ⟨w, x, h1, h2, h3, h4⟩ := split_at (c :: t) u (d.name ++ v) s hu ht hp
      exact h (c :: t) (by simp) List.suffix_rfl w x h1 h2 h4 h3

theorem replace_text {u v r : List Char} {d : Dir} (hu : '@' ∉ u) {t s : List Char} (ht : '@' ∉ t) (h : Apart u (d.name ++ v) s) :
    replace (pat u d v) r (t ++ s) = t ++ replace (pat u d v) r s :=
  replace_pass hu t s ht (fun a ha _ w x h1 h2 h3 => h w x a h1 h2 h3 ha)

theorem apart_nil (u q : List Char) : Apart u q [] := by
  intro w x a h
  cases w <;> cases h

theorem apart_empty (q s : List Char) : Apart [] q s := by
  intro w x a _ _ _ ha h
  exact ha (List.append_eq_nil_iff.1 h).1

theorem apart_text {u q t s : List Char} (ht : '@' ∉ t) (h : Apart u q s) : Apart u q (t ++ s) := by
  intro w x a h1 h2 h3 ha h4
  have hs : ∃ w', w = t ++ w' ∧ s = w' ++ '@' :: x := by
    clear h h3 h4 ha
    induction t generalizing w with
    | nil => exact ⟨w, rfl, h1⟩
    | cons c t ih =>
      cases w with
      | nil =>
        injection h1 with h1
        subst h1
        exact absurd List.mem_cons_self ht
      | cons e w =>
        injection h1 with h0 h1
        obtain ⟨w', hw, hs⟩ := ih (fun m => ht (List.mem_cons_of_mem _ m)) w h1 (fun m => h2 (List.mem_cons_of_mem _ m))
        exact ⟨w', by rw [h0, hw]; rfl, hs⟩
  obtain ⟨w', hw, hs⟩ := hs
  subst hw
  exact h w' x (a ++ t) hs (fun m => h2 (List.mem_append_right _ m)) h3 (by simp [ha]) (by rw [← h4]; simp)

theorem name_noAt (d : Dir) : '@' ∉ d.name := by cases d <;> decide

/-- Directives differ in their first letter. -/
theorem name_prefix {d e : Dir} {v s : List Char} (h : (d.name ++ v) <+: (e.name ++ s)) : d = e ∧ v <+: s := by
  have hd : d = e := by
    cases d <;> cases e <;> first | rfl | (exact absurd (List.cons_prefix_cons.1 h).1 (by decide))
  subst hd
  exact ⟨rfl, (List.prefix_append_right_inj _).1 h⟩

/-- In front of a directive. -/
theorem apart_tag {u t s v : List Char} {d e : Dir} (ht : '@' ∉ t) (h : d = e → v <+: s → ∀ a, a ≠ [] → a ++ t ≠ u) :
    Apart u (d.name ++ v) (t ++ (e.tag ++ s)) := by
  intro w x a h1 h2 h3 ha h4
  have hw : w = t ∧ x = e.name ++ s := by
    clear h h3 h4 ha
    induction t generalizing w with
    | nil =>
      cases w with
      | nil => injection h1 with _ h1; exact ⟨rfl, h1.symm⟩
      | cons c w => injection h1 with h1 _; subst h1; exact absurd List.mem_cons_self h2
    | cons c t ih =>
      cases w with
      | nil => injection h1 with h1 _; subst h1; exact absurd List.mem_cons_self ht
      | cons b w =>
        injection h1 with h0 h1
        obtain ⟨h5, h6⟩ := ih (fun m => ht (List.mem_cons_of_mem _ m)) w h1 (fun m => h2 (List.mem_cons_of_mem _ m))
        exact ⟨by rw [h0, h5], h6⟩
  obtain ⟨rfl, rfl⟩ := hw
  obtain ⟨h5, h6⟩ := name_prefix h3
  exact h h5 h6 a ha h4

/-- A directive that is kept. -/
theorem replace_tag {u v r s : List Char} {d e : Dir} (hu : '@' ∉ u) (h : u ≠ [] ∨ ¬ (d = e ∧ v <+: s)) (hs : Apart u (d.name ++ v) s) :
    replace (pat u d v) r (e.tag ++ s) = e.tag ++ replace (pat u d v) r s := by
  rw [show e.tag ++ s = '@' :: (e.name ++ s) from rfl, replace_skip (pat_ne _ _ _), replace_text hu (name_noAt e) hs]
  · rfl
  · intro hp
    cases u with
    | nil => exact (h.resolve_left (fun n => n rfl)) (name_prefix (List.cons_prefix_cons.1 hp).2)
    | cons c u =>
      have := (List.cons_prefix_cons.1 hp).1
      subst this
      exact hu List.mem_cons_self

theorem not_app {l u : List Char} (h : (l.isSuffixOf u && decide (l.length < u.length)) = false) : ∀ a, a ≠ [] → a ++ l ≠ u := by
  intro a ha e
  subst e
  have h0 := List.length_pos_iff.2 ha
  have h1 : l.isSuffixOf (a ++ l) = true := List.isSuffixOf_iff_suffix.2 ⟨a, rfl⟩
  have h2 : l.length < (a ++ l).length := by rw [List.length_append]; omega
  rw [h1, decide_eq_true h2] at h
  cases h

/-- A directive that is kept, and the text in front of it. -/
theorem keep_tag {u v r t s : List Char} {d e : Dir} (hu : '@' ∉ u) (ht : '@' ∉ t) (h1 : d = e → v <+: s → u ≠ [] ∧ ¬ u <:+ t)
    (hs : Apart u (d.name ++ v) s) :
    replace (pat u d v) r (t ++ (e.tag ++ s)) = t ++ (e.tag ++ replace (pat u d v) r s) := by
  rw [replace_pass hu t _ ht, replace_tag hu _ hs]
  · by_cases h : u = []
    · exact .inr (fun k => (h1 k.1 k.2).1 h)
    · exact .inl h
  · intro a ha hat w x hw hn hq e4
    cases w with
    | nil =>
      injection hw with _ hw
      rw [← hw] at hq
      obtain ⟨k1, k2⟩ := name_prefix hq
      rw [List.append_nil] at e4
      subst e4
      exact (h1 k1 k2).2 hat
    | cons c w =>
      injection hw with hw _
      subst hw
      exact hn List.mem_cons_self

/-! ### Lists -/

/-- No counterpart in /repo: the entries behind the first. -/
def tailOf (is : List Item) : List Char := is.flatMap fun i => [',', ' '] ++ i.show

theorem joined_cons (sep x : List Char) (xs : List (List Char)) : joined sep (x :: xs) = x ++ xs.flatMap (sep ++ ·) := by
  induction xs generalizing x with
  | nil => simp [joined]
  | cons y ys ih => rw [joined, ih]; simp

theorem shown_cons (i : Item) (is : List Item) : joined [',', ' '] ((i :: is).map Item.show) = i.show ++ tailOf is := by
  rw [List.map_cons, joined_cons, tailOf, List.flatMap_map]

theorem list_show_nil (b : Bool) (s : List Char) : (Piece.list b []).show ++ s = opening b :: closing b :: s := rfl

theorem list_show_cons (b : Bool) (i : Item) (is : List Item) (s : List Char) :
    (Piece.list b (i :: is)).show ++ s = opening b :: (i.show ++ (tailOf is ++ (closing b :: s))) := by
  rw [Piece.show, shown_cons]; simp

theorem opening_noAt (b : Bool) : '@' ∉ [opening b] := by cases b <;> decide

theorem closing_noAt (b : Bool) : '@' ∉ [closing b] := by cases b <;> decide

theorem sep_noAt : '@' ∉ [',', ' '] := by decide

/-- No counterpart in /repo: what all the texts looked for have in common. -/
structure PatOk (u : List Char) (d : Dir) (v : List Char) : Prop where
  noAt : '@' ∉ u
  sep : ∀ a, a ≠ [] → a ++ [',', ' '] ≠ u
  round : ∀ a, a ≠ [] → a ++ ['('] ≠ u
  angle : (∀ a, a ≠ [] → a ++ ['<'] ≠ u) ∨ (d = .cls ∧ v = ['>'])
  blank : ∀ a, a ≠ [] → a ++ ['<', ' '] ≠ u
  tight : ∀ a, a ≠ [] → a ++ (templ ++ ['<']) ≠ u
  loose : ∀ a, a ≠ [] → a ++ (templ ++ [' ', '<']) ≠ u

section
variable {u v r : List Char} {d : Dir} (P : PatOk u d v)
include P

theorem apart_tail {b : Bool} {s : List Char} (hs : Apart u (d.name ++ v) s) : ∀ (is : List Item), (∀ i ∈ is, i.Ok) →
    Apart u (d.name ++ v) (tailOf is ++ (closing b :: s)) := by
  intro is
  induction is with
  | nil => intro _; exact apart_text (t := [closing b]) (closing_noAt b) hs
  | cons i is ih =>
    intro h
    have ih' := ih (fun j hj => h j (List.mem_cons_of_mem _ hj))
    rw [show tailOf (i :: is) ++ (closing b :: s) = [',', ' '] ++ (i.show ++ (tailOf is ++ (closing b :: s))) by simp [tailOf]]
    cases i with
    | text w => exact apart_text sep_noAt (apart_text (h (.text w) List.mem_cons_self) ih')
    | dir e => exact apart_tag sep_noAt (fun _ _ => P.sep)

omit P in
theorem tail_angle {is : List Item} {w : List Char} (h : Item.text w ∈ is) (s : List Char) : ∃ x, tailOf is ++ s = ',' :: x := by
  cases is with
  | nil => cases h
  | cons i is => exact ⟨' ' :: (i.show ++ (tailOf is ++ s)), by simp [tailOf]⟩

omit P in
theorem text_tail {e : Dir} {is : List Item} (h : ∃ w, Item.text w ∈ Item.dir e :: is) : ∃ w, Item.text w ∈ is := by
  obtain ⟨w, h⟩ := h
  rcases List.mem_cons.1 h with h | h
  · cases h
  · exact ⟨w, h⟩

omit P in
theorem gt_comma {x : List Char} (h : ['>'] <+: ',' :: x) : False := absurd (List.cons_prefix_cons.1 h).1 (by decide)

theorem apart_piece {s : List Char} (hd : u = [] ∨ d ≠ .num) (hs : Apart u (d.name ++ v) s) (p : Piece) (hp : p.Ok) :
    Apart u (d.name ++ v) (p.show ++ s) := by
  cases p with
  | text w => exact apart_text hp hs
  | num =>
    rcases hd with rfl | hd
    · exact apart_empty _ _
    · exact apart_tag (t := []) (by decide) (fun e => absurd e hd)
  | list b items =>
    cases items with
    | nil => exact apart_text (t := [opening b, closing b]) (by cases b <;> decide) hs
    | cons i is =>
      rw [list_show_cons]
      have ht := apart_tail P (b := b) hs is (fun j hj => hp.1 j (List.mem_cons_of_mem _ hj))
      cases i with
      | text w => exact apart_text (t := [opening b]) (opening_noAt b) (apart_text (hp.1 (.text w) List.mem_cons_self) ht)
      | dir e =>
        refine apart_tag (t := [opening b]) (opening_noAt b) (fun _ k a ha => ?_)
        cases b with
        | true => exact P.round a ha
        | false =>
          rcases P.angle with h | ⟨_, h⟩
          · exact h a ha
          · obtain ⟨w, hw⟩ := text_tail (hp.2 rfl)
            obtain ⟨x, hx⟩ := tail_angle hw (closing false :: s)
            rw [hx, h] at k
            exact (gt_comma k).elim
  | tmpl b =>
    cases b with
    | false =>
      rw [show (Piece.tmpl false).show ++ s = (templ ++ ['<']) ++ (Dir.cls.tag ++ ('>' :: s)) by simp [Piece.show]]
      exact apart_tag (by decide) (fun _ _ => P.tight)
    | true =>
      rw [show (Piece.tmpl true).show ++ s = (templ ++ [' ', '<']) ++ (Dir.cls.tag ++ ('>' :: s)) by simp [Piece.show]]
      exact apart_tag (by decide) (fun _ _ => P.loose)
  | sels b =>
    cases b with
    | false =>
      rw [show (Piece.sels false).show ++ s = ['<'] ++ (Dir.sel.tag ++ ('>' :: s)) by simp [Piece.show]]
      refine apart_tag (by decide) (fun k _ => ?_)
      rcases P.angle with h | ⟨h, _⟩
      · exact h
      · rw [h] at k; cases k
    | true =>
      rw [show (Piece.sels true).show ++ s = ['<', ' '] ++ (Dir.sel.tag ++ (' ' :: '>' :: s)) by simp [Piece.show]]
      exact apart_tag (by decide) (fun _ _ => P.blank)

theorem apart_written (hd : u = [] ∨ d ≠ .num) : ∀ (t : List Piece), (∀ p ∈ t, p.Ok) → Apart u (d.name ++ v) (written t) := by
  intro t
  induction t with
  | nil => intro _; exact apart_nil _ _
  | cons p t ih =>
    intro h
    rw [show written (p :: t) = p.show ++ written t by simp [written]]
    exact apart_piece P hd (ih (fun q hq => h q (List.mem_cons_of_mem _ hq))) p (h p List.mem_cons_self)

/-- One replacement, piece by piece. -/
theorem walk (hd : u = [] ∨ d ≠ .num) (f : Piece → Piece) (Q : Piece → Prop) (hf : ∀ p s, p.Ok → Q p → Apart u (d.name ++ v) s →
      replace (pat u d v) r (p.show ++ s) = (f p).show ++ replace (pat u d v) r s) :
    ∀ (t : List Piece), (∀ p ∈ t, p.Ok) → (∀ p ∈ t, Q p) → replace (pat u d v) r (written t) = written (t.map f) := by
  intro t
  induction t with
  | nil => intro _ _; exact replace_nil (pat_ne _ _ _)
  | cons p t ih =>
    intro h hq
    have h' : ∀ p ∈ t, p.Ok := fun q hq => h q (List.mem_cons_of_mem _ hq)
    rw [show written (p :: t) = p.show ++ written t by simp [written],
      hf p _ (h p List.mem_cons_self) (hq p List.mem_cons_self) (apart_written P hd t h'), ih h' (fun q k => hq q (List.mem_cons_of_mem _ k))]
    simp [written]

/-! ### Pieces that are kept -/

theorem keep_text {s w : List Char} (hw : '@' ∉ w) (hs : Apart u (d.name ++ v) s) :
    replace (pat u d v) r ((Piece.text w).show ++ s) = (Piece.text w).show ++ replace (pat u d v) r s := replace_text P.noAt hw hs

theorem keep_num {s : List Char} (hd : d ≠ .num) (hs : Apart u (d.name ++ v) s) :
    replace (pat u d v) r (Piece.num.show ++ s) = Piece.num.show ++ replace (pat u d v) r s :=
  replace_tag P.noAt (.inr (fun k => hd k.1)) hs

theorem keep_tmpl {s : List Char} {b : Bool} (h : d = .cls → u ≠ [] ∧ ¬ u <:+ templ ++ (if b then [' ', '<'] else ['<']))
    (hs : Apart u (d.name ++ v) s) :
    replace (pat u d v) r ((Piece.tmpl b).show ++ s) = (Piece.tmpl b).show ++ replace (pat u d v) r s := by
  have e : ∀ x, (Piece.tmpl b).show ++ x = (templ ++ (if b then [' ', '<'] else ['<'])) ++ (Dir.cls.tag ++ (['>'] ++ x)) := by
    intro x; cases b <;> simp [Piece.show]
  have h' := apart_text (t := ['>']) (by decide) hs
  rw [e, e, keep_tag P.noAt (by cases b <;> decide) (fun k _ => h k) h', replace_text P.noAt (by decide) hs]

theorem keep_sels {s : List Char} {b : Bool} (h : d = .sel → u ≠ [] ∧ ¬ u <:+ (if b then ['<', ' '] else ['<']))
    (hs : Apart u (d.name ++ v) s) :
    replace (pat u d v) r ((Piece.sels b).show ++ s) = (Piece.sels b).show ++ replace (pat u d v) r s := by
  have e : ∀ x, (Piece.sels b).show ++ x = (if b then ['<', ' '] else ['<']) ++ (Dir.sel.tag ++ ((if b then [' ', '>'] else ['>']) ++ x)) := by
    intro x; cases b <;> simp [Piece.show]
  have h0 : '@' ∉ (if b then [' ', '>'] else ['>']) := by cases b <;> decide
  rw [e, e, keep_tag P.noAt (by cases b <;> decide) (fun k _ => h k) (apart_text h0 hs), replace_text P.noAt h0 hs]

theorem tail_step {b : Bool} {s : List Char} (hs : Apart u (d.name ++ v) s) (out : Item → List Char) : ∀ (is : List Item), (∀ i ∈ is, i.Ok) →
    (∀ i ∈ is, ∀ x, Apart u (d.name ++ v) x → replace (pat u d v) r ([',', ' '] ++ (i.show ++ x)) = out i ++ replace (pat u d v) r x) →
    replace (pat u d v) r (tailOf is ++ (closing b :: s)) = is.flatMap out ++ (closing b :: replace (pat u d v) r s) := by
  intro is
  induction is with
  | nil => intro _ _; exact replace_text P.noAt (t := [closing b]) (closing_noAt b) hs
  | cons i is ih =>
    intro h ho
    have h' : ∀ i ∈ is, i.Ok := fun j hj => h j (List.mem_cons_of_mem _ hj)
    rw [show tailOf (i :: is) ++ (closing b :: s) = [',', ' '] ++ (i.show ++ (tailOf is ++ (closing b :: s))) by simp [tailOf],
      ho i List.mem_cons_self _ (apart_tail P hs is h'), ih h' (fun j hj => ho j (List.mem_cons_of_mem _ hj))]
    simp

/-- An entry behind the first that is kept. -/
theorem keep_item {i : Item} {x : List Char} (hi : i.Ok) (h : i = .dir d → u ≠ [] ∧ ¬ u <:+ [',', ' ']) (hx : Apart u (d.name ++ v) x) :
    replace (pat u d v) r ([',', ' '] ++ (i.show ++ x)) = ([',', ' '] ++ i.show) ++ replace (pat u d v) r x := by
  cases i with
  | text w =>
    rw [← List.append_assoc]
    exact replace_text P.noAt (t := [',', ' '] ++ w) (by
      intro m; rcases List.mem_append.1 m with m | m
      · exact sep_noAt m
      · exact hi m) hx
  | dir e =>
    rw [List.append_assoc]
    exact keep_tag P.noAt sep_noAt (fun k _ => h (by rw [k])) hx

/-- The first entry, if it is kept. -/
theorem keep_first {b : Bool} {i : Item} {x : List Char} (hi : i.Ok) (h : i = .dir d → v <+: x → u ≠ [] ∧ ¬ u <:+ [opening b])
    (hx : Apart u (d.name ++ v) x) :
    replace (pat u d v) r (opening b :: (i.show ++ x)) = opening b :: (i.show ++ replace (pat u d v) r x) := by
  cases i with
  | text w =>
    exact replace_text P.noAt (t := opening b :: w) (by
      intro m; rcases List.mem_cons.1 m with m | m
      · exact opening_noAt b (List.mem_singleton.2 m)
      · exact hi m) hx
  | dir e => exact keep_tag P.noAt (t := [opening b]) (opening_noAt b) (fun k k' => h (by rw [k]) k') hx

/-- A list none of whose directives is hit. -/
theorem keep_list {b : Bool} {items : List Item} {s : List Char} (hp : (Piece.list b items).Ok)
    (h1 : ∀ i is, items = i :: is → Item.dir d ∈ is → u ≠ [] ∧ ¬ u <:+ [',', ' '])
    (h2 : ∀ is, items = .dir d :: is → v <+: tailOf is ++ (closing b :: s) → u ≠ [] ∧ ¬ u <:+ [opening b])
    (hs : Apart u (d.name ++ v) s) :
    replace (pat u d v) r ((Piece.list b items).show ++ s) = (Piece.list b items).show ++ replace (pat u d v) r s := by
  cases items with
  | nil => exact replace_text P.noAt (t := [opening b, closing b]) (by cases b <;> decide) hs
  | cons i is =>
    have hi : ∀ j ∈ is, j.Ok := fun j hj => hp.1 j (List.mem_cons_of_mem _ hj)
    rw [list_show_cons, list_show_cons, keep_first P (hp.1 i List.mem_cons_self) _ (apart_tail P hs is hi),
      tail_step P hs (fun i => [',', ' '] ++ i.show) is hi (fun j hj x hx => keep_item P (hi j hj) (fun e => h1 i is rfl (e ▸ hj)) hx)]
    · rfl
    · intro e; subst e; exact h2 is rfl

end

end Verif.Hopter
