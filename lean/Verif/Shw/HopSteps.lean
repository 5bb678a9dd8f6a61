import Verif.Shw.HopLemmas
/- The replacements one after the other. -/
namespace Verif.Hopter
open Verif.Shw

/-! ### Entries -/

theorem decimal_noAt (n : Nat) : '@' ∉ decimal n := by
  intro m
  rw [decimal_eq] at m
  exact absurd (natText_digits n _ m) (by decide)

theorem entry_noAt (d : Dir) (k : Nat) : '@' ∉ entry d k := by
  have := decimal_noAt k
  cases d <;> simp [entry, this]

theorem fromTo_succ (n : Nat) : fromTo 1 (n + 1) = fromTo 1 n ++ [n + 1] := by
  rw [fromTo, fromTo, show n + 1 + 1 - 1 = (n + 1 - 1) + 1 by omega, List.range'_concat]
  simp [Nat.add_comm]

theorem tail_entries (d : Dir) (n : Nat) : ((fromTo 1 n).map (entry d)).flatMap ([',', ' '] ++ ·) = comma n ++ entries d n := by
  induction n with
  | zero => rfl
  | succ n ih =>
    rw [fromTo_succ, List.map_append, List.flatMap_append, ih]
    cases n with
    | zero => simp [comma, entries]
    | succ k => simp [comma, entries]

theorem joined_entries (d : Dir) (n : Nat) : joined [',', ' '] ((fromTo 1 n).map (entry d)) = entries d n := by
  have h := tail_entries d n
  cases hl : (fromTo 1 n).map (entry d) with
  | nil =>
    rw [hl] at h
    have : n = 0 := by
      cases n with
      | zero => rfl
      | succ k => rw [fromTo_succ] at hl; simp at hl
    subst this; rfl
  | cons x xs =>
    rw [hl] at h
    have hn : n ≠ 0 := by intro e; subst e; cases hl
    rw [joined_cons]
    rw [comma, if_neg hn] at h
    simpa using h

theorem entries_noAt (d : Dir) (n : Nat) : '@' ∉ entries d n := by
  induction n with
  | zero => simp [entries]
  | succ n ih =>
    cases n with
    | zero => exact entry_noAt d 1
    | succ k =>
      rw [entries]
      simp [ih, entry_noAt]

/-- No counterpart in /repo: the entries that stand for the directive. -/
def filled (d : Dir) (n : Nat) : List Item := (fromTo 1 n).map fun k => .text (entry d k)

theorem filled_show (d : Dir) (n : Nat) : (filled d n).map Item.show = (fromTo 1 n).map (entry d) := by
  simp [filled, Item.show]

theorem filled_tail (d : Dir) (n : Nat) : tailOf (filled d n) = comma n ++ entries d n := by
  rw [← tail_entries, ← filled_show, tailOf, List.flatMap_map]

theorem filled_ok (d : Dir) (n : Nat) : ∀ i ∈ filled d n, i.Ok := by
  intro i hi
  obtain ⟨k, _, rfl⟩ := List.mem_map.1 hi
  exact entry_noAt d k

theorem filled_body (d : Dir) (n : Nat) : joined [',', ' '] ((filled d n).map Item.show) = entries d n := by
  rw [filled_show, joined_entries]

theorem filled_more (d : Dir) (n : Nat) (j : Item) (is : List Item) :
    joined [',', ' '] ((filled d n ++ j :: is).map Item.show) = entries d n ++ (comma n ++ (j.show ++ tailOf is)) := by
  cases hf : filled d n with
  | nil =>
    have h := filled_body d n
    rw [hf] at h
    have hn : n = 0 := by
      cases n with
      | zero => rfl
      | succ k => rw [filled, fromTo_succ] at hf; simp at hf
    subst hn
    rw [List.nil_append, shown_cons]; rfl
  | cons i fs =>
    have hn : n ≠ 0 := by intro e; subst e; cases hf
    have h := filled_body d n
    rw [hf, shown_cons] at h
    rw [List.cons_append, shown_cons, ← h, comma, if_neg hn]
    simp [tailOf]

/-- No counterpart in /repo: the entries with which one directive is filled in. -/
def fill (d : Dir) (n : Nat) (i : Item) : List Item := if i = .dir d then filled d n else [i]

theorem fill_tail (d : Dir) (n : Nat) (is : List Item) :
    tailOf (is.flatMap (fill d n)) = is.flatMap fun i => if i = .dir d then comma n ++ entries d n else [',', ' '] ++ i.show := by
  induction is with
  | nil => rfl
  | cons i is ih =>
    have e : ∀ (a b : List Item), tailOf (a ++ b) = tailOf a ++ tailOf b := by intro a b; simp [tailOf]
    rw [List.flatMap_cons, e, ih, List.flatMap_cons]
    congr 1
    unfold fill
    split
    · exact filled_tail d n
    · simp [tailOf]

theorem filled_no (d e : Dir) (n : Nat) : Item.dir e ∉ filled d n := by
  intro h
  obtain ⟨k, _, hk⟩ := List.mem_map.1 h
  cases hk

theorem fill_no (d : Dir) (n : Nat) (is : List Item) : Item.dir d ∉ is.flatMap (fill d n) := by
  intro h
  obtain ⟨i, _, hi⟩ := List.mem_flatMap.1 h
  unfold fill at hi
  split at hi
  · exact filled_no _ _ _ hi
  · rename_i k; exact k (List.mem_singleton.1 hi).symm

theorem fill_ok {d : Dir} {n : Nat} {is : List Item} (h : ∀ i ∈ is, i.Ok) : ∀ i ∈ is.flatMap (fill d n), i.Ok := by
  intro i hi
  obtain ⟨j, hj, hi⟩ := List.mem_flatMap.1 hi
  unfold fill at hi
  split at hi
  · exact filled_ok _ _ i hi
  · rw [List.mem_singleton.1 hi]; exact h j hj

theorem fill_text {d : Dir} {n : Nat} {is : List Item} {w : List Char} (h : Item.text w ∈ is) : Item.text w ∈ is.flatMap (fill d n) :=
  List.mem_flatMap.2 ⟨_, h, by simp [fill]⟩

/-! ### The texts looked for -/

/-- No counterpart in /repo: what is asked of a text in front of a directive. -/
def frontOk (u : List Char) : Bool :=
  !u.contains '@' && [[',', ' '], ['('], ['<', ' '], templ ++ ['<'], templ ++ [' ', '<']].all
    fun l => !(l.isSuffixOf u && decide (l.length < u.length))

theorem patOk {u v : List Char} {d : Dir} (h : frontOk u = true)
    (ha : (['<'].isSuffixOf u && decide (1 < u.length)) = false ∨ (d = .cls ∧ v = ['>'])) : PatOk u d v := by
  simp only [frontOk, List.all_cons, List.all_nil, Bool.and_true, Bool.and_eq_true, Bool.not_eq_true'] at h
  obtain ⟨h0, h1, h2, h3, h4, h5⟩ := h
  exact ⟨by simpa using h0, not_app h1, not_app h2, ha.imp (fun h => not_app h) id, not_app h3, not_app h4, not_app h5⟩

theorem not_suffix {u l : List Char} (h : u.isSuffixOf l = false) : ¬ u <:+ l := by
  intro k
  rw [List.isSuffixOf_iff_suffix.2 k] at h
  cases h

/-! ### The number -/

/-- No counterpart in /repo: the piece after the first replacement. -/
def putNum (n : Nat) : Piece → Piece
  | .num => .text (decimal n)
  | p => p

theorem step_num (n : Nat) (t : List Piece) (ht : ∀ p ∈ t, p.Ok) :
    replace Dir.num.tag (decimal n) (written t) = written (t.map (putNum n)) := by
  have P : PatOk [] .num [] := patOk (by decide) (.inl (by decide))
  rw [show Dir.num.tag = pat [] .num [] from rfl]
  refine walk P (.inl rfl) _ (fun _ => True) ?_ t ht (fun _ _ => trivial)
  intro p s hp _ hs
  cases p with
  | text w => exact keep_text P hp hs
  | num => exact replace_hit (pat_ne _ _ _) s
  | list b items =>
    have hn : Item.dir .num ∉ items := fun m => hp.1 _ m rfl
    exact keep_list P hp (fun i is e m => absurd (e ▸ List.mem_cons_of_mem _ m) hn) (fun is e => absurd (e ▸ List.mem_cons_self) hn) hs
  | tmpl b => exact keep_tmpl P (fun k => by cases k) hs
  | sels b => exact keep_sels P (fun k => by cases k) hs

theorem list_ang {b : Bool} {d : Dir} {items : List Item} (hp : (Piece.list b items).Ok) {is : List Item} (e : items = .dir d :: is)
    (hb : b = false) (s : List Char) : ¬ ['>'] <+: tailOf is ++ s := by
  subst e
  obtain ⟨w, hw⟩ := text_tail (hp.2 hb)
  obtain ⟨x, hx⟩ := tail_angle hw s
  rw [hx]
  exact gt_comma

/-! ### Heads of templates -/

/-- No counterpart in /repo: the piece after the second and third replacement. -/
def putTmpl (n : Nat) (c : Bool) : Piece → Piece
  | .tmpl b => if b = c then .text (templText n) else .tmpl b
  | p => p

theorem step_tmpl0 (n : Nat) (t : List Piece) (ht : ∀ p ∈ t, p.Ok) :
    replace (templ ++ ['<'] ++ Dir.cls.tag ++ ['>']) (templText n) (written t) = written (t.map (putTmpl n false)) := by
  have P : PatOk (templ ++ ['<']) .cls ['>'] := patOk (by decide) (.inr ⟨rfl, rfl⟩)
  rw [show templ ++ ['<'] ++ Dir.cls.tag ++ ['>'] = pat (templ ++ ['<']) .cls ['>'] by decide]
  refine walk P (.inr (by decide)) _ (fun _ => True) ?_ t ht (fun _ _ => trivial)
  intro p s hp _ hs
  cases p with
  | text w => exact keep_text P hp hs
  | num => exact keep_num P (by decide) hs
  | list b items =>
    exact keep_list P hp (fun i is e m => ⟨by decide, not_suffix (by decide)⟩)
      (fun is e k => ⟨by decide, by cases b <;> exact not_suffix (by decide)⟩) hs
  | tmpl b =>
    cases b with
    | false =>
      rw [show (Piece.tmpl false).show = pat (templ ++ ['<']) .cls ['>'] by decide]
      exact replace_hit (pat_ne _ _ _) s
    | true => exact keep_tmpl P (fun _ => ⟨by decide, not_suffix (by decide)⟩) hs
  | sels b => exact keep_sels P (fun k => by cases k) hs

theorem step_tmpl1 (n : Nat) (t : List Piece) (ht : ∀ p ∈ t, p.Ok) (hq : ∀ p ∈ t, p ≠ .tmpl false) :
    replace (templ ++ [' ', '<'] ++ Dir.cls.tag ++ ['>']) (templText n) (written t) = written (t.map (putTmpl n true)) := by
  have P : PatOk (templ ++ [' ', '<']) .cls ['>'] := patOk (by decide) (.inr ⟨rfl, rfl⟩)
  rw [show templ ++ [' ', '<'] ++ Dir.cls.tag ++ ['>'] = pat (templ ++ [' ', '<']) .cls ['>'] by decide]
  refine walk P (.inr (by decide)) _ (fun p => p ≠ .tmpl false) ?_ t ht hq
  intro p s hp hq hs
  cases p with
  | text w => exact keep_text P hp hs
  | num => exact keep_num P (by decide) hs
  | list b items =>
    exact keep_list P hp (fun i is e m => ⟨by decide, not_suffix (by decide)⟩)
      (fun is e k => ⟨by decide, by cases b <;> exact not_suffix (by decide)⟩) hs
  | tmpl b =>
    cases b with
    | false => exact absurd rfl hq
    | true =>
      rw [show (Piece.tmpl true).show = pat (templ ++ [' ', '<']) .cls ['>'] by decide]
      exact replace_hit (pat_ne _ _ _) s
  | sels b => exact keep_sels P (fun k => by cases k) hs

/-! ### Choices -/

/-- No counterpart in /repo: the piece after the replacements of choices. -/
def putSels (n : Nat) (c : Bool) : Piece → Piece
  | .sels b => if b = c then .text (selText n) else .sels b
  | p => p

theorem step_sels0 (n : Nat) (t : List Piece) (ht : ∀ p ∈ t, p.Ok) :
    replace (['<'] ++ Dir.sel.tag ++ ['>']) (selText n) (written t) = written (t.map (putSels n false)) := by
  have P : PatOk ['<'] .sel ['>'] := patOk (by decide) (.inl (by decide))
  rw [show ['<'] ++ Dir.sel.tag ++ ['>'] = pat ['<'] .sel ['>'] by decide]
  refine walk P (.inr (by decide)) _ (fun _ => True) ?_ t ht (fun _ _ => trivial)
  intro p s hp _ hs
  cases p with
  | text w => exact keep_text P hp hs
  | num => exact keep_num P (by decide) hs
  | list b items =>
    refine keep_list P hp (fun i is e m => ⟨by decide, not_suffix (by decide)⟩) (fun is e k => ⟨by decide, ?_⟩) hs
    cases b with
    | true => exact not_suffix (by decide)
    | false => exact absurd k (list_ang hp e rfl _)
  | tmpl b => exact keep_tmpl P (fun k => by cases k) hs
  | sels b =>
    cases b with
    | false =>
      rw [show (Piece.sels false).show = pat ['<'] .sel ['>'] by decide]
      exact replace_hit (pat_ne _ _ _) s
    | true => exact keep_sels P (fun _ => ⟨by decide, not_suffix (by decide)⟩) hs

theorem step_sels1 (n : Nat) (t : List Piece) (ht : ∀ p ∈ t, p.Ok) (hq : ∀ p ∈ t, p ≠ .sels false) :
    replace (['<', ' '] ++ Dir.sel.tag ++ [' ', '>']) (selText n) (written t) = written (t.map (putSels n true)) := by
  have P : PatOk ['<', ' '] .sel [' ', '>'] := patOk (by decide) (.inl (by decide))
  rw [show ['<', ' '] ++ Dir.sel.tag ++ [' ', '>'] = pat ['<', ' '] .sel [' ', '>'] by decide]
  refine walk P (.inr (by decide)) _ (fun p => p ≠ .sels false) ?_ t ht hq
  intro p s hp hq hs
  cases p with
  | text w => exact keep_text P hp hs
  | num => exact keep_num P (by decide) hs
  | list b items =>
    exact keep_list P hp (fun i is e m => ⟨by decide, not_suffix (by decide)⟩)
      (fun is e k => ⟨by decide, by cases b <;> exact not_suffix (by decide)⟩) hs
  | tmpl b => exact keep_tmpl P (fun k => by cases k) hs
  | sels b =>
    cases b with
    | false => exact absurd rfl hq
    | true =>
      rw [show (Piece.sels true).show = pat ['<', ' '] .sel [' ', '>'] by decide]
      exact replace_hit (pat_ne _ _ _) s

/-! ### Lists -/

/-- No counterpart in /repo: no head or choice that is written with the directive is left. -/
def Gone (d : Dir) (p : Piece) : Prop := (d = .cls → ∀ b, p ≠ .tmpl b) ∧ (d = .sel → ∀ b, p ≠ .sels b)

/-- No counterpart in /repo: the entries behind the first are filled in. -/
def fill1 (d : Dir) (n : Nat) : Piece → Piece
  | .list b (i :: is) => .list b (i :: is.flatMap (fill d n))
  | p => p

/-- No counterpart in /repo: a first entry that others follow is filled in. -/
def fill2 (d : Dir) (n : Nat) : Piece → Piece
  | .list b (i :: j :: is) => .list b (fill d n i ++ (j :: is))
  | p => p

/-- No counterpart in /repo: an only entry is filled in. -/
def fill3 (d : Dir) (n : Nat) : Piece → Piece
  | .list b [i] => .list b (fill d n i)
  | p => p

/-- No counterpart in /repo: all entries are filled in. -/
def fillAll (d : Dir) (n : Nat) : Piece → Piece
  | .list b is => .list b (is.flatMap (fill d n))
  | p => p

/-- No counterpart in /repo: the directive is the first entry of a list if it is one at all. -/
def First (d : Dir) (p : Piece) : Prop := ∀ b i is, p = .list b (i :: is) → Item.dir d ∉ is

/-- No counterpart in /repo: the directive is the only entry of a list if it is one at all. -/
def Only (d : Dir) (p : Piece) : Prop := ∀ b is, p = .list b is → Item.dir d ∈ is → is = [.dir d]

section
variable {d : Dir} (hd : d ≠ .num)
include hd

theorem step_list0 (r : List Char) (t : List Piece) (ht : ∀ p ∈ t, p.Ok) (hq : ∀ p ∈ t, Gone d p) :
    replace (pat [','] d []) r (written t) = written t := by
  have P : PatOk [','] d [] := patOk (by decide) (.inl (by decide))
  have h := walk P (r := r) (.inr hd) id (Gone d) ?_ t ht hq
  · simpa using h
  intro p s hp hq hs
  cases p with
  | text w => exact keep_text P hp hs
  | num => exact keep_num P hd hs
  | list b items =>
    exact keep_list P hp (fun i is e m => ⟨by decide, not_suffix (by decide)⟩)
      (fun is e k => ⟨by decide, by cases b <;> exact not_suffix (by decide)⟩) hs
  | tmpl b => exact keep_tmpl P (fun k => absurd rfl (hq.1 k b)) hs
  | sels b => exact keep_sels P (fun k => absurd rfl (hq.2 k b)) hs

theorem step_list1 (n : Nat) (t : List Piece) (ht : ∀ p ∈ t, p.Ok) (hq : ∀ p ∈ t, Gone d p) :
    replace (pat [',', ' '] d []) (comma n ++ entries d n) (written t) = written (t.map (fill1 d n)) := by
  have P : PatOk [',', ' '] d [] := patOk (by decide) (.inl (by decide))
  refine walk P (.inr hd) _ (Gone d) ?_ t ht hq
  intro p s hp hq hs
  cases p with
  | text w => exact keep_text P hp hs
  | num => exact keep_num P hd hs
  | list b items =>
    cases items with
    | nil => exact keep_list P hp (fun i is e => by cases e) (fun is e => by cases e) hs
    | cons i is =>
      have hi : ∀ j ∈ is, j.Ok := fun j hj => hp.1 j (List.mem_cons_of_mem _ hj)
      rw [fill1, list_show_cons, list_show_cons, keep_first P (hp.1 i List.mem_cons_self) _ (apart_tail P hs is hi), fill_tail,
        tail_step P hs (fun i => if i = .dir d then comma n ++ entries d n else [',', ' '] ++ i.show) is hi]
      · intro j hj x hx
        by_cases e : j = .dir d
        · rw [if_pos e, e, ← List.append_assoc, show [',', ' '] ++ (Item.dir d).show = pat [',', ' '] d [] by simp [pat, Item.show, Dir.tag]]
          exact replace_hit (pat_ne _ _ _) x
        · rw [if_neg e]
          exact keep_item P (hi j hj) (fun k => absurd k e) hx
      · intro _ _; exact ⟨by decide, by cases b <;> exact not_suffix (by decide)⟩
  | tmpl b => exact keep_tmpl P (fun k => absurd rfl (hq.1 k b)) hs
  | sels b => exact keep_sels P (fun k => absurd rfl (hq.2 k b)) hs

omit hd in
/-- The first entry is hit. -/
theorem hit_first {b : Bool} {v r s : List Char} (P : PatOk [] d v) :
    replace (pat [] d v) r (opening b :: ((Item.dir d).show ++ (v ++ s))) = opening b :: (r ++ replace (pat [] d v) r s) := by
  rw [← List.append_assoc]
  have h := replace_text (v := v) (r := r) (d := d) (u := []) P.noAt (t := [opening b]) (s := (Item.dir d).show ++ v ++ s) (opening_noAt b)
    (apart_empty _ _)
  rw [show opening b :: ((Item.dir d).show ++ v ++ s) = [opening b] ++ ((Item.dir d).show ++ v ++ s) from rfl, h,
    show (Item.dir d).show ++ v = pat [] d v from rfl, replace_hit (pat_ne _ _ _)]
  rfl

omit hd in
theorem tail_kept {b : Bool} {v r s : List Char} {is : List Item} (P : PatOk [] d v) (hi : ∀ i ∈ is, i.Ok) (hn : Item.dir d ∉ is) :
    replace (pat [] d v) r (tailOf is ++ (closing b :: s)) = tailOf is ++ (closing b :: replace (pat [] d v) r s) :=
  tail_step P (apart_empty _ _) (fun i => [',', ' '] ++ i.show) is hi
    (fun j hj _ hx => keep_item P (hi j hj) (fun e => absurd (e ▸ hj) hn) hx)

theorem step_list2 (n : Nat) (t : List Piece) (ht : ∀ p ∈ t, p.Ok) (hq : ∀ p ∈ t, Gone d p ∧ First d p) :
    replace (pat [] d [',', ' ']) (entries d n ++ comma n) (written t) = written (t.map (fill2 d n)) := by
  have P : PatOk [] d [',', ' '] := patOk (by decide) (.inl (by decide))
  refine walk P (.inr hd) _ (fun p => Gone d p ∧ First d p) ?_ t ht hq
  intro p s hp hq hs
  cases p with
  | text w => exact keep_text P hp hs
  | num => exact keep_num P hd hs
  | list b items =>
    match items, hp, hq with
    | [], hp, hq => exact keep_list P hp (fun i is e => by cases e) (fun is e => by cases e) hs
    | [i], hp, hq =>
      refine keep_list P hp (fun k is e m => ?_) (fun is e k => ?_) hs
      · injection e with _ e; subst e; cases m
      · injection e with _ e; subst e
        exact absurd (List.cons_prefix_cons.1 k).1 (by cases b <;> decide)
    | i :: j :: is, hp, hq =>
      have hi : ∀ k ∈ j :: is, k.Ok := fun k hk => hp.1 k (List.mem_cons_of_mem _ hk)
      have hn := hq.2 b i (j :: is) rfl
      by_cases e : i = .dir d
      · subst e
        have hj : Item.dir d ≠ j := fun e => hn (e ▸ List.mem_cons_self)
        have h1 : replace (pat [] d [',', ' ']) (entries d n ++ comma n) (j.show ++ (tailOf is ++ (closing b :: s))) =
            j.show ++ (tailOf is ++ (closing b :: replace (pat [] d [',', ' ']) (entries d n ++ comma n) s)) := by
          have h2 := tail_kept (b := b) (r := entries d n ++ comma n) (s := s) P (fun k hk => hi k (List.mem_cons_of_mem _ hk))
            (fun m => hn (List.mem_cons_of_mem _ m))
          cases j with
          | text w => rw [show (Item.text w).show = w from rfl, replace_text P.noAt (hi (.text w) List.mem_cons_self) (apart_empty _ _), h2]
          | dir e =>
            rw [show (Item.dir e).show = e.tag from rfl, replace_tag P.noAt (.inr (fun k => hj (by rw [k.1]))) (apart_empty _ _), h2]
        rw [list_show_cons, show tailOf (j :: is) ++ (closing b :: s) = [',', ' '] ++ (j.show ++ (tailOf is ++ (closing b :: s))) by
          simp [tailOf], hit_first P, h1, fill2, fill, if_pos rfl, Piece.show, filled_more]
        simp
      · rw [fill2, fill, if_neg e]
        exact keep_list P hp (fun k ks e2 m => by injection e2 with _ e2; subst e2; exact absurd m hn)
          (fun ks e2 => by injection e2 with e2 _; exact absurd e2 e) hs
  | tmpl b => exact keep_tmpl P (fun k => absurd rfl (hq.1.1 k b)) hs
  | sels b => exact keep_sels P (fun k => absurd rfl (hq.1.2 k b)) hs

theorem step_list3 (r : List Char) (t : List Piece) (ht : ∀ p ∈ t, p.Ok) (hq : ∀ p ∈ t, Gone d p ∧ Only d p) :
    replace (pat [] d [',']) r (written t) = written t := by
  have P : PatOk [] d [','] := patOk (by decide) (.inl (by decide))
  have h := walk P (r := r) (.inr hd) id (fun p => Gone d p ∧ Only d p) ?_ t ht hq
  · simpa using h
  intro p s hp hq hs
  cases p with
  | text w => exact keep_text P hp hs
  | num => exact keep_num P hd hs
  | list b items =>
    refine keep_list P hp (fun i is e m => ?_) (fun is e k => ?_) hs
    · have := hq.2 b items rfl (e ▸ List.mem_cons_of_mem _ m)
      rw [e] at this
      injection this with _ this
      subst this; cases m
    · have := hq.2 b items rfl (e ▸ List.mem_cons_self)
      rw [e] at this
      injection this with _ this
      subst this
      exact absurd (List.cons_prefix_cons.1 k).1 (by cases b <;> decide)
  | tmpl b => exact keep_tmpl P (fun k => absurd rfl (hq.1.1 k b)) hs
  | sels b => exact keep_sels P (fun k => absurd rfl (hq.1.2 k b)) hs

theorem step_list4 (n : Nat) (t : List Piece) (ht : ∀ p ∈ t, p.Ok) (hq : ∀ p ∈ t, Gone d p ∧ Only d p) :
    replace (pat [] d []) (entries d n) (written t) = written (t.map (fill3 d n)) := by
  have P : PatOk [] d [] := patOk (by decide) (.inl (by decide))
  refine walk P (.inr hd) _ (fun p => Gone d p ∧ Only d p) ?_ t ht hq
  intro p s hp hq hs
  cases p with
  | text w => exact keep_text P hp hs
  | num => exact keep_num P hd hs
  | list b items =>
    by_cases hm : Item.dir d ∈ items
    · have := hq.2 b items rfl hm
      subst this
      rw [list_show_cons, fill3, fill, if_pos rfl, Piece.show, filled_body]
      have h := hit_first (b := b) (r := entries d n) (s := closing b :: s) P
      rw [List.nil_append] at h
      rw [show tailOf [] ++ (closing b :: s) = closing b :: s from rfl, h]
      rw [show closing b :: s = [closing b] ++ s from rfl, replace_text P.noAt (closing_noAt b) (apart_empty _ _)]
      simp
    · have : fill3 d n (.list b items) = .list b items := by
        match items, hm with
        | [], _ => rfl
        | [i], hm => rw [fill3, fill, if_neg (fun (e : i = .dir d) => hm (by rw [e]; exact List.mem_cons_self))]
        | _ :: _ :: _, _ => rfl
      rw [this]
      exact keep_list P hp (fun i is e m => absurd (e ▸ List.mem_cons_of_mem _ m) hm) (fun is e => absurd (e ▸ List.mem_cons_self) hm) hs
  | tmpl b => exact keep_tmpl P (fun k => absurd rfl (hq.1.1 k b)) hs
  | sels b => exact keep_sels P (fun k => absurd rfl (hq.1.2 k b)) hs

end

/-! ### All five for one directive -/

theorem fill1_ok {d : Dir} {n : Nat} {p : Piece} (h : p.Ok) : (fill1 d n p).Ok := by
  match p, h with
  | .text _, h => exact h
  | .num, h => exact h
  | .tmpl _, h => exact h
  | .sels _, h => exact h
  | .list b [], h => exact h
  | .list b (i :: is), h =>
    refine ⟨fun j hj => ?_, fun hb => ?_⟩
    · rcases List.mem_cons.1 hj with rfl | hj
      · exact h.1 _ List.mem_cons_self
      · exact fill_ok (fun k hk => h.1 k (List.mem_cons_of_mem _ hk)) j hj
    · obtain ⟨w, hw⟩ := h.2 hb
      rcases List.mem_cons.1 hw with hw | hw
      · exact ⟨w, hw ▸ List.mem_cons_self⟩
      · exact ⟨w, List.mem_cons_of_mem _ (fill_text hw)⟩

theorem fill_one_ok {d : Dir} {n : Nat} {i : Item} (h : i.Ok) : ∀ j ∈ fill d n i, j.Ok := by
  intro j hj
  unfold fill at hj
  split at hj
  · exact filled_ok _ _ j hj
  · rw [List.mem_singleton.1 hj]; exact h

theorem fill2_ok {d : Dir} {n : Nat} {p : Piece} (h : p.Ok) : (fill2 d n p).Ok := by
  match p, h with
  | .text _, h => exact h
  | .num, h => exact h
  | .tmpl _, h => exact h
  | .sels _, h => exact h
  | .list b [], h => exact h
  | .list b [_], h => exact h
  | .list b (i :: j :: is), h =>
    refine ⟨fun k hk => ?_, fun hb => ?_⟩
    · rcases List.mem_append.1 hk with hk | hk
      · exact fill_one_ok (h.1 i List.mem_cons_self) k hk
      · exact h.1 k (List.mem_cons_of_mem _ hk)
    · obtain ⟨w, hw⟩ := h.2 hb
      rcases List.mem_cons.1 hw with hw | hw
      · subst hw
        exact ⟨w, List.mem_append_left _ (by simp [fill])⟩
      · exact ⟨w, List.mem_append_right _ hw⟩

theorem fillAll_ok {d : Dir} {n : Nat} {p : Piece} (h : p.Ok) : (fillAll d n p).Ok := by
  match p, h with
  | .text _, h => exact h
  | .num, h => exact h
  | .tmpl _, h => exact h
  | .sels _, h => exact h
  | .list b is, h => exact ⟨fill_ok h.1, fun hb => (h.2 hb).imp fun _ hw => fill_text hw⟩

theorem fill1_gone {d : Dir} {n : Nat} {p : Piece} (h : Gone d p) : Gone d (fill1 d n p) := by
  match p, h with
  | .text _, h => exact h
  | .num, h => exact h
  | .tmpl _, h => exact h
  | .sels _, h => exact h
  | .list b [], h => exact h
  | .list b (_ :: _), _ => exact ⟨fun _ _ e => (by cases e), fun _ _ e => (by cases e)⟩

theorem fill2_gone {d : Dir} {n : Nat} {p : Piece} (h : Gone d p) : Gone d (fill2 d n p) := by
  match p, h with
  | .text _, h => exact h
  | .num, h => exact h
  | .tmpl _, h => exact h
  | .sels _, h => exact h
  | .list b [], h => exact h
  | .list b [_], h => exact h
  | .list b (_ :: _ :: _), _ => exact ⟨fun _ _ e => (by cases e), fun _ _ e => (by cases e)⟩

theorem fill1_first (d : Dir) (n : Nat) (p : Piece) : First d (fill1 d n p) := by
  intro b i is e
  match p with
  | .text _ => cases e
  | .num => cases e
  | .tmpl _ => cases e
  | .sels _ => cases e
  | .list b [] => cases e
  | .list b (j :: js) =>
    injection e with _ e
    injection e with _ e
    subst e
    exact fill_no d n js

theorem fill_one_no (d : Dir) (n : Nat) (i : Item) : Item.dir d ∉ fill d n i := by
  intro h
  unfold fill at h
  split at h
  · exact filled_no _ _ _ h
  · rename_i k; exact k (List.mem_singleton.1 h).symm

theorem fill2_only {d : Dir} {n : Nat} {p : Piece} (h : First d p) : Only d (fill2 d n p) := by
  intro b is e m
  match p, h with
  | .text _, _ => cases e
  | .num, _ => cases e
  | .tmpl _, _ => cases e
  | .sels _, _ => cases e
  | .list c [], _ => injection e with _ e; subst e; cases m
  | .list c [i], _ => injection e with _ e; subst e; rw [List.mem_singleton.1 m]
  | .list c (i :: j :: js), h =>
    injection e with _ e
    subst e
    rcases List.mem_append.1 m with m | m
    · exact absurd m (fill_one_no d n i)
    · exact absurd m (h c i (j :: js) rfl)

theorem fill_fill (d : Dir) (n : Nat) (p : Piece) : fill3 d n (fill2 d n (fill1 d n p)) = fillAll d n p := by
  match p with
  | .text _ => rfl
  | .num => rfl
  | .tmpl _ => rfl
  | .sels _ => rfl
  | .list b [] => rfl
  | .list b (i :: is) =>
    rw [fill1, fillAll, List.flatMap_cons]
    cases h : is.flatMap (fill d n) with
    | nil => rw [fill2]; · simp [fill3]
             · intro b i j is e; cases e
    | cons j js =>
      rw [fill2]
      match hf : fill d n i with
      | [] =>
        cases js with
        | nil =>
          have hj : j ≠ .dir d := fun e => fill_no d n is (by rw [h, e]; exact List.mem_cons_self)
          rw [List.nil_append, fill3, fill, if_neg hj]
        | cons k ks => rfl
      | [x] => rfl
      | _ :: _ :: _ => rfl

theorem steps_list (d : Dir) (hd : d ≠ .num) (n : Nat) (t : List Piece) (ht : ∀ p ∈ t, p.Ok) (hq : ∀ p ∈ t, Gone d p) :
    (listSteps d n).foldl (fun s x => replace x.1 x.2 s) (written t) = written (t.map (fillAll d n)) := by
  have e0 : [','] ++ d.tag = pat [','] d [] := by simp [pat, Dir.tag]
  have e1 : [',', ' '] ++ d.tag = pat [',', ' '] d [] := by simp [pat, Dir.tag]
  have e4 : d.tag = pat [] d [] := by simp [pat, Dir.tag]
  have h1 : ∀ p ∈ t.map (fill1 d n), p.Ok := by
    intro p hp; obtain ⟨q, hq', rfl⟩ := List.mem_map.1 hp; exact fill1_ok (ht q hq')
  have g1 : ∀ p ∈ t.map (fill1 d n), Gone d p ∧ First d p := by
    intro p hp; obtain ⟨q, hq', rfl⟩ := List.mem_map.1 hp; exact ⟨fill1_gone (hq q hq'), fill1_first d n q⟩
  have h2 : ∀ p ∈ (t.map (fill1 d n)).map (fill2 d n), p.Ok := by
    intro p hp; obtain ⟨q, hq', rfl⟩ := List.mem_map.1 hp; exact fill2_ok (h1 q hq')
  have g2 : ∀ p ∈ (t.map (fill1 d n)).map (fill2 d n), Gone d p ∧ Only d p := by
    intro p hp; obtain ⟨q, hq', rfl⟩ := List.mem_map.1 hp; exact ⟨fill2_gone (g1 q hq').1, fill2_only (g1 q hq').2⟩
  simp only [listSteps, List.foldl_cons, List.foldl_nil]
  rw [e0, step_list0 hd _ t ht hq, e1, step_list1 hd n t ht hq, show d.tag ++ [',', ' '] = pat [] d [',', ' '] from rfl,
    step_list2 hd n _ h1 g1, show d.tag ++ [','] = pat [] d [','] from rfl, step_list3 hd _ _ h2 g2, e4, step_list4 hd n _ h2 g2]
  simp only [List.map_map]
  congr 2
  funext p
  exact fill_fill d n p

/-! ### All together -/

theorem templText_noAt (n : Nat) : '@' ∉ templText n := by
  have := entries_noAt .cls n
  unfold templText
  split <;> simp [templ, this]

theorem selText_noAt (n : Nat) : '@' ∉ selText n := by
  have := entries_noAt .sel n
  unfold selText
  split <;> simp [this]

theorem putNum_ok {n : Nat} {p : Piece} (h : p.Ok) : (putNum n p).Ok := by
  cases p <;> first | exact h | exact decimal_noAt n

theorem putTmpl_ok {n : Nat} {c : Bool} {p : Piece} (h : p.Ok) : (putTmpl n c p).Ok := by
  cases p with
  | tmpl b =>
    show (if b = c then Piece.text (templText n) else .tmpl b).Ok
    split
    · exact templText_noAt n
    · trivial
  | _ => exact h

theorem putSels_ok {n : Nat} {c : Bool} {p : Piece} (h : p.Ok) : (putSels n c p).Ok := by
  cases p with
  | sels b =>
    show (if b = c then Piece.text (selText n) else .sels b).Ok
    split
    · exact selText_noAt n
    · trivial
  | _ => exact h

theorem putTmpl_gone {n : Nat} (p : Piece) : ∀ b, putTmpl n true (putTmpl n false p) ≠ .tmpl b := by
  intro b
  rcases p with _ | _ | _ | (_ | _) | _ <;> simp [putTmpl]

theorem putSels_gone {n : Nat} (p : Piece) : ∀ b, putSels n true (putSels n false p) ≠ .sels b := by
  intro b
  rcases p with _ | _ | _ | _ | (_ | _) <;> simp [putSels]

/-- No counterpart in /repo: the piece after all replacements. -/
def done (n : Nat) (p : Piece) : Piece :=
  fillAll .inv n (fillAll .func n (fillAll .sel n (putSels n true (putSels n false
    (fillAll .cls n (putTmpl n true (putTmpl n false (putNum n p))))))))

theorem map_ok {f : Piece → Piece} (hf : ∀ p, p.Ok → (f p).Ok) {t : List Piece} (h : ∀ p ∈ t, p.Ok) : ∀ p ∈ t.map f, p.Ok := by
  intro p hp
  obtain ⟨q, hq, rfl⟩ := List.mem_map.1 hp
  exact hf q (h q hq)

theorem map_all {f : Piece → Piece} {Q : Piece → Prop} (hf : ∀ p, Q (f p)) {t : List Piece} : ∀ p ∈ t.map f, Q p := by
  intro p hp
  obtain ⟨q, _, rfl⟩ := List.mem_map.1 hp
  exact hf q

theorem print_done (n : Nat) (t : List Piece) (ht : ∀ p ∈ t, p.Ok) : printVarArgs (written t) n = written (t.map (done n)) := by
  unfold printVarArgs steps
  simp only [List.foldl_append, List.foldl_cons, List.foldl_nil]
  have h1 := map_ok (f := putNum n) (fun _ h => putNum_ok h) ht
  have h2 := map_ok (f := putTmpl n false) (fun _ h => putTmpl_ok h) h1
  have h3 := map_ok (f := putTmpl n true) (fun _ h => putTmpl_ok h) h2
  have h4 := map_ok (f := fillAll .cls n) (fun _ h => fillAll_ok h) h3
  have h5 := map_ok (f := putSels n false) (fun _ h => putSels_ok h) h4
  have h6 := map_ok (f := putSels n true) (fun _ h => putSels_ok h) h5
  have h7 := map_ok (f := fillAll .sel n) (fun _ h => fillAll_ok h) h6
  have h8 := map_ok (f := fillAll .func n) (fun _ h => fillAll_ok h) h7
  rw [step_num n t ht, step_tmpl0 n _ h1, step_tmpl1 n _ h2, steps_list .cls (by decide) n _ h3, step_sels0 n _ h4, step_sels1 n _ h5,
    steps_list .sel (by decide) n _ h6, steps_list .func (by decide) n _ h7, steps_list .inv (by decide) n _ h8]
  · simp only [List.map_map]; rfl
  · exact fun _ _ => ⟨fun k => Dir.noConfusion k, fun k => Dir.noConfusion k⟩
  · exact fun _ _ => ⟨fun k => Dir.noConfusion k, fun k => Dir.noConfusion k⟩
  · rw [List.map_map]
    exact map_all (Q := Gone .sel) (fun p => ⟨fun k => Dir.noConfusion k, fun _ => putSels_gone p⟩)
  · exact map_all (Q := fun p => p ≠ .sels false) (fun p => by
      rcases p with _ | _ | _ | _ | (_ | _) <;> simp [putSels])
  · rw [List.map_map]
    exact map_all (Q := Gone .cls) (fun p => ⟨fun _ => putTmpl_gone p, fun k => by cases k⟩)
  · exact map_all (Q := fun p => p ≠ .tmpl false) (fun p => by
      rcases p with _ | _ | _ | (_ | _) | _ <;> simp [putTmpl])

theorem fill_means {d : Dir} {n : Nat} (is : List Item) : (is.flatMap (fill d n)).flatMap (Item.means n) = is.flatMap (Item.means n) := by
  induction is with
  | nil => rfl
  | cons i is ih =>
    rw [List.flatMap_cons, List.flatMap_append, ih, List.flatMap_cons]
    congr 1
    unfold fill
    split
    · rename_i e; subst e
      simp only [filled, List.flatMap_map, Item.means]
      rw [← List.flatMap_singleton' ((fromTo 1 n).map (entry d)), List.flatMap_map]
    · simp

theorem texts_means {n : Nat} {is : List Item} (h : ∀ e, Item.dir e ∉ is) : is.flatMap (Item.means n) = is.map Item.show := by
  induction is with
  | nil => rfl
  | cons i is ih =>
    rw [List.flatMap_cons, ih (fun e m => h e (List.mem_cons_of_mem _ m)), List.map_cons]
    cases i with
    | text w => rfl
    | dir e => exact absurd List.mem_cons_self (h e)

theorem fill_keeps {d e : Dir} {n : Nat} {is : List Item} (h : Item.dir e ∉ is) : Item.dir e ∉ is.flatMap (fill d n) := by
  intro m
  obtain ⟨i, hi, m⟩ := List.mem_flatMap.1 m
  unfold fill at m
  split at m
  · exact filled_no _ _ _ m
  · exact h ((List.mem_singleton.1 m) ▸ hi)

theorem done_means (n : Nat) (p : Piece) (hp : p.Ok) : (done n p).show = p.means n := by
  cases p with
  | text w => rfl
  | num => rfl
  | list b items =>
    have hn : Item.dir .num ∉ items := fun m => hp.1 _ m rfl
    show opening b :: (joined [',', ' '] (((((items.flatMap (fill .cls n)).flatMap (fill .sel n)).flatMap (fill .func n)).flatMap
      (fill .inv n)).map Item.show) ++ [closing b]) = _
    rw [Piece.means, ← fill_means (d := .cls) items, ← fill_means (d := .sel), ← fill_means (d := .func), ← fill_means (d := .inv), texts_means]
    intro e
    cases e with
    | num => exact fill_keeps (fill_keeps (fill_keeps (fill_keeps hn)))
    | cls => exact fill_keeps (fill_keeps (fill_keeps (fill_no _ _ _)))
    | sel => exact fill_keeps (fill_keeps (fill_no _ _ _))
    | func => exact fill_keeps (fill_no _ _ _)
    | inv => exact fill_no _ _ _
  | tmpl b =>
    rw [Piece.means, joined_entries]
    cases b <;> rfl
  | sels b =>
    rw [Piece.means, joined_entries]
    cases b <;> rfl

theorem print_means (n : Nat) (t : List Piece) (ht : ∀ p ∈ t, p.Ok) : printVarArgs (written t) n = means n t := by
  rw [print_done n t ht, written, means, List.flatMap_map]
  induction t with
  | nil => rfl
  | cons p t ih =>
    rw [List.flatMap_cons, List.flatMap_cons, ih (fun q hq => ht q (List.mem_cons_of_mem _ hq)), done_means n p (ht p List.mem_cons_self)]

end Verif.Hopter
