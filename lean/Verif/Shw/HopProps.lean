import Verif.Shw.HopSteps
/-
C99: what `shworker hopter` makes of a file (core/sourcehook/generate/shworker/fd_hopter.cpp, shworker.cpp:747-754).
-/
namespace Verif.Hopter
open Verif.Shw

/-! ### Specification of files -/

/-- Specification: a line that fits into the buffer of 5000 characters, with its end. No counterpart in /repo. -/
def Line (l : List Char) : Prop := ∃ x, l = x ++ ['\n'] ∧ '\n' ∉ x ∧ x.length ≤ 4998

/-- Specification: a part of a file: a line, or lines between the markers that are a template.  No counterpart in /repo. -/
inductive Part
  | line (l : List Char)
  | block (head : List Char) (lines : List (List Char)) (t : List Piece) (foot : List Char)

/-- Specification: how a part is written. No counterpart in /repo. -/
def Part.text : Part → List Char
  | .line l => l
  | .block head lines _ foot => head ++ (lines.flatten ++ foot)

/-- Specification: lines are lines; markers are where they ought to be and nowhere else; the lines between them are the template.
No counterpart in /repo. -/
def Part.Ok : Part → Prop
  | .line l => Line l ∧ ¬ varargs <+: l
  | .block head lines t foot =>
    Line head ∧ varargs <+: head ∧ Line foot ∧ endvar <+: foot ∧ (∀ l ∈ lines, Line l ∧ ¬ endvar <+: l) ∧ lines.flatten = written t ∧
      ∀ p ∈ t, p.Ok

/-- Specification: what a part becomes, if texts for up to `max` parameters are asked for: a block becomes what its template stands for
with no parameter, with one, and so on, each behind a remark.  No counterpart in /repo. -/
def Part.means (max : Int) : Part → List Char
  | .line l => l
  | .block _ _ t _ => (List.range (max + 1).toNat).flatMap fun k => ['/', '/', 'N', '='] ++ decimal k ++ ['\n'] ++ Hopter.means k t

/-! ### Lemmas -/

theorem fgets_line : ∀ (x : List Char) (k : Nat) (s : List Char), '\n' ∉ x → x.length < k →
    fgets k (x ++ ('\n' :: s)) = (x ++ ['\n'], s, false) := by
  intro x
  induction x with
  | nil =>
    intro k s _ hk
    cases k with
    | zero => exact absurd hk (Nat.not_lt_zero _)
    | succ k => simp [fgets]
  | cons c x ih =>
    intro k s hn hk
    cases k with
    | zero => exact absurd hk (Nat.not_lt_zero _)
    | succ k =>
      have hc : c ≠ '\n' := fun e => hn (e ▸ List.mem_cons_self)
      rw [List.cons_append, fgets, if_neg hc, ih k s (fun m => hn (List.mem_cons_of_mem _ m)) (Nat.lt_of_succ_lt_succ hk)]
      rfl

theorem line_read {l : List Char} (h : Line l) (s : List Char) : fgets 4999 (l ++ s) = (l, s, false) := by
  obtain ⟨x, rfl, h1, h2⟩ := h
  rw [List.append_assoc]
  exact fgets_line x 4999 s h1 (Nat.lt_succ_of_le h2)

theorem line_ne {l : List Char} (h : Line l) : l ≠ [] := by
  obtain ⟨x, rfl, _⟩ := h
  simp

theorem not_starts {p l : List Char} (h : ¬ p <+: l) : ¬ startsWith p l = true := fun k => h ((startsWith_iff p l).1 k)

theorem collect_line {l : List Char} (h : Line l) (hn : ¬ endvar <+: l) (s buf acc : List Char) :
    collect (l ++ s) false buf acc = collect s false l (acc ++ l) := by
  rw [collect_false, line_read h s]
  dsimp only
  rw [if_neg (line_ne h), if_neg (not_starts hn)]

theorem collect_lines : ∀ (lines : List (List Char)), (∀ l ∈ lines, Line l ∧ ¬ endvar <+: l) → ∀ (s buf acc : List Char), ¬ endvar <+: buf →
    ∃ buf', ¬ endvar <+: buf' ∧ collect (lines.flatten ++ s) false buf acc = collect s false buf' (acc ++ lines.flatten) := by
  intro lines
  induction lines with
  | nil => intro _ s buf acc hb; exact ⟨buf, hb, by simp⟩
  | cons l ls ih =>
    intro h s buf acc _
    obtain ⟨h1, h2⟩ := h l List.mem_cons_self
    obtain ⟨b, hb, e⟩ := ih (fun k hk => h k (List.mem_cons_of_mem _ hk)) s l (acc ++ l) h2
    refine ⟨b, hb, ?_⟩
    rw [List.flatten_cons, List.append_assoc, collect_line h1 h2, e]
    simp

theorem head_not_end {l : List Char} (h : varargs <+: l) : ¬ endvar <+: l := by
  intro k
  obtain ⟨t, rfl⟩ := h
  have := (List.cons_prefix_cons.1 k).2
  exact absurd (List.cons_prefix_cons.1 this).1 (by decide)

theorem action_nil (max : Int) : action max [] = ([], 0) := by
  rw [action, dif_pos (by decide)]

theorem action_line {l : List Char} (h : Line l) (hn : ¬ varargs <+: l) (max : Int) (s : List Char) :
    action max (l ++ s) = (l ++ (action max s).1, (action max s).2) := by
  rw [action]
  simp only [line_read h s]
  rw [dif_neg (line_ne h), if_neg (not_starts hn)]

theorem action_block {l b s' : List Char} (h : Line l) (hn : varargs <+: l) (max : Int) (s : List Char)
    (hc : collect s false l [] = some (b, s')) : action max (l ++ s) = (expansions max b ++ (action max s').1, (action max s').2) := by
  rw [action]
  simp only [line_read h s]
  rw [dif_neg (line_ne h), if_pos ((startsWith_iff _ _).2 hn)]
  split
  · rename_i e; rw [line_read h s, hc] at e; cases e
  · rename_i e; rw [line_read h s, hc] at e; cases e; rfl

theorem action_open {l : List Char} (h : Line l) (hn : varargs <+: l) (max : Int) (s : List Char) (hc : collect s false l [] = none) :
    action max (l ++ s) = ([], 1) := by
  rw [action]
  simp only [line_read h s]
  rw [dif_neg (line_ne h), if_pos ((startsWith_iff _ _).2 hn)]
  split
  · rfl
  · rename_i e; rw [line_read h s, hc] at e; cases e

theorem action_part {p : Part} (h : p.Ok) (max : Int) (s : List Char) :
    action max (p.text ++ s) = (p.means max ++ (action max s).1, (action max s).2) := by
  cases p with
  | line l => exact action_line h.1 h.2 max s
  | block head lines t foot =>
    obtain ⟨h1, h2, h3, h4, h5, h6, h7⟩ := h
    have hc : collect (lines.flatten ++ (foot ++ s)) false head [] = some (lines.flatten, s) := by
      obtain ⟨b, _, e⟩ := collect_lines lines h5 (foot ++ s) head [] (head_not_end h2)
      rw [e, collect_false, line_read h3 s]
      dsimp only
      rw [if_neg (line_ne h3), if_pos ((startsWith_iff _ _).2 h4)]
      rfl
    have he : expansions max lines.flatten = (Part.block head lines t foot).means max := by
      rw [h6]
      unfold expansions Part.means
      congr 1
      funext k
      rw [print_means k t h7]
    rw [← he, show (Part.block head lines t foot).text ++ s = head ++ (lines.flatten ++ (foot ++ s)) by simp [Part.text]]
    exact action_block h1 h2 max _ hc

theorem action_parts (max : Int) (s : List Char) : ∀ (f : List Part), (∀ p ∈ f, p.Ok) →
    action max (f.flatMap Part.text ++ s) = (f.flatMap (Part.means max) ++ (action max s).1, (action max s).2) := by
  intro f
  induction f with
  | nil => intro _; rfl
  | cons p f ih =>
    intro h
    rw [List.flatMap_cons, List.append_assoc, action_part (h p List.mem_cons_self), ih (fun q hq => h q (List.mem_cons_of_mem _ hq))]
    simp

theorem fgets_last : ∀ (x : List Char) (k : Nat), '\n' ∉ x → x.length ≤ k → (fgets k x).1 = x ∧ (fgets k x).2.1 = [] := by
  intro x
  induction x with
  | nil => intro k _ _; cases k <;> exact ⟨rfl, rfl⟩
  | cons c x ih =>
    intro k hn hk
    cases k with
    | zero => simp at hk
    | succ k =>
      have hc : c ≠ '\n' := fun e => hn (e ▸ List.mem_cons_self)
      obtain ⟨e1, e2⟩ := ih k (fun m => hn (List.mem_cons_of_mem _ m)) (Nat.le_of_succ_le_succ hk)
      rw [fgets, if_neg hc]
      exact ⟨by show c :: (fgets k x).1 = _; rw [e1], e2⟩

theorem action_last {x : List Char} (hn : '\n' ∉ x) (hl : x.length ≤ 4999) (hv : ¬ varargs <+: x) (max : Int) : action max x = (x, 0) := by
  obtain ⟨e1, e2⟩ := fgets_last x 4999 hn hl
  rw [action]
  by_cases h : x = []
  · subst h; rw [dif_pos e1]
  · rw [dif_neg (by rw [e1]; exact h), if_neg (by rw [e1]; exact not_starts hv), e1, e2, action_nil]
    simp

/-! ### The examples of the comments in the program -/

/-- No counterpart in /repo: for examples. -/
def s (x : String) : List Char := x.toList

/-- The example of the comment, core/sourcehook/generate/shworker/fd_hopter.cpp:238-245, without its lines in between. -/
def exInvoker : List Piece :=
  [.text (s "template"), .list false [.text (s " typename FunctionPtr"), .text (s "typename R"), .dir .cls], .text (s "struct get_function_invoker"),
   .num, .text (s "{ function_invoker"), .num, .list false [.text (s "FunctionPtr,R"), .dir .sel], .text (s "};")]

/-- The example of the comment, core/sourcehook/generate/shworker/fd_hopter.cpp:44-58. -/
def exClass : List Piece :=
  [.tmpl true, .text (s " class SomeClass { SomeClass"), .sels false, .text (s " somefunc"), .list true [.dir .func], .text (s " { f"),
   .list true [.text (s "this"), .dir .inv, .text (s "0")], .text (s "; }\n")]

/-! ### Theorems -/

/-- The texts written for `n` parameters are what the template stands for, for every number of parameters and every template of
texts, numbers, bracketed lists with directives in any place, heads and choices: each directive in a list becomes the entries it stands
for, the list stays a list with its entries separated by one comma and one blank, wherever the directive stands and however few
parameters there are, and heads and choices vanish if there are none. -/
theorem template_filled (n : Nat) (t : List Piece) (ht : ∀ p ∈ t, p.Ok) : printVarArgs (written t) n = means n t := print_means n t ht

example : (∀ p ∈ exInvoker, p.Ok) ∧ ∀ p ∈ exClass, p.Ok := by
  constructor <;> simp [exInvoker, exClass, Piece.Ok, Item.Ok, s]

example : written exClass = s "template <@CLASSARGS> class SomeClass { SomeClass<@SELARGS> somefunc(@FUNCARGS) { f(this, @INVOKEARGS, 0); }\n" ∧
    means 2 exClass = s ("template<class Param1, class Param2> class SomeClass { SomeClass<Param1, Param2> somefunc(Param1 p1, Param2 p2) " ++
      "{ f(this, p1, p2, 0); }\n") ∧
    means 0 exClass = s " class SomeClass { SomeClass somefunc() { f(this, 0); }\n" := by
  refine ⟨by decide +kernel, by decide +kernel, by decide +kernel⟩

example : means 0 exInvoker = s "template< typename FunctionPtr, typename R>struct get_function_invoker0{ function_invoker0<FunctionPtr,R>};" := by
  decide +kernel

/-- A file of lines and blocks is copied, with each block in place of which there is its template filled in for all numbers of parameters
up to the one asked for; the program reports success.  The last line need not have an end. -/
theorem file_filled (max : Int) (f : List Part) (last : List Char) (hf : ∀ p ∈ f, p.Ok) (hn : '\n' ∉ last) (hl : last.length ≤ 4999)
    (hv : ¬ varargs <+: last) : action max (f.flatMap Part.text ++ last) = (f.flatMap (Part.means max) ++ last, 0) := by
  rw [action_parts max last f hf, action_last hn hl hv]

/-- A block without end: what is in front of it is written, nothing of the block is, and the program reports failure. -/
theorem file_open (max : Int) (f : List Part) (head : List Char) (lines : List (List Char)) (hf : ∀ p ∈ f, p.Ok) (hh : Line head)
    (hv : varargs <+: head) (hl : ∀ l ∈ lines, Line l ∧ ¬ endvar <+: l) :
    action max (f.flatMap Part.text ++ (head ++ lines.flatten)) = (f.flatMap (Part.means max), 1) := by
  have hc : collect lines.flatten false head [] = none := by
    obtain ⟨b, hb, e⟩ := collect_lines lines hl [] head [] (head_not_end hv)
    rw [List.append_nil] at e
    rw [e, collect_false, if_neg, show (fgets 4999 []).2.2 = true from rfl, collect_true]
    rw [show (fgets 4999 []).1 = [] from rfl, if_pos rfl]
    exact not_starts hb
  rw [action_parts max _ f hf, action_open hh hv max _ hc]
  simp

/-- No counterpart in /repo: for examples. -/
def exFile : List Part :=
  [.line (s "// generated\n"), .block (s "@VARARGS\n") [written exClass] exClass (s "@ENDVAR\n")]

theorem line_of {x : List Char} (h : (decide ('\n' ∉ x) && decide (x.length ≤ 4998)) = true) : Line (x ++ ['\n']) := by
  rw [Bool.and_eq_true] at h
  exact ⟨x, rfl, of_decide_eq_true h.1, of_decide_eq_true h.2⟩

example : (∀ p ∈ exFile, p.Ok) ∧ '\n' ∉ s "// end" ∧ (s "// end").length ≤ 4999 ∧ ¬ varargs <+: s "// end" := by
  refine ⟨?_, by decide, by decide, by decide⟩
  intro p hp
  rcases List.mem_cons.1 hp with rfl | hp
  · exact ⟨line_of (x := s "// generated") (by decide +kernel), by decide⟩
  · rw [List.mem_singleton.1 hp]
    refine ⟨line_of (x := s "@VARARGS") (by decide +kernel), by decide, line_of (x := s "@ENDVAR") (by decide +kernel), by decide, ?_, ?_, ?_⟩
    · intro l hl
      rw [List.mem_singleton.1 hl]
      have e : written exClass = (written exClass).dropLast ++ ['\n'] := by decide +kernel
      exact ⟨by rw [e]; exact line_of (by decide +kernel), by decide +kernel⟩
    · simp
    · simp [exClass, Piece.Ok, Item.Ok, s]

example : Line (s "@VARARGS\n") ∧ varargs <+: s "@VARARGS\n" ∧ ∀ l ∈ [s "x\n"], Line l ∧ ¬ endvar <+: l := by
  refine ⟨line_of (x := s "@VARARGS") (by decide +kernel), by decide, ?_⟩
  intro l hl
  rw [List.mem_singleton.1 hl]
  exact ⟨line_of (x := s "x") (by decide +kernel), by decide⟩

theorem keep_other {x y r u v : List Char} {d e : Dir} (P : PatOk u e v) (hx : '@' ∉ x) (hy : '@' ∉ y)
    (h : e = d → v <+: y → u ≠ [] ∧ ¬ u <:+ x) : replace (pat u e v) r (x ++ (d.tag ++ y)) = x ++ (d.tag ++ y) := by
  have hs : Apart u (e.name ++ v) y := by
    have := apart_text (u := u) (q := e.name ++ v) hy (apart_nil _ _)
    rwa [List.append_nil] at this
  have hr : replace (pat u e v) r y = y := by
    have := replace_text (u := u) (v := v) (r := r) (d := e) P.noAt hy (apart_nil _ _)
    rwa [List.append_nil, replace_nil (pat_ne _ _ _), List.append_nil] at this
  rw [keep_tag P.noAt hx h hs, hr]

theorem keep_others {x y : List Char} {d e : Dir} (n : Nat) (hx : '@' ∉ x) (hy : '@' ∉ y) (h : e ≠ d) :
    (listSteps e n).foldl (fun s x => replace x.1 x.2 s) (x ++ (d.tag ++ y)) = x ++ (d.tag ++ y) := by
  have e0 : [','] ++ e.tag = pat [','] e [] := by simp [pat, Dir.tag]
  have e1 : [',', ' '] ++ e.tag = pat [',', ' '] e [] := by simp [pat, Dir.tag]
  have e4 : e.tag = pat [] e [] := by simp [pat, Dir.tag]
  simp only [listSteps, List.foldl_cons, List.foldl_nil]
  rw [e0, keep_other (patOk (by decide) (.inl (by decide))) hx hy (fun k => absurd k h), e1,
    keep_other (patOk (by decide) (.inl (by decide))) hx hy (fun k => absurd k h), show e.tag ++ [',', ' '] = pat [] e [',', ' '] from rfl,
    keep_other (patOk (by decide) (.inl (by decide))) hx hy (fun k => absurd k h), show e.tag ++ [','] = pat [] e [','] from rfl,
    keep_other (patOk (by decide) (.inl (by decide))) hx hy (fun k => absurd k h), e4,
    keep_other (patOk (by decide) (.inl (by decide))) hx hy (fun k => absurd k h)]

theorem gone_tag {y : List Char} (r : List Char) {e : Dir} {u v : List Char} (P : PatOk u e v) (hy : '@' ∉ y) : replace (pat u e v) r y = y := by
  have := replace_text (u := u) (v := v) (r := r) (d := e) P.noAt hy (apart_nil _ _)
  rwa [List.append_nil, replace_nil (pat_ne _ _ _), List.append_nil] at this

theorem gone_tags {y : List Char} (e : Dir) (n : Nat) (hy : '@' ∉ y) : (listSteps e n).foldl (fun s x => replace x.1 x.2 s) y = y := by
  have e0 : [','] ++ e.tag = pat [','] e [] := by simp [pat, Dir.tag]
  have e1 : [',', ' '] ++ e.tag = pat [',', ' '] e [] := by simp [pat, Dir.tag]
  have e4 : e.tag = pat [] e [] := by simp [pat, Dir.tag]
  simp only [listSteps, List.foldl_cons, List.foldl_nil]
  rw [e0, gone_tag _ (patOk (by decide) (.inl (by decide))) hy, e1, gone_tag _ (patOk (by decide) (.inl (by decide))) hy,
    show e.tag ++ [',', ' '] = pat [] e [',', ' '] from rfl, gone_tag _ (patOk (by decide) (.inl (by decide))) hy,
    show e.tag ++ [','] = pat [] e [','] from rfl, gone_tag _ (patOk (by decide) (.inl (by decide))) hy, e4,
    gone_tag _ (patOk (by decide) (.inl (by decide))) hy]

/-- Finding: only `,` and `, ` in front of a directive, and `,` behind it, go away with it: in front of `@FUNCARGS` and `@INVOKEARGS`
any other text stays as it is, whatever the number of parameters.  So a comma with two blanks or the end of a line behind it stays where
no entry follows. -/
theorem other_blanks_stay (n : Nat) (d : Dir) (hd : d = .func ∨ d = .inv) (x y : List Char) (hx : '@' ∉ x) (hy : '@' ∉ y)
    (h1 : ¬ [','] <:+ x) (h2 : ¬ [',', ' '] <:+ x) (h3 : ¬ [','] <+: y) :
    printVarArgs (x ++ (d.tag ++ y)) n = x ++ (joined [',', ' '] ((fromTo 1 n).map (entry d)) ++ y) := by
  have hn : ∀ e : Dir, e = .num ∨ e = .cls ∨ e = .sel → e ≠ d := by
    rintro e (rfl | rfl | rfl) <;> rcases hd with rfl | rfl <;> decide
  have h3' : ¬ [',', ' '] <+: y := fun k => h3 ((show [','] <+: [',', ' '] from ⟨[' '], rfl⟩).trans k)
  have hown : (listSteps d n).foldl (fun s x => replace x.1 x.2 s) (x ++ (d.tag ++ y)) = x ++ (entries d n ++ y) := by
    have e0 : [','] ++ d.tag = pat [','] d [] := by simp [pat, Dir.tag]
    have e1 : [',', ' '] ++ d.tag = pat [',', ' '] d [] := by simp [pat, Dir.tag]
    have e4 : d.tag = pat [] d [] := by simp [pat, Dir.tag]
    have P4 : PatOk [] d [] := patOk (by decide) (.inl (by decide))
    simp only [listSteps, List.foldl_cons, List.foldl_nil]
    rw [e0, keep_other (patOk (by decide) (.inl (by decide))) hx hy (fun _ _ => ⟨by decide, h1⟩), e1,
      keep_other (patOk (by decide) (.inl (by decide))) hx hy (fun _ _ => ⟨by decide, h2⟩), show d.tag ++ [',', ' '] = pat [] d [',', ' '] from rfl,
      keep_other (patOk (by decide) (.inl (by decide))) hx hy (fun _ k => absurd k h3'), show d.tag ++ [','] = pat [] d [','] from rfl,
      keep_other (patOk (by decide) (.inl (by decide))) hx hy (fun _ k => absurd k h3), e4,
      replace_text P4.noAt hx (apart_empty _ _), replace_hit (pat_ne _ _ _), gone_tag _ P4 hy]
  have hz : '@' ∉ x ++ (entries d n ++ y) := by
    have := entries_noAt d n
    simp [hx, hy, this]
  rw [joined_entries]
  unfold printVarArgs steps
  simp only [List.foldl_append, List.foldl_cons, List.foldl_nil]
  rw [show Dir.num.tag = pat [] .num [] from rfl,
    keep_other (patOk (by decide) (.inl (by decide))) hx hy (fun k => absurd k (hn _ (.inl rfl))),
    show templ ++ ['<'] ++ Dir.cls.tag ++ ['>'] = pat (templ ++ ['<']) .cls ['>'] by decide,
    keep_other (patOk (by decide) (.inr ⟨rfl, rfl⟩)) hx hy (fun k => absurd k (hn _ (.inr (.inl rfl)))),
    show templ ++ [' ', '<'] ++ Dir.cls.tag ++ ['>'] = pat (templ ++ [' ', '<']) .cls ['>'] by decide,
    keep_other (patOk (by decide) (.inr ⟨rfl, rfl⟩)) hx hy (fun k => absurd k (hn _ (.inr (.inl rfl)))),
    keep_others n hx hy (hn _ (.inr (.inl rfl))),
    show ['<'] ++ Dir.sel.tag ++ ['>'] = pat ['<'] .sel ['>'] by decide,
    keep_other (patOk (by decide) (.inl (by decide))) hx hy (fun k => absurd k (hn _ (.inr (.inr rfl)))),
    show ['<', ' '] ++ Dir.sel.tag ++ [' ', '>'] = pat ['<', ' '] .sel [' ', '>'] by decide,
    keep_other (patOk (by decide) (.inl (by decide))) hx hy (fun k => absurd k (hn _ (.inr (.inr rfl)))),
    keep_others n hx hy (hn _ (.inr (.inr rfl)))]
  rcases hd with rfl | rfl
  · rw [hown, gone_tags _ _ hz]
  · rw [keep_others n hx hy (by decide), hown]

example : ('@' ∉ s "f(this,  " ∧ '@' ∉ s ");" ∧ ¬ [','] <:+ s "f(this,  " ∧ ¬ [',', ' '] <:+ s "f(this,  " ∧ ¬ [','] <+: s ");") ∧
    s "f(this,  " ++ (joined [',', ' '] ((fromTo 1 0).map (entry .inv)) ++ s ");") = s "f(this,  );" := by
  refine ⟨⟨by decide, by decide, ?_, ?_, by decide⟩, by decide⟩
  · exact not_suffix (by decide)
  · exact not_suffix (by decide)

theorem lower_iff (c : Char) (n : Nat) (h1 : 97 ≤ n) (h2 : n ≤ 122) :
    lower c = Char.ofNat n ↔ c = Char.ofNat n ∨ c = Char.ofNat (n - 32) := by
  have hv : ∀ m, m < 200 → (Char.ofNat m).toNat = m := fun m hm => by
    have hvalid : m.isValidChar := Or.inl (by omega)
    unfold Char.ofNat
    rw [dif_pos hvalid]; rfl
  have ext : ∀ a b : Char, a = b ↔ a.toNat = b.toNat := fun a b => ⟨fun h => by rw [h], fun h => Char.ext (UInt32.toNat_inj.1 h)⟩
  have hA : ('A' ≤ c) ↔ 65 ≤ c.toNat := Iff.rfl
  have hZ : (c ≤ 'Z') ↔ c.toNat ≤ 90 := Iff.rfl
  unfold lower
  rw [ext c, ext c, hv n (by omega), hv (n - 32) (by omega)]
  split
  · next h => rw [hA, hZ] at h; rw [ext, hv _ (by omega), hv n (by omega)]; omega
  · next h => rw [hA, hZ] at h; rw [ext, hv n (by omega)]; omega

/-- Specification: the word `hopter` in letters of either case. -/
def IsHopter (w : List Char) : Prop :=
  ∃ a b c d e f, w = [a, b, c, d, e, f] ∧ (a = 'h' ∨ a = 'H') ∧ (b = 'o' ∨ b = 'O') ∧ (c = 'p' ∨ c = 'P') ∧
    (d = 't' ∨ d = 'T') ∧ (e = 'e' ∨ e = 'E') ∧ (f = 'r' ∨ f = 'R')

theorem lower_hopter (w : List Char) : w.map lower = ['h', 'o', 'p', 't', 'e', 'r'] ↔ IsHopter w := by
  have l : ∀ c, (lower c = 'h' ↔ c = 'h' ∨ c = 'H') ∧ (lower c = 'o' ↔ c = 'o' ∨ c = 'O') ∧ (lower c = 'p' ↔ c = 'p' ∨ c = 'P') ∧
      (lower c = 't' ↔ c = 't' ∨ c = 'T') ∧ (lower c = 'e' ↔ c = 'e' ∨ c = 'E') ∧ (lower c = 'r' ↔ c = 'r' ∨ c = 'R') := fun c =>
    ⟨lower_iff c 104 (by decide) (by decide), lower_iff c 111 (by decide) (by decide), lower_iff c 112 (by decide) (by decide),
      lower_iff c 116 (by decide) (by decide), lower_iff c 101 (by decide) (by decide), lower_iff c 114 (by decide) (by decide)⟩
  constructor
  · intro h
    have hlen : w.length = 6 := by have := congrArg List.length h; simpa using this
    match w, hlen, h with
    | [a, b, c, d, e, f], _, h =>
      simp only [List.map, List.cons.injEq, and_true] at h
      obtain ⟨h1, h2, h3, h4, h5, h6⟩ := h
      exact ⟨a, b, c, d, e, f, rfl, (l a).1.1 h1, (l b).2.1.1 h2, (l c).2.2.1.1 h3, (l d).2.2.2.1.1 h4, (l e).2.2.2.2.1.1 h5,
        (l f).2.2.2.2.2.1 h6⟩
  · rintro ⟨a, b, c, d, e, f, rfl, h1, h2, h3, h4, h5, h6⟩
    simp only [List.map, List.cons.injEq, and_true]
    exact ⟨(l a).1.2 h1, (l b).2.1.2 h2, (l c).2.2.1.2 h3, (l d).2.2.2.1.2 h4, (l e).2.2.2.2.1.2 h5, (l f).2.2.2.2.2.2 h6⟩

/-- Finding: the program reads a number from a null pointer exactly if it is called with `hopter`, in letters of either case, and the names
of two files alone, which it takes for enough. -/
theorem no_number_ub (atoi : List Char → Int) (argv : List (List Char)) :
    main atoi argv = .error .ub ↔ ∃ prog act fin fout, argv = [prog, act, fin, fout] ∧ IsHopter act := by
  simp only [← lower_hopter]
  unfold main
  constructor
  · intro h
    split at h
    · rename_i prog act fin fout more
      split at h
      · rename_i ha
        cases more with
        | nil => exact ⟨prog, act, fin, fout, rfl, ha⟩
        | cons a more => cases h
      · split at h <;> cases h
    · cases h
  · rintro ⟨prog, act, fin, fout, rfl, ha⟩
    simp [ha]

example : IsHopter (s "Hopter") := ⟨'H', 'o', 'p', 't', 'e', 'r', by decide, by decide, by decide, by decide, by decide, by decide, by decide⟩

end Verif.Hopter

#print axioms Verif.Hopter.template_filled
#print axioms Verif.Hopter.file_filled
#print axioms Verif.Hopter.file_open
#print axioms Verif.Hopter.other_blanks_stay
#print axioms Verif.Hopter.no_number_ub
