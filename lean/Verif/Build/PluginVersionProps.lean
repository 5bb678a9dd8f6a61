import Verif.Build.PluginVersion
/-
C111: the version of the sample plugin.
-/
namespace Verif.PluginVersion
open Verif.Package (Text occurs)

/-! ### specification -/

/-- Specification: a version as written by hand: text and places to fill. No counterpart in /repo. -/
inductive Piece
  | lit (s : Text)
  | hole (h : Holder)
  deriving DecidableEq, Repr

/-- Specification: a version with some places filled. No counterpart in /repo. -/
def part (f : Holder → Option Text) : List Piece → Text
  | [] => []
  | .lit s :: ps => s ++ part f ps
  | .hole h :: ps => (f h).getD ("{{".toList ++ h.name ++ "}}".toList) ++ part f ps

/-- Specification: the text of a version. No counterpart in /repo. -/
def write (ps : List Piece) : Text := part (fun _ => none) ps

/-- Specification: all places filled at once; `none` if there is no value for one of them. No counterpart in /repo. -/
def fill (val : Holder → Option Text) : List Piece → Option Text
  | [] => some []
  | .lit s :: ps => (fill val ps).map fun r => s ++ r
  | .hole h :: ps => (val h).bind fun x => (fill val ps).map fun r => x ++ r

/-- Specification: text without braces. No counterpart in /repo. -/
def Plain (ps : List Piece) : Prop := ∀ s, .lit s ∈ ps → '{' ∉ s

/-- Specification: a number as git prints it. No counterpart in /repo. -/
def Number (n : Text) : Prop := n ≠ [] ∧ ∀ c ∈ n, isDig c = true

/-- Specification: an abbreviated hash as git prints it. No counterpart in /repo. -/
def Hash (h : Text) : Prop := h ≠ [] ∧ ∀ c ∈ h, isHex c = true

/-! ### helpers -/

private theorem takeWhile_stop {f : Char → Bool} : ∀ {l r : Text} {c : Char}, (∀ x ∈ l, f x = true) → f c = false →
    (l ++ c :: r).takeWhile f = l ∧ (l ++ c :: r).dropWhile f = c :: r
  | [], r, c, _, hc => by simp [hc]
  | x :: l, r, c, h, hc => by
    have := takeWhile_stop (l := l) (r := r) (fun y hy => h y (List.mem_cons_of_mem _ hy)) hc
    simp [h x List.mem_cons_self, this]

private theorem upTo_brace : ∀ {n m r s : Text}, '}' ∉ n → '}' ∉ m → n ++ '}' :: r = m ++ '}' :: s → n = m
  | [], [], _, _, _, _, _ => rfl
  | [], c :: m, _, _, _, hm, h => by
    exact absurd ((List.cons.inj h).1 ▸ List.mem_cons_self) hm
  | c :: n, [], _, _, hn, _, h => by
    exact absurd ((List.cons.inj h).1 ▸ List.mem_cons_self) hn
  | c :: n, d :: m, _, _, hn, hm, h => by
    have hc : c = d := (List.cons.inj h).1
    have ht := (List.cons.inj h).2
    rw [hc, upTo_brace (fun x => hn (List.mem_cons_of_mem _ x)) (fun x => hm (List.mem_cons_of_mem _ x)) ht]

private theorem name_plain (h : Holder) : '{' ∉ h.name ∧ '}' ∉ h.name := by cases h <;> decide

private theorem name_inj {h k : Holder} (e : h.name = k.name) : h = k := by
  cases h <;> cases k <;> first | rfl | exact absurd e (by decide)

private theorem not_pre_other {h k : Holder} (hk : h ≠ k) (r : Text) : (mark h.name).isPrefixOf (mark k.name ++ r) = false := by
  rw [Bool.eq_false_iff]
  intro hp
  rw [List.isPrefixOf_iff_prefix] at hp
  obtain ⟨t, ht⟩ := hp
  apply hk
  apply name_inj
  have h2 : h.name ++ '}' :: ('}' :: t) = k.name ++ '}' :: ('}' :: r) := by
    have := (List.cons.inj (List.cons.inj ht).2).2
    simpa [List.append_assoc] using this
  exact upTo_brace (name_plain h).2 (name_plain k).2 h2

private theorem not_pre_char (n : Text) {c : Char} (hc : c ≠ '{') (r : Text) : (mark n).isPrefixOf (c :: r) = false := by
  unfold mark
  rw [List.isPrefixOf_cons_cons]
  simp [Ne.symm hc]

private theorem not_pre_second (n : Text) {c : Char} (hc : c ≠ '{') (r : Text) : (mark n).isPrefixOf ('{' :: c :: r) = false := by
  unfold mark
  rw [List.isPrefixOf_cons_cons, List.isPrefixOf_cons_cons]
  simp [Ne.symm hc]

private theorem step_no {p v : Text} {c : Char} {s : Text} (h : p.isPrefixOf (c :: s) = false) :
    replaceAll p v (c :: s) = c :: replaceAll p v s ∧ occurs p (c :: s) = occurs p s := by
  constructor
  · rw [replaceAll, h]
    simp
  · rw [occurs, h, Bool.false_or]

private theorem skip_lit (n v : Text) : ∀ (l r : Text), '{' ∉ l → replaceAll (mark n) v (l ++ r) = l ++ replaceAll (mark n) v r ∧
    occurs (mark n) (l ++ r) = occurs (mark n) r
  | [], r, _ => ⟨rfl, rfl⟩
  | c :: l, r, h => by
    have hc : c ≠ '{' := fun e => h (e ▸ List.mem_cons_self)
    have h1 := step_no (v := v) (not_pre_char n hc (l ++ r))
    have h2 := skip_lit n v l r fun hm => h (List.mem_cons_of_mem _ hm)
    rw [List.cons_append, h1.1, h1.2, h2.1, h2.2]
    exact ⟨rfl, rfl⟩

private theorem skip_mark {h k : Holder} (hk : h ≠ k) (v r : Text) :
    replaceAll (mark h.name) v (mark k.name ++ r) = mark k.name ++ replaceAll (mark h.name) v r ∧
      occurs (mark h.name) (mark k.name ++ r) = occurs (mark h.name) r := by
  have hn : '{' ∉ k.name ++ ['}', '}'] := by
    intro hm
    rw [List.mem_append] at hm
    rcases hm with hm | hm
    · exact (name_plain k).1 hm
    · exact absurd hm (by decide)
  have h1 := step_no (v := v) (not_pre_other hk r)
  have h2 : (mark h.name).isPrefixOf ('{' :: ((k.name ++ ['}', '}']) ++ r)) = false := by
    cases hb : k.name ++ ['}', '}'] with
    | nil => exact absurd hb (by simp)
    | cons c b => exact not_pre_second _ (fun e => hn (by rw [hb, e]; exact List.mem_cons_self)) _
  have h3 := step_no (v := v) h2
  have h4 := skip_lit h.name v (k.name ++ ['}', '}']) r hn
  have e : mark k.name ++ r = '{' :: '{' :: ((k.name ++ ['}', '}']) ++ r) := rfl
  constructor
  · calc replaceAll (mark h.name) v (mark k.name ++ r) = '{' :: replaceAll (mark h.name) v ('{' :: ((k.name ++ ['}', '}']) ++ r)) := h1.1
      _ = '{' :: '{' :: ((k.name ++ ['}', '}']) ++ replaceAll (mark h.name) v r) := by rw [h3.1, h4.1]
      _ = _ := rfl
  · calc occurs (mark h.name) (mark k.name ++ r) = occurs (mark h.name) ('{' :: ((k.name ++ ['}', '}']) ++ r)) := h1.2
      _ = _ := by rw [h3.2, h4.2]

private theorem hit (n v r : Text) : replaceAll (mark n) v (mark n ++ r) = v ++ replaceAll (mark n) v r ∧ occurs (mark n) (mark n ++ r) = true := by
  have hp : (mark n).isPrefixOf (mark n ++ r) = true := by
    rw [List.isPrefixOf_iff_prefix]
    exact List.prefix_append _ _
  have e : mark n ++ r = '{' :: (('{' :: (n ++ ['}', '}'])) ++ r) := rfl
  rw [e] at hp ⊢
  constructor
  · rw [replaceAll, if_pos hp]
    congr 2
    have hl : (mark n).length - 1 = ('{' :: (n ++ ['}', '}'])).length := by simp [mark]
    rw [hl, List.drop_left]
  · rw [occurs, hp, Bool.true_or]

/-- Specification: a place filled. No counterpart in /repo. -/
private def upd (f : Holder → Option Text) (h : Holder) (v : Option Text) (k : Holder) : Option Text := if k = h then v else f k

private theorem mark_eq (n : Text) : "{{".toList ++ n ++ "}}".toList = mark n := by
  rw [show "{{".toList = ['{', '{'] from by decide, show "}}".toList = ['}', '}'] from by decide]
  simp [mark]

private theorem part_step {f : Holder → Option Text} {h : Holder} (hf : f h = none) (hc : ∀ k x, f k = some x → '{' ∉ x) (v : Text) :
    ∀ {ps : List Piece}, Plain ps → replaceAll (mark h.name) v (part f ps) = part (upd f h (some v)) ps ∧
      (occurs (mark h.name) (part f ps) = true ↔ .hole h ∈ ps)
  | [], _ => by
    constructor
    · simp [part, replaceAll]
    · simp [part, occurs, mark]
  | .lit s :: ps, hp => by
    have ih := part_step hf hc v (ps := ps) fun s hs => hp s (List.mem_cons_of_mem _ hs)
    have hs := skip_lit h.name v s (part f ps) (hp s List.mem_cons_self)
    constructor
    · rw [part, part, hs.1, ih.1]
    · rw [part, hs.2, ih.2]
      simp
  | .hole k :: ps, hp => by
    have ih := part_step hf hc v (ps := ps) fun s hs => hp s (List.mem_cons_of_mem _ hs)
    by_cases hk : k = h
    · subst hk
      rw [part, part, hf, Option.getD_none, mark_eq]
      have hh := hit k.name v (part f ps)
      constructor
      · rw [hh.1, ih.1]
        simp [upd]
      · rw [hh.2]
        simp
    · have hu : upd f h (some v) k = f k := if_neg hk
      have hm : (Piece.hole h ∈ Piece.hole k :: ps) ↔ Piece.hole h ∈ ps := by
        rw [List.mem_cons]
        constructor
        · rintro (e | e)
          · exact absurd (Piece.hole.inj e).symm hk
          · exact e
        · exact .inr
      rw [part, part, hu, hm]
      cases hfk : f k with
      | none =>
        rw [Option.getD_none, mark_eq]
        have hs := skip_mark (Ne.symm hk) v (part f ps)
        rw [hs.1, hs.2, ih.1]
        exact ⟨rfl, ih.2⟩
      | some x =>
        rw [Option.getD_some]
        have hs := skip_lit h.name v x (part f ps) (hc k x hfk)
        rw [hs.1, hs.2, ih.1]
        exact ⟨rfl, ih.2⟩

private theorem part_absent {f : Holder → Option Text} {h : Holder} {v : Option Text} : ∀ {ps : List Piece}, .hole h ∉ ps →
    part (upd f h v) ps = part f ps
  | [], _ => rfl
  | .lit s :: ps, hn => by rw [part, part, part_absent fun hm => hn (List.mem_cons_of_mem _ hm)]
  | .hole k :: ps, hn => by
    have hk : k ≠ h := fun e => hn (e ▸ List.mem_cons_self)
    rw [part, part, part_absent fun hm => hn (List.mem_cons_of_mem _ hm)]
    simp [upd, hk]

private theorem subst_step {f : Holder → Option Text} {h : Holder} (hf : f h = none) (hc : ∀ k x, f k = some x → '{' ∉ x) (v : Option Text)
    {ps : List Piece} (hp : Plain ps) :
    subst h v (part f ps) = if v = none ∧ .hole h ∈ ps then none else some (part (upd f h v) ps) := by
  have hs := part_step hf hc (v.getD []) hp
  unfold subst
  by_cases hm : Piece.hole h ∈ ps
  · rw [if_pos (hs.2.mpr hm)]
    cases v with
    | none => simp [hm]
    | some x =>
      rw [if_neg (by simp)]
      exact congrArg some hs.1
  · rw [if_neg (fun e => hm (hs.2.mp e)), if_neg (fun e => hm e.2), part_absent hm]

open Classical in
private theorem fill_eq (val : Holder → Option Text) : ∀ ps : List Piece,
    fill val ps = if ∃ h, val h = none ∧ Piece.hole h ∈ ps then none else some (part val ps)
  | [] => by simp [fill, part]
  | .lit s :: ps => by
    have e : (∃ h, val h = none ∧ Piece.hole h ∈ Piece.lit s :: ps) ↔ ∃ h, val h = none ∧ Piece.hole h ∈ ps := by simp
    rw [fill, fill_eq val ps]
    by_cases hx : ∃ h, val h = none ∧ Piece.hole h ∈ ps
    · rw [if_pos hx, if_pos (e.mpr hx)]
      rfl
    · rw [if_neg hx, if_neg (fun y => hx (e.mp y))]
      rfl
  | .hole k :: ps => by
    rw [fill, fill_eq val ps]
    cases hk : val k with
    | none =>
      rw [if_pos (c := ∃ h, val h = none ∧ Piece.hole h ∈ Piece.hole k :: ps) ⟨k, hk, List.mem_cons_self⟩]
      rfl
    | some x =>
      have e : (∃ h, val h = none ∧ Piece.hole h ∈ Piece.hole k :: ps) ↔ ∃ h, val h = none ∧ Piece.hole h ∈ ps := by
        constructor
        · rintro ⟨h, h1, h2⟩
          rw [List.mem_cons] at h2
          rcases h2 with h2 | h2
          · rw [Piece.hole.inj h2, hk] at h1
            exact absurd h1 (by simp)
          · exact ⟨h, h1, h2⟩
        · rintro ⟨h, h1, h2⟩
          exact ⟨h, h1, List.mem_cons_of_mem _ h2⟩
      by_cases hx : ∃ h, val h = none ∧ Piece.hole h ∈ ps
      · rw [if_pos hx, if_pos (e.mpr hx)]
        rfl
      · rw [if_neg hx, if_neg (fun y => hx (e.mp y)), part, hk]
        rfl

private theorem fill_none_iff (val : Holder → Option Text) (ps : List Piece) :
    fill val ps = none ↔ ∃ h, val h = none ∧ Piece.hole h ∈ ps := by
  rw [fill_eq]
  constructor
  · intro h
    refine Classical.byContradiction fun hx => ?_
    rw [if_neg hx] at h
    cases h
  · intro h
    rw [if_pos h]

private theorem upd_clean {f : Holder → Option Text} {h : Holder} {v : Option Text} (hc : ∀ k x, f k = some x → '{' ∉ x)
    (hv : ∀ x, v = some x → '{' ∉ x) : ∀ k x, upd f h v k = some x → '{' ∉ x := by
  intro k x hx
  unfold upd at hx
  split at hx
  · exact hv x hx
  · exact hc k x hx

/-! ### theorems -/

/-- C111: replacing the places one after another fills all of them at once, for every version with any text around them and values without
braces; a place without a value is an error exactly if the version has it. -/
theorem version_filled {val : Holder → Option Text} (hv : ∀ h x, val h = some x → '{' ∉ x) {ps : List Piece} (hp : Plain ps) :
    version val (write ps) = fill val ps := by
  rw [fill_eq]
  unfold version write
  have h0 : ∀ (k : Holder) (x : Text), (fun _ : Holder => (none : Option Text)) k = some x → '{' ∉ x := fun _ _ h => absurd h (by simp)
  rw [subst_step rfl h0 _ hp]
  by_cases c1 : val .short = none ∧ Piece.hole .short ∈ ps
  · rw [if_pos c1, if_pos ⟨_, c1⟩]; rfl
  rw [if_neg c1, Option.bind_eq_bind, Option.bind_some]
  have h1 := upd_clean (h := .short) h0 (hv .short)
  rw [subst_step (by simp [upd]) h1 _ hp]
  by_cases c2 : val .long = none ∧ Piece.hole .long ∈ ps
  · rw [if_pos c2, if_pos ⟨_, c2⟩]; rfl
  rw [if_neg c2, Option.bind_some]
  have h2 := upd_clean (h := .long) h1 (hv .long)
  rw [subst_step (by simp [upd]) h2 _ hp]
  by_cases c3 : val .count = none ∧ Piece.hole .count ∈ ps
  · rw [if_pos c3, if_pos ⟨_, c3⟩]; rfl
  rw [if_neg c3, Option.bind_some]
  have h3 := upd_clean (h := .count) h2 (hv .count)
  rw [subst_step (by simp [upd]) h3 _ hp]
  by_cases c4 : val .tag = none ∧ Piece.hole .tag ∈ ps
  · rw [if_pos c4, if_pos ⟨_, c4⟩]; rfl
  rw [if_neg c4, Option.bind_some]
  have h4 := upd_clean (h := .tag) h3 (hv .tag)
  rw [subst_step (by simp [upd]) h4 _ hp]
  by_cases c5 : val .after = none ∧ Piece.hole .after ∈ ps
  · rw [if_pos c5, if_pos ⟨_, c5⟩]
  rw [if_neg c5, if_neg]
  · congr 2
    funext k
    cases k <;> simp [upd]
  · rintro ⟨h, e⟩
    cases h
    · exact c1 e
    · exact c2 e
    · exact c3 e
    · exact c4 e
    · exact c5 e

/-- C111: from what `git describe` prints behind a tag, the tag and the number of commits are recovered, whatever the tag. -/
theorem tag_recovered {tag n h : Text} (ht : tag ≠ []) (hn : Number n) (hh : Hash h) :
    parseTag (tag ++ '-' :: n ++ '-' :: 'g' :: h) = (tag, n) := by
  have e : (tag ++ '-' :: n ++ '-' :: 'g' :: h).reverse = h.reverse ++ 'g' :: ('-' :: (n.reverse ++ '-' :: tag.reverse)) := by simp
  have h1 := takeWhile_stop (f := isHex) (l := h.reverse) (r := '-' :: (n.reverse ++ '-' :: tag.reverse)) (c := 'g')
    (fun x hx => hh.2 x (List.mem_reverse.mp hx)) (by decide)
  have h2 := takeWhile_stop (f := isDig) (l := n.reverse) (r := tag.reverse) (c := '-') (fun x hx => hn.2 x (List.mem_reverse.mp hx)) (by decide)
  unfold parseTag
  rw [e, h1.1, h1.2]
  cases hr : h.reverse with
  | nil => exact absurd (List.reverse_eq_nil_iff.mp hr) hh.1
  | cons a b =>
    show (match (n.reverse ++ '-' :: tag.reverse).takeWhile isDig, (n.reverse ++ '-' :: tag.reverse).dropWhile isDig with
      | d :: ds, '-' :: c :: t => ((c :: t).reverse, (d :: ds).reverse)
      | _, _ => (tag ++ '-' :: n ++ '-' :: 'g' :: h, "0".toList)) = (tag, n)
    rw [h2.1, h2.2]
    cases hr2 : n.reverse with
    | nil => exact absurd (List.reverse_eq_nil_iff.mp hr2) hn.1
    | cons a2 b2 =>
      cases hr3 : tag.reverse with
      | nil => exact absurd (List.reverse_eq_nil_iff.mp hr3) ht
      | cons a3 b3 =>
        show ((a3 :: b3).reverse, (a2 :: b2).reverse) = (tag, n)
        rw [← hr2, ← hr3, List.reverse_reverse, List.reverse_reverse]

private theorem mem_takeWhile {f : Char → Bool} : ∀ {l : Text} {c : Char}, c ∈ l.takeWhile f → f c = true
  | [], c, h => by simp at h
  | x :: l, c, h => by
    by_cases hx : f x = true
    · rw [List.takeWhile_cons_of_pos hx, List.mem_cons] at h
      rcases h with rfl | h
      · exact hx
      · exact mem_takeWhile h
    · rw [List.takeWhile_cons_of_neg hx] at h
      simp at h

/-- C111: any other text is taken for a tag, with no commits after it. -/
theorem tag_alone {s : Text} (h : ¬ ∃ tag n x, tag ≠ [] ∧ Number n ∧ Hash x ∧ s = tag ++ '-' :: n ++ '-' :: 'g' :: x) :
    parseTag s = (s, "0".toList) := by
  unfold parseTag
  split
  · rename_i a b r h1 h2
    split
    · rename_i d ds c t h3 h4
      exfalso
      apply h
      refine ⟨(c :: t).reverse, (d :: ds).reverse, (a :: b).reverse, by simp, ⟨by simp, ?_⟩, ⟨by simp, ?_⟩, ?_⟩
      · intro y hy
        rw [List.mem_reverse, ← h3] at hy
        exact mem_takeWhile hy
      · intro y hy
        rw [List.mem_reverse, ← h1] at hy
        exact mem_takeWhile hy
      · have e1 := List.takeWhile_append_dropWhile (p := isHex) (l := s.reverse)
        have e2 := List.takeWhile_append_dropWhile (p := isDig) (l := r)
        rw [h3, h4] at e2
        rw [h1, h2, ← e2] at e1
        have := congrArg List.reverse e1
        rw [List.reverse_reverse] at this
        rw [← this]
        simp
    · rfl
  · rfl

/-- C111: the hashes are recovered from what `git log` prints. -/
theorem hashes_recovered {a b : Text} (ha : ':' ∉ a) (hb : ':' ∉ b) : splitHash (a ++ ':' :: b) = some (a, b) := by
  have := takeWhile_stop (f := fun c => decide (c ≠ ':')) (l := a) (r := b) (c := ':')
    (fun x hx => by
      have : x ≠ ':' := fun e => ha (e ▸ hx)
      simpa using this) (by simp)
  unfold splitHash
  rw [this.1, this.2]
  exact if_neg hb

/-- C111: in a repository with an abbreviated hash, a hash and a number of commits, all five values are what git says. -/
theorem gathered {g : Git} {a b tag n x : Text} (ha : ':' ∉ a) (hb : ':' ∉ b) (hl : g.log = a ++ ':' :: b) (hc : g.count ≠ []) (ht : tag ≠ [])
    (hn : Number n) (hx : Hash x) (hd : g.describe = tag ++ '-' :: n ++ '-' :: 'g' :: x) :
    ∃ val, gather (some g) = some val ∧ val .short = some a ∧ val .long = some b ∧ val .count = some g.count ∧ val .tag = some tag ∧
      val .after = some n := by
  have h1 : orElse g.log "MISSING_SHORTHASH:MISSING_LONGHASH".toList = a ++ ':' :: b := by
    unfold orElse
    rw [if_neg (by rw [hl]; simp), hl]
  have h2 : orElse g.describe "MISSING_TAG".toList = tag ++ '-' :: n ++ '-' :: 'g' :: x := by
    unfold orElse
    rw [if_neg (by rw [hd]; simp), hd]
  have h3 : orElse g.count "MISSING_COUNT".toList = g.count := if_neg hc
  unfold gather
  dsimp only
  rw [h1, hashes_recovered ha hb]
  refine ⟨_, rfl, rfl, rfl, congrArg some h3, ?_, ?_⟩
  · show some (parseTag _).1 = _
    rw [h2, tag_recovered ht hn hx]
  · show some (parseTag _).2 = _
    rw [h2, tag_recovered ht hn hx]

/-- C111: if git fails, the version says so. -/
theorem git_failed : ∃ val, gather (some ⟨[], [], []⟩) = some val ∧ val .short = some "MISSING_SHORTHASH".toList ∧
    val .long = some "MISSING_LONGHASH".toList ∧ val .count = some "MISSING_COUNT".toList ∧ val .tag = some "MISSING_TAG".toList ∧
    val .after = some "0".toList :=
  ⟨_, rfl, by decide +kernel, by decide +kernel, by decide +kernel, by decide +kernel, by decide +kernel⟩

/-- C111, finding: outside a repository a version with the place for the tag, or that for the commits after it, is an error, as the
variables are not set, though the other places become 0. -/
theorem no_repository {ps : List Piece} (hp : Plain ps) :
    ∃ val, gather none = some val ∧ (version val (write ps) = none ↔ .hole .tag ∈ ps ∨ .hole .after ∈ ps) ∧
      (.hole .tag ∉ ps → .hole .after ∉ ps → version val (write ps) = fill (fun _ => some "0".toList) ps) := by
  refine ⟨_, rfl, ?_, ?_⟩
  · rw [version_filled (by intro h x hx; cases h <;> first | (rw [← Option.some.inj hx]; decide) | cases hx) hp, fill_none_iff]
    constructor
    · rintro ⟨k, hk, hm⟩
      cases k
      · cases hk
      · cases hk
      · cases hk
      · exact .inl hm
      · exact .inr hm
    · rintro (h | h)
      · exact ⟨.tag, rfl, h⟩
      · exact ⟨.after, rfl, h⟩
  · intro h1 h2
    rw [version_filled (by intro h x hx; cases h <;> first | (rw [← Option.some.inj hx]; decide) | cases hx) hp]
    clear hp
    induction ps with
    | nil => rfl
    | cons p ps ih =>
      have ih := ih (fun hm => h1 (List.mem_cons_of_mem _ hm)) (fun hm => h2 (List.mem_cons_of_mem _ hm))
      cases p with
      | lit s => rw [fill, fill, ih]
      | hole k =>
        rw [fill, fill, ih]
        cases k
        · rfl
        · rfl
        · rfl
        · exact absurd List.mem_cons_self h1
        · exact absurd List.mem_cons_self h2

/-- C111, finding: a commit that has a tag of the form `git describe` prints is taken for one after another tag: for every such tag. -/
theorem tag_misread {tag n h : Text} (ht : tag ≠ []) (hn : Number n) (hh : Hash h) :
    (parseTag (tag ++ '-' :: n ++ '-' :: 'g' :: h)).1 ≠ tag ++ '-' :: n ++ '-' :: 'g' :: h := by
  rw [tag_recovered ht hn hh]
  intro e
  have := congrArg List.length e
  simp at this

/-- C111, finding: a value with a place in it is filled again: the places are not replaced at once. -/
theorem filled_twice : ∃ (val : Holder → Option Text) (ps : List Piece), Plain ps ∧ version val (write ps) ≠ fill val ps :=
  ⟨fun h => some (if h = .tag then mark Holder.after.name else "1".toList), [.hole .tag], by intro s hs; simp at hs, by decide +kernel⟩

/-! ### examples -/

/-- Specification: values. No counterpart in /repo. -/
private def exVal : Holder → Option Text
  | .short => some "1c29118".toList
  | .long => some "1c29118f".toList
  | .count => some "99".toList
  | .tag => some "v1".toList
  | .after => some "3".toList

example : version exVal "1.0.0.{{git-shorthash}}".toList = some "1.0.0.1c29118".toList := by
  have h := version_filled (val := exVal) (ps := [.lit "1.0.0.".toList, .hole .short])
    (by intro h x hx; cases h <;> (rw [← Option.some.inj hx]; decide))
    (by intro s hs; simp only [List.mem_cons, List.not_mem_nil, or_false, Piece.lit.injEq, reduceCtorEq] at hs; rw [hs]; decide)
  have e : write [.lit "1.0.0.".toList, .hole .short] = "1.0.0.{{git-shorthash}}".toList := by decide +kernel
  rw [e] at h
  rw [h]
  decide +kernel

private theorem ex3 : Number "3".toList := ⟨by decide, by decide⟩
private theorem exHash : Hash "1c29".toList := ⟨by decide, by decide⟩

example : parseTag "v1-2-ga-3-g1c29".toList = ("v1-2-ga".toList, "3".toList) :=
  tag_recovered (tag := "v1-2-ga".toList) (by decide) ex3 exHash

example : splitHash "1c29:1c29118".toList = some ("1c29".toList, "1c29118".toList) :=
  hashes_recovered (a := "1c29".toList) (b := "1c29118".toList) (by decide) (by decide)

example : parseTag "v1-rc".toList = ("v1-rc".toList, "0".toList) := by
  apply tag_alone
  rintro ⟨tag, n, x, _, _, hx, e⟩
  have h : 'g' ∈ "v1-rc".toList := by rw [e]; simp
  exact absurd h (by decide)

example : ∃ val, gather (some ⟨"v1-3-g1c29".toList, "99".toList, "1c29:1c29118".toList⟩) = some val ∧ val .tag = some "v1".toList := by
  obtain ⟨val, h, _, _, _, ht, _⟩ := gathered (g := ⟨"v1-3-g1c29".toList, "99".toList, "1c29:1c29118".toList⟩) (a := "1c29".toList)
    (b := "1c29118".toList) (tag := "v1".toList) (by decide) (by decide) (by decide) (by decide) (by decide) ex3 exHash (by decide)
  exact ⟨val, h, ht⟩

example : ∃ val, gather none = some val ∧ version val (write [.hole .tag]) = none := by
  obtain ⟨val, h, h2, _⟩ := no_repository (ps := [.hole .tag]) (by intro s hs; simp at hs)
  exact ⟨val, h, h2.mpr (.inl List.mem_cons_self)⟩

example : (parseTag "v1-3-g1c29".toList).1 ≠ "v1-3-g1c29".toList := tag_misread (tag := "v1".toList) (by decide) ex3 exHash

#print axioms version_filled
#print axioms tag_recovered
#print axioms tag_alone
#print axioms hashes_recovered
#print axioms gathered
#print axioms git_failed
#print axioms no_repository
#print axioms tag_misread
#print axioms filled_twice

end Verif.PluginVersion
