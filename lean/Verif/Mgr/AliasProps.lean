import Verif.Mgr.Sound
/-
Property C31: aliases are a finite map.
-/
namespace Verif.Mgr

/-! ### Spec -/

/-- The value of `a` after the assignments `l`, oldest first: that of the last one to `a`, nothing if it is empty or
there is none. -/
def aliasValue (a : List Byte) : List (List Byte × List Byte) → Option (List Byte)
  | [] => none
  | (b, v) :: l => match aliasValue a l, l.any (fun x => x.1 == a) with
    | r, true => r
    | _, false => if b = a then (if v = [] then none else some v) else none

/-- The list after the assignments. -/
def assign (l : List (List Byte × List Byte)) : List (List Byte × List Byte) := l.foldl (fun m x => setAlias x.1 x.2 m) []

/-! ### One assignment -/

theorem lookup_none {a : List Byte} : ∀ {l : List (List Byte × List Byte)}, a ∉ l.map Prod.fst → lookupAlias a l = none := by
  intro l
  induction l with
  | nil => intro _; rfl
  | cons x xs ih =>
    intro h
    rw [List.map_cons, List.mem_cons, not_or] at h
    rw [lookupAlias, if_neg (fun e => h.1 e.symm), ih h.2]

theorem loop_none {a v : List Byte} : ∀ {l : List (List Byte × List Byte)}, setAliasLoop a v l = none ↔ a ∉ l.map Prod.fst := by
  intro l
  induction l with
  | nil => simp [setAliasLoop]
  | cons x xs ih =>
    rw [setAliasLoop]
    by_cases h : x.1 = a
    · rw [if_pos h]
      constructor
      · intro h'; split at h' <;> cases h'
      · intro h'; exact absurd (by rw [← h]; exact .head _) h'
    · rw [if_neg h, Option.map_eq_none_iff, ih, List.map_cons, List.mem_cons, not_or]
      exact ⟨fun h' => ⟨fun e => h e.symm, h'⟩, fun h' => h'.2⟩

/-- What the loop does to an existing entry. -/
theorem loop_some {a v : List Byte} : ∀ {l l' : List (List Byte × List Byte)}, (l.map Prod.fst).Nodup → setAliasLoop a v l = some l' →
    (l'.map Prod.fst).Sublist (l.map Prod.fst) ∧ (∀ b, lookupAlias b l' = if b = a then (if v = [] then none else some v) else lookupAlias b l) ∧
    (∀ x ∈ l', x ∈ l ∨ x.2 ≠ []) := by
  intro l
  induction l with
  | nil => intro l' _ h; cases h
  | cons x xs ih =>
    intro l' hn h
    rw [List.map_cons, List.nodup_cons] at hn
    rw [setAliasLoop] at h
    by_cases hx : x.1 = a
    · rw [if_pos hx] at h
      split at h
      · rename_i hv
        cases h
        refine ⟨List.sublist_cons_self _ _, fun b => ?_, fun y hy => .inl (.tail _ hy)⟩
        by_cases e : b = a
        · subst e; rw [if_pos rfl, if_pos hv]; exact lookup_none (hx ▸ hn.1)
        · rw [if_neg e, lookupAlias, if_neg (fun h => e (h.symm.trans hx))]
      · rename_i hv
        cases h
        refine ⟨.refl _, fun b => ?_, fun y hy => ?_⟩
        · rw [lookupAlias]
          by_cases e : b = a
          · subst e; rw [if_pos hx, if_pos rfl, if_neg hv]
          · rw [if_neg (fun h => e (h.symm.trans hx)), if_neg e, lookupAlias, if_neg (fun h => e (h.symm.trans hx))]
        · rcases List.mem_cons.mp hy with rfl | hy
          · exact .inr hv
          · exact .inl (.tail _ hy)
    · rw [if_neg hx, Option.map_eq_some_iff] at h
      obtain ⟨t, ht, rfl⟩ := h
      obtain ⟨h1, h2, h3⟩ := ih hn.2 ht
      refine ⟨h1.cons_cons _, fun b => ?_, fun y hy => ?_⟩
      · rw [lookupAlias, lookupAlias, h2 b]
        by_cases e : x.1 = b
        · rw [if_pos e, if_pos e, if_neg (fun h => hx (e.trans h))]
        · rw [if_neg e, if_neg e]
      · rcases List.mem_cons.mp hy with rfl | hy
        · exact .inl (.head _)
        · exact (h3 y hy).imp_left (.tail _)

theorem lookup_snoc {a b v : List Byte} : ∀ {l : List (List Byte × List Byte)}, a ∉ l.map Prod.fst →
    lookupAlias b (l ++ [(a, v)]) = if b = a then some v else lookupAlias b l := by
  intro l
  induction l with
  | nil =>
    intro _
    show (if a = b then some v else none) = if b = a then some v else none
    by_cases e : b = a
    · rw [if_pos e, if_pos e.symm]
    · rw [if_neg e, if_neg (fun h => e h.symm)]
  | cons x xs ih =>
    intro h
    rw [List.map_cons, List.mem_cons, not_or] at h
    rw [List.cons_append, lookupAlias, lookupAlias, ih h.2]
    by_cases e : x.1 = b
    · rw [if_pos e, if_pos e, if_neg (fun h' => h.1 (h'.symm.trans e.symm))]
    · rw [if_neg e, if_neg e]

/-- One `SetAlias` on a list without double names and empty values. -/
theorem setAlias_spec {a v : List Byte} {l : List (List Byte × List Byte)} (hn : (l.map Prod.fst).Nodup) (he : ∀ x ∈ l, x.2 ≠ []) :
    ((setAlias a v l).map Prod.fst).Nodup ∧ (∀ x ∈ setAlias a v l, x.2 ≠ []) ∧
    ∀ b, lookupAlias b (setAlias a v l) = if b = a then (if v = [] then none else some v) else lookupAlias b l := by
  unfold setAlias
  cases h : setAliasLoop a v l with
  | some l' =>
    obtain ⟨h1, h2, h3⟩ := loop_some hn h
    exact ⟨hn.sublist h1, fun x hx => (h3 x hx).elim (he x) (fun h => h), h2⟩
  | none =>
    have hna := loop_none.mp h
    dsimp only
    split
    · rename_i hv
      refine ⟨hn, he, fun b => ?_⟩
      by_cases e : b = a
      · subst e; rw [if_pos rfl]; exact lookup_none hna
      · rw [if_neg e]
    · rename_i hv
      refine ⟨?_, fun x hx => ?_, fun b => ?_⟩
      · rw [List.map_append, List.nodup_append]
        refine ⟨hn, List.pairwise_singleton _ _, fun y hy z hz => ?_⟩
        have hz : z = a := by simpa using hz
        exact fun e => hna (by rw [← hz, ← e]; exact hy)
      · rcases List.mem_append.mp hx with h | h
        · exact he x h
        · rw [List.mem_singleton] at h; subst h; exact hv
      · rw [lookup_snoc hna]

/-! ### C31 -/

theorem aliasValue_snoc (a : List Byte) (x : List Byte × List Byte) : ∀ (l : List (List Byte × List Byte)),
    aliasValue a (l ++ [x]) = if a = x.1 then (if x.2 = [] then none else some x.2) else aliasValue a l := by
  intro l
  induction l with
  | nil =>
    show (match none, false with | r, true => r | _, false => if x.1 = a then (if x.2 = [] then none else some x.2) else none) = _
    by_cases e : a = x.1
    · rw [if_pos e]; exact if_pos e.symm
    · rw [if_neg e]; exact if_neg (fun h => e h.symm)
  | cons y l ih =>
    obtain ⟨b, v⟩ := y
    rw [List.cons_append, aliasValue, ih]
    have hany : (l ++ [x]).any (fun y => y.1 == a) = (l.any (fun y => y.1 == a) || x.1 == a) := by simp
    rw [hany]
    by_cases e : a = x.1
    · subst e
      rw [if_pos rfl, if_pos rfl, beq_self_eq_true, Bool.or_true]
    · have : (x.1 == a) = false := by simpa using fun h => e h.symm
      rw [if_neg e, if_neg e, this, Bool.or_false]
      rfl

/-- C31: after any assignments, a lookup gives the last value assigned to the name (nothing if empty or never
assigned), each name has at most one entry, no entry is empty. -/
theorem alias_map (l : List (List Byte × List Byte)) :
    (∀ a, lookupAlias a (assign l) = aliasValue a l) ∧ ((assign l).map Prod.fst).Nodup ∧ ∀ x ∈ assign l, x.2 ≠ [] := by
  have : ∀ (r : List (List Byte × List Byte)), (∀ a, lookupAlias a (assign r.reverse) = aliasValue a r.reverse) ∧
      ((assign r.reverse).map Prod.fst).Nodup ∧ ∀ x ∈ assign r.reverse, x.2 ≠ [] := by
    intro r
    induction r with
    | nil => exact ⟨fun _ => rfl, List.nodup_nil, fun _ h => (nomatch h)⟩
    | cons x r ih =>
      have e : assign (x :: r).reverse = setAlias x.1 x.2 (assign r.reverse) := by
        rw [List.reverse_cons]; unfold assign; rw [List.foldl_append]; rfl
      obtain ⟨h1, h2, h3⟩ := ih
      obtain ⟨g1, g2, g3⟩ := setAlias_spec (a := x.1) (v := x.2) h2 h3
      rw [e]
      refine ⟨fun a => ?_, g1, g2⟩
      rw [g3 a, List.reverse_cons, aliasValue_snoc, h1 a]
  have := this l.reverse
  rwa [List.reverse_reverse] at this

/-- C31 in one step, from any list `alias_map` speaks about: other names keep their value. -/
theorem alias_other (l : List (List Byte × List Byte)) {a b : List Byte} (v : List Byte) (h : b ≠ a) :
    lookupAlias b (assign (l ++ [(a, v)])) = lookupAlias b (assign l) := by
  rw [(alias_map _).1, (alias_map l).1, aliasValue_snoc, if_neg h]

/-- Assigned, changed, removed. -/
example : lookupAlias [97] (assign [([97], [1]), ([98], [2]), ([97], [3])]) = some [3] ∧
    lookupAlias [97] (assign [([97], [1]), ([98], [2]), ([97], [])]) = none ∧ lookupAlias [98] (assign [([97], [1]), ([98], [2]), ([97], [])]) = some [2] :=
  ⟨by rfl, by rfl, by rfl⟩

/-- Without the last assignment being empty, the hypothesis of `alias_other` is met by different names. -/
example : ([98] : List Byte) ≠ [97] := by decide

/-- The operation on the manager is this one. -/
theorem setAlias_op (fuel : Nat) (h : Beh) (a v : List Byte) (s : St) : ∃ s', run fuel h (.setAlias a v) s = .ok s' ∧ s'.aliases = setAlias a v s.aliases :=
  ⟨_, rfl, rfl⟩

#print axioms alias_map
#print axioms alias_other

end Verif.Mgr
