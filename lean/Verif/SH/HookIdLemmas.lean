import Verif.SH.HookId
/-
Lemmas about the hook-id manager, stated through `idQuery`.
-/
namespace Verif.SH

theorem idQuery_some_iff (es : List Entry) (id : Int) (e : Entry) :
    idQuery es id = some e ↔ ∃ k : Nat, id = (k : Int) + 1 ∧ es[k]? = some e ∧ e.free = false := by
  unfold idQuery
  constructor
  · intro h
    split at h
    · cases h
    · next hr =>
      have hr : ¬ (id - 1 < 0) ∧ ¬ (id - 1 ≥ es.length) := by
        constructor
        · intro h; exact hr (Or.inl h)
        · intro h; exact hr (Or.inr h)
      split at h
      · next x hx =>
        by_cases hf : x.free = true
        · simp [hf] at h
        · simp [hf] at h; subst h
          exact ⟨(id - 1).toNat, by omega, hx, by simpa using hf⟩
      · cases h
  · rintro ⟨k, rfl, h1, h2⟩
    have hk : k < es.length := by
      rcases Nat.lt_or_ge k es.length with h | h
      · exact h
      · rw [List.getElem?_eq_none h] at h1; cases h1
    have e1 : ((k : Int) + 1 - 1).toNat = k := by omega
    rw [if_neg (by omega), e1, h1]
    simp [h2]

theorem idQuery_pos {es : List Entry} {id : Int} {e : Entry} (h : idQuery es id = some e) : 0 < id := by
  obtain ⟨k, rfl, _⟩ := (idQuery_some_iff ..).1 h; omega

theorem idQuery_notfree {es : List Entry} {id : Int} {e : Entry} (h : idQuery es id = some e) :
    e.free = false := by
  obtain ⟨k, rfl, _, h⟩ := (idQuery_some_iff ..).1 h; exact h

theorem idNewIx_getElem (es : List Entry) (e : Entry) (j : Nat) :
    (idNewIx es e).1[j]? = if j = (idNewIx es e).2 then some e else es[j]? := by
  induction es generalizing j with
  | nil => cases j <;> simp [idNewIx]
  | cons x xs ih =>
    unfold idNewIx
    split
    · cases j <;> simp
    · cases j with
      | zero => simp
      | succ j => simp [ih]

theorem idNewIx_old (es : List Entry) (e : Entry) (x : Entry) (h : es[(idNewIx es e).2]? = some x) :
    x.free = true := by
  induction es with
  | nil => simp at h
  | cons y ys ih =>
    unfold idNewIx at h
    split at h
    · next hf => simp at h; subst h; exact hf
    · simp at h; exact ih h

theorem idNew_fresh (es : List Entry) (e : Entry) : idQuery es (idNew es e).2 = none := by
  cases h : idQuery es (idNew es e).2 with
  | none => rfl
  | some x =>
    obtain ⟨k, hk, h1, h2⟩ := (idQuery_some_iff ..).1 h
    have : k = (idNewIx es e).2 := by simp [idNew] at hk; omega
    subst this
    rw [idNewIx_old es e x h1] at h2; cases h2

theorem idNew_pos (es : List Entry) (e : Entry) : 0 < (idNew es e).2 := by
  simp only [idNew]; omega

theorem idNew_query (es : List Entry) (e : Entry) (he : e.free = false) (j : Int) :
    idQuery (idNew es e).1 j = if j = (idNew es e).2 then some e else idQuery es j := by
  have key : ∀ x, idQuery (idNew es e).1 j = some x ↔
      (if j = (idNew es e).2 then some e else idQuery es j) = some x := by
    intro x
    rw [idQuery_some_iff]
    have e2 : (idNew es e).2 = ((idNewIx es e).2 : Int) + 1 := rfl
    have e1 : (idNew es e).1 = (idNewIx es e).1 := rfl
    rw [e1]
    constructor
    · rintro ⟨k, rfl, h1, h2⟩
      rw [idNewIx_getElem] at h1
      by_cases hk : k = (idNewIx es e).2
      · rw [if_pos hk] at h1; rw [if_pos (by omega)]; exact h1
      · rw [if_neg hk] at h1; rw [if_neg (by omega)]
        exact (idQuery_some_iff ..).2 ⟨k, rfl, h1, h2⟩
    · intro h
      split at h
      · next hj =>
        cases h
        exact ⟨(idNewIx es e).2, by omega, by rw [idNewIx_getElem]; simp, he⟩
      · next hj =>
        obtain ⟨k, rfl, h1, h2⟩ := (idQuery_some_iff ..).1 h
        refine ⟨k, rfl, ?_, h2⟩
        rw [idNewIx_getElem, if_neg (by omega)]; exact h1
  cases h : idQuery (idNew es e).1 j with
  | some x => exact ((key x).1 h).symm
  | none =>
    cases h' : (if j = (idNew es e).2 then some e else idQuery es j) with
    | none => rfl
    | some x => rw [(key x).2 h'] at h; cases h

theorem idRemove_query (es : List Entry) (id j : Int) :
    idQuery (idRemove es id).1 j = if j = id then none else idQuery es j := by
  unfold idRemove
  cases hq : idQuery es id with
  | none =>
    simp only
    split
    · next h => rw [h, hq]
    · rfl
  | some e =>
    obtain ⟨k, rfl, h1, h2⟩ := (idQuery_some_iff ..).1 hq
    have e1 : ((k : Int) + 1 - 1).toNat = k := by omega
    simp only [e1]
    have key : ∀ x, idQuery (es.set k { e with free := true }) j = some x ↔
        (if j = (k : Int) + 1 then none else idQuery es j) = some x := by
      intro x
      rw [idQuery_some_iff]
      constructor
      · rintro ⟨m, rfl, h3, h4⟩
        by_cases hm : m = k
        · subst hm
          rw [List.getElem?_set] at h3
          simp at h3
          obtain ⟨_, h3⟩ := h3
          rw [← h3] at h4; cases h4
        · rw [List.getElem?_set_ne (Ne.symm hm)] at h3
          rw [if_neg (by omega)]
          exact (idQuery_some_iff ..).2 ⟨m, rfl, h3, h4⟩
      · intro h
        split at h
        · cases h
        · next hj =>
          obtain ⟨m, rfl, h3, h4⟩ := (idQuery_some_iff ..).1 h
          refine ⟨m, rfl, ?_, h4⟩
          rw [List.getElem?_set_ne (by omega)]; exact h3
    cases h : idQuery (es.set k { e with free := true }) j with
    | some x => exact ((key x).1 h).symm
    | none =>
      cases h' : (if j = (k : Int) + 1 then none else idQuery es j) with
      | none => rfl
      | some x => rw [(key x).2 h'] at h; cases h

theorem idRemoveAll_query (es : List Entry) (p : Addr) (j : Int) (x : Entry) :
    idQuery (idRemoveAll es p) j = some x ↔ idQuery es j = some x ∧ x.vfnptr ≠ p := by
  rw [idQuery_some_iff, idQuery_some_iff]
  unfold idRemoveAll
  constructor
  · rintro ⟨k, rfl, h1, h2⟩
    rw [List.getElem?_map] at h1
    cases hk : es[k]? with
    | none => rw [hk] at h1; cases h1
    | some e =>
      rw [hk] at h1
      simp only [Option.map_some, Option.some.injEq] at h1
      split at h1
      · rw [← h1] at h2; cases h2
      · next hc =>
        subst h1
        refine ⟨⟨k, rfl, hk, h2⟩, ?_⟩
        intro hp; apply hc; simp [h2, hp]
  · rintro ⟨⟨k, rfl, h1, h2⟩, h3⟩
    refine ⟨k, rfl, ?_, h2⟩
    rw [List.getElem?_map, h1]
    simp [h3]

theorem mem_idFindAux (p : Entry → Bool) (k : Nat) (es : List Entry) (id : Int) :
    id ∈ idFindAux p k es ↔ ∃ e, idQuery es (id - k) = some e ∧ p e = true := by
  induction es generalizing k with
  | nil => simp [idFindAux, idQuery]
  | cons x xs ih =>
    have hcons : ∀ e, idQuery (x :: xs) (id - k) = some e ↔
        (id = (k : Int) + 1 ∧ x = e ∧ e.free = false) ∨ idQuery xs (id - (k + 1 : Nat)) = some e := by
      intro e
      rw [idQuery_some_iff, idQuery_some_iff]
      constructor
      · rintro ⟨j, h1, h2, h3⟩
        cases j with
        | zero => left; simp at h2; exact ⟨by omega, h2, h3⟩
        | succ j => right; exact ⟨j, by omega, by simpa using h2, h3⟩
      · rintro (⟨h1, rfl, h3⟩ | ⟨j, h1, h2, h3⟩)
        · exact ⟨0, by omega, rfl, h3⟩
        · exact ⟨j + 1, by omega, by simpa using h2, h3⟩
    unfold idFindAux
    split
    · next hc =>
      simp only [Bool.and_eq_true, Bool.not_eq_true'] at hc
      rw [List.mem_cons, ih]
      constructor
      · rintro (rfl | ⟨e, h1, h2⟩)
        · exact ⟨x, (hcons x).2 (Or.inl ⟨rfl, rfl, hc.1⟩), hc.2⟩
        · exact ⟨e, (hcons e).2 (Or.inr h1), h2⟩
      · rintro ⟨e, h1, h2⟩
        rcases (hcons e).1 h1 with ⟨h, _, _⟩ | h
        · exact Or.inl h
        · exact Or.inr ⟨e, h, h2⟩
    · next hc =>
      rw [ih]
      constructor
      · rintro ⟨e, h1, h2⟩; exact ⟨e, (hcons e).2 (Or.inr h1), h2⟩
      · rintro ⟨e, h1, h2⟩
        rcases (hcons e).1 h1 with ⟨_, rfl, hf⟩ | h
        · exact absurd (by simp [hf, h2]) hc
        · exact ⟨e, h, h2⟩

theorem idFindAux_gt (p : Entry → Bool) (k : Nat) (es : List Entry) :
    ∀ id ∈ idFindAux p k es, (k : Int) < id := by
  intro id h
  obtain ⟨e, h1, _⟩ := (mem_idFindAux ..).1 h
  have := idQuery_pos h1; omega

theorem idFindAux_nodup (p : Entry → Bool) (k : Nat) (es : List Entry) : (idFindAux p k es).Nodup := by
  induction es generalizing k with
  | nil => simp [idFindAux]
  | cons x xs ih =>
    unfold idFindAux
    split
    · rw [List.nodup_cons]
      refine ⟨?_, ih _⟩
      intro h
      have := idFindAux_gt _ _ _ _ h
      omega
    · exact ih _

theorem mem_idFindPlug (es : List Entry) (plug : Plugin) (id : Int) :
    id ∈ idFindPlug es plug ↔ ∃ e, idQuery es id = some e ∧ e.plug = plug := by
  unfold idFindPlug; rw [mem_idFindAux]; simp

theorem mem_idFindAll (es : List Entry) (id : Int) :
    id ∈ idFindAll es ↔ ∃ e, idQuery es id = some e := by
  unfold idFindAll; rw [mem_idFindAux]; simp

theorem mem_idFindMatch (es : List Entry) (proto : Proto) (vo vi : Int) (adj : Addr)
    (plug : Plugin) (offs : Int) (h : Handler) (post : Bool) (id : Int) :
    id ∈ idFindMatch es proto vo vi adj plug offs h post ↔
      ∃ e, idQuery es id = some e ∧ e.proto.eqb proto = true ∧ e.vtblOffs = vo ∧ e.vtblIdx = vi ∧
        e.adj = adj ∧ e.plug = plug ∧ e.offs = offs ∧ e.handler.key = h.key ∧ e.post = post := by
  unfold idFindMatch; rw [mem_idFindAux]
  simp [and_assoc]

end Verif.SH
