import Verif.Cont.Hash
/-
Helper lemmas for Verif/Cont/HashProps.lean.
-/
namespace Verif.Cont

set_option linter.unusedSectionVars false

variable {K V : Type} [DecidableEq K]

/-- All node pointers, bucket by bucket. -/
def order (b : List (Option (List Nat))) : List Nat := b.flatMap fun x => x.getD []

theorem order_append (b c : List (Option (List Nat))) : order (b ++ c) = order b ++ order c := by simp [order]

theorem order_cons (x : Option (List Nat)) (c : List (Option (List Nat))) : order (x :: c) = x.getD [] ++ order c := by simp [order]

theorem order_replicate (n : Nat) : order (List.replicate n none) = [] := by
  induction n with
  | zero => rfl
  | succ n ih => rw [List.replicate_succ, order_cons, ih]; rfl

theorem split_at {b : List (Option (List Nat))} {p : Nat} {x : Option (List Nat)} (h : b[p]? = some x) :
    ∃ B C, b = B ++ x :: C ∧ B.length = p ∧ ∀ y, b.set p y = B ++ y :: C := by
  have hp : p < b.length := by
    rcases Nat.lt_or_ge p b.length with h' | h'
    · exact h'
    · rw [List.getElem?_eq_none h'] at h; cases h
  rw [List.getElem?_eq_getElem hp] at h
  simp only [Option.some.injEq] at h
  refine ⟨b.take p, b.drop (p + 1), ?_, by simp; omega, fun y => ?_⟩
  · rw [← h]; simp
  · rw [List.set_eq_take_append_cons_drop, if_pos hp]

/-- The table `t` sorts the nodes by the hash of their key. -/
structure Sorted (hash : K → Int) (mem : Nat → Option (K × V)) (t : List (Option (List Nat))) : Prop where
  pos : 0 < t.length
  live : ∀ i l, t[i]? = some (some l) → ∀ a ∈ l, ∃ kv, mem a = some kv ∧ place hash kv.1 t.length = i

theorem place_lt (hash : K → Int) (k : K) {n : Nat} (h : 0 < n) : place hash k n < n := Nat.mod_lt _ h

/-- Adding a node to its bucket. -/
theorem sorted_add {hash : K → Int} {mem : Nat → Option (K × V)} {t : List (Option (List Nat))} (h : Sorted hash mem t) {a : Nat} {kv : K × V} (ha : mem a = some kv)
    {x : Option (List Nat)} (hx : t[place hash kv.1 t.length]? = some x) :
    Sorted hash mem (t.set (place hash kv.1 t.length) (some (x.getD [] ++ [a]))) ∧
      (order (t.set (place hash kv.1 t.length) (some (x.getD [] ++ [a])))).Perm (order t ++ [a]) := by
  obtain ⟨B, C, e, hB, hs⟩ := split_at hx
  refine ⟨⟨by simpa using h.pos, ?_⟩, ?_⟩
  · intro i l hl b hb
    rw [List.length_set]
    rw [List.getElem?_set] at hl
    split at hl
    · next hi =>
      split at hl
      · simp only [Option.some.injEq] at hl
        subst hl
        rcases List.mem_append.1 hb with hb | hb
        · cases x with
          | none => simp at hb
          | some q => rw [← hi]; exact h.live _ _ hx b hb
        · simp at hb; subst hb
          exact ⟨kv, ha, hi⟩
      · cases hl
    · exact h.live _ _ hl b hb
  · rw [hs]
    conv => rhs; rw [e]
    simp only [order_append, order_cons, Option.getD_some, List.append_assoc]
    refine List.Perm.append_left _ (List.Perm.append_left _ ?_)
    exact List.perm_append_comm

/-- The inner loop moves every node of the list. -/
theorem rehashList_spec {hash : K → Int} {mem : Nat → Option (K × V)} {l : List Nat} : ∀ {t : List (Option (List Nat))} {pct : Nat}, Sorted hash mem t →
    (∀ a ∈ l, ∃ kv, mem a = some kv) → ∃ t' pct', rehashList hash mem l (t, pct) = .ok (t', pct') ∧ Sorted hash mem t' ∧ t'.length = t.length ∧
      (order t').Perm (order t ++ l) := by
  induction l with
  | nil => intro t pct h _; exact ⟨t, pct, rfl, h, rfl, by simp⟩
  | cons a l ih =>
    intro t pct h hl
    obtain ⟨kv, hkv⟩ := hl a (by simp)
    have hp := place_lt hash kv.1 h.pos
    have hx : t[place hash kv.1 t.length]? = some t[place hash kv.1 t.length] := List.getElem?_eq_getElem hp
    obtain ⟨hs, hperm⟩ := sorted_add h hkv hx
    have hna : nodeAt mem a = .ok kv := by simp [nodeAt, hkv]
    simp only [rehashList, bind, Except.bind, hna, hx]
    cases hc : t[place hash kv.1 t.length] with
    | none =>
      rw [hc] at hs hperm
      simp only [Option.getD_none, List.nil_append] at hs hperm
      obtain ⟨t', pct', e, h', hl', hp'⟩ := ih (pct := pct + 1) hs (fun b hb => hl b (List.mem_cons_of_mem _ hb))
      refine ⟨t', pct', e, h', by simpa using hl', hp'.trans ?_⟩
      have := hperm.append_right l
      simpa using this
    | some q =>
      rw [hc] at hs hperm
      simp only [Option.getD_some] at hs hperm
      obtain ⟨t', pct', e, h', hl', hp'⟩ := ih (pct := pct) hs (fun b hb => hl b (List.mem_cons_of_mem _ hb))
      refine ⟨t', pct', e, h', by simpa using hl', hp'.trans ?_⟩
      have := hperm.append_right l
      simpa using this

theorem rehash_spec {hash : K → Int} {mem : Nat → Option (K × V)} {b : List (Option (List Nat))} : ∀ {t : List (Option (List Nat))} {pct : Nat}, Sorted hash mem t →
    (∀ a ∈ order b, ∃ kv, mem a = some kv) → ∃ t' pct', rehash hash mem b (t, pct) = .ok (t', pct') ∧ Sorted hash mem t' ∧ t'.length = t.length ∧
      (order t').Perm (order t ++ order b) := by
  induction b with
  | nil => intro t pct h _; exact ⟨t, pct, rfl, h, rfl, by simp [order]⟩
  | cons x b ih =>
    intro t pct h hl
    cases x with
    | none => exact ih h (fun a ha => hl a (by rw [order_cons]; exact List.mem_append_right _ ha))
    | some l =>
      obtain ⟨t1, pct1, e1, h1, hl1, hp1⟩ := rehashList_spec (pct := pct) h (l := l) (fun a ha => hl a (by rw [order_cons]; exact List.mem_append_left _ ha))
      obtain ⟨t2, pct2, e2, h2, hl2, hp2⟩ := ih (pct := pct1) h1 (fun a ha => hl a (by rw [order_cons]; exact List.mem_append_right _ ha))
      simp only [rehash, bind, Except.bind, e1]
      refine ⟨t2, pct2, e2, h2, by omega, hp2.trans ?_⟩
      rw [order_cons]
      have := hp1.append_right (order b)
      simpa using this

theorem sorted_replicate (hash : K → Int) (mem : Nat → Option (K × V)) {n : Nat} (h : 0 < n) : Sorted hash mem (List.replicate n none) := by
  refine ⟨by simpa using h, ?_⟩
  intro i l hl
  rw [List.getElem?_replicate] at hl
  split at hl <;> simp at hl

/-- A well-formed table: nodes in the buckets of their keys, none twice, no key twice. -/
structure THI (hash : K → Int) (h : TH K V) : Prop where
  sorted : Sorted hash h.mem h.b
  nodup : (order h.b).Nodup
  keys : ∀ a ∈ order h.b, ∀ a' ∈ order h.b, ∀ k v v', h.mem a = some (k, v) → h.mem a' = some (k, v') → a = a'

theorem mem_order {b : List (Option (List Nat))} {a : Nat} : a ∈ order b ↔ ∃ (i : Nat) (l : List Nat), b[i]? = some (some l) ∧ a ∈ l := by
  constructor
  · intro h
    simp only [order, List.mem_flatMap] at h
    obtain ⟨x, hx, ha⟩ := h
    cases x with
    | none => simp at ha
    | some l =>
      obtain ⟨i, hi, e⟩ := List.getElem_of_mem hx
      exact ⟨i, l, by rw [List.getElem?_eq_getElem hi, e], by simpa using ha⟩
  · rintro ⟨i, l, hi, ha⟩
    simp only [order, List.mem_flatMap]
    exact ⟨some l, List.mem_of_getElem? hi, by simpa using ha⟩

theorem THI.live {hash : K → Int} {h : TH K V} (hi : THI hash h) {a : Nat} (ha : a ∈ order h.b) : ∃ kv, h.mem a = some kv := by
  obtain ⟨i, l, e, hl⟩ := mem_order.1 ha
  obtain ⟨kv, hk, _⟩ := hi.sorted.live i l e a hl
  exact ⟨kv, hk⟩

/-- Growing keeps every node and its content. -/
theorem refactor_spec {hash : K → Int} {h : TH K V} (hi : THI hash h) :
    ∃ h', h.refactor hash = .ok h' ∧ THI hash h' ∧ h'.mem = h.mem ∧ (order h'.b).Perm (order h.b) ∧ h'.b.length = 2 * h.b.length := by
  have hp := hi.sorted.pos
  obtain ⟨t, pct, e, hs, hl, hperm⟩ := rehash_spec (pct := 0) (sorted_replicate hash h.mem (n := h.b.length * 2) (by omega)) (b := h.b) (fun a ha => hi.live ha)
  unfold TH.refactor
  rw [if_neg (by omega)]
  simp only [bind, Except.bind, e]
  rw [order_replicate, List.nil_append] at hperm
  refine ⟨_, rfl, ⟨hs, hperm.nodup_iff.2 hi.nodup, ?_⟩, rfl, hperm, by simp [hl]; omega⟩
  intro a ha a' ha'
  exact hi.keys a (hperm.mem_iff.1 ha) a' (hperm.mem_iff.1 ha')

/-- Nothing in its bucket: the key is nowhere. -/
theorem bucket_of {hash : K → Int} {h : TH K V} (hi : THI hash h) {a : Nat} {k : K} {v : V} (ha : a ∈ order h.b) (hm : h.mem a = some (k, v)) :
    ∃ l, h.b[place hash k h.b.length]? = some (some l) ∧ a ∈ l := by
  obtain ⟨i, l, e, hl⟩ := mem_order.1 ha
  obtain ⟨kv, hk, hp⟩ := hi.sorted.live i l e a hl
  rw [hm] at hk
  simp only [Option.some.injEq] at hk
  subst hk
  simp only at hp
  rw [hp]
  exact ⟨l, e, hl⟩

theorem scan_spec {mem : Nat → Option (K × V)} {k : K} : ∀ {l : List Nat}, (∀ a ∈ l, ∃ kv, mem a = some kv) →
    (∃ a ∈ l, ∃ v, mem a = some (k, v) ∧ scan mem k l = .ok (some a)) ∨ (scan mem k l = .ok none ∧ ∀ a ∈ l, ∀ v, mem a ≠ some (k, v)) := by
  intro l
  induction l with
  | nil => intro _; exact .inr ⟨rfl, by simp⟩
  | cons a l ih =>
    intro h
    obtain ⟨kv, hkv⟩ := h a (by simp)
    have hna : nodeAt mem a = .ok kv := by simp [nodeAt, hkv]
    simp only [scan, bind, Except.bind, hna]
    by_cases hc : kv.1 = k
    · left
      refine ⟨a, by simp, kv.2, ?_, by rw [if_pos hc]⟩
      rw [hkv, ← hc]
    · rw [if_neg hc]
      rcases ih (fun b hb => h b (List.mem_cons_of_mem _ hb)) with ⟨b, hb, v, hm, e⟩ | ⟨e, hn⟩
      · exact .inl ⟨b, List.mem_cons_of_mem _ hb, v, hm, e⟩
      · refine .inr ⟨e, ?_⟩
        intro b hb v
        rcases List.mem_cons.1 hb with rfl | hb
        · rw [hkv]; rintro he; simp only [Option.some.injEq] at he; rw [he] at hc; exact hc rfl
        · exact hn b hb v

/-- Adding a new key with a new node. -/
theorem add_spec {full : Nat → Nat → Bool} {hash : K → Int} {h : TH K V} (hi : THI hash h) {a : Nat} (ha : h.mem a = none) {k : K} {d : V} {pct : Nat} {x : Option (List Nat)}
    (hx : h.b[place hash k h.b.length]? = some x) (hnew : ∀ c ∈ order h.b, ∀ v, h.mem c ≠ some (k, v)) :
    ∃ h', TH.grown full hash { b := h.b.set (place hash k h.b.length) (some (x.getD [] ++ [a])), pct := pct, mem := upd h.mem a (some (k, d)) } a = .ok (h', a) ∧
      THI hash h' ∧ h'.mem = upd h.mem a (some (k, d)) ∧ (order h'.b).Perm (order h.b ++ [a]) := by
  have hfr : ∀ c ∈ order h.b, c ≠ a := by
    rintro c hc rfl
    obtain ⟨kv, hk⟩ := hi.live hc
    rw [ha] at hk; cases hk
  have hold : ∀ c ∈ order h.b, upd h.mem a (some (k, d)) c = h.mem c := by
    intro c hc; simp [upd, hfr c hc]
  have hs0 : Sorted hash (upd h.mem a (some (k, d))) h.b := by
    refine ⟨hi.sorted.pos, ?_⟩
    intro i l hl c hc
    rw [hold c (mem_order.2 ⟨i, l, hl, hc⟩)]
    exact hi.sorted.live i l hl c hc
  obtain ⟨hs, hperm⟩ := sorted_add hs0 (a := a) (kv := (k, d)) (by simp [upd]) hx
  have hmem : ∀ c, c ∈ order (h.b.set (place hash k h.b.length) (some (x.getD [] ++ [a]))) ↔ c ∈ order h.b ∨ c = a := by
    intro c; rw [hperm.mem_iff]; simp
  have hi1 : THI hash { b := h.b.set (place hash k h.b.length) (some (x.getD [] ++ [a])), pct := pct, mem := upd h.mem a (some (k, d)) } := by
    refine ⟨hs, ?_, ?_⟩
    · rw [hperm.nodup_iff]
      exact List.nodup_append.2 ⟨hi.nodup, by simp, by rintro c hc b hb rfl; simp at hb; exact hfr c hc hb⟩
    · intro c hc c' hc' k' v v' hm hm'
      simp only at hc hc' hm hm'
      rcases (hmem c).1 hc with ho | ho
      · rw [hold c ho] at hm
        rcases (hmem c').1 hc' with ho' | ho'
        · rw [hold c' ho'] at hm'
          exact hi.keys c ho c' ho' k' v v' hm hm'
        · simp only [upd, if_pos ho', Option.some.injEq, Prod.mk.injEq] at hm'
          rw [← hm'.1] at hm
          exact absurd hm (hnew c ho v)
      · rcases (hmem c').1 hc' with ho' | ho'
        · rw [hold c' ho'] at hm'
          simp only [upd, if_pos ho, Option.some.injEq, Prod.mk.injEq] at hm
          rw [← hm.1] at hm'
          exact absurd hm' (hnew c' ho' v')
        · rw [ho, ho']
  unfold TH.grown
  split
  · obtain ⟨h', e, hi', hm', hp', _⟩ := refactor_spec hi1
    simp only [bind, Except.bind, e]
    exact ⟨h', rfl, hi', hm', hp'.trans hperm⟩
  · exact ⟨_, rfl, hi1, rfl, hperm⟩

/-- `_FindOrInsert`: the node of the key, which is new or was there. -/
theorem findOrInsert_spec {full : Nat → Nat → Bool} {hash : K → Int} {h : TH K V} (hi : THI hash h) {a : Nat} (ha : h.mem a = none) (k : K) (d : V) :
    ∃ h' p, h.findOrInsert full hash d a k = .ok (h', p) ∧ THI hash h' ∧
      ((h' = h ∧ p ∈ order h.b ∧ ∃ v, h.mem p = some (k, v)) ∨
        (p = a ∧ (∀ c ∈ order h.b, ∀ v, h.mem c ≠ some (k, v)) ∧ h'.mem = upd h.mem a (some (k, d)) ∧ (order h'.b).Perm (order h.b ++ [a]))) := by
  have hp := place_lt hash k hi.sorted.pos
  have hx : h.b[place hash k h.b.length]? = some h.b[place hash k h.b.length] := List.getElem?_eq_getElem hp
  unfold TH.findOrInsert
  cases hc : h.b[place hash k h.b.length] with
  | none =>
    rw [hc] at hx
    rw [hx]
    have hnew : ∀ c ∈ order h.b, ∀ v, h.mem c ≠ some (k, v) := by
      intro c hc v hm
      obtain ⟨l, e, _⟩ := bucket_of hi hc hm
      rw [hx] at e; cases e
    obtain ⟨h', e, h1, h2, h3⟩ := add_spec (full := full) hi ha (d := d) (pct := h.pct + 1) hx hnew
    exact ⟨h', a, by simpa using e, h1, .inr ⟨rfl, hnew, h2, h3⟩⟩
  | some l =>
    rw [hc] at hx
    rw [hx]
    have hl : ∀ c ∈ l, c ∈ order h.b := fun c hc => mem_order.2 ⟨_, l, hx, hc⟩
    rcases scan_spec (mem := h.mem) (k := k) (l := l) (fun c hc => hi.live (hl c hc)) with ⟨c, hcl, v, hm, e⟩ | ⟨e, hn⟩
    · refine ⟨h, c, by simp only [bind, Except.bind, e], hi, .inl ⟨rfl, hl c hcl, v, hm⟩⟩
    · have hnew : ∀ c ∈ order h.b, ∀ v, h.mem c ≠ some (k, v) := by
        intro c hc v hm
        obtain ⟨l', e', hl'⟩ := bucket_of hi hc hm
        rw [hx] at e'
        simp only [Option.some.injEq] at e'
        subst e'
        exact hn c hl' v hm
      obtain ⟨h', e1, h1, h2, h3⟩ := add_spec (full := full) hi ha (d := d) (pct := h.pct) hx hnew
      refine ⟨h', a, ?_, h1, .inr ⟨rfl, hnew, h2, h3⟩⟩
      simp only [bind, Except.bind, e]
      simpa using e1

/-! ## Iterators -/

/-- The iterator `it` stands before the nodes `rest`. -/
inductive ItAt (h : TH K V) : It → List Nat → Prop
  | fin {it : It} (e : it.fin = true) : ItAt h it []
  | pos {c a : Nat} {p q : List Nat} (e : h.b[c]? = some (some (p ++ a :: q))) : ItAt h { cur := some c, pos := some a, fin := false } (a :: q ++ order (h.b.drop (c + 1)))

theorem firstFrom_spec : ∀ {b : List (Option (List Nat))} {i : Nat},
    (firstFrom b i = none ∧ order b = []) ∨ ∃ j a q, firstFrom b i = some (i + j, a) ∧ b[j]? = some (some (a :: q)) ∧ order b = a :: q ++ order (b.drop (j + 1)) := by
  intro b
  induction b with
  | nil => intro i; exact .inl ⟨rfl, rfl⟩
  | cons x b ih =>
    intro i
    have hrec : x.getD [] = [] → firstFrom (x :: b) i = firstFrom b (i + 1) := by
      intro hx
      cases x with
      | none => rfl
      | some l => simp at hx; subst hx; rfl
    by_cases hx : x.getD [] = []
    · rw [hrec hx, order_cons, hx, List.nil_append]
      rcases ih (i := i + 1) with h | ⟨j, a, q, e1, e2, e3⟩
      · exact .inl h
      · exact .inr ⟨j + 1, a, q, by rw [e1]; simp; omega, by simpa using e2, by simpa using e3⟩
    · cases x with
      | none => simp at hx
      | some l =>
        cases l with
        | nil => simp at hx
        | cons a q => exact .inr ⟨0, a, q, rfl, rfl, by simp [order_cons]⟩

theorem nextIn_spec {a : Nat} {q : List Nat} : ∀ {p : List Nat}, (p ++ a :: q).Nodup → nextIn (p ++ a :: q) a = .ok q.head? := by
  intro p
  induction p with
  | nil => intro _; simp [nextIn]
  | cons x p ih =>
    intro h
    rw [List.cons_append, List.nodup_cons] at h
    have hxa : x ≠ a := by rintro rfl; exact h.1 (by simp)
    simp only [List.cons_append, nextIn]
    rw [if_neg hxa]
    exact ih h.2

theorem skip_spec {h : TH K V} {c : Nat} : ItAt h (h.skip c) (order (h.b.drop (c + 1))) := by
  unfold TH.skip
  rcases firstFrom_spec (b := h.b.drop (c + 1)) (i := c + 1) with ⟨e, e2⟩ | ⟨j, a, q, e1, e2, e3⟩
  · rw [e, e2]; exact .fin rfl
  · rw [e1, e3]
    simp only [List.drop_drop]
    rw [show c + 1 + (j + 1) = c + 1 + j + 1 by omega]
    refine ItAt.pos (p := []) ?_
    simpa using e2

theorem begin_spec {hash : K → Int} {h : TH K V} (hi : THI hash h) : ∃ it, h.begin = .ok it ∧ ItAt h it (order h.b) := by
  have hp := hi.sorted.pos
  unfold TH.begin
  rw [if_neg (by omega)]
  unfold TH.inc
  simp only [Bool.false_eq_true, ↓reduceIte]
  rcases firstFrom_spec (b := h.b) (i := 0) with ⟨e, e2⟩ | ⟨j, a, q, e1, e2, e3⟩
  · rw [e, e2]; exact ⟨_, rfl, .fin rfl⟩
  · rw [e1, e3, Nat.zero_add]
    exact ⟨_, rfl, ItAt.pos (p := []) (by simpa using e2)⟩

theorem bucket_nodup {b : List (Option (List Nat))} (h : (order b).Nodup) {c : Nat} {l : List Nat} (e : b[c]? = some (some l)) : l.Nodup := by
  obtain ⟨B, C, rfl, _, _⟩ := split_at e
  rw [order_append, order_cons] at h
  exact (List.nodup_append.1 (List.nodup_append.1 h).2.1).1

theorem inc_spec {h : TH K V} (hi : (order h.b).Nodup) {it : It} {a : Nat} {rest : List Nat} (hat : ItAt h it (a :: rest)) : ∃ it', h.inc it = .ok it' ∧ ItAt h it' rest := by
  cases hat with
  | @pos c _ p q e =>
    have hc : c < h.b.length := by
      rcases Nat.lt_or_ge c h.b.length with h' | h'
      · exact h'
      · rw [List.getElem?_eq_none h'] at e; cases e
    unfold TH.inc
    simp only [Bool.false_eq_true, ↓reduceIte]
    rw [if_neg (by omega), e]
    simp only [bind, Except.bind]
    rw [nextIn_spec (bucket_nodup hi e)]
    cases q with
    | nil => exact ⟨_, rfl, skip_spec⟩
    | cons x q => exact ⟨_, rfl, ItAt.pos (p := p ++ [a]) (by simpa using e)⟩

theorem deref_spec {h : TH K V} {it : It} {a : Nat} {rest : List Nat} (hat : ItAt h it (a :: rest)) : it.fin = false ∧ h.deref it = nodeAt h.mem a := by
  cases hat with
  | pos e => exact ⟨rfl, rfl⟩

theorem itAt_nil {h : TH K V} {it : It} (hat : ItAt h it []) : it.fin = true := by
  generalize hr : ([] : List Nat) = r at hat
  cases hat with
  | fin e => exact e
  | pos e => simp at hr

theorem findLoop_spec' {h : TH K V} (hi : (order h.b).Nodup) {k : K} : ∀ {rest : List Nat} {it : It} {n : Nat}, (∀ a ∈ rest, ∃ kv, h.mem a = some kv) → ItAt h it rest →
    rest.length < n → (∃ it' a q v, h.findLoop k n it = .ok it' ∧ ItAt h it' (a :: q) ∧ a ∈ rest ∧ h.mem a = some (k, v)) ∨
      (h.findLoop k n it = .ok { cur := none, pos := none, fin := true } ∧ ∀ a ∈ rest, ∀ v, h.mem a ≠ some (k, v)) := by
  intro rest
  induction rest with
  | nil =>
    intro it n _ hat hn
    cases n with
    | zero => simp at hn
    | succ n => exact .inr ⟨by simp [TH.findLoop, itAt_nil hat], by simp⟩
  | cons a rest ih =>
    intro it n hl hat hn
    cases n with
    | zero => simp at hn
    | succ n =>
      obtain ⟨kv, hkv⟩ := hl a (by simp)
      obtain ⟨hf, hd⟩ := deref_spec hat
      have hna : nodeAt h.mem a = .ok kv := by simp [nodeAt, hkv]
      simp only [TH.findLoop, hf, Bool.false_eq_true, ↓reduceIte, bind, Except.bind, hd, hna]
      by_cases hc : kv.1 = k
      · rw [if_pos hc]
        exact .inl ⟨it, a, rest, kv.2, rfl, hat, by simp, by rw [hkv, ← hc]⟩
      · rw [if_neg hc]
        obtain ⟨it', e, hat'⟩ := inc_spec hi hat
        simp only [e]
        rcases ih (n := n) (fun b hb => hl b (List.mem_cons_of_mem _ hb)) hat' (by simp at hn; omega) with ⟨it2, b, q, v, e2, h2, hb, hm⟩ | ⟨e2, hn2⟩
        · exact .inl ⟨it2, b, q, v, e2, h2, List.mem_cons_of_mem _ hb, hm⟩
        · refine .inr ⟨e2, ?_⟩
          intro b hb v
          rcases List.mem_cons.1 hb with rfl | hb
          · rw [hkv]; intro he; simp only [Option.some.injEq] at he; rw [he] at hc; exact hc rfl
          · exact hn2 b hb v

/-- Erasing at an iterator takes out that node alone; the result stands before the nodes that followed. -/
theorem eraseIt_spec {hash : K → Int} {h : TH K V} (hi : THI hash h) {it : It} {a : Nat} {rest : List Nat} (hat : ItAt h it (a :: rest)) :
    ∃ h' it', h.eraseIt it = .ok (h', it') ∧ THI hash h' ∧ h'.mem = upd h.mem a none ∧ order h'.b = (order h.b).erase a ∧ a ∈ order h.b ∧ ItAt h' it' rest := by
  obtain ⟨it', e', hat'⟩ := inc_spec hi.nodup hat
  generalize hr : a :: rest = r at hat
  cases hat with
  | fin e => cases hr
  | @pos c a' p q e =>
    have hc : c < h.b.length := by
      rcases Nat.lt_or_ge c h.b.length with h' | h'
      · exact h'
      · rw [List.getElem?_eq_none h'] at e; cases e
    have ha : a' ∈ order h.b := mem_order.2 ⟨c, _, e, by simp⟩
    have hn := bucket_nodup hi.nodup e
    simp only [List.cons_append, List.cons.injEq] at hr
    obtain ⟨rfl, rfl⟩ := hr
    obtain ⟨kv, hkv⟩ := hi.live ha
    have hna : nodeAt h.mem a = .ok kv := by simp [nodeAt, hkv]
    have hap : a ∉ p := by
      intro h'
      exact (List.nodup_append.1 hn).2.2 a h' a (by simp) rfl
    have her : (p ++ a :: q).erase a = p ++ q := by
      rw [List.erase_append_right _ hap]; simp
    obtain ⟨B, C, eb, hB, hset⟩ := split_at e
    have hnod := hi.nodup
    rw [eb, order_append, order_cons] at hnod
    have haB : a ∉ order B := by
      intro h'
      exact (List.nodup_append.1 hnod).2.2 a h' a (by simp) rfl
    have hord : order (h.b.set c (some (p ++ q))) = (order h.b).erase a := by
      rw [hset, eb]
      simp only [order_append, order_cons, Option.getD_some]
      rw [List.erase_append_right _ haB]
      simp only [List.append_assoc, List.cons_append]
      rw [List.erase_append_right _ hap]
      simp
    have hperm : ∀ x ∈ (order h.b).erase a, x ∈ order h.b ∧ x ≠ a := by
      intro x hx
      refine ⟨List.mem_of_mem_erase hx, ?_⟩
      rintro rfl
      rw [hi.nodup.mem_erase_iff] at hx
      exact hx.1 rfl
    refine ⟨{ h with b := h.b.set c (some (p ++ q)), mem := upd h.mem a none }, it', ?_, ?_, rfl, hord, ha, ?_⟩
    · unfold TH.eraseIt
      simp only [Bool.false_eq_true, ↓reduceIte]
      rw [if_neg (by omega)]
      simp only [bind, Except.bind, e', e, hna, her]
    · refine ⟨⟨by simpa using hi.sorted.pos, ?_⟩, ?_, ?_⟩
      · intro i l hl x hx
        have hxo : x ∈ order (h.b.set c (some (p ++ q))) := mem_order.2 ⟨i, l, hl, hx⟩
        rw [hord] at hxo
        have hxa := (hperm x hxo).2
        simp only [upd, if_neg hxa, List.length_set]
        simp only at hl
        rw [List.getElem?_set] at hl
        split at hl
        · next hci =>
          simp only [Option.some.injEq] at hl
          subst hl; subst hci
          refine hi.sorted.live c _ e x ?_
          rcases List.mem_append.1 hx with hx | hx
          · exact List.mem_append_left _ hx
          · exact List.mem_append_right _ (List.mem_cons_of_mem _ hx)
        · exact hi.sorted.live i l hl x hx
      · simp only [hord]; exact hi.nodup.erase a
      · intro x hx y hy k v v' hm hm'
        simp only [hord] at hx hy
        simp only [upd, if_neg (hperm x hx).2] at hm
        simp only [upd, if_neg (hperm y hy).2] at hm'
        exact hi.keys x (hperm x hx).1 y (hperm y hy).1 k v v' hm hm'
    · -- the iterator stays valid
      generalize hr : q ++ order (h.b.drop (c + 1)) = r at hat'
      have hdrop : (h.b.set c (some (p ++ q))).drop (c + 1) = h.b.drop (c + 1) := by
        rw [List.drop_set_of_lt (by omega)]
      cases hat' with
      | fin ef => exact .fin ef
      | @pos c2 a2 p2 q2 e2 =>
        by_cases hcc : c2 = c
        · subst hcc
          rw [e] at e2
          simp only [Option.some.injEq] at e2
          have hl2 : q = a2 :: q2 := by
            have hlen := congrArg List.length hr
            simp at hlen
            have h1 := congrArg (fun l => l.drop (l.length - q.length)) e2
            have h2 : (p2 ++ a2 :: q2).drop ((p2 ++ a2 :: q2).length - q.length) = a2 :: q2 := by
              rw [show (p2 ++ a2 :: q2).length - q.length = p2.length by simp; omega]
              simp
            have h3 : (p ++ a :: q).drop ((p ++ a :: q).length - q.length) = q := by
              rw [show (p ++ a :: q).length - q.length = p.length + 1 by simp; omega]
              rw [List.drop_append]
              simp
            simp only [h3] at h1
            rw [h1, h2]
          subst hl2
          have := ItAt.pos (h := { h with b := h.b.set c2 (some (p ++ a2 :: q2)), mem := upd h.mem a none }) (c := c2) (a := a2) (p := p) (q := q2) (by simp [hc])
          simp only [hdrop] at this
          exact this
        · have hcl : c < c2 := by
            -- the list of the new position starts in the rest
            rcases Nat.lt_or_ge c c2 with h' | h'
            · exact h'
            · exfalso
              have hlt : c2 < c := by omega
              have hlen := congrArg List.length hr
              have hd : h.b.drop (c2 + 1) = (h.b.drop (c2 + 1)).take (c - c2 - 1) ++ some (p ++ a :: q) :: h.b.drop (c + 1) := by
                have h1 := List.take_append_drop (c - c2 - 1) (h.b.drop (c2 + 1))
                rw [List.drop_drop, show c2 + 1 + (c - c2 - 1) = c by omega] at h1
                rw [← h1]
                congr 1
                · rw [List.take_append_of_le_length]
                  · rw [List.take_take, Nat.min_self]
                  · simp; omega
                · have h2 := List.getElem?_eq_some_iff.1 e
                  obtain ⟨hh, h3⟩ := h2
                  rw [← h3]
                  exact List.drop_eq_getElem_cons hh
              rw [hd, order_append, order_cons] at hlen
              simp at hlen
              omega
          have := ItAt.pos (h := { h with b := h.b.set c (some (p ++ q)), mem := upd h.mem a none }) (c := c2) (a := a2) (p := p2) (q := q2)
            (by simp only; rw [List.getElem?_set_ne (by omega)]; exact e2)
          simp only at this
          rw [List.drop_set_of_lt (by omega)] at this
          exact this

theorem freeNodes_spec : ∀ {l : List Nat} {mem : Nat → Option (K × V)}, l.Nodup → (∀ a ∈ l, ∃ kv, mem a = some kv) →
    freeNodes mem l = .ok (fun x => if x ∈ l then none else mem x) := by
  intro l
  induction l with
  | nil => intro mem _ _; simp [freeNodes]
  | cons a l ih =>
    intro mem hn hl
    rw [List.nodup_cons] at hn
    obtain ⟨kv, hkv⟩ := hl a (by simp)
    have hna : nodeAt mem a = .ok kv := by simp [nodeAt, hkv]
    simp only [freeNodes, bind, Except.bind, hna]
    rw [ih hn.2]
    · congr 1
      funext x
      by_cases hx : x ∈ l
      · simp [hx]
      · by_cases hxa : x = a
        · simp [hxa, upd]
        · simp [hx, hxa, upd]
    · intro b hb
      have : b ≠ a := by rintro rfl; exact hn.1 hb
      simp only [upd, if_neg this]
      exact hl b (List.mem_cons_of_mem _ hb)

end Verif.Cont
