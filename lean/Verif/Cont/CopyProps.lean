import Verif.Cont.Copy
import Verif.Cont.ListProps
import Verif.Cont.StackProps
import Verif.Cont.HashProps
import Verif.Cont.StrProps
/-
Property C90: a copy of a container holds what the container holds, made by the copy constructor or by assignment.
-/
namespace Verif.Cont

variable {T : Type}

/-! ## List -/

theorem copyItems_spec {na : Nat → Nat} (hna : ∀ i j, na i = na j → i = j) {src : L T} (B : List (Nat × T)) :
    ∀ (A : List (Nat × T)) (n i : Nat) (l : L T) (t : List (Nat × T)), Rep src (A ++ B) → B.length < n → Rep l t →
      (∀ j, i ≤ j → na j ∉ l.head :: t.map Prod.fst) →
      ∃ l' t', copyItems na src n (nxt src B) i l = .ok l' ∧ Rep l' (t ++ t') ∧ t'.map Prod.snd = B.map Prod.snd ∧
        ∀ p ∈ t', ∃ j, p.1 = na j := by
  induction B with
  | nil =>
    intro A n i l t _ hn hl _
    cases n with
    | zero => simp at hn
    | succ n => exact ⟨l, [], by simp [copyItems, nxt], by simpa using hl, rfl, by simp⟩
  | cons b B ih =>
    intro A n i l t hs hn hl hf
    cases n with
    | zero => simp at hn
    | succ n =>
      have hbm : b ∈ A ++ b :: B := by simp
      have hne : b.1 ≠ src.head := hs.ne_head hbm
      have hlv : l.live (na i) = false := by
        have := hf i (Nat.le_refl _)
        rw [← hl.live] at this
        simpa using this
      obtain ⟨l1, e1, hh, h1⟩ := pushBack_spec hl (a := na i) (x := b.2) hlv
      obtain ⟨l', t', e2, h2, h3, h4⟩ := ih (A ++ [b]) n (i + 1) l1 (t ++ [(na i, b.2)]) (by simpa using hs)
        (by simp at hn; omega) h1 (by
          intro j hj hm
          rw [hh] at hm
          simp only [List.map_append, List.map_cons, List.map_nil, List.mem_cons, List.mem_append,
            List.not_mem_nil, or_false] at hm
          have := hf j (by omega)
          simp only [List.mem_cons, not_or] at this
          rcases hm with hm | hm | hm
          · exact this.1 hm
          · exact this.2 hm
          · have := hna _ _ hm; omega)
      refine ⟨l', (na i, b.2) :: t', ?_, by simpa using h2, by simp [h3], ?_⟩
      · have hnx : nxt src (b :: B) = b.1 := rfl
        rw [hnx]
        unfold copyItems
        rw [if_neg hne]
        simp only [bind, Except.bind, hs.get_ok hbm, e1, getNext_ok (hs.mem_live hbm), hs.next_mem]
        exact e2
      · intro p hp
        rcases List.mem_cons.1 hp with rfl | hp
        · exact ⟨i, rfl⟩
        · exact h4 p hp

/-- C90: a copied list holds the same elements in the same order, in nodes of its own. `na` gives the addresses of the new
nodes. -/
theorem list_copy {src : L T} {s : List (Nat × T)} {fuel h : Nat} {na nx pv : Nat → Nat} {ob : Nat → Option T} (hs : Rep src s)
    (hf : s.length < fuel) (hna : ∀ i j, na i = na j → i = j) (hh : ∀ i, na i ≠ h) :
    ∃ l t, listCopy fuel na src h nx pv ob = .ok l ∧ Rep l t ∧ t.map Prod.snd = s.map Prod.snd ∧ ∀ p ∈ t, ∃ i, p.1 = na i := by
  obtain ⟨l, t, e, h1, h2, h3⟩ := copyItems_spec hna s [] fuel 0 (init h nx pv ob) [] (by simpa using hs) hf (init_rep h nx pv ob)
    (by intro j _; simpa [init] using hh j)
  refine ⟨l, t, ?_, by simpa using h1, h2, h3⟩
  unfold listCopy
  simp only [bind, Except.bind, getNext_ok hs.head_live, hs.next_head]
  exact e

/-- C90: assigning a list to another replaces what was there by the same elements in the same order. -/
theorem list_assign {l src : L T} {r s : List (Nat × T)} {fuel : Nat} {na : Nat → Nat} (hl : Rep l r) (hs : Rep src s)
    (hr : r.length < fuel) (hf : s.length < fuel) (hna : ∀ i j, na i = na j → i = j) (hh : ∀ i, na i ≠ l.head) :
    ∃ l' t, listAssign fuel na l src = .ok l' ∧ Rep l' t ∧ t.map Prod.snd = s.map Prod.snd ∧ ∀ p ∈ t, ∃ i, p.1 = na i := by
  obtain ⟨l0, e0, hh0, h0⟩ := clear_spec hl hr
  obtain ⟨l', t, e, h1, h2, h3⟩ := copyItems_spec hna s [] fuel 0 l0 [] (by simpa using hs) hf h0
    (by intro j _; rw [hh0]; simpa using hh j)
  refine ⟨l', t, ?_, by simpa using h1, h2, h3⟩
  unfold listAssign
  simp only [bind, Except.bind, e0, getNext_ok hs.head_live, hs.next_head]
  exact e

/-- C90: assigning a list to itself empties it. -/
theorem list_self_emptied {l : L T} {s : List (Nat × T)} {fuel : Nat} (na : Nat → Nat) (hl : Rep l s) (hf : s.length < fuel) :
    ∃ l', listAssignSelf fuel na l = .ok l' ∧ Rep l' [] := by
  obtain ⟨l0, e0, hh0, h0⟩ := clear_spec hl hf
  refine ⟨l0, ?_, h0⟩
  unfold listAssignSelf
  have hn : l0.next l0.head = l0.head := by rw [h0.next_head]; rfl
  simp only [bind, Except.bind, e0, getNext_ok h0.head_live, hn]
  cases fuel with
  | zero => omega
  | succ n => simp [selfItems]

/-! ## CStack -/

theorem copyCells_spec {plain : Bool} {src : Arr T} (hp : plain = true → ∀ o ∈ src, o ≠ none) (n : Nat) :
    ∀ (i : Nat) (dst : Arr T), i + n = src.length → dst.length = src.length → dst.take i = src.take i →
      copyCells plain src dst i n = .ok src := by
  induction n with
  | zero =>
    intro i dst hi hd ht
    rw [show i = src.length by omega, List.take_length, List.take_of_length_le (by omega)] at ht
    simp [copyCells, ht]
  | succ n ih =>
    intro i dst hi hd ht
    have hi' : i < src.length := by omega
    have hc : cellCopy plain src i = .ok src[i] := by
      unfold cellCopy
      rw [List.getElem?_eq_getElem hi']
      cases he : src[i] with
      | some x => rfl
      | none =>
        cases plain with
        | false => rfl
        | true => exact absurd he (hp rfl _ (List.getElem_mem hi'))
    unfold copyCells
    simp only [bind, Except.bind, hc]
    rw [if_pos (by omega)]
    apply ih (i + 1) _ (by omega) (by simp [hd])
    rw [List.take_add_one, List.take_add_one, List.take_set_of_le (Nat.le_refl i), ht]
    simp [hd, hi']

/-- The new stack `t` has the sectors `news`, with what the sectors `done` of the other stack hold. -/
structure Mirror (mem : Nat → Option (Arr T)) (t : CStack T) (news done : List Nat) : Prop where
  sec : VRep t.sec news
  len : news.length = done.length
  same : ∀ k : Nat, (news[k]?).bind t.mem = (done[k]?).bind mem

theorem copySectors_spec {plain : Bool} {na : Nat → Nat} (hna : ∀ i j, na i = na j → i = j) {mem : Nat → Option (Arr T)} (rest : List Nat) :
    ∀ (done : List Nat) (t : CStack T), (∀ a ∈ rest, ∃ r, mem a = some r ∧ r.length = 16 ∧ (plain = true → ∀ o ∈ r, o ≠ none)) →
      Mirror mem t ((List.range done.length).map na) done →
      ∃ t', copySectors plain na mem (rest.map some) done.length t = .ok t' ∧
        Mirror mem t' ((List.range (done ++ rest).length).map na) (done ++ rest) := by
  induction rest with
  | nil => intro done t _ hm; exact ⟨t, rfl, by simpa using hm⟩
  | cons a rest ih =>
    intro done t hr hm
    obtain ⟨r, hra, hrl, hrp⟩ := hr a (by simp)
    obtain ⟨v, e, hv⟩ := vec_step hm.sec (.pushBack (na done.length))
    simp only [vstep, bind, Except.bind] at e
    cases hp : t.sec.pushBack (na done.length) with
    | error f => rw [hp] at e; cases e
    | ok v2 =>
      rw [hp] at e
      simp only [Except.ok.injEq, Prod.mk.injEq, and_true] at e
      subst e
      have hu : v2.used = done.length + 1 := by rw [hv.used]; simp
      have hat : v2.at (v2.used - 1) = .ok (na done.length) := by
        rw [hu, Nat.add_sub_cancel, vec_at_partial hv (by simp)]
        simp
      have hcc : copyCells plain r (newArr 16) 0 16 = .ok r :=
        copyCells_spec hrp 16 0 (newArr 16) (by omega) (by simp [newArr, hrl]) (by simp)
      have hm' : Mirror mem { t with sec := v2, mem := upd t.mem (na done.length) (some r) } ((List.range (done ++ [a]).length).map na)
          (done ++ [a]) := by
        refine ⟨?_, by simp, ?_⟩
        · rw [List.length_append, List.length_singleton, List.range_succ, List.map_append]
          exact hv
        · intro k
          have hs := hm.same k
          rw [List.length_append, List.length_singleton, List.range_succ, List.map_append]
          rcases Nat.lt_trichotomy k done.length with hk | hk | hk
          · rw [List.getElem?_append_left (by simpa using hk), List.getElem?_append_left hk]
            rw [List.getElem?_eq_getElem (by simpa using hk), List.getElem?_eq_getElem hk] at hs ⊢
            simp only [Option.bind_some, List.getElem_map, List.getElem_range] at hs ⊢
            rw [← hs, upd_ne]
            intro hc
            have := hna _ _ hc
            omega
          · subst hk
            rw [List.getElem?_append_right (by simp), List.getElem?_append_right (by simp)]
            simp [upd, hra]
          · rw [List.getElem?_eq_none (by simp; omega), List.getElem?_eq_none (by simp; omega)]
            rfl
      obtain ⟨t', e2, h2⟩ := ih (done ++ [a]) _ (fun b hb => hr b (by simp [hb])) hm'
      refine ⟨t', ?_, by simpa using h2⟩
      simp only [List.map_cons, copySectors, bind, Except.bind, hp, hat, hra, hcc]
      simpa using e2

theorem sectors_list {s : CStack T} {addrs : List Nat} {xs : List (Option T)} (h : SRep s addrs xs) :
    s.sec.arr.take s.sec.used = addrs.map some := by
  obtain ⟨_, r, hr⟩ := h.sec.arr
  rw [hr, h.sec.used]
  exact List.take_left' (by simp)

theorem freeSectors_spec (as : List Nat) : ∀ mem : Nat → Option (Arr T), as.Nodup → (∀ a ∈ as, ∃ r, mem a = some r) →
    ∃ mem', freeSectors mem (as.map some) = .ok mem' := by
  induction as with
  | nil => intro mem _ _; exact ⟨mem, rfl⟩
  | cons a as ih =>
    intro mem hn hl
    obtain ⟨r, hr⟩ := hl a (by simp)
    rw [List.nodup_cons] at hn
    obtain ⟨mem', e⟩ := ih (upd mem a none) hn.2 (by
      intro b hb
      have : b ≠ a := by rintro rfl; exact hn.1 hb
      rw [upd_ne this]
      exact hl b (List.mem_cons_of_mem _ hb))
    exact ⟨mem', by simp only [List.map_cons, freeSectors, hr]; exact e⟩

theorem Mirror.srep {s : CStack T} {addrs : List Nat} {xs : List (Option T)} (h : SRep s addrs xs) {na : Nat → Nat}
    (hna : ∀ i j, na i = na j → i = j) {t : CStack T} (hm : Mirror s.mem t ((List.range addrs.length).map na) addrs) :
    SRep { t with used := s.used } ((List.range addrs.length).map na) xs := by
  refine ⟨hm.sec, ?_, ?_, h.used, by simpa using h.fits, ?_⟩
  · exact List.Pairwise.map na (fun a b hab hc => hab (hna _ _ hc)) List.nodup_range
  · intro a ha
    obtain ⟨k, hk, rfl⟩ := List.mem_map.1 ha
    rw [List.mem_range] at hk
    have hs := hm.same k
    rw [List.getElem?_eq_getElem (by simpa using hk), List.getElem?_eq_getElem hk] at hs
    simp only [Option.bind_some, List.getElem_map, List.getElem_range] at hs
    obtain ⟨r, hr, hl⟩ := h.arr addrs[k] (List.getElem_mem hk)
    exact ⟨r, by simp only; rw [hs]; exact hr, hl⟩
  · intro i hi
    rw [← h.cells i hi]
    unfold cell
    rw [hm.same]

/-- The elements of the sectors of a stack, never assigned ones included, that a copy reads. -/
def AllAssigned (s : CStack T) (addrs : List Nat) : Prop := ∀ a ∈ addrs, ∀ r, s.mem a = some r → ∀ o ∈ r, o ≠ none

/-- C90: a copied stack holds the same elements in the same order, in sectors of its own. For element types without a
default constructor every element of every sector must have been assigned. -/
theorem stack_copy_partial {s : CStack T} {addrs : List Nat} {xs : List (Option T)} {plain : Bool} {na : Nat → Nat} (h : SRep s addrs xs)
    (hp : plain = true → AllAssigned s addrs) (hna : ∀ i j, na i = na j → i = j) :
    ∃ t news, s.copy plain na = .ok t ∧ SRep t news xs ∧ ∀ a ∈ news, ∃ i, a = na i := by
  obtain ⟨t, e, hm⟩ := copySectors_spec (plain := plain) hna (mem := s.mem) addrs [] { sec := Vec.init, used := 0, mem := fun _ => none }
    (fun a ha => by
      obtain ⟨r, hr, hl⟩ := h.arr a ha
      exact ⟨r, hr, hl, fun hpl => hp hpl a ha r hr⟩)
    ⟨init_vrep, rfl, by intro k; simp⟩
  refine ⟨{ t with used := s.used }, _, ?_, Mirror.srep h hna (by simpa using hm), ?_⟩
  · unfold CStack.copy
    rw [sectors_list h]
    simp only [bind, Except.bind]
    simp only [List.length_nil] at e
    rw [e]
  · intro a ha
    obtain ⟨k, _, rfl⟩ := List.mem_map.1 ha
    exact ⟨k, rfl⟩

/-- C90: assigning a stack to another replaces what was there by the same elements in the same order. -/
theorem stack_assign_partial {s other : CStack T} {as bs : List Nat} {ys xs : List (Option T)} {plain : Bool} {na : Nat → Nat} (hs : SRep s as ys)
    (h : SRep other bs xs) (hp : plain = true → AllAssigned other bs) (hna : ∀ i j, na i = na j → i = j) :
    ∃ t news, s.assign plain na other = .ok t ∧ SRep t news xs ∧ ∀ a ∈ news, ∃ i, a = na i := by
  obtain ⟨mem', e0⟩ := freeSectors_spec as s.mem hs.nodup (fun a ha => by
    obtain ⟨r, hr, _⟩ := hs.arr a ha
    exact ⟨r, hr⟩)
  obtain ⟨t, e, hm⟩ := copySectors_spec (plain := plain) hna (mem := other.mem) bs [] { s with sec := s.sec.clear, mem := mem' }
    (fun a ha => by
      obtain ⟨r, hr, hl⟩ := h.arr a ha
      exact ⟨r, hr, hl, fun hpl => hp hpl a ha r hr⟩)
    ⟨init_vrep, rfl, by intro k; simp⟩
  refine ⟨{ t with used := other.used }, _, ?_, Mirror.srep h hna (by simpa using hm), ?_⟩
  · unfold CStack.assign CStack.clear
    rw [sectors_list hs, sectors_list h]
    simp only [bind, Except.bind, e0]
    simp only [List.length_nil] at e
    rw [e]
  · intro a ha
    obtain ⟨k, _, rfl⟩ := List.mem_map.1 ha
    exact ⟨k, rfl⟩

/-- C90: copying a stack whose element type has no default constructor reads elements that were never assigned, unless
the sectors happen to be full. -/
theorem stack_copy_reads_unset {s : CStack T} {a : Nat} {as : List Nat} {xs : List (Option T)} {r : Arr T} {na : Nat → Nat} (h : SRep s (a :: as) xs)
    (hr : s.mem a = some r) (h0 : r[0]? = some none) : s.copy true na = .error .uninit := by
  have hi : VRep (Vec.init : Vec Nat) [] := init_vrep
  obtain ⟨v, e, hv⟩ := vec_step hi (.pushBack (na 0))
  simp only [vstep, bind, Except.bind] at e
  cases hp : (Vec.init : Vec Nat).pushBack (na 0) with
  | error f => rw [hp] at e; cases e
  | ok v2 =>
    rw [hp] at e
    simp only [Except.ok.injEq, Prod.mk.injEq, and_true] at e
    subst e
    have hat : v2.at (v2.used - 1) = .ok (na 0) := by
      rw [hv.used]
      simp only [List.nil_append, List.length_singleton, Nat.sub_self]
      rw [vec_at_partial hv (by simp)]
      rfl
    unfold CStack.copy
    rw [sectors_list h]
    simp only [List.map_cons, copySectors, bind, Except.bind, hp, hat, hr, copyCells, cellCopy, h0, ↓reduceIte]

/-- C90: after a stack was assigned to itself its sectors are gone but its size is not: reading any of its elements is an
access outside the sector table. -/
theorem stack_self_broken {s : CStack T} {addrs : List Nat} {xs : List (Option T)} (plain : Bool) (na : Nat → Nat) (h : SRep s addrs xs) :
    ∃ t, s.assignSelf plain na = .ok t ∧ t.used = xs.length ∧ ∀ i, i < xs.length → t.at i = .error .outOfBounds := by
  obtain ⟨mem', e0⟩ := freeSectors_spec addrs s.mem h.nodup (fun a ha => by
    obtain ⟨r, hr, _⟩ := h.arr a ha
    exact ⟨r, hr⟩)
  refine ⟨{ s with sec := s.sec.clear, mem := mem' }, ?_, h.used, ?_⟩
  · unfold CStack.assignSelf CStack.clear
    rw [sectors_list h]
    simp only [bind, Except.bind, e0]
    rfl
  · intro i _
    simp [CStack.at, CStack.loc, Vec.at, Vec.arr, Vec.clear, rdA, bind, Except.bind]

/-! ## THash -/

section
variable {K V : Type} [DecidableEq K]

theorem put_map {full : Nat → Nat → Bool} {hash : K → Int} {h : TH K V} {m : K → Option V} (hr : HRep hash h m) {a : Nat} (ha : h.mem a = none)
    (k : K) (v d : V) : ∃ h', h.put full hash d a k v = .ok h' ∧ HRep hash h' (mset m k (some v)) ∧
      ∀ x, x ≠ a → h.mem x = none → h'.mem x = none := by
  obtain ⟨h1, p, e, hr1, hp, hm⟩ := findOrInsert_map (full := full) hr ha k d
  obtain ⟨h2, p2, e2, _, hc⟩ := findOrInsert_spec (full := full) hr.inv ha k d
  rw [e] at e2
  simp only [Except.ok.injEq, Prod.mk.injEq] at e2
  obtain ⟨rfl, rfl⟩ := e2
  have hna : nodeAt h1.mem p = .ok (k, (m k).getD d) := by simp [nodeAt, hm]
  refine ⟨{ h1 with mem := upd h1.mem p (some (k, v)) }, by simp only [TH.put, bind, Except.bind, e, hna], ?_, ?_⟩
  · have := hr1.assign hp hm (v := v)
    have he : mset (mset m k (some ((m k).getD d))) k (some v) = mset m k (some v) := by
      funext x; unfold mset; split <;> simp_all
    rw [he] at this
    exact this
  · intro x hx hn
    rcases hc with ⟨rfl, hpo, w, hw⟩ | ⟨rfl, _, hmem, _⟩
    · have : x ≠ p := by rintro rfl; rw [hn] at hw; cases hw
      simp only [upd_ne this, hn]
    · simp only [upd_ne hx, hmem, hn]

theorem copyEntries_spec {full : Nat → Nat → Bool} {hash : K → Int} {d : V} {na : Nat → Nat} (hna : ∀ i j, na i = na j → i = j)
    {other : TH K V} {m : K → Option V} (ho : HRep hash other m) (rest : List Nat) :
    ∀ (done : List Nat) (it : It) (n i : Nat) (h : TH K V) (m' : K → Option V), order other.b = done ++ rest → ItAt other it rest →
      rest.length < n → HRep hash h m' → (∀ k v, m' k = some v ↔ ∃ a ∈ done, other.mem a = some (k, v)) →
      (∀ j, i ≤ j → h.mem (na j) = none) →
      ∃ h', copyEntries full hash d na other n it i h = .ok h' ∧ HRep hash h' m := by
  induction rest with
  | nil =>
    intro done it n i h m' ho' hat hn hr hm _
    cases n with
    | zero => simp at hn
    | succ n =>
      refine ⟨h, by simp [copyEntries, itAt_nil hat], ?_⟩
      have : m' = m := by
        funext k
        cases e : m k with
        | some v =>
          rw [hm]
          have := (ho.abs k v).1 e
          rwa [ho', List.append_nil] at this
        | none =>
          cases e' : m' k with
          | none => rfl
          | some v =>
            have := (hm k v).1 e'
            rw [List.append_nil] at ho'
            rw [← ho'] at this
            rw [(ho.abs k v).2 this] at e
            cases e
      rw [← this]
      exact hr
  | cons a rest ih =>
    intro done it n i h m' ho' hat hn hr hm hf
    cases n with
    | zero => simp at hn
    | succ n =>
      have hao : a ∈ order other.b := by rw [ho']; simp
      obtain ⟨⟨k, v⟩, hkv⟩ := ho.inv.live hao
      obtain ⟨hfin, hd⟩ := deref_spec hat
      have hna' : nodeAt other.mem a = .ok (k, v) := by simp [nodeAt, hkv]
      obtain ⟨h1, e1, hr1, hk1⟩ := put_map (full := full) hr (hf i (Nat.le_refl _)) k v d
      obtain ⟨it', e2, hat'⟩ := inc_spec ho.inv.nodup hat
      obtain ⟨h', e3, hr'⟩ := ih (done ++ [a]) it' n (i + 1) h1 (mset m' k (some v)) (by simp [ho']) hat' (by simp at hn; omega) hr1
        (by
          intro x w
          unfold mset
          split
          · next hx =>
            subst hx
            constructor
            · intro hw
              exact ⟨a, by simp, by rw [hkv]; simp at hw; rw [hw]⟩
            · rintro ⟨c, hc, hcm⟩
              have hco : c ∈ order other.b := by
                rw [ho']
                simp only [List.mem_append, List.mem_cons, List.not_mem_nil, or_false] at hc ⊢
                rcases hc with hc | hc
                · exact .inl hc
                · exact .inr (.inl hc)
              have := ho.inv.keys c hco a hao x w v hcm hkv
              subst this
              rw [hkv] at hcm
              simp only [Option.some.injEq, Prod.mk.injEq] at hcm
              rw [hcm.2]
          · next hx =>
            rw [hm]
            constructor
            · rintro ⟨c, hc, hcm⟩
              exact ⟨c, by simp [hc], hcm⟩
            · rintro ⟨c, hc, hcm⟩
              simp only [List.mem_append, List.mem_cons, List.not_mem_nil, or_false] at hc
              rcases hc with hc | rfl
              · exact ⟨c, hc, hcm⟩
              · rw [hkv] at hcm
                simp only [Option.some.injEq, Prod.mk.injEq] at hcm
                exact absurd hcm.1.symm hx)
        (by
          intro j hj
          refine hk1 _ ?_ (hf j (by omega))
          intro hc
          have := hna _ _ hc
          omega)
      refine ⟨h', ?_, hr'⟩
      simp only [copyEntries, hfin, Bool.false_eq_true, ↓reduceIte, bind, Except.bind, hd, hna', e1, e2]
      exact e3

theorem empty_hrep (hash : K → Int) (n pct : Nat) (mem : Nat → Option (K × V)) (hn : 0 < n) :
    HRep hash ({ b := List.replicate n none, pct := pct, mem := mem } : TH K V) (fun _ => none) := by
  refine ⟨⟨sorted_replicate hash _ hn, ?_, ?_⟩, ?_⟩
  · simp only [order_replicate]; exact List.nodup_nil
  · simp only [order_replicate]; intro a ha; cases ha
  · simp only [order_replicate]; intro k v
    constructor
    · intro h; cases h
    · rintro ⟨a, ha, _⟩; cases ha

/-- C90: a copied hash table stores the same map, whatever the hash function and however often it grows. -/
theorem hash_copy {full : Nat → Nat → Bool} {hash : K → Int} {d : V} {na : Nat → Nat} {n : Nat} {h : TH K V} {m : K → Option V} (hr : HRep hash h m)
    (hn : (order h.b).length < n) (hna : ∀ i j, na i = na j → i = j) : ∃ h', h.copy full hash d na n = .ok h' ∧ HRep hash h' m := by
  obtain ⟨it, e, hat⟩ := begin_spec hr.inv
  obtain ⟨h', e', hr'⟩ := copyEntries_spec (full := full) (d := d) hna hr (order h.b) [] it n 0
    { b := List.replicate h.b.length none, pct := h.pct, mem := fun _ => none } (fun _ => none) (by simp) hat hn
    (empty_hrep hash _ _ _ hr.inv.sorted.pos) (by simp) (by simp)
  exact ⟨h', by simp only [TH.copy, bind, Except.bind, e]; exact e', hr'⟩

theorem clear_eq {hash : K → Int} {h : TH K V} {m : K → Option V} (hr : HRep hash h m) :
    h.clear hash = .ok { b := List.replicate 32 none, pct := 0, mem := fun x => if x ∈ order h.b then none else h.mem x } := by
  have hfr := freeNodes_spec hr.inv.nodup (mem := h.mem) (fun a ha => hr.inv.live ha)
  simp only [TH.clear, TH.clearAll, bind, Except.bind]
  rw [show (h.b.flatMap fun x => x.getD []) = order h.b from rfl, hfr]
  rfl

/-- C90: assigning a hash table to another replaces its map. The new nodes are at addresses free once the old nodes are
deleted. -/
theorem hash_assign {full : Nat → Nat → Bool} {hash : K → Int} {d : V} {na : Nat → Nat} {n : Nat} {h other : TH K V} {m₀ m : K → Option V}
    (h0 : HRep hash h m₀) (hr : HRep hash other m) (hn : (order other.b).length < n) (hna : ∀ i j, na i = na j → i = j)
    (hfree : ∀ i, na i ∈ order h.b ∨ h.mem (na i) = none) : ∃ h', h.assign full hash d na n other = .ok h' ∧ HRep hash h' m := by
  obtain ⟨it, e, hat⟩ := begin_spec hr.inv
  obtain ⟨h', e', hr'⟩ := copyEntries_spec (full := full) (d := d) hna hr (order other.b) [] it n 0
    { b := List.replicate 32 none, pct := 0, mem := fun x => if x ∈ order h.b then none else h.mem x } (fun _ => none) (by simp) hat hn
    (empty_hrep hash _ _ _ (by omega)) (by simp) (by
      intro j _
      simp only
      split
      · rfl
      · next hj =>
        rcases hfree j with hc | hc
        · exact absurd hc hj
        · exact hc)
  exact ⟨h', by simp only [TH.assign, bind, Except.bind, clear_eq h0, e]; exact e', hr'⟩

/-- C90: assigning a hash table to itself empties it. -/
theorem hash_self_emptied {full : Nat → Nat → Bool} {hash : K → Int} {d : V} {n : Nat} {h : TH K V} {m : K → Option V} (na : Nat → Nat) (hr : HRep hash h m)
    (hn : 0 < n) : ∃ h', h.assignSelf full hash d na n = .ok h' ∧ HRep hash h' (fun _ => none) := by
  have hr' := empty_hrep hash 32 0 (fun x => if x ∈ order h.b then none else h.mem x) (by omega)
  obtain ⟨it, e, hat⟩ := begin_spec hr'.inv
  simp only [order_replicate] at hat
  refine ⟨_, ?_, hr'⟩
  simp only [TH.assignSelf, bind, Except.bind, clear_eq hr, e]
  cases n with
  | zero => omega
  | succ n => simp [selfEntries, itAt_nil hat]

/-- The number of buckets in use. -/
def usedBuckets (b : List (Option (List Nat))) : Nat := b.countP Option.isSome

theorem usedBuckets_new {b : List (Option (List Nat))} {i : Nat} {l : List Nat} (h : b[i]? = some none) :
    usedBuckets (b.set i (some l)) = usedBuckets b + 1 := by
  obtain ⟨A, C, rfl, hl, _⟩ := split_at h
  subst hl
  simp [usedBuckets]
  omega

theorem usedBuckets_old {b : List (Option (List Nat))} {i : Nat} {l l' : List Nat} (h : b[i]? = some (some l)) :
    usedBuckets (b.set i (some l')) = usedBuckets b := by
  obtain ⟨A, C, rfl, hl, _⟩ := split_at h
  subst hl
  simp [usedBuckets]

theorem put_counts {hash : K → Int} {d : V} {h h' : TH K V} {a : Nat} {k : K} {v : V} (e : h.put (fun _ _ => false) hash d a k v = .ok h') :
    h'.pct + usedBuckets h.b = h.pct + usedBuckets h'.b := by
  simp only [TH.put, bind, Except.bind] at e
  cases hf : h.findOrInsert (fun _ _ => false) hash d a k with
  | error f => rw [hf] at e; cases e
  | ok r =>
    rw [hf] at e
    dsimp only at e
    cases hn : nodeAt r.1.mem r.2 with
    | error f => rw [hn] at e; cases e
    | ok kv =>
      rw [hn] at e
      simp only [Except.ok.injEq] at e
      subst e
      show r.1.pct + _ = _ + usedBuckets r.1.b
      unfold TH.findOrInsert at hf
      cases hb : h.b[place hash k h.b.length]? with
      | none => rw [hb] at hf; cases hf
      | some o =>
        rw [hb] at hf
        cases o with
        | none =>
          simp only [TH.grown, Bool.false_eq_true, ↓reduceIte, Except.ok.injEq] at hf
          subst hf
          have := usedBuckets_new (l := [a]) hb
          simp only at this ⊢
          omega
        | some l =>
          simp only [bind, Except.bind] at hf
          cases hs : scan h.mem k l with
          | error f => rw [hs] at hf; cases hf
          | ok o =>
            rw [hs] at hf
            cases o with
            | some x => simp only [Except.ok.injEq] at hf; subst hf; rfl
            | none =>
              simp only [TH.grown, Bool.false_eq_true, ↓reduceIte, Except.ok.injEq] at hf
              subst hf
              have := usedBuckets_old (l' := l ++ [a]) hb
              simp only at this ⊢
              omega

theorem copyEntries_counts {hash : K → Int} {d : V} {na : Nat → Nat} {other : TH K V} (n : Nat) :
    ∀ (it : It) (i : Nat) (h h' : TH K V), copyEntries (fun _ _ => false) hash d na other n it i h = .ok h' →
      h'.pct + usedBuckets h.b = h.pct + usedBuckets h'.b := by
  induction n with
  | zero => intro it i h h' e; cases e
  | succ n ih =>
    intro it i h h' e
    unfold copyEntries at e
    split at e
    · simp only [Except.ok.injEq] at e; subst e; rfl
    · simp only [bind, Except.bind] at e
      cases h1 : other.deref it with
      | error f => rw [h1] at e; cases e
      | ok kv =>
        rw [h1] at e
        dsimp only at e
        cases h2 : h.put (fun _ _ => false) hash d (na i) kv.1 kv.2 with
        | error f => rw [h2] at e; cases e
        | ok g =>
          rw [h2] at e
          dsimp only at e
          cases h3 : other.inc it with
          | error f => rw [h3] at e; cases e
          | ok it' =>
            rw [h3] at e
            have := ih it' (i + 1) g h' e
            have := put_counts h2
            omega

/-- C90: the copy constructor starts from the other table's `m_percentUsed` and then counts every bucket it fills again:
unless the table grows meanwhile, the copy takes itself for as full as the two tables together. -/
theorem hash_copy_overcounts {hash : K → Int} {d : V} {na : Nat → Nat} {n : Nat} {h h' : TH K V}
    (e : h.copy (fun _ _ => false) hash d na n = .ok h') : h'.pct = h.pct + usedBuckets h'.b := by
  simp only [TH.copy, bind, Except.bind] at e
  cases hb : h.begin with
  | error f => rw [hb] at e; cases e
  | ok it =>
    rw [hb] at e
    have := copyEntries_counts n it 0 _ h' e
    have h0 : usedBuckets (List.replicate h.b.length none) = 0 := by simp [usedBuckets]
    simp only at this
    rw [h0] at this
    omega

end

/-! ## Examples -/

/-- A list with two elements. -/
theorem two_nodes : ∃ l : L Nat, Rep l [(1, 7), (2, 8)] := by
  have h0 := init_rep (T := Nat) 0 id id (fun _ => none)
  obtain ⟨l1, _, hh1, h1⟩ := pushBack_spec h0 (a := 1) (x := 7) rfl
  obtain ⟨l2, _, _, h2⟩ := pushBack_spec h1 (a := 2) (x := 8) (by
    have : ¬ l1.live 2 = true := by rw [h1.live, hh1]; simp [init]
    simpa using this)
  exact ⟨l2, h2⟩

/-- A hash table with two entries in the same bucket. -/
theorem two_entries : ∃ h : TH Nat Nat, HRep (fun _ => -1) h (mset (mset (fun _ => none) 1 (some 10)) 2 (some 20)) := by
  have hr0 := empty_hrep (K := Nat) (V := Nat) (fun _ => -1) 32 0 (fun _ => none) (by omega)
  obtain ⟨h1, _, hr1, hk⟩ := put_map (full := fun _ _ => false) hr0 (a := 3) rfl 1 10 0
  obtain ⟨h2, _, hr2, _⟩ := put_map (full := fun _ _ => false) hr1 (a := 4) (hk 4 (by decide) rfl) 2 20 0
  exact ⟨h2, hr2⟩

/-- A list with two elements, copied and assigned. -/
example : ∃ (src l l' : L Nat) (t t' : List (Nat × Nat)), Rep src [(1, 7), (2, 8)] ∧ listCopy 3 (· + 1) src 0 id id (fun _ => none) = .ok l ∧
    Rep l t ∧ t.map Prod.snd = [7, 8] ∧ listAssign 3 (fun i => i + l.head + 1) l src = .ok l' ∧ Rep l' t' ∧ t'.map Prod.snd = [7, 8] := by
  obtain ⟨src, hs⟩ := two_nodes
  obtain ⟨l, t, e, h1, h2, _⟩ := list_copy (fuel := 3) (h := 0) (na := (· + 1)) (nx := id) (pv := id) (ob := fun _ => none) hs (by decide)
    (fun i j => by simp) (fun i => by simp)
  have hlen : t.length < 3 := by
    have := congrArg List.length h2
    simp at this
    omega
  obtain ⟨l', t', e', h1', h2', _⟩ := list_assign (fuel := 3) (na := fun i => i + l.head + 1) h1 hs hlen (by decide) (fun i j => by omega)
    (fun i => by omega)
  exact ⟨src, l, l', t, t', hs, e, h1, h2, e', h1', h2'⟩

/-- … and assigned to itself. -/
example : ∃ l l' : L Nat, Rep l [(1, 7), (2, 8)] ∧ listAssignSelf 3 (· + 3) l = .ok l' ∧ Rep l' [] := by
  obtain ⟨l, h⟩ := two_nodes
  obtain ⟨l', e, h'⟩ := list_self_emptied (fuel := 3) (· + 3) h (by decide)
  exact ⟨l, l', h, e, h'⟩

/-- A stack with two elements, copied, assigned, and assigned to itself. -/
example : ∃ (s t u w : CStack Nat) (as bs cs : List Nat), SRep s as [some 7, some 8] ∧ s.copy false (· + 9) = .ok t ∧ SRep t bs [some 7, some 8] ∧
    t.assign false (· + 5) s = .ok u ∧ SRep u cs [some 7, some 8] ∧ u.assignSelf false id = .ok w ∧ w.used = 2 ∧ w.at 1 = .error .outOfBounds := by
  obtain ⟨s, as, h⟩ := two_elements
  obtain ⟨t, bs, e1, h1, _⟩ := stack_copy_partial (plain := false) (na := (· + 9)) h (by simp) (fun i j => by simp)
  obtain ⟨u, cs, e2, h2, _⟩ := stack_assign_partial (plain := false) (na := (· + 5)) h1 h (by simp) (fun i j => by simp)
  obtain ⟨w, e3, h3, h4⟩ := stack_self_broken false id h2
  exact ⟨s, t, u, w, as, bs, cs, h, e1, h1, e2, h2, e3, h3, h4 1 (by decide)⟩

/-- A stack with an element from `make_next` that nobody assigned. -/
example : ∃ (s : CStack Nat) (a : Nat) (as : List Nat) (xs : List (Option Nat)) (r : Arr Nat), SRep s (a :: as) xs ∧ s.mem a = some r ∧ r[0]? = some none := by
  refine ⟨{ sec := { data := some [some 5], cap := 1, used := 1 }, used := 1, mem := upd (fun _ => none) 5 (some (newArr 16)) }, 5, [], [none], newArr 16,
    ⟨⟨rfl, by decide, by simp, ?_⟩, by simp, ?_, rfl, by simp, ?_⟩, rfl, rfl⟩
  · intro a ha
    simp only [Option.some.injEq] at ha
    subst ha
    exact ⟨rfl, [], rfl⟩
  · intro a ha
    simp only [List.mem_singleton] at ha
    subst ha
    exact ⟨newArr 16, by simp [upd], by simp [newArr]⟩
  · intro i hi
    have : i = 0 := by simpa using hi
    subst this
    rfl

/-- A hash table with two entries, copied (growing all the time), assigned, and assigned to itself. -/
example : ∃ (h t z u w : TH Nat Nat) (m : Nat → Option Nat), m 2 = some 20 ∧ HRep (fun _ => -1) h m ∧ (∃ n, h.copy (fun _ _ => true) (fun _ => -1) 0 (· + 5) n = .ok t) ∧
    HRep (fun _ => -1) t m ∧ (∃ n, z.assign (fun _ _ => false) (fun _ => -1) 0 id n h = .ok u) ∧ HRep (fun _ => -1) u m ∧
    u.assignSelf (fun _ _ => false) (fun _ => -1) 0 id 1 = .ok w ∧ HRep (fun _ => -1) w (fun _ => none) := by
  obtain ⟨h, hr⟩ := two_entries
  obtain ⟨t, e1, h1⟩ := hash_copy (full := fun _ _ => true) (d := 0) (na := (· + 5)) (n := (order h.b).length + 1) hr (by omega) (fun i j => by simp)
  have hr0 := empty_hrep (K := Nat) (V := Nat) (fun _ => -1) 32 0 (fun _ => none) (by omega)
  obtain ⟨u, e2, h2⟩ := hash_assign (full := fun _ _ => false) (d := 0) (na := id) (n := (order h.b).length + 1) hr0 hr (by omega) (fun i j => by simp)
    (fun i => .inr rfl)
  obtain ⟨w, e3, h3⟩ := hash_self_emptied (full := fun _ _ => false) (d := 0) (n := 1) id h2 (by decide)
  exact ⟨h, t, _, u, w, _, rfl, hr, ⟨_, e1⟩, h1, ⟨_, e2⟩, h2, e3, h3⟩

/-- A hash table whose copy counts its bucket twice. -/
example : ∃ h t : TH Nat Nat, (∃ n, h.copy (fun _ _ => false) (fun _ => -1) 0 (· + 5) n = .ok t) ∧ t.pct = h.pct + usedBuckets t.b := by
  obtain ⟨h, hr⟩ := two_entries
  obtain ⟨t, e, _⟩ := hash_copy (full := fun _ _ => false) (d := 0) (na := (· + 5)) (n := (order h.b).length + 1) hr (by omega) (fun i j => by simp)
  exact ⟨h, t, ⟨_, e⟩, hash_copy_overcounts e⟩

#print axioms list_copy
#print axioms list_assign
#print axioms list_self_emptied
#print axioms stack_copy_partial
#print axioms stack_assign_partial
#print axioms stack_copy_reads_unset
#print axioms stack_self_broken
#print axioms hash_copy
#print axioms hash_assign
#print axioms hash_self_emptied
#print axioms hash_copy_overcounts

end Verif.Cont

namespace Verif.CStr

open Verif.C (Byte strlen)

/-- C90: a copied string has the same text. -/
theorem string_copy (junk : Nat → Byte) {s : Str} {t : List Byte} (h : SRep s t) : ∃ s', s.copy junk = .ok s' ∧ SRep s' t := by
  obtain ⟨s', e, h'⟩ := assign_spec junk SRep.init h.nonul h.short
  exact ⟨s', by simp only [Str.copy, bind, Except.bind, h.cstr]; exact e, h'⟩

/-- C90: assigning a string to another gives it the text. -/
theorem string_assign (junk : Nat → Byte) {s src : Str} {t u : List Byte} (h : SRep s t) (hu : SRep src u) :
    ∃ s', s.assignFrom junk src = .ok s' ∧ SRep s' u := by
  obtain ⟨s', e, h'⟩ := assign_spec junk h hu.nonul hu.short
  exact ⟨s', by simp only [Str.assignFrom, bind, Except.bind, hu.cstr]; exact e, h'⟩

/-- C90: assigning a string that has an array to itself calls `strcpy` with the same array as source and target, which is
undefined (the array is large enough, so `Grow` leaves it). -/
theorem string_self_overlaps (junk : Nat → Byte) {s : Str} {t : List Byte} (h : SRep s t) (hv : s.v ≠ none) :
    s.assignSelf junk = .error .overlap := by
  unfold Str.assignSelf
  cases e : s.v with
  | none => exact absurd e hv
  | some b =>
    obtain ⟨hl, hs⟩ := h.arr b e
    have h1 := IsStr.length hs
    have h2 := h.short
    simp only [Verif.C.strlen_of hs]
    rw [if_pos]
    unfold sz
    rw [Nat.mod_eq_of_lt (by omega)]
    omega

/-- A text copied, assigned, and assigned to itself. -/
example : ∃ s t u : Str, SRep s [97, 98] ∧ s.copy (fun _ => 7) = .ok t ∧ SRep t [97, 98] ∧ t.assignFrom (fun _ => 9) s = .ok u ∧ SRep u [97, 98] ∧
    t.assignSelf (fun _ => 7) = .error .overlap := by
  obtain ⟨s, _, h⟩ := assign_spec (fun _ => 1) SRep.init (u := [97, 98]) (by decide) (by decide)
  obtain ⟨t, e1, h1⟩ := string_copy (fun _ => 7) h
  obtain ⟨u, e2, h2⟩ := string_assign (fun _ => 9) h1 h
  have hv : t.v ≠ none := by
    intro hc
    have := (h1.null hc).2
    cases this
  exact ⟨s, t, u, h, e1, h1, e2, h2, string_self_overlaps _ h1 hv⟩

#print axioms string_copy
#print axioms string_assign
#print axioms string_self_overlaps

end Verif.CStr
