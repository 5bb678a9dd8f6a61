import Verif.SH.RegInv
/-
`AddHook` preserves the registry invariant; its effect on the view.
-/
namespace Verif.SH

theorem VInv.mono {n m : Nat} (h : n ≤ m) {v : Vfn} (hv : VInv n v) : VInv m v :=
  ⟨hv.iptr, hv.ioid, fun i hi => Nat.lt_of_lt_of_le (hv.ilt i hi) h, hv.sorted,
    fun i hi s x hx => Nat.lt_of_lt_of_le (hv.hlt i hi s x hx) h⟩

theorem NidInv.mono {n m : Nat} (h : n ≤ m) {vw : Addr → Addr → Bool → List Hook} {d : List Nat}
    (hv : NidInv vw n d) : NidInv vw m d :=
  ⟨hv.uniq, hv.live, hv.nodup, fun x hx => Nat.lt_of_lt_of_le (hv.lt x hx) h,
    fun p a s x hx => Nat.lt_of_lt_of_le (hv.ltv p a s x hx) h⟩

/-- What the lookups at the start of `AddHook` leave alone. -/
structure AddFrame (r r' : Reg) : Prop where
  entries : r'.entries = r.entries
  deleted : r'.deleted = r.deleted
  view : view r' = view r
  next : r.next ≤ r'.next

theorem AddFrame.trans {a b c : Reg} (h1 : AddFrame a b) (h2 : AddFrame b c) : AddFrame a c :=
  ⟨h2.entries.trans h1.entries, h2.deleted.trans h1.deleted, h2.view.trans h1.view,
    Nat.le_trans h1.next h2.next⟩

theorem getVfn_spec {E : Env} {mem0 : Addr → Addr} {r r' : Reg} {o : Nat} {p : Addr}
    (hw : WInv E mem0 r) (hg : getVfn r p = (r', o)) :
    WInv E mem0 r' ∧ AddFrame r r' ∧ r'.hms = r.hms ∧
    (∃ v ∈ r'.vfns, v.oid = o ∧ v.ptr = p) ∧
    (∀ x ∈ r'.vfns, x ∈ r.vfns ∨ (x.oid = o ∧ x.ifaces = [])) := by
  unfold getVfn at hg
  split at hg
  · next v hv =>
    obtain ⟨h1, h2⟩ := find?_key_some hv
    cases hg
    exact ⟨hw, ⟨rfl, rfl, rfl, Nat.le_refl _⟩, rfl, ⟨v, h1, rfl, h2⟩, fun x hx => Or.inl hx⟩
  · next hv =>
    have hnp := find?_key_none hv
    cases hg
    have hlt : ∀ v ∈ r.vfns, v.oid < r.next := hw.s.vlt
    have hview : ∀ v' : Vfn, v'.ptr = p → v'.ifaces = [] →
        view { r with vfns := r.vfns ++ [v'], next := r.next + 1 } = view r := by
      intro v' hp hi
      funext q a s
      unfold view
      simp only [List.find?_append]
      cases hf : r.vfns.find? (·.ptr == q) with
      | some y => rfl
      | none =>
        simp only [Option.none_or, List.find?_singleton]
        split
        · next hq => split at hq
                     · cases hq
                     · rfl
        · next hq => split at hq
                     · cases hq; simp [viewV, hi]
                     · cases hq
    have hview := hview { oid := r.next, ptr := p, orig := r.mem p, thunk := r.mem p % 2 != 0, hms := [], ifaces := [] } rfl rfl
    have hmem : ∀ x, x ∈ r.vfns ++ [{ oid := r.next, ptr := p, orig := r.mem p, thunk := r.mem p % 2 != 0, hms := [], ifaces := [] : Vfn }] →
      x ∈ r.vfns ∨ x = { oid := r.next, ptr := p, orig := r.mem p, thunk := r.mem p % 2 != 0, hms := [], ifaces := [] } := by
      intro x hx; simpa using hx
    refine ⟨?_, ⟨rfl, rfl, hview, Nat.le_succ _⟩, rfl, ?_, ?_⟩
    · refine ⟨⟨?_, ?_, ?_, ?_⟩, ?_, ?_, ?_, ?_, ?_⟩
      · show (List.map Vfn.ptr (r.vfns ++ [_])).Nodup
        rw [List.map_append, List.nodup_append]
        refine ⟨hw.s.vptr, by simp, ?_⟩
        intro a ha b hb
        simp only [List.map_cons, List.map_nil, List.mem_singleton] at hb
        obtain ⟨x, hx, rfl⟩ := List.mem_map.1 ha
        rw [hb]; exact hnp x hx
      · show (List.map Vfn.oid (r.vfns ++ [_])).Nodup
        rw [List.map_append, List.nodup_append]
        refine ⟨hw.s.void, by simp, ?_⟩
        intro a ha b hb
        simp only [List.map_cons, List.map_nil, List.mem_singleton] at hb
        obtain ⟨x, hx, rfl⟩ := List.mem_map.1 ha
        rw [hb]; exact Nat.ne_of_lt (hlt x hx)
      · intro x hx
        rcases hmem x hx with h | rfl
        · exact Nat.lt_succ_of_lt (hlt x h)
        · exact Nat.lt_succ_self _
      · intro x hx
        rcases hmem x hx with h | rfl
        · exact (hw.s.vi x h).mono (Nat.le_succ _)
        · exact ⟨by simp, by simp, by simp, by simp, by simp⟩
      · rw [hview]; exact hw.ids
      · rw [hview]; exact hw.nid.mono (Nat.le_succ _)
      · refine hw.ref.congr rfl rfl ?_
        intro a b
        constructor
        · rintro ⟨v, hv, h1, h2⟩
          rcases hmem v hv with h | rfl
          · exact ⟨v, h, h1, h2⟩
          · simp at h2
        · rintro ⟨v, hv, h1, h2⟩
          exact ⟨v, List.mem_append_left _ hv, h1, h2⟩
      · refine ⟨?_, hw.att.valid, ?_, ?_, ?_, ?_⟩
        · intro o a b c h; exact Nat.lt_succ_of_lt (hw.att.hlt o a b c h)
        · intro v hv
          rcases hmem v hv with h | rfl
          · exact hw.att.sub v h
          · simp
        · intro v hv
          rcases hmem v hv with h | rfl
          · exact hw.att.nodup v h
          · simp
        · intro v hv
          rcases hmem v hv with h | rfl
          · exact hw.att.perm v h
          · simp
        · intro v hv
          rcases hmem v hv with h | rfl
          · exact hw.att.sorted v h
          · simp
      · refine ⟨?_, ?_, hw.mem.frozen, ?_⟩
        · intro v hv hok
          rcases hmem v hv with h | rfl
          · exact hw.mem.orig v h hok
          · exact hw.mem.other p hok hnp
        · intro a hok ha
          exact hw.mem.other a hok (fun v hv => ha v (List.mem_append_left _ hv))
        · intro v hv hwr o a b c h1 h2
          rcases hmem v hv with h | rfl
          · exact hw.mem.served v h hwr o a b c h1 h2
          · simp at h1
    · exact ⟨_, List.mem_append_right _ (List.mem_singleton.2 rfl), rfl, rfl⟩
    · intro x hx
      rcases hmem x hx with h | rfl
      · exact Or.inl h
      · exact Or.inr ⟨rfl, rfl⟩

theorem getHookMan_spec {E : Env} {mem0 : Addr → Addr} {r r' : Reg} {o : Nat} {plug : Plugin}
    {pub : PubFunc} {info : Info} (hw : WInv E mem0 r) (hv : info.version ≠ -1)
    (hpub : ∀ h ∈ r.hms, h.pub = pub → h.plug = plug)
    (hg : getHookMan r plug pub info = (r', o)) :
    WInv E mem0 r' ∧ AddFrame r r' ∧ r'.vfns = r.vfns ∧
    (∃ info', HasHm r' o plug pub info' ∧ (HasHm r o plug pub info' ∨ info' = info)) ∧
    (∀ o' a b c, HasHm r o' a b c → HasHm r' o' a b c) ∧
    (∀ o' a b c, HasHm r' o' a b c → HasHm r o' a b c ∨ (o' = o ∧ a = plug ∧ b = pub)) := by
  unfold getHookMan at hg
  split at hg
  · next h hf =>
    have h1 := List.mem_of_find?_eq_some hf
    have h2 := List.find?_some hf
    simp at h2
    cases hg
    have hh : HasHm r h.oid plug pub h.info := ⟨h, h1, rfl, h2.1, h2.2, rfl⟩
    exact ⟨hw, ⟨rfl, rfl, rfl, Nat.le_refl _⟩, rfl, ⟨h.info, hh, Or.inl hh⟩, fun _ _ _ _ h => h,
      fun _ _ _ _ h => Or.inl h⟩
  · next hf =>
    have hnone : ∀ h ∈ r.hms, h.pub ≠ pub := by
      intro h hh hc
      rw [List.find?_eq_none] at hf
      have := hf h hh
      simp at this
      exact this (hpub h hh hc) hc
    cases hg
    have hhas : ∀ o' a b c, HasHm { r with hms := r.hms ++ [{ oid := r.next, plug := plug, pub := pub, info := info, vfns := [] }], next := r.next + 1 } o' a b c ↔
        HasHm r o' a b c ∨ (o' = r.next ∧ a = plug ∧ b = pub ∧ c = info) := by
      intro o' a b c
      unfold HasHm
      constructor
      · rintro ⟨h, hh, e1, e2, e3, e4⟩
        rcases List.mem_append.1 hh with hh | hh
        · exact Or.inl ⟨h, hh, e1, e2, e3, e4⟩
        · simp at hh; subst hh; exact Or.inr ⟨e1.symm, e2.symm, e3.symm, e4.symm⟩
      · rintro (⟨h, hh, e⟩ | ⟨rfl, rfl, rfl, rfl⟩)
        · exact ⟨h, List.mem_append_left _ hh, e⟩
        · exact ⟨_, List.mem_append_right _ (List.mem_singleton.2 rfl), rfl, rfl, rfl, rfl⟩
    have hold : ∀ o' a b c, HasHm r o' a b c → o' ≠ r.next := by
      intro o' a b c h hc; have := hw.att.hlt o' a b c h; omega
    have hoid : ∀ h ∈ r.hms, h.oid ≠ r.next := fun h hh => hold h.oid _ _ _ ⟨h, hh, rfl, rfl, rfl, rfl⟩
    have hvw : view { r with hms := r.hms ++ [{ oid := r.next, plug := plug, pub := pub, info := info, vfns := [] }], next := r.next + 1 } = view r := rfl
    have hold' : ∀ v ∈ r.vfns, ∀ o' ∈ v.hms, o' ≠ r.next := by
      intro v hv o' ho
      obtain ⟨a, b, c, h⟩ := hw.att.sub v hv o' ho
      exact hold _ _ _ _ h
    refine ⟨?_, ⟨rfl, rfl, rfl, Nat.le_succ _⟩, rfl, ⟨info, ?_, Or.inr rfl⟩, ?_, ?_⟩
    · refine ⟨⟨hw.s.vptr, hw.s.void, ?_, ?_⟩, hw.ids, hw.nid.mono (Nat.le_succ _), ?_, ?_, ?_⟩
      · intro x hx; exact Nat.lt_succ_of_lt (hw.s.vlt x hx)
      · intro x hx; exact (hw.s.vi x hx).mono (Nat.le_succ _)
      · refine ⟨?_, ?_, ?_, ?_, ?_, ?_⟩
        · show (List.map HookMan.oid (r.hms ++ [_])).Nodup
          rw [List.map_append, List.nodup_append]
          refine ⟨hw.ref.oid, by simp, ?_⟩
          intro a ha b hb
          simp only [List.map_cons, List.map_nil, List.mem_singleton] at hb
          obtain ⟨x, hx, rfl⟩ := List.mem_map.1 ha
          rw [hb]; exact hoid x hx
        · show (List.map HookMan.pub (r.hms ++ [_])).Nodup
          rw [List.map_append, List.nodup_append]
          refine ⟨hw.ref.pub, by simp, ?_⟩
          intro a ha b hb
          simp only [List.map_cons, List.map_nil, List.mem_singleton] at hb
          obtain ⟨x, hx, rfl⟩ := List.mem_map.1 ha
          rw [hb]; exact hnone x hx
        · intro h hh o'
          rcases List.mem_append.1 hh with hh | hh
          · exact hw.ref.mem h hh o'
          · simp at hh; subst hh
            simp only [List.not_mem_nil, false_iff]
            rintro ⟨v, hv, h1, h2⟩
            exact hold' v hv _ (List.mem_of_mem_head? h2) rfl
        · intro h hh
          rcases List.mem_append.1 hh with hh | hh
          · exact hw.ref.nodup h hh
          · simp at hh; subst hh; simp
        · intro h hh
          rcases List.mem_append.1 hh with hh | hh
          · exact hw.ref.stored h hh
          · simp at hh; subst hh
            simp only [if_true]
            exact hw.ref.other pub hnone
        · intro p hp
          exact hw.ref.other p (fun h hh => hp h (List.mem_append_left _ hh))
      · refine ⟨?_, ?_, ?_, hw.att.nodup, hw.att.perm, ?_⟩
        · intro o' a b c h
          rcases (hhas o' a b c).1 h with h | ⟨rfl, _⟩
          · exact Nat.lt_succ_of_lt (hw.att.hlt o' a b c h)
          · exact Nat.lt_succ_self _
        · intro o' a b c h
          rcases (hhas o' a b c).1 h with h | ⟨_, _, _, rfl⟩
          · exact hw.att.valid o' a b c h
          · exact hv
        · intro v hv o' ho
          obtain ⟨a, b, c, h⟩ := hw.att.sub v hv o' ho
          exact ⟨a, b, c, (hhas ..).2 (Or.inl h)⟩
        · intro v hv
          refine List.Pairwise.imp_of_mem ?_ (hw.att.sorted v hv)
          intro a b ha hb h p q i p' q' i' h1 h2
          rcases (hhas ..).1 h1 with h1 | ⟨h1, _⟩
          · rcases (hhas ..).1 h2 with h2 | ⟨h2, _⟩
            · exact h p q i p' q' i' h1 h2
            · exact absurd h2 (hold' v hv b hb)
          · exact absurd h1 (hold' v hv a ha)
      · refine ⟨hw.mem.orig, hw.mem.other, hw.mem.frozen, ?_⟩
        intro v hv hwr o' a b c h1 h2
        rcases (hhas ..).1 h2 with h2 | ⟨h2, _⟩
        · exact hw.mem.served v hv hwr o' a b c h1 h2
        · exact absurd h2 (hold' v hv _ (List.mem_of_mem_head? h1))
    · exact (hhas ..).2 (Or.inr ⟨rfl, rfl, rfl, rfl⟩)
    · intro o' a b c h; exact (hhas ..).2 (Or.inl h)
    · intro o' a b c h
      rcases (hhas ..).1 h with h | ⟨h1, h2, h3, _⟩
      · exact Or.inl h
      · exact Or.inr ⟨h1, h2, h3⟩

theorem hasHm_of_mem {r : Reg} {h : HookMan} (hh : h ∈ r.hms) : HasHm r h.oid h.plug h.pub h.info :=
  ⟨h, hh, rfl, rfl, rfl, rfl⟩

theorem hasHm_fun {r : Reg} (hn : (r.hms.map HookMan.oid).Nodup) {o : Nat} {a a' : Plugin} {b b' : PubFunc}
    {c c' : Info} (h1 : HasHm r o a b c) (h2 : HasHm r o a' b' c') : a = a' ∧ b = b' ∧ c = c' := by
  obtain ⟨x, hx, e1, e2, e3, e4⟩ := h1
  obtain ⟨y, hy, f1, f2, f3, f4⟩ := h2
  have := nodup_key_inj hn hx hy (by rw [e1, f1])
  subst this
  exact ⟨e2.symm.trans f2, e3.symm.trans f3, e4.symm.trans f4⟩

theorem insertByVersion_spec {r : Reg} (hn : (r.hms.map HookMan.oid).Nodup) (ver : Int) (o : Nat)
    (l : List Nat) (hl : ∀ x ∈ l, ∃ a b c, HasHm r x a b c) :
    ∃ A B, l = A ++ B ∧ insertByVersion r ver o l = .ok (A ++ o :: B) ∧
      (∀ x ∈ A, ∀ a b c, HasHm r x a b c → ver ≤ c.version) ∧
      (∀ x, B.head? = some x → ∀ a b c, HasHm r x a b c → c.version < ver) := by
  induction l with
  | nil => exact ⟨[], [], rfl, rfl, by simp, by simp⟩
  | cons x xs ih =>
    obtain ⟨a, b, c, h, hh, e1, e2, e3, e4⟩ := hl x (List.mem_cons_self ..)
    have hd : derefHm r x = .ok h := by rw [← e1]; exact derefHm_ok hn hh
    by_cases hlt : h.info.version < ver
    · refine ⟨[], x :: xs, rfl, ?_, by simp, ?_⟩
      · unfold insertByVersion; rw [hd]; simp [bind, Except.bind, hlt]
      · intro y hy a' b' c' hy'
        simp at hy; subst hy
        obtain ⟨_, _, e⟩ := hasHm_fun hn hy' ⟨h, hh, e1, rfl, rfl, rfl⟩
        rw [e]; exact hlt
    · obtain ⟨A, B, e, hi, h1, h2⟩ := ih (fun y hy => hl y (List.mem_cons_of_mem _ hy))
      refine ⟨x :: A, B, by rw [e]; rfl, ?_, ?_, h2⟩
      · unfold insertByVersion; rw [hd]; simp [bind, Except.bind, hlt, hi]
      · intro y hy a' b' c' hy'
        rcases List.mem_cons.1 hy with rfl | hy
        · obtain ⟨_, _, e⟩ := hasHm_fun hn hy' ⟨h, hh, e1, rfl, rfl, rfl⟩
          rw [e]; omega
        · exact h1 y hy a' b' c' hy'

/-- The list of managers of a record after attaching one more. -/
theorem attach_list {r : Reg} (hn : (r.hms.map HookMan.oid).Nodup) {offers A B : List Nat} {o : Nat}
    {a0 : Plugin} {b0 : PubFunc} {c0 : Info} (ho : HasHm r o a0 b0 c0)
    (hno : o ∉ A ++ B) (hnd : (A ++ B).Nodup) (hp : (A ++ B).Perm offers)
    (hs : (A ++ B).Pairwise fun a b => ∀ p q i p' q' i', HasHm r a p q i → HasHm r b p' q' i' →
      i'.version < i.version ∨ (i'.version = i.version ∧ [a, b].Sublist offers))
    (hA : ∀ x ∈ A, ∀ a b c, HasHm r x a b c → c0.version ≤ c.version)
    (hB : ∀ x, B.head? = some x → ∀ a b c, HasHm r x a b c → c.version < c0.version)
    (hsub : ∀ x ∈ A ++ B, ∃ a b c, HasHm r x a b c) :
    (A ++ o :: B).Nodup ∧ (A ++ o :: B).Perm (offers ++ [o]) ∧
    (A ++ o :: B).Pairwise fun a b => ∀ p q i p' q' i', HasHm r a p q i → HasHm r b p' q' i' →
      i'.version < i.version ∨ (i'.version = i.version ∧ [a, b].Sublist (offers ++ [o])) := by
  have hperm : (A ++ o :: B).Perm (o :: (A ++ B)) := List.perm_middle
  have hBall : ∀ x ∈ B, ∀ a b c, HasHm r x a b c → c.version < c0.version := by
    cases B with
    | nil => simp
    | cons y ys =>
      intro x hx a b c h
      rcases List.mem_cons.1 hx with rfl | hx
      · exact hB x rfl a b c h
      · obtain ⟨a', b', c', hy⟩ := hsub y (by simp)
        have h1 := hB y rfl a' b' c' hy
        have h2 := (List.pairwise_append.1 hs).2.1
        have h3 := (List.pairwise_cons.1 h2).1 x hx _ _ _ _ _ _ hy h
        rcases h3 with h3 | ⟨h3, _⟩ <;> omega
  refine ⟨hperm.nodup_iff.2 (List.nodup_cons.2 ⟨hno, hnd⟩), ?_, ?_⟩
  · exact hperm.trans ((List.Perm.cons o hp).trans (List.perm_append_comm (l₁ := [o])))
  · have mono : ∀ {a b : Nat}, [a, b].Sublist offers → [a, b].Sublist (offers ++ [o]) := by
      intro a b h; exact h.trans (List.sublist_append_left ..)
    obtain ⟨s1, s2, s3⟩ := List.pairwise_append.1 hs
    refine List.pairwise_append.2 ⟨s1.imp ?_, List.pairwise_cons.2 ⟨?_, s2.imp ?_⟩, ?_⟩
    · intro a b h p q i p' q' i' h1 h2
      exact (h p q i p' q' i' h1 h2).imp id (fun x => ⟨x.1, mono x.2⟩)
    · intro b hb p q i p' q' i' h1 h2
      left
      obtain ⟨_, _, e⟩ := hasHm_fun hn h1 ho
      rw [e]; exact hBall b hb _ _ _ h2
    · intro a b h p q i p' q' i' h1 h2
      exact (h p q i p' q' i' h1 h2).imp id (fun x => ⟨x.1, mono x.2⟩)
    · intro a ha b hb p q i p' q' i' h1 h2
      rcases List.mem_cons.1 hb with rfl | hb
      · obtain ⟨_, _, e⟩ := hasHm_fun hn h2 ho
        have := hA a ha _ _ _ h1
        rw [e]
        by_cases heq : c0.version = i.version
        · right
          refine ⟨heq, ?_⟩
          have hao : [a].Sublist offers :=
            List.singleton_sublist.2 (hp.mem_iff.1 (List.mem_append_left _ ha))
          exact hao.append (List.Sublist.refl [b])
        · left; omega
      · exact (s3 a ha b hb p q i p' q' i' h1 h2).imp id (fun x => ⟨x.1, mono x.2⟩)

/-- Replacing the attached managers of one record (with consistent reference counts and memory)
keeps the invariant. -/
theorem WInv.rehm {E : Env} {mem0 : Addr → Addr} {r r2 : Reg} (hw : WInv E mem0 r) {v : Vfn} (hv : v ∈ r.vfns)
    (H O : List Nat)
    (hvf : r2.vfns = (setVfn r { v with hms := H, offers := O }).vfns)
    (hen : r2.entries = r.entries) (hnx : r2.next = r.next) (hde : r2.deleted = r.deleted)
    (hco : hmCore r2 = hmCore r) (hrf : RefInv r2 (Serves r2))
    (hsub : ∀ o ∈ H, ∃ a b c, HasHm r o a b c) (hnd : H.Nodup) (hpe : H.Perm O)
    (hso : H.Pairwise fun a b => ∀ p q i p' q' i', HasHm r a p q i → HasHm r b p' q' i' →
      i'.version < i.version ∨ (i'.version = i.version ∧ [a, b].Sublist O))
    (hmo : ∀ a, a ≠ v.ptr → r2.mem a = r.mem a)
    (hmf : E.writable v.ptr = false → r2.mem v.ptr = r.mem v.ptr)
    (hms : E.writable v.ptr = true → ∀ o plug pub info, H.head? = some o → HasHm r o plug pub info →
      r2.mem v.ptr = info.hookfunc) :
    WInv E mem0 r2 ∧ AddFrame r r2 := by
  have hm : ∀ x, x ∈ r2.vfns ↔ x = { v with hms := H, offers := O } ∨ (x ∈ r.vfns ∧ x.oid ≠ v.oid) := by
    intro x; rw [hvf]; exact mem_setVfn (v' := { v with hms := H, offers := O }) hv rfl x
  have hvi : VInv r.next { v with hms := H, offers := O } := by
    have := hw.s.vi v hv
    exact ⟨this.iptr, this.ioid, this.ilt, this.sorted, this.hlt⟩
  have hs' := hw.s.setVfn (v' := { v with hms := H, offers := O }) hv rfl rfl hvi
  have hview : view r2 = view r := by
    rw [view_congr_vfns hvf]
    exact view_setVfn_hms hw.s hv rfl rfl rfl
  have hhas := hasHm_congr hco
  refine ⟨⟨?_, ?_, ?_, hrf, ?_, ?_⟩, hen, hde, hview, Nat.le_of_eq hnx.symm⟩
  · refine ⟨by rw [hvf]; exact hs'.vptr, by rw [hvf]; exact hs'.void, ?_, ?_⟩
    · intro x hx; rw [hnx]; exact hs'.vlt x (hvf ▸ hx)
    · intro x hx; rw [hnx]; exact hs'.vi x (hvf ▸ hx)
  · rw [hview, hen]; exact hw.ids
  · rw [hview, hnx, hde]; exact hw.nid
  · refine ⟨?_, ?_, ?_, ?_, ?_, ?_⟩
    · intro o a b c h; rw [hnx]; exact hw.att.hlt o a b c ((hhas ..).1 h)
    · intro o a b c h; exact hw.att.valid o a b c ((hhas ..).1 h)
    · intro x hx o ho
      rcases (hm x).1 hx with rfl | ⟨hx, _⟩
      · obtain ⟨a, b, c, h⟩ := hsub o ho; exact ⟨a, b, c, (hhas ..).2 h⟩
      · obtain ⟨a, b, c, h⟩ := hw.att.sub x hx o ho; exact ⟨a, b, c, (hhas ..).2 h⟩
    · intro x hx
      rcases (hm x).1 hx with rfl | ⟨hx, _⟩
      · exact hnd
      · exact hw.att.nodup x hx
    · intro x hx
      rcases (hm x).1 hx with rfl | ⟨hx, _⟩
      · exact hpe
      · exact hw.att.perm x hx
    · intro x hx
      rcases (hm x).1 hx with rfl | ⟨hx, _⟩
      · exact hso.imp (fun h p q i p' q' i' h1 h2 => h p q i p' q' i' ((hhas ..).1 h1) ((hhas ..).1 h2))
      · exact (hw.att.sorted x hx).imp
          (fun h p q i p' q' i' h1 h2 => h p q i p' q' i' ((hhas ..).1 h1) ((hhas ..).1 h2))
  · refine ⟨?_, ?_, ?_, ?_⟩
    · intro x hx hok
      rcases (hm x).1 hx with rfl | ⟨hx, _⟩
      · exact hw.mem.orig v hv hok
      · exact hw.mem.orig x hx hok
    · intro a hok ha
      have hav : v.ptr ≠ a := ha { v with hms := H, offers := O } ((hm _).2 (Or.inl rfl))
      rw [hmo a (fun h => hav h.symm)]
      apply hw.mem.other a hok
      intro x hx hc
      by_cases hxo : x.oid = v.oid
      · have := nodup_key_inj hw.s.void hx hv hxo
        subst this; exact hav hc
      · exact ha x ((hm x).2 (Or.inr ⟨hx, hxo⟩)) hc
    · intro a hwr
      by_cases hav : a = v.ptr
      · subst hav; rw [hmf hwr]; exact hw.mem.frozen _ hwr
      · rw [hmo a hav]; exact hw.mem.frozen _ hwr
    · intro x hx hwr o a b c h1 h2
      have h2 := (hhas ..).1 h2
      rcases (hm x).1 hx with rfl | ⟨hx, hxo⟩
      · exact hms hwr o a b c h1 h2
      · have hpp : x.ptr ≠ v.ptr := by
          intro hc
          exact hxo (congrArg Vfn.oid (nodup_key_inj (key := Vfn.ptr) hw.s.vptr hx hv hc))
        rw [hmo _ hpp]; exact hw.mem.served x hx hwr o a b c h1 h2

theorem patch_mem (E : Env) (r : Reg) (p val : Addr) :
    (patch E r p val).mem = if E.writable p then upd r.mem p val else r.mem := by
  unfold patch; split <;> rfl

theorem patch_frame (E : Env) (r : Reg) (p val : Addr) :
    (patch E r p val).vfns = r.vfns ∧ (patch E r p val).entries = r.entries ∧ (patch E r p val).next = r.next ∧
    (patch E r p val).deleted = r.deleted ∧ (patch E r p val).hms = r.hms ∧ (patch E r p val).stored = r.stored := by
  unfold patch; split <;> exact ⟨rfl, rfl, rfl, rfl, rfl, rfl⟩

/-- The serving relation after replacing the managers of one record. -/
theorem serves_rehm {r r2 : Reg} {v : Vfn} (hv : v ∈ r.vfns) (H O : List Nat)
    (hvf : r2.vfns = (setVfn r { v with hms := H, offers := O }).vfns) (a b : Nat) :
    Serves r2 a b ↔ (a = v.oid ∧ H.head? = some b) ∨ (a ≠ v.oid ∧ Serves r a b) := by
  have hm : ∀ x, x ∈ r2.vfns ↔ x = { v with hms := H, offers := O } ∨ (x ∈ r.vfns ∧ x.oid ≠ v.oid) := by
    intro x; rw [hvf]; exact mem_setVfn (v' := { v with hms := H, offers := O }) hv rfl x
  unfold Serves
  constructor
  · rintro ⟨x, hx, rfl, h⟩
    rcases (hm x).1 hx with rfl | ⟨hx, hxo⟩
    · exact Or.inl ⟨rfl, h⟩
    · exact Or.inr ⟨hxo, x, hx, rfl, h⟩
  · rintro (⟨rfl, h⟩ | ⟨ha, x, hx, rfl, h⟩)
    · exact ⟨_, (hm _).2 (Or.inl rfl), rfl, h⟩
    · exact ⟨x, (hm x).2 (Or.inr ⟨hx, ha⟩), rfl, h⟩

theorem serves_self {r : Reg} (hs : SInv r) {v : Vfn} (hv : v ∈ r.vfns) (b : Nat) :
    Serves r v.oid b ↔ v.hms.head? = some b := by
  constructor
  · rintro ⟨x, hx, h1, h2⟩
    have := nodup_key_inj hs.void hx hv h1
    subst this; exact h2
  · intro h; exact ⟨v, hv, rfl, h⟩

theorem addHookMan_spec {E : Env} {mem0 : Addr → Addr} {r : Reg} (hw : WInv E mem0 r) {v : Vfn} (hv : v ∈ r.vfns)
    {hmo : Nat} {plug : Plugin} {pub : PubFunc} {info : Info} (hh : HasHm r hmo plug pub info) :
    ∃ r', addHookMan E r v.oid hmo = .ok r' ∧ WInv E mem0 r' ∧ AddFrame r r' ∧ hmCore r' = hmCore r ∧
      (∃ v' ∈ r'.vfns, v'.oid = v.oid ∧ v'.ptr = v.ptr ∧ v'.ifaces = v.ifaces ∧ hmo ∈ v'.hms ∧
        (∀ o ∈ v.hms, o ∈ v'.hms)) ∧
      (∀ x ∈ r'.vfns, x.oid ≠ v.oid → x ∈ r.vfns) := by
  obtain ⟨h, hmem, e1, e2, e3, e4⟩ := hh
  subst e1
  have hval := hw.att.valid _ _ _ _ (hasHm_of_mem hmem)
  unfold addHookMan
  rw [derefVfn_ok hw.s hv, derefHm_ok hw.ref.oid hmem]
  simp only [bind, Except.bind, if_neg hval]
  by_cases hin : h.oid ∈ v.hms
  · rw [if_pos hin]
    exact ⟨r, rfl, hw, ⟨rfl, rfl, rfl, Nat.le_refl _⟩, rfl, ⟨v, hv, rfl, rfl, rfl, hin, fun _ h => h⟩, fun x hx _ => hx⟩
  · rw [if_neg hin]
    obtain ⟨A, B, hAB, hins, hA, hB⟩ := insertByVersion_spec hw.ref.oid h.info.version h.oid v.hms (hw.att.sub v hv)
    rw [hins]
    obtain ⟨l1, l2, l3⟩ := attach_list hw.ref.oid (offers := v.offers) (hasHm_of_mem hmem) (hAB ▸ hin)
      (hAB ▸ hw.att.nodup v hv) (hAB ▸ hw.att.perm v hv) (hAB ▸ hw.att.sorted v hv) hA hB
      (hAB ▸ hw.att.sub v hv)
    have hsub : ∀ o ∈ A ++ h.oid :: B, ∃ a b c, HasHm r o a b c := by
      intro o ho
      have : o = h.oid ∨ o ∈ v.hms := by
        rw [hAB]; simp only [List.mem_append, List.mem_cons] at ho ⊢
        rcases ho with ho | ho | ho
        · exact Or.inr (Or.inl ho)
        · exact Or.inl ho
        · exact Or.inr (Or.inr ho)
      rcases this with rfl | ho
      · exact ⟨_, _, _, hasHm_of_mem hmem⟩
      · exact hw.att.sub v hv o ho
    have hkeep : ∀ o ∈ v.hms, o ∈ A ++ h.oid :: B := by
      intro o ho; rw [hAB] at ho; simp only [List.mem_append, List.mem_cons] at ho ⊢
      rcases ho with ho | ho
      · exact Or.inl ho
      · exact Or.inr (Or.inr ho)
    have fin : ∀ r2 : Reg, r2.vfns = (setVfn r { v with hms := A ++ h.oid :: B, offers := v.offers ++ [h.oid] }).vfns →
        (∃ v' ∈ r2.vfns, v'.oid = v.oid ∧ v'.ptr = v.ptr ∧ v'.ifaces = v.ifaces ∧ h.oid ∈ v'.hms ∧
          (∀ o ∈ v.hms, o ∈ v'.hms)) ∧ (∀ x ∈ r2.vfns, x.oid ≠ v.oid → x ∈ r.vfns) := by
      intro r2 hvf
      have hm : ∀ x, x ∈ r2.vfns ↔ x = { v with hms := A ++ h.oid :: B, offers := v.offers ++ [h.oid] } ∨
          (x ∈ r.vfns ∧ x.oid ≠ v.oid) := by
        intro x; rw [hvf]
        exact mem_setVfn (v' := { v with hms := A ++ h.oid :: B, offers := v.offers ++ [h.oid] }) hv rfl x
      refine ⟨⟨_, (hm _).2 (Or.inl rfl), rfl, rfl, rfl, by simp, hkeep⟩, ?_⟩
      intro x hx hxo
      rcases (hm x).1 hx with rfl | ⟨hx, _⟩
      · exact absurd rfl hxo
      · exact hx
    dsimp only
    generalize hr1 : setVfn r { v with hms := A ++ h.oid :: B, offers := v.offers ++ [h.oid] } = r1
    have hr1v : r1.vfns = (setVfn r { v with hms := A ++ h.oid :: B, offers := v.offers ++ [h.oid] }).vfns := by
      rw [hr1]
    have hr1h : r1.hms = r.hms := by rw [← hr1]; rfl
    have hr1s : r1.stored = r.stored := by rw [← hr1]; rfl
    have hr1c : hmCore r1 = hmCore r := by unfold hmCore; rw [hr1h]
    have hr1e : r1.entries = r.entries := by rw [← hr1]; rfl
    have hr1n : r1.next = r.next := by rw [← hr1]; rfl
    have hr1d : r1.deleted = r.deleted := by rw [← hr1]; rfl
    have hr1m : r1.mem = r.mem := by rw [← hr1]; rfl
    have href1 : RefInv r1 (Serves r) := hw.ref.congr hr1h hr1s (fun _ _ => Iff.rfl)
    cases A with
    | cons x A' =>
      have hhead : ((x :: A') ++ h.oid :: B).head? ≠ some h.oid := by
        simp only [List.cons_append, List.head?_cons, ne_eq, Option.some.injEq]
        intro hc; apply hin; rw [hAB, ← hc]; simp
      rw [if_neg hhead]
      have hsv : ∀ a b, Serves r1 a b ↔ Serves r a b := by
        intro a b
        rw [serves_rehm hv _ _ hr1v]
        by_cases ha : a = v.oid
        · subst ha; rw [serves_self hw.s hv, hAB]; simp
        · simp [ha]
      obtain ⟨w1, w2⟩ := hw.rehm hv _ _ hr1v hr1e hr1n hr1d hr1c (href1.congr rfl rfl hsv) hsub l1 l2 l3
        (fun a _ => by rw [hr1m]) (fun _ => by rw [hr1m]) (by
          intro hwr o a b c h1 h2
          rw [hr1m]
          exact hw.mem.served v hv hwr o a b c (by rw [hAB]; simpa using h1) h2)
      exact ⟨r1, rfl, w1, w2, hr1c, fin r1 hr1v⟩
    | nil =>
      simp only [List.nil_append] at *
      rw [if_pos (by simp)]
      have hns : ¬ Serves r v.oid h.oid := by
        rw [serves_self hw.s hv]; intro hc; exact hin (List.mem_of_mem_head? hc)
      obtain ⟨r2, hr2, f2, ref2⟩ := incrRef_spec href1 (hr1h ▸ hmem) v.oid hns
      rw [hr2]
      dsimp only
      have final : ∀ r3, RefFrame r2 r3 → (RefInv r3 (fun a b => (a = v.oid ∧ b = h.oid) ∨ (a ≠ v.oid ∧ Serves r a b))) →
          ∃ r', (Except.ok (patch E r3 v.ptr h.info.hookfunc) : R Reg) = Except.ok r' ∧ WInv E mem0 r' ∧ AddFrame r r' ∧ hmCore r' = hmCore r ∧
      (∃ v' ∈ r'.vfns, v'.oid = v.oid ∧ v'.ptr = v.ptr ∧ v'.ifaces = v.ifaces ∧ h.oid ∈ v'.hms ∧
        (∀ o ∈ v.hms, o ∈ v'.hms)) ∧
      (∀ x ∈ r'.vfns, x.oid ≠ v.oid → x ∈ r.vfns) := by
        intro r3 f3 ref3
        have f := f2.trans f3
        obtain ⟨p1, p2, p3, p4, p5, p6⟩ := patch_frame E r3 v.ptr h.info.hookfunc
        have hvf := (p1.trans f.vfns).trans hr1v
        have hco : hmCore (patch E r3 v.ptr h.info.hookfunc) = hmCore r := by
          unfold hmCore; rw [p5]; exact f.core.trans hr1c
        have hmm : r3.mem = r.mem := f.mem.trans hr1m
        obtain ⟨w1, w2⟩ := hw.rehm (r2 := patch E r3 v.ptr h.info.hookfunc) hv _ _ hvf ((p2.trans f.entries).trans hr1e)
          ((p3.trans f.next).trans hr1n) ((p4.trans f.deleted).trans hr1d) hco
          (ref3.congr p5 p6 (by
            intro a b
            rw [serves_rehm hv _ _ hvf]
            simp only [List.head?_cons, Option.some.injEq]
            constructor
            · rintro (⟨h1, h2⟩ | h1)
              · exact Or.inl ⟨h1, h2.symm⟩
              · exact Or.inr h1
            · rintro (⟨h1, h2⟩ | h1)
              · exact Or.inl ⟨h1, h2.symm⟩
              · exact Or.inr h1)) hsub l1 l2 l3
          (by intro a ha; rw [patch_mem]; split
              · simp only [upd, if_neg ha]; rw [hmm]
              · rw [hmm])
          (by intro hwr; rw [patch_mem, hwr]; simp [hmm])
          (by intro hwr o a b c h1 h2
              rw [patch_mem, hwr]
              simp only [List.head?_cons, Option.some.injEq] at h1
              subst h1
              obtain ⟨_, _, e⟩ := hasHm_fun hw.ref.oid h2 (hasHm_of_mem hmem)
              rw [e]; simp [upd])
        exact ⟨_, rfl, w1, w2, hco, fin _ hvf⟩
      cases B with
      | nil =>
        dsimp only
        apply final r2 (RefFrame.refl r2)
        refine ref2.congr rfl rfl ?_
        intro a b
        by_cases ha : a = v.oid
        · subst ha
          have : ¬ Serves r v.oid b := by rw [serves_self hw.s hv, hAB]; simp
          simp [this]
        · simp [ha]
      | cons y B' =>
        dsimp only
        obtain ⟨a, b, c, hy⟩ := hw.att.sub v hv y (by rw [hAB]; simp)
        have hy2 := (hasHm_congr (f2.core.trans hr1c) ..).2 hy
        obtain ⟨h2, hh2, e1, _⟩ := hy2
        subst e1
        obtain ⟨r3, hr3, f3, ref3⟩ := decrRef_spec ref2 hh2 v.oid
        rw [hr3]
        dsimp only
        apply final r3 f3
        refine ref3.congr rfl rfl ?_
        intro a b
        by_cases ha : a = v.oid
        · subst ha
          have hsb : Serves r v.oid b ↔ b = h2.oid := by
            rw [serves_self hw.s hv, hAB]; simp [eq_comm]
          have hne : h.oid ≠ h2.oid := by
            intro hc; apply hin; rw [hAB, hc]; simp
          simp only [hsb, true_and, ne_eq, not_true, false_and, or_false]
          constructor
          · intro hb; subst hb; exact ⟨Or.inr rfl, hne⟩
          · rintro ⟨h1 | h1, h2⟩
            · exact absurd h1 h2
            · exact h1
        · simp [ha]

theorem SInv.mono {r : Reg} (hs : SInv r) {n : Nat} (hn : r.next ≤ n) : SInv { r with next := n } :=
  ⟨hs.vptr, hs.void, fun v hv => Nat.lt_of_lt_of_le (hs.vlt v hv) hn, fun v hv => (hs.vi v hv).mono hn⟩

/-- View after replacing the objects of one record. -/
theorem view_reif {r r2 : Reg} (hs : SInv r) {v : Vfn} (hv : v ∈ r.vfns) (IF : List Iface)
    (hvf : r2.vfns = (setVfn r { v with ifaces := IF }).vfns) (hnx : r.next ≤ r2.next)
    (hvi : VInv r2.next { v with ifaces := IF }) (p a : Addr) (s : Bool) :
    view r2 p a s = if p = v.ptr then viewV { v with ifaces := IF } a s else view r p a s := by
  have h1 : view r2 = view (setVfn { r with next := r2.next } { v with ifaces := IF }) :=
    view_congr_vfns hvf
  rw [h1]
  exact view_setVfn (r := { r with next := r2.next }) (v' := { v with ifaces := IF }) (hs.mono hnx) hv rfl rfl hvi p a s

/-- Replacing the objects (and thereby hooks) of one record keeps the invariant if the id table and
node identities still agree. -/
theorem WInv.reif {E : Env} {mem0 : Addr → Addr} {r r2 : Reg} (hw : WInv E mem0 r) {v : Vfn} (hv : v ∈ r.vfns)
    (IF : List Iface)
    (hvf : r2.vfns = (setVfn r { v with ifaces := IF }).vfns)
    (hhm : r2.hms = r.hms) (hst : r2.stored = r.stored) (hme : r2.mem = r.mem) (hnx : r.next ≤ r2.next)
    (hvi : VInv r2.next { v with ifaces := IF })
    (hid : IdInv (view r2) r2.entries) (hnd : NidInv (view r2) r2.next r2.deleted) :
    WInv E mem0 r2 := by
  have hm : ∀ x, x ∈ r2.vfns ↔ x = { v with ifaces := IF } ∨ (x ∈ r.vfns ∧ x.oid ≠ v.oid) := by
    intro x; rw [hvf]; exact mem_setVfn (v' := { v with ifaces := IF }) hv rfl x
  have hs' : SInv (setVfn { r with next := r2.next } { v with ifaces := IF }) :=
    (hw.s.mono hnx).setVfn (v := v) (v' := { v with ifaces := IF }) hv rfl rfl hvi
  have hhas : ∀ o a b c, HasHm r2 o a b c ↔ HasHm r o a b c := by
    intro o a b c; unfold HasHm; rw [hhm]
  refine ⟨?_, hid, hnd, ?_, ?_, ?_⟩
  · exact ⟨by rw [hvf]; exact hs'.vptr, by rw [hvf]; exact hs'.void,
      fun x hx => hs'.vlt x (hvf ▸ hx), fun x hx => hs'.vi x (hvf ▸ hx)⟩
  · refine hw.ref.congr hhm hst ?_
    intro a b
    constructor
    · rintro ⟨x, hx, rfl, h⟩
      rcases (hm x).1 hx with rfl | ⟨hx, _⟩
      · exact ⟨v, hv, rfl, h⟩
      · exact ⟨x, hx, rfl, h⟩
    · rintro ⟨x, hx, rfl, h⟩
      by_cases hxo : x.oid = v.oid
      · have := nodup_key_inj hw.s.void hx hv hxo
        subst this
        exact ⟨_, (hm _).2 (Or.inl rfl), rfl, h⟩
      · exact ⟨x, (hm x).2 (Or.inr ⟨hx, hxo⟩), rfl, h⟩
  · refine ⟨?_, ?_, ?_, ?_, ?_, ?_⟩
    · intro o a b c h; exact Nat.lt_of_lt_of_le (hw.att.hlt o a b c ((hhas ..).1 h)) hnx
    · intro o a b c h; exact hw.att.valid o a b c ((hhas ..).1 h)
    · intro x hx o ho
      have : ∃ a b c, HasHm r o a b c := by
        rcases (hm x).1 hx with rfl | ⟨hx, _⟩
        · exact hw.att.sub v hv o ho
        · exact hw.att.sub x hx o ho
      obtain ⟨a, b, c, h⟩ := this; exact ⟨a, b, c, (hhas ..).2 h⟩
    · intro x hx
      rcases (hm x).1 hx with rfl | ⟨hx, _⟩
      · exact hw.att.nodup v hv
      · exact hw.att.nodup x hx
    · intro x hx
      rcases (hm x).1 hx with rfl | ⟨hx, _⟩
      · exact hw.att.perm v hv
      · exact hw.att.perm x hx
    · intro x hx
      rcases (hm x).1 hx with rfl | ⟨hx, _⟩
      · exact (hw.att.sorted v hv).imp
          (fun h p q i p' q' i' h1 h2 => h p q i p' q' i' ((hhas ..).1 h1) ((hhas ..).1 h2))
      · exact (hw.att.sorted x hx).imp
          (fun h p q i p' q' i' h1 h2 => h p q i p' q' i' ((hhas ..).1 h1) ((hhas ..).1 h2))
  · refine ⟨?_, ?_, ?_, ?_⟩
    · intro x hx hok
      rcases (hm x).1 hx with rfl | ⟨hx, _⟩
      · exact hw.mem.orig v hv hok
      · exact hw.mem.orig x hx hok
    · intro a hok ha
      rw [hme]
      apply hw.mem.other a hok
      intro x hx hc
      by_cases hxo : x.oid = v.oid
      · have := nodup_key_inj hw.s.void hx hv hxo
        subst this; exact ha { x with ifaces := IF } ((hm _).2 (Or.inl rfl)) hc
      · exact ha x ((hm x).2 (Or.inr ⟨hx, hxo⟩)) hc
    · intro a hwr; rw [hme]; exact hw.mem.frozen _ hwr
    · intro x hx hwr o a b c h1 h2
      have h2 := (hhas ..).1 h2
      rw [hme]
      rcases (hm x).1 hx with rfl | ⟨hx, hxo⟩
      · exact hw.mem.served v hv hwr o a b c h1 h2
      · exact hw.mem.served x hx hwr o a b c h1 h2

/-- Adding an object without hooks. -/
theorem newIface_spec {E : Env} {mem0 : Addr → Addr} {r : Reg} (hw : WInv E mem0 r) {v : Vfn} (hv : v ∈ r.vfns)
    {p : Addr} (hnp : ∀ x ∈ v.ifaces, x.ptr ≠ p) {IF : List Iface} {i : Iface} (hi : i = ⟨r.next, p, [], []⟩)
    (hperm : IF.Perm (i :: v.ifaces)) :
    WInv E mem0 (setVfn { r with next := r.next + 1 } { v with ifaces := IF }) ∧
    AddFrame r (setVfn { r with next := r.next + 1 } { v with ifaces := IF }) := by
  subst hi
  have hV := hw.s.vi v hv
  have hmem : ∀ x, x ∈ IF ↔ x = ⟨r.next, p, [], []⟩ ∨ x ∈ v.ifaces := by
    intro x; rw [hperm.mem_iff]; simp
  have hvi : VInv (r.next + 1) { v with ifaces := IF } := by
    refine ⟨?_, ?_, ?_, ?_, ?_⟩
    · show (IF.map Iface.ptr).Nodup
      refine (hperm.map Iface.ptr).nodup_iff.2 ?_
      rw [List.map_cons, List.nodup_cons]
      refine ⟨?_, hV.iptr⟩
      intro hc
      obtain ⟨x, hx, h⟩ := List.mem_map.1 hc
      exact hnp x hx h
    · show (IF.map Iface.oid).Nodup
      refine (hperm.map Iface.oid).nodup_iff.2 ?_
      rw [List.map_cons, List.nodup_cons]
      refine ⟨?_, hV.ioid⟩
      intro hc
      obtain ⟨x, hx, h⟩ := List.mem_map.1 hc
      have := hV.ilt x hx
      have h : x.oid = r.next := h
      omega
    · intro x hx
      rcases (hmem x).1 hx with rfl | hx
      · exact Nat.lt_succ_self _
      · exact Nat.lt_succ_of_lt (hV.ilt x hx)
    · intro x hx s
      rcases (hmem x).1 hx with rfl | hx
      · cases s <;> exact List.Pairwise.nil
      · exact hV.sorted x hx s
    · intro x hx s h hh
      rcases (hmem x).1 hx with rfl | hx
      · cases s <;> exact absurd hh List.not_mem_nil
      · exact Nat.lt_succ_of_lt (hV.hlt x hx s h hh)
  have hview : view (setVfn { r with next := r.next + 1 } { v with ifaces := IF }) = view r := by
    funext q a s
    rw [view_reif (r2 := setVfn { r with next := r.next + 1 } { v with ifaces := IF }) hw.s hv IF rfl (Nat.le_succ _) hvi]
    split
    · next h =>
      subst h
      rw [view_mem hw.s hv]
      by_cases ha : a = p
      · subst ha
        have h1 := viewV_mem hvi ((hmem ⟨r.next, a, [], []⟩).2 (Or.inl rfl)) s
        rw [h1]
        have h2 : v.ifaces.find? (·.ptr == a) = none := by
          rw [List.find?_eq_none]; intro x hx; simpa using hnp x hx
        unfold viewV; rw [h2]
        cases s <;> rfl
      · cases hf : v.ifaces.find? (·.ptr == a) with
        | none =>
          have hne := find?_key_none hf
          have h2 : IF.find? (·.ptr == a) = none := by
            rw [List.find?_eq_none]; intro x hx
            rcases (hmem x).1 hx with rfl | hx
            · simp; exact fun h => ha h.symm
            · simpa using hne x hx
          unfold viewV; rw [hf]; simp only [h2]
        | some x =>
          obtain ⟨hx, hxa⟩ := find?_key_some hf
          subst hxa
          have h1 := viewV_mem hvi ((hmem x).2 (Or.inr hx)) s
          rw [h1, viewV_mem hV hx]
    · rfl
  refine ⟨hw.reif (r2 := setVfn { r with next := r.next + 1 } { v with ifaces := IF }) hv IF rfl rfl rfl rfl (Nat.le_succ _) hvi ?_ ?_, rfl, rfl, hview, Nat.le_succ _⟩
  · rw [hview]; exact hw.ids
  · rw [hview]; exact hw.nid.mono (Nat.le_succ _)

theorem getIface_spec {E : Env} {mem0 : Addr → Addr} {r : Reg} (hw : WInv E mem0 r) {v : Vfn} (hv : v ∈ r.vfns)
    (p : Addr) :
    ∃ r' ifo, getIface r v.oid p = .ok (r', ifo) ∧ WInv E mem0 r' ∧ AddFrame r r' ∧ r'.hms = r.hms ∧
      (∃ v' ∈ r'.vfns, v'.oid = v.oid ∧ v'.ptr = v.ptr ∧ v'.hms = v.hms ∧
        (∃ i ∈ v'.ifaces, i.oid = ifo ∧ i.ptr = p) ∧
        (∀ x ∈ v'.ifaces, x ∈ v.ifaces ∨ (x.oid = ifo ∧ x.pre = [] ∧ x.post = []))) ∧
      (∀ x ∈ r'.vfns, x.oid ≠ v.oid → x ∈ r.vfns) := by
  unfold getIface
  rw [derefVfn_ok hw.s hv]
  simp only [bind, Except.bind]
  cases hf : v.ifaces.find? (·.ptr == p) with
  | some i =>
    obtain ⟨hi, hip⟩ := find?_key_some hf
    exact ⟨r, i.oid, rfl, hw, ⟨rfl, rfl, rfl, Nat.le_refl _⟩, rfl,
      ⟨v, hv, rfl, rfl, rfl, ⟨i, hi, rfl, hip⟩, fun x hx => Or.inl hx⟩, fun x hx _ => hx⟩
  | none =>
    have hnp := find?_key_none hf
    dsimp only
    have fin : ∀ IF : List Iface, IF.Perm (⟨r.next, p, [], []⟩ :: v.ifaces) →
        ∃ r' ifo, (Except.ok (setVfn { r with next := r.next + 1 } { v with ifaces := IF }, r.next) : R (Reg × Nat)) = Except.ok (r', ifo) ∧ WInv E mem0 r' ∧ AddFrame r r' ∧ r'.hms = r.hms ∧
      (∃ v' ∈ r'.vfns, v'.oid = v.oid ∧ v'.ptr = v.ptr ∧ v'.hms = v.hms ∧
        (∃ i ∈ v'.ifaces, i.oid = ifo ∧ i.ptr = p) ∧
        (∀ x ∈ v'.ifaces, x ∈ v.ifaces ∨ (x.oid = ifo ∧ x.pre = [] ∧ x.post = []))) ∧
      (∀ x ∈ r'.vfns, x.oid ≠ v.oid → x ∈ r.vfns) := by
      intro IF hperm
      have hmem : ∀ x, x ∈ IF ↔ x = ⟨r.next, p, [], []⟩ ∨ x ∈ v.ifaces := by
        intro x; rw [hperm.mem_iff]; simp
      obtain ⟨w1, w2⟩ := newIface_spec hw hv hnp rfl hperm
      have hm := fun x => mem_setVfn (r := { r with next := r.next + 1 }) (v' := { v with ifaces := IF }) hv rfl x
      refine ⟨_, _, rfl, w1, w2, rfl, ⟨{ v with ifaces := IF }, (hm _).2 (Or.inl rfl), rfl, rfl, rfl,
        ⟨_, (hmem _).2 (Or.inl rfl), rfl, rfl⟩, ?_⟩, ?_⟩
      · intro x hx
        rcases (hmem x).1 hx with rfl | hx
        · exact Or.inr ⟨rfl, rfl, rfl⟩
        · exact Or.inl hx
      · intro x hx hxo
        rcases (hm x).1 hx with rfl | ⟨hx, _⟩
        · exact absurd rfl hxo
        · exact hx
    split
    · exact fin _ (List.Perm.refl _)
    · exact fin _ List.perm_append_comm

theorem Iface.side_setSide (i : Iface) (s s' : Bool) (L : List Hook) :
    (i.setSide s L).side s' = if s' = s then L else i.side s' := by
  cases s <;> cases s' <;> rfl

theorem Iface.setSide_ptr (i : Iface) (s : Bool) (L : List Hook) : (i.setSide s L).ptr = i.ptr := by
  cases s <;> rfl

theorem Iface.setSide_oid (i : Iface) (s : Bool) (L : List Hook) : (i.setSide s L).oid = i.oid := by
  cases s <;> rfl

theorem mem_setIface {v : Vfn} {i i' : Iface} (hi : i ∈ v.ifaces) (ho : i'.oid = i.oid) (x : Iface) :
    x ∈ (v.setIface i').ifaces ↔ x = i' ∨ (x ∈ v.ifaces ∧ x.oid ≠ i'.oid) := by
  unfold Vfn.setIface; exact mem_mapUpd hi ho

theorem setIface_VInv {n n' : Nat} {v : Vfn} (hV : VInv n v) (hn : n ≤ n') {i : Iface} (hi : i ∈ v.ifaces) (s : Bool)
    (L : List Hook) (hs : L.Pairwise (fun a b => a.nid < b.nid)) (hl : ∀ h ∈ L, h.nid < n') :
    VInv n' (v.setIface (i.setSide s L)) := by
  have ho := i.setSide_oid s L
  have hm := mem_setIface hi ho
  refine ⟨?_, ?_, ?_, ?_, ?_⟩
  · show (List.map Iface.ptr (List.map _ v.ifaces)).Nodup
    rw [map_mapUpd hV.ioid hi ho (i.setSide_ptr s L)]; exact hV.iptr
  · show (List.map Iface.oid (List.map _ v.ifaces)).Nodup
    rw [map_mapUpd hV.ioid hi ho ho]; exact hV.ioid
  · intro x hx
    rcases (hm x).1 hx with rfl | ⟨hx, _⟩
    · rw [ho]; exact Nat.lt_of_lt_of_le (hV.ilt i hi) hn
    · exact Nat.lt_of_lt_of_le (hV.ilt x hx) hn
  · intro x hx t
    rcases (hm x).1 hx with rfl | ⟨hx, _⟩
    · rw [Iface.side_setSide]; split
      · exact hs
      · exact hV.sorted i hi t
    · exact hV.sorted x hx t
  · intro x hx t h hh
    rcases (hm x).1 hx with rfl | ⟨hx, _⟩
    · rw [Iface.side_setSide] at hh; split at hh
      · exact hl h hh
      · exact Nat.lt_of_lt_of_le (hV.hlt i hi t h hh) hn
    · exact Nat.lt_of_lt_of_le (hV.hlt x hx t h hh) hn

theorem viewV_setIface {n n' : Nat} {v : Vfn} (hV : VInv n v) {i : Iface} (hi : i ∈ v.ifaces) (s : Bool)
    (L : List Hook) (hV' : VInv n' (v.setIface (i.setSide s L))) (a : Addr) (t : Bool) :
    viewV (v.setIface (i.setSide s L)) a t = if a = i.ptr ∧ t = s then L else viewV v a t := by
  have ho := i.setSide_oid s L
  have hm := mem_setIface hi ho
  by_cases ha : a = i.ptr
  · subst ha
    have h1 := viewV_mem hV' ((hm _).2 (Or.inl rfl)) t
    rw [i.setSide_ptr] at h1
    rw [h1, Iface.side_setSide, viewV_mem hV hi]
    by_cases ht : t = s <;> simp [ht]
  · rw [if_neg (fun h => ha h.1)]
    cases hf : v.ifaces.find? (·.ptr == a) with
    | none =>
      have hne := find?_key_none hf
      have h2 : (v.setIface (i.setSide s L)).ifaces.find? (·.ptr == a) = none := by
        rw [List.find?_eq_none]; intro x hx
        rcases (hm x).1 hx with rfl | ⟨hx, _⟩
        · rw [i.setSide_ptr]; simp; exact fun h => ha h.symm
        · simpa using hne x hx
      unfold viewV; rw [hf, h2]
    | some x =>
      obtain ⟨hx, hxa⟩ := find?_key_some hf
      subst hxa
      have hxo : x.oid ≠ i.oid := by
        intro hc; have := nodup_key_inj hV.ioid hx hi hc; subst this; exact ha rfl
      have h1 := viewV_mem hV' ((hm x).2 (Or.inr ⟨hx, by rw [ho]; exact hxo⟩)) t
      rw [h1, viewV_mem hV hx]

theorem view_setSide {r r2 : Reg} (hs : SInv r) {v : Vfn} (hv : v ∈ r.vfns) {i : Iface} (hi : i ∈ v.ifaces) (s : Bool)
    (L : List Hook) (hvf : r2.vfns = (setVfn r (v.setIface (i.setSide s L))).vfns) (hnx : r.next ≤ r2.next)
    (hvi : VInv r2.next (v.setIface (i.setSide s L))) (p a : Addr) (t : Bool) :
    view r2 p a t = if p = v.ptr ∧ a = i.ptr ∧ t = s then L else view r p a t := by
  rw [view_reif hs hv _ hvf hnx hvi]
  by_cases hp : p = v.ptr
  · subst hp
    have h1 := viewV_setIface (hs.vi v hv) hi s L hvi a t
    rw [view_mem hs hv]
    simp only [true_and, if_true]
    exact h1
  · simp [hp]

/-- Adding a hook. -/
theorem pushHook_spec {E : Env} {mem0 : Addr → Addr} {r : Reg} (hw : WInv E mem0 r) {v : Vfn} (hv : v ∈ r.vfns)
    {i : Iface} (hi : i ∈ v.ifaces) (info : Info) (a : AddArgs) :
    ∃ r' id, pushHook r v.oid i.oid info v.ptr i.ptr a = .ok (r', id) ∧ WInv E mem0 r' ∧
      0 < id ∧ idQuery r.entries id = none ∧
      (∃ e, idQuery r'.entries id = some e ∧ e.vfnptr = v.ptr ∧ e.adj = i.ptr ∧ e.post = a.post ∧
        e.plug = a.plug ∧ e.offs = a.offs ∧ e.handler = a.handler ∧ e.proto = info.proto ∧
        e.vtblOffs = info.vtblOffs ∧ e.vtblIdx = info.vtblIdx) ∧
      (∀ j, j ≠ id → idQuery r'.entries j = idQuery r.entries j) ∧
      r'.deleted = r.deleted ∧ r'.hms = r.hms ∧ r'.mem = r.mem ∧ r'.stored = r.stored ∧
      r'.next = r.next + 1 ∧
      (∀ q b t, view r' q b t = if q = v.ptr ∧ b = i.ptr ∧ t = a.post
        then view r q b t ++ [⟨r.next, a.plug, a.offs, a.handler, id, false⟩] else view r q b t) ∧
      (∀ x ∈ r'.vfns, (x.oid ≠ v.oid ∧ x ∈ r.vfns) ∨ (x = v.setIface (i.setSide a.post
        (i.side a.post ++ [⟨r.next, a.plug, a.offs, a.handler, id, false⟩])))) ∧
      (∃ x ∈ r'.vfns, x.oid = v.oid) := by
  have hV := hw.s.vi v hv
  unfold pushHook
  rw [derefVfn_ok hw.s hv]
  simp only [bind, Except.bind]
  rw [find?_key hV.ioid hi]
  dsimp only
  generalize he : (⟨false, info.proto, info.vtblOffs, info.vtblIdx, v.ptr, i.ptr, a.plug, a.offs, a.handler, a.post⟩ : Entry) = e
  have hfree : e.free = false := by rw [← he]
  have hq := idNew_query r.entries e hfree
  have hfr := idNew_fresh r.entries e
  have hpos := idNew_pos r.entries e
  generalize idNew r.entries e = ne at hq hfr hpos
  obtain ⟨es, id⟩ := ne
  dsimp only at hq hfr hpos
  dsimp only
  generalize hk : ({ nid := r.next, plug := a.plug, offs := a.offs, handler := a.handler, id := id, paused := false } : Hook) = k
  have hknid : k.nid = r.next := by rw [← hk]
  have hkid : k.id = id := by rw [← hk]
  generalize hL : i.side a.post ++ [k] = L
  have hvw : view r v.ptr i.ptr a.post = i.side a.post := by rw [view_mem hw.s hv, viewV_mem hV hi]
  have hvi : VInv (r.next + 1) (v.setIface (i.setSide a.post L)) := by
    refine setIface_VInv hV (Nat.le_succ _) hi _ _ ?_ ?_
    · rw [← hL, List.pairwise_append]
      refine ⟨hV.sorted i hi _, List.pairwise_singleton .., ?_⟩
      intro x hx y hy
      simp at hy; subst hy
      rw [hknid]; exact hV.hlt i hi _ x hx
    · intro x hx
      rw [← hL] at hx
      rcases List.mem_append.1 hx with hx | hx
      · exact Nat.lt_succ_of_lt (hV.hlt i hi _ x hx)
      · simp at hx; subst hx; rw [hknid]; exact Nat.lt_succ_self _
  generalize hr2 : ({ setVfn r (v.setIface (i.setSide a.post L)) with entries := es, next := r.next + 1 } : Reg) = r2
  have hvf : r2.vfns = (setVfn r (v.setIface (i.setSide a.post L))).vfns := by rw [← hr2]
  have hnx : r2.next = r.next + 1 := by rw [← hr2]
  have hen : r2.entries = es := by rw [← hr2]
  have hde : r2.deleted = r.deleted := by rw [← hr2]; rfl
  have hview : ∀ q b t, view r2 q b t = if q = v.ptr ∧ b = i.ptr ∧ t = a.post
        then view r q b t ++ [k] else view r q b t := by
    intro q b t
    rw [view_setSide hw.s hv hi a.post L hvf (by rw [hnx]; exact Nat.le_succ _) (by rw [hnx]; exact hvi)]
    split
    · next h => obtain ⟨rfl, rfl, rfl⟩ := h; rw [hvw, hL]
    · rfl
  have hmemv : ∀ q b t x, x ∈ view r2 q b t ↔ x ∈ view r q b t ∨ (q = v.ptr ∧ b = i.ptr ∧ t = a.post ∧ x = k) := by
    intro q b t x
    rw [hview]
    split
    · next h => simp [h]
    · next h =>
      constructor
      · exact Or.inl
      · rintro (h' | ⟨h1, h2, h3, _⟩)
        · exact h'
        · exact absurd ⟨h1, h2, h3⟩ h
  have hidk : ∀ q b t x, x ∈ view r q b t → x.id ≠ id := by
    intro q b t x hx hc
    obtain ⟨e', h1, _⟩ := hw.ids.entry q b t x hx
    rw [hc, hfr] at h1; cases h1
  refine ⟨r2, id, rfl, ?_, hpos, hfr, ?_, ?_, hde, ?_, ?_, ?_, hnx, by rw [hk]; exact hview, ?_, ?_⟩
  · refine hw.reif hv _ hvf (by rw [← hr2]; rfl) (by rw [← hr2]; rfl) (by rw [← hr2]; rfl)
      (by rw [hnx]; exact Nat.le_succ _) (by rw [hnx]; exact hvi) ?_ ?_
    · rw [hen]
      refine ⟨?_, ?_, ?_⟩
      · intro q b t x hx
        rcases (hmemv ..).1 hx with hx | ⟨rfl, rfl, rfl, rfl⟩
        · obtain ⟨e', h1, h2⟩ := hw.ids.entry q b t x hx
          refine ⟨e', ?_, h2⟩
          rw [hq, if_neg (hidk q b t x hx)]; exact h1
        · refine ⟨e, by rw [hq, hkid, if_pos rfl], ?_⟩
          rw [← he, ← hk]
          exact ⟨rfl, rfl, rfl, rfl, rfl, rfl⟩
      · intro j e' hj
        rw [hq] at hj
        split at hj
        · next h =>
          cases hj
          refine ⟨k, (hmemv ..).2 (Or.inr ⟨?_, ?_, ?_, rfl⟩), by rw [hkid, h]⟩ <;> rw [← he]
        · obtain ⟨x, hx, hxj⟩ := hw.ids.hook j e' hj
          exact ⟨x, (hmemv ..).2 (Or.inl hx), hxj⟩
      · intro q b t
        rw [hview]
        split
        · rw [List.map_append, List.nodup_append]
          refine ⟨hw.ids.nodup q b t, by simp, ?_⟩
          intro x hx y hy
          obtain ⟨z, hz, rfl⟩ := List.mem_map.1 hx
          simp at hy; subst hy
          rw [hkid]; exact hidk q b t z hz
        · exact hw.ids.nodup q b t
    · rw [hde]
      have hltv := hw.nid.ltv
      refine ⟨?_, ?_, hw.nid.nodup, ?_, ?_⟩
      · intro p1 a1 s1 x p2 a2 s2 y hx hy hxy
        rcases (hmemv ..).1 hx with hx | ⟨rfl, rfl, rfl, rfl⟩
        · rcases (hmemv ..).1 hy with hy | ⟨rfl, rfl, rfl, rfl⟩
          · exact hw.nid.uniq _ _ _ _ _ _ _ _ hx hy hxy
          · have := hltv _ _ _ _ hx; omega
        · rcases (hmemv ..).1 hy with hy | ⟨rfl, rfl, rfl, rfl⟩
          · have := hltv _ _ _ _ hy; omega
          · exact ⟨rfl, rfl, rfl, rfl⟩
      · intro q b t x hx hc
        rcases (hmemv ..).1 hx with hx | ⟨rfl, rfl, rfl, rfl⟩
        · exact hw.nid.live _ _ _ _ hx hc
        · have := hw.nid.lt _ hc; omega
      · intro n hn; have := hw.nid.lt n hn; omega
      · intro q b t x hx
        rcases (hmemv ..).1 hx with hx | ⟨rfl, rfl, rfl, rfl⟩
        · have := hltv _ _ _ _ hx; omega
        · omega
  · refine ⟨e, by rw [hen, hq, if_pos rfl], ?_⟩
    rw [← he]
    exact ⟨rfl, rfl, rfl, rfl, rfl, rfl, rfl, rfl, rfl⟩
  · intro j hj; rw [hen, hq, if_neg hj]
  · rw [← hr2]; rfl
  · rw [← hr2]; rfl
  · rw [← hr2]; rfl
  · intro x hx
    rw [hvf] at hx
    rcases (mem_setVfn (v' := v.setIface (i.setSide a.post L)) hv rfl x).1 hx with rfl | ⟨h1, h2⟩
    · right; rw [hk, hL]
    · exact Or.inl ⟨h2, h1⟩
  · refine ⟨v.setIface (i.setSide a.post L), ?_, rfl⟩
    rw [hvf]
    exact (mem_setVfn (v' := v.setIface (i.setSide a.post L)) hv rfl _).2 (Or.inl rfl)

/-- Contract of `AddHook` used by Metamod: a public function (a static function compiled into one
plugin, sourcehook.h:797) is only ever offered by one plugin. -/
def AddOk (r : Reg) (a : AddArgs) : Prop := ∀ h ∈ r.hms, h.pub = a.pub → h.plug = a.plug

/-- `AddHook` accepts the request: sh:104-122. -/
def AddValid (a : AddArgs) (info : Info) : Prop := a.mode ≤ 2 ∧ a.info = some info ∧ info.version ≠ -1

theorem addHook_invalid (E : Env) (r : Reg) (a : AddArgs) (h : ¬ ∃ info, AddValid a info) :
    addHook E r a = .ok (r, 0) := by
  unfold addHook
  split
  · rfl
  · next hm =>
    split
    · rfl
    · next info hi =>
      split
      · rfl
      · next hver => exact absurd ⟨info, by omega, hi, hver⟩ h

theorem addHook_valid {E : Env} {mem0 : Addr → Addr} {r : Reg} (hw : RegInv E mem0 r) {a : AddArgs} (hok : AddOk r a)
    {info : Info} (hvalid : AddValid a info) {slot adj : Addr}
    (hsl : slotOf r.mem a.mode a.iface a.offs info = (slot, adj)) :
    ∃ r' id n, addHook E r a = .ok (r', id) ∧ RegInv E mem0 r' ∧ 0 < id ∧ idQuery r.entries id = none ∧
      (∃ e, idQuery r'.entries id = some e ∧ e.vfnptr = slot ∧ e.adj = adj ∧ e.post = a.post ∧
        e.plug = a.plug ∧ e.offs = a.offs ∧ e.handler = a.handler ∧ e.proto = info.proto ∧
        e.vtblOffs = info.vtblOffs ∧ e.vtblIdx = info.vtblIdx) ∧
      (∀ j, j ≠ id → idQuery r'.entries j = idQuery r.entries j) ∧
      r'.deleted = r.deleted ∧ n < r'.next ∧ r.next ≤ n ∧
      (∀ q b t, view r' q b t = if q = slot ∧ b = adj ∧ t = a.post
        then view r q b t ++ [⟨n, a.plug, a.offs, a.handler, id, false⟩] else view r q b t) ∧
      (OwnInv r → OwnInv r') ∧
      (∀ o p q i, HasHm r' o p q i → HasHm r o p q i ∨ (p = a.plug ∧ q = a.pub)) := by
  obtain ⟨hm, hinf, hver⟩ := hvalid
  unfold addHook
  rw [if_neg (by omega), hinf]
  simp only [if_neg hver, hsl]
  rcases hg1 : getVfn r slot with ⟨r1, o1⟩
  obtain ⟨w1, f1, hhm1, ⟨v1, hv1, rfl, rfl⟩, old1⟩ := getVfn_spec hw.toWInv hg1
  dsimp only
  rcases hg2 : getHookMan r1 a.plug a.pub info with ⟨r2, hmo⟩
  obtain ⟨w2, f2, hvf2, ⟨info', hhas2, _⟩, mono2, back2⟩ :=
    getHookMan_spec w1 hver (by rw [hhm1]; exact hok) hg2
  dsimp only
  obtain ⟨r3, hr3, w3, f3, hco3, ⟨v3, hv3, ho3, hp3, hif3, hin3, hkeep3⟩, old3⟩ :=
    addHookMan_spec w2 (v := v1) (hvf2 ▸ hv1) hhas2
  rw [hr3]
  simp only [bind, Except.bind]
  rw [← ho3]
  obtain ⟨r4, ifo, hr4, w4, f4, hhm4, ⟨v4, hv4, ho4, hp4, hhms4, ⟨i4, hi4, rfl, rfl⟩, oldi4⟩, old4⟩ :=
    getIface_spec w3 hv3 adj
  rw [hr4]
  dsimp only
  rw [← ho4, ← hp3, ← hp4]
  obtain ⟨r5, id, hr5, w5, hpos, hfr, hen, hother, hde, hhm5, hme5, hst5, hnx5, hview5, old5, _⟩ :=
    pushHook_spec w4 hv4 hi4 info a
  have F := ((f1.trans f2).trans f3).trans f4
  have hnx : r.next ≤ r4.next := F.next
  have hhas5 : ∀ o p q i, HasHm r5 o p q i ↔ HasHm r2 o p q i := by
    intro o p q i
    rw [← hasHm_congr hco3]
    unfold HasHm; rw [hhm5, hhm4]
  have hback : ∀ x ∈ r5.vfns, x.oid ≠ v1.oid → x ∈ r.vfns := by
    intro x hx hxo
    rcases old5 x hx with ⟨h1, h2⟩ | h1
    · have h3 := old4 x h2 (by rw [← ho4]; exact h1)
      have h4 := old3 x h3 hxo
      rw [hvf2] at h4
      rcases old1 x h4 with h5 | ⟨h5, _⟩
      · exact h5
      · exact absurd h5 hxo
    · exfalso; apply hxo; rw [h1]; exact ho4.trans ho3
  have hv1old : ∀ i ∈ v1.ifaces, ¬ (i.pre = [] ∧ i.post = []) := by
    rcases old1 v1 hv1 with h | ⟨_, h⟩
    · exact (hw.ne v1 h).2.2
    · rw [h]; simp
  refine ⟨r5, id, r4.next, hr5, ⟨w5, ?_⟩, hpos, ?_, hen, ?_, hde.trans F.deleted, by omega, hnx, ?_, ?_, ?_⟩
  · intro x hx
    by_cases hxo : x.oid = v1.oid
    · rcases old5 x hx with ⟨h1, _⟩ | h1
      · exact absurd (hxo.trans (ho3.symm.trans ho4.symm)) h1
      · have hmi := fun y => mem_setIface hi4 (i4.setSide_oid a.post (i4.side a.post ++
          [⟨r4.next, a.plug, a.offs, a.handler, id, false⟩])) y
        subst h1
        refine ⟨?_, ?_, ?_⟩
        · intro hc
          have := (hmi _).2 (Or.inl rfl)
          rw [hc] at this; cases this
        · show v4.hms ≠ []
          rw [hhms4]; intro hc; rw [hc] at hin3; cases hin3
        · intro y hy
          rcases (hmi y).1 hy with rfl | ⟨h1, h2⟩
          · cases hpo : a.post <;> simp [Iface.setSide, Iface.side]
          · rcases oldi4 y h1 with h3 | ⟨h3, _⟩
            · rw [hif3] at h3; exact hv1old y h3
            · rw [Iface.setSide_oid] at h2; exact absurd h3 h2
    · exact hw.ne x (hback x hx hxo)
  · rw [← F.entries]; exact hfr
  · intro j hj; rw [hother j hj, F.entries]
  · intro q b t; rw [hview5, F.view]
  · intro hown x hx i hi s k hk
    by_cases hxo : x.oid = v1.oid
    · rcases old5 x hx with ⟨h1, _⟩ | h1
      · exact absurd (hxo.trans (ho3.symm.trans ho4.symm)) h1
      · subst h1
        have hmi := fun y => mem_setIface hi4 (i4.setSide_oid a.post (i4.side a.post ++
          [⟨r4.next, a.plug, a.offs, a.handler, id, false⟩])) y
        have hold : ∀ j ∈ v4.ifaces, ∀ s, ∀ k ∈ j.side s, ∃ o ∈ v4.hms, ∃ pub info, HasHm r5 o k.plug pub info := by
          intro j hj s k hk
          rcases oldi4 j hj with h3 | ⟨_, h3, h4⟩
          · rw [hif3] at h3
            rcases old1 v1 hv1 with h5 | ⟨_, h5⟩
            · obtain ⟨o, ho, pub, inf, hh⟩ := hown v1 h5 j h3 s k hk
              refine ⟨o, by rw [hhms4]; exact hkeep3 o ho, pub, inf, (hhas5 ..).2 (mono2 _ _ _ _ ?_)⟩
              unfold HasHm at hh ⊢; rw [hhm1]; exact hh
            · rw [h5] at h3; cases h3
          · exfalso; cases s <;> simp [Iface.side, h3, h4] at hk
        have hnew : ∃ o ∈ v4.hms, ∃ pub info, HasHm r5 o a.plug pub info :=
          ⟨hmo, by rw [hhms4]; exact hin3, a.pub, info', (hhas5 ..).2 hhas2⟩
        rcases (hmi i).1 hi with rfl | ⟨h1, _⟩
        · rw [Iface.side_setSide] at hk
          split at hk
          · rcases List.mem_append.1 hk with hk | hk
            · exact hold i4 hi4 _ k hk
            · simp at hk; subst hk; exact hnew
          · exact hold i4 hi4 _ k hk
        · exact hold i h1 s k hk
    · obtain ⟨o, ho, pub, inf, hh⟩ := hown x (hback x hx hxo) i hi s k hk
      refine ⟨o, ho, pub, inf, (hhas5 ..).2 (mono2 _ _ _ _ ?_)⟩
      unfold HasHm at hh ⊢; rw [hhm1]; exact hh
  · intro o p q i hh
    rcases back2 _ _ _ _ ((hhas5 ..).1 hh) with h | ⟨_, h1, h2⟩
    · left; unfold HasHm at h ⊢; rw [hhm1] at h; exact h
    · exact Or.inr ⟨h1, h2⟩

end Verif.SH
