import Verif.SH.RegRemove
/-
Removal of several hooks, of hook managers and of plugins; pausing.
-/
namespace Verif.SH

/-- The view restricted to hooks satisfying a predicate. -/
def keepV (vw : Addr → Addr → Bool → List Hook) (p : Hook → Bool) : Addr → Addr → Bool → List Hook :=
  fun q a s => (vw q a s).filter p

theorem keepV_keepV (vw : Addr → Addr → Bool → List Hook) (p q : Hook → Bool) :
    keepV (keepV vw p) q = keepV vw (fun h => p h && q h) := by
  funext a b s; unfold keepV
  rw [List.filter_filter]
  congr 1; funext h; rw [Bool.and_comm]

theorem keepV_congr {vw : Addr → Addr → Bool → List Hook} {p q : Hook → Bool}
    (h : ∀ a b s, ∀ x ∈ vw a b s, p x = q x) : keepV vw p = keepV vw q := by
  funext a b s; unfold keepV
  exact List.filter_congr (h a b s)

theorem keepV_true {vw : Addr → Addr → Bool → List Hook} {p : Hook → Bool}
    (h : ∀ a b s, ∀ x ∈ vw a b s, p x = true) : keepV vw p = vw := by
  funext a b s; unfold keepV
  exact List.filter_eq_self.2 (h a b s)

theorem mem_keepV {vw : Addr → Addr → Bool → List Hook} {p : Hook → Bool} {a b : Addr} {s : Bool} {h : Hook} :
    h ∈ keepV vw p a b s ↔ h ∈ vw a b s ∧ p h = true := by
  unfold keepV; exact List.mem_filter

theorem removeIds_spec {E : Env} {mem0 : Addr → Addr} (ids : List Int) {r : Reg} (hw : RegInv E mem0 r) :
    ∃ r' b ns, removeIds E r ids = .ok (r', b, ns) ∧ RegInv E mem0 r' ∧
      view r' = keepV (view r) (fun h => decide (h.id ∉ ids)) ∧
      (∀ j, idQuery r'.entries j = if j ∈ ids then none else idQuery r.entries j) ∧
      (b = true ↔ ∃ id ∈ ids, idQuery r.entries id ≠ none) ∧
      hmCore r' = hmCore r ∧ r'.next = r.next ∧ VfnSub r r' ∧
      (∃ D, r'.deleted = D ++ r.deleted ∧ ∀ n, n ∈ D ↔ ∃ p a s h, h ∈ view r p a s ∧ h.id ∈ ids ∧ h.nid = n) := by
  induction ids generalizing r with
  | nil =>
    refine ⟨r, false, [], rfl, hw, ?_, by simp, by simp, rfl, rfl, VfnSub.refl r, [], rfl, by simp⟩
    exact (keepV_true (by simp)).symm
  | cons id ids ih =>
    unfold removeIds
    cases hq : idQuery r.entries id with
    | none =>
      rw [removeHookById_none E hq]
      obtain ⟨r', b, ns, h1, h2, h3, h4, h5, h6, h7, h8, D, hD1, hD2⟩ := ih hw
      simp only [bind, Except.bind, h1]
      have hne : ∀ p a s, ∀ h ∈ view r p a s, h.id ≠ id := by
        intro p a s h hh hc
        obtain ⟨e, he, _⟩ := hw.ids.entry p a s h hh
        rw [hc, hq] at he; cases he
      refine ⟨r', _, _, rfl, h2, ?_, ?_, ?_, h6, h7, h8, D, hD1, ?_⟩
      · rw [h3]
        apply keepV_congr
        intro p a s h hh
        have := hne p a s h hh
        simp [this]
      · intro j; rw [h4 j]
        by_cases hj : j = id
        · subst hj; simp [hq]
        · simp [hj]
      · simp [h5, hq]
      · intro n; rw [hD2]
        constructor
        · rintro ⟨p, a, s, h, k1, k2, k3⟩; exact ⟨p, a, s, h, k1, List.mem_cons_of_mem _ k2, k3⟩
        · rintro ⟨p, a, s, h, k1, k2, k3⟩
          rcases List.mem_cons.1 k2 with k2 | k2
          · exact absurd k2 (hne p a s h k1)
          · exact ⟨p, a, s, h, k1, k2, k3⟩
    | some e =>
      obtain ⟨r1, ns1, h0, g1, g2, g3, g4, g5, g6, g7, g8, g9, g10⟩ := removeHookById_spec hw hq
      obtain ⟨r', b, ns, h1, h2, h3, h4, h5, h6, h7, h8, D, hD1, hD2⟩ := ih g2
      simp only [bind, Except.bind, g1, h1]
      refine ⟨r', _, _, rfl, h2, ?_, ?_, ?_, h6.trans g8, h7.trans g9, g10.trans h8, D ++ [h0.nid], ?_, ?_⟩
      · rw [h3, g5]
        show keepV (keepV (view r) _) _ = _
        rw [keepV_keepV]
        apply keepV_congr
        intro p a s h hh
        rw [Bool.eq_iff_iff]; simp
      · intro j; rw [h4 j, g6 j]
        by_cases hj : j = id
        · subst hj; simp
        · simp [hj]
      · simp [hq]
      · rw [hD1, g7]; simp
      · intro n
        simp only [List.mem_append, List.mem_singleton, hD2]
        constructor
        · rintro (⟨p, a, s, h, k1, k2, k3⟩ | rfl)
          · rw [g5] at k1
            exact ⟨p, a, s, h, (mem_dropId.1 k1).1, List.mem_cons_of_mem _ k2, k3⟩
          · exact ⟨_, _, _, h0, g3, by rw [g4]; exact List.mem_cons_self .., rfl⟩
        · rintro ⟨p, a, s, h, k1, k2, k3⟩
          by_cases hid : h.id = id
          · right
            have := hw.ids.entry p a s h k1
            obtain ⟨e', q1, q2, q3, q4, _⟩ := this
            rw [hid, hq] at q1
            cases q1
            have hnd := hw.ids.nodup e.vfnptr e.adj e.post
            have k1' : h ∈ view r e.vfnptr e.adj e.post := by rw [q2, q3, q4]; exact k1
            have := nodup_key_inj hnd k1' g3 (hid.trans g4.symm)
            rw [← k3, this]
          · left
            rcases List.mem_cons.1 k2 with k2 | k2
            · exact absurd k2 hid
            · exact ⟨p, a, s, h, by rw [g5]; exact mem_dropId.2 ⟨k1, hid⟩, k2, k3⟩

/-! ### hook managers -/

theorem sublist_erase_pair {a b o : Nat} {l : List Nat} (ha : a ≠ o) (hb : b ≠ o) (h : [a, b].Sublist l) :
    [a, b].Sublist (l.erase o) := by
  have := h.erase o
  rwa [List.erase_of_not_mem (by simp [Ne.symm ha, Ne.symm hb])] at this

/-- `HookManRemoved` on one record: either the manager is detached and the record stays in order, or
it was the only one and the record has none left. -/
theorem hookManRemoved_spec {E : Env} {mem0 : Addr → Addr} {r : Reg} (hw : WInv E mem0 r) {v : Vfn} (hv : v ∈ r.vfns)
    {h : HookMan} (hh : h ∈ r.hms) :
    ∃ r' keep, hookManRemoved E r v.oid h.oid = .ok (r', keep) ∧ WInv E mem0 r' ∧ AddFrame r r' ∧
      hmCore r' = hmCore r ∧
      (keep = false ↔ v.hms = [h.oid]) ∧
      (∃ v' ∈ r'.vfns, v'.oid = v.oid ∧ v'.ptr = v.ptr ∧ v'.ifaces = v.ifaces ∧ v'.hms = v.hms.erase h.oid ∧ v'.orig = v.orig) ∧
      (∀ x ∈ r'.vfns, x.oid ≠ v.oid → x ∈ r.vfns) ∧ (∀ x ∈ r.vfns, x.oid ≠ v.oid → x ∈ r'.vfns) := by
  have hval := hw.att.valid _ _ _ _ (hasHm_of_mem hh)
  unfold hookManRemoved
  rw [derefHm_ok hw.ref.oid hh]
  simp only [bind, Except.bind, if_neg hval, derefVfn_ok hw.s hv]
  -- facts about the shortened list
  have hnd := hw.att.nodup v hv
  have hnd' : (v.hms.erase h.oid).Nodup := hnd.sublist List.erase_sublist
  have hpe' : (v.hms.erase h.oid).Perm (v.offers.erase h.oid) := (hw.att.perm v hv).erase _
  have hso' : (v.hms.erase h.oid).Pairwise fun a b => ∀ p q i p' q' i', HasHm r a p q i → HasHm r b p' q' i' →
      i'.version < i.version ∨ (i'.version = i.version ∧ [a, b].Sublist (v.offers.erase h.oid)) := by
    have := (hw.att.sorted v hv).sublist (List.erase_sublist (a := h.oid))
    refine List.Pairwise.imp_of_mem ?_ this
    intro a b ha hb hab p q i p' q' i' h1 h2
    have ha' := (hnd.mem_erase_iff.1 ha).1
    have hb' := (hnd.mem_erase_iff.1 hb).1
    exact (hab p q i p' q' i' h1 h2).imp id (fun x => ⟨x.1, sublist_erase_pair ha' hb' x.2⟩)
  have hsub' : ∀ o ∈ v.hms.erase h.oid, ∃ a b c, HasHm r o a b c :=
    fun o ho => hw.att.sub v hv o (List.mem_of_mem_erase ho)
  have fin : ∀ r2 : Reg, r2.vfns = (setVfn r { v with hms := v.hms.erase h.oid, offers := v.offers.erase h.oid }).vfns →
      (∃ v' ∈ r2.vfns, v'.oid = v.oid ∧ v'.ptr = v.ptr ∧ v'.ifaces = v.ifaces ∧ v'.hms = v.hms.erase h.oid ∧ v'.orig = v.orig) ∧
      (∀ x ∈ r2.vfns, x.oid ≠ v.oid → x ∈ r.vfns) ∧ (∀ x ∈ r.vfns, x.oid ≠ v.oid → x ∈ r2.vfns) := by
    intro r2 hvf
    have hm : ∀ x, x ∈ r2.vfns ↔ x = { v with hms := v.hms.erase h.oid, offers := v.offers.erase h.oid } ∨
        (x ∈ r.vfns ∧ x.oid ≠ v.oid) := by
      intro x; rw [hvf]
      exact mem_setVfn (v' := { v with hms := v.hms.erase h.oid, offers := v.offers.erase h.oid }) hv rfl x
    refine ⟨⟨_, (hm _).2 (Or.inl rfl), rfl, rfl, rfl, rfl, rfl⟩, ?_, fun x hx hxo => (hm x).2 (Or.inr ⟨hx, hxo⟩)⟩
    intro x hx hxo
    rcases (hm x).1 hx with rfl | ⟨hx, _⟩
    · exact absurd rfl hxo
    · exact hx
  have same : h.oid ∉ v.hms → (∃ v' ∈ r.vfns, v'.oid = v.oid ∧ v'.ptr = v.ptr ∧ v'.ifaces = v.ifaces ∧ v'.hms = v.hms.erase h.oid ∧ v'.orig = v.orig) ∧
      (∀ x ∈ r.vfns, x.oid ≠ v.oid → x ∈ r.vfns) ∧ (∀ x ∈ r.vfns, x.oid ≠ v.oid → x ∈ r.vfns) := by
    intro hni
    exact ⟨⟨v, hv, rfl, rfl, rfl, (List.erase_of_not_mem hni).symm, rfl⟩, fun x hx _ => hx, fun x hx _ => hx⟩
  cases hhms : v.hms with
  | nil =>
    refine ⟨r, true, rfl, hw, ⟨rfl, rfl, rfl, Nat.le_refl _⟩, rfl, by simp, ?_⟩
    rw [← hhms]; exact same (by rw [hhms]; simp)
  | cons first rest =>
    dsimp only
    by_cases hf : first = h.oid
    · rw [if_pos hf]
      obtain ⟨r1, hr1, f1, ref1⟩ := decrRef_spec hw.ref hh v.oid
      rw [hr1]
      dsimp only
      have her : v.hms.erase h.oid = rest := by rw [hhms, ← hf]; simp
      have hr2v : ∀ O, (setVfn r1 { v with hms := rest, offers := O }).vfns = (setVfn r { v with hms := rest, offers := O }).vfns := by
        intro O; unfold setVfn; simp only [f1.vfns]
      have hserv : ∀ b, Serves r v.oid b ↔ b = h.oid := by
        intro b; rw [serves_self hw.s hv, hhms, hf]; simp [eq_comm]
      rw [her] at hnd' hpe' hso' hsub' fin
      cases hrest : rest with
      | nil =>
        dsimp only
        subst hrest
        generalize hr2 : setVfn r1 { v with hms := [], offers := v.offers.erase h.oid } = r2
        have hvf : r2.vfns = (setVfn r { v with hms := [], offers := v.offers.erase h.oid }).vfns := by
          rw [← hr2]; exact hr2v _
        have hco : hmCore r2 = hmCore r := by rw [← hr2]; exact f1.core
        have hme : r2.mem = r.mem := by rw [← hr2]; exact f1.mem
        have hrf : RefInv r2 (Serves r2) := by
          refine ref1.congr (by rw [← hr2]; rfl) (by rw [← hr2]; rfl) ?_
          intro a b
          rw [serves_rehm hv _ _ hvf]
          by_cases ha : a = v.oid
          · subst ha; simp [hserv]
          · simp [ha]
        obtain ⟨w1, w2⟩ := hw.rehm hv [] _ hvf (by rw [← hr2]; exact f1.entries) (by rw [← hr2]; exact f1.next)
          (by rw [← hr2]; exact f1.deleted) hco hrf hsub' hnd' hpe' hso'
          (fun a _ => by rw [hme]) (fun _ => by rw [hme]) (by simp)
        obtain ⟨p1, p2, p3⟩ := fin r2 hvf
        refine ⟨r2, false, rfl, w1, w2, hco, by simp [hf], ?_, p2, p3⟩
        rw [← hhms, her]; exact p1
      | cons second rest' =>
        dsimp only
        subst hrest
        generalize hr2 : setVfn r1 { v with hms := second :: rest', offers := v.offers.erase h.oid } = r2
        have hvf2 : r2.vfns = (setVfn r { v with hms := second :: rest', offers := v.offers.erase h.oid }).vfns := by
          rw [← hr2]; exact hr2v _
        have hco2 : hmCore r2 = hmCore r := by rw [← hr2]; exact f1.core
        have ref2 : RefInv r2 (fun a b => Serves r a b ∧ ¬(a = v.oid ∧ b = h.oid)) :=
          ref1.congr (by rw [← hr2]; rfl) (by rw [← hr2]; rfl) (fun _ _ => Iff.rfl)
        obtain ⟨a, b, c, hsec⟩ := hw.att.sub v hv second (by rw [hhms]; simp)
        obtain ⟨h2, hh2, e1, _⟩ := (hasHm_congr hco2 ..).2 hsec
        subst e1
        have hsne : h2.oid ≠ h.oid := by
          intro hc
          rw [hhms, hf, hc] at hnd; simp at hnd
        obtain ⟨r3, hr3, f3, ref3⟩ := incrRef_spec ref2 hh2 v.oid (by rw [hserv]; intro hc; exact hsne hc.1)
        rw [hr3]
        dsimp only
        have hco3 : hmCore r3 = hmCore r := f3.core.trans hco2
        obtain ⟨h3, hh3, e1, e2, e3, e4⟩ := (hasHm_congr hco3 ..).2 ((hasHm_congr hco2 ..).1 (hasHm_of_mem hh2))
        rw [← e1, derefHm_ok ref3.oid hh3]
        dsimp only
        obtain ⟨q1, q2, q3, q4, q5, q6⟩ := patch_frame E r3 v.ptr h3.info.hookfunc
        have hvf4 := (q1.trans f3.vfns).trans hvf2
        have hco4 : hmCore (patch E r3 v.ptr h3.info.hookfunc) = hmCore r := by
          unfold hmCore; rw [q5]; exact hco3
        have hmm : r3.mem = r.mem := f3.mem.trans (by rw [← hr2]; exact f1.mem)
        have hrf : RefInv (patch E r3 v.ptr h3.info.hookfunc) (Serves (patch E r3 v.ptr h3.info.hookfunc)) := by
          refine ref3.congr q5 q6 ?_
          intro a b
          rw [serves_rehm hv _ _ hvf4]
          by_cases ha : a = v.oid
          · subst ha; simp [hserv, eq_comm]
          · simp [ha]
        obtain ⟨w1, w2⟩ := hw.rehm (r2 := patch E r3 v.ptr h3.info.hookfunc) hv _ _ hvf4
          ((q2.trans f3.entries).trans (by rw [← hr2]; exact f1.entries))
          ((q3.trans f3.next).trans (by rw [← hr2]; exact f1.next))
          ((q4.trans f3.deleted).trans (by rw [← hr2]; exact f1.deleted)) hco4 hrf hsub' hnd' hpe' hso'
          (by intro a ha; rw [patch_mem]; split
              · simp only [upd, if_neg ha]; rw [hmm]
              · rw [hmm])
          (by intro hwr; rw [patch_mem, hwr]; simp [hmm])
          (by intro hwr o a b c h1 h4
              rw [patch_mem, hwr]
              simp only [List.head?_cons, Option.some.injEq] at h1
              subst h1
              obtain ⟨_, _, e⟩ := hasHm_fun hw.ref.oid h4 ((hasHm_congr hco3 ..).1 (hasHm_of_mem hh3) |> fun x => by rwa [e1] at x)
              rw [e]; simp [upd])
        obtain ⟨p1, p2, p3⟩ := fin _ hvf4
        refine ⟨_, true, rfl, w1, w2, hco4, by simp, ?_, p2, p3⟩
        rw [e1, ← hhms, her]; exact p1
    · rw [if_neg hf]
      by_cases hin : h.oid ∈ rest
      · rw [if_pos hin]
        have her : (first :: rest).erase h.oid = v.hms.erase h.oid := by rw [hhms]
        simp only [her]
        generalize hr2 : setVfn r { v with hms := v.hms.erase h.oid, offers := v.offers.erase h.oid } = r2
        have hvf : r2.vfns = (setVfn r { v with hms := v.hms.erase h.oid, offers := v.offers.erase h.oid }).vfns := by rw [← hr2]
        have hco : hmCore r2 = hmCore r := by rw [← hr2]; rfl
        have hme : r2.mem = r.mem := by rw [← hr2]; rfl
        have hhead : (v.hms.erase h.oid).head? = v.hms.head? := by
          rw [hhms, List.erase_cons_tail (by simpa using hf)]; rfl
        have hrf : RefInv r2 (Serves r2) := by
          refine hw.ref.congr (by rw [← hr2]; rfl) (by rw [← hr2]; rfl) ?_
          intro a b
          rw [serves_rehm hv _ _ hvf, hhead]
          by_cases ha : a = v.oid
          · subst ha; simp [serves_self hw.s hv]
          · simp [ha]
        obtain ⟨w1, w2⟩ := hw.rehm hv _ _ hvf (by rw [← hr2]; rfl) (by rw [← hr2]; rfl)
          (by rw [← hr2]; rfl) hco hrf hsub' hnd' hpe' hso'
          (fun a _ => by rw [hme]) (fun _ => by rw [hme])
          (by intro hwr o a b c h1 h4; rw [hme]; exact hw.mem.served v hv hwr o a b c (hhead ▸ h1) h4)
        obtain ⟨p1, p2, p3⟩ := fin r2 hvf
        exact ⟨r2, true, rfl, w1, w2, hco, by simp [hf], p1, p2, p3⟩
      · rw [if_neg hin]
        refine ⟨r, true, rfl, hw, ⟨rfl, rfl, rfl, Nat.le_refl _⟩, rfl, by simp [hf], ?_⟩
        rw [← hhms]; exact same (by rw [hhms]; simp [Ne.symm hf, hin])

theorem erase_eq_nil_cases {l : List Nat} {o : Nat} (h : l.erase o = []) : l = [] ∨ l = [o] := by
  cases l with
  | nil => exact Or.inl rfl
  | cons x xs =>
    rw [List.erase_cons] at h
    split at h
    · next hx => simp at hx; subst hx; subst h; exact Or.inr rfl
    · cases h

/-- Records that lose their only manager when `hmo` is removed (restricted to the records `vs`). -/
def Orphan (r : Reg) (hmo : Nat) (vs : List Nat) (p : Addr) : Prop :=
  ∃ v ∈ r.vfns, v.ptr = p ∧ v.oid ∈ vs ∧ v.hms = [hmo]

theorem removeHmLoop_spec {E : Env} {mem0 : Addr → Addr} (hmo : Nat) (vs : List Nat) (hnd : vs.Nodup) {r : Reg}
    (hw : RegInv E mem0 r) (hsub : ∀ o ∈ vs, ∃ v ∈ r.vfns, v.oid = o)
    {plug : Plugin} {pub : PubFunc} {info : Info} (hh : HasHm r hmo plug pub info) :
    ∃ r' ns, removeHmLoop E hmo vs r = .ok (r', ns) ∧ RegInv E mem0 r' ∧ hmCore r' = hmCore r ∧
      (∀ x ∈ r'.vfns, x.oid ∈ vs → hmo ∉ x.hms) ∧
      (∀ x ∈ r'.vfns, ∃ y ∈ r.vfns, y.oid = x.oid ∧ y.ptr = x.ptr ∧ y.ifaces = x.ifaces ∧ y.orig = x.orig ∧
        (x.hms = y.hms ∨ x.hms = y.hms.erase hmo)) ∧
      (∀ p a s, Orphan r hmo vs p → view r' p a s = []) ∧
      (∀ p a s, ¬ Orphan r hmo vs p → view r' p a s = view r p a s) ∧
      (∀ j e, idQuery r'.entries j = some e ↔ idQuery r.entries j = some e ∧ ¬ Orphan r hmo vs e.vfnptr) ∧
      r.next ≤ r'.next ∧
      (∃ D, r'.deleted = D ++ r.deleted ∧
        ∀ n, n ∈ D ↔ ∃ p a s h, Orphan r hmo vs p ∧ h ∈ view r p a s ∧ h.nid = n) := by
  induction vs generalizing r with
  | nil =>
    have hno : ∀ p, ¬ Orphan r hmo [] p := by rintro p ⟨v, _, _, h, _⟩; cases h
    refine ⟨r, [], rfl, hw, rfl, by simp, ?_, ?_, ?_, ?_, Nat.le_refl _, [], rfl, ?_⟩
    · intro x hx; exact ⟨x, hx, rfl, rfl, rfl, rfl, Or.inl rfl⟩
    · intro p a s h; exact absurd h (hno p)
    · intros; rfl
    · intro j e; exact ⟨fun h => ⟨h, hno _⟩, fun h => h.1⟩
    · intro n
      constructor
      · intro h; cases h
      · rintro ⟨p, _, _, _, h, _⟩; exact absurd h (hno p)
  | cons o vs ih =>
    obtain ⟨v, hv, rfl⟩ := hsub o (List.mem_cons_self ..)
    rw [List.nodup_cons] at hnd
    obtain ⟨h, hmem, e1, e2, e3, e4⟩ := hh
    subst e1
    obtain ⟨r1, keep, hr1, w1, f1, hco1, hkeep, ⟨v1, hv1, ho1, hp1, hif1, hhm1, hor1⟩, old1, new1⟩ :=
      hookManRemoved_spec hw.toWInv hv hmem
    have hother : ∀ x ∈ r.vfns, x.oid ≠ v.oid → x.ptr ≠ v.ptr := by
      intro x hx hxo hc
      exact hxo (congrArg Vfn.oid (nodup_key_inj (key := Vfn.ptr) hw.s.vptr hx hv hc))
    unfold removeHmLoop
    simp only [bind, Except.bind, hr1]
    cases keep with
    | true =>
      have hnk : v.hms ≠ [h.oid] := by intro hc; have := hkeep.2 hc; cases this
      simp only [if_true]
      have hw1 : RegInv E mem0 r1 := by
        refine ⟨w1, ?_⟩
        intro x hx
        by_cases hxo : x.oid = v.oid
        · have hx1 : x = v1 := nodup_key_inj w1.s.void hx hv1 (hxo.trans ho1.symm)
          subst hx1
          refine ⟨by rw [hif1]; exact (hw.ne v hv).1, ?_, by rw [hif1]; exact (hw.ne v hv).2.2⟩
          intro hc
          rw [hhm1] at hc
          rcases erase_eq_nil_cases hc with hc | hc
          · exact (hw.ne v hv).2.1 hc
          · exact hnk hc
        · exact hw.ne x (old1 x hx hxo)
      have hsub1 : ∀ o ∈ vs, ∃ x ∈ r1.vfns, x.oid = o := by
        intro o ho
        obtain ⟨x, hx, rfl⟩ := hsub o (List.mem_cons_of_mem _ ho)
        refine ⟨x, new1 x hx ?_, rfl⟩
        intro hc; rw [hc] at ho; exact hnd.1 ho
      obtain ⟨r', ns, g1, g2, g3, g4, g5, g6, g7, g8, g9, D, hD1, hD2⟩ :=
        ih hnd.2 hw1 hsub1 ((hasHm_congr hco1 ..).2 ⟨h, hmem, rfl, e2, e3, e4⟩)
      have horph : ∀ p, Orphan r1 h.oid vs p ↔ Orphan r h.oid (v.oid :: vs) p := by
        intro p
        constructor
        · rintro ⟨x, hx, k1, k2, k3⟩
          have hxo : x.oid ≠ v.oid := by intro hc; rw [hc] at k2; exact hnd.1 k2
          exact ⟨x, old1 x hx hxo, k1, List.mem_cons_of_mem _ k2, k3⟩
        · rintro ⟨x, hx, k1, k2, k3⟩
          have hxo : x.oid ≠ v.oid := by
            intro hc
            have := nodup_key_inj hw.s.void hx hv hc
            subst this; exact hnk k3
          rcases List.mem_cons.1 k2 with k2 | k2
          · exact absurd k2 hxo
          · exact ⟨x, new1 x hx hxo, k1, k2, k3⟩
      refine ⟨r', ns, g1, g2, g3.trans hco1, ?_, ?_, ?_, ?_, ?_, Nat.le_trans f1.next g9, D, ?_, ?_⟩
      · intro x hx hxo
        rcases List.mem_cons.1 hxo with hxo | hxo
        · obtain ⟨y, hy, q1, q2, q3, q4, q5⟩ := g5 x hx
          have hy1 : y = v1 := nodup_key_inj w1.s.void hy hv1 (q1.trans (hxo.trans ho1.symm))
          subst hy1
          have hni : h.oid ∉ y.hms := by
            rw [hhm1, (hw.att.nodup v hv).mem_erase_iff]; intro hc; exact hc.1 rfl
          rcases q5 with q5 | q5
          · rw [q5]; exact hni
          · rw [q5]; intro hc; exact hni (List.mem_of_mem_erase hc)
        · exact g4 x hx hxo
      · intro x hx
        obtain ⟨y, hy, q1, q2, q3, q4, q5⟩ := g5 x hx
        by_cases hyo : y.oid = v.oid
        · have hy1 : y = v1 := nodup_key_inj w1.s.void hy hv1 (hyo.trans ho1.symm)
          subst hy1
          refine ⟨v, hv, ho1.symm.trans q1, hp1.symm.trans q2, hif1.symm.trans q3, hor1.symm.trans q4, Or.inr ?_⟩
          have hni : h.oid ∉ y.hms := by
            rw [hhm1, (hw.att.nodup v hv).mem_erase_iff]; intro hc; exact hc.1 rfl
          rcases q5 with q5 | q5
          · rw [q5, hhm1]
          · rw [q5, List.erase_of_not_mem hni, hhm1]
        · exact ⟨y, old1 y hy hyo, q1, q2, q3, q4, q5⟩
      · intro p a s hp; exact g6 p a s ((horph p).2 hp)
      · intro p a s hp; rw [g7 p a s (fun hc => hp ((horph p).1 hc)), f1.view]
      · intro j e; rw [g8, f1.entries, horph]
      · rw [hD1, f1.deleted]
      · intro n; rw [hD2]
        simp only [horph, f1.view]
    | false =>
      have hk : v.hms = [h.oid] := hkeep.1 rfl
      simp only [Bool.false_eq_true, if_false]
      have hd : derefVfn r1 v.oid = .ok v1 := ho1 ▸ derefVfn_ok w1.s hv1
      rw [hd]
      dsimp only
      -- the registry with the ids of the record dropped
      obtain ⟨r3, hr3, hw3, hview3, hvf3, hen3, hnx3, hco3, hde3⟩ :=
        revertAndRemoveVfn_spec (E := E) (mem0 := mem0) (r := { r1 with entries := idRemoveAll r1.entries v1.ptr })
          ⟨w1.s.vptr, w1.s.void, w1.s.vlt, w1.s.vi⟩ w1.nid (w1.ref.congr rfl rfl (fun _ _ => Iff.rfl))
          ⟨w1.att.hlt, w1.att.valid, w1.att.sub, w1.att.nodup, w1.att.perm, w1.att.sorted⟩
          ⟨w1.mem.orig, w1.mem.other, w1.mem.frozen, w1.mem.served⟩ hv1
      have hviewr1 : view { r1 with entries := idRemoveAll r1.entries v1.ptr } = view r1 := view_congr_vfns rfl
      rw [hviewr1, f1.view] at hview3
      have hidd : IdInv (fun p a s => if p = v1.ptr then [] else view { r1 with entries := idRemoveAll r1.entries v1.ptr } p a s)
          (idRemoveAll r1.entries v1.ptr) := by
        rw [hviewr1]
        refine ⟨?_, ?_, ?_⟩
        · intro p a s k hk
          split at hk
          · cases hk
          · next hp =>
            obtain ⟨e, k1, k2⟩ := w1.ids.entry p a s k hk
            exact ⟨e, (idRemoveAll_query ..).2 ⟨k1, by rw [k2.1]; exact hp⟩, k2⟩
        · intro j e hj
          obtain ⟨k1, k2⟩ := (idRemoveAll_query ..).1 hj
          obtain ⟨k, kk, k3⟩ := w1.ids.hook j e k1
          exact ⟨k, by rw [if_neg k2]; exact kk, k3⟩
        · intro p a s
          split
          · simp
          · exact w1.ids.nodup p a s
      have hen3' : r3.entries = idRemoveAll r1.entries v1.ptr := hen3
      have w3 : WInv E mem0 r3 := by
        have := hw3 _ hidd
        rw [← hen3'] at this
        exact this
      have hm3 : ∀ x, x ∈ r3.vfns ↔ x ∈ r.vfns ∧ x.oid ≠ v.oid := by
        intro x
        rw [hvf3]
        simp only [List.mem_filter, bne_iff_ne, ne_eq, ho1]
        constructor
        · rintro ⟨k1, k2⟩; exact ⟨old1 x k1 k2, k2⟩
        · rintro ⟨k1, k2⟩; exact ⟨new1 x k1 k2, k2⟩
      rw [hr3]
      dsimp only
      have hw3' : RegInv E mem0 r3 := ⟨w3, fun x hx => hw.ne x ((hm3 x).1 hx).1⟩
      have hsub3 : ∀ o ∈ vs, ∃ x ∈ r3.vfns, x.oid = o := by
        intro o ho
        obtain ⟨x, hx, rfl⟩ := hsub o (List.mem_cons_of_mem _ ho)
        refine ⟨x, (hm3 x).2 ⟨hx, ?_⟩, rfl⟩
        intro hc; rw [hc] at ho; exact hnd.1 ho
      have hco3' : hmCore r3 = hmCore r := hco3.trans hco1
      obtain ⟨r', ns, g1, g2, g3, g4, g5, g6, g7, g8, g9, D, hD1, hD2⟩ :=
        ih hnd.2 hw3' hsub3 ((hasHm_congr hco3' ..).2 ⟨h, hmem, rfl, e2, e3, e4⟩)
      rw [g1]
      dsimp only
      have horph : ∀ p, Orphan r h.oid (v.oid :: vs) p ↔ p = v.ptr ∨ Orphan r3 h.oid vs p := by
        intro p
        constructor
        · rintro ⟨x, hx, k1, k2, k3⟩
          by_cases hxo : x.oid = v.oid
          · have := nodup_key_inj hw.s.void hx hv hxo
            subst this; exact Or.inl k1.symm
          · rcases List.mem_cons.1 k2 with k2 | k2
            · exact absurd k2 hxo
            · exact Or.inr ⟨x, (hm3 x).2 ⟨hx, hxo⟩, k1, k2, k3⟩
        · rintro (rfl | ⟨x, hx, k1, k2, k3⟩)
          · exact ⟨v, hv, rfl, List.mem_cons_self .., hk⟩
          · exact ⟨x, ((hm3 x).1 hx).1, k1, List.mem_cons_of_mem _ k2, k3⟩
      have hno3 : ¬ Orphan r3 h.oid vs v.ptr := by
        rintro ⟨x, hx, k1, _⟩
        obtain ⟨k2, k3⟩ := (hm3 x).1 hx
        exact hother x k2 k3 k1
      refine ⟨r', _, rfl, g2, g3.trans hco3', ?_, ?_, ?_, ?_, ?_, ?_, D ++ (vfnNids v1).reverse, ?_, ?_⟩
      · intro x hx hxo
        rcases List.mem_cons.1 hxo with hxo | hxo
        · obtain ⟨y, hy, q1, _⟩ := g5 x hx
          exact absurd (q1.trans hxo) ((hm3 y).1 hy).2
        · exact g4 x hx hxo
      · intro x hx
        obtain ⟨y, hy, q⟩ := g5 x hx
        exact ⟨y, ((hm3 y).1 hy).1, q⟩
      · intro p a s hp
        by_cases hp3 : Orphan r3 h.oid vs p
        · exact g6 p a s hp3
        · rcases (horph p).1 hp with rfl | hp
          · rw [g7 _ a s hp3, hview3, if_pos hp1.symm]
          · exact absurd hp hp3
      · intro p a s hp
        have hp' := fun hc => hp ((horph p).2 hc)
        rw [g7 p a s (fun hc => hp' (Or.inr hc)), hview3, if_neg (fun hc => hp' (Or.inl (hc.trans hp1)))]
      · intro j e
        rw [g8, hen3', idRemoveAll_query, f1.entries, horph, hp1]
        constructor
        · rintro ⟨⟨k1, k2⟩, k3⟩; exact ⟨k1, fun hc => hc.elim k2 k3⟩
        · rintro ⟨k1, k2⟩; exact ⟨⟨k1, fun hc => k2 (Or.inl hc)⟩, fun hc => k2 (Or.inr hc)⟩
      · have : r1.next ≤ r'.next := by
          have h1 : r3.next = r1.next := hnx3
          rw [← h1]; exact g9
        exact Nat.le_trans f1.next this
      · rw [hD1, hde3, f1.deleted]; simp
      · intro n
        rw [List.mem_append, List.mem_reverse, hD2, mem_vfnNids w1.s hv1]
        constructor
        · rintro (⟨p, a, s, k, k1, k2, k3⟩ | ⟨a, s, k, k2, k3⟩)
          · have hpv : p ≠ v.ptr := by rintro rfl; exact hno3 k1
            rw [hview3, if_neg (fun hc => hpv (hc.trans hp1))] at k2
            exact ⟨p, a, s, k, (horph p).2 (Or.inr k1), k2, k3⟩
          · rw [f1.view, hp1] at k2
            exact ⟨v.ptr, a, s, k, (horph _).2 (Or.inl rfl), k2, k3⟩
        · rintro ⟨p, a, s, k, k1, k2, k3⟩
          rcases (horph p).1 k1 with rfl | k1
          · exact Or.inr ⟨a, s, k, by rw [f1.view, hp1]; exact k2, k3⟩
          · have hpv : p ≠ v.ptr := by rintro rfl; exact hno3 k1
            exact Or.inl ⟨p, a, s, k, k1, by rw [hview3, if_neg (fun hc => hpv (hc.trans hp1))]; exact k2, k3⟩

/-- The function at slot `p` has `hmo` as its only manager. -/
def OnlyHm (r : Reg) (hmo : Nat) (p : Addr) : Prop := ∃ v ∈ r.vfns, v.ptr = p ∧ v.hms = [hmo]

theorem removeHookManO_spec {E : Env} {mem0 : Addr → Addr} {r : Reg} (hmo : Nat)
    (hw : RegInv E mem0 r) {plug : Plugin} {pub : PubFunc} {info : Info} (hh : HasHm r hmo plug pub info) :
    ∃ r' ns, removeHookManO E r hmo = .ok (r', ns) ∧ RegInv E mem0 r' ∧
      (∀ o a b c, HasHm r' o a b c ↔ HasHm r o a b c ∧ o ≠ hmo) ∧
      (∀ x ∈ r'.vfns, ∃ y ∈ r.vfns, y.oid = x.oid ∧ y.ptr = x.ptr ∧ y.ifaces = x.ifaces ∧ y.orig = x.orig ∧
        (x.hms = y.hms ∨ x.hms = y.hms.erase hmo)) ∧
      (∀ p a s, OnlyHm r hmo p → view r' p a s = []) ∧
      (∀ p a s, ¬ OnlyHm r hmo p → view r' p a s = view r p a s) ∧
      (∀ j e, idQuery r'.entries j = some e ↔ idQuery r.entries j = some e ∧ ¬ OnlyHm r hmo e.vfnptr) ∧
      r.next ≤ r'.next ∧
      (∃ D, r'.deleted = D ++ r.deleted ∧
        ∀ n, n ∈ D ↔ ∃ p a s h, OnlyHm r hmo p ∧ h ∈ view r p a s ∧ h.nid = n) := by
  have horph : ∀ p, Orphan r hmo (r.vfns.map Vfn.oid) p ↔ OnlyHm r hmo p := by
    intro p
    constructor
    · rintro ⟨v, hv, h1, _, h2⟩; exact ⟨v, hv, h1, h2⟩
    · rintro ⟨v, hv, h1, h2⟩; exact ⟨v, hv, h1, List.mem_map.2 ⟨v, hv, rfl⟩, h2⟩
  obtain ⟨r1, ns, g1, g2, g3, g4, g5, g6, g7, g8, g9, D, hD1, hD2⟩ :=
    removeHmLoop_spec (E := E) hmo (r.vfns.map Vfn.oid) hw.s.void hw
      (by intro o ho; obtain ⟨v, hv, h⟩ := List.mem_map.1 ho; exact ⟨v, hv, h⟩) hh
  unfold removeHookManO
  simp only [bind, Except.bind, g1]
  have hnone : ∀ x ∈ r1.vfns, hmo ∉ x.hms := by
    intro x hx
    apply g4 x hx
    obtain ⟨y, hy, e, _⟩ := g5 x hx
    rw [← e]; exact List.mem_map.2 ⟨y, hy, rfl⟩
  generalize hr2 : ({ r1 with hms := r1.hms.filter (·.oid != hmo) } : Reg) = r2
  have hvf : r2.vfns = r1.vfns := by rw [← hr2]
  have hhm : r2.hms = r1.hms.filter (·.oid != hmo) := by rw [← hr2]
  have hview : view r2 = view r1 := view_congr_vfns hvf
  have hnx : r2.next = r1.next := by rw [← hr2]
  have hen : r2.entries = r1.entries := by rw [← hr2]
  have hde : r2.deleted = r1.deleted := by rw [← hr2]
  have hst : r2.stored = r1.stored := by rw [← hr2]
  have hme : r2.mem = r1.mem := by rw [← hr2]
  have hhas : ∀ o a b c, HasHm r2 o a b c ↔ HasHm r1 o a b c ∧ o ≠ hmo := by
    intro o a b c
    unfold HasHm; rw [hhm]
    constructor
    · rintro ⟨h, h1, h2, h3⟩
      rw [List.mem_filter] at h1
      refine ⟨⟨h, h1.1, h2, h3⟩, ?_⟩
      rw [← h2]; simpa using h1.2
    · rintro ⟨⟨h, h1, h2, h3⟩, h4⟩
      exact ⟨h, List.mem_filter.2 ⟨h1, by rw [← h2] at h4; simpa using h4⟩, h2, h3⟩
  have hserv : ∀ a b, Serves r2 a b ↔ Serves r1 a b := by intro a b; unfold Serves; rw [hvf]
  have hnoS : ∀ a, ¬ Serves r1 a hmo := by
    rintro a ⟨v, hv, _, h⟩
    exact hnone v hv (List.mem_of_mem_head? h)
  refine ⟨r2, ns, rfl, ⟨⟨⟨?_, ?_, ?_, ?_⟩, ?_, ?_, ?_, ?_, ?_⟩, ?_⟩, ?_, ?_, ?_, ?_, ?_, ?_, D, ?_, ?_⟩
  · rw [hvf]; exact g2.s.vptr
  · rw [hvf]; exact g2.s.void
  · rw [hvf, hnx]; exact g2.s.vlt
  · rw [hvf, hnx]; exact g2.s.vi
  · rw [hview, hen]; exact g2.ids
  · rw [hview, hnx, hde]; exact g2.nid
  · have hmem : ∀ h, h ∈ r2.hms ↔ h ∈ r1.hms ∧ h.oid ≠ hmo := by intro h; rw [hhm]; simp
    refine ⟨?_, ?_, ?_, ?_, ?_, ?_⟩
    · rw [hhm]; exact nodup_map_filter _ g2.ref.oid
    · rw [hhm]; exact nodup_map_filter _ g2.ref.pub
    · intro h h1 o; rw [g2.ref.mem h ((hmem h).1 h1).1 o, hserv]
    · intro h h1; exact g2.ref.nodup h ((hmem h).1 h1).1
    · intro h h1; rw [hst]; exact g2.ref.stored h ((hmem h).1 h1).1
    · intro p hp
      rw [hst]
      by_cases hx : ∃ h ∈ r1.hms, h.pub = p
      · obtain ⟨h, h1, h2⟩ := hx
        have h3 : h.oid = hmo := by
          apply Classical.byContradiction
          intro hc
          exact hp h ((hmem h).2 ⟨h1, hc⟩) h2
        rw [← h2, g2.ref.stored h h1]
        have : h.vfns = [] := by
          rw [List.eq_nil_iff_forall_not_mem]
          intro o ho
          rw [g2.ref.mem h h1, h3] at ho
          exact hnoS o ho
        simp [this]
      · exact g2.ref.other p (fun h h1 h2 => hx ⟨h, h1, h2⟩)
  · refine ⟨?_, ?_, ?_, ?_, ?_, ?_⟩
    · intro o a b c h; rw [hnx]; exact g2.att.hlt o a b c ((hhas ..).1 h).1
    · intro o a b c h; exact g2.att.valid o a b c ((hhas ..).1 h).1
    · intro x hx o ho
      rw [hvf] at hx
      obtain ⟨a, b, c, h⟩ := g2.att.sub x hx o ho
      exact ⟨a, b, c, (hhas ..).2 ⟨h, by rintro rfl; exact hnone x hx ho⟩⟩
    · rw [hvf]; exact g2.att.nodup
    · rw [hvf]; exact g2.att.perm
    · intro x hx
      rw [hvf] at hx
      exact (g2.att.sorted x hx).imp
        (fun h p q i p' q' i' h1 h2 => h p q i p' q' i' ((hhas ..).1 h1).1 ((hhas ..).1 h2).1)
  · refine ⟨?_, ?_, ?_, ?_⟩
    · rw [hvf]; exact g2.mem.orig
    · rw [hvf, hme]; exact g2.mem.other
    · rw [hme]; exact g2.mem.frozen
    · intro x hx hwr o a b c h1 h2
      rw [hvf] at hx
      rw [hme]; exact g2.mem.served x hx hwr o a b c h1 ((hhas ..).1 h2).1
  · rw [hvf]; exact g2.ne
  · intro o a b c; rw [hhas, hasHm_congr g3]
  · rw [hvf]; exact g5
  · intro p a s hp; rw [hview]; exact g6 p a s ((horph p).2 hp)
  · intro p a s hp; rw [hview]; exact g7 p a s (fun hc => hp ((horph p).1 hc))
  · intro j e; rw [hen, g8, horph]
  · rw [hnx]; exact g9
  · rw [hde]; exact hD1
  · intro n; rw [hD2]; simp only [horph]

/-- A record always carries a hook. -/
theorem RegInv.someHook {E : Env} {mem0 : Addr → Addr} {r : Reg} (hw : RegInv E mem0 r) {v : Vfn} (hv : v ∈ r.vfns) :
    ∃ i ∈ v.ifaces, ∃ s, ∃ h, h ∈ i.side s := by
  obtain ⟨h1, h2, h3⟩ := hw.ne v hv
  cases hi : v.ifaces with
  | nil => exact absurd hi h1
  | cons i is =>
    have := h3 i (by rw [hi]; simp)
    refine ⟨i, by simp, ?_⟩
    by_cases hp : i.pre = []
    · have hq : i.post ≠ [] := fun hc => this ⟨hp, hc⟩
      obtain ⟨h, hh⟩ := List.exists_mem_of_ne_nil _ hq
      exact ⟨true, h, hh⟩
    · obtain ⟨h, hh⟩ := List.exists_mem_of_ne_nil _ hp
      exact ⟨false, h, hh⟩

/-- Removing managers of a plugin that owns no hooks. -/
theorem removeHms_spec {E : Env} {mem0 : Addr → Addr} (plug : Plugin) (os : List Nat) (hnd : os.Nodup) {r : Reg}
    (hw : RegInv E mem0 r) (hown : OwnInv r) (hno : ∀ p a s, ∀ h ∈ view r p a s, h.plug ≠ plug)
    (hos : ∀ o ∈ os, ∃ b c, HasHm r o plug b c) :
    ∃ r' ns, removeHms E os r = .ok (r', ns) ∧ RegInv E mem0 r' ∧ OwnInv r' ∧ view r' = view r ∧
      (∀ j e, idQuery r'.entries j = some e ↔ idQuery r.entries j = some e) ∧
      (∀ o a b c, HasHm r' o a b c ↔ HasHm r o a b c ∧ o ∉ os) ∧ r.next ≤ r'.next ∧ r'.deleted = r.deleted := by
  induction os generalizing r with
  | nil =>
    exact ⟨r, [], rfl, hw, hown, rfl, fun _ _ => Iff.rfl, by simp, Nat.le_refl _, rfl⟩
  | cons o os ih =>
    rw [List.nodup_cons] at hnd
    obtain ⟨b, c, hh⟩ := hos o (List.mem_cons_self ..)
    obtain ⟨r1, ns1, g1, g2, g3, g4, g5, g6, g7, g8, D, hD1, hD2⟩ := removeHookManO_spec o hw hh
    have hnoOnly : ∀ p, ¬ OnlyHm r o p := by
      rintro p ⟨v, hv, _, hhm⟩
      obtain ⟨i, hi, s, k, hk⟩ := hw.someHook hv
      obtain ⟨o', ho', pub, info, hh'⟩ := hown v hv i hi s k hk
      rw [hhm] at ho'
      simp at ho'; subst ho'
      exact hno _ _ _ k (view_intro hw.s hv hi hk) (hasHm_fun hw.ref.oid hh' hh).1
    have hview1 : view r1 = view r := by funext p a s; exact g6 p a s (hnoOnly p)
    have hown1 : OwnInv r1 := by
      intro x hx i hi s k hk
      obtain ⟨y, hy, q1, q2, q3, q4, q5⟩ := g4 x hx
      rw [← q3] at hi
      obtain ⟨o', ho', pub, info, hh'⟩ := hown y hy i hi s k hk
      have hne : o' ≠ o := by
        rintro rfl
        exact hno _ _ _ k (view_intro hw.s hy hi hk) (hasHm_fun hw.ref.oid hh' hh).1
      refine ⟨o', ?_, pub, info, (g3 ..).2 ⟨hh', hne⟩⟩
      rcases q5 with q5 | q5
      · rw [q5]; exact ho'
      · rw [q5]; exact (List.mem_erase_of_ne hne).2 ho'
    have hDnil : D = [] := by
      rw [List.eq_nil_iff_forall_not_mem]
      intro n hn
      obtain ⟨p, _, _, _, h, _⟩ := (hD2 n).1 hn
      exact hnoOnly p h
    obtain ⟨r2, ns2, k1, k2, k3, k4, k5, k6, k7, k8⟩ := ih hnd.2 g2 hown1 (by rw [hview1]; exact hno) (by
      intro o' ho'
      obtain ⟨b, c, hh'⟩ := hos o' (List.mem_cons_of_mem _ ho')
      exact ⟨b, c, (g3 ..).2 ⟨hh', by rintro rfl; exact hnd.1 ho'⟩⟩)
    unfold removeHms
    simp only [bind, Except.bind, g1, k1]
    refine ⟨r2, _, rfl, k2, k3, k4.trans hview1, ?_, ?_, Nat.le_trans g8 k7, ?_⟩
    · intro j e; rw [k5, g7]; exact ⟨fun h => h.1, fun h => ⟨h, hnoOnly _⟩⟩
    · intro o' a b c
      rw [k6, g3, List.mem_cons]
      constructor
      · rintro ⟨⟨h1, h2⟩, h3⟩; exact ⟨h1, fun hc => hc.elim h2 h3⟩
      · rintro ⟨h1, h2⟩; exact ⟨⟨h1, fun hc => h2 (Or.inl hc)⟩, fun hc => h2 (Or.inr hc)⟩
    · rw [k8, hD1, hDnil]; rfl

theorem unloadReg_spec {E : Env} {mem0 : Addr → Addr} {r : Reg} (plug : Plugin)
    (hw : RegInv E mem0 r) (hown : OwnInv r) :
    ∃ r' ns, unloadReg E r plug = .ok (r', ns) ∧ RegInv E mem0 r' ∧ OwnInv r' ∧
      view r' = keepV (view r) (fun h => decide (h.plug ≠ plug)) ∧
      (∀ j e, idQuery r'.entries j = some e ↔ idQuery r.entries j = some e ∧ e.plug ≠ plug) ∧
      (∀ o a b c, HasHm r' o a b c ↔ HasHm r o a b c ∧ a ≠ plug) ∧ r.next ≤ r'.next ∧
      (∃ D, r'.deleted = D ++ r.deleted ∧
        ∀ n, n ∈ D ↔ ∃ p a s h, h ∈ view r p a s ∧ h.plug = plug ∧ h.nid = n) := by
  obtain ⟨r1, b, ns1, g1, g2, g3, g4, g5, g6, g7, g8, D, hD1, hD2⟩ :=
    removeIds_spec (E := E) (idFindPlug r.entries plug) hw
  have hiff : ∀ p a s, ∀ h ∈ view r p a s, (h.id ∈ idFindPlug r.entries plug ↔ h.plug = plug) := by
    intro p a s h hh
    obtain ⟨e, k1, _, _, _, k2, _⟩ := hw.ids.entry p a s h hh
    rw [mem_idFindPlug]
    constructor
    · rintro ⟨e', q1, q2⟩
      rw [k1] at q1; cases q1
      rw [← k2, q2]
    · intro hp; exact ⟨e, k1, by rw [k2, hp]⟩
  have hview1 : view r1 = keepV (view r) (fun h => decide (h.plug ≠ plug)) := by
    rw [g3]
    apply keepV_congr
    intro p a s h hh
    have := hiff p a s h hh
    simp [this]
  have hown1 := g8.own g6 hown
  have hno1 : ∀ p a s, ∀ h ∈ view r1 p a s, h.plug ≠ plug := by
    intro p a s h hh
    rw [hview1] at hh
    simpa using (mem_keepV.1 hh).2
  obtain ⟨r2, ns2, k1, k2, k3, k4, k5, k6, k7, k8⟩ :=
    removeHms_spec (E := E) plug ((r1.hms.filter (·.plug == plug)).map HookMan.oid)
      (nodup_map_filter _ g2.ref.oid) g2 hown1 hno1 (by
        intro o ho
        obtain ⟨h, hh, rfl⟩ := List.mem_map.1 ho
        rw [List.mem_filter] at hh
        exact ⟨h.pub, h.info, h, hh.1, rfl, by simpa using hh.2, rfl, rfl⟩)
  unfold unloadReg
  simp only [bind, Except.bind, g1, k1]
  refine ⟨r2, _, rfl, k2, k3, k4.trans hview1, ?_, ?_, by omega, D, by rw [k8]; exact hD1, ?_⟩
  · intro j e
    rw [k5, g4]
    split
    · next hj =>
      rw [mem_idFindPlug] at hj
      obtain ⟨e', q1, q2⟩ := hj
      constructor
      · intro h; cases h
      · rintro ⟨h1, h2⟩; rw [q1] at h1; cases h1; exact absurd q2 h2
    · next hj =>
      rw [mem_idFindPlug] at hj
      exact ⟨fun h => ⟨h, fun hc => hj ⟨e, h, hc⟩⟩, fun h => h.1⟩
  · intro o a b c
    rw [k6, hasHm_congr g6]
    constructor
    · rintro ⟨h1, h2⟩
      refine ⟨h1, ?_⟩
      rintro rfl
      apply h2
      obtain ⟨h, q1, q2, q3, q4⟩ := (hasHm_congr g6 ..).2 h1
      exact List.mem_map.2 ⟨h, List.mem_filter.2 ⟨q1, by simpa using q3⟩, q2⟩
    · rintro ⟨h1, h2⟩
      refine ⟨h1, ?_⟩
      intro hc
      obtain ⟨h, q1, q2⟩ := List.mem_map.1 hc
      rw [List.mem_filter] at q1
      have := (hasHm_fun hw.ref.oid h1 ((hasHm_congr g6 ..).1 ⟨h, q1.1, q2, rfl, rfl, rfl⟩)).1
      exact h2 (this.trans (by simpa using q1.2))
  · intro n; rw [hD2]
    constructor
    · rintro ⟨p, a, s, h, h1, h2, h3⟩; exact ⟨p, a, s, h, h1, (hiff p a s h h1).1 h2, h3⟩
    · rintro ⟨p, a, s, h, h1, h2, h3⟩; exact ⟨p, a, s, h, h1, (hiff p a s h h1).2 h2, h3⟩

end Verif.SH
