import Verif.SH.RegAdd
/-
Removal operations preserve the registry invariant; their effect on the view.
-/
namespace Verif.SH

theorem revert_frame (E : Env) (r : Reg) (v : Vfn) :
    (revert E r v).vfns = r.vfns ∧ (revert E r v).entries = r.entries ∧ (revert E r v).next = r.next ∧
    (revert E r v).deleted = r.deleted ∧ (revert E r v).hms = r.hms ∧ (revert E r v).stored = r.stored := by
  unfold revert; split
  · exact patch_frame ..
  · exact ⟨rfl, rfl, rfl, rfl, rfl, rfl⟩

theorem revert_mem (E : Env) (r : Reg) (v : Vfn) :
    (revert E r v).mem = if E.inMemory v.ptr ∧ E.writable v.ptr then upd r.mem v.ptr v.orig else r.mem := by
  unfold revert; split
  · next h => rw [patch_mem]; simp [h]
  · next h => simp [h]

/-- Node ids of all hooks on a record. -/
def vfnNids (v : Vfn) : List Nat := v.ifaces.flatMap fun i => (i.pre ++ i.post).map Hook.nid

theorem mem_vfnNids {r : Reg} (hs : SInv r) {v : Vfn} (hv : v ∈ r.vfns) (n : Nat) :
    n ∈ vfnNids v ↔ ∃ a s h, h ∈ view r v.ptr a s ∧ h.nid = n := by
  unfold vfnNids
  simp only [List.mem_flatMap, List.mem_map, List.mem_append]
  constructor
  · rintro ⟨i, hi, h, hh, rfl⟩
    rcases hh with hh | hh
    · exact ⟨i.ptr, false, h, view_intro hs hv hi hh, rfl⟩
    · exact ⟨i.ptr, true, h, view_intro hs hv hi hh, rfl⟩
  · rintro ⟨a, s, h, hh, rfl⟩
    rw [view_mem hs hv] at hh
    obtain ⟨i, hi, rfl, hi2⟩ := viewV_elim hh
    refine ⟨i, hi, h, ?_, rfl⟩
    cases s
    · exact Or.inl hi2
    · exact Or.inr hi2

theorem nodup_map_of_pairwise_lt {l : List Hook} (h : l.Pairwise (fun a b => a.nid < b.nid)) :
    (l.map Hook.nid).Nodup := by
  rw [List.Nodup, List.pairwise_map]
  exact h.imp (fun h => Nat.ne_of_lt h)

theorem vfnNids_nodup {r : Reg} {next : Nat} {del : List Nat} (hs : SInv r) (hn : NidInv (view r) next del)
    {v : Vfn} (hv : v ∈ r.vfns) : (vfnNids v).Nodup := by
  have hV := hs.vi v hv
  unfold vfnNids
  rw [List.Nodup, List.pairwise_flatMap]
  constructor
  · intro i hi
    show ((i.pre ++ i.post).map Hook.nid).Nodup
    rw [List.map_append, List.nodup_append]
    refine ⟨nodup_map_of_pairwise_lt (hV.sorted i hi false), nodup_map_of_pairwise_lt (hV.sorted i hi true), ?_⟩
    intro a ha b hb hab
    obtain ⟨x, hx, rfl⟩ := List.mem_map.1 ha
    obtain ⟨y, hy, rfl⟩ := List.mem_map.1 hb
    have := hn.uniq _ _ _ _ _ _ _ _ (view_intro (s := false) hs hv hi hx) (view_intro (s := true) hs hv hi hy) hab
    exact absurd this.2.2.1 (by simp)
  · have : v.ifaces.Pairwise (fun a b => a.ptr ≠ b.ptr) := by
      have := hV.iptr; rw [List.Nodup, List.pairwise_map] at this; exact this
    refine List.Pairwise.imp_of_mem ?_ this
    intro i j hi hj hij a ha b hb hab
    obtain ⟨x, hx, rfl⟩ := List.mem_map.1 ha
    obtain ⟨y, hy, rfl⟩ := List.mem_map.1 hb
    have hx' : ∃ s, x ∈ view r v.ptr i.ptr s := by
      rcases List.mem_append.1 hx with hx | hx
      · exact ⟨false, view_intro hs hv hi hx⟩
      · exact ⟨true, view_intro hs hv hi hx⟩
    have hy' : ∃ s, y ∈ view r v.ptr j.ptr s := by
      rcases List.mem_append.1 hy with hy | hy
      · exact ⟨false, view_intro hs hv hj hy⟩
      · exact ⟨true, view_intro hs hv hj hy⟩
    obtain ⟨s, hx'⟩ := hx'
    obtain ⟨t, hy'⟩ := hy'
    exact hij (hn.uniq _ _ _ _ _ _ _ _ hx' hy' hab).2.1

theorem view_filter {r r2 : Reg} (hs : SInv r) {v : Vfn} (hv : v ∈ r.vfns)
    (hvf : r2.vfns = r.vfns.filter (·.oid != v.oid)) (p a : Addr) (s : Bool) :
    view r2 p a s = if p = v.ptr then [] else view r p a s := by
  have hnd : (r2.vfns.map Vfn.ptr).Nodup := by rw [hvf]; exact nodup_map_filter _ hs.vptr
  have hm : ∀ x, x ∈ r2.vfns ↔ x ∈ r.vfns ∧ x.oid ≠ v.oid := by intro x; rw [hvf]; simp
  by_cases hp : p = v.ptr
  · subst hp
    rw [if_pos rfl]
    have : r2.vfns.find? (·.ptr == v.ptr) = none := by
      rw [List.find?_eq_none]
      intro x hx
      obtain ⟨h1, h2⟩ := (hm x).1 hx
      simp only [beq_iff_eq]
      intro hc
      exact h2 (congrArg Vfn.oid (nodup_key_inj (key := Vfn.ptr) hs.vptr h1 hv hc))
    unfold view; rw [this]
  · rw [if_neg hp]
    have : r2.vfns.find? (·.ptr == p) = r.vfns.find? (·.ptr == p) := by
      cases hf : r.vfns.find? (·.ptr == p) with
      | none =>
        rw [List.find?_eq_none] at hf ⊢
        intro x hx; exact hf x ((hm x).1 hx).1
      | some y =>
        obtain ⟨h1, h2⟩ := find?_key_some hf
        apply find?_key' hnd _ h2
        refine (hm y).2 ⟨h1, ?_⟩
        intro hc
        have := nodup_key_inj hs.void h1 hv hc
        subst this; exact hp h2.symm
    unfold view; rw [this]

theorem revertAndRemoveVfn_spec {E : Env} {mem0 : Addr → Addr} {r : Reg} (hs : SInv r)
    (hnid : NidInv (view r) r.next r.deleted) (href : RefInv r (Serves r)) (hatt : AttInv r) (hmem : MemInv E mem0 r)
    {v : Vfn} (hv : v ∈ r.vfns) :
    ∃ r', revertAndRemoveVfn E r v = .ok (r', if v.thunk then [Note.cleanup v.oid] else []) ∧
      (∀ es, IdInv (fun p a s => if p = v.ptr then [] else view r p a s) es →
        WInv E mem0 { r' with entries := es }) ∧
      (∀ p a s, view r' p a s = if p = v.ptr then [] else view r p a s) ∧
      r'.vfns = r.vfns.filter (·.oid != v.oid) ∧ r'.entries = r.entries ∧ r'.next = r.next ∧
      hmCore r' = hmCore r ∧ r'.deleted = (vfnNids v).reverse ++ r.deleted := by
  obtain ⟨f1, f2, f3, f4, f5, f6⟩ := revert_frame E r v
  have hcore1 : hmCore (revert E r v) = hmCore r := by unfold hmCore; rw [f5]
  have href1 : RefInv (revert E r v) (Serves r) := href.congr f5 f6 (fun _ _ => Iff.rfl)
  have key : ∃ r2, (match v.hms with
      | front :: _ => decrRef (revert E r v) front v.oid
      | [] => .ok (revert E r v)) = .ok r2 ∧ RefFrame (revert E r v) r2 ∧
      RefInv r2 (fun a b => a ≠ v.oid ∧ Serves r a b) := by
    cases hh : v.hms with
    | nil =>
      refine ⟨_, rfl, RefFrame.refl _, href1.congr rfl rfl ?_⟩
      intro a b
      constructor
      · exact fun h => h.2
      · intro h
        refine ⟨?_, h⟩
        rintro rfl
        rw [serves_self hs hv, hh] at h; simp at h
    | cons x xs =>
      obtain ⟨a, b, c, hx⟩ := hatt.sub v hv x (by rw [hh]; simp)
      obtain ⟨h, hmemh, e1, _⟩ := (hasHm_congr hcore1 ..).2 hx
      subst e1
      obtain ⟨r2, hr2, fr, ref2⟩ := decrRef_spec href1 hmemh v.oid
      refine ⟨r2, hr2, fr, ref2.congr rfl rfl ?_⟩
      intro a b
      constructor
      · rintro ⟨h1, h2⟩; exact ⟨h2, fun hc => h1 hc.1⟩
      · rintro ⟨h1, h2⟩
        refine ⟨?_, h1⟩
        rintro rfl
        rw [serves_self hs hv, hh] at h1
        simp at h1
        exact h2 ⟨rfl, h1.symm⟩
  obtain ⟨r2, hr2, fr, ref2⟩ := key
  have heq : revertAndRemoveVfn E r v = .ok ({ r2 with vfns := r2.vfns.filter (·.oid != v.oid), deleted := (v.ifaces.flatMap fun i => (i.pre ++ i.post).map Hook.nid).reverse ++ r2.deleted }, if v.thunk then [Note.cleanup v.oid] else []) := by
    unfold revertAndRemoveVfn
    cases hh : v.hms with
    | nil => rw [hh] at hr2; simp only at hr2; cases hr2; rfl
    | cons x xs => rw [hh] at hr2; simp only at hr2; simp only [hr2, bind, Except.bind]
  rw [heq]
  refine ⟨_, rfl, ?_, ?_, by show List.filter _ r2.vfns = _; rw [fr.vfns, f1], by exact fr.entries.trans f2, by exact fr.next.trans f3, ?_, ?_⟩
  rotate_left
  · intro p a s
    exact view_filter hs hv (by show List.filter _ r2.vfns = _; rw [fr.vfns, f1]) p a s
  · exact fr.core.trans hcore1
  · show _ ++ r2.deleted = _
    rw [fr.deleted, f4]; rfl
  intro es hid
  generalize hr3 : ({ r2 with vfns := r2.vfns.filter (·.oid != v.oid), entries := es, deleted := (v.ifaces.flatMap fun i => (i.pre ++ i.post).map Hook.nid).reverse ++ r2.deleted } : Reg) = r3
  have hvf : r3.vfns = r.vfns.filter (·.oid != v.oid) := by rw [← hr3]; show List.filter _ r2.vfns = _; rw [fr.vfns, f1]
  have hview : view r3 = (fun p a s => if p = v.ptr then [] else view r p a s) := by
    funext p a s; exact view_filter hs hv hvf p a s
  have hnx : r3.next = r.next := by rw [← hr3]; exact fr.next.trans f3
  have hde : r3.deleted = (vfnNids v).reverse ++ r.deleted := by
    rw [← hr3]; show _ ++ r2.deleted = _; rw [fr.deleted, f4]; rfl
  have hm : ∀ x, x ∈ r3.vfns ↔ x ∈ r.vfns ∧ x.oid ≠ v.oid := by intro x; rw [hvf]; simp
  have hhm3 : r3.hms = r2.hms := by rw [← hr3]
  have hco : hmCore r3 = hmCore r := by
    unfold hmCore; rw [hhm3]; exact fr.core.trans hcore1
  have hhas := hasHm_congr hco
  have hme : r3.mem = if E.inMemory v.ptr ∧ E.writable v.ptr then upd r.mem v.ptr v.orig else r.mem := by
    rw [← hr3]; exact fr.mem.trans (revert_mem E r v)
  have hmo : ∀ a, a ≠ v.ptr → r3.mem a = r.mem a := by
    intro a ha; rw [hme]; split
    · simp [upd, ha]
    · rfl
  refine ⟨?_, ?_, ?_, ?_, ?_, ?_⟩
  · refine ⟨?_, ?_, ?_, ?_⟩
    · rw [hvf]; exact nodup_map_filter _ hs.vptr
    · rw [hvf]; exact nodup_map_filter _ hs.void
    · intro x hx; rw [hnx]; exact hs.vlt x ((hm x).1 hx).1
    · intro x hx; rw [hnx]; exact hs.vi x ((hm x).1 hx).1
  · rw [hview]; rw [← hr3]; exact hid
  · rw [hview, hnx, hde]
    have hmv : ∀ p a s h, h ∈ (if p = v.ptr then [] else view r p a s) → p ≠ v.ptr ∧ h ∈ view r p a s := by
      intro p a s h hh
      split at hh
      · cases hh
      · next hp => exact ⟨hp, hh⟩
    refine ⟨?_, ?_, ?_, ?_, ?_⟩
    · intro p a s h p' a' s' h' h1 h2 h3
      exact hnid.uniq _ _ _ _ _ _ _ _ (hmv _ _ _ _ h1).2 (hmv _ _ _ _ h2).2 h3
    · intro p a s h hh hc
      obtain ⟨hp, hh⟩ := hmv _ _ _ _ hh
      rw [List.mem_append, List.mem_reverse] at hc
      rcases hc with hc | hc
      · obtain ⟨a', s', h', hh', e⟩ := (mem_vfnNids hs hv _).1 hc
        exact hp (hnid.uniq _ _ _ _ _ _ _ _ hh hh' e.symm).1
      · exact hnid.live _ _ _ _ hh hc
    · rw [List.nodup_append]
      refine ⟨(List.reverse_perm _).nodup_iff.2 (vfnNids_nodup hs hnid hv), hnid.nodup, ?_⟩
      intro a ha b hb hab
      subst hab
      rw [List.mem_reverse] at ha
      obtain ⟨a', s', h', hh', e⟩ := (mem_vfnNids hs hv _).1 ha
      subst e
      exact hnid.live _ _ _ _ hh' hb
    · intro n hn
      rw [List.mem_append, List.mem_reverse] at hn
      rcases hn with hn | hn
      · obtain ⟨a', s', h', hh', e⟩ := (mem_vfnNids hs hv _).1 hn
        subst e; exact hnid.ltv _ _ _ _ hh'
      · exact hnid.lt n hn
    · intro p a s h hh
      exact hnid.ltv _ _ _ _ (hmv _ _ _ _ hh).2
  · refine ref2.congr hhm3 (by rw [← hr3]) ?_
    intro a b
    constructor
    · rintro ⟨x, hx, rfl, h⟩
      obtain ⟨h1, h2⟩ := (hm x).1 hx
      exact ⟨h2, x, h1, rfl, h⟩
    · rintro ⟨h1, x, hx, rfl, h⟩
      exact ⟨x, (hm x).2 ⟨hx, h1⟩, rfl, h⟩
  · refine ⟨?_, ?_, ?_, ?_, ?_, ?_⟩
    · intro o a b c h; rw [hnx]; exact hatt.hlt o a b c ((hhas ..).1 h)
    · intro o a b c h; exact hatt.valid o a b c ((hhas ..).1 h)
    · intro x hx o ho
      obtain ⟨a, b, c, h⟩ := hatt.sub x ((hm x).1 hx).1 o ho
      exact ⟨a, b, c, (hhas ..).2 h⟩
    · intro x hx; exact hatt.nodup x ((hm x).1 hx).1
    · intro x hx; exact hatt.perm x ((hm x).1 hx).1
    · intro x hx
      exact (hatt.sorted x ((hm x).1 hx).1).imp
          (fun h p q i p' q' i' h1 h2 => h p q i p' q' i' ((hhas ..).1 h1) ((hhas ..).1 h2))
  · refine ⟨?_, ?_, ?_, ?_⟩
    · intro x hx hok; exact hmem.orig x ((hm x).1 hx).1 hok
    · intro a hok ha
      by_cases hav : a = v.ptr
      · subst hav
        by_cases hwr : E.writable v.ptr = true
        · rw [hme, if_pos ⟨hok hwr, hwr⟩]
          simp only [upd, if_true]
          exact hmem.orig v hv hok
        · rw [hme, if_neg (fun h => hwr h.2)]
          exact hmem.frozen _ (by simpa using hwr)
      · rw [hmo a hav]
        apply hmem.other a hok
        intro x hx hc
        by_cases hxo : x.oid = v.oid
        · have := nodup_key_inj hs.void hx hv hxo
          subst this; exact hav hc.symm
        · exact ha x ((hm x).2 ⟨hx, hxo⟩) hc
    · intro a hwr
      by_cases hav : a = v.ptr
      · subst hav
        rw [hme, if_neg (fun h => by rw [hwr] at h; exact absurd h.2 (by simp))]
        exact hmem.frozen _ hwr
      · rw [hmo a hav]; exact hmem.frozen _ hwr
    · intro x hx hwr o a b c h1 h2
      obtain ⟨h3, h4⟩ := (hm x).1 hx
      have hpp : x.ptr ≠ v.ptr := by
        intro hc
        exact h4 (congrArg Vfn.oid (nodup_key_inj (key := Vfn.ptr) hs.vptr h3 hv hc))
      rw [hmo _ hpp]
      exact hmem.served x h3 hwr o a b c h1 ((hhas ..).1 h2)

/-! ### removing one hook -/

/-- The view without one hook id. -/
def dropId (vw : Addr → Addr → Bool → List Hook) (id : Int) : Addr → Addr → Bool → List Hook :=
  fun p a s => (vw p a s).filter (fun h => h.id != id)

theorem mem_dropId {vw : Addr → Addr → Bool → List Hook} {id : Int} {p a : Addr} {s : Bool} {h : Hook} :
    h ∈ dropId vw id p a s ↔ h ∈ vw p a s ∧ h.id ≠ id := by
  unfold dropId; simp

theorem IdInv.dropId {vw : Addr → Addr → Bool → List Hook} {es : List Entry} (hi : IdInv vw es) (id : Int) :
    IdInv (dropId vw id) (idRemove es id).1 := by
  refine ⟨?_, ?_, ?_⟩
  · intro p a s h hh
    obtain ⟨h1, h2⟩ := mem_dropId.1 hh
    rw [idRemove_query, if_neg h2]
    exact hi.entry p a s h h1
  · intro j e hj
    rw [idRemove_query] at hj
    split at hj
    · cases hj
    · next hne =>
      obtain ⟨h, hh, e'⟩ := hi.hook j e hj
      exact ⟨h, mem_dropId.2 ⟨hh, by rw [e']; exact hne⟩, e'⟩
  · intro p a s
    exact nodup_map_filter _ (hi.nodup p a s)

theorem NidInv.dropId {vw : Addr → Addr → Bool → List Hook} {next : Nat} {del : List Nat} (hi : NidInv vw next del)
    {h : Hook} {p a : Addr} {s : Bool} (hh : h ∈ vw p a s) :
    NidInv (dropId vw h.id) next (h.nid :: del) := by
  refine ⟨?_, ?_, ?_, ?_, ?_⟩
  · intro p a s h p' a' s' h' h1 h2 h3
    exact hi.uniq _ _ _ _ _ _ _ _ (mem_dropId.1 h1).1 (mem_dropId.1 h2).1 h3
  · intro q b t k hk hc
    obtain ⟨h1, h2⟩ := mem_dropId.1 hk
    rcases List.mem_cons.1 hc with hc | hc
    · exact h2 (congrArg Hook.id (hi.uniq _ _ _ _ _ _ _ _ h1 hh hc).2.2.2)
    · exact hi.live _ _ _ _ h1 hc
  · exact List.nodup_cons.2 ⟨hi.live _ _ _ _ hh, hi.nodup⟩
  · intro n hn
    rcases List.mem_cons.1 hn with rfl | hn
    · exact hi.ltv _ _ _ _ hh
    · exact hi.lt n hn
  · intro q b t k hk; exact hi.ltv _ _ _ _ (mem_dropId.1 hk).1

theorem dropId_other {vw : Addr → Addr → Bool → List Hook} {es : List Entry} (hid : IdInv vw es)
    {h : Hook} {p a : Addr} {s : Bool} (hh : h ∈ vw p a s) {p' a' : Addr} {s' : Bool}
    (hne : ¬ (p' = p ∧ a' = a ∧ s' = s)) : dropId vw h.id p' a' s' = vw p' a' s' := by
  unfold dropId
  rw [List.filter_eq_self]
  intro k hk
  simp only [bne_iff_ne, ne_eq]
  intro hc
  obtain ⟨e, h1, h2, h3, h4, _⟩ := hid.entry _ _ _ _ hh
  obtain ⟨e', h1', h2', h3', h4', _⟩ := hid.entry _ _ _ _ hk
  rw [hc, h1] at h1'
  cases h1'
  exact hne ⟨h2'.symm.trans h2, h3'.symm.trans h3, h4'.symm.trans h4⟩

theorem eraseP_eq_filter {l : List Hook} {id : Int} (hn : (l.map Hook.id).Nodup) :
    l.eraseP (·.id == id) = l.filter (fun h => h.id != id) := by
  induction l with
  | nil => rfl
  | cons x xs ih =>
    rw [List.map_cons, List.nodup_cons] at hn
    by_cases hx : x.id = id
    · rw [List.eraseP_cons_of_pos (by simpa using hx), List.filter_cons_of_neg (by simpa using hx)]
      symm
      rw [List.filter_eq_self]
      intro y hy
      simp only [bne_iff_ne, ne_eq]
      intro hc
      exact hn.1 (List.mem_map.2 ⟨y, hy, by rw [hc, hx]⟩)
    · rw [List.eraseP_cons_of_neg (by simpa using hx), List.filter_cons_of_pos (by simpa using hx), ih hn.2]

/-- Hooks, record and object that an id denotes. -/
structure IdLoc (r : Reg) (id : Int) (e : Entry) (v : Vfn) (i : Iface) (h : Hook) : Prop where
  hv : v ∈ r.vfns
  hi : i ∈ v.ifaces
  hh : h ∈ i.side e.post
  vptr : v.ptr = e.vfnptr
  iptr : i.ptr = e.adj
  hid : h.id = id

theorem idLoc_of_query {E : Env} {mem0 : Addr → Addr} {r : Reg} (hw : WInv E mem0 r) {id : Int} {e : Entry}
    (hq : idQuery r.entries id = some e) : ∃ v i h, IdLoc r id e v i h := by
  obtain ⟨h, hh, hid⟩ := hw.ids.hook id e hq
  obtain ⟨v, hv, hvp, i, hi, hip, hh⟩ := view_elim hh
  exact ⟨v, i, h, hv, hi, hh, hvp, hip, hid⟩

/-- Unfolding of `removeHookById` on a known id. -/
theorem removeHookById_eq {E : Env} {mem0 : Addr → Addr} {r : Reg} (hw : WInv E mem0 r) {id : Int} {e : Entry}
    (hq : idQuery r.entries id = some e) {v : Vfn} {i : Iface} {h : Hook} (hl : IdLoc r id e v i h) :
    removeHookById E r id =
      (let i' := i.setSide e.post ((i.side e.post).eraseP (·.id == id))
       let n1 := Note.hookRemoved v.oid i.oid e.post h.nid (prevOf (·.id == id) none (i.side e.post))
       let r := { r with deleted := h.nid :: r.deleted }
       if i'.pre = [] ∧ i'.post = [] then
         let v' := { v with ifaces := v.ifaces.filter (·.oid != i.oid) }
         if v'.ifaces = [] then do
           let (r2, ns) ← revertAndRemoveVfn E (setVfn r v') v'
           .ok ({ r2 with entries := (idRemove r2.entries id).1 }, true,
             [n1, .ifaceRemoved v.oid i.oid, .vfnRemoved v.oid] ++ ns)
         else
           .ok ({ setVfn r v' with entries := (idRemove r.entries id).1 }, true,
             [n1, .ifaceRemoved v.oid i.oid])
       else
         .ok ({ setVfn r (v.setIface i') with entries := (idRemove r.entries id).1 }, true, [n1])) := by
  have hV := hw.s.vi v hl.hv
  have f1 : r.vfns.find? (·.ptr == e.vfnptr) = some v := find?_key' hw.s.vptr hl.hv hl.vptr
  have f2 : v.ifaces.find? (·.ptr == e.adj) = some i := find?_key' hV.iptr hl.hi hl.iptr
  have hnd : ((i.side e.post).map Hook.id).Nodup := by
    have := hw.ids.nodup v.ptr i.ptr e.post
    rwa [view_mem hw.s hl.hv, viewV_mem hV hl.hi] at this
  have f3 : (i.side e.post).find? (·.id == id) = some h := find?_key' hnd hl.hh hl.hid
  unfold removeHookById
  rw [hq]
  simp only [f1, f2, f3]

theorem removeHookById_none (E : Env) {r : Reg} {id : Int} (hq : idQuery r.entries id = none) :
    removeHookById E r id = .ok (r, false, []) := by
  unfold removeHookById; rw [hq]

/-- What survives of function records when hooks are removed. -/
def VfnSub (r r' : Reg) : Prop :=
  ∀ x ∈ r'.vfns, ∃ y ∈ r.vfns, y.oid = x.oid ∧ y.ptr = x.ptr ∧ y.hms = x.hms ∧ y.orig = x.orig ∧
    ∀ i ∈ x.ifaces, ∃ j ∈ y.ifaces, j.oid = i.oid ∧ j.ptr = i.ptr ∧ ∀ s, ∀ h ∈ i.side s, h ∈ j.side s

theorem VfnSub.own {r r' : Reg} (hs : VfnSub r r') (hc : hmCore r' = hmCore r) (ho : OwnInv r) : OwnInv r' := by
  intro x hx i hi s h hh
  obtain ⟨y, hy, _, _, hhm, _, hif⟩ := hs x hx
  obtain ⟨j, hj, _, _, hside⟩ := hif i hi
  obtain ⟨o, h1, pub, info, h2⟩ := ho y hy j hj s h (hside s h hh)
  exact ⟨o, hhm ▸ h1, pub, info, (hasHm_congr hc ..).2 h2⟩

theorem VfnSub.trans {a b c : Reg} (h1 : VfnSub a b) (h2 : VfnSub b c) : VfnSub a c := by
  intro x hx
  obtain ⟨y, hy, e1, e2, e3, e4, e5⟩ := h2 x hx
  obtain ⟨z, hz, f1, f2, f3, f4, f5⟩ := h1 y hy
  refine ⟨z, hz, f1.trans e1, f2.trans e2, f3.trans e3, f4.trans e4, ?_⟩
  intro i hi
  obtain ⟨j, hj, g1, g2, g3⟩ := e5 i hi
  obtain ⟨k, hk, k1, k2, k3⟩ := f5 j hj
  exact ⟨k, hk, k1.trans g1, k2.trans g2, fun s h hh => k3 s h (g3 s h hh)⟩

theorem VfnSub.refl (r : Reg) : VfnSub r r := by
  intro x hx
  exact ⟨x, hx, rfl, rfl, rfl, rfl, fun i hi => ⟨i, hi, rfl, rfl, fun _ _ h => h⟩⟩

theorem removeHookById_spec {E : Env} {mem0 : Addr → Addr} {r : Reg} (hw : RegInv E mem0 r) {id : Int} {e : Entry}
    (hq : idQuery r.entries id = some e) :
    ∃ r' ns h, removeHookById E r id = .ok (r', true, ns) ∧ RegInv E mem0 r' ∧
      h ∈ view r e.vfnptr e.adj e.post ∧ h.id = id ∧ view r' = dropId (view r) id ∧
      (∀ j, idQuery r'.entries j = if j = id then none else idQuery r.entries j) ∧
      r'.deleted = h.nid :: r.deleted ∧ hmCore r' = hmCore r ∧ r'.next = r.next ∧ VfnSub r r' := by
  obtain ⟨v, i, h, hl⟩ := idLoc_of_query hw.toWInv hq
  have hV := hw.s.vi v hl.hv
  rw [removeHookById_eq hw.toWInv hq hl]
  have hhv : h ∈ view r v.ptr i.ptr e.post := view_intro hw.s hl.hv hl.hi hl.hh
  have hvw : view r v.ptr i.ptr e.post = i.side e.post := by rw [view_mem hw.s hl.hv, viewV_mem hV hl.hi]
  have hnd : ((i.side e.post).map Hook.id).Nodup := by
    have := hw.ids.nodup v.ptr i.ptr e.post
    rwa [hvw] at this
  rw [eraseP_eq_filter hnd]
  generalize hL : (i.side e.post).filter (fun h => h.id != id) = L
  have hsubL : ∀ k ∈ L, k ∈ i.side e.post := by intro k hk; rw [← hL] at hk; exact (List.mem_filter.1 hk).1
  have hdk : dropId (view r) id v.ptr i.ptr e.post = L := by unfold dropId; rw [hvw, hL]
  have hdo : ∀ p a s, ¬ (p = v.ptr ∧ a = i.ptr ∧ s = e.post) → dropId (view r) id p a s = view r p a s := by
    intro p a s hne; rw [← hl.hid]; exact dropId_other hw.ids hhv hne
  have hidd : IdInv (dropId (view r) id) (idRemove r.entries id).1 := hw.ids.dropId id
  have hnidd : NidInv (dropId (view r) id) r.next (h.nid :: r.deleted) := by
    rw [← hl.hid]; exact hw.nid.dropId hhv
  have hhview : h ∈ view r e.vfnptr e.adj e.post := by rw [← hl.vptr, ← hl.iptr]; exact hhv
  dsimp only
  split
  · next hemp =>
    -- the object has no hooks left
    have hboth : ∀ s, (i.setSide e.post L).side s = [] := by
      intro s; cases s
      · exact hemp.1
      · exact hemp.2
    have hLe : L = [] := by have := hboth e.post; rwa [Iface.side_setSide, if_pos rfl] at this
    have hoe : ∀ s, s ≠ e.post → i.side s = [] := by
      intro s hs; have := hboth s; rwa [Iface.side_setSide, if_neg hs] at this
    generalize hIF : v.ifaces.filter (·.oid != i.oid) = IF
    have hmIF : ∀ x, x ∈ IF ↔ x ∈ v.ifaces ∧ x.oid ≠ i.oid := by intro x; rw [← hIF]; simp
    have hvi : VInv r.next { v with ifaces := IF } := by
      refine ⟨?_, ?_, ?_, ?_, ?_⟩
      · show (IF.map Iface.ptr).Nodup
        rw [← hIF]; exact nodup_map_filter _ hV.iptr
      · show (IF.map Iface.oid).Nodup
        rw [← hIF]; exact nodup_map_filter _ hV.ioid
      · intro x hx; exact hV.ilt x ((hmIF x).1 hx).1
      · intro x hx; exact hV.sorted x ((hmIF x).1 hx).1
      · intro x hx; exact hV.hlt x ((hmIF x).1 hx).1
    have hviewV : ∀ a s, viewV { v with ifaces := IF } a s = dropId (view r) id v.ptr a s := by
      intro a s
      by_cases ha : a = i.ptr
      · subst ha
        have hn : IF.find? (·.ptr == i.ptr) = none := by
          rw [List.find?_eq_none]
          intro x hx
          obtain ⟨h1, h2⟩ := (hmIF x).1 hx
          simp only [beq_iff_eq]
          intro hc
          exact h2 (congrArg Iface.oid (nodup_key_inj (key := Iface.ptr) hV.iptr h1 hl.hi hc))
        have : viewV { v with ifaces := IF } i.ptr s = [] := by unfold viewV; simp only [hn]
        rw [this]
        by_cases hs : s = e.post
        · subst hs; rw [hdk, hLe]
        · rw [hdo _ _ _ (fun hc => hs hc.2.2), view_mem hw.s hl.hv, viewV_mem hV hl.hi, hoe s hs]
      · rw [hdo _ _ _ (fun hc => ha hc.2.1), view_mem hw.s hl.hv]
        cases hf : v.ifaces.find? (·.ptr == a) with
        | none =>
          have hne := find?_key_none hf
          have h2 : IF.find? (·.ptr == a) = none := by
            rw [List.find?_eq_none]; intro x hx; simpa using hne x ((hmIF x).1 hx).1
          unfold viewV; simp only [hf, h2]
        | some x =>
          obtain ⟨hx, hxa⟩ := find?_key_some hf
          subst hxa
          have hxo : x.oid ≠ i.oid := by
            intro hc; have := nodup_key_inj hV.ioid hx hl.hi hc; subst this; exact ha rfl
          rw [viewV_mem hvi ((hmIF x).2 ⟨hx, hxo⟩), viewV_mem hV hx]
    -- the registry with the object removed
    have hview1 : ∀ r2 : Reg, r2.vfns = (setVfn r { v with ifaces := IF }).vfns → r.next ≤ r2.next →
        VInv r2.next { v with ifaces := IF } → view r2 = dropId (view r) id := by
      intro r2 h1 h2 h3
      funext p a s
      rw [view_reif hw.s hl.hv IF h1 h2 h3]
      split
      · next hp => rw [hp, hviewV]
      · next hp => rw [hdo _ _ _ (fun hc => hp hc.1)]
    have hsub1 : ∀ r2 : Reg, r2.vfns = (setVfn r { v with ifaces := IF }).vfns → VfnSub r r2 := by
      intro r2 h1 x hx
      rw [h1] at hx
      rcases (mem_setVfn (v' := { v with ifaces := IF }) hl.hv rfl x).1 hx with rfl | ⟨hx, _⟩
      · exact ⟨v, hl.hv, rfl, rfl, rfl, rfl, fun j hj => ⟨j, ((hmIF j).1 hj).1, rfl, rfl, fun _ _ h => h⟩⟩
      · exact ⟨x, hx, rfl, rfl, rfl, rfl, fun j hj => ⟨j, hj, rfl, rfl, fun _ _ h => h⟩⟩
    split
    · next hIFe =>
      -- the function record goes, too
      generalize hr1 : setVfn { r with deleted := h.nid :: r.deleted } { v with ifaces := IF } = r1
      have hvf1 : r1.vfns = (setVfn r { v with ifaces := IF }).vfns := by rw [← hr1]; rfl
      have hnx1 : r1.next = r.next := by rw [← hr1]; rfl
      have hen1 : r1.entries = r.entries := by rw [← hr1]; rfl
      have hde1 : r1.deleted = h.nid :: r.deleted := by rw [← hr1]; rfl
      have hco1 : hmCore r1 = hmCore r := by rw [← hr1]; rfl
      have hv1 : view r1 = dropId (view r) id :=
        hview1 r1 hvf1 (Nat.le_of_eq hnx1.symm) (by rw [hnx1]; exact hvi)
      have w1 : WInv E mem0 { r1 with entries := (idRemove r.entries id).1 } := by
        refine hw.toWInv.reif (r2 := { r1 with entries := (idRemove r.entries id).1 }) hl.hv IF hvf1 (by rw [← hr1]; rfl) (by rw [← hr1]; rfl) (by rw [← hr1]; rfl) (Nat.le_of_eq hnx1.symm)
          (by show VInv r1.next _; rw [hnx1]; exact hvi) ?_ ?_
        · have : view { r1 with entries := (idRemove r.entries id).1 } = view r1 := view_congr_vfns rfl
          rw [this, hv1]; exact hidd
        · have : view { r1 with entries := (idRemove r.entries id).1 } = view r1 := view_congr_vfns rfl
          rw [this, hv1]; show NidInv _ r1.next r1.deleted; rw [hnx1, hde1]; exact hnidd
      have hvmem : { v with ifaces := IF } ∈ r1.vfns := by
        rw [hvf1]; exact (mem_setVfn (v' := { v with ifaces := IF }) hl.hv rfl _).2 (Or.inl rfl)
      obtain ⟨r2, hr2, hw2, hview2, hvf2, hen2, hnx2, hco2, hde2⟩ :=
        revertAndRemoveVfn_spec (E := E) (mem0 := mem0) (r := r1) ⟨w1.s.vptr, w1.s.void, w1.s.vlt, w1.s.vi⟩ (by
          have := w1.nid
          exact this) (w1.ref.congr rfl rfl (fun _ _ => Iff.rfl)) ⟨w1.att.hlt, w1.att.valid, w1.att.sub, w1.att.nodup, w1.att.perm, w1.att.sorted⟩ ⟨w1.mem.orig, w1.mem.other, w1.mem.frozen, w1.mem.served⟩ hvmem
      have hempty : ∀ a s, view r1 v.ptr a s = [] := by
        intro a s
        have : view r1 v.ptr a s = viewV { v with ifaces := IF } a s :=
          view_mem (r := r1) ⟨w1.s.vptr, w1.s.void, w1.s.vlt, w1.s.vi⟩ hvmem a s
        rw [this]; unfold viewV; simp only [hIFe]; rfl
      have hview2' : view r2 = dropId (view r) id := by
        funext p a s
        rw [hview2]
        split
        · next hp =>
          have hp : p = v.ptr := hp
          subst hp; rw [← hv1]; exact (hempty a s).symm
        · rw [hv1]
      rw [hr2]
      simp only [bind, Except.bind]
      refine ⟨_, _, h, rfl, ⟨?_, ?_⟩, hhview, hl.hid, ?_, ?_, ?_, ?_, ?_, ?_⟩
      · rw [hen2, hen1]
        apply hw2
        have : (fun p a s => if p = v.ptr then [] else view r1 p a s) = dropId (view r) id := by
          rw [← hview2']; funext p a s; exact (hview2 p a s).symm
        show IdInv (fun p a s => if p = v.ptr then [] else view r1 p a s) _
        rw [this]; exact hidd
      · intro x hx
        have hx : x ∈ r2.vfns := hx
        rw [hvf2] at hx
        simp only [List.mem_filter, bne_iff_ne, ne_eq] at hx
        rw [hvf1] at hx
        rcases (mem_setVfn (v' := { v with ifaces := IF }) hl.hv rfl x).1 hx.1 with rfl | ⟨hx1, _⟩
        · exact absurd rfl hx.2
        · exact hw.ne x hx1
      · exact (view_congr_vfns rfl).trans hview2'
      · intro j
        show idQuery (idRemove r2.entries id).1 j = _
        rw [idRemove_query, hen2, hen1]
      · show r2.deleted = _
        rw [hde2, hde1]
        have : vfnNids { v with ifaces := IF } = [] := by unfold vfnNids; simp only [hIFe]; rfl
        rw [this]; rfl
      · exact hco2.trans hco1
      · exact hnx2.trans hnx1
      · intro x hx
        have hx : x ∈ r2.vfns := hx
        rw [hvf2] at hx
        exact hsub1 r1 hvf1 x (List.mem_filter.1 hx).1
    · next hIFe =>
      refine ⟨_, _, h, rfl, ⟨?_, ?_⟩, hhview, hl.hid, ?_, ?_, rfl, rfl, rfl, ?_⟩
      · refine hw.toWInv.reif hl.hv IF rfl rfl rfl rfl (Nat.le_refl _) hvi ?_ ?_
        · exact hview1 (setVfn r { v with ifaces := IF }) rfl (Nat.le_refl _) hvi ▸ hidd
        · exact hview1 (setVfn r { v with ifaces := IF }) rfl (Nat.le_refl _) hvi ▸ hnidd
      · intro x hx
        rcases (mem_setVfn (v' := { v with ifaces := IF }) hl.hv rfl x).1 hx with rfl | ⟨hx1, _⟩
        · exact ⟨hIFe, (hw.ne v hl.hv).2.1, fun j hj => (hw.ne v hl.hv).2.2 j ((hmIF j).1 hj).1⟩
        · exact hw.ne x hx1
      · exact hview1 _ rfl (Nat.le_refl _) hvi
      · intro j
        show idQuery (idRemove r.entries id).1 j = _
        rw [idRemove_query]
      · exact hsub1 _ rfl
  · next hemp =>
    have hvi : VInv r.next (v.setIface (i.setSide e.post L)) := by
      refine setIface_VInv hV (Nat.le_refl _) hl.hi _ _ ?_ ?_
      · rw [← hL]; exact (hV.sorted i hl.hi _).filter _
      · intro k hk; exact hV.hlt i hl.hi _ k (hsubL k hk)
    have hview1 : view (setVfn r (v.setIface (i.setSide e.post L))) = dropId (view r) id := by
      funext p a s
      rw [view_setSide (r2 := setVfn r (v.setIface (i.setSide e.post L))) hw.s hl.hv hl.hi e.post L rfl (Nat.le_refl _) hvi]
      split
      · next hc => obtain ⟨rfl, rfl, rfl⟩ := hc; exact hdk.symm
      · next hc => rw [hdo _ _ _ hc]
    have hmi := mem_setIface hl.hi (i.setSide_oid e.post L)
    refine ⟨_, _, h, rfl, ⟨?_, ?_⟩, hhview, hl.hid, ?_, ?_, rfl, rfl, rfl, ?_⟩
    · refine hw.toWInv.reif hl.hv _ rfl rfl rfl rfl (Nat.le_refl _) hvi ?_ ?_
      · exact hview1 ▸ hidd
      · exact hview1 ▸ hnidd
    · intro x hx
      rcases (mem_setVfn (v' := v.setIface (i.setSide e.post L)) hl.hv rfl x).1 hx with rfl | ⟨hx1, _⟩
      · refine ⟨?_, (hw.ne v hl.hv).2.1, ?_⟩
        · intro hc
          have := (hmi _).2 (Or.inl rfl)
          rw [hc] at this; cases this
        · intro j hj
          rcases (hmi j).1 hj with rfl | ⟨hj, _⟩
          · exact hemp
          · exact (hw.ne v hl.hv).2.2 j hj
      · exact hw.ne x hx1
    · exact hview1
    · intro j
      show idQuery (idRemove r.entries id).1 j = _
      rw [idRemove_query]
    · intro x hx
      rcases (mem_setVfn (v' := v.setIface (i.setSide e.post L)) hl.hv rfl x).1 hx with rfl | ⟨hx1, _⟩
      · refine ⟨v, hl.hv, rfl, rfl, rfl, rfl, ?_⟩
        intro j hj
        rcases (hmi j).1 hj with rfl | ⟨hj, _⟩
        · refine ⟨i, hl.hi, (i.setSide_oid ..).symm, (i.setSide_ptr ..).symm, ?_⟩
          intro s k hk
          rw [Iface.side_setSide] at hk
          split at hk
          · next hs => rw [hs]; exact hsubL k hk
          · exact hk
        · exact ⟨j, hj, rfl, rfl, fun _ _ h => h⟩
      · exact ⟨x, hx1, rfl, rfl, rfl, rfl, fun j hj => ⟨j, hj, rfl, rfl, fun _ _ h => h⟩⟩

end Verif.SH
