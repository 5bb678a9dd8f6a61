import Verif.SH.LoopNote
/-
Which call thunks the registry operations give up: helper lemmas for C18.
-/
namespace Verif.SH

/-- Identity and "has a call thunk" of all function records. -/
def keyT (r : Reg) : List (Nat × Bool) := r.vfns.map fun v => (v.oid, v.thunk)

/-- The functions whose cleanup task is created by a list of notifications. -/
def cleanups (ns : List Note) : List Nat := ns.filterMap fun n => match n with | .cleanup o => some o | _ => none

theorem mem_cleanups {ns : List Note} {o : Nat} : o ∈ cleanups ns ↔ Note.cleanup o ∈ ns := by
  unfold cleanups
  rw [List.mem_filterMap]
  constructor
  · rintro ⟨n, h1, h2⟩
    cases n <;> simp at h2
    subst h2; exact h1
  · intro h; exact ⟨_, h, rfl⟩

theorem cleanups_append (a b : List Note) : cleanups (a ++ b) = cleanups a ++ cleanups b := List.filterMap_append

/-- A removal: exactly the thunks of the records that vanish get a cleanup task, one each. -/
structure ClRem (r r' : Reg) (ns : List Note) : Prop where
  sub : (keyT r').Sublist (keyT r)
  iff : ∀ o, o ∈ cleanups ns ↔ (o, true) ∈ keyT r ∧ (o, true) ∉ keyT r'
  nd : (cleanups ns).Nodup

theorem ClRem.same {r r' : Reg} (h : keyT r' = keyT r) : ClRem r r' [] :=
  ⟨h ▸ List.Sublist.refl _, fun o => by rw [h]; simp [cleanups], List.nodup_nil⟩

theorem ClRem.quiet {r r' : Reg} {ns : List Note} (h : keyT r' = keyT r) (hn : cleanups ns = []) : ClRem r r' ns :=
  ⟨h ▸ List.Sublist.refl _, fun o => by rw [h, hn]; simp, hn ▸ List.nodup_nil⟩

theorem ClRem.trans {a b c : Reg} {n1 n2 : List Note} (h1 : ClRem a b n1) (h2 : ClRem b c n2) : ClRem a c (n1 ++ n2) := by
  refine ⟨h2.sub.trans h1.sub, fun o => ?_, ?_⟩
  · rw [cleanups_append, List.mem_append, h1.iff, h2.iff]
    have := fun h => h1.sub.subset (a := (o, true)) h
    have := fun h => h2.sub.subset (a := (o, true)) h
    by_cases x1 : (o, true) ∈ keyT a <;> by_cases x2 : (o, true) ∈ keyT b <;> by_cases x3 : (o, true) ∈ keyT c <;> simp_all
  · rw [cleanups_append, List.nodup_append]
    refine ⟨h1.nd, h2.nd, ?_⟩
    rintro o k1 _ k2 rfl
    exact ((h1.iff o).1 k1).2 ((h2.iff o).1 k2).1

theorem ClRem.congr {r r1 r' r1' : Reg} {ns ns' : List Note} (h : ClRem r r' ns) (e1 : r1.vfns = r.vfns) (e2 : r1'.vfns = r'.vfns)
    (e3 : cleanups ns' = cleanups ns) : ClRem r1 r1' ns' := by
  have k1 : keyT r1 = keyT r := congrArg (List.map _) e1
  have k2 : keyT r1' = keyT r' := congrArg (List.map _) e2
  exact ⟨by rw [k1, k2]; exact h.sub, fun o => by rw [k1, k2, e3]; exact h.iff o, e3 ▸ h.nd⟩

theorem keyT_oids (r : Reg) : (keyT r).map Prod.fst = r.vfns.map Vfn.oid := by
  unfold keyT; rw [List.map_map]; rfl

/-- Object identities differ. -/
def UOid (r : Reg) : Prop := (r.vfns.map Vfn.oid).Nodup

theorem UOid.sub {r r' : Reg} (h : UOid r) (hs : (keyT r').Sublist (keyT r)) : UOid r' := by
  unfold UOid at *
  rw [← keyT_oids] at *
  exact (hs.map Prod.fst).nodup h

theorem ClRem.uoid {r r' : Reg} {ns : List Note} (h : ClRem r r' ns) (hu : UOid r) : UOid r' := hu.sub h.sub

theorem keyT_congr {r r' : Reg} (h : r'.vfns = r.vfns) : keyT r' = keyT r := congrArg (List.map _) h

theorem keyT_setVfn {r : Reg} (hu : UOid r) {v v' : Vfn} (hv : v ∈ r.vfns) (e1 : v'.oid = v.oid) (e2 : v'.thunk = v.thunk) :
    keyT (setVfn r v') = keyT r := by
  unfold keyT setVfn
  rw [List.map_map]
  refine List.map_congr_left fun x hx => ?_
  show ((if x.oid = v'.oid then v' else x).oid, (if x.oid = v'.oid then v' else x).thunk) = (x.oid, x.thunk)
  split
  · next h =>
    have : x = v := nodup_key_inj hu hx hv (h.trans e1)
    rw [this, e1, e2]
  · rfl

theorem revertAndRemoveVfn_cl {E : Env} {r r' : Reg} {v : Vfn} {ns : List Note} (hu : UOid r) (hv : v ∈ r.vfns)
    (h : revertAndRemoveVfn E r v = .ok (r', ns)) : ClRem r r' ns := by
  have e1 := (revertAndRemoveVfn_vfns h).1
  have e2 : ns = if v.thunk then [Note.cleanup v.oid] else [] := by
    unfold revertAndRemoveVfn at h
    simp only [bind, Except.bind] at h
    repeat (split at h)
    all_goals first | (cases h; rfl) | cases h
  have hk : keyT r' = (keyT r).filter (fun k => k.1 != v.oid) := by
    unfold keyT; rw [e1, List.filter_map]; rfl
  refine ⟨by rw [hk]; exact List.filter_sublist, fun o => ?_, ?_⟩
  · rw [hk, List.mem_filter]
    have hmem : ∀ o, (o, true) ∈ keyT r → o = v.oid → v.thunk = true := by
      rintro o h rfl
      obtain ⟨x, hx, e⟩ := List.mem_map.1 h
      simp only [Prod.mk.injEq] at e
      rw [← nodup_key_inj hu hx hv e.1]; exact e.2
    rw [e2]
    by_cases ht : v.thunk = true
    · rw [if_pos ht]
      have hin : (v.oid, true) ∈ keyT r := List.mem_map.2 ⟨v, hv, by rw [ht]⟩
      simp only [cleanups, List.filterMap_cons, List.filterMap_nil, List.mem_singleton]
      constructor
      · rintro rfl; exact ⟨hin, by simp⟩
      · rintro ⟨k1, k2⟩
        rcases Decidable.em (o = v.oid) with h | h
        · exact h
        · exact absurd ⟨k1, by simpa using h⟩ k2
    · rw [if_neg ht]
      simp only [cleanups, List.filterMap_nil, List.not_mem_nil, false_iff]
      rintro ⟨k1, k2⟩
      refine k2 ⟨k1, ?_⟩
      simp only [bne_iff_ne, ne_eq]
      exact fun h => ht (hmem o k1 h)
  · rw [e2]; split <;> simp [cleanups]

theorem removeHookById_cl {E : Env} {r r' : Reg} {id : Int} {b : Bool} {ns : List Note} (hu : UOid r)
    (h : removeHookById E r id = .ok (r', b, ns)) : ClRem r r' ns := by
  unfold removeHookById at h
  split at h
  · cases h; exact .same rfl
  · split at h
    · cases h; exact .same rfl
    · next v hf =>
      have hv := List.mem_of_find?_eq_some hf
      split at h
      · cases h; exact .same rfl
      · next i _ =>
        split at h
        · cases h; exact .same rfl
        · next k _ =>
          have hu1 : UOid { r with deleted := k.nid :: r.deleted } := hu
          have hv1 : v ∈ ({ r with deleted := k.nid :: r.deleted } : Reg).vfns := hv
          have hset : ∀ l, keyT (setVfn { r with deleted := k.nid :: r.deleted } { v with ifaces := l }) = keyT r :=
            fun l => keyT_setVfn hu1 hv1 rfl rfl
          dsimp only at h
          split at h
          · split at h
            · simp only [bind, Except.bind] at h
              split at h
              · cases h
              · next y hy =>
                cases h
                have hmem : { v with ifaces := v.ifaces.filter (·.oid != i.oid) } ∈
                    (setVfn { r with deleted := k.nid :: r.deleted } { v with ifaces := v.ifaces.filter (·.oid != i.oid) }).vfns :=
                  List.mem_map.2 ⟨v, hv, by simp⟩
                have hu2 : UOid (setVfn { r with deleted := k.nid :: r.deleted } { v with ifaces := v.ifaces.filter (·.oid != i.oid) }) :=
                  hu.sub (by rw [hset]; exact List.Sublist.refl _)
                have hcl := revertAndRemoveVfn_cl (r' := y.1) (ns := y.2) hu2 hmem hy
                have := (ClRem.same (hset _)).trans hcl
                exact this.congr rfl rfl rfl
            · cases h
              exact .quiet (hset _) rfl
          · cases h
            exact .quiet (hset _) rfl

theorem removeIds_cl {E : Env} (ids : List Int) {r r' : Reg} {b : Bool} {ns : List Note} (hu : UOid r)
    (h : removeIds E r ids = .ok (r', b, ns)) : ClRem r r' ns := by
  induction ids generalizing r r' b ns with
  | nil => cases h; exact .same rfl
  | cons id ids ih =>
    unfold removeIds at h
    simp only [bind, Except.bind] at h
    split at h
    · cases h
    · next y hy =>
      split at h
      · cases h
      · next z hz =>
        cases h
        have h1 := removeHookById_cl (r' := y.1) (b := y.2.1) (ns := y.2.2) hu hy
        exact h1.trans (ih (r' := z.1) (b := z.2.1) (ns := z.2.2) (h1.uoid hu) hz)

theorem hookManRemoved_key {E : Env} {r r' : Reg} {void hmo : Nat} {b : Bool} (hu : UOid r)
    (h : hookManRemoved E r void hmo = .ok (r', b)) : keyT r' = keyT r := by
  unfold hookManRemoved at h
  simp only [bind, Except.bind] at h
  split at h
  · cases h
  · split at h
    · cases h; rfl
    · split at h
      · cases h
      · next v hv =>
        have hm := derefVfn_mem hv
        split at h
        · cases h; rfl
        · split at h
          · split at h
            · cases h
            · next r1 h1 =>
              have e1 := decrRef_vfns h1
              have hu1 : UOid r1 := by unfold UOid; rw [e1]; exact hu
              have key : ∀ (l o : List Nat), keyT (setVfn r1 { v with hms := l, offers := o }) = keyT r := fun l o =>
                (keyT_setVfn (v := v) (v' := { v with hms := l, offers := o }) hu1 (by rw [e1]; exact hm) rfl rfl).trans (keyT_congr e1)
              split at h
              · cases h; exact key _ _
              · split at h
                · cases h
                · next r3 h3 =>
                  split at h
                  · cases h
                  · cases h
                    exact (keyT_congr ((patch_vfns ..).trans (incrRef_vfns h3))).trans (key _ _)
          · split at h
            · cases h; exact keyT_setVfn hu hm rfl rfl
            · cases h; rfl

theorem removeHmLoop_cl {E : Env} {hmo : Nat} (vs : List Nat) {r r' : Reg} {ns : List Note} (hu : UOid r)
    (h : removeHmLoop E hmo vs r = .ok (r', ns)) : ClRem r r' ns := by
  induction vs generalizing r r' ns with
  | nil => cases h; exact .same rfl
  | cons v vs ih =>
    unfold removeHmLoop at h
    simp only [bind, Except.bind] at h
    split at h
    · cases h
    · next y hy =>
      have h1 : ClRem r y.1 [] := .same (hookManRemoved_key (r' := y.1) (b := y.2) hu hy)
      split at h
      · exact h1.trans (ih (h1.uoid hu) h)
      · split at h
        · cases h
        · next w hw =>
          split at h
          · cases h
          · next z hz =>
            split at h
            · cases h
            · next t ht =>
              cases h
              have hu2 : UOid { y.1 with entries := idRemoveAll y.1.entries w.ptr } := h1.uoid hu
              have h2 := revertAndRemoveVfn_cl (r' := z.1) (ns := z.2) hu2 (derefVfn_mem hw) hz
              have h12 : ClRem r z.1 z.2 := h1.trans (h2.congr rfl rfl rfl)
              exact h12.trans (ih (r' := t.1) (ns := t.2) (h12.uoid hu) ht)

theorem removeHookManO_cl {E : Env} {hmo : Nat} {r r' : Reg} {ns : List Note} (hu : UOid r)
    (h : removeHookManO E r hmo = .ok (r', ns)) : ClRem r r' ns := by
  unfold removeHookManO at h
  simp only [bind, Except.bind] at h
  split at h
  · cases h
  · next y hy => cases h; exact (removeHmLoop_cl (r' := y.1) (ns := y.2) _ hu hy).congr rfl rfl rfl

theorem removeHms_cl {E : Env} (os : List Nat) {r r' : Reg} {ns : List Note} (hu : UOid r)
    (h : removeHms E os r = .ok (r', ns)) : ClRem r r' ns := by
  induction os generalizing r r' ns with
  | nil => cases h; exact .same rfl
  | cons o os ih =>
    unfold removeHms at h
    simp only [bind, Except.bind] at h
    split at h
    · cases h
    · next y hy =>
      split at h
      · cases h
      · next z hz =>
        cases h
        have h1 := removeHookManO_cl (r' := y.1) (ns := y.2) hu hy
        exact h1.trans (ih (r' := z.1) (ns := z.2) (h1.uoid hu) hz)

theorem unloadReg_cl {E : Env} {r r' : Reg} {plug : Plugin} {ns : List Note} (hu : UOid r)
    (h : unloadReg E r plug = .ok (r', ns)) : ClRem r r' ns := by
  unfold unloadReg at h
  simp only [bind, Except.bind] at h
  split at h
  · cases h
  · next y hy =>
    split at h
    · cases h
    · next z hz =>
      cases h
      have h1 := removeIds_cl (r' := y.1) (b := y.2.1) (ns := y.2.2) _ hu hy
      exact h1.trans (removeHms_cl (r' := z.1) (ns := z.2) _ (h1.uoid hu) hz)

/-! ### operations that remove nothing -/

theorem setHookPaused_key {r : Reg} (hu : UOid r) (id : Int) (b : Bool) : keyT (setHookPaused r id b).1 = keyT r := by
  unfold setHookPaused
  split
  · rfl
  · split
    · rfl
    · next v hv =>
      split
      · rfl
      · split
        · rfl
        · exact keyT_setVfn hu (List.mem_of_find?_eq_some hv) rfl rfl

theorem setPluginPaused_key {r : Reg} (hu : UOid r) (plug : Plugin) (b : Bool) : keyT (setPluginPaused r plug b) = keyT r := by
  unfold setPluginPaused
  generalize idFindPlug r.entries plug = ids
  induction ids generalizing r with
  | nil => rfl
  | cons id ids ih =>
    have e := setHookPaused_key hu id b
    exact (ih (hu.sub (e ▸ List.Sublist.refl _))).trans e

theorem addHookMan_key {E : Env} {r r' : Reg} {void hmo : Nat} (hu : UOid r) (h : addHookMan E r void hmo = .ok r') :
    keyT r' = keyT r := by
  unfold addHookMan at h
  simp only [bind, Except.bind] at h
  split at h
  · cases h
  · next v hd =>
    have hv := derefVfn_mem hd
    split at h
    · cases h
    · next hm _ =>
      split at h
      · cases h; rfl
      · split at h
        · cases h; rfl
        · split at h
          · cases h
          · next hms' _ =>
            have hset : keyT (setVfn r { v with hms := hms', offers := v.offers ++ [hmo] }) = keyT r :=
              keyT_setVfn hu hv rfl rfl
            split at h
            · split at h
              · cases h
              · next r2 h2 =>
                have e2 := incrRef_vfns h2
                split at h
                · split at h
                  · cases h
                  · next r3 h3 =>
                    cases h
                    exact (keyT_congr ((patch_vfns ..).trans ((decrRef_vfns h3).trans e2))).trans hset
                · cases h
                  exact (keyT_congr ((patch_vfns ..).trans e2)).trans hset
            · cases h; exact hset

theorem getIface_key {r r' : Reg} {void ifo : Nat} {p : Addr} (hu : UOid r) (h : getIface r void p = .ok (r', ifo)) :
    keyT r' = keyT r := by
  unfold getIface at h
  simp only [bind, Except.bind] at h
  split at h
  · cases h
  · next v hd =>
    have hv := derefVfn_mem hd
    split at h
    · cases h; rfl
    · have hu1 : UOid { r with next := r.next + 1 } := hu
      split at h
      · cases h; exact keyT_setVfn hu1 hv rfl rfl
      · cases h; exact keyT_setVfn hu1 hv rfl rfl

theorem pushHook_key {r r' : Reg} {void ifo : Nat} {info : Info} {slot adj : Addr} {a : AddArgs} {id : Int} (hu : UOid r)
    (h : pushHook r void ifo info slot adj a = .ok (r', id)) : keyT r' = keyT r := by
  unfold pushHook at h
  simp only [bind, Except.bind] at h
  split at h
  · cases h
  · next v hd =>
    have hv := derefVfn_mem hd
    split at h
    · cases h
    · cases h
      exact keyT_setVfn hu hv rfl rfl

theorem getVfn_key {r : Reg} (p : Addr) (hu : UOid r) (hlt : ∀ v ∈ r.vfns, v.oid < r.next) :
    UOid (getVfn r p).1 ∧ (keyT (getVfn r p).1 = keyT r ∨ ∃ b, keyT (getVfn r p).1 = keyT r ++ [(r.next, b)]) := by
  unfold getVfn
  split
  · exact ⟨hu, Or.inl rfl⟩
  · refine ⟨?_, Or.inr ⟨r.mem p % 2 != 0, by simp [keyT]⟩⟩
    unfold UOid
    dsimp only
    rw [List.map_append, List.nodup_append]
    refine ⟨hu, by simp, ?_⟩
    intro o ho o' ho' e
    obtain ⟨v, hv, rfl⟩ := List.mem_map.1 ho
    simp at ho'
    have := hlt v hv
    omega

theorem addHook_key {E : Env} {r r' : Reg} {a : AddArgs} {x : Int} (hu : UOid r) (hlt : ∀ v ∈ r.vfns, v.oid < r.next)
    (h : addHook E r a = .ok (r', x)) : keyT r' = keyT r ∨ ∃ b, keyT r' = keyT r ++ [(r.next, b)] := by
  unfold addHook at h
  split at h
  · cases h; exact Or.inl rfl
  · split at h
    · cases h; exact Or.inl rfl
    · next info _ =>
      split at h
      · cases h; exact Or.inl rfl
      · rcases hsl : slotOf r.mem a.mode a.iface a.offs info with ⟨slot, adj⟩
        rw [hsl] at h
        rcases hg : getVfn r slot with ⟨r1, void⟩
        rcases hm : getHookMan r1 a.plug a.pub info with ⟨r2, hmo⟩
        simp only [hg, hm, bind, Except.bind] at h
        obtain ⟨hu1, hk⟩ := getVfn_key slot hu hlt
        rw [hg] at hu1 hk
        have e2 : r2.vfns = r1.vfns := by
          have := getHookMan_vfns r1 a.plug a.pub info
          rw [hm] at this; exact this
        have hu2 : UOid r2 := by unfold UOid; rw [e2]; exact hu1
        split at h
        · cases h
        · next r3 h3 =>
          have e3 := addHookMan_key hu2 h3
          have hu3 : UOid r3 := hu2.sub (e3 ▸ List.Sublist.refl _)
          split at h
          · cases h
          · next y hy =>
            obtain ⟨r4, ifo⟩ := y
            have e4 := getIface_key hu3 hy
            have hu4 : UOid r4 := hu3.sub (e4 ▸ List.Sublist.refl _)
            have e5 := pushHook_key hu4 h
            have e : keyT r' = keyT r1 := e5.trans (e4.trans (e3.trans (keyT_congr e2)))
            rw [e]; exact hk

/-- All registry operations: records stay with their thunk, new ones have fresh identities, exactly the
thunks of the records that vanish get a cleanup task, one each. -/
structure ClStep (r r' : Reg) (ns : List Note) : Prop where
  old : ∀ o b, (o, b) ∈ keyT r' → (o, b) ∈ keyT r ∨ r.next ≤ o
  iff : ∀ o, o ∈ cleanups ns ↔ (o, true) ∈ keyT r ∧ (o, true) ∉ keyT r'
  nd : (cleanups ns).Nodup

theorem ClRem.step {r r' : Reg} {ns : List Note} (h : ClRem r r' ns) : ClStep r r' ns :=
  ⟨fun _ _ hk => Or.inl (h.sub.subset hk), h.iff, h.nd⟩

theorem regStepN_cl {E : Env} {r r' : Reg} {op : RegOp} {x : Int} {ns : List Note} (hu : UOid r)
    (hlt : ∀ v ∈ r.vfns, v.oid < r.next) (h : regStepN E r op = .ok (r', x, ns)) : ClStep r r' ns := by
  cases op with
  | add a =>
    simp only [regStepN, bind, Except.bind] at h
    split at h
    · cases h
    · next y hy =>
      cases h
      rcases addHook_key (r' := y.1) (x := y.2) hu hlt hy with e | ⟨b, e⟩
      · exact (ClRem.same e).step
      · refine ⟨fun o c hk => ?_, fun o => ?_, List.nodup_nil⟩
        · rw [e] at hk
          rcases List.mem_append.1 hk with hk | hk
          · exact Or.inl hk
          · simp at hk; exact Or.inr (by omega)
        · rw [e]
          simp only [cleanups, List.filterMap_nil, List.not_mem_nil, false_iff]
          rintro ⟨k1, k2⟩
          exact k2 (List.mem_append_left _ k1)
  | removeId id =>
    simp only [regStepN, bind, Except.bind] at h
    split at h
    · cases h
    · next y hy => cases h; exact (removeHookById_cl (r' := y.1) (b := y.2.1) (ns := y.2.2) hu hy).step
  | remove plug iface offs info hd post =>
    simp only [regStepN, bind, Except.bind] at h
    split at h
    · cases h
    · next y hy =>
      cases h
      unfold removeHook at hy
      split at hy
      · cases hy; exact (ClRem.same rfl).step
      · dsimp only at hy
        split at hy
        · cases hy; exact (ClRem.same rfl).step
        · exact (removeIds_cl (r' := y.1) (b := y.2.1) (ns := y.2.2) _ hu hy).step
  | unload plug =>
    simp only [regStepN, bind, Except.bind] at h
    split at h
    · cases h
    · next y hy => cases h; exact (unloadReg_cl (r' := y.1) (ns := y.2) hu hy).step
  | removeHm plug pub =>
    simp only [regStepN, bind, Except.bind] at h
    split at h
    · cases h
    · next y hy =>
      cases h
      unfold removeHookManager at hy
      split at hy
      · cases hy; exact (ClRem.same rfl).step
      · exact (removeHookManO_cl (r' := y.1) (ns := y.2) hu hy).step
  | pauseId id b =>
    simp only [regStepN] at h
    cases h; exact (ClRem.same (setHookPaused_key hu id b)).step
  | pausePlugin plug b =>
    simp only [regStepN] at h
    cases h; exact (ClRem.same (setPluginPaused_key hu plug b)).step
  | shutdown =>
    simp only [regStepN, shutdownReg, bind, Except.bind] at h
    split at h
    · cases h
    · next y hy =>
      split at hy
      · cases hy
      · next z hz => cases hy; cases h; exact (removeIds_cl (r' := z.1) (b := z.2.1) (ns := z.2.2) _ hu hz).step

end Verif.SH
