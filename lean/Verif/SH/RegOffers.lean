import Verif.SH.RegProps
/-
C09: meaning of the history variable `offers`: managers offered for a slot, in order, minus the
removed ones.
-/
namespace Verif.SH

/-- The attached managers of a slot in the order they were offered. -/
def offersAt (r : Reg) (p : Addr) : List Nat :=
  match r.vfns.find? (·.ptr == p) with
  | none => []
  | some v => v.offers

theorem offersAt_mem {r : Reg} (hs : SInv r) {v : Vfn} (hv : v ∈ r.vfns) : offersAt r v.ptr = v.offers := by
  unfold offersAt
  rw [find?_key hs.vptr hv]

/-- `r'`'s function records are among those of `r`, with offers equal up to elements outside `P`. -/
def OffR (P : Nat → Bool) (r r' : Reg) : Prop :=
  ∀ x ∈ r'.vfns, ∃ y ∈ r.vfns, y.ptr = x.ptr ∧ x.offers.filter P = y.offers.filter P

theorem OffR.refl (P : Nat → Bool) (r : Reg) : OffR P r r := fun x hx => ⟨x, hx, rfl, rfl⟩

theorem OffR.trans {P : Nat → Bool} {a b c : Reg} (h1 : OffR P a b) (h2 : OffR P b c) : OffR P a c := by
  intro x hx
  obtain ⟨y, hy, e1, e2⟩ := h2 x hx
  obtain ⟨z, hz, f1, f2⟩ := h1 y hy
  exact ⟨z, hz, f1.trans e1, e2.trans f2⟩

theorem OffR.of_sub {P : Nat → Bool} {r r' : Reg} (h : ∀ x ∈ r'.vfns, x ∈ r.vfns) : OffR P r r' :=
  fun _ hx => ⟨_, h _ hx, rfl, rfl⟩

theorem OffR.of_eq {P : Nat → Bool} {r r' : Reg} (h : r'.vfns = r.vfns) : OffR P r r' :=
  OffR.of_sub (fun x hx => h ▸ hx)

theorem OffR.set {P : Nat → Bool} {r : Reg} {v v' : Vfn} (hv : v ∈ r.vfns) (hp : v'.ptr = v.ptr)
    (ho : v'.offers.filter P = v.offers.filter P) : OffR P r (setVfn r v') := by
  intro x hx
  obtain ⟨y, hy, rfl⟩ := List.mem_map.1 hx
  split
  · exact ⟨v, hv, hp.symm, ho⟩
  · exact ⟨y, hy, rfl, rfl⟩

theorem OffR.vfns_left {P : Nat → Bool} {a a' b : Reg} (h : a'.vfns = a.vfns) (hr : OffR P a b) : OffR P a' b := by
  unfold OffR at *; rw [h]; exact hr

theorem OffR.vfns_right {P : Nat → Bool} {a b b' : Reg} (h : b'.vfns = b.vfns) (hr : OffR P a b) : OffR P a b' := by
  unfold OffR at *; rw [h]; exact hr

theorem incrRef_vfns {r r' : Reg} {o void : Nat} (h : incrRef r o void = .ok r') : r'.vfns = r.vfns := by
  unfold incrRef at h
  cases hd : derefHm r o with
  | error e => rw [hd] at h; cases h
  | ok x =>
    rw [hd] at h
    simp only [bind, Except.bind] at h
    split at h <;> cases h <;> rfl

theorem decrRef_vfns {r r' : Reg} {o void : Nat} (h : decrRef r o void = .ok r') : r'.vfns = r.vfns := by
  unfold decrRef at h
  cases hd : derefHm r o with
  | error e => rw [hd] at h; cases h
  | ok x =>
    rw [hd] at h
    simp only [bind, Except.bind] at h
    split at h <;> cases h <;> rfl

theorem patch_vfns (E : Env) (r : Reg) (p v : Addr) : (patch E r p v).vfns = r.vfns := by
  unfold patch; split <;> rfl

theorem revert_vfns (E : Env) (r : Reg) (v : Vfn) : (revert E r v).vfns = r.vfns := by
  unfold revert; split
  · exact patch_vfns ..
  · rfl

theorem derefVfn_mem {r : Reg} {o : Nat} {v : Vfn} (h : derefVfn r o = .ok v) : v ∈ r.vfns := by
  unfold derefVfn at h
  split at h
  · next hf => cases h; exact List.mem_of_find?_eq_some hf
  · cases h

theorem revertAndRemoveVfn_offR {P : Nat → Bool} {E : Env} {r r' : Reg} {v : Vfn} {ns : List Note}
    (h : revertAndRemoveVfn E r v = .ok (r', ns)) : OffR P r r' := by
  unfold revertAndRemoveVfn at h
  cases hh : v.hms with
  | nil =>
    rw [hh] at h
    simp only [bind, Except.bind] at h
    cases h
    apply OffR.of_sub
    intro x hx
    have := (List.mem_filter.1 hx).1
    rwa [revert_vfns] at this
  | cons o os =>
    rw [hh] at h
    simp only [bind, Except.bind] at h
    cases hd : decrRef (revert E r v) o v.oid with
    | error e => rw [hd] at h; cases h
    | ok r2 =>
      rw [hd] at h
      cases h
      apply OffR.of_sub
      intro x hx
      have := (List.mem_filter.1 hx).1
      rwa [decrRef_vfns hd, revert_vfns] at this

theorem removeHookById_offR {P : Nat → Bool} {E : Env} {r r' : Reg} {id : Int} {b : Bool} {ns : List Note}
    (h : removeHookById E r id = .ok (r', b, ns)) : OffR P r r' := by
  unfold removeHookById at h
  split at h
  · cases h; exact OffR.refl P r
  · next e _ =>
    split at h
    · cases h; exact OffR.refl P r
    · next v hv =>
      have hv' := List.mem_of_find?_eq_some hv
      split at h
      · cases h; exact OffR.refl P r
      · next i _ =>
        split at h
        · cases h; exact OffR.refl P r
        · next hk _ =>
          dsimp only at h
          split at h
          · split at h
            · simp only [bind, Except.bind] at h
              split at h
              · cases h
              · next y hy =>
                cases h
                refine OffR.vfns_right (b := y.1) rfl (OffR.trans ?_ (revertAndRemoveVfn_offR (ns := y.2) hy))
                exact OffR.vfns_left rfl (OffR.set (r := { r with deleted := hk.nid :: r.deleted }) hv' rfl rfl)
            · cases h
              exact OffR.vfns_left rfl (OffR.vfns_right rfl (OffR.set (r := { r with deleted := hk.nid :: r.deleted }) (v' := { v with ifaces := v.ifaces.filter (·.oid != i.oid) }) hv' rfl rfl))
          · cases h
            exact OffR.vfns_left rfl (OffR.vfns_right rfl (OffR.set (r := { r with deleted := hk.nid :: r.deleted }) (v' := v.setIface _) hv' rfl rfl))

theorem removeIds_offR {P : Nat → Bool} {E : Env} (ids : List Int) {r r' : Reg} {b : Bool} {ns : List Note}
    (h : removeIds E r ids = .ok (r', b, ns)) : OffR P r r' := by
  induction ids generalizing r r' b ns with
  | nil => cases h; exact OffR.refl P r
  | cons id ids ih =>
    unfold removeIds at h
    cases h1 : removeHookById E r id with
    | error e => rw [h1] at h; cases h
    | ok y =>
      obtain ⟨r1, b1, n1⟩ := y
      rw [h1] at h
      simp only [bind, Except.bind] at h
      cases h2 : removeIds E r1 ids with
      | error e => rw [h2] at h; cases h
      | ok z =>
        obtain ⟨r2, b2, n2⟩ := z
        rw [h2] at h
        cases h
        exact (removeHookById_offR h1).trans (ih h2)

theorem filter_erase_ne (l : List Nat) (a : Nat) : (l.erase a).filter (· != a) = l.filter (· != a) := by
  induction l with
  | nil => rfl
  | cons x l ih =>
    by_cases h : x = a
    · subst h; simp
    · rw [List.erase_cons_tail (by simpa using h)]
      simp [h, ih]

theorem hookManRemoved_offR {E : Env} {r r' : Reg} {void hmo : Nat} {b : Bool}
    (h : hookManRemoved E r void hmo = .ok (r', b)) : OffR (· != hmo) r r' := by
  unfold hookManRemoved at h
  cases h1 : derefHm r hmo with
  | error e => rw [h1] at h; cases h
  | ok m =>
    rw [h1] at h
    simp only [bind, Except.bind] at h
    split at h
    · cases h; exact OffR.refl _ r
    · cases h2 : derefVfn r void with
      | error e => rw [h2] at h; cases h
      | ok v =>
        have hv := derefVfn_mem h2
        rw [h2] at h
        cases h3 : v.hms with
        | nil => simp only [h3] at h; cases h; exact OffR.refl _ r
        | cons first rest =>
          simp only [h3] at h
          split at h
          · cases h4 : decrRef r hmo void with
            | error e => rw [h4] at h; cases h
            | ok r1 =>
              rw [h4] at h
              simp only at h
              have hset : OffR (· != hmo) r (setVfn r1 { v with hms := rest, offers := v.offers.erase hmo }) := by
                refine OffR.vfns_left (decrRef_vfns h4).symm (OffR.set (v := v) ?_ rfl (filter_erase_ne ..))
                rw [decrRef_vfns h4]; exact hv
              cases rest with
              | nil => simp only at h; cases h; exact hset
              | cons second rest =>
                simp only at h
                split at h
                · cases h
                · next r3 h5 =>
                  split at h
                  · cases h
                  · cases h
                    exact OffR.vfns_right ((patch_vfns ..).trans (incrRef_vfns h5)) hset
          · split at h
            · cases h; exact OffR.set hv rfl (filter_erase_ne ..)
            · cases h; exact OffR.refl _ r

theorem removeHmLoop_offR {E : Env} {hmo : Nat} (vs : List Nat) {r r' : Reg} {ns : List Note}
    (h : removeHmLoop E hmo vs r = .ok (r', ns)) : OffR (· != hmo) r r' := by
  induction vs generalizing r r' ns with
  | nil => cases h; exact OffR.refl _ r
  | cons void vs ih =>
    unfold removeHmLoop at h
    cases h1 : hookManRemoved E r void hmo with
    | error e => rw [h1] at h; cases h
    | ok y =>
      obtain ⟨r1, keep⟩ := y
      rw [h1] at h
      simp only [bind, Except.bind] at h
      have g1 := hookManRemoved_offR h1
      split at h
      · exact g1.trans (ih h)
      · split at h
        · cases h
        · next v hv =>
          split at h
          · cases h
          · next z hz =>
            split at h
            · cases h
            · next w hw =>
              cases h
              exact g1.trans (OffR.trans (OffR.vfns_left (a := { r1 with entries := idRemoveAll r1.entries v.ptr }) rfl (revertAndRemoveVfn_offR (ns := z.2) hz)) (ih (ns := w.2) hw))

theorem removeHookManO_offR {E : Env} {hmo : Nat} {r r' : Reg} {ns : List Note}
    (h : removeHookManO E r hmo = .ok (r', ns)) : OffR (· != hmo) r r' := by
  unfold removeHookManO at h
  cases h1 : removeHmLoop E hmo (r.vfns.map Vfn.oid) r with
  | error e => rw [h1] at h; cases h
  | ok y =>
    rw [h1] at h
    cases h
    exact OffR.vfns_right (b := y.1) rfl (removeHmLoop_offR _ (ns := y.2) h1)

theorem OffR.weaken {P Q : Nat → Bool} {r r' : Reg} (h : OffR P r r') (hpq : ∀ o, Q o = true → P o = true) : OffR Q r r' := by
  intro x hx
  obtain ⟨y, hy, e1, e2⟩ := h x hx
  refine ⟨y, hy, e1, ?_⟩
  have key : ∀ l : List Nat, (l.filter P).filter Q = l.filter Q := by
    intro l
    rw [List.filter_filter]
    apply List.filter_congr
    intro o _
    cases hq : Q o with
    | false => simp
    | true => simp [hpq o hq]
  rw [← key, e2, key]

theorem removeHms_offR {E : Env} (os : List Nat) {r r' : Reg} {ns : List Note}
    (h : removeHms E os r = .ok (r', ns)) : OffR (fun o => decide (o ∉ os)) r r' := by
  induction os generalizing r r' ns with
  | nil => cases h; exact OffR.refl _ r
  | cons o os ih =>
    unfold removeHms at h
    cases h1 : removeHookManO E r o with
    | error e => rw [h1] at h; cases h
    | ok y =>
      rw [h1] at h
      simp only [bind, Except.bind] at h
      split at h
      · cases h
      · next z hz =>
        cases h
        refine OffR.trans ((removeHookManO_offR h1).weaken ?_) ((ih hz).weaken ?_)
        · intro x hx; simp at hx ⊢; exact hx.1
        · intro x hx; simp at hx ⊢; exact hx.2

theorem setHookPaused_offR {P : Nat → Bool} (r : Reg) (id : Int) (b : Bool) : OffR P r (setHookPaused r id b).1 := by
  unfold setHookPaused
  split
  · exact OffR.refl P r
  · split
    · exact OffR.refl P r
    · next v hv =>
      split
      · exact OffR.refl P r
      · split
        · exact OffR.refl P r
        · exact OffR.set (v' := v.setIface _) (List.mem_of_find?_eq_some hv) rfl rfl

theorem foldPaused_offR {P : Nat → Bool} (ids : List Int) (b : Bool) (r : Reg) :
    OffR P r (ids.foldl (fun r id => (setHookPaused r id b).1) r) := by
  induction ids generalizing r with
  | nil => exact OffR.refl P r
  | cons id ids ih => exact (setHookPaused_offR r id b).trans (ih _)

/-- Every operation except `AddHook` only removes managers from the offers. -/
theorem regStep_offR {E : Env} {mem0 : Addr → Addr} {r r' : Reg} (hw : RegInv E mem0 r) {op : RegOp} {x : Int}
    (hop : ∀ a, op ≠ .add a) (hs : regStep E r op = .ok (r', x)) :
    OffR (fun o => decide (o ∈ r'.hms.map HookMan.oid)) r r' := by
  cases op with
  | add a => exact absurd rfl (hop a)
  | removeId id =>
    simp only [regStep] at hs
    cases h1 : removeHookById E r id with
    | error e => rw [h1] at hs; cases hs
    | ok y => rw [h1] at hs; cases hs; exact removeHookById_offR h1
  | remove plug iface offs info h post =>
    simp only [regStep] at hs
    cases h1 : removeHook E r plug iface offs info h post with
    | error e => rw [h1] at hs; cases hs
    | ok y =>
      rw [h1] at hs; cases hs
      unfold removeHook at h1
      cases info with
      | none => cases h1; exact OffR.refl _ r
      | some info =>
        dsimp only at h1
        split at h1
        · cases h1; exact OffR.refl _ r
        · exact removeIds_offR _ h1
  | unload plug =>
    simp only [regStep] at hs
    obtain ⟨r1, b, ns1, g1, g2, g3, g4⟩ := removeIds_remOk (E := E) (idFindPlug r.entries plug) hw
    obtain ⟨r2, ns2, k1, k2, k3, k4⟩ :=
      removeHms_remOk (E := E) ((r1.hms.filter (·.plug == plug)).map HookMan.oid)
        (nodup_map_filter _ g2.ref.oid) g2 (by
          intro o ho
          obtain ⟨h, hh, rfl⟩ := List.mem_map.1 ho
          rw [List.mem_filter] at hh
          exact ⟨_, _, _, hasHm_of_mem hh.1⟩)
    unfold unloadReg at hs
    simp only [bind, Except.bind, g1, k1] at hs
    cases hs
    refine OffR.trans (removeIds_offR _ g1) ((removeHms_offR _ k1).weaken ?_)
    intro o ho
    simp only [decide_eq_true_eq] at ho ⊢
    obtain ⟨m, m1, rfl⟩ := List.mem_map.1 ho
    exact ((k4 _ _ _ _).1 (hasHm_of_mem m1)).2
  | removeHm plug pub =>
    simp only [regStep] at hs
    unfold removeHookManager at hs
    split at hs
    · cases hs; exact OffR.refl _ r
    · next h hf =>
      obtain ⟨r2, ns, g1, g2, g3, g4⟩ := removeHookManO_remOk (E := E) h.oid hw
        (hasHm_of_mem (List.mem_of_find?_eq_some hf))
      simp only [bind, Except.bind, g1] at hs
      cases hs
      refine (removeHookManO_offR g1).weaken ?_
      intro o ho
      simp only [decide_eq_true_eq] at ho
      obtain ⟨m, m1, rfl⟩ := List.mem_map.1 ho
      simpa using ((g4 _ _ _ _).1 (hasHm_of_mem m1)).2
  | pauseId id b => simp only [regStep] at hs; cases hs; exact setHookPaused_offR r id b
  | pausePlugin plug b => simp only [regStep] at hs; cases hs; exact foldPaused_offR _ b r
  | shutdown =>
    simp only [regStep, shutdownReg] at hs
    cases h1 : removeIds E r (idFindAll r.entries) with
    | error e => rw [h1] at hs; cases hs
    | ok y => rw [h1] at hs; cases hs; exact removeIds_offR _ h1

/-- Slots with hooks have a record. -/
theorem vfn_of_hooked {r : Reg} {p a : Addr} {s : Bool} (h : view r p a s ≠ []) : ∃ v ∈ r.vfns, v.ptr = p := by
  cases hf : r.vfns.find? (·.ptr == p) with
  | none => exact absurd (by unfold view; rw [hf]) h
  | some v => exact ⟨v, find?_key_some hf⟩

/-- C09: any other operation keeps, for slots that stay hooked, the order of the offered managers
and drops exactly those that no longer exist. -/
theorem offers_after_other {E : Env} {c : Bool} {mem0 : Addr → Addr} {r r' : Reg} (h : Reach E c mem0 r)
    {op : RegOp} {x : Int} (hop : ∀ a, op ≠ .add a) (hs : regStep E r op = .ok (r', x))
    {p a : Addr} {s : Bool} (hh : view r' p a s ≠ []) :
    offersAt r' p = (offersAt r p).filter (fun o => decide (o ∈ r'.hms.map HookMan.oid)) := by
  obtain ⟨hw, _⟩ := reach_inv h
  have hok : OpOk r op := by cases op <;> first | trivial | exact absurd rfl (hop _)
  obtain ⟨r2, x2, g1, hw', _⟩ := regStep_spec hw hok
  rw [hs] at g1; cases g1
  obtain ⟨v', hv', rfl⟩ := vfn_of_hooked hh
  obtain ⟨v, hv, e1, e2⟩ := regStep_offR hw hop hs v' hv'
  rw [offersAt_mem hw'.s hv', ← e1, offersAt_mem hw.s hv, ← e2]
  symm
  rw [List.filter_eq_self]
  intro o ho
  obtain ⟨a, b, c, m, m1, m2, _⟩ := hw'.att.sub v' hv' o ((hw'.att.perm v' hv').mem_iff.2 ho)
  simp only [decide_eq_true_eq]
  exact List.mem_map.2 ⟨m, m1, m2⟩

/-- Unloading plugin 1 drops its manager (object 1), keeping that of plugin 2 (object 4). -/
example : ∃ r' x, regStep Ex.E Ex.r3 (.unload 1) = .ok (r', x) ∧ view r' 2008 0 false ≠ [] ∧
    offersAt Ex.r3 2008 = [1, 4] ∧ offersAt r' 2008 = [4] := ⟨_, _, rfl, by decide, rfl, rfl⟩

theorem offersAt_setVfn {r : Reg} (hs : SInv r) {v v' : Vfn} (hv : v ∈ r.vfns) (ho : v'.oid = v.oid) (hp : v'.ptr = v.ptr)
    (p : Addr) : offersAt (setVfn r v') p = if p = v.ptr then v'.offers else offersAt r p := by
  have hptrs : (setVfn r v').vfns.map Vfn.ptr = r.vfns.map Vfn.ptr := by
    unfold setVfn
    rw [List.map_map]
    apply List.map_congr_left
    intro x hx
    simp only [Function.comp]
    split
    · next h =>
      rw [hp]
      have f1 := find?_key' (key := Vfn.oid) hs.void hx (h.trans ho)
      rw [find?_key hs.void hv] at f1
      rw [Option.some.inj f1]
    · rfl
  have hnd : ((setVfn r v').vfns.map Vfn.ptr).Nodup := hptrs ▸ hs.vptr
  split
  · next h =>
    subst h
    unfold offersAt
    rw [find?_key' hnd (x := v') (List.mem_map.2 ⟨v, hv, by rw [if_pos ho.symm]⟩) hp]
  · next h =>
    unfold offersAt
    cases hf : r.vfns.find? (·.ptr == p) with
    | none =>
      have h1 := find?_key_none hf
      rw [List.find?_eq_none.2]
      intro x hx
      have : x.ptr ∈ (setVfn r v').vfns.map Vfn.ptr := List.mem_map.2 ⟨x, hx, rfl⟩
      rw [hptrs] at this
      obtain ⟨y, hy, e⟩ := List.mem_map.1 this
      rw [← e]; simpa using h1 y hy
    | some y =>
      obtain ⟨h1, h2⟩ := find?_key_some hf
      rw [find?_key' hnd (x := y) (List.mem_map.2 ⟨y, h1, ?_⟩) h2]
      rw [if_neg]
      intro hc
      have f1 := find?_key' (key := Vfn.oid) hs.void h1 (hc.trans ho)
      rw [find?_key hs.void hv] at f1
      rw [← Option.some.inj f1] at h2
      exact h h2.symm

theorem offersAt_congr {r r' : Reg} (h : r'.vfns = r.vfns) (p : Addr) : offersAt r' p = offersAt r p := by
  unfold offersAt; rw [h]

theorem getVfn_offers {r r' : Reg} {o : Nat} {q : Addr} (hg : getVfn r q = (r', o)) (p : Addr) :
    offersAt r' p = offersAt r p := by
  unfold getVfn at hg
  split at hg
  · cases hg; rfl
  · next hf =>
    cases hg
    unfold offersAt
    dsimp only
    rw [List.find?_append]
    cases hf' : r.vfns.find? (·.ptr == p) with
    | some y => rfl
    | none =>
      simp only [Option.none_or, List.find?_cons]
      split <;> rename_i h1
      · rfl
      · split at h1
        · cases h1; rfl
        · cases h1

theorem addHookMan_offers {E : Env} {r r' : Reg} (hs : SInv r) {v : Vfn} (hv : v ∈ r.vfns) {hmo : Nat}
    (hval : ∀ h, derefHm r hmo = .ok h → h.info.version ≠ -1)
    (hr : addHookMan E r v.oid hmo = .ok r') (p : Addr) :
    offersAt r' p = if p = v.ptr ∧ hmo ∉ v.hms then v.offers ++ [hmo] else offersAt r p := by
  unfold addHookMan at hr
  rw [derefVfn_ok hs hv] at hr
  cases h1 : derefHm r hmo with
  | error e => rw [h1] at hr; cases hr
  | ok h =>
    rw [h1] at hr
    simp only [bind, Except.bind, if_neg (hval h h1)] at hr
    split at hr
    · next hin =>
      cases hr
      rw [if_neg (by rintro ⟨_, hc⟩; exact hc hin)]
    · next hin =>
      cases h2 : insertByVersion r h.info.version hmo v.hms with
      | error e => rw [h2] at hr; cases hr
      | ok hms' =>
        rw [h2] at hr
        simp only at hr
        have key : ∀ q, offersAt (setVfn r { v with hms := hms', offers := v.offers ++ [hmo] }) q =
            if q = v.ptr ∧ hmo ∉ v.hms then v.offers ++ [hmo] else offersAt r q := by
          intro q
          have := offersAt_setVfn hs (v' := { v with hms := hms', offers := v.offers ++ [hmo] }) hv rfl rfl q
          rw [this]
          by_cases hq : q = v.ptr
          · rw [if_pos hq, if_pos ⟨hq, hin⟩]
          · rw [if_neg hq, if_neg (by rintro ⟨hc, _⟩; exact hq hc)]
        rw [← key]
        split at hr
        · split at hr
          · cases hr
          · next r2 h3 =>
            split at hr
            · split at hr
              · cases hr
              · next r3 h4 =>
                cases hr
                refine offersAt_congr ?_ p
                rw [patch_vfns, decrRef_vfns h4]; exact incrRef_vfns h3
            · cases hr
              refine offersAt_congr ?_ p
              rw [patch_vfns]; exact incrRef_vfns h3
        · cases hr; rfl

theorem getIface_offers {r r' : Reg} (hs : SInv r) {v : Vfn} (hv : v ∈ r.vfns) {q : Addr} {ifo : Nat}
    (hr : getIface r v.oid q = .ok (r', ifo)) (p : Addr) : offersAt r' p = offersAt r p := by
  unfold getIface at hr
  rw [derefVfn_ok hs hv] at hr
  simp only [bind, Except.bind] at hr
  have key : ∀ (r1 : Reg) (l : List Iface), r1.vfns = r.vfns → offersAt (setVfn r1 { v with ifaces := l }) p = offersAt r p := by
    intro r1 l h1
    have h2 : (setVfn r1 { v with ifaces := l }).vfns = (setVfn r { v with ifaces := l }).vfns := by
      unfold setVfn; rw [h1]
    rw [offersAt_congr h2, offersAt_setVfn hs (v' := { v with ifaces := l }) hv rfl rfl]
    split
    · next h => rw [h, offersAt_mem hs hv]
    · rfl
  split at hr
  · cases hr; rfl
  · split at hr <;> (cases hr; exact key _ _ rfl)

theorem pushHook_offers {r r' : Reg} (hs : SInv r) {v : Vfn} (hv : v ∈ r.vfns) {ifo : Nat} {info : Info} {slot adj : Addr}
    {a : AddArgs} {id : Int} (hr : pushHook r v.oid ifo info slot adj a = .ok (r', id)) (p : Addr) : offersAt r' p = offersAt r p := by
  unfold pushHook at hr
  rw [derefVfn_ok hs hv] at hr
  simp only [bind, Except.bind] at hr
  split at hr
  · cases hr
  · cases hr
    refine (offersAt_congr (r := setVfn r (v.setIface _)) rfl p).trans ?_
    rw [offersAt_setVfn hs (v' := v.setIface _) hv rfl rfl]
    split
    · next h => rw [h, offersAt_mem hs hv]; rfl
    · rfl

/-- C09: `AddHook` offers the manager of the calling plugin and public function to exactly the
hooked slot, after all managers offered before. -/
theorem offers_after_add {E : Env} {c : Bool} {mem0 : Addr → Addr} {r r' : Reg} (h : Reach E c mem0 r)
    {a : AddArgs} (hok : AddOk r a) {id : Int} (hs : addHook E r a = .ok (r', id)) (hid : id ≠ 0)
    {info : Info} (hinfo : a.info = some info) {slot adj : Addr} (ht : AddTarget r.mem a info slot adj) :
    (∃ o i, HasHm r' o a.plug a.pub i ∧
      offersAt r' slot = if o ∈ offersAt r slot then offersAt r slot else offersAt r slot ++ [o]) ∧
    (∀ p, p ≠ slot → offersAt r' p = offersAt r p) := by
  obtain ⟨hw, _⟩ := reach_inv h
  have hvalid : AddValid a info := by
    by_cases hv : ∃ info, AddValid a info
    · obtain ⟨i, hv⟩ := hv
      have := hv.2.1; rw [hinfo] at this; cases this; exact hv
    · rw [addHook_invalid E r a hv] at hs; cases hs; exact absurd rfl hid
  obtain ⟨hm, hinf, hver⟩ := hvalid
  have hsl : slotOf r.mem a.mode a.iface a.offs info = (slot, adj) := by
    rw [ht.slot, ht.adj]
    unfold slotOf
    split
    · rename_i h0; rw [h0]; rfl
    · split
      · rename_i h0; rw [h0]; rfl
      · have : a.mode = 2 := by omega
        rw [this]; rfl
  unfold addHook at hs
  rw [if_neg (by omega), hinf] at hs
  simp only [if_neg hver, hsl] at hs
  rcases hg1 : getVfn r slot with ⟨r1, o1⟩
  rw [hg1] at hs
  obtain ⟨w1, f1, hhm1, ⟨v1, hv1, rfl, rfl⟩, old1⟩ := getVfn_spec hw.toWInv hg1
  dsimp only at hs
  rcases hg2 : getHookMan r1 a.plug a.pub info with ⟨r2, hmo⟩
  rw [hg2] at hs
  obtain ⟨w2, f2, hvf2, ⟨info', hhas2, _⟩, mono2, back2⟩ :=
    getHookMan_spec w1 hver (by rw [hhm1]; exact hok) hg2
  dsimp only at hs
  obtain ⟨r3, hr3, w3, f3, hco3, ⟨v3, hv3, ho3, hp3, hif3, hin3, hkeep3⟩, old3⟩ :=
    addHookMan_spec w2 (v := v1) (hvf2 ▸ hv1) hhas2
  rw [hr3] at hs
  simp only [bind, Except.bind] at hs
  rw [← ho3] at hs
  obtain ⟨r4, ifo, hr4, w4, f4, hhm4, ⟨v4, hv4, ho4, hp4, hhms4, ⟨i4, hi4, rfl, rfl⟩, oldi4⟩, old4⟩ :=
    getIface_spec w3 hv3 adj
  rw [hr4] at hs
  dsimp only at hs
  rw [← ho4] at hs
  have hhm5 : r'.hms = r4.hms := by
    have hs' := hs
    unfold pushHook at hs'
    rw [derefVfn_ok w4.s hv4] at hs'
    simp only [bind, Except.bind] at hs'
    split at hs'
    · cases hs'
    · cases hs'; rfl
  have hoff : ∀ p, offersAt r' p = if p = v1.ptr ∧ hmo ∉ v1.hms then v1.offers ++ [hmo] else offersAt r p := by
    intro p
    rw [pushHook_offers w4.s hv4 hs, getIface_offers w3.s hv3 hr4,
      addHookMan_offers w2.s (hvf2 ▸ hv1) ?_ hr3, offersAt_congr hvf2, getVfn_offers hg1]
    intro m hm
    obtain ⟨m', m1, m2, m3, m4, m5⟩ := hhas2
    have := derefHm_ok w2.ref.oid m1
    rw [m2, hm] at this
    cases this
    exact w2.att.valid _ _ _ _ (hasHm_of_mem m1)
  have hold : offersAt r v1.ptr = v1.offers := by
    rw [← getVfn_offers hg1, offersAt_mem w1.s hv1]
  constructor
  · refine ⟨hmo, info', ?_, ?_⟩
    · have := (hasHm_congr hco3 hmo a.plug a.pub info').2 hhas2
      unfold HasHm at this ⊢
      rw [hhm5, hhm4]; exact this
    · rw [hoff, hold]
      have := (w1.att.perm v1 hv1).mem_iff (a := hmo)
      by_cases hin : hmo ∈ v1.hms
      · rw [if_neg (by rintro ⟨_, hc⟩; exact hc hin), if_pos (this.1 hin)]
      · rw [if_pos ⟨rfl, hin⟩, if_neg (fun hc => hin (this.2 hc))]
  · intro p hp
    rw [hoff, if_neg (by rintro ⟨hc, _⟩; exact hp hc)]

example : AddTarget Ex.r2.mem Ex.a3 Ex.info1 2008 1000 ∧ (∃ r', addHook Ex.E Ex.r2 Ex.a3 = .ok (r', 3)) ∧
    offersAt Ex.r1 2008 = [1] ∧ offersAt Ex.r2 2008 = [1, 4] ∧ offersAt Ex.r3 2008 = [1, 4] :=
  ⟨⟨rfl, rfl⟩, ⟨_, rfl⟩, rfl, rfl, rfl⟩

end Verif.SH

section
open Verif.SH
#print axioms registry_never_faults
#print axioms addHook_result
#print axioms hook_ids_unique
#print axioms hook_ids_positive
#print axioms hook_identity_stable
#print axioms removeHookById_exact
#print axioms removeHookById_again
#print axioms setHookPaused_exact
#print axioms setPluginPaused_exact
#print axioms setHookPaused_last_wins
#print axioms slot_patched_iff_hooked
#print axioms other_memory_untouched
#print axioms best_manager_serves
#print axioms offers_after_add
#print axioms offers_after_other
#print axioms manager_stored_iff_serving
#print axioms hooked_slot_has_record
#print axioms shared_pubfunc_loses_record
#print axioms unload_removes_exactly_own_partial
#print axioms unload_removes_all
#print axioms unload_removes_others_hooks
#print axioms handlers_deleted_exactly_once
#print axioms handler_deleted_iff_gone
#print axioms desc_recorded
#print axioms desc_stable
#print axioms removeHook_exact
end
