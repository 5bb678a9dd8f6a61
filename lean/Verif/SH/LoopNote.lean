import Verif.SH.LoopStep
/-
What contexts are told about removals is true, and function records keep their slots.
-/
namespace Verif.SH

/-- Records only disappear, and the notifications name records that are gone. -/
structure RemSound (r r' : Reg) (ns : List Note) : Prop where
  sub : ∀ v' ∈ r'.vfns, ∃ v ∈ r.vfns, v.oid = v'.oid ∧ v.ptr = v'.ptr ∧
    ∀ i' ∈ v'.ifaces, ∃ i ∈ v.ifaces, i.oid = i'.oid ∧ i.ptr = i'.ptr
  vfn : ∀ o, Note.vfnRemoved o ∈ ns → ∀ v' ∈ r'.vfns, v'.oid ≠ o
  iface : ∀ o f, Note.ifaceRemoved o f ∈ ns → ∀ v' ∈ r'.vfns, v'.oid = o → ∀ i' ∈ v'.ifaces, i'.oid ≠ f

theorem RemSound.refl (r : Reg) : RemSound r r [] :=
  ⟨fun v hv => ⟨v, hv, rfl, rfl, fun i hi => ⟨i, hi, rfl, rfl⟩⟩, by simp, by simp⟩

theorem RemSound.trans {a b c : Reg} {n1 n2 : List Note} (h1 : RemSound a b n1) (h2 : RemSound b c n2) :
    RemSound a c (n1 ++ n2) := by
  refine ⟨?_, ?_, ?_⟩
  · intro v hv
    obtain ⟨w, hw, e1, e2, e3⟩ := h2.sub v hv
    obtain ⟨u, hu, f1, f2, f3⟩ := h1.sub w hw
    refine ⟨u, hu, f1.trans e1, f2.trans e2, ?_⟩
    intro i hi
    obtain ⟨j, hj, g1, g2⟩ := e3 i hi
    obtain ⟨k, hk, k1, k2⟩ := f3 j hj
    exact ⟨k, hk, k1.trans g1, k2.trans g2⟩
  · intro o ho v hv
    rcases List.mem_append.1 ho with ho | ho
    · obtain ⟨w, hw, e1, _⟩ := h2.sub v hv
      rw [← e1]; exact h1.vfn o ho w hw
    · exact h2.vfn o ho v hv
  · intro o f ho v hv hvo i hi
    rcases List.mem_append.1 ho with ho | ho
    · obtain ⟨w, hw, e1, e2, e3⟩ := h2.sub v hv
      obtain ⟨j, hj, g1, g2⟩ := e3 i hi
      rw [← g1]; exact h1.iface o f ho w hw (e1.trans hvo) j hj
    · exact h2.iface o f ho v hv hvo i hi

theorem VfnSub.rem {r r' : Reg} (h : VfnSub r r') : ∀ v' ∈ r'.vfns, ∃ v ∈ r.vfns, v.oid = v'.oid ∧ v.ptr = v'.ptr ∧
    ∀ i' ∈ v'.ifaces, ∃ i ∈ v.ifaces, i.oid = i'.oid ∧ i.ptr = i'.ptr := by
  intro v hv
  obtain ⟨y, hy, e1, e2, _, _, e5⟩ := h v hv
  refine ⟨y, hy, e1, e2, ?_⟩
  intro i hi
  obtain ⟨j, hj, g1, g2, _⟩ := e5 i hi
  exact ⟨j, hj, g1, g2⟩

theorem removeHookById_sound {E : Env} {mem0 : Addr → Addr} {r r' : Reg} {id : Int} {b : Bool} {ns : List Note}
    (hw : RegInv E mem0 r) (h : removeHookById E r id = .ok (r', b, ns)) : RemSound r r' ns := by
  cases hq : idQuery r.entries id with
  | none => rw [removeHookById_none E hq] at h; cases h; exact RemSound.refl r
  | some e =>
    have hsub : VfnSub r r' := by
      obtain ⟨r2, ns2, _, g1, _, _, _, _, _, _, _, _, g⟩ := removeHookById_spec hw hq
      rw [g1] at h; cases h; exact g
    obtain ⟨v, i, hk, hloc⟩ := idLoc_of_query hw.toWInv hq
    rw [removeHookById_eq hw.toWInv hq hloc] at h
    dsimp only at h
    split at h
    · have hset : ∀ x, x ∈ (setVfn { r with deleted := hk.nid :: r.deleted } { v with ifaces := v.ifaces.filter (·.oid != i.oid) }).vfns ↔
          x = { v with ifaces := v.ifaces.filter (·.oid != i.oid) } ∨ (x ∈ r.vfns ∧ x.oid ≠ v.oid) := fun x =>
        mem_setVfn (r := { r with deleted := hk.nid :: r.deleted }) (v' := { v with ifaces := v.ifaces.filter (·.oid != i.oid) }) hloc.hv rfl x
      split at h
      · simp only [bind, Except.bind] at h
        split at h
        · cases h
        · next y hy =>
          obtain ⟨hvf, hns⟩ := revertAndRemoveVfn_vfns (ns := y.2) hy
          have hno : ∀ n ∈ y.2, (∀ o, n ≠ Note.vfnRemoved o) ∧ ∀ o f, n ≠ Note.ifaceRemoved o f := by
            intro n hn
            obtain ⟨o, rfl⟩ := hns n hn
            exact ⟨fun _ hc => (nomatch hc), fun _ _ hc => (nomatch hc)⟩
          cases h
          have hmem : ∀ v' ∈ y.1.vfns, v'.oid ≠ v.oid := by
            intro v' hv'
            rw [hvf, List.mem_filter] at hv'
            simpa using hv'.2
          refine ⟨hsub.rem, ?_, ?_⟩
          · intro o ho v' hv'
            rcases List.mem_append.1 ho with ho | ho
            · simp at ho; subst ho; exact hmem v' hv'
            · exact absurd rfl ((hno _ ho).1 o)
          · intro o f ho v' hv' hvo
            rcases List.mem_append.1 ho with ho | ho
            · simp at ho; exact absurd (hvo.trans ho.1) (hmem v' hv')
            · exact absurd rfl ((hno _ ho).2 o f)
      · cases h
        refine ⟨hsub.rem, by simp, ?_⟩
        intro o f ho v' hv' hvo i' hi'
        simp at ho
        obtain ⟨rfl, rfl⟩ := ho
        rcases (hset v').1 hv' with rfl | ⟨_, hne⟩
        · rw [List.mem_filter] at hi'; simpa using hi'.2
        · exact absurd hvo hne
    · cases h
      exact ⟨hsub.rem, by simp, by simp⟩

theorem removeIds_sound {E : Env} {mem0 : Addr → Addr} (ids : List Int) {r r' : Reg} {b : Bool} {ns : List Note}
    (hw : RegInv E mem0 r) (h : removeIds E r ids = .ok (r', b, ns)) : RemSound r r' ns := by
  induction ids generalizing r r' b ns with
  | nil => cases h; exact RemSound.refl r
  | cons id ids ih =>
    unfold removeIds at h
    simp only [bind, Except.bind] at h
    split at h
    · cases h
    · next y hy =>
      split at h
      · cases h
      · next z hz =>
        cases h
        exact (removeHookById_sound (b := y.2.1) (ns := y.2.2) hw hy).trans
          (ih (b := z.2.1) (ns := z.2.2) (removeHookById_inv (b := y.2.1) (ns := y.2.2) hw hy) hz)

theorem removeHookManO_sound {E : Env} {mem0 : Addr → Addr} {hmo : Nat} {r r' : Reg} {ns : List Note}
    (hw : RegInv E mem0 r) {plug : Plugin} {pub : PubFunc} {info : Info} (hh : HasHm r hmo plug pub info)
    (h : removeHookManO E r hmo = .ok (r', ns)) : RemSound r r' ns := by
  obtain ⟨r1, ns1, g1, g2, g3, g4, _⟩ := removeHookManO_spec hmo hw hh
  have hns := removeHookManO_notes h
  rw [g1] at h; cases h
  refine ⟨?_, ?_, ?_⟩
  · intro v hv
    obtain ⟨y, hy, q1, q2, q3, _⟩ := g4 v hv
    exact ⟨y, hy, q1, q2, fun i hi => ⟨i, q3 ▸ hi, rfl, rfl⟩⟩
  · intro o ho
    obtain ⟨_, hc⟩ := hns _ ho; cases hc
  · intro o f ho
    obtain ⟨_, hc⟩ := hns _ ho; cases hc

theorem removeHms_sound {E : Env} {mem0 : Addr → Addr} (os : List Nat) (hnd : os.Nodup) {r r' : Reg}
    {ns : List Note} (hw : RegInv E mem0 r)
    (hos : ∀ o ∈ os, ∃ a b c, HasHm r o a b c) (h : removeHms E os r = .ok (r', ns)) : RemSound r r' ns := by
  induction os generalizing r r' ns with
  | nil => cases h; exact RemSound.refl r
  | cons o os ih =>
    rw [List.nodup_cons] at hnd
    obtain ⟨a, b, c, hh⟩ := hos o (List.mem_cons_self ..)
    obtain ⟨r1, ns1, g1, g2, g3, _⟩ := removeHookManO_spec (E := E) o hw hh
    unfold removeHms at h
    simp only [bind, Except.bind] at h
    rw [g1] at h
    simp only at h
    split at h
    · cases h
    · next z hz =>
      cases h
      refine (removeHookManO_sound hw hh g1).trans (ih hnd.2 (r' := z.1) (ns := z.2) g2 ?_ hz)
      intro o' ho'
      obtain ⟨a, b, c, hh'⟩ := hos o' (List.mem_cons_of_mem _ ho')
      exact ⟨a, b, c, (g3 ..).2 ⟨hh', by rintro rfl; exact hnd.1 ho'⟩⟩

theorem unloadReg_sound {E : Env} {mem0 : Addr → Addr} {r r' : Reg} {plug : Plugin} {ns : List Note}
    (hw : RegInv E mem0 r) (h : unloadReg E r plug = .ok (r', ns)) : RemSound r r' ns := by
  unfold unloadReg at h
  simp only [bind, Except.bind] at h
  split at h
  · cases h
  · next y hy =>
    split at h
    · cases h
    · next z hz =>
      cases h
      obtain ⟨r1, b, ns1, g1, g2, _⟩ := removeIds_spec (E := E) (idFindPlug r.entries plug) hw
      refine (removeIds_sound _ (b := y.2.1) (ns := y.2.2) hw hy).trans ?_
      rw [g1] at hy; cases hy
      refine removeHms_sound _ (nodup_map_filter _ g2.ref.oid) g2 ?_ hz
      intro o ho
      obtain ⟨h, hh, rfl⟩ := List.mem_map.1 ho
      rw [List.mem_filter] at hh
      exact ⟨_, _, _, hasHm_of_mem hh.1⟩

/-- Records keep their slot. -/
def PtrKeep (r r' : Reg) : Prop := ∀ v ∈ r.vfns, ∀ v' ∈ r'.vfns, v.oid = v'.oid → v.ptr = v'.ptr

theorem RemSound.keep {r r' : Reg} {ns : List Note} (hs : SInv r) (h : RemSound r r' ns) : PtrKeep r r' := by
  intro v hv v' hv' e
  obtain ⟨w, hw, e1, e2, _⟩ := h.sub v' hv'
  rw [nodup_key_inj hs.void hv hw (e.trans e1.symm), e2]

theorem Evo.keep {N : Addr → Prop} {r r' : Reg} (hs : SInv r') (h : Evo N r r') : PtrKeep r r' := by
  intro v hv v' hv' e
  obtain ⟨w, hw, e1, e2, _⟩ := h v hv
  rw [← e2, nodup_key_inj hs.void hw hv' (e1.trans e)]

/-- Registry operations either tell contexts nothing and keep all records, or remove. -/
theorem regN_keep {E : Env} {s : St} {op : RegOp} {r' : Reg} {x : Int} {ns : List Note} (hr : RegE E s.reg)
    (hok : RegOk E s op) (h : regStepN E s.reg op = .ok (r', x, ns)) :
    PtrKeep s.reg r' ∧ ((ns = [] ∧ Evo (fun _ => True) s.reg r') ∨ RemSound s.reg r' ns) := by
  obtain ⟨mem0, hw, h0⟩ := hr.inv
  obtain ⟨r2, x2, g1, g2, g3, _⟩ := regStep_spec (E := E) hw hok.opOk
  rw [regStepN_regStep, h] at g1
  simp only [Except.map] at g1
  cases g1
  have hE : ∀ {N}, Evo N s.reg r' → Evo (fun _ => True) s.reg r' := by
    intro N he v hv
    obtain ⟨v', h1, h2, h3, h4, h5, h6⟩ := he v hv
    refine ⟨v', h1, h2, h3, h4, h5, fun i hi => ?_⟩
    rcases h6 i hi with h | h
    · exact Or.inl h
    · exact Or.inr ⟨h.1, fun _ => trivial⟩
  have hR : ∀ {ns}, RemSound s.reg r' ns → PtrKeep s.reg r' ∧ ((ns = [] ∧ Evo (fun _ => True) s.reg r') ∨ RemSound s.reg r' ns) :=
    fun h => ⟨h.keep hw.s, Or.inr h⟩
  cases op with
  | add a =>
    simp only [regStepN, bind, Except.bind] at h
    cases ha : addHook E s.reg a with
    | error e => rw [ha] at h; cases h
    | ok y =>
      obtain ⟨ra, xa⟩ := y
      rw [ha] at h; cases h
      have he := (addHook_evo hw hok.1 ha).1
      exact ⟨he.keep g2.s, Or.inl ⟨rfl, hE he⟩⟩
  | removeId id =>
    simp only [regStepN, bind, Except.bind] at h
    cases ha : removeHookById E s.reg id with
    | error e => rw [ha] at h; cases h
    | ok y => obtain ⟨ra, ba, na⟩ := y; rw [ha] at h; cases h; exact hR (removeHookById_sound hw ha)
  | remove plug iface offs info hd post =>
    simp only [regStepN, bind, Except.bind] at h
    cases ha : removeHook E s.reg plug iface offs info hd post with
    | error e => rw [ha] at h; cases h
    | ok y =>
      obtain ⟨ra, ba, na⟩ := y
      rw [ha] at h; cases h
      unfold removeHook at ha
      cases info with
      | none => cases ha; exact hR (RemSound.refl _)
      | some info =>
        simp only at ha
        split at ha
        · cases ha; exact hR (RemSound.refl _)
        · exact hR (removeIds_sound _ hw ha)
  | unload plug =>
    simp only [regStepN, bind, Except.bind] at h
    cases ha : unloadReg E s.reg plug with
    | error e => rw [ha] at h; cases h
    | ok y => obtain ⟨ra, na⟩ := y; rw [ha] at h; cases h; exact hR (unloadReg_sound hw ha)
  | removeHm plug pub =>
    simp only [regStepN, bind, Except.bind] at h
    cases ha : removeHookManager E s.reg plug pub with
    | error e => rw [ha] at h; cases h
    | ok y =>
      obtain ⟨ra, na⟩ := y
      rw [ha] at h; cases h
      unfold removeHookManager at ha
      split at ha
      · cases ha; exact hR (RemSound.refl _)
      · next hh hf => exact hR (removeHookManO_sound hw (hasHm_of_mem (List.mem_of_find?_eq_some hf)) ha)
  | pauseId id b =>
    simp only [regStepN] at h
    cases h
    have he := setHookPaused_evo (fun _ => True) hw id b
    exact ⟨he.keep g2.s, Or.inl ⟨rfl, he⟩⟩
  | pausePlugin plug b =>
    simp only [regStepN] at h
    cases h
    have he := setPluginPaused_evo (fun _ => True) hw plug b
    exact ⟨he.keep g2.s, Or.inl ⟨rfl, he⟩⟩
  | shutdown =>
    simp only [regStepN, shutdownReg, bind, Except.bind] at h
    cases ha : removeIds E s.reg (idFindAll s.reg.entries) with
    | error e => rw [ha] at h; cases h
    | ok y => obtain ⟨ra, ba, na⟩ := y; rw [ha] at h; cases h; exact hR (removeIds_sound _ hw ha)

/-! ### effect on a context -/

theorem noteAll_st {ns : List Note} {c : Ctx} {o : Nat} (hv : c.vfn = some o) (hn : Note.vfnRemoved o ∉ ns) :
    (noteAll ns c).st = c.st := by
  induction ns generalizing c with
  | nil => rfl
  | cons n ns ih =>
    rw [noteAll_cons, ih ((noteCtx_frame n c).vfn.trans hv) (fun hc => hn (List.mem_cons_of_mem _ hc))]
    unfold noteCtx
    cases n <;> dsimp only
    · split <;> rfl
    · split <;> rfl
    · split
      · next e => rw [hv] at e; cases e; exact absurd (List.mem_cons_self ..) hn
      · rfl

theorem noteAll_iface {ns : List Note} {c : Ctx} {o f : Nat} (hv : c.vfn = some o) (hf : c.iface = some f)
    (hn : Note.ifaceRemoved o f ∉ ns) : (noteAll ns c).iface = some f := by
  induction ns generalizing c with
  | nil => exact hf
  | cons n ns ih =>
    rw [noteAll_cons]
    refine ih ((noteCtx_frame n c).vfn.trans hv) ?_ (fun hc => hn (List.mem_cons_of_mem _ hc))
    unfold noteCtx
    cases n <;> dsimp only
    · split <;> exact hf
    · split
      · next e => rw [hv, hf] at e; obtain ⟨e1, e2⟩ := e; cases e1; cases e2; exact absurd (List.mem_cons_self ..) hn
      · exact hf
    · split <;> exact hf
    · exact hf

/-- A context whose function still has a hook stays alive. -/
theorem RemSound.alive {r r' : Reg} {ns : List Note} (h : RemSound r r' ns) (hs : SInv r) {c : Ctx} {v : Vfn} (hv : v ∈ r.vfns)
    (hc : c.vfn = some v.oid) {v' : Vfn} (hv' : v' ∈ r'.vfns) (hp : v'.ptr = v.ptr) : (noteAll ns c).st = c.st := by
  refine noteAll_st hc fun hn => ?_
  obtain ⟨w, hw, e1, e2, _⟩ := h.sub v' hv'
  have : w = v := nodup_key_inj hs.vptr hw hv (e2.trans hp)
  exact h.vfn _ hn v' hv' (by rw [← e1, this])

/-- A context whose object still has a hook keeps its interface record. -/
theorem RemSound.keepsIface {r r' : Reg} {ns : List Note} (h : RemSound r r' ns) (hs : SInv r) {c : Ctx} {v : Vfn}
    (hv : v ∈ r.vfns) (hc : c.vfn = some v.oid) {i : Iface} (hi : i ∈ v.ifaces) (hci : c.iface = some i.oid)
    {v' : Vfn} (hv' : v' ∈ r'.vfns) (hp : v'.ptr = v.ptr) {i' : Iface} (hi' : i' ∈ v'.ifaces) (hip : i'.ptr = i.ptr) :
    (noteAll ns c).iface = some i.oid := by
  refine noteAll_iface hc hci fun hn => ?_
  obtain ⟨w, hw, e1, e2, e3⟩ := h.sub v' hv'
  have : w = v := nodup_key_inj hs.vptr hw hv (e2.trans hp)
  subst this
  obtain ⟨j, hj, g1, g2⟩ := e3 i' hi'
  have : j = i := nodup_key_inj (hs.vi w hv).iptr hj hi (g2.trans hip)
  subst this
  exact h.iface _ _ hn v' hv' e1.symm i' hi' g1.symm

end Verif.SH
