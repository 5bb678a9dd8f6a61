import Verif.SH.Manual
/-! C106: reconfiguring a manual hook. -/
namespace Verif.SH.Manual
open Verif.SH

/-- Specification: the slot of a virtual function given by its three numbers. No counterpart in /repo: what the macros are documented to
mean, core/sourcehook/sourcehook.h:859. -/
def slotAt (mem : Addr → Addr) (obj thisOffs vtblOffs vtblIdx : Int) : Addr := mem (obj + thisOffs + vtblOffs) + 8 * vtblIdx

/-- No counterpart in /repo: the manager a plugin has for a public function, serving the slot `p` alone. -/
def Alone (r : Reg) (plug : Plugin) (pub : PubFunc) (p : Addr) : Prop := ∃ o i, HasHm r o plug pub i ∧ OnlyHm r o p

private theorem unique {r : Reg} {plug : Plugin} {pub : PubFunc} {x : HookMan}
    (hf : r.hms.find? (fun h => h.plug == plug && h.pub == pub) = some x) (hu : ∀ o i, HasHm r o plug pub i → o = x.oid) (p : Addr) :
    OnlyHm r x.oid p ↔ Alone r plug pub p := by
  constructor
  · intro h
    have hx := List.find?_some hf
    simp only [Bool.and_eq_true, beq_iff_eq] at hx
    refine ⟨x.oid, x.info, ?_, h⟩
    have := hasHm_of_mem (List.mem_of_find?_eq_some hf)
    rw [hx.1, hx.2] at this
    exact this
  · rintro ⟨o, i, h1, h2⟩
    rw [hu o i h1] at h2
    exact h2

/-- C106: in every reachable state reconfiguring never faults and leaves the plugin without a manager for the hook, so that the next
hook is added with the new numbers. Where this manager served a slot alone, all hooks are gone from the slot; every other slot keeps
its hooks. -/
theorem reconfigured {E : Env} {c : Bool} {mem0 : Addr → Addr} {r : Reg} (h : Reach E c mem0 r) (m : Manual) (plug : Plugin)
    (idx offs thisOffs : Int) :
    ∃ r' ns, reconfigure E r m plug idx offs thisOffs = .ok (r', m.set idx offs thisOffs, ns) ∧ Reach E false mem0 r' ∧
      (∀ o i, ¬ HasHm r' o plug m.pub i) ∧
      (∀ o a b i, b ≠ m.pub → (HasHm r' o a b i ↔ HasHm r o a b i)) ∧
      ∀ p a s, (Alone r plug m.pub p → view r' p a s = []) ∧ (¬ Alone r plug m.pub p → view r' p a s = view r p a s) := by
  have hw := (reach_inv h).1
  cases hf : r.hms.find? (fun h => h.plug == plug && h.pub == m.pub) with
  | none =>
    have hno : ∀ o i, ¬ HasHm r o plug m.pub i := by
      rintro o i ⟨x, hx, -, h2, h3, -⟩
      have := List.find?_eq_none.1 hf x hx
      simp [h2, h3] at this
    have e : removeHookManager E r plug m.pub = .ok (r, []) := by simp [removeHookManager, hf]
    have hr := Reach.step (r' := r) (op := .removeHm plug m.pub) (x := 0) h trivial (by simp [regStep, e, bind, Except.bind])
    rw [Bool.and_false] at hr
    refine ⟨r, [], by simp [reconfigure, e, bind, Except.bind], hr, hno, fun _ _ _ _ _ => Iff.rfl, fun p a s => ⟨?_, fun _ => rfl⟩⟩
    rintro ⟨o, i, h1, -⟩
    exact absurd h1 (hno o i)
  | some x =>
    have hx := List.find?_some hf
    simp only [Bool.and_eq_true, beq_iff_eq] at hx
    have hh := hasHm_of_mem (List.mem_of_find?_eq_some hf)
    obtain ⟨r', ns, g1, g2, g3, g4, g5, g6, -⟩ := removeHookManO_spec (E := E) x.oid hw hh
    have e : removeHookManager E r plug m.pub = .ok (r', ns) := by simp [removeHookManager, hf, g1]
    have hr := Reach.step (r' := r') (op := .removeHm plug m.pub) (x := 0) h trivial (by simp [regStep, e, bind, Except.bind])
    rw [Bool.and_false] at hr
    have hu : ∀ o i, HasHm r o plug m.pub i → o = x.oid := by
      rintro o i ⟨y, hy, e1, -, e3, -⟩
      have := nodup_key_inj hw.ref.pub hy (List.mem_of_find?_eq_some hf) (by rw [e3, hx.2])
      rw [← e1, this]
    refine ⟨r', ns, by simp [reconfigure, e, bind, Except.bind], hr, ?_, ?_, ?_⟩
    · intro o i k
      obtain ⟨k1, k2⟩ := (g3 ..).1 k
      exact k2 (hu o i k1)
    · intro o a b i hb
      rw [g3]
      refine ⟨fun k => k.1, fun k => ⟨k, ?_⟩⟩
      rintro rfl
      exact hb ((hasHm_fun hw.ref.oid k hh).2.1.trans hx.2)
    · intro p a s
      rw [← unique hf hu]
      exact ⟨g5 p a s, g6 p a s⟩

/-- No counterpart in /repo: the manual hook with which plugin 1 of the examples of `RegProps.lean` hooked. -/
def exM : Manual := declare 1 Ex.info1 0

/-- Reconfiguring the hook of plugin 1 while it is alone. -/
example : ∃ r' m' ns, reconfigure Ex.E Ex.r1 exM 1 3 0 0 = .ok (r', m', ns) ∧ (view Ex.r1 2008 1000 false).length = 1 ∧
    (view r' 2008 1000 false).length = 0 ∧ m'.info.vtblIdx = 3 := ⟨_, _, _, rfl, rfl, rfl, rfl⟩

/-- C106: after reconfiguring, a hook on an object is added to the slot the new index and the new table offset give, with the `this`
offset of the declaration, behind the hooks that are there; all else stays. `SH_ADD_MANUALHOOK` answers with a new id. -/
theorem added_at_new_slot {E : Env} {c : Bool} {mem0 : Addr → Addr} {r : Reg} (h : Reach E c mem0 r) (m : Manual) (plug : Plugin)
    (hown : ∀ x ∈ r.hms, x.pub = m.pub → x.plug = plug) (hv : m.info.version ≠ -1) (idx offs thisOffs : Int) (iface : Addr)
    (hd : Handler) (post : Bool) :
    ∃ r' m' ns r'' id n, reconfigure E r m plug idx offs thisOffs = .ok (r', m', ns) ∧
      add E r' m' plug 0 iface hd post = .ok (r'', id) ∧ 0 < id ∧ idQuery r'.entries id = none ∧
      ∀ q b t, view r'' q b t = if q = slotAt r'.mem iface m.decl offs idx ∧ b = iface + m.decl ∧ t = post
        then view r' q b t ++ [⟨n, plug, m.decl, hd, id, false⟩] else view r' q b t := by
  obtain ⟨r', ns, e, hr, hno, -, -⟩ := reconfigured h m plug idx offs thisOffs
  have hok : AddOk r' (addArgs (m.set idx offs thisOffs) plug 0 iface hd post) := by
    intro x hx hp
    have hx' := hasHm_of_mem hx
    by_cases hpl : x.plug = plug
    · exact hpl
    · exfalso
      unfold reconfigure at e
      cases hrm : removeHookManager E r plug m.pub with
      | error b => simp [hrm, bind, Except.bind] at e
      | ok z =>
        simp only [hrm, bind, Except.bind, Except.ok.injEq, Prod.mk.injEq] at e
        unfold removeHookManager at hrm
        cases hf : r.hms.find? (fun h => h.plug == plug && h.pub == m.pub) with
        | none =>
          rw [hf] at hrm
          have hz := (Except.ok.inj hrm).symm
          have : r' = r := by rw [← e.1, hz]
          rw [this] at hx
          exact hpl (hown x hx hp)
        | some y =>
          rw [hf] at hrm
          obtain ⟨r2, ns2, g1, -, g3, -⟩ := removeHookManO_spec (E := E) y.oid (reach_inv h).1
            (hasHm_of_mem (List.mem_of_find?_eq_some hf))
          simp only [g1] at hrm
          have hz := (Except.ok.inj hrm).symm
          have : r' = r2 := by rw [← e.1, hz]
          rw [this] at hx'
          obtain ⟨w, hw1, -, hw3, hw4, -⟩ := ((g3 ..).1 hx').1
          exact hpl (by rw [← hw3]; exact hown w hw1 (hw4.trans hp))
  obtain ⟨r'', id, n, a1, -, a3, a4, -, -, -, -, -, a9, -, -⟩ := addHook_valid (E := E) (reach_inv hr).1 hok
    (info := (m.set idx offs thisOffs).info) ⟨by simp [addArgs], rfl, hv⟩
    (slot := slotAt r'.mem iface m.decl offs idx) (adj := iface + m.decl) rfl
  exact ⟨r', _, ns, r'', id, n, e, a1, a3, a4, a9⟩

example : (∀ x ∈ Ex.r1.hms, x.pub = exM.pub → x.plug = 1) ∧ exM.info.version ≠ -1 := by
  refine ⟨fun x hx _ => ?_, by decide⟩
  have : (x.plug, x.pub) ∈ Ex.r1.hms.map (fun h => (h.plug, h.pub)) := List.mem_map.2 ⟨x, hx, rfl⟩
  rw [Ex.hms1] at this
  simp at this
  exact this.1

/-- C106: `SH_ADD_MANUALHOOK`, `SH_MCALL` and the recall of a handler go through the same slot for every object and every contents of
memory exactly if the `this` offset is still that of the declaration. -/
theorem same_slot_iff (m : Manual) :
    (∀ (mem : Addr → Addr) (obj : Addr), (slotOf mem 0 obj m.decl m.info).1 = (mcall mem m obj).1 ∧
      (slotOf mem 0 obj m.decl m.info).1 = recallSlot mem m (slotOf mem 0 obj m.decl m.info).2) ↔ m.thisOffs = m.decl := by
  constructor
  · intro h
    have := (h id 0).1
    have this : ((0 : Int) + m.decl + m.info.vtblOffs) + 8 * m.info.vtblIdx = (0 + m.thisOffs + m.info.vtblOffs) + 8 * m.info.vtblIdx := this
    omega
  · intro h mem obj
    simp [slotOf, mcall, recallSlot, h]

example : exM.thisOffs = exM.decl ∧ (exM.set 4 0 0).thisOffs = (exM.set 4 0 0).decl ∧ (exM.set 4 0 16).thisOffs ≠ (exM.set 4 0 16).decl := by
  decide

/-- C106: as declared, and after every reconfiguration that keeps the `this` offset of the declaration, a hook on an object is added to
the slot the numbers given last describe, `SH_MCALL` looks at this slot, and so does the recall of a handler. -/
theorem slots_as_given (pub : PubFunc) (info : Info) (thisOffs : Int) (mem : Addr → Addr) (obj : Addr) :
    (let m := declare pub info thisOffs; (slotOf mem 0 obj m.decl m.info) = (slotAt mem obj thisOffs info.vtblOffs info.vtblIdx, obj + thisOffs) ∧
      (mcall mem m obj).1 = slotAt mem obj thisOffs info.vtblOffs info.vtblIdx ∧
      recallSlot mem m (obj + thisOffs) = slotAt mem obj thisOffs info.vtblOffs info.vtblIdx) ∧
    ∀ cfgs : List (Int × Int), ∀ idx offs : Int,
      let m := ((cfgs.foldl (fun m c => m.set c.1 c.2 thisOffs) (declare pub info thisOffs)).set idx offs thisOffs)
      slotOf mem 0 obj m.decl m.info = (slotAt mem obj thisOffs offs idx, obj + thisOffs) ∧
      (mcall mem m obj).1 = slotAt mem obj thisOffs offs idx ∧ recallSlot mem m (obj + thisOffs) = slotAt mem obj thisOffs offs idx := by
  refine ⟨⟨rfl, rfl, rfl⟩, fun cfgs idx offs => ?_⟩
  · have hd : ∀ (cs : List (Int × Int)) (m : Manual), (cs.foldl (fun m c => m.set c.1 c.2 thisOffs) m).decl = m.decl := by
      intro cs
      induction cs with
      | nil => exact fun _ => rfl
      | cons c cs ih => exact fun m => ih _
    have h0 : ((cfgs.foldl (fun m c => m.set c.1 c.2 thisOffs) (declare pub info thisOffs)).set idx offs thisOffs).decl = thisOffs :=
      hd cfgs (declare pub info thisOffs)
    intro m
    refine ⟨?_, rfl, rfl⟩
    show slotOf mem 0 obj m.decl m.info = _
    rw [show m.decl = thisOffs from h0]
    rfl

example : (mcall (fun a => 100 * a) ((declare 1 Ex.info1 8).set 3 16 8) 1000).1 = 102424 := by decide

private theorem cancel (o t t' f i : Int) (h : o + t + f + 8 * i = o + t' + f + 8 * i) : t = t' := by omega

private theorem self_iff (o t : Int) : o = o + t ↔ t = 0 := by omega

/-- C106, finding: the `this` offset given to `SH_MANUALHOOK_RECONFIGURE` has no effect on adding and removing hooks: the macros use the
literal of the declaration (core/sourcehook/sourcehook.h:903, 910). Hooks go to the table the declaration names, while `SH_MCALL`
looks at the new one. -/
theorem this_offset_ignored (m : Manual) (idx offs t t' : Int) :
    (∀ E r plug mode iface h post, add E r (m.set idx offs t) plug mode iface h post = add E r (m.set idx offs t') plug mode iface h post) ∧
    (∀ E r plug iface h post, remove E r (m.set idx offs t) plug iface h post = remove E r (m.set idx offs t') plug iface h post) ∧
    (t ≠ t' → ∃ mem : Addr → Addr, ∀ obj, (mcall mem (m.set idx offs t) obj).1 ≠ (mcall mem (m.set idx offs t') obj).1) := by
  refine ⟨fun _ _ _ _ _ _ _ => rfl, fun _ _ _ _ _ _ => rfl, fun hne => ⟨id, fun obj k => hne ?_⟩⟩
  exact cancel obj t t' offs idx k

/-- C106, finding: `SH_MCALL` calls the function from the table at `ptr + thisptroffs`, but with `ptr` itself as `this`
(core/sourcehook/sourcehook.h:922, 927): it is the object the function belongs to, and the one hooks are added for, only if the offset
is 0. -/
theorem mcall_this_unadjusted (m : Manual) (mem : Addr → Addr) (obj : Addr) :
    (mcall mem m obj).2 = obj + m.thisOffs ↔ m.thisOffs = 0 := by
  exact self_iff obj m.thisOffs

example : (declare 1 Ex.info1 8).thisOffs ≠ 0 := by decide

/-- C106, finding: where another plugin hooks the same function, reconfiguring leaves the hooks on the old function in place, and if
index or table offset changed, no `SH_REMOVE_MANUALHOOK` of this hook removes them any more. -/
theorem reconfigure_leaves {E : Env} {c : Bool} {mem0 : Addr → Addr} {r : Reg} (h : Reach E c mem0 r) (m : Manual) (plug : Plugin)
    (idx offs thisOffs : Int) {p a : Addr} {s : Bool} {k : Hook} (hk : k ∈ view r p a s) (hs : ¬ Alone r plug m.pub p) :
    ∃ r' m' ns, reconfigure E r m plug idx offs thisOffs = .ok (r', m', ns) ∧ k ∈ view r' p a s ∧
      ∀ e, idQuery r'.entries k.id = some e → (e.vtblIdx ≠ idx ∨ e.vtblOffs ≠ offs) → ∀ iface hd post,
        ∃ r'' b ns', remove E r' m' plug iface hd post = .ok (r'', b, ns') ∧ k ∈ view r'' p a s := by
  obtain ⟨r', ns, e1, hr, -, -, hvw⟩ := reconfigured h m plug idx offs thisOffs
  have hk' : k ∈ view r' p a s := by rw [(hvw p a s).2 hs]; exact hk
  refine ⟨r', _, ns, e1, hk', fun e he hne iface hd post => ?_⟩
  unfold remove removeHook
  simp only
  split
  · exact ⟨r', false, [], rfl, hk'⟩
  · obtain ⟨r'', b, ns', g1, -, g3, -⟩ := removeIds_spec (E := E) (idFindMatch r'.entries (m.set idx offs thisOffs).info.proto
      (m.set idx offs thisOffs).info.vtblOffs (m.set idx offs thisOffs).info.vtblIdx (iface + (m.set idx offs thisOffs).decl) plug
      (m.set idx offs thisOffs).decl hd post) (reach_inv hr).1
    refine ⟨r'', b, ns', g1, ?_⟩
    rw [g3]
    refine mem_keepV.2 ⟨hk', ?_⟩
    simp only [decide_eq_true_eq]
    intro hm
    obtain ⟨e', q1, -, q2, q3, -⟩ := (mem_idFindMatch ..).1 hm
    rw [he, Option.some.injEq] at q1
    subst q1
    rcases hne with hne | hne
    · exact hne q3
    · exact hne q2

/-- Plugin 1 reconfigures while plugin 2 hooks the same function: its two hooks stay. -/
example : ∃ r' m' ns, reconfigure Ex.E Ex.r3 exM 1 3 0 0 = .ok (r', m', ns) ∧ (view r' 2008 1000 false).map Hook.plug = [1, 1] ∧
    (idQuery r'.entries 1).map Entry.vtblIdx = some 1 := ⟨_, _, _, rfl, rfl, rfl⟩

#print axioms reconfigured
#print axioms added_at_new_slot
#print axioms same_slot_iff
#print axioms slots_as_given
#print axioms this_offset_ignored
#print axioms mcall_this_unadjusted
#print axioms reconfigure_leaves
end Verif.SH.Manual
