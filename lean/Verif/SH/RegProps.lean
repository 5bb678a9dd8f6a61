import Verif.SH.RegOps
/-
Properties of the SourceHook registry: C01, C02, C07 (registry part), C08, C09, C10, C13, C17, C19.

Observations.  `view r p a s` lists the hooks registered on vtable slot `p` for object `a`
(`a = 0`: vtable-wide), pre (`s = false`) or post (`s = true`), in call order.  `Reach E c mem0 r`:
the registry state `r` is reachable by any sequence of operations; `mem0` is the memory without
SourceHook's writes; `c = true` if `RemoveHookManager` was never called explicitly.
-/
namespace Verif.SH

/-! ### concrete states for the examples -/

namespace Ex

/-- All slots can be written and restored. -/
def E : Env := ⟨fun _ => true, fun _ => true, fun a => if a = 500 then some 1 else if a = 600 then some 2 else none⟩

/-- Objects at 1000 and 1100 with the vtable 2000; object at 1200 with the vtable 3000. -/
def mem : Addr → Addr := fun a =>
  if a = 1000 then 2000 else if a = 1100 then 2000 else if a = 1200 then 3000 else if a = 2008 then 41 else if a = 3008 then 42 else 0

def info1 : Info := { version := 5, vtblOffs := 0, vtblIdx := 1, proto := default, hookfunc := 500 }
def info2 : Info := { version := 6, vtblOffs := 0, vtblIdx := 1, proto := default, hookfunc := 600 }

/-- Plugin 1 hooks object 1000 (pre). -/
def a1 : AddArgs := ⟨1, 0, 1000, 0, 1, some info1, ⟨11, 11⟩, false⟩
/-- Plugin 2 hooks the same slot for all objects (VP, pre) with a newer hook manager. -/
def a2 : AddArgs := ⟨2, 1, 1000, 0, 2, some info2, ⟨12, 12⟩, false⟩
/-- Plugin 1 hooks object 1000 (pre) again. -/
def a3 : AddArgs := ⟨1, 0, 1000, 0, 1, some info1, ⟨13, 13⟩, false⟩

def r0 : Reg := { mem := mem }
def run (r : Reg) (op : RegOp) : Reg := match regStep E r op with | .ok (r', _) => r' | .error _ => r
def r1 : Reg := run r0 (.add a1)
def r2 : Reg := run r1 (.add a2)
def r3 : Reg := run r2 (.add a3)

theorem reach0 : Reach E true mem r0 := .init mem
theorem ok1 : AddOk r0 a1 := by intro h hh; cases hh
theorem reach1 : Reach E true mem r1 := .step (op := .add a1) (x := 1) reach0 ok1 rfl
theorem hms1 : r1.hms.map (fun h => (h.plug, h.pub)) = [(1, 1)] := rfl
theorem ok2 : AddOk r1 a2 := by
  intro h hh he
  have : (h.plug, h.pub) ∈ r1.hms.map (fun h => (h.plug, h.pub)) := List.mem_map.2 ⟨h, hh, rfl⟩
  rw [hms1] at this
  simp at this
  rw [this.2] at he; cases he
theorem reach2 : Reach E true mem r2 := .step (op := .add a2) (x := 2) reach1 ok2 rfl
theorem hms2 : r2.hms.map (fun h => (h.plug, h.pub)) = [(1, 1), (2, 2)] := rfl
theorem ok3 : AddOk r2 a3 := by
  intro h hh he
  have : (h.plug, h.pub) ∈ r2.hms.map (fun h => (h.plug, h.pub)) := List.mem_map.2 ⟨h, hh, rfl⟩
  rw [hms2] at this
  simp at this
  rcases this with this | this
  · exact this.1
  · rw [this.2] at he; cases he
theorem reach3 : Reach E true mem r3 := .step (op := .add a3) (x := 3) reach2 ok3 rfl

/-- Three hooks by two plugins on one slot. -/
example : (view r3 2008 1000 false).map Hook.id = [1, 3] ∧ (view r3 2008 0 false).map Hook.id = [2] ∧
    r3.mem 2008 = 600 := ⟨rfl, rfl, rfl⟩

end Ex

/-! ### no operation faults -/

/-- No registry operation ever dereferences a freed object, in any reachable state. -/
theorem registry_never_faults {E : Env} {c : Bool} {mem0 : Addr → Addr} {r : Reg} (h : Reach E c mem0 r)
    {op : RegOp} (hok : OpOk r op) : ∃ r' x, regStep E r op = .ok (r', x) := by
  obtain ⟨r', x, h, _⟩ := regStep_spec (reach_inv h).1 hok
  exact ⟨r', x, h⟩

example : ∃ r' x, regStep Ex.E Ex.r3 (.unload 1) = .ok (r', x) := registry_never_faults Ex.reach3 trivial

/-! ### C01 -/

/-- Where `AddHook` puts a hook (`GetVfnPtr` arguments, stated without the model's `slotOf`). -/
structure AddTarget (mem : Addr → Addr) (a : AddArgs) (info : Info) (slot adj : Addr) : Prop where
  slot : slot = (if a.mode = 2 then a.iface else mem (a.iface + a.offs + info.vtblOffs)) + 8 * info.vtblIdx
  adj : adj = if a.mode = 0 then a.iface + a.offs else 0

/-- C01, result of `AddHook`: 0 exactly if the mode is unknown or the hook manager refuses, then
nothing changed; otherwise a positive id that no registered hook has, and the hook with exactly the
given attributes is appended to the list of its slot, object and side; nothing else changes. -/
theorem addHook_result {E : Env} {c : Bool} {mem0 : Addr → Addr} {r : Reg} (h : Reach E c mem0 r)
    {a : AddArgs} (hok : AddOk r a) :
    ∃ r' id, addHook E r a = .ok (r', id) ∧
      (id = 0 ↔ ¬ (a.mode ≤ 2 ∧ ∃ info, a.info = some info ∧ info.version ≠ -1)) ∧
      (id = 0 → r' = r) ∧
      (∀ info, id ≠ 0 → a.info = some info → 0 < id ∧ (∀ p b s, ∀ k ∈ view r p b s, k.id ≠ id) ∧
        ∃ slot adj n, AddTarget r.mem a info slot adj ∧ (∀ p b s, ∀ k ∈ view r p b s, k.nid ≠ n) ∧
          view r' slot adj a.post = view r slot adj a.post ++ [⟨n, a.plug, a.offs, a.handler, id, false⟩] ∧
          ∀ p b s, (p, b, s) ≠ (slot, adj, a.post) → view r' p b s = view r p b s) := by
  obtain ⟨hw, _⟩ := reach_inv h
  by_cases hv : ∃ info, AddValid a info
  · obtain ⟨info, hv⟩ := hv
    rcases hsl : slotOf r.mem a.mode a.iface a.offs info with ⟨slot, adj⟩
    obtain ⟨r', id, n, g1, g2, g3, g4, g5, g6, g7, g8, g9, g10, g11, g12⟩ := addHook_valid hw hok hv hsl
    refine ⟨r', id, g1, ?_, fun h0 => by omega, ?_⟩
    · constructor
      · intro h0; omega
      · intro h0; exact absurd ⟨hv.1, info, hv.2.1, hv.2.2⟩ h0
    · intro info' _ hinf
      rw [hv.2.1] at hinf; cases hinf
      refine ⟨g3, ?_, slot, adj, n, ?_, ?_, ?_, ?_⟩
      · intro p b s k hk hc
        obtain ⟨e, q1, _⟩ := hw.ids.entry p b s k hk
        rw [hc, g4] at q1; cases q1
      · unfold slotOf at hsl
        have hm := hv.1
        constructor
        · split at hsl
          · cases hsl; rw [if_neg (by omega)]
          · split at hsl
            · cases hsl; rw [if_neg (by omega)]
            · cases hsl; rw [if_pos (by omega)]
        · split at hsl
          · cases hsl; rw [if_pos (by assumption)]
          · split at hsl
            · cases hsl; rw [if_neg (by assumption)]
            · cases hsl; rw [if_neg (by assumption)]
      · intro p b s k hk hc
        have := hw.nid.ltv p b s k hk
        omega
      · rw [g10, if_pos ⟨rfl, rfl, rfl⟩]
      · intro p b s hne
        rw [g10, if_neg]
        rintro ⟨rfl, rfl, rfl⟩; exact hne rfl
  · refine ⟨r, 0, addHook_invalid E r a hv, ?_, fun _ => rfl, fun _ h => absurd rfl h⟩
    simp only [true_iff]
    rintro ⟨h1, info, h2, h3⟩
    exact hv ⟨info, h1, h2, h3⟩

example : Reach Ex.E true Ex.mem Ex.r2 ∧ AddOk Ex.r2 Ex.a3 ∧ (Ex.a3.mode ≤ 2 ∧ ∃ info, Ex.a3.info = some info ∧ info.version ≠ -1) :=
  ⟨Ex.reach2, Ex.ok3, by decide, Ex.info1, rfl, by decide⟩

/-- C01: an id belongs to at most one registered hook. -/
theorem hook_ids_unique {E : Env} {c : Bool} {mem0 : Addr → Addr} {r : Reg} (h : Reach E c mem0 r)
    {p a p' a' : Addr} {s s' : Bool} {k k' : Hook} (h1 : k ∈ view r p a s) (h2 : k' ∈ view r p' a' s')
    (he : k.id = k'.id) : p = p' ∧ a = a' ∧ s = s' ∧ k = k' := by
  obtain ⟨hw, _⟩ := reach_inv h
  obtain ⟨e, q1, q2, q3, q4, _⟩ := hw.ids.entry p a s k h1
  obtain ⟨e', q1', q2', q3', q4', _⟩ := hw.ids.entry p' a' s' k' h2
  rw [he, q1'] at q1; cases q1
  refine ⟨q2.symm.trans q2', q3.symm.trans q3', q4.symm.trans q4', ?_⟩
  have e1 := q2.symm.trans q2'
  have e2 := q3.symm.trans q3'
  have e3 := q4.symm.trans q4'
  subst e1; subst e2; subst e3
  have f1 := find?_key' (key := Hook.id) (hw.ids.nodup p a s) h1 he
  rw [find?_key (hw.ids.nodup p a s) h2] at f1
  exact (Option.some.inj f1).symm

example : ∃ k k', k ∈ view Ex.r3 2008 1000 false ∧ k' ∈ view Ex.r3 2008 0 false ∧ k.id ≠ k'.id :=
  ⟨_, _, List.mem_cons_self .., List.mem_cons_self .., by decide⟩

/-- C01: registered ids are positive. -/
theorem hook_ids_positive {E : Env} {c : Bool} {mem0 : Addr → Addr} {r : Reg} (h : Reach E c mem0 r)
    {p a : Addr} {s : Bool} {k : Hook} (h1 : k ∈ view r p a s) : 0 < k.id := by
  obtain ⟨hw, _⟩ := reach_inv h
  obtain ⟨e, q1, _⟩ := hw.ids.entry p a s k h1
  unfold idQuery at q1
  split at q1
  · cases q1
  · omega

example : ∃ k, k ∈ view Ex.r3 2008 1000 false := ⟨_, List.mem_cons_self ..⟩

/-- Any number of further operations. -/
inductive Later (E : Env) : Reg → Reg → Prop
  | refl (r : Reg) : Later E r r
  | step {r r1 r2 : Reg} {op : RegOp} {x : Int} : Later E r r1 → OpOk r1 op → regStep E r1 op = .ok (r2, x) → Later E r r2
  | poke {r r1 : Reg} (a val : Addr) : Later E r r1 → (∀ v ∈ r1.vfns, v.ptr ≠ a) →
      Later E r { r1 with mem := upd r1.mem a val }

theorem later_inv {E : Env} {mem0 : Addr → Addr} {r r' : Reg} (hl : Later E r r') (hw : RegInv E mem0 r) :
    ∃ mem1, RegInv E mem1 r' := by
  induction hl with
  | refl => exact ⟨mem0, hw⟩
  | step _ hok hs ih =>
    obtain ⟨mem1, ih⟩ := ih
    obtain ⟨r2, x2, g1, g2, _⟩ := regStep_spec ih hok
    rw [hs] at g1; cases g1
    exact ⟨mem1, g2⟩
  | @poke r1 a val _ hna ih =>
    obtain ⟨mem1, hw⟩ := ih
    refine ⟨upd mem1 a val, ⟨⟨hw.s.vptr, hw.s.void, hw.s.vlt, hw.s.vi⟩, hw.ids, hw.nid, hw.ref.congr rfl rfl (fun _ _ => Iff.rfl),
      ⟨hw.att.hlt, hw.att.valid, hw.att.sub, hw.att.nodup, hw.att.perm, hw.att.sorted⟩, ?_⟩, hw.ne⟩
    refine ⟨?_, ?_, ?_, ?_⟩
    · intro v hv hk
      rw [hw.mem.orig v hv hk]; simp only [upd]; rw [if_neg (hna v hv)]
    · intro b hk hb
      simp only [upd]; split
      · rfl
      · exact hw.mem.other b hk hb
    · intro b hk
      simp only [upd]; split
      · rfl
      · exact hw.mem.frozen b hk
    · intro v hv hk o p q i h1 h2
      simp only [upd]; rw [if_neg (hna v hv)]
      exact hw.mem.served v hv hk o p q i h1 h2

/-- One operation: a hook present afterwards is an old hook, unchanged up to the paused flag, or
has a new node. -/
theorem effect_back {r r' : Reg} (he : Effect r r') {p a : Addr} {s : Bool} {k' : Hook} (hk : k' ∈ view r' p a s) :
    (∃ k ∈ view r p a s, k'.nid = k.nid ∧ k'.id = k.id ∧ k'.plug = k.plug ∧ k'.offs = k.offs ∧ k'.handler = k.handler) ∨
      r.next ≤ k'.nid := by
  cases he with
  | rem h => exact Or.inl ⟨k', (h.sub p a s).mem hk, rfl, rfl, rfl, rfl, rfl⟩
  | same h =>
    obtain ⟨f, hf, e⟩ := h.map p a s
    rw [e, List.mem_map] at hk
    obtain ⟨k, hk, rfl⟩ := hk
    exact Or.inl ⟨k, hk, hf k⟩
  | add b n id slot adj h1 h2 h3 h4 _ _ =>
    rw [h4] at hk
    split at hk
    · rcases List.mem_append.1 hk with hk | hk
      · exact Or.inl ⟨k', hk, rfl, rfl, rfl, rfl, rfl⟩
      · rw [List.mem_singleton] at hk; subst hk; exact Or.inr h1
    · exact Or.inl ⟨k', hk, rfl, rfl, rfl, rfl, rfl⟩

theorem regStep_next {E : Env} {mem0 : Addr → Addr} {r : Reg} (hw : RegInv E mem0 r) {op : RegOp} (hok : OpOk r op)
    {r' : Reg} {x : Int} (hs : regStep E r op = .ok (r', x)) : r.next ≤ r'.next := by
  cases op with
  | pauseId id b =>
    simp only [regStep] at hs
    cases hq : idQuery r.entries id with
    | none => rw [setHookPaused_none b hq] at hs; cases hs; exact Nat.le_refl _
    | some e =>
      obtain ⟨r'', g1, g2, g3, g4, g5⟩ := setHookPaused_spec hw b hq
      rw [g1] at hs; cases hs; exact Nat.le_of_eq g3.next.symm
  | pausePlugin plug b =>
    obtain ⟨g1, g2, g3, g4⟩ := setPluginPaused_spec plug b hw
    simp only [regStep] at hs; cases hs; exact Nat.le_of_eq g2.next.symm
  | add a =>
    by_cases hv : ∃ info, AddValid a info
    · obtain ⟨info, hv⟩ := hv
      rcases hsl : slotOf r.mem a.mode a.iface a.offs info with ⟨slot, adj⟩
      obtain ⟨r'', id, n, g1, g2, g3, g4, g5, g6, g7, g8, g9, g10, g11, g12⟩ := addHook_valid hw hok hv hsl
      simp only [regStep] at hs; rw [g1] at hs; cases hs; omega
    · simp only [regStep] at hs; rw [addHook_invalid E r a hv] at hs; cases hs; exact Nat.le_refl _
  | removeId id =>
    have := removeIds_remOk (E := E) [id] hw
    obtain ⟨r'', b, ns', k1, k2, k3, k4⟩ := this
    cases hx : removeHookById E r id with
    | error e => simp [removeIds, hx, bind, Except.bind] at k1
    | ok y =>
      simp [removeIds, hx, bind, Except.bind] at k1
      simp [regStep, hx, bind, Except.bind] at hs
      rw [← hs.1, k1.1]; exact k3.next
  | remove plug iface offs info h post =>
    obtain ⟨r'', b, ns, g1, g2, g3, g4, g5⟩ := removeHook_spec (E := E) hw plug iface offs info h post
    simp [regStep, g1, bind, Except.bind] at hs; rw [← hs.1]; exact g3.next
  | unload plug =>
    obtain ⟨r'', ns, g1, g2, g3, g4, g5⟩ := unloadReg_remOk (E := E) plug hw
    simp [regStep, g1, bind, Except.bind] at hs; rw [← hs.1]; exact g3.next
  | removeHm plug pub =>
    simp only [regStep] at hs
    unfold removeHookManager at hs
    split at hs
    · simp [bind, Except.bind] at hs; rw [← hs.1]; exact Nat.le_refl _
    · next h hf =>
      obtain ⟨r'', ns, g1, g2, g3, _⟩ := removeHookManO_remOk (E := E) h.oid hw
        (hasHm_of_mem (List.mem_of_find?_eq_some hf))
      simp [g1, bind, Except.bind] at hs; rw [← hs.1]; exact g3.next
  | shutdown =>
    obtain ⟨r'', b, ns, g1, g2, g3, g4⟩ := removeIds_remOk (E := E) (idFindAll r.entries) hw
    simp [regStep, shutdownReg, g1, bind, Except.bind] at hs; rw [← hs.1]; exact g3.next

theorem later_next {E : Env} {mem0 : Addr → Addr} {r r' : Reg} (hl : Later E r r') (hw : RegInv E mem0 r) :
    r.next ≤ r'.next := by
  induction hl with
  | refl => exact Nat.le_refl _
  | step hl hok hs ih =>
    obtain ⟨m, h1⟩ := later_inv hl hw
    exact Nat.le_trans ih (regStep_next h1 hok hs)
  | poke _ _ _ _ ih => exact ih

/-- C01: as long as a hook is registered - through any sequence of operations - it keeps its id,
slot, object, side, plugin, offset and handler.  (Together with `hook_ids_unique`: its id addresses
exactly it.)  Hooks are identified over time by their list node `nid`. -/
theorem hook_identity_stable {E : Env} {c : Bool} {mem0 : Addr → Addr} {r r' : Reg} (h : Reach E c mem0 r)
    (hl : Later E r r') {p a p' a' : Addr} {s s' : Bool} {k k' : Hook}
    (h1 : k ∈ view r p a s) (h2 : k' ∈ view r' p' a' s') (he : k.nid = k'.nid) :
    p = p' ∧ a = a' ∧ s = s' ∧ k.id = k'.id ∧ k.plug = k'.plug ∧ k.offs = k'.offs ∧ k.handler = k'.handler := by
  obtain ⟨hw, _⟩ := reach_inv h
  induction hl generalizing p' a' s' k' with
  | refl =>
    obtain ⟨e1, e2, e3, e4⟩ := hw.nid.uniq _ _ _ _ _ _ _ _ h1 h2 he
    subst e4; exact ⟨e1, e2, e3, rfl, rfl, rfl, rfl⟩
  | step hl hok hs ih =>
    obtain ⟨m, hw1⟩ := later_inv hl hw
    obtain ⟨r2, x2, g1, g2, g3, _⟩ := regStep_spec hw1 hok
    rw [hs] at g1; cases g1
    rcases effect_back g3 h2 with ⟨k1, hk1, e1, e2, e3, e4, e5⟩ | hlt
    · rw [e2, e3, e4, e5]
      exact ih hk1 (he.trans e1)
    · have := hw.nid.ltv p a s k h1
      have := later_next hl hw
      omega
  | poke _ _ _ _ ih => exact ih h2 he

example : ∃ k k', k ∈ view Ex.r2 2008 1000 false ∧ k' ∈ view Ex.r3 2008 1000 false ∧ k.nid = k'.nid ∧ Later Ex.E Ex.r2 Ex.r3 :=
  ⟨_, _, List.mem_cons_self .., List.mem_cons_self .., rfl, .step (op := .add Ex.a3) (x := 3) (.refl _) Ex.ok3 rfl⟩

/-- Finding: an id may be handed out again after its hook was removed, so a stale id can address a
different hook (`CHookIDManager::New` takes the first free entry). -/
theorem hook_id_reused : ∃ (r r' : Reg) (k k' : Hook), Reach Ex.E true Ex.mem r ∧ Later Ex.E r r' ∧
    k ∈ view r 2008 1000 false ∧ k' ∈ view r' 2008 0 false ∧ k.id = k'.id ∧ k.nid ≠ k'.nid := by
  refine ⟨Ex.r1, Ex.run (Ex.run Ex.r1 (.removeId 1)) (.add Ex.a2), _, _, Ex.reach1,
    .step (op := .add Ex.a2) (x := 1) (.step (op := .removeId 1) (x := 1) (.refl _) trivial rfl) ?_ rfl,
    List.mem_cons_self .., List.mem_cons_self .., rfl, by decide⟩
  intro h hh he
  have : (h.plug, h.pub) ∈ (Ex.run Ex.r1 (.removeId 1)).hms.map (fun h => (h.plug, h.pub)) := List.mem_map.2 ⟨h, hh, rfl⟩
  have e : (Ex.run Ex.r1 (.removeId 1)).hms.map (fun h => (h.plug, h.pub)) = [(1, 1)] := rfl
  rw [e] at this
  simp at this
  rw [this.2] at he; cases he

/-! ### C02 -/

/-- C02: `RemoveHookByID(id)` returns true exactly for ids of registered hooks; then exactly that
hook is gone, everything else is untouched and exactly its handler was deleted.  Otherwise nothing
changes at all. -/
theorem removeHookById_exact {E : Env} {c : Bool} {mem0 : Addr → Addr} {r : Reg} (h : Reach E c mem0 r) (id : Int) :
    ∃ r' b ns, removeHookById E r id = .ok (r', b, ns) ∧
      (b = true ↔ ∃ p a s, ∃ k ∈ view r p a s, k.id = id) ∧
      (b = false → r' = r ∧ ns = []) ∧
      (∀ p a s, view r' p a s = (view r p a s).filter (fun k => k.id ≠ id)) ∧
      (∀ p a s, ∀ k ∈ view r p a s, k.id = id → r'.deleted = k.nid :: r.deleted) := by
  obtain ⟨hw, _⟩ := reach_inv h
  cases hq : idQuery r.entries id with
  | none =>
    have hno : ∀ p a s, ∀ k ∈ view r p a s, k.id ≠ id := by
      intro p a s k hk hc
      obtain ⟨e, q1, _⟩ := hw.ids.entry p a s k hk
      rw [hc, hq] at q1; cases q1
    refine ⟨r, false, [], removeHookById_none E hq, ?_, fun _ => ⟨rfl, rfl⟩, ?_, ?_⟩
    · constructor
      · intro h; cases h
      · rintro ⟨p, a, s, k, hk, hc⟩; exact absurd hc (hno p a s k hk)
    · intro p a s
      symm
      rw [List.filter_eq_self]
      intro k hk; simpa using hno p a s k hk
    · intro p a s k hk hc; exact absurd hc (hno p a s k hk)
  | some e =>
    obtain ⟨r', ns, k, g1, g2, g3, g4, g5, g6, g7, g8, g9, g10⟩ := removeHookById_spec hw hq
    refine ⟨r', true, ns, g1, ?_, ?_, ?_, ?_⟩
    · simp only [true_iff]; exact ⟨_, _, _, k, g3, g4⟩
    · intro h; cases h
    · intro p a s
      rw [g5]; unfold dropId
      apply List.filter_congr
      intro k hk
      by_cases hc : k.id = id <;> simp [hc]
    · intro p a s k' hk' hc
      rw [g7]
      obtain ⟨_, _, _, e4⟩ := hook_ids_unique h hk' g3 (hc.trans g4.symm)
      rw [e4]

example : ∃ p a s, ∃ k ∈ view Ex.r3 p a s, k.id = 3 :=
  ⟨2008, 1000, false, _, List.mem_cons_of_mem _ (List.mem_cons_self ..), rfl⟩

/-- C02: after a successful removal the id is unknown: a second removal reports false. -/
theorem removeHookById_again {E : Env} {c : Bool} {mem0 : Addr → Addr} {r r' : Reg} (h : Reach E c mem0 r) (id : Int)
    {b : Bool} {ns : List Note} (hr : removeHookById E r id = .ok (r', b, ns)) :
    removeHookById E r' id = .ok (r', false, []) := by
  obtain ⟨hw, _⟩ := reach_inv h
  cases hq : idQuery r.entries id with
  | none =>
    rw [removeHookById_none E hq] at hr; cases hr
    exact removeHookById_none E hq
  | some e =>
    obtain ⟨r2, ns, k, g1, g2, g3, g4, g5, g6, g7, g8, g9, g10⟩ := removeHookById_spec hw hq
    rw [g1] at hr; cases hr
    exact removeHookById_none E (by rw [g6, if_pos rfl])

example : ∃ r' ns, removeHookById Ex.E Ex.r3 3 = .ok (r', true, ns) := ⟨_, _, rfl⟩

/-! ### C07 (registry part) -/

/-- C07: (Un)PauseHookByID return true exactly for registered ids and change only that hook's
paused flag. -/
theorem setHookPaused_exact {E : Env} {c : Bool} {mem0 : Addr → Addr} {r : Reg} (h : Reach E c mem0 r) (id : Int) (b : Bool) :
    ((setHookPaused r id b).2 = true ↔ ∃ p a s, ∃ k ∈ view r p a s, k.id = id) ∧
    ((setHookPaused r id b).2 = false → (setHookPaused r id b).1 = r) ∧
    (∀ p a s, view (setHookPaused r id b).1 p a s =
      (view r p a s).map fun k => if k.id = id then { k with paused := b } else k) ∧
    (setHookPaused r id b).1.mem = r.mem ∧ (setHookPaused r id b).1.deleted = r.deleted := by
  obtain ⟨hw, _⟩ := reach_inv h
  cases hq : idQuery r.entries id with
  | none =>
    rw [setHookPaused_none b hq]
    have hno : ∀ p a s, ∀ k ∈ view r p a s, k.id ≠ id := by
      intro p a s k hk hc
      obtain ⟨e, q1, _⟩ := hw.ids.entry p a s k hk
      rw [hc, hq] at q1; cases q1
    refine ⟨?_, fun _ => rfl, ?_, rfl, rfl⟩
    · constructor
      · intro h; cases h
      · rintro ⟨p, a, s, k, hk, hc⟩; exact absurd hc (hno p a s k hk)
    · intro p a s
      symm
      refine (List.map_congr_left (g := fun k => k) ?_).trans (List.map_id' _)
      intro k hk
      rw [if_neg (hno p a s k hk)]
  | some e =>
    obtain ⟨r', g1, g2, g3, g4, g5⟩ := setHookPaused_spec hw b hq
    rw [g1]
    obtain ⟨k, hk1, hk2⟩ := hw.ids.hook id e hq
    refine ⟨?_, (by intro h; cases h), ?_, g3.mem, g3.deleted⟩
    · simp only [true_iff]; exact ⟨_, _, _, k, hk1, hk2⟩
    · intro p a s
      show view r' p a s = _
      rw [g5]; unfold pauseV
      apply List.map_congr_left
      intro k hk
      unfold pauseIf
      by_cases hc : k.id = id <;> simp [hc]

example : (setHookPaused Ex.r3 2 true).2 = true := rfl

/-- C07: (Un)PausePlugin sets the flag of all and only the plugin's hooks. -/
theorem setPluginPaused_exact {E : Env} {c : Bool} {mem0 : Addr → Addr} {r : Reg} (h : Reach E c mem0 r) (plug : Plugin) (b : Bool) :
    (∀ p a s, view (setPluginPaused r plug b) p a s =
      (view r p a s).map fun k => if k.plug = plug then { k with paused := b } else k) ∧
    (setPluginPaused r plug b).mem = r.mem ∧ (setPluginPaused r plug b).deleted = r.deleted := by
  obtain ⟨hw, _⟩ := reach_inv h
  obtain ⟨g1, g2, g3, g4⟩ := setPluginPaused_spec plug b hw
  refine ⟨?_, g2.mem, g2.deleted⟩
  intro p a s
  rw [g4]; unfold pauseV
  apply List.map_congr_left
  intro k hk
  unfold pauseIf
  by_cases hc : k.plug = plug <;> simp [hc]

example : (view (setPluginPaused Ex.r3 1 true) 2008 1000 false).map Hook.paused = [true, true] ∧
    (view (setPluginPaused Ex.r3 1 true) 2008 0 false).map Hook.paused = [false] := ⟨rfl, rfl⟩

/-- C07: pausing twice equals pausing once, and a later opposite call wins: what hooks are
registered after two calls is what the last one says. -/
theorem setHookPaused_last_wins {E : Env} {c : Bool} {mem0 : Addr → Addr} {r : Reg} (h : Reach E c mem0 r) (id : Int)
    (b b' : Bool) (p a : Addr) (s : Bool) :
    view (setHookPaused (setHookPaused r id b).1 id b').1 p a s = view (setHookPaused r id b').1 p a s := by
  have h' : Reach E (c && true) mem0 (setHookPaused r id b).1 :=
    .step (op := .pauseId id b) (x := b2i (setHookPaused r id b).2) h trivial rfl
  rw [(setHookPaused_exact h' id b').2.2.1, (setHookPaused_exact h id b).2.2.1,
    (setHookPaused_exact h id b').2.2.1, List.map_map]
  apply List.map_congr_left
  intro k _
  simp only [Function.comp]
  by_cases hc : k.id = id <;> simp [hc]

example : Reach Ex.E true Ex.mem Ex.r3 := Ex.reach3

/-! ### C08 -/

/-- C08: a slot that can be written and restored holds the hook function of a hook manager exactly
while a hook is registered on it, and otherwise the value it has without SourceHook. -/
theorem slot_patched_iff_hooked {E : Env} {c : Bool} {mem0 : Addr → Addr} {r : Reg} (h : Reach E c mem0 r)
    (p : Addr) (hwr : E.writable p = true) (him : E.inMemory p = true) :
    ((∃ a s, view r p a s ≠ []) → ∃ m ∈ r.hms, r.mem p = m.info.hookfunc ∧ getOrigEntry r p = mem0 p) ∧
    ((∀ a s, view r p a s = []) → r.mem p = mem0 p ∧ getOrigEntry r p = 0) := by
  obtain ⟨hw, _⟩ := reach_inv h
  constructor
  · rintro ⟨a, s, hne⟩
    cases hf : r.vfns.find? (·.ptr == p) with
    | none => exact absurd (by unfold view; rw [hf]) hne
    | some v =>
      obtain ⟨h1, h2⟩ := find?_key_some hf
      subst h2
      obtain ⟨_, n2, _⟩ := hw.ne v h1
      cases hh : v.hms with
      | nil => exact absurd hh n2
      | cons o os =>
        obtain ⟨x, y, z, hx⟩ := hw.att.sub v h1 o (by rw [hh]; exact List.mem_cons_self ..)
        have hserv := hw.mem.served v h1 hwr o x y z (by rw [hh]; rfl) hx
        obtain ⟨m, m1, m2, m3, m4, m5⟩ := hx
        refine ⟨m, m1, by rw [hserv, m5], ?_⟩
        unfold getOrigEntry
        rw [hf]
        exact hw.mem.orig v h1 (fun _ => him)
  · intro hall
    have hno : ∀ v ∈ r.vfns, v.ptr ≠ p := by
      rintro v hv rfl
      obtain ⟨i, hi, s, k, hk⟩ := RegInv.someHook hw hv
      have := view_intro hw.s hv hi hk
      rw [hall] at this; cases this
    refine ⟨hw.mem.other p (fun _ => him) hno, ?_⟩
    unfold getOrigEntry
    rw [List.find?_eq_none.2 (by intro x hx; simpa using hno x hx)]

example : (∃ a s, view Ex.r3 2008 a s ≠ []) ∧ Ex.E.writable 2008 = true ∧ Ex.E.inMemory 2008 = true :=
  ⟨⟨0, false, by decide⟩, rfl, rfl⟩

/-- C08: all other memory words are never changed; words that cannot be made writable neither. -/
theorem other_memory_untouched {E : Env} {c : Bool} {mem0 : Addr → Addr} {r : Reg} (h : Reach E c mem0 r) (a : Addr) :
    (E.writable a = false → r.mem a = mem0 a) ∧
    (E.inMemory a = true → (∀ b s, view r a b s = []) → r.mem a = mem0 a) := by
  obtain ⟨hw, _⟩ := reach_inv h
  refine ⟨hw.mem.frozen a, ?_⟩
  intro him hall
  by_cases hwr : E.writable a = true
  · exact ((slot_patched_iff_hooked h a hwr him).2 hall).1
  · exact hw.mem.frozen a (by simpa using hwr)

example : Ex.E.inMemory 2016 = true ∧ view Ex.r3 2016 0 false = [] := ⟨rfl, rfl⟩

/-! ### C09 -/

/-- C09: the slot holds the hook function of the attached manager with the highest version, and
among those with that version of the one offered first (`v.offers` lists the attached managers in
the order they were offered, see `offers_after_add` / `offers_after_other`). -/
theorem best_manager_serves {E : Env} {c : Bool} {mem0 : Addr → Addr} {r : Reg} (h : Reach E c mem0 r)
    {v : Vfn} (hv : v ∈ r.vfns) :
    ∃ m ∈ r.hms, m.oid ∈ v.offers ∧ (E.writable v.ptr = true → r.mem v.ptr = m.info.hookfunc) ∧
      ∀ m' ∈ r.hms, m'.oid ∈ v.offers → m' = m ∨ m'.info.version < m.info.version ∨
        (m'.info.version = m.info.version ∧ [m.oid, m'.oid].Sublist v.offers) := by
  obtain ⟨hw, _⟩ := reach_inv h
  obtain ⟨_, n2, _⟩ := hw.ne v hv
  have hp := hw.att.perm v hv
  cases hh : v.hms with
  | nil => exact absurd hh n2
  | cons o os =>
    obtain ⟨x, y, z, hx⟩ := hw.att.sub v hv o (by rw [hh]; exact List.mem_cons_self ..)
    obtain ⟨m, m1, m2, m3, m4, m5⟩ := hx
    subst m2
    refine ⟨m, m1, hp.mem_iff.1 (by rw [hh]; exact List.mem_cons_self ..), ?_, ?_⟩
    · intro hwr
      exact hw.mem.served v hv hwr m.oid m.plug m.pub m.info (by rw [hh]; rfl) (hasHm_of_mem m1)
    · intro m' hm' hin
      have hin' := hp.mem_iff.2 hin
      rw [hh] at hin'
      rcases List.mem_cons.1 hin' with he | hos
      · have f1 := find?_key' (key := HookMan.oid) hw.ref.oid hm' he
        rw [find?_key hw.ref.oid m1] at f1
        exact Or.inl (Option.some.inj f1).symm
      · have hs := hw.att.sorted v hv
        rw [hh, List.pairwise_cons] at hs
        exact Or.inr (hs.1 m'.oid hos _ _ _ _ _ _ (hasHm_of_mem m1) (hasHm_of_mem hm'))

/-- Two managers with versions 5 and 6: the slot holds the hook function of the second. -/
example : Ex.r3.vfns.map Vfn.offers = [[1, 4]] ∧ Ex.r3.hms.map (fun m => (m.oid, m.info.version)) = [(1, 5), (4, 6)] ∧
    Ex.r3.mem 2008 = 600 := ⟨rfl, rfl, rfl⟩

/-! ### C10 -/

/-- C10: a manager is stored in its public function exactly while it serves some slot, and its own
list contains exactly the slots it serves (each once). -/
theorem manager_stored_iff_serving {E : Env} {c : Bool} {mem0 : Addr → Addr} {r : Reg} (h : Reach E c mem0 r)
    {m : HookMan} (hm : m ∈ r.hms) :
    (r.stored m.pub = some m.oid ↔ ∃ v ∈ r.vfns, v.hms.head? = some m.oid) ∧
    (r.stored m.pub = none ↔ ∀ v ∈ r.vfns, v.hms.head? ≠ some m.oid) ∧
    (∀ o, o ∈ m.vfns ↔ ∃ v ∈ r.vfns, v.oid = o ∧ v.hms.head? = some m.oid) ∧ m.vfns.Nodup := by
  obtain ⟨hw, _⟩ := reach_inv h
  have hst := hw.ref.stored m hm
  have hmem := hw.ref.mem m hm
  have hiff : m.vfns = [] ↔ ∀ v ∈ r.vfns, v.hms.head? ≠ some m.oid := by
    constructor
    · intro he v hv hc
      have : v.oid ∈ m.vfns := (hmem v.oid).2 ⟨v, hv, rfl, hc⟩
      rw [he] at this; cases this
    · intro hall
      rw [List.eq_nil_iff_forall_not_mem]
      intro o ho
      obtain ⟨v, hv, _, hc⟩ := (hmem o).1 ho
      exact hall v hv hc
  refine ⟨?_, ?_, hmem, hw.ref.nodup m hm⟩
  · rw [hst]
    by_cases he : m.vfns = []
    · rw [if_pos he]
      constructor
      · intro h; cases h
      · rintro ⟨v, hv, hc⟩; exact absurd hc (hiff.1 he v hv)
    · rw [if_neg he]
      simp only [true_iff]
      obtain ⟨o, ho⟩ := List.exists_mem_of_ne_nil _ he
      obtain ⟨v, hv, _, hc⟩ := (hmem o).1 ho
      exact ⟨v, hv, hc⟩
  · rw [hst]
    by_cases he : m.vfns = []
    · rw [if_pos he]; exact ⟨fun _ => hiff.1 he, fun _ => rfl⟩
    · rw [if_neg he]
      constructor
      · intro h; cases h
      · intro hall; exact absurd (hiff.2 hall) he

/-- C10: for every hooked slot there is a manager whose hook function the slot holds, which is
stored in its public function and knows the slot: a call through the slot finds its record. -/
theorem hooked_slot_has_record {E : Env} {c : Bool} {mem0 : Addr → Addr} {r : Reg} (h : Reach E c mem0 r)
    {p a : Addr} {s : Bool} (hne : view r p a s ≠ []) (hwr : E.writable p = true) :
    ∃ m ∈ r.hms, ∃ v ∈ r.vfns, v.ptr = p ∧ r.mem p = m.info.hookfunc ∧ r.stored m.pub = some m.oid ∧ v.oid ∈ m.vfns := by
  obtain ⟨hw, _⟩ := reach_inv h
  cases hf : r.vfns.find? (·.ptr == p) with
  | none => exact absurd (by unfold view; rw [hf]) hne
  | some v =>
    obtain ⟨h1, h2⟩ := find?_key_some hf
    subst h2
    obtain ⟨_, n2, _⟩ := hw.ne v h1
    cases hh : v.hms with
    | nil => exact absurd hh n2
    | cons o os =>
      obtain ⟨x, y, z, hx⟩ := hw.att.sub v h1 o (by rw [hh]; exact List.mem_cons_self ..)
      have hserv := hw.mem.served v h1 hwr o x y z (by rw [hh]; rfl) hx
      obtain ⟨m, m1, m2, m3, m4, m5⟩ := hx
      subst m2
      have hk := manager_stored_iff_serving h m1
      exact ⟨m, m1, v, h1, rfl, by rw [hserv, m5], hk.1.2 ⟨v, h1, by rw [hh]; rfl⟩,
        (hk.2.2.1 v.oid).2 ⟨v, h1, rfl, by rw [hh]; rfl⟩⟩

example : view Ex.r3 2008 0 false ≠ [] ∧ Ex.E.writable 2008 = true := ⟨by decide, rfl⟩

/-- Two plugins adding hooks on different slots (2008 and 3008) with the same public function. -/
def exShared : Reg := Ex.run (Ex.run Ex.r0 (.add Ex.a1)) (.add ⟨2, 0, 1200, 0, 1, some Ex.info1, ⟨12, 12⟩, false⟩)

/-- Finding (C10 without the contract `AddOk`): when two plugins use the same public function (as
plugins sharing a generated hook manager do, see C49), the public function remembers only the last
registered manager, which does not know the slot hooked by the other plugin: the slot 2008 holds
the hook function but the stored manager has no record for it. -/
theorem shared_pubfunc_loses_record :
    exShared.mem 2008 = Ex.info1.hookfunc ∧ (view exShared 2008 1000 false).length = 1 ∧
    (∃ m ∈ exShared.hms, exShared.stored 1 = some m.oid ∧ ∀ v ∈ exShared.vfns, v.ptr = 2008 → v.oid ∉ m.vfns) := by
  refine ⟨rfl, rfl, _, List.mem_cons_of_mem _ (List.mem_cons_self ..), rfl, ?_⟩
  decide

/-! ### C13 -/

/-- C13: after `UnloadPlugin(p)` no hook and no hook manager of `p` is left, and the hooks of other
plugins are exactly as before - provided `RemoveHookManager` was never called explicitly. -/
theorem unload_removes_exactly_own_partial {E : Env} {mem0 : Addr → Addr} {r : Reg} (h : Reach E true mem0 r) (plug : Plugin) :
    ∃ r' ns, unloadReg E r plug = .ok (r', ns) ∧
      (∀ p a s, view r' p a s = (view r p a s).filter (fun k => k.plug ≠ plug)) ∧
      (∀ m ∈ r'.hms, m.plug ≠ plug) ∧
      (∀ o a b c, a ≠ plug → (HasHm r' o a b c ↔ HasHm r o a b c)) := by
  obtain ⟨hw, hown⟩ := reach_inv h
  obtain ⟨r', ns, g1, g2, g3, g4, g5, g6, _⟩ := unloadReg_spec (E := E) plug hw (hown rfl)
  refine ⟨r', ns, g1, ?_, ?_, ?_⟩
  · intro p a s; rw [g4]; rfl
  · intro m hm; exact ((g6 _ _ _ _).1 (hasHm_of_mem hm)).2
  · intro o a b c ha; rw [g6]; exact ⟨fun h => h.1, fun h => ⟨h, ha⟩⟩

example : (view Ex.r3 2008 1000 false).map Hook.plug = [1, 1] ∧ (view Ex.r3 2008 0 false).map Hook.plug = [2] := ⟨rfl, rfl⟩

/-- C13, the part that holds in every reachable state: after `UnloadPlugin(p)` nothing of `p` is
left, and no hook appears or changes. -/
theorem unload_removes_all {E : Env} {c : Bool} {mem0 : Addr → Addr} {r : Reg} (h : Reach E c mem0 r) (plug : Plugin) :
    ∃ r' ns, unloadReg E r plug = .ok (r', ns) ∧ (∀ m ∈ r'.hms, m.plug ≠ plug) ∧
      (∀ p a s, ∀ k ∈ view r' p a s, k.plug ≠ plug) ∧ (∀ p a s, (view r' p a s).Sublist (view r p a s)) := by
  obtain ⟨hw, hown⟩ := reach_inv h
  obtain ⟨r', ns, g1, g2, g3, g4, g5⟩ := unloadReg_remOk (E := E) plug hw
  refine ⟨r', ns, g1, ?_, g5, g3.sub⟩
  intro m hm; exact ((g4 _ _ _ _).1 (hasHm_of_mem hm)).2

example : Reach Ex.E true Ex.mem Ex.r3 := Ex.reach3

/-- `RemoveHookManager` by plugin 1, whose hooks on slot 2008 stay because plugin 2 serves it too. -/
def exRmHm : Reg := Ex.run Ex.r3 (.removeHm 1 1)

/-- Finding (C13 fails after an explicit `RemoveHookManager`): plugin 1 removes its hook manager, its
hooks stay registered on the slot served by plugin 2; unloading plugin 2 then deletes plugin 1's hooks. -/
theorem unload_removes_others_hooks : Reach Ex.E false Ex.mem exRmHm ∧
    (view exRmHm 2008 1000 false).map Hook.plug = [1, 1] ∧
    ∃ r' ns, unloadReg Ex.E exRmHm 2 = .ok (r', ns) ∧ view r' 2008 1000 false = [] :=
  ⟨.step (op := .removeHm 1 1) (x := 0) Ex.reach3 trivial rfl, rfl, _, _, rfl, rfl⟩

/-! ### C17 -/

/-- C17: in one operation the handlers that are deleted (`DeleteThis`) are exactly those of the hooks
that disappear; no handler is ever deleted twice. -/
theorem handlers_deleted_exactly_once {E : Env} {c : Bool} {mem0 : Addr → Addr} {r r' : Reg} (h : Reach E c mem0 r)
    {op : RegOp} (hok : OpOk r op) {x : Int} (hs : regStep E r op = .ok (r', x)) :
    ∃ D, r'.deleted = D ++ r.deleted ∧ r'.deleted.Nodup ∧ (∀ n, n ∈ D ↔ Live r n ∧ ¬ Live r' n) ∧
      (∀ n, Live r' n → n ∉ r'.deleted) := by
  obtain ⟨hw, hown⟩ := reach_inv h
  obtain ⟨r2, x2, g1, g2, g3, _⟩ := regStep_spec hw hok
  rw [hs] at g1; cases g1
  have hlive : ∀ n, Live r' n → n ∉ r'.deleted := by
    rintro n ⟨p, a, s, k, hk, rfl⟩; exact g2.nid.live p a s k hk
  cases g3 with
  | rem hr =>
    obtain ⟨D, d1, d2, d3⟩ := hr.del
    refine ⟨D, d1, g2.nid.nodup, ?_, hlive⟩
    intro n
    constructor
    · intro hn; exact ⟨d2 n hn, fun hl => hlive n hl (by rw [d1]; exact List.mem_append_left _ hn)⟩
    · rintro ⟨h1, h2⟩; exact (d3 n h1).resolve_right h2
  | same hr =>
    refine ⟨[], hr.deleted, g2.nid.nodup, ?_, hlive⟩
    intro n
    constructor
    · intro h; cases h
    · rintro ⟨⟨p, a, s, k, hk, rfl⟩, h2⟩
      obtain ⟨f, hf, e⟩ := hr.map p a s
      exact absurd ⟨p, a, s, f k, by rw [e]; exact List.mem_map.2 ⟨k, hk, rfl⟩, (hf k).1⟩ h2
  | add a n id slot adj k1 k2 k3 k4 _ _ =>
    refine ⟨[], k3, g2.nid.nodup, ?_, hlive⟩
    intro n
    constructor
    · intro h; cases h
    · rintro ⟨⟨p, b, s, k, hk, rfl⟩, h2⟩
      refine absurd ⟨p, b, s, k, ?_, rfl⟩ h2
      rw [k4]; split
      · exact List.mem_append_left _ hk
      · exact hk

/-- Unloading plugin 1 deletes the handlers of its two hooks. -/
example : ∃ r' x, regStep Ex.E Ex.r3 (.unload 1) = .ok (r', x) ∧ r'.deleted.length = 2 := ⟨_, _, rfl, rfl⟩

theorem reach_later {E : Env} {c : Bool} {mem0 : Addr → Addr} {r r' : Reg} (h : Reach E c mem0 r) (hl : Later E r r') :
    ∃ c' mem1, Reach E c' mem1 r' := by
  induction hl with
  | refl => exact ⟨c, mem0, h⟩
  | step _ hok hs ih => obtain ⟨c', m, ih⟩ := ih; exact ⟨_, m, .step ih hok hs⟩
  | poke a val _ hna ih => obtain ⟨c', m, ih⟩ := ih; exact ⟨_, _, .poke a val ih hna⟩

/-- C17: over a whole execution, the handler of a hook that was once registered has been deleted
exactly once if the hook is gone, and not at all while it is registered. -/
theorem handler_deleted_iff_gone {E : Env} {c : Bool} {mem0 : Addr → Addr} {r r' : Reg} (h : Reach E c mem0 r)
    (hl : Later E r r') {n : Nat} (hn : Live r n) :
    (Live r' n → r'.deleted.count n = 0) ∧ (¬ Live r' n → r'.deleted.count n = 1) := by
  have key : r'.deleted.Nodup ∧ (n ∈ r'.deleted ↔ ¬ Live r' n) := by
    induction hl with
    | refl =>
      obtain ⟨hw, _⟩ := reach_inv h
      refine ⟨hw.nid.nodup, ?_⟩
      constructor
      · intro hc
        obtain ⟨p, a, s, k, hk, rfl⟩ := hn
        exact absurd hc (hw.nid.live p a s k hk)
      · intro hc; exact absurd hn hc
    | @step r1 r2 op x hl hok hs ih =>
      obtain ⟨c', m, h'⟩ := reach_later h hl
      obtain ⟨D, d1, d2, d3, d4⟩ := handlers_deleted_exactly_once h' hok hs
      refine ⟨d2, ?_⟩
      constructor
      · intro hc hlive; exact d4 n hlive hc
      · intro hc
        rw [d1, List.mem_append, d3]
        by_cases h1 : n ∈ r1.deleted
        · exact Or.inr h1
        · exact Or.inl ⟨Classical.not_not.1 (fun h2 => h1 (ih.2.2 h2)), hc⟩
    | poke a val _ hna ih => exact ih
  constructor
  · intro hlv
    exact List.count_eq_zero.2 (fun hc => key.2.1 hc hlv)
  · intro hlv
    rw [key.1.count, if_pos (key.2.2 hlv)]

example : Live Ex.r2 3 ∧ Live Ex.r3 3 :=
  ⟨⟨2008, 1000, false, _, List.mem_cons_self .., rfl⟩, ⟨2008, 1000, false, _, List.mem_cons_self .., rfl⟩⟩

/-! ### C19 -/

/-- The function description (prototype, vtable offset and index) recorded for a hook id. -/
def descOf (r : Reg) (id : Int) : Option (Proto × Int × Int) :=
  (idQuery r.entries id).map fun e => (e.proto, e.vtblOffs, e.vtblIdx)

/-- The description recorded for a new hook is the one its hook manager reported. -/
theorem desc_recorded {E : Env} {c : Bool} {mem0 : Addr → Addr} {r r' : Reg} (h : Reach E c mem0 r) {a : AddArgs}
    (hok : AddOk r a) {info : Info} (hinfo : a.info = some info) {id : Int} (hs : addHook E r a = .ok (r', id)) (hid : id ≠ 0) :
    descOf r' id = some (info.proto, info.vtblOffs, info.vtblIdx) := by
  obtain ⟨hw, _⟩ := reach_inv h
  by_cases hv : ∃ info, AddValid a info
  · obtain ⟨info', hv⟩ := hv
    have := hv.2.1
    rw [hinfo] at this; cases this
    rcases hsl : slotOf r.mem a.mode a.iface a.offs info with ⟨slot, adj⟩
    obtain ⟨r2, id2, n, g1, g2, g3, g4, ⟨e, q⟩, _⟩ := addHook_valid hw hok hv hsl
    rw [hs] at g1; cases g1
    unfold descOf
    rw [q.1]
    obtain ⟨_, _, _, _, _, _, _, q1, q2, q3⟩ := q
    simp [q1, q2, q3]
  · rw [addHook_invalid E r a hv] at hs; cases hs; exact absurd rfl hid

example : ∃ r', addHook Ex.E Ex.r2 Ex.a3 = .ok (r', 3) := ⟨_, rfl⟩

/-- The description recorded for a hook never changes while the hook is registered. -/
theorem desc_stable {E : Env} {c : Bool} {mem0 : Addr → Addr} {r r' : Reg} (h : Reach E c mem0 r)
    (hl : Later E r r') {p a p' a' : Addr} {s s' : Bool} {k k' : Hook}
    (h1 : k ∈ view r p a s) (h2 : k' ∈ view r' p' a' s') (he : k.nid = k'.nid) :
    descOf r' k'.id = descOf r k.id := by
  obtain ⟨hw, _⟩ := reach_inv h
  induction hl generalizing p' a' s' k' with
  | refl =>
    obtain ⟨e1, e2, e3, e4⟩ := hw.nid.uniq _ _ _ _ _ _ _ _ h1 h2 he
    subst e4; rfl
  | @step r1 r2 op x hl hok hs ih =>
    obtain ⟨m, hw1⟩ := later_inv hl hw
    obtain ⟨r3, x3, g1, g2, g3, _⟩ := regStep_spec hw1 hok
    rw [hs] at g1; cases g1
    rcases effect_back g3 h2 with ⟨k1, hk1, e1, e2, e3, e4, e5⟩ | hlt
    · rw [← ih hk1 (he.trans e1), e2]
      obtain ⟨e, q1, _⟩ := g2.ids.entry _ _ _ _ h2
      rw [e2] at q1
      obtain ⟨e', q1', _⟩ := hw1.ids.entry _ _ _ _ hk1
      unfold descOf
      cases g3 with
      | rem hr => rw [hr.ids _ _ q1, q1]
      | same hr => rw [hr.entries]
      | add b n id slot adj u1 u2 u3 u4 u5 u6 =>
        rw [u6]
        intro hc; rw [hc, u5] at q1'; cases q1'
    · have := hw.nid.ltv p a s k h1
      have := later_next hl hw
      omega
  | poke _ _ _ _ ih => exact ih h2 he

example : ∃ k k', k ∈ view Ex.r2 2008 1000 false ∧ k' ∈ view Ex.r3 2008 1000 false ∧ k.nid = k'.nid ∧ Later Ex.E Ex.r2 Ex.r3 :=
  ⟨_, _, List.mem_cons_self .., List.mem_cons_self .., rfl, .step (op := .add Ex.a3) (x := 3) (.refl _) Ex.ok3 rfl⟩

/-- Specification: hook `k` on object `a`, side `s`, is what `RemoveHook` was asked to remove. -/
structure MatchesRemove (r : Reg) (plug : Plugin) (iface offs : Int) (info : Option Info) (h : Handler) (post : Bool)
    (a : Addr) (s : Bool) (k : Hook) : Prop where
  desc : ∃ i d, info = some i ∧ descOf r k.id = some d ∧ d.1.eqb i.proto = true ∧ d.2.1 = i.vtblOffs ∧ d.2.2 = i.vtblIdx
  obj : a = iface + offs
  plug : k.plug = plug
  offs : k.offs = offs
  handler : k.handler.key = h.key
  side : s = post

/-- C19: `RemoveHook` removes exactly the matching hooks and returns true iff there was one. -/
theorem removeHook_exact {E : Env} {c : Bool} {mem0 : Addr → Addr} {r : Reg} (hr : Reach E c mem0 r)
    (plug : Plugin) (iface offs : Int) (info : Option Info) (h : Handler) (post : Bool) :
    ∃ r' b ns, removeHook E r plug iface offs info h post = .ok (r', b, ns) ∧
      (b = true ↔ ∃ p a s, ∃ k ∈ view r p a s, MatchesRemove r plug iface offs info h post a s k) ∧
      (∀ p a s k, k ∈ view r' p a s ↔ k ∈ view r p a s ∧ ¬ MatchesRemove r plug iface offs info h post a s k) ∧
      (∀ p a s, (view r' p a s).Sublist (view r p a s)) := by
  obtain ⟨hw, _⟩ := reach_inv hr
  have triv : (∀ p a s k, k ∈ view r p a s → ¬ MatchesRemove r plug iface offs info h post a s k) →
      removeHook E r plug iface offs info h post = .ok (r, false, []) →
      ∃ r' b ns, removeHook E r plug iface offs info h post = .ok (r', b, ns) ∧
      (b = true ↔ ∃ p a s, ∃ k ∈ view r p a s, MatchesRemove r plug iface offs info h post a s k) ∧
      (∀ p a s k, k ∈ view r' p a s ↔ k ∈ view r p a s ∧ ¬ MatchesRemove r plug iface offs info h post a s k) ∧
      (∀ p a s, (view r' p a s).Sublist (view r p a s)) := by
    intro hno he
    refine ⟨r, false, [], he, ?_, ?_, fun _ _ _ => List.Sublist.refl _⟩
    · constructor
      · intro h; cases h
      · rintro ⟨p, a, s, k, hk, hm⟩; exact absurd hm (hno p a s k hk)
    · intro p a s k; exact ⟨fun hk => ⟨hk, hno p a s k hk⟩, fun h => h.1⟩
  cases info with
  | none =>
    refine triv ?_ rfl
    rintro p a s k _ ⟨⟨i, d, hc, _⟩, _⟩; cases hc
  | some info =>
    have hiff : ∀ p a s, ∀ k ∈ view r p a s,
        (k.id ∈ idFindMatch r.entries info.proto info.vtblOffs info.vtblIdx (iface + offs) plug offs h post ↔
          MatchesRemove r plug iface offs (some info) h post a s k) := by
      intro p a s k hk
      obtain ⟨e, q1, q2, q3, q4, q5, q6, q7⟩ := hw.ids.entry p a s k hk
      rw [mem_idFindMatch]
      constructor
      · rintro ⟨e', u1, u2, u3, u4, u5, u6, u7, u8, u9⟩
        rw [q1] at u1; cases u1
        exact ⟨⟨info, _, rfl, by unfold descOf; rw [q1]; rfl, u2, u3, u4⟩, q3.symm.trans u5, q5.symm.trans u6,
          q6.symm.trans u7, by rw [← q7]; exact u8, q4.symm.trans u9⟩
      · rintro ⟨⟨i, d, w1, w2, w3, w4, w5⟩, v1, v2, v3, v4, v5⟩
        cases w1
        unfold descOf at w2
        rw [q1] at w2; cases w2
        exact ⟨e, q1, w3, w4, w5, q3.trans v1, q5.trans v2, q6.trans v3, by rw [q7]; exact v4, q4.trans v5⟩
    unfold removeHook
    dsimp only
    split
    · next hnil =>
      have := triv (by
        intro p a s k hk hm
        have := (hiff p a s k hk).2 hm
        rw [hnil] at this; cases this) (by unfold removeHook; dsimp only; rw [if_pos hnil])
      unfold removeHook at this
      dsimp only at this
      rw [if_pos hnil] at this
      exact this
    · obtain ⟨r', b, ns, g1, g2, g3, g4, g5, _⟩ := removeIds_spec (E := E)
        (idFindMatch r.entries info.proto info.vtblOffs info.vtblIdx (iface + offs) plug offs h post) hw
      refine ⟨r', b, ns, g1, ?_, ?_, ?_⟩
      · rw [g5]
        constructor
        · rintro ⟨id, hid, hq⟩
          obtain ⟨e, he⟩ := Option.ne_none_iff_exists'.1 hq
          obtain ⟨k, hk, rfl⟩ := hw.ids.hook id e he
          exact ⟨_, _, _, k, hk, (hiff _ _ _ k hk).1 hid⟩
        · rintro ⟨p, a, s, k, hk, hm⟩
          refine ⟨k.id, (hiff p a s k hk).2 hm, ?_⟩
          obtain ⟨e, q1, _⟩ := hw.ids.entry p a s k hk
          rw [q1]; simp
      · intro p a s k
        rw [g3, mem_keepV]
        constructor
        · rintro ⟨h1, h2⟩; exact ⟨h1, fun hm => by simp at h2; exact h2 ((hiff p a s k h1).2 hm)⟩
        · rintro ⟨h1, h2⟩; exact ⟨h1, by simp; exact fun hm => h2 ((hiff p a s k h1).1 hm)⟩
      · intro p a s; rw [g3]; exact List.filter_sublist

/-- Removing plugin 1's first hook by description. -/
example : ∃ r' ns, removeHook Ex.E Ex.r3 1 1000 0 (some Ex.info1) ⟨77, 11⟩ false = .ok (r', true, ns) ∧
    (view r' 2008 1000 false).map Hook.id = [3] := ⟨_, _, rfl, rfl⟩

end Verif.SH
