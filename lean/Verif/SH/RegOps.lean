import Verif.SH.RegPause
/-
The registry as a state machine: all operations of `ISourceHook` that change it, in any order.
-/
namespace Verif.SH

/-- A hook with node id `n` is registered. No counterpart in /repo. -/
def Live (r : Reg) (n : Nat) : Prop := ∃ p a s h, h ∈ view r p a s ∧ h.nid = n

/-- `r'` arises from `r` by removing hooks and deleting their handlers. No counterpart in /repo. -/
structure RemOk (r r' : Reg) : Prop where
  sub : ∀ p a s, (view r' p a s).Sublist (view r p a s)
  next : r.next ≤ r'.next
  ids : ∀ j e, idQuery r'.entries j = some e → idQuery r.entries j = some e
  del : ∃ D, r'.deleted = D ++ r.deleted ∧ (∀ n ∈ D, Live r n) ∧ (∀ n, Live r n → n ∈ D ∨ Live r' n)

theorem RemOk.live {r r' : Reg} (h : RemOk r r') {n : Nat} (hl : Live r' n) : Live r n := by
  obtain ⟨p, a, s, k, hk, e⟩ := hl
  exact ⟨p, a, s, k, (h.sub p a s).mem hk, e⟩

theorem RemOk.refl (r : Reg) : RemOk r r :=
  ⟨fun _ _ _ => List.Sublist.refl _, Nat.le_refl _, fun _ _ h => h, [], rfl, by simp, fun n h => Or.inr h⟩

theorem RemOk.trans {a b c : Reg} (h1 : RemOk a b) (h2 : RemOk b c) : RemOk a c := by
  obtain ⟨D1, e1, f1, g1⟩ := h1.del
  obtain ⟨D2, e2, f2, g2⟩ := h2.del
  refine ⟨fun p x s => (h2.sub p x s).trans (h1.sub p x s), Nat.le_trans h1.next h2.next,
    fun j e h => h1.ids j e (h2.ids j e h), D2 ++ D1, by rw [e2, e1, List.append_assoc], ?_, ?_⟩
  · intro n hn
    rcases List.mem_append.1 hn with hn | hn
    · exact h1.live (f2 n hn)
    · exact f1 n hn
  · intro n hn
    rcases g1 n hn with h | h
    · exact Or.inl (List.mem_append_right _ h)
    · rcases g2 n h with h | h
      · exact Or.inl (List.mem_append_left _ h)
      · exact Or.inr h

theorem removeIds_remOk {E : Env} {mem0 : Addr → Addr} (ids : List Int) {r : Reg} (hw : RegInv E mem0 r) :
    ∃ r' b ns, removeIds E r ids = .ok (r', b, ns) ∧ RegInv E mem0 r' ∧ RemOk r r' ∧ hmCore r' = hmCore r := by
  obtain ⟨r', b, ns, g1, g2, g3, g4, g5, g6, g7, g8, D, hD1, hD2⟩ := removeIds_spec (E := E) ids hw
  refine ⟨r', b, ns, g1, g2, ⟨?_, Nat.le_of_eq g7.symm, ?_, D, hD1, ?_, ?_⟩, g6⟩
  · intro p a s; rw [g3]; exact List.filter_sublist
  · intro j e h; rw [g4] at h; split at h
    · cases h
    · exact h
  · intro n hn; obtain ⟨p, a, s, h, h1, _, h2⟩ := (hD2 n).1 hn; exact ⟨p, a, s, h, h1, h2⟩
  · rintro n ⟨p, a, s, h, h1, h2⟩
    by_cases hid : h.id ∈ ids
    · exact Or.inl ((hD2 n).2 ⟨p, a, s, h, h1, hid, h2⟩)
    · exact Or.inr ⟨p, a, s, h, by rw [g3]; exact mem_keepV.2 ⟨h1, by simpa using hid⟩, h2⟩

theorem removeHookManO_remOk {E : Env} {mem0 : Addr → Addr} {r : Reg} (hmo : Nat)
    (hw : RegInv E mem0 r) {plug : Plugin} {pub : PubFunc} {info : Info} (hh : HasHm r hmo plug pub info) :
    ∃ r' ns, removeHookManO E r hmo = .ok (r', ns) ∧ RegInv E mem0 r' ∧ RemOk r r' ∧
      (∀ o a b c, HasHm r' o a b c ↔ HasHm r o a b c ∧ o ≠ hmo) := by
  obtain ⟨r', ns, g1, g2, g3, g4, g5, g6, g7, g8, D, hD1, hD2⟩ := removeHookManO_spec hmo hw hh
  refine ⟨r', ns, g1, g2, ⟨?_, g8, fun j e h => ((g7 j e).1 h).1, D, hD1, ?_, ?_⟩, g3⟩
  · intro p a s
    by_cases hp : OnlyHm r hmo p
    · rw [g5 p a s hp]; exact List.nil_sublist _
    · rw [g6 p a s hp]; exact List.Sublist.refl _
  · intro n hn; obtain ⟨p, a, s, h, _, h1, h2⟩ := (hD2 n).1 hn; exact ⟨p, a, s, h, h1, h2⟩
  · rintro n ⟨p, a, s, h, h1, h2⟩
    by_cases hp : OnlyHm r hmo p
    · exact Or.inl ((hD2 n).2 ⟨p, a, s, h, hp, h1, h2⟩)
    · exact Or.inr ⟨p, a, s, h, by rw [g6 p a s hp]; exact h1, h2⟩

theorem removeHms_remOk {E : Env} {mem0 : Addr → Addr} (os : List Nat) (hnd : os.Nodup) {r : Reg}
    (hw : RegInv E mem0 r) (hos : ∀ o ∈ os, ∃ a b c, HasHm r o a b c) :
    ∃ r' ns, removeHms E os r = .ok (r', ns) ∧ RegInv E mem0 r' ∧ RemOk r r' ∧
      (∀ o a b c, HasHm r' o a b c ↔ HasHm r o a b c ∧ o ∉ os) := by
  induction os generalizing r with
  | nil => exact ⟨r, [], rfl, hw, RemOk.refl r, by simp⟩
  | cons o os ih =>
    rw [List.nodup_cons] at hnd
    obtain ⟨a, b, c, hh⟩ := hos o (List.mem_cons_self ..)
    obtain ⟨r1, ns1, g1, g2, g3, g4⟩ := removeHookManO_remOk (E := E) o hw hh
    obtain ⟨r2, ns2, k1, k2, k3, k4⟩ := ih hnd.2 g2 (by
      intro o' ho'
      obtain ⟨a, b, c, hh'⟩ := hos o' (List.mem_cons_of_mem _ ho')
      exact ⟨a, b, c, (g4 ..).2 ⟨hh', by rintro rfl; exact hnd.1 ho'⟩⟩)
    unfold removeHms
    simp only [bind, Except.bind, g1, k1]
    refine ⟨r2, _, rfl, k2, g3.trans k3, ?_⟩
    intro o' a b c
    rw [k4, g4, List.mem_cons]
    constructor
    · rintro ⟨⟨h1, h2⟩, h3⟩; exact ⟨h1, fun hc => hc.elim h2 h3⟩
    · rintro ⟨h1, h2⟩; exact ⟨⟨h1, fun hc => h2 (Or.inl hc)⟩, fun hc => h2 (Or.inr hc)⟩

theorem unloadReg_remOk {E : Env} {mem0 : Addr → Addr} {r : Reg} (plug : Plugin) (hw : RegInv E mem0 r) :
    ∃ r' ns, unloadReg E r plug = .ok (r', ns) ∧ RegInv E mem0 r' ∧ RemOk r r' ∧
      (∀ o a b c, HasHm r' o a b c ↔ HasHm r o a b c ∧ a ≠ plug) ∧
      (∀ p a s, ∀ h ∈ view r' p a s, h.plug ≠ plug) := by
  obtain ⟨r1, b, ns1, g1, g2, g3, g4, g5, g6, g7, g8, D, hD1, hD2⟩ :=
    removeIds_spec (E := E) (idFindPlug r.entries plug) hw
  obtain ⟨r1', b', ns1', g1', _, hrem, _⟩ := removeIds_remOk (E := E) (idFindPlug r.entries plug) hw
  rw [g1] at g1'; cases g1'
  have hno1 : ∀ p a s, ∀ h ∈ view r1 p a s, h.plug ≠ plug := by
    intro p a s h hh hc
    rw [g3] at hh
    obtain ⟨k1, k2⟩ := mem_keepV.1 hh
    obtain ⟨e, q1, _, _, _, q2, _⟩ := hw.ids.entry p a s h k1
    simp at k2
    exact k2 ((mem_idFindPlug ..).2 ⟨e, q1, by rw [q2, hc]⟩)
  obtain ⟨r2, ns2, k1, k2, k3, k4⟩ :=
    removeHms_remOk (E := E) ((r1.hms.filter (·.plug == plug)).map HookMan.oid)
      (nodup_map_filter _ g2.ref.oid) g2 (by
        intro o ho
        obtain ⟨h, hh, rfl⟩ := List.mem_map.1 ho
        rw [List.mem_filter] at hh
        exact ⟨_, _, _, hasHm_of_mem hh.1⟩)
  unfold unloadReg
  simp only [bind, Except.bind, g1, k1]
  refine ⟨r2, _, rfl, k2, hrem.trans k3, ?_, ?_⟩
  · intro o a b c
    rw [k4, hasHm_congr g6]
    constructor
    · rintro ⟨h1, h2⟩
      refine ⟨h1, ?_⟩
      rintro rfl
      apply h2
      obtain ⟨h, q1, q2, q3, q4⟩ := (hasHm_congr g6 ..).2 h1
      exact List.mem_map.2 ⟨h, List.mem_filter.2 ⟨q1, by simpa using q3⟩, q2⟩
    · rintro ⟨h1, h2⟩
      refine ⟨h1, ?_⟩
      intro hc
      obtain ⟨h, q1, q2⟩ := List.mem_map.1 hc
      rw [List.mem_filter] at q1
      have := (hasHm_fun hw.ref.oid h1 ((hasHm_congr g6 ..).1 ⟨h, q1.1, q2, rfl, rfl, rfl⟩)).1
      exact h2 (this.trans (by simpa using q1.2))
  · intro p a s h hh; exact hno1 p a s h ((k3.sub p a s).mem hh)

/-! ### operations -/

/-- Calls of `ISourceHook` that change the registry (sourcehook.h:282-560). -/
inductive RegOp where
  | add (a : AddArgs)
  | removeId (id : Int)
  | remove (plug : Plugin) (iface offs : Int) (info : Option Info) (h : Handler) (post : Bool)
  | unload (plug : Plugin)
  | removeHm (plug : Plugin) (pub : PubFunc)
  | pauseId (id : Int) (b : Bool)
  | pausePlugin (plug : Plugin) (b : Bool)
  | shutdown

/-- `bool` results as integers. No counterpart in /repo. -/
def b2i (b : Bool) : Int := if b then 1 else 0

/-- One operation; the integer is its return value (0 for `void`). -/
def regStep (E : Env) (r : Reg) : RegOp → R (Reg × Int)
  | .add a => addHook E r a
  | .removeId id => do let (r', b, _) ← removeHookById E r id; .ok (r', b2i b)
  | .remove plug iface offs info h post => do
      let (r', b, _) ← removeHook E r plug iface offs info h post; .ok (r', b2i b)
  | .unload plug => do let (r', _) ← unloadReg E r plug; .ok (r', 0)
  | .removeHm plug pub => do let (r', _) ← removeHookManager E r plug pub; .ok (r', 0)
  | .pauseId id b => let x := setHookPaused r id b; .ok (x.1, b2i x.2)
  | .pausePlugin plug b => .ok (setPluginPaused r plug b, 0)
  | .shutdown => do let (r', _) ← shutdownReg E r; .ok (r', 0)

/-- Contract of the operations: only `AddHook` has one. No counterpart in /repo: a contract. -/
def OpOk (r : Reg) : RegOp → Prop
  | .add a => AddOk r a
  | _ => True

/-- States reachable from an empty registry over memory `mem0` by any operations; `clean = true`
when `RemoveHookManager` was never called explicitly.  Between operations the program may write to
any memory word that is not a hooked slot (`poke`). -/
inductive Reach (E : Env) : Bool → (Addr → Addr) → Reg → Prop
  | init (mem0 : Addr → Addr) : Reach E true mem0 { mem := mem0 }
  | step {c : Bool} {mem0 : Addr → Addr} {r r' : Reg} {op : RegOp} {x : Int} : Reach E c mem0 r → OpOk r op →
      regStep E r op = .ok (r', x) →
      Reach E (c && (match op with | .removeHm .. => false | _ => true)) mem0 r'
  | poke {c : Bool} {mem0 : Addr → Addr} {r : Reg} (a val : Addr) : Reach E c mem0 r →
      (∀ v ∈ r.vfns, v.ptr ≠ a) →
      Reach E c (upd mem0 a val) { r with mem := upd r.mem a val }

theorem regInv_init (E : Env) (mem0 : Addr → Addr) : RegInv E mem0 { mem := mem0 } := by
  refine ⟨⟨⟨by simp, by simp, by simp, by simp⟩, ⟨?_, ?_, ?_⟩, ⟨?_, ?_, by simp, by simp, ?_⟩,
    ⟨by simp, by simp, by simp, by simp, by simp, by simp⟩, ⟨?_, ?_, by simp, by simp, by simp, by simp⟩,
    ⟨by simp, by simp, by simp, by simp⟩⟩, by simp⟩
  · intro p a s h hh; cases hh
  · intro id e h; simp [idQuery] at h
  · intro p a s; simp [view]
  · intro _ _ _ _ _ _ _ _ h; cases h
  · intro _ _ _ _ h; cases h
  · intro _ _ _ _ h; cases h
  · rintro _ _ _ _ ⟨h, hh, _⟩; cases hh
  · rintro _ _ _ _ ⟨h, hh, _⟩; cases hh

/-- Same registered hooks except for paused flags. No counterpart in /repo. -/
structure SameOk (r r' : Reg) : Prop where
  map : ∀ p a s, ∃ f : Hook → Hook, (∀ h, (f h).nid = h.nid ∧ (f h).id = h.id ∧ (f h).plug = h.plug ∧
    (f h).offs = h.offs ∧ (f h).handler = h.handler) ∧ view r' p a s = (view r p a s).map f
  deleted : r'.deleted = r.deleted
  entries : r'.entries = r.entries

/-- What one operation does, coarsely. No counterpart in /repo. -/
inductive Effect (r r' : Reg) : Prop
  | rem : RemOk r r' → Effect r r'
  | same : SameOk r r' → Effect r r'
  | add (a : AddArgs) (n : Nat) (id : Int) (slot adj : Addr) : r.next ≤ n → n < r'.next → r'.deleted = r.deleted →
      (∀ q b t, view r' q b t = if q = slot ∧ b = adj ∧ t = a.post
        then view r q b t ++ [⟨n, a.plug, a.offs, a.handler, id, false⟩] else view r q b t) →
      idQuery r.entries id = none → (∀ j, j ≠ id → idQuery r'.entries j = idQuery r.entries j) →
      Effect r r'

theorem removeHook_spec {E : Env} {mem0 : Addr → Addr} {r : Reg} (hw : RegInv E mem0 r) (plug : Plugin)
    (iface offs : Int) (info : Option Info) (h : Handler) (post : Bool) :
    ∃ r' b ns, removeHook E r plug iface offs info h post = .ok (r', b, ns) ∧ RegInv E mem0 r' ∧ RemOk r r' ∧
      hmCore r' = hmCore r ∧ (OwnInv r → OwnInv r') := by
  unfold removeHook
  cases info with
  | none => exact ⟨r, false, [], rfl, hw, RemOk.refl r, rfl, fun h => h⟩
  | some info =>
    dsimp only
    split
    · exact ⟨r, false, [], rfl, hw, RemOk.refl r, rfl, fun h => h⟩
    · generalize idFindMatch r.entries info.proto info.vtblOffs info.vtblIdx (iface + offs) plug offs h post = ids
      obtain ⟨r', b, ns, g1, g2, g3, g4⟩ := removeIds_remOk (E := E) ids hw
      obtain ⟨r'', b'', ns'', k1, _, _, _, _, k6, _, k8, _⟩ := removeIds_spec (E := E) ids hw
      rw [g1] at k1; cases k1
      exact ⟨r', b, ns, g1, g2, g3, g4, k8.own k6⟩

theorem regStep_spec {E : Env} {mem0 : Addr → Addr} {r : Reg} (hw : RegInv E mem0 r) {op : RegOp} (hok : OpOk r op) :
    ∃ r' x, regStep E r op = .ok (r', x) ∧ RegInv E mem0 r' ∧ Effect r r' ∧
      (OwnInv r → (match op with | .removeHm .. => False | _ => True) → OwnInv r') := by
  cases op with
  | add a =>
    by_cases hv : ∃ info, AddValid a info
    · obtain ⟨info, hv⟩ := hv
      rcases hsl : slotOf r.mem a.mode a.iface a.offs info with ⟨slot, adj⟩
      obtain ⟨r', id, n, g1, g2, g3, g4, g5, g6, g7, g8, g9, g10, g11, g12⟩ := addHook_valid hw hok hv hsl
      exact ⟨r', id, g1, g2, .add a n id slot adj g9 g8 g7 g10 g4 g6, fun h _ => g11 h⟩
    · exact ⟨r, 0, addHook_invalid E r a hv, hw, .rem (RemOk.refl r), fun h _ => h⟩
  | removeId id =>
    cases hq : idQuery r.entries id with
    | none =>
      exact ⟨r, b2i false, by simp [regStep, removeHookById_none E hq, bind, Except.bind], hw, .rem (RemOk.refl r), fun h _ => h⟩
    | some e =>
      obtain ⟨r', ns, h, g1, g2, g3, g4, g5, g6, g7, g8, g9, g10⟩ := removeHookById_spec hw hq
      refine ⟨r', b2i true, by simp [regStep, g1, bind, Except.bind], g2, .rem ?_, fun h _ => g10.own g8 h⟩
      have := removeIds_remOk (E := E) [id] hw
      obtain ⟨r'', b, ns', k1, k2, k3, k4⟩ := this
      simp [removeIds, g1, bind, Except.bind] at k1
      rw [k1.1]; exact k3
  | remove plug iface offs info h post =>
    obtain ⟨r', b, ns, g1, g2, g3, g4, g5⟩ := removeHook_spec (E := E) hw plug iface offs info h post
    exact ⟨r', b2i b, by simp [regStep, g1, bind, Except.bind], g2, .rem g3, fun h _ => g5 h⟩
  | unload plug =>
    obtain ⟨r', ns, g1, g2, g3, g4, g5⟩ := unloadReg_remOk (E := E) plug hw
    refine ⟨r', 0, by simp [regStep, g1, bind, Except.bind], g2, .rem g3, fun h _ => ?_⟩
    obtain ⟨r'', ns', k1, k2, k3, _⟩ := unloadReg_spec (E := E) plug hw h
    rw [g1] at k1; cases k1; exact k3
  | removeHm plug pub =>
    have : ∃ r' ns, removeHookManager E r plug pub = .ok (r', ns) ∧ RegInv E mem0 r' ∧ RemOk r r' := by
      unfold removeHookManager
      split
      · exact ⟨r, [], rfl, hw, RemOk.refl r⟩
      · next h hf =>
        obtain ⟨r', ns, g1, g2, g3, _⟩ := removeHookManO_remOk (E := E) h.oid hw
          (hasHm_of_mem (List.mem_of_find?_eq_some hf))
        exact ⟨r', ns, g1, g2, g3⟩
    obtain ⟨r', ns, g1, g2, g3⟩ := this
    exact ⟨r', 0, by simp [regStep, g1, bind, Except.bind], g2, .rem g3, fun _ h => h.elim⟩
  | pauseId id b =>
    cases hq : idQuery r.entries id with
    | none => exact ⟨r, b2i false, by simp [regStep, setHookPaused_none b hq], hw, .rem (RemOk.refl r), fun h _ => h⟩
    | some e =>
      obtain ⟨r', g1, g2, g3, g4, g5⟩ := setHookPaused_spec hw b hq
      refine ⟨r', b2i true, by simp [regStep, g1], g2, .same ⟨?_, g3.deleted, g3.entries⟩, fun h _ => g4 h⟩
      intro p a s
      exact ⟨_, fun h => ⟨pauseIf_nid .., pauseIf_id .., (pauseIf_data ..).1, (pauseIf_data ..).2.1, (pauseIf_data ..).2.2⟩, by rw [g5]; rfl⟩
  | pausePlugin plug b =>
    obtain ⟨g1, g2, g3, g4⟩ := setPluginPaused_spec plug b hw
    refine ⟨_, 0, rfl, g1, .same ⟨?_, g2.deleted, g2.entries⟩, fun h _ => g3 h⟩
    intro p a s
    exact ⟨_, fun h => ⟨pauseIf_nid .., pauseIf_id .., (pauseIf_data ..).1, (pauseIf_data ..).2.1, (pauseIf_data ..).2.2⟩, by rw [g4]; rfl⟩
  | shutdown =>
    obtain ⟨r', b, ns, g1, g2, g3, g4⟩ := removeIds_remOk (E := E) (idFindAll r.entries) hw
    obtain ⟨r'', b'', ns'', k1, _, _, _, _, k6, _, k8, _⟩ := removeIds_spec (E := E) (idFindAll r.entries) hw
    rw [g1] at k1; cases k1
    exact ⟨r', 0, by simp [regStep, shutdownReg, g1, bind, Except.bind], g2, .rem g3, fun h _ => k8.own k6 h⟩

/-- The invariant holds in every reachable state; without explicit `RemoveHookManager` also
ownership. -/
theorem reach_inv {E : Env} {c : Bool} {mem0 : Addr → Addr} {r : Reg} (h : Reach E c mem0 r) :
    RegInv E mem0 r ∧ (c = true → OwnInv r) := by
  induction h with
  | init mem0 => exact ⟨regInv_init E mem0, fun _ v hv => by cases hv⟩
  | @step c mem0 r r' op x hr hok hs ih =>
    obtain ⟨r2, x2, g1, g2, g3, g4⟩ := regStep_spec ih.1 hok
    rw [hs] at g1; cases g1
    refine ⟨g2, ?_⟩
    intro hc
    rw [Bool.and_eq_true] at hc
    refine g4 (ih.2 hc.1) ?_
    cases op <;> simp at hc ⊢
  | @poke c mem0 r a val hr hna ih =>
    obtain ⟨hw, hown⟩ := ih
    refine ⟨⟨⟨⟨hw.s.vptr, hw.s.void, hw.s.vlt, hw.s.vi⟩, hw.ids, hw.nid, hw.ref.congr rfl rfl (fun _ _ => Iff.rfl),
      ⟨hw.att.hlt, hw.att.valid, hw.att.sub, hw.att.nodup, hw.att.perm, hw.att.sorted⟩, ?_⟩, hw.ne⟩, hown⟩
    refine ⟨?_, ?_, ?_, ?_⟩
    · intro v hv hk
      rw [hw.mem.orig v hv hk]
      simp only [upd]
      rw [if_neg (hna v hv)]
    · intro b hk hb
      simp only [upd]
      split
      · rfl
      · exact hw.mem.other b hk hb
    · intro b hk
      simp only [upd]
      split
      · rfl
      · exact hw.mem.frozen b hk
    · intro v hv hk o p q i h1 h2
      simp only [upd]
      rw [if_neg (hna v hv)]
      exact hw.mem.served v hv hk o p q i h1 h2

end Verif.SH
