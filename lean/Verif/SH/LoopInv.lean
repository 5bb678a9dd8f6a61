import Verif.SH.LoopNext
/-
The machine of running hook calls: contract of the operations and the machine invariant.
-/
namespace Verif.SH

/-! ### the environment -/

/-- The registry invariant for some underlying memory that contains no hook functions, with every
manager's hook function belonging to its public function. -/
structure RegE (E : Env) (r : Reg) : Prop where
  inv : ∃ mem0, RegInv E mem0 r ∧ ∀ a, E.pubAt (mem0 a) = none
  hm : ∀ o p q i, HasHm r o p q i → E.pubAt i.hookfunc = some q

theorem RegE.s {E : Env} {r : Reg} (h : RegE E r) : SInv r := h.inv.elim fun _ h => h.1.s

theorem addHook_hm {E : Env} {mem0 : Addr → Addr} {r r' : Reg} {a : AddArgs} {x : Int} (hw : RegInv E mem0 r)
    (hok : AddOk r a) (h : addHook E r a = .ok (r', x)) :
    ∀ o p q i, HasHm r' o p q i → HasHm r o p q i ∨ (q = a.pub ∧ a.info = some i) := by
  by_cases hval : ∃ info, AddValid a info
  · obtain ⟨info, hval⟩ := hval
    rcases hsl : slotOf r.mem a.mode a.iface a.offs info with ⟨slot, adj⟩
    obtain ⟨hm, hinf, hver⟩ := hval
    unfold addHook at h
    rw [if_neg (by omega), hinf] at h
    simp only [if_neg hver, hsl] at h
    rcases hg1 : getVfn r slot with ⟨r1, o1⟩
    rw [hg1] at h
    obtain ⟨w1, f1, hhm1, ⟨v1, hv1, rfl, rfl⟩, old1⟩ := getVfn_spec hw.toWInv hg1
    dsimp only at h
    rcases hg2 : getHookMan r1 a.plug a.pub info with ⟨r2, hmo⟩
    rw [hg2] at h
    obtain ⟨w2, f2, hvf2, ⟨info', hhas2, hinfo'⟩, mono2, back2⟩ :=
      getHookMan_spec w1 hver (by rw [hhm1]; exact hok) hg2
    dsimp only at h
    obtain ⟨r3, hr3, w3, f3, hco3, ⟨v3, hv3, ho3, hp3, hif3, hin3, hkeep3⟩, old3⟩ :=
      addHookMan_spec w2 (v := v1) (hvf2 ▸ hv1) hhas2
    rw [hr3] at h
    simp only [bind, Except.bind] at h
    rw [← ho3] at h
    obtain ⟨r4, ifo, hr4, w4, f4, hhm4, ⟨v4, hv4, ho4, hp4, hhms4, ⟨i4, hi4, rfl, rfl⟩, oldi4⟩, old4⟩ :=
      getIface_spec w3 hv3 adj
    rw [hr4] at h
    dsimp only at h
    rw [← ho4, ← hp3, ← hp4] at h
    obtain ⟨r5, id, hr5, w5, hpos, hfr, hen, hother, hde, hhm5, hme5, hst5, hnx5, hview5, old5, _⟩ :=
      pushHook_spec w4 hv4 hi4 info a
    rw [hr5] at h
    cases h
    intro o p q i hh
    have hh2 : HasHm r2 o p q i := by
      rw [← hasHm_congr hco3]
      unfold HasHm at hh ⊢; rw [hhm5, hhm4] at hh; exact hh
    have e1 : ∀ o p q i, HasHm r1 o p q i → HasHm r o p q i := by
      intro o p q i h; unfold HasHm at h ⊢; rw [hhm1] at h; exact h
    rcases back2 o p q i hh2 with h | ⟨rfl, rfl, rfl⟩
    · exact Or.inl (e1 _ _ _ _ h)
    · have hi := (hasHm_fun w2.ref.oid hh2 hhas2).2.2
      rcases hinfo' with h | h
      · rw [hi]; exact Or.inl (e1 _ _ _ _ h)
      · exact Or.inr ⟨rfl, by rw [hi, h]; exact hinf⟩
  · rw [addHook_invalid E r a hval] at h
    cases h
    exact fun o p q i h => Or.inl h

/-! ### calls through a slot -/

theorem findVfnIn_ok {r : Reg} (hs : SInv r) {v : Vfn} (hv : v ∈ r.vfns) {os : List Nat}
    (hos : ∀ o ∈ os, ∃ w ∈ r.vfns, w.oid = o) (hm : v.oid ∈ os) : findVfnIn r v.ptr os = .ok (some v) := by
  induction os with
  | nil => cases hm
  | cons o os ih =>
    obtain ⟨w, hw, rfl⟩ := hos o (List.mem_cons_self ..)
    unfold findVfnIn
    rw [derefVfn_ok hs hw]
    simp only [bind, Except.bind]
    by_cases hp : w.ptr = v.ptr
    · rw [if_pos hp, nodup_key_inj hs.vptr hw hv hp]
    · rw [if_neg hp]
      apply ih (fun o ho => hos o (List.mem_cons_of_mem _ ho))
      rcases List.mem_cons.1 hm with h | h
      · exact absurd (by rw [nodup_key_inj hs.void hv hw h]) hp
      · exact h

/-- A call through a hooked slot enters the hook function with the slot's record. -/
theorem callSlot_hooked {E : Env} {s : St} (hr : RegE E s.reg) {v : Vfn} (hv : v ∈ s.reg.vfns)
    (hwr : E.writable v.ptr = true) (this : Addr) :
    callSlot E s v.ptr this = setupHookLoop s (some v) this := by
  obtain ⟨mem0, hw, _⟩ := hr.inv
  obtain ⟨o, os, ho⟩ := List.exists_cons_of_ne_nil (hw.ne v hv).2.1
  obtain ⟨plug, pub, info, hh⟩ := hw.att.sub v hv o (by rw [ho]; exact List.mem_cons_self ..)
  have hmem := hw.mem.served v hv hwr o plug pub info (by rw [ho]; rfl) hh
  have hpub := hr.hm _ _ _ _ hh
  obtain ⟨h, h1, rfl, rfl, rfl, rfl⟩ := hh
  have hsv : v.oid ∈ h.vfns := (hw.ref.mem h h1 v.oid).2 ⟨v, hv, rfl, by rw [ho]; rfl⟩
  have hst := hw.ref.stored h h1
  rw [if_neg (List.ne_nil_of_mem hsv)] at hst
  unfold callSlot
  rw [hmem, hpub]
  simp only [hst, bind, Except.bind, derefHm_ok hw.ref.oid h1]
  rw [findVfnIn_ok hw.s hv _ hsv]
  intro o' ho'
  obtain ⟨w, hw1, hw2, _⟩ := (hw.ref.mem h h1 o').1 ho'
  exact ⟨w, hw1, hw2⟩

/-- A call through any other slot does not involve SourceHook. -/
theorem callSlot_plain {E : Env} {s : St} (hE : ∀ a, E.writable a = true → E.inMemory a = true) (hr : RegE E s.reg) {p : Addr}
    (hp : ∀ v ∈ s.reg.vfns, v.ptr = p → E.writable p = false) (this : Addr) :
    callSlot E s p this = .ok s := by
  obtain ⟨mem0, hw, h0⟩ := hr.inv
  have : s.reg.mem p = mem0 p := by
    by_cases hwr : E.writable p = true
    · exact hw.mem.other p (hE p) (fun v hv hc => by rw [hp v hv hc] at hwr; cases hwr)
    · exact hw.mem.frozen p (by simpa using hwr)
  unfold callSlot
  rw [this, h0]

/-! ### the invariant -/

/-- Activations of hook functions, innermost first. -/
def hookFrames : List Fr → List Frame
  | [] => []
  | .hook f :: fs => f :: hookFrames fs
  | .sh :: fs => hookFrames fs

/-- Which loop states go with which position of the hook function. -/
def PtOk : Pt → CtxSt → Prop
  | .preLoop, st => st ≠ .orig ∧ st ≠ .post ∧ st ≠ .postVP ∧ st ≠ .ignore ∧ st ≠ .bad
  | .inPre _, st => st = .pre ∨ st = .preVP ∨ st = .dead
  | .recPre .., st => st = .dead
  | .inOrig, st => st = .orig ∨ st = .dead
  | .postLoop, st => st = .orig ∨ st = .post ∨ st = .postVP ∨ st = .dead
  | .inPost _, st => st = .post ∨ st = .postVP ∨ st = .dead
  | .recPost .., st => st = .dead

theorem PtOk.dead (p : Pt) : PtOk p .dead := by cases p <;> simp [PtOk]

/-- A return value pointer refers to a running activation. -/
def SlotOk (sl : Option Slot) (fs : List Frame) : Prop :=
  ∃ f ∈ fs, sl = some (.over f.fid) ∨ sl = some (.orig f.fid)

/-- An activation and its context; `fs` are the activations further out.  Either the activation was
reached by SH_CALL, or it runs a hook loop. -/
structure FOk (r : Reg) (log : List Ev) (f : Frame) (c : Ctx) (fs : List Frame) : Prop where
  cid : f.cid = c.cid
  addr : f.addr ≠ none
  pt : PtOk f.pt c.st
  orig : SlotOk c.orig (f :: fs)
  pr : c.st.isPostRecall = true → c.callOrig = false
  kind : (c.st = .dead ∧ c.locals = none ∧ f.status = 0 ∧ c.callOrig = true ∧ c.orig = some (.orig f.fid) ∧
      (f.pt = .preLoop ∨ f.pt = .inOrig ∨ f.pt = .postLoop)) ∨
    (c.locals = some f.fid ∧ SlotOk c.over (f :: fs) ∧ CtxOk r log c)

/-- Activations and contexts correspond one to one. -/
inductive Al (r : Reg) (log : List Ev) : List Frame → List Ctx → Prop
  | nil : Al r log [] []
  | cons {f : Frame} {c : Ctx} {fs : List Frame} {cs : List Ctx} : FOk r log f c fs → f.depth = cs.length →
      Al r log fs cs → Al r log (f :: fs) (c :: cs)

/-- A frame that waits for foreign code. -/
def Fr.waits : Fr → Prop
  | .hook f => match f.pt with
    | .inPre _ | .inPost _ | .inOrig | .recPre _ none | .recPost _ none => True
    | _ => False
  | .sh => True

/-- The innermost frame is not waiting for a recalled function. -/
def Fr.top : Fr → Prop
  | .hook f => match f.pt with
    | .recPre _ none | .recPost _ none => False
    | _ => True
  | .sh => True

/-- Only the innermost frame runs. -/
def Shape : List Fr → Prop
  | [] => True
  | x :: xs => x.top ∧ ∀ y ∈ xs, y.waits

/-- The frame that made an SH_CALL is not waiting for a recalled function. -/
def ShTop : List Fr → Prop
  | [] => True
  | x :: xs => (x = .sh → ∀ y ∈ xs.head?, y.top) ∧ ShTop xs

/-- The machine invariant. -/
structure MInv (E : Env) (s : St) : Prop where
  reg : RegE E s.reg
  al : Al s.reg s.log (hookFrames s.frames) s.stack
  fid : (hookFrames s.frames).Pairwise (fun a b => b.fid < a.fid)
  flt : ∀ f ∈ hookFrames s.frames, f.fid < s.next
  clt : ∀ c ∈ s.stack, c.cid < s.next
  llt : ∀ cid, s.next ≤ cid → ∀ g, invoked s.log cid g = [] ∧ skipped s.log cid g = []
  cuniq : s.stack.Pairwise (fun a b => a.cid = b.cid → b.st = .dead)
  old : Old s.reg s.log
  shape : Shape s.frames
  shTop : ShTop s.frames
  tasks : s.tasks.length = s.stack.length

/-! ### the contract -/

/-- Plugin or engine code is running. -/
def Client (s : St) : Prop :=
  match s.frames with
  | [] => True
  | .hook f :: _ => match f.pt with
    | .inPre _ | .inPost _ | .inOrig => True
    | _ => False
  | .sh :: _ => False

/-- A handler is running. -/
def InHandler (s : St) : Prop :=
  match s.frames with
  | .hook f :: _ => match f.pt with
    | .inPre _ | .inPost _ => True
    | _ => False
  | _ => False

/-- Contract of registry operations during calls:
* a plugin's public function belongs to it alone and its hook function is the one the environment
  knows (`AddOk`, `pubAt`);
* no vtable-wide hook is added to a function that has none while the vtable-wide hooks of that
  function are being run (the list that is being run would have been deleted before);
* `RemoveHookManager` is not called from inside a hooked call (no context is told about it);
* `UnloadPlugin` from inside a hooked call requires that every hook's owner still has its manager. -/
def RegOk (E : Env) (s : St) : RegOp → Prop
  | .add a => AddOk s.reg a ∧ (∀ info, a.info = some info → E.pubAt info.hookfunc = some a.pub) ∧
      ∀ c ∈ s.stack, (c.st = .preVP ∨ c.st = .postVP) → ∀ v ∈ s.reg.vfns, c.vfn = some v.oid → ¬ NewVP s.reg a v.ptr
  | .unload _ => OwnInv s.reg ∨ s.stack = []
  | .removeHm .. => s.stack = []
  | _ => True

/-- Contract of the machine operations.
* `call`: the object is not null;
* `shCall`: the function is hooked (its slot could be patched);
* `recall`: the running handler's loop is still alive (its function still has a hook), the handler
  recalls the function it handles on the object it was called for, and while the object's own hooks
  are being run they were not all removed and new ones added;
* `resolve`: foreign code only asks for forced resolution (metamod_console.cpp:427);
* `poke`: hooked slots are not overwritten and hook functions are not written anywhere. -/
def Ok (E : Env) (s : St) : Op → Prop
  | .reg op => Client s ∧ RegOk E s op
  | .poke a val => Client s ∧ E.pubAt val = none ∧ ∀ v ∈ s.reg.vfns, v.ptr ≠ a
  | .call _ this => Client s ∧ this ≠ 0
  | .shCall p _ => Client s ∧ E.writable p = true ∧ ∃ v ∈ s.reg.vfns, v.ptr = p
  | .shEnd => ∃ fs, s.frames = .sh :: fs
  | .setRes res => InHandler s ∧ res ≤ 3
  | .recall res _ p this => InHandler s ∧ res ≤ 3 ∧ E.writable p = true ∧ ∃ c cs, s.stack = c :: cs ∧ c.st ≠ .dead ∧
      ∃ v ∈ s.reg.vfns, c.vfn = some v.oid ∧ p = v.ptr ∧ this = c.this ∧
        ((c.st = .pre ∨ c.st = .post) → c.iface = none → v.ifaces.find? (·.ptr == this) = none)
  | .recallRet => ∃ f fs n v, s.frames = .hook f :: fs ∧ (f.pt = .recPre n (some v) ∨ f.pt = .recPost n (some v))
  | .tick => ∃ f fs, s.frames = .hook f :: fs ∧ (f.pt = .preLoop ∨ f.pt = .postLoop)
  | .handlerRet _ => InHandler s
  | .origRet _ => ∃ f fs, s.frames = .hook f :: fs ∧ f.pt = .inOrig
  | .resolve force => Client s ∧ force = true

end Verif.SH
