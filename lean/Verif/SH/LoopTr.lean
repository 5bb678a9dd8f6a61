import Verif.SH.LoopInv
/-
The machine's steps written out: under the invariant and the contract every step succeeds and has
one of the explicit effects listed in `Tr`.
-/
namespace Verif.SH

/-! ### local variables -/

/-- `*p = v`. -/
def setSlot (fs : List Fr) (v : Val) : Option Slot → List Fr
  | none => fs
  | some (.over fid) => modFrame fs fid fun f => { f with over := v }
  | some (.orig fid) => modFrame fs fid fun f => { f with orig := v }

/-- `*p`. -/
def getSlot (fs : List Fr) : Option Slot → Val
  | none => 0
  | some (.over fid) => ((getFrame fs fid).map Frame.over).getD 0
  | some (.orig fid) => ((getFrame fs fid).map Frame.orig).getD 0

theorem getFrame_mem {fs : List Fr} (hp : (hookFrames fs).Pairwise (fun a b => b.fid < a.fid)) {f : Frame}
    (hf : f ∈ hookFrames fs) : getFrame fs f.fid = some f := by
  induction fs with
  | nil => cases hf
  | cons x xs ih =>
    cases x with
    | sh => exact ih hp hf
    | hook y =>
      unfold getFrame
      rw [hookFrames, List.pairwise_cons] at hp
      rcases List.mem_cons.1 hf with rfl | h
      · rw [if_pos rfl]
      · have := hp.1 f h
        rw [if_neg (by omega)]
        exact ih hp.2 h

theorem getFrame_some {fs : List Fr} {fid : Nat} {f : Frame} (h : getFrame fs fid = some f) :
    f ∈ hookFrames fs ∧ f.fid = fid := by
  induction fs with
  | nil => cases h
  | cons x xs ih =>
    cases x with
    | sh => exact ih h
    | hook y =>
      unfold getFrame at h
      split at h
      · next e => cases h; exact ⟨List.mem_cons_self .., e⟩
      · exact ⟨List.mem_cons_of_mem _ (ih h).1, (ih h).2⟩

theorem deref_ok {fs : List Fr} (hp : (hookFrames fs).Pairwise (fun a b => b.fid < a.fid)) {f : Frame}
    (hf : f ∈ hookFrames fs) : deref fs (some f.fid) = .ok f := by
  simp only [deref, getFrame_mem hp hf]

theorem writeSlot_ok {fs : List Fr} (hp : (hookFrames fs).Pairwise (fun a b => b.fid < a.fid)) {sl : Option Slot}
    (h : SlotOk sl (hookFrames fs)) (v : Val) : writeSlot fs v sl = .ok (setSlot fs v sl) := by
  obtain ⟨f, hf, rfl | rfl⟩ := h <;>
    simp only [writeSlot, bind, Except.bind, deref_ok hp hf, setSlot]

theorem readSlot_ok {fs : List Fr} (hp : (hookFrames fs).Pairwise (fun a b => b.fid < a.fid)) {sl : Option Slot}
    (h : SlotOk sl (hookFrames fs)) : readSlot fs sl = .ok (getSlot fs sl) := by
  obtain ⟨f, hf, rfl | rfl⟩ := h <;>
    simp only [readSlot, bind, Except.bind, deref_ok hp hf, getSlot, getFrame_mem hp hf] <;> rfl

theorem hookFrames_mod (fs : List Fr) (fid : Nat) (g : Frame → Frame) :
    hookFrames (modFrame fs fid g) = (hookFrames fs).map (fun f => if f.fid = fid then g f else f) := by
  induction fs with
  | nil => rfl
  | cons x xs ih =>
    cases x with
    | sh => exact ih
    | hook y =>
      show hookFrames ((if y.fid = fid then Fr.hook (g y) else .hook y) :: modFrame xs fid g) = _
      rw [hookFrames, List.map_cons, ← ih]
      split <;> rfl

/-- Activations agree in everything but return values. -/
structure SameF (f f' : Frame) : Prop where
  fid : f'.fid = f.fid
  cid : f'.cid = f.cid
  depth : f'.depth = f.depth
  pt : f'.pt = f.pt
  status : f'.status = f.status
  prev : f'.prev = f.prev
  cur : f'.cur = f.cur
  addr : f'.addr = f.addr

theorem SameF.refl (f : Frame) : SameF f f := ⟨rfl, rfl, rfl, rfl, rfl, rfl, rfl, rfl⟩

/-- The change `setSlot` makes to one activation. -/
def slotMap (v : Val) (sl : Option Slot) (f : Frame) : Frame :=
  match sl with
  | none => f
  | some (.over fid) => if f.fid = fid then { f with over := v } else f
  | some (.orig fid) => if f.fid = fid then { f with orig := v } else f

theorem slotMap_same (v : Val) (sl : Option Slot) (f : Frame) : SameF f (slotMap v sl f) := by
  unfold slotMap
  split
  · exact SameF.refl f
  · split
    · exact ⟨rfl, rfl, rfl, rfl, rfl, rfl, rfl, rfl⟩
    · exact SameF.refl f
  · split
    · exact ⟨rfl, rfl, rfl, rfl, rfl, rfl, rfl, rfl⟩
    · exact SameF.refl f

/-- `setSlot` frame by frame. -/
def frMap (g : Frame → Frame) : Fr → Fr
  | .hook f => .hook (g f)
  | .sh => .sh

theorem setSlot_eq (fs : List Fr) (v : Val) (sl : Option Slot) : setSlot fs v sl = fs.map (frMap (slotMap v sl)) := by
  have : ∀ (xs : List Fr) (F : Fr → Fr) (G : Fr → Fr), (∀ x, F x = G x) → xs.map F = xs.map G :=
    fun xs F G h => List.map_congr_left fun x _ => h x
  cases sl with
  | none =>
    unfold setSlot
    rw [show fs.map (frMap (slotMap v none)) = fs.map id from this _ _ _ (by intro x; cases x <;> rfl), List.map_id]
  | some sl =>
    cases sl with
    | over fid => exact this _ _ _ (by intro x; cases x with
                                        | sh => rfl
                                        | hook y => simp only [frMap, slotMap]; split <;> rfl)
    | orig fid => exact this _ _ _ (by intro x; cases x with
                                        | sh => rfl
                                        | hook y => simp only [frMap, slotMap]; split <;> rfl)

theorem hookFrames_map (g : Frame → Frame) (fs : List Fr) : hookFrames (fs.map (frMap g)) = (hookFrames fs).map g := by
  induction fs with
  | nil => rfl
  | cons x xs ih => cases x <;> simp [frMap, hookFrames, ih]

theorem hookFrames_setSlot (fs : List Fr) (v : Val) (sl : Option Slot) :
    hookFrames (setSlot fs v sl) = (hookFrames fs).map (slotMap v sl) := by rw [setSlot_eq, hookFrames_map]

/-! ### the explicit steps -/

/-- The context of a fresh call. -/
def freshCtx (n : Nat) (v : Vfn) (this : Addr) : Ctx :=
  { cid := n, st := .born, vfn := some v.oid, iface := (v.ifaces.find? (·.ptr == this)).map Iface.oid,
    locals := some n, this := this, orig := some (.orig n), over := some (.over n), callOrig := true }

/-- The activation of a fresh call. -/
def freshFrame (fid cid depth status : Nat) (v : Vfn) : Frame :=
  { fid, cid, depth, pt := .preLoop, status, prev := ignored, cur := ignored, orig := 0, over := 0, addr := some v.orig }

/-- The context of the function called by SH_CALL. -/
def shCtx (n : Nat) (v : Vfn) : Ctx :=
  { cid := n, st := .dead, vfn := some v.oid, orig := some (.orig (n + 1)), callOrig := true }

/-- The context of a recalled function; `c` is the recalling one, `status` the status so far. -/
def recCtx (fid : Nat) (c : Ctx) (v : Vfn) (this : Addr) (status : Nat) : Ctx :=
  let postR := c.st.toRecall.isPostRecall
  { cid := c.cid, st := c.st.toRecall, iter := c.iter, vfn := some v.oid,
    iface := (v.ifaces.find? (·.ptr == this)).map Iface.oid,
    locals := some fid, this := this, callOrig := !postR,
    orig := if postR then c.orig else some (.orig fid),
    over := if postR ∧ status < override then c.orig else c.over }

/-- The recalling handler waits. -/
def recPt : Pt → Pt
  | .inPre n => .recPre n none
  | .inPost n => .recPost n none
  | p => p

/-- A returning function hands its value to a waiting recalling handler. -/
def handBack (v : Val) : List Fr → List Fr
  | .hook p :: fs =>
    match p.pt with
    | .recPre n none => .hook { p with pt := .recPre n (some v) } :: fs
    | .recPost n none => .hook { p with pt := .recPost n (some v) } :: fs
    | _ => .hook p :: fs
  | fs => fs

/-- The state after popping a context. -/
def popCtx (s : St) (cs : List Ctx) : St :=
  let log := match s.tasks.headD none with
    | some v => Ev.freed v :: s.log
    | none => s.log
  let s' := { s with stack := cs, tasks := s.tasks.tail, spare := s.tasks.headD none :: s.spare, log := log }
  if cs = [] ∧ s.pend ≠ [] then resolve false s' else s'

/-- Where the loop continues after a handler. -/
def loopPt (post : Bool) : Pt := if post then .postLoop else .preLoop

/-- A handler of the pre (`false`) or post (`true`) loop is running. -/
def AtHandler (post : Bool) (p : Pt) : Prop := ∃ n, p = if post then .inPost n else .inPre n

/-- The same for a handler whose recall has returned `v`. -/
def AtRec (post : Bool) (v : Val) (p : Pt) : Prop := ∃ n, p = if post then .recPost n (some v) else .recPre n (some v)

/-- Effects of the steps. -/
inductive Tr (E : Env) (s : St) : Op → St → Prop
  | reg (op : RegOp) (r : Reg) (x : Int) (ns : List Note) : regStepN E s.reg op = .ok (r, x, ns) →
      Tr E s (.reg op) (afterReg (applyNotes { s with reg := r } ns) op)
  | poke (a val : Addr) : Tr E s (.poke a val) { s with reg := { s.reg with mem := upd s.reg.mem a val } }
  | plain (p this : Addr) : (∀ v ∈ s.reg.vfns, v.ptr = p → E.writable p = false) → Tr E s (.call p this) s
  | call (v : Vfn) (this : Addr) : v ∈ s.reg.vfns → E.writable v.ptr = true →
      Tr E s (.call v.ptr this)
        { s with stack := freshCtx s.next v this :: s.stack, tasks := s.spare.headD none :: s.tasks, spare := s.spare.tail,
                 frames := .hook (freshFrame s.next s.next s.stack.length ignored v) :: s.frames,
                 log := .enter s.next s.next (some v.ptr) this :: s.log, next := s.next + 1 }
  | shCall (v : Vfn) (this : Addr) : v ∈ s.reg.vfns → E.writable v.ptr = true →
      Tr E s (.shCall v.ptr this)
        { s with stack := shCtx s.next v :: s.stack, tasks := none :: s.tasks, spare := s.spare.tail,
                 frames := .hook (freshFrame (s.next + 1) s.next s.stack.length ignored v) :: .sh :: s.frames,
                 log := .shEnter s.next (s.next + 1) (some v.ptr) this :: s.log, next := s.next + 2 }
  | shEnd (fs : List Fr) : s.frames = .sh :: fs → Tr E s .shEnd { s with frames := fs }
  | setRes (res : Nat) (f : Frame) (fs : List Fr) : s.frames = .hook f :: fs →
      Tr E s (.setRes res) { s with frames := .hook { f with cur := res } :: fs }
  | recall (res : Nat) (val : Val) (v : Vfn) (f : Frame) (fs : List Fr) (c : Ctx) (cs : List Ctx) :
      s.frames = .hook f :: fs → s.stack = c :: cs → v ∈ s.reg.vfns → c.vfn = some v.oid →
      Tr E s (.recall res val v.ptr c.this)
        { s with stack := recCtx s.next c v c.this (max f.status res) :: { c with st := .dead } :: cs,
                 tasks := none :: s.tasks, spare := s.spare.tail,
                 frames := .hook (freshFrame s.next c.cid (cs.length + 1) (max f.status res) v) ::
                   (let fs' := .hook { f with cur := res, status := max f.status res, pt := recPt f.pt } :: fs
                    if res ≥ override then setSlot fs' val c.over else fs'),
                 log := .recall c.cid f.fid s.next (max f.status res) :: s.log, next := s.next + 1 }
  | recallRet (f : Frame) (fs : List Fr) (c : Ctx) (cs : List Ctx) (post : Bool) (v : Val) :
      s.frames = .hook f :: fs → s.stack = c :: cs → AtRec post v f.pt →
      Tr E s .recallRet
        { s with frames := setSlot (.hook { f with cur := supercede, prev := supercede, status := max f.status supercede,
                                                   pt := loopPt post } :: fs) v c.over,
                 log := .result f.fid post supercede v :: s.log }
  | tickHook (f : Frame) (fs : List Fr) (c : Ctx) (cs : List Ctx) (g : Got) (grp : Grp) (h : Hook) (post : Bool) :
      s.frames = .hook f :: fs → s.stack = c :: cs → f.pt = loopPt post → getNext s.reg c = .ok g →
      g.hook = some (grp, h) →
      Tr E s .tick
        { s with stack := g.ctx :: cs, log := logGot f.cid f.fid g s.log,
                 frames := .hook { f with pt := if post then .inPost h.nid else .inPre h.nid, cur := ignored } :: fs }
  | tickOrig (f : Frame) (fs : List Fr) (c : Ctx) (cs : List Ctx) (g : Got) (a : Addr) :
      s.frames = .hook f :: fs → s.stack = c :: cs → f.pt = .preLoop → getNext s.reg c = .ok g →
      g.hook = none → f.status ≠ supercede → g.ctx.callOrig = true → f.addr = some a →
      Tr E s .tick
        { s with stack := g.ctx :: cs, log := .origCall f.cid f.fid a :: logGot f.cid f.fid g s.log,
                 frames := .hook { f with pt := .inOrig } :: fs }
  | tickSkip (f : Frame) (fs : List Fr) (c : Ctx) (cs : List Ctx) (g : Got) :
      s.frames = .hook f :: fs → s.stack = c :: cs → f.pt = .preLoop → getNext s.reg c = .ok g →
      g.hook = none → ¬ (f.status ≠ supercede ∧ g.ctx.callOrig = true) →
      Tr E s .tick
        { s with stack := g.ctx :: cs, log := logGot f.cid f.fid g s.log,
                 frames := .hook { f with pt := .postLoop, orig := f.over, prev := ignored } :: fs }
  | tickRet (f : Frame) (fs : List Fr) (c : Ctx) (cs : List Ctx) (g : Got) (v : Val) (s' : St) :
      s.frames = .hook f :: fs → s.stack = c :: cs → f.pt = .postLoop → getNext s.reg c = .ok g →
      g.hook = none → v = getSlot s.frames (if f.status ≥ override then c.over else c.orig) →
      s' = popCtx { s with log := logGot f.cid f.fid g s.log } cs →
      Tr E s .tick { s' with frames := handBack v fs, log := .ret f.cid f.fid v :: s'.log }
  | handlerRet (v : Val) (f : Frame) (fs : List Fr) (c : Ctx) (cs : List Ctx) (post : Bool) :
      s.frames = .hook f :: fs → s.stack = c :: cs → AtHandler post f.pt →
      Tr E s (.handlerRet v)
        { s with frames := (let fs' := .hook { f with prev := f.cur, status := max f.status f.cur, pt := loopPt post } :: fs
                            if f.cur ≥ override then setSlot fs' v c.over else fs'),
                 log := .result f.fid post f.cur v :: s.log }
  | origRet (v : Val) (f : Frame) (fs : List Fr) : s.frames = .hook f :: fs → f.pt = .inOrig →
      Tr E s (.origRet v)
        { s with frames := .hook { f with orig := v, prev := ignored, pt := .postLoop } :: fs,
                 log := .origRet f.fid v :: s.log }
  | resolve (force : Bool) : Tr E s (.resolve force) (resolve force s)

/-! ### every step is one of these -/

theorem Al.inv {r : Reg} {log : List Ev} {f : Frame} {fs : List Frame} {st : List Ctx} (h : Al r log (f :: fs) st) :
    ∃ c cs, st = c :: cs ∧ FOk r log f c fs ∧ f.depth = cs.length ∧ Al r log fs cs := by
  cases h with
  | cons h1 h2 h3 => exact ⟨_, _, rfl, h1, h2, h3⟩

theorem Al.nil_inv {r : Reg} {log : List Ev} {st : List Ctx} (h : Al r log [] st) : st = [] := by cases h; rfl

theorem Al.length {r : Reg} {log : List Ev} {fs : List Frame} {st : List Ctx} (h : Al r log fs st) :
    fs.length = st.length := by
  induction h with
  | nil => rfl
  | cons _ _ _ ih => simp [ih]

theorem ctxAt_top (c : Ctx) (cs : List Ctx) : ctxAt (c :: cs) cs.length = some c := by
  simp [ctxAt]

theorem setCtx_top (c c' : Ctx) (cs : List Ctx) : setCtx (c :: cs) cs.length c' = c' :: cs := by
  simp [setCtx]

/-- The top of a machine whose innermost frame is a hook function. -/
theorem MInv.top {E : Env} {s : St} (h : MInv E s) {f : Frame} {fs : List Fr} (hf : s.frames = .hook f :: fs) :
    ∃ c cs, s.stack = c :: cs ∧ FOk s.reg s.log f c (hookFrames fs) ∧ f.depth = cs.length ∧
      Al s.reg s.log (hookFrames fs) cs := by
  have := h.al; rw [hf] at this; exact this.inv

theorem InHandler.elim {s : St} (h : InHandler s) : ∃ f fs post, s.frames = .hook f :: fs ∧ AtHandler post f.pt := by
  unfold InHandler at h
  cases hf : s.frames with
  | nil => rw [hf] at h; exact h.elim
  | cons x xs =>
    rw [hf] at h
    cases x with
    | sh => exact h.elim
    | hook f =>
      simp only at h
      cases hp : f.pt with
      | inPre n => exact ⟨f, xs, false, rfl, n, hp⟩
      | inPost n => exact ⟨f, xs, true, rfl, n, hp⟩
      | _ => simp [hp] at h

/-- The loop of a running handler. -/
theorem FOk.live {r : Reg} {log : List Ev} {f : Frame} {c : Ctx} {fs : List Frame} (h : FOk r log f c fs)
    (hp : f.pt ≠ .preLoop) (hp2 : f.pt ≠ .inOrig) (hp3 : f.pt ≠ .postLoop) :
    c.locals = some f.fid ∧ SlotOk c.over (f :: fs) ∧ CtxOk r log c := by
  rcases h.kind with ⟨_, _, _, _, _, h | h | h⟩ | h
  · exact absurd h hp
  · exact absurd h hp2
  · exact absurd h hp3
  · exact h

theorem AtHandler.ne {post : Bool} {p : Pt} (h : AtHandler post p) : p ≠ .preLoop ∧ p ≠ .inOrig ∧ p ≠ .postLoop := by
  obtain ⟨n, rfl⟩ := h; cases post <;> simp

theorem AtRec.ne {post : Bool} {v : Val} {p : Pt} (h : AtRec post v p) : p ≠ .preLoop ∧ p ≠ .inOrig ∧ p ≠ .postLoop := by
  obtain ⟨n, rfl⟩ := h; cases post <;> simp

/-- In plugin code the innermost context is neither ignoring nor about to be recalled. -/
theorem MInv.client {E : Env} {s : St} (h : MInv E s) (hc : Client s) {c : Ctx} {cs : List Ctx} (hs : s.stack = c :: cs) :
    c.st ≠ .ignore ∧ c.st.isRecall = false := by
  unfold Client at hc
  cases hf : s.frames with
  | nil => have := h.al; rw [hf, hs] at this; cases this
  | cons x xs =>
    rw [hf] at hc
    cases x with
    | sh => exact hc.elim
    | hook f =>
      obtain ⟨c', cs', e, hk, _, _⟩ := h.top hf
      rw [hs] at e; cases e
      have hp := hk.pt
      simp only at hc
      cases hpt : f.pt with
      | inPre n => rw [hpt] at hp; rcases hp with e | e | e <;> rw [e] <;> simp [CtxSt.isRecall]
      | inPost n => rw [hpt] at hp; rcases hp with e | e | e <;> rw [e] <;> simp [CtxSt.isRecall]
      | inOrig => rw [hpt] at hp; rcases hp with e | e <;> rw [e] <;> simp [CtxSt.isRecall]
      | _ => simp [hpt] at hc

theorem SlotOk.mono {sl : Option Slot} {fs fs' : List Frame} (h : SlotOk sl fs)
    (hm : ∀ f ∈ fs, ∃ f' ∈ fs', f'.fid = f.fid) : SlotOk sl fs' := by
  obtain ⟨f, hf, he⟩ := h
  obtain ⟨f', hf', e⟩ := hm f hf
  exact ⟨f', hf', by rw [e]; exact he⟩

theorem setupHookLoop_fresh {s : St} (hc : ∀ c cs, s.stack = c :: cs → c.st ≠ .ignore ∧ c.st.isRecall = false) (v : Vfn)
    (this : Addr) : setupHookLoop s (some v) this = .ok
        { s with stack := freshCtx s.next v this :: s.stack, tasks := s.spare.headD none :: s.tasks, spare := s.spare.tail,
                 frames := .hook (freshFrame s.next s.next s.stack.length ignored v) :: s.frames,
                 log := .enter s.next s.next (some v.ptr) this :: s.log, next := s.next + 1 } := by
  unfold setupHookLoop
  cases hst : s.stack with
  | nil => simp [freshCtx, freshFrame]
  | cons c cs =>
    obtain ⟨h1, h2⟩ := hc c cs hst
    simp [h1, h2, freshCtx, freshFrame]

theorem regStepN_regStep (E : Env) (r : Reg) (op : RegOp) :
    regStep E r op = (regStepN E r op).map (fun x => (x.1, x.2.1)) := by
  cases op with
  | add a => simp only [regStep, regStepN, bind, Except.bind]; cases addHook E r a <;> rfl
  | removeId id => simp only [regStep, regStepN, bind, Except.bind]; cases removeHookById E r id <;> rfl
  | remove plug iface offs info h post =>
    simp only [regStep, regStepN, bind, Except.bind]; cases removeHook E r plug iface offs info h post <;> rfl
  | unload plug => simp only [regStep, regStepN, bind, Except.bind]; cases unloadReg E r plug <;> rfl
  | removeHm plug pub => simp only [regStep, regStepN, bind, Except.bind]; cases removeHookManager E r plug pub <;> rfl
  | pauseId id b => rfl
  | pausePlugin plug b => rfl
  | shutdown => simp only [regStep, regStepN, bind, Except.bind]; cases shutdownReg E r <;> rfl

theorem RegOk.opOk {E : Env} {s : St} {op : RegOp} (h : RegOk E s op) : OpOk s.reg op := by
  cases op <;> first | exact h.1 | trivial

theorem regStepN_ok {E : Env} {r : Reg} {mem0 : Addr → Addr} (hw : RegInv E mem0 r) {op : RegOp} (hok : OpOk r op) :
    ∃ r' x ns, regStepN E r op = .ok (r', x, ns) ∧ regStep E r op = .ok (r', x) := by
  obtain ⟨r', x, h, _⟩ := regStep_spec (E := E) hw hok
  have h2 := h
  rw [regStepN_regStep] at h2
  cases hn : regStepN E r op with
  | error e => rw [hn] at h2; cases h2
  | ok y =>
    rw [hn] at h2
    obtain ⟨a, b, ns⟩ := y
    simp only [Except.map] at h2
    cases h2
    exact ⟨_, _, _, rfl, h⟩

theorem getNext_any {r : Reg} (hs : SInv r) {log : List Ev} {c : Ctx} (h : CtxOk r log c) :
    ∃ g, getNext r c = .ok g ∧ g.ctx.over = c.over ∧ g.ctx.orig = c.orig ∧ g.ctx.callOrig = c.callOrig := by
  rcases h with h | ⟨v, h⟩
  · exact ⟨_, getNext_dead h, rfl, rfl, rfl⟩
  · obtain ⟨g, h1, h2⟩ := getNext_live hs h 0
    exact ⟨g, h1, h2.keep.over, h2.keep.orig, h2.keep.callOrig⟩

theorem FOk.ctxOk {r : Reg} {log : List Ev} {f : Frame} {c : Ctx} {fs : List Frame} (h : FOk r log f c fs) :
    CtxOk r log c := by
  rcases h.kind with h | h
  · exact Or.inl h.1
  · exact h.2.2

theorem handBack_eq (v : Val) (fs : List Fr) :
    (match fs with
      | .hook p :: fs' =>
        match p.pt with
        | .recPre n none => .hook { p with pt := .recPre n (some v) } :: fs'
        | .recPost n none => .hook { p with pt := .recPost n (some v) } :: fs'
        | _ => fs
      | _ => fs) = handBack v fs := by
  unfold handBack
  split
  · split <;> rfl
  · rfl

theorem modFrame_none {fs : List Fr} {fid : Nat} {g : Frame → Frame} (h : ∀ f ∈ hookFrames fs, f.fid ≠ fid) :
    modFrame fs fid g = fs := by
  induction fs with
  | nil => rfl
  | cons x xs ih =>
    cases x with
    | sh => show Fr.sh :: modFrame xs fid g = _; rw [ih h]
    | hook y =>
      show (if y.fid = fid then Fr.hook (g y) else .hook y) :: modFrame xs fid g = _
      rw [ih (fun f hf => h f (List.mem_cons_of_mem _ hf)), if_neg (h y (List.mem_cons_self ..))]

theorem modFrame_top {f : Frame} {fs : List Fr} (h : (hookFrames (.hook f :: fs)).Pairwise (fun a b => b.fid < a.fid))
    {fid : Nat} (e : f.fid = fid) (g : Frame → Frame) : modFrame (.hook f :: fs) fid g = .hook (g f) :: fs := by
  rw [hookFrames, List.pairwise_cons] at h
  show (if f.fid = fid then Fr.hook (g f) else .hook f) :: modFrame fs fid g = _
  rw [if_pos e, modFrame_none (fun x hx hc => by have := h.1 x hx; omega)]

theorem slotMap_pt (v : Val) (sl : Option Slot) (f : Frame) (p : Pt) :
    Frame.mk (slotMap v sl f).fid (slotMap v sl f).cid (slotMap v sl f).depth p (slotMap v sl f).status
      (slotMap v sl f).prev (slotMap v sl f).cur (slotMap v sl f).orig (slotMap v sl f).over (slotMap v sl f).addr =
      slotMap v sl { f with pt := p } := by
  unfold slotMap
  split
  · rfl
  · dsimp only; split <;> rfl
  · dsimp only; split <;> rfl

theorem setSlot_cons (f : Frame) (fs : List Fr) (v : Val) (sl : Option Slot) :
    setSlot (.hook f :: fs) v sl = .hook (slotMap v sl f) :: setSlot fs v sl := by
  rw [setSlot_eq, setSlot_eq]; rfl

theorem pairwise_top {f f' : Frame} {fs : List Fr} (h : (hookFrames (.hook f :: fs)).Pairwise (fun a b => b.fid < a.fid))
    (e : f'.fid = f.fid) : (hookFrames (.hook f' :: fs)).Pairwise (fun a b => b.fid < a.fid) := by
  rw [hookFrames, List.pairwise_cons] at h ⊢
  rw [e]; exact h

theorem toRecall_live {st : CtxSt} (h : st = .pre ∨ st = .preVP ∨ st = .post ∨ st = .postVP) :
    st.toRecall.isRecall = true ∧ st.toRecall ≠ .ignore := by
  rcases h with rfl | rfl | rfl | rfl <;> exact ⟨rfl, by decide⟩

/-- `SetRes` in a handler. -/
theorem setRes_ok {f : Frame} {fs : List Fr} {c : Ctx} {cs : List Ctx} {s : St} (hf : s.frames = .hook f :: fs)
    (hst : s.stack = c :: cs) (hl : c.locals = some f.fid)
    (hfid : (hookFrames s.frames).Pairwise (fun a b => b.fid < a.fid)) (res : Nat) :
    setRes s res = .ok { s with frames := .hook { f with cur := res } :: fs } := by
  have hfm : f ∈ hookFrames s.frames := by rw [hf]; exact List.mem_cons_self ..
  unfold setRes
  simp only [hst, hl, deref_ok hfid hfm, bind, Except.bind]
  rw [hf] at hfid ⊢
  rw [modFrame_top hfid rfl]

/-- The part of a recall before the call. -/
theorem recall_ok {E : Env} {f : Frame} {fs : List Fr} {c : Ctx} {cs : List Ctx} {s : St} (hf : s.frames = .hook f :: fs)
    (hst : s.stack = c :: cs) (hl : c.locals = some f.fid) (hov : SlotOk c.over (hookFrames s.frames))
    (hfid : (hookFrames s.frames).Pairwise (fun a b => b.fid < a.fid)) (hp : ∃ post, AtHandler post f.pt)
    (hlive : c.st = .pre ∨ c.st = .preVP ∨ c.st = .post ∨ c.st = .postVP) {v : Vfn} (hr : RegE E s.reg) (hv : v ∈ s.reg.vfns)
    (hwr : E.writable v.ptr = true) (res : Nat) (val : Val) (this : Addr) :
    recall E s res val v.ptr this = .ok
        { s with stack := recCtx s.next c v this (max f.status res) :: { c with st := .dead } :: cs,
                 tasks := none :: s.tasks, spare := s.spare.tail,
                 frames := .hook (freshFrame s.next c.cid (cs.length + 1) (max f.status res) v) ::
                   (let fs' := .hook { f with cur := res, status := max f.status res, pt := recPt f.pt } :: fs
                    if res ≥ override then setSlot fs' val c.over else fs'),
                 log := .recall c.cid f.fid s.next (max f.status res) :: s.log, next := s.next + 1 } := by
  rw [hf] at hfid hov
  have hfid2 : (hookFrames (.hook { f with cur := res, status := max f.status res } :: fs)).Pairwise (fun a b => b.fid < a.fid) :=
    pairwise_top hfid rfl
  have hfid1 : (hookFrames (.hook { f with cur := res } :: fs)).Pairwise (fun a b => b.fid < a.fid) :=
    pairwise_top hfid rfl
  have hov2 : SlotOk c.over (hookFrames (.hook { f with cur := res, status := max f.status res } :: fs)) := by
    refine hov.mono ?_
    intro x hx
    rcases List.mem_cons.1 hx with rfl | hx
    · exact ⟨_, List.mem_cons_self .., rfl⟩
    · exact ⟨x, List.mem_cons_of_mem _ hx, rfl⟩
  have hdo : doRecall { s with frames := .hook { f with cur := res } :: fs } = .ok
      { s with frames := .hook { f with cur := res, status := max f.status res } :: fs,
               stack := { cid := c.cid, st := c.st.toRecall, iter := c.iter, locals := c.locals, over := c.over, orig := if c.st.toRecall.isPostRecall then c.orig else none } :: { c with st := .dead } :: cs,
               tasks := none :: s.tasks, spare := s.spare.tail } := by
    unfold doRecall
    have hd : deref (.hook { f with cur := res } :: fs) (some f.fid) = .ok { f with cur := res } :=
      deref_ok (f := { f with cur := res }) hfid1 (List.mem_cons_self ..)
    simp only [hst, hl, bind, Except.bind, hd]
    rw [modFrame_top hfid1 rfl]
    rfl
  unfold recall
  rw [setRes_ok hf hst hl (hf ▸ hfid)]
  simp only [bind, Except.bind]
  rw [hdo]
  simp only
  have htail : ∀ (F : List Fr) (f' : Frame), deref F (some f.fid) = .ok f' → f'.fid = f.fid → f'.status = max f.status res →
      callSlot E { s with frames := F, stack := { cid := c.cid, st := c.st.toRecall, iter := c.iter, locals := c.locals, over := c.over, orig := if c.st.toRecall.isPostRecall then c.orig else none } :: { c with st := .dead } :: cs, tasks := none :: s.tasks, spare := s.spare.tail } v.ptr this = .ok
        { s with stack := recCtx s.next c v this (max f.status res) :: { c with st := .dead } :: cs,
                 tasks := none :: s.tasks, spare := s.spare.tail,
                 frames := .hook (freshFrame s.next c.cid (cs.length + 1) (max f.status res) v) :: F,
                 log := .recall c.cid f.fid s.next (max f.status res) :: s.log, next := s.next + 1 } := by
    intro F f' hd1 hd2 hd3
    refine (callSlot_hooked (s := ⟨s.reg, _, _, _, F, s.pend, s.log, s.next⟩) hr hv hwr this).trans ?_
    unfold setupHookLoop
    obtain ⟨hl1, hl2⟩ := toRecall_live hlive
    simp only [hl2, hl1, if_false, if_true, bind, Except.bind, hl, hd1, hd2, hd3]
    unfold recCtx
    cases hpr : c.st.toRecall.isPostRecall <;> simp [freshFrame]
  obtain ⟨post, n, hn⟩ := hp
  by_cases hres : res ≥ override
  · simp only [if_pos hres]
    rw [writeSlot_ok hfid2 hov2]
    simp only [pure, Except.pure]
    have hsm := slotMap_same val c.over { f with cur := res, status := max f.status res, pt := recPt f.pt }
    have e1 := hsm.fid
    dsimp only at e1
    have := htail (setSlot (.hook { f with cur := res, status := max f.status res, pt := recPt f.pt } :: fs) val c.over)
      (slotMap val c.over { f with cur := res, status := max f.status res, pt := recPt f.pt })
      (by rw [setSlot_cons]; simp [deref, getFrame, e1]) hsm.fid hsm.status
    rw [← this]
    congr 2
    rw [setSlot_cons, setSlot_cons]
    have e2 := (slotMap_same val c.over { f with cur := res, status := max f.status res }).pt
    cases post with
    | false =>
      simp only [Bool.false_eq_true, if_false] at hn
      simp only [e2.trans hn]
      rw [slotMap_pt]
      simp only [hn, recPt]
    | true =>
      simp only [if_true] at hn
      simp only [e2.trans hn]
      rw [slotMap_pt]
      simp only [hn, recPt]
  · simp only [if_neg hres, pure, Except.pure]
    have := htail (.hook { f with cur := res, status := max f.status res, pt := recPt f.pt } :: fs)
      { f with cur := res, status := max f.status res, pt := recPt f.pt }
      (by simp [deref, getFrame]) rfl rfl
    rw [← this]
    congr 2
    cases post with
    | false =>
      simp only [Bool.false_eq_true, if_false] at hn
      simp only [hn]
      rfl
    | true =>
      simp only [if_true] at hn
      simp only [hn]
      rfl

/-- The rest of the loop body after a handler. -/
theorem handlerRet_ok {f : Frame} {fs : List Fr} {c : Ctx} {cs : List Ctx} {s : St} (hf : s.frames = .hook f :: fs)
    (hst : s.stack = c :: cs) (hd : f.depth = cs.length) (hov : SlotOk c.over (hookFrames s.frames))
    (hfid : (hookFrames s.frames).Pairwise (fun a b => b.fid < a.fid)) {post : Bool} (hp : AtHandler post f.pt) (v : Val) :
    handlerRet s v = .ok
        { s with frames := (let fs' := .hook { f with prev := f.cur, status := max f.status f.cur, pt := loopPt post } :: fs
                            if f.cur ≥ override then setSlot fs' v c.over else fs'),
                 log := .result f.fid post f.cur v :: s.log } := by
  rw [hf] at hfid hov
  have hfid1 : (hookFrames (.hook { f with prev := f.cur, status := max f.status f.cur, pt := loopPt post } :: fs)).Pairwise (fun a b => b.fid < a.fid) :=
    pairwise_top hfid rfl
  have hov1 : SlotOk c.over (hookFrames (.hook { f with prev := f.cur, status := max f.status f.cur, pt := loopPt post } :: fs)) := by
    refine hov.mono ?_
    intro x hx
    rcases List.mem_cons.1 hx with rfl | hx
    · exact ⟨_, List.mem_cons_self .., rfl⟩
    · exact ⟨x, List.mem_cons_of_mem _ hx, rfl⟩
  have hw := writeSlot_ok hfid1 hov1 v
  obtain ⟨n, hn⟩ := hp
  unfold handlerRet
  rw [hf]
  cases post with
  | false =>
    simp only [Bool.false_eq_true, if_false] at hn
    simp only [hn]
    simp only [loopPt, Bool.false_eq_true, if_false] at hw ⊢
    split
    · simp only [hst, hd, ctxAt_top, bind, Except.bind]
      rw [hd] at hw
      rw [hw]
    · rfl
  | true =>
    simp only [if_true] at hn
    simp only [hn]
    simp only [loopPt, if_true] at hw ⊢
    split
    · simp only [hst, hd, ctxAt_top, bind, Except.bind]
      rw [hd] at hw
      rw [hw]
    · rfl

/-- No step fails, and every step is one of `Tr`. -/
theorem step_tr {E : Env} (hE : ∀ a, E.writable a = true → E.inMemory a = true) {s : St} (h : MInv E s) {op : Op}
    (hok : Ok E s op) : ∃ s', step E s op = .ok s' ∧ Tr E s op s' := by
  obtain ⟨mem0, hw, h0⟩ := h.reg.inv
  cases op with
  | reg op =>
    obtain ⟨r', x, ns, h1, h2⟩ := regStepN_ok (E := E) hw hok.2.opOk
    refine ⟨_, ?_, .reg op r' x ns h1⟩
    simp only [step, regDo, bind, Except.bind, h1]
  | poke a val => exact ⟨_, rfl, .poke a val⟩
  | call p this =>
    by_cases hp : ∃ v ∈ s.reg.vfns, v.ptr = p ∧ E.writable p = true
    · obtain ⟨v, hv, rfl, hwr⟩ := hp
      refine ⟨_, ?_, .call v this hv hwr⟩
      show callSlot E s v.ptr this = _
      rw [callSlot_hooked h.reg hv hwr, setupHookLoop_fresh (fun c cs hs => h.client hok.1 hs)]
    · have hp' : ∀ v ∈ s.reg.vfns, v.ptr = p → E.writable p = false := by
        intro v hv he
        cases hwr : E.writable p with
        | false => rfl
        | true => exact absurd ⟨v, hv, he, hwr⟩ hp
      exact ⟨s, callSlot_plain hE h.reg hp' this, .plain p this hp'⟩
  | shCall p this =>
    obtain ⟨hcl, hwr, v, hv, rfl⟩ := hok
    refine ⟨_, ?_, .shCall v this hv hwr⟩
    show callSlot E _ v.ptr this = _
    rw [callSlot_hooked (s := { pushCtx s { cid := s.next, st := .ignore } with frames := _, next := _ }) h.reg hv hwr]
    simp [setupHookLoop, pushCtx, shCtx, freshFrame]
  | shEnd =>
    obtain ⟨fs, hf⟩ := hok
    refine ⟨_, ?_, .shEnd fs hf⟩
    show shEnd s = _
    unfold shEnd
    rw [hf]
    have hni : ∀ c cs, s.stack = c :: cs → c.st ≠ .ignore := by
      intro c cs hst hc
      have hal := h.al
      rw [hf, hst] at hal
      cases hfs : hookFrames fs with
      | nil => rw [hookFrames, hfs] at hal; cases hal
      | cons g gs =>
        rw [hookFrames, hfs] at hal
        obtain ⟨c', cs', e, hk, _, _⟩ := hal.inv
        cases e
        have := hk.pt
        rw [hc] at this
        cases hp : g.pt <;> simp [hp, PtOk] at this
    cases hst : s.stack with
    | nil => simp [bind, Except.bind, pure, Except.pure, hst]
    | cons c cs => simp [bind, Except.bind, pure, Except.pure, hni c cs hst, hst]
  | setRes res =>
    obtain ⟨f, fs, post, hf, hp⟩ := hok.1.elim
    obtain ⟨c, cs, hst, hk, hd, hal⟩ := h.top hf
    refine ⟨_, ?_, .setRes res f fs hf⟩
    obtain ⟨hl, _, _⟩ := hk.live hp.ne.1 hp.ne.2.1 hp.ne.2.2
    exact setRes_ok hf hst hl h.fid res
  | recall res val p this =>
    obtain ⟨hin, hres, hwr, c, cs, hst, hnd, v, hv, hcv, rfl, rfl, _⟩ := hok
    obtain ⟨f, fs, post, hf, hp⟩ := hin.elim
    obtain ⟨c', cs', hst', hk, hd, hal⟩ := h.top hf
    rw [hst] at hst'; cases hst'
    obtain ⟨hl, hov, hcx⟩ := hk.live hp.ne.1 hp.ne.2.1 hp.ne.2.2
    refine ⟨_, ?_, .recall res val v f fs c cs hf hst hv hcv⟩
    have hlive : c.st = .pre ∨ c.st = .preVP ∨ c.st = .post ∨ c.st = .postVP := by
      have := hk.pt
      obtain ⟨n, hn⟩ := hp
      rw [hn] at this
      cases post with
      | false =>
        rcases this with h | h | h
        · exact Or.inl h
        · exact Or.inr (Or.inl h)
        · exact absurd h hnd
      | true =>
        rcases this with h | h | h
        · exact Or.inr (Or.inr (Or.inl h))
        · exact Or.inr (Or.inr (Or.inr h))
        · exact absurd h hnd
    exact recall_ok hf hst hl (by rw [hf]; exact hov) h.fid ⟨post, hp⟩ hlive h.reg hv hwr res val c.this
  | recallRet =>
    obtain ⟨f, fs, n, v, hf, hp⟩ := hok
    obtain ⟨c, cs, hst, hk, hd, hal⟩ := h.top hf
    have key : ∀ post, AtRec post v f.pt → ∃ s', step E s .recallRet = .ok s' ∧ Tr E s .recallRet s' := by
      intro post hr
      obtain ⟨hl, hov, hcx⟩ := hk.live hr.ne.1 hr.ne.2.1 hr.ne.2.2
      refine ⟨_, ?_, .recallRet f fs c cs post v hf hst hr⟩
      have hfid := h.fid
      rw [hf] at hfid
      obtain ⟨m, hm⟩ := hr
      have hat : AtHandler post (if post then Pt.inPost m else .inPre m) := ⟨m, rfl⟩
      have h1 := setRes_ok (s := { s with frames := .hook { f with pt := if post then Pt.inPost m else .inPre m } :: fs })
        (f := { f with pt := if post then Pt.inPost m else .inPre m }) rfl hst hl (pairwise_top hfid rfl) supercede
      have h2 := handlerRet_ok (s := { s with frames := .hook { f with pt := if post then Pt.inPost m else .inPre m, cur := supercede } :: fs })
        (f := { f with pt := if post then Pt.inPost m else .inPre m, cur := supercede }) (post := post) rfl hst hd
        (by refine hov.mono ?_
            intro x hx
            rcases List.mem_cons.1 hx with rfl | hx
            · exact ⟨_, List.mem_cons_self .., rfl⟩
            · exact ⟨x, List.mem_cons_of_mem _ hx, rfl⟩)
        (pairwise_top hfid rfl) ⟨m, rfl⟩ v
      show recallRet s = _
      unfold recallRet
      rw [hf]
      cases post with
      | false =>
        simp only [Bool.false_eq_true, if_false] at hm h1 h2
        simp only [hm, bind, Except.bind]
        rw [h1]
        simp only
        rw [h2]
        rfl
      | true =>
        simp only [if_true] at hm h1 h2
        simp only [hm, bind, Except.bind]
        rw [h1]
        simp only
        rw [h2]
        rfl
    rcases hp with hp | hp
    · exact key false ⟨n, hp⟩
    · exact key true ⟨n, hp⟩
  | tick =>
    obtain ⟨f, fs, hf, hp⟩ := hok
    obtain ⟨c, cs, hst, hk, hd, hal⟩ := h.top hf
    obtain ⟨g, hg, hgo, hgr, hgc⟩ := getNext_any hw.s hk.ctxOk
    have hct : ctxAt s.stack f.depth = some c := by rw [hst, hd]; exact ctxAt_top c cs
    have hsc : setCtx s.stack f.depth g.ctx = g.ctx :: cs := by rw [hst, hd]; exact setCtx_top c g.ctx cs
    rcases hp with hp | hp
    · show ∃ s', tick s = .ok s' ∧ _
      unfold tick
      rw [hf]
      simp only [hp, hct, bind, Except.bind, hg, hsc]
      cases hgh : g.hook with
      | some x =>
        obtain ⟨grp, hh⟩ := x
        simp only
        exact ⟨_, rfl, .tickHook f fs c cs g grp hh false hf hst hp hg hgh⟩
      | none =>
        simp only
        by_cases hc : f.status ≠ supercede ∧ g.ctx.callOrig = true
        · rw [if_pos hc]
          obtain ⟨a, ha⟩ := Option.ne_none_iff_exists'.1 hk.addr
          rw [ha]
          refine ⟨_, rfl, ?_⟩
          have := Tr.tickOrig (E := E) f fs c cs g a hf hst hp hg hgh hc.1 hc.2 ha
          rw [ha] at this
          exact this
        · rw [if_neg hc]
          exact ⟨_, rfl, .tickSkip f fs c cs g hf hst hp hg hgh hc⟩
    · show ∃ s', tick s = .ok s' ∧ _
      unfold tick
      rw [hf]
      simp only [hp, hct, bind, Except.bind, hg, hsc]
      cases hgh : g.hook with
      | some x =>
        obtain ⟨grp, hh⟩ := x
        simp only
        exact ⟨_, rfl, .tickHook f fs c cs g grp hh true hf hst hp hg hgh⟩
      | none =>
        simp only
        have hsl : SlotOk (if f.status ≥ override then g.ctx.over else g.ctx.orig) (hookFrames s.frames) := by
          rw [hf]
          split
          · next hs =>
            rw [hgo]
            rcases hk.kind with ⟨_, _, h0, _⟩ | hk
            · rw [h0] at hs; simp [override] at hs
            · exact hk.2.1
          · rw [hgr]; exact hk.orig
        rw [hf] at hsl
        have hfid := h.fid
        rw [hf] at hfid
        rw [readSlot_ok hfid hsl]
        simp only
        have hend : endContext { s with stack := g.ctx :: cs, log := logGot f.cid f.fid g s.log } =
            .ok (popCtx { s with log := logGot f.cid f.fid g s.log } cs) := by
          unfold endContext popCtx
          simp only
          split <;> rfl
        rw [hf] at hend
        rw [hend]
        simp only
        rw [hgo, hgr]
        refine ⟨_, rfl, ?_⟩
        have := Tr.tickRet (E := E) (s := s) f fs c cs g _ _ hf hst hp hg hgh rfl rfl
        rw [← handBack_eq, hf] at this
        exact this
  | handlerRet v =>
    obtain ⟨f, fs, post, hf, hp⟩ := InHandler.elim hok
    obtain ⟨c, cs, hst, hk, hd, hal⟩ := h.top hf
    obtain ⟨hl, hov, _⟩ := hk.live hp.ne.1 hp.ne.2.1 hp.ne.2.2
    exact ⟨_, handlerRet_ok hf hst hd (by rw [hf]; exact hov) h.fid hp v, .handlerRet v f fs c cs post hf hst hp⟩
  | origRet v =>
    obtain ⟨f, fs, hf, hp⟩ := hok
    refine ⟨_, ?_, .origRet v f fs hf hp⟩
    show origRet s v = _
    unfold origRet
    simp only [hf, hp]
  | resolve force => exact ⟨_, rfl, .resolve force⟩

end Verif.SH
