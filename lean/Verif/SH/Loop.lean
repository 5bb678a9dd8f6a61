import Verif.SH.RegOps
/-
Model of running hook calls: the context stack, the hook loop, recalls, SH_CALL and the generated
hook functions.
Sources: core/sourcehook/sourcehook.cpp ("sh"), sourcehook_impl.h ("impl"),
generate/sourcehook.hxx ("hxx"), sh_stack.h.

The program is a machine that interleaves hook functions with arbitrary plugin and engine code.
`St.frames` is the part of the C++ call stack that belongs to hook functions (`Fr.hook`) and to
SH_CALL executors (`Fr.sh`); plugin code runs while the innermost frame is inside a handler or
inside the original function.
-/
namespace Verif.SH

/-- The value type of the hooked functions (kept abstract as integers).
No counterpart in /repo: a template parameter, core/sourcehook/sourcehook.h:948. -/
abbrev Val := Int

/-- `MRES_IGNORED`, core/sourcehook/sourcehook.h:133-139. -/
def ignored : Nat := 0
/-- `MRES_HANDLED`, core/sourcehook/sourcehook.h:136. -/
def handled : Nat := 1
/-- `MRES_OVERRIDE`, core/sourcehook/sourcehook.h:137. -/
def override : Nat := 2
/-- `MRES_SUPERCEDE`, core/sourcehook/sourcehook.h:138. -/
def supercede : Nat := 3

/-- `CHookContext::State_*`, impl:222-238; `bad` stands for the number 12 or more that `DoRecall`
produces from a state without a recall counterpart. -/
inductive CtxSt where
  | born | pre | preVP | post | postVP | orig | dead | ignore
  | rPre | rPreVP | rPost | rPostVP | bad
deriving DecidableEq, Repr

/-- `List<CHook>::iterator`, sh_list.h:69-140: null, or a node (`some nid`) or the sentinel (`none`)
of the pre/post list of an interface. -/
inductive Iter where
  | null
  | at (void ifo : Nat) (post : Bool) (pos : Option Nat)
deriving DecidableEq, Repr

/-- A pointer to a local variable `override_ret` / `orig_ret` of a hook function activation.
The locals at core/sourcehook/sourcehook.h:944-954. -/
inductive Slot where
  | over (fid : Nat)
  | orig (fid : Nat)
deriving DecidableEq, Repr

/-- `CHookContext`, impl:216-274.  `locals` is the activation whose `status`, `prev_res`, `cur_res`
the three result pointers refer to (they are always set together, sh:476-485, 596-598).  `cid` is a
history variable: the number of the call this context serves (a recall serves the same call).
`none` in a pointer field = not set.  `m_CleanupTask` is kept in `St.tasks`. -/
structure Ctx where
  cid : Nat
  st : CtxSt
  iter : Iter := .null
  vfn : Option Nat := none
  iface : Option Nat := none
  locals : Option Nat := none
  this : Addr := 0
  ifacePtr : Addr := 0
  orig : Option Slot := none
  over : Option Slot := none
  callOrig : Bool := false
deriving DecidableEq, Repr

/-- The four groups of hooks of one call. `State`, core/sourcehook/sourcehook_impl.h:222-238. -/
inductive Grp where
  | pre | preVP | post | postVP
deriving DecidableEq, Repr

/-- Where a hook function is, hxx:956-983.  `recPre n none` = the pre handler with node `n` has
recalled the function and waits for it; `some v` = that call returned `v`. -/
inductive Pt where
  | preLoop
  | inPre (nid : Nat)
  | recPre (nid : Nat) (got : Option Val)
  | inOrig
  | postLoop
  | inPost (nid : Nat)
  | recPost (nid : Nat) (got : Option Val)
deriving DecidableEq, Repr

/-- Local variables of one activation of a hook function, hxx:937-954; `depth` is the position of
`*pContext` in the context stack (0 = oldest), `addr` is `vfnptr_origentry`. -/
structure Frame where
  fid : Nat
  cid : Nat
  depth : Nat
  pt : Pt
  status : Nat
  prev : Nat
  cur : Nat
  orig : Val
  over : Val
  addr : Option Addr
deriving DecidableEq, Repr

/-- One entry of the (relevant part of the) call stack: a hook function, or an SH_CALL executor
(hxx:1381-1443) between `SetIgnoreHooks` and `ResetIgnoreHooks`. -/
inductive Fr where
  | hook (f : Frame)
  | sh
deriving DecidableEq, Repr

/-- History of a run.  `enter` / `shEnter` carry the slot called and the object.  `invoke` carries the hook's node id and this-pointer offset and the interface
pointer the handler sees; `skip` is a hook passed over because it is paused. No counterpart in /repo. -/
inductive Ev where
  | enter (cid fid : Nat) (p : Option Addr) (this : Addr)
  | shEnter (cid fid : Nat) (p : Option Addr) (this : Addr)
  | recall (cid fid fid' : Nat) (status : Nat)
  | invoke (cid fid : Nat) (g : Grp) (nid : Nat) (ifp : Addr)
  | skip (cid : Nat) (g : Grp) (nid : Nat)
  | result (fid : Nat) (post : Bool) (res : Nat) (val : Val)
  | origCall (cid fid : Nat) (addr : Addr)
  | origRet (fid : Nat) (val : Val)
  | ret (cid fid : Nat) (val : Val)
  | request (plug : Plugin)
  | ready (plug : Plugin)
  | freed (void : Nat)
deriving DecidableEq, Repr

/-- State of the machine.  `stack` is `m_ContextStack` (head = front), `tasks` are the
`m_CleanupTask` fields of the same contexts; `spare` are the `m_CleanupTask` values left in the slots
above the top, which `make_next` does not reset (sh_stack.h:171-180); `pend` is `m_PendingUnloads`
with the `deactivated` flag (impl:290-319). -/
structure St where
  reg : Reg
  stack : List Ctx := []
  tasks : List (Option Nat) := []
  spare : List (Option Nat) := []
  frames : List Fr := []
  pend : List (Plugin × Bool) := []
  log : List Ev := []
  next : Nat := 0

/-! ### notifications -/

/-- `CHookContext::HookRemoved` / `IfaceRemoved` / `VfnPtrRemoved`, sh:864-891. -/
def noteCtx (n : Note) (c : Ctx) : Ctx :=
  match n with
  | .hookRemoved void ifo post nid prev =>
    if c.iter = .at void ifo post (some nid) then { c with iter := .at void ifo post prev } else c
  | .ifaceRemoved void ifo =>
    if c.vfn = some void ∧ c.iface = some ifo then { c with iface := none } else c
  | .vfnRemoved void => if c.vfn = some void then { c with st := .dead } else c
  | .cleanup _ => c

/-- `RevertAndRemoveVfnPtr`, sh:281-299: the task goes to the oldest context using the function. -/
def attach (void : Nat) : List Ctx → List (Option Nat) → Option (List (Option Nat))
  | c :: cs, t :: ts =>
    match attach void cs ts with
    | some ts' => some (t :: ts')
    | none => if c.vfn = some void then some (some void :: ts) else none
  | _, _ => none

/-- One notification of the whole stack; a cleanup task without a user runs at once (sh:301-306). -/
def applyNote (s : St) (n : Note) : St :=
  match n with
  | .cleanup void =>
    match attach void s.stack s.tasks with
    | some ts => { s with tasks := ts }
    | none => { s with log := .freed void :: s.log }
  | n => { s with stack := s.stack.map (noteCtx n) }

/-- Notifications in order. No counterpart in /repo. -/
def applyNotes (s : St) (ns : List Note) : St := ns.foldl applyNote s

/-! ### the context stack -/

/-- The context at position `d` (`CStack::at`). core/sourcehook/sh_stack.h:147-155. -/
def ctxAt (st : List Ctx) (d : Nat) : Option Ctx := if d < st.length then st[st.length - 1 - d]? else none

/-- Replaces the context at position `d`. core/sourcehook/sh_stack.h:147-155. -/
def setCtx (st : List Ctx) (d : Nat) (c : Ctx) : List Ctx := st.set (st.length - 1 - d) c

/-- `ResolvePendingUnloads`, sh:606-628 (`ReadyToUnload` is recorded in the history). -/
def resolve (force : Bool) (s : St) : St :=
  { s with pend := (s.pend.filter fun p => !force && !p.2).map fun p => (p.1, true),
           log := ((s.pend.filter fun p => force || p.2).map fun p => Ev.ready p.1).reverse ++ s.log }

/-- `EndContext`, sh:630-641, with `DoCleanupTaskAndDeleteIt`, sh:893-899. -/
def endContext (s : St) : R St :=
  match s.stack with
  | [] => .error .desync
  | _ :: cs =>
    let log := match s.tasks.headD none with
      | some v => Ev.freed v :: s.log
      | none => s.log
    let s' := { s with stack := cs, tasks := s.tasks.tail, spare := s.tasks.headD none :: s.spare, log := log }
    if cs = [] ∧ s'.pend ≠ [] then .ok (resolve false s') else .ok s'

/-- `CStack::push`, sh_stack.h:157-169 (overwrites the slot). -/
def pushCtx (s : St) (c : Ctx) : St :=
  { s with stack := c :: s.stack, tasks := none :: s.tasks, spare := s.spare.tail }

/-! ### local variables -/

/-- Applies `f` to the activation `fid`. No counterpart in /repo. -/
def modFrame (fs : List Fr) (fid : Nat) (f : Frame → Frame) : List Fr :=
  fs.map fun x => match x with
    | .hook y => if y.fid = fid then .hook (f y) else .hook y
    | .sh => .sh

/-- The activation `fid`, if it has not returned yet. No counterpart in /repo. -/
def getFrame : List Fr → Nat → Option Frame
  | [], _ => none
  | .hook y :: fs, fid => if y.fid = fid then some y else getFrame fs fid
  | .sh :: fs, fid => getFrame fs fid

/-- Access to the activation behind a pointer: unset pointer or returned activation are faults. No counterpart in /repo. -/
def deref (fs : List Fr) : Option Nat → R Frame
  | none => .error .uninitialised
  | some fid =>
    match getFrame fs fid with
    | some f => .ok f
    | none => .error .useAfterFree

/-- `*p` for a return value pointer. No counterpart in /repo: a C++ operator. -/
def readSlot (fs : List Fr) : Option Slot → R Val
  | none => .error .uninitialised
  | some (.over fid) => do let f ← deref fs (some fid); .ok f.over
  | some (.orig fid) => do let f ← deref fs (some fid); .ok f.orig

/-- `*p = v` for a return value pointer. No counterpart in /repo: a C++ operator. -/
def writeSlot (fs : List Fr) (v : Val) : Option Slot → R (List Fr)
  | none => .error .uninitialised
  | some (.over fid) => do let _ ← deref fs (some fid); .ok (modFrame fs fid fun f => { f with over := v })
  | some (.orig fid) => do let _ ← deref fs (some fid); .ok (modFrame fs fid fun f => { f with orig := v })

/-- `SetRes`, sh:319-322. -/
def setRes (s : St) (res : Nat) : R St :=
  match s.stack with
  | [] => .error .desync
  | c :: _ => do
    let f ← deref s.frames c.locals
    .ok { s with frames := modFrame s.frames f.fid fun f => { f with cur := res } }

/-! ### GetNext -/

/-- The part of a list after the node `pos` (`none` = sentinel, i.e. the whole list). No counterpart in /repo. -/
def after (L : List Hook) : Option Nat → List Hook
  | none => L
  | some n => (L.dropWhile (·.nid != n)).tail

/-- Result of a step of an iterator: hooks passed over, and the hook reached. No counterpart in /repo. -/
def scan (L : List Hook) : List Hook × Option Hook :=
  (L.takeWhile (·.paused), L.find? (fun h => !h.paused))

/-- Access to a hook list through a `CIface*`. No counterpart in /repo: a C++ operator. -/
def listOf (r : Reg) (void ifo : Nat) (post : Bool) : R (List Hook) := do
  let v ← derefVfn r void
  match v.ifaces.find? (·.oid == ifo) with
  | some i => .ok (i.side post)
  | none => .error .useAfterFree

/-- The remaining part of list `(void, ifo, post)` for iterator `it`: `begin()` or `++m_Iter`
(sh:740-745 and the like).  Incrementing a freed node or sentinel is a fault, continuing in another
list is a fault (`SkipPaused` compares with the end of a list it is not in). -/
def rest (r : Reg) (void ifo : Nat) (post : Bool) (it : Iter) : R (List Hook) := do
  let L ← listOf r void ifo post
  match it with
  | .null => .ok L
  | .at void' ifo' post' pos => do
    let L' ← listOf r void' ifo' post'
    match pos with
    | some n => if L'.any (·.nid == n) then pure () else throw .useAfterFree
    | none => pure ()
    if void' = void ∧ ifo' = ifo ∧ post' = post then .ok (after L pos) else .error .desync

/-- What `GetNext` yields: the context, the hook reached (with its group), the hooks skipped. No counterpart in /repo. -/
structure Got where
  ctx : Ctx
  hook : Option (Grp × Hook)
  skipped : List (Grp × Nat)

/-- One list of `GetNext`: `SkipPaused`, then either a handler (setting `pIfacePtr`) or nothing
(sh:739-752). -/
def tryList (r : Reg) (c : Ctx) (g : Grp) (void ifo : Nat) (post : Bool) :
    R (Ctx × Option (Grp × Hook) × List (Grp × Nat)) := do
  let L ← rest r void ifo post c.iter
  let (sk, nx) := scan L
  let sks := sk.map fun h => (g, h.nid)
  match nx with
  | some h =>
    .ok ({ c with iter := .at void ifo post (some h.nid), ifacePtr := c.this - h.offs }, some (g, h), sks)
  | none => .ok ({ c with iter := .at void ifo post none }, none, sks)

/-- The VP half: sh:761-782 (`vp := preVP`, afterwards `OrigCall`) and sh:807-829 (`postVP`,
afterwards `Dead`). -/
def nextVP (r : Reg) (c : Ctx) (post : Bool) (sk : List (Grp × Nat)) : R Got :=
  let c := { c with st := if post then .postVP else .preVP }
  let g := if post then Grp.postVP else Grp.preVP
  let stop := if post then CtxSt.dead else .orig
  match c.vfn with
  | none => .error .uninitialised
  | some void => do
    let v ← derefVfn r void
    match v.ifaces.find? (·.ptr == 0) with
    | none => .ok { ctx := { c with st := stop }, hook := none, skipped := sk }
    | some i => do
      let (c', nx, sk') ← tryList r c g void i.oid post
      match nx with
      | some x => .ok { ctx := c', hook := some x, skipped := sk ++ sk' }
      | none => .ok { ctx := { c' with st := stop }, hook := none, skipped := sk ++ sk' }

/-- The object half: sh:734-760 (pre) and sh:784-806 (post), falling through to the VP half. -/
def nextObj (r : Reg) (c : Ctx) (post : Bool) : R Got :=
  let c := { c with st := if post then .post else .pre }
  let g := if post then Grp.post else Grp.pre
  match c.iface with
  | none => nextVP r { c with iter := .null } post []
  | some ifo =>
    match c.vfn with
    | none => .error .uninitialised
    | some void => do
      let (c', nx, sk) ← tryList r c g void ifo post
      match nx with
      | some x => .ok { ctx := c', hook := some x, skipped := sk }
      | none => nextVP r { c' with iter := .null } post sk

/-- `CHookContext::GetNext`, sh:722-847. -/
def getNext (r : Reg) (c : Ctx) : R Got :=
  match c.st with
  | .born => nextObj r { c with iter := .null } false
  | .rPre | .pre => nextObj r c false
  | .rPreVP | .preVP => nextVP r c false []
  | .orig => nextObj r { c with iter := .null } true
  | .post => nextObj r c true
  | .postVP => nextVP r c true []
  | .rPost => .ok { ctx := { c with st := .post }, hook := none, skipped := [] }
  | .rPostVP => .ok { ctx := { c with st := .postVP }, hook := none, skipped := [] }
  | .dead | .ignore | .bad => .ok { ctx := c, hook := none, skipped := [] }

/-! ### SetupHookLoop -/

/-- Search of a manager's list of served functions, sh:519-527, 575-582. -/
def findVfnIn (r : Reg) (p : Addr) : List Nat → R (Option Vfn)
  | [] => .ok none
  | o :: os => do
    let v ← derefVfn r o
    if v.ptr = p then .ok (some v) else findVfnIn r p os

/-- States `Recall_*`. core/sourcehook/sourcehook_impl.h:222-238. -/
def CtxSt.isRecall : CtxSt → Bool
  | .rPre | .rPreVP | .rPost | .rPostVP => true
  | _ => false

/-- States `Recall_Post1` … `Recall_PostVP`, core/sourcehook/sourcehook_impl.h:222-238. -/
def CtxSt.isPostRecall : CtxSt → Bool
  | .rPost | .rPostVP => true
  | _ => false

/-- `SetupHookLoop` together with `SH_SETUPCALLS` and the first line of `SH_CALL_HOOKS`
(sh:492-604, hxx:937-957): pushes the frame of the hook function.  `vf` is the result of the search
of the manager's function list, `fid`/`cid` fresh numbers.  The thunk address is represented by the
original entry it jumps to.  (`prev_res` is set from the outer context in a recall, sh:546, but
hxx:957 resets it before anybody can see it.) -/
def setupHookLoop (s : St) (vf : Option Vfn) (this : Addr) : R St :=
  let fid := s.next
  let new : Frame := { fid, cid := 0, depth := 0, pt := .preLoop, status := ignored, prev := ignored,
                       cur := ignored, orig := 0, over := 0, addr := vf.map Vfn.orig }
  let fill (c : Ctx) : Ctx :=
    match vf with
    | none => { c with st := .dead, iface := none }
    | some v => { c with vfn := some v.oid, iface := (v.ifaces.find? (·.ptr == this)).map Iface.oid }
  let fresh : R St :=
    let c : Ctx := { cid := s.next, st := .born, callOrig := true }
    let c := { fill c with locals := some fid, this := this, over := some (.over fid), orig := some (.orig fid) }
    .ok { s with stack := c :: s.stack, tasks := s.spare.headD none :: s.tasks, spare := s.spare.tail,
                 frames := .hook { new with cid := s.next, depth := s.stack.length } :: s.frames,
                 log := .enter s.next fid (vf.map Vfn.ptr) this :: s.log, next := s.next + 1 }
  match s.stack with
  | [] => fresh
  | c :: cs =>
    if c.st = .ignore then
      let c := { c with callOrig := true, st := .dead, vfn := vf.map Vfn.oid, orig := some (.orig fid) }
      .ok { s with stack := c :: cs,
                   frames := .hook { new with cid := c.cid, depth := cs.length } :: s.frames,
                   log := .shEnter c.cid fid (vf.map Vfn.ptr) this :: s.log, next := s.next + 1 }
    else if c.st.isRecall then do
      let f ← deref s.frames c.locals
      let postR := c.st.isPostRecall
      let orig := if postR then c.orig else some (.orig fid)
      let over := if postR ∧ f.status < override then c.orig else c.over
      let c := { fill { c with callOrig := !postR } with
                 locals := some fid, this := this, over := over, orig := orig }
      .ok { s with stack := c :: cs,
                   frames := .hook { new with cid := c.cid, depth := cs.length, status := f.status } :: s.frames,
                   log := .recall c.cid f.fid fid f.status :: s.log, next := s.next + 1 }
    else fresh

/-- A virtual call through slot `p` on object `this`.  If the slot holds a hook function, that
function runs (its `ourvfnptr` is taken to be `p`: the caller goes through the object's vtable);
otherwise the call does not involve SourceHook. No counterpart in /repo: a virtual call. -/
def callSlot (E : Env) (s : St) (p this : Addr) : R St :=
  match E.pubAt (s.reg.mem p) with
  | none => .ok s
  | some pub =>
    match s.reg.stored pub with
    | none => .error .nullDeref
    | some hi => do
      let h ← derefHm s.reg hi
      let vf ← findVfnIn s.reg p h.vfns
      setupHookLoop s vf this

/-! ### the hook function -/

/-- Records what `GetNext` did. No counterpart in /repo. -/
def logGot (cid fid : Nat) (g : Got) (log : List Ev) : List Ev :=
  let log := (g.skipped.map fun x => Ev.skip cid x.1 x.2).reverse ++ log
  match g.hook with
  | some (grp, h) => .invoke cid fid grp h.nid g.ctx.ifacePtr :: log
  | none => log

/-- The hook function runs up to its next call of foreign code: one evaluation of the loop
condition of `SH_CALL_HOOKS` and, at the end of a loop, `SH_CALL_ORIG` respectively `SH_RETURN`
(hxx:956-983). -/
def tick (s : St) : R St :=
  match s.frames with
  | .hook f :: fs =>
    match f.pt with
    | .preLoop =>
      match ctxAt s.stack f.depth with
      | none => .error .desync
      | some c => do
        let g ← getNext s.reg c
        let s := { s with stack := setCtx s.stack f.depth g.ctx, log := logGot f.cid f.fid g s.log }
        match g.hook with
        | some (_, h) => .ok { s with frames := .hook { f with pt := .inPre h.nid, cur := ignored } :: fs }
        | none =>
          if f.status ≠ supercede ∧ g.ctx.callOrig then
            match f.addr with
            | none => .error .uninitialised
            | some a => .ok { s with frames := .hook { f with pt := .inOrig } :: fs,
                                     log := .origCall f.cid f.fid a :: s.log }
          else .ok { s with frames := .hook { f with pt := .postLoop, orig := f.over, prev := ignored } :: fs }
    | .postLoop =>
      match ctxAt s.stack f.depth with
      | none => .error .desync
      | some c => do
        let g ← getNext s.reg c
        let s := { s with stack := setCtx s.stack f.depth g.ctx, log := logGot f.cid f.fid g s.log }
        match g.hook with
        | some (_, h) => .ok { s with frames := .hook { f with pt := .inPost h.nid, cur := ignored } :: fs }
        | none => do
          let v ← readSlot s.frames (if f.status ≥ override then g.ctx.over else g.ctx.orig)
          let s ← endContext s
          let fs := match fs with
            | .hook p :: fs' =>
              match p.pt with
              | .recPre n none => .hook { p with pt := .recPre n (some v) } :: fs'
              | .recPost n none => .hook { p with pt := .recPost n (some v) } :: fs'
              | _ => fs
            | _ => fs
          .ok { s with frames := fs, log := .ret f.cid f.fid v :: s.log }
    | _ => .ok s
  | _ => .ok s

/-- A handler returns `v`: the rest of the loop body, hxx:961-966.  (A recalled handler returns with
`RETURN_META(_VALUE)(MRES_SUPERCEDE, …)`, see `recallRet`.) -/
def handlerRet (s : St) (v : Val) : R St :=
  match s.frames with
  | .hook f :: fs =>
    let body (post : Bool) : R St :=
      let f' := { f with prev := f.cur, status := max f.status f.cur,
                         pt := if post then .postLoop else .preLoop }
      let s := { s with log := .result f.fid post f.cur v :: s.log }
      if f.cur ≥ override then
        match ctxAt s.stack f.depth with
        | none => .error .desync
        | some c => do
          let fs' ← writeSlot (.hook f' :: fs) v c.over
          .ok { s with frames := fs' }
      else .ok { s with frames := .hook f' :: fs }
    match f.pt with
    | .inPre _ => body false
    | .inPost _ => body true
    | _ => .ok s
  | _ => .ok s

/-- The original function returns `v`, hxx:974 and the start of the second loop, hxx:957. -/
def origRet (s : St) (v : Val) : R St :=
  match s.frames with
  | .hook f :: fs =>
    match f.pt with
    | .inOrig => .ok { s with frames := .hook { f with orig := v, prev := ignored, pt := .postLoop } :: fs,
                              log := .origRet f.fid v :: s.log }
    | _ => .ok s
  | _ => .ok s

/-! ### recall and SH_CALL -/

/-- `m_State + 7`, sh:468. -/
def CtxSt.toRecall : CtxSt → CtxSt
  | .born => .ignore
  | .pre => .rPre
  | .preVP => .rPreVP
  | .post => .rPost
  | .postVP => .rPostVP
  | _ => .bad

/-- `DoRecall`, sh:462-490. -/
def doRecall (s : St) : R St :=
  match s.stack with
  | [] => .error .desync
  | c :: cs => do
    let f ← deref s.frames c.locals
    let st := c.st.toRecall
    let new : Ctx := { cid := c.cid, st := st, iter := c.iter, locals := c.locals, over := c.over,
                       orig := if st.isPostRecall then c.orig else none }
    let s := { s with frames := modFrame s.frames f.fid fun f => { f with status := max f.status f.cur } }
    .ok (pushCtx { s with stack := { c with st := .dead } :: cs } new)

/-- `GetIfacePtr`, sh:346-358. -/
def getIfacePtr (s : St) : R Addr :=
  match s.stack with
  | [] => .error .desync
  | c :: cs =>
    if c.st.isRecall then
      match cs with
      | [] => .error .desync
      | d :: _ => .ok d.ifacePtr
    else .ok c.ifacePtr

/-- `RETURN_META_VALUE_NEWPARAMS(res, val, …)`, hxx:633-645, up to the call of the function through
slot `p` on `this` (without side effects of the parameter expressions).  The void variant
`RETURN_META_NEWPARAMS` (hxx:625-631) is the case without `SetOverrideResult`. -/
def recall (E : Env) (s : St) (res : Nat) (val : Val) (p this : Addr) : R St := do
  let s ← setRes s res
  let s ← doRecall s
  let s ← if res ≥ override then
      match s.stack with
      | [] => .error .desync
      | c :: _ => do let fs ← writeSlot s.frames val c.over; pure { s with frames := fs }
    else pure s
  let s := { s with frames := match s.frames with
    | .hook f :: fs =>
      match f.pt with
      | .inPre n => .hook { f with pt := .recPre n none } :: fs
      | .inPost n => .hook { f with pt := .recPost n none } :: fs
      | _ => .hook f :: fs
    | fs => fs }
  callSlot E s p this

/-- The end of a recall: `RETURN_META_VALUE(MRES_SUPERCEDE, value)` in the recalling handler
(hxx:633-645, 590-598), i.e. `SetRes(MRES_SUPERCEDE)` and return of the recalled call's value. -/
def recallRet (s : St) : R St :=
  match s.frames with
  | .hook f :: fs =>
    match f.pt with
    | .recPre n (some v) => do
      let s ← setRes { s with frames := .hook { f with pt := .inPre n } :: fs } supercede
      handlerRet s v
    | .recPost n (some v) => do
      let s ← setRes { s with frames := .hook { f with pt := .inPost n } :: fs } supercede
      handlerRet s v
    | _ => .ok s
  | _ => .ok s

/-- SH_CALL (hxx:1381-1443): `SetIgnoreHooks` (sh:434-439), then the call. -/
def shCall (E : Env) (s : St) (p this : Addr) : R St :=
  let s := pushCtx s { cid := s.next, st := .ignore }
  callSlot E { s with frames := .sh :: s.frames, next := s.next + 1 } p this

/-- The end of SH_CALL: `ResetIgnoreHooks`, sh:441-450. -/
def shEnd (s : St) : R St :=
  match s.frames with
  | .sh :: fs => do
    let s ← match s.stack with
      | c :: _ => if c.st = .ignore then endContext s else pure s
      | [] => pure s
    .ok { s with frames := fs }
  | _ => .ok s

/-! ### registry operations during calls -/

/-- Registry operations with the notifications they send (cf. `regStep`). No counterpart in /repo. -/
def regStepN (E : Env) (r : Reg) : RegOp → R (Reg × Int × List Note)
  | .add a => do let (r', x) ← addHook E r a; .ok (r', x, [])
  | .removeId id => do let (r', b, ns) ← removeHookById E r id; .ok (r', b2i b, ns)
  | .remove plug iface offs info h post => do
      let (r', b, ns) ← removeHook E r plug iface offs info h post; .ok (r', b2i b, ns)
  | .unload plug => do let (r', ns) ← unloadReg E r plug; .ok (r', 0, ns)
  | .removeHm plug pub => do let (r', ns) ← removeHookManager E r plug pub; .ok (r', 0, ns)
  | .pauseId id b => let x := setHookPaused r id b; .ok (x.1, b2i x.2, [])
  | .pausePlugin plug b => .ok (setPluginPaused r plug b, 0, [])
  | .shutdown => do let (r', ns) ← shutdownReg E r; .ok (r', 0, ns)

/-- `UnloadPlugin`'s end, sh:384-396: notify the listener at once or enqueue it. -/
def afterReg (s : St) : RegOp → St
  | .unload plug =>
    if s.stack = [] then { s with log := .ready plug :: .request plug :: s.log }
    else { s with pend := s.pend ++ [(plug, false)], log := .request plug :: s.log }
  | _ => s

/-- A registry operation called by plugin or engine code.  (Notifications are sent while the
operation runs; since no registry operation reads contexts other than through `attach`, sending
them in order at the end is the same.). No counterpart in /repo. -/
def regDo (E : Env) (s : St) (op : RegOp) : R St := do
  let (r, _, ns) ← regStepN E s.reg op
  .ok (afterReg (applyNotes { s with reg := r } ns) op)

/-! ### the machine -/

/-- Everything that can happen. No counterpart in /repo. -/
inductive Op where
  | reg (op : RegOp)
  | poke (a val : Addr)
  | call (p this : Addr)
  | shCall (p this : Addr)
  | shEnd
  | setRes (res : Nat)
  | recall (res : Nat) (val : Val) (p this : Addr)
  | recallRet
  | tick
  | handlerRet (v : Val)
  | origRet (v : Val)
  | resolve (force : Bool)

/-- One step. No counterpart in /repo: the operations above under one name. -/
def step (E : Env) (s : St) : Op → R St
  | .reg op => regDo E s op
  | .poke a val => .ok { s with reg := { s.reg with mem := upd s.reg.mem a val } }
  | .call p this => callSlot E s p this
  | .shCall p this => shCall E s p this
  | .shEnd => shEnd s
  | .setRes res => setRes s res
  | .recall res val p this => recall E s res val p this
  | .recallRet => recallRet s
  | .tick => tick s
  | .handlerRet v => handlerRet s v
  | .origRet v => origRet s v
  | .resolve force => .ok (resolve force s)

end Verif.SH
