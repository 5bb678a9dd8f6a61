import Verif.SH.HookId
/-
Model of the SourceHook registry operations.
Sources: core/sourcehook/sourcehook.cpp ("sh"), sourcehook_impl_cvfnptr.cpp ("vfn"),
sourcehook_impl_chookmaninfo.cpp ("hm").
-/
namespace Verif.SH

/-- What a registry operation tells the running hook loops.  `hookRemoved` carries the path of the
erased node and the node before it (`none` = the list's sentinel), i.e. `prev(next)` of
`CHookContext::HookRemoved` (sh:864-871). -/
inductive Note where
  | hookRemoved (void ifo : Nat) (post : Bool) (nid : Nat) (prev : Option Nat)
  | ifaceRemoved (void ifo : Nat)
  | vfnRemoved (void : Nat)
  /-- the cleanup task created for a function record with a call thunk, sh:275-312 -/
  | cleanup (void : Nat)
deriving DecidableEq, Repr

/-- Dereference of a `CHookManager*`. No counterpart in /repo: a C++ operator. -/
def derefHm (r : Reg) (o : Nat) : R HookMan :=
  match r.hms.find? (·.oid == o) with
  | some h => .ok h
  | none => .error .useAfterFree

/-- Dereference of a `CVfnPtr*`. No counterpart in /repo: a C++ operator. -/
def derefVfn (r : Reg) (o : Nat) : R Vfn :=
  match r.vfns.find? (·.oid == o) with
  | some v => .ok v
  | none => .error .useAfterFree

/-- In-place update of one hook manager object. No counterpart in /repo. -/
def setHm (r : Reg) (h : HookMan) : Reg :=
  { r with hms := r.hms.map fun x => if x.oid = h.oid then h else x }

/-- In-place update of one function record. No counterpart in /repo. -/
def setVfn (r : Reg) (v : Vfn) : Reg :=
  { r with vfns := r.vfns.map fun x => if x.oid = v.oid then v else x }

/-- In-place update of one interface object of a function record. No counterpart in /repo. -/
def Vfn.setIface (v : Vfn) (i : Iface) : Vfn :=
  { v with ifaces := v.ifaces.map fun x => if x.oid = i.oid then i else x }

/-- `CVfnPtr::Patch`, vfn:228-238 (result is ignored by all callers). -/
def patch (E : Env) (r : Reg) (ptr val : Addr) : Reg :=
  if E.writable ptr then { r with mem := upd r.mem ptr val } else r

/-- `CVfnPtr::Revert`, vfn:129-143. -/
def revert (E : Env) (r : Reg) (v : Vfn) : Reg :=
  if E.inMemory v.ptr then patch E r v.ptr v.orig else r

/-- `CHookManager::IncrRef` with `Register`, hm:57-65, 40-50: `m_PubFunc(true, this)` stores the
object in the public function's static `ms_HI`.  (The renewed `SetInfo` made by the public function
is assumed to report the same data as before.) -/
def incrRef (r : Reg) (o void : Nat) : R Reg := do
  let h ← derefHm r o
  let h' := { h with vfns := h.vfns ++ [void] }
  let r' := setHm r h'
  if h'.vfns.length = 1 then .ok { r' with stored := upd r'.stored h.pub (some o) } else .ok r'

/-- `CHookManager::DecrRef` with `Unregister`, hm:67-75, 52-55 (`List::remove` erases the first
equal element, sh_list.h:281-292). -/
def decrRef (r : Reg) (o void : Nat) : R Reg := do
  let h ← derefHm r o
  let h' := { h with vfns := h.vfns.erase void }
  let r' := setHm r h'
  if h'.vfns = [] then .ok { r' with stored := upd r'.stored h.pub none } else .ok r'

/-- `CVfnPtrList::GetVfnPtr`, sh:52-76, with the constructor and `Init` (vfn:19-85): the thunk is
created when the original entry is odd; `Init` always succeeds. -/
def getVfn (r : Reg) (p : Addr) : Reg × Nat :=
  match r.vfns.find? (·.ptr == p) with
  | some v => (r, v.oid)
  | none =>
    ({ r with
        vfns := r.vfns ++ [{ oid := r.next, ptr := p, orig := r.mem p,
                             thunk := r.mem p % 2 != 0, hms := [], ifaces := [] }]
        next := r.next + 1 }, r.next)

/-- `CHookManList::GetHookMan`, hm:83-95; equality is by plugin and public function
(sourcehook_impl_chookmaninfo.h:93-104). -/
def getHookMan (r : Reg) (plug : Plugin) (pub : PubFunc) (info : Info) : Reg × Nat :=
  match r.hms.find? (fun h => h.plug == plug && h.pub == pub) with
  | some h => (r, h.oid)
  | none =>
    ({ r with
        hms := r.hms ++ [{ oid := r.next, plug := plug, pub := pub, info := info, vfns := [] }]
        next := r.next + 1 }, r.next)

/-- The insertion loop of `CVfnPtr::AddHookMan`, vfn:168-176: before the first manager with a
strictly lower version. -/
def insertByVersion (r : Reg) (ver : Int) (o : Nat) : List Nat → R (List Nat)
  | [] => .ok [o]
  | x :: xs => do
    let hx ← derefHm r x
    if hx.info.version < ver then .ok (o :: x :: xs)
    else do
      let ys ← insertByVersion r ver o xs
      .ok (x :: ys)

/-- `CVfnPtr::AddHookMan`, vfn:154-196. -/
def addHookMan (E : Env) (r : Reg) (void hmo : Nat) : R Reg := do
  let v ← derefVfn r void
  let h ← derefHm r hmo
  if h.info.version = -1 then .ok r
  else if hmo ∈ v.hms then .ok r
  else do
    let hms' ← insertByVersion r h.info.version hmo v.hms
    let r1 := setVfn r { v with hms := hms', offers := v.offers ++ [hmo] }
    if hms'.head? = some hmo then do
      let r2 ← incrRef r1 hmo void
      let r3 ← match hms' with
        | _ :: second :: _ => decrRef r2 second void
        | _ => .ok r2
      .ok (patch E r3 v.ptr h.info.hookfunc)
    else .ok r1

/-- `CVfnPtr::GetIface`, vfn:240-261: a new VP entry goes to the front, others to the back. -/
def getIface (r : Reg) (void : Nat) (p : Addr) : R (Reg × Nat) := do
  let v ← derefVfn r void
  match v.ifaces.find? (·.ptr == p) with
  | some i => .ok (r, i.oid)
  | none =>
    let i : Iface := { oid := r.next, ptr := p, pre := [], post := [] }
    let r1 := { r with next := r.next + 1 }
    if p = 0 then .ok (setVfn r1 { v with ifaces := i :: v.ifaces }, i.oid)
    else .ok (setVfn r1 { v with ifaces := v.ifaces ++ [i] }, i.oid)

/-- Arguments of `AddHook`; `info` is the answer of the public function queried by the
constructor of `CHookManager` (hm:18-28; `none` = non-zero return or version -1). -/
structure AddArgs where
  plug : Plugin
  mode : Nat
  iface : Addr
  offs : Int
  pub : PubFunc
  info : Option Info
  handler : Handler
  post : Bool
deriving Repr

/-- The slot address and the adjusted interface computed by `AddHook`, sh:113-146 (8-byte slots). -/
def slotOf (mem : Addr → Addr) (mode : Nat) (iface offs : Int) (info : Info) : Addr × Addr :=
  if mode = 0 then (mem (iface + offs + info.vtblOffs) + 8 * info.vtblIdx, iface + offs)
  else if mode = 1 then (mem (iface + offs + info.vtblOffs) + 8 * info.vtblIdx, 0)
  else (iface + 8 * info.vtblIdx, 0)

/-- End of `AddHook`, sh:161-174: allocate the id, append the hook. -/
def pushHook (r : Reg) (void ifo : Nat) (info : Info) (slot adj : Addr) (a : AddArgs) : R (Reg × Int) := do
  let v ← derefVfn r void
  match v.ifaces.find? (·.oid == ifo) with
  | none => .error .useAfterFree
  | some i =>
    let e : Entry := { free := false, proto := info.proto, vtblOffs := info.vtblOffs,
                       vtblIdx := info.vtblIdx, vfnptr := slot, adj := adj, plug := a.plug,
                       offs := a.offs, handler := a.handler, post := a.post }
    let (es, id) := idNew r.entries e
    let h : Hook := { nid := r.next, plug := a.plug, offs := a.offs, handler := a.handler,
                      id := id, paused := false }
    let i' := i.setSide a.post (i.side a.post ++ [h])
    .ok ({ setVfn r (v.setIface i') with entries := es, next := r.next + 1 }, id)

/-- `CSourceHookImpl::AddHook`, sh:102-175.  Modes: 0 normal, 1 VP, 2 DVP. -/
def addHook (E : Env) (r : Reg) (a : AddArgs) : R (Reg × Int) :=
  if a.mode > 2 then .ok (r, 0)
  else match a.info with
    | none => .ok (r, 0)
    | some info =>
      if info.version = -1 then .ok (r, 0)
      else do
        let (slot, adj) := slotOf r.mem a.mode a.iface a.offs info
        let (r1, void) := getVfn r slot
        let (r2, hmo) := getHookMan r1 a.plug a.pub info
        let r3 ← addHookMan E r2 void hmo
        let (r4, ifo) ← getIface r3 void adj
        pushHook r4 void ifo info slot adj a

/-- The node before the first element satisfying `p` (`none` = sentinel): `--next` of the iterator
returned by `List::erase` (sh_list.h:247-262, sh:864-871). -/
def prevOf (p : Hook → Bool) : Option Nat → List Hook → Option Nat
  | acc, [] => acc
  | acc, h :: t => if p h then acc else prevOf p (some h.nid) t

/-- Destructor of `CVfnPtr` (vfn:25-29) and of its interfaces (sourcehook_impl_ciface.h:50-62: `DeleteThis` on all
remaining handlers) when the record is erased from `m_VfnPtrs`, with the preceding
cleanup-task creation and `Revert`: `RevertAndRemoveVfnPtr`, sh:273-317. -/
def revertAndRemoveVfn (E : Env) (r : Reg) (v : Vfn) : R (Reg × List Note) := do
  let notes := if v.thunk then [Note.cleanup v.oid] else []
  let r1 := revert E r v
  let r2 ← match v.hms with
    | front :: _ => decrRef r1 front v.oid
    | [] => .ok r1
  let dels := (v.ifaces.flatMap fun i => (i.pre ++ i.post).map Hook.nid)
  .ok ({ r2 with vfns := r2.vfns.filter (·.oid != v.oid), deleted := dels.reverse ++ r2.deleted }, notes)

/-- `CSourceHookImpl::RemoveHookByID`, sh:204-271. -/
def removeHookById (E : Env) (r : Reg) (id : Int) : R (Reg × Bool × List Note) :=
  match idQuery r.entries id with
  | none => .ok (r, false, [])
  | some e =>
    match r.vfns.find? (·.ptr == e.vfnptr) with
    | none => .ok (r, false, [])
    | some v =>
      match v.ifaces.find? (·.ptr == e.adj) with
      | none => .ok (r, false, [])
      | some i =>
        match (i.side e.post).find? (·.id == id) with
        | none => .ok (r, false, [])
        | some h => do
          let i' := i.setSide e.post ((i.side e.post).eraseP (·.id == id))
          let n1 := Note.hookRemoved v.oid i.oid e.post h.nid
            (prevOf (·.id == id) none (i.side e.post))
          let r := { r with deleted := h.nid :: r.deleted }
          if i'.pre = [] ∧ i'.post = [] then
            let v' := { v with ifaces := v.ifaces.filter (·.oid != i.oid) }
            if v'.ifaces = [] then do
              let (r2, ns) ← revertAndRemoveVfn E (setVfn r v') v'
              .ok ({ r2 with entries := (idRemove r2.entries id).1 }, true,
                [n1, .ifaceRemoved v.oid i.oid, .vfnRemoved v.oid] ++ ns)
            else
              .ok ({ setVfn r v' with entries := (idRemove r.entries id).1 }, true,
                [n1, .ifaceRemoved v.oid i.oid])
          else
            .ok ({ setVfn r (v.setIface i') with entries := (idRemove r.entries id).1 }, true, [n1])

/-- A sequence of `RemoveHookByID` calls, collecting whether any succeeded
(sh:194-201, 372-373, 656-657). -/
def removeIds (E : Env) (r : Reg) : List Int → R (Reg × Bool × List Note)
  | [] => .ok (r, false, [])
  | id :: ids => do
    let (r1, b1, n1) ← removeHookById E r id
    let (r2, b2, n2) ← removeIds E r1 ids
    .ok (r2, b1 || b2, n1 ++ n2)

/-- `CSourceHookImpl::RemoveHook`, sh:177-202.  When the public function refuses (`info = none`)
the default-constructed prototype (version -1) is compared, which matches nothing. -/
def removeHook (E : Env) (r : Reg) (plug : Plugin) (iface offs : Int) (info : Option Info)
    (h : Handler) (post : Bool) : R (Reg × Bool × List Note) :=
  match info with
  | none => .ok (r, false, [])
  | some info =>
    let ids := idFindMatch r.entries info.proto info.vtblOffs info.vtblIdx (iface + offs) plug offs h post
    if ids = [] then .ok (r, false, []) else removeIds E r ids

/-- `CVfnPtr::HookManRemoved`, vfn:198-226.  Second component false = "delete me". -/
def hookManRemoved (E : Env) (r : Reg) (void hmo : Nat) : R (Reg × Bool) := do
  let h ← derefHm r hmo
  if h.info.version = -1 then .ok (r, true)
  else do
    let v ← derefVfn r void
    match v.hms with
    | [] => .ok (r, true)
    | first :: rest =>
      if first = hmo then do
        let r1 ← decrRef r hmo void
        let r2 := setVfn r1 { v with hms := rest, offers := v.offers.erase hmo }
        match rest with
        | [] => .ok (r2, false)
        | second :: _ => do
          let r3 ← incrRef r2 second void
          let h2 ← derefHm r3 second
          .ok (patch E r3 v.ptr h2.info.hookfunc, true)
      else if hmo ∈ rest then .ok (setVfn r { v with hms := v.hms.erase hmo, offers := v.offers.erase hmo }, true)
      else .ok (r, true)

/-- The loop of `RemoveHookManager(iterator)` over all function records, sh:402-418.  The loop only
removes records, so it is a recursion over the object ids present at the start. -/
def removeHmLoop (E : Env) (hmo : Nat) : List Nat → Reg → R (Reg × List Note)
  | [], r => .ok (r, [])
  | void :: vs, r => do
    let (r1, keep) ← hookManRemoved E r void hmo
    if keep then removeHmLoop E hmo vs r1
    else do
      let v ← derefVfn r1 void
      let r2 := { r1 with entries := idRemoveAll r1.entries v.ptr }
      let (r3, n1) ← revertAndRemoveVfn E r2 v
      let (r4, n2) ← removeHmLoop E hmo vs r3
      .ok (r4, n1 ++ n2)

/-- `CSourceHookImpl::RemoveHookManager(CHookManList::iterator)`, sh:399-421. -/
def removeHookManO (E : Env) (r : Reg) (hmo : Nat) : R (Reg × List Note) := do
  let (r1, ns) ← removeHmLoop E hmo (r.vfns.map Vfn.oid) r
  .ok ({ r1 with hms := r1.hms.filter (·.oid != hmo) }, ns)

/-- `CSourceHookImpl::RemoveHookManager(Plugin, HookManagerPubFunc)`, sh:423-432. -/
def removeHookManager (E : Env) (r : Reg) (plug : Plugin) (pub : PubFunc) : R (Reg × List Note) :=
  match r.hms.find? (fun h => h.plug == plug && h.pub == pub) with
  | none => .ok (r, [])
  | some h => removeHookManO E r h.oid

/-- Step 2 of `UnloadPlugin`, sh:376-382; removing a manager removes no other manager, so the
iteration is a recursion over the managers present at the start. -/
def removeHms (E : Env) : List Nat → Reg → R (Reg × List Note)
  | [], r => .ok (r, [])
  | o :: os, r => do
    let (r1, n1) ← removeHookManO E r o
    let (r2, n2) ← removeHms E os r1
    .ok (r2, n1 ++ n2)

/-- The registry part of `UnloadPlugin`, sh:365-382 (the listener is handled with the contexts). -/
def unloadReg (E : Env) (r : Reg) (plug : Plugin) : R (Reg × List Note) := do
  let (r1, _, n1) ← removeIds E r (idFindPlug r.entries plug)
  let (r2, n2) ← removeHms E ((r1.hms.filter (·.plug == plug)).map HookMan.oid) r1
  .ok (r2, n1 ++ n2)

/-- `CSourceHookImpl::CompleteShutdown`, sh:651-658. -/
def shutdownReg (E : Env) (r : Reg) : R (Reg × List Note) := do
  let (r1, _, n1) ← removeIds E r (idFindAll r.entries)
  .ok (r1, n1)

/-- `CHook::SetPaused` through the iterator found by id (first match), sh:710-715. -/
def setPausedL (id : Int) (b : Bool) : List Hook → List Hook
  | [] => []
  | h :: t => if h.id = id then { h with paused := b } :: t else h :: setPausedL id b t

/-- `CSourceHookImpl::SetHookPaused`, sh:688-717 (Pause/UnpauseHookByID, sh:678-686). -/
def setHookPaused (r : Reg) (id : Int) (b : Bool) : Reg × Bool :=
  match idQuery r.entries id with
  | none => (r, false)
  | some e =>
    match r.vfns.find? (·.ptr == e.vfnptr) with
    | none => (r, false)
    | some v =>
      match v.ifaces.find? (·.ptr == e.adj) with
      | none => (r, false)
      | some i =>
        match (i.side e.post).find? (·.id == id) with
        | none => (r, false)
        | some _ =>
          (setVfn r (v.setIface (i.setSide e.post (setPausedL id b (i.side e.post)))), true)

/-- `PausePlugin` / `UnpausePlugin`, sh:660-676. -/
def setPluginPaused (r : Reg) (plug : Plugin) (b : Bool) : Reg :=
  (idFindPlug r.entries plug).foldl (fun r id => (setHookPaused r id b).1) r

/-- `CSourceHookImpl::GetOrigVfnPtrEntry`, sh:452-460 (`0` = NULL). -/
def getOrigEntry (r : Reg) (vfnptr : Addr) : Addr :=
  match r.vfns.find? (·.ptr == vfnptr) with
  | some v => v.orig
  | none => 0

end Verif.SH
