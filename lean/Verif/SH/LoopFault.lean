import Verif.SH.LoopProps
/-
What hook calls do outside the contract `Ok` (LoopInv.lean): for each part of it that excludes something
a plugin can do from inside a handler, an execution in which the code uses a freed record or leaves a
context behind (C12, C15, C16).  All executions start from states reached within the contract.
-/
namespace Verif.SH

/-- Several steps, without a contract. No counterpart in /repo. -/
def steps (E : Env) (s : St) : List Op → R St
  | [] => .ok s
  | op :: ops => do
    let s' ← step E s op
    steps E s' ops

/-- A handler called the function again (RETURN_META_VALUE_NEWPARAMS, core/sourcehook/sourcehook.h:633-645)
and the slot holds no hook function, so the function itself runs and returns `v` to the handler. -/
def plainRet (s : St) (v : Val) : St :=
  { s with frames := match s.frames with
    | .hook f :: fs =>
      match f.pt with
      | .recPre n none => .hook { f with pt := .recPre n (some v) } :: fs
      | .recPost n none => .hook { f with pt := .recPost n (some v) } :: fs
      | _ => .hook f :: fs
    | fs => fs }

/-- Executable form, for the findings. -/
theorem addOkB_ok {r : Reg} {a : AddArgs} (h : (r.hms.all fun h => h.pub != a.pub || h.plug == a.plug) = true) : AddOk r a := by
  intro m hm he
  have := List.all_eq_true.1 h m hm
  simpa [he] using this

/-! ### vtable-wide hooks replaced by a vtable-wide handler -/

/-- An object's hook and a vtable-wide one; a call in which the vtable-wide handler has removed its own hook. -/
def Ex.vpGone : List Op := [.reg (.add a1), .reg (.add a2), .call 2008 1000, .tick, .handlerRet 0, .tick, .reg (.removeId 2)]

/-- C16 fails: the handler of the only vtable-wide hook of a function removes its hook and adds it again.
`HookRemoved` moves the iterator to the end of the list, `IfaceRemoved` does not look at the iterator
(core/sourcehook/sourcehook.cpp:864-877), the list is deleted, and `GetNext` finds the new list and increments
the iterator of the deleted one (sourcehook.cpp:761-770). -/
theorem vp_replaced_dangling : ∃ s, LReach Ex.E s ∧ InHandler s ∧ AddOk s.reg Ex.a2 ∧
    (∃ s', steps Ex.E s [.reg (.add Ex.a2), .handlerRet 0] = .ok s' ∧ s'.stack.length = 1) ∧
    steps Ex.E s [.reg (.add Ex.a2), .handlerRet 0, .tick] = .error .useAfterFree :=
  ⟨_, Ex.go_reach (ops := Ex.vpGone) rfl, handlerB_ok rfl, addOkB_ok rfl, ⟨_, rfl, rfl⟩, rfl⟩

/-- The same in a post loop: an object's post hook and a vtable-wide post hook. -/
def Ex.a5 : AddArgs := ⟨2, 1, 1000, 0, 2, some info2, ⟨15, 15⟩, true⟩

/-- The vtable-wide post handler has removed its own hook. -/
def Ex.vpPostGone : List Op := [.reg (.add a1), .reg (.add a5), .call 2008 1000, .tick, .handlerRet 0, .tick, .origRet 7, .tick, .reg (.removeId 2)]

/-- C16 fails in the post loop in the same way, core/sourcehook/sourcehook.cpp:807-829. -/
theorem vp_post_replaced_dangling : ∃ s, LReach Ex.E s ∧ InHandler s ∧ AddOk s.reg Ex.a5 ∧
    (∃ s', steps Ex.E s [.reg (.add Ex.a5), .handlerRet 0] = .ok s' ∧ s'.stack.length = 1) ∧
    steps Ex.E s [.reg (.add Ex.a5), .handlerRet 0, .tick] = .error .useAfterFree :=
  ⟨_, Ex.go_reach (ops := Ex.vpPostGone) rfl, handlerB_ok rfl, addOkB_ok rfl, ⟨_, rfl, rfl⟩, rfl⟩

/-! ### managers removed from inside a call -/

/-- C16 fails: a handler calls `RemoveHookManager` for the only manager of the function it is called from.
The function's record is deleted without `VfnPtrRemoved` (core/sourcehook/sourcehook.cpp:399-421), and the
next `GetNext` of the running loop uses it. -/
theorem manager_removed_dangling : ∃ s, LReach Ex.E s ∧ InHandler s ∧
    (∃ s', steps Ex.E s [.reg (.removeHm 1 1), .handlerRet 0] = .ok s' ∧ s'.stack.length = 1 ∧ s'.reg.vfns = []) ∧
    steps Ex.E s [.reg (.removeHm 1 1), .handlerRet 0, .tick] = .error .useAfterFree :=
  ⟨_, Ex.go_reach (ops := [.reg (.add Ex.a1), .call 2008 1000, .tick]) rfl, handlerB_ok rfl, ⟨_, rfl, rfl, rfl⟩, rfl⟩

/-- Two plugins hook a function and the first one's manager is removed while nothing runs; its hook stays.
Then the function is called. -/
def Ex.orphan : List Op := [.reg (.add a1), .reg (.add a2), .reg (.removeHm 1 1), .call 2008 1000, .tick]

/-- C16 fails: `UnloadPlugin` from inside a call (the unload that bug 5034 is about, sourcehook.cpp:384-388)
deletes the record of the function being run, because the manager it removes is the last one although a hook
of another plugin is left (sourcehook.cpp:376-382, 399-421). -/
theorem unload_in_call_dangling : ∃ s, LReach Ex.E s ∧ InHandler s ∧
    (∃ s', steps Ex.E s [.reg (.unload 2), .handlerRet 0] = .ok s' ∧ s'.stack.length = 1 ∧ s'.reg.vfns = []) ∧
    steps Ex.E s [.reg (.unload 2), .handlerRet 0, .tick] = .error .useAfterFree :=
  ⟨_, Ex.go_reach (ops := Ex.orphan) rfl, handlerB_ok rfl, ⟨_, rfl, rfl, rfl⟩, rfl⟩

/-! ### recalls after the handler's hooks changed -/

/-- A vtable-wide hook and an object's hook whose handler has replaced its own hook. -/
def Ex.replaced : List Op := [.reg (.add a2), .reg (.add a1), .call 2008 1000, .tick, .reg (.removeId 2), .reg (.add a3)]

/-- C12 and C16 fail: the handler of the only hook of an object replaces its hook and then recalls the
function.  `DoRecall` copies the iterator of the deleted list (core/sourcehook/sourcehook.cpp:462-490),
`SetupHookLoop` finds the new list (sourcehook.cpp:585-594), and `GetNext` increments the iterator. -/
theorem replaced_recall_dangling : ∃ s, LReach Ex.E s ∧ InHandler s ∧ (∃ s', steps Ex.E s [.recall 0 0 2008 1000] = .ok s' ∧ s'.stack.length = 2) ∧
    steps Ex.E s [.recall 0 0 2008 1000, .tick] = .error .useAfterFree :=
  ⟨_, Ex.go_reach (ops := Ex.replaced) rfl, handlerB_ok rfl, ⟨_, rfl, rfl⟩, rfl⟩

/-- An object's only hook, whose handler has removed it. -/
def Ex.unhooked : List Op := [.reg (.add a1), .call 2008 1000, .tick, .reg (.removeId 1)]

/-- C15 fails: a handler removes the last hook of its function and then recalls it.  `DoRecall` pushes a
context for the recalled call (core/sourcehook/sourcehook.cpp:462-490), but the slot was restored, so the
function itself runs and nobody pops the context: the handler's call returns and the stack is not empty.  A plugin
whose unload is requested afterwards is not released, not even when later calls end (sourcehook.cpp:384-396,
630-641). -/
theorem recall_unhooked_leaks : ∃ s s1 s2, LReach Ex.E s ∧ InHandler s ∧ s.stack.length = 1 ∧
    step Ex.E s (.recall 0 0 2008 1000) = .ok s1 ∧
    steps Ex.E (plainRet s1 7) [.recallRet, .tick, .tick] = .ok s2 ∧ s2.frames = [] ∧ s2.stack.length = 1 ∧
    ∃ s3, steps Ex.E s2 [.reg (.add Ex.a2), .reg (.unload 1), .call 2008 1000, .tick, .handlerRet 0, .tick, .origRet 5, .tick,
      .call 2008 1000, .tick, .handlerRet 0, .tick, .origRet 5, .tick] = .ok s3 ∧
      s3.frames = [] ∧ s3.stack.length = 1 ∧ Ev.request 1 ∈ s3.log ∧ Ev.ready 1 ∉ s3.log :=
  ⟨_, _, _, Ex.go_reach (ops := Ex.unhooked) rfl, handlerB_ok rfl, rfl, rfl, rfl, rfl, rfl, _, rfl, rfl, rfl, by decide, by decide⟩

end Verif.SH

#print axioms Verif.SH.vp_replaced_dangling
#print axioms Verif.SH.vp_post_replaced_dangling
#print axioms Verif.SH.manager_removed_dangling
#print axioms Verif.SH.unload_in_call_dangling
#print axioms Verif.SH.replaced_recall_dangling
#print axioms Verif.SH.recall_unhooked_leaks
