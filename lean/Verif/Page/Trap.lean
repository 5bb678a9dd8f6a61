import Verif.Page.Mem
/-
`ModuleInMemory`, core/sourcehook/sh_memory.h: the branches that read the memory and trap the fault (on Linux if neither map
file opens; on macOS always), together with what they do to the signal handling of the process.

* A signal's disposition is `BadReadHandler` (`own`) or whatever the process had (`other n`).
* `frame`: the call of `ModuleInMemory` that last set `g_BadReadJmpBuf` has not returned; `longjmp` to a function that has
  returned is undefined behaviour (`deadFrame`).
* A fault while its signal is blocked ends the process (`killed`), as Linux and macOS do.
* While a handler runs its signal is blocked (`signal` of glibc; `sigaction` without `SA_NODEFER`).  `setjmp` and `longjmp`
  leave the set of blocked signals alone on Linux, and save and restore it on macOS.
* A handler that returns from a fault returns to the instruction that faulted, which faults again: `spins`.
* `sigaction` is taken to succeed; `sa.sa_mask`, which is never set (346-348), is taken to be empty.
-/
namespace Verif.Page

/-- What happens on a signal. No counterpart in /repo: the operating system's. -/
inductive Disp
  | own
  | other (n : Nat)
  deriving DecidableEq, Repr

/-- The signal handling of the process; `flag` is `g_BadReadCalled`, `frame` belongs to `g_BadReadJmpBuf`,
core/sourcehook/sh_memory.h:236-237; `blocked`: the signals of faults are blocked. -/
structure Sig where
  segv : Disp
  bus : Disp
  blocked : Bool
  flag : Bool
  frame : Bool
  deriving DecidableEq, Repr

/-- Where a fault leads. No counterpart in /repo: the operating system's. -/
inductive Fault
  | jump
  | handled (n : Nat)
  | killed
  | deadFrame
  | spins
  deriving DecidableEq, Repr

/-- `BadReadHandler`, core/sourcehook/sh_memory.h:240-251. -/
def badReadHandler (s : Sig) : Fault := if s.flag then (if s.frame then .jump else .deadFrame) else .spins

/-- A fault with the disposition `d`. No counterpart in /repo: the operating system's. -/
def deliver (s : Sig) (d : Disp) : Fault :=
  if s.blocked then .killed
  else match d with
    | .own => badReadHandler s
    | .other n => .handled n

/-- How a call ends: it returns, or a fault leads elsewhere. No counterpart in /repo. -/
inductive TrapOut (α : Type)
  | ret (a : α) (s : Sig)
  | fault (f : Fault)
  deriving DecidableEq, Repr

/-- `g_BadReadCalled = true`, `setjmp`, core/sourcehook/sh_memory.h:326-328 and 350-352. -/
def Sig.armed (s : Sig) : Sig := { s with flag := true, frame := true }

/-- `signal(SIGSEGV, BadReadHandler)`, core/sourcehook/sh_memory.h:331. -/
def Sig.installed (s : Sig) : Sig := { s.armed with segv := .own }

/-- Both handlers installed, core/sourcehook/sh_memory.h:355-358. -/
def Sig.installedMac (s : Sig) : Sig := { s.armed with bus := .own, segv := .own }

/-- `ModuleInMemory` on Linux without map files, core/sourcehook/sh_memory.h:324-344; `readable`: the loop at 336-337 reads
without a fault.  The jump leads to 328-329, with the signal blocked. -/
def trapLinux (s : Sig) (readable : Bool) : TrapOut Bool :=
  if readable then .ret false { s.installed with flag := false, segv := s.armed.segv, frame := false }
  else match deliver s.installed s.installed.segv with
    | .jump => .ret true { s.installed with blocked := true, frame := false }
    | f => .fault f

/-- `ModuleInMemory` on macOS, core/sourcehook/sh_memory.h:346-372; `onBus`: the fault is `SIGBUS`, else `SIGSEGV`.  The
jump leads to 352-353. -/
def trapMac (s : Sig) (readable onBus : Bool) : TrapOut Bool :=
  if readable then
    .ret true { s.installedMac with flag := false, bus := s.armed.bus, segv := s.armed.segv, frame := false }
  else match deliver s.installedMac (if onBus then s.installedMac.bus else s.installedMac.segv) with
    | .jump => .ret false { s.installedMac with frame := false }
    | f => .fault f

/-- Calls one after the other. No counterpart in /repo: the callers, core/sourcehook/sourcehook_impl_cvfnptr.cpp:135. -/
def trapRun (f : Sig → Bool → TrapOut Bool) (s : Sig) : List Bool → TrapOut (List Bool)
  | [] => .ret [] s
  | r :: rs => match f s r with
    | .fault e => .fault e
    | .ret a s' => match trapRun f s' rs with
      | .fault e => .fault e
      | .ret as s'' => .ret (a :: as) s''

end Verif.Page
