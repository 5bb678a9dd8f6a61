import Verif.SH.RegProps
/-
Manual hooks: what `SH_DECL_MANUALHOOK` declares, and `SH_ADD_MANUALHOOK`, `SH_REMOVE_MANUALHOOK`, `SH_MCALL`, `RETURN_META_MNEWPARAMS`
and `SH_MANUALHOOK_RECONFIGURE` (C106).

Simplified: as in `Registry.lean`, slots have 8 bytes; the delegate made for the handler is the handler. The Itanium form of a pointer to a
member with adjustor 0 is the function itself.
-/
namespace Verif.SH.Manual
open Verif.SH

/-- A manual hook: `decl` is the literal `pthisptroffs` of the declaration, `thisOffs` and the offsets in `info` are the members of
`ms_MFI`; the rest of `info` does not change. core/sourcehook/sourcehook.h:859-894. -/
structure Manual where
  pub : PubFunc
  decl : Int
  thisOffs : Int
  info : Info
  deriving Repr

/-- `SH_DECL_MANUALHOOK`: the constructor of the class with the hook. core/sourcehook/sourcehook.h:867-873. -/
def declare (pub : PubFunc) (info : Info) (thisOffs : Int) : Manual := ⟨pub, thisOffs, thisOffs, info⟩

/-- What `__SourceHook_FHMAdd` passes to `AddHook`. core/sourcehook/sourcehook.h:899-905. -/
def addArgs (m : Manual) (plug : Plugin) (mode : Nat) (iface : Addr) (h : Handler) (post : Bool) : AddArgs :=
  ⟨plug, mode, iface, m.decl, m.pub, some m.info, h, post⟩

/-- `SH_ADD_MANUALHOOK` (mode 0), `SH_ADD_MANUALVPHOOK` (1), `SH_ADD_MANUALDVPHOOK` (2). core/sourcehook/sourcehook.h:718-738, 899-905. -/
def add (E : Env) (r : Reg) (m : Manual) (plug : Plugin) (mode : Nat) (iface : Addr) (h : Handler) (post : Bool) : R (Reg × Int) :=
  addHook E r (addArgs m plug mode iface h post)

/-- `SH_REMOVE_MANUALHOOK`. core/sourcehook/sourcehook.h:722-723, 906-912. -/
def remove (E : Env) (r : Reg) (m : Manual) (plug : Plugin) (iface : Addr) (h : Handler) (post : Bool) : R (Reg × Bool × List Note) :=
  removeHook E r plug iface m.decl (some m.info) h post

/-- `SH_MCALL`: the slot it looks at, and the `this` of the function it calls. core/sourcehook/sourcehook.h:918-928, 4876. -/
def mcall (mem : Addr → Addr) (m : Manual) (ptr : Addr) : Addr × Addr :=
  (mem (ptr + m.thisOffs + m.info.vtblOffs) + 8 * m.info.vtblIdx, ptr)

/-- The slot the recall of `RETURN_META_MNEWPARAMS` goes through, `thisptr` being `GetIfacePtr()`.
core/sourcehook/sourcehook.h:662-675, 913-917. -/
def recallSlot (mem : Addr → Addr) (m : Manual) (thisptr : Addr) : Addr :=
  mem (thisptr + m.info.vtblOffs) + 8 * m.info.vtblIdx

/-- The three assignments to `ms_MFI`. core/sourcehook/sourcehook.h:932-934. -/
def Manual.set (m : Manual) (idx offs thisOffs : Int) : Manual :=
  { m with thisOffs := thisOffs, info := { m.info with vtblIdx := idx, vtblOffs := offs } }

/-- `SH_MANUALHOOK_RECONFIGURE`. core/sourcehook/sourcehook.h:929-935. -/
def reconfigure (E : Env) (r : Reg) (m : Manual) (plug : Plugin) (idx offs thisOffs : Int) : R (Reg × Manual × List Note) := do
  let (r', ns) ← removeHookManager E r plug m.pub
  .ok (r', m.set idx offs thisOffs, ns)

end Verif.SH.Manual
