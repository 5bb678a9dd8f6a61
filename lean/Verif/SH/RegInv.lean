import Verif.SH.Registry
import Verif.SH.ListLemmas
import Verif.SH.HookIdLemmas
/-
Invariants of the registry and the observable view of it.
-/
namespace Verif.SH

/-- Hooks of one object on a function record. -/
def viewV (v : Vfn) (a : Addr) (s : Bool) : List Hook :=
  match v.ifaces.find? (·.ptr == a) with
  | none => []
  | some i => i.side s

/-- The observable content of the registry: the hooks on function slot `p` for object `a`
(0 = vtable-wide), pre (`s = false`) or post (`s = true`), in order. -/
def view (r : Reg) (p a : Addr) (s : Bool) : List Hook :=
  match r.vfns.find? (·.ptr == p) with
  | none => []
  | some v => viewV v a s

/-- Everything the registry knows about a hook manager except its list of served functions. -/
def HasHm (r : Reg) (o : Nat) (plug : Plugin) (pub : PubFunc) (info : Info) : Prop :=
  ∃ h ∈ r.hms, h.oid = o ∧ h.plug = plug ∧ h.pub = pub ∧ h.info = info

/-- Data of hook managers that reference counting does not touch. -/
def hmCore (r : Reg) : List (Nat × Plugin × PubFunc × Info) :=
  r.hms.map fun h => (h.oid, h.plug, h.pub, h.info)

/-- Per function record structure. -/
structure VInv (next : Nat) (v : Vfn) : Prop where
  iptr : (v.ifaces.map Iface.ptr).Nodup
  ioid : (v.ifaces.map Iface.oid).Nodup
  ilt : ∀ i ∈ v.ifaces, i.oid < next
  sorted : ∀ i ∈ v.ifaces, ∀ s, (i.side s).Pairwise (fun a b => a.nid < b.nid)
  hlt : ∀ i ∈ v.ifaces, ∀ s, ∀ h ∈ i.side s, h.nid < next

/-- Structure of the table of function records. -/
structure SInv (r : Reg) : Prop where
  vptr : (r.vfns.map Vfn.ptr).Nodup
  void : (r.vfns.map Vfn.oid).Nodup
  vlt : ∀ v ∈ r.vfns, v.oid < r.next
  vi : ∀ v ∈ r.vfns, VInv r.next v

/-- No empty objects (holds between API calls). -/
def VNe (v : Vfn) : Prop :=
  v.ifaces ≠ [] ∧ v.hms ≠ [] ∧ ∀ i ∈ v.ifaces, ¬ (i.pre = [] ∧ i.post = [])

/-- Agreement of the id table and the hook lists. -/
structure IdInv (vw : Addr → Addr → Bool → List Hook) (es : List Entry) : Prop where
  entry : ∀ p a s h, h ∈ vw p a s → ∃ e, idQuery es h.id = some e ∧ e.vfnptr = p ∧ e.adj = a ∧
    e.post = s ∧ e.plug = h.plug ∧ e.offs = h.offs ∧ e.handler = h.handler
  hook : ∀ id e, idQuery es id = some e → ∃ h ∈ vw e.vfnptr e.adj e.post, h.id = id
  nodup : ∀ p a s, ((vw p a s).map Hook.id).Nodup

/-- Node identities are global, and disjoint from those of deleted handlers. -/
structure NidInv (vw : Addr → Addr → Bool → List Hook) (next : Nat) (deleted : List Nat) : Prop where
  uniq : ∀ p a s h p' a' s' h', h ∈ vw p a s → h' ∈ vw p' a' s' → h.nid = h'.nid →
    p = p' ∧ a = a' ∧ s = s' ∧ h = h'
  live : ∀ p a s h, h ∈ vw p a s → h.nid ∉ deleted
  nodup : deleted.Nodup
  lt : ∀ n ∈ deleted, n < next
  ltv : ∀ p a s h, h ∈ vw p a s → h.nid < next

/-- Reference counts and registration of hook managers, relative to the relation
"function record `a` is served by manager `b`". -/
structure RefInv (r : Reg) (S : Nat → Nat → Prop) : Prop where
  oid : (r.hms.map HookMan.oid).Nodup
  pub : (r.hms.map HookMan.pub).Nodup
  mem : ∀ h ∈ r.hms, ∀ o, o ∈ h.vfns ↔ S o h.oid
  nodup : ∀ h ∈ r.hms, h.vfns.Nodup
  stored : ∀ h ∈ r.hms, r.stored h.pub = if h.vfns = [] then none else some h.oid
  other : ∀ p, (∀ h ∈ r.hms, h.pub ≠ p) → r.stored p = none

/-- The serving relation of a registry state. -/
def Serves (r : Reg) (o h : Nat) : Prop := ∃ v ∈ r.vfns, v.oid = o ∧ v.hms.head? = some h

/-- The managers attached to function records. -/
structure AttInv (r : Reg) : Prop where
  hlt : ∀ o plug pub info, HasHm r o plug pub info → o < r.next
  valid : ∀ o plug pub info, HasHm r o plug pub info → info.version ≠ -1
  sub : ∀ v ∈ r.vfns, ∀ o ∈ v.hms, ∃ plug pub info, HasHm r o plug pub info
  nodup : ∀ v ∈ r.vfns, v.hms.Nodup
  perm : ∀ v ∈ r.vfns, v.hms.Perm v.offers
  sorted : ∀ v ∈ r.vfns, v.hms.Pairwise fun a b => ∀ p q i p' q' i',
    HasHm r a p q i → HasHm r b p' q' i' →
      i'.version < i.version ∨ (i'.version = i.version ∧ [a, b].Sublist v.offers)

/-- Memory: only slots of function records differ from the initial memory.  Words that cannot be
made writable never change; for words that can, restoring needs the module to be still mapped
(vfn:131). -/
structure MemInv (E : Env) (mem0 : Addr → Addr) (r : Reg) : Prop where
  orig : ∀ v ∈ r.vfns, (E.writable v.ptr → E.inMemory v.ptr) → v.orig = mem0 v.ptr
  other : ∀ a, (E.writable a → E.inMemory a) → (∀ v ∈ r.vfns, v.ptr ≠ a) → r.mem a = mem0 a
  frozen : ∀ a, E.writable a = false → r.mem a = mem0 a
  served : ∀ v ∈ r.vfns, E.writable v.ptr → ∀ o plug pub info, v.hms.head? = some o →
    HasHm r o plug pub info → r.mem v.ptr = info.hookfunc

/-- Every hook's owner has a manager attached to the function record. -/
def OwnInv (r : Reg) : Prop :=
  ∀ v ∈ r.vfns, ∀ i ∈ v.ifaces, ∀ s, ∀ h ∈ i.side s, ∃ o ∈ v.hms, ∃ pub info, HasHm r o h.plug pub info

/-- All parts that also hold in the middle of `AddHook`, except ownership. -/
structure WInv (E : Env) (mem0 : Addr → Addr) (r : Reg) : Prop where
  s : SInv r
  ids : IdInv (view r) r.entries
  nid : NidInv (view r) r.next r.deleted
  ref : RefInv r (Serves r)
  att : AttInv r
  mem : MemInv E mem0 r

/-- The registry invariant. -/
structure RegInv (E : Env) (mem0 : Addr → Addr) (r : Reg) : Prop extends WInv E mem0 r where
  ne : ∀ v ∈ r.vfns, VNe v

/-! ### basic facts -/

theorem viewV_mem {next : Nat} {v : Vfn} (hv : VInv next v) {i : Iface} (hi : i ∈ v.ifaces) (s : Bool) :
    viewV v i.ptr s = i.side s := by
  unfold viewV; rw [find?_key hv.iptr hi]

theorem viewV_elim {v : Vfn} {a : Addr} {s : Bool} {h : Hook} (hh : h ∈ viewV v a s) :
    ∃ i ∈ v.ifaces, i.ptr = a ∧ h ∈ i.side s := by
  unfold viewV at hh
  split at hh
  · cases hh
  · next i hi =>
    obtain ⟨h1, h2⟩ := find?_key_some hi
    exact ⟨i, h1, h2, hh⟩

theorem view_mem {r : Reg} (hs : SInv r) {v : Vfn} (hv : v ∈ r.vfns) (a : Addr) (s : Bool) :
    view r v.ptr a s = viewV v a s := by
  unfold view; rw [find?_key hs.vptr hv]

theorem view_elim {r : Reg} {p a : Addr} {s : Bool} {h : Hook} (hh : h ∈ view r p a s) :
    ∃ v ∈ r.vfns, v.ptr = p ∧ ∃ i ∈ v.ifaces, i.ptr = a ∧ h ∈ i.side s := by
  unfold view at hh
  split at hh
  · cases hh
  · next v hv =>
    obtain ⟨h1, h2⟩ := find?_key_some hv
    exact ⟨v, h1, h2, viewV_elim hh⟩

theorem view_intro {r : Reg} (hs : SInv r) {v : Vfn} (hv : v ∈ r.vfns) {i : Iface} (hi : i ∈ v.ifaces)
    {s : Bool} {h : Hook} (hh : h ∈ i.side s) : h ∈ view r v.ptr i.ptr s := by
  rw [view_mem hs hv, viewV_mem (hs.vi v hv) hi]; exact hh

theorem view_congr_vfns {r r' : Reg} (h : r'.vfns = r.vfns) : view r' = view r := by
  funext p a s; unfold view; rw [h]

theorem derefVfn_ok {r : Reg} (hs : SInv r) {v : Vfn} (hv : v ∈ r.vfns) : derefVfn r v.oid = .ok v := by
  unfold derefVfn; rw [find?_key hs.void hv]

theorem derefHm_ok {r : Reg} (hn : (r.hms.map HookMan.oid).Nodup) {h : HookMan} (hh : h ∈ r.hms) :
    derefHm r h.oid = .ok h := by
  unfold derefHm; rw [find?_key hn hh]

theorem hasHm_congr {r r' : Reg} (h : hmCore r' = hmCore r) (o : Nat) (p : Plugin) (q : PubFunc) (i : Info) :
    HasHm r' o p q i ↔ HasHm r o p q i := by
  have key : ∀ x : Reg, HasHm x o p q i ↔ (o, p, q, i) ∈ hmCore x := by
    intro x
    unfold HasHm hmCore
    simp only [List.mem_map, Prod.mk.injEq]
  rw [key, key, h]

/-! ### replacing one function record -/

theorem mem_setVfn {r : Reg} {v v' : Vfn} (hv : v ∈ r.vfns) (ho : v'.oid = v.oid)
    (x : Vfn) : x ∈ (setVfn r v').vfns ↔ x = v' ∨ (x ∈ r.vfns ∧ x.oid ≠ v'.oid) := by
  unfold setVfn; exact mem_mapUpd hv ho

theorem SInv.setVfn {r : Reg} (hs : SInv r) {v v' : Vfn} (hv : v ∈ r.vfns) (ho : v'.oid = v.oid)
    (hp : v'.ptr = v.ptr) (hi : VInv r.next v') : SInv (setVfn r v') := by
  constructor
  · show ((r.vfns.map _).map Vfn.ptr).Nodup
    rw [map_mapUpd hs.void hv ho hp]; exact hs.vptr
  · show ((r.vfns.map _).map Vfn.oid).Nodup
    rw [map_mapUpd hs.void hv ho ho]; exact hs.void
  · intro x hx
    rcases (mem_setVfn hv ho x).1 hx with rfl | ⟨h, _⟩
    · rw [ho]; exact hs.vlt v hv
    · exact hs.vlt x h
  · intro x hx
    rcases (mem_setVfn hv ho x).1 hx with rfl | ⟨h, _⟩
    · exact hi
    · exact hs.vi x h

theorem view_setVfn {r : Reg} (hs : SInv r) {v v' : Vfn} (hv : v ∈ r.vfns) (ho : v'.oid = v.oid)
    (hp : v'.ptr = v.ptr) (hi : VInv r.next v') (p a : Addr) (s : Bool) :
    view (setVfn r v') p a s = if p = v.ptr then viewV v' a s else view r p a s := by
  have hs' := hs.setVfn hv ho hp hi
  have hv' : v' ∈ (setVfn r v').vfns := (mem_setVfn hv ho v').2 (Or.inl rfl)
  split
  · next h => rw [h, ← hp]; exact view_mem hs' hv' a s
  · next h =>
    unfold view
    have : (setVfn r v').vfns.find? (·.ptr == p) = r.vfns.find? (·.ptr == p) := by
      cases hf : r.vfns.find? (·.ptr == p) with
      | none =>
        rw [List.find?_eq_none] at hf ⊢
        intro x hx
        rcases (mem_setVfn hv ho x).1 hx with rfl | ⟨h1, _⟩
        · simp [hp]; exact fun h' => h h'.symm
        · exact hf x h1
      | some y =>
        obtain ⟨h1, h2⟩ := find?_key_some hf
        apply find?_key' hs'.vptr _ h2
        refine (mem_setVfn hv ho y).2 (Or.inr ⟨h1, ?_⟩)
        intro hc
        have := nodup_key_inj hs.void h1 hv (by rw [hc, ho])
        subst this
        exact h h2.symm
    rw [this]

/-- Changing only the managers of a record does not change the view. -/
theorem view_setVfn_hms {r : Reg} (hs : SInv r) {v v' : Vfn} (hv : v ∈ r.vfns) (ho : v'.oid = v.oid)
    (hp : v'.ptr = v.ptr) (hif : v'.ifaces = v.ifaces) : view (setVfn r v') = view r := by
  have hvi : VInv r.next v' := by
    have := hs.vi v hv
    exact ⟨by rw [hif]; exact this.iptr, by rw [hif]; exact this.ioid, by rw [hif]; exact this.ilt,
      by rw [hif]; exact this.sorted, by rw [hif]; exact this.hlt⟩
  funext p a s
  rw [view_setVfn hs hv ho hp hvi]
  split
  · next h => rw [h, view_mem hs hv]; unfold viewV; rw [hif]
  · rfl

/-! ### reference counting -/

/-- What reference counting leaves alone. -/
structure RefFrame (r r' : Reg) : Prop where
  vfns : r'.vfns = r.vfns
  entries : r'.entries = r.entries
  mem : r'.mem = r.mem
  next : r'.next = r.next
  deleted : r'.deleted = r.deleted
  core : hmCore r' = hmCore r

theorem RefFrame.refl (r : Reg) : RefFrame r r := ⟨rfl, rfl, rfl, rfl, rfl, rfl⟩

theorem RefFrame.trans {a b c : Reg} (h1 : RefFrame a b) (h2 : RefFrame b c) : RefFrame a c :=
  ⟨h2.vfns.trans h1.vfns, h2.entries.trans h1.entries, h2.mem.trans h1.mem, h2.next.trans h1.next,
    h2.deleted.trans h1.deleted, h2.core.trans h1.core⟩

theorem mem_setHm {r : Reg} {h h' : HookMan} (hh : h ∈ r.hms) (ho : h'.oid = h.oid) (x : HookMan) :
    x ∈ (setHm r h').hms ↔ x = h' ∨ (x ∈ r.hms ∧ x.oid ≠ h'.oid) := by
  unfold setHm; exact mem_mapUpd hh ho

theorem hmCore_setHm {r : Reg} (hn : (r.hms.map HookMan.oid).Nodup) {h h' : HookMan} (hh : h ∈ r.hms)
    (ho : h'.oid = h.oid) (hp : h'.plug = h.plug) (hq : h'.pub = h.pub) (hi : h'.info = h.info) :
    hmCore (setHm r h') = hmCore r := by
  unfold hmCore setHm
  exact map_mapUpd hn hh ho (by rw [ho, hp, hq, hi])

/-- A reference-count change of one manager: common part of `incrRef` and `decrRef`. -/
theorem RefInv.change {r : Reg} {S S' : Nat → Nat → Prop} (hr : RefInv r S) {h : HookMan} (hh : h ∈ r.hms)
    (vs : List Nat) (hnd : vs.Nodup) (hS : ∀ o, o ∈ vs ↔ S' o h.oid)
    (hS' : ∀ o x, x ≠ h.oid → (S' o x ↔ S o x)) (st : PubFunc → Option Nat)
    (hst : st = upd r.stored h.pub (if vs = [] then none else some h.oid)) :
    RefInv { setHm r { h with vfns := vs } with stored := st } S' := by
  have hm := @mem_setHm r h { h with vfns := vs } hh rfl
  have hoid : ((setHm r { h with vfns := vs }).hms.map HookMan.oid) = r.hms.map HookMan.oid :=
    map_mapUpd hr.oid hh rfl rfl
  have hpub : ((setHm r { h with vfns := vs }).hms.map HookMan.pub) = r.hms.map HookMan.pub :=
    map_mapUpd (key := HookMan.oid) hr.oid hh rfl rfl
  constructor
  · show ((setHm r _).hms.map HookMan.oid).Nodup
    rw [hoid]; exact hr.oid
  · show ((setHm r _).hms.map HookMan.pub).Nodup
    rw [hpub]; exact hr.pub
  · intro x hx o
    rcases (hm x).1 hx with rfl | ⟨h1, h2⟩
    · exact hS o
    · rw [hr.mem x h1 o, hS' o x.oid h2]
  · intro x hx
    rcases (hm x).1 hx with rfl | ⟨h1, h2⟩
    · exact hnd
    · exact hr.nodup x h1
  · intro x hx
    subst hst
    rcases (hm x).1 hx with rfl | ⟨h1, h2⟩
    · simp [upd]
    · have hne : x.pub ≠ h.pub := fun hc => h2 (show x.oid = h.oid from congrArg HookMan.oid (nodup_key_inj (key := HookMan.pub) hr.pub h1 hh hc))
      simp only [upd, if_neg hne]
      exact hr.stored x h1
  · intro p hp
    subst hst
    have hne : p ≠ h.pub := fun hc => hp { h with vfns := vs } ((hm _).2 (Or.inl rfl)) hc.symm
    simp only [upd, if_neg hne]
    apply hr.other
    intro x hx hc
    by_cases hxo : x.oid = h.oid
    · have := nodup_key_inj hr.oid hx hh hxo
      subst this; exact hne hc.symm
    · exact hp x ((hm x).2 (Or.inr ⟨hx, hxo⟩)) hc

theorem incrRef_spec {r : Reg} {S : Nat → Nat → Prop} (hr : RefInv r S) {h : HookMan} (hh : h ∈ r.hms)
    (void : Nat) (hn : ¬ S void h.oid) :
    ∃ r', incrRef r h.oid void = .ok r' ∧ RefFrame r r' ∧
      RefInv r' (fun a b => S a b ∨ (a = void ∧ b = h.oid)) := by
  have hnv : void ∉ h.vfns := fun hc => hn ((hr.mem h hh void).1 hc)
  have hnd : (h.vfns ++ [void]).Nodup := by
    rw [List.nodup_append]
    refine ⟨hr.nodup h hh, by simp, ?_⟩
    intro a ha b hb
    simp only [List.mem_singleton] at hb
    subst hb
    intro hc; exact hnv (hc ▸ ha)
  have hS : ∀ o, o ∈ h.vfns ++ [void] ↔ (S o h.oid ∨ (o = void ∧ h.oid = h.oid)) := by
    intro o; rw [List.mem_append, hr.mem h hh o]; simp
  have hS' : ∀ o x, x ≠ h.oid → ((S o x ∨ (o = void ∧ x = h.oid)) ↔ S o x) := by
    intro o x hx; simp [hx]
  have hcore := @hmCore_setHm r hr.oid h { h with vfns := h.vfns ++ [void] } hh rfl rfl rfl rfl
  unfold incrRef
  rw [derefHm_ok hr.oid hh]
  simp only [bind, Except.bind]
  split
  · next hl =>
    refine ⟨_, rfl, ⟨rfl, rfl, rfl, rfl, rfl, hcore⟩, ?_⟩
    refine hr.change hh _ hnd hS hS' _ ?_
    simp [setHm]
  · next hl =>
    refine ⟨_, rfl, ⟨rfl, rfl, rfl, rfl, rfl, hcore⟩, ?_⟩
    refine hr.change hh _ hnd hS hS' _ ?_
    have hne : h.vfns ≠ [] := by intro hc; apply hl; simp [hc]
    funext p
    simp only [upd]
    split
    · next hp => rw [hp, hr.stored h hh]; simp [hne]
    · rfl

theorem decrRef_spec {r : Reg} {S : Nat → Nat → Prop} (hr : RefInv r S) {h : HookMan} (hh : h ∈ r.hms)
    (void : Nat) :
    ∃ r', decrRef r h.oid void = .ok r' ∧ RefFrame r r' ∧
      RefInv r' (fun a b => S a b ∧ ¬ (a = void ∧ b = h.oid)) := by
  have hnd : (h.vfns.erase void).Nodup := (hr.nodup h hh).sublist List.erase_sublist
  have hS : ∀ o, o ∈ h.vfns.erase void ↔ (S o h.oid ∧ ¬ (o = void ∧ h.oid = h.oid)) := by
    intro o
    rw [(hr.nodup h hh).mem_erase_iff, hr.mem h hh o]
    constructor
    · rintro ⟨h1, h2⟩; exact ⟨h2, fun hc => h1 hc.1⟩
    · rintro ⟨h1, h2⟩; exact ⟨fun hc => h2 ⟨hc, rfl⟩, h1⟩
  have hS' : ∀ o x, x ≠ h.oid → ((S o x ∧ ¬ (o = void ∧ x = h.oid)) ↔ S o x) := by
    intro o x hx; simp [hx]
  have hcore := @hmCore_setHm r hr.oid h { h with vfns := h.vfns.erase void } hh rfl rfl rfl rfl
  unfold decrRef
  rw [derefHm_ok hr.oid hh]
  simp only [bind, Except.bind]
  split
  · next hl =>
    refine ⟨_, rfl, ⟨rfl, rfl, rfl, rfl, rfl, hcore⟩, ?_⟩
    refine hr.change hh _ hnd hS hS' _ ?_
    simp [setHm, hl]
  · next hl =>
    refine ⟨_, rfl, ⟨rfl, rfl, rfl, rfl, rfl, hcore⟩, ?_⟩
    refine hr.change hh _ hnd hS hS' _ ?_
    funext p
    simp only [upd]
    split
    · next hp =>
      rw [hp, hr.stored h hh]
      have hne : h.vfns ≠ [] := by intro hc; apply hl; simp [hc]
      simp [hne]
    · rfl

theorem RefInv.congr {r r' : Reg} {S S' : Nat → Nat → Prop} (hr : RefInv r S) (h1 : r'.hms = r.hms)
    (h2 : r'.stored = r.stored) (hS : ∀ a b, S' a b ↔ S a b) : RefInv r' S' := by
  constructor
  · rw [h1]; exact hr.oid
  · rw [h1]; exact hr.pub
  · intro h hh o; rw [h1] at hh; rw [hr.mem h hh o, hS]
  · intro h hh; rw [h1] at hh; exact hr.nodup h hh
  · intro h hh; rw [h1] at hh; rw [h2]; exact hr.stored h hh
  · intro p hp; rw [h2]; apply hr.other; rw [h1] at hp; exact hp

end Verif.SH
