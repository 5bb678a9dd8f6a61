import Verif.SH.TakeBackLemmas
/-
C100: a plugin that removes in `Unload` what it added in `Load` leaves nothing of itself in
SourceHook; the sample plugins do so.
-/
namespace Verif.SH.TakeBack

open Verif.SH

/-! ### a state for the examples -/

namespace Ex

/-- A hook manager whose prototype SourceHook can read (version 1, no parameters). -/
def info : Info := { version := 5, vtblOffs := 0, vtblIdx := 1, proto := ⟨1, 0, default, [], 0⟩, hookfunc := 700 }
/-- Plugin 3 hooks object 1000, before and after. -/
def a4 : AddArgs := ⟨3, 0, 1000, 0, 4, some info, ⟨14, 14⟩, false⟩
def a5 : AddArgs := ⟨3, 0, 1000, 0, 4, some info, ⟨15, 15⟩, true⟩
/-- The removals, with delegates of their own. -/
def b4 : RemArgs := ⟨3, 1000, 0, some info, ⟨24, 14⟩, false⟩
def b5 : RemArgs := ⟨3, 1000, 0, some info, ⟨25, 15⟩, true⟩

theorem ordinary4 : Ordinary a4 := ⟨rfl, fun i hi => by cases hi; exact ⟨fun _ => rfl, by decide⟩⟩
theorem ordinary5 : Ordinary a5 := ⟨rfl, fun i hi => by cases hi; exact ⟨fun _ => rfl, by decide⟩⟩

theorem hms3 : SH.Ex.r3.hms.map (fun h => (h.plug, h.pub)) = [(1, 1), (2, 2)] := rfl

theorem ok {a : AddArgs} (h : a.pub = 4) : AddOk SH.Ex.r3 a := by
  intro m hm he
  have : (m.plug, m.pub) ∈ SH.Ex.r3.hms.map (fun h => (h.plug, h.pub)) := List.mem_map.2 ⟨m, hm, rfl⟩
  rw [hms3, he, h] at this
  simp at this

/-- Two hooks of plugin 3 beside those of plugins 1 and 2. -/
theorem added : ∃ r1, addAll SH.Ex.E SH.Ex.r3 [a4, a5] = .ok r1 ∧
    (view r1 2008 1000 false).map Hook.plug = [1, 1, 3] ∧ (view r1 2008 1000 true).map Hook.plug = [3] := ⟨_, rfl, rfl, rfl⟩

end Ex

/-- C100: whatever happened since the plugin's hooks were added - by this plugin or by others -
removing everything that was added (in any order, and possibly more) never faults; afterwards none of
the hooks it had added is left, exactly the hooks that one of the removals names are gone, and all
others are where they were, in their old order. -/
theorem taken_back {E : Env} {c : Bool} {mem0 : Addr → Addr} {r : Reg} (h : Reach E c mem0 r) {as : List AddArgs}
    {bs : List RemArgs} (hok : ∀ a ∈ as, AddOk r a) (hpl : ∀ a ∈ as, ∀ a' ∈ as, a.plug = a'.plug)
    (hor : ∀ a ∈ as, Ordinary a) (hbs : ∀ a ∈ as, ∃ b ∈ bs, TakesBack a b) :
    ∃ r1, addAll E r as = .ok r1 ∧ ∀ r2, Later E r1 r2 → ∃ r3, removeAll E r2 bs = .ok r3 ∧
      (∀ p o s k, k ∈ view r1 p o s → (∀ p' o' s', ∀ k' ∈ view r p' o' s', k'.nid ≠ k.nid) →
        ∀ p' o' s', ∀ k' ∈ view r3 p' o' s', k'.nid ≠ k.nid) ∧
      (∀ p o s k, k ∈ view r3 p o s ↔ k ∈ view r2 p o s ∧ ∀ b ∈ bs, ¬ Named r2 b o s k) ∧
      (∀ p o s, (view r3 p o s).Sublist (view r2 p o s)) := by
  obtain ⟨r1, e1, hr1, _, e2⟩ := addAll_grows h hok hpl hor
  refine ⟨r1, e1, fun r2 hl => ?_⟩
  obtain ⟨c2, m2, hr2⟩ := reach_later hr1 hl
  obtain ⟨r3, f1, _, _, f2⟩ := removeAll_filters (bs := bs) hr2
  have hmem : ∀ p o s k, k ∈ view r3 p o s ↔ k ∈ view r2 p o s ∧ ∀ b ∈ bs, ¬ Named r2 b o s k := by
    intro p o s k
    obtain ⟨f, g1, g2⟩ := f2 p o s
    rw [g1, List.mem_filter]
    exact ⟨fun q => ⟨q.1, (g2 k q.1).1 q.2⟩, fun q => ⟨q.1, (g2 k q.1).2 q.2⟩⟩
  refine ⟨r3, f1, ?_, hmem, fun p o s => ?_⟩
  · intro p o s k hk hnew p' o' s' k' hk' hn
    obtain ⟨q1, q2⟩ := (hmem p' o' s' k').1 hk'
    obtain ⟨new, w1, w2⟩ := e2 p o s
    have hk2 : k ∈ new := by
      rw [w1] at hk
      rcases List.mem_append.1 hk with hk | hk
      · exact absurd rfl (hnew p o s k hk)
      · exact hk
    obtain ⟨_, a, ha, w3⟩ := w2 k hk2
    obtain ⟨b, hb, ht⟩ := hbs a ha
    exact q2 b hb ((named_stable hr1 hl hk q1 hn.symm).2 (w3 b ht))
  · obtain ⟨f, g1, _⟩ := f2 p o s
    rw [g1]; exact List.filter_sublist

example : (∀ a ∈ [Ex.a4, Ex.a5], AddOk SH.Ex.r3 a) ∧ (∀ a ∈ [Ex.a4, Ex.a5], Ordinary a) ∧
    (∀ a ∈ [Ex.a4, Ex.a5], ∃ b ∈ [Ex.b5, Ex.b4], TakesBack a b) := by
  refine ⟨?_, ?_, ?_⟩
  · intro a ha; simp at ha; rcases ha with rfl | rfl <;> exact Ex.ok rfl
  · intro a ha; simp at ha; rcases ha with rfl | rfl
    · exact Ex.ordinary4
    · exact Ex.ordinary5
  · intro a ha; simp at ha; rcases ha with rfl | rfl
    · exact ⟨Ex.b4, by simp, rfl, rfl, rfl, rfl, rfl, rfl⟩
    · exact ⟨Ex.b5, by simp, rfl, rfl, rfl, rfl, rfl, rfl⟩

/-- C100: if no hook registered before is named by the removals and nothing happened in between, every
list of hooks is what it was before `Load`; every slot that had no hook then holds the value it held
then, if it can be written and restored. -/
theorem no_trace {E : Env} {c : Bool} {mem0 : Addr → Addr} {r : Reg} (h : Reach E c mem0 r) {as : List AddArgs}
    {bs : List RemArgs} (hok : ∀ a ∈ as, AddOk r a) (hpl : ∀ a ∈ as, ∀ a' ∈ as, a.plug = a'.plug)
    (hor : ∀ a ∈ as, Ordinary a) (hbs : ∀ a ∈ as, ∃ b ∈ bs, TakesBack a b)
    (hno : ∀ p o s, ∀ k ∈ view r p o s, ∀ b ∈ bs, ¬ Named r b o s k) :
    ∃ r1 r3, addAll E r as = .ok r1 ∧ removeAll E r1 bs = .ok r3 ∧ (∀ p o s, view r3 p o s = view r p o s) ∧
      ∀ p, E.inMemory p = true → (∀ o s, view r p o s = []) → r3.mem p = r.mem p := by
  obtain ⟨r1, e1, hr1, hl, e2⟩ := addAll_grows h hok hpl hor
  obtain ⟨r3, f1, hr3, _, f2⟩ := removeAll_filters (bs := bs) hr1
  have hv : ∀ p o s, view r3 p o s = view r p o s := by
    intro p o s
    obtain ⟨f, g1, g2⟩ := f2 p o s
    obtain ⟨new, w1, w2⟩ := e2 p o s
    rw [g1, w1, List.filter_append]
    have hold : (view r p o s).filter f = view r p o s := by
      refine List.filter_eq_self.2 (fun k hk => ?_)
      have hk1 : k ∈ view r1 p o s := by rw [w1]; exact List.mem_append_left _ hk
      exact (g2 k hk1).2 (fun b hb hn => hno p o s k hk b hb ((named_stable h hl hk hk1 rfl).1 hn))
    have hnew : new.filter f = [] := by
      refine List.filter_eq_nil_iff.2 (fun k hk hf => ?_)
      have hk1 : k ∈ view r1 p o s := by rw [w1]; exact List.mem_append_right _ hk
      obtain ⟨_, a, ha, w3⟩ := w2 k hk
      obtain ⟨b, hb, ht⟩ := hbs a ha
      exact (g2 k hk1).1 hf b hb (w3 b ht)
    rw [hold, hnew, List.append_nil]
  refine ⟨r1, r3, e1, f1, hv, fun p him hnone => ?_⟩
  rw [(other_memory_untouched hr3 p).2 him (fun o s => by rw [hv]; exact hnone o s),
    (other_memory_untouched h p).2 him hnone]

/-- The two hooks of plugin 3 come and go; those of plugins 1 and 2 stay. -/
example : ∃ r1 r3, addAll SH.Ex.E SH.Ex.r3 [Ex.a4, Ex.a5] = .ok r1 ∧ removeAll SH.Ex.E r1 [Ex.b5, Ex.b4] = .ok r3 ∧
    (view r1 2008 1000 false).length = 3 ∧ (view r3 2008 1000 false).map Hook.id = [1, 3] ∧
    view r3 2008 1000 true = [] := ⟨_, _, rfl, rfl, rfl, rfl, rfl⟩

/-- Lists of lines of which the second has every line of the first. -/
theorem paired_no_trace {E : Env} {c : Bool} {mem0 : Addr → Addr} {r : Reg} (h : Reach E c mem0 r)
    {load unload : List Line} (hs : ∀ l ∈ load, l ∈ unload) (g : Names) (obj obj' : Nat)
    (hpub : ∀ m ∈ r.hms, ∀ i f, m.pub = g.pub i f → m.plug = g.plug)
    (hproto : ∀ i f x, g.info i f = some x → x.proto.WF ∧ 0 ≤ x.proto.version)
    (hnone : ∀ p o s, ∀ k ∈ view r p o s, k.plug = g.plug → ∀ l ∈ unload, k.handler.key ≠ g.key l.handler) :
    ∃ r1 r3, addAll E r (load.map (Line.add g obj)) = .ok r1 ∧ removeAll E r1 (unload.map (Line.rem g obj')) = .ok r3 ∧
      (∀ p o s, view r3 p o s = view r p o s) ∧
      ∀ p, E.inMemory p = true → (∀ o s, view r p o s = []) → r3.mem p = r.mem p := by
  refine no_trace h ?_ ?_ ?_ ?_ ?_
  · intro a ha m hm he
    obtain ⟨l, _, rfl⟩ := List.mem_map.1 ha
    exact hpub m hm l.iface l.func he
  · intro a ha a' ha'
    obtain ⟨l, _, rfl⟩ := List.mem_map.1 ha
    obtain ⟨l', _, rfl⟩ := List.mem_map.1 ha'
    rfl
  · intro a ha
    obtain ⟨l, _, rfl⟩ := List.mem_map.1 ha
    exact ⟨rfl, fun i hi => hproto _ _ i hi⟩
  · intro a ha
    obtain ⟨l, hl, rfl⟩ := List.mem_map.1 ha
    exact ⟨l.rem g obj', List.mem_map.2 ⟨l, hs l hl, rfl⟩, rfl, rfl, rfl, rfl, rfl, rfl⟩
  · intro p o s k hk b hb hn
    obtain ⟨l, hl, rfl⟩ := List.mem_map.1 hb
    exact hnone p o s k hk hn.plug l hl hn.handler

/-- Every line of `Load` of every sample has its line in `Unload`. -/
theorem samples_paired : ∀ s ∈ samples, ∀ l ∈ s.1, l ∈ s.2 := by decide +kernel

/-- C100: each of the three sample plugins, whatever the names in its source stand for, leaves every
list of hooks as it was, in any state in which the plugin has no hooks yet. -/
theorem samples_no_trace {E : Env} {c : Bool} {mem0 : Addr → Addr} {r : Reg} (h : Reach E c mem0 r)
    {load unload : List Line} (hs : (load, unload) ∈ samples) (g : Names) (obj obj' : Nat)
    (hpub : ∀ m ∈ r.hms, ∀ i f, m.pub = g.pub i f → m.plug = g.plug)
    (hproto : ∀ i f x, g.info i f = some x → x.proto.WF ∧ 0 ≤ x.proto.version)
    (hnone : ∀ p o s, ∀ k ∈ view r p o s, k.plug ≠ g.plug) :
    ∃ r1 r3, addAll E r (load.map (Line.add g obj)) = .ok r1 ∧ removeAll E r1 (unload.map (Line.rem g obj')) = .ok r3 ∧
      (∀ p o s, view r3 p o s = view r p o s) ∧
      ∀ p, E.inMemory p = true → (∀ o s, view r p o s = []) → r3.mem p = r.mem p :=
  paired_no_trace h (samples_paired _ hs) g obj obj' hpub hproto
    (fun p o s k hk he => absurd he (hnone p o s k hk))

/-- Names under which the first sample is plugin 3 with eleven hooks on the object at 1000. -/
example : ∃ g : Names, (∀ m ∈ SH.Ex.r3.hms, ∀ i f, m.pub = g.pub i f → m.plug = g.plug) ∧
    (∀ i f x, g.info i f = some x → x.proto.WF ∧ 0 ≤ x.proto.version) ∧ (s1Load, s1Unload) ∈ samples ∧
    ∃ r1, addAll SH.Ex.E SH.Ex.r3 (s1Load.map (Line.add g 50)) = .ok r1 ∧
      (view r1 2008 1000 true).length = 7 ∧ (view r1 2008 1000 false).length = 6 := by
  refine ⟨⟨3, fun _ => 1000, fun _ _ => 0, fun _ _ => 4, fun _ _ => some Ex.info, String.length⟩, ?_, ?_,
    List.mem_cons_self .., _, rfl, rfl, rfl⟩
  · intro m hm i f he
    exact Ex.ok (a := Ex.a4) rfl m hm he
  · intro i f x hx; cases hx; exact ⟨fun _ => rfl, by decide⟩

theorem metamods_paired : ∀ s ∈ metamods, ∀ l ∈ s.1, l ∈ s.2 := by decide +kernel

/-- C100: so do the bridge for server plugins and the provider for Source 2 - for the whole run, for a
factory of loop modes and for a loop mode - in any state without hooks that have their handlers. -/
theorem metamod_no_trace {E : Env} {c : Bool} {mem0 : Addr → Addr} {r : Reg} (h : Reach E c mem0 r)
    {load unload : List Line} (hs : (load, unload) ∈ metamods) (g : Names) (obj obj' : Nat)
    (hpub : ∀ m ∈ r.hms, ∀ i f, m.pub = g.pub i f → m.plug = g.plug)
    (hproto : ∀ i f x, g.info i f = some x → x.proto.WF ∧ 0 ≤ x.proto.version)
    (hnone : ∀ p o s, ∀ k ∈ view r p o s, k.plug = g.plug → ∀ l ∈ unload, k.handler.key ≠ g.key l.handler) :
    ∃ r1 r3, addAll E r (load.map (Line.add g obj)) = .ok r1 ∧ removeAll E r1 (unload.map (Line.rem g obj')) = .ok r3 ∧
      (∀ p o s, view r3 p o s = view r p o s) ∧
      ∀ p, E.inMemory p = true → (∀ o s, view r p o s = []) → r3.mem p = r.mem p :=
  paired_no_trace h (metamods_paired _ hs) g obj obj' hpub hproto hnone

/-- Both sides of a command of the console at 1000, with plugins 1 and 2 already there. -/
example : ∃ g : Names, (∀ p o s, ∀ k ∈ view SH.Ex.r0 p o s, k.plug = g.plug → ∀ l ∈ vspUnload, k.handler.key ≠ g.key l.handler) ∧
    (vspLoad, vspUnload) ∈ metamods ∧ ∃ r1, addAll SH.Ex.E SH.Ex.r3 (vspLoad.map (Line.add g 50)) = .ok r1 ∧
      (view r1 2008 1000 true).length = 1 ∧ (view r1 2008 1000 false).length = 3 :=
  ⟨⟨0, fun _ => 1000, fun _ _ => 0, fun _ _ => 4, fun _ _ => some Ex.info, String.length⟩,
    (fun p o s k hk => by cases hk), List.mem_cons_self .., _, rfl, rfl, rfl⟩

/-- C100, finding: the provider for the first Source engine does not take back its hook on the commands
of players: after `Notify_DLLInit_Pre` and `Notify_DLLShutdown_Pre` it is still registered, in every
state.  It goes only when SourceHook itself is shut down. -/
theorem source_leaves_command_hook {E : Env} {c : Bool} {mem0 : Addr → Addr} {r : Reg} (h : Reach E c mem0 r) (g : Names)
    (obj obj' : Nat) (hpub : ∀ m ∈ r.hms, ∀ i f, m.pub = g.pub i f → m.plug = g.plug)
    (hinfo : ∀ i f, ∃ x, g.info i f = some x ∧ x.version ≠ -1 ∧ x.proto.WF ∧ 0 ≤ x.proto.version)
    (hkeys : ∀ l ∈ s1Shutdown, g.key l.handler ≠ g.key "Hook_ClientCommand") :
    ∃ r1 r3, addAll E r ((s1Init true).map (Line.add g obj)) = .ok r1 ∧
      removeAll E r1 (s1Shutdown.map (Line.rem g obj')) = .ok r3 ∧
      ∃ p s, ∃ k ∈ view r3 p (g.addr .gameclients + g.offs "IServerGameClients" "ClientCommand") s,
        k.plug = g.plug ∧ k.handler.key = g.key "Hook_ClientCommand" ∧
        ∀ p' o' s', ∀ k' ∈ view r p' o' s', k'.nid ≠ k.nid := by
  have hproto : ∀ i f x, g.info i f = some x → x.proto.WF ∧ 0 ≤ x.proto.version := by
    intro i f x hx
    obtain ⟨y, q1, _, q3⟩ := hinfo i f
    rw [q1] at hx; cases hx; exact q3
  let a : AddArgs := Line.add g obj ⟨"IServerGameClients", "ClientCommand", .gameclients, "Hook_ClientCommand", false⟩
  let as : List AddArgs := s1Shutdown.map (Line.add g obj)
  have hoka : ∀ l : Line, AddOk r (Line.add g obj l) := fun l m hm he => hpub m hm l.iface l.func he
  obtain ⟨r', id, e1, e2, _, e4⟩ := addHook_result h (hoka ⟨"IServerGameClients", "ClientCommand", .gameclients, "Hook_ClientCommand", false⟩)
  obtain ⟨x, q1, q2, _⟩ := hinfo "IServerGameClients" "ClientCommand"
  have hid : id ≠ 0 := fun hc => (e2.1 hc) ⟨Nat.zero_le _, x, q1, q2⟩
  obtain ⟨_, _, slot, adj, n, t1, t2, t3, _⟩ := e4 x hid q1
  have hr' : Reach E c mem0 r' := by
    have := Reach.step (op := .add a) (x := id) h (hoka _) e1
    simpa using this
  obtain ⟨r1, f1, hr1, _, f2⟩ := addAll_grows (as := as) hr'
    (fun b hb => by
      obtain ⟨l, _, rfl⟩ := List.mem_map.1 hb
      exact addOk_after h (hoka _) e1 (hoka l) rfl)
    (fun b hb b' hb' => by
      obtain ⟨l, _, rfl⟩ := List.mem_map.1 hb
      obtain ⟨l', _, rfl⟩ := List.mem_map.1 hb'
      rfl)
    (fun b hb => by
      obtain ⟨l, _, rfl⟩ := List.mem_map.1 hb
      exact ⟨rfl, fun i hi => hproto _ _ i hi⟩)
  obtain ⟨r3, g1, _, _, g2⟩ := removeAll_filters (bs := s1Shutdown.map (Line.rem g obj')) hr1
  refine ⟨r1, r3, ?_, g1, slot, false, ⟨n, g.plug, a.offs, a.handler, id, false⟩, ?_, rfl, rfl, t2⟩
  · show addAll E r (a :: as) = .ok r1
    have e1' : addHook E r a = .ok (r', id) := e1
    simp only [addAll, e1', bind, Except.bind, f1]
  · have hadj : g.addr .gameclients + g.offs "IServerGameClients" "ClientCommand" = adj := t1.adj.symm
    rw [hadj]
    obtain ⟨f, w1, w2⟩ := g2 slot adj false
    obtain ⟨new, v1, _⟩ := f2 slot adj false
    have hk : (⟨n, g.plug, a.offs, a.handler, id, false⟩ : Hook) ∈ view r1 slot adj false := by
      rw [v1]
      refine List.mem_append_left _ ?_
      have t3' : view r' slot adj false = view r slot adj false ++ [⟨n, g.plug, a.offs, a.handler, id, false⟩] := t3
      rw [t3']; exact List.mem_append_right _ (List.mem_singleton_self _)
    rw [w1, List.mem_filter]
    refine ⟨hk, (w2 _ hk).2 (fun b hb hn => ?_)⟩
    obtain ⟨l, hl, rfl⟩ := List.mem_map.1 hb
    exact hkeys l hl hn.handler.symm

example : ∃ g : Names, (∀ l ∈ s1Shutdown, g.key l.handler ≠ g.key "Hook_ClientCommand") ∧
    ∃ r1 r3, addAll SH.Ex.E SH.Ex.r3 ((s1Init true).map (Line.add g 50)) = .ok r1 ∧
      removeAll SH.Ex.E r1 (s1Shutdown.map (Line.rem g 60)) = .ok r3 ∧
      (view r1 2008 1000 true).length = 2 ∧ (view r3 2008 1000 true).length = 0 ∧
      (view r1 2008 1000 false).length = 4 ∧ (view r3 2008 1000 false).length = 3 :=
  ⟨⟨0, fun _ => 1000, fun _ _ => 0, fun _ _ => 4, fun _ _ => some Ex.info,
      fun t => if t = "Hook_ClientCommand" then 1 else t.length + 2⟩, by decide, _, _, rfl, rfl, rfl, rfl, rfl, rfl⟩

/-- C100, finding: a hook added for all objects of a class (`SH_ADD_VPHOOK`, `SH_ADD_DVPHOOK`) stays
through every `RemoveHook` that names an object, whatever its other arguments: it is kept under the
address 0.  Only its id removes it. -/
theorem class_hook_not_taken_back {E : Env} {c : Bool} {mem0 : Addr → Addr} {r : Reg} (h : Reach E c mem0 r)
    {a : AddArgs} (hok : AddOk r a) {i : Info} (hi : a.info = some i) (hm : a.mode = 1 ∨ a.mode = 2)
    (hv : i.version ≠ -1) :
    ∃ r1 id, addHook E r a = .ok (r1, id) ∧ id ≠ 0 ∧ ∃ p, ∃ k ∈ view r1 p 0 a.post, k.id = id ∧
      ∀ b : RemArgs, b.iface + b.offs ≠ 0 →
        ∃ r2 x ns, removeHook E r1 b.plug b.iface b.offs b.info b.handler b.post = .ok (r2, x, ns) ∧
          k ∈ view r2 p 0 a.post := by
  have hm2 : a.mode ≤ 2 := by clear h hok; omega
  have hm0 : a.mode ≠ 0 := by clear h hok; omega
  obtain ⟨r1, id, e1, e2, e3, e4⟩ := addHook_result h hok
  have hid : id ≠ 0 := fun hc => (e2.1 hc) ⟨hm2, i, hi, hv⟩
  obtain ⟨_, _, slot, adj, n, q3, _, q5, _⟩ := e4 i hid hi
  have hadj : adj = 0 := by rw [q3.adj, if_neg hm0]
  subst hadj
  refine ⟨r1, id, e1, hid, slot, ⟨n, a.plug, a.offs, a.handler, id, false⟩,
    by rw [q5]; exact List.mem_append_right _ (List.mem_singleton_self _), rfl, fun b hb => ?_⟩
  have hr1 := Reach.step (op := .add a) (x := id) h hok e1
  obtain ⟨r2, x, ns, f1, _, f3, _⟩ := removeHook_exact hr1 b.plug b.iface b.offs b.info b.handler b.post
  refine ⟨r2, x, ns, f1, (f3 _ _ _ _).2 ⟨by rw [q5]; exact List.mem_append_right _ (List.mem_singleton_self _), ?_⟩⟩
  exact fun hc => hb hc.obj.symm

/-- The class-wide hook of plugin 2. -/
example : AddOk SH.Ex.r1 SH.Ex.a2 ∧ SH.Ex.a2.info = some SH.Ex.info2 ∧ SH.Ex.a2.mode = 1 ∧ SH.Ex.info2.version ≠ -1 :=
  ⟨SH.Ex.ok2, rfl, rfl, by decide⟩

/-- C100, finding: `AddHook` accepts a hook manager whose prototype SourceHook cannot read (version
above the known ones), but the hook is then never removed by `RemoveHook`, because such a prototype is
not even equal to itself. -/
theorem unread_prototype_not_taken_back {E : Env} {c : Bool} {mem0 : Addr → Addr} {r : Reg} (h : Reach E c mem0 r)
    {a : AddArgs} (hok : AddOk r a) {i : Info} (hi : a.info = some i) (hm : a.mode ≤ 2) (hv : i.version ≠ -1)
    (hp : i.proto.version < 0) :
    ∃ r1 id, addHook E r a = .ok (r1, id) ∧ id ≠ 0 ∧ ∃ p o s, ∃ k ∈ view r1 p o s, k.id = id ∧
      ∀ b : RemArgs, ∃ r2 x ns, removeHook E r1 b.plug b.iface b.offs b.info b.handler b.post = .ok (r2, x, ns) ∧
        k ∈ view r2 p o s := by
  obtain ⟨r1, id, e1, e2, e3, e4⟩ := addHook_result h hok
  have hid : id ≠ 0 := fun hc => (e2.1 hc) ⟨hm, i, hi, hv⟩
  obtain ⟨_, _, slot, adj, n, _, _, q5, _⟩ := e4 i hid hi
  refine ⟨r1, id, e1, hid, slot, adj, a.post, ⟨n, a.plug, a.offs, a.handler, id, false⟩,
    by rw [q5]; exact List.mem_append_right _ (List.mem_singleton_self _), rfl, fun b => ?_⟩
  have hr1 := Reach.step (op := .add a) (x := id) h hok e1
  obtain ⟨r2, x, ns, f1, _, f3, _⟩ := removeHook_exact hr1 b.plug b.iface b.offs b.info b.handler b.post
  refine ⟨r2, x, ns, f1, (f3 _ _ _ _).2 ⟨by rw [q5]; exact List.mem_append_right _ (List.mem_singleton_self _), ?_⟩⟩
  rintro ⟨⟨j, d, w1, w2, w3, _⟩, _⟩
  rw [desc_recorded h hok hi e1 hid] at w2
  cases w2
  unfold Proto.eqb Proto.eq? at w3
  rw [if_pos (Or.inl hp)] at w3
  cases w3

example : ∃ a i, AddOk SH.Ex.r3 a ∧ a.info = some i ∧ a.mode ≤ 2 ∧ i.version ≠ -1 ∧ i.proto.version < 0 :=
  ⟨{ Ex.a4 with info := some { Ex.info with proto := ⟨-1, 0, default, [], 0⟩ } }, _, Ex.ok rfl, rfl, by decide, by decide, by decide⟩

end Verif.SH.TakeBack

#print axioms Verif.SH.TakeBack.taken_back
#print axioms Verif.SH.TakeBack.no_trace
#print axioms Verif.SH.TakeBack.samples_no_trace
#print axioms Verif.SH.TakeBack.metamod_no_trace
#print axioms Verif.SH.TakeBack.source_leaves_command_hook
#print axioms Verif.SH.TakeBack.class_hook_not_taken_back
#print axioms Verif.SH.TakeBack.unread_prototype_not_taken_back
