import Verif.Mgr.Inv
/-
Properties C26 (plugin ids) and C27 (a file is loaded once).
-/
namespace Verif.Mgr

/-! ### Spec -/

/-- The ids of the listed plugins, in order. -/
def ids (s : St) : List Nat := s.plugins.filterMap (fun o => (s.objs o).map Plug.id)

/-- The paths of the listed plugins with runs of separators made one, in order. -/
def paths (s : St) : List (List Byte) := s.plugins.filterMap (fun o => (s.objs o).map (fun p => Util.collapse p.file))

/-! ### Example programs -/

/-- A binary that can be loaded, plugin object `n`. -/
def good (n : Nat) : Outcome := ⟨true, true, some n, some (some n, false), none, 17⟩
/-- All callbacks agree and call nothing. -/
def yes : Call → Nat → Scr := fun _ _ => .ret true
/-- All callbacks refuse and call nothing. -/
def no : Call → Nat → Scr := fun _ _ => .ret false
/-- The `Load` of object `o` runs a program; everything else agrees. -/
def onLoad (o : Nat) (k : Scr) : Call → Nat → Scr := fun c _ =>
  match c with
  | .load o' _ _ => if o' = o then k else .ret true
  | _ => .ret true

theorem filterMap_nodup {α β : Type} {f : α → Option β} : ∀ {l : List α}, l.Nodup →
    (∀ a ∈ l, ∀ b ∈ l, ∀ x, f a = some x → f b = some x → a = b) → (l.filterMap f).Nodup := by
  intro l
  induction l with
  | nil => intro _ _; exact List.nodup_nil
  | cons a l ih =>
    intro hn hf
    rw [List.nodup_cons] at hn
    have ih' := ih hn.2 (fun a ha b hb => hf a (.tail _ ha) b (.tail _ hb))
    rw [List.filterMap_cons]
    cases e : f a with
    | none => exact ih'
    | some x =>
      rw [List.nodup_cons]
      refine ⟨fun hm => ?_, ih'⟩
      obtain ⟨b, hb, eb⟩ := List.mem_filterMap.mp hm
      exact hn.1 (hf a (.head _) b (.tail _ hb) x e eb ▸ hb)

theorem filterMap_live {β : Type} {s : St} {g : Plug → β} : ∀ {l : List Nat}, (∀ o ∈ l, s.objs o ≠ none) →
    (l.filterMap (fun o => (s.objs o).map g)).length = l.length := by
  intro l
  induction l with
  | nil => intro _; rfl
  | cons a l ih =>
    intro h
    rw [List.filterMap_cons]
    cases e : s.objs a with
    | none => exact absurd e (h a (.head _))
    | some p => simp [ih (fun o ho => h o (.tail _ ho))]

/-! ### C26 -/

/-- C26, first half, partial: the listed plugins have different ids, all at least 1, and every
list entry is alive, after every program of manager operations, with all answers of the
plugins, where the callbacks may call everything again, except: during `Retry` they load
nothing and do not announce.  `retry_same_ids` shows that without this exception it is false. -/
theorem ids_distinct_partial {s : St} (h : Reach true s) :
    (ids s).Nodup ∧ (∀ x ∈ ids s, 1 ≤ x) ∧ (ids s).length = s.plugins.length := by
  have hi := h.id
  refine ⟨filterMap_nodup hi.nodup ?_, fun x hx => ?_, filterMap_live hi.live⟩
  · intro a ha b hb x ea eb
    cases e1 : s.objs a with
    | none => rw [e1] at ea; cases ea
    | some p =>
      cases e2 : s.objs b with
      | none => rw [e2] at eb; cases eb
      | some q =>
        rw [e1] at ea; rw [e2] at eb; cases ea; injection eb with eb
        exact hi.inj a ha b hb p q e1 e2 eb.symm
  · obtain ⟨o, ho, e⟩ := List.mem_filterMap.mp hx
    cases e1 : s.objs o with
    | none => rw [e1] at e; cases e
    | some p => rw [e1] at e; cases e; exact (hi.range o ho p e1).1

/-- C26, second half, partial: without `Retry` the id a load gives out is new: no hook has it as
owner and no plugin object that still exists, listed or not, has it.  `retry_id_reused` shows
that with `Retry` it is false. -/
theorem load_id_new_partial {s s' : St} {fuel : Nat} {cb : Call → Nat → Scr} {file : List Byte} {o : Outcome} {id : Nat} {al : Bool}
    (h : Reach false s) (hcb : ∀ c n, (cb c n).Ok false) (e : load (fun c n s => exec fuel (cb c n) s) fuel file o s = .ok (s', id, al)) :
    id ∈ ids s ∨ ((∀ k ∈ s.hooks, k.owner ≠ id) ∧ ∀ i p, s.objs i = some p → p.id ≠ id ∧ p.given ≠ id) := by
  have hi := h.id
  have ho := h.own
  have hT := goodA_g false
  have hh : HOk (Steps false) (fun c n s => exec fuel (cb c n) s) := fun c k s s' b hi e => exec_emits fuel (cb c k) (hcb c k) s s' b hi e
  unfold load at e
  obtain ⟨⟨l, al', x⟩, e1, e⟩ := bind_ok e
  have hsc := scan_spec e1
  cases x with
  | some y =>
    cases e
    left
    -- the scan found it in the list
    have : ∀ (l kept : List Nat) (al : Bool) (y : List Nat × Bool × Option Nat), scan s file kept l al = .ok y → ∀ z, y.2.2 = some z →
        ∃ a ∈ l, ∃ p, s.objs a = some p ∧ p.id = z := by
      intro l
      induction l with
      | nil => intro kept al y e z hz; cases e; cases hz
      | cons a as ih =>
        intro kept al y e z hz
        rw [scan] at e
        obtain ⟨p, e1, e⟩ := bind_ok e
        split at e
        · obtain ⟨b, e2, e⟩ := bind_ok e
          split at e
          · obtain ⟨a', h1, h2⟩ := ih _ _ _ e z hz
            exact ⟨a', .tail _ h1, h2⟩
          · cases e; cases hz; exact ⟨a, .head _, p, get_ok e1, rfl⟩
        · obtain ⟨a', h1, h2⟩ := ih _ _ _ e z hz
          exact ⟨a', .tail _ h1, h2⟩
    obtain ⟨a, ha, p, hp, hid⟩ := this _ _ _ _ e1 _ rfl
    exact List.mem_filterMap.mpr ⟨a, ha, by rw [hp, ← hid]; rfl⟩
  | none =>
    right
    obtain ⟨⟨s1, B⟩, e2, e⟩ := bind_ok e
    obtain ⟨s2, e3, e⟩ := bind_ok e
    obtain ⟨p, e4, e⟩ := bind_ok e
    cases e
    dsimp only at e2 e3 e4
    have hi0 : IdInv { s with plugins := l } := ((QPrim.erase (a := false) (n := 0) s l (by simpa using hsc.1)).spec hi).1
    obtain ⟨rfl, t1⟩ := load_emits_ hT hh hi0 e2
    have i1 := (pushNew_spec hi0 file o).1
    have i2 := hT.inv _ _ _ i1 t1
    have t2 := plEvent_emits hT.toGood hh _ _ _ _ _ i2 e3
    have t := hT.trans _ _ _ _ t1 (hT.mono _ _ _ _ (Nat.le_trans (Nat.le_succ _) (hT.next _ _ _ t1)) t2)
    -- the id stays
    have hid : ∀ (s0 s' : St), IdInv s0 → Steps false s.next s0 s' → ∀ i p', i < s0.next → s'.objs i = some p' → ∃ p0, s0.objs i = some p0 ∧ p'.id = p0.id := by
      intro s0 s' hi0 t
      have hn : ∀ s', Steps false s.next s0 s' → s0.next ≤ s'.next := fun _ t => Steps.next t
      induction t with
      | refl => intro i p' _ hp'; exact ⟨p', hp', rfl⟩
      | tail g q ih =>
        intro i p' hlt hp'
        have := hn _ g
        cases q with
        | quiet q =>
          obtain ⟨p1, h1, a1, _⟩ := q.obj hp'
          obtain ⟨p0, h0, b1⟩ := ih i p1 hlt h1
          exact ⟨p0, h0, a1.trans b1⟩
        | push f o _ =>
          rcases pushNew_get hp' with ⟨e, _⟩ | ⟨_, h1⟩
          · omega
          · exact ih i p' hlt h1
        | retry _ _ _ h => cases h
    obtain ⟨p0, h0, e0⟩ := hid _ _ i1 t s.next p (Nat.lt_succ_self _) (get_ok e4)
    have : p.id = s.lastId := by
      rcases pushNew_get h0 with ⟨_, rfl⟩ | ⟨hne, _⟩
      · rw [e0]; exact (probe_id (newPlug s.lastId file) o).1
      · exact absurd rfl hne
    rw [this]
    refine ⟨fun k hk => ?_, fun i q hq => ?_⟩
    · have := (ho.owner k hk).2; omega
    · obtain ⟨h1, _, h3⟩ := ho.given i q hq
      exact ⟨by omega, by omega⟩

/-- A program that loads three plugins, the second from inside the first, one refused. -/
def idExample : Scr :=
  .op (.load [97] (good 10)) (onLoad 0 (.op (.load [98] (good 11)) yes (.op (.addHook 0) yes (.ret true))))
    (.op (.load [99] (good 12)) no (.ret true))

theorem idExample_ok : idExample.Ok false := by
  refine ⟨fun c n => ?_, fun c n => trivial, trivial⟩
  unfold onLoad
  split
  · split
    · exact ⟨fun c n => trivial, fun c n => trivial, trivial⟩
    · trivial
  · trivial

/-- Of a result. -/
def resIds : R (St × Bool) → Option (List Nat)
  | .ok (s, _) => some (ids s)
  | .error _ => none

/-- `ids_distinct_partial` applies to a state with three plugins. -/
example : ∃ s, Reach true s ∧ ids s = [1, 2, 3] := by
  have h : resIds (exec 10 idExample init) = some [1, 2, 3] := by rfl
  cases e : exec 10 idExample init with
  | error _ => rw [e] at h; cases h
  | ok x =>
    rw [e] at h
    obtain ⟨s, b⟩ := x
    have hok : idExample.Ok true := by
      refine ⟨fun c n => ?_, fun c n => trivial, trivial⟩
      unfold onLoad
      split
      · split
        · exact ⟨fun c n => trivial, fun c n => trivial, trivial⟩
        · trivial
      · trivial
    exact ⟨s, ⟨10, idExample, b, hok, e⟩, Option.some.inj h⟩

/-- `load_id_new_partial` applies to a state with plugins and a hook. -/
example : ∃ s, Reach false s ∧ ids s = [1, 2, 3] ∧ s.hooks.length = 1 ∧
    ∃ s', load (fun c n s => exec 10 (yes c n) s) 10 [100] (good 13) s = .ok (s', 4, false) := by
  have h : (match exec 10 idExample init with
    | .ok (s, _) => some (ids s, s.hooks.length, match load (fun c n s => exec 10 (yes c n) s) 10 [100] (good 13) s with
      | .ok (_, i, al) => some (i, al)
      | .error _ => none)
    | .error _ => none) = some ([1, 2, 3], 1, some (4, false)) := by rfl
  cases e : exec 10 idExample init with
  | error _ => rw [e] at h; cases h
  | ok x =>
    rw [e] at h
    obtain ⟨s, b⟩ := x
    injection h with h
    injection h with h1 h
    injection h with h2 h
    refine ⟨s, ⟨10, idExample, b, idExample_ok, e⟩, h1, h2, ?_⟩
    cases e' : load (fun c n s => exec 10 (yes c n) s) 10 [100] (good 13) s with
    | error _ => rw [e'] at h; cases h
    | ok y =>
      rw [e'] at h
      obtain ⟨s', i, al⟩ := y
      injection h with h
      injection h with h3 h4
      subst h3; subst h4
      exact ⟨s', rfl⟩

/-! What is false. -/

/-- Load a plugin that refuses; retry it; from inside the retry it loads another plugin; then load
a third. -/
def dupProg : Scr :=
  .op (.load [97] (good 10)) no (.op (.retry 1 (good 11)) (onLoad 1 (.op (.load [98] (good 12)) yes (.ret true)))
    (.op (.load [99] (good 13)) yes (.ret true)))

/-- C26 is false: `Retry` gives its second id back (core/metamod_plugins.cpp:316,328), but a plugin
loaded from inside the retried plugin's `Load` has the next id already, and the load after that
gets the same one. -/
theorem retry_same_ids : resIds (exec 10 dupProg init) = some [1, 3, 3] := by rfl

/-- Load a plugin that refuses; retry it, it adds a hook; load another plugin. -/
def reuseProg (k : Scr) : Scr :=
  .op (.load [97] (good 10)) no (.op (.retry 1 (good 11)) (onLoad 1 (.op (.addHook 1) yes (.ret true)))
    (.op (.load [98] (good 12)) yes k))

/-- Ids, owners of hooks. -/
def resOwners : R (St × Bool) → Option (List Nat × List Nat)
  | .ok (s, _) => some (ids s, s.hooks.map Hook.owner)
  | .error _ => none

/-- C26 is false: after a successful `Retry` the plugin's hooks are owned by the id that it was told
in `Load`, not by the id it has from then on, and the next plugin loaded gets that id. -/
theorem retry_id_reused : resOwners (exec 10 (reuseProg (.ret true)) init) = some ([1, 2], [2]) := by rfl

/-- When that plugin is unloaded, the first one's hooks go too. -/
theorem retry_hooks_lost : resOwners (exec 10 (reuseProg (.op (.unload 2 false) yes (.ret true))) init) = some ([1], []) := by rfl

/-- And when the first one is unloaded its hooks stay, with its code gone. -/
theorem retry_hooks_stay : resOwners (exec 10 (reuseProg (.op (.unload 1 false) yes (.ret true))) init) = some ([2], [2]) := by rfl

/-- Outcome of a program: fault or not. -/
def resFault : R (St × Bool) → Option Fault
  | .ok _ => none
  | .error e => some e

/-- A plugin that retries itself in its `Load` during a `Retry` leaves the outer one with an iterator
to a freed list node. -/
theorem retry_nested_dangling : resFault (exec 10 (.op (.load [97] (good 10)) no (.op (.retry 1 (good 11))
    (onLoad 1 (.op (.retry 1 (good 12)) yes (.ret true))) (.ret true))) init) = some .dangling := by rfl

/-! ### C27 -/

/-- C27, first half, partial: listed plugins, loaded or failed, have different paths after every program
(callbacks during `Retry` load nothing and do not announce). -/
theorem paths_distinct_partial {s : St} (h : Reach true s) : (paths s).Nodup := by
  have hi := h.id
  refine filterMap_nodup hi.nodup ?_
  intro a ha b hb x ea eb
  cases e1 : s.objs a with
  | none => rw [e1] at ea; cases ea
  | some p =>
    cases e2 : s.objs b with
    | none => rw [e2] at eb; cases eb
    | some q =>
      rw [e1] at ea; rw [e2] at eb; cases ea; injection eb with eb
      exact h.path a ha b hb p q e1 e2 eb.symm

theorem scan_loaded {s : St} {file : List Byte} {o : Nat} {p : Plug} (hp : s.objs o = some p) (hl : Loaded p.status)
    (hf : Util.collapse file = Util.collapse p.file) : ∀ (l kept : List Nat) (al : Bool), (∀ a ∈ l, s.objs a ≠ none) →
    (∀ a ∈ l, ∀ q, s.objs a = some q → Util.collapse q.file = Util.collapse p.file → a = o) → o ∈ l →
    scan s file kept l al = .ok (kept ++ l, true, some p.id) := by
  intro l
  induction l with
  | nil => intro _ _ _ _ h; cases h
  | cons a as ih =>
    intro kept al hlive hd hmem
    cases ea : s.objs a with
    | none => exact absurd ea (hlive a (.head _))
    | some q =>
      rw [scan, get_of ea]
      by_cases hao : a = o
      · subst hao
        rw [hp] at ea; cases ea
        show (if samePath file p.file = true then _ else _) = _
        rw [if_pos (by unfold samePath; rw [hf]; simp)]
        rcases hl with h | h <;> (rw [h]; rfl)
      · have hne : samePath file q.file = false := by
          unfold samePath
          rw [decide_eq_false_iff_not, hf]
          exact fun e => hao (hd a (.head _) q ea e.symm)
        show (if samePath file q.file = true then _ else _) = _
        rw [hne, if_neg (by simp), ih _ _ (fun a ha => hlive a (.tail _ ha)) (fun a ha => hd a (.tail _ ha))
          ((List.mem_cons.mp hmem).resolve_left (fun e => hao e.symm))]
        simp

/-- C27, second half: in every state reached that way, loading a file that is loaded, under any spelling
of its path, answers its id and `already` and changes nothing, whatever the callbacks and the system
would do. -/
theorem load_loaded {s : St} (h : Reach true s) {o : Nat} {p : Plug} (ho : o ∈ s.plugins) (hp : s.objs o = some p) (hl : Loaded p.status)
    {file : List Byte} (hf : Util.collapse file = Util.collapse p.file) (b : Beh) (fuel : Nat) (oc : Outcome) :
    load b fuel file oc s = .ok (s, p.id, true) := by
  unfold load
  rw [scan_loaded hp hl hf s.plugins [] false h.id.live (fun a ha q hq e => h.path a ha o ho q p hq hp e) ho]
  rfl

/-- `load_loaded` applies: two plugins, the second asked for with a doubled separator. -/
example : ∃ s o p, Reach true s ∧ o ∈ s.plugins ∧ s.objs o = some p ∧ Loaded p.status ∧
    Util.collapse [97, 47, 47, 98] = Util.collapse p.file ∧ [97, 47, 47, 98] ≠ p.file := by
  let prog : Scr := .op (.load [99] (good 10)) yes (.op (.load [97, 47, 98] (good 11)) yes (.ret true))
  have h : (match exec 10 prog init with
    | .ok (s, _) => some (s.plugins, (s.objs 1).map (fun p => (p.status, p.file)))
    | .error _ => none) = some ([0, 1], some (.running, [97, 47, 98])) := by rfl
  cases e : exec 10 prog init with
  | error _ => rw [e] at h; cases h
  | ok x =>
    rw [e] at h
    obtain ⟨s, b⟩ := x
    injection h with h
    injection h with h1 h
    cases e1 : s.objs 1 with
    | none => rw [e1] at h; cases h
    | some p =>
      rw [e1] at h
      injection h with h
      injection h with h2 h3
      refine ⟨s, 1, p, ⟨10, prog, b, ⟨fun c n => trivial, fun c n => trivial, trivial⟩, e⟩, ?_, e1, .inl h2, ?_, ?_⟩
      · rw [h1]; simp
      · rw [h3]; decide
      · rw [h3]; decide

/-- A plugin that loads its own file from its `Load` makes the manager read its status, which is not
written yet (core/metamod_plugins.cpp:163 reads what 149-152 does not write). -/
theorem load_self_uninit : resFault (exec 10 (.op (.load [97] (good 10)) (onLoad 0 (.op (.load [97] (good 11)) yes (.ret true))) (.ret true)) init)
    = some .uninit := by rfl

/-- `Load` of a file that failed before says `already` though it is loaded anew (core/metamod_plugins.cpp:161-166). -/
theorem load_failed_says_already : (do
    let r ← exec 10 (.op (.load [97] (good 10)) no (.ret true)) init
    let x ← load (fun c n s => exec 10 (yes c n) s) 10 [97] (good 11) r.1
    Except.ok (x.2.1, x.2.2, ids x.1) : R (Nat × Bool × List Nat)) = .ok (2, true, [2]) := by rfl

#print axioms ids_distinct_partial
#print axioms load_id_new_partial
#print axioms paths_distinct_partial
#print axioms load_loaded
#print axioms retry_same_ids
#print axioms retry_id_reused

end Verif.Mgr

#print axioms Verif.Mgr.load_failed_says_already
#print axioms Verif.Mgr.load_self_uninit
#print axioms Verif.Mgr.retry_hooks_lost
#print axioms Verif.Mgr.retry_hooks_stay
#print axioms Verif.Mgr.retry_nested_dangling
