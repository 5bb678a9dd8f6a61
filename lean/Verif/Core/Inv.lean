import Verif.Core.Model
/-
Relations between the states before and after external code, and the
invariant of the lists.
-/
namespace Verif.Core

open Verif.Mgr (Fault R Byte)

theorem bind_ok {α β : Type} {x : R α} {f : α → R β} {b : β} (h : (x >>= f) = .ok b) : ∃ a, x = .ok a ∧ f a = .ok b := by
  cases x with
  | error e => cases h
  | ok a => exact ⟨a, rfl, h⟩

/-- A reflexive and transitive relation that allows the notes `N`. -/
structure Pre (Rel : St → St → Prop) (N : Ev → Prop) : Prop where
  refl : ∀ s, Rel s s
  trans : ∀ {a b c}, Rel a b → Rel b c → Rel a c
  note : ∀ {s e}, N e → Rel s (s.note e)

/-- External code called with `c` keeps the relation. -/
def At (Rel : St → St → Prop) (h : Beh) (c : Call) : Prop := ∀ n s s' a, h c n s = .ok (s', a) → Rel s s'

section
variable {Rel : St → St → Prop} {N : Ev → Prop} (P : Pre Rel N) {h : Beh}
include P

theorem doCall_rel {c : Call} (hc : At Rel h c) (h1 : N (.call c)) (h2 : ∀ r, N (.ret c r)) {s : St} {r : St × Reply} (e : doCall h c s = .ok r) : Rel s r.1 := by
  obtain ⟨x, e1, e⟩ := bind_ok e
  cases e
  exact P.trans (P.trans (P.note h1) (hc _ _ _ _ e1)) (P.note (h2 _))

theorem askLoop_rel {c : Nat → Call} (hc : ∀ l, At Rel h (c l)) (h1 : ∀ l, N (.call (c l))) (h2 : ∀ l r, N (.ret (c l) r)) {oid : Nat} (f : Nat) :
    ∀ {nd : Option Nat} {s : St} {t : Trace} {r : St × Trace × Option (Nat × Int × Nat)}, askLoop h c oid f nd s t = .ok r → Rel s r.1 := by
  induction f with
  | zero => intro nd s t r e; cases nd <;> cases e; exact P.refl _
  | succ f ih =>
    intro nd s t r e
    cases nd with
    | none => cases e; exact P.refl _
    | some nd =>
      obtain ⟨p, _, e⟩ := bind_ok e
      obtain ⟨l, _, e⟩ := bind_ok e
      obtain ⟨x, e1, e⟩ := bind_ok e
      have k := doCall_rel P (hc l) (h1 l) (h2 l) e1
      dsimp only at e
      split at e
      · cases e; exact k
      · obtain ⟨p', _, e⟩ := bind_ok e
        obtain ⟨nx, _, e⟩ := bind_ok e
        exact P.trans k (ih e)

theorem askAll_rel {c : Nat → Call} (hc : ∀ l, At Rel h (c l)) (h1 : ∀ l, N (.call (c l))) (h2 : ∀ l r, N (.ret (c l) r)) {fuel : Nat} (f : Nat) :
    ∀ {o : Option Nat} {s : St} {t : Trace} {r : St × Trace × Option (Nat × Int × Nat)}, askAll h fuel c f o s t = .ok r → Rel s r.1 := by
  induction f with
  | zero => intro nd s t r e; cases nd <;> cases e; exact P.refl _
  | succ f ih =>
    intro nd s t r e
    cases nd with
    | none => cases e; exact P.refl _
    | some nd =>
      obtain ⟨p, _, e⟩ := bind_ok e
      obtain ⟨x, e1, e⟩ := bind_ok e
      have k := askLoop_rel P hc h1 h2 _ e1
      split at e
      · cases e; exact k
      · obtain ⟨nx, _, e⟩ := bind_ok e
        exact P.trans k (ih e)

theorem query_rel {k : Kind} {name : List Byte} {ret : Bool} (hc : ∀ l, At Rel h (.ask k l name)) (hf : At Rel h (.factory k name ret))
    (h1 : ∀ l, N (.call (.ask k l name))) (h2 : ∀ l r, N (.ret (.ask k l name) r)) (h3 : N (.call (.factory k name ret))) (h4 : ∀ r, N (.ret (.factory k name ret) r))
    {fuel : Nat} {s : St} {r : St × Trace × Reply} (e : query h fuel k name ret s = .ok r) : Rel s r.1 := by
  obtain ⟨x, e1, e⟩ := bind_ok e
  have k := askAll_rel P hc h1 h2 _ e1
  split at e
  · cases e; exact k
  · obtain ⟨y, e2, e⟩ := bind_ok e
    cases e
    exact P.trans k (doCall_rel P hf h3 h4 e2)

theorem metaFactory_rel {name : Option (List Byte)} (hc : ∀ l n, At Rel h (.askMeta l n)) (h1 : ∀ l n, N (.call (.askMeta l n))) (h2 : ∀ l n r, N (.ret (.askMeta l n) r))
    {fuel : Nat} {x86 ret idp : Bool} {s : St} {r : St × Trace × MetaReply} (e : metaFactory h fuel x86 name ret idp s = .ok r) : Rel s r.1 := by
  unfold metaFactory at e
  split at e
  · cases e; exact P.refl _
  · split at e
    · cases e; exact P.refl _
    · obtain ⟨x, e1, e⟩ := bind_ok e
      have k := askAll_rel P (fun l => hc l _) (fun l => h1 l _) (fun l => h2 l _) _ e1
      split at e
      · obtain ⟨y, _, e⟩ := bind_ok e
        cases e; exact k
      · cases e; exact k

theorem evLoop_rel {c : Nat → Call} (hc : ∀ l, At Rel h (c l)) (h1 : ∀ l, N (.call (c l))) (h2 : ∀ l r, N (.ret (c l) r)) {oid : Nat} (f : Nat) :
    ∀ {nd : Option Nat} {s : St} {t : Trace} {r : St × Trace}, evLoop h c oid f nd s t = .ok r → Rel s r.1 := by
  induction f with
  | zero => intro nd s t r e; cases nd <;> cases e; exact P.refl _
  | succ f ih =>
    intro nd s t r e
    cases nd with
    | none => cases e; exact P.refl _
    | some nd =>
      obtain ⟨p, _, e⟩ := bind_ok e
      obtain ⟨l, _, e⟩ := bind_ok e
      obtain ⟨x, e1, e⟩ := bind_ok e
      obtain ⟨p', _, e⟩ := bind_ok e
      obtain ⟨nx, _, e⟩ := bind_ok e
      exact P.trans (doCall_rel P (hc l) (h1 l) (h2 l) e1) (ih e)

theorem evAll_rel {c : Nat → Call} (hc : ∀ l, At Rel h (c l)) (h1 : ∀ l, N (.call (c l))) (h2 : ∀ l r, N (.ret (c l) r)) {fuel : Nat} (f : Nat) :
    ∀ {o : Option Nat} {s : St} {t : Trace} {r : St × Trace}, evAll h fuel c f o s t = .ok r → Rel s r.1 := by
  induction f with
  | zero => intro nd s t r e; cases nd <;> cases e; exact P.refl _
  | succ f ih =>
    intro nd s t r e
    cases nd with
    | none => cases e; exact P.refl _
    | some nd =>
      obtain ⟨p, _, e⟩ := bind_ok e
      obtain ⟨x, e1, e⟩ := bind_ok e
      obtain ⟨nx, _, e⟩ := bind_ok e
      exact P.trans (evLoop_rel P hc h1 h2 _ e1) (ih e)

theorem iterEvent_rel {c : Nat → Call} (hc : ∀ l, At Rel h (c l)) (h1 : ∀ l, N (.call (c l))) (h2 : ∀ l r, N (.ret (c l) r)) {fuel : Nat}
    {s : St} {r : St × Trace} (e : iterEvent h fuel c s = .ok r) : Rel s r.1 := evAll_rel P hc h1 h2 _ e

end

/-- Every operation of the program, nested ones included, is in `A`. -/
inductive Only (A : Op → Prop) : Scr → Prop
  | ret (r : Reply) : Only A (.ret r)
  | op {o : Op} {cb : Call → Nat → Scr} {nx : Reply → Scr} (ha : A o) (hc : ∀ c n, Only A (cb c n)) (hn : ∀ r, Only A (nx r)) : Only A (.op o cb nx)

/-- Programs of `A` keep a relation if its operations do. -/
theorem exec_only {Rel : St → St → Prop} (refl : ∀ s, Rel s s) (trans : ∀ {a b c}, Rel a b → Rel b c → Rel a c) {A : Op → Prop} {fuel : Nat}
    (hop : ∀ o h s r, A o → (∀ c, At Rel h c) → run fuel h o s = .ok r → Rel s r.1) {p : Scr} (hp : Only A p) : ∀ {s : St} {r : St × Reply},
    exec fuel p s = .ok r → Rel s r.1 := by
  induction hp with
  | ret => intro s r e; cases e; exact refl _
  | op ha _ _ ihc ihn =>
    intro s r e
    obtain ⟨x, e1, e⟩ := bind_ok e
    exact trans (hop _ _ _ _ ha (fun c n s s' a e => ihc c n e) e1) (ihn _ e)

theorem only_all (p : Scr) : Only (fun _ => True) p := by
  induction p with
  | ret r => exact .ret r
  | op o cb nx hc hn => exact .op trivial hc hn

/-! ### The lists -/

/-- Nodes of the lists have their own identities, all used up. -/
structure Wf (s : St) : Prop where
  oids : (s.plugs.map Plug.oid).Nodup
  old : ∀ p ∈ s.plugs, p.oid < s.next
  nodes : ∀ p ∈ s.plugs, (p.events.map Prod.fst).Nodup
  oldNodes : ∀ p ∈ s.plugs, ∀ e ∈ p.events, e.1 < s.next

/-- External code keeps the lists well-formed. -/
def WfRel (s s' : St) : Prop := Wf s → Wf s'

theorem wfRel_pre : Pre WfRel (fun _ => True) := ⟨fun _ h => h, fun h g i => g (h i), fun _ i => ⟨i.oids, i.old, i.nodes, i.oldNodes⟩⟩

theorem Wf.of {s s' : St} (h : Wf s) (h1 : s'.plugs = s.plugs) (h2 : s'.next = s.next) : Wf s' :=
  ⟨by rw [h1]; exact h.oids, by rw [h1, h2]; exact h.old, by rw [h1]; exact h.nodes, by rw [h1, h2]; exact h.oldNodes⟩

theorem modify_oids (oid : Nat) {f : Plug → Plug} (hf : ∀ p, (f p).oid = p.oid) (l : List Plug) : (modify oid f l).map Plug.oid = l.map Plug.oid := by
  unfold modify
  rw [List.map_map]
  apply List.map_congr_left
  intro p _
  dsimp only [Function.comp]
  split
  · exact hf p
  · rfl

/-! ### What an operation consists of -/

/-- The calls of an operation. -/
def Calls : Op → Call → Prop
  | .query k n ret, c => (∃ l, c = .ask k l n) ∨ c = .factory k n ret
  | .metaFactory _ _ _ _, c => ∃ l n, c = .askMeta l n
  | .enable, c => c = .command
  | .gameInit, c => c = .command ∨ c = .initialLoad
  | .levelInit, c => ∃ l, c = .levelInit l
  | .levelShutdown, c => c = .initialLoad ∨ c = .reload ∨ ∃ l, c = .levelShutdown l
  | .notify cbs _, c => ∃ l, c = .listening l cbs
  | .start .gamedll, c => c = .initialLoad
  | .start (.vsp cbs _), c => ∃ l, c = .listening l cbs
  | _, _ => False

/-- The changes of variables by an operation. -/
inductive Prim : Op → St → St → Prop
  | addPlugin (id : Nat) (s : St) : Prim (.addPlugin id) s { s with plugs := s.plugs ++ [⟨s.next, id, []⟩], next := s.next + 1 }
  | dropPlugin (oid : Nat) (s : St) : Prim (.dropPlugin oid) s { s with plugs := s.plugs.filter (fun p => p.oid != oid) }
  | clearEvents (oid : Nat) (s : St) : Prim (.clearEvents oid) s { s with plugs := modify oid (fun p => { p with events := [] }) s.plugs }
  | addListener (oid l : Nat) (s : St) : oid ∈ s.plugs.map Plug.oid →
      Prim (.addListener oid l) s { s with plugs := modify oid (fun p => { p with events := p.events ++ [(s.next, l)] }) s.plugs, next := s.next + 1 }
  | requested (s : St) : Prim .enable s { s with requested := true }
  | isInit (s : St) : Prim .gameInit s { s with isInit := true }
  | loaded (s : St) : Prim .gameInit s { s with loaded := true }
  | loaded' (s : St) : Prim .levelShutdown s { s with loaded := true }
  | first (b : Bool) (s : St) : Prim .levelShutdown s { s with firstLevel := b }
  | info (cbs : Nat) (v : Int) (s : St) : Prim (.notify cbs v) s { s with version := if v ≠ -1 then v else s.version, cbs := cbs }
  | bridge (cbs : Nat) (v : Int) (s : St) : Prim (.notify cbs v) s { s with bridged := true, loaded := true }
  | begin (g : Bool) (k : Start) (s : St) : Prim (.start k) s { s with gamedll := g, firstLevel := true }
  | info' (cbs : Nat) (v : Int) (s : St) : Prim (.start (.vsp cbs v)) s { s with version := if v ≠ -1 then v else s.version, cbs := cbs }
  | bridge' (cbs : Nat) (v : Int) (s : St) : Prim (.start (.vsp cbs v)) s { s with bridged := true, loaded := true }
  | bridged (b : Bool) (k : Start) (s : St) : Prim (.start k) s { s with bridged := b }
  | again (k : Start) (s : St) : Prim (.start k) s { s with firstLevel := true }

/-- An operation keeps what its calls and its changes of variables keep. -/
theorem run_rel {Rel : St → St → Prop} {N : Ev → Prop} (P : Pre Rel N) {fuel : Nat} {h : Beh} {o : Op} (hh : ∀ c, Calls o c → At Rel h c)
    (h1 : ∀ c, Calls o c → N (.call c)) (h2 : ∀ c r, Calls o c → N (.ret c r)) (hp : ∀ s s', Prim o s s' → Rel s s') {s : St} {r : St × Reply}
    (e : run fuel h o s = .ok r) : Rel s r.1 := by
  have via : ∀ {a b c : St}, Rel b c → Rel a b → Rel a c := fun h g => P.trans g h
  have call : ∀ {c : Call} {s : St} {r : St × Reply}, doCall h c s = .ok r → Calls o c → Rel s r.1 := fun e hc =>
    doCall_rel P (hh _ hc) (h1 _ hc) (fun _ => h2 _ _ hc) e
  have iter : ∀ {c : Nat → Call} {s : St} {r : St × Trace}, iterEvent h fuel c s = .ok r → (∀ l, Calls o (c l)) → Rel s r.1 := fun e hc =>
    iterEvent_rel P (fun l => hh _ (hc l)) (fun l => h1 _ (hc l)) (fun l _ => h2 _ _ (hc l)) e
  have ini : ∀ {b : Bool} {s s' : St}, initializeIf h b s = .ok s' → Calls o .command → Rel s s' := fun e hc => by
    unfold initializeIf initializeVsp at e
    split at e
    · split at e
      · cases e; exact P.refl _
      · obtain ⟨x, e1, e⟩ := bind_ok e
        cases e
        exact call e1 hc
    · cases e; exact P.refl _
  have first : ∀ {s s' : St}, firstLoad h s = .ok s' → Calls o .initialLoad → (∀ s, Rel s { s with loaded := true }) → Rel s s' := fun e hc hl => by
    obtain ⟨x, e1, e⟩ := bind_ok e
    cases e
    exact via (hl _) (call e1 hc)
  have noti : ∀ {cbs : Nat} {v : Int} {s : St} {r : St × Trace}, notify h fuel cbs v s = .ok r → (∀ l, Calls o (.listening l cbs)) →
      (∀ s : St, Rel s { s with version := if v ≠ -1 then v else s.version, cbs := cbs }) → (∀ s, Rel s { s with bridged := true, loaded := true }) → Rel s r.1 := fun e hc hi hb => by
    obtain ⟨x, e1, e⟩ := bind_ok e
    have k := via (iter e1 hc) (hi _)
    cases e
    dsimp only
    split
    · exact via (hb _) k
    · exact k
  cases o with
  | addPlugin id => cases e; exact hp _ _ (.addPlugin _ _)
  | dropPlugin oid => cases e; exact hp _ _ (.dropPlugin _ _)
  | clearEvents oid => cases e; exact hp _ _ (.clearEvents _ _)
  | addListener oid l =>
    unfold run at e
    dsimp only at e
    split at e
    · cases e; exact hp _ _ (.addListener _ _ _ ‹_›)
    · cases e
  | query k n ret =>
    obtain ⟨x, e1, e⟩ := bind_ok e
    cases e
    exact query_rel P (fun l => hh _ (.inl ⟨l, rfl⟩)) (hh _ (.inr rfl)) (fun l => h1 _ (.inl ⟨l, rfl⟩)) (fun l _ => h2 _ _ (.inl ⟨l, rfl⟩)) (h1 _ (.inr rfl)) (fun _ => h2 _ _ (.inr rfl)) e1
  | metaFactory x n ret i =>
    obtain ⟨x, e1, e⟩ := bind_ok e
    cases e
    exact metaFactory_rel P (fun _ _ => hh _ ⟨_, _, rfl⟩) (fun _ _ => h1 _ ⟨_, _, rfl⟩) (fun _ _ _ => h2 _ _ ⟨_, _, rfl⟩) e1
  | enable =>
    obtain ⟨x, e1, e⟩ := bind_ok e
    cases e
    obtain ⟨y, e2, e3⟩ := bind_ok e1
    cases e3
    exact via (hp _ _ (.requested _)) (ini e2 rfl)
  | gameInit =>
    obtain ⟨x, e1, e⟩ := bind_ok e
    cases e
    unfold gameInit at e1
    split at e1
    · cases e1; exact P.refl _
    · obtain ⟨y, e2, e3⟩ := bind_ok e1
      obtain ⟨z, e4, e5⟩ := bind_ok e3
      cases e5
      have k2 : Rel y z := by
        unfold firstLoadIf at e4
        split at e4
        · exact first e4 (.inr rfl) (fun s => hp _ _ (.loaded s))
        · cases e4; exact P.refl _
      exact via (hp _ _ (.isInit _)) (via k2 (ini e2 (.inl rfl)))
  | levelInit =>
    obtain ⟨x, e1, e⟩ := bind_ok e
    cases e
    exact iter e1 (fun l => ⟨l, rfl⟩)
  | levelShutdown =>
    obtain ⟨x, e1, e⟩ := bind_ok e
    cases e
    obtain ⟨y, e2, e3⟩ := bind_ok e1
    obtain ⟨z, e4, e5⟩ := bind_ok e3
    have k1 : Rel s y := by
      unfold levelFirst at e2
      split at e2
      · obtain ⟨u, e6, e7⟩ := bind_ok e2
        cases e7
        exact via (hp _ _ (.first _ _)) (first e6 (.inl rfl) (fun s => hp _ _ (.loaded' s)))
      · cases e2; exact P.refl _
    have k2 : Rel y z := by
      unfold levelReload at e4
      split at e4
      · cases e4; exact hp _ _ (.first _ _)
      · obtain ⟨u, e6, e7⟩ := bind_ok e4
        cases e7
        exact call e6 (.inr (.inl rfl))
    exact P.trans (P.trans k1 k2) (iter e5 (fun l => .inr (.inr ⟨l, rfl⟩)))
  | notify c v =>
    obtain ⟨x, e1, e⟩ := bind_ok e
    cases e
    exact noti e1 (fun l => ⟨l, rfl⟩) (fun s => hp _ _ (.info _ _ s)) (fun s => hp _ _ (.bridge _ _ s))
  | start k =>
    obtain ⟨x, e1, e⟩ := bind_ok e
    cases e
    cases k with
    | gamedll =>
      obtain ⟨y, e2, e3⟩ := bind_ok e1
      cases e3
      exact via (hp _ _ (.again _ _)) (via (call e2 rfl) (via (hp _ _ (.bridged false _ _)) (hp _ _ (.begin true _ _))))
    | vsp c v =>
      obtain ⟨y, e2, e3⟩ := bind_ok e1
      cases e3
      exact via (hp _ _ (.bridged true _ _)) (via (noti e2 (fun l => ⟨l, rfl⟩) (fun s => hp _ _ (.info' _ _ s)) (fun s => hp _ _ (.bridge' _ _ s))) (hp _ _ (.begin false _ _)))

theorem prim_wf {o : Op} {s s' : St} (h : Prim o s s') : WfRel s s' := by
  cases h with
  | addPlugin id =>
    intro i
    refine ⟨?_, ?_, ?_, ?_⟩
    · rw [List.map_append, List.nodup_append]
      refine ⟨i.oids, by simp, ?_⟩
      intro a ha b hb
      obtain ⟨p, hp, rfl⟩ := List.mem_map.1 ha
      simp only [List.map_cons, List.map_nil, List.mem_singleton] at hb
      have := i.old p hp
      omega
    · intro p hp
      rcases List.mem_append.1 hp with hp | hp
      · exact Nat.lt_succ_of_lt (i.old p hp)
      · cases List.mem_singleton.1 hp; exact Nat.lt_succ_self _
    · intro p hp
      rcases List.mem_append.1 hp with hp | hp
      · exact i.nodes p hp
      · cases List.mem_singleton.1 hp; simp
    · intro p hp x hx
      rcases List.mem_append.1 hp with hp | hp
      · exact Nat.lt_succ_of_lt (i.oldNodes p hp x hx)
      · cases List.mem_singleton.1 hp; simp at hx
  | dropPlugin oid =>
    intro i
    exact ⟨i.oids.sublist (List.filter_sublist.map _), fun p hp => i.old p (List.mem_filter.1 hp).1, fun p hp => i.nodes p (List.mem_filter.1 hp).1,
      fun p hp => i.oldNodes p (List.mem_filter.1 hp).1⟩
  | clearEvents oid =>
    intro i
    refine ⟨by dsimp only; rw [modify_oids oid (f := fun p => { p with events := [] }) fun _ => rfl]; exact i.oids, ?_, ?_, ?_⟩ <;>
    · intro p hp
      obtain ⟨q, hq, rfl⟩ := List.mem_map.1 hp
      split <;> first | exact i.old q hq | exact i.nodes q hq | exact i.oldNodes q hq | simp
  | addListener oid l =>
    intro i
    refine ⟨by dsimp only; rw [modify_oids oid (f := fun p => { p with events := p.events ++ [(s.next, l)] }) fun _ => rfl]; exact i.oids, ?_, ?_, ?_⟩
    · intro p hp
      obtain ⟨q, hq, rfl⟩ := List.mem_map.1 hp
      have := i.old q hq
      split <;> exact Nat.lt_succ_of_lt this
    · intro p hp
      obtain ⟨q, hq, rfl⟩ := List.mem_map.1 hp
      split
      · dsimp only
        rw [List.map_append, List.nodup_append]
        refine ⟨i.nodes q hq, by simp, ?_⟩
        intro a ha b hb
        obtain ⟨x, hx, rfl⟩ := List.mem_map.1 ha
        simp only [List.map_cons, List.map_nil, List.mem_singleton] at hb
        have := i.oldNodes q hq x hx
        omega
      · exact i.nodes q hq
    · intro p hp x hx
      obtain ⟨q, hq, rfl⟩ := List.mem_map.1 hp
      split at hx
      · rcases List.mem_append.1 hx with hx | hx
        · exact Nat.lt_succ_of_lt (i.oldNodes q hq x hx)
        · cases List.mem_singleton.1 hx; exact Nat.lt_succ_self _
      · exact Nat.lt_succ_of_lt (i.oldNodes q hq x hx)
  | _ => exact fun i => i.of rfl rfl

theorem run_wf {fuel : Nat} {h : Beh} (hh : ∀ c, At WfRel h c) {o : Op} {s : St} {r : St × Reply} (e : run fuel h o s = .ok r) : WfRel s r.1 :=
  run_rel wfRel_pre (fun c _ => hh c) (fun _ _ => trivial) (fun _ _ _ => trivial) (fun _ _ => prim_wf) e

/-- The states any program reaches from the beginning. -/
def Reach (s : St) : Prop := ∃ fuel p a, exec fuel p init = .ok (s, a)

theorem Reach.wf {s : St} (h : Reach s) : Wf s := by
  obtain ⟨fuel, p, a, e⟩ := h
  exact exec_only wfRel_pre.refl wfRel_pre.trans (fun _ _ _ _ _ hh e => run_wf hh e) (only_all p) e ⟨by simp [init], by simp [init], by simp [init], by simp [init]⟩

end Verif.Core
