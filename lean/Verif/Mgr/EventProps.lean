import Verif.Mgr.StatusProps
/-
Property C29: events of the manager reach the listeners of the other plugins, each once, in order.
-/
namespace Verif.Mgr

/-! ### Spec -/

/-- The event calls in a log, oldest first. -/
def evCalls (log : List Ev) : List Call :=
  log.filterMap fun x => match x with
    | .call (.event e l i) => some (.event e l i)
    | _ => none

/-- The calls due for event `e` about the plugin with id `x`: the plugins in list order, without
that plugin, each with its listeners in the order of registration. -/
def audience (s : St) (e : EvKind) (x : Nat) : List Call :=
  s.plugins.flatMap fun o => match s.objs o with
    | none => []
    | some p => if p.id = x then [] else p.events.map (fun l => .event e l.2 x)

/-! ### Nodes -/

/-- The nodes of each list are different and were given out. -/
def Nodes (n : Nat) (l : List (Nat × Nat)) : Prop := (l.map Prod.fst).Nodup ∧ ∀ x ∈ l, x.1 < n

theorem Nodes.nil (n : Nat) : Nodes n [] := ⟨List.nodup_nil, fun _ h => (nomatch h)⟩

theorem Nodes.sub {n m : Nat} {l l' : List (Nat × Nat)} (h : Nodes n l) (hs : l'.Sublist l) (hn : n ≤ m) : Nodes m l' :=
  ⟨h.1.sublist (hs.map _), fun x hx => Nat.lt_of_lt_of_le (h.2 x (hs.subset hx)) hn⟩

theorem Nodes.add {n v : Nat} {l : List (Nat × Nat)} (h : Nodes n l) : Nodes (n + 1) (l ++ [(n, v)]) := by
  refine ⟨?_, fun x hx => ?_⟩
  · rw [List.map_append, List.nodup_append]
    refine ⟨h.1, List.pairwise_singleton _ _, fun a ha b hb => ?_⟩
    obtain ⟨x, hx, rfl⟩ := List.mem_map.mp ha
    have := h.2 x hx
    have hb : b = n := by simpa using hb
    omega
  · rcases List.mem_append.mp hx with h' | h'
    · exact Nat.lt_succ_of_lt (h.2 x h')
    · rw [List.mem_singleton] at h'; subst h'; exact Nat.lt_succ_self _

/-- All lists of all plugins. -/
def NodeInv (s : St) : Prop := ∀ o p, s.objs o = some p → Nodes s.next p.events ∧ Nodes s.next p.cvars ∧ Nodes s.next p.cmds

theorem NodeInv.step {s s' : St} (hs : NodeInv s) (hn : s.next ≤ s'.next)
    (h : ∀ o p', s'.objs o = some p' → ∃ p, s.objs o = some p ∧ Shrinks p p') : NodeInv s' := by
  intro o p' hp'
  obtain ⟨p, hp, hsh⟩ := h o p' hp'
  obtain ⟨h1, h2, h3⟩ := hs o p hp
  exact ⟨h1.sub hsh.events hn, h2.sub hsh.cvars hn, h3.sub hsh.cmds hn⟩

theorem Shrinks.refl (p : Plug) : Shrinks p p := ⟨.inl ⟨rfl, rfl⟩, .refl _, .refl _, .refl _⟩

theorem QPrim.node {a : Bool} {n : Nat} {s s' : St} (h : QPrim a n s s') (hs : NodeInv s) : NodeInv s' := by
  have key : ∀ (k : Nat) (q q' : Plug), s.objs k = some q → Shrinks q q' → ∀ o p', upd s.objs k (some q') o = some p' →
      ∃ p, s.objs o = some p ∧ Shrinks p p' := by
    intro k q q' hq h1 o p' hu
    by_cases e : o = k
    · subst e; rw [upd_same] at hu; cases hu; exact ⟨q, hq, h1⟩
    · rw [upd_other e] at hu; exact ⟨p', hu, .refl _⟩
  have same : ∀ o p', s.objs o = some p' → ∃ p, s.objs o = some p ∧ Shrinks p p' := fun o p' h => ⟨p', h, .refl _⟩
  cases h
  case note => exact hs.step (Nat.le_refl _) same
  case allCall => exact hs.step (Nat.le_refl _) same
  case setAll => exact hs.step (Nat.le_refl _) same
  case put k q q' hq _ h1 => exact hs.step (Nat.le_refl _) (key k q q' hq h1)
  case addNode k v q q' hq _ hg =>
    intro o p' hp'
    have hp' : upd s.objs k (some q') o = some p' := hp'
    show Nodes (s.next + 1) _ ∧ Nodes (s.next + 1) _ ∧ Nodes (s.next + 1) _
    by_cases e : o = k
    · subst e; rw [upd_same] at hp'; cases hp'
      obtain ⟨h1, h2, h3⟩ := hs o q hq
      exact ⟨h1.add.sub hg.events (Nat.le_refl _), h2.add.sub hg.cvars (Nat.le_refl _), h3.add.sub hg.cmds (Nat.le_refl _)⟩
    · rw [upd_other e] at hp'
      obtain ⟨h1, h2, h3⟩ := hs o p' hp'
      exact ⟨h1.sub (.refl _) (Nat.le_succ _), h2.sub (.refl _) (Nat.le_succ _), h3.sub (.refl _) (Nat.le_succ _)⟩
  case loadDone k q st _ hq _ _ _ => exact hs.step (Nat.le_refl _) (key k q _ hq ⟨.inl ⟨rfl, rfl⟩, .refl _, .refl _, .refl _⟩)
  case paused k q hq _ _ => exact hs.step (Nat.le_refl _) (key k q _ hq ⟨.inl ⟨rfl, rfl⟩, .refl _, .refl _, .refl _⟩)
  case unpaused k q hq _ _ => exact hs.step (Nat.le_refl _) (key k q _ hq ⟨.inl ⟨rfl, rfl⟩, .refl _, .refl _, .refl _⟩)
  case erase => exact hs.step (Nat.le_refl _) same
  case free k _ =>
    refine hs.step (Nat.le_refl _) (fun o p' hp' => ?_)
    have hp' : upd s.objs k none o = some p' := hp'
    by_cases e : o = k
    · subst e; rw [upd_same] at hp'; cases hp'
    · rw [upd_other e] at hp'; exact ⟨p', hp', .refl _⟩
  case hooksDrop => exact hs.step (Nat.le_refl _) same
  case hookAdd => exact hs.step (Nat.le_succ _) same
  case bump => exact hs.step (Nat.le_succ _) same
  case pend => exact hs.step (Nat.le_refl _) same
  case busy => exact hs.step (Nat.le_refl _) same
  case alias => exact hs.step (Nat.le_refl _) same

theorem FSteps.node {a : Bool} {n : Nat} {s s' : St} (h : FSteps a n s s') (hs : NodeInv s) : NodeInv s' := by
  induction h with
  | refl => exact hs
  | tail _ q ih => exact q.node ih

theorem probe_lists (p : Plug) (o : Outcome) : (probe p o).1.events = p.events ∧ (probe p o).1.cvars = p.cvars ∧ (probe p o).1.cmds = p.cmds := by
  unfold probe probeVersion probeClassic probeMms
  repeat' split
  all_goals simp_all

theorem pushNew_node {s : St} (f : List Byte) (o : Outcome) (hs : NodeInv s) : NodeInv (pushNew f o s) := by
  intro i q hq
  show Nodes (s.next + 1) _ ∧ Nodes (s.next + 1) _ ∧ Nodes (s.next + 1) _
  rcases pushNew_get hq with ⟨_, rfl⟩ | ⟨_, hq⟩
  · obtain ⟨h1, h2, h3⟩ := probe_lists (newPlug s.lastId f) o
    rw [h1, h2, h3]; exact ⟨.nil _, .nil _, .nil _⟩
  · obtain ⟨h1, h2, h3⟩ := hs i q hq
    exact ⟨h1.sub (.refl _) (Nat.le_succ _), h2.sub (.refl _) (Nat.le_succ _), h3.sub (.refl _) (Nat.le_succ _)⟩

theorem GPrim.node {r : Bool} {n : Nat} {s s' : St} (h : GPrim r n s s') (hs : NodeInv s) : NodeInv s' := by
  cases h with
  | quiet h => exact h.node hs
  | push f o _ => exact pushNew_node f o hs
  | retry A p o hr hA hpA hst hfin =>
    rename_i s2
    have h2 := hst.node (pushNew_node p.file o hs)
    cases hfin with
    | ok q hB _ =>
      refine h2.step (Nat.le_refl _) (fun i t ht => ?_)
      have ht : upd s2.objs s.next _ i = some t := ht
      by_cases e : i = s.next
      · subst e; rw [upd_same] at ht; cases ht; exact ⟨q, hB, .inl ⟨rfl, rfl⟩, .refl _, .refl _, .refl _⟩
      · rw [upd_other e] at ht; exact ⟨t, ht, .refl _⟩
    | fail => exact h2.step (Nat.le_refl _) (fun i t ht => ⟨t, ht, .refl _⟩)

theorem Reach.node {r : Bool} {s : St} (h : Reach r s) : NodeInv s :=
  h.induct (fun _ _ h => nomatch h) (fun _ _ _ hs hp => hp.node hs)

theorem Steps.node {r : Bool} {n : Nat} {s s' : St} (h : Steps r n s s') (hs : NodeInv s) : NodeInv s' := by
  induction h with
  | refl => exact hs
  | tail _ q ih => exact q.node ih

/-! ### The loops -/

/-- Same list, ids and listeners; the event calls `cs` were made. -/
structure EvStep (s s' : St) (cs : List Call) : Prop where
  plugins : s'.plugins = s.plugins
  objs : ∀ o, (s'.objs o).map (fun p => (p.id, p.events)) = (s.objs o).map (fun p => (p.id, p.events))
  calls : evCalls s'.log = evCalls s.log ++ cs

theorem EvStep.refl (s : St) : EvStep s s [] := ⟨rfl, fun _ => rfl, by simp⟩

theorem EvStep.trans {s s' s'' : St} {a b : List Call} (h : EvStep s s' a) (g : EvStep s' s'' b) : EvStep s s'' (a ++ b) :=
  ⟨g.plugins.trans h.plugins, fun o => (g.objs o).trans (h.objs o), by rw [g.calls, h.calls, List.append_assoc]⟩

theorem EvStep.obj {s s' : St} {cs : List Call} (h : EvStep s s' cs) {o : Nat} {p' : Plug} (hp' : s'.objs o = some p') :
    ∃ p, s.objs o = some p ∧ p'.id = p.id ∧ p'.events = p.events := by
  have := h.objs o
  rw [hp'] at this
  cases e : s.objs o with
  | none => rw [e] at this; cases this
  | some p => rw [e] at this; injection this with this; injection this with h1 h2; exact ⟨p, rfl, h1, h2⟩

theorem EvStep.objFwd {s s' : St} {cs : List Call} (h : EvStep s s' cs) {o : Nat} {p : Plug} (hp : s.objs o = some p) :
    ∃ p', s'.objs o = some p' ∧ p'.id = p.id ∧ p'.events = p.events := by
  have := h.objs o
  rw [hp] at this
  cases e : s'.objs o with
  | none => rw [e] at this; cases this
  | some p => rw [e] at this; injection this with this; injection this with h1 h2; exact ⟨p, rfl, h1, h2⟩

/-- The callbacks of events leave the plugin list, ids and listeners alone and cause no further events. -/
def EvQuiet (h : Beh) : Prop := ∀ e l i n s s' b, h (.event e l i) n s = .ok (s', b) → EvStep s s' []

theorem doCall_event {h : Beh} (hh : EvQuiet h) {e : EvKind} {l i : Nat} {s s' : St} {b : Bool}
    (x : doCall h (.event e l i) s = .ok (s', b)) : EvStep s s' [.event e l i] := by
  unfold doCall at x
  obtain ⟨⟨s1, b1⟩, x1, x2⟩ := bind_ok x
  cases x2
  have h1 := hh _ _ _ _ _ _ _ x1
  refine ⟨h1.plugins, h1.objs, ?_⟩
  show evCalls (s1.log ++ [_]) = _
  have e1 : evCalls s1.log = evCalls (s.log ++ [.call (.event e l i)]) ++ [] := h1.calls
  unfold evCalls at e1 ⊢
  rw [List.filterMap_append, e1, List.filterMap_append]
  simp

theorem valueAt_mid {a b : List (Nat × Nat)} {n v : Nat} (h : n ∉ a.map Prod.fst) : valueAt n (a ++ (n, v) :: b) = .ok v := by
  induction a with
  | nil => rw [List.nil_append, valueAt, if_pos rfl]
  | cons x xs ih =>
    rw [List.map_cons, List.mem_cons, not_or] at h
    rw [List.cons_append, valueAt, if_neg (fun e => h.1 e.symm), ih h.2]

theorem nextAfter_mid {a b : List Nat} {n : Nat} (h : n ∉ a) : nextAfter n (a ++ n :: b) = .ok b.head? := by
  induction a with
  | nil => rw [List.nil_append, nextAfter, if_pos rfl]
  | cons x xs ih =>
    rw [List.mem_cons, not_or] at h
    rw [List.cons_append, nextAfter, if_neg (fun e => h.1 e.symm), ih h.2]

theorem evLoop_exact {h : Beh} (hh : EvQuiet h) {e : EvKind} {x oid : Nat} : ∀ (f : Nat) (b a : List (Nat × Nat)) (s s' : St) (p : Plug),
    s.objs oid = some p → p.events = a ++ b → (p.events.map Prod.fst).Nodup →
    evLoop h (fun l => .event e l x) oid f (b.head?.map Prod.fst) s = .ok s' → EvStep s s' (b.map (fun l => .event e l.2 x)) := by
  intro f
  induction f with
  | zero =>
    intro b a s s' p hp he hn ev
    cases b with
    | nil => cases ev; exact .refl _
    | cons y ys => cases ev
  | succ f ih =>
    intro b a s s' p hp he hn ev
    cases b with
    | nil => cases ev; exact .refl _
    | cons y ys =>
      obtain ⟨nd, v⟩ := y
      have hnot : nd ∉ a.map Prod.fst := by
        rw [he, List.map_append, List.nodup_append] at hn
        exact fun hm => hn.2.2 nd hm nd (by simp) rfl
      rw [show ((nd, v) :: ys).head?.map Prod.fst = some nd from rfl, evLoop] at ev
      obtain ⟨p1, e1, ev⟩ := bind_ok ev
      rw [get_ok e1] at hp; cases hp
      obtain ⟨l, e2, ev⟩ := bind_ok ev
      rw [he, valueAt_mid hnot] at e2; cases e2
      obtain ⟨⟨s1, b1⟩, e3, ev⟩ := bind_ok ev
      have st1 := doCall_event hh e3
      obtain ⟨p2, e4, ev⟩ := bind_ok ev
      obtain ⟨nx, e5, ev⟩ := bind_ok ev
      obtain ⟨q, hq, hid, hev⟩ := st1.obj (get_ok e4)
      rw [get_ok e1] at hq; cases hq
      rw [hev, he, List.map_append, List.map_cons, nextAfter_mid hnot] at e5; cases e5
      have st2 := ih ys (a ++ [(nd, v)]) s1 s' p2 (get_ok e4) (by rw [hev, he]; simp) (by rw [hev]; exact hn)
        (by rw [← List.head?_map]; exact ev)
      have := st1.trans st2
      simpa using this

/-- The calls due in one plugin. -/
def dueAt (s : St) (e : EvKind) (x o : Nat) : List Call :=
  match s.objs o with
  | none => []
  | some p => if p.id = x then [] else p.events.map (fun l => .event e l.2 x)

theorem dueAt_step {s s' : St} {cs : List Call} (h : EvStep s s' cs) (e : EvKind) (x o : Nat) : dueAt s' e x o = dueAt s e x o := by
  unfold dueAt
  cases hp : s.objs o with
  | none =>
    have := h.objs o
    rw [hp] at this
    cases hp' : s'.objs o with
    | none => rfl
    | some p => rw [hp'] at this; cases this
  | some p =>
    obtain ⟨p', hp', h1, h2⟩ := h.objFwd hp
    rw [hp']; dsimp only; rw [h1, h2]

theorem body_exact {h : Beh} (hh : EvQuiet h) {fuel : Nat} {e : EvKind} {plid : St → R Nat} {x oid : Nat} {s s' : St}
    (hx : plid s = .ok x) (hn : ∀ o p, s.objs o = some p → (p.events.map Prod.fst).Nodup)
    (ev : plEventBody h fuel e plid oid s = .ok s') : EvStep s s' (dueAt s e x oid) := by
  unfold plEventBody at ev
  obtain ⟨p, e1, ev⟩ := bind_ok ev
  obtain ⟨y, e2, ev⟩ := bind_ok ev
  rw [hx] at e2; cases e2
  unfold dueAt
  rw [get_ok e1]
  dsimp only
  split at ev
  · rename_i hid; cases ev; rw [if_pos hid]; exact .refl _
  · rename_i hid
    rw [if_neg hid]
    exact evLoop_exact hh fuel p.events [] s s' p (get_ok e1) rfl (hn oid p (get_ok e1)) ev

theorem plLoop_exact {h : Beh} (hh : EvQuiet h) {fuel : Nat} {e : EvKind} {plid : St → R Nat} {x : Nat} : ∀ (f : Nat) (b a : List Nat) (s s' : St),
    s.plugins = a ++ b → s.plugins.Nodup → (∀ o p, s.objs o = some p → (p.events.map Prod.fst).Nodup) →
    (∀ t cs, EvStep s t cs → plid t = .ok x) → plLoop (plEventBody h fuel e plid) f b.head? s = .ok s' →
    EvStep s s' (b.flatMap (dueAt s e x)) := by
  intro f
  induction f with
  | zero =>
    intro b a s s' hl hn _ _ ev
    cases b with
    | nil => cases ev; exact .refl _
    | cons y ys => cases ev
  | succ f ih =>
    intro b a s s' hl hn hnd hx ev
    cases b with
    | nil => cases ev; exact .refl _
    | cons y ys =>
      rw [show (y :: ys).head? = some y from rfl, plLoop] at ev
      obtain ⟨s1, e1, ev⟩ := bind_ok ev
      have st1 := body_exact hh (hx s [] (.refl _)) hnd e1
      obtain ⟨nx, e2, ev⟩ := bind_ok ev
      have hnot : y ∉ a := by
        rw [hl, List.nodup_append] at hn
        exact fun hm => hn.2.2 y hm y (.head _) rfl
      rw [st1.plugins, hl, nextAfter_mid hnot] at e2; cases e2
      have st2 := ih ys (a ++ [y]) s1 s' (by rw [st1.plugins, hl]; simp) (by rw [st1.plugins]; exact hn)
        (fun o p hp => by obtain ⟨q, hq, _, h2⟩ := st1.obj hp; rw [h2]; exact hnd o q hq)
        (fun t cs ht => hx t _ (st1.trans ht)) ev
      have := st1.trans st2
      rw [List.flatMap_cons]
      have hfun : dueAt s1 e x = dueAt s e x := funext fun o => dueAt_step st1 e x o
      rwa [hfun] at this

theorem plEvent_exact {h : Beh} (hh : EvQuiet h) {fuel : Nat} {e : EvKind} {plid : St → R Nat} {x : Nat} {s s' : St}
    (hi : IdInv s) (hn : NodeInv s) (hx : ∀ t cs, EvStep s t cs → plid t = .ok x) (ev : plEvent h fuel e plid s = .ok s') :
    EvStep s s' (audience s e x) :=
  plLoop_exact hh fuel s.plugins [] s s' rfl hi.nodup (fun o p hp => (hn o p hp).1.1) hx ev

/-! ### The property -/

/-- The callbacks of a program tree. -/
abbrev cbs (fuel : Nat) (cb : Call → Nat → Scr) : Beh := fun c n s => exec fuel (cb c n) s

/-- C29 for `Pause`, partial: when a plugin was paused, exactly the listeners of the other plugins in the list are
called, once, in order, provided the listeners themselves leave the list, ids and listeners alone and cause no
events.  (What the plugin's own `Pause` does is free.) -/
theorem pause_event_partial {r : Bool} {s s' : St} {fuel id : Nat} {cb : Call → Nat → Scr} (h : Reach r s) (hcb : ∀ c n, (cb c n).Ok r)
    (hq : EvQuiet (cbs fuel cb)) (e : pause (cbs fuel cb) fuel id s = .ok (s', true)) :
    ∃ o s1, findById s id s.plugins = .ok (some o) ∧ pause_ (cbs fuel cb) o s = .ok (s1, true) ∧
      ∀ p, s1.objs o = some p → evCalls s'.log = evCalls s1.log ++ audience s1 .pause p.id := by
  have hT := good_g r
  have hh : HOk (Steps r) (cbs fuel cb) := fun c k s s' b hi e => exec_emits fuel (cb c k) (hcb c k) s s' b hi e
  unfold pause at e
  obtain ⟨x, e1, e⟩ := bind_ok e
  cases x with
  | none => cases e
  | some o =>
    obtain ⟨⟨s1, b1⟩, e2, e⟩ := bind_ok e
    dsimp only at e
    split at e
    · rename_i hb
      subst hb
      obtain ⟨s2, e3, e⟩ := bind_ok e
      cases e
      have t1 := pause_emits_ hT hh h.id e2
      refine ⟨o, s1, e1, e2, fun p hp => (plEvent_exact hq (hT.inv _ _ _ h.id t1) (t1.node h.node) (fun t cs ht => ?_) e3).calls⟩
      obtain ⟨p', hp', h1, _⟩ := ht.objFwd hp
      rw [get_of hp']; show Except.ok p'.id = _; rw [h1]
    · rename_i hb; cases e; exact absurd rfl hb

/-- C29 for `Unpause`, as for `Pause`. -/
theorem unpause_event_partial {r : Bool} {s s' : St} {fuel id : Nat} {cb : Call → Nat → Scr} (h : Reach r s) (hcb : ∀ c n, (cb c n).Ok r)
    (hq : EvQuiet (cbs fuel cb)) (e : unpause (cbs fuel cb) fuel id s = .ok (s', true)) :
    ∃ o s1, findById s id s.plugins = .ok (some o) ∧ unpause_ (cbs fuel cb) o s = .ok (s1, true) ∧
      ∀ p, s1.objs o = some p → evCalls s'.log = evCalls s1.log ++ audience s1 .unpause p.id := by
  have hT := good_g r
  have hh : HOk (Steps r) (cbs fuel cb) := fun c k s s' b hi e => exec_emits fuel (cb c k) (hcb c k) s s' b hi e
  unfold unpause at e
  obtain ⟨x, e1, e⟩ := bind_ok e
  cases x with
  | none => cases e
  | some o =>
    obtain ⟨⟨s1, b1⟩, e2, e⟩ := bind_ok e
    dsimp only at e
    split at e
    · rename_i hb
      subst hb
      obtain ⟨s2, e3, e⟩ := bind_ok e
      cases e
      have t1 := unpause_emits_ hT hh h.id e2
      refine ⟨o, s1, e1, e2, fun p hp => (plEvent_exact hq (hT.inv _ _ _ h.id t1) (t1.node h.node) (fun t cs ht => ?_) e3).calls⟩
      obtain ⟨p', hp', h1, _⟩ := ht.objFwd hp
      rw [get_of hp']; show Except.ok p'.id = _; rw [h1]
    · rename_i hb; cases e; exact absurd rfl hb

/-- C29 for `Unload`: the plugin is gone from the list then; its id is the one it had. -/
theorem unload_event_partial {r : Bool} {s s' : St} {fuel id : Nat} {force : Bool} {cb : Call → Nat → Scr} (h : Reach r s) (hcb : ∀ c n, (cb c n).Ok r)
    (hq : EvQuiet (cbs fuel cb)) (e : unload (cbs fuel cb) fuel id force s = .ok (s', true)) :
    ∃ o s1, findById s id s.plugins = .ok (some o) ∧ unload_ (cbs fuel cb) fuel o force s = .ok (s1, true) ∧
      evCalls s'.log = evCalls s1.log ++ audience s1 .unload id := by
  have hT := good_g r
  have hh : HOk (Steps r) (cbs fuel cb) := fun c k s s' b hi e => exec_emits fuel (cb c k) (hcb c k) s s' b hi e
  unfold unload at e
  obtain ⟨x, e1, e⟩ := bind_ok e
  cases x with
  | none => cases e
  | some o =>
    obtain ⟨p, e0, e⟩ := bind_ok e
    obtain ⟨⟨s1, b1⟩, e2, e⟩ := bind_ok e
    dsimp only at e
    split at e
    · rename_i hb
      subst hb
      obtain ⟨s2, e3, e⟩ := bind_ok e
      cases e
      have t1 := unload_emits_ hT hh _ _ _ h.id e2
      have hid : p.id = id := by
        obtain ⟨_, p', hp', h'⟩ := findById_mem e1
        rw [get_ok e0] at hp'; cases hp'; exact h'
      rw [hid] at e3
      exact ⟨o, s1, e1, e2, (plEvent_exact hq (hT.inv _ _ _ h.id t1) (t1.node h.node) (fun t cs ht => rfl) e3).calls⟩
    · rename_i hb; cases e; exact absurd rfl hb

/-- C29 for `Load`: after a load was tried, successful or not. -/
theorem load_event_partial {r : Bool} {s s' : St} {fuel id : Nat} {al : Bool} {file : List Byte} {oc : Outcome} {cb : Call → Nat → Scr} (h : Reach r s)
    (hcb : ∀ c n, (cb c n).Ok r) (hq : EvQuiet (cbs fuel cb)) (e : load (cbs fuel cb) fuel file oc s = .ok (s', id, al)) :
    (s'.log = s.log ∧ id ∈ ids s) ∨ ∃ l s1 o, l.Sublist s.plugins ∧ load_ (cbs fuel cb) fuel file oc { s with plugins := l } = .ok (s1, o) ∧
      evCalls s'.log = evCalls s1.log ++ audience s1 .load id := by
  have hT := goodA_g r
  have hh : HOk (Steps r) (cbs fuel cb) := fun c k s s' b hi e => exec_emits fuel (cb c k) (hcb c k) s s' b hi e
  unfold load at e
  obtain ⟨⟨l, al', x⟩, e1, e⟩ := bind_ok e
  have hsc := scan_spec e1
  cases x with
  | some y =>
    cases e
    left
    refine ⟨rfl, ?_⟩
    have : ∀ (l kept : List Nat) (al : Bool) (y : List Nat × Bool × Option Nat), scan s file kept l al = .ok y → ∀ z, y.2.2 = some z →
        ∃ a ∈ l, ∃ p, s.objs a = some p ∧ p.id = z := by
      intro l
      induction l with
      | nil => intro kept al y e z hz; cases e; cases hz
      | cons a as ih =>
        intro kept al y e z hz
        rw [scan] at e
        obtain ⟨p, e1, e⟩ := bind_ok e
        split at e
        · obtain ⟨b, e2, e⟩ := bind_ok e
          split at e
          · obtain ⟨a', h1, h2⟩ := ih _ _ _ e z hz
            exact ⟨a', .tail _ h1, h2⟩
          · cases e; cases hz; exact ⟨a, .head _, p, get_ok e1, rfl⟩
        · obtain ⟨a', h1, h2⟩ := ih _ _ _ e z hz
          exact ⟨a', .tail _ h1, h2⟩
    obtain ⟨a, ha, p, hp, hid⟩ := this _ _ _ _ e1 _ rfl
    exact List.mem_filterMap.mpr ⟨a, ha, by rw [hp, ← hid]; rfl⟩
  | none =>
    right
    obtain ⟨⟨s1, B⟩, e2, e⟩ := bind_ok e
    obtain ⟨s2, e3, e⟩ := bind_ok e
    obtain ⟨p, e4, e⟩ := bind_ok e
    cases e
    dsimp only at e2 e3 e4
    have hsub : l.Sublist s.plugins := by simpa using hsc.1
    have hi0 : IdInv { s with plugins := l } := ((QPrim.erase (a := false) (n := 0) s l hsub).spec h.id).1
    have hn0 : NodeInv { s with plugins := l } := h.node
    obtain ⟨rfl, t1⟩ := load_emits_ hT hh hi0 e2
    have i1 := (pushNew_spec hi0 file oc).1
    have i2 := hT.inv _ _ _ i1 t1
    have n2 := t1.node (pushNew_node file oc hn0)
    refine ⟨l, s1, s.next, hsub, e2, ?_⟩
    -- the object exists: the loop was given its id
    cases hp1 : s1.objs s.next with
    | none =>
      have t2 := plEvent_emits hT.toGood hh _ _ _ _ _ i2 e3
      have hlt : s.next < s1.next := hT.next _ _ _ t1
      have r2 := hT.rel _ s1 s1 _ (Nat.le_refl _) i2 i2 (Rel.refl s1) t2
      have := r2.dead s.next hlt hp1
      rw [get_ok e4] at this; cases this
    | some q =>
      have hx := plEvent_exact (x := q.id) hq i2 n2 (fun t cs ht => by
        obtain ⟨p', hp', h1, _⟩ := ht.objFwd hp1
        show (do let p ← t.get s.next; Except.ok p.id : R Nat) = _
        rw [get_of hp']; show Except.ok p'.id = _; rw [h1]) e3
      obtain ⟨q', hq', h1, _⟩ := hx.obj (get_ok e4)
      rw [hp1] at hq'; cases hq'
      rw [h1]; exact hx.calls

/-! ### Examples -/

/-- Three plugins, the first with listeners 7 and 8, the second with 9. -/
def eventExample (k : Scr) : Scr :=
  .op (.load [97] (good 10)) (onLoad 0 (.op (.addListener 10 7) yes (.op (.addListener 10 8) yes (.ret true))))
    (.op (.load [98] (good 11)) (onLoad 3 (.op (.addListener 11 9) yes (.ret true)))
      (.op (.load [99] (good 12)) yes k))

def resEvents : R (St × Bool) → Option (List Call)
  | .ok (s, _) => some (evCalls s.log)
  | .error _ => none

/-- Loading the second and third, then pausing the second. -/
example : resEvents (exec 10 (eventExample (.op (.pause 2) yes (.op (.unload 1 false) yes (.ret true)))) init) =
    some [.event .load 7 2, .event .load 8 2, .event .load 7 3, .event .load 8 3, .event .load 9 3, .event .pause 7 2, .event .pause 8 2, .event .unload 9 1] := by rfl

/-- The hypotheses of the four theorems can be met: callbacks that call nothing. -/
example : (∀ c n, (yes c n).Ok true) ∧ EvQuiet (cbs 10 yes) :=
  ⟨fun _ _ => trivial, fun _ _ _ _ _ _ _ h => by cases h; exact .refl _⟩

/-! ### What is false -/

/-- `Load` of a plugin that refuses announces `OnPluginLoad` all the same (core/metamod_plugins.cpp:180-187). -/
theorem failed_load_announced : resEvents (exec 10 (.op (.load [97] (good 10)) (onLoad 0 (.op (.addListener 10 7) yes (.ret true)))
    (.op (.load [98] (good 11)) no (.ret true))) init) = some [.event .load 7 2] := by rfl

/-- A successful `Retry` announces nothing (core/metamod_plugins.cpp:301-319). -/
theorem retry_not_announced : (resEvents (exec 10 (.op (.load [97] (good 10)) (onLoad 0 (.op (.addListener 10 7) yes (.ret true)))
    (.op (.load [98] (good 11)) no (.op (.retry 2 (good 12)) yes (.ret true)))) init)) = some [.event .load 7 2] ∧
    resStatus 3 (exec 10 (.op (.load [97] (good 10)) (onLoad 0 (.op (.addListener 10 7) yes (.ret true)))
    (.op (.load [98] (good 11)) no (.op (.retry 2 (good 12)) yes (.ret true)))) init) = some (some .running, [(.uninit, .running)], []) := ⟨by rfl, by rfl⟩

/-- `UnloadAll` announces nothing (core/metamod_plugins.cpp:716-732). -/
theorem unloadAll_not_announced : resEvents (exec 10 (eventExample (.op .unloadAll yes (.ret true))) init) =
    resEvents (exec 10 (eventExample (.ret true)) init) := by rfl

/-- A listener that unloads its own plugin from the event leaves the loop with a freed object. -/
theorem event_unload_dangling : resFault (exec 10 (eventExample (.op (.pause 2)
    (fun c _ => match c with | .event .pause 7 _ => .op (.unload 1 true) yes (.ret true) | _ => .ret true) (.ret true))) init) = some .dangling := by rfl

#print axioms pause_event_partial
#print axioms unpause_event_partial
#print axioms unload_event_partial
#print axioms load_event_partial
#print axioms failed_load_announced
#print axioms retry_not_announced
#print axioms unloadAll_not_announced
#print axioms event_unload_dangling

end Verif.Mgr
