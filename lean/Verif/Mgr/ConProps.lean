import Verif.Mgr.EventProps
/-
Property C53: the variables and commands recorded for a plugin.
-/
namespace Verif.Mgr

/-! ### Spec -/

/-- What the provider was told about variables and commands, oldest first. -/
def conLog (log : List Ev) : List Ev :=
  log.filter fun x => match x with
    | .regVar _ _ => true
    | .regCmd _ _ => true
    | .unregVar _ _ => true
    | .unregCmd _ _ => true
    | _ => false

/-- A registration or its end, by the plugin object `api`. -/
inductive Con
  | regVar (api v : Nat)
  | unregVar (api v : Nat)
  | regCmd (api v : Nat)
  | unregCmd (api v : Nat)

/-- The variables of `api` after the calls `cs`, if they were `l`: registered ones are added, unregistered ones go,
one at a time. -/
def varsAfter (api : Nat) : List Con → List Nat → List Nat
  | [], l => l
  | .regVar a v :: cs, l => varsAfter api cs (if a = api then l ++ [v] else l)
  | .unregVar a v :: cs, l => varsAfter api cs (if a = api then l.erase v else l)
  | _ :: cs, l => varsAfter api cs l

/-- The same for commands. -/
def cmdsAfter (api : Nat) : List Con → List Nat → List Nat
  | [], l => l
  | .regCmd a v :: cs, l => cmdsAfter api cs (if a = api then l ++ [v] else l)
  | .unregCmd a v :: cs, l => cmdsAfter api cs (if a = api then l.erase v else l)
  | _ :: cs, l => cmdsAfter api cs l

def Con.op : Con → Op
  | .regVar a v => .regVar a v
  | .unregVar a v => .unregVar a v
  | .regCmd a v => .regCmd a v
  | .unregCmd a v => .unregCmd a v

/-- A plugin that can be found by its interface: the first one in the list with it. -/
def IsPlugin (s : St) (api o : Nat) : Prop := findByApi s api s.plugins = .ok (some o)

/-! ### Callbacks that keep the lists -/

/-- Same plugins, ids, interfaces, variables and commands; the provider was told `cs`. -/
structure ConStep (s s' : St) (cs : List Ev) : Prop where
  plugins : s'.plugins = s.plugins
  objs : ∀ o, (s'.objs o).map (fun p => (p.id, p.api, p.cvars, p.cmds)) = (s.objs o).map (fun p => (p.id, p.api, p.cvars, p.cmds))
  calls : conLog s'.log = conLog s.log ++ cs

theorem ConStep.refl (s : St) : ConStep s s [] := ⟨rfl, fun _ => rfl, by simp⟩

theorem ConStep.trans {s s' s'' : St} {a b : List Ev} (h : ConStep s s' a) (g : ConStep s' s'' b) : ConStep s s'' (a ++ b) :=
  ⟨g.plugins.trans h.plugins, fun o => (g.objs o).trans (h.objs o), by rw [g.calls, h.calls, List.append_assoc]⟩

theorem ConStep.obj {s s' : St} {cs : List Ev} (h : ConStep s s' cs) {o : Nat} {p' : Plug} (hp' : s'.objs o = some p') :
    ∃ p, s.objs o = some p ∧ p'.id = p.id ∧ p'.api = p.api ∧ p'.cvars = p.cvars ∧ p'.cmds = p.cmds := by
  have := h.objs o
  rw [hp'] at this
  cases e : s.objs o with
  | none => rw [e] at this; cases this
  | some p =>
    rw [e] at this; injection this with this; injection this with h1 h2; injection h2 with h2 h3; injection h3 with h3 h4
    exact ⟨p, rfl, h1, h2, h3, h4⟩

theorem ConStep.objFwd {s s' : St} {cs : List Ev} (h : ConStep s s' cs) {o : Nat} {p : Plug} (hp : s.objs o = some p) :
    ∃ p', s'.objs o = some p' ∧ p'.id = p.id ∧ p'.api = p.api ∧ p'.cvars = p.cvars ∧ p'.cmds = p.cmds := by
  have := h.objs o
  rw [hp] at this
  cases e : s'.objs o with
  | none => rw [e] at this; cases this
  | some p =>
    rw [e] at this; injection this with this; injection this with h1 h2; injection h2 with h2 h3; injection h3 with h3 h4
    exact ⟨p, rfl, h1, h2, h3, h4⟩

/-- The listeners told of an unlinked variable or command leave those lists and the plugin list alone. -/
def ConQuiet (h : Beh) : Prop := ∀ c n s s' b, (∃ l i v, c = .unlinkVar l i v ∨ c = .unlinkCmd l i v) → h c n s = .ok (s', b) → ConStep s s' []

theorem doCall_con {h : Beh} (hh : ConQuiet h) {c : Call} (hc : ∃ l i v, c = .unlinkVar l i v ∨ c = .unlinkCmd l i v) {s s' : St} {b : Bool}
    (x : doCall h c s = .ok (s', b)) : ConStep s s' [] := by
  unfold doCall at x
  obtain ⟨⟨s1, b1⟩, x1, x2⟩ := bind_ok x
  cases x2
  have h1 := hh _ _ _ _ _ hc x1
  refine ⟨h1.plugins, h1.objs, ?_⟩
  show conLog (s1.log ++ [_]) = _
  have e1 : conLog s1.log = conLog (s.log ++ [.call c]) ++ [] := h1.calls
  unfold conLog at e1 ⊢
  rw [List.filter_append, e1, List.filter_append]
  simp

theorem evLoop_con {h : Beh} (hh : ConQuiet h) {c : Nat → Call} (hc : ∀ l, ∃ m i v, c l = .unlinkVar m i v ∨ c l = .unlinkCmd m i v) {oid : Nat} :
    ∀ (f : Nat) (x : Option Nat) (s s' : St), evLoop h c oid f x s = .ok s' → ConStep s s' [] := by
  intro f
  induction f with
  | zero =>
    intro x s s' e
    cases x with
    | none => cases e; exact .refl _
    | some x => cases e
  | succ f ih =>
    intro x s s' e
    cases x with
    | none => cases e; exact .refl _
    | some x =>
      rw [evLoop] at e
      obtain ⟨p, _, e⟩ := bind_ok e
      obtain ⟨l, _, e⟩ := bind_ok e
      obtain ⟨⟨s1, b⟩, e1, e⟩ := bind_ok e
      obtain ⟨p', _, e⟩ := bind_ok e
      obtain ⟨nx, _, e⟩ := bind_ok e
      have := (doCall_con hh (hc l) e1).trans (ih _ _ _ e)
      exact this

theorem unlink_con {h : Beh} (hh : ConQuiet h) {fuel : Nat} {c : Nat → Call} (hc : ∀ l, ∃ m i v, c l = .unlinkVar m i v ∨ c l = .unlinkCmd m i v) :
    ∀ (f : Nat) (x : Option Nat) (s s' : St), plLoop (unlinkBody h fuel c) f x s = .ok s' → ConStep s s' [] := by
  intro f
  induction f with
  | zero =>
    intro x s s' e
    cases x with
    | none => cases e; exact .refl _
    | some x => cases e
  | succ f ih =>
    intro x s s' e
    cases x with
    | none => cases e; exact .refl _
    | some x =>
      rw [plLoop] at e
      obtain ⟨s1, e1, e⟩ := bind_ok e
      obtain ⟨nx, _, e⟩ := bind_ok e
      have h1 : ConStep s s1 [] := by
        unfold unlinkBody at e1
        obtain ⟨p, _, e1⟩ := bind_ok e1
        obtain ⟨b, _, e1⟩ := bind_ok e1
        split at e1
        · cases e1; exact .refl _
        · split at e1
          · cases e1
          · split at e1
            · cases e1; exact .refl _
            · exact evLoop_con hh hc _ _ _ _ e1
      exact h1.trans (ih _ _ _ e)

theorem ConStep.note {s s' : St} {cs : List Ev} (h : ConStep s s' cs) (e : Ev) : ConStep s (s'.note e) (cs ++ conLog [e]) := by
  refine ⟨h.plugins, h.objs, ?_⟩
  show conLog (s'.log ++ [e]) = _
  rw [show conLog (s'.log ++ [e]) = conLog s'.log ++ conLog [e] from List.filter_append .., h.calls, List.append_assoc]

theorem unregVarId_con {h : Beh} (hh : ConQuiet h) {fuel id v : Nat} {who : Option Nat} {s s' : St} (e : unregVarId h fuel who id v s = .ok s') :
    ConStep s s' [.unregVar who v] := by
  unfold unregVarId at e
  obtain ⟨s1, e1, e⟩ := bind_ok e
  cases e
  exact (unlink_con hh (fun l => ⟨l, id, v, .inl rfl⟩) _ _ _ _ e1).note (.unregVar who v)

theorem unregCmdId_con {h : Beh} (hh : ConQuiet h) {fuel id v : Nat} {who : Option Nat} {s s' : St} (e : unregCmdId h fuel who id v s = .ok s') :
    ConStep s s' [.unregCmd who v] := by
  unfold unregCmdId at e
  obtain ⟨s1, e1, e⟩ := bind_ok e
  cases e
  exact (unlink_con hh (fun l => ⟨l, id, v, .inr rfl⟩) _ _ _ _ e1).note (.unregCmd who v)

/-! ### Unregistering everything -/

theorem varLoop_con {h : Beh} (hh : ConQuiet h) {fuel oid : Nat} : ∀ (f : Nat) (b a : List (Nat × Nat)) (s s' : St) (p : Plug),
    s.objs oid = some p → p.cvars = a ++ b → (p.cvars.map Prod.fst).Nodup →
    varLoop h fuel oid f (b.head?.map Prod.fst) s = .ok s' → ConStep s s' (b.map (fun x => .unregVar (some oid) x.2)) := by
  intro f
  induction f with
  | zero =>
    intro b a s s' p hp he hn ev
    cases b with
    | nil => cases ev; exact .refl _
    | cons y ys => cases ev
  | succ f ih =>
    intro b a s s' p hp he hn ev
    cases b with
    | nil => cases ev; exact .refl _
    | cons y ys =>
      obtain ⟨nd, v⟩ := y
      have hnot : nd ∉ a.map Prod.fst := by
        rw [he, List.map_append, List.nodup_append] at hn
        exact fun hm => hn.2.2 nd hm nd (by simp) rfl
      rw [show ((nd, v) :: ys).head?.map Prod.fst = some nd from rfl, varLoop] at ev
      obtain ⟨p1, e1, ev⟩ := bind_ok ev
      rw [get_ok e1] at hp; cases hp
      obtain ⟨l, e2, ev⟩ := bind_ok ev
      rw [he, valueAt_mid hnot] at e2; cases e2
      obtain ⟨s1, e3, ev⟩ := bind_ok ev
      have st1 := unregVarId_con hh e3
      obtain ⟨p2, e4, ev⟩ := bind_ok ev
      obtain ⟨nx, e5, ev⟩ := bind_ok ev
      obtain ⟨q, hq, _, _, hev, _⟩ := st1.obj (get_ok e4)
      rw [get_ok e1] at hq; cases hq
      rw [hev, he, List.map_append, List.map_cons, nextAfter_mid hnot] at e5; cases e5
      have st2 := ih ys (a ++ [(nd, v)]) s1 s' p2 (get_ok e4) (by rw [hev, he]; simp) (by rw [hev]; exact hn)
        (by rw [← List.head?_map]; exact ev)
      exact st1.trans st2

theorem cmdLoop_con {h : Beh} (hh : ConQuiet h) {fuel oid : Nat} : ∀ (f : Nat) (b a : List (Nat × Nat)) (s s' : St) (p : Plug),
    s.objs oid = some p → p.cmds = a ++ b → (p.cmds.map Prod.fst).Nodup →
    cmdLoop h fuel oid f (b.head?.map Prod.fst) s = .ok s' → ConStep s s' (b.map (fun x => .unregCmd (some oid) x.2)) := by
  intro f
  induction f with
  | zero =>
    intro b a s s' p hp he hn ev
    cases b with
    | nil => cases ev; exact .refl _
    | cons y ys => cases ev
  | succ f ih =>
    intro b a s s' p hp he hn ev
    cases b with
    | nil => cases ev; exact .refl _
    | cons y ys =>
      obtain ⟨nd, v⟩ := y
      have hnot : nd ∉ a.map Prod.fst := by
        rw [he, List.map_append, List.nodup_append] at hn
        exact fun hm => hn.2.2 nd hm nd (by simp) rfl
      rw [show ((nd, v) :: ys).head?.map Prod.fst = some nd from rfl, cmdLoop] at ev
      obtain ⟨p1, e1, ev⟩ := bind_ok ev
      rw [get_ok e1] at hp; cases hp
      obtain ⟨l, e2, ev⟩ := bind_ok ev
      rw [he, valueAt_mid hnot] at e2; cases e2
      obtain ⟨s1, e3, ev⟩ := bind_ok ev
      have st1 := unregCmdId_con hh e3
      obtain ⟨p2, e4, ev⟩ := bind_ok ev
      obtain ⟨nx, e5, ev⟩ := bind_ok ev
      obtain ⟨q, hq, _, _, _, hev⟩ := st1.obj (get_ok e4)
      rw [get_ok e1] at hq; cases hq
      rw [hev, he, List.map_append, List.map_cons, nextAfter_mid hnot] at e5; cases e5
      have st2 := ih ys (a ++ [(nd, v)]) s1 s' p2 (get_ok e4) (by rw [hev, he]; simp) (by rw [hev]; exact hn)
        (by rw [← List.head?_map]; exact ev)
      exact st1.trans st2

/-- The end of each variable and command of a plugin, in order. -/
def unregEvs (oid : Nat) (p : Plug) : List Ev :=
  p.cvars.map (fun x => .unregVar (some oid) x.2) ++ p.cmds.map (fun x => .unregCmd (some oid) x.2)

theorem unregAll_con {h : Beh} (hh : ConQuiet h) {fuel oid : Nat} {s s' : St} {p : Plug} (hp : s.objs oid = some p)
    (hn : (p.cvars.map Prod.fst).Nodup ∧ (p.cmds.map Prod.fst).Nodup) (e : unregAll h fuel oid s = .ok s') :
    conLog s'.log = conLog s.log ++ unregEvs oid p ∧ ∃ p', s'.objs oid = some p' ∧ p'.id = p.id ∧ p'.cvars = [] ∧ p'.cmds = [] := by
  unfold unregAll at e
  obtain ⟨p0, e0, e⟩ := bind_ok e
  obtain rfl : p = p0 := by rw [get_ok e0] at hp; injection hp with hp; exact hp.symm
  obtain ⟨s1, e1, e⟩ := bind_ok e
  obtain ⟨p1, e2, e⟩ := bind_ok e
  obtain ⟨s2, e3, e⟩ := bind_ok e
  obtain ⟨p2, e4, e⟩ := bind_ok e
  cases e
  have st1 := varLoop_con hh fuel p.cvars [] s s1 p (get_ok e0) rfl hn.1 e1
  obtain ⟨q1, hq1, i1, a1, v1, c1⟩ := st1.obj (get_ok e2)
  rw [get_ok e0] at hq1; cases hq1
  have st2 := cmdLoop_con hh fuel p1.cmds [] (s1.put oid { p1 with cvars := [] }) s2 { p1 with cvars := [] } (upd_same _ _ _) rfl (by rw [c1]; exact hn.2) e3
  obtain ⟨q2, hq2, i2, a2, v2, c2⟩ := st2.obj (get_ok e4)
  have hq2 : upd s1.objs oid (some { p1 with cvars := [] }) oid = some q2 := hq2
  rw [upd_same] at hq2; cases hq2
  refine ⟨?_, _, upd_same _ _ _, i2.trans i1, v2, rfl⟩
  show conLog s2.log = _
  rw [st2.calls]
  show conLog s1.log ++ _ = _
  rw [st1.calls, List.append_assoc, unregEvs, c1]

/-- C53, second half, partial: unloading a plugin ends each of its variables and commands exactly once, in
order; what its own `Unload` does comes first and is free; the listeners leave those lists alone. -/
theorem unload_unregisters_partial {r : Bool} {s s' : St} {fuel o : Nat} {force : Bool} {cb : Call → Nat → Scr} (hr : Reach r s) (hcb : ∀ c n, (cb c n).Ok r)
    (hq : ConQuiet (cbs fuel cb)) {p : Plug} (hp : s.objs o = some p) (ha : p.api.isSome = true ∧ p.lib.isSome = true)
    (e : unload_ (cbs fuel cb) fuel o force s = .ok (s', true)) :
    ∃ s1 b p1, doCall (cbs fuel cb) (.unload o) s = .ok (s1, b) ∧ s1.objs o = some p1 ∧ conLog s'.log = conLog s1.log ++ unregEvs o p1 := by
  have hT := good_g r
  have hh : HOk (Steps r) (cbs fuel cb) := fun c k s s' b hi e => exec_emits fuel (cb c k) (hcb c k) s s' b hi e
  unfold unload_ at e
  obtain ⟨p0, e0, e⟩ := bind_ok e
  rw [get_ok e0] at hp; cases hp
  rw [ha.1, ha.2] at e
  rw [if_pos (by rfl)] at e
  obtain ⟨⟨s1, b1⟩, e1, e⟩ := bind_ok e
  dsimp only at e
  have t1 := doCall_emits hT hh (c := .unload o) trivial hr.id e1
  split at e
  · obtain ⟨p1, e2, e⟩ := bind_ok e
    obtain ⟨s2, e3, e⟩ := bind_ok e
    obtain ⟨p2, e4, e⟩ := bind_ok e
    obtain ⟨l, e5, e⟩ := bind_ok e
    obtain ⟨s3, e6, e⟩ := bind_ok e
    cases e
    have n1 := t1.node hr.node o p1 (get_ok e2)
    obtain ⟨h1, p2', h2, h3, h4, h5⟩ := unregAll_con hq (s := s1.put o { p1 with events := [] }) (upd_same _ _ _) ⟨n1.2.1.1, n1.2.2.1⟩ e3
    refine ⟨s1, b1, p1, e1, get_ok e2, ?_⟩
    have hlog : conLog s'.log = conLog s2.log := by
      unfold shUnload at e6
      dsimp only at e6
      split at e6
      · unfold ready at e6
        obtain ⟨p3, _, e6⟩ := bind_ok e6
        split at e6
        · cases e6
        · rw [if_pos rfl] at e6
          cases e6
          simp [conLog]
      · cases e6
        simp [conLog]
    rw [hlog, h1]; rfl
  · cases e

/-! ### Registering -/

theorem findByApi_congr {s s' : St} {api : Nat} (ho : ∀ o, (s'.objs o).map Plug.api = (s.objs o).map Plug.api) : ∀ (l : List Nat),
    findByApi s' api l = findByApi s api l := by
  intro l
  induction l with
  | nil => rfl
  | cons a l ih =>
    rw [findByApi, findByApi, St.get, St.get]
    have := ho a
    cases h1 : s.objs a with
    | none =>
      rw [h1] at this
      cases h2 : s'.objs a with
      | none => rfl
      | some p => rw [h2] at this; cases this
    | some p =>
      rw [h1] at this
      cases h2 : s'.objs a with
      | none => rw [h2] at this; cases this
      | some p' =>
        rw [h2] at this; injection this with this
        show (if p'.api = some api then _ else _) = (if p.api = some api then _ else _)
        rw [this, ih]

/-- The interfaces stay and the lists of the found plugin become those given. -/
structure Booked (s s' : St) (api o : Nat) (v c : List Nat) : Prop where
  find : IsPlugin s' api o
  obj : ∃ p', s'.objs o = some p' ∧ p'.cvars.map Prod.snd = v ∧ p'.cmds.map Prod.snd = c

theorem booked_of {s s' s'' : St} {api o k : Nat} {q q' p : Plug} {cs : List Ev} (hf : IsPlugin s api o) (hp : s.objs o = some p) (hk : s.objs k = some q)
    (ha : q'.api = q.api) (hpl : s'.plugins = s.plugins) (ho : s'.objs = upd s.objs k (some q')) (hst : ConStep s' s'' cs) :
    Booked s s'' api o (if o = k then q'.cvars.map Prod.snd else p.cvars.map Prod.snd) (if o = k then q'.cmds.map Prod.snd else p.cmds.map Prod.snd) := by
  have hview : ∀ i, (s'.objs i).map Plug.api = (s.objs i).map Plug.api := by
    intro i
    rw [ho]
    by_cases h : i = k
    · subst h; rw [upd_same, hk]; show some q'.api = some q.api; rw [ha]
    · rw [upd_other h]
  have hview2 : ∀ i, (s''.objs i).map Plug.api = (s'.objs i).map Plug.api := by
    intro i
    have := congrArg (Option.map (fun (x : Nat × Option Nat × List (Nat × Nat) × List (Nat × Nat)) => x.2.1)) (hst.objs i)
    simpa [Option.map_map, Function.comp_def] using this
  refine ⟨?_, ?_⟩
  · unfold IsPlugin
    rw [findByApi_congr (fun i => (hview2 i).trans (hview i)), hst.plugins, hpl]; exact hf
  · by_cases h : o = k
    · subst h
      obtain ⟨p', hp', _, _, h3, h4⟩ := hst.objFwd (o := o) (p := q') (by rw [ho, upd_same])
      exact ⟨p', hp', by rw [if_pos rfl, h3], by rw [if_pos rfl, h4]⟩
    · obtain ⟨p', hp', _, _, h3, h4⟩ := hst.objFwd (o := o) (p := p) (by rw [ho, upd_other h]; exact hp)
      exact ⟨p', hp', by rw [if_neg h, h3], by rw [if_neg h, h4]⟩

theorem booked_same {s s' : St} {api o : Nat} {p : Plug} {cs : List Ev} (hf : IsPlugin s api o) (hp : s.objs o = some p) (hst : ConStep s s' cs) :
    Booked s s' api o (p.cvars.map Prod.snd) (p.cmds.map Prod.snd) := by
  have := booked_of (k := o) (q' := p) hf hp hp rfl rfl (funext fun i => by
    by_cases h : i = o
    · subst h; rw [upd_same]; exact hp
    · rw [upd_other h]) hst
  rwa [if_pos rfl, if_pos rfl] at this

theorem removeVal_snd (v : Nat) : ∀ (l : List (Nat × Nat)), (removeVal v l).map Prod.snd = (l.map Prod.snd).erase v := by
  intro l
  induction l with
  | nil => rfl
  | cons x xs ih =>
    unfold removeVal at ih ⊢
    rw [List.eraseP_cons, List.map_cons, List.erase_cons]
    cases h : x.2 == v with
    | true => rfl
    | false => simp [ih]

theorem find_other {s : St} {api a o k : Nat} (h1 : IsPlugin s api o) (h2 : IsPlugin s a k) : (a = api ∧ o = k) ∨ (a ≠ api ∧ o ≠ k) := by
  by_cases h : a = api
  · subst h
    rw [IsPlugin] at h1 h2
    rw [h1] at h2
    injection h2 with h2; injection h2 with h2
    exact .inl ⟨rfl, h2⟩
  · refine .inr ⟨h, fun e => ?_⟩
    subst e
    obtain ⟨_, p, hp, ha⟩ := findByApi_mem h1
    obtain ⟨_, q, hq, hb⟩ := findByApi_mem h2
    rw [hp] at hq; cases hq
    rw [ha] at hb; injection hb with hb
    exact h hb.symm

theorem con_step {h : Beh} (hh : ConQuiet h) {fuel : Nat} {c : Con} {s s' : St} {api o : Nat} {p : Plug} (hf : IsPlugin s api o) (hp : s.objs o = some p)
    (e : run fuel h c.op s = .ok s') :
    Booked s s' api o (varsAfter api [c] (p.cvars.map Prod.snd)) (cmdsAfter api [c] (p.cmds.map Prod.snd)) := by
  cases c with
  | regVar a v =>
    have e : regVar a v s = .ok s' := e
    unfold regVar at e
    obtain ⟨x, e1, e⟩ := bind_ok e
    cases x with
    | none =>
      cases e
      have hne : a ≠ api := by
        intro h; subst h; rw [IsPlugin] at hf; rw [hf] at e1; cases e1
      have := booked_same hf hp ((ConStep.refl s).note (.regVar none v))
      simpa [varsAfter, cmdsAfter, hne] using this
    | some k =>
      obtain ⟨q, e2, e⟩ := bind_ok e
      cases e
      have := booked_of (q' := { q with cvars := q.cvars ++ [(s.next, v)] }) (s' := { s.put k { q with cvars := q.cvars ++ [(s.next, v)] } with next := s.next + 1 })
        hf hp (get_ok e2) rfl rfl rfl ((ConStep.refl _).note (.regVar (some k) v))
      rcases find_other hf e1 with ⟨rfl, rfl⟩ | ⟨h1, h2⟩
      · rw [get_ok e2] at hp; cases hp
        simpa [varsAfter, cmdsAfter] using this
      · simpa [varsAfter, cmdsAfter, h1, h2] using this
  | regCmd a v =>
    have e : regCmd a v s = .ok s' := e
    unfold regCmd at e
    obtain ⟨x, e1, e⟩ := bind_ok e
    cases x with
    | none =>
      cases e
      have hne : a ≠ api := by
        intro h; subst h; rw [IsPlugin] at hf; rw [hf] at e1; cases e1
      have := booked_same hf hp ((ConStep.refl s).note (.regCmd none v))
      simpa [varsAfter, cmdsAfter, hne] using this
    | some k =>
      obtain ⟨q, e2, e⟩ := bind_ok e
      cases e
      have := booked_of (q' := { q with cmds := q.cmds ++ [(s.next, v)] }) (s' := { s.put k { q with cmds := q.cmds ++ [(s.next, v)] } with next := s.next + 1 })
        hf hp (get_ok e2) rfl rfl rfl ((ConStep.refl _).note (.regCmd (some k) v))
      rcases find_other hf e1 with ⟨rfl, rfl⟩ | ⟨h1, h2⟩
      · rw [get_ok e2] at hp; cases hp
        simpa [varsAfter, cmdsAfter] using this
      · simpa [varsAfter, cmdsAfter, h1, h2] using this
  | unregVar a v =>
    have e : unregVar h fuel a v s = .ok s' := e
    unfold unregVar at e
    obtain ⟨x, e1, e⟩ := bind_ok e
    cases x with
    | none =>
      have hne : a ≠ api := by
        intro h; subst h; rw [IsPlugin] at hf; rw [hf] at e1; cases e1
      have := booked_same hf hp (unregVarId_con hh e)
      simpa [varsAfter, cmdsAfter, hne] using this
    | some k =>
      obtain ⟨q, e2, e⟩ := bind_ok e
      have := booked_of (s' := s.put k { q with cvars := removeVal v q.cvars }) (q' := { q with cvars := removeVal v q.cvars }) hf hp (get_ok e2) rfl rfl rfl (unregVarId_con hh e)
      rcases find_other hf e1 with ⟨rfl, rfl⟩ | ⟨h1, h2⟩
      · rw [get_ok e2] at hp; cases hp
        simpa [varsAfter, cmdsAfter, removeVal_snd] using this
      · simpa [varsAfter, cmdsAfter, h1, h2] using this
  | unregCmd a v =>
    have e : unregCmd h fuel a v s = .ok s' := e
    unfold unregCmd at e
    obtain ⟨x, e1, e⟩ := bind_ok e
    cases x with
    | none =>
      have hne : a ≠ api := by
        intro h; subst h; rw [IsPlugin] at hf; rw [hf] at e1; cases e1
      have := booked_same hf hp (unregCmdId_con hh e)
      simpa [varsAfter, cmdsAfter, hne] using this
    | some k =>
      obtain ⟨q, e2, e⟩ := bind_ok e
      have := booked_of (s' := s.put k { q with cmds := removeVal v q.cmds }) (q' := { q with cmds := removeVal v q.cmds }) hf hp (get_ok e2) rfl rfl rfl (unregCmdId_con hh e)
      rcases find_other hf e1 with ⟨rfl, rfl⟩ | ⟨h1, h2⟩
      · rw [get_ok e2] at hp; cases hp
        simpa [varsAfter, cmdsAfter, removeVal_snd] using this
      · simpa [varsAfter, cmdsAfter, h1, h2] using this

/-- The calls one after the other. -/
def runCons (fuel : Nat) (h : Beh) : List Con → St → R St
  | [], s => .ok s
  | c :: cs, s => do
    let s ← run fuel h c.op s
    runCons fuel h cs s

theorem varsAfter_cons (api : Nat) (c : Con) (cs : List Con) (l : List Nat) : varsAfter api (c :: cs) l = varsAfter api cs (varsAfter api [c] l) := by
  cases c <;> rfl

theorem cmdsAfter_cons (api : Nat) (c : Con) (cs : List Con) (l : List Nat) : cmdsAfter api (c :: cs) l = cmdsAfter api cs (cmdsAfter api [c] l) := by
  cases c <;> rfl

/-- C53, first half, partial: after every sequence of registrations and their ends, by this and other plugins,
the lists of a plugin are exactly what it registered and did not unregister; the listeners told of unlinked ones
leave the lists alone. -/
theorem registered_exact_partial {h : Beh} (hh : ConQuiet h) {fuel : Nat} {api o : Nat} : ∀ (cs : List Con) {s s' : St} {p : Plug}, IsPlugin s api o →
    s.objs o = some p → runCons fuel h cs s = .ok s' →
    ∃ p', s'.objs o = some p' ∧ p'.cvars.map Prod.snd = varsAfter api cs (p.cvars.map Prod.snd) ∧ p'.cmds.map Prod.snd = cmdsAfter api cs (p.cmds.map Prod.snd) := by
  intro cs
  induction cs with
  | nil => intro s s' p _ hp e; cases e; exact ⟨p, hp, rfl, rfl⟩
  | cons c cs ih =>
    intro s s' p hf hp e
    rw [runCons] at e
    obtain ⟨s1, e1, e⟩ := bind_ok e
    obtain ⟨hf1, p1, hp1, h1, h2⟩ := con_step hh hf hp e1
    obtain ⟨p', hp', h3, h4⟩ := ih hf1 hp1 e
    exact ⟨p', hp', by rw [h3, h1, ← varsAfter_cons], by rw [h4, h2, ← cmdsAfter_cons]⟩

/-! ### Examples -/

def resCon (o : Nat) : R (St × Bool) → Option (List Nat × List Nat × List Ev)
  | .ok (s, _) => match s.objs o with
    | some p => some (p.cvars.map Prod.snd, p.cmds.map Prod.snd, conLog s.log)
    | none => some ([], [], conLog s.log)
  | .error _ => none

/-- Two variables and a command, one variable unregistered, then unloaded. -/
def conExample (k : Scr) : Scr :=
  .op (.load [97] (good 10)) yes (.op (.regVar 10 7) yes (.op (.regCmd 10 8) yes (.op (.regVar 10 9) yes (.op (.unregVar 10 7) yes k))))

example : resCon 0 (exec 10 (conExample (.ret true)) init) =
    some ([9], [8], [.regVar (some 0) 7, .regCmd (some 0) 8, .regVar (some 0) 9, .unregVar (some 0) 7]) := by rfl

example : resCon 0 (exec 10 (conExample (.op (.unload 1 false) yes (.ret true))) init) =
    some ([], [], [.regVar (some 0) 7, .regCmd (some 0) 8, .regVar (some 0) 9, .unregVar (some 0) 7, .unregVar (some 0) 9, .unregCmd (some 0) 8]) := by rfl

/-- The hypothesis on the listeners can be met. -/
example : ConQuiet (cbs 10 yes) := fun _ _ _ _ _ _ h => by cases h; exact .refl _

/-! ### What is false -/

/-- What a plugin registers with an unknown interface object is registered with the engine and never unregistered. -/
theorem unknown_api_leaks : resCon 0 (exec 10 (.op (.load [97] (good 10)) yes (.op (.regVar 11 7) yes (.op (.unload 1 false) yes (.ret true)))) init) =
    some ([], [], [.regVar none 7]) := by rfl

/-- A listener that unregisters the next variable when one of its plugin's is unlinked leaves the loop of
`UnregAllConCmds` with a freed node. -/
theorem unlink_unreg_dangling : resFault (exec 10 (.op (.load [97] (good 10)) yes (.op (.addListener 10 5) yes (.op (.load [98] (good 11)) yes
    (.op (.regVar 11 7) yes (.op (.unload 2 false)
      (fun c _ => match c with | .unlinkVar _ _ 7 => .op (.unregVar 11 7) (fun _ _ => .ret true) (.ret true) | _ => .ret true) (.ret true)))))) init) = some .dangling := by rfl

/-- `UnregisterConVar` during the `Load` of any plugin reads its status, which is not yet written. -/
theorem unreg_in_load_uninit : resFault (exec 10 (.op (.load [97] (good 10)) (onLoad 0 (.op (.regVar 10 7) yes (.op (.unregVar 10 7) yes (.ret true))))
    (.ret true)) init) = some .uninit := by rfl

/-- `AddListener` with an unknown interface object is a NULL dereference. -/
theorem unknown_listener_null : resFault (exec 10 (.op (.load [97] (good 10)) yes (.op (.addListener 11 7) yes (.ret true))) init) = some .nullDeref := by rfl

#print axioms unload_unregisters_partial
#print axioms registered_exact_partial
#print axioms unknown_api_leaks
#print axioms unlink_unreg_dangling
#print axioms unreg_in_load_uninit
#print axioms unknown_listener_null

end Verif.Mgr
