import Verif.Mgr.AllProps
/-
Property C55: `UnloadAll` ends with an empty list.
-/
namespace Verif.Mgr

/-! ### Spec -/

/-- The plugins asked to unload so far, oldest first. -/
def asked (log : List Ev) : List Nat :=
  log.filterMap fun x => match x with
    | .call (.unload o) => some o
    | _ => none

/-- The plugins of the list that have code to ask, in order. -/
def askable (s : St) : List Nat :=
  s.plugins.filter fun o => match s.objs o with
    | some p => p.api.isSome && p.lib.isSome
    | none => false

/-! ### If it returns -/

theorem forced_true {h : Beh} {fuel o : Nat} {s s' : St} {b : Bool} (e : unload_ h fuel o true s = .ok (s', b)) : b = true := by
  unfold unload_ at e
  obtain ⟨p, _, e⟩ := bind_ok e
  split at e
  · obtain ⟨⟨s1, b1⟩, _, e⟩ := bind_ok e
    dsimp only at e
    rw [Bool.or_true, if_pos rfl] at e
    obtain ⟨p1, _, e⟩ := bind_ok e
    obtain ⟨s2, _, e⟩ := bind_ok e
    obtain ⟨p2, _, e⟩ := bind_ok e
    obtain ⟨l, _, e⟩ := bind_ok e
    obtain ⟨s3, _, e⟩ := bind_ok e
    cases e; rfl
  · obtain ⟨l, _, e⟩ := bind_ok e
    cases e; rfl

/-- C55, partial: whatever the plugins do and answer, if `UnloadAll` returns, no plugin is left and it reports
success. -/
theorem unloadAll_empty_partial {h : Beh} {fuel : Nat} : ∀ (f : Nat) (ok : Bool) (s s' : St) (b : Bool), unloadAll h fuel f ok s = .ok (s', b) →
    s'.plugins = [] ∧ b = ok := by
  intro f
  induction f with
  | zero => intro ok s s' b e; cases e
  | succ f ih =>
    intro ok s s' b e
    rw [unloadAll] at e
    split at e
    · rename_i hl; cases e; exact ⟨hl, rfl⟩
    · obtain ⟨⟨s1, b1⟩, e1, e⟩ := bind_ok e
      have := ih _ _ _ _ e
      rw [forced_true e1, Bool.and_true] at this
      exact this

/-! ### It returns -/

/-- Callbacks that do not touch the manager: they always return, with any answer. -/
def Calm (h : Beh) : Prop := ∀ c n s, ∃ s' b, h c n s = .ok (s', b) ∧ s'.plugins = s.plugins ∧ s'.objs = s.objs ∧ s'.busy = s.busy ∧ asked s'.log = asked s.log

/-- Same list, objects and loops; the plugins `os` were asked. -/
structure CalmStep (s s' : St) (os : List Nat) : Prop where
  plugins : s'.plugins = s.plugins
  objs : s'.objs = s.objs
  busy : s'.busy = s.busy
  calls : asked s'.log = asked s.log ++ os

theorem CalmStep.refl (s : St) : CalmStep s s [] := ⟨rfl, rfl, rfl, by simp⟩

theorem CalmStep.trans {s s' s'' : St} {a b : List Nat} (h : CalmStep s s' a) (g : CalmStep s' s'' b) : CalmStep s s'' (a ++ b) :=
  ⟨g.plugins.trans h.plugins, g.objs.trans h.objs, g.busy.trans h.busy, by rw [g.calls, h.calls, List.append_assoc]⟩

theorem asked_append (a b : List Ev) : asked (a ++ b) = asked a ++ asked b := List.filterMap_append

theorem doCall_calm {h : Beh} (hh : Calm h) (c : Call) (s : St) : ∃ s' b, doCall h c s = .ok (s', b) ∧ CalmStep s s' (asked [.call c]) := by
  obtain ⟨s1, b, e, h1, h2, h3, h4⟩ := hh c s.log.length (s.note (.call c))
  refine ⟨s1.note (.ret c b), b, by unfold doCall; rw [e]; rfl, h1, h2, h3, ?_⟩
  show asked (s1.log ++ [_]) = _
  rw [asked_append, h4]
  show asked (s.log ++ [_]) ++ [] = _
  rw [asked_append, List.append_nil]

/-- Calls that do not ask a plugin to unload. -/
def NotUnload : Call → Prop
  | .unload _ => False
  | _ => True

theorem asked_not {c : Call} (h : NotUnload c) : asked [.call c] = [] := by
  cases c <;> first | rfl | cases h

theorem evLoop_calm {h : Beh} (hh : Calm h) {c : Nat → Call} (hc : ∀ l, NotUnload (c l)) {oid : Nat} {p : Plug} : ∀ (f : Nat) (b a : List (Nat × Nat)) (s : St),
    s.objs oid = some p → p.events = a ++ b → (p.events.map Prod.fst).Nodup → b.length ≤ f →
    ∃ s', evLoop h c oid f (b.head?.map Prod.fst) s = .ok s' ∧ CalmStep s s' [] := by
  intro f
  induction f with
  | zero =>
    intro b a s hp he hn hf
    cases b with
    | nil => exact ⟨s, rfl, .refl _⟩
    | cons y ys => cases hf
  | succ f ih =>
    intro b a s hp he hn hf
    cases b with
    | nil => exact ⟨s, rfl, .refl _⟩
    | cons y ys =>
      obtain ⟨nd, v⟩ := y
      have hnot : nd ∉ a.map Prod.fst := by
        rw [he, List.map_append, List.nodup_append] at hn
        exact fun hm => hn.2.2 nd hm nd (by simp) rfl
      obtain ⟨s1, b1, e1, st1⟩ := doCall_calm hh (c v) s
      rw [asked_not (hc v)] at st1
      obtain ⟨s2, e2, st2⟩ := ih ys (a ++ [(nd, v)]) s1 (by rw [st1.objs]; exact hp) (by rw [he]; simp) hn (by simpa using hf)
      refine ⟨s2, ?_, st1.trans st2⟩
      rw [show ((nd, v) :: ys).head?.map Prod.fst = some nd from rfl, evLoop, get_of hp]
      show (do let l ← valueAt nd p.events; _ : R St) = _
      rw [he, valueAt_mid hnot]
      show (do let r ← doCall h (c v) s; _ : R St) = _
      rw [e1]
      show (do let p ← s1.get oid; _ : R St) = _
      rw [get_of (by rw [st1.objs]; exact hp)]
      show (do let nx ← nextAfter nd (p.events.map Prod.fst); _ : R St) = _
      rw [he, List.map_append, List.map_cons, nextAfter_mid hnot]
      show evLoop h c oid f (ys.map Prod.fst).head? s1 = _
      rw [List.head?_map]; exact e2

/-- What the loops over the list need of each plugin. -/
structure PlugOk (fuel : Nat) (p : Plug) : Prop where
  status : p.status ≠ .uninit
  api : Failed p.status ∨ p.api.isSome = true ∧ p.lib.isSome = true
  nodes : (p.events.map Prod.fst).Nodup ∧ (p.cvars.map Prod.fst).Nodup ∧ (p.cmds.map Prod.fst).Nodup
  fuel : p.events.length ≤ fuel ∧ p.cvars.length ≤ fuel ∧ p.cmds.length ≤ fuel

theorem unlink_calm {h : Beh} (hh : Calm h) {fuel : Nat} {c : Nat → Call} (hc : ∀ l, NotUnload (c l)) : ∀ (f : Nat) (b a : List Nat) (s : St),
    s.plugins = a ++ b → s.plugins.Nodup → (∀ o ∈ s.plugins, ∃ p, s.objs o = some p ∧ PlugOk fuel p) → b.length ≤ f →
    ∃ s', plLoop (unlinkBody h fuel c) f b.head? s = .ok s' ∧ CalmStep s s' [] := by
  intro f
  induction f with
  | zero =>
    intro b a s hl hn hp hf
    cases b with
    | nil => exact ⟨s, rfl, .refl _⟩
    | cons y ys => cases hf
  | succ f ih =>
    intro b a s hl hn hok hf
    cases b with
    | nil => exact ⟨s, rfl, .refl _⟩
    | cons y ys =>
      obtain ⟨p, hp, hpo⟩ := hok y (by rw [hl]; simp)
      have hbody : ∃ s1, unlinkBody h fuel c y s = .ok s1 ∧ CalmStep s s1 [] := by
        unfold unlinkBody
        rw [get_of hp]
        show ∃ s1, (do let b ← belowPaused p.status; _ : R St) = .ok s1 ∧ _
        have hb : ∃ b, belowPaused p.status = .ok b ∧ (b = false → ¬ Failed p.status) := by
          have := hpo.status
          cases h : p.status
          case uninit => exact absurd h this
          all_goals exact ⟨_, rfl, fun h' => by first | exact absurd h' (by decide) | decide⟩
        obtain ⟨b, hb, hbf⟩ := hb
        rw [hb]
        cases b with
        | true => exact ⟨s, rfl, .refl _⟩
        | false =>
          show ∃ s1, (match p.api with | none => _ | some _ => _ : R St) = .ok s1 ∧ _
          have ha := (hpo.api.resolve_left (hbf rfl)).1
          cases hap : p.api with
          | none => rw [hap] at ha; cases ha
          | some x =>
            dsimp only
            by_cases hv : p.ver < 12
            · rw [if_pos hv]; exact ⟨s, rfl, .refl _⟩
            · rw [if_neg hv]; exact evLoop_calm hh hc fuel p.events [] s hp rfl hpo.nodes.1 hpo.fuel.1
      obtain ⟨s1, e1, st1⟩ := hbody
      have hnot : y ∉ a := by
        rw [hl, List.nodup_append] at hn
        exact fun hm => hn.2.2 y hm y (.head _) rfl
      obtain ⟨s2, e2, st2⟩ := ih ys (a ++ [y]) s1 (by rw [st1.plugins, hl]; simp) (by rw [st1.plugins]; exact hn)
        (by rw [st1.plugins, st1.objs]; exact hok) (by simpa using hf)
      refine ⟨s2, ?_, st1.trans st2⟩
      rw [show (y :: ys).head? = some y from rfl, plLoop, e1]
      show (do let nx ← nextAfter y s1.plugins; _ : R St) = _
      rw [st1.plugins, hl, nextAfter_mid hnot]; exact e2

/-- The whole list. -/
def ListOk (fuel : Nat) (s : St) : Prop := s.plugins.Nodup ∧ s.plugins.length ≤ fuel ∧ ∀ o ∈ s.plugins, ∃ p, s.objs o = some p ∧ PlugOk fuel p

theorem ListOk.step {fuel : Nat} {s s' : St} {os : List Nat} (h : ListOk fuel s) (g : CalmStep s s' os) : ListOk fuel s' := by
  unfold ListOk
  rw [g.plugins, g.objs]; exact h

theorem unregVarId_calm {h : Beh} (hh : Calm h) {fuel : Nat} {who : Option Nat} {id v : Nat} {s : St} (hl : ListOk fuel s) :
    ∃ s', unregVarId h fuel who id v s = .ok s' ∧ CalmStep s s' [] := by
  obtain ⟨s1, e1, st1⟩ := unlink_calm hh (fuel := fuel) (c := fun l => .unlinkVar l id v) (fun _ => trivial) fuel s.plugins [] s rfl hl.1 hl.2.2 hl.2.1
  refine ⟨s1.note (.unregVar who v), by unfold unregVarId; rw [e1]; rfl, st1.plugins, st1.objs, st1.busy, ?_⟩
  show asked (s1.log ++ [_]) = _
  rw [asked_append, st1.calls]; simp [asked]

theorem unregCmdId_calm {h : Beh} (hh : Calm h) {fuel : Nat} {who : Option Nat} {id v : Nat} {s : St} (hl : ListOk fuel s) :
    ∃ s', unregCmdId h fuel who id v s = .ok s' ∧ CalmStep s s' [] := by
  obtain ⟨s1, e1, st1⟩ := unlink_calm hh (fuel := fuel) (c := fun l => .unlinkCmd l id v) (fun _ => trivial) fuel s.plugins [] s rfl hl.1 hl.2.2 hl.2.1
  refine ⟨s1.note (.unregCmd who v), by unfold unregCmdId; rw [e1]; rfl, st1.plugins, st1.objs, st1.busy, ?_⟩
  show asked (s1.log ++ [_]) = _
  rw [asked_append, st1.calls]; simp [asked]

theorem varLoop_calm {h : Beh} (hh : Calm h) {fuel oid : Nat} {p : Plug} : ∀ (f : Nat) (b a : List (Nat × Nat)) (s : St), ListOk fuel s →
    s.objs oid = some p → p.cvars = a ++ b → (p.cvars.map Prod.fst).Nodup → b.length ≤ f →
    ∃ s', varLoop h fuel oid f (b.head?.map Prod.fst) s = .ok s' ∧ CalmStep s s' [] := by
  intro f
  induction f with
  | zero =>
    intro b a s hl hp he hn hf
    cases b with
    | nil => exact ⟨s, rfl, .refl _⟩
    | cons y ys => cases hf
  | succ f ih =>
    intro b a s hl hp he hn hf
    cases b with
    | nil => exact ⟨s, rfl, .refl _⟩
    | cons y ys =>
      obtain ⟨nd, v⟩ := y
      have hnot : nd ∉ a.map Prod.fst := by
        rw [he, List.map_append, List.nodup_append] at hn
        exact fun hm => hn.2.2 nd hm nd (by simp) rfl
      obtain ⟨s1, e1, st1⟩ := unregVarId_calm hh (who := some oid) (id := p.id) (v := v) hl
      obtain ⟨s2, e2, st2⟩ := ih ys (a ++ [(nd, v)]) s1 (hl.step st1) (by rw [st1.objs]; exact hp) (by rw [he]; simp) hn (by simpa using hf)
      refine ⟨s2, ?_, st1.trans st2⟩
      rw [show ((nd, v) :: ys).head?.map Prod.fst = some nd from rfl, varLoop, get_of hp]
      show (do let l ← valueAt nd p.cvars; _ : R St) = _
      rw [he, valueAt_mid hnot]
      show (do let s ← unregVarId h fuel (some oid) p.id v s; _ : R St) = _
      rw [e1]
      show (do let p ← s1.get oid; _ : R St) = _
      rw [get_of (by rw [st1.objs]; exact hp)]
      show (do let nx ← nextAfter nd (p.cvars.map Prod.fst); _ : R St) = _
      rw [he, List.map_append, List.map_cons, nextAfter_mid hnot]
      show varLoop h fuel oid f (ys.map Prod.fst).head? s1 = _
      rw [List.head?_map]; exact e2

theorem cmdLoop_calm {h : Beh} (hh : Calm h) {fuel oid : Nat} {p : Plug} : ∀ (f : Nat) (b a : List (Nat × Nat)) (s : St), ListOk fuel s →
    s.objs oid = some p → p.cmds = a ++ b → (p.cmds.map Prod.fst).Nodup → b.length ≤ f →
    ∃ s', cmdLoop h fuel oid f (b.head?.map Prod.fst) s = .ok s' ∧ CalmStep s s' [] := by
  intro f
  induction f with
  | zero =>
    intro b a s hl hp he hn hf
    cases b with
    | nil => exact ⟨s, rfl, .refl _⟩
    | cons y ys => cases hf
  | succ f ih =>
    intro b a s hl hp he hn hf
    cases b with
    | nil => exact ⟨s, rfl, .refl _⟩
    | cons y ys =>
      obtain ⟨nd, v⟩ := y
      have hnot : nd ∉ a.map Prod.fst := by
        rw [he, List.map_append, List.nodup_append] at hn
        exact fun hm => hn.2.2 nd hm nd (by simp) rfl
      obtain ⟨s1, e1, st1⟩ := unregCmdId_calm hh (who := some oid) (id := p.id) (v := v) hl
      obtain ⟨s2, e2, st2⟩ := ih ys (a ++ [(nd, v)]) s1 (hl.step st1) (by rw [st1.objs]; exact hp) (by rw [he]; simp) hn (by simpa using hf)
      refine ⟨s2, ?_, st1.trans st2⟩
      rw [show ((nd, v) :: ys).head?.map Prod.fst = some nd from rfl, cmdLoop, get_of hp]
      show (do let l ← valueAt nd p.cmds; _ : R St) = _
      rw [he, valueAt_mid hnot]
      show (do let s ← unregCmdId h fuel (some oid) p.id v s; _ : R St) = _
      rw [e1]
      show (do let p ← s1.get oid; _ : R St) = _
      rw [get_of (by rw [st1.objs]; exact hp)]
      show (do let nx ← nextAfter nd (p.cmds.map Prod.fst); _ : R St) = _
      rw [he, List.map_append, List.map_cons, nextAfter_mid hnot]
      show cmdLoop h fuel oid f (ys.map Prod.fst).head? s1 = _
      rw [List.head?_map]; exact e2

/-- One object changed to one that is as good. -/
theorem ListOk.put {fuel : Nat} {s : St} {k : Nat} {q q' : Plug} (h : ListOk fuel s) (hq : s.objs k = some q) (hs : q'.status = q.status)
    (ha : q'.api = q.api ∧ q'.lib = q.lib) (he : q'.events = q.events ∨ q'.events = []) (hv : q'.cvars = q.cvars ∨ q'.cvars = [])
    (hc : q'.cmds = q.cmds ∨ q'.cmds = []) : ListOk fuel (s.put k q') := by
  refine ⟨h.1, h.2.1, fun o ho => ?_⟩
  obtain ⟨p, hp, hok⟩ := h.2.2 o ho
  by_cases e : o = k
  · subst e
    rw [hq] at hp; cases hp
    refine ⟨q', upd_same _ _ _, hs ▸ hok.status, by rw [hs, ha.1, ha.2]; exact hok.api, ⟨?_, ?_, ?_⟩, ⟨?_, ?_, ?_⟩⟩
    · rcases he with he | he <;> rw [he]
      · exact hok.nodes.1
      · exact List.nodup_nil
    · rcases hv with he | he <;> rw [he]
      · exact hok.nodes.2.1
      · exact List.nodup_nil
    · rcases hc with he | he <;> rw [he]
      · exact hok.nodes.2.2
      · exact List.nodup_nil
    · rcases he with he | he <;> rw [he]
      · exact hok.fuel.1
      · exact Nat.zero_le _
    · rcases hv with he | he <;> rw [he]
      · exact hok.fuel.2.1
      · exact Nat.zero_le _
    · rcases hc with he | he <;> rw [he]
      · exact hok.fuel.2.2
      · exact Nat.zero_le _
  · exact ⟨p, (upd_other e).trans hp, hok⟩

theorem unregAll_calm {h : Beh} (hh : Calm h) {fuel oid : Nat} {p : Plug} {s : St} (hl : ListOk fuel s) (hp : s.objs oid = some p) (hok : PlugOk fuel p) :
    ∃ s', unregAll h fuel oid s = .ok s' ∧ s'.plugins = s.plugins ∧ s'.objs = upd s.objs oid (some { p with cvars := [], cmds := [] }) ∧
      s'.busy = s.busy ∧ asked s'.log = asked s.log := by
  obtain ⟨s1, e1, st1⟩ := varLoop_calm hh fuel p.cvars [] s hl hp rfl hok.nodes.2.1 hok.fuel.2.1
  have hp1 : s1.objs oid = some p := by rw [st1.objs]; exact hp
  have hl1 := (hl.step st1).put (q' := { p with cvars := [] }) hp1 rfl ⟨rfl, rfl⟩ (.inl rfl) (.inr rfl) (.inl rfl)
  have hp1' : (s1.put oid { p with cvars := [] }).objs oid = some { p with cvars := [] } := upd_same _ _ _
  obtain ⟨s2, e2, st2⟩ := cmdLoop_calm hh fuel p.cmds [] _ hl1 hp1' rfl hok.nodes.2.2 hok.fuel.2.2
  have hp2 : s2.objs oid = some { p with cvars := [] } := by rw [st2.objs]; exact hp1'
  refine ⟨s2.put oid { p with cvars := [], cmds := [] }, ?_, st2.plugins.trans st1.plugins, ?_, st2.busy.trans st1.busy, ?_⟩
  · unfold unregAll
    rw [get_of hp]
    show (do let s ← varLoop h fuel oid fuel (p.cvars.head?.map Prod.fst) s; _ : R St) = _
    rw [e1]
    show (do let p ← s1.get oid; _ : R St) = _
    rw [get_of hp1]
    show (do let s ← cmdLoop h fuel oid fuel (p.cmds.head?.map Prod.fst) (s1.put oid { p with cvars := [] }); _ : R St) = _
    rw [e2]
    show (do let p ← s2.get oid; _ : R St) = _
    rw [get_of hp2]
    rfl
  · funext i
    show upd s2.objs oid _ i = _
    by_cases e : i = oid
    · subst e; rw [upd_same, upd_same]
    · rw [upd_other e, upd_other e, st2.objs]
      show upd s1.objs oid _ i = _
      rw [upd_other e, st1.objs]
  · show asked s2.log = _
    rw [st2.calls, List.append_nil]
    show asked s1.log = _
    rw [st1.calls, List.append_nil]

theorem eraseFirst {s : St} {o : Nat} {p : Plug} {os : List Nat} (hp : s.objs o = some p) : eraseIdFrom s p.id (o :: os) = .ok os := by
  rw [eraseIdFrom, get_of hp]
  show (if p.id = p.id then _ else _) = _
  rw [if_pos rfl]

/-- `_Unload` of the first plugin. -/
theorem unload_calm {h : Beh} (hh : Calm h) {fuel o : Nat} {os : List Nat} {p : Plug} {s : St} (hl : ListOk fuel s) (hpl : s.plugins = o :: os)
    (hp : s.objs o = some p) : ∃ s', unload_ h fuel o true s = .ok (s', true) ∧ s'.plugins = os ∧ (∀ i, i ≠ o → s'.objs i = s.objs i) ∧
      asked s'.log = asked s.log ++ (if (p.api.isSome && p.lib.isSome) = true then [o] else []) := by
  obtain ⟨p0, hp0, hok⟩ := hl.2.2 o (by rw [hpl]; exact .head _)
  rw [hp] at hp0; cases hp0
  unfold unload_
  rw [get_of hp]
  show ∃ s', (if (p.api.isSome && p.lib.isSome) = true then _ else _ : R (St × Bool)) = _ ∧ _
  by_cases ha : (p.api.isSome && p.lib.isSome) = true
  · rw [if_pos ha, if_pos ha]
    obtain ⟨s1, b1, e1, st1⟩ := doCall_calm hh (.unload o) s
    have hp1 : s1.objs o = some p := by rw [st1.objs]; exact hp
    have hl1 := (hl.step st1).put (q' := { p with events := [] }) hp1 rfl ⟨rfl, rfl⟩ (.inr rfl) (.inl rfl) (.inl rfl)
    have hp1' : (s1.put o { p with events := [] }).objs o = some { p with events := [] } := upd_same _ _ _
    obtain ⟨q, hq, hqok⟩ := hl1.2.2 o (by show o ∈ s1.plugins; rw [st1.plugins, hpl]; exact .head _)
    rw [hp1'] at hq; cases hq
    obtain ⟨s2, e2, g1, g2, g3, g4⟩ := unregAll_calm hh hl1 hp1' hqok
    have hp2 : s2.objs o = some { p with events := [], cvars := [], cmds := [] } := by rw [g2, upd_same]
    have hpl2 : s2.plugins = o :: os := by rw [g1]; show s1.plugins = _; rw [st1.plugins, hpl]
    rw [e1]
    show ∃ s', (if (b1 || true) = true then _ else _ : R (St × Bool)) = _ ∧ _
    rw [Bool.or_true, if_pos rfl, get_of hp1]
    show ∃ s', (do let s ← unregAll h fuel o (s1.put o { p with events := [] }); _ : R (St × Bool)) = _ ∧ _
    rw [e2]
    show ∃ s', (do let p ← s2.get o; _ : R (St × Bool)) = _ ∧ _
    rw [get_of hp2]
    show ∃ s', (do let l ← eraseIdFrom s2 p.id s2.plugins; _ : R (St × Bool)) = _ ∧ _
    have he := eraseFirst (os := os) hp2
    rw [hpl2, he]
    show ∃ s', (do let s ← shUnload p.id o true { s2 with plugins := os }; .ok (s, true) : R (St × Bool)) = _ ∧ _
    have hobj : ∀ i, i ≠ o → s2.objs i = s.objs i := by
      intro i hi
      rw [g2, upd_other hi]
      show upd s1.objs o _ i = _
      rw [upd_other hi, st1.objs]
    have hask : asked s2.log = asked s.log ++ [o] := by rw [g4]; exact st1.calls
    have hlib : p.lib ≠ none := by
      intro hn; rw [hn] at ha; simp at ha
    unfold shUnload
    dsimp only
    by_cases hb : s2.busy = 0
    · rw [if_pos hb]
      unfold ready
      rw [get_of (s := { s2 with plugins := os, hooks := _, log := _ }) hp2]
      show ∃ s', (do let s ← (if p.unloadFn = true ∧ p.lib = none then _ else _ : R St); .ok (s, true) : R (St × Bool)) = _ ∧ _
      rw [if_neg (fun h => hlib h.2), if_pos rfl]
      refine ⟨_, rfl, rfl, fun i hi => ?_, ?_⟩
      · show upd s2.objs o none i = _
        rw [upd_other hi]; exact hobj i hi
      · show asked (s2.log ++ [_] ++ [_, _]) = _
        rw [asked_append, asked_append, hask]; simp [asked]
    · rw [if_neg hb]
      refine ⟨_, rfl, rfl, hobj, ?_⟩
      show asked (s2.log ++ [_]) = _
      rw [asked_append, hask]; simp [asked]
  · rw [if_neg ha, if_neg ha, hpl, eraseFirst hp]
    refine ⟨_, rfl, rfl, fun i hi => upd_other hi, ?_⟩
    show asked (s.log ++ [_]) = _
    rw [asked_append]; rfl

theorem unloadAll_calm {h : Beh} (hh : Calm h) {fuel : Nat} : ∀ (f : Nat) (s : St), ListOk fuel s → s.plugins.length < f →
    ∃ s', unloadAll h fuel f true s = .ok (s', true) ∧ s'.plugins = [] ∧ asked s'.log = asked s.log ++ askable s := by
  intro f
  induction f with
  | zero => intro s _ hf; cases hf
  | succ f ih =>
    intro s hl hf
    rw [unloadAll]
    cases hpl : s.plugins with
    | nil => exact ⟨s, rfl, hpl, by unfold askable; rw [hpl]; simp⟩
    | cons o os =>
      obtain ⟨p, hp, hok⟩ := hl.2.2 o (by rw [hpl]; exact .head _)
      obtain ⟨s1, e1, h1, h2, h3⟩ := unload_calm hh hl hpl hp
      have hn := hl.1
      rw [hpl, List.nodup_cons] at hn
      have hl1 : ListOk fuel s1 := by
        refine ⟨by rw [h1]; exact hn.2, ?_, fun i him => ?_⟩
        · rw [h1]; have := hl.2.1; rw [hpl, List.length_cons] at this; omega
        · rw [h1] at him
          rw [h2 i (fun e => hn.1 (e ▸ him))]
          exact hl.2.2 i (by rw [hpl]; exact .tail _ him)
      obtain ⟨s2, e2, h4, h5⟩ := ih s1 hl1 (by rw [h1]; rw [hpl, List.length_cons] at hf; omega)
      refine ⟨s2, ?_, h4, ?_⟩
      · dsimp only
        rw [e1]; exact e2
      · rw [h5, h3, List.append_assoc]
        congr 1
        unfold askable
        rw [h1, hpl, List.filter_cons, hp]
        have hfil : os.filter (fun o => match s1.objs o with | some p => p.api.isSome && p.lib.isSome | none => false) =
            os.filter (fun o => match s.objs o with | some p => p.api.isSome && p.lib.isSome | none => false) := by
          apply List.filter_congr
          intro i him
          rw [h2 i (fun e => hn.1 (e ▸ him))]
        rw [hfil]
        dsimp only
        split <;> rfl

/-- C55: from every reachable state outside of a `Load`, with plugins that answer as they like but leave the
manager alone, `UnloadAll` ends (for every number of steps beyond the sizes of the lists), with no plugin left,
success, and each plugin that has code asked exactly once, in order. -/
theorem unloadAll_ends_partial {r : Bool} {s : St} (hr : Reach r s) {h : Beh} (hh : Calm h) (hs : ∀ o ∈ s.plugins, ∀ p, s.objs o = some p → p.status ≠ .uninit) :
    ∃ n, ∀ fuel, n ≤ fuel → ∃ s', unloadAll h fuel fuel true s = .ok (s', true) ∧ s'.plugins = [] ∧ asked s'.log = asked s.log ++ askable s := by
  have hbound : ∃ n, ∀ o ∈ s.plugins, ∀ p, s.objs o = some p → p.events.length ≤ n ∧ p.cvars.length ≤ n ∧ p.cmds.length ≤ n := by
    generalize s.plugins = l
    induction l with
    | nil => exact ⟨0, fun _ h => (nomatch h)⟩
    | cons a l ih =>
      obtain ⟨n, hn⟩ := ih
      cases ha : s.objs a with
      | none =>
        refine ⟨n, fun o ho p hp => ?_⟩
        rcases List.mem_cons.mp ho with rfl | ho
        · rw [ha] at hp; cases hp
        · exact hn o ho p hp
      | some q =>
        refine ⟨n + q.events.length + q.cvars.length + q.cmds.length, fun o ho p hp => ?_⟩
        rcases List.mem_cons.mp ho with rfl | ho
        · rw [ha] at hp; cases hp; omega
        · have := hn o ho p hp; omega
  obtain ⟨n, hn⟩ := hbound
  refine ⟨n + s.plugins.length + 1, fun fuel hf => unloadAll_calm hh fuel s ⟨hr.id.nodup, by omega, fun o ho => ?_⟩ (by omega)⟩
  cases hp : s.objs o with
  | none => exact absurd hp (hr.id.live o ho)
  | some p =>
    obtain ⟨n1, n2, n3⟩ := hr.node o p hp
    have := hn o ho p hp
    exact ⟨p, rfl, hs o ho p hp, hr.api o p hp, ⟨n1.1, n2.1, n3.1⟩, by omega, by omega, by omega⟩

/-! ### Examples -/

def resAsked : R (St × Bool) → Option (List Nat × List Nat)
  | .ok (s, _) => some (s.plugins, asked s.log)
  | .error _ => none

/-- Two loaded plugins, one that failed between them: all gone, the two asked, their refusal ignored. -/
example : resAsked (exec 10 (.op (.load [97] (good 10)) yes (.op (.load [98] ⟨true, false, none, none, none, 0⟩) yes (.op (.load [99] (good 12)) yes
    (.op .unloadAll no (.ret true))))) init) = some ([], [0, 2]) := by rfl

/-- The hypothesis on the callbacks can be met, with any answer. -/
example : Calm (cbs 10 no) := fun _ _ s => ⟨s, false, rfl, rfl, rfl, rfl, rfl⟩

/-! ### What is false -/

/-- A plugin whose `Unload` loads another plugin. -/
def hydra : Call → Nat → Scr := fun c _ => match c with
  | .unload o => .op (.load [if o % 2 = 0 then 98 else 97] (good 5)) yes (.ret true)
  | _ => .ret true

/-- A running plugin, nothing registered. -/
def lonePlug (i k : Nat) : Plug :=
  { id := i, file := [if k % 2 = 0 then 97 else 98], status := .running, source := 0, api := some 5, lib := some 5, unloadFn := false, ver := 17,
    cvars := [], cmds := [], events := [], given := i }

/-- Only such a plugin, the object made last. -/
def Lone (k : Nat) (s : St) : Prop := s.busy = 0 ∧ s.allLoaded = false ∧ s.plugins = [k] ∧ s.next = k + 1 ∧
  ∃ i, s.objs k = some (lonePlug i k)

theorem hydra_step {fuel : Nat} {k : Nat} {s : St} (h : Lone k s) :
    ∃ s', unload_ (cbs (fuel + 3) hydra) (fuel + 3) k true s = .ok (s', true) ∧ Lone (k + 1) s' := by
  obtain ⟨lastId, plugins, aliases, allLoaded, objs, next, hooks, busy, pending, log⟩ := s
  obtain ⟨hb, ha, hp, hn, i, ho⟩ := h
  cases hb; cases ha; cases hp; cases hn
  dsimp only [lonePlug] at ho
  by_cases hi : i = lastId <;> rcases Nat.mod_two_eq_zero_or_one k with hk | hk
  · have hk' : (k + 1) % 2 = 1 := by omega
    have hs : samePath [98] [97] = false := by decide +kernel
    simp [hi, unload_, St.get, ho, hk, hk', cbs, doCall, hydra, exec, run, load, scan, hs, St.note, bind, Except.bind, load_, loadRun, probe, probeVersion,
      probeClassic, probeMms, good, newPlug, runLoad, pushNew, probeLog, yes, setStatus, upd, St.put, loadCleanup, belowPaused, plEvent, plLoop, plEventBody, evLoop, nextAfter,
      unregAll, varLoop, cmdLoop, eraseIdFrom, shUnload, ready, Lone, lonePlug]
  · have hk' : (k + 1) % 2 = 0 := by omega
    have hs : samePath [97] [98] = false := by decide +kernel
    simp [hi, unload_, St.get, ho, hk, hk', cbs, doCall, hydra, exec, run, load, scan, hs, St.note, bind, Except.bind, load_, loadRun, probe, probeVersion,
      probeClassic, probeMms, good, newPlug, runLoad, pushNew, probeLog, yes, setStatus, upd, St.put, loadCleanup, belowPaused, plEvent, plLoop, plEventBody, evLoop, nextAfter,
      unregAll, varLoop, cmdLoop, eraseIdFrom, shUnload, ready, Lone, lonePlug]
  · have hk' : (k + 1) % 2 = 1 := by omega
    have hs : samePath [98] [97] = false := by decide +kernel
    simp [hi, unload_, St.get, ho, hk, hk', cbs, doCall, hydra, exec, run, load, scan, hs, St.note, bind, Except.bind, load_, loadRun, probe, probeVersion,
      probeClassic, probeMms, good, newPlug, runLoad, pushNew, probeLog, yes, setStatus, upd, St.put, loadCleanup, belowPaused, plEvent, plLoop, plEventBody, evLoop, nextAfter,
      unregAll, varLoop, cmdLoop, eraseIdFrom, shUnload, ready, Lone, lonePlug]
  · have hk' : (k + 1) % 2 = 0 := by omega
    have hs : samePath [97] [98] = false := by decide +kernel
    simp [hi, unload_, St.get, ho, hk, hk', cbs, doCall, hydra, exec, run, load, scan, hs, St.note, bind, Except.bind, load_, loadRun, probe, probeVersion,
      probeClassic, probeMms, good, newPlug, runLoad, pushNew, probeLog, yes, setStatus, upd, St.put, loadCleanup, belowPaused, plEvent, plLoop, plEventBody, evLoop, nextAfter,
      unregAll, varLoop, cmdLoop, eraseIdFrom, shUnload, ready, Lone, lonePlug]

theorem hydra_loop {fuel : Nat} : ∀ (f k : Nat) (ok : Bool) (s : St), Lone k s → unloadAll (cbs (fuel + 3) hydra) (fuel + 3) f ok s = .error .fuel := by
  intro f
  induction f with
  | zero => intro k ok s _; rfl
  | succ f ih =>
    intro k ok s h
    obtain ⟨s', e, h'⟩ := hydra_step (fuel := fuel) h
    rw [unloadAll, h.2.2.1]
    dsimp only
    rw [e]
    exact ih _ _ _ h'

/-- C55 is false if a plugin loads another one while it is unloaded: whatever the number of steps, `UnloadAll` has
not come to an end. -/
theorem unloadAll_never_ends (fuel : Nat) : exec (fuel + 3) (.op (.load [97] (good 5)) yes (.op .unloadAll hydra (.ret true))) init = .error .fuel := by
  have h1 : ∃ s, exec (fuel + 3) (.op (.load [97] (good 5)) yes (.ret true)) init = .ok (s, true) ∧ Lone 0 s :=
    ⟨_, rfl, rfl, rfl, rfl, rfl, _, rfl⟩
  obtain ⟨s, e, hs⟩ := h1
  rw [exec] at e ⊢
  obtain ⟨s1, e1, e⟩ := bind_ok e
  rw [e1]
  rw [exec] at e
  cases e
  show exec (fuel + 3) (.op .unloadAll hydra (.ret true)) s = _
  rw [exec, run]
  have := hydra_loop (fuel := fuel) (fuel + 3) 0 true s hs
  unfold cbs at this
  rw [this]; rfl

#print axioms unloadAll_empty_partial
#print axioms unloadAll_ends_partial
#print axioms unloadAll_never_ends

end Verif.Mgr
