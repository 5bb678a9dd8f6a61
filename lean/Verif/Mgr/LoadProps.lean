import Verif.Mgr.StatusProps
/-
More of C26 and C28: what `Load` answers, which files come to the call of the plugin, when a plugin's
memory and library go.
-/
namespace Verif.Mgr

/-! ### Spec -/

/-- The file can be loaded: it is a binary that is there and opens, offers a plugin object by one of the two
entry points, and the object has one of the API versions 14 to 17. -/
structure Loadable (o : Outcome) : Prop where
  ext : o.binExt = true
  there : o.present = true
  opens : o.lib ≠ none
  object : (∃ a u, o.mms = some (some a, u)) ∨ ∃ a, o.classic = some (some a)
  version : 14 ≤ o.ver ∧ o.ver ≤ 17

/-! ### Proofs -/

theorem probe_loadable (p : Plug) (o : Outcome) : (probe p o).2 = true ↔ Loadable o := by
  obtain ⟨bx, pr, lib, mms, cl, ver⟩ := o
  constructor
  · intro h
    simp only [probe] at h
    split at h
    · cases h
    · next h1 =>
      cases lib with
      | none => cases h
      | some l =>
        dsimp only at h
        rw [not_or] at h1
        have hv : ∀ q : Plug, (probeVersion q ⟨bx, pr, some l, mms, cl, ver⟩).2 = true → q.api ≠ none ∧ 14 ≤ ver ∧ ver ≤ 17 := by
          intro q hq
          unfold probeVersion at hq
          split at hq
          · cases hq
          · next h => 
            dsimp only at hq
            split at hq
            · cases hq
            · split at hq
              · cases hq
              · exact ⟨(by rw [h]; simp), by omega, by omega⟩
        obtain ⟨g1, g2⟩ := hv _ h
        refine ⟨by simpa using h1.1, by simpa using h1.2, by simp, ?_, g2⟩
        match mms with
        | some (some a, u) => exact .inl ⟨a, u, rfl⟩
        | some (none, u) =>
          match cl with
          | some (some a) => exact .inr ⟨a, rfl⟩
          | some none => exact absurd rfl g1
          | none => exact absurd rfl g1
        | none =>
          match cl with
          | some (some a) => exact .inr ⟨a, rfl⟩
          | some none => exact absurd rfl g1
          | none => exact absurd rfl g1
  · rintro ⟨rfl, rfl, h3, h4, h5, h6⟩
    dsimp only at h3 h4 h5 h6
    cases lib with
    | none => exact absurd rfl h3
    | some l =>
      have hv : ∀ q : Plug, q.api ≠ none → (probeVersion q ⟨true, true, some l, mms, cl, ver⟩).2 = true := by
        intro q hq
        unfold probeVersion
        cases ha : q.api with
        | none => exact absurd ha hq
        | some a =>
          dsimp only
          rw [if_neg (by omega), if_neg (by omega)]
      simp only [probe]
      rw [if_neg (by simp)]
      refine hv _ ?_
      rcases h4 with ⟨a, u, rfl⟩ | ⟨a, rfl⟩
      · exact nofun
      · match mms with
        | some (some a, u) => exact nofun
        | some (none, u) => exact nofun
        | none => exact nofun

theorem probe_failed (id : Nat) (file : List Byte) (o : Outcome) (h : (probe (newPlug id file) o).2 = false) :
    (probe (newPlug id file) o).1.status = (if o.binExt = true ∧ o.present = true then .error else .notFound) := by
  obtain ⟨bx, pr, lib, mms, cl, ver⟩ := o
  revert h
  simp only [probe]
  split
  · next h1 =>
    intro _
    rw [if_neg (by rintro ⟨a, b⟩; rcases h1 with h | h <;> simp_all)]
  · next h1 =>
    rw [not_or] at h1
    rw [if_pos ⟨by simpa using h1.1, by simpa using h1.2⟩]
    cases lib with
    | none => intro _; rfl
    | some l =>
      dsimp only
      have hv : ∀ q : Plug, (q.api = none → q.status = .error) → (probeVersion q ⟨bx, pr, some l, mms, cl, ver⟩).2 = false → (probeVersion q ⟨bx, pr, some l, mms, cl, ver⟩).1.status = .error := by
        intro q hq h
        unfold probeVersion at h ⊢
        cases ha : q.api with
        | none => exact hq ha
        | some a =>
          rw [ha] at h
          dsimp only at h ⊢
          split
          · rfl
          · next h1 =>
            rw [if_neg h1] at h
            split
            · rfl
            · next h2 => rw [if_neg h2] at h; cases h
      refine hv _ ?_
      match mms with
      | some (some a, u) => exact nofun
      | some (none, u) =>
        match cl with
        | some (some a) => exact nofun
        | some none => exact fun _ => rfl
        | none => exact fun _ => rfl
      | none =>
        match cl with
        | some (some a) => exact nofun
        | some none => exact fun _ => rfl
        | none => exact fun _ => rfl

theorem probe_lists0 (id : Nat) (file : List Byte) (o : Outcome) : (probe (newPlug id file) o).1.cvars = [] ∧ (probe (newPlug id file) o).1.cmds = [] := by
  obtain ⟨bx, pr, lib, mms, cl, ver⟩ := o
  have hv : ∀ q : Plug, q.cvars = [] ∧ q.cmds = [] → (probeVersion q ⟨bx, pr, lib, mms, cl, ver⟩).1.cvars = [] ∧ (probeVersion q ⟨bx, pr, lib, mms, cl, ver⟩).1.cmds = [] := by
    intro q hq
    unfold probeVersion
    split
    · exact hq
    · split
      · exact hq
      · split <;> exact hq
  simp only [probe]
  split
  · exact ⟨rfl, rfl⟩
  · cases lib with
    | none => exact ⟨rfl, rfl⟩
    | some l =>
      refine hv _ ?_
      match mms with
      | some (some a, u) => exact ⟨rfl, rfl⟩
      | some (none, u) =>
        match cl with
        | some (some a) => exact ⟨rfl, rfl⟩
        | some none => exact ⟨rfl, rfl⟩
        | none => exact ⟨rfl, rfl⟩
      | none =>
        match cl with
        | some (some a) => exact ⟨rfl, rfl⟩
        | some none => exact ⟨rfl, rfl⟩
        | none => exact ⟨rfl, rfl⟩

theorem ready_keep {s s' : St} {o : Nat} {p : Plug} (hp : s.objs o = some p) (e : ready o false s = .ok s') :
    s'.log = s.log ++ [.ready o] ∧ s'.plugins = s.plugins ∧ ∃ q, s'.objs o = some q ∧ q.status = p.status ∧ q.id = p.id := by
  unfold ready at e
  rw [get_of hp] at e
  simp only [bind, Except.bind] at e
  split at e
  · cases e
  · rw [if_neg (by simp)] at e
    cases e
    exact ⟨rfl, rfl, _, upd_same _ _ _, rfl, rfl⟩

theorem unregAll_nil {h : Beh} {fuel o : Nat} {s s' : St} {p : Plug} (hp : s.objs o = some p) (h1 : p.cvars = []) (h2 : p.cmds = []) (e : unregAll h fuel o s = .ok s') :
    s'.log = s.log ∧ s'.plugins = s.plugins ∧ s'.objs o = some p := by
  have hv : ∀ (x : St), varLoop h fuel o fuel none x = .ok x := fun x => by cases fuel <;> rfl
  have hc : ∀ (x : St), cmdLoop h fuel o fuel none x = .ok x := fun x => by cases fuel <;> rfl
  obtain ⟨id, file, status, source, api, lib, uf, ver, cvars, cmds, events, given⟩ := p
  dsimp only at h1 h2
  subst h1 h2
  unfold unregAll at e
  rw [get_of hp] at e
  simp only [bind, Except.bind, List.head?_nil, Option.map_none, hv, get_of hp, hc] at e
  rw [get_of (show (s.put o _).objs o = some _ from upd_same _ _ _)] at e
  cases e
  exact ⟨rfl, rfl, upd_same _ _ _⟩

/-! ### The properties -/

/-- C28: a file is opened up to the call of the plugin exactly if it can be loaded.  It is then called at once, with its id; nothing else was called before. -/
theorem load_called {h : Beh} {fuel : Nat} {file : List Byte} {o : Outcome} {s s' : St} {oid : Nat} (hl : Loadable o) (e : load_ h fuel file o s = .ok (s', oid)) :
    ∃ s0 s1 p b, doCall h (.load oid s.lastId s.allLoaded) s0 = .ok (s1, b) ∧ s0.log = s.log ∧ s0.plugins = s.plugins ++ [oid] ∧ s0.objs oid = some p ∧ p.id = s.lastId ∧ p.file = file ∧ p.status = .uninit := by
  unfold load_ at e
  obtain ⟨s1, e1, e⟩ := bind_ok e
  obtain ⟨s2, e2, e⟩ := bind_ok e
  cases e
  have hpr := (probe_loadable (newPlug s.lastId file) o).2 hl
  unfold loadRun at e1
  rw [if_pos hpr] at e1
  unfold runLoad at e1
  obtain ⟨⟨s3, b⟩, e3, e1⟩ := bind_ok e1
  have hu : (probe (newPlug s.lastId file) o).1.status = .uninit := by
    rcases probe_status (newPlug s.lastId file) o rfl with ⟨_, hu, _⟩ | ⟨hf, _⟩
    · exact hu
    · rw [hf] at hpr; cases hpr
  have hpi := probe_id (newPlug s.lastId file) o
  refine ⟨_, s3, _, b, e3, ?_, rfl, pushNew_obj file o s, hpi.1, hpi.2.1, hu⟩
  simp [pushNew, probeLog, hu]

/-- C28: a file that cannot be loaded is not called, nor is anything else: it ends in the list as not found if it is no binary or is not there, else as an error. -/
theorem load_not_called {h : Beh} {fuel : Nat} {file : List Byte} {o : Outcome} {s s' : St} {oid : Nat} (hl : ¬ Loadable o) (e : load_ h fuel file o s = .ok (s', oid)) :
    (∃ t, s'.log = s.log ++ t ∧ ∀ c, Ev.call c ∉ t) ∧ s'.plugins = s.plugins ++ [oid] ∧
      ∃ p, s'.objs oid = some p ∧ p.id = s.lastId ∧ p.status = (if o.binExt = true ∧ o.present = true then .error else .notFound) := by
  unfold load_ at e
  obtain ⟨s1, e1, e⟩ := bind_ok e
  obtain ⟨s2, e2, e⟩ := bind_ok e
  cases e
  have hpr : (probe (newPlug s.lastId file) o).2 = false := by
    cases h : (probe (newPlug s.lastId file) o).2 with
    | false => rfl
    | true => exact absurd ((probe_loadable _ _).1 h) hl
  unfold loadRun at e1
  rw [if_neg (by rw [hpr]; simp)] at e1
  cases e1
  have hst := probe_failed _ _ _ hpr
  have hid := (probe_id (newPlug s.lastId file) o).1
  have hls := probe_lists0 s.lastId file o
  have hob := pushNew_obj file o s
  have hlog : (pushNew file o s).log = s.log ++ probeLog s.next (probe (newPlug s.lastId file) o).1 := rfl
  have hpl : (pushNew file o s).plugins = s.plugins ++ [s.next] := rfl
  have hnc : ∀ c, Ev.call c ∉ probeLog s.next (probe (newPlug s.lastId file) o).1 := by
    intro c
    unfold probeLog
    split
    · exact nofun
    · intro h; cases h with | tail _ h => cases h
  generalize pushNew file o s = S at *
  generalize (probe (newPlug s.lastId file) o).1 = P at *
  unfold loadCleanup at e2
  rw [get_of hob] at e2
  simp only [bind, Except.bind] at e2
  split at e2
  · cases e2
    exact ⟨⟨_, hlog, hnc⟩, hpl, P, hob, hid, hst⟩
  · have hb : belowPaused P.status = .ok true := by rw [hst]; split <;> rfl
    rw [hb] at e2
    simp only [if_true] at e2
    obtain ⟨s3, e3, e2⟩ := bind_ok e2
    obtain ⟨k1, k2, k3⟩ := unregAll_nil (p := { P with events := [] }) (upd_same _ _ _) hls.1 hls.2 e3
    rw [get_of k3] at e2
    simp only [bind, Except.bind] at e2
    unfold shUnload at e2
    dsimp only at e2
    split at e2
    · obtain ⟨g1, g2, q, g3, g4, g5⟩ := ready_keep (p := { P with events := [] }) (s := { s3 with hooks := _, log := s3.log ++ [.shUnload P.id] }) k3 e2
      refine ⟨⟨probeLog s.next P ++ [.shUnload P.id] ++ [.ready s.next], ?_, ?_⟩, ?_, q, g3, g5.trans hid, g4.trans hst⟩
      · rw [g1]; simp only [k1]; rw [show (S.put s.next { P with events := [] }).log = S.log from rfl, hlog]; simp
      · intro c hc
        rw [List.mem_append, List.mem_append] at hc
        rcases hc with (hc | hc) | hc
        · exact hnc c hc
        · cases hc with | tail _ h => cases h
        · cases hc with | tail _ h => cases h
      · rw [g2]; simp only [k2]; exact hpl
    · cases e2
      refine ⟨⟨probeLog s.next P ++ [.shUnload P.id], ?_, ?_⟩, ?_, _, k3, hid, hst⟩
      · simp only [k1]; rw [show (S.put s.next { P with events := [] }).log = S.log from rfl, hlog]; simp
      · intro c hc
        rw [List.mem_append] at hc
        rcases hc with hc | hc
        · exact hnc c hc
        · cases hc with | tail _ h => cases h
      · exact k2.trans hpl

/-- C28: a plugin that is running or paused leaves the list without force only if it said yes when asked. -/
theorem unload_agreed {h : Beh} {fuel id : Nat} {s s' : St} {o : Nat} {p : Plug} (hf : findById s id s.plugins = .ok (some o)) (hp : s.objs o = some p) (ha : p.api.isSome = true) (hl : p.lib.isSome = true)
    (e : unload h fuel id false s = .ok (s', true)) : ∃ s1, doCall h (.unload o) s = .ok (s1, true) := by
  unfold unload at e
  obtain ⟨x, e1, e⟩ := bind_ok e
  rw [hf] at e1; cases e1
  obtain ⟨p', e0, e⟩ := bind_ok e
  obtain ⟨⟨s1, b1⟩, e2, e⟩ := bind_ok e
  dsimp only at e
  split at e
  · next hb =>
    subst hb
    unfold unload_ at e2
    rw [get_of hp] at e2
    simp only [bind, Except.bind, ha, hl, Bool.and_true, if_true, Bool.or_false] at e2
    obtain ⟨⟨s3, b3⟩, e4, e2⟩ := bind_ok e2
    dsimp only at e2
    split at e2
    · next hb => subst hb; exact ⟨s3, e4⟩
    · cases e2
  · next hb => cases e; exact absurd rfl hb

/-- C28: the memory and the library of an unloaded plugin go at once if no hook loop is running, else they wait until the loops are over. -/
theorem unload_waits {h : Beh} {fuel o : Nat} {force : Bool} {s s' : St} {p : Plug} (hp : s.objs o = some p) (ha : p.api.isSome = true) (hl : p.lib.isSome = true)
    (e : unload_ h fuel o force s = .ok (s', true)) : (s'.busy = 0 ∧ s'.objs o = none) ∨ (s'.busy ≠ 0 ∧ ∃ q, s'.objs o = some q ∧ (q.id, o, true) ∈ s'.pending) := by
  unfold unload_ at e
  rw [get_of hp] at e
  simp only [bind, Except.bind, ha, hl, Bool.and_true, if_true] at e
  obtain ⟨⟨s3, b3⟩, e4, e⟩ := bind_ok e
  dsimp only at e
  split at e
  · obtain ⟨p1, _, e⟩ := bind_ok e
    obtain ⟨s4, _, e⟩ := bind_ok e
    obtain ⟨p2, e5, e⟩ := bind_ok e
    obtain ⟨l, _, e⟩ := bind_ok e
    obtain ⟨s5, e6, e⟩ := bind_ok e
    cases e
    unfold shUnload at e6
    dsimp only at e6
    split at e6
    · next hb =>
      left
      unfold ready at e6
      rw [show St.get { s4 with plugins := l, hooks := s4.hooks.filter (fun k => k.owner != p2.id), log := s4.log ++ [.shUnload p2.id] } o = .ok p2 from e5] at e6
      simp only [bind, Except.bind] at e6
      split at e6
      · cases e6
      · rw [if_pos trivial] at e6
        cases e6
        exact ⟨hb, upd_same _ _ _⟩
    · next hb =>
      right
      cases e6
      exact ⟨hb, p2, get_ok e5, by simp⟩
  · cases e

theorem Steps.file {r : Bool} {n : Nat} {s0 s' : St} (t : Steps r n s0 s') : ∀ i p', i < s0.next → s'.objs i = some p' → ∃ p0, s0.objs i = some p0 ∧ p'.file = p0.file := by
  induction t with
  | refl => intro i p' _ hp'; exact ⟨p', hp', rfl⟩
  | tail g q ih =>
    intro i p' hlt hp'
    have hn := Steps.next g
    cases q with
    | quiet q =>
      obtain ⟨p1, h1, _, a1, _⟩ := q.obj hp'
      obtain ⟨p0, h0, b1⟩ := ih i p1 hlt h1
      exact ⟨p0, h0, a1.trans b1⟩
    | push f o _ =>
      rcases pushNew_get hp' with ⟨e, _⟩ | ⟨_, h1⟩
      · omega
      · exact ih i p' hlt h1
    | retry A p o hr hA hpA hst hfin =>
      rename_i sx s2
      have key : ∀ p2, s2.objs i = some p2 → ∃ p0, s0.objs i = some p0 ∧ p2.file = p0.file := by
        intro p2 h2
        obtain ⟨p1, h1, _, a1, _⟩ := hst.obj h2
        rcases pushNew_get h1 with ⟨e, _⟩ | ⟨_, h1⟩
        · omega
        · obtain ⟨p0, h0, b1⟩ := ih i p1 hlt h1
          exact ⟨p0, h0, a1.trans b1⟩
      cases hfin with
      | ok q hq _ =>
        have hp' : upd s2.objs _ (some { q with id := p.id }) i = some p' := hp'
        rw [upd_other (by omega)] at hp'
        exact key _ hp'
      | fail _ => exact key _ hp'

theorem scan_found {s : St} {file : List Byte} : ∀ (l kept : List Nat) (al : Bool) (y : List Nat × Bool × Option Nat), scan s file kept l al = .ok y → ∀ z, y.2.2 = some z →
    ∃ a ∈ l, ∃ p, s.objs a = some p ∧ p.id = z ∧ Util.collapse p.file = Util.collapse file ∧ Loaded p.status := by
  intro l
  induction l with
  | nil => intro kept al y e z hz; cases e; cases hz
  | cons a as ih =>
    intro kept al y e z hz
    rw [scan] at e
    obtain ⟨p, e1, e⟩ := bind_ok e
    split at e
    · next hsp =>
      obtain ⟨b, e2, e⟩ := bind_ok e
      split at e
      · obtain ⟨a', h1, h2⟩ := ih _ _ _ e z hz
        exact ⟨a', .tail _ h1, h2⟩
      · next hb =>
        cases e; cases hz
        refine ⟨a, .head _, p, get_ok e1, rfl, ?_, ?_⟩
        · unfold samePath at hsp; exact (of_decide_eq_true hsp).symm
        · rcases belowPaused_ok e2 with ⟨rfl, _⟩ | ⟨_, h⟩
          · exact absurd rfl hb
          · exact h
    · obtain ⟨a', h1, h2⟩ := ih _ _ _ e z hz
      exact ⟨a', .tail _ h1, h2⟩

theorem load_answer_of {r : Bool} {s s' : St} {fuel : Nat} {h : Beh} {file : List Byte} {o : Outcome} {id : Nat} {al : Bool}
    (hi : IdInv s) (hh : HOk (Steps r) h) (e : load h fuel file o s = .ok (s', id, al)) :
    ∃ k p, s'.objs k = some p ∧ p.id = id ∧ Util.collapse p.file = Util.collapse file ∧ ((k = s.next ∧ p.file = file) ∨ (k ∈ s.plugins ∧ Loaded p.status ∧ al = true)) := by
  have hT := goodA_g r
  unfold load at e
  obtain ⟨⟨l, al', x⟩, e1, e⟩ := bind_ok e
  have hsc := scan_spec e1
  cases x with
  | some y =>
    cases e
    obtain ⟨a, ha, p, hp, h1, h2, h3⟩ := scan_found _ _ _ _ e1 _ rfl
    refine ⟨a, p, hp, h1, h2, .inr ⟨ha, h3, ?_⟩⟩
    have : ∀ (l kept : List Nat) (al : Bool) (y : List Nat × Bool × Option Nat), scan s file kept l al = .ok y → y.2.2 ≠ none → y.2.1 = true := by
      intro l
      induction l with
      | nil => intro kept al y e hz; cases e; exact absurd rfl hz
      | cons a as ih =>
        intro kept al y e hz
        rw [scan] at e
        obtain ⟨p, e1, e⟩ := bind_ok e
        split at e
        · obtain ⟨b, e2, e⟩ := bind_ok e
          split at e
          · exact ih _ _ _ e hz
          · cases e; rfl
        · exact ih _ _ _ e hz
    exact this _ _ _ _ e1 nofun
  | none =>
    obtain ⟨⟨s1, B⟩, e2, e⟩ := bind_ok e
    obtain ⟨s2, e3, e⟩ := bind_ok e
    obtain ⟨p, e4, e⟩ := bind_ok e
    cases e
    dsimp only at e2 e3 e4
    have hi0 : IdInv { s with plugins := l } := ((QPrim.erase (a := false) (n := 0) s l (by simpa using hsc.1)).spec hi).1
    obtain ⟨rfl, t1⟩ := load_emits_ hT hh hi0 e2
    have i1 := (pushNew_spec hi0 file o).1
    have i2 := hT.inv _ _ _ i1 t1
    have t2 := plEvent_emits hT.toGood hh _ _ _ _ _ i2 e3
    have t := hT.trans _ _ _ _ t1 (hT.mono _ _ _ _ (Nat.le_trans (Nat.le_succ _) (hT.next _ _ _ t1)) t2)
    obtain ⟨p0, h0, e0⟩ := Steps.file t s.next p (Nat.lt_succ_self _) (get_ok e4)
    have hf : p.file = file := by
      rcases pushNew_get h0 with ⟨_, rfl⟩ | ⟨hne, _⟩
      · rw [e0, (probe_id _ o).2.1]; rfl
      · exact absurd rfl hne
    exact ⟨s.next, p, get_ok e4, rfl, by rw [hf], .inl ⟨rfl, hf⟩⟩

/-- C26: `Load` answers the id of a plugin with that path: one that was loaded, or the new one. -/
theorem load_answer {r : Bool} {s s' : St} {fuel : Nat} {cb : Call → Nat → Scr} {file : List Byte} {o : Outcome} {id : Nat} {al : Bool}
    (h : Reach r s) (hcb : ∀ c n, (cb c n).Ok r) (e : load (fun c n s => exec fuel (cb c n) s) fuel file o s = .ok (s', id, al)) :
    ∃ k p, s'.objs k = some p ∧ p.id = id ∧ Util.collapse p.file = Util.collapse file ∧ ((k = s.next ∧ p.file = file) ∨ (k ∈ s.plugins ∧ Loaded p.status ∧ al = true)) :=
  load_answer_of h.id (fun c k s s' b hi e => exec_emits fuel (cb c k) (hcb c k) s s' b hi e) e

/-- C28: a plugin that refuses stays, if the unload is not forced: nothing but the question happens. -/
theorem unload_refused {h : Beh} {fuel id : Nat} {s s' : St} {o : Nat} {p : Plug} (hf : findById s id s.plugins = .ok (some o)) (hp : s.objs o = some p) (ha : p.api.isSome = true) (hl : p.lib.isSome = true)
    (hc : doCall h (.unload o) s = .ok (s', false)) : unload h fuel id false s = .ok (s', false) := by
  unfold unload
  rw [hf]
  simp only [bind, Except.bind, get_of hp]
  unfold unload_
  simp only [bind, Except.bind, get_of hp]
  obtain ⟨a, ha⟩ := Option.isSome_iff_exists.1 ha
  obtain ⟨l, hl⟩ := Option.isSome_iff_exists.1 hl
  simp only [ha, hl, hc]
  rfl

/-! ### Examples -/

/-- A file that can be loaded, and three that cannot. -/
example : Loadable (good 10) ∧ ¬ Loadable { good 10 with present := false } ∧ ¬ Loadable { good 10 with ver := 13 } ∧ ¬ Loadable { good 10 with ver := 18 } := by
  refine ⟨⟨rfl, rfl, nofun, ?_, by decide⟩, (fun h => nomatch h.there), (fun h => absurd h.version.1 (by decide)), (fun h => absurd h.version.2 (by decide))⟩
  first | exact .inl ⟨_, _, rfl⟩ | exact .inr ⟨_, rfl⟩

/-- `load_called`, `load_not_called`, `load_answer`: loads that end normally, with an answer. -/
example : (∃ s', load (fun c n s => exec 10 (yes c n) s) 10 [97] (good 10) init = .ok (s', 1, false)) ∧
    (∃ s', load_ (fun c n s => exec 10 (yes c n) s) 10 [97] { good 10 with ver := 18 } init = .ok (s', 0)) := ⟨⟨_, rfl⟩, _, rfl⟩

/-- `unload_agreed`, `unload_waits`: a plugin that is loaded and unloaded, while a hook loop runs and not. -/
example : (do
    let r ← exec 10 (.op (.load [97] (good 10)) yes (.ret true)) init
    let u ← unload (fun c n s => exec 10 (yes c n) s) 10 1 false r.1
    let b ← exec 10 (.op .enter yes (.ret true)) r.1
    let v ← unload_ (fun c n s => exec 10 (yes c n) s) 10 0 false b.1
    Except.ok (u.2, (u.1.objs 0).isSome, v.2, (v.1.objs 0).isSome, v.1.pending) : R (Bool × Bool × Bool × Bool × List (Nat × Nat × Bool))) = .ok (true, false, true, true, [(1, 0, true)]) := by rfl

/-- `unload_refused`: a plugin that refuses. -/
example : (do
    let r ← exec 10 (.op (.load [97] (good 10)) yes (.ret true)) init
    let u ← unload (fun c n s => exec 10 (no c n) s) 10 1 false r.1
    Except.ok (u.2, u.1.plugins, (u.1.objs 0).isSome) : R (Bool × List Nat × Bool)) = .ok (false, [0], true) := by rfl

#print axioms load_called
#print axioms load_not_called
#print axioms unload_agreed
#print axioms unload_waits
#print axioms unload_refused
#print axioms load_answer

end Verif.Mgr
