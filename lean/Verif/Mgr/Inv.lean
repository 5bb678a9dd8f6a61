import Verif.Mgr.Sound
/-
More invariants of the plugin manager: paths, list nodes, the status log, and, without
`Retry`, ids and hooks.
-/
namespace Verif.Mgr

/-- What no change touches in an object that is still there. -/
theorem QPrim.obj {a : Bool} {n : Nat} {s s' : St} (h : QPrim a n s s') {o : Nat} {p' : Plug} (hp' : s'.objs o = some p') :
    ∃ p, s.objs o = some p ∧ p'.id = p.id ∧ p'.file = p.file ∧ p'.given = p.given := by
  have key : ∀ (k : Nat) (q q' : Plug), s.objs k = some q → q'.id = q.id → q'.file = q.file → q'.given = q.given →
      upd s.objs k (some q') o = some p' → ∃ p, s.objs o = some p ∧ p'.id = p.id ∧ p'.file = p.file ∧ p'.given = p.given := by
    intro k q q' hq h1 h2 h3 hu
    by_cases e : o = k
    · subst e; rw [upd_same] at hu; cases hu; exact ⟨q, hq, h1, h2, h3⟩
    · rw [upd_other e] at hu; exact ⟨p', hu, rfl, rfl, rfl⟩
  cases h
  case put k q q' hq hs _ => exact key k q q' hq hs.id hs.file hs.given hp'
  case addNode k v q q' hq hs _ => exact key k q q' hq hs.id hs.file hs.given hp'
  case loadDone k q st _ hq _ _ _ => exact key k q _ hq (by exact rfl) (by exact rfl) (by exact rfl) hp'
  case paused k q hq _ _ => exact key k q _ hq (by exact rfl) (by exact rfl) (by exact rfl) hp'
  case unpaused k q hq _ _ => exact key k q _ hq (by exact rfl) (by exact rfl) (by exact rfl) hp'
  case free k _ =>
    have hp' : upd s.objs k none o = some p' := hp'
    by_cases e : o = k
    · subst e; rw [upd_same] at hp'; cases hp'
    · rw [upd_other e] at hp'; exact ⟨p', hp', rfl, rfl, rfl⟩
  all_goals exact ⟨p', hp', rfl, rfl, rfl⟩

theorem FSteps.obj {a : Bool} {n : Nat} {s s' : St} (h : FSteps a n s s') {o : Nat} {p' : Plug} (hp' : s'.objs o = some p') :
    ∃ p, s.objs o = some p ∧ p'.id = p.id ∧ p'.file = p.file ∧ p'.given = p.given := by
  induction h generalizing p' with
  | refl => exact ⟨p', hp', rfl, rfl, rfl⟩
  | tail _ q ih =>
    obtain ⟨p1, h1, a1, a2, a3⟩ := q.obj hp'
    obtain ⟨p0, h0, b1, b2, b3⟩ := ih h1
    exact ⟨p0, h0, a1.trans b1, a2.trans b2, a3.trans b3⟩

theorem pushNew_get {s : St} {file : List Byte} {o : Outcome} {i : Nat} {q : Plug} (hq : (pushNew file o s).objs i = some q) :
    (i = s.next ∧ q = (probe (newPlug s.lastId file) o).1) ∨ (i ≠ s.next ∧ s.objs i = some q) := by
  have hq : upd s.objs s.next _ i = some q := hq
  by_cases h : i = s.next
  · subst h; rw [upd_same] at hq; cases hq; exact .inl ⟨rfl, rfl⟩
  · rw [upd_other h] at hq; exact .inr ⟨h, hq⟩

/-! ### Paths -/

/-- Listed plugins have different paths. -/
def PathInv (s : St) : Prop :=
  ∀ a ∈ s.plugins, ∀ b ∈ s.plugins, ∀ p q, s.objs a = some p → s.objs b = some q → Util.collapse p.file = Util.collapse q.file → a = b

theorem QPrim.path {a : Bool} {n : Nat} {s s' : St} (h : QPrim a n s s') (hi : IdInv s) (hs : PathInv s) : PathInv s' := by
  intro i hi' j hj p q hp hq e
  have sub := (h.spec hi).2.sub
  obtain ⟨p0, h0, _, f0, _⟩ := h.obj hp
  obtain ⟨q0, h1, _, f1, _⟩ := h.obj hq
  exact hs i (sub.subset hi') j (sub.subset hj) p0 q0 h0 h1 (by rw [← f0, ← f1, e])

theorem GPrim.path {r : Bool} {n : Nat} {s s' : St} (h : GPrim r n s s') (hi : IdInv s) (hs : PathInv s) : PathInv s' := by
  cases h with
  | quiet h => exact h.path hi hs
  | push f o hf =>
    have hmem : ∀ i, i ∈ (pushNew f o s).plugins → i ∈ s.plugins ∨ i = s.next := by
      intro i hi
      simpa [pushNew] using hi
    have hpi := probe_id (newPlug s.lastId f) o
    have hnew : ∀ a ∈ s.plugins, ∀ p, s.objs a = some p → Util.collapse f ≠ Util.collapse p.file := by
      intro a ha p hp e
      have := hf a ha p hp
      unfold samePath at this
      rw [decide_eq_false_iff_not] at this
      exact this e
    intro i him j hjm p q hp hq e
    rcases pushNew_get hp with ⟨h1, rfl⟩ | ⟨h1, hp⟩ <;> rcases pushNew_get hq with ⟨h2, rfl⟩ | ⟨h2, hq⟩
    · rw [h1, h2]
    · rw [hpi.2.1] at e
      exact absurd e (hnew j ((hmem j hjm).resolve_right h2) q hq)
    · rw [hpi.2.1] at e
      exact absurd e.symm (hnew i ((hmem i him).resolve_right h1) p hp)
    · exact hs i ((hmem i him).resolve_right h1) j ((hmem j hjm).resolve_right h2) p q hp hq e
  | retry A pA o hr hA hpA hst hfin =>
    rename_i s2
    have i1 := (pushNew_spec hi pA.file o).1
    obtain ⟨i2, q2⟩ := hst.spec i1
    have hpi := probe_id (newPlug s.lastId pA.file) o
    have hmem : ∀ i, i ∈ s2.plugins → i ∈ s.plugins ∨ i = s.next := by
      intro i hi
      have := q2.sub.subset hi
      simpa [pushNew] using this
    -- files of the objects
    have hfile : ∀ i p, s2.objs i = some p → (i = s.next ∧ p.file = pA.file) ∨ (i ≠ s.next ∧ ∃ p0, s.objs i = some p0 ∧ p.file = p0.file) := by
      intro i p hp
      obtain ⟨p1, h1, _, f1, _⟩ := hst.obj hp
      rcases pushNew_get h1 with ⟨e1, rfl⟩ | ⟨e1, h0⟩
      · exact .inl ⟨e1, f1.trans hpi.2.1⟩
      · exact .inr ⟨e1, p1, h0, f1⟩
    cases hfin with
    | ok q hB hnA =>
      have hnot : ∀ i ∈ s2.plugins, ∀ p0, s.objs i = some p0 → i ≠ s.next → Util.collapse p0.file ≠ Util.collapse pA.file := by
        intro i him p0 h0 hne e
        have := hs i ((hmem i him).resolve_right hne) A hA p0 pA h0 hpA e
        subst this; exact hnA him
      intro i him j hjm p p' hp hp' e
      have hget : ∀ i t, upd s2.objs s.next (some { q with id := pA.id }) i = some t →
          (i = s.next ∧ t.file = pA.file) ∨ (i ≠ s.next ∧ ∃ p0, s.objs i = some p0 ∧ t.file = p0.file) := by
        intro i t ht
        by_cases h : i = s.next
        · subst h; rw [upd_same] at ht; cases ht
          rcases hfile _ q hB with ⟨_, h⟩ | ⟨h, _⟩
          · exact .inl ⟨rfl, h⟩
          · exact absurd rfl h
        · rw [upd_other h] at ht; exact hfile i t ht
      rcases hget i p hp with ⟨h1, f1⟩ | ⟨h1, p0, h0, f1⟩ <;> rcases hget j p' hp' with ⟨h2, f2⟩ | ⟨h2, p0', h0', f2⟩
      · rw [h1, h2]
      · exact absurd (by rw [← f2, ← e, f1]) (hnot j hjm p0' h0' h2)
      · exact absurd (by rw [← f1, e, f2]) (hnot i him p0 h0 h1)
      · exact hs i ((hmem i him).resolve_right h1) j ((hmem j hjm).resolve_right h2) p0 p0' h0 h0' (by rw [← f1, ← f2, e])
    | fail hnB =>
      intro i him j hjm p p' hp hp' e
      rcases hfile i p hp with ⟨h1, f1⟩ | ⟨h1, p0, h0, f1⟩
      · subst h1; exact absurd him hnB
      · rcases hfile j p' hp' with ⟨h2, f2⟩ | ⟨h2, p0', h0', f2⟩
        · subst h2; exact absurd hjm hnB
        · exact hs i ((hmem i him).resolve_right h1) j ((hmem j hjm).resolve_right h2) p0 p0' h0 h0' (by rw [← f1, ← f2, e])

/-! ### Without `Retry`: ids and hooks -/

/-- Ids are the ids given to the plugins, all objects have different ones, hooks belong to ids
that have been given, and are paused while their owner is, if not added in between. -/
structure OwnInv (s : St) : Prop where
  given : ∀ o p, s.objs o = some p → p.given = p.id ∧ 1 ≤ p.id ∧ p.id < s.lastId
  inj : ∀ o o' p p', s.objs o = some p → s.objs o' = some p' → p.id = p'.id → o = o'
  owner : ∀ k ∈ s.hooks, 1 ≤ k.owner ∧ k.owner < s.lastId
  paused : ∀ k ∈ s.hooks, ∀ o p, s.objs o = some p → p.id = k.owner → (k.paused = true ↔ p.status = .paused ∧ k.late = false)

theorem init_own : OwnInv init where
  given _ _ h := nomatch h
  inj _ _ _ _ h := nomatch h
  owner _ h := nomatch h
  paused _ h := nomatch h

/-- Changes of one object that keep the status paused or not, without new hooks. -/
theorem OwnInv.obj {s s' : St} {o : Nat} {p p' : Plug} (hs : OwnInv s) (hp : s.objs o = some p) (ho : s'.objs = upd s.objs o (some p'))
    (hid : p'.id = p.id) (hg : p'.given = p.given) (hl : s'.lastId = s.lastId) (hh : s'.hooks = s.hooks)
    (hst : p'.status = .paused ↔ p.status = .paused) : OwnInv s' := by
  have hget : ∀ i t, s'.objs i = some t → ∃ t0, s.objs i = some t0 ∧ t.id = t0.id ∧ t.given = t0.given ∧ (t.status = .paused ↔ t0.status = .paused) := by
    intro i t ht
    rw [ho] at ht
    by_cases e : i = o
    · subst e; rw [upd_same] at ht; cases ht; exact ⟨p, hp, hid, hg, hst⟩
    · rw [upd_other e] at ht; exact ⟨t, ht, rfl, rfl, .rfl⟩
  refine ⟨fun i t ht => ?_, fun i j t t' ht ht' e => ?_, fun k hk => ?_, fun k hk i t ht e => ?_⟩
  · obtain ⟨t0, h0, a1, a2, _⟩ := hget i t ht
    rw [a1, a2, hl]; exact hs.given i t0 h0
  · obtain ⟨t0, h0, a1, _⟩ := hget i t ht
    obtain ⟨t1, h1, b1, _⟩ := hget j t' ht'
    exact hs.inj i j t0 t1 h0 h1 (by rw [← a1, ← b1, e])
  · rw [hl]; exact hs.owner k (hh ▸ hk)
  · obtain ⟨t0, h0, a1, _, a3⟩ := hget i t ht
    rw [a3]; exact hs.paused k (hh ▸ hk) i t0 h0 (by rw [← a1, e])

theorem OwnInv.side {s s' : St} (hs : OwnInv s) (ho : s'.objs = s.objs) (hl : s'.lastId = s.lastId) (hh : ∀ k ∈ s'.hooks, k ∈ s.hooks) : OwnInv s' := by
  refine ⟨?_, ?_, fun k hk => ?_, fun k hk => ?_⟩
  · rw [ho, hl]; exact hs.given
  · rw [ho]; exact hs.inj
  · rw [hl]; exact hs.owner k (hh k hk)
  · rw [ho]; exact hs.paused k (hh k hk)

/-- Pausing and unpausing. -/
theorem OwnInv.pauseStep {s s' : St} {o : Nat} {p : Plug} {b : Bool} {st : Status} (hs : OwnInv s) (hp : s.objs o = some p)
    (ho : s'.objs = upd s.objs o (some { p with status := st })) (hl : s'.lastId = s.lastId) (hh : s'.hooks = pauseHooks p.id b s.hooks)
    (hst : b = true ↔ st = .paused) : OwnInv s' := by
  have hget : ∀ i t, s'.objs i = some t → (i = o ∧ t = { p with status := st }) ∨ (i ≠ o ∧ s.objs i = some t) := by
    intro i t ht
    rw [ho] at ht
    by_cases e : i = o
    · subst e; rw [upd_same] at ht; cases ht; exact .inl ⟨rfl, rfl⟩
    · rw [upd_other e] at ht; exact .inr ⟨e, ht⟩
  have hget' : ∀ i t, s'.objs i = some t → ∃ t0, s.objs i = some t0 ∧ t.id = t0.id ∧ t.given = t0.given := by
    intro i t ht
    rcases hget i t ht with ⟨rfl, rfl⟩ | ⟨_, h⟩
    · exact ⟨p, hp, rfl, rfl⟩
    · exact ⟨t, h, rfl, rfl⟩
  have hk' : ∀ k ∈ s'.hooks, ∃ k0 ∈ s.hooks, k.owner = k0.owner ∧
      ((k0.owner = p.id ∧ k.paused = b ∧ k.late = false) ∨ (k0.owner ≠ p.id ∧ k = k0)) := by
    intro k hk
    rw [hh] at hk
    obtain ⟨k0, h0, rfl⟩ := List.mem_map.mp hk
    refine ⟨k0, h0, ?_⟩
    by_cases e : k0.owner = p.id
    · rw [if_pos e]; exact ⟨rfl, .inl ⟨e, rfl, rfl⟩⟩
    · rw [if_neg e]; exact ⟨rfl, .inr ⟨e, rfl⟩⟩
  refine ⟨fun i t ht => ?_, fun i j t t' ht ht' e => ?_, fun k hk => ?_, fun k hk i t ht e => ?_⟩
  · obtain ⟨t0, h0, a1, a2⟩ := hget' i t ht
    rw [a1, a2, hl]; exact hs.given i t0 h0
  · obtain ⟨t0, h0, a1, _⟩ := hget' i t ht
    obtain ⟨t1, h1, b1, _⟩ := hget' j t' ht'
    exact hs.inj i j t0 t1 h0 h1 (by rw [← a1, ← b1, e])
  · obtain ⟨k0, h0, e, _⟩ := hk' k hk
    rw [hl, e]; exact hs.owner k0 h0
  · obtain ⟨k0, h0, e0, hc⟩ := hk' k hk
    rcases hc with ⟨c1, c2, c3⟩ | ⟨c1, rfl⟩
    · rw [c2, c3]
      rcases hget i t ht with ⟨rfl, rfl⟩ | ⟨hne, h⟩
      · simp [hst]
      · exact absurd (hs.inj i o t p h hp (by rw [e, e0, c1])) hne
    · rcases hget i t ht with ⟨rfl, rfl⟩ | ⟨_, h⟩
      · exact absurd e.symm c1
      · exact hs.paused k h0 i t h e

theorem QPrim.own {a : Bool} {n : Nat} {s s' : St} (h : QPrim a n s s') (hs : OwnInv s) : OwnInv s' := by
  cases h
  case put o p p' hp hq _ => exact hs.obj hp rfl hq.id hq.given rfl rfl (by rw [hq.status])
  case addNode o v p p' hp hq _ => exact hs.obj hp rfl hq.id hq.given rfl rfl (by rw [hq.status])
  case loadDone o p st _ hp hu hst _ =>
    exact hs.obj hp rfl rfl rfl rfl rfl (by rw [hu]; rcases hst with h | h <;> (subst h; simp))
  case paused o p hp _ _ => exact hs.pauseStep (b := true) (st := .paused) hp rfl rfl rfl (by simp)
  case unpaused o p hp _ _ => exact hs.pauseStep (b := false) (st := .running) hp rfl rfl rfl (by simp)
  case free o _ =>
    have hget : ∀ i q, upd s.objs o none i = some q → s.objs i = some q := by
      intro i q hq
      by_cases h : i = o
      · subst h; rw [upd_same] at hq; cases hq
      · rwa [upd_other h] at hq
    exact ⟨fun i t ht => hs.given i t (hget i t ht), fun i j t t' ht ht' => hs.inj i j t t' (hget i t ht) (hget j t' ht'), hs.owner,
      fun k hk i t ht => hs.paused k hk i t (hget i t ht)⟩
  case hooksDrop f => exact hs.side rfl rfl (fun k hk => (List.mem_filter.mp hk).1)
  case hookAdd o p hp =>
    have hk' : ∀ k ∈ s.hooks ++ [⟨s.next, p.given, false, p.status == .paused⟩], k ∈ s.hooks ∨ k = ⟨s.next, p.given, false, p.status == .paused⟩ := by
      intro k hk
      rcases List.mem_append.mp hk with h | h
      · exact .inl h
      · exact .inr (List.mem_singleton.mp h)
    obtain ⟨g1, g2, g3⟩ := hs.given o p hp
    refine ⟨hs.given, hs.inj, fun k hk => ?_, fun k hk i t ht e => ?_⟩
    · rcases hk' k hk with h | rfl
      · exact hs.owner k h
      · show 1 ≤ p.given ∧ p.given < s.lastId
        rw [g1]; exact ⟨g2, g3⟩
    · rcases hk' k hk with h | rfl
      · exact hs.paused k h i t ht e
      · have e : t.id = p.given := e
        have := hs.inj i o t p ht hp (by rw [e, g1])
        subst this
        have ht : s.objs i = some t := ht
        rw [hp] at ht; cases ht
        simp
  all_goals exact hs.side rfl rfl (fun k hk => hk)

theorem GPrim.own {n : Nat} {s s' : St} (h : GPrim false n s s') (hi : IdInv s) (hs : OwnInv s) : OwnInv s' := by
  cases h with
  | quiet h => exact h.own hs
  | push f o hf =>
    have hpi := probe_id (newPlug s.lastId f) o
    have hid : (probe (newPlug s.lastId f) o).1.id = s.lastId := hpi.1
    have hnp : (probe (newPlug s.lastId f) o).1.status ≠ .paused := by
      rcases probe_status (newPlug s.lastId f) o rfl with ⟨_, h, _⟩ | ⟨_, h | h⟩ <;> (rw [h]; exact fun h => (nomatch h))
    refine ⟨fun i t ht => ?_, fun i j t t' ht ht' e => ?_, fun k hk => ?_, fun k hk i t ht e => ?_⟩
    · show t.given = t.id ∧ 1 ≤ t.id ∧ t.id < s.lastId + 1
      rcases pushNew_get ht with ⟨_, rfl⟩ | ⟨_, ht⟩
      · rw [hpi.2.2, hid]; exact ⟨rfl, hi.last, Nat.lt_succ_self _⟩
      · obtain ⟨h1, h2, h3⟩ := hs.given i t ht
        exact ⟨h1, h2, by omega⟩
    · rcases pushNew_get ht with ⟨h1, rfl⟩ | ⟨h1, ht⟩ <;> rcases pushNew_get ht' with ⟨h2, rfl⟩ | ⟨h2, ht'⟩
      · rw [h1, h2]
      · have := (hs.given j t' ht').2.2; omega
      · have := (hs.given i t ht).2.2; omega
      · exact hs.inj i j t t' ht ht' e
    · have := hs.owner k hk
      show 1 ≤ k.owner ∧ k.owner < s.lastId + 1
      omega
    · rcases pushNew_get ht with ⟨_, rfl⟩ | ⟨_, ht⟩
      · have := hs.owner k hk
        omega
      · exact hs.paused k hk i t ht e
  | retry _ _ _ h => cases h

/-! ### Programs -/

theorem Steps.induct {r : Bool} {n : Nat} {P : St → Prop} (hP : ∀ s s', IdInv s → P s → GPrim r n s s' → P s') {s s' : St}
    (hi : IdInv s) (h0 : P s) (h : Steps r n s s') : P s' := by
  have : IdInv s' ∧ P s' := by
    induction h with
    | refl => exact ⟨hi, h0⟩
    | tail _ p ih =>
      exact ⟨(p.spec (s0 := init) (Nat.zero_le _) init_inv ih.1 (init_rel _)).1, hP _ _ ih.1 ih.2 p⟩
  exact this.2

/-- The states that a program can reach from the beginning. -/
def Reach (r : Bool) (s : St) : Prop := ∃ fuel p b, Scr.Ok r p ∧ exec fuel p init = .ok (s, b)

theorem Reach.id {r : Bool} {s : St} (h : Reach r s) : IdInv s := by
  obtain ⟨fuel, p, b, hp, e⟩ := h
  exact (good_g r).inv _ _ _ init_inv (exec_emits fuel p hp _ _ _ init_inv e)

theorem Reach.induct {r : Bool} {P : St → Prop} (h0 : P init) (hP : ∀ s s', IdInv s → P s → GPrim r 0 s s' → P s') {s : St} (h : Reach r s) : P s := by
  obtain ⟨fuel, p, b, hp, e⟩ := h
  exact Steps.induct hP init_inv h0 (exec_emits fuel p hp _ _ _ init_inv e)

theorem Reach.path {r : Bool} {s : St} (h : Reach r s) : PathInv s :=
  h.induct (fun _ h => nomatch h) (fun _ _ hi hs hp => hp.path hi hs)

theorem Reach.own {s : St} (h : Reach false s) : OwnInv s :=
  h.induct init_own (fun _ _ hi hs hp => hp.own hi hs)

/-! ### Library and interface -/

/-- A plugin whose load did not fail has its library and its interface. -/
def ApiInv (s : St) : Prop := ∀ o p, s.objs o = some p → Failed p.status ∨ (p.api.isSome = true ∧ p.lib.isSome = true)

theorem not_failed_of_loaded {st : Status} (h : Loaded st) : ¬ Failed st := by
  intro h'
  rcases h with rfl | rfl <;> rcases h' with h' | h' | h' <;> cases h'

theorem QPrim.api {a : Bool} {n : Nat} {s s' : St} (h : QPrim a n s s') (hs : ApiInv s) : ApiInv s' := by
  have key : ∀ (k : Nat) (q' : Plug), (Failed q'.status ∨ (q'.api.isSome = true ∧ q'.lib.isSome = true)) → ∀ o p',
      upd s.objs k (some q') o = some p' → Failed p'.status ∨ (p'.api.isSome = true ∧ p'.lib.isSome = true) := by
    intro k q' h1 o p' hu
    by_cases e : o = k
    · subst e; rw [upd_same] at hu; cases hu; exact h1
    · rw [upd_other e] at hu; exact hs o p' hu
  cases h
  case note => exact hs
  case allCall => exact hs
  case setAll => exact hs
  case put k q q' hq hsame h1 =>
    refine key k q' ?_
    rw [hsame.status]
    rcases h1.keep with ⟨h1, h2⟩ | h1
    · rw [h1, h2]; exact hs k q hq
    · exact .inl h1
  case addNode k v q q' hq hsame hg =>
    refine key k q' ?_
    rw [hsame.status, hg.keep.1, hg.keep.2]; exact hs k q hq
  case loadDone k q st _ hq hu _ _ =>
    refine key k _ (.inr ?_)
    rcases hs k q hq with h | h
    · rw [hu] at h; rcases h with h | h | h <;> cases h
    · exact h
  case paused k q hq hl _ =>
    refine key k _ (.inr ?_)
    rcases hs k q hq with h | h
    · exact absurd h (not_failed_of_loaded hl)
    · exact h
  case unpaused k q hq hl _ =>
    refine key k _ (.inr ?_)
    rcases hs k q hq with h | h
    · exact absurd h (not_failed_of_loaded hl)
    · exact h
  case erase => exact hs
  case free k _ =>
    intro o p' hp'
    have hp' : upd s.objs k none o = some p' := hp'
    by_cases e : o = k
    · subst e; rw [upd_same] at hp'; cases hp'
    · rw [upd_other e] at hp'; exact hs o p' hp'
  case hooksDrop => exact hs
  case hookAdd => exact hs
  case bump => exact hs
  case pend => exact hs
  case busy => exact hs
  case alias => exact hs

theorem FSteps.api {a : Bool} {n : Nat} {s s' : St} (h : FSteps a n s s') (hs : ApiInv s) : ApiInv s' := by
  induction h with
  | refl => exact hs
  | tail _ q ih => exact q.api ih

theorem probe_api (p : Plug) (o : Outcome) : Failed (probe p o).1.status ∨ ((probe p o).1.api.isSome = true ∧ (probe p o).1.lib.isSome = true) := by
  unfold probe
  split
  · exact .inl (.inl rfl)
  · split
    · exact .inl (.inr (.inl rfl))
    · unfold probeVersion probeClassic probeMms
      repeat' split
      all_goals simp_all [Failed]

theorem pushNew_api {s : St} (f : List Byte) (o : Outcome) (hs : ApiInv s) : ApiInv (pushNew f o s) := by
  intro i q hq
  rcases pushNew_get hq with ⟨_, rfl⟩ | ⟨_, hq⟩
  · exact probe_api _ _
  · exact hs i q hq

theorem GPrim.api {r : Bool} {n : Nat} {s s' : St} (h : GPrim r n s s') (hs : ApiInv s) : ApiInv s' := by
  cases h with
  | quiet h => exact h.api hs
  | push f o _ => exact pushNew_api f o hs
  | retry A p o hr hA hpA hst hfin =>
    rename_i s2
    have h2 := hst.api (pushNew_api p.file o hs)
    cases hfin with
    | ok q hB _ =>
      intro i t ht
      have ht : upd s2.objs s.next _ i = some t := ht
      by_cases e : i = s.next
      · subst e; rw [upd_same] at ht; cases ht; exact h2 s.next q hB
      · rw [upd_other e] at ht; exact h2 i t ht
    | fail => exact h2

theorem Reach.api {r : Bool} {s : St} (h : Reach r s) : ApiInv s :=
  h.induct (fun _ _ h => nomatch h) (fun _ _ _ hs hp => hp.api hs)

theorem Steps.api {r : Bool} {n : Nat} {s s' : St} (h : Steps r n s s') (hs : ApiInv s) : ApiInv s' := by
  induction h with
  | refl => exact hs
  | tail _ q ih => exact q.api ih

end Verif.Mgr
