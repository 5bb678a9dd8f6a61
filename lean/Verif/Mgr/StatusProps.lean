import Verif.Mgr.IdProps
/-
Property C28: the life cycle of a plugin.
-/
namespace Verif.Mgr

/-! ### Spec -/

/-- Allowed changes of status: a load ends; a loaded plugin is paused or resumed. -/
def Edge : Status → Status → Prop
  | .uninit, .running | .uninit, .refused | .uninit, .notFound | .uninit, .error => True
  | .running, .paused | .paused, .running | .running, .running | .paused, .paused => True
  | _, _ => False

/-- A history of changes that fit together and are allowed. -/
inductive Life (a : Status) : List (Status × Status) → Status → Prop
  | born : Life a [] a
  | change {l b c} : Life a l b → Edge b c → Life a (l ++ [(b, c)]) c

/-- The changes of one plugin's status. -/
def changes (o : Nat) (log : List Ev) : List (Status × Status) :=
  log.filterMap fun e => match e with
    | .status o' a b => if o' = o then some (a, b) else none
    | _ => none

/-- What must have happened right before a status was written: the plugin said yes to
`Load`, `Pause` or `Unpause`, or no to `Load`. -/
def Cause (x : Option Ev) (o : Nat) (a b : Status) : Prop :=
  match b with
  | .uninit => False
  | .notFound | .error => a = .uninit
  | .refused => a = .uninit ∧ ∃ id late, x = some (.ret (.load o id late) false)
  | .running => (a = .uninit ∧ ∃ id late, x = some (.ret (.load o id late) true)) ∨ (Loaded a ∧ x = some (.ret (.unpause o) true))
  | .paused => Loaded a ∧ x = some (.ret (.pause o) true)

/-! ### Proofs -/

theorem snoc_split {α : Type} {l pre post : List α} {e x : α} (h : l ++ [e] = pre ++ x :: post) :
    (l = pre ∧ e = x ∧ post = []) ∨ ∃ post', post = post' ++ [e] ∧ l = pre ++ x :: post' := by
  rcases List.eq_nil_or_concat post with rfl | ⟨post', y, rfl⟩
  · have := List.append_inj' h rfl
    exact .inl ⟨this.1, by simpa using this.2, rfl⟩
  · have h : l ++ [e] = (pre ++ x :: post') ++ [y] := by simpa using h
    have := List.append_inj' h rfl
    have hy : e = y := by simpa using this.2
    subst hy
    exact .inr ⟨post', by simp, this.1⟩

structure LogInv (s : St) : Prop where
  life : ∀ o, ∃ st, Life .uninit (changes o s.log) st ∧ ∀ p, s.objs o = some p → p.status = st
  fresh : ∀ o, s.next ≤ o → changes o s.log = []
  cause : ∀ pre o a b post, s.log = pre ++ .status o a b :: post → Cause pre.getLast? o a b

theorem init_log : LogInv init where
  life _ := ⟨.uninit, .born, fun _ h => (nomatch h)⟩
  fresh _ _ := rfl
  cause pre o a b post h := by cases pre <;> cases h

def NotStatus : Ev → Prop
  | .status _ _ _ => False
  | _ => True

theorem changes_snoc {o : Nat} {l : List Ev} {e : Ev} (h : NotStatus e) : changes o (l ++ [e]) = changes o l := by
  unfold changes
  rw [List.filterMap_append]
  cases e <;> first | exact List.append_nil _ | cases h

theorem changes_status_same {o : Nat} {l : List Ev} {a b : Status} : changes o (l ++ [.status o a b]) = changes o l ++ [(a, b)] := by
  unfold changes
  rw [List.filterMap_append]
  simp

theorem changes_status_other {o o' : Nat} {l : List Ev} {a b : Status} (h : o' ≠ o) : changes o (l ++ [.status o' a b]) = changes o l := by
  unfold changes
  rw [List.filterMap_append]
  simp [h]

/-- A step without a change of status. -/
theorem LogInv.keep {s s' : St} (hs : LogInv s) (hn : s.next ≤ s'.next)
    (ho : ∀ o p', s'.objs o = some p' → ∃ p, s.objs o = some p ∧ p'.status = p.status)
    (hl : s'.log = s.log ∨ ∃ e, NotStatus e ∧ s'.log = s.log ++ [e]) : LogInv s' := by
  have hc : ∀ o, changes o s'.log = changes o s.log := by
    intro o
    rcases hl with h | ⟨e, he, h⟩
    · rw [h]
    · rw [h, changes_snoc he]
  refine ⟨fun o => ?_, fun o h => ?_, fun pre o a b post h => ?_⟩
  · obtain ⟨st, h1, h2⟩ := hs.life o
    refine ⟨st, by rw [hc]; exact h1, fun p' hp' => ?_⟩
    obtain ⟨p, hp, e⟩ := ho o p' hp'
    rw [e]; exact h2 p hp
  · rw [hc]; exact hs.fresh o (by omega)
  · rcases hl with h' | ⟨e, he, h'⟩
    · exact hs.cause pre o a b post (by rw [← h', h])
    · rw [h'] at h
      rcases snoc_split h with ⟨_, h2, _⟩ | ⟨post', _, h2⟩
      · subst h2; cases he
      · exact hs.cause pre o a b post' h2

/-- A step that writes a status. -/
theorem LogInv.write {s s' : St} {o : Nat} {p p' : Plug} (hs : LogInv s) (hp : s.objs o = some p) (hlt : o < s.next) (hn : s'.next = s.next)
    (ho : s'.objs = upd s.objs o (some p')) (hl : s'.log = s.log ++ [.status o p.status p'.status])
    (he : Edge p.status p'.status) (hca : Cause s.log.getLast? o p.status p'.status) : LogInv s' := by
  refine ⟨fun i => ?_, fun i h => ?_, fun pre i a b post h => ?_⟩
  · by_cases e : i = o
    · subst e
      obtain ⟨st, h1, h2⟩ := hs.life i
      have := h2 p hp
      subst this
      refine ⟨p'.status, by rw [hl, changes_status_same]; exact .change h1 he, fun q hq => ?_⟩
      rw [ho, upd_same] at hq; cases hq; rfl
    · obtain ⟨st, h1, h2⟩ := hs.life i
      refine ⟨st, by rw [hl, changes_status_other (fun h => e h.symm)]; exact h1, fun q hq => ?_⟩
      rw [ho, upd_other e] at hq; exact h2 q hq
  · rw [hl, changes_status_other (by omega)]; exact hs.fresh i (by omega)
  · rw [hl] at h
    rcases snoc_split h with ⟨h1, h2, _⟩ | ⟨post', _, h2⟩
    · cases h2; rw [← h1]; exact hca
    · exact hs.cause pre i a b post' h2

theorem QPrim.logInv {a : Bool} {n : Nat} {s s' : St} (h : QPrim a n s s') (hi : IdInv s) (hs : LogInv s) : LogInv s' := by
  have keepObj : ∀ (k : Nat) (q q' : Plug), s.objs k = some q → q'.status = q.status → ∀ o p', upd s.objs k (some q') o = some p' →
      ∃ p, s.objs o = some p ∧ p'.status = p.status := by
    intro k q q' hq h1 o p' hu
    by_cases e : o = k
    · subst e; rw [upd_same] at hu; cases hu; exact ⟨q, hq, h1⟩
    · rw [upd_other e] at hu; exact ⟨p', hu, rfl⟩
  have same : ∀ o p', s.objs o = some p' → ∃ p, s.objs o = some p ∧ p'.status = p.status := fun o p' h => ⟨p', h, rfl⟩
  cases h
  case note e h => exact hs.keep (Nat.le_refl _) same (.inr ⟨e, by cases e <;> first | trivial | exact h, rfl⟩)
  case allCall o p _ _ _ _ _ => exact hs.keep (Nat.le_refl _) same (.inr ⟨.call (.allLoaded o), trivial, rfl⟩)
  case setAll => exact hs.keep (Nat.le_refl _) same (.inl rfl)
  case put k q q' hq h1 _ => exact hs.keep (Nat.le_refl _) (keepObj k q q' hq h1.status) (.inl rfl)
  case addNode k v q q' hq h1 _ => exact hs.keep (Nat.le_succ _) (keepObj k q q' hq h1.status) (.inl rfl)
  case loadDone o p st _ hp hu hst hlast =>
    refine LogInv.write (p' := { p with status := st }) hs hp (hi.lt hp) rfl rfl (by rw [hu]; rfl) ?_ ?_
    · rw [hu]; rcases hst with h | h <;> (subst h; trivial)
    · rw [hu]
      obtain ⟨id, late, hl⟩ := hlast
      rcases hst with h | h
      · subst h; exact .inl ⟨rfl, id, late, hl⟩
      · subst h; exact ⟨rfl, id, late, hl⟩
  case paused o p hp hl hlast =>
    refine LogInv.write (p' := { p with status := .paused }) hs hp (hi.lt hp) rfl rfl rfl ?_ ⟨hl, hlast⟩
    rcases hl with h | h <;> (rw [h]; trivial)
  case unpaused o p hp hl hlast =>
    refine LogInv.write (p' := { p with status := .running }) hs hp (hi.lt hp) rfl rfl rfl ?_ (.inr ⟨hl, hlast⟩)
    rcases hl with h | h <;> (rw [h]; trivial)
  case erase => exact hs.keep (Nat.le_refl _) same (.inl rfl)
  case free k _ =>
    refine hs.keep (Nat.le_refl _) (fun o p' hp' => ?_) (.inl rfl)
    have hp' : upd s.objs k none o = some p' := hp'
    by_cases e : o = k
    · subst e; rw [upd_same] at hp'; cases hp'
    · rw [upd_other e] at hp'; exact ⟨p', hp', rfl⟩
  case hooksDrop => exact hs.keep (Nat.le_refl _) same (.inl rfl)
  case hookAdd => exact hs.keep (Nat.le_succ _) same (.inl rfl)
  case bump => exact hs.keep (Nat.le_succ _) same (.inl rfl)
  case pend => exact hs.keep (Nat.le_refl _) same (.inl rfl)
  case busy => exact hs.keep (Nat.le_refl _) same (.inl rfl)
  case alias => exact hs.keep (Nat.le_refl _) same (.inl rfl)

theorem FSteps.logInv {a : Bool} {n : Nat} {s s' : St} (h : FSteps a n s s') (hi : IdInv s) (hs : LogInv s) : LogInv s' := by
  induction h with
  | refl => exact hs
  | tail g q ih => exact q.logInv (FSteps.spec g hi).1 ih

theorem pushNew_logInv {s : St} (f : List Byte) (o : Outcome) (hs : LogInv s) : LogInv (pushNew f o s) := by
  have hget := @pushNew_get s f o
  have hnew : changes s.next s.log = [] := hs.fresh _ (Nat.le_refl _)
  rcases probe_status (newPlug s.lastId f) o rfl with ⟨_, hu, _⟩ | ⟨_, hu⟩
  · -- no status written
    have hlog : (pushNew f o s).log = s.log := by
      show s.log ++ probeLog _ _ = _
      unfold probeLog; rw [if_pos hu, List.append_nil]
    refine ⟨fun i => ?_, fun i h => ?_, ?_⟩
    · rw [hlog]
      by_cases e : i = s.next
      · subst e
        rw [hnew]
        refine ⟨.uninit, .born, fun q hq => ?_⟩
        rcases hget hq with ⟨_, rfl⟩ | ⟨hne, _⟩
        · exact hu
        · exact absurd rfl hne
      · obtain ⟨st, h1, h2⟩ := hs.life i
        refine ⟨st, h1, fun q hq => ?_⟩
        rcases hget hq with ⟨h, _⟩ | ⟨_, h⟩
        · exact absurd h e
        · exact h2 q h
    · rw [hlog]; exact hs.fresh i (Nat.le_of_succ_le h)
    · rw [hlog]; exact hs.cause
  · have hne : (probe (newPlug s.lastId f) o).1.status ≠ .uninit := by rcases hu with h | h <;> (rw [h]; exact fun h => (nomatch h))
    have hlog : (pushNew f o s).log = s.log ++ [.status s.next .uninit (probe (newPlug s.lastId f) o).1.status] := by
      show s.log ++ probeLog _ _ = _
      unfold probeLog; rw [if_neg hne]
    refine ⟨fun i => ?_, fun i h => ?_, fun pre i a b post h => ?_⟩
    · rw [hlog]
      by_cases e : i = s.next
      · subst e
        rw [changes_status_same, hnew]
        refine ⟨_, .change .born (by rcases hu with h | h <;> (rw [h]; trivial)), fun q hq => ?_⟩
        rcases hget hq with ⟨_, rfl⟩ | ⟨hne, _⟩
        · rfl
        · exact absurd rfl hne
      · obtain ⟨st, h1, h2⟩ := hs.life i
        rw [changes_status_other (fun h => e h.symm)]
        refine ⟨st, h1, fun q hq => ?_⟩
        rcases hget hq with ⟨h, _⟩ | ⟨_, h⟩
        · exact absurd h e
        · exact h2 q h
    · have h : s.next + 1 ≤ i := h
      rw [hlog, changes_status_other (by omega)]; exact hs.fresh i (by omega)
    · rw [hlog] at h
      rcases snoc_split h with ⟨_, h2, _⟩ | ⟨post', _, h2⟩
      · cases h2
        rcases hu with h | h <;> (rw [h]; rfl)
      · exact hs.cause pre i a b post' h2

theorem GPrim.logInv {r : Bool} {n : Nat} {s s' : St} (h : GPrim r n s s') (hi : IdInv s) (hs : LogInv s) : LogInv s' := by
  cases h with
  | quiet h => exact h.logInv hi hs
  | push f o _ => exact pushNew_logInv f o hs
  | retry A p o hr hA hpA hst hfin =>
    rename_i s2
    have i1 := (pushNew_spec hi p.file o).1
    have l2 := hst.logInv i1 (pushNew_logInv p.file o hs)
    cases hfin with
    | ok q hB _ =>
      refine l2.keep (Nat.le_refl _) (fun i t ht => ?_) (.inl rfl)
      have ht : upd s2.objs s.next _ i = some t := ht
      by_cases e : i = s.next
      · subst e; rw [upd_same] at ht; cases ht; exact ⟨q, hB, rfl⟩
      · rw [upd_other e] at ht; exact ⟨t, ht, rfl⟩
    | fail => exact l2.keep (Nat.le_refl _) (fun i t ht => ⟨t, ht, rfl⟩) (.inl rfl)

theorem Reach.logInv {r : Bool} {s : St} (h : Reach r s) : LogInv s :=
  h.induct init_log (fun _ _ hi hs hp => hp.logInv hi hs)

/-! ### The property -/

/-- C28, partial: after every program (callbacks during `Retry` load nothing and do not announce), the
changes of a plugin's status are a life history: a load that ends as running, refused, not found or
error, then only changes between running and paused; and the present status is the last one of that
history. -/
theorem status_life_partial {s : St} (h : Reach true s) {o : Nat} {p : Plug} (hp : s.objs o = some p) :
    Life .uninit (changes o s.log) p.status := by
  obtain ⟨st, h1, h2⟩ := h.logInv.life o
  rw [h2 p hp]; exact h1

/-- C28, partial: every change of a status comes right after the plugin's answer that allows it: running
after yes to `Load` or `Unpause`, paused after yes to `Pause`, refused after no to `Load`.  So operations
that fail leave the status. -/
theorem status_cause_partial {s : St} (h : Reach true s) {pre post : List Ev} {o : Nat} {a b : Status}
    (e : s.log = pre ++ .status o a b :: post) : Cause pre.getLast? o a b :=
  h.logInv.cause pre o a b post e

/-- C28, partial: without `Retry`, the hooks of a plugin are paused exactly while the plugin is, except hooks
added while it is paused. -/
theorem hooks_paused_partial {s : St} (h : Reach false s) {k : Hook} (hk : k ∈ s.hooks) {o : Nat} {p : Plug} (hp : s.objs o = some p)
    (ho : k.owner = p.id) (hl : k.late = false) : k.paused = true ↔ p.status = .paused := by
  have := h.own.paused k hk o p hp ho.symm
  rw [this]; simp [hl]

/-- `Pause` that says no has at most called the plugin. -/
theorem pause_no {h : Beh} {fuel id : Nat} {s s' : St} (e : pause h fuel id s = .ok (s', false)) :
    s' = s ∨ ∃ o, doCall h (.pause o) s = .ok (s', false) := by
  unfold pause at e
  obtain ⟨x, e1, e⟩ := bind_ok e
  cases x with
  | none => cases e; exact .inl rfl
  | some o =>
    obtain ⟨⟨s1, b1⟩, e2, e⟩ := bind_ok e
    dsimp only at e
    split at e
    · obtain ⟨s2, e3, e⟩ := bind_ok e; cases e
    · cases e
      unfold pause_ at e2
      obtain ⟨p, _, e2⟩ := bind_ok e2
      obtain ⟨b, _, e2⟩ := bind_ok e2
      split at e2
      · obtain ⟨⟨s3, b3⟩, e4, e2⟩ := bind_ok e2
        dsimp only at e2
        split at e2
        · obtain ⟨_, _, e2⟩ := bind_ok e2
          obtain ⟨_, _, e2⟩ := bind_ok e2
          cases e2
        · cases e2
          rename_i hb
          have hb : b3 = false := by simpa using hb
          subst hb
          exact .inr ⟨o, e4⟩
      · cases e2; exact .inl rfl

/-- `Unpause` that says no has at most called the plugin. -/
theorem unpause_no {h : Beh} {fuel id : Nat} {s s' : St} (e : unpause h fuel id s = .ok (s', false)) :
    s' = s ∨ ∃ o, doCall h (.unpause o) s = .ok (s', false) := by
  unfold unpause at e
  obtain ⟨x, e1, e⟩ := bind_ok e
  cases x with
  | none => cases e; exact .inl rfl
  | some o =>
    obtain ⟨⟨s1, b1⟩, e2, e⟩ := bind_ok e
    dsimp only at e
    split at e
    · obtain ⟨s2, e3, e⟩ := bind_ok e; cases e
    · cases e
      unfold unpause_ at e2
      obtain ⟨p, _, e2⟩ := bind_ok e2
      obtain ⟨b, _, e2⟩ := bind_ok e2
      split at e2
      · obtain ⟨⟨s3, b3⟩, e4, e2⟩ := bind_ok e2
        dsimp only at e2
        split at e2
        · obtain ⟨_, _, e2⟩ := bind_ok e2
          obtain ⟨_, _, e2⟩ := bind_ok e2
          cases e2
        · cases e2
          rename_i hb
          have hb : b3 = false := by simpa using hb
          subst hb
          exact .inr ⟨o, e4⟩
      · cases e2; exact .inl rfl

/-- `Unload` that says no was not forced and has at most called the plugin. -/
theorem unload_no {h : Beh} {fuel id : Nat} {force : Bool} {s s' : St} (e : unload h fuel id force s = .ok (s', false)) :
    s' = s ∨ (force = false ∧ ∃ o, doCall h (.unload o) s = .ok (s', false)) := by
  unfold unload at e
  obtain ⟨x, e1, e⟩ := bind_ok e
  cases x with
  | none => cases e; exact .inl rfl
  | some o =>
    obtain ⟨p, e0, e⟩ := bind_ok e
    obtain ⟨⟨s1, b1⟩, e2, e⟩ := bind_ok e
    dsimp only at e
    split at e
    · obtain ⟨s2, e3, e⟩ := bind_ok e; cases e
    · cases e
      unfold unload_ at e2
      obtain ⟨p', _, e2⟩ := bind_ok e2
      split at e2
      · obtain ⟨⟨s3, b3⟩, e4, e2⟩ := bind_ok e2
        dsimp only at e2
        split at e2
        · obtain ⟨_, _, e2⟩ := bind_ok e2
          obtain ⟨_, _, e2⟩ := bind_ok e2
          obtain ⟨_, _, e2⟩ := bind_ok e2
          obtain ⟨_, _, e2⟩ := bind_ok e2
          obtain ⟨_, _, e2⟩ := bind_ok e2
          cases e2
        · rename_i hb
          cases e2
          have hb : b3 = false ∧ force = false := by simpa using hb
          obtain ⟨rfl, rfl⟩ := hb
          exact .inr ⟨rfl, o, e4⟩
      · obtain ⟨_, _, e2⟩ := bind_ok e2
        cases e2

/-- What is gone from the list does not come back. -/
theorem Steps.gone {r : Bool} {n : Nat} {s s' : St} (t : Steps r n s s') (hi : IdInv s) {o : Nat} (ho : o < s.next) (hn : o ∉ s.plugins) : o ∉ s'.plugins := by
  have : o < s'.next ∧ o ∉ s'.plugins := by
    refine Steps.induct (P := fun s => o < s.next ∧ o ∉ s.plugins) ?_ hi ⟨ho, hn⟩ t
    intro a b ia ⟨h1, h2⟩ g
    refine ⟨Nat.lt_of_lt_of_le h1 g.next, ?_⟩
    cases g with
    | quiet q => exact fun hm => h2 ((q.spec ia).2.sub.subset hm)
    | push f oc _ =>
      intro hm
      have hm : o ∈ a.plugins ++ [a.next] := hm
      rcases List.mem_append.mp hm with h | h
      · exact h2 h
      · rw [List.mem_singleton] at h; omega
    | retry A p oc hr hA hpA hst hfin =>
      rename_i s2
      have i1 := (pushNew_spec ia p.file oc).1
      have hsub := (hst.spec i1).2.sub
      have : o ∉ s2.plugins := by
        intro hm
        have hm : o ∈ a.plugins ++ [a.next] := hsub.subset hm
        rcases List.mem_append.mp hm with h | h
        · exact h2 h
        · rw [List.mem_singleton] at h; omega
      cases hfin with
      | ok => exact this
      | fail => exact this
  exact this.2

/-- `Unload` that says yes has removed the plugin it found from the list, whatever the callbacks did. -/
theorem unload_yes_partial {s s' : St} {r : Bool} {fuel id : Nat} {force : Bool} {cb : Call → Nat → Scr} {o : Nat} (h : Reach r s)
    (hcb : ∀ c n, (cb c n).Ok r) (hf : findById s id s.plugins = .ok (some o))
    (e : unload (fun c n s => exec fuel (cb c n) s) fuel id force s = .ok (s', true)) : o ∉ s'.plugins := by
  have hi := h.id
  have hT := good_g r
  have hh : HOk (Steps r) (fun c n s => exec fuel (cb c n) s) := fun c k s s' b hi e => exec_emits fuel (cb c k) (hcb c k) s s' b hi e
  unfold unload at e
  obtain ⟨x, e1, e⟩ := bind_ok e
  rw [hf] at e1; cases e1
  obtain ⟨p, e0, e⟩ := bind_ok e
  obtain ⟨⟨s1, b1⟩, e2, e⟩ := bind_ok e
  have t1 := unload_emits_ hT hh _ _ _ hi e2
  have i1 := hT.inv _ _ _ hi t1
  dsimp only at e
  split at e
  · obtain ⟨s2, e3, e⟩ := bind_ok e
    cases e
    have t2 := plEvent_emits hT hh _ _ _ _ _ i1 e3
    have hlt : o < s1.next := Nat.lt_of_lt_of_le (hi.old o (findById_mem hf).1) (hT.next _ _ _ t1)
    refine Steps.gone t2 i1 hlt ?_
    rename_i hb
    subst hb
    unfold unload_ at e2
    obtain ⟨p', e3', e2⟩ := bind_ok e2
    split at e2
    · obtain ⟨⟨s3, b3⟩, e4, e2⟩ := bind_ok e2
      have t3 := doCall_emits hT hh (c := .unload o) trivial hi e4
      dsimp only at e2
      split at e2
      · obtain ⟨p1, e5, e2⟩ := bind_ok e2
        obtain ⟨s4, e6, e2⟩ := bind_ok e2
        obtain ⟨p2, e7, e2⟩ := bind_ok e2
        obtain ⟨l, e8, e2⟩ := bind_ok e2
        obtain ⟨s5, e9, e2⟩ := bind_ok e2
        cases e2
        have t4 := hT.comp t3 (hT.q _ _ _ (.put _ _ _ { p1 with events := [] } (get_ok e5) ⟨rfl, rfl, rfl, rfl⟩ shrinks))
        have t5 := hT.comp t4 (unregAll_emits hT hh _ _ _ _ (hT.inv _ _ _ hi t4) e6)
        have i5 := hT.inv _ _ _ hi t5
        have hnot : o ∉ l := eraseIdFrom_not (get_ok e7) i5.nodup (fun i him q hq ho hid => i5.inj i him o ho q p2 hq (get_ok e7) hid) e8
        have t6 := hT.comp t5 (hT.q _ _ _ (.erase _ l (eraseIdFrom_sub e8)))
        have i6 := hT.inv _ _ _ hi t6
        have t7 := shUnload_emits hT _ _ true i6 (fun _ => hnot) (i5.lt (get_ok e7)) (fun h => (nomatch h)) e9
        exact Steps.gone t7 i6 (i5.lt (get_ok e7)) hnot
      · cases e2
    · obtain ⟨l, e4, e2⟩ := bind_ok e2
      cases e2
      exact eraseIdFrom_not (get_ok e3') hi.nodup (fun i him q hq ho hid => hi.inj i him o ho q p' hq (get_ok e3') hid) e4
  · cases e
    rename_i hb
    exact absurd rfl hb

/-! ### Examples -/

/-- Load, add a hook, pause, resume with a refusal, pause again. -/
def statusExample : Scr :=
  .op (.load [97] (good 10)) (onLoad 0 (.op (.addHook 0) yes (.ret true)))
    (.op (.pause 1) yes (.op (.unpause 1) no (.op (.unpause 1) yes (.op (.pause 1) yes (.ret true)))))

/-- History and hooks of a result. -/
def resStatus (o : Nat) : R (St × Bool) → Option (Option Status × List (Status × Status) × List (Bool × Bool))
  | .ok (s, _) => some ((s.objs o).map Plug.status, changes o s.log, s.hooks.map (fun k => (k.paused, k.late)))
  | .error _ => none

/-- The theorems apply to a plugin with a history of four changes and a hook that is paused. -/
example : Scr.Ok false statusExample ∧ resStatus 0 (exec 10 statusExample init) =
    some (some .paused, [(.uninit, .running), (.running, .paused), (.paused, .running), (.running, .paused)], [(true, false)]) := by
  refine ⟨⟨fun c n => ?_, fun c n => trivial, fun c n => trivial, fun c n => trivial, fun c n => trivial, trivial⟩, by rfl⟩
  unfold onLoad
  split
  · split
    · exact ⟨fun c n => trivial, trivial⟩
    · trivial
  · trivial

/-- Status and paused flags after a refused unload and a forced one. -/
example : resStatus 0 (exec 10 (.op (.load [97] (good 10)) yes (.op (.unload 1 false) no (.ret true))) init) =
    some (some .running, [(.uninit, .running)], []) ∧
    resStatus 0 (exec 10 (.op (.load [97] (good 10)) yes (.op (.unload 1 true) no (.ret true))) init) =
    some (none, [(.uninit, .running)], []) := ⟨by rfl, by rfl⟩

/-! ### What is false -/

/-- C28 is false for hooks added while the plugin is paused: they are called. -/
theorem late_hook_active : resStatus 0 (exec 10 (.op (.load [97] (good 10)) yes (.op (.pause 1) yes (.op (.addHook 0) yes (.ret true)))) init) =
    some (some .paused, [(.uninit, .running), (.running, .paused)], [(false, true)]) := by rfl

/-- C28 is false after a successful `Retry`: pausing the plugin does not pause its hooks, as they are owned
by another id (core/metamod_plugins.cpp:312-313). -/
theorem retry_pause_misses : resStatus 1 (exec 10 (.op (.load [97] (good 10)) no (.op (.retry 1 (good 11)) (onLoad 1 (.op (.addHook 1) yes (.ret true)))
    (.op (.pause 1) yes (.ret true)))) init) = some (some .paused, [(.uninit, .running), (.running, .paused)], [(false, false)]) := by rfl

#print axioms status_life_partial
#print axioms status_cause_partial
#print axioms hooks_paused_partial
#print axioms pause_no
#print axioms unpause_no
#print axioms unload_no
#print axioms unload_yes_partial
#print axioms late_hook_active
#print axioms retry_pause_misses

end Verif.Mgr
