import Verif.Mgr.Model
/-
The atomic changes of the plugin manager's state.  Every execution of the model,
with all callbacks, is a sequence of these (Verif.Mgr.Sound).
-/
namespace Verif.Mgr

/-- Reflexive transitive closure. -/
inductive RTG {α : Type} (P : α → α → Prop) : α → α → Prop
  | refl (a : α) : RTG P a a
  | tail {a b c : α} : RTG P a b → P b c → RTG P a c

theorem RTG.single {α : Type} {P : α → α → Prop} {a b : α} (h : P a b) : RTG P a b := .tail (.refl a) h

theorem RTG.trans {α : Type} {P : α → α → Prop} {a b c : α} (h : RTG P a b) (g : RTG P b c) : RTG P a c := by
  induction g with
  | refl => exact h
  | tail _ p ih => exact .tail ih p

theorem RTG.mono {α : Type} {P Q : α → α → Prop} (hpq : ∀ a b, P a b → Q a b) {a b : α} (h : RTG P a b) : RTG Q a b := by
  induction h with
  | refl => exact .refl _
  | tail _ p ih => exact .tail ih (hpq _ _ p)

/-- Log entries without a meaning for the invariants. -/
def Plain : Ev → Prop
  | .status _ _ _ => False
  | .call (.allLoaded _) => False
  | _ => True

/-- The loaded states. -/
def Loaded (st : Status) : Prop := st = .running ∨ st = .paused

/-- The states of a failed load. -/
def Failed (st : Status) : Prop := st = .notFound ∨ st = .error ∨ st = .refused

instance (st : Status) : Decidable (Loaded st) := inferInstanceAs (Decidable (_ ∨ _))
instance (st : Status) : Decidable (Failed st) := inferInstanceAs (Decidable (_ ∨ _))

/-- Objects that agree in what the invariants speak about. -/
structure Same (p p' : Plug) : Prop where
  id : p'.id = p.id
  file : p'.file = p.file
  status : p'.status = p.status
  given : p'.given = p.given

/-- The lists of a plugin get no new nodes; only a failed plugin loses its library. -/
structure Shrinks (p p' : Plug) : Prop where
  keep : (p'.api = p.api ∧ p'.lib = p.lib) ∨ Failed p.status
  events : p'.events.Sublist p.events
  cvars : p'.cvars.Sublist p.cvars
  cmds : p'.cmds.Sublist p.cmds

/-- The lists of a plugin get at most the new node `n`. -/
structure Grows (n v : Nat) (p p' : Plug) : Prop where
  keep : p'.api = p.api ∧ p'.lib = p.lib
  events : p'.events.Sublist (p.events ++ [(n, v)])
  cvars : p'.cvars.Sublist (p.cvars ++ [(n, v)])
  cmds : p'.cmds.Sublist (p.cmds ++ [(n, v)])

/-- A pending unload is for an object that is not in the list, or whose load failed. -/
def PendOk (s : St) (x : Nat × Nat × Bool) : Prop :=
  x.2.1 < s.next ∧ (x.2.2 = true → x.2.1 ∉ s.plugins) ∧ (x.2.2 = false → ∀ p, s.objs x.2.1 = some p → Failed p.status)

/-- Changes that add no plugin.  With `a` also those of the announcement.  Loads that were
in progress when object `n` was the next one do not end. -/
inductive QPrim (a : Bool) (n : Nat) : St → St → Prop
  | note (s : St) (e : Ev) : Plain e → QPrim a n s (s.note e)
  | allCall (s : St) (o : Nat) (p : Plug) : a = true → s.objs o = some p → p.status = .running → s.allLoaded = true →
      s.log.count (.call (.allLoaded o)) = 0 → QPrim a n s (s.note (.call (.allLoaded o)))
  | setAll (s : St) : a = true → QPrim a n s { s with allLoaded := true }
  | put (s : St) (o : Nat) (p p' : Plug) : s.objs o = some p → Same p p' → Shrinks p p' → QPrim a n s (s.put o p')
  | addNode (s : St) (o v : Nat) (p p' : Plug) : s.objs o = some p → Same p p' → Grows s.next v p p' →
      QPrim a n s { s.put o p' with next := s.next + 1 }
  | loadDone (s : St) (o : Nat) (p : Plug) (st : Status) : n ≤ o → s.objs o = some p → p.status = .uninit → st = .running ∨ st = .refused →
      (∃ id late, s.log.getLast? = some (.ret (.load o id late) (st == .running))) →
      QPrim a n s ((s.put o { p with status := st }).note (.status o .uninit st))
  | paused (s : St) (o : Nat) (p : Plug) : s.objs o = some p → Loaded p.status → s.log.getLast? = some (.ret (.pause o) true) →
      QPrim a n s (({ s with hooks := pauseHooks p.id true s.hooks }.put o { p with status := .paused }).note (.status o p.status .paused))
  | unpaused (s : St) (o : Nat) (p : Plug) : s.objs o = some p → Loaded p.status → s.log.getLast? = some (.ret (.unpause o) true) →
      QPrim a n s (({ s with hooks := pauseHooks p.id false s.hooks }.put o { p with status := .running }).note (.status o p.status .running))
  | erase (s : St) (l : List Nat) : l.Sublist s.plugins → QPrim a n s { s with plugins := l }
  | free (s : St) (o : Nat) : o ∉ s.plugins → QPrim a n s { s with objs := upd s.objs o none }
  | hooksDrop (s : St) (f : Hook → Bool) : QPrim a n s { s with hooks := s.hooks.filter f }
  | hookAdd (s : St) (o : Nat) (p : Plug) : s.objs o = some p →
      QPrim a n s { s with hooks := s.hooks ++ [⟨s.next, p.given, false, p.status == .paused⟩], next := s.next + 1 }
  | bump (s : St) : QPrim a n s { s with next := s.next + 1 }
  | pend (s : St) (l : List (Nat × Nat × Bool)) : (∀ x ∈ l, x ∈ s.pending ∨ PendOk s x) →
      QPrim a n s { s with pending := l }
  | busy (s : St) (k : Nat) : QPrim a n s { s with busy := k }
  | alias (s : St) (l : List (List Byte × List Byte)) : QPrim a n s { s with aliases := l }

abbrev FSteps (a : Bool) (n : Nat) := RTG (QPrim a n)

/-- How `Retry` ends. -/
inductive Fin (A B id : Nat) : St → St → Prop
  | ok (s : St) (q : Plug) : s.objs B = some q → A ∉ s.plugins →
      Fin A B id s { s.put B { q with id := id } with lastId := s.lastId - 1 }
  | fail (s : St) : B ∉ s.plugins → Fin A B id s { s with lastId := s.lastId - 1 }

/-- All changes; with `r` also `Retry`, a composition. -/
inductive GPrim (r : Bool) (n : Nat) : St → St → Prop
  | quiet {s s' : St} : QPrim true n s s' → GPrim r n s s'
  | push (s : St) (file : List Byte) (o : Outcome) : (∀ a ∈ s.plugins, ∀ p, s.objs a = some p → samePath file p.file = false) →
      GPrim r n s (pushNew file o s)
  | retry {s s2 s3 : St} (A : Nat) (p : Plug) (o : Outcome) : r = true → A ∈ s.plugins → s.objs A = some p →
      FSteps true s.next (pushNew p.file o s) s2 → Fin A s.next p.id s2 s3 → GPrim r n s s3

abbrev Steps (r : Bool) (n : Nat) := RTG (GPrim r n)

theorem QPrim.mono {a b : Bool} {n m : Nat} {s s' : St} (hab : a = true → b = true) (hn : n ≤ m) (h : QPrim a m s s') : QPrim b n s s' := by
  cases h
  case note e h => exact .note _ _ h
  case allCall h1 h2 h3 h4 h5 => exact .allCall _ _ _ (hab h1) h2 h3 h4 h5
  case setAll h => exact .setAll _ (hab h)
  case put p h1 h2 h3 => exact .put _ _ _ _ h1 h2 h3
  case addNode v p p' h1 h2 h3 => exact .addNode _ _ v _ _ h1 h2 h3
  case loadDone h0 h1 h2 h3 h4 => exact .loadDone _ _ _ _ (Nat.le_trans hn h0) h1 h2 h3 h4
  case paused h1 h2 h3 => exact .paused _ _ _ h1 h2 h3
  case unpaused h1 h2 h3 => exact .unpaused _ _ _ h1 h2 h3
  case erase h => exact .erase _ _ h
  case free h => exact .free _ _ h
  case hooksDrop => exact .hooksDrop _ _
  case hookAdd h => exact .hookAdd _ _ _ h
  case bump => exact .bump _
  case pend h => exact .pend _ _ h
  case busy => exact .busy _ _
  case alias => exact .alias _ _

theorem GPrim.mono {r q : Bool} {n m : Nat} {s s' : St} (hr : r = true → q = true) (hn : n ≤ m) (h : GPrim r m s s') : GPrim q n s s' := by
  cases h with
  | quiet h => exact .quiet (h.mono (fun x => x) hn)
  | push f o h => exact .push _ f o h
  | retry A p o h h1 h2 h3 h4 => exact .retry A p o (hr h) h1 h2 h3 h4

/-! ### The basic invariant -/

/-- Identities: objects and list entries have been given out, ids of listed plugins are
different. -/
structure IdInv (s : St) : Prop where
  fresh : ∀ o, s.next ≤ o → s.objs o = none
  old : ∀ o ∈ s.plugins, o < s.next
  nodup : s.plugins.Nodup
  last : 1 ≤ s.lastId
  range : ∀ o ∈ s.plugins, ∀ p, s.objs o = some p → 1 ≤ p.id ∧ p.id < s.lastId
  inj : ∀ o ∈ s.plugins, ∀ o' ∈ s.plugins, ∀ p p', s.objs o = some p → s.objs o' = some p' → p.id = p'.id → o = o'
  /-- Everything that failed, runs or is paused got at most one announcement. -/
  once : ∀ o, s.log.count (.call (.allLoaded o)) ≤ 1
  /-- No announcement before its time, to nobody who is not yet loaded. -/
  early : ∀ o, s.log.count (.call (.allLoaded o)) ≠ 0 → s.allLoaded = true ∧ o < s.next ∧ ∀ p, s.objs o = some p → p.status ≠ .uninit
  /-- The list has no pointers to objects that are gone. -/
  live : ∀ o ∈ s.plugins, s.objs o ≠ none
  /-- Objects waiting for their end are not in the list. -/
  pend : ∀ x ∈ s.pending, PendOk s x

/-- What a callback cannot do. -/
structure Rel (s s' : St) : Prop where
  next : s.next ≤ s'.next
  dead : ∀ o, o < s.next → s.objs o = none → s'.objs o = none
  kept : ∀ o p p', s.objs o = some p → s'.objs o = some p' → p'.file = p.file ∧ p'.given = p.given ∧
    (p.status = .uninit → p'.status = .uninit) ∧ (Failed p.status → p'.status = p.status) ∧ (Loaded p.status → Loaded p'.status)
  calls : ∀ o, o < s.next → (∀ p, s.objs o = some p → p.status = .uninit) →
    s'.log.count (.call (.allLoaded o)) = s.log.count (.call (.allLoaded o))
  all : s.allLoaded = true → s'.allLoaded = true

theorem Rel.refl (s : St) : Rel s s where
  next := Nat.le_refl _
  dead _ _ h := h
  kept o p p' h h' := by
    rw [h] at h'; cases h'
    exact ⟨rfl, rfl, fun h => h, fun _ => rfl, fun h => h⟩
  calls _ _ _ := rfl
  all h := h

theorem IdInv.lt {s : St} (h : IdInv s) {o : Nat} {p : Plug} (hp : s.objs o = some p) : o < s.next := by
  rcases Nat.lt_or_ge o s.next with h1 | h1
  · exact h1
  · rw [h.fresh o h1] at hp; cases hp

theorem Rel.trans {s s' s'' : St} (hs : IdInv s) (h : Rel s s') (g : Rel s' s'') : Rel s s'' where
  next := Nat.le_trans h.next g.next
  dead o ho hn := g.dead o (Nat.lt_of_lt_of_le ho h.next) (h.dead o ho hn)
  kept o p p'' hp hp'' := by
    have ho := hs.lt hp
    cases hm : s'.objs o with
    | none => rw [g.dead o (Nat.lt_of_lt_of_le ho h.next) hm] at hp''; cases hp''
    | some p' =>
      obtain ⟨a1, a2, a3, a4, a5⟩ := h.kept o p p' hp hm
      obtain ⟨b1, b2, b3, b4, b5⟩ := g.kept o p' p'' hm hp''
      refine ⟨b1.trans a1, b2.trans a2, fun x => b3 (a3 x), fun x => ?_, fun x => b5 (a5 x)⟩
      have e := a4 x
      rw [b4 (by rw [e]; exact x), e]
  calls o ho hu := by
    have e1 := h.calls o ho hu
    rw [← e1]
    refine g.calls o (Nat.lt_of_lt_of_le ho h.next) (fun p' hm => ?_)
    cases hp : s.objs o with
    | none => rw [h.dead o ho hp] at hm; cases hm
    | some p => exact (h.kept o p p' hp hm).2.2.1 (hu p hp)
  all x := g.all (h.all x)

/-- What changes without new plugins keep. -/
structure QRel (a : Bool) (s s' : St) : Prop where
  sub : s'.plugins.Sublist s.plugins
  last : s'.lastId = s.lastId
  ids : ∀ o p p', s.objs o = some p → s'.objs o = some p' → p'.id = p.id
  dead : ∀ o, s.objs o = none → s'.objs o = none
  quiet : a = false → s'.allLoaded = s.allLoaded ∧ ∀ o, s'.log.count (.call (.allLoaded o)) = s.log.count (.call (.allLoaded o))

theorem QRel.refl (a : Bool) (s : St) : QRel a s s :=
  ⟨.refl _, rfl, fun o p p' h h' => by rw [h] at h'; cases h'; rfl, fun _ h => h, fun _ => ⟨rfl, fun _ => rfl⟩⟩

theorem QRel.trans {a : Bool} {s s' s'' : St} (h : QRel a s s') (g : QRel a s' s'') : QRel a s s'' where
  sub := g.sub.trans h.sub
  last := g.last.trans h.last
  ids o p p'' hp hp'' := by
    cases hm : s'.objs o with
    | none => rw [g.dead o hm] at hp''; cases hp''
    | some p' => rw [g.ids o p' p'' hm hp'', h.ids o p p' hp hm]
  dead o hn := g.dead o (h.dead o hn)
  quiet ha := ⟨(g.quiet ha).1.trans (h.quiet ha).1, fun o => ((g.quiet ha).2 o).trans ((h.quiet ha).2 o)⟩

/-! One step. -/

theorem upd_same {α : Type} (f : Nat → α) (k : Nat) (v : α) : upd f k v k = v := if_pos rfl
theorem upd_other {α : Type} {f : Nat → α} {k i : Nat} {v : α} (h : i ≠ k) : upd f k v i = f i := if_neg h

theorem count_plain {e : Ev} (h : Plain e) (l : List Ev) (o : Nat) :
    (l ++ [e]).count (.call (.allLoaded o)) = l.count (.call (.allLoaded o)) := by
  rw [List.count_append, List.count_eq_zero (l := [e]) |>.mpr]
  · rfl
  · intro hm
    rw [List.mem_singleton] at hm
    rw [← hm] at h
    exact h

theorem count_status (l : List Ev) (o o' : Nat) (a b : Status) :
    (l ++ [Ev.status o' a b]).count (.call (.allLoaded o)) = l.count (.call (.allLoaded o)) := by
  rw [List.count_append, List.count_eq_zero (l := [Ev.status o' a b]) |>.mpr]
  · rfl
  · intro hm; rw [List.mem_singleton] at hm; cases hm

/-- A change of one object that keeps id, file and id given, and its status class. -/
theorem objStep {a : Bool} {s s' : St} {o : Nat} {p p' : Plug} (hi : IdInv s) (hp : s.objs o = some p) (ho : s'.objs = upd s.objs o (some p'))
    (hid : p'.id = p.id) (_hf : p'.file = p.file) (_hg : p'.given = p.given)
    (hu : p.status ≠ .uninit → p'.status ≠ .uninit) (hfl : Failed p.status → Failed p'.status)
    (hl : s'.plugins = s.plugins) (hpd : s'.pending = s.pending) (hn : s.next ≤ s'.next) (hla : s'.lastId = s.lastId) (hall : s'.allLoaded = s.allLoaded)
    (hc : ∀ o, s'.log.count (.call (.allLoaded o)) = s.log.count (.call (.allLoaded o))) :
    IdInv s' ∧ QRel a s s' := by
  have hlt := hi.lt hp
  have hget : ∀ i q, s'.objs i = some q → ∃ q0, s.objs i = some q0 ∧ q.id = q0.id ∧ (q0.status ≠ .uninit → q.status ≠ .uninit) := by
    intro i q hq
    rw [ho] at hq
    by_cases h : i = o
    · subst h; rw [upd_same] at hq; cases hq; exact ⟨p, hp, hid, hu⟩
    · rw [upd_other h] at hq; exact ⟨q, hq, rfl, fun h => h⟩
  refine ⟨⟨?_, ?_, ?_, ?_, ?_, ?_, ?_, ?_, ?_, ?_⟩, ?_, ?_, ?_, ?_, ?_⟩
  · intro i hin
    rw [ho, upd_other (by omega)]; exact hi.fresh i (by omega)
  · intro i him; rw [hl] at him; have := hi.old i him; omega
  · rw [hl]; exact hi.nodup
  · rw [hla]; exact hi.last
  · intro i him q hq
    obtain ⟨q0, h0, e, _⟩ := hget i q hq
    rw [e, hla]; exact hi.range i (hl ▸ him) q0 h0
  · intro i him j hjm q q' hq hq' e
    obtain ⟨q0, h0, e0, _⟩ := hget i q hq
    obtain ⟨q1, h1, e1, _⟩ := hget j q' hq'
    exact hi.inj i (hl ▸ him) j (hl ▸ hjm) q0 q1 h0 h1 (by rw [← e0, ← e1, e])
  · intro i; rw [hc]; exact hi.once i
  · intro i hne
    rw [hc] at hne
    obtain ⟨h1, h2, h3⟩ := hi.early i hne
    refine ⟨hall.trans h1, by omega, fun q hq => ?_⟩
    obtain ⟨q0, h0, _, e⟩ := hget i q hq
    exact e (h3 q0 h0)
  · intro i him
    rw [ho]
    by_cases h : i = o
    · subst h; rw [upd_same]; exact fun h => (nomatch h)
    · rw [upd_other h]; exact hi.live i (hl ▸ him)
  · intro x hx
    rw [hpd] at hx
    obtain ⟨h1, h2, h3⟩ := hi.pend x hx
    refine ⟨by omega, fun ht => hl ▸ h2 ht, fun ht q hq => ?_⟩
    rw [ho] at hq
    by_cases h : x.2.1 = o
    · rw [h, upd_same] at hq; cases hq; rw [h] at h3; exact hfl (h3 ht p hp)
    · rw [upd_other h] at hq; exact h3 ht q hq
  · rw [hl]; exact .refl _
  · exact hla
  · intro i q q' hq hq'
    obtain ⟨q0, h0, e0, _⟩ := hget i q' hq'
    rw [hq] at h0; cases h0; exact e0
  · intro i hnn
    rw [ho]
    by_cases h : i = o
    · subst h; rw [hp] at hnn; cases hnn
    · rw [upd_other h]; exact hnn
  · exact fun _ => ⟨hall, hc⟩

/-- The relation part of `objStep`. -/
theorem objRel {s s' : St} {o : Nat} {p p' : Plug} (hp : s.objs o = some p) (ho : s'.objs = upd s.objs o (some p'))
    (hf : p'.file = p.file) (hg : p'.given = p.given)
    (h1 : p.status = .uninit → p'.status = .uninit) (h2 : Failed p.status → p'.status = p.status) (h3 : Loaded p.status → Loaded p'.status)
    (hn : s.next ≤ s'.next) (hall : s'.allLoaded = s.allLoaded)
    (hc : ∀ o, s'.log.count (.call (.allLoaded o)) = s.log.count (.call (.allLoaded o))) : Rel s s' where
  next := hn
  dead i _ hnn := by
    rw [ho]
    by_cases h : i = o
    · subst h; rw [hp] at hnn; cases hnn
    · rw [upd_other h]; exact hnn
  kept i q q' hq hq' := by
    rw [ho] at hq'
    by_cases h : i = o
    · subst h; rw [upd_same] at hq'; cases hq'; rw [hp] at hq; cases hq; exact ⟨hf, hg, h1, h2, h3⟩
    · rw [upd_other h, hq] at hq'; cases hq'; exact ⟨rfl, rfl, fun x => x, fun _ => rfl, fun x => x⟩
  calls i _ _ := hc i
  all x := hall.trans x

/-- Changes outside of the objects. -/
theorem sideStep {a : Bool} {s s' : St} (hi : IdInv s) (ho : s'.objs = s.objs) (hl : s'.plugins = s.plugins)
    (hpd : ∀ x ∈ s'.pending, x ∈ s.pending ∨ PendOk s x) (hn : s.next ≤ s'.next)
    (hla : s'.lastId = s.lastId) (hall : s'.allLoaded = s.allLoaded)
    (hc : ∀ o, s'.log.count (.call (.allLoaded o)) = s.log.count (.call (.allLoaded o))) : IdInv s' ∧ QRel a s s' := by
  refine ⟨⟨?_, ?_, ?_, ?_, ?_, ?_, ?_, ?_, ?_, ?_⟩, ?_, ?_, ?_, ?_, ?_⟩
  · intro i hin; rw [ho]; exact hi.fresh i (by omega)
  · intro i him; rw [hl] at him; have := hi.old i him; omega
  · rw [hl]; exact hi.nodup
  · rw [hla]; exact hi.last
  · rw [hl, ho, hla]; exact hi.range
  · rw [hl, ho]; exact hi.inj
  · intro i; rw [hc]; exact hi.once i
  · intro i hne
    rw [hc] at hne
    obtain ⟨h1, h2, h3⟩ := hi.early i hne
    exact ⟨hall.trans h1, by omega, by rw [ho]; exact h3⟩
  · rw [hl, ho]; exact hi.live
  · intro x hx
    have key : PendOk s x := (hpd x hx).elim (hi.pend x) (fun h => h)
    exact ⟨Nat.lt_of_lt_of_le key.1 hn, hl ▸ key.2.1, ho ▸ key.2.2⟩
  · rw [hl]; exact .refl _
  · exact hla
  · intro i q q' hq hq'
    rw [ho, hq] at hq'; cases hq'; rfl
  · intro i hnn; rw [ho]; exact hnn
  · exact fun _ => ⟨hall, hc⟩

theorem sideRel {s s' : St} (ho : s'.objs = s.objs) (hn : s.next ≤ s'.next) (hall : s'.allLoaded = s.allLoaded)
    (hc : ∀ o, s'.log.count (.call (.allLoaded o)) = s.log.count (.call (.allLoaded o))) : Rel s s' := by
  refine ⟨hn, ?_, ?_, fun i _ _ => hc i, fun x => hall.trans x⟩
  · intro i _ hnn; rw [ho]; exact hnn
  · intro i q q' hq hq'
    rw [ho, hq] at hq'; cases hq'; exact ⟨rfl, rfl, fun x => x, fun _ => rfl, fun x => x⟩

theorem QPrim.spec {a : Bool} {n : Nat} {s s' : St} (h : QPrim a n s s') (hi : IdInv s) : IdInv s' ∧ QRel a s s' := by
  cases h
  case note e h => exact sideStep hi rfl rfl (fun _ h => .inl h) (Nat.le_refl _) rfl rfl (count_plain h _)
  case allCall o p ha hp hr hall h0 =>
    have hlt := hi.lt hp
    refine ⟨⟨hi.fresh, hi.old, hi.nodup, hi.last, hi.range, hi.inj, ?_, ?_, hi.live, hi.pend⟩, .refl _, rfl, fun i p p' h h' => by
      rw [show (s.note _).objs i = s.objs i from rfl, h] at h'; cases h'; rfl, fun _ h => h, fun h => (nomatch ha.symm.trans h)⟩
    · intro i
      by_cases e : i = o
      · subst e
        show (s.log ++ [_]).count _ ≤ 1
        rw [List.count_append, h0]; simp
      · show (s.log ++ [_]).count _ ≤ 1
        rw [List.count_append, List.count_eq_zero (l := [_]) |>.mpr]
        · exact hi.once i
        · intro hm; rw [List.mem_singleton] at hm; injection hm with hm; injection hm with hm; exact e hm
    · intro i hne
      by_cases e : i = o
      · subst e
        exact ⟨hall, hlt, fun q hq => by rw [show (s.note _).objs i = s.objs i from rfl, hp] at hq; cases hq; rw [hr]; exact fun h => (nomatch h)⟩
      · refine hi.early i ?_
        have : (s.log ++ [Ev.call (.allLoaded o)]).count (.call (.allLoaded i)) = s.log.count (.call (.allLoaded i)) := by
          rw [List.count_append, List.count_eq_zero (l := [_]) |>.mpr]
          · rfl
          · intro hm; rw [List.mem_singleton] at hm; injection hm with hm; injection hm with hm; exact e hm
        rw [← this]; exact hne
  case setAll ha =>
    refine ⟨⟨hi.fresh, hi.old, hi.nodup, hi.last, hi.range, hi.inj, hi.once, ?_, hi.live, hi.pend⟩, .refl _, rfl, fun o p p' h h' => by
      rw [h] at h'; cases h'; rfl, fun _ h => h, fun h => (nomatch ha.symm.trans h)⟩
    intro i hne
    exact ⟨rfl, (hi.early i hne).2⟩
  case put o p p' hp hs _ => exact objStep hi hp rfl hs.id hs.file hs.given (by rw [hs.status]; exact fun h => h) (by rw [hs.status]; exact fun h => h) rfl rfl (Nat.le_refl _) rfl rfl (fun _ => rfl)
  case addNode o v p p' hp hs _ => exact objStep hi hp rfl hs.id hs.file hs.given (by rw [hs.status]; exact fun h => h) (by rw [hs.status]; exact fun h => h) rfl rfl (Nat.le_succ _) rfl rfl (fun _ => rfl)
  case loadDone o p st _ hp hu hst _ =>
    exact objStep hi hp rfl rfl rfl rfl (fun h => absurd hu h) (fun h => by rw [hu] at h; rcases h with h | h | h <;> cases h) rfl rfl (Nat.le_refl _) rfl rfl (fun i => count_status _ i _ _ _)
  case paused o p hp hl _ =>
    exact objStep hi hp rfl rfl rfl rfl (fun _ h => (nomatch h)) (fun h => by rcases hl with hl | hl <;> (rw [hl] at h; rcases h with h | h | h <;> cases h)) rfl rfl (Nat.le_refl _) rfl rfl (fun i => count_status _ i _ _ _)
  case unpaused o p hp hl _ =>
    exact objStep hi hp rfl rfl rfl rfl (fun _ h => (nomatch h)) (fun h => by rcases hl with hl | hl <;> (rw [hl] at h; rcases h with h | h | h <;> cases h)) rfl rfl (Nat.le_refl _) rfl rfl (fun i => count_status _ i _ _ _)
  case erase l hl =>
    refine ⟨⟨hi.fresh, fun o h => hi.old o (hl.subset h), hi.nodup.sublist hl, hi.last, fun o h => hi.range o (hl.subset h),
      fun o h o' h' => hi.inj o (hl.subset h) o' (hl.subset h'), hi.once, hi.early, fun o h => hi.live o (hl.subset h), fun x hx => ⟨(hi.pend x hx).1, fun ht hm => (hi.pend x hx).2.1 ht (hl.subset hm), (hi.pend x hx).2.2⟩⟩, hl, rfl, fun o p p' h h' => by
      rw [h] at h'; cases h'; rfl, fun _ h => h, fun _ => ⟨rfl, fun _ => rfl⟩⟩
  case free o hno =>
    have hget : ∀ i q, upd s.objs o none i = some q → s.objs i = some q := by
      intro i q hq
      by_cases h : i = o
      · subst h; rw [upd_same] at hq; cases hq
      · rwa [upd_other h] at hq
    refine ⟨⟨?_, hi.old, hi.nodup, hi.last, fun i h q hq => hi.range i h q (hget i q hq),
      fun i h j h' q q' hq hq' => hi.inj i h j h' q q' (hget i q hq) (hget j q' hq'), hi.once, fun i hne => ?_, fun i hm => by
        show upd s.objs o none i ≠ none
        have hm : i ∈ s.plugins := hm
        have hne : i ≠ o := fun e => hno (e ▸ hm)
        rw [upd_other hne]; exact hi.live i hm, fun x hx => ⟨(hi.pend x hx).1, (hi.pend x hx).2.1, fun ht q hq => (hi.pend x hx).2.2 ht q (hget _ _ hq)⟩⟩, .refl _, rfl, fun i p p' h h' => by
      rw [hget i _ h'] at h; cases h; rfl, fun i h => ?_, fun _ => ⟨rfl, fun _ => rfl⟩⟩
    · intro i hin
      show upd s.objs o none i = none
      by_cases h : i = o
      · subst h; exact upd_same _ _ _
      · rw [upd_other h]; exact hi.fresh i hin
    · obtain ⟨h1, h2, h3⟩ := hi.early i hne
      exact ⟨h1, h2, fun q hq => h3 q (hget i q hq)⟩
    · show upd s.objs o none i = none
      by_cases h' : i = o
      · subst h'; exact upd_same _ _ _
      · rw [upd_other h']; exact h
  case hooksDrop f => exact sideStep hi rfl rfl (fun _ h => .inl h) (Nat.le_refl _) rfl rfl (fun _ => rfl)
  case hookAdd o p hp => exact sideStep hi rfl rfl (fun _ h => .inl h) (Nat.le_succ _) rfl rfl (fun _ => rfl)
  case bump => exact sideStep hi rfl rfl (fun _ h => .inl h) (Nat.le_succ _) rfl rfl (fun _ => rfl)
  case pend h => exact sideStep hi rfl rfl h (Nat.le_refl _) rfl rfl (fun _ => rfl)
  case busy => exact sideStep hi rfl rfl (fun _ h => .inl h) (Nat.le_refl _) rfl rfl (fun _ => rfl)
  case alias => exact sideStep hi rfl rfl (fun _ h => .inl h) (Nat.le_refl _) rfl rfl (fun _ => rfl)

/-- Quiet changes keep to `Rel`, but for the end of a load. -/
theorem QPrim.rel {a : Bool} {n : Nat} {s s' : St} (h : QPrim a n s s') :
    Rel s s' ∨ ∃ o p st, n ≤ o ∧ s.objs o = some p ∧ s' = (s.put o { p with status := st }).note (.status o .uninit st) := by
  cases h
  case note e h => exact .inl <| sideRel rfl (Nat.le_refl _) rfl (count_plain h _)
  case allCall o p ha hp hr hall h0 =>
    refine .inl ⟨Nat.le_refl _, fun _ _ h => h, fun i q q' hq hq' => ?_, fun i _ hu => ?_, fun x => x⟩
    · rw [show (s.note _).objs i = s.objs i from rfl, hq] at hq'; cases hq'; exact ⟨rfl, rfl, fun x => x, fun _ => rfl, fun x => x⟩
    · show (s.log ++ [_]).count _ = _
      rw [List.count_append, List.count_eq_zero (l := [_]) |>.mpr]
      · rfl
      · intro hm; rw [List.mem_singleton] at hm; injection hm with hm; injection hm with hm
        subst hm; rw [hu p hp] at hr; cases hr
  case setAll ha =>
    exact .inl ⟨Nat.le_refl _, fun _ _ h => h, (Rel.refl s).kept, fun _ _ _ => rfl, fun _ => rfl⟩
  case put o p p' hp hs _ => exact .inl <| objRel hp rfl hs.file hs.given (by rw [hs.status]; exact fun h => h) (fun _ => hs.status) (by rw [hs.status]; exact fun h => h) (Nat.le_refl _) rfl (fun _ => rfl)
  case addNode o v p p' hp hs _ => exact .inl <| objRel hp rfl hs.file hs.given (by rw [hs.status]; exact fun h => h) (fun _ => hs.status) (by rw [hs.status]; exact fun h => h) (Nat.le_succ _) rfl (fun _ => rfl)
  case loadDone o p st ho hp hu hst _ =>
    exact .inr ⟨o, p, st, ho, hp, rfl⟩
  case paused o p hp hl _ =>
    exact .inl <| objRel hp rfl rfl rfl (fun h => by rw [h] at hl; rcases hl with hl | hl <;> cases hl) (fun h => by rcases hl with hl | hl <;> (rw [hl] at h; rcases h with h | h | h <;> cases h)) (fun _ => .inr rfl) (Nat.le_refl _) rfl (fun i => count_status _ i _ _ _)
  case unpaused o p hp hl _ =>
    exact .inl <| objRel hp rfl rfl rfl (fun h => by rw [h] at hl; rcases hl with hl | hl <;> cases hl) (fun h => by rcases hl with hl | hl <;> (rw [hl] at h; rcases h with h | h | h <;> cases h)) (fun _ => .inl rfl) (Nat.le_refl _) rfl (fun i => count_status _ i _ _ _)
  case erase l hl => exact .inl <| sideRel rfl (Nat.le_refl _) rfl (fun _ => rfl)
  case free o hno =>
    refine .inl ⟨Nat.le_refl _, fun i _ h => ?_, fun i q q' hq hq' => ?_, fun _ _ _ => rfl, fun x => x⟩
    · show upd s.objs o none i = none
      by_cases h' : i = o
      · subst h'; exact upd_same _ _ _
      · rw [upd_other h']; exact h
    · have hq' : upd s.objs o none i = some q' := hq'
      by_cases h' : i = o
      · subst h'; rw [upd_same] at hq'; cases hq'
      · rw [upd_other h', hq] at hq'; cases hq'; exact ⟨rfl, rfl, fun x => x, fun _ => rfl, fun x => x⟩
  case hooksDrop f => exact .inl <| sideRel rfl (Nat.le_refl _) rfl (fun _ => rfl)
  case hookAdd o p hp => exact .inl <| sideRel rfl (Nat.le_succ _) rfl (fun _ => rfl)
  case bump => exact .inl <| sideRel rfl (Nat.le_succ _) rfl (fun _ => rfl)
  case pend => exact .inl <| sideRel rfl (Nat.le_refl _) rfl (fun _ => rfl)
  case busy => exact .inl <| sideRel rfl (Nat.le_refl _) rfl (fun _ => rfl)
  case alias => exact .inl <| sideRel rfl (Nat.le_refl _) rfl (fun _ => rfl)

/-- Steps from `s` keep to `Rel` with an earlier state `s0` if loads in progress at `s0` do not
end. -/
theorem QPrim.relFrom {a : Bool} {n : Nat} {s0 s s' : St} (h : QPrim a n s s') (hn : s0.next ≤ n) (hi0 : IdInv s0) (hi : IdInv s)
    (hr : Rel s0 s) : Rel s0 s' := by
  rcases h.rel with h | ⟨o, p, st, ho, hp, rfl⟩
  · exact hr.trans hi0 h
  · refine ⟨hr.next, fun i hi' hnn => ?_, fun i q q' hq hq' => ?_, fun i hlt hu => ?_, hr.all⟩
    · show upd s.objs o _ i = none
      rw [upd_other (by omega)]; exact hr.dead i hi' hnn
    · have hlt := hi0.lt hq
      have hq' : upd s.objs o _ i = some q' := hq'
      rw [upd_other (by omega)] at hq'
      exact hr.kept i q q' hq hq'
    · rw [← hr.calls i hlt hu]
      exact count_status _ _ _ _ _

theorem FSteps.spec {a : Bool} {n : Nat} {s s' : St} (h : FSteps a n s s') (hi : IdInv s) : IdInv s' ∧ QRel a s s' := by
  induction h with
  | refl => exact ⟨hi, .refl _ _⟩
  | tail _ p ih =>
    obtain ⟨h1, h2⟩ := p.spec ih.1
    exact ⟨h1, ih.2.trans h2⟩

theorem FSteps.relFrom {a : Bool} {n : Nat} {s0 s s' : St} (h : FSteps a n s s') (hn : s0.next ≤ n) (hi0 : IdInv s0) (hi : IdInv s)
    (hr : Rel s0 s) : Rel s0 s' := by
  induction h with
  | refl => exact hr
  | tail g p ih => exact p.relFrom hn hi0 (FSteps.spec g hi).1 ih

theorem probe_id (p : Plug) (o : Outcome) : (probe p o).1.id = p.id ∧ (probe p o).1.file = p.file ∧ (probe p o).1.given = p.given := by
  unfold probe probeVersion probeClassic probeMms
  repeat' split
  all_goals simp_all

/-- `_Load` calls `Load` exactly if it has not set the status. -/
theorem probe_status (p : Plug) (o : Outcome) (h : p.status = .uninit) :
    ((probe p o).2 = true ∧ (probe p o).1.status = .uninit ∧ (probe p o).1.api.isSome ∧ (probe p o).1.lib.isSome) ∨
    ((probe p o).2 = false ∧ ((probe p o).1.status = .notFound ∨ (probe p o).1.status = .error)) := by
  unfold probe
  split
  · exact .inr ⟨rfl, .inl rfl⟩
  · split
    · exact .inr ⟨rfl, .inr rfl⟩
    · rename_i l _
      have hm : (probeMms { p with lib := some l, api := none, ver := o.ver } o).status = .uninit ∧
          (probeMms { p with lib := some l, api := none, ver := o.ver } o).lib = some l := by
        unfold probeMms; split <;> exact ⟨h, rfl⟩
      generalize probeMms { p with lib := some l, api := none, ver := o.ver } o = q at hm
      obtain ⟨h1, h2⟩ := hm
      have hc : ((probeClassic q o).status = .uninit ∧ (probeClassic q o).api.isSome ∧ (probeClassic q o).lib = some l) ∨
          ((probeClassic q o).api = none ∧ (probeClassic q o).status = .error) := by
        unfold probeClassic
        split
        · rename_i a ha; exact .inl ⟨h1, by rw [ha]; rfl, h2⟩
        · rename_i ha
          split
          · exact .inr ⟨ha, rfl⟩
          · exact .inr ⟨ha, rfl⟩
          · exact .inl ⟨h1, rfl, h2⟩
      generalize probeClassic q o = t at hc
      unfold probeVersion
      rcases hc with ⟨a1, a2, a3⟩ | ⟨a1, a2⟩
      · obtain ⟨x, hx⟩ := Option.isSome_iff_exists.mp a2
        rw [hx]
        dsimp only
        split
        · exact .inr ⟨rfl, .inr rfl⟩
        · split
          · exact .inr ⟨rfl, .inr rfl⟩
          · exact .inl ⟨rfl, a1, a2, by rw [a3]; rfl⟩
      · rw [a1]; exact .inr ⟨rfl, .inr a2⟩

theorem count_probeLog (l : List Ev) (o o' : Nat) (p : Plug) :
    (l ++ probeLog o' p).count (.call (.allLoaded o)) = l.count (.call (.allLoaded o)) := by
  unfold probeLog
  split
  · rw [List.append_nil]
  · exact count_status _ _ _ _ _

theorem pushNew_spec {s : St} (hi : IdInv s) (file : List Byte) (o : Outcome) : IdInv (pushNew file o s) ∧ Rel s (pushNew file o s) := by
  have hpi := probe_id (newPlug s.lastId file) o
  have hget : ∀ i q, (pushNew file o s).objs i = some q → (i = s.next ∧ q = (probe (newPlug s.lastId file) o).1) ∨ (i ≠ s.next ∧ s.objs i = some q) := by
    intro i q hq
    have hq : upd s.objs s.next _ i = some q := hq
    by_cases h : i = s.next
    · subst h; rw [upd_same] at hq; cases hq; exact .inl ⟨rfl, rfl⟩
    · rw [upd_other h] at hq; exact .inr ⟨h, hq⟩
  have hmem : ∀ i, i ∈ (pushNew file o s).plugins → i ∈ s.plugins ∨ i = s.next := by
    intro i hi
    simpa [pushNew] using hi
  refine ⟨⟨?_, ?_, ?_, ?_, ?_, ?_, ?_, ?_, ?_, ?_⟩, ⟨Nat.le_succ _, ?_, ?_, ?_, fun x => x⟩⟩
  · intro i hin
    have hin : s.next + 1 ≤ i := hin
    show upd s.objs s.next _ i = none
    rw [upd_other (by omega)]; exact hi.fresh i (by omega)
  · intro i him
    show i < s.next + 1
    rcases hmem i him with h | h
    · have := hi.old i h; omega
    · omega
  · show (s.plugins ++ [s.next]).Nodup
    rw [List.nodup_append]
    refine ⟨hi.nodup, List.pairwise_singleton _ _, fun a ha b hb => ?_⟩
    rw [List.mem_singleton] at hb
    have := hi.old a ha
    omega
  · exact Nat.le_succ_of_le hi.last
  · intro i him q hq
    show 1 ≤ q.id ∧ q.id < s.lastId + 1
    rcases hget i q hq with ⟨_, rfl⟩ | ⟨hne, hq⟩
    · rw [hpi.1]; show 1 ≤ s.lastId ∧ s.lastId < s.lastId + 1
      have := hi.last; omega
    · rcases hmem i him with h | h
      · have := hi.range i h q hq; omega
      · exact absurd h hne
  · intro i him j hjm q q' hq hq' e
    rcases hget i q hq with ⟨h1, rfl⟩ | ⟨hne, hq⟩ <;> rcases hget j q' hq' with ⟨h2, rfl⟩ | ⟨hne', hq'⟩
    · rw [h1, h2]
    · rcases hmem j hjm with h | h
      · have := (hi.range j h q' hq').2; rw [hpi.1] at e; have e : s.lastId = q'.id := e; omega
      · exact absurd h hne'
    · rcases hmem i him with h | h
      · have := (hi.range i h q hq).2; rw [hpi.1] at e; have e : q.id = s.lastId := e; omega
      · exact absurd h hne
    · rcases hmem i him with h | h <;> rcases hmem j hjm with h' | h'
      · exact hi.inj i h j h' q q' hq hq' e
      · exact absurd h' hne'
      · exact absurd h hne
      · exact absurd h hne
  · intro i
    show (s.log ++ _).count _ ≤ 1
    rw [count_probeLog]; exact hi.once i
  · intro i hne
    have hne : (s.log ++ probeLog s.next (probe (newPlug s.lastId file) o).1).count (.call (.allLoaded i)) ≠ 0 := hne
    rw [count_probeLog] at hne
    obtain ⟨h1, h2, h3⟩ := hi.early i hne
    refine ⟨h1, Nat.lt_succ_of_lt h2, fun q hq => ?_⟩
    rcases hget i q hq with ⟨h, _⟩ | ⟨_, hq⟩
    · omega
    · exact h3 q hq
  · intro i him
    show upd s.objs s.next _ i ≠ none
    by_cases h : i = s.next
    · subst h; rw [upd_same]; exact fun h => (nomatch h)
    · rw [upd_other h]; exact hi.live i ((hmem i him).resolve_right h)
  · intro x hx
    have this := hi.pend x hx
    refine ⟨Nat.lt_succ_of_lt this.1, fun ht hm => ?_, fun ht q hq => ?_⟩
    · rcases hmem _ hm with h | h
      · exact this.2.1 ht h
      · have := this.1; omega
    · rcases hget _ q hq with ⟨h, _⟩ | ⟨_, hq⟩
      · have := this.1; omega
      · exact this.2.2 ht q hq
  · intro i hlt hnn
    show upd s.objs s.next _ i = none
    rw [upd_other (by omega)]; exact hnn
  · intro i q q' hq hq'
    have hlt := hi.lt hq
    rcases hget i q' hq' with ⟨h, _⟩ | ⟨_, hq'⟩
    · omega
    · rw [hq] at hq'; cases hq'; exact ⟨rfl, rfl, fun x => x, fun _ => rfl, fun x => x⟩
  · intro i _ _
    exact count_probeLog _ _ _ _

/-- The state between the new load and the end of `Retry`. -/
theorem retry_spec {s s2 s3 : St} {A : Nat} {p : Plug} {o : Outcome} (hi : IdInv s) (hA : A ∈ s.plugins) (hp : s.objs A = some p)
    (hs : FSteps true s.next (pushNew p.file o s) s2) (hf : Fin A s.next p.id s2 s3) : IdInv s3 ∧ Rel s s3 := by
  obtain ⟨i1, r1⟩ := pushNew_spec hi p.file o
  obtain ⟨i2, q2⟩ := hs.spec i1
  have r2 := hs.relFrom (Nat.le_refl _) hi i1 r1
  have hlast : s2.lastId = s.lastId + 1 := q2.last
  have hlA := hi.lt hp
  have hprange := hi.range A hA p hp
  -- ids of the other plugins
  have hother : ∀ i ∈ s2.plugins, ∀ q, s2.objs i = some q → i ≠ s.next → i ∈ s.plugins ∧ ∃ q0, s.objs i = some q0 ∧ q.id = q0.id := by
    intro i him q hq hne
    have h1 : i ∈ s.plugins ++ [s.next] := q2.sub.subset him
    have h1 : i ∈ s.plugins := by
      rcases List.mem_append.mp h1 with h | h
      · exact h
      · exact absurd (List.mem_singleton.mp h) hne
    refine ⟨h1, ?_⟩
    have hlt := hi.old i h1
    cases h0 : (pushNew p.file o s).objs i with
    | none => rw [q2.dead i h0] at hq; cases hq
    | some q0 =>
      have h0' : s.objs i = some q0 := by
        have h0 : upd s.objs s.next _ i = some q0 := h0
        rwa [upd_other (by omega)] at h0
      exact ⟨q0, h0', q2.ids i q0 q h0 hq⟩
  cases hf with
  | ok q hB hnA =>
    have hget : ∀ i t, upd s2.objs s.next (some { q with id := p.id }) i = some t →
        (i = s.next ∧ t = { q with id := p.id }) ∨ (i ≠ s.next ∧ s2.objs i = some t) := by
      intro i t ht
      by_cases h : i = s.next
      · subst h; rw [upd_same] at ht; cases ht; exact .inl ⟨rfl, rfl⟩
      · rw [upd_other h] at ht; exact .inr ⟨h, ht⟩
    have hBlt := i2.lt hB
    refine ⟨⟨?_, i2.old, i2.nodup, ?_, ?_, ?_, i2.once, ?_, ?_, ?_⟩, ⟨r2.next, ?_, ?_, r2.calls, r2.all⟩⟩
    · intro i hin
      have hin : s2.next ≤ i := hin
      show upd s2.objs s.next _ i = none
      rw [upd_other (by omega)]; exact i2.fresh i hin
    · show 1 ≤ s2.lastId - 1
      have := hi.last; omega
    · intro i him t ht
      show 1 ≤ t.id ∧ t.id < s2.lastId - 1
      rcases hget i t ht with ⟨_, rfl⟩ | ⟨hne, ht⟩
      · show 1 ≤ p.id ∧ p.id < s2.lastId - 1
        omega
      · obtain ⟨h1, q0, h0, e⟩ := hother i him t ht hne
        have := hi.range i h1 q0 h0
        omega
    · have key : ∀ i ∈ s2.plugins, ∀ t, s2.objs i = some t → i ≠ s.next → t.id ≠ p.id := by
        intro i him t ht hne e
        obtain ⟨h1, q0, h0, e0⟩ := hother i him t ht hne
        have := hi.inj i h1 A hA q0 p h0 hp (by rw [← e0, e])
        subst this
        exact hnA him
      intro i him j hjm t t' ht ht' e
      rcases hget i t ht with ⟨h1, rfl⟩ | ⟨hne, ht⟩ <;> rcases hget j t' ht' with ⟨h2, rfl⟩ | ⟨hne', ht'⟩
      · rw [h1, h2]
      · exact absurd e.symm (key j hjm t' ht' hne')
      · exact absurd e (key i him t ht hne)
      · exact i2.inj i him j hjm t t' ht ht' e
    · intro i hne
      obtain ⟨h1, h2, h3⟩ := i2.early i hne
      refine ⟨h1, h2, fun t ht => ?_⟩
      rcases hget i t ht with ⟨rfl, rfl⟩ | ⟨_, ht⟩
      · exact h3 q hB
      · exact h3 t ht
    · intro i him
      show upd s2.objs s.next _ i ≠ none
      by_cases h : i = s.next
      · subst h; rw [upd_same]; exact fun h => (nomatch h)
      · rw [upd_other h]; exact i2.live i him
    · intro x hx
      refine ⟨(i2.pend x hx).1, (i2.pend x hx).2.1, fun ht t ht' => ?_⟩
      rcases hget _ t ht' with ⟨h, rfl⟩ | ⟨_, ht'⟩
      · exact (i2.pend x hx).2.2 ht q (by rw [h]; exact hB)
      · exact (i2.pend x hx).2.2 ht t ht'
    · intro i hlt hnn
      show upd s2.objs s.next _ i = none
      rw [upd_other (by omega)]; exact r2.dead i hlt hnn
    · intro i t t' ht ht'
      have hlt := hi.lt ht
      rcases hget i t' ht' with ⟨h, _⟩ | ⟨_, ht'⟩
      · omega
      · exact r2.kept i t t' ht ht'
  | fail hnB =>
    refine ⟨⟨i2.fresh, i2.old, i2.nodup, ?_, ?_, i2.inj, i2.once, i2.early, i2.live, i2.pend⟩, ⟨r2.next, r2.dead, r2.kept, r2.calls, r2.all⟩⟩
    · show 1 ≤ s2.lastId - 1
      have := hi.last; omega
    · intro i him t ht
      show 1 ≤ t.id ∧ t.id < s2.lastId - 1
      obtain ⟨h1, q0, h0, e⟩ := hother i him t ht (fun h => hnB (h ▸ him))
      have := hi.range i h1 q0 h0
      omega

theorem GPrim.spec {r : Bool} {n : Nat} {s0 s s' : St} (h : GPrim r n s s') (hn : s0.next ≤ n) (hi0 : IdInv s0) (hi : IdInv s)
    (hr : Rel s0 s) : IdInv s' ∧ Rel s0 s' := by
  cases h with
  | quiet h => exact ⟨(h.spec hi).1, h.relFrom hn hi0 hi hr⟩
  | push f o h => exact ⟨(pushNew_spec hi f o).1, hr.trans hi0 (pushNew_spec hi f o).2⟩
  | retry A p o h h1 h2 h3 h4 =>
    obtain ⟨i3, r3⟩ := retry_spec hi h1 h2 h3 h4
    exact ⟨i3, hr.trans hi0 r3⟩

theorem Steps.specFrom {r : Bool} {n : Nat} {s0 s s' : St} (h : Steps r n s s') (hn : s0.next ≤ n) (hi0 : IdInv s0) (hi : IdInv s)
    (hr : Rel s0 s) : IdInv s' ∧ Rel s0 s' := by
  induction h with
  | refl => exact ⟨hi, hr⟩
  | tail _ p ih => exact p.spec hn hi0 ih.1 ih.2

end Verif.Mgr
