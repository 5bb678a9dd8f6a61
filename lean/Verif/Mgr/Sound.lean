import Verif.Mgr.Steps
/-
Every execution is a sequence of the atomic changes of Verif.Mgr.Steps.
-/
namespace Verif.Mgr

theorem bind_ok {α β : Type} {x : R α} {f : α → R β} {b : β} (h : (x >>= f) = .ok b) : ∃ a, x = .ok a ∧ f a = .ok b := by
  cases x with
  | error e => cases h
  | ok a => exact ⟨a, rfl, h⟩

theorem get_ok {s : St} {o : Nat} {p : Plug} (h : s.get o = .ok p) : s.objs o = some p := by
  unfold St.get at h
  split at h
  · cases h
  · rename_i e; cases h; exact e

theorem get_of {s : St} {o : Nat} {p : Plug} (h : s.objs o = some p) : s.get o = .ok p := by
  unfold St.get; rw [h]

theorem init_inv : IdInv init where
  fresh _ _ := rfl
  old _ h := nomatch h
  nodup := List.nodup_nil
  last := Nat.le_refl _
  range _ h := nomatch h
  inj _ h := nomatch h
  once _ := Nat.zero_le _
  early _ h := absurd rfl h
  live _ h := nomatch h
  pend _ h := nomatch h

theorem init_rel (s : St) : Rel init s where
  next := Nat.zero_le _
  dead _ h := nomatch h
  kept _ _ _ h := nomatch h
  calls _ h := nomatch h
  all h := nomatch h

theorem QPrim.next {a : Bool} {n : Nat} {s s' : St} (h : QPrim a n s s') : s.next ≤ s'.next := by
  cases h <;> first | exact Nat.le_refl _ | exact Nat.le_succ _

theorem FSteps.next {a : Bool} {n : Nat} {s s' : St} (h : FSteps a n s s') : s.next ≤ s'.next := by
  induction h with
  | refl => exact Nat.le_refl _
  | tail _ p ih => exact Nat.le_trans ih p.next

theorem GPrim.next {r : Bool} {n : Nat} {s s' : St} (h : GPrim r n s s') : s.next ≤ s'.next := by
  cases h with
  | quiet h => exact h.next
  | push => exact Nat.le_succ _
  | retry A p o h h1 h2 h3 h4 =>
    have := FSteps.next h3
    have h0 : (pushNew p.file o s).next = s.next + 1 := rfl
    cases h4 with
    | ok => show s.next ≤ _; simp only [St.put]; omega
    | fail => show s.next ≤ _; simp only; omega

theorem Steps.next {r : Bool} {n : Nat} {s s' : St} (h : Steps r n s s') : s.next ≤ s'.next := by
  induction h with
  | refl => exact Nat.le_refl _
  | tail _ p ih => exact Nat.le_trans ih p.next

/-- A kind of sequences of changes. -/
structure Good (T : Nat → St → St → Prop) : Prop where
  refl : ∀ n s, T n s s
  trans : ∀ n a b c, T n a b → T n b c → T n a c
  q : ∀ n s s', QPrim false n s s' → T n s s'
  mono : ∀ n m s s', n ≤ m → T m s s' → T n s s'
  inv : ∀ n s s', IdInv s → T n s s' → IdInv s'
  next : ∀ n s s', T n s s' → s.next ≤ s'.next
  rel : ∀ n s0 s s', s0.next ≤ n → IdInv s0 → IdInv s → Rel s0 s → T n s s' → Rel s0 s'

theorem good_f (a : Bool) : Good (FSteps a) where
  refl _ s := .refl s
  trans _ _ _ _ h g := h.trans g
  q _ _ _ h := .single (QPrim.mono (a := false) (fun x => (nomatch x)) (Nat.le_refl _) h)
  mono _ _ _ _ hn h := RTG.mono (fun _ _ => QPrim.mono (fun x => x) hn) h
  inv _ _ _ hi h := (FSteps.spec h hi).1
  next _ _ _ h := FSteps.next h
  rel _ _ _ _ hn h0 hi hr h := FSteps.relFrom h hn h0 hi hr

theorem good_g (r : Bool) : Good (Steps r) where
  refl _ s := .refl s
  trans _ _ _ _ h g := h.trans g
  q _ _ _ h := .single (.quiet (QPrim.mono (a := false) (fun x => (nomatch x)) (Nat.le_refl _) h))
  mono _ _ _ _ hn h := RTG.mono (fun _ _ => GPrim.mono (fun x => x) hn) h
  inv _ s _ hi h := (Steps.specFrom h (Nat.zero_le _) init_inv hi (init_rel s)).1
  next _ _ _ h := Steps.next h
  rel _ _ _ _ hn h0 hi hr h := (Steps.specFrom h hn h0 hi hr).2

variable {T : Nat → St → St → Prop}

/-- Callbacks make such sequences. -/
def HOk (T : Nat → St → St → Prop) (h : Beh) : Prop :=
  ∀ c k s s' b, IdInv s → h c k s = .ok (s', b) → T s.next s s'

/-- The function makes such sequences. -/
def Emits (T : Nat → St → St → Prop) (f : St → R St) : Prop := ∀ s s', IdInv s → f s = .ok s' → T s.next s s'

theorem Good.comp (hT : Good T) {a b c : St} (h : T a.next a b) (g : T b.next b c) : T a.next a c :=
  hT.trans _ _ _ _ h (hT.mono _ _ _ _ (hT.next _ _ _ h) g)

theorem Good.comp' (hT : Good T) {n : Nat} {a b c : St} (hn : n ≤ a.next) (h : T n a b) (g : T b.next b c) : T n a c :=
  hT.trans _ _ _ _ h (hT.mono _ _ _ _ (Nat.le_trans hn (hT.next _ _ _ h)) g)

def NotAll : Call → Prop
  | .allLoaded _ => False
  | _ => True

theorem doCall_emits (hT : Good T) {h : Beh} (hh : HOk T h) {c : Call} (hc : NotAll c) {s s' : St} {b : Bool} (hi : IdInv s)
    (e : doCall h c s = .ok (s', b)) : T s.next s s' := by
  unfold doCall at e
  obtain ⟨⟨s1, b1⟩, e1, e2⟩ := bind_ok e
  cases e2
  have t0 : T s.next s (s.note (.call c)) := hT.q _ _ _ (.note _ _ (by cases c <;> trivial))
  have t1 := hh c _ _ _ _ (hT.inv _ _ _ hi t0) e1
  have t2 : T s1.next s1 (s1.note (.ret c b1)) := hT.q _ _ _ (.note _ _ trivial)
  exact hT.comp (hT.comp t0 t1) t2

theorem doCall_last {h : Beh} {c : Call} {s s' : St} {b : Bool} (e : doCall h c s = .ok (s', b)) : s'.log.getLast? = some (.ret c b) := by
  unfold doCall at e
  obtain ⟨⟨s1, b1⟩, e1, e2⟩ := bind_ok e
  cases e2
  show (s1.log ++ [_]).getLast? = _
  rw [List.getLast?_concat]

/-- Lists only get shorter. -/
syntax "shrinks" : term
macro_rules
  | `(shrinks) => `(by constructor <;> first | exact .inl ⟨rfl, rfl⟩ | exact List.Sublist.refl _ | exact List.nil_sublist _ | exact List.eraseP_sublist)

theorem evLoop_emits (hT : Good T) {h : Beh} (hh : HOk T h) {c : Nat → Call} (hc : ∀ l, NotAll (c l)) (oid : Nat) :
    ∀ (f : Nat) (x : Option Nat), Emits T (evLoop h c oid f x) := by
  intro f
  induction f with
  | zero =>
    intro x s s' hi e
    cases x with
    | none => cases e; exact hT.refl _ _
    | some nd => cases e
  | succ f ih =>
    intro x s s' hi e
    cases x with
    | none => cases e; exact hT.refl _ _
    | some nd =>
      rw [evLoop] at e
      obtain ⟨p, e1, e⟩ := bind_ok e
      obtain ⟨l, e2, e⟩ := bind_ok e
      obtain ⟨⟨s1, b⟩, e3, e⟩ := bind_ok e
      obtain ⟨p1, e4, e⟩ := bind_ok e
      obtain ⟨nx, e5, e⟩ := bind_ok e
      have t1 := doCall_emits hT hh (hc l) hi e3
      exact hT.comp t1 (ih nx _ _ (hT.inv _ _ _ hi t1) e)

theorem plLoop_emits (hT : Good T) {body : Nat → St → R St} (hb : ∀ o, Emits T (body o)) :
    ∀ (f : Nat) (x : Option Nat), Emits T (plLoop body f x) := by
  intro f
  induction f with
  | zero =>
    intro x s s' hi e
    cases x with
    | none => cases e; exact hT.refl _ _
    | some nd => cases e
  | succ f ih =>
    intro x s s' hi e
    cases x with
    | none => cases e; exact hT.refl _ _
    | some oid =>
      rw [plLoop] at e
      obtain ⟨s1, e1, e⟩ := bind_ok e
      obtain ⟨nx, e2, e⟩ := bind_ok e
      have t1 := hb oid _ _ hi e1
      exact hT.comp t1 (ih nx _ _ (hT.inv _ _ _ hi t1) e)

theorem plEvent_emits (hT : Good T) {h : Beh} (hh : HOk T h) (fuel : Nat) (ev : EvKind) (plid : St → R Nat) : Emits T (plEvent h fuel ev plid) := by
  intro s s' hi e
  refine plLoop_emits hT (fun o => ?_) _ _ s s' hi e
  intro s s' hi e
  unfold plEventBody at e
  obtain ⟨p, e1, e⟩ := bind_ok e
  obtain ⟨x, e2, e⟩ := bind_ok e
  split at e
  · cases e; exact hT.refl _ _
  · exact evLoop_emits hT hh (c := fun l => .event ev l x) (fun _ => trivial) o _ _ s s' hi e

theorem unlinkBody_emits (hT : Good T) {h : Beh} (hh : HOk T h) (fuel : Nat) {c : Nat → Call} (hc : ∀ l, NotAll (c l)) (o : Nat) :
    Emits T (unlinkBody h fuel c o) := by
  intro s s' hi e
  unfold unlinkBody at e
  obtain ⟨p, e1, e⟩ := bind_ok e
  obtain ⟨b, e2, e⟩ := bind_ok e
  split at e
  · cases e; exact hT.refl _ _
  · split at e
    · cases e
    · split at e
      · cases e; exact hT.refl _ _
      · exact evLoop_emits hT hh hc o _ _ s s' hi e

theorem unregVarId_emits (hT : Good T) {h : Beh} (hh : HOk T h) (fuel : Nat) (who : Option Nat) (id v : Nat) :
    Emits T (unregVarId h fuel who id v) := by
  intro s s' hi e
  unfold unregVarId at e
  obtain ⟨s1, e1, e⟩ := bind_ok e
  cases e
  have t1 := plLoop_emits hT (unlinkBody_emits hT hh fuel (c := fun l => .unlinkVar l id v) (fun _ => trivial)) _ _ _ _ hi e1
  exact hT.comp t1 (hT.q _ _ _ (.note _ _ trivial))

theorem unregCmdId_emits (hT : Good T) {h : Beh} (hh : HOk T h) (fuel : Nat) (who : Option Nat) (id v : Nat) :
    Emits T (unregCmdId h fuel who id v) := by
  intro s s' hi e
  unfold unregCmdId at e
  obtain ⟨s1, e1, e⟩ := bind_ok e
  cases e
  have t1 := plLoop_emits hT (unlinkBody_emits hT hh fuel (c := fun l => .unlinkCmd l id v) (fun _ => trivial)) _ _ _ _ hi e1
  exact hT.comp t1 (hT.q _ _ _ (.note _ _ trivial))

theorem varLoop_emits (hT : Good T) {h : Beh} (hh : HOk T h) (fuel oid : Nat) :
    ∀ (f : Nat) (x : Option Nat), Emits T (varLoop h fuel oid f x) := by
  intro f
  induction f with
  | zero =>
    intro x s s' hi e
    cases x with
    | none => cases e; exact hT.refl _ _
    | some nd => cases e
  | succ f ih =>
    intro x s s' hi e
    cases x with
    | none => cases e; exact hT.refl _ _
    | some nd =>
      rw [varLoop] at e
      obtain ⟨p, e1, e⟩ := bind_ok e
      obtain ⟨v, e2, e⟩ := bind_ok e
      obtain ⟨s1, e3, e⟩ := bind_ok e
      obtain ⟨p1, e4, e⟩ := bind_ok e
      obtain ⟨nx, e5, e⟩ := bind_ok e
      have t1 := unregVarId_emits hT hh _ _ _ _ _ _ hi e3
      exact hT.comp t1 (ih nx _ _ (hT.inv _ _ _ hi t1) e)

theorem cmdLoop_emits (hT : Good T) {h : Beh} (hh : HOk T h) (fuel oid : Nat) :
    ∀ (f : Nat) (x : Option Nat), Emits T (cmdLoop h fuel oid f x) := by
  intro f
  induction f with
  | zero =>
    intro x s s' hi e
    cases x with
    | none => cases e; exact hT.refl _ _
    | some nd => cases e
  | succ f ih =>
    intro x s s' hi e
    cases x with
    | none => cases e; exact hT.refl _ _
    | some nd =>
      rw [cmdLoop] at e
      obtain ⟨p, e1, e⟩ := bind_ok e
      obtain ⟨v, e2, e⟩ := bind_ok e
      obtain ⟨s1, e3, e⟩ := bind_ok e
      obtain ⟨p1, e4, e⟩ := bind_ok e
      obtain ⟨nx, e5, e⟩ := bind_ok e
      have t1 := unregCmdId_emits hT hh _ _ _ _ _ _ hi e3
      exact hT.comp t1 (ih nx _ _ (hT.inv _ _ _ hi t1) e)

theorem unregAll_emits (hT : Good T) {h : Beh} (hh : HOk T h) (fuel oid : Nat) : Emits T (unregAll h fuel oid) := by
  intro s s' hi e
  unfold unregAll at e
  obtain ⟨p, e1, e⟩ := bind_ok e
  obtain ⟨s1, e2, e⟩ := bind_ok e
  obtain ⟨p1, e3, e⟩ := bind_ok e
  obtain ⟨s2, e4, e⟩ := bind_ok e
  obtain ⟨p2, e5, e⟩ := bind_ok e
  cases e
  have t1 := varLoop_emits hT hh _ _ _ _ _ _ hi e2
  have t2 : T s1.next s1 (s1.put oid { p1 with cvars := [] }) := hT.q _ _ _ (.put _ _ _ _ (get_ok e3) ⟨rfl, rfl, rfl, rfl⟩ shrinks)
  have t12 := hT.comp t1 t2
  have t3 := cmdLoop_emits hT hh _ _ _ _ _ _ (hT.inv _ _ _ hi t12) e4
  exact hT.comp (hT.comp t12 t3) (hT.q _ _ _ (.put _ _ _ _ (get_ok e5) ⟨rfl, rfl, rfl, rfl⟩ shrinks))

theorem ready_emits (hT : Good T) (oid : Nat) (d : Bool) {s s' : St} (_hi : IdInv s) (hd : d = true → oid ∉ s.plugins)
    (hfl : d = false → ∀ p, s.objs oid = some p → Failed p.status)
    (e : ready oid d s = .ok s') : T s.next s s' := by
  unfold ready at e
  obtain ⟨p, e1, e⟩ := bind_ok e
  split at e
  · cases e
  · split at e
    · rename_i hdt
      cases e
      have t1 : T s.next s { s with objs := upd s.objs oid none } := hT.q _ _ _ (.free _ _ (hd hdt))
      have t2 := hT.comp t1 (hT.q _ _ _ (.note _ (.ready oid) trivial))
      have t3 := hT.comp t2 (hT.q _ _ _ (.note _ (.freed oid) trivial))
      have : (({ s with objs := upd s.objs oid none } : St).note (.ready oid)).note (.freed oid) =
          { s with objs := upd s.objs oid none, log := s.log ++ [.ready oid, .freed oid] } := by
        simp [St.note]
      rwa [this] at t3
    · rename_i hdt
      cases e
      exact hT.comp (hT.q _ _ _ (.put _ _ _ { p with lib := none, api := none } (get_ok e1) ⟨rfl, rfl, rfl, rfl⟩
        ⟨.inr (hfl (by simpa using hdt) p (get_ok e1)), .refl _, .refl _, .refl _⟩)) (hT.q _ _ _ (.note _ (.ready oid) trivial))

theorem shUnload_emits (hT : Good T) (id oid : Nat) (d : Bool) {s s' : St} (hi : IdInv s) (hd : d = true → oid ∉ s.plugins) (hlt : oid < s.next)
    (hfl : d = false → ∀ p, s.objs oid = some p → Failed p.status)
    (e : shUnload id oid d s = .ok s') : T s.next s s' := by
  unfold shUnload at e
  have t1 : T s.next s { s with hooks := s.hooks.filter (fun k => k.owner != id) } := hT.q _ _ _ (.hooksDrop _ _)
  have t2 := hT.comp t1 (hT.q _ _ _ (.note _ (.shUnload id) trivial))
  dsimp only at e
  split at e
  · exact hT.comp t2 (ready_emits hT _ _ (hT.inv _ _ _ hi t2) hd hfl e)
  · cases e
    refine hT.comp t2 (hT.q _ _ _ (.pend _ _ (fun x hx => ?_)))
    rcases List.mem_append.mp hx with h | h
    · exact .inl h
    · rw [List.mem_singleton] at h; subst h; exact .inr ⟨hlt, hd, hfl⟩

theorem eraseIdFrom_sub {s : St} {id : Nat} : ∀ {l l' : List Nat}, eraseIdFrom s id l = .ok l' → l'.Sublist l := by
  intro l
  induction l with
  | nil => intro l' e; cases e; exact .refl _
  | cons o os ih =>
    intro l' e
    rw [eraseIdFrom] at e
    obtain ⟨p, e1, e⟩ := bind_ok e
    split at e
    · cases e; exact List.sublist_cons_self _ _
    · obtain ⟨t, e2, e⟩ := bind_ok e
      cases e
      exact (ih e2).cons_cons _

/-- The entry that goes is the one of the plugin, as ids differ. -/
theorem eraseIdFrom_not {s : St} {o : Nat} {p : Plug} (hp : s.objs o = some p) :
    ∀ {l l' : List Nat}, l.Nodup → (∀ i ∈ l, ∀ q, s.objs i = some q → o ∈ l → q.id = p.id → i = o) → eraseIdFrom s p.id l = .ok l' → o ∉ l' := by
  intro l
  induction l with
  | nil => intro l' _ _ e; cases e; simp
  | cons x xs ih =>
    intro l' hn hinj e
    rw [eraseIdFrom] at e
    obtain ⟨q, e1, e⟩ := bind_ok e
    rw [List.nodup_cons] at hn
    split at e
    · rename_i hid
      cases e
      intro hmem
      have := hinj x (.head _) q (get_ok e1) (.tail _ hmem) hid
      subst this
      exact hn.1 hmem
    · rename_i hid
      obtain ⟨t, e2, e⟩ := bind_ok e
      cases e
      intro hmem
      rcases List.mem_cons.mp hmem with h | h
      · subst h
        have e1 := get_ok e1
        rw [hp] at e1; cases e1
        exact hid rfl
      · exact ih hn.2 (fun i him q hq ho => hinj i (.tail _ him) q hq (.tail _ ho)) e2 h

theorem unload_emits_ (hT : Good T) {h : Beh} (hh : HOk T h) (fuel oid : Nat) (force : Bool) {s s' : St} {b : Bool} (hi : IdInv s)
    (e : unload_ h fuel oid force s = .ok (s', b)) : T s.next s s' := by
  unfold unload_ at e
  obtain ⟨p, e1, e⟩ := bind_ok e
  split at e
  · obtain ⟨⟨s1, b1⟩, e2, e⟩ := bind_ok e
    have t1 := doCall_emits hT hh (c := .unload oid) trivial hi e2
    dsimp only at e
    split at e
    · obtain ⟨p1, e3, e⟩ := bind_ok e
      obtain ⟨s2, e4, e⟩ := bind_ok e
      obtain ⟨p2, e5, e⟩ := bind_ok e
      obtain ⟨l, e6, e⟩ := bind_ok e
      obtain ⟨s3, e7, e⟩ := bind_ok e
      cases e
      have t2 := hT.comp t1 (hT.q _ _ _ (.put _ _ _ { p1 with events := [] } (get_ok e3) ⟨rfl, rfl, rfl, rfl⟩ shrinks))
      have t3 := hT.comp t2 (unregAll_emits hT hh _ _ _ _ (hT.inv _ _ _ hi t2) e4)
      have i3 := hT.inv _ _ _ hi t3
      have hnot : oid ∉ l := eraseIdFrom_not (get_ok e5) i3.nodup (fun i him q hq ho hid => i3.inj i him oid ho q p2 hq (get_ok e5) hid) e6
      have t4 := hT.comp t3 (hT.q _ _ _ (.erase _ l (eraseIdFrom_sub e6)))
      exact hT.comp t4 (shUnload_emits hT _ _ true (hT.inv _ _ _ hi t4) (fun _ => hnot) (i3.lt (get_ok e5)) (fun h => (nomatch h)) e7)
    · cases e; exact t1
  · obtain ⟨l, e2, e⟩ := bind_ok e
    cases e
    have t1 : T s.next s { s with plugins := l } := hT.q _ _ _ (.erase _ l (eraseIdFrom_sub e2))
    have hnot : oid ∉ l := eraseIdFrom_not (get_ok e1) hi.nodup (fun i him q hq ho hid => hi.inj i him oid ho q p hq (get_ok e1) hid) e2
    have t2 := hT.comp t1 (hT.q _ _ _ (.free _ oid hnot))
    exact hT.comp t2 (hT.q _ _ _ (.note _ (.freed oid) trivial))

/-- `_Unload` that says yes has removed the plugin from the list. -/
theorem unload_gone {a : Bool} {h : Beh} (hh : HOk (FSteps a) h) {fuel oid : Nat} {force : Bool} {s s' : St} (hi : IdInv s)
    (e : unload_ h fuel oid force s = .ok (s', true)) : oid ∉ s'.plugins := by
  have hT := good_f a
  unfold unload_ at e
  obtain ⟨p, e1, e⟩ := bind_ok e
  split at e
  · obtain ⟨⟨s1, b1⟩, e2, e⟩ := bind_ok e
    have t1 := doCall_emits hT hh (c := .unload oid) trivial hi e2
    dsimp only at e
    split at e
    · obtain ⟨p1, e3, e⟩ := bind_ok e
      obtain ⟨s2, e4, e⟩ := bind_ok e
      obtain ⟨p2, e5, e⟩ := bind_ok e
      obtain ⟨l, e6, e⟩ := bind_ok e
      obtain ⟨s3, e7, e⟩ := bind_ok e
      cases e
      have t2 := hT.comp t1 (hT.q _ _ _ (.put _ _ _ { p1 with events := [] } (get_ok e3) ⟨rfl, rfl, rfl, rfl⟩ shrinks))
      have t3 := hT.comp t2 (unregAll_emits hT hh _ _ _ _ (hT.inv _ _ _ hi t2) e4)
      have i3 := hT.inv _ _ _ hi t3
      have t4 := hT.comp t3 (hT.q _ _ _ (.erase _ l (eraseIdFrom_sub e6)))
      have i4 := hT.inv _ _ _ hi t4
      have hnot : oid ∉ l := eraseIdFrom_not (get_ok e5) i3.nodup (fun i him q hq ho hid => i3.inj i him oid ho q p2 hq (get_ok e5) hid) e6
      have t5 := shUnload_emits hT _ _ true i4 (fun _ => hnot) (i3.lt (get_ok e5)) (fun h => (nomatch h)) e7
      exact fun hm => hnot ((FSteps.spec t5 i4).2.sub.subset hm)
    · cases e
  · obtain ⟨l, e2, e⟩ := bind_ok e
    cases e
    exact eraseIdFrom_not (get_ok e1) hi.nodup (fun i him q hq ho hid => hi.inj i him oid ho q p hq (get_ok e1) hid) e2

theorem setStatus_note {s s' : St} {oid : Nat} {st : Status} (e : setStatus oid st s = .ok s') :
    ∃ p, s.objs oid = some p ∧ s' = (s.put oid { p with status := st }).note (.status oid p.status st) := by
  unfold setStatus at e
  obtain ⟨p, e1, e⟩ := bind_ok e
  cases e
  exact ⟨p, get_ok e1, rfl⟩

/-! ### Loading -/

/-- Also the announcement. -/
structure GoodA (T : Nat → St → St → Prop) : Prop extends Good T where
  all : ∀ n s s', QPrim true n s s' → T n s s'

theorem goodA_f : GoodA (FSteps true) := { good_f true with all := fun _ _ _ h => .single h }
theorem goodA_g (r : Bool) : GoodA (Steps r) := { good_g r with all := fun _ _ _ h => .single (.quiet h) }

theorem HOk.mono {U : Nat → St → St → Prop} (hTU : ∀ n s s', T n s s' → U n s s') {h : Beh} (hh : HOk T h) : HOk U h :=
  fun c k s s' b hi e => hTU _ _ _ (hh c k s s' b hi e)

/-- Announcement to one plugin. -/
theorem allCall_emits (hT : GoodA T) {h : Beh} (hh : HOk T h) {s s' : St} {b : Bool} {o : Nat} {p : Plug} (hi : IdInv s)
    (hp : s.objs o = some p) (hr : p.status = .running) (hall : s.allLoaded = true) (h0 : s.log.count (.call (.allLoaded o)) = 0)
    (e : doCall h (.allLoaded o) s = .ok (s', b)) : T s.next s s' := by
  unfold doCall at e
  obtain ⟨⟨s1, b1⟩, e1, e2⟩ := bind_ok e
  cases e2
  have t0 : T s.next s (s.note (.call (.allLoaded o))) := hT.all _ _ _ (.allCall _ _ _ rfl hp hr hall h0)
  have t1 := hh _ _ _ _ _ (hT.inv _ _ _ hi t0) e1
  have t2 : T s1.next s1 (s1.note (.ret (.allLoaded o) b1)) := hT.q _ _ _ (.note _ _ trivial)
  exact hT.comp (hT.comp t0 t1) t2

theorem runLoad_emits (hT : GoodA T) {h : Beh} (hh : HOk T h) {n oid id : Nat} {p : Plug} {s s' : St} (hi : IdInv s) (hp : s.objs oid = some p)
    (hu : p.status = .uninit) (hn : n ≤ oid) (e : runLoad h oid id s = .ok s') : T n s s' := by
  unfold runLoad at e
  obtain ⟨⟨s1, b1⟩, e1, e⟩ := bind_ok e
  have hlt := hi.lt hp
  have t1 := doCall_emits hT.toGood hh (c := .load oid id s.allLoaded) trivial hi e1
  have i1 := hT.inv _ _ _ hi t1
  have r1 := hT.rel _ s s s1 (Nat.le_refl _) hi hi (Rel.refl s) t1
  have t1 := hT.mono _ _ _ _ (show n ≤ s.next by omega) t1
  have hc : s1.log.count (.call (.allLoaded oid)) = 0 := by
    rw [r1.calls oid hlt (fun q hq => by rw [hp] at hq; cases hq; exact hu)]
    apply Classical.byContradiction
    intro hne
    exact (hi.early oid hne).2.2 p hp hu
  have hst : ∀ p1, s1.objs oid = some p1 → p1.status = .uninit := fun p1 h1 => (r1.kept oid p p1 hp h1).2.2.1 hu
  dsimp only at e
  have hlast := doCall_last e1
  split at e
  · rename_i hb1
    have hlast : ∃ id late, s1.log.getLast? = some (.ret (.load oid id late) (Status.running == .running)) := ⟨_, _, hb1 ▸ hlast⟩
    obtain ⟨s2, e2, e⟩ := bind_ok e
    obtain ⟨p1, hp1, rfl⟩ := setStatus_note e2
    rw [hst p1 hp1] at e
    have t2 : T n s1 ((s1.put oid { p1 with status := .running }).note (.status oid .uninit .running)) :=
      hT.q _ _ _ (.loadDone _ _ _ _ hn hp1 (hst p1 hp1) (.inl rfl) hlast)
    have t12 := hT.trans _ _ _ _ t1 t2
    split at e
    · rename_i hall
      obtain ⟨p2, e3, e⟩ := bind_ok e
      split at e
      · cases e
      · obtain ⟨⟨s3, b3⟩, e4, e⟩ := bind_ok e
        cases e
        have hp2 := get_ok e3
        have hp2' : upd s1.objs oid (some { p1 with status := .running }) oid = some p2 := hp2
        rw [upd_same] at hp2'
        cases hp2'
        refine hT.comp' (by omega) t12 (allCall_emits hT hh (hT.inv _ _ _ hi t12) hp2 rfl hall ?_ e4)
        exact (count_status _ _ _ _ _).trans hc
    · cases e; exact t12
  · rename_i hb1
    have hb1 : b1 = false := by simpa using hb1
    have hlast : ∃ id late, s1.log.getLast? = some (.ret (.load oid id late) (Status.refused == .running)) := ⟨_, _, hb1 ▸ hlast⟩
    obtain ⟨p1, hp1, rfl⟩ := setStatus_note e
    rw [hst p1 hp1]
    exact hT.trans _ _ _ _ t1 (hT.q _ _ _ (.loadDone _ _ _ _ hn hp1 (hst p1 hp1) (.inr rfl) hlast))

theorem belowPaused_ok {st : Status} {b : Bool} (h : belowPaused st = .ok b) : (b = true ∧ Failed st) ∨ (b = false ∧ Loaded st) := by
  cases st <;> cases h <;> simp [Failed, Loaded]

theorem loadCleanup_emits (hT : Good T) {h : Beh} (hh : HOk T h) (fuel oid : Nat) : Emits T (loadCleanup h fuel oid) := by
  intro s s' hi e
  unfold loadCleanup at e
  obtain ⟨p, e1, e⟩ := bind_ok e
  split at e
  · cases e; exact hT.refl _ _
  · obtain ⟨b, e2, e⟩ := bind_ok e
    split at e
    · rename_i hb
      obtain ⟨s1, e3, e⟩ := bind_ok e
      obtain ⟨p1, e4, e⟩ := bind_ok e
      have t1 : T s.next s (s.put oid { p with events := [] }) := hT.q _ _ _ (.put _ _ _ _ (get_ok e1) ⟨rfl, rfl, rfl, rfl⟩ shrinks)
      have t2 := hT.comp t1 (unregAll_emits hT hh _ _ _ _ (hT.inv _ _ _ hi t1) e3)
      have i1 := hT.inv _ _ _ hi t1
      have i2 := hT.inv _ _ _ hi t2
      have r2 := hT.rel _ _ _ _ (Nat.le_refl _) i1 i1 (Rel.refl _) (unregAll_emits hT hh _ _ _ _ i1 e3)
      have hfail : Failed p1.status := by
        rcases belowPaused_ok e2 with ⟨_, h⟩ | ⟨h, _⟩
        · have := (r2.kept oid { p with events := [] } p1 (upd_same _ _ _) (get_ok e4)).2.2.2.1 h
          rw [this]; exact h
        · rw [h] at hb; cases hb
      exact hT.comp t2 (shUnload_emits hT _ _ false i2 (fun h => (nomatch h)) (i2.lt (get_ok e4))
        (fun _ q hq => by rw [get_ok e4] at hq; cases hq; exact hfail) e)
    · cases e; exact hT.refl _ _

theorem pushNew_obj (file : List Byte) (o : Outcome) (s : St) :
    (pushNew file o s).objs s.next = some (probe (newPlug s.lastId file) o).1 := upd_same _ _ _

/-- `_Load` after the new object is in the list. -/
theorem load_emits_ (hT : GoodA T) {h : Beh} (hh : HOk T h) {fuel : Nat} {file : List Byte} {o : Outcome} {s s' : St} {oid : Nat} (hi : IdInv s)
    (e : load_ h fuel file o s = .ok (s', oid)) : oid = s.next ∧ T s.next (pushNew file o s) s' := by
  unfold load_ at e
  obtain ⟨s1, e1, e⟩ := bind_ok e
  obtain ⟨s2, e2, e⟩ := bind_ok e
  cases e
  refine ⟨rfl, ?_⟩
  have hi1 := (pushNew_spec hi file o).1
  have t1 : T s.next (pushNew file o s) s1 := by
    unfold loadRun at e1
    split at e1
    · rename_i hpr
      rcases probe_status (newPlug s.lastId file) o rfl with ⟨_, hu, _⟩ | ⟨hf, _⟩
      · exact runLoad_emits hT hh hi1 (pushNew_obj file o s) hu (Nat.le_refl _) e1
      · rw [hf] at hpr; cases hpr
    · cases e1; exact hT.refl _ _
  have i1 := hT.inv _ _ _ hi1 t1
  exact hT.comp' (Nat.le_succ _) t1 (loadCleanup_emits hT.toGood hh _ _ _ _ i1 e2)

theorem scan_spec {s : St} {file : List Byte} : ∀ {l kept : List Nat} {al : Bool} {x : List Nat × Bool × Option Nat},
    scan s file kept l al = .ok x → x.1.Sublist (kept ++ l) ∧
      (x.2.2 = none → ∀ a ∈ x.1, a ∈ kept ∨ ∀ p, s.objs a = some p → samePath file p.file = false) := by
  intro l
  induction l with
  | nil =>
    intro kept al x e
    cases e
    rw [List.append_nil]
    exact ⟨.refl _, fun _ a ha => .inl ha⟩
  | cons o os ih =>
    intro kept al x e
    rw [scan] at e
    obtain ⟨p, e1, e⟩ := bind_ok e
    split at e
    · obtain ⟨b, e2, e⟩ := bind_ok e
      split at e
      · obtain ⟨h1, h2⟩ := ih e
        exact ⟨h1.trans (List.Sublist.append (.refl _) (List.sublist_cons_self _ _)), h2⟩
      · cases e
        exact ⟨.refl _, fun h => (nomatch h)⟩
    · rename_i hsp
      obtain ⟨h1, h2⟩ := ih e
      rw [List.append_assoc] at h1
      refine ⟨h1, fun hx a ha => ?_⟩
      rcases h2 hx a ha with h | h
      · rcases List.mem_append.mp h with h | h
        · exact .inl h
        · rw [List.mem_singleton] at h
          subst h
          refine .inr (fun q hq => ?_)
          rw [get_ok e1] at hq; cases hq
          exact Bool.eq_false_iff.mpr hsp
      · exact .inr h

theorem load_emits {r : Bool} {h : Beh} (hh : HOk (Steps r) h) {fuel : Nat} {file : List Byte} {o : Outcome} {s s' : St} {x : Nat × Bool} (hi : IdInv s)
    (e : load h fuel file o s = .ok (s', x)) : Steps r s.next s s' := by
  have hT := goodA_g r
  unfold load at e
  obtain ⟨⟨l, al, y⟩, e1, e⟩ := bind_ok e
  obtain ⟨h1, h2⟩ := scan_spec e1
  have t0 : Steps r s.next s { s with plugins := l } := hT.q _ _ _ (.erase _ _ h1)
  have i0 := hT.inv _ _ _ hi t0
  dsimp only at e
  cases y with
  | some id => cases e; exact t0
  | none =>
    obtain ⟨⟨s1, oid⟩, e2, e⟩ := bind_ok e
    obtain ⟨s2, e3, e⟩ := bind_ok e
    obtain ⟨p, e4, e⟩ := bind_ok e
    cases e
    obtain ⟨ho, t1⟩ := load_emits_ hT hh i0 e2
    have t1 : Steps r s.next { s with plugins := l } s1 := by
      refine hT.trans _ _ _ _ (.single (.push _ _ _ (fun a ha p hp => ?_))) t1
      rcases h2 rfl a ha with h | h
      · cases h
      · exact h p hp
    have t01 := hT.trans _ _ _ _ t0 t1
    exact hT.comp t01 (plEvent_emits hT.toGood hh _ _ _ _ _ (hT.inv _ _ _ hi t01) e3)

/-! ### The other operations -/

theorem statusIs_ok {st x : Status} {b : Bool} (h : statusIs st x = .ok b) : x ≠ .uninit ∧ b = (x == st) := by
  cases x <;> cases h <;> simp

theorem pause_emits_ (hT : Good T) {h : Beh} (hh : HOk T h) {oid : Nat} {s s' : St} {b : Bool} (hi : IdInv s)
    (e : pause_ h oid s = .ok (s', b)) : T s.next s s' := by
  unfold pause_ at e
  obtain ⟨p, e1, e⟩ := bind_ok e
  obtain ⟨b1, e2, e⟩ := bind_ok e
  split at e
  · rename_i hb
    obtain ⟨⟨s1, b2⟩, e3, e⟩ := bind_ok e
    have t1 := doCall_emits hT hh (c := .pause oid) trivial hi e3
    dsimp only at e
    split at e
    · rename_i hb2
      obtain ⟨p1, e4, e⟩ := bind_ok e
      obtain ⟨s2, e5, e⟩ := bind_ok e
      cases e
      obtain ⟨p2, hp2, rfl⟩ := setStatus_note e5
      have hp1 := get_ok e4
      have hp2 : s1.objs oid = some p2 := hp2
      rw [hp1] at hp2; cases hp2
      have hrun : p.status = .running := by
        have := (statusIs_ok e2).2
        rw [this] at hb
        simp at hb; exact hb.1
      have r1 := hT.rel _ s s s1 (Nat.le_refl _) hi hi (Rel.refl s) t1
      exact hT.comp t1 (hT.q _ _ _ (.paused _ _ _ hp1 ((r1.kept oid p p1 (get_ok e1) hp1).2.2.2.2 (.inl hrun)) (hb2 ▸ doCall_last e3)))
    · cases e; exact t1
  · cases e; exact hT.refl _ _

theorem unpause_emits_ (hT : Good T) {h : Beh} (hh : HOk T h) {oid : Nat} {s s' : St} {b : Bool} (hi : IdInv s)
    (e : unpause_ h oid s = .ok (s', b)) : T s.next s s' := by
  unfold unpause_ at e
  obtain ⟨p, e1, e⟩ := bind_ok e
  obtain ⟨b1, e2, e⟩ := bind_ok e
  split at e
  · rename_i hb
    obtain ⟨⟨s1, b2⟩, e3, e⟩ := bind_ok e
    have t1 := doCall_emits hT hh (c := .unpause oid) trivial hi e3
    dsimp only at e
    split at e
    · rename_i hb2
      obtain ⟨p1, e4, e⟩ := bind_ok e
      obtain ⟨s2, e5, e⟩ := bind_ok e
      cases e
      obtain ⟨p2, hp2, rfl⟩ := setStatus_note e5
      have hp1 := get_ok e4
      have hp2 : s1.objs oid = some p2 := hp2
      rw [hp1] at hp2; cases hp2
      have hrun : p.status = .paused := by
        have := (statusIs_ok e2).2
        rw [this] at hb
        simp at hb; exact hb.1
      have r1 := hT.rel _ s s s1 (Nat.le_refl _) hi hi (Rel.refl s) t1
      exact hT.comp t1 (hT.q _ _ _ (.unpaused _ _ _ hp1 ((r1.kept oid p p1 (get_ok e1) hp1).2.2.2.2 (.inr hrun)) (hb2 ▸ doCall_last e3)))
    · cases e; exact t1
  · cases e; exact hT.refl _ _

theorem pause_emits (hT : Good T) {h : Beh} (hh : HOk T h) {fuel id : Nat} {s s' : St} {b : Bool} (hi : IdInv s)
    (e : pause h fuel id s = .ok (s', b)) : T s.next s s' := by
  unfold pause at e
  obtain ⟨x, e1, e⟩ := bind_ok e
  cases x with
  | none => cases e; exact hT.refl _ _
  | some oid =>
    obtain ⟨⟨s1, b1⟩, e2, e⟩ := bind_ok e
    have t1 := pause_emits_ hT hh hi e2
    dsimp only at e
    split at e
    · obtain ⟨s2, e3, e⟩ := bind_ok e
      cases e
      exact hT.comp t1 (plEvent_emits hT hh _ _ _ _ _ (hT.inv _ _ _ hi t1) e3)
    · cases e; exact t1

theorem unpause_emits (hT : Good T) {h : Beh} (hh : HOk T h) {fuel id : Nat} {s s' : St} {b : Bool} (hi : IdInv s)
    (e : unpause h fuel id s = .ok (s', b)) : T s.next s s' := by
  unfold unpause at e
  obtain ⟨x, e1, e⟩ := bind_ok e
  cases x with
  | none => cases e; exact hT.refl _ _
  | some oid =>
    obtain ⟨⟨s1, b1⟩, e2, e⟩ := bind_ok e
    have t1 := unpause_emits_ hT hh hi e2
    dsimp only at e
    split at e
    · obtain ⟨s2, e3, e⟩ := bind_ok e
      cases e
      exact hT.comp t1 (plEvent_emits hT hh _ _ _ _ _ (hT.inv _ _ _ hi t1) e3)
    · cases e; exact t1

theorem unload_emits (hT : Good T) {h : Beh} (hh : HOk T h) {fuel id : Nat} {force : Bool} {s s' : St} {b : Bool} (hi : IdInv s)
    (e : unload h fuel id force s = .ok (s', b)) : T s.next s s' := by
  unfold unload at e
  obtain ⟨x, e1, e⟩ := bind_ok e
  cases x with
  | none => cases e; exact hT.refl _ _
  | some oid =>
    obtain ⟨p, e0, e⟩ := bind_ok e
    obtain ⟨⟨s1, b1⟩, e2, e⟩ := bind_ok e
    have t1 := unload_emits_ hT hh _ _ _ hi e2
    dsimp only at e
    split at e
    · obtain ⟨s2, e3, e⟩ := bind_ok e
      cases e
      exact hT.comp t1 (plEvent_emits hT hh _ _ _ _ _ (hT.inv _ _ _ hi t1) e3)
    · cases e; exact t1

theorem unloadAll_emits (hT : Good T) {h : Beh} (hh : HOk T h) {fuel : Nat} : ∀ {f : Nat} {ok : Bool} {s s' : St} {b : Bool}, IdInv s →
    unloadAll h fuel f ok s = .ok (s', b) → T s.next s s' := by
  intro f
  induction f with
  | zero => intro ok s s' b hi e; cases e
  | succ f ih =>
    intro ok s s' b hi e
    rw [unloadAll] at e
    split at e
    · cases e; exact hT.refl _ _
    · obtain ⟨⟨s1, b1⟩, e1, e⟩ := bind_ok e
      have t1 := unload_emits_ hT hh _ _ _ hi e1
      exact hT.comp t1 (ih (hT.inv _ _ _ hi t1) e)

theorem findByApi_mem {s : St} {api : Nat} : ∀ {l : List Nat} {x : Nat}, findByApi s api l = .ok (some x) → x ∈ l ∧ ∃ p, s.objs x = some p ∧ p.api = some api := by
  intro l
  induction l with
  | nil => intro x e; cases e
  | cons o os ih =>
    intro x e
    rw [findByApi] at e
    obtain ⟨p, e1, e⟩ := bind_ok e
    split at e
    · rename_i h; cases e; exact ⟨.head _, p, get_ok e1, h⟩
    · exact ⟨.tail _ (ih e).1, (ih e).2⟩

theorem findById_mem {s : St} {id : Nat} : ∀ {l : List Nat} {x : Nat}, findById s id l = .ok (some x) → x ∈ l ∧ ∃ p, s.objs x = some p ∧ p.id = id := by
  intro l
  induction l with
  | nil => intro x e; cases e
  | cons o os ih =>
    intro x e
    rw [findById] at e
    obtain ⟨p, e1, e⟩ := bind_ok e
    split at e
    · rename_i h; cases e; exact ⟨.head _, p, get_ok e1, h⟩
    · exact ⟨.tail _ (ih e).1, (ih e).2⟩

theorem addListener_emits (hT : Good T) (api l : Nat) : Emits T (addListener api l) := by
  intro s s' hi e
  unfold addListener at e
  obtain ⟨x, e1, e⟩ := bind_ok e
  cases x with
  | none => cases e
  | some oid =>
    obtain ⟨p, e2, e⟩ := bind_ok e
    cases e
    exact hT.q _ _ _ (.addNode _ _ l _ { p with events := p.events ++ [(s.next, l)] } (get_ok e2) ⟨rfl, rfl, rfl, rfl⟩
      ⟨⟨rfl, rfl⟩, .refl _, List.sublist_append_left _ _, List.sublist_append_left _ _⟩)

theorem regVar_emits (hT : Good T) (api v : Nat) : Emits T (regVar api v) := by
  intro s s' hi e
  unfold regVar at e
  obtain ⟨x, e1, e⟩ := bind_ok e
  cases x with
  | none => cases e; exact hT.q _ _ _ (.note _ _ trivial)
  | some oid =>
    obtain ⟨p, e2, e⟩ := bind_ok e
    cases e
    have t := hT.q s.next _ _ (.addNode _ _ v _ { p with cvars := p.cvars ++ [(s.next, v)] } (get_ok e2) ⟨rfl, rfl, rfl, rfl⟩
      ⟨⟨rfl, rfl⟩, List.sublist_append_left _ _, .refl _, List.sublist_append_left _ _⟩)
    exact hT.comp t (hT.q _ _ _ (.note _ (.regVar (some oid) v) trivial))

theorem regCmd_emits (hT : Good T) (api v : Nat) : Emits T (regCmd api v) := by
  intro s s' hi e
  unfold regCmd at e
  obtain ⟨x, e1, e⟩ := bind_ok e
  cases x with
  | none => cases e; exact hT.q _ _ _ (.note _ _ trivial)
  | some oid =>
    obtain ⟨p, e2, e⟩ := bind_ok e
    cases e
    have t := hT.q s.next _ _ (.addNode _ _ v _ { p with cmds := p.cmds ++ [(s.next, v)] } (get_ok e2) ⟨rfl, rfl, rfl, rfl⟩
      ⟨⟨rfl, rfl⟩, List.sublist_append_left _ _, List.sublist_append_left _ _, .refl _⟩)
    exact hT.comp t (hT.q _ _ _ (.note _ (.regCmd (some oid) v) trivial))

theorem unregVar_emits (hT : Good T) {h : Beh} (hh : HOk T h) (fuel api v : Nat) : Emits T (unregVar h fuel api v) := by
  intro s s' hi e
  unfold unregVar at e
  obtain ⟨x, e1, e⟩ := bind_ok e
  cases x with
  | none => exact unregVarId_emits hT hh _ _ _ _ _ _ hi e
  | some oid =>
    obtain ⟨p, e2, e⟩ := bind_ok e
    have t1 : T s.next s _ := hT.q _ _ _ (.put _ _ _ { p with cvars := removeVal v p.cvars } (get_ok e2) ⟨rfl, rfl, rfl, rfl⟩ shrinks)
    exact hT.comp t1 (unregVarId_emits hT hh _ _ _ _ _ _ (hT.inv _ _ _ hi t1) e)

theorem unregCmd_emits (hT : Good T) {h : Beh} (hh : HOk T h) (fuel api v : Nat) : Emits T (unregCmd h fuel api v) := by
  intro s s' hi e
  unfold unregCmd at e
  obtain ⟨x, e1, e⟩ := bind_ok e
  cases x with
  | none => exact unregCmdId_emits hT hh _ _ _ _ _ _ hi e
  | some oid =>
    obtain ⟨p, e2, e⟩ := bind_ok e
    have t1 : T s.next s _ := hT.q _ _ _ (.put _ _ _ { p with cmds := removeVal v p.cmds } (get_ok e2) ⟨rfl, rfl, rfl, rfl⟩ shrinks)
    exact hT.comp t1 (unregCmdId_emits hT hh _ _ _ _ _ _ (hT.inv _ _ _ hi t1) e)

theorem addHook_emits (hT : Good T) (oid : Nat) : Emits T (addHook oid) := by
  intro s s' hi e
  unfold addHook at e
  obtain ⟨p, e1, e⟩ := bind_ok e
  cases e
  exact hT.q _ _ _ (.hookAdd _ _ _ (get_ok e1))

theorem drain_emits (hT : Good T) : ∀ (n : Nat), Emits T (drain n) := by
  intro n
  induction n with
  | zero => intro s s' hi e; cases e; exact hT.refl _ _
  | succ n ih =>
    intro s s' hi e
    rw [drain] at e
    split at e
    · cases e; exact hT.refl _ _
    · rename_i x xs hx
      obtain ⟨s1, e1, e⟩ := bind_ok e
      have t0 : T s.next s { s with pending := xs } := hT.q _ _ _ (.pend _ _ (fun y hy => .inl (hx ▸ .tail _ hy)))
      have t1 := hT.comp t0 (ready_emits hT _ _ (hT.inv _ _ _ hi t0) (hi.pend x (hx ▸ .head _)).2.1 (hi.pend x (hx ▸ .head _)).2.2 e1)
      exact hT.comp t1 (ih _ _ (hT.inv _ _ _ hi t1) e)

/-- Operations that neither load nor announce. -/
def Op.Flat : Op → Prop
  | .load _ _ => False
  | .retry _ _ => False
  | .setAllLoaded => False
  | _ => True

theorem run_flat (hT : Good T) {h : Beh} (hh : HOk T h) (fuel : Nat) {o : Op} (ho : o.Flat) : Emits T (run fuel h o) := by
  intro s s' hi e
  cases o with
  | load => cases ho
  | retry => cases ho
  | setAllLoaded => cases ho
  | unload id force =>
    obtain ⟨⟨s1, b⟩, e1, e⟩ := bind_ok e
    cases e; exact unload_emits hT hh hi e1
  | pause id =>
    obtain ⟨⟨s1, b⟩, e1, e⟩ := bind_ok e
    cases e; exact pause_emits hT hh hi e1
  | unpause id =>
    obtain ⟨⟨s1, b⟩, e1, e⟩ := bind_ok e
    cases e; exact unpause_emits hT hh hi e1
  | unloadAll =>
    obtain ⟨⟨s1, b⟩, e1, e⟩ := bind_ok e
    cases e; exact unloadAll_emits hT hh hi e1
  | setAlias a v => cases e; exact hT.q _ _ _ (.alias _ _)
  | addListener api l => exact addListener_emits hT _ _ _ _ hi e
  | regVar api v => exact regVar_emits hT _ _ _ _ hi e
  | regCmd api v => exact regCmd_emits hT _ _ _ _ hi e
  | unregVar api v => exact unregVar_emits hT hh _ _ _ _ _ hi e
  | unregCmd api v => exact unregCmd_emits hT hh _ _ _ _ _ hi e
  | addHook oid => exact addHook_emits hT _ _ _ hi e
  | delHook hid => cases e; exact hT.q _ _ _ (.hooksDrop _ _)
  | enter => cases e; exact hT.q _ _ _ (.busy _ _)
  | leave n =>
    rw [run] at e
    split at e
    · have t0 : T s.next s { s with busy := 0 } := hT.q _ _ _ (.busy _ _)
      exact hT.comp t0 (drain_emits hT _ _ _ (hT.inv _ _ _ hi t0) e)
    · cases e; exact hT.q _ _ _ (.busy _ _)

/-- Programs of such operations only, at every depth. -/
def Scr.Flat : Scr → Prop
  | .ret _ => True
  | .op o cb nx => o.Flat ∧ (∀ c n, (cb c n).Flat) ∧ nx.Flat

theorem exec_flat (fuel : Nat) : ∀ (p : Scr), p.Flat → ∀ s s' b, IdInv s → exec fuel p s = .ok (s', b) → FSteps false s.next s s' := by
  have hT := good_f false
  intro p
  induction p with
  | ret b => intro _ s s' b' _ e; cases e; exact .refl _
  | op o cb nx ihc ihn =>
    intro hf s s' b hi e
    rw [exec] at e
    obtain ⟨s1, e1, e⟩ := bind_ok e
    have t1 := run_flat hT (fun c k s s' b hi e => ihc c k (hf.2.1 c k) s s' b hi e) fuel hf.1 s s1 hi e1
    exact hT.comp t1 (ihn hf.2.2 _ _ _ (hT.inv _ _ _ hi t1) e)

/-! ### The announcement -/

/-- The entries behind `o`. -/
def after (o : Nat) : List Nat → List Nat
  | [] => []
  | x :: xs => if x = o then xs else after o xs

theorem nextAfter_ok {o : Nat} : ∀ {l : List Nat} {x : Option Nat}, nextAfter o l = .ok x → o ∈ l ∧ x = (after o l).head? := by
  intro l
  induction l with
  | nil => intro x e; cases e
  | cons y ys ih =>
    intro x e
    rw [nextAfter] at e
    by_cases h : y = o
    · subst h; rw [if_pos rfl] at e; cases e
      exact ⟨.head _, by rw [after, if_pos rfl]⟩
    · rw [if_neg h] at e
      obtain ⟨h1, h2⟩ := ih e
      exact ⟨.tail _ h1, by rw [after, if_neg h]; exact h2⟩

theorem nextAfter_of {o : Nat} : ∀ {l : List Nat}, o ∈ l → nextAfter o l = .ok (after o l).head? := by
  intro l
  induction l with
  | nil => intro h; cases h
  | cons y ys ih =>
    intro h
    rw [nextAfter, after]
    by_cases hy : y = o
    · rw [if_pos hy, if_pos hy]
    · rw [if_neg hy, if_neg hy]
      exact ih ((List.mem_cons.mp h).resolve_left (fun e => hy e.symm))

theorem after_suffix (o : Nat) : ∀ (l : List Nat), (after o l).Sublist l := by
  intro l
  induction l with
  | nil => exact .refl _
  | cons y ys ih =>
    rw [after]
    split
    · exact List.sublist_cons_self _ _
    · exact ih.trans (List.sublist_cons_self _ _)

theorem after_sub {o : Nat} {l' l : List Nat} (h : l'.Sublist l) : l.Nodup → o ∈ l' → (after o l').Sublist (after o l) := by
  induction h with
  | slnil => exact fun _ h => (nomatch h)
  | @cons l1 l2 a h ih =>
    intro hn ho
    rw [List.nodup_cons] at hn
    have hne : a ≠ o := fun e => hn.1 (e ▸ h.subset ho)
    rw [after, if_neg hne]
    exact ih hn.2 ho
  | @cons_cons l1 l2 a h ih =>
    intro hn ho
    rw [List.nodup_cons] at hn
    rw [after, after]
    by_cases e : a = o
    · rw [if_pos e, if_pos e]; exact h
    · rw [if_neg e, if_neg e]
      exact ih hn.2 ((List.mem_cons.mp ho).resolve_left (fun e' => e e'.symm))

theorem after_next {o y : Nat} {ys : List Nat} : ∀ {l : List Nat}, l.Nodup → after o l = y :: ys → after y l = ys := by
  intro l
  induction l with
  | nil => intro _ h; cases h
  | cons z zs ih =>
    intro hn h
    rw [List.nodup_cons] at hn
    rw [after] at h
    by_cases e : z = o
    · rw [if_pos e] at h
      subst h
      have hne : z ≠ y := fun e => hn.1 (e ▸ .head _)
      rw [after, if_neg hne, after, if_pos rfl]
    · rw [if_neg e] at h
      have hy : y ∈ zs := (after_suffix o zs).subset (h ▸ .head _)
      have hne : z ≠ y := fun e => hn.1 (e ▸ hy)
      rw [after, if_neg hne]
      exact ih hn.2 h

theorem allLoop_emits {h : Beh} (hh : HOk (FSteps false) h) : ∀ (f : Nat) (x : Option Nat) (s s' : St), IdInv s → s.allLoaded = true →
    (∀ y, x = some y → ∀ z ∈ y :: after y s.plugins, s.log.count (.call (.allLoaded z)) = 0) →
    plLoop (allLoadedBody h) f x s = .ok s' → FSteps true s.next s s' := by
  have hT := goodA_f
  have hh' : HOk (FSteps true) h := HOk.mono (fun _ _ _ t => RTG.mono (fun _ _ => QPrim.mono (fun _ => rfl) (Nat.le_refl _)) t) hh
  intro f
  induction f with
  | zero =>
    intro x s s' hi _ _ e
    cases x with
    | none => cases e; exact hT.refl _ _
    | some y => cases e
  | succ f ih =>
    intro x s s' hi hall hz e
    cases x with
    | none => cases e; exact hT.refl _ _
    | some y =>
      rw [plLoop] at e
      obtain ⟨s1, e1, e⟩ := bind_ok e
      obtain ⟨nx, e2, e⟩ := bind_ok e
      have hz := hz y rfl
      -- the body
      have hbody : FSteps true s.next s s1 ∧ s1.allLoaded = true ∧ s1.plugins.Sublist s.plugins ∧
          ∀ z, z ≠ y → s1.log.count (.call (.allLoaded z)) = s.log.count (.call (.allLoaded z)) := by
        unfold allLoadedBody at e1
        obtain ⟨p, e3, e1⟩ := bind_ok e1
        obtain ⟨b, e4, e1⟩ := bind_ok e1
        split at e1
        · rename_i hb
          obtain ⟨⟨s2, b2⟩, e5, e1⟩ := bind_ok e1
          cases e1
          have hrun : p.status = .running := by
            have := (statusIs_ok e4).2
            rw [this] at hb
            simp at hb; exact hb.1
          refine ⟨allCall_emits hT hh' hi (get_ok e3) hrun hall (hz y (.head _)) e5, ?_⟩
          unfold doCall at e5
          obtain ⟨⟨s3, b3⟩, e6, e7⟩ := bind_ok e5
          cases e7
          have t0 : FSteps true s.next s (s.note (.call (.allLoaded y))) :=
            hT.all _ _ _ (.allCall _ _ _ rfl (get_ok e3) hrun hall (hz y (.head _)))
          have i0 := hT.inv _ _ _ hi t0
          have q := (FSteps.spec (hh _ _ _ _ _ i0 e6) i0).2
          refine ⟨(q.quiet rfl).1.trans hall, q.sub, fun z hne => ?_⟩
          show (s3.log ++ [_]).count _ = _
          rw [count_plain (show Plain (.ret (.allLoaded y) b3) from trivial), (q.quiet rfl).2 z]
          show (s.log ++ [_]).count _ = _
          rw [List.count_append, List.count_eq_zero (l := [_]) |>.mpr]
          · rfl
          · intro hm; rw [List.mem_singleton] at hm; injection hm with hm; injection hm with hm; exact hne hm
        · cases e1
          exact ⟨.refl _, hall, .refl _, fun _ _ => rfl⟩
      obtain ⟨t1, hall1, hsub, hcnt⟩ := hbody
      have i1 := hT.inv _ _ _ hi t1
      obtain ⟨hy1, hnx⟩ := nextAfter_ok e2
      refine hT.comp t1 (ih nx s1 s' i1 hall1 ?_ e)
      intro w hw z hzm
      rw [hnx] at hw
      have haft : ∃ ws, after y s1.plugins = w :: ws := by
        cases hc : after y s1.plugins with
        | nil => rw [hc] at hw; cases hw
        | cons a as => rw [hc] at hw; cases hw; exact ⟨as, rfl⟩
      obtain ⟨ws, haft⟩ := haft
      rw [after_next i1.nodup haft, ← haft] at hzm
      have hne : z ≠ y := by
        intro e
        subst e
        -- y is not behind itself
        have : ∀ (l : List Nat), l.Nodup → z ∉ after z l := by
          intro l
          induction l with
          | nil => intro _ h; cases h
          | cons a as ih =>
            intro hn h
            rw [List.nodup_cons] at hn
            rw [after] at h
            by_cases e : a = z
            · rw [if_pos e] at h; exact hn.1 (e ▸ h)
            · rw [if_neg e] at h; exact ih hn.2 h
        exact this _ i1.nodup hzm
      rw [hcnt z hne]
      exact hz z (.tail _ ((after_sub hsub hi.nodup hy1).subset hzm))

theorem setAllLoaded_emits {h : Beh} (hh : HOk (FSteps false) h) (fuel : Nat) : Emits (FSteps true) (setAllLoaded h fuel) := by
  have hT := goodA_f
  intro s s' hi e
  unfold setAllLoaded at e
  split at e
  · cases e; exact hT.refl _ _
  · rename_i hall
    have t0 : FSteps true s.next s { s with allLoaded := true } := hT.all _ _ _ (.setAll _ rfl)
    refine hT.comp t0 (allLoop_emits hh _ _ _ _ (hT.inv _ _ _ hi t0) rfl ?_ e)
    intro y _ z _
    apply Classical.byContradiction
    intro hne
    exact hall (hi.early z hne).1

theorem retry_emits {h : Beh} (hh : HOk (FSteps false) h) {fuel id : Nat} {o : Outcome} {s s' : St} {b : Bool} (hi : IdInv s)
    (e : retry h fuel id o s = .ok (s', b)) : Steps true s.next s s' := by
  have hT := goodA_f
  have hh' : HOk (FSteps true) h := HOk.mono (fun _ _ _ t => RTG.mono (fun _ _ => QPrim.mono (fun _ => rfl) (Nat.le_refl _)) t) hh
  unfold retry at e
  obtain ⟨x, e1, e⟩ := bind_ok e
  cases x with
  | none => cases e; exact .refl _
  | some oid =>
    obtain ⟨hmem, p0, hp0, hid⟩ := findById_mem e1
    dsimp only at e
    unfold retryAt at e
    obtain ⟨p, e2, e⟩ := bind_ok e
    obtain rfl : p = p0 := by
      have := get_ok e2; rw [hp0] at this; exact (Option.some.inj this).symm
    obtain ⟨b1, e3, e⟩ := bind_ok e
    split at e
    · obtain ⟨⟨s1, B⟩, e4, e⟩ := bind_ok e
      obtain ⟨rfl, t1⟩ := load_emits_ hT hh' hi e4
      have i0 := (pushNew_spec hi p.file o).1
      have i1 := hT.inv _ _ _ i0 t1
      obtain ⟨q, e5, e⟩ := bind_ok e
      obtain ⟨b2, e6, e⟩ := bind_ok e
      have hn1 : s.next ≤ s1.next := Nat.le_trans (Nat.le_succ _) (hT.next _ _ _ t1)
      split at e
      · obtain ⟨⟨s2, b3⟩, e7, e⟩ := bind_ok e
        cases e
        have t2 := unload_emits_ hT.toGood hh' _ _ _ i1 e7
        have hb3 : b3 = true := by
          unfold unload_ at e7
          obtain ⟨p', _, e7⟩ := bind_ok e7
          split at e7
          · obtain ⟨r, _, e7⟩ := bind_ok e7
            rw [if_pos (by simp)] at e7
            obtain ⟨_, _, e7⟩ := bind_ok e7
            obtain ⟨_, _, e7⟩ := bind_ok e7
            obtain ⟨_, _, e7⟩ := bind_ok e7
            obtain ⟨_, _, e7⟩ := bind_ok e7
            obtain ⟨_, _, e7⟩ := bind_ok e7
            cases e7; rfl
          · obtain ⟨_, _, e7⟩ := bind_ok e7
            cases e7; rfl
        subst hb3
        have hgone := unload_gone hh' i1 e7
        refine .single (.retry oid p o rfl hmem (get_ok e2) (hT.trans _ _ _ _ t1 (hT.mono _ _ _ _ hn1 t2)) ?_)
        exact .fail _ hgone
      · obtain ⟨old, e7, e⟩ := bind_ok e
        obtain ⟨⟨s2, b3⟩, e8, e⟩ := bind_ok e
        obtain ⟨q2, e9, e⟩ := bind_ok e
        cases e
        unfold derefIter at e7
        split at e7
        · cases e7
          have t2 := unload_emits_ hT.toGood hh' _ _ _ i1 e8
          have hb3 : b3 = true := by
            unfold unload_ at e8
            obtain ⟨p', _, e8⟩ := bind_ok e8
            split at e8
            · obtain ⟨r, _, e8⟩ := bind_ok e8
              rw [if_pos (by simp)] at e8
              obtain ⟨_, _, e8⟩ := bind_ok e8
              obtain ⟨_, _, e8⟩ := bind_ok e8
              obtain ⟨_, _, e8⟩ := bind_ok e8
              obtain ⟨_, _, e8⟩ := bind_ok e8
              obtain ⟨_, _, e8⟩ := bind_ok e8
              cases e8; rfl
            · obtain ⟨_, _, e8⟩ := bind_ok e8
              cases e8; rfl
          subst hb3
          have hgone := unload_gone hh' i1 e8
          refine .single (.retry oid p o rfl hmem (get_ok e2) (hT.trans _ _ _ _ t1 (hT.mono _ _ _ _ hn1 t2)) ?_)
          rw [← hid]
          exact .ok _ q2 (get_ok e9) hgone
        · cases e7
    · cases e; exact .refl _

/-- The programs the theorems are about: no loads in the callbacks of `Retry` (and without `r` no
`Retry` at all), no loads in the callbacks of the announcement. -/
def Scr.Ok (r : Bool) : Scr → Prop
  | .ret _ => True
  | .op (.retry _ _) cb nx => r = true ∧ (∀ c n, (cb c n).Flat) ∧ nx.Ok r
  | .op .setAllLoaded cb nx => (∀ c n, (cb c n).Flat) ∧ nx.Ok r
  | .op _ cb nx => (∀ c n, (cb c n).Ok r) ∧ nx.Ok r

theorem exec_emits {r : Bool} (fuel : Nat) : ∀ (p : Scr), p.Ok r → ∀ s s' b, IdInv s → exec fuel p s = .ok (s', b) → Steps r s.next s s' := by
  have hT := goodA_g r
  intro p
  induction p with
  | ret b => intro _ s s' b' _ e; cases e; exact .refl _
  | op o cb nx ihc ihn =>
    intro hf s s' b hi e
    rw [exec] at e
    obtain ⟨s1, e1, e⟩ := bind_ok e
    have t1 : Steps r s.next s s1 ∧ nx.Ok r := by
      have flat : (∀ c n, (cb c n).Flat) → HOk (FSteps false) (fun c n s => exec fuel (cb c n) s) :=
        fun hc c k s s' b hi e => exec_flat fuel (cb c k) (hc c k) s s' b hi e
      have gen : (∀ c n, (cb c n).Ok r) → HOk (Steps r) (fun c n s => exec fuel (cb c n) s) :=
        fun hc c k s s' b hi e => ihc c k (hc c k) s s' b hi e
      cases o
      case retry id o =>
        obtain ⟨hr, h1, h2⟩ := hf
        subst hr
        obtain ⟨⟨s2, b2⟩, e2, e1⟩ := bind_ok e1
        cases e1
        exact ⟨retry_emits (flat h1) hi e2, h2⟩
      case setAllLoaded =>
        exact ⟨RTG.mono (fun _ _ h => .quiet h) (setAllLoaded_emits (flat hf.1) fuel s s1 hi e1), hf.2⟩
      case load f o =>
        obtain ⟨⟨s2, b2⟩, e2, e1⟩ := bind_ok e1
        cases e1
        exact ⟨load_emits (gen hf.1) hi e2, hf.2⟩
      all_goals
        refine ⟨run_flat hT.toGood (gen hf.1) fuel ?_ s s1 hi e1, hf.2⟩
        exact trivial
    exact hT.comp t1.1 (ihn t1.2 _ _ _ (hT.inv _ _ _ hi t1.1) e)

end Verif.Mgr
