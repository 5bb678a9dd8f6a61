import Verif.SH.LoopProps
/-
C03: what a whole call does when the hooks of its slot do not change meanwhile.
-/
namespace Verif.SH

/-- What call `cid` calls: a handler (`some (group, hook number)`) or the original function (`none`). -/
def callee (cid : Nat) : Ev → Option (Option (Grp × Nat))
  | .invoke c _ g n _ => if c = cid then some (some (g, n)) else none
  | .origCall c _ _ => if c = cid then some none else none
  | _ => none

/-- All calls call `cid` makes, in order (the history lists the latest first). -/
def callees (log : List Ev) (cid : Nat) : List (Option (Grp × Nat)) := (log.filterMap (callee cid)).reverse

/-- Place of a callee. -/
def place : Option (Grp × Nat) → Nat
  | some (g, _) => g.stage
  | none => 2

theorem callees_place (log : List Ev) (cid : Nat) : (callees log cid).map place = (stages log cid).reverse := by
  unfold callees stages
  rw [List.map_reverse, List.map_filterMap]
  congr 2
  funext e
  cases e <;> simp only [callee, stage, Option.map_none] <;> split <;> rfl

theorem callees_group (log : List Ev) (cid : Nat) (g : Grp) :
    (callees log cid).filter (fun x => place x == g.stage) = (invoked log cid g).map fun n => some (g, n) := by
  unfold callees invoked
  rw [List.filter_reverse, List.filter_filterMap, List.map_reverse, List.map_filterMap]
  congr 2
  funext e
  cases e with
  | invoke c f g' n p =>
    simp only [callee]
    by_cases hc : c = cid
    · simp only [hc, if_true, true_and, Option.filter_some]
      by_cases hg : g' = g
      · subst hg; simp [place]
      · have : place (some (g', n)) ≠ g.stage := by
          cases g' <;> cases g <;> simp_all [place, Grp.stage]
        simp [hg, this]
    · simp [hc]
  | origCall c f a =>
    simp only [callee]
    have : place none ≠ g.stage := by cases g <;> simp [place, Grp.stage]
    split <;> simp [this]
  | _ => rfl

/-- A list sorted by a key below 5 is the concatenation of its parts. -/
theorem sorted_parts {α : Type} (key : α → Nat) (L : List α) (hs : L.Pairwise fun a b => key a ≤ key b) (hk : ∀ a ∈ L, key a < 5) :
    L = L.filter (key · == 0) ++ (L.filter (key · == 1) ++ (L.filter (key · == 2) ++ (L.filter (key · == 3) ++ L.filter (key · == 4)))) := by
  induction L with
  | nil => rfl
  | cons x xs ih =>
    obtain ⟨h1, h2⟩ := List.pairwise_cons.1 hs
    have ih := ih h2 fun a ha => hk a (List.mem_cons_of_mem _ ha)
    have hx := hk x (List.mem_cons_self ..)
    have hempty : ∀ j, j < key x → xs.filter (key · == j) = [] := by
      intro j hj
      rw [List.filter_eq_nil_iff]
      intro a ha he
      have := h1 a ha
      simp only [beq_iff_eq] at he
      omega
    have : key x = 0 ∨ key x = 1 ∨ key x = 2 ∨ key x = 3 ∨ key x = 4 := by omega
    simp only [List.filter_cons]
    rcases this with e | e | e | e | e <;> rw [e] at hempty
    all_goals
      rw [e]
      conv => lhs; rw [ih]
      simp [hempty]

theorem callees_sorted {log : List Ev} {next : Nat} (h : LogOk log next) (cid : Nat) :
    (callees log cid).Pairwise fun a b => place a ≤ place b := by
  have : ((callees log cid).map place).Pairwise (· ≤ ·) := by
    rw [callees_place, List.pairwise_reverse]
    exact (h.stg cid).imp fun h => h.1
  exact List.pairwise_map.1 this

theorem place_lt (x : Option (Grp × Nat)) : place x < 5 := by
  cases x with
  | none => decide
  | some x => obtain ⟨g, n⟩ := x; cases g <;> simp [place, Grp.stage]

/-- The original is called at most once per call. -/
theorem orig_at_most_once {log : List Ev} {next : Nat} (h : LogOk log next) (cid : Nat) :
    (callees log cid).filter (place · == 2) = [] ∨ (callees log cid).filter (place · == 2) = [none] := by
  have h2 : ((callees log cid).map place).Pairwise (fun a b => ¬ (a = 2 ∧ b = 2)) := by
    rw [callees_place, List.pairwise_reverse]
    exact (h.stg cid).imp fun h hh => h.2 ⟨hh.2, hh.1⟩
  have h3 := (List.pairwise_map.1 h2).filter (place · == 2)
  have hnone : ∀ x ∈ (callees log cid).filter (place · == 2), x = none := by
    intro x hx
    have := (List.mem_filter.1 hx).2
    cases x with
    | none => rfl
    | some x => obtain ⟨g, n⟩ := x; cases g <;> simp [place, Grp.stage] at this
  generalize (callees log cid).filter (place · == 2) = M at h3 hnone
  match M with
  | [] => exact Or.inl rfl
  | [x] => rw [hnone x (List.mem_cons_self ..)]; exact Or.inr rfl
  | x :: y :: rest =>
    exfalso
    have ex := hnone x (by simp)
    have ey := hnone y (by simp)
    exact (List.pairwise_cons.1 h3).1 y (by simp) (by rw [ex, ey]; exact ⟨rfl, rfl⟩)

/-- Two strictly increasing lists with the same members are the same. -/
theorem sorted_ext : ∀ {a b : List Nat}, a.Pairwise (· < ·) → b.Pairwise (· < ·) → (∀ x, x ∈ a ↔ x ∈ b) → a = b
  | [], [], _, _, _ => rfl
  | [], y :: ys, _, _, h => by have := (h y).2 (List.mem_cons_self ..); cases this
  | x :: xs, [], _, _, h => by have := (h x).1 (List.mem_cons_self ..); cases this
  | x :: xs, y :: ys, ha, hb, h => by
    obtain ⟨a1, a2⟩ := List.pairwise_cons.1 ha
    obtain ⟨b1, b2⟩ := List.pairwise_cons.1 hb
    have e : x = y := by
      rcases List.mem_cons.1 ((h x).1 (List.mem_cons_self ..)) with e | e
      · exact e
      · rcases List.mem_cons.1 ((h y).2 (List.mem_cons_self ..)) with e' | e'
        · exact e'.symm
        · have := a1 y e'; have := b1 x e; omega
    subst e
    rw [sorted_ext a2 b2 ?_]
    intro z
    constructor
    · intro hz
      rcases List.mem_cons.1 ((h z).1 (List.mem_cons_of_mem _ hz)) with e | e
      · subst e; exact absurd (a1 z hz) (Nat.lt_irrefl _)
      · exact e
    · intro hz
      rcases List.mem_cons.1 ((h z).2 (List.mem_cons_of_mem _ hz)) with e | e
      · subst e; exact absurd (b1 z hz) (Nat.lt_irrefl _)
      · exact e

/-- The numbers of the unpaused hooks of a list. -/
def unpaused (L : List Hook) : List Nat := (L.filter fun h => !h.paused).map Hook.nid

theorem mem_unpaused {L : List Hook} {n : Nat} : n ∈ unpaused L ↔ ∃ h ∈ L, h.nid = n ∧ h.paused = false := by
  unfold unpaused
  simp only [List.mem_map, List.mem_filter, Bool.not_eq_true']
  constructor
  · rintro ⟨h, ⟨h1, h2⟩, h3⟩; exact ⟨h, h1, h3, h2⟩
  · rintro ⟨h, h1, h3, h2⟩; exact ⟨h, ⟨h1, h2⟩, h3⟩

theorem call_log {E : Env} (hE : EnvOk E) {s0 s1 : St} (h : LReach E s0) {p this : Addr} (hok : Ok E s0 (.call p this))
    (hst : step E s0 (.call p this) = .ok s1) (g : Grp) : invoked s1.log s0.next g = [] := by
  have hlt := (h.hist hE).log.lt
  have hold : invoked s0.log s0.next g = [] := ((h.inv hE).llt _ (Nat.le_refl _) g).1
  generalize hop : Op.call p this = op at hok hst
  cases h.tr hE hok hst <;> cases hop
  · exact hold
  · exact (invoked_free (X := [_]) (fid := 0) (by simp [Ev.free]) g).trans hold

/-- While the hooks of slot `p` do not change, only those of the call's object and of the whole
vtable are invoked. -/
theorem Run.sound {E : Env} (hE : EnvOk E) {s s' : St} {p this : Addr} {V : Addr → Bool → List Hook}
    (h : Run E (fun s => ∀ a sd, view s.reg p a sd = V a sd) s s') (hr : LReach E s) {cid fid0 : Nat}
    (hen : Ev.enter cid fid0 (some p) this ∈ s.log) {g : Grp} (h0 : invoked s.log cid g = []) :
    ∀ n ∈ invoked s'.log cid g, n ∈ unpaused (V (g.ptr this) g.side) := by
  induction h with
  | refl _ => rw [h0]; simp
  | step h1 h2 h3 h4 ih =>
    have hr' := h1.reach hr
    obtain ⟨X, hX, hXe⟩ := new_events (hr'.inv hE) (hr'.hist hE) (hr'.tr hE h2 h3)
    intro n hn
    rw [invoked_iff] at hn
    obtain ⟨fid, ifp, hn⟩ := hn
    rw [hX] at hn
    rcases List.mem_append.1 hn with hn | hn
    · obtain ⟨fid1, p1, this1, k1, k, k2, k3, k4, _⟩ := hXe _ hn
      obtain ⟨_, e2, e3⟩ := (hr'.hist hE).log.entU _ _ _ _ _ _ _ (h1.enter hE hr hen) k1
      cases e2; subst e3
      rw [h1.last] at k2
      exact mem_unpaused.2 ⟨k, k2, k3, k4⟩
    · exact ih n (mem_invoked hn)

/-- C03, one group: if the hooks of the slot do not change from the start of the call until group `g`
is over, the handlers invoked in group `g` are exactly the unpaused hooks registered there, in order. -/
theorem group_order {E : Env} (hE : EnvOk E) {s0 s1 s2 : St} (h : LReach E s0) {p this : Addr} (hok : Ok E s0 (.call p this))
    (hst : step E s0 (.call p this) = .ok s1) {fid0 : Nat} (hen : Ev.enter s0.next fid0 (some p) this ∈ s1.log)
    {V : Addr → Bool → List Hook} (hrun : Run E (fun s => ∀ a sd, view s.reg p a sd = V a sd) s1 s2) {g : Grp}
    (hov : GroupOver s2.log s0.next g) :
    invoked s2.log s0.next g = unpaused (V (g.ptr this) g.side) := by
  have hr1 : LReach E s1 := .step h hok hst
  apply sorted_ext (hooks_in_order hE (hrun.reach hr1) _ _)
  · have := hooks_listed_in_order hE hr1 p (g.ptr this) g.side
    rw [hrun.first] at this
    exact List.pairwise_map.2 (this.filter _)
  · intro n
    constructor
    · exact hrun.sound hE hr1 hen (call_log hE h hok hst g) n
    · intro hn
      obtain ⟨k, k1, k2, k3⟩ := mem_unpaused.1 hn
      refine no_hook_missed_from_start hE h hok hst hen (hrun.mono fun s hs => ⟨k, ?_, k2, k3⟩) hov
      rw [hs]; exact k1

/-- C03: if the hooks of the slot do not change during a call, then until it returns it calls exactly
the unpaused pre hooks of its object in order, the unpaused vtable-wide pre hooks in order, possibly
the original function once, the unpaused post hooks of the object and the unpaused vtable-wide post
hooks in order, and nothing else. -/
theorem call_order {E : Env} (hE : EnvOk E) {s0 s1 s2 : St} (h : LReach E s0) {p this : Addr} (hok : Ok E s0 (.call p this))
    (hst : step E s0 (.call p this) = .ok s1) {fid0 : Nat} (hen : Ev.enter s0.next fid0 (some p) this ∈ s1.log)
    {V : Addr → Bool → List Hook} (hrun : Run E (fun s => ∀ a sd, view s.reg p a sd = V a sd) s1 s2)
    {fid : Nat} {v : Val} (hret : Ev.ret s0.next fid v ∈ s2.log) :
    ∃ O, (O = [] ∨ O = [none]) ∧ callees s2.log s0.next =
      (unpaused (V this false)).map (fun n => some (.pre, n)) ++ ((unpaused (V 0 false)).map (fun n => some (.preVP, n)) ++ (O ++
        ((unpaused (V this true)).map (fun n => some (.post, n)) ++ (unpaused (V 0 true)).map (fun n => some (.postVP, n))))) := by
  have hr1 : LReach E s1 := .step h hok hst
  have hlog := ((hrun.reach hr1).hist hE).log
  have hg : ∀ g : Grp, (callees s2.log s0.next).filter (fun x => place x == g.stage) =
      (unpaused (V (g.ptr this) g.side)).map fun n => some (g, n) := by
    intro g
    rw [callees_group, group_order hE h hok hst hen hrun (Or.inr ⟨fid, v, hret⟩)]
  refine ⟨_, orig_at_most_once hlog s0.next, ?_⟩
  have := sorted_parts place _ (callees_sorted hlog s0.next) fun x _ => place_lt x
  rw [show (callees s2.log s0.next).filter (place · == 0) = _ from hg .pre,
    show (callees s2.log s0.next).filter (place · == 1) = _ from hg .preVP,
    show (callees s2.log s0.next).filter (place · == 3) = _ from hg .post,
    show (callees s2.log s0.next).filter (place · == 4) = _ from hg .postVP] at this
  exact this

/-- C03: when the original function is called, exactly the pre hooks have been invoked. -/
theorem before_original {E : Env} (hE : EnvOk E) {s0 s1 s2 : St} (h : LReach E s0) {p this : Addr} (hok : Ok E s0 (.call p this))
    (hst : step E s0 (.call p this) = .ok s1) {fid0 : Nat} (hen : Ev.enter s0.next fid0 (some p) this ∈ s1.log)
    {V : Addr → Bool → List Hook} (hrun : Run E (fun s => ∀ a sd, view s.reg p a sd = V a sd) s1 s2)
    {fid : Nat} {a : Addr} (hor : Ev.origCall s0.next fid a ∈ s2.log) :
    ∃ rest, callees s2.log s0.next =
      (unpaused (V this false)).map (fun n => some (.pre, n)) ++ ((unpaused (V 0 false)).map (fun n => some (.preVP, n)) ++ none :: rest) ∧
      none ∉ rest := by
  have hr1 : LReach E s1 := .step h hok hst
  have hlog := ((hrun.reach hr1).hist hE).log
  have h2 : 2 ∈ stages s2.log s0.next := mem_stages.2 (Or.inl ⟨rfl, fid, a, hor⟩)
  have hg : ∀ g : Grp, g.stage < 2 → (callees s2.log s0.next).filter (fun x => place x == g.stage) =
      (unpaused (V (g.ptr this) g.side)).map fun n => some (g, n) := by
    intro g hg
    rw [callees_group, group_order hE h hok hst hen hrun (Or.inl ⟨2, h2, hg⟩)]
  have := sorted_parts place _ (callees_sorted hlog s0.next) fun x _ => place_lt x
  rw [show (callees s2.log s0.next).filter (place · == 0) = _ from hg .pre (by decide),
    show (callees s2.log s0.next).filter (place · == 1) = _ from hg .preVP (by decide)] at this
  rcases orig_at_most_once hlog s0.next with e | e
  · exfalso
    have : (2 : Nat) ∈ (callees s2.log s0.next).map place := by rw [callees_place, List.mem_reverse]; exact h2
    obtain ⟨x, hx1, hx2⟩ := List.mem_map.1 this
    have := List.filter_eq_nil_iff.1 e x hx1
    simp [hx2] at this
  · rw [e] at this
    refine ⟨_, this, ?_⟩
    intro hn
    rcases List.mem_append.1 hn with hn | hn <;> simp [place] at hn

example : ((Ex.go Ex.whole).map fun s => callees s.log 0) =
    some [some (.pre, 3), some (.pre, 7), some (.preVP, 6), none, some (.post, 8)] := rfl

/-- Operations that leave the registry alone. -/
def Op.calls : Op → Bool
  | .reg _ | .poke .. => false
  | _ => true

theorem Tr.same_reg {E : Env} {s s' : St} {op : Op} (h : Tr E s op s') (hc : op.calls = true) : s'.reg = s.reg := by
  cases h with
  | reg => cases hc
  | poke => cases hc
  | tickRet f fs c cs g v s2 _ _ _ _ _ _ hs2 =>
    have := (popCtx_spec { s with log := logGot f.cid f.fid g s.log } cs).1
    rw [← hs2] at this
    exact this
  | _ => rfl

theorem runB_same {E : Env} (hE : EnvOk E) {s s' : St} {ops : List Op} (h : runB E (fun _ => true) s ops = some s') (hr : LReach E s)
    (hc : ops.all Op.calls = true) : Run E (fun t => t.reg = s.reg) s s' := by
  induction ops generalizing s with
  | nil => unfold runB at h; cases h; exact .refl rfl
  | cons op ops ih =>
    unfold runB at h
    simp only [Bool.true_and] at h
    split at h
    · next hok =>
      split at h
      · next s1 e =>
        rw [List.all_cons, Bool.and_eq_true] at hc
        have hr1 : LReach E s1 := .step hr (okB_ok hok) e
        have := (hr.tr hE (okB_ok hok) e).same_reg hc.1
        exact Run.cons rfl (okB_ok hok) e (by rw [← this]; exact ih h hr1 hc.2)
      · cases h
    · cases h

/-- The hypotheses of the three theorems above are met by the whole call. -/
example : ∃ s0 s1 s2, Ex.go Ex.setup = some s0 ∧ LReach Ex.E s0 ∧ Ok Ex.E s0 (.call 2008 1000) ∧ step Ex.E s0 (.call 2008 1000) = .ok s1 ∧
    Ev.enter s0.next 0 (some 2008) 1000 ∈ s1.log ∧
    Run Ex.E (fun s => ∀ a sd, view s.reg 2008 a sd = view s0.reg 2008 a sd) s1 s2 ∧
    Ev.ret s0.next 0 7 ∈ s2.log ∧ Ev.origCall s0.next 0 41 ∈ s2.log ∧ GroupOver s2.log s0.next .pre := by
  obtain ⟨s2, h2⟩ := Ex.go_isSome (ops := Ex.whole) rfl
  obtain ⟨s0, s1, h0, k1, k2, k3, k4, k5⟩ := Ex.split (a := Ex.setup) h2
  have hn : s0.next = 0 := by simpa using Ex.chk h0 (fun s => s.next == 0) rfl
  have hv : view s0.reg 2008 1000 false ≠ [] := by simpa using Ex.chk h0 (fun s => !(view s.reg 2008 1000 false).isEmpty) rfl
  obtain ⟨he, hs⟩ := hooked_call_enters Ex.envOk k3 k1 k2 rfl hv
  refine ⟨s0, s1, s2, h0, k3, k1, k2, by rw [hn] at he ⊢; exact he,
    (runB_same Ex.envOk k5 k4 rfl).mono (fun s h a sd => by rw [h, hs]), ?_, ?_, Or.inl ⟨2, ?_, by decide⟩⟩
  all_goals rw [hn]
  · simpa using Ex.chk h2 (fun s => decide (Ev.ret 0 0 7 ∈ s.log)) rfl
  · simpa using Ex.chk h2 (fun s => decide (Ev.origCall 0 0 41 ∈ s.log)) rfl
  · simpa using Ex.chk h2 (fun s => decide (2 ∈ stages s.log 0)) rfl

end Verif.SH

#print axioms Verif.SH.before_original
#print axioms Verif.SH.call_order
#print axioms Verif.SH.group_order
