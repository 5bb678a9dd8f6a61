/-
C71: on Source 2 the provider follows the engine's loop modes.  The specification is the engine's own bookkeeping: the
registered factories of the loop mode "game" and the loop modes they have created and not destroyed.
-/
import Verif.Prov.Source2

namespace Verif.Prov.S2

/-- Specification: registered factories and living loop modes, each with its factory. -/
structure Eng where
  regs : List Nat
  live : List (Nat × Nat)

/-- Specification: the loop mode that matters. -/
def game : List Char := ['g', 'a', 'm', 'e']

/-- Specification: the living loop modes. -/
def Eng.modes (e : Eng) : List Nat := e.live.map (·.2)

/-- Specification: what a call means for the engine. -/
def Eng.after (e : Eng) : Ev → Eng
  | .reg name f => if name = game then { e with regs := f :: e.regs } else e
  | .unreg name f => if name = game then { e with regs := e.regs.erase f } else e
  | .create f _ ret => if f ∈ e.regs then { e with live := (f, ret) :: e.live } else e
  | .destroy f m => { e with live := e.live.erase (f, m) }
  | .init _ _ => e
  | .shut _ => e

/-- Specification: what an orderly engine does, with no plugin overriding `CreateLoopMode`: a factory is registered once, goes
after its loop modes, creates new objects, and destroys its own. -/
def Eng.Orderly (e : Eng) : Ev → Prop
  | .reg name f => name = game → f ≠ 0 ∧ f ∉ e.regs
  | .unreg name f => name = game → ∀ m, (f, m) ∉ e.live
  | .create _ orig ret => orig = ret ∧ ret ≠ 0 ∧ ret ∉ e.modes
  | .destroy f m => ∀ g, (g, m) ∈ e.live → g = f
  | .init _ _ => True
  | .shut _ => True

/-- Specification: what Metamod is to be told. -/
def Eng.told (e : Eng) : Ev → List Call
  | .reg name _ => if name = game then [.gameInit] else []
  | .init m level => if m ∈ e.modes then [.levelInit level] else []
  | .shut m => if m ∈ e.modes then [.levelShutdown] else []
  | _ => []

/-- Specification: the same for sequences. -/
def Eng.afterAll (e : Eng) : List Ev → Eng
  | [] => e
  | ev :: evs => (e.after ev).afterAll evs
/-- Specification: all calls of a sequence are orderly. -/
def Eng.OrderlyAll (e : Eng) : List Ev → Prop
  | [] => True
  | ev :: evs => e.Orderly ev ∧ (e.after ev).OrderlyAll evs
/-- Specification: all that is to be told. -/
def Eng.toldAll (e : Eng) : List Ev → List Call
  | [] => []
  | ev :: evs => e.told ev ++ (e.after ev).toldAll evs

/-- Specification: exactly the right hooks are set: one of each kind on every registered factory and every living loop mode, none
on any other object. -/
structure Follows (svc : Nat) (s : St) (e : Eng) : Prop where
  reg : s.hooks.count (svc, .regLoop) = 1
  unreg : s.hooks.count (svc, .unregLoop) = 1
  create : ∀ o, s.hooks.count (o, .create) = if o ∈ e.regs then 1 else 0
  destroy : ∀ o, s.hooks.count (o, .destroy) = if o ∈ e.regs then 1 else 0
  init : ∀ o, s.hooks.count (o, .loopInit) = if o ∈ e.modes then 1 else 0
  shut : ∀ o, s.hooks.count (o, .loopShutdown) = if o ∈ e.modes then 1 else 0
  regsNodup : e.regs.Nodup
  modesNodup : e.modes.Nodup
  regsNonzero : ∀ f ∈ e.regs, f ≠ 0
  owner : ∀ f m, (f, m) ∈ e.live → f ∈ e.regs

theorem count_filter_ne (l : List (Nat × Kind)) (x y : Nat × Kind) :
    (l.filter (· ≠ x)).count y = if y = x then 0 else l.count y := by
  induction l with
  | nil => simp
  | cons a l ih =>
    by_cases ha : a = x
    · subst ha
      simp only [ne_eq, not_true_eq_false, decide_false, Bool.false_eq_true, not_false_eq_true, List.filter_cons_of_neg, ih]
      split
      · rfl
      · rename_i h
        rw [List.count_cons_of_ne (Ne.symm h)]
    · rw [List.filter_cons_of_pos (by simpa using ha)]
      by_cases hy : y = a
      · subst hy
        simp [ha]
      · rw [List.count_cons_of_ne (Ne.symm hy), List.count_cons_of_ne (Ne.symm hy)]
        exact ih

theorem onReg_game {f : Nat} {s : St} (hf : f ≠ 0) :
    onReg game f s = .ok (tell .gameInit { s with hooks := s.hooks ++ [(f, .create)] ++ [(f, .destroy)] }) := by
  unfold onReg
  rw [if_pos (show game = "game".toList from rfl)]
  simp [addHook, hf, bind, Except.bind]
theorem onReg_other {name : List Char} {f : Nat} {s : St} (h : name ≠ game) : onReg name f s = .ok s := by
  unfold onReg
  rw [if_neg (show ¬ name = "game".toList from h)]
theorem onUnreg_game {f : Nat} {s : St} : onUnreg game f s = .ok (rmHook f .destroy (rmHook f .create s)) := by
  unfold onUnreg
  rw [if_pos (show game = "game".toList from rfl)]
theorem onUnreg_other {name : List Char} {f : Nat} {s : St} (h : name ≠ game) : onUnreg name f s = .ok s := by
  unfold onUnreg
  rw [if_neg (show ¬ name = "game".toList from h)]
theorem count_app {l : List (Nat × Kind)} {a b : Kind} {f o : Nat} {k : Kind} (h1 : k ≠ a) (h2 : k ≠ b) :
    (l ++ [(f, a)] ++ [(f, b)]).count (o, k) = l.count (o, k) := by
  simp [List.count_append, Ne.symm h1, Ne.symm h2]
theorem count_rm {l : List (Nat × Kind)} {a b : Kind} {f o : Nat} {k : Kind} (h1 : k ≠ a) (h2 : k ≠ b) :
    ((l.filter (· ≠ (f, a))).filter (· ≠ (f, b))).count (o, k) = l.count (o, k) := by
  rw [count_filter_ne, count_filter_ne, if_neg (by simp [h2]), if_neg (by simp [h1])]

theorem times_zero (f : St → Except Fault St) (s : St) : times f 0 s = .ok s := rfl
theorem times_one (f : St → Except Fault St) (s : St) : times f 1 s = f s := by
  simp only [times, bind, Except.bind]
  cases f s <;> rfl

theorem mem_modes {e : Eng} {m : Nat} : m ∈ e.modes ↔ ∃ f, (f, m) ∈ e.live := by
  simp [Eng.modes]

theorem nodup_of_map {α β : Type} {f : α → β} : ∀ {l : List α}, (l.map f).Nodup → l.Nodup := by
  intro l
  induction l with
  | nil => simp
  | cons a l ih =>
    intro h
    simp only [List.map_cons, List.nodup_cons] at h
    exact List.nodup_cons.2 ⟨fun ha => h.1 (List.mem_map.2 ⟨a, ha, rfl⟩), ih h.2⟩

theorem step_follows {svc : Nat} {s : St} {e : Eng} {ev : Ev} (h : Follows svc s e) (ho : e.Orderly ev) :
    ∃ s', step svc s ev = .ok s' ∧ Follows svc s' (e.after ev) ∧ s'.callbacks = s.callbacks ∧
      s'.log = if s.callbacks then s.log ++ e.told ev else s.log := by
  cases ev with
  | reg name f =>
    simp only [step, h.reg, times_one]
    by_cases hn : name = game
    · obtain ⟨hf, hfr⟩ := ho hn
      subst hn
      rw [onReg_game hf]
      simp only [Eng.after, Eng.told, if_true]
      refine ⟨_, rfl, ?_, ?_, ?_⟩
      · have hk : (tell .gameInit { s with hooks := s.hooks ++ [(f, .create)] ++ [(f, .destroy)] }).hooks = s.hooks ++ [(f, .create)] ++ [(f, .destroy)] := by
          unfold tell; split <;> rfl
        refine ⟨?_, ?_, ?_, ?_, ?_, ?_, ?_, h.modesNodup, ?_, ?_⟩
        · rw [hk, count_app (by decide) (by decide)]; exact h.reg
        · rw [hk, count_app (by decide) (by decide)]; exact h.unreg
        · intro o; rw [hk]
          simp [List.count_append, List.count_cons, h.create]
          by_cases e1 : f = o
          · subst e1; simp [hfr]
          · simp [e1, Ne.symm e1]
        · intro o; rw [hk]
          simp [List.count_append, List.count_cons, h.destroy]
          by_cases e1 : f = o
          · subst e1; simp [hfr]
          · simp [e1, Ne.symm e1]
        · intro o; rw [hk, count_app (by decide) (by decide)]; exact h.init o
        · intro o; rw [hk, count_app (by decide) (by decide)]; exact h.shut o
        · exact List.nodup_cons.2 ⟨hfr, h.regsNodup⟩
        · intro g hg
          rcases List.mem_cons.1 hg with rfl | hg
          · exact hf
          · exact h.regsNonzero g hg
        · intro g m hg; exact List.mem_cons_of_mem _ (h.owner g m hg)
      · unfold tell; split <;> rfl
      · unfold tell
        cases hc : s.callbacks <;> simp
    · rw [onReg_other hn]
      simp only [if_neg hn, Eng.after, Eng.told]
      exact ⟨s, rfl, h, rfl, by simp⟩
  | unreg name f =>
    simp only [step, h.unreg, times_one]
    by_cases hn : name = game
    · have hno := ho hn
      subst hn
      rw [onUnreg_game]
      simp only [Eng.after, Eng.told, if_true, rmHook]
      refine ⟨_, rfl, ?_, rfl, by simp⟩
      refine ⟨?_, ?_, ?_, ?_, ?_, ?_, h.regsNodup.erase _, h.modesNodup, ?_, ?_⟩
      · rw [count_rm (by decide) (by decide)]; exact h.reg
      · rw [count_rm (by decide) (by decide)]; exact h.unreg
      · intro o
        simp only [count_filter_ne, h.create]
        by_cases e1 : o = f
        · subst e1; simp [h.regsNodup.mem_erase_iff]
        · simp [e1, h.regsNodup.mem_erase_iff]
      · intro o
        simp only [count_filter_ne, h.destroy]
        by_cases e1 : o = f
        · subst e1; simp [h.regsNodup.mem_erase_iff]
        · simp [e1, h.regsNodup.mem_erase_iff]
      · intro o; rw [count_rm (by decide) (by decide)]; exact h.init o
      · intro o; rw [count_rm (by decide) (by decide)]; exact h.shut o
      · intro g hg; exact h.regsNonzero g (List.mem_of_mem_erase hg)
      · intro g m hg
        rw [h.regsNodup.mem_erase_iff]
        refine ⟨?_, h.owner g m hg⟩
        rintro rfl
        exact hno m hg
    · rw [onUnreg_other hn]
      simp only [if_neg hn, Eng.after, Eng.told]
      exact ⟨s, rfl, h, rfl, by simp⟩
  | create f orig ret =>
    obtain ⟨rfl, h0, hfr⟩ := ho
    simp only [step, h.create]
    by_cases hf : f ∈ e.regs
    · simp only [if_pos hf, times_one, onCreate, addHook, if_neg h0, bind, Except.bind, Eng.after, Eng.told]
      refine ⟨_, rfl, ?_, rfl, by simp⟩
      have hmo : ∀ o, o ∈ Eng.modes { e with live := (f, orig) :: e.live } ↔ o = orig ∨ o ∈ e.modes := by
        intro o; simp [Eng.modes]
      refine ⟨?_, ?_, ?_, ?_, ?_, ?_, h.regsNodup, ?_, h.regsNonzero, ?_⟩
      · rw [count_app (by decide) (by decide)]; exact h.reg
      · rw [count_app (by decide) (by decide)]; exact h.unreg
      · intro o; rw [count_app (by decide) (by decide)]; exact h.create o
      · intro o; rw [count_app (by decide) (by decide)]; exact h.destroy o
      · intro o
        simp only [hmo]
        simp [List.count_append, List.count_cons, h.init]
        by_cases e1 : orig = o
        · subst e1; simp [hfr]
        · simp [e1, Ne.symm e1]
      · intro o
        simp only [hmo]
        simp [List.count_append, List.count_cons, h.shut]
        by_cases e1 : orig = o
        · subst e1; simp [hfr]
        · simp [e1, Ne.symm e1]
      · simp only [Eng.modes, List.map_cons]
        exact List.nodup_cons.2 ⟨hfr, h.modesNodup⟩
      · intro g m hg
        rcases List.mem_cons.1 hg with hg | hg
        · cases hg; exact hf
        · exact h.owner g m hg
    · simp only [if_neg hf, times_zero, Eng.after, Eng.told]
      exact ⟨s, rfl, h, rfl, by simp⟩
  | destroy f m =>
    have hnd : e.live.Nodup := by
      have hm := h.modesNodup
      unfold Eng.modes at hm
      exact nodup_of_map hm
    have huniq : ∀ g g' x, (g, x) ∈ e.live → (g', x) ∈ e.live → g = g' := by
      intro g g' x h1 h2
      have hm := h.modesNodup
      unfold Eng.modes at hm
      clear h ho hnd
      generalize e.live = l at *
      induction l with
      | nil => simp at h1
      | cons a l ih =>
        simp only [List.map_cons, List.nodup_cons] at hm
        rcases List.mem_cons.1 h1 with h1' | h1' <;> rcases List.mem_cons.1 h2 with h2' | h2'
        · exact congrArg Prod.fst (h1'.trans h2'.symm)
        · exact absurd (List.mem_map.2 ⟨_, h2', rfl⟩) (by rw [← h1'] at hm; exact hm.1)
        · exact absurd (List.mem_map.2 ⟨_, h1', rfl⟩) (by rw [← h2'] at hm; exact hm.1)
        · exact ih h1' h2' hm.2
    have hmo : ∀ o, o ∈ Eng.modes { e with live := e.live.erase (f, m) } ↔ (o ≠ m ∨ (f, m) ∉ e.live) ∧ o ∈ e.modes := by
      intro o
      simp only [mem_modes, hnd.mem_erase_iff]
      constructor
      · rintro ⟨g, h1, h2⟩
        refine ⟨?_, g, h2⟩
        by_cases hom : o = m
        · subst hom
          refine Or.inr (fun hc => h1 ?_)
          rw [huniq g f o h2 hc]
        · exact Or.inl hom
      · rintro ⟨h1, g, h2⟩
        refine ⟨g, ?_, h2⟩
        intro hc
        cases hc
        rcases h1 with h1 | h1
        · exact h1 rfl
        · exact h1 h2
    have hsame : (f, m) ∉ e.live → e.live.erase (f, m) = e.live := List.erase_of_not_mem
    simp only [step, h.destroy]
    by_cases hf : f ∈ e.regs
    · simp only [if_pos hf, times_one, onDestroy, rmHook, Eng.after, Eng.told]
      refine ⟨_, rfl, ?_, rfl, by simp⟩
      have hm0 : (f, m) ∉ e.live → m ∉ e.modes := by
        intro hc hm
        obtain ⟨g, hg⟩ := mem_modes.1 hm
        exact hc (by rw [← ho g hg]; exact hg)
      refine ⟨?_, ?_, ?_, ?_, ?_, ?_, h.regsNodup, ?_, h.regsNonzero, ?_⟩
      · rw [count_rm (by decide) (by decide)]; exact h.reg
      · rw [count_rm (by decide) (by decide)]; exact h.unreg
      · intro o; rw [count_rm (by decide) (by decide)]; exact h.create o
      · intro o; rw [count_rm (by decide) (by decide)]; exact h.destroy o
      · intro o
        simp only [count_filter_ne, h.init, hmo]
        by_cases e1 : o = m
        · subst e1
          by_cases hc : (f, o) ∈ e.live
          · simp [hc]
          · simp [hc, hm0 hc]
        · simp [e1]
      · intro o
        simp only [count_filter_ne, h.shut, hmo]
        by_cases e1 : o = m
        · subst e1
          by_cases hc : (f, o) ∈ e.live
          · simp [hc]
          · simp [hc, hm0 hc]
        · simp [e1]
      · unfold Eng.modes
        exact ((List.erase_sublist (a := (f, m)) (l := e.live)).map _).nodup h.modesNodup
      · intro g x hg; exact h.owner g x (List.mem_of_mem_erase hg)
    · have hn : (f, m) ∉ e.live := fun hc => hf (h.owner f m hc)
      simp only [if_neg hf, times_zero, Eng.after, Eng.told, hsame hn]
      exact ⟨s, rfl, h, rfl, by simp⟩
  | init m level =>
    simp only [step, h.init]
    by_cases hm : m ∈ e.modes
    · simp only [if_pos hm, times_one, Eng.after, Eng.told]
      refine ⟨_, rfl, ?_, ?_, ?_⟩
      · have hk : (tell (.levelInit level) s).hooks = s.hooks := by unfold tell; split <;> rfl
        exact ⟨by rw [hk]; exact h.reg, by rw [hk]; exact h.unreg, by rw [hk]; exact h.create, by rw [hk]; exact h.destroy,
          by rw [hk]; exact h.init, by rw [hk]; exact h.shut, h.regsNodup, h.modesNodup, h.regsNonzero, h.owner⟩
      · unfold tell; split <;> rfl
      · unfold tell; cases hc : s.callbacks <;> simp
    · simp only [if_neg hm, times_zero, Eng.after, Eng.told]
      exact ⟨s, rfl, h, rfl, by simp⟩
  | shut m =>
    simp only [step, h.shut]
    by_cases hm : m ∈ e.modes
    · simp only [if_pos hm, times_one, Eng.after, Eng.told]
      refine ⟨_, rfl, ?_, ?_, ?_⟩
      · have hk : (tell .levelShutdown s).hooks = s.hooks := by unfold tell; split <;> rfl
        exact ⟨by rw [hk]; exact h.reg, by rw [hk]; exact h.unreg, by rw [hk]; exact h.create, by rw [hk]; exact h.destroy,
          by rw [hk]; exact h.init, by rw [hk]; exact h.shut, h.regsNodup, h.modesNodup, h.regsNonzero, h.owner⟩
      · unfold tell; split <;> rfl
      · unfold tell; cases hc : s.callbacks <;> simp
    · simp only [if_neg hm, times_zero, Eng.after, Eng.told]
      exact ⟨s, rfl, h, rfl, by simp⟩

/-- C71: along every orderly sequence of calls, exactly the registered factories of the loop mode "game" and their living loop modes
carry the provider's hooks, and Metamod is told of every game start, level start and level end exactly once and in order. -/
theorem follows_engine {svc : Nat} : ∀ (evs : List Ev) {s : St} {e : Eng}, Follows svc s e → e.OrderlyAll evs →
    ∃ s', run svc evs s = .ok s' ∧ Follows svc s' (e.afterAll evs) ∧ s'.log = if s.callbacks then s.log ++ e.toldAll evs else s.log := by
  intro evs
  induction evs with
  | nil => intro s e h _; exact ⟨s, rfl, h, by simp [Eng.toldAll]⟩
  | cons ev evs ih =>
    intro s e h ho
    obtain ⟨s1, e1, f1, c1, l1⟩ := step_follows h ho.1
    obtain ⟨s2, e2, f2, l2⟩ := ih f1 ho.2
    refine ⟨s2, by simp only [run, e1, bind, Except.bind]; exact e2, f2, ?_⟩
    rw [l2, l1, c1]
    cases s.callbacks <;> simp [Eng.toldAll]

/-- C71: after the start with all interfaces there, the provider follows an engine with nothing registered. -/
theorem init_follows {i : Ifaces} {fs : Fs} (cb : Bool) (h1 : i.engine ≠ 0) (h2 : i.icvar ≠ 0) (h3 : i.baseFs ≠ 0) (h4 : i.svc ≠ 0) :
    ∃ s, init i fs ⟨[], [], cb⟩ = .ok (some (fixPaths fs, s)) ∧ Follows i.svc s ⟨[], []⟩ ∧ s.callbacks = cb ∧ s.log = [] ∧
      s.hooks.count (i.clients, .clientCommand) = if i.clients = 0 then 0 else 1 := by
  by_cases hc : i.clients = 0
  · refine ⟨⟨[(i.svc, .regLoop), (i.svc, .unregLoop)], [], cb⟩, ?_, ?_, rfl, rfl, ?_⟩
    · simp [init, h1, h2, h3, h4, hc, addHook, bind, Except.bind]
    · constructor <;> simp [Eng.modes]
    · simp [hc]
  · refine ⟨⟨[(i.clients, .clientCommand), (i.svc, .regLoop), (i.svc, .unregLoop)], [], cb⟩, ?_, ?_, rfl, rfl, ?_⟩
    · simp [init, h1, h2, h3, h4, hc, addHook, bind, Except.bind]
    · constructor <;> simp [Eng.modes]
    · simp [hc]

/-- C71: without the engine's or the console variables' interface the start ends (with a message) before anything is hooked or a search path
is touched. -/
theorem init_gives_up {i : Ifaces} {fs : Fs} {s : St} (h : i.engine = 0 ∨ i.icvar = 0) : init i fs s = .ok none := by
  by_cases h1 : i.engine = 0
  · simp [init, h1]
  · rcases h with h | h
    · exact absurd h h1
    · simp [init, h1, h]

example : init ⟨1, 1, 0, 1, 1⟩ (fun _ => []) ⟨[], [], true⟩ = .ok none := init_gives_up (.inr rfl)

/-- C71: when every factory is gone, the shutdown leaves no hook of the provider on any object. -/
theorem shutdown_clears {i : Ifaces} {s : St} {e : Eng} (h : Follows i.svc s e) (hr : e.regs = [])
    (ho : ∀ o k, (o, k) ∈ s.hooks → k = .regLoop ∨ k = .unregLoop → o = i.svc) (hc : ∀ o, (o, .clientCommand) ∈ s.hooks → o = i.clients ∧ i.clients ≠ 0) :
    (shutdown i s).hooks = [] := by
  have hl : e.modes = [] := by
    cases hlv : e.live with
    | nil => simp [Eng.modes, hlv]
    | cons a l =>
      have := h.owner a.1 a.2 (by rw [hlv]; simp)
      rw [hr] at this
      simp at this
  have key : ∀ o k, (o, k) ∈ (shutdown i s).hooks → (o, k) ∈ s.hooks ∧ (o, k) ≠ (i.svc, .regLoop) ∧ (o, k) ≠ (i.svc, .unregLoop) ∧
      (i.clients ≠ 0 → (o, k) ≠ (i.clients, .clientCommand)) := by
    intro o k hm
    unfold shutdown rmHook at hm
    by_cases hz : i.clients = 0
    · simp only [hz, ne_eq, not_true_eq_false, if_false, List.mem_filter, decide_eq_true_eq] at hm
      exact ⟨hm.1.1, hm.1.2, hm.2, fun h => absurd hz h⟩
    · simp only [ne_eq, hz, not_false_eq_true, if_true, List.mem_filter, decide_eq_true_eq] at hm
      exact ⟨hm.1.1.1, hm.1.1.2, hm.1.2, fun _ => hm.2⟩
  rw [List.eq_nil_iff_forall_not_mem]
  rintro ⟨o, k⟩ hm
  obtain ⟨k1, k2, k3, k4⟩ := key o k hm
  have hpos : 0 < s.hooks.count (o, k) := List.count_pos_iff.2 k1
  cases k with
  | regLoop => exact k2 (by rw [ho o _ k1 (Or.inl rfl)])
  | unregLoop => exact k3 (by rw [ho o _ k1 (Or.inr rfl)])
  | clientCommand =>
    obtain ⟨c1, c2⟩ := hc o k1
    exact k4 c2 (by rw [c1])
  | create => rw [h.create, hr] at hpos; simp at hpos
  | destroy => rw [h.destroy, hr] at hpos; simp at hpos
  | loopInit => rw [h.init, hl] at hpos; simp at hpos
  | loopShutdown => rw [h.shut, hl] at hpos; simp at hpos

/-- Specification: the text `n` occurs in `l`. -/
def Contains (n l : List Char) : Prop := ∃ a b, l = a ++ n ++ b

theorem hasSub_iff (n : List Char) : ∀ l, hasSub n l = true ↔ Contains n l := by
  intro l
  induction l with
  | nil =>
    simp only [hasSub, List.isEmpty_iff, Contains]
    constructor
    · rintro rfl; exact ⟨[], [], rfl⟩
    · rintro ⟨a, b, h⟩
      simp at h
      exact h.2.1
  | cons c cs ih =>
    simp only [hasSub, Bool.or_eq_true, ih, List.isPrefixOf_iff_prefix]
    constructor
    · rintro (⟨b, h⟩ | ⟨a, b, h⟩)
      · exact ⟨[], b, by simp [h]⟩
      · exact ⟨c :: a, b, by simp [h]⟩
    · rintro ⟨a, b, h⟩
      cases a with
      | nil => exact Or.inl ⟨b, by simpa using h.symm⟩
      | cons x a =>
        simp at h
        exact Or.inr ⟨a, b, by simp [h.2]⟩

/-- Specification: the name of Metamod's own directory. -/
def own : List Char := ['m', 'e', 't', 'a', 'm', 'o', 'd']

theorem cleanId_eq (id : String) : ∀ (ps : List (List Char)) (fs : Fs) (i : String),
    cleanId id ps fs i = if i = id then (fs i).filter (fun p => !(decide (p ∈ ps) && hasSub own p)) else fs i := by
  intro ps
  induction ps with
  | nil =>
              intro fs i; simp only [cleanId, List.not_mem_nil, decide_false, Bool.false_and, Bool.not_false]; split
              · rw [List.filter_eq_self.2 (by simp)]
              · rfl
  | cons q ps ih =>
    intro fs i
    simp only [cleanId, ih]
    have hown : "metamod".toList = own := rfl
    by_cases hi : i = id
    · simp only [if_pos hi, hown]
      by_cases hq : hasSub own q = true
      · simp only [hq, if_true, removePath, hi, List.filter_filter]
        congr 1
        funext p
        by_cases h1 : p = q
        · subst h1; simp [hq]
        · by_cases h2 : p ∈ ps <;> simp [h1, h2]
      · simp only [hq]
        congr 1
        funext p
        by_cases h1 : p = q
        · subst h1; simp [hq]
        · by_cases h2 : p ∈ ps <;> simp [h1, h2]
    · simp only [if_neg hi, hown]
      split
      · simp [removePath, hi]
      · rfl

theorem clean_eq : ∀ (ids : List String) (fs : Fs) (i : String),
    clean ids fs i = if i ∈ ids then (fs i).filter (fun p => !hasSub own p) else fs i := by
  intro ids
  induction ids with
  | nil => intro fs i; simp [clean]
  | cons id ids ih =>
    intro fs i
    simp only [clean, ih, cleanId_eq]
    have hfil : ∀ l : List (List Char), l.filter (fun p => !(decide (p ∈ l) && hasSub own p)) = l.filter (fun p => !hasSub own p) := by
      intro l
      apply List.filter_congr
      intro p hp
      simp [hp]
    by_cases hi : i = id
    · subst hi
      simp only [if_true, hfil, List.mem_cons, true_or, List.filter_filter]
      split
      · simp
      · rfl
    · by_cases hm : i ∈ ids <;> simp [hi, hm]

/-- C71: of the thirteen kinds of search paths exactly the directories with "metamod" in their name are taken out, the others stay
in their order; the write path is the first directory of the game that is left; nothing else changes. -/
theorem paths_exact (fs : Fs) (i : String) :
    (i ∈ pathIds → fixPaths fs i = (fs i).filter (fun p => !hasSub own p)) ∧
    (i ∉ pathIds → i ≠ "DEFAULT_WRITE_PATH" → fixPaths fs i = fs i) ∧
    fixPaths fs "DEFAULT_WRITE_PATH" = [((fs "GAME").filter (fun p => !hasSub own p)).headD []] := by
  have hd : "DEFAULT_WRITE_PATH" ∉ pathIds := by decide
  have hg : "GAME" ∈ pathIds := by decide
  refine ⟨?_, ?_, ?_⟩
  · intro hi
    have hne : i ≠ "DEFAULT_WRITE_PATH" := fun e => hd (e ▸ hi)
    simp [fixPaths, hne, clean_eq, hi]
  · intro hi hne
    simp [fixPaths, hne, clean_eq, hi]
  · simp [fixPaths, clean_eq, hg]

/-- C71: no directory with "metamod" in its name is left under the thirteen ids. -/
theorem paths_gone {fs : Fs} {i : String} (hi : i ∈ pathIds) : ∀ p ∈ fixPaths fs i, ¬ Contains own p := by
  intro p hp
  rw [(paths_exact fs i).1 hi] at hp
  have := (List.mem_filter.1 hp).2
  rw [← hasSub_iff]
  simpa using this

/-- Finding, core/provider/source2/provider_source2.cpp:122-133: if the server itself is installed below a directory with "metamod" in
its name, all its search paths of the thirteen kinds are taken out, and the write path becomes the empty name. -/
theorem paths_all_lost {fs : Fs} {root : List Char} (hr : Contains own root) (h : ∀ i ∈ pathIds, ∀ p ∈ fs i, ∃ t, p = root ++ t) :
    (∀ i ∈ pathIds, fixPaths fs i = []) ∧ fixPaths fs "DEFAULT_WRITE_PATH" = [[]] := by
  have hall : ∀ i ∈ pathIds, (fs i).filter (fun p => !hasSub own p) = [] := by
    intro i hi
    rw [List.filter_eq_nil_iff]
    intro p hp
    obtain ⟨t, rfl⟩ := h i hi p hp
    obtain ⟨a, b, rfl⟩ := hr
    have : hasSub own (a ++ own ++ b ++ t) = true := (hasSub_iff _ _).2 ⟨a, b ++ t, by simp⟩
    rw [this]
    decide
  refine ⟨fun i hi => by rw [(paths_exact fs i).1 hi]; exact hall i hi, ?_⟩
  rw [(paths_exact fs "GAME").2.2, hall "GAME" (by decide)]
  rfl

/-- Finding, core/provider/source2/provider_source2.cpp:84-87, 118: without a file system the start says that .vdf files will not be
read, and then calls the file system through NULL. -/
theorem no_filesystem_faults {i : Ifaces} {fs : Fs} {s : St} (h1 : i.engine ≠ 0) (h2 : i.icvar ≠ 0) (h3 : i.baseFs = 0) :
    init i fs s = .error .null := by
  simp [init, h1, h2, h3]

/-- Finding, core/provider/source2/provider_source2.cpp:148: the engine's service manager is hooked without a test for NULL. -/
theorem no_services_faults {i : Ifaces} {fs : Fs} {s : St} (h1 : i.engine ≠ 0) (h2 : i.icvar ≠ 0) (h3 : i.baseFs ≠ 0) (h4 : i.svc = 0) :
    init i fs s = .error .null := by
  by_cases hc : i.clients = 0 <;> simp [init, h1, h2, h3, h4, hc, addHook, bind, Except.bind]

/-- Finding, core/provider/source2/provider_source2.cpp:417-419: a factory that answers NULL makes the provider hook NULL. -/
theorem create_null_faults {svc : Nat} {s : St} {e : Eng} (h : Follows svc s e) {f : Nat} (hf : f ∈ e.regs) (ret : Nat) :
    step svc s (.create f 0 ret) = .error .null := by
  simp only [step, h.create, if_pos hf, times_one, onCreate, addHook, bind, Except.bind, if_true]

/-- Finding, core/provider/source2/provider_source2.cpp:417: if a plugin overrides the result of `CreateLoopMode`, the hooks go to the
object the engine does not get: Metamod is not told of its levels. -/
theorem override_not_followed {svc : Nat} {s : St} {e : Eng} (h : Follows svc s e) {f orig ret : Nat} (hf : f ∈ e.regs) (ho : orig ≠ 0)
    (hne : orig ≠ ret) (hr : ret ∉ e.modes) (level : List Char) :
    ∃ s', run svc [.create f orig ret, .init ret level] s = .ok s' ∧ s'.log = s.log := by
  refine ⟨{ s with hooks := s.hooks ++ [(orig, .loopInit)] ++ [(orig, .loopShutdown)] }, ?_, rfl⟩
  have h0 : (s.hooks ++ [(orig, Kind.loopInit)] ++ [(orig, Kind.loopShutdown)]).count (ret, .loopInit) = 0 := by
    have := h.init ret
    rw [if_neg hr] at this
    simp [List.count_append, this, hne]
  simp only [run, step, h.create, if_pos hf, times_one, onCreate, addHook, if_neg ho, bind, Except.bind, h0, times_zero]

/-- Finding, core/provider/source2/provider_source2.cpp:404-413: a loop mode destroyed after its factory was unregistered keeps its hooks;
an object created later at its address is taken for it. -/
theorem late_destroy_stays {svc : Nat} {s : St} {e : Eng} (h : Follows svc s e) {f m : Nat} (hm : (f, m) ∈ e.live) :
    ∃ s', run svc [.unreg game f, .destroy f m] s = .ok s' ∧ s'.hooks.count (m, .loopInit) = 1 ∧ s'.hooks.count (m, .loopShutdown) = 1 := by
  have h1 : m ∈ e.modes := mem_modes.2 ⟨f, hm⟩
  refine ⟨rmHook f .destroy (rmHook f .create s), ?_, ?_, ?_⟩
  · have h0 : (rmHook f .destroy (rmHook f .create s)).hooks.count (f, .destroy) = 0 := by
      simp only [rmHook]
      rw [count_filter_ne, if_pos rfl]
    simp only [run, step, h.unreg, times_one, onUnreg_game, bind, Except.bind, h0, times_zero]
  · simp only [rmHook]
    rw [count_rm (by decide) (by decide), h.init, if_pos h1]
  · simp only [rmHook]
    rw [count_rm (by decide) (by decide), h.shut, if_pos h1]

/-- The shutdown itself (core/provider/source2/provider_source2.cpp:159-165) does not take the hooks off factories and loop modes that
are still registered; they go only with `CompleteShutdown` (core/metamod.cpp:563). -/
theorem shutdown_leaves {i : Ifaces} {s : St} {e : Eng} (h : Follows i.svc s e) {f : Nat} (hf : f ∈ e.regs) :
    (shutdown i s).hooks.count (f, .create) = 1 := by
  have hc := h.create f
  rw [if_pos hf] at hc
  unfold shutdown rmHook
  by_cases hz : i.clients = 0
  · simp only [hz, ne_eq, not_true_eq_false, if_false]
    have := count_rm (l := s.hooks) (a := .regLoop) (b := .unregLoop) (f := i.svc) (o := f) (k := .create) (by decide) (by decide)
    simp only [ne_eq] at this
    rw [this, hc]
  · simp only [ne_eq, hz, not_false_eq_true, if_true]
    have h1 := count_filter_ne ((s.hooks.filter (fun x => decide ¬x = (i.svc, .regLoop))).filter (fun x => decide ¬x = (i.svc, .unregLoop)))
      (i.clients, .clientCommand) (f, .create)
    have := count_rm (l := s.hooks) (a := .regLoop) (b := .unregLoop) (f := i.svc) (o := f) (k := .create) (by decide) (by decide)
    simp only [ne_eq] at this h1
    rw [h1, if_neg (by simp), this, hc]

/-! Concrete cases. -/

example : Eng.OrderlyAll ⟨[], []⟩ [.reg game 8, .create 8 16 16, .init 16 ['d', 'e'], .shut 16, .destroy 8 16, .unreg game 8] := by
  simp [Eng.OrderlyAll, Eng.Orderly, Eng.after, Eng.modes, game]
example : Eng.toldAll ⟨[], []⟩ [.reg game 8, .create 8 16 16, .init 16 ['d', 'e'], .shut 16, .destroy 8 16, .unreg game 8] =
    [.gameInit, .levelInit ['d', 'e'], .levelShutdown] := by decide
example : Follows 4 ⟨[(4, .regLoop), (4, .unregLoop), (8, .create), (8, .destroy), (16, .loopInit), (16, .loopShutdown)], [], true⟩ ⟨[8], [(8, 16)]⟩ := by
  constructor <;> simp [Eng.modes, List.count_cons] <;> (try intro o) <;> (try split) <;> (try omega) <;> grind
example : Contains own "/srv/metamod-test/game/csgo".toList := ⟨"/srv/".toList, "-test/game/csgo".toList, by decide⟩
example : "GAME" ∈ pathIds ∧ "LOGDIR" ∉ pathIds := by decide

#print axioms follows_engine
#print axioms init_follows
#print axioms shutdown_clears
#print axioms paths_exact
#print axioms paths_gone
#print axioms paths_all_lost
#print axioms no_filesystem_faults
#print axioms no_services_faults
#print axioms create_null_faults
#print axioms override_not_followed
#print axioms late_destroy_stays
#print axioms shutdown_leaves
#print axioms init_gives_up

end Verif.Prov.S2
