import Verif.Loader.Dedicated
/-! C105: dedicated servers are allowed once per request, and the game's table is put back. -/
namespace Verif.Dedi

/-- Specification: the table whose next answer is true, and the answers; everything else is answered by the game with the code its
table had at the start. No counterpart in /repo: the order of events loader/gamedll.cpp:259-265 describes. -/
def answers (w : World) (mem : Nat → Nat) : List Op → Option Nat → Option Nat × List Bool
  | [], t => (t, [])
  | .request p :: r, _ => answers w mem r (some (w.vt p))
  | .ask p u :: r, t =>
    if t = some (w.vt p) then let x := answers w mem r none; (x.1, true :: x.2)
    else let x := answers w mem r t; (x.1, w.game (mem (w.slot p)) p u :: x.2)

/-- Specification: nothing is requested while the loader's function waits to be called. No counterpart in /repo. -/
def Orderly (w : World) : List Op → Option Nat → Prop
  | [], _ => True
  | .request p :: r, t => t = none ∧ Orderly w r (some (w.vt p))
  | .ask p _ :: r, t => Orderly w r (if t = some (w.vt p) then none else t)

/-- Specification: the memory with the loader's function in the table `t`. No counterpart in /repo. -/
def patched (w : World) (mem : Nat → Nat) : Option Nat → Nat → Nat
  | none => mem
  | some v => fun a => if a = v + 21 then w.thunk else mem a

/-- The slots hold code of the game. No counterpart in /repo. -/
def Own (w : World) (mem : Nat → Nat) : Prop := w.thunk ≠ 0 ∧ ∀ p, mem (w.slot p) ≠ 0 ∧ mem (w.slot p) ≠ w.thunk

private def Rel (w : World) (mem : Nat → Nat) (s : St) (t : Option Nat) : Prop :=
  s.mem = patched w mem t ∧
  match t with
  | none => s.saved = 0
  | some v => ∃ c, s.config = some c ∧ w.vt c = v ∧ s.saved = mem (w.slot c)

private theorem refine {w : World} {mem : Nat → Nat} (ho : Own w mem) (asserts : Bool) : ∀ (ops : List Op) (t : Option Nat) (s : St),
    Rel w mem s t → Orderly w ops t →
    ∃ s', run w asserts ops s = .ok (s', (answers w mem ops t).2) ∧ s'.mem = patched w mem (answers w mem ops t).1
  | [], t, s, h, _ => ⟨s, rfl, h.1⟩
  | .request p :: r, t, s, h, o => by
    obtain ⟨rfl, o⟩ := o
    obtain ⟨hm, hs⟩ := h
    have hs : s.saved = 0 := hs
    have e : request w asserts p s = .ok ⟨upd s.mem (w.slot p) w.thunk, some p, s.mem (w.slot p)⟩ := by
      simp [request, patch, hs]
    obtain ⟨s', e', m'⟩ := refine ho asserts r (some (w.vt p)) ⟨upd s.mem (w.slot p) w.thunk, some p, s.mem (w.slot p)⟩
      ⟨by rw [hm]; rfl, p, rfl, rfl, by rw [hm]; rfl⟩ o
    exact ⟨s', by simp [run, e, bind, Except.bind, e', answers], m'⟩
  | .ask p u :: r, t, s, h, o => by
    by_cases ht : t = some (w.vt p)
    · subst ht
      obtain ⟨hm, c, hc, hv, hs⟩ := h
      have hcs : w.slot c = w.slot p := by unfold World.slot; rw [hv]
      have hf : s.mem (w.slot p) = w.thunk := by rw [hm]; simp [patched, World.slot]
      have hs0 : s.saved ≠ 0 := by rw [hs]; exact (ho.2 c).1
      have e : ask w asserts p u s = .ok (⟨upd s.mem (w.slot c) s.saved, s.config, 0⟩, true) := by
        simp [ask, hf, ho.1, patch, hc, hs0, bind, Except.bind]
      have hmem : upd s.mem (w.slot c) s.saved = patched w mem none := by
        funext a
        by_cases ha : a = w.slot c
        · simp [upd, ha, hs, patched]
        · have : ¬ a = w.vt p + 21 := by rw [hcs] at ha; exact ha
          simp [upd, ha, hm, patched, this]
      simp only [Orderly, if_true] at o
      obtain ⟨s', e', m'⟩ := refine ho asserts r none ⟨upd s.mem (w.slot c) s.saved, s.config, 0⟩ ⟨hmem, rfl⟩ o
      refine ⟨s', ?_, ?_⟩
      · simp [run, e, bind, Except.bind, e', answers]
      · simpa [answers] using m'
    · have hf : s.mem (w.slot p) = mem (w.slot p) := by
        rw [h.1]
        cases t with
        | none => rfl
        | some v =>
          have : ¬ w.slot p = v + 21 := by
            unfold World.slot
            intro k
            exact ht (by rw [Nat.add_right_cancel k])
          simp [patched, this]
      have e : ask w asserts p u s = .ok (s, w.game (mem (w.slot p)) p u) := by
        simp [ask, hf, ho.2 p]
      simp only [Orderly, if_neg ht] at o
      obtain ⟨s', e', m'⟩ := refine ho asserts r t s h o
      refine ⟨s', ?_, ?_⟩
      · simp [run, e, bind, Except.bind, e', answers, ht]
      · simpa [answers, ht] using m'

/-- C105 (missing: requests while an earlier one waits for its call, see `requested_twice_null`): for every orderly sequence of requests
and calls, over any number of objects and tables and with or without assertions, nothing fails; the first call after each request
that goes through the same table is answered with true, every other call by the game's own function; and in the end every slot of
memory is what it was, but for the one waiting. -/
theorem allowed_once_partial {w : World} {mem : Nat → Nat} (ho : Own w mem) (asserts : Bool) {ops : List Op} (h : Orderly w ops none) :
    ∃ s', run w asserts ops ⟨mem, none, 0⟩ = .ok (s', (answers w mem ops none).2) ∧
      s'.mem = patched w mem (answers w mem ops none).1 :=
  refine ho asserts ops none ⟨mem, none, 0⟩ ⟨rfl, rfl⟩ h

/-- No counterpart in /repo: objects 1 and 2 share a table, object 3 has another; the game says no. -/
def exW : World := ⟨fun p => if p = 3 then 200 else 100, 9, fun _ _ _ => false⟩

/-- No counterpart in /repo: the game's code. -/
def exMem : Nat → Nat := fun _ => 5

example : Own exW exMem ∧ Orderly exW [.request 1, .ask 3 1, .ask 2 1, .ask 1 1, .request 3, .ask 3 1] none ∧
    (answers exW exMem [.request 1, .ask 3 1, .ask 2 1, .ask 1 1, .request 3, .ask 3 1] none).2 = [false, true, false, true] := by
  refine ⟨⟨by decide, fun p => ⟨show (5 : Nat) ≠ 0 by decide, show (5 : Nat) ≠ 9 by decide⟩⟩, ?_, by decide⟩
  simp [Orderly, exW]

/-- C105: when the calls have caught up with the requests, the memory is the game's again, all of it. -/
theorem all_put_back {w : World} {mem : Nat → Nat} (ho : Own w mem) (asserts : Bool) {ops : List Op} (h : Orderly w ops none)
    (hd : (answers w mem ops none).1 = none) : ∃ s' as, run w asserts ops ⟨mem, none, 0⟩ = .ok (s', as) ∧ s'.mem = mem := by
  obtain ⟨s', e, m⟩ := allowed_once_partial ho asserts h
  rw [hd] at m
  exact ⟨s', _, e, m⟩

example : (answers exW exMem [.request 1, .ask 2 1] none).1 = none := by decide

/-- C105, finding: if `Source2ServerConfig` is requested twice before `AllowDedicatedServers` is called, the loader saves its own
function as the original (loader/gamedll.cpp:715): the first two calls are answered with true, the second of them writes NULL into the
table, and the third call is a call of NULL. The game's function is lost. -/
theorem requested_twice_null {w : World} (ht : w.thunk ≠ 0) (s : St) (p : Nat) (u : Int) :
    ∃ s', run w false [.request p, .request p, .ask p u, .ask p u] s = .ok (s', [true, true]) ∧ s'.mem (w.slot p) = 0 ∧
      run w false [.request p, .request p, .ask p u, .ask p u, .ask p u] s = .error .nullCall := by
  refine ⟨⟨upd (upd (upd (upd s.mem (w.slot p) w.thunk) (w.slot p) w.thunk) (w.slot p) w.thunk) (w.slot p) 0, some p, 0⟩, ?_, ?_, ?_⟩
  · simp [run, request, ask, patch, upd, ht, bind, Except.bind]
  · simp [upd]
  · simp [run, request, ask, patch, upd, ht, bind, Except.bind]

/-- C105: a build with assertions stops at the second request instead. -/
theorem requested_twice_stops {w : World} {s : St} (hs : s.saved = 0) (p q : Nat) (h0 : s.mem (w.slot p) ≠ 0) (r : List Op) :
    run w true (.request p :: .request q :: r) s = .error .assertion := by
  simp [run, request, patch, hs, h0, bind, Except.bind]

example : (⟨exMem, none, 0⟩ : St).saved = 0 ∧ exMem (exW.slot 1) ≠ 0 := by decide

/-- C105, finding: if the second request yields an object with another table, the call through the first one puts back the slot of the
second, unasked, so that the call through this one is answered by the game; one more call through the first, which keeps the loader's function for good,
writes NULL into the second, and calling it is a call of NULL (loader/gamedll.cpp:706, 721). -/
theorem other_object_null {w : World} {mem : Nat → Nat} (ho : Own w mem) {p q : Nat} (hpq : w.vt p ≠ w.vt q) (u : Int) :
    (∃ s', run w false [.request p, .request q, .ask p u, .ask q u] ⟨mem, none, 0⟩ =
        .ok (s', [true, w.game (mem (w.slot q)) q u]) ∧ s'.mem (w.slot p) = w.thunk) ∧
    run w false [.request p, .request q, .ask p u, .ask p u, .ask q u] ⟨mem, none, 0⟩ = .error .nullCall := by
  have n1 : w.slot p ≠ w.slot q := fun k => hpq (Nat.add_right_cancel k)
  have n2 := n1.symm
  obtain ⟨h1, h2⟩ := ho.2 q
  refine ⟨⟨⟨upd (upd (upd mem (w.slot p) w.thunk) (w.slot q) w.thunk) (w.slot q) (mem (w.slot q)), some q, 0⟩, ?_, ?_⟩, ?_⟩
  · simp [run, request, ask, patch, upd, ho.1, n1, n2, h1, h2, bind, Except.bind]
  · simp [upd, n1]
  · simp [run, request, ask, patch, upd, ho.1, n1, n2, bind, Except.bind]

example : Own exW exMem ∧ exW.vt 1 ≠ exW.vt 3 := ⟨⟨by decide, fun p => ⟨show (5 : Nat) ≠ 0 by decide, show (5 : Nat) ≠ 9 by decide⟩⟩, by decide⟩

#print axioms allowed_once_partial
#print axioms all_put_back
#print axioms requested_twice_null
#print axioms requested_twice_stops
#print axioms other_object_null
end Verif.Dedi
