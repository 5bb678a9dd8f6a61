import Verif.Jit.RuleProps
/-
C89, parameters: objects with a destructor that are passed by value to a hooked function
(core/sourcehook/sourcehook_hookmangen_x86_64.cpp:460-485 in `GenerateHookFunc` and 932-984
`PushParameters`).  In the Microsoft convention for 64 bits the caller makes the object and passes its
address, and the function called destroys it.
-/
namespace Verif.Jit.Rule

variable {V : Vars} {g : Gen} {C : Context}

/-- Specification: the calls that are handed the parameters by value: the functions of the hooks and
the original function. -/
def handedTo (pre post : List Hook) (o : Option W) : List W :=
  pre.map (·.fn) ++ ((if o.isSome then [C.entry] else []) ++ post.map (·.fn))

theorem loop_handed (ps : List Arg) : ∀ (hs : List Hook) (σ : St), ∃ calls : List Seen,
    calls.Sublist (loopCalls g C ps σ hs) ∧ calls.map (·.target) = hs.map (·.fn) ∧
      ∀ c ∈ calls, c.args.tail = ps := by
  intro hs
  induction hs with
  | nil => intro σ; exact ⟨[], List.nil_sublist _, rfl, fun c hc => by cases hc⟩
  | cons h hs ih =>
    intro σ
    obtain ⟨calls, s, e, p⟩ := ih (σ.hook g h)
    refine ⟨⟨h.fn, .int h.obj :: ps, σ⟩ :: calls, ?_, by simp [e], ?_⟩
    · rw [loopCalls, List.append_assoc]
      exact .cons _ (.cons_cons _ (s.trans (List.sublist_append_right _ _)))
    · intro c hc
      rcases List.mem_cons.1 hc with rfl | hc
      · rfl
      · exact p c hc

theorem orig_handed (this : W) (ps : List Arg) (σ : St) (o : Option W) : ∃ calls : List Seen,
    calls.Sublist (origCalls C this ps σ o) ∧
      calls.map (·.target) = (if o.isSome then [C.entry] else []) ∧ ∀ c ∈ calls, c.args.tail = ps := by
  refine ⟨if o.isSome then [⟨C.entry, .int this :: ps, σ⟩] else [], ?_, ?_, ?_⟩
  · exact List.sublist_append_right _ _
  · split <;> rfl
  · intro c hc
    split at hc
    · rw [List.mem_singleton] at hc
      rw [hc]
      rfl
    · cases hc

theorem dtor_made (σ : St) : ∀ (l : List Pass) (ps : List Arg) (i : Nat) {p : Pass} {a : Arg},
    l[i]? = some p → p.destroyed = true → ps[i]? = some a →
    [(⟨p.dtor, [a], σ⟩ : Seen)].Sublist (dtorCalls σ l ps) := by
  intro l
  induction l with
  | nil => intro ps i p a h; simp at h
  | cons q l ih =>
    intro ps i p a h hd hx
    cases ps with
    | nil => simp at hx
    | cons b ps =>
      rw [dtorCalls]
      cases i with
      | zero =>
        simp only [List.getElem?_cons_zero, Option.some.injEq] at h hx
        subst h hx
        rw [if_pos hd]
        exact List.sublist_append_left _ _
      | succ i =>
        simp only [List.getElem?_cons_succ] at h hx
        exact (ih ps i h hd hx).trans (List.sublist_append_right _ _)

/-- **C89**, a departure: an object with a destructor that is passed by value is destroyed more than once.  Among the calls of
the hook function (`hook_rule`), in this order: every hook and the original function, where it is
called, with the address of the same object as parameter `i`, and at the end the object's destructor.
Each of the functions owns its parameters and destroys them; so the destructor runs once for each of
them and once more, and all but the first find an object that is gone. -/
theorem parameter_destroyed_again (m : Memory) (this : W) (ps : List Arg) (pre post : List Hook)
    (o : Option W) {i : Nat} {p : Pass} {x : W} (hp : g.params[i]? = some p)
    (ht : p.type = typeObject) (hf : p.flags &&& flagODtor ≠ 0) (hv : p.flags &&& flagByVal ≠ 0)
    (hx : ps[i]? = some (.int x)) :
    ∃ (calls : List Seen) (d : Seen), (calls ++ [d]).Sublist (wanted V g C m this ps pre post o) ∧
      calls.map (·.target) = handedTo (C := C) pre post o ∧
      (∀ c ∈ calls, c.args[i + 1]? = some (.int x)) ∧ d.target = p.dtor ∧ d.args = [.int x] := by
  have hd : p.destroyed = true := by
    have a : p.has flagODtor = true := bne_iff_ne.2 hf
    have b : p.has flagByVal = true := bne_iff_ne.2 hv
    unfold Pass.destroyed
    rw [ht, a, b]
    rfl
  obtain ⟨c1, s1, e1, a1⟩ := loop_handed (g := g) (C := C) ps pre (first V m)
  obtain ⟨c2, s2, e2, a2⟩ := orig_handed (C := C) this ps (passed g (first V m) pre) o
  obtain ⟨c3, s3, e3, a3⟩ := loop_handed (g := g) (C := C) ps post ((passed g (first V m) pre).orig g o)
  refine ⟨c1 ++ (c2 ++ c3), ⟨p.dtor, [.int x], last V g m pre post o⟩, ?_, ?_, ?_, rfl, rfl⟩
  · rw [List.append_assoc, List.append_assoc]
    exact .cons _ (s1.append (s2.append (s3.append
      ((dtor_made _ _ _ i hp hd hx).trans (List.sublist_append_right _ _)))))
  · simp [e1, e2, e3, handedTo]
  · have key : ∀ c : Seen, c.args.tail = ps → c.args[i + 1]? = some (.int x) := by
      intro c hc
      rw [← hx, ← hc, List.getElem?_tail]
    intro c hc
    rcases List.mem_append.1 hc with hc | hc
    · exact key c (a1 c hc)
    · rcases List.mem_append.1 hc with hc | hc
      · exact key c (a2 c hc)
      · exact key c (a3 c hc)

/-- A function with one such parameter, one hook, the original called: the destructor runs three
times. -/
example : ∃ (calls : List Seen) (d : Seen), (calls ++ [d]).Sublist
      (wanted rxVars { exGen with params := [⟨24, typeObject, flagByVal ||| flagODtor, 0, 0, 0x900, 0⟩] }
        rxCtx rxMem 0x1000 [.int 0x5000] [{ rxHook with res := 1 }] [] (some 5)) ∧
      calls.map (·.target) = [0x888, 0] ∧ (∀ c ∈ calls, c.args[1]? = some (.int 0x5000)) ∧
      d.target = 0x900 ∧ d.args = [.int 0x5000] :=
  parameter_destroyed_again (C := rxCtx) rxMem 0x1000 [.int 0x5000] [{ rxHook with res := 1 }] [] (some 5)
    (i := 0) (p := ⟨24, typeObject, flagByVal ||| flagODtor, 0, 0, 0x900, 0⟩) rfl rfl (by decide) (by decide) rfl

end Verif.Jit.Rule

#print axioms Verif.Jit.Rule.parameter_destroyed_again
