import Verif.SH.LoopNote
/-
Runs of the machine, and the history invariant: what the history says about running activations.
-/
namespace Verif.SH

/-- Contract of the environment: a slot that can be made writable is in mapped memory. -/
def EnvOk (E : Env) : Prop := ∀ a, E.writable a = true → E.inMemory a = true

/-- States reachable from a fresh SourceHook by operations that keep the contract. -/
inductive LReach (E : Env) : St → Prop
  | init (mem0 : Addr → Addr) : (∀ a, E.pubAt (mem0 a) = none) → LReach E { reg := { mem := mem0 } }
  | step {s s' : St} {op : Op} : LReach E s → Ok E s op → step E s op = .ok s' → LReach E s'

/-- Runs that keep the contract, with a property of every state passed (including both ends). -/
inductive Run (E : Env) (P : St → Prop) : St → St → Prop
  | refl {s : St} : P s → Run E P s s
  | step {s s' s'' : St} {op : Op} : Run E P s s' → Ok E s' op → step E s' op = .ok s'' → P s'' → Run E P s s''

theorem Run.reach {E : Env} {P : St → Prop} {s s' : St} (h : Run E P s s') (hr : LReach E s) : LReach E s' := by
  induction h with
  | refl _ => exact hr
  | step _ h1 h2 _ ih => exact .step ih h1 h2

theorem Run.first {E : Env} {P : St → Prop} {s s' : St} (h : Run E P s s') : P s := by
  induction h with
  | refl h => exact h
  | step _ _ _ _ ih => exact ih

theorem Run.last {E : Env} {P : St → Prop} {s s' : St} (h : Run E P s s') : P s' := by
  cases h with
  | refl h => exact h
  | step _ _ _ h => exact h

theorem Run.mono {E : Env} {P Q : St → Prop} {s s' : St} (h : Run E P s s') (hpq : ∀ s, P s → Q s) : Run E Q s s' := by
  induction h with
  | refl h => exact .refl (hpq _ h)
  | step _ h1 h2 h3 ih => exact .step ih h1 h2 (hpq _ h3)

theorem MInv.init {E : Env} {mem0 : Addr → Addr} (h0 : ∀ a, E.pubAt (mem0 a) = none) : MInv E { reg := { mem := mem0 } } := by
  refine ⟨⟨⟨mem0, regInv_init E mem0, h0⟩, ?_⟩, .nil, List.Pairwise.nil, by simp [hookFrames], by simp, ?_, List.Pairwise.nil, ?_, trivial,
    trivial, rfl⟩
  · rintro o p q i ⟨h, hh, _⟩; cases hh
  · intro cid _ g; exact ⟨rfl, rfl⟩
  · intro c g n hn; cases hn

theorem LReach.inv {E : Env} (hE : EnvOk E) {s : St} (h : LReach E s) : MInv E s := by
  induction h with
  | init mem0 h0 => exact MInv.init h0
  | step h1 h2 h3 ih =>
    obtain ⟨s2, e1, e2⟩ := step_tr hE ih h2
    rw [h3] at e1; cases e1
    exact ih.step h2 e2

/-! ### pairs of activations and contexts -/

/-- A property of every activation and its context. -/
inductive All2 (P : Frame → Ctx → Prop) : List Frame → List Ctx → Prop
  | nil : All2 P [] []
  | cons {f : Frame} {c : Ctx} {fs : List Frame} {cs : List Ctx} : P f c → All2 P fs cs → All2 P (f :: fs) (c :: cs)

theorem All2.imp {P Q : Frame → Ctx → Prop} {fs : List Frame} {cs : List Ctx} (h : All2 P fs cs)
    (hpq : ∀ f ∈ fs, ∀ c ∈ cs, P f c → Q f c) : All2 Q fs cs := by
  induction h with
  | nil => exact .nil
  | cons h1 h2 ih =>
    exact .cons (hpq _ (List.mem_cons_self ..) _ (List.mem_cons_self ..) h1)
      (ih fun f hf c hc => hpq f (List.mem_cons_of_mem _ hf) c (List.mem_cons_of_mem _ hc))

theorem All2.map {P Q : Frame → Ctx → Prop} {fs : List Frame} {cs : List Ctx} (h : All2 P fs cs) {G : Frame → Frame} {F : Ctx → Ctx}
    (hpq : ∀ f ∈ fs, ∀ c ∈ cs, P f c → Q (G f) (F c)) : All2 Q (fs.map G) (cs.map F) := by
  induction h with
  | nil => exact .nil
  | cons h1 h2 ih =>
    exact .cons (hpq _ (List.mem_cons_self ..) _ (List.mem_cons_self ..) h1)
      (ih fun f hf c hc => hpq f (List.mem_cons_of_mem _ hf) c (List.mem_cons_of_mem _ hc))

theorem All2.and {P Q : Frame → Ctx → Prop} {fs : List Frame} {cs : List Ctx} (h : All2 P fs cs) (h' : All2 Q fs cs) :
    All2 (fun f c => P f c ∧ Q f c) fs cs := by
  induction h with
  | nil => exact .nil
  | cons h1 h2 ih => cases h' with | cons k1 k2 => exact .cons ⟨h1, k1⟩ (ih k2)

theorem All2.top {P : Frame → Ctx → Prop} {f : Frame} {fs : List Frame} {c : Ctx} {cs : List Ctx}
    (h : All2 P (f :: fs) (c :: cs)) : P f c ∧ All2 P fs cs := by cases h with | cons h1 h2 => exact ⟨h1, h2⟩

theorem Al.all {r : Reg} {log : List Ev} {fs : List Frame} {cs : List Ctx} (h : Al r log fs cs) :
    All2 (fun f c => f.cid = c.cid ∧ CtxOk r log c) fs cs := by
  induction h with
  | nil => exact .nil
  | cons h1 _ _ ih => exact .cons ⟨h1.cid, h1.ctxOk⟩ ih

theorem All2.mem {P : Frame → Ctx → Prop} {fs : List Frame} {cs : List Ctx} (h : All2 P fs cs) {c : Ctx} (hc : c ∈ cs) :
    ∃ f ∈ fs, P f c := by
  induction h with
  | nil => cases hc
  | @cons f d fs cs h1 _ ih =>
    rcases List.mem_cons.1 hc with rfl | hc
    · exact ⟨f, List.mem_cons_self .., h1⟩
    · obtain ⟨f, hf, h⟩ := ih hc
      exact ⟨f, List.mem_cons_of_mem _ hf, h⟩

theorem All2.mem' {P : Frame → Ctx → Prop} {fs : List Frame} {cs : List Ctx} (h : All2 P fs cs) {f : Frame} (hf : f ∈ fs) :
    ∃ c ∈ cs, P f c := by
  induction h with
  | nil => cases hf
  | @cons g d fs cs h1 _ ih =>
    rcases List.mem_cons.1 hf with rfl | hf
    · exact ⟨d, List.mem_cons_self .., h1⟩
    · obtain ⟨c, hc, h⟩ := ih hf
      exact ⟨c, List.mem_cons_of_mem _ hc, h⟩

/-! ### what the history says -/

/-- A handler that waits for the function it recalled. -/
def RecWait (p : Pt) : Prop := ∃ n, p = .recPre n none ∨ p = .recPost n none

/-- Call `cid` was recalled at least once. -/
def Recalled (log : List Ev) (cid : Nat) : Prop := ∃ f f' st, Ev.recall cid f f' st ∈ log

/-- Nothing of the second half of call `cid` happened yet. -/
structure Clean (log : List Ev) (cid : Nat) : Prop where
  orig : ∀ fid a, Ev.origCall cid fid a ∉ log
  ret : ∀ fid v, Ev.ret cid fid v ∉ log
  post : invoked log cid .post = []
  postVP : invoked log cid .postVP = []

/-- What the history says about an activation and its context. -/
structure HOk (r : Reg) (log : List Ev) (f : Frame) (c : Ctx) : Prop where
  ent : c.st ≠ .dead → ∃ fid p, Ev.enter c.cid fid (some p) c.this ∈ log ∧ ∀ v ∈ r.vfns, c.vfn = some v.oid → v.ptr = p
  ret : c.st ≠ .dead → ∀ fid v, Ev.ret c.cid fid v ∉ log
  orig : c.st ≠ .dead → Todo c.st .preVP → ∀ fid a, Ev.origCall c.cid fid a ∉ log
  once : (f.pt = .preLoop ∨ ∃ n, f.pt = .inPre n) → f.status = supercede ∨ c.callOrig = false ∨ Clean log c.cid
  pre : ∀ n, f.pt = .inPre n → ∃ g : Grp, g.side = false ∧ n ∈ invoked log c.cid g ∧ (c.st = g.st ∨ c.st = .dead)
  post : ∀ n, f.pt = .inPost n → ∃ g : Grp, g.side = true ∧ n ∈ invoked log c.cid g ∧ (c.st = g.st ∨ c.st = .dead)
  ino : f.pt = .inOrig → ∃ fid a, Ev.origCall c.cid fid a ∈ log
  rcl : ∀ cid fid st, Ev.recall cid f.fid fid st ∈ log → c.st = .dead

/-- The event says nothing about call `cid` and activation `fid` that `HOk` depends on. -/
def Ev.free (cid fid : Nat) : Ev → Prop
  | .invoke c _ _ _ _ => c ≠ cid
  | .origCall c _ _ => c ≠ cid
  | .ret c _ _ => c ≠ cid
  | .recall _ f _ _ => f ≠ fid
  | _ => True

theorem invoked_free {X log : List Ev} {cid fid : Nat} (hX : ∀ e ∈ X, e.free cid fid) (g : Grp) :
    invoked (X ++ log) cid g = invoked log cid g := by
  induction X with
  | nil => rfl
  | cons e X ih =>
    have he := hX e (List.mem_cons_self ..)
    rw [List.cons_append]
    rw [← ih fun e h => hX e (List.mem_cons_of_mem _ h)]
    cases e with
    | invoke c f g' n p =>
      rw [invoked_invoke, if_neg (by intro hh; exact he hh.1)]; simp
    | _ => rfl

theorem Clean.free {log X : List Ev} {cid fid : Nat} (h : Clean log cid) (hX : ∀ e ∈ X, e.free cid fid) : Clean (X ++ log) cid := by
  refine ⟨?_, ?_, by rw [invoked_free hX]; exact h.post, by rw [invoked_free hX]; exact h.postVP⟩
  · intro fid a hm
    rcases List.mem_append.1 hm with hm | hm
    · exact absurd rfl (hX _ hm)
    · exact h.orig fid a hm
  · intro fid a hm
    rcases List.mem_append.1 hm with hm | hm
    · exact absurd rfl (hX _ hm)
    · exact h.ret fid a hm

theorem HOk.free {r : Reg} {log X : List Ev} {f : Frame} {c : Ctx} (h : HOk r log f c)
    (hX : ∀ e ∈ X, e.free c.cid f.fid) : HOk r (X ++ log) f c := by
  have hi := fun g => invoked_free (log := log) hX g
  refine ⟨?_, ?_, ?_, ?_, ?_, ?_, ?_, ?_⟩
  · intro hd
    obtain ⟨fid, p, h1, h2⟩ := h.ent hd
    exact ⟨fid, p, List.mem_append_right _ h1, h2⟩
  · intro hd fid v hm
    rcases List.mem_append.1 hm with hm | hm
    · exact absurd rfl (hX _ hm)
    · exact h.ret hd fid v hm
  · intro hd ht fid v hm
    rcases List.mem_append.1 hm with hm | hm
    · exact absurd rfl (hX _ hm)
    · exact h.orig hd ht fid v hm
  · intro hp
    rcases h.once hp with e | e | e
    · exact Or.inl e
    · exact Or.inr (Or.inl e)
    · exact Or.inr (Or.inr (e.free hX))
  · intro n hn; obtain ⟨g, h1, h2, h3⟩ := h.pre n hn; exact ⟨g, h1, by rw [hi]; exact h2, h3⟩
  · intro n hn; obtain ⟨g, h1, h2, h3⟩ := h.post n hn; exact ⟨g, h1, by rw [hi]; exact h2, h3⟩
  · intro hp; obtain ⟨fid, a, h1⟩ := h.ino hp; exact ⟨fid, a, List.mem_append_right _ h1⟩
  · intro cid fid st hm
    rcases List.mem_append.1 hm with hm | hm
    · exact absurd rfl (hX _ hm)
    · exact h.rcl cid fid st hm

/-- Nothing is claimed about a recalling handler. -/
theorem HOk.waiting (r : Reg) (log : List Ev) {f : Frame} {c : Ctx} (hd : c.st = .dead) (hw : RecWait f.pt) : HOk r log f c := by
  obtain ⟨n, hw⟩ := hw
  have h1 : f.pt ≠ .preLoop := by rcases hw with e | e <;> rw [e] <;> simp
  have h2 : ∀ n, f.pt ≠ .inPre n := by intro m; rcases hw with e | e <;> rw [e] <;> simp
  have h3 : ∀ n, f.pt ≠ .inPost n := by intro m; rcases hw with e | e <;> rw [e] <;> simp
  have h4 : f.pt ≠ .inOrig := by rcases hw with e | e <;> rw [e] <;> simp
  exact ⟨fun h => absurd hd h, fun h => absurd hd h, fun h => absurd hd h, fun h => by
      rcases h with h | ⟨n, h⟩
      · exact absurd h h1
      · exact absurd h (h2 n),
    fun n h => absurd h (h2 n), fun n h => absurd h (h3 n), fun h => absurd h h4, fun _ _ _ _ => hd⟩

theorem HOk.frame {r : Reg} {log : List Ev} {f f' : Frame} {c : Ctx} (h : HOk r log f c) (e1 : f'.fid = f.fid) (e2 : f'.pt = f.pt)
    (e3 : f'.status = f.status) : HOk r log f' c :=
  ⟨h.ent, h.ret, h.orig, by rw [e2, e3]; exact h.once, by rw [e2]; exact h.pre, by rw [e2]; exact h.post,
    by rw [e2]; exact h.ino, by rw [e1]; exact h.rcl⟩

theorem HOk.note {r r' : Reg} {log : List Ev} {f : Frame} {c c' : Ctx} (h : HOk r log f c) (hn : NoteFrame c c')
    (hk : c.st ≠ .dead → ∃ v ∈ r.vfns, c.vfn = some v.oid ∧ ∀ v' ∈ r'.vfns, v'.oid = v.oid → v.ptr = v'.ptr) :
    HOk r' log f c' := by
  have hst : c'.st ≠ .dead → c'.st = c.st := fun hd => hn.st.resolve_right hd
  have hd' : c'.st ≠ .dead → c.st ≠ .dead := fun hd hc => hd (by rw [hst hd, hc])
  refine ⟨?_, ?_, ?_, by rw [hn.callOrig, hn.cid]; exact h.once, ?_, ?_, by rw [hn.cid]; exact h.ino, ?_⟩
  · intro hd
    obtain ⟨fid, p, h1, h2⟩ := h.ent (hd' hd)
    obtain ⟨v, hv, hvo, hvk⟩ := hk (hd' hd)
    refine ⟨fid, p, by rw [hn.cid, hn.this]; exact h1, ?_⟩
    intro v' hv' he
    rw [hn.vfn, hvo] at he
    rw [← hvk v' hv' (Option.some.inj he).symm]; exact h2 v hv hvo
  · intro hd; rw [hn.cid]; exact h.ret (hd' hd)
  · intro hd ht; rw [hn.cid]; rw [hst hd] at ht; exact h.orig (hd' hd) ht
  · intro n hp
    obtain ⟨g, h1, h2, h3⟩ := h.pre n hp
    refine ⟨g, h1, by rw [hn.cid]; exact h2, ?_⟩
    rcases hn.st with e | e
    · rw [e]; exact h3
    · exact Or.inr e
  · intro n hp
    obtain ⟨g, h1, h2, h3⟩ := h.post n hp
    refine ⟨g, h1, by rw [hn.cid]; exact h2, ?_⟩
    rcases hn.st with e | e
    · rw [e]; exact h3
    · exact Or.inr e
  · intro cid fid st hm
    have := h.rcl cid fid st hm
    rcases hn.st with e | e
    · rw [e]; exact this
    · exact e

/-- Numbers of calls and activations in an event. -/
def Ev.nums : Ev → List Nat
  | .enter c f _ _ => [c, f]
  | .shEnter c f _ _ => [c, f]
  | .recall c f f' _ => [c, f, f']
  | .invoke c f _ _ _ => [c, f]
  | .skip c _ _ => [c]
  | .result f _ _ _ => [f]
  | .origCall c f _ => [c, f]
  | .origRet f _ => [f]
  | .ret c f _ => [c, f]
  | _ => []

/-- Place of a group in a call; the original function is called at place 2. -/
def Grp.stage : Grp → Nat
  | .pre => 0
  | .preVP => 1
  | .post => 3
  | .postVP => 4

/-- Stage of call `cid` an event belongs to: the four groups of handlers and the original function. -/
def stage (cid : Nat) : Ev → Option Nat
  | .invoke c _ g _ _ => if c = cid then some g.stage else none
  | .origCall c _ _ => if c = cid then some 2 else none
  | _ => none

/-- Stages of call `cid`, latest first. -/
def stages (log : List Ev) (cid : Nat) : List Nat := log.filterMap (stage cid)

/-- What holds of the history as a whole. -/
structure LogOk (log : List Ev) (next : Nat) : Prop where
  lt : ∀ e ∈ log, ∀ n ∈ e.nums, n < next
  entU : ∀ cid f p a f' p' a', Ev.enter cid f p a ∈ log → Ev.enter cid f' p' a' ∈ log → f = f' ∧ p = p' ∧ a = a'
  sorted : ∀ cid g, (invoked log cid g).Pairwise (· < ·)
  stg : ∀ cid, (stages log cid).Pairwise (fun later earlier => earlier ≤ later ∧ ¬ (later = 2 ∧ earlier = 2))
  noMore : log.Pairwise (fun later earlier => ∀ c f g n p c' f' st, later = Ev.invoke c f g n p → earlier ≠ Ev.recall c' f f' st)

/-- The history invariant. -/
structure HInv (s : St) : Prop where
  all : All2 (HOk s.reg s.log) (hookFrames s.frames) s.stack
  chain : (hookFrames s.frames).Pairwise (fun a b => a.cid = b.cid → RecWait b.pt ∧ Recalled s.log a.cid)
  le : ∀ f ∈ hookFrames s.frames, f.status ≤ 3 ∧ f.cur ≤ 3
  log : LogOk s.log s.next

end Verif.SH
