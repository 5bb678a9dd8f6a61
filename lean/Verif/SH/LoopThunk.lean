import Verif.SH.ThunkReg
import Verif.SH.LoopUnload
import Verif.SH.RegProps
/-
Call thunks (C18): a thunk made for an odd original entry is given back when its function record is
removed.  Either at once, or, if running hook loops use the record, when the oldest of them ends.
-/
namespace Verif.SH

/-- The thunks given back so far, newest first. -/
def freedOf (log : List Ev) : List Nat := log.filterMap fun e => match e with | .freed v => some v | _ => none

theorem mem_freedOf {log : List Ev} {v : Nat} : v ∈ freedOf log ↔ Ev.freed v ∈ log := by
  unfold freedOf
  rw [List.mem_filterMap]
  constructor
  · rintro ⟨e, h1, h2⟩
    cases e <;> simp at h2
    subst h2; exact h1
  · intro h; exact ⟨_, h, rfl⟩

theorem freedOf_append (a b : List Ev) : freedOf (a ++ b) = freedOf a ++ freedOf b := List.filterMap_append

theorem freedOf_nil_of {l : List Ev} (h : ∀ e ∈ l, ∀ v, e ≠ Ev.freed v) : freedOf l = [] := by
  unfold freedOf
  rw [List.filterMap_eq_nil_iff]
  intro e he
  cases e with
  | freed v => exact absurd rfl (h _ he v)
  | _ => rfl

theorem freedOf_logGot (cid fid : Nat) (g : Got) (log : List Ev) : freedOf (logGot cid fid g log) = freedOf log := by
  have h1 : freedOf ((g.skipped.map fun x => Ev.skip cid x.1 x.2).reverse ++ log) = freedOf log := by
    rw [freedOf_append, freedOf_nil_of]
    · rfl
    · intro e he v
      obtain ⟨x, _, rfl⟩ := List.mem_map.1 (List.mem_reverse.1 he)
      nofun
  unfold logGot
  split
  · exact h1
  · exact h1

theorem freedOf_resolve (force : Bool) (s : St) : freedOf (resolve force s).log = freedOf s.log := by
  show freedOf (_ ++ s.log) = _
  rw [freedOf_append, freedOf_nil_of]
  · rfl
  · intro e he v
    obtain ⟨x, _, rfl⟩ := List.mem_map.1 (List.mem_reverse.1 he)
    nofun

/-- The functions used by the running hook loops, innermost first. -/
def usesOf (s : St) : List (Option Nat) := s.stack.map Ctx.vfn

/-- `attach` in terms of the functions used. -/
def attachU (o : Nat) : List (Option Nat) → List (Option Nat) → Option (List (Option Nat))
  | u :: us, t :: ts =>
    match attachU o us ts with
    | some ts' => some (t :: ts')
    | none => if u = some o then some (some o :: ts) else none
  | _, _ => none

theorem attach_eq (o : Nat) (cs : List Ctx) (ts : List (Option Nat)) : attach o cs ts = attachU o (cs.map Ctx.vfn) ts := by
  induction cs generalizing ts with
  | nil => rfl
  | cons c cs ih =>
    cases ts with
    | nil => rfl
    | cons t ts =>
      unfold attach
      rw [List.map_cons, attachU, ih]
      cases attachU o (cs.map Ctx.vfn) ts <;> rfl

/-- One cleanup task, on waiting tasks and thunks given back. -/
def clOne (us : List (Option Nat)) (x : List (Option Nat) × List Nat) (o : Nat) : List (Option Nat) × List Nat :=
  match attachU o us x.1 with
  | some ts => (ts, x.2)
  | none => (x.1, o :: x.2)

theorem applyNotes_cl (ns : List Note) (s : St) :
    usesOf (applyNotes s ns) = usesOf s ∧ (applyNotes s ns).spare = s.spare ∧ (applyNotes s ns).reg = s.reg ∧
    ((applyNotes s ns).tasks, freedOf (applyNotes s ns).log) = (cleanups ns).foldl (clOne (usesOf s)) (s.tasks, freedOf s.log) := by
  induction ns generalizing s with
  | nil => exact ⟨rfl, rfl, rfl, rfl⟩
  | cons n ns ih =>
    obtain ⟨h1, h2, h3, h4⟩ := ih (applyNote s n)
    show usesOf (applyNotes (applyNote s n) ns) = _ ∧ (applyNotes (applyNote s n) ns).spare = _ ∧ (applyNotes (applyNote s n) ns).reg = _ ∧
      ((applyNotes (applyNote s n) ns).tasks, freedOf (applyNotes (applyNote s n) ns).log) = _
    rw [h1, h2, h3, h4]
    have other : ∀ m : Note, usesOf { s with stack := s.stack.map (noteCtx m) } = usesOf s := by
      intro m
      unfold usesOf
      dsimp only
      rw [List.map_map]
      exact List.map_congr_left fun c _ => (noteCtx_frame m c).vfn
    cases n with
    | cleanup o =>
      have e : cleanups (Note.cleanup o :: ns) = o :: cleanups ns := rfl
      rw [e, List.foldl_cons]
      unfold applyNote clOne
      dsimp only
      rw [attach_eq]
      show _ ∧ _ ∧ _ ∧ _ = List.foldl _ (match attachU o (s.stack.map Ctx.vfn) s.tasks with | some ts => _ | none => _) _
      cases attachU o (s.stack.map Ctx.vfn) s.tasks with
      | some ts => exact ⟨rfl, rfl, rfl, rfl⟩
      | none => exact ⟨rfl, rfl, rfl, rfl⟩
    | hookRemoved a b c d e =>
      have e1 : usesOf (applyNote s (.hookRemoved a b c d e)) = usesOf s := other (.hookRemoved a b c d e)
      exact ⟨e1, rfl, rfl, by rw [e1]; rfl⟩
    | ifaceRemoved a b =>
      have e1 : usesOf (applyNote s (.ifaceRemoved a b)) = usesOf s := other (.ifaceRemoved a b)
      exact ⟨e1, rfl, rfl, by rw [e1]; rfl⟩
    | vfnRemoved a =>
      have e1 : usesOf (applyNote s (.vfnRemoved a)) = usesOf s := other (.vfnRemoved a)
      exact ⟨e1, rfl, rfl, by rw [e1]; rfl⟩

/-- The record `v` existed and exists no more. -/
def Gone (r : Reg) (v : Nat) : Prop := v < r.next ∧ ∀ x ∈ r.vfns, x.oid ≠ v

/-- What the waiting tasks satisfy: the record is gone, no older loop uses it, and the loop that has the
task uses it unless the task is a stale one. -/
def TOk (r : Reg) (fr : List Nat) : List (Option Nat) → List (Option Nat) → Prop
  | u :: us, t :: ts => (∀ v, t = some v → Gone r v ∧ some v ∉ us ∧ (u = some v ∨ v ∈ fr)) ∧ TOk r fr us ts
  | [], [] => True
  | _, _ => False

theorem TOk.len {r : Reg} {fr : List Nat} {us ts : List (Option Nat)} (h : TOk r fr us ts) : us.length = ts.length := by
  induction us generalizing ts with
  | nil => cases ts with
    | nil => rfl
    | cons _ _ => exact h.elim
  | cons u us ih => cases ts with
    | nil => exact h.elim
    | cons t ts => simp [ih h.2]

theorem TOk.mono {r r' : Reg} {fr fr' : List Nat} {us ts : List (Option Nat)} (h : TOk r fr us ts)
    (h1 : ∀ v, Gone r v → Gone r' v) (h2 : ∀ v ∈ fr, v ∈ fr') : TOk r' fr' us ts := by
  induction us generalizing ts with
  | nil => cases ts with
    | nil => trivial
    | cons _ _ => exact h.elim
  | cons u us ih => cases ts with
    | nil => exact h.elim
    | cons t ts =>
      refine ⟨fun v e => ?_, ih h.2⟩
      obtain ⟨k1, k2, k3⟩ := h.1 v e
      exact ⟨h1 v k1, k2, k3.imp id (h2 v)⟩

theorem attachU_none {o : Nat} {us ts : List (Option Nat)} (hl : us.length = ts.length) (h : attachU o us ts = none) :
    some o ∉ us := by
  induction us generalizing ts with
  | nil => exact List.not_mem_nil
  | cons u us ih => cases ts with
    | nil => cases hl
    | cons t ts =>
      unfold attachU at h
      split at h
      · cases h
      · next e =>
        split at h
        · cases h
        · next hu =>
          intro hm
          rcases List.mem_cons.1 hm with hm | hm
          · exact hu hm.symm
          · exact ih (Nat.succ.inj hl) e hm

theorem attachU_some {r : Reg} {fr : List Nat} {o : Nat} {us ts ts' : List (Option Nat)} (hok : TOk r fr us ts) (hg : Gone r o)
    (h : attachU o us ts = some ts') :
    TOk r fr us ts' ∧ some o ∈ ts' ∧ ∀ w, some w ∈ ts → some w ∈ ts' ∨ w ∈ fr := by
  induction us generalizing ts ts' with
  | nil => cases ts with
    | nil => cases h
    | cons t ts => cases h
  | cons u us ih => cases ts with
    | nil => cases h
    | cons t ts =>
      unfold attachU at h
      split at h
      · next t2 e =>
        cases h
        obtain ⟨k1, k2, k3⟩ := ih hok.2 e
        refine ⟨⟨hok.1, k1⟩, List.mem_cons_of_mem _ k2, fun w hw => ?_⟩
        rcases List.mem_cons.1 hw with hw | hw
        · exact Or.inl (hw ▸ List.mem_cons_self ..)
        · exact (k3 w hw).imp (List.mem_cons_of_mem _) id
      · next e =>
        split at h
        · next hu =>
          cases h
          refine ⟨⟨?_, hok.2⟩, List.mem_cons_self .., fun w hw => ?_⟩
          · intro v hv
            cases hv
            exact ⟨hg, attachU_none hok.2.len e, Or.inl hu⟩
          · rcases List.mem_cons.1 hw with hw | hw
            · rcases (hok.1 w hw.symm).2.2 with h | h
              · rw [hu] at h
                exact Or.inl (h ▸ List.mem_cons_self ..)
              · exact Or.inr h
            · exact Or.inl (List.mem_cons_of_mem _ hw)
        · cases h

/-- Waiting tasks and thunks given back. -/
structure PairOk (r : Reg) (us : List (Option Nat)) (x : List (Option Nat) × List Nat) : Prop where
  tok : TOk r x.2 us x.1
  fr : ∀ v ∈ x.2, Gone r v ∧ some v ∉ us

theorem clOne_spec {r : Reg} {us : List (Option Nat)} {x : List (Option Nat) × List Nat} {o : Nat} (h : PairOk r us x) (hg : Gone r o) :
    PairOk r us (clOne us x o) ∧ (some o ∈ (clOne us x o).1 ∨ o ∈ (clOne us x o).2) ∧
    (∀ w, (some w ∈ x.1 ∨ w ∈ x.2) → (some w ∈ (clOne us x o).1 ∨ w ∈ (clOne us x o).2)) ∧
    (∀ w ∈ (clOne us x o).2, w ∈ x.2 ∨ w = o) ∧ (o ∉ x.2 → x.2.Nodup → (clOne us x o).2.Nodup) := by
  unfold clOne
  cases e : attachU o us x.1 with
  | some ts =>
    obtain ⟨k1, k2, k3⟩ := attachU_some h.tok hg e
    refine ⟨⟨k1, h.fr⟩, Or.inl k2, ?_, fun w hw => Or.inl hw, fun _ h => h⟩
    rintro w (hw | hw)
    · exact k3 w hw
    · exact Or.inr hw
  | none =>
    have hn := attachU_none h.tok.len e
    refine ⟨⟨h.tok.mono (fun _ h => h) (fun v hv => List.mem_cons_of_mem _ hv), ?_⟩, Or.inr (List.mem_cons_self ..), ?_, ?_, ?_⟩
    · intro v hv
      rcases List.mem_cons.1 hv with rfl | hv
      · exact ⟨hg, hn⟩
      · exact h.fr v hv
    · rintro w (hw | hw)
      · exact Or.inl hw
      · exact Or.inr (List.mem_cons_of_mem _ hw)
    · intro w hw
      rcases List.mem_cons.1 hw with rfl | hw
      · exact Or.inr rfl
      · exact Or.inl hw
    · intro h1 h2; exact List.nodup_cons.2 ⟨h1, h2⟩

theorem clFold_spec {r : Reg} {us : List (Option Nat)} (os : List Nat) {x : List (Option Nat) × List Nat} (h : PairOk r us x)
    (hg : ∀ o ∈ os, Gone r o) :
    PairOk r us (os.foldl (clOne us) x) ∧
    (∀ w, (some w ∈ x.1 ∨ w ∈ x.2 ∨ w ∈ os) → (some w ∈ (os.foldl (clOne us) x).1 ∨ w ∈ (os.foldl (clOne us) x).2)) ∧
    (∀ w ∈ (os.foldl (clOne us) x).2, w ∈ x.2 ∨ w ∈ os) ∧
    ((∀ o ∈ os, o ∉ x.2) → os.Nodup → x.2.Nodup → (os.foldl (clOne us) x).2.Nodup) := by
  induction os generalizing x with
  | nil =>
    refine ⟨h, ?_, fun w hw => Or.inl hw, fun _ _ h => h⟩
    rintro w (hw | hw | hw)
    · exact Or.inl hw
    · exact Or.inr hw
    · cases hw
  | cons o os ih =>
    obtain ⟨k1, k2, k3, k4, k5⟩ := clOne_spec h (hg o (List.mem_cons_self ..))
    obtain ⟨i1, i2, i3, i4⟩ := ih k1 (fun o' ho => hg o' (List.mem_cons_of_mem _ ho))
    rw [List.foldl_cons]
    refine ⟨i1, ?_, ?_, ?_⟩
    · intro w hw
      have : some w ∈ (clOne us x o).1 ∨ w ∈ (clOne us x o).2 ∨ w ∈ os := by
        rcases hw with hw | hw | hw
        · rcases k3 w (Or.inl hw) with h | h
          · exact Or.inl h
          · exact Or.inr (Or.inl h)
        · rcases k3 w (Or.inr hw) with h | h
          · exact Or.inl h
          · exact Or.inr (Or.inl h)
        · rcases List.mem_cons.1 hw with rfl | hw
          · rcases k2 with h | h
            · exact Or.inl h
            · exact Or.inr (Or.inl h)
          · exact Or.inr (Or.inr hw)
      exact i2 w this
    · intro w hw
      rcases i3 w hw with hw | hw
      · rcases k4 w hw with hw | rfl
        · exact Or.inl hw
        · exact Or.inr (List.mem_cons_self ..)
      · exact Or.inr (List.mem_cons_of_mem _ hw)
    · intro h1 h2 h3
      rw [List.nodup_cons] at h2
      refine i4 (fun o' ho hm => ?_) h2.2 (k5 (h1 o (List.mem_cons_self ..)) h3)
      rcases k4 o' hm with hm | rfl
      · exact h1 o' (List.mem_cons_of_mem _ ho) hm
      · exact h2.1 ho

/-! ### steps -/

/-- Effect of a step on thunks. -/
inductive TEff (s s' : St) : Prop
  | reg (ns : List Note) : ClStep s.reg s'.reg ns → s.reg.next ≤ s'.reg.next → usesOf s' = usesOf s → s'.spare = s.spare →
      (s'.tasks, freedOf s'.log) = (cleanups ns).foldl (clOne (usesOf s)) (s.tasks, freedOf s.log) → TEff s s'
  | same : s'.reg.vfns = s.reg.vfns → s'.reg.next = s.reg.next → usesOf s' = usesOf s → s'.spare = s.spare → s'.tasks = s.tasks →
      freedOf s'.log = freedOf s.log → TEff s s'
  | push (v : Vfn) (t : Option Nat) : v ∈ s.reg.vfns → s'.reg = s.reg → usesOf s' = some v.oid :: usesOf s → s'.tasks = t :: s.tasks →
      (t = none ∨ t ∈ s.spare) → (∀ x ∈ s'.spare, x ∈ s.spare) → freedOf s'.log = freedOf s.log → TEff s s'
  | pop (u t : Option Nat) : s'.reg = s.reg → usesOf s = u :: usesOf s' → s.tasks = t :: s'.tasks → s'.spare = t :: s.spare →
      freedOf s'.log = t.toList ++ freedOf s.log → TEff s s'

theorem Tr.teff {E : Env} {s s' : St} {op : Op} (ht : Tr E s op s') (m : MInv E s) (hok : Ok E s op) : TEff s s' := by
  obtain ⟨mem0, hw, h0⟩ := m.reg.inv
  have hvfn : ∀ {f : Frame} {fs : List Fr} {c : Ctx} {cs : List Ctx} {g : Got}, s.frames = .hook f :: fs → s.stack = c :: cs →
      getNext s.reg c = .ok g → (g.ctx :: cs).map Ctx.vfn = usesOf s := by
    intro f fs c cs g hf hst hg
    obtain ⟨c1, cs1, hst1, hfo, _⟩ := m.top hf
    rw [hst] at hst1; cases hst1
    obtain ⟨k, _⟩ := getNext_any' hw.s hfo.ctxOk f.fid hg
    unfold usesOf
    rw [hst, List.map_cons, List.map_cons, k.vfn]
  have hhead : s.spare.headD none = none ∨ s.spare.headD none ∈ s.spare := by
    cases s.spare with
    | nil => exact Or.inl rfl
    | cons t ts => exact Or.inr (List.mem_cons_self ..)
  have hfr0 : ∀ (f : Frame) (g : Got) (t : Option Nat),
      freedOf (match t with | some v => Ev.freed v :: logGot f.cid f.fid g s.log | none => logGot f.cid f.fid g s.log) =
        t.toList ++ freedOf s.log := by
    intro f g t
    cases t with
    | none => exact freedOf_logGot ..
    | some w => exact congrArg (w :: ·) (freedOf_logGot ..)
  cases ht with
  | reg op r x ns hrr =>
    obtain ⟨h1, h2, h3, h4⟩ := applyNotes_cl ns { s with reg := r }
    have hlog : freedOf (afterReg (applyNotes { s with reg := r } ns) op).log = freedOf (applyNotes { s with reg := r } ns).log ∧
        (afterReg (applyNotes { s with reg := r } ns) op).tasks = (applyNotes { s with reg := r } ns).tasks ∧
        (afterReg (applyNotes { s with reg := r } ns) op).spare = (applyNotes { s with reg := r } ns).spare ∧
        (afterReg (applyNotes { s with reg := r } ns) op).reg = (applyNotes { s with reg := r } ns).reg ∧
        usesOf (afterReg (applyNotes { s with reg := r } ns) op) = usesOf (applyNotes { s with reg := r } ns) := by
      unfold afterReg
      split
      · split <;> exact ⟨rfl, rfl, rfl, rfl, rfl⟩
      · exact ⟨rfl, rfl, rfl, rfl, rfl⟩
    obtain ⟨k1, k2, k3, k4, k5⟩ := hlog
    have hcl := regStepN_cl hw.s.void hw.s.vlt hrr
    have hnx : s.reg.next ≤ r.next := by
      obtain ⟨r2, x2, g1, _⟩ := regStep_spec (E := E) hw hok.2.opOk
      have g1' := g1
      rw [regStepN_regStep, hrr] at g1
      simp only [Except.map] at g1
      cases g1
      exact regStep_next hw hok.2.opOk g1'
    refine .reg ns (k4.trans h3 ▸ hcl) (k4.trans h3 ▸ hnx) (k5.trans h1) (k3.trans h2) ?_
    rw [k1, k2]; exact h4
  | poke a val => exact .same rfl rfl rfl rfl rfl rfl
  | plain p this _ => exact .same rfl rfl rfl rfl rfl rfl
  | call v this hv hwr => exact .push v _ hv rfl rfl rfl hhead (fun x hx => List.mem_of_mem_tail hx) rfl
  | shCall v this hv hwr => exact .push v none hv rfl rfl rfl (Or.inl rfl) (fun x hx => List.mem_of_mem_tail hx) rfl
  | shEnd fs hf => exact .same rfl rfl rfl rfl rfl rfl
  | setRes res f fs hf => exact .same rfl rfl rfl rfl rfl rfl
  | recall res val v f fs c cs hf hst hv hc =>
    refine .push v none hv rfl ?_ rfl (Or.inl rfl) (fun x hx => List.mem_of_mem_tail hx) rfl
    unfold usesOf; rw [hst]; rfl
  | recallRet f fs c cs post v hf hst hp => exact .same rfl rfl rfl rfl rfl rfl
  | tickHook f fs c cs g grp h post hf hst hp hg hh => exact .same rfl rfl (hvfn hf hst hg) rfl rfl (freedOf_logGot ..)
  | tickOrig f fs c cs g a hf hst hp hg hh h1 h2 h3 => exact .same rfl rfl (hvfn hf hst hg) rfl rfl (freedOf_logGot ..)
  | tickSkip f fs c cs g hf hst hp hg hh h1 => exact .same rfl rfl (hvfn hf hst hg) rfl rfl (freedOf_logGot ..)
  | tickRet f fs c cs g v s2 hf hst hpt hg hh hv hs2 =>
    have hlen := m.tasks
    rw [hst] at hlen
    cases htk : s.tasks with
    | nil => rw [htk] at hlen; cases hlen
    | cons t ts =>
      have e : s2.reg = s.reg ∧ s2.stack = cs ∧ s2.tasks = ts ∧ s2.spare = t :: s.spare ∧
          freedOf s2.log = t.toList ++ freedOf s.log := by
        rw [hs2]
        unfold popCtx
        have hfr := hfr0 f g t
        simp only [htk, List.headD_cons, List.tail_cons]
        split
        · exact ⟨rfl, rfl, rfl, rfl, (freedOf_resolve ..).trans hfr⟩
        · exact ⟨rfl, rfl, rfl, rfl, hfr⟩
      obtain ⟨e1, e2, e3, e4, e5⟩ := e
      refine .pop c.vfn t e1 ?_ ?_ e4 e5
      · unfold usesOf; rw [hst, List.map_cons]; show _ = c.vfn :: s2.stack.map _; rw [e2]
      · rw [htk]; exact congrArg _ e3.symm
  | handlerRet v f fs c cs post hf hst hp => exact .same rfl rfl rfl rfl rfl rfl
  | origRet v f fs hf hp => exact .same rfl rfl rfl rfl rfl rfl
  | resolve force => exact .same rfl rfl rfl rfl rfl (freedOf_resolve ..)

/-- Thunks in all reachable states. -/
structure TInv (s : St) : Prop where
  pair : PairOk s.reg (usesOf s) (s.tasks, freedOf s.log)
  spare : ∀ v, some v ∈ s.spare → v ∈ freedOf s.log

theorem ClStep.gone {r r' : Reg} {ns : List Note} (h : ClStep r r' ns) (hn : r.next ≤ r'.next) {v : Nat} (hg : Gone r v) : Gone r' v := by
  refine ⟨Nat.lt_of_lt_of_le hg.1 hn, fun x hx e => ?_⟩
  rcases h.old x.oid x.thunk (List.mem_map.2 ⟨x, hx, rfl⟩) with k | k
  · obtain ⟨y, hy, ey⟩ := List.mem_map.1 k
    simp only [Prod.mk.injEq] at ey
    exact hg.2 y hy (ey.1.trans e)
  · have := hg.1
    omega

theorem ClStep.cleaned {r r' : Reg} {ns : List Note} (h : ClStep r r' ns) (hn : r.next ≤ r'.next) (hs : SInv r)
    {o : Nat} (ho : o ∈ cleanups ns) : Gone r' o := by
  obtain ⟨k1, k2⟩ := (h.iff o).1 ho
  obtain ⟨y, hy, ey⟩ := List.mem_map.1 k1
  simp only [Prod.mk.injEq] at ey
  have hlt := hs.vlt y hy
  rw [ey.1] at hlt
  refine ⟨Nat.lt_of_lt_of_le hlt hn, fun x hx e => ?_⟩
  rcases h.old x.oid x.thunk (List.mem_map.2 ⟨x, hx, rfl⟩) with k | k
  · obtain ⟨z, hz, ez⟩ := List.mem_map.1 k
    simp only [Prod.mk.injEq] at ez
    have : z = y := nodup_key_inj hs.void hz hy (ez.1.trans (e.trans ey.1.symm))
    subst this
    exact k2 (List.mem_map.2 ⟨x, hx, by rw [e, ← ez.2, ey.2]⟩)
  · omega

theorem TEff.inv {E : Env} {s s' : St} (h : TEff s s') (m : MInv E s) (hi : TInv s) : TInv s' := by
  obtain ⟨mem0, hw, _⟩ := m.reg.inv
  cases h with
  | reg ns hcl hn hu hsp htf =>
    have hp : PairOk s'.reg (usesOf s) (s.tasks, freedOf s.log) :=
      ⟨hi.pair.tok.mono (fun _ h => hcl.gone hn h) (fun _ h => h), fun v hv => ⟨hcl.gone hn (hi.pair.fr v hv).1, (hi.pair.fr v hv).2⟩⟩
    obtain ⟨k1, k2, k3, _⟩ := clFold_spec (cleanups ns) hp (fun o ho => hcl.cleaned hn hw.s ho)
    rw [← htf] at k1 k2
    refine ⟨hu ▸ k1, fun v hv => ?_⟩
    rw [hsp] at hv
    rcases k2 v (Or.inr (Or.inl (hi.spare v hv))) with hm | hm
    · have := hi.spare v hv
      -- thunks given back stay so
      have hst : ∀ (os : List Nat) (x : List (Option Nat) × List Nat), v ∈ x.2 → v ∈ (os.foldl (clOne (usesOf s)) x).2 := by
        intro os
        induction os with
        | nil => intro x h; exact h
        | cons o os ih =>
          intro x h
          refine ih _ ?_
          unfold clOne
          split
          · exact h
          · exact List.mem_cons_of_mem _ h
      have := hst (cleanups ns) (s.tasks, freedOf s.log) this
      rw [← htf] at this; exact this
    · exact hm
  | same h1 h2 h3 h4 h5 h6 =>
    have hg : ∀ v, Gone s.reg v → Gone s'.reg v := fun v h => ⟨h2 ▸ h.1, h1 ▸ h.2⟩
    refine ⟨⟨?_, ?_⟩, ?_⟩
    · rw [h3, h5, h6]; exact hi.pair.tok.mono hg (fun _ h => h)
    · intro v hv
      rw [h6] at hv
      exact ⟨hg v (hi.pair.fr v hv).1, h3 ▸ (hi.pair.fr v hv).2⟩
    · rw [h4, h6]; exact hi.spare
  | push v t hv hr hu ht hts hsp hf =>
    refine ⟨⟨?_, ?_⟩, ?_⟩
    · rw [hr, hu, ht, hf]
      refine ⟨fun w e => ?_, hi.pair.tok⟩
      rcases hts with h | h
      · rw [h] at e; cases e
      · have := hi.spare w (e ▸ h)
        exact ⟨(hi.pair.fr w this).1, (hi.pair.fr w this).2, Or.inr this⟩
    · intro w hw
      rw [hf] at hw
      obtain ⟨k1, k2⟩ := hi.pair.fr w hw
      refine ⟨hr ▸ k1, ?_⟩
      rw [hu]
      intro hm
      rcases List.mem_cons.1 hm with e | hm
      · exact k1.2 v hv (Option.some.inj e).symm
      · exact k2 hm
    · intro w hw; rw [hf]; exact hi.spare w (hsp _ hw)
  | pop u t hr hu ht hsp hf =>
    have htok := hi.pair.tok
    rw [hu, ht] at htok
    have hsub : ∀ v ∈ freedOf s.log, v ∈ freedOf s'.log := fun v hv => hf ▸ List.mem_append_right _ hv
    refine ⟨⟨?_, ?_⟩, ?_⟩
    · rw [hr]; exact htok.2.mono (fun _ h => h) hsub
    · intro w hw
      rw [hf] at hw
      rcases List.mem_append.1 hw with hw | hw
      · have := htok.1 w (by cases t <;> simp at hw; rw [hw])
        exact ⟨hr ▸ this.1, this.2.1⟩
      · have := hi.pair.fr w hw
        rw [hu] at this
        exact ⟨hr ▸ this.1, fun h => this.2 (List.mem_cons_of_mem _ h)⟩
    · intro w hw
      rw [hsp] at hw
      rcases List.mem_cons.1 hw with e | hw
      · rw [hf, ← e]; exact List.mem_append_left _ (by simp)
      · exact hsub w (hi.spare w hw)

theorem LReach.tinv {E : Env} (hE : EnvOk E) {s : St} (h : LReach E s) : TInv s := by
  induction h with
  | init => exact ⟨⟨trivial, by simp [freedOf]⟩, by simp⟩
  | @step s s' op h1 h2 h3 ih =>
    exact ((h1.tr hE h2 h3).teff (h1.inv hE) h2).inv (h1.inv hE) ih

/-! ### runs -/

theorem TOk.used {r : Reg} {fr : List Nat} {us ts : List (Option Nat)} (h : TOk r fr us ts) {v : Nat} (hv : some v ∈ ts) :
    some v ∈ us ∨ v ∈ fr := by
  induction us generalizing ts with
  | nil => cases ts with
    | nil => cases hv
    | cons _ _ => exact h.elim
  | cons u us ih => cases ts with
    | nil => exact h.elim
    | cons t ts =>
      rcases List.mem_cons.1 hv with e | hv
      · exact ((h.1 v e.symm).2.2).imp (fun (e : u = some v) => e ▸ List.mem_cons_self ..) id
      · exact (ih h.2 hv).imp (List.mem_cons_of_mem _) id

/-- A record with a thunk: still there, or its thunk has been given back, or its task waits. -/
def HeldT (s : St) (v : Nat) : Prop := (v, true) ∈ keyT s.reg ∨ some v ∈ s.tasks ∨ v ∈ freedOf s.log

theorem TEff.heldT {E : Env} {s s' : St} (h : TEff s s') (m : MInv E s) (hi : TInv s) {v : Nat} (hv : HeldT s v) : HeldT s' v := by
  obtain ⟨mem0, hw, _⟩ := m.reg.inv
  cases h with
  | reg ns hcl hn hu hsp htf =>
    have hp : PairOk s'.reg (usesOf s) (s.tasks, freedOf s.log) :=
      ⟨hi.pair.tok.mono (fun _ h => hcl.gone hn h) (fun _ h => h), fun v hv => ⟨hcl.gone hn (hi.pair.fr v hv).1, (hi.pair.fr v hv).2⟩⟩
    obtain ⟨_, k2, _⟩ := clFold_spec (cleanups ns) hp (fun o ho => hcl.cleaned hn hw.s ho)
    rw [← htf] at k2
    by_cases hk : (v, true) ∈ keyT s'.reg
    · exact Or.inl hk
    · refine Or.inr (k2 v ?_)
      rcases hv with hv | hv | hv
      · exact Or.inr (Or.inr ((hcl.iff v).2 ⟨hv, hk⟩))
      · exact Or.inl hv
      · exact Or.inr (Or.inl hv)
  | same h1 h2 h3 h4 h5 h6 =>
    unfold HeldT; rw [h5, h6, keyT_congr h1]; exact hv
  | push w t hw' hr hu ht hts hsp hf =>
    unfold HeldT; rw [hr, ht, hf]
    rcases hv with hv | hv | hv
    · exact Or.inl hv
    · exact Or.inr (Or.inl (List.mem_cons_of_mem _ hv))
    · exact Or.inr (Or.inr hv)
  | pop u t hr hu ht hsp hf =>
    unfold HeldT; rw [hr, hf]
    rcases hv with hv | hv | hv
    · exact Or.inl hv
    · rw [ht] at hv
      rcases List.mem_cons.1 hv with e | hv
      · exact Or.inr (Or.inr (List.mem_append_left _ (by rw [← e]; simp)))
      · exact Or.inr (Or.inl hv)
    · exact Or.inr (Or.inr (List.mem_append_right _ hv))

theorem Run.heldT {E : Env} (hE : EnvOk E) {P : St → Prop} {s s' : St} (hr : LReach E s) (h : Run E P s s') {v : Nat} (hv : HeldT s v) :
    HeldT s' v := by
  induction h with
  | refl => exact hv
  | step h1 h2 h3 _ ih =>
    have hr1 := h1.reach hr
    exact ((hr1.tr hE h2 h3).teff (hr1.inv hE) h2).heldT (hr1.inv hE) (hr1.tinv hE) ih

/-- A record without a thunk. -/
def NoThunk (s : St) (v : Nat) : Prop := v < s.reg.next ∧ (v, true) ∉ keyT s.reg ∧ some v ∉ s.tasks ∧ v ∉ freedOf s.log

theorem attachU_mem {o : Nat} {us ts ts' : List (Option Nat)} (h : attachU o us ts = some ts') : ∀ t ∈ ts', t ∈ ts ∨ t = some o := by
  induction us generalizing ts ts' with
  | nil => cases ts <;> cases h
  | cons u us ih => cases ts with
    | nil => cases h
    | cons t ts =>
      unfold attachU at h
      intro x hx
      split at h
      · next t2 e =>
        cases h
        rcases List.mem_cons.1 hx with rfl | hx
        · exact Or.inl (List.mem_cons_self ..)
        · exact (ih e x hx).imp (List.mem_cons_of_mem _) id
      · split at h
        · cases h
          rcases List.mem_cons.1 hx with rfl | hx
          · exact Or.inr rfl
          · exact Or.inl (List.mem_cons_of_mem _ hx)
        · cases h

theorem clFold_other {us : List (Option Nat)} (os : List Nat) {x : List (Option Nat) × List Nat} {v : Nat} (hv : v ∉ os)
    (h1 : some v ∉ x.1) (h2 : v ∉ x.2) : some v ∉ (os.foldl (clOne us) x).1 ∧ v ∉ (os.foldl (clOne us) x).2 := by
  induction os generalizing x with
  | nil => exact ⟨h1, h2⟩
  | cons o os ih =>
    have hne : v ≠ o := fun e => hv (e ▸ List.mem_cons_self ..)
    have hv' : v ∉ os := fun h => hv (List.mem_cons_of_mem _ h)
    rw [List.foldl_cons]
    apply ih hv'
    · unfold clOne
      split
      · next ts e =>
        intro hm
        rcases attachU_mem e _ hm with hm | hm
        · exact h1 hm
        · exact hne (Option.some.inj hm)
      · exact h1
    · unfold clOne
      split
      · exact h2
      · intro hm
        rcases List.mem_cons.1 hm with hm | hm
        · exact hne hm
        · exact h2 hm

theorem TEff.noThunk {s s' : St} (h : TEff s s') (hi : TInv s) {v : Nat} (hv : NoThunk s v) : NoThunk s' v := by
  obtain ⟨h0, h1, h2, h3⟩ := hv
  cases h with
  | reg ns hcl hn hu hsp htf =>
    have hc : v ∉ cleanups ns := fun h => h1 ((hcl.iff v).1 h).1
    have := clFold_other (us := usesOf s) (cleanups ns) (x := (s.tasks, freedOf s.log)) hc h2 h3
    rw [← htf] at this
    refine ⟨Nat.lt_of_lt_of_le h0 hn, fun hk => ?_, this.1, this.2⟩
    rcases hcl.old v true hk with h | h
    · exact h1 h
    · omega
  | same k1 k2 k3 k4 k5 k6 =>
    unfold NoThunk; rw [k2, k5, k6, keyT_congr k1]; exact ⟨h0, h1, h2, h3⟩
  | push w t hw' hr hu ht hts hsp hf =>
    unfold NoThunk; rw [hr, ht, hf]
    refine ⟨h0, h1, fun hm => ?_, h3⟩
    rcases List.mem_cons.1 hm with e | hm
    · rcases hts with k | k
      · rw [k] at e; cases e
      · exact h3 (hi.spare v (e ▸ k))
    · exact h2 hm
  | pop u t hr hu ht hsp hf =>
    rw [ht] at h2
    unfold NoThunk; rw [hr, hf]
    refine ⟨h0, h1, fun hm => h2 (List.mem_cons_of_mem _ hm), fun hm => ?_⟩
    rcases List.mem_append.1 hm with hm | hm
    · refine h2 ?_
      cases t with
      | none => simp at hm
      | some w => simp at hm; rw [hm]; exact List.mem_cons_self ..
    · exact h3 hm

theorem Run.noThunk {E : Env} (hE : EnvOk E) {P : St → Prop} {s s' : St} (hr : LReach E s) (h : Run E P s s') {v : Nat} (hv : NoThunk s v) :
    NoThunk s' v := by
  induction h with
  | refl => exact hv
  | step h1 h2 h3 _ ih =>
    have hr1 := h1.reach hr
    exact ((hr1.tr hE h2 h3).teff (hr1.inv hE) h2).noThunk (hr1.tinv hE) ih

theorem TEff.once {E : Env} {s s' : St} (h : TEff s s') (m : MInv E s) (hi : TInv s)
    (hP : ∀ v, some v ∈ s.tasks → v ∉ freedOf s.log) (hv : (freedOf s.log).Nodup) : (freedOf s'.log).Nodup := by
  obtain ⟨mem0, hw, _⟩ := m.reg.inv
  cases h with
  | reg ns hcl hn hu hsp htf =>
    have hp : PairOk s'.reg (usesOf s) (s.tasks, freedOf s.log) :=
      ⟨hi.pair.tok.mono (fun _ h => hcl.gone hn h) (fun _ h => h), fun v hv => ⟨hcl.gone hn (hi.pair.fr v hv).1, (hi.pair.fr v hv).2⟩⟩
    obtain ⟨_, _, _, k⟩ := clFold_spec (cleanups ns) hp (fun o ho => hcl.cleaned hn hw.s ho)
    rw [← htf] at k
    refine k (fun o ho hm => ?_) hcl.nd hv
    obtain ⟨y, hy, e⟩ := List.mem_map.1 ((hcl.iff o).1 ho).1
    simp only [Prod.mk.injEq] at e
    exact (hi.pair.fr o hm).1.2 y hy e.1
  | same h1 h2 h3 h4 h5 h6 => rw [h6]; exact hv
  | push w t hw' hr hu ht hts hsp hf => rw [hf]; exact hv
  | pop u t hr hu ht hsp hf =>
    rw [hf]
    cases t with
    | none => exact hv
    | some w => exact List.nodup_cons.2 ⟨hP w (ht ▸ List.mem_cons_self ..), hv⟩

end Verif.SH
