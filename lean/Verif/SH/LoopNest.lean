import Verif.SH.LoopRes
import Verif.SH.LoopEx
/-
C15: nested calls leave the activations and contexts further out alone, except for notifications about
removed hooks.
-/
namespace Verif.SH

/-- The notifications a step sends to the contexts. -/
def notesOf (E : Env) (s : St) : Op → List Note
  | .reg op => match regStepN E s.reg op with
    | .ok (_, _, ns) => ns
    | .error _ => []
  | _ => []

/-- Frames `F` and contexts `S` are at the bottom; everything above belongs to calls started since
number `b`. -/
structure Nest (b : Nat) (F : List Fr) (S : List Ctx) (X : List Fr) (Y : List Ctx) (s : St) : Prop where
  frames : s.frames = X ++ F
  stack : s.stack = Y ++ S
  len : Y.length = (hookFrames X).length
  own : ∀ c ∈ Y, ∀ k, c.refers k → b ≤ k
  next : b ≤ s.next

theorem frMap_other {b : Nat} {F : List Fr} (hF : ∀ g ∈ hookFrames F, g.fid < b) {v : Val} {sl : Option Slot}
    (h : ∀ k, sl = some (.over k) ∨ sl = some (.orig k) → b ≤ k) : F.map (frMap (slotMap v sl)) = F := by
  induction F with
  | nil => rfl
  | cons x xs ih =>
    cases x with
    | sh => rw [List.map_cons, ih hF]; rfl
    | hook f =>
      rw [List.map_cons, ih fun g hg => hF g (List.mem_cons_of_mem _ hg)]
      have hlt := hF f (List.mem_cons_self ..)
      show Fr.hook (slotMap v sl f) :: xs = _
      rw [slotMap_other]
      refine ⟨fun e => ?_, fun e => ?_⟩
      · have := h _ (Or.inl e); omega
      · have := h _ (Or.inr e); omega

theorem hookFrames_append (A B : List Fr) : hookFrames (A ++ B) = hookFrames A ++ hookFrames B := by
  induction A with
  | nil => rfl
  | cons x xs ih => cases x <;> simp [hookFrames, ih]

theorem map_noteAll_nil (l : List Ctx) : l.map (noteAll []) = l :=
  (List.map_congr_left fun _ _ => rfl).trans (List.map_id' _)

/-- One step inside the nested part. -/
theorem Nest.step {E : Env} {b : Nat} {F : List Fr} {S : List Ctx} {X : List Fr} {Y : List Ctx} {s s' : St} {op : Op}
    (h : Nest b F S X Y s) (hX : X ≠ []) (hF : ∀ g ∈ hookFrames F, g.fid < b) (hB : ∀ v, handBack v F = F)
    (m : MInv E s) (ht : Tr E s op s') : ∃ X' Y', Nest b F (S.map (noteAll (notesOf E s op))) X' Y' s' := by
  -- the innermost activation belongs to the nested part
  have hpop : ∀ {f : Frame} {fs : List Fr} {c : Ctx} {cs : List Ctx}, s.frames = .hook f :: fs → s.stack = c :: cs →
      ∃ X1 Y1, X = .hook f :: X1 ∧ Y = c :: Y1 ∧ fs = X1 ++ F ∧ cs = Y1 ++ S ∧ Y1.length = (hookFrames X1).length := by
    intro f fs c cs hf hst
    have h1 := h.frames
    have h2 := h.stack
    have h3 := h.len
    rw [hf] at h1
    rw [hst] at h2
    cases X with
    | nil => exact absurd rfl hX
    | cons x X1 =>
      rw [List.cons_append] at h1
      injection h1 with e1 e2
      subst e1
      cases Y with
      | nil => cases h3
      | cons y Y1 =>
        rw [List.cons_append] at h2
        injection h2 with e3 e4
        subst e3
        exact ⟨X1, Y1, rfl, rfl, e2, e4, Nat.succ.inj h3⟩
  have hpopF : ∀ {x : Fr} {fs : List Fr}, s.frames = x :: fs → ∃ X1, X = x :: X1 ∧ fs = X1 ++ F := by
    intro x fs hf
    have h1 := h.frames
    rw [hf] at h1
    cases X with
    | nil => exact absurd rfl hX
    | cons x X1 =>
      rw [List.cons_append] at h1
      injection h1 with e1 e2
      exact ⟨X1, by rw [e1], e2⟩
  have hnil : ∀ {X' : List Fr} {Y' : List Ctx} {t : St}, Nest b F S X' Y' t → Nest b F (S.map (noteAll [])) X' Y' t := by
    intro X' Y' t hn; rw [map_noteAll_nil]; exact hn
  have hlen : ∀ (G : Frame → Frame) (l : List Fr), (hookFrames (l.map (frMap G))).length = (hookFrames l).length := by
    intro G l; rw [hookFrames_map, List.length_map]
  have hslots : ∀ {f : Frame} {fs : List Fr} {c : Ctx} {cs : List Ctx} {g : Got}, s.frames = .hook f :: fs → s.stack = c :: cs →
      getNext s.reg c = .ok g → g.ctx.over = c.over ∧ g.ctx.orig = c.orig := by
    intro f fs c cs g hf hst hg
    obtain ⟨c1, cs1, hst1, hfo, _⟩ := m.top hf
    rw [hst] at hst1; cases hst1
    obtain ⟨mem0, hw, h0⟩ := m.reg.inv
    obtain ⟨k, _⟩ := getNext_any' hw.s hfo.ctxOk f.fid hg
    exact ⟨k.over, k.orig⟩
  cases ht with
  | reg op r x ns hrr =>
    obtain ⟨ts, log', hfe, hts, he⟩ := applyNotes_spec ns { s with reg := r }
    have hno : notesOf E s (.reg op) = ns := by simp only [notesOf, hrr]
    rw [he, hno]
    have e1 : (afterReg { s with reg := r, stack := s.stack.map (noteAll ns), tasks := ts, log := log' } op).frames = s.frames ∧
        (afterReg { s with reg := r, stack := s.stack.map (noteAll ns), tasks := ts, log := log' } op).stack = s.stack.map (noteAll ns) ∧
        (afterReg { s with reg := r, stack := s.stack.map (noteAll ns), tasks := ts, log := log' } op).next = s.next := by
      unfold afterReg
      split
      · split <;> exact ⟨rfl, rfl, rfl⟩
      · exact ⟨rfl, rfl, rfl⟩
    refine ⟨X, Y.map (noteAll ns), e1.1.trans h.frames, ?_, by rw [List.length_map]; exact h.len, ?_, ?_⟩
    · rw [← List.map_append, ← h.stack]; exact e1.2.1
    · intro c hc k hk
      obtain ⟨c0, hc0, rfl⟩ := List.mem_map.1 hc
      have hfr := noteAll_frame ns c0
      exact h.own c0 hc0 k (Ctx.refers_congr hfr.over hfr.orig hk)
    · exact Nat.le_trans h.next (Nat.le_of_eq e1.2.2.symm)
  | poke a val => exact ⟨X, Y, hnil ⟨h.frames, h.stack, h.len, h.own, h.next⟩⟩
  | plain p this hp => exact ⟨X, Y, hnil h⟩
  | call v this hv hwr =>
    refine ⟨_ :: X, _ :: Y, hnil ⟨congrArg (List.cons _) h.frames, congrArg (List.cons _) h.stack, congrArg Nat.succ h.len, ?_, Nat.le_succ_of_le h.next⟩⟩
    intro c hc k hk
    rcases List.mem_cons.1 hc with rfl | hc
    · have hn := h.next
      rcases hk with e | e | e | e <;> cases e <;> exact hn
    · exact h.own c hc k hk
  | shCall v this hv hwr =>
    have hn := h.next
    refine ⟨_ :: .sh :: X, _ :: Y, hnil ⟨congrArg (fun l => _ :: _ :: l) h.frames, congrArg (List.cons _) h.stack, congrArg Nat.succ h.len, ?_, ?_⟩⟩
    · intro c hc k hk
      rcases List.mem_cons.1 hc with rfl | hc
      · rcases hk with e | e | e | e <;> cases e
        exact Nat.le_succ_of_le hn
      · exact h.own c hc k hk
    · show b ≤ s.next + 2; omega
  | shEnd fs hf =>
    obtain ⟨X1, rfl, rfl⟩ := hpopF hf
    exact ⟨X1, Y, hnil ⟨rfl, h.stack, h.len, h.own, h.next⟩⟩
  | setRes res f fs hf =>
    obtain ⟨X1, rfl, rfl⟩ := hpopF hf
    exact ⟨_ :: X1, Y, hnil ⟨rfl, h.stack, h.len, h.own, h.next⟩⟩
  | recall res val v f fs c cs hf hst hv hcv =>
    obtain ⟨X1, Y1, rfl, rfl, rfl, rfl, hl⟩ := hpop hf hst
    have hown := h.own
    have hn := h.next
    have hover : ∀ k, c.over = some (.over k) ∨ c.over = some (.orig k) → b ≤ k := by
      intro k hk
      refine hown c (List.mem_cons_self ..) k ?_
      rcases hk with e | e
      · exact Or.inl e
      · exact Or.inr (Or.inl e)
    have hY : ∀ d ∈ recCtx s.next c v c.this (max f.status res) :: { c with st := .dead } :: Y1, ∀ k, d.refers k → b ≤ k := by
      intro d hd k hk
      rcases List.mem_cons.1 hd with rfl | hd
      · have hc : c.refers k ∨ k = s.next := by
          unfold Ctx.refers recCtx at hk
          unfold Ctx.refers
          dsimp only at hk
          split at hk <;> split at hk
          all_goals
            rcases hk with e | e | e | e <;> first
              | (cases e; exact Or.inr rfl)
              | (cases e; done)
              | exact Or.inl (Or.inl e)
              | exact Or.inl (Or.inr (Or.inl e))
              | exact Or.inl (Or.inr (Or.inr (Or.inl e)))
              | exact Or.inl (Or.inr (Or.inr (Or.inr e)))
        rcases hc with hc | rfl
        · exact hown c (List.mem_cons_self ..) k hc
        · exact hn
      · rcases List.mem_cons.1 hd with rfl | hd
        · exact hown c (List.mem_cons_self ..) k hk
        · exact hown d (List.mem_cons_of_mem _ hd) k hk
    by_cases ho : res ≥ override
    · refine ⟨.hook (freshFrame s.next c.cid ((Y1 ++ S).length + 1) (max f.status res) v) ::
          ((Fr.hook { f with cur := res, status := max f.status res, pt := recPt f.pt } :: X1).map (frMap (slotMap val c.over))),
        recCtx s.next c v c.this (max f.status res) :: { c with st := .dead } :: Y1,
        hnil ⟨?_, rfl, ?_, hY, Nat.le_succ_of_le hn⟩⟩
      · show _ :: (if res ≥ override then setSlot _ _ _ else _) = _
        rw [if_pos ho, setSlot_eq, ← List.cons_append, List.map_append, frMap_other hF hover]; rfl
      · show Y1.length + 1 + 1 = (hookFrames _).length + 1
        rw [hlen]; show _ = (hookFrames X1).length + 1 + 1; rw [hl]
    · refine ⟨.hook (freshFrame s.next c.cid ((Y1 ++ S).length + 1) (max f.status res) v) ::
          .hook { f with cur := res, status := max f.status res, pt := recPt f.pt } :: X1,
        recCtx s.next c v c.this (max f.status res) :: { c with st := .dead } :: Y1,
        hnil ⟨?_, rfl, ?_, hY, Nat.le_succ_of_le hn⟩⟩
      · show _ :: (if res ≥ override then setSlot _ _ _ else _) = _
        rw [if_neg ho]; rfl
      · show Y1.length + 1 + 1 = (hookFrames X1).length + 1 + 1
        rw [hl]
  | recallRet f fs c cs post v hf hst hat =>
    obtain ⟨X1, Y1, rfl, rfl, rfl, rfl, hl⟩ := hpop hf hst
    have hover : ∀ k, c.over = some (.over k) ∨ c.over = some (.orig k) → b ≤ k := by
      intro k hk
      refine h.own c (List.mem_cons_self ..) k ?_
      rcases hk with e | e
      · exact Or.inl e
      · exact Or.inr (Or.inl e)
    refine ⟨(Fr.hook { f with cur := supercede, prev := supercede, status := max f.status supercede, pt := loopPt post } :: X1).map (frMap (slotMap v c.over)),
      c :: Y1, hnil ⟨?_, h.stack, ?_, h.own, h.next⟩⟩
    · show setSlot _ _ _ = _
      rw [setSlot_eq, ← List.cons_append, List.map_append, frMap_other hF hover]
    · rw [hlen]; exact h.len
  | tickHook f fs c cs g grp hk post hf hst hpt hg hgh =>
    obtain ⟨k1, k2⟩ := hslots hf hst hg
    obtain ⟨X1, Y1, rfl, rfl, rfl, rfl, hl⟩ := hpop hf hst
    refine ⟨_ :: X1, g.ctx :: Y1, hnil ⟨rfl, rfl, h.len, ?_, h.next⟩⟩
    intro d hd k hk
    rcases List.mem_cons.1 hd with rfl | hd
    · exact h.own c (List.mem_cons_self ..) k (Ctx.refers_congr k1 k2 hk)
    · exact h.own d (List.mem_cons_of_mem _ hd) k hk
  | tickOrig f fs c cs g a hf hst hpt hg hgh hns hco hfa =>
    obtain ⟨k1, k2⟩ := hslots hf hst hg
    obtain ⟨X1, Y1, rfl, rfl, rfl, rfl, hl⟩ := hpop hf hst
    refine ⟨_ :: X1, g.ctx :: Y1, hnil ⟨rfl, rfl, h.len, ?_, h.next⟩⟩
    intro d hd k hk
    rcases List.mem_cons.1 hd with rfl | hd
    · exact h.own c (List.mem_cons_self ..) k (Ctx.refers_congr k1 k2 hk)
    · exact h.own d (List.mem_cons_of_mem _ hd) k hk
  | tickSkip f fs c cs g hf hst hpt hg hgh hns =>
    obtain ⟨k1, k2⟩ := hslots hf hst hg
    obtain ⟨X1, Y1, rfl, rfl, rfl, rfl, hl⟩ := hpop hf hst
    refine ⟨_ :: X1, g.ctx :: Y1, hnil ⟨rfl, rfl, h.len, ?_, h.next⟩⟩
    intro d hd k hk
    rcases List.mem_cons.1 hd with rfl | hd
    · exact h.own c (List.mem_cons_self ..) k (Ctx.refers_congr k1 k2 hk)
    · exact h.own d (List.mem_cons_of_mem _ hd) k hk
  | tickRet f fs c cs g v s2 hf hst hpt hg hgh hv hs2 =>
    obtain ⟨X1, Y1, rfl, rfl, rfl, rfl, hl⟩ := hpop hf hst
    obtain ⟨_, q2, _, q4, _⟩ := popCtx_spec { s with log := logGot f.cid f.fid g s.log } (Y1 ++ S)
    rw [← hs2] at q2 q4
    have hb : ∃ X2, handBack v (X1 ++ F) = X2 ++ F ∧ (hookFrames X2).length = (hookFrames X1).length := by
      cases X1 with
      | nil => exact ⟨[], hB v, rfl⟩
      | cons x X1 =>
        cases x with
        | sh => exact ⟨.sh :: X1, rfl, rfl⟩
        | hook p =>
          show ∃ X2, (match p.pt with
            | .recPre n none => .hook { p with pt := .recPre n (some v) } :: (X1 ++ F)
            | .recPost n none => .hook { p with pt := .recPost n (some v) } :: (X1 ++ F)
            | _ => .hook p :: (X1 ++ F)) = X2 ++ F ∧ _
          split
          · exact ⟨_ :: X1, rfl, rfl⟩
          · exact ⟨_ :: X1, rfl, rfl⟩
          · exact ⟨_ :: X1, rfl, rfl⟩
    obtain ⟨X2, b1, b2⟩ := hb
    refine ⟨X2, Y1, hnil ⟨b1, q2, by rw [b2]; exact hl, fun d hd => h.own d (List.mem_cons_of_mem _ hd), ?_⟩⟩
    exact Nat.le_trans h.next (Nat.le_of_eq q4.symm)
  | handlerRet v f fs c cs post hf hst hat =>
    obtain ⟨X1, Y1, rfl, rfl, rfl, rfl, hl⟩ := hpop hf hst
    have hover : ∀ k, c.over = some (.over k) ∨ c.over = some (.orig k) → b ≤ k := by
      intro k hk
      refine h.own c (List.mem_cons_self ..) k ?_
      rcases hk with e | e
      · exact Or.inl e
      · exact Or.inr (Or.inl e)
    by_cases ho : f.cur ≥ override
    · refine ⟨(Fr.hook { f with prev := f.cur, status := max f.status f.cur, pt := loopPt post } :: X1).map (frMap (slotMap v c.over)),
        c :: Y1, hnil ⟨?_, h.stack, ?_, h.own, h.next⟩⟩
      · show (if f.cur ≥ override then setSlot _ _ _ else _) = _
        rw [if_pos ho, setSlot_eq, ← List.cons_append, List.map_append, frMap_other hF hover]
      · rw [hlen]; exact h.len
    · refine ⟨Fr.hook { f with prev := f.cur, status := max f.status f.cur, pt := loopPt post } :: X1, c :: Y1, hnil ⟨?_, h.stack, h.len, h.own, h.next⟩⟩
      show (if f.cur ≥ override then setSlot _ _ _ else _) = _
      rw [if_neg ho]; rfl
  | origRet v f fs hf hpt =>
    obtain ⟨X1, rfl, rfl⟩ := hpopF hf
    exact ⟨_ :: X1, Y, hnil ⟨rfl, h.stack, h.len, h.own, h.next⟩⟩
  | resolve force => exact ⟨X, Y, hnil ⟨h.frames, h.stack, h.len, h.own, h.next⟩⟩

/-- A run all of whose states satisfy `P`; `ns` are the notifications sent to contexts on the way. -/
inductive RunN (E : Env) (P : St → Prop) : St → List Note → St → Prop
  | refl {s : St} : P s → RunN E P s [] s
  | step {s s' s'' : St} {ns : List Note} {op : Op} : RunN E P s ns s' → Ok E s' op → step E s' op = .ok s'' → P s'' →
      RunN E P s (ns ++ notesOf E s' op) s''

theorem RunN.reach {E : Env} {P : St → Prop} {s s' : St} {ns : List Note} (h : RunN E P s ns s') (hr : LReach E s) : LReach E s' := by
  induction h with
  | refl _ => exact hr
  | step _ h1 h2 _ ih => exact .step ih h1 h2

theorem RunN.last {E : Env} {P : St → Prop} {s s' : St} {ns : List Note} (h : RunN E P s ns s') : P s' := by
  cases h with
  | refl h => exact h
  | step _ _ _ h => exact h

/-- The calls of hooked functions, normally and by SH_CALL. -/
def Op.isCall : Op → Bool
  | .call .. | .shCall .. => true
  | _ => false

theorem callClient {E : Env} {s : St} {op : Op} (hc : op.isCall = true) (hok : Ok E s op) : Client s := by
  cases op <;> first | exact hok.1 | cases hc

theorem handBack_client {s : St} (hcl : Client s) (v : Val) : handBack v s.frames = s.frames := by
  unfold Client at hcl
  split at hcl
  · next e => rw [e]; rfl
  · next f fs e =>
    rw [e]
    unfold handBack
    split at hcl <;> first | exact hcl.elim | (next e2 => simp only [e2])
  · exact hcl.elim

/-- C15: a call (normal or by SH_CALL) is made in state `s`; `s1` is the state right after the call was
made, and in all states up to `s2` it has not returned (the activation stack is higher than in `s`).
Then in `s2` all outer activations are untouched (accumulated status, original and override return
value, position, the handler's running result), and below the contexts of the new call lie the contexts
of the outer calls, changed by nothing but the notifications about removed hooks. -/
theorem outer_untouched {E : Env} (hE : EnvOk E) {s s1 s2 : St} (h : LReach E s) {op : Op} (hc : op.isCall = true) (hok : Ok E s op)
    (hst : step E s op = .ok s1) {ns : List Note} (hrun : RunN E (fun t => s.frames.length < t.frames.length) s1 ns s2) :
    ∃ X Y, s2.frames = X ++ s.frames ∧ s2.stack = Y ++ s.stack.map (noteAll ns) ∧ Y.length = (hookFrames X).length ∧
      (∀ c ∈ Y, ∀ k, c.refers k → s.next ≤ k) ∧ s.next ≤ s2.next := by
  have m := h.inv hE
  induction hrun with
  | refl hP =>
    have key : ∃ X Y, Nest s.next s.frames s.stack X Y s1 := by
      generalize hs1 : s1 = s1' at hst hP
      cases h.tr hE hok hst <;> try cases hc
      · next hp => exact absurd hP (Nat.lt_irrefl _)
      · refine ⟨[_], [_], rfl, rfl, rfl, ?_, Nat.le_succ _⟩
        intro c hc k hk
        rw [List.mem_singleton.1 hc] at hk
        rcases hk with e | e | e | e <;> cases e <;> exact Nat.le_refl _
      · refine ⟨[_, _], [_], rfl, rfl, rfl, ?_, Nat.le_succ_of_le (Nat.le_succ _)⟩
        intro c hc k hk
        rw [List.mem_singleton.1 hc] at hk
        rcases hk with e | e | e | e <;> cases e <;> exact Nat.le_succ _
    obtain ⟨X, Y, k⟩ := key
    exact ⟨X, Y, k.frames, by rw [map_noteAll_nil]; exact k.stack, k.len, k.own, k.next⟩
  | step h1 h2 h3 h4 ih =>
    obtain ⟨X, Y, k1, k2, k3, k4, k5⟩ := ih
    have hr := h1.reach (LReach.step h hok hst)
    obtain ⟨X', Y', k⟩ := (Nest.mk k1 k2 k3 k4 k5).step (by
      rintro rfl
      have := h1.last
      rw [k1] at this
      exact absurd this (Nat.lt_irrefl _)) m.flt (handBack_client (callClient hc hok)) (hr.inv hE) (hr.tr hE h2 h3)
    refine ⟨X', Y', k.frames, ?_, k.len, k.own, k.next⟩
    rw [k.stack, List.map_map]
    congr 1
    exact List.map_congr_left fun c _ => (noteAll_append _ _ c).symm

/-- C15: when the call returns (the activation stack is back at its old height), activations and contexts
are as before the call, except for the notifications about removed hooks. -/
theorem call_restores {E : Env} (hE : EnvOk E) {s s1 s2 s3 : St} (h : LReach E s) {op : Op} (hc : op.isCall = true) (hok : Ok E s op)
    (hst : step E s op = .ok s1) {ns : List Note} (hrun : RunN E (fun t => s.frames.length < t.frames.length) s1 ns s2)
    {op' : Op} (hok' : Ok E s2 op') (hst' : step E s2 op' = .ok s3) (hend : s3.frames.length ≤ s.frames.length) :
    s3.frames = s.frames ∧ s3.stack = s.stack.map (noteAll (ns ++ notesOf E s2 op')) := by
  obtain ⟨X, Y, k1, k2, k3, k4, k5⟩ := outer_untouched hE h hc hok hst hrun
  have hr := hrun.reach (LReach.step h hok hst)
  obtain ⟨X', Y', k⟩ := (Nest.mk k1 k2 k3 k4 k5).step (by
    rintro rfl
    have := hrun.last
    rw [k1] at this
    exact absurd this (Nat.lt_irrefl _)) (h.inv hE).flt (handBack_client (callClient hc hok)) (hr.inv hE) (hr.tr hE hok' hst')
  have hX : X' = [] := by
    have := k.frames
    rw [this, List.length_append] at hend
    cases X' with
    | nil => rfl
    | cons x xs => simp only [List.length_cons] at hend; omega
  subst hX
  have hY : Y' = [] := List.eq_nil_of_length_eq_zero (by rw [k.len]; rfl)
  subst hY
  refine ⟨k.frames, ?_⟩
  rw [k.stack, List.nil_append, List.map_map]
  exact List.map_congr_left fun c _ => (noteAll_append _ _ c).symm

theorem RunN.cons {E : Env} {P : St → Prop} {s s' s'' : St} {ns : List Note} {op : Op} (h0 : P s) (h1 : Ok E s op) (h2 : Verif.SH.step E s op = .ok s')
    (h3 : RunN E P s' ns s'') : RunN E P s (notesOf E s op ++ ns) s'' := by
  induction h3 with
  | refl h =>
    have := RunN.step (.refl h0) h1 h2 h
    rw [List.nil_append] at this
    rw [List.append_nil]; exact this
  | step _ k1 k2 k3 ih =>
    rw [← List.append_assoc]; exact .step ih k1 k2 k3

/-- The notifications of a run. -/
def notesRun (E : Env) (s : St) : List Op → List Note
  | [] => []
  | op :: ops => match step E s op with
    | .ok s' => notesOf E s op ++ notesRun E s' ops
    | .error _ => []

theorem runB_runN {E : Env} {P : St → Bool} {s s' : St} {ops : List Op} (h : runB E P s ops = some s') :
    RunN E (fun s => P s = true) s (notesRun E s ops) s' := by
  induction ops generalizing s with
  | nil =>
    unfold runB at h
    split at h
    · next hp => cases h; exact .refl hp
    · cases h
  | cons op ops ih =>
    unfold runB at h
    split at h
    · next hp =>
      rw [Bool.and_eq_true] at hp
      split at h
      · next s1 e =>
        simp only [notesRun, e]
        exact RunN.cons hp.1 (okB_ok hp.2) e (ih h)
      · cases h
    · cases h

/-- A call of the hooked function from a handler of the same function.  During the nested call, the hook the outer
loop stands at is removed (hook id 1, node 3); then the nested call returns. -/
def Ex.nest : List Op := [.tick, .reg (.removeId 1), .handlerRet 0, .tick, .handlerRet 0, .tick, .handlerRet 0, .tick, .origRet 7, .tick, .handlerRet 0]

example : ∃ s s1 s2 s3 ns, LReach Ex.E s ∧ Ok Ex.E s (.call 2008 1000) ∧ step Ex.E s (.call 2008 1000) = .ok s1 ∧
    RunN Ex.E (fun t => s.frames.length < t.frames.length) s1 ns s2 ∧ Ok Ex.E s2 .tick ∧ step Ex.E s2 .tick = .ok s3 ∧
    s3.frames.length ≤ s.frames.length ∧ s.stack.map Ctx.iter = [.at 0 2 false (some 3)] ∧ s3.stack.map Ctx.iter = [.at 0 2 false none] := by
  have h : (Ex.go (Ex.setup ++ [.call 2008 1000, .tick])).any (fun s =>
      s.stack.map Ctx.iter == [.at 0 2 false (some 3)] && okB Ex.E s (.call 2008 1000) && match step Ex.E s (.call 2008 1000) with
        | .ok s1 => (match runB Ex.E (fun t => decide (s.frames.length < t.frames.length)) s1 Ex.nest with
          | some s2 => okB Ex.E s2 .tick && (match step Ex.E s2 .tick with
            | .ok s3 => decide (s3.frames.length ≤ s.frames.length) && (s3.stack.map Ctx.iter == [.at 0 2 false none])
            | _ => false)
          | none => false)
        | _ => false) = true := rfl
  cases hg : Ex.go (Ex.setup ++ [.call 2008 1000, .tick]) with
  | none => rw [hg] at h; cases h
  | some s =>
    rw [hg, Option.any_some, Bool.and_eq_true, Bool.and_eq_true] at h
    obtain ⟨⟨h1, h2⟩, h3⟩ := h
    split at h3
    · next s1 e1 =>
      split at h3
      · next s2 e2 =>
        rw [Bool.and_eq_true] at h3
        obtain ⟨h4, h5⟩ := h3
        split at h5
        · next s3 e3 =>
          rw [Bool.and_eq_true] at h5
          refine ⟨s, s1, s2, s3, notesRun Ex.E s1 Ex.nest, Ex.go_reach hg, okB_ok h2, e1, ?_, okB_ok h4, e3, of_decide_eq_true h5.1, beq_iff_eq.1 h1, beq_iff_eq.1 h5.2⟩
          have := runB_runN e2
          simpa using this
        · cases h5
      · cases h3
    · cases h3

/-- C15: what notifications do to the context of a running call.  Everything but the loop's state, the
object record and the position is untouched; those change only if the function record, the object record
or the hook the loop stands at was announced as removed. -/
theorem note_effect (ns : List Note) (c : Ctx) :
    NoteFrame c (noteAll ns c) ∧
    ((noteAll ns c).st = c.st ∨ ∃ o, c.vfn = some o ∧ Note.vfnRemoved o ∈ ns) ∧
    ((noteAll ns c).iface = c.iface ∨ ∃ o f, c.vfn = some o ∧ c.iface = some f ∧ Note.ifaceRemoved o f ∈ ns) ∧
    ((noteAll ns c).iter = c.iter ∨ ∃ o f post n q, c.iter = .at o f post (some n) ∧ Note.hookRemoved o f post n q ∈ ns) := by
  refine ⟨noteAll_frame ns c, ?_⟩
  induction ns generalizing c with
  | nil => exact ⟨Or.inl rfl, Or.inl rfl, Or.inl rfl⟩
  | cons n ns ih =>
    rw [noteAll_cons]
    obtain ⟨h1, h2, h3⟩ := ih (noteCtx n c)
    have hf := noteCtx_frame n c
    cases n with
    | hookRemoved o f post nid q =>
      have e1 : (noteCtx (.hookRemoved o f post nid q) c).st = c.st := by unfold noteCtx; dsimp only; split <;> rfl
      have e2 : (noteCtx (.hookRemoved o f post nid q) c).iface = c.iface := by unfold noteCtx; dsimp only; split <;> rfl
      refine ⟨?_, ?_, ?_⟩
      · rw [e1, hf.vfn] at h1
        exact h1.imp id fun ⟨a, b, d⟩ => ⟨a, b, List.mem_cons_of_mem _ d⟩
      · rw [e2, hf.vfn] at h2
        exact h2.imp id fun ⟨a, b, d, e, g⟩ => ⟨a, b, d, e, List.mem_cons_of_mem _ g⟩
      · by_cases hi : c.iter = .at o f post (some nid)
        · exact Or.inr ⟨o, f, post, nid, q, hi, List.mem_cons_self ..⟩
        · have e3 : noteCtx (.hookRemoved o f post nid q) c = c := by unfold noteCtx; dsimp only; rw [if_neg hi]
          rw [e3] at h3 ⊢
          exact h3.imp id fun ⟨a, b, d, e, g, x, y⟩ => ⟨a, b, d, e, g, x, List.mem_cons_of_mem _ y⟩
    | ifaceRemoved o f =>
      have e1 : (noteCtx (.ifaceRemoved o f) c).st = c.st := by unfold noteCtx; dsimp only; split <;> rfl
      have e2 : (noteCtx (.ifaceRemoved o f) c).iter = c.iter := by unfold noteCtx; dsimp only; split <;> rfl
      refine ⟨?_, ?_, ?_⟩
      · rw [e1, hf.vfn] at h1
        exact h1.imp id fun ⟨a, b, d⟩ => ⟨a, b, List.mem_cons_of_mem _ d⟩
      · by_cases hi : c.vfn = some o ∧ c.iface = some f
        · exact Or.inr ⟨o, f, hi.1, hi.2, List.mem_cons_self ..⟩
        · have e3 : noteCtx (.ifaceRemoved o f) c = c := by unfold noteCtx; dsimp only; rw [if_neg hi]
          rw [e3] at h2 ⊢
          exact h2.imp id fun ⟨a, b, d, e, g⟩ => ⟨a, b, d, e, List.mem_cons_of_mem _ g⟩
      · rw [e2] at h3
        exact h3.imp id fun ⟨a, b, d, e, g, x, y⟩ => ⟨a, b, d, e, g, x, List.mem_cons_of_mem _ y⟩
    | vfnRemoved o =>
      have e1 : (noteCtx (.vfnRemoved o) c).iface = c.iface := by unfold noteCtx; dsimp only; split <;> rfl
      have e2 : (noteCtx (.vfnRemoved o) c).iter = c.iter := by unfold noteCtx; dsimp only; split <;> rfl
      refine ⟨?_, ?_, ?_⟩
      · by_cases hi : c.vfn = some o
        · exact Or.inr ⟨o, hi, List.mem_cons_self ..⟩
        · have e3 : noteCtx (.vfnRemoved o) c = c := by unfold noteCtx; dsimp only; rw [if_neg hi]
          rw [e3] at h1 ⊢
          exact h1.imp id fun ⟨a, b, d⟩ => ⟨a, b, List.mem_cons_of_mem _ d⟩
      · rw [e1, hf.vfn] at h2
        exact h2.imp id fun ⟨a, b, d, e, g⟩ => ⟨a, b, d, e, List.mem_cons_of_mem _ g⟩
      · rw [e2] at h3
        exact h3.imp id fun ⟨a, b, d, e, g, x, y⟩ => ⟨a, b, d, e, g, x, List.mem_cons_of_mem _ y⟩
    | cleanup o =>
      have e : noteCtx (.cleanup o) c = c := rfl
      rw [e] at h1 h2 h3 ⊢
      exact ⟨h1.imp id fun ⟨a, b, d⟩ => ⟨a, b, List.mem_cons_of_mem _ d⟩,
        h2.imp id fun ⟨a, b, d, e, g⟩ => ⟨a, b, d, e, List.mem_cons_of_mem _ g⟩,
        h3.imp id fun ⟨a, b, d, e, g, x, y⟩ => ⟨a, b, d, e, g, x, List.mem_cons_of_mem _ y⟩⟩

/-! ### the notifications are true -/

theorem decrRef_deleted {r r' : Reg} {o void : Nat} (h : decrRef r o void = .ok r') : r'.deleted = r.deleted := by
  unfold decrRef at h
  simp only [bind, Except.bind] at h
  split at h
  · cases h
  · split at h <;> cases h <;> rfl

theorem revertVfn_deleted {E : Env} {r r' : Reg} {v : Vfn} {ns : List Note} (h : revertAndRemoveVfn E r v = .ok (r', ns)) :
    (∀ n ∈ r.deleted, n ∈ r'.deleted) ∧ ∀ n ∈ ns, ∃ o, n = .cleanup o := by
  have hrv : (revert E r v).deleted = r.deleted := by
    unfold revert
    split
    · unfold patch; split <;> rfl
    · rfl
  have hcl : ∀ n ∈ (if v.thunk then [Note.cleanup v.oid] else []), ∃ o, n = Note.cleanup o := by
    intro n hn
    split at hn
    · exact ⟨_, List.mem_singleton.1 hn⟩
    · cases hn
  unfold revertAndRemoveVfn at h
  simp only [bind, Except.bind] at h
  cases hm : v.hms with
  | nil =>
    rw [hm] at h
    cases h
    exact ⟨fun n hn => List.mem_append_right _ (by rw [hrv]; exact hn), hcl⟩
  | cons o os =>
    rw [hm] at h
    simp only at h
    cases hd : decrRef (revert E r v) o v.oid with
    | error e => rw [hd] at h; cases h
    | ok r2 =>
      rw [hd] at h
      cases h
      exact ⟨fun n hn => List.mem_append_right _ (by rw [decrRef_deleted hd, hrv]; exact hn), hcl⟩

/-- Deleted handlers stay deleted, and hooks announced as removed are deleted. -/
def DelOk (r r' : Reg) (ns : List Note) : Prop :=
  (∀ n ∈ r.deleted, n ∈ r'.deleted) ∧ ∀ o f post n q, Note.hookRemoved o f post n q ∈ ns → n ∈ r'.deleted

theorem DelOk.trans {a b c : Reg} {n1 n2 : List Note} (h1 : DelOk a b n1) (h2 : DelOk b c n2) : DelOk a c (n1 ++ n2) := by
  refine ⟨fun n hn => h2.1 n (h1.1 n hn), ?_⟩
  intro o f post n q hn
  rcases List.mem_append.1 hn with hn | hn
  · exact h2.1 n (h1.2 _ _ _ _ _ hn)
  · exact h2.2 _ _ _ _ _ hn

theorem DelOk.refl (r : Reg) : DelOk r r [] := ⟨fun _ h => h, by simp⟩

theorem removeHookById_del {E : Env} {r r' : Reg} {id : Int} {b : Bool} {ns : List Note}
    (h : removeHookById E r id = .ok (r', b, ns)) : DelOk r r' ns := by
  unfold removeHookById at h
  split at h
  · cases h; exact DelOk.refl r
  split at h
  · cases h; exact DelOk.refl r
  split at h
  · cases h; exact DelOk.refl r
  split at h
  · cases h; exact DelOk.refl r
  next hk _ =>
  simp only [bind, Except.bind] at h
  split at h
  · split at h
    · split at h
      · cases h
      · next z hz =>
        cases h
        obtain ⟨k1, k2⟩ := revertVfn_deleted (ns := z.2) hz
        refine ⟨fun n hn => k1 n (List.mem_cons_of_mem _ hn), ?_⟩
        intro o f post n q hn
        rcases List.mem_append.1 hn with hn | hn
        · simp only [List.mem_cons, List.not_mem_nil, or_false, Note.hookRemoved.injEq, reduceCtorEq] at hn
          rw [hn.2.2.2.1]
          exact k1 _ (List.mem_cons_self ..)
        · obtain ⟨_, e⟩ := k2 _ hn; cases e
    · cases h
      refine ⟨fun n hn => List.mem_cons_of_mem _ hn, ?_⟩
      intro o f post n q hn
      simp only [List.mem_cons, List.not_mem_nil, or_false, Note.hookRemoved.injEq, reduceCtorEq] at hn
      rw [hn.2.2.2.1]
      exact List.mem_cons_self ..
  · cases h
    refine ⟨fun n hn => List.mem_cons_of_mem _ hn, ?_⟩
    intro o f post n q hn
    simp only [List.mem_cons, List.not_mem_nil, or_false, Note.hookRemoved.injEq] at hn
    rw [hn.2.2.2.1]
    exact List.mem_cons_self ..

theorem removeIds_del {E : Env} (ids : List Int) {r r' : Reg} {b : Bool} {ns : List Note}
    (h : removeIds E r ids = .ok (r', b, ns)) : DelOk r r' ns := by
  induction ids generalizing r r' b ns with
  | nil => cases h; exact DelOk.refl r
  | cons id ids ih =>
    unfold removeIds at h
    simp only [bind, Except.bind] at h
    split at h
    · cases h
    · next y hy =>
      split at h
      · cases h
      · next z hz =>
        cases h
        exact (removeHookById_del (b := y.2.1) (ns := y.2.2) hy).trans (ih (b := z.2.1) (ns := z.2.2) hz)

theorem removeHms_del {E : Env} {mem0 : Addr → Addr} (os : List Nat) (hnd : os.Nodup) {r r' : Reg}
    {ns : List Note} (hw : RegInv E mem0 r) (hos : ∀ o ∈ os, ∃ a b c, HasHm r o a b c) (h : removeHms E os r = .ok (r', ns)) : DelOk r r' ns := by
  induction os generalizing r r' ns with
  | nil => cases h; exact DelOk.refl r
  | cons o os ih =>
    rw [List.nodup_cons] at hnd
    obtain ⟨a, b, c, hh⟩ := hos o (List.mem_cons_self ..)
    obtain ⟨r1, ns1, g1, g2, g3, g4⟩ := removeHookManO_remOk (E := E) o hw hh
    unfold removeHms at h
    simp only [bind, Except.bind] at h
    rw [g1] at h
    simp only at h
    split at h
    · cases h
    · next z hz =>
      cases h
      refine DelOk.trans ⟨?_, ?_⟩ (ih hnd.2 (r' := z.1) (ns := z.2) g2 ?_ hz)
      · obtain ⟨D, e, _⟩ := g3.del
        intro n hn; rw [e]; exact List.mem_append_right _ hn
      · intro o f post n q hn
        obtain ⟨_, e⟩ := removeHookManO_notes g1 _ hn
        cases e
      · intro o' ho'
        obtain ⟨a, b, c, hh'⟩ := hos o' (List.mem_cons_of_mem _ ho')
        exact ⟨a, b, c, (g4 ..).2 ⟨hh', by rintro rfl; exact hnd.1 ho'⟩⟩

/-- C15: the notifications sent by an operation are true afterwards: announced function and object records
are gone and the handlers of announced hooks are deleted. -/
theorem notes_true {E : Env} (hE : EnvOk E) {s s' : St} (h : LReach E s) {op : Op} (hok : Ok E s op) (hst : step E s op = .ok s') :
    (∀ o, Note.vfnRemoved o ∈ notesOf E s op → ∀ v ∈ s'.reg.vfns, v.oid ≠ o) ∧
    (∀ o f, Note.ifaceRemoved o f ∈ notesOf E s op → ∀ v ∈ s'.reg.vfns, v.oid = o → ∀ i ∈ v.ifaces, i.oid ≠ f) ∧
    (∀ o f post n q, Note.hookRemoved o f post n q ∈ notesOf E s op → n ∈ s'.reg.deleted) := by
  have hr := (h.inv hE).reg
  cases h.tr hE hok hst with
  | reg op r x ns hrr =>
    have hno : notesOf E s (.reg op) = ns := by simp only [notesOf, hrr]
    obtain ⟨ts, log', hfe, hts, he⟩ := applyNotes_spec ns { s with reg := r }
    have hreg : (afterReg (applyNotes { s with reg := r } ns) op).reg = r := by
      rw [he]
      unfold afterReg
      split
      · split <;> rfl
      · rfl
    rw [hno, hreg]
    have hk := (regN_keep hr hok.2 hrr).2
    have hdel : ∀ o f post n q, Note.hookRemoved o f post n q ∈ ns → n ∈ r.deleted := by
      obtain ⟨mem0, hw, h0⟩ := hr.inv
      cases op with
      | add a =>
        simp only [regStepN, bind, Except.bind] at hrr
        cases ha : addHook E s.reg a with
        | error e => rw [ha] at hrr; cases hrr
        | ok y => rw [ha] at hrr; cases hrr; simp
      | removeId id =>
        simp only [regStepN, bind, Except.bind] at hrr
        cases ha : removeHookById E s.reg id with
        | error e => rw [ha] at hrr; cases hrr
        | ok y => obtain ⟨ra, ba, na⟩ := y; rw [ha] at hrr; cases hrr; exact (removeHookById_del ha).2
      | remove plug iface offs info hd post =>
        simp only [regStepN, bind, Except.bind] at hrr
        cases ha : removeHook E s.reg plug iface offs info hd post with
        | error e => rw [ha] at hrr; cases hrr
        | ok y =>
          obtain ⟨ra, ba, na⟩ := y
          rw [ha] at hrr; cases hrr
          unfold removeHook at ha
          cases info with
          | none => cases ha; simp
          | some info =>
            simp only at ha
            split at ha
            · cases ha; simp
            · exact (removeIds_del _ ha).2
      | unload plug =>
        simp only [regStepN, bind, Except.bind] at hrr
        cases ha : unloadReg E s.reg plug with
        | error e => rw [ha] at hrr; cases hrr
        | ok y =>
          obtain ⟨ra, na⟩ := y
          rw [ha] at hrr; cases hrr
          unfold unloadReg at ha
          simp only [bind, Except.bind] at ha
          split at ha
          · cases ha
          · next y hy =>
            split at ha
            · cases ha
            · next z hz =>
              cases ha
              obtain ⟨r1, b, ns1, g1, g2, _⟩ := removeIds_spec (E := E) (idFindPlug s.reg.entries plug) hw
              have d1 := removeIds_del _ (b := y.2.1) (ns := y.2.2) hy
              rw [g1] at hy; cases hy
              refine (d1.trans (removeHms_del (r' := z.1) (ns := z.2) _ (nodup_map_filter _ g2.ref.oid) g2 ?_ hz)).2
              intro o ho
              obtain ⟨h, hh, rfl⟩ := List.mem_map.1 ho
              rw [List.mem_filter] at hh
              exact ⟨_, _, _, hasHm_of_mem hh.1⟩
      | removeHm plug pub =>
        simp only [regStepN, bind, Except.bind] at hrr
        cases ha : removeHookManager E s.reg plug pub with
        | error e => rw [ha] at hrr; cases hrr
        | ok y =>
          obtain ⟨ra, na⟩ := y
          rw [ha] at hrr; cases hrr
          unfold removeHookManager at ha
          split at ha
          · cases ha; simp
          · intro o f post n q hn
            obtain ⟨_, e⟩ := removeHookManO_notes ha _ hn
            cases e
      | pauseId id b => simp only [regStepN] at hrr; cases hrr; simp
      | pausePlugin plug b => simp only [regStepN] at hrr; cases hrr; simp
      | shutdown =>
        simp only [regStepN, shutdownReg, bind, Except.bind] at hrr
        cases ha : removeIds E s.reg (idFindAll s.reg.entries) with
        | error e => rw [ha] at hrr; cases hrr
        | ok y => obtain ⟨ra, ba, na⟩ := y; rw [ha] at hrr; cases hrr; exact (removeIds_del _ ha).2
    rcases hk with ⟨rfl, _⟩ | hk
    · exact ⟨by simp, by simp, hdel⟩
    · exact ⟨hk.vfn, hk.iface, hdel⟩
  | _ => exact ⟨by simp [notesOf], by simp [notesOf], by simp [notesOf]⟩

example : ∃ s s', LReach Ex.E s ∧ Ok Ex.E s (.reg (.removeId 1)) ∧ step Ex.E s (.reg (.removeId 1)) = .ok s' ∧
    notesOf Ex.E s (.reg (.removeId 1)) = [.hookRemoved 0 2 false 3 none] := by
  have h : (Ex.go (Ex.setup ++ [.call 2008 1000, .tick])).any (fun s => okB Ex.E s (.reg (.removeId 1)) &&
      (notesOf Ex.E s (.reg (.removeId 1)) == [.hookRemoved 0 2 false 3 none]) && match step Ex.E s (.reg (.removeId 1)) with
        | .ok _ => true
        | _ => false) = true := rfl
  cases hg : Ex.go (Ex.setup ++ [.call 2008 1000, .tick]) with
  | none => rw [hg] at h; cases h
  | some s =>
    rw [hg, Option.any_some, Bool.and_eq_true, Bool.and_eq_true] at h
    obtain ⟨⟨h1, h2⟩, h3⟩ := h
    split at h3
    · next s1 e1 => exact ⟨s, s1, Ex.go_reach hg, okB_ok h1, e1, beq_iff_eq.1 h2⟩
    · cases h3

#print axioms outer_untouched
#print axioms call_restores
#print axioms note_effect
#print axioms notes_true

end Verif.SH
