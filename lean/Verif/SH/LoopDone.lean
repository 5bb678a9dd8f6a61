import Verif.SH.LoopRes
/-
What the history says about calls that have returned.
-/
namespace Verif.SH

/-- Activation `f` belongs to call `c`: it is the one the call started with, unless the call was recalled. -/
def Entered (log : List Ev) (c f : Nat) : Prop :=
  Recalled log c ∨ (∃ p t, Ev.enter c f p t ∈ log) ∨ ∃ p t, Ev.shEnter c f p t ∈ log

theorem Entered.mono {X log : List Ev} {c f : Nat} (h : Entered log c f) : Entered (X ++ log) c f := by
  rcases h with h | ⟨p, t, h⟩ | ⟨p, t, h⟩
  · exact Or.inl h.mono
  · exact Or.inr (Or.inl ⟨p, t, List.mem_append_right _ h⟩)
  · exact Or.inr (Or.inr ⟨p, t, List.mem_append_right _ h⟩)

/-- The call and activation an event of a running hook function belongs to. -/
def Ev.owner : Ev → Option (Nat × Nat)
  | .invoke c f _ _ _ => some (c, f)
  | .origCall c f _ => some (c, f)
  | .ret c f _ => some (c, f)
  | _ => none

/-- The outcome of an activation that returned `v`: either all pre handlers answered less than SUPERCEDE,
the original was called exactly once, and `v` is the last overriding value or else the original's; or
some pre handler answered SUPERCEDE, the original was not called, and `v` is the last overriding value. -/
def Outcome (log : List Ev) (fid : Nat) (v : Val) : Prop :=
  ((∀ x ∈ preRes (results log fid), x.2.1 < supercede) ∧ (origCalls log fid).length = 1 ∧
    ∃ o, origVals log fid = [o] ∧ v = (lastOver (results log fid)).getD o) ∨
  ((∃ x ∈ preRes (results log fid), x.2.1 = supercede) ∧ origCalls log fid = [] ∧ origVals log fid = [] ∧
    lastOver (results log fid) = some v)

theorem Outcome.mute {X log : List Ev} {fid : Nat} {v : Val} (h : Outcome log fid v) (hX : ∀ e ∈ X, e.mute fid) : Outcome (X ++ log) fid v := by
  unfold Outcome
  rw [results_mute hX, origVals_mute hX, origCalls_mute hX]; exact h

theorem highest_mem {rs : List (Bool × Nat × Val)} (h : 0 < highest rs) : ∃ x ∈ rs, x.2.1 = highest rs := by
  rw [← List.reverse_reverse rs] at h ⊢
  generalize rs.reverse = l at h ⊢
  induction l with
  | nil => exact absurd h (by decide)
  | cons x xs ih =>
    rw [List.reverse_cons, highest_snoc] at h ⊢
    by_cases hx : highest xs.reverse ≤ x.2.1
    · exact ⟨x, by simp, by omega⟩
    · obtain ⟨y, hy, e⟩ := ih (by omega)
      exact ⟨y, List.mem_append_left _ hy, by omega⟩

/-- The history of returned calls. -/
structure DInv (s : St) : Prop where
  ent : ∀ g ∈ hookFrames s.frames, Entered s.log g.cid g.fid
  own : ∀ e ∈ s.log, ∀ c f, e.owner = some (c, f) → Entered s.log c f
  gone : ∀ c f v, Ev.ret c f v ∈ s.log → ∀ g ∈ hookFrames s.frames, g.fid ≠ f
  once : s.log.Pairwise (fun a b => ∀ c f v c' v', a = Ev.ret c f v → b ≠ Ev.ret c' f v')
  out : ∀ c f v, Ev.ret c f v ∈ s.log → ¬ Recalled s.log c → Outcome s.log f v
  kinds : ∀ c f p t f' p' t', Ev.enter c f p t ∈ s.log → Ev.shEnter c f' p' t' ∉ s.log
  shU : ∀ c f p t f' p' t', Ev.shEnter c f p t ∈ s.log → Ev.shEnter c f' p' t' ∈ s.log → f = f' ∧ p = p' ∧ t = t'
  rcl : ∀ c f f' st, Ev.recall c f f' st ∈ s.log → ∃ f0 p t, Ev.enter c f0 p t ∈ s.log
  fidF : ∀ e ∈ s.log, ∀ c f, e.owner = some (c, f) → ∀ g ∈ hookFrames s.frames, g.fid = f → g.cid = c
  fidU : ∀ e ∈ s.log, ∀ e' ∈ s.log, ∀ c c' f, e.owner = some (c, f) → e'.owner = some (c', f) → c = c'

/-- New events of a step that lets no hook function return. -/
def Ev.fine (s : St) : Ev → Prop
  | .ret .. => False
  | .invoke c f _ _ _ => ∃ g ∈ hookFrames s.frames, g.fid = f ∧ g.cid = c
  | .origCall c f _ => ∃ g ∈ hookFrames s.frames, g.fid = f ∧ g.cid = c
  | .result f _ _ _ => ∃ g ∈ hookFrames s.frames, g.fid = f
  | .origRet f _ => ∃ g ∈ hookFrames s.frames, g.fid = f
  | .enter c _ _ _ => c = s.next
  | .shEnter c _ _ _ => c = s.next
  | .recall c _ _ _ => ∃ f0 p t, Ev.enter c f0 p t ∈ s.log
  | _ => True

def Ev.isEnter : Ev → Bool
  | .enter .. => true
  | .shEnter .. => true
  | _ => false

theorem DInv.keep {E : Env} {s s' : St} (h : DInv s) (m : MInv E s) (hl : LogOk s.log s.next) {X : List Ev} (hlog : s'.log = X ++ s.log)
    (hfr : ∀ g ∈ hookFrames s'.frames, (∃ g0 ∈ hookFrames s.frames, g0.fid = g.fid ∧ g0.cid = g.cid) ∨ (Entered s'.log g.cid g.fid ∧ s.next ≤ g.fid))
    (hX : ∀ e ∈ X, e.fine s) (hk : (∀ e ∈ X, e.isEnter = false) ∨ ∃ e, X = [e]) : DInv s' := by
  have hmute : ∀ c f v, Ev.ret c f v ∈ s.log → ∀ e ∈ X, e.mute f := by
    intro c f v hr e he
    have h1 := hX e he
    have h2 := h.gone c f v hr
    cases e with
    | result f' _ _ _ => obtain ⟨g, hg, rfl⟩ := h1; exact h2 g hg
    | origRet f' _ => obtain ⟨g, hg, rfl⟩ := h1; exact h2 g hg
    | origCall c' f' _ => obtain ⟨g, hg, rfl, _⟩ := h1; exact h2 g hg
    | _ => trivial
  have hret : ∀ c f v, Ev.ret c f v ∈ s'.log → Ev.ret c f v ∈ s.log := by
    intro c f v hm
    rw [hlog] at hm
    rcases List.mem_append.1 hm with hm | hm
    · exact (hX _ hm).elim
    · exact hm
  have hnoent : ∀ f p t, Ev.enter s.next f p t ∉ s.log := fun f p t hm => absurd (hl.lt _ hm s.next (by simp [Ev.nums])) (Nat.lt_irrefl _)
  have hnosh : ∀ f p t, Ev.shEnter s.next f p t ∉ s.log := fun f p t hm => absurd (hl.lt _ hm s.next (by simp [Ev.nums])) (Nat.lt_irrefl _)
  have hone : ∀ a ∈ X, ∀ b ∈ X, a.isEnter = true → a = b := by
    intro a ha b hb he
    rcases hk with hk | ⟨e, rfl⟩
    · rw [hk a ha] at he; cases he
    · rw [List.mem_singleton.1 ha, List.mem_singleton.1 hb]
  have hXo : ∀ e ∈ X, ∀ c f, e.owner = some (c, f) → ∃ g ∈ hookFrames s.frames, g.fid = f ∧ g.cid = c := by
    intro e he c f ho
    have h1 := hX e he
    cases e with
    | invoke c' f' _ _ _ => cases ho; exact h1
    | origCall c' f' _ => cases ho; exact h1
    | ret _ _ _ => exact h1.elim
    | _ => cases ho
  have hlt : ∀ e ∈ s.log, ∀ c f, e.owner = some (c, f) → f < s.next := by
    intro e he c f ho
    cases e with
    | invoke c' f' _ _ _ => cases ho; exact hl.lt _ he _ (by simp [Ev.nums])
    | origCall c' f' _ => cases ho; exact hl.lt _ he _ (by simp [Ev.nums])
    | ret _ _ _ => cases ho; exact hl.lt _ he _ (by simp [Ev.nums])
    | _ => cases ho
  have hui : ∀ g ∈ hookFrames s.frames, ∀ g' ∈ hookFrames s.frames, g.fid = g'.fid → g = g' := by
    intro g hg g' hg' e
    have h1 := getFrame_mem m.fid hg
    rw [e, getFrame_mem m.fid hg'] at h1
    exact (Option.some.inj h1).symm
  refine ⟨?_, ?_, ?_, ?_, ?_, ?_, ?_, ?_, ?_, ?_⟩
  · intro g hg
    rcases hfr g hg with ⟨g0, h1, h2, h3⟩ | h1
    · rw [hlog, ← h2, ← h3]; exact (h.ent g0 h1).mono
    · exact h1.1
  · intro e he c f ho
    rw [hlog] at he ⊢
    rcases List.mem_append.1 he with he | he
    · have h1 := hX e he
      cases e with
      | invoke c' f' _ _ _ => cases ho; obtain ⟨g, hg, rfl, rfl⟩ := h1; exact (h.ent g hg).mono
      | origCall c' f' _ => cases ho; obtain ⟨g, hg, rfl, rfl⟩ := h1; exact (h.ent g hg).mono
      | ret _ _ _ => exact h1.elim
      | _ => cases ho
    · exact (h.own e he c f ho).mono
  · intro c f v hr g hg
    have hr := hret c f v hr
    rcases hfr g hg with ⟨g0, h1, h2, h3⟩ | h1
    · rw [← h2]; exact h.gone c f v hr g0 h1
    · have := hl.lt _ hr f (by simp [Ev.nums]); omega
  · rw [hlog, List.pairwise_append]
    refine ⟨?_, h.once, ?_⟩
    · rw [List.pairwise_iff_forall_sublist]
      intro a b hab c f v c' v' e
      subst e
      exact (hX _ (hab.subset (List.mem_cons_self ..))).elim
    · intro a ha b hb c f v c' v' e
      subst e
      exact (hX _ ha).elim
  · intro c f v hr hn
    have hr := hret c f v hr
    rw [hlog] at hn ⊢
    exact (h.out c f v hr (Recalled.of_ext hn)).mute (hmute c f v hr)
  · intro c f p t f' p' t' h1 h2
    rw [hlog] at h1 h2
    rcases List.mem_append.1 h1 with h1 | h1 <;> rcases List.mem_append.1 h2 with h2 | h2
    · cases hone _ h1 _ h2 rfl
    · cases (hX _ h1 : c = s.next); exact hnosh _ _ _ h2
    · cases (hX _ h2 : c = s.next); exact hnoent _ _ _ h1
    · exact h.kinds _ _ _ _ _ _ _ h1 h2
  · intro c f p t f' p' t' h1 h2
    rw [hlog] at h1 h2
    rcases List.mem_append.1 h1 with h1 | h1 <;> rcases List.mem_append.1 h2 with h2 | h2
    · cases hone _ h1 _ h2 rfl; exact ⟨rfl, rfl, rfl⟩
    · cases (hX _ h1 : c = s.next); exact absurd h2 (hnosh _ _ _)
    · cases (hX _ h2 : c = s.next); exact absurd h1 (hnosh _ _ _)
    · exact h.shU _ _ _ _ _ _ _ h1 h2
  · intro c f f' st hm
    rw [hlog] at hm ⊢
    rcases List.mem_append.1 hm with hm | hm
    · obtain ⟨f0, p, t, h1⟩ := hX _ hm
      exact ⟨f0, p, t, List.mem_append_right _ h1⟩
    · obtain ⟨f0, p, t, h1⟩ := h.rcl _ _ _ _ hm
      exact ⟨f0, p, t, List.mem_append_right _ h1⟩
  · intro e he c f ho g hg hgf
    rw [hlog] at he
    have hfr' : (∃ g0 ∈ hookFrames s.frames, g0.fid = g.fid ∧ g0.cid = g.cid) ∨ s.next ≤ g.fid := (hfr g hg).imp id And.right
    rcases List.mem_append.1 he with he | he
    · obtain ⟨g1, k1, k2, k3⟩ := hXo e he c f ho
      rcases hfr' with ⟨g0, h1, h2, h3⟩ | h1
      · rw [← h3, hui g0 h1 g1 k1 (by rw [h2, k2, hgf]), k3]
      · exact absurd (m.flt g1 k1) (by rw [k2, ← hgf]; omega)
    · rcases hfr' with ⟨g0, h1, h2, h3⟩ | h1
      · rw [← h3]; exact h.fidF e he c f ho g0 h1 (h2.trans hgf)
      · have := hlt e he c f ho; omega
  · intro e he e' he' c c' f ho ho'
    rw [hlog] at he he'
    rcases List.mem_append.1 he with he | he <;> rcases List.mem_append.1 he' with he' | he'
    · obtain ⟨g1, k1, k2, k3⟩ := hXo e he c f ho
      obtain ⟨g2, l1, l2, l3⟩ := hXo e' he' c' f ho'
      rw [← k3, ← l3, hui g1 k1 g2 l1 (by rw [k2, l2])]
    · obtain ⟨g1, k1, k2, k3⟩ := hXo e he c f ho
      rw [← k3]; exact h.fidF e' he' c' f ho' g1 k1 k2
    · obtain ⟨g1, k1, k2, k3⟩ := hXo e' he' c' f ho'
      rw [← k3]; exact (h.fidF e he c f ho g1 k1 k2).symm
    · exact h.fidU e he e' he' c c' f ho ho'

/-- The outcome of an activation whose post loop is over. -/
theorem RBody.outcome {E : Env} {s : St} (m : MInv E s) {f : Frame} {fs : List Fr} (hf : s.frames = .hook f :: fs) {c : Ctx}
    (h : RBody s.log f c) (hpt : f.pt = .postLoop) :
    Outcome s.log f.fid (getSlot s.frames (if f.status ≥ override then c.over else c.orig)) := by
  have hg : getFrame s.frames f.fid = some f := getFrame_mem m.fid (by rw [hf]; exact List.mem_cons_self ..)
  have hv : ∀ o, (highest (preRes (results s.log f.fid)) < supercede ∧ o = f.orig) ∨ lastOver (results s.log f.fid) ≠ none →
      getSlot s.frames (if f.status ≥ override then c.over else c.orig) = (lastOver (results s.log f.fid)).getD o := by
    intro o ho
    rw [h.status]
    by_cases hh : highest (results s.log f.fid) ≥ override
    · rw [if_pos hh]
      obtain ⟨v, hv⟩ := lastOver_some _ hh
      have hov : c.over = some (.over f.fid) := h.over.resolve_left fun e => by rw [e.2] at hh; exact absurd hh (by decide)
      rw [hov, hv]
      simp only [getSlot, hg, Option.map_some, Option.getD_some]
      exact h.val v hv
    · rw [if_neg hh, h.orig, lastOver_none (by omega)]
      rcases ho with ho | ho
      · simp only [getSlot, hg, Option.map_some, Option.getD_some, Option.getD_none]; exact ho.2.symm
      · rw [lastOver_none (by omega)] at ho; exact absurd rfl ho
  rcases h.p2 (by rw [hpt]; rfl) with ⟨h1, h2, h3⟩ | ⟨h1, h2, h3, h4⟩
  · left
    refine ⟨fun x hx => Nat.lt_of_le_of_lt (highest_le hx) h3, h1, f.orig, h2, hv _ (Or.inl ⟨h3, rfl⟩)⟩
  · right
    obtain ⟨x, hx, e⟩ := highest_mem (rs := preRes (results s.log f.fid)) (by rw [h3]; decide)
    refine ⟨⟨x, hx, e.trans h3⟩, h1, h2, ?_⟩
    have hx3 : override ≤ highest (results s.log f.fid) := by
      have := highest_le (List.mem_filter.1 hx).1
      rw [e, h3] at this
      exact Nat.le_trans (by decide) this
    obtain ⟨w, hw⟩ := lastOver_some _ hx3
    rw [hv 0 (Or.inr (by rw [hw]; simp)), hw]; rfl

theorem DInv.step {E : Env} {s s' : St} {op : Op} (m : MInv E s) (hh : HInv s) (hr : RInv s) (h : DInv s) (hok : Ok E s op) (ht : Tr E s op s') : DInv s' := by
  obtain ⟨mem0, hw, h0⟩ := m.reg.inv
  have hsame : ∀ {fs : List Fr}, hookFrames fs = hookFrames s.frames → ∀ g ∈ hookFrames fs, (∃ g0 ∈ hookFrames s.frames, g0.fid = g.fid ∧ g0.cid = g.cid) := by
    intro fs e g hg; rw [e] at hg; exact ⟨g, hg, rfl, rfl⟩
  have hmapG : ∀ {f f' : Frame} {fs : List Fr} {G : Frame → Frame}, s.frames = .hook f :: fs → f'.fid = f.fid → f'.cid = f.cid → (∀ f, SameF f (G f)) →
      ∀ g ∈ hookFrames ((Fr.hook f' :: fs).map (frMap G)), (∃ g0 ∈ hookFrames s.frames, g0.fid = g.fid ∧ g0.cid = g.cid) := by
    intro f f' fs G hf e1 e2 hG g hg
    rw [hookFrames_map] at hg
    obtain ⟨g0, hg0, rfl⟩ := List.mem_map.1 hg
    rw [hf]
    rcases List.mem_cons.1 hg0 with rfl | hg0
    · exact ⟨f, List.mem_cons_self .., by rw [(hG _).fid, e1], by rw [(hG _).cid, e2]⟩
    · exact ⟨g0, List.mem_cons_of_mem _ hg0, (hG _).fid.symm, (hG _).cid.symm⟩
  have hmap : ∀ {f f' : Frame} {fs : List Fr}, s.frames = .hook f :: fs → f'.fid = f.fid → f'.cid = f.cid →
      ∀ g ∈ hookFrames (Fr.hook f' :: fs), (∃ g0 ∈ hookFrames s.frames, g0.fid = g.fid ∧ g0.cid = g.cid) := by
    intro f f' fs hf e1 e2
    have := hmapG (G := id) hf e1 e2 SameF.refl
    rwa [frMap_id (.hook f' :: fs)] at this
  cases ht with
  | reg op r x ns hrr =>
    obtain ⟨ts, log', hfe, hts, he⟩ := applyNotes_spec ns { s with reg := r }
    rw [he]
    have hq : ∃ X, (afterReg { s with reg := r, stack := s.stack.map (noteAll ns), tasks := ts, log := log' } op).log = X ++ s.log ∧
        (∀ e ∈ X, e.fine s) ∧ ∀ e ∈ X, e.isEnter = false := by
      obtain ⟨X, rfl, hX⟩ := hfe
      have hX' : ∀ e ∈ X, e.fine s ∧ e.isEnter = false := by
        intro e he; obtain ⟨v, rfl⟩ := hX e he; exact ⟨trivial, rfl⟩
      unfold afterReg
      split
      · next p =>
        split
        · refine ⟨.ready p :: .request p :: X, rfl, ?_, ?_⟩
          all_goals
            intro e he
            rcases List.mem_cons.1 he with rfl | he
            · first | trivial | rfl
            rcases List.mem_cons.1 he with rfl | he
            · first | trivial | rfl
          · exact (hX' e he).1
          · exact (hX' e he).2
        · refine ⟨.request p :: X, rfl, ?_, ?_⟩
          all_goals
            intro e he
            rcases List.mem_cons.1 he with rfl | he
            · first | trivial | rfl
          · exact (hX' e he).1
          · exact (hX' e he).2
      · exact ⟨X, rfl, fun e he => (hX' e he).1, fun e he => (hX' e he).2⟩
    have hfr : (afterReg { s with reg := r, stack := s.stack.map (noteAll ns), tasks := ts, log := log' } op).frames = s.frames := by
      unfold afterReg
      split
      · split <;> rfl
      · rfl
    show DInv (afterReg { s with reg := r, stack := s.stack.map (noteAll ns), tasks := ts, log := log' } op)
    generalize afterReg { s with reg := r, stack := s.stack.map (noteAll ns), tasks := ts, log := log' } op = s' at hq hfr
    obtain ⟨X, h1, h2, h3⟩ := hq
    exact h.keep m hh.log h1 (fun g hg => Or.inl (hsame (congrArg hookFrames hfr) g hg)) h2 (Or.inl h3)
  | poke a val => exact ⟨h.ent, h.own, h.gone, h.once, h.out, h.kinds, h.shU, h.rcl, h.fidF, h.fidU⟩
  | plain p this hp => exact h
  | call v this hv hwr =>
    refine h.keep m hh.log (X := [_]) rfl ?_ (by intro e he; rw [List.mem_singleton.1 he]; rfl) (Or.inr ⟨_, rfl⟩)
    intro g hg
    rcases List.mem_cons.1 hg with rfl | hg
    · exact Or.inr ⟨Or.inr (Or.inl ⟨_, _, List.mem_cons_self ..⟩), Nat.le_refl _⟩
    · exact Or.inl ⟨g, hg, rfl, rfl⟩
  | shCall v this hv hwr =>
    refine h.keep m hh.log (X := [_]) rfl ?_ (by intro e he; rw [List.mem_singleton.1 he]; rfl) (Or.inr ⟨_, rfl⟩)
    intro g hg
    rcases List.mem_cons.1 hg with rfl | hg
    · exact Or.inr ⟨Or.inr (Or.inr ⟨_, _, List.mem_cons_self ..⟩), Nat.le_succ _⟩
    · exact Or.inl ⟨g, hg, rfl, rfl⟩
  | shEnd fs hf =>
    exact h.keep m hh.log (X := []) rfl (fun g hg => Or.inl (hsame (fs := fs) (by rw [hf]; rfl) g hg)) (by simp) (Or.inl (by simp))
  | setRes res f fs hf =>
    exact h.keep m hh.log (X := []) rfl (fun g hg => Or.inl (hmap (f' := { f with cur := res }) hf rfl rfl g hg)) (by simp) (Or.inl (by simp))
  | recall res val v f fs c cs hf hst hv hcv =>
    obtain ⟨c1, cs1, hst1, hfo, _⟩ := m.top hf
    rw [hst] at hst1; cases hst1
    obtain ⟨_, _, _, c2, cs2, hst2, hnd, _⟩ := hok
    rw [hst] at hst2; cases hst2
    have hhok := hh.all
    rw [hf, hst] at hhok
    refine h.keep m hh.log (X := [_]) rfl ?_ (by
      intro e he; rw [List.mem_singleton.1 he]
      obtain ⟨f0, p, h1, _⟩ := hhok.top.1.ent hnd
      exact ⟨f0, _, _, h1⟩) (Or.inl (by simp [Ev.isEnter]))
    intro g hg
    rcases List.mem_cons.1 hg with rfl | hg
    · exact Or.inr ⟨Or.inl ⟨_, _, _, List.mem_cons_self ..⟩, Nat.le_refl _⟩
    · left
      by_cases ho : res ≥ override
      · have hg : g ∈ hookFrames (if res ≥ override then setSlot (.hook { f with cur := res, status := max f.status res, pt := recPt f.pt } :: fs) val c.over
            else .hook { f with cur := res, status := max f.status res, pt := recPt f.pt } :: fs) := hg
        rw [if_pos ho, setSlot_eq] at hg
        exact hmapG (f' := { f with cur := res, status := max f.status res, pt := recPt f.pt }) hf rfl rfl (slotMap_same _ _) g hg
      · have hg : g ∈ hookFrames (if res ≥ override then setSlot (.hook { f with cur := res, status := max f.status res, pt := recPt f.pt } :: fs) val c.over
            else .hook { f with cur := res, status := max f.status res, pt := recPt f.pt } :: fs) := hg
        rw [if_neg ho] at hg
        exact hmap (f' := { f with cur := res, status := max f.status res, pt := recPt f.pt }) hf rfl rfl g hg
  | recallRet f fs c cs post v hf hst hat =>
    refine h.keep m hh.log (X := [_]) rfl ?_ (by
      intro e he; rw [List.mem_singleton.1 he]
      exact ⟨f, by rw [hf]; exact List.mem_cons_self .., rfl⟩) (Or.inl (by simp [Ev.isEnter]))
    intro g hg
    left
    have hg : g ∈ hookFrames (setSlot _ _ _) := hg
    rw [setSlot_eq] at hg
    exact hmapG (f' := { f with cur := supercede, prev := supercede, status := max f.status supercede, pt := loopPt post }) hf rfl rfl (slotMap_same _ _) g hg
  | tickHook f fs c cs g grp hk post hf hst hpt hg hgh =>
    obtain ⟨X, e1, e2⟩ := logGot_ext' f.cid f.fid g s.log
    refine h.keep m hh.log (X := X) e1 (fun g hg => Or.inl (hmap (f' := { f with pt := _, cur := ignored }) hf rfl rfl g hg)) ?_ (Or.inl ?_)
    · intro e he
      rcases e2 e he with ⟨_, _, rfl⟩ | ⟨_, _, _, rfl⟩
      · trivial
      · exact ⟨f, by rw [hf]; exact List.mem_cons_self .., rfl, rfl⟩
    · intro e he
      rcases e2 e he with ⟨_, _, rfl⟩ | ⟨_, _, _, rfl⟩ <;> rfl
  | tickOrig f fs c cs g a hf hst hpt hg hgh hns hco hfa =>
    obtain ⟨X, e1, e2⟩ := logGot_ext' f.cid f.fid g s.log
    refine h.keep m hh.log (X := .origCall f.cid f.fid a :: X) (congrArg (List.cons _) e1)
      (fun g hg => Or.inl (hmap (f' := { f with pt := .inOrig }) hf rfl rfl g hg)) ?_ (Or.inl ?_)
    · intro e he
      rcases List.mem_cons.1 he with rfl | he
      · exact ⟨f, by rw [hf]; exact List.mem_cons_self .., rfl, rfl⟩
      rcases e2 e he with ⟨_, _, rfl⟩ | ⟨_, _, _, rfl⟩
      · trivial
      · exact ⟨f, by rw [hf]; exact List.mem_cons_self .., rfl, rfl⟩
    · intro e he
      rcases List.mem_cons.1 he with rfl | he
      · rfl
      rcases e2 e he with ⟨_, _, rfl⟩ | ⟨_, _, _, rfl⟩ <;> rfl
  | tickSkip f fs c cs g hf hst hpt hg hgh hns =>
    obtain ⟨X, e1, e2⟩ := logGot_ext' f.cid f.fid g s.log
    refine h.keep m hh.log (X := X) e1 (fun g hg => Or.inl (hmap (f' := { f with pt := .postLoop, orig := f.over, prev := ignored }) hf rfl rfl g hg)) ?_ (Or.inl ?_)
    · intro e he
      rcases e2 e he with ⟨_, _, rfl⟩ | ⟨_, _, _, rfl⟩
      · trivial
      · exact ⟨f, by rw [hf]; exact List.mem_cons_self .., rfl, rfl⟩
    · intro e he
      rcases e2 e he with ⟨_, _, rfl⟩ | ⟨_, _, _, rfl⟩ <;> rfl
  | tickRet f fs c cs g v s2 hf hst hpt hg hgh hv hs2 =>
    obtain ⟨c1, cs1, hst1, hro, hfo⟩ := hr.top m hf
    rw [hst] at hst1; cases hst1
    obtain ⟨Y, y1, y2⟩ := popCtx_quiet { s with log := logGot f.cid f.fid g s.log } cs
    obtain ⟨X, e1, e2⟩ := logGot_ext' f.cid f.fid g s.log
    have hlog : s2.log = (Y ++ X) ++ s.log := by
      rw [hs2, y1]; show Y ++ logGot f.cid f.fid g s.log = _
      rw [e1, List.append_assoc]
    have hfm : f ∈ hookFrames s.frames := by rw [hf]; exact List.mem_cons_self ..
    have hX : ∀ e ∈ Y ++ X, e.fine s ∧ e.isEnter = false ∧ e.owner = none ∧ ∀ k, e.mute k := by
      intro e he
      rcases List.mem_append.1 he with he | he
      · rcases y2 e he with ⟨_, rfl⟩ | ⟨_, rfl⟩ <;> exact ⟨trivial, rfl, rfl, fun _ => trivial⟩
      · rcases e2 e he with ⟨_, _, rfl⟩ | ⟨_, _, hn, _⟩
        · exact ⟨trivial, rfl, rfl, fun _ => trivial⟩
        · rw [hgh] at hn; cases hn
    have hb : ∀ q ∈ hookFrames (handBack v fs), ∃ q' ∈ hookFrames fs, q'.fid = q.fid ∧ q'.cid = q.cid := by
      rcases handBack_cases v fs with e | ⟨p, fs', rfl, ⟨n, _, e⟩ | ⟨n, _, e⟩⟩
      · rw [e]; exact fun q hq => ⟨q, hq, rfl, rfl⟩
      all_goals
        rw [e]
        intro q hq
        rcases List.mem_cons.1 hq with rfl | hq
        · exact ⟨p, List.mem_cons_self .., rfl, rfl⟩
        · exact ⟨q, List.mem_cons_of_mem _ hq, rfl, rfl⟩
    have hb' : ∀ q ∈ hookFrames (handBack v fs), ∃ q' ∈ hookFrames s.frames, q'.fid = q.fid ∧ q'.cid = q.cid := by
      intro q hq
      obtain ⟨q', h1, h2⟩ := hb q hq
      exact ⟨q', by rw [hf]; exact List.mem_cons_of_mem _ h1, h2⟩
    -- the state without the return event
    have hk := h.keep (s' := { s2 with frames := handBack v fs }) m hh.log hlog (fun g hg => Or.inl (hb' g hg)) (fun e he => (hX e he).1) (Or.inl fun e he => (hX e he).2.1)
    have hnr : ∀ c v, Ev.ret c f.fid v ∉ s.log := fun c v hm => h.gone c _ v hm f hfm rfl
    have hnr2 : ∀ c v, Ev.ret c f.fid v ∉ s2.log := by
      intro c v hm
      rw [hlog] at hm
      rcases List.mem_append.1 hm with hm | hm
      · have := (hX _ hm).2.2.1; cases this
      · exact hnr c v hm
    refine ⟨?_, ?_, ?_, ?_, ?_, ?_, ?_, ?_, ?_, ?_⟩
    · exact fun g hg => (hk.ent g hg).mono (X := [_])
    · intro e he c' f' ho
      rcases List.mem_cons.1 he with rfl | he
      · cases ho
        have := (h.ent f hfm).mono (X := Ev.ret f.cid f.fid v :: (Y ++ X))
        rwa [List.cons_append, ← hlog] at this
      · exact (hk.own e he c' f' ho).mono (X := [_])
    · intro c' f' w hm q hq
      rcases List.mem_cons.1 hm with e | hm
      · cases e
        obtain ⟨q', h1, h2, _⟩ := hb q hq
        have h4 := m.fid
        rw [hf] at h4
        rw [← h2]
        exact Nat.ne_of_lt ((List.pairwise_cons.1 h4).1 q' h1)
      · exact hk.gone c' f' w hm q hq
    · refine List.pairwise_cons.2 ⟨?_, hk.once⟩
      intro b hb c' f' w c'' w' e e'
      cases e
      subst e'
      exact hnr2 _ _ hb
    · intro c' f' w hm hn
      rcases List.mem_cons.1 hm with e | hm
      · cases e
        have hn' : ¬ Recalled s.log c.cid := by
          intro hx
          apply hn
          rw [← hfo.cid] at hx
          have := hx.mono (X := Ev.ret f.cid f.fid v :: (Y ++ X))
          rwa [List.cons_append, ← hlog] at this
        have ho := (hro.body hn').outcome m hf hpt
        rw [← hv] at ho
        have hmu : ∀ e ∈ Ev.ret f.cid f.fid v :: (Y ++ X), e.mute f.fid := by
          intro e he
          rcases List.mem_cons.1 he with e1 | he
          · rw [e1]; trivial
          · exact (hX e he).2.2.2 _
        have := ho.mute hmu
        rwa [List.cons_append, ← hlog] at this
      · exact (hk.out c' f' w hm (Recalled.of_ext (X := [_]) hn)).mute (X := [_]) (by intro e he; rw [List.mem_singleton.1 he]; trivial)
    · intro c' f' p t f'' p' t' h1 h2
      rcases List.mem_cons.1 h1 with e | h1
      · cases e
      rcases List.mem_cons.1 h2 with e | h2
      · cases e
      exact hk.kinds _ _ _ _ _ _ _ h1 h2
    · intro c' f' p t f'' p' t' h1 h2
      rcases List.mem_cons.1 h1 with e | h1
      · cases e
      rcases List.mem_cons.1 h2 with e | h2
      · cases e
      exact hk.shU _ _ _ _ _ _ _ h1 h2
    · intro c' f' f'' st h1
      rcases List.mem_cons.1 h1 with e | h1
      · cases e
      obtain ⟨a, b, d, h2⟩ := hk.rcl _ _ _ _ h1
      exact ⟨a, b, d, List.mem_cons_of_mem _ h2⟩
    · intro e he c' f' ho q hq hqf
      rcases List.mem_cons.1 he with rfl | he
      · cases ho
        obtain ⟨q', h1, h2, h3⟩ := hb q hq
        have h4 := m.fid
        rw [hf] at h4
        have := (List.pairwise_cons.1 h4).1 q' h1
        omega
      · exact hk.fidF e he c' f' ho q hq hqf
    · have hs2o : ∀ e ∈ s2.log, ∀ c', e.owner = some (c', f.fid) → c' = f.cid := by
        intro e he c' ho
        rw [hlog] at he
        rcases List.mem_append.1 he with he | he
        · rw [(hX e he).2.2.1] at ho; cases ho
        · exact (h.fidF e he c' f.fid ho f hfm rfl).symm
      intro e he e' he' c' c'' f' ho ho'
      rcases List.mem_cons.1 he with rfl | he <;> rcases List.mem_cons.1 he' with rfl | he'
      · cases ho; cases ho'; rfl
      · cases ho; exact (hs2o e' he' c'' ho').symm
      · cases ho'; exact hs2o e he c' ho
      · exact hk.fidU e he e' he' c' c'' f' ho ho'
  | handlerRet v f fs c cs post hf hst hat =>
    refine h.keep m hh.log (X := [_]) rfl ?_ (by
      intro e he; rw [List.mem_singleton.1 he]
      exact ⟨f, by rw [hf]; exact List.mem_cons_self .., rfl⟩) (Or.inl (by simp [Ev.isEnter]))
    intro g hg
    left
    have hg : g ∈ hookFrames (if f.cur ≥ override then setSlot (.hook { f with prev := f.cur, status := max f.status f.cur, pt := loopPt post } :: fs) v c.over
            else .hook { f with prev := f.cur, status := max f.status f.cur, pt := loopPt post } :: fs) := hg
    by_cases ho : f.cur ≥ override
    · rw [if_pos ho, setSlot_eq] at hg
      exact hmapG (f' := { f with prev := f.cur, status := max f.status f.cur, pt := loopPt post }) hf rfl rfl (slotMap_same _ _) g hg
    · rw [if_neg ho] at hg
      exact hmap (f' := { f with prev := f.cur, status := max f.status f.cur, pt := loopPt post }) hf rfl rfl g hg
  | origRet v f fs hf hpt =>
    exact h.keep m hh.log (X := [_]) rfl (fun g hg => Or.inl (hmap (f' := { f with orig := v, prev := ignored, pt := .postLoop }) hf rfl rfl g hg)) (by
      intro e he; rw [List.mem_singleton.1 he]
      exact ⟨f, by rw [hf]; exact List.mem_cons_self .., rfl⟩) (Or.inl (by simp [Ev.isEnter]))
  | resolve force =>
    refine h.keep m hh.log (X := ((s.pend.filter fun p => force || p.2).map fun p => Ev.ready p.1).reverse) rfl (fun g hg => Or.inl ⟨g, hg, rfl, rfl⟩) ?_ (Or.inl ?_)
    all_goals
      intro e he
      obtain ⟨p, _, rfl⟩ := List.mem_map.1 (List.mem_reverse.1 he)
      first | trivial | rfl

theorem DInv.init (mem0 : Addr → Addr) : DInv { reg := { mem := mem0 } } := by
  constructor <;> simp [hookFrames]

theorem LReach.done {E : Env} (hE : EnvOk E) {s : St} (h : LReach E s) : DInv s := by
  induction h with
  | init mem0 h0 => exact DInv.init mem0
  | step h1 h2 h3 ih => exact ih.step (h1.inv hE) (h1.hist hE) (h1.res hE) h2 (h1.tr hE h2 h3)

end Verif.SH
