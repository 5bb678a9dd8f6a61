import Verif.SH.LoopHist
/-
Following one call through the steps of the machine.
-/
namespace Verif.SH

/-- `f` and `c` are an activation and its context. -/
inductive In2 (f : Frame) (c : Ctx) : List Frame → List Ctx → Prop
  | head (fs : List Frame) (cs : List Ctx) : In2 f c (f :: fs) (c :: cs)
  | tail (g : Frame) (d : Ctx) {fs : List Frame} {cs : List Ctx} : In2 f c fs cs → In2 f c (g :: fs) (d :: cs)

theorem In2.elim {f g : Frame} {c d : Ctx} {fs : List Frame} {cs : List Ctx} (h : In2 f c (g :: fs) (d :: cs)) :
    (f = g ∧ c = d) ∨ In2 f c fs cs := by
  cases h with
  | head => exact Or.inl ⟨rfl, rfl⟩
  | tail _ _ h => exact Or.inr h

theorem In2.map {f : Frame} {c : Ctx} {fs : List Frame} {cs : List Ctx} (h : In2 f c fs cs) (G : Frame → Frame) (F : Ctx → Ctx) :
    In2 (G f) (F c) (fs.map G) (cs.map F) := by
  induction h with
  | head fs cs => exact .head _ _
  | tail g d _ ih => exact .tail _ _ ih

theorem In2.map_l {f : Frame} {c : Ctx} {fs : List Frame} {cs : List Ctx} (h : In2 f c fs cs) (G : Frame → Frame) :
    In2 (G f) c (fs.map G) cs := by
  have := h.map G id
  rwa [List.map_id] at this

theorem In2.map_r {f : Frame} {c : Ctx} {fs : List Frame} {cs : List Ctx} (h : In2 f c fs cs) (F : Ctx → Ctx) :
    In2 f (F c) fs (cs.map F) := by
  have := h.map id F
  rwa [List.map_id] at this

theorem All2.in2 {P : Frame → Ctx → Prop} {fs : List Frame} {cs : List Ctx} (h : All2 P fs cs) {f : Frame} {c : Ctx}
    (hi : In2 f c fs cs) : P f c := by
  induction hi with
  | head => cases h with | cons h1 _ => exact h1
  | tail _ _ _ ih => cases h with | cons _ h2 => exact ih h2

theorem In2.mem_r {f : Frame} {c : Ctx} {fs : List Frame} {cs : List Ctx} (h : In2 f c fs cs) : c ∈ cs := by
  induction h with
  | head => exact List.mem_cons_self ..
  | tail _ _ _ ih => exact List.mem_cons_of_mem _ ih

theorem In2.mem_l {f : Frame} {c : Ctx} {fs : List Frame} {cs : List Ctx} (h : In2 f c fs cs) : f ∈ fs := by
  induction h with
  | head => exact List.mem_cons_self ..
  | tail _ _ _ ih => exact List.mem_cons_of_mem _ ih

theorem All2.ex {P : Frame → Ctx → Prop} {fs : List Frame} {cs : List Ctx} (h : All2 P fs cs) {c : Ctx} (hc : c ∈ cs) :
    ∃ f, In2 f c fs cs := by
  induction h with
  | nil => cases hc
  | @cons f d fs cs h1 _ ih =>
    rcases List.mem_cons.1 hc with rfl | hc
    · exact ⟨f, .head _ _⟩
    · obtain ⟨f', h⟩ := ih hc
      exact ⟨f', .tail _ _ h⟩

/-- The slot still has a hook, and if `I`, so does the object on it. -/
structure Kept (r : Reg) (p this : Addr) (I : Prop) : Prop where
  slot : ∃ a sd, view r p a sd ≠ []
  obj : I → ∃ sd, view r p this sd ≠ []

/-- Two histories say the same about the handlers of a call. -/
def SameInv (log log' : List Ev) (cid : Nat) : Prop :=
  (∀ g, invoked log' cid g = invoked log cid g) ∧ ∀ g, skipped log' cid g = skipped log cid g

theorem SameInv.refl (log : List Ev) (cid : Nat) : SameInv log log cid := ⟨fun _ => rfl, fun _ => rfl⟩

theorem QuietExt.same {log log' : List Ev} (h : QuietExt log log') (cid : Nat) : SameInv log log' cid :=
  ⟨fun g => h.invoked cid g, fun g => h.skipped cid g⟩

theorem SameInv.trans {a b c : List Ev} {cid : Nat} (h : SameInv a b cid) (h' : SameInv b c cid) : SameInv a c cid :=
  ⟨fun g => (h'.1 g).trans (h.1 g), fun g => (h'.2 g).trans (h.2 g)⟩

/-- What one step does to a running call. -/
inductive Trk (s s' : St) (I : Prop) (f : Frame) (c : Ctx) : Prop
  | keep (f' : Frame) (c' : Ctx) : In2 f' c' (hookFrames s'.frames) s'.stack → c'.cid = c.cid → c'.st = c.st →
      (I → c'.iface ≠ none) → (f.pt = .postLoop → f'.pt = .postLoop) → SameInv s.log s'.log c.cid → Trk s s' I f c
  | got (g : Got) (f' : Frame) : getNext s.reg c = .ok g → s'.reg = s.reg → f.pt = .preLoop ∨ f.pt = .postLoop →
      In2 f' g.ctx (hookFrames s'.frames) s'.stack → SameInv (logGot c.cid f.fid g s.log) s'.log c.cid →
      (g.hook.isSome ∨ (f.pt = .preLoop ∧ ∃ fid a, Ev.origCall c.cid fid a ∈ s'.log) ∨ (f.pt = .preLoop ∧ f'.pt = .postLoop)) → Trk s s' I f c
  | ret (g : Got) (v : Val) : getNext s.reg c = .ok g → s'.reg = s.reg → g.hook = none → f.pt = .postLoop →
      Ev.ret c.cid f.fid v ∈ s'.log → SameInv (logGot c.cid f.fid g s.log) s'.log c.cid → Trk s s' I f c
  | recalled (f' : Frame) (c' : Ctx) : In2 f' c' (hookFrames s'.frames) s'.stack → c'.cid = c.cid → c'.st = c.st.toRecall →
      (c.st = .pre ∨ c.st = .preVP ∨ c.st = .post ∨ c.st = .postVP) →
      (I → c'.iface ≠ none) → f.pt ≠ .postLoop → SameInv s.log s'.log c.cid → Trk s s' I f c

theorem Shape.notTop {x : Fr} {xs : List Fr} (h : Shape (x :: xs)) {f : Frame} (hf : f ∈ hookFrames xs) : f.pt ≠ .postLoop := by
  intro hp
  have := h.2 _ (mem_hookFrames.1 hf)
  unfold Fr.waits at this
  simp only [hp] at this

theorem MInv.in2 {E : Env} {s : St} (m : MInv E s) (h : HInv s) {f : Frame} {c : Ctx} (hi : In2 f c (hookFrames s.frames) s.stack) :
    f.cid = c.cid ∧ CtxOk s.reg s.log c ∧ HOk s.reg s.log f c := by
  have := (m.al.all.and h.all).in2 hi
  exact ⟨this.1.1, this.1.2, this.2⟩

theorem view_ptr {r : Reg} {p a : Addr} {sd : Bool} (h : view r p a sd ≠ []) : ∃ v ∈ r.vfns, v.ptr = p ∧ ∃ i ∈ v.ifaces, i.ptr = a := by
  obtain ⟨x, hx⟩ := List.exists_mem_of_ne_nil _ h
  obtain ⟨v, hv, hp, i, hi, ha, _⟩ := view_elim hx
  exact ⟨v, hv, hp, i, hi, ha⟩

theorem Kept.iface {r : Reg} (hs : SInv r) {p this : Addr} {I : Prop} (h : Kept r p this I) (hI : I) {v : Vfn} (hv : v ∈ r.vfns)
    (hp : v.ptr = p) : ∃ i ∈ v.ifaces, i.ptr = this := by
  obtain ⟨sd, h1⟩ := h.obj hI
  obtain ⟨w, hw, hwp, i, hi, hip⟩ := view_ptr h1
  have : w = v := nodup_key_inj hs.vptr hw hv (hwp.trans hp.symm)
  subst this
  exact ⟨i, hi, hip⟩

/-- One step of a running call that is alive. -/
theorem track {E : Env} {s s' : St} {op : Op} (m : MInv E s) (h : HInv s) (hok : Ok E s op) (ht : Tr E s op s') (m' : MInv E s')
    {f : Frame} {c : Ctx} (hi : In2 f c (hookFrames s.frames) s.stack) (hnd : c.st ≠ .dead) {fid0 : Nat} {p this : Addr}
    (hen : Ev.enter c.cid fid0 (some p) this ∈ s.log) {I : Prop} (hI : I → c.iface ≠ none) (hkp : Kept s'.reg p this I) :
    Trk s s' I f c := by
  obtain ⟨mem0, hw, h0⟩ := m.reg.inv
  obtain ⟨hcid, hcok, hho⟩ := m.in2 h hi
  obtain ⟨v, hlc⟩ : ∃ v, LiveCtx s.reg s.log c v := by
    rcases hcok with hd | hlc
    · exact absurd hd hnd
    · exact hlc
  have hvp : v.ptr = p ∧ c.this = this := by
    obtain ⟨fid1, p1, k1, k2⟩ := hho.ent hnd
    obtain ⟨_, e2, e3⟩ := h.log.entU _ _ _ _ _ _ _ hen k1
    exact ⟨(k2 v hlc.mem hlc.vfn).trans (Option.some.inj e2).symm, e3.symm⟩
  -- the pair against the innermost one
  have hsplit : ∀ {f0 : Frame} {fs : List Fr} {c0 : Ctx} {cs : List Ctx}, s.frames = .hook f0 :: fs → s.stack = c0 :: cs →
      (f = f0 ∧ c = c0) ∨ (In2 f c (hookFrames fs) cs ∧ c.cid ≠ c0.cid ∧ f.pt ≠ .postLoop) := by
    intro f0 fs c0 cs hf hst
    rw [hf, hst] at hi
    rcases hi.elim with e | hin
    · exact Or.inl e
    · refine Or.inr ⟨hin, ?_, ?_⟩
      · intro e
        have hcu := m.cuniq
        rw [hst] at hcu
        exact hnd ((List.pairwise_cons.1 hcu).1 c hin.mem_r e.symm)
      · have := m.shape
        rw [hf] at this
        exact this.notTop hin.mem_l
  -- innermost activation gets other return values, result or place
  have hre : ∀ {f0 f1 : Frame} {fs : List Fr} {c0 : Ctx} {cs : List Ctx} {G : Frame → Frame}, s.frames = .hook f0 :: fs → s.stack = c0 :: cs →
      (∀ f, SameF f (G f)) → (f0.pt = .postLoop → f1.pt = .postLoop) →
      ∃ f', In2 f' c (hookFrames ((Fr.hook f1 :: fs).map (frMap G))) (c0 :: cs) ∧ (f.pt = .postLoop → f'.pt = .postLoop) := by
    intro f0 f1 fs c0 cs G hf hst hG hpt
    rw [hookFrames_map]
    rcases hsplit hf hst with ⟨rfl, rfl⟩ | ⟨hin, _, hnp⟩
    · exact ⟨G f1, .head _ _, fun hp => by rw [(hG f1).pt]; exact hpt hp⟩
    · exact ⟨G f, .tail _ _ (hin.map_l G), fun hp => absurd hp hnp⟩
  -- a tick of another call
  have hother : ∀ {c0 : Ctx} {f0 : Frame} (g : Got), c.cid ≠ c0.cid → f0.cid = c0.cid → SameInv s.log (logGot f0.cid f0.fid g s.log) c.cid := by
    intro c0 f0 g hne e
    exact ⟨fun grp => (logGot_other g s.log (by rw [e]; exact hne) grp).1, fun grp => (logGot_other g s.log (by rw [e]; exact hne) grp).2⟩
  cases ht with
  | reg op r x ns hr =>
    obtain ⟨ts, log', hfe, hts, he⟩ := applyNotes_spec ns { s with reg := r }
    rw [he] at hkp ⊢
    have hq : QuietExt s.log (afterReg { s with reg := r, stack := s.stack.map (noteAll ns), tasks := ts, log := log' } op).log := by
      have := hfe.quiet
      unfold afterReg
      split
      · split
        · exact (this.cons rfl).cons rfl
        · exact this.cons rfl
      · exact this
    have hsame : (afterReg { s with reg := r, stack := s.stack.map (noteAll ns), tasks := ts, log := log' } op).reg = r ∧
        (afterReg { s with reg := r, stack := s.stack.map (noteAll ns), tasks := ts, log := log' } op).stack = s.stack.map (noteAll ns) ∧
        (afterReg { s with reg := r, stack := s.stack.map (noteAll ns), tasks := ts, log := log' } op).frames = s.frames := by
      unfold afterReg
      split
      · split <;> exact ⟨rfl, rfl, rfl⟩
      · exact ⟨rfl, rfl, rfl⟩
    have hr' : (afterReg (applyNotes { s with reg := r } ns) op).reg = r := by rw [he]; exact hsame.1
    have hs' : SInv r := by have := m'.reg.s; rw [hr'] at this; exact this
    show Trk s (afterReg { s with reg := r, stack := s.stack.map (noteAll ns), tasks := ts, log := log' } op) I f c
    replace hkp : Kept (afterReg { s with reg := r, stack := s.stack.map (noteAll ns), tasks := ts, log := log' } op).reg p this I := hkp
    generalize afterReg { s with reg := r, stack := s.stack.map (noteAll ns), tasks := ts, log := log' } op = s' at hq hsame hkp
    obtain ⟨e1, e2, e3⟩ := hsame
    rw [e1] at hkp
    obtain ⟨a, sd, hsl⟩ := hkp.slot
    obtain ⟨v', hv', hvp', _⟩ := view_ptr hsl
    refine .keep f (noteAll ns c) (by rw [e2, e3]; exact hi.map_r _) (noteAll_frame ns c).cid ?_ ?_ id (hq.same _)
    · rcases (regN_keep m.reg hok.2 hr).2 with ⟨rfl, _⟩ | hrs
      · rfl
      · exact hrs.alive hw.s hlc.mem hlc.vfn hv' (hvp'.trans hvp.1.symm)
    · intro hi'
      rcases (regN_keep m.reg hok.2 hr).2 with ⟨rfl, _⟩ | hrs
      · exact hI hi'
      · obtain ⟨o, ho⟩ := Option.ne_none_iff_exists'.1 (hI hi')
        obtain ⟨i, hii, hio, hip⟩ := hlc.iface o ho
        obtain ⟨i', hi1, hi2⟩ := hkp.iface hs' hi' hv' hvp'
        rw [hrs.keepsIface hw.s hlc.mem hlc.vfn hii (by rw [ho, hio]) hv' (hvp'.trans hvp.1.symm) hi1
          (by rw [hi2, hip, hvp.2])]
        simp
  | poke a val => exact .keep f c hi rfl rfl hI id (SameInv.refl _ _)
  | plain p this hp => exact .keep f c hi rfl rfl hI id (SameInv.refl _ _)
  | call v this hv hwr =>
    exact .keep f c (.tail _ _ hi) rfl rfl hI id (((QuietExt.refl _).cons rfl).same _)
  | shCall v this hv hwr =>
    exact .keep f c (.tail _ _ hi) rfl rfl hI id (((QuietExt.refl _).cons rfl).same _)
  | shEnd fs hf =>
    refine .keep f c ?_ rfl rfl hI id (SameInv.refl _ _)
    rw [hf] at hi; exact hi
  | setRes res f0 fs hf =>
    obtain ⟨c0, cs, hst, _⟩ := m.top hf
    obtain ⟨f', h1, h2⟩ := hre (G := id) (f1 := { f0 with cur := res }) hf hst SameF.refl id
    rw [frMap_id (.hook { f0 with cur := res } :: fs)] at h1
    refine .keep f' c ?_ rfl rfl hI h2 (SameInv.refl _ _)
    show In2 f' c _ s.stack
    rw [hst]; exact h1
  | recall res val w f0 fs c0 cs hf hst hv hcv =>
    have hq : SameInv s.log (.recall c0.cid f0.fid s.next (max f0.status res) :: s.log) c.cid := ((QuietExt.refl _).cons rfl).same _
    let f1 : Frame := { f0 with cur := res, status := max f0.status res, pt := recPt f0.pt }
    have hsl : ∃ G : Frame → Frame, (∀ f, SameF f (G f)) ∧
        (if res ≥ override then setSlot (.hook f1 :: fs) val c0.over else .hook f1 :: fs) = (Fr.hook f1 :: fs).map (frMap G) := by
      split
      · exact ⟨slotMap val c0.over, slotMap_same _ _, setSlot_eq _ _ _⟩
      · exact ⟨id, SameF.refl, (frMap_id _).symm⟩
    obtain ⟨G, hG, heq⟩ := hsl
    rcases hsplit hf hst with ⟨rfl, rfl⟩ | ⟨hin, _, hnp⟩
    · obtain ⟨hin, _, _, c1, cs1, hst1, _, u, hu1, hu2, hu3, hu4, hu5⟩ := hok
      obtain ⟨f0, fs0, post, hf0, hat⟩ := hin.elim
      rw [hf] at hf0; cases hf0
      have hpt := m.top hf
      obtain ⟨c2, cs2, hst2, hfo, _⟩ := hpt
      rw [hst] at hst2; cases hst2
      have hstc : c.st = .pre ∨ c.st = .preVP ∨ c.st = .post ∨ c.st = .postVP := by
        obtain ⟨n, hn⟩ := hat
        have := hfo.pt
        rw [hn] at this
        cases post
        · rcases this with e | e | e
          · exact Or.inl e
          · exact Or.inr (Or.inl e)
          · exact absurd e hnd
        · rcases this with e | e | e
          · exact Or.inr (Or.inr (Or.inl e))
          · exact Or.inr (Or.inr (Or.inr e))
          · exact absurd e hnd
      refine .recalled (freshFrame s.next c.cid (cs.length + 1) (max f.status res) w) (recCtx s.next c w c.this (max f.status res))
        (.head _ _) rfl rfl hstc ?_ hat.ne.2.2 hq
      intro hi'
      have hwv : w = v := nodup_key_inj hw.s.void hv hlc.mem (Option.some.inj (hcv.symm.trans hlc.vfn))
      obtain ⟨i, hi1, hi2⟩ := hkp.iface hw.s hi' hv (by rw [hwv]; exact hvp.1)
      show (w.ifaces.find? (·.ptr == c.this)).map Iface.oid ≠ none
      rw [hvp.2, ← hi2, find?_key (key := Iface.ptr) (hw.s.vi w hv).iptr hi1]
      simp
    · refine .keep (G f) c ?_ rfl rfl hI (fun hp => absurd hp hnp) hq
      show In2 (G f) c (_ :: hookFrames (if res ≥ override then setSlot (.hook f1 :: fs) val c0.over else .hook f1 :: fs)) _
      rw [heq, hookFrames_map]
      exact .tail _ _ (.tail _ _ (hin.map_l G))
  | recallRet f0 fs c0 cs post val hf hst hat =>
    obtain ⟨f', h1, h2⟩ := hre (f1 := { f0 with cur := supercede, prev := supercede, status := max f0.status supercede, pt := loopPt post })
      hf hst (slotMap_same val c0.over) (fun hp => absurd hp hat.ne.2.2)
    refine .keep f' c ?_ rfl rfl hI h2 (((QuietExt.refl _).cons rfl).same _)
    show In2 f' c (hookFrames (setSlot _ _ _)) s.stack
    rw [hst, setSlot_eq]; exact h1
  | tickHook f0 fs c0 cs g grp hh post hf hst hpt hg hgh =>
    rcases hsplit hf hst with ⟨rfl, rfl⟩ | ⟨hin, hne, hnp⟩
    · refine .got g { f with pt := if post then .inPost hh.nid else .inPre hh.nid, cur := ignored } hg rfl ?_ (.head _ _) ?_
        (Or.inl (by rw [hgh]; rfl))
      · cases post
        · exact Or.inl hpt
        · exact Or.inr hpt
      · show SameInv _ (logGot f.cid f.fid g s.log) _
        rw [hcid]; exact SameInv.refl _ _
    · obtain ⟨c2, cs2, hst2, hfo, _⟩ := m.top hf
      rw [hst] at hst2; cases hst2
      exact .keep f c (.tail _ _ hin) rfl rfl hI id (hother g hne hfo.cid)
  | tickOrig f0 fs c0 cs g a hf hst hpt hg hgh hns hco hfa =>
    have hq : QuietExt (logGot f0.cid f0.fid g s.log) (.origCall f0.cid f0.fid a :: logGot f0.cid f0.fid g s.log) := (QuietExt.refl _).cons rfl
    rcases hsplit hf hst with ⟨rfl, rfl⟩ | ⟨hin, hne, hnp⟩
    · refine .got g { f with pt := .inOrig } hg rfl (Or.inl hpt) (.head _ _) ?_ (Or.inr (Or.inl ⟨hpt, f.fid, a, ?_⟩))
      · show SameInv _ (.origCall f.cid f.fid a :: logGot f.cid f.fid g s.log) _
        rw [← hcid]; exact hq.same _
      · rw [← hcid]; exact List.mem_cons_self ..
    · obtain ⟨c2, cs2, hst2, hfo, _⟩ := m.top hf
      rw [hst] at hst2; cases hst2
      exact .keep f c (.tail _ _ hin) rfl rfl hI id ((hother g hne hfo.cid).trans (hq.same _))
  | tickSkip f0 fs c0 cs g hf hst hpt hg hgh hns =>
    rcases hsplit hf hst with ⟨rfl, rfl⟩ | ⟨hin, hne, hnp⟩
    · refine .got g { f with pt := .postLoop, orig := f.over, prev := ignored } hg rfl (Or.inl hpt) (.head _ _) ?_ (Or.inr (Or.inr ⟨hpt, rfl⟩))
      show SameInv _ (logGot f.cid f.fid g s.log) _
      rw [hcid]; exact SameInv.refl _ _
    · obtain ⟨c2, cs2, hst2, hfo, _⟩ := m.top hf
      rw [hst] at hst2; cases hst2
      exact .keep f c (.tail _ _ hin) rfl rfl hI id (hother g hne hfo.cid)
  | tickRet f0 fs c0 cs g val s2 hf hst hpt hg hgh hv hs2 =>
    obtain ⟨p1, p2, p3, p4, p5, p6⟩ := popCtx_spec { s with log := logGot f0.cid f0.fid g s.log } cs
    rw [← hs2] at p1 p2 p3 p4 p5 p6
    have hq : QuietExt (logGot f0.cid f0.fid g s.log) (.ret f0.cid f0.fid val :: s2.log) := p6.cons rfl
    rcases hsplit hf hst with ⟨rfl, rfl⟩ | ⟨hin, hne, hnp⟩
    · refine .ret g val hg p1 hgh hpt (by rw [← hcid]; exact List.mem_cons_self ..) ?_
      show SameInv _ (.ret f.cid f.fid val :: s2.log) _
      rw [← hcid]; exact hq.same _
    · obtain ⟨c2, cs2, hst2, hfo, _⟩ := m.top hf
      rw [hst] at hst2; cases hst2
      have hin' : ∃ f', In2 f' c (hookFrames (handBack val fs)) cs := by
        rcases handBack_cases val fs with e | ⟨q, fs', rfl, ⟨n, hp, e⟩ | ⟨n, hp, e⟩⟩
        · rw [e]; exact ⟨f, hin⟩
        all_goals
          rw [e]
          cases hin with
          | head fs cs => exact ⟨_, .head _ _⟩
          | tail _ _ h => exact ⟨f, .tail _ _ h⟩
      obtain ⟨f', hin'⟩ := hin'
      refine .keep f' c ?_ rfl rfl hI (fun hp => absurd hp hnp) ((hother g hne hfo.cid).trans (hq.same _))
      show In2 f' c (hookFrames (handBack val fs)) s2.stack
      rw [p2]; exact hin'
  | handlerRet val f0 fs c0 cs post hf hst hat =>
    let f1 : Frame := { f0 with prev := f0.cur, status := max f0.status f0.cur, pt := loopPt post }
    have hsl : ∃ G : Frame → Frame, (∀ f, SameF f (G f)) ∧
        (if f0.cur ≥ override then setSlot (.hook f1 :: fs) val c0.over else .hook f1 :: fs) = (Fr.hook f1 :: fs).map (frMap G) := by
      split
      · exact ⟨slotMap val c0.over, slotMap_same _ _, setSlot_eq _ _ _⟩
      · exact ⟨id, SameF.refl, (frMap_id _).symm⟩
    obtain ⟨G, hG, heq⟩ := hsl
    obtain ⟨f', h1, h2⟩ := hre (f1 := f1) hf hst hG (fun hp => absurd hp hat.ne.2.2)
    refine .keep f' c ?_ rfl rfl hI h2 (((QuietExt.refl _).cons rfl).same _)
    show In2 f' c (hookFrames (if f0.cur ≥ override then setSlot (.hook f1 :: fs) val c0.over else .hook f1 :: fs)) s.stack
    rw [heq, hst]; exact h1
  | origRet val f0 fs hf hpt =>
    obtain ⟨c0, cs, hst, _⟩ := m.top hf
    obtain ⟨f', h1, h2⟩ := hre (G := id) (f1 := { f0 with orig := val, prev := ignored, pt := .postLoop }) hf hst SameF.refl (fun _ => rfl)
    rw [frMap_id (.hook { f0 with orig := val, prev := ignored, pt := .postLoop } :: fs)] at h1
    refine .keep f' c ?_ rfl rfl hI h2 (((QuietExt.refl _).cons rfl).same _)
    show In2 f' c _ s.stack
    rw [hst]; exact h1
  | resolve force => exact .keep f c hi rfl rfl hI id ((resolve_log force s).same _)

end Verif.SH
