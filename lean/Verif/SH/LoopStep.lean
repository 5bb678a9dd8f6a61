import Verif.SH.LoopTr
/-
The machine invariant is preserved by every step.
-/
namespace Verif.SH

/-! ### registry operations during calls -/

theorem setHookPaused_hms (r : Reg) (id : Int) (b : Bool) :
    (setHookPaused r id b).1.hms = r.hms ∧ (setHookPaused r id b).1.next = r.next := by
  unfold setHookPaused
  repeat' (first | exact ⟨rfl, rfl⟩ | split)

theorem setPluginPaused_hms (r : Reg) (plug : Plugin) (b : Bool) :
    (setPluginPaused r plug b).hms = r.hms ∧ (setPluginPaused r plug b).next = r.next := by
  unfold setPluginPaused
  generalize idFindPlug r.entries plug = ids
  induction ids generalizing r with
  | nil => exact ⟨rfl, rfl⟩
  | cons id ids ih =>
    obtain ⟨h1, h2⟩ := setHookPaused_hms r id b
    obtain ⟨k1, k2⟩ := ih (setHookPaused r id b).1
    exact ⟨k1.trans h1, k2.trans h2⟩

theorem poke_inv {E : Env} {mem0 : Addr → Addr} {r : Reg} (hw : RegInv E mem0 r) {a val : Addr}
    (hna : ∀ v ∈ r.vfns, v.ptr ≠ a) : RegInv E (upd mem0 a val) { r with mem := upd r.mem a val } := by
  refine ⟨⟨⟨hw.s.vptr, hw.s.void, hw.s.vlt, hw.s.vi⟩, hw.ids, hw.nid, hw.ref.congr rfl rfl (fun _ _ => Iff.rfl),
      ⟨hw.att.hlt, hw.att.valid, hw.att.sub, hw.att.nodup, hw.att.perm, hw.att.sorted⟩, ?_⟩, hw.ne⟩
  refine ⟨?_, ?_, ?_, ?_⟩
  · intro v hv hk
    rw [hw.mem.orig v hv hk]
    simp only [upd]
    rw [if_neg (hna v hv)]
  · intro b hk hb
    simp only [upd]
    split
    · rfl
    · exact hw.mem.other b hk hb
  · intro b hk
    simp only [upd]
    split
    · rfl
    · exact hw.mem.frozen b hk
  · intro v hv hk o p q i h1 h2
    simp only [upd]
    rw [if_neg (hna v hv)]
    exact hw.mem.served v hv hk o p q i h1 h2

theorem regN_spec {E : Env} {s : St} {op : RegOp} {r' : Reg} {x : Int} {ns : List Note} (hr : RegE E s.reg)
    (hok : RegOk E s op) (hnr : ∀ c ∈ s.stack, c.st.isRecall = false) (hold : Old s.reg s.log)
    (h : regStepN E s.reg op = .ok (r', x, ns)) :
    RegE E r' ∧ s.reg.next ≤ r'.next ∧ ∀ c ∈ s.stack, CtxOk s.reg s.log c → CtxOk r' s.log (noteAll ns c) := by
  obtain ⟨mem0, hw, h0⟩ := hr.inv
  obtain ⟨r2, x2, g1, g2, g3, _⟩ := regStep_spec (E := E) hw hok.opOk
  rw [regStepN_regStep, h] at g1
  simp only [Except.map] at g1
  cases g1
  have mk : (∀ o p q i, HasHm r' o p q i → HasHm s.reg o p q i) → RegE E r' :=
    fun hh => ⟨⟨mem0, g2, h0⟩, fun o p q i hm => hr.hm o p q i (hh o p q i hm)⟩
  have hmeq : r'.hms = s.reg.hms → ∀ o p q i, HasHm r' o p q i → HasHm s.reg o p q i := by
    intro e o p q i hm; unfold HasHm at hm ⊢; rw [e] at hm; exact hm
  have hnVP : ∀ c ∈ s.stack, (c.st = .preVP ∨ c.st = .rPreVP ∨ c.st = .postVP ∨ c.st = .rPostVP) → c.st = .preVP ∨ c.st = .postVP := by
    intro c hc h
    have := hnr c hc
    rcases h with h | h | h | h
    · exact Or.inl h
    · rw [h] at this; cases this
    · exact Or.inr h
    · rw [h] at this; cases this
  cases op with
  | add a =>
    simp only [regStepN, bind, Except.bind] at h
    cases ha : addHook E s.reg a with
    | error e => rw [ha] at h; cases h
    | ok y =>
      obtain ⟨ra, xa⟩ := y
      rw [ha] at h; cases h
      obtain ⟨he, hn⟩ := addHook_evo hw hok.1 ha
      refine ⟨⟨⟨mem0, g2, h0⟩, ?_⟩, hn, ?_⟩
      · intro o p q i hm
        rcases addHook_hm hw hok.1 ha o p q i hm with hm | ⟨rfl, hi⟩
        · exact hr.hm o p q i hm
        · exact hok.2.1 i hi
      · intro c hc hcx
        exact CtxOk.evo hw.s g2.s hold he (fun hst v hv hcv => hok.2.2 c hc (hnVP c hc hst) v hv hcv) hcx
  | removeId id =>
    simp only [regStepN, bind, Except.bind] at h
    cases ha : removeHookById E s.reg id with
    | error e => rw [ha] at h; cases h
    | ok y =>
      obtain ⟨ra, ba, na⟩ := y
      rw [ha] at h; cases h
      have hi : removeIds E s.reg [id] = .ok (ra, false || ba, [] ++ na) ∨ True := Or.inr trivial
      refine ⟨mk ?_, ?_, fun c hc hcx => removeHookById_ctx hw ha hcx⟩
      · cases hq : idQuery s.reg.entries id with
        | none => rw [removeHookById_none E hq] at ha; cases ha; exact fun _ _ _ _ h => h
        | some e =>
          obtain ⟨r3, n3, k, q1, q2, q3, q4, q5, q6, q7, q8, q9, q10⟩ := removeHookById_spec hw hq
          rw [ha] at q1; cases q1
          exact fun o p q i hm => (hasHm_congr q8 ..).1 hm
      · cases hq : idQuery s.reg.entries id with
        | none => rw [removeHookById_none E hq] at ha; cases ha; exact Nat.le_refl _
        | some e =>
          obtain ⟨r3, n3, k, q1, q2, q3, q4, q5, q6, q7, q8, q9, q10⟩ := removeHookById_spec hw hq
          rw [ha] at q1; cases q1
          exact Nat.le_of_eq q9.symm
  | remove plug iface offs info hd post =>
    simp only [regStepN, bind, Except.bind] at h
    cases ha : removeHook E s.reg plug iface offs info hd post with
    | error e => rw [ha] at h; cases h
    | ok y =>
      obtain ⟨ra, ba, na⟩ := y
      rw [ha] at h; cases h
      obtain ⟨r3, b3, n3, q1, q2, q3, q4, _⟩ := removeHook_spec (E := E) hw plug iface offs info hd post
      rw [ha] at q1; cases q1
      refine ⟨mk fun o p q i hm => (hasHm_congr q4 ..).1 hm, q3.next, ?_⟩
      intro c hc hcx
      unfold removeHook at ha
      cases info with
      | none => cases ha; exact hcx
      | some info =>
        simp only at ha
        split at ha
        · cases ha; exact hcx
        · exact removeIds_ctx _ hw ha hcx
  | unload plug =>
    simp only [regStepN, bind, Except.bind] at h
    cases ha : unloadReg E s.reg plug with
    | error e => rw [ha] at h; cases h
    | ok y =>
      obtain ⟨ra, na⟩ := y
      rw [ha] at h; cases h
      obtain ⟨r3, n3, q1, q2, q3, q4, _⟩ := unloadReg_remOk (E := E) plug hw
      rw [ha] at q1; cases q1
      refine ⟨mk fun o p q i hm => ((q4 o p q i).1 hm).1, q3.next, ?_⟩
      intro c hc hcx
      rcases hok with hown | he
      · exact unloadReg_ctx hw hown ha hold hcx
      · rw [he] at hc; cases hc
  | removeHm plug pub =>
    simp only [regStepN, bind, Except.bind] at h
    cases ha : removeHookManager E s.reg plug pub with
    | error e => rw [ha] at h; cases h
    | ok y =>
      obtain ⟨ra, na⟩ := y
      rw [ha] at h; cases h
      have hk : (∀ o p q i, HasHm ra o p q i → HasHm s.reg o p q i) ∧ s.reg.next ≤ ra.next := by
        unfold removeHookManager at ha
        split at ha
        · cases ha; exact ⟨fun _ _ _ _ h => h, Nat.le_refl _⟩
        · next hh hf =>
          obtain ⟨r3, n3, q1, q2, q3, q4⟩ := removeHookManO_remOk (E := E) hh.oid hw
            (hasHm_of_mem (List.mem_of_find?_eq_some hf))
          rw [ha] at q1; cases q1
          exact ⟨fun o p q i hm => ((q4 o p q i).1 hm).1, q3.next⟩
      refine ⟨mk hk.1, hk.2, ?_⟩
      intro c hc
      have : s.stack = [] := hok
      rw [this] at hc; cases hc
  | pauseId id b =>
    simp only [regStepN] at h
    cases h
    obtain ⟨k1, k2⟩ := setHookPaused_hms s.reg id b
    refine ⟨mk (hmeq k1), Nat.le_of_eq k2.symm, ?_⟩
    intro c hc hcx
    exact CtxOk.evo hw.s g2.s hold (setHookPaused_evo (fun _ => False) hw id b) (fun _ _ _ _ h => h) hcx
  | pausePlugin plug b =>
    simp only [regStepN] at h
    cases h
    obtain ⟨k1, k2⟩ := setPluginPaused_hms s.reg plug b
    refine ⟨mk (hmeq k1), Nat.le_of_eq k2.symm, ?_⟩
    intro c hc hcx
    exact CtxOk.evo hw.s g2.s hold (setPluginPaused_evo (fun _ => False) hw plug b) (fun _ _ _ _ h => h) hcx
  | shutdown =>
    simp only [regStepN, shutdownReg, bind, Except.bind] at h
    cases ha : removeIds E s.reg (idFindAll s.reg.entries) with
    | error e => rw [ha] at h; cases h
    | ok y =>
      obtain ⟨ra, ba, na⟩ := y
      rw [ha] at h; cases h
      obtain ⟨r3, b3, n3, q1, q2, q3, q4⟩ := removeIds_remOk (E := E) (idFindAll s.reg.entries) hw
      rw [ha] at q1; cases q1
      exact ⟨mk fun o p q i hm => (hasHm_congr q4 ..).1 hm, q3.next, fun c hc hcx => removeIds_ctx _ hw ha hcx⟩

/-! ### notifications of the whole stack -/

theorem attach_length {void : Nat} {cs : List Ctx} {ts ts' : List (Option Nat)} (h : attach void cs ts = some ts') :
    ts'.length = ts.length := by
  induction cs generalizing ts ts' with
  | nil => cases h
  | cons c cs ih =>
    cases ts with
    | nil => cases h
    | cons t ts =>
      unfold attach at h
      split at h
      · next ts2 e => cases h; simp [ih e]
      · split at h
        · cases h; rfl
        · cases h

/-- `l` only adds records of freed thunks. -/
def FreedExt (log log' : List Ev) : Prop := ∃ X, log' = X ++ log ∧ ∀ e ∈ X, ∃ v, e = Ev.freed v

theorem applyNotes_spec (ns : List Note) (s : St) : ∃ ts log', FreedExt s.log log' ∧ ts.length = s.tasks.length ∧
    applyNotes s ns = { s with stack := s.stack.map (noteAll ns), tasks := ts, log := log' } := by
  induction ns generalizing s with
  | nil => exact ⟨s.tasks, s.log, ⟨[], rfl, by simp⟩, rfl, by
      show s = _
      rw [show s.stack.map (noteAll []) = s.stack from (List.map_congr_left fun _ _ => rfl).trans (List.map_id' _)]⟩
  | cons n ns ih =>
    have key : ∃ ts log', FreedExt s.log log' ∧ ts.length = s.tasks.length ∧
        applyNote s n = { s with stack := s.stack.map (noteCtx n), tasks := ts, log := log' } := by
      unfold applyNote
      cases n with
      | cleanup void =>
        have e : s.stack.map (noteCtx (.cleanup void)) = s.stack :=
          (List.map_congr_left fun _ _ => rfl).trans (List.map_id' _)
        dsimp only
        rw [e]
        cases ha : attach void s.stack s.tasks with
        | none => exact ⟨s.tasks, _, ⟨[.freed void], rfl, by simp⟩, rfl, rfl⟩
        | some ts => exact ⟨ts, _, ⟨[], rfl, by simp⟩, attach_length ha, rfl⟩
      | hookRemoved void ifo post nid prev => exact ⟨s.tasks, s.log, ⟨[], rfl, by simp⟩, rfl, rfl⟩
      | ifaceRemoved void ifo => exact ⟨s.tasks, s.log, ⟨[], rfl, by simp⟩, rfl, rfl⟩
      | vfnRemoved void => exact ⟨s.tasks, s.log, ⟨[], rfl, by simp⟩, rfl, rfl⟩
    obtain ⟨ts, log', ⟨X, hX, hXf⟩, hts, he⟩ := key
    obtain ⟨ts2, log2, ⟨Y, hY, hYf⟩, hts2, he2⟩ := ih (applyNote s n)
    rw [he] at hY hts2 he2
    refine ⟨ts2, log2, ⟨Y ++ X, by rw [hY]; show _ ++ log' = _; rw [hX, List.append_assoc], ?_⟩, hts2.trans hts, ?_⟩
    · intro e hm
      rcases List.mem_append.1 hm with hm | hm
      · exact hYf e hm
      · exact hXf e hm
    · show applyNotes (applyNote s n) ns = _
      rw [he, he2]
      simp only [List.map_map]
      rfl

/-- Adds only events that say nothing about invoked or skipped hooks. -/
def QuietExt (log log' : List Ev) : Prop := ∃ X, log' = X ++ log ∧ ∀ e ∈ X, e.quiet = true

theorem FreedExt.quiet {log log' : List Ev} (h : FreedExt log log') : QuietExt log log' := by
  obtain ⟨X, h1, h2⟩ := h
  refine ⟨X, h1, fun e he => ?_⟩
  obtain ⟨v, rfl⟩ := h2 e he; rfl

theorem QuietExt.invoked {log log' : List Ev} (h : QuietExt log log') (c : Nat) (g : Grp) :
    invoked log' c g = invoked log c g := by
  obtain ⟨X, rfl, h2⟩ := h
  induction X with
  | nil => rfl
  | cons e X ih =>
    rw [List.cons_append, invoked_quiet (h2 e (List.mem_cons_self ..))]
    exact ih fun e he => h2 e (List.mem_cons_of_mem _ he)

theorem QuietExt.skipped {log log' : List Ev} (h : QuietExt log log') (c : Nat) (g : Grp) :
    skipped log' c g = skipped log c g := by
  obtain ⟨X, rfl, h2⟩ := h
  induction X with
  | nil => rfl
  | cons e X ih =>
    rw [List.cons_append, skipped_quiet (h2 e (List.mem_cons_self ..))]
    exact ih fun e he => h2 e (List.mem_cons_of_mem _ he)

theorem QuietExt.refl (log : List Ev) : QuietExt log log := ⟨[], rfl, by simp⟩

theorem QuietExt.cons {log log' : List Ev} (h : QuietExt log log') {e : Ev} (he : e.quiet = true) : QuietExt log (e :: log') := by
  obtain ⟨X, rfl, h2⟩ := h
  refine ⟨e :: X, rfl, fun x hx => ?_⟩
  rcases List.mem_cons.1 hx with rfl | hx
  · exact he
  · exact h2 x hx

theorem QuietExt.trans {a b c : List Ev} (h : QuietExt a b) (h' : QuietExt b c) : QuietExt a c := by
  obtain ⟨X, rfl, h2⟩ := h
  obtain ⟨Y, rfl, h3⟩ := h'
  refine ⟨Y ++ X, by rw [List.append_assoc], fun x hx => ?_⟩
  rcases List.mem_append.1 hx with hx | hx
  · exact h3 x hx
  · exact h2 x hx

theorem QuietExt.append {log log' : List Ev} (h : QuietExt log log') {Y : List Ev} (hY : ∀ e ∈ Y, e.quiet = true) :
    QuietExt log (Y ++ log') := by
  obtain ⟨X, rfl, h2⟩ := h
  refine ⟨Y ++ X, by rw [List.append_assoc], fun x hx => ?_⟩
  rcases List.mem_append.1 hx with hx | hx
  · exact hY x hx
  · exact h2 x hx

/-! ### changes of the aligned lists -/

theorem FOk.congr {r : Reg} {log log' : List Ev} {f : Frame} {c : Ctx} {fs : List Frame} (h : FOk r log f c fs)
    (hc : CtxOk r log c → CtxOk r log' c) : FOk r log' f c fs := by
  refine ⟨h.cid, h.addr, h.pt, h.orig, h.pr, ?_⟩
  rcases h.kind with hk | ⟨h1, h2, h3⟩
  · exact Or.inl hk
  · exact Or.inr ⟨h1, h2, hc h3⟩

theorem Al.congr {r : Reg} {log log' : List Ev} {fs : List Frame} {cs : List Ctx} (h : Al r log fs cs)
    (hc : ∀ c ∈ cs, CtxOk r log c → CtxOk r log' c) : Al r log' fs cs := by
  induction h with
  | nil => exact .nil
  | cons h1 h2 h3 ih =>
    exact .cons (h1.congr (hc _ (List.mem_cons_self ..))) h2 (ih fun c hm => hc c (List.mem_cons_of_mem _ hm))

theorem Al.quiet {r : Reg} {log log' : List Ev} {fs : List Frame} {cs : List Ctx} (h : Al r log fs cs)
    (hq : QuietExt log log') : Al r log' fs cs :=
  h.congr fun _ _ hc => hc.congr (fun g => hq.invoked _ g) (fun g => hq.skipped _ g)

theorem FOk.same {r : Reg} {log : List Ev} {f : Frame} {c : Ctx} {fs : List Frame} (h : FOk r log f c fs)
    {g : Frame → Frame} (hg : ∀ f, SameF f (g f)) : FOk r log (g f) c (fs.map g) := by
  have hm : ∀ x ∈ f :: fs, ∃ y ∈ g f :: fs.map g, y.fid = x.fid := by
    intro x hx
    rcases List.mem_cons.1 hx with rfl | hx
    · exact ⟨g x, List.mem_cons_self .., (hg x).fid⟩
    · exact ⟨g x, List.mem_cons_of_mem _ (List.mem_map_of_mem hx), (hg x).fid⟩
  refine ⟨(hg f).cid.trans h.cid, by rw [(hg f).addr]; exact h.addr, by rw [(hg f).pt]; exact h.pt, h.orig.mono hm, h.pr, ?_⟩
  rcases h.kind with hk | ⟨h1, h2, h3⟩
  · left; rw [(hg f).status, (hg f).fid, (hg f).pt]; exact hk
  · right; rw [(hg f).fid]; exact ⟨h1, h2.mono hm, h3⟩

theorem Al.same {r : Reg} {log : List Ev} {fs : List Frame} {cs : List Ctx} (h : Al r log fs cs)
    {g : Frame → Frame} (hg : ∀ f, SameF f (g f)) : Al r log (fs.map g) cs := by
  induction h with
  | nil => exact .nil
  | cons h1 h2 h3 ih => exact .cons (h1.same hg) ((hg _).depth.trans h2) ih

theorem FOk.note {r r' : Reg} {log : List Ev} {f : Frame} {c c' : Ctx} {fs : List Frame} (h : FOk r log f c fs)
    (hn : NoteFrame c c') (hc : CtxOk r log c → CtxOk r' log c') : FOk r' log f c' fs := by
  refine ⟨h.cid.trans hn.cid.symm, h.addr, ?_, by rw [hn.orig]; exact h.orig, ?_, ?_⟩
  · rcases hn.st with e | e
    · rw [e]; exact h.pt
    · rw [e]; exact PtOk.dead _
  · rw [hn.callOrig]
    rcases hn.st with e | e
    · rw [e]; exact h.pr
    · rw [e]; intro hh; cases hh
  · rcases h.kind with ⟨k1, k2, k3, k4, k5, k6⟩ | ⟨h1, h2, h3⟩
    · left
      refine ⟨?_, hn.locals.trans k2, k3, hn.callOrig.trans k4, hn.orig.trans k5, k6⟩
      rcases hn.st with e | e
      · rw [e]; exact k1
      · exact e
    · right; rw [hn.locals, hn.over]; exact ⟨h1, h2, hc h3⟩

theorem Al.note {r r' : Reg} {log : List Ev} {fs : List Frame} {cs : List Ctx} (h : Al r log fs cs)
    {F : Ctx → Ctx} (hn : ∀ c, NoteFrame c (F c)) (hc : ∀ c ∈ cs, CtxOk r log c → CtxOk r' log (F c)) :
    Al r' log fs (cs.map F) := by
  induction h with
  | nil => exact .nil
  | cons h1 h2 h3 ih =>
    exact .cons (h1.note (hn _) (hc _ (List.mem_cons_self ..))) (by rw [h2]; simp)
      (ih fun c hm => hc c (List.mem_cons_of_mem _ hm))

theorem Shape.map {fs : List Fr} (h : Shape fs) {g : Frame → Frame} (hg : ∀ f, (g f).pt = f.pt) : Shape (fs.map (frMap g)) := by
  have hw : ∀ x : Fr, x.waits → (frMap g x).waits := by
    intro x hx; cases x with
    | sh => trivial
    | hook f => show (Fr.hook (g f)).waits; unfold Fr.waits at hx ⊢; simp only [hg]; exact hx
  cases fs with
  | nil => trivial
  | cons x xs =>
    refine ⟨?_, ?_⟩
    · have := h.1
      cases x with
      | sh => trivial
      | hook f => show (Fr.hook (g f)).top; unfold Fr.top at this ⊢; simp only [hg]; exact this
    · intro y hy
      obtain ⟨z, hz, rfl⟩ := List.mem_map.1 hy
      exact hw z (h.2 z hz)

/-- In plugin code every frame waits. -/
theorem MInv.waits {E : Env} {s : St} (h : MInv E s) (hc : Client s) : ∀ y ∈ s.frames, y.waits := by
  have hs := h.shape
  unfold Client at hc
  cases hf : s.frames with
  | nil => intro y hy; cases hy
  | cons x xs =>
    rw [hf] at hc hs
    intro y hy
    rcases List.mem_cons.1 hy with rfl | hy
    · cases y with
      | sh => trivial
      | hook f => simp only at hc; unfold Fr.waits; cases hp : f.pt <;> simp [hp] at hc ⊢
    · exact hs.2 y hy

theorem mem_hookFrames {fs : List Fr} {f : Frame} : f ∈ hookFrames fs ↔ Fr.hook f ∈ fs := by
  induction fs with
  | nil => simp [hookFrames]
  | cons x xs ih => cases x <;> simp [hookFrames, ih]

/-- In plugin code no context is about to be recalled. -/
theorem Al.noRecall {r : Reg} {log : List Ev} {fs : List Frame} {cs : List Ctx} (h : Al r log fs cs)
    (hw : ∀ f ∈ fs, (Fr.hook f).waits) : ∀ c ∈ cs, c.st.isRecall = false := by
  induction h with
  | nil => intro c hc; cases hc
  | @cons f c fs cs h1 h2 h3 ih =>
    intro x hx
    rcases List.mem_cons.1 hx with rfl | hx
    · have hp := h1.pt
      have := hw f (List.mem_cons_self ..)
      unfold Fr.waits at this
      cases hpt : f.pt with
      | preLoop => simp [hpt] at this
      | postLoop => simp [hpt] at this
      | inPre n => rw [hpt] at hp; rcases hp with e | e | e <;> rw [e] <;> rfl
      | inPost n => rw [hpt] at hp; rcases hp with e | e | e <;> rw [e] <;> rfl
      | inOrig => rw [hpt] at hp; rcases hp with e | e <;> rw [e] <;> rfl
      | recPre n o => rw [hpt] at hp; rw [show x.st = .dead from hp]; rfl
      | recPost n o => rw [hpt] at hp; rw [show x.st = .dead from hp]; rfl
    · exact ih (fun f hf => hw f (List.mem_cons_of_mem _ hf)) x hx


theorem ShTop.map {fs : List Fr} (h : ShTop fs) {g : Frame → Frame} (hg : ∀ f, (g f).pt = f.pt) : ShTop (fs.map (frMap g)) := by
  induction fs with
  | nil => trivial
  | cons x xs ih =>
    refine ⟨?_, ih h.2⟩
    intro hx y hy
    cases x with
    | hook f => cases hx
    | sh =>
      cases xs with
      | nil => cases hy
      | cons z zs =>
        have : y = frMap g z := by simpa using hy.symm
        subst this
        have hz := h.1 rfl z (by simp)
        cases z with
        | sh => trivial
        | hook f => show (Fr.hook (g f)).top; unfold Fr.top at hz ⊢; simp only [hg]; exact hz

theorem fidP (fs : List Frame) : fs.Pairwise (fun a b => b.fid < a.fid) ↔ (fs.map Frame.fid).Pairwise (fun a b => b < a) := by
  rw [List.pairwise_map]

theorem hookFrames_map_fid {g : Frame → Frame} (hg : ∀ f, SameF f (g f)) (fs : List Frame) :
    (fs.map g).map Frame.fid = fs.map Frame.fid := by
  rw [List.map_map]; exact List.map_congr_left fun f _ => (hg f).fid

/-- Changes of the innermost activation and its context. -/
theorem MInv.retop {E : Env} {s : St} (h : MInv E s) {f : Frame} {fs : List Fr} (hf : s.frames = .hook f :: fs)
    {c : Ctx} {cs : List Ctx} (hst : s.stack = c :: cs) {f' : Frame} {c' : Ctx} {log' : List Ev} {g : Frame → Frame}
    (hg : ∀ f, SameF f (g f)) (e1 : f'.fid = f.fid) (e2 : f'.depth = f.depth) (ht : (Fr.hook f').top)
    (hfo : FOk s.reg log' f' c' (hookFrames fs)) (hcid : c'.cid = c.cid)
    (hlog : ∀ cid, cid ≠ c.cid → ∀ g, invoked log' cid g = invoked s.log cid g ∧ skipped log' cid g = skipped s.log cid g)
    (hold : Old s.reg log') :
    MInv E { s with frames := (Fr.hook f' :: fs).map (frMap g), stack := c' :: cs, log := log' } := by
  obtain ⟨c0, cs0, hst0, hfo0, hd, hal⟩ := h.top hf
  rw [hst] at hst0
  obtain ⟨rfl, rfl⟩ := List.cons.inj hst0
  have hu := h.cuniq
  rw [hst, List.pairwise_cons] at hu
  have hclt := h.clt
  rw [hst] at hclt
  have hsh := h.shape
  have hshT := h.shTop
  have hfid := h.fid
  have hflt := h.flt
  rw [hf] at hsh hshT hfid hflt
  have hal' : Al s.reg log' (hookFrames fs) cs := by
    apply hal.congr
    intro d hd' hdo
    by_cases hdc : d.cid = c.cid
    · exact Or.inl (hu.1 d hd' hdc.symm)
    · exact hdo.congr (fun g => (hlog _ hdc g).1) (fun g => (hlog _ hdc g).2)
  have halN : Al s.reg log' (hookFrames (Fr.hook f' :: fs)) (c' :: cs) := .cons hfo (e2.trans hd) hal'
  have emap : (hookFrames ((Fr.hook f' :: fs).map (frMap g))).map Frame.fid = (hookFrames (Fr.hook f :: fs)).map Frame.fid := by
    rw [hookFrames_map, hookFrames_map_fid hg]
    simp [hookFrames, e1]
  refine ⟨h.reg, ?_, ?_, ?_, ?_, ?_, ?_, hold, ?_, ?_, ?_⟩
  · show Al s.reg log' (hookFrames ((Fr.hook f' :: fs).map (frMap g))) (c' :: cs)
    rw [hookFrames_map]
    exact halN.same hg
  · rw [fidP, emap, ← fidP]; exact hfid
  · intro x hx
    have : x.fid ∈ (hookFrames (Fr.hook f :: fs)).map Frame.fid := by
      rw [← emap]; exact List.mem_map_of_mem hx
    obtain ⟨y, hy, hxy⟩ := List.mem_map.1 this
    rw [← hxy]; exact hflt y hy
  · intro x hx
    rcases List.mem_cons.1 hx with rfl | hx
    · rw [hcid]; exact hclt c (List.mem_cons_self ..)
    · exact hclt x (List.mem_cons_of_mem _ hx)
  · intro cid hc g
    have hne : cid ≠ c.cid := by
      have := hclt c (List.mem_cons_self ..)
      show cid ≠ c.cid
      have hc : s.next ≤ cid := hc
      omega
    rw [(hlog cid hne g).1, (hlog cid hne g).2]
    exact h.llt cid hc g
  · show (c' :: cs).Pairwise _
    rw [List.pairwise_cons]
    exact ⟨fun d hd' => by rw [hcid]; exact hu.1 d hd', hu.2⟩
  · exact Shape.map (fs := Fr.hook f' :: fs) ⟨ht, hsh.2⟩ fun f => (hg f).pt
  · exact ShTop.map (fs := Fr.hook f' :: fs) ⟨(by intro hh; cases hh), hshT.2⟩ fun f => (hg f).pt
  · show s.tasks.length = (c' :: cs).length
    rw [h.tasks, hst]; simp

theorem frMap_id (fs : List Fr) : fs.map (frMap id) = fs := by
  rw [show fs.map (frMap id) = fs.map id from List.map_congr_left fun x _ => by cases x <;> rfl, List.map_id]

/-- The same without changing return values elsewhere. -/
theorem MInv.retop' {E : Env} {s : St} (h : MInv E s) {f : Frame} {fs : List Fr} (hf : s.frames = .hook f :: fs)
    {c : Ctx} {cs : List Ctx} (hst : s.stack = c :: cs) {f' : Frame} {c' : Ctx} {log' : List Ev}
    (e1 : f'.fid = f.fid) (e2 : f'.depth = f.depth) (ht : (Fr.hook f').top)
    (hfo : FOk s.reg log' f' c' (hookFrames fs)) (hcid : c'.cid = c.cid)
    (hlog : ∀ cid, cid ≠ c.cid → ∀ g, invoked log' cid g = invoked s.log cid g ∧ skipped log' cid g = skipped s.log cid g)
    (hold : Old s.reg log') :
    MInv E { s with frames := Fr.hook f' :: fs, stack := c' :: cs, log := log' } := by
  have := h.retop hf hst (g := id) (fun f => SameF.refl f) e1 e2 ht hfo hcid hlog hold
  rw [frMap_id] at this
  exact this

theorem Old.quiet {r : Reg} {log log' : List Ev} (h : Old r log) (hq : QuietExt log log') : Old r log' := by
  intro c g n hn; rw [hq.invoked] at hn; exact h c g n hn

/-! ### states reached by `GetNext` -/

theorem tryList_st {r : Reg} {c c' : Ctx} {g : Grp} {vo io : Nat} {post : Bool} {x} {sk}
    (h : tryList r c g vo io post = .ok (c', x, sk)) : c'.st = c.st := by
  unfold tryList at h
  simp only [bind, Except.bind] at h
  split at h
  · cases h
  · split at h <;> cases h <;> rfl

theorem nextVP_st {r : Reg} {c : Ctx} {post : Bool} {sk} {g : Got} (h : nextVP r c post sk = .ok g) :
    g.ctx.st = if g.hook.isSome then vpSt post else vpStop post := by
  unfold nextVP at h
  simp only at h
  split at h
  · cases h
  · simp only [bind, Except.bind] at h
    split at h
    · cases h
    · split at h
      · cases h; rfl
      · split at h
        · cases h
        · next y hy =>
          obtain ⟨c', nx, sk'⟩ := y
          simp only at h
          split at h
          · cases h; exact tryList_st hy
          · cases h; rfl

theorem nextObj_st {r : Reg} {c : Ctx} {post : Bool} {g : Got} (h : nextObj r c post = .ok g) :
    if g.hook.isSome then g.ctx.st = objSt post ∨ g.ctx.st = vpSt post else g.ctx.st = vpStop post := by
  unfold nextObj at h
  simp only at h
  have hvp : ∀ {c : Ctx} {sk}, nextVP r c post sk = .ok g →
      if g.hook.isSome then g.ctx.st = objSt post ∨ g.ctx.st = vpSt post else g.ctx.st = vpStop post := by
    intro c sk h
    have := nextVP_st h
    split
    · next e => rw [if_pos e] at this; exact Or.inr this
    · next e => rw [if_neg e] at this; exact this
  split at h
  · exact hvp h
  · split at h
    · cases h
    · simp only [bind, Except.bind] at h
      split at h
      · cases h
      · next y hy =>
        obtain ⟨c', nx, sk'⟩ := y
        simp only at h
        split at h
        · cases h; exact Or.inl (tryList_st hy)
        · exact hvp h

/-- The state after a step of the pre loop. -/
theorem getNext_pre {r : Reg} {c : Ctx} {g : Got} (h : getNext r c = .ok g)
    (hp : PtOk .preLoop c.st) :
    if g.hook.isSome then g.ctx.st = .pre ∨ g.ctx.st = .preVP
    else g.ctx.st = .orig ∨ g.ctx.st = .dead ∨ (c.st.isPostRecall = true ∧ (g.ctx.st = .post ∨ g.ctx.st = .postVP)) := by
  have h1 : ∀ {c'}, nextObj r c' false = .ok g → if g.hook.isSome then g.ctx.st = .pre ∨ g.ctx.st = .preVP
    else g.ctx.st = .orig ∨ g.ctx.st = .dead ∨ (c.st.isPostRecall = true ∧ (g.ctx.st = .post ∨ g.ctx.st = .postVP)) := by
    intro c' h
    have := nextObj_st h
    split
    · next e => rw [if_pos e] at this; exact this
    · next e => rw [if_neg e] at this; exact Or.inl this
  have h2 : ∀ {c'}, nextVP r c' false [] = .ok g → if g.hook.isSome then g.ctx.st = .pre ∨ g.ctx.st = .preVP
    else g.ctx.st = .orig ∨ g.ctx.st = .dead ∨ (c.st.isPostRecall = true ∧ (g.ctx.st = .post ∨ g.ctx.st = .postVP)) := by
    intro c' h
    have := nextVP_st h
    split
    · next e => rw [if_pos e] at this; exact Or.inr this
    · next e => rw [if_neg e] at this; exact Or.inl this
  unfold getNext at h
  simp only [PtOk] at hp
  split at h
  · exact h1 h
  · exact h1 h
  · exact h1 h
  · exact h2 h
  · exact h2 h
  · next e => exact absurd e hp.1
  · next e => exact absurd e hp.2.1
  · next e => exact absurd e hp.2.2.1
  · next e => cases h; exact Or.inr (Or.inr ⟨by rw [e]; rfl, Or.inl rfl⟩)
  · next e => cases h; exact Or.inr (Or.inr ⟨by rw [e]; rfl, Or.inr rfl⟩)
  · next e => cases h; exact Or.inr (Or.inl e)
  · next e => exact absurd e hp.2.2.2.1
  · next e => exact absurd e hp.2.2.2.2

/-- The state after a step of the post loop. -/
theorem getNext_post {r : Reg} {c : Ctx} {g : Got} (h : getNext r c = .ok g) (hp : PtOk .postLoop c.st) :
    if g.hook.isSome then g.ctx.st = .post ∨ g.ctx.st = .postVP else g.ctx.st = .dead := by
  have h1 : ∀ {c'}, nextObj r c' true = .ok g → if g.hook.isSome then g.ctx.st = .post ∨ g.ctx.st = .postVP else g.ctx.st = .dead := by
    intro c' h; exact nextObj_st h
  have h2 : ∀ {c'}, nextVP r c' true [] = .ok g → if g.hook.isSome then g.ctx.st = .post ∨ g.ctx.st = .postVP else g.ctx.st = .dead := by
    intro c' h
    have := nextVP_st h
    split
    · next e => rw [if_pos e] at this; exact Or.inr this
    · next e => rw [if_neg e] at this; exact this
  simp only [PtOk] at hp
  unfold getNext at h
  rcases hp with e | e | e | e <;> rw [e] at h <;> simp only at h
  · exact h1 h
  · exact h1 h
  · exact h2 h
  · cases h; exact e

/-- What a step of a loop does, for dead and live contexts alike. -/
theorem getNext_any' {r : Reg} (hs : SInv r) {log : List Ev} {c : Ctx} (h : CtxOk r log c) (fid : Nat) {g : Got}
    (hg : getNext r c = .ok g) : KeepC c g.ctx ∧ CtxOk r (logGot c.cid fid g log) g.ctx ∧
      ∀ grp hh, g.hook = some (grp, hh) → hh.nid < r.next := by
  rcases h with h | ⟨v, h⟩
  · rw [getNext_dead h] at hg; cases hg
    exact ⟨⟨rfl, rfl, rfl, rfl, rfl, rfl, rfl, rfl⟩, Or.inl h, by intro _ _ hh; cases hh⟩
  · obtain ⟨g', h1, h2⟩ := getNext_live hs h fid
    rw [hg] at h1; cases h1
    refine ⟨h2.keep, h2.ok, ?_⟩
    intro grp hh e
    obtain ⟨i, hi, _, hm⟩ := viewV_elim (h2.inv grp hh e).2.1
    exact (hs.vi v h.mem).hlt i hi _ _ hm

theorem logGot_other {cid fid : Nat} (g : Got) (log : List Ev) {c : Nat} (hne : c ≠ cid) (grp : Grp) :
    invoked (logGot cid fid g log) c grp = invoked log c grp ∧ skipped (logGot cid fid g log) c grp = skipped log c grp := by
  rw [invoked_logGot, skipped_logGot]
  constructor
  · cases g.hook with
    | none => simp
    | some x => simp [Ne.symm hne]
  · rw [if_neg (Ne.symm hne)]; simp


theorem Old.logGot {r : Reg} {log : List Ev} (h : Old r log) {cid fid : Nat} {g : Got}
    (hg : ∀ grp hh, g.hook = some (grp, hh) → hh.nid < r.next) : Old r (logGot cid fid g log) := by
  intro c grp n hn
  rw [invoked_logGot] at hn
  rcases List.mem_append.1 hn with hn | hn
  · exact h c grp n hn
  · cases hgh : g.hook with
    | none => rw [hgh] at hn; cases hn
    | some x =>
      rw [hgh] at hn
      simp only at hn
      split at hn
      · rw [List.mem_singleton.1 hn]; exact hg x.1 x.2 hgh
      · cases hn

/-! ### popping -/

theorem resolve_log (force : Bool) (s : St) : QuietExt s.log (resolve force s).log := by
  refine ⟨_, rfl, ?_⟩
  intro e he
  obtain ⟨p, _, rfl⟩ := List.mem_map.1 (List.mem_reverse.1 he)
  rfl

theorem popCtx_spec (s : St) (cs : List Ctx) : (popCtx s cs).reg = s.reg ∧ (popCtx s cs).stack = cs ∧
    (popCtx s cs).frames = s.frames ∧ (popCtx s cs).next = s.next ∧ (popCtx s cs).tasks = s.tasks.tail ∧
    QuietExt s.log (popCtx s cs).log := by
  unfold popCtx
  have hq : QuietExt s.log (match s.tasks.headD none with
    | some v => Ev.freed v :: s.log
    | none => s.log) := by
    split
    · exact (QuietExt.refl _).cons rfl
    · exact QuietExt.refl _
  dsimp only
  split
  · exact ⟨rfl, rfl, rfl, rfl, rfl, hq.trans (resolve_log false _)⟩
  · exact ⟨rfl, rfl, rfl, rfl, rfl, hq⟩

theorem handBack_cases (v : Val) (fs : List Fr) : handBack v fs = fs ∨ ∃ p fs', fs = .hook p :: fs' ∧
    ((∃ n, p.pt = .recPre n none ∧ handBack v fs = .hook { p with pt := .recPre n (some v) } :: fs') ∨
     (∃ n, p.pt = .recPost n none ∧ handBack v fs = .hook { p with pt := .recPost n (some v) } :: fs')) := by
  unfold handBack
  split
  · next p fs' =>
    split
    · next n e => exact Or.inr ⟨p, fs', rfl, Or.inl ⟨n, e, rfl⟩⟩
    · next n e => exact Or.inr ⟨p, fs', rfl, Or.inr ⟨n, e, rfl⟩⟩
    · exact Or.inl rfl
  · exact Or.inl rfl

/-- Without a waiting recalling handler on top, every waiting frame is a proper top. -/
theorem handBack_top (v : Val) {fs : List Fr} (h : ∀ y ∈ fs, y.waits) (hs : ShTop fs) :
    Shape (handBack v fs) ∧ ShTop (handBack v fs) := by
  rcases handBack_cases v fs with e | ⟨p, fs', rfl, ⟨n, hp, e⟩ | ⟨n, hp, e⟩⟩
  · rw [e]
    refine ⟨?_, hs⟩
    cases fs with
    | nil => trivial
    | cons x xs =>
      refine ⟨?_, fun y hy => h y (List.mem_cons_of_mem _ hy)⟩
      cases x with
      | sh => trivial
      | hook p =>
        unfold Fr.top
        simp only
        split
        · next n hp =>
          exfalso
          unfold handBack at e; simp only [hp] at e
          have := congrArg (fun l => l.head?.map fun x => match x with | .hook f => f.pt | .sh => .preLoop) e
          simp [hp] at this
        · next n hp =>
          exfalso
          unfold handBack at e; simp only [hp] at e
          have := congrArg (fun l => l.head?.map fun x => match x with | .hook f => f.pt | .sh => .preLoop) e
          simp [hp] at this
        · trivial
  · rw [e]
    refine ⟨⟨trivial, fun y hy => h y (List.mem_cons_of_mem _ hy)⟩, ?_, hs.2⟩
    intro hh; cases hh
  · rw [e]
    refine ⟨⟨trivial, fun y hy => h y (List.mem_cons_of_mem _ hy)⟩, ?_, hs.2⟩
    intro hh; cases hh

theorem FOk.rept {r : Reg} {log log' : List Ev} {f f' : Frame} {c : Ctx} {fs : List Frame} (h : FOk r log f c fs)
    (hq : QuietExt log log') (e1 : f'.fid = f.fid) (e2 : f'.cid = f.cid) (e3 : f'.addr = f.addr) (hp : PtOk f'.pt c.st)
    (hk : (c.st = .dead ∧ c.locals = none) → f'.status = 0 ∧ (f'.pt = .preLoop ∨ f'.pt = .inOrig ∨ f'.pt = .postLoop)) :
    FOk r log' f' c fs := by
  have hm : ∀ x ∈ f :: fs, ∃ y ∈ f' :: fs, y.fid = x.fid := by
    intro x hx
    rcases List.mem_cons.1 hx with rfl | hx
    · exact ⟨f', List.mem_cons_self .., e1⟩
    · exact ⟨x, List.mem_cons_of_mem _ hx, rfl⟩
  refine ⟨e2.trans h.cid, by rw [e3]; exact h.addr, hp, h.orig.mono hm, h.pr, ?_⟩
  rcases h.kind with ⟨k1, k2, k3, k4, k5, k6⟩ | ⟨h1, h2, h3⟩
  · left; rw [e1]; exact ⟨k1, k2, (hk ⟨k1, k2⟩).1, k4, k5, (hk ⟨k1, k2⟩).2⟩
  · right; rw [e1]; exact ⟨h1, h2.mono hm, h3.congr (fun g => hq.invoked _ g) (fun g => hq.skipped _ g)⟩

theorem FOk.notSh {r : Reg} {log : List Ev} {f : Frame} {c : Ctx} {fs : List Frame} (h : FOk r log f c fs)
    (hp : f.pt ≠ .preLoop ∧ f.pt ≠ .inOrig ∧ f.pt ≠ .postLoop) : ¬ (c.st = .dead ∧ c.locals = none) := by
  intro hh
  have := (h.live hp.1 hp.2.1 hp.2.2).1
  rw [hh.2] at this; cases this

theorem handBack_al {r : Reg} {log : List Ev} {fs : List Fr} {cs : List Ctx} (v : Val) (h : Al r log (hookFrames fs) cs) :
    Al r log (hookFrames (handBack v fs)) cs ∧ (hookFrames (handBack v fs)).map Frame.fid = (hookFrames fs).map Frame.fid := by
  rcases handBack_cases v fs with e | ⟨p, fs', rfl, ⟨n, hp, e⟩ | ⟨n, hp, e⟩⟩
  · rw [e]; exact ⟨h, rfl⟩
  all_goals
    rw [e]
    refine ⟨?_, rfl⟩
    obtain ⟨c, cs, rfl, h1, h2, h3⟩ := h.inv
    refine .cons (h1.rept (QuietExt.refl _) rfl rfl rfl ?_ ?_) h2 h3
    · have := h1.pt; rw [hp] at this; exact this
    · exact fun hh => absurd hh (h1.notSh (by rw [hp]; simp))

/-- After `GetNext`. -/
theorem FOk.got {r : Reg} (hs : SInv r) {log : List Ev} {f f' : Frame} {c : Ctx} {fs : List Frame} (h : FOk r log f c fs) {g : Got}
    (hg : getNext r c = .ok g) (fid : Nat) (e1 : f'.fid = f.fid) (e2 : f'.cid = f.cid) (e3 : f'.addr = f.addr)
    (hp : PtOk f'.pt g.ctx.st) (hpr : g.ctx.st.isPostRecall = false)
    (hk : (c.st = .dead ∧ c.locals = none ∧ f.status = 0) → f'.status = 0 ∧ (f'.pt = .preLoop ∨ f'.pt = .inOrig ∨ f'.pt = .postLoop)) :
    FOk r (logGot f.cid fid g log) f' g.ctx fs := by
  have hm : ∀ x ∈ f :: fs, ∃ y ∈ f' :: fs, y.fid = x.fid := by
    intro x hx
    rcases List.mem_cons.1 hx with rfl | hx
    · exact ⟨f', List.mem_cons_self .., e1⟩
    · exact ⟨x, List.mem_cons_of_mem _ hx, rfl⟩
  obtain ⟨hkeep, hok, _⟩ := getNext_any' hs h.ctxOk fid hg
  refine ⟨e2.trans (h.cid.trans hkeep.cid.symm), by rw [e3]; exact h.addr, hp, ?_, (by rw [hpr]; intro hh; cases hh), ?_⟩
  · rw [hkeep.orig]; exact h.orig.mono hm
  · rcases h.kind with ⟨k1, k2, k3, k4, k5, k6⟩ | ⟨h1, h2, h3⟩
    · left
      rw [getNext_dead k1] at hg
      cases hg
      rw [e1]; exact ⟨k1, k2, (hk ⟨k1, k2, k3⟩).1, k4, k5, (hk ⟨k1, k2, k3⟩).2⟩
    · right
      rw [hkeep.locals, hkeep.over, e1, h.cid]
      exact ⟨h1, h2.mono hm, hok⟩


/-! ### the step theorem -/

theorem find?_ptr {l : List Iface} {a : Addr} {i : Iface} (h : l.find? (·.ptr == a) = some i) : i.ptr = a := by
  simpa using List.find?_some h

theorem MInv.callTop {E : Env} {s : St} (h : MInv E s) : ShTop (.sh :: s.frames) := by
  refine ⟨fun _ y hy => ?_, h.shTop⟩
  have := h.shape
  cases hf : s.frames with
  | nil => rw [hf] at hy; cases hy
  | cons x xs =>
    rw [hf] at hy this
    have : y = x := by simpa using hy.symm
    subst this
    exact (by assumption : Shape (y :: xs)).1

theorem MInv.step {E : Env} {s s' : St} {op : Op} (h : MInv E s) (hok : Ok E s op) (ht : Tr E s op s') : MInv E s' := by
  obtain ⟨mem0, hw, h0⟩ := h.reg.inv
  cases ht with
  | reg op r x ns hr =>
    have hcl := hok.1
    have hnr : ∀ c ∈ s.stack, c.st.isRecall = false := h.al.noRecall fun f hf => h.waits hcl _ (mem_hookFrames.1 hf)
    obtain ⟨k1, k2, k3⟩ := regN_spec h.reg hok.2 hnr h.old hr
    obtain ⟨ts, log', hfe, hts, he⟩ := applyNotes_spec ns { s with reg := r }
    rw [he]
    have hq : QuietExt s.log (afterReg { s with reg := r, stack := s.stack.map (noteAll ns), tasks := ts, log := log' } op).log := by
      have := hfe.quiet
      unfold afterReg
      split
      · split
        · exact (this.cons rfl).cons rfl
        · exact this.cons rfl
      · exact this
    have hsame : (afterReg { s with reg := r, stack := s.stack.map (noteAll ns), tasks := ts, log := log' } op).reg = r ∧
        (afterReg { s with reg := r, stack := s.stack.map (noteAll ns), tasks := ts, log := log' } op).stack = s.stack.map (noteAll ns) ∧
        (afterReg { s with reg := r, stack := s.stack.map (noteAll ns), tasks := ts, log := log' } op).tasks = ts ∧
        (afterReg { s with reg := r, stack := s.stack.map (noteAll ns), tasks := ts, log := log' } op).frames = s.frames ∧
        (afterReg { s with reg := r, stack := s.stack.map (noteAll ns), tasks := ts, log := log' } op).next = s.next := by
      unfold afterReg
      split
      · split <;> exact ⟨rfl, rfl, rfl, rfl, rfl⟩
      · exact ⟨rfl, rfl, rfl, rfl, rfl⟩
    show MInv E (afterReg { s with reg := r, stack := s.stack.map (noteAll ns), tasks := ts, log := log' } op)
    generalize afterReg { s with reg := r, stack := s.stack.map (noteAll ns), tasks := ts, log := log' } op = s' at hq hsame
    obtain ⟨e1, e2, e3, e4, e5⟩ := hsame
    have hal : Al r s.log (hookFrames s.frames) (s.stack.map (noteAll ns)) := h.al.note (fun c => noteAll_frame ns c) k3
    refine ⟨by rw [e1]; exact k1, ?_, by rw [e4]; exact h.fid, by rw [e4, e5]; exact h.flt, ?_, ?_, ?_, ?_, by rw [e4]; exact h.shape,
      by rw [e4]; exact h.shTop, ?_⟩
    · rw [e1, e2, e4]; exact hal.quiet hq
    · rw [e2, e5]
      intro c hc
      obtain ⟨d, hd, rfl⟩ := List.mem_map.1 hc
      rw [(noteAll_frame ns d).cid]; exact h.clt d hd
    · rw [e5]
      intro cid hc g
      rw [hq.invoked, hq.skipped]; exact h.llt cid hc g
    · rw [e2, List.pairwise_map]
      refine h.cuniq.imp ?_
      intro a b hab
      rw [(noteAll_frame ns a).cid, (noteAll_frame ns b).cid]
      intro hh
      rcases (noteAll_frame ns b).st with e | e
      · rw [e]; exact hab hh
      · exact e
    · rw [e1]
      intro c g n hn
      rw [hq.invoked] at hn
      exact Nat.lt_of_lt_of_le (h.old c g n hn) k2
    · rw [e2, e3, hts]; simpa using h.tasks
  | poke a val =>
    obtain ⟨_, hv, hna⟩ := hok
    refine ⟨⟨⟨_, poke_inv hw hna, ?_⟩, ?_⟩, ?_, h.fid, h.flt, h.clt, h.llt, h.cuniq, h.old, h.shape, h.shTop, h.tasks⟩
    · intro b
      simp only [upd]
      split
      · exact hv
      · exact h0 b
    · exact h.reg.hm
    · have x := h.al.note (F := id) (r' := { s.reg with mem := upd s.reg.mem a val }) (fun c => noteAll_frame [] c) (by
        intro c _ hc
        rcases hc with hc | ⟨v, hc⟩
        · exact Or.inl hc
        · exact Or.inr ⟨v, hc.mem, hc.vfn, hc.this, hc.iface, hc.it⟩)
      rw [List.map_id] at x; exact x
  | plain p this hp => exact h
  | call v this hv hwr =>
    have hq : QuietExt s.log (.enter s.next s.next (some v.ptr) this :: s.log) := (QuietExt.refl _).cons rfl
    have hwait := h.waits hok.1
    refine ⟨h.reg, ?_, ?_, ?_, ?_, ?_, ?_, h.old.quiet hq, ⟨trivial, hwait⟩, ⟨(by intro hh; cases hh), h.shTop⟩, ?_⟩
    · refine .cons ?_ rfl (h.al.quiet hq)
      refine ⟨rfl, by simp [freshFrame], by simp [freshFrame, freshCtx, PtOk], ?_, (by intro hh; cases hh), Or.inr ⟨rfl, ?_, Or.inr ⟨v, ?_⟩⟩⟩
      · exact ⟨_, List.mem_cons_self .., Or.inr rfl⟩
      · exact ⟨_, List.mem_cons_self .., Or.inl rfl⟩
      · refine ⟨hv, rfl, hok.2, ?_, ?_⟩
        · intro ifo hi
          have hi : (v.ifaces.find? (·.ptr == this)).map Iface.oid = some ifo := hi
          cases hf : v.ifaces.find? (·.ptr == this) with
          | none => rw [hf] at hi; cases hi
          | some i =>
            rw [hf] at hi
            exact ⟨i, List.mem_of_find?_eq_some hf, Option.some.inj hi, find?_ptr hf⟩
        · intro g
          show invoked _ s.next g = []
          rw [hq.invoked]; exact (h.llt s.next (Nat.le_refl _) g).1
    · show (freshFrame .. :: hookFrames s.frames).Pairwise _
      exact List.pairwise_cons.2 ⟨fun f hf => h.flt f hf, h.fid⟩
    · intro f hf
      rcases List.mem_cons.1 hf with rfl | hf
      · exact Nat.lt_succ_self _
      · exact Nat.lt_succ_of_lt (h.flt f hf)
    · intro c hc
      rcases List.mem_cons.1 hc with rfl | hc
      · exact Nat.lt_succ_self _
      · exact Nat.lt_succ_of_lt (h.clt c hc)
    · intro cid hc g
      rw [hq.invoked, hq.skipped]; exact h.llt cid (Nat.le_of_succ_le hc) g
    · refine List.pairwise_cons.2 ⟨?_, h.cuniq⟩
      intro d hd hh
      have : d.cid < s.next := h.clt d hd
      have hh : s.next = d.cid := hh
      omega
    · show (_ :: s.tasks).length = (_ :: s.stack).length
      simp [h.tasks]
  | shCall v this hv hwr =>
    have hq : QuietExt s.log (.shEnter s.next (s.next + 1) (some v.ptr) this :: s.log) := (QuietExt.refl _).cons rfl
    have hwait := h.waits hok.1
    refine ⟨h.reg, ?_, ?_, ?_, ?_, ?_, ?_, h.old.quiet hq, ⟨trivial, ?_⟩, ⟨(by intro hh; cases hh), h.callTop⟩, ?_⟩
    · refine .cons ?_ rfl (h.al.quiet hq)
      refine ⟨rfl, by simp [freshFrame], by simp [freshFrame, shCtx, PtOk], ?_, (by intro hh; cases hh), Or.inl ⟨rfl, rfl, rfl, rfl, rfl, Or.inl rfl⟩⟩
      exact ⟨_, List.mem_cons_self .., Or.inr rfl⟩
    · show (freshFrame .. :: hookFrames s.frames).Pairwise _
      exact List.pairwise_cons.2 ⟨fun f hf => Nat.lt_succ_of_lt (h.flt f hf), h.fid⟩
    · intro f hf
      rcases List.mem_cons.1 hf with rfl | hf
      · exact Nat.lt_succ_self _
      · exact Nat.lt_succ_of_lt (Nat.lt_succ_of_lt (h.flt f hf))
    · intro c hc
      rcases List.mem_cons.1 hc with rfl | hc
      · exact Nat.lt_succ_of_lt (Nat.lt_succ_self _)
      · exact Nat.lt_succ_of_lt (Nat.lt_succ_of_lt (h.clt c hc))
    · intro cid hc g
      rw [hq.invoked, hq.skipped]; exact h.llt cid (Nat.le_of_succ_le (Nat.le_of_succ_le hc)) g
    · refine List.pairwise_cons.2 ⟨?_, h.cuniq⟩
      intro d hd hh
      have : d.cid < s.next := h.clt d hd
      have hh : s.next = d.cid := hh
      omega
    · intro y hy
      rcases List.mem_cons.1 hy with rfl | hy
      · trivial
      · exact hwait y hy
    · show (_ :: s.tasks).length = (_ :: s.stack).length
      simp [h.tasks]
  | shEnd fs hf =>
    have hal := h.al; have hfid := h.fid; have hflt := h.flt; have hsh := h.shape; have hst := h.shTop
    rw [hf] at hal hfid hflt hsh hst
    refine ⟨h.reg, hal, hfid, hflt, h.clt, h.llt, h.cuniq, h.old, ?_, hst.2, h.tasks⟩
    show Shape fs
    cases fs with
    | nil => trivial
    | cons x xs => exact ⟨hst.1 rfl x (by simp), fun y hy => hsh.2 y (List.mem_cons_of_mem _ hy)⟩
  | setRes res f fs hf =>
    obtain ⟨c, cs, hst, hfo, hd, hal⟩ := h.top hf
    obtain ⟨f0, fs0, post, hf0, hat⟩ := hok.1.elim
    rw [hf] at hf0; cases hf0
    have := h.retop' hf hst (f' := { f with cur := res }) (c' := c) (log' := s.log) rfl rfl
      (by have := h.shape; rw [hf] at this; exact this.1)
      (hfo.rept (QuietExt.refl _) rfl rfl rfl hfo.pt fun hh => absurd hh (hfo.notSh hat.ne)) rfl
      (fun _ _ _ => ⟨rfl, rfl⟩) h.old
    rw [← hst] at this; exact this
  | recall res val v f fs c cs hf hst hv hcv =>
    obtain ⟨c0, cs0, hst0, hfo, hd, hal⟩ := h.top hf
    rw [hst] at hst0; cases hst0
    obtain ⟨hin, _, _, c1, cs1, hst1, hne, w, hw1, hw2, hw3, hw4, hw5⟩ := hok
    rw [hst] at hst1; cases hst1
    have : w = v := nodup_key_inj hw.s.void hw1 hv (Option.some.inj (hw2.symm.trans hcv))
    subst this
    obtain ⟨f0, fs0, post, hf0, hat⟩ := hin.elim
    rw [hf] at hf0; cases hf0
    obtain ⟨k1, k2, k3⟩ := hfo.live hat.ne.1 hat.ne.2.1 hat.ne.2.2
    rcases k3 with k3 | ⟨w', k3⟩
    · exact absurd k3 hne
    have : w' = w := nodup_key_inj hw.s.void k3.mem hv (Option.some.inj (k3.vfn.symm.trans hcv))
    subst this
    have hstc : c.st = .pre ∨ c.st = .preVP ∨ c.st = .post ∨ c.st = .postVP := by
      obtain ⟨n, hn⟩ := hat
      have := hfo.pt
      rw [hn] at this
      cases post
      · rcases this with e | e | e
        · exact Or.inl e
        · exact Or.inr (Or.inl e)
        · exact absurd e hne
      · rcases this with e | e | e
        · exact Or.inr (Or.inr (Or.inl e))
        · exact Or.inr (Or.inr (Or.inr e))
        · exact absurd e hne
    have hq : QuietExt s.log (.recall c.cid f.fid s.next (max f.status res) :: s.log) := (QuietExt.refl _).cons rfl
    -- the frames below, before the override value is stored
    let f1 : Frame := { f with cur := res, status := max f.status res, pt := recPt f.pt }
    have hfo1 : FOk s.reg s.log f1 { c with st := .dead } (hookFrames fs) := by
      have hm : ∀ x ∈ f :: hookFrames fs, ∃ y ∈ f1 :: hookFrames fs, y.fid = x.fid := by
        intro x hx
        rcases List.mem_cons.1 hx with rfl | hx
        · exact ⟨f1, List.mem_cons_self .., rfl⟩
        · exact ⟨x, List.mem_cons_of_mem _ hx, rfl⟩
      exact ⟨hfo.cid, hfo.addr, PtOk.dead _, hfo.orig.mono hm, (by intro hh; cases hh), Or.inr ⟨k1, k2.mono hm, Or.inl rfl⟩⟩
    have hal1 : Al s.reg s.log (hookFrames (.hook f1 :: fs)) ({ c with st := .dead } :: cs) := .cons hfo1 hd hal
    have hsl : ∃ G : Frame → Frame, (∀ f, SameF f (G f)) ∧
        (if res ≥ override then setSlot (.hook f1 :: fs) val c.over else .hook f1 :: fs) = (Fr.hook f1 :: fs).map (frMap G) := by
      split
      · exact ⟨slotMap val c.over, slotMap_same _ _, setSlot_eq _ _ _⟩
      · exact ⟨id, SameF.refl, (frMap_id _).symm⟩
    obtain ⟨G, hG, heq⟩ := hsl
    show MInv E { s with
      stack := recCtx s.next c w' c.this (max f.status res) :: { c with st := .dead } :: cs
      tasks := none :: s.tasks, spare := s.spare.tail
      frames := .hook (freshFrame s.next c.cid (cs.length + 1) (max f.status res) w') ::
        (if res ≥ override then setSlot (.hook f1 :: fs) val c.over else .hook f1 :: fs)
      log := .recall c.cid f.fid s.next (max f.status res) :: s.log, next := s.next + 1 }
    rw [heq]
    have hal2 := hal1.same hG
    rw [← hookFrames_map] at hal2
    have hshape := h.shape; have hshT := h.shTop; have hfid := h.fid; have hflt := h.flt; have hcu := h.cuniq; have hclt := h.clt
    rw [hf] at hshape hshT hfid hflt
    rw [hst] at hcu hclt
    rw [List.pairwise_cons] at hcu
    have emap : (hookFrames ((Fr.hook f1 :: fs).map (frMap G))).map Frame.fid = (hookFrames (Fr.hook f :: fs)).map Frame.fid := by
      rw [hookFrames_map, hookFrames_map_fid hG]; rfl
    have hfm : ∀ x ∈ hookFrames ((Fr.hook f1 :: fs).map (frMap G)), x.fid < s.next := by
      intro x hx
      have : x.fid ∈ (hookFrames (Fr.hook f :: fs)).map Frame.fid := by rw [← emap]; exact List.mem_map_of_mem hx
      obtain ⟨y, hy, e⟩ := List.mem_map.1 this
      rw [← e]; exact hflt y hy
    have hback : ∀ x ∈ f :: hookFrames fs, ∃ y ∈ hookFrames ((Fr.hook f1 :: fs).map (frMap G)), y.fid = x.fid := by
      intro x hx
      have : x.fid ∈ (hookFrames ((Fr.hook f1 :: fs).map (frMap G))).map Frame.fid := by rw [emap]; exact List.mem_map_of_mem hx
      obtain ⟨y, hy, e⟩ := List.mem_map.1 this
      exact ⟨y, hy, e⟩
    have hback' : ∀ x ∈ f :: hookFrames fs, ∃ y ∈ freshFrame s.next c.cid (cs.length + 1) (max f.status res) w' ::
        hookFrames ((Fr.hook f1 :: fs).map (frMap G)), y.fid = x.fid := by
      intro x hx
      obtain ⟨y, hy, e⟩ := hback x hx
      exact ⟨y, List.mem_cons_of_mem _ hy, e⟩
    refine ⟨h.reg, ?_, ?_, ?_, ?_, ?_, ?_, h.old.quiet hq, ?_, ?_, ?_⟩
    · refine .cons ?_ rfl (hal2.quiet hq)
      refine ⟨rfl, by simp [freshFrame], ?_, ?_, ?_, Or.inr ⟨rfl, ?_, Or.inr ⟨w', k3.mem, rfl, k3.this, ?_, ?_⟩⟩⟩
      · rcases hstc with e | e | e | e <;> simp [freshFrame, recCtx, PtOk, e, CtxSt.toRecall]
      · simp only [recCtx]
        split
        · exact hfo.orig.mono hback'
        · exact ⟨_, List.mem_cons_self .., Or.inr rfl⟩
      · intro hh
        have hh : c.st.toRecall.isPostRecall = true := hh
        simp [recCtx, hh]
      · simp only [recCtx]
        split
        · exact hfo.orig.mono hback'
        · exact k2.mono hback'
      · intro ifo hi
        have hi : (w'.ifaces.find? (·.ptr == c.this)).map Iface.oid = some ifo := hi
        cases hff : w'.ifaces.find? (·.ptr == c.this) with
        | none => rw [hff] at hi; cases hi
        | some i =>
          rw [hff] at hi
          exact ⟨i, List.mem_of_find?_eq_some hff, Option.some.inj hi, find?_ptr hff⟩
      · have hit := k3.it
        refine ItOk.congr (log := s.log) (fun g => hq.invoked _ g) (fun g => hq.skipped _ g) ?_
        have hif : (c.st = .pre ∨ c.st = .post) → ∀ i ∈ w'.ifaces,
            (recCtx s.next c w' c.this (max f.status res)).iface = some i.oid → c.iface = some i.oid := by
          intro hs i hi he
          have he : (w'.ifaces.find? (·.ptr == c.this)).map Iface.oid = some i.oid := he
          cases hci : c.iface with
          | none => rw [hw5 hs hci] at he; cases he
          | some o =>
            obtain ⟨j, hj1, hj2, hj3⟩ := k3.iface o hci
            have : w'.ifaces.find? (·.ptr == c.this) = some j := by
              rw [← hj3]; exact find?_key (key := Iface.ptr) (hw.s.vi w' k3.mem).iptr hj1
            rw [this] at he
            rw [← hj2]; exact he
        unfold ItOk at hit ⊢
        rcases hstc with e | e | e | e
        · rw [e] at hit
          rw [show (recCtx s.next c w' c.this (max f.status res)).st = .rPre by simp [recCtx, e, CtxSt.toRecall]]
          exact ⟨fun i hi he => hit.1 i hi (hif (Or.inl e) i hi he), hit.2⟩
        · rw [e] at hit
          rw [show (recCtx s.next c w' c.this (max f.status res)).st = .rPreVP by simp [recCtx, e, CtxSt.toRecall]]
          exact hit
        · rw [e] at hit
          rw [show (recCtx s.next c w' c.this (max f.status res)).st = .rPost by simp [recCtx, e, CtxSt.toRecall]]
          exact ⟨fun i hi he => hit.1 i hi (hif (Or.inr e) i hi he), hit.2⟩
        · rw [e] at hit
          rw [show (recCtx s.next c w' c.this (max f.status res)).st = .rPostVP by simp [recCtx, e, CtxSt.toRecall]]
          exact hit
    · refine List.pairwise_cons.2 ⟨hfm, ?_⟩
      rw [fidP, emap, ← fidP]; exact hfid
    · intro x hx
      rcases List.mem_cons.1 hx with rfl | hx
      · exact Nat.lt_succ_self _
      · exact Nat.lt_succ_of_lt (hfm x hx)
    · intro d hd'
      rcases List.mem_cons.1 hd' with rfl | hd'
      · exact Nat.lt_succ_of_lt (hclt c (List.mem_cons_self ..))
      · rcases List.mem_cons.1 hd' with rfl | hd'
        · exact Nat.lt_succ_of_lt (hclt c (List.mem_cons_self ..))
        · exact Nat.lt_succ_of_lt (hclt d (List.mem_cons_of_mem _ hd'))
    · intro cid hc g
      rw [hq.invoked, hq.skipped]; exact h.llt cid (Nat.le_of_succ_le hc) g
    · refine List.pairwise_cons.2 ⟨?_, List.pairwise_cons.2 ⟨fun d hd' => hcu.1 d hd', hcu.2⟩⟩
      intro d hd'
      rcases List.mem_cons.1 hd' with rfl | hd'
      · exact fun _ => rfl
      · exact hcu.1 d hd'
    · refine ⟨trivial, ?_⟩
      have h2 : ∀ y ∈ Fr.hook f1 :: fs, y.waits := by
        intro y hy
        rcases List.mem_cons.1 hy with rfl | hy
        · obtain ⟨n, hn⟩ := hat
          show (Fr.hook f1).waits
          unfold Fr.waits
          cases post <;> simp [f1, hn, recPt]
        · exact hshape.2 y hy
      intro y hy
      obtain ⟨z, hz, rfl⟩ := List.mem_map.1 hy
      have := h2 z hz
      cases z with
      | sh => trivial
      | hook z => show (Fr.hook (G z)).waits; unfold Fr.waits at this ⊢; simp only [(hG z).pt]; exact this
    · exact ⟨(by intro hh; cases hh), ShTop.map (fs := Fr.hook f1 :: fs) ⟨(by intro hh; cases hh), hshT.2⟩ fun f => (hG f).pt⟩
    · show (none :: s.tasks).length = (_ :: _ :: cs).length
      simp [h.tasks, hst]
  | recallRet f fs c cs post v hf hst hat =>
    obtain ⟨c0, cs0, hst0, hfo, hd, hal⟩ := h.top hf
    rw [hst] at hst0; cases hst0
    rw [setSlot_eq]
    have hdead : c.st = .dead := by
      obtain ⟨n, hn⟩ := hat
      have := hfo.pt
      rw [hn] at this
      cases post <;> exact this
    have hq : QuietExt s.log (.result f.fid post supercede v :: s.log) := (QuietExt.refl _).cons rfl
    have := h.retop hf hst (g := slotMap v c.over) (slotMap_same _ _)
      (f' := { f with cur := supercede, prev := supercede, status := max f.status supercede, pt := loopPt post })
      (c' := c) (log' := .result f.fid post supercede v :: s.log) rfl rfl (by cases post <;> trivial)
      (hfo.rept hq rfl rfl rfl (by rw [hdead]; exact PtOk.dead _) fun hh => absurd hh (hfo.notSh hat.ne)) rfl
      (fun _ _ _ => ⟨hq.invoked _ _, hq.skipped _ _⟩) (h.old.quiet hq)
    rw [← hst] at this; exact this
  | tickHook f fs c cs g grp hh post hf hst hpt hg hgh =>
    obtain ⟨c0, cs0, hst0, hfo, hd, hal⟩ := h.top hf
    rw [hst] at hst0; cases hst0
    obtain ⟨hkeep, hck, hlt⟩ := getNext_any' hw.s hfo.ctxOk f.fid hg
    have hsome : g.hook.isSome = true := by rw [hgh]; rfl
    have hpt' := hfo.pt
    rw [hpt] at hpt'
    have hst' : PtOk (if post then .inPost hh.nid else .inPre hh.nid) g.ctx.st ∧ g.ctx.st.isPostRecall = false := by
      cases post
      · have := getNext_pre hg hpt'
        rw [if_pos hsome] at this
        rcases this with e | e <;> simp [e, PtOk, CtxSt.isPostRecall]
      · have := getNext_post hg hpt'
        rw [if_pos hsome] at this
        rcases this with e | e <;> simp [e, PtOk, CtxSt.isPostRecall]
    have hnd : ¬ (c.st = .dead ∧ c.locals = none ∧ f.status = 0) := by
      intro hx
      rw [getNext_dead hx.1] at hg
      cases hg; cases hgh
    exact h.retop' hf hst (f' := { f with pt := if post then .inPost hh.nid else .inPre hh.nid, cur := ignored })
      (c' := g.ctx) (log' := logGot f.cid f.fid g s.log) rfl rfl (by cases post <;> trivial)
      (hfo.got hw.s hg f.fid rfl rfl rfl hst'.1 hst'.2 fun hx => absurd hx hnd) hkeep.cid
      (fun cid hne grp => logGot_other g s.log (by rw [hfo.cid]; exact hne) grp) (h.old.logGot hlt)
  | tickOrig f fs c cs g a hf hst hpt hg hgh hns hco hfa =>
    obtain ⟨c0, cs0, hst0, hfo, hd, hal⟩ := h.top hf
    rw [hst] at hst0; cases hst0
    obtain ⟨hkeep, hck, hlt⟩ := getNext_any' hw.s hfo.ctxOk f.fid hg
    have hnone : ¬ g.hook.isSome = true := by rw [hgh]; simp
    have hpt' := hfo.pt
    rw [hpt] at hpt'
    have hst' : PtOk .inOrig g.ctx.st ∧ g.ctx.st.isPostRecall = false := by
      have := getNext_pre hg hpt'
      rw [if_neg hnone] at this
      rcases this with e | e | ⟨e, _⟩
      · simp [e, PtOk, CtxSt.isPostRecall]
      · simp [e, PtOk, CtxSt.isPostRecall]
      · have := hfo.pr e
        rw [hkeep.callOrig, this] at hco; cases hco
    have hq : QuietExt (logGot f.cid f.fid g s.log) (.origCall f.cid f.fid a :: logGot f.cid f.fid g s.log) := (QuietExt.refl _).cons rfl
    have hfo2 := hfo.got (f' := { f with pt := .inOrig }) hw.s hg f.fid rfl rfl rfl hst'.1 hst'.2 (fun hx => ⟨hx.2.2, Or.inr (Or.inl rfl)⟩)
    exact h.retop' hf hst (f' := { f with pt := .inOrig })
      (c' := g.ctx) (log' := .origCall f.cid f.fid a :: logGot f.cid f.fid g s.log) rfl rfl trivial
      (hfo2.congr fun hc => hc.congr (fun g => hq.invoked _ g) (fun g => hq.skipped _ g)) hkeep.cid
      (fun cid hne grp => by
        rw [hq.invoked, hq.skipped]
        exact logGot_other g s.log (by rw [hfo.cid]; exact hne) grp) ((h.old.logGot hlt).quiet hq)
  | tickSkip f fs c cs g hf hst hpt hg hgh hns =>
    obtain ⟨c0, cs0, hst0, hfo, hd, hal⟩ := h.top hf
    rw [hst] at hst0; cases hst0
    obtain ⟨hkeep, hck, hlt⟩ := getNext_any' hw.s hfo.ctxOk f.fid hg
    have hnone : ¬ g.hook.isSome = true := by rw [hgh]; simp
    have hpt' := hfo.pt
    rw [hpt] at hpt'
    have hst' : PtOk .postLoop g.ctx.st ∧ g.ctx.st.isPostRecall = false := by
      have := getNext_pre hg hpt'
      rw [if_neg hnone] at this
      rcases this with e | e | ⟨_, e | e⟩ <;> simp [e, PtOk, CtxSt.isPostRecall]
    exact h.retop' hf hst (f' := { f with pt := .postLoop, orig := f.over, prev := ignored })
      (c' := g.ctx) (log' := logGot f.cid f.fid g s.log) rfl rfl trivial
      (hfo.got hw.s hg f.fid rfl rfl rfl hst'.1 hst'.2 fun hx => ⟨hx.2.2, Or.inr (Or.inr rfl)⟩) hkeep.cid
      (fun cid hne grp => logGot_other g s.log (by rw [hfo.cid]; exact hne) grp) (h.old.logGot hlt)
  | tickRet f fs c cs g v s2 hf hst hpt hg hgh hv hs2 =>
    obtain ⟨c0, cs0, hst0, hfo, hd, hal⟩ := h.top hf
    rw [hst] at hst0; cases hst0
    obtain ⟨hkeep, hck, hlt⟩ := getNext_any' hw.s hfo.ctxOk f.fid hg
    obtain ⟨p1, p2, p3, p4, p5, p6⟩ := popCtx_spec { s with log := logGot f.cid f.fid g s.log } cs
    rw [← hs2] at p1 p2 p3 p4 p5 p6
    have hq : QuietExt (logGot f.cid f.fid g s.log) (.ret f.cid f.fid v :: s2.log) := p6.cons rfl
    have hshape := h.shape; have hshT := h.shTop; have hfid := h.fid; have hflt := h.flt; have hcu := h.cuniq; have hclt := h.clt
    have htk := h.tasks
    rw [hf] at hshape hshT hfid hflt
    rw [hst] at hcu hclt htk
    rw [List.pairwise_cons] at hcu
    have hal1 : Al s.reg (logGot f.cid f.fid g s.log) (hookFrames fs) cs := by
      apply hal.congr
      intro d hd' hdo
      by_cases hdc : d.cid = c.cid
      · exact Or.inl (hcu.1 d hd' hdc.symm)
      · have := fun grp => logGot_other (cid := f.cid) (fid := f.fid) g s.log (by rw [hfo.cid]; exact hdc) grp
        exact hdo.congr (fun g => (this g).1) (fun g => (this g).2)
    obtain ⟨hb1, hb2⟩ := handBack_al v (hal1.quiet hq)
    obtain ⟨ht1, ht2⟩ := handBack_top v hshape.2 hshT.2
    refine ⟨by rw [p1]; exact h.reg, ?_, ?_, ?_, ?_, ?_, ?_, ?_, ht1, ht2, ?_⟩
    · show Al s2.reg _ _ s2.stack
      rw [p1, p2]; exact hb1
    · show (hookFrames (handBack v fs)).Pairwise _
      rw [fidP, hb2, ← fidP]
      exact (List.pairwise_cons.1 hfid).2
    · show ∀ x ∈ hookFrames (handBack v fs), x.fid < s2.next
      intro x hx
      rw [p4]
      have : x.fid ∈ (hookFrames fs).map Frame.fid := by rw [← hb2]; exact List.mem_map_of_mem hx
      obtain ⟨y, hy, e⟩ := List.mem_map.1 this
      rw [← e]; exact hflt y (List.mem_cons_of_mem _ hy)
    · show ∀ d ∈ s2.stack, d.cid < s2.next
      rw [p2, p4]
      intro d hd'; exact hclt d (List.mem_cons_of_mem _ hd')
    · show ∀ cid, s2.next ≤ cid → _
      rw [p4]
      intro cid hc grp
      rw [hq.invoked, hq.skipped]
      have hne : cid ≠ f.cid := by
        have := hclt c (List.mem_cons_self ..)
        have hc : s.next ≤ cid := hc
        rw [hfo.cid]; omega
      rw [(logGot_other g s.log hne grp).1, (logGot_other g s.log hne grp).2]
      exact h.llt cid hc grp
    · show s2.stack.Pairwise _
      rw [p2]; exact hcu.2
    · show Old s2.reg _
      rw [p1]; exact (h.old.logGot hlt).quiet hq
    · show s2.tasks.length = s2.stack.length
      rw [p2, p5]
      show s.tasks.tail.length = cs.length
      rw [List.length_tail, htk]; simp
  | handlerRet v f fs c cs post hf hst hat =>
    obtain ⟨c0, cs0, hst0, hfo, hd, hal⟩ := h.top hf
    rw [hst] at hst0; cases hst0
    have hq : QuietExt s.log (.result f.fid post f.cur v :: s.log) := (QuietExt.refl _).cons rfl
    let f1 : Frame := { f with prev := f.cur, status := max f.status f.cur, pt := loopPt post }
    have hp : PtOk f1.pt c.st := by
      obtain ⟨n, hn⟩ := hat
      have := hfo.pt
      rw [hn] at this
      cases post
      · rcases this with e | e | e <;> rw [e] <;> simp [f1, loopPt, PtOk]
      · rcases this with e | e | e <;> rw [e] <;> simp [f1, loopPt, PtOk]
    have hfo1 := hfo.rept (f' := f1) hq rfl rfl rfl hp fun hh => absurd hh (hfo.notSh hat.ne)
    have hsl : ∃ G : Frame → Frame, (∀ f, SameF f (G f)) ∧
        (if f.cur ≥ override then setSlot (.hook f1 :: fs) v c.over else .hook f1 :: fs) = (Fr.hook f1 :: fs).map (frMap G) := by
      split
      · exact ⟨slotMap v c.over, slotMap_same _ _, setSlot_eq _ _ _⟩
      · exact ⟨id, SameF.refl, (frMap_id _).symm⟩
    obtain ⟨G, hG, heq⟩ := hsl
    show MInv E { s with
      frames := (if f.cur ≥ override then setSlot (.hook f1 :: fs) v c.over else .hook f1 :: fs)
      log := .result f.fid post f.cur v :: s.log }
    rw [heq]
    have := h.retop hf hst (g := G) hG (f' := f1) (c' := c) (log' := .result f.fid post f.cur v :: s.log) rfl rfl
      (by cases post <;> trivial) hfo1 rfl (fun _ _ _ => ⟨hq.invoked _ _, hq.skipped _ _⟩) (h.old.quiet hq)
    rw [← hst] at this; exact this
  | origRet v f fs hf hpt =>
    obtain ⟨c, cs, hst, hfo, hd, hal⟩ := h.top hf
    have hq : QuietExt s.log (.origRet f.fid v :: s.log) := (QuietExt.refl _).cons rfl
    have hp : PtOk .postLoop c.st := by
      have := hfo.pt
      rw [hpt] at this
      rcases this with e | e <;> rw [e] <;> simp [PtOk]
    have hst0 : (c.st = .dead ∧ c.locals = none) → f.status = 0 := by
      intro hx
      rcases hfo.kind with k | k
      · exact k.2.2.1
      · rw [hx.2] at k; cases k.1
    have := h.retop' hf hst (f' := { f with orig := v, prev := ignored, pt := .postLoop }) (c' := c)
      (log' := .origRet f.fid v :: s.log) rfl rfl trivial
      (hfo.rept hq rfl rfl rfl hp fun hx => ⟨hst0 hx, Or.inr (Or.inr rfl)⟩) rfl
      (fun _ _ _ => ⟨hq.invoked _ _, hq.skipped _ _⟩) (h.old.quiet hq)
    rw [← hst] at this; exact this
  | resolve force =>
    have hq := resolve_log force s
    exact ⟨h.reg, h.al.quiet hq, h.fid, h.flt, h.clt, fun cid hc g => by rw [hq.invoked, hq.skipped]; exact h.llt cid hc g,
      h.cuniq, h.old.quiet hq, h.shape, h.shTop, h.tasks⟩

end Verif.SH
