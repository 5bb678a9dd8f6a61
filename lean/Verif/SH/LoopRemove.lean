import Verif.SH.LoopPos
/-
Removal of hooks under running hook loops: the notifications keep every context valid.
-/
namespace Verif.SH

/-- All notifications on one context. -/
def noteAll (ns : List Note) (c : Ctx) : Ctx := ns.foldl (fun c n => noteCtx n c) c

theorem noteAll_append (a b : List Note) (c : Ctx) : noteAll (a ++ b) c = noteAll b (noteAll a c) := by
  unfold noteAll; rw [List.foldl_append]

theorem noteAll_cons (n : Note) (a : List Note) (c : Ctx) : noteAll (n :: a) c = noteAll a (noteCtx n c) := rfl

theorem noteAll_nil (c : Ctx) : noteAll [] c = c := rfl

/-- What notifications never change. -/
structure NoteFrame (c c' : Ctx) : Prop where
  cid : c'.cid = c.cid
  vfn : c'.vfn = c.vfn
  locals : c'.locals = c.locals
  this : c'.this = c.this
  ifacePtr : c'.ifacePtr = c.ifacePtr
  orig : c'.orig = c.orig
  over : c'.over = c.over
  callOrig : c'.callOrig = c.callOrig
  st : c'.st = c.st ∨ c'.st = .dead
  iface : c'.iface = c.iface ∨ c'.iface = none

theorem NoteFrame.refl (c : Ctx) : NoteFrame c c :=
  ⟨rfl, rfl, rfl, rfl, rfl, rfl, rfl, rfl, Or.inl rfl, Or.inl rfl⟩

theorem NoteFrame.trans {a b c : Ctx} (h1 : NoteFrame a b) (h2 : NoteFrame b c) : NoteFrame a c := by
  refine ⟨h2.cid.trans h1.cid, h2.vfn.trans h1.vfn, h2.locals.trans h1.locals, h2.this.trans h1.this,
    h2.ifacePtr.trans h1.ifacePtr, h2.orig.trans h1.orig, h2.over.trans h1.over, h2.callOrig.trans h1.callOrig, ?_, ?_⟩
  · rcases h2.st with h | h
    · rw [h]; exact h1.st
    · exact Or.inr h
  · rcases h2.iface with h | h
    · rw [h]; exact h1.iface
    · exact Or.inr h

theorem noteCtx_frame (n : Note) (c : Ctx) : NoteFrame c (noteCtx n c) := by
  unfold noteCtx
  cases n <;> dsimp only
  · split
    · exact ⟨rfl, rfl, rfl, rfl, rfl, rfl, rfl, rfl, Or.inl rfl, Or.inl rfl⟩
    · exact NoteFrame.refl c
  · split
    · exact ⟨rfl, rfl, rfl, rfl, rfl, rfl, rfl, rfl, Or.inl rfl, Or.inr rfl⟩
    · exact NoteFrame.refl c
  · split
    · exact ⟨rfl, rfl, rfl, rfl, rfl, rfl, rfl, rfl, Or.inr rfl, Or.inl rfl⟩
    · exact NoteFrame.refl c
  · exact NoteFrame.refl c

theorem noteAll_frame (ns : List Note) (c : Ctx) : NoteFrame c (noteAll ns c) := by
  induction ns generalizing c with
  | nil => exact NoteFrame.refl c
  | cons n ns ih => exact (noteCtx_frame n c).trans (ih _)

theorem prevOf_eq {p : Hook → Bool} (X Y : List Hook) (h : Hook) (acc : Option Nat) (hX : ∀ x ∈ X, p x = false)
    (hh : p h = true) : prevOf p acc (X ++ h :: Y) = if X = [] then acc else lastNid X := by
  induction X generalizing acc with
  | nil => simp [prevOf, hh]
  | cons x xs ih =>
    have hx : p x = false := hX x (List.mem_cons_self ..)
    rw [List.cons_append]
    show (if p x = true then acc else prevOf p (some x.nid) (xs ++ h :: Y)) = _
    rw [if_neg (by simp [hx]), ih _ (fun y hy => hX y (List.mem_cons_of_mem _ hy)), if_neg (c := x :: xs = []) (by simp)]
    split
    · next he => subst he; rfl
    · next he => unfold lastNid; rw [List.getLast?_cons, ]; cases hl : xs.getLast? with
      | none => simp at hl; exact absurd hl he
      | some z => simp

theorem lastNid_nil : lastNid [] = none := rfl

theorem lastNid_append_singleton (A : List Hook) (h : Hook) : lastNid (A ++ [h]) = some h.nid := by
  unfold lastNid; simp

theorem lastNid_append {A B : List Hook} (hB : B ≠ []) : lastNid (A ++ B) = lastNid B := by
  unfold lastNid
  rw [List.getLast?_append]
  cases hl : B.getLast? with
  | none => simp at hl; exact absurd hl hB
  | some z => simp

theorem lastNid_mem {A : List Hook} {n : Nat} (h : lastNid A = some n) : ∃ a ∈ A, a.nid = n := by
  unfold lastNid at h
  cases hl : A.getLast? with
  | none => rw [hl] at h; cases h
  | some z => rw [hl] at h; cases h; exact ⟨z, List.mem_of_getLast? hl, rfl⟩

/-- Erasing a node keeps a position valid, the iterator stepping back from the erased node. -/
theorem Pos.erase {log : List Ev} {cid : Nat} {g : Grp} {X Y : List Hook} {h : Hook} {pos : Option Nat}
    (hs : (X ++ h :: Y).Pairwise (fun a b => a.nid < b.nid)) (hp : Pos log cid g (X ++ h :: Y) pos) :
    Pos log cid g (X ++ Y) (if pos = some h.nid then lastNid X else pos) := by
  obtain ⟨A, B, e1, e2, e3, e4⟩ := hp
  rw [List.pairwise_append, List.pairwise_cons] at hs
  obtain ⟨hs1, ⟨hs2, hs3⟩, hs4⟩ := hs
  rcases List.append_eq_append_iff.1 e1 with ⟨B1, q1, q2⟩ | ⟨B1, q1, q2⟩
  · -- A = X ++ B1, h :: Y = B1 ++ B
    cases B1 with
    | nil =>
      simp at q1 q2
      refine ⟨X, Y, rfl, ?_, ?_, ?_⟩
      · rw [if_neg]
        · rw [e2, q1]
        · rw [e2, q1]; intro hc
          obtain ⟨a, ha, hn⟩ := lastNid_mem hc
          have := hs4 a ha h (List.mem_cons_self ..); omega
      · intro n hn b hb; exact e3 n hn b (q2 ▸ List.mem_cons_of_mem _ hb)
      · intro a ha; exact e4 a (q1 ▸ ha)
    | cons x B1 =>
      simp at q2
      obtain ⟨rfl, q2⟩ := q2
      refine ⟨X ++ B1, B, by rw [q2, List.append_assoc], ?_, e3, ?_⟩
      · rw [e2, q1]
        by_cases hB : B1 = []
        · subst hB; rw [lastNid_append_singleton, if_pos rfl, List.append_nil]
        · have e : X ++ h :: B1 = (X ++ [h]) ++ B1 := by simp
          rw [e, lastNid_append hB, lastNid_append hB, if_neg]
          intro hc
          obtain ⟨a, ha, hn⟩ := lastNid_mem hc
          have := hs2 a (q2 ▸ List.mem_append_left _ ha); omega
      · intro a ha
        apply e4; rw [q1]
        rcases List.mem_append.1 ha with ha | ha
        · exact List.mem_append_left _ ha
        · exact List.mem_append_right _ (List.mem_cons_of_mem _ ha)
  · -- X = A ++ B1, B = B1 ++ h :: Y
    refine ⟨A, B1 ++ Y, by rw [q1, List.append_assoc], ?_, ?_, e4⟩
    · rw [if_neg]
      · exact e2
      · rw [e2]; intro hc
        obtain ⟨a, ha, hn⟩ := lastNid_mem hc
        have := hs4 a (by rw [q1]; exact List.mem_append_left _ ha) h (List.mem_cons_self ..); omega
    · intro n hn b hb
      apply e3 n hn
      rw [q2]
      rcases List.mem_append.1 hb with hb | hb
      · exact List.mem_append_left _ hb
      · exact List.mem_append_right _ (List.mem_cons_of_mem _ hb)

/-- A change of the registry that shrinks record `v` to `v'`, seen by a context on it. -/
theorem LiveCtx.shrink {r r' : Reg} {log : List Ev} {c c' : Ctx} {v v' : Vfn} (h : LiveCtx r log c v)
    (hv' : v' ∈ r'.vfns) (ho : v'.oid = v.oid) (hf : NoteFrame c c') (hst : c'.st = c.st)
    (hif : ∀ ifo, c'.iface = some ifo → ∃ j ∈ v'.ifaces, j.oid = ifo)
    (hsub : ∀ j' ∈ v'.ifaces, ∃ j ∈ v.ifaces, j.oid = j'.oid ∧ j.ptr = j'.ptr ∧
      ∀ g s, PosAt log c.cid g v j s c.iter → PosAt log c.cid g v' j' s c'.iter)
    (huniq : (v.ifaces.map Iface.oid).Nodup) : LiveCtx r' log c' v' := by
  have hif' : ∀ ifo, c'.iface = some ifo → c.iface = some ifo := by
    intro ifo hc
    rcases hf.iface with h1 | h1
    · rw [← h1]; exact hc
    · rw [h1] at hc; cases hc
  refine ⟨hv', by rw [hf.vfn, h.vfn, ho], by rw [hf.this]; exact h.this, ?_, ?_⟩
  · intro ifo hc
    obtain ⟨j', hj', e⟩ := hif ifo hc
    obtain ⟨j, hj, k1, k2, _⟩ := hsub j' hj'
    obtain ⟨i, hi, q1, q2⟩ := h.iface ifo (hif' ifo hc)
    have : i = j := nodup_key_inj huniq hi hj (by rw [q1, k1, e])
    subst this
    exact ⟨j', hj', e, by rw [← k2, q2, hf.this]⟩
  · have hit := h.it
    have obj : ∀ g s, (∀ i ∈ v.ifaces, c.iface = some i.oid → PosAt log c.cid g v i s c.iter) →
        ∀ i ∈ v'.ifaces, c'.iface = some i.oid → PosAt log c.cid g v' i s c'.iter := by
      intro g s hp j' hj' hc
      obtain ⟨j, hj, k1, k2, k3⟩ := hsub j' hj'
      exact k3 g s (hp j hj (by rw [k1]; exact hif' _ hc))
    have vp : ∀ g s, (∀ i ∈ v.ifaces, i.ptr = 0 → PosAt log c.cid g v i s c.iter) →
        ∀ i ∈ v'.ifaces, i.ptr = 0 → PosAt log c.cid g v' i s c'.iter := by
      intro g s hp j' hj' h0
      obtain ⟨j, hj, k1, k2, k3⟩ := hsub j' hj'
      exact k3 g s (hp j hj (k2.trans h0))
    unfold ItOk at *
    rw [hst, hf.cid]
    split at hit
    · exact hit
    · exact ⟨obj _ _ hit.1, hit.2⟩
    · exact ⟨obj _ _ hit.1, hit.2⟩
    · exact ⟨vp _ _ hit.1, hit.2⟩
    · exact ⟨vp _ _ hit.1, hit.2⟩
    · exact hit
    · exact ⟨obj _ _ hit.1, hit.2⟩
    · exact ⟨obj _ _ hit.1, hit.2⟩
    · exact vp _ _ hit
    · exact vp _ _ hit
    · exact hit
    · exact hit
    · exact hit

theorem noteCtx_hook_iter {void ifo nid : Nat} {post : Bool} {prev : Option Nat} {c : Ctx}
    {o j : Nat} {s : Bool} {pos : Option Nat} (hc : c.iter = .at o j s pos)
    (hne : ¬ (o = void ∧ j = ifo ∧ s = post)) : noteCtx (.hookRemoved void ifo post nid prev) c = c := by
  unfold noteCtx
  dsimp only
  rw [if_neg]
  rw [hc]; intro h; cases h; exact hne ⟨rfl, rfl, rfl⟩

theorem revertAndRemoveVfn_vfns {E : Env} {r r' : Reg} {v : Vfn} {ns : List Note}
    (h : revertAndRemoveVfn E r v = .ok (r', ns)) :
    r'.vfns = r.vfns.filter (·.oid != v.oid) ∧ ∀ n ∈ ns, ∃ o, n = Note.cleanup o := by
  have hn : ∀ n ∈ (if v.thunk then [Note.cleanup v.oid] else []), ∃ o, n = Note.cleanup o := by
    intro n hn
    split at hn
    · simp at hn; exact ⟨_, hn⟩
    · cases hn
  unfold revertAndRemoveVfn at h
  cases hh : v.hms with
  | nil =>
    rw [hh] at h
    simp only [bind, Except.bind] at h
    cases h
    refine ⟨?_, hn⟩
    show (revert E r v).vfns.filter _ = _
    rw [revert_vfns]
  | cons o os =>
    rw [hh] at h
    simp only [bind, Except.bind] at h
    cases hd : decrRef (revert E r v) o v.oid with
    | error e => rw [hd] at h; cases h
    | ok r2 =>
      rw [hd] at h
      cases h
      refine ⟨?_, hn⟩
      show r2.vfns.filter _ = _
      rw [decrRef_vfns hd, revert_vfns]

/-- Removing one hook: contexts stay valid under the notifications. -/
theorem removeHookById_ctx {E : Env} {mem0 : Addr → Addr} {r r' : Reg} {id : Int} {b : Bool} {ns : List Note}
    (hw : RegInv E mem0 r) (h : removeHookById E r id = .ok (r', b, ns)) {log : List Ev} {c : Ctx}
    (hc : CtxOk r log c) : CtxOk r' log (noteAll ns c) := by
  rcases hc with hd | ⟨w, hl⟩
  · left
    rcases (noteAll_frame ns c).st with h | h
    · rw [h, hd]
    · exact h
  cases hq : idQuery r.entries id with
  | none => rw [removeHookById_none E hq] at h; cases h; exact Or.inr ⟨w, hl⟩
  | some e =>
    obtain ⟨v, i, hk, hloc⟩ := idLoc_of_query hw.toWInv hq
    have hV := hw.s.vi v hloc.hv
    have hnd : ((i.side e.post).map Hook.id).Nodup := by
      have := hw.ids.nodup v.ptr i.ptr e.post
      rwa [view_mem hw.s hloc.hv, viewV_mem hV hloc.hi] at this
    have f3 : (i.side e.post).find? (·.id == id) = some hk := find?_key' hnd hloc.hh hloc.hid
    obtain ⟨X, Y, hXY, hXn, hker⟩ : ∃ X Y, i.side e.post = X ++ hk :: Y ∧ (∀ x ∈ X, (x.id == id) = false) ∧
        (i.side e.post).eraseP (·.id == id) = X ++ Y := by
      rw [List.find?_eq_some_iff_append] at f3
      obtain ⟨hpk, X, Y, h1, h2⟩ := f3
      refine ⟨X, Y, h1, fun x hx => by simpa using h2 x hx, ?_⟩
      rw [h1, List.eraseP_append_right _ (fun x hx => by simpa using h2 x hx), List.eraseP_cons_of_pos (a := hk) (p := fun x : Hook => x.id == id) hpk]
    have hprev : prevOf (·.id == id) none (i.side e.post) = lastNid X := by
      rw [hXY, prevOf_eq X Y hk none hXn (by simp [hloc.hid])]
      split
      · next h => subst h; rfl
      · rfl
    have hsort := hV.sorted i hloc.hi e.post
    rw [hXY] at hsort
    rw [removeHookById_eq hw.toWInv hq hloc, hker, hprev] at h
    dsimp only at h
    -- the first notification at the affected list
    have hn1 : ∀ g it, it = c.iter → PosAt log c.cid g v i e.post it → ∃ pos, (noteCtx (.hookRemoved v.oid i.oid e.post hk.nid (lastNid X)) c).iter =
        .at v.oid i.oid e.post pos ∧ Pos log c.cid g (X ++ Y) pos := by
      rintro g it hit ⟨pos, q1, q2⟩
      rw [hXY] at q2
      rw [hit] at q1
      refine ⟨_, ?_, q2.erase hsort⟩
      unfold noteCtx
      dsimp only
      rw [q1]
      by_cases hp : pos = some hk.nid
      · subst hp; rw [if_pos rfl, if_pos rfl]
      · rw [if_neg (by intro hc; cases hc; exact hp rfl), if_neg hp, q1]
    have hn1o : ∀ g s u j, PosAt log c.cid g u j s c.iter → ¬ (u.oid = v.oid ∧ j.oid = i.oid ∧ s = e.post) →
        (noteCtx (.hookRemoved v.oid i.oid e.post hk.nid (lastNid X)) c).iter = c.iter := by
      rintro g s u j ⟨pos, q1, _⟩ hne
      rw [noteCtx_hook_iter q1 hne]
    have hst1 : (noteCtx (.hookRemoved v.oid i.oid e.post hk.nid (lastNid X)) c).st = c.st := by
      unfold noteCtx; dsimp only; split <;> rfl
    have hif1 : (noteCtx (.hookRemoved v.oid i.oid e.post hk.nid (lastNid X)) c).iface = c.iface := by
      unfold noteCtx; dsimp only; split <;> rfl
    have hW := hw.s.vi w hl.mem
    split at h
    · next hemp =>
      -- the interface disappears
      have hst2 : (noteAll [.hookRemoved v.oid i.oid e.post hk.nid (lastNid X), .ifaceRemoved v.oid i.oid] c).st = c.st := by
        rw [noteAll_cons, noteAll_cons, noteAll_nil]; show (noteCtx _ _).st = _
        rw [← hst1]; generalize noteCtx (.hookRemoved v.oid i.oid e.post hk.nid (lastNid X)) c = c1
        unfold noteCtx; dsimp only; split <;> rfl
      have hit2 : (noteAll [.hookRemoved v.oid i.oid e.post hk.nid (lastNid X), .ifaceRemoved v.oid i.oid] c).iter =
          (noteCtx (.hookRemoved v.oid i.oid e.post hk.nid (lastNid X)) c).iter := by
        rw [noteAll_cons, noteAll_cons, noteAll_nil]; show (noteCtx _ _).iter = _
        generalize noteCtx (.hookRemoved v.oid i.oid e.post hk.nid (lastNid X)) c = c1
        unfold noteCtx; dsimp only; split <;> rfl
      have hif2 : ∀ ifo, (noteAll [.hookRemoved v.oid i.oid e.post hk.nid (lastNid X), .ifaceRemoved v.oid i.oid] c).iface = some ifo →
          c.iface = some ifo ∧ ¬ (c.vfn = some v.oid ∧ ifo = i.oid) := by
        intro ifo hh
        rw [noteAll_cons, noteAll_cons, noteAll_nil] at hh
        have hvf : (noteCtx (.hookRemoved v.oid i.oid e.post hk.nid (lastNid X)) c).vfn = c.vfn := (noteCtx_frame _ _).vfn
        generalize noteCtx (.hookRemoved v.oid i.oid e.post hk.nid (lastNid X)) c = c1 at hh hif1 hvf
        have hh : (noteCtx (.ifaceRemoved v.oid i.oid) c1).iface = some ifo := hh
        unfold noteCtx at hh; dsimp only at hh
        split at hh
        · cases hh
        · next hne =>
          rw [hif1] at hh
          refine ⟨hh, ?_⟩
          rintro ⟨h1, rfl⟩
          exact hne ⟨hvf.trans h1, by rw [hif1, hh]⟩
      split at h
      · -- the function record disappears as well
        next hif0 =>
        simp only [bind, Except.bind] at h
        split at h
        · cases h
        · next y hy =>
          obtain ⟨hvf, hns⟩ := revertAndRemoveVfn_vfns (ns := y.2) hy
          have hclean : ∀ (l : List Note) c, (∀ n ∈ l, ∃ o, n = Note.cleanup o) → noteAll l c = c := by
            intro l
            induction l with
            | nil => intro c _; rfl
            | cons n l ih =>
              intro c hl
              obtain ⟨o, rfl⟩ := hl n (List.mem_cons_self ..)
              rw [noteAll_cons]
              exact ih _ (fun n hn => hl n (List.mem_cons_of_mem _ hn))
          cases h
          rw [show [Note.hookRemoved v.oid i.oid e.post hk.nid (lastNid X), .ifaceRemoved v.oid i.oid, .vfnRemoved v.oid] ++ y.2 =
            [Note.hookRemoved v.oid i.oid e.post hk.nid (lastNid X), .ifaceRemoved v.oid i.oid] ++ ([Note.vfnRemoved v.oid] ++ y.2) from rfl,
            noteAll_append, noteAll_append, hclean _ _ hns]
          have hvf2 := (noteAll_frame [Note.hookRemoved v.oid i.oid e.post hk.nid (lastNid X), .ifaceRemoved v.oid i.oid] c).vfn
          have hfr2 := noteAll_frame [Note.hookRemoved v.oid i.oid e.post hk.nid (lastNid X), .ifaceRemoved v.oid i.oid] c
          generalize noteAll [Note.hookRemoved v.oid i.oid e.post hk.nid (lastNid X), .ifaceRemoved v.oid i.oid] c = c2 at *
          by_cases hwv : w.oid = v.oid
          · left
            rw [noteAll_cons, noteAll_nil]
            unfold noteCtx; dsimp only
            rw [if_pos (by rw [hvf2, hl.vfn, hwv])]
          · right
            have e3 : noteAll [Note.vfnRemoved v.oid] c2 = c2 := by
              rw [noteAll_cons, noteAll_nil]
              unfold noteCtx; dsimp only
              rw [if_neg (by rw [hvf2, hl.vfn]; intro hc; exact hwv (Option.some.inj hc))]
            rw [e3]
            refine ⟨w, hl.shrink (v' := w) ?_ rfl hfr2 hst2 ?_ ?_ hW.ioid⟩
            · show w ∈ y.1.vfns
              rw [hvf, List.mem_filter]
              exact ⟨(mem_setVfn (r := { r with deleted := hk.nid :: r.deleted }) (v' := { v with ifaces := v.ifaces.filter (·.oid != i.oid) }) hloc.hv rfl w).2 (Or.inr ⟨hl.mem, hwv⟩), by simpa using hwv⟩
            · intro ifo hh
              obtain ⟨j, hj, k1, _⟩ := hl.iface ifo (hif2 ifo hh).1
              exact ⟨j, hj, k1⟩
            · intro j hj
              refine ⟨j, hj, rfl, rfl, ?_⟩
              intro g s hp
              rw [hit2, hn1o g s w j hp (fun hc => hwv hc.1)]
              exact hp
      · -- the function record stays
        cases h
        right
        by_cases hwv : w.oid = v.oid
        · have : w = v := nodup_key_inj hw.s.void hl.mem hloc.hv hwv
          subst this
          refine ⟨{ w with ifaces := w.ifaces.filter (·.oid != i.oid) }, hl.shrink ?_ rfl (noteAll_frame _ _) hst2 ?_ ?_ hW.ioid⟩
          · exact (mem_setVfn (r := { r with deleted := hk.nid :: r.deleted }) (v' := { w with ifaces := w.ifaces.filter (·.oid != i.oid) }) hloc.hv rfl _).2 (Or.inl rfl)
          · intro ifo hh
            obtain ⟨k1, k2⟩ := hif2 ifo hh
            obtain ⟨j, hj, q1, _⟩ := hl.iface ifo k1
            refine ⟨j, List.mem_filter.2 ⟨hj, ?_⟩, q1⟩
            have : j.oid ≠ i.oid := fun hc => k2 ⟨hl.vfn, by rw [← q1, hc]⟩
            simpa using this
          · intro j hj
            rw [List.mem_filter] at hj
            refine ⟨j, hj.1, rfl, rfl, ?_⟩
            intro g s hp
            have hne : j.oid ≠ i.oid := by simpa using hj.2
            rw [hit2, hn1o g s w j hp (fun hc => hne hc.2.1)]
            exact hp
        · refine ⟨w, hl.shrink (v' := w) ?_ rfl (noteAll_frame _ _) hst2 ?_ ?_ hW.ioid⟩
          · exact (mem_setVfn (r := { r with deleted := hk.nid :: r.deleted }) (v' := { v with ifaces := v.ifaces.filter (·.oid != i.oid) }) hloc.hv rfl w).2 (Or.inr ⟨hl.mem, hwv⟩)
          · intro ifo hh
            obtain ⟨j, hj, k1, _⟩ := hl.iface ifo (hif2 ifo hh).1
            exact ⟨j, hj, k1⟩
          · intro j hj
            refine ⟨j, hj, rfl, rfl, ?_⟩
            intro g s hp
            rw [hit2, hn1o g s w j hp (fun hc => hwv hc.1)]
            exact hp
    · -- only the list shrinks
      cases h
      right
      by_cases hwv : w.oid = v.oid
      · have : w = v := nodup_key_inj hw.s.void hl.mem hloc.hv hwv
        subst this
        have hmi := fun x => mem_setIface hloc.hi (i.setSide_oid e.post (X ++ Y)) x
        refine ⟨w.setIface (i.setSide e.post (X ++ Y)), hl.shrink ?_ rfl (noteAll_frame _ _) hst1 ?_ ?_ hW.ioid⟩
        · exact (mem_setVfn (r := { r with deleted := hk.nid :: r.deleted }) (v' := w.setIface (i.setSide e.post (X ++ Y))) hloc.hv rfl _).2 (Or.inl rfl)
        · intro ifo hh
          obtain ⟨j, hj, k1, _⟩ := hl.iface ifo (hif1 ▸ hh)
          by_cases hji : j.oid = i.oid
          · exact ⟨_, (hmi _).2 (Or.inl rfl), by rw [Iface.setSide_oid, ← hji, k1]⟩
          · exact ⟨j, (hmi _).2 (Or.inr ⟨hj, by rw [Iface.setSide_oid]; exact hji⟩), k1⟩
        · intro j' hj'
          rcases (hmi j').1 hj' with rfl | ⟨hj, hne⟩
          · refine ⟨i, hloc.hi, (Iface.setSide_oid ..).symm, (Iface.setSide_ptr ..).symm, ?_⟩
            intro g s hp
            by_cases hs : s = e.post
            · subst hs
              obtain ⟨pos, q1, q2⟩ := hn1 g _ rfl hp
              refine ⟨pos, ?_, ?_⟩
              · rw [Iface.setSide_oid]; exact q1
              · rw [Iface.side_setSide, if_pos rfl]; exact q2
            · have : (noteAll [Note.hookRemoved w.oid i.oid e.post hk.nid (lastNid X)] c).iter = c.iter :=
                hn1o g s w i hp (fun hc => hs hc.2.2)
              obtain ⟨pos, q1, q2⟩ := hp
              refine ⟨pos, ?_, ?_⟩
              · rw [this, Iface.setSide_oid]; exact q1
              · rw [Iface.side_setSide, if_neg hs]; exact q2
          · refine ⟨j', hj, rfl, rfl, ?_⟩
            intro g s hp
            have hne' : j'.oid ≠ i.oid := by rw [Iface.setSide_oid] at hne; exact hne
            have : (noteAll [Note.hookRemoved w.oid i.oid e.post hk.nid (lastNid X)] c).iter = c.iter :=
              hn1o g s w j' hp (fun hc => hne' hc.2.1)
            rw [this]; exact hp
      · refine ⟨w, hl.shrink (v' := w) ?_ rfl (noteAll_frame _ _) hst1 ?_ ?_ hW.ioid⟩
        · exact (mem_setVfn (r := { r with deleted := hk.nid :: r.deleted }) (v' := v.setIface (i.setSide e.post (X ++ Y))) hloc.hv rfl w).2 (Or.inr ⟨hl.mem, hwv⟩)
        · intro ifo hh
          obtain ⟨j, hj, k1, _⟩ := hl.iface ifo (hif1 ▸ hh)
          exact ⟨j, hj, k1⟩
        · intro j hj
          refine ⟨j, hj, rfl, rfl, ?_⟩
          intro g s hp
          have : (noteAll [Note.hookRemoved v.oid i.oid e.post hk.nid (lastNid X)] c).iter = c.iter :=
            hn1o g s w j hp (fun hc => hwv hc.1)
          rw [this]; exact hp

theorem removeHookById_inv {E : Env} {mem0 : Addr → Addr} {r r' : Reg} {id : Int} {b : Bool} {ns : List Note}
    (hw : RegInv E mem0 r) (h : removeHookById E r id = .ok (r', b, ns)) : RegInv E mem0 r' := by
  cases hq : idQuery r.entries id with
  | none => rw [removeHookById_none E hq] at h; cases h; exact hw
  | some e =>
    obtain ⟨r2, ns2, _, g1, g2, _⟩ := removeHookById_spec hw hq
    rw [g1] at h; cases h; exact g2

theorem removeIds_ctx {E : Env} {mem0 : Addr → Addr} (ids : List Int) {r r' : Reg} {b : Bool} {ns : List Note}
    (hw : RegInv E mem0 r) (h : removeIds E r ids = .ok (r', b, ns)) {log : List Ev} {c : Ctx}
    (hc : CtxOk r log c) : CtxOk r' log (noteAll ns c) := by
  induction ids generalizing r r' b ns c with
  | nil => cases h; exact hc
  | cons id ids ih =>
    unfold removeIds at h
    simp only [bind, Except.bind] at h
    split at h
    · cases h
    · next y hy =>
      split at h
      · cases h
      · next z hz =>
        cases h
        rw [noteAll_append]
        exact ih (b := z.2.1) (ns := z.2.2) (removeHookById_inv (b := y.2.1) (ns := y.2.2) hw hy) hz
          (removeHookById_ctx (b := y.2.1) (ns := y.2.2) hw hy hc)

/-! ### unloading -/

theorem noteAll_cleanup (l : List Note) (c : Ctx) (h : ∀ n ∈ l, ∃ o, n = Note.cleanup o) : noteAll l c = c := by
  induction l generalizing c with
  | nil => rfl
  | cons n l ih =>
    obtain ⟨o, rfl⟩ := h n (List.mem_cons_self ..)
    rw [noteAll_cons]
    exact ih _ (fun n hn => h n (List.mem_cons_of_mem _ hn))

theorem removeHmLoop_notes {E : Env} {hmo : Nat} (vs : List Nat) {r r' : Reg} {ns : List Note}
    (h : removeHmLoop E hmo vs r = .ok (r', ns)) : ∀ n ∈ ns, ∃ o, n = Note.cleanup o := by
  induction vs generalizing r r' ns with
  | nil => cases h; intro n hn; cases hn
  | cons v vs ih =>
    unfold removeHmLoop at h
    simp only [bind, Except.bind] at h
    split at h
    · cases h
    · next y hy =>
      split at h
      · exact ih h
      · split at h
        · cases h
        · split at h
          · cases h
          · next z hz =>
            split at h
            · cases h
            · next w hw =>
              cases h
              intro n hn
              rcases List.mem_append.1 hn with hn | hn
              · exact (revertAndRemoveVfn_vfns (r' := z.1) (ns := z.2) hz).2 n hn
              · exact ih (r' := w.1) (ns := w.2) hw n hn

theorem removeHookManO_notes {E : Env} {hmo : Nat} {r r' : Reg} {ns : List Note}
    (h : removeHookManO E r hmo = .ok (r', ns)) : ∀ n ∈ ns, ∃ o, n = Note.cleanup o := by
  unfold removeHookManO at h
  simp only [bind, Except.bind] at h
  split at h
  · cases h
  · next y hy => cases h; exact removeHmLoop_notes (r' := y.1) (ns := y.2) _ hy

theorem removeHookManO_evo {E : Env} {mem0 : Addr → Addr} {hmo : Nat} {r r' : Reg} {ns : List Note}
    (hw : RegInv E mem0 r) {plug : Plugin} {pub : PubFunc} {info : Info} (hh : HasHm r hmo plug pub info)
    (hno : ∀ p, ¬ OnlyHm r hmo p) (h : removeHookManO E r hmo = .ok (r', ns)) (N : Addr → Prop) : Evo N r r' := by
  obtain ⟨r1, ns1, g1, g2, g3, g4, g5, g6, g7, g8, D, hD1, hD2⟩ := removeHookManO_spec hmo hw hh
  rw [g1] at h; cases h
  intro v hv
  obtain ⟨i, hi, s, k, hk⟩ := hw.someHook hv
  have hkv := view_intro hw.s hv hi hk
  rw [← g6 _ _ _ (hno _)] at hkv
  obtain ⟨v', hv', hp, _⟩ := view_elim hkv
  obtain ⟨y, hy, q1, q2, q3, q4, _⟩ := g4 v' hv'
  have : y = v := nodup_key_inj hw.s.vptr hy hv (q2.trans hp)
  subst this
  exact ⟨v', hv', q1.symm, hp, q4.symm,
    fun i hi => ⟨i, q3 ▸ hi, rfl, rfl, fun s => ⟨fun h => h, [], fun _ => rfl, by simp, by simp⟩⟩,
    fun i hi => Or.inl ⟨i, q3 ▸ hi, rfl, rfl⟩⟩

theorem removeHms_evo {E : Env} {mem0 : Addr → Addr} (plug : Plugin) (os : List Nat) (hnd : os.Nodup) {r r' : Reg}
    {ns : List Note} (hw : RegInv E mem0 r) (hown : OwnInv r) (hno : ∀ p a s, ∀ h ∈ view r p a s, h.plug ≠ plug)
    (hos : ∀ o ∈ os, ∃ b c, HasHm r o plug b c) (h : removeHms E os r = .ok (r', ns)) (N : Addr → Prop) :
    Evo N r r' ∧ ∀ n ∈ ns, ∃ o, n = Note.cleanup o := by
  induction os generalizing r r' ns with
  | nil => cases h; exact ⟨Evo.refl N r, by simp⟩
  | cons o os ih =>
    rw [List.nodup_cons] at hnd
    obtain ⟨b, c, hh⟩ := hos o (List.mem_cons_self ..)
    have hnoOnly : ∀ p, ¬ OnlyHm r o p := by
      rintro p ⟨v, hv, _, hhm⟩
      obtain ⟨i, hi, s, k, hk⟩ := hw.someHook hv
      obtain ⟨o', ho', pub, info, hh'⟩ := hown v hv i hi s k hk
      rw [hhm] at ho'
      simp at ho'; subst ho'
      exact hno _ _ _ k (view_intro hw.s hv hi hk) (hasHm_fun hw.ref.oid hh' hh).1
    obtain ⟨r1, ns1, g1, g2, g3, g4, g5, g6, g7, g8⟩ := removeHms_spec (E := E) plug [o] (by simp) hw hown hno
      (by intro x hx; simp at hx; subst hx; exact ⟨b, c, hh⟩)
    unfold removeHms at g1 h
    simp only [bind, Except.bind] at g1 h
    split at g1
    · cases g1
    · next y hy =>
      rw [hy] at h
      simp only [removeHms] at g1
      cases g1
      simp only at h
      split at h
      · cases h
      · next z hz =>
        cases h
        obtain ⟨k1, k2⟩ := ih hnd.2 (r' := z.1) (ns := z.2) g2 g3 (by rw [g4]; exact hno) (by
          intro o' ho'
          obtain ⟨b, c, hh'⟩ := hos o' (List.mem_cons_of_mem _ ho')
          exact ⟨b, c, (g6 ..).2 ⟨hh', by simp; rintro rfl; exact hnd.1 ho'⟩⟩) hz
        refine ⟨(removeHookManO_evo (ns := y.2) hw hh hnoOnly hy N).trans k1 g7, ?_⟩
        intro n hn
        rcases List.mem_append.1 hn with hn | hn
        · exact removeHookManO_notes (r' := y.1) (ns := y.2) hy n hn
        · exact k2 n hn

/-- Unloading a plugin keeps every context valid, provided every hook's owner still has a manager. -/
theorem unloadReg_ctx {E : Env} {mem0 : Addr → Addr} {r r' : Reg} {plug : Plugin} {ns : List Note}
    (hw : RegInv E mem0 r) (hown : OwnInv r) (h : unloadReg E r plug = .ok (r', ns)) {log : List Ev}
    (hold : Old r log) {c : Ctx} (hc : CtxOk r log c) : CtxOk r' log (noteAll ns c) := by
  unfold unloadReg at h
  simp only [bind, Except.bind] at h
  split at h
  · cases h
  · next y hy =>
    split at h
    · cases h
    · next z hz =>
      obtain ⟨r1, b, ns1, g1, g2, g3, g4, g5, g6, g7, g8, D, hD1, hD2⟩ :=
        removeIds_spec (E := E) (idFindPlug r.entries plug) hw
      rw [g1] at hy; cases hy
      cases h
      have hno1 : ∀ p a s, ∀ h ∈ view r1 p a s, h.plug ≠ plug := by
        intro p a s h hh hc
        rw [g3] at hh
        obtain ⟨k1, k2⟩ := mem_keepV.1 hh
        obtain ⟨e, q1, _, _, _, q2, _⟩ := hw.ids.entry p a s h k1
        simp at k2
        exact k2 ((mem_idFindPlug ..).2 ⟨e, q1, by rw [q2, hc]⟩)
      have hown1 := g8.own g6 hown
      obtain ⟨k1, k2⟩ := removeHms_evo plug _ (nodup_map_filter _ g2.ref.oid) (r' := z.1) (ns := z.2) g2 hown1 hno1 (by
        intro o ho
        obtain ⟨h, hh, rfl⟩ := List.mem_map.1 ho
        rw [List.mem_filter] at hh
        exact ⟨h.pub, h.info, h, hh.1, rfl, by simpa using hh.2, rfl, rfl⟩) hz (fun _ => False)
      obtain ⟨r2, ns2, q1, q2, _⟩ := removeHms_spec (E := E) plug ((r1.hms.filter (·.plug == plug)).map HookMan.oid)
        (nodup_map_filter _ g2.ref.oid) g2 hown1 hno1 (by
        intro o ho
        obtain ⟨h, hh, rfl⟩ := List.mem_map.1 ho
        rw [List.mem_filter] at hh
        exact ⟨h.pub, h.info, h, hh.1, rfl, by simpa using hh.2, rfl, rfl⟩)
      rw [q1] at hz; cases hz
      rw [noteAll_append, noteAll_cleanup _ _ k2]
      exact (removeIds_ctx _ hw g1 hc).evo g2.s q2.s (by intro c g n hn; rw [g7]; exact hold c g n hn) k1
        (fun _ _ _ _ h => h)

end Verif.SH
